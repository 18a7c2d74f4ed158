import Verif.Proofs.LLL
import Verif.Props.RowOps

/-!
# C02, C05: LLL on arbitrary floating-point arithmetic

Nothing is assumed about the floats: rounding errors, overflows, NaNs, wrong comparisons are all allowed.
-/

namespace Fplll

open Spec GSO LLL

variable {F : Type} [FloatOps F]

/-- what a caller sees of a unimodular change: same lattice, exact transform, exact inverse transform,
exact Gram matrix -/
theorem History.claims {d n : ℕ} (hn : 1 ≤ n) (ig wu wi fl : Bool) (b jz : Mat ℤ) (jf : Mat F)
    {ops : List (Op F)} {s s' : GSO F} (h : History (mk0 d n ig wu wi fl b idMat idMat jz jf) ops s)
    (g' : WF s → Good s s') :
    lattice (toM d n s'.b) = lattice (toM d n b) ∧
    (wu = true → toM d n s'.b = toM d d s'.u * toM d n b ∧ Unimodular (toM d d s'.u)) ∧
    (wu = true → wi = true → toM d d s'.u * (toM d d s'.uInvT).transpose = 1) ∧
    (ig = true → ∀ i < s'.nKnownRows, ∀ j < s'.nKnownRows,
      symGet s'.g i j = ∑ c ∈ Finset.range n, s'.b i c * s'.b j c) := by
  obtain ⟨hwf, hb, hu, hv, hd, hc, hg, hwu, hwi, hk, hl⟩ :=
    mk0_wf d n ig wu wi fl b idMat idMat jz jf hn
  have g0 := h.good hwf
  have g := g0.trans (g' g0.wf)
  obtain ⟨T, T', a1, a2, a3, a4, a5⟩ := g.uni
  have gram : ig = true → ∀ i < s'.nKnownRows, ∀ j < s'.nKnownRows,
      symGet s'.g i j = ∑ c ∈ Finset.range n, s'.b i c * s'.b j c := by
    intro hG i hi j hj
    have := g.wf.gram (g.cfg.intGram.trans (hg.trans hG)) i hi j hj
    rw [this]; unfold GSO.ip; rw [g.cfg.nCols, hc]
  generalize mk0 d n ig wu wi fl b idMat idMat jz jf = s0 at *
  subst hd hc hwu hwi
  rw [hb] at a3
  rw [hu, toM_idMat, Matrix.mul_one] at a4
  rw [hv, toM_idMat, Matrix.mul_one] at a5
  refine ⟨?_, ?_, ?_, gram⟩
  · rw [a3]; exact lattice_mul ⟨T', a1, a2⟩ _
  · intro h1; rw [a4 h1]; exact ⟨a3, ⟨T', a1, a2⟩⟩
  · intro h1 h2; rw [a4 h1, a5 h1 h2, Matrix.transpose_transpose, a1]

/-- **C02.**  Whatever the floating-point type does, whatever the parameters, the iteration limit and
the outcome (success or any failure), a call `lll(kappa_min, kappa_start, kappa_end,
size_reduction_start)` on an object with any legal history leaves a basis of the same
lattice, with the tracked transform, inverse transform and integer Gram matrix exact. -/
theorem C02_lll_lattice {d n : ℕ} (hn : 1 ≤ n) (ig wu wi fl : Bool) (b jz : Mat ℤ) (jf : Mat F)
    (ops : List (Op F)) (s : GSO F) (h : History (mk0 d n ig wu wi fl b idMat idMat jz jf) ops s)
    (hl : s.colsLocked = false) (kmin kstart kend srs : ℕ) (h1 : kmin ≤ kstart) (h2 : kstart < kend)
    (h3 : kend ≤ s.d)
    (h4 : kstart = 0 ∨ ((∃ c < s.nCols, s.b 0 c ≠ 0) ∧ kstart ≤ s.nKnownRows))
    (c : LLLCfg F) (fuel maxIter last : ℕ) :
    let s' := (lll c fuel maxIter last s kmin kstart kend srs).2.s
    lattice (toM d n s'.b) = lattice (toM d n b) ∧
    (wu = true → toM d n s'.b = toM d d s'.u * toM d n b ∧ Unimodular (toM d d s'.u)) ∧
    (wu = true → wi = true → toM d d s'.u * (toM d d s'.uInvT).transpose = 1) ∧
    (ig = true → ∀ i < s'.nKnownRows, ∀ j < s'.nKnownRows,
      symGet s'.g i j = ∑ c ∈ Finset.range n, s'.b i c * s'.b j c) := by
  refine h.claims hn ig wu wi fl b jz jf (fun hwf => lll_good c fuel maxIter last srs ⟨hwf, hl, h1, h2, h3, ?_⟩)
  rcases h4 with h4 | ⟨⟨c, hc, hne⟩, h5⟩
  · exact .inl h4
  · refine .inr ⟨?_, h5⟩
    unfold rowIsZero
    rw [decide_eq_false_iff_not]
    intro hz; exact hne (hz c hc)

/-- **C02 (size reduction).**  The same for `size_reduction(kappa_min, kappa_end, ..)` over rows that
are known up to `kappa_min`. -/
theorem C02_size_reduction_lattice {d n : ℕ} (hn : 1 ≤ n) (ig wu wi fl : Bool) (b jz : Mat ℤ) (jf : Mat F)
    (ops : List (Op F)) (s : GSO F) (h : History (mk0 d n ig wu wi fl b idMat idMat jz jf) ops s)
    (hl : s.colsLocked = false) (kmin kend srs : ℕ) (h1 : kmin ≤ kend) (h3 : kend ≤ s.d)
    (h4 : kmin ≤ s.nKnownRows) (c : LLLCfg F) (fuel : ℕ) :
    let s' := (sizeReductionLoop c fuel srs (kend - kmin) kmin s).2
    lattice (toM d n s'.b) = lattice (toM d n b) ∧
    (wu = true → toM d n s'.b = toM d d s'.u * toM d n b ∧ Unimodular (toM d d s'.u)) ∧
    (wu = true → wi = true → toM d d s'.u * (toM d d s'.uInvT).transpose = 1) ∧
    (ig = true → ∀ i < s'.nKnownRows, ∀ j < s'.nKnownRows,
      symGet s'.g i j = ∑ c ∈ Finset.range n, s'.b i c * s'.b j c) :=
  h.claims hn ig wu wi fl b jz jf
    (fun hwf => sizeReductionLoop_good c fuel srs _ _ _ hwf hl (by omega) h4)

/-- **C05 (termination, any floats).**  `lll` never runs for ever: each call of Babai's loop ends after
fewer than `2^62` iterations, because the failure test on the exponents forces the largest exponent
(a 64-bit integer) to drop by 5 each time; the main loop is bounded by `max_iter`.  With that much fuel the
model never reports `outOfFuel`; the outcome is one of the four statuses of the C++ code. -/
theorem C05_lll_terminates (c : LLLCfg F) (fuel : ℕ) (hf : 2 ^ 62 ≤ fuel) (maxIter last : ℕ) (s : GSO F)
    (kmin kstart kend srs : ℕ) :
    (lll c fuel maxIter last s kmin kstart kend srs).1 ≠ .outOfFuel ∧
    (sizeReductionLoop c fuel srs (kend - kmin) kmin s).1 ≠ .outOfFuel ∧
    (∀ kappa stop, (babai c fuel s kappa stop srs).1 ≠ .outOfFuel) :=
  ⟨lll_fuel c fuel hf maxIter last s kmin kstart kend srs,
   sizeReductionLoop_fuel c fuel hf srs _ _ s, fun kappa stop => babai_fuel c fuel hf s kappa stop srs⟩

/-- Non-vacuity of C02: the standard call `lll()` on a fresh object for any non-empty basis. -/
example (b jz : Mat ℤ) (jf : Mat F) (c : LLLCfg F) :
    lattice (toM 3 4 (lll c (2 ^ 62) 1000 0 (mk0 3 4 true true true false b idMat idMat jz jf) 0 0 3 0).2.s.b) =
      lattice (toM 3 4 b) := by
  obtain ⟨hwf, hb, hu, hv, hd, hc, hg, hwu, hwi, hk, hl⟩ :=
    mk0_wf 3 4 true true true false b idMat idMat jz jf (by norm_num)
  exact (C02_lll_lattice (by norm_num) true true true false b jz jf [] _ (.nil _) hl 0 0 3 0 le_rfl (by norm_num)
    (by rw [hd]) (.inl rfl) c (2 ^ 62) 1000 0).1

end Fplll

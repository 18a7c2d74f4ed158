import Verif.Proofs.BKZSvp
import Verif.Props.LLLLattice

/-!
# C22: BKZ never leaves the input lattice

Nothing is assumed about the floats, the random numbers, the enumeration, the timers or the strategies' probabilities.
-/

namespace Fplll

open Spec GSO LLL BKZ

variable {F : Type} [FloatOps F] {D : Type} [LinearOrder D] [OrderTop D]

/-- an outcome other than undefined behaviour, in a state -/
def StopsIn {α : Type} (m : Out (W F) α) (w : W F) : Prop := (∃ a, m = .ok a w) ∨ m = .thrown w ∨ m = .stuck w

theorem BKZ.Out.All.stopsIn {α : Type} {m : Out (W F) α} {P Q : W F → Prop} (h : m.All P Q) {w : W F} (hw : StopsIn m w) : P w := by
  rcases hw with ⟨a, rfl⟩ | rfl | rfl <;> exact h

/-- **C22.**  Take an object with any legal history, and run `BKZReduction::bkz()` (plain, self-dual or slide, with any flags) on it.
Whatever the floating-point type does, whatever vectors enumeration returns, whatever the random numbers, the timer,
the slopes and the preprocessing block sizes are, and wherever the run stops (success, tour limit, time limit, abort, an
escaping exception, or after any number of steps of a run that does not end), the basis generates the input lattice, has the same
size and the integer Gram matrix is exact. -/
theorem C22_bkz_lattice {d n : ℕ} (hn : 1 ≤ n) (ig wu wi fl : Bool) (b jz : Mat ℤ) (jf : Mat F)
    (ops : List (Op F)) (s : GSO F) (h : History (mk0 d n ig wu wi fl b idMat idMat jz jf) ops s) (hl : s.colsLocked = false)
    (c : SvpCfg F) (o : Orc F) (cfg : Cfg D) (timeUp : ℕ → W F → Bool) (slope : ℕ → W F → D) (depth inner fuel : ℕ)
    (hrow : ∃ i < d, ∃ k < n, s.b i k ≠ 0) (hsd : cfg.sd = true → cfg.blockSize ≤ numRows s s.d) (hpre : ∀ bs, ∀ p ∈ o.preproc bs, 1 ≤ p)
    (w w' : W F) (hw : w.s = s) (hout : StopsIn (runBKZ c o cfg timeUp slope depth inner fuel w) w') :
    lattice (toM d n w'.s.b) = lattice (toM d n b) ∧ w'.s.d = d ∧ w'.s.nCols = n ∧
    (ig = true → ∀ i < w'.s.nKnownRows, ∀ j < w'.s.nKnownRows, symGet w'.s.g i j = ∑ k ∈ Finset.range n, w'.s.b i k * w'.s.b j k) := by
  obtain ⟨hwf, hb, hu, hv, hd, hc, hg, hwu, hwi, hk, hl0⟩ := mk0_wf d n ig wu wi fl b idMat idMat jz jf hn
  have g0 := h.good hwf
  have hsd' : s.d = d := g0.cfg.d.trans hd
  have hsc : s.nCols = n := g0.cfg.nCols.trans hc
  have hnum : 1 ≤ numRows s s.d := by
    obtain ⟨i, hi, k, hk, hne⟩ := hrow
    by_contra hcon
    exact hne (numRows_spec s s.d i (by omega) (by omega) k (by omega))
  subst hw
  obtain ⟨hcfg, hwf', hB, _⟩ := (runBKZ_all (Q := fun _ => True) c o cfg timeUp slope depth inner fuel w g0.wf hl hnum hsd hpre
    fun _ _ _ _ _ _ _ => trivial).stopsIn hout
  have h1 := (h.claims hn ig wu wi fl b jz jf (fun hwf => .refl hwf)).1
  refine ⟨?_, hcfg.d.trans hsd', hcfg.nCols.trans hsc, fun hG i hi j hj => ?_⟩
  · obtain ⟨T, T', a1, a2, a3⟩ := hB
    generalize w.s = s at *
    subst hsd' hsc
    rw [a3, lattice_mul ⟨T', a1, a2⟩, h1]
  · have := hwf'.gram (hcfg.intGram.trans (g0.cfg.intGram.trans (hg.trans hG))) i hi j hj
    rw [this]; unfold GSO.ip; rw [hcfg.nCols, hsc]

/-- **C22 (rows in range).**  If in addition enumeration never returns a vector whose only non-zero coordinate (among those of the
block) is not `±1`, no row outside the basis is ever used. -/
theorem C22_bkz_no_ub {d n : ℕ} (hn : 1 ≤ n) (ig wu wi fl : Bool) (b jz : Mat ℤ) (jf : Mat F)
    (ops : List (Op F)) (s : GSO F) (h : History (mk0 d n ig wu wi fl b idMat idMat jz jf) ops s) (hl : s.colsLocked = false)
    (c : SvpCfg F) (o : Orc F) (cfg : Cfg D) (timeUp : ℕ → W F → Bool) (slope : ℕ → W F → D) (depth inner fuel : ℕ)
    (hrow : ∃ i < d, ∃ k < n, s.b i k ≠ 0) (hsd : cfg.sd = true → cfg.blockSize ≤ numRows s s.d) (hpre : ∀ bs, ∀ p ∈ o.preproc bs, 1 ≤ p)
    (hsol : ∀ t kappa bs dual s x, o.enum t kappa bs dual s = some x → ¬ LoneNonUnit x bs.toNat) (w w' : W F) (hw : w.s = s) :
    runBKZ c o cfg timeUp slope depth inner fuel w ≠ .ub w' := by
  obtain ⟨hwf, hb, hu, hv, hd, hc, hg, hwu, hwi, hk, hl0⟩ := mk0_wf d n ig wu wi fl b idMat idMat jz jf hn
  have g0 := h.good hwf
  have hsd' : s.d = d := g0.cfg.d.trans hd
  have hsc : s.nCols = n := g0.cfg.nCols.trans hc
  have hnum : 1 ≤ numRows s s.d := by
    obtain ⟨i, hi, k, hk, hne⟩ := hrow
    by_contra hcon
    exact hne (numRows_spec s s.d i (by omega) (by omega) k (by omega))
  subst hw
  have key := runBKZ_all (Q := fun _ => False) c o cfg timeUp slope depth inner fuel w g0.wf hl hnum hsd hpre
    fun w x kappa bs dual hx hlone => hsol _ _ _ _ _ _ hx hlone
  intro e
  rw [e] at key
  exact key

/-- **C22 (transforms, partial).**  The transforms `u` and `u_inv_t` follow the basis as long as no generic insertion has
negated a row, and none was done while `u_inv_t` is kept.  Missing: in those two cases they do not,
see `C22_transform_violated`. -/
theorem C22_transform_partial {d n : ℕ} (hn : 1 ≤ n) (ig wu wi fl : Bool) (b jz : Mat ℤ) (jf : Mat F)
    (ops : List (Op F)) (s : GSO F) (h : History (mk0 d n ig wu wi fl b idMat idMat jz jf) ops s) (hl : s.colsLocked = false)
    (c : SvpCfg F) (o : Orc F) (cfg : Cfg D) (timeUp : ℕ → W F → Bool) (slope : ℕ → W F → D) (depth inner fuel : ℕ)
    (hrow : ∃ i < d, ∃ k < n, s.b i k ≠ 0) (hsd : cfg.sd = true → cfg.blockSize ≤ numRows s s.d) (hpre : ∀ bs, ∀ p ∈ o.preproc bs, 1 ≤ p)
    (w w' : W F) (hw : w.s = s) (hbad : w.bad = false) (hout : StopsIn (runBKZ c o cfg timeUp slope depth inner fuel w) w')
    (hbad' : w'.bad = false) :
    (wu = true → toM d n w'.s.b = toM d d w'.s.u * toM d n b ∧ Unimodular (toM d d w'.s.u)) ∧
    (wu = true → wi = true → toM d d w'.s.u * (toM d d w'.s.uInvT).transpose = 1) := by
  obtain ⟨hwf, hb, hu, hv, hd, hc, hg, hwu, hwi, hk, hl0⟩ := mk0_wf d n ig wu wi fl b idMat idMat jz jf hn
  have g0 := h.good hwf
  have hsd' : s.d = d := g0.cfg.d.trans hd
  have hsc : s.nCols = n := g0.cfg.nCols.trans hc
  have hnum : 1 ≤ numRows s s.d := by
    obtain ⟨i, hi, k, hk, hne⟩ := hrow
    by_contra hcon
    exact hne (numRows_spec s s.d i (by omega) (by omega) k (by omega))
  subst hw
  obtain ⟨hcfg, hwf', hB, hU⟩ := (runBKZ_all (Q := fun _ => True) c o cfg timeUp slope depth inner fuel w g0.wf hl hnum hsd hpre
    fun _ _ _ _ _ _ _ => trivial).stopsIn hout
  have := h.claims hn ig wu wi fl b jz jf (s' := w'.s) (fun hwf => ⟨hwf', hcfg, hU hbad hbad'⟩)
  exact ⟨this.2.1, this.2.2.1⟩

/-! ## Concrete cases -/

/-- exact arithmetic; the enumeration always returns `x` -/
def exOrc (x : ℕ → Exact) : Orc Exact :=
  { rnd := id, enum := fun _ _ _ _ _ => some x, more := fun _ it => decide (it = 0), maxIter := fun _ => 100
    preproc := fun _ => [], noProgress := fun _ => true }

/-- the coefficients `2, -3` -/
def exSol : ℕ → Exact := fun i => if i = 0 then some 2 else some (-3)

/-- plain BKZ, one tour -/
def exBkz (bs : ℤ) : Cfg (WithTop ℕ) := ⟨bs, false, false, some 1, false, false, false, id, 5⟩

/-- the LLL parameters -/
def exSvp : SvpCfg Exact := ⟨⟨some (51 / 100), some (99 / 100), false, false⟩, 2, 20, 1⟩

/-- a new object for `(1, 0), (0, 1)` -/
def exObj (wu wi : Bool) : GSO Exact := mk0 2 2 true wu wi false idMat idMat idMat (fun _ _ => 0) (fun _ _ => none)

def exRun (x : ℕ → Exact) (wu wi : Bool) : Out (W Exact) (Status × ℕ) :=
  runBKZ exSvp (exOrc x) (exBkz 2) (fun _ _ => false) (fun _ _ => ⊤) 2 20 20 ⟨exObj wu wi, 0, 0, false⟩

def exTab (m : Out (W Exact) (Status × ℕ)) (f : GSO Exact → Mat ℤ) : List ℤ := [f m.state.s 0 0, f m.state.s 0 1, f m.state.s 1 0, f m.state.s 1 1]

/-- the run ends normally after one tour, with the vector `2 b₀ - 3 b₁` first -/
example : (∃ w, exRun exSol false false = .ok (.success, 1) w) ∧ exTab (exRun exSol false false) (·.b) = [2, -3, 1, -1] := by
  refine ⟨?_, by decide +kernel⟩
  have h : (match exRun exSol false false with | .ok a _ => decide (a = (.success, 1)) | _ => false) = true := by decide +kernel
  generalize exRun exSol false false = m at h
  cases m <;> simp_all

/-- it meets the hypotheses of `C22_bkz_lattice` -/
example : lattice (toM 2 2 (exRun exSol true true).state.s.b) = lattice (toM 2 2 idMat) := by
  obtain ⟨hwf, hb, hu, hv, hd, hc, hg, hwu, hwi, hk, hl⟩ :=
    mk0_wf 2 2 true true true false idMat idMat idMat (fun _ _ => 0) (fun _ _ => (none : Exact)) (by norm_num)
  refine (C22_bkz_lattice (by norm_num) true true true false idMat _ _ [] (exObj true true) (.nil _) hl exSvp (exOrc exSol) (exBkz 2)
    (fun _ _ => false) (fun _ _ => ⊤) 2 20 20 ⟨0, by norm_num, 0, by norm_num, by decide +kernel⟩ nofun nofun
    ⟨exObj true true, 0, 0, false⟩ _ rfl ?_).1
  have h : (match exRun exSol true true with | .ok _ _ => true | _ => false) = true := by decide +kernel
  change StopsIn (exRun exSol true true) _
  generalize exRun exSol true true = m at h
  cases m with
  | ok a w => exact .inl ⟨a, rfl⟩
  | thrown w => cases h
  | ub w => cases h
  | stuck w => cases h

/-- **C22 violated for the transform.**  With a transform kept (and no inverse), a run of BKZ on the identity basis whose enumeration returns
the coefficients `2, -3` ends with a transform that is not the one applied to the basis: `negate_row_of_b` (bkz.cpp:218) does
not touch `u`. -/
theorem C22_transform_violated :
    (∃ a w, exRun exSol true false = .ok a w) ∧
    toM 2 2 (exRun exSol true false).state.s.b ≠ toM 2 2 (exRun exSol true false).state.s.u * toM 2 2 idMat := by
  constructor
  · have h : (match exRun exSol true false with | .ok _ _ => true | _ => false) = true := by decide +kernel
    generalize exRun exSol true false = m at h
    cases m <;> simp_all
  · rw [toM_idMat, Matrix.mul_one]
    intro h
    have h1 : (exRun exSol true false).state.s.b 0 1 = (exRun exSol true false).state.s.u 0 1 := congrFun (congrFun h 0) 1
    exact absurd h1 (by decide +kernel)

/-- the coefficients `2, 3` -/
def exSol' : ℕ → Exact := fun i => if i = 0 then some 2 else some 3

/-- **C22 violated for the inverse transform.**  No row is negated, `u` is right, but `u_inv_t` is not its inverse transpose:
`row_swap` (gso.cpp:264-287) does not touch it. -/
theorem C22_inverse_violated :
    (∃ a w, exRun exSol' true true = .ok a w) ∧
    toM 2 2 (exRun exSol' true true).state.s.b = toM 2 2 (exRun exSol' true true).state.s.u * toM 2 2 idMat ∧
    toM 2 2 (exRun exSol' true true).state.s.u * (toM 2 2 (exRun exSol' true true).state.s.uInvT).transpose ≠ 1 := by
  refine ⟨?_, ?_, ?_⟩
  · have h : (match exRun exSol' true true with | .ok _ _ => true | _ => false) = true := by decide +kernel
    generalize exRun exSol' true true = m at h
    cases m <;> simp_all
  · rw [toM_idMat, Matrix.mul_one]
    have h : ∀ i : Fin 2, ∀ j : Fin 2, (exRun exSol' true true).state.s.b i j = (exRun exSol' true true).state.s.u i j := by decide +kernel
    funext i j
    exact h i j
  · intro h
    have h1 := congrFun (congrFun h 0) 0
    rw [Matrix.mul_apply, Fin.sum_univ_two, Matrix.one_apply_eq] at h1
    change (exRun exSol' true true).state.s.u 0 0 * (exRun exSol' true true).state.s.uInvT 0 0 +
      (exRun exSol' true true).state.s.u 0 1 * (exRun exSol' true true).state.s.uInvT 0 1 = 1 at h1
    exact absurd h1 (by decide +kernel)

/-- the coefficients `2, 0` -/
def exLone : ℕ → Exact := fun i => if i = 0 then some 2 else some 0

/-- **C22 (row -1).**  If the enumeration returns a proper multiple of a basis vector, insertion moves row `kappa - 1`. -/
theorem C22_lone_ub : ∃ w, exRun exLone false false = .ub w := by
  have h : (match exRun exLone false false with | .ub _ => true | _ => false) = true := by decide +kernel
  generalize exRun exLone false false = m at h
  cases m with
  | ub w => exact ⟨w, rfl⟩
  | ok a w => cases h
  | thrown w => cases h
  | stuck w => cases h

end Fplll

import Verif.Proofs.Insert
import Verif.Props.BKZSvp

/-!
# C78: randomising a block
-/

namespace Fplll
namespace BKZ

open FloatOps GSO LLL Spec

variable {F : Type} [FloatOps F]

/-- invariant of randomisation: unimodular steps within the first `m` rows from `lo` on -/
def RInv (s0 : GSO F) (lo m : ℕ) (w : W F) : Prop := Inv s0 w ∧ SameBlock s0.nCols lo m s0.b w.s.b

omit [FloatOps F] in
theorem RInv.cols {s0 : GSO F} {lo m : ℕ} {w : W F} (h : RInv s0 lo m w) : w.s.nCols = s0.nCols := h.1.cfg.nCols

omit [FloatOps F] in
theorem drawOther_rinv (o : Orc F) {s0 : GSO F} {l k : ℕ} {w : W F} (h : RInv s0 l k w) (lo : ℕ) {m : ℕ} (hm : 1 ≤ m) (a n : ℕ) :
    (drawOther o lo m a n w).AllR (RInv s0 l k) (fun _ => False) (fun b => lo ≤ b ∧ b < lo + m) := by
  induction n generalizing w with
  | zero => exact h
  | succ n ih =>
    rw [drawOther]
    split_ifs
    · exact ih (w := w.tick) h
    · have := Nat.mod_lt (o.rnd w.t) hm
      exact ⟨h, by omega, by omega⟩

theorem permuteLoop_rinv (c : SvpCfg F) (o : Orc F) {s0 : GSO F} {lo m : ℕ} (hm : 1 ≤ m) (hd : lo + m ≤ s0.d) (n : ℕ) {w : W F}
    (h : RInv s0 lo m w) : (permuteLoop c o lo m n w).All (RInv s0 lo m) (fun _ => False) := by
  induction n generalizing w with
  | zero => exact h
  | succ n ih =>
    rw [permuteLoop]
    have ha := Nat.mod_lt (o.rnd w.t) hm
    generalize o.rnd w.t % m = a at ha
    refine (drawOther_rinv o (w := w.tick) h lo hm (a + lo) _).bind fun b w hb hw => ih ⟨hw.1.keep (moveRow_keep hw.1.full ?_ ?_), ?_⟩
    · rw [hw.1.d]; omega
    · rw [hw.1.d]; omega
    · exact hw.2.trans (moveRow_sameBlock _ _ (by omega) (by omega))

theorem mixLoop_rinv (o : Orc F) {s0 : GSO F} (density : ℕ) {lo hi : ℕ} (hd : hi ≤ s0.d) {w : W F} (h : RInv s0 lo (hi - lo - 1) w) :
    RInv s0 lo (hi - lo - 1) (mixLoop o density lo hi w) := by
  unfold mixLoop
  refine forUp_inv' (RInv s0 lo (hi - lo - 1)) _ _ _ _ h fun a w hlo ha hw => ?_
  refine forUp_inv' (RInv s0 lo (hi - lo - 1)) _ _ _ _ hw fun _ w _ _ hw => ?_
  unfold mixStep
  have hm := Nat.mod_lt (o.rnd w.t) (show 0 < hi - (a + 1) - 1 by omega)
  generalize o.rnd w.t % (hi - (a + 1) - 1) = b at hm
  dsimp only
  have hd' := hw.1.d
  have ea : lo + (a - lo) = a := by omega
  have eb : lo + (b + a + 1 - lo) = b + a + 1 := by omega
  split_ifs
  · refine ⟨hw.1.keep (rowAdd_keep hw.1.full (by omega) (by omega) (by omega)), hw.2.trans ?_⟩
    refine SameBlock.add (i := a - lo) (j := b + a + 1 - lo) 1 (by omega) (by omega) (by omega) fun r c hc => ?_
    rw [ea, eb]
    exact rowAdd_b hw.1.full (by omega) r c (by rw [hw.cols]; exact hc)
  · refine ⟨hw.1.keep (rowSub_keep hw.1.full (by omega) (by omega) (by omega)), hw.2.trans ?_⟩
    refine SameBlock.add (i := a - lo) (j := b + a + 1 - lo) (-1) (by omega) (by omega) (by omega) fun r c hc => ?_
    rw [ea, eb]
    exact rowSub_b hw.1.full (by omega) r c (by rw [hw.cols]; exact hc)

theorem rerandomize_rinv (c : SvpCfg F) (o : Orc F) {s0 : GSO F} {lo hi : ℕ} (hd : hi ≤ s0.d) {w : W F} (h : RInv s0 lo (hi - lo - 1) w) :
    (rerandomize c o lo hi w).All (RInv s0 lo (hi - lo - 1)) (fun _ => False) := by
  unfold rerandomize
  by_cases h2 : hi - lo < 2
  · rw [if_pos h2]; exact h
  rw [if_neg h2]
  refine (permuteLoop_rinv c o (by omega) (by omega) _ h).bind fun _ w hw => ?_
  have hw' := mixLoop_rinv o c.density (lo := lo) hd hw
  refine ⟨hw'.1.keep (rowOpEnd_keep hw'.1.full _ _), ?_⟩
  have e : (((mixLoop o c.density lo hi w).s).rowOpEnd lo hi).b = (mixLoop o c.density lo hi w).s.b := (rowOpEnd_fo _ lo hi).b
  change SameBlock _ _ _ _ (((mixLoop o c.density lo hi w).s).rowOpEnd lo hi).b
  rw [e]
  exact hw'.2

omit [FloatOps F] in
theorem drawOther_not_thrown (o : Orc F) (lo m a n : ℕ) (w w' : W F) : drawOther o lo m a n w ≠ .thrown w' := by
  induction n generalizing w with
  | zero => intro h; cases h
  | succ n ih =>
    rw [drawOther]
    by_cases hb : o.rnd w.t % m + lo = a
    · rw [if_pos hb]; exact ih _
    · rw [if_neg hb]; intro h; cases h

omit [FloatOps F] in
theorem permuteLoop_not_thrown (c : SvpCfg F) (o : Orc F) (lo m n : ℕ) (w w' : W F) : permuteLoop c o lo m n w ≠ .thrown w' := by
  induction n generalizing w with
  | zero => intro h; cases h
  | succ n ih =>
    rw [permuteLoop]
    cases hx : drawOther o lo m (o.rnd w.t % m + lo) c.inner w.tick with
    | ok b w2 => exact ih _
    | thrown w2 => exact absurd hx (drawOther_not_thrown _ _ _ _ _ _ _)
    | ub w2 => intro h; cases h
    | stuck w2 => intro h; cases h

theorem rerandomize_not_thrown (c : SvpCfg F) (o : Orc F) (lo hi : ℕ) (w w' : W F) : rerandomize c o lo hi w ≠ .thrown w' := by
  unfold rerandomize
  by_cases h2 : hi - lo < 2
  · rw [if_pos h2]; intro h; cases h
  rw [if_neg h2]
  cases hx : permuteLoop c o lo (hi - lo - 1) (4 * (hi - lo)) w with
  | ok b w2 => intro h; cases h
  | thrown w2 => exact absurd hx (permuteLoop_not_thrown _ _ _ _ _ _ _)
  | ub w2 => intro h; cases h
  | stuck w2 => intro h; cases h

theorem sameBlock_le {n lo m m' : ℕ} (hm : m ≤ m') {b b' : ℕ → ℕ → ℤ} (h : SameBlock n lo m b b') :
    blockSpan n lo m' b' ≤ blockSpan n lo m' b := by
  refine blockSpan_le fun a ha => ?_
  by_cases hl : a < m
  · have h1 : rowV n b' (lo + a) ∈ blockSpan n lo m b' := row_mem b' hl
    rw [h.span] at h1
    have h2 : blockSpan n lo m b ≤ blockSpan n lo m' b := by
      refine Submodule.span_mono ?_
      rintro _ ⟨i, hi, rfl⟩
      exact ⟨i, by omega, rfl⟩
    exact h2 h1
  · rw [h.outside (lo + a) (by omega)]
    exact row_mem b ha

theorem sameBlock_mono {n lo m m' : ℕ} (hm : m ≤ m') {b b' : ℕ → ℕ → ℤ} (h : SameBlock n lo m b b') : SameBlock n lo m' b b' :=
  ⟨le_antisymm (sameBlock_le hm h) (sameBlock_le hm ⟨h.span.symm, fun r hr => (h.outside r hr).symm⟩), fun r hr => h.outside r (by omega)⟩

/-- **C78, the block.**  `rerandomize_block(lo, hi, density)`, wherever it stops: rows outside the block stay as they are, and the rows
of the block generate the same lattice - even without its last row, which is neither moved, changed nor added to others. -/
theorem C78_block (c : SvpCfg F) (o : Orc F) {lo hi : ℕ} {w : W F} (hf : Full w.s) (hd : hi ≤ w.s.d) :
    ∃ w', (rerandomize c o lo hi w = .ok () w' ∨ rerandomize c o lo hi w = .stuck w') ∧
      SameBlock w.s.nCols lo (hi - lo) w.s.b w'.s.b ∧ SameBlock w.s.nCols lo (hi - lo - 1) w.s.b w'.s.b := by
  have key := rerandomize_rinv c o (s0 := w.s) (lo := lo) hd (w := w) ⟨(Keep.refl hf).keeps _, .refl _ _ _ _⟩
  cases hr : rerandomize c o lo hi w with
  | ok a w' => rw [hr] at key; exact ⟨w', Or.inl rfl, sameBlock_mono (Nat.sub_le _ _) key.2, key.2⟩
  | thrown w' => exact absurd hr (rerandomize_not_thrown _ _ _ _ _ _)
  | ub w' => rw [hr] at key; exact key.elim
  | stuck w' => rw [hr] at key; exact ⟨w', Or.inr rfl, sameBlock_mono (Nat.sub_le _ _) key.2, key.2⟩

/-- **C78, the last row is never randomised.**  Row `hi - 1` of the block stays as it is. -/
theorem C78_last_row_violated (c : SvpCfg F) (o : Orc F) {lo hi : ℕ} {w w' : W F} (hf : Full w.s) (hd : hi ≤ w.s.d)
    (h : rerandomize c o lo hi w = .ok () w') : ∀ k < w.s.nCols, w'.s.b (hi - 1) k = w.s.b (hi - 1) k := by
  obtain ⟨w'', hw, -, hs⟩ := C78_block c o (lo := lo) hf hd
  rw [h] at hw
  rcases hw with hw | hw
  · cases hw
    intro k hk
    have := hs.outside (hi - 1) (by omega)
    exact congrFun this ⟨k, hk⟩
  · cases hw

omit [FloatOps F] in
theorem drawOther_one (o : Orc F) (lo n : ℕ) (w : W F) : ∃ w', drawOther o lo 1 lo n w = .stuck w' := by
  induction n generalizing w with
  | zero => exact ⟨w, rfl⟩
  | succ n ih =>
    rw [drawOther]
    rw [if_pos (by rw [Nat.mod_one, Nat.zero_add])]
    exact ih w.tick

/-- **C78, two rows.**  On exactly two rows `rerandomize_block` draws both row numbers from one value until they differ: it never
returns, whatever the random numbers are. -/
theorem C78_two_rows_violated (c : SvpCfg F) (o : Orc F) (lo : ℕ) (w : W F) : ∃ w', rerandomize c o lo (lo + 2) w = .stuck w' := by
  unfold rerandomize
  rw [if_neg (by omega)]
  have e1 : lo + 2 - lo - 1 = 1 := by omega
  have e2 : 4 * (lo + 2 - lo) = 7 + 1 := by omega
  rw [e1, e2, permuteLoop]
  dsimp only
  rw [Nat.mod_one, Nat.zero_add]
  obtain ⟨w', hw'⟩ := drawOther_one o lo c.inner w.tick
  rw [hw']
  exact ⟨w', rfl⟩

/-- **C78, `svp_reduction` with block size 3 hangs** as soon as an enumeration finds nothing and the success probability asks for
another one. -/
theorem C78_svp_violated (c : SvpCfg F) (o : Orc F) (bounded : Bool) (tour : ℤ → ℤ → ℤ → W F → Out (W F) Bool) (kappa : ℤ) (dual : Bool)
    (n it : ℕ) (w w1 : W F) (hm : o.more w.t it = true) (hp : preprocess c o bounded tour kappa 3 w.tick = .ok () w1)
    (he : o.enum w1.t kappa 3 dual w1.s = none) (hm' : o.more w1.tick.t (it + 1) = true) :
    ∃ w', svpLoop c o bounded tour kappa 3 dual n it false w = .stuck w' := by
  cases n with
  | zero => exact ⟨w, rfl⟩
  | succ n =>
    rw [svpLoop, if_neg (by rw [hm]; decide), if_neg (by decide)]
    dsimp only [Out.bind]
    rw [hp]
    dsimp only
    rw [he]
    dsimp only
    cases n with
    | zero => exact ⟨_, rfl⟩
    | succ n =>
      rw [svpLoop, if_neg (by rw [hm']; decide), if_pos rfl]
      obtain ⟨w', hw'⟩ := C78_two_rows_violated c o (kappa.toNat + 1) w1.tick.tick
      have e : kappa.toNat + (3 : ℤ).toNat = kappa.toNat + 1 + 2 := rfl
      rw [e, hw']
      exact ⟨w', rfl⟩

omit [FloatOps F] in
theorem drawOther_ends (o : Orc F) (lo m a n : ℕ) (w : W F) (h : ∃ j < n, o.rnd (w.t + j) % m + lo ≠ a) :
    ∃ b w', drawOther o lo m a n w = .ok b w' := by
  induction n generalizing w with
  | zero => obtain ⟨j, hj, _⟩ := h; omega
  | succ n ih =>
    rw [drawOther]
    by_cases hb : o.rnd w.t % m + lo = a
    · rw [if_pos hb]
      refine ih w.tick ?_
      obtain ⟨j, hj, hne⟩ := h
      cases j with
      | zero => exact absurd hb hne
      | succ j =>
        refine ⟨j, by omega, ?_⟩
        have : w.tick.t + j = w.t + (j + 1) := by change w.t + 1 + j = _; omega
        rw [this]; exact hne
    · rw [if_neg hb]; exact ⟨_, _, rfl⟩

/-- **C78, termination (partial).**  On three or more rows `rerandomize_block` returns when, in every window of `inner` random numbers,
at least two different residues occur.  Missing: two rows (see `C78_two_rows_violated`). -/
theorem C78_returns_partial (c : SvpCfg F) (o : Orc F) (lo hi : ℕ) (w : W F)
    (h : ∀ t v, ∃ j < c.inner, o.rnd (t + j) % (hi - lo - 1) ≠ v) : ∃ w', rerandomize c o lo hi w = .ok () w' := by
  unfold rerandomize
  by_cases h2 : hi - lo < 2
  · rw [if_pos h2]; exact ⟨w, rfl⟩
  rw [if_neg h2]
  have hp : ∀ n (w : W F), ∃ w', permuteLoop c o lo (hi - lo - 1) n w = .ok () w' := by
    intro n
    induction n with
    | zero => intro w; exact ⟨w, rfl⟩
    | succ n ih =>
      intro w
      rw [permuteLoop]
      obtain ⟨b, w', hw'⟩ := drawOther_ends o lo (hi - lo - 1) (o.rnd w.t % (hi - lo - 1) + lo) c.inner w.tick (by
        obtain ⟨j, hj, hne⟩ := h w.tick.t (o.rnd w.t % (hi - lo - 1))
        exact ⟨j, hj, by omega⟩)
      rw [hw']
      exact ih _
  obtain ⟨w', hw'⟩ := hp (4 * (hi - lo)) w
  rw [hw']
  exact ⟨_, rfl⟩

/-- three rows, random numbers `0, 1, 0, 1, …`: the hypothesis holds with windows of two -/
example (t v : ℕ) : ∃ j < 2, (fun t : ℕ => t) (t + j) % (3 - 0 - 1) ≠ v := by
  by_cases h : t % 2 = v
  · exact ⟨1, by omega, by dsimp only; omega⟩
  · exact ⟨0, by omega, by dsimp only; omega⟩

/-- a new object for the identity basis -/
def exId (d : ℕ) : GSO Exact := mk0 d d true false false false idMat idMat idMat (fun _ _ => 0) (fun _ _ => none)

/-- an enumeration that finds nothing and a success probability that is never reached -/
def exNone : Orc Exact := { exOrc exSol with enum := fun _ _ _ _ _ => none, more := fun _ _ => true }

/-- block size 3 on the identity basis of rank 3: the run hangs whatever the fuel -/
example (n : ℕ) (tour : ℤ → ℤ → ℤ → W Exact → Out (W Exact) Bool) :
    ∃ w', svpLoop exSvp exNone false tour 0 3 false n 0 false ⟨exId 3, 0, 0, false⟩ = .stuck w' := by
  have h : (match lllOp exSvp exNone 0 0 3 ⟨exId 3, 1, 0, false⟩ with | .ok r _ => r.1 | _ => false) = true := by decide +kernel
  cases hx : lllOp exSvp exNone 0 0 3 ⟨exId 3, 1, 0, false⟩ with
  | ok r w1 =>
    rw [hx] at h
    refine C78_svp_violated exSvp exNone false tour 0 false n 0 _ w1 rfl ?_ rfl rfl
    unfold preprocess
    change (lllOp exSvp exNone 0 0 3 ⟨exId 3, 1, 0, false⟩).bind _ = _
    rw [hx]
    dsimp only [Out.bind]
    rw [if_neg (by rw [show r.1 = true from h]; decide)]
    rfl
  | thrown w1 => rw [hx] at h; cases h
  | ub w1 => rw [hx] at h; cases h
  | stuck w1 => rw [hx] at h; cases h

/-- rows 1, 2, 3 of the identity basis of rank 4: after LLL rows 1 and 2 are mixed, row 3 is not -/
example : (match (lllOp exSvp (exOrc exSol) 0 0 4 ⟨exId 4, 0, 0, false⟩).bind fun _ w => rerandomize exSvp (exOrc exSol) 1 4 w with
    | .ok _ w => [[w.s.b 1 0, w.s.b 1 1, w.s.b 1 2, w.s.b 1 3], [w.s.b 2 0, w.s.b 2 1, w.s.b 2 2, w.s.b 2 3],
        [w.s.b 3 0, w.s.b 3 1, w.s.b 3 2, w.s.b 3 3]]
    | _ => []) = [[0, 1, -1, 0], [0, 0, 1, 0], [0, 0, 0, 1]] := by decide +kernel

end BKZ
end Fplll

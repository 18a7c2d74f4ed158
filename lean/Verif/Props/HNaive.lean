import Verif.Proofs.HNaive
import Verif.Props.HLLLExact

/-!
# C56 (`is_hlll_reduced` decides the definition), exact arithmetic
-/

open Finset

namespace Fplll

open Spec GSO HH HFloat

namespace HNaive

theorem forUp_and (P : ℕ → Bool) (a b : ℕ) (ok : Bool) :
    forUp a b (fun i ok => ok && P i) ok = true ↔ ok = true ∧ ∀ i, a ≤ i → i < b → P i = true := by
  by_cases hab : a ≤ b
  · have := forUp_inv (fun k r => r = true ↔ ok = true ∧ ∀ i, a ≤ i → i < k → P i = true) (fun i ok => ok && P i) hab ok
      ⟨fun h => ⟨h, fun i h1 h2 => by omega⟩, fun h => h.1⟩ ?_
    · exact this
    · rintro k r h1 h2 ih
      rw [Bool.and_eq_true, ih]
      constructor
      · rintro ⟨⟨h3, h4⟩, h5⟩
        refine ⟨h3, fun i h6 h7 => ?_⟩
        rcases Nat.lt_succ_iff_lt_or_eq.1 h7 with h | h
        · exact h4 i h6 h
        · subst h; exact h5
      · rintro ⟨h3, h4⟩
        exact ⟨⟨h3, fun i h6 h7 => h4 i h6 (by omega)⟩, h4 k h1 (by omega)⟩
  · rw [forUp_empty (by omega)]
    exact ⟨fun h => ⟨h, fun i h1 h2 => by omega⟩, fun h => h.1⟩

variable [ExactCfg]

theorem isHlllReduced_iff (expoOn : Bool) (d n : ℕ) (b : Mat ℤ) (δ η θ : ℝ) (junk : Mat ℝ) :
    isHlllReduced expoOn d n b δ η θ junk = true ↔
      (∀ j < d, ∀ i < j, (updateAll expoOn d n b junk).testSize η θ j i = true) ∧
        ∀ i, 1 ≤ i → i < d → (updateAll expoOn d n b junk).testLovasz δ i = true := by
  unfold isHlllReduced
  dsimp only
  rw [Bool.and_eq_true, forUp_and]
  have : ∀ ok, forUp 0 d (fun j ok => forUp 0 j (fun i ok => ok && (updateAll expoOn d n b junk).testSize η θ j i) ok) ok =
      true ↔ ok = true ∧ ∀ j < d, ∀ i < j, (updateAll expoOn d n b junk).testSize η θ j i = true := by
    intro ok
    refine forUp_inv (fun k r => r = true ↔ ok = true ∧ ∀ j < k, ∀ i < j,
      (updateAll expoOn d n b junk).testSize η θ j i = true) _ (Nat.zero_le d) ok ?_ ?_
    · exact ⟨fun h => ⟨h, fun j h1 => by omega⟩, fun h => h.1⟩
    · rintro k r - hk ih
      rw [forUp_and, ih]
      constructor
      · rintro ⟨⟨h3, h4⟩, h5⟩
        refine ⟨h3, fun j h6 i h7 => ?_⟩
        rcases Nat.lt_succ_iff_lt_or_eq.1 h6 with h | h
        · exact h4 j h i h7
        · subst h; exact h5 i (Nat.zero_le _) h7
      · rintro ⟨h3, h4⟩
        exact ⟨⟨h3, fun j h6 i h7 => h4 j (by omega) i h7⟩, fun i _ h7 => h4 k (by omega) i h7⟩
  rw [this]
  simp

/-- the size-reduction test is right with or without row exponents -/
theorem testSize_exact {expoOn : Bool} {d n : ℕ} {b : Mat ℤ} {junk : Mat ℝ} (hi : Indep d n (basisQ b)) (η θ : ℝ) {j i : ℕ}
    (hj : j < d) (hij : i < j) :
    (updateAll expoOn d n b junk).testSize η θ j i = true ↔
      |rEntry n (basisQ b) j i| ≤ η * rDiag n (basisQ b) i + θ * rDiag n (basisQ b) j := by
  obtain ⟨h1, h2⟩ := naive_rfactor (expoOn := expoOn) (junk := junk) hi
  set s := updateAll expoOn d n b junk
  have hp := two_pos' (s.rowExpo j)
  unfold testSize
  rw [decide_eq_true_eq]
  have e : HFloat.add (HFloat.mul (s.R j j) θ) (HFloat.mul2si (HFloat.mul (s.R i i) η) (s.rowExpo i - s.rowExpo j))
      = s.R j j * θ + s.R i i * η * (2 : ℝ) ^ (s.rowExpo i - s.rowExpo j) := rfl
  rw [e, show HFloat.abs (s.R j i) = |s.R j i| from rfl, fcmp_pos, not_lt, ← h2 j hj i hij, ← h1 i (by omega), ← h1 j hj, abs_mul,
    abs_of_pos hp, ← mul_le_mul_iff_left₀ hp]
  have e2 : (s.R j j * θ + s.R i i * η * (2 : ℝ) ^ (s.rowExpo i - s.rowExpo j)) * (2 : ℝ) ^ s.rowExpo j
      = η * (s.R i i * (2 : ℝ) ^ s.rowExpo i) + θ * (s.R j j * (2 : ℝ) ^ s.rowExpo j) := by
    have : (2 : ℝ) ^ (s.rowExpo i - s.rowExpo j) * (2 : ℝ) ^ s.rowExpo j = (2 : ℝ) ^ s.rowExpo i := by
      rw [← zpow_add₀ two_ne]; congr 1; ring
    linear_combination (s.R i i * η) * this
  rw [e2]

/-- **C56 (partial).**  With exact arithmetic and without row exponents, `is_hlll_reduced` accepts a basis of independent
rows exactly when it is `(δ, η, θ)`-HLLL-reduced, for all parameters.  Missing: row exponents, with which it accepts bases
that are not reduced (`C56_expo_violated`). -/
theorem C56_decides_partial (d n : ℕ) (b : Mat ℤ) (δ η θ : ℝ) (junk : Mat ℝ) (hi : Indep d n (basisQ b)) :
    isHlllReduced false d n b δ η θ junk = true ↔ HLLLReduced n d (basisQ b) δ η θ := by
  rw [isHlllReduced_iff]
  obtain ⟨h1, h2⟩ := naive_rfactor (expoOn := false) (junk := junk) hi
  obtain ⟨-, -, h3⟩ := updateAll_exact (expoOn := false) (junk := junk) hi
  have hz := h3 rfl
  have hL : ∀ i, i + 1 < d → ((updateAll false d n b junk).testLovasz δ (i + 1) = true ↔
      δ * rDiag n (basisQ b) i ^ 2 ≤ rEntry n (basisQ b) (i + 1) i ^ 2 + rDiag n (basisQ b) (i + 1) ^ 2) := by
    intro i hid
    unfold testLovasz
    rw [decide_eq_true_eq, ← h1 i (by omega), ← h1 (i + 1) hid, ← h2 (i + 1) hid i (by omega)]
    simp only [hz, Nat.add_sub_cancel, zpow_zero, mul_one, mul_zero, sub_zero]
    set s := updateAll false d n b junk
    have e : HFloat.add (HFloat.mul (s.R (i + 1) i) (s.R (i + 1) i))
        (HFloat.mul2si (HFloat.mul (s.R (i + 1) (i + 1)) (s.R (i + 1) (i + 1))) 0)
        = s.R (i + 1) i ^ 2 + s.R (i + 1) (i + 1) ^ 2 := by
      change s.R (i + 1) i * s.R (i + 1) i + s.R (i + 1) (i + 1) * s.R (i + 1) (i + 1) * (2 : ℝ) ^ (0 : ℤ) = _
      rw [zpow_zero]; ring
    have e' : HFloat.mul (HFloat.mul (s.R i i) (s.R i i)) δ = δ * s.R i i ^ 2 := by
      change s.R i i * s.R i i * δ = _; ring
    rw [e, e', fcmp_pos, not_lt]
  constructor
  · rintro ⟨g1, g2⟩
    exact ⟨fun i hid j hj => (testSize_exact hi η θ hid hj).1 (g1 i hid j hj),
      fun i hid => (hL i hid).1 (g2 (i + 1) (by omega) hid)⟩
  · rintro ⟨g1, g2⟩
    refine ⟨fun j hj i hij => (testSize_exact hi η θ hj hij).2 (g1 j hj i hij), fun i h1 hid => ?_⟩
    obtain ⟨l, rfl⟩ : ∃ l, i = l + 1 := ⟨i - 1, by omega⟩
    exact (hL l hid).2 (g2 l hid)

/-- **C56 with row exponents, size reduction.**  A basis of independent rows that `is_hlll_reduced` accepts is weakly size
reduced, with or without row exponents. -/
theorem C56_size (expoOn : Bool) (d n : ℕ) (b : Mat ℤ) (δ η θ : ℝ) (junk : Mat ℝ) (hi : Indep d n (basisQ b))
    (h : isHlllReduced expoOn d n b δ η θ junk = true) :
    ∀ i < d, ∀ j < i, |rEntry n (basisQ b) i j| ≤ η * rDiag n (basisQ b) j + θ * rDiag n (basisQ b) i := by
  rw [isHlllReduced_iff] at h
  exact fun i hid j hj => (testSize_exact hi η θ hid hj).1 (h.1 i hid j hj)

/-- the basis (1024, 0), (1, 1) -/
def bigB : Mat ℤ := fun i j => if i = 0 then (if j = 0 then 1024 else 0) else 1

omit [ExactCfg] in
theorem big_not_reduced : ¬ HLLLReduced 2 2 (basisQ bigB) (99 / 100) (51 / 100) (1 / 1000) := by
  intro h
  have h2 := h.lovasz 0 (by omega)
  have hi : Indep 2 2 (basisQ bigB) := HL.indep2 (by decide)
  unfold rEntry at h2
  rw [zero_add, mul_pow, rDiag_sq, rDiag_sq, HL.normStar1, muS_eq, rS_self, HL.rS10, HL.normStar0] at h2
  have d00 : dotQ 2 (basisQ bigB 0) (basisQ bigB 0) = 1048576 := by
    unfold dotQ basisQ bigB; rw [sum_range_succ, sum_range_one]; norm_num
  have d10 : dotQ 2 (basisQ bigB 1) (basisQ bigB 0) = 1024 := by
    unfold dotQ basisQ bigB; rw [sum_range_succ, sum_range_one]; norm_num
  have d11 : dotQ 2 (basisQ bigB 1) (basisQ bigB 1) = 2 := by
    unfold dotQ basisQ bigB; rw [sum_range_succ, sum_range_one]; norm_num
  rw [d00, d10, d11] at h2
  norm_num at h2

theorem updateRow_expo (n : ℕ) (b : Mat ℤ) (k : ℕ) (s : HNaive ℝ) :
    (updateRow true n b k s).rowExpo = setAt s.rowExpo k (maxExpo ℝ (b k) n) := by
  unfold updateRow
  dsimp only
  rw [(houseLast_only n k _).rowExpo]
  refine forUp_inv' (fun t : HNaive ℝ => t.rowExpo = setAt s.rowExpo k (maxExpo ℝ (b k) n)) _ _ _ _ ?_ ?_
  · rfl
  · intro j t _ _ h; exact h

theorem updateAll2_expo (n : ℕ) (b : Mat ℤ) (junk : Mat ℝ) :
    (updateAll true 2 n b junk).rowExpo 0 = maxExpo ℝ (b 0) n ∧ (updateAll true 2 n b junk).rowExpo 1 = maxExpo ℝ (b 1) n := by
  have : updateAll true 2 n b junk = updateRow true n b 1 (updateRow true n b 0 ⟨junk, junk, junk 0, fun _ => 0⟩) := rfl
  rw [this, updateRow_expo, updateRow_expo]
  exact ⟨by rw [setAt_ne _ _ (by omega), setAt_self], setAt_self _ _ _⟩

omit [ExactCfg] in
/-- **C56 is violated with row exponents** (`is_hlll_reduced_zf`): the Lovász test rescales `R(i, i)` but not
`R(i, i - 1)`.  The basis (1024, 0), (1, 1) is accepted, and is far from reduced. -/
theorem C56_expo_violated (junk : Mat ℝ) : letI := exactExample;
    isHlllReduced true 2 2 bigB (99 / 100 : ℝ) (51 / 100) (1 / 1000) junk = true ∧
      ¬ HLLLReduced 2 2 (basisQ bigB) (99 / 100) (51 / 100) (1 / 1000) := by
  refine ⟨?_, big_not_reduced⟩
  let _ := exactExample
  have hi : Indep 2 2 (basisQ bigB) := HL.indep2 (by decide)
  obtain ⟨e0, e1⟩ := updateAll2_expo 2 bigB junk
  have m0 : maxExpo ℝ (bigB 0) 2 = 11 := by
    change max ((Nat.size (Int.natAbs 1024) : ℕ) : ℤ) ((Nat.size (Int.natAbs 0) : ℕ) : ℤ) = 11
    decide
  have m1 : maxExpo ℝ (bigB 1) 2 = 1 := by
    change max ((Nat.size (Int.natAbs 1) : ℕ) : ℤ) ((Nat.size (Int.natAbs 1) : ℕ) : ℤ) = 1
    decide
  rw [m0] at e0
  rw [m1] at e1
  obtain ⟨h1, h2⟩ := naive_rfactor (expoOn := true) (junk := junk) hi
  have d00 : dotQ 2 (basisQ bigB 0) (basisQ bigB 0) = 1048576 := by
    unfold dotQ basisQ bigB; rw [sum_range_succ, sum_range_one]; norm_num
  have d10 : dotQ 2 (basisQ bigB 1) (basisQ bigB 0) = 1024 := by
    unfold dotQ basisQ bigB; rw [sum_range_succ, sum_range_one]; norm_num
  have d11 : dotQ 2 (basisQ bigB 1) (basisQ bigB 1) = 2 := by
    unfold dotQ basisQ bigB; rw [sum_range_succ, sum_range_one]; norm_num
  have r0 : rDiag 2 (basisQ bigB) 0 = 1024 := by
    unfold rDiag
    rw [HL.normStar0, d00, Real.sqrt_eq_iff_mul_self_eq (by norm_num) (by norm_num)]; norm_num
  have mu : muS 2 (basisQ bigB) 1 0 = 1 / 1024 := by
    rw [muS_eq, rS_self, HL.rS10, HL.normStar0, d00, d10]; norm_num
  have r1 : rDiag 2 (basisQ bigB) 1 = 1 := by
    unfold rDiag
    rw [HL.normStar1, mu, HL.rS10, d11, d10, Real.sqrt_eq_iff_mul_self_eq (by norm_num) (by norm_num)]; norm_num
  have r10 : rEntry 2 (basisQ bigB) 1 0 = 1 := by unfold rEntry; rw [mu, r0]; norm_num
  rw [isHlllReduced_iff]
  constructor
  · intro j hj i hij
    refine (testSize_exact hi _ _ hj hij).2 ?_
    have hj1 : j = 1 := by omega
    have hi0 : i = 0 := by omega
    subst hj1 hi0
    rw [r10, r0, r1]; norm_num
  · intro i hi1 hi2
    have : i = 1 := by omega
    subst this
    have a0 := h1 0 (by omega)
    have a1 := h1 1 (by omega)
    have a2 := h2 1 (by omega) 0 (by omega)
    rw [e0, r0] at a0
    rw [e1, r1] at a1
    rw [e1, r10] at a2
    unfold testLovasz
    dsimp only
    rw [decide_eq_true_eq, e0, e1]
    set s := updateAll true 2 2 bigB junk
    have b0 : s.R 0 0 = 1 / 2 := by norm_num at a0; linarith
    have b1 : s.R 1 1 = 1 / 2 := by norm_num at a1; linarith
    have b2 : s.R 1 0 = 1 / 2 := by norm_num at a2; linarith
    rw [show 1 - 1 = 0 from rfl, b0, b1, b2]
    rw [fcmp_pos, not_lt]
    change (1 / 2 : ℝ) * (1 / 2) * (99 / 100) ≤ 1 / 2 * (1 / 2) + 1 / 2 * (1 / 2) * (2 : ℝ) ^ (2 * 1 - 2 * 11 : ℤ)
    have : (0 : ℝ) ≤ (2 : ℝ) ^ (2 * 1 - 2 * 11 : ℤ) := by positivity
    nlinarith

/-! ## Non-vacuity -/

/-- without row exponents the same basis is rejected -/
example (junk : Mat ℝ) :
    isHlllReduced false 2 2 bigB (99 / 100 : ℝ) (51 / 100) (1 / 1000) junk = false := by
  have := C56_decides_partial 2 2 bigB (99 / 100) (51 / 100) (1 / 1000) junk (HL.indep2 (by decide))
  rw [← Bool.not_eq_true, this]
  exact big_not_reduced

/-- the output of an HLLL run is accepted -/
example : letI := exactExample; ∃ h : HL ℝ, ∀ junk : Mat ℝ,
    isHlllReduced false 2 2 h.m.b (99 / 100 : ℝ) (51 / 100) (1 / 1000) junk = true := by
  let _ := exactExample
  have hi : Indep 2 2 (basisQ HL.exB) := HL.indep2 (by decide)
  obtain ⟨h, hh⟩ := HL.C30_terminates 2 (2 * (potential 2 2 HL.exB).toNat + 2) true (99 / 100) (51 / 100) (1 / 1000) le_rfl
    ⟨HL.exB, none, none⟩ (fun _ _ => 0) hi HL.settles_example le_rfl (by norm_num) (by norm_num) (by norm_num) le_rfl
  have hl := (HL.C30_lll 2 _ true (99 / 100) (51 / 100) (1 / 1000) ⟨HL.exB, none, none⟩ (fun _ _ => 0) hi h
    (by push_cast; exact hh)).2
  exact ⟨h, fun junk => (C56_decides_partial 2 2 _ _ _ _ junk (Spec.Indep.of_lattice hi hl)).2
    (HL.C30_reduced_partial _ _ _ _ _ _ _ _ (by norm_num) (by norm_num) hi h hh)⟩

end HNaive
end Fplll

import Verif.Model.LongExp

/-!
# C40: the exponent of a machine integer

The specification is `Nat.size |x|`, the number of bits: `2^(e-1) ≤ |x| < 2^e`.
-/

namespace Fplll
namespace LongExp

/-- bit length, as a specification: `0` for `0`, otherwise the `e` with `2^(e-1) ≤ |x| < 2^e` -/
def IsBitLen (x : ℤ) (e : ℕ) : Prop := |x| < 2 ^ e ∧ (x ≠ 0 → 0 < e ∧ 2 ^ (e - 1) ≤ |x|) ∧ (x = 0 → e = 0)

theorem size_bounds {n : ℕ} (hn : n ≠ 0) : 2 ^ (n.size - 1) ≤ n ∧ n < 2 ^ n.size := by
  refine ⟨?_, Nat.lt_size_self n⟩
  have h : 0 < n.size := Nat.size_pos.2 (Nat.pos_of_ne_zero hn)
  exact Nat.lt_size.1 (by omega)

theorem isBitLen_size (x : ℤ) : IsBitLen x x.natAbs.size := by
  have habs : |x| = (x.natAbs : ℤ) := Int.abs_eq_natAbs x
  refine ⟨?_, ?_, ?_⟩
  · rw [habs]; exact_mod_cast Nat.lt_size_self x.natAbs
  · intro h
    have hn : x.natAbs ≠ 0 := by omega
    refine ⟨Nat.size_pos.2 (by omega), ?_⟩
    rw [habs]; exact_mod_cast (size_bounds hn).1
  · rintro rfl; rfl

theorem size_eq {n e : ℕ} (h1 : 2 ^ e ≤ n) (h2 : n < 2 ^ (e + 1)) : n.size = e + 1 :=
  le_antisymm (Nat.size_le.2 h2) (Nat.lt_size.2 h1)

theorem shiftLoop_eq : ∀ (fuel y e : ℕ), y.size ≤ fuel → shiftLoop fuel y e = y.size + e := by
  intro fuel
  induction fuel with
  | zero =>
    intro y e h
    rw [shiftLoop]; omega
  | succ fuel ih =>
    intro y e h
    rw [shiftLoop]
    by_cases hy : y = 0
    · rw [if_pos hy, hy, Nat.size_zero, zero_add]
    · rw [if_neg hy]
      have hs : 0 < y.size := Nat.size_pos.2 (Nat.pos_of_ne_zero hy)
      obtain ⟨b1, b2⟩ := size_bounds hy
      have hhalf : (y / 2).size = y.size - 1 := by
        by_cases h1 : y.size = 1
        · have : y < 2 := by rw [h1] at b2; simpa using b2
          have : y / 2 = 0 := by omega
          rw [this, h1]; rfl
        · obtain ⟨s, hs'⟩ : ∃ s, y.size = s + 2 := ⟨y.size - 2, by omega⟩
          rw [hs'] at b1 b2 ⊢
          refine size_eq ?_ ?_
          · have : 2 ^ (s + 2 - 1) = 2 * 2 ^ s := by rw [show s + 2 - 1 = s + 1 by omega, pow_succ]; ring
            rw [this] at b1; omega
          · have : 2 ^ (s + 2) = 2 * 2 ^ (s + 1) := by rw [pow_succ]; ring
            rw [this] at b2; omega
      rw [ih _ _ (by omega), hhalf]
      omega

theorem toDouble_small {n : ℕ} (h : n < 2 ^ 53) : toDouble n = n := by
  have hs : n.size - 53 = 0 := by
    have := Nat.size_le.2 h
    omega
  unfold toDouble
  rw [hs]
  simp [Nat.mod_one]

/-- the rounded value keeps its bit length, except that it may be rounded up to the next power of two -/
theorem toDouble_cases (n : ℕ) : (toDouble n).size = n.size ∨ (54 ≤ n.size ∧ toDouble n = 2 ^ n.size) := by
  by_cases hn : n < 2 ^ 53
  · rw [toDouble_small hn]; exact .inl rfl
  have hn0 : n ≠ 0 := by rintro rfl; exact hn (by norm_num)
  obtain ⟨b1, b2⟩ := size_bounds hn0
  have hs : 54 ≤ n.size := Nat.lt_size.2 (by omega)
  obtain ⟨e, he⟩ : ∃ e, n.size = e + 53 := ⟨n.size - 53, by omega⟩
  have hdef : toDouble n = (if 2 * (n % 2 ^ e) < 2 ^ e then n / 2 ^ e else if 2 ^ e < 2 * (n % 2 ^ e) then n / 2 ^ e + 1
      else n / 2 ^ e + n / 2 ^ e % 2) * 2 ^ e := by
    unfold toDouble
    rw [show n.size - 53 = e by omega]
  rw [he] at b1 b2
  have hp : 0 < 2 ^ e := by positivity
  have q1 : 2 ^ 52 ≤ n / 2 ^ e := by
    rw [Nat.le_div_iff_mul_le hp, ← pow_add]
    rw [show e + 53 - 1 = 52 + e by omega] at b1
    exact b1
  have q2 : n / 2 ^ e < 2 ^ 53 := by
    rw [Nat.div_lt_iff_lt_mul hp, ← pow_add, add_comm 53 e]
    exact b2
  set q := n / 2 ^ e with hq
  have hq' : ∃ q', toDouble n = q' * 2 ^ e ∧ 2 ^ 52 ≤ q' ∧ q' ≤ 2 ^ 53 := by
    refine ⟨_, hdef, ?_, ?_⟩
    · split_ifs <;> omega
    · split_ifs <;> omega
  obtain ⟨q', h1, h2, h3⟩ := hq'
  rw [h1, he]
  by_cases hlt : q' = 2 ^ 53
  · right
    exact ⟨by omega, by rw [hlt, ← pow_add, add_comm]⟩
  · left
    rw [show e + 53 = (e + 52) + 1 by omega]
    refine size_eq ?_ ?_
    · rw [pow_add, mul_comm]; exact Nat.mul_le_mul_right _ h2
    · rw [show e + 52 + 1 = 53 + e by omega, pow_add]
      exact Nat.mul_lt_mul_of_pos_right (by omega) hp

/-- **C40**, for machine integers that are not below `-2^53` (`_partial`; missing: negative values beyond `2^53`, where the
result can be wrong): `exponent()` is the bit length. -/
theorem C40_exponent_partial (x : ℤ) (h1 : -2 ^ 53 ≤ x) (h2 : x < 2 ^ 63) : IsBitLen x (exponent x) := by
  have hsz : x.natAbs.size ≤ 63 := Nat.size_le.2 (by omega)
  have hclong : computeLongExponent x = x.natAbs.size := by
    unfold computeLongExponent
    rw [shiftLoop_eq _ _ _ (by omega), add_zero]
  suffices h : exponent x = x.natAbs.size by rw [h]; exact isBitLen_size x
  unfold exponent
  dsimp only
  split_ifs with hc
  · exact hclong
  · unfold frexpExp
    rcases toDouble_cases x.natAbs with h | ⟨h3, h4⟩
    · exact h
    · exfalso
      have hbig : 2 ^ 53 ≤ x.natAbs := Nat.lt_size.1 (by omega)
      by_cases hx : 0 ≤ x
      · refine hc ⟨⟨hx, ?_⟩, ?_⟩
        · rw [h4]; exact Nat.pow_lt_pow_right (by norm_num) (by omega)
        · unfold mantHalf frexpExp
          rw [h4, Nat.size_pow, pow_succ]
          simp
      · have : x = -2 ^ 53 := by omega
        subst this
        rw [show (-2 ^ 53 : ℤ).natAbs = 2 ^ 53 from rfl, Nat.size_pow] at h4
        revert h4
        decide +kernel

/-- **C40**, for every machine integer: the result is the bit length or one more. -/
theorem C40_exponent_range (x : ℤ) (h1 : -2 ^ 63 ≤ x) (h2 : x < 2 ^ 63) :
    IsBitLen x (exponent x) ∨ (x < -2 ^ 53 ∧ IsBitLen x (exponent x - 1)) := by
  by_cases hx : -2 ^ 53 ≤ x
  · exact .inl (C40_exponent_partial x hx h2)
  have hneg : ¬ (0 ≤ x) := by omega
  have he : exponent x = (toDouble x.natAbs).size := by
    unfold exponent
    dsimp only
    rw [if_neg (by tauto)]
    rfl
  rcases toDouble_cases x.natAbs with h | ⟨h3, h4⟩
  · left; rw [he, h]; exact isBitLen_size x
  · right
    refine ⟨by omega, ?_⟩
    rw [he, h4, Nat.size_pow, Nat.add_sub_cancel]
    exact isBitLen_size x

/-- **C40 fails** for negative values: `-(2^54 - 1)` has 54 bits, `exponent()` returns 55 (the guard `data > MAX_LONG_FAST`,
nr_Z_l.inl:44, does not look at the absolute value), while it is right for `2^54 - 1`. -/
theorem C40_exponent_fails : ¬ IsBitLen (-(2 ^ 54 - 1)) (exponent (-(2 ^ 54 - 1))) ∧
    IsBitLen (2 ^ 54 - 1) (exponent (2 ^ 54 - 1)) := by
  refine ⟨?_, C40_exponent_partial _ (by norm_num) (by norm_num)⟩
  rintro ⟨-, h, -⟩
  obtain ⟨-, h⟩ := h (by norm_num)
  have he : exponent (-(2 ^ 54 - 1)) = 55 := by decide +kernel
  rw [he] at h
  norm_num at h

end LongExp
end Fplll

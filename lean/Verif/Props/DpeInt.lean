import Verif.Props.DpeOps

/-!
# C65: `dpe_t` and integers

Rounding to integers and the conversions between `dpe_t`, `long` and `mpz_t`.
-/

namespace Fplll
namespace Dpe

/-- specification: `z` is the integer nearest to `q`, the one farther from zero in case of a tie -/
def IsRound (q : ℚ) (z : ℤ) : Prop := |q - z| ≤ 1 / 2 ∧ (|q - z| = 1 / 2 → |q| < |(z : ℚ)|)

/-- specification: `z` is `q` rounded towards zero -/
def IsTrunc (q : ℚ) (z : ℤ) : Prop := |(z : ℚ)| ≤ |q| ∧ |q| < |(z : ℚ)| + 1 ∧ 0 ≤ q * z

theorem cRound_spec (q : ℚ) : IsRound q (cRound q) := by
  rw [cRound]
  split_ifs with h
  · have h1 := Int.floor_le (q + 1 / 2)
    have h2 := Int.lt_floor_add_one (q + 1 / 2)
    refine ⟨by rw [abs_le]; constructor <;> linarith, fun he => ?_⟩
    rcases abs_eq (by norm_num : (0 : ℚ) ≤ 1 / 2) |>.1 he with h3 | h3
    · linarith
    · rw [abs_of_nonneg h, abs_of_nonneg (by linarith)]; linarith
  · have h1 := Int.le_ceil (q - 1 / 2)
    have h2 := Int.ceil_lt_add_one (q - 1 / 2)
    refine ⟨by rw [abs_le]; constructor <;> linarith, fun he => ?_⟩
    rcases abs_eq (by norm_num : (0 : ℚ) ≤ 1 / 2) |>.1 he with h3 | h3
    · rw [abs_of_neg (not_le.1 h), abs_of_neg (by linarith [not_le.1 h])]; linarith
    · linarith

theorem cTrunc_spec (q : ℚ) : IsTrunc q (cTrunc q) := by
  rw [cTrunc]
  split_ifs with h
  · have h1 := Int.floor_le q
    have h2 := Int.lt_floor_add_one q
    have h3 : (0 : ℚ) ≤ ⌊q⌋ := by exact_mod_cast Int.floor_nonneg.2 h
    rw [IsTrunc, abs_of_nonneg h, abs_of_nonneg h3]
    exact ⟨h1, h2, mul_nonneg h h3⟩
  · have h1 := Int.le_ceil q
    have h2 := Int.ceil_lt_add_one q
    have hq := not_le.1 h
    have h3 : (⌈q⌉ : ℚ) ≤ 0 := by
      have : ⌈q⌉ ≤ 0 := Int.ceil_le.2 (by push_cast; exact hq.le)
      exact_mod_cast this
    rw [IsTrunc, abs_of_neg hq, abs_of_nonpos h3]
    exact ⟨by linarith, by linarith, mul_nonneg_of_nonpos_of_nonpos hq.le h3⟩

theorem isTrunc_unique {q : ℚ} {a b : ℤ} (ha : IsTrunc q a) (hb : IsTrunc q b) : a = b := by
  obtain ⟨a1, a2, a3⟩ := ha
  obtain ⟨b1, b2, b3⟩ := hb
  have h1 : |a| < |b| + 1 := by
    have : |(a : ℚ)| < |(b : ℚ)| + 1 := lt_of_le_of_lt a1 b2
    exact_mod_cast this
  have h2 : |b| < |a| + 1 := by
    have : |(b : ℚ)| < |(a : ℚ)| + 1 := lt_of_le_of_lt b1 a2
    exact_mod_cast this
  have h3 : |a| = |b| := by omega
  rcases abs_eq_abs.1 h3 with h | h
  · exact h
  · by_cases hb0 : b = 0
    · rw [h, hb0]; rfl
    · exfalso
      have hq : q ≠ 0 := by
        rintro rfl
        rw [abs_zero] at b1
        exact hb0 (by exact_mod_cast abs_nonpos_iff.1 b1)
      rw [h] at a3
      push_cast at a3
      have : q * b = 0 := by linarith
      rcases mul_eq_zero.1 this with h' | h'
      · exact hq h'
      · exact hb0 (by exact_mod_cast h')

theorem isTrunc_small {q : ℚ} (h : |q| < 1) : IsTrunc q 0 := by
  rw [IsTrunc]; push_cast; rw [abs_zero]; exact ⟨abs_nonneg _, by linarith, by simp⟩

theorem isTrunc_int (z : ℤ) : IsTrunc z z := ⟨le_refl _, by linarith, mul_self_nonneg _⟩

theorem cTrunc_eq {q : ℚ} {z : ℤ} (h : IsTrunc q z) : cTrunc q = z := isTrunc_unique (cTrunc_spec q) h

theorem cTrunc_int (z : ℤ) : cTrunc (z : ℚ) = z := cTrunc_eq (isTrunc_int z)

theorem norm_abs_lt {y : Dpe} (hy : Norm y) : |y.val| < 2 ^ y.exp := by
  rw [val, abs_mul, abs_of_pos (two_zpow_pos _)]
  have hb : |y.d| < 1 := by
    rcases hy.2 with ⟨h, _⟩ | h
    · rw [h]; norm_num
    · exact (mantOk_bounds h).2
  calc |y.d| * 2 ^ y.exp < 1 * 2 ^ y.exp := mul_lt_mul_of_pos_right hb (two_zpow_pos _)
    _ = _ := one_mul _

theorem norm_le_abs {y : Dpe} (hy : MantOk y.d) : (2 : ℚ) ^ (y.exp - 1) ≤ |y.val| := by
  rw [val, abs_mul, abs_of_pos (two_zpow_pos _), show y.exp - 1 = -1 + y.exp by ring, two_zpow_add]
  refine mul_le_mul_of_nonneg_right ?_ (two_zpow_pos _).le
  have := (mantOk_bounds hy).1
  norm_num at this ⊢; exact this

theorem mant_of_exp {y : Dpe} (hy : Norm y) (h : -2 ^ 31 < y.exp) : MantOk y.d :=
  hy.2.resolve_left fun h' => by omega

/-- `ldexp(mantissa, exponent)` is exact as long as there is no underflow -/
theorem ldexp_exact {y : Dpe} (hy : Norm y) (h : -1000 ≤ y.exp) : rn (y.d * 2 ^ y.exp) = y.val := by
  refine rn_fl53 (val_fl53 hy) (Or.inr ?_)
  exact small_le (k := y.exp - 1) (by omega) (norm_le_abs (mant_of_exp hy (by omega)))

theorem div53 (n : ℚ) : n / 2 ^ 53 * 2 ^ (53 : ℤ) = n :=
  div_mul_cancel₀ n (by norm_num : (2 : ℚ) ^ (53 : ℤ) ≠ 0)

theorem pow_1024 {q : ℚ} (h : q ≤ 2 ^ 64) : q < 2 ^ 1024 :=
  lt_of_le_of_lt h (pow_lt_pow_right₀ (by norm_num) (by norm_num))

/-- a number with exponent at least 53 is an integer -/
theorem val_int {y : Dpe} (hy : Norm y) (h : 53 ≤ y.exp) : ∃ n : ℤ, y.d = n / 2 ^ 53 ∧ |n| < 2 ^ 53 ∧
    y.val = ((n * 2 ^ (y.exp - 53).toNat : ℤ) : ℚ) := by
  obtain ⟨n, hn, hlt, -⟩ := norm_int hy
  refine ⟨n, hn, hlt, ?_⟩
  obtain ⟨j, hj⟩ : ∃ j : ℕ, y.exp = 53 + j := ⟨(y.exp - 53).toNat, by omega⟩
  rw [val, hn, hj, two_zpow_add, zpow_natCast, show (53 + (j : ℤ) - 53).toNat = j by omega, ← mul_assoc, div53]
  push_cast
  rfl

/-- an integer of at most 53 bits is converted exactly by `dpe_set_d` -/
theorem setD_int {le : Bool} {z : ℤ} (h : |z| ≤ 2 ^ 53) : ∃ x, setD le z = .ok x ∧ Norm x ∧ x.val = z := by
  refine C64_set_d_partial (fl53_int h) ?_ ?_
  · by_cases h0 : z = 0
    · left; rw [h0]; rfl
    · right
      refine small_le (k := 0) (by norm_num) ?_
      rw [zpow_zero]; exact_mod_cast Int.one_le_abs h0
  · have : |(z : ℚ)| ≤ 2 ^ 53 := by exact_mod_cast h
    exact lt_of_le_of_lt this (pow_1024 (by norm_num))

theorem setSi_small {le : Bool} {z : ℤ} (h : |z| ≤ 2 ^ 53) : ∃ x, setSi le z = .ok x ∧ Norm x ∧ x.val = z := by
  have hr : rn (z : ℚ) = z := by
    refine rn_fl53 (fl53_int h) ?_
    by_cases h0 : z = 0
    · left; rw [h0]; rfl
    · right
      refine small_le (k := 0) (by norm_num) ?_
      rw [zpow_zero]; exact_mod_cast Int.one_le_abs h0
  have := setD_int (le := le) h
  rwa [setSi, hr]

theorem abs_bound {y : Dpe} (hy : Norm y) (h : y.exp < 53) : |y.val| < 2 ^ 52 := by
  refine lt_of_lt_of_le (norm_abs_lt hy) ?_
  calc (2 : ℚ) ^ y.exp ≤ 2 ^ (52 : ℤ) := two_zpow_le (by omega)
    _ = _ := by norm_num

theorem int_bound {z : ℤ} {q : ℚ} (h1 : |q| < 2 ^ 52) (h2 : |q - z| ≤ 1) : |z| ≤ 2 ^ 53 := by
  have h3 : |(z : ℚ)| ≤ |q| + |q - z| := by
    have := abs_sub_le (z : ℚ) q 0
    rw [sub_zero, sub_zero, abs_sub_comm] at this
    linarith
  have h4 : |(z : ℚ)| ≤ 2 ^ 53 := by
    have : (2 : ℚ) ^ 52 + 1 ≤ 2 ^ 53 := by norm_num
    linarith
  exact_mod_cast h4

theorem half_of_neg {y : Dpe} (hy : Norm y) (h : y.exp < 0) : |y.val| < 1 / 2 := by
  refine lt_of_lt_of_le (norm_abs_lt hy) ?_
  calc (2 : ℚ) ^ y.exp ≤ 2 ^ (-1 : ℤ) := two_zpow_le (by omega)
    _ = _ := by norm_num

theorem one_of_nonpos {y : Dpe} (hy : Norm y) (h : y.exp ≤ 0) : |y.val| < 1 := by
  refine lt_of_lt_of_le (norm_abs_lt hy) ?_
  calc (2 : ℚ) ^ y.exp ≤ 2 ^ (0 : ℤ) := two_zpow_le h
    _ = _ := by norm_num

theorem isRound_zero {q : ℚ} (h : |q| < 1 / 2) : IsRound q 0 := by
  refine ⟨by push_cast; rw [sub_zero]; exact h.le, fun he => ?_⟩
  push_cast at he
  rw [sub_zero] at he
  linarith

theorem isRound_int (z : ℤ) : IsRound z z := ⟨by simp, fun h => by norm_num at h⟩

/-- **C65** (`dpe_round`): exactly the nearest integer, ties away from zero, for every normalized number; it never fails -/
theorem C65_round {le : Bool} {y : Dpe} (hy : Norm y) :
    ∃ x z, round le y = .ok x ∧ Norm x ∧ x.val = (z : ℤ) ∧ IsRound y.val z := by
  rw [round]
  by_cases h1 : y.exp < 0
  · rw [if_pos h1]
    obtain ⟨x, a, b, c⟩ := setSi_small (le := le) (z := 0) (by norm_num)
    exact ⟨x, 0, a, b, c, isRound_zero (half_of_neg hy h1)⟩
  · rw [if_neg h1]
    by_cases h2 : 53 ≤ y.exp
    · rw [if_pos h2]
      obtain ⟨n, _, _, hv⟩ := val_int hy h2
      exact ⟨y, _, rfl, hy, hv, by rw [hv]; exact isRound_int _⟩
    · rw [if_neg h2, ldexp_exact hy (by omega)]
      have hs := cRound_spec y.val
      obtain ⟨x, a, b, c⟩ := setD_int (le := le) (z := cRound y.val)
        (int_bound (abs_bound hy (by omega)) (hs.1.trans (by norm_num)))
      exact ⟨x, _, a, b, c, hs⟩

/-- **C65** (`dpe_rint`): a nearest integer -/
theorem C65_rint {le : Bool} {y : Dpe} (hy : Norm y) :
    ∃ x z, rint le y = .ok x ∧ Norm x ∧ x.val = (z : ℤ) ∧ |y.val - z| ≤ 1 / 2 := by
  rw [rint]
  by_cases h1 : y.exp < 0
  · rw [if_pos h1]
    obtain ⟨x, a, b, c⟩ := setSi_small (le := le) (z := 0) (by norm_num)
    exact ⟨x, 0, a, b, c, (isRound_zero (half_of_neg hy h1)).1⟩
  · rw [if_neg h1]
    by_cases h2 : 53 ≤ y.exp
    · rw [if_pos h2]
      obtain ⟨n, _, _, hv⟩ := val_int hy h2
      exact ⟨y, _, rfl, hy, hv, by rw [hv]; exact (isRound_int _).1⟩
    · rw [if_neg h2, ldexp_exact hy (by omega)]
      have hs := rhe_near y.val
      obtain ⟨x, a, b, c⟩ := setD_int (le := le) (z := rhe y.val)
        (int_bound (abs_bound hy (by omega)) (hs.trans (by norm_num)))
      exact ⟨x, _, a, b, c, hs⟩

/-- **C65** (`dpe_floor`) -/
theorem C65_floor {le : Bool} {y : Dpe} (hy : Norm y) : ∃ x, floor le y = .ok x ∧ Norm x ∧ x.val = ⌊y.val⌋ := by
  have sv := sign_val y
  rw [floor]
  by_cases h1 : y.exp ≤ 0
  · rw [if_pos h1]
    obtain ⟨l1, l2⟩ := abs_lt.1 (one_of_nonpos hy h1)
    by_cases h3 : 0 ≤ sign y
    · rw [if_pos h3]
      have hn : 0 ≤ y.val := by
        by_contra hc
        have := sv.1.1 (not_le.1 hc)
        rw [sign, if_pos this] at h3; norm_num at h3
      have hf : ⌊y.val⌋ = 0 := by rw [Int.floor_eq_iff]; push_cast; constructor <;> linarith
      obtain ⟨x, a, b, c⟩ := setSi_small (le := le) (z := 0) (by norm_num)
      exact ⟨x, a, b, by rw [c, hf]⟩
    · rw [if_neg h3]
      have hn : y.val < 0 := by
        by_contra hc
        have : ¬ y.d < 0 := fun h => hc (sv.1.2 h)
        rw [sign, if_neg this] at h3
        split_ifs at h3 <;> norm_num at h3
      have hf : ⌊y.val⌋ = -1 := by rw [Int.floor_eq_iff]; push_cast; constructor <;> linarith
      obtain ⟨x, a, b, c⟩ := setSi_small (le := le) (z := -1) (by norm_num)
      exact ⟨x, a, b, by rw [c, hf]⟩
  · rw [if_neg h1]
    by_cases h2 : 53 ≤ y.exp
    · rw [if_pos h2]
      obtain ⟨n, _, _, hv⟩ := val_int hy h2
      exact ⟨y, rfl, hy, by rw [hv, Int.floor_intCast]⟩
    · rw [if_neg h2, ldexp_exact hy (by omega)]
      have f1 := Int.floor_le y.val
      have f2 := Int.lt_floor_add_one y.val
      obtain ⟨x, a, b, c⟩ := setD_int (le := le) (z := ⌊y.val⌋)
        (int_bound (abs_bound hy (by omega)) (by rw [abs_le]; constructor <;> linarith))
      exact ⟨x, a, b, c⟩

/-- **C65** (`dpe_ceil`) -/
theorem C65_ceil {le : Bool} {y : Dpe} (hy : Norm y) : ∃ x, ceil le y = .ok x ∧ Norm x ∧ x.val = ⌈y.val⌉ := by
  have sv := sign_val y
  rw [ceil]
  by_cases h1 : y.exp ≤ 0
  · rw [if_pos h1]
    obtain ⟨l1, l2⟩ := abs_lt.1 (one_of_nonpos hy h1)
    by_cases h3 : 0 < sign y
    · rw [if_pos h3]
      have hn : 0 < y.val := by
        by_contra hc
        have hd : ¬ 0 < y.d := fun h => hc (sv.2.2 h)
        rw [sign, if_neg hd] at h3
        split_ifs at h3 <;> norm_num at h3
      have hf : ⌈y.val⌉ = 1 := by rw [Int.ceil_eq_iff]; push_cast; constructor <;> linarith
      obtain ⟨x, a, b, c⟩ := setSi_small (le := le) (z := 1) (by norm_num)
      exact ⟨x, a, b, by rw [c, hf]⟩
    · rw [if_neg h3]
      have hn : y.val ≤ 0 := by
        by_contra hc
        have hd := sv.2.1 (not_le.1 hc)
        rw [sign, if_neg hd.not_gt, if_pos hd] at h3; norm_num at h3
      have hf : ⌈y.val⌉ = 0 := by rw [Int.ceil_eq_iff]; push_cast; constructor <;> linarith
      obtain ⟨x, a, b, c⟩ := setSi_small (le := le) (z := 0) (by norm_num)
      exact ⟨x, a, b, by rw [c, hf]⟩
  · rw [if_neg h1]
    by_cases h2 : 53 ≤ y.exp
    · rw [if_pos h2]
      obtain ⟨n, _, _, hv⟩ := val_int hy h2
      exact ⟨y, rfl, hy, by rw [hv, Int.ceil_intCast]⟩
    · rw [if_neg h2, ldexp_exact hy (by omega)]
      have f1 := Int.le_ceil y.val
      have f2 := Int.ceil_lt_add_one y.val
      obtain ⟨x, a, b, c⟩ := setD_int (le := le) (z := ⌈y.val⌉)
        (int_bound (abs_bound hy (by omega)) (by rw [abs_le]; constructor <;> linarith))
      exact ⟨x, a, b, c⟩

/-- **C65** (`dpe_frac`): exactly what `trunc` leaves -/
theorem C65_frac {le : Bool} {y : Dpe} (hy : Norm y) :
    ∃ x z, frac le y = .ok x ∧ Norm x ∧ x.val = y.val - (z : ℤ) ∧ IsTrunc y.val z := by
  rw [frac]
  by_cases h1 : y.exp ≤ 0
  · rw [if_pos h1]
    exact ⟨y, 0, rfl, hy, by push_cast; ring, isTrunc_small (one_of_nonpos hy h1)⟩
  · rw [if_neg h1]
    by_cases h2 : 53 ≤ y.exp
    · rw [if_pos h2]
      obtain ⟨n, _, _, hv⟩ := val_int hy h2
      obtain ⟨x, a, b, c⟩ := setSi_small (le := le) (z := 0) (by norm_num)
      refine ⟨x, n * 2 ^ (y.exp - 53).toNat, a, b, by rw [c, hv, sub_self]; rfl, by rw [hv]; exact isTrunc_int _⟩
    · rw [if_neg h2, ldexp_exact hy (by omega)]
      dsimp only
      have ht := cTrunc_spec y.val
      obtain ⟨n, hn, hlt, -⟩ := norm_int hy
      obtain ⟨j, hj⟩ : ∃ j : ℕ, y.exp + j = 53 := ⟨(53 - y.exp).toNat, by omega⟩
      -- the difference in units of the last place
      have hv : y.val = n * 2 ^ (-(j : ℤ)) := by
        rw [val, hn, show y.exp = 53 + -(j : ℤ) by omega, two_zpow_add, ← mul_assoc, div53]
      have hd : y.val - cTrunc y.val = ((n - cTrunc y.val * 2 ^ j : ℤ) : ℚ) * 2 ^ (-(j : ℤ)) := by
        have hp : (2 : ℚ) ^ j ≠ 0 := by positivity
        push_cast
        rw [sub_mul, ← hv, zpow_neg, zpow_natCast, mul_assoc, mul_inv_cancel₀ hp, mul_one]
      have habs : |y.val - cTrunc y.val| < 1 := by
        obtain ⟨t1, t2, t3⟩ := ht
        rcases le_total 0 y.val with h0 | h0
        · by_cases hz : y.val = 0
          · rw [hz] at t1 ⊢
            rw [abs_zero] at t1
            have := abs_nonpos_iff.1 t1
            rw [this]; norm_num
          · have hp : 0 < y.val := lt_of_le_of_ne h0 (Ne.symm hz)
            have : (0 : ℚ) ≤ cTrunc y.val := by
              by_contra hc
              have := mul_neg_of_pos_of_neg hp (not_le.1 hc)
              linarith
            rw [abs_of_nonneg h0, abs_of_nonneg this] at t1 t2
            rw [abs_lt]; constructor <;> linarith
        · by_cases hz : y.val = 0
          · rw [hz] at t1 ⊢
            rw [abs_zero] at t1
            have := abs_nonpos_iff.1 t1
            rw [this]; norm_num
          · have hp : y.val < 0 := lt_of_le_of_ne h0 hz
            have : (cTrunc y.val : ℚ) ≤ 0 := by
              by_contra hc
              have := mul_neg_of_neg_of_pos hp (not_le.1 hc)
              linarith
            rw [abs_of_nonpos h0, abs_of_nonpos this] at t1 t2
            rw [abs_lt]; constructor <;> linarith
      have hsize : |n - cTrunc y.val * 2 ^ j| ≤ 2 ^ 53 := by
        rw [hd, abs_mul, abs_of_pos (two_zpow_pos _), zpow_neg, zpow_natCast, ← div_eq_mul_inv,
          div_lt_one (by positivity)] at habs
        have h6 : |((n - cTrunc y.val * 2 ^ j : ℤ) : ℚ)| ≤ 2 ^ 53 :=
          habs.le.trans (pow_le_pow_right₀ (by norm_num) (by omega))
        exact_mod_cast h6
      have hfl : Fl53 (y.val - cTrunc y.val) := by rw [hd]; exact ⟨_, _, hsize, rfl⟩
      have hns : y.val - cTrunc y.val = 0 ∨ (2 : ℚ) ^ (-1022 : ℤ) ≤ |y.val - cTrunc y.val| := by
        rw [hd]
        by_cases h0 : n - cTrunc y.val * 2 ^ j = 0
        · left; rw [h0]; simp
        · right
          refine small_le (k := -(j : ℤ)) (by omega) ?_
          rw [abs_mul, abs_of_pos (two_zpow_pos _)]
          have h6 : (1 : ℚ) ≤ |((n - cTrunc y.val * 2 ^ j : ℤ) : ℚ)| := by exact_mod_cast Int.one_le_abs h0
          calc (2 : ℚ) ^ (-(j : ℤ)) = 1 * 2 ^ (-(j : ℤ)) := (one_mul _).symm
            _ ≤ _ := mul_le_mul_of_nonneg_right h6 (two_zpow_pos _).le
      rw [rn_fl53 hfl hns]
      obtain ⟨x, a, b, c⟩ := C64_set_d_partial (le := le) hfl hns (habs.trans (pow_1024 (by norm_num)))
      exact ⟨x, _, a, b, c, ht⟩

/-- **C65** (`dpe_get_z`): the nearest integer, ties away from zero -/
theorem C65_get_z {y : Dpe} (hy : Norm y) : IsRound y.val (getZ y) := by
  rw [getZ]
  by_cases h2 : 53 ≤ y.exp
  · rw [if_pos h2]
    obtain ⟨n, hn, hlt, hv⟩ := val_int hy h2
    have hm := mant_of_exp hy (by omega)
    have hr : rn (y.d * 2 ^ 53) = n := by
      have e : y.d * 2 ^ 53 = n := by rw [hn, div_mul_cancel₀ _ (by norm_num)]
      rw [e]
      refine rn_fl53 (fl53_int hlt.le) (Or.inr ?_)
      refine small_le (k := 0) (by norm_num) ?_
      rw [zpow_zero]
      have hn0 : n ≠ 0 := by
        rintro rfl
        exact mantOk_ne hm (by rw [hn]; simp)
      exact_mod_cast Int.one_le_abs hn0
    rw [hr, cTrunc_int, hv]
    exact isRound_int _
  · rw [if_neg h2]
    by_cases h1 : y.exp < 0
    · rw [if_pos h1]; exact isRound_zero (half_of_neg hy h1)
    · rw [if_neg h1, ldexp_exact hy (by omega)]
      exact cRound_spec _

/-- rounding of a number far below one stays below one -/
theorem rn_small {q : ℚ} (h : |q| ≤ 1 / 4) : |rn q| < 1 := by
  by_cases hq : q = 0
  · rw [hq, rn_zero]; norm_num
  by_cases hs : (2 : ℚ) ^ (-1022 : ℤ) ≤ |q|
  · have := rn_err hs
    have h5 : |rn q| ≤ |q - rn q| + |q| := by
      have := abs_sub_le (rn q) q 0
      rwa [sub_zero, sub_zero, abs_sub_comm] at this
    have h6 : (2 : ℚ) ^ (-53 : ℤ) ≤ 1 / 2 := by norm_num
    have h7 := this.trans (mul_le_mul_of_nonneg_right h6 (abs_nonneg (rn q)))
    linarith
  · have hu : ulpExp q = -1074 := by
      obtain ⟨l1, _⟩ := log_bounds hq
      have := lt_of_two_zpow_lt (lt_of_le_of_lt l1 (not_le.1 hs))
      rw [ulpExp]; omega
    rw [rn, if_neg hq, hu, abs_mul, abs_of_pos (two_zpow_pos _)]
    have hp := two_zpow_pos (-1074)
    have hn := rhe_near (q / 2 ^ (-1074 : ℤ))
    have h5 : |(rhe (q / 2 ^ (-1074 : ℤ)) : ℚ)| ≤ |q / 2 ^ (-1074 : ℤ) - rhe (q / 2 ^ (-1074 : ℤ))| + |q / 2 ^ (-1074 : ℤ)| := by
      have := abs_sub_le (rhe (q / 2 ^ (-1074 : ℤ)) : ℚ) (q / 2 ^ (-1074 : ℤ)) 0
      rwa [sub_zero, sub_zero, abs_sub_comm] at this
    have h6 : |q / 2 ^ (-1074 : ℤ)| * 2 ^ (-1074 : ℤ) = |q| := by
      rw [abs_div, abs_of_pos hp, div_mul_cancel₀ _ hp.ne']
    have h7 : |(rhe (q / 2 ^ (-1074 : ℤ)) : ℚ)| * 2 ^ (-1074 : ℤ) ≤ (1 / 2 + |q / 2 ^ (-1074 : ℤ)|) * 2 ^ (-1074 : ℤ) :=
      mul_le_mul_of_nonneg_right (by linarith) hp.le
    rw [add_mul, h6] at h7
    have h8 : (2 : ℚ) ^ (-1074 : ℤ) ≤ 1 := by
      calc (2 : ℚ) ^ (-1074 : ℤ) ≤ 2 ^ (0 : ℤ) := two_zpow_le (by norm_num)
        _ = 1 := zpow_zero _
    linarith

/-- `trunc(ldexp(mantissa, exponent))` for any exponent that does not overflow -/
theorem trunc_ldexp {y : Dpe} (hy : Norm y) : IsTrunc y.val (cTrunc (rn (y.d * 2 ^ y.exp))) := by
  by_cases h : -1000 ≤ y.exp
  · rw [ldexp_exact hy h]; exact cTrunc_spec _
  · have h1 : |y.val| ≤ 1 / 4 := by
      refine (norm_abs_lt hy).le.trans ?_
      calc (2 : ℚ) ^ y.exp ≤ 2 ^ (-2 : ℤ) := two_zpow_le (by omega)
        _ = _ := by norm_num
    have h2 : |rn (y.d * 2 ^ y.exp)| < 1 := rn_small h1
    rw [cTrunc_eq (isTrunc_small h2)]
    exact isTrunc_small (by linarith)

theorem getSi_eq (y : Dpe) : getSi y = if |rn (y.d * 2 ^ y.exp)| < 2 ^ 1024 then
    (if -2 ^ 63 ≤ cTrunc (rn (y.d * 2 ^ y.exp)) ∧ cTrunc (rn (y.d * 2 ^ y.exp)) < 2 ^ 63 then
      .ok (cTrunc (rn (y.d * 2 ^ y.exp))) else .error .range) else .error .range := by
  delta getSi getD
  generalize rn (y.d * 2 ^ y.exp) = q
  generalize (2 : ℚ) ^ 1024 = B
  by_cases h : |q| < B
  · simp only [if_pos h]
  · simp only [if_neg h]

/-- **C65** (`get_si`): the number rounded towards zero, or the conversion to `long` is undefined -/
theorem C65_get_si {y : Dpe} (hy : Norm y) {z : ℤ} (hz : IsTrunc y.val z) :
    getSi y = if -2 ^ 63 ≤ z ∧ z < 2 ^ 63 then .ok z else .error .range := by
  have ht := isTrunc_unique (trunc_ldexp hy) hz
  rw [getSi_eq, ht]
  have hB : (2 : ℚ) ^ 63 + 1 < 2 ^ 1024 := pow_1024 (by norm_num)
  generalize (2 : ℚ) ^ 1024 = B at *
  by_cases hbig : |rn (y.d * 2 ^ y.exp)| < B
  · rw [if_pos hbig]
  · rw [if_neg hbig]
    have hexp : -1000 ≤ y.exp := by
      by_contra hc
      have h1 : |y.val| ≤ 1 / 4 := by
        refine (norm_abs_lt hy).le.trans ?_
        calc (2 : ℚ) ^ y.exp ≤ 2 ^ (-2 : ℤ) := two_zpow_le (by omega)
          _ = _ := by norm_num
      have h2 : |rn (y.d * 2 ^ y.exp)| < 1 := rn_small h1
      exact hbig (by linarith)
    rw [ldexp_exact hy hexp] at hbig
    have hv := hz.2.1
    rw [if_neg]
    rintro ⟨z1, z2⟩
    have h3 : |z| ≤ 2 ^ 63 := abs_le.2 ⟨z1, z2.le⟩
    have h4 : |(z : ℚ)| ≤ 2 ^ 63 := by exact_mod_cast h3
    linarith [not_lt.1 hbig]

/-- **C65** (`get_z_exp`): `z·2^e` is the number if its exponent is at least 53; otherwise `e = 0` and `z` is the number
rounded towards zero.  With zero the `int` subtraction overflows. -/
theorem C65_get_z_exp_partial {y : Dpe} (hy : Norm y) (h : -2 ^ 31 + 53 ≤ y.exp) :
    ∃ z e : ℤ, getZExp y = .ok (z, e) ∧ 0 ≤ e ∧ (53 ≤ y.exp → y.val = z * 2 ^ e ∧ |z| < 2 ^ 53) ∧
      (y.exp ≤ 53 → e = 0 ∧ IsTrunc y.val z) := by
  have ry := hy.1
  rw [ExpOk] at ry
  have hg : getZExp y = .ok (cTrunc (rn (y.d * 2 ^ (y.exp - max (y.exp - 53) 0))), max (y.exp - 53) 0) := by
    rw [getZExp, chk_of (by omega) (by omega)]; rfl
  refine ⟨_, _, hg, by omega, fun h53 => ?_, fun h53 => ?_⟩
  · obtain ⟨n, hn, hlt, hv⟩ := val_int hy h53
    have hm := mant_of_exp hy (by omega)
    have e1 : max (y.exp - 53) 0 = y.exp - 53 := by omega
    have hr : rn (y.d * 2 ^ (y.exp - (y.exp - 53))) = n := by
      have e : y.d * 2 ^ (y.exp - (y.exp - 53)) = n := by
        rw [hn, show y.exp - (y.exp - 53) = 53 by ring]; norm_num
      rw [e]
      refine rn_fl53 (fl53_int hlt.le) (Or.inr ?_)
      refine small_le (k := 0) (by norm_num) ?_
      rw [zpow_zero]
      have hn0 : n ≠ 0 := by
        rintro rfl
        exact mantOk_ne hm (by rw [hn]; simp)
      exact_mod_cast Int.one_le_abs hn0
    rw [e1, hr, cTrunc_int]
    refine ⟨?_, hlt⟩
    rw [hv]; push_cast
    congr 1
    rw [← zpow_natCast, Int.toNat_of_nonneg (by omega)]
  · have e1 : max (y.exp - 53) 0 = 0 := by omega
    rw [e1, sub_zero]
    exact ⟨rfl, trunc_ldexp hy⟩

/-- **C65** (`get_si_exp`): `z` fits in a `long`, and `z·2^e` is the number if its exponent is at least 63; otherwise `e = 0`
and `z` is the number rounded towards zero.  With zero the `int` subtraction overflows. -/
theorem C65_get_si_exp_partial {y : Dpe} (hy : Norm y) (h : -2 ^ 31 + 63 ≤ y.exp) :
    ∃ z e : ℤ, getSiExp y = .ok (z, e) ∧ 0 ≤ e ∧ |z| < 2 ^ 63 ∧ (63 ≤ y.exp → y.val = z * 2 ^ e) ∧
      (y.exp < 63 → e = 0 ∧ IsTrunc y.val z) := by
  have ry := hy.1
  rw [ExpOk] at ry
  have hm := mant_of_exp hy (by omega)
  obtain ⟨n, hn, n1, n2⟩ := hm
  have hn0 : n ≠ 0 := by rintro rfl; norm_num at n1
  have hr : rn (y.d * 2 ^ 63) = ((n * 2 ^ 10 : ℤ) : ℚ) := by
    have e : y.d * 2 ^ 63 = n * 2 ^ (10 : ℤ) := by rw [hn]; norm_num; ring
    rw [e, rn_fl53 ⟨n, 10, n2.le, rfl⟩ (Or.inr ?_)]
    · push_cast; norm_num
    · refine small_le (k := 0) (by norm_num) ?_
      rw [zpow_zero, abs_mul]
      have : (1 : ℚ) ≤ |(n : ℚ)| := by exact_mod_cast Int.one_le_abs hn0
      norm_num; linarith
  have hz0 : isZero y = false := by
    rw [isZero, decide_eq_false]
    exact mantOk_ne ⟨n, hn, n1, n2⟩
  have hg0 : getSiExp0 y = .ok (n * 2 ^ 10, y.exp - 63) := by
    rw [getSiExp0, chk_of (by omega) (by omega), hr, cTrunc_int]; rfl
  have hg : getSiExp y = if y.exp - 63 < 0 then
      .ok (cTrunc (rn (rn ((n * 2 ^ 10 : ℤ) : ℚ) * 2 ^ (y.exp - 63))), 0) else .ok (n * 2 ^ 10, y.exp - 63) := by
    rw [getSiExp, hg0]
    simp only [bind, Except.bind, hz0]
    rfl
  have nb : |n * 2 ^ 10| < 2 ^ 63 := by
    rw [abs_mul, abs_of_pos (by norm_num : (0 : ℤ) < 2 ^ 10)]
    calc |n| * 2 ^ 10 < 2 ^ 53 * 2 ^ 10 := mul_lt_mul_of_pos_right n2 (by norm_num)
      _ = _ := by norm_num
  have hvv : y.val = ((n * 2 ^ 10 : ℤ) : ℚ) * 2 ^ (y.exp - 63) := by
    rw [val, hn, show y.exp - 63 = -63 + y.exp by ring, two_zpow_add]; push_cast; norm_num; ring
  by_cases hc : y.exp - 63 < 0
  · rw [if_pos hc] at hg
    have hrr : rn ((n * 2 ^ 10 : ℤ) : ℚ) = ((n * 2 ^ 10 : ℤ) : ℚ) := by
      have e : ((n * 2 ^ 10 : ℤ) : ℚ) = n * 2 ^ (10 : ℤ) := by push_cast; norm_num
      refine rn_fl53 (by rw [e]; exact ⟨n, 10, n2.le, rfl⟩) (Or.inr ?_)
      refine small_le (k := 0) (by norm_num) ?_
      rw [zpow_zero]
      exact_mod_cast Int.one_le_abs (mul_ne_zero hn0 (by norm_num))
    rw [hrr, ← hvv] at hg
    have ht := trunc_ldexp hy
    refine ⟨_, _, hg, le_refl _, ?_, fun h63 => by omega, fun _ => ⟨rfl, ht⟩⟩
    have h1 := ht.1
    have h2 : |y.val| < 2 ^ 63 := by
      refine lt_of_lt_of_le (norm_abs_lt hy) ?_
      calc (2 : ℚ) ^ y.exp ≤ 2 ^ (63 : ℤ) := two_zpow_le (by omega)
        _ = _ := by norm_num
    have h3 : |((cTrunc (rn y.val) : ℤ) : ℚ)| < 2 ^ 63 := lt_of_le_of_lt h1 h2
    exact_mod_cast h3
  · rw [if_neg hc] at hg
    exact ⟨_, _, hg, by omega, nb, fun _ => hvv, fun h63 => by omega⟩

/-- **C65 fails** for zero: `get_si_exp` and `get_z_exp` subtract from the least `int` -/
theorem C65_zero_overflow_violated : getSiExp ⟨0, expMin⟩ = .error .overflow ∧ getZExp ⟨0, expMin⟩ = .error .overflow := by
  constructor <;> decide +kernel

/-- **C65** (`dpe_set_z`): a non-zero integer below `2^(2^31)` becomes a normalized number, truncated to 53 bits: exact up to
`2^53`, and with relative error below `2^-52` beyond -/
theorem C65_set_z_partial {z : ℤ} (h0 : z ≠ 0) (hs : z.natAbs.size < 2 ^ 31) :
    Norm (setZ z) ∧ |(setZ z).val| ≤ |(z : ℚ)| ∧ 0 < (setZ z).val * z ∧ |(z : ℚ) - (setZ z).val| < 2 ^ (-52 : ℤ) * |(z : ℚ)| ∧
      (|z| ≤ 2 ^ 53 → (setZ z).val = z) := by
  obtain ⟨E, hE⟩ : ∃ E : ℕ, z.natAbs.size = E := ⟨_, rfl⟩
  have hn0 : z.natAbs ≠ 0 := by omega
  have hEpos : 0 < E := by rw [← hE]; exact Nat.size_pos.2 (by omega)
  have hlt : z.natAbs < 2 ^ E := by rw [← hE]; exact Nat.lt_size_self _
  have hge : 2 ^ (E - 1) ≤ z.natAbs := Nat.lt_size.1 (by omega)
  have hzq : |(z : ℚ)| = (z.natAbs : ℚ) := by rw [Nat.cast_natAbs]; push_cast; rfl
  have hltq : |(z : ℚ)| < 2 ^ (E : ℤ) := by rw [hzq, zpow_natCast]; exact_mod_cast hlt
  have hgeq : (2 : ℚ) ^ ((E : ℤ) - 1) ≤ |(z : ℚ)| := by
    rw [hzq, show (E : ℤ) - 1 = ((E - 1 : ℕ) : ℤ) by omega, zpow_natCast]; exact_mod_cast hge
  set u : ℚ := 2 ^ ((E : ℤ) - 53) with hu
  have hup : 0 < u := two_zpow_pos _
  have ht := cTrunc_spec ((z : ℚ) / u)
  set n := cTrunc ((z : ℚ) / u) with hn
  have hw : wrap32 (E : ℤ) = E := by rw [wrap32]; omega
  have hset : setZ z = ⟨(n : ℚ) / 2 ^ 53, E⟩ := by
    rw [setZ, if_neg h0]
    dsimp only
    rw [hE, hw, ← hu, ← hn]
  have hv : (setZ z).val = n * u := by
    rw [hset, val, hu, show (E : ℤ) - 53 = -53 + E by ring, two_zpow_add]
    dsimp only
    norm_num
    ring
  have hq1 : (2 : ℚ) ^ 52 ≤ |(z : ℚ) / u| := by
    rw [abs_div, abs_of_pos hup, le_div_iff₀ hup]
    refine le_trans (le_of_eq ?_) hgeq
    rw [hu, show (2 : ℚ) ^ 52 = 2 ^ (52 : ℤ) from rfl, ← two_zpow_add, show (52 : ℤ) + ((E : ℤ) - 53) = (E : ℤ) - 1 by ring]
  have hq2 : |(z : ℚ) / u| < 2 ^ 53 := by
    rw [abs_div, abs_of_pos hup, div_lt_iff₀ hup]
    refine lt_of_lt_of_le hltq (le_of_eq ?_)
    rw [hu, show (2 : ℚ) ^ 53 = 2 ^ (53 : ℤ) from rfl, ← two_zpow_add, show (53 : ℤ) + ((E : ℤ) - 53) = (E : ℤ) by ring]
  obtain ⟨t1, t2, t3⟩ := ht
  have nlo : 2 ^ 52 ≤ |n| := by
    have : (2 : ℚ) ^ 52 < |(n : ℚ)| + 1 := lt_of_le_of_lt hq1 t2
    have h' : (2 : ℤ) ^ 52 < |n| + 1 := by exact_mod_cast this
    omega
  have nhi : |n| < 2 ^ 53 := by
    have : |(n : ℚ)| < 2 ^ 53 := lt_of_le_of_lt t1 hq2
    exact_mod_cast this
  have hzu : (z : ℚ) = (z : ℚ) / u * u := (div_mul_cancel₀ _ hup.ne').symm
  have hnn : n ≠ 0 := by rintro h; rw [h] at nlo; norm_num at nlo
  have hpos : 0 < (z : ℚ) / u * n := by
    refine lt_of_le_of_ne t3 (Ne.symm (mul_ne_zero ?_ (by exact_mod_cast hnn)))
    exact div_ne_zero (by exact_mod_cast h0) hup.ne'
  -- distance in units
  have hdist : |(z : ℚ) / u - n| < 1 := by
    generalize (z : ℚ) / u = q at *
    rcases lt_or_gt_of_ne (show q ≠ 0 by rintro rfl; simp at hpos) with hneg | hp
    · have : (n : ℚ) < 0 := by
        by_contra hc
        have := mul_nonpos_of_nonpos_of_nonneg hneg.le (not_lt.1 hc)
        linarith
      rw [abs_of_neg hneg, abs_of_neg this] at t1 t2
      rw [abs_lt]; constructor <;> linarith
    · have : (0 : ℚ) < n := by
        by_contra hc
        have := mul_nonpos_of_nonneg_of_nonpos hp.le (not_lt.1 hc)
        linarith
      rw [abs_of_pos hp, abs_of_pos this] at t1 t2
      rw [abs_lt]; constructor <;> linarith
  refine ⟨?_, ?_, ?_, ?_, ?_⟩
  · rw [hset]
    exact ⟨⟨by dsimp only; omega, by dsimp only; omega⟩, Or.inr ⟨n, rfl, nlo, nhi⟩⟩
  · rw [hv, hzu, abs_mul, abs_mul]
    exact mul_le_mul_of_nonneg_right t1 (abs_nonneg _)
  · rw [hv]
    have : (n : ℚ) * u * z = (z : ℚ) / u * n * (u * u) := by field_simp
    rw [this]; exact mul_pos hpos (mul_pos hup hup)
  · rw [hv]
    have e1 : (z : ℚ) - n * u = ((z : ℚ) / u - n) * u := by rw [sub_mul, ← hzu]
    rw [e1, abs_mul, abs_of_pos hup]
    calc |(z : ℚ) / u - n| * u < 1 * u := mul_lt_mul_of_pos_right hdist hup
      _ = 2 ^ (-52 : ℤ) * 2 ^ ((E : ℤ) - 1) := by
        rw [one_mul, hu, ← two_zpow_add, show (-52 : ℤ) + ((E : ℤ) - 1) = (E : ℤ) - 53 by ring]
      _ ≤ _ := mul_le_mul_of_nonneg_left hgeq (two_zpow_pos _).le
  · intro h53
    rw [hv]
    -- the quotient is an integer
    have hint : ∃ i : ℤ, (z : ℚ) / u = i := by
      by_cases hE53 : E ≤ 53
      · obtain ⟨j, hj⟩ : ∃ j : ℕ, E + j = 53 := ⟨53 - E, by omega⟩
        refine ⟨z * 2 ^ j, ?_⟩
        rw [hu, show (E : ℤ) - 53 = -(j : ℤ) by omega, zpow_neg, zpow_natCast, div_inv_eq_mul]
        push_cast; rfl
      · -- only `±2^53` has 54 bits
        have hEq : E = 54 := by
          by_contra hne
          have h54 : 2 ^ 54 ≤ 2 ^ (E - 1) := Nat.pow_le_pow_right (by norm_num) (by omega)
          have : z.natAbs ≤ 2 ^ 53 := by
            rw [Int.abs_eq_natAbs] at h53; exact_mod_cast h53
          have := h54.trans (hge.trans this)
          norm_num at this
        have hz53 : z.natAbs = 2 ^ 53 := by
          rw [hEq] at hge
          refine le_antisymm ?_ hge
          rw [Int.abs_eq_natAbs] at h53; exact_mod_cast h53
        rw [hu, hEq]
        rcases Int.natAbs_eq z with h | h <;> rw [hz53] at h
        · exact ⟨2 ^ 52, by rw [h]; norm_num⟩
        · exact ⟨-2 ^ 52, by rw [h]; norm_num⟩
    obtain ⟨i, hi⟩ := hint
    have : n = i := by rw [hn, hi]; exact cTrunc_int i
    rw [this, ← hi]
    exact div_mul_cancel₀ _ hup.ne'

/-- instances of the hypotheses -/
example : Norm three ∧ -2 ^ 31 + 63 ≤ three.exp ∧ IsTrunc three.val 3 :=
  ⟨norm_three, by norm_num [three], by norm_num [three, val, IsTrunc]⟩

end Dpe
end Fplll

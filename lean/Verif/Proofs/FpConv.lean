import Verif.Model.FpConv
import Verif.Proofs.Double

/-!
# Rounding and conversion to integers with row exponents: lemmas
-/

namespace Fplll
namespace FpConv

/-- specification: the finite numbers of a format -/
def IsFl (f : Fmt) (q : ℚ) : Prop := ∃ m e : ℤ, |m| < 2 ^ f.p ∧ f.emin ≤ e ∧ q = m * 2 ^ e ∧ |q| < 2 ^ f.emax

/-- what is used of a format -/
structure Fmt.OK (f : Fmt) : Prop where
  p2 : 2 ≤ f.p
  p64 : f.p ≤ 64
  min : f.emin + f.p ≤ -1
  max : 65 ≤ f.emax
  min' : -2 ^ 20 ≤ f.emin
  max' : f.emax ≤ 2 ^ 20

theorem dbl_ok : dbl.OK := ⟨by decide, by decide, by decide, by decide, by decide, by decide⟩
theorem ldbl_ok : ldbl.OK := ⟨by decide, by decide, by decide, by decide, by decide, by decide⟩

theorem rhe_int (n : ℤ) : rhe (n : ℚ) = n := rhe_unique (by left; simp)

theorem rhe_small {q : ℚ} (h : |q| < 1 / 2) : rhe q = 0 := rhe_unique (by left; simpa using h)

theorem rhe_abs_le {q : ℚ} {n : ℤ} (h : |q| ≤ n) : |rhe q| ≤ n := by
  obtain ⟨h1, h2⟩ := abs_le.1 h
  have a := rhe_mono h2
  have b : rhe (((-n : ℤ) : ℚ)) ≤ rhe q := rhe_mono (by push_cast; linarith)
  rw [rhe_int] at a b
  exact abs_le.2 ⟨b, a⟩

theorem cTrunc_small {q : ℚ} (h : |q| < 1) : cTrunc q = 0 := by
  obtain ⟨h1, h2⟩ := abs_lt.1 h
  unfold cTrunc
  split_ifs with h0
  · rw [Int.floor_eq_iff]; simp; exact ⟨h0, h2⟩
  · rw [Int.ceil_eq_iff]; simp; push Not at h0; exact ⟨by linarith, h0.le⟩

theorem cTrunc_int (n : ℤ) : cTrunc (n : ℚ) = n := by unfold cTrunc; split_ifs <;> simp

theorem cTrunc_abs (q : ℚ) : |(cTrunc q : ℚ)| ≤ |q| := by
  unfold cTrunc
  split_ifs with h
  · rw [abs_of_nonneg h, abs_of_nonneg (by exact_mod_cast Int.floor_nonneg.2 h)]
    exact Int.floor_le q
  · push Not at h
    have : ⌈q⌉ ≤ 0 := Int.ceil_le.2 (by simpa using h.le)
    rw [abs_of_neg h, abs_of_nonpos (by exact_mod_cast this)]
    linarith [Int.le_ceil q]

theorem cTrunc_near (q : ℚ) : |q - cTrunc q| < 1 := by
  unfold cTrunc
  split_ifs with h
  · rw [abs_of_nonneg (by linarith [Int.floor_le q])]
    linarith [Int.lt_floor_add_one q]
  · rw [abs_of_nonpos (by linarith [Int.le_ceil q])]
    linarith [Int.ceil_lt_add_one q]

theorem cTrunc_neg (q : ℚ) : cTrunc (-q) = -cTrunc q := by
  unfold cTrunc
  rcases lt_trichotomy q 0 with h | h | h
  · rw [if_pos (by linarith), if_neg (by linarith), Int.floor_neg]
  · simp [h]
  · rw [if_neg (by linarith), if_pos h.le, Int.ceil_neg]

theorem wrap32_id {n : ℤ} (h1 : -2 ^ 31 ≤ n) (h2 : n < 2 ^ 31) : wrap32 n = n := by unfold wrap32; omega

variable {f : Fmt}

/-- numbers of the format are not changed by rounding -/
theorem rnd_rep {m e : ℤ} (hm : |m| < 2 ^ f.p) (he : f.emin ≤ e) : rnd f ((m : ℚ) * 2 ^ e) = m * 2 ^ e := by
  by_cases h0 : (m : ℚ) * 2 ^ e = 0
  · rw [rnd, if_pos h0, h0]
  rw [rnd, if_neg h0]
  set q := (m : ℚ) * 2 ^ e with hq
  have hlog : Int.log 2 |q| - (f.p - 1) ≤ e := by
    have h1 := (log_bounds h0).1
    have h2 : |q| < 2 ^ ((f.p : ℤ) + e) := by
      rw [hq, abs_mul, abs_of_pos (two_zpow_pos e), two_zpow_add]
      refine mul_lt_mul_of_pos_right ?_ (two_zpow_pos e)
      rw [zpow_natCast]
      exact_mod_cast hm
    have := lt_of_two_zpow_lt (lt_of_le_of_lt h1 h2)
    omega
  have hu : ulpE f q ≤ e := max_le hlog he
  obtain ⟨k, hk⟩ := Int.eq_ofNat_of_zero_le (sub_nonneg.2 hu)
  have hz : q / 2 ^ ulpE f q = ((m * 2 ^ k : ℤ) : ℚ) := by
    rw [div_eq_iff (two_zpow_pos _).ne']
    push_cast
    rw [mul_assoc, ← zpow_natCast, ← two_zpow_add, ← hk, sub_add_cancel]
  rw [hz, rhe_int, ← hz, div_mul_cancel₀ _ (two_zpow_pos _).ne']

theorem rnd_small (hp : 1 ≤ f.p) {q : ℚ} (h : |q| ≤ 2 ^ (f.emin + f.p - 1)) : |rnd f q| ≤ 2 ^ (f.emin + f.p - 1) := by
  by_cases h0 : q = 0
  · rw [rnd, if_pos h0, abs_zero]; exact (two_zpow_pos _).le
  rw [rnd, if_neg h0]
  have h1 := (log_bounds h0).1
  have h2 : Int.log 2 |q| ≤ f.emin + f.p - 1 := by
    by_contra hc
    have := two_zpow_lt (by omega : f.emin + f.p - 1 < Int.log 2 |q|)
    linarith
  have hu : ulpE f q = f.emin := max_eq_right (by omega)
  rw [hu]
  have h3 : |q / 2 ^ f.emin| ≤ ((2 ^ (f.p - 1) : ℤ) : ℚ) := by
    rw [abs_div, abs_of_pos (two_zpow_pos _), div_le_iff₀ (two_zpow_pos _)]
    push_cast
    rw [← zpow_natCast, ← two_zpow_add]
    refine h.trans (two_zpow_le ?_)
    omega
  have h4 := rhe_abs_le h3
  have h5 : |(rhe (q / 2 ^ f.emin) : ℚ)| ≤ 2 ^ (f.p - 1) := by exact_mod_cast h4
  rw [abs_mul, abs_of_pos (two_zpow_pos _)]
  calc _ ≤ (2 : ℚ) ^ (f.p - 1) * 2 ^ f.emin := mul_le_mul_of_nonneg_right h5 (two_zpow_pos _).le
    _ = 2 ^ (f.emin + f.p - 1) := by
      rw [← zpow_natCast, ← two_zpow_add]; congr 1; omega

/-- scaling by a power of two is exact unless the result is tiny -/
theorem rnd_scale (hf : f.OK) {x : ℚ} (hx : IsFl f x) (k : ℤ) :
    rnd f (x * 2 ^ k) = x * 2 ^ k ∨ |x * 2 ^ k| ≤ 1 / 4 ∧ |rnd f (x * 2 ^ k)| ≤ 1 / 4 := by
  obtain ⟨m, e, hm, he, rfl, -⟩ := hx
  have e1 : (m : ℚ) * 2 ^ e * 2 ^ k = m * 2 ^ (e + k) := by rw [two_zpow_add, mul_assoc]
  rw [e1]
  by_cases h : f.emin ≤ e + k
  · exact .inl (rnd_rep hm h)
  · right
    have hq : (2 : ℚ) ^ (f.emin + f.p - 1) ≤ 1 / 4 := by
      have := two_zpow_le (by have := hf.min; omega : f.emin + f.p - 1 ≤ -2)
      refine this.trans (by norm_num)
    have h1 : |(m : ℚ) * 2 ^ (e + k)| ≤ 2 ^ (f.emin + f.p - 1) := by
      rw [abs_mul, abs_of_pos (two_zpow_pos _)]
      have : |(m : ℚ)| ≤ 2 ^ (f.p : ℤ) := by rw [zpow_natCast]; exact_mod_cast hm.le
      calc _ ≤ (2 : ℚ) ^ (f.p : ℤ) * 2 ^ (e + k) := mul_le_mul_of_nonneg_right this (two_zpow_pos _).le
        _ = 2 ^ ((f.p : ℤ) + (e + k)) := (two_zpow_add _ _).symm
        _ ≤ _ := two_zpow_le (by omega)
    exact ⟨h1.trans hq, (rnd_small (by have := hf.p2; omega) h1).trans hq⟩

theorem ldexp_ok (hf : f.OK) {x : ℚ} (hx : IsFl f x) {k : ℤ} (h1 : -2 ^ 31 ≤ k) (h2 : k < 2 ^ 31)
    (hs : |x * 2 ^ k| < 2 ^ f.emax) :
    ∃ v, ldexp f x k = .ok v ∧ (v = x * 2 ^ k ∨ |x * 2 ^ k| ≤ 1 / 4 ∧ |v| ≤ 1 / 4) := by
  refine ⟨rnd f (x * 2 ^ k), ?_, rnd_scale hf hx k⟩
  unfold ldexp
  rw [wrap32_id h1 h2]
  refine if_pos ?_
  rcases rnd_scale hf hx k with h | ⟨-, h⟩
  · rwa [h]
  · refine lt_of_le_of_lt h (lt_of_lt_of_le (by norm_num : (1 / 4 : ℚ) < 2 ^ (0 : ℤ)) (two_zpow_le ?_))
    have := hf.max
    omega

theorem cTrunc_of {v z : ℚ} (h : v = z ∨ |z| ≤ 1 / 4 ∧ |v| ≤ 1 / 4) : cTrunc v = cTrunc z := by
  rcases h with h | ⟨h1, h2⟩
  · rw [h]
  · rw [cTrunc_small (by linarith), cTrunc_small (by linarith)]

theorem rhe_of {v z : ℚ} (h : v = z ∨ |z| ≤ 1 / 4 ∧ |v| ≤ 1 / 4) : rhe v = rhe z := by
  rcases h with h | ⟨h1, h2⟩
  · rw [h]
  · rw [rhe_small (by linarith), rhe_small (by linarith)]

/-- `2^(e-1) ≤ |x| < 2^e` for `e = exponent x` -/
theorem exponent_bounds {x : ℚ} (h : x ≠ 0) : (2 : ℚ) ^ (exponent x - 1) ≤ |x| ∧ |x| < 2 ^ exponent x := by
  rw [exponent, if_neg h]
  have := log_bounds h
  rwa [add_sub_cancel_right]

theorem exponent_le {x : ℚ} (hx : IsFl f x) (h : x ≠ 0) : exponent x ≤ f.emax := by
  obtain ⟨m, e, hm, he, hq, hb⟩ := hx
  have := lt_of_two_zpow_lt (lt_of_le_of_lt (exponent_bounds h).1 hb)
  omega

theorem exponent_ge {x : ℚ} (hx : IsFl f x) (h : x ≠ 0) : f.emin < exponent x := by
  obtain ⟨m, e, hm, he, hq, hb⟩ := hx
  have hm0 : m ≠ 0 := by rintro rfl; simp at hq; exact h hq
  have h1 : (2 : ℚ) ^ e ≤ |x| := by
    rw [hq, abs_mul, abs_of_pos (two_zpow_pos _)]
    have : (1 : ℚ) ≤ |(m : ℚ)| := by exact_mod_cast Int.one_le_abs hm0
    nlinarith [two_zpow_pos e]
  have := lt_of_two_zpow_lt (lt_of_le_of_lt h1 (exponent_bounds h).2)
  omega

/-- a number of the format is a multiple of `2^(exponent - p)` -/
theorem multiple {x : ℚ} (hx : IsFl f x) (h : x ≠ 0) {k : ℤ} (hk : f.p ≤ exponent x + k) : ∃ n : ℤ, x * 2 ^ k = n := by
  obtain ⟨m, e, hm, he, hq, hb⟩ := hx
  have h1 : |x| < 2 ^ ((f.p : ℤ) + e) := by
    rw [hq, abs_mul, abs_of_pos (two_zpow_pos e), two_zpow_add]
    refine mul_lt_mul_of_pos_right ?_ (two_zpow_pos e)
    rw [zpow_natCast]
    exact_mod_cast hm
  have h2 := lt_of_two_zpow_lt (lt_of_le_of_lt (exponent_bounds h).1 h1)
  obtain ⟨j, hj⟩ := Int.eq_ofNat_of_zero_le (by omega : 0 ≤ e + k)
  refine ⟨m * 2 ^ j, ?_⟩
  rw [hq, mul_assoc, ← two_zpow_add, hj]
  push_cast
  simp

theorem isFl_neg {x : ℚ} (hx : IsFl f x) : IsFl f (-x) := by
  obtain ⟨m, e, hm, he, hq, hb⟩ := hx
  exact ⟨-m, e, by rwa [abs_neg], he, by rw [hq]; push_cast; ring, by rwa [abs_neg]⟩

theorem isFl_zero (hf : f.OK) : IsFl f 0 :=
  ⟨0, 0, by simp, by have := hf.min; omega, by simp, by rw [abs_zero]; exact two_zpow_pos _⟩

theorem scale_lt {x : ℚ} {e k n : ℤ} (h : |x| < 2 ^ e) (hk : e + k ≤ n) : |x * 2 ^ k| < 2 ^ n := by
  rw [abs_mul, abs_of_pos (two_zpow_pos _)]
  calc _ < (2 : ℚ) ^ e * 2 ^ k := mul_lt_mul_of_pos_right h (two_zpow_pos _)
    _ = 2 ^ (e + k) := (two_zpow_add _ _).symm
    _ ≤ _ := two_zpow_le hk

/-- `get_si_exp_we`: no undefined behaviour, truncation after scaling by `expo_add - expo` -/
theorem getSi_spec (hf : f.OK) {x : ℚ} (hx : IsFl f x) {ea : ℤ} (ha : |ea| ≤ 2 ^ 30) :
    getSiExpWe f x ea = .ok (cTrunc (x * 2 ^ (ea - if x = 0 then 0 else max (exponent x + ea - 63) 0)),
      if x = 0 then 0 else max (exponent x + ea - 63) 0) := by
  obtain ⟨a1, a2⟩ := abs_le.1 ha
  have m1 := hf.max
  have m2 := hf.max'
  unfold getSiExpWe
  generalize hE : (if x = 0 then (0 : ℤ) else max (exponent x + ea - 63) 0) = E
  have hlt : |x * 2 ^ (ea - E)| < 2 ^ (63 : ℤ) ∧ -2 ^ 31 ≤ ea - E ∧ ea - E < 2 ^ 31 := by
    by_cases h : x = 0
    · rw [if_pos h] at hE
      subst hE
      rw [h]
      refine ⟨by norm_num, by omega, by omega⟩
    · rw [if_neg h] at hE
      have := exponent_le hx h
      refine ⟨scale_lt (exponent_bounds h).2 ?_, ?_, ?_⟩ <;> omega
  obtain ⟨v, hv, hv'⟩ := ldexp_ok hf hx hlt.2.1 hlt.2.2 (hlt.1.trans (two_zpow_lt (by omega)))
  dsimp only
  rw [hv]
  have ht : |(cTrunc (x * 2 ^ (ea - E)) : ℚ)| < 2 ^ (63 : ℕ) := lt_of_le_of_lt (cTrunc_abs _) (by exact_mod_cast hlt.1)
  have ht' : |cTrunc (x * 2 ^ (ea - E))| < 2 ^ 63 := by exact_mod_cast ht
  obtain ⟨t1, t2⟩ := abs_lt.1 ht'
  have : toLong v = .ok (cTrunc (x * 2 ^ (ea - E))) := by
    unfold toLong
    rw [cTrunc_of hv', if_pos ⟨by omega, t2⟩]
  show (toLong v >>= fun r => pure (r, E)) = _
  rw [this]
  rfl

/-- `get_z_exp_we` -/
theorem getZ_spec (hf : f.OK) {x : ℚ} (hx : IsFl f x) {ea : ℤ} (ha : |ea| ≤ 2 ^ 30) :
    getZExpWe f x ea = .ok (cTrunc (x * 2 ^ (ea - max (exponent x + ea - f.p) 0)), max (exponent x + ea - f.p) 0) := by
  obtain ⟨a1, a2⟩ := abs_le.1 ha
  have m1 := hf.max
  have m2 := hf.max'
  have m3 := hf.p64
  unfold getZExpWe
  generalize hE : max (exponent x + ea - f.p) 0 = E
  have hlt : |x * 2 ^ (ea - E)| < 2 ^ (64 : ℤ) ∧ -2 ^ 31 ≤ ea - E ∧ ea - E < 2 ^ 31 := by
    by_cases h : x = 0
    · have : E = 0 := by
        rw [exponent, if_pos h] at hE
        omega
      rw [h, this]
      refine ⟨by norm_num, by omega, by omega⟩
    · have := exponent_le hx h
      refine ⟨scale_lt (exponent_bounds h).2 ?_, ?_, ?_⟩ <;> omega
  obtain ⟨v, hv, hv'⟩ := ldexp_ok hf hx hlt.2.1 hlt.2.2 (hlt.1.trans (two_zpow_lt (by omega)))
  dsimp only
  rw [hv]
  show Except.ok (cTrunc v, E) = _
  rw [cTrunc_of hv']

end FpConv
end Fplll

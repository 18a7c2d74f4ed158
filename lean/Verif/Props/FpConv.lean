import Verif.Proofs.FpConv

/-!
# C74: rounding and conversion to integers with row exponents

For `double` and `long double` (any format with `Fmt.OK`): rounding `μ · 2^e` and adding that multiple of a row works with
exactly the nearest integer, whatever the size of the numbers.  `dd_real` violates this.
-/

namespace Fplll
namespace FpConv

variable {f : Fmt}

theorem pow_toNat {E : ℤ} (h : 0 ≤ E) : ((2 ^ E.toNat : ℤ) : ℚ) = 2 ^ E := by
  push_cast
  rw [← zpow_natCast, Int.toNat_of_nonneg h]

/-- scaling back a truncation that was exact -/
theorem scaled_back {x : ℚ} {ea E : ℤ} (h0 : 0 ≤ E) {n : ℤ} (hn : x * 2 ^ (ea - E) = n) :
    cTrunc (x * 2 ^ (ea - E)) * 2 ^ E.toNat = cTrunc (x * 2 ^ ea) := by
  have h2 : x * 2 ^ ea = ((n * 2 ^ E.toNat : ℤ) : ℚ) := by
    rw [Int.cast_mul, pow_toNat h0, ← hn, mul_assoc, ← two_zpow_add]
    congr 2; omega
  rw [h2, hn, cTrunc_int, cTrunc_int]

/-- **C74** (`get_z_exp_we`): `trunc(x · 2^ea) = z · 2^expo` exactly, `expo ≥ 0`. -/
theorem C74_get_z (hf : f.OK) {x : ℚ} (hx : IsFl f x) {ea : ℤ} (ha : |ea| ≤ 2 ^ 30) :
    ∃ z E, getZExpWe f x ea = .ok (z, E) ∧ 0 ≤ E ∧ z * 2 ^ E.toNat = cTrunc (x * 2 ^ ea) := by
  refine ⟨_, _, getZ_spec hf hx ha, le_max_right _ _, ?_⟩
  by_cases h : x = 0
  · have : cTrunc 0 = 0 := cTrunc_small (by norm_num)
    simp [h, this]
  rcases le_total (exponent x + ea - f.p) 0 with hE | hE
  · rw [max_eq_right hE]; simp
  · rw [max_eq_left hE]
    obtain ⟨n, hn⟩ := multiple hx h (k := ea - (exponent x + ea - f.p)) (by omega)
    exact scaled_back hE hn

/-- **C74** (`get_si_exp_we`): the result fits into a `long`; `expo` is the least one for which it does; it is
`trunc(x · 2^ea)` when that fits, and exact for formats of at most 63 digits. -/
theorem C74_get_si (hf : f.OK) {x : ℚ} (hx : IsFl f x) {ea : ℤ} (ha : |ea| ≤ 2 ^ 30) :
    ∃ r E, getSiExpWe f x ea = .ok (r, E) ∧ 0 ≤ E ∧ |r| < 2 ^ 63 ∧ (|x * 2 ^ ea| < 2 ^ (63 : ℤ) → E = 0) ∧
      (E = 0 → r = cTrunc (x * 2 ^ ea)) ∧ (E ≠ 0 → (2 : ℚ) ^ (62 + E) ≤ |x * 2 ^ ea|) ∧
      (f.p ≤ 63 → r * 2 ^ E.toNat = cTrunc (x * 2 ^ ea)) ∧ |x * 2 ^ ea - (r * 2 ^ E.toNat : ℤ)| < 2 ^ E := by
  refine ⟨_, _, getSi_spec hf hx ha, ?_⟩
  by_cases h : x = 0
  · have : cTrunc 0 = 0 := cTrunc_small (by norm_num)
    simp [h, this]
  rw [if_neg h]
  obtain ⟨b1, b2⟩ := exponent_bounds h
  have hlow : (2 : ℚ) ^ (exponent x - 1 + ea) ≤ |x * 2 ^ ea| := by
    rw [two_zpow_add, abs_mul, abs_of_pos (two_zpow_pos ea)]
    exact mul_le_mul_of_nonneg_right b1 (two_zpow_pos _).le
  generalize hE : max (exponent x + ea - 63) 0 = E
  have h0 : 0 ≤ E := by omega
  refine ⟨h0, ?_, ?_, ?_, ?_, ?_, ?_⟩
  · have hlt : |x * 2 ^ (ea - E)| < 2 ^ (63 : ℤ) := scale_lt b2 (by omega)
    have : |(cTrunc (x * 2 ^ (ea - E)) : ℚ)| < 2 ^ (63 : ℕ) := lt_of_le_of_lt (cTrunc_abs _) (by exact_mod_cast hlt)
    exact_mod_cast this
  · intro hlt
    have := lt_of_two_zpow_lt (lt_of_le_of_lt hlow hlt)
    omega
  · rintro rfl; rw [sub_zero]
  · intro hne
    refine (two_zpow_le ?_).trans hlow
    omega
  · intro hp
    by_cases h1 : E = 0
    · subst h1; simp
    obtain ⟨n, hn⟩ := multiple hx h (k := ea - E) (by omega)
    exact scaled_back h0 hn
  · have h1 := cTrunc_near (x * 2 ^ (ea - E))
    have h2 : x * 2 ^ ea = x * 2 ^ (ea - E) * 2 ^ E := by rw [mul_assoc, ← two_zpow_add]; congr 2; omega
    rw [Int.cast_mul, pow_toNat h0, h2, ← sub_mul, abs_mul, abs_of_pos (two_zpow_pos E)]
    calc _ < 1 * (2 : ℚ) ^ E := mul_lt_mul_of_pos_right h1 (two_zpow_pos _)
      _ = _ := one_mul _

/-- **C74** (`rnd_we`): `y · 2^ea` is the integer nearest to `b · 2^ea`, the even one of two, for all `b` but those of the
last binade. -/
theorem C74_rnd_we (hf : f.OK) {b : ℚ} (hb : IsFl f b) {ea : ℤ} (ha : |ea| ≤ 2 ^ 30) (hs : |b| < 2 ^ (f.emax - 1)) :
    ∃ y, rndWe f b ea = .ok y ∧ IsFl f y ∧ y * 2 ^ ea = rhe (b * 2 ^ ea) := by
  obtain ⟨a1, a2⟩ := abs_le.1 ha
  have m1 := hf.max
  have m2 := hf.max'
  have m3 := hf.p64
  have m4 := hf.min
  have m5 := hf.p2
  unfold rndWe
  by_cases hc : (f.p : ℤ) ≤ exponent b + ea
  · rw [if_pos hc]
    refine ⟨b, rfl, hb, ?_⟩
    by_cases h : b = 0
    · rw [h, zero_mul, rhe_small (by norm_num)]; simp
    · obtain ⟨n, hn⟩ := multiple hb h hc
      rw [hn, rhe_int]
  · rw [if_neg hc]
    push Not at hc
    have hlt : |b * 2 ^ ea| < 2 ^ (64 : ℤ) := by
      by_cases h : b = 0
      · rw [h]; norm_num
      · exact scale_lt (exponent_bounds h).2 (by omega)
    obtain ⟨v, hv, hv'⟩ := ldexp_ok hf hb (by omega) (by omega) (hlt.trans (two_zpow_lt (by omega)))
    rw [hv]
    show ∃ y, ldexp f (rhe v) (-ea) = .ok y ∧ _
    rw [rhe_of hv']
    set n := rhe (b * 2 ^ ea) with hn
    have key : IsFl f ((n : ℚ) * 2 ^ (-ea)) := by
      by_cases h : b = 0
      · have : n = 0 := by rw [hn, h, zero_mul]; exact rhe_small (by norm_num)
        rw [this, Int.cast_zero, zero_mul]
        exact isFl_zero hf
      by_cases hneg : exponent b + ea < 0
      · have : n = 0 := by
          refine rhe_small (lt_of_lt_of_le (scale_lt (n := -1) (exponent_bounds h).2 (by omega)) (by norm_num))
        rw [this, Int.cast_zero, zero_mul]
        exact isFl_zero hf
      obtain ⟨j, hj⟩ := Int.eq_ofNat_of_zero_le (not_lt.1 hneg)
      have hjn : |n| ≤ 2 ^ j := by
        refine rhe_abs_le ?_
        have := (scale_lt (n := j) (exponent_bounds h).2 (k := ea) (by omega)).le
        rw [zpow_natCast] at this
        exact_mod_cast this
      have hjp : j < f.p := by omega
      have hnp : |n| < 2 ^ f.p := lt_of_le_of_lt hjn (pow_lt_pow_right₀ (by norm_num) hjp)
      have hbig : |(n : ℚ) * 2 ^ (-ea)| < 2 ^ f.emax := by
        have h1 : |(n : ℚ)| ≤ 2 ^ (j : ℤ) := by rw [zpow_natCast]; exact_mod_cast hjn
        have h2 : exponent b ≤ f.emax - 1 := by
          have := lt_of_two_zpow_lt (lt_of_le_of_lt (exponent_bounds h).1 hs)
          omega
        rw [abs_mul, abs_of_pos (two_zpow_pos _)]
        calc _ ≤ (2 : ℚ) ^ (j : ℤ) * 2 ^ (-ea) := mul_le_mul_of_nonneg_right h1 (two_zpow_pos _).le
          _ = 2 ^ ((j : ℤ) + -ea) := (two_zpow_add _ _).symm
          _ < _ := two_zpow_lt (by omega)
      by_cases hmin : f.emin ≤ -ea
      · exact ⟨n, -ea, hnp, hmin, rfl, hbig⟩
      · obtain ⟨m, e, hm, he, hq, hb'⟩ := hb
        obtain ⟨i, hi⟩ := Int.eq_ofNat_of_zero_le (by omega : 0 ≤ e + ea)
        have hz : b * 2 ^ ea = ((m * 2 ^ i : ℤ) : ℚ) := by
          rw [hq, mul_assoc, ← two_zpow_add, hi]; push_cast; simp
        have hnz : (n : ℚ) = b * 2 ^ ea := by rw [hn, hz, rhe_int]
        rw [hnz, mul_assoc, ← two_zpow_add, add_neg_cancel, zpow_zero, mul_one]
        exact ⟨m, e, hm, he, hq, hb'⟩
    obtain ⟨m, e, hm, he, hq, hb'⟩ := key
    refine ⟨(n : ℚ) * 2 ^ (-ea), ?_, ⟨m, e, hm, he, hq, hb'⟩, ?_⟩
    · unfold ldexp
      rw [wrap32_id (by omega) (by omega)]
      have : rnd f ((n : ℚ) * 2 ^ (-ea)) = (n : ℚ) * 2 ^ (-ea) := by rw [hq]; exact rnd_rep hm he
      dsimp only
      rw [this, if_pos hb']
    · rw [mul_assoc, ← two_zpow_add, neg_add_cancel, zpow_zero, mul_one]

/-- **C74** (`row_addmul_we`): the multiple that is added is the integer `x · 2^ea`, for `double` with both kinds of row
operations and for formats up to 64 digits without `row_op_force_long`. -/
theorem C74_row_mult (hf : f.OK) (forceLong : Bool) (hp : forceLong = true → f.p ≤ 63) {x : ℚ} (hx : IsFl f x) {ea n : ℤ}
    (ha : |ea| ≤ 2 ^ 30) (hn : x * 2 ^ ea = n) : rowMult f forceLong false x ea = .ok n := by
  obtain ⟨r, E, h1, h2, -, -, h4, -, h6, -⟩ := C74_get_si hf hx ha
  obtain ⟨z, E', k1, k2, k3⟩ := C74_get_z hf hx ha
  rw [hn, cTrunc_int] at h4 h6 k3
  unfold rowMult
  rw [h1]
  show (if E = 0 then Except.ok r else _) = _
  by_cases hE : E = 0
  · rw [if_pos hE, h4 hE]
  rw [if_neg hE]
  cases forceLong with
  | true => show Except.ok _ = _; rw [h6 (hp rfl)]
  | false =>
    show (getZExpWe f x ea >>= fun q => pure (q.1 * 2 ^ q.2.toNat)) = _
    rw [k1]
    show Except.ok _ = _
    rw [k3]

/-- **C74**: one step of the size reduction of LLL and HLLL subtracts exactly the nearest integer to `μ · 2^ea` times the
row, and updates the other coefficients with the same number; `|μ · 2^ea + m| ≤ 1/2` afterwards. -/
theorem C74_babai_step (hf : f.OK) (forceLong : Bool) (hp : forceLong = true → f.p ≤ 63) {mu : ℚ} (hm : IsFl f mu) {ea : ℤ}
    (ha : |ea| ≤ 2 ^ 30) (hs : |mu| < 2 ^ (f.emax - 1)) :
    ∃ (x : ℚ) (m : ℤ), babaiStep f forceLong false mu ea = .ok (x, m) ∧ m = -rhe (mu * 2 ^ ea) ∧ x * 2 ^ ea = m ∧
      |mu * 2 ^ ea + m| ≤ 1 / 2 := by
  obtain ⟨y, h1, h2, h3⟩ := C74_rnd_we hf hm ha hs
  have hn := rhe_near (mu * 2 ^ ea)
  refine ⟨-y, -rhe (mu * 2 ^ ea), ?_, rfl, by push_cast; rw [neg_mul, h3], by push_cast; rwa [← sub_eq_add_neg]⟩
  unfold babaiStep
  rw [h1]
  show (if y = 0 then Except.ok (0, 0) else _) = _
  by_cases h : y = 0
  · rw [if_pos h]
    rw [h, zero_mul] at h3
    have : rhe (mu * 2 ^ ea) = 0 := by exact_mod_cast h3.symm
    simp [h, this]
  · rw [if_neg h, C74_row_mult (n := -rhe (mu * 2 ^ ea)) hf forceLong hp (isFl_neg h2) ha (by push_cast; rw [neg_mul, h3])]
    rfl

/-- `double`, both kinds of row operations -/
theorem C74_double (forceLong : Bool) {mu : ℚ} (hm : IsFl dbl mu) {ea : ℤ} (ha : |ea| ≤ 2 ^ 30) (hs : |mu| < 2 ^ (1023 : ℤ)) :
    ∃ (x : ℚ) (m : ℤ), babaiStep dbl forceLong false mu ea = .ok (x, m) ∧ m = -rhe (mu * 2 ^ ea) ∧ x * 2 ^ ea = m ∧
      |mu * 2 ^ ea + m| ≤ 1 / 2 := C74_babai_step dbl_ok forceLong (fun _ => by decide) hm ha hs

/-- `long double` -/
theorem C74_long_double {mu : ℚ} (hm : IsFl ldbl mu) {ea : ℤ} (ha : |ea| ≤ 2 ^ 30) (hs : |mu| < 2 ^ (16383 : ℤ)) :
    ∃ (x : ℚ) (m : ℤ), babaiStep ldbl false false mu ea = .ok (x, m) ∧ m = -rhe (mu * 2 ^ ea) ∧ x * 2 ^ ea = m ∧
      |mu * 2 ^ ea + m| ≤ 1 / 2 := C74_babai_step ldbl_ok false (fun h => by cases h) hm ha hs

/-! ## Where it fails -/

/-- With `long double` and `row_op_force_long` the multiple can differ from the float: `2^63 + 1` becomes `2^63`. -/
theorem C74_long_double_force_long :
    IsFl ldbl (2 ^ 63 + 1) ∧ babaiStep ldbl true false (2 ^ 63 + 1) 0 = .ok (-(2 ^ 63 + 1), -2 ^ 63) := by
  refine ⟨⟨2 ^ 63 + 1, 0, by decide, by decide, by norm_num, ?_⟩, by decide +kernel⟩
  refine lt_of_lt_of_le (b := 2 ^ (64 : ℤ)) (by norm_num) (two_zpow_le (by decide))

/-- In the last binade `rnd_we` overflows: `1.5 · 2^1023` with `expo_add = -1023`. -/
theorem C74_last_binade : IsFl dbl (3 * 2 ^ (1022 : ℤ)) ∧ rndWe dbl (3 * 2 ^ (1022 : ℤ)) (-1023) = .error .notFinite :=
  ⟨⟨3, 1022, by decide, by decide, by norm_num, by decide +kernel⟩, by decide +kernel⟩

/-- With `long` entries and without `row_op_force_long` every multiple above `2^63` is undefined behaviour (or infinite). -/
theorem C74_long_ub (hf : f.OK) {x : ℚ} (hx : IsFl f x) {ea : ℤ} (ha : |ea| ≤ 2 ^ 30) (hbig : (2 : ℚ) ^ (63 : ℤ) < |x * 2 ^ ea|) :
    rowMult f false true x ea = .error .range ∨ rowMult f false true x ea = .error .notFinite := by
  obtain ⟨a1, a2⟩ := abs_le.1 ha
  obtain ⟨r, E, h1, h2, h3, -, h4, h5, -, -⟩ := C74_get_si hf hx ha
  have h0 : x ≠ 0 := by
    rintro rfl
    rw [zero_mul, abs_zero] at hbig
    exact absurd hbig (not_lt.2 (two_zpow_pos _).le)
  obtain ⟨n, hn⟩ : ∃ n : ℤ, x * 2 ^ ea = n := by
    refine multiple hx h0 ?_
    have := lt_of_two_zpow_lt (hbig.trans (scale_lt (n := exponent x + ea) (exponent_bounds h0).2 le_rfl))
    have := hf.p64
    omega
  have hn' : (2 : ℤ) ^ 63 < |n| := by
    rw [hn] at hbig
    have : (2 : ℚ) ^ (63 : ℤ) = ((2 ^ 63 : ℤ) : ℚ) := by norm_num
    rw [this] at hbig
    exact_mod_cast hbig
  have hE : E ≠ 0 := by
    intro h
    rw [h4 h, hn, cTrunc_int] at h3
    omega
  unfold rowMult
  rw [h1]
  show (if E = 0 then Except.ok r else _) = _ ∨ (if E = 0 then Except.ok r else _) = _
  rw [if_neg hE]
  show (getZExpWeLong f x ea >>= fun q => pure (q.1 * 2 ^ q.2.toNat)) = _ ∨
    (getZExpWeLong f x ea >>= fun q => pure (q.1 * 2 ^ q.2.toNat)) = _
  unfold getZExpWeLong
  have hrn : rnd f (x * 2 ^ ea) = x * 2 ^ ea := by
    refine (rnd_scale hf hx ea).resolve_right fun h => ?_
    have : (1 / 4 : ℚ) < 2 ^ (63 : ℤ) := by norm_num
    linarith [h.1]
  unfold ldexp
  rw [wrap32_id (by omega) (by omega), hrn]
  dsimp only
  by_cases hov : |x * 2 ^ ea| < 2 ^ f.emax
  · left
    rw [if_pos hov]
    have : toLong (x * 2 ^ ea) = .error .range := by
      unfold toLong
      rw [hn, cTrunc_int, if_neg]
      rintro ⟨c1, c2⟩
      have : |n| ≤ 2 ^ 63 := abs_le.2 ⟨c1, c2.le⟩
      omega
    show ((toLong (x * 2 ^ ea) >>= fun r => pure (r, 0)) >>= fun q : ℤ × ℤ => pure (q.1 * 2 ^ q.2.toNat)) = _
    rw [this]
    rfl
  · right
    rw [if_neg hov]
    rfl

/-! ## `dd_real` and `qd_real` -/

/-- specification: a normalised double-double number: the first part is the nearest double -/
def DD.Normal (x : DD) : Prop := IsFl dbl x.hi ∧ IsFl dbl x.lo ∧ x.hi = rnd dbl (x.hi + x.lo)

/-- the functions for `dd_real` look at the first part only -/
theorem dd_si_eq (x : DD) (ea : ℤ) : ddGetSiExpWe x ea = getSiExpWe dbl x.hi ea := rfl

theorem dd_z_eq (x : DD) (ea : ℤ) : ddGetZExpWe x ea = getZExpWe dbl x.hi ea := rfl

/-- **C74** for `dd_real`, what holds (`_partial`): the conversions are those of the first part. Missing: the second part. -/
theorem C74_dd_partial {x : DD} (hx : x.Normal) {ea : ℤ} (ha : |ea| ≤ 2 ^ 30) :
    (∃ z E, ddGetZExpWe x ea = .ok (z, E) ∧ 0 ≤ E ∧ z * 2 ^ E.toNat = cTrunc (x.hi * 2 ^ ea)) ∧
    (∃ r E, ddGetSiExpWe x ea = .ok (r, E) ∧ 0 ≤ E ∧ r * 2 ^ E.toNat = cTrunc (x.hi * 2 ^ ea)) := by
  rw [dd_z_eq, dd_si_eq]
  refine ⟨C74_get_z dbl_ok hx.1 ha, ?_⟩
  obtain ⟨r, E, h1, h2, -, -, -, -, h6, -⟩ := C74_get_si dbl_ok hx.1 ha
  exact ⟨r, E, h1, h2, h6 (by decide)⟩

/-- The documented equality of `get_si_exp_we` and `get_z_exp_we` fails for `dd_real`: for the integer `2^53 + 1` both give
`2^53`. -/
theorem C74_dd_violated : let x : DD := ⟨2 ^ 53, 1⟩
    x.Normal ∧ x.val = 2 ^ 53 + 1 ∧ ddGetSiExpWe x 0 = .ok (2 ^ 53, 0) ∧ ddGetZExpWe x 0 = .ok (2 ^ 52, 1) := by
  refine ⟨⟨⟨1, 53, by decide, by decide, by norm_num, by decide +kernel⟩,
    ⟨1, 0, by decide, by decide, by norm_num, by decide +kernel⟩, by decide +kernel⟩, rfl, by decide +kernel, by decide +kernel⟩

/-- Truncation is wrong as well: `3 - 2^-60` becomes 3. -/
theorem C74_dd_trunc_violated : let x : DD := ⟨3, -1 / 2 ^ 60⟩
    x.Normal ∧ cTrunc x.val = 2 ∧ ddGetSiExpWe x 0 = .ok (3, 0) := by
  refine ⟨⟨⟨3, 0, by decide, by decide, by norm_num, by decide +kernel⟩,
    ⟨-1, -60, by decide, by decide, by norm_num, by decide +kernel⟩, by decide +kernel⟩, by decide +kernel, by decide +kernel⟩

/-- `rnd_we` does not round numbers of `2^52` and more: `2^53 + 1/4` is returned as it is. -/
theorem C74_dd_rnd_violated (nintS : DD → ℤ → DD) : let x : DD := ⟨2 ^ 53, 1 / 4⟩
    x.Normal ∧ (ddRndWe nintS x 0).val = 2 ^ 53 + 1 / 4 := by
  refine ⟨⟨⟨1, 53, by decide, by decide, by norm_num, by decide +kernel⟩,
    ⟨1, -2, by decide, by decide, by norm_num, by decide +kernel⟩, by decide +kernel⟩, ?_⟩
  have : (53 : ℤ) ≤ exponent ((2 : ℚ) ^ 53) + 0 := by decide +kernel
  unfold ddRndWe
  rw [if_pos this]
  rfl

/-- `set_z` to `dd_real` makes a number that is not normalised: `2^54 + 3` becomes `(2^54, 3)`, the nearest double is
`2^54 + 4`. -/
theorem C74_dd_set_z_not_normal : ddSetZ (2 ^ 54 + 3) = ⟨2 ^ 54, 3⟩ ∧ ¬ (ddSetZ (2 ^ 54 + 3)).Normal := by
  have h : ddSetZ (2 ^ 54 + 3) = ⟨2 ^ 54, 3⟩ := by decide +kernel
  refine ⟨h, fun hn => ?_⟩
  rw [h] at hn
  have : (2 : ℚ) ^ 54 ≠ rnd dbl (2 ^ 54 + 3) := by decide +kernel
  exact this hn.2.2

theorem tdiv_near (z : ℤ) (k : ℕ) : |z - z.tdiv (2 ^ k) * 2 ^ k| < 2 ^ k := by
  have h := Int.tmod_add_mul_tdiv z (2 ^ k)
  have h1 : z - z.tdiv (2 ^ k) * 2 ^ k = z.tmod (2 ^ k) := by linarith
  rw [h1]
  have h2 : (0 : ℤ) < 2 ^ k := by positivity
  rw [Int.abs_eq_natAbs, Int.natAbs_tmod]
  have h3 : ((2 ^ k : ℤ).natAbs : ℤ) = 2 ^ k := by rw [← Int.abs_eq_natAbs, abs_of_pos h2]
  have h4 := Nat.mod_lt z.natAbs (y := (2 ^ k : ℤ).natAbs) (by omega)
  omega

/-- GMP's conversion: relative error below `2^-52` -/
theorem mpzGetD_err (z : ℤ) : 2 ^ 52 * |z - mpzGetD z| ≤ |z| := by
  unfold mpzGetD
  dsimp only
  rcases Nat.lt_or_ge z.natAbs.size 53 with h | h
  · rw [Nat.sub_eq_zero_of_le (by omega)]
    simp
  · obtain ⟨k, hk⟩ := Nat.exists_eq_add_of_le h
    rw [hk, Nat.add_sub_cancel_left]
    have h1 := tdiv_near z k
    have h2 : 2 ^ (52 + k) ≤ z.natAbs := Nat.lt_size.1 (by omega)
    have h3 : (2 : ℤ) ^ 52 * 2 ^ k ≤ |z| := by
      rw [← pow_add, Int.abs_eq_natAbs]
      exact_mod_cast h2
    have : (2 : ℤ) ^ 52 * |z - z.tdiv (2 ^ k) * 2 ^ k| ≤ 2 ^ 52 * 2 ^ k := mul_le_mul_of_nonneg_left h1.le (by norm_num)
    exact this.trans h3

/-- **C74** (`set_z` to `dd_real`): the value is right up to a relative error of `2^-104`. -/
theorem C74_dd_set_z (z : ℤ) : (2 : ℚ) ^ 104 * |z - (ddSetZ z).val| ≤ |(z : ℚ)| := by
  have h1 := mpzGetD_err z
  have h2 := mpzGetD_err (z - mpzGetD z)
  have h3 : (z : ℚ) - (ddSetZ z).val = ((z - mpzGetD z - mpzGetD (z - mpzGetD z) : ℤ) : ℚ) := by
    unfold ddSetZ DD.val; push_cast; ring
  rw [h3]
  have h4 : (2 : ℤ) ^ 104 * |z - mpzGetD z - mpzGetD (z - mpzGetD z)| ≤ |z| := by
    calc (2 : ℤ) ^ 104 * |z - mpzGetD z - mpzGetD (z - mpzGetD z)|
        = 2 ^ 52 * (2 ^ 52 * |z - mpzGetD z - mpzGetD (z - mpzGetD z)|) := by ring
      _ ≤ 2 ^ 52 * |z - mpzGetD z| := by linarith
      _ ≤ _ := h1
  exact_mod_cast h4

/-- **C74** (`set_z` to `qd_real`): the relative error is below `2^-52`, … -/
theorem C74_qd_set_z (z : ℤ) : 2 ^ 52 * |z - qdSetZ z| ≤ |z| := mpzGetD_err z

/-- … no better than for `double`, although a `qd_real` holds more than 200 bits: `2^53 + 1` becomes `2^53`. -/
theorem C74_qd_set_z_loses : qdSetZ (2 ^ 53 + 1) = 2 ^ 53 := by decide +kernel

/-! ## Concrete cases -/

/-- `C74_double` for `mu = -7/2`, `ea = 70`: the multiple is `7 · 2^69`, beyond `long`. -/
example (forceLong : Bool) : ∃ (x : ℚ) (m : ℤ), babaiStep dbl forceLong false (-7 / 2) 70 = .ok (x, m) ∧
    m = -rhe ((-7 / 2 : ℚ) * 2 ^ (70 : ℤ)) ∧ x * 2 ^ (70 : ℤ) = m ∧ |(-7 / 2 : ℚ) * 2 ^ (70 : ℤ) + m| ≤ 1 / 2 :=
  C74_double (mu := -7 / 2) (ea := 70) forceLong ⟨-7, -1, by decide, by decide, by norm_num, by decide +kernel⟩
    (by decide) (lt_of_lt_of_le (b := 2 ^ (2 : ℤ)) (by norm_num [abs_div]) (two_zpow_le (by norm_num)))

example : babaiStep dbl true false (-7 / 2) 70 = .ok (7 / 2, 7 * 2 ^ 69) := by decide +kernel
example : babaiStep dbl false false (7 / 2) 0 = .ok (-4, -4) := by decide +kernel
example : babaiStep ldbl false false (2 ^ 63 + 1) 3 = .ok (-(2 ^ 63 + 1), -(2 ^ 66 + 8)) := by decide +kernel
example : getZExpWe dbl 0 5 = .ok (0, 0) := by decide +kernel
/-- a subnormal number scaled up -/
example : babaiStep dbl false false (3 * 2 ^ (-1074 : ℤ)) 1073 = .ok (-(4 * 2 ^ (-1074 : ℤ)), -2) := by decide +kernel
example : rowMult dbl false true (2 ^ 70) 0 = .error .range := by decide +kernel

end FpConv
end Fplll

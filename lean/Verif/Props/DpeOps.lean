import Verif.Props.Dpe
import Verif.Proofs.DpeSqrt

/-!
# C64 (continued), C66: square root, combined operations, conversion of doubles, powers
-/

namespace Fplll
namespace Dpe

/-- **C64** (`dpe_sqrt`): the square root of a positive normalized number is normalized without a call of `dpe_normalize`,
and correctly rounded -/
theorem C64_sqrt {y x : Dpe} (hy : Norm y) (h0 : y.d ≠ 0) (h : sqrt y = .ok x) :
    0 < y.val ∧ Norm x ∧ NearestR (√(y.val : ℝ)) x.val := by
  have ry := hy.1
  rw [ExpOk] at ry
  rw [sqrt] at h
  by_cases hneg : y.d < 0
  · rw [if_pos hneg] at h; cases h
  rw [if_neg hneg] at h
  have hpos : 0 < y.d := lt_of_le_of_ne (not_lt.1 hneg) (Ne.symm h0)
  have hm : MantOk y.d := hy.2.resolve_left fun h' => h0 h'.1
  obtain ⟨n, hn, n1, n2⟩ := hm
  have npos : 0 < n := by
    have h1 : (0 : ℚ) < n := by
      rw [hn] at hpos
      by_contra hc
      have := div_nonpos_of_nonpos_of_nonneg (not_lt.1 hc) (by norm_num : (0 : ℚ) ≤ 2 ^ 53)
      linarith
    exact_mod_cast h1
  rw [abs_of_pos npos] at n1 n2
  obtain ⟨N, rfl⟩ : ∃ N : ℕ, n = N := ⟨n.toNat, by omega⟩
  have n1' : 2 ^ 52 ≤ N := by exact_mod_cast n1
  have n2' : N < 2 ^ 53 := by exact_mod_cast n2
  have fin : ∀ (q : ℚ) (M : ℕ) (k : ℤ), q = M / 2 ^ 106 → 2 ^ 104 ≤ M → M ≤ 2 ^ 106 - 2 ^ 53 → -2 ^ 31 ≤ k → k < 2 ^ 31 →
      y.val = q * 2 ^ (2 * k) → 0 < y.val ∧ Norm ⟨dSqrt q, k⟩ ∧ NearestR (√(y.val : ℝ)) (Dpe.val ⟨dSqrt q, k⟩) := by
    intro q M k hq m1 m2 k1 k2 hv
    obtain ⟨a, b, c⟩ := dSqrt_ok hq m1 m2
    refine ⟨(sign_val y).2.2 hpos, ⟨⟨k1, k2⟩, Or.inr a⟩, ?_⟩
    have hs : √(y.val : ℝ) = √(q : ℝ) * 2 ^ k := by
      have : ((y.val : ℚ) : ℝ) = (q : ℝ) * (2 ^ k) ^ 2 := by
        rw [hv]; push_cast
        congr 1
        rw [← zpow_natCast, ← zpow_mul]; congr 1; push_cast; ring
      rw [this, Real.sqrt_mul' _ (by positivity), Real.sqrt_sq (by positivity)]
    rw [hs]
    exact nearestR_scale c k
  by_cases hodd : y.exp.tmod 2 ≠ 0
  · rw [if_pos hodd] at h
    cases hc : chk (y.exp + 1) with
    | error e => rw [hc] at h; cases h
    | ok t =>
      obtain ⟨rfl, r1, r2⟩ := chk_ok.1 hc
      rw [hc] at h
      cases h
      have hr : rn (1 / 2 * y.d) = 1 / 2 * y.d := by
        have e : (1 / 2 : ℚ) * y.d = y.d * 2 ^ (-1 : ℤ) := by norm_num; ring
        refine rn_fl53 (by rw [e]; exact fl53_scale (norm_fl53 hy) _) (Or.inr ?_)
        refine small_le (k := -2) (by norm_num) ?_
        have := (mantOk_bounds ⟨(N : ℤ), hn, by rw [abs_of_pos npos]; exact n1, by rw [abs_of_pos npos]; exact n2⟩).1
        rw [abs_mul]
        norm_num at this ⊢; linarith
      rw [hr]
      have hk : (y.exp + 1).tdiv 2 * 2 = y.exp + 1 := by
        refine Int.tdiv_mul_cancel ?_
        have : ¬ (2 : ℤ) ∣ y.exp := fun hd => hodd (Int.tmod_eq_zero_of_dvd hd)
        omega
      refine fin _ (N * 2 ^ 52) _ ?_ ?_ ?_ (by omega) (by omega) ?_
      · rw [hn]; push_cast; ring
      · calc 2 ^ 104 = 2 ^ 52 * 2 ^ 52 := by norm_num
          _ ≤ _ := Nat.mul_le_mul_right _ n1'
      · have : N * 2 ^ 52 ≤ 2 ^ 53 * 2 ^ 52 := Nat.mul_le_mul_right _ n2'.le
        refine this.trans (by norm_num)
      · rw [val, mul_comm 2, hk, two_zpow_add]; norm_num; ring
  · rw [if_neg hodd] at h
    cases h
    have hk : y.exp.tdiv 2 * 2 = y.exp :=
      Int.tdiv_mul_cancel (Int.dvd_of_tmod_eq_zero (not_not.1 hodd))
    refine fin _ (N * 2 ^ 53) _ ?_ ?_ ?_ (by omega) (by omega) ?_
    · rw [hn]; push_cast; ring
    · calc 2 ^ 104 ≤ 2 ^ 52 * 2 ^ 53 := by norm_num
        _ ≤ _ := Nat.mul_le_mul_right _ n1'
    · have : N * 2 ^ 53 ≤ (2 ^ 53 - 1) * 2 ^ 53 := Nat.mul_le_mul_right _ (by omega)
      refine this.trans (by norm_num)
    · rw [val, mul_comm 2, hk]

/-- **C64** (`dpe_addmul`): two roundings, the product and the sum -/
theorem C64_addmul {le : Bool} {x y z r : Dpe} (hx : Norm x) (hy : Norm y) (hz : Norm z) (h : addmul le x y z = .ok r) :
    ∃ p, Nearest (y.val * z.val) p ∧ RelErr (y.val * z.val) p ∧ Norm r ∧ RelErr (x.val + p) r.val := by
  rw [addmul] at h
  cases h1 : mul le y z with
  | error e => rw [h1] at h; cases h
  | ok t =>
    rw [h1] at h
    obtain ⟨a, b, c⟩ := C64_mul hy hz h1
    obtain ⟨d, e, _⟩ := C64_add_partial hx a h
    exact ⟨t.val, b, c, d, e⟩

/-- **C64** (`dpe_submul`) -/
theorem C64_submul {le : Bool} {x y z r : Dpe} (hx : Norm x) (hy : Norm y) (hz : Norm z) (h : submul le x y z = .ok r) :
    ∃ p, Nearest (y.val * z.val) p ∧ RelErr (y.val * z.val) p ∧ Norm r ∧ RelErr (x.val - p) r.val := by
  rw [submul] at h
  cases h1 : mul le y z with
  | error e => rw [h1] at h; cases h
  | ok t =>
    rw [h1] at h
    obtain ⟨a, b, c⟩ := C64_mul hy hz h1
    obtain ⟨d, e, _⟩ := C64_sub_partial hx a h
    exact ⟨t.val, b, c, d, e⟩

theorem isOk_elim {α : Type} (r : Except DpeErr α) (h : r.isOk = true) : ∃ x, r = .ok x := by
  cases r with
  | error e => cases h
  | ok x => exact ⟨x, rfl⟩

example : ∃ x, sqrt three = .ok x := isOk_elim _ (by decide +kernel)

example : ∃ r s, addmul true three three mFifth = .ok r ∧ submul true three three mFifth = .ok s := by
  obtain ⟨r, hr⟩ := isOk_elim (addmul true three three mFifth) (by decide +kernel)
  obtain ⟨s, hs⟩ := isOk_elim (submul true three three mFifth) (by decide +kernel)
  exact ⟨r, s, hr, hs⟩

/-- **C64** (`dpe_set_d`): exact for zero and for every double that is not subnormal, and it never fails for finite ones -/
theorem C64_set_d_partial {le : Bool} {y : ℚ} (hf : Fl53 y) (hs : y = 0 ∨ (2 : ℚ) ^ (-1022 : ℤ) ≤ |y|) (hb : |y| < 2 ^ 1024) :
    ∃ x, setD le y = .ok x ∧ Norm x ∧ x.val = y := by
  have hn : ∃ x, setD le y = .ok x := by
    refine normalize_total hs (fun h0 => ?_) (fun h0 => ?_)
    · obtain ⟨l1, l2⟩ := log_bounds (q := y) h0
      have hs' := hs.resolve_left h0
      have := lt_of_two_zpow_lt (lt_of_le_of_lt hs' l2)
      rw [frexpE]; dsimp only; omega
    · obtain ⟨l1, l2⟩ := log_bounds (q := y) h0
      have hb' : |y| < (2 : ℚ) ^ (1024 : ℤ) := by exact_mod_cast hb
      have := lt_of_two_zpow_lt (lt_of_le_of_lt l1 hb')
      rw [frexpE]; dsimp only; omega
  obtain ⟨x, hx⟩ := hn
  obtain ⟨a, b⟩ := normalize_ok (x := ⟨y, 0⟩) hf hs hx
  exact ⟨x, hx, a, by rw [b, val]; simp⟩

/-- **C64** (`dpe_mul_2si`): exact for non-zero numbers -/
theorem C64_mul_2si_partial {y x : Dpe} {e : ℤ} (hy : Norm y) (h0 : y.d ≠ 0) (he : -2 ^ 31 ≤ e ∧ e < 2 ^ 31)
    (h : mul2si y e = .ok x) : Norm x ∧ x.val = y.val * 2 ^ e := by
  have w1 : wrap32 e = e := by rw [wrap32]; omega
  rw [mul2si, w1] at h
  cases hc : chk (y.exp + e) with
  | error e => rw [hc] at h; cases h
  | ok t =>
    obtain ⟨rfl, r1, r2⟩ := chk_ok.1 hc
    rw [hc] at h
    cases h
    refine ⟨⟨⟨r1, r2⟩, Or.inr (hy.2.resolve_left fun h' => h0 h'.1)⟩, ?_⟩
    rw [val, val, two_zpow_add]; ring

example : ∃ x, mul2si three (-5) = .ok x := ⟨_, rfl⟩

/-- **C64** (`dpe_neg`, `dpe_abs`): exact and normalized -/
theorem C64_neg_abs {y : Dpe} (hy : Norm y) :
    Norm (neg y) ∧ (neg y).val = -y.val ∧ Norm (abs y) ∧ (abs y).val = |y.val| := by
  refine ⟨norm_neg hy, val_neg y, ?_, ?_⟩
  · rw [abs]
    split_ifs with h
    · exact hy
    · exact norm_neg hy
  · rw [abs, val, val, abs_mul, abs_of_pos (two_zpow_pos y.exp)]
    split_ifs with h
    · rw [abs_of_nonneg h]
    · rw [abs_of_neg (not_le.1 h)]

/-! ### C66: powers -/

/-- a power of a number below one, for an exponent that is large enough, is below any double -/
theorem pow_underflow {m : ℚ} (h0 : 0 ≤ m) (h1 : m ≤ 1 - 1 / 2 ^ 21) : m ^ (2 ^ 32 - 1) ≤ 2 ^ (-1075 : ℤ) := by
  have hb : m ^ (2 ^ 21) ≤ 1 / 2 := by
    have h2 : m * (1 + 1 / 2 ^ 21) ≤ 1 := by
      calc m * (1 + 1 / 2 ^ 21) ≤ (1 - 1 / 2 ^ 21) * (1 + 1 / 2 ^ 21) := mul_le_mul_of_nonneg_right h1 (by norm_num)
        _ ≤ 1 := by norm_num
    have h3 : (m * (1 + 1 / 2 ^ 21)) ^ (2 ^ 21) ≤ 1 := pow_le_one₀ (by positivity) h2
    have h4 : (1 : ℚ) + (2 ^ 21 : ℕ) * (1 / 2 ^ 21) ≤ (1 + 1 / 2 ^ 21) ^ (2 ^ 21) :=
      one_add_mul_le_pow (by norm_num) _
    have h5 : (2 : ℚ) ≤ (1 + 1 / 2 ^ 21) ^ (2 ^ 21) := by
      refine le_trans (le_of_eq ?_) h4
      push_cast; norm_num
    rw [mul_pow] at h3
    have h6 := mul_le_mul_of_nonneg_left h5 (pow_nonneg h0 (2 ^ 21))
    generalize m ^ 2 ^ 21 = a at h3 h6 ⊢
    generalize ((1 : ℚ) + 1 / 2 ^ 21) ^ 2 ^ 21 = c at h3 h6
    linarith
  have hm1 : m ≤ 1 := h1.trans (by norm_num)
  calc m ^ (2 ^ 32 - 1) ≤ m ^ (2 ^ 21 * 1075) := pow_le_pow_of_le_one h0 hm1 (by norm_num)
    _ = (m ^ (2 ^ 21)) ^ 1075 := pow_mul _ _ _
    _ ≤ (1 / 2) ^ 1075 := pow_le_pow_left₀ (pow_nonneg h0 _) hb _
    _ = _ := by rw [zpow_neg, one_div, inv_pow]; rfl

theorem rn_underflow {q : ℚ} (h0 : 0 ≤ q) (h : q ≤ 2 ^ (-1075 : ℤ)) : rn q = 0 := by
  by_cases hq : q = 0
  · rw [hq]; exact rn_zero
  rw [rn, if_neg hq]
  have hu : ulpExp q = -1074 := by
    obtain ⟨l1, _⟩ := log_bounds hq
    have : (2 : ℚ) ^ Int.log 2 |q| < 2 ^ (-1074 : ℤ) :=
      lt_of_le_of_lt l1 (by rw [abs_of_nonneg h0]; exact lt_of_le_of_lt h (two_zpow_lt (by norm_num)))
    have := lt_of_two_zpow_lt this
    rw [ulpExp]; omega
  rw [hu]
  have ht : q / 2 ^ (-1074 : ℤ) ≤ 1 / 2 := by
    rw [div_le_iff₀ (two_zpow_pos _)]
    refine h.trans (le_of_eq ?_)
    rw [show (-1075 : ℤ) = -1 + -1074 by norm_num, two_zpow_add]; norm_num
  have ht0 : 0 ≤ q / 2 ^ (-1074 : ℤ) := div_nonneg h0 (two_zpow_pos _).le
  generalize q / 2 ^ (-1074 : ℤ) = t at ht ht0
  have hfl : ⌊t⌋ = 0 := by rw [Int.floor_eq_iff]; push_cast; constructor <;> linarith
  have : rhe t = 0 := by
    rw [rhe, hfl]
    push_cast
    rw [sub_zero]
    split_ifs with a b
    · rfl
    · linarith
    · rfl
  rw [this]; simp

/-- **C66 fails**: `pow_si(x, -1)` of a positive `dpe_t` is zero unless the mantissa is within `2^-21` of one, because the
power is converted to `unsigned int`. -/
theorem C66_inverse_violated {le : Bool} {x : Dpe} (h0 : 0 < x.d) (h1 : x.d ≤ 1 - 1 / 2 ^ 21) :
    powSi le x (-1) = .ok ⟨0, expMin⟩ := by
  have hk : ((-1 : ℤ) % 2 ^ 32).toNat = 2 ^ 32 - 1 := by decide
  rw [powSi, hk, rn_underflow (pow_nonneg h0.le _) (pow_underflow h0.le h1), normalize, if_pos rfl]

/-- the radius of a dual enumeration with `dpe_t` (bkz.cpp:311-317: `max_dist.pow_si(max_dist, -1)`, then `max_dist *= delta`):
zero, for `delta` from 1/2 on, so that no dual vector of positive norm is found; the inverse of the last Gram-Schmidt norm
times `delta` is positive -/
theorem C66_dual_radius_violated {le : Bool} {x δ : Dpe} (hδ : Norm δ) (hd : 0 < δ.d) (he : 0 ≤ δ.exp)
    (h0 : 0 < x.d) (h1 : x.d ≤ 1 - 1 / 2 ^ 21) :
    ∃ p r, powSi le x (-1) = .ok p ∧ mul le p δ = .ok r ∧ r.val = 0 ∧ 0 < x.val⁻¹ * δ.val := by
  have rδ := hδ.1
  rw [ExpOk] at rδ
  refine ⟨⟨0, expMin⟩, ⟨0, expMin⟩, C66_inverse_violated h0 h1, ?_, by simp [val], ?_⟩
  · rw [mul, chk_of (by show -2 ^ 31 ≤ expMin + δ.exp; rw [expMin]; omega) (by show expMin + δ.exp < 2 ^ 31; rw [expMin]; omega)]
    show normalize le ⟨rn (0 * δ.d), expMin + δ.exp⟩ = _
    rw [zero_mul, rn_zero, normalize, if_pos rfl]
  · have a := (sign_val x).2.2 h0
    have b := (sign_val δ).2.2 hd
    positivity

example : Norm three ∧ 0 < three.d ∧ three.d ≤ 1 - 1 / 2 ^ 21 := ⟨norm_three, by norm_num [three], by norm_num [three]⟩

/-- **C66**: positive powers, as long as the power of the mantissa does not underflow and the exponent does not overflow, are
correctly rounded -/
theorem C66_pow_partial {le : Bool} {y x : Dpe} {b : ℤ} (hy : Norm y) (h0 : y.d ≠ 0) (hb : 0 ≤ b) (hb' : b ≤ 1022)
    (he : -2 ^ 31 ≤ y.exp * b ∧ y.exp * b < 2 ^ 31) (h : powSi le y b = .ok x) :
    Norm x ∧ Nearest (y.val ^ b) x.val ∧ RelErr (y.val ^ b) x.val := by
  have hm : MantOk y.d := hy.2.resolve_left fun h' => h0 h'.1
  obtain ⟨k, rfl⟩ : ∃ k : ℕ, b = k := ⟨b.toNat, by omega⟩
  have hk : ((k : ℤ) % 2 ^ 32).toNat = k := by omega
  have hw : wrap32 (y.exp * k) = y.exp * k := by rw [wrap32]; omega
  rw [powSi, hk, hw] at h
  have hq : (2 : ℚ) ^ (-1022 : ℤ) ≤ |y.d ^ k| := by
    rw [abs_pow]
    have h1 : (1 / 2 : ℚ) ^ k ≤ |y.d| ^ k := pow_le_pow_left₀ (by norm_num) (mantOk_bounds hm).1 k
    refine le_trans ?_ h1
    rw [one_div, inv_pow, ← zpow_natCast, ← zpow_neg]
    exact two_zpow_le (by omega)
  obtain ⟨a, b, c⟩ := round_ok (Or.inr hq) h
  have e : y.d ^ k * 2 ^ (y.exp * (k : ℤ)) = y.val ^ (k : ℤ) := by
    rw [zpow_natCast, val, mul_pow, zpow_mul, zpow_natCast]
  rw [e] at b c
  exact ⟨a, b, c⟩

example : ∃ x, powSi true three 3 = .ok x := isOk_elim _ (by decide +kernel)

/-- **C66 fails** for large powers: two to the power 1100 is zero -/
theorem C66_large_violated {le : Bool} {k : ℤ} (h : 1075 ≤ k) (h' : k < 2 ^ 32) : powSi le ⟨1 / 2, 2⟩ k = .ok ⟨0, expMin⟩ := by
  have hk : (k % 2 ^ 32).toNat = k.toNat := by rw [Int.emod_eq_of_lt (by omega) (by omega)]
  rw [powSi, hk, rn_underflow (by positivity), normalize, if_pos rfl]
  show (1 / 2 : ℚ) ^ k.toNat ≤ _
  rw [one_div, inv_pow, ← zpow_natCast, ← zpow_neg]
  exact two_zpow_le (by omega)

end Dpe
end Fplll

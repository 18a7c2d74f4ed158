import Verif.Proofs.Dpe

/-!
# Rounding to 53 bits

`r53` is the rounding of IEEE 754 binary64 with an unbounded exponent; `rn`, the rounding of the machine, is the same for
everything that does not underflow.
-/

namespace Fplll

/-- what `rhe` is: the nearest integer, the even one of two -/
theorem rhe_tie (q : ℚ) : |q - rhe q| < 1 / 2 ∨ |q - rhe q| = 1 / 2 ∧ rhe q % 2 = 0 := by
  have h1 := Int.floor_le q
  have h2 := Int.lt_floor_add_one q
  rw [rhe]
  split_ifs with a b c
  · left; rw [abs_lt]; constructor <;> linarith
  · left; push_cast; rw [abs_lt]; constructor <;> linarith
  · right
    have : q - ⌊q⌋ = 1 / 2 := by linarith
    rw [this]
    exact ⟨by norm_num, c⟩
  · right
    push_cast
    have : q - (⌊q⌋ + 1) = -(1 / 2) := by linarith
    rw [this]
    exact ⟨by norm_num, by omega⟩

theorem rhe_unique {q : ℚ} {n : ℤ} (h : |q - n| < 1 / 2 ∨ |q - n| = 1 / 2 ∧ n % 2 = 0) : rhe q = n := by
  have key : |(rhe q : ℚ) - n| ≤ |q - rhe q| + |q - n| := by
    have := abs_sub_le (rhe q : ℚ) q n
    rwa [abs_sub_comm (rhe q : ℚ) q] at this
  have hcast : |(rhe q : ℚ) - n| = ((|rhe q - n| : ℤ) : ℚ) := by push_cast; rfl
  by_contra hne
  have h1 : 1 ≤ |rhe q - n| := Int.one_le_abs (by omega)
  have h1' : (1 : ℚ) ≤ ((|rhe q - n| : ℤ) : ℚ) := by exact_mod_cast h1
  rcases rhe_tie q with a | ⟨a, a'⟩ <;> rcases h with b | ⟨b, b'⟩
  · linarith
  · linarith
  · linarith
  · have : |rhe q - n| ≤ 1 := by
      have : ((|rhe q - n| : ℤ) : ℚ) ≤ 1 := by linarith
      exact_mod_cast this
    rcases abs_le.1 this with ⟨c, d⟩
    omega

theorem rhe_neg (q : ℚ) : rhe (-q) = -rhe q := by
  refine rhe_unique ?_
  have : |-q - ((-rhe q : ℤ) : ℚ)| = |q - rhe q| := by
    rw [← abs_neg]; congr 1; push_cast; ring
  rw [this]
  exact (rhe_tie q).imp_right fun h => ⟨h.1, by omega⟩

theorem rhe_mono {q q' : ℚ} (h : q ≤ q') : rhe q ≤ rhe q' := by
  by_contra hc
  push Not at hc
  have h1 := (abs_le.1 (rhe_near q)).1
  have h2 := (abs_le.1 (rhe_near q')).2
  have h3 : (rhe q' : ℚ) + 1 ≤ rhe q := by exact_mod_cast hc
  have : q = q' := by linarith
  rw [this] at hc
  exact lt_irrefl _ hc

/-- nearest number of 53 bits, ties to even; no limits on the exponent -/
def r53 (q : ℚ) : ℚ :=
  if q = 0 then 0 else (rhe (q / 2 ^ (Int.log 2 |q| - 52)) : ℚ) * 2 ^ (Int.log 2 |q| - 52)

/-- without underflow the machine rounds like this -/
theorem rn_eq_r53 {q : ℚ} (h : q = 0 ∨ (2 : ℚ) ^ (-1022 : ℤ) ≤ |q|) : rn q = r53 q := by
  rw [rn, r53]
  by_cases hq : q = 0
  · rw [if_pos hq, if_pos hq]
  · have h := h.resolve_left hq
    obtain ⟨a, b⟩ := log_bounds hq
    have hL : -1022 ≤ Int.log 2 |q| := by
      have := lt_of_two_zpow_lt (lt_of_le_of_lt h b); omega
    have hu : ulpExp q = Int.log 2 |q| - 52 := by rw [ulpExp]; omega
    rw [if_neg hq, if_neg hq, hu]

theorem r53_form {q : ℚ} (hq : q ≠ 0) : ∃ (e n : ℤ) (t : ℚ),
    e = Int.log 2 |q| - 52 ∧ q = t * 2 ^ e ∧ r53 q = n * 2 ^ e ∧ n = rhe t ∧ 2 ^ 52 ≤ |t| ∧ |t| < 2 ^ 53 := by
  obtain ⟨a, b⟩ := log_bounds hq
  have hp := two_zpow_pos (Int.log 2 |q| - 52)
  have ha : (2 : ℚ) ^ Int.log 2 |q| = 2 ^ 52 * 2 ^ (Int.log 2 |q| - 52) := by
    rw [← zpow_natCast, ← two_zpow_add]; congr 1; push_cast; ring
  have hb : (2 : ℚ) ^ (Int.log 2 |q| + 1) = 2 ^ 53 * 2 ^ (Int.log 2 |q| - 52) := by
    rw [← zpow_natCast, ← two_zpow_add]; congr 1; push_cast; ring
  have ht : |q / 2 ^ (Int.log 2 |q| - 52)| = |q| / 2 ^ (Int.log 2 |q| - 52) := by
    rw [abs_div, abs_of_pos hp]
  refine ⟨_, _, q / 2 ^ (Int.log 2 |q| - 52), rfl, (div_mul_cancel₀ _ hp.ne').symm, ?_, rfl, ?_, ?_⟩
  · rw [r53, if_neg hq]
  · rw [ht, le_div_iff₀ hp, ← ha]; exact a
  · rw [ht, div_lt_iff₀ hp, ← hb]; exact b

theorem r53_neg (q : ℚ) : r53 (-q) = -r53 q := by
  rw [r53, r53, abs_neg]
  by_cases hq : q = 0
  · simp [hq]
  · rw [if_neg (by simpa using hq), if_neg hq, neg_div, rhe_neg]
    push_cast; ring

theorem r53_zero : r53 0 = 0 := by simp [r53]

/-- relative error of half a unit in the last place -/
theorem r53_rel (q : ℚ) : |r53 q - q| ≤ 2 ^ (-53 : ℤ) * |q| := by
  by_cases hq : q = 0
  · simp [hq, r53]
  · obtain ⟨e, n, t, -, h1, h2, h3, h4, h5⟩ := r53_form hq
    have hp := two_zpow_pos e
    have : r53 q - q = -((t - n) * 2 ^ e) := by rw [h2, h1]; ring
    rw [this, abs_neg, h1, abs_mul, abs_mul, abs_of_pos hp, ← mul_assoc]
    refine mul_le_mul_of_nonneg_right ?_ hp.le
    rw [h3]
    refine (rhe_near t).trans ?_
    calc (1 / 2 : ℚ) = 2 ^ (-53 : ℤ) * 2 ^ 52 := by norm_num
      _ ≤ _ := mul_le_mul_of_nonneg_left h4 (by norm_num)

theorem r53_pos_bounds {q : ℚ} (hq : 0 < q) :
    (2 : ℚ) ^ Int.log 2 |q| ≤ r53 q ∧ r53 q ≤ 2 ^ (Int.log 2 |q| + 1) := by
  obtain ⟨e, n, t, he, h1, h2, h3, h4, h5⟩ := r53_form hq.ne'
  have hp := two_zpow_pos e
  have ht : 0 < t := by
    by_contra hc
    push Not at hc
    have := mul_nonpos_of_nonpos_of_nonneg hc hp.le
    linarith
  rw [abs_of_pos ht] at h4 h5
  have m1 : (2 ^ 52 : ℤ) ≤ n := by
    have := rhe_mono h4
    rw [h3]
    refine le_trans (le_of_eq ?_) this
    symm
    refine rhe_unique (Or.inl ?_)
    push_cast
    norm_num
  have m2 : n ≤ 2 ^ 53 := by
    have := rhe_mono h5.le
    rw [h3]
    refine le_trans this (le_of_eq ?_)
    refine rhe_unique (Or.inl ?_)
    push_cast
    norm_num
  have m1' : (2 ^ 52 : ℚ) ≤ n := by exact_mod_cast m1
  have m2' : (n : ℚ) ≤ 2 ^ 53 := by exact_mod_cast m2
  have e1 : (2 : ℚ) ^ Int.log 2 |q| = 2 ^ 52 * 2 ^ e := by
    rw [← zpow_natCast, ← two_zpow_add]; congr 1; push_cast; omega
  have e2 : (2 : ℚ) ^ (Int.log 2 |q| + 1) = 2 ^ 53 * 2 ^ e := by
    rw [← zpow_natCast, ← two_zpow_add]; congr 1; push_cast; omega
  rw [e1, e2, h2]
  exact ⟨mul_le_mul_of_nonneg_right m1' hp.le, mul_le_mul_of_nonneg_right m2' hp.le⟩

theorem r53_mono_pos {q q' : ℚ} (hq : 0 < q) (h : q ≤ q') : r53 q ≤ r53 q' := by
  have hq' := hq.trans_le h
  have hl : Int.log 2 |q| ≤ Int.log 2 |q'| := by
    have h1 := (log_bounds hq.ne').1
    have h2 := (log_bounds hq'.ne').2
    rw [abs_of_pos hq] at h1 ⊢
    rw [abs_of_pos hq'] at h2 ⊢
    have := lt_of_two_zpow_lt ((h1.trans h).trans_lt h2)
    omega
  rcases hl.lt_or_eq with hlt | heq
  · exact (r53_pos_bounds hq).2.trans ((two_zpow_le (by omega)).trans (r53_pos_bounds hq').1)
  · rw [r53, r53, if_neg hq.ne', if_neg hq'.ne', heq]
    have hp := two_zpow_pos (Int.log 2 |q'| - 52)
    refine mul_le_mul_of_nonneg_right ?_ hp.le
    exact_mod_cast rhe_mono (div_le_div_of_nonneg_right h hp.le)

theorem r53_nonneg {q : ℚ} (hq : 0 ≤ q) : 0 ≤ r53 q := by
  rcases hq.lt_or_eq with h | h
  · exact (two_zpow_pos _).le.trans (r53_pos_bounds h).1
  · rw [← h, r53_zero]

theorem r53_mono : Monotone r53 := by
  intro q q' h
  rcases lt_trichotomy q 0 with h1 | h1 | h1
  · rcases lt_or_ge q' 0 with h2 | h2
    · have := r53_mono_pos (q := -q') (q' := -q) (by linarith) (by linarith)
      rw [r53_neg, r53_neg] at this
      linarith
    · have h3 := r53_nonneg (q := -q) (by linarith)
      rw [r53_neg] at h3
      linarith [r53_nonneg h2]
  · rw [h1, r53_zero]
    exact r53_nonneg (by linarith)
  · exact r53_mono_pos h1 h

/-- numbers of 53 bits are not changed -/
theorem r53_fl53 {q : ℚ} (h : Fl53 q) : r53 q = q := by
  by_cases hq : q = 0
  · rw [hq, r53_zero]
  obtain ⟨e, n, t, he, h1, h2, h3, h4, h5⟩ := r53_form hq
  obtain ⟨m, k, hm, hqm⟩ := h
  have hp := two_zpow_pos e
  -- `t` is an integer
  have hint : ∃ z : ℤ, t = z := by
    by_cases hk : e ≤ k
    · obtain ⟨j, rfl⟩ : ∃ j : ℕ, k = e + j := ⟨(k - e).toNat, by omega⟩
      refine ⟨m * 2 ^ j, ?_⟩
      have : t * 2 ^ e = ((m * 2 ^ j : ℤ) : ℚ) * 2 ^ e := by
        rw [← h1, hqm, two_zpow_add, zpow_natCast]; push_cast; ring
      exact mul_right_cancel₀ hp.ne' this
    · -- then `|m| = 2 ^ 53` and `k = e - 1`
      have h6 : |q| ≤ 2 ^ 53 * 2 ^ k := by
        rw [hqm, abs_mul, abs_of_pos (two_zpow_pos k)]
        refine mul_le_mul_of_nonneg_right ?_ (two_zpow_pos k).le
        exact_mod_cast hm
      have h7 : (2 : ℚ) ^ 52 * 2 ^ e ≤ |q| := by
        rw [h1, abs_mul, abs_of_pos hp]
        exact mul_le_mul_of_nonneg_right h4 hp.le
      have h8 : (2 : ℚ) ^ k ≤ 2 ^ (e - 1) := two_zpow_le (by omega)
      have h9 : (2 : ℚ) ^ e = 2 * 2 ^ (e - 1) := by
        rw [show e = 1 + (e - 1) by ring, two_zpow_add]; norm_num
      have h10 : |q| = 2 ^ 52 * 2 ^ e := by
        refine le_antisymm ?_ h7
        calc |q| ≤ 2 ^ 53 * 2 ^ k := h6
          _ ≤ 2 ^ 53 * 2 ^ (e - 1) := mul_le_mul_of_nonneg_left h8 (by norm_num)
          _ = 2 ^ 52 * 2 ^ e := by rw [h9]; ring
      have h11 : |t| = 2 ^ 52 := by
        rw [h1, abs_mul, abs_of_pos hp] at h10
        exact mul_right_cancel₀ hp.ne' h10
      rcases abs_choice t with h12 | h12
      · exact ⟨2 ^ 52, by rw [← h12, h11]; norm_num⟩
      · exact ⟨-2 ^ 52, by rw [show t = -|t| by rw [h12]; ring, h11]; norm_num⟩
  obtain ⟨z, hz⟩ := hint
  have : n = z := by
    rw [h3, hz]
    refine rhe_unique (Or.inl ?_)
    simp
  rw [h2, this, h1, hz]

theorem r53_isFl53 (q : ℚ) : Fl53 (r53 q) := by
  by_cases hq : q = 0
  · rw [hq, r53_zero]; exact fl53_zero
  obtain ⟨e, n, t, he, h1, h2, h3, h4, h5⟩ := r53_form hq
  refine ⟨n, e, ?_, h2⟩
  have a := rhe_mono (show t ≤ ((2 ^ 53 : ℤ) : ℚ) by push_cast; exact (le_abs_self t).trans h5.le)
  have b := rhe_mono (show ((-2 ^ 53 : ℤ) : ℚ) ≤ t by push_cast; linarith [neg_abs_le t])
  rw [rhe_unique (q := ((2 ^ 53 : ℤ) : ℚ)) (n := 2 ^ 53) (Or.inl (by push_cast; norm_num)), ← h3] at a
  rw [rhe_unique (q := ((-2 ^ 53 : ℤ) : ℚ)) (n := -2 ^ 53) (Or.inl (by push_cast; norm_num)), ← h3] at b
  rw [abs_le]
  exact ⟨by linarith, a⟩

theorem r53_idem (q : ℚ) : r53 (r53 q) = r53 q := r53_fl53 (r53_isFl53 q)

theorem r53_scale (q : ℚ) (k : ℤ) : r53 (q * 2 ^ k) = r53 q * 2 ^ k := by
  have hp := two_zpow_pos k
  by_cases hq : q = 0
  · rw [hq, zero_mul, r53_zero, zero_mul]
  have hl : Int.log 2 |q * 2 ^ k| = Int.log 2 |q| + k := by
    obtain ⟨a, b⟩ := log_bounds hq
    refine log_unique ?_ ?_
    · rw [abs_mul, abs_of_pos hp, two_zpow_add]
      exact mul_le_mul_of_nonneg_right a hp.le
    · rw [abs_mul, abs_of_pos hp, show Int.log 2 |q| + k + 1 = Int.log 2 |q| + 1 + k by ring, two_zpow_add]
      exact mul_lt_mul_of_pos_right b hp
  rw [r53, r53, if_neg hq, if_neg (mul_ne_zero hq hp.ne'), hl,
    show Int.log 2 |q| + k - 52 = Int.log 2 |q| - 52 + k by ring, two_zpow_add, mul_div_mul_right _ _ hp.ne', mul_assoc]

theorem r53_nearest (q : ℚ) : Nearest q (r53 q) := by
  by_cases hq : q = 0
  · refine ⟨r53_isFl53 q, fun s _ => ?_⟩
    rw [hq, r53_zero, sub_zero, abs_zero]
    exact abs_nonneg _
  have h1 : (2 : ℚ) ^ (-1022 : ℤ) ≤ |q * 2 ^ (-1022 - Int.log 2 |q|)| := by
    rw [abs_mul, abs_of_pos (two_zpow_pos _)]
    have := mul_le_mul_of_nonneg_right (log_bounds hq).1 (two_zpow_pos (-1022 - Int.log 2 |q|)).le
    rwa [← two_zpow_add, show Int.log 2 |q| + (-1022 - Int.log 2 |q|) = -1022 by ring] at this
  have h2 := nearest_scale (rn_nearest h1) (-(-1022 - Int.log 2 |q|))
  rw [rn_eq_r53 (.inr h1), r53_scale, mul_assoc, mul_assoc, ← two_zpow_add, add_neg_cancel, zpow_zero, mul_one,
    mul_one] at h2
  exact h2

end Fplll

import Verif.Proofs.Dpe
import Mathlib.Analysis.SpecialFunctions.Pow.Real

/-!
# The square root of `dpe_t`
-/

namespace Fplll
namespace Dpe

/-- specification: `r` is one of the 53-bit numbers nearest to the real number `q` -/
def NearestR (q : ℝ) (r : ℚ) : Prop := Fl53 r ∧ ∀ s : ℚ, Fl53 s → |q - r| ≤ |q - s|

theorem nearestR_of_int {t : ℝ} {r : ℕ} (h1 : 2 ^ 52 ≤ t) (hr : 2 ^ 52 ≤ r) (hr' : r ≤ 2 ^ 53) (hn : |t - r| ≤ 1 / 2) :
    NearestR t r := by
  refine ⟨⟨r, 0, by rw [abs_of_nonneg (by positivity)]; exact_mod_cast hr', by simp⟩, ?_⟩
  rintro s ⟨m, k, hm, rfl⟩
  obtain ⟨n1, n2⟩ := abs_le.1 hn
  by_cases hk : 0 ≤ k
  · obtain ⟨j, rfl⟩ : ∃ j : ℕ, k = j := ⟨k.toNat, by omega⟩
    have hi : (((m : ℚ) * 2 ^ (j : ℤ) : ℚ) : ℝ) = ((m * 2 ^ j : ℤ) : ℝ) := by push_cast; norm_cast
    rw [hi]
    generalize m * 2 ^ j = i
    by_cases hin : i = r
    · rw [hin]; push_cast; exact le_refl _
    · have h3 : (1 : ℝ) ≤ |(r : ℝ) - i| := by
        have : (1 : ℤ) ≤ |(r : ℤ) - i| := Int.one_le_abs (by omega)
        exact_mod_cast this
      have h4 : |(r : ℝ) - i| ≤ |t - r| + |t - i| := by
        have := abs_sub_le (r : ℝ) t i
        rwa [abs_sub_comm (r : ℝ) t] at this
      push_cast
      linarith
  · have hs : (((m : ℚ) * 2 ^ k : ℚ) : ℝ) ≤ 2 ^ 52 := by
      have h3 : (m : ℚ) * 2 ^ k ≤ 2 ^ 52 := by
        have hmq : (m : ℚ) ≤ 2 ^ 53 := by exact_mod_cast (le_abs_self m).trans hm
        have hp : (2 : ℚ) ^ k ≤ 1 / 2 := by
          calc (2 : ℚ) ^ k ≤ 2 ^ (-1 : ℤ) := two_zpow_le (by omega)
            _ = _ := by norm_num
        calc (m : ℚ) * 2 ^ k ≤ 2 ^ 53 * 2 ^ k := mul_le_mul_of_nonneg_right hmq (two_zpow_pos k).le
          _ ≤ 2 ^ 53 * (1 / 2) := mul_le_mul_of_nonneg_left hp (by norm_num)
          _ = _ := by norm_num
      have := (Rat.cast_le (K := ℝ)).2 h3
      rw [show (((2 : ℚ) ^ 52 : ℚ) : ℝ) = 2 ^ 52 by norm_num] at this
      exact this
    rw [abs_of_nonneg (by linarith : 0 ≤ t - (((m : ℚ) * 2 ^ k : ℚ) : ℝ))]
    have hcast : (((r : ℕ) : ℚ) : ℝ) = (r : ℝ) := by push_cast; rfl
    rw [hcast]
    by_cases h52 : r = 2 ^ 52
    · rw [h52] at *
      push_cast
      have h5 : ((2 ^ 52 : ℕ) : ℝ) = 2 ^ 52 := by norm_num
      norm_num at *
      rw [abs_of_nonneg (by linarith)]
      linarith
    · have h5 : (2 : ℝ) ^ 52 + 1 ≤ r := by
        have : 2 ^ 52 + 1 ≤ r := by omega
        have h' : ((2 ^ 52 + 1 : ℕ) : ℝ) ≤ r := by exact_mod_cast this
        norm_num at h' ⊢; exact h'
      rw [abs_le]
      constructor <;> linarith

theorem nearestR_scale {q : ℝ} {r : ℚ} (h : NearestR q r) (k : ℤ) : NearestR (q * 2 ^ k) (r * 2 ^ k) := by
  refine ⟨fl53_scale h.1 k, fun s hs => ?_⟩
  have h1 : Fl53 (s * 2 ^ (-k)) := fl53_scale hs (-k)
  have h2 := h.2 _ h1
  have hp : (0 : ℝ) < 2 ^ k := zpow_pos (by norm_num) k
  have h3 : (s : ℝ) = ((s * 2 ^ (-k) : ℚ) : ℝ) * 2 ^ k := by
    push_cast
    rw [mul_assoc, ← zpow_add₀ (by norm_num)]; simp
  have h4 : ((r * 2 ^ k : ℚ) : ℝ) = (r : ℝ) * 2 ^ k := by push_cast; rfl
  rw [h3, h4, ← sub_mul, ← sub_mul, abs_mul, abs_mul]
  exact mul_le_mul_of_nonneg_right h2 (abs_nonneg _)

/-- the integer square root to nearest -/
theorem isqrt_near {n : ℕ} (h1 : 2 ^ 104 ≤ n) (h2 : n ≤ 2 ^ 106 - 2 ^ 53) :
    ∃ r : ℕ, (if n ≤ n.sqrt * n.sqrt + n.sqrt then n.sqrt else n.sqrt + 1) = r ∧ 2 ^ 52 ≤ r ∧ r < 2 ^ 53 ∧
      |√(n : ℝ) - r| ≤ 1 / 2 := by
  have s1 := Nat.sqrt_le' n
  have s2 := Nat.lt_succ_sqrt' n
  have hs52 : 2 ^ 52 ≤ n.sqrt := by
    rw [Nat.le_sqrt']; exact le_trans (by norm_num) h1
  have hs53 : n.sqrt < 2 ^ 53 := by
    rw [Nat.sqrt_lt']
    refine lt_of_le_of_lt h2 ?_
    norm_num
  have s1' : ((n.sqrt : ℝ)) ^ 2 ≤ n := by exact_mod_cast s1
  have s2' : (n : ℝ) < ((n.sqrt : ℝ) + 1) ^ 2 := by
    have : n < (n.sqrt + 1) ^ 2 := s2
    exact_mod_cast this
  have r1 : (n.sqrt : ℝ) ≤ √(n : ℝ) := Real.le_sqrt_of_sq_le s1'
  have r2 : √(n : ℝ) < (n.sqrt : ℝ) + 1 := by
    rw [Real.sqrt_lt' (by positivity)]; exact s2'
  split_ifs with hc
  · refine ⟨_, rfl, hs52, hs53, ?_⟩
    have hc' : (n : ℝ) ≤ (n.sqrt : ℝ) * n.sqrt + n.sqrt := by exact_mod_cast hc
    have : √(n : ℝ) ≤ (n.sqrt : ℝ) + 1 / 2 := by
      refine Real.sqrt_le_iff.2 ⟨by positivity, ?_⟩
      nlinarith
    rw [abs_le]; constructor <;> linarith
  · refine ⟨_, rfl, by omega, ?_, ?_⟩
    · by_contra hge
      have he : n.sqrt = 2 ^ 53 - 1 := by omega
      rw [he] at hc
      norm_num at hc h2
      omega
    · have hc' : (n.sqrt : ℝ) * n.sqrt + n.sqrt + 1 ≤ n := by
        have : n.sqrt * n.sqrt + n.sqrt + 1 ≤ n := by omega
        exact_mod_cast this
      have : (n.sqrt : ℝ) + 1 / 2 ≤ √(n : ℝ) := by
        refine Real.le_sqrt_of_sq_le ?_
        nlinarith
      push_cast
      rw [abs_le]; constructor <;> linarith

/-- `sqrt` of a double `n·2^-106` -/
theorem dSqrt_ok {q : ℚ} {n : ℕ} (hq : q = n / 2 ^ 106) (h1 : 2 ^ 104 ≤ n) (h2 : n ≤ 2 ^ 106 - 2 ^ 53) :
    MantOk (dSqrt q) ∧ 0 < dSqrt q ∧ NearestR (√(q : ℝ)) (dSqrt q) := by
  obtain ⟨r, hr, r1, r2, hn⟩ := isqrt_near h1 h2
  have hN : ⌊q * 2 ^ 106⌋.toNat = n := by
    rw [hq, div_mul_cancel₀ _ (by norm_num)]; simp
  have hd : dSqrt q = (r : ℚ) / 2 ^ 53 := by
    rw [dSqrt, hN, hr]
  have hdz : (r : ℚ) / 2 ^ 53 = (r : ℚ) * 2 ^ (-53 : ℤ) := by norm_num [div_eq_mul_inv]
  refine ⟨⟨r, by rw [hd]; push_cast; rfl, by rw [abs_of_nonneg (by positivity)]; exact_mod_cast r1,
    by rw [abs_of_nonneg (by positivity)]; exact_mod_cast r2⟩, ?_, ?_⟩
  · rw [hd]
    have : (0 : ℚ) < r := by
      have : 0 < r := lt_of_lt_of_le (by norm_num) r1
      exact_mod_cast this
    positivity
  · have hs : √(q : ℝ) = √(n : ℝ) * 2 ^ (-53 : ℤ) := by
      have : (q : ℝ) = (n : ℝ) / 2 ^ 106 := by rw [hq]; push_cast; rfl
      rw [this, Real.sqrt_div (by positivity), show (2 : ℝ) ^ 106 = (2 ^ 53) ^ 2 by norm_num, Real.sqrt_sq (by norm_num),
        zpow_neg, div_eq_mul_inv]
      norm_num
    have h1' : (2 : ℝ) ^ 52 ≤ √(n : ℝ) := by
      refine Real.le_sqrt_of_sq_le ?_
      have : ((2 ^ 104 : ℕ) : ℝ) ≤ n := by exact_mod_cast h1
      norm_num at this ⊢; exact this
    rw [hs, hd, hdz]
    exact nearestR_scale (nearestR_of_int h1' r1 r2.le hn) _

end Dpe
end Fplll

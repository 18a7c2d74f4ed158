import Mathlib.Analysis.SpecialFunctions.Complex.Arctan
import Mathlib.Analysis.SpecificLimits.Basic

/-!
# Sixty digits of `π`, by Machin's formula
-/

open Finset

namespace Fplll
namespace PiDigits

/-- partial sums of the series of `arctan x` -/
def atanSum (x : ℚ) (n : ℕ) : ℚ := ∑ k ∈ range n, (-1) ^ k * x ^ (2 * k + 1) / (2 * k + 1 : ℕ)

theorem atan_near {x : ℝ} (h0 : 0 < x) (h1 : x < 1) (n : ℕ) : |∑ k ∈ range n, (-1) ^ k * x ^ (2 * k + 1) / ((2 * k + 1 : ℕ) : ℝ) - Real.arctan x| ≤ x * (x ^ 2) ^ n / (1 - x ^ 2) := by
  have hs := (Real.hasSum_arctan (x := x) (by rw [Real.norm_eq_abs, abs_of_pos h0]; exact h1)).tendsto_sum_nat
  have := dist_le_of_le_geometric_of_tendsto (x ^ 2) x (by nlinarith) (fun k => ?_) hs n
  · exact this
  · rw [sum_range_succ, Real.dist_eq, abs_sub_comm, add_sub_cancel_left, abs_div, abs_mul, abs_pow, abs_neg, abs_one, one_pow, one_mul, abs_of_pos (pow_pos h0 _)]
    rw [show x * (x ^ 2) ^ k = x ^ (2 * k + 1) by rw [← pow_mul, pow_succ']]
    apply div_le_self (pow_pos h0 _).le
    rw [abs_of_nonneg (Nat.cast_nonneg _)]
    exact_mod_cast Nat.le_add_left 1 (2 * k)

/-- the first 60 digits of `π` after the point, as an integer -/
def P : ℕ := 3141592653589793238462643383279502884197169399375105820974944

theorem num5 : |16 * atanSum (1 / 5) 45 - 4 * atanSum (1 / 239) 15 - (2 * P + 1) / (2 * 10 ^ 60)| ≤ 45 / 100 / 10 ^ 60 := by
  decide +kernel

theorem pi_digits : (P : ℝ) / 10 ^ 60 ≤ Real.pi ∧ Real.pi ≤ (P + 1) / 10 ^ 60 := by
  have h5 := atan_near (x := 5⁻¹) (by norm_num) (by norm_num) 45
  have h239 := atan_near (x := 239⁻¹) (by norm_num) (by norm_num) 15
  have hm := Real.four_mul_arctan_inv_5_sub_arctan_inv_239
  have hn : ((|16 * atanSum (1 / 5) 45 - 4 * atanSum (1 / 239) 15 - (2 * P + 1) / (2 * 10 ^ 60)| : ℚ) : ℝ) ≤ ((45 / 100 / 10 ^ 60 : ℚ) : ℝ) := by exact_mod_cast num5
  unfold atanSum at hn
  push_cast at hn h5 h239
  simp only [one_div] at hn
  have e5 : (5⁻¹ : ℝ) * (5⁻¹ ^ 2) ^ 45 / (1 - 5⁻¹ ^ 2) ≤ 1 / 10 ^ 63 := by norm_num
  have e239 : (239⁻¹ : ℝ) * (239⁻¹ ^ 2) ^ 15 / (1 - 239⁻¹ ^ 2) ≤ 1 / 10 ^ 63 := by norm_num
  have a5 := abs_le.1 (h5.trans e5)
  have a239 := abs_le.1 (h239.trans e239)
  have an := abs_le.1 hn
  have hp : ((2 * (P : ℝ) + 1) / (2 * 10 ^ 60)) = (P : ℝ) / 10 ^ 60 + 1 / 2 / 10 ^ 60 := by ring
  have hp' : ((P : ℝ) + 1) / 10 ^ 60 = (P : ℝ) / 10 ^ 60 + 1 / 10 ^ 60 := by ring
  rw [hp] at an
  rw [hp']
  generalize (P : ℝ) / 10 ^ 60 = p at *
  constructor <;> norm_num at * <;> linarith [a5.1, a5.2, a239.1, a239.2, an.1, an.2]

end PiDigits
end Fplll

import Mathlib.MeasureTheory.Integral.IntervalIntegral.Basic
import Mathlib.Analysis.SpecialFunctions.Integrals.Basic
import Mathlib.Algebra.BigOperators.Intervals
import Verif.Model.PrunerVol

open Finset MeasureTheory

namespace Fplll
namespace Pruner

/-- the polynomial `Σ p_k x^k`, `k ≤ ld` -/
noncomputable def polyVal (ld : ℕ) (p : Vec) (x : ℝ) : ℝ := ∑ k ∈ range (ld + 1), p k * x ^ k

theorem evalPoly_eq (ld : ℕ) (p : Vec) (x : ℝ) : evalPoly ld p x = polyVal ld p x := by
  have h := forDown_inv (fun i acc => acc = ∑ k ∈ Ico i (ld + 1), p k * x ^ (k - i)) (fun i acc => acc * x + p i)
    (Nat.zero_le (ld + 1)) (0 : ℝ) (by simp) (by
      intro i s _ hi h
      rw [h, Finset.sum_eq_sum_Ico_succ_bot hi, Finset.sum_mul, Nat.sub_self, pow_zero, mul_one, add_comm]
      congr 1
      apply Finset.sum_congr rfl
      intro k hk
      rw [mem_Ico] at hk
      rw [mul_assoc, ← pow_succ, show k - (i + 1) + 1 = k - i by omega])
  unfold evalPoly polyVal
  rw [h, ← Finset.range_eq_Ico]
  rfl

theorem integratePoly_val (ld : ℕ) (p : Vec) (k : ℕ) (hk : k ≤ ld + 1) :
    integratePoly ld p k = if k = 0 then 0 else p (k - 1) / k := by
  have h := forDown_inv (fun i (q : Vec) => (∀ k, k ≤ i → q k = p k) ∧ ∀ k, i < k → k ≤ ld + 1 → q k = p (k - 1) / k)
    (fun i (q : Vec) => Function.update q (i + 1) (q i / ((i : ℝ) + 1)))
    (Nat.zero_le (ld + 1)) p ⟨fun k _ => rfl, fun k h1 h2 => by omega⟩ (by
      intro i q _ hi ⟨h1, h2⟩
      constructor
      · intro k hk
        rw [Function.update_of_ne (by omega)]
        exact h1 k (by omega)
      · intro k h3 h4
        by_cases h5 : k = i + 1
        · subst h5
          rw [Function.update_self, h1 i (by omega)]
          push_cast
          simp
        · rw [Function.update_of_ne h5]
          exact h2 k (by omega) h4)
  unfold integratePoly
  by_cases h0 : k = 0
  · subst h0
    simp
  · rw [Function.update_of_ne h0, if_neg h0]
    exact h.2 k (by omega) hk

/-- antiderivative of the polynomial -/
theorem polyVal_integrate (ld : ℕ) (p : Vec) (x : ℝ) :
    polyVal (ld + 1) (integratePoly ld p) x = ∑ k ∈ range (ld + 1), p k / (k + 1) * x ^ (k + 1) := by
  unfold polyVal
  rw [Finset.sum_range_succ', integratePoly_val ld p 0 (by omega)]
  simp only [if_true, pow_zero, mul_one, add_zero]
  apply Finset.sum_congr rfl
  intro k hk
  rw [mem_range] at hk
  rw [integratePoly_val ld p (k + 1) (by omega), if_neg (by omega)]
  push_cast
  simp

theorem integral_polyVal (ld : ℕ) (p : Vec) (x y : ℝ) :
    ∫ t in x..y, polyVal ld p t = polyVal (ld + 1) (integratePoly ld p) y - polyVal (ld + 1) (integratePoly ld p) x := by
  rw [polyVal_integrate, polyVal_integrate]
  unfold polyVal
  rw [intervalIntegral.integral_finsetSum]
  · rw [← Finset.sum_sub_distrib]
    apply Finset.sum_congr rfl
    intro k _
    rw [intervalIntegral.integral_const_mul, integral_pow]
    ring
  · intro k _
    exact (Continuous.mul continuous_const (continuous_pow k)).intervalIntegrable _ _

theorem polyVal_update (ld : ℕ) (p : Vec) (c x : ℝ) (h0 : p 0 = 0) :
    polyVal ld (Function.update p 0 c) x = c + polyVal ld p x := by
  unfold polyVal
  rw [Finset.sum_range_succ', Finset.sum_range_succ']
  simp only [Function.update_self, pow_zero, mul_one, h0, add_zero]
  rw [add_comm]
  congr 1

/-- what a pass of the loop does to the polynomial -/
theorem volStep_val (rd : ℕ) (b : Vec) (i : ℕ) (s : ℕ × Vec) (x : ℝ) :
    polyVal (volStep rd b i s).1 (volStep rd b i s).2 x = -∫ t in x..(b i / b (rd - 1)), polyVal s.1 s.2 t := by
  simp only [volStep]
  rw [polyVal_update _ _ _ _ (by rw [integratePoly_val _ _ _ (by omega)]; rfl), evalPoly_eq, integral_polyVal]
  ring

end Pruner
end Fplll

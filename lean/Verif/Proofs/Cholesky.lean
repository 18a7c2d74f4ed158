import Mathlib.Tactic.Linarith
import Mathlib.Tactic.Positivity
import Mathlib.Tactic.FieldSimp
import Mathlib.Tactic.Ring
import Mathlib.Algebra.Order.Field.Rat
import Mathlib.Algebra.BigOperators.Intervals
import Mathlib.Algebra.BigOperators.Ring.Finset
import Mathlib.Algebra.Order.BigOperators.Group.Finset

/-!
# Rounding errors of the Cholesky factorisation of a reduced basis

`r`, `mu`: exact values; `R`, `M`: computed with a relative error of at most `u` per operation, in the order of `update_gso_row`.
-/

open Finset

namespace Fplll
namespace Chol

/-- the error of one operation -/
def RelErr (u : ℚ) (fl : ℚ → ℚ) : Prop := ∀ x, |fl x - x| ≤ u * |x|

/-- errors of the values `S 0, S 1, …` of a sum from which rounded terms are subtracted -/
theorem accumulate {u : ℚ} (hu : 0 ≤ u) {fl : ℚ → ℚ} (hfl : RelErr u fl) {S s t P T : ℕ → ℚ} (h0 : S 0 = fl (s 0)) (hS : ∀ k, S (k + 1) = fl (S k - P k)) (hs : ∀ k, s (k + 1) = s k - t k)
    {n : ℕ} (hP : ∀ k < n, |P k - t k| ≤ T k) : ∀ k ≤ n, |S k - s k| ≤ (1 + u) ^ (k + 1) * (∑ l ∈ range k, T l + u * ∑ l ∈ range (k + 1), |s l|) := by
  intro k hk
  induction k with
  | zero =>
    rw [h0]
    have := hfl (s 0)
    simp only [range_zero, sum_empty, zero_add, pow_one, range_one, sum_singleton]
    have h := mul_nonneg hu (mul_nonneg hu (abs_nonneg (s 0)))
    nlinarith
  | succ k ih =>
    have ih := ih (by omega)
    have hp := hP k (by omega)
    have e := hfl (S k - P k)
    rw [← hS] at e
    set A := ∑ l ∈ range k, T l + u * ∑ l ∈ range (k + 1), |s l| with hA
    have e1 : |S k - P k| ≤ |S k - s k| + T k + |s (k + 1)| := by
      rw [hs]
      have a1 := abs_add_three (S k - s k) (-(P k - t k)) (s k - t k)
      rw [abs_neg] at a1
      have : S k - s k + -(P k - t k) + (s k - t k) = S k - P k := by ring
      rw [this] at a1
      linarith
    have e2 : |S (k + 1) - s (k + 1)| ≤ |S (k + 1) - (S k - P k)| + (|S k - s k| + T k) := by
      rw [hs]
      have a1 := abs_add_three (S (k + 1) - (S k - P k)) (S k - s k) (-(P k - t k))
      rw [abs_neg] at a1
      have : S (k + 1) - (S k - P k) + (S k - s k) + -(P k - t k) = S (k + 1) - (s k - t k) := by ring
      rw [this] at a1
      linarith
    have hT : 0 ≤ T k := le_trans (abs_nonneg _) hp
    have e3 : |S (k + 1) - s (k + 1)| ≤ (1 + u) * (|S k - s k| + T k) + u * |s (k + 1)| := by nlinarith
    have hw : 1 ≤ (1 + u) ^ (k + 1) := one_le_pow₀ (by linarith)
    have hw2 : 1 ≤ (1 + u) ^ (k + 1 + 1) := one_le_pow₀ (by linarith)
    rw [sum_range_succ, sum_range_succ _ (k + 1)]
    have e4 : (1 + u) * (|S k - s k| + T k) ≤ (1 + u) ^ (k + 1 + 1) * (A + T k) := by
      rw [pow_succ', mul_assoc]
      refine mul_le_mul_of_nonneg_left ?_ (by linarith)
      rw [mul_add]
      have := le_mul_of_one_le_left hT hw
      linarith
    have e5 : u * |s (k + 1)| ≤ (1 + u) ^ (k + 1 + 1) * (u * |s (k + 1)|) := le_mul_of_one_le_left (mul_nonneg hu (abs_nonneg _)) hw2
    have e6 : (1 + u) ^ (k + 1 + 1) * (∑ l ∈ range k, T l + T k + u * (∑ l ∈ range (k + 1), |s l| + |s (k + 1)|)) = (1 + u) ^ (k + 1 + 1) * (A + T k) + (1 + u) ^ (k + 1 + 1) * (u * |s (k + 1)|) := by
      rw [hA]; ring
    rw [e6]
    linarith

theorem one_add_pow {u : ℚ} (hu : 0 ≤ u) (n : ℕ) (h : 2 * n * u ≤ 1) : (1 + u) ^ n ≤ 1 + 2 * n * u := by
  induction n with
  | zero => simp
  | succ n ih =>
    push_cast at h ⊢
    have ih := ih (by nlinarith)
    rw [pow_succ]
    have h1 := mul_le_mul_of_nonneg_right ih (by linarith : 0 ≤ 1 + u)
    nlinarith

/-- the error of `mu` -/
theorem mu_err {u η E r R rk Rk μ M : ℚ} (hu : 0 ≤ u) (hη : 0 ≤ η) (hE : 0 ≤ E) (hE8 : E ≤ 1 / 8) (hrk : 0 < rk) (hr : r = μ * rk) (hμ : |μ| ≤ η)
    (h1 : |R - r| ≤ E * rk) (h2 : |Rk - rk| ≤ E * rk) (hM : |M - R / Rk| ≤ u * |R / Rk|) :
    |M - μ| ≤ (1 + η) * E / (1 - E) + u * (η + (1 + η) * E / (1 - E)) := by
  have hRk : (1 - E) * rk ≤ Rk := by
    have := (abs_le.1 h2).1
    linarith
  have h1E : 0 < 1 - E := by linarith
  have hpos : 0 < (1 - E) * rk := mul_pos h1E hrk
  have hRk0 : 0 < Rk := lt_of_lt_of_le hpos hRk
  have key : |R / Rk - μ| ≤ (1 + η) * E / (1 - E) := by
    have e : R / Rk - μ = ((R - r) - μ * (Rk - rk)) / Rk := by
      rw [hr]; field_simp; ring
    rw [e, abs_div, abs_of_pos hRk0, div_le_div_iff₀ hRk0 h1E]
    have a1 : |(R - r) - μ * (Rk - rk)| ≤ E * rk + η * (E * rk) := by
      refine le_trans (abs_sub _ _) ?_
      rw [abs_mul]
      exact add_le_add h1 (mul_le_mul hμ h2 (abs_nonneg _) hη)
    have a2 := mul_le_mul_of_nonneg_right a1 h1E.le
    have a3 := mul_le_mul_of_nonneg_left hRk (by positivity : 0 ≤ (1 + η) * E)
    nlinarith
  have k2 : |R / Rk| ≤ η + (1 + η) * E / (1 - E) := by
    have := abs_add_le (R / Rk - μ) μ
    rw [sub_add_cancel] at this
    linarith
  have k3 := abs_add_le (M - R / Rk) (R / Rk - μ)
  rw [sub_add_sub_cancel] at k3
  have k4 := mul_le_mul_of_nonneg_left k2 hu
  linarith

theorem q_le {η E : ℚ} (hη : 0 ≤ η) (hη1 : η ≤ 1) (hE : 0 ≤ E) (hE8 : E ≤ 1 / 8) :
    (1 + η) * E / (1 - E) ≤ (1 + η) * E + 16 / 7 * E ^ 2 ∧ (1 + η) * E / (1 - E) ≤ 16 / 7 * E := by
  have h1E : 0 < 1 - E := by linarith
  constructor
  · rw [div_le_iff₀ h1E]
    nlinarith [mul_nonneg hE hE, mul_nonneg (mul_nonneg hE hE) hE, mul_nonneg (mul_nonneg hE hE) (sub_nonneg.2 hη1), mul_nonneg (mul_nonneg hE hE) (sub_nonneg.2 hE8)]
  · rw [div_le_iff₀ h1E]
    nlinarith [mul_nonneg hE (sub_nonneg.2 hη1), mul_nonneg hE (sub_nonneg.2 hE8)]

/-- the error of a product `mu(j,k) * r(i,k)`, and its rounding -/
theorem prod_err {u η E r R rk Rk μ M r' R' μ' P : ℚ} (hu : 0 ≤ u) (hη : 0 ≤ η) (hη1 : η ≤ 1) (hE8 : E ≤ 1 / 8) (huE : 11 * u ≤ E) (hrk : 0 < rk) (hr : r = μ * rk) (hμ : |μ| ≤ η)
    (h1 : |R - r| ≤ E * rk) (h2 : |Rk - rk| ≤ E * rk) (hM : |M - R / Rk| ≤ u * |R / Rk|) (hr' : r' = μ' * rk) (hμ' : |μ'| ≤ η) (h3 : |R' - r'| ≤ E * rk) (hP : |P - M * R'| ≤ u * |M * R'|) :
    |P - μ * r'| ≤ ((1 + u) * (((1 + η) ^ 2 - 1) * E + 5 * E ^ 2) + 3 * u * η ^ 2) * rk := by
  have hE : 0 ≤ E := by linarith
  obtain ⟨q1, q2⟩ := q_le hη hη1 hE hE8
  have hm := mu_err hu hη hE hE8 hrk hr hμ h1 h2 hM
  have h1E : 0 < 1 - E := by linarith
  have q0 : 0 ≤ (1 + η) * E / (1 - E) := by positivity
  set q := (1 + η) * E / (1 - E) with hq
  set m := q + u * (η + q) with hmd
  have hm0 : 0 ≤ m := by positivity
  have hr1 : |r'| ≤ η * rk := by rw [hr', abs_mul, abs_of_pos hrk]; exact mul_le_mul_of_nonneg_right hμ' hrk.le
  have hMa : |M| ≤ η + m := by
    have := abs_add_le (M - μ) μ
    rw [sub_add_cancel] at this
    linarith
  have t1 : |M * R' - μ * r'| ≤ m * (η * rk) + (η + m) * (E * rk) := by
    have e : M * R' - μ * r' = (M - μ) * r' + M * (R' - r') := by ring
    rw [e]
    refine le_trans (abs_add_le _ _) ?_
    rw [abs_mul, abs_mul]
    exact add_le_add (mul_le_mul hm hr1 (abs_nonneg _) hm0) (mul_le_mul hMa h3 (abs_nonneg _) (by linarith))
  have t2 : m * η + (η + m) * E ≤ ((1 + η) ^ 2 - 1) * E + u * η ^ 2 + 5 * E ^ 2 := by
    have w1 : q * η ≤ (1 + η) * η * E + 16 / 7 * E ^ 2 := by
      have := mul_le_mul_of_nonneg_right q1 hη
      have := mul_nonneg (mul_nonneg hE hE) (sub_nonneg.2 hη1)
      nlinarith
    have w2 : u * q ≤ 16 / 77 * E ^ 2 := by nlinarith
    have w2' : u * q * η ≤ 16 / 77 * E ^ 2 := le_trans (mul_le_of_le_one_right (mul_nonneg hu q0) hη1) w2
    have w3 : q * E ≤ 16 / 7 * E ^ 2 := by nlinarith
    have w4 : u * η * E ≤ 1 / 11 * E ^ 2 := by
      have : u * η ≤ u := mul_le_of_le_one_right hu hη1
      nlinarith
    have w5 : u * q * E ≤ 2 / 77 * E ^ 2 := by nlinarith [mul_nonneg hu q0, mul_nonneg hE hE]
    have : m * η + (η + m) * E = q * η + u * η ^ 2 + u * q * η + η * E + q * E + u * η * E + u * q * E := by rw [hmd]; ring
    rw [this]
    have e2 : ((1 + η) ^ 2 - 1) * E = (1 + η) * η * E + η * E := by ring
    rw [e2]
    have := sq_nonneg E
    linarith
  have t3 : |M * R' - μ * r'| ≤ (((1 + η) ^ 2 - 1) * E + u * η ^ 2 + 5 * E ^ 2) * rk := by
    have := mul_le_mul_of_nonneg_right t2 hrk.le
    have e : m * (η * rk) + (η + m) * (E * rk) = (m * η + (η + m) * E) * rk := by ring
    linarith
  have t4 : |μ * r'| ≤ η ^ 2 * rk := by
    rw [abs_mul, sq, mul_assoc]
    exact mul_le_mul hμ hr1 (abs_nonneg _) hη
  have t5 : |M * R'| ≤ η ^ 2 * rk + (((1 + η) ^ 2 - 1) * E + u * η ^ 2 + 5 * E ^ 2) * rk := by
    have := abs_add_le (M * R' - μ * r') (μ * r')
    rw [sub_add_cancel] at this
    linarith
  have t6 := abs_add_le (P - M * R') (M * R' - μ * r')
  rw [sub_add_sub_cancel] at t6
  have t7 := mul_le_mul_of_nonneg_left t5 hu
  have hu1 : u ≤ 1 := by linarith
  have t8 : u * (u * η ^ 2) * rk ≤ u * η ^ 2 * rk := by
    refine mul_le_mul_of_nonneg_right ?_ hrk.le
    exact mul_le_of_le_one_left (by positivity) hu1
  have e1 : u * (η ^ 2 * rk + (((1 + η) ^ 2 - 1) * E + u * η ^ 2 + 5 * E ^ 2) * rk) = u * η ^ 2 * rk + u * (((1 + η) ^ 2 - 1) * E + 5 * E ^ 2) * rk + u * (u * η ^ 2) * rk := by ring
  have e2 : ((1 + u) * (((1 + η) ^ 2 - 1) * E + 5 * E ^ 2) + 3 * u * η ^ 2) * rk = (((1 + η) ^ 2 - 1) * E + u * η ^ 2 + 5 * E ^ 2) * rk + u * (((1 + η) ^ 2 - 1) * E + 5 * E ^ 2) * rk + 2 * (u * η ^ 2 * rk) := by ring
  rw [e2]
  rw [e1] at t7
  linarith

/-- `∑ α^(j-k) ρ^k c + α^j ≤ ρ^j` -/
theorem sum_growth {α ρ c : ℚ} (hα : 0 ≤ α) (hc : 0 ≤ c) (hρ : 0 ≤ ρ) (h : α * (1 + c) ≤ ρ) (j : ℕ) : ∑ k ∈ range j, α ^ (j - k) * (ρ ^ k * c) + α ^ j ≤ ρ ^ j := by
  induction j with
  | zero => simp
  | succ j ih =>
    rw [sum_range_succ]
    have e : ∀ k ∈ range j, α ^ (j + 1 - k) * (ρ ^ k * c) = α * (α ^ (j - k) * (ρ ^ k * c)) := by
      intro k hk
      rw [mem_range] at hk
      rw [show j + 1 - k = (j - k) + 1 by omega, pow_succ]; ring
    rw [sum_congr rfl e, ← mul_sum, Nat.add_sub_cancel_left, pow_one, pow_succ α]
    have h1 := mul_le_mul_of_nonneg_left ih hα
    have h2 := mul_le_mul_of_nonneg_right h (pow_nonneg hρ j)
    rw [pow_succ ρ]
    nlinarith

/-- `1 + ∑ η² α^(j-k) ≤ α^j` -/
theorem sum_eta {α η : ℚ} (hα : 0 ≤ α) (h : 1 ≤ α * (1 - η ^ 2)) (j : ℕ) : 1 + ∑ k ∈ range j, η ^ 2 * α ^ (j - k) ≤ α ^ j := by
  induction j with
  | zero => simp
  | succ j ih =>
    rw [sum_range_succ]
    have e : ∀ k ∈ range j, η ^ 2 * α ^ (j + 1 - k) = α * (η ^ 2 * α ^ (j - k)) := by
      intro k hk
      rw [mem_range] at hk
      rw [show j + 1 - k = (j - k) + 1 by omega, pow_succ]; ring
    rw [sum_congr rfl e, ← mul_sum, Nat.add_sub_cancel_left, pow_one, pow_succ α]
    have h1 := mul_le_mul_of_nonneg_left ih hα
    nlinarith

/-- the exact values: `LLL`-reduced with `η` and `1 / α = δ - η²`; the computed ones -/
structure Data (d : ℕ) (η α u : ℚ) (fl : ℚ → ℚ) (g r mu R M : ℕ → ℕ → ℚ) : Prop where
  pos : ∀ i < d, 0 < r i i
  rmu : ∀ i < d, ∀ j < i, r i j = mu i j * r j j
  red : ∀ i < d, ∀ j < i, |mu i j| ≤ η
  step : ∀ i, i + 1 < d → r i i ≤ α * r (i + 1) (i + 1)
  gram : ∀ i < d, ∀ j ≤ i, g i j = r i j + ∑ k ∈ range j, mu j k * r i k
  rel : RelErr u fl
  comp : ∀ i < d, ∀ j ≤ i, ∃ S : ℕ → ℚ, S 0 = fl (g i j) ∧ (∀ k, S (k + 1) = fl (S k - fl (M j k * R i k))) ∧ R i j = S j
  quot : ∀ i < d, ∀ j < i, M i j = fl (R i j / R j j)

theorem Data.grow {d : ℕ} {η α u : ℚ} {fl : ℚ → ℚ} {g r mu R M : ℕ → ℕ → ℚ} (h : Data d η α u fl g r mu R M) (hα : 0 ≤ α) {k j : ℕ} (hkj : k ≤ j) (hj : j < d) : r k k ≤ α ^ (j - k) * r j j := by
  induction j, hkj using Nat.le_induction with
  | base => simp
  | succ j hkj ih =>
    have h1 := ih (by omega)
    have h2 := mul_le_mul_of_nonneg_left (h.step j hj) (pow_nonneg hα (j - k))
    rw [show j + 1 - k = (j - k) + 1 by omega, pow_succ, mul_assoc]
    linarith

/-- the bound: `11/12` of what evaluator.cpp:22-25 assumes -/
def bnd (d : ℕ) (ρ u : ℚ) (j : ℕ) : ℚ := 11 / 3 * d * ρ ^ (j + 1) * u

theorem bnd_le {d : ℕ} {u ε ρ : ℚ} (hu : 0 ≤ u) (hρ1 : 1 ≤ ρ) (hprec : 32 * d ^ 2 * ρ ^ d * u ≤ ε) {k : ℕ} (hk : k < d) : bnd d ρ u k ≤ ε / 8 := by
  have hd1 : (1 : ℚ) ≤ d := by exact_mod_cast (by omega : 1 ≤ d)
  have h1 : ρ ^ (k + 1) ≤ ρ ^ d := pow_le_pow_right₀ hρ1 (by omega)
  have h2 : bnd d ρ u k ≤ 11 / 3 * d * ρ ^ d * u := by
    unfold bnd
    gcongr
  have h3 : (d : ℚ) * ρ ^ d * u ≤ d ^ 2 * ρ ^ d * u := by
    gcongr
    nlinarith
  have : 0 ≤ (d : ℚ) * ρ ^ d * u := by positivity
  nlinarith

theorem near_one {d j : ℕ} {u ε ρ : ℚ} (hu : 0 ≤ u) (hρ3 : 3 ≤ ρ) (hε : ε ≤ 1) (hprec : 32 * d ^ 2 * ρ ^ d * u ≤ ε) (hj : j < d) : (1 + u) ^ (j + 2) ≤ 1 + ε / 24 := by
  have hρ1 : 1 ≤ ρ := by linarith
  have hd1 : (1 : ℚ) ≤ d := by exact_mod_cast (by omega : 1 ≤ d)
  have h1 : (3 : ℚ) ≤ ρ ^ d := le_trans hρ3 (le_self_pow₀ hρ1 (by omega))
  have h2 : 96 * (d : ℚ) ^ 2 * u ≤ ε := by
    have : 0 ≤ (d : ℚ) ^ 2 * u := by positivity
    nlinarith
  have h3 : (d : ℚ) * u ≤ d ^ 2 * u := by
    gcongr
    nlinarith
  have h4 : ((j + 2 : ℕ) : ℚ) ≤ 2 * d := by
    have : j + 2 ≤ 2 * d := by omega
    exact_mod_cast this
  have h5 : ((j + 2 : ℕ) : ℚ) * u ≤ ε / 48 := by
    have := mul_le_mul_of_nonneg_right h4 hu
    nlinarith
  have := one_add_pow hu (j + 2) (by nlinarith)
  nlinarith

theorem near_c {η ε W : ℚ} (hη : 1 / 2 ≤ η) (hη1 : η ≤ 1) (hε : ε ≤ 1) (hε0 : 0 ≤ ε) (hW : W ≤ 1 + ε / 24) : W * ((1 + η) ^ 2 - 1 + 5 / 8 * ε) ≤ (1 + η) ^ 2 - 1 + ε := by
  have h0 : 0 ≤ (1 + η) ^ 2 - 1 + 5 / 8 * ε := by nlinarith
  have h1 := mul_le_mul_of_nonneg_right hW h0
  have h2 : (1 + η) ^ 2 - 1 + 5 / 8 * ε ≤ 29 / 8 := by nlinarith
  have h3 := mul_le_mul_of_nonneg_left h2 hε0
  have e : (1 + ε / 24) * ((1 + η) ^ 2 - 1 + 5 / 8 * ε) = ((1 + η) ^ 2 - 1 + 5 / 8 * ε) + ε * ((1 + η) ^ 2 - 1 + 5 / 8 * ε) / 24 := by ring
  rw [e] at h1
  linarith

theorem term_le {d j k : ℕ} {η α u ε ρ c rk rj : ℚ} (hα : 0 ≤ α) (hu : 0 ≤ u) (hρ : 0 ≤ ρ) (hc0 : 0 ≤ c) (hrk : 0 ≤ rk) (c3 : rk ≤ α ^ (j - k) * rj) (hE : bnd d ρ u k ≤ ε / 8)
    (hWc : (1 + u) ^ (j + 2) * ((1 + η) ^ 2 - 1 + 5 / 8 * ε) ≤ c) (hW1 : (1 + u) ^ (j + 1) ≤ 2) :
    (1 + u) ^ (j + 1) * (((1 + u) * (((1 + η) ^ 2 - 1) * bnd d ρ u k + 5 * bnd d ρ u k ^ 2) + 3 * u * η ^ 2) * rk) ≤
      (11 / 3 * d * ρ * u) * (α ^ (j - k) * (ρ ^ k * c)) * rj + 6 * u * (η ^ 2 * α ^ (j - k)) * rj := by
  have b0 : 0 ≤ bnd d ρ u k := by unfold bnd; positivity
  have b1 : ((1 + η) ^ 2 - 1) * bnd d ρ u k + 5 * bnd d ρ u k ^ 2 ≤ ((1 + η) ^ 2 - 1 + 5 / 8 * ε) * bnd d ρ u k := by
    have := mul_le_mul_of_nonneg_right hE b0
    rw [add_mul, sq]
    linarith
  have b2 : (1 + u) ^ (j + 1) * ((1 + u) * (((1 + η) ^ 2 - 1) * bnd d ρ u k + 5 * bnd d ρ u k ^ 2)) ≤ c * bnd d ρ u k := by
    have e1 := mul_le_mul_of_nonneg_left b1 (by positivity : 0 ≤ (1 + u) ^ (j + 2))
    have e2 := mul_le_mul_of_nonneg_right hWc b0
    rw [← mul_assoc, ← pow_succ]
    rw [← mul_assoc] at e1
    exact le_trans e1 e2
  have b3 : (1 + u) ^ (j + 1) * (3 * u * η ^ 2) ≤ 6 * u * η ^ 2 := by
    have := mul_le_mul_of_nonneg_right hW1 (by positivity : 0 ≤ 3 * u * η ^ 2)
    linarith
  have b4 : (1 + u) ^ (j + 1) * (((1 + u) * (((1 + η) ^ 2 - 1) * bnd d ρ u k + 5 * bnd d ρ u k ^ 2) + 3 * u * η ^ 2) * rk) ≤ (c * bnd d ρ u k + 6 * u * η ^ 2) * rk := by
    rw [← mul_assoc, mul_add]
    exact mul_le_mul_of_nonneg_right (add_le_add b2 b3) hrk
  have b5 := mul_le_mul_of_nonneg_left c3 (by positivity : 0 ≤ c * bnd d ρ u k + 6 * u * η ^ 2)
  refine le_trans b4 (le_trans b5 (le_of_eq ?_))
  unfold bnd
  rw [pow_succ ρ k]; ring

theorem error {d m : ℕ} {η α u ε ρ : ℚ} {fl : ℚ → ℚ} {g r mu R M : ℕ → ℕ → ℚ} (h : Data m η α u fl g r mu R M) (hmd : m ≤ d) (hη : 1 / 2 ≤ η) (hη1 : η ≤ 1) (hα : 0 < α) (hαη : 1 ≤ α * (1 - η ^ 2))
    (hu : 0 ≤ u) (hε : ε ≤ 1) (hρ3 : 3 ≤ ρ) (hρ : α * ((1 + η) ^ 2 + ε) ≤ ρ) (hprec : 32 * d ^ 2 * ρ ^ d * u ≤ ε) :
    ∀ j i, j ≤ i → i < m → |R i j - r i j| ≤ bnd d ρ u j * r j j := by
  intro j
  induction j using Nat.strong_induction_on with
  | _ j ih =>
  intro i hji hi
  have hd1 : (1 : ℚ) ≤ d := by exact_mod_cast (by omega : 1 ≤ d)
  have hρ1 : 1 ≤ ρ := by linarith
  have hE0 : ∀ k, 0 ≤ bnd d ρ u k := fun k => by unfold bnd; positivity
  have hEε := fun k hk => bnd_le hu hρ1 hprec (k := k) hk
  have hEu : ∀ k, 11 * u ≤ bnd d ρ u k := by
    intro k
    have h1 : ρ ≤ ρ ^ (k + 1) := le_self_pow₀ hρ1 (by omega)
    have h2 : 3 ≤ (d : ℚ) * ρ ^ (k + 1) := by nlinarith
    unfold bnd
    nlinarith
  have hε0 : 0 ≤ ε := le_trans (by positivity) hprec
  have hW := near_one hu hρ3 hε hprec (by omega : j < d)
  obtain ⟨S, S0, S1, S2⟩ := h.comp i hi j hji
  have hj : j < m := by omega
  have rj := h.pos j hj
  -- exact partial sums
  set s : ℕ → ℚ := fun k => g i j - ∑ l ∈ range k, mu j l * r i l with hs
  set T : ℕ → ℚ := fun k => ((1 + u) * (((1 + η) ^ 2 - 1) * bnd d ρ u k + 5 * bnd d ρ u k ^ 2) + 3 * u * η ^ 2) * r k k with hT
  have acc := accumulate hu h.rel (S := S) (s := s) (t := fun k => mu j k * r i k) (P := fun k => fl (M j k * R i k)) (T := T) (n := j) (by rw [S0, hs]; simp) S1
    (fun k => by rw [hs]; simp only; rw [sum_range_succ]; ring) (by
      intro k hk
      have hkd : k < m := by omega
      refine prod_err hu (by linarith) hη1 (le_trans (hEε k (by omega)) (by linarith)) (hEu k) (h.pos k hkd) (h.rmu j hj k hk) (h.red j hj k hk) (ih k hk j hk.le hj) (ih k hk k le_rfl hkd) ?_
        (h.rmu i hi k (by omega)) (h.red i hi k (by omega)) (ih k hk i (by omega) hi) (h.rel _)
      rw [h.quot j hj k hk]
      exact h.rel _) j le_rfl
  have hsj : s j = r i j := by rw [hs]; simp only; rw [h.gram i hi j hji]; ring
  rw [← S2, hsj] at acc
  have H := sum_eta hα.le hαη j
  -- size of the partial sums
  have hsl : ∀ l ∈ range (j + 1), |s l| ≤ α ^ j * r j j := by
    intro l hl
    rw [mem_range] at hl
    have e : s l = r i j + ∑ k ∈ Ico l j, mu j k * r i k := by
      rw [hs]; simp only
      rw [h.gram i hi j hji, ← sum_range_add_sum_Ico _ (by omega : l ≤ j)]; ring
    have b1 : |r i j| ≤ r j j := by
      rcases hji.lt_or_eq with hlt | rfl
      · rw [h.rmu i hi j hlt, abs_mul, abs_of_pos rj]
        exact mul_le_of_le_one_left rj.le (le_trans (h.red i hi j hlt) hη1)
      · exact (abs_of_pos rj).le
    have b2 : ∀ k ∈ Ico l j, |mu j k * r i k| ≤ η ^ 2 * α ^ (j - k) * r j j := by
      intro k hk
      rw [mem_Ico] at hk
      have hkd : k < m := by omega
      rw [h.rmu i hi k (by omega), abs_mul, abs_mul, abs_of_pos (h.pos k hkd)]
      have c1 := h.red j hj k (by omega)
      have c2 := h.red i hi k (by omega)
      have c3 := h.grow hα.le (by omega : k ≤ j) hj
      have c4 : |mu j k| * |mu i k| ≤ η * η := mul_le_mul c1 c2 (abs_nonneg _) (by linarith)
      have c5 := mul_le_mul c4 c3 (h.pos k hkd).le (by positivity)
      nlinarith
    rw [e]
    refine le_trans (abs_add_le _ _) ?_
    have b3 := le_trans (abs_sum_le_sum_abs _ _) (sum_le_sum b2)
    have b4 : ∑ k ∈ Ico l j, η ^ 2 * α ^ (j - k) * r j j ≤ ∑ k ∈ range j, η ^ 2 * α ^ (j - k) * r j j := by
      refine sum_le_sum_of_subset_of_nonneg (fun k hk => ?_) (fun k _ _ => by positivity)
      rw [mem_Ico] at hk
      rw [mem_range]; omega
    rw [← sum_mul (range j)] at b4
    have := mul_le_mul_of_nonneg_right H rj.le
    rw [add_mul, one_mul] at this
    linarith
  have hss : ∑ l ∈ range (j + 1), |s l| ≤ d * (α ^ j * r j j) := by
    refine le_trans (sum_le_card_nsmul _ _ _ hsl) ?_
    rw [card_range, nsmul_eq_mul]
    have : ((j + 1 : ℕ) : ℚ) ≤ d := by exact_mod_cast (by omega : j + 1 ≤ d)
    exact mul_le_mul_of_nonneg_right this (by positivity)
  -- sum of the `T`
  set c := (1 + η) ^ 2 - 1 + ε with hc
  have hWc := near_c hη hη1 hε hε0 hW
  have hW0 : 0 ≤ (1 + u) ^ (j + 1) := by positivity
  have hW1 : (1 + u) ^ (j + 1) ≤ 2 := by
    have : (1 + u) ^ (j + 1) ≤ (1 + u) ^ (j + 2) := pow_le_pow_right₀ (by linarith) (by omega)
    linarith
  have hc0 : 0 ≤ c := by rw [hc]; nlinarith
  have hTk : ∀ k ∈ range j, (1 + u) ^ (j + 1) * T k ≤ (11 / 3 * d * ρ * u) * (α ^ (j - k) * (ρ ^ k * c)) * r j j + 6 * u * (η ^ 2 * α ^ (j - k)) * r j j := by
    intro k hk
    rw [mem_range] at hk
    exact term_le hα.le hu (by linarith) hc0 (h.pos k (by omega)).le (h.grow hα.le hk.le hj) (hEε k (by omega)) hWc hW1
  have G := sum_growth hα.le hc0 (by linarith) (c := c) (by rw [hc]; linarith) j (ρ := ρ)
  have hsum := sum_le_sum hTk
  rw [← mul_sum, sum_add_distrib, ← sum_mul, ← mul_sum, ← sum_mul, ← mul_sum] at hsum
  have hu2 : (1 + u) ^ (j + 1) * (u * ∑ l ∈ range (j + 1), |s l|) ≤ 2 * (u * (d * (α ^ j * r j j))) := by
    refine mul_le_mul hW1 (mul_le_mul_of_nonneg_left hss hu) ?_ (by norm_num)
    exact mul_nonneg hu (sum_nonneg fun _ _ => abs_nonneg _)
  rw [mul_add] at acc
  set X := ∑ k ∈ range j, α ^ (j - k) * (ρ ^ k * c) with hX
  set Y := ∑ k ∈ range j, η ^ 2 * α ^ (j - k) with hY
  have f1 : (11 / 3 * d * ρ * u) * X * r j j ≤ (11 / 3 * d * ρ * u) * (ρ ^ j - α ^ j) * r j j := by
    refine mul_le_mul_of_nonneg_right (mul_le_mul_of_nonneg_left (by linarith) (by positivity)) rj.le
  have f2 : 6 * u * Y * r j j ≤ 6 * u * α ^ j * r j j := by
    refine mul_le_mul_of_nonneg_right (mul_le_mul_of_nonneg_left (by linarith) (by positivity)) rj.le
  have f3 : 8 * d * u * α ^ j * r j j ≤ (11 / 3 * d * ρ * u) * α ^ j * r j j := by
    refine mul_le_mul_of_nonneg_right (mul_le_mul_of_nonneg_right ?_ (by positivity)) rj.le
    have h0 : 0 ≤ (d : ℚ) * u := by positivity
    have h1 := mul_le_mul_of_nonneg_left hρ3 h0
    have e : 11 / 3 * (d : ℚ) * ρ * u = 11 / 3 * ((d : ℚ) * u * ρ) := by ring
    rw [e]
    linarith
  have f4 : 6 * u * α ^ j * r j j ≤ 6 * d * u * α ^ j * r j j := by
    refine mul_le_mul_of_nonneg_right (mul_le_mul_of_nonneg_right ?_ (by positivity)) rj.le
    have := mul_le_mul_of_nonneg_right hd1 hu
    linarith
  have f5 : bnd d ρ u j * r j j = (11 / 3 * d * ρ * u) * (ρ ^ j - α ^ j) * r j j + (11 / 3 * d * ρ * u) * α ^ j * r j j := by
    unfold bnd; rw [pow_succ]; ring
  rw [f5]
  have e1 : 2 * (u * (d * (α ^ j * r j j))) = 2 * d * u * α ^ j * r j j := by ring
  have e2 : 8 * d * u * α ^ j * r j j = 2 * d * u * α ^ j * r j j + 6 * d * u * α ^ j * r j j := by ring
  linarith

/-- the error of the coefficients `mu` -/
theorem error_mu {d m : ℕ} {η α u ε ρ : ℚ} {fl : ℚ → ℚ} {g r mu R M : ℕ → ℕ → ℚ} (h : Data m η α u fl g r mu R M) (hmd : m ≤ d) (hη : 1 / 2 ≤ η) (hη1 : η ≤ 1) (hα : 0 < α) (hαη : 1 ≤ α * (1 - η ^ 2))
    (hu : 0 ≤ u) (hε : ε ≤ 1) (hρ3 : 3 ≤ ρ) (hρ : α * ((1 + η) ^ 2 + ε) ≤ ρ) (hprec : 32 * d ^ 2 * ρ ^ d * u ≤ ε) {j i : ℕ} (hji : j < i) (hi : i < m) :
    |M i j - mu i j| ≤ 5 / 2 * bnd d ρ u j := by
  have hd1 : (1 : ℚ) ≤ d := by exact_mod_cast (by omega : 1 ≤ d)
  have hρ1 : 1 ≤ ρ := by linarith
  have hE0 : 0 ≤ bnd d ρ u j := by unfold bnd; positivity
  have hE8 : bnd d ρ u j ≤ 1 / 8 := le_trans (bnd_le hu hρ1 hprec (by omega)) (by linarith)
  have hEu : 11 * u ≤ bnd d ρ u j := by
    have h1 : ρ ≤ ρ ^ (j + 1) := le_self_pow₀ hρ1 (by omega)
    have h2 : 3 ≤ (d : ℚ) * ρ ^ (j + 1) := by nlinarith
    unfold bnd
    nlinarith
  have e := error h hmd hη hη1 hα hαη hu hε hρ3 hρ hprec j
  have k1 := mu_err hu (by linarith) hE0 hE8 (h.pos j (by omega)) (h.rmu i hi j hji) (h.red i hi j hji) (e i hji.le hi) (e j le_rfl (by omega)) (M := M i j) (by
    rw [h.quot i hi j hji]; exact h.rel _)
  obtain ⟨-, q2⟩ := q_le (by linarith : 0 ≤ η) hη1 hE0 hE8
  refine le_trans k1 ?_
  have h1E : 0 < 1 - bnd d ρ u j := by linarith
  have q0 : 0 ≤ (1 + η) * bnd d ρ u j / (1 - bnd d ρ u j) := by positivity
  generalize (1 + η) * bnd d ρ u j / (1 - bnd d ρ u j) = q at *
  have w : u * (η + q) ≤ u * (9 / 7) := mul_le_mul_of_nonneg_left (by linarith) hu
  linarith

end Chol
end Fplll

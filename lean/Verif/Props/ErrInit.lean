import Verif.Props.ErrBound

/-!
# C70: the bounds on the errors of the GSO data set by `init_delta_def`
-/

open Finset

namespace Fplll
namespace ErrB

open Enum Spec

variable {A : Arith} {ρ : ℚ}

/-- what the code assumes of the floating-point GSO: `r~` and `mu~` are close to the exact `r` and `mu`
(evaluator.cpp:22-25) -/
structure GsoErr (ρ : ℚ) (prec : ℤ) (rho : ℚ) (d : ℕ) (mu' : ℕ → ℕ → ℚ) (r' : ℕ → ℚ) (mu : ℕ → ℕ → ℚ) (r : ℕ → ℚ) :
    Prop where
  rpos : ∀ i, i < d → 0 < r i
  qpos : ∀ i, i < d → 0 < r' i
  hr : ∀ i, i < d → |r' i - r i| ≤ ρ * (d * rho ^ (i + 1) * 2 ^ (2 - prec)) * r i
  hmu : ∀ i j, i < j → j < d → |mu' j i - mu j i| ≤ d * rho ^ (i + 1) * 2 ^ (4 - prec)

theorem maxRelDR_ge (hA : ArithOK A ρ) {prec : ℤ} {rho : ℚ} (d j : ℕ) :
    d * rho ^ (j + 1) * 2 ^ (2 - prec) ≤ maxRelDR A prec rho d j := by
  refine le_trans ?_ (hA.ru _)
  have h1 := hA.ru (rho ^ (j + 1))
  have h2 : (0 : ℚ) ≤ d * 2 ^ (2 - prec) := mul_nonneg (Nat.cast_nonneg d) (two_zpow_pos _).le
  have h3 := mul_le_mul_of_nonneg_left h1 h2
  calc (d : ℚ) * rho ^ (j + 1) * 2 ^ (2 - prec) = d * 2 ^ (2 - prec) * rho ^ (j + 1) := by ring
    _ ≤ _ := h3

/-- **C70** `init_delta_def`: if the GSO data have the errors that the code assumes (up to the accuracy `ρ` of one
operation that is rounded to nearest), `maxRelDR < 1` and no `mu~` exceeds 1, then the bounds stored hold both for the
data and for their roundings to `double`: the hypothesis of C68 and C69 is met. -/
theorem C70_init_delta_partial (hA : ArithOK A ρ) {fl : ℚ → ℚ} (hfl : RndU fl) {prec : ℤ} {rho : ℚ} (hrho : 0 ≤ rho) {d : ℕ}
    {mu' mu : ℕ → ℕ → ℚ} {r' r : ℕ → ℚ} (h : GsoErr ρ prec rho d mu' r' mu r)
    (hrel : ∀ i, i < d → 0 < A.rd (1 - maxRelDR A prec rho d i))
    (hone : ∀ i j, i < j → j < d → |mu' j i| ≤ 1) : DatOK (initDelta A prec rho d mu' r' fl) fl mu r := by
  have hu0 := hu_nonneg
  have hdm0 : ∀ i, d * rho ^ (i + 1) * 2 ^ (4 - prec) ≤ A.ru (d * 2 ^ (4 - prec) * A.ru (rho ^ (i + 1))) := by
    intro i
    refine le_trans ?_ (hA.ru _)
    have h2 : (0 : ℚ) ≤ d * 2 ^ (4 - prec) := mul_nonneg (Nat.cast_nonneg d) (two_zpow_pos _).le
    have h3 := mul_le_mul_of_nonneg_left (hA.ru (rho ^ (i + 1))) h2
    calc (d : ℚ) * rho ^ (i + 1) * 2 ^ (4 - prec) = d * 2 ^ (4 - prec) * rho ^ (i + 1) := by ring
      _ ≤ _ := h3
  have hdm : ∀ i, d * rho ^ (i + 1) * 2 ^ (4 - prec) + hu ≤ initDm A prec rho d true i := by
    intro i
    rw [initDm]
    simp only [if_true]
    refine le_trans ?_ (hA.ru _)
    linarith [hdm0 i]
  -- the bound on `r`
  have hx : ∀ i, i < d → |r' i - r i| ≤
      A.rn (A.ru (maxRelDR A prec rho d i / A.rd (1 - maxRelDR A prec rho d i)) * r' i) := by
    intro i hi
    set ε : ℚ := d * rho ^ (i + 1) * 2 ^ (2 - prec)
    set m := maxRelDR A prec rho d i with hm
    have hε0 : 0 ≤ ε := mul_nonneg (mul_nonneg (Nat.cast_nonneg d) (pow_nonneg hrho _)) (two_zpow_pos _).le
    have hεm : ε ≤ m := maxRelDR_ge hA d i
    have hp := hrel i hi
    rw [← hm] at hp
    have hrd := hA.rd (1 - m)
    have hr' := h.qpos i hi
    have h1 : |r' i - r i| ≤ ρ * ε * r i := h.hr i hi
    have h2 : r i ≤ r' i + |r' i - r i| := by linarith [neg_abs_le (r' i - r i)]
    have h3 : ρ * ε ≤ m := shrink hA.ρ1 hε0 hεm
    have h4 : 0 ≤ ρ * ε := mul_nonneg hA.ρ0.le hε0
    have hm0 : 0 ≤ m := h4.trans h3
    have h5 : |r' i - r i| * (1 - m) ≤ ρ * ε * r' i := by
      have k1 := mul_le_mul_of_nonneg_left h2 h4
      have k2 := mul_le_mul_of_nonneg_right h3 (abs_nonneg (r' i - r i))
      linarith
    have hq0 : 0 ≤ m / A.rd (1 - m) := div_nonneg hm0 hp.le
    have h6 : |r' i - r i| ≤ ρ * (m / A.rd (1 - m) * r' i) := by
      have k0 : 0 ≤ r' i := hr'.le
      have k1 : |r' i - r i| * A.rd (1 - m) ≤ |r' i - r i| * (1 - m) := mul_le_mul_of_nonneg_left hrd (abs_nonneg _)
      have k2 : ρ * ε * r' i ≤ ρ * m * r' i := mul_le_mul_of_nonneg_right (mul_le_mul_of_nonneg_left hεm hA.ρ0.le) k0
      have k3 : ρ * (m / A.rd (1 - m) * r' i) = ρ * m * r' i / A.rd (1 - m) := by ring
      rw [k3, le_div_iff₀ hp]
      linarith
    have h7 := hA.ru (m / A.rd (1 - m))
    have h8 : m / A.rd (1 - m) * r' i ≤ A.ru (m / A.rd (1 - m)) * r' i := mul_le_mul_of_nonneg_right h7 hr'.le
    have h9 := hA.rn (A.ru (m / A.rd (1 - m)) * r' i) ((mul_nonneg hq0 hr'.le).trans h8)
    have h10 := mul_le_mul_of_nonneg_left h8 hA.ρ0.le
    linarith
  have hdr : ∀ i, i < d → |r' i - r i| + hu * r' i ≤ initDr A prec rho d (r' i) true i := by
    intro i hi
    rw [initDr]
    simp only [if_true]
    refine le_trans ?_ (hA.ru _)
    linarith [hx i hi]
  refine ⟨rfl, ?_, ?_, ?_, ?_, h.rpos, h.qpos⟩
  · intro i j h1 h2
    have := h.hmu i j h1 h2
    exact this.trans (by have := hdm i; change _ ≤ initDm A prec rho d true i; linarith)
  · intro i j h1 h2
    have k1 := h.hmu i j h1 h2
    have k2 := hfl.arg (mu' j i)
    have k3 := mul_le_mul_of_nonneg_left (hone i j h1 h2) hu0
    have k4 := abs_sub_le (fl (mu' j i)) (mu' j i) (mu j i)
    have k5 := hdm i
    change |fl (mu' j i) - mu j i| ≤ initDm A prec rho d true i
    linarith
  · intro i hi
    have k1 := hdr i hi
    have k2 := mul_nonneg hu0 (h.qpos i hi).le
    change |r' i - r i| ≤ initDr A prec rho d (r' i) true i
    linarith
  · intro i hi
    have k1 := hdr i hi
    have k2 := hfl.arg (r' i)
    rw [abs_of_pos (h.qpos i hi)] at k2
    have k4 := abs_sub_le (fl (r' i)) (r' i) (r i)
    change |fl (r' i) - r i| ≤ initDr A prec rho d (r' i) true i
    linarith

/-- the bounds for the basis `(2, 0), (1, 2)` and a precision of 63 bits -/
example : DatOK (initDelta (mpfr 63) 63 8 2 (fun _ _ => 1 / 2) (fun _ => 4) r53) r53 (muS 2 exB) (normStar 2 exB) := by
  refine C70_init_delta_partial (ρ := 1 - 1 / 2 ^ 63) (mpfr_ok (by norm_num)) rndU_r53 (by norm_num) ⟨?_, ?_, ?_, ?_⟩ ?_ ?_
  · intro i hi
    rcases (by omega : i = 0 ∨ i = 1) with rfl | rfl
    · rw [exB_r0]; norm_num
    · rw [exB_r1]; norm_num
  · intro i _; norm_num
  · intro i hi
    rcases (by omega : i = 0 ∨ i = 1) with rfl | rfl
    · rw [exB_r0]; norm_num
    · rw [exB_r1]; norm_num
  · intro i j h1 h2
    obtain rfl : i = 0 := by omega
    obtain rfl : j = 1 := by omega
    rw [exB_mu]; norm_num
  · intro i hi
    rcases (by omega : i = 0 ∨ i = 1) with rfl | rfl
    · decide +kernel
    · decide +kernel
  · intro i j _ _; norm_num [abs_of_pos]

/-- **C70 violated** for `|mu| > 1`: one half ulp is added for the rounding of `mu` to `double`, whatever its size.  Here
`mu~ = mu = 2^60 + 1` is known exactly, its rounding to `double` is off by 1 and the bound is less than `2^-50`. -/
theorem C70_large_mu : GsoErr (1 - 1 / 2 ^ 63) 63 1 2 (fun _ _ => 2 ^ 60 + 1) (fun _ => 1) (fun _ _ => 2 ^ 60 + 1) (fun _ => 1) ∧
    (∀ i, i < 2 → 0 < (mpfr 63).rd (1 - maxRelDR (mpfr 63) 63 1 2 i)) ∧
    initDm (mpfr 63) 63 1 2 true 0 < 1 / 2 ^ 50 ∧ |r53 (2 ^ 60 + 1) - (2 ^ 60 + 1)| = 1 := by
  refine ⟨⟨by norm_num, by norm_num, ?_, ?_⟩, ?_, by decide +kernel, by decide +kernel⟩
  · intro i _; norm_num
  · intro i j _ _; norm_num
  · intro i hi
    rcases (by omega : i = 0 ∨ i = 1) with rfl | rfl
    · decide +kernel
    · decide +kernel

/-- **C70 violated** for `maxRelDR ≥ 1`, which is not checked: the bound on the error of `r_0` is negative. -/
theorem C70_negative_bound : 1 < maxRelDR (mpfr 63) 63 (2 ^ 62) 2 0 ∧ initDr (mpfr 63) 63 (2 ^ 62) 2 1 true 0 < 0 := by
  constructor <;> decide +kernel

end ErrB
end Fplll

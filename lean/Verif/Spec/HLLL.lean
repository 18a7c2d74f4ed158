import Mathlib.Analysis.Real.Sqrt
import Verif.Spec.GramSchmidt

/-!
# Specification: HLLL-reduced bases

The R-factor of a basis has the diagonal entries `‖b*_i‖` and the entries `μ_{i,j} ‖b*_j‖`.
-/

namespace Fplll.Spec

/-- the diagonal entry `i` of the R-factor -/
noncomputable def rDiag (n : ℕ) (B : ℕ → ℕ → ℚ) (i : ℕ) : ℝ := Real.sqrt (normStar n B i)

/-- the entry of the R-factor for row `i` of the basis in column `j < i` -/
noncomputable def rEntry (n : ℕ) (B : ℕ → ℕ → ℚ) (i j : ℕ) : ℝ := muS n B i j * rDiag n B j

/-- `(δ, η, θ)`-HLLL-reduced (Morel, Stehlé, Villard, H-LLL, Definition 2; `|r_{i,j}| ≤ η r_{i,i} + θ r_{j,j}`) -/
structure HLLLReduced (n d : ℕ) (B : ℕ → ℕ → ℚ) (δ η θ : ℝ) : Prop where
  size : ∀ i < d, ∀ j < i, |rEntry n B i j| ≤ η * rDiag n B j + θ * rDiag n B i
  lovasz : ∀ i, i + 1 < d → δ * rDiag n B i ^ 2 ≤ rEntry n B (i + 1) i ^ 2 + rDiag n B (i + 1) ^ 2

theorem rDiag_nonneg (n : ℕ) (B : ℕ → ℕ → ℚ) (i : ℕ) : 0 ≤ rDiag n B i := Real.sqrt_nonneg _

theorem rDiag_sq (n : ℕ) (B : ℕ → ℕ → ℚ) (i : ℕ) : rDiag n B i ^ 2 = (normStar n B i : ℝ) :=
  Real.sq_sqrt (by exact_mod_cast normStar_nonneg n B i)

/-- weaker parameters -/
theorem HLLLReduced.mono {n d : ℕ} {B : ℕ → ℕ → ℚ} {δ η θ δ' η' θ' : ℝ} (h : HLLLReduced n d B δ η θ) (hδ : δ' ≤ δ)
    (hη : η ≤ η') (hθ : θ ≤ θ') : HLLLReduced n d B δ' η' θ' := by
  constructor
  · intro i hi j hj
    have h1 := rDiag_nonneg n B j
    have h2 := rDiag_nonneg n B i
    have := h.size i hi j hj
    nlinarith
  · intro i hi
    have h1 := sq_nonneg (rDiag n B i)
    have := h.lovasz i hi
    nlinarith

/-- with `θ = 0` and rational parameters this is LLL-reducedness -/
theorem HLLLReduced.lll {n d : ℕ} {B : ℕ → ℕ → ℚ} {δ η : ℚ} (h : HLLLReduced n d B δ η 0)
    (hpos : ∀ i < d, 0 < normStar n B i) : LLLReduced n d B δ η := by
  constructor
  · intro i hi j hj
    have h1 : 0 < rDiag n B j := Real.sqrt_pos.2 (by exact_mod_cast hpos j (by omega))
    have h2 := h.size i hi j hj
    unfold rEntry at h2
    rw [abs_mul, abs_of_pos h1, zero_mul, add_zero] at h2
    have h3 := le_of_mul_le_mul_right h2 h1
    exact_mod_cast h3
  · intro i hi
    have h2 := h.lovasz i hi
    unfold rEntry at h2
    rw [mul_pow, rDiag_sq, rDiag_sq] at h2
    have h3 : δ * normStar n B i ≤ muS n B (i + 1) i ^ 2 * normStar n B i + normStar n B (i + 1) := by exact_mod_cast h2
    linarith

end Fplll.Spec

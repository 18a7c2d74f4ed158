import Mathlib.LinearAlgebra.Span.Basic
import Mathlib.Algebra.BigOperators.Intervals
import Mathlib.Algebra.Order.Ring.Rat
import Mathlib.Tactic.Ring

/-!
# Specification vocabulary for blocks of a basis

Nothing here mentions the model.  A basis is a function of row and column; only the first `n` columns count.
-/

namespace Fplll.Spec

/-- row `r` as a vector -/
def rowV (n : ℕ) (b : ℕ → ℕ → ℤ) (r : ℕ) : Fin n → ℤ := fun c => b r c

/-- the lattice generated by the rows `k, …, k + d - 1` -/
def blockSpan (n k d : ℕ) (b : ℕ → ℕ → ℤ) : Submodule ℤ (Fin n → ℤ) := Submodule.span ℤ {v | ∃ i < d, v = rowV n b (k + i)}

/-- the combination `∑ zᵢ b_{k+i}` of the rows of a block -/
def blockComb (n k d : ℕ) (b : ℕ → ℕ → ℤ) (z : ℕ → ℤ) : Fin n → ℤ := fun c => ∑ i ∈ Finset.range d, z i * b (k + i) c

/-- inner product of a rational vector with row `r` -/
def pairing (n : ℕ) (w : Fin n → ℚ) (b : ℕ → ℕ → ℤ) (r : ℕ) : ℚ := ∑ c, w c * (b r c : ℚ)

/-- the block generates the same lattice, the rows outside are the same -/
structure SameBlock (n k d : ℕ) (b b' : ℕ → ℕ → ℤ) : Prop where
  span : blockSpan n k d b' = blockSpan n k d b
  outside : ∀ r, r < k ∨ k + d ≤ r → rowV n b' r = rowV n b r

theorem SameBlock.refl (n k d : ℕ) (b : ℕ → ℕ → ℤ) : SameBlock n k d b b := ⟨rfl, fun _ _ => rfl⟩

theorem SameBlock.trans {n k d : ℕ} {b b' b'' : ℕ → ℕ → ℤ} (h1 : SameBlock n k d b b') (h2 : SameBlock n k d b' b'') : SameBlock n k d b b'' :=
  ⟨h2.span.trans h1.span, fun r h => (h2.outside r h).trans (h1.outside r h)⟩

theorem row_mem {n k d : ℕ} (b : ℕ → ℕ → ℤ) {i : ℕ} (hi : i < d) : rowV n b (k + i) ∈ blockSpan n k d b :=
  Submodule.subset_span ⟨i, hi, rfl⟩

theorem blockSpan_le {n k d : ℕ} {b b' : ℕ → ℕ → ℤ} (h : ∀ i < d, rowV n b' (k + i) ∈ blockSpan n k d b) :
    blockSpan n k d b' ≤ blockSpan n k d b := by
  refine Submodule.span_le.2 ?_
  rintro _ ⟨i, hi, rfl⟩
  exact h i hi

/-- adding a multiple of one row of the block to another -/
theorem SameBlock.add {n k d i j : ℕ} {b b' : ℕ → ℕ → ℤ} (x : ℤ) (hi : i < d) (hj : j < d) (hij : i ≠ j)
    (h : ∀ r, ∀ c < n, b' r c = if r = k + i then b (k + i) c + x * b (k + j) c else b r c) : SameBlock n k d b b' := by
  have e1 : rowV n b' (k + i) = rowV n b (k + i) + x • rowV n b (k + j) := by
    funext c; unfold rowV; rw [h _ _ c.2, if_pos rfl]; rfl
  have e2 : ∀ r, r ≠ k + i → rowV n b' r = rowV n b r := by
    intro r hr; funext c; unfold rowV; rw [h _ _ c.2, if_neg hr]
  refine ⟨le_antisymm (blockSpan_le fun a ha => ?_) (blockSpan_le fun a ha => ?_), fun r hr => e2 r (by omega)⟩
  · by_cases hai : a = i
    · rw [hai, e1]
      exact Submodule.add_mem _ (row_mem b hi) (Submodule.smul_mem _ _ (row_mem b hj))
    · rw [e2 _ (by omega)]; exact row_mem b ha
  · by_cases hai : a = i
    · have e3 : rowV n b (k + i) = rowV n b' (k + i) - x • rowV n b' (k + j) := by
        rw [e1, e2 (k + j) (by omega), add_sub_cancel_right]
      rw [hai, e3]
      exact Submodule.sub_mem _ (row_mem b' hi) (Submodule.smul_mem _ _ (row_mem b' hj))
    · rw [← e2 _ (by omega)]; exact row_mem b' ha

/-- permuting the rows of the block -/
theorem SameBlock.perm {n k d : ℕ} {b b' : ℕ → ℕ → ℤ} (σ τ : ℕ → ℕ) (hσ : ∀ i < d, k ≤ σ (k + i) ∧ σ (k + i) < k + d)
    (hτ : ∀ i < d, k ≤ τ (k + i) ∧ τ (k + i) < k + d) (h1 : ∀ i < d, σ (τ (k + i)) = k + i) (h2 : ∀ r, r < k ∨ k + d ≤ r → σ r = r)
    (h : ∀ r, b' r = b (σ r)) : SameBlock n k d b b' := by
  refine ⟨le_antisymm (blockSpan_le fun a ha => ?_) (blockSpan_le fun a ha => ?_), fun r hr => by unfold rowV; rw [h, h2 r hr]⟩
  · have e : rowV n b' (k + a) = rowV n b (k + (σ (k + a) - k)) := by
      unfold rowV; rw [h, Nat.add_sub_cancel' (hσ a ha).1]
    have := hσ a ha
    rw [e]; exact row_mem b (by omega)
  · have e : rowV n b (k + a) = rowV n b' (k + (τ (k + a) - k)) := by
      unfold rowV; rw [h, Nat.add_sub_cancel' (hτ a ha).1, h1 a ha]
    have := hτ a ha
    rw [e]; exact row_mem b' (by omega)

/-- negating a row of the block -/
theorem SameBlock.neg {n k d i : ℕ} {b b' : ℕ → ℕ → ℤ} (hi : i < d)
    (h : ∀ r, ∀ c < n, b' r c = if r = k + i then -b r c else b r c) : SameBlock n k d b b' := by
  have e1 : rowV n b' (k + i) = -rowV n b (k + i) := by
    funext c; unfold rowV; rw [h _ _ c.2, if_pos rfl]; rfl
  have e2 : ∀ r, r ≠ k + i → rowV n b' r = rowV n b r := by
    intro r hr; funext c; unfold rowV; rw [h _ _ c.2, if_neg hr]
  refine ⟨le_antisymm (blockSpan_le fun a ha => ?_) (blockSpan_le fun a ha => ?_), fun r hr => e2 r (by omega)⟩
  · by_cases hai : a = i
    · rw [hai, e1]; exact Submodule.neg_mem _ (row_mem b hi)
    · rw [e2 _ (by omega)]; exact row_mem b ha
  · by_cases hai : a = i
    · rw [hai, ← neg_neg (rowV n b (k + i)), ← e1]; exact Submodule.neg_mem _ (row_mem b' hi)
    · rw [← e2 _ (by omega)]; exact row_mem b' ha

/-- What inserting the vector with coefficients `z` into the block must achieve.  The block generates the same lattice and the rows
outside are the same.  Primal: the first row of the block is, up to sign, `∑ zᵢ b_{k+i}`.  Dual: the vectors `w` with
`⟨w, b_{k+i}⟩ = zᵢ` (in particular the one in the span of the block) are, up to sign, dual to the last row of the new block. -/
structure Inserted (n k d : ℕ) (dual : Bool) (z : ℕ → ℤ) (b b' : ℕ → ℕ → ℤ) : Prop where
  block : SameBlock n k d b b'
  primal : dual = false → rowV n b' k = blockComb n k d b z ∨ rowV n b' k = -blockComb n k d b z
  dualv : dual = true → ∀ w : Fin n → ℚ, (∀ i < d, pairing n w b (k + i) = z i) →
    (∀ i < d - 1, pairing n w b' (k + i) = 0) ∧ (pairing n w b' (k + d - 1) = 1 ∨ pairing n w b' (k + d - 1) = -1)

end Fplll.Spec

import Mathlib.Data.Matrix.Mul
import Mathlib.LinearAlgebra.Matrix.Transvection
import Mathlib.LinearAlgebra.Span.Basic
import Mathlib.LinearAlgebra.Matrix.Permutation
import Mathlib.LinearAlgebra.Finsupp.LinearCombination

/-!
# Specification vocabulary for lattices

Nothing here mentions the model: integer matrices are functions of row and
column, a lattice is the set of integer combinations of the rows.
-/

namespace Fplll.Spec

/-- The `d × n` integer matrix stored in the top-left corner of `m`. -/
def toM (d n : ℕ) (m : ℕ → ℕ → ℤ) : Matrix (Fin d) (Fin n) ℤ := fun i j => m i j

/-- The lattice generated by the rows of a matrix: all integer combinations. -/
def lattice {d n : ℕ} (B : Matrix (Fin d) (Fin n) ℤ) : Set (Fin n → ℤ) :=
  {v | ∃ x : Fin d → ℤ, v = Matrix.vecMul x B}

/-- An integer matrix with an integer inverse. -/
def Unimodular {d : ℕ} (T : Matrix (Fin d) (Fin d) ℤ) : Prop := ∃ T', T * T' = 1 ∧ T' * T = 1

theorem lattice_mul {d n : ℕ} {T : Matrix (Fin d) (Fin d) ℤ} (hT : Unimodular T)
    (B : Matrix (Fin d) (Fin n) ℤ) : lattice (T * B) = lattice B := by
  obtain ⟨T', h1, h2⟩ := hT
  ext v
  constructor
  · rintro ⟨x, rfl⟩
    exact ⟨Matrix.vecMul x T, by rw [Matrix.vecMul_vecMul]⟩
  · rintro ⟨x, rfl⟩
    refine ⟨Matrix.vecMul x T', ?_⟩
    rw [Matrix.vecMul_vecMul, ← Matrix.mul_assoc, h2, Matrix.one_mul]

end Fplll.Spec

import Mathlib.MeasureTheory.Integral.IntervalIntegral.Basic
import Mathlib.MeasureTheory.Integral.IntervalIntegral.FundThmCalculus
import Mathlib.MeasureTheory.Constructions.Pi
import Mathlib.MeasureTheory.Measure.Lebesgue.Basic

/-!
# Cylinder intersections

Specification for C45, independent of the model: the nested integral and the part of the `2d`-dimensional ball that survives
pruning with the squared radii `β 0 ≤ β 1 ≤ …` (one for each pair of coordinates).
-/

open MeasureTheory

namespace Fplll

/-- `∫_x^{β₀} ∫_{t₀}^{β₁} … 1` -/
noncomputable def nested : List ℝ → ℝ → ℝ
  | [], _ => 1
  | β :: l, x => ∫ t in x..β, nested l t

/-- the points of `ℝ^(2d) = (ℝ²)^d` whose first `2 (k + 1)` coordinates have squared length at most `β k - r`, for each `k` -/
def cylinder (d : ℕ) (β : Fin d → ℝ) (r : ℝ) : Set (Fin d → ℝ × ℝ) :=
  {z | ∀ k : Fin d, r + ∑ i : Fin d, (if i ≤ k then (z i).1 ^ 2 + (z i).2 ^ 2 else 0) ≤ β k}

/-- the points of `ℝ^(2d)` whose first `k + 1` coordinates have squared length at most `b k`, for each `k < 2d`; the coordinates
`2k` and `2k + 1` of a point are the two components of `z k` -/
def pruned (d : ℕ) (b : ℕ → ℝ) : Set (Fin d → ℝ × ℝ) :=
  {z | ∀ k : Fin d,
    (∑ i : Fin d, if i < k then (z i).1 ^ 2 + (z i).2 ^ 2 else 0) + (z k).1 ^ 2 ≤ b (2 * k) ∧
    (∑ i : Fin d, if i < k then (z i).1 ^ 2 + (z i).2 ^ 2 else 0) + ((z k).1 ^ 2 + (z k).2 ^ 2) ≤ b (2 * k + 1)}

end Fplll

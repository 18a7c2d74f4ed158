import Verif.Model.LLLBudget

/-!
# Model of the iteration limit of LLL with the arithmetic of `int` (lll.cpp:78-80)

`d` is an `int` (lll.cpp:52), so `2 * d * (d + 1)` is computed in `int` before it is multiplied by a `double`; the rest is as in
`Model/LLLBudget`.
-/

namespace Fplll
namespace LLL

/-- a result of `int` arithmetic; overflow is undefined: `none` -/
def int32 (z : ℤ) : Option ℤ := if -2 ^ 31 ≤ z ∧ z < 2 ^ 31 then some z else none

/-- `2 * d * (d + 1)`, lll.cpp:79: `2 * d`, `d + 1` and their product -/
def factorInt (d : ℕ) : Option ℤ :=
  (int32 (2 * d)).bind fun a => (int32 (d + 1)).bind fun b => int32 (a * b)

/-- `max_iter`, lll.cpp:78-80, when the product is `f`; as in `maxIterOf`, `delta ≠ 1` -/
noncomputable def maxIterWith (f : ℤ) (d e : ℕ) (δ : ℝ) : ℤ := truncZ ((d : ℝ) - f * (((e : ℝ) + 3) / Real.log δ))

/-- `max_iter` with the arithmetic of the language: undefined when `int` overflows or `delta = 1` -/
noncomputable def maxIterInt (d e : ℕ) (δ : ℝ) : Option ℤ :=
  if δ = 1 then none else (factorInt d).map fun f => maxIterWith f d e δ

/-- the product when `int` wraps around, as the usual machine instructions do -/
def factorWrap (d : ℕ) : ℤ := (2 * d * (d + 1) + 2 ^ 31) % 2 ^ 32 - 2 ^ 31

end LLL
end Fplll

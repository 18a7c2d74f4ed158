import Mathlib.Analysis.SpecialFunctions.Log.Basic
import Mathlib.Data.Nat.Size
import Verif.Model.LLL

/-!
# Model of the iteration limit of LLL

lll.cpp:77-80.  The logarithm and the quotient are real numbers here (the code computes them in double precision; the theorems allow
an error of ten percent).  The products `2 * d * (d + 1)` are exact: the code computes them in `int`, which overflows from
`d = 32768` on.
-/

namespace Fplll
namespace LLL

/-- `Z_NR<mpz_t>::exponent`, nr/nr_Z_mpz.inl:33-38: `mpz_get_d_2exp` truncates, so this is the bit length -/
def expZ (x : ℤ) : ℕ := x.natAbs.size

/-- `Matrix::get_max_exp`, nr/matrix.cpp:127-134, which is `get_max_exp_of_b`, gso.h:272-275 -/
def maxExp (r c : ℕ) (b : Mat ℤ) : ℕ := forUp 0 r (fun i m => forUp 0 c (fun j m => max m (expZ (b i j))) m) 0

/-- the floating-point expression of lll.cpp:78-79, when `delta ≠ 1` -/
noncomputable def budget (d e : ℕ) (δ : ℝ) : ℝ := (d : ℝ) - 2 * d * (d + 1) * (((e : ℝ) + 3) / Real.log δ)

/-- `static_cast<long long>` of a finite real number -/
noncomputable def truncZ (x : ℝ) : ℤ := if 0 ≤ x then ⌊x⌋ else ⌈x⌉

/-- `max_iter`, lll.cpp:77-79.  With `delta = 1` the quotient is infinite, and its conversion to an integer undefined: `none`. -/
noncomputable def maxIterOf (d e : ℕ) (δ : ℝ) : Option ℤ := if δ = 1 then none else some (truncZ (budget d e δ))

end LLL
end Fplll

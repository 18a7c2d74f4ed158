import Verif.Model.ErrBound

/-!
# The precision for the Gram-Schmidt orthogonalisation

`compute_min_prec`, util.cpp:44-97 (`gso_min_prec`, `l2_min_prec`).
-/

namespace Fplll
namespace ErrB

/-- outcome of `compute_min_prec`: the failed check in util.cpp:74; a conversion of an infinity or a NaN to `int` in util.cpp:93, which is undefined; `rho` and the precision -/
inductive MinPrec
  | abort
  | ub
  | ok (rho : ℚ) (prec : ℤ)

/-- the `epsilon` used, util.cpp:56-66: lowered for L2.  `eta - 0.5` is an operation on `double` numbers. -/
def epsUsed (A : Arith) (l2 : Bool) (δ η ε : ℚ) : ℚ :=
  if l2 then
    let ε := if A.rn (η - 1 / 2) < ε then A.rn (η - 1 / 2) else ε
    if A.rd (1 - δ) < ε then A.rd (1 - δ) else ε
  else ε

/-- the denominator of `rho`, util.cpp:72-73 -/
def rhoDen (A : Arith) (δ η : ℚ) : ℚ := A.rd (δ - A.ru (η * η))

/-- `rho`, util.cpp:67-77 -/
def rhoOf (A : Arith) (δ η ε : ℚ) : ℚ := A.ru (A.ru (A.ru (A.ru (η + 1) * A.ru (η + 1)) + ε) / rhoDen A δ η)

/-- `f_minprec`, util.cpp:81-92, for positive `d`, `ε` and `rho` -/
def fMinPrec (A : Arith) (logU logD : ℚ → ℚ) (l2 : Bool) (d : ℕ) (ε rho : ℚ) : ℚ :=
  A.ru (A.ru (A.ru (A.ru (2 * logU d - logD ε) + A.ru (d * logU rho)) / logD 2) + if l2 then 10 else 5)

/-- `compute_min_prec(rho, d, delta, eta, epsilon, algo)`, util.cpp:44-97.  `A`: `mpfr` numbers of 53 bits; `logU` and `logD`: `mpfr_log` rounded up and down, on positive numbers.  Elsewhere `mpfr_log` is `-inf` or NaN, and so is
the sum, or it is `+inf`.  The range of `int` and `double` is not modelled. -/
def computeMinPrec (A : Arith) (logU logD : ℚ → ℚ) (l2 : Bool) (d : ℕ) (δ η ε : ℚ) : MinPrec :=
  let ε := epsUsed A l2 δ η ε
  if rhoDen A δ η ≤ 0 then .abort
  else if d = 0 ∨ ε ≤ 0 ∨ rhoOf A δ η ε ≤ 0 then .ub
  else .ok (rhoOf A δ η ε) ⌈fMinPrec A logU logD l2 d ε (rhoOf A δ η ε)⌉

end ErrB
end Fplll

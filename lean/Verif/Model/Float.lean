import Mathlib.Data.Rat.Defs
import Mathlib.Data.Rat.Floor
import Mathlib.Algebra.Order.Ring.Rat
import Mathlib.Data.Int.Log

/-!
# Floating-point types `FP_NR<FT>` (fplll/nr/nr_FP*.inl)

`FloatOps F` lists the operations of `FP_NR` used by the modelled code and
**assumes nothing about them**: a theorem that is proved for every instance
holds for double, long double, dd, qd, dpe and mpfr, whatever their rounding
errors, overflows and NaN behaviour.  `Exact` is the instance with exact
rational arithmetic, where division by zero yields a NaN.

Simplification: with `GSO_ROW_EXPO` fplll keeps a common exponent per row; the
scaling is considered part of the number here, so `get_mu_exp`/`get_mu` coincide.
-/

namespace Fplll

/-- Operations of `FP_NR<FT>`; no laws. -/
class FloatOps (F : Type) where
  /-- `set_z` -/
  ofInt : ℤ → F
  /-- `set_nan` -/
  nan : F
  add : F → F → F
  sub : F → F → F
  mul : F → F → F
  div : F → F → F
  neg : F → F
  abs : F → F
  /-- `rnd` -/
  rnd : F → F
  /-- `operator>` -/
  gt : F → F → Bool
  isFinite : F → Bool
  isNan : F → Bool
  /-- `zero_p` -/
  isZero : F → Bool
  /-- `exponent` -/
  exponent : F → ℤ
  /-- `get_si_exp_we(expo, expo_add)`: a machine integer and a non-negative exponent -/
  getSiExp : F → ℤ × ℕ
  /-- `get_z_exp_we(z, expo, expo_add)`: an integer and a non-negative exponent -/
  getZExp : F → ℤ × ℕ

/-- `operator<` -/
def FloatOps.lt {F : Type} [FloatOps F] (a b : F) : Bool := FloatOps.gt b a

/-- Exact arithmetic: a rational number, or `none` for NaN. -/
abbrev Exact := Option ℚ

/-- `FP_NR::rnd`: round to nearest, ties away from zero for double (`rint` ties to even in some
types); the exact model rounds half up, every tie rule leaves a remainder of at most 1/2. -/
def ratRnd (q : ℚ) : ℤ := ⌊q + 1 / 2⌋

/-- exponent `e` with `2^(e-1) ≤ |q| < 2^e` (0 for 0) as returned by `FP_NR::exponent`. -/
def ratExponent (q : ℚ) : ℤ := if q = 0 then 0 else Int.log 2 |q| + 1

/-- The exact instance.  Comparisons with NaN are false, arithmetic with NaN is NaN. -/
instance : FloatOps Exact where
  ofInt z := some z
  nan := none
  add a b := match a, b with | some x, some y => some (x + y) | _, _ => none
  sub a b := match a, b with | some x, some y => some (x - y) | _, _ => none
  mul a b := match a, b with | some x, some y => some (x * y) | _, _ => none
  div a b := match a, b with | some x, some y => if y = 0 then none else some (x / y) | _, _ => none
  neg a := a.map (fun x => -x)
  abs a := a.map (fun x => |x|)
  rnd a := a.map (fun x => (ratRnd x : ℚ))
  gt a b := match a, b with | some x, some y => decide (y < x) | _, _ => false
  isFinite a := a.isSome
  isNan a := a.isNone
  isZero a := match a with | some x => decide (x = 0) | none => false
  exponent a := match a with | some x => ratExponent x | none => 0
  getSiExp a := match a with | some x => (⌊x⌋, 0) | none => (0, 0)
  getZExp a := match a with | some x => (⌊x⌋, 0) | none => (0, 0)

end Fplll

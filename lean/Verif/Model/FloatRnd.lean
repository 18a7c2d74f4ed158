import Verif.Model.Float

/-!
# Floating-point numbers of arbitrary precision

`FP_NR<mpfr_t>` (fplll/nr/nr_FP_mpfr.inl): every operation is exact and then rounded by `fl`.  Exponents are unbounded, so the only values that are not finite are those of a division by
zero; infinities and NaN are not distinguished (`none`).
-/

namespace Fplll

/-- a finite number, or `none` -/
def Rd (_fl : ℚ → ℚ) : Type := Option ℚ

/-- rounding toward zero -/
def ratTrunc (q : ℚ) : ℤ := if 0 ≤ q then ⌊q⌋ else ⌈q⌉

/-- the exponent of `get_si_exp`, nr_FP_mpfr.inl:45-53 -/
def siExpo (x : ℚ) : ℕ := if x = 0 then 0 else (max (ratExponent x - 63) 0).toNat

/-- `set_z`, nr_FP_mpfr.inl:62; `add`, `sub`, `mul`, `div`, :127-175; `neg`, `abs`, comparisons and `rnd` are exact (`rnd` breaks ties upward here, to even in `mpfr`); `exponent`, :42; `get_si_exp_we`, :44-64.  Simplification: `get_z_exp_we` (nr_FP_misc.inl:408-424) returns
the significand and its exponent when the exponent is positive; here it returns the number, truncated, and the exponent 0, which gives the same product. -/
instance (fl : ℚ → ℚ) : FloatOps (Rd fl) where
  ofInt z := some (fl z)
  nan := none
  add (a b : Option ℚ) := match a, b with | some x, some y => some (fl (x + y)) | _, _ => none
  sub (a b : Option ℚ) := match a, b with | some x, some y => some (fl (x - y)) | _, _ => none
  mul (a b : Option ℚ) := match a, b with | some x, some y => some (fl (x * y)) | _, _ => none
  div (a b : Option ℚ) := match a, b with | some x, some y => if y = 0 then none else some (fl (x / y)) | _, _ => none
  neg (a : Option ℚ) := a.map (fun x => -x)
  abs (a : Option ℚ) := a.map (fun x => |x|)
  rnd (a : Option ℚ) := a.map (fun x => (ratRnd x : ℚ))
  gt (a b : Option ℚ) := match a, b with | some x, some y => decide (y < x) | _, _ => false
  isFinite (a : Option ℚ) := a.isSome
  isNan (a : Option ℚ) := a.isNone
  isZero (a : Option ℚ) := match a with | some x => decide (x = 0) | none => false
  exponent (a : Option ℚ) := match a with | some x => ratExponent x | none => 0
  getSiExp (a : Option ℚ) := match a with | some x => (ratTrunc (x / 2 ^ siExpo x), siExpo x) | none => (0, 0)
  getZExp (a : Option ℚ) := match a with | some x => (ratTrunc x, 0) | none => (0, 0)

/-- the value of a finite number -/
def Rd.val {fl : ℚ → ℚ} (x : Rd fl) : ℚ := Option.getD (x : Option ℚ) 0

/-- a finite number -/
def Rd.of {fl : ℚ → ℚ} (x : ℚ) : Rd fl := (some x : Option ℚ)

end Fplll

import Mathlib.Data.Rat.Floor
import Mathlib.Algebra.Order.Ring.Rat
import Mathlib.Data.Int.Log
import Mathlib.Data.Nat.Sqrt
import Mathlib.Data.Nat.Size

/-!
# `dpe_t`: a double with its own exponent (fplll/nr/dpe.h, fplll/nr/nr_FP_dpe.inl)

The mantissa is a C `double`, modelled by the rational number it holds; `rn` is the rounding of IEEE 754 binary64 in the
default mode, with gradual underflow.  Overflow of a double to infinity does not occur in the modelled operations except by
division by zero, which is the outcome `notFinite`; NaN and infinite operands are not modelled.  The exponent is a C `int`
of 32 bits: a signed overflow is the outcome `overflow` (undefined behaviour in C++).
The configuration is the default one: `DPE_USE_DOUBLE`, exponent type `int`; `le = true` is the code for x86
(`DPE_LITTLEENDIAN32`), `le = false` the portable code.

Not modelled: `dpe_exponential`, `dpe_log`, input and output, conversions from and to mpfr and long double.
-/

namespace Fplll

/-! ### double -/

/-- nearest integer, ties to even -/
def rhe (q : ℚ) : ℤ :=
  if q - ⌊q⌋ < 1 / 2 then ⌊q⌋ else if 1 / 2 < q - ⌊q⌋ then ⌊q⌋ + 1 else if ⌊q⌋ % 2 = 0 then ⌊q⌋ else ⌊q⌋ + 1

/-- exponent of the last place of the double next to `q` -/
def ulpExp (q : ℚ) : ℤ := max (Int.log 2 |q| - 52) (-1074)

/-- the double nearest to `q`, ties to even (IEEE 754 binary64, no overflow) -/
def rn (q : ℚ) : ℚ := if q = 0 then 0 else (rhe (q / 2 ^ ulpExp q) : ℚ) * 2 ^ ulpExp q

/-- C `round`: nearest integer, ties away from zero -/
def cRound (q : ℚ) : ℤ := if 0 ≤ q then ⌊q + 1 / 2⌋ else ⌈q - 1 / 2⌉

/-- C `trunc` -/
def cTrunc (q : ℚ) : ℤ := if 0 ≤ q then ⌊q⌋ else ⌈q⌉

/-- C `sqrt` of a double in `[1/4, 1)` or `0`, correctly rounded: the result has the last place `2^-53` -/
def dSqrt (q : ℚ) : ℚ :=
  let n := ⌊q * 2 ^ 106⌋.toNat
  let s := n.sqrt
  ((if n ≤ s * s + s then s else s + 1 : ℕ) : ℚ) / 2 ^ 53

/-- exponent returned by `frexp` for a non-zero double -/
def frexpE (m : ℚ) : ℤ := Int.log 2 |m| + 1

/-- conversion of an integer to `int` -/
def wrap32 (z : ℤ) : ℤ := (z + 2 ^ 31) % 2 ^ 32 - 2 ^ 31

/-! ### dpe -/

/-- what can go wrong -/
inductive DpeErr where
  | overflow   -- signed integer overflow: undefined behaviour
  | notFinite  -- the mantissa becomes infinite or NaN
  | range      -- conversion of a double to an integer type that cannot hold it: undefined behaviour
deriving DecidableEq, Repr

/-- `dpe_struct`, dpe.h:106-110 -/
structure Dpe where
  d : ℚ
  exp : ℤ
deriving DecidableEq, Repr

namespace Dpe

/-- `DPE_EXPMIN` = `INT_MIN`, dpe.h:97 -/
def expMin : ℤ := -2 ^ 31

/-- result of an `int` operation -/
def chk (e : ℤ) : Except DpeErr ℤ := if -2 ^ 31 ≤ e ∧ e < 2 ^ 31 then .ok e else .error .overflow

/-- `DPE_SIGN`, dpe.h:116 -/
def sign (x : Dpe) : ℤ := if x.d < 0 then -1 else if 0 < x.d then 1 else 0

/-- exponent field of the 64 bits of a double (`(dw.i[1] >> 20) & 0x7FF`), dpe.h:162; 0 for subnormal numbers -/
def expField (m : ℚ) : ℤ := if |m| < 2 ^ (-1022 : ℤ) then 0 else Int.log 2 |m| + 1023

/-- the 52 bits of the fraction of a double -/
def fracBits (m : ℚ) : ℚ := if |m| < 2 ^ (-1022 : ℤ) then |m| * 2 ^ (1074 : ℤ) else |m| / 2 ^ (Int.log 2 |m| - 52) - 2 ^ 52

/-- `dpe_normalize`, dpe.h:148-172.  `le = true` replaces the exponent field by that of 1/2 and keeps sign and fraction. -/
def normalize (le : Bool) (x : Dpe) : Except DpeErr Dpe :=
  if x.d = 0 then .ok ⟨0, expMin⟩
  else if le then
    (chk (x.exp + (expField x.d - 1022))).map fun e =>
      ⟨(if x.d < 0 then -1 else 1) * ((2 ^ 52 + fracBits x.d) / 2 ^ 53), e⟩
  else
    (chk (x.exp + frexpE x.d)).map fun e => ⟨x.d / 2 ^ frexpE x.d, e⟩

/-- the decimal constants of `dpe_scale_tab`, dpe.h:174-189 -/
def scaleLits : List ℚ := [
    1.0000000000000000000,  0.5000000000000000000,  0.2500000000000000000,  0.1250000000000000000,
    0.0625000000000000000,  0.0312500000000000000,  0.0156250000000000000,  0.0078125000000000000,
    0.0039062500000000000,  0.0019531250000000000,  0.0009765625000000000,  0.0004882812500000000,
    0.0002441406250000000,  0.0001220703125000000,  0.0000610351562500000,  0.0000305175781250000,
    0.0000152587890625000,  7.6293945312500000e-6,  3.8146972656250000e-6,  1.9073486328125000e-6,
    9.5367431640625000e-7,  4.7683715820312500e-7,  2.3841857910156250e-7,  1.1920928955078125e-7,
    5.9604644775390625e-8,  2.9802322387695312e-8,  1.4901161193847656e-8,  7.4505805969238281e-9,
    3.7252902984619141e-9,  1.8626451492309570e-9,  9.3132257461547852e-10, 4.6566128730773926e-10,
    2.3283064365386963e-10, 1.1641532182693481e-10, 5.8207660913467407e-11, 2.9103830456733704e-11,
    1.4551915228366852e-11, 7.2759576141834259e-12, 3.6379788070917130e-12, 1.8189894035458565e-12,
    9.0949470177292824e-13, 4.5474735088646412e-13, 2.2737367544323206e-13, 1.1368683772161603e-13,
    5.6843418860808015e-14, 2.8421709430404007e-14, 1.4210854715202004e-14, 7.1054273576010019e-15,
    3.5527136788005009e-15, 1.7763568394002505e-15, 8.8817841970012523e-16, 4.4408920985006262e-16,
    2.2204460492503131e-16, 1.1102230246251565e-16]

/-- `dpe_scale_tab`: the compiler rounds every constant to a double -/
def scaleTab : List ℚ := scaleLits.map rn

/-- `dpe_scale`, dpe.h:192-200; `s ≤ 0`, and `-s ≤ 53` -/
def scale (d : ℚ) (s : ℤ) : ℚ := rn (d * scaleTab.getD (-s).toNat 0)

/-- `dpe_set`, dpe.h:127-131 -/
def set (y : Dpe) : Dpe := y

/-- `dpe_neg`, dpe.h:134-138 -/
def neg (y : Dpe) : Dpe := ⟨-y.d, y.exp⟩

/-- `dpe_abs`, dpe.h:141-145 -/
def abs (y : Dpe) : Dpe := ⟨if 0 ≤ y.d then y.d else -y.d, y.exp⟩

/-- `dpe_set_d`, dpe.h:203-208; `y` is a double -/
def setD (le : Bool) (y : ℚ) : Except DpeErr Dpe := normalize le ⟨y, 0⟩

/-- `dpe_set_ui`, `dpe_set_si`, dpe.h:218-232: conversion of a 64-bit integer to a double -/
def setSi (le : Bool) (y : ℤ) : Except DpeErr Dpe := normalize le ⟨rn y, 0⟩

/-- `dpe_get_d`, dpe.h:246: `ldexp` rounds, and is infinite when it overflows -/
def getD (x : Dpe) : Except DpeErr ℚ :=
  let v := rn (x.d * 2 ^ x.exp)
  if |v| < 2 ^ 1024 then .ok v else .error .notFinite

/-- `dpe_get_si`, dpe.h:234-238, `long` of 64 bits -/
def getSi (x : Dpe) : Except DpeErr ℤ :=
  match getD x with
  | .error _ => .error .range
  | .ok d => if -2 ^ 63 ≤ cTrunc d ∧ cTrunc d < 2 ^ 63 then .ok (cTrunc d) else .error .range

/-- `dpe_set_z`, dpe.h:252-257.  `mpz_get_d_2exp` truncates to 53 bits; for 0 it returns the mantissa 0 and the
exponent 0.  There is no call of `dpe_normalize`. -/
def setZ (z : ℤ) : Dpe :=
  if z = 0 then ⟨0, 0⟩
  else
    let e : ℤ := z.natAbs.size
    ⟨(cTrunc ((z : ℚ) / 2 ^ (e - 53)) : ℚ) / 2 ^ 53, wrap32 e⟩

/-- `dpe_get_z`, dpe.h:260-279 -/
def getZ (y : Dpe) : ℤ :=
  if 53 ≤ y.exp then cTrunc (rn (y.d * 2 ^ 53)) * 2 ^ (y.exp - 53).toNat
  else if y.exp < 0 then 0
  else cRound (rn (y.d * 2 ^ y.exp))

/-- `dpe_add`, dpe.h:310-333 -/
def add (le : Bool) (y z : Dpe) : Except DpeErr Dpe := do
  let t ← chk (z.exp + 53)
  if t < y.exp then .ok y else do
  let t ← chk (y.exp + 53)
  if t < z.exp then .ok z else do
  let d ← chk (y.exp - z.exp)
  if 0 ≤ d then normalize le ⟨rn (y.d + scale z.d (-d)), y.exp⟩
  else normalize le ⟨rn (z.d + scale y.d d), z.exp⟩

/-- `dpe_sub`, dpe.h:336-359 -/
def sub (le : Bool) (y z : Dpe) : Except DpeErr Dpe := do
  let t ← chk (z.exp + 53)
  if t < y.exp then .ok y else do
  let t ← chk (y.exp + 53)
  if t < z.exp then .ok (neg z) else do
  let d ← chk (y.exp - z.exp)
  if 0 ≤ d then normalize le ⟨rn (y.d - scale z.d (-d)), y.exp⟩
  else normalize le ⟨rn (scale y.d d - z.d), z.exp⟩

/-- `dpe_mul`, dpe.h:362-367 -/
def mul (le : Bool) (y z : Dpe) : Except DpeErr Dpe := do
  let e ← chk (y.exp + z.exp)
  normalize le ⟨rn (y.d * z.d), e⟩

/-- `dpe_mul_d`, dpe.h:370-377 -/
def mulD (le : Bool) (y : Dpe) (z : ℚ) : Except DpeErr Dpe := do
  let zt ← setD le z
  mul le y zt

/-- `dpe_addmul`, dpe.h:380-385 -/
def addmul (le : Bool) (x y z : Dpe) : Except DpeErr Dpe := do
  let yz ← mul le y z
  add le x yz

/-- `dpe_submul`, dpe.h:388-393 -/
def submul (le : Bool) (x y z : Dpe) : Except DpeErr Dpe := do
  let yz ← mul le y z
  sub le x yz

/-- `dpe_sqrt`, dpe.h:396-410.  `%` and `/` of C truncate.  No call of `dpe_normalize`. -/
def sqrt (y : Dpe) : Except DpeErr Dpe :=
  if y.d < 0 then .error .notFinite
  else if y.exp.tmod 2 ≠ 0 then do
    let t ← chk (y.exp + 1)
    return ⟨dSqrt (rn (1 / 2 * y.d)), t.tdiv 2⟩
  else .ok ⟨dSqrt y.d, y.exp.tdiv 2⟩

/-- `dpe_div`, dpe.h:414-419 -/
def div (le : Bool) (y z : Dpe) : Except DpeErr Dpe := do
  let e ← chk (y.exp - z.exp)
  if z.d = 0 then .error .notFinite
  else normalize le ⟨rn (y.d / z.d), e⟩

/-- `dpe_mul_ui`, dpe.h:422-427 -/
def mulUi (le : Bool) (y : Dpe) (z : ℕ) : Except DpeErr Dpe := normalize le ⟨rn (y.d * rn z), y.exp⟩

/-- `dpe_div_ui`, dpe.h:430-435 -/
def divUi (le : Bool) (y : Dpe) (z : ℕ) : Except DpeErr Dpe :=
  if z = 0 then .error .notFinite else normalize le ⟨rn (y.d / rn z), y.exp⟩

/-- `dpe_mul_2si`, dpe.h:438-442.  No call of `dpe_normalize`. -/
def mul2si (y : Dpe) (e : ℤ) : Except DpeErr Dpe := (chk (y.exp + wrap32 e)).map fun e => ⟨y.d, e⟩

/-- `dpe_zero_p`, dpe.h:563 -/
def isZero (x : Dpe) : Bool := x.d = 0

/-- `dpe_cmp`, dpe.h:568-581 -/
def cmp (x y : Dpe) : ℤ :=
  let sx := sign x
  let d := sx - sign y
  if d ≠ 0 then d
  else if y.exp < x.exp then (if 0 < sx then 1 else -1)
  else if x.exp < y.exp then (if 0 < sx then -1 else 1)
  else if x.d < y.d then -1 else if y.d < x.d then 1 else 0

/-- `dpe_cmp_d`, dpe.h:583-588 -/
def cmpD (le : Bool) (x : Dpe) (y : ℚ) : Except DpeErr ℤ := (setD le y).map (cmp x)

/-- `FP_NR<dpe_t>::sgn`, nr_FP_dpe.inl:77 -/
def sgn (le : Bool) (x : Dpe) : Except DpeErr ℤ := cmpD le x 0

/-- `dpe_round`, dpe.h:605-617 -/
def round (le : Bool) (y : Dpe) : Except DpeErr Dpe :=
  if y.exp < 0 then setSi le 0
  else if 53 ≤ y.exp then .ok y
  else setD le (cRound (rn (y.d * 2 ^ y.exp)))

/-- `dpe_rint`, dpe.h:620-632 -/
def rint (le : Bool) (y : Dpe) : Except DpeErr Dpe :=
  if y.exp < 0 then setSi le 0
  else if 53 ≤ y.exp then .ok y
  else setD le (rhe (rn (y.d * 2 ^ y.exp)))

/-- `dpe_frac`, dpe.h:636-649 -/
def frac (le : Bool) (y : Dpe) : Except DpeErr Dpe :=
  if y.exp ≤ 0 then .ok y
  else if 53 ≤ y.exp then setSi le 0
  else
    let d := rn (y.d * 2 ^ y.exp)
    setD le (rn (d - cTrunc d))

/-- `dpe_floor`, dpe.h:652-669 -/
def floor (le : Bool) (y : Dpe) : Except DpeErr Dpe :=
  if y.exp ≤ 0 then (if 0 ≤ sign y then setSi le 0 else setSi le (-1))
  else if 53 ≤ y.exp then .ok y
  else setD le ⌊rn (y.d * 2 ^ y.exp)⌋

/-- `dpe_ceil`, dpe.h:672-689 -/
def ceil (le : Bool) (y : Dpe) : Except DpeErr Dpe :=
  if y.exp ≤ 0 then (if 0 < sign y then setSi le 1 else setSi le 0)
  else if 53 ≤ y.exp then .ok y
  else setD le ⌈rn (y.d * 2 ^ y.exp)⌉

/-- `dpe_get_si_exp`, dpe.h:460-477, `long` of 64 bits: mantissa and exponent -/
def getSiExp0 (y : Dpe) : Except DpeErr (ℤ × ℤ) := do
  let e ← chk (y.exp - 63)
  return (cTrunc (rn (y.d * 2 ^ 63)), e)

/-- `FP_NR<dpe_t>::get_si_exp`, nr_FP_dpe.inl:48-62 -/
def getSiExp (y : Dpe) : Except DpeErr (ℤ × ℤ) := do
  let (r, e) ← getSiExp0 y
  if isZero y then return (r, 0)
  else if e < 0 then return (cTrunc (rn (rn r * 2 ^ e)), 0)
  else return (r, e)

/-- `FP_NR<dpe_t>::get_z_exp` to `mpz_t`, nr_FP_misc.inl:294-299 -/
def getZExp (y : Dpe) : Except DpeErr (ℤ × ℤ) := do
  let t ← chk (y.exp - 53)
  let expo := max t 0
  return (cTrunc (rn (y.d * 2 ^ (y.exp - expo))), expo)

/-- `dpe_pow_si`, dpe.h:710-715, called by `FP_NR<dpe_t>::pow_si` with a `long` (nr_FP_dpe.inl:185-188): the power is
converted to `unsigned int`.  C `pow` is taken to be correctly rounded. -/
def powSi (le : Bool) (y : Dpe) (b : ℤ) : Except DpeErr Dpe :=
  let k : ℕ := (b % 2 ^ 32).toNat
  normalize le ⟨rn (y.d ^ k), wrap32 (y.exp * k)⟩

/-- `FP_NR<dpe_t>::hypot`, nr_FP_dpe.inl:231-262 -/
def hypot (le : Bool) (a b : Dpe) : Except DpeErr Dpe := do
  let one ← setD le 1
  let x := abs a
  let t := abs b
  if cmp x t ≠ 0 then
    let x ← div le x t
    let x ← mul le x x
    let x ← add le x one
    let x ← sqrt x
    mul le x t
  else
    let t ← div le t x
    let t ← mul le t t
    let t ← add le t one
    let t ← sqrt t
    mul le x t

end Dpe
end Fplll

import Verif.Model.Dpe

/-!
# Rounding and conversion to integers with row exponents (fplll/nr/nr_FP_d.inl, nr_FP_ld.inl, nr_FP_dd.inl, nr_FP_misc.inl)

`double` and `long double` are treated together: a binary format with `p` digits, last exponent `emin` and values below
`2 ^ emax`.  A finite number is modelled by the rational number it holds.  Infinities and NaN are not modelled: an operation
whose result is not finite ends in `notFinite`; a conversion to `long` that does not fit (undefined behaviour) in `range`.
The exponents are `long` values, converted to `int` in the calls of `ldexp`.
-/

namespace Fplll
namespace FpConv

/-- a binary floating-point format -/
structure Fmt where
  p : ℕ
  emin : ℤ
  emax : ℤ

/-- IEEE 754 binary64 -/
def dbl : Fmt := ⟨53, -1074, 1024⟩

/-- x87 extended precision (`numeric_limits<long double>::digits = 64`) -/
def ldbl : Fmt := ⟨64, -16445, 16384⟩

/-- what can go wrong -/
inductive Err where
  | notFinite  -- overflow to infinity
  | range      -- conversion to `long` of a value that does not fit: undefined behaviour
deriving DecidableEq, Repr

/-- exponent of the last place of the numbers next to `q` -/
def ulpE (f : Fmt) (q : ℚ) : ℤ := max (Int.log 2 |q| - (f.p - 1)) f.emin

/-- nearest number of the format, ties to even, without overflow -/
def rnd (f : Fmt) (q : ℚ) : ℚ := if q = 0 then 0 else (rhe (q / 2 ^ ulpE f q) : ℚ) * 2 ^ ulpE f q

/-- C `ldexp`, `ldexpl`: the exponent is an `int` -/
def ldexp (f : Fmt) (x : ℚ) (n : ℤ) : Except Err ℚ :=
  let v := rnd f (x * 2 ^ wrap32 n)
  if |v| < 2 ^ f.emax then .ok v else .error .notFinite

/-- `exponent()`: `ilogb(data) + 1`, nr_FP_d.inl:44, nr_FP_ld.inl:51-54.  For 0, `ilogb` returns `FP_ILOGB0`, the least
`int` on x86. -/
def exponent (x : ℚ) : ℤ := if x = 0 then -2 ^ 31 + 1 else Int.log 2 |x| + 1

/-- `static_cast<long>` of a floating-point number -/
def toLong (x : ℚ) : Except Err ℤ :=
  if -2 ^ 63 ≤ cTrunc x ∧ cTrunc x < 2 ^ 63 then .ok (cTrunc x) else .error .range

/-- `get_si_exp_we(expo, expo_add)`, nr_FP_d.inl:46-53, nr_FP_ld.inl:56-63 (`numeric_limits<long>::digits = 63`): the
result and `expo` -/
def getSiExpWe (f : Fmt) (x : ℚ) (ea : ℤ) : Except Err (ℤ × ℤ) := do
  let expo := if x = 0 then 0 else max (exponent x + ea - 63) 0
  let v ← ldexp f x (ea - expo)
  let r ← toLong v
  return (r, expo)

/-- `get_z_exp_we` to `mpz_t`, nr_FP_misc.inl:211-218 (`mpz_set_d` truncates) and 251-261 (`trunc`, then an exact
conversion) -/
def getZExpWe (f : Fmt) (x : ℚ) (ea : ℤ) : Except Err (ℤ × ℤ) := do
  let expo := max (exponent x + ea - f.p) 0
  let v ← ldexp f x (ea - expo)
  return (cTrunc v, expo)

/-- `get_z_exp_we` to `long`, nr_FP_misc.inl:190-197 and 230-237 -/
def getZExpWeLong (f : Fmt) (x : ℚ) (ea : ℤ) : Except Err (ℤ × ℤ) := do
  let v ← ldexp f x ea
  let r ← toLong v
  return (r, 0)

/-- `rnd_we(b, expo_add)`, nr_FP_d.inl:226-233, nr_FP_ld.inl:247-254 (`rint` rounds ties to even) -/
def rndWe (f : Fmt) (b : ℚ) (ea : ℤ) : Except Err ℚ :=
  if f.p ≤ exponent b + ea then .ok b
  else do
    let t ← ldexp f b ea
    ldexp f (rhe t) (-ea)

/-- `row_addmul_we(i, j, x, expo_add)` with `mpz_t` entries, gso.cpp:236-262, gso_gram.cpp:226-252, householder.cpp:523-549:
the multiple of row `j` that is added (no operation is the multiple 0).  `long` entries: `long = true`. -/
def rowMult (f : Fmt) (forceLong long : Bool) (x : ℚ) (ea : ℤ) : Except Err ℤ := do
  let (lx, expo) ← getSiExpWe f x ea
  if expo = 0 then return lx
  else if forceLong then return lx * 2 ^ expo.toNat
  else
    let (z, e) ← if long then getZExpWeLong f x ea else getZExpWe f x ea
    return z * 2 ^ e.toNat

/-- one step of `babai`, lll.cpp:204-221, and of the size reduction of HLLL, householder.cpp:421-432: `mu` is rounded,
negated and given to `row_addmul_we`; the result is the float and the integer multiple -/
def babaiStep (f : Fmt) (forceLong long : Bool) (mu : ℚ) (ea : ℤ) : Except Err (ℚ × ℤ) := do
  let x ← rndWe f mu ea
  if x = 0 then return (0, 0)
  else
    let m ← rowMult f forceLong long (-x) ea
    return (-x, m)

/-! ### `dd_real`

The QD library is not part of the code.  A `dd_real` is a pair of doubles; `ldexp` scales both, `to_double` and `x[0]` are the
first one. -/

/-- a double-double number -/
structure DD where
  hi : ℚ
  lo : ℚ
deriving DecidableEq, Repr

/-- the value -/
def DD.val (x : DD) : ℚ := x.hi + x.lo

/-- `FP_NR<dd_real>::get_si_exp_we`, nr_FP_dd.inl:57-64 -/
def ddGetSiExpWe (x : DD) (ea : ℤ) : Except Err (ℤ × ℤ) := do
  let expo := if x.hi = 0 then 0 else max (exponent x.hi + ea - 63) 0
  let v ← ldexp dbl x.hi (ea - expo)
  let r ← toLong v
  return (r, expo)

/-- `FP_NR<dd_real>::get_z_exp_we` to `mpz_t`, nr_FP_misc.inl:314-323 -/
def ddGetZExpWe (x : DD) (ea : ℤ) : Except Err (ℤ × ℤ) := do
  let expo := max (exponent x.hi + ea - 53) 0
  let v ← ldexp dbl x.hi (ea - expo)
  return (cTrunc v, expo)

/-- `FP_NR<dd_real>::rnd_we`, nr_FP_dd.inl:234-241; `nintS` stands for `ldexp(nint(ldexp(b, expo_add)), -expo_add)` -/
def ddRndWe (nintS : DD → ℤ → DD) (b : DD) (ea : ℤ) : DD :=
  if 53 ≤ exponent b.hi + ea then b else nintS b ea

/-- GMP's `mpz_get_d`: truncation to 53 bits (no overflow) -/
def mpzGetD (z : ℤ) : ℤ :=
  let e := z.natAbs.size - 53
  z.tdiv (2 ^ e) * 2 ^ e

/-- `FP_NR<dd_real>::set_z`, nr_FP_misc.inl:116-128.  The constructor `dd_real(hi, lo)` does not renormalise. -/
def ddSetZ (z : ℤ) : DD :=
  let hi := mpzGetD z
  ⟨hi, mpzGetD (z - hi)⟩

/-- `FP_NR<qd_real>::set_z`, nr_FP_misc.inl:151-155: the value of the `qd_real` -/
def qdSetZ (z : ℤ) : ℤ := mpzGetD z

end FpConv
end Fplll

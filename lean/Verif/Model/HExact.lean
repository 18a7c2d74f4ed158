import Mathlib.Analysis.Real.Sqrt
import Verif.Model.HLLL

/-!
# Exact arithmetic for HLLL

The operations of `HFloat` over the reals without rounding errors.  What the types of the code decide differently stays
open: the exponent `get_f_exp` chooses, which nearest integer `rnd` returns at a tie, and how `get_si_exp_we` and
`get_z_exp_we` split an integer into a mantissa and an exponent.
-/

namespace Fplll

/-- the choices left open -/
class ExactCfg where
  /-- the exponent returned by `get_f_exp` -/
  fexp : ℤ → ℤ
  /-- `rnd`: a nearest integer.  `rint` rounds ties to even (`double`, `long double`: nr_FP_d.inl:224, nr_FP_ld.inl:244),
  `nint` rounds them up (`dd_real`, `qd_real`: nr_FP_dd.inl:232), `mpfr_round` and `dpe_round` away from zero
  (nr_FP_mpfr.inl:239, nr_FP_dpe.inl:212). -/
  rnd : ℝ → ℤ
  near : ∀ x, |x - rnd x| ≤ 1 / 2
  /-- `get_si_exp_we` on an integer -/
  si : ℤ → ℤ × ℕ
  si_eq : ∀ z, (si z).1 * 2 ^ (si z).2 = z
  /-- `get_z_exp_we` on an integer -/
  zi : ℤ → ℤ × ℕ
  zi_eq : ∀ z, (zi z).1 * 2 ^ (zi z).2 = z

/-- the remainder of a rounding rounds to zero: ties to even and ties upwards, but not ties away from zero -/
def Settles [ExactCfg] : Prop := ∀ x : ℝ, ExactCfg.rnd (x - ExactCfg.rnd x) = 0

open ExactCfg in
/-- exact arithmetic; the comments in `HFloat` name the functions of the code -/
noncomputable instance exactFloat [ExactCfg] : HFloat ℝ where
  ofInt z := z
  getFExp z := (z * (2 : ℝ) ^ (-fexp z), fexp z)
  zero := 0
  one := 1
  negOne := -1
  tenth := 1 / 10
  add a b := a + b
  sub a b := a - b
  mul a b := a * b
  div a b := a / b
  addmul acc a b := acc + a * b
  neg a := -a
  abs a := |a|
  sqrt a := Real.sqrt a
  mul2si a e := a * (2 : ℝ) ^ e
  fcmp a b := if a < b then -1 else if a = b then 0 else 1
  sgn a := if a < 0 then -1 else if a = 0 then 0 else 1
  rndWe a e := (rnd (a * (2 : ℝ) ^ e) : ℝ) * (2 : ℝ) ^ (-e)
  siExpWe a e := si ⌊a * (2 : ℝ) ^ e⌋
  zExpWe a e := zi ⌊a * (2 : ℝ) ^ e⌋

/-- ties to even at `±1/2`, row exponents given by the size of the entry, 62-bit mantissas are enough -/
@[reducible] noncomputable def exactExample : ExactCfg where
  fexp z := Nat.size z.natAbs
  rnd x := if |x| ≤ 1 / 2 then 0 else round x
  near x := by
    split_ifs with h
    · simpa using h
    · exact abs_sub_round x
  si z := (z, 0)
  si_eq z := by simp
  zi z := (z, 0)
  zi_eq z := by simp

end Fplll

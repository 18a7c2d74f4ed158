import Mathlib.Data.Nat.Size
import Mathlib.Tactic.Ring
import Mathlib.Tactic.Linarith
import Mathlib.Tactic.Positivity

/-!
# The exponent of a machine integer

`Z_NR<long>::exponent`, /repo/fplll/nr/nr_Z_l.inl:30-48.  Doubles appear only as the rounding of a 64-bit integer, so they
are modelled by the integer value they hold.
-/

namespace Fplll
namespace LongExp

/-- `static_cast<double>` of `n < 2^64` (absolute values; the conversion is symmetric): round to 53 significant bits, to
nearest, ties to even -/
def toDouble (n : ℕ) : ℕ :=
  let e := n.size - 53
  let q := n / 2 ^ e
  let r := n % 2 ^ e
  let q' := if 2 * r < 2 ^ e then q else if 2 ^ e < 2 * r then q + 1 else q + q % 2
  q' * 2 ^ e

/-- the exponent `frexp` reports for the double with absolute value `v` (0 for 0): `v = m·2^e` with `1/2 ≤ m < 1` -/
def frexpExp (v : ℕ) : ℕ := v.size

/-- `fabs(f_norm) == 0.5` for the mantissa `frexp` returns -/
def mantHalf (v : ℕ) : Bool := v ≠ 0 && v * 2 = 2 ^ frexpExp v

/-- the loop of `compute_long_exponent`, nr_Z_l.inl:33-36, by the number of iterations left; 64 are always enough -/
def shiftLoop : ℕ → ℕ → ℕ → ℕ
  | 0, _, e => e
  | fuel + 1, y, e => if y = 0 then e else shiftLoop fuel (y / 2) (e + 1)

/-- `compute_long_exponent`, nr_Z_l.inl:30-38 -/
def computeLongExponent (data : ℤ) : ℕ := shiftLoop 64 data.natAbs 0

/-- `exponent()`, nr_Z_l.inl:40-48.  `data > MAX_LONG_FAST` compares as doubles, `MAX_LONG_FAST = 0x1p53` (defs.h:134). -/
def exponent (data : ℤ) : ℕ :=
  let d := toDouble data.natAbs
  let intExpo := frexpExp d
  if (0 ≤ data ∧ 2 ^ 53 < d) ∧ mantHalf d = true then computeLongExponent data else intExpo

end LongExp
end Fplll

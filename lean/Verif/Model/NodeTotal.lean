import Mathlib.Data.Int.ModEq
import Mathlib.Data.List.Basic

/-!
# Model of `get_nodes()` without a level

`std::accumulate(nodes.begin(), nodes.end(), 0)`, enumerate.h:48-55, :113-118, enumerate_base.h:61-68, enumerate_ext.h:116-123.  The start value
`0` is an `int`, and so is the accumulator.
-/

namespace Fplll
namespace NodeTotal

/-- conversion of an integer to `int`: modulo `2^32`, since C++20 by definition and before as gcc and clang define it -/
def toInt (z : ℤ) : ℤ := (z + 2 ^ 31) % 2 ^ 32 - 2 ^ 31

/-- `acc = acc + n` with an `int` accumulator and a `uint64_t`: the sum is a `uint64_t`, the assignment converts it -/
def accStep (acc : ℤ) (n : ℕ) : ℤ := toInt (((acc % 2 ^ 64) + n) % 2 ^ 64)

/-- `get_nodes()`: the accumulator, converted to `uint64_t` on return -/
def getNodes (ns : List ℕ) : ℕ := ((ns.foldl accStep 0) % 2 ^ 64).toNat

end NodeTotal
end Fplll

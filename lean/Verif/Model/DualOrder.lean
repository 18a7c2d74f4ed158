import Verif.Model.NumVect
import Mathlib.Data.Rat.Defs

/-!
# Model of what `EnumerationDyn::enumerate` does with the evaluator around the search (fplll/enum/enumerate.cpp:145-159, :251-271)

For dual enumeration the rows of the block are taken in reverse order (enumerate.cpp:108-122), so coordinates come out in reverse order,
and are put back into the order of the rows afterwards.  The search itself is `Model/Enum`; here it is an arbitrary list of solutions
and sub-solutions.
-/

namespace Fplll
namespace DualOrder

/-- a solution: its distance and its coordinates -/
abbrev Sol := ℚ × (ℕ → ℤ)

/-- the contents of an evaluator, evaluator.h:73-120: they stay until the caller clears them -/
structure Ev where
  solutions : List Sol
  /-- one for each offset -/
  subs : List Sol

/-- the three template arguments of the instance of `enumerate_loop` that is called (`dual`, `findsubsols`, `enable_reset`),
enumerate.cpp:257-268; `none`: none is called -/
def dispatch (dual findsubs reset : Bool) : Option (Bool × Bool × Bool) :=
  if dual = true ∧ findsubs = true ∧ reset = false then some (true, true, false)
  else if dual = false ∧ findsubs = true ∧ reset = false then some (false, true, false)
  else if dual = true ∧ findsubs = false ∧ reset = false then some (true, false, false)
  else if dual = false ∧ findsubs = false ∧ reset = false then some (false, false, false)
  else if dual = false ∧ findsubs = true ∧ reset = true then some (false, true, true)
  else if dual = false ∧ findsubs = false ∧ reset = true then some (false, false, true)
  else none

/-- `if (dual && !_evaluator.empty()) for (…) reverse_by_swap(it->second, 0, d - 1)`, enumerate.cpp:154-158 -/
def putBack (dual : Bool) (d : ℕ) (ev : Ev) : Ev :=
  if dual = true then { ev with solutions := ev.solutions.map fun p => (p.1, reverseBySwap p.2 0 d) } else ev

/-- `EnumerationDyn::enumerate`, enumerate.cpp:145-159: the search `found` adds its solutions to those that are there (all are kept: an evaluator that drops some only makes
the lists shorter; the order by distance is left out) and sets the sub-solutions (the comparison with older ones, evaluator.h:196-203,
is left out; for both see C15 and C42), then the order is restored -/
def enumerate (dual findsubs reset : Bool) (d : ℕ) (found : Bool × Bool × Bool → Ev) (ev : Ev) : Ev :=
  putBack dual d (match dispatch dual findsubs reset with
    | none => ev
    | some t => ⟨ev.solutions ++ (found t).solutions, if findsubs = true then (found t).subs else ev.subs⟩)

end DualOrder
end Fplll

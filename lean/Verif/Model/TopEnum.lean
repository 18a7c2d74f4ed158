import Mathlib.Data.Rat.Defs
import Mathlib.Order.Interval.Finset.Nat
import Mathlib.Algebra.BigOperators.Ring.Finset
import Verif.Base.Loops

/-!
# Model of `Enumerator` (fplll/enum/topenum.cpp)

The class cuts the enumeration tree into subtrees of limited size: each call of `enum_next` returns the coefficients of the root of one of them.  Exact arithmetic instead of `mpfr`; `x`, `dx`, `ddx` hold integers.  The cost estimate is any function.
-/

namespace Fplll
namespace TopEnum

/-- the members that do not change -/
structure Params where
  d : ℕ
  /-- `kmin`, not negative -/
  kmin : ℕ
  mu : ℕ → ℕ → ℚ
  /-- `r(i, i)` -/
  r : ℕ → ℚ
  /-- `cost_estimate(volume, bound, r, dimMax)`, util.cpp:226-245 -/
  vol : ℚ → ℕ → ℚ
  maxVolume : ℚ
  /-- `rnd` -/
  rnd : ℚ → ℤ

/-- the members that change, topenum.h:40-47 -/
structure St where
  k : ℕ
  kmax : ℕ
  x : ℕ → ℤ
  dx : ℕ → ℤ
  ddx : ℕ → ℤ
  center : ℕ → ℚ
  dist : ℕ → ℚ
  /-- `svp_init_needed` -/
  init : Bool

/-- the constructor, topenum.cpp:20-31 -/
def start : St := { k := 0, kmax := 0, x := fun _ => 0, dx := fun _ => 0, ddx := fun _ => 0, center := fun _ => 0, dist := fun _ => 0, init := true }

/-- loop topenum.cpp:40-45, from `k` down -/
def initLevel (p : Params) (R : ℚ) : ℕ → ℕ
  | 0 => 0
  | k + 1 => if p.kmin < k + 1 then (if p.vol R k ≤ p.maxVolume then k + 1 else initLevel p R k) else k + 1

/-- `newdist`, topenum.cpp:55-58 -/
def newdist (p : Params) (s : St) : ℚ := (s.center s.k - s.x s.k) * (s.center s.k - s.x s.k) * p.r s.k + s.dist s.k

/-- one level down, topenum.cpp:66-77 -/
def down (p : Params) (s : St) (nd : ℚ) : St :=
  let k := s.k - 1
  let c := forUp 0 (p.d - 1 - k) (fun t c => c - s.x (p.d - 1 - t) * p.mu (p.d - 1 - t) k) 0
  { s with
    k := k
    center := Function.update s.center k c
    dist := Function.update s.dist k nd
    x := Function.update s.x k (p.rnd c)
    dx := Function.update s.dx k 0
    ddx := Function.update s.ddx k (if (p.rnd c : ℚ) ≤ c then -1 else 1) }

/-- the next value at level `k`, topenum.cpp:91-104, when the loop is not left -/
def advance (s : St) : St :=
  if s.k < s.kmax then
    let ddx := -s.ddx s.k
    let dx := ddx - s.dx s.k
    { s with ddx := Function.update s.ddx s.k ddx, dx := Function.update s.dx s.k dx, x := Function.update s.x s.k (s.x s.k + dx) }
  else { s with kmax := s.k, x := Function.update s.x s.k (s.x s.k + 1) }

/-- `sub_tree`, topenum.cpp:80-82 -/
def subTree (p : Params) (s : St) : List ℤ := (List.range (p.d - s.k)).map fun j => s.x (j + s.k)

/-- `while (notFound)`, topenum.cpp:52-106; outer `none`: out of fuel; inner `none`: `false` is returned -/
def loop (p : Params) (R : ℚ) : ℕ → St → Option (St × Option (List ℤ))
  | 0, _ => none
  | n + 1, s =>
    let nd := newdist p s
    if nd ≤ R then
      if p.kmin < s.k ∧ p.maxVolume ≤ p.vol (R - nd) (s.k - 1) then loop p R n (down p s nd)
      else some (advance s, some (subTree p s))
    else
      let s := { s with k := s.k + 1 }
      if s.k < s.kmax ∨ s.k < p.d then loop p R n (advance s) else some (s, none)

/-- `enum_next`, topenum.cpp:33-108, for `d ≥ 1` (for `d = 0` the code reads `center[-1]`) -/
def enumNext (p : Params) (R : ℚ) (fuel : ℕ) (s : St) : Option (St × Option (List ℤ)) :=
  let s := if s.init then { s with k := initLevel p R (p.d - 1), kmax := initLevel p R (p.d - 1), init := false } else s
  if p.d ≤ s.k then some (s, none) else loop p R fuel s

/-- calls of `enum_next` one after the other, with the radii of the list -/
def calls (p : Params) (fuel : ℕ) : List ℚ → St → Option (List (Option (List ℤ)))
  | [], _ => some []
  | R :: Rs, s =>
    match enumNext p R fuel s with
    | none => none
    | some (s', o) => (calls p fuel Rs s').map (o :: ·)

end TopEnum
end Fplll

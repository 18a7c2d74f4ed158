import Verif.Model.SVP
import Verif.Model.ErrBound

/-!
# Model of the proved method of `shortest_vector` in floating-point arithmetic

The exact evaluator on an enumeration in `double` arithmetic, with the bounds of `get_max_error_aux`; the GSO data are
only approximate.  Simplifications: `normExp = 0` (multiplying by powers of 2 does not round), one solution is kept,
`eval_mode = EVALMODE_SV`, no pruning.
-/

namespace Fplll
namespace SVP

open Enum (Input EvSt EvalOps processSol enumerate)
open ErrB (Arith Dat maxErrorSt)

/-- `int_dist2Float`, evaluator.cpp:345-355; `none`: `FPLLL_CHECK` failed -/
def distR (A : Arith) (q : Dat) (t : ℤ) : Option ℚ :=
  match maxErrorSt A q (A.ru t) true with
  | none => none
  | some s => if s.2 ≤ q.r 0 then some (A.rn (A.ru t + s.2)) else none

/-- state of the exact evaluator: `solutions`, `int_max_dist`, and whether it has called `abort()` -/
structure RSt where
  sol : Option (ℚ × (ℕ → ℤ))
  imd : ℤ
  aborted : Bool

/-- `ExactErrorBoundedEvaluator::eval_sol` with one solution kept, evaluator.cpp:281-315, and `process_sol`,
evaluator.h:114-156: a solution whose distance is smaller than that of the one kept is erased at once
(`multimap` with `greater`); `up` is `get_d(GMP_RNDU)` of `calc_enum_bound`.  After `abort()` nothing happens. -/
def evalR (A : Arith) (q : Dat) (up : ℚ → ℚ) (sq : (ℕ → ℤ) → ℤ) : EvalOps RSt where
  evalSol t x _ md :=
    if t.aborted then (t, md)
    else if t.imd < 0 ∨ sq x ≤ t.imd then
      match distR A q (sq x) with
      | none => ({ t with aborted := true }, md)
      | some δ =>
        match t.sol with
        | none => (⟨some (δ, x), sq x, false⟩, up δ)
        | some o => if o.1 < δ then (⟨some o, sq x, false⟩, up o.1) else (⟨some (δ, x), sq x, false⟩, up δ)
    else (t, md)
  evalSub t _ _ _ := t

/-- the bound of the enumeration: svpcvp.cpp:140-145, :168-174 and the conversion to `double` at enumerate.cpp:81-96;
`none`: `FPLLL_CHECK` failed -/
def boundR (A : Arith) (q : Dat) (up : ℚ → ℚ) (m : ℤ) : Option ℚ :=
  match maxErrorSt A q (A.ru m) true with
  | none => none
  | some s => some (up (A.ru (A.ru m + s.2)))

/-- `shortest_vector` with `SVPM_PROVED`, svpcvp.cpp:84-241, in floating-point arithmetic: `fl` rounds to `double`, `mu`,
`r` are the approximate GSO data of the `D` rows and `dat d` the evaluator's view of the first `d`; `sqRow`, `sq` as in
`svpCore`.  The result is `sol_coord`, or `none` for `RED_ENUM_FAILURE`. -/
def provedR (A : Arith) (fl up : ℚ → ℚ) (D : ℕ) (mu : ℕ → ℕ → ℚ) (r : ℕ → ℚ) (dat : ℕ → Dat) (sqRow : ℕ → ℤ)
    (sq : ℕ → (ℕ → ℤ) → ℤ) (fuel : ℕ) : Outcome (Option (ℕ → ℤ)) :=
  let d := lastUseful r (D - 1)
  let m := getBasisMin sqRow 0 d
  match boundR A (dat d) up m with
  | none => .abort
  | some md =>
    let p : Input := { fl := fl, d := d, mu := mu, r := r, maxdist := md, target := none, subtree := [], pruning := none,
                       dual := false, subtreeReset := false, findsubsols := false }
    match enumerate p (evalR A (dat d) up (sq d)) fuel ⟨none, m, false⟩ with
    | none => .running
    | some s =>
      if s.ev.aborted then .abort
      else match s.ev.sol with
        | none => .done none
        | some o => .done (some fun i => if i < d then o.2 i else 0)

end SVP
end Fplll

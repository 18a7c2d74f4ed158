import Verif.Model.Cli
import Verif.Model.CVPReset

/-!
# Model of the action `cvp` of the command-line program
-/

namespace Fplll
namespace Cli

open Wrapper

/-- the first `n` entries of the target -/
def targetOf (n : ℕ) (t : List ℤ) : ℕ → ℤ := fun j => if j < n then t.getD j 0 else 0

/-- `closest_vector(b, target, sol_coord, CVPM_PROVED, flags)`, svpcvp.cpp:532-659, with a vector of any length as target.  Line 581 reads the first `n` entries without a test of the length; further entries are not looked at. -/
def closestVectorL (recB : Bool) (d n : ℕ) (b jz : Mat ℤ) (jf : Mat Exact) (target : List ℤ) (fuel : ℕ) : SVP.Outcome (Bool × (ℕ → ℤ)) :=
  if ¬ (0 < d ∧ 0 < n) then .abort
  else if ¬ d ≤ n then .abort
  else if target.length < n then .ub
  else SVP.closestVectorP recB d n b jz jf (targetOf n target) fuel

/-- `svpcvp` for integers `mpz_t`, main.cpp:242-319, up to the printing, for both actions `svp` and `cvp`: `target` is the vector read by `run_action` (main.cpp:436-439), the empty vector for `svp`.  `recB`: `FPLLL_WITH_RECURSIVE_ENUM` is defined.  The search is
run in exact arithmetic; `junk`, `jz`, `jf`: uninitialised memory. -/
def svpcvpCmd (c : Cfg) (run : Runner) (recB : Bool) (err : ℚ → ℚ) (lllFuel fuel : ℕ) (noLll : Bool) (format : List Char) (b : Mat ℤ) (target : List ℤ) (junk jz : Mat ℤ) (jf : Mat Exact) : Run SvpOut :=
  let red : Run (Mat ℤ) :=
    if noLll then .ok b
    else
      match lllReduction c run lllFuel ⟨.wrapper, .mpz, none, 0, false⟩ ⟨b, none, none⟩ junk with
      | .abort => .abort
      | .outOfFuel => .outOfFuel
      | .done (s, m) => if s = .success then .ok m.b else .failed
  match red with
  | .abort => .abort
  | .ub => .ub
  | .outOfFuel => .outOfFuel
  | .failed => .failed
  | .ok b' =>
    let res : SVP.Outcome (Bool × (ℕ → ℤ)) :=
      if target.isEmpty then
        match SVP.svpBasis c.d c.n b' jz jf err (SVP.shortestArgs .proved false false) fuel with
        | .done res => .done (res.success, res.coord)
        | .abort => .abort
        | .ub => .ub
        | .running => .running
      else closestVectorL recB c.d c.n b' jz jf target fuel
    match res with
    | .done (true, x) => svpFinish c.d c.n noLll (decide ('c' ∈ format)) (decide ('s' ∈ format)) b' x
    | .done (false, _) => .failed
    | .abort => .abort
    | .ub => .ub
    | .running => .outOfFuel

end Cli
end Fplll

import Verif.Model.Cli
import Verif.Model.Shape

/-!
# The command `fplll -a pru`: `run_pruner` and `run_pruner_f`, pruner.cpp:32-176, and `prune`, main.cpp:390-421

Floating-point operations are exact.  `r i` is what `get_r(i, i)` gives, `x i` and `e i` what `get_r_exp(i, i, expo)` gives; that `update_gso` may fail, which the code ignores, is left out.  What is printed is left out, except for the arguments of
`prune`; the optimisation itself is in `Model/Pruner`.
-/

namespace Fplll
namespace RunPruner

open Shape

/-- outcome: an error message (`FPLLL_CHECK`, `FPLLL_ABORT`), an exception that nothing catches, undefined behaviour, success without doing anything, or the optimisation with the block `start .. stop - 1`, the squared radius, the cost of preprocessing, the squared norms and the target -/
inductive Out
  | abort
  | throw
  | ub
  | nothing
  | run (start stop : ℤ) (radius pre : ℝ) (norms : List ℝ) (target : ℝ)

/-- the checks of the window, pruner.cpp:43-49 -/
def window (rows start stop : ℤ) : ℤ × ℤ :=
  let start := if start < 0 ∨ start ≥ rows - 1 then 0 else start
  let stop := if stop ≤ start ∨ stop ≥ rows then rows else stop
  (start, stop)

/-- `r`, pruner.cpp:69-74 (:85-90) -/
def norms (r : ℤ → ℝ) (start stop : ℤ) : List ℝ := (List.range (stop - start).toNat).map fun j : ℕ => r (start + j)

/-- `prune`, pruner.cpp:203-215, with `PRUNER_METRIC_EXPECTED_SOLUTIONS` and `PRUNER_ZEALOUS | PRUNER_SINGLE`: the constructor (pruner.h:307-362) throws for a target that is not positive; for one vector (`d = 0`) `expected_solutions_evec` reads `b[0]` and
`ipv[-1]` (pruner_prob.cpp, called by `gradient_descent`); from 2047 vectors on `gaussian_heuristic` (pruner_util.cpp:95, called in :212) reads `tabulated_ball_vol[n]` outside of the table (`PRUNER_MAX_N = 2047`) -/
noncomputable def pruneCall (start stop : ℤ) (radius pre : ℝ) (l : List ℝ) (target : ℝ) : Out :=
  if target ≤ 0 then .throw
  else if l.length / 2 = 0 then .ub
  else if 2047 ≤ l.length then .ub
  else .run start stop radius pre l target

/-- `run_pruner_f`, pruner.cpp:32-113 -/
noncomputable def runPrunerF (rows cols : ℤ) (x : ℤ → ℝ) (e : ℤ → ℤ) (r : ℤ → ℝ) (start stop : ℤ) (pre minProb gh : ℝ) : Out :=
  if rows = 0 ∨ cols = 0 then .nothing
  else
    let w := window rows start stop
    let pre := if pre ≤ 1 then 1 else pre
    let bs := (w.2 - w.1).toNat
    let maxDist := adjustRadius (x w.1) (e w.1) bs (rootDet rows r w.1 w.2) gh
    pruneCall w.1 w.2 (maxDist * (2 : ℝ) ^ e w.1) pre (norms r w.1 w.2) minProb

/-- `run_pruner`, pruner.cpp:116-176.  `mpfr`: the type is `FT_MPFR`; `built`: the type (by default `FT_DOUBLE`) is supported. -/
noncomputable def runPruner (mpfr built : Bool) (prec : ℤ) (rows cols : ℤ) (x : ℤ → ℝ) (e : ℤ → ℤ) (r : ℤ → ℝ) (start stop : ℤ) (pre minProb gh : ℝ) : Out :=
  if mpfr = true ∧ prec = 0 then .abort
  else if built = false then .abort
  else runPrunerF rows cols x e r start stop pre minProb gh

open Classical in
/-- `prune`, main.cpp:390-421: the action `pru`.  The options are not initialised; reading them is undefined when they were not given. -/
noncomputable def command (mpz : Bool) (mpfr built : Bool) (o : Cli.Options ℝ) (rows cols : ℤ) (x : ℤ → ℝ) (e : ℤ → ℤ) (r : ℤ → ℝ) : Out :=
  if mpz = false then .abort
  else
    let gh := if o.bkzFlags &&& Cli.BKZ_GH_BND ≠ 0 then o.ghFactor else 1
    match Cli.pruneArg 0 0 o.pruneStart, Cli.pruneArg 0 rows o.pruneEnd, Cli.pruneArg 0 1000000 o.prunePreNodes, Cli.pruneArg 0 (-1) o.pruneMinProb with
    | some s, some t, some pre, some mp => runPruner mpfr built o.precision rows cols x e r s t pre mp gh
    | _, _, _, _ => .ub

end RunPruner
end Fplll

import Verif.Model.PrunerVol
import Verif.Model.PrunerCost

/-!
# Model of the pruner's target function

fplll/pruner/pruner_prob.cpp (`expected_solutions*`, `measure_metric`), pruner_cost.cpp (`target_function`,
`target_function_gradient`, `repeated_enum_cost`), with exact real arithmetic.  The exceptions for values that are not finite are
left out: for coefficients in `(0, 1]`, a target in `(0, 1)` (metric probability) or a positive target, and a loaded shape the
numbers they are for do not occur with exact arithmetic.
-/

namespace Fplll
namespace Pruner

open Function (update)

/-- what a `Pruner` object holds besides `pr` -/
structure Data where
  /-- `n` -/
  n : ℕ
  /-- the loaded shape -/
  sh : Shape
  /-- `symmetry_factor` -/
  sym : ℝ
  /-- `tabulated_ball_vol` -/
  bv : Vec
  /-- `preproc_cost` -/
  preproc : ℝ
  /-- `target` -/
  target : ℝ
  /-- `metric == PRUNER_METRIC_PROBABILITY_OF_SHORTEST` (otherwise expected solutions) -/
  prob : Bool

/-- `d = n / 2`, pruner.h:286 -/
def Data.d (D : Data) : ℕ := D.n / 2

/-- `expected_solutions_evec`, pruner_prob.cpp:77-92 -/
noncomputable def expectedEvec (D : Data) (b : Vec) : ℝ :=
  let j := D.d * 2 - 1
  Real.exp (Real.log (relativeVolume D.d b) + Real.log (D.bv (j + 1)) +
    (Real.log D.sh.R + Real.log (b (j / 2)) / 2) * ((j + 1 : ℕ) : ℝ) + Real.log (D.sh.ipv j) + Real.log D.sym)

/-- `expected_solutions` with its lower and upper variants, pruner_prob.cpp:94-130; `dn`: the length of `b` -/
noncomputable def expected (D : Data) (dn : ℕ) (b : Vec) : ℝ :=
  if dn = D.d then expectedEvec D b
  else (expectedEvec D (fun i => b (2 * i)) + expectedEvec D (fun i => b (2 * i + 1))) / 2

/-- `measure_metric`, pruner_prob.cpp:132-146 (`dx = .995`, pruner_prob.cpp:9) -/
noncomputable def measure (D : Data) (dn : ℕ) (b : Vec) : ℝ :=
  if D.prob = true then svpProbability 0.995 D.d dn b else expected D dn b

/-- the number of trials in `target_function`, pruner_cost.cpp:141, :147, :153, :160 -/
noncomputable def trials (D : Data) (dn : ℕ) (b : Vec) : ℝ :=
  let t := if D.prob = true then Real.log (1 - D.target) / Real.log (1 - svpProbability 0.995 D.d dn b)
    else D.target / expected D dn b
  if t < 1 then 1 else t

/-- `target_function`, pruner_cost.cpp:136-167 -/
noncomputable def targetFunction (D : Data) (dn : ℕ) (b : Vec) : ℝ :=
  (singleCost D.sh D.sym D.bv D.d dn b (fun _ => 0)).1 * trials D dn b + D.preproc * (trials D dn b - 1)

/-- `repeated_enum_cost`, pruner_cost.cpp:169-203: as `target_function`, but for the metric of expected solutions the number of
trials is `1 / expected` whatever the target is -/
noncomputable def repeatedCost (D : Data) (dn : ℕ) (b : Vec) : ℝ :=
  let t := if D.prob = true then Real.log (1 - D.target) / Real.log (1 - svpProbability 0.995 D.d dn b) else 1 / expected D dn b
  let trials := if t < 1 then 1 else t
  (singleCost D.sh D.sym D.bv D.d dn b (fun _ => 0)).1 * trials + D.preproc * (trials - 1)

/-- `target_function_gradient`, pruner_cost.cpp:115-134; `mn`: `min_pruning_coefficients` -/
noncomputable def targetGradient (D : Data) (mn : Vec) (dn : ℕ) (b : Vec) (eps : ℝ) : Vec := fun i =>
  if i = dn - 1 then 0
  else
    let x := targetFunction D dn (enforce D.d mn dn (update b i (b i * (1 - eps))) i).2
    let y := targetFunction D dn (enforce D.d mn dn (update b i (b i * (1 + eps))) i).2
    (Real.log x - Real.log y) / eps

/-- `goal_factor` of `greedy`, pruner_optimize_tc.cpp:441-443; `4 * j * (n - j) / (n * n * n)` is a division of C++ `int`s (`j < n`) -/
noncomputable def goalFactor (n j : ℕ) : ℝ := 1 / (3 * n) + ((4 * j * (n - j) / (n * n * n) : ℕ) : ℝ)

/-- the nodes `greedy` expects on level `j`, pruner_optimize_tc.cpp:453-457 -/
noncomputable def greedyNodes (D : Data) (j : ℕ) (b : Vec) : ℝ :=
  relativeVolume ((j + 1) / 2) b * D.bv (j + 1) * (D.sh.R * Real.sqrt (b (j / 2))) ^ (j + 1) * D.sh.ipv j * D.sym

/-- the cost functions of a `Pruner` object, as used by the optimiser; what `greedy` compares (`goalFactor`,
`greedyNodes`) may be anything here -/
noncomputable def realOracle (D : Data) (mn : Vec) (tooMany : ℕ → Vec → Bool) : Oracle where
  cost := targetFunction D
  grad := targetGradient D mn
  single dn b := (singleCost D.sh D.sym D.bv D.d dn b (fun _ => 0)).1
  detail dn b := (singleCost D.sh D.sym D.bv D.d dn b (fun _ => 0)).2
  metric := measure D
  tooMany := tooMany

end Pruner
end Fplll

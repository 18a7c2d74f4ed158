import Mathlib.Analysis.Real.Pi.Bounds
import Mathlib.Analysis.Real.Sqrt
import Verif.Base.Loops
import Verif.Model.PrunerTables

/-!
# Volumes: util.cpp (`sphere_volume`, `cost_estimate`) and the tables of the pruner

Exact real arithmetic; `M_PI` is `π`.
-/

namespace Fplll
namespace Volume

open Real

/-- `sphere_volume`, util.cpp:203-221; the exponent `d / 2` and the bounds of the loops are divisions of `int` -/
noncomputable def sphereVolume (d : ℕ) : ℝ :=
  let v := π ^ (d / 2)
  if d % 2 = 0 then forUp 1 (d / 2 + 1) (fun i v => v / i) v
  else forUp 0 (d / 2 + 1) (fun i v => v * (2 / ((2 * i + 1 : ℕ) : ℝ))) v

/-- `cost_estimate`, util.cpp:226-245; state: `det`, `cost`; iteration `k` is `i = dimMax - 1 - k` -/
noncomputable def costEstimate (bound : ℝ) (r : ℕ → ℝ) (dimMax : ℕ) : ℝ :=
  (forUp 0 dimMax (fun k (s : ℝ × ℝ) =>
    let i := dimMax - 1 - k
    let det := s.1 * (bound / r i)
    (det, s.2 + √det * sphereVolume (dimMax - i))) (1, 0)).2

/-- `PRUNER_MAX_N`, pruner.h:26 -/
def maxN : ℕ := 2047

/-- `tabulated_factorial[i]` after `set_tabulated_consts`, pruner.cpp:190-201; `none`: outside of the array.  The rounding to `FT` is not modelled. -/
def tabulatedFactorial (i : ℕ) : Option ℚ := if i < maxN then (PrunerTables.preFactorial[i]?).map fun e => e.1 / 10 ^ 46 * 10 ^ e.2 else none

/-- `tabulated_ball_vol[i]`, pruner.cpp:190-201 -/
def tabulatedBallVol (i : ℕ) : Option ℚ := if i < maxN then (PrunerTables.preBallVol[i]?).map fun e => e.1 / 10 ^ 56 / 10 ^ e.2 else none

end Volume
end Fplll

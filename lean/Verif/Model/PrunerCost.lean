import Mathlib.Analysis.SpecialFunctions.Log.Basic
import Mathlib.Analysis.Real.Sqrt
import Verif.Model.Pruner

/-!
# Model of the pruner's cost estimate

fplll/pruner/pruner_cost.cpp (`single_enum_cost*`), pruner_util.cpp (`load_basis_shape`), pruner.h (`single_enum_cost` for
external coefficients), with exact real arithmetic.  The checks `is_finite` are left out: real numbers are finite.
-/

namespace Fplll
namespace Pruner

open Function (update)

/-- the loaded basis shape -/
structure Shape where
  /-- `normalized_radius` -/
  R : ℝ
  /-- `ipv` -/
  ipv : Vec

/-- `normalization_factor`, pruner_util.cpp:34-46 -/
noncomputable def normFactor (n : ℕ) (gso : Vec) : ℝ :=
  Real.exp (forUp 0 n (fun i acc => acc + Real.log (gso (n - 1 - i))) 0 / (-(n : ℝ)))

/-- `load_basis_shape` with `reset_normalization`, pruner_util.cpp:25-62; `d = n / 2` -/
noncomputable def loadShape (n d : ℕ) (gso : Vec) (radius : ℝ) : Shape :=
  let nf := normFactor n gso
  let r : Vec := fun i => gso (n - 1 - i) * nf
  { R := Real.sqrt (radius * nf)
    ipv := (forUp 0 (2 * d) (fun i (s : ℝ × Vec) => (s.1 * Real.sqrt (r i), update s.2 i (1 / (s.1 * Real.sqrt (r i)))))
      (1, fun _ => 0)).2 }

/-- the vector `rv`, pruner_cost.cpp:22-37: relative volumes, interpolated for odd dimensions (index `k`: dimension `k + 1`) -/
noncomputable def rv (b : Vec) (k : ℕ) : ℝ :=
  if k % 2 = 1 then relativeVolume (k / 2 + 1) b
  else if k = 0 then 1
  else Real.sqrt (relativeVolume (k / 2) b * relativeVolume (k / 2 + 1) b)

/-- body of the loop pruner_cost.cpp:43-62; state: `total`, `normalized_radius_pow`, `detailed_cost`; `bv`: `tabulated_ball_vol` -/
noncomputable def costStep (sh : Shape) (sym : ℝ) (bv : Vec) (d : ℕ) (b : Vec) (i : ℕ) (s : ℝ × ℝ × Vec) : ℝ × ℝ × Vec :=
  let tmp := s.2.1 * rv b i * bv (i + 1) * Real.sqrt (b (i / 2) ^ (1 + i)) * sh.ipv i * sym
  (s.1 + tmp, s.2.1 * sh.R, update s.2.2 (2 * d - (i + 1)) tmp)

/-- `single_enum_cost_evec`, pruner_cost.cpp:9-68: the cost and the detailed costs (`det`: the vector before) -/
noncomputable def singleEvec (sh : Shape) (sym : ℝ) (bv : Vec) (d : ℕ) (b det : Vec) : ℝ × Vec :=
  let s := forUp 0 (2 * d) (costStep sh sym bv d b) (0, sh.R, det)
  (s.1, s.2.2)

/-- `single_enum_cost` with its lower and upper variants, pruner_cost.cpp:73-112; `dn`: the length of `b` -/
noncomputable def singleCost (sh : Shape) (sym : ℝ) (bv : Vec) (d dn : ℕ) (b det : Vec) : ℝ × Vec :=
  if dn = d then singleEvec sh sym bv d b det
  else
    let lo := singleEvec sh sym bv d (fun i => b (2 * i)) det
    let hi := singleEvec sh sym bv d (fun i => b (2 * i + 1)) lo.2
    ((lo.1 + hi.1) / 2, hi.2)

/-- the public `single_enum_cost` for external coefficients `pr`, pruner.h:496-503: it loads a vector of length `d` -/
noncomputable def publicCost (c : Cfg) (sh : Shape) (sym : ℝ) (bv : Vec) (pr det : Vec) : ℝ × Vec :=
  singleCost sh sym bv c.d c.d (load c c.d pr) det

end Pruner
end Fplll

import Mathlib.Data.Real.Basic
import Mathlib.Data.Nat.Factorial.Basic
import Verif.Base.Loops

/-!
# Model of the pruner's volumes and probabilities

fplll/pruner/pruner_simplex.h and pruner_prob.cpp, with exact real arithmetic for `FT`; vectors are functions of the index.
The table `tabulated_factorial` (factorial.const) is the factorial (C88).
-/

namespace Fplll
namespace Pruner

/-- a vector of coefficients or a polynomial -/
abbrev Vec := ℕ → ℝ

/-- `eval_poly`, pruner_simplex.h:5-15 -/
noncomputable def evalPoly (ld : ℕ) (p : Vec) (x : ℝ) : ℝ := forDown 0 (ld + 1) (fun i acc => acc * x + p i) 0

/-- `integrate_poly`, pruner_simplex.h:17-26 -/
noncomputable def integratePoly (ld : ℕ) (p : Vec) : Vec :=
  Function.update (forDown 0 (ld + 1) (fun i (p : Vec) => Function.update p (i + 1) (p i / ((i : ℝ) + 1))) p) 0 0

/-- body of the loop of `relative_volume`, pruner_simplex.h:38-43; the state is `(ld, P)` -/
noncomputable def volStep (rd : ℕ) (b : Vec) (i : ℕ) (s : ℕ × Vec) : ℕ × Vec :=
  let P := integratePoly s.1 s.2
  (s.1 + 1, Function.update P 0 (-1 * evalPoly (s.1 + 1) P (b i / b (rd - 1))))

/-- `relative_volume`, pruner_simplex.h:31-46 -/
noncomputable def relativeVolume (rd : ℕ) (b : Vec) : ℝ :=
  let s := forDown 0 rd (volStep rd b) (0, fun k => if k = 0 then 1 else 0)
  let res := s.2 0 * (rd.factorial : ℝ)
  if rd % 2 = 1 then -res else res

/-- `svp_probability_evec`, pruner_prob.cpp:5-26; `dx`: `shell_ratio`, pruner.h:616 (the check `is_finite` is left out: real
numbers are finite; for `dx ^ (2 d) = 1` the division is by zero, which the theorems exclude) -/
noncomputable def svpProbabilityEvec (dx : ℝ) (d : ℕ) (b : Vec) : ℝ :=
  let bm : Vec := fun i => if b i / (dx * dx) > 1 then 1 else b i / (dx * dx)
  let vol := relativeVolume d b
  let dxn := dx ^ (2 * d)
  let dvol := dxn * relativeVolume d bm - vol
  dvol / (dxn - 1)

/-- `svp_probability`, pruner_prob.cpp:31-72, for half (`dn = d`) and full vectors -/
noncomputable def svpProbability (dx : ℝ) (d dn : ℕ) (b : Vec) : ℝ :=
  if dn = d then svpProbabilityEvec dx d b
  else (svpProbabilityEvec dx d (fun i => b (2 * i)) + svpProbabilityEvec dx d (fun i => b (2 * i + 1))) / 2

end Pruner
end Fplll

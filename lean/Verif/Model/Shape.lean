import Mathlib.Analysis.SpecialFunctions.Gamma.Basic
import Mathlib.Analysis.SpecialFunctions.Log.Basic
import Mathlib.Analysis.SpecialFunctions.Trigonometric.Basic
import Verif.Model.BKZ

/-!
# Model of the quantities read off the profile of a basis (fplll/gso_interface.cpp:196-278, fplll/bkz.cpp)

The slope, the determinant of a block, the slide potential and the enumeration radius.  Floating-point operations are replaced by
exact real ones, `log`, `exp`, `lgamma` and `pow` by the real functions.  `r i` is the squared length of the `i`-th Gram–Schmidt
vector as `get_r` returns it; that the rows were brought up to date is left out.
-/

namespace Fplll
namespace Shape

open Real

/-- the loop of `get_current_slope`, gso_interface.cpp:208-215: `k` rows from row `i` on, with `weight` and `v1`; `f i` and
`expo i` are what `get_r_exp(i, i, expo)` gives -/
noncomputable def slopeLoop (f : ℤ → ℝ) (expo : ℤ → ℤ) : ℕ → ℤ → ℝ → ℝ → ℝ
  | 0, _, _, v1 => v1
  | k + 1, i, weight, v1 => slopeLoop f expo k (i + 1) (weight + 1) (v1 + weight * (log (f i) + expo i * log 2))

/-- `v2`, gso_interface.cpp:203 -/
noncomputable def slopeDen (n : ℤ) : ℝ := (n + 1) * n * (n - 1) / 12

/-- `get_current_slope`, gso_interface.cpp:197-217; the quotient of two zeros (a NaN there) is 0 here -/
noncomputable def currentSlope (f : ℤ → ℝ) (expo : ℤ → ℤ) (start stop : ℤ) : ℝ :=
  slopeLoop f expo (stop - start).toNat start ((1 - ((stop - start : ℤ) : ℝ)) / 2) 0 / slopeDen (stop - start)

/-- the loop of `get_log_det`, gso_interface.cpp:236-240 -/
noncomputable def logDetLoop (r : ℤ → ℝ) : ℕ → ℤ → ℝ → ℝ
  | 0, _, acc => acc
  | k + 1, i, acc => logDetLoop r k (i + 1) (acc + log (r i))

/-- `get_log_det`, gso_interface.cpp:230-242, for an object with `d` rows -/
noncomputable def logDet (d : ℤ) (r : ℤ → ℝ) (start stop : ℤ) : ℝ :=
  logDetLoop r (min d stop - max 0 start).toNat (max 0 start) 0

/-- `get_root_det`, gso_interface.cpp:220-228 -/
noncomputable def rootDet (d : ℤ) (r : ℤ → ℝ) (start stop : ℤ) : ℝ :=
  exp (logDet d r (max 0 start) (min d stop) / ((min d stop - max 0 start : ℤ) : ℝ))

/-- `p` of `get_slide_potential`, gso_interface.cpp:248-252 (C++ division and remainder) -/
def potBlocks (start stop bs : ℤ) : ℤ :=
  if (stop - start).tmod bs = 0 then (stop - start).tdiv bs - 1 else (stop - start).tdiv bs

/-- the loop of `get_slide_potential`, gso_interface.cpp:253-256: `k` blocks from block `i` on -/
noncomputable def potLoop (d : ℤ) (r : ℤ → ℝ) (p bs : ℤ) : ℕ → ℤ → ℝ → ℝ
  | 0, _, acc => acc
  | k + 1, i, acc => potLoop d r p bs k (i + 1) (acc + ((p - i : ℤ) : ℝ) * logDet d r (i * bs) ((i + 1) * bs))

/-- `get_slide_potential`, gso_interface.cpp:244-258 -/
noncomputable def slidePotential (d : ℤ) (r : ℤ → ℝ) (start stop bs : ℤ) : ℝ :=
  potLoop d r (potBlocks start stop bs) bs (potBlocks start stop bs).toNat 0 0

/-- the bound `f` computed by `adjust_radius_to_gh_bound`, gso_interface.cpp:264-271 -/
noncomputable def ghBound (maxDistExpo : ℤ) (bs : ℕ) (rootDet ghFactor : ℝ) : ℝ :=
  exp (log (Gamma ((bs : ℝ) / 2 + 1)) * 2 / bs) / π * rootDet * (2 : ℝ) ^ (-maxDistExpo) * ghFactor

/-- `adjust_radius_to_gh_bound`, gso_interface.cpp:260-277: the new `max_dist` -/
noncomputable def adjustRadius (maxDist : ℝ) (maxDistExpo : ℤ) (bs : ℕ) (rootDet ghFactor : ℝ) : ℝ :=
  if ghBound maxDistExpo bs rootDet ghFactor < maxDist then ghBound maxDistExpo bs rootDet ghFactor else maxDist

/-- the enumeration radius of `svp_reduction`, bkz.cpp:309-323; `ghOn`: `BKZ_GH_BND`; `x` and `e` are what
`get_r_exp(first, first, expo)` gives.  Returns `max_dist` and `max_dist_expo`. -/
noncomputable def svpRadius (d : ℤ) (r : ℤ → ℝ) (x : ℝ) (e : ℤ) (kappa : ℤ) (bs : ℕ) (delta ghFactor : ℝ) (ghOn dual : Bool) :
    ℝ × ℤ :=
  let maxDist := (if dual = true then x⁻¹ else x) * delta
  let expo := if dual = true then e * -1 else e
  (if ghOn = true ∧ 30 < bs then adjustRadius maxDist expo bs (rootDet d r kappa (kappa + bs)) ghFactor else maxDist, expo)

/-! ## The slide potential in the main loop -/

variable {σ α : Type}

/-- carry `sld_potential` along -/
def withPot (v : ℝ) : BKZ.Out σ α → BKZ.Out (σ × ℝ) α
  | .ok a s => .ok a (s, v)
  | .thrown s => .thrown (s, v)
  | .ub s => .ub (s, v)
  | .stuck s => .stuck (s, v)

open Classical in
/-- the procedures of `o` on a state with the member `sld_potential`; the last test of `slide_tour` (bkz.cpp:499, :514-518) is the
one on the potential of the state reached, `prof s` being its squared Gram–Schmidt lengths -/
noncomputable def potOps (o : BKZ.Ops σ) (prof : σ → ℤ → ℝ) (d bs : ℤ) : BKZ.Ops (σ × ℝ) where
  svp kappa b dual s := withPot s.2 (o.svp kappa b dual s.1)
  lll lo st hi s := withPot s.2 (o.lll lo st hi s.1)
  sizeRed lo hi st s := withPot s.2 (o.sizeRed lo hi st s.1)
  symG s := (o.symG s.1, s.2)
  noProgress s :=
    if s.2 ≤ slidePotential d (prof s.1) 0 d bs then (true, s) else (false, (s.1, slidePotential d (prof s.1) 0 d bs))

/-- the initial potential, bkz.cpp:563-567, after `prep` -/
noncomputable def potPrep (prep : σ → σ) (prof : σ → ℤ → ℝ) (d bs : ℤ) (s : σ × ℝ) : σ × ℝ :=
  (prep s.1, slidePotential d (prof (prep s.1)) 0 d bs)

end Shape
end Fplll

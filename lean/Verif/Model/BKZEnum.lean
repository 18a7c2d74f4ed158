import Verif.Model.BKZSvp
import Verif.Model.SVP

/-!
# The enumeration that `svp_reduction` runs on a block (fplll/bkz.cpp:308-331), in exact arithmetic

Simplifications: the exponents `max_dist_expo`, `normexp` (enumerate.cpp:84-104) only scale the numbers; blocks for which the
external enumeration library is used (enumerate.h, `ext_enum_impl`) are not modelled here, nor is `BKZ_GH_BND`; the dual
enumeration is left out.
-/

namespace Fplll
namespace BKZ

open Enum (Input EvSt fastEval enumerate)

/-- what `enum_obj.enumerate(kappa, kappa + block_size, max_dist, …)` reads, bkz.cpp:308-329, with `max_dist = delta · r(kappa, kappa)` and
without pruning coefficients (`PruningParams()`, pruner.h:47) -/
def blockInput (delta : ℚ) (s : GSO Exact) (kappa d : ℕ) : Input where
  d := d
  mu := fun i j => SVP.val (s.mu (kappa + i) (kappa + j))
  r := fun i => SVP.val (s.r (kappa + i) (kappa + i))
  maxdist := delta * SVP.val (s.r kappa kappa)
  target := none
  subtree := []
  pruning := none
  dual := false
  subtreeReset := false
  findsubsols := false

/-- `evaluator.begin()->second` after the enumeration, if there is a solution (bkz.cpp:326-336; `FastEvaluator` with its default
arguments keeps the best solution); `none` when the fuel is not enough -/
def enumBlock (delta : ℚ) (s : GSO Exact) (kappa d fuel : ℕ) : Option (Option (ℕ → Exact)) :=
  (enumerate (blockInput delta s kappa d) (fastEval 1 .best) fuel EvSt.new).map fun t =>
    t.ev.sols.getLast?.map fun q i => some (q.2 i : ℚ)

end BKZ
end Fplll

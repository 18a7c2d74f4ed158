import Mathlib.Data.Rat.Defs
import Mathlib.Data.List.Basic
import Mathlib.Algebra.Order.Ring.Rat

/-!
# Model of strategies and pruning parameters (fplll/bkz_param.cpp, fplll/bkz_param.h, fplll/pruner/pruner.h)
-/

namespace Fplll
namespace Strat

/-- `PruningParams`, pruner.h:31-47; doubles are rationals, `metric` and `detailed_cost` are left out -/
structure PruningParams where
  ghFactor : ℚ
  coefficients : List ℚ
  expectation : ℚ
  deriving DecidableEq

/-- default constructor, pruner.h:47 -/
def PruningParams.default : PruningParams := ⟨1, [], 1⟩

/-- `Strategy`, bkz_param.h:34-39 -/
structure Strategy where
  blockSize : ℕ
  pruning : List PruningParams
  preprocessing : List ℕ
  deriving DecidableEq

/-- value-initialised strategy (`strategies.emplace_back()`, bkz_param.cpp:101) -/
def Strategy.default : Strategy := ⟨0, [], []⟩

/-- `Strategy::EmptyStrategy`, bkz_param.h:48-54 -/
def Strategy.empty (blockSize : ℕ) : Strategy := ⟨blockSize, [PruningParams.default], []⟩

/-- the loop of `get_pruning`, bkz_param.cpp:68-75, with the state `(closest_dist, best)`; `dist p` is the computed
`fabs(p.gh_factor - gh_factor)`, in an arbitrary linear order so that rounding is covered -/
def closestLoop {P D : Type} [LinearOrder D] (dist : P → D) : List P → D × P → D × P
  | [], st => st
  | p :: l, st => closestLoop dist l (if dist p < st.1 then (dist p, p) else st)

/-- `Strategy::get_pruning`, bkz_param.cpp:62-78; `far`: `2^80`; `none`: `*best` is read although the list is empty -/
def getPruning {P D : Type} [LinearOrder D] (dist : P → D) (far : D) : List P → Option P
  | [] => none
  | p :: l => some (closestLoop dist (p :: l) (far, p)).2

/-- one entry of the strategy file: an object with these three (optional: the last two) members -/
structure Entry where
  blockSize : ℕ
  preprocessing : Option (List ℕ)
  pruning : Option (List PruningParams)

/-- bkz_param.cpp:104-144: the strategy made from an entry -/
def Entry.toStrategy (e : Entry) : Strategy := ⟨e.blockSize, e.pruning.getD [], e.preprocessing.getD []⟩

/-- bkz_param.cpp:92-147: grow the vector, put the strategy at index `block_size` -/
def place (v : List Strategy) (e : Entry) : List Strategy :=
  (v ++ List.replicate (e.blockSize + 1 - v.length) Strategy.default).set e.blockSize e.toStrategy

/-- bkz_param.cpp:150-154 -/
def mkSound (s : Strategy) : Strategy := if s.pruning.length = 0 then { s with pruning := s.pruning ++ [PruningParams.default] } else s

/-- `load_strategies_json`, bkz_param.cpp:80-157, after the JSON text has been parsed to a list of entries of the expected shape -/
def loadStrategies (l : List Entry) : List Strategy := (l.foldl place []).map mkSound

/-- the strategies of a `BKZParam` made with `strategies` (constructor, bkz_param.h:124-132; `block_size ≥ 0`) -/
def paramStrategies (blockSize : ℕ) (strategies : List Strategy) : List Strategy :=
  if strategies.isEmpty then (List.range (blockSize + 1)).map Strategy.empty else strategies

/-- start of the descent, bkz_param.cpp:15-21 -/
def startDescent (blockSize level : ℤ) : ℤ :=
  let s := blockSize - level
  let s := if s > blockSize then blockSize else s
  if s < 1 then 1 else s

/-- `vec[k] = x` on a vector of doubles; `none`: outside the vector -/
def store (v : List ℚ) (k : ℤ) (x : ℚ) : Option (List ℚ) :=
  if 0 ≤ k ∧ k < v.length then some (v.set k.toNat x) else none

/-- `for (k = 0; k < n; k++) v[f k] = g k` -/
def storeLoop (f : ℕ → ℤ) (g : ℕ → ℚ) : ℕ → List ℚ → Option (List ℚ)
  | 0, v => some v
  | n + 1, v => (storeLoop f g n v).bind fun v => store v (f n) (g n)

/-- the coefficients of `LinearPruningParams`, bkz_param.cpp:11-31 (`block_size ≥ 0`), with exact division -/
def linearPruning (blockSize level : ℤ) : Option (List ℚ) :=
  let sd := startDescent blockSize level
  (storeLoop (fun k => k) (fun _ => 1) sd.toNat (List.replicate blockSize.toNat 0)).bind fun v =>
  storeLoop (fun k => sd + k) (fun k => ((blockSize - k - 1 : ℤ) : ℚ) / blockSize) (blockSize - sd).toNat v

end Strat
end Fplll

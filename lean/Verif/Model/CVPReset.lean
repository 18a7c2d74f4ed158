import Verif.Model.SVP

/-!
# The proved method of `closest_vector`: enumeration with resets

`fplll/enum/enumerate.cpp:24-57` (`EnumerationDyn::reset`), the branches of `enumerate_base.cpp` under
`enable_reset` and `fplll/svpcvp.cpp:608-641`.  Exact arithmetic as in `Model/SVP.lean`; coordinates of the nested
solution are read back as integers (`get_d` of an integer, enumerate.cpp:51).
-/

namespace Fplll
namespace Enum

/-! ## `max_indices` -/

/-- The scan for the largest `r(cur, cur)` below `prev`, svpcvp.cpp:618-626: the result is `max_index`. -/
def maxScan (r : ℕ → ℚ) (prev mx : ℕ) : ℕ :=
  (forDown 0 prev (fun cur (w : ℚ × ℕ) => if w.1 ≤ r cur then (r cur, cur) else w) (r mx, mx)).2

/-- `while (max_index > 0)`, svpcvp.cpp:616-632.  `max_index = -1` and `max_index = 0` both end the loop, so natural
numbers suffice.  `max_index` decreases strictly; the first argument is an iteration budget, `d` iterations suffice. -/
def maxLoop (r : ℕ → ℚ) : ℕ → ℕ → ℕ → (ℕ → ℕ) → (ℕ → ℕ)
  | 0, _, _, f => f
  | n + 1, prev, mx, f =>
    if 0 < mx then
      let m := maxScan r prev mx
      let f1 : ℕ → ℕ := fun cur => if m ≤ cur ∧ cur < prev then m else f cur
      maxLoop r n m (m - 1) (setAt f1 prev prev)
    else f

/-- `max_indices`, svpcvp.cpp:608-633 (entries below `d`) -/
def maxIndices (d : ℕ) (r : ℕ → ℚ) : ℕ → ℕ := maxLoop r d (d - 1) (d - 1) (fun _ => 0)

/-! ## Walks with resets -/

variable {σ : Type}

/-- `enumerate_recursive` with `enable_reset`, enumerate_base.cpp:24-118: as `recursive`, but the first accepted node
of a level `kk` with `0 < kk < reset_depth` is handed to `reset` and the call returns (lines 47-52).  `rst s nd kk` is
`reset(newdist, kk)`. -/
def recursiveR (c : Cfg) (E : EvalOps σ) (rd : ℕ) (rst : St σ → ℚ → ℕ → Option (St σ)) (fuel : ℕ) :
    ℕ → St σ → Option (St σ)
  | 0, s => some s
  | k + 1, s =>
    if newdist c s k ≤ s.bounds k then
      if 0 < k ∧ k < rd then
        rst (subsolTest c E (enter c s k) k (newdist c s k)) (newdist c s k) k
      else sibLoop c E (recursiveR c E rd rst fuel k) k fuel (first c E s k)
    else some s

/-- One iteration of `enumerate_loop` with `enable_reset`, enumerate_base.cpp:189-246: an accepted node of level
`k + 1` with `k < reset_depth` is handed to `reset(newdist, k)` (after `--k`) and followed by `next_pos_up()`
(lines 212-218). `none`: the nested enumeration exceeds its budget. -/
def loopStepR (c : Cfg) (E : EvalOps σ) (rd : ℕ) (rst : St σ → ℚ → ℕ → Option (St σ)) (s : St σ) (k : ℕ) :
    Option (St σ × Option ℕ) :=
  if newdist c s k ≤ s.bounds k then
    match k with
    | 0 => some (loopStep c E s 0)
    | k + 1 =>
      if k < rd then
        match rst (subsolTest c E (enter c s (k + 1)) (k + 1) (newdist c s (k + 1))) (newdist c s (k + 1)) k with
        | none => none
        | some s2 =>
          match nextPosUp c s2 (k + 1) with
          | none => some (s2, none)
          | some s3 => some (s3, some (k + 1))
      else some (loopStep c E s (k + 1))
  else some (loopStep c E s k)

/-- the iterative `enumerate_loop` with `enable_reset` -/
def iterateR (c : Cfg) (E : EvalOps σ) (rd : ℕ) (rst : St σ → ℚ → ℕ → Option (St σ)) :
    ℕ → St σ → ℕ → Option (St σ)
  | 0, _, _ => none
  | n + 1, s, k =>
    match loopStepR c E rd rst s k with
    | none => none
    | some (s', none) => some s'
    | some (s', some k') => iterateR c E rd rst n s' k'

/-! ## `reset` -/

/-- Input of the nested enumeration of `reset(cur_dist, m)`, enumerate.cpp:28-40: the coordinates above `m` are the
subtree and the radius is the sum of the `r(i, i)` with `i ≤ m`. -/
def resetInput (p : Input) (s : St σ) (m : ℕ) : Input :=
  { p with
    maxdist := forUp 0 (m + 1) (fun i a => a + p.r i) 0
    subtree := (List.range (p.d - m - 1)).map fun i => s.x (m + 1 + i)
    dual := false
    subtreeReset := true
    findsubsols := false }

/-- `reset(cur_dist, m)`, enumerate.cpp:24-57, with the nested enumeration as a parameter; `begin()` of the nested
evaluator is its best solution. -/
def resetF (p : Input) (c : Cfg) (E : EvalOps σ) (nested : Input → Option (St EvSt)) (s : St σ) (dist : ℚ) (m : ℕ) :
    Option (St σ) :=
  match nested (resetInput p s m) with
  | none => none
  | some t =>
    match t.ev.sols.reverse.head? with
    | none => some s
    | some q =>
      if q.1 + dist < s.bounds 0 then
        some (processSolution c E { s with x := fun i => if i < m + 1 then q.2 i else s.x i } (q.1 + dist))
      else some s

/-- `EnumerationDyn::enumerate` with non-empty `_max_indices = mi`, enumerate.cpp:59-159, and `FastEvaluator` (one
solution, best); `recB` tells whether `FPLLL_WITH_RECURSIVE_ENUM` is defined (the default).  The recursion
`enumerate → reset → enumerate` reduces the number of free levels; the first argument bounds its depth and `d` of the
outermost call suffices.  `first = 0` (enumerate.cpp:40, svpcvp.cpp:641), so `last = d`. -/
def enumReset (recB : Bool) (mi : ℕ → ℕ) (fuel : ℕ) : ℕ → Input → Option (St EvSt)
  | 0, _ => none
  | n + 1, p =>
    let c := p.cfg
    let E := fastEval 1 .best
    let rd := mi (p.d - p.subtree.length - 1)
    let rst := resetF p c E (enumReset recB mi fuel n)
    let s := p.start EvSt.new
    if (prepare p).2 ≥ c.K then some s
    else if recB then recursiveR c E rd rst fuel c.K (loopInit c s (prepare p).2)
    else iterateR c E rd rst fuel (loopInit c s (prepare p).2) (c.K - 1)

end Enum

namespace SVP
open Enum Outcome

/-- `closest_vector(b, int_target, sol_coord, CVPM_PROVED, flags)`, svpcvp.cpp:532-659; the result is the status and
`sol_coord`.  In `EVALMODE_CV` (= `EVALMODE_SV`, evaluator.h:30-31) `FastErrorBoundedEvaluator::eval_sol` does what
`FastEvaluator` does. -/
def closestVectorP (recB : Bool) (d n : ℕ) (b : Mat ℤ) (jz : Mat ℤ) (jf : Mat Exact) (target : ℕ → ℤ) (fuel : ℕ) :
    Outcome (Bool × (ℕ → ℤ)) :=
  if ¬ (0 < d ∧ 0 < n) then .abort
  else if ¬ d ≤ n then .abort
  else
    let g := ((GSO.mk0 d n true false false false b (fun _ _ => 0) (fun _ _ => 0) jz jf : GSO Exact).updateGso).2
    let mu := fun i j => val (g.mu i j)
    let r := fun i => val (g.r i i)
    match cvpLoop d n b mu r fuel ⟨fun _ => 0, target⟩ with
    | none => .running
    | some s =>
      match enumReset recB (maxIndices d r) fuel d (cvpInput d n b mu r s) with
      | none => .running
      | some t =>
        match t.ev.sols.reverse.head? with
        | none => .done (false, s.coord)
        | some q => .done (true, fun i => if i < d then s.coord i + q.2 i else s.coord i)

end SVP
end Fplll

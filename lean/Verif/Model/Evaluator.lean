import Verif.Model.Enum

/-!
# Model of `Evaluator`, `FastEvaluator` and `CallbackEvaluator` (fplll/enum/evaluator.h)

Simplifications: `normExp = 0` (see Model/Enum.lean), so `calc_enum_bound` is the identity, and exact
arithmetic for `FT`.
-/

namespace Fplll
namespace Enum

/-- `EvaluatorStrategy`, evaluator.h:37-57 -/
inductive Strategy
  | best
  | opportunistic
  | first
  deriving DecidableEq

/-- Data of an `Evaluator`, evaluator.h:82-96.  `sols` is the multimap in its iteration order (longest
solution first); `subs l` is `sub_solutions[l]`, `none` for an entry whose vector is empty or which is
beyond the size of the array. -/
structure EvSt where
  sols : List (ℚ × (ℕ → ℤ))
  count : ℕ
  subs : ℕ → Option (ℚ × (ℕ → ℤ))

/-- a new evaluator -/
def EvSt.new : EvSt := ⟨[], 0, fun _ => none⟩

/-- `std::multimap<…, std::greater<FT>>::emplace`: behind all entries whose key is not smaller. -/
def emplace (d : ℚ) (x : ℕ → ℤ) : List (ℚ × (ℕ → ℤ)) → List (ℚ × (ℕ → ℤ))
  | [] => [(d, x)]
  | p :: L => if p.1 ≥ d then p :: emplace d x L else (d, x) :: p :: L

/-- `Evaluator::process_sol`, evaluator.h:122-156; returns the new evaluator and `max_dist`. -/
def processSol (N : ℕ) (strat : Strategy) (e : EvSt) (d : ℚ) (x : ℕ → ℤ) (maxDist : ℚ) : EvSt × ℚ :=
  let L := emplace d x e.sols
  match strat with
  | .best =>
    if L.length < N then ({ e with sols := L, count := e.count + 1 }, maxDist)
    else
      let L' := if L.length > N then L.tail else L
      ({ e with sols := L', count := e.count + 1 }, (L'.head?.map (·.1)).getD maxDist)
  | .opportunistic =>
    if L.length ≤ N then ({ e with sols := L, count := e.count + 1 }, d)
    else ({ e with sols := L.tail, count := e.count + 1 }, d)
  | .first =>
    if L.length < N then ({ e with sols := L, count := e.count + 1 }, maxDist)
    else ({ e with sols := L, count := e.count + 1 }, 0)

/-- `FastEvaluator::eval_sub_sol`, evaluator.h:190-205 -/
def fastEvalSub (e : EvSt) (offset : ℕ) (x : ℕ → ℤ) (d : ℚ) : EvSt :=
  let new : ℚ × (ℕ → ℤ) := (d, fun i => if i < offset then 0 else x i)
  match e.subs offset with
  | none => { e with subs := setAt e.subs offset (some new) }
  | some q => if d < q.1 then { e with subs := setAt e.subs offset (some new) } else e

/-- `FastEvaluator(N, strat)`, evaluator.h:164-206 -/
def fastEval (N : ℕ) (strat : Strategy) : EvalOps EvSt where
  evalSol e x d md := processSol N strat e d x md
  evalSub := fastEvalSub

/-- `CallbackEvaluator`, evaluator.h:222-261.  The callback may keep a state `τ` (the `ctx` pointer). -/
def callbackEval {τ : Type} (cb : τ → (ℕ → ℤ) → Bool × τ) (N : ℕ) (strat : Strategy) : EvalOps (τ × EvSt) where
  evalSol t x d md :=
    if (cb t.1 x).1 then
      (((cb t.1 x).2, (processSol N strat t.2 d x md).1), (processSol N strat t.2 d x md).2)
    else (((cb t.1 x).2, t.2), md)
  evalSub t k x d := (t.1, fastEvalSub t.2 k x d)

end Enum
end Fplll

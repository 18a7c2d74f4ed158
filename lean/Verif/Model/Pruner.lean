import Mathlib.Analysis.Real.Sqrt
import Mathlib.Algebra.BigOperators.Intervals
import Verif.Model.PrunerVol

/-!
# Model of the optimisation of pruning coefficients

fplll/pruner/pruner.h (`enforce`), pruner_util.cpp (`save_coefficients`, `load_coefficients`), pruner_optimize.cpp,
pruner_optimize_tc.cpp, pruner_optimize_tp.cpp.

* exact real arithmetic for `FT` and `double`;
* the cost functions (`target_function`, `single_enum_cost` with its detailed costs, `measure_metric`,
  `target_function_gradient`, the node estimate of `greedy`) are arbitrary functions (`Oracle`): the claims hold for all of them.
  That they may throw is left out;
* loops without a bound take `fuel`; `Res.stuck` means it was not enough;
* `verbosity` output is left out.
-/

namespace Fplll
namespace Pruner

open Function (update)

/-- result of a function that may throw `std::runtime_error` -/
inductive Res (α : Type)
  | ok (a : α)
  | thrown
  | stuck

/-- sequential composition -/
def Res.bind {α β : Type} (m : Res α) (f : α → Res β) : Res β := match m with
  | .ok a => f a
  | .thrown => .thrown
  | .stuck => .stuck

/-- flags of the pruner, fplll/pruner/pruner.h:42-60, and parameters -/
structure Cfg where
  /-- dimension of the block -/
  n : ℕ
  /-- `PRUNER_START_FROM_INPUT` -/
  fromInput : Bool
  /-- `PRUNER_GRADIENT` -/
  gradient : Bool
  /-- `PRUNER_NELDER_MEAD` -/
  nelderMead : Bool
  /-- `PRUNER_HALF` -/
  half : Bool
  /-- `PRUNER_SINGLE` -/
  single : Bool
  /-- `target` -/
  target : ℝ

/-- `d = n / 2`, pruner.h:286 -/
def Cfg.d (c : Cfg) : ℕ := c.n / 2

/-- the cost functions; the first argument is the length of the vector -/
structure Oracle where
  /-- `target_function` -/
  cost : ℕ → Vec → ℝ
  /-- `target_function_gradient`; it depends on `epsilon` too -/
  grad : ℕ → Vec → ℝ → Vec
  /-- `single_enum_cost` -/
  single : ℕ → Vec → ℝ
  /-- `detailed_cost` as filled in by `single_enum_cost` -/
  detail : ℕ → Vec → Vec
  /-- `measure_metric` -/
  metric : ℕ → Vec → ℝ
  /-- is the estimate of `greedy` for level `j` above the goal (first conjunct of pruner_optimize_tc.cpp:443, given `b` after
  the last change, or the initial value)? -/
  tooMany : ℕ → Vec → Bool

/-- body of the first loop of `enforce`, pruner.h:1024-1032; the state is `(status, b)`; `b[i] <= min` sets `b[i] = min` -/
noncomputable def clampStep (d c : ℕ) (mn : Vec) (i : ℕ) (s : Bool × Vec) : Bool × Vec :=
  let st := s.1 || decide (s.2 i > 1.0001)
  let b := update s.2 i (if s.2 i > 1 then 1 else s.2 i)
  (st, if i / c < d ∧ b i ≤ mn (i / c) then update b i (mn (i / c)) else b)

/-- body of the second loop, pruner.h:1034-1041 -/
noncomputable def upStep (i : ℕ) (s : Bool × Vec) : Bool × Vec :=
  if s.2 (i + 1) < s.2 i then (s.1 || decide (s.2 (i + 1) + 0.000001 < s.2 i), update s.2 (i + 1) (s.2 i)) else s

/-- body of the third loop, pruner.h:1043-1050 -/
noncomputable def downStep (i : ℕ) (s : Bool × Vec) : Bool × Vec :=
  if s.2 (i + 1) < s.2 i then (s.1 || decide (s.2 (i + 1) + 0.000001 < s.2 i), update s.2 i (s.2 (i + 1))) else s

/-- `enforce`, pruner.h:1012-1053, for a vector of length `dn ≥ 1` -/
noncomputable def enforce (d : ℕ) (mn : Vec) (dn : ℕ) (b : Vec) (j : ℕ) : Bool × Vec :=
  let c := if dn = d then 1 else 2
  let s0 : Bool × Vec := if b (dn - 1) < 0.999 ∧ j ≠ dn - 1 then (true, update b (dn - 1) 1) else (false, b)
  let s1 := forUp 0 dn (clampStep d c mn) s0
  let s2 := forUp j (dn - 1) upStep s1
  forDown 0 (min j (dn - 1)) downStep s2

/-- `save_coefficients`, pruner_util.cpp:98-119: writes `pr` of length `n` -/
noncomputable def save (c : Cfg) (dn : ℕ) (b : Vec) (pr : Vec) : Vec :=
  update
    (if dn = c.d then forUp 0 c.d (fun i (pr : Vec) => update (update pr (c.n - 1 - 2 * i) (b i)) (c.n - 2 - 2 * i) (b i)) pr
     else forUp 0 c.n (fun i (pr : Vec) => update pr (c.n - 1 - i) (b i)) pr) 0 1

/-- `load_coefficients`, pruner_util.cpp:124-141 -/
noncomputable def load (c : Cfg) (dn : ℕ) (pr : Vec) : Vec := fun i => pr (c.n - (if dn = c.d then 2 else 1) * i - 1)

/-! ## Greedy -/

/-- the `while` loop of `greedy`, pruner_optimize_tc.cpp:443-456 -/
noncomputable def greedyWhile (O : Oracle) (j i : ℕ) : ℕ → Vec → Res Vec
  | 0, _ => .stuck
  | fuel + 1, b =>
    if O.tooMany j b = true ∧ b i > 0.001 then
      let b := update b i (b i * 0.98)
      greedyWhile O j i fuel (forUp 0 i (fun k (b : Vec) => update b k (if b k < b i then b k else b i)) b)
    else .ok b

/-- the levels `j = 2 i + 1`, `i < m`, of the `for` loop of `greedy`, pruner_optimize_tc.cpp:434-457 -/
noncomputable def greedyFor (O : Oracle) (fuel : ℕ) : ℕ → Vec → Res Vec
  | 0, b => .ok b
  | i + 1, b => (greedyFor O fuel i b).bind fun b =>
    greedyWhile O (2 * i + 1) i fuel (if i > 1 then update b i (if b (i - 1) > 0.9 then 1 else 1.1 * b (i - 1)) else b)

/-- `greedy`, pruner_optimize_tc.cpp:418-460: the loop `j = 1, 3, … < 2 d - 1` has `d - 1` passes; that it also clears
`min_pruning_coefficients` is done by the callers -/
noncomputable def greedy (c : Cfg) (O : Oracle) (fuel : ℕ) : Res Vec := greedyFor O fuel (c.d - 1) (fun _ => 1)

/-! ## Gradient descent -/

/-- the mini-steps of `gradient_descent_step`, pruner_optimize_tc.cpp:533-568: returns the return value and `b` -/
noncomputable def miniSteps (c : Cfg) (O : Oracle) (mn : Vec) (dn : ℕ) (g : Vec) (old : ℝ) :
    ℕ → ℕ → ℝ → Vec → Vec → ℝ → Res (ℤ × Vec)
  | 0, _, _, _, _, _ => .stuck
  | fuel + 1, j, step, newb, b, cf =>
    if step > dn then .ok (-1, b)
    else
      let newb := (enforce c.d mn dn (fun i => newb i + step * g i) 0).2
      let newcf := O.cost dn newb
      if newcf ≥ cf then (if cf > old * 0.995 then .ok (0, b) else .ok (j, b))
      else miniSteps c O mn dn g old fuel (j + 1) (step * √2) newb newb newcf

/-- `gradient_descent_step`, pruner_optimize_tc.cpp:497-580 -/
noncomputable def gradStep (c : Cfg) (O : Oracle) (mn : Vec) (dn fuel : ℕ) (eps minStep : ℝ) (b : Vec) : Res (ℤ × Vec) :=
  let g := O.grad dn b eps
  let norm := √((∑ i ∈ Finset.range dn, g i * g i) / dn)
  if norm ≤ 0 then .ok (0, b)
  else miniSteps c O mn dn (fun i => g i / norm) (O.cost dn b) fuel 0 minStep b b (O.cost dn b)

/-- the loop of `gradient_descent`, pruner_optimize_tc.cpp:472-490 -/
noncomputable def gradLoop (c : Cfg) (O : Oracle) (mn : Vec) (dn inner : ℕ) : ℕ → ℝ → ℝ → ℤ → Vec → Res Vec
  | 0, _, _, _, _ => .stuck
  | fuel + 1, eps, minStep, trials, b => (gradStep c O mn dn inner eps minStep b).bind fun r =>
    if r.1 = 0 then .ok r.2
    else if r.1 < 0 then
      (if trials + 1 ≥ 5 then .ok r.2 else gradLoop c O mn dn inner fuel (eps * 0.9) (minStep * 0.9) (trials + 1) r.2)
    else gradLoop c O mn dn inner fuel eps minStep (trials - 1) r.2

/-- `gradient_descent`, pruner_optimize_tc.cpp:465-495 with `epsilon` and `min_step` of pruner.h:611-612 -/
noncomputable def gradientDescent (c : Cfg) (O : Oracle) (mn : Vec) (dn fuel : ℕ) (b : Vec) : Res Vec :=
  gradLoop c O mn dn fuel fuel (1 / 2 ^ 7) (1 / 2 ^ 6) 0 b

/-! ## Nelder-Mead -/

/-- the simplex and its values -/
structure Simplex where
  bs : ℕ → Vec
  fs : ℕ → ℝ

/-- index of the smallest value, pruner_optimize_tc.cpp:634 -/
noncomputable def nmMini (l : ℕ) (fs : ℕ → ℝ) : ℕ := forUp 1 l (fun i m => if fs i < fs m then i else m) 0

/-- `maxi`, pruner_optimize_tc.cpp:634-635: each `i` is compared with the smallest value so far (as in the code) -/
noncomputable def nmMaxi (l : ℕ) (fs : ℕ → ℝ) : ℕ :=
  (forUp 1 l (fun i (m : ℕ × ℕ) =>
    let mini := if fs i < fs m.1 then i else m.1
    (mini, if fs i > fs mini then i else m.2)) (0, 0)).2

/-- `maxi2`, pruner_optimize_tc.cpp:648-652 and :684-688 -/
noncomputable def nmMaxi2 (l : ℕ) (fs : ℕ → ℝ) (maxi : ℕ) : ℕ :=
  let m := forUp 1 l (fun i m => if fs i > fs m ∧ i ≠ maxi then i else m) (if maxi = 0 then 1 else 0)
  forUp 0 l (fun i m => if fs i > fs m ∧ i ≠ maxi then i else m) m

/-- centroid of the `l` points, pruner_optimize_tc.cpp:627-644 -/
noncomputable def nmCentroid (l : ℕ) (bs : ℕ → Vec) : Vec :=
  fun i => (forUp 1 l (fun k acc => acc + bs k i) (bs 0 i)) / l

/-- the main loop of `nelder_mead_step`, pruner_optimize_tc.cpp:623-808; returns the simplex and `mini` at the `break` -/
noncomputable def nmLoop (c : Cfg) (O : Oracle) (mn : Vec) (dn : ℕ) : ℕ → ℕ → ℝ → Simplex → Res (Simplex × ℕ)
  | 0, _, _, _ => .stuck
  | fuel + 1, counter, last, s =>
    let l := dn + 1
    let mini := nmMini l s.fs
    let maxi := nmMaxi l s.fs
    let maxi2 := nmMaxi2 l s.fs maxi
    let last := if counter = 0 then s.fs maxi else last
    let e := enforce c.d mn dn (nmCentroid l s.bs) 0
    if e.1 = true then .thrown
    else
      let bo := e.2
      let counter := counter + 1
      if counter % l = 0 ∧ s.fs maxi > last * 0.995 then .ok (s, mini)
      else
        let last := if counter % l = 0 then s.fs maxi else last
        let br := (enforce c.d mn dn (fun i => bo i + 1 * (bo i - s.bs maxi i)) 0).2
        let fr := O.cost dn br
        if s.fs mini ≤ fr ∧ fr < s.fs maxi2 then
          nmLoop c O mn dn fuel counter last ⟨update s.bs maxi br, update s.fs maxi fr⟩
        else if fr < s.fs mini then
          let be := (enforce c.d mn dn (fun i => bo i + 2 * (br i - bo i)) 0).2
          let fe := O.cost dn be
          if fe < fr then nmLoop c O mn dn fuel counter last ⟨update s.bs maxi be, update s.fs maxi fe⟩
          else nmLoop c O mn dn fuel counter last ⟨update s.bs maxi br, update s.fs maxi fr⟩
        else if ¬ fr ≥ s.fs maxi2 then .thrown
        else
          let bc := (enforce c.d mn dn (fun i => bo i + 0.5 * (s.bs maxi i - bo i)) 0).2
          let fc := O.cost dn bc
          if fc < s.fs maxi then nmLoop c O mn dn fuel counter last ⟨update s.bs maxi bc, update s.fs maxi fc⟩
          else
            -- shrink: `bs[mini]` itself is changed when `j = mini`, but to itself; then it is enforced
            let s' := forUp 0 l (fun j (s : Simplex) =>
              let b := (enforce c.d mn dn (fun i => s.bs mini i + 0.5 * (s.bs j i - s.bs mini i)) 0).2
              ⟨update s.bs j b, update s.fs j (O.cost dn b)⟩) s
            nmLoop c O mn dn fuel counter last s'

/-- the initial simplex, pruner_optimize_tc.cpp:599-608 -/
noncomputable def nmInit (c : Cfg) (O : Oracle) (mn : Vec) (dn : ℕ) (b : Vec) : Simplex :=
  let v : ℕ → Vec := fun i =>
    (enforce c.d mn dn (if i < dn then update b i (b i + (if b i < 0.5 then 0.01 else -0.01)) else b) 0).2
  ⟨v, fun i => O.cost dn (v i)⟩

/-- `nelder_mead_step`, pruner_optimize_tc.cpp:591-825: was there an improvement, and the new `b` -/
noncomputable def nmStep (c : Cfg) (O : Oracle) (mn : Vec) (dn fuel : ℕ) (b : Vec) : Res (Bool × Vec) :=
  let s := nmInit c O mn dn b
  (nmLoop c O mn dn fuel 0 (s.fs 0) s).bind fun r => .ok (decide (s.fs dn * 0.995 > r.1.fs r.2), r.1.bs r.2)

/-- `while (nelder_mead_step(b))`, pruner_optimize_tc.cpp:103-105, :165-167 -/
noncomputable def nelderMead (c : Cfg) (O : Oracle) (mn : Vec) (dn inner : ℕ) : ℕ → Vec → Res Vec
  | 0, _ => .stuck
  | fuel + 1, b => (nmStep c O mn dn inner b).bind fun r => if r.1 = true then nelderMead c O mn dn inner fuel r.2 else .ok r.2

/-- `optimize_coefficients_evec_core` (`dn = d`), pruner_optimize_tc.cpp:74-115, and `optimize_coefficients_full_core`
(`dn = n`), :131-177 -/
noncomputable def core (c : Cfg) (O : Oracle) (mn : Vec) (dn fuel : ℕ) (pr : Vec) : Res Vec :=
  let b := load c dn pr
  (if c.gradient = true then gradientDescent c O mn dn fuel b else .ok b).bind fun b =>
  (if c.nelderMead = true then nelderMead c O mn dn fuel fuel b else .ok b).bind fun b =>
  .ok (save c dn b pr)

/-! ## Local adjustments -/

/-- bottleneck: the largest detailed cost (first conjunct: indices that are allowed), pruner_optimize_tc.cpp:219-231, :310-319 -/
noncomputable def bottleneck (n : ℕ) (allowed : ℕ → Bool) (dc : Vec) : ℕ :=
  (forUp 0 n (fun i (m : ℝ × ℕ) => if allowed i = true ∧ dc i > m.1 then (dc i, i) else m) (0, 0)).2

/-- the loop of `optimize_coefficients_local_adjust_decr_single`, pruner_optimize_tc.cpp:202-266; `lasti`: none for -1 -/
noncomputable def decrLoop (c : Cfg) (O : Oracle) : ℕ → Option ℕ → ℕ → (ℕ → ℤ) → Vec → Vec → Res Vec
  | 0, _, _, _, _, _ => .stuck
  | fuel + 1, lasti, fails, thr, slices, b =>
    let oldcf := O.cost c.n b
    if O.single c.n b < √oldcf / 10 then .ok b
    else
      let maxi := bottleneck c.n (fun i => decide (lasti ≠ some (c.n - 1 - i)) && decide (thr (c.n - i - 1) > 0)) (O.detail c.n b)
      let ind := c.n - maxi - 1
      if ind = 0 then .ok b
      else
        let b' := update b ind (b ind - (b ind - b (ind - 1)) / slices ind)
        if O.cost c.n b' ≥ oldcf * 0.995 then
          (if fails + 1 > 10 then .ok b
           else decrLoop c O fuel (some ind) (fails + 1) (update thr ind (thr ind - 1)) slices b)
        else decrLoop c O fuel lasti 0 thr (if slices ind < 1024 then update slices ind (slices ind * 1.05) else slices) b'

/-- `optimize_coefficients_local_adjust_decr_single`, pruner_optimize_tc.cpp:183-278 -/
noncomputable def decrSingle (c : Cfg) (O : Oracle) (fuel : ℕ) (pr : Vec) : Res Vec :=
  (decrLoop c O fuel none 0 (fun _ => 3) (fun _ => 10) (load c c.n pr)).bind fun b => .ok (save c c.n b pr)

/-- the inner loop of `optimize_coefficients_local_adjust_incr_prob`, pruner_optimize_tc.cpp:338-367: at most ten trials -/
noncomputable def incrTrials (c : Cfg) (O : Oracle) (i : ℕ) : ℕ → Vec × Vec → Vec × Vec
  | 0, s => s
  | m + 1, (slices, b) =>
    let b' := update b (i - 1) (b (i - 1) + (b i - b (i - 1)) / slices (i - 1))
    if O.cost c.n b' ≥ O.cost c.n b * 1.2 then (slices, b)
    else incrTrials c O i m (if slices (i - 1) < 1024 then update slices (i - 1) (slices (i - 1) * 1.2) else slices, b')

/-- the loop of `optimize_coefficients_local_adjust_incr_prob`, pruner_optimize_tc.cpp:298-372; at most five tours -/
noncomputable def incrTours (c : Cfg) (O : Oracle) (cf0 : ℝ) : ℕ → Vec → Vec → Vec
  | 0, _, b => b
  | m + 1, slices, b =>
    let oldcf := O.cost c.n b
    let ind := c.n - bottleneck c.n (fun _ => true) (O.detail c.n b) - 1
    if ind ≤ 1 then b
    else if O.single c.n b > √oldcf / 10 then b
    else
      let s := forDown 1 (ind + 1) (fun i (s : Vec × Vec) => if s.2 i ≤ s.2 (i - 1) then s else incrTrials c O i 10 s) (slices, b)
      if O.cost c.n s.2 > cf0 * 1.1 then s.2 else incrTours c O cf0 m s.1 s.2

/-- `optimize_coefficients_local_adjust_incr_prob`, pruner_optimize_tc.cpp:284-381 (`tours > 4` ends the fifth tour) -/
noncomputable def incrProb (c : Cfg) (O : Oracle) (pr : Vec) : Vec :=
  save c c.n (incrTours c O (O.cost c.n (load c c.n pr)) 5 (fun _ => 10) (load c c.n pr)) pr

/-- body of the loop of `optimize_coefficients_local_adjust_smooth`, pruner_optimize_tc.cpp:395-410 -/
noncomputable def smoothStep (n i : ℕ) (b : Vec) : Vec :=
  let lr := b i / b (i - 1)
  let rr := b (i + 1) / b i
  let b := if rr / lr > 1.25 ∨ rr / lr < 0.8 then update b i (√(b (i - 1) * b (i + 1))) else b
  if b (i + 1) - b i > 1 / n ∨ b i - b (i - 1) > 1 / n then update b i ((b (i - 1) + b (i + 1)) / 2) else b

/-- `optimize_coefficients_local_adjust_smooth`, pruner_optimize_tc.cpp:387-413 -/
noncomputable def smooth (c : Cfg) (pr : Vec) : Vec :=
  save c c.n (forUp 1 (c.n - 1) (smoothStep c.n) (load c c.n pr)) pr

/-! ## Reaching the target -/

/-- the weights of pruner_optimize_tp.cpp:37-51, :102-117 -/
noncomputable def weights (dn : ℕ) (dc : Vec) : Vec :=
  let w : Vec := fun i => max (1 / ∑ j ∈ Finset.Ico i dn, dc j) 0.0001
  fun i => w i / ∑ k ∈ Finset.range dn, w k

/-- the loop of `optimize_coefficients_incr_prob`, pruner_optimize_tp.cpp:25-69; `m`: tours left (10001 at the start) -/
noncomputable def incrTarget (c : Cfg) (O : Oracle) (mn : Vec) : ℕ → Vec → Vec
  | 0, b => b
  | m + 1, b =>
    if O.metric c.n b ≥ c.target then b
    else
      let w := weights c.n (O.detail c.n b)
      let b' := (enforce c.d mn c.n (fun i => if b i + w i ≥ 1 then 1 else b i + w i) 0).2
      if ∀ i, i < c.n → b' i = b i then b' else incrTarget c O mn m b'

/-- the loop of `optimize_coefficients_decr_prob`, pruner_optimize_tp.cpp:89-138 -/
noncomputable def decrTarget (c : Cfg) (O : Oracle) (mn : Vec) : ℕ → Vec → Vec
  | 0, b => b
  | m + 1, b =>
    if O.metric c.n b ≤ c.target then b
    else
      let w := weights c.n (O.detail c.n b)
      let b' := (enforce c.d mn c.n (fun i => if b i - w i < 0.0001 then 0.0001 else b i - w i) 0).2
      if ∀ i, i < c.n → b' i = b i then b' else decrTarget c O mn m b'

/-- `optimize_coefficients_incr_prob`, pruner_optimize_tp.cpp:8-72 -/
noncomputable def optIncr (c : Cfg) (O : Oracle) (mn : Vec) (pr : Vec) : Vec :=
  save c c.n (incrTarget c O mn 10001 (load c c.n pr)) pr

/-- `optimize_coefficients_decr_prob`, pruner_optimize_tp.cpp:74-140 -/
noncomputable def optDecr (c : Cfg) (O : Oracle) (mn : Vec) (pr : Vec) : Vec :=
  save c c.n (decrTarget c O mn 10001 (load c c.n pr)) pr

/-- the loop of `optimize_coefficients_local_adjust_prob`, pruner_optimize_tp.cpp:157-200 -/
noncomputable def adjustLoop (c : Cfg) (O : Oracle) (mn : Vec) : ℕ → Vec → Res Vec
  | 0, _ => .stuck
  | fuel + 1, b =>
    let ratio := O.metric c.n b / c.target
    if ratio < 1.05 ∧ ratio > 0.95 then .ok b
    else
      let b1 : Vec := if ratio < 1 then fun i => if b i + 0.0001 ≥ 1 then 1 else b i + 0.0001
        else fun i => if b i - 0.0001 < 0.0001 then 0.0001 else b i - 0.0001
      let b' := (enforce c.d mn c.n b1 0).2
      if ∀ i, i < c.n → b' i = b i then .ok b' else adjustLoop c O mn fuel b'

/-- `optimize_coefficients_local_adjust_prob`, pruner_optimize_tp.cpp:142-203 -/
noncomputable def adjustProb (c : Cfg) (O : Oracle) (mn : Vec) (fuel : ℕ) (pr : Vec) : Res Vec :=
  (adjustLoop c O mn fuel (load c c.n pr)).bind fun b => .ok (save c c.n b pr)

/-! ## The whole optimisation -/

/-- `optimize_coefficients_preparation`, pruner_optimize_tc.cpp:11-60: returns `min_pruning_coefficients` and `pr`.  `Omin`: the
cost functions while `preproc_cost` is divided by ten (:37, :57).  `b` is not initialised by the code when neither branch runs;
here one of them always does. -/
noncomputable def preparation (c : Cfg) (O Omin : Oracle) (fuel : ℕ) (pr : Vec) : Res (Vec × Vec) :=
  (if c.fromInput = true then .ok (load c c.d pr) else greedy c O fuel).bind fun b =>
  (if c.gradient = true ∨ c.nelderMead = true then
    (greedy c Omin fuel).bind fun mn =>
      if c.single = true then .ok mn
      else
        let prMin := save c c.d mn (fun _ => 0)
        .ok (load c c.d (if Omin.metric c.d mn > c.target then optDecr c Omin (fun _ => 0) prMin else prMin))
   else .ok (fun _ => 0)).bind fun mn =>
  .ok (mn, save c c.d b pr)

/-- the tours of `optimize_coefficients_cost_vary_prob`, pruner_optimize.cpp:37-92: `pr`, `best_b`, `min_c` -/
noncomputable def varyTours (c : Cfg) (O : Oracle) (mn : Vec) (inner : ℕ) : ℕ → ℕ → Vec → Vec → ℝ → Res Vec
  | 0, _, _, _, _ => .stuck
  | fuel + 1, tours, pr, best, minc =>
    let old0 := O.cost c.n (load c c.n pr)
    (decrSingle c O inner pr).bind fun pr =>
    let pr := smooth c (incrProb c O pr)
    let b := load c c.n pr
    let old1 := O.cost c.n b
    let best := if old1 < minc then b else best
    let minc := if old1 < minc then old1 else minc
    (core c O mn c.n inner pr).bind fun pr =>
    let b := load c c.n pr
    let newc := O.cost c.n b
    let best := if newc < minc then b else best
    let minc := if newc < minc then newc else minc
    if newc / old0 > 0.995 ∧ tours + 1 > 3 then .ok (save c c.n best pr)
    else varyTours c O mn inner fuel (tours + 1) pr best minc

/-- `optimize_coefficients_cost_vary_prob`, pruner_optimize.cpp:8-99 -/
noncomputable def varyProb (c : Cfg) (O Omin : Oracle) (fuel : ℕ) (pr : Vec) : Res Vec :=
  (preparation c O Omin fuel pr).bind fun p =>
  (core c O p.1 c.d fuel p.2).bind fun pr =>
  let b := load c c.n pr
  if c.half = true then .ok (save c c.n b pr)
  else varyTours c O p.1 fuel fuel 0 pr b (O.cost c.n b)

/-- `optimize_coefficients_cost_fixed_prob`, pruner_optimize.cpp:102-147 -/
noncomputable def fixedProb (c : Cfg) (O Omin : Oracle) (fuel : ℕ) (pr : Vec) : Res Vec :=
  (preparation c O Omin fuel pr).bind fun p =>
  (core c O p.1 c.d fuel p.2).bind fun pr =>
  (core c O p.1 c.n fuel (smooth c pr)).bind fun pr =>
  let pr := smooth c pr
  let pr := if O.metric c.n (load c c.n pr) ≤ c.target then optIncr c O p.1 pr else optDecr c O p.1 pr
  adjustProb c O p.1 fuel (smooth c pr)

/-- `optimize_coefficients`, pruner_optimize.cpp:152-162 -/
noncomputable def optimize (c : Cfg) (O Omin : Oracle) (fuel : ℕ) (pr : Vec) : Res Vec :=
  if c.single = true then fixedProb c O Omin fuel pr else varyProb c O Omin fuel pr

end Pruner
end Fplll

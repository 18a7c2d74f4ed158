import Mathlib.Algebra.Order.Floor.Ring
import Mathlib.Data.Rat.Floor
import Verif.Base.Loops

/-!
# Model of the enumeration tree walk

`EnumerationBase` (fplll/enum/enumerate_base.h, enumerate_base.cpp) and `EnumerationDyn`
(fplll/enum/enumerate.h, enumerate.cpp).

Simplifications, valid for the whole file:
* `enumf` (`double`) is modelled by `ℚ` and a rounding function `fl` which is applied to the result of every
  operation on `enumf` (one rounding per operation: the compiler is assumed not to contract them); `fl = id` is
  exact arithmetic.  No underflow and no overflow.  `enumxt` (`double` holding integers) is modelled by `ℤ`;
* the arrays of size `maxdim` are functions on `ℕ` (the C++ checks `d < maxdim`, enumerate.cpp:71);
* the power-of-two rescaling by `normexp` (enumerate.cpp:91-106) is left out: it is a multiplication
  of all distances by a constant;
* `resetflag` (a non-empty `_max_indices`) is always false: the functions `reset` and the branches
  guarded by `enable_reset` are modelled in Model/CVPReset.lean.
-/

namespace Fplll
namespace Enum

/-- Overwrite one entry of an array. -/
def setAt {α : Type} (f : ℕ → α) (i : ℕ) (v : α) : ℕ → α := fun j => if j = i then v else f j

/-- Overwrite one entry of a two-dimensional array. -/
def setAt2 {α : Type} (f : ℕ → ℕ → α) (i j : ℕ) (v : α) : ℕ → ℕ → α :=
  fun a b => if a = i ∧ b = j then v else f a b

/-- `roundto(dest, src)`, enumerate_base.h:33-34: C `round`, half away from zero. -/
def roundto (q : ℚ) : ℤ := if 0 ≤ q then ⌊q + 1 / 2⌋ else ⌈q - 1 / 2⌉

/-- What the enumeration does, in order: ghost data recorded by the model, absent from the C++.
`node k x dist` is a visited node of level `k` (coordinates `x j` for `j ≥ k`), `sol` a call of
`process_solution`, `sub` a call of `process_subsolution`. -/
inductive Event
  | node (k : ℕ) (x : ℕ → ℤ) (dist : ℚ)
  | sol (x : ℕ → ℤ) (dist : ℚ)
  | sub (k : ℕ) (x : ℕ → ℤ) (dist : ℚ)

/-- The virtual functions of `Evaluator` called by the enumeration, evaluator.h:104-108: `eval_sol`
gets the coordinates, the distance and `max_dist`, which it may change. -/
structure EvalOps (σ : Type) where
  evalSol : σ → (ℕ → ℤ) → ℚ → ℚ → σ × ℚ
  evalSub : σ → ℕ → (ℕ → ℤ) → ℚ → σ

/-- The part of an `EnumerationBase`/`EnumerationDyn` object that is constant during
`enumerate_loop`; enumerate_base.h:73-84, enumerate.h:67. -/
structure Cfg where
  /-- rounding of the results of `enumf` operations -/
  fl : ℚ → ℚ := id
  /-- `k_end` -/
  K : ℕ
  dual : Bool
  /-- `is_svp` as left by `prepare_enumeration` -/
  svp : Bool
  /-- `_evaluator.findsubsols` -/
  findsubsols : Bool
  /-- `mut` -/
  mt : ℕ → ℕ → ℚ
  rdiag : ℕ → ℚ
  /-- `center_partsum` as left by `prepare_enumeration` -/
  cpart : ℕ → ℚ
  /-- `pruning_bounds`, `none` when the vector is empty -/
  pruning : Option (ℕ → ℚ)

/-- The changing part of the object, enumerate_base.h:75-101. -/
structure St (σ : Type) where
  x : ℕ → ℤ
  dx : ℕ → ℤ
  ddx : ℕ → ℤ
  center : ℕ → ℚ
  partdist : ℕ → ℚ
  alpha : ℕ → ℚ
  /-- `center_partsums` -/
  cps : ℕ → ℕ → ℚ
  /-- `center_partsum_begin` -/
  cpsBegin : ℕ → ℕ
  /-- `partdistbounds` -/
  bounds : ℕ → ℚ
  maxdist : ℚ
  subsoldists : ℕ → ℚ
  nodes : ℕ → BitVec 64
  /-- the evaluator -/
  ev : σ
  /-- ghost -/
  events : List Event

variable {σ : Type}

/-- `EnumerationDyn::set_bounds`, enumerate.cpp:218-229.  Simplification: all entries are set, not
only those below `d`. -/
def setBounds (c : Cfg) (maxdist : ℚ) : ℕ → ℚ :=
  match c.pruning with
  | none => fun _ => maxdist
  | some p => fun i => c.fl (p i * maxdist)

/-- `EnumerationDyn::process_solution`, enumerate.cpp:231-240 -/
def processSolution (c : Cfg) (E : EvalOps σ) (s : St σ) (dist : ℚ) : St σ :=
  let r := E.evalSol s.ev s.x dist s.maxdist
  { s with ev := r.1, maxdist := r.2, bounds := setBounds c r.2, events := s.events ++ [.sol s.x dist] }

/-- `EnumerationDyn::process_subsolution`, enumerate.cpp:242-250 -/
def processSubsolution (E : EvalOps σ) (s : St σ) (offset : ℕ) (dist : ℚ) : St σ :=
  let fx : ℕ → ℤ := fun j => if j < offset then 0 else s.x j
  { s with ev := E.evalSub s.ev offset fx dist, events := s.events ++ [.sub offset fx dist] }

/-- `x[k] - center[k]`, enumerate_base.cpp:28, :191 -/
def alphak (c : Cfg) (s : St σ) (k : ℕ) : ℚ := c.fl (s.x k - s.center k)

/-- `newdist`, enumerate_base.cpp:29, :192 -/
def newdist (c : Cfg) (s : St σ) (k : ℕ) : ℚ :=
  c.fl (s.partdist k + c.fl (c.fl (alphak c s k * alphak c s k) * c.rdiag k))

/-- Entering a node of level `k`: `++nodes[k]; alpha[k] = alphak`, enumerate_base.cpp:33-35, :87-88,
:197-198. -/
def enter (c : Cfg) (s : St σ) (k : ℕ) : St σ :=
  { s with
    nodes := setAt s.nodes k (s.nodes k + 1)
    alpha := setAt s.alpha k (alphak c s k)
    events := s.events ++ [.node k s.x (newdist c s k)] }

/-- The sub-solution test, enumerate_base.cpp:36-40, :199-203. -/
def subsolTest (c : Cfg) (E : EvalOps σ) (s : St σ) (k : ℕ) (nd : ℚ) : St σ :=
  if c.findsubsols ∧ nd < s.subsoldists k ∧ nd ≠ 0 then
    processSubsolution E { s with subsoldists := setAt s.subsoldists k nd } k nd
  else s

/-- What happens to an accepted node of level 0, enumerate_base.cpp:44-45, :91-92, :207-208. -/
def leaf (c : Cfg) (E : EvalOps σ) (s : St σ) (nd : ℚ) : St σ :=
  if nd > 0 ∨ c.svp = false then processSolution c E s nd else s

/-- The multiplier of `mut[k][j]` in the centre computations: `alpha[j]` in dual and `x[j]` in primal
enumeration, enumerate_base.cpp:57-65, :98-103, :222-231. -/
def yv (c : Cfg) (s : St σ) (j : ℕ) : ℚ := if c.dual then s.alpha j else s.x j

/-- `dx = ddx = ((center >= x) & 1) << 1) - 1`, enumerate_base.cpp:71, :108, :241 -/
def startDir (center : ℚ) (x : ℤ) : ℤ := if center ≥ x then 1 else -1

/-- Initialise level `k` with its centre: the last lines of each descent, enumerate_base.cpp:69-71,
:106-108, :236-241. -/
def startLevel (s : St σ) (k : ℕ) (ctr nd : ℚ) : St σ :=
  { s with
    center := setAt s.center k ctr
    partdist := setAt s.partdist k nd
    x := setAt s.x k (roundto ctr)
    dx := setAt s.dx k (startDir ctr (roundto ctr))
    ddx := setAt s.ddx k (startDir ctr (roundto ctr)) }

/-- Refresh row `k` of `center_partsums` for `j = b, b-1, …, k+1`, enumerate_base.cpp:57-65, :222-231. -/
def refresh (c : Cfg) (s : St σ) (k b : ℕ) : ℕ → ℕ → ℚ :=
  forDown (k + 1) (b + 1)
    (fun j (cps : ℕ → ℕ → ℚ) => setAt2 cps k j (c.fl (cps k (j + 1) - c.fl (yv c s j * c.mt k j)))) s.cps

/-- First descent from a node of level `k + 1` to level `k`, enumerate_base.cpp:54-72 (recursive) and
:222-241 (iterative; the assignments are ordered differently but do not interact). -/
def descend (c : Cfg) (s : St σ) (k : ℕ) (nd : ℚ) : St σ :=
  let cps := refresh c s k (s.cpsBegin (k + 1))
  let cb := if s.cpsBegin (k + 1) > s.cpsBegin k then setAt s.cpsBegin k (s.cpsBegin (k + 1)) else s.cpsBegin
  startLevel { s with cps := cps, cpsBegin := setAt cb (k + 1) (k + 1) } k (cps k (k + 1)) nd

/-- Descent from a later sibling of level `k + 1` to level `k`, enumerate_base.cpp:95-109. -/
def descendNext (c : Cfg) (s : St σ) (k : ℕ) (nd : ℚ) : St σ :=
  let cps := setAt2 s.cps k (k + 1) (c.fl (s.cps k (k + 1 + 1) - c.fl (yv c s (k + 1) * c.mt k (k + 1))))
  let cb := if k + 1 > s.cpsBegin k then setAt s.cpsBegin k (k + 1) else s.cpsBegin
  startLevel { s with cps := cps, cpsBegin := cb } k (cps k (k + 1)) nd

/-- `x[k] += dx[k]; ddx[k] = -ddx[k]; dx[k] = ddx[k] - dx[k]`, enumerate_base.cpp:75-78,
enumerate_base.h:150-152, :166-168 -/
def zigzag (s : St σ) (k : ℕ) : St σ :=
  { s with
    x := setAt s.x k (s.x k + s.dx k)
    ddx := setAt s.ddx k (-s.ddx k)
    dx := setAt s.dx k (-s.ddx k - s.dx k) }

/-- `++x[k]`, enumerate_base.cpp:82, enumerate_base.h:162 -/
def incr (s : St σ) (k : ℕ) : St σ := { s with x := setAt s.x k (s.x k + 1) }

/-- Next sibling of level `k` in the recursive walk, enumerate_base.cpp:73-83. -/
def sibling (c : Cfg) (s : St σ) (k : ℕ) : St σ :=
  if c.svp = false ∨ s.partdist k ≠ 0 then zigzag s k else incr s k

/-- The processing of an accepted first node of level `k`, enumerate_base.cpp:33-72. -/
def first (c : Cfg) (E : EvalOps σ) (s : St σ) (k : ℕ) : St σ :=
  let nd := newdist c s k
  let s1 := subsolTest c E (enter c s k) k nd
  match k with
  | 0 => leaf c E s1 nd
  | k + 1 => descend c s1 k nd

/-- The processing of an accepted later sibling of level `k`, enumerate_base.cpp:87-109. -/
def next (c : Cfg) (E : EvalOps σ) (s : St σ) (k : ℕ) : St σ :=
  let nd := newdist c s k
  let s1 := enter c s k
  match k with
  | 0 => leaf c E s1 nd
  | k + 1 => descendNext c s1 k nd

/-- The `while (true)` loop of `enumerate_recursive`, enumerate_base.cpp:74-110, with the call for level
`k - 1` as a parameter.  `none`: the iteration budget is exhausted. -/
def sibLoop (c : Cfg) (E : EvalOps σ) (rec : St σ → Option (St σ)) (k : ℕ) : ℕ → St σ → Option (St σ)
  | 0, _ => none
  | n + 1, s =>
    match rec s with
    | none => none
    | some s1 =>
      let s2 := sibling c s1 k
      if newdist c s2 k ≤ s2.bounds k then sibLoop c E rec k n (next c E s2 k) else some s2

/-- `enumerate_recursive(opts<m - 1>)`, enumerate_base.cpp:24-118; `m = 0` is the empty specialisation for
`kk = -1`, enumerate_base.h:112-115. -/
def recursive (c : Cfg) (E : EvalOps σ) (fuel : ℕ) : ℕ → St σ → Option (St σ)
  | 0, s => some s
  | k + 1, s =>
    if newdist c s k ≤ s.bounds k then
      sibLoop c E (recursive c E fuel k) k fuel (first c E s k)
    else some s

/-- `next_pos_up()` entered with `k` already incremented, enumerate_base.h:145-172; `none`: returns
false.  `k_max` is write-only and omitted. -/
def nextPosUp (c : Cfg) (s : St σ) (k : ℕ) : Option (St σ) :=
  if s.partdist k ≠ 0 then some (zigzag s k)
  else if k ≥ c.K then none
  else if c.svp then some (incr s k) else some (zigzag s k)

/-- One iteration of the `while (!finished)` loop of `enumerate_loop`, enumerate_base.cpp:189-246: the
state and the level; the result is the new state and level, or the final state when finished. -/
def loopStep (c : Cfg) (E : EvalOps σ) (s : St σ) (k : ℕ) : St σ × Option ℕ :=
  if newdist c s k ≤ s.bounds k then
    let nd := newdist c s k
    let s1 := subsolTest c E (enter c s k) k nd
    match k with
    | 0 =>
      let s2 := leaf c E s1 nd
      match nextPosUp c s2 0 with
      | none => (s2, none)
      | some s3 => (s3, some 0)
    | k + 1 => (descend c s1 k nd, some k)
  else
    match nextPosUp c s (k + 1) with
    | none => (s, none)
    | some s3 => (s3, some (k + 1))

/-- The iterative `enumerate_loop`, enumerate_base.cpp:187-246 (used when `FPLLL_WITH_RECURSIVE_ENUM` is
not defined). -/
def iterate (c : Cfg) (E : EvalOps σ) : ℕ → St σ → ℕ → Option (St σ)
  | 0, _, _ => none
  | n + 1, s, k =>
    match loopStep c E s k with
    | (s', none) => some s'
    | (s', some k') => iterate c E n s' k'

/-- The initialisations of `enumerate_loop` before the walk starts, enumerate_base.cpp:157-181; `k` is the
level left by `prepare_enumeration`. -/
def loopInit (c : Cfg) (s : St σ) (k : ℕ) : St σ :=
  { s with
    cpsBegin := fun i => if i = 0 then 0 else if i ≤ c.K then c.K - 1 else s.cpsBegin i
    cps := fun i j => if i < c.K ∧ j = c.K then c.cpart i else s.cps i j
    partdist := setAt s.partdist c.K 0
    nodes := fun i => if k + 1 ≤ i ∧ i < c.K then s.nodes i - 1 else s.nodes i }

/-- `enumerate_loop` with recursive enumeration (the default build), enumerate_base.cpp:152-185 -/
def enumerateRec (c : Cfg) (E : EvalOps σ) (fuel : ℕ) (s : St σ) (k : ℕ) : Option (St σ) :=
  if k ≥ c.K then some s else recursive c E fuel c.K (loopInit c s k)

/-- `enumerate_loop` in a build without recursive enumeration -/
def enumerateIter (c : Cfg) (E : EvalOps σ) (fuel : ℕ) (s : St σ) (k : ℕ) : Option (St σ) :=
  if k ≥ c.K then some s else iterate c E fuel (loopInit c s k) (c.K - 1)

/-! ## `enumerate` and `prepare_enumeration` -/

/-- Input of `EnumerationDyn::enumerate`, enumerate.cpp:59-63, with the values it reads from the GSO
object for the block `[first, last)`: `r i = r(i+first, i+first)`, `mu i j = mu(i+first, j+first)`. -/
structure Input where
  /-- rounding of the results of `enumf` operations; conversions to `double` (`get_d`) round the same way -/
  fl : ℚ → ℚ := id
  d : ℕ
  mu : ℕ → ℕ → ℚ
  r : ℕ → ℚ
  maxdist : ℚ
  /-- `target_coord`, `none` when empty -/
  target : Option (ℕ → ℚ)
  subtree : List ℤ
  pruning : Option (ℕ → ℚ)
  dual : Bool
  subtreeReset : Bool
  findsubsols : Bool

/-- `rdiag`, enumerate.cpp:108-116, :127-134 -/
def Input.rdiag (p : Input) : ℕ → ℚ :=
  fun i => if p.dual then p.fl (1 / p.fl (p.r (p.d - i - 1))) else p.fl (p.r i)

/-- `mut`, enumerate.cpp:117-125, :135-142: only entries `mut[i][j]` with `i < j < d` are written and
used. -/
def Input.mt (p : Input) : ℕ → ℕ → ℚ :=
  fun i j => if p.dual then -p.fl (p.mu (p.d - i - 1) (p.d - j - 1)) else p.fl (p.mu j i)

/-- Work variables of `prepare_enumeration`: the arrays it writes, `newdist`, `is_svp` and
`center_partsum`. -/
structure Prep where
  x : ℕ → ℤ
  dx : ℕ → ℤ
  center : ℕ → ℚ
  partdist : ℕ → ℚ
  alpha : ℕ → ℚ
  cpart : ℕ → ℚ
  newdist : ℚ
  svp : Bool

/-- Body of the loop of `prepare_enumeration` for level `k`, enumerate.cpp:170-203. -/
def prepBody (p : Input) (K k : ℕ) (w : Prep) : Prep :=
  if k ≥ K then
    let xk := p.subtree.getD (k - K) 0
    let w1 : Prep := { w with
      x := setAt w.x k xk
      svp := if xk ≠ 0 then false else w.svp
      cpart := fun j => if j < k then p.fl (w.cpart j - p.fl (xk * p.mt j k)) else w.cpart j }
    if p.subtreeReset then w1
    else
      let a : ℚ := p.fl (xk - w.cpart k)
      { w1 with alpha := setAt w.alpha k a, newdist := p.fl (w.newdist + p.fl (p.fl (a * a) * p.rdiag k)) }
  else
    let ctr := forUp (k + 1) K
      (fun j a => p.fl (a - p.fl ((if p.dual then w.alpha j else w.x j) * p.mt k j))) (w.cpart k)
    let a : ℚ := p.fl (roundto ctr - ctr)
    { w with
      x := setAt w.x k (roundto ctr)
      center := setAt w.center k ctr
      partdist := setAt w.partdist k w.newdist
      dx := setAt w.dx k (startDir ctr (roundto ctr))
      alpha := setAt w.alpha k a
      newdist := p.fl (w.newdist + p.fl (p.fl (a * a) * p.rdiag k)) }

/-- `for (k = d - 1; k >= 0 && newdist <= maxdist; --k)`, enumerate.cpp:169-203: the argument is `k + 1`,
the result the work variables and the value of `k` after the `++k` of line 214. -/
def prepLoop (p : Input) (K : ℕ) : ℕ → Prep → Prep × ℕ
  | 0, w => (w, 0)
  | k + 1, w => if w.newdist ≤ p.maxdist then prepLoop p K k (prepBody p K k w) else (w, k + 1)

/-- `center_partsum` at the start of `prepare_enumeration`, enumerate.cpp:79-89 -/
def Input.ctarget (p : Input) : ℕ → ℚ := fun i => p.fl (p.target.getD (fun _ => 0) i)

/-- Work variables at the start of `prepare_enumeration`; the arrays of a new object hold arbitrary
values, here zeros. -/
def prepInit (p : Input) : Prep where
  x := fun _ => 0
  dx := fun _ => 0
  center := fun _ => 0
  partdist := fun _ => 0
  alpha := fun _ => 0
  cpart := p.ctarget
  newdist := 0
  svp := p.target.isNone

/-- `k_end = d - subtree.size()`, enumerate.cpp:168 -/
def Input.K (p : Input) : ℕ := p.d - p.subtree.length

/-- `prepare_enumeration`, enumerate.cpp:162-216 -/
def prepare (p : Input) : Prep × ℕ := prepLoop p p.K p.d (prepInit p)

/-- the constant part of the object during `enumerate_loop` -/
def Input.cfg (p : Input) : Cfg where
  fl := p.fl
  K := p.K
  dual := p.dual
  svp := (prepare p).1.svp
  findsubsols := p.findsubsols
  mt := p.mt
  rdiag := p.rdiag
  cpart := (prepare p).1.cpart
  pruning := p.pruning

/-- the object when `do_enumerate` has called `set_bounds`, enumerate.cpp:205-216, :251-255 -/
def Input.start (p : Input) (e : σ) : St σ where
  x := if (prepare p).1.svp then setAt (prepare p).1.x 0 1 else (prepare p).1.x
  dx := (prepare p).1.dx
  ddx := (prepare p).1.dx
  center := (prepare p).1.center
  partdist := (prepare p).1.partdist
  alpha := (prepare p).1.alpha
  cps := fun _ _ => 0
  cpsBegin := fun _ => 0
  bounds := setBounds p.cfg p.maxdist
  maxdist := p.maxdist
  subsoldists := p.rdiag
  nodes := fun _ => 0
  ev := e
  events := []

/-- `EnumerationDyn::enumerate` in the default build, enumerate.cpp:59-159.  The final reversal of the
dual solutions (lines 152-157) is applied to the evaluator's content by the caller of this model. -/
def enumerate (p : Input) (E : EvalOps σ) (fuel : ℕ) (e : σ) : Option (St σ) :=
  enumerateRec p.cfg E fuel (p.start e) (prepare p).2

/-- `EnumerationDyn::enumerate` in a build with the iterative `enumerate_loop` -/
def enumerateI (p : Input) (E : EvalOps σ) (fuel : ℕ) (e : σ) : Option (St σ) :=
  enumerateIter p.cfg E fuel (p.start e) (prepare p).2

/-! ## The zig-zag of `topenum` -/

/-- `x[k]`, `dx[k]`, `ddx[k]` of an `Enumerator`, topenum.h -/
structure TopLvl where
  x : ℤ
  dx : ℤ
  ddx : ℤ

/-- Initialisation of a level whose centre was rounded to `x0`, topenum.cpp:75-77. -/
def topStart (x0 : ℤ) (ctr : ℚ) : TopLvl where
  x := x0
  dx := 0
  ddx := if ctr ≥ x0 then -1 else 1

/-- Next value of a level below `kmax`, topenum.cpp:93-95. -/
def topStep (t : TopLvl) : TopLvl where
  ddx := -t.ddx
  dx := -t.ddx - t.dx
  x := t.x + (-t.ddx - t.dx)

end Enum
end Fplll

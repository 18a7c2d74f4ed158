import Verif.Model.Enum

/-!
# Model of the parallel enumeration (fplll/enum-parallel)

`lattice_enum_t` of enum-parallel/enumeration.h as instantiated by `enumerate_dim_detail` (enumlib_dim.cpp:47-89): the master
thread enumerates the top `SWIRLY` levels, then the next `SWIRLY` levels in batches, and the items of a batch are walked by
several threads which share the bound `globals.A`.

Simplifications:
* `float_type` (`double`) is modelled by `ℚ` and a rounding function `fl` applied to the result of every operation (one rounding
  per operation, no underflow and no overflow); `int` coordinates are `ℤ`;
* `findsubsols = false`; the node counters are left out; `activeswirly` is false (enumlib_dim.cpp:69), so nothing is sorted and
  the sort key `second.second` of an item (enumeration.h:344-347, :353) is left out;
* the flags `globals.signal` only decide whether a thread that takes an item looks at `globals.A` or goes on with the bound it
  has; both are allowed at any time here;
* the locked section of enumerate_recur<-1> (:286-299) is one step.
-/

namespace Fplll
namespace Par

open Enum (setAt setAt2 roundto startDir EvalOps)

/-- what `callback_set_config` fills in (enumerate_ext.cpp:92-148), and the bound -/
structure Cfg where
  /-- dimension -/
  N : ℕ
  /-- `muT` -/
  mt : ℕ → ℕ → ℚ
  /-- `risq` -/
  rdiag : ℕ → ℚ
  /-- `pr`, and `pr2 = pr` (enumlib_dim.cpp:67) -/
  pr : ℕ → ℚ
  maxdist : ℚ
  /-- rounding of `float_type` (`double`), applied to the result of every operation; the identity is exact arithmetic -/
  fl : ℚ → ℚ := id

/-- `_AA[k] = _AA2[k] = A * pr[k]`, enumeration.h:140-148 -/
def Cfg.bnd (c : Cfg) (A : ℚ) (k : ℕ) : ℚ := c.fl (A * c.pr k)

/-- `SWIRLY`, enumlib_dim.cpp:42 -/
def Cfg.S (c : Cfg) : ℕ := 1 + c.N / 20

/-- `SWIRLY2BUF`, enumlib_dim.cpp:43 -/
def swirly2buf : ℕ := 1 <<< 10

/-- the changing part of a `lattice_enum_t`, enumeration.h:105-114; `_AA[k] = _AA2[k] = Cfg.bnd _A k` is not stored -/
structure Loc where
  A : ℚ
  x : ℕ → ℤ
  dx : ℕ → ℤ
  ddx : ℕ → ℤ
  c : ℕ → ℚ
  l : ℕ → ℚ
  r : ℕ → ℕ
  sig : ℕ → ℕ → ℚ

/-- a computation that reports vectors and gets a new bound for each of them -/
inductive Walk (α : Type)
  | ret (a : α)
  /-- iteration budget of the model exhausted -/
  | stuck
  | offer (x : ℕ → ℤ) (l : ℚ) (k : ℚ → Walk α)

/-- sequential composition -/
def Walk.bind {α β : Type} (m : Walk α) (f : α → Walk β) : Walk β := match m with
  | .ret a => f a
  | .stuck => .stuck
  | .offer x l k => .offer x l fun A => (k A).bind f

/-- `_sigT[i - 1][j - 1] = _sigT[i - 1][j] - _x[j] * muT[i - 1][j]` for `j = b, …, i`; enumeration.h:183-184, :339-340,
:436-437, :482-483 -/
def refreshRow (c : Cfg) (x : ℕ → ℤ) (i b : ℕ) (sig : ℕ → ℕ → ℚ) : ℕ → ℕ → ℚ :=
  forDown i (b + 1) (fun j (sig : ℕ → ℕ → ℚ) => setAt2 sig (i - 1) (j - 1) (c.fl (sig (i - 1) j - c.fl (x j * c.mt (i - 1) j)))) sig

/-- `if (_r[i] > _r[i - 1]) _r[i - 1] = _r[i]`, enumeration.h:157-158, :313-314; absent for `i = 0` -/
def raise (s : Loc) (i : ℕ) : Loc :=
  if 1 ≤ i ∧ s.r i > s.r (i - 1) then { s with r := setAt s.r (i - 1) (s.r i) } else s

/-- `li` of the first value of level `i`, enumeration.h:159-163 -/
def firstL (c : Cfg) (s : Loc) (i : ℕ) : ℚ :=
  c.fl (s.l (i + 1) +
    c.fl (c.fl (c.fl (s.sig i i - roundto (s.sig i i)) * c.fl (s.sig i i - roundto (s.sig i i))) * c.rdiag i))

/-- an accepted first value, enumeration.h:178-184 (for `i = 0`: :244-247, no row below) -/
def enter (c : Cfg) (s : Loc) (i : ℕ) : Loc :=
  let xi := roundto (s.sig i i)
  let x := setAt s.x i xi
  { s with
    dx := setAt s.dx i (startDir (s.sig i i) xi)
    ddx := setAt s.ddx i (startDir (s.sig i i) xi)
    c := setAt s.c i (s.sig i i)
    x := x
    l := setAt s.l i (firstL c s i)
    sig := if i = 0 then s.sig else refreshRow c x i (s.r (i - 1)) s.sig }

/-- next value of level `i`, enumeration.h:194-197, :207-210 -/
def sibling (s : Loc) (i : ℕ) : Loc :=
  { s with
    x := setAt s.x i (if s.l (i + 1) = 0 then s.x i + 1 else s.x i + s.dx i)
    ddx := if s.l (i + 1) = 0 then s.ddx else setAt s.ddx i (-s.ddx i)
    dx := if s.l (i + 1) = 0 then s.dx else setAt s.dx i (-s.ddx i - s.dx i)
    r := if i = 0 then s.r else setAt s.r (i - 1) i }

/-- `li2`, enumeration.h:198-199, :211-212 -/
def nextL (c : Cfg) (s : Loc) (i : ℕ) : ℚ := 
  c.fl (s.l (i + 1) + c.fl (c.fl (c.fl (s.c i - s.x i) * c.fl (s.c i - s.x i)) * c.rdiag i))

/-- an accepted further value, enumeration.h:202-203, :215-216 -/
def accept (c : Cfg) (s : Loc) (i : ℕ) : Loc :=
  { s with
    l := setAt s.l i (nextL c s i)
    sig := if i = 0 then s.sig else setAt2 s.sig (i - 1) (i - 1) (c.fl (s.sig (i - 1) i - c.fl (s.x i * c.mt (i - 1) i))) }

/-- the `while (true)` loop of level `i`, enumeration.h:190-218, :253-277, :342-379 -/
def loop (c : Cfg) (rec : Loc → Walk Loc) (i : ℕ) : ℕ → Loc → Walk Loc
  | 0, _ => .stuck
  | n + 1, s => (rec s).bind fun s1 =>
    let s2 := sibling s1 i
    if nextL c s2 i > c.bnd s2.A i then .ret s2 else loop c rec i n (accept c s2 i)

/-- What happens below the last level: `enumerate_recur<-1>` (`leaf`, enumeration.h:281-300) calls `process_sol` and takes over
the bound it returns (`_thread_local_update`: its own flag was just set); in the levels of the master an item is stored
(:349-353), and the bound stays what it is (`collect` answers so). -/
def emit (c : Cfg) (bot : ℕ) (leaf : Bool) (s : Loc) : Walk Loc :=
  if leaf = true ∧ (s.l 0 > c.bnd s.A 0 ∨ s.l 0 = 0) then .ret s
  else .offer s.x (s.l bot) fun A => .ret { s with A := A }

/-- `enumerate_recur<bot + n - 1>` with everything above `bot` being walked; enumeration.h:154-380 -/
def recur (c : Cfg) (bot : ℕ) (leaf : Bool) (fuel : ℕ) : ℕ → Loc → Walk Loc
  | 0, s => emit c bot leaf s
  | n + 1, s =>
    let s0 := raise s (bot + n)
    if firstL c s0 (bot + n) > c.bnd s0.A (bot + n) then .ret s0
    else loop c (recur c bot leaf fuel n) (bot + n) fuel (enter c s0 (bot + n))

/-- an item of `swirlys`: coordinates and `_l` -/
abbrev Item := (ℕ → ℤ) × ℚ

/-- run a walk of the master: the bound stays the same -/
def collect {α : Type} (A : ℚ) : Walk α → Option (List Item × α)
  | .ret a => some ([], a)
  | .stuck => none
  | .offer x l k => (collect A (k A)).map fun p => ((x, l) :: p.1, p.2)

/-- initial values, enumeration.h:388-406 -/
def init (c : Cfg) : Loc where
  A := c.maxdist
  x := fun _ => 0
  dx := fun _ => 0
  ddx := fun _ => -1
  c := fun _ => 0
  l := fun _ => 0
  r := fun _ => c.N - 1
  sig := fun _ _ => 0

/-- continue with an item whose lowest level is `i`, enumeration.h:431-437, :477-483 -/
def startItem (c : Cfg) (s : Loc) (i : ℕ) (it : Item) : Loc :=
  { s with
    x := it.1
    l := setAt s.l i it.2
    r := fun j => if j < c.N then c.N - 1 else s.r j
    sig := refreshRow c it.1 i (c.N - 1) s.sig }

/-- first stage of the master, enumeration.h:415 -/
def stage0 (c : Cfg) (fuel : ℕ) : Option (List Item × Loc) :=
  collect c.maxdist (recur c (c.N - c.S) false fuel c.S (init c))

/-- second stage for one item, enumeration.h:431-439 -/
def stage1 (c : Cfg) (fuel : ℕ) (s : Loc) (it : Item) : Option (List Item × Loc) :=
  collect c.maxdist (recur c (c.N - 2 * c.S) false fuel c.S (startItem c s (c.N - c.S) it))

/-- fill `swirlys[1]`, enumeration.h:429-442: what is left of `swirlys[0]`, the batch, the state of the master -/
def fill (c : Cfg) (fuel : ℕ) : List Item → List Item → Loc → Option (List Item × List Item × Loc)
  | [], batch, s => some ([], batch, s)
  | it :: rest, batch, s =>
    if batch.length < swirly2buf then
      match stage1 c fuel s it with
      | none => none
      | some (l, s1) => fill c fuel rest (batch ++ l) s1
    else some (it :: rest, batch, s)

/-- the walk of a worker thread for an item, enumeration.h:477-487; `A`: its bound after `_thread_local_update` -/
def work (c : Cfg) (fuel : ℕ) (s : Loc) (A : ℚ) (it : Item) : Walk Loc :=
  recur c 0 true fuel (c.N - 2 * c.S) { startItem c s (c.N - 2 * c.S) it with A := A }

/-- a worker: one execution of the lambda `f`, enumeration.h:462-499 -/
inductive Th
  /-- pushed, not started -/
  | fresh
  /-- at `swirly_i++` -/
  | idle (s : Loc)
  /-- in `enumerate_recur` -/
  | walk (w : Walk Loc)
  | done

/-- everything shared -/
structure Sys (σ : Type) where
  /-- the evaluator, changed by `process_sol` -/
  ev : σ
  /-- `globals.A` (equal to `ExternalEnumeration::_maxdist`) -/
  A : ℚ
  /-- rest of `swirlys[0]` -/
  rest : List Item
  /-- the master's object -/
  loc : Loc
  /-- `swirlys[1]` -/
  batch : List Item
  /-- `swirly_i` -/
  idx : ℕ
  ths : List Th
  /-- ghost: calls of `process_sol` -/
  log : List Item
  /-- ghost: all items that were put into `swirlys[1]` -/
  filled : List Item
  /-- ghost: all items that workers took -/
  taken : List Item

variable {σ : Type}

/-- are all workers done (`wait_work`, see Props/ThreadPool.lean: it returns when all tasks have finished)? -/
def Sys.allDone (s : Sys σ) : Prop := ∀ t ∈ s.ths, t = .done

/-- a step of worker `j` -/
def thStep (c : Cfg) (E : EvalOps σ) (fuel : ℕ) (s : Sys σ) (j : ℕ) (upd : Bool) : Th → Option (Sys σ)
  | .fresh => some { s with ths := s.ths.set j (.idle s.loc) }
  | .idle t =>
    match s.batch[s.idx]? with
    | none => some { s with idx := s.idx + 1, ths := s.ths.set j .done }
    | some it => some { s with
        idx := s.idx + 1
        ths := s.ths.set j (.walk (work c fuel t (if upd then s.A else t.A) it))
        taken := s.taken ++ [it] }
  | .walk (.ret t) => some { s with ths := s.ths.set j (.idle t) }
  | .walk .stuck => none
  | .walk (.offer x l k) =>
    let p := E.evalSol s.ev x l s.A
    some { s with ev := p.1, A := p.2, ths := s.ths.set j (.walk (k p.2)), log := s.log ++ [(x, l)] }
  | .done => none

/-- one step of the system with `T` threads -/
inductive Step (c : Cfg) (E : EvalOps σ) (fuel T : ℕ) : Sys σ → Sys σ → Prop
  | fill {s : Sys σ} {rest batch : List Item} {loc : Loc} (hd : s.allDone) (hr : s.rest ≠ [])
      (hf : fill c fuel s.rest [] s.loc = some (rest, batch, loc)) :
      Step c E fuel T s { s with rest := rest, batch := batch, loc := loc, idx := 0, ths := List.replicate T .fresh, filled := s.filled ++ batch }
  | th {s s' : Sys σ} {t : Th} (j : ℕ) (upd : Bool) (ht : s.ths[j]? = some t) (hs : thStep c E fuel s j upd t = some s') :
      Step c E fuel T s s'

/-- states of the system that some schedule reaches, starting after the first stage of the master -/
inductive Reach (c : Cfg) (E : EvalOps σ) (fuel T : ℕ) (e : σ) : Sys σ → Prop
  | init {items : List Item} {loc : Loc} (h : stage0 c fuel = some (items, loc)) :
      Reach c E fuel T e ⟨e, c.maxdist, items, loc, [], 0, [], [], [], []⟩
  | step {s s' : Sys σ} (h : Reach c E fuel T e s) (hs : Step c E fuel T s s') : Reach c E fuel T e s'

/-- the enumeration is over -/
def Sys.final (s : Sys σ) : Prop := s.rest = [] ∧ s.allDone

end Par
end Fplll

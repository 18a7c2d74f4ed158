import Mathlib.Data.List.Basic
import Mathlib.Data.Int.Notation

/-!
# Model of the thread pool and of the barrier (fplll/io/thread_pool.hpp, fplll/threadpool.cpp)

Interleaving semantics (sequentially consistent): one controlling thread (`main`) calls the member functions, worker
threads run the loop of `_init_thread`; every access to shared data is a step of its own, and so are locking and
unlocking of the mutex.  `_condition.wait` releases the mutex atomically and may return at any time (spurious
wake-up); the woken thread has to lock the mutex again.

Simplifications.  A task is a number: the tasks are numbered in the order in which they are pushed; a task does not
call the pool and does not throw.  Only one thread calls member functions.  While the controlling thread holds the
mutex the writes to all `_threads_stop[i]` (resize, line 293) and the creation of all new threads (lines 310-314) are
one step each.  The ghost fields `next` and `done` record how many tasks were pushed and which have finished.
-/

namespace Fplll
namespace Pool

/-- program counter of a worker, thread_pool.hpp:323-343; comments give the line about to be executed -/
inductive WPc
  /-- :325, or :340 or in `_condition.wait` after a wake-up: needs the mutex -/
  | wantLock
  /-- :327, holds the mutex -/
  | top
  /-- :329, holds the mutex -/
  | checkStop
  /-- :336, holds the mutex, `_threads_busy` was incremented -/
  | incd
  /-- :338, holds the mutex and task `t` -/
  | popped (t : ℕ)
  /-- :339, executes task `t` -/
  | running (t : ℕ)
  /-- :340 `--_threads_busy` -/
  | finished
  /-- in `_condition.wait`, :331 -/
  | waiting
  /-- returned, :330 -/
  | exited
  deriving DecidableEq

/-- a worker and its stop flag `_threads_stop[i]` -/
structure Worker where
  pc : WPc
  stop : Bool
  deriving DecidableEq

/-- owner of `_mutex` -/
inductive Owner
  | free
  | main
  | worker (i : ℕ)
  deriving DecidableEq

/-- what happens after the loop `while (work())` -/
inductive Cont
  /-- a single call of `work()`: no loop at all -/
  | once
  /-- `wait_work()` -/
  | wait
  /-- `wait_work()` inside `resize(n)` -/
  | grow (n : ℕ)
  deriving DecidableEq

/-- program counter of the controlling thread -/
inductive MPc
  /-- outside of all member functions -/
  | ready
  /-- `push`, :216-219: lock, emplace, unlock, notify -/
  | pushLock | pushIn | pushOut | pushNotify
  /-- `work`, :190-197 -/
  | workLock (k : Cont) | workIn (k : Cont) | workPopped (k : Cont) (t : ℕ) | workRun (k : Cont) (t : ℕ)
  /-- `work` returns false, :192 (holds the mutex) -/
  | workNone (k : Cont)
  /-- `while (_threads_busy != 0) yield`, :204 -/
  | spin (k : Cont)
  /-- `wait_sleep`, :210: reads `_tasks.size()`, then `_threads_busy` -/
  | sleepSize | sleepBusy
  /-- `run`, :245-255, `m` tasks left to emplace; `runSelf t`: executes `f` itself -/
  | runLock (m : ℕ) | runIn (m : ℕ) | runNotify | runSelf (t : ℕ)
  /-- `resize` to a smaller number, :288-302 -/
  | shrinkLock (n : ℕ) | shrinkFlag (n : ℕ) | shrinkNotify (n : ℕ) | shrinkUnlock (n : ℕ) | joining (n i : ℕ)
  | shrinkRelock (n : ℕ) | shrinkDrop (n : ℕ) | shrinkEnd
  /-- `resize` to a larger number, :305-314 after `wait_work` -/
  | growLock (n : ℕ) | growIn (n : ℕ) | growEnd
  deriving DecidableEq

/-- the pool, the mutex and all program counters -/
structure State where
  /-- `_tasks` -/
  queue : List ℕ
  /-- `_threads_busy` -/
  busy : ℕ
  mutex : Owner
  /-- `_threads`, `_threads_stop` -/
  ws : List Worker
  main : MPc
  /-- ghost: number of tasks pushed so far -/
  next : ℕ
  /-- ghost: finished tasks -/
  done : List ℕ
  deriving DecidableEq

/-- a new pool without threads; `thread_pool(n)` calls `resize(n)` next (:174-178) -/
def init : State := ⟨[], 0, .free, [], .ready, 0, []⟩

/-- calls made by the controlling thread -/
inductive Call
  | push
  | work
  | waitWork
  | waitSleep
  | run (threads : ℤ)
  | resize (n : ℕ)

/-- one step of the system -/
inductive Act
  /-- the controlling thread calls a member function -/
  | call (c : Call)
  /-- the controlling thread goes on; `w`: which waiting worker a `notify_one` wakes -/
  | main (w : ℕ)
  /-- worker `i` goes on -/
  | worker (i : ℕ)
  /-- spurious wake-up of worker `i` -/
  | spurious (i : ℕ)

/-- number of threads used by `run`, :245-246 -/
def runThreads (size : ℕ) (threads : ℤ) : ℕ :=
  if threads < 1 ∨ threads > (size : ℤ) + 1 then size + 1 else threads.toNat

/-- start of a call -/
def callStep (s : State) : Call → Option State
  | .push => some { s with main := .pushLock }
  | .work => some { s with main := .workLock .once }
  | .waitWork => some { s with main := .workLock .wait }
  | .waitSleep => some { s with main := .sleepSize }
  | .run th => some { s with main := .runLock (runThreads s.ws.length th - 1) }
  | .resize n =>
    if n < s.ws.length then some { s with main := .shrinkLock n }
    else if s.ws.length < n then some { s with main := .workLock (.grow n) }
    else some s

/-- a waiting worker becomes a worker that needs the mutex -/
def wake (w : Worker) : Worker := if w.pc = .waiting then { w with pc := .wantLock } else w

/-- `notify_one`: wakes worker `w`, which has to be a waiting one if there is one -/
def notifyOne (w : ℕ) (l : List Worker) : Option (List Worker) :=
  if l.any (fun x => x.pc = .waiting) then
    match l[w]? with
    | some x => if x.pc = .waiting then some (l.set w (wake x)) else none
    | none => none
  else some l

/-- `notify_all` -/
def notifyAll (l : List Worker) : List Worker := l.map wake

/-- after the loop of `work` found no task -/
def afterNone (k : Cont) : MPc := match k with
  | .once => .ready
  | .wait => .spin .wait
  | .grow n => .spin (.grow n)

/-- after `work` ran a task -/
def afterRun (k : Cont) : MPc := match k with
  | .once => .ready
  | k => .workLock k

/-- `wait_work` returned -/
def afterSpin (k : Cont) : MPc := match k with
  | .grow n => .growLock n
  | _ => .ready

/-- lock of the mutex by the controlling thread -/
def lockMain (s : State) (pc : MPc) : Option State :=
  if s.mutex = .free then some { s with mutex := .main, main := pc } else none

/-- a step of the controlling thread inside of a member function -/
def mainStep (s : State) (w : ℕ) : Option State :=
  match s.main with
  | .ready => none
  | .pushLock => lockMain s .pushIn
  | .pushIn => some { s with queue := s.queue ++ [s.next], next := s.next + 1, main := .pushOut }
  | .pushOut => some { s with mutex := .free, main := .pushNotify }
  | .pushNotify => (notifyOne w s.ws).map fun l => { s with ws := l, main := .ready }
  | .workLock k => lockMain s (.workIn k)
  | .workIn k =>
    match s.queue with
    | [] => some { s with main := .workNone k }
    | t :: q => some { s with queue := q, main := .workPopped k t }
  | .workPopped k t => some { s with mutex := .free, main := .workRun k t }
  | .workRun k t => some { s with done := s.done ++ [t], main := afterRun k }
  | .workNone k => some { s with mutex := .free, main := afterNone k }
  | .spin k => if s.busy ≠ 0 then some s else some { s with main := afterSpin k }
  | .sleepSize => if s.queue.length ≠ 0 then some s else some { s with main := .sleepBusy }
  | .sleepBusy => if s.busy ≠ 0 then some { s with main := .sleepSize } else some { s with main := .ready }
  | .runLock m => lockMain s (.runIn m)
  | .runIn (m + 1) => some { s with queue := s.queue ++ [s.next], next := s.next + 1, main := .runIn m }
  | .runIn 0 => some { s with mutex := .free, main := .runNotify }
  | .runNotify => some { s with ws := notifyAll s.ws, next := s.next + 1, main := .runSelf s.next }
  | .runSelf t => some { s with done := s.done ++ [t], main := .sleepSize }
  | .shrinkLock n => lockMain s (.shrinkFlag n)
  | .shrinkFlag n => some { s with ws := s.ws.mapIdx fun i x => if n ≤ i then { x with stop := true } else x
                                   main := .shrinkNotify n }
  | .shrinkNotify n => some { s with ws := notifyAll s.ws, main := .shrinkUnlock n }
  | .shrinkUnlock n => some { s with mutex := .free, main := .joining n n }
  | .joining n i =>
    match s.ws[i]? with
    | some x => if x.pc = .exited then some { s with main := .joining n (i + 1) } else none
    | none => some { s with main := .shrinkRelock n }
  | .shrinkRelock n => lockMain s (.shrinkDrop n)
  | .shrinkDrop n => some { s with ws := s.ws.take n, main := .shrinkEnd }
  | .shrinkEnd => some { s with mutex := .free, main := .ready }
  | .growLock n => lockMain s (.growIn n)
  | .growIn n => some { s with ws := s.ws ++ List.replicate (n - s.ws.length) ⟨.wantLock, false⟩, main := .growEnd }
  | .growEnd => some { s with mutex := .free, main := .ready }

/-- a step of worker `i` with state `x`.  Popping from an empty queue would be undefined behaviour; it is `none` here and
shown not to happen. -/
def workerStep (s : State) (i : ℕ) (x : Worker) : Option State :=
  let mv (pc : WPc) : List Worker := s.ws.set i { x with pc := pc }
  match x.pc with
  | .wantLock => if s.mutex = .free then some { s with mutex := .worker i, ws := mv .top } else none
  | .top =>
    if s.queue = [] then some { s with ws := mv .checkStop }
    else some { s with busy := s.busy + 1, ws := mv .incd }
  | .checkStop => if x.stop then some { s with mutex := .free, ws := mv .exited }
                  else some { s with mutex := .free, ws := mv .waiting }
  | .incd =>
    match s.queue with
    | [] => none
    | t :: q => some { s with queue := q, ws := mv (.popped t) }
  | .popped t => some { s with mutex := .free, ws := mv (.running t) }
  | .running t => some { s with done := s.done ++ [t], ws := mv .finished }
  | .finished => some { s with busy := s.busy - 1, ws := mv .wantLock }
  | .waiting => none
  | .exited => none

/-- one step; `none`: not possible -/
def step (s : State) : Act → Option State
  | .call c => if s.main = .ready then callStep s c else none
  | .main w => mainStep s w
  | .worker i =>
    match s.ws[i]? with
    | some x => workerStep s i x
    | none => none
  | .spurious i =>
    match s.ws[i]? with
    | some x => if x.pc = .waiting then some { s with ws := s.ws.set i (wake x) } else none
    | none => none

/-- states that some schedule reaches -/
inductive Reach : State → Prop
  | init : Reach init
  | step {s s' : State} (a : Act) : Reach s → step s a = some s' → Reach s'

/-- `set_threads(th)`, threadpool.cpp:25-33: size of the pool it asks for (an `int` given to `resize(std::size_t)`, so it must
not be negative) and its result; `hw` is `hardware_concurrency()` -/
def setThreads (hw : ℕ) (th : ℤ) : ℤ × ℤ :=
  let th1 : ℤ := if th > hw ∨ th = -1 then hw else th
  let th2 : ℤ := if th1 < 1 then 1 else th1
  (th2 - 1, th2 - 1 + 1)

end Pool

namespace Barrier

/-- a thread using the barrier: `wait()` of thread_pool.hpp:361-375 -/
inductive Pc
  /-- outside of `wait` -/
  | out
  /-- at :363, called `wait` but does not hold the mutex yet -/
  | called
  /-- in `_condition.wait(lock)`, :373 -/
  | inWait
  /-- at :368, has unlocked the mutex, about to notify -/
  | notify
  /-- woken up in `_condition.wait`, or after `notify_all`: about to return -/
  | woken
  deriving DecidableEq

/-- the barrier and its users.  From locking to unlocking or waiting (:363-367, :363-373) is one step: the mutex is held
during all of it. -/
structure State where
  /-- `_i` -/
  i : ℕ
  /-- `_count` -/
  count : ℕ
  pc : ℕ → Pc
  /-- ghost: calls and returns of each thread -/
  calls : ℕ → ℕ
  rets : ℕ → ℕ

/-- `barrier(count)`, nobody waits -/
def init (count : ℕ) : State := ⟨0, count, fun _ => .out, fun _ => 0, fun _ => 0⟩

/-- steps: thread `j` goes on, or wakes up spuriously -/
inductive Act
  | go (j : ℕ)
  | spurious (j : ℕ)

/-- change one entry -/
def upd {α : Type} (f : ℕ → α) (j : ℕ) (x : α) : ℕ → α := fun k => if k = j then x else f k

/-- one step for threads `0, …, n-1` -/
def step (n : ℕ) (s : State) : Act → Option State
  | .go j =>
    if j < n then
      match s.pc j with
      | .out => some { s with pc := upd s.pc j .called, calls := upd s.calls j (s.calls j + 1) }
      | .called =>
        if s.count ≤ s.i + 1 then some { s with i := 0, pc := upd s.pc j .notify }
        else some { s with i := s.i + 1, pc := upd s.pc j .inWait }
      | .notify =>
        some { s with pc := upd (fun k => if s.pc k = .inWait then .woken else s.pc k) j .woken }
      | .woken => some { s with pc := upd s.pc j .out, rets := upd s.rets j (s.rets j + 1) }
      | .inWait => none
    else none
  | .spurious j =>
    if j < n then if s.pc j = .inWait then some { s with pc := upd s.pc j .woken } else none else none

/-- run a schedule -/
def run (n : ℕ) : State → List Act → Option State
  | s, [] => some s
  | s, a :: l => (step n s a).bind fun s => run n s l

end Barrier
end Fplll

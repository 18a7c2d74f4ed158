import Verif.Proofs.ThreadPool
import Mathlib.Data.Finset.Card
import Mathlib.Data.Finset.Range
import Mathlib.Algebra.BigOperators.Group.Finset.Basic

/-!
# C31 (`wait_work`), C32 (every task exactly once), C33 (barrier)
-/

namespace Fplll
namespace Pool

/-- a worker has taken task `t` and not finished it -/
def WorkerHas (s : State) (t : ℕ) : Prop :=
  ∃ x ∈ s.ws, x.pc = .popped t ∨ x.pc = .running t

/-- the controlling thread has taken task `t` and not finished it -/
def MainHas (s : State) (t : ℕ) : Prop :=
  (∃ k, s.main = .workPopped k t ∨ s.main = .workRun k t) ∨ s.main = .runSelf t

theorem workerHas_iff (s : State) (t : ℕ) :
    WorkerHas s t ↔ 0 < s.ws.countP (fun x => decide (x.pc.task = some t)) := by
  rw [List.countP_pos_iff]
  unfold WorkerHas
  constructor
  · rintro ⟨x, hx, h | h⟩ <;> exact ⟨x, hx, by rw [h]; simp [WPc.task]⟩
  · rintro ⟨x, hx, h⟩
    refine ⟨x, hx, ?_⟩
    cases hp : x.pc <;> simp_all [WPc.task]

theorem mainHas_iff (s : State) (t : ℕ) : MainHas s t ↔ s.main.task = some t := by
  unfold MainHas
  cases s.main <;> simp [MPc.task]

/-- nobody holds a task and the queue is empty: everything pushed has finished -/
theorem all_done {s : State} (h : Inv s) (hq : s.queue = []) (hw : ∀ t, s.ws.countP (fun x => decide (x.pc.task = some t)) = 0)
    (hm : s.main.task = none) : ∀ t < s.next, s.done.count t = 1 := by
  intro t ht
  have := h.acct t
  rw [hq, hw t, hm, if_pos ht] at this
  simpa using this

theorem no_task_of_busy {s : State} (h : Inv s) (hb : s.busy = 0) (t : ℕ) :
    s.ws.countP (fun x => decide (x.pc.task = some t)) = 0 := by
  rw [h.busy, List.countP_eq_zero] at hb
  rw [List.countP_eq_zero]
  intro x hx
  have := hb x hx
  cases hp : x.pc <;> simp_all [WPc.task, WPc.isBusy]

/-- **C31.**  When `wait_work` returns (the step that leaves the loop on `_threads_busy`), every task pushed so far has been
executed exactly once; nothing is queued or being executed. -/
theorem C31_wait_work {s s' : State} (h : Reach s) {k : Cont} {w : ℕ} (hm : s.main = .spin k)
    (hs : step s (.main w) = some s') (hr : s'.main ≠ .spin k) :
    s'.queue = [] ∧ (∀ t < s'.next, s'.done.count t = 1) ∧ (∀ t, ¬ WorkerHas s' t) ∧ ∀ t, ¬ MainHas s' t := by
  have hi := inv_reach h
  have hq := hi.emp (by rw [hm]; rfl)
  change mainStep s w = some s' at hs
  unfold mainStep at hs
  rw [hm] at hs
  dsimp only at hs
  split_ifs at hs with hb
  · obtain rfl := Option.some.inj hs
    exact absurd hm hr
  · obtain rfl := Option.some.inj hs
    push Not at hb
    have hw := no_task_of_busy hi hb
    have hall := all_done hi hq hw (by rw [hm]; rfl)
    refine ⟨hq, hall, fun t ht => ?_, fun t ht => ?_⟩
    · have := (workerHas_iff s t).1 ht
      rw [hw t] at this; omega
    · rw [mainHas_iff] at ht
      dsimp only at ht
      cases k <;> cases ht

/-- **C31.**  The same for `wait_sleep` (and with it `run`). -/
theorem C31_wait_sleep {s s' : State} (h : Reach s) {w : ℕ} (hm : s.main = .sleepBusy)
    (hs : step s (.main w) = some s') (hr : s'.main = .ready) :
    s'.queue = [] ∧ (∀ t < s'.next, s'.done.count t = 1) ∧ ∀ t, ¬ WorkerHas s' t := by
  have hi := inv_reach h
  have hq := hi.emp (by rw [hm]; rfl)
  change mainStep s w = some s' at hs
  unfold mainStep at hs
  rw [hm] at hs
  dsimp only at hs
  split_ifs at hs with hb
  · obtain rfl := Option.some.inj hs
    cases hr
  · obtain rfl := Option.some.inj hs
    push Not at hb
    have hw := no_task_of_busy hi hb
    have hall := all_done hi hq hw (by rw [hm]; rfl)
    refine ⟨hq, hall, fun t ht => ?_⟩
    have := (workerHas_iff s t).1 ht
    rw [hw t] at this; omega

/-- **C32.**  In every reachable state every pushed task is in exactly one place - queued once, taken by exactly one
thread, or finished once - and nothing else is executed; so no task runs twice or gets lost while the
pool exists. -/
theorem C32_exactly_once {s : State} (h : Reach s) (t : ℕ) :
    s.done.count t ≤ 1 ∧ (t ∈ s.done → t < s.next) ∧
    (t < s.next → t ∉ s.done → t ∈ s.queue ∨ WorkerHas s t ∨ MainHas s t) ∧
    (t ∈ s.queue → s.queue.count t = 1 ∧ ¬ WorkerHas s t ∧ ¬ MainHas s t ∧ t ∉ s.done) ∧
    (WorkerHas s t → (∃! i : ℕ, ∃ x : Worker, s.ws[i]? = some x ∧ (x.pc = .popped t ∨ x.pc = .running t)) ∧ ¬ MainHas s t ∧ t ∉ s.done) ∧
    (MainHas s t → t ∉ s.done) := by
  have hi := (inv_reach h).acct t
  rw [workerHas_iff, mainHas_iff]
  have c1 : t ∈ s.done ↔ 0 < s.done.count t := List.count_pos_iff.symm
  have c2 : t ∈ s.queue ↔ 0 < s.queue.count t := List.count_pos_iff.symm
  rw [c1, c2]
  refine ⟨?_, ?_, ?_, ?_, ?_, ?_⟩
  · split_ifs at hi <;> omega
  · intro hd
    by_contra hn
    rw [if_neg hn] at hi; omega
  · intro hn hd
    rw [if_pos hn] at hi
    by_cases hm : s.main.task = some t
    · exact .inr (.inr hm)
    · rw [if_neg hm] at hi
      by_cases hq : 0 < s.queue.count t
      · exact .inl hq
      · exact .inr (.inl (by omega))
  · intro hq
    have hm : ¬ s.main.task = some t := by
      intro hm; rw [if_pos hm] at hi; split_ifs at hi <;> omega
    rw [if_neg hm] at hi
    refine ⟨?_, ?_, hm, ?_⟩ <;> split_ifs at hi <;> omega
  · intro hw
    have hm : ¬ s.main.task = some t := by
      intro hm; rw [if_pos hm] at hi; split_ifs at hi <;> omega
    rw [if_neg hm] at hi
    refine ⟨?_, hm, by split_ifs at hi <;> omega⟩
    have hone : s.ws.countP (fun x => decide (x.pc.task = some t)) = 1 := by split_ifs at hi <;> omega
    have key : ∀ (l : List Worker), l.countP (fun x => decide (x.pc.task = some t)) = 1 →
        ∃! i : ℕ, ∃ x : Worker, l[i]? = some x ∧ (x.pc = .popped t ∨ x.pc = .running t) := by
      have hiff : ∀ x : Worker, (x.pc = .popped t ∨ x.pc = .running t) ↔ x.pc.task = some t := by
        intro x
        cases hp : x.pc <;> simp [WPc.task]
      intro l
      induction l with
      | nil => intro h; simp at h
      | cons a l ih =>
        intro h
        rw [List.countP_cons] at h
        by_cases ha : a.pc.task = some t
        · refine ⟨0, ⟨a, rfl, (hiff a).2 ha⟩, ?_⟩
          rintro j ⟨x, hx, hp⟩
          cases j with
          | zero => rfl
          | succ j =>
            exfalso
            have h0 : l.countP (fun x => decide (x.pc.task = some t)) = 0 := by simpa [ha] using h
            rw [List.countP_eq_zero] at h0
            have := h0 x (List.mem_of_getElem? (by simpa using hx))
            exact this (by simpa using (hiff x).1 hp)
        · have h1 : l.countP (fun x => decide (x.pc.task = some t)) = 1 := by simpa [ha] using h
          obtain ⟨j, ⟨x, hx, hp⟩, hu⟩ := ih h1
          refine ⟨j + 1, ⟨x, by simpa using hx, hp⟩, ?_⟩
          rintro j' ⟨y, hy, hpy⟩
          cases j' with
          | zero =>
            obtain rfl := Option.some.inj hy
            exact absurd ((hiff _).1 hpy) ha
          | succ j' => rw [hu j' ⟨y, by simpa using hy, hpy⟩]
    exact key _ hone
  · intro hm
    rw [if_pos hm] at hi
    split_ifs at hi <;> omega

/-- **C32.**  A finished task stays finished, and the log of executions only grows: nothing is executed behind it. -/
theorem C32_log_grows {s s' : State} (a : Act) (hs : step s a = some s') : s.done <+: s'.done ∧ s.next ≤ s'.next := by
  cases a with
  | call c =>
    unfold step at hs
    dsimp only at hs
    split_ifs at hs
    cases c <;> unfold callStep at hs <;> dsimp only at hs <;> (try split_ifs at hs) <;>
      (obtain rfl := Option.some.inj hs; exact ⟨List.prefix_rfl, le_rfl⟩)
  | main w =>
    change mainStep s w = some s' at hs
    unfold mainStep lockMain at hs
    split at hs <;> (try split at hs) <;> (try split_ifs at hs) <;> (try cases hs) <;>
      (try (exact ⟨List.prefix_rfl, le_rfl⟩)) <;> (try (exact ⟨List.prefix_append _ _, le_rfl⟩)) <;>
      (try (exact ⟨List.prefix_rfl, Nat.le_succ _⟩))
    · cases hn : notifyOne w s.ws with
      | none => rw [hn] at hs; cases hs
      | some l => rw [hn] at hs; obtain rfl := Option.some.inj hs; exact ⟨List.prefix_rfl, le_rfl⟩
  | worker i =>
    unfold step at hs
    dsimp only at hs
    split at hs
    · unfold workerStep at hs
      dsimp only at hs
      split at hs <;> (try split_ifs at hs) <;> (try split at hs) <;> (try cases hs) <;>
        (try (exact ⟨List.prefix_rfl, le_rfl⟩)) <;> (try (exact ⟨List.prefix_append _ _, le_rfl⟩))
    · cases hs
  | spurious i =>
    unfold step at hs
    dsimp only at hs
    split at hs
    · split_ifs at hs
      obtain rfl := Option.some.inj hs
      exact ⟨List.prefix_rfl, le_rfl⟩
    · cases hs

/-- **C32.**  A worker never pops from an empty queue (which would be undefined behaviour). -/
theorem C32_no_empty_pop {s : State} (h : Reach s) {x : Worker} (hx : x ∈ s.ws) (hp : x.pc = .incd) : s.queue ≠ [] := by
  obtain ⟨i, hi⟩ := List.getElem?_of_mem hx
  exact (inv_reach h).inc i x hi hp

/-- **C32.**  Shrinking the pool: when the threads are dropped (thread_pool.hpp:301-302) the queue is empty and the dropped
threads have left their loops; when the pool is stopped (`n = 0`, destructor) every task pushed has been executed exactly
once. -/
theorem C32_shrink {s : State} (h : Reach s) {n : ℕ} (hm : s.main = .shrinkDrop n) :
    n < s.ws.length ∧ s.queue = [] ∧ (∀ (i : ℕ) (x : Worker), s.ws[i]? = some x → n ≤ i → x.pc = .exited) ∧
    (n = 0 → ∀ t < s.next, s.done.count t = 1) := by
  have hi := inv_reach h
  have htg := hi.tgt n (by rw [hm]; rfl)
  obtain ⟨-, -, j3⟩ := hi.jnd n s.ws.length (by rw [hm]; rfl)
  have hx : s.ws[n]? = some s.ws[n] := List.getElem?_eq_getElem htg
  have hq := (hi.ext n _ hx (j3 n _ hx le_rfl htg)).2
  have hall : ∀ (i : ℕ) (x : Worker), s.ws[i]? = some x → n ≤ i → x.pc = .exited :=
    fun i x hx hn => j3 i x hx hn (List.getElem?_eq_some_iff.1 hx).1
  refine ⟨htg, hq, hall, ?_⟩
  rintro rfl
  refine all_done hi hq (fun t => ?_) (by rw [hm]; rfl)
  rw [List.countP_eq_zero]
  intro x hx
  obtain ⟨i, hi'⟩ := List.getElem?_of_mem hx
  rw [hall i x hi' (Nat.zero_le _)]
  simp [WPc.task]

/-! ### Progress -/

/-- weight of a worker -/
def wWeight (x : Worker) : ℕ := match x.pc with
  | .waiting => 0 | .exited => 0 | .incd => 1 | .checkStop => 1 | .top => 2 | .wantLock => 3
  | .finished => 4 | .running _ => 5 | .popped _ => 6

/-- weight of what follows `wait_work` -/
def contWeight : Cont → ℕ
  | .once => 1 | .wait => 1 | .grow n => 3 * n + 10

/-- weight of the controlling thread, `L` workers -/
def mWeight (L : ℕ) : MPc → ℕ
  | .ready => 0
  | .pushNotify => 4 | .pushOut => 5 | .pushIn => 16 | .pushLock => 17
  | .spin k => contWeight k | .workNone k => contWeight k + 1 | .workIn k => contWeight k + 2
  | .workLock k => contWeight k + 3 | .workRun k _ => contWeight k + 4 | .workPopped k _ => contWeight k + 5
  | .sleepSize => 2 | .sleepBusy => 2
  | .runSelf _ => 3 | .runNotify => 3 * L + 4 | .runIn m => 3 * L + 5 + 11 * m | .runLock m => 3 * L + 6 + 11 * m
  | .shrinkEnd => 1 | .shrinkDrop _ => 2 | .shrinkRelock _ => 3 | .joining _ i => 4 + (L - i)
  | .shrinkUnlock _ => 5 + L | .shrinkNotify _ => 6 + 4 * L | .shrinkFlag _ => 7 + 4 * L | .shrinkLock _ => 8 + 4 * L
  | .growLock n => 3 * n + 5 | .growIn n => 3 * n + 4 | .growEnd => 2

/-- work left to do -/
def weight (s : State) : ℕ := 10 * s.queue.length + (s.ws.map wWeight).sum + mWeight s.ws.length s.main

/-- the controlling thread is about to look once more at a counter in a waiting loop, without result -/
def Polls (s : State) : Prop :=
  s.main = .sleepSize ∨ ((s.main = .sleepBusy ∨ ∃ k, s.main = .spin k) ∧ s.busy ≠ 0)

/-- a step that is neither a new call, nor a spurious wake-up, nor one more round of a waiting loop -/
def Productive (s : State) : Act → Prop
  | .call _ => False
  | .main _ => ¬ Polls s
  | .worker _ => True
  | .spurious _ => False

theorem sum_set (l : List Worker) (i : ℕ) (x y : Worker) (h : l[i]? = some x) :
    ((l.set i y).map wWeight).sum + wWeight x = (l.map wWeight).sum + wWeight y := by
  induction l generalizing i with
  | nil => simp at h
  | cons a l ih =>
    cases i with
    | zero =>
      simp only [List.getElem?_cons_zero, Option.some.injEq] at h
      subst h
      simp; omega
    | succ i =>
      simp only [List.getElem?_cons_succ] at h
      have := ih i h
      simp only [List.set_cons_succ, List.map_cons, List.sum_cons]; omega

theorem sum_notifyAll (l : List Worker) : ((notifyAll l).map wWeight).sum ≤ (l.map wWeight).sum + 3 * l.length := by
  unfold notifyAll
  induction l with
  | nil => simp
  | cons a l ih =>
    have : wWeight (wake a) ≤ wWeight a + 3 := by
      unfold wake; split_ifs with h
      · simp [wWeight]
      · omega
    simp only [List.map_cons, List.sum_cons, List.length_cons] at ih ⊢
    omega

theorem sum_notifyOne {w : ℕ} {l l' : List Worker} (h : notifyOne w l = some l') :
    (l'.map wWeight).sum ≤ (l.map wWeight).sum + 3 := by
  unfold notifyOne at h
  split_ifs at h with hany
  · split at h
    · rename_i x hx
      split_ifs at h with hp
      obtain rfl := Option.some.inj h
      have := sum_set l w x (wake x) hx
      have h2 : wWeight (wake x) = 3 := by unfold wake; rw [if_pos hp]; rfl
      omega
    · cases h
  · obtain rfl := Option.some.inj h; omega

theorem sum_take (l : List Worker) (n : ℕ) : ((l.take n).map wWeight).sum ≤ (l.map wWeight).sum := by
  conv_rhs => rw [← List.take_append_drop n l, List.map_append, List.sum_append]
  omega

theorem sum_flag (l : List Worker) (n k : ℕ) :
    ((l.mapIdx fun i x => if n ≤ i + k then ({ x with stop := true } : Worker) else x).map wWeight).sum = (l.map wWeight).sum := by
  induction l generalizing k with
  | nil => simp
  | cons a l ih =>
    have := ih (k + 1)
    rw [List.mapIdx_cons]
    simp only [List.map_cons, List.sum_cons]
    have h1 : wWeight (if n ≤ 0 + k then ({ a with stop := true } : Worker) else a) = wWeight a := by
      split_ifs <;> rfl
    rw [h1]
    simp only [show ∀ i, i + 1 + k = i + (k + 1) from fun i => by omega]
    rw [this]

/-- **C31/C32, progress.**  Every productive step uses up work: from a given state at most `weight s` of them are possible
without a new call (a spurious wake-up adds at most 3). -/
theorem C31_productive_decreases {s s' : State} (h : Reach s) (a : Act) (hs : step s a = some s') (hp : Productive s a) :
    weight s' < weight s := by
  have hi := inv_reach h
  cases a with
  | call c => exact hp.elim
  | spurious i => exact hp.elim
  | worker i =>
    unfold step at hs
    dsimp only at hs
    split at hs
    · rename_i x hx
      obtain ⟨pc, stop⟩ := x
      have hsum := fun p => sum_set s.ws i ⟨pc, stop⟩ ⟨p, stop⟩ hx
      unfold workerStep at hs
      unfold weight
      cases pc with
      | wantLock =>
        dsimp only at hs
        split_ifs at hs
        obtain rfl := Option.some.inj hs
        have := hsum .top
        simp only [wWeight, List.length_set] at this ⊢
        omega
      | top =>
        dsimp only at hs
        split_ifs at hs
        · obtain rfl := Option.some.inj hs
          have := hsum .checkStop
          simp only [wWeight, List.length_set] at this ⊢
          omega
        · obtain rfl := Option.some.inj hs
          have := hsum .incd
          simp only [wWeight, List.length_set] at this ⊢
          omega
      | checkStop =>
        dsimp only at hs
        split_ifs at hs
        · obtain rfl := Option.some.inj hs
          have := hsum .exited
          simp only [wWeight, List.length_set] at this ⊢
          omega
        · obtain rfl := Option.some.inj hs
          have := hsum .waiting
          simp only [wWeight, List.length_set] at this ⊢
          omega
      | incd =>
        dsimp only at hs
        cases hq : s.queue with
        | nil => rw [hq] at hs; cases hs
        | cons t q =>
          rw [hq] at hs
          obtain rfl := Option.some.inj hs
          have := hsum (.popped t)
          simp only [wWeight, List.length_set, List.length_cons] at this ⊢
          omega
      | popped t =>
        obtain rfl := Option.some.inj hs
        have := hsum (.running t)
        simp only [wWeight, List.length_set] at this ⊢
        omega
      | running t =>
        obtain rfl := Option.some.inj hs
        have := hsum .finished
        simp only [wWeight, List.length_set] at this ⊢
        omega
      | finished =>
        obtain rfl := Option.some.inj hs
        have := hsum .wantLock
        simp only [wWeight, List.length_set] at this ⊢
        omega
      | waiting => cases hs
      | exited => cases hs
    · cases hs
  | main w =>
    have hnp : ¬ Polls s := hp
    unfold Polls at hnp
    push Not at hnp
    obtain ⟨np1, np2⟩ := hnp
    change mainStep s w = some s' at hs
    unfold mainStep at hs
    have hlock : ∀ {p : MPc}, lockMain s p = some s' → mWeight s.ws.length p < mWeight s.ws.length s.main →
        weight s' < weight s := by
      intro p hl hw
      unfold lockMain at hl
      split_ifs at hl
      obtain rfl := Option.some.inj hl
      unfold weight
      dsimp only
      omega
    cases hm : s.main with
    | ready => rw [hm] at hs; cases hs
    | pushNotify =>
      rw [hm] at hs
      cases hn : notifyOne w s.ws with
      | none => rw [hn] at hs; cases hs
      | some l =>
        rw [hn] at hs
        obtain rfl := Option.some.inj hs
        have := sum_notifyOne hn
        unfold weight
        rw [hm]
        simp only [mWeight]
        omega
    | workIn k =>
      rw [hm] at hs
      dsimp only at hs
      cases hq : s.queue with
      | nil =>
        rw [hq] at hs
        obtain rfl := Option.some.inj hs
        unfold weight
        rw [hm, hq]
        simp only [mWeight]
        omega
      | cons t q =>
        rw [hq] at hs
        obtain rfl := Option.some.inj hs
        unfold weight
        rw [hm, hq]
        simp only [mWeight, List.length_cons]
        omega
    | workRun k t =>
      rw [hm] at hs
      obtain rfl := Option.some.inj hs
      unfold weight
      rw [hm]
      cases k <;> simp only [mWeight, afterRun, contWeight] <;> omega
    | workNone k =>
      rw [hm] at hs
      obtain rfl := Option.some.inj hs
      unfold weight
      rw [hm]
      cases k <;> simp only [mWeight, afterNone, contWeight] <;> omega
    | spin k =>
      rw [hm] at hs
      dsimp only at hs
      have hb : s.busy = 0 := np2 (.inr ⟨k, hm⟩)
      rw [if_neg (by omega)] at hs
      obtain rfl := Option.some.inj hs
      unfold weight
      rw [hm]
      cases k <;> simp only [mWeight, afterSpin, contWeight] <;> omega
    | sleepSize => exact absurd hm np1
    | sleepBusy =>
      rw [hm] at hs
      dsimp only at hs
      have hb : s.busy = 0 := np2 (.inl hm)
      rw [if_neg (by omega)] at hs
      obtain rfl := Option.some.inj hs
      unfold weight
      rw [hm]
      simp only [mWeight]
      omega
    | runIn m =>
      rw [hm] at hs
      cases m with
      | zero =>
        obtain rfl := Option.some.inj hs
        unfold weight
        rw [hm]
        simp only [mWeight]
        omega
      | succ m =>
        obtain rfl := Option.some.inj hs
        unfold weight
        rw [hm]
        simp only [mWeight, List.length_append, List.length_singleton]
        omega
    | runNotify =>
      rw [hm] at hs
      obtain rfl := Option.some.inj hs
      have := sum_notifyAll s.ws
      unfold weight
      rw [hm]
      simp only [mWeight]
      omega
    | shrinkFlag n =>
      rw [hm] at hs
      obtain rfl := Option.some.inj hs
      have := sum_flag s.ws n 0
      simp only [add_zero] at this
      unfold weight
      rw [hm]
      dsimp only
      rw [this]
      simp only [mWeight, List.length_mapIdx]
      omega
    | shrinkNotify n =>
      rw [hm] at hs
      obtain rfl := Option.some.inj hs
      have := sum_notifyAll s.ws
      unfold weight
      rw [hm]
      simp only [mWeight, (notifyAll_spec s.ws).1]
      omega
    | joining n i =>
      rw [hm] at hs
      dsimp only at hs
      split at hs
      · rename_i x hx
        split_ifs at hs
        obtain rfl := Option.some.inj hs
        have : i < s.ws.length := (List.getElem?_eq_some_iff.1 hx).1
        unfold weight
        rw [hm]
        simp only [mWeight]
        omega
      · obtain rfl := Option.some.inj hs
        unfold weight
        rw [hm]
        simp only [mWeight]
        omega
    | shrinkDrop n =>
      rw [hm] at hs
      obtain rfl := Option.some.inj hs
      have := sum_take s.ws n
      unfold weight
      rw [hm]
      simp only [mWeight]
      omega
    | growIn n =>
      rw [hm] at hs
      obtain rfl := Option.some.inj hs
      unfold weight
      rw [hm]
      simp only [mWeight, List.map_append, List.sum_append, List.map_replicate, List.sum_replicate, wWeight, nsmul_eq_mul, Nat.cast_id]
      omega
    | pushLock => rw [hm] at hs; exact hlock hs (by rw [hm]; simp [mWeight])
    | workLock k => rw [hm] at hs; exact hlock hs (by rw [hm]; simp [mWeight])
    | runLock m => rw [hm] at hs; exact hlock hs (by rw [hm]; simp [mWeight])
    | shrinkLock n => rw [hm] at hs; exact hlock hs (by rw [hm]; simp [mWeight])
    | shrinkRelock n => rw [hm] at hs; exact hlock hs (by rw [hm]; simp [mWeight])
    | growLock n => rw [hm] at hs; exact hlock hs (by rw [hm]; simp [mWeight])
    | _ =>
      rw [hm] at hs
      obtain rfl := Option.some.inj hs
      unfold weight
      rw [hm]
      simp only [mWeight, List.length_append, List.length_singleton]
      omega

/-- a worker that does not need the mutex can go on -/
theorem worker_free {s : State} {i : ℕ} {x : Worker} (hx : s.ws[i]? = some x) (hm : s.mutex = .free)
    (hi : Inv s) (h1 : x.pc ≠ .waiting) (h2 : x.pc ≠ .exited) : ∃ s', step s (.worker i) = some s' := by
  have hl : x.pc.locks = false := by
    by_contra h
    have := (hi.lockW i x hx).1 (by simpa using h)
    rw [hm] at this; cases this
  have he : step s (.worker i) = workerStep s i x := by
    unfold step; dsimp only; rw [hx]
  rw [he]
  unfold workerStep
  obtain ⟨pc, stop⟩ := x
  cases pc <;> simp_all [WPc.locks]

/-- **C31/C32, progress.**  In every reachable state in which the controlling thread is inside of a member function, some
productive step is possible, unless it is in the loop of `wait_sleep` and either that loop is about to end (nothing queued,
no busy worker) or there are no workers to empty the queue. -/
theorem C31_progress {s : State} (h : Reach s) (hr : s.main ≠ .ready) :
    (∃ a s', Productive s a ∧ step s a = some s') ∨
      (s.main = .sleepSize ∧ ((s.queue = [] ∧ s.busy = 0) ∨ (s.queue ≠ [] ∧ s.ws = []))) := by
  have hi := inv_reach h
  cases hmx : s.mutex with
  | worker i =>
    left
    have hlt := hi.lockR i hmx
    have hx : s.ws[i]? = some s.ws[i] := List.getElem?_eq_getElem hlt
    have hl := (hi.lockW i _ hx).2 hmx
    have hinc := hi.inc i _ hx
    have he : step s (.worker i) = workerStep s i s.ws[i] := by unfold step; dsimp only; rw [hx]
    refine ⟨.worker i, ?_⟩
    rw [he]
    generalize s.ws[i] = x at hl hinc ⊢
    obtain ⟨pc, stop⟩ := x
    unfold workerStep
    cases pc <;> simp [WPc.locks] at hl
    · dsimp only; split_ifs <;> exact ⟨_, trivial, rfl⟩
    · dsimp only; split_ifs <;> exact ⟨_, trivial, rfl⟩
    · have := hinc rfl
      cases hq : s.queue with
      | nil => exact absurd hq this
      | cons t q => exact ⟨_, trivial, rfl⟩
    · exact ⟨_, trivial, rfl⟩
  | main =>
    left
    have hl := hi.lockM.2 hmx
    refine ⟨.main 0, ?_⟩
    change ∃ s', ¬ Polls s ∧ mainStep s 0 = some s'
    unfold Polls mainStep
    cases hm : s.main <;> rw [hm] at hl <;> simp [MPc.locks] at hl <;> simp
    case workIn k => cases s.queue <;> exact ⟨_, rfl⟩
    case runIn m => cases m <;> exact ⟨_, rfl⟩
  | free =>
    have hbusyW : s.busy ≠ 0 → ∃ a s', Productive s a ∧ step s a = some s' := by
      intro hb
      have : 0 < s.ws.countP (fun x => x.pc.isBusy) := by rw [← hi.busy]; omega
      rw [List.countP_pos_iff] at this
      obtain ⟨x, hx, hbx⟩ := this
      obtain ⟨j, hj⟩ := List.getElem?_of_mem hx
      obtain ⟨s', hs'⟩ := worker_free hj hmx hi (by intro hp; rw [hp] at hbx; cases hbx)
        (by intro hp; rw [hp] at hbx; cases hbx)
      exact ⟨.worker j, s', trivial, hs'⟩
    have hmain : ∀ {s'}, ¬ Polls s → mainStep s 0 = some s' → ∃ a s', Productive s a ∧ step s a = some s' :=
      fun {s'} hp hs => ⟨.main 0, s', hp, hs⟩
    have hlock : ∀ p, ¬ Polls s → mainStep s 0 = lockMain s p → ∃ a s', Productive s a ∧ step s a = some s' := by
      intro p hp hs
      refine hmain (s' := { s with mutex := .main, main := p }) hp (hs.trans ?_)
      unfold lockMain
      rw [if_pos hmx]
    have hl : s.main.locks = false := by
      by_contra h
      have := hi.lockM.1 (by simpa using h)
      rw [hmx] at this; cases this
    cases hm : s.main with
    | ready => exact absurd hm hr
    | pushNotify =>
      left
      have hpoll : ¬ Polls s := by unfold Polls; rw [hm]; simp
      have : ∃ w l, notifyOne w s.ws = some l := by
        unfold notifyOne
        by_cases hany : s.ws.any (fun x => x.pc = .waiting) = true
        · obtain ⟨x, hx, hp⟩ := List.any_eq_true.1 hany
          obtain ⟨j, hj⟩ := List.getElem?_of_mem hx
          refine ⟨j, s.ws.set j (wake x), ?_⟩
          rw [if_pos hany, hj]
          dsimp only
          rw [if_pos (by simpa using hp)]
        · exact ⟨0, s.ws, by rw [if_neg hany]⟩
      obtain ⟨w, l, hn⟩ := this
      refine ⟨.main w, { s with ws := l, main := .ready }, hpoll, ?_⟩
      change mainStep s w = _
      unfold mainStep
      rw [hm, hn]
      rfl
    | workRun k t => left; exact hmain (by unfold Polls; rw [hm]; simp) (by unfold mainStep; rw [hm])
    | spin k =>
      left
      by_cases hb : s.busy = 0
      · refine hmain (by unfold Polls; rw [hm]; simp [hb]) (by unfold mainStep; rw [hm]; dsimp only; rw [if_neg (by omega)])
      · exact hbusyW hb
    | sleepSize =>
      by_cases hq : s.queue = []
      · by_cases hb : s.busy = 0
        · exact .inr ⟨rfl, .inl ⟨hq, hb⟩⟩
        · exact .inl (hbusyW hb)
      · by_cases hw : s.ws = []
        · exact .inr ⟨rfl, .inr ⟨hq, hw⟩⟩
        · left
          rcases hi.awk hq hw with ⟨j, x, hj, h1, h2⟩ | h1
          · obtain ⟨s', hs'⟩ := worker_free hj hmx hi h1 h2
            exact ⟨.worker j, s', trivial, hs'⟩
          · rw [hm] at h1; cases h1
    | sleepBusy =>
      left
      by_cases hb : s.busy = 0
      · refine hmain (by unfold Polls; rw [hm]; simp [hb]) (by unfold mainStep; rw [hm]; dsimp only; rw [if_neg (by omega)])
      · exact hbusyW hb
    | runNotify => left; exact hmain (by unfold Polls; rw [hm]; simp) (by unfold mainStep; rw [hm])
    | runSelf t => left; exact hmain (by unfold Polls; rw [hm]; simp) (by unfold mainStep; rw [hm])
    | joining n i =>
      left
      have hpoll : ¬ Polls s := by unfold Polls; rw [hm]; simp
      cases hx : s.ws[i]? with
      | none =>
        refine hmain (s' := { s with main := .shrinkRelock n }) hpoll ?_
        unfold mainStep
        rw [hm]
        dsimp only
        rw [hx]
      | some x =>
        by_cases hp : x.pc = .exited
        · refine hmain (s' := { s with main := .joining n (i + 1) }) hpoll ?_
          unfold mainStep
          rw [hm]
          dsimp only
          rw [hx]
          dsimp only
          rw [if_pos hp]
        · have hni := (hi.jnd n i (by rw [hm]; rfl)).1
          have hst : x.stop = true := (hi.stp i x hx).2 ⟨n, by rw [hm]; rfl, hni⟩
          obtain ⟨s', hs'⟩ := worker_free hx hmx hi (fun hw => by
            obtain ⟨n', hn'⟩ := hi.wtg i x hx hw hst
            rw [hm] at hn'; cases hn') hp
          exact ⟨.worker i, s', trivial, hs'⟩
    | pushLock => left; exact hlock _ (by unfold Polls; rw [hm]; simp) (by unfold mainStep; rw [hm])
    | workLock k => left; exact hlock _ (by unfold Polls; rw [hm]; simp) (by unfold mainStep; rw [hm])
    | runLock m => left; exact hlock _ (by unfold Polls; rw [hm]; simp) (by unfold mainStep; rw [hm])
    | shrinkLock n => left; exact hlock _ (by unfold Polls; rw [hm]; simp) (by unfold mainStep; rw [hm])
    | shrinkRelock n => left; exact hlock _ (by unfold Polls; rw [hm]; simp) (by unfold mainStep; rw [hm])
    | growLock n => left; exact hlock _ (by unfold Polls; rw [hm]; simp) (by unfold mainStep; rw [hm])
    | _ => rw [hm] at hl; cases hl

/-- **C32, progress.**  While the controlling thread does nothing, the workers empty the queue: as long as there are workers
and a pushed task has not finished, some worker can go on. -/
theorem C32_progress {s : State} (h : Reach s) (hr : s.main = .ready) (hw : s.ws ≠ []) {t : ℕ} (ht : t < s.next)
    (hd : t ∉ s.done) : ∃ i s', step s (.worker i) = some s' := by
  have hi := inv_reach h
  cases hmx : s.mutex with
  | worker i =>
    have hlt := hi.lockR i hmx
    have hx : s.ws[i]? = some s.ws[i] := List.getElem?_eq_getElem hlt
    have hl := (hi.lockW i _ hx).2 hmx
    have hinc := hi.inc i _ hx
    have he : step s (.worker i) = workerStep s i s.ws[i] := by unfold step; dsimp only; rw [hx]
    refine ⟨i, ?_⟩
    rw [he]
    generalize s.ws[i] = x at hl hinc ⊢
    obtain ⟨pc, stop⟩ := x
    unfold workerStep
    cases pc <;> simp [WPc.locks] at hl
    · dsimp only; split_ifs <;> exact ⟨_, rfl⟩
    · dsimp only; split_ifs <;> exact ⟨_, rfl⟩
    · have := hinc rfl
      cases hq : s.queue with
      | nil => exact absurd hq this
      | cons t q => exact ⟨_, rfl⟩
    · exact ⟨_, rfl⟩
  | main =>
    have := hi.lockM.2 hmx
    rw [hr] at this; cases this
  | free =>
    rcases (C32_exactly_once h t).2.2.1 ht hd with hq | hq | hq
    · rcases hi.awk (List.ne_nil_of_mem hq) hw with ⟨j, x, hj, h1, h2⟩ | h1
      · exact ⟨j, worker_free hj hmx hi h1 h2⟩
      · rw [hr] at h1; cases h1
    · obtain ⟨x, hx, hp⟩ := hq
      obtain ⟨j, hj⟩ := List.getElem?_of_mem hx
      exact ⟨j, worker_free hj hmx hi (by rintro h; rw [h] at hp; simp at hp) (by rintro h; rw [h] at hp; simp at hp)⟩
    · rcases hq with ⟨k, hq | hq⟩ | hq <;> (rw [hr] at hq; cases hq)

/-- where the controlling thread is after two steps of its own -/
def runActs2 (s : State) : Option MPc :=
  ((step s (.main 0)).bind fun s => step s (.main 0)).map State.main

/-- a run of `m` productive steps -/
inductive ProdRun : State → ℕ → State → Prop
  | nil (s : State) : ProdRun s 0 s
  | cons {s s1 s2 : State} {m : ℕ} (a : Act) (hp : Productive s a) (hs : step s a = some s1) (hr : ProdRun s1 m s2) :
      ProdRun s (m + 1) s2

/-- **C31, termination.**  Whatever the schedule: only `weight s` productive steps fit into a call, and when no productive
step is left the call has returned, or it is a `wait_sleep` that returns within two more steps, or a `wait_sleep` on a pool
without threads whose queue is not empty. -/
theorem C31_terminates {s s' : State} (h : Reach s) {m : ℕ} (hr : ProdRun s m s') :
    m ≤ weight s ∧
    ((¬ ∃ a s'', Productive s' a ∧ step s' a = some s'') →
      s'.main = .ready ∨ runActs2 s' = some .ready ∨ (s'.main = .sleepSize ∧ s'.queue ≠ [] ∧ s'.ws = [])) := by
  induction hr with
  | nil s =>
    refine ⟨Nat.zero_le _, fun hno => ?_⟩
    by_cases hm : s.main = .ready
    · exact .inl hm
    · rcases C31_progress h hm with hp | ⟨h1, ⟨h2, h3⟩ | ⟨h2, h3⟩⟩
      · exact absurd hp hno
      · refine .inr (.inl ?_)
        unfold runActs2 step
        dsimp only
        unfold mainStep
        rw [h1]
        dsimp only
        rw [if_neg (by simp [h2])]
        simp [h3]
      · exact .inr (.inr ⟨h1, h2, h3⟩)
  | cons a hp hs hr ih =>
    have h1 := C31_productive_decreases h a hs hp
    obtain ⟨i1, i2⟩ := ih (Reach.step a h hs)
    exact ⟨by omega, i2⟩

/-! ### What goes wrong -/

/-- run a schedule -/
def runActs : State → List Act → Option State
  | s, [] => some s
  | s, a :: l => (step s a).bind fun s => runActs s l

theorem reach_run {s s' : State} (h : Reach s) (l : List Act) (hr : runActs s l = some s') : Reach s' := by
  induction l generalizing s with
  | nil => obtain rfl := Option.some.inj hr; exact h
  | cons a l ih =>
    rw [runActs] at hr
    cases hs : step s a with
    | none => rw [hs] at hr; cases hr
    | some s1 => rw [hs] at hr; exact ih (Reach.step a h hs) hr

/-- **C32 fails** for a pool without threads (the default: `thread_pool::thread_pool threadpool` has none): tasks pushed to
it stay in the queue, and stopping the pool (destructor: `resize(0)`) does nothing, so they are never executed. -/
theorem C32_no_threads_drops : ∃ s, Reach s ∧ s.main = .ready ∧ s.next = 1 ∧ s.done = [] ∧
    step s (.call (.resize 0)) = some s := by
  refine ⟨_, reach_run Reach.init [.call .push, .main 0, .main 0, .main 0, .main 0] rfl, rfl, rfl, rfl, rfl⟩

/-- **C31:** `wait_sleep` on a pool without threads and with a queued task never returns: no step changes the state. -/
theorem C31_wait_sleep_hangs : ∃ s, Reach s ∧ s.main = .sleepSize ∧ s.queue = [0] ∧
    ∀ a s', step s a = some s' → s' = s := by
  refine ⟨_, reach_run Reach.init [.call .push, .main 0, .main 0, .main 0, .main 0, .call .waitSleep] rfl, rfl, rfl, ?_⟩
  intro a s' hs
  cases a with
  | call c => cases hs
  | main w => exact (Option.some.inj hs).symm
  | worker i => cases hs
  | spurious i => cases hs

/-- **C31:** `wait_sleep` reads `_tasks.size()` without the mutex (thread_pool.hpp:210) while a worker that holds the mutex
is about to pop from `_tasks`: a data race.  (The other theorems take that read to be atomic.) -/
theorem C31_wait_sleep_race : ∃ s, Reach s ∧ s.main = .sleepSize ∧ s.mutex = .worker 0 ∧
    (s.ws.map fun x => x.pc) = [.incd] ∧ s.queue = [0] := by
  refine ⟨_, reach_run Reach.init [.call (.resize 1), .main 0, .main 0, .main 0, .main 0, .main 0, .main 0, .main 0,
    .call .push, .main 0, .main 0, .main 0, .main 0, .call .waitSleep, .worker 0, .worker 0] rfl, rfl, rfl, rfl, rfl⟩

/-- a schedule in which a worker runs one task while the controlling thread runs the other and `wait_work` returns -/
example : ∃ s, Reach s ∧ s.main = .ready ∧ s.next = 2 ∧ s.done = [1, 0] ∧ s.busy = 0 := by
  refine ⟨_, reach_run Reach.init [.call (.resize 1), .main 0, .main 0, .main 0, .main 0, .main 0, .main 0, .main 0,
    .worker 0, .worker 0, .worker 0,
    .call .push, .main 0, .main 0, .main 0, .main 0, .call .push, .main 0, .main 0, .main 0, .main 0,
    .worker 0, .worker 0, .worker 0, .worker 0,
    .call .waitWork, .main 0, .main 0, .main 0, .main 0, .main 0, .main 0, .main 0, .main 0, .worker 0, .worker 0,
    .main 0] rfl, rfl, rfl, rfl, rfl⟩

/-- **C32**, `set_threads`: the result is at least 1 and at most the number of hardware threads (if that is known), and
equal to the request if the request lies in that range. -/
theorem C32_set_threads (hw : ℕ) (th : ℤ) (hhw : 1 ≤ hw) :
    0 ≤ (setThreads hw th).1 ∧ (setThreads hw th).2 ≤ hw ∧ (setThreads hw th).2 = (setThreads hw th).1 + 1 ∧
    (1 ≤ th → th ≤ hw → (setThreads hw th).2 = th) ∧ (th = -1 → (setThreads hw th).2 = hw) ∧
    (th < 1 → th ≠ -1 → (setThreads hw th).2 = 1) ∧ (th > hw → (setThreads hw th).2 = hw) := by
  unfold setThreads
  dsimp only
  refine ⟨?_, ?_, rfl, ?_, ?_, ?_, ?_⟩ <;> split_ifs <;> omega

end Pool

namespace Barrier

open Finset

/-- the invariant with generation `g`, for exactly `n = count` threads -/
def Inv (n g : ℕ) (s : State) : Prop :=
  s.count = n ∧
  (((∀ j < n, s.pc j ≠ .notify) ∧ s.i = ((range n).filter fun j => s.pc j = .inWait).card ∧ s.i < n ∧ ∀ j < n,
      (s.pc j = .out → s.calls j = g ∧ s.rets j = g) ∧ (s.pc j = .called → s.calls j = g + 1 ∧ s.rets j = g) ∧
      (s.pc j = .inWait → s.calls j = g + 1 ∧ s.rets j = g) ∧ (s.pc j = .woken → s.calls j = g ∧ s.rets j + 1 = g)) ∨
   (s.i = 0 ∧ (∃ l < n, s.pc l = .notify ∧ ∀ j < n, j ≠ l → s.pc j = .inWait) ∧
      ∀ j < n, s.calls j = g ∧ s.rets j + 1 = g))

theorem inv_step {n g : ℕ} (hn : 1 ≤ n) {s s' : State} (h : Inv n g s) {j : ℕ} (hs : step n s (.go j) = some s') :
    ∃ g', Inv n g' s' := by
  obtain ⟨hc, h⟩ := h
  unfold step at hs
  dsimp only at hs
  by_cases hj : j < n
  swap
  · rw [if_neg hj] at hs; cases hs
  rw [if_pos hj] at hs
  rcases h with ⟨h1, h2, h3, h4⟩ | ⟨h1, ⟨l, hl, hln, hlo⟩, h3⟩
  · cases hp : s.pc j with
    | out =>
      rw [hp] at hs
      obtain rfl := Option.some.inj hs
      obtain ⟨c1, c2⟩ := (h4 j hj).1 hp
      refine ⟨g, hc, .inl ⟨?_, ?_, h3, ?_⟩⟩
      · intro k hk
        dsimp only [upd]
        split_ifs
        · simp
        · exact h1 k hk
      · dsimp only
        rw [h2]
        refine congrArg Finset.card (Finset.filter_congr fun k _ => ?_)
        unfold upd
        by_cases hkj : k = j
        · simp [hkj, hp]
        · simp [hkj]
      · intro k hk
        dsimp only [upd]
        by_cases hkj : k = j
        · subst hkj
          simp [c1, c2]
        · simp only [if_neg hkj]; exact h4 k hk
    | called =>
      rw [hp] at hs
      dsimp only at hs
      obtain ⟨c1, c2⟩ := (h4 j hj).2.1 hp
      have hsub : ((range n).filter fun j => s.pc j = .inWait) ⊆ (range n).erase j := by
        intro k hk
        rw [mem_filter] at hk
        rw [mem_erase]
        exact ⟨fun hkj => by rw [hkj, hp] at hk; simp at hk, hk.1⟩
      split_ifs at hs with hcnt
      · obtain rfl := Option.some.inj hs
        have heq : ((range n).filter fun j => s.pc j = .inWait) = (range n).erase j := by
          refine Finset.eq_of_subset_of_card_le hsub ?_
          rw [card_erase_of_mem (mem_range.2 hj), card_range, ← h2]
          omega
        have hall : ∀ k < n, k ≠ j → s.pc k = .inWait := by
          intro k hk hkj
          have : k ∈ (range n).filter fun j => s.pc j = .inWait := by
            rw [heq, mem_erase]; exact ⟨hkj, mem_range.2 hk⟩
          exact (mem_filter.1 this).2
        refine ⟨g + 1, hc, .inr ⟨rfl, ⟨j, hj, by simp [upd], fun k hk hkj => by simp [upd, hkj, hall k hk hkj]⟩, ?_⟩⟩
        intro k hk
        dsimp only
        by_cases hkj : k = j
        · rw [hkj, c1, c2]; exact ⟨rfl, rfl⟩
        · obtain ⟨d1, d2⟩ := (h4 k hk).2.2.1 (hall k hk hkj)
          rw [d1, d2]; exact ⟨rfl, rfl⟩
      · obtain rfl := Option.some.inj hs
        refine ⟨g, hc, .inl ⟨?_, ?_, by dsimp only; omega, ?_⟩⟩
        · intro k hk
          dsimp only [upd]
          split_ifs
          · simp
          · exact h1 k hk
        · dsimp only
          have : ((range n).filter fun k => upd s.pc j .inWait k = .inWait) =
              insert j ((range n).filter fun k => s.pc k = .inWait) := by
            ext k
            simp only [mem_filter, mem_insert, mem_range, upd]
            by_cases hkj : k = j
            · simp [hkj, hj]
            · simp [hkj]
          rw [this, card_insert_of_notMem (by simp [hp]), h2]
        · intro k hk
          dsimp only [upd]
          by_cases hkj : k = j
          · subst hkj
            simp [c1, c2]
          · simp only [if_neg hkj]; exact h4 k hk
    | inWait => rw [hp] at hs; cases hs
    | notify => exact absurd hp (h1 j hj)
    | woken =>
      rw [hp] at hs
      obtain rfl := Option.some.inj hs
      obtain ⟨c1, c2⟩ := (h4 j hj).2.2.2 hp
      refine ⟨g, hc, .inl ⟨?_, ?_, h3, ?_⟩⟩
      · intro k hk
        dsimp only [upd]
        split_ifs
        · simp
        · exact h1 k hk
      · dsimp only
        rw [h2]
        refine congrArg Finset.card (Finset.filter_congr fun k _ => ?_)
        unfold upd
        by_cases hkj : k = j
        · simp [hkj, hp]
        · simp [hkj]
      · intro k hk
        dsimp only [upd]
        by_cases hkj : k = j
        · subst hkj
          simp [c1, c2]
        · simp only [if_neg hkj]; exact h4 k hk
  · by_cases hjl : j = l
    · subst hjl
      rw [hln] at hs
      obtain rfl := Option.some.inj hs
      have hpc : ∀ k < n, (upd (fun k => if s.pc k = .inWait then Pc.woken else s.pc k) j .woken) k = .woken := by
        intro k hk
        unfold upd
        by_cases hkj : k = j
        · rw [if_pos hkj]
        · rw [if_neg hkj]; exact if_pos (hlo k hk hkj)
      refine ⟨g, hc, .inl ⟨?_, ?_, by dsimp only; omega, ?_⟩⟩
      · intro k hk
        dsimp only
        rw [hpc k hk]; simp
      · dsimp only
        rw [h1]
        symm
        rw [card_eq_zero, filter_eq_empty_iff]
        intro k hk
        rw [hpc k (mem_range.1 hk)]; simp
      · intro k hk
        dsimp only
        rw [hpc k hk]
        simpa using h3 k hk
    · rw [hlo j hj hjl] at hs
      cases hs

theorem inv_run {n : ℕ} (hn : 1 ≤ n) (l : List ℕ) {s s' : State} {g : ℕ} (h : Inv n g s)
    (hr : run n s (l.map Act.go) = some s') : ∃ g', Inv n g' s' := by
  induction l generalizing s g with
  | nil => obtain rfl := Option.some.inj hr; exact ⟨g, h⟩
  | cons j l ih =>
    rw [List.map_cons, run] at hr
    cases hs : step n s (.go j) with
    | none => rw [hs] at hr; cases hr
    | some s1 =>
      rw [hs] at hr
      obtain ⟨g', h'⟩ := inv_step hn h hs
      exact ih h' hr

theorem inv_init {n : ℕ} (hn : 1 ≤ n) : Inv n 0 (init n) := by
  refine ⟨rfl, .inl ⟨by simp [init], ?_, by simp only [init]; omega, by simp [init]⟩⟩
  simp [init]

/-- **C33**, for exactly `count` threads and without spurious wake-ups (`_partial`; missing: more threads than `count`, and
spurious wake-ups; there the claim is false): a thread returns from its `k`-th `wait()` only after every thread has
called `wait()` `k` times; and unless some thread has not called `wait` the barrier is not stuck. -/
theorem C33_barrier_partial {n : ℕ} (hn : 1 ≤ n) (l : List ℕ) {s : State}
    (hr : run n (init n) (l.map Act.go) = some s) :
    (∀ i < n, ∀ j < n, s.rets i ≤ s.calls j) ∧
    ((∀ j < n, s.pc j ≠ .out) → ∃ j s', step n s (.go j) = some s') := by
  obtain ⟨g, hc, h⟩ := inv_run hn l (inv_init hn) hr
  constructor
  · intro i hi j hj
    rcases h with ⟨h1, -, -, h4⟩ | ⟨-, -, h3⟩
    · have hri : s.rets i ≤ g := by
        have := h4 i hi
        cases hp : s.pc i with
        | out => exact (this.1 hp).2.le
        | called => exact (this.2.1 hp).2.le
        | inWait => exact (this.2.2.1 hp).2.le
        | notify => exact absurd hp (h1 i hi)
        | woken => have := (this.2.2.2 hp).2; omega
      have hcj : g ≤ s.calls j := by
        have := h4 j hj
        cases hp : s.pc j with
        | out => exact (this.1 hp).1.ge
        | called => have := (this.2.1 hp).1; omega
        | inWait => have := (this.2.2.1 hp).1; omega
        | notify => exact absurd hp (h1 j hj)
        | woken => exact (this.2.2.2 hp).1.ge
      omega
    · have := (h3 i hi).2; have := (h3 j hj).1; omega
  · intro hout
    rcases h with ⟨h1, h2, h3, -⟩ | ⟨-, ⟨l, hl, hln, -⟩, -⟩
    · have : ∃ j < n, s.pc j ≠ .inWait := by
        by_contra hcon
        push Not at hcon
        have : ((range n).filter fun j => s.pc j = .inWait) = range n :=
          filter_true_of_mem fun k hk => hcon k (mem_range.1 hk)
        rw [this, card_range] at h2
        omega
      obtain ⟨j, hj, hp⟩ := this
      refine ⟨j, ?_⟩
      unfold step
      dsimp only
      rw [if_pos hj]
      cases hpj : s.pc j with
      | out => exact absurd hpj (hout j hj)
      | called => dsimp only; split_ifs <;> exact ⟨_, rfl⟩
      | inWait => exact absurd hpj hp
      | notify => exact ⟨_, rfl⟩
      | woken => exact ⟨_, rfl⟩
    · refine ⟨l, ?_⟩
      unfold step
      dsimp only
      rw [if_pos hl, hln]
      exact ⟨_, rfl⟩

/-- **C33 fails** with a spurious wake-up: with `count = 2`, thread 0 returns although thread 1 never called `wait`.
(`_condition.wait(lock)` at thread_pool.hpp:373 is not in a loop.) -/
theorem C33_spurious_fails : ∃ s, run 2 (init 2) [.go 0, .go 0, .spurious 0, .go 0] = some s ∧
    s.rets 0 = 1 ∧ s.calls 1 = 0 := ⟨_, rfl, rfl, rfl⟩

/-- **C33 fails** without any spurious wake-up if three threads use a barrier for two: `notify_all` comes after the unlock,
so it also releases a thread of the next round.  Three calls, three returns: the third thread was not joined by a
second one. -/
theorem C33_three_threads_fails :
    ∃ s, run 3 (init 2) [.go 0, .go 0, .go 1, .go 1, .go 2, .go 2, .go 1, .go 1, .go 2] = some s ∧
      s.calls 2 = 1 ∧ s.rets 2 = 1 ∧ s.calls 0 = 1 ∧ s.calls 1 = 1 ∧ s.rets 1 = 1 ∧ s.pc 0 = .woken := by
  exact ⟨_, rfl, rfl, rfl, rfl, rfl, rfl, rfl⟩

/-- two threads pass the barrier twice -/
example : ∃ s, run 2 (init 2) (List.map Act.go [0, 0, 1, 1, 1, 0, 1, 0, 0, 1, 1, 1, 1, 0]) = some s ∧ s.rets 0 = 2 ∧ s.rets 1 = 2 :=
  ⟨_, rfl, rfl, rfl⟩

end Barrier
end Fplll

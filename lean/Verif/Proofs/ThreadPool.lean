import Verif.Model.ThreadPool
import Mathlib.Tactic.Linarith

/-!
# Invariants of the thread pool
-/

namespace Fplll
namespace Pool

/-- the worker holds the mutex -/
def WPc.locks : WPc → Bool
  | .top | .checkStop | .incd | .popped _ => true
  | _ => false

/-- the worker is counted in `_threads_busy` -/
def WPc.isBusy : WPc → Bool
  | .incd | .popped _ | .running _ | .finished => true
  | _ => false

/-- the task the worker has taken and not finished -/
def WPc.task : WPc → Option ℕ
  | .popped t | .running t => some t
  | _ => none

/-- the controlling thread holds the mutex -/
def MPc.locks : MPc → Bool
  | .pushIn | .pushOut | .workIn _ | .workPopped .. | .workNone _ | .runIn _ | .shrinkFlag _ | .shrinkNotify _
  | .shrinkUnlock _ | .shrinkDrop _ | .shrinkEnd | .growIn _ | .growEnd => true
  | _ => false

/-- the task the controlling thread has taken and not finished -/
def MPc.task : MPc → Option ℕ
  | .workPopped _ t | .workRun _ t | .runSelf t => some t
  | _ => none

/-- the queue is known to be empty -/
def MPc.noTasks : MPc → Bool
  | .workNone _ | .spin _ | .sleepBusy | .growLock _ | .growIn _ => true
  | _ => false

/-- stop flags are set -/
def MPc.shrink : MPc → Option ℕ
  | .shrinkNotify n | .shrinkUnlock n | .joining n _ | .shrinkRelock n | .shrinkDrop n => some n
  | _ => none

/-- target of a shrinking `resize` -/
def MPc.target : MPc → Option ℕ
  | .shrinkLock n | .shrinkFlag n => some n
  | p => p.shrink

/-- tasks were pushed and a notification is still to come -/
def MPc.pushing : MPc → Bool
  | .pushOut | .pushNotify | .runIn _ | .runNotify => true
  | _ => false

/-- workers up to this index have been joined -/
def MPc.joined (len : ℕ) : MPc → Option (ℕ × ℕ)
  | .joining n i => some (n, i)
  | .shrinkRelock n | .shrinkDrop n => some (n, len)
  | _ => none

/-- the invariant -/
structure Inv (s : State) : Prop where
  lockW : ∀ (i : ℕ) (x : Worker), s.ws[i]? = some x → (x.pc.locks = true ↔ s.mutex = .worker i)
  lockR : ∀ i, s.mutex = .worker i → i < s.ws.length
  lockM : s.main.locks = true ↔ s.mutex = .main
  busy : s.busy = s.ws.countP (fun x => x.pc.isBusy)
  acct : ∀ t, s.queue.count t + s.ws.countP (fun x => decide (x.pc.task = some t)) +
    (if s.main.task = some t then 1 else 0) + s.done.count t = if t < s.next then 1 else 0
  chk : ∀ (i : ℕ) (x : Worker), s.ws[i]? = some x → x.pc = .checkStop → s.queue = []
  inc : ∀ (i : ℕ) (x : Worker), s.ws[i]? = some x → x.pc = .incd → s.queue ≠ []
  emp : s.main.noTasks = true → s.queue = []
  stp : ∀ (i : ℕ) (x : Worker), s.ws[i]? = some x → (x.stop = true ↔ ∃ n, s.main.shrink = some n ∧ n ≤ i)
  ext : ∀ (i : ℕ) (x : Worker), s.ws[i]? = some x → x.pc = .exited → x.stop = true ∧ s.queue = []
  tgt : ∀ n, s.main.target = some n → n < s.ws.length
  jnd : ∀ n k, s.main.joined s.ws.length = some (n, k) → n ≤ k ∧ k ≤ s.ws.length ∧
    ∀ (i : ℕ) (x : Worker), s.ws[i]? = some x → n ≤ i → i < k → x.pc = .exited
  wtg : ∀ (i : ℕ) (x : Worker), s.ws[i]? = some x → x.pc = .waiting → x.stop = true → ∃ n, s.main = .shrinkNotify n
  awk : s.queue ≠ [] → s.ws ≠ [] →
    (∃ (i : ℕ) (x : Worker), s.ws[i]? = some x ∧ x.pc ≠ .waiting ∧ x.pc ≠ .exited) ∨ s.main.pushing = true

theorem inv_init : Inv init := by
  constructor <;> simp [init, MPc.locks, MPc.task, MPc.noTasks, MPc.target, MPc.shrink, MPc.joined]

theorem countP_set' {α : Type} (p : α → Bool) (l : List α) (i : ℕ) (x y : α) (h : l[i]? = some x) :
    (l.set i y).countP p + (if p x then 1 else 0) = l.countP p + (if p y then 1 else 0) := by
  induction l generalizing i with
  | nil => simp at h
  | cons a l ih =>
    cases i with
    | zero =>
      simp only [List.getElem?_cons_zero, Option.some.injEq] at h
      subst h
      simp only [List.set_cons_zero, List.countP_cons]
      omega
    | succ i =>
      simp only [List.getElem?_cons_succ] at h
      have := ih i h
      simp only [List.set_cons_succ, List.countP_cons]
      omega

theorem getElem?_set' {α : Type} (l : List α) (i j : ℕ) (x y : α) (h : l[i]? = some x) :
    (l.set i y)[j]? = if j = i then some y else l[j]? := by
  have hi : i < l.length := (List.getElem?_eq_some_iff.1 h).1
  rw [List.getElem?_set]
  by_cases hij : i = j
  · rw [if_pos hij, if_pos hij.symm, if_pos hi]
  · rw [if_neg hij, if_neg (Ne.symm hij)]

/-- a worker changes its program counter, and with it the mutex, the queue, the counter and the log -/
theorem inv_set {s : State} (h : Inv s) {i : ℕ} {x : Worker} (hx : s.ws[i]? = some x) (p : WPc)
    (mutex' : Owner) (queue' : List ℕ) (busy' : ℕ) (done' : List ℕ)
    (hl1 : p.locks = true ↔ mutex' = .worker i) (hl2 : ∀ j, j ≠ i → (mutex' = .worker j ↔ s.mutex = .worker j))
    (hl3 : mutex' = .main ↔ s.mutex = .main)
    (hb : busy' + (if x.pc.isBusy = true then 1 else 0) = s.busy + (if p.isBusy = true then 1 else 0))
    (ha : ∀ t, queue'.count t + (if p.task = some t then 1 else 0) + done'.count t =
      s.queue.count t + (if x.pc.task = some t then 1 else 0) + s.done.count t)
    (hchk : p = .checkStop → queue' = []) (hinc : p = .incd → queue' ≠ [])
    (hq : queue' = s.queue ∨ (x.pc.locks = true ∧ s.queue ≠ []))
    (hext : p = .exited → x.stop = true ∧ queue' = []) (hxe : x.pc ≠ .exited)
    (hwt : p = .waiting → x.stop = false ∧ queue' = []) :
    Inv { s with ws := s.ws.set i { x with pc := p }, mutex := mutex', queue := queue', busy := busy', done := done' } := by
  have hset := fun (j : ℕ) (y : Worker) => getElem?_set' s.ws i j x y hx
  have hcnt := fun (q : Worker → Bool) => countP_set' q s.ws i x { x with pc := p } hx
  have hi : i < s.ws.length := (List.getElem?_eq_some_iff.1 hx).1
  obtain ⟨lockW, lockR, lockM, busy, acct, chk, inc, emp, stp, ext, tgt, jnd, wtg, awk⟩ := h
  have hown : x.pc.locks = true → s.mutex = .worker i := (lockW i x hx).1
  constructor
  · intro j y hj
    dsimp only at hj ⊢
    rw [hset] at hj
    split_ifs at hj with hji
    · obtain rfl := Option.some.inj hj
      rw [hji]; exact hl1
    · rw [hl2 j hji]; exact lockW j y hj
  · intro j hj
    dsimp only at hj ⊢
    rw [List.length_set]
    by_cases hji : j = i
    · rw [hji]; exact hi
    · exact lockR j ((hl2 j hji).1 hj)
  · dsimp only; rw [hl3]; exact lockM
  · dsimp only
    have := hcnt (fun x => x.pc.isBusy)
    dsimp only at this
    omega
  · intro t
    dsimp only
    have h1 := hcnt (fun x => decide (x.pc.task = some t))
    have h2 := acct t
    have h3 := ha t
    simp only [decide_eq_true_eq] at h1
    omega
  · intro j y hj hp
    dsimp only at hj ⊢
    rw [hset] at hj
    split_ifs at hj with hji
    · obtain rfl := Option.some.inj hj; exact hchk hp
    · rcases hq with hq | ⟨hq, -⟩
      · rw [hq]; exact chk j y hj hp
      · have h1 := (lockW j y hj).1 (by rw [hp]; rfl)
        rw [hown hq] at h1
        cases h1; exact absurd rfl hji
  · intro j y hj hp
    dsimp only at hj ⊢
    rw [hset] at hj
    split_ifs at hj with hji
    · obtain rfl := Option.some.inj hj; exact hinc hp
    · rcases hq with hq | ⟨hq, -⟩
      · rw [hq]; exact inc j y hj hp
      · have h1 := (lockW j y hj).1 (by rw [hp]; rfl)
        rw [hown hq] at h1
        cases h1; exact absurd rfl hji
  · intro hm
    dsimp only at hm ⊢
    rcases hq with hq | ⟨-, hq⟩
    · rw [hq]; exact emp hm
    · exact absurd (emp hm) hq
  · intro j y hj
    dsimp only at hj ⊢
    rw [hset] at hj
    split_ifs at hj with hji
    · obtain rfl := Option.some.inj hj
      rw [hji]; exact stp i x hx
    · exact stp j y hj
  · intro j y hj hp
    dsimp only at hj ⊢
    rw [hset] at hj
    split_ifs at hj with hji
    · obtain rfl := Option.some.inj hj; exact hext hp
    · obtain ⟨h1, h2⟩ := ext j y hj hp
      rcases hq with hq | ⟨-, hq⟩
      · rw [hq]; exact ⟨h1, h2⟩
      · exact absurd h2 hq
  · intro n hn
    dsimp only at hn ⊢
    rw [List.length_set]; exact tgt n hn
  · intro n k hn
    dsimp only at hn ⊢
    rw [List.length_set] at hn ⊢
    obtain ⟨h1, h2, h3⟩ := jnd n k hn
    refine ⟨h1, h2, fun j y hj g1 g2 => ?_⟩
    rw [hset] at hj
    split_ifs at hj with hji
    · exact absurd (h3 i x hx (by omega) (by omega)) hxe
    · exact h3 j y hj g1 g2
  · intro j y hj hp hst
    dsimp only at hj ⊢
    rw [hset] at hj
    split_ifs at hj with hji
    · obtain rfl := Option.some.inj hj
      have := (hwt hp).1
      rw [this] at hst; exact absurd hst (by simp)
    · exact wtg j y hj hp hst
  · intro hq' _
    dsimp only at hq' ⊢
    left
    refine ⟨i, { x with pc := p }, ?_, ?_, ?_⟩
    · rw [hset, if_pos rfl]
    · intro hp; exact hq' (hwt hp).2
    · intro hp; exact hq' (hext hp).2

/-- a step of a worker -/
theorem inv_worker {s : State} (h : Inv s) {i : ℕ} {x : Worker} (hx : s.ws[i]? = some x) {s' : State}
    (hs : workerStep s i x = some s') : Inv s' := by
  obtain ⟨pc, stop⟩ := x
  have hmut := (h.lockW i _ hx).1
  have hbusy : pc.isBusy = true → 0 < s.busy := by
    intro hb
    rw [h.busy, List.countP_pos_iff]
    exact ⟨_, List.mem_of_getElem? hx, hb⟩
  unfold workerStep at hs
  dsimp only at hs hmut
  cases pc with
  | wantLock =>
    dsimp only at hs
    split_ifs at hs with hm
    obtain rfl := Option.some.inj hs
    refine inv_set h hx .top (.worker i) s.queue s.busy s.done ?_ ?_ ?_ ?_ ?_ ?_ ?_ ?_ ?_ ?_ ?_ <;>
      simp [WPc.locks, WPc.isBusy, WPc.task, hm, eq_comm]
  | top =>
    have hm := hmut rfl
    dsimp only at hs
    split_ifs at hs with hq
    · obtain rfl := Option.some.inj hs
      refine inv_set h hx .checkStop s.mutex s.queue s.busy s.done ?_ ?_ ?_ ?_ ?_ ?_ ?_ ?_ ?_ ?_ ?_ <;>
        simp [WPc.locks, WPc.isBusy, WPc.task, hm, hq]
    · obtain rfl := Option.some.inj hs
      refine inv_set h hx .incd s.mutex s.queue (s.busy + 1) s.done ?_ ?_ ?_ ?_ ?_ ?_ ?_ ?_ ?_ ?_ ?_ <;>
        simp [WPc.locks, WPc.isBusy, WPc.task, hm, hq]
  | checkStop =>
    have hm := hmut rfl
    have hq := h.chk i _ hx rfl
    dsimp only at hs
    split_ifs at hs with hst
    · obtain rfl := Option.some.inj hs
      refine inv_set h hx .exited .free s.queue s.busy s.done ?_ ?_ ?_ ?_ ?_ ?_ ?_ ?_ ?_ ?_ ?_ <;>
        simp [WPc.locks, WPc.isBusy, WPc.task, hm, hq, hst, eq_comm]
    · obtain rfl := Option.some.inj hs
      refine inv_set h hx .waiting .free s.queue s.busy s.done ?_ ?_ ?_ ?_ ?_ ?_ ?_ ?_ ?_ ?_ ?_ <;>
        simp [WPc.locks, WPc.isBusy, WPc.task, hm, hq, hst, eq_comm]
  | incd =>
    have hm := hmut rfl
    dsimp only at hs
    cases hq : s.queue with
    | nil => rw [hq] at hs; cases hs
    | cons t q =>
      rw [hq] at hs
      obtain rfl := Option.some.inj hs
      refine inv_set h hx (.popped t) s.mutex q s.busy s.done ?_ ?_ ?_ ?_ ?_ ?_ ?_ ?_ ?_ ?_ ?_
      · simp [WPc.locks, hm]
      · simp
      · simp
      · simp [WPc.isBusy]
      · intro t'
        rw [hq, List.count_cons]
        by_cases htt : t = t' <;> simp [WPc.task, htt]
      · simp
      · simp
      · right; simp [WPc.locks, hq]
      · simp
      · simp
      · simp
  | popped t =>
    have hm := hmut rfl
    dsimp only at hs
    obtain rfl := Option.some.inj hs
    refine inv_set h hx (.running t) .free s.queue s.busy s.done ?_ ?_ ?_ ?_ ?_ ?_ ?_ ?_ ?_ ?_ ?_ <;>
      simp [WPc.locks, WPc.isBusy, WPc.task, hm, eq_comm]
  | running t =>
    dsimp only at hs
    obtain rfl := Option.some.inj hs
    have hnl : s.mutex ≠ .worker i := fun hm => by
      have := (h.lockW i _ hx).2 hm
      simp [WPc.locks] at this
    refine inv_set h hx .finished s.mutex s.queue s.busy (s.done ++ [t]) ?_ ?_ ?_ ?_ ?_ ?_ ?_ ?_ ?_ ?_ ?_
    · simp [WPc.locks, hnl]
    · simp
    · simp
    · simp [WPc.isBusy]
    · intro t'
      rw [List.count_append, List.count_singleton]
      by_cases htt : t = t' <;> simp [WPc.task, htt]
      omega
    all_goals simp
  | finished =>
    dsimp only at hs
    obtain rfl := Option.some.inj hs
    have hnl : s.mutex ≠ .worker i := fun hm => by
      have := (h.lockW i _ hx).2 hm
      simp [WPc.locks] at this
    have := hbusy rfl
    refine inv_set h hx .wantLock s.mutex s.queue (s.busy - 1) s.done ?_ ?_ ?_ ?_ ?_ ?_ ?_ ?_ ?_ ?_ ?_ <;>
      simp [WPc.locks, WPc.isBusy, WPc.task, hnl]
    omega
  | waiting => cases hs
  | exited => cases hs

/-- the controlling thread takes a step that does not touch the workers -/
theorem inv_main {s : State} (h : Inv s) (main' : MPc) (mutex' : Owner) (queue' : List ℕ) (next' : ℕ) (done' : List ℕ)
    (hl1 : main'.locks = true ↔ mutex' = .main) (hl2 : ∀ j, mutex' = .worker j ↔ s.mutex = .worker j)
    (ha : ∀ t, queue'.count t + (if main'.task = some t then 1 else 0) + done'.count t + (if t < s.next then 1 else 0) =
      s.queue.count t + (if s.main.task = some t then 1 else 0) + s.done.count t + (if t < next' then 1 else 0))
    (hq : queue' = s.queue ∨ (s.main.locks = true ∧ s.main.shrink = none))
    (hemp : main'.noTasks = true → queue' = []) (hshr : main'.shrink = s.main.shrink)
    (htgt : ∀ n, main'.target = some n → n < s.ws.length)
    (hjnd : ∀ n k, main'.joined s.ws.length = some (n, k) → n ≤ k ∧ k ≤ s.ws.length ∧
      ∀ (i : ℕ) (x : Worker), s.ws[i]? = some x → n ≤ i → i < k → x.pc = .exited)
    (hnn : (∀ n, s.main ≠ .shrinkNotify n) ∨ ∀ (j : ℕ) (y : Worker), s.ws[j]? = some y → y.pc ≠ .waiting)
    (hawk : queue' ≠ [] → s.ws ≠ [] → (main'.pushing = true ∨ (s.queue ≠ [] ∧ s.main.pushing = false)) ∨
      ∃ (i : ℕ) (x : Worker), s.ws[i]? = some x ∧ x.pc ≠ .waiting ∧ x.pc ≠ .exited) :
    Inv { s with main := main', mutex := mutex', queue := queue', next := next', done := done' } := by
  obtain ⟨lockW, lockR, lockM, busy, acct, chk, inc, emp, stp, ext, tgt, jnd, wtg, awk⟩ := h
  have hnolock : s.main.locks = true → ∀ (j : ℕ) (y : Worker), s.ws[j]? = some y → y.pc.locks = true → False := by
    intro hm j y hj hy
    have h1 := (lockW j y hj).1 hy
    rw [lockM.1 hm] at h1
    cases h1
  constructor
  · intro j y hj
    dsimp only at hj ⊢
    rw [hl2 j]; exact lockW j y hj
  · intro j hj
    exact lockR j ((hl2 j).1 hj)
  · exact hl1
  · exact busy
  · intro t
    dsimp only
    have h2 := acct t
    have h3 := ha t
    omega
  · intro j y hj hp
    dsimp only at hj ⊢
    rcases hq with hq | ⟨hq, -⟩
    · rw [hq]; exact chk j y hj hp
    · exact (hnolock hq j y hj (by rw [hp]; rfl)).elim
  · intro j y hj hp
    dsimp only at hj ⊢
    rcases hq with hq | ⟨hq, -⟩
    · rw [hq]; exact inc j y hj hp
    · exact (hnolock hq j y hj (by rw [hp]; rfl)).elim
  · exact hemp
  · intro j y hj
    dsimp only at hj ⊢
    rw [hshr]; exact stp j y hj
  · intro j y hj hp
    dsimp only at hj ⊢
    obtain ⟨h1, h2⟩ := ext j y hj hp
    rcases hq with hq | ⟨-, hq⟩
    · rw [hq]; exact ⟨h1, h2⟩
    · obtain ⟨n, hn, -⟩ := (stp j y hj).1 h1
      rw [hq] at hn; cases hn
  · exact htgt
  · exact hjnd
  · intro j y hj hp hst
    rcases hnn with hnn | hnn
    · obtain ⟨n, hn⟩ := wtg j y hj hp hst
      exact absurd hn (hnn n)
    · exact absurd hp (hnn j y hj)
  · intro h1 h2
    dsimp only at h1 h2 ⊢
    rcases hawk h1 h2 with (h3 | ⟨h3, h4⟩) | h3
    · exact .inr h3
    · rcases awk h3 h2 with h5 | h5
      · exact .inl h5
      · rw [h4] at h5; cases h5
    · exact .inl h3

/-- the controlling thread takes the mutex -/
theorem inv_lock {s : State} (h : Inv s) (main' : MPc) {s' : State} (hs : lockMain s main' = some s')
    (h1 : main'.locks = true) (h2 : main'.task = s.main.task)
    (h3 : main'.noTasks = s.main.noTasks) (h4 : main'.shrink = s.main.shrink) (h5 : main'.target = s.main.target)
    (h6 : main'.joined s.ws.length = s.main.joined s.ws.length) (h7 : ∀ n, s.main ≠ .shrinkNotify n)
    (h8 : s.main.pushing = false) : Inv s' := by
  unfold lockMain at hs
  split_ifs at hs with hm
  obtain rfl := Option.some.inj hs
  refine inv_main h main' .main s.queue s.next s.done (by simp [h1]) (by simp [hm]) (by simp [h2]) (.inl rfl)
    (fun hn => h.emp (h3 ▸ hn)) h4 (fun n hn => h.tgt n (h5 ▸ hn)) (fun n k hn => h.jnd n k (h6 ▸ hn)) (.inl h7)
    (fun hq _ => .inl (.inr ⟨hq, h8⟩))

theorem countP_congr' {α : Type} (p : α → Bool) (l l' : List α) (hlen : l'.length = l.length)
    (h : ∀ (j : ℕ) (x y : α), l[j]? = some x → l'[j]? = some y → p y = p x) : l'.countP p = l.countP p := by
  induction l generalizing l' with
  | nil => rw [List.length_nil, List.length_eq_zero_iff] at hlen; rw [hlen]
  | cons a l ih =>
    cases l' with
    | nil => simp at hlen
    | cons b l' =>
      have h0 := h 0 a b rfl rfl
      have := ih l' (by simpa using hlen) (fun j x y hx hy => h (j + 1) x y (by simpa using hx) (by simpa using hy))
      rw [List.countP_cons, List.countP_cons, this, h0]

theorem wake_pc (x : Worker) : (wake x).pc = if x.pc = .waiting then .wantLock else x.pc := by
  unfold wake; split_ifs <;> rfl

theorem wake_stop (x : Worker) : (wake x).stop = x.stop := by unfold wake; split_ifs <;> rfl

/-- some waiting workers are woken up -/
theorem inv_wake {s : State} (h : Inv s) (ws' : List Worker) (hlen : ws'.length = s.ws.length)
    (hw : ∀ (j : ℕ) (y : Worker), ws'[j]? = some y → ∃ x, s.ws[j]? = some x ∧ (y = x ∨ y = wake x)) :
    Inv { s with ws := ws' } := by
  have hpc : ∀ (j : ℕ) (y : Worker), ws'[j]? = some y → ∃ x, s.ws[j]? = some x ∧ y.stop = x.stop ∧
      (y.pc = x.pc ∨ (x.pc = .waiting ∧ y.pc = .wantLock)) := by
    intro j y hj
    obtain ⟨x, hx, h1⟩ := hw j y hj
    refine ⟨x, hx, ?_⟩
    rcases h1 with rfl | rfl
    · exact ⟨rfl, .inl rfl⟩
    · refine ⟨wake_stop x, ?_⟩
      rw [wake_pc]
      by_cases hp : x.pc = .waiting
      · rw [if_pos hp]; exact .inr ⟨hp, rfl⟩
      · rw [if_neg hp]; exact .inl rfl
  obtain ⟨lockW, lockR, lockM, busy, acct, chk, inc, emp, stp, ext, tgt, jnd, wtg, awk⟩ := h
  constructor
  · intro j y hj
    obtain ⟨x, hx, -, h1⟩ := hpc j y hj
    rw [← lockW j x hx]
    rcases h1 with h1 | ⟨h1, h2⟩
    · rw [h1]
    · rw [h1, h2]; rfl
  · intro j hj
    dsimp only
    rw [hlen]; exact lockR j hj
  · exact lockM
  · dsimp only
    rw [busy]
    refine (countP_congr' _ _ _ hlen fun j x y hx hy => ?_).symm
    obtain ⟨x', hx', -, h1⟩ := hpc j y hy
    obtain rfl := Option.some.inj (hx.symm.trans hx')
    rcases h1 with h1 | ⟨h1, h2⟩
    · rw [h1]
    · rw [h1, h2]; rfl
  · intro t
    dsimp only
    rw [← acct t]
    rw [countP_congr' _ s.ws ws' hlen fun j x y hx hy => ?_]
    obtain ⟨x', hx', -, h1⟩ := hpc j y hy
    obtain rfl := Option.some.inj (hx.symm.trans hx')
    rcases h1 with h1 | ⟨h1, h2⟩
    · rw [h1]
    · rw [h1, h2]; rfl
  · intro j y hj hp
    obtain ⟨x, hx, -, h1⟩ := hpc j y hj
    rcases h1 with h1 | ⟨h1, h2⟩
    · exact chk j x hx (h1 ▸ hp)
    · rw [h2] at hp; cases hp
  · intro j y hj hp
    obtain ⟨x, hx, -, h1⟩ := hpc j y hj
    rcases h1 with h1 | ⟨h1, h2⟩
    · exact inc j x hx (h1 ▸ hp)
    · rw [h2] at hp; cases hp
  · exact emp
  · intro j y hj
    obtain ⟨x, hx, h0, -⟩ := hpc j y hj
    rw [h0]; exact stp j x hx
  · intro j y hj hp
    obtain ⟨x, hx, h0, h1⟩ := hpc j y hj
    rcases h1 with h1 | ⟨h1, h2⟩
    · rw [h0]; exact ext j x hx (h1 ▸ hp)
    · rw [h2] at hp; cases hp
  · intro n hn
    dsimp only
    rw [hlen]; exact tgt n hn
  · intro n k hn
    dsimp only at hn ⊢
    rw [hlen] at hn ⊢
    obtain ⟨h1, h2, h3⟩ := jnd n k hn
    refine ⟨h1, h2, fun j y hj g1 g2 => ?_⟩
    obtain ⟨x, hx, -, h4⟩ := hpc j y hj
    have h5 := h3 j x hx g1 g2
    rcases h4 with h4 | ⟨h4, -⟩
    · rw [h4, h5]
    · rw [h5] at h4; cases h4
  · intro j y hj hp hst
    obtain ⟨x, hx, h0, h1⟩ := hpc j y hj
    rcases h1 with h1 | ⟨h1, h2⟩
    · exact wtg j x hx (h1 ▸ hp) (h0 ▸ hst)
    · rw [h2] at hp; cases hp
  · intro h1 h2
    dsimp only at h1 h2
    have h2' : s.ws ≠ [] := by
      intro h; rw [h, List.length_nil, List.length_eq_zero_iff] at hlen; exact h2 hlen
    rcases awk h1 h2' with ⟨j, x, hx, h3, h4⟩ | h3
    · left
      have hj : j < s.ws.length := (List.getElem?_eq_some_iff.1 hx).1
      have hj' : ws'[j]? = some (ws'[j]'(by omega)) := List.getElem?_eq_getElem (by omega)
      obtain ⟨x', hx', -, h5⟩ := hpc j _ hj'
      obtain rfl := Option.some.inj (hx.symm.trans hx')
      refine ⟨j, _, hj', ?_⟩
      rcases h5 with h5 | ⟨h5, -⟩
      · rw [h5]; exact ⟨h3, h4⟩
      · exact absurd h5 h3
    · exact .inr h3

theorem notifyAll_spec (l : List Worker) : (notifyAll l).length = l.length ∧
    ∀ (j : ℕ) (y : Worker), (notifyAll l)[j]? = some y → ∃ x, l[j]? = some x ∧ y = wake x := by
  unfold notifyAll
  refine ⟨by simp, fun j y hj => ?_⟩
  rw [List.getElem?_map] at hj
  cases hx : l[j]? with
  | none => rw [hx] at hj; cases hj
  | some x => rw [hx] at hj; exact ⟨x, rfl, (Option.some.inj hj).symm⟩

theorem notifyOne_spec {w : ℕ} {l l' : List Worker} (h : notifyOne w l = some l') : l'.length = l.length ∧
    (∀ (j : ℕ) (y : Worker), l'[j]? = some y → ∃ x, l[j]? = some x ∧ (y = x ∨ y = wake x)) ∧
    ((∃ (j : ℕ) (x : Worker), l[j]? = some x ∧ x.pc = .waiting) →
      ∃ (j : ℕ) (x : Worker), l'[j]? = some x ∧ x.pc = .wantLock) := by
  unfold notifyOne at h
  split_ifs at h with hany
  · split at h
    · rename_i x hx
      split_ifs at h with hp
      obtain rfl := Option.some.inj h
      refine ⟨by simp, fun j y hj => ?_, fun _ => ⟨w, wake x, ?_, ?_⟩⟩
      · rw [getElem?_set' _ _ _ _ _ hx] at hj
        split_ifs at hj with hjw
        · obtain rfl := Option.some.inj hj
          exact ⟨x, hjw ▸ hx, .inr rfl⟩
        · exact ⟨y, hj, .inl rfl⟩
      · rw [getElem?_set' _ _ _ _ _ hx, if_pos rfl]
      · rw [wake_pc, if_pos hp]
    · cases h
  · obtain rfl := Option.some.inj h
    refine ⟨rfl, fun j y hj => ⟨y, hj, .inl rfl⟩, ?_⟩
    rintro ⟨j, x, hx, hp⟩
    refine absurd ?_ hany
    rw [List.any_eq_true]
    exact ⟨x, List.mem_of_getElem? hx, by simpa using hp⟩

/-- in a state without stop flags, a worker that does not wait is awake -/
theorem awake_of_noflag {s : State} (h : Inv s) (hs : s.main.shrink = none) (hne : s.ws ≠ [])
    (hw : ¬ ∃ (j : ℕ) (x : Worker), s.ws[j]? = some x ∧ x.pc = .waiting) :
    ∃ (i : ℕ) (x : Worker), s.ws[i]? = some x ∧ x.pc ≠ .waiting ∧ x.pc ≠ .exited := by
  cases hws : s.ws with
  | nil => exact absurd hws hne
  | cons a l =>
    have h0 : s.ws[0]? = some a := by rw [hws]; rfl
    refine ⟨0, a, by rw [← hws]; exact h0, fun hp => hw ⟨0, a, h0, hp⟩, fun hp => ?_⟩
    obtain ⟨n, hn, -⟩ := (h.stp 0 a h0).1 (h.ext 0 a h0 hp).1
    rw [hs] at hn; cases hn

theorem inv_mainStep {s : State} (h : Inv s) {w : ℕ} {s' : State} (hs : mainStep s w = some s') : Inv s' := by
  have hmut := h.lockM
  unfold mainStep at hs
  cases hm : s.main with
  | ready => rw [hm] at hs; cases hs
  | pushLock =>
    rw [hm] at hs
    exact inv_lock h _ hs rfl (by rw [hm]; rfl) (by rw [hm]; rfl) (by rw [hm]; rfl) (by rw [hm]; rfl) (by rw [hm]; rfl)
      (by rw [hm]; simp) (by rw [hm]; rfl)
  | pushIn =>
    rw [hm] at hs hmut
    have hmx := hmut.1 rfl
    obtain rfl := Option.some.inj hs
    refine inv_main h .pushOut s.mutex _ _ _ (by simp [MPc.locks, hmx]) (by simp) ?_ (.inr (by simp [MPc.locks, MPc.task, MPc.noTasks, MPc.shrink, MPc.target, MPc.joined, MPc.pushing, hm]))
      (by simp [MPc.locks, MPc.task, MPc.noTasks, MPc.shrink, MPc.target, MPc.joined, MPc.pushing]) (by simp [MPc.locks, MPc.task, MPc.noTasks, MPc.shrink, MPc.target, MPc.joined, MPc.pushing, hm]) (by simp [MPc.locks, MPc.task, MPc.noTasks, MPc.shrink, MPc.target, MPc.joined, MPc.pushing]) (by simp [MPc.locks, MPc.task, MPc.noTasks, MPc.shrink, MPc.target, MPc.joined, MPc.pushing]) (.inl (by simp [hm])) (fun _ _ => .inl (.inl rfl))
    intro t
    rw [List.count_append, List.count_singleton, hm]
    by_cases htn : s.next = t
    · simp [MPc.task, htn]; omega
    · have : t < s.next + 1 ↔ t < s.next := by omega
      simp [MPc.task, htn, this]
  | pushOut =>
    rw [hm] at hs hmut
    have hmx := hmut.1 rfl
    obtain rfl := Option.some.inj hs
    exact inv_main h .pushNotify .free _ _ _ (by simp [MPc.locks]) (by simp [hmx]) (by simp [MPc.locks, MPc.task, MPc.noTasks, MPc.shrink, MPc.target, MPc.joined, MPc.pushing, hm]) (.inl rfl)
      (by simp [MPc.locks, MPc.task, MPc.noTasks, MPc.shrink, MPc.target, MPc.joined, MPc.pushing]) (by simp [MPc.locks, MPc.task, MPc.noTasks, MPc.shrink, MPc.target, MPc.joined, MPc.pushing, hm]) (by simp [MPc.locks, MPc.task, MPc.noTasks, MPc.shrink, MPc.target, MPc.joined, MPc.pushing]) (by simp [MPc.locks, MPc.task, MPc.noTasks, MPc.shrink, MPc.target, MPc.joined, MPc.pushing]) (.inl (by simp [hm])) (fun _ _ => .inl (.inl rfl))
  | pushNotify =>
    rw [hm] at hs hmut
    cases hn : notifyOne w s.ws with
    | none => rw [hn] at hs; cases hs
    | some l =>
      rw [hn] at hs
      obtain rfl := Option.some.inj hs
      obtain ⟨n1, n2, n3⟩ := notifyOne_spec hn
      have h' := inv_wake h l n1 n2
      refine inv_main h' .ready s.mutex s.queue s.next s.done (by rw [← hmut]; simp [MPc.locks]) (by simp)
        (by simp [MPc.locks, MPc.task, MPc.noTasks, MPc.shrink, MPc.target, MPc.joined, MPc.pushing, hm]) (.inl rfl) (by simp [MPc.locks, MPc.task, MPc.noTasks, MPc.shrink, MPc.target, MPc.joined, MPc.pushing]) (by simp [MPc.locks, MPc.task, MPc.noTasks, MPc.shrink, MPc.target, MPc.joined, MPc.pushing, hm]) (by simp [MPc.locks, MPc.task, MPc.noTasks, MPc.shrink, MPc.target, MPc.joined, MPc.pushing]) (by simp [MPc.locks, MPc.task, MPc.noTasks, MPc.shrink, MPc.target, MPc.joined, MPc.pushing])
        (.inl (by simp [hm])) (fun _ hne => .inr ?_)
      dsimp only at hne ⊢
      by_cases hw : ∃ (j : ℕ) (x : Worker), s.ws[j]? = some x ∧ x.pc = .waiting
      · obtain ⟨j, x, hx, hp⟩ := n3 hw
        exact ⟨j, x, hx, by rw [hp]; simp, by rw [hp]; simp⟩
      · refine awake_of_noflag h' (by simp [hm, MPc.shrink]) hne ?_
        rintro ⟨j, y, hj, hp⟩
        obtain ⟨x, hx, rfl | rfl⟩ := n2 j y hj
        · exact hw ⟨j, _, hx, hp⟩
        · rw [wake_pc] at hp
          split_ifs at hp with hp'
          exact hp' hp
  | workLock k =>
    rw [hm] at hs
    exact inv_lock h _ hs rfl (by rw [hm]; rfl) (by rw [hm]; rfl) (by rw [hm]; rfl) (by rw [hm]; rfl) (by rw [hm]; rfl)
      (by rw [hm]; simp) (by rw [hm]; rfl)
  | workIn k =>
    rw [hm] at hs hmut
    have hmx := hmut.1 rfl
    dsimp only at hs
    cases hq : s.queue with
    | nil =>
      rw [hq] at hs
      obtain rfl := Option.some.inj hs
      exact inv_main h (.workNone k) s.mutex [] _ _ (by simp [MPc.locks, hmx]) (by simp) (by simp [MPc.locks, MPc.task, MPc.noTasks, MPc.shrink, MPc.target, MPc.joined, MPc.pushing, hm, hq]) (.inl hq.symm)
        (by simp) (by simp [MPc.locks, MPc.task, MPc.noTasks, MPc.shrink, MPc.target, MPc.joined, MPc.pushing, hm]) (by simp [MPc.locks, MPc.task, MPc.noTasks, MPc.shrink, MPc.target, MPc.joined, MPc.pushing]) (by simp [MPc.locks, MPc.task, MPc.noTasks, MPc.shrink, MPc.target, MPc.joined, MPc.pushing]) (.inl (by simp [hm])) (by simp)
    | cons t q =>
      rw [hq] at hs
      obtain rfl := Option.some.inj hs
      refine inv_main h (.workPopped k t) s.mutex q _ _ (by simp [MPc.locks, hmx]) (by simp) ?_ (.inr (by simp [MPc.locks, MPc.task, MPc.noTasks, MPc.shrink, MPc.target, MPc.joined, MPc.pushing, hm]))
        (by simp [MPc.locks, MPc.task, MPc.noTasks, MPc.shrink, MPc.target, MPc.joined, MPc.pushing]) (by simp [MPc.locks, MPc.task, MPc.noTasks, MPc.shrink, MPc.target, MPc.joined, MPc.pushing, hm]) (by simp [MPc.locks, MPc.task, MPc.noTasks, MPc.shrink, MPc.target, MPc.joined, MPc.pushing]) (by simp [MPc.locks, MPc.task, MPc.noTasks, MPc.shrink, MPc.target, MPc.joined, MPc.pushing]) (.inl (by simp [hm]))
        (fun _ _ => .inl (.inr (by simp [hq, hm, MPc.pushing])))
      intro t'
      rw [hq, List.count_cons, hm]
      by_cases htt : t = t' <;> simp [MPc.task, htt]
  | workPopped k t =>
    rw [hm] at hs hmut
    have hmx := hmut.1 rfl
    obtain rfl := Option.some.inj hs
    exact inv_main h (.workRun k t) .free _ _ _ (by simp [MPc.locks]) (by simp [hmx]) (by simp [MPc.locks, MPc.task, MPc.noTasks, MPc.shrink, MPc.target, MPc.joined, MPc.pushing, hm]) (.inl rfl)
      (by simp [MPc.locks, MPc.task, MPc.noTasks, MPc.shrink, MPc.target, MPc.joined, MPc.pushing]) (by simp [MPc.locks, MPc.task, MPc.noTasks, MPc.shrink, MPc.target, MPc.joined, MPc.pushing, hm]) (by simp [MPc.locks, MPc.task, MPc.noTasks, MPc.shrink, MPc.target, MPc.joined, MPc.pushing]) (by simp [MPc.locks, MPc.task, MPc.noTasks, MPc.shrink, MPc.target, MPc.joined, MPc.pushing]) (.inl (by simp [hm]))
      (fun hq _ => .inl (.inr ⟨hq, by simp [hm, MPc.pushing]⟩))
  | workRun k t =>
    rw [hm] at hs hmut
    obtain rfl := Option.some.inj hs
    have hmx : s.mutex ≠ .main := fun hx => by simpa [MPc.locks] using hmut.2 hx
    have hk : (afterRun k).locks = false ∧ (afterRun k).task = none ∧ (afterRun k).noTasks = false ∧
        (afterRun k).shrink = none ∧ (afterRun k).target = none ∧ (afterRun k).joined s.ws.length = none := by
      cases k <;> exact ⟨rfl, rfl, rfl, rfl, rfl, rfl⟩
    obtain ⟨k1, k2, k3, k4, k5, k6⟩ := hk
    refine inv_main h (afterRun k) s.mutex _ _ _ (by simp [k1, hmx]) (by simp) ?_ (.inl rfl)
      (by simp [k3]) (by rw [k4, hm]; rfl) (by simp [k5]) (by simp [k6]) (.inl (by simp [hm]))
      (fun hq _ => .inl (.inr ⟨hq, by simp [hm, MPc.pushing]⟩))
    intro t'
    rw [hm, List.count_append, List.count_singleton, k2]
    by_cases htt : t = t' <;> simp [MPc.task, htt]
    omega
  | workNone k =>
    have hq := h.emp (by rw [hm]; rfl)
    rw [hm] at hs hmut
    have hmx := hmut.1 rfl
    obtain rfl := Option.some.inj hs
    have hk : (afterNone k).locks = false ∧ (afterNone k).task = none ∧
        (afterNone k).shrink = none ∧ (afterNone k).target = none ∧ (afterNone k).joined s.ws.length = none := by
      cases k <;> exact ⟨rfl, rfl, rfl, rfl, rfl⟩
    obtain ⟨k1, k2, k4, k5, k6⟩ := hk
    exact inv_main h (afterNone k) .free _ _ _ (by simp [k1]) (by simp [hmx]) (by intro t; rw [k2, hm]; rfl) (.inl rfl)
      (fun _ => hq) (by rw [k4, hm]; rfl) (by simp [k5]) (by simp [k6]) (.inl (by simp [hm]))
      (fun hq' _ => absurd hq hq')
  | spin k =>
    have hq := h.emp (by rw [hm]; rfl)
    rw [hm] at hs hmut
    dsimp only at hs
    split_ifs at hs with hb
    · obtain rfl := Option.some.inj hs; exact h
    · obtain rfl := Option.some.inj hs
      have hmx : s.mutex ≠ .main := fun hx => by simpa [MPc.locks] using hmut.2 hx
      have hk : (afterSpin k).locks = false ∧ (afterSpin k).task = none ∧
          (afterSpin k).shrink = none ∧ (afterSpin k).target = none ∧ (afterSpin k).joined s.ws.length = none := by
        cases k <;> exact ⟨rfl, rfl, rfl, rfl, rfl⟩
      obtain ⟨k1, k2, k4, k5, k6⟩ := hk
      exact inv_main h (afterSpin k) s.mutex _ _ _ (by simp [k1, hmx]) (by simp) (by intro t; rw [k2, hm]; rfl) (.inl rfl)
        (fun _ => hq) (by rw [k4, hm]; rfl) (by simp [k5]) (by simp [k6]) (.inl (by simp [hm]))
        (fun hq' _ => absurd hq hq')
  | sleepSize =>
    rw [hm] at hs hmut
    dsimp only at hs
    split_ifs at hs with hb
    · obtain rfl := Option.some.inj hs; exact h
    · obtain rfl := Option.some.inj hs
      have hq : s.queue = [] := List.length_eq_zero_iff.1 (by omega)
      have hmx : s.mutex ≠ .main := fun hx => by simpa [MPc.locks] using hmut.2 hx
      exact inv_main h .sleepBusy s.mutex _ _ _ (by simp [MPc.locks, hmx]) (by simp) (by simp [MPc.locks, MPc.task, MPc.noTasks, MPc.shrink, MPc.target, MPc.joined, MPc.pushing, hm]) (.inl rfl)
        (fun _ => hq) (by simp [MPc.locks, MPc.task, MPc.noTasks, MPc.shrink, MPc.target, MPc.joined, MPc.pushing, hm]) (by simp [MPc.locks, MPc.task, MPc.noTasks, MPc.shrink, MPc.target, MPc.joined, MPc.pushing]) (by simp [MPc.locks, MPc.task, MPc.noTasks, MPc.shrink, MPc.target, MPc.joined, MPc.pushing]) (.inl (by simp [hm]))
        (fun hq' _ => absurd hq hq')
  | sleepBusy =>
    have hq := h.emp (by rw [hm]; rfl)
    rw [hm] at hs hmut
    dsimp only at hs
    have hmx : s.mutex ≠ .main := fun hx => by simpa [MPc.locks] using hmut.2 hx
    split_ifs at hs with hb
    · obtain rfl := Option.some.inj hs
      exact inv_main h .sleepSize s.mutex _ _ _ (by simp [MPc.locks, hmx]) (by simp) (by simp [MPc.locks, MPc.task, MPc.noTasks, MPc.shrink, MPc.target, MPc.joined, MPc.pushing, hm]) (.inl rfl)
        (fun _ => hq) (by simp [MPc.locks, MPc.task, MPc.noTasks, MPc.shrink, MPc.target, MPc.joined, MPc.pushing, hm]) (by simp [MPc.locks, MPc.task, MPc.noTasks, MPc.shrink, MPc.target, MPc.joined, MPc.pushing]) (by simp [MPc.locks, MPc.task, MPc.noTasks, MPc.shrink, MPc.target, MPc.joined, MPc.pushing]) (.inl (by simp [hm]))
        (fun hq' _ => absurd hq hq')
    · obtain rfl := Option.some.inj hs
      exact inv_main h .ready s.mutex _ _ _ (by simp [MPc.locks, hmx]) (by simp) (by simp [MPc.locks, MPc.task, MPc.noTasks, MPc.shrink, MPc.target, MPc.joined, MPc.pushing, hm]) (.inl rfl)
        (fun _ => hq) (by simp [MPc.locks, MPc.task, MPc.noTasks, MPc.shrink, MPc.target, MPc.joined, MPc.pushing, hm]) (by simp [MPc.locks, MPc.task, MPc.noTasks, MPc.shrink, MPc.target, MPc.joined, MPc.pushing]) (by simp [MPc.locks, MPc.task, MPc.noTasks, MPc.shrink, MPc.target, MPc.joined, MPc.pushing]) (.inl (by simp [hm]))
        (fun hq' _ => absurd hq hq')
  | runLock m =>
    rw [hm] at hs
    exact inv_lock h _ hs rfl (by rw [hm]; rfl) (by rw [hm]; rfl) (by rw [hm]; rfl) (by rw [hm]; rfl) (by rw [hm]; rfl)
      (by rw [hm]; simp) (by rw [hm]; rfl)
  | runIn m =>
    rw [hm] at hs hmut
    have hmx := hmut.1 rfl
    cases m with
    | zero =>
      obtain rfl := Option.some.inj hs
      exact inv_main h .runNotify .free _ _ _ (by simp [MPc.locks]) (by simp [hmx]) (by simp [MPc.locks, MPc.task, MPc.noTasks, MPc.shrink, MPc.target, MPc.joined, MPc.pushing, hm]) (.inl rfl)
        (by simp [MPc.locks, MPc.task, MPc.noTasks, MPc.shrink, MPc.target, MPc.joined, MPc.pushing]) (by simp [MPc.locks, MPc.task, MPc.noTasks, MPc.shrink, MPc.target, MPc.joined, MPc.pushing, hm]) (by simp [MPc.locks, MPc.task, MPc.noTasks, MPc.shrink, MPc.target, MPc.joined, MPc.pushing]) (by simp [MPc.locks, MPc.task, MPc.noTasks, MPc.shrink, MPc.target, MPc.joined, MPc.pushing]) (.inl (by simp [hm])) (fun _ _ => .inl (.inl rfl))
    | succ m =>
      obtain rfl := Option.some.inj hs
      refine inv_main h (.runIn m) s.mutex _ _ _ (by simp [MPc.locks, hmx]) (by simp) ?_ (.inr (by simp [MPc.locks, MPc.task, MPc.noTasks, MPc.shrink, MPc.target, MPc.joined, MPc.pushing, hm]))
        (by simp [MPc.locks, MPc.task, MPc.noTasks, MPc.shrink, MPc.target, MPc.joined, MPc.pushing]) (by simp [MPc.locks, MPc.task, MPc.noTasks, MPc.shrink, MPc.target, MPc.joined, MPc.pushing, hm]) (by simp [MPc.locks, MPc.task, MPc.noTasks, MPc.shrink, MPc.target, MPc.joined, MPc.pushing]) (by simp [MPc.locks, MPc.task, MPc.noTasks, MPc.shrink, MPc.target, MPc.joined, MPc.pushing]) (.inl (by simp [hm])) (fun _ _ => .inl (.inl rfl))
      intro t
      rw [List.count_append, List.count_singleton, hm]
      by_cases htn : s.next = t
      · simp [MPc.task, htn]; omega
      · have : t < s.next + 1 ↔ t < s.next := by omega
        simp [MPc.task, htn, this]
  | runNotify =>
    rw [hm] at hs hmut
    have hmx : s.mutex ≠ .main := fun hx => by simpa [MPc.locks] using hmut.2 hx
    obtain rfl := Option.some.inj hs
    obtain ⟨n1, n2⟩ := notifyAll_spec s.ws
    have h' := inv_wake h _ n1 (fun j y hj => by obtain ⟨x, hx, hy⟩ := n2 j y hj; exact ⟨x, hx, .inr hy⟩)
    refine inv_main h' (.runSelf s.next) s.mutex s.queue _ s.done (by simp [MPc.locks, hmx]) (by simp)
        ?_ (.inl rfl) (by simp [MPc.locks, MPc.task, MPc.noTasks, MPc.shrink, MPc.target, MPc.joined, MPc.pushing]) (by simp [MPc.locks, MPc.task, MPc.noTasks, MPc.shrink, MPc.target, MPc.joined, MPc.pushing, hm]) (by simp [MPc.locks, MPc.task, MPc.noTasks, MPc.shrink, MPc.target, MPc.joined, MPc.pushing]) (by simp [MPc.locks, MPc.task, MPc.noTasks, MPc.shrink, MPc.target, MPc.joined, MPc.pushing])
        (.inl (by simp [hm])) (fun _ hne => .inr ?_)
    · intro t
      dsimp only
      rw [hm]
      by_cases htn : s.next = t
      · simp [MPc.task, htn]; omega
      · have : t < s.next + 1 ↔ t < s.next := by omega
        simp [MPc.task, htn, this]
    · refine awake_of_noflag h' (by simp [hm, MPc.shrink]) hne ?_
      rintro ⟨j, y, hj, hp⟩
      obtain ⟨x, hx, rfl⟩ := n2 j y hj
      rw [wake_pc] at hp
      split_ifs at hp with hp'
      exact hp' hp
  | runSelf t =>
    rw [hm] at hs hmut
    obtain rfl := Option.some.inj hs
    have hmx : s.mutex ≠ .main := fun hx => by simpa [MPc.locks] using hmut.2 hx
    refine inv_main h .sleepSize s.mutex _ _ _ (by simp [MPc.locks, hmx]) (by simp) ?_ (.inl rfl)
      (by simp [MPc.locks, MPc.task, MPc.noTasks, MPc.shrink, MPc.target, MPc.joined, MPc.pushing]) (by simp [MPc.locks, MPc.task, MPc.noTasks, MPc.shrink, MPc.target, MPc.joined, MPc.pushing, hm]) (by simp [MPc.locks, MPc.task, MPc.noTasks, MPc.shrink, MPc.target, MPc.joined, MPc.pushing]) (by simp [MPc.locks, MPc.task, MPc.noTasks, MPc.shrink, MPc.target, MPc.joined, MPc.pushing]) (.inl (by simp [hm]))
      (fun hq _ => .inl (.inr ⟨hq, by simp [hm, MPc.pushing]⟩))
    intro t'
    rw [hm, List.count_append, List.count_singleton]
    by_cases htt : t = t' <;> simp [MPc.task, htt]
    omega
  | shrinkLock n =>
    rw [hm] at hs
    exact inv_lock h _ hs rfl (by rw [hm]; rfl) (by rw [hm]; rfl) (by rw [hm]; rfl) (by rw [hm]; rfl) (by rw [hm]; rfl)
      (by rw [hm]; simp) (by rw [hm]; rfl)
  | shrinkFlag n =>
    rw [hm] at hs hmut
    have hmx := hmut.1 rfl
    obtain rfl := Option.some.inj hs
    have hget : ∀ (j : ℕ) (y : Worker), (s.ws.mapIdx fun i x => if n ≤ i then { x with stop := true } else x)[j]? = some y →
        ∃ x, s.ws[j]? = some x ∧ y.pc = x.pc ∧ (y.stop = true ↔ x.stop = true ∨ n ≤ j) := by
      intro j y hj
      rw [List.getElem?_mapIdx] at hj
      cases hx : s.ws[j]? with
      | none => rw [hx] at hj; cases hj
      | some x =>
        rw [hx] at hj
        obtain rfl := Option.some.inj hj
        refine ⟨x, rfl, ?_⟩
        split_ifs with hnj
        · exact ⟨rfl, by simp [hnj]⟩
        · exact ⟨rfl, by simp [hnj]⟩
    have hlen : (s.ws.mapIdx fun i x => if n ≤ i then ({ x with stop := true } : Worker) else x).length = s.ws.length := by simp
    generalize (s.ws.mapIdx fun i x => if n ≤ i then ({ x with stop := true } : Worker) else x) = ws' at hget hlen ⊢
    have hnos : ∀ (j : ℕ) (x : Worker), s.ws[j]? = some x → x.stop ≠ true := by
      intro j x hx hst
      obtain ⟨n', hn', -⟩ := (h.stp j x hx).1 hst
      rw [hm] at hn'; cases hn'
    have htg := h.tgt n (by rw [hm]; rfl)
    obtain ⟨lockW, lockR, lockM, busy, acct, chk, inc, emp, stp, ext, tgt, jnd, wtg, awk⟩ := h
    constructor
    · intro j y hj
      obtain ⟨x, hx, h1, -⟩ := hget j y hj
      rw [h1]; exact lockW j x hx
    · intro j hj
      dsimp only
      rw [hlen]; exact lockR j hj
    · simp [MPc.locks, hmx]
    · dsimp only
      rw [busy]
      refine (countP_congr' _ _ _ hlen fun j x y hx hy => ?_).symm
      obtain ⟨x', hx', h1, -⟩ := hget j y hy
      obtain rfl := Option.some.inj (hx.symm.trans hx')
      rw [h1]
    · intro t
      dsimp only
      rw [← acct t, hm]
      rw [countP_congr' _ s.ws ws' hlen fun j x y hx hy => ?_]
      · simp [MPc.task]
      · obtain ⟨x', hx', h1, -⟩ := hget j y hy
        obtain rfl := Option.some.inj (hx.symm.trans hx')
        rw [h1]
    · intro j y hj hp
      obtain ⟨x, hx, h1, -⟩ := hget j y hj
      exact chk j x hx (h1 ▸ hp)
    · intro j y hj hp
      obtain ⟨x, hx, h1, -⟩ := hget j y hj
      exact inc j x hx (h1 ▸ hp)
    · simp [MPc.noTasks]
    · intro j y hj
      obtain ⟨x, hx, -, h1⟩ := hget j y hj
      rw [h1]
      simp only [MPc.shrink, Option.some.injEq, exists_eq_left']
      exact or_iff_right (hnos j x hx)
    · intro j y hj hp
      obtain ⟨x, hx, h1, -⟩ := hget j y hj
      exact absurd (ext j x hx (h1 ▸ hp)).1 (hnos j x hx)
    · intro n' hn'
      simp only [MPc.target, MPc.shrink, Option.some.injEq] at hn'
      dsimp only
      rw [hlen, ← hn']; exact htg
    · simp [MPc.joined]
    · intro j y _ _ _
      exact ⟨n, rfl⟩
    · intro h1 h2
      dsimp only at h1 h2
      have h2' : s.ws ≠ [] := by
        intro h; rw [h, List.length_nil, List.length_eq_zero_iff] at hlen; exact h2 hlen
      rcases awk h1 h2' with ⟨j, x, hx, h3, h4⟩ | h3
      · left
        have hj : j < s.ws.length := (List.getElem?_eq_some_iff.1 hx).1
        have hj' : ws'[j]? = some (ws'[j]'(by omega)) := List.getElem?_eq_getElem (by omega)
        obtain ⟨x', hx', h5, -⟩ := hget j _ hj'
        obtain rfl := Option.some.inj (hx.symm.trans hx')
        exact ⟨j, _, hj', by rw [h5]; exact ⟨h3, h4⟩⟩
      · rw [hm] at h3; cases h3
  | shrinkNotify n =>
    rw [hm] at hs hmut
    have hmx := hmut.1 rfl
    obtain rfl := Option.some.inj hs
    obtain ⟨n1, n2⟩ := notifyAll_spec s.ws
    have h' := inv_wake h _ n1 (fun j y hj => by obtain ⟨x, hx, hy⟩ := n2 j y hj; exact ⟨x, hx, .inr hy⟩)
    refine inv_main h' (.shrinkUnlock n) s.mutex s.queue s.next s.done (by simp [MPc.locks, hmx]) (by simp)
        (by simp [MPc.locks, MPc.task, MPc.noTasks, MPc.shrink, MPc.target, MPc.joined, MPc.pushing, hm]) (.inl rfl) (by simp [MPc.locks, MPc.task, MPc.noTasks, MPc.shrink, MPc.target, MPc.joined, MPc.pushing]) (by simp [MPc.locks, MPc.task, MPc.noTasks, MPc.shrink, MPc.target, MPc.joined, MPc.pushing, hm]) (fun n' hn' => ?_) (by simp [MPc.locks, MPc.task, MPc.noTasks, MPc.shrink, MPc.target, MPc.joined, MPc.pushing])
        (.inr ?_) (fun hq _ => .inl (.inr ⟨hq, by simp [hm, MPc.pushing]⟩))
    · exact h'.tgt n' (by dsimp only; rw [hm]; exact hn')
    · intro j y hj hp
      obtain ⟨x, hx, rfl⟩ := n2 j y hj
      rw [wake_pc] at hp
      split_ifs at hp with hp'
      exact hp' hp
  | shrinkUnlock n =>
    have htg := h.tgt n (by rw [hm]; rfl)
    rw [hm] at hs hmut
    have hmx := hmut.1 rfl
    obtain rfl := Option.some.inj hs
    refine inv_main h (.joining n n) .free _ _ _ (by simp [MPc.locks]) (by simp [hmx]) (by simp [MPc.locks, MPc.task, MPc.noTasks, MPc.shrink, MPc.target, MPc.joined, MPc.pushing, hm]) (.inl rfl)
      (by simp [MPc.locks, MPc.task, MPc.noTasks, MPc.shrink, MPc.target, MPc.joined, MPc.pushing]) (by simp [MPc.locks, MPc.task, MPc.noTasks, MPc.shrink, MPc.target, MPc.joined, MPc.pushing, hm]) (fun n' hn' => ?_) (fun n' k hn' => ?_) (.inl (by simp [hm]))
      (fun hq _ => .inl (.inr ⟨hq, by simp [hm, MPc.pushing]⟩))
    · simp only [MPc.target, MPc.shrink, Option.some.injEq] at hn'
      omega
    · simp only [MPc.joined, Option.some.injEq, Prod.mk.injEq] at hn'
      exact ⟨by omega, by omega, fun i x _ _ _ => by omega⟩
  | joining n i =>
    have htg := h.tgt n (by rw [hm]; rfl)
    obtain ⟨j1, j2, j3⟩ := h.jnd n i (by rw [hm]; rfl)
    rw [hm] at hs hmut
    have hmx : s.mutex ≠ .main := fun hx => by simpa [MPc.locks] using hmut.2 hx
    dsimp only at hs
    split at hs
    · rename_i x hx
      split_ifs at hs with hp
      obtain rfl := Option.some.inj hs
      have hi : i < s.ws.length := (List.getElem?_eq_some_iff.1 hx).1
      refine inv_main h (.joining n (i + 1)) s.mutex _ _ _ (by simp [MPc.locks, hmx]) (by simp) (by simp [MPc.locks, MPc.task, MPc.noTasks, MPc.shrink, MPc.target, MPc.joined, MPc.pushing, hm]) (.inl rfl)
        (by simp [MPc.locks, MPc.task, MPc.noTasks, MPc.shrink, MPc.target, MPc.joined, MPc.pushing]) (by simp [MPc.locks, MPc.task, MPc.noTasks, MPc.shrink, MPc.target, MPc.joined, MPc.pushing, hm]) (fun n' hn' => ?_) (fun n' k hn' => ?_) (.inl (by simp [hm]))
        (fun hq _ => .inl (.inr ⟨hq, by simp [hm, MPc.pushing]⟩))
      · simp only [MPc.target, MPc.shrink, Option.some.injEq] at hn'
        omega
      · simp only [MPc.joined, Option.some.injEq, Prod.mk.injEq] at hn'
        refine ⟨by omega, by omega, fun j y hj g1 g2 => ?_⟩
        by_cases hji : j = i
        · rw [hji, hx] at hj; obtain rfl := Option.some.inj hj; exact hp
        · exact j3 j y hj (by omega) (by omega)
    · rename_i hx
      obtain rfl := Option.some.inj hs
      have hi : s.ws.length ≤ i := List.getElem?_eq_none_iff.1 hx
      refine inv_main h (.shrinkRelock n) s.mutex _ _ _ (by simp [MPc.locks, hmx]) (by simp) (by simp [MPc.locks, MPc.task, MPc.noTasks, MPc.shrink, MPc.target, MPc.joined, MPc.pushing, hm]) (.inl rfl)
        (by simp [MPc.locks, MPc.task, MPc.noTasks, MPc.shrink, MPc.target, MPc.joined, MPc.pushing]) (by simp [MPc.locks, MPc.task, MPc.noTasks, MPc.shrink, MPc.target, MPc.joined, MPc.pushing, hm]) (fun n' hn' => ?_) (fun n' k hn' => ?_) (.inl (by simp [hm]))
        (fun hq _ => .inl (.inr ⟨hq, by simp [hm, MPc.pushing]⟩))
      · simp only [MPc.target, MPc.shrink, Option.some.injEq] at hn'
        omega
      · simp only [MPc.joined, Option.some.injEq, Prod.mk.injEq] at hn'
        exact ⟨by omega, by omega, fun j y hj g1 g2 => j3 j y hj (by omega) (by omega)⟩
  | shrinkRelock n =>
    rw [hm] at hs
    exact inv_lock h _ hs rfl (by rw [hm]; rfl) (by rw [hm]; rfl) (by rw [hm]; rfl) (by rw [hm]; rfl) (by rw [hm]; rfl)
      (by rw [hm]; simp) (by rw [hm]; rfl)
  | shrinkDrop n =>
    have htg := h.tgt n (by rw [hm]; rfl)
    obtain ⟨-, -, j3⟩ := h.jnd n s.ws.length (by rw [hm]; rfl)
    rw [hm] at hs hmut
    have hmx := hmut.1 rfl
    obtain rfl := Option.some.inj hs
    have hqe : s.queue = [] := by
      have hx : s.ws[n]? = some s.ws[n] := List.getElem?_eq_getElem htg
      exact (h.ext n _ hx (j3 n _ hx le_rfl htg)).2
    have hget : ∀ (j : ℕ) (y : Worker), (s.ws.take n)[j]? = some y → j < n ∧ s.ws[j]? = some y := by
      intro j y hj
      rw [List.getElem?_take] at hj
      split_ifs at hj with hjn
      exact ⟨hjn, hj⟩
    have hcnt : ∀ p : Worker → Bool, (∀ x : Worker, x.pc = .exited → p x = false) → (s.ws.take n).countP p = s.ws.countP p := by
      intro p hp
      conv_rhs => rw [← List.take_append_drop n s.ws, List.countP_append]
      have : (s.ws.drop n).countP p = 0 := by
        rw [List.countP_eq_zero]
        intro x hx
        obtain ⟨j, hj⟩ := List.getElem?_of_mem hx
        rw [List.getElem?_drop] at hj
        have hlt : n + j < s.ws.length := (List.getElem?_eq_some_iff.1 hj).1
        rw [hp x (j3 (n + j) x hj (by omega) hlt)]
        simp
      omega
    have hnw : ∀ j, s.mutex ≠ .worker j := fun j hj => by rw [hmx] at hj; cases hj
    obtain ⟨lockW, lockR, lockM, busy, acct, chk, inc, emp, stp, ext, tgt, jnd, wtg, awk⟩ := h
    constructor
    · intro j y hj
      exact lockW j y (hget j y hj).2
    · intro j hj
      exact absurd hj (hnw j)
    · simp [MPc.locks, hmx]
    · dsimp only
      rw [busy, hcnt]
      intro x hx; rw [hx]; rfl
    · intro t
      dsimp only
      rw [← acct t, hm, hcnt]
      · simp [MPc.task]
      · intro x hx; rw [hx]; rfl
    · intro j y hj hp
      exact hqe
    · intro j y hj hp
      exact inc j y (hget j y hj).2 hp
    · simp [MPc.noTasks]
    · intro j y hj
      obtain ⟨h1, h2⟩ := hget j y hj
      rw [stp j y h2, hm]
      simp [MPc.shrink, h1]
    · intro j y hj hp
      exact ext j y (hget j y hj).2 hp
    · simp [MPc.target, MPc.shrink]
    · simp [MPc.joined]
    · intro j y hj hp hst
      obtain ⟨n', hn'⟩ := wtg j y (hget j y hj).2 hp hst
      rw [hm] at hn'; cases hn'
    · intro h1 _
      exact absurd hqe h1
  | shrinkEnd =>
    rw [hm] at hs hmut
    have hmx := hmut.1 rfl
    obtain rfl := Option.some.inj hs
    exact inv_main h .ready .free _ _ _ (by simp [MPc.locks]) (by simp [hmx]) (by simp [MPc.locks, MPc.task, MPc.noTasks, MPc.shrink, MPc.target, MPc.joined, MPc.pushing, hm]) (.inl rfl)
      (by simp [MPc.locks, MPc.task, MPc.noTasks, MPc.shrink, MPc.target, MPc.joined, MPc.pushing]) (by simp [MPc.locks, MPc.task, MPc.noTasks, MPc.shrink, MPc.target, MPc.joined, MPc.pushing, hm]) (by simp [MPc.locks, MPc.task, MPc.noTasks, MPc.shrink, MPc.target, MPc.joined, MPc.pushing]) (by simp [MPc.locks, MPc.task, MPc.noTasks, MPc.shrink, MPc.target, MPc.joined, MPc.pushing]) (.inl (by simp [hm]))
      (fun hq _ => .inl (.inr ⟨hq, by simp [hm, MPc.pushing]⟩))
  | growLock n =>
    rw [hm] at hs
    exact inv_lock h _ hs rfl (by rw [hm]; rfl) (by rw [hm]; rfl) (by rw [hm]; rfl) (by rw [hm]; rfl) (by rw [hm]; rfl)
      (by rw [hm]; simp) (by rw [hm]; rfl)
  | growIn n =>
    have hqe := h.emp (by rw [hm]; rfl)
    rw [hm] at hs hmut
    have hmx := hmut.1 rfl
    obtain rfl := Option.some.inj hs
    have hget : ∀ (j : ℕ) (y : Worker), (s.ws ++ List.replicate (n - s.ws.length) (⟨.wantLock, false⟩ : Worker))[j]? = some y →
        s.ws[j]? = some y ∨ y = ⟨.wantLock, false⟩ := by
      intro j y hj
      rw [List.getElem?_append] at hj
      split_ifs at hj with hjl
      · exact .inl hj
      · exact .inr (List.eq_of_mem_replicate (List.mem_of_getElem? hj))
    have hcnt : ∀ p : Worker → Bool, p ⟨.wantLock, false⟩ = false →
        (s.ws ++ List.replicate (n - s.ws.length) (⟨.wantLock, false⟩ : Worker)).countP p = s.ws.countP p := by
      intro p hp
      rw [List.countP_append, List.countP_replicate, hp]
      simp
    have hnw : ∀ j, s.mutex ≠ .worker j := fun j hj => by rw [hmx] at hj; cases hj
    obtain ⟨lockW, lockR, lockM, busy, acct, chk, inc, emp, stp, ext, tgt, jnd, wtg, awk⟩ := h
    constructor
    · intro j y hj
      rcases hget j y hj with h1 | rfl
      · exact lockW j y h1
      · simp [WPc.locks, hnw]
    · intro j hj
      exact absurd hj (hnw j)
    · simp [MPc.locks, hmx]
    · dsimp only
      rw [busy, hcnt]
      rfl
    · intro t
      dsimp only
      rw [← acct t, hm, hcnt]
      · simp [MPc.task]
      · rfl
    · intro j y hj hp
      exact hqe
    · intro j y hj hp
      rcases hget j y hj with h1 | rfl
      · exact inc j y h1 hp
      · cases hp
    · simp [MPc.noTasks]
    · intro j y hj
      rcases hget j y hj with h1 | rfl
      · rw [stp j y h1, hm]
        simp [MPc.shrink]
      · simp [MPc.shrink]
    · intro j y hj hp
      rcases hget j y hj with h1 | rfl
      · exact ext j y h1 hp
      · cases hp
    · simp [MPc.target, MPc.shrink]
    · simp [MPc.joined]
    · intro j y hj hp hst
      rcases hget j y hj with h1 | rfl
      · obtain ⟨n', hn'⟩ := wtg j y h1 hp hst
        rw [hm] at hn'; cases hn'
      · cases hp
    · intro h1 _
      exact absurd hqe h1
  | growEnd =>
    rw [hm] at hs hmut
    have hmx := hmut.1 rfl
    obtain rfl := Option.some.inj hs
    exact inv_main h .ready .free _ _ _ (by simp [MPc.locks]) (by simp [hmx]) (by simp [MPc.locks, MPc.task, MPc.noTasks, MPc.shrink, MPc.target, MPc.joined, MPc.pushing, hm]) (.inl rfl)
      (by simp [MPc.locks, MPc.task, MPc.noTasks, MPc.shrink, MPc.target, MPc.joined, MPc.pushing]) (by simp [MPc.locks, MPc.task, MPc.noTasks, MPc.shrink, MPc.target, MPc.joined, MPc.pushing, hm]) (by simp [MPc.locks, MPc.task, MPc.noTasks, MPc.shrink, MPc.target, MPc.joined, MPc.pushing]) (by simp [MPc.locks, MPc.task, MPc.noTasks, MPc.shrink, MPc.target, MPc.joined, MPc.pushing]) (.inl (by simp [hm]))
      (fun hq _ => .inl (.inr ⟨hq, by simp [hm, MPc.pushing]⟩))

theorem inv_step {s s' : State} (h : Inv s) (a : Act) (hs : step s a = some s') : Inv s' := by
  cases a with
  | main w => exact inv_mainStep h hs
  | worker i =>
    unfold step at hs
    dsimp only at hs
    split at hs
    · rename_i x hx
      exact inv_worker h hx hs
    · cases hs
  | spurious i =>
    unfold step at hs
    dsimp only at hs
    split at hs
    · rename_i x hx
      split_ifs at hs with hp
      obtain rfl := Option.some.inj hs
      refine inv_wake h _ (by simp) (fun j y hj => ?_)
      rw [getElem?_set' _ _ _ _ _ hx] at hj
      split_ifs at hj with hji
      · obtain rfl := Option.some.inj hj
        exact ⟨x, hji ▸ hx, .inr rfl⟩
      · exact ⟨y, hj, .inl rfl⟩
    · cases hs
  | call c =>
    unfold step at hs
    dsimp only at hs
    split_ifs at hs with hm
    have hmx : s.mutex ≠ .main := fun hx => by simpa [hm, MPc.locks] using h.lockM.2 hx
    have key : ∀ p : MPc, p.locks = false → p.task = none → p.noTasks = false → p.shrink = none →
        (∀ n, p.target = some n → n < s.ws.length) → p.joined s.ws.length = none → Inv { s with main := p } := by
      intro p k1 k2 k3 k4 k5 k6
      exact inv_main h p s.mutex _ _ _ (by simp [k1, hmx]) (by simp) (by intro t; rw [k2, hm]; rfl) (.inl rfl)
        (by simp [k3]) (by rw [k4, hm]; rfl) k5 (by simp [k6]) (.inl (by simp [hm]))
        (fun hq _ => .inl (.inr ⟨hq, by simp [hm, MPc.pushing]⟩))
    cases c with
    | push => obtain rfl := Option.some.inj hs; exact key _ rfl rfl rfl rfl (by simp [MPc.target, MPc.shrink]) rfl
    | work => obtain rfl := Option.some.inj hs; exact key _ rfl rfl rfl rfl (by simp [MPc.target, MPc.shrink]) rfl
    | waitWork => obtain rfl := Option.some.inj hs; exact key _ rfl rfl rfl rfl (by simp [MPc.target, MPc.shrink]) rfl
    | waitSleep => obtain rfl := Option.some.inj hs; exact key _ rfl rfl rfl rfl (by simp [MPc.target, MPc.shrink]) rfl
    | run th => obtain rfl := Option.some.inj hs; exact key _ rfl rfl rfl rfl (by simp [MPc.target, MPc.shrink]) rfl
    | resize n =>
      unfold callStep at hs
      dsimp only at hs
      split_ifs at hs with h1 h2
      · obtain rfl := Option.some.inj hs
        exact key _ rfl rfl rfl rfl (by simp only [MPc.target, Option.some.injEq]; intro n' hn'; omega) rfl
      · obtain rfl := Option.some.inj hs; exact key _ rfl rfl rfl rfl (by simp [MPc.target, MPc.shrink]) rfl
      · obtain rfl := Option.some.inj hs; exact h

theorem inv_reach {s : State} (h : Reach s) : Inv s := by
  induction h with
  | init => exact inv_init
  | step a _ hs ih => exact inv_step ih a hs

end Pool
end Fplll

import Verif.Model.BKZ
import Mathlib.Data.Finset.Lattice.Fold
import Mathlib.Data.Finset.Range
import Mathlib.Tactic.Ring
import Mathlib.Tactic.Linarith
import Mathlib.Tactic.SplitIfs
import Mathlib.Tactic.NormNum

/-!
# Lemmas on the control flow of block reduction
-/

namespace Fplll
namespace BKZ

variable {σ α β : Type}

/-! ## Invariants of all outcomes -/

/-- `P` holds of the final state of each outcome; `Q` of a state in which a row outside the basis was used -/
def Out.All (P Q : σ → Prop) : Out σ α → Prop
  | .ok _ s => P s
  | .thrown s => P s
  | .stuck s => P s
  | .ub s => Q s

theorem Out.All.bind {P Q : σ → Prop} {m : Out σ α} {f : α → σ → Out σ β} (hm : m.All P Q)
    (hf : ∀ a s, P s → (f a s).All P Q) : (m.bind f).All P Q := by
  cases m with
  | ok a s => exact hf a s hm
  | thrown s => exact hm
  | stuck s => exact hm
  | ub s => exact hm

theorem loop_all {P Q : σ → Prop} {f : ℤ → σ → Out σ Bool} {step : ℤ} (n : ℕ) (k : ℤ)
    (hf : ∀ j < n, ∀ s, P s → (f (k + step * (j : ℕ)) s).All P Q) (c : Bool) (s : σ) (hs : P s) :
    (loop f step n k c s).All P Q := by
  induction n generalizing k c s with
  | zero => exact hs
  | succ n ih =>
    rw [loop]
    have h0 := hf 0 (Nat.succ_pos n) s hs
    rw [Nat.cast_zero, mul_zero, add_zero] at h0
    refine h0.bind fun a s' hs' => ih (k + step) (fun j hj s hs => ?_) _ _ hs'
    have h1 := hf (j + 1) (Nat.succ_lt_succ hj) s hs
    have e : k + step + step * (j : ℕ) = k + step * ((j + 1 : ℕ) : ℤ) := by push_cast; ring
    rw [e]; exact h1

/-- the basic procedures respect `P` when used on rows of the basis -/
structure OpsInv (n : ℤ) (o : Ops σ) (P Q : σ → Prop) : Prop where
  svp : ∀ kappa bs dual s, 0 ≤ kappa → 1 ≤ bs → kappa + bs ≤ n → P s → (o.svp kappa bs dual s).All P Q
  lll : ∀ s, P s → (o.lll 0 0 n s).All P Q
  sizeRed : ∀ k s, 1 ≤ k → k ≤ n → P s → (o.sizeRed (k - 1) k (k - 2) s).All P Q
  symG : ∀ s, P s → P (o.symG s)
  noProgress : ∀ s, P s → P (o.noProgress s).2

variable {P Q : σ → Prop} {o : Ops σ} {n : ℤ}

theorem truncTour_all (h : OpsInv n o P Q) {bs lo hi : ℤ} (hbs : 1 ≤ bs) (hlo : 0 ≤ lo) (hhi : hi ≤ n) {s : σ} (hs : P s) :
    (truncTour o bs lo hi s).All P Q :=
  loop_all _ _ (fun j hj s hs => h.svp _ _ _ s (by omega) hbs (by omega) hs) _ _ hs

theorem truncDtour_all (h : OpsInv n o P Q) {bs lo hi : ℤ} (hbs : 1 ≤ bs) (hlo : 0 ≤ lo) (hhi : hi ≤ n) {s : σ} (hs : P s) :
    (truncDtour o bs lo hi s).All P Q :=
  loop_all _ _ (fun j hj s hs => h.svp _ _ _ s (by omega) hbs (by omega) hs) _ _ hs

theorem hkz_all (h : OpsInv n o P Q) {lo hi : ℤ} (hlo : 0 ≤ lo) (hhi1 : 1 ≤ hi) (hhi : hi ≤ n) {s : σ} (hs : P s) :
    (hkz o lo hi s).All P Q :=
  (loop_all _ _ (fun j hj s hs => h.svp _ _ _ s (by omega) (by omega) (by omega) hs) _ _ hs).bind
    fun _ _ hs => (h.sizeRed hi _ hhi1 hhi hs).bind fun _ _ hs => hs

theorem tour_all (h : OpsInv n o P Q) {bs lo hi : ℤ} (hbs : 1 ≤ bs) (hlo : 0 ≤ lo) (hhi1 : 1 ≤ hi) (hhi : hi ≤ n) {s : σ}
    (hs : P s) : (tour o bs lo hi s).All P Q :=
  (truncTour_all h hbs hlo hhi hs).bind fun _ _ hs =>
    (hkz_all h (le_max_right _ _) hhi1 hhi hs).bind fun _ s hs => h.symG s hs

theorem sdTour_all (h : OpsInv n o P Q) {bs : ℤ} (hbs : 1 ≤ bs) {s : σ} (hs : P s) : (sdTour o bs 0 n s).All P Q :=
  (truncDtour_all h hbs le_rfl le_rfl hs).bind fun _ _ hs => (truncTour_all h hbs le_rfl le_rfl hs).bind fun _ _ hs => hs

theorem numBlocks_spec {bs : ℤ} (hbs : 1 ≤ bs) (hn : 0 ≤ n) :
    (numBlocks bs 0 n - 1) * bs < n ∧ n ≤ numBlocks bs 0 n * bs ∧ 0 ≤ numBlocks bs 0 n := by
  unfold numBlocks
  rw [sub_zero, Int.tdiv_eq_ediv_of_nonneg hn, Int.tmod_eq_emod_of_nonneg hn]
  have h1 := Int.mul_ediv_add_emod n bs
  have h2 := Int.emod_nonneg n (show bs ≠ 0 by omega)
  have h3 := Int.emod_lt_of_pos n (show 0 < bs by omega)
  have h4 : 0 ≤ n / bs := Int.ediv_nonneg hn (by omega)
  split_ifs with h0
  · have h5 : 0 < n % bs := by omega
    refine ⟨?_, ?_, by omega⟩ <;> nlinarith
  · have h0 : n % bs = 0 := by by_contra hh; exact h0 hh
    rw [h0] at h1
    refine ⟨?_, ?_, by omega⟩ <;> nlinarith

theorem slideLoop_all (h : OpsInv n o P Q) (hn : 0 ≤ n) {bounded : Bool} {bs : ℤ} (hbs : 1 ≤ bs) (fuel : ℕ) {s : σ} (hs : P s) :
    (slideLoop o bounded bs 0 n fuel s).All P Q := by
  obtain ⟨hb1, hb2, hb3⟩ := numBlocks_spec hbs hn
  induction fuel generalizing s with
  | zero => exact hs
  | succ fuel ih =>
    rw [slideLoop]
    refine (loop_all _ _ (fun j hj s hs => ?_) _ _ hs).bind fun c s hs => ?_
    · have hj' : (j : ℤ) ≤ numBlocks bs 0 n - 1 := by omega
      have : (j : ℤ) * bs ≤ (numBlocks bs 0 n - 1) * bs := mul_le_mul_of_nonneg_right hj' (by omega)
      have h0 : 0 ≤ (j : ℤ) * bs := by positivity
      refine h.svp _ _ _ s ?_ ?_ ?_ hs
      · simpa using h0
      · simp only [zero_add, one_mul]; omega
      · simp only [zero_add, one_mul]; omega
    · split_ifs
      · refine (h.lll s hs).bind fun r s hs => ?_
        split_ifs
        · exact hs
        · exact hs
        · exact ih hs
      · exact hs
      · exact ih hs

theorem slideTour_all (h : OpsInv n o P Q) (hn : 0 ≤ n) {bounded : Bool} {bs : ℤ} (hbs : 1 ≤ bs) (fuel : ℕ) {s : σ} (hs : P s) :
    (slideTour o bounded bs 0 n fuel s).All P Q := by
  obtain ⟨hb1, hb2, hb3⟩ := numBlocks_spec hbs hn
  refine (slideLoop_all h hn hbs fuel hs).bind fun _ s hs => (loop_all _ _ (fun j hj s hs => ?_) _ _ hs).bind fun _ s hs =>
    h.noProgress s hs
  have hj' : (j : ℤ) + 1 ≤ numBlocks bs 0 n - 1 := by omega
  have : ((j : ℤ) + 1) * bs ≤ (numBlocks bs 0 n - 1) * bs := mul_le_mul_of_nonneg_right hj' (by omega)
  have h0 : 0 ≤ (j : ℤ) * bs := by positivity
  have e : ((j : ℤ) + 1) * bs = j * bs + bs := by ring
  refine h.svp _ _ _ s ?_ hbs ?_ hs
  · simp only [zero_add, one_mul]; omega
  · simp only [zero_add, one_mul]; omega

theorem sldFinish_all (h : OpsInv n o P Q) (hn : 0 ≤ n) {bs : ℤ} (hbs : 1 ≤ bs) {s : σ} (hs : P s) :
    (sldFinish o bs n s).All P Q := by
  obtain ⟨hb1, hb2, hb3⟩ := numBlocks_spec hbs hn
  refine loop_all _ _ (fun j hj s hs => ?_) _ _ hs
  have hj' : (j : ℤ) ≤ numBlocks bs 0 n - 1 := by omega
  have : (j : ℤ) * bs ≤ (numBlocks bs 0 n - 1) * bs := mul_le_mul_of_nonneg_right hj' (by omega)
  have h0 : 0 ≤ (j : ℤ) * bs := by positivity
  refine hkz_all h ?_ ?_ ?_ hs
  · simp only [zero_add, one_mul]; omega
  · simp only [zero_add, one_mul]; omega
  · exact min_le_left _ _

section main
variable {D : Type} [LinearOrder D]

omit [LinearOrder D] in
theorem oneTour_all (h : OpsInv n o P Q) (hn : 1 ≤ n) {c : Cfg D} (hbs : 1 ≤ c.blockSize) (inner : ℕ) {s : σ} (hs : P s) :
    (oneTour o c n inner s).All P Q := by
  unfold oneTour
  split_ifs
  · exact sdTour_all h hbs hs
  · exact slideTour_all h (by omega) hbs inner hs
  · exact tour_all h hbs le_rfl hn le_rfl hs

theorem mainLoop_all (h : OpsInv n o P Q) (hn : 1 ≤ n) {c : Cfg D} (hbs : 1 ≤ c.blockSize) {e : Env D σ}
    (he : ∀ i s, P s → P (e.slope i s).2) (inner fuel i : ℕ) (a : AutoAbort D) {s : σ} (hs : P s) :
    (mainLoop o c e n inner fuel i a s).All P Q := by
  induction fuel generalizing i a s with
  | zero => exact hs
  | succ fuel ih =>
    rw [mainLoop]
    have hs' : P (if autoOn c = true then (e.slope i s).2 else s) := by split_ifs; exacts [he i s hs, hs]
    by_cases h1 : c.maxLoops.any (fun m => decide (m ≤ (i : ℤ))) = true
    · rw [if_pos h1]; exact hs
    rw [if_neg h1]
    by_cases h2 : c.maxTime = true ∧ e.timeUp i s = true
    · rw [if_pos h2]; exact hs
    rw [if_neg h2]
    dsimp only
    by_cases h3 : autoOn c = true ∧ (a.test c.scaled c.maxNoDec (e.slope i s).1).1 = true
    · rw [if_pos h3]; exact hs'
    rw [if_neg h3]
    refine (oneTour_all h hn hbs inner hs').bind fun c s hs => ?_
    split_ifs
    · exact hs
    · exact ih _ _ hs
    · exact ih _ _ hs

theorem Out.All.mono {P P' Q : σ → Prop} {m : Out σ α} (h : m.All P Q) (hP : ∀ s, P s → P' s) : m.All P' Q := by
  cases m with
  | ok a s => exact hP _ h
  | thrown s => exact hP _ h
  | stuck s => exact hP _ h
  | ub s => exact h

theorem bkz_all' [OrderTop D] {R : σ → Prop} (h : OpsInv n o P Q) (hn : 1 ≤ n) {c : Cfg D} (hsd : c.sd = true → c.blockSize ≤ n) {e : Env D σ}
    (he : ∀ i s, P s → P (e.slope i s).2) {prep : σ → σ} (inner fuel : ℕ) {s : σ} (hprep : P (prep s)) (hs : R s) (hR : ∀ s, P s → R s) :
    (bkz o c e prep n inner fuel s).All R Q := by
  unfold bkz
  by_cases h1 : c.sd = true ∧ c.sld = true
  · rw [if_pos h1]; exact hs
  rw [if_neg h1]
  by_cases h2 : c.blockSize < 2
  · rw [if_pos h2]; exact hs
  rw [if_neg h2]
  refine Out.All.mono (P := P) ?_ hR
  refine Out.All.bind (α := Unit) ?_ fun _ s hs => (mainLoop_all h hn (by omega) he inner fuel 0 _ hs).bind fun r s hs =>
    Out.All.bind (α := Bool) ?_ fun _ s hs => Out.All.bind (α := Bool) ?_ fun _ s hs => hs
  · split_ifs
    · exact (h.lll _ hprep).bind fun _ _ hs => hs
    · exact hprep
  · split_ifs with h3
    · exact hkz_all h (by have := hsd h3; omega) hn le_rfl hs
    · exact hs
  · split_ifs
    · exact sldFinish_all h (by omega) (by omega) hs
    · exact hs

theorem bkz_all [OrderTop D] (h : OpsInv n o P Q) (hn : 1 ≤ n) {c : Cfg D} (hsd : c.sd = true → c.blockSize ≤ n) {e : Env D σ}
    (he : ∀ i s, P s → P (e.slope i s).2) {prep : σ → σ} (hprep : ∀ s, P s → P (prep s)) (inner fuel : ℕ) {s : σ} (hs : P s) :
    (bkz o c e prep n inner fuel s).All P Q :=
  bkz_all' h hn hsd he inner fuel (hprep s hs) hs fun _ h => h

end main

/-! ## Logging the calls -/

/-- a call of one of the basic procedures -/
inductive Call
  | svp (kappa bs : ℤ) (dual : Bool)
  | lll (lo start hi : ℤ)
  | sizeRed (lo hi start : ℤ)
  deriving DecidableEq

/-- add a log to the state of an outcome -/
def Out.withLog (l : List Call) : Out σ α → Out (σ × List Call) α
  | .ok a s => .ok a (s, l)
  | .thrown s => .thrown (s, l)
  | .ub s => .ub (s, l)
  | .stuck s => .stuck (s, l)

/-- the procedures `o`, which also record how they are called -/
def logged (o : Ops σ) : Ops (σ × List Call) where
  svp kappa bs dual s := (o.svp kappa bs dual s.1).withLog (s.2 ++ [.svp kappa bs dual])
  lll lo st hi s := (o.lll lo st hi s.1).withLog (s.2 ++ [.lll lo st hi])
  sizeRed lo hi st s := (o.sizeRed lo hi st s.1).withLog (s.2 ++ [.sizeRed lo hi st])
  symG s := (o.symG s.1, s.2)
  noProgress s := ((o.noProgress s.1).1, ((o.noProgress s.1).2, s.2))

/-- from log `l0`, the calls `l` are made; only a prefix of them if the procedure does not return normally -/
def Emits (l0 l : List Call) : Out (σ × List Call) α → Prop
  | .ok _ s => s.2 = l0 ++ l
  | .thrown s => ∃ p, p <+: l ∧ s.2 = l0 ++ p
  | .ub s => ∃ p, p <+: l ∧ s.2 = l0 ++ p
  | .stuck s => ∃ p, p <+: l ∧ s.2 = l0 ++ p

theorem Emits.bind {l0 l1 l2 : List Call} {m : Out (σ × List Call) α} {f : α → σ × List Call → Out (σ × List Call) β}
    (hm : Emits l0 l1 m) (hf : ∀ a s, s.2 = l0 ++ l1 → Emits (l0 ++ l1) l2 (f a s)) : Emits l0 (l1 ++ l2) (m.bind f) := by
  have key : ∀ s : σ × List Call, (∃ p, p <+: l1 ∧ s.2 = l0 ++ p) → ∃ p, p <+: l1 ++ l2 ∧ s.2 = l0 ++ p :=
    fun s ⟨p, hp, h⟩ => ⟨p, hp.trans (List.prefix_append _ _), h⟩
  cases m with
  | ok a s =>
    have h := hf a s hm
    change Emits l0 (l1 ++ l2) (f a s)
    cases hfa : f a s with
    | ok b t => rw [hfa] at h; exact h.trans (List.append_assoc _ _ _)
    | thrown t => rw [hfa] at h; obtain ⟨p, hp, h⟩ := h; exact ⟨l1 ++ p, List.prefix_append_right_inj _ |>.2 hp, h.trans (List.append_assoc _ _ _)⟩
    | ub t => rw [hfa] at h; obtain ⟨p, hp, h⟩ := h; exact ⟨l1 ++ p, List.prefix_append_right_inj _ |>.2 hp, h.trans (List.append_assoc _ _ _)⟩
    | stuck t => rw [hfa] at h; obtain ⟨p, hp, h⟩ := h; exact ⟨l1 ++ p, List.prefix_append_right_inj _ |>.2 hp, h.trans (List.append_assoc _ _ _)⟩
  | thrown s => exact key s hm
  | ub s => exact key s hm
  | stuck s => exact key s hm

theorem Emits.ok {l0 : List Call} {a : α} {s : σ × List Call} (h : s.2 = l0) : Emits l0 [] (.ok a s) := by
  change s.2 = l0 ++ []
  rw [List.append_nil, h]

theorem emits_withLog {l0 : List Call} {c : Call} {m : Out σ α} : Emits l0 [c] (m.withLog (l0 ++ [c])) := by
  cases m with
  | ok a s => rfl
  | thrown s => exact ⟨[c], List.prefix_rfl, rfl⟩
  | ub s => exact ⟨[c], List.prefix_rfl, rfl⟩
  | stuck s => exact ⟨[c], List.prefix_rfl, rfl⟩

theorem loop_emits {f : ℤ → σ × List Call → Out (σ × List Call) Bool} {step : ℤ} {g : ℕ → List Call} (n : ℕ) (k : ℤ)
    (hf : ∀ j < n, ∀ s, Emits s.2 (g j) (f (k + step * (j : ℕ)) s)) (c : Bool) (s : σ × List Call) :
    Emits s.2 ((List.range n).flatMap g) (loop f step n k c s) := by
  induction n generalizing k c s g with
  | zero => exact Emits.ok rfl
  | succ n ih =>
    rw [loop, List.range_succ_eq_map, List.flatMap_cons, List.flatMap_map]
    have h0 := hf 0 (Nat.succ_pos n) s
    rw [Nat.cast_zero, mul_zero, add_zero] at h0
    refine h0.bind fun a s' hs' => ?_
    rw [← hs']
    refine ih (g := fun j => g (j + 1)) (k + step) (fun j hj s => ?_) _ _
    have h1 := hf (j + 1) (Nat.succ_lt_succ hj) s
    have e : k + step + step * (j : ℕ) = k + step * ((j + 1 : ℕ) : ℤ) := by push_cast; ring
    rw [e]; exact h1

theorem Emits.congr {l0 l l' : List Call} {m : Out (σ × List Call) α} (h : Emits l0 l m) (e : l = l') : Emits l0 l' m := e ▸ h

/-! ## Auto-abort -/

section abort
variable {D : Type} [LinearOrder D] [OrderTop D] (scaled : D → D) (N : ℤ) (sl : ℕ → D)

/-- the object after the tests with slopes `sl 0, …, sl (k-1)` -/
def runTests : ℕ → AutoAbort D
  | 0 => AutoAbort.init
  | k + 1 => ((runTests k).test scaled N (sl k)).2

theorem runTests_old (k : ℕ) : (runTests scaled N sl k).oldSlope = (Finset.range k).inf sl := by
  induction k with
  | zero => rfl
  | succ k ih =>
    rw [Finset.range_add_one, Finset.inf_insert, ← ih, inf_comm]
    rfl

/-- test `j` did not beat `scale` times the best earlier slope (the first test always counts as a decrease) -/
def Stale (j : ℕ) : Prop := 1 ≤ j ∧ scaled ((Finset.range j).inf sl) ≤ sl j

theorem runTests_noDec (k : ℕ) : ∃ m : ℕ, (runTests scaled N sl (k + 1)).noDec = m ∧ m ≤ k ∧
    (∀ j, k < j + m → j ≤ k → Stale scaled sl j) ∧ ¬ Stale scaled sl (k - m) := by
  induction k with
  | zero =>
    refine ⟨0, ?_, le_rfl, fun j h1 h2 => absurd h1 (by omega), fun h => absurd h.1 (by simp)⟩
    simp [runTests, AutoAbort.test, AutoAbort.init]
  | succ k ih =>
    obtain ⟨m, hm, hmk, hst, hns⟩ := ih
    have hne : ¬ (runTests scaled N sl (k + 1)).noDec = -1 := by rw [hm]; omega
    have hold := runTests_old scaled N sl (k + 1)
    by_cases hlt : sl (k + 1) < scaled ((Finset.range (k + 1)).inf sl)
    · refine ⟨0, ?_, Nat.zero_le _, fun j h1 h2 => absurd h1 (by omega), fun h => absurd h.2 (not_le.2 hlt)⟩
      rw [runTests, AutoAbort.test, hold]
      dsimp only
      rw [if_pos (Or.inr hlt)]
      rfl
    · refine ⟨m + 1, ?_, by omega, fun j h1 h2 => ?_, by rwa [Nat.add_sub_add_right]⟩
      · rw [runTests, AutoAbort.test, hold]
        dsimp only
        rw [if_neg (by rw [not_or]; exact ⟨hne, hlt⟩), hm]
        push_cast; ring
      · rcases Nat.lt_or_ge j (k + 1) with hj | hj
        · exact hst j (by omega) (by omega)
        · obtain rfl : j = k + 1 := by omega
          exact ⟨by omega, not_lt.1 hlt⟩

end abort

/-! ## The main loop -/

/-- the state of an outcome -/
def Out.state : Out σ α → σ
  | .ok _ s => s
  | .thrown s => s
  | .ub s => s
  | .stuck s => s

section main
variable {D : Type} [LinearOrder D] [OrderTop D] (o : Ops σ) (c : Cfg D) (e : Env D σ) (n : ℤ) (inner : ℕ) (s0 : σ)

/-- state in which tour `i` starts, when iteration `i` starts in `s` -/
def entry (i : ℕ) (s : σ) : σ := if autoOn c = true then (e.slope i s).2 else s

/-- state in which iteration `i` starts -/
def headState : ℕ → σ
  | 0 => s0
  | i + 1 => (oneTour o c n inner (entry c e i (headState i))).state

/-- slope seen by iteration `i` -/
def slopeAt (i : ℕ) : D := (e.slope i (headState o c e n inner s0 i)).1

/-- the number of tours has reached the limit -/
def LimitAt (k : ℕ) : Prop := ∃ m, c.maxLoops = some m ∧ m ≤ (k : ℤ)

/-- the time limit is seen by iteration `k` -/
def TimeAt (k : ℕ) : Prop := c.maxTime = true ∧ e.timeUp k (headState o c e n inner s0 k) = true

/-- test `k` fires: `N` or more consecutive tests, ending with `k`, failed to see a decrease -/
def Fires {D : Type} [LinearOrder D] [OrderTop D] (scaled : D → D) (N : ℤ) (sl : ℕ → D) (k : ℕ) : Prop :=
  ∃ m : ℕ, N ≤ m ∧ m ≤ k ∧ ∀ j, k < j + m → j ≤ k → Stale scaled sl j

/-- auto-abort stops iteration `k` -/
def AbortAt (k : ℕ) : Prop := autoOn c = true ∧ Fires c.scaled c.maxNoDec (slopeAt o c e n inner s0) k

/-- outcome of tour `k` -/
def tourAt (k : ℕ) : Out σ Bool := oneTour o c n inner (entry c e k (headState o c e n inner s0 k))

/-- iteration `k` runs a tour -/
def Enters (k : ℕ) : Prop := ¬ LimitAt c k ∧ ¬ TimeAt o c e n inner s0 k ∧ ¬ AbortAt o c e n inner s0 k

/-- iterations `0, …, k-1` ran tours and none of them ended the run -/
def Ran (k : ℕ) : Prop := ∀ i < k, Enters o c e n inner s0 i ∧ c.blockSize < n ∧
  ∃ s, tourAt o c e n inner s0 i = .ok false s

/-- how iteration `k` ends the run -/
inductive Ends (k : ℕ) : Out σ (Status × ℕ) → Prop
  | loops (h : LimitAt c k) : Ends k (.ok (.loopsLimit, k) (headState o c e n inner s0 k))
  | time (h1 : ¬ LimitAt c k) (h2 : TimeAt o c e n inner s0 k) :
      Ends k (.ok (.timeLimit, k) (headState o c e n inner s0 k))
  | abort (h1 : ¬ LimitAt c k) (h2 : ¬ TimeAt o c e n inner s0 k) (h3 : AbortAt o c e n inner s0 k) :
      Ends k (.ok (.success, k) (entry c e k (headState o c e n inner s0 k)))
  | done (h : Enters o c e n inner s0 k) (clean : Bool) (s : σ) (ht : tourAt o c e n inner s0 k = .ok clean s)
      (hc : clean = true ∨ n ≤ c.blockSize) : Ends k (.ok (.success, k + 1) s)
  | thrown (h : Enters o c e n inner s0 k) (s : σ) (ht : tourAt o c e n inner s0 k = .thrown s) : Ends k (.thrown s)
  | ub (h : Enters o c e n inner s0 k) (s : σ) (ht : tourAt o c e n inner s0 k = .ub s) : Ends k (.ub s)
  | stuck (h : Enters o c e n inner s0 k) (s : σ) (ht : tourAt o c e n inner s0 k = .stuck s) : Ends k (.stuck s)

omit [LinearOrder D] [OrderTop D] in
theorem limitAt_iff (k : ℕ) : c.maxLoops.any (fun m => decide (m ≤ (k : ℤ))) = true ↔ LimitAt c k := by
  unfold LimitAt
  cases c.maxLoops <;> simp

theorem fires_iff (scaled : D → D) (N : ℤ) (sl : ℕ → D) (k : ℕ) :
    ((runTests scaled N sl k).test scaled N (sl k)).1 = true ↔ Fires scaled N sl k := by
  obtain ⟨m, hm, hmk, hst, hns⟩ := runTests_noDec scaled N sl k
  have e1 : ((runTests scaled N sl k).test scaled N (sl k)).1 = decide (N ≤ (runTests scaled N sl (k + 1)).noDec) := rfl
  rw [e1, hm, decide_eq_true_iff]
  refine ⟨fun h => ⟨m, h, hmk, hst⟩, fun ⟨m', h1, h2, h3⟩ => ?_⟩
  rcases Nat.lt_or_ge m m' with h | h
  · exact absurd (h3 (k - m) (by omega) (by omega)) hns
  · omega

theorem mainLoop_run (fuel i : ℕ) (a : AutoAbort D)
    (ha : autoOn c = true → a = runTests c.scaled c.maxNoDec (slopeAt o c e n inner s0) i) (hran : Ran o c e n inner s0 i) :
    (∃ k, i ≤ k ∧ k < i + fuel ∧ Ran o c e n inner s0 k ∧
      Ends o c e n inner s0 k (mainLoop o c e n inner fuel i a (headState o c e n inner s0 i))) ∨
    (Ran o c e n inner s0 (i + fuel) ∧
      mainLoop o c e n inner fuel i a (headState o c e n inner s0 i) = .stuck (headState o c e n inner s0 (i + fuel))) := by
  induction fuel generalizing i a with
  | zero => exact Or.inr ⟨hran, rfl⟩
  | succ fuel ih =>
    rw [mainLoop]
    by_cases h1 : c.maxLoops.any (fun m => decide (m ≤ (i : ℤ))) = true
    · rw [if_pos h1]
      exact Or.inl ⟨i, le_rfl, by omega, hran, .loops ((limitAt_iff c i).1 h1)⟩
    rw [if_neg h1]
    rw [limitAt_iff] at h1
    by_cases h2 : c.maxTime = true ∧ e.timeUp i (headState o c e n inner s0 i) = true
    · rw [if_pos h2]
      exact Or.inl ⟨i, le_rfl, by omega, hran, .time h1 h2⟩
    rw [if_neg h2]
    dsimp only
    have hab : autoOn c = true ∧ (a.test c.scaled c.maxNoDec (e.slope i (headState o c e n inner s0 i)).1).1 = true ↔
        AbortAt o c e n inner s0 i := by
      refine and_congr_right fun hon => ?_
      rw [ha hon]
      exact fires_iff c.scaled c.maxNoDec (slopeAt o c e n inner s0) i
    by_cases h3 : autoOn c = true ∧ (a.test c.scaled c.maxNoDec (e.slope i (headState o c e n inner s0 i)).1).1 = true
    · rw [if_pos h3]
      exact Or.inl ⟨i, le_rfl, by omega, hran, .abort h1 h2 (hab.1 h3)⟩
    rw [if_neg h3]
    have hent : Enters o c e n inner s0 i := ⟨h1, h2, fun h => h3 (hab.2 h)⟩
    have ht : oneTour o c n inner (if autoOn c = true then (e.slope i (headState o c e n inner s0 i)).2
        else headState o c e n inner s0 i) = tourAt o c e n inner s0 i := rfl
    rw [ht]
    have hnext : headState o c e n inner s0 (i + 1) = (tourAt o c e n inner s0 i).state := rfl
    cases htt : tourAt o c e n inner s0 i with
    | thrown s => exact Or.inl ⟨i, le_rfl, by omega, hran, .thrown hent s htt⟩
    | ub s => exact Or.inl ⟨i, le_rfl, by omega, hran, .ub hent s htt⟩
    | stuck s => exact Or.inl ⟨i, le_rfl, by omega, hran, .stuck hent s htt⟩
    | ok clean s =>
      change _ ∨ (_ ∧ (if clean = true ∨ n ≤ c.blockSize then _ else _) = _)
      rw [Out.bind]
      by_cases h4 : clean = true ∨ n ≤ c.blockSize
      · rw [if_pos h4]
        exact Or.inl ⟨i, le_rfl, by omega, hran, .done hent clean s htt h4⟩
      rw [if_neg h4]
      rw [htt] at hnext
      change headState o c e n inner s0 (i + 1) = s at hnext
      have hran' : Ran o c e n inner s0 (i + 1) := by
        intro j hj
        rcases Nat.lt_succ_iff_lt_or_eq.1 hj with hj | rfl
        · exact hran j hj
        · rw [not_or, Bool.not_eq_true, not_le] at h4
          exact ⟨hent, h4.2, s, by rw [htt, h4.1]⟩
      have := ih (i + 1) (if autoOn c = true then (a.test c.scaled c.maxNoDec (e.slope i (headState o c e n inner s0 i)).1).2
        else a) (fun hon => by rw [if_pos hon, ha hon]; rfl) hran'
      rw [hnext] at this
      rcases this with ⟨k, hk1, hk2, hk3, hk4⟩ | ⟨hk1, hk2⟩
      · exact Or.inl ⟨k, by omega, by omega, hk3, hk4⟩
      · rw [show i + 1 + fuel = i + (fuel + 1) by omega] at hk1 hk2
        exact Or.inr ⟨hk1, hk2⟩

end main

end BKZ
end Fplll

import Mathlib.Logic.Hydra
import Verif.Proofs.ParSys
import Verif.Props.Evaluator

/-!
# C34: the parallel enumeration does not depend on the schedule

All theorems are about `Reach c E fuel T e`: every interleaving of `T ≥ 1` workers, every moment at which a worker looks at the
shared bound.  `fuel` only has to be large enough (`fuel_exists`).
-/

open Finset

namespace Fplll
namespace Par

open Enum (pd EvalOps EvSt fastEval Strategy emplace processSol Desc Shortest runSols Sol)

variable {σ : Type}

/-- the vectors that have to be found for the bound `A`: non-zero, all projections within the bounds, and the last non-zero
coordinate positive (one of `v`, `-v`) -/
def Region (c : Cfg) (A : ℚ) (v : ℕ → ℤ) : Prop :=
  (∀ j, j < c.N → plen c v j ≤ c.bnd A j) ∧ (∃ j, j < c.N ∧ v j ≠ 0) ∧
    ∀ j, j < c.N → (∀ i, j < i → i < c.N → v i = 0) → 0 ≤ v j

theorem region_iff {c : Cfg} (hc : CfgOK c) {A : ℚ} {v : ℕ → ℤ} :
    Region c A v ↔ Within c A 0 c.N v ∧ plen c v 0 ≠ 0 := by
  have hz := fun k => Enum.pd_zero_iff hc.tree rfl v k
  constructor
  · rintro ⟨h1, ⟨j, h2, h3⟩, h4⟩
    refine ⟨⟨fun j _ => h1 j, fun j _ h5 h6 => h4 j h5 fun i h7 h8 => (hz (j + 1)).1 h6 i h7 h8⟩, fun h5 => h3 ?_⟩
    exact (hz 0).1 h5 j (by omega) h2
  · rintro ⟨⟨h1, h2⟩, h3⟩
    refine ⟨fun j => h1 j (by omega), ?_, fun j h4 h5 => h2 j (by omega) h4 ((hz (j + 1)).2 fun i h6 h7 => h5 i h6 h7)⟩
    by_contra h4
    push Not at h4
    exact h3 ((hz 0).2 fun j _ h5 => h4 j h5)

/-- a sufficient iteration budget exists -/
theorem fuel_exists {c : Cfg} (hc : CfgOK c) : ∃ fuel, Fuel c fuel := Enum.enough_exists c.e _ hc.rpos

/-- **C34** (soundness) in every reachable state, every vector reported so far is in the region of the initial bound, was
reported with its squared length, and was reported only once. -/
theorem C34_sound {c : Cfg} (hc : CfgOK c) (hN : 10 < c.N) {fuel : ℕ} (hF : Fuel c fuel) {E : EvalOps σ} {I : σ → ℚ → Prop}
    (hE : ParOK c E I) {e : σ} (hI : I e c.maxdist) {T : ℕ} (hT : 1 ≤ T) {st : Sys σ} (h : Reach c E fuel T e st) :
    (∀ p ∈ st.log, Region c c.maxdist p.1 ∧ p.2 = plen c p.1 0) ∧
    st.log.Pairwise (fun p q => ∃ j, j < c.N ∧ p.1 j ≠ q.1 j) ∧ st.A ≤ c.maxdist := by
  obtain ⟨items0, cns, D, own, hi, h0⟩ := inv_reach hc hN hF hE hI hT h
  obtain ⟨hS1, hS2⟩ := S_bound hN
  -- every entry: reports of the item are those of `Cov`, up to its end
  have hD : ∀ d ∈ D, ∃ tr B, Cov c 0 true (c.N - 2 * c.S) (Agree c (c.N - 2 * c.S) d.1.1) c.maxdist B (d.2 ++ tr) := by
    intro d hd
    obtain ⟨k, hk⟩ := List.getElem?_of_mem hd
    rcases hi.comp k d hk with ⟨j, w, h1, h2⟩ | ⟨B, _, h1⟩
    · obtain ⟨d', h3, B, _, _, h4⟩ := hi.walk j w h1
      rw [h2, hk] at h3
      obtain rfl := Option.some.inj h3
      obtain ⟨tr, s', _, _, h5⟩ := wp_exists h4
      exact ⟨tr, _, h5⟩
    · exact ⟨[], B, by rw [List.append_nil]; exact h1⟩
  have hDf : ∀ d ∈ D, d.1 ∈ st.filled := by
    intro d hd
    rw [← hi.filled, ← hi.Dtaken]
    exact List.mem_append_left _ (List.mem_map_of_mem hd)
  have hDp : D.Pairwise fun d d' => Diff c (c.N - 2 * c.S) d.1.1 d'.1.1 := by
    have := hi.P.nodup
    rw [← hi.filled, List.pairwise_append, ← hi.Dtaken, List.pairwise_map] at this
    exact this.1
  refine ⟨fun p hp => ?_, ?_, hi.A_le⟩
  · have hp' := hi.log.mem_iff.1 hp
    rw [List.mem_flatMap] at hp'
    obtain ⟨d, hd, hp'⟩ := hp'
    obtain ⟨e', he', rfl⟩ := List.mem_map.1 hp'
    obtain ⟨tr, B, hcov⟩ := hD d hd
    obtain ⟨h1, h2, h3, h4, h5⟩ := hcov.sound e' (List.mem_append_left _ he')
    obtain ⟨⟨it0, h6, h7⟩, _, h8⟩ := hi.P.sound d.1 (hDf d hd)
    obtain ⟨_, _, h9⟩ := h0.sound it0 (by rw [hi.consumed]; exact List.mem_append_left _ h6)
    refine ⟨(region_iff hc).2 ⟨?_, h5 rfl⟩, h2⟩
    have h10 : Agree c (c.N - c.S) it0.1 e'.1 := fun j h11 h12 => by rw [h1 j (by omega) h12, h7 j h11 h12]
    exact Within.join ⟨h3, h4⟩ (Within.join (h8.agree h1 (by omega)) (h9.agree h10 le_rfl))
  · have hsymm : ∀ {p q : Item}, (∃ j, j < c.N ∧ p.1 j ≠ q.1 j) → ∃ j, j < c.N ∧ q.1 j ≠ p.1 j :=
      fun ⟨j, h1, h2⟩ => ⟨j, h1, h2.symm⟩
    rw [hi.log.pairwise_iff hsymm, List.pairwise_flatMap]
    refine ⟨fun d hd => ?_, ?_⟩
    · obtain ⟨tr, B, hcov⟩ := hD d hd
      rw [List.pairwise_map]
      have := hcov.nodup
      rw [List.pairwise_append] at this
      exact this.1.imp fun {a b} ⟨j, h1, h2, h3⟩ => ⟨j, h2, h3⟩
    · refine List.Pairwise.imp_of_mem ?_ hDp
      intro d d' hd hd' hdiff a ha b hb
      obtain ⟨a', ha', rfl⟩ := List.mem_map.1 ha
      obtain ⟨b', hb', rfl⟩ := List.mem_map.1 hb
      obtain ⟨_, _, hca⟩ := hD d hd
      obtain ⟨_, _, hcb⟩ := hD d' hd'
      obtain ⟨j, h1, h2, h3⟩ := hdiff.agree (hca.sound a' (List.mem_append_left _ ha')).1
        (hcb.sound b' (List.mem_append_left _ hb')).1 (Nat.zero_le _)
      exact ⟨j, h2, h3⟩

/-- **C34** (work items) at the end every item of every batch was taken by exactly one worker, exactly once. -/
theorem C34_items_once {c : Cfg} (hc : CfgOK c) (hN : 10 < c.N) {fuel : ℕ} (hF : Fuel c fuel) {E : EvalOps σ}
    {I : σ → ℚ → Prop} (hE : ParOK c E I) {e : σ} (hI : I e c.maxdist) {T : ℕ} (hT : 1 ≤ T) {st : Sys σ}
    (h : Reach c E fuel T e st) : (∃ m, st.taken = st.filled.take m) ∧ (st.final → st.taken = st.filled) ∧
      st.filled.Pairwise (fun p q => ∃ j, c.N - 2 * c.S ≤ j ∧ j < c.N ∧ p.1 j ≠ q.1 j) := by
  obtain ⟨items0, cns, D, own, hi, h0⟩ := inv_reach hc hN hF hE hI hT h
  refine ⟨⟨st.taken.length, ?_⟩, fun hfin => ?_, hi.P.nodup⟩
  · rw [← hi.filled, List.take_left]
  · have hdrop : st.batch.drop st.idx = [] := by
      cases hths : st.ths with
      | nil => rw [hi.ne hths]; simp
      | cons t ts =>
        apply List.drop_eq_nil_of_le
        apply hi.dn
        refine ⟨0, ?_⟩
        rw [hths]
        simp only [List.getElem?_cons_zero, Option.some.injEq]
        exact hfin.2 t (by rw [hths]; simp)
    have := hi.filled
    rwa [hdrop, List.append_nil] at this

/-- **C34** (completeness) when the enumeration is over, every vector of the region of the final bound has been reported,
whatever the schedule was. -/
theorem C34_complete {c : Cfg} (hc : CfgOK c) (hN : 10 < c.N) {fuel : ℕ} (hF : Fuel c fuel) {E : EvalOps σ}
    {I : σ → ℚ → Prop} (hE : ParOK c E I) {e : σ} (hI : I e c.maxdist) {T : ℕ} (hT : 1 ≤ T) {st : Sys σ}
    (h : Reach c E fuel T e st) (hfin : st.final) (v : ℕ → ℤ) (hv : Region c st.A v) :
    ∃ p ∈ st.log, ∀ j, j < c.N → p.1 j = v j := by
  have htk := (C34_items_once hc hN hF hE hI hT h).2.1 hfin
  obtain ⟨items0, cns, D, own, hi, h0⟩ := inv_reach hc hN hF hE hI hT h
  obtain ⟨hS1, hS2⟩ := S_bound hN
  obtain ⟨hw, hnz⟩ := (region_iff hc).1 hv
  have hwM := hw.mono hc hi.A_le le_rfl
  have hcns : items0 = cns := by rw [hi.consumed, hfin.1, List.append_nil]
  obtain ⟨it0, h1, h2⟩ := h0.comp v trivial (hwM.sub (by omega) le_rfl)
  obtain ⟨it, h3, h4⟩ := hi.P.comp v ⟨it0, by rw [← hcns]; exact h1, h2⟩ (hwM.sub (by omega) (by omega))
  rw [← htk, ← hi.Dtaken] at h3
  obtain ⟨d, h5, rfl⟩ := List.mem_map.1 h3
  obtain ⟨k, hk⟩ := List.getElem?_of_mem h5
  rcases hi.comp k d hk with ⟨j, w, h6, _⟩ | ⟨B, h6, h7⟩
  · exact absurd (hfin.2 _ (List.mem_of_getElem? h6)) (by simp)
  · have hwB := (hw.mono hc h6 le_rfl).sub (lo' := 0) (hi' := c.N - 2 * c.S) le_rfl (by omega)
    obtain ⟨e', h8, h9⟩ := h7.comp v h4 hwB.1 hwB.2 fun _ => hnz
    refine ⟨e'.item, ?_, fun j hj => h9 j (Nat.zero_le _) hj⟩
    rw [hi.log.mem_iff, List.mem_flatMap]
    exact ⟨d, h5, List.mem_map_of_mem h8⟩

/-! ## Every schedule gets to the end -/

/-- **C34** (no deadlock) as long as the enumeration is not over, some thread can go on. -/
theorem C34_progress {c : Cfg} (hc : CfgOK c) (hN : 10 < c.N) {fuel : ℕ} (hF : Fuel c fuel) {E : EvalOps σ}
    {I : σ → ℚ → Prop} (hE : ParOK c E I) {e : σ} (hI : I e c.maxdist) {T : ℕ} (hT : 1 ≤ T) {st : Sys σ}
    (h : Reach c E fuel T e st) (hfin : ¬ st.final) : ∃ st', Step c E fuel T st st' := by
  obtain ⟨items0, cns, D, own, hi, h0⟩ := inv_reach hc hN hF hE hI hT h
  by_cases hd : st.allDone
  · have hr : st.rest ≠ [] := fun h1 => hfin ⟨h1, hd⟩
    have hI0 : Items0 c st.rest := by
      refine ⟨fun it hit => (h0.sound it (by rw [hi.consumed]; simp [hit])).2.1, ?_⟩
      have := h0.nodup
      rw [hi.consumed, List.pairwise_append] at this
      exact this.2.1
    obtain ⟨rest', new, s', _, h1, _⟩ := fill_ok hc hN hF st.rest [] st.loc hI0 hi.loc hi.locA
    exact ⟨_, Step.fill hd hr h1⟩
  · unfold Sys.allDone at hd
    push Not at hd
    obtain ⟨t, ht, hne⟩ := hd
    obtain ⟨j, hj⟩ := List.getElem?_of_mem ht
    have : ∃ s', thStep c E fuel st j false t = some s' := by
      cases t with
      | fresh => exact ⟨_, rfl⟩
      | idle s =>
        cases hb : st.batch[st.idx]? with
        | none => exact ⟨_, by simp only [thStep, hb]; rfl⟩
        | some it => exact ⟨_, by simp only [thStep, hb]; rfl⟩
      | walk w =>
        cases w with
        | ret s => exact ⟨_, rfl⟩
        | stuck =>
          obtain ⟨d, _, B, _, _, h1⟩ := hi.walk j _ hj
          exact h1.elim
        | offer x l k => exact ⟨_, rfl⟩
      | done => exact absurd rfl hne
    obtain ⟨s', hs'⟩ := this
    exact ⟨s', Step.th j false hj hs'⟩

/-- one step of a worker without a new item -/
inductive ThLt : Th → Th → Prop
  | start (s : Loc) : ThLt (.idle s) .fresh
  | done (s : Loc) : ThLt .done (.idle s)
  | ret (s t : Loc) : ThLt (.idle s) (.walk (.ret t))
  | go (x : ℕ → ℤ) (l : ℚ) (k : ℚ → Walk Loc) (A : ℚ) : ThLt (.walk (k A)) (.walk (.offer x l k))

theorem thLt_wf : WellFounded ThLt := by
  have hd : Acc ThLt .done := ⟨_, fun y hy => by cases hy⟩
  have hi : ∀ s, Acc ThLt (.idle s) := fun s => ⟨_, fun y hy => by cases hy; exact hd⟩
  refine ⟨fun t => ?_⟩
  cases t with
  | done => exact hd
  | idle s => exact hi s
  | fresh => exact ⟨_, fun y hy => by cases hy; exact hi _⟩
  | walk w =>
    induction w with
    | ret t => exact ⟨_, fun y hy => by cases hy; exact hi _⟩
    | stuck => exact ⟨_, fun y hy => by cases hy⟩
    | offer x l k ih => exact ⟨_, fun y hy => by cases hy; exact ih _⟩

/-- what is left to do -/
def togo (s : Sys σ) : ℕ × ℕ × Multiset Th := (s.rest.length, s.batch.length - s.idx, (s.ths : Multiset Th))

/-- lexicographic order on what is left to do -/
def Smaller : ℕ × ℕ × Multiset Th → ℕ × ℕ × Multiset Th → Prop :=
  Prod.Lex (· < ·) (Prod.Lex (· < ·) (Relation.CutExpand ThLt))

theorem smaller_wf : WellFounded Smaller :=
  WellFounded.prod_lex Nat.lt_wfRel.wf (WellFounded.prod_lex Nat.lt_wfRel.wf thLt_wf.cutExpand)

theorem set_cut {L : List Th} {j : ℕ} {t a : Th} (ht : L[j]? = some t) (h : ThLt a t) :
    Relation.CutExpand ThLt ((L.set j a : List Th) : Multiset Th) (L : Multiset Th) := by
  refine ⟨{a}, t, by simpa using h, ?_⟩
  induction L generalizing j with
  | nil => simp at ht
  | cons b L ih =>
    cases j with
    | zero =>
      simp only [List.getElem?_cons_zero, Option.some.injEq] at ht
      subst ht
      simp only [List.set_cons_zero]
      rw [← Multiset.cons_coe, ← Multiset.cons_coe, ← Multiset.singleton_add, ← Multiset.singleton_add]
      abel
    | succ j =>
      simp only [List.getElem?_cons_succ] at ht
      simp only [List.set_cons_succ]
      rw [← Multiset.cons_coe, ← Multiset.cons_coe, Multiset.cons_add, Multiset.cons_add, ih ht]

theorem fill_shrinks {c : Cfg} {fuel : ℕ} : ∀ (rest batch : List Item) (s : Loc) (rest' batch' : List Item) (s' : Loc),
    fill c fuel rest batch s = some (rest', batch', s') → rest'.length ≤ rest.length ∧
      (rest ≠ [] → batch = [] → rest'.length < rest.length) := by
  intro rest
  induction rest with
  | nil =>
    intro batch s rest' batch' s' h
    simp only [fill, Option.some.injEq, Prod.mk.injEq] at h
    rw [← h.1]
    exact ⟨le_rfl, fun h => absurd rfl h⟩
  | cons it rest ih =>
    intro batch s rest' batch' s' h
    by_cases hb : batch.length < swirly2buf
    · simp only [fill, if_pos hb] at h
      cases h1 : stage1 c fuel s it with
      | none => rw [h1] at h; simp at h
      | some p =>
        rw [h1] at h
        have := (ih _ _ _ _ _ h).1
        simp only [List.length_cons]
        exact ⟨by omega, fun _ _ => by omega⟩
    · simp only [fill, if_neg hb, Option.some.injEq, Prod.mk.injEq] at h
      rw [← h.1]
      refine ⟨le_rfl, fun _ h1 => ?_⟩
      rw [h1] at hb
      simp [swirly2buf] at hb

theorem step_smaller {c : Cfg} {E : EvalOps σ} {fuel T : ℕ} {s s' : Sys σ} (h : Step c E fuel T s s') :
    Smaller (togo s') (togo s) := by
  cases h with
  | fill hd hr hf => exact Prod.Lex.left _ _ ((fill_shrinks _ _ _ _ _ _ hf).2 hr rfl)
  | th j upd ht hs =>
    rename_i t
    cases t with
    | done => simp [thStep] at hs
    | fresh =>
      obtain rfl := Option.some.inj hs
      exact Prod.Lex.right _ (Prod.Lex.right _ (set_cut ht (ThLt.start _)))
    | idle u =>
      cases hb : s.batch[s.idx]? with
      | none =>
        simp only [thStep, hb, Option.some.injEq] at hs
        subst hs
        have hlen : s.batch.length ≤ s.idx := List.getElem?_eq_none_iff.1 hb
        unfold togo Smaller
        simp only [show s.batch.length - (s.idx + 1) = 0 by omega, show s.batch.length - s.idx = 0 by omega]
        exact Prod.Lex.right _ (Prod.Lex.right _ (set_cut ht (ThLt.done _)))
      | some it =>
        simp only [thStep, hb, Option.some.injEq] at hs
        subst hs
        have hlen := (List.getElem?_eq_some_iff.1 hb).1
        refine Prod.Lex.right _ (Prod.Lex.left _ _ ?_)
        change s.batch.length - (s.idx + 1) < s.batch.length - s.idx
        omega
    | walk w =>
      cases w with
      | stuck => simp [thStep] at hs
      | ret u =>
        obtain rfl := Option.some.inj hs
        exact Prod.Lex.right _ (Prod.Lex.right _ (set_cut ht (ThLt.ret _ _)))
      | offer x l k =>
        obtain rfl := Option.some.inj hs
        exact Prod.Lex.right _ (Prod.Lex.right _ (set_cut ht (ThLt.go _ _ _ _)))

/-- **C34** (termination) no schedule goes on for ever. -/
theorem C34_terminates {c : Cfg} {E : EvalOps σ} {fuel T : ℕ} (f : ℕ → Sys σ) : ¬ ∀ n, Step c E fuel T (f n) (f (n + 1)) := by
  intro h
  have hwf := smaller_wf
  have : ∀ p, ∀ n, togo (f n) = p → False := by
    intro p
    induction p using hwf.induction with
    | _ p ih =>
      intro n hn
      exact ih (togo (f (n + 1))) (by rw [← hn]; exact step_smaller (h n)) (n + 1) rfl
  exact this _ 0 rfl

/-- **C34** from every reachable state the end can be (and by `C34_terminates`, `C34_progress` will be) reached. -/
theorem C34_final_reached {c : Cfg} (hc : CfgOK c) (hN : 10 < c.N) {fuel : ℕ} (hF : Fuel c fuel) {E : EvalOps σ}
    {I : σ → ℚ → Prop} (hE : ParOK c E I) {e : σ} (hI : I e c.maxdist) {T : ℕ} (hT : 1 ≤ T) {st : Sys σ}
    (h : Reach c E fuel T e st) : ∃ st', Relation.ReflTransGen (Step c E fuel T) st st' ∧ st'.final := by
  have : ∀ p, ∀ s : Sys σ, togo s = p → Reach c E fuel T e s →
      ∃ s', Relation.ReflTransGen (Step c E fuel T) s s' ∧ s'.final := by
    intro p
    induction p using smaller_wf.induction with
    | _ p ih =>
      intro s hp hs
      by_cases hf : s.final
      · exact ⟨s, Relation.ReflTransGen.refl, hf⟩
      · obtain ⟨s1, h1⟩ := C34_progress hc hN hF hE hI hT hs hf
        obtain ⟨s2, h2, h3⟩ := ih (togo s1) (by rw [← hp]; exact step_smaller h1) s1 rfl (Reach.step hs h1)
        exact ⟨s2, Relation.ReflTransGen.head h1 h2, h3⟩
  exact this _ st rfl h

/-! ## The evaluator that keeps the shortest -/

/-- what the best-`M` evaluator and the bound look like -/
def BestInv (fl : ℚ → ℚ) (M : ℕ) (md : ℚ) (e : EvSt) (A : ℚ) : Prop :=
  (Desc e.sols ∧ e.sols.length ≤ M ∧ (∀ a ∈ e.sols, a.1 ≤ md) ∧ (e.sols.length < M → A = md) ∧
    (∀ a ∈ e.sols, a.1 ≤ A)) ∧ (∀ a ∈ e.sols, fl a.1 = a.1) ∧ fl A = A

/-- new solutions and bounds are old ones or the offered length -/
theorem processSol_rep {fl : ℚ → ℚ} {M : ℕ} {e : EvSt} {x : ℕ → ℤ} {l A : ℚ} (hl : fl l = l)
    (h : ∀ a ∈ e.sols, fl a.1 = a.1) (hA : fl A = A) :
    (∀ a ∈ ((fastEval M .best).evalSol e x l A).1.sols, fl a.1 = a.1) ∧
      fl ((fastEval M .best).evalSol e x l A).2 = ((fastEval M .best).evalSol e x l A).2 := by
  have hpm := Enum.emplace_perm l x e.sols
  have hall : ∀ a ∈ emplace l x e.sols, fl a.1 = a.1 := by
    intro a ha
    rcases List.mem_cons.1 (hpm.mem_iff.1 ha) with rfl | ha
    · exact hl
    · exact h a ha
  have hhead : ∀ L : List Sol, (∀ a ∈ L, fl a.1 = a.1) → ∀ B : ℚ, fl B = B →
      fl ((L.head?.map Prod.fst).getD B) = (L.head?.map Prod.fst).getD B := by
    intro L hL B hB
    cases L with
    | nil => exact hB
    | cons q T => exact hL q (by simp)
  simp only [fastEval, processSol]
  split_ifs
  · exact ⟨hall, hA⟩
  · have ht : ∀ a ∈ (emplace l x e.sols).tail, fl a.1 = a.1 := fun a ha => hall a (List.mem_of_mem_tail ha)
    exact ⟨ht, hhead _ ht _ hA⟩
  · exact ⟨hall, hhead _ hall _ hA⟩

theorem best_ok {c : Cfg} (hc : CfgOK c) {M : ℕ} (hM : 1 ≤ M) (h0 : 0 ≤ c.maxdist) (hm : c.fl c.maxdist = c.maxdist)
    (hp : c.pr 0 ≤ 1) : ParOK c (fastEval M .best) (BestInv c.fl M c.maxdist) := by
  constructor
  intro e A x l ⟨⟨h1, h2, h3, h4, h5⟩, hrs, hrA⟩ hA hl0 hlr hl
  have hl' : l ≤ c.maxdist := by
    refine hl.trans (le_trans (hc.rnd.mono ?_) hm.le)
    nlinarith
  suffices hmain : (Desc ((fastEval M .best).evalSol e x l A).1.sols ∧ ((fastEval M .best).evalSol e x l A).1.sols.length ≤ M ∧
      (∀ a ∈ ((fastEval M .best).evalSol e x l A).1.sols, a.1 ≤ c.maxdist) ∧
      (((fastEval M .best).evalSol e x l A).1.sols.length < M → ((fastEval M .best).evalSol e x l A).2 = c.maxdist) ∧
      (∀ a ∈ ((fastEval M .best).evalSol e x l A).1.sols, a.1 ≤ ((fastEval M .best).evalSol e x l A).2)) ∧
      ((fastEval M .best).evalSol e x l A).2 ≤ A from
    ⟨⟨hmain.1, processSol_rep hlr hrs hrA⟩, hmain.2⟩
  have hd := Enum.emplace_desc l x e.sols h1
  have hlen := Enum.emplace_length l x e.sols
  have hpm := Enum.emplace_perm l x e.sols
  have hmd : ∀ a ∈ emplace l x e.sols, a.1 ≤ c.maxdist := by
    intro a ha
    rcases List.mem_cons.1 (hpm.mem_iff.1 ha) with rfl | ha
    · exact hl'
    · exact h3 a ha
  simp only [fastEval, processSol]
  by_cases c1 : (emplace l x e.sols).length < M
  · rw [if_pos c1]
    have hAm : A = c.maxdist := h4 (by omega)
    exact ⟨⟨hd, c1.le, hmd, fun _ => hAm, fun a ha => by rw [hAm]; exact hmd a ha⟩, le_rfl⟩
  · rw [if_neg c1]
    by_cases c2 : (emplace l x e.sols).length > M
    · rw [if_pos c2]
      cases hE : emplace l x e.sols with
      | nil => exact absurd hE (Enum.emplace_ne_nil _ _ _)
      | cons q T =>
        rw [hE] at hd hlen hpm hmd
        simp only [List.tail_cons]
        have hqT : ∀ a ∈ T, a.1 ≤ q.1 := (List.pairwise_cons.1 hd).1
        have hdT : Desc T := (List.pairwise_cons.1 hd).2
        have hlT : T.length = M := by simp only [List.length_cons] at hlen; rw [hE] at c2; simp only [List.length_cons] at c2; omega
        have hTA : ∀ a ∈ T, a.1 ≤ A := by
          rcases List.mem_cons.1 (hpm.mem_iff.1 (List.mem_cons_self (a := q) (l := T))) with h6 | h6
          · rw [← h6] at hpm
            intro a ha
            exact h5 a ((List.Perm.cons_inv hpm).mem_iff.1 ha)
          · exact fun a ha => (hqT a ha).trans (h5 q h6)
        cases T with
        | nil => simp only [List.length_nil] at hlT; omega
        | cons p T' =>
          refine ⟨⟨hdT, hlT.le, fun a ha => hmd a (List.mem_cons_of_mem _ ha), fun h6 => absurd hlT (Nat.ne_of_lt h6), ?_⟩, ?_⟩
          · intro a ha
            simp only [List.head?_cons, Option.map_some, Option.getD_some]
            rcases List.mem_cons.1 ha with rfl | ha
            · exact le_rfl
            · exact (List.pairwise_cons.1 hdT).1 a ha
          · exact hTA p (by simp)
    · rw [if_neg c2]
      have hAm : A = c.maxdist := h4 (by omega)
      cases hE : emplace l x e.sols with
      | nil => exact absurd hE (Enum.emplace_ne_nil _ _ _)
      | cons q T =>
        rw [hE] at hd hlen hpm hmd c1 c2
        refine ⟨⟨hd, by simp only [List.length_cons] at c2 ⊢; omega, hmd, fun h6 => absurd h6 c1, ?_⟩, ?_⟩
        · intro a ha
          simp only [List.head?_cons, Option.map_some, Option.getD_some]
          rcases List.mem_cons.1 ha with rfl | ha
          · exact le_rfl
          · exact (List.pairwise_cons.1 hd).1 a ha
        · rw [hAm]
          exact hmd q (by simp)

theorem best_init {fl : ℚ → ℚ} (M : ℕ) {md : ℚ} (hm : fl md = md) : BestInv fl M md EvSt.new md :=
  ⟨⟨List.Pairwise.nil, Nat.zero_le _, fun a ha => by simp [EvSt.new] at ha, fun _ => rfl,
    fun a ha => by simp [EvSt.new] at ha⟩, fun a ha => by simp [EvSt.new] at ha, hm⟩

/-- projections are not longer -/
theorem plen_anti {c : Cfg} (hc : CfgOK c) (v : ℕ → ℤ) {j : ℕ} (hj : j ≤ c.N) : plen c v j ≤ plen c v 0 :=
  hc.tree.pd_anti v (Nat.zero_le j) hj

/-- without pruning the bound of every level is the whole bound -/
theorem bnd_one {c : Cfg} {k : ℕ} (hp : c.pr k = 1) {A : ℚ} (hA : c.fl A = A) : c.bnd A k = A := by
  rw [Cfg.bnd, hp, mul_one, hA]

/-- the evaluator sees the reports in the order of the log -/
theorem reach_log {c : Cfg} {M : ℕ} {strat : Strategy} {fuel T : ℕ} {e : EvSt} {st : Sys EvSt}
    (h : Reach c (fastEval M strat) fuel T e st) :
    (st.ev, st.A) = runSols M strat (e, c.maxdist) (st.log.map fun p => (p.2, p.1)) := by
  induction h with
  | init h => rfl
  | step _ hs ih =>
    cases hs with
    | fill hd hr hf => exact ih
    | th j upd ht hs =>
      rename_i s _ _ t
      cases t with
      | done => simp [thStep] at hs
      | fresh => obtain rfl := Option.some.inj hs; exact ih
      | idle u =>
        cases hb : s.batch[s.idx]? with
        | none => simp only [thStep, hb, Option.some.injEq] at hs; subst hs; exact ih
        | some it => simp only [thStep, hb, Option.some.injEq] at hs; subst hs; exact ih
      | walk w =>
        cases w with
        | stuck => simp [thStep] at hs
        | ret u => obtain rfl := Option.some.inj hs; exact ih
        | offer x l k =>
          obtain rfl := Option.some.inj hs
          simp only [List.map_append, List.map_cons, List.map_nil]
          rw [Enum.runSols_concat, ← ih]
          rfl

/-- **C34** without pruning (`pr` constantly 1) and with the evaluator that keeps the `M` shortest: when the enumeration is over,
every stored solution is a non-zero vector of the region with its squared length, and every vector of the region of the initial
bound is stored or `M` solutions are stored which are not longer - for every schedule. -/
theorem C34_best {c : Cfg} (hc : CfgOK c) (hN : 10 < c.N) {fuel : ℕ} (hF : Fuel c fuel) (h0 : 0 ≤ c.maxdist)
    (hm : c.fl c.maxdist = c.maxdist) (hp : ∀ k, k < c.N → c.pr k = 1) {M : ℕ} (hM : 1 ≤ M) {T : ℕ} (hT : 1 ≤ T) {st : Sys EvSt}
    (h : Reach c (fastEval M .best) fuel T EvSt.new st) (hfin : st.final) :
    (∀ a ∈ st.ev.sols, Region c c.maxdist a.2 ∧ a.1 = plen c a.2 0) ∧
    ∀ v, Region c c.maxdist v →
      (∃ a ∈ st.ev.sols, a.1 = plen c v 0 ∧ ∀ j, j < c.N → a.2 j = v j) ∨
      (st.ev.sols.length = M ∧ ∀ a ∈ st.ev.sols, a.1 ≤ plen c v 0) := by
  have hE := best_ok hc hM h0 hm (hp 0 (by omega)).le
  have hI := best_init M hm
  have hAr : c.fl st.A = st.A := by
    obtain ⟨items0, cns, D, own, hi, _⟩ := inv_reach hc hN hF hE hI hT h
    exact hi.inv.2.2
  have hlog := reach_log h
  have hC := Enum.C15_best_keeps_N_shortest hM c.maxdist (st.log.map fun p => (p.2, p.1))
  rw [← hlog] at hC
  obtain ⟨hsh, _, hful⟩ := hC
  obtain ⟨hsd, _, hAle⟩ := C34_sound hc hN hF hE hI hT h
  obtain ⟨R, hR, hRle⟩ := hsh.drop
  have hsub : ∀ a ∈ st.ev.sols, ∃ p ∈ st.log, a = (p.2, p.1) := by
    intro a ha
    have := hR.mem_iff.1 (List.mem_append_left _ ha)
    obtain ⟨p, h1, h2⟩ := List.mem_map.1 this
    exact ⟨p, h1, h2.symm⟩
  refine ⟨fun a ha => ?_, fun v hv => ?_⟩
  · obtain ⟨p, h1, rfl⟩ := hsub a ha
    exact hsd p h1
  · -- all projections are at most the whole length
    have hmono : ∀ j, j < c.N → plen c v j ≤ plen c v 0 := fun j hj => plen_anti hc v hj.le
    by_cases hle : plen c v 0 ≤ st.A
    · obtain ⟨p, h1, h2⟩ := C34_complete hc hN hF hE hI hT h hfin v
        ⟨fun j hj => by rw [bnd_one (hp j hj) hAr]; exact (hmono j hj).trans hle, hv.2.1, hv.2.2⟩
      have h3 : p.2 = plen c v 0 := by
        rw [(hsd p h1).2]
        exact Enum.pd_congr _ _ _ _ _ fun j _ hj => h2 j hj
      have hm : (p.2, p.1) ∈ st.log.map fun p : Item => (p.2, p.1) := List.mem_map.2 ⟨p, h1, rfl⟩
      rcases List.mem_append.1 (hR.mem_iff.2 hm) with h4 | h4
      · exact Or.inl ⟨_, h4, h3, h2⟩
      · right
        have hlen := hsh.len
        have hRl : 0 < R.length := List.length_pos_of_mem h4
        have hRL := hR.length_eq
        rw [List.length_append] at hRL
        exact ⟨by change st.ev.sols.length + _ = _ at hRL; change st.ev.sols.length = _ at hlen; rw [Nat.min_def] at hlen; split_ifs at hlen <;> omega, fun a ha => by rw [← h3]; exact hRle a ha _ h4⟩
    · right
      have hA : st.A ≠ c.maxdist := by
        intro h1
        rw [h1] at hle
        have := hv.1 0 (by omega)
        rw [bnd_one (hp 0 (by omega)) hm] at this
        exact hle this
      obtain ⟨items0, cns, D, own, hi, _⟩ := inv_reach hc hN hF hE hI hT h
      obtain ⟨⟨_, h2, _, h4, h5⟩, _⟩ := hi.inv
      refine ⟨?_, fun a ha => (h5 a ha).trans (not_le.1 hle).le⟩
      by_contra h6
      exact hA (h4 (by omega))

/-- negative of a vector -/
theorem plen_neg {c : Cfg} (hc : CfgOK c) (v : ℕ → ℤ) (k : ℕ) : plen c (fun j => -v j) k = plen c v k := by
  unfold plen
  rw [pd, pd]
  apply forDown_congr
  intro j a _ h2
  rw [Enum.al_neg (c := c.e) hc.rnd (fun _ _ => rfl) v j h2, neg_mul_neg]

/-- one of `v`, `-v` has a positive last coordinate -/
theorem canon_or {n : ℕ} (v : ℕ → ℤ) :
    (∀ j, j < n → (∀ i, j < i → i < n → v i = 0) → 0 ≤ v j) ∨ (∀ j, j < n → (∀ i, j < i → i < n → v i = 0) → 0 ≤ -v j) := by
  induction n with
  | zero => left; intro j hj; omega
  | succ n ih =>
    rcases lt_trichotomy (v n) 0 with h | h | h
    · right
      intro j hj h1
      rcases Nat.lt_or_ge j n with h2 | h2
      · have := h1 n h2 (by omega); omega
      · obtain rfl : j = n := by omega
        omega
    · rcases ih with h3 | h3
      · left
        intro j hj h1
        rcases Nat.lt_or_ge j n with h2 | h2
        · exact h3 j h2 fun i h4 h5 => h1 i h4 (by omega)
        · obtain rfl : j = n := by omega
          omega
      · right
        intro j hj h1
        rcases Nat.lt_or_ge j n with h2 | h2
        · exact h3 j h2 fun i h4 h5 => h1 i h4 (by omega)
        · obtain rfl : j = n := by omega
          omega
    · left
      intro j hj h1
      rcases Nat.lt_or_ge j n with h2 | h2
      · have := h1 n h2 (by omega); omega
      · obtain rfl : j = n := by omega
        omega

/-- **C34** with the best-1 evaluator and without pruning: if there is a non-zero vector within the initial bound, then at the
end of every schedule exactly one solution is stored, it is such a vector, and no non-zero integer vector at all is shorter. -/
theorem C34_minimal {c : Cfg} (hc : CfgOK c) (hN : 10 < c.N) {fuel : ℕ} (hF : Fuel c fuel) (h0 : 0 ≤ c.maxdist)
    (hm : c.fl c.maxdist = c.maxdist) (hp : ∀ k, k < c.N → c.pr k = 1) {T : ℕ} (hT : 1 ≤ T) {st : Sys EvSt}
    (h : Reach c (fastEval 1 .best) fuel T EvSt.new st) (hfin : st.final)
    (hex : ∃ v : ℕ → ℤ, (∃ j, j < c.N ∧ v j ≠ 0) ∧ plen c v 0 ≤ c.maxdist) :
    ∃ δ x, st.ev.sols = [(δ, x)] ∧ δ = plen c x 0 ∧ (∃ j, j < c.N ∧ x j ≠ 0) ∧
      ∀ w : ℕ → ℤ, (∃ j, j < c.N ∧ w j ≠ 0) → δ ≤ plen c w 0 := by
  obtain ⟨hsd, hbest⟩ := C34_best hc hN hF h0 hm hp le_rfl hT h hfin
  have hlen1 : st.ev.sols.length ≤ 1 := by
    have hC := (Enum.C15_best_keeps_N_shortest le_rfl c.maxdist (st.log.map fun p => (p.2, p.1))).1
    rw [← reach_log h] at hC
    rw [hC.len]
    exact min_le_left _ _
  have hmono : ∀ (v : ℕ → ℤ) j, j < c.N → plen c v j ≤ plen c v 0 := fun v j hj => plen_anti hc v hj.le
  -- a stored solution at least as short as any vector within the bound
  have hkey : ∀ v : ℕ → ℤ, (∃ j, j < c.N ∧ v j ≠ 0) → plen c v 0 ≤ c.maxdist → ∃ a ∈ st.ev.sols, a.1 ≤ plen c v 0 := by
    intro v hv hle
    have hcase : ∃ u : ℕ → ℤ, Region c c.maxdist u ∧ plen c u 0 = plen c v 0 := by
      rcases canon_or (n := c.N) v with h1 | h1
      · exact ⟨v, ⟨fun j hj => by rw [bnd_one (hp j hj) hm]; exact (hmono v j hj).trans hle, hv, h1⟩, rfl⟩
      · refine ⟨fun j => -v j, ⟨fun j hj => ?_, ?_, fun j hj h2 => h1 j hj fun i h3 h4 => neg_eq_zero.1 (h2 i h3 h4)⟩,
          plen_neg hc v 0⟩
        · rw [plen_neg hc, bnd_one (hp j hj) hm]; exact (hmono v j hj).trans hle
        · obtain ⟨j, h2, h3⟩ := hv
          exact ⟨j, h2, by simpa using h3⟩
    obtain ⟨u, hu, hul⟩ := hcase
    rcases hbest u hu with ⟨a, h1, h2, _⟩ | ⟨h1, h2⟩
    · exact ⟨a, h1, by rw [h2, hul]⟩
    · obtain ⟨a, ha⟩ := List.length_pos_iff_exists_mem.1 (by omega : 0 < st.ev.sols.length)
      exact ⟨a, ha, by rw [← hul]; exact h2 a ha⟩
  obtain ⟨v, hv, hvle⟩ := hex
  obtain ⟨a, ha, _⟩ := hkey v hv hvle
  have hone : st.ev.sols = [a] := by
    cases hS : st.ev.sols with
    | nil => rw [hS] at ha; simp at ha
    | cons b L =>
      rw [hS] at ha hlen1
      have : L = [] := List.eq_nil_of_length_eq_zero (by simp only [List.length_cons] at hlen1; omega)
      subst this
      rw [List.mem_singleton.1 ha]
  obtain ⟨hra, hal⟩ := hsd a ha
  refine ⟨a.1, a.2, hone, hal, hra.2.1, fun w hw => ?_⟩
  by_cases hle : plen c w 0 ≤ c.maxdist
  · obtain ⟨b, hb, hbl⟩ := hkey w hw hle
    rw [hone, List.mem_singleton] at hb
    rw [← hb]
    exact hbl
  · have h1 := hra.1 0 (by omega)
    rw [bnd_one (hp 0 (by omega)) hm, ← hal] at h1
    exact h1.trans (not_le.1 hle).le

/-- two final states of two schedules (even with different numbers of threads) hold solutions of the same length -/
theorem C34_schedule_independent {c : Cfg} (hc : CfgOK c) (hN : 10 < c.N) {fuel fuel' : ℕ} (hF : Fuel c fuel)
    (hF' : Fuel c fuel') (h0 : 0 ≤ c.maxdist) (hm : c.fl c.maxdist = c.maxdist) (hp : ∀ k, k < c.N → c.pr k = 1) {T T' : ℕ} (hT : 1 ≤ T) (hT' : 1 ≤ T')
    {st st' : Sys EvSt} (h : Reach c (fastEval 1 .best) fuel T EvSt.new st) (hfin : st.final)
    (h' : Reach c (fastEval 1 .best) fuel' T' EvSt.new st') (hfin' : st'.final) :
    st.ev.sols.map Prod.fst = st'.ev.sols.map Prod.fst := by
  by_cases hex : ∃ v : ℕ → ℤ, (∃ j, j < c.N ∧ v j ≠ 0) ∧ plen c v 0 ≤ c.maxdist
  · obtain ⟨δ, x, h1, h2, h3, h4⟩ := C34_minimal hc hN hF h0 hm hp hT h hfin hex
    obtain ⟨δ', x', h1', h2', h3', h4'⟩ := C34_minimal hc hN hF' h0 hm hp hT' h' hfin' hex
    rw [h1, h1']
    simp only [List.map_cons, List.map_nil, List.cons.injEq, and_true]
    exact le_antisymm (by rw [h2']; exact h4 x' h3') (by rw [h2]; exact h4' x h3)
  · have : ∀ {fuel T : ℕ} {s : Sys EvSt}, Fuel c fuel → 1 ≤ T → Reach c (fastEval 1 .best) fuel T EvSt.new s → s.final →
        s.ev.sols = [] := by
      intro fuel T s hF hT h hf
      cases hS : s.ev.sols with
      | nil => rfl
      | cons a L =>
        exfalso
        obtain ⟨h5, h6⟩ := (C34_best hc hN hF h0 hm hp le_rfl hT h hf).1 a (by rw [hS]; simp)
        refine hex ⟨a.2, h5.2.1, ?_⟩
        have := h5.1 0 (by omega)
        rwa [bnd_one (hp 0 (by omega)) hm] at this
    rw [this hF hT h hfin, this hF' hT' h' hfin']

/-- an example: 11 dimensions, `μ = 1/2` next to the diagonal -/
def exCfg : Cfg where
  N := 11
  mt := fun i j => if j = i + 1 then 1 / 2 else 0
  rdiag := fun i => i + 1
  pr := fun _ => 1
  maxdist := 3

theorem exCfg_ok : CfgOK exCfg := ⟨Enum.Rnd.id, fun _ _ => rfl, fun k _ => by simp only [exCfg]; positivity, fun k _ => by simp [exCfg]⟩

/-- the hypotheses of the theorems above can be met, and end states are reached with four workers -/
example : ∃ fuel st, Fuel exCfg fuel ∧ Reach exCfg (fastEval 1 .best) fuel 4 EvSt.new st ∧ st.final ∧
    ∃ δ x, st.ev.sols = [(δ, x)] ∧ δ = plen exCfg x 0 := by
  obtain ⟨fuel, hF⟩ := fuel_exists exCfg_ok
  have hN : 10 < exCfg.N := by simp [exCfg]
  have h0 : 0 ≤ exCfg.maxdist := by simp [exCfg]
  obtain ⟨items, loc, h1, _⟩ := stage0_ok exCfg_ok hN hF
  have hr : Reach exCfg (fastEval 1 .best) fuel 4 EvSt.new _ := Reach.init h1
  obtain ⟨st, h2, h3⟩ := C34_final_reached exCfg_ok hN hF (best_ok exCfg_ok le_rfl h0 rfl (by simp [exCfg]))
    (best_init 1 rfl) (by omega) hr
  have hst : ∀ {s0 s : Sys EvSt}, Reach exCfg (fastEval 1 .best) fuel 4 EvSt.new s0 →
      Relation.ReflTransGen (Step exCfg (fastEval 1 .best) fuel 4) s0 s → Reach exCfg (fastEval 1 .best) fuel 4 EvSt.new s := by
    intro s0 s hr h
    induction h with
    | refl => exact hr
    | tail _ hs ih => exact Reach.step ih hs
  have hv : plen exCfg (fun j => if j = 0 then 1 else 0) 0 ≤ exCfg.maxdist := by decide +kernel
  obtain ⟨δ, x, h4, h5, _⟩ := C34_minimal exCfg_ok hN hF h0 rfl (fun _ _ => rfl) (by omega) (hst hr h2) h3
    ⟨fun j => if j = 0 then 1 else 0, ⟨0, by simp [exCfg], by simp⟩, hv⟩
  exact ⟨fuel, st, hF, hst hr h2, h3, δ, x, h4, h5⟩

end Par
end Fplll

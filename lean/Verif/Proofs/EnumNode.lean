import Verif.Proofs.EnumWalk

/-!
# Processing one node
-/

open Finset

namespace Fplll
namespace Enum

variable {σ : Type}

/-- State after the bookkeeping for an accepted node of level `k`. -/
structure NodeDone (c : Cfg) (E : EvalOps σ) (k : ℕ) (s s1 : St σ) (S : List Event) : Prop where
  x : s1.x = s.x
  dx : s1.dx = s.dx
  ddx : s1.ddx = s.ddx
  center : s1.center = s.center
  partdist : s1.partdist = s.partdist
  cps : s1.cps = s.cps
  cpsBegin : s1.cpsBegin = s.cpsBegin
  bounds : s1.bounds = s.bounds
  maxdist : s1.maxdist = s.maxdist
  alpha : s1.alpha = setAt s.alpha k (alphak c s k)
  nodes : s1.nodes = setAt s.nodes k (s.nodes k + 1)
  events : s1.events = s.events ++ (.node k s.x (newdist c s k) :: S)
  sub : (S = [] ∧ s1.subsoldists = s.subsoldists ∧ s1.ev = s.ev ∧
      (c.findsubsols = true → newdist c s k ≠ 0 → s.subsoldists k ≤ newdist c s k)) ∨
    (S = [.sub k (fun j => if j < k then 0 else s.x j) (newdist c s k)] ∧
      s1.subsoldists = setAt s.subsoldists k (newdist c s k) ∧
      s1.ev = E.evalSub s.ev k (fun j => if j < k then 0 else s.x j) (newdist c s k) ∧
      c.findsubsols = true ∧ newdist c s k ≠ 0 ∧ newdist c s k < s.subsoldists k)

theorem enter_done (c : Cfg) (E : EvalOps σ) (s : St σ) (k : ℕ)
    (h : c.findsubsols = true → newdist c s k ≠ 0 → s.subsoldists k ≤ newdist c s k) :
    NodeDone c E k s (enter c s k) [] where
  x := rfl
  dx := rfl
  ddx := rfl
  center := rfl
  partdist := rfl
  cps := rfl
  cpsBegin := rfl
  bounds := rfl
  maxdist := rfl
  alpha := rfl
  nodes := rfl
  events := rfl
  sub := .inl ⟨rfl, rfl, rfl, h⟩

theorem subsolTest_done (c : Cfg) (E : EvalOps σ) (s : St σ) (k : ℕ) :
    ∃ S, NodeDone c E k s (subsolTest c E (enter c s k) k (newdist c s k)) S := by
  unfold subsolTest
  have hsub : (enter c s k).subsoldists = s.subsoldists := rfl
  rw [hsub]
  split_ifs with h
  · refine ⟨[.sub k (fun j => if j < k then 0 else s.x j) (newdist c s k)], ?_⟩
    constructor <;> try rfl
    · simp [processSubsolution, enter]
    · exact .inr ⟨rfl, rfl, rfl, h.1, h.2.2, h.2.1⟩
  · refine ⟨[], enter_done c E s k ?_⟩
    intro h1 h2
    by_contra h3
    exact h ⟨h1, not_le.1 h3, h2⟩

/-- the test does nothing if the node cannot improve on the recorded distance -/
theorem subsolTest_skip (c : Cfg) (E : EvalOps σ) (s : St σ) (k : ℕ)
    (h : c.findsubsols = true → newdist c s k ≠ 0 → s.subsoldists k ≤ newdist c s k) :
    subsolTest c E (enter c s k) k (newdist c s k) = enter c s k := by
  unfold subsolTest
  rw [if_neg]
  rintro ⟨h1, h2, h3⟩
  exact absurd (h h1 h3) (not_le.2 h2)

theorem NodeDone.subLe {c : Cfg} {E : EvalOps σ} {k : ℕ} {s s1 : St σ} {S : List Event}
    (h : NodeDone c E k s s1 S) (l : ℕ) : s1.subsoldists l ≤ s.subsoldists l := by
  rcases h.sub with ⟨-, h2, -⟩ | ⟨-, h2, -, -, -, h3⟩
  · rw [h2]
  · rw [h2, setAt]; split_ifs with hl
    · rw [hl]; exact h3.le
    · exact le_rfl

theorem NodeDone.subK {c : Cfg} {E : EvalOps σ} {k : ℕ} {s s1 : St σ} {S : List Event}
    (h : NodeDone c E k s s1 S) (hf : c.findsubsols = true) (hd : newdist c s k ≠ 0) :
    s1.subsoldists k ≤ newdist c s k := by
  rcases h.sub with ⟨-, h2, -, h3⟩ | ⟨-, h2, -, -, -, h3⟩
  · rw [h2]; exact h3 hf hd
  · rw [h2, setAt, if_pos rfl]

theorem NodeDone.fold {c : Cfg} {E : EvalOps σ} {k : ℕ} {s s1 : St σ} {S : List Event}
    (h : NodeDone c E k s s1 S) :
    (s1.ev, s1.maxdist) = (.node k s.x (newdist c s k) :: S).foldl (evStep E) (s.ev, s.maxdist) := by
  rcases h.sub with ⟨h1, h2, h3, -⟩ | ⟨h1, h2, h3, -⟩
  · rw [h1, h3, h.maxdist]; rfl
  · rw [h1, h3, h.maxdist]; rfl

theorem NodeDone.inv {c : Cfg} {E : EvalOps σ} {I : σ → ℚ → Prop} (hE : EvalOK c E I) {k : ℕ} {s s1 : St σ}
    {S : List Event} (h : NodeDone c E k s s1 S) (hI : I s.ev s.maxdist) : I s1.ev s1.maxdist := by
  rcases h.sub with ⟨h1, h2, h3, -⟩ | ⟨h1, h2, h3, -⟩
  · rw [h3, h.maxdist]; exact hI
  · rw [h3, h.maxdist]; exact hE.sub _ _ _ _ _ hI

theorem NodeDone.nodesAt {c : Cfg} {E : EvalOps σ} {k : ℕ} {s s1 : St σ} {S : List Event}
    (h : NodeDone c E k s s1 S) (l : ℕ) :
    nodesAt l (.node k s.x (newdist c s k) :: S) = if l = k then [(s.x, newdist c s k)] else [] := by
  rcases h.sub with ⟨h1, -⟩ | ⟨h1, -⟩ <;> subst h1 <;> by_cases hl : l = k
  all_goals first | (subst hl; simp [Enum.nodesAt]) | simp [Enum.nodesAt, hl, Ne.symm hl]

theorem NodeDone.solsOf {c : Cfg} {E : EvalOps σ} {k : ℕ} {s s1 : St σ} {S : List Event}
    (h : NodeDone c E k s s1 S) : solsOf (.node k s.x (newdist c s k) :: S) = [] := by
  rcases h.sub with ⟨h1, -⟩ | ⟨h1, -⟩ <;> subst h1 <;> simp [Enum.solsOf]

theorem NodeDone.subLast {c : Cfg} {E : EvalOps σ} {k : ℕ} {s s1 : St σ} {S : List Event}
    (h : NodeDone c E k s s1 S) (l : ℕ) :
    s1.subsoldists l = lastDist (s.subsoldists l) (subsAt l (.node k s.x (newdist c s k) :: S)) := by
  rcases h.sub with ⟨h1, h2, -⟩ | ⟨h1, h2, -⟩ <;> subst h1 <;> rw [h2] <;> by_cases hl : l = k
  all_goals first | (subst hl; simp [lastDist, subsAt, setAt]) | simp [lastDist, subsAt, setAt, hl, Ne.symm hl]

theorem NodeDone.mem {c : Cfg} {E : EvalOps σ} {k : ℕ} {s s1 : St σ} {S : List Event}
    (h : NodeDone c E k s s1 S) {l : ℕ} {v : ℕ → ℤ} {d : ℚ}
    (hm : Event.node l v d ∈ (.node k s.x (newdist c s k) :: S)) : l = k ∧ v = s.x ∧ d = newdist c s k := by
  have := mem_nodesAt.2 hm
  rw [h.nodesAt] at this
  split_ifs at this with hl
  · simp only [List.mem_singleton, Prod.mk.injEq] at this
    exact ⟨hl, this.1, this.2⟩
  · cases this

theorem NodeDone.subEv {c : Cfg} {E : EvalOps σ} {k : ℕ} {s s1 : St σ} {S : List Event}
    (h : NodeDone c E k s s1 S) {l : ℕ} {fx : ℕ → ℤ} {d : ℚ}
    (hm : Event.sub l fx d ∈ (.node k s.x (newdist c s k) :: S)) :
    c.findsubsols = true ∧ d ≠ 0 ∧ d < s.subsoldists l ∧
      ∃ v, Event.node l v d ∈ (.node k s.x (newdist c s k) :: S) ∧ fx = fun j => if j < l then 0 else v j := by
  rcases h.sub with ⟨h1, h2, -⟩ | ⟨h1, h2, h3, h4, h5, h6⟩ <;> subst h1
  · simp at hm
  · simp only [List.mem_cons, reduceCtorEq, Event.sub.injEq, List.not_mem_nil, or_false, false_or] at hm
    obtain ⟨rfl, rfl, rfl⟩ := hm
    exact ⟨h4, h5, h6, s.x, by simp, rfl⟩

theorem NodeDone.subsAt_ne {c : Cfg} {E : EvalOps σ} {k : ℕ} {s s1 : St σ} {S : List Event}
    (h : NodeDone c E k s s1 S) {l : ℕ} (hl : l ≠ k) : subsAt l (.node k s.x (newdist c s k) :: S) = [] := by
  rcases h.sub with ⟨h1, -⟩ | ⟨h1, -⟩ <;> subst h1 <;> simp [subsAt, Ne.symm hl]

theorem NodeDone.subDec {c : Cfg} {E : EvalOps σ} {k : ℕ} {s s1 : St σ} {S : List Event}
    (h : NodeDone c E k s s1 S) (l : ℕ) :
    (subsAt l (.node k s.x (newdist c s k) :: S)).Pairwise fun a b => b.2 < a.2 := by
  by_cases hl : l = k
  · rcases h.sub with ⟨h1, -⟩ | ⟨h1, -⟩ <;> subst h1 <;> subst hl <;> simp [subsAt]
  · rw [h.subsAt_ne hl]; simp

theorem NodeDone.within {c : Cfg} {E : EvalOps σ} {k : ℕ} {s s1 : St σ} {S : List Event}
    (h : NodeDone c E k s s1 S) (hb : newdist c s k ≤ setBounds c s.maxdist k) :
    Within c E (s.ev, s.maxdist) (.node k s.x (newdist c s k) :: S) := by
  rcases h.sub with ⟨h1, -⟩ | ⟨h1, -⟩ <;> subst h1
  · exact ⟨hb, trivial⟩
  · exact ⟨hb, trivial, trivial⟩

/-- An accepted node together with the walk below it. -/
theorem visit_walked {c : Cfg} {E : EvalOps σ} {p0 : ℚ} {I : σ → ℚ → Prop} {k : ℕ} {s s1 t s2 : St σ}
    {S L : List Event} (hl : Lvl c p0 (k + 1) s) (hacc : newdist c s (k + 1) ≤ s.bounds (k + 1))
    (h : NodeDone c E (k + 1) s s1 S)
    (t1 : t.events = s1.events) (t2 : t.ev = s1.ev) (t3 : t.maxdist = s1.maxdist) (t4 : t.bounds = s1.bounds)
    (t5 : t.nodes = s1.nodes) (t6 : ∀ j, k < j → t.x j = s1.x j) (t7 : t.subsoldists = s1.subsoldists)
    (w : Walked c E p0 I k (fun z => c.svp = true → pd c p0 s.x (k + 1) = 0 → 0 ≤ z) t s2 L) :
    Walked c E p0 I (k + 1) (fun z => z = s.x (k + 1)) s s2 (.node (k + 1) s.x (newdist c s (k + 1)) :: S ++ L) where
  events := by rw [w.events, t1, h.events, List.append_assoc]
  fold := by rw [w.fold, List.foldl_append, ← h.fold, t2, t3]
  inv := w.inv
  anti j hj := by rw [← h.bounds, ← t4]; exact w.anti j hj
  cnt l := by
    rw [w.cnt, t5, h.nodes, nodesAt_append, h.nodesAt, setAt]
    split_ifs with hl
    · subst hl
      rw [List.length_append, BitVec.ofNat_add, BitVec.add_assoc]
      rfl
    · simp
  node l v d hm := by
    rcases List.mem_append.1 hm with hm | hm
    · obtain ⟨rfl, rfl, rfl⟩ := h.mem hm
      refine ⟨le_rfl, fun _ _ => rfl, rfl, (newdist_eq hl).2, ?_, ?_⟩
      · intro j hj hj'
        have : j = k + 1 := by omega
        subst this
        rw [← (newdist_eq hl).2]; exact hacc
      · intro j hj hj'; omega
    · obtain ⟨a1, a2, a3, a4, a5, a6⟩ := w.node l v d hm
      have hx : ∀ j, k < j → v j = s.x j := fun j hj => by rw [a2 j hj, t6 j hj, h.x]
      have hpd : pd c p0 v (k + 1) = pd c p0 s.x (k + 1) := pd_congr _ _ _ _ _ (fun j hj _ => hx j hj)
      refine ⟨by omega, fun j hj => hx j (by omega), hx _ (by omega), a4, ?_, ?_⟩
      · intro j hj hj'
        rcases Nat.lt_or_ge k j with hkj | hkj
        · have : j = k + 1 := by omega
          subst this
          rw [hpd, ← (newdist_eq hl).2]; exact hacc
        · have := a5 j hj hkj
          rwa [t4, h.bounds] at this
      · intro j hj hj' hs hp
        rcases Nat.lt_or_ge j k with hkj | hkj
        · exact a6 j hj hkj hs hp
        · have : j = k := by omega
          subst this
          exact a3 hs (by rw [← hpd]; exact hp)
  comp v l hlk ha hP hc hb := by
    rcases Nat.lt_or_ge k l with hkl | hkl
    · have : l = k + 1 := by omega
      subst this
      have hx : ∀ j, k + 1 ≤ j → s.x j = v j := fun j hj => by
        rcases Nat.lt_or_ge (k + 1) j with hj' | hj'
        · exact (ha j hj').symm
        · have : j = k + 1 := by omega
          subst this; exact hP.symm
      refine ⟨s.x, ?_, hx⟩
      rw [(newdist_eq hl).2, pd_congr c p0 s.x v (k + 1) (fun j hj _ => hx j hj)]
      simp
    · have hx : ∀ j, k < j → v j = s.x j := fun j hj => by
        rcases Nat.lt_or_ge (k + 1) j with hj' | hj'
        · exact ha j hj'
        · have : j = k + 1 := by omega
          subst this; exact hP
      obtain ⟨u, hu, hu'⟩ := w.comp v l hkl (fun j hj => by rw [hx j hj, t6 j hj, h.x])
        (fun hs hp => hc k hkl (by omega) hs (by
          rw [pd_congr c p0 v s.x (k + 1) (fun j hj _ => hx j hj)]; exact hp))
        (fun j hj hj' => hc j hj (by omega)) (fun j hj hj' => hb j hj (by omega))
      exact ⟨u, List.mem_append_right _ hu, hu'⟩
  nodup l := by
    rw [nodesAt_append, h.nodesAt]
    split_ifs with hlk
    · subst hlk
      have : nodesAt (k + 1) L = [] := by
        rw [List.eq_nil_iff_forall_not_mem]
        rintro ⟨v, d⟩ hm
        have := (w.node _ _ _ (mem_nodesAt.1 hm)).1
        omega
      rw [this]
      simp
    · rw [List.nil_append]
      exact (w.nodup l).imp (fun ⟨j, h1, h2, h3⟩ => ⟨j, h1, by omega, h3⟩)
  order l := by
    rw [nodesAt_append, h.nodesAt]
    split_ifs with hlk
    · subst hlk
      have : nodesAt (k + 1) L = [] := by
        rw [List.eq_nil_iff_forall_not_mem]
        rintro ⟨v, d⟩ hm
        have := (w.node _ _ _ (mem_nodesAt.1 hm)).1
        omega
      rw [this]
      simp
    · rw [List.nil_append]
      refine (w.order l).imp_of_mem (fun {a b} ha hb ⟨j, h1, h2, h3, h4, h5⟩ => ⟨j, h1, by omega, h3, ?_, h5⟩)
      intro i h6 h7
      rcases Nat.lt_or_ge k i with h8 | h8
      · rw [(w.node l a.1 a.2 (mem_nodesAt.1 ha)).2.1 i h8, (w.node l b.1 b.2 (mem_nodesAt.1 hb)).2.1 i h8]
      · exact h4 i h6 h8
  sols := by
    rw [solsOf_append, nodesAt_append, h.solsOf, h.nodesAt, if_neg (by omega), List.nil_append, List.nil_append, w.sols]
  subLe l := (w.subLe l).trans (by rw [t7]; exact h.subLe l)
  subNode hf l v d hm hd := by
    rcases List.mem_append.1 hm with hm | hm
    · obtain ⟨rfl, rfl, rfl⟩ := h.mem hm
      exact (w.subLe _).trans (by rw [t7]; exact h.subK hf hd)
    · exact w.subNode hf l v d hm hd
  subLast l := by rw [w.subLast, t7, h.subLast, subsAt_append, lastDist_append]
  subEv l fx d hm := by
    rcases List.mem_append.1 hm with hm | hm
    · obtain ⟨a1, a2, a3, v, hv, he⟩ := h.subEv hm
      exact ⟨a1, a2, a3, v, List.mem_append_left _ hv, he⟩
    · obtain ⟨a1, a2, a3, v, hv, he⟩ := w.subEv l fx d hm
      exact ⟨a1, a2, a3.trans_le (by rw [t7]; exact h.subLe l), v, List.mem_append_right _ hv, he⟩
  subDec l := by
    rw [subsAt_append]
    by_cases hlk : l = k + 1
    · have : subsAt l L = [] := by
        rw [List.eq_nil_iff_forall_not_mem]
        rintro ⟨fx, d⟩ hm
        obtain ⟨-, -, -, v, hv, -⟩ := w.subEv l fx d (mem_subsAt.1 hm)
        have := (w.node _ _ _ hv).1
        omega
      rw [this, List.append_nil]
      exact h.subDec l
    · rw [h.subsAt_ne hlk, List.nil_append]
      exact w.subDec l
  within := (within_append c E _ _ _).2 ⟨h.within (by rw [← hl.bnd]; exact hacc), by
    rw [← h.fold, ← t2, ← t3]; exact w.within⟩

/-- An accepted node of level 0. -/
theorem leaf_walked {c : Cfg} {E : EvalOps σ} {p0 : ℚ} {I : σ → ℚ → Prop} (hT : TreeOK c p0) (hE : EvalOK c E I)
    {s s1 : St σ} {S : List Event} (hI : I s.ev s.maxdist) (hl : Lvl c p0 0 s)
    (hacc : newdist c s 0 ≤ s.bounds 0) (h : NodeDone c E 0 s s1 S) :
    ∃ L, Walked c E p0 I 0 (fun z => z = s.x 0) s (leaf c E s1 (newdist c s 0)) L ∧
      (leaf c E s1 (newdist c s 0)).bounds = setBounds c (leaf c E s1 (newdist c s 0)).maxdist := by
  have hnode : ∀ l v d, Event.node l v d ∈ (.node 0 s.x (newdist c s 0) :: S) → l ≤ 0 ∧ (∀ j, 0 < j → v j = s.x j) ∧
      v 0 = s.x 0 ∧ d = pd c p0 v l ∧ (∀ j, l ≤ j → j ≤ 0 → pd c p0 v j ≤ s.bounds j) ∧ Canon c p0 v l 0 := by
    intro l v d hm
    obtain ⟨rfl, rfl, rfl⟩ := h.mem hm
    refine ⟨le_rfl, fun _ _ => rfl, rfl, (newdist_eq hl).2, ?_, fun j _ hj => by omega⟩
    intro j _ hj
    have : j = 0 := by omega
    subst this
    rw [← (newdist_eq hl).2]; exact hacc
  have hcomp : ∀ v : ℕ → ℤ, (∀ j, 0 < j → v j = s.x j) → v 0 = s.x 0 → v = s.x := by
    intro v h1 h2
    funext j
    rcases Nat.eq_zero_or_pos j with rfl | hj
    · exact h2
    · exact h1 j hj
  by_cases hc : newdist c s 0 > 0 ∨ c.svp = false
  · have hleaf : leaf c E s1 (newdist c s 0) = processSolution c E s1 (newdist c s 0) := by
      unfold leaf; rw [if_pos hc]
    have hnn : 0 ≤ newdist c s 0 := by rw [(newdist_eq hl).2]; exact hT.pd_nonneg _ _
    have hI1 := h.inv hE hI
    have hsol := hE.sol s1.ev s1.maxdist s1.x (newdist c s 0) hI1 hnn (hT.rnd.idem _)
      (by rw [h.maxdist, ← hl.bnd]; exact hacc)
    rw [hleaf]
    refine ⟨.node 0 s.x (newdist c s 0) :: S ++ [.sol s.x (newdist c s 0)], ?_, rfl⟩
    constructor
    · simp only [processSolution, h.x]
      rw [h.events, List.append_assoc]
    · rw [List.foldl_append, ← h.fold]
      simp [evStep, processSolution, h.x]
    · exact hsol.1
    · intro j hj
      have := hsol.2 j hj
      rw [h.maxdist, ← hl.bnd] at this
      simpa [processSolution, h.maxdist] using this
    · intro l
      rw [nodesAt_append, h.nodesAt]
      simp only [processSolution, h.nodes, setAt]
      split_ifs with hl
      · subst hl; simp [nodesAt]
      · simp [nodesAt]
    · intro l v d hm
      rw [List.mem_append] at hm
      rcases hm with hm | hm
      · exact hnode l v d hm
      · simp at hm
    · intro v l hl0 ha hP _ _
      have : l = 0 := by omega
      subst this
      have := hcomp v ha hP
      subst this
      refine ⟨s.x, ?_, fun _ _ => rfl⟩
      rw [(newdist_eq hl).2]; simp
    · intro l
      rw [nodesAt_append, h.nodesAt]
      split_ifs <;> simp [nodesAt]
    · intro l
      rw [nodesAt_append, h.nodesAt]
      split_ifs <;> simp [nodesAt]
    · rw [solsOf_append, nodesAt_append, h.solsOf, h.nodesAt, if_pos rfl]
      have : nodesAt 0 [Event.sol s.x (newdist c s 0)] = [] := by simp [nodesAt]
      rw [this, List.append_nil, List.nil_append, List.filter_singleton]
      simp only [gt_iff_lt] at hc
      simp [solsOf, hc]
    · intro l; exact h.subLe l
    · intro hf l v d hm hd
      rw [List.mem_append] at hm
      rcases hm with hm | hm
      · obtain ⟨rfl, rfl, rfl⟩ := h.mem hm
        exact h.subK hf hd
      · simp at hm
    · intro l
      rw [subsAt_append, lastDist_append, ← h.subLast]
      simp [subsAt, lastDist, processSolution]
    · intro l fx d hm
      rw [List.mem_append] at hm
      rcases hm with hm | hm
      · obtain ⟨a1, a2, a3, v, hv, he⟩ := h.subEv hm
        exact ⟨a1, a2, a3, v, List.mem_append_left _ hv, he⟩
      · simp at hm
    · intro l
      rw [subsAt_append]
      have : subsAt l [Event.sol s.x (newdist c s 0)] = [] := by simp [subsAt]
      rw [this, List.append_nil]
      exact h.subDec l
    · refine (within_append c E _ _ _).2 ⟨h.within (by rw [← hl.bnd]; exact hacc), ?_⟩
      rw [← h.fold]
      exact ⟨show newdist c s 0 ≤ setBounds c s1.maxdist 0 by rw [h.maxdist, ← hl.bnd]; exact hacc, trivial⟩
  · have hleaf : leaf c E s1 (newdist c s 0) = s1 := by
      unfold leaf; rw [if_neg hc]
    rw [hleaf]
    refine ⟨.node 0 s.x (newdist c s 0) :: S, ?_, by rw [h.bounds, h.maxdist, hl.bnd]⟩
    constructor
    · rw [h.events]
    · rw [← h.fold]
    · exact h.inv hE hI
    · intro j _; rw [h.bounds]
    · intro l
      rw [h.nodesAt, h.nodes, setAt]
      split_ifs with hl
      · subst hl; simp
      · simp
    · exact hnode
    · intro v l hl0 ha hP _ _
      have : l = 0 := by omega
      subst this
      have := hcomp v ha hP
      subst this
      refine ⟨s.x, ?_, fun _ _ => rfl⟩
      rw [(newdist_eq hl).2]; simp
    · intro l
      rw [h.nodesAt]
      split_ifs <;> simp
    · intro l
      rw [h.nodesAt]
      split_ifs <;> simp
    · rw [h.solsOf, h.nodesAt, if_pos rfl, List.filter_singleton]
      simp only [gt_iff_lt] at hc
      simp [hc]
    · intro l; exact h.subLe l
    · intro hf l v d hm hd
      obtain ⟨rfl, rfl, rfl⟩ := h.mem hm
      exact h.subK hf hd
    · intro l; exact h.subLast l
    · intro l fx d hm; exact h.subEv hm
    · exact h.subDec
    · exact h.within (by rw [← hl.bnd]; exact hacc)

end Enum
end Fplll

import Verif.Proofs.EnumMain
import Verif.Model.CVPReset

/-!
# Walks with resets

A walk of the levels `k, k-1, …, bot` of the tree whose nodes of the lowest level are handed to something else (`reset`
or a leaf).  `ρ v` is what the radius must be brought down to by a walk through the prefix of `v`.
-/

open Finset

namespace Fplll
namespace Enum

variable {σ : Type}

/-- the tree of a closest vector search: no symmetry, no sub-solutions, no pruning -/
structure CvpTree (c : Cfg) (p0 : ℚ) : Prop where
  tree : TreeOK c p0
  svp : c.svp = false
  subs : c.findsubsols = false
  prune : c.pruning = none

theorem CvpTree.bnd {c : Cfg} {p0 : ℚ} (h : CvpTree c p0) (md : ℚ) (k : ℕ) : setBounds c md k = md := by
  unfold setBounds; rw [h.prune]

theorem CvpTree.test {c : Cfg} {p0 : ℚ} (h : CvpTree c p0) (E : EvalOps σ) (s : St σ) (k : ℕ) (nd : ℚ) :
    subsolTest c E s k nd = s := by
  unfold subsolTest
  rw [if_neg (by rw [h.subs]; simp)]

theorem CvpTree.done {c : Cfg} {p0 : ℚ} (h : CvpTree c p0) (E : EvalOps σ) (s : St σ) (k : ℕ) :
    NodeDone c E k s (enter c s k) [] :=
  enter_done c E s k (fun hf => by rw [h.subs] at hf; cases hf)

/-- what the visit of one node of level `k` leaves -/
structure VOut (c : Cfg) (p0 : ℚ) (I : σ → ℚ → Prop) (ρ : (ℕ → ℤ) → ℚ) (k : ℕ) (s s2 : St σ) : Prop where
  frame : Frame k s s2
  lvl : Lvl c p0 k s2
  x : s2.x k = s.x k
  dx : s2.dx k = s.dx k
  ddx : s2.ddx k = s.ddx k
  inv : I s2.ev s2.maxdist
  le : s2.maxdist ≤ s.maxdist
  sub : ∀ l, s2.subsoldists l ≤ s.subsoldists l
  done : ∀ v : ℕ → ℤ, (∀ j, k ≤ j → v j = s.x j) → s2.maxdist ≤ ρ v

/-- what the walk through the nodes of level `k` with coordinates in `P` leaves -/
structure LOut (c : Cfg) (p0 : ℚ) (I : σ → ℚ → Prop) (ρ : (ℕ → ℤ) → ℚ) (k : ℕ) (P : ℤ → Prop) (s t : St σ) : Prop where
  frame : Frame k s t
  lvl : Lvl c p0 k t
  inv : I t.ev t.maxdist
  le : t.maxdist ≤ s.maxdist
  sub : ∀ l, t.subsoldists l ≤ s.subsoldists l
  done : ∀ v : ℕ → ℤ, (∀ j, k < j → v j = s.x j) → P (v k) → t.maxdist ≤ ρ v

/-- `m` visits of siblings of level `k`, the last state being a sibling that is not accepted -/
inductive Chain (c : Cfg) (k : ℕ) (V : St σ → St σ → Prop) : ℕ → St σ → St σ → Prop
  | last {s s2 : St σ} (h : V s s2) (hf : ¬ newdist c (sibling c s2 k) k ≤ (sibling c s2 k).bounds k) :
      Chain c k V 1 s (sibling c s2 k)
  | more {m : ℕ} {s s2 t : St σ} (h : V s s2) (hf : newdist c (sibling c s2 k) k ≤ (sibling c s2 k).bounds k)
      (g : Chain c k V m (sibling c s2 k) t) : Chain c k V (m + 1) s t

/-- The siblings of level `k`, given the visit of one of them. -/
theorem sibs_ok {c : Cfg} {p0 : ℚ} {I : σ → ℚ → Prop} {ρ : (ℕ → ℤ) → ℚ} (hC : CvpTree c p0) {X : ℕ → ℤ}
    (hρ : ∀ v : ℕ → ℤ, (∀ j, c.K ≤ j → v j = X j) → ∀ k ≤ c.K, pd c p0 v k ≤ ρ v)
    {fuel k : ℕ} {x0 sd : ℤ} {V : St σ → St σ → Prop}
    (hV : ∀ n s, SibInv c p0 I k false x0 sd n s → newdist c s k ≤ s.bounds k → Enough c s.bounds fuel →
      (∀ j, c.K ≤ j → s.x j = X j) → ∃ s2, V s s2 ∧ VOut c p0 I ρ k s s2)
    (f : ℕ) : ∀ (n : ℕ) (s : St σ), SibInv c p0 I k false x0 sd n s → newdist c s k ≤ s.bounds k →
      Enough c s.bounds fuel → (∀ j, c.K ≤ j → s.x j = X j) → fuel ≤ n + f →
      ∃ t m, m ≤ f ∧ Chain c k V m s t ∧ ¬ newdist c t k ≤ t.bounds k ∧
        LOut c p0 I ρ k (fun z => ∃ n', n ≤ n' ∧ z = seq false x0 sd n') s t := by
  induction f with
  | zero =>
    intro n s hi hacc hF _ hn
    exfalso
    have hT := hC.tree
    have hr := hT.rpos k hi.lvl.kK
    have h1 := hi.newdist
    have h2 := hi.ok.dist_ge n
    have h3 : (fuel : ℚ) / 2 ≤ (n : ℚ) / 2 := by
      have : (fuel : ℚ) ≤ n := by exact_mod_cast hn
      linarith
    have h4 : (0 : ℚ) ≤ (fuel : ℚ) / 2 := by positivity
    have h7 := hF k hi.lvl.kK
    have h8 : 0 ≤ s.partdist k := by rw [hi.lvl.pdist]; exact hT.pd_nonneg _ _
    have h9 := dist_grow hT.rnd hr.le h8 h4 (h3.trans h2)
    rw [← h1, show (fuel : ℚ) / 2 / 4 = fuel / 8 by ring] at h9
    linarith
  | succ f ihf =>
    intro n s hi hacc hF hX hn
    obtain ⟨s2, hv, w⟩ := hV n s hi hacc hF hX
    obtain ⟨i3, f3, e1, e2, e3, e4, e5, e6, e7⟩ := sibling_inv hi w.frame w.lvl w.inv w.x w.dx w.ddx w.sub
    have hfr : Frame k s (sibling c s2 k) := w.frame.trans f3
    have hK := hi.lvl.kK
    have hX3 : ∀ j, c.K ≤ j → (sibling c s2 k).x j = X j := fun j hj => by rw [hfr.x j (by omega), hX j hj]
    have hfirst : ∀ v : ℕ → ℤ, (∀ j, k < j → v j = s.x j) → v k = seq false x0 sd n → s2.maxdist ≤ ρ v := by
      intro v hv hk
      refine w.done v (fun j hj => ?_)
      rcases Nat.lt_or_ge k j with h | h
      · exact hv j h
      · have : j = k := by omega
        rw [this, hk, hi.xk]
    by_cases hacc3 : newdist c (sibling c s2 k) k ≤ (sibling c s2 k).bounds k
    · obtain ⟨t, m, hm, hch, hf, o⟩ := ihf (n + 1) (sibling c s2 k) i3 hacc3
        (hF.mono (fun j _ => by rw [e4, w.lvl.bnd, hi.lvl.bnd, hC.bnd, hC.bnd]; exact w.le)) hX3 (by omega)
      refine ⟨t, m + 1, by omega, .more hv hacc3 hch, hf, hfr.trans o.frame, o.lvl, o.inv,
        o.le.trans (by rw [e3]; exact w.le), fun l => (o.sub l).trans (by rw [e6]; exact w.sub l), ?_⟩
      rintro v hva ⟨n', h1, h2⟩
      rcases Nat.lt_or_ge n n' with h3 | h3
      · exact o.done v (fun j hj => by rw [hva j hj, hfr.x j hj]) ⟨n', h3, h2⟩
      · have : n' = n := by omega
        subst this
        have h4 := o.le
        rw [e3] at h4
        exact h4.trans (hfirst v hva h2)
    · refine ⟨sibling c s2 k, 1, by omega, .last hv hacc3, hacc3, hfr, i3.lvl, i3.inv, by rw [e3]; exact w.le,
        fun l => by rw [e6]; exact w.sub l, ?_⟩
      rintro v hva ⟨n', h1, h2⟩
      rw [e3]
      rcases Nat.lt_or_ge n n' with h3 | h3
      · have hva3 : ∀ j, k < j → v j = (sibling c s2 k).x j := fun j hj => by rw [hva j hj, hfr.x j hj]
        have h4 := nd_seq i3.lvl v hva3
        have h5 := i3.newdist
        have h6 := dist_mono hC.tree.rnd (p := (sibling c s2 k).partdist k) (hC.tree.rpos k hK).le (i3.ok.dist_mono h3)
        rw [← h5, ← h2, ← h4] at h6
        rw [not_le, e4, w.lvl.bnd, hC.bnd] at hacc3
        refine hacc3.le.trans (h6.trans (hρ v (fun j hj => ?_) k hK.le))
        rw [hva j (by omega), hX j hj]
      · have : n' = n := by omega
        subst this
        exact hfirst v hva h2

/-- a whole level: all siblings from the first one on -/
theorem level_ok {c : Cfg} {p0 : ℚ} {I : σ → ℚ → Prop} {ρ : (ℕ → ℤ) → ℚ} (hC : CvpTree c p0) {X : ℕ → ℤ}
    (hρ : ∀ v : ℕ → ℤ, (∀ j, c.K ≤ j → v j = X j) → ∀ k ≤ c.K, pd c p0 v k ≤ ρ v)
    {fuel k : ℕ} {x0 sd : ℤ} {V : St σ → St σ → Prop}
    (hV : ∀ n s, SibInv c p0 I k false x0 sd n s → newdist c s k ≤ s.bounds k → Enough c s.bounds fuel →
      (∀ j, c.K ≤ j → s.x j = X j) → ∃ s2, V s s2 ∧ VOut c p0 I ρ k s s2)
    (s : St σ) (hi : SibInv c p0 I k false x0 sd 0 s) (hacc : newdist c s k ≤ s.bounds k)
    (hF : Enough c s.bounds fuel) (hX : ∀ j, c.K ≤ j → s.x j = X j) :
    ∃ t m, m ≤ fuel ∧ Chain c k V m s t ∧ ¬ newdist c t k ≤ t.bounds k ∧ LOut c p0 I ρ k (fun _ => True) s t := by
  obtain ⟨t, m, h1, h2, h3, o⟩ := sibs_ok hC hρ hV fuel 0 s hi hacc hF hX (by omega)
  refine ⟨t, m, h1, h2, h3, o.frame, o.lvl, o.inv, o.le, o.sub, fun v hv _ => o.done v hv ?_⟩
  exact (hi.ok.surj (v k)).2 (fun h => by cases h)

/-- a level whose first node is not accepted -/
theorem level_none {c : Cfg} {p0 : ℚ} {I : σ → ℚ → Prop} {ρ : (ℕ → ℤ) → ℚ} (hC : CvpTree c p0) {X : ℕ → ℤ}
    (hρ : ∀ v : ℕ → ℤ, (∀ j, c.K ≤ j → v j = X j) → ∀ k ≤ c.K, pd c p0 v k ≤ ρ v)
    {k : ℕ} {x0 sd : ℤ} (s : St σ) (hi : SibInv c p0 I k false x0 sd 0 s) (hacc : ¬ newdist c s k ≤ s.bounds k)
    (hX : ∀ j, c.K ≤ j → s.x j = X j) : LOut c p0 I ρ k (fun _ => True) s s := by
  refine ⟨Frame.refl _ _, hi.lvl, hi.inv, le_rfl, fun _ => le_rfl, fun v hv _ => ?_⟩
  obtain ⟨n', -, h2⟩ := (hi.ok.surj (v k)).2 (fun h => by cases h)
  have h4 := nd_seq hi.lvl v hv
  have h5 := hi.newdist
  have h6 := dist_mono hC.tree.rnd (p := s.partdist k) (hC.tree.rpos k hi.lvl.kK).le (hi.ok.dist_mono (Nat.zero_le n'))
  rw [← h5, ← h2, ← h4] at h6
  rw [not_le, hi.lvl.bnd, hC.bnd] at hacc
  refine hacc.le.trans (h6.trans (hρ v (fun j hj => ?_) k hi.lvl.kK.le))
  have := hi.lvl.kK
  rw [hv j (by omega), hX j hj]

/-- the state after descending from an accepted node -/
theorem child_inv {c : Cfg} {p0 : ℚ} {I : σ → ℚ → Prop} (hC : CvpTree c p0) (E : EvalOps σ) {k : ℕ} {x0 sd : ℤ} {n : ℕ}
    {s : St σ} (hi : SibInv c p0 I (k + 1) false x0 sd n s) :
    let t := descend c (enter c s (k + 1)) k (newdist c s (k + 1))
    Descended c p0 k s t ∧ SibInv c p0 I k false (t.x k) (startDir (t.center k) (t.x k)) 0 t ∧
      t.bounds = s.bounds ∧ t.maxdist = s.maxdist ∧ t.subsoldists = s.subsoldists := by
  intro t
  have hd : Descended c p0 k s t := descend_spec (E := E) hi.lvl (hC.done E s (k + 1))
  refine ⟨hd, ⟨hd.lvl, hi.inv, ?_, ?_, ?_, ⟨?_, ?_, ?_, ?_⟩, hi.sub⟩, rfl, rfl, rfl⟩
  · simp [seq, zz_zero]
  · intro _
    rw [zdx_zero, zddx_zero]
    exact ⟨hd.dxk, hd.ddxk⟩
  · rw [hC.svp]; simp
  · intro h; cases h
  · intro _; exact startDir_or _ _
  · intro _; rw [hd.xk, abs_sub_comm]; exact roundto_spec _
  · intro _; exact startDir_sign _ _

/-- a visit that descends -/
theorem visit_down {c : Cfg} {p0 : ℚ} {I : σ → ℚ → Prop} {ρ : (ℕ → ℤ) → ℚ} {k : ℕ} {x0 sd : ℤ} {n : ℕ}
    {s t s2 : St σ} (hi : SibInv c p0 I (k + 1) false x0 sd n s) (hd : Descended c p0 k s t)
    (hm : t.maxdist = s.maxdist) (hs : t.subsoldists = s.subsoldists) (o : LOut c p0 I ρ k (fun _ => True) t s2) :
    VOut c p0 I ρ (k + 1) s s2 ∧ s2.cpsBegin (k + 1) = k + 1 := by
  obtain ⟨r1, r2, r3, r4, r5, r6⟩ := return_lvl hi.lvl hd o.frame o.lvl
  refine ⟨⟨r2, r1, r3, r4, r5, o.inv, hm ▸ o.le, fun l => by rw [← hs]; exact o.sub l, fun v hv => ?_⟩, r6⟩
  refine o.done v (fun j hj => ?_) trivial
  rw [hv j (by omega), hd.x j hj]

/-- a visit of a leaf -/
theorem visit_leaf {c : Cfg} {p0 : ℚ} {I : σ → ℚ → Prop} {ρ : (ℕ → ℤ) → ℚ} (hC : CvpTree c p0) {E : EvalOps σ}
    {X : ℕ → ℤ}
    (hleaf : ∀ e md (x : ℕ → ℤ), I e md → (∀ j, c.K ≤ j → x j = X j) → pd c p0 x 0 ≤ md →
      I (E.evalSol e x (pd c p0 x 0) md).1 (E.evalSol e x (pd c p0 x 0) md).2 ∧
      (E.evalSol e x (pd c p0 x 0) md).2 ≤ md ∧ (E.evalSol e x (pd c p0 x 0) md).2 ≤ ρ x)
    {x0 sd : ℤ} {n : ℕ} {s : St σ} (hi : SibInv c p0 I 0 false x0 sd n s) (hacc : newdist c s 0 ≤ s.bounds 0)
    (hX : ∀ j, c.K ≤ j → s.x j = X j) :
    VOut c p0 I ρ 0 s (leaf c E (enter c s 0) (newdist c s 0)) := by
  have hl : leaf c E (enter c s 0) (newdist c s 0) = processSolution c E (enter c s 0) (newdist c s 0) := by
    unfold leaf
    rw [if_pos (.inr hC.svp)]
  have hnd := (newdist_eq hi.lvl).2
  rw [hi.lvl.bnd, hC.bnd, hnd] at hacc
  obtain ⟨h1, h2, h3⟩ := hleaf s.ev s.maxdist s.x hi.inv hX hacc
  rw [← hnd] at h1 h2 h3
  rw [hl]
  refine ⟨⟨fun _ _ => rfl, fun _ _ => rfl, fun _ _ => rfl, fun _ _ => rfl, fun _ _ => rfl, ?_, fun _ _ _ => rfl,
    fun _ _ => rfl⟩, ⟨hi.lvl.kK, ?_, hi.lvl.pdist, hi.lvl.ctr, fun i hi' => by omega, fun l _ _ => by omega, rfl⟩, rfl, rfl,
    rfl, h1, h2, fun _ => le_rfl, ?_⟩
  · intro j hj
    simp only [processSolution, enter, setAt]
    rw [if_neg (by omega)]
  · intro j hj hjK
    simp only [processSolution, enter, setAt]
    rw [if_neg (by omega)]
    exact hi.lvl.alpha j hj hjK
  · intro v hv
    have : v = s.x := funext fun j => hv j (Nat.zero_le j)
    rw [this]; exact h3

/-! ## Resets -/

/-- what `reset(…, m)` leaves alone -/
structure RFrame (c : Cfg) (m : ℕ) (s s2 : St σ) : Prop where
  x : ∀ j, m < j → s2.x j = s.x j
  dx : s2.dx = s.dx
  ddx : s2.ddx = s.ddx
  center : s2.center = s.center
  partdist : s2.partdist = s.partdist
  alpha : s2.alpha = s.alpha
  cps : s2.cps = s.cps
  beg : s2.cpsBegin = s.cpsBegin
  sub : s2.subsoldists = s.subsoldists
  bnd : s2.bounds = setBounds c s2.maxdist

/-- `reset(nd, m)` does its job for every distance `nd` between the distance of the levels above `m` and that plus `ε` -/
def ResetOK (c : Cfg) (p0 : ℚ) (I : σ → ℚ → Prop) (ρ : (ℕ → ℤ) → ℚ) (X : ℕ → ℤ)
    (rst : St σ → ℚ → ℕ → Option (St σ)) (m : ℕ) (ε : ℚ) : Prop :=
  ∀ s nd, I s.ev s.maxdist → (∀ j, c.K ≤ j → s.x j = X j) → s.bounds = setBounds c s.maxdist →
    pd c p0 s.x (m + 1) ≤ nd → nd ≤ pd c p0 s.x (m + 1) + ε →
    ∃ s2, rst s nd m = some s2 ∧ RFrame c m s s2 ∧ I s2.ev s2.maxdist ∧ s2.maxdist ≤ s.maxdist ∧
      ∀ v : ℕ → ℤ, (∀ j, m < j → v j = s.x j) → s2.maxdist ≤ ρ v

/-- a state after `reset` from level `k ≥ m` -/
theorem reset_lvl {c : Cfg} {p0 : ℚ} {k m : ℕ} {s s2 : St σ} (hmk : m ≤ k) (hl : Lvl c p0 k s)
    (h : RFrame c m (enter c s k) s2) : Frame k s s2 ∧ Lvl c p0 k s2 := by
  have hx : ∀ j, m < j → s2.x j = s.x j := h.x
  have hb : s2.cpsBegin = s.cpsBegin := h.beg
  have ha : ∀ j, k < j → s2.alpha j = s.alpha j := by
    intro j hj
    rw [h.alpha]
    simp only [enter, setAt]
    rw [if_neg (by omega)]
  have hp : s2.partdist = s.partdist := h.partdist
  have hc : s2.center = s.center := h.center
  have hs : s2.cps = s.cps := h.cps
  refine ⟨⟨fun j hj => hx j (by omega), fun j _ => by rw [h.dx]; rfl, fun j _ => by rw [h.ddx]; rfl,
    fun j _ => by rw [hc], fun j _ => by rw [hp], ha, fun i j _ => by rw [hs], fun j _ => by rw [hb]⟩, ?_⟩
  refine ⟨hl.kK, ?_, ?_, ?_, ?_, ?_, h.bnd⟩
  · intro j hj hjK
    rw [ha j hj, hl.alpha j hj hjK]
    exact al_congr c _ _ j (fun l hl' _ => (hx l (by omega)).symm) hjK
  · rw [hp, hl.pdist]
    exact pd_congr c p0 _ _ _ (fun j hj _ => (hx j (by omega)).symm)
  · rw [hc, hl.ctr]
    exact cen_congr c _ _ _ (fun j hj _ => (hx j (by omega)).symm)
  · intro i hi' j hjK hbl
    rw [hb] at hbl
    rw [hs, hl.rows i hi' j hjK hbl]
    have h9 := hbl k hi' le_rfl
    have h10 := (hl.beg k (by omega) le_rfl).1
    exact psum_congr c _ _ i j (fun l hl' _ => (hx l (by omega)).symm)
  · rw [hb]; exact hl.beg

/-- the distance of the first node of a level exceeds that of the levels above by at most a quarter of `rdiag` -/
theorem fresh_nd {c : Cfg} {p0 : ℚ} {I : σ → ℚ → Prop} (hC : CvpTree c p0) (hfl : c.fl = id) {k : ℕ} {x0 sd : ℤ}
    {s : St σ} (hi : SibInv c p0 I k false x0 sd 0 s) :
    pd c p0 s.x (k + 1) ≤ newdist c s k ∧ newdist c s k ≤ pd c p0 s.x (k + 1) + c.rdiag k / 4 := by
  have h1 := hi.newdist
  rw [hfl] at h1
  simp only [id_eq, seq, Bool.false_eq_true, if_false, zz_zero, add_zero] at h1
  rw [h1, hi.lvl.pdist]
  have h2 := hi.ok.close rfl
  have hr := hC.tree.rpos k hi.lvl.kK
  rw [abs_le] at h2
  have h3 : 0 ≤ ((x0 : ℚ) - s.center k) * ((x0 : ℚ) - s.center k) := mul_self_nonneg _
  have h4 : ((x0 : ℚ) - s.center k) * ((x0 : ℚ) - s.center k) ≤ 1 / 4 := by nlinarith
  constructor <;> nlinarith

/-! ## The recursive walk -/

theorem chain_rec {c : Cfg} {p0 : ℚ} (hC : CvpTree c p0) {E : EvalOps σ} {rec : St σ → Option (St σ)} {k m : ℕ}
    {V : St σ → St σ → Prop}
    (hV : ∀ s s2, V s s2 → rec (post c E (enter c s k) (newdist c s k) k) = some s2 ∧ (1 ≤ k → s2.cpsBegin k = k))
    {s t : St σ} (h : Chain c k V m s t) : ∀ {f : ℕ}, m ≤ f →
    sibLoop c E rec k f (post c E (enter c s k) (newdist c s k) k) = some t := by
  have hsib : ∀ u : St σ, (sibling c u k).cpsBegin = u.cpsBegin := by
    intro u; unfold sibling; split_ifs <;> rfl
  induction h with
  | last h hf =>
    intro f hmf
    obtain ⟨g, rfl⟩ : ∃ g, f = g + 1 := ⟨f - 1, by omega⟩
    rw [sibLoop, (hV _ _ h).1]
    simp only
    rw [if_neg hf]
  | more h hf _ ih =>
    intro f hmf
    obtain ⟨g, rfl⟩ : ∃ g, f = g + 1 := ⟨f - 1, by omega⟩
    rw [sibLoop, (hV _ _ h).1]
    simp only
    rw [if_pos hf, next_eq c E _ k (fun h1 => by rw [hsib]; exact (hV _ _ h).2 h1)]
    exact ih (by omega)

/-- the recursive walk with resets -/
theorem recursiveR_ok {c : Cfg} {p0 : ℚ} {I : σ → ℚ → Prop} {ρ : (ℕ → ℤ) → ℚ} (hC : CvpTree c p0) (hfl : c.fl = id)
    {E : EvalOps σ} {X : ℕ → ℤ}
    (hρ : ∀ v : ℕ → ℤ, (∀ j, c.K ≤ j → v j = X j) → ∀ k ≤ c.K, pd c p0 v k ≤ ρ v)
    {rd : ℕ} {rst : St σ → ℚ → ℕ → Option (St σ)}
    (hleaf : rd ≤ 1 → ∀ e md (x : ℕ → ℤ), I e md → (∀ j, c.K ≤ j → x j = X j) → pd c p0 x 0 ≤ md →
      I (E.evalSol e x (pd c p0 x 0) md).1 (E.evalSol e x (pd c p0 x 0) md).2 ∧
      (E.evalSol e x (pd c p0 x 0) md).2 ≤ md ∧ (E.evalSol e x (pd c p0 x 0) md).2 ≤ ρ x)
    (hrst : ∀ m, 0 < m → m + 1 = rd → ResetOK c p0 I ρ X rst m (c.rdiag m / 4)) {fuel : ℕ} (k : ℕ) :
    rd ≤ k + 1 → ∀ (x0 sd : ℤ) (s : St σ), SibInv c p0 I k false x0 sd 0 s → Enough c s.bounds fuel →
      (∀ j, c.K ≤ j → s.x j = X j) →
      ∃ t, recursiveR c E rd rst fuel (k + 1) s = some t ∧ LOut c p0 I ρ k (fun _ => True) s t := by
  induction k with
  | zero =>
    intro hrd x0 sd s hi hF hX
    by_cases hacc : newdist c s 0 ≤ s.bounds 0
    · obtain ⟨t, m, hm, hch, -, o⟩ := level_ok hC hρ (V := fun s s2 => s2 = leaf c E (enter c s 0) (newdist c s 0))
        (fun n s hi hacc _ hX => ⟨_, rfl, visit_leaf hC (hleaf (by omega)) hi hacc hX⟩) s hi hacc hF hX
      refine ⟨t, ?_, o⟩
      rw [recursiveR, if_pos hacc, if_neg (by omega), first_eq, hC.test]
      refine chain_rec hC (fun s s2 h => ⟨?_, fun h1 => by omega⟩) hch hm
      rw [h]; rfl
    · exact ⟨s, by rw [recursiveR, if_neg hacc], level_none hC hρ s hi hacc hX⟩
  | succ k ih =>
    intro hrd x0 sd s hi hF hX
    by_cases hacc : newdist c s (k + 1) ≤ s.bounds (k + 1)
    · by_cases hr : k + 1 < rd
      · obtain ⟨h1, h2⟩ := fresh_nd hC hfl hi
        obtain ⟨s2, g1, g2, g3, g4, g5⟩ := hrst (k + 1) (by omega) (by omega) (enter c s (k + 1)) (newdist c s (k + 1))
          hi.inv hX hi.lvl.bnd h1 h2
        obtain ⟨r1, r2⟩ := reset_lvl le_rfl hi.lvl g2
        refine ⟨s2, ?_, r1, r2, g3, g4, fun l => by rw [g2.sub]; exact le_rfl, fun v hv _ => g5 v hv⟩
        rw [recursiveR, if_pos hacc, if_pos ⟨by omega, hr⟩, hC.test, g1]
      · obtain ⟨t, m, hm, hch, -, o⟩ := level_ok hC hρ
          (V := fun s s2 => recursiveR c E rd rst fuel (k + 1) (descend c (enter c s (k + 1)) k (newdist c s (k + 1))) = some s2 ∧
            s2.cpsBegin (k + 1) = k + 1)
          (by
            intro n s hi hacc hF hX
            obtain ⟨hd, hc, b1, b2, b3⟩ := child_inv hC E hi
            have hK := hi.lvl.kK
            obtain ⟨s2, h1, h2⟩ := ih (by omega) _ _ _ hc (hF.mono (fun j _ => by rw [b1]))
              (fun j hj => by rw [hd.x j (by omega), hX j hj])
            obtain ⟨h3, h4⟩ := visit_down hi hd b2 b3 h2
            exact ⟨s2, ⟨h1, h4⟩, h3⟩) s hi hacc hF hX
        refine ⟨t, ?_, o⟩
        rw [recursiveR, if_pos hacc, if_neg (by omega), first_eq, hC.test]
        exact chain_rec hC (fun s s2 h => ⟨h.1, fun _ => h.2⟩) hch hm
    · exact ⟨s, by rw [recursiveR, if_neg hacc], level_none hC hρ s hi hacc hX⟩

/-! ## The iterative walk -/

/-- the iterative loop with resets gets from one configuration to the other in `n` steps -/
def ReachR (c : Cfg) (E : EvalOps σ) (rd : ℕ) (rst : St σ → ℚ → ℕ → Option (St σ)) (n : ℕ) (s : St σ) (k : ℕ)
    (s' : St σ) (k' : ℕ) : Prop :=
  ∀ m, iterateR c E rd rst (n + m) s k = iterateR c E rd rst m s' k'

theorem ReachR.trans {c : Cfg} {E : EvalOps σ} {rd : ℕ} {rst : St σ → ℚ → ℕ → Option (St σ)} {a b : ℕ} {s t u : St σ}
    {i j k : ℕ} (h : ReachR c E rd rst a s i t j) (g : ReachR c E rd rst b t j u k) :
    ReachR c E rd rst (a + b) s i u k := fun m => by rw [Nat.add_assoc, h, g]

theorem ReachR.step {c : Cfg} {E : EvalOps σ} {rd : ℕ} {rst : St σ → ℚ → ℕ → Option (St σ)} {s s' : St σ} {k k' : ℕ}
    (h : loopStepR c E rd rst s k = some (s', some k')) : ReachR c E rd rst 1 s k s' k' :=
  fun m => by rw [Nat.add_comm, iterateR, h]

theorem ReachR.up {c : Cfg} {E : EvalOps σ} {rd : ℕ} {rst : St σ → ℚ → ℕ → Option (St σ)} {s : St σ} {k : ℕ}
    (hk : k + 1 < c.K) (h : ¬ newdist c s k ≤ s.bounds k) :
    ReachR c E rd rst 1 s k (sibling c s (k + 1)) (k + 1) := by
  apply ReachR.step
  unfold loopStepR
  rw [if_neg h]
  unfold loopStep
  rw [if_neg h, nextPosUp_eq c s (k + 1) hk]

theorem chain_iter {c : Cfg} {E : EvalOps σ} {rd : ℕ} {rst : St σ → ℚ → ℕ → Option (St σ)} {k m W : ℕ}
    {V : St σ → St σ → Prop} (hV : ∀ s s2, V s s2 → ∃ n ≤ W, ReachR c E rd rst n s k (sibling c s2 k) k)
    {s t : St σ} (h : Chain c k V m s t) : ∃ n ≤ m * W, ReachR c E rd rst n s k t k := by
  induction h with
  | last h _ =>
    obtain ⟨n, h1, h2⟩ := hV _ _ h
    exact ⟨n, by omega, h2⟩
  | @more m _ _ _ h _ _ ih =>
    obtain ⟨n, h1, h2⟩ := hV _ _ h
    obtain ⟨n', h3, h4⟩ := ih
    exact ⟨n + n', by rw [Nat.add_mul]; omega, h2.trans h4⟩

/-- a bound for the number of iterations of the loop for the levels `0, …, k` when every level has at most `F` siblings
in a row -/
def steps (F : ℕ) : ℕ → ℕ
  | 0 => F
  | k + 1 => F * (steps F k + 2)

/-- the iterative walk with resets -/
theorem iterateR_ok {c : Cfg} {p0 : ℚ} {I : σ → ℚ → Prop} {ρ : (ℕ → ℤ) → ℚ} (hC : CvpTree c p0)
    {E : EvalOps σ} {X : ℕ → ℤ}
    (hρ : ∀ v : ℕ → ℤ, (∀ j, c.K ≤ j → v j = X j) → ∀ k ≤ c.K, pd c p0 v k ≤ ρ v)
    {rd : ℕ} {rst : St σ → ℚ → ℕ → Option (St σ)}
    (hleaf : rd = 0 → ∀ e md (x : ℕ → ℤ), I e md → (∀ j, c.K ≤ j → x j = X j) → pd c p0 x 0 ≤ md →
      I (E.evalSol e x (pd c p0 x 0) md).1 (E.evalSol e x (pd c p0 x 0) md).2 ∧
      (E.evalSol e x (pd c p0 x 0) md).2 ≤ md ∧ (E.evalSol e x (pd c p0 x 0) md).2 ≤ ρ x)
    (hrst : ∀ m, m + 1 = rd → ResetOK c p0 I ρ X rst m 0) {F : ℕ} (k : ℕ) :
    rd ≤ k → ∀ (x0 sd : ℤ) (s : St σ), SibInv c p0 I k false x0 sd 0 s → Enough c s.bounds F →
      (∀ j, c.K ≤ j → s.x j = X j) →
      ∃ t, ∃ n ≤ steps F k, ReachR c E rd rst n s k t k ∧ ¬ newdist c t k ≤ t.bounds k ∧
        LOut c p0 I ρ k (fun _ => True) s t := by
  induction k with
  | zero =>
    intro hrd x0 sd s hi hF hX
    by_cases hacc : newdist c s 0 ≤ s.bounds 0
    · obtain ⟨t, m, hm, hch, hf, o⟩ := level_ok hC hρ
        (V := fun s s2 => newdist c s 0 ≤ s.bounds 0 ∧ s2 = leaf c E (enter c s 0) (newdist c s 0))
        (fun n s hi hacc _ hX => ⟨_, ⟨hacc, rfl⟩, visit_leaf hC (hleaf (by omega)) hi hacc hX⟩) s hi hacc hF hX
      obtain ⟨n, h1, h2⟩ := chain_iter (E := E) (rd := rd) (rst := rst) (W := 1) (fun s s2 h => ⟨1, le_rfl, ReachR.step (by
        obtain ⟨ha, h⟩ := h
        unfold loopStepR
        rw [if_pos ha]
        simp only
        unfold loopStep
        rw [if_pos ha]
        simp only
        rw [hC.test, ← h, nextPosUp_eq c _ 0 hi.lvl.kK])⟩) hch
      exact ⟨t, n, by simp only [steps]; omega, h2, hf, o⟩
    · exact ⟨s, 0, Nat.zero_le _, fun m => by rw [Nat.zero_add], hacc, level_none hC hρ s hi hacc hX⟩
  | succ k ih =>
    intro hrd x0 sd s hi hF hX
    by_cases hacc : newdist c s (k + 1) ≤ s.bounds (k + 1)
    · by_cases hr : k < rd
      · obtain ⟨t, m, hm, hch, hf, o⟩ := level_ok hC hρ
          (V := fun s s2 => newdist c s (k + 1) ≤ s.bounds (k + 1) ∧
            rst (enter c s (k + 1)) (newdist c s (k + 1)) k = some s2)
          (by
            intro n s hi hacc _ hX
            have hnd := (newdist_eq hi.lvl).2
            obtain ⟨s2, g1, g2, g3, g4, g5⟩ := hrst k (by omega) (enter c s (k + 1)) (newdist c s (k + 1))
              hi.inv hX hi.lvl.bnd (le_of_eq hnd.symm) (by rw [add_zero]; exact le_of_eq hnd)
            obtain ⟨r1, r2⟩ := reset_lvl (Nat.le_succ k) hi.lvl g2
            exact ⟨s2, ⟨hacc, g1⟩, r1, r2, g2.x _ (by omega), by rw [g2.dx]; rfl, by rw [g2.ddx]; rfl, g3, g4,
              fun l => by rw [g2.sub]; exact le_rfl, fun v hv => g5 v (fun j hj => hv j hj)⟩) s hi hacc hF hX
        obtain ⟨n, h1, h2⟩ := chain_iter (E := E) (rd := rd) (rst := rst) (W := 1) (fun s s2 h => ⟨1, le_rfl, ReachR.step (by
          obtain ⟨ha, h⟩ := h
          unfold loopStepR
          rw [if_pos ha]
          simp only
          rw [if_pos hr, hC.test, h]
          simp only
          rw [nextPosUp_eq c _ (k + 1) hi.lvl.kK])⟩) hch
        refine ⟨t, n, ?_, h2, hf, o⟩
        simp only [steps]
        nlinarith
      · obtain ⟨t, m, hm, hch, hf, o⟩ := level_ok hC hρ
          (V := fun s s2 => ∃ n ≤ steps F k + 2, ReachR c E rd rst n s (k + 1) (sibling c s2 (k + 1)) (k + 1))
          (by
            intro n s hi hacc hF hX
            obtain ⟨hd, hc, b1, b2, b3⟩ := child_inv hC E hi
            have hK := hi.lvl.kK
            obtain ⟨s2, n, h0, h1, h5, h2⟩ := ih (by omega) _ _ _ hc (hF.mono (fun j _ => by rw [b1]))
              (fun j hj => by rw [hd.x j (by omega), hX j hj])
            obtain ⟨h3, h4⟩ := visit_down hi hd b2 b3 h2
            refine ⟨s2, ⟨1 + n + 1, by omega, ReachR.trans (ReachR.trans (ReachR.step ?_) h1) (ReachR.up hK h5)⟩, h3⟩
            unfold loopStepR
            rw [if_pos hacc]
            simp only
            rw [if_neg hr]
            unfold loopStep
            rw [if_pos hacc]
            simp only
            rw [hC.test]) s hi hacc hF hX
        obtain ⟨n, h1, h2⟩ := chain_iter (fun s s2 h => h) hch
        refine ⟨t, n, h1.trans ?_, h2, hf, o⟩
        simp only [steps]
        exact Nat.mul_le_mul_right _ hm
    · exact ⟨s, 0, Nat.zero_le _, fun m => by rw [Nat.zero_add], hacc, level_none hC hρ s hi hacc hX⟩

end Enum
end Fplll

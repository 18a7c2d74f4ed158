import Mathlib.Tactic.IntervalCases
import Verif.Proofs.Zigzag

/-!
# What one walk of the enumeration tree does

`Walked k P s s' L`: between the states `s` and `s'` the enumeration has done exactly `L`, a full walk
through the subtrees of level `k` below the prefix `s.x j`, `j > k`, whose coordinate `k` satisfies `P`.
-/

open Finset

namespace Fplll
namespace Enum

variable {σ : Type}

/-! ## Lists of events -/

/-- visited nodes of level `l`, in order -/
def nodesAt (l : ℕ) (L : List Event) : List ((ℕ → ℤ) × ℚ) :=
  L.filterMap fun e => match e with
    | .node k x d => if k = l then some (x, d) else none
    | _ => none

/-- solutions passed to the evaluator, in order -/
def solsOf (L : List Event) : List ((ℕ → ℤ) × ℚ) :=
  L.filterMap fun e => match e with
    | .sol x d => some (x, d)
    | _ => none

/-- sub-solutions of level `l` passed to the evaluator, in order -/
def subsAt (l : ℕ) (L : List Event) : List ((ℕ → ℤ) × ℚ) :=
  L.filterMap fun e => match e with
    | .sub k x d => if k = l then some (x, d) else none
    | _ => none

theorem mem_nodesAt {l : ℕ} {L : List Event} {x : ℕ → ℤ} {d : ℚ} :
    (x, d) ∈ nodesAt l L ↔ Event.node l x d ∈ L := by
  unfold nodesAt
  rw [List.mem_filterMap]
  constructor
  · rintro ⟨e, he, h⟩
    cases e with
    | node k y d' =>
      simp only at h
      split_ifs at h with hk
      cases h; subst hk; exact he
    | sol y d' => simp at h
    | sub k y d' => simp at h
  · intro h
    exact ⟨_, h, by simp⟩

theorem mem_solsOf {L : List Event} {x : ℕ → ℤ} {d : ℚ} : (x, d) ∈ solsOf L ↔ Event.sol x d ∈ L := by
  unfold solsOf
  rw [List.mem_filterMap]
  constructor
  · rintro ⟨e, he, h⟩
    cases e with
    | node k y d' => simp at h
    | sol y d' => simp only [Option.some.injEq, Prod.mk.injEq] at h; rw [← h.1, ← h.2]; exact he
    | sub k y d' => simp at h
  · intro h
    exact ⟨_, h, by simp⟩

theorem mem_subsAt {l : ℕ} {L : List Event} {x : ℕ → ℤ} {d : ℚ} :
    (x, d) ∈ subsAt l L ↔ Event.sub l x d ∈ L := by
  unfold subsAt
  rw [List.mem_filterMap]
  constructor
  · rintro ⟨e, he, h⟩
    cases e with
    | sub k y d' =>
      simp only at h
      split_ifs at h with hk
      cases h; subst hk; exact he
    | sol y d' => simp at h
    | node k y d' => simp at h
  · intro h
    exact ⟨_, h, by simp⟩

theorem nodesAt_append (l : ℕ) (L M : List Event) : nodesAt l (L ++ M) = nodesAt l L ++ nodesAt l M :=
  List.filterMap_append

theorem solsOf_append (L M : List Event) : solsOf (L ++ M) = solsOf L ++ solsOf M := List.filterMap_append

theorem subsAt_append (l : ℕ) (L M : List Event) : subsAt l (L ++ M) = subsAt l L ++ subsAt l M :=
  List.filterMap_append

/-- effect of the events on the evaluator and on `maxdist` -/
def evStep (E : EvalOps σ) (t : σ × ℚ) : Event → σ × ℚ
  | .node _ _ _ => t
  | .sol x d => E.evalSol t.1 x d t.2
  | .sub k x d => (E.evalSub t.1 k x d, t.2)

/-- is the distance of an event within the bound of its level, given the current `maxdist`? -/
def evWithin (c : Cfg) (md : ℚ) : Event → Prop
  | .node l _ d => d ≤ setBounds c md l
  | .sol _ d => d ≤ setBounds c md 0
  | .sub _ _ _ => True

/-- every event is within the bound in force when it happens -/
def Within (c : Cfg) (E : EvalOps σ) : σ × ℚ → List Event → Prop
  | _, [] => True
  | t, e :: L => evWithin c t.2 e ∧ Within c E (evStep E t e) L

theorem within_append (c : Cfg) (E : EvalOps σ) (t : σ × ℚ) (L M : List Event) :
    Within c E t (L ++ M) ↔ Within c E t L ∧ Within c E (L.foldl (evStep E) t) M := by
  induction L generalizing t with
  | nil => simp [Within]
  | cons e L ih => simp [Within, ih, and_assoc]

/-- the last distance of a list, or a default -/
def lastDist (a : ℚ) (L : List ((ℕ → ℤ) × ℚ)) : ℚ := L.foldl (fun _ p => p.2) a

/-! ## Assumptions -/

/-- The input is a genuine tree: positive squared lengths, and no target in the symmetric case; the given numbers
are representable. -/
structure TreeOK (c : Cfg) (p0 : ℚ) : Prop where
  rnd : Rnd c.fl
  rrep : ∀ k, k < c.K → c.fl (c.rdiag k) = c.rdiag k
  prep : c.fl p0 = p0
  rpos : ∀ k, k < c.K → 0 < c.rdiag k
  p0nn : 0 ≤ p0
  svp0 : c.svp = true → p0 = 0 ∧ ∀ k, k < c.K → c.cpart k = 0

/-- The evaluator never enlarges the bounds (as long as its invariant `I` holds). -/
structure EvalOK (c : Cfg) (E : EvalOps σ) (I : σ → ℚ → Prop) : Prop where
  sol : ∀ e md x d, I e md → 0 ≤ d → c.fl d = d → d ≤ setBounds c md 0 →
    I (E.evalSol e x d md).1 (E.evalSol e x d md).2 ∧
      ∀ k, k < c.K → setBounds c (E.evalSol e x d md).2 k ≤ setBounds c md k
  sub : ∀ e md l x d, I e md → I (E.evalSub e l x d) md

/-- the coordinates of levels `l, …, k-1` are on the side of the symmetry that is enumerated -/
def Canon (c : Cfg) (p0 : ℚ) (v : ℕ → ℤ) (l k : ℕ) : Prop :=
  ∀ j, l ≤ j → j < k → c.svp = true → pd c p0 v (j + 1) = 0 → 0 ≤ v j

theorem TreeOK.incr_nonneg {c : Cfg} {p0 : ℚ} (T : TreeOK c p0) (a : ℚ) {k : ℕ} (hk : k < c.K) :
    0 ≤ c.fl (c.fl (a * a) * c.rdiag k) :=
  T.rnd.nonneg (mul_nonneg (T.rnd.nonneg (mul_self_nonneg _)) (T.rpos k hk).le)

theorem TreeOK.pd_nonneg {c : Cfg} {p0 : ℚ} (T : TreeOK c p0) (v : ℕ → ℤ) (k : ℕ) : 0 ≤ pd c p0 v k := by
  unfold pd
  refine forDown_inv' (fun a => 0 ≤ a) _ _ _ _ T.p0nn ?_
  intro j a h1 h2 ha
  exact T.rnd.nonneg (add_nonneg ha (T.incr_nonneg _ h2))

/-- the computed distances are representable -/
theorem TreeOK.pd_rep {c : Cfg} {p0 : ℚ} (T : TreeOK c p0) (v : ℕ → ℤ) (k : ℕ) :
    c.fl (pd c p0 v k) = pd c p0 v k := by
  unfold pd
  refine forDown_inv' (fun a => c.fl a = a) _ _ _ _ T.prep ?_
  intro j a h1 h2 ha
  exact T.rnd.idem _

theorem TreeOK.pd_anti {c : Cfg} {p0 : ℚ} (T : TreeOK c p0) (v : ℕ → ℤ) {k m : ℕ} (hkm : k ≤ m) (hm : m ≤ c.K) :
    pd c p0 v m ≤ pd c p0 v k := by
  induction m, hkm using Nat.le_induction with
  | base => exact le_rfl
  | succ m _ ih =>
    refine le_trans ?_ (ih (by omega))
    rw [pd_succ c p0 v m (by omega)]
    calc pd c p0 v (m + 1) = c.fl (pd c p0 v (m + 1)) := (T.pd_rep v _).symm
      _ ≤ _ := T.rnd.mono (by linarith [T.incr_nonneg (al c v m) (show m < c.K by omega)])

/-- order of the computed distances of siblings -/
theorem dist_mono {fl : ℚ → ℚ} (h : Rnd fl) {a b p r : ℚ} (hr : 0 ≤ r) (hab : |a| ≤ |b|) :
    fl (p + fl (fl (fl a * fl a) * r)) ≤ fl (p + fl (fl (fl b * fl b) * r)) := by
  have h1 : |fl a| ≤ |fl b| := by rw [h.abs, h.abs]; exact h.mono hab
  have h2 : fl a * fl a ≤ fl b * fl b := by
    have := sq_le_sq.2 h1
    nlinarith
  have h3 := mul_le_mul_of_nonneg_right (h.mono h2) hr
  exact h.mono (by linarith [h.mono h3])

/-- growth of the computed distances -/
theorem dist_grow {fl : ℚ → ℚ} (h : Rnd fl) {a m p r : ℚ} (hr : 0 ≤ r) (hp : 0 ≤ p) (hm : 0 ≤ m) (hma : m ≤ |a|) :
    (m / 4) * (m / 4) * r ≤ fl (p + fl (fl (fl a * fl a) * r)) := by
  have h1 : m / 2 ≤ |fl a| := by
    rw [h.abs]
    have := h.half (abs_nonneg a)
    linarith
  have h2 : (m / 2) * (m / 2) ≤ fl a * fl a := by
    rw [← abs_mul_abs_self (fl a)]
    exact mul_le_mul h1 h1 (by linarith) (abs_nonneg _)
  have h3 : (m / 2) * (m / 2) / 2 ≤ fl (fl a * fl a) := by
    have := h.half (mul_self_nonneg (fl a))
    linarith
  have h4 : (m / 2) * (m / 2) / 2 * r ≤ fl (fl a * fl a) * r := mul_le_mul_of_nonneg_right h3 hr
  have h5 : (m / 2) * (m / 2) / 2 * r / 2 ≤ fl (fl (fl a * fl a) * r) := by
    have := h.half (mul_nonneg (h.nonneg (mul_self_nonneg (fl a))) hr)
    linarith
  have h6 : fl (fl (fl a * fl a) * r) ≤ fl (p + fl (fl (fl a * fl a) * r)) := by
    calc fl (fl (fl a * fl a) * r) = fl (fl (fl (fl a * fl a) * r)) := (h.idem _).symm
      _ ≤ _ := h.mono (by linarith)
  calc (m / 4) * (m / 4) * r = (m / 2) * (m / 2) / 2 * r / 2 := by ring
    _ ≤ _ := h5.trans h6

theorem psum_zero {c : Cfg} (h : Rnd c.fl) (v : ℕ → ℤ) (i j : ℕ) (hc : c.cpart i = 0)
    (hy : ∀ l, j ≤ l → l < c.K → yS c v l = 0) : psum c v i j = 0 := by
  unfold psum
  refine forDown_inv' (fun a => a = 0) _ _ _ _ hc ?_
  intro l a h1 h2 ha
  rw [ha, hy l h1 h2, zero_mul, h.zero, sub_zero, h.zero]

/-- in the symmetric case, a prefix of length zero is zero -/
theorem TreeOK.zero_prefix {c : Cfg} {p0 : ℚ} (T : TreeOK c p0) (hs : c.svp = true) (v : ℕ → ℤ) (k : ℕ)
    (h : pd c p0 v k = 0) : ∀ j, k ≤ j → j < c.K → v j = 0 ∧ cen c v j = 0 := by
  have hterm : ∀ j, k ≤ j → j < c.K → al c v j = 0 := by
    intro j hj hjK
    have h1 : pd c p0 v j = 0 := le_antisymm (h ▸ T.pd_anti v hj hjK.le) (T.pd_nonneg v j)
    rw [pd_succ c p0 v j hjK, T.rnd.eq_zero] at h1
    have h2 := T.pd_nonneg v (j + 1)
    have h3 := T.incr_nonneg (al c v j) hjK
    have h4 : c.fl (c.fl (al c v j * al c v j) * c.rdiag j) = 0 := by linarith
    rw [T.rnd.eq_zero, mul_eq_zero, T.rnd.eq_zero, mul_self_eq_zero] at h4
    exact h4.resolve_right (T.rpos j hjK).ne'
  intro j
  induction hn : c.K - j using Nat.strong_induction_on generalizing j with
  | _ n ih =>
    subst hn
    intro hj hjK
    have hz : cen c v j = 0 := by
      rw [cen_eq]
      refine psum_zero T.rnd v j _ ((T.svp0 hs).2 j hjK) ?_
      intro i h1 h2
      have h3 := ih (c.K - i) (by omega) i rfl (by omega) h2
      have h4 := hterm i (by omega) h2
      unfold yS
      rw [h4, h3.1]
      simp
    have := hterm j hj hjK
    rw [al, hz, sub_zero, T.rnd.eq_zero] at this
    exact ⟨by exact_mod_cast this, hz⟩

/-! ## Consistency of the state -/

/-- The state is consistent above level `k` (nothing is said about `x k` itself). -/
structure Lvl (c : Cfg) (p0 : ℚ) (k : ℕ) (s : St σ) : Prop where
  kK : k < c.K
  alpha : ∀ j, k < j → j < c.K → s.alpha j = al c s.x j
  pdist : s.partdist k = pd c p0 s.x (k + 1)
  ctr : s.center k = cen c s.x k
  rows : ∀ i, i < k → ∀ j, j ≤ c.K → (∀ l, i < l → l ≤ k → s.cpsBegin l < j) → s.cps i j = psum c s.x i j
  beg : ∀ l, 1 ≤ l → l ≤ k → l ≤ s.cpsBegin l ∧ s.cpsBegin l < c.K
  bnd : s.bounds = setBounds c s.maxdist

/-- What a walk at level `k` leaves alone. -/
structure Frame (k : ℕ) (s s' : St σ) : Prop where
  x : ∀ j, k < j → s'.x j = s.x j
  dx : ∀ j, k < j → s'.dx j = s.dx j
  ddx : ∀ j, k < j → s'.ddx j = s.ddx j
  center : ∀ j, k ≤ j → s'.center j = s.center j
  partdist : ∀ j, k ≤ j → s'.partdist j = s.partdist j
  alpha : ∀ j, k < j → s'.alpha j = s.alpha j
  cps : ∀ i j, k ≤ i → s'.cps i j = s.cps i j
  beg : ∀ j, k < j → s'.cpsBegin j = s.cpsBegin j

theorem Frame.refl (k : ℕ) (s : St σ) : Frame k s s := by constructor <;> intros <;> rfl

theorem Frame.trans {k : ℕ} {s t u : St σ} (h : Frame k s t) (g : Frame k t u) : Frame k s u where
  x j hj := (g.x j hj).trans (h.x j hj)
  dx j hj := (g.dx j hj).trans (h.dx j hj)
  ddx j hj := (g.ddx j hj).trans (h.ddx j hj)
  center j hj := (g.center j hj).trans (h.center j hj)
  partdist j hj := (g.partdist j hj).trans (h.partdist j hj)
  alpha j hj := (g.alpha j hj).trans (h.alpha j hj)
  cps i j hj := (g.cps i j hj).trans (h.cps i j hj)
  beg j hj := (g.beg j hj).trans (h.beg j hj)

theorem newdist_eq {c : Cfg} {p0 : ℚ} {k : ℕ} {s : St σ} (h : Lvl c p0 k s) :
    alphak c s k = al c s.x k ∧ newdist c s k = pd c p0 s.x k := by
  have h1 : alphak c s k = al c s.x k := by rw [alphak, al, h.ctr]
  refine ⟨h1, ?_⟩
  rw [newdist, h1, h.pdist, pd_succ c p0 _ k h.kK]

/-! ## Walks -/

/-- See the head of this file. -/
structure Walked (c : Cfg) (E : EvalOps σ) (p0 : ℚ) (I : σ → ℚ → Prop) (k : ℕ) (P : ℤ → Prop)
    (s s' : St σ) (L : List Event) : Prop where
  events : s'.events = s.events ++ L
  fold : (s'.ev, s'.maxdist) = L.foldl (evStep E) (s.ev, s.maxdist)
  inv : I s'.ev s'.maxdist
  anti : ∀ j, j < c.K → s'.bounds j ≤ s.bounds j
  cnt : ∀ l, s'.nodes l = s.nodes l + BitVec.ofNat 64 (nodesAt l L).length
  node : ∀ l v d, Event.node l v d ∈ L → l ≤ k ∧ (∀ j, k < j → v j = s.x j) ∧ P (v k) ∧ d = pd c p0 v l ∧
    (∀ j, l ≤ j → j ≤ k → pd c p0 v j ≤ s.bounds j) ∧ Canon c p0 v l k
  comp : ∀ v l, l ≤ k → (∀ j, k < j → v j = s.x j) → P (v k) → Canon c p0 v l k →
    (∀ j, l ≤ j → j ≤ k → pd c p0 v j ≤ s'.bounds j) →
    ∃ w, Event.node l w (pd c p0 v l) ∈ L ∧ ∀ j, l ≤ j → w j = v j
  nodup : ∀ l, (nodesAt l L).Pairwise fun a b => ∃ j, l ≤ j ∧ j ≤ k ∧ a.1 j ≠ b.1 j
  order : ∀ l, (nodesAt l L).Pairwise fun a b => ∃ j, l ≤ j ∧ j ≤ k ∧ a.1 j ≠ b.1 j ∧
    (∀ i, j < i → i ≤ k → a.1 i = b.1 i) ∧ pd c p0 a.1 j ≤ pd c p0 b.1 j
  sols : solsOf L = (nodesAt 0 L).filter fun p => decide (p.2 > 0 ∨ c.svp = false)
  subLe : ∀ l, s'.subsoldists l ≤ s.subsoldists l
  subNode : c.findsubsols = true → ∀ l v d, Event.node l v d ∈ L → d ≠ 0 → s'.subsoldists l ≤ d
  subLast : ∀ l, s'.subsoldists l = lastDist (s.subsoldists l) (subsAt l L)
  subEv : ∀ l fx d, Event.sub l fx d ∈ L → c.findsubsols = true ∧ d ≠ 0 ∧ d < s.subsoldists l ∧
    ∃ v, Event.node l v d ∈ L ∧ fx = fun j => if j < l then 0 else v j
  subDec : ∀ l, (subsAt l L).Pairwise fun a b => b.2 < a.2
  within : Within c E (s.ev, s.maxdist) L

theorem Walked.congrP {c : Cfg} {E : EvalOps σ} {p0 : ℚ} {I : σ → ℚ → Prop} {k : ℕ} {P Q : ℤ → Prop}
    {s s' : St σ} {L : List Event} (h : Walked c E p0 I k P s s' L) (hPQ : ∀ z, P z ↔ Q z) :
    Walked c E p0 I k Q s s' L := by
  have : P = Q := funext fun z => propext (hPQ z)
  rwa [← this]

/-- a walk only depends on some of the state -/
theorem Walked.congr {c : Cfg} {E : EvalOps σ} {p0 : ℚ} {I : σ → ℚ → Prop} {k : ℕ} {P : ℤ → Prop}
    {s s' t t' : St σ} {L : List Event} (h : Walked c E p0 I k P s s' L)
    (h1 : t.events = s.events) (h2 : t.ev = s.ev) (h3 : t.maxdist = s.maxdist) (h4 : t.bounds = s.bounds)
    (h5 : t.nodes = s.nodes) (h6 : ∀ j, k < j → t.x j = s.x j) (h7 : t.subsoldists = s.subsoldists)
    (g1 : t'.events = s'.events) (g2 : t'.ev = s'.ev) (g3 : t'.maxdist = s'.maxdist) (g4 : t'.bounds = s'.bounds)
    (g5 : t'.nodes = s'.nodes) (g7 : t'.subsoldists = s'.subsoldists) :
    Walked c E p0 I k P t t' L where
  events := by rw [g1, h1, h.events]
  fold := by rw [g2, g3, h2, h3, h.fold]
  inv := by rw [g2, g3]; exact h.inv
  anti j hj := by rw [g4, h4]; exact h.anti j hj
  cnt l := by rw [g5, h5]; exact h.cnt l
  node l v d hm := by
    obtain ⟨a1, a2, a3, a4, a5, a6⟩ := h.node l v d hm
    exact ⟨a1, fun j hj => by rw [h6 j hj]; exact a2 j hj, a3, a4, by rw [h4]; exact a5, a6⟩
  comp v l hl ha hP hc hb := h.comp v l hl (fun j hj => by rw [ha j hj, h6 j hj]) hP hc (by rw [← g4]; exact hb)
  nodup := h.nodup
  order := h.order
  sols := h.sols
  subLe l := by rw [g7, h7]; exact h.subLe l
  subNode hf l v d hm hd := by rw [g7]; exact h.subNode hf l v d hm hd
  subLast l := by rw [g7, h7]; exact h.subLast l
  subEv l fx d hm := by rw [h7]; exact h.subEv l fx d hm
  subDec := h.subDec
  within := by rw [h2, h3]; exact h.within

/-- doing nothing is a walk when no value is allowed within the bounds -/
theorem Walked.nil {c : Cfg} {E : EvalOps σ} {p0 : ℚ} {I : σ → ℚ → Prop} {k : ℕ} {P : ℤ → Prop} {s : St σ}
    (hI : I s.ev s.maxdist)
    (h : ∀ v : ℕ → ℤ, (∀ j, k < j → v j = s.x j) → P (v k) → ¬ pd c p0 v k ≤ s.bounds k) :
    Walked c E p0 I k P s s [] where
  events := by simp
  fold := by simp
  inv := hI
  anti _ _ := le_rfl
  cnt l := by simp [nodesAt]
  node l v d hm := by cases hm
  comp v l hl ha hP hc hb := absurd (hb k hl le_rfl) (h v ha hP)
  nodup l := by simp [nodesAt]
  order l := by simp [nodesAt]
  sols := by simp [nodesAt, solsOf]
  subLe _ := le_rfl
  subNode _ l v d hm := by cases hm
  subLast l := by simp [subsAt, lastDist]
  subEv l fx d hm := by cases hm
  subDec l := by simp [subsAt]
  within := trivial

theorem lastDist_append (a : ℚ) (L M : List ((ℕ → ℤ) × ℚ)) : lastDist a (L ++ M) = lastDist (lastDist a L) M := by
  simp [lastDist]

/-- two walks one after the other -/
theorem Walked.append {c : Cfg} {E : EvalOps σ} {p0 : ℚ} {I : σ → ℚ → Prop} {k : ℕ} {P Q : ℤ → Prop}
    {s t u : St σ} {L M : List Event} (hk : k < c.K) (h : Walked c E p0 I k P s t L) (g : Walked c E p0 I k Q t u M)
    (hx : ∀ j, k < j → t.x j = s.x j) (hd : ∀ z, P z → ¬ Q z)
    (hord : ∀ v w, (∀ j, k < j → v j = s.x j) → (∀ j, k < j → w j = s.x j) → P (v k) → Q (w k) →
      pd c p0 v k ≤ pd c p0 w k) :
    Walked c E p0 I k (fun z => P z ∨ Q z) s u (L ++ M) where
  events := by rw [g.events, h.events, List.append_assoc]
  fold := by rw [List.foldl_append, ← h.fold, g.fold]
  inv := g.inv
  anti j hj := (g.anti j hj).trans (h.anti j hj)
  cnt l := by
    rw [g.cnt, h.cnt, nodesAt_append, List.length_append, BitVec.ofNat_add, BitVec.add_assoc]
  node l v d hm := by
    rcases List.mem_append.1 hm with hm | hm
    · obtain ⟨a1, a2, a3, a4, a5, a6⟩ := h.node l v d hm
      exact ⟨a1, a2, .inl a3, a4, a5, a6⟩
    · obtain ⟨a1, a2, a3, a4, a5, a6⟩ := g.node l v d hm
      exact ⟨a1, fun j hj => (a2 j hj).trans (hx j hj), .inr a3, a4,
        fun j hj hj' => (a5 j hj hj').trans (h.anti j (by omega)), a6⟩
  comp v l hl ha hP hc hb := by
    rcases hP with hP | hP
    · obtain ⟨w, hw, hw'⟩ := h.comp v l hl ha hP hc (fun j hj hj' => (hb j hj hj').trans (g.anti j (by omega)))
      exact ⟨w, List.mem_append_left _ hw, hw'⟩
    · obtain ⟨w, hw, hw'⟩ := g.comp v l hl (fun j hj => (ha j hj).trans (hx j hj).symm) hP hc hb
      exact ⟨w, List.mem_append_right _ hw, hw'⟩
  nodup l := by
    rw [nodesAt_append, List.pairwise_append]
    refine ⟨h.nodup l, g.nodup l, ?_⟩
    rintro ⟨a, da⟩ ha ⟨b, db⟩ hb
    rw [mem_nodesAt] at ha hb
    obtain ⟨a1, -, a3, -⟩ := h.node l a da ha
    obtain ⟨b1, -, b3, -⟩ := g.node l b db hb
    refine ⟨k, a1, le_rfl, fun he => hd _ a3 ?_⟩
    simp only at he
    rwa [he]
  order l := by
    rw [nodesAt_append, List.pairwise_append]
    refine ⟨h.order l, g.order l, ?_⟩
    rintro ⟨a, da⟩ ha ⟨b, db⟩ hb
    rw [mem_nodesAt] at ha hb
    obtain ⟨a1, a2, a3, -⟩ := h.node l a da ha
    obtain ⟨b1, b2, b3, -⟩ := g.node l b db hb
    refine ⟨k, a1, le_rfl, fun he => hd _ a3 ?_, fun i h1 h2 => by omega,
      hord a b a2 (fun j hj => (b2 j hj).trans (hx j hj)) a3 b3⟩
    simp only at he
    rwa [he]
  sols := by rw [solsOf_append, nodesAt_append, List.filter_append, h.sols, g.sols]
  subLe l := (g.subLe l).trans (h.subLe l)
  subNode hf l v d hm hd' := by
    rcases List.mem_append.1 hm with hm | hm
    · exact (g.subLe l).trans (h.subNode hf l v d hm hd')
    · exact g.subNode hf l v d hm hd'
  subLast l := by rw [g.subLast, h.subLast, subsAt_append, lastDist_append]
  subEv l fx d hm := by
    rcases List.mem_append.1 hm with hm | hm
    · obtain ⟨a1, a2, a3, v, hv, he⟩ := h.subEv l fx d hm
      exact ⟨a1, a2, a3, v, List.mem_append_left _ hv, he⟩
    · obtain ⟨a1, a2, a3, v, hv, he⟩ := g.subEv l fx d hm
      exact ⟨a1, a2, a3.trans_le (h.subLe l), v, List.mem_append_right _ hv, he⟩
  subDec l := by
    rw [subsAt_append, List.pairwise_append]
    refine ⟨h.subDec l, g.subDec l, ?_⟩
    rintro ⟨a, da⟩ ha ⟨b, db⟩ hb
    rw [mem_subsAt] at ha hb
    obtain ⟨a1, a2, a3, v, hv, he⟩ := h.subEv l a da ha
    obtain ⟨-, -, b3, -⟩ := g.subEv l b db hb
    exact b3.trans_le (h.subNode a1 l v da hv a2)
  within := (within_append c E _ _ _).2 ⟨h.within, by rw [← h.fold]; exact g.within⟩

end Enum
end Fplll

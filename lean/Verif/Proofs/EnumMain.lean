import Mathlib.Algebra.Order.Archimedean.Basic
import Verif.Proofs.EnumTop

/-!
# A whole call of `enumerate`
-/

open Finset

namespace Fplll
namespace Enum

variable {σ : Type}

/-- `v` has the prescribed coordinates on the fixed levels -/
def Input.Agrees (p : Input) (v : ℕ → ℤ) : Prop := ∀ j, p.K ≤ j → j < p.d → v j = p.sub j

/-- the problem is symmetric (SVP): no target and no non-zero fixed coordinate -/
def Input.Symm (p : Input) : Prop := p.target = none ∧ ∀ j, p.K ≤ j → j < p.d → p.sub j = 0

/-- Among the coordinates `l, …, k_end - 1`, one above which all coordinates vanish is not negative. -/
def Input.Canon (p : Input) (v : ℕ → ℤ) (l : ℕ) : Prop :=
  ∀ j, l ≤ j → j < p.K → (∀ i, j < i → i < p.K → v i = 0) → 0 ≤ v j

theorem cen_zero_of {c : Cfg} (hfl : Rnd c.fl) (hc : ∀ k, k < c.K → c.cpart k = 0) (v : ℕ → ℤ) (k : ℕ) (hk : k < c.K)
    (hv : ∀ j, k < j → j < c.K → v j = 0) : cen c v k = 0 := by
  induction hn : c.K - k using Nat.strong_induction_on generalizing k with
  | _ n ih =>
    subst hn
    rw [cen_eq]
    refine psum_zero hfl v k _ (hc k hk) ?_
    intro l hl1 hl2
    have h1 := ih (c.K - l) (by omega) l hl2 (fun j h1 h2 => hv j (by omega) h2) rfl
    unfold yS al
    rw [h1, hv l (by omega) hl2]
    simp [hfl.zero]

theorem pd_zero_iff {c : Cfg} {p0 : ℚ} (hT : TreeOK c p0) (hs : c.svp = true) (v : ℕ → ℤ) (k : ℕ) :
    pd c p0 v k = 0 ↔ ∀ j, k ≤ j → j < c.K → v j = 0 := by
  constructor
  · intro h j h1 h2
    exact (hT.zero_prefix hs v k h j h1 h2).1
  · intro h
    rw [pd]
    refine forDown_inv' (fun a => a = 0) _ _ _ _ (hT.svp0 hs).1 ?_
    intro j a h1 h2 ha
    rw [al, cen_zero_of hT.rnd (hT.svp0 hs).2 v j h2 (fun i h1 h2 => h i (by omega) h2), h j h1 h2, ha]
    simp [hT.rnd.zero]

/-- there is always a sufficient iteration budget -/
theorem enough_exists (c : Cfg) (b : ℕ → ℚ) (hr : ∀ k, k < c.K → 0 < c.rdiag k) : ∃ fuel, Enough c b fuel := by
  have h : ∀ n, n ≤ c.K → ∃ N : ℕ, ∀ k, k < n → b k < (N : ℚ) * c.rdiag k := by
    intro n
    induction n with
    | zero => intro _; exact ⟨0, fun k hk => by omega⟩
    | succ n ih =>
      intro hn
      obtain ⟨N, hN⟩ := ih (by omega)
      obtain ⟨M, hM⟩ := exists_nat_gt (b n / c.rdiag n)
      refine ⟨max N M, fun k hk => ?_⟩
      have hk' := hr k (by omega)
      rcases Nat.lt_or_ge k n with h1 | h1
      · refine (hN k h1).trans_le ?_
        exact mul_le_mul_of_nonneg_right (by exact_mod_cast le_max_left _ _) hk'.le
      · have : k = n := by omega
        subst this
        rw [div_lt_iff₀ hk'] at hM
        exact hM.trans_le (mul_le_mul_of_nonneg_right (by exact_mod_cast le_max_right _ _) hk'.le)
  obtain ⟨N, hN⟩ := h c.K le_rfl
  refine ⟨8 * (N + 1), fun k hk => ?_⟩
  have hk' := hr k hk
  refine (hN k hk).trans_le ?_
  have h1 : (0 : ℚ) ≤ N := by positivity
  apply mul_le_mul_of_nonneg_right _ hk'.le
  push_cast
  nlinarith

/-- What one call of `enumerate` does, in terms of the input alone. -/
structure EnumSpec (p : Input) (E : EvalOps σ) (I : σ → ℚ → Prop) (e : σ) (s' : St σ) : Prop where
  fold : (s'.ev, s'.maxdist) = s'.events.foldl (evStep E) (e, p.maxdist)
  inv : I s'.ev s'.maxdist
  bounds : s'.bounds = setBounds p.full s'.maxdist
  anti : ∀ j, j < p.K → s'.bounds j ≤ setBounds p.full p.maxdist j
  node : ∀ l v δ, Event.node l v δ ∈ s'.events → l < p.K ∧ p.Agrees v ∧ δ = p.dist v l ∧
    (∀ j, l ≤ j → j < p.K → p.dist v j ≤ setBounds p.full p.maxdist j) ∧ (p.Symm → p.Canon v l)
  comp : ∀ v l, l < p.K → p.Agrees v → (p.Symm → p.Canon v l ∧ (p.K = 1 → 1 ≤ v 0)) →
    (∀ j, l ≤ j → j < p.K → p.dist v j ≤ s'.bounds j) →
    ∃ w, Event.node l w (p.dist v l) ∈ s'.events ∧ ∀ j, l ≤ j → j < p.d → w j = v j
  nodup : ∀ l, (nodesAt l s'.events).Pairwise fun a b => ∃ j, l ≤ j ∧ j < p.K ∧ a.1 j ≠ b.1 j
  order : ∀ l, (nodesAt l s'.events).Pairwise fun a b => ∃ j, l ≤ j ∧ j < p.K ∧ a.1 j ≠ b.1 j ∧
    (∀ i, j < i → i < p.d → a.1 i = b.1 i) ∧ p.dist a.1 j ≤ p.dist b.1 j
  solsOk : ∀ v δ, Event.sol v δ ∈ s'.events ↔ Event.node 0 v δ ∈ s'.events ∧ (0 < δ ∨ ¬ p.Symm)
  solsSub : (solsOf s'.events).Sublist (nodesAt 0 s'.events)
  within : Within p.full E (e, p.maxdist) s'.events
  cnt : ∀ l, s'.nodes l = BitVec.ofNat 64 (nodesAt l s'.events).length -
    (if (prepare p).2 + 1 ≤ l ∧ l < p.K then 1 else 0)
  subNode : p.findsubsols = true → ∀ l v δ, Event.node l v δ ∈ s'.events → δ ≠ 0 → s'.subsoldists l ≤ δ
  subLast : ∀ l, s'.subsoldists l = lastDist (p.rdiag l) (subsAt l s'.events)
  subEv : ∀ l fx δ, Event.sub l fx δ ∈ s'.events → p.findsubsols = true ∧ δ ≠ 0 ∧ δ < p.rdiag l ∧
    ∃ v, Event.node l v δ ∈ s'.events ∧ fx = fun j => if j < l then 0 else v j
  subDec : ∀ l, (subsAt l s'.events).Pairwise fun a b => b.2 < a.2

theorem canon_iff {p : Input} (h : p.OK) (hB : PhaseB p (prepare p).1) (hs : p.Symm) (v : ℕ → ℤ) (l : ℕ) :
    p.Canon v l ↔ Enum.Canon p.cfg (p.pre p.K) v l p.K := by
  have hT := tree_ok h hB
  have hsv : p.cfg.svp = true := hB.svp.2 hs
  unfold Input.Canon Enum.Canon
  constructor
  · intro hc j h1 h2 _ hp
    exact hc j h1 h2 ((pd_zero_iff hT hsv v (j + 1)).1 hp)
  · intro hc j h1 h2 hz
    exact hc j h1 h2 hsv ((pd_zero_iff hT hsv v (j + 1)).2 hz)

theorem dist_ge_pre {p : Input} (h : p.OK) (v : ℕ → ℤ) (hv : p.Agrees v) (k m : ℕ) (hk : k ≤ p.K) (hm : p.K ≤ m) :
    p.pre m ≤ p.dist v k := by
  have hKd := p.K_le
  have hinc : ∀ (v : ℕ → ℤ) j, j < p.d → 0 ≤ p.fl (p.fl (al p.full v j * al p.full v j) * p.rdiag j) := fun v j hj =>
    h.rnd.nonneg (mul_nonneg (h.rnd.nonneg (mul_self_nonneg _)) (h.rdpos j hj).le)
  have hnn : ∀ b, b ≤ p.d → 0 ≤ forDown k b (fun j a => p.fl (a +
      p.fl (p.fl (al p.full v j * al p.full v j) * p.rdiag j))) 0 := by
    intro b hb
    refine forDown_inv' (fun a => 0 ≤ a) _ _ _ _ le_rfl ?_
    intro j a h1 h2 ha
    exact h.rnd.nonneg (add_nonneg ha (hinc v j (by omega)))
  have hrep : ∀ m, p.fl (forDown m p.d (fun j a => p.fl (a +
      p.fl (p.fl (al p.full v j * al p.full v j) * p.rdiag j))) 0) = forDown m p.d (fun j a => p.fl (a +
      p.fl (p.fl (al p.full v j * al p.full v j) * p.rdiag j))) 0 := by
    intro m
    refine forDown_inv' (fun a => p.fl a = a) _ _ _ _ h.rnd.zero ?_
    intro j a h1 h2 ha
    exact h.rnd.idem _
  unfold Input.pre Input.dist
  split_ifs with hr
  · exact hnn p.K hKd
  · have h1 : forDown m p.d (fun j a => p.fl (a + p.fl (p.fl (al p.full p.sub j * al p.full p.sub j) * p.rdiag j))) 0 =
        forDown m p.d (fun j a => p.fl (a + p.fl (p.fl (al p.full v j * al p.full v j) * p.rdiag j))) 0 := by
      apply forDown_congr
      intro j a hj1 hj2
      rw [al_congr p.full p.sub v j (fun l h1 h2 => (hv l (by omega) h2).symm) hj2]
    rw [h1]
    rcases Nat.lt_or_ge p.d m with hmd | hmd
    · rw [forDown_empty hmd.le]
      exact hnn p.d le_rfl
    · rw [forDown_split (hk.trans hm) hmd]
      refine forDown_inv' (fun a => forDown m p.d _ 0 ≤ a) _ _ _ _ le_rfl ?_
      intro j a hj1 hj2 ha
      refine le_trans ?_ (h.rnd.mono (show a ≤ _ from ?_))
      · calc _ = p.fl _ := (hrep m).symm
          _ ≤ p.fl a := h.rnd.mono ha
      · have := hinc v j (by omega)
        linarith

/-! ## The computed distances -/

theorem Input.dist_succ {p : Input} (v : ℕ → ℤ) {k : ℕ} (hk : k < p.K) :
    p.dist v k = p.fl (p.dist v (k + 1) + p.fl (p.fl (al p.full v k * al p.full v k) * p.rdiag k)) := by
  have hKd := p.K_le
  unfold Input.dist
  rw [forDown_bot (by split_ifs <;> omega)]

theorem Input.OK.inc_nonneg {p : Input} (h : p.OK) (v : ℕ → ℤ) {j : ℕ} (hj : j < p.d) :
    0 ≤ p.fl (p.fl (al p.full v j * al p.full v j) * p.rdiag j) :=
  h.rnd.nonneg (mul_nonneg (h.rnd.nonneg (mul_self_nonneg _)) (h.rdpos j hj).le)

theorem dist_nonneg {p : Input} (h : p.OK) (v : ℕ → ℤ) (k : ℕ) : 0 ≤ p.dist v k := by
  have hKd := p.K_le
  unfold Input.dist
  refine forDown_inv' (fun a => 0 ≤ a) _ _ _ _ le_rfl ?_
  intro j a h1 h2 ha
  exact h.rnd.nonneg (add_nonneg ha (h.inc_nonneg v (by split_ifs at h2 <;> omega)))

theorem dist_rep {p : Input} (h : p.OK) (v : ℕ → ℤ) (k : ℕ) : p.fl (p.dist v k) = p.dist v k := by
  unfold Input.dist
  refine forDown_inv' (fun a => p.fl a = a) _ _ _ _ h.rnd.zero ?_
  intro j a h1 h2 ha
  exact h.rnd.idem _

theorem dist_anti {p : Input} (h : p.OK) (v : ℕ → ℤ) {j k : ℕ} (hjk : j ≤ k) (hk : k ≤ p.K) : p.dist v k ≤ p.dist v j := by
  have hKd := p.K_le
  induction k, hjk using Nat.le_induction with
  | base => exact le_rfl
  | succ k _ ih =>
    refine le_trans ?_ (ih (by omega))
    rw [Input.dist_succ v (show k < p.K by omega)]
    calc p.dist v (k + 1) = p.fl (p.dist v (k + 1)) := (dist_rep h v _).symm
      _ ≤ _ := h.rnd.mono (by linarith [h.inc_nonneg v (show k < p.d by omega)])

/-- the offset of a coordinate vanishes if the distance does -/
theorem al_zero_of_dist {p : Input} (h : p.OK) {v : ℕ → ℤ} {k : ℕ} (hk : k < p.K) (h0 : p.dist v k = 0) :
    al p.full v k = 0 := by
  have hKd := p.K_le
  rw [Input.dist_succ v hk, h.rnd.eq_zero] at h0
  have h1 := dist_nonneg h v (k + 1)
  have h2 := h.inc_nonneg v (show k < p.d by omega)
  have h3 : p.fl (p.fl (al p.full v k * al p.full v k) * p.rdiag k) = 0 := by linarith
  rw [h.rnd.eq_zero, mul_eq_zero, h.rnd.eq_zero, mul_self_eq_zero] at h3
  exact h3.resolve_right (h.rdpos k (by omega)).ne'

theorem dist_congr (p : Input) (v w : ℕ → ℤ) (k : ℕ) (h : ∀ j, k ≤ j → j < p.d → v j = w j) :
    p.dist v k = p.dist w k := by
  unfold Input.dist
  have hKd := p.K_le
  apply forDown_congr
  intro j a h1 h2
  have h3 : j < p.d := by split_ifs at h2 <;> omega
  rw [al_congr p.full v w j (fun l h1 h2 => h l (by omega) h2) h3]

theorem within_congr {c c' : Cfg} {E : EvalOps σ} (hc : c'.pruning = c.pruning) (hf : c'.fl = c.fl) {t : σ × ℚ} {L : List Event}
    (h : Within c E t L) : Within c' E t L := by
  have hb : setBounds c' = setBounds c := by
    funext md; unfold setBounds; rw [hc, hf]
  induction L generalizing t with
  | nil => trivial
  | cons a L ih =>
    refine ⟨?_, ih h.2⟩
    have := h.1
    cases a with
    | node l v d => simpa only [evWithin, hb] using this
    | sol v d => simpa only [evWithin, hb] using this
    | sub l v d => trivial

/-- one walk of the top level amounts to the specification -/
theorem spec_of_walk {p : Input} {E : EvalOps σ} {I : σ → ℚ → Prop} {e : σ} (h : p.OK)
    (hB : PhaseB p (prepare p).1) {s' : St σ} {L : List Event}
    (hb : s'.bounds = setBounds p.cfg s'.maxdist) {x0 : ℤ} (hx0 : p.cfg.svp = true → x0 = p.lo)
    (hw : Walked p.cfg E (p.pre p.K) I (p.K - 1) (fun z => p.cfg.svp = true → x0 ≤ z)
      (loopInit p.cfg (p.start e) (prepare p).2) s' L) : EnumSpec p E I e s' := by
  have hKp := h.K_pos
  have hKd := p.K_le
  have hev : s'.events = L := hw.events
  have hsvp : p.cfg.svp = true ↔ p.Symm := hB.svp
  have hxs : ∀ j, p.K - 1 < j → (loopInit p.cfg (p.start e) (prepare p).2).x j = (prepare p).1.x j := by
    intro j hj
    change (if (prepare p).1.svp then setAt (prepare p).1.x 0 1 else (prepare p).1.x) j = _
    split_ifs
    · rw [setAt, if_neg (by omega)]
    · rfl
  have hag : ∀ v : ℕ → ℤ, (∀ j, p.K - 1 < j → v j = (loopInit p.cfg (p.start e) (prepare p).2).x j) → p.Agrees v := by
    intro v hv j h1 h2
    rw [hv j (by omega), hxs j (by omega), hB.x j h1 h2]
  subst hev
  constructor
  · exact hw.fold
  · exact hw.inv
  · exact hb
  · intro j hj; exact hw.anti j hj
  · intro l v δ hm
    obtain ⟨a1, a2, a3, a4, a5, a6⟩ := hw.node l v δ hm
    have hav := hag v a2
    refine ⟨by omega, hav, by rw [a4, pd_full h hB v hav l (by omega)], ?_, ?_⟩
    · intro j h1 h2
      rw [← pd_full h hB v hav j h2.le]
      exact a5 j h1 (by omega)
    · intro hs
      rw [canon_iff h hB hs]
      intro j h1 h2 hsv hp
      rcases Nat.lt_or_ge j (p.K - 1) with h3 | h3
      · exact a6 j h1 h3 hsv hp
      · have : j = p.K - 1 := by omega
        subst this
        have h4 := a3 hsv
        rw [hx0 hsv] at h4
        unfold Input.lo at h4
        split_ifs at h4 <;> omega
  · intro v l hl hv hc hbd
    -- adjust the coordinates beyond the block, which play no role
    set v' : ℕ → ℤ := fun j => if j < p.d then v j else 0 with hv'
    have hvv : ∀ j, j < p.d → v' j = v j := fun j hj => by simp [hv', hj]
    have hav' : p.Agrees v' := fun j h1 h2 => by rw [hvv j h2, hv j h1 h2]
    have hdist : ∀ j, p.dist v' j = p.dist v j := fun j => dist_congr p v' v j (fun i _ hi => hvv i hi)
    obtain ⟨w, hw1, hw2⟩ := hw.comp v' l (by omega) (fun j hj => by
        rw [hxs j hj]
        rcases Nat.lt_or_ge j p.d with h1 | h1
        · rw [hB.x j (by omega) h1, hav' j (by omega) h1]
        · rw [hB.x' j h1]; simp [hv', not_lt.2 h1])
      (fun hsv => by
        rw [hx0 hsv]
        obtain ⟨c1, c2⟩ := hc (hsvp.1 hsv)
        rw [hvv _ (by omega)]
        unfold Input.lo
        split_ifs with hK1
        · rw [show p.K - 1 = 0 by omega]; exact c2 hK1
        · exact c1 (p.K - 1) (by omega) (by omega) (fun i h1 h2 => by omega))
      (fun j h1 h2 hsv hp => by
        have hs := hsvp.1 hsv
        have := (canon_iff h hB hs v l).1 (hc hs).1 j h1 (by omega) hsv
        rw [hvv j (by omega)]
        apply this
        rw [← hp]
        exact pd_congr _ _ _ _ _ (fun i _ hi => (hvv i (lt_of_lt_of_le hi hKd)).symm))
      (fun j h1 h2 => by
        rw [pd_full h hB v' hav' j (by omega), hdist]
        exact hbd j h1 (by omega))
    rw [pd_full h hB v' hav' l (by omega), hdist] at hw1
    exact ⟨w, hw1, fun j h1 h2 => by rw [hw2 j h1, hvv j h2]⟩
  · intro l
    exact (hw.nodup l).imp (fun ⟨j, h1, h2, h3⟩ => ⟨j, h1, by omega, h3⟩)
  · intro l
    refine (hw.order l).imp_of_mem (fun {a b} ha hb ⟨j, h1, h2, h3, h4, h5⟩ => ⟨j, h1, by omega, h3, ?_, ?_⟩)
    · intro i h6 h7
      rcases Nat.lt_or_ge (p.K - 1) i with h8 | h8
      · rw [(hw.node l a.1 a.2 (mem_nodesAt.1 ha)).2.1 i h8, (hw.node l b.1 b.2 (mem_nodesAt.1 hb)).2.1 i h8]
      · exact h4 i h6 h8
    · rw [← pd_full h hB a.1 (hag _ (hw.node l a.1 a.2 (mem_nodesAt.1 ha)).2.1) j (by omega),
        ← pd_full h hB b.1 (hag _ (hw.node l b.1 b.2 (mem_nodesAt.1 hb)).2.1) j (by omega)]
      exact h5
  · intro v δ
    rw [← mem_solsOf, hw.sols, List.mem_filter, mem_nodesAt]
    simp only [gt_iff_lt, decide_eq_true_eq]
    rw [← hsvp, Bool.not_eq_true]
  · rw [hw.sols]; exact List.filter_sublist
  · exact within_congr (c := p.cfg) (c' := p.full) rfl rfl hw.within
  · intro l
    rw [hw.cnt]
    change (if (prepare p).2 + 1 ≤ l ∧ l < p.K then (0 : BitVec 64) - 1 else 0) + _ = _
    split_ifs with h1
    · generalize BitVec.ofNat 64 _ = a
      bv_omega
    · simp
  · exact hw.subNode
  · exact hw.subLast
  · exact hw.subEv
  · exact hw.subDec

/-- a call that finds nothing to enumerate -/
theorem spec_of_empty {p : Input} {E : EvalOps σ} {I : σ → ℚ → Prop} {e : σ} (h : p.OK) (hI : I e p.maxdist)
    (hK : p.K ≤ (prepare p).2) (hm : ∃ m, p.K ≤ m ∧ p.maxdist < p.pre m) : EnumSpec p E I e (p.start e) := by
  have hKp := h.K_pos
  have hKd := p.K_le
  have hev : (p.start e).events = [] := rfl
  constructor
  · rfl
  · exact hI
  · rfl
  · intro j _; exact le_rfl
  · intro l v δ hm; rw [hev] at hm; cases hm
  · intro v l hl hv _ hb
    exfalso
    obtain ⟨m, hm1, hm2⟩ := hm
    have h1 := hb (p.K - 1) (by omega) (by omega)
    have h2 := dist_ge_pre h v hv (p.K - 1) m (by omega) hm1
    have h3 : (p.start e).bounds (p.K - 1) ≤ p.maxdist := h.prune _ (by omega)
    linarith
  · intro l; rw [hev]; simp [nodesAt]
  · intro l; rw [hev]; simp [nodesAt]
  · intro v δ; rw [hev]; simp
  · rw [hev]; simp [solsOf, nodesAt]
  · trivial
  · intro l
    rw [hev, if_neg (by omega)]
    simp [nodesAt, Input.start]
  · intro _ l v δ hm; rw [hev] at hm; cases hm
  · intro l; rw [hev]; simp [subsAt, lastDist, Input.start]
  · intro l fx δ hm; rw [hev] at hm; cases hm
  · intro l; rw [hev]; simp [subsAt]

/-- **The specification holds for every call of `enumerate`** with a sufficient iteration budget. -/
theorem enumerate_spec {p : Input} {E : EvalOps σ} {I : σ → ℚ → Prop} {e : σ} (h : p.OK)
    (hE : EvalOK p.cfg E I) (hI : I e p.maxdist) {fuel : ℕ} (hF : Enough p.cfg (setBounds p.cfg p.maxdist) fuel) :
    ∃ s', enumerate p E fuel e = some s' ∧ EnumSpec p E I e s' := by
  have hKp := h.K_pos
  rcases prepare_spec h with ⟨h1, h2⟩ | ⟨h1, hB⟩
  · refine ⟨p.start e, ?_, spec_of_empty h hI h1 h2⟩
    unfold enumerate enumerateRec
    rw [if_pos (show (prepare p).2 ≥ p.cfg.K from h1)]
  · obtain ⟨x0, sd, hi, hx0⟩ := start_inv h hB e hI (prepare p).2
    obtain ⟨s', L, h3, -, h5, h6, -⟩ := recursive_ok (tree_ok h hB) hE (p.K - 1) _ _ _ _ hi hF
    refine ⟨s', ?_, spec_of_walk h hB h5.bnd hx0 h6⟩
    unfold enumerate enumerateRec
    rw [if_neg (show ¬ (prepare p).2 ≥ p.cfg.K from not_le.2 h1), ← h3]
    congr 1
    change p.K = _
    omega

/-- **Both builds compute the same**: the iterative loop ends in exactly the state of the recursive one. -/
theorem iter_eq_rec {p : Input} {E : EvalOps σ} {I : σ → ℚ → Prop} {e : σ} (h : p.OK)
    (hE : EvalOK p.cfg E I) (hI : I e p.maxdist) {fuel : ℕ} (hF : Enough p.cfg (setBounds p.cfg p.maxdist) fuel) :
    ∃ n, ∀ m, enumerateI p E (n + m) e = enumerate p E fuel e := by
  have hKp := h.K_pos
  unfold enumerate enumerateRec enumerateI enumerateIter
  by_cases hk : (prepare p).2 ≥ p.cfg.K
  · exact ⟨0, fun m => by rw [if_pos hk, if_pos hk]⟩
  · rcases prepare_spec h with ⟨h1, h2⟩ | ⟨h1, hB⟩
    · exact absurd h1 hk
    · obtain ⟨x0, sd, hi, hx0⟩ := start_inv h hB e hI (prepare p).2
      obtain ⟨s', L, h3, h4, h5, h6, ⟨n, hn⟩, h8⟩ := recursive_ok (tree_ok h hB) hE (p.K - 1) _ _ _ _ hi hF
      refine ⟨n + 1, fun m => ?_⟩
      rw [if_neg hk, if_neg hk, show p.cfg.K = p.K - 1 + 1 by change p.K = _; omega, h3, Nat.add_sub_cancel,
        Nat.add_assoc, hn, Nat.add_comm, iterate]
      have hp : s'.partdist p.K = 0 := by
        rw [h4.partdist p.K (by omega)]
        change setAt (prepare p).1.partdist p.K 0 p.K = 0
        simp [setAt]
      have : loopStep p.cfg E s' (p.K - 1) = (s', none) := by
        unfold loopStep
        rw [if_neg h8]
        have h9 : nextPosUp p.cfg s' (p.K - 1 + 1) = none := by
          unfold nextPosUp
          rw [show p.K - 1 + 1 = p.K by omega, if_neg (by rw [hp]; simp), if_pos (show p.K ≥ p.cfg.K from le_rfl)]
        rw [h9]
      rw [this]

end Enum
end Fplll

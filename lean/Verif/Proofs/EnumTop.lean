import Verif.Proofs.EnumRec

/-!
# `prepare_enumeration` and the start of the walk
-/

open Finset

namespace Fplll
namespace Enum

variable {σ : Type}

/-- The whole problem (without the subtree being fixed) as tree data. -/
def Input.full (p : Input) : Cfg where
  fl := p.fl
  K := p.d
  dual := p.dual
  svp := p.target.isNone
  findsubsols := p.findsubsols
  mt := p.mt
  rdiag := p.rdiag
  cpart := p.ctarget
  pruning := p.pruning

/-- the fixed coordinate `j ≥ k_end` -/
def Input.sub (p : Input) (j : ℕ) : ℤ := p.subtree.getD (j - p.K) 0

/-- Squared length of `∑ v_j b_j - t` projected orthogonally to the first `k` vectors; with
`subtree_reset` the contribution of the fixed levels is left out.  Every operation is rounded; `dist_exact` is the
sum that this is in exact arithmetic. -/
def Input.dist (p : Input) (v : ℕ → ℤ) (k : ℕ) : ℚ :=
  forDown k (if p.subtreeReset then p.K else p.d)
    (fun j a => p.fl (a + p.fl (p.fl (al p.full v j * al p.full v j) * p.rdiag j))) 0

/-- What `enumerate` requires of its arguments (enumerate.cpp:71-73) plus positive squared lengths and a
representable radius (it is a `double`); a subtree must leave at least one coordinate free. -/
structure Input.OK (p : Input) : Prop where
  rnd : Rnd p.fl
  mrep : p.fl p.maxdist = p.maxdist
  rpos : ∀ i, i < p.d → 0 < p.r i
  sublen : p.subtree.length < p.d
  dualOK : p.dual = true → p.target = none ∧ p.subtree = []
  prune : ∀ k, k < p.d → setBounds p.full p.maxdist k ≤ p.maxdist

/-! ## `prepare_enumeration` -/

/-- distance accumulated by `prepare_enumeration` over the levels `m, …, d-1` -/
def Input.pre (p : Input) (m : ℕ) : ℚ :=
  if p.subtreeReset then 0 else forDown m p.d
    (fun j a => p.fl (a + p.fl (p.fl (al p.full p.sub j * al p.full p.sub j) * p.rdiag j))) 0

/-- centre of coordinate `i` when the levels `m, …, d-1` have been treated -/
def Input.csub (p : Input) (i m : ℕ) : ℚ :=
  forDown m p.d (fun l a => p.fl (a - p.fl (p.sub l * p.mt i l))) (p.full.cpart i)

/-- invariant of the first phase: levels `m, …, d-1`, all fixed, have been treated -/
structure PhaseA (p : Input) (m : ℕ) (w : Prep) : Prop where
  x : ∀ j, m ≤ j → j < p.d → w.x j = p.sub j
  x' : ∀ j, p.d ≤ j → w.x j = 0
  cpart : ∀ j, j < m → w.cpart j = p.csub j m
  nd : w.newdist = p.pre m
  svp : w.svp = true ↔ p.target = none ∧ ∀ l, m ≤ l → l < p.d → p.sub l = 0

/-- invariant of the second phase: only level `k_end - 1` matters -/
structure PhaseB (p : Input) (w : Prep) : Prop where
  x : ∀ j, p.K ≤ j → j < p.d → w.x j = p.sub j
  x' : ∀ j, p.d ≤ j → w.x j = 0
  cpart : ∀ j, j < p.K → w.cpart j = p.csub j p.K
  svp : w.svp = true ↔ p.target = none ∧ ∀ l, p.K ≤ l → l < p.d → p.sub l = 0
  ctr : w.center (p.K - 1) = w.cpart (p.K - 1)
  xk : w.x (p.K - 1) = roundto (w.cpart (p.K - 1))
  dxk : w.dx (p.K - 1) = startDir (w.cpart (p.K - 1)) (w.x (p.K - 1))
  pdk : w.partdist (p.K - 1) = p.pre p.K

theorem prep_init (p : Input) : PhaseA p p.d (prepInit p) where
  x j h1 h2 := by omega
  x' _ _ := rfl
  cpart j _ := by simp [prepInit, Input.csub, Input.full, forDown_empty le_rfl]
  nd := by simp [prepInit, Input.pre, forDown_empty le_rfl]
  svp := by
    simp only [prepInit, Option.isNone_iff_eq_none]
    exact ⟨fun h => ⟨h, fun l h1 h2 => by omega⟩, fun h => h.1⟩

theorem prepBody_A {p : Input} (hdual : p.dual = true → p.subtree = []) {k : ℕ} {w : Prep} (hk : p.K ≤ k) (hkd : k < p.d)
    (h : PhaseA p (k + 1) w) : PhaseA p k (prepBody p p.K k w) := by
  have hsubk : p.subtree.getD (k - p.K) 0 = p.sub k := rfl
  have hnd : p.dual = false := by
    by_contra hd
    have := hdual (by simpa using hd)
    rw [Input.K, this] at hk
    simp at hk; omega
  have hx : ∀ j, k ≤ j → j < p.d → setAt w.x k (p.sub k) j = p.sub j := by
    intro j h1 h2
    simp only [setAt]
    split_ifs with h3
    · rw [h3]
    · exact h.x j (by omega) h2
  have hx' : ∀ j, p.d ≤ j → setAt w.x k (p.sub k) j = 0 := by
    intro j h1
    simp only [setAt]
    rw [if_neg (by omega)]; exact h.x' j h1
  have hcp : ∀ j, j < k → (if j < k then p.fl (w.cpart j - p.fl ((p.sub k : ℚ) * p.mt j k)) else w.cpart j) =
      p.csub j k := by
    intro j hj
    rw [if_pos hj, h.cpart j (by omega), Input.csub, Input.csub, forDown_bot hkd]
  have hsv : (if p.sub k ≠ 0 then false else w.svp) = true ↔ p.target = none ∧ ∀ l, k ≤ l → l < p.d → p.sub l = 0 := by
    split_ifs with h1
    · simp only [false_iff]
      rintro ⟨-, h2⟩
      exact h1 (h2 k le_rfl hkd)
    · rw [h.svp]
      push Not at h1
      constructor
      · rintro ⟨a, b⟩
        refine ⟨a, fun l h2 h3 => ?_⟩
        rcases Nat.lt_or_ge k l with h4 | h4
        · exact b l h4 h3
        · have : l = k := by omega
          subst this; exact h1
      · rintro ⟨a, b⟩
        exact ⟨a, fun l h2 h3 => b l (by omega) h3⟩
  have hal : p.fl ((p.sub k : ℚ) - w.cpart k) = al p.full p.sub k := by
    rw [al, cen_eq, psum, h.cpart k (by omega), Input.csub]
    change _ = p.fl (_ - forDown (k + 1) p.d _ _)
    congr 2
    apply forDown_congr
    intro l a _ _
    unfold yS
    rw [show p.full.dual = false from hnd]
    rfl
  unfold prepBody
  rw [if_pos hk, hsubk]
  cases hr : p.subtreeReset with
  | true =>
    simp only [if_true]
    refine ⟨hx, hx', hcp, ?_, hsv⟩
    rw [h.nd, Input.pre, Input.pre, hr]; rfl
  | false =>
    simp only [Bool.false_eq_true, if_false]
    refine ⟨hx, hx', hcp, ?_, hsv⟩
    rw [h.nd, hal, Input.pre, Input.pre, hr]
    simp only [Bool.false_eq_true, if_false]
    rw [forDown_bot hkd]

theorem prepBody_AB {p : Input} {w : Prep} (hK : 0 < p.K) (h : PhaseA p p.K w) :
    PhaseB p (prepBody p p.K (p.K - 1) w) := by
  have hKd : p.K ≤ p.d := Nat.sub_le _ _
  have hctr : forUp (p.K - 1 + 1) p.K (fun j a => p.fl (a -
      p.fl ((if p.dual then w.alpha j else w.x j) * p.mt (p.K - 1) j))) (w.cpart (p.K - 1)) = w.cpart (p.K - 1) := forUp_empty (by omega) _ _
  unfold prepBody
  rw [if_neg (by omega), hctr]
  constructor
  · intro j h1 h2
    simp only [setAt]
    rw [if_neg (by omega)]; exact h.x j h1 h2
  · intro j h1
    simp only [setAt]
    rw [if_neg (by omega)]; exact h.x' j h1
  · exact h.cpart
  · exact h.svp
  · simp [setAt]
  · simp [setAt]
  · simp [setAt]
  · simp [setAt, h.nd]

theorem prepBody_B {p : Input} {k : ℕ} {w : Prep} (hk : k < p.K - 1) (h : PhaseB p w) :
    PhaseB p (prepBody p p.K k w) := by
  have hKd : p.K ≤ p.d := Nat.sub_le _ _
  unfold prepBody
  rw [if_neg (by omega)]
  constructor
  · intro j h1 h2
    simp only [setAt]
    rw [if_neg (by omega)]; exact h.x j h1 h2
  · intro j h1
    simp only [setAt]
    rw [if_neg (by omega)]; exact h.x' j h1
  · exact h.cpart
  · exact h.svp
  · simp only [setAt]; rw [if_neg (by omega)]; exact h.ctr
  · simp only [setAt]; rw [if_neg (by omega)]; exact h.xk
  · simp only [setAt]; rw [if_neg (by omega), if_neg (by omega)]; exact h.dxk
  · simp only [setAt]; rw [if_neg (by omega)]; exact h.pdk

theorem prepLoop_B {p : Input} (k : ℕ) : ∀ w : Prep, k ≤ p.K - 1 → PhaseB p w →
    PhaseB p (prepLoop p p.K k w).1 ∧ (prepLoop p p.K k w).2 ≤ k := by
  induction k with
  | zero => intro w _ h; exact ⟨h, le_rfl⟩
  | succ k ih =>
    intro w hk h
    rw [prepLoop]
    split_ifs
    · obtain ⟨a, b⟩ := ih (prepBody p p.K k w) (by omega) (prepBody_B (by omega) h)
      exact ⟨a, by omega⟩
    · exact ⟨h, le_rfl⟩

/-- Outcome of the preparation: either the fixed part alone exceeds the bound and nothing will be
enumerated, or the start of level `k_end - 1` is as it should be. -/
theorem prepLoop_A {p : Input} (hdual : p.dual = true → p.subtree = []) (hK : 0 < p.K) (k : ℕ) : ∀ w : Prep, p.K ≤ k → k ≤ p.d →
    PhaseA p k w → ((prepLoop p p.K k w).2 ≥ p.K ∧ ∃ m, p.K ≤ m ∧ p.maxdist < p.pre m) ∨
      ((prepLoop p p.K k w).2 < p.K ∧ PhaseB p (prepLoop p p.K k w).1) := by
  induction k with
  | zero => intro w h; omega
  | succ k ih =>
    intro w hk hkd h
    rw [prepLoop]
    split_ifs with hc
    · rcases Nat.lt_or_ge k p.K with hlt | hge
      · have hkK : k = p.K - 1 := by omega
        have h' : PhaseA p p.K w := by
          have : k + 1 = p.K := by omega
          rwa [this] at h
        right
        have := prepLoop_B (p := p) k (prepBody p p.K k w) (by omega) (by rw [hkK]; exact prepBody_AB hK h')
        exact ⟨by omega, this.1⟩
      · exact ih _ hge (by omega) (prepBody_A hdual hge (by omega) h)
    · left
      refine ⟨by omega, k + 1, by omega, ?_⟩
      rw [← h.nd]
      exact not_le.1 hc

theorem Input.OK.hdual {p : Input} (h : p.OK) : p.dual = true → p.subtree = [] := fun hd => (h.dualOK hd).2

theorem Input.OK.K_pos {p : Input} (h : p.OK) : 0 < p.K := by
  have := h.sublen
  unfold Input.K; omega

theorem Input.K_le (p : Input) : p.K ≤ p.d := Nat.sub_le _ _

theorem prepare_spec {p : Input} (h : p.OK) :
    ((prepare p).2 ≥ p.K ∧ ∃ m, p.K ≤ m ∧ p.maxdist < p.pre m) ∨ ((prepare p).2 < p.K ∧ PhaseB p (prepare p).1) :=
  prepLoop_A h.hdual h.K_pos p.d _ (p.K_le) le_rfl (prep_init p)

theorem Input.OK.rdpos {p : Input} (h : p.OK) (i : ℕ) (hi : i < p.d) : 0 < p.rdiag i := by
  unfold Input.rdiag
  split_ifs
  · exact h.rnd.pos (div_pos one_pos (h.rnd.pos (h.rpos _ (by omega))))
  · exact h.rnd.pos (h.rpos i hi)

/-! ## The tree with the subtree fixed -/

theorem cen_full {p : Input} (h : p.OK) (hB : PhaseB p (prepare p).1) (v : ℕ → ℤ)
    (hv : ∀ j, p.K ≤ j → j < p.d → v j = p.sub j) (k : ℕ) (hk : k < p.K) : cen p.cfg v k = cen p.full v k := by
  have hKd := p.K_le
  induction hn : p.K - k using Nat.strong_induction_on generalizing k with
  | _ n ih =>
    subst hn
    rw [cen_eq, cen_eq, psum, psum]
    change forDown (k + 1) p.K (fun l a => p.fl (a - p.fl (yS p.cfg v l * p.mt k l))) ((prepare p).1.cpart k) =
      forDown (k + 1) p.d (fun l a => p.fl (a - p.fl (yS p.full v l * p.mt k l))) (p.full.cpart k)
    rw [hB.cpart k hk, forDown_split (show k + 1 ≤ p.K by omega) hKd, Input.csub]
    have h1 : forDown p.K p.d (fun l a => p.fl (a - p.fl (p.sub l * p.mt k l))) (p.full.cpart k) =
        forDown p.K p.d (fun l a => p.fl (a - p.fl (yS p.full v l * p.mt k l))) (p.full.cpart k) := by
      apply forDown_congr
      intro l a hl1 hl2
      have hnd : p.full.dual = false := by
        by_contra hd
        have h1 := h.hdual (by simpa [Input.full] using hd)
        rw [Input.K, h1] at hl1
        simp only [List.length_nil] at hl1
        omega
      rw [yS, if_neg (by rw [hnd]; simp), hv l hl1 hl2]
    rw [h1]
    apply forDown_congr
    intro l a hl1 hl2
    have h2 := ih (p.K - l) (by omega) l hl2 rfl
    unfold yS al
    rw [h2]
    rfl

theorem al_full {p : Input} (h : p.OK) (hB : PhaseB p (prepare p).1) (v : ℕ → ℤ)
    (hv : ∀ j, p.K ≤ j → j < p.d → v j = p.sub j) (k : ℕ) (hk : k < p.K) : al p.cfg v k = al p.full v k := by
  unfold al
  rw [cen_full h hB v hv k hk]
  rfl

theorem pd_full {p : Input} (h : p.OK) (hB : PhaseB p (prepare p).1) (v : ℕ → ℤ)
    (hv : ∀ j, p.K ≤ j → j < p.d → v j = p.sub j) (k : ℕ) (hk : k ≤ p.K) :
    pd p.cfg (p.pre p.K) v k = p.dist v k := by
  have hKd := p.K_le
  unfold pd Input.dist Input.pre
  have h1 : ∀ s, forDown k p.cfg.K (fun j a => p.cfg.fl (a + p.cfg.fl (p.cfg.fl (al p.cfg v j * al p.cfg v j) *
        p.cfg.rdiag j))) s =
      forDown k p.K (fun j a => p.fl (a + p.fl (p.fl (al p.full v j * al p.full v j) * p.rdiag j))) s := by
    intro s
    change forDown k p.K _ s = _
    apply forDown_congr
    intro j a hj1 hj2
    rw [al_full h hB v hv j hj2]
    rfl
  rw [h1]
  split_ifs with hr
  · rfl
  · rw [forDown_split hk hKd]
    congr 1
    apply forDown_congr
    intro j a hj1 hj2
    rw [al_congr p.full p.sub v j (fun l h1 h2 => (hv l (by omega) h2).symm) hj2]

/-- in exact arithmetic the distance is a sum of squares -/
theorem Input.dist_exact {p : Input} (hp : p.fl = id) (v : ℕ → ℤ) (k : ℕ) :
    p.dist v k = ∑ j ∈ Ico k (if p.subtreeReset then p.K else p.d), al p.full v j * al p.full v j * p.rdiag j := by
  have := forDown_sub (fun j => -(al p.full v j * al p.full v j * p.rdiag j)) k
    (if p.subtreeReset then p.K else p.d) 0
  rw [Finset.sum_neg_distrib, sub_neg_eq_add, zero_add] at this
  rw [Input.dist, hp, ← this]
  apply forDown_congr
  intro j a _ _
  simp

theorem Input.OK.pre_nonneg {p : Input} (h : p.OK) (m : ℕ) : 0 ≤ p.pre m := by
  unfold Input.pre
  split_ifs
  · exact le_rfl
  · refine forDown_inv' (fun a => 0 ≤ a) _ _ _ _ le_rfl ?_
    intro j a h1 h2 ha
    exact h.rnd.nonneg (add_nonneg ha (h.rnd.nonneg (mul_nonneg (h.rnd.nonneg (mul_self_nonneg _))
      (h.rdpos j h2).le)))

theorem Input.OK.pre_rep {p : Input} (h : p.OK) (m : ℕ) : p.fl (p.pre m) = p.pre m := by
  unfold Input.pre
  split_ifs
  · exact h.rnd.zero
  · refine forDown_inv' (fun a => p.fl a = a) _ _ _ _ h.rnd.zero ?_
    intro j a h1 h2 ha
    exact h.rnd.idem _

theorem Input.OK.rdrep {p : Input} (h : p.OK) (i : ℕ) : p.fl (p.rdiag i) = p.rdiag i := by
  unfold Input.rdiag
  split_ifs <;> exact h.rnd.idem _

/-- with all fixed coordinates zero and no target, the fixed levels contribute nothing -/
theorem pre_zero {p : Input} (h : p.OK) (ht : p.target = none) (hs : ∀ l, p.K ≤ l → l < p.d → p.sub l = 0) :
    p.pre p.K = 0 := by
  unfold Input.pre
  split_ifs
  · rfl
  · have hc : ∀ j, p.full.cpart j = 0 := by intro j; simp [Input.full, Input.ctarget, ht, h.rnd.zero]
    have hcen : ∀ n j, p.d - j = n → p.K ≤ j → j < p.d → cen p.full p.sub j = 0 := by
      intro n
      induction n using Nat.strong_induction_on with
      | _ n ih =>
        intro j hn hj hjd
        rw [cen_eq]
        refine psum_zero h.rnd p.sub j _ (hc j) ?_
        intro l hl1 hl2
        have h1 := ih (p.d - l) (by have : l < p.d := hl2; omega) l rfl (by omega) hl2
        unfold yS al
        rw [h1, hs l (by omega) hl2]
        simp [show p.full.fl = p.fl from rfl, h.rnd.zero]
    refine forDown_inv' (fun a => a = 0) _ _ _ _ rfl ?_
    intro j a h1 h2 ha
    unfold al
    rw [hcen _ j rfl h1 h2, hs j h1 h2, ha]
    simp [show p.full.fl = p.fl from rfl, h.rnd.zero]

theorem tree_ok {p : Input} (h : p.OK) (hB : PhaseB p (prepare p).1) : TreeOK p.cfg (p.pre p.K) where
  rnd := h.rnd
  rrep k _ := h.rdrep k
  prep := h.pre_rep _
  rpos k hk := h.rdpos k (lt_of_lt_of_le hk p.K_le)
  p0nn := h.pre_nonneg _
  svp0 hs := by
    have hs' := hB.svp.1 hs
    refine ⟨pre_zero h hs'.1 hs'.2, ?_⟩
    intro k hk
    change (prepare p).1.cpart k = 0
    rw [hB.cpart k hk]
    have h1 : p.full.cpart k = 0 := by simp [Input.full, Input.ctarget, hs'.1, h.rnd.zero]
    refine forDown_inv' (fun a => a = 0) _ _ _ _ h1 ?_
    intro l a hl1 hl2 ha
    rw [hs'.2 l hl1 hl2, ha]
    simp [h.rnd.zero]

/-- first value of the top coordinate -/
def Input.lo (p : Input) : ℤ := if p.K = 1 then 1 else 0

/-- the state in which the walk starts satisfies the invariant of its top level -/
theorem start_inv {p : Input} {I : σ → ℚ → Prop} (h : p.OK) (hB : PhaseB p (prepare p).1) (e : σ)
    (hI : I e p.maxdist) (k : ℕ) :
    ∃ x0 sd, SibInv p.cfg (p.pre p.K) I (p.K - 1) p.cfg.svp x0 sd 0 (loopInit p.cfg (p.start e) k) ∧
      (p.cfg.svp = true → x0 = p.lo) := by
  have hKp := h.K_pos
  have hT := tree_ok h hB
  have hxx : (loopInit p.cfg (p.start e) k).x = if (prepare p).1.svp then setAt (prepare p).1.x 0 1 else (prepare p).1.x := rfl
  set s := loopInit p.cfg (p.start e) k with hs
  have hctr : s.center (p.K - 1) = (prepare p).1.cpart (p.K - 1) := hB.ctr
  have hpd : s.partdist (p.K - 1) = p.pre p.K := by
    rw [← hB.pdk]
    change setAt (prepare p).1.partdist p.K 0 (p.K - 1) = _
    simp only [setAt]
    rw [if_neg (by omega)]
  have hdx : s.dx (p.K - 1) = startDir (s.center (p.K - 1)) ((prepare p).1.x (p.K - 1)) := by
    rw [hctr]; exact hB.dxk
  have hcen : cen p.cfg s.x (p.K - 1) = s.center (p.K - 1) := by
    rw [cen_eq, hctr, show p.K - 1 + 1 = p.cfg.K by change _ = p.K; omega, psum_top]
    rfl
  refine ⟨s.x (p.K - 1), startDir (s.center (p.K - 1)) (s.x (p.K - 1)), ?_, ?_⟩
  · constructor
    · constructor
      · change p.K - 1 < p.K; omega
      · intro j h1 h2
        have : j < p.K := h2
        omega
      · rw [hpd, show p.K - 1 + 1 = p.cfg.K by change _ = p.K; omega, pd_top]
      · exact hcen.symm
      · intro i hi j hj hb
        have hb' := hb (p.K - 1) hi le_rfl
        have : s.cpsBegin (p.K - 1) = p.K - 1 := by
          change (if p.K - 1 = 0 then 0 else if p.K - 1 ≤ p.K then p.K - 1 else _) = _
          rw [if_neg (by omega), if_pos (by omega)]
        have hj' : j ≤ p.K := hj
        have hjK : j = p.K := by omega
        subst hjK
        change (if i < p.K ∧ p.K = p.K then (prepare p).1.cpart i else _) = _
        rw [if_pos ⟨by omega, rfl⟩]
        exact (psum_top p.cfg s.x i).symm
      · intro l h1 h2
        have : s.cpsBegin l = p.K - 1 := by
          change (if l = 0 then 0 else if l ≤ p.K then p.K - 1 else _) = _
          rw [if_neg (by omega), if_pos (by omega)]
        rw [this]
        exact ⟨h2, by change p.K - 1 < p.K; omega⟩
      · rfl
    · exact hI
    · unfold seq; split_ifs <;> simp [zz_zero]
    · intro hsv
      rw [zdx_zero, zddx_zero]
      have hx : s.x (p.K - 1) = (prepare p).1.x (p.K - 1) := by
        rw [hxx, if_neg (by rw [show (prepare p).1.svp = false from hsv]; simp)]
      rw [hx]
      exact ⟨hdx, hdx⟩
    · constructor
      · intro hsv
        exact ⟨hsv, by rw [hpd]; exact (hT.svp0 hsv).1⟩
      · exact fun hh => hh.1
    · constructor
      · intro hsv
        have h0 : s.center (p.K - 1) = 0 := by
          rw [hctr]; exact (hT.svp0 hsv).2 (p.K - 1) (by change _ < p.K; omega)
        refine ⟨h0, ?_⟩
        rw [hxx, if_pos (show (prepare p).1.svp = true from hsv)]
        simp only [setAt]
        split_ifs
        · omega
        · rw [hB.xk, ← hctr, h0, roundto_zero]
      · intro _; exact startDir_or _ _
      · intro hsv
        have hx : s.x (p.K - 1) = (prepare p).1.x (p.K - 1) := by
          rw [hxx, if_neg (by rw [show (prepare p).1.svp = false from hsv]; simp)]
        rw [hx, hB.xk, hctr, abs_sub_comm]; exact roundto_spec _
      · intro _; exact startDir_sign _ _
    · intro l _; exact le_rfl
  · intro hsv
    have h0 : s.center (p.K - 1) = 0 := by
      rw [hctr]; exact (hT.svp0 hsv).2 (p.K - 1) (by change _ < p.K; omega)
    rw [hxx, if_pos (show (prepare p).1.svp = true from hsv)]
    simp only [setAt, Input.lo]
    by_cases hK1 : p.K = 1
    · rw [if_pos (by omega), if_pos hK1]
    · rw [if_neg (by omega), if_neg hK1, hB.xk, ← hctr, h0, roundto_zero]

end Enum
end Fplll

import Verif.Proofs.EnumReset
import Verif.Proofs.CVP

/-!
# The enumeration with resets finds a vector close to the target
-/

open Finset

namespace Fplll
namespace Enum

/-- an enumeration of `closest_vector` with the proved method: the outermost one (`subtree` empty) or a nested one -/
structure CvpIn (p : Input) : Prop where
  fl : p.fl = id
  tgt : p.target ≠ none
  prune : p.pruning = none
  dual : p.dual = false
  subs : p.findsubsols = false
  rpos : ∀ i, i < p.d → 0 < p.r i
  sublen : p.subtree.length < p.d
  rs : p.subtreeReset = true ∨ p.subtree = []

theorem CvpIn.ok {p : Input} (h : CvpIn p) : p.OK where
  rnd := by rw [h.fl]; exact Rnd.id
  mrep := by rw [h.fl]; rfl
  rpos := h.rpos
  sublen := h.sublen
  dualOK hd := by rw [h.dual] at hd; cases hd
  prune k _ := by
    unfold setBounds
    rw [show p.full.pruning = none from h.prune]

theorem CvpIn.rdiag {p : Input} (h : CvpIn p) : p.rdiag = p.r := by
  funext i
  simp [Input.rdiag, h.dual, h.fl]

theorem CvpIn.tree {p : Input} (h : CvpIn p) (hB : PhaseB p (prepare p).1) : CvpTree p.cfg (p.pre p.K) where
  tree := tree_ok h.ok hB
  svp := by
    change (prepare p).1.svp = false
    rw [← Bool.not_eq_true]
    exact fun hs => h.tgt (hB.svp.1 hs).1
  subs := h.subs
  prune := h.prune

/-- squared length of the part of the levels `a, …, b-1` -/
def levels (p : Input) (v : ℕ → ℤ) (a b : ℕ) : ℚ := ∑ j ∈ Ico a b, al p.full v j * al p.full v j * p.rdiag j

theorem CvpIn.dist {p : Input} (h : CvpIn p) (v : ℕ → ℤ) (k : ℕ) : p.dist v k = levels p v k p.K := by
  rw [Input.dist_exact h.fl]
  unfold levels
  rcases h.rs with hs | hs
  · rw [hs, if_pos rfl]
  · have : p.K = p.d := by simp [Input.K, hs]
    rw [this]; split_ifs <;> rfl

theorem CvpIn.pd {p : Input} (h : CvpIn p) (hB : PhaseB p (prepare p).1) {v : ℕ → ℤ} (hv : p.Agrees v) {k : ℕ}
    (hk : k ≤ p.K) : Enum.pd p.cfg (p.pre p.K) v k = levels p v k p.K := by
  rw [pd_full h.ok hB v hv k hk, h.dist]

theorem levels_split {p : Input} (v : ℕ → ℤ) {a b e : ℕ} (h1 : a ≤ b) (h2 : b ≤ e) :
    levels p v a b + levels p v b e = levels p v a e := by
  unfold levels
  exact Finset.sum_Ico_consecutive _ h1 h2

theorem levels_congr {p : Input} {v w : ℕ → ℤ} {a b : ℕ} (hb : b ≤ p.d) (h : ∀ j, a ≤ j → j < p.d → v j = w j) :
    levels p v a b = levels p w a b := by
  unfold levels
  refine Finset.sum_congr rfl (fun j hj => ?_)
  rw [mem_Ico] at hj
  rw [al_congr p.full v w j (fun l hl hld => h l (by omega) hld) (show j < p.d by omega)]

theorem levels_nonneg {p : Input} (h : CvpIn p) (v : ℕ → ℤ) {a b : ℕ} (hb : b ≤ p.d) : 0 ≤ levels p v a b := by
  unfold levels
  refine Finset.sum_nonneg (fun j hj => ?_)
  rw [mem_Ico] at hj
  exact mul_nonneg (mul_self_nonneg _) (by rw [h.rdiag]; exact (h.rpos j (by omega)).le)

/-! ## The nested problem -/

section nested
variable {σ : Type} {p : Input} (h : CvpIn p) {s : St σ} {m : ℕ} (hm : m + 1 ≤ p.K)
include h hm

theorem reset_K : (resetInput p s m).K = m + 1 := by
  have := p.K_le
  simp [resetInput, Input.K]
  omega

omit hm in
theorem reset_full : (resetInput p s m).full = p.full := by
  obtain ⟨-, -, -, hd, hs, -, -, -⟩ := h
  cases p
  simp only at hd hs
  subst hd hs
  rfl

omit hm in
theorem reset_rdiag : (resetInput p s m).rdiag = p.rdiag := by
  obtain ⟨-, -, -, hd, -, -, -, -⟩ := h
  cases p
  simp only at hd
  subst hd
  rfl

omit hm in
theorem reset_levels (v : ℕ → ℤ) (a b : ℕ) : levels (resetInput p s m) v a b = levels p v a b := by
  unfold levels
  rw [reset_full h, reset_rdiag h]

theorem reset_agrees (v : ℕ → ℤ) : (resetInput p s m).Agrees v ↔ ∀ j, m < j → j < p.d → v j = s.x j := by
  have hsub : ∀ j, m < j → j < p.d → (resetInput p s m).sub j = s.x j := by
    intro j h1 h2
    unfold Input.sub
    rw [reset_K h hm]
    have hl : j - (m + 1) < p.d - m - 1 := by omega
    simp only [resetInput, List.getD_eq_getElem?_getD, List.getElem?_map, List.getElem?_range hl, Option.map_some,
      Option.getD_some]
    congr 1
    omega
  unfold Input.Agrees
  rw [reset_K h hm]
  constructor
  · intro hv j h1 h2
    rw [hv j h1 h2, hsub j h1 h2]
  · intro hv j h1 h2
    rw [hv j h1 h2, hsub j h1 h2]

theorem reset_in : CvpIn (resetInput p s m) where
  fl := h.fl
  tgt := h.tgt
  prune := h.prune
  dual := rfl
  subs := rfl
  rpos := h.rpos
  sublen := by
    have := p.K_le
    simp [resetInput]
    omega
  rs := .inl rfl

omit h hm in
theorem reset_maxdist : (resetInput p s m).maxdist = ∑ i ∈ range (m + 1), p.r i :=
  forUp_inv (P := fun k a => a = ∑ i ∈ range k, p.r i) (fun i a => a + p.r i) (Nat.zero_le (m + 1)) 0 (by simp)
    (by intro i a _ _ ha; rw [ha, Finset.sum_range_succ])

end nested

/-! ## Results -/

/-- exactly one vector was found; it is no further from the target than reported, and what is reported is within `ε` of
the distance of every vector -/
def Near (p : Input) (ε : ℚ) (t : St EvSt) : Prop :=
  ∃ q, t.ev.sols = [q] ∧ p.Agrees q.2 ∧ p.dist q.2 0 ≤ q.1 ∧ ∀ v, p.Agrees v → q.1 ≤ p.dist v 0 + ε

/-- invariant of the evaluator -/
def CvpInv (p : Input) (e : EvSt) (md : ℚ) : Prop :=
  (e.sols = [] ∧ md = p.maxdist) ∨ ∃ q, e.sols = [q] ∧ md = q.1 ∧ p.Agrees q.2 ∧ p.dist q.2 0 ≤ q.1

theorem cvp_eval {p : Input} {e : EvSt} {md d : ℚ} (x : ℕ → ℤ) (h : CvpInv p e md) (hd : d ≤ md) :
    ((fastEval 1 .best).evalSol e x d md).1.sols = [(d, x)] ∧ ((fastEval 1 .best).evalSol e x d md).2 = d := by
  rcases h with ⟨h1, -⟩ | ⟨q, h1, h2, -⟩
  · simp [fastEval, processSol, h1, emplace]
  · have : q.1 ≥ d := by rw [← h2]; exact hd
    simp [fastEval, processSol, h1, emplace, this]

theorem resetF_ok {p : Input} (h : CvpIn p) (hB : PhaseB p (prepare p).1) {m : ℕ} (hm : m + 1 ≤ p.K)
    {nested : Input → Option (St EvSt)} {ε' δ ε : ℚ} (hε : ε' + δ ≤ ε) {X : ℕ → ℤ} (hXa : p.Agrees X)
    (hn : ∀ s : St EvSt, ∃ t, nested (resetInput p s m) = some t ∧ Near (resetInput p s m) ε' t) :
    ResetOK p.cfg (p.pre p.K) (CvpInv p) (fun v => p.dist v 0 + ε) X (resetF p p.cfg (fastEval 1 .best) nested) m δ := by
  intro s nd hI hX hbnd h1 h2
  have hKd := p.K_le
  have hag : p.Agrees s.x := fun j hj hjd => by rw [hX j hj]; exact hXa j hj hjd
  have hb0 : s.bounds 0 = s.maxdist := by rw [hbnd, (h.tree hB).bnd]
  rw [h.pd hB hag hm] at h1 h2
  obtain ⟨t, ht, w, hw1, hw2, hw3, hw4⟩ := hn s
  rw [reset_agrees h hm] at hw2
  rw [(reset_in h hm).dist, reset_levels h, reset_K h hm] at hw3
  have hlow : ∀ v : ℕ → ℤ, (∀ j, m < j → v j = s.x j) → w.1 + nd ≤ p.dist v 0 + ε := by
    intro v hv
    have h3 := hw4 v ((reset_agrees h hm v).2 (fun j hj _ => hv j hj))
    rw [(reset_in h hm).dist, reset_levels h, reset_K h hm] at h3
    rw [h.dist, ← levels_split v (Nat.zero_le (m + 1)) hm,
      levels_congr (a := m + 1) hKd (fun j hj _ => hv j hj)]
    linarith
  unfold resetF
  rw [ht]
  simp only [hw1, List.reverse_singleton, List.head?_cons]
  by_cases hlt : w.1 + nd < s.bounds 0
  · rw [if_pos hlt]
    rw [hb0] at hlt
    obtain ⟨e1, e2⟩ := cvp_eval (fun i => if i < m + 1 then w.2 i else s.x i) hI hlt.le
    refine ⟨_, rfl, ⟨?_, rfl, rfl, rfl, rfl, rfl, rfl, rfl, rfl, rfl⟩, .inr ⟨_, e1, e2, ?_, ?_⟩, ?_, ?_⟩
    · intro j hj
      simp only [processSolution]
      rw [if_neg (by omega)]
    · intro j hj hjd
      dsimp only
      rw [if_neg (by omega)]
      exact hag j hj hjd
    · dsimp only
      rw [h.dist, ← levels_split _ (Nat.zero_le (m + 1)) hm]
      rw [levels_congr (v := fun i => if i < m + 1 then w.2 i else s.x i) (w := w.2) (a := 0) (by omega)
          (fun j _ hjd => by
            split_ifs with hjm
            · rfl
            · exact (hw2 j (by omega) hjd).symm),
        levels_congr (v := fun i => if i < m + 1 then w.2 i else s.x i) (w := s.x) (a := m + 1) hKd
          (fun j hj _ => by
            rw [if_neg (by omega)])]
      linarith
    · change ((fastEval 1 .best).evalSol _ _ _ _).2 ≤ _
      rw [e2]; exact hlt.le
    · intro v hv
      change ((fastEval 1 .best).evalSol _ _ _ _).2 ≤ _
      rw [e2]; exact hlow v hv
  · rw [if_neg hlt]
    rw [hb0, not_lt] at hlt
    exact ⟨s, rfl, ⟨fun _ _ => rfl, rfl, rfl, rfl, rfl, rfl, rfl, rfl, rfl, hbnd⟩, hI, le_rfl,
      fun v hv => hlt.trans (hlow v hv)⟩

/-- Babai's vector: within half a unit of every centre -/
theorem babai_exists {p : Input} (h : CvpIn p) (X : ℕ → ℤ) : ∀ n ≤ p.K, ∃ v : ℕ → ℤ, (∀ j, p.K ≤ j → v j = X j) ∧
    levels p v (p.K - n) p.K ≤ 1 / 4 * ∑ j ∈ Ico (p.K - n) p.K, p.r j := by
  intro n
  induction n with
  | zero => intro _; exact ⟨X, fun _ _ => rfl, by simp [levels]⟩
  | succ n ih =>
    intro hn
    obtain ⟨v, hv1, hv2⟩ := ih (by omega)
    have hKd := p.K_le
    have hk : p.K - n = p.K - (n + 1) + 1 := by omega
    set k := p.K - (n + 1) with hkdef
    rw [hk] at hv2
    refine ⟨setAt v k (roundto (cen p.full v k)), fun j hj => ?_, ?_⟩
    · simp only [setAt]; rw [if_neg (by omega)]; exact hv1 j hj
    · have hkK : k < p.K := by omega
      rw [Finset.sum_eq_sum_Ico_succ_bot hkK, mul_add]
      have h1 : levels p (setAt v k (roundto (cen p.full v k))) k p.K =
          al p.full (setAt v k (roundto (cen p.full v k))) k * al p.full (setAt v k (roundto (cen p.full v k))) k * p.r k +
          levels p v (k + 1) p.K := by
        have h2 : levels p v (k + 1) p.K = levels p (setAt v k (roundto (cen p.full v k))) (k + 1) p.K := by
          refine levels_congr hKd (fun j hj _ => ?_)
          simp only [setAt]; rw [if_neg (by omega)]
        rw [h2]
        unfold levels
        rw [Finset.sum_eq_sum_Ico_succ_bot hkK, h.rdiag]
      have h3 : al p.full (setAt v k (roundto (cen p.full v k))) k = roundto (cen p.full v k) - cen p.full v k := by
        unfold al
        have hcc : cen p.full (setAt v k (roundto (cen p.full v k))) k = cen p.full v k :=
          cen_congr p.full _ v k (fun j hj _ => by simp only [setAt]; rw [if_neg (by omega)])
        rw [hcc]
        change p.fl _ = _
        rw [h.fl]
        simp [setAt]
      have h4 := roundto_spec (cen p.full v k)
      rw [abs_le] at h4
      rw [h1, h3]
      have h5 := h.rpos k (by omega)
      have h6 : ((roundto (cen p.full v k) : ℚ) - cen p.full v k) * ((roundto (cen p.full v k) : ℚ) - cen p.full v k) ≤ 1 / 4 := by
        nlinarith
      have h7 := mul_le_mul_of_nonneg_right h6 h5.le
      linarith

/-- `max_indices[k] ≤ k` -/
theorem maxScan_le (r : ℕ → ℚ) {prev mx : ℕ} (h : mx ≤ prev) : maxScan r prev mx ≤ prev ∧ (prev ≤ mx + 1 → maxScan r prev mx ≤ mx) := by
  unfold maxScan
  refine forDown_inv' (fun w : ℚ × ℕ => w.2 ≤ prev ∧ (prev ≤ mx + 1 → w.2 ≤ mx)) _ _ _ _ ⟨h, fun _ => le_rfl⟩ ?_
  intro j w h1 h2 hw
  split_ifs
  · exact ⟨h2.le, fun h3 => by dsimp only; omega⟩
  · exact hw

theorem maxLoop_le (r : ℕ → ℚ) (n : ℕ) : ∀ (prev mx : ℕ) (f : ℕ → ℕ), mx ≤ prev → (∀ k, f k ≤ k) →
    ∀ k, maxLoop r n prev mx f k ≤ k := by
  induction n with
  | zero => intro _ _ f _ hf; exact hf
  | succ n ih =>
    intro prev mx f hm hf
    rw [maxLoop]
    split_ifs
    · refine ih _ _ _ (by omega) (fun k => ?_)
      simp only [setAt]
      split_ifs with h1 h2
      · omega
      · omega
      · exact hf k
    · exact hf

theorem maxIndices_le (d : ℕ) (r : ℕ → ℚ) (k : ℕ) : maxIndices d r k ≤ k :=
  maxLoop_le r d _ _ _ le_rfl (fun _ => Nat.zero_le _) k

/-- how much the reported distance of an enumeration of `K` levels may exceed the smallest one: nothing in the
iterative build -/
def slack (recB : Bool) (r : ℕ → ℚ) (K : ℕ) : ℚ := if recB then 1 / 4 * ∑ i ∈ Ico 1 (K - 1), r i else 0

theorem steps_mono (F : ℕ) (hF : 1 ≤ F) {k l : ℕ} (h : k ≤ l) : steps F k ≤ steps F l := by
  induction l, h using Nat.le_induction with
  | base => exact le_rfl
  | succ l _ ih =>
    refine ih.trans ?_
    simp only [steps]
    nlinarith

/-- **The enumeration with resets**, both builds. -/
theorem enumReset_ok {recB : Bool} {mi : ℕ → ℕ} (hmi : ∀ k, mi k ≤ k) {d F fuel : ℕ} {r : ℕ → ℚ}
    (hF : ∀ k, k < d → ∑ i ∈ range d, r i < ((F : ℚ) / 8) * ((F : ℚ) / 8) * r k) (hfF : F ≤ fuel)
    (hfI : recB = false → steps F d + 1 ≤ fuel) : ∀ (n : ℕ) (p : Input), CvpIn p → p.d = d → p.r = r → p.K ≤ n →
      1 / 4 * (∑ i ∈ range p.K, r i) + slack recB r p.K < p.maxdist → p.maxdist ≤ ∑ i ∈ range d, r i →
      ∃ t, enumReset recB mi fuel n p = some t ∧ Near p (slack recB r p.K) t := by
  intro n
  induction n with
  | zero =>
    intro p h _ _ hK
    have := h.ok.K_pos
    omega
  | succ n ih =>
    intro p h hd hr hK hlo hhi
    have hKp := h.ok.K_pos
    have hKd := p.K_le
    have hrpos : ∀ i, i < d → 0 < r i := fun i hi => by rw [← hr]; exact h.rpos i (by omega)
    have hslack : ∀ K ≤ d + 1, 0 ≤ slack recB r K := by
      intro K hK
      unfold slack
      split_ifs
      · refine mul_nonneg (by norm_num) (Finset.sum_nonneg (fun i hi => ?_))
        rw [mem_Ico] at hi
        exact (hrpos i (by omega)).le
      · exact le_rfl
    have hsum : ∀ K ≤ d, 0 ≤ ∑ i ∈ range K, r i := fun K hK =>
      Finset.sum_nonneg (fun i hi => by rw [mem_range] at hi; exact (hrpos i (by omega)).le)
    have hmd : 0 < p.maxdist := by
      have := hslack p.K (by omega)
      have := hsum p.K (by omega)
      linarith
    -- the walk starts
    have hprep : (prepare p).2 < p.K ∧ PhaseB p (prepare p).1 := by
      rcases prepare_spec h.ok with ⟨-, m, h1, h2⟩ | h1
      · exfalso
        have : p.pre m = 0 := by
          unfold Input.pre
          rcases h.rs with hs | hs
          · rw [if_pos hs]
          · split_ifs
            · rfl
            · have : p.K = p.d := by simp [Input.K, hs]
              exact forDown_empty (by omega) _ _
        linarith
      · exact h1
    obtain ⟨hk, hB⟩ := hprep
    have hC := h.tree hB
    have hI0 : CvpInv p EvSt.new p.maxdist := .inl ⟨rfl, rfl⟩
    obtain ⟨x0, sd, hi, -⟩ := start_inv h.ok hB EvSt.new hI0 (prepare p).2
    rw [hC.svp] at hi
    set s := loopInit p.cfg (p.start EvSt.new) (prepare p).2 with hs
    have hXa : p.Agrees s.x := by
      intro j h1 h2
      have hx : s.x = if (prepare p).1.svp then setAt (prepare p).1.x 0 1 else (prepare p).1.x := rfl
      rw [hx, show (prepare p).1.svp = false from hC.svp]
      exact hB.x j h1 h2
    have hgood : ∀ v : ℕ → ℤ, (∀ j, p.K ≤ j → v j = s.x j) → p.Agrees v := fun v hv j h1 h2 => by
      rw [hv j h1]; exact hXa j h1 h2
    set ε := slack recB r p.K with hε
    have hε0 : 0 ≤ ε := hslack _ (by omega)
    have hρ : ∀ v : ℕ → ℤ, (∀ j, p.cfg.K ≤ j → v j = s.x j) → ∀ k ≤ p.cfg.K,
        pd p.cfg (p.pre p.K) v k ≤ p.dist v 0 + ε := by
      intro v hv k hk
      have h1 := hC.tree.pd_anti v (Nat.zero_le k) hk
      rw [h.pd hB (hgood v hv) (Nat.zero_le _), ← h.dist] at h1
      linarith
    have hleaf : ∀ e md (x : ℕ → ℤ), CvpInv p e md → (∀ j, p.cfg.K ≤ j → x j = s.x j) → pd p.cfg (p.pre p.K) x 0 ≤ md →
        CvpInv p ((fastEval 1 .best).evalSol e x (pd p.cfg (p.pre p.K) x 0) md).1
          ((fastEval 1 .best).evalSol e x (pd p.cfg (p.pre p.K) x 0) md).2 ∧
        ((fastEval 1 .best).evalSol e x (pd p.cfg (p.pre p.K) x 0) md).2 ≤ md ∧
        ((fastEval 1 .best).evalSol e x (pd p.cfg (p.pre p.K) x 0) md).2 ≤ p.dist x 0 + ε := by
      intro e md x hIe hx hle
      obtain ⟨e1, e2⟩ := cvp_eval x hIe hle
      have hag := hgood x hx
      refine ⟨.inr ⟨_, e1, e2, hag, ?_⟩, by rw [e2]; exact hle, by rw [e2]; exact hρ x hx 0 (Nat.zero_le _)⟩
      dsimp only
      rw [h.pd hB hag (Nat.zero_le _), h.dist]
    have hEn : Enough p.cfg s.bounds F := by
      intro k hk
      have : s.bounds k = p.maxdist := by
        change setBounds p.cfg p.maxdist k = _
        rw [hC.bnd]
      rw [this]
      change p.maxdist < _ * p.rdiag k
      rw [h.rdiag, hr]
      have hk' : k < p.K := hk
      exact hhi.trans_lt (hF k (by omega))
    set rd := mi (p.d - p.subtree.length - 1) with hrd
    have hrdK : rd ≤ p.K - 1 := hmi _
    -- the nested problems
    have hnest : ∀ m, m + 1 = rd → ∀ u : St EvSt, ∃ t, enumReset recB mi fuel n (resetInput p u m) = some t ∧
        Near (resetInput p u m) (slack recB r rd) t := by
      intro m hm u
      have hm' : m + 1 ≤ p.K := by omega
      have hK' := reset_K h (s := u) hm'
      have := ih (resetInput p u m) (reset_in h hm') hd hr (by rw [hK']; omega)
      rw [hK', hm, reset_maxdist, hm, hr] at this
      refine this ?_ ?_
      · -- radius
        have h1 : ∑ i ∈ Ico 1 (rd - 1), r i ≤ ∑ i ∈ range rd, r i := by
          refine Finset.sum_le_sum_of_subset_of_nonneg ?_ ?_
          · intro i hi
            rw [mem_Ico] at hi
            rw [mem_range]; omega
          · intro i hi _
            rw [mem_range] at hi
            exact (hrpos i (by omega)).le
        have h2 : 0 < ∑ i ∈ range rd, r i :=
          Finset.sum_pos (fun i hi => by rw [mem_range] at hi; exact hrpos i (by omega)) ⟨0, by rw [mem_range]; omega⟩
        unfold slack
        split_ifs <;> linarith
      · refine Finset.sum_le_sum_of_subset_of_nonneg ?_ ?_
        · intro i hi
          rw [mem_range] at hi ⊢; omega
        · intro i hi _
          rw [mem_range] at hi
          exact (hrpos i (by omega)).le
    -- conclusion from the state after the walk
    have hfin : ∀ t : St EvSt, LOut p.cfg (p.pre p.K) (CvpInv p) (fun v => p.dist v 0 + ε) (p.K - 1) (fun _ => True) s t →
        Near p ε t := by
      intro t o
      have hall : ∀ v, p.Agrees v → t.maxdist ≤ p.dist v 0 + ε := by
        intro v hv
        have h1 := o.done (fun j => if j < p.K then v j else s.x j) (fun j hj => by
          rw [if_neg (by omega)]) trivial
        refine h1.trans (le_of_eq ?_)
        rw [h.dist, h.dist, levels_congr hKd (fun j _ hjd => ?_)]
        split_ifs with hj
        · rfl
        · rw [hXa j (by omega) hjd, hv j (by omega) hjd]
      rcases o.inv with ⟨h1, h2⟩ | ⟨q, h1, h2, h3, h4⟩
      · exfalso
        obtain ⟨v, hv1, hv2⟩ := babai_exists h s.x p.K le_rfl
        have h5 := hall v (hgood v hv1)
        rw [h.dist] at h5
        rw [Nat.sub_self, ← Finset.range_eq_Ico, hr] at hv2
        linarith
      · exact ⟨q, h1, h3, h4, fun v hv => by rw [← h2]; exact hall v hv⟩
    have hKc : p.cfg.K = p.K := rfl
    rw [enumReset]
    rw [if_neg (show ¬ (prepare p).2 ≥ p.cfg.K by rw [hKc]; omega)]
    cases recB with
    | true =>
      rw [if_pos rfl]
      obtain ⟨t, ht, o⟩ := recursiveR_ok (E := fastEval 1 .best) (rd := rd) (X := s.x)
        (rst := resetF p p.cfg (fastEval 1 .best) (enumReset true mi fuel n)) hC h.fl hρ (fun _ => hleaf)
        (fun m hm0 hm => resetF_ok h hB (by omega) (ε' := slack true r rd) (by
          have h1 : p.cfg.rdiag m = r m := by change p.rdiag m = _; rw [h.rdiag, hr]
          rw [h1, hε]
          unfold slack
          rw [if_pos rfl, if_pos rfl]
          have h2 : ∑ i ∈ Ico 1 (rd - 1), r i + r m = ∑ i ∈ Ico 1 rd, r i := by
            rw [← hm, Nat.add_sub_cancel, Finset.sum_Ico_succ_top (by omega)]
          have h3 : ∑ i ∈ Ico 1 rd, r i ≤ ∑ i ∈ Ico 1 (p.K - 1), r i := by
            refine Finset.sum_le_sum_of_subset_of_nonneg (Finset.Ico_subset_Ico_right hrdK) (fun i hi _ => ?_)
            rw [mem_Ico] at hi
            exact (hrpos i (by omega)).le
          linarith) hXa (hnest m hm))
        (p.K - 1) (by omega) x0 sd s hi (hEn.mono_fuel (fun k hk => hC.tree.rpos k hk) hfF) (fun _ _ => rfl)
      refine ⟨t, ?_, hfin t o⟩
      rw [← ht]
      congr 1
      rw [hKc]; omega
    | false =>
      rw [if_neg (by simp)]
      obtain ⟨t, n', hn', hre, hf, o⟩ := iterateR_ok (E := fastEval 1 .best) (rd := rd) (X := s.x)
        (rst := resetF p p.cfg (fastEval 1 .best) (enumReset false mi fuel n)) hC hρ (fun _ => hleaf)
        (fun m hm => resetF_ok h hB (by omega) (ε' := slack false r rd) (by
          rw [hε]; simp [slack]) hXa (hnest m hm))
        (p.K - 1) (by omega) x0 sd s hi hEn (fun _ _ => rfl)
      refine ⟨t, ?_, hfin t o⟩
      have hF1 : 1 ≤ F := by
        by_contra hcon
        have h0 : F = 0 := by omega
        have h1 := hF 0 (by omega)
        rw [h0] at h1
        have h2 := hsum d le_rfl
        simp at h1
        linarith
      have hfu := hfI rfl
      have hst := steps_mono F hF1 (show p.K - 1 ≤ d by omega)
      obtain ⟨g, hg⟩ : ∃ g, fuel = n' + (g + 1) := ⟨fuel - n' - 1, by omega⟩
      have hend : loopStepR p.cfg (fastEval 1 .best) rd (resetF p p.cfg (fastEval 1 .best) (enumReset false mi fuel n)) t
          (p.K - 1) = some (t, none) := by
        unfold loopStepR
        rw [if_neg hf]
        unfold loopStep
        rw [if_neg hf]
        have hp : t.partdist p.K = 0 := by
          rw [o.frame.partdist p.K (by omega)]
          change setAt (prepare p).1.partdist p.K 0 p.K = 0
          simp [setAt]
        have h9 : nextPosUp p.cfg t (p.K - 1 + 1) = none := by
          unfold nextPosUp
          rw [show p.K - 1 + 1 = p.K by omega, if_neg (by rw [hp]; simp), if_pos (show p.K ≥ p.cfg.K from le_rfl)]
        rw [h9]
      have := hre (g + 1)
      rw [← hg] at this
      rw [hKc]
      refine this.trans ?_
      rw [iterateR, hend]

end Enum
end Fplll

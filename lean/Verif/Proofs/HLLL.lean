import Verif.Model.HLLL
import Verif.Proofs.GSO
import Verif.Proofs.Wrapper

/-!
# HLLL: the integer part (any floats)
-/

namespace Fplll

open Spec GSO

/-- the integer part of the state of `MatHouseholder` -/
structure HInt where
  d : ℕ
  n : ℕ
  withU : Bool
  withUinv : Bool
  b : Mat ℤ
  u : Mat ℤ
  uInvT : Mat ℤ
  initRowSize : ℕ → ℕ
  nKnownCols : ℕ

namespace HInt

/-- the first `m` rows are zero from column `nKnownCols` on, the others from their initial size on -/
structure WF (m : ℕ) (s : HInt) : Prop where
  cols_le : s.nKnownCols ≤ s.n
  init_le : ∀ r < s.d, s.initRowSize r ≤ s.n
  known : ∀ r < m, r < s.d → ∀ c, s.nKnownCols ≤ c → c < s.n → s.b r c = 0
  fresh : ∀ r, m ≤ r → r < s.d → ∀ c, s.initRowSize r ≤ c → c < s.n → s.b r c = 0

/-- `b`, `u` and `u_inv_t` are multiplied by a unimodular matrix and its inverse transpose -/
structure Uni (s s' : HInt) : Prop where
  d : s'.d = s.d
  n : s'.n = s.n
  withU : s'.withU = s.withU
  withUinv : s'.withUinv = s.withUinv
  uni : ∃ T T' : Matrix (Fin s.d) (Fin s.d) ℤ, T * T' = 1 ∧ T' * T = 1 ∧
    toM s.d s.n s'.b = T * toM s.d s.n s.b ∧
    (s.withU = true → toM s.d s.d s'.u = T * toM s.d s.d s.u) ∧
    (s.withU = true → s.withUinv = true → toM s.d s.d s'.uInvT = T'.transpose * toM s.d s.d s.uInvT)

theorem Uni.refl (s : HInt) : Uni s s :=
  ⟨rfl, rfl, rfl, rfl, 1, 1, by simp, by simp, by simp, fun _ => by simp, fun _ _ => by simp⟩

theorem Uni.trans {s t v : HInt} (h1 : Uni s t) (h2 : Uni t v) : Uni s v := by
  obtain ⟨d, n, withU, withUinv, b, u, w, _, _⟩ := t
  obtain ⟨h_d, h_n, h_u, h_v, T1, T1', a1, a2, a3, a4, a5⟩ := h1
  dsimp at h_d h_n h_u h_v
  subst h_d h_n h_u h_v
  obtain ⟨k_d, k_n, k_u, k_v, T2, T2', c1, c2, c3, c4, c5⟩ := h2
  dsimp at a3 a4 a5 c3 c4 c5 T2 T2' c1 c2
  refine ⟨k_d, k_n, k_u, k_v, T2 * T1, T1' * T2', ?_, ?_, ?_, ?_, ?_⟩
  · rw [Matrix.mul_assoc, ← Matrix.mul_assoc T1, a1, Matrix.one_mul, c1]
  · rw [Matrix.mul_assoc, ← Matrix.mul_assoc T2', c2, Matrix.one_mul, a2]
  · rw [c3, a3, Matrix.mul_assoc]
  · intro h; rw [c4 h, a4 h, Matrix.mul_assoc]
  · intro h h'; rw [c5 h h', a5 h h', Matrix.transpose_mul, Matrix.mul_assoc]

/-- an operation on the integer part: the invariant and the relation to the previous state -/
structure Good (m m' : ℕ) (s s' : HInt) : Prop where
  wf : WF m' s'
  uni : Uni s s'

theorem Good.trans {m1 m2 m3 : ℕ} {s t v : HInt} (h1 : Good m1 m2 s t) (h2 : Good m2 m3 t v) : Good m1 m3 s v :=
  ⟨h2.wf, h1.uni.trans h2.uni⟩

theorem Good.refl {m : ℕ} {s : HInt} (h : WF m s) : Good m m s s := ⟨h, .refl s⟩

/-- adding `x` times row `j` to row `i` -/
theorem good_addRow {m : ℕ} {s : HInt} (hs : WF m s) {i j : ℕ} (hi : i < m) (hj : j < m) (hid : i < s.d) (hjd : j < s.d)
    (hij : i ≠ j) (x : ℤ) {b' u' v' : Mat ℤ}
    (hb : ∀ k c, b' k c = if k = i ∧ c < s.nKnownCols then s.b i c + x * s.b j c else s.b k c)
    (hu : s.withU = true → ∀ k c, u' k c = if k = i ∧ c < s.d then s.u i c + x * s.u j c else s.u k c)
    (hv : s.withU = true → s.withUinv = true → ∀ k c,
      v' k c = if k = j ∧ c < s.d then s.uInvT j c - x * s.uInvT i c else s.uInvT k c) :
    Good m m s { s with b := b', u := u', uInvT := v' } := by
  have hb' : ∀ k c, c < s.n → b' k c = s.b k c + if k = i then x * s.b j c else 0 := by
    intro k c hc
    rw [hb]
    by_cases h : c < s.nKnownCols
    · by_cases hk : k = i
      · subst hk; simp [h]
      · simp [hk]
    · have := hs.known j hj hjd c (by omega) hc
      simp [h, this]
  refine ⟨⟨hs.cols_le, hs.init_le, ?_, ?_⟩, rfl, rfl, rfl, rfl, ?_⟩
  · intro r hr hrd c h1 h2
    dsimp only at *
    rw [hb' r c h2, hs.known r hr hrd c h1 h2, hs.known j hj hjd c h1 h2]; simp
  · intro r hr hrd c h1 h2
    dsimp only at *
    rw [hb' r c h2, hs.fresh r hr hrd c h1 h2, if_neg (by omega)]; simp
  · have hij' : (⟨i, hid⟩ : Fin s.d) ≠ ⟨j, hjd⟩ := by simpa using hij
    refine ⟨Matrix.transvection ⟨i, hid⟩ ⟨j, hjd⟩ x, Matrix.transvection ⟨i, hid⟩ ⟨j, hjd⟩ (-x),
      ?_, ?_, ?_, ?_, ?_⟩
    · rw [Matrix.transvection_mul_transvection_same _ _ hij']; simp
    · rw [Matrix.transvection_mul_transvection_same _ _ hij']; simp
    · exact transvection_toM s.d s.n s.b b' ⟨i, hid⟩ ⟨j, hjd⟩ x hb'
    · intro hU
      refine transvection_toM s.d s.d s.u u' ⟨i, hid⟩ ⟨j, hjd⟩ x ?_
      intro k c hc
      rw [hu hU]
      by_cases hk : k = i
      · subst hk; simp [hc]
      · simp [hk]
    · intro hU hV
      rw [transvection_transpose]
      refine transvection_toM s.d s.d s.uInvT v' ⟨j, hjd⟩ ⟨i, hid⟩ (-x) ?_
      intro k c hc
      rw [hv hU hV]
      by_cases hk : k = j
      · subst hk; simp [hc]; ring
      · simp [hk]

/-- swapping two known rows -/
theorem good_swap {m : ℕ} {s : HInt} (hs : WF m s) {i j : ℕ} (hi : i < m) (hj : j < m) (hid : i < s.d) (hjd : j < s.d)
    {u' v' : Mat ℤ} (hu : s.withU = true → u' = swapAt s.u i j)
    (hv : s.withU = true → s.withUinv = true → v' = swapAt s.uInvT i j) :
    Good m m s { s with b := swapAt s.b i j, u := u', uInvT := v', initRowSize := swapAt s.initRowSize i j } := by
  have hp : ∀ k, swapP i j k < s.d ↔ k < s.d := by intro k; unfold swapP; grind
  have hpp : ∀ k, swapP i j (swapP i j k) = k := by intro k; unfold swapP; grind
  have hpm : ∀ k, swapP i j k < m ↔ k < m := by intro k; unfold swapP; grind
  refine ⟨⟨hs.cols_le, ?_, ?_, ?_⟩, rfl, rfl, rfl, rfl, ?_⟩
  · intro r hr
    dsimp only at *
    rw [swapAt_eq]
    exact hs.init_le _ ((hp r).2 hr)
  · intro r hr hrd c h1 h2
    dsimp only at *
    rw [swapAt_eq]
    exact hs.known _ ((hpm r).2 hr) ((hp r).2 hrd) c h1 h2
  · intro r hr hrd c h1 h2
    dsimp only at *
    have : swapP i j r = r := by unfold swapP; grind
    rw [swapAt_eq] at h1 ⊢
    dsimp only at *
    rw [this] at h1 ⊢
    exact hs.fresh r hr hrd c h1 h2
  · refine ⟨permM s.d (swapP i j), permM s.d (swapP i j), permM_inv _ _ _ (fun k h => (hp k).2 h) (fun k _ => hpp k),
      permM_inv _ _ _ (fun k h => (hp k).2 h) (fun k _ => hpp k), ?_, ?_, ?_⟩
    · rw [permM_mul _ _ _ (fun k h => (hp k).2 h), swapAt_eq]
    · intro h; rw [permM_mul _ _ _ (fun k h => (hp k).2 h), ← swapAt_eq, ← hu h]
    · intro h h'
      rw [permM_transpose _ _ _ (fun k _ => hpp k) (fun k _ => hpp k), permM_mul _ _ _ (fun k h => (hp k).2 h), ← swapAt_eq, ← hv h h']

end HInt

namespace HH

variable {F : Type} [HFloat F]

/-- the integer part -/
abbrev ints (s : HH F) : HInt :=
  ⟨s.d, s.n, s.withU, s.withUinv, s.b, s.u, s.uInvT, s.initRowSize, s.nKnownCols⟩

open HInt

theorem updateRLast_ints (s : HH F) (i : ℕ) : (s.updateRLast i).ints = s.ints := by
  unfold updateRLast
  dsimp only
  split_ifs <;> rfl

omit [HFloat F] in
theorem forUp_ints (a b : ℕ) (f : ℕ → HH F → HH F) (hf : ∀ i s, (f i s).ints = s.ints) (s : HH F) :
    (forUp a b f s).ints = s.ints :=
  forUp_inv' (fun t => t.ints = s.ints) f a b s rfl (fun i t _ _ h => (hf i t).trans h)

theorem updateR_ints (s : HH F) (i : ℕ) (l : Bool) : (s.updateR i l).ints = s.ints := by
  have := forUp_ints 0 i (updateRStep i) (fun _ _ => rfl) s
  unfold updateR
  dsimp only
  split_ifs
  · rfl
  · rw [updateRLast_ints, this]
  · exact this

theorem refreshR_ints (s : HH F) (i : ℕ) : (s.refreshR i).ints = s.ints := rfl

omit [HFloat F] in
theorem recoverR_ints (s : HH F) (i : ℕ) : (s.recoverR i).ints = s.ints := rfl

theorem refreshRBf_ints (s : HH F) (i : ℕ) :
    (s.refreshRBf i).ints = { s.ints with nKnownCols := max s.nKnownCols (s.initRowSize i) } := rfl

/-- discovering row `m`, or refreshing a known row -/
theorem refreshRBf_good {m m' : ℕ} (s : HH F) (hs : WF m s.ints) {i : ℕ} (hi : i < s.d)
    (hm : i < m ∧ m' = m ∨ i = m ∧ m' = m + 1) : Good m m' s.ints (s.refreshRBf i).ints := by
  rw [refreshRBf_ints]
  have hinit := hs.init_le i hi
  have hmax : s.initRowSize i ≤ max s.nKnownCols (s.initRowSize i) := le_max_right _ _
  have hmax' : s.nKnownCols ≤ max s.nKnownCols (s.initRowSize i) := le_max_left _ _
  refine ⟨⟨max_le hs.cols_le hinit, hs.init_le, ?_, ?_⟩, rfl, rfl, rfl, rfl, (Uni.refl s.ints).uni⟩
  · intro r hr hrd c h1 h2
    dsimp only at *
    by_cases h : r < m
    · exact hs.known r h hrd c (hmax'.trans h1) h2
    · have : r = i := by omega
      subst this
      exact hs.fresh r (by omega) hrd c (hmax.trans h1) h2
  · intro r hr hrd c h1 h2
    exact hs.fresh r (by omega) hrd c h1 h2

omit [HFloat F] in
theorem track_ints (s : HH F) (i j : ℕ) (up dn : (ℕ → ℤ) → (ℕ → ℤ) → ℕ → ℤ) :
    (s.track i j up dn).ints = { s.ints with
      u := if s.withU then setAt s.u i (up (s.u i) (s.u j)) else s.u
      uInvT := if s.withU then (if s.withUinv then setAt s.uInvT j (dn (s.uInvT j) (s.uInvT i)) else s.uInvT)
        else s.uInvT } := by
  unfold track ints
  split_ifs <;> rfl

omit [HFloat F] in
theorem rowOp_good {m : ℕ} (s : HH F) (hs : WF m s.ints) {i j : ℕ} (hi : i < m) (hj : j < m) (hid : i < s.d)
    (hjd : j < s.d) (hij : i ≠ j) (x : ℤ) (vb : (ℕ → ℤ) → (ℕ → ℤ) → ℕ → ℤ) (up dn : (ℕ → ℤ) → (ℕ → ℤ) → ℕ → ℤ)
    (hvb : ∀ v w k, vb v w k = if k < s.nKnownCols then v k + x * w k else v k)
    (hup : ∀ v w k, up v w k = if k < s.d then v k + x * w k else v k)
    (hdn : ∀ v w k, dn v w k = if k < s.d then v k - x * w k else v k) :
    Good m m s.ints (({ s with b := setAt s.b i (vb (s.b i) (s.b j)) } : HH F).track i j up dn).ints := by
  rw [track_ints]
  refine good_addRow hs hi hj hid hjd hij x ?_ ?_ ?_
  · intro k c
    dsimp only [ints]
    rw [setAt_mat]
    by_cases hk : k = i
    · subst hk; rw [if_pos rfl, hvb]; simp
    · rw [if_neg hk, if_neg (by tauto)]
  · intro h k c
    dsimp only [ints] at *
    rw [if_pos h, setAt_mat]
    by_cases hk : k = i
    · subst hk; rw [if_pos rfl, hup]; simp
    · rw [if_neg hk, if_neg (by tauto)]
  · intro h h' k c
    dsimp only [ints] at *
    rw [if_pos h, if_pos h', setAt_mat]
    by_cases hk : k = j
    · subst hk; rw [if_pos rfl, hdn]; simp
    · rw [if_neg hk, if_neg (by tauto)]

theorem rowAddmulWeZ_good {m : ℕ} (s : HH F) (hs : WF m s.ints) {i j : ℕ} (hi : i < m) (hj : j < m) (hid : i < s.d)
    (hjd : j < s.d) (hij : i ≠ j) (x : F) (e : ℤ) : Good m m s.ints (s.rowAddmulWeZ i j x e).ints := by
  have h2e : ∀ (y : ℤ) (p : ℕ), Good m m s.ints (s.rowAddmul2exp i j y p).ints := fun y p => by
    unfold rowAddmul2exp
    refine rowOp_good s hs hi hj hid hjd hij (y * 2 ^ p) (fun v w => vecAddmul2exp s.nKnownCols v w y p) _ _ ?_ ?_ ?_ <;>
      intro v w k
    · rw [vecAddmul2exp_apply]; split_ifs <;> ring
    · rw [vecAddmul2exp_apply]; dsimp only; split_ifs <;> ring
    · rw [vecAddmul2exp_apply]; dsimp only; split_ifs <;> ring
  unfold rowAddmulWeZ
  dsimp only
  split_ifs
  · unfold rowAdd
    refine rowOp_good s hs hi hj hid hjd hij 1 (vecAdd s.nKnownCols) _ _ ?_ ?_ ?_ <;> intro v w k
    · rw [vecAdd_apply]; split_ifs <;> ring
    · rw [vecAdd_apply]; dsimp only; split_ifs <;> ring
    · rw [vecSub_apply]; dsimp only; split_ifs <;> ring
  · unfold rowSub
    refine rowOp_good s hs hi hj hid hjd hij (-1) (vecSub s.nKnownCols) _ _ ?_ ?_ ?_ <;> intro v w k
    · rw [vecSub_apply]; split_ifs <;> ring
    · rw [vecSub_apply]; dsimp only; split_ifs <;> ring
    · rw [vecAdd_apply]; dsimp only; split_ifs <;> ring
  · unfold rowAddmulSi
    refine rowOp_good s hs hi hj hid hjd hij (HFloat.siExpWe x e).1
      (fun v w => vecAddmulSi s.nKnownCols v w (HFloat.siExpWe x e).1) _ _ ?_ ?_ ?_ <;> intro v w k
    · rw [vecAddmulSi_apply]; split_ifs <;> ring
    · rw [vecAddmulSi_apply]; dsimp only; split_ifs <;> ring
    · rw [vecAddmulSi_apply]; dsimp only; split_ifs <;> ring
  · exact .refl hs
  · exact h2e _ _
  · exact h2e _ _

theorem rowAddmulWe_good {m : ℕ} (s : HH F) (hs : WF m s.ints) {i j : ℕ} (hi : i < m) (hj : j < m) (hid : i < s.d)
    (hjd : j < s.d) (hij : i ≠ j) (x : F) (e : ℤ) : Good m m s.ints (s.rowAddmulWe i j x e).ints :=
  rowAddmulWeZ_good s hs hi hj hid hjd hij x e

theorem sizeReduce_good {m : ℕ} (s : HH F) (hs : WF m s.ints) {k : ℕ} (hk : k < m) (hkd : k < s.d) (stop start : ℕ)
    (hst : stop ≤ k) : Good m m s.ints (s.sizeReduce k stop start).2.ints := by
  unfold sizeReduce
  refine forDown_inv' (fun q : Bool × HH F => Good m m s.ints q.2.ints) (sizeReduceStep k) start stop (false, s)
    (.refl hs) ?_
  rintro i ⟨r, t⟩ - hi h
  dsimp only at h
  unfold sizeReduceStep
  dsimp only
  split_ifs
  · have : t.d = s.d := h.uni.d
    exact h.trans (rowAddmulWe_good t h.wf hk (by omega) (by omega) (by omega) (by omega) _ _)
  · exact h

omit [HFloat F] in
theorem swap_good {m : ℕ} (s : HH F) (hs : WF m s.ints) {i j : ℕ} (hi : i < m) (hj : j < m) (hid : i < s.d)
    (hjd : j < s.d) : Good m m s.ints (s.swap i j).ints := by
  refine good_swap hs hi hj hid hjd (fun h => ?_) (fun h h' => ?_)
  · exact if_pos h
  · change (if s.withU = true then _ else _) = _
    rw [if_pos (show s.withU = true from h)]; exact if_pos h'

end HH

namespace HL

open HInt HH

variable {F : Type} [HFloat F]

theorem sizeLoop_good {m : ℕ} {k : ℕ} (stop start : ℕ) (hst : stop ≤ k) (hk : k < m) (fuel : ℕ) (p : Bool) (s : HH F)
    (hs : WF m s.ints) (hkd : k < s.d) (s' : HH F) (h : sizeLoop k stop start fuel p s = some s') :
    Good m m s.ints s'.ints := by
  induction fuel generalizing p s with
  | zero => cases h
  | succ fuel ih =>
    have h1 := sizeReduce_good s hs hk hkd stop start hst
    rw [sizeLoop] at h
    generalize s.sizeReduce k stop start = q at *
    dsimp only at h
    by_cases hq : q.1 = false
    · rw [if_pos hq] at h
      cases h
      exact h1
    · rw [if_neg hq] at h
      have hd1 : q.2.d = s.d := h1.uni.d
      have h2 := h1.trans (refreshRBf_good q.2 h1.wf (i := k) (m' := m) (by omega) (.inl ⟨hk, rfl⟩))
      have h3 : Good m m s.ints ((q.2.refreshRBf k).updateR k false).ints := by
        rw [updateR_ints]; exact h2
      split_ifs at h
      · have hd3 : ((q.2.refreshRBf k).updateR k false).d = s.d := h3.uni.d
        exact h3.trans (ih _ _ h3.wf (by omega) h)
      · cases h; exact h3

theorem sizeReduction_good {m : ℕ} {k : ℕ} (stop start : ℕ) (hst : stop ≤ k) (hk : k < m) (fuel : ℕ) (s : HH F)
    (hs : WF m s.ints) (hkd : k < s.d) (s' : HH F) (h : sizeReduction fuel s k stop start = some s') :
    Good m m s.ints s'.ints := by
  have h1 : (({ s.updateR k false with updatedR := false } : HH F)).ints = s.ints := updateR_ints s k false
  have hd : (s.updateR k false).d = s.d := congrArg HInt.d (updateR_ints s k false)
  have h2 := sizeLoop_good stop start hst hk fuel true _ (by rw [h1]; exact hs) (by exact lt_of_lt_of_eq hkd hd.symm) s' h
  rwa [h1] at h2

/-- what a round of the main loop may do -/
def ResGood (s : HInt) (r : Res F) : Prop :=
  match r with
  | .next st => Good 0 (st.kMax + 1) s st.h.m.ints ∧ 1 ≤ st.k ∧ st.k ≤ st.kMax ∧ st.kMax < s.d
  | .done _ h => ∃ m, Good 0 m s h.m.ints
  | .ub => True
  | .outOfFuel h => ∃ m, Good 0 m s h.m.ints

theorem advance_good {s : HInt} (st : St F) (h : HL F) (hg : Good 0 (st.kMax + 1) s h.m.ints) 
    (hk : st.k ≤ st.kMax) (hm : st.kMax < s.d) : ResGood s (advance st h) := by
  unfold advance
  dsimp only
  split_ifs with h1 h2 h3 h4
  · trivial
  · refine ⟨_, (?_ : Good 0 (st.kMax + 1) s (h.m.updateRLast st.k).ints)⟩
    rw [updateRLast_ints]; exact hg
  · have e : (h.m.updateRLast st.k).ints = h.m.ints := updateRLast_ints _ _
    have ed : (h.m.updateRLast st.k).d = s.d := (congrArg HInt.d e).trans hg.uni.d
    have h3' : st.k + 1 < s.d := ed ▸ h3
    have hg' : Good 0 (st.kMax + 1) s (h.m.updateRLast st.k).ints := by rw [e]; exact hg
    refine ⟨?_, by simp, le_rfl, h3'⟩
    refine hg'.trans (refreshRBf_good (h.m.updateRLast st.k) hg'.wf (by rw [ed]; exact h3') (.inr ⟨by omega, ?_⟩))
    dsimp only; omega
  · have e : (h.m.updateRLast st.k).ints = h.m.ints := updateRLast_ints _ _
    have ed : (h.m.updateRLast st.k).d = s.d := (congrArg HInt.d e).trans hg.uni.d
    refine ⟨(?_ : Good 0 (st.kMax + 1) s (h.m.updateRLast st.k).ints), by simp, by dsimp only; omega, hm⟩
    rw [e]; exact hg
  · refine ⟨_, (?_ : Good 0 (st.kMax + 1) s (h.m.updateRLast st.k).ints)⟩
    rw [updateRLast_ints]; exact hg

theorem swapBack_good {s : HInt} (st : St F) (h : HL F) (hg : Good 0 (st.kMax + 1) s h.m.ints) (hk1 : 1 ≤ st.k)
    (hk : st.k ≤ st.kMax) (hm : st.kMax < s.d) : ResGood s (swapBack st h) := by
  have hd : h.m.d = s.d := hg.uni.d
  have h1 := hg.trans (swap_good h.m hg.wf (i := st.k - 1) (j := st.k) (by omega) (by omega) (by omega) (by omega))
  unfold swapBack
  dsimp only
  split_ifs with h2
  · refine ⟨(?_ : Good 0 (st.kMax + 1) s ((((h.m.swap (st.k - 1) st.k).refreshR 0).updateRLast 0).refreshR 1).ints), le_rfl,
      by dsimp only; omega, hm⟩
    rw [refreshR_ints, updateRLast_ints, refreshR_ints]; exact h1
  · exact ⟨h1, by dsimp only; omega, by dsimp only; omega, hm⟩

theorem step_good {s : HInt} (srFuel : ℕ) (st : St F) (hg : Good 0 (st.kMax + 1) s st.h.m.ints) (hk1 : 1 ≤ st.k)
    (hk : st.k ≤ st.kMax) (hm : st.kMax < s.d) : ResGood s (step srFuel st) := by
  have hd : st.h.m.d = s.d := hg.uni.d
  unfold step
  cases hs : sizeReduction srFuel st.h.m st.k st.k 0 with
  | none => exact ⟨_, hg⟩
  | some m =>
    have h1 := hg.trans (sizeReduction_good st.k 0 le_rfl (by omega) srFuel st.h.m hg.wf (by omega) m hs)
    dsimp only
    split_ifs
    · exact ⟨_, h1⟩
    · exact advance_good st _ h1 hk hm
    · exact swapBack_good st _ h1 hk1 hk hm

theorem loop_good {s : HInt} (srFuel fuel : ℕ) (st : St F) (hg : Good 0 (st.kMax + 1) s st.h.m.ints) (hk1 : 1 ≤ st.k)
    (hk : st.k ≤ st.kMax) (hm : st.kMax < s.d) : ResGood s (loop srFuel fuel st) := by
  induction fuel generalizing st with
  | zero => exact ⟨_, hg⟩
  | succ fuel ih =>
    have h := step_good srFuel st hg hk1 hk hm
    rw [loop]
    cases hs : step srFuel st with
    | next st' => rw [hs] at h; exact ih st' h.1 h.2.1 h.2.2.1 h.2.2.2
    | done a b => rw [hs] at h; exact h
    | ub => trivial
    | outOfFuel a => rw [hs] at h; exact h

omit [HFloat F] in
theorem mk0_wf (d n : ℕ) (e wu wv fl : Bool) (b u v : Mat ℤ) (junk : Mat F) (hn : 1 ≤ n) :
    WF 0 (HH.mk0 d n e wu wv fl b u v junk).ints := by
  constructor
  · exact Nat.zero_le _
  · intro r _; exact max_le (sizeNz_le _ _) hn
  · intro r hr; omega
  · intro r _ _ c h1 h2
    exact sizeNz_zero (b r) n c ((le_max_left _ _).trans h1) h2

theorem hlll_good (srFuel fuel : ℕ) (h : HL F) (junk : ℕ → F) (junkE : ℕ → ℤ) (hs : WF 0 h.m.ints) :
    ResGood h.m.ints (hlll srFuel fuel h junk junkE) := by
  unfold hlll
  split_ifs with hd
  · trivial
  · have h0 := refreshRBf_good h.m hs (i := 0) (m' := 1) (by omega) (.inr ⟨rfl, rfl⟩)
    have h1 : Good 0 1 h.m.ints ((h.m.refreshRBf 0).updateRLast 0).ints := by rw [updateRLast_ints]; exact h0
    have hd1 : ((h.m.refreshRBf 0).updateRLast 0).d = h.m.d := h1.uni.d
    have h2 := h1.trans (refreshRBf_good _ h1.wf (i := 1) (m' := 2) (by omega) (.inr ⟨rfl, rfl⟩))
    exact loop_good srFuel fuel (start h junk junkE) h2 le_rfl le_rfl (by change 1 < h.m.d; omega)

end HL
end Fplll

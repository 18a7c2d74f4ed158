import Verif.Proofs.InsertFresh

/-!
# `svp_reduction` in exact arithmetic makes the first vector of its block shortest
-/

namespace Fplll
namespace BKZ

open FloatOps GSO LLL Spec

/-! ## rerandomize_block -/

theorem drawOther_ok (o : Orc Exact) {lo m a n b : ℕ} (hm : 1 ≤ m) {w w' : W Exact} (h : drawOther o lo m a n w = .ok b w') :
    lo ≤ b ∧ b < lo + m ∧ w'.s = w.s := by
  induction n generalizing w with
  | zero => simp [drawOther] at h
  | succ n ih =>
    rw [drawOther] at h
    split_ifs at h
    · exact ih (w := w.tick) h
    · simp only [Out.ok.injEq] at h
      have := Nat.mod_lt (o.rnd w.t) hm
      rw [← h.1, ← h.2]
      exact ⟨by omega, by omega, rfl⟩

theorem permuteLoop_mv (c : SvpCfg Exact) (o : Orc Exact) {lo m : ℕ} (hm : 1 ≤ m) (n : ℕ) {w w' : W Exact} (hs : St w.s) (hd : lo + m ≤ w.s.d)
    (h : permuteLoop c o lo m n w = .ok () w') : Mv lo (lo + m) w.s w'.s ∧ ∀ k < lo, w'.s.gsoValidCols k = w.s.gsoValidCols k := by
  induction n generalizing w with
  | zero =>
    simp only [permuteLoop, Out.ok.injEq, true_and] at h
    rw [← h]
    exact ⟨.refl hs, fun _ _ => rfl⟩
  | succ n ih =>
    rw [permuteLoop] at h
    obtain ⟨b, w1, h1, h2⟩ := Out.bind_ok h
    obtain ⟨b1, b2, e⟩ := drawOther_ok o hm h1
    have e : w1.s = w.s := e
    have ha := Nat.mod_lt (o.rnd w.t) hm
    generalize o.rnd w.t % m = a at *
    have hs1 : St w1.s := e ▸ hs
    rw [← e] at hd ⊢
    have mv : Mv lo (lo + m) w1.s (w1.s.moveRow b (a + lo)) := by
      have st := moveRow_st hs1 (o := b) (n := a + lo) (by omega) (by omega)
      exact .of_block (moveRow_keep hs1.full (by omega) (by omega)) (moveRow_sameBlock _ _ ⟨b1, b2⟩ ⟨by omega, by omega⟩) st.fresh st.unlocked
    obtain ⟨i1, i2⟩ := ih (w := { w1 with s := w1.s.moveRow b (a + lo) }) mv.st (by rw [mv.d]; exact hd) h2
    exact ⟨mv.trans i1, fun k hk => (i2 k hk).trans (moveRow_valid hs1 (lo := lo) (by omega) (by omega) (by omega) k hk)⟩

/-- inside the block, with its lattice kept -/
structure Blk (lo N : ℕ) (s s' : GSO Exact) : Prop where
  frs : Frs lo (lo + N) s s'
  keep : Keep s s'
  same : SameBlock s.nCols lo N s.b s'.b

theorem Blk.step {lo N : ℕ} {s t : GSO Exact} (h : Blk lo N s t) (hd : lo + N ≤ s.d) {a b : ℕ} (ha : lo ≤ a ∧ a < lo + N) (hb : lo ≤ b ∧ b < lo + N)
    (hab : a ≠ b) (add : Bool) : Blk lo N s (if add = true then t.rowAdd a b else t.rowSub a b) := by
  have hd' := h.frs.d
  have hf := h.keep.full
  have e : (lo + (a - lo) = a) ∧ lo + (b - lo) = b := ⟨by omega, by omega⟩
  cases add with
  | true =>
    simp only [if_true]
    refine ⟨⟨(rowAdd_keep hf (by omega) (by omega) hab).full, h.frs.d, h.frs.cols, rowAdd_fresh h.frs.fresh ⟨by omega, by omega⟩, h.frs.locked,
      h.frs.valid⟩, h.keep.trans (rowAdd_keep hf (by omega) (by omega) hab), h.same.trans ?_⟩
    refine SameBlock.add (i := a - lo) (j := b - lo) 1 (by omega) (by omega) (by omega) fun r c hc => ?_
    rw [e.1, e.2]
    exact rowAdd_b hf (by omega) r c (by rw [h.frs.cols]; exact hc)
  | false =>
    simp only [Bool.false_eq_true, if_false]
    refine ⟨⟨(rowSub_keep hf (by omega) (by omega) hab).full, h.frs.d, h.frs.cols, rowSub_fresh h.frs.fresh ⟨by omega, by omega⟩, h.frs.locked,
      h.frs.valid⟩, h.keep.trans (rowSub_keep hf (by omega) (by omega) hab), h.same.trans ?_⟩
    refine SameBlock.add (i := a - lo) (j := b - lo) (-1) (by omega) (by omega) (by omega) fun r c hc => ?_
    rw [e.1, e.2]
    exact rowSub_b hf (by omega) r c (by rw [h.frs.cols]; exact hc)

theorem mixLoop_blk (o : Orc Exact) (density : ℕ) {lo hi : ℕ} (hlh : lo ≤ hi) {w : W Exact} (hs : St w.s) (hd : hi ≤ w.s.d) :
    Blk lo (hi - lo) w.s (mixLoop o density lo hi w).s := by
  unfold mixLoop
  have h0 : Blk lo (hi - lo) w.s w.s := ⟨.refl hs, .refl hs.full, .refl _ _ _ _⟩
  refine forUp_inv' (fun v : W Exact => Blk lo (hi - lo) w.s v.s) _ _ _ _ h0 fun a v _ ha hv => ?_
  refine forUp_inv' (fun v : W Exact => Blk lo (hi - lo) w.s v.s) _ _ _ _ hv fun _ v _ _ hv => ?_
  unfold mixStep
  have hm := Nat.mod_lt (o.rnd v.t) (show 0 < hi - (a + 1) - 1 by omega)
  generalize o.rnd v.t % (hi - (a + 1) - 1) = b at hm
  dsimp only
  have := hv.step (by omega) (a := a) (b := b + a + 1) ⟨by omega, by omega⟩ ⟨by omega, by omega⟩ (by omega) (decide (o.rnd (v.t + 1) % 2 ≠ 0))
  simpa using this

theorem rerandomize_mv (c : SvpCfg Exact) (o : Orc Exact) {lo hi : ℕ} (hlh : lo ≤ hi) {w w' : W Exact} (hs : St w.s) (hd : hi ≤ w.s.d)
    (h : rerandomize c o lo hi w = .ok () w') : Mv lo hi w.s w'.s ∧ ∀ k < lo, w'.s.gsoValidCols k = w.s.gsoValidCols k := by
  unfold rerandomize at h
  by_cases h2 : hi - lo < 2
  · rw [if_pos h2] at h
    simp only [Out.ok.injEq, true_and] at h
    rw [← h]
    exact ⟨.refl hs, fun _ _ => rfl⟩
  rw [if_neg h2] at h
  obtain ⟨_, w1, e1, e2⟩ := Out.bind_ok h
  obtain ⟨m1, v1⟩ := permuteLoop_mv c o (by omega) _ hs (by omega) e1
  have B := mixLoop_blk o c.density hlh m1.st (by rw [m1.d]; exact hd)
  have hadd : lo + (hi - lo) = hi := by omega
  have fr := B.frs
  rw [hadd] at fr
  obtain ⟨f1, f2, f3⟩ := fr.finish m1.st hlh (by rw [m1.d]; exact hd)
  simp only [Out.ok.injEq, true_and] at e2
  rw [← e2]
  dsimp only
  refine ⟨(m1.mono le_rfl (by omega)).trans ⟨f1, (rowOpEnd_d _ _ _).trans fr.d, (rowOpEnd_nCols _ _ _).trans fr.cols, fun j hj => ?_⟩,
    fun k hk => (f2 k hk).trans (v1 k hk)⟩
  rw [f3]
  exact B.same.preEq (by omega)

/-! ## the enumeration -/

/-- the answer of an enumeration of the rows `k, …, k + d - 1`: coefficients of a vector whose projection is shortest, or nothing, and then
no projection is as short as `rad` times the first one -/
def Solves (n : ℕ) (rad : ℚ) (k d : ℕ) (b : ℕ → ℕ → ℤ) : Option (ℕ → Exact) → Prop
  | none => MinProj n rad k (k + d) b
  | some x => ∃ z : ℕ → ℤ, (∀ i < d, x i = some (z i : ℚ)) ∧
      0 < distSq n (toQ b) k (vecQ fun c => ∑ i ∈ Finset.range d, z i * b (k + i) c) ∧
      distSq n (toQ b) k (vecQ fun c => ∑ i ∈ Finset.range d, z i * b (k + i) c) ≤ rad * normStar n (toQ b) k ∧
      ∀ v, InPre n (k + d) b v → 0 < distSq n (toQ b) k (vecQ v) →
        distSq n (toQ b) k (vecQ fun c => ∑ i ∈ Finset.range d, z i * b (k + i) c) ≤ distSq n (toQ b) k (vecQ v)

/-- each enumeration is right, when the rows it uses are up to date -/
def Truthful (rad : ℚ) (o : Orc Exact) : Prop :=
  ∀ (t k d : ℕ) (s : GSO Exact), St s → 1 ≤ d → k + d ≤ s.d → Indep (k + d) s.nCols (toQ s.b) →
    (∀ i < k + d, i + 1 ≤ s.gsoValidCols i) → Solves s.nCols rad k d s.b (o.enum t k d false s)

theorem blockSum_inPre (n k d : ℕ) (b : ℕ → ℕ → ℤ) (z : ℕ → ℤ) : InPre n (k + d) b (fun c => ∑ i ∈ Finset.range d, z i * b (k + i) c) := by
  refine ⟨fun i => if k ≤ i then z (i - k) else 0, fun c _ => ?_⟩
  unfold comb
  rw [Finset.sum_range_add]
  rw [Finset.sum_eq_zero (s := Finset.range k) (fun i hi => by dsimp only; rw [if_neg (by have := Finset.mem_range.1 hi; omega), zero_mul]), zero_add]
  exact Finset.sum_congr rfl fun i _ => by dsimp only; rw [if_pos (by omega), Nat.add_sub_cancel_left]

/-- a shortest vector is primitive -/
theorem primitive_of_min {n k d : ℕ} {b : ℕ → ℕ → ℤ} {z : ℕ → ℤ}
    (hpos : 0 < distSq n (toQ b) k (vecQ fun c => ∑ i ∈ Finset.range d, z i * b (k + i) c))
    (hmin : ∀ v, InPre n (k + d) b v → 0 < distSq n (toQ b) k (vecQ v) →
      distSq n (toQ b) k (vecQ fun c => ∑ i ∈ Finset.range d, z i * b (k + i) c) ≤ distSq n (toQ b) k (vecQ v))
    (m : ℤ) (hm : ∀ i < d, m ∣ z i) : IsUnit m := by
  have hq : ∃ q : ℕ → ℤ, ∀ i < d, z i = m * q i := by
    refine ⟨fun i => z i / m, fun i hi => ?_⟩
    rw [Int.mul_ediv_cancel' (hm i hi)]
  obtain ⟨q, hq⟩ := hq
  have e : distSq n (toQ b) k (vecQ fun c => ∑ i ∈ Finset.range d, z i * b (k + i) c)
      = (m : ℚ) ^ 2 * distSq n (toQ b) k (vecQ fun c => ∑ i ∈ Finset.range d, q i * b (k + i) c) := by
    refine distSq_scale (a := fun _ => 0) (m : ℚ) fun c _ => ?_
    have : lc k (fun _ => 0) (toQ b) c = 0 := by unfold lc; simp
    rw [this, add_zero]
    unfold vecQ
    rw [← Int.cast_mul, Finset.mul_sum]
    congr 1
    exact Finset.sum_congr rfl fun i hi => by rw [hq i (Finset.mem_range.1 hi)]; ring
  have hnn := distSq_nonneg n (toQ b) k (vecQ fun c => ∑ i ∈ Finset.range d, q i * b (k + i) c)
  have hle := hmin _ (blockSum_inPre n k d b q)
  rw [e] at hpos hle
  generalize distSq n (toQ b) k (vecQ fun c => ∑ i ∈ Finset.range d, q i * b (k + i) c) = D at *
  have hD : 0 < D := by
    rcases hnn.lt_or_eq with h | h
    · exact h
    · rw [← h, mul_zero] at hpos; exact absurd hpos (lt_irrefl _)
  have h1 : (m : ℚ) ^ 2 ≤ 1 := by
    have := hle hD
    by_contra hh
    push Not at hh
    nlinarith
  have h2 : m ≠ 0 := by rintro rfl; simp at hpos
  have h3 : m ^ 2 ≤ 1 := by exact_mod_cast h1
  rw [Int.isUnit_iff]
  have h4 : |m| ≤ 1 := by rw [← sq_le_one_iff_abs_le_one]; exact h3
  rw [abs_le] at h4
  omega

/-- after the insertion of a shortest vector -/
theorem minProj_inserted {n k d : ℕ} {δ : ℚ} {b b' : ℕ → ℕ → ℤ} {z : ℕ → ℤ} (hδ : δ < 1) (ins : Inserted n k d false z b b')
    (hpos : 0 < distSq n (toQ b) k (vecQ fun c => ∑ i ∈ Finset.range d, z i * b (k + i) c))
    (hmin : ∀ v, InPre n (k + d) b v → 0 < distSq n (toQ b) k (vecQ v) →
      distSq n (toQ b) k (vecQ fun c => ∑ i ∈ Finset.range d, z i * b (k + i) c) ≤ distSq n (toQ b) k (vecQ v)) :
    normStar n (toQ b') k = distSq n (toQ b) k (vecQ fun c => ∑ i ∈ Finset.range d, z i * b (k + i) c) ∧ MinProj n δ k (k + d) b' := by
  have p1 := ins.block.preEq (j := k) (.inl le_rfl)
  have p2 := ins.block.preEq (j := k + d) (.inr le_rfl)
  have e : normStar n (toQ b') k = distSq n (toQ b) k (vecQ fun c => ∑ i ∈ Finset.range d, z i * b (k + i) c) := by
    rw [← distSq_row, ← distSq_pre p1]
    have l0 : ∀ c, lc k (fun _ => 0) (toQ b) c = 0 := fun c => by unfold lc; simp
    rcases ins.primal rfl with h | h
    · have := distSq_scale (n := n) (k := k) (B := toQ b) (w := vecQ fun c => ∑ i ∈ Finset.range d, z i * b (k + i) c) (w' := toQ b' k)
        (a := fun _ => 0) 1 (fun c hc => by
          have := congrFun h ⟨c, hc⟩
          unfold rowV blockComb at this
          rw [l0]
          unfold toQ vecQ
          rw [this]; simp)
      rw [this]; ring
    · have := distSq_scale (n := n) (k := k) (B := toQ b) (w := vecQ fun c => ∑ i ∈ Finset.range d, z i * b (k + i) c) (w' := toQ b' k)
        (a := fun _ => 0) (-1) (fun c hc => by
          have := congrFun h ⟨c, hc⟩
          unfold rowV at this
          rw [Pi.neg_apply] at this
          unfold blockComb at this
          rw [l0]
          unfold toQ vecQ
          rw [this]; push_cast; ring)
      rw [this]; ring
  refine ⟨e, fun v hv hp => ?_⟩
  rw [← distSq_pre p1] at hp ⊢
  have := hmin v ((p2 v).2 hv) hp
  rw [e]
  nlinarith

/-! ## svp_reduction -/

variable (c : SvpCfg Exact) (o : Orc Exact) {η thr δ rad : ℚ}

theorem sizeRedOp_pref (hc : c.lll.eta = some η) {hi : ℤ} {w w' : W Exact} (hs : St w.s) (h : sizeRedOp c 0 hi 0 w = .ok true w') (P E : ℕ) :
    Mv P E w.s w'.s ∧ (∀ j < hi.toNat, j + 1 ≤ w'.s.gsoValidCols j) ∧ (∀ i, hi.toNat ≤ i → w'.s.b i = w.s.b i) ∧
    ∀ i < hi.toNat, ∀ j < i, |muS w'.s.nCols (toQ w'.s.b) i j| ≤ η := by
  unfold sizeRedOp at h
  split_ifs at h with hr
  simp only [Out.ok.injEq, decide_eq_true_eq, sub_zero, Int.toNat_zero] at h
  obtain ⟨h1, h2⟩ := h
  rw [← h2]
  obtain ⟨p1, p2, p3, p4⟩ := sizeReductionLoop_pref c.lll hc c.fuel 0 hi.toNat 0 w.s hs P E (by omega) (by intro j hj; omega) h1
  rw [Nat.zero_add] at p2 p3 p4
  refine ⟨p1, p2, fun i hi => p3 i (.inr hi), fun i hi j hj => ?_⟩
  dsimp only
  rw [p1.cols]
  exact p4 i (by omega) hi j (by omega) hj

theorem preprocess_pref (hc : PCfg c.lll η thr δ) {bs : ℤ} (hpre : o.preproc bs = []) (bounded : Bool) (tour : ℤ → ℤ → ℤ → W Exact → Out (W Exact) Bool)
    {k P : ℕ} {w w' : W Exact} (hs : St w.s) (hbs : 1 ≤ bs) (hd : k + bs.toNat ≤ w.s.d)
    (hind : Indep (k + bs.toNat) w.s.nCols (toQ w.s.b)) (hprot : Prot δ (if bounded = true then k else 0) P (k + bs.toNat) w.s)
    (hv : ∀ i < k, i + 1 ≤ w.s.gsoValidCols i) (h : preprocess c o bounded tour k bs w = .ok () w') :
    Mv P (k + bs.toNat) w.s w'.s ∧ ∀ i < k + bs.toNat, i + 1 ≤ w'.s.gsoValidCols i := by
  unfold preprocess at h
  obtain ⟨r, w1, h1, h2⟩ := Out.bind_ok h
  rw [hpre] at h2
  have key : ∀ a : ℕ, a ≤ k → Prot δ a P (k + bs.toNat) w.s → lllOp c o a a (k + bs) w = .ok r w1 →
      Mv P (k + bs.toNat) w.s w'.s ∧ ∀ i < k + bs.toNat, i + 1 ≤ w'.s.gsoValidCols i := by
    intro a hak hp h1
    unfold lllOp at h1
    split_ifs at h1 with hr
    simp only [Out.ok.injEq] at h1
    split_ifs at h2 with h3
    simp only [preprocLoop, Out.ok.injEq, true_and] at h2
    have hok := congrArg Prod.fst h1.1
    dsimp only at hok
    rw [Bool.not_eq_false] at h3
    rw [h3, decide_eq_true_eq] at hok
    rw [← h2, ← h1.2]
    dsimp only
    have e : ((k : ℤ) + bs).toNat = k + bs.toNat := by omega
    rw [e] at hok ⊢
    rw [Int.toNat_natCast] at hok ⊢
    exact lll_pref c.lll hc c.fuel _ _ hs (by omega) hd hind hp (fun i hi => hv i (by omega)) hok
  cases bounded with
  | true => simp only [if_true] at h1 hprot; exact key k le_rfl hprot h1
  | false => simp only [Bool.false_eq_true, if_false] at h1 hprot; exact key 0 (by omega) hprot (by exact_mod_cast h1)

/-- what the loop of `svp_reduction` achieves on the rows `k, …, k + d - 1` -/
theorem svpLoop_pref (hc : PCfg c.lll η thr δ) (hδ : δ < 1) (hrad : δ ≤ rad) (htr : Truthful rad o) {k d : ℕ} (hd1 : 1 ≤ d) (hpre : o.preproc d = [])
    (hmore : ∀ t, o.more t 0 = true) (bounded : Bool) (tour : ℤ → ℤ → ℤ → W Exact → Out (W Exact) Bool) (n it : ℕ) (rerand : Bool)
    {w w' : W Exact} (hs : St w.s) (hd : k + d ≤ w.s.d) (hind : Indep (k + d) w.s.nCols (toQ w.s.b))
    (hprot : Prot δ (if bounded = true then k else 0) k (k + d) w.s) (hv : ∀ i < k, i + 1 ≤ w.s.gsoValidCols i)
    (hit : 1 ≤ it → MinProj w.s.nCols δ k (k + d) w.s.b) (h : svpLoop c o bounded tour k d false n it rerand w = .ok () w') :
    Mv k (k + d) w.s w'.s ∧ (∀ i < k, i + 1 ≤ w'.s.gsoValidCols i) ∧ MinProj w'.s.nCols δ k (k + d) w'.s.b := by
  induction n generalizing it rerand w with
  | zero => simp [svpLoop] at h
  | succ n ih =>
    rw [svpLoop] at h
    by_cases hm : o.more w.t it = false
    · rw [if_pos hm] at h
      simp only [Out.ok.injEq, true_and] at h
      rw [← h]
      have : 1 ≤ it := by
        rcases Nat.eq_zero_or_pos it with h0 | h0
        · rw [h0, hmore] at hm; exact absurd hm (by simp)
        · exact h0
      exact ⟨.refl hs, hv, hit this⟩
    rw [if_neg hm] at h
    obtain ⟨_, w1, h1, h⟩ := Out.bind_ok h
    obtain ⟨_, w2, h2, h⟩ := Out.bind_ok h
    -- rerandomisation
    have s1 : Mv (k + 1) (k + d) w.s w1.s ∧ ∀ i < k, w1.s.gsoValidCols i = w.s.gsoValidCols i := by
      split_ifs at h1
      · have e1 : ((k : ℤ).toNat + 1) = k + 1 := by omega
        have e2 : (k : ℤ).toNat + (d : ℤ).toNat = k + d := by omega
        rw [e1, e2] at h1
        obtain ⟨a, b⟩ := rerandomize_mv c o (w := w.tick) (by omega) hs hd h1
        exact ⟨a, fun i hi => b i (by omega)⟩
      · simp only [Out.ok.injEq, true_and] at h1
        rw [← h1]; exact ⟨.refl hs, fun _ _ => rfl⟩
    obtain ⟨m1, v1⟩ := s1
    have m1k := m1.mono (P' := k) (E' := k + d) (by omega) le_rfl
    have hit1 : 1 ≤ it → MinProj w1.s.nCols δ k (k + d) w1.s.b := fun hi => m1.minProj (by omega) (hit hi)
    have hv1 : ∀ i < k, i + 1 ≤ w1.s.gsoValidCols i := fun i hi => by rw [v1 i hi]; exact hv i hi
    have hp1 := hprot.mv m1k
    have hdn : (d : ℤ).toNat = d := Int.toNat_natCast d
    -- LLL
    have s2 : Mv k (k + d) w1.s w2.s ∧ (∀ i < k + d, i + 1 ≤ w2.s.gsoValidCols i) ∧ (1 ≤ it → MinProj w2.s.nCols δ k (k + d) w2.s.b) := by
      have base := preprocess_pref c o hc hpre bounded tour (P := k) m1.st (by omega) (by rw [hdn, m1.d]; exact hd)
        (by rw [hdn]; exact m1.indep hind) (by rw [hdn]; exact hp1) hv1 h2
      rw [hdn] at base
      refine ⟨base.1, base.2, fun hi => ?_⟩
      have more := preprocess_pref c o hc hpre bounded tour (P := k + 1) m1.st (by omega) (by rw [hdn, m1.d]; exact hd)
        (by rw [hdn]; exact m1.indep hind) (by
          rw [hdn]
          intro m a b
          rcases Nat.lt_or_ge m k with hlt | hge
          · exact hp1 m a hlt
          · have : m = k := by omega
            subst this
            exact hit1 hi) hv1 h2
      rw [hdn] at more
      exact more.1.minProj (by omega) (hit1 hi)
    obtain ⟨m2, v2, hit2⟩ := s2
    have m02 := m1k.trans m2
    have hp2 := hprot.mv m02
    have hsol := htr w2.t k d w2.s m2.st hd1 (by rw [m02.d]; exact hd) (m02.indep hind) v2
    cases hx : o.enum w2.t k d false w2.s with
    | none =>
      rw [hx] at h hsol
      have hmin : MinProj w2.s.nCols δ k (k + d) w2.s.b := by
        intro v hv hp
        refine lt_of_le_of_lt ?_ (hsol v hv hp)
        exact mul_le_mul_of_nonneg_right hrad (normStar_nonneg _ _ _)
      obtain ⟨a1, a2, a3⟩ := ih (it + 1) true (w := w2.tick) m2.st (by exact le_of_le_of_eq hd m02.d.symm) (m02.indep hind) hp2
        (fun i hi => v2 i (by omega)) (fun _ => hmin) h
      exact ⟨m02.trans a1, a2, a3⟩
    | some x =>
      rw [hx] at h hsol
      obtain ⟨_, w3, h3, h⟩ := Out.bind_ok h
      obtain ⟨z, z1, z2, -, z3⟩ := hsol
      rw [Int.toNat_natCast, Int.toNat_natCast] at h3
      obtain ⟨m3, ins, v3⟩ := postprocess_mv c (w := w2.tick) m2.st hd1 (by exact le_of_le_of_eq hd m02.d.symm) z1 (primitive_of_min z2 z3) h3
      have m03 := m02.trans m3
      have hmin := (minProj_inserted hδ ins z2 z3).2
      have hmin : MinProj w3.s.nCols δ k (k + d) w3.s.b := by rw [m3.cols]; exact hmin
      obtain ⟨a1, a2, a3⟩ := ih (it + 1) false m3.st (by rw [m03.d]; exact hd) (m03.indep hind) (hprot.mv m03)
        (fun i hi => by rw [v3 i hi]; exact v2 i (by omega)) (fun _ => hmin) h
      exact ⟨m03.trans a1, a2, a3⟩

/-- `svp_reduction` of the rows `k, …, k + d - 1` -/
theorem svpReduction_pref (hc : PCfg c.lll η thr δ) (hδ : δ < 1) (hrad : δ ≤ rad) (htr : Truthful rad o) {k d : ℕ} (hd1 : 1 ≤ d)
    (hpre : o.preproc d = []) (hmore : ∀ t, o.more t 0 = true) (bounded : Bool) (tour : ℤ → ℤ → ℤ → W Exact → Out (W Exact) Bool) {clean : Bool}
    {w w' : W Exact} (hs : St w.s) (hind : Indep (k + d) w.s.nCols (toQ w.s.b))
    (hprot : Prot δ (if bounded = true then k else 0) k (k + d) w.s)
    (h : svpReduction c o bounded tour k d false w = .ok clean w') :
    Mv k (k + d) w.s w'.s ∧ (∀ i ≤ k, i + 1 ≤ w'.s.gsoValidCols i) ∧ MinProj w'.s.nCols δ k (k + d) w'.s.b ∧
    ∀ i ≤ k, ∀ j < i, |muS w'.s.nCols (toQ w'.s.b) i j| ≤ η := by
  unfold svpReduction at h
  simp only [Bool.false_eq_true, if_false] at h
  by_cases hr : 0 ≤ (k : ℤ) ∧ 1 ≤ (d : ℤ) ∧ (k : ℤ) + d ≤ w.s.d
  swap
  · rw [if_neg hr] at h; exact absurd h (by simp)
  rw [if_pos hr] at h
  have e : ((k : ℤ) + 1).toNat = k + 1 := by omega
  obtain ⟨r1, w1, h1, h⟩ := Out.bind_ok h
  split_ifs at h with hr1
  rw [Bool.not_eq_false] at hr1
  rw [hr1] at h1
  obtain ⟨m1, v1, -, -⟩ := sizeRedOp_pref c hc.eta hs h1 (k + 1) (k + d)
  rw [e] at v1
  have m1k := m1.mono (P' := k) (E' := k + d) (by omega) le_rfl
  obtain ⟨_, w2, h2, h⟩ := Out.bind_ok h
  obtain ⟨m2, v2, p2⟩ := svpLoop_pref c o hc hδ hrad htr hd1 hpre hmore bounded tour _ 0 false m1.st (by rw [m1.d]; omega) (m1.indep hind)
    (hprot.mv m1k) (fun i hi => v1 i (by omega)) (fun hi => by omega) h2
  obtain ⟨r3, w3, h3, h⟩ := Out.bind_ok h
  split_ifs at h with hr3
  rw [Bool.not_eq_false] at hr3
  rw [hr3] at h3
  obtain ⟨m3, v3, -, q3⟩ := sizeRedOp_pref c hc.eta m2.st h3 (k + 1) (k + d)
  rw [e] at v3 q3
  simp only [Out.ok.injEq] at h
  rw [← h.2]
  exact ⟨(m1k.trans m2).trans (m3.mono (by omega) le_rfl), fun i hi => v3 i (by omega), m3.minProj (by omega) p2,
    fun i hi j hj => q3 i (by omega) j hj⟩

end BKZ
end Fplll

import Verif.Proofs.GSO
import Verif.Spec.GramSchmidt
import Mathlib.Tactic.NormNum

/-!
# Freshness of the lazily computed GSO data (exact arithmetic)
-/

namespace Fplll

open FloatOps Spec

namespace GSO

/-- the current basis over the rationals -/
def bq (s : GSO Exact) : ℕ → ℕ → ℚ := fun i c => (s.b i c : ℚ)

theorem ip_dotQ (s : GSO Exact) (i j : ℕ) : (s.ip i j : ℚ) = dotQ s.nCols (s.bq i) (s.bq j) := by
  unfold ip dotQ bq; push_cast; rfl

/-- `k` is inside the open row operation `[lo, hi)` -/
def Dirty (lo hi k : ℕ) : Prop := lo ≤ k ∧ k < hi

/-- Everything cached agrees with the current basis, except for what an open row operation on the
rows `[lo, hi)` (empty when `hi ≤ lo`) may have made stale. -/
structure Fresh (s : GSO Exact) (lo hi : ℕ) : Prop where
  bf : s.intGram = false → ∀ k < s.d, ∀ c < s.nCols, (¬ Dirty lo hi k ∨ s.nKnownCols ≤ c) →
    s.bf k c = some (s.b k c : ℚ)
  gf : s.intGram = false → ∀ i < s.nKnownRows, ∀ j ≤ i, ¬ Dirty lo hi i → ¬ Dirty lo hi j →
    s.gf i j = none ∨ s.gf i j = some (s.ip i j : ℚ)
  validLe : ∀ i < s.nKnownRows, s.gsoValidCols i ≤ i + 1
  valid : ∀ i < s.nKnownRows, ¬ Dirty lo hi i → ∀ j < s.gsoValidCols i, (lo < hi → lo ≤ i → j < lo) →
    s.r i j = some (rS s.nCols s.bq i j) ∧
    (j < i → s.mu i j = some (muS s.nCols s.bq i j) ∧ rS s.nCols s.bq j j ≠ 0)

@[simp] theorem not_dirty_empty (k : ℕ) : ¬ Dirty 0 0 k := by unfold Dirty; omega

/-! ### exact arithmetic -/

theorem dotF_exact {n : ℕ} (hn : 1 ≤ n) {v w : ℕ → Exact} {v' w' : ℕ → ℚ}
    (hv : ∀ c < n, v c = some (v' c)) (hw : ∀ c < n, w c = some (w' c)) :
    dotF n v w = some (dotQ n v' w') := by
  unfold dotF
  refine forUp_inv (P := fun i acc => acc = some (dotQ i v' w'))
    (fun i acc => add acc (mul (v i) (w i))) hn _ ?_ ?_
  · rw [hv 0 (by omega), hw 0 (by omega)]
    simp only [dotQ, Finset.sum_range_one]; rfl
  · intro i acc h1 h2 h
    rw [h, hv i h2, hw i h2]
    unfold dotQ
    rw [Finset.sum_range_succ]; rfl

theorem gsoInner_exact {mu r : Mat Exact} {i j : ℕ} {f : ℚ} {m' r' : ℕ → ℚ}
    (hm : ∀ k < j, mu j k = some (m' k)) (hr : ∀ k < j, r i k = some (r' k)) :
    gsoInner mu r i j (some f) = some (f - ∑ k ∈ Finset.range j, m' k * r' k) := by
  unfold gsoInner
  refine forUp_inv (P := fun k acc => acc = some (f - ∑ k ∈ Finset.range k, m' k * r' k))
    (fun k acc => sub acc (mul (mu j k) (r i k))) (Nat.zero_le j) _ (by simp) ?_
  intro k acc _ hk h
  rw [h, hm k hk, hr k hk, Finset.sum_range_succ]
  change some _ = some _
  congr 1; ring

/-- `get_gram(i, j)` returns the exact inner product -/
theorem gram_exact {s : GSO Exact} (hs : WF s) (hf : Fresh s 0 0) {i j : ℕ} (hi : i < s.nKnownRows)
    (hji : j ≤ i) (hj : j < s.nSourceRows) :
    (s.cacheGram i j).gramVal i j = some (s.ip i j : ℚ) := by
  unfold gramVal
  by_cases hG : s.intGram = true
  · rw [if_pos (by exact hG)]
    have := hs.gram hG i hi j (by omega)
    rw [symGet_of_le _ hji] at this
    change some ((s.g i j : ℤ) : ℚ) = _
    rw [this]
  · have hG' : s.intGram = false := by simpa using hG
    rw [if_neg (by exact hG)]
    unfold cacheGram
    dsimp only
    have hd := hs.known_le
    by_cases hnan : s.gf i j = none
    · have c : (!s.intGram && isNan (s.gf i j)) = true := by rw [hG', hnan]; rfl
      rw [if_pos c, Mat.set_apply, if_pos ⟨rfl, rfl⟩]
      have hbf : ∀ k < s.d, ∀ c < s.nCols, s.bf k c = some (s.bq k c) :=
        fun k hk c hc => hf.bf hG' k hk c hc (.inl (by simp))
      by_cases h0 : 1 ≤ s.nKnownCols
      · rw [dotF_exact h0 (fun c hc => hbf i (by omega) c (by have := hs.cols_le; omega))
          (fun c hc => hbf j (by omega) c (by have := hs.cols_le; omega)), ip_dotQ]
        congr 1
        unfold dotQ
        refine Finset.sum_subset (by intro c; have := hs.cols_le; simp; omega) ?_
        intro c hc hc'
        simp only [Finset.mem_range] at hc hc'
        unfold bq
        rw [hs.zeroSrc j hj c hc (by omega)]; simp
      · have h0' : s.nKnownCols = 0 := by omega
        have hz : ∀ c < s.nCols, s.bq j c = 0 := by
          intro c hc; unfold bq; rw [hs.zeroSrc j hj c hc (by omega)]; simp
        have hcp := hs.cols_pos
        rw [ip_dotQ, dotQ_zero_right _ hz, h0']
        unfold dotF
        rw [forUp_empty (by omega), hbf i (by omega) 0 (by omega), hbf j (by omega) 0 (by omega),
          hz 0 (by omega)]
        change some _ = some _
        rw [mul_zero]
    · have c : (!s.intGram && isNan (s.gf i j)) = false := by
        cases h : s.gf i j with
        | none => exact absurd h hnan
        | some x => simp [isNan]
      rw [c]
      rcases hf.gf hG' i hi j hji (by simp) (by simp) with h | h
      · exact absurd h hnan
      · exact h

/-- caching keeps everything fresh -/
theorem cacheGram_fresh {s : GSO Exact} (hs : WF s) (hf : Fresh s 0 0) {i j : ℕ}
    (hi : i < s.nKnownRows) (hji : j ≤ i) (hj : j < s.nSourceRows) : Fresh (s.cacheGram i j) 0 0 := by
  refine ⟨hf.bf, ?_, hf.validLe, hf.valid⟩
  intro hG p hp q hq _ _
  change p < s.nKnownRows at hp
  change s.intGram = false at hG
  have e := gram_exact hs hf hi hji hj
  unfold gramVal at e
  rw [if_neg (by change ¬ s.intGram = true; rw [hG]; simp)] at e
  by_cases h : p = i ∧ q = j
  · rw [h.1, h.2]; right; exact e
  · have : (s.cacheGram i j).gf p q = s.gf p q := by
      unfold cacheGram
      dsimp only
      split_ifs
      · rw [Mat.set_apply, if_neg h]
      · rfl
    rw [this]
    exact hf.gf hG p hp q hq (by simp) (by simp)

theorem bq_of_b {s s' : GSO Exact} (h : s'.b = s.b) : s'.bq = s.bq := by unfold bq; rw [h]

/-- what `update_gso_row` needs: the rows it divides by are up to date -/
def Ready (s : GSO Exact) (i l : ℕ) : Prop := ∀ j < l, j < i → j + 1 ≤ s.gsoValidCols j

theorem updateGsoLoop_fresh (i n j : ℕ) (s : GSO Exact) (hs : WF s) (hf : Fresh s 0 0)
    (hi : i < s.nKnownRows) (hv : s.gsoValidCols i ≤ j)
    (hl : n = 0 ∨ j + n ≤ i + 1) (hj : j ≤ i + 1) (hl2 : n = 0 ∨ j + n ≤ s.nSourceRows)
    (hrow : ∀ k < j, s.r i k = some (rS s.nCols s.bq i k) ∧
      (k < i → s.mu i k = some (muS s.nCols s.bq i k) ∧ rS s.nCols s.bq k k ≠ 0))
    (hready : ∀ k, j ≤ k → k < j + n → k < i → k + 1 ≤ s.gsoValidCols k) :
    Fresh (updateGsoLoop i n j s).2 0 0 ∧
    ((updateGsoLoop i n j s).1 = true → (updateGsoLoop i n j s).2.gsoValidCols i = j + n) ∧
    ((updateGsoLoop i n j s).1 = false → ∃ k, k < j + n ∧ k < i ∧ rS s.nCols s.bq k k = 0) ∧
    (∀ k, k ≠ i → (updateGsoLoop i n j s).2.gsoValidCols k = s.gsoValidCols k) := by
  induction n generalizing j s with
  | zero =>
    refine ⟨⟨hf.bf, hf.gf, ?_, ?_⟩, ?_, ?_, ?_⟩
    · intro p hp
      change setAt s.gsoValidCols i j p ≤ p + 1
      unfold setAt
      split_ifs with h
      · rw [h]; exact hj
      · exact hf.validLe p hp
    · intro p hp hdp q hq hlo
      change q < setAt s.gsoValidCols i j p at hq
      unfold setAt at hq
      split_ifs at hq with h
      · subst h; exact hrow q hq
      · exact hf.valid p hp hdp q hq hlo
    · intro _; change setAt s.gsoValidCols i j i = _; simp [setAt]
    · intro h; cases h
    · intro k hk; change setAt s.gsoValidCols i j k = _; simp [setAt, hk]
  | succ n ih =>
    have hji : j ≤ i := by omega
    have hjs : j < s.nSourceRows := by omega
    have hjk : j < s.nKnownRows := by have := hs.src_le; omega
    have hg := gram_exact hs hf hi hji hjs
    have hf1 := cacheGram_fresh hs hf hi hji hjs
    have hwf1 := ((cacheGram_fo s i j).good hs).wf
    have hbq1 : (s.cacheGram i j).bq = s.bq := rfl
    rw [updateGsoLoop]
    -- the new coefficient
    have hmu_j : ∀ k < j, s.mu j k = some (muS s.nCols s.bq j k) := by
      intro k hk
      rcases Nat.lt_or_ge j i with h | h
      · have := hready j le_rfl (by omega) h
        exact ((hf.valid j hjk (by simp) k (by omega) (by omega)).2 hk).1
      · have : j = i := by omega
        subst this
        exact ((hrow k hk).2 hk).1
    have hval : gsoInner (s.cacheGram i j).mu (s.cacheGram i j).r i j ((s.cacheGram i j).gramVal i j) =
        some (rS s.nCols s.bq i j) := by
      rw [hg]
      change gsoInner s.mu s.r i j _ = _
      rw [gsoInner_exact (m' := fun k => muS s.nCols s.bq j k) (r' := fun k => rS s.nCols s.bq i k)
        hmu_j (fun k hk => (hrow k hk).1), rS_rec, ip_dotQ]
    dsimp only
    rw [hval]
    generalize hs1 : s.cacheGram i j = s1 at *
    have e_d : s1.nCols = s.nCols := by rw [← hs1]; rfl
    have e_v : s1.gsoValidCols = s.gsoValidCols := by rw [← hs1]; rfl
    have e_k : s1.nKnownRows = s.nKnownRows := by rw [← hs1]; rfl
    have e_s : s1.nSourceRows = s.nSourceRows := by rw [← hs1]; rfl
    have e_mu : s1.mu = s.mu := by rw [← hs1]; rfl
    have e_r : s1.r = s.r := by rw [← hs1]; rfl
    -- state after writing `r(i,j)` (and `mu(i,j)`)
    have fresh2 : ∀ (mu' : Mat Exact), (∀ p q, (p ≠ i ∨ q ≠ j) → mu' p q = s1.mu p q) →
        Fresh { s1 with r := Mat.set s1.r i j (some (rS s.nCols s.bq i j)), mu := mu' } 0 0 := by
      intro mu' hmu'
      refine ⟨hf1.bf, hf1.gf, hf1.validLe, ?_⟩
      intro p hp hdp q hq hlo
      have hne : p ≠ i ∨ q ≠ j := by
        by_contra hc
        push Not at hc
        rw [hc.1, hc.2] at hq
        change j < s1.gsoValidCols i at hq
        rw [e_v] at hq; omega
      have := hf1.valid p hp hdp q hq hlo
      refine ⟨?_, ?_⟩
      · dsimp only
        rw [Mat.set_apply, if_neg (by tauto)]
        exact this.1
      · intro hqp
        dsimp only
        rw [hmu' p q hne]
        exact this.2 hqp
    by_cases hlt : j < i
    · rw [if_pos hlt]
      have hrjj : (Mat.set s1.r i j (some (rS s.nCols s.bq i j))) j j = some (rS s.nCols s.bq j j) := by
        rw [Mat.set_apply, if_neg (by omega), e_r]
        have := hready j le_rfl (by omega) hlt
        exact (hf.valid j hjk (by simp) j (by omega) (by omega)).1
      rw [hrjj]
      by_cases hz : rS s.nCols s.bq j j = 0
      · have hm : (div (some (rS s.nCols s.bq i j)) (some (rS s.nCols s.bq j j)) : Exact) = none := by
          rw [hz]; simp [div]
        rw [hm]
        refine ⟨?_, ?_, ?_, ?_⟩
        · exact fresh2 _ (fun p q h => by rw [Mat.set_apply, if_neg (by tauto)])
        · intro h; cases h
        · intro _; exact ⟨j, by omega, hlt, hz⟩
        · intro k hk
          change s1.gsoValidCols k = _
          rw [e_v]
      · have hm : (div (some (rS s.nCols s.bq i j)) (some (rS s.nCols s.bq j j)) : Exact) =
            some (muS s.nCols s.bq i j) := by
          rw [muS_eq]; simp [div, hz]
        rw [hm]
        have hfin : isFinite (some (muS s.nCols s.bq i j) : Exact) = true := rfl
        rw [if_pos hfin]
        set s2 : GSO Exact := { s1 with r := Mat.set s1.r i j (some (rS s.nCols s.bq i j)),
                                        mu := Mat.set s1.mu i j (some (muS s.nCols s.bq i j)) } with hs2
        have hf2 : Fresh s2 0 0 := fresh2 _ (fun p q h => by rw [Mat.set_apply, if_neg (by tauto)])
        have fo2 : FloatOnly s1 s2 := by constructor <;> rfl
        have hwf2 : WF s2 := (fo2.good hwf1).wf
        have := ih (j + 1) s2 hwf2 hf2 (by change i < s1.nKnownRows; omega)
          (by change s1.gsoValidCols i ≤ _; rw [e_v]; omega) (by omega) (by omega)
          (by change _ ∨ _ ≤ s1.nSourceRows; omega)
          (by
            intro k hk
            change Mat.set s1.r i j _ i k = some (rS s1.nCols s1.bq i k) ∧
              (k < i → Mat.set s1.mu i j _ i k = some (muS s1.nCols s1.bq i k) ∧ rS s1.nCols s1.bq k k ≠ 0)
            rw [Mat.set_apply, Mat.set_apply, e_d, hbq1]
            by_cases hkj : k = j
            · subst hkj; simp [hz]
            · rw [if_neg (by tauto), if_neg (by tauto), e_r, e_mu]
              exact hrow k (by omega))
          (by
            intro k h0 h1 h2
            change _ ≤ s1.gsoValidCols k
            rw [e_v]; exact hready k (by omega) (by omega) h2)
        obtain ⟨a1, a2, a3, a4⟩ := this
        refine ⟨a1, ?_, ?_, ?_⟩
        · intro h; rw [a2 h]; omega
        · intro h
          obtain ⟨k, k1, k2, k3⟩ := a3 h
          refine ⟨k, by omega, k2, ?_⟩
          change rS s1.nCols s1.bq k k = 0 at k3
          rwa [e_d, hbq1] at k3
        · intro k hk
          rw [a4 k hk]
          change s1.gsoValidCols k = _
          rw [e_v]
    · rw [if_neg hlt]
      have hji' : j = i := by omega
      have hn : n = 0 := by omega
      set s2 : GSO Exact := { s1 with r := Mat.set s1.r i j (some (rS s.nCols s.bq i j)) } with hs2
      have hf2 : Fresh s2 0 0 := fresh2 s1.mu (fun p q _ => rfl)
      have fo2 : FloatOnly s1 s2 := by constructor <;> rfl
      have hwf2 : WF s2 := (fo2.good hwf1).wf
      have := ih (j + 1) s2 hwf2 hf2 (by change i < s1.nKnownRows; omega)
        (by change s1.gsoValidCols i ≤ _; rw [e_v]; omega) (by omega) (by omega) (by omega)
        (by
          intro k hk
          change Mat.set s1.r i j _ i k = some (rS s1.nCols s1.bq i k) ∧
            (k < i → s1.mu i k = some (muS s1.nCols s1.bq i k) ∧ rS s1.nCols s1.bq k k ≠ 0)
          rw [Mat.set_apply, e_d, hbq1]
          by_cases hkj : k = j
          · subst hkj
            exact ⟨by simp, fun h => by omega⟩
          · rw [if_neg (by tauto), e_r, e_mu]
            exact hrow k (by omega))
        (by
          intro k h0 h1 h2
          change _ ≤ s1.gsoValidCols k
          rw [e_v]; exact hready k (by omega) (by omega) h2)
      obtain ⟨a1, a2, a3, a4⟩ := this
      refine ⟨a1, ?_, ?_, ?_⟩
      · intro h; rw [a2 h]; omega
      · intro h
        obtain ⟨k, k1, k2, k3⟩ := a3 h
        refine ⟨k, by omega, k2, ?_⟩
        change rS s1.nCols s1.bq k k = 0 at k3
        rwa [e_d, hbq1] at k3
      · intro k hk
        rw [a4 k hk]
        change s1.gsoValidCols k = _
        rw [e_v]

theorem discoverRow_fresh {s : GSO Exact} (hs : WF s) (hk : s.nKnownRows < s.d) (hf : Fresh s 0 0) :
    Fresh s.discoverRow 0 0 := by
  have hkc : s.nKnownCols ≤ s.discoverRow.nKnownCols := by
    unfold discoverRow; dsimp only; split_ifs <;> omega
  refine ⟨?_, ?_, ?_, ?_⟩
  · intro hG k hk c hc _
    exact hf.bf hG k hk c hc (.inl (by simp))
  · intro hG i hi j hj _ _
    change i < s.nKnownRows + 1 at hi
    change s.intGram = false at hG
    have e : s.discoverRow.gf = setAt s.gf s.nKnownRows
        (forUp 0 (s.nKnownRows + 1) (fun j row => setAt row j nan) (s.gf s.nKnownRows)) := by
      unfold discoverRow; dsimp only; rw [if_neg (by rw [hG]; simp)]; rfl
    rw [e]
    by_cases h : i = s.nKnownRows
    · left
      rw [h, setAt, if_pos rfl]
      have := forUp_inv (P := fun m (w : ℕ → Exact) => ∀ c < m, w c = none)
        (fun j row => setAt row j nan) (Nat.zero_le (s.nKnownRows + 1)) (s.gf s.nKnownRows)
        (by intro c hc; omega)
        (by
          intro m w _ _ hw c hc
          unfold setAt
          split_ifs with h
          · rfl
          · exact hw c (by omega))
      exact this j (by omega)
    · rw [setAt, if_neg h]
      exact hf.gf hG i (by omega) j hj (by simp) (by simp)
  · intro i hi
    change i < s.nKnownRows + 1 at hi
    change setAt s.gsoValidCols s.nKnownRows 0 i ≤ _
    unfold setAt
    split_ifs with h
    · omega
    · exact hf.validLe i (by omega)
  · intro i hi hdi j hj hlo
    change i < s.nKnownRows + 1 at hi
    change j < setAt s.gsoValidCols s.nKnownRows 0 i at hj
    unfold setAt at hj
    split_ifs at hj with h
    · omega
    · exact hf.valid i (by omega) hdi j hj hlo

/-- **freshness of `update_gso_row`** -/
theorem updateGsoRow_fresh {s : GSO Exact} (hs : WF s) (hf : Fresh s 0 0) {i l : ℕ} (hid : i < s.d)
    (hik : i ≤ s.nKnownRows) (hl : l ≤ i + 1)
    (hls : l ≤ s.nSourceRows ∨ (s.colsLocked = false ∧ i = s.nKnownRows))
    (hready : Ready s i l) :
    Fresh (s.updateGsoRow i l).2 0 0 ∧
    ((s.updateGsoRow i l).1 = true → l ≤ (s.updateGsoRow i l).2.gsoValidCols i) ∧
    ((s.updateGsoRow i l).1 = false → ∃ k, k < l ∧ k < i ∧ rS s.nCols s.bq k k = 0) ∧
    (∀ k, k ≠ i → k < s.nKnownRows → (s.updateGsoRow i l).2.gsoValidCols k = s.gsoValidCols k) ∧
    (s.updateGsoRow i l).2.bq = s.bq := by
  unfold updateGsoRow
  have hsrc := hs.src_le
  have hdsr : s.colsLocked = false → s.discoverRow.nSourceRows = s.nKnownRows + 1 := by
    intro h; unfold discoverRow; dsimp only; simp [h]
  have hdsr2 : s.nSourceRows ≤ s.discoverRow.nSourceRows := by
    unfold discoverRow; dsimp only; split_ifs <;> omega
  obtain ⟨t, ht⟩ : ∃ t, t = if s.nKnownRows ≤ i then s.discoverRow else s := ⟨_, rfl⟩
  rw [← ht]
  have ht_wf : WF t := by
    rw [ht]; split_ifs with h
    · exact (discoverRow_good hs (by omega)).wf
    · exact hs
  have ht_fresh : Fresh t 0 0 := by
    rw [ht]; split_ifs with h
    · exact discoverRow_fresh hs (by omega) hf
    · exact hf
  have ht_k : i < t.nKnownRows := by
    rw [ht]; split_ifs with h
    · change i < s.nKnownRows + 1; omega
    · omega
  have ht_s : l ≤ t.nSourceRows := by
    rw [ht]; split_ifs with h
    · rcases hls with h1 | ⟨h1, h2⟩
      · omega
      · rw [hdsr h1]; omega
    · rcases hls with h1 | ⟨h1, h2⟩
      · omega
      · omega
  have ht_v : ∀ k, k < s.nKnownRows → t.gsoValidCols k = s.gsoValidCols k := by
    intro k hk
    rw [ht]; split_ifs with h
    · change setAt s.gsoValidCols s.nKnownRows 0 k = _
      unfold setAt; rw [if_neg (by omega)]
    · rfl
  have ht_b : t.b = s.b := by rw [ht]; split_ifs <;> rfl
  have ht_n : t.nCols = s.nCols := by rw [ht]; split_ifs <;> rfl
  have ht_bq := bq_of_b ht_b
  have hvl := ht_fresh.validLe i ht_k
  have main := updateGsoLoop_fresh i (l - t.gsoValidCols i) (t.gsoValidCols i) t ht_wf ht_fresh ht_k
    le_rfl (by omega) hvl (by omega)
    (fun k hk => ht_fresh.valid i ht_k (by simp) k hk (by omega))
    (by
      intro k h0 h1 h2
      rw [ht_v k (by omega)]
      exact hready k (by omega) h2)
  obtain ⟨a1, a2, a3, a4⟩ := main
  refine ⟨a1, ?_, ?_, ?_, ?_⟩
  · intro h; dsimp only; rw [a2 h]; omega
  · intro h
    obtain ⟨k, k1, k2, k3⟩ := a3 h
    rw [ht_n, ht_bq] at k3
    by_cases hkl : k < l
    · exact ⟨k, hkl, k2, k3⟩
    · exfalso
      have := (ht_fresh.valid i ht_k (by simp) k (by omega) (by omega)).2 k2
      rw [ht_n, ht_bq] at this
      exact this.2 k3
  · intro k hk hk2
    dsimp only
    rw [a4 k hk, ht_v k hk2]
  · dsimp only
    rw [bq_of_b ((updateGsoLoop_fo _ _ _ _).b), ht_bq]

/-- opening a row operation -/
theorem Fresh.begin {s : GSO Exact} (hf : Fresh s 0 0) (lo hi : ℕ) : Fresh s lo hi :=
  ⟨fun hG k hk c hc _ => hf.bf hG k hk c hc (.inl (by simp)),
   fun hG i hi' j hj _ _ => hf.gf hG i hi' j hj (by simp) (by simp), hf.validLe,
   fun i hi' _ j hj _ => hf.valid i hi' (by simp) j hj (by omega)⟩

/-- A change of rows inside an open row operation. -/
theorem Fresh.modify {s s' : GSO Exact} {lo hi : ℕ} (hf : Fresh s lo hi)
    (e_d : s'.d = s.d) (e_n : s'.nCols = s.nCols) (e_g : s'.intGram = s.intGram)
    (e_k : s'.nKnownRows = s.nKnownRows) (e_kc : s'.nKnownCols = s.nKnownCols)
    (e_bf : s'.bf = s.bf) (e_gf : s'.gf = s.gf) (e_mu : s'.mu = s.mu) (e_r : s'.r = s.r)
    (e_v : s'.gsoValidCols = s.gsoValidCols)
    (hb : ∀ k c, c < s.nCols → (¬ Dirty lo hi k ∨ s.nKnownCols ≤ c) → s'.b k c = s.b k c) :
    Fresh s' lo hi := by
  have hbq : ∀ k, ¬ Dirty lo hi k → ∀ c < s.nCols, s'.bq k c = s.bq k c := by
    intro k hk c hc; unfold bq; rw [hb k c hc (.inl hk)]
  refine ⟨?_, ?_, ?_, ?_⟩
  · rw [e_g, e_d, e_n, e_kc, e_bf]
    intro hG k hk c hc h
    rw [hb k c hc h]; exact hf.bf hG k hk c hc h
  · rw [e_g, e_k, e_gf]
    intro hG i hi' j hj hdi hdj
    have : (s'.ip i j : ℚ) = (s.ip i j : ℚ) := by
      rw [ip_dotQ, ip_dotQ, e_n]; exact dotQ_congr (hbq i hdi) (hbq j hdj)
    rw [this]; exact hf.gf hG i hi' j hj hdi hdj
  · rw [e_k, e_v]; exact hf.validLe
  · rw [e_k, e_v, e_r, e_mu, e_n]
    intro i hi' hdi j hj hlo
    have hv := hf.validLe i hi'
    have hrows : ∀ k ≤ j, ∀ c < s.nCols, s'.bq k c = s.bq k c := by
      intro k hk c hc
      refine hbq k ?_ c hc
      unfold Dirty
      intro hdk
      by_cases h : lo ≤ i
      · have := hlo (by omega) h; omega
      · omega
    have hr : ∀ k ≤ j, rS s.nCols s'.bq k k = rS s.nCols s.bq k k := fun k hk =>
      rS_congr (fun k' hk' => hrows k' (by omega)) (hrows k hk)
    rw [rS_congr hrows (hbq i hdi), muS_congr hrows (hbq i hdi), hr j le_rfl]
    exact hf.valid i hi' hdi j hj hlo

theorem setAt_mat' {α : Type*} (m : Mat α) (i : ℕ) (v : ℕ → α) (k c : ℕ) :
    setAt m i v k c = if k = i then v c else m k c := by
  unfold setAt; split_ifs <;> rfl

theorem rowAddmulWe_fresh {s : GSO Exact} {lo hi : ℕ} (hf : Fresh s lo hi) {i j : ℕ}
    (hi' : Dirty lo hi i) (x : Exact) : Fresh (s.rowAddmulWe i j x) lo hi := by
  have aux : ∀ (v : ℕ → ℤ) (u uInvT g : Mat ℤ), (∀ c, s.nKnownCols ≤ c → v c = s.b i c) →
      Fresh { s with b := setAt s.b i v, u := u, uInvT := uInvT, g := g } lo hi := by
    intro v u w g hv
    refine hf.modify rfl rfl rfl rfl rfl rfl rfl rfl rfl rfl ?_
    intro k c hc h
    change setAt s.b i v k c = _
    rw [setAt_mat]
    split_ifs with hk
    · subst hk
      rcases h with h | h
      · exact absurd hi' h
      · exact hv c h
    · rfl
  unfold rowAddmulWe
  dsimp only
  split_ifs
  · exact aux _ _ _ _ (fun c hc => by rw [vecAdd_apply, if_neg (by omega)])
  · exact aux _ _ _ _ (fun c hc => by rw [vecSub_apply, if_neg (by omega)])
  · exact aux _ _ _ _ (fun c hc => by rw [vecAddmulSi_apply, if_neg (by omega)])
  · exact hf
  · exact aux _ _ _ _ (fun c hc => by rw [vecAddmul2exp_apply, if_neg (by omega)])
  · exact aux _ _ _ _ (fun c hc => by rw [vecAddmul2exp_apply, if_neg (by omega)])

theorem rowAdd_fresh {s : GSO Exact} {lo hi : ℕ} (hf : Fresh s lo hi) {i j : ℕ}
    (hi' : Dirty lo hi i) : Fresh (s.rowAdd i j) lo hi := by
  refine hf.modify rfl rfl rfl rfl rfl rfl rfl rfl rfl rfl ?_
  intro k c hc h
  change setAt s.b i _ k c = _
  rw [setAt_mat, vecAdd_apply]
  have : k = i → s.nKnownCols ≤ c := by
    intro hk; rw [hk] at h; tauto
  grind

theorem rowSub_fresh {s : GSO Exact} {lo hi : ℕ} (hf : Fresh s lo hi) {i j : ℕ}
    (hi' : Dirty lo hi i) : Fresh (s.rowSub i j) lo hi := by
  refine hf.modify rfl rfl rfl rfl rfl rfl rfl rfl rfl rfl ?_
  intro k c hc h
  change setAt s.b i _ k c = _
  rw [setAt_mat, vecSub_apply]
  have : k = i → s.nKnownCols ≤ c := by
    intro hk; rw [hk] at h; tauto
  grind

theorem rowAddmulSi_fresh {s : GSO Exact} {lo hi : ℕ} (hf : Fresh s lo hi) {i j : ℕ} (x : ℤ)
    (hi' : Dirty lo hi i) : Fresh (s.rowAddmulSi i j x) lo hi := by
  refine hf.modify rfl rfl rfl rfl rfl rfl rfl rfl rfl rfl ?_
  intro k c hc h
  change setAt s.b i _ k c = _
  rw [setAt_mat, vecAddmulSi_apply]
  have : k = i → s.nKnownCols ≤ c := by
    intro hk; rw [hk] at h; tauto
  grind

theorem rowAddmul2exp_fresh {s : GSO Exact} {lo hi : ℕ} (hf : Fresh s lo hi) {i j : ℕ} (x : ℤ) (e : ℕ)
    (hi' : Dirty lo hi i) : Fresh (s.rowAddmul2exp i j x e) lo hi := by
  refine hf.modify rfl rfl rfl rfl rfl rfl rfl rfl rfl rfl ?_
  intro k c hc h
  change setAt s.b i _ k c = _
  rw [setAt_mat, vecAddmul2exp_apply]
  have : k = i → s.nKnownCols ≤ c := by
    intro hk; rw [hk] at h; tauto
  grind

theorem rowSwap_fresh {s : GSO Exact} (hs : WF s) {lo hi : ℕ} (hf : Fresh s lo hi) {i j : ℕ}
    (hi' : Dirty lo hi i) (hj' : Dirty lo hi j) (his : i < s.nSourceRows) (hjs : j < s.nSourceRows) :
    Fresh (s.rowSwap i j) lo hi := by
  refine hf.modify rfl rfl rfl rfl rfl rfl rfl rfl rfl rfl ?_
  intro k c hc h
  change swapAt s.b i j k c = _
  unfold swapAt
  split_ifs with h1 h2
  · subst h1
    rcases h with h | h
    · exact absurd hi' h
    · rw [hs.zeroSrc _ his c hc h, hs.zeroSrc _ hjs c hc h]
  · subst h2
    rcases h with h | h
    · exact absurd hj' h
    · rw [hs.zeroSrc _ his c hc h, hs.zeroSrc _ hjs c hc h]
  · rfl

/-! ### `row_op_end` -/

theorem forUp_setNan (row : ℕ → Exact) (n c : ℕ) :
    forUp 0 n (fun j row => setAt row j nan) row c = if c < n then none else row c := by
  have := forUp_inv (P := fun m (w : ℕ → Exact) => ∀ c, w c = if c < m then none else row c)
    (fun j row => setAt row j nan) (Nat.zero_le n) row (by intro c; simp)
    (by
      intro m w _ _ hw c
      unfold setAt
      rw [hw c]
      have : (nan : Exact) = none := rfl
      grind)
  exact this c

theorem updateBf_bf (s : GSO Exact) (i k c : ℕ) :
    (s.updateBf i).bf k c =
      if k = i ∧ c < max s.nKnownCols (s.initRowSize i) then some (s.b i c : ℚ) else s.bf k c := by
  unfold updateBf
  dsimp only
  rw [setAt_mat']
  have := forUp_inv (P := fun m (w : ℕ → Exact) => ∀ c, w c = if c < m then some (s.b i c : ℚ) else s.bf i c)
    (fun j row => setAt row j (ofInt (s.b i j))) (Nat.zero_le (max s.nKnownCols (s.initRowSize i))) (s.bf i)
    (by intro c; simp)
    (by
      intro m w _ _ hw c
      unfold setAt
      rw [hw c]
      have : (ofInt (s.b i m) : Exact) = some (s.b i m : ℚ) := rfl
      grind)
  rw [this]
  grind

theorem invalidateGramRow_gf (s : GSO Exact) (i p q : ℕ) :
    (s.invalidateGramRow i).gf p q = if p = i ∧ q ≤ i then none else s.gf p q := by
  unfold invalidateGramRow
  dsimp only
  rw [setAt_mat', forUp_setNan]
  grind

theorem rowOpEndFloat_eff (s : GSO Exact) (i : ℕ) :
    (∀ k c, (s.rowOpEndFloat i).bf k c =
      if k = i ∧ c < max s.nKnownCols (s.initRowSize i) then some (s.b i c : ℚ) else s.bf k c) ∧
    (∀ p q, q ≤ p → p < s.nKnownRows → (s.rowOpEndFloat i).gf p q =
      if p = i ∨ q = i then none else s.gf p q) ∧
    (s.rowOpEndFloat i).gsoValidCols = s.gsoValidCols ∧ (s.rowOpEndFloat i).r = s.r ∧
    (s.rowOpEndFloat i).mu = s.mu := by
  unfold rowOpEndFloat
  dsimp only
  set t := (s.updateBf i).invalidateGramRow i with ht
  have t_bf : t.bf = (s.updateBf i).bf := rfl
  have t_gf : ∀ p q, t.gf p q = if p = i ∧ q ≤ i then none else s.gf p q := by
    intro p q; rw [ht, invalidateGramRow_gf]; rfl
  have t_k : t.nKnownRows = s.nKnownRows := rfl
  have loop := forUp_inv' (fun w => w.bf = t.bf ∧ w.gsoValidCols = t.gsoValidCols ∧ w.r = t.r ∧ w.mu = t.mu)
    (fun j (s : GSO Exact) => { s with gf := Mat.set s.gf j i nan }) (i + 1) t.nKnownRows t
    ⟨rfl, rfl, rfl, rfl⟩ (fun j w _ _ h => h)
  refine ⟨?_, ?_, loop.2.1, loop.2.2.1, loop.2.2.2⟩
  · intro k c
    rw [loop.1, t_bf, updateBf_bf]
  · intro p q hqp hp
    by_cases hik : i + 1 ≤ t.nKnownRows
    · have loop2 := forUp_inv (P := fun m (w : GSO Exact) => ∀ p q, w.gf p q =
          if q = i ∧ i < p ∧ p < m then none else t.gf p q)
        (fun j (s : GSO Exact) => { s with gf := Mat.set s.gf j i nan }) hik t
        (by intro p q; grind)
        (by
          intro m w _ _ hw p q
          dsimp only
          rw [Mat.set_apply, hw p q]
          have : (nan : Exact) = none := rfl
          grind)
      rw [loop2, t_gf]
      grind
    · rw [forUp_empty (by omega), t_gf]
      grind

theorem rowOpEndBody_eff (s : GSO Exact) (i : ℕ) :
    (s.intGram = false → ∀ k c, (s.rowOpEndBody i).bf k c =
      if k = i ∧ c < max s.nKnownCols (s.initRowSize i) then some (s.b i c : ℚ) else s.bf k c) ∧
    (s.intGram = false → ∀ p q, q ≤ p → p < s.nKnownRows → (s.rowOpEndBody i).gf p q =
      if p = i ∨ q = i then none else s.gf p q) ∧
    (∀ k, (s.rowOpEndBody i).gsoValidCols k = if k = i then 0 else s.gsoValidCols k) ∧
    (s.rowOpEndBody i).r = s.r ∧ (s.rowOpEndBody i).mu = s.mu := by
  unfold rowOpEndBody
  obtain ⟨h1, h2, h3, h4, h5⟩ := rowOpEndFloat_eff s i
  by_cases hG : s.intGram = true
  · rw [if_pos hG]
    refine ⟨fun h => absurd h (by simp [hG]), fun h => absurd h (by simp [hG]), ?_, rfl, rfl⟩
    intro k
    change setAt s.gsoValidCols i (min (s.gsoValidCols i) 0) k = _
    unfold setAt; simp
  · rw [if_neg hG]
    refine ⟨fun _ => h1, fun _ => h2, ?_, h4, h5⟩
    intro k
    change setAt (s.rowOpEndFloat i).gsoValidCols i (min ((s.rowOpEndFloat i).gsoValidCols i) 0) k = _
    rw [h3]
    unfold setAt; simp

/-- closing a row operation makes everything fresh again -/
theorem rowOpEnd_fresh {s : GSO Exact} {lo hi : ℕ} (hs : WF s) (hf : Fresh s lo hi) (hlh : lo ≤ hi)
    (hk : hi ≤ s.nKnownRows) :
    Fresh (s.rowOpEnd lo hi) 0 0 ∧
    (∀ k < lo, (s.rowOpEnd lo hi).gsoValidCols k = s.gsoValidCols k) := by
  have hkd := hs.known_le
  -- first loop
  have L := forUp_inv (P := fun m (w : GSO Exact) => FloatOnly s w ∧
      (s.intGram = false → ∀ k c, w.bf k c = if lo ≤ k ∧ k < m ∧ c < max s.nKnownCols (s.initRowSize k)
        then some (s.b k c : ℚ) else s.bf k c) ∧
      (s.intGram = false → ∀ p q, q ≤ p → p < s.nKnownRows → w.gf p q =
        if (lo ≤ p ∧ p < m) ∨ (lo ≤ q ∧ q < m) then none else s.gf p q) ∧
      (∀ k, w.gsoValidCols k = if lo ≤ k ∧ k < m then 0 else s.gsoValidCols k) ∧ w.r = s.r ∧ w.mu = s.mu)
    (fun i s => s.rowOpEndBody i) hlh s
    ⟨.refl s, by intro _ k c; grind, by intro _ p q _ _; grind, by intro k; grind, rfl, rfl⟩
    (by
      rintro m w h1 h2 ⟨fo, a1, a2, a3, a4, a5⟩
      obtain ⟨e1, e2, e3, e4, e5⟩ := rowOpEndBody_eff w m
      refine ⟨fo.trans (rowOpEndBody_fo w m), ?_, ?_, ?_, by rw [e4, a4], by rw [e5, a5]⟩
      · intro hG k c
        rw [e1 (by rw [fo.intGram]; exact hG), fo.nKnownCols, fo.initRowSize, fo.b, a1 hG]
        grind
      · intro hG p q hqp hp
        rw [e2 (by rw [fo.intGram]; exact hG) p q hqp (by rw [fo.nKnownRows]; exact hp), a2 hG p q hqp hp]
        grind
      · intro k
        rw [e3, a3]
        grind)
  set w := forUp lo hi (fun i (s : GSO Exact) => s.rowOpEndBody i) s with hw
  obtain ⟨fo, a1, a2, a3, a4, a5⟩ := L
  -- second loop
  have hk' : hi ≤ w.nKnownRows := by rw [fo.nKnownRows]; exact hk
  have L2 := forUp_inv (P := fun m (v : GSO Exact) => FloatOnly w v ∧ v.bf = w.bf ∧ v.gf = w.gf ∧ v.r = w.r ∧
      v.mu = w.mu ∧ (∀ k, v.gsoValidCols k = if hi ≤ k ∧ k < m then min (w.gsoValidCols k) lo
        else w.gsoValidCols k))
    (fun i (s : GSO Exact) => s.invalidateGsoRow i lo) hk' w
    ⟨.refl w, rfl, rfl, rfl, rfl, by intro k; grind⟩
    (by
      rintro m v h1 h2 ⟨fo', c1, c2, c3, c4, c5⟩
      refine ⟨fo'.trans (invalidateGsoRow_fo v m lo), c1, c2, c3, c4, ?_⟩
      intro k
      change setAt v.gsoValidCols m (min (v.gsoValidCols m) lo) k = _
      unfold setAt
      rw [c5, c5]
      grind)
  have hend : s.rowOpEnd lo hi = forUp hi w.nKnownRows (fun i (s : GSO Exact) => s.invalidateGsoRow i lo) w := rfl
  rw [← hend] at L2
  set t := s.rowOpEnd lo hi with ht
  obtain ⟨fo', c1, c2, c3, c4, c5⟩ := L2
  have foT : FloatOnly s t := fo.trans fo'
  have hbq : t.bq = s.bq := bq_of_b foT.b
  have hvalid : ∀ k < s.nKnownRows, t.gsoValidCols k = if lo ≤ k ∧ k < hi then 0
      else if hi ≤ k then min (s.gsoValidCols k) lo else s.gsoValidCols k := by
    intro k hk
    rw [c5, a3, fo.nKnownRows]
    grind
  refine ⟨⟨?_, ?_, ?_, ?_⟩, ?_⟩
  · rw [foT.intGram, foT.d, foT.nCols, foT.b, c1]
    intro hG k hkd c hc _
    rw [a1 hG]
    split_ifs with h
    · rfl
    · refine hf.bf hG k hkd c hc ?_
      unfold Dirty
      by_cases h2 : lo ≤ k ∧ k < hi
      · right; by_contra h3; exact h ⟨h2.1, h2.2, by omega⟩
      · left; exact h2
  · rw [foT.intGram, foT.nKnownRows, c2]
    intro hG p hp q hq _ _
    rw [a2 hG p q hq hp, foT.ip]
    split_ifs with h
    · left; rfl
    · exact hf.gf hG p hp q hq (by unfold Dirty; tauto) (by unfold Dirty; tauto)
  · rw [foT.nKnownRows]
    intro i hi'
    have := hf.validLe i hi'
    rw [hvalid i hi']
    split_ifs <;> omega
  · rw [foT.nKnownRows, foT.nCols, hbq, c3, c4, a4, a5]
    intro i hi' _ j hj _
    rw [hvalid i hi'] at hj
    refine hf.valid i hi' ?_ j ?_ ?_
    · unfold Dirty; intro h; rw [if_pos h] at hj; omega
    · split_ifs at hj <;> omega
    · intro h1 h2
      split_ifs at hj <;> omega
  · intro k hk'
    rw [hvalid k (by omega)]
    split_ifs <;> omega

/-! ### moving rows -/

theorem invalidateFrom_valid (s : GSO Exact) (m k : ℕ) :
    (s.invalidateFrom m m).gsoValidCols k =
      if m ≤ k ∧ k < s.nKnownRows then min (s.gsoValidCols k) m else s.gsoValidCols k := by
  unfold invalidateFrom
  by_cases h : m ≤ s.nKnownRows
  · exact forUp_inv (P := fun i (w : GSO Exact) => ∀ k, w.gsoValidCols k =
        if m ≤ k ∧ k < i then min (s.gsoValidCols k) m else s.gsoValidCols k)
      (fun i (s : GSO Exact) => s.invalidateGsoRow i m) h s (by intro k; grind)
      (by
        intro i w h1 h2 hw k
        change setAt w.gsoValidCols i (min (w.gsoValidCols i) m) k = _
        unfold setAt
        rw [hw, hw]
        grind) k
  · rw [forUp_empty (by omega), if_neg (by omega)]

/-- effect of permuting rows at positions `≥ m` by `σ` -/
theorem Fresh.perm {s s' : GSO Exact} (hf : Fresh s 0 0) (σ : ℕ → ℕ) (m : ℕ)
    (e_d : s'.d = s.d) (e_n : s'.nCols = s.nCols) (e_g : s'.intGram = s.intGram)
    (hσd : ∀ k < s.d, σ k < s.d)
    (hσlow : ∀ k < m, σ k = k) (hσhigh : ∀ k, m ≤ k → m ≤ σ k)
    (hk : ∀ k < s'.nKnownRows, k < s.nKnownRows ∧ σ k < s.nKnownRows)
    (hb : s'.b = fun k => s.b (σ k))
    (hbf : s.intGram = false → s'.bf = fun k => s.bf (σ k))
    (hgf : s.intGram = false → ∀ i < s'.nKnownRows, ∀ j ≤ i, s'.gf i j = symGet s.gf (σ i) (σ j))
    (hmu : s'.mu = fun k => s.mu (σ k)) (hr : s'.r = fun k => s.r (σ k))
    (hv : ∀ k < s'.nKnownRows, s'.gsoValidCols k =
      if m ≤ k then min (s.gsoValidCols (σ k)) m else s.gsoValidCols k) :
    Fresh s' 0 0 := by
  have hbq : ∀ k, s'.bq k = s.bq (σ k) := by intro k; unfold bq; rw [hb]
  refine ⟨?_, ?_, ?_, ?_⟩
  · rw [e_g, e_d, e_n]
    intro hG k hk c hc _
    rw [hbf hG, hb]
    exact hf.bf hG (σ k) (hσd k hk) c hc (.inl (by simp))
  · rw [e_g]
    intro hG i hi j hj _ _
    rw [hgf hG i hi j hj]
    have h1 := (hk i hi).2
    have h2 := (hk j (by omega)).2
    have : (s'.ip i j : ℚ) = (s.ip (σ i) (σ j) : ℚ) := by
      rw [ip_dotQ, ip_dotQ, hbq, hbq, e_n]
    rw [this]
    unfold symGet
    split_ifs with h
    · exact hf.gf hG _ h1 _ h (by simp) (by simp)
    · rw [ip_comm]; exact hf.gf hG _ h2 _ (by omega) (by simp) (by simp)
  · intro i hi
    rw [hv i hi]
    have := hf.validLe i (hk i hi).1
    split_ifs <;> omega
  · rw [hmu, hr, e_n]
    intro i hi _ j hj _
    rw [hv i hi] at hj
    have hvl := hf.validLe i (hk i hi).1
    have hjm : j < m ∨ i < m := by
      split_ifs at hj
      · left; omega
      · right; omega
    have hji : i < m → j < m := by
      intro h; rw [if_neg (by omega)] at hj; omega
    have hjm' : j < m := by tauto
    have hrows : ∀ k ≤ j, ∀ c < s.nCols, s'.bq k c = s.bq k c := by
      intro k hk c _; rw [hbq, hσlow k (by omega)]
    have hi2 : ∀ c < s.nCols, s'.bq i c = s.bq (σ i) c := by intro c _; rw [hbq]
    have hrjj : rS s.nCols s'.bq j j = rS s.nCols s.bq j j := rS_congr hrows (hrows j le_rfl)
    rw [rS_congr hrows hi2, muS_congr hrows hi2, hrjj]
    have hval := hf.valid (σ i) (hk i hi).2 (by simp) j
      (by
        split_ifs at hj with h
        · omega
        · rw [hσlow i (by omega)]; exact hj)
      (by omega)
    refine ⟨hval.1, ?_⟩
    intro h
    refine hval.2 ?_
    by_cases him : m ≤ i
    · have := hσhigh i him; omega
    · rw [hσlow i (by omega)]; exact h

theorem moveRowUp_fresh {s : GSO Exact} (hs : WF s) (hf : Fresh s 0 0) {o n : ℕ} (hno : n < o)
    (ho : o < s.nKnownRows) : Fresh (s.moveRowUp o n) 0 0 := by
  have hle : n ≤ o := hno.le
  have hd := hs.known_le
  refine hf.perm (rotR n o) n rfl rfl rfl (fun k hk => (rotR_lt (by omega) hle).2 hk) ?_ ?_ ?_
    (rotateRight_eq _ hle) ?_ ?_ (rotateRight_eq _ hle) (rotateRight_eq _ hle) ?_
  · intro k hk; unfold rotR; grind
  · intro k hk; unfold rotR; grind
  · intro k hk; exact ⟨hk, (rotR_lt ho hle).2 hk⟩
  · intro hG; unfold moveRowUp; dsimp only; rw [if_neg (by rw [hG]; simp), rotateRight_eq _ hle]
  · intro hG i hi j hj
    unfold moveRowUp; dsimp only; rw [if_neg (by rw [hG]; simp)]
    exact rotateGramRight_lower s.gf hle ho hi hj
  · intro k hk
    change k < s.nKnownRows at hk
    change rotateRightBySwap (s.invalidateFrom n n).gsoValidCols n o k = _
    rw [rotateRight_eq _ hle]; dsimp only; rw [invalidateFrom_valid]
    have := (rotR_lt (k := k) ho hle).2 hk
    unfold rotR at *
    grind

theorem moveRowForget_f (s : GSO Exact) (o n : ℕ) :
    (s.moveRowForget o n).bf = s.bf ∧ (s.moveRowForget o n).gf = s.gf ∧ (s.moveRowForget o n).mu = s.mu ∧
    (s.moveRowForget o n).r = s.r ∧ (s.moveRowForget o n).gsoValidCols = s.gsoValidCols ∧
    (s.moveRowForget o n).b = s.b ∧ (s.moveRowForget o n).d = s.d ∧ (s.moveRowForget o n).nCols = s.nCols ∧
    (s.moveRowForget o n).intGram = s.intGram ∧
    (s.moveRowForget o n).nKnownRows =
      if s.nKnownRows ≤ n ∧ o < s.nKnownRows then s.nKnownRows - 1 else s.nKnownRows := by
  unfold moveRowForget
  dsimp only
  by_cases h1 : s.nKnownRows ≤ n <;> by_cases h2 : o < s.nKnownRows <;> simp [h1, h2]

theorem moveRowDown_fresh {s : GSO Exact} (hs : WF s) (hf : Fresh s 0 0) {o n : ℕ} (hno : o < n)
    (hn : n < s.d) : Fresh ((s.moveRowDown o n).moveRowForget o n) 0 0 := by
  have hle : o ≤ n := hno.le
  have hd := hs.known_le
  obtain ⟨f1, f2, f3, f4, f5, f6, f7, f8, f9, f10⟩ := moveRowForget_f (s.moveRowDown o n) o n
  have hkr : ((s.moveRowDown o n).moveRowForget o n).nKnownRows =
      if s.nKnownRows ≤ n ∧ o < s.nKnownRows then s.nKnownRows - 1 else s.nKnownRows := f10
  have hpq : ∀ k, k < ((s.moveRowDown o n).moveRowForget o n).nKnownRows →
      (k < s.nKnownRows ∧ rotL o n k < s.nKnownRows ∧
        (o + 1 < s.nKnownRows → rotL o (min n (s.nKnownRows - 1)) k = rotL o n k) ∧
        (¬ o + 1 < s.nKnownRows → rotL o n k = k)) := by
    intro k hk; rw [hkr] at hk; unfold rotL; grind
  refine hf.perm (rotL o n) o f7 f8 f9 (fun k hk => (rotL_lt hn hle).2 hk) ?_ ?_ ?_ ?_ ?_ ?_ ?_ ?_ ?_
  · intro k hk; unfold rotL; grind
  · intro k hk; unfold rotL; grind
  · intro k hk; exact ⟨(hpq k hk).1, (hpq k hk).2.1⟩
  · rw [f6]; exact rotateLeft_eq _ hle
  · intro hG; rw [f1]; unfold moveRowDown; dsimp only; rw [if_neg (by rw [hG]; simp), rotateLeft_eq _ hle]
  · intro hG i hi j hj
    rw [f2]
    obtain ⟨p1, p2, p3, p4⟩ := hpq i hi
    obtain ⟨q1, q2, q3, q4⟩ := hpq j (by omega)
    unfold moveRowDown
    dsimp only
    rw [hG]
    by_cases h : o + 1 < s.nKnownRows
    · simp only [h, Bool.not_false, decide_true, Bool.and_self, if_true]
      rw [rotateGramLeft_lower s.gf (by omega : o ≤ min n (s.nKnownRows - 1)) (by omega) p1 hj, p3 h, q3 h]
    · simp only [h, decide_false, Bool.and_false]
      rw [p4 h, q4 h, symGet_of_le _ hj]; rfl
  · rw [f3]; exact rotateLeft_eq _ hle
  · rw [f4]; exact rotateLeft_eq _ hle
  · intro k hk
    obtain ⟨p1, p2, _, _⟩ := hpq k hk
    rw [f5]
    change rotateLeftBySwap (s.invalidateFrom o o).gsoValidCols o n k = _
    rw [rotateLeft_eq _ hle]; dsimp only; rw [invalidateFrom_valid]
    unfold rotL at *
    grind

theorem moveRow_fresh {s : GSO Exact} (hs : WF s) (hf : Fresh s 0 0) {o n : ℕ}
    (h1 : n < o → o < s.nKnownRows) (h2 : o < n → n < s.d) : Fresh (s.moveRow o n) 0 0 := by
  unfold moveRow
  split_ifs with a b
  · exact moveRowUp_fresh hs hf a (h1 a)
  · exact moveRowDown_fresh hs hf b (h2 b)
  · exact hf

theorem setR_fresh {s : GSO Exact} (hf : Fresh s 0 0) {i : ℕ} (hv : i ≤ s.gsoValidCols i) {f : Exact}
    (hfv : f = some (rS s.nCols s.bq i i)) : Fresh (s.setR i i f) 0 0 := by
  refine ⟨hf.bf, hf.gf, ?_, ?_⟩
  · intro k hk
    change (if s.gsoValidCols i = i then setAt s.gsoValidCols i (i + 1) else s.gsoValidCols) k ≤ _
    have := hf.validLe k hk
    unfold setAt
    split_ifs <;> grind
  · intro p hp hdp j hj hlo
    change Mat.set s.r i i f p j = some (rS s.nCols s.bq p j) ∧ (j < p → s.mu p j = _ ∧ _)
    rw [Mat.set_apply]
    change j < (if s.gsoValidCols i = i then setAt s.gsoValidCols i (i + 1) else s.gsoValidCols) p at hj
    by_cases h : p = i ∧ j = i
    · rw [if_pos h, h.1, h.2]
      exact ⟨hfv, fun h => by omega⟩
    · rw [if_neg h]
      refine hf.valid p hp hdp j ?_ hlo
      unfold setAt at hj
      split_ifs at hj with h1
      · dsimp only at hj
        split_ifs at hj with h2
        · subst h2; grind
        · exact hj
      · exact hj

theorem lockCols_fresh {s : GSO Exact} (hf : Fresh s 0 0) : Fresh s.lockCols 0 0 :=
  ⟨hf.bf, hf.gf, hf.validLe, hf.valid⟩

theorem unlockCols_fresh {s : GSO Exact} (hs : WF s) (hf : Fresh s 0 0) : Fresh s.unlockCols 0 0 := by
  have h : s.unlockCols.nKnownRows ≤ s.nKnownRows := hs.src_le
  exact ⟨hf.bf, fun hG i hi j hj => hf.gf hG i (by omega) j hj, fun i hi => hf.validLe i (by omega),
    fun i hi => hf.valid i (by omega)⟩

theorem mk0_fresh (d n : ℕ) (ig wu wi fl : Bool) (b u v jz : Mat ℤ) (jf : Mat Exact) (hn : 1 ≤ n) :
    Fresh (mk0 d n ig wu wi fl b u v jz jf) 0 0 := by
  obtain ⟨hwf, hb, hu, hv, hd, hc, hg, hwu, hwi, hk, hl⟩ := mk0_wf d n ig wu wi fl b u v jz jf hn
  refine ⟨?_, by rw [hk]; intro _ i hi; omega, by rw [hk]; intro i hi; omega, by rw [hk]; intro i hi; omega⟩
  rw [hg, hd, hc, hb]
  intro hig k hkd c hcn _
  subst hig
  let s0 : GSO Exact := { d := d, nCols := n, intGram := false, withU := wu, withUinv := wi
                          forceLong := fl, colsLocked := false, nKnownRows := 0, nSourceRows := 0
                          nKnownCols := 0, initRowSize := fun _ => 0, b := b, u := u, uInvT := v
                          g := jz, bf := jf, gf := jf, mu := jf, r := jf, gsoValidCols := fun _ => 0 }
  let body : ℕ → GSO Exact → GSO Exact := fun i s =>
    let s := { s with initRowSize := setAt s.initRowSize i (max (sizeNz (s.b i) s.nCols) 1) }
    if s.intGram then s else updateBf { s with bf := setAt s.bf i (fun _ => ofInt 0) } i
  have key := forUp_inv (P := fun i s => s.intGram = false ∧ s.b = b ∧ s.nCols = n ∧ s.nKnownCols = 0 ∧
      ∀ k < i, ∀ c < n, s.bf k c = some (b k c : ℚ))
    body (Nat.zero_le d) s0 ⟨rfl, rfl, rfl, rfl, by intro k hk; omega⟩
    (by
      rintro i s _ _ ⟨h1, h2, h3, h4, h5⟩
      have e : body i s = updateBf { s with
        initRowSize := setAt s.initRowSize i (max (sizeNz (s.b i) s.nCols) 1)
        bf := setAt s.bf i (fun _ => ofInt 0) } i := by
        dsimp only [body]; rw [if_neg (by rw [h1]; simp)]
      rw [e]
      refine ⟨h1, h2, h3, h4, ?_⟩
      intro k hk c hc
      rw [updateBf_bf]
      dsimp only
      rw [h2, h3, h4]
      simp only [setAt_mat']
      by_cases hki : k = i
      · subst hki
        rw [if_pos rfl]
        split_ifs with h
        · rfl
        · have : b k c = 0 := by
            refine sizeNz_zero (b k) n c ?_ hc
            simp only [setAt, if_true, true_and] at h
            omega
          rw [this]; rfl
      · rw [if_neg (by tauto), if_neg hki]
        exact h5 k (by omega) c hc)
  exact key.2.2.2.2 k hkd c hcn

end GSO
end Fplll

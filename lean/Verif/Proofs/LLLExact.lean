import Verif.Proofs.LLL
import Verif.Proofs.Fresh

/-!
# LLL in exact arithmetic
-/

namespace Fplll

open FloatOps GSO Spec

namespace Spec

theorem dotQ_add_left (n : ℕ) (v v' w : ℕ → ℚ) (x : ℚ) :
    dotQ n (fun c => v c + x * v' c) w = dotQ n v w + x * dotQ n v' w := by
  unfold dotQ
  rw [Finset.mul_sum, ← Finset.sum_add_distrib]
  exact Finset.sum_congr rfl (fun c _ => by ring)

theorem muS_self {n : ℕ} {B : ℕ → ℕ → ℚ} {i : ℕ} (h : normStar n B i ≠ 0) : muS n B i i = 1 := by
  rw [muS_eq, rS_self]; exact div_self h

theorem rS_upper (n : ℕ) (B : ℕ → ℕ → ℚ) {i j : ℕ} (h : i < j) : rS n B i j = 0 := by
  induction i using Nat.strong_induction_on with
  | _ i ih =>
    have e : dotQ n (bstar n B j) (bstar n B i) = 0 := bstar_orth n B (by omega)
    rw [dotQ_bstar] at e
    rw [Finset.sum_eq_zero (fun k hk => ?_)] at e
    · unfold rS; rw [dotQ_comm]; linarith
    · rw [Finset.mem_range] at hk
      rw [bstar_orth n B (by omega), mul_zero]

theorem muS_upper (n : ℕ) (B : ℕ → ℕ → ℚ) {i j : ℕ} (h : i < j) : muS n B i j = 0 := by
  rw [muS_eq, rS_upper n B h, zero_div]

/-- adding a multiple of row `j` to row `i` changes `μ_{i,k}` by that multiple of `μ_{j,k}` -/
theorem muS_add {n : ℕ} {B B' : ℕ → ℕ → ℚ} {i j k : ℕ} {x : ℚ}
    (hrows : ∀ l ≤ k, ∀ c < n, B' l c = B l c) (hi : ∀ c < n, B' i c = B i c + x * B j c) :
    muS n B' i k = muS n B i k + x * muS n B j k := by
  have hb := bstar_congr k hrows
  unfold muS
  rw [dotQ_congr hi hb, dotQ_congr hb hb, dotQ_add_left]
  ring

/-- the squared norm of the projection of row `i` orthogonally to the first `k` rows -/
def projSq (n : ℕ) (B : ℕ → ℕ → ℚ) (i k : ℕ) : ℚ :=
  dotQ n (B i) (B i) - ∑ j ∈ Finset.range k, muS n B i j * rS n B i j

theorem projSq_succ (n : ℕ) (B : ℕ → ℕ → ℚ) (i k : ℕ) :
    projSq n B i k = projSq n B i (k + 1) + muS n B i k * rS n B i k := by
  unfold projSq; rw [Finset.sum_range_succ]; ring

theorem projSq_succ' (n : ℕ) (B : ℕ → ℕ → ℚ) (i k : ℕ) :
    projSq n B i k = projSq n B i (k + 1) + muS n B i k ^ 2 * normStar n B k := by
  rw [projSq_succ]
  congr 1
  by_cases h : normStar n B k = 0
  · rw [muS_eq, rS_self, h]; simp
  · have : rS n B i k = muS n B i k * normStar n B k := by
      rw [muS_eq, rS_self]; field_simp
    rw [this]; ring

theorem projSq_self (n : ℕ) (B : ℕ → ℕ → ℚ) (i : ℕ) : projSq n B i i = normStar n B i :=
  (normStar_eq n B i).symm

/-- a basis whose row `k` is the old row `i` and whose earlier rows are unchanged -/
theorem normStar_insert {n : ℕ} {B B' : ℕ → ℕ → ℚ} {i k : ℕ} (hrows : ∀ l < k, ∀ c < n, B' l c = B l c)
    (hk : ∀ c < n, B' k c = B i c) : normStar n B' k = projSq n B i k := by
  rw [normStar_eq]
  unfold projSq
  rw [dotQ_congr hk hk]
  congr 1
  refine Finset.sum_congr rfl (fun j hj => ?_)
  rw [Finset.mem_range] at hj
  rw [muS_congr (fun l hl => hrows l (by omega)) hk, rS_congr (fun l hl => hrows l (by omega)) hk]

theorem projSq_nonneg (n : ℕ) (B : ℕ → ℕ → ℚ) (i k : ℕ) : 0 ≤ projSq n B i k := by
  have := normStar_insert (n := n) (B := B) (B' := fun l c => if l = k then B i c else B l c) (i := i) (k := k)
    (fun l hl c _ => by rw [if_neg (by omega)]) (fun c _ => by rw [if_pos rfl])
  rw [← this]; exact normStar_nonneg _ _ _

end Spec

namespace LLL

/-- value of a rounding: nearest integer -/
theorem ratRnd_spec (q : ℚ) : |q - (ratRnd q : ℚ)| ≤ 1 / 2 := by
  unfold ratRnd
  have h1 := Int.floor_le (q + 1 / 2)
  have h2 := Int.lt_floor_add_one (q + 1 / 2)
  rw [abs_le]
  constructor <;> linarith

theorem rowAddmulWe_b {s : GSO Exact} (hs : WF s) {i j : ℕ} (hj : j < s.nSourceRows) (z : ℤ) (k c : ℕ)
    (hc : c < s.nCols) :
    (s.rowAddmulWe i j (some (z : ℚ))).b k c = if k = i then s.b i c + z * s.b j c else s.b k c := by
  have e : (getSiExp (some (z : ℚ) : Exact)) = (z, 0) := by
    change ((⌊(z : ℚ)⌋, 0) : ℤ × ℕ) = _
    rw [Int.floor_intCast]
  have hz : s.nKnownCols ≤ c → s.b j c = 0 := fun h => hs.zeroSrc j hj c hc h
  unfold rowAddmulWe
  dsimp only
  rw [e]
  dsimp only
  rw [if_pos rfl]
  split_ifs with h1 h2 h3 h4 h5 h6
  all_goals first
    | (change setAt s.b i _ k c = _
       rw [setAt_mat]
       first
        | rw [vecAdd_apply]
        | rw [vecSub_apply]
        | rw [vecAddmulSi_apply]
       grind)
    | grind

theorem rowAddmulWe_rest (s : GSO Exact) (i j : ℕ) (x : Exact) :
    (s.rowAddmulWe i j x).mu = s.mu ∧ (s.rowAddmulWe i j x).r = s.r ∧
    (s.rowAddmulWe i j x).gsoValidCols = s.gsoValidCols ∧ (s.rowAddmulWe i j x).nCols = s.nCols ∧
    (∀ k, k ≠ i → (s.rowAddmulWe i j x).b k = s.b k) := by
  unfold rowAddmulWe
  dsimp only
  split_ifs
  all_goals
    refine ⟨rfl, rfl, rfl, rfl, ?_⟩
    intro k hk
    first
      | rfl
      | (change setAt s.b i _ k = _
         unfold setAt
         rw [if_neg hk])

/-- what `babai` needs in exact arithmetic -/
structure XPre (s : GSO Exact) (kappa stop : ℕ) : Prop where
  pre : BabaiPre s kappa stop
  fresh : Fresh s 0 0
  ready : ∀ j < stop, j + 1 ≤ s.gsoValidCols j

/-- effect of one reduction pass in exact arithmetic -/
theorem babaiPass_exact {s : GSO Exact} {kappa stop start : ℕ} (hs : WF s) (hf : Fresh s 0 0)
    (hk : kappa < s.nKnownRows) (hle : stop ≤ kappa) (hsrc : stop ≤ s.nSourceRows)
    (hready : ∀ j < stop, j + 1 ≤ s.gsoValidCols j) (hv : stop ≤ s.gsoValidCols kappa) :
    Fresh (babaiPass s kappa start stop) 0 0 ∧
    (∀ k, k ≠ kappa → (babaiPass s kappa start stop).b k = s.b k) ∧
    (∀ k < kappa, (babaiPass s kappa start stop).gsoValidCols k = s.gsoValidCols k) ∧
    (∀ j, start ≤ j → j < stop →
      |muS s.nCols (babaiPass s kappa start stop).bq kappa j| ≤ 1 / 2) := by
  have hpos : ∀ j < stop, normStar s.nCols s.bq j ≠ 0 := by
    intro j hj
    rw [← rS_self]
    exact ((hf.valid kappa hk (by simp) j (by omega) (by omega)).2 (by omega)).2
  have hmu : ∀ j < stop, ∀ k < j, s.mu j k = some (muS s.nCols s.bq j k) := by
    intro j hj k hkj
    have := hready j hj
    exact ((hf.valid j (by omega) (by simp) k (by omega) (by omega)).2 hkj).1
  have hmuk : ∀ k < stop, s.mu kappa k = some (muS s.nCols s.bq kappa k) := by
    intro k hkj
    exact ((hf.valid kappa hk (by simp) k (by omega) (by omega)).2 (by omega)).1
  unfold babaiPass
  dsimp only
  -- the copy of the coefficients
  have hbm : ∀ k, start ≤ k → k < stop →
      forUp start stop (fun j (bm : ℕ → Exact) => setAt bm j (s.mu kappa j)) (fun _ => nan) k =
        some (muS s.nCols s.bq kappa k) := by
    intro k h1 h2
    have := forUp_inv (P := fun m (bm : ℕ → Exact) => ∀ k, start ≤ k → k < m → bm k = s.mu kappa k)
      (fun j (bm : ℕ → Exact) => setAt bm j (s.mu kappa j)) (by omega : start ≤ stop) (fun _ => nan)
      (by intro k _ _; omega)
      (by
        intro m bm _ _ hb k hk1 hk2
        unfold setAt
        split_ifs with h
        · rw [h]
        · exact hb k hk1 (by omega))
    rw [this k h1 h2, hmuk k h2]
  generalize forUp start stop (fun j (bm : ℕ → Exact) => setAt bm j (s.mu kappa j)) (fun _ => nan) = bm0 at *
  by_cases hss : start ≤ stop
  swap
  · rw [forDown_empty (by omega)]
    dsimp only
    have e := rowOpEnd_fresh hs (hf.begin kappa (kappa + 1)) (by omega) (by omega)
    have fo := rowOpEnd_fo s kappa (kappa + 1)
    exact ⟨e.1, fun k _ => by rw [fo.b], e.2, fun j h1 h2 => by omega⟩
  have L := forDown_inv (P := fun j (p : GSO Exact × (ℕ → Exact)) =>
      Good s p.1 ∧ SameDims s p.1 ∧ Fresh p.1 kappa (kappa + 1) ∧ p.1.mu = s.mu ∧
      p.1.gsoValidCols = s.gsoValidCols ∧ p.1.nCols = s.nCols ∧
      (∀ k, k ≠ kappa → p.1.b k = s.b k) ∧
      (∀ k, start ≤ k → k < j → p.2 k = some (muS s.nCols p.1.bq kappa k)) ∧
      (∀ k, j ≤ k → k < stop → |muS s.nCols p.1.bq kappa k| ≤ 1 / 2))
    (babaiStep kappa start) hss (s, bm0)
    ⟨.refl hs, .refl s, hf.begin _ _, rfl, rfl, rfl, fun _ _ => rfl, hbm, fun k h1 h2 => by omega⟩
    (by
      rintro j ⟨t, bm⟩ h1 h2 ⟨g, dm, ft, tmu, tv, tn, tb, tm, tr⟩
      dsimp only at *
      have tbm := tm j h1 (by omega)
      unfold babaiStep
      dsimp only
      rw [tbm]
      have hrnd : (rnd (some (muS s.nCols t.bq kappa j)) : Exact) =
          some ((ratRnd (muS s.nCols t.bq kappa j) : ℤ) : ℚ) := rfl
      rw [hrnd]
      have hsp := ratRnd_spec (muS s.nCols t.bq kappa j)
      generalize ratRnd (muS s.nCols t.bq kappa j) = X at *
      by_cases hX : X = 0
      · have : (isZero (some ((X : ℤ) : ℚ)) : Bool) = true := by
          change decide ((X : ℚ) = 0) = true; rw [hX]; simp
        rw [if_pos this]
        refine ⟨g, dm, ft, tmu, tv, tn, tb, fun k a b => tm k a (by omega), ?_⟩
        intro k a b
        by_cases hkj : k = j
        · rw [hkj]; rw [hX] at hsp; simpa using hsp
        · exact tr k (by omega) b
      · have : (isZero (some ((X : ℤ) : ℚ)) : Bool) = false := by
          change decide ((X : ℚ) = 0) = false; simpa using hX
        rw [if_neg (by rw [this]; simp)]
        have hneg : (neg (some ((X : ℤ) : ℚ)) : Exact) = some (((-X : ℤ)) : ℚ) := by
          change some (-((X : ℤ) : ℚ)) = _; push_cast; rfl
        rw [hneg]
        have hjs : j < t.nSourceRows := by rw [dm.source]; omega
        have hkt : kappa < t.nKnownRows := by rw [dm.known]; exact hk
        have g2 := rowAddmulWe_good g.wf hkt hjs (show kappa ≠ j by omega) (some (((-X : ℤ)) : ℚ))
        have f2 := rowAddmulWe_fresh ft (i := kappa) (j := j) ⟨le_rfl, by omega⟩ (some (((-X : ℤ)) : ℚ))
        obtain ⟨q1, q2, q3, q4, q5⟩ := rowAddmulWe_rest t kappa j (some (((-X : ℤ)) : ℚ))
        have hb2 := rowAddmulWe_b g.wf (i := kappa) hjs (-X)
        have d2 := rowAddmulWe_dims t kappa j (some (((-X : ℤ)) : ℚ))
        generalize t.rowAddmulWe kappa j (some (((-X : ℤ)) : ℚ)) = t' at *
        -- new mu values
        have hstep : ∀ k < kappa, muS s.nCols t'.bq kappa k =
            muS s.nCols t.bq kappa k - X * muS s.nCols s.bq j k := by
          intro k hkk
          have e1 : muS s.nCols t'.bq kappa k = muS s.nCols t.bq kappa k + ((-X : ℤ) : ℚ) * muS s.nCols t.bq j k := by
            refine muS_add ?_ ?_
            · intro l hl c _; unfold bq; rw [q5 l (by omega)]
            · intro c hc
              unfold bq
              rw [hb2 kappa c (by rw [tn]; exact hc), if_pos rfl]; push_cast; ring
          have e2 : muS s.nCols t.bq j k = muS s.nCols s.bq j k := by
            refine muS_congr ?_ ?_
            · intro l hl c _; unfold bq; rw [tb l (by omega)]
            · intro c _; unfold bq; rw [tb j (by omega)]
          rw [e1, e2]; push_cast; ring
        refine ⟨g.trans g2, dm.trans d2, f2, by rw [q1, tmu], by rw [q3, tv], by rw [q4, tn], ?_, ?_, ?_⟩
        · intro k hk'; rw [q5 k hk', tb k hk']
        · intro k a b
          have := forUp_inv (P := fun m (w : ℕ → Exact) => (∀ k, start ≤ k → k < m →
              w k = some (muS s.nCols t.bq kappa k - X * muS s.nCols s.bq j k)) ∧
              (∀ k, m ≤ k → k < j → w k = bm k))
            (fun k (bm : ℕ → Exact) => setAt bm k (sub (bm k) (mul (some ((X : ℤ) : ℚ)) (t.mu j k)))) h1 bm
            ⟨by intro k _ _; omega, fun _ _ _ => rfl⟩
            (by
              rintro m w m1 m2 ⟨w1, w2⟩
              constructor
              · intro k k1 k2
                unfold setAt
                split_ifs with hkm
                · rw [hkm, w2 m le_rfl m2, tm m m1 (by omega), tmu, hmu j h2 m m2]; rfl
                · exact w1 k k1 (by omega)
              · intro k k1 k2
                unfold setAt
                rw [if_neg (by omega)]
                exact w2 k (by omega) k2)
          dsimp only
          rw [this.1 k a b, hstep k (by omega)]
        · intro k a b
          rw [hstep k (by omega)]
          by_cases hkj : k = j
          · rw [hkj, muS_self (hpos j h2), mul_one]; exact hsp
          · rw [muS_upper s.nCols s.bq (show j < k by omega), mul_zero, sub_zero]
            exact tr k (by omega) b)
  obtain ⟨g, dm, ft, tmu, tv, tn, tb, tm, tr⟩ := L
  generalize (forDown start stop (babaiStep kappa start) (s, bm0)).1 = t at *
  have e := rowOpEnd_fresh g.wf ft (by omega) (by rw [dm.known]; omega)
  have fo := rowOpEnd_fo t kappa (kappa + 1)
  refine ⟨e.1, ?_, ?_, ?_⟩
  · intro k hk'; rw [fo.b, tb k hk']
  · intro k hk'; rw [e.2 k hk', tv]
  · intro j h1 h2
    have : (t.rowOpEnd kappa (kappa + 1)).bq = t.bq := bq_of_b fo.b
    rw [this]; exact tr j h1 h2

/-- effect of a successful `babai` in exact arithmetic -/
structure XPost (s s' : GSO Exact) (kappa stop start : ℕ) (η : ℚ) : Prop where
  fresh : Fresh s' 0 0
  rows : ∀ k, k ≠ kappa → s'.b k = s.b k
  valid : ∀ k < kappa, s'.gsoValidCols k = s.gsoValidCols k
  validK : stop ≤ s'.gsoValidCols kappa
  reduced : ∀ j, start ≤ j → j < stop → |muS s.nCols s'.bq kappa j| ≤ η
  zero : 0 ≤ η → (∀ c < s.nCols, s.b kappa c = 0) → s'.b = s.b

theorem loopNeeded_iff (c : LLLCfg Exact) (s : GSO Exact) {kappa start stop : ℕ} {η : ℚ}
    (hc : c.eta = some η) (m : ℕ → ℚ) (hm : ∀ j < stop, s.mu kappa j = some (m j)) :
    loopNeeded c s kappa start stop = false ↔ ∀ j, start ≤ j → j < stop → |m j| ≤ η := by
  unfold loopNeeded
  by_cases hss : start ≤ stop
  · have := forDown_inv (P := fun j (b : Bool) => (b = false ↔ ∀ k, j ≤ k → k < stop → |m k| ≤ η))
      (fun j need => need || gt (abs (s.mu kappa j)) c.eta) hss false
      (by simp only [true_iff]; intro k h1 h2; omega)
      (by
        intro j b h1 h2 hb
        have e : (gt (abs (s.mu kappa j)) c.eta : Bool) = decide (η < |m j|) := by
          rw [hm j h2, hc]; rfl
        rw [Bool.or_eq_false_iff, hb, e, decide_eq_false_iff_not, not_lt]
        constructor
        · rintro ⟨a, b⟩ k k1 k2
          by_cases h : k = j
          · rw [h]; exact b
          · exact a k (by omega) k2
        · intro a
          exact ⟨fun k k1 k2 => a k (by omega) k2, a j le_rfl h2⟩)
    exact this
  · rw [forDown_empty (by omega)]
    simp only [true_iff]; intro k h1 h2; omega

theorem muS_zero_row {n : ℕ} {B : ℕ → ℕ → ℚ} {i : ℕ} (h : ∀ c < n, B i c = 0) (j : ℕ) : muS n B i j = 0 := by
  unfold muS
  rw [dotQ_comm, dotQ_zero_right _ h, zero_div]

theorem babaiLoop_exact (c : LLLCfg Exact) {η : ℚ} (hc : c.eta = some η) {kappa stop start : ℕ}
    (fuel iter : ℕ) (e : ℤ) (s : GSO Exact) (h : XPre s kappa stop) :
    ((babaiLoop c kappa stop start fuel iter e s).1 = .success →
      XPost s (babaiLoop c kappa stop start fuel iter e s).2 kappa stop start η) ∧
    ((∀ j < stop, normStar s.nCols s.bq j ≠ 0) →
      (1 ≤ fuel → (∀ j, start ≤ j → j < stop → |muS s.nCols s.bq kappa j| ≤ η) →
        (babaiLoop c kappa stop start fuel iter e s).1 = .success) ∧
      (2 ≤ fuel → iter < 2 → 1 / 2 ≤ η → (babaiLoop c kappa stop start fuel iter e s).1 = .success)) := by
  induction fuel generalizing iter e s with
  | zero =>
    refine ⟨fun h => by simp [babaiLoop] at h, fun _ => ⟨fun h => by omega, fun h => by omega⟩⟩
  | succ fuel ih =>
    have hpre := h.pre
    have hu := updateGsoRow_fresh hpre.wf h.fresh hpre.lt hpre.known (l := stop)
      (by have := hpre.stop_le; omega) (.inl hpre.source) (fun j h1 _ => h.ready j h1)
    have r1 := updateGsoRow_res (l := stop) hpre.wf hpre.lt hpre.known
    have hb1 := updateGsoRow_b s kappa stop
    rw [babaiLoop]
    dsimp only
    have hstop := hpre.stop_le
    have hsrc := hpre.source
    have hknown := hpre.known
    have hkn : kappa < (s.updateGsoRow kappa stop).2.nKnownRows := by rw [r1.known]; omega
    have hsr : stop ≤ (s.updateGsoRow kappa stop).2.nSourceRows := by rw [r1.source]; split_ifs <;> omega
    have hn1 : (s.updateGsoRow kappa stop).2.nCols = s.nCols := r1.good.cfg.nCols
    have hd1 : (s.updateGsoRow kappa stop).2.d = s.d := r1.good.cfg.d
    obtain ⟨a1, a2, a3, a4, a5⟩ := hu
    generalize hP : s.updateGsoRow kappa stop = P at *
    by_cases hP1 : P.1 = true
    swap
    · rw [if_pos (by simpa using hP1)]
      refine ⟨fun h => (by cases h), fun hpos => ?_⟩
      exfalso
      obtain ⟨k, k1, k2, k3⟩ := a3 (by simpa using hP1)
      rw [rS_self] at k3
      exact hpos k k1 k3
    rw [if_neg (by simpa using hP1)]
    have hvk := a2 hP1
    have hready1 : ∀ j < stop, j + 1 ≤ P.2.gsoValidCols j := by
      intro j hj; rw [a4 j (by omega) (by omega)]; exact h.ready j hj
    have hmuP : ∀ j < stop, P.2.mu kappa j = some (muS s.nCols s.bq kappa j) := by
      intro j hj
      have := ((a1.valid kappa hkn (by simp) j (by omega) (by omega)).2 (by omega)).1
      rwa [hn1, a5] at this
    have hln := loopNeeded_iff c P.2 (kappa := kappa) (start := start) (stop := stop) hc
      (fun j => muS s.nCols s.bq kappa j) hmuP
    have post1 : loopNeeded c P.2 kappa start stop = false → XPost s P.2 kappa stop start η := by
      intro hl
      refine ⟨a1, fun k _ => by rw [hb1], fun k hk => a4 k (by omega) (by omega), hvk, ?_, fun _ _ => hb1⟩
      rw [a5]; exact hln.1 hl
    by_cases hl : loopNeeded c P.2 kappa start stop = false
    · rw [if_pos (by simpa using hl)]
      exact ⟨fun _ => post1 hl, fun _ => ⟨fun _ _ => rfl, fun _ _ _ => rfl⟩⟩
    rw [if_neg (by simpa using hl)]
    have hbp := babaiPass_exact (start := start) r1.good.wf a1 hkn hstop hsr hready1 hvk
    obtain ⟨g2, d2⟩ := babaiPass_good (start := start) r1.good.wf hkn hsr hstop
    obtain ⟨b1, b2, b3, b4⟩ := hbp
    have pre2 : XPre (babaiPass P.2 kappa start stop) kappa stop := by
      refine ⟨⟨g2.wf, by rw [g2.cfg.d, hd1]; exact hpre.lt, by rw [d2.known]; omega, hstop,
        by rw [d2.source]; exact hsr⟩, b1, ?_⟩
      intro j hj; rw [b3 j (by omega)]; exact hready1 j hj
    have hn2 : (babaiPass P.2 kappa start stop).nCols = s.nCols := g2.cfg.nCols.trans hn1
    have combine : ∀ s', XPost (babaiPass P.2 kappa start stop) s' kappa stop start η →
        XPost s s' kappa stop start η := by
      intro s' p
      refine ⟨p.fresh, ?_, ?_, p.validK, ?_, ?_⟩
      · intro k hk; rw [p.rows k hk, b2 k hk, hb1]
      · intro k hk; rw [p.valid k hk, b3 k hk, a4 k (by omega) (by omega)]
      · have := p.reduced; rwa [hn2] at this
      · intro hη hz
        exfalso
        apply hl
        rw [hln]
        intro j _ _
        rw [muS_zero_row (fun c hc => by unfold bq; rw [hz c hc]; simp)]
        simpa using hη
    have hpos2 : (∀ j < stop, normStar s.nCols s.bq j ≠ 0) →
        ∀ j < stop, normStar (babaiPass P.2 kappa start stop).nCols (babaiPass P.2 kappa start stop).bq j ≠ 0 := by
      intro hpos j hj
      rw [hn2, normStar_congr (B' := s.bq)]
      · exact hpos j hj
      · intro k hk c _; unfold bq; rw [b2 k (by omega), hb1]
    have hred : 1 / 2 ≤ η → ∀ j, start ≤ j → j < stop →
        |muS (babaiPass P.2 kappa start stop).nCols (babaiPass P.2 kappa start stop).bq kappa j| ≤ η := by
      intro hη j h1 h2
      have := b4 j h1 h2
      rw [hn1] at this
      rw [hn2]; exact this.trans hη
    split_ifs with hi2 hexp
    · refine ⟨fun h => (by cases h), fun hpos => ⟨fun _ hm => ?_, fun _ h => by omega⟩⟩
      exact absurd (hln.2 hm) hl
    · obtain ⟨i1, i2⟩ := ih (iter + 1) (maxMuExp P.2 kappa stop) _ pre2
      refine ⟨fun hs => combine _ (i1 hs), fun hpos => ⟨fun _ hm => absurd (hln.2 hm) hl, fun _ h => by omega⟩⟩
    · obtain ⟨i1, i2⟩ := ih (iter + 1) e _ pre2
      refine ⟨fun hs => combine _ (i1 hs), fun hpos => ⟨fun _ hm => absurd (hln.2 hm) hl, ?_⟩⟩
      intro hf _ hη
      exact (i2 (hpos2 hpos)).1 (by omega) (hred hη)

theorem babai_exact (c : LLLCfg Exact) {η : ℚ} (hc : c.eta = some η) {kappa stop : ℕ} (start : ℕ)
    (fuel : ℕ) {s : GSO Exact} (h : XPre s kappa stop)
    (hok : (babai c fuel s kappa stop start).1 = .success) :
    XPost s (babai c fuel s kappa stop start).2 kappa stop start η :=
  (babaiLoop_exact c hc fuel 0 longMax s h).1 hok

theorem babai_exact_success (c : LLLCfg Exact) {η : ℚ} (hc : c.eta = some η) (hη : 1 / 2 ≤ η) {kappa stop : ℕ}
    (start : ℕ) {fuel : ℕ} (hf : 2 ≤ fuel) {s : GSO Exact} (h : XPre s kappa stop)
    (hpos : ∀ j < stop, normStar s.nCols s.bq j ≠ 0) :
    (babai c fuel s kappa stop start).1 = .success :=
  ((babaiLoop_exact c hc fuel 0 longMax s h).2 hpos).2 hf (by omega) hη

end LLL
end Fplll

import Verif.Proofs.LLLPref

/-!
# The number of iterations of LLL in exact arithmetic

The potential (the product of the Gram determinants of the leading rows) is a positive integer, is kept by size reduction, and is
multiplied by at most `δ ^ j` when a row is moved up by `j` positions.
-/

open Finset

namespace Fplll
namespace Spec

theorem matrix_of_rows {n m : ℕ} {b b' : ℕ → ℕ → ℤ} (h : PreEq n m b b') :
    ∃ T : Matrix (Fin m) (Fin m) ℤ, toM m n b' = T * toM m n b := by
  have h1 : ∀ i : Fin m, ∃ z : ℕ → ℤ, ∀ c < n, b' i c = comb m b z c := fun i => (h (b' i)).2 (InPre.row i.2)
  choose z hz using h1
  refine ⟨Matrix.of fun i k => z i k, ?_⟩
  ext i c
  rw [Matrix.mul_apply]
  change b' i c = ∑ k : Fin m, z i k * b k c
  rw [hz i c c.2]
  unfold comb
  rw [← Fin.sum_univ_eq_sum_range (fun k => z i k * b k c)]

theorem gramDet_scale {n m : ℕ} {b b' : ℕ → ℕ → ℤ} (T : Matrix (Fin m) (Fin m) ℤ) (h : toM m n b' = T * toM m n b) :
    gramDet n b' m = T.det ^ 2 * gramDet n b m := by
  unfold gramDet
  rw [h, Matrix.transpose_mul, Matrix.mul_assoc, ← Matrix.mul_assoc (toM m n b), Matrix.det_mul, Matrix.det_mul,
    Matrix.det_transpose]
  ring

/-- the Gram determinant only depends on the lattice -/
theorem gramDet_pre {n m : ℕ} {b b' : ℕ → ℕ → ℤ} (h : PreEq n m b b') : gramDet n b' m = gramDet n b m := by
  obtain ⟨T, hT⟩ := matrix_of_rows h
  obtain ⟨S, hS⟩ := matrix_of_rows h.symm
  have e1 := gramDet_scale T hT
  have e2 := gramDet_scale S hS
  by_cases h0 : gramDet n b m = 0
  · rw [e1, h0, mul_zero]
  · have e3 : (S.det * T.det) ^ 2 = 1 := by
      have : ((S.det * T.det) ^ 2 - 1) * gramDet n b m = 0 := by rw [e1] at e2; linear_combination -e2
      rcases mul_eq_zero.1 this with h | h
      · linarith
      · exact absurd h h0
    have e4 : T.det ^ 2 = 1 := by
      have hu : IsUnit T.det := IsUnit.of_mul_eq_one (S.det ^ 2 * T.det) (by linear_combination e3)
      exact Int.isUnit_sq hu
    rw [e1, e4, one_mul]

/-- the Gram determinant of the first rows and one more -/
theorem gramDet_last {n m i : ℕ} {b b' : ℕ → ℕ → ℤ} (h : ∀ l < m, ∀ c < n, b' l c = b l c) (hm : ∀ c < n, b' m c = b i c) :
    ((gramDet n b' (m + 1) : ℤ) : ℚ) = ((gramDet n b m : ℤ) : ℚ) * projSq n (toQ b) i m := by
  rw [gramDet_eq, gramDet_eq, prod_range_succ]
  congr 1
  · refine prod_congr rfl fun j hj => ?_
    rw [mem_range] at hj
    exact normStar_congr fun l hl c hc => by exact_mod_cast h l (by omega) c hc
  · exact normStar_insert (B := toQ b) (fun l hl c hc => by unfold toQ; exact_mod_cast h l hl c hc)
      (fun c hc => by unfold toQ; exact_mod_cast hm c hc)

/-- the potential after row `i` is moved up to position `k` -/
theorem potential_insert {d n k i : ℕ} {b b' : ℕ → ℕ → ℤ} {δ : ℚ} (hi : i < d)
    (hind : Indep d n (toQ b)) (hpre : ∀ j, j ≤ k ∨ i + 1 ≤ j → PreEq n j b b')
    (hlt : ∀ j < k, b' j = b j) (hk : b' k = b i) (hsh : ∀ j, k < j → j ≤ i → b' j = b (j - 1))
    (htest : ∀ j, k ≤ j → j < i → projSq n (toQ b) i j ≤ δ * normStar n (toQ b) j) :
    ((potential (d - 1) n b' : ℤ) : ℚ) ≤ δ ^ (i - k) * ((potential (d - 1) n b : ℤ) : ℚ) := by
  have hpos : ∀ m ≤ d, (0 : ℚ) < ((gramDet n b m : ℤ) : ℚ) := fun m hm => by exact_mod_cast gramDet_pos hind hm
  have key : ∀ m ∈ range (d - 1), ((gramDet n b' (m + 1) : ℤ) : ℚ) ≤
      (if k ≤ m ∧ m < i then δ else 1) * ((gramDet n b (m + 1) : ℤ) : ℚ) := by
    intro m hm
    rw [mem_range] at hm
    by_cases h : k ≤ m ∧ m < i
    · rw [if_pos h]
      let c : ℕ → ℕ → ℤ := fun l => if l = m then b i else b l
      have hc : PreEq n (m + 1) b' c := by
        refine preEq_of_rows ?_ ?_
        · intro j hj
          by_cases hjm : j = m
          · have : c j = b' k := by simp only [c]; rw [if_pos hjm, hk]
            rw [this]; exact InPre.row (by omega)
          · have : c j = b j := by simp only [c]; rw [if_neg hjm]
            rw [this]
            by_cases hjk : j < k
            · rw [← hlt j hjk]; exact InPre.row (by omega)
            · have e := hsh (j + 1) (by omega) (by omega)
              rw [Nat.add_sub_cancel] at e
              rw [← e]; exact InPre.row (by omega)
        · intro j hj
          by_cases hjk : j < k
          · have : b' j = c j := by simp only [c]; rw [if_neg (by omega), hlt j hjk]
            rw [this]; exact InPre.row (by omega)
          · by_cases hje : j = k
            · have : b' j = c m := by simp only [c, if_true]; rw [hje, hk]
              rw [this]; exact InPre.row (by omega)
            · have : b' j = c (j - 1) := by simp only [c]; rw [if_neg (by omega), hsh j (by omega) (by omega)]
              rw [this]; exact InPre.row (by omega)
      have e := gramDet_last (n := n) (m := m) (i := i) (b := b) (b' := c) (fun l hl _ _ => by simp only [c]; rw [if_neg (by omega)])
        (fun _ _ => by simp only [c]; rw [if_pos trivial])
      rw [← gramDet_pre hc, e]
      have e2 : ((gramDet n b (m + 1) : ℤ) : ℚ) = ((gramDet n b m : ℤ) : ℚ) * normStar n (toQ b) m := by
        rw [gramDet_eq, gramDet_eq, prod_range_succ]; rfl
      rw [e2]
      have := mul_le_mul_of_nonneg_left (htest m h.1 h.2) (hpos m (by omega)).le
      linarith
    · rw [if_neg h, one_mul, gramDet_pre (hpre (m + 1) (by omega))]
  unfold potential
  push_cast
  have hp' : ∀ m ∈ range (d - 1), (0 : ℚ) ≤ ((gramDet n b' (m + 1) : ℤ) : ℚ) := by
    intro m _
    rw [gramDet_eq]
    exact prod_nonneg fun j _ => normStar_nonneg _ _ _
  refine (prod_le_prod hp' key).trans (le_of_eq ?_)
  rw [prod_mul_distrib]
  congr 1
  rw [prod_ite, prod_const_one, mul_one, prod_const]
  congr 1
  have : (range (d - 1)).filter (fun x => k ≤ x ∧ x < i) = Ico k i := by
    ext x; rw [mem_filter, mem_range, mem_Ico]; omega
  rw [this, Nat.card_Ico]

end Spec

namespace LLL

open FloatOps GSO Spec BKZ

variable {F : Type} [FloatOps F]

theorem rowAddmulWe_lower {s : GSO F} (h : WF s) {i j : ℕ} (hji : j < i) (hj : j < s.nSourceRows) (x : F) :
    LowerTri s.nCols s.b (s.rowAddmulWe i j x).b := by
  have hz : ∀ c < s.nCols, s.nKnownCols ≤ c → s.b j c = 0 := fun c hc h1 => h.zeroSrc j hj c hc h1
  have : ∃ t : ℤ, ∀ k, ∀ c < s.nCols, (s.rowAddmulWe i j x).b k c = if k = i then s.b i c + t * s.b j c else s.b k c := by
    unfold rowAddmulWe
    dsimp only
    split_ifs
    · refine ⟨1, fun k c hc => ?_⟩
      change setAt s.b i _ k c = _
      rw [setAt_mat, vecAdd_apply]
      have := hz c hc
      grind
    · refine ⟨-1, fun k c hc => ?_⟩
      change setAt s.b i _ k c = _
      rw [setAt_mat, vecSub_apply]
      have := hz c hc
      grind
    · refine ⟨(getSiExp x).1, fun k c hc => ?_⟩
      change setAt s.b i _ k c = _
      rw [setAt_mat, vecAddmulSi_apply]
      have := hz c hc
      grind
    · exact ⟨0, fun k c _ => by split_ifs with h <;> simp [h]⟩
    · refine ⟨(getSiExp x).1 * 2 ^ (getSiExp x).2, fun k c hc => ?_⟩
      change setAt s.b i _ k c = _
      rw [setAt_mat, vecAddmul2exp_apply]
      have := hz c hc
      split_ifs with h1 h2
      · ring
      · rw [this (by omega)]; ring
      · rfl
    · refine ⟨(getZExp x).1 * 2 ^ (getZExp x).2, fun k c hc => ?_⟩
      change setAt s.b i _ k c = _
      rw [setAt_mat, vecAddmul2exp_apply]
      have := hz c hc
      split_ifs with h1 h2
      · ring
      · rw [this (by omega)]; ring
      · rfl
  obtain ⟨t, ht⟩ := this
  exact lowerTri_add hji ht

omit [FloatOps F] in
theorem lower_trans {s t v : GSO F} (h1 : LowerTri s.nCols s.b t.b) (g : Good s t) (h2 : LowerTri t.nCols t.b v.b) :
    LowerTri s.nCols s.b v.b := h1.trans (by rwa [g.cfg.nCols] at h2)

theorem babaiPass_lower {s : GSO F} (hs : WF s) {kappa start stop : ℕ} (hk : kappa < s.nKnownRows)
    (hsrc : stop ≤ s.nSourceRows) (hle : stop ≤ kappa) : LowerTri s.nCols s.b (babaiPass s kappa start stop).b := by
  unfold babaiPass
  dsimp only
  have h := forDown_inv' (fun p : GSO F × (ℕ → F) => (Good s p.1 ∧ SameDims s p.1) ∧ LowerTri s.nCols s.b p.1.b)
    (babaiStep kappa start) start stop
    (s, forUp start stop (fun j (bm : ℕ → F) => setAt bm j (s.mu kappa j)) (fun _ => nan))
    ⟨⟨.refl hs, .refl s⟩, .refl _ _⟩
    (by
      rintro j ⟨t, bm⟩ h1 h2 ⟨⟨g, dm⟩, l⟩
      unfold babaiStep
      dsimp only at g dm l ⊢
      split_ifs with hz
      · exact ⟨⟨g, dm⟩, l⟩
      · have e := rowAddmulWe_good g.wf (i := kappa) (j := j) (by rw [dm.known]; exact hk)
          (by rw [dm.source]; omega) (by omega) (neg (rnd (bm j)))
        exact ⟨⟨g.trans e, dm.trans (rowAddmulWe_dims _ _ _ _)⟩,
          lower_trans l g (rowAddmulWe_lower g.wf (by omega) (by rw [dm.source]; omega) _)⟩)
  obtain ⟨⟨g, dm⟩, l⟩ := h
  have fo := rowOpEnd_fo (forDown start stop (babaiStep kappa start)
    (s, forUp start stop (fun j (bm : ℕ → F) => setAt bm j (s.mu kappa j)) (fun _ => nan))).1
      kappa (kappa + 1)
  rw [fo.b]; exact l

theorem babai_lower (c : LLLCfg F) (fuel : ℕ) {s : GSO F} {kappa stop : ℕ} (start : ℕ) (h : BabaiPre s kappa stop) :
    LowerTri s.nCols s.b (babai c fuel s kappa stop start).2.b := by
  unfold babai
  generalize 0 = iter
  generalize longMax = e
  induction fuel generalizing iter e s with
  | zero => exact .refl _ _
  | succ fuel ih =>
    have hle := h.stop_le
    have hlt := h.lt
    have g1 := updateGsoRow_res (l := stop) h.wf h.lt h.known
    have k1 : LowerTri s.nCols s.b (s.updateGsoRow kappa stop).2.b := by rw [updateGsoRow_b]; exact .refl _ _
    have hsd : (s.updateGsoRow kappa stop).2.d = s.d := g1.good.cfg.d
    have hkn : kappa < (s.updateGsoRow kappa stop).2.nKnownRows := by rw [g1.known]; omega
    have hs0 := h.source
    have hsr : stop ≤ (s.updateGsoRow kappa stop).2.nSourceRows := by rw [g1.source]; split_ifs <;> omega
    obtain ⟨g2, d2⟩ := babaiPass_good (start := start) g1.good.wf hkn hsr hle
    have k2 := lower_trans k1 g1.good (babaiPass_lower (start := start) g1.good.wf hkn hsr hle)
    have next := fun it e' => lower_trans k2 (g1.good.trans g2)
      (ih ⟨g2.wf, by rw [g2.cfg.d, hsd]; exact h.lt, by rw [d2.known]; omega, hle, by rw [d2.source]; exact hsr⟩ it e')
    rw [babaiLoop]
    dsimp only
    split_ifs
    · exact k1
    · exact k1
    · exact k1
    · exact next _ _
    · exact next _ _

theorem earlyLoop_lower (c : LLLCfg F) (fuel start srs n i : ℕ) (s : GSO F) (hs : WF s)
    (hd : i + n ≤ s.d) (hi : start ≤ i) (hk : i ≤ s.nKnownRows) (hsrc : start ≤ s.nSourceRows) :
    LowerTri s.nCols s.b (earlyLoop c fuel start srs n i s).2.b := by
  induction n generalizing i s with
  | zero => exact .refl _ _
  | succ n ih =>
    have pre : BabaiPre s i start := ⟨hs, by omega, hk, hi, hsrc⟩
    rw [earlyLoop]
    have g := babai_good c fuel srs pre
    have l := babai_lower c fuel srs pre
    split_ifs with h
    · have r := babai_res c fuel srs pre h
      exact lower_trans l g (ih (i + 1) _ g.wf (by rw [g.cfg.d]; omega) (by omega) (by rw [r.known]; omega)
        (by rw [r.source]; split_ifs <;> omega))
    · exact l

theorem earlyReduction_lower (c : LLLCfg F) (fuel : ℕ) {s : GSO F} {start : ℕ} (srs : ℕ) (hs : WF s)
    (hG : s.intGram = false) (hd : start ≤ s.d) (hk : start ≤ s.nKnownRows) (hl : s.colsLocked = false) :
    LowerTri s.nCols s.b (earlyReduction c fuel s start srs).2.b := by
  have g0 := lockCols_good hs hG
  have hsrc := hs.unlocked hl
  have e := earlyLoop_lower c fuel start srs (s.d - start) start s.lockCols g0.wf
    (by rw [g0.cfg.d]; omega) le_rfl hk (by change start ≤ s.nSourceRows; omega)
  unfold earlyReduction
  dsimp only
  split_ifs with h
  · exact e
  · exact e

theorem discoverStep_lower (c : LLLCfg F) (fuel srs : ℕ) {st : LLLState F} (hs : WF st.s) (hd : st.kappa ≤ st.s.d)
    (hk : st.kappa ≤ st.s.nKnownRows) (hl : st.s.colsLocked = false) :
    LowerTri st.s.nCols st.s.b (discoverStep c fuel srs st).2.s.b := by
  unfold discoverStep
  dsimp only
  split_ifs with h1 h2 h3
  · simp only [Bool.and_eq_true, Bool.not_eq_eq_eq_not, Bool.not_true, decide_eq_true_eq] at h2
    exact earlyReduction_lower c fuel srs hs h2.1.1.2 hd hk hl
  · simp only [Bool.and_eq_true, Bool.not_eq_eq_eq_not, Bool.not_true, decide_eq_true_eq] at h2
    exact earlyReduction_lower c fuel srs hs h2.1.1.2 hd hk hl
  · exact .refl _ _
  · exact .refl _ _

/-- the insertion loop stops at the first position whose test fails -/
theorem insertIdx_all (c : LLLCfg Exact) {thr : ℚ} (hc : c.thr = some thr) {s : GSO Exact} {lov : ℕ → Exact}
    {kappa : ℕ} {p r : ℕ → ℚ} (hl : ∀ i ≤ kappa, lov i = some (p i)) (hr : ∀ k < kappa, s.r k k = some (r k))
    (kmin k : ℕ) (hk : k ≤ kappa) :
    ∀ i, insertIdx c s lov kmin k ≤ i → i < k → p (testIdx c (i + 1)) ≤ r i * thr := by
  induction k with
  | zero => intro i _ h; omega
  | succ k ih =>
    simp only [insertIdx]
    by_cases h1 : kmin < k + 1
    swap
    · rw [if_neg h1]; intro i h2 h3; omega
    rw [if_pos h1]
    have ht : testIdx c (k + 1) ≤ kappa := by unfold testIdx; split_ifs <;> omega
    rw [hr k (by omega), hc, hl _ ht]
    have e : (lt (mul (some (r k)) (some thr)) (some (p (testIdx c (k + 1)))) : Bool) =
        decide (r k * thr < p (testIdx c (k + 1))) := rfl
    rw [e]
    split_ifs with h
    · intro i h2 h3; omega
    · intro i h2 h3
      by_cases hik : i = k
      · subst hik; simpa using h
      · exact ih (by omega) i h2 (by omega)

/-- One Lovász test: the index goes up by one, minus the number `j` of positions the row was moved up, and then the potential has
been multiplied by at most `δ ^ j`. -/
theorem lovaszStep_count (c : LLLCfg Exact) {η thr δ : ℚ} (hcfg : PCfg c η thr δ) {d : ℕ} {st : LLLState Exact}
    (hwf : WF st.s) (hf : Fresh st.s 0 0) (hl : st.s.colsLocked = false) (hz : st.zeros = 0)
    (h1 : 1 ≤ st.kappa) (hk : st.kappa < st.s.nKnownRows) (hlt : st.kappa < d)
    (hv : st.kappa ≤ st.s.gsoValidCols st.kappa)
    (hsr : ∀ j < st.kappa, |muS st.s.nCols (toQ st.s.b) st.kappa j| ≤ η)
    (hvv : ∀ k < st.kappa, k + 1 ≤ st.s.gsoValidCols k) (hind : Indep d st.s.nCols (toQ st.s.b)) :
    (lovaszStep c 0 d st).zeros = 0 ∧ (lovaszStep c 0 d st).s.nCols = st.s.nCols ∧
    PreEq st.s.nCols d st.s.b (lovaszStep c 0 d st).s.b ∧
    ∃ j ≤ st.kappa, (lovaszStep c 0 d st).kappa + j = st.kappa + 1 ∧
      ((potential (d - 1) st.s.nCols (lovaszStep c 0 d st).s.b : ℤ) : ℚ) ≤
        δ ^ j * ((potential (d - 1) st.s.nCols st.s.b : ℤ) : ℚ) := by
  unfold lovaszStep
  dsimp only
  have hsrc := hwf.unlocked hl
  have hg := gram_exact hwf hf hk (le_refl st.kappa) (by omega)
  have hf1 := cacheGram_fresh hwf hf hk (le_refl st.kappa) (by omega)
  have hk1 : st.kappa < (st.s.cacheGram st.kappa st.kappa).nKnownRows := hk
  have hv1 : st.kappa ≤ (st.s.cacheGram st.kappa st.kappa).gsoValidCols st.kappa := hv
  have hsr1 : ∀ j < st.kappa, |muS (st.s.cacheGram st.kappa st.kappa).nCols
    (toQ (st.s.cacheGram st.kappa st.kappa).b) st.kappa j| ≤ η := hsr
  have hh1 : ∀ k < st.kappa, k + 1 ≤ (st.s.cacheGram st.kappa st.kappa).gsoValidCols k := hvv
  have hind1 : Indep d (st.s.cacheGram st.kappa st.kappa).nCols (toQ (st.s.cacheGram st.kappa st.kappa).b) := hind
  have hg1 : (st.s.cacheGram st.kappa st.kappa).gramVal st.kappa st.kappa =
      some (dotQ (st.s.cacheGram st.kappa st.kappa).nCols (toQ (st.s.cacheGram st.kappa st.kappa).b st.kappa)
        (toQ (st.s.cacheGram st.kappa st.kappa).b st.kappa)) := by
    rw [hg]; congr 1; exact ip_dotQ st.s st.kappa st.kappa
  have hb : st.s.b = (st.s.cacheGram st.kappa st.kappa).b := rfl
  have hn : st.s.nCols = (st.s.cacheGram st.kappa st.kappa).nCols := rfl
  rw [hb, hn]
  clear hg hl hf hk hv hsr hwf hvv hind hsrc hb hn
  generalize st.s.cacheGram st.kappa st.kappa = s at *
  have hmu : ∀ j < st.kappa, s.mu st.kappa j = some (muS s.nCols (toQ s.b) st.kappa j) := fun j hj =>
    ((hf1.valid st.kappa hk1 (by simp) j (by omega) (by omega)).2 hj).1
  have hr : ∀ j < st.kappa, s.r st.kappa j = some (rS s.nCols (toQ s.b) st.kappa j) := fun j hj =>
    (hf1.valid st.kappa hk1 (by simp) j (by omega) (by omega)).1
  have hrd : ∀ k < st.kappa, s.r k k = some (normStar s.nCols (toQ s.b) k) := by
    intro k hk
    have := hh1 k hk
    rw [(hf1.valid k (by omega) (by simp) k (by omega) (by omega)).1]
    exact congrArg some (rS_self _ _ _)
  have hlov := lovaszTests_exact hg1 hmu hr
  have hins := insertIdx_stop c hcfg.thrE hlov hrd 0 (st.kappa - 1) (by omega) (by omega)
  have hall := insertIdx_all c hcfg.thrE hlov hrd 0 (st.kappa - 1) (by omega)
  dsimp only at hins
  generalize insertIdx c s (lovaszTests s st.kappa) 0 (st.kappa - 1) = k at *
  obtain ⟨hk2, hk3, -⟩ := hins
  have hti : testIdx c st.kappa ≤ st.kappa := by unfold testIdx; split_ifs <;> omega
  rw [hrd (st.kappa - 1) (by omega), hcfg.thrE, hlov _ hti, hlov k (by omega), hlov st.kappa le_rfl]
  have e1 : (gt (mul (some (normStar s.nCols (toQ s.b) (st.kappa - 1))) (some thr))
      (some (projSq s.nCols (toQ s.b) st.kappa (testIdx c st.kappa))) : Bool) =
      decide (projSq s.nCols (toQ s.b) st.kappa (testIdx c st.kappa) < normStar s.nCols (toQ s.b) (st.kappa - 1) * thr) := rfl
  have e2 : (gt (some (projSq s.nCols (toQ s.b) st.kappa k)) (ofInt 0) : Bool) =
      decide (((0 : ℤ) : ℚ) < projSq s.nCols (toQ s.b) st.kappa k) := rfl
  have hpos : ∀ j ≤ st.kappa, 0 < projSq s.nCols (toQ s.b) st.kappa j := by
    intro j hj
    have h1 := distSq_anti (n := s.nCols) (B := toQ s.b) hj (toQ s.b st.kappa)
    rw [distSq_row, distSq_projSq] at h1
    exact lt_of_lt_of_le (hind1.pos _ hlt) h1
  rw [e1, e2]
  by_cases hA : projSq s.nCols (toQ s.b) st.kappa (testIdx c st.kappa) < normStar s.nCols (toQ s.b) (st.kappa - 1) * thr
  · rw [if_pos (by simpa using hA), if_pos (by simpa using hpos k (by omega))]
    have hko : k < st.kappa := by omega
    have htest : ∀ j, k ≤ j → j < st.kappa → projSq s.nCols (toQ s.b) st.kappa (testIdx c (j + 1)) ≤ normStar s.nCols (toQ s.b) j * thr := by
      intro j hj1 hj2
      by_cases hc : j < st.kappa - 1
      · exact hall j hj1 hc
      · have : j = st.kappa - 1 := by omega
        subst this
        rw [show st.kappa - 1 + 1 = st.kappa by omega]
        exact hA.le
    have htest2 : ∀ j, k ≤ j → j < st.kappa → projSq s.nCols (toQ s.b) st.kappa j ≤ δ * normStar s.nCols (toQ s.b) j := by
      intro j hj1 hj2
      have h := htest j hj1 hj2
      have hp := hcfg.prot
      have hr := hind1.pos j (by omega)
      unfold testIdx at h
      split_ifs at h hp
      · rw [projSq_succ']
        have : muS s.nCols (toQ s.b) st.kappa j ^ 2 ≤ η ^ 2 := by
          rw [← sq_abs]; exact pow_le_pow_left₀ (abs_nonneg _) (hsr1 j hj2) 2
        nlinarith
      · rw [Nat.add_sub_cancel] at h
        nlinarith
    have sb := moveRow_sameBlock s s.nCols (k := k) (d := st.kappa + 1 - k) (o := st.kappa) (n := k) (by omega) (by omega)
    have hpre : ∀ j, j ≤ k ∨ st.kappa + 1 ≤ j → PreEq s.nCols j s.b (s.moveRow st.kappa k).b := fun j hj => sb.preEq (by omega)
    have hb : ∀ j, (s.moveRow st.kappa k).b j =
        if k < j ∧ j ≤ st.kappa then s.b (j - 1) else if j = k then s.b st.kappa else s.b j := fun j => by
      unfold moveRow; rw [if_pos hko]; exact rotateRightBySwap_apply s.b k st.kappa j hko.le
    have hs : ((s.moveRow st.kappa k).setR k k (some (projSq s.nCols (toQ s.b) st.kappa k))).b = (s.moveRow st.kappa k).b := rfl
    have n2 := moveRow_nCols s st.kappa k
    refine ⟨hz, n2, hpre d (by omega), st.kappa - k, by omega, by dsimp only; omega, ?_⟩
    dsimp only
    rw [hs]
    refine potential_insert hlt hind1 hpre ?_ ?_ ?_ htest2
    · intro j hj; rw [hb, if_neg (by omega), if_neg (by omega)]
    · rw [hb, if_neg (by omega), if_pos rfl]
    · intro j hj1 hj2; rw [hb, if_pos (by omega)]
  · rw [if_neg (by simpa using hA)]
    refine ⟨hz, rfl, .refl _ _ _, 0, by omega, rfl, ?_⟩
    rw [pow_zero, one_mul]
    exact le_rfl

theorem mainLoop_count (c : LLLCfg Exact) {η thr δ : ℚ} (hX : XCfg c η thr) (hcfg : PCfg c η thr δ) (hη : 1 / 2 ≤ η) (hδ : 0 < δ) (hδ1 : δ ≤ 1)
    {fuel : ℕ} (hfuel : 2 ≤ fuel) {d : ℕ} (n m : ℕ) (st : LLLState Exact) (h : XInv c η thr d st) (hz : st.zeros = 0)
    (hind : Indep d st.s.nCols (toQ st.s.b)) (hn : d + m ≤ n + st.kappa)
    (hpot : ((potential (d - 1) st.s.nCols st.s.b : ℤ) : ℚ) * δ ^ (m + 1) < 1) :
    (mainLoop c fuel 0 d 0 n st).1 = .success ∧ d ≤ (mainLoop c fuel 0 d 0 n st).2.kappa ∧ (mainLoop c fuel 0 d 0 n st).2.zeros = 0 := by
  induction n generalizing m st with
  | zero => exact ⟨rfl, by change d ≤ st.kappa; omega, hz⟩
  | succ n ih =>
    rw [mainLoop]
    by_cases h1 : st.kappa < d - st.zeros
    swap
    · rw [if_neg h1]; exact ⟨rfl, by dsimp only; omega, hz⟩
    rw [if_pos h1]
    obtain ⟨a1, a2⟩ := discoverStep_exact c hX fuel 0 h
    have hdk := h.wf.known_le
    have hkn := h.known
    have lo := discoverStep_lower c fuel 0 h.wf (by omega) h.known h.unlocked
    have hok := a2 hη hfuel
    obtain ⟨b1, b2, b3⟩ := a1 hok
    have hcols : (discoverStep c fuel 0 st).2.s.nCols = st.s.nCols := by
      unfold discoverStep
      dsimp only
      split_ifs with c1 c2 c3
      · simp only [Bool.and_eq_true, Bool.not_eq_eq_eq_not, Bool.not_true, decide_eq_true_eq] at c2
        exact (earlyReduction_good c fuel 0 h.wf c2.1.1.2 (by omega) hkn h.unlocked).1.cfg.nCols
      · simp only [Bool.and_eq_true, Bool.not_eq_eq_eq_not, Bool.not_true, decide_eq_true_eq] at c2
        exact (earlyReduction_good c fuel 0 h.wf c2.1.1.2 (by omega) hkn h.unlocked).1.cfg.nCols
      · rfl
      · rfl
    dsimp only
    generalize discoverStep c fuel 0 st = P at *
    rw [if_neg (by simpa using hok)]
    obtain ⟨c1, c2⟩ := iter_exact c hX fuel b1 (by rw [b2, b3]; exact h1)
    have hok2 := c2 hη hfuel
    rw [if_neg (by simpa using hok2)]
    have hinv := c1 hok2
    -- the row after size reduction
    have hPk := b1.known
    have hPd := b1.hd
    have hPw := b1.wf.known_le
    have pre : BabaiPre P.2.s P.2.kappa P.2.kappa :=
      ⟨b1.wf, by omega, hPk, le_rfl, by rw [b1.wf.unlocked b1.unlocked]; exact hPk⟩
    have xpre : XPre P.2.s P.2.kappa P.2.kappa := ⟨pre, b1.fresh, b1.head.valid⟩
    have g := babai_good c fuel 0 pre
    have r := babai_res c fuel 0 pre hok2
    have x := babai_exact c hX.eta 0 fuel xpre hok2
    have lo2 := babai_lower c fuel 0 pre
    have gn := g.cfg.nCols
    have gk : P.2.kappa < (babai c fuel P.2.s P.2.kappa P.2.kappa 0).2.nKnownRows := by rw [r.known]; omega
    generalize (babai c fuel P.2.s P.2.kappa P.2.kappa 0).2 = t at *
    have hpre : ∀ j, PreEq st.s.nCols j st.s.b t.b := fun j =>
      (lo.preEq j).trans (by have := lo2.preEq j; rwa [hcols] at this)
    have hn2 : t.nCols = st.s.nCols := gn.trans hcols
    have hind2 : Indep d t.nCols (toQ t.b) := by rw [hn2]; exact (hpre d).indep hind
    have hpot2 : potential (d - 1) t.nCols t.b = potential (d - 1) st.s.nCols st.s.b := by
      rw [hn2]; exact prod_congr rfl fun j _ => gramDet_pre (hpre _)
    obtain ⟨s1, s2, s3, j, s4, s5, s6⟩ := lovaszStep_count c hcfg (d := d) (st := { P.2 with s := t }) g.wf x.fresh
      (r.locked.trans b1.unlocked) (b3.trans hz) b1.k1 gk (by dsimp only; omega) x.validK
      (by intro j hj; rw [gn]; exact x.reduced j (by omega) hj)
      (by intro k hk; dsimp only at hk ⊢; rw [x.valid k hk]; exact b1.head.valid k hk) hind2
    dsimp only at s2 s3 s4 s5 s6
    generalize lovaszStep c 0 d { P.2 with s := t } = w at *
    have hind3 : Indep d w.s.nCols (toQ w.s.b) := by rw [s2]; exact s3.indep hind2
    have hge : (1 : ℚ) ≤ ((potential (d - 1) w.s.nCols w.s.b : ℤ) : ℚ) := by
      have : 0 < potential (d - 1) w.s.nCols w.s.b :=
        prod_pos fun m hm => gramDet_pos hind3 (by rw [mem_range] at hm; omega)
      exact_mod_cast this
    rw [hpot2] at s6
    rw [s2] at hge
    have hjm : j ≤ m := by
      by_contra hc
      have h2 : δ ^ j ≤ δ ^ (m + 1) := pow_le_pow_of_le_one hδ.le hδ1 (by omega)
      have hp0 : (0 : ℚ) ≤ ((potential (d - 1) st.s.nCols st.s.b : ℤ) : ℚ) := by
        have : 0 < potential (d - 1) st.s.nCols st.s.b :=
          prod_pos fun m hm => gramDet_pos hind (by rw [mem_range] at hm; omega)
        exact_mod_cast this.le
      nlinarith [mul_le_mul_of_nonneg_right h2 hp0]
    refine ih (m - j) w hinv s1 hind3 (by omega) ?_
    rw [s2]
    refine lt_of_le_of_lt (mul_le_mul_of_nonneg_right s6 (pow_nonneg hδ.le _)) ?_
    have e : δ ^ (m + 1) = δ ^ j * δ ^ (m - j + 1) := by rw [← pow_add]; congr 1; omega
    rw [e] at hpot
    linarith

theorem lll_count (c : LLLCfg Exact) {η thr δ : ℚ} (hX : XCfg c η thr) (hcfg : PCfg c η thr δ) (hη : 1 / 2 ≤ η) (hδ : 0 < δ) (hδ1 : δ ≤ 1)
    {fuel : ℕ} (hfuel : 2 ≤ fuel) (maxIter last m : ℕ) {s : GSO Exact} (hs : WF s) (hf : Fresh s 0 0) (hl : s.colsLocked = false)
    {e : ℕ} (he : 0 < e) (hed : e ≤ s.d) (hind : Indep e s.nCols (toQ s.b)) (hn : e - 1 + m ≤ maxIter)
    (hpot : ((potential (e - 1) s.nCols s.b : ℤ) : ℚ) * δ ^ (m + 1) < 1) :
    (lll c fuel maxIter last s 0 0 e 0).1 = .success ∧ (lll c fuel maxIter last s 0 0 e 0).2.zeros = 0 := by
  have hnz : rowIsZero s 0 = false := by
    unfold rowIsZero
    rw [decide_eq_false_iff_not]
    intro h0
    have := hind.pos 0 he
    rw [normStar_eq] at this
    simp only [Finset.range_zero, Finset.sum_empty, sub_zero] at this
    rw [show dotQ s.nCols (toQ s.b 0) (toQ s.b 0) = 0 from
      dotQ_zero_right _ (fun c hc => by unfold toQ; exact_mod_cast h0 c hc)] at this
    exact lt_irrefl _ this
  have hzl : zeroLoop 0 e (e - 0) 0 s = (0, s) := by
    obtain ⟨k, hk⟩ : ∃ k, e - 0 = k + 1 := ⟨e - 1, by omega⟩
    rw [hk, zeroLoop, if_neg (by rw [hnz]; simp)]
  unfold lll
  dsimp only
  rw [hzl]
  dsimp only
  rw [if_pos (by omega : 0 < e - 0)]
  have hss := startStep_good c fuel (kstart := 0) 0 hs hl (by omega) (by omega)
  have hb := updateGsoRow_b s 0 1
  have hu := updateGsoRow_fresh hs hf (i := 0) (l := 1) (by omega) (by omega) le_rfl
    (by rcases Nat.eq_zero_or_pos s.nKnownRows with h | h
        · right; exact ⟨hl, h.symm⟩
        · left; rw [hs.unlocked hl]; exact h)
    (by intro j _ hj; omega)
  have hu1 : (s.updateGsoRow 0 1).1 = true := by
    by_contra h
    obtain ⟨k, k1, k2, k3⟩ := hu.2.2.1 (by simpa using h)
    omega
  have hst : startStep c fuel s 0 0 = (.success, (s.updateGsoRow 0 1).2) := by
    unfold startStep startTail
    dsimp only
    simp only [lt_irrefl, if_false, ne_eq, not_true_eq_false, Nat.zero_add]
    rw [if_pos hu1]
  rw [hst] at hss ⊢
  dsimp only at hss
  obtain ⟨f1, f2, f3, f4, f5⟩ := hu
  have f2 := f2 hu1
  have hk := (hss.2 rfl).1
  have hlk := (hss.2 rfl).2
  have gd := hss.1
  generalize (s.updateGsoRow 0 1).2 = t at *
  have hn2 : t.nCols = s.nCols := gd.cfg.nCols
  unfold lllTail
  dsimp only
  rw [if_neg (by simp)]
  have hindt : Indep e t.nCols (toQ t.b) := by rw [hn2, hb]; exact hind
  have hinv : XInv c η thr e { s := t, kappa := 0 + 1, kappaMax := 0, zeros := 0, nSwaps := 0, lastEarlyRed := last } := by
    refine ⟨gd.wf, f1, hlk, by dsimp only; rw [gd.cfg.d]; exact hed, by dsimp only; omega, hk, by dsimp only; omega, ?_, ?_⟩
    · refine ⟨?_, ?_, ?_, ?_⟩
      · intro k hk; dsimp only at hk ⊢; have : k = 0 := by omega
        rw [this]; exact f2
      · intro k hk; dsimp only at hk ⊢
        exact hindt.pos k (by omega)
      · intro i hi j hj; dsimp only at hi; omega
      · intro k hk; dsimp only at hk; omega
    · intro k k1 k2 cc hcc
      dsimp only at k1; omega
  obtain ⟨M1, M2, M3⟩ := mainLoop_count c hX hcfg hη hδ hδ1 hfuel maxIter m _ hinv rfl hindt (by dsimp only; omega)
    (by dsimp only; rw [hn2, hb]; exact hpot)
  generalize mainLoop c fuel 0 e 0 maxIter { s := t, kappa := 0 + 1, kappaMax := 0, zeros := 0, nSwaps := 0, lastEarlyRed := last } = q at *
  unfold lllFinish
  rw [if_neg (by simpa using M1)]
  dsimp only
  rw [M3, if_neg (by omega)]
  exact ⟨rfl, rfl⟩

end LLL
end Fplll

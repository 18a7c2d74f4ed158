import Verif.Proofs.LLLExact

/-!
# The main loop of LLL in exact arithmetic
-/

namespace Fplll

open FloatOps GSO Spec

namespace LLL

/-- row `k` is zero -/
def ZeroRow (s : GSO Exact) (k : ℕ) : Prop := ∀ c < s.nCols, s.b k c = 0

theorem XPost.zeroRow {s s' : GSO Exact} {kappa stop start : ℕ} {η : ℚ} (h : XPost s s' kappa stop start η)
    (hη : 0 ≤ η) (hn : s'.nCols = s.nCols) {k : ℕ} (hz : ZeroRow s k) : ZeroRow s' k := by
  intro c hc
  rw [hn] at hc
  by_cases hk : k = kappa
  · subst hk; rw [h.zero hη hz]; exact hz c hc
  · rw [h.rows k hk]; exact hz c hc

theorem earlyLoop_exact (c : LLLCfg Exact) {η : ℚ} (hc : c.eta = some η) (hη : 0 ≤ η) (fuel start srs n i : ℕ)
    (s : GSO Exact) (hs : WF s) (hf : Fresh s 0 0) (hd : i + n ≤ s.d) (hi : start ≤ i) (hk : i ≤ s.nKnownRows)
    (hsrc : start ≤ s.nSourceRows) (hready : ∀ j < start, j + 1 ≤ s.gsoValidCols j) :
    let p := earlyLoop c fuel start srs n i s
    (p.1 = .success → Fresh p.2 0 0 ∧ (∀ k < start, p.2.b k = s.b k ∧ p.2.gsoValidCols k = s.gsoValidCols k) ∧
      (∀ k, ZeroRow s k → ZeroRow p.2 k)) ∧
    (1 / 2 ≤ η → 2 ≤ fuel → (∀ j < start, normStar s.nCols s.bq j ≠ 0) → p.1 = .success) := by
  induction n generalizing i s with
  | zero => exact ⟨fun _ => ⟨hf, fun _ _ => ⟨rfl, rfl⟩, fun _ h => h⟩, fun _ _ _ => rfl⟩
  | succ n ih =>
    have pre : BabaiPre s i start := ⟨hs, by omega, hk, hi, hsrc⟩
    have xpre : XPre s i start := ⟨pre, hf, hready⟩
    simp only [earlyLoop]
    have g := babai_good c fuel srs pre
    by_cases h : (babai c fuel s i start srs).1 = .success
    · rw [if_pos h]
      have r := babai_res c fuel srs pre h
      have x := babai_exact c hc srs fuel xpre h
      have := ih (i + 1) _ g.wf x.fresh (by rw [g.cfg.d]; omega) (by omega) (by rw [r.known]; omega)
        (by rw [r.source]; split_ifs <;> omega)
        (by intro j hj; rw [x.valid j (by omega)]; exact hready j hj)
      refine ⟨fun hs => ?_, fun h1 h2 h3 => ?_⟩
      · obtain ⟨a, b, e⟩ := this.1 hs
        refine ⟨a, fun k hk => ?_, fun k hz => e k (x.zeroRow hη g.cfg.nCols hz)⟩
        rw [(b k hk).1, (b k hk).2]
        exact ⟨x.rows k (by omega), x.valid k (by omega)⟩
      · refine this.2 h1 h2 ?_
        intro j hj
        rw [g.cfg.nCols, normStar_congr (B' := s.bq)]
        · exact h3 j hj
        · intro k hk c _; unfold bq; rw [x.rows k (by omega)]
    · rw [if_neg h]
      refine ⟨fun h2 => absurd h2 h, fun h1 h2 h3 => absurd ?_ h⟩
      exact babai_exact_success c hc h1 srs h2 xpre h3

theorem earlyReduction_exact (c : LLLCfg Exact) {η : ℚ} (hc : c.eta = some η) (hη : 0 ≤ η) (fuel srs : ℕ)
    {s : GSO Exact} {start : ℕ} (hs : WF s) (hf : Fresh s 0 0) (hG : s.intGram = false)
    (hl : s.colsLocked = false) (hd : start ≤ s.d) (hk : start ≤ s.nKnownRows)
    (hready : ∀ j < start, j + 1 ≤ s.gsoValidCols j) :
    let p := earlyReduction c fuel s start srs
    (p.1 = .success → Fresh p.2 0 0 ∧ (∀ k < start, p.2.b k = s.b k ∧ p.2.gsoValidCols k = s.gsoValidCols k) ∧
      (∀ k, ZeroRow s k → ZeroRow p.2 k)) ∧
    (1 / 2 ≤ η → 2 ≤ fuel → (∀ j < start, normStar s.nCols s.bq j ≠ 0) → p.1 = .success) := by
  have g0 := lockCols_good hs hG
  have hsrc := hs.unlocked hl
  have hss : start ≤ s.lockCols.nSourceRows := by change start ≤ s.nSourceRows; omega
  have e := earlyLoop_exact c hc hη fuel start srs (s.d - start) start s.lockCols g0.wf (lockCols_fresh hf)
    (by rw [g0.cfg.d]; omega) le_rfl hk hss hready
  have gd := earlyLoop_good c fuel start srs (s.d - start) start s.lockCols g0.wf
    (by rw [g0.cfg.d]; omega) le_rfl hk hss
  simp only [earlyReduction]
  by_cases h : (earlyLoop c fuel start srs (s.d - start) start s.lockCols).1 = .success
  · rw [if_pos h]
    obtain ⟨a, b, z⟩ := e.1 h
    exact ⟨fun _ => ⟨unlockCols_fresh gd.1.wf a, b, z⟩, fun _ _ _ => rfl⟩
  · rw [if_neg h]
    exact ⟨fun h2 => absurd h2 h, fun h1 h2 h3 => absurd (e.2 h1 h2 h3) h⟩

/-- the condition between rows `k` and `k + 1` that LLL establishes: Lovász's, or Siegel's -/
def CondS (sg : Bool) (thr : ℚ) (n : ℕ) (B : ℕ → ℕ → ℚ) (k : ℕ) : Prop :=
  thr * normStar n B k ≤ projSq n B (k + 1) (if sg then k + 1 else k)

/-- parameters for which LLL is meant to work, in exact arithmetic -/
structure XCfg (c : LLLCfg Exact) (η thr : ℚ) : Prop where
  eta : c.eta = some η
  thrE : c.thr = some thr
  eta0 : 0 ≤ η
  pos : if c.siegel then 0 < thr else η ^ 2 < thr

/-- what LLL knows about its first rows -/
structure XHead (c : LLLCfg Exact) (η thr : ℚ) (s : GSO Exact) (kappa : ℕ) : Prop where
  valid : ∀ k < kappa, k + 1 ≤ s.gsoValidCols k
  pos : ∀ k < kappa, 0 < normStar s.nCols s.bq k
  sr : ∀ i < kappa, ∀ j < i, |muS s.nCols s.bq i j| ≤ η
  cond : ∀ k, k + 1 < kappa → CondS c.siegel thr s.nCols s.bq k

theorem projSq_congr {n : ℕ} {B B' : ℕ → ℕ → ℚ} {i i' k : ℕ} (h : ∀ l < k, ∀ c < n, B l c = B' l c)
    (hi : ∀ c < n, B i c = B' i' c) : projSq n B i k = projSq n B' i' k := by
  unfold projSq
  rw [dotQ_congr hi hi]
  congr 1
  refine Finset.sum_congr rfl (fun j hj => ?_)
  rw [Finset.mem_range] at hj
  rw [muS_congr (fun l hl => h l (by omega)) hi, rS_congr (fun l hl => h l (by omega)) hi]

/-- the head only depends on the first rows -/
theorem XHead.congr {c : LLLCfg Exact} {η thr : ℚ} {s s' : GSO Exact} {kappa : ℕ} (h : XHead c η thr s kappa)
    (hn : s'.nCols = s.nCols) (hb : ∀ k < kappa, s'.b k = s.b k)
    (hv : ∀ k < kappa, k + 1 ≤ s.gsoValidCols k → k + 1 ≤ s'.gsoValidCols k) :
    XHead c η thr s' kappa := by
  have hq : ∀ k < kappa, ∀ c < s.nCols, s'.bq k c = s.bq k c := by
    intro k hk c _; unfold bq; rw [hb k hk]
  refine ⟨fun k hk => hv k hk (h.valid k hk), ?_, ?_, ?_⟩
  · intro k hk; rw [hn, normStar_congr (fun l hl => hq l (by omega))]; exact h.pos k hk
  · intro i hi j hj; rw [hn, muS_congr (fun l hl => hq l (by omega)) (hq i hi)]; exact h.sr i hi j hj
  · intro k hk
    have := h.cond k hk
    unfold CondS at *
    rw [hn, normStar_congr (B' := s.bq) (fun l hl => hq l (by omega)),
      projSq_congr (B' := s.bq) (i' := k + 1) (fun l hl => hq l (by split_ifs at hl <;> omega)) (hq _ hk)]
    exact this

theorem lovaszTests_exact {s : GSO Exact} {kappa : ℕ} {n : ℕ} {B : ℕ → ℕ → ℚ}
    (hg : s.gramVal kappa kappa = some (dotQ n (B kappa) (B kappa)))
    (hmu : ∀ j < kappa, s.mu kappa j = some (muS n B kappa j))
    (hr : ∀ j < kappa, s.r kappa j = some (rS n B kappa j)) :
    ∀ i ≤ kappa, lovaszTests s kappa i = some (projSq n B kappa i) := by
  intro i hi
  unfold lovaszTests
  have := forUp_inv (P := fun m (lov : ℕ → Exact) => ∀ i < m, lov i = some (projSq n B kappa i))
    (fun i (lov : ℕ → Exact) =>
      setAt lov i (sub (lov (i - 1)) (mul (s.mu kappa (i - 1)) (s.r kappa (i - 1)))))
    (show 1 ≤ kappa + 1 by omega) (setAt (fun _ => nan) 0 (s.gramVal kappa kappa))
    (by
      intro i hi
      have : i = 0 := by omega
      subst this
      rw [setAt_self, hg]
      unfold projSq; simp)
    (by
      intro m lov h1 h2 hl i hi
      by_cases h : i = m
      · subst h
        rw [setAt_self, hl (i - 1) (by omega), hmu (i - 1) (by omega), hr (i - 1) (by omega)]
        have := projSq_succ n B kappa (i - 1)
        rw [show i - 1 + 1 = i by omega] at this
        change some (_ - _ * _) = _
        congr 1
        linarith
      · rw [setAt_ne _ _ h]; exact hl i (by omega))
  exact this i (by omega)

theorem insertIdx_exact (c : LLLCfg Exact) {thr : ℚ} (hc : c.thr = some thr) {s : GSO Exact} {lov : ℕ → Exact}
    {kappa : ℕ} {p r : ℕ → ℚ} (hl : ∀ i ≤ kappa, lov i = some (p i)) (hr : ∀ k < kappa, s.r k k = some (r k))
    (k : ℕ) (hk : k ≤ kappa) :
    let m := insertIdx c s lov 0 k
    m ≤ k ∧ (m = 0 ∨ (1 ≤ m ∧ r (m - 1) * thr < p (testIdx c m))) := by
  induction k with
  | zero => simp [insertIdx]
  | succ k ih =>
    simp only [insertIdx]
    rw [if_pos (by omega)]
    have ht : testIdx c (k + 1) ≤ kappa := by unfold testIdx; split_ifs <;> omega
    rw [hr k (by omega), hc, hl _ ht]
    have e : (lt (mul (some (r k)) (some thr)) (some (p (testIdx c (k + 1)))) : Bool) =
        decide (r k * thr < p (testIdx c (k + 1))) := rfl
    rw [e]
    split_ifs with h
    · refine ⟨le_rfl, .inr ⟨by omega, ?_⟩⟩
      simpa using h
    · have := ih (by omega)
      exact ⟨by dsimp only at this; omega, this.2⟩

/-- loop invariant of LLL in exact arithmetic -/
structure XInv (c : LLLCfg Exact) (η thr : ℚ) (d : ℕ) (st : LLLState Exact) : Prop where
  wf : WF st.s
  fresh : Fresh st.s 0 0
  unlocked : st.s.colsLocked = false
  hd : d ≤ st.s.d
  k1 : 1 ≤ st.kappa
  known : st.kappa ≤ st.s.nKnownRows
  kle : st.kappa ≤ d - st.zeros
  head : XHead c η thr st.s st.kappa
  zero : ∀ k, d - st.zeros ≤ k → k < d → ZeroRow st.s k

theorem moveRow_nCols (s : GSO Exact) (o n : ℕ) : (s.moveRow o n).nCols = s.nCols := by
  unfold moveRow
  split_ifs
  · rfl
  · exact (moveRowForget_f _ o n).2.2.2.2.2.2.2.1
  · rfl

theorem moveRow_up (s : GSO Exact) {o n : ℕ} (h : n < o) (ho : o < s.nKnownRows) :
    (∀ k < n, (s.moveRow o n).b k = s.b k) ∧ (s.moveRow o n).b n = s.b o ∧
    (∀ k, o < k → (s.moveRow o n).b k = s.b k) ∧
    (∀ k < n, (s.moveRow o n).gsoValidCols k = s.gsoValidCols k) ∧
    (s.moveRow o n).gsoValidCols n = min (s.gsoValidCols o) n := by
  unfold moveRow
  rw [if_pos h]
  have hb : ∀ k, (s.moveRowUp o n).b k = _ := fun k => rotateRightBySwap_apply s.b n o k h.le
  have hv : ∀ k, (s.moveRowUp o n).gsoValidCols k = _ :=
    fun k => rotateRightBySwap_apply (s.invalidateFrom n n).gsoValidCols n o k h.le
  refine ⟨?_, ?_, ?_, ?_, ?_⟩
  · intro k hk; rw [hb, if_neg (by omega), if_neg (by omega)]
  · rw [hb, if_neg (by omega), if_pos rfl]
  · intro k hk; rw [hb, if_neg (by omega), if_neg (by omega)]
  · intro k hk; rw [hv, if_neg (by omega), if_neg (by omega), invalidateFrom_valid, if_neg (by omega)]
  · rw [hv, if_neg (by omega), if_pos rfl, invalidateFrom_valid, if_pos (by omega)]

theorem moveRow_down (s : GSO Exact) {o n : ℕ} (h : o ≤ n) :
    (∀ k < o, (s.moveRow o n).b k = s.b k) ∧ (s.moveRow o n).b n = s.b o ∧
    (∀ k, n < k → (s.moveRow o n).b k = s.b k) ∧
    (∀ k < o, (s.moveRow o n).gsoValidCols k = s.gsoValidCols k) := by
  unfold moveRow
  rw [if_neg (by omega)]
  split_ifs with h2
  · obtain ⟨f1, f2, f3, f4, f5, f6, f7, f8, f9, f10⟩ := moveRowForget_f (s.moveRowDown o n) o n
    have hb : ∀ k, (s.moveRowDown o n).b k = _ := fun k => rotateLeftBySwap_apply s.b o n k h
    have hv : ∀ k, (s.moveRowDown o n).gsoValidCols k = _ :=
      fun k => rotateLeftBySwap_apply (s.invalidateFrom o o).gsoValidCols o n k h
    rw [f6, f5]
    refine ⟨?_, ?_, ?_, ?_⟩
    · intro k hk; rw [hb, if_neg (by omega), if_neg (by omega)]
    · rw [hb, if_neg (by omega), if_pos rfl]
    · intro k hk; rw [hb, if_neg (by omega), if_neg (by omega)]
    · intro k hk; rw [hv, if_neg (by omega), if_neg (by omega), invalidateFrom_valid, if_neg (by omega)]
  · have : o = n := by omega
    subst this
    exact ⟨fun _ _ => rfl, rfl, fun _ _ => rfl, fun _ _ => rfl⟩

/-- the row added to the head -/
theorem XHead.snoc {c : LLLCfg Exact} {η thr : ℚ} {s : GSO Exact} {kappa : ℕ} (h : XHead c η thr s kappa)
    (hv : kappa + 1 ≤ s.gsoValidCols kappa) (hp : 0 < normStar s.nCols s.bq kappa)
    (hs : ∀ j < kappa, |muS s.nCols s.bq kappa j| ≤ η)
    (hc : ∀ k, k + 1 = kappa → CondS c.siegel thr s.nCols s.bq k) : XHead c η thr s (kappa + 1) := by
  refine ⟨?_, ?_, ?_, ?_⟩
  · intro k hk
    by_cases e : k = kappa
    · rw [e]; exact hv
    · exact h.valid k (by omega)
  · intro k hk
    by_cases e : k = kappa
    · rw [e]; exact hp
    · exact h.pos k (by omega)
  · intro k hk
    by_cases e : k = kappa
    · rw [e]; exact hs
    · exact h.sr k (by omega)
  · intro k hk
    by_cases e : k + 1 = kappa
    · exact hc k e
    · exact h.cond k (by omega)

theorem XHead.mono {c : LLLCfg Exact} {η thr : ℚ} {s : GSO Exact} {kappa k : ℕ} (h : XHead c η thr s kappa)
    (hk : k ≤ kappa) : XHead c η thr s k :=
  ⟨fun i hi => h.valid i (by omega), fun i hi => h.pos i (by omega), fun i hi => h.sr i (by omega),
   fun i hi => h.cond i (by omega)⟩

/-- the size-reduced row `kappa` satisfies the test: its Gram–Schmidt vector is long -/
theorem cond_pos {c : LLLCfg Exact} {η thr : ℚ} (hcfg : XCfg c η thr) {n : ℕ} {B : ℕ → ℕ → ℚ} {i k : ℕ}
    (hk : 0 < normStar n B k) (hm : |muS n B i k| ≤ η)
    (ht : thr * normStar n B k ≤ projSq n B i (if c.siegel then k + 1 else k)) : 0 < projSq n B i (k + 1) := by
  have hp := hcfg.pos
  split_ifs at * with hsg
  · exact lt_of_lt_of_le (mul_pos hp hk) ht
  · rw [projSq_succ'] at ht
    have h2 : muS n B i k ^ 2 ≤ η ^ 2 := by
      rw [← sq_abs]; exact pow_le_pow_left₀ (abs_nonneg _) hm 2
    nlinarith

theorem lovaszStep_exact (c : LLLCfg Exact) {η thr : ℚ} (hcfg : XCfg c η thr) {d : ℕ} {st : LLLState Exact}
    (hwf : WF st.s) (hf : Fresh st.s 0 0) (hl : st.s.colsLocked = false) (hd : d ≤ st.s.d)
    (h1 : 1 ≤ st.kappa) (hk : st.kappa < st.s.nKnownRows) (hlt : st.kappa < d - st.zeros)
    (hv : st.kappa ≤ st.s.gsoValidCols st.kappa)
    (hsr : ∀ j < st.kappa, |muS st.s.nCols st.s.bq st.kappa j| ≤ η)
    (hh : XHead c η thr st.s st.kappa) (hz : ∀ k, d - st.zeros ≤ k → k < d → ZeroRow st.s k) :
    XInv c η thr d (lovaszStep c 0 d st) := by
  unfold lovaszStep
  dsimp only
  have hsrc := hwf.unlocked hl
  have hg := gram_exact hwf hf hk (le_refl st.kappa) (by omega)
  have hf1 := cacheGram_fresh hwf hf hk (le_refl st.kappa) (by omega)
  have g1 := (cacheGram_fo st.s st.kappa st.kappa).good hwf
  have hl1 : (st.s.cacheGram st.kappa st.kappa).colsLocked = false := hl
  have hk1 : st.kappa < (st.s.cacheGram st.kappa st.kappa).nKnownRows := hk
  have hd1 : d ≤ (st.s.cacheGram st.kappa st.kappa).d := hd
  have hv1 : st.kappa ≤ (st.s.cacheGram st.kappa st.kappa).gsoValidCols st.kappa := hv
  have hsr1 : ∀ j < st.kappa, |muS (st.s.cacheGram st.kappa st.kappa).nCols
    (st.s.cacheGram st.kappa st.kappa).bq st.kappa j| ≤ η := hsr
  have hh1 : XHead c η thr (st.s.cacheGram st.kappa st.kappa) st.kappa := ⟨hh.valid, hh.pos, hh.sr, hh.cond⟩
  have hz1 : ∀ k, d - st.zeros ≤ k → k < d → ZeroRow (st.s.cacheGram st.kappa st.kappa) k := hz
  have hwf1 := g1.wf
  have hg1 : (st.s.cacheGram st.kappa st.kappa).gramVal st.kappa st.kappa =
      some (dotQ (st.s.cacheGram st.kappa st.kappa).nCols ((st.s.cacheGram st.kappa st.kappa).bq st.kappa)
        ((st.s.cacheGram st.kappa st.kappa).bq st.kappa)) := by
    rw [hg]; congr 1; exact ip_dotQ st.s st.kappa st.kappa
  clear hg g1 hl hf hk hd hv hsr hh hz hwf hsrc
  generalize st.s.cacheGram st.kappa st.kappa = s at *
  have hsrc := hwf1.unlocked hl1
  have hmu : ∀ j < st.kappa, s.mu st.kappa j = some (muS s.nCols s.bq st.kappa j) := fun j hj =>
    ((hf1.valid st.kappa hk1 (by simp) j (by omega) (by omega)).2 hj).1
  have hr : ∀ j < st.kappa, s.r st.kappa j = some (rS s.nCols s.bq st.kappa j) := fun j hj =>
    (hf1.valid st.kappa hk1 (by simp) j (by omega) (by omega)).1
  have hrd : ∀ k < st.kappa, s.r k k = some (normStar s.nCols s.bq k) := by
    intro k hk
    have := hh1.valid k hk
    rw [(hf1.valid k (by omega) (by simp) k (by omega) (by omega)).1, rS_self]
  have hlov := lovaszTests_exact hg1 hmu hr
  have hins := insertIdx_exact c hcfg.thrE hlov hrd (st.kappa - 1) (by omega)
  dsimp only at hins
  generalize insertIdx c s (lovaszTests s st.kappa) 0 (st.kappa - 1) = k at *
  obtain ⟨hk2, hk3⟩ := hins
  have hti : testIdx c st.kappa ≤ st.kappa := by unfold testIdx; split_ifs <;> omega
  rw [hrd (st.kappa - 1) (by omega), hcfg.thrE, hlov _ hti, hlov k (by omega), hlov st.kappa le_rfl]
  have e1 : (gt (mul (some (normStar s.nCols s.bq (st.kappa - 1))) (some thr))
      (some (projSq s.nCols s.bq st.kappa (testIdx c st.kappa))) : Bool) =
      decide (projSq s.nCols s.bq st.kappa (testIdx c st.kappa) < normStar s.nCols s.bq (st.kappa - 1) * thr) := rfl
  have e2 : (gt (some (projSq s.nCols s.bq st.kappa k)) (ofInt 0) : Bool) =
      decide (((0 : ℤ) : ℚ) < projSq s.nCols s.bq st.kappa k) := rfl
  rw [e1, e2]
  by_cases hA : projSq s.nCols s.bq st.kappa (testIdx c st.kappa) < normStar s.nCols s.bq (st.kappa - 1) * thr
  · rw [if_pos (by simpa using hA)]
    by_cases hB : 0 < projSq s.nCols s.bq st.kappa k
    · rw [if_pos (by simpa using hB)]
      have hko : k < st.kappa := by omega
      obtain ⟨m1, m2, m3, m4, m5⟩ := moveRow_up s hko hk1
      have g2 : Good s (s.moveRow st.kappa k) := moveRow_good hwf1 hl1 (by omega) (by omega)
      have f2 : Fresh (s.moveRow st.kappa k) 0 0 := moveRow_fresh hwf1 hf1 (by omega) (by omega)
      have n2 := moveRow_nCols s st.kappa k
      have k2 := moveRow_known s st.kappa k
      have l2 := moveRow_locked s st.kappa k
      have hq : ∀ l < k, ∀ c < s.nCols, (s.moveRow st.kappa k).bq l c = s.bq l c := by
        intro l hl c _; unfold bq; rw [m1 l hl]
      have hqk : ∀ c < s.nCols, (s.moveRow st.kappa k).bq k c = s.bq st.kappa c := by
        intro c _; unfold bq; rw [m2]
      have hns : normStar s.nCols (s.moveRow st.kappa k).bq k = projSq s.nCols s.bq st.kappa k :=
        normStar_insert hq hqk
      have hd2 : d ≤ (s.moveRow st.kappa k).d := by rw [g2.cfg.d]; exact hd1
      have hhead : XHead c η thr (s.moveRow st.kappa k) k :=
        (hh1.mono hko.le).congr n2 m1 (fun l hl hh => by rw [m4 l hl]; exact hh)
      have hvk : (s.moveRow st.kappa k).gsoValidCols k = k := by rw [m5]; omega
      have hmus : ∀ j < k, muS s.nCols (s.moveRow st.kappa k).bq k j = muS s.nCols s.bq st.kappa j :=
        fun j hj => muS_congr (fun l hl => hq l (by omega)) hqk
      have hcond : ∀ l, l + 1 = k → CondS c.siegel thr s.nCols (s.moveRow st.kappa k).bq l := by
        intro l hl
        rcases hk3 with h0 | ⟨h0, h4⟩
        · omega
        · unfold CondS
          have : l = k - 1 := by omega
          rw [normStar_congr (B' := s.bq) (fun m hm => hq m (by omega)),
            projSq_congr (B' := s.bq) (i' := st.kappa) (fun m hm => hq m (by split_ifs at hm <;> omega))
              (by rw [hl]; exact hqk)]
          unfold testIdx at h4
          rw [← this] at h4
          rw [mul_comm]
          refine le_of_lt (lt_of_lt_of_le h4 (le_of_eq ?_))
          congr 1
          split_ifs <;> omega
      have hnz : ∀ j, d - st.zeros ≤ j → j < d → ZeroRow (s.moveRow st.kappa k) j := by
        intro j j1 j2 c hc
        rw [n2] at hc
        rw [m3 j (by omega)]
        exact hz1 j j1 j2 c hc
      clear hq hqk m1 m2 m3 m4 m5
      generalize s.moveRow st.kappa k = t at *
      have fo := setR_fo t k k (some (projSq s.nCols s.bq st.kappa k))
      have hset : (t.setR k k (some (projSq s.nCols s.bq st.kappa k))).gsoValidCols =
          setAt t.gsoValidCols k (k + 1) := by
        unfold setR; dsimp only; rw [if_pos hvk]
      have hf3 : Fresh (t.setR k k (some (projSq s.nCols s.bq st.kappa k))) 0 0 :=
        setR_fresh f2 (by omega) (by rw [n2, rS_self, hns])
      refine ⟨(fo.good g2.wf).wf, hf3, l2.trans hl1, hd2, by dsimp only; omega,
        ?_, by dsimp only; omega, ?_, hnz⟩
      · dsimp only; rw [fo.nKnownRows, k2, if_neg (by omega)]; omega
      · refine XHead.snoc (hhead.congr rfl (fun _ _ => rfl) ?_) ?_ ?_ ?_ ?_
        · intro l hl h; rw [hset, setAt_ne _ _ (by omega)]; exact h
        · rw [hset, setAt_self]
        · change 0 < normStar t.nCols t.bq k; rw [n2, hns]; exact hB
        · intro j hj
          change |muS t.nCols t.bq k j| ≤ η
          rw [n2, hmus j hj]; exact hsr1 j (by omega)
        · intro l hl
          change CondS c.siegel thr t.nCols t.bq l
          rw [n2]; exact hcond l hl
    · rw [if_neg (by simpa using hB)]
      -- the row is zero
      have hk0 : k = 0 := by
        rcases hk3 with h0 | ⟨h0, h4⟩
        · exact h0
        · exfalso
          apply hB
          have := cond_pos hcfg (n := s.nCols) (B := s.bq) (i := st.kappa) (k := k - 1)
            (hh1.pos _ (by omega)) (hsr1 _ (by omega))
            (by
              rw [mul_comm]
              refine le_of_lt (lt_of_lt_of_le h4 (le_of_eq ?_))
              unfold testIdx
              congr 1
              split_ifs <;> omega)
          rwa [show k - 1 + 1 = k by omega] at this
      have hrow : ZeroRow s st.kappa := by
        rw [hk0] at hB
        have h0 : dotQ s.nCols (s.bq st.kappa) (s.bq st.kappa) = 0 := by
          have e : projSq s.nCols s.bq st.kappa 0 = dotQ s.nCols (s.bq st.kappa) (s.bq st.kappa) := by
            unfold projSq; simp
          rw [e] at hB
          exact le_antisymm (not_lt.1 hB) (dotQ_self_nonneg _ _)
        intro cc hcc
        have := dotQ_self_eq_zero h0 cc hcc
        unfold bq at this
        exact_mod_cast this
      obtain ⟨m1, m2, m3, m4⟩ := moveRow_down s (show st.kappa ≤ d - (st.zeros + 1) by omega)
      have g2 : Good s (s.moveRow st.kappa (d - (st.zeros + 1))) :=
        moveRow_good hwf1 hl1 (by omega) (by omega)
      have n2 := moveRow_nCols s st.kappa (d - (st.zeros + 1))
      refine ⟨g2.wf, moveRow_fresh hwf1 hf1 (by omega) (by omega), ?_, (by dsimp only; rw [g2.cfg.d]; exact hd1), h1, ?_,
        by dsimp only; omega, ?_, ?_⟩
      · dsimp only; rw [moveRow_locked]; exact hl1
      · dsimp only; rw [moveRow_known]; split_ifs <;> omega
      · exact hh1.congr n2 m1 (fun l hl h => by rw [m4 l hl]; exact h)
      · intro j j1 j2 cc hcc
        dsimp only at j1 hcc ⊢
        rw [n2] at hcc
        by_cases hj : j = d - (st.zeros + 1)
        · rw [hj, m2]; exact hrow cc hcc
        · rw [m3 j (by omega)]; exact hz1 j (by omega) j2 cc hcc
  · rw [if_neg (by simpa using hA)]
    have hc : ∀ l, l + 1 = st.kappa → CondS c.siegel thr s.nCols s.bq l := by
      intro l hl
      unfold CondS
      have := not_lt.1 hA
      rw [← hl, mul_comm] at this
      unfold testIdx at this
      have e : st.kappa - 1 = l := by omega
      simpa [hl, e] using this
    have hpos : 0 < normStar s.nCols s.bq st.kappa := by
      have h := hc (st.kappa - 1) (by omega)
      unfold CondS at h
      have hkk : st.kappa - 1 + 1 = st.kappa := by omega
      rw [hkk] at h
      have := cond_pos hcfg (n := s.nCols) (B := s.bq) (i := st.kappa) (k := st.kappa - 1)
        (hh1.pos _ (by omega)) (hsr1 _ (by omega)) (by rw [hkk]; exact h)
      rwa [hkk, projSq_self] at this
    rw [projSq_self]
    have fo := setR_fo s st.kappa st.kappa (some (normStar s.nCols s.bq st.kappa))
    have hle := hf1.validLe st.kappa hk1
    have hval : ∀ l, (s.setR st.kappa st.kappa (some (normStar s.nCols s.bq st.kappa))).gsoValidCols l =
        if l = st.kappa then st.kappa + 1 else s.gsoValidCols l := by
      intro l
      unfold setR
      dsimp only
      split_ifs with h h'
      · rw [h', setAt_self]
      · rw [setAt_ne _ _ h']
      · rename_i h'; rw [h']; omega
      · rfl
    refine ⟨(fo.good hwf1).wf, setR_fresh hf1 hv1 (by rw [rS_self]), hl1, hd1, by dsimp only; omega,
      ?_, by dsimp only; omega, ?_, hz1⟩
    · dsimp only; rw [fo.nKnownRows]; omega
    · refine XHead.snoc (hh1.congr rfl (fun _ _ => rfl) ?_) ?_ hpos hsr1 hc
      · intro l hl h; rw [hval, if_neg (by omega)]; exact h
      · rw [hval, if_pos rfl]

theorem discoverStep_exact (c : LLLCfg Exact) {η thr : ℚ} (hcfg : XCfg c η thr) (fuel srs : ℕ) {d : ℕ}
    {st : LLLState Exact} (h : XInv c η thr d st) :
    ((discoverStep c fuel srs st).1 = .success → XInv c η thr d (discoverStep c fuel srs st).2 ∧
      (discoverStep c fuel srs st).2.kappa = st.kappa ∧ (discoverStep c fuel srs st).2.zeros = st.zeros) ∧
    (1 / 2 ≤ η → 2 ≤ fuel → (discoverStep c fuel srs st).1 = .success) := by
  unfold discoverStep
  dsimp only
  by_cases h1 : st.kappaMax < st.kappa
  swap
  · rw [if_neg h1]; exact ⟨fun _ => ⟨h, rfl, rfl⟩, fun _ _ => rfl⟩
  rw [if_pos h1]
  by_cases h2 : (c.earlyRedFlag && !st.s.intGram && isPowerOf2 st.kappa && decide (st.lastEarlyRed < st.kappa)) = true
  swap
  · rw [if_neg h2]
    exact ⟨fun _ => ⟨⟨h.wf, h.fresh, h.unlocked, h.hd, h.k1, h.known, h.kle, h.head, h.zero⟩, rfl, rfl⟩, fun _ _ => rfl⟩
  rw [if_pos h2]
  simp only [Bool.and_eq_true, Bool.not_eq_eq_eq_not, Bool.not_true, decide_eq_true_eq] at h2
  have hdk := h.wf.known_le
  have hknown := h.known
  have hd := h.hd
  have e := earlyReduction_good c fuel srs h.wf h2.1.1.2 (start := st.kappa) (by omega) hknown h.unlocked
  have x := earlyReduction_exact c hcfg.eta hcfg.eta0 fuel srs h.wf h.fresh h2.1.1.2 h.unlocked
    (start := st.kappa) (by omega) hknown h.head.valid
  dsimp only at x
  by_cases h3 : (earlyReduction c fuel st.s st.kappa srs).1 = .success
  · rw [if_pos h3]
    obtain ⟨a, b, z⟩ := x.1 h3
    obtain ⟨e1, e2⟩ := e
    obtain ⟨e3, e4, e5⟩ := e2 h3
    refine ⟨fun _ => ⟨⟨e1.wf, a, e5, (by dsimp only; rw [e1.cfg.d]; exact hd), h.k1, ?_, h.kle, ?_, ?_⟩, rfl, rfl⟩, fun _ _ => rfl⟩
    · dsimp only; rw [e3]; exact hknown
    · exact h.head.congr e1.cfg.nCols (fun k hk => (b k hk).1) (fun k hk hv => by dsimp only; rw [(b k hk).2]; exact hv)
    · intro k k1 k2; exact z k (h.zero k k1 k2)
  · rw [if_neg h3]
    refine ⟨fun h4 => absurd h4 h3, fun q1 q2 => absurd (x.2 q1 q2 ?_) h3⟩
    intro j hj; exact (h.head.pos j hj).ne'

/-- one iteration of the main loop -/
theorem iter_exact (c : LLLCfg Exact) {η thr : ℚ} (hcfg : XCfg c η thr) (fuel : ℕ) {d : ℕ}
    {st : LLLState Exact} (h : XInv c η thr d st) (hlt : st.kappa < d - st.zeros) :
    ((babai c fuel st.s st.kappa st.kappa 0).1 = .success →
      XInv c η thr d (lovaszStep c 0 d { st with s := (babai c fuel st.s st.kappa st.kappa 0).2 })) ∧
    (1 / 2 ≤ η → 2 ≤ fuel → (babai c fuel st.s st.kappa st.kappa 0).1 = .success) := by
  have hknown := h.known
  have hd := h.hd
  have pre : BabaiPre st.s st.kappa st.kappa :=
    ⟨h.wf, by omega, hknown, le_rfl, by rw [h.wf.unlocked h.unlocked]; exact hknown⟩
  have xpre : XPre st.s st.kappa st.kappa := ⟨pre, h.fresh, h.head.valid⟩
  refine ⟨fun h3 => ?_, fun q1 q2 => babai_exact_success c hcfg.eta q1 0 q2 xpre
    (fun j hj => (h.head.pos j hj).ne')⟩
  have g := babai_good c fuel 0 pre
  have r := babai_res c fuel 0 pre h3
  have x := babai_exact c hcfg.eta 0 fuel xpre h3
  generalize (babai c fuel st.s st.kappa st.kappa 0).2 = t at *
  refine lovaszStep_exact c hcfg g.wf x.fresh (r.locked.trans h.unlocked) (by dsimp only; rw [g.cfg.d]; exact hd) h.k1
    (by dsimp only; rw [r.known]; omega) hlt x.validK ?_ ?_ ?_
  · intro j hj
    have := x.reduced j (by omega) hj
    dsimp only; rw [g.cfg.nCols]; exact this
  · exact h.head.congr g.cfg.nCols (fun k hk => x.rows k (by omega))
      (fun k hk hv => by dsimp only; rw [x.valid k hk]; exact hv)
  · intro k k1 k2
    exact x.zeroRow hcfg.eta0 g.cfg.nCols (h.zero k k1 k2)

theorem mainLoop_exact (c : LLLCfg Exact) {η thr : ℚ} (hcfg : XCfg c η thr) (fuel : ℕ) {d : ℕ} (n : ℕ)
    (st : LLLState Exact) (h : XInv c η thr d st) :
    ((mainLoop c fuel 0 d 0 n st).1 = .success → XInv c η thr d (mainLoop c fuel 0 d 0 n st).2) ∧
    (1 / 2 ≤ η → 2 ≤ fuel → (mainLoop c fuel 0 d 0 n st).1 = .success) := by
  induction n generalizing st with
  | zero => exact ⟨fun _ => h, fun _ _ => rfl⟩
  | succ n ih =>
    rw [mainLoop]
    by_cases h1 : st.kappa < d - st.zeros
    swap
    · rw [if_neg h1]; exact ⟨fun _ => h, fun _ _ => rfl⟩
    rw [if_pos h1]
    obtain ⟨a1, a2⟩ := discoverStep_exact c hcfg fuel 0 h
    dsimp only
    generalize discoverStep c fuel 0 st = P at *
    by_cases h2 : P.1 = .success
    swap
    · rw [if_pos h2]; exact ⟨fun h => absurd h h2, a2⟩
    rw [if_neg (by simpa using h2)]
    obtain ⟨b1, b2, b3⟩ := a1 h2
    obtain ⟨c1, c2⟩ := iter_exact c hcfg fuel b1 (by rw [b2, b3]; exact h1)
    by_cases h3 : (babai c fuel P.2.s P.2.kappa P.2.kappa 0).1 = .success
    swap
    · rw [if_pos h3]; exact ⟨fun h => absurd h h3, c2⟩
    rw [if_neg (by simpa using h3)]
    exact ih _ (c1 h3)

theorem zeroLoop_exact (d n zeros : ℕ) (s : GSO Exact) (hs : WF s) (hf : Fresh s 0 0) (hl : s.colsLocked = false)
    (hd : d ≤ s.d) (hn : zeros + n = d) (hz : ∀ k, d - zeros ≤ k → k < d → ZeroRow s k) :
    let z := zeroLoop 0 d n zeros s
    Fresh z.2 0 0 ∧ ∀ k, d - z.1 ≤ k → k < d → ZeroRow z.2 k := by
  induction n generalizing zeros s with
  | zero => exact ⟨hf, hz⟩
  | succ n ih =>
    simp only [zeroLoop]
    by_cases h : rowIsZero s 0 = true
    swap
    · rw [if_neg h]; exact ⟨hf, hz⟩
    rw [if_pos h]
    have g : Good s (s.moveRow 0 (d - 1 - zeros)) := moveRow_good hs hl (by omega) (by omega)
    refine ih (zeros + 1) _ g.wf (moveRow_fresh hs hf (by omega) (by omega)) (by rw [moveRow_locked]; exact hl)
      (by rw [g.cfg.d]; exact hd) (by omega) ?_
    obtain ⟨m1, m2, m3, m4⟩ := moveRow_down s (show 0 ≤ d - 1 - zeros by omega)
    have n2 := moveRow_nCols s 0 (d - 1 - zeros)
    have hr : ZeroRow s 0 := by unfold rowIsZero at h; intro cc hcc; exact (of_decide_eq_true h) cc hcc
    intro k k1 k2 cc hcc
    rw [n2] at hcc
    by_cases hj : k = d - 1 - zeros
    · rw [hj, m2]; exact hr cc hcc
    · rw [m3 k (by omega)]; exact hz k (by omega) k2 cc hcc

/-- what a successful `lll()` guarantees -/
structure XDone (c : LLLCfg Exact) (η thr : ℚ) (s : GSO Exact) (e rank : ℕ) : Prop where
  le : rank ≤ e
  pos : ∀ k < rank, 0 < normStar s.nCols s.bq k
  sr : ∀ i < rank, ∀ j < i, |muS s.nCols s.bq i j| ≤ η
  cond : ∀ k, k + 1 < rank → CondS c.siegel thr s.nCols s.bq k
  zero : ∀ k, rank ≤ k → k < e → ZeroRow s k

theorem lll_exact (c : LLLCfg Exact) {η thr : ℚ} (hcfg : XCfg c η thr) (fuel maxIter last : ℕ) {s : GSO Exact}
    (hs : WF s) (hf : Fresh s 0 0) (hl : s.colsLocked = false) {e : ℕ} (hd0 : 0 < e) (hed : e ≤ s.d) :
    let q := lll c fuel maxIter last s 0 0 e 0
    (q.1 = .success → XDone c η thr q.2.s e (e - q.2.zeros)) ∧
    (1 / 2 ≤ η → 2 ≤ fuel → q.1 = .success ∨ q.1 = .lllFailure) := by
  unfold lll
  dsimp only
  obtain ⟨z1, z2, z3, z4, z5⟩ := zeroLoop_good 0 e (e - 0) 0 s hs hl hed (by omega)
  obtain ⟨zf, zz⟩ := zeroLoop_exact e (e - 0) 0 s hs hf hl hed (by omega) (by intro k h1 h2; omega)
  have hd : (zeroLoop 0 e (e - 0) 0 s).2.d = s.d := z1.cfg.d
  generalize zeroLoop 0 e (e - 0) 0 s = z at *
  by_cases hall : z.1 < e - 0
  · rw [if_pos hall]
    have hss := startStep_good c fuel (kstart := 0) 0 z1.wf z2 (by omega) (by omega)
    have hb := updateGsoRow_b z.2 0 1
    have hu := updateGsoRow_fresh z1.wf zf (i := 0) (l := 1) (by omega) (by omega) le_rfl
      (by rcases Nat.eq_zero_or_pos z.2.nKnownRows with h | h
          · right; exact ⟨z2, h.symm⟩
          · left; rw [z1.wf.unlocked z2]; exact h)
      (by intro j _ hj; omega)
    have hst : startStep c fuel z.2 0 0 = (.success, (z.2.updateGsoRow 0 1).2) := by
      unfold startStep startTail
      dsimp only
      simp only [lt_irrefl, if_false, ne_eq, not_true_eq_false, Nat.zero_add]
      have : (z.2.updateGsoRow 0 1).1 = true := by
        by_contra h
        obtain ⟨k, k1, k2, k3⟩ := hu.2.2.1 (by simpa using h)
        omega
      rw [if_pos this]
    have hu1 : (z.2.updateGsoRow 0 1).1 = true := by
      by_contra h
      obtain ⟨k, k1, k2, k3⟩ := hu.2.2.1 (by simpa using h)
      omega
    rw [hst] at hss ⊢
    dsimp only at hss
    obtain ⟨f1, f2, f3, f4, f5⟩ := hu
    have f2 := f2 hu1
    have hk := (hss.2 rfl).1
    have hlk := (hss.2 rfl).2
    have gd := hss.1
    have hnz : rowIsZero z.2 0 = false := z5 (by omega)
    generalize (z.2.updateGsoRow 0 1).2 = t at *
    unfold lllTail
    dsimp only
    rw [if_neg (by simp)]
    have hinv : XInv c η thr e { s := t, kappa := 0 + 1, kappaMax := 0, zeros := z.1, nSwaps := 0, lastEarlyRed := last } := by
      refine ⟨gd.wf, f1, hlk, by dsimp only; rw [gd.cfg.d, hd]; exact hed, by dsimp only; omega, hk, by dsimp only; omega, ?_, ?_⟩
      · refine ⟨?_, ?_, ?_, ?_⟩
        · intro k hk; dsimp only at hk ⊢; have : k = 0 := by omega
          rw [this]; exact f2
        · intro k hk; dsimp only at hk ⊢
          have : k = 0 := by omega
          subst this
          refine lt_of_le_of_ne (normStar_nonneg _ _ _) (fun h0 => ?_)
          rw [normStar_eq] at h0
          simp only [Finset.range_zero, Finset.sum_empty, sub_zero] at h0
          have hzz := dotQ_self_eq_zero h0.symm
          unfold rowIsZero at hnz
          rw [decide_eq_false_iff_not] at hnz
          apply hnz
          intro cc hcc
          have := hzz cc (by rw [gd.cfg.nCols]; exact hcc)
          unfold bq at this
          rw [hb] at this
          exact_mod_cast this
        · intro i hi j hj; dsimp only at hi; omega
        · intro k hk; dsimp only at hk; omega
      · intro k k1 k2 cc hcc
        dsimp only at hcc ⊢
        rw [hb]; exact zz k k1 k2 cc (by rw [← gd.cfg.nCols]; exact hcc)
    have M := mainLoop_exact c hcfg fuel maxIter _ hinv
    generalize mainLoop c fuel 0 e 0 maxIter { s := t, kappa := 0 + 1, kappaMax := 0, zeros := z.1, nSwaps := 0, lastEarlyRed := last } = q at *
    have hq2 : (lllFinish e q).2.zeros = q.2.zeros := by unfold lllFinish; split_ifs <;> rfl
    rw [hq2]
    have hdone : (lllFinish e q).1 = .success → XDone c η thr (lllFinish e q).2.s e (e - q.2.zeros) := by
      intro hok
      have hq1 : q.1 = .success := by
        by_contra h
        unfold lllFinish at hok
        rw [if_pos (by simpa using h)] at hok
        exact h hok
      have I := M.1 hq1
      unfold lllFinish at hok ⊢
      rw [if_neg (by simpa using hq1)] at hok ⊢
      dsimp only at hok ⊢
      have hkk : ¬ q.2.kappa < e - q.2.zeros := by
        intro h; rw [if_pos h] at hok; cases hok
      have hkle := I.kle
      have hkeq : q.2.kappa = e - q.2.zeros := by omega
      have hh := I.head
      rw [hkeq] at hh
      have base : XDone c η thr q.2.s e (e - q.2.zeros) :=
        ⟨by omega, hh.pos, hh.sr, hh.cond, I.zero⟩
      split_ifs
      · exact ⟨base.le, base.pos, base.sr, base.cond, base.zero⟩
      · exact base
    refine ⟨hdone, fun q1 q2 => ?_⟩
    have := M.2 q1 q2
    unfold lllFinish
    rw [if_neg (by simpa using this)]
    dsimp only
    split_ifs
    · exact .inr rfl
    · exact .inl rfl
  · rw [if_neg hall]
    have hz1 : z.1 = e := by omega
    unfold lllTail
    dsimp only
    rw [if_neg (by simp)]
    have hm : mainLoop c fuel 0 e 0 maxIter { s := z.2, kappa := 0 + 1, kappaMax := 0, zeros := z.1, nSwaps := 0, lastEarlyRed := last } =
        (.success, { s := z.2, kappa := 0 + 1, kappaMax := 0, zeros := z.1, nSwaps := 0, lastEarlyRed := last }) := by
      cases maxIter with
      | zero => rfl
      | succ n => rw [mainLoop, if_neg (by dsimp only; omega)]
    rw [hm]
    unfold lllFinish
    dsimp only
    rw [if_neg (by simp)]
    dsimp only
    rw [if_neg (by omega)]
    refine ⟨fun _ => ?_, fun _ _ => .inl rfl⟩
    rw [hz1, Nat.sub_self]
    have base : XDone c η thr z.2 e 0 :=
      ⟨by omega, by intro k hk; omega, by intro k hk; omega, by intro k hk; omega, by
        intro k _ k2; exact zz k (by omega) (by omega)⟩
    split_ifs
    · exact ⟨base.le, base.pos, base.sr, base.cond, base.zero⟩
    · exact base

end LLL
end Fplll

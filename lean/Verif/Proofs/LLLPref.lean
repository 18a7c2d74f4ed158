import Verif.Proofs.Prefix
import Verif.Proofs.LLLExactMain
import Verif.Proofs.Insert

/-!
# LLL in exact arithmetic on rows that are already well reduced

If `b*_m` is (up to `δ`) shortest among the projections of the lattice of the first `e` rows, for the rows `m < P` that LLL may
insert at, then LLL on the first `e` rows keeps the lattices of the first `0, …, P` rows.
-/

namespace Fplll
namespace BKZ

open FloatOps GSO LLL Spec

theorem distSq_projSq (n : ℕ) (B : ℕ → ℕ → ℚ) (i k : ℕ) : distSq n B k (B i) = projSq n B i k := by
  unfold distSq projSq spanSq
  congr 1
  rw [← Finset.range_eq_Ico]
  refine Finset.sum_congr rfl fun j _ => ?_
  rw [muS_eq, rS_self]
  unfold rS
  ring

/-- everything cached is right -/
structure St (s : GSO Exact) : Prop where
  full : Full s
  fresh : Fresh s 0 0
  unlocked : s.colsLocked = false

/-- the lattices of the first `j` rows are kept, for `j ≤ P` and `j ≥ E` -/
structure Mv (P E : ℕ) (s s' : GSO Exact) : Prop where
  st : St s'
  d : s'.d = s.d
  cols : s'.nCols = s.nCols
  pre : ∀ j, j ≤ P ∨ E ≤ j → PreEq s.nCols j s.b s'.b

theorem Mv.refl {P E : ℕ} {s : GSO Exact} (h : St s) : Mv P E s s := ⟨h, rfl, rfl, fun _ _ => .refl _ _ _⟩

theorem Mv.trans {P E : ℕ} {s t v : GSO Exact} (h1 : Mv P E s t) (h2 : Mv P E t v) : Mv P E s v :=
  ⟨h2.st, h2.d.trans h1.d, h2.cols.trans h1.cols, fun j hj => (h1.pre j hj).trans (by have := h2.pre j hj; rwa [h1.cols] at this)⟩

theorem Mv.mono {P P' E E' : ℕ} {s t : GSO Exact} (h : Mv P E s t) (hP : P' ≤ P) (hE : E ≤ E') : Mv P' E' s t :=
  ⟨h.st, h.d, h.cols, fun j hj => h.pre j (by omega)⟩

theorem Mv.of_low {P E : ℕ} {s t : GSO Exact} (h : Low s t) (hf : Fresh t 0 0) (hl : t.colsLocked = false) : Mv P E s t :=
  ⟨⟨h.keep.full, hf, hl⟩, h.keep.good.cfg.d, h.keep.good.cfg.nCols, fun j _ => h.low.preEq j⟩

/-- rows outside `[lo, hi)` do not change, the lattice of the first `hi` rows does not either -/
theorem Mv.of_block {lo N : ℕ} {s t : GSO Exact} (h : Keep s t) (hb : SameBlock s.nCols lo N s.b t.b) (hf : Fresh t 0 0)
    (hl : t.colsLocked = false) : Mv lo (lo + N) s t :=
  ⟨⟨h.full, hf, hl⟩, h.good.cfg.d, h.good.cfg.nCols, fun _ hj => hb.preEq hj⟩

theorem Mv.minProj {P E m : ℕ} {δ : ℚ} {s t : GSO Exact} (h : Mv P E s t) (hm : m < P) (hp : MinProj s.nCols δ m E s.b) :
    MinProj t.nCols δ m E t.b := by
  rw [h.cols]
  exact hp.congr (h.pre _ (.inl (by omega))) (h.pre _ (.inl (by omega))) (h.pre _ (.inr le_rfl))

theorem Mv.indep {P E : ℕ} {s t : GSO Exact} (h : Mv P E s t) (hi : Indep E s.nCols (toQ s.b)) : Indep E t.nCols (toQ t.b) := by
  rw [h.cols]; exact (h.pre _ (.inr le_rfl)).indep hi

/-- the parameters: eta and threshold as in the constructor of `LLLReduction`; each vector LLL inserts is shorter by `δ` -/
structure PCfg (c : LLLCfg Exact) (η thr δ : ℚ) : Prop where
  eta : c.eta = some η
  thrE : c.thr = some thr
  eta0 : 0 ≤ η
  prot : if c.siegel then thr + η ^ 2 ≤ δ else thr ≤ δ

/-- the rows `a ≤ m < P` are shortest -/
def Prot (δ : ℚ) (a P e : ℕ) (s : GSO Exact) : Prop := ∀ m, a ≤ m → m < P → MinProj s.nCols δ m e s.b

theorem Prot.mv {δ : ℚ} {a P e : ℕ} {s t : GSO Exact} (hp : Prot δ a P e s) (h : Mv P e s t) : Prot δ a P e t :=
  fun m h1 h2 => h.minProj h2 (hp m h1 h2)

/-- where the insertion loop stops: not before `kmin`, and the test of that row failed -/
theorem insertIdx_stop (c : LLLCfg Exact) {thr : ℚ} (hc : c.thr = some thr) {s : GSO Exact} {lov : ℕ → Exact}
    {kappa : ℕ} {p r : ℕ → ℚ} (hl : ∀ i ≤ kappa, lov i = some (p i)) (hr : ∀ k < kappa, s.r k k = some (r k))
    (kmin k : ℕ) (hk : k ≤ kappa) (hm : kmin ≤ k) :
    let m := insertIdx c s lov kmin k
    kmin ≤ m ∧ m ≤ k ∧ (m < k → p (testIdx c (m + 1)) ≤ r m * thr) := by
  induction k with
  | zero => simp [insertIdx]; omega
  | succ k ih =>
    simp only [insertIdx]
    by_cases h1 : kmin < k + 1
    swap
    · rw [if_neg h1]; exact ⟨hm, le_rfl, fun h => absurd h (lt_irrefl _)⟩
    rw [if_pos h1]
    have ht : testIdx c (k + 1) ≤ kappa := by unfold testIdx; split_ifs <;> omega
    rw [hr k (by omega), hc, hl _ ht]
    have e : (lt (mul (some (r k)) (some thr)) (some (p (testIdx c (k + 1)))) : Bool) =
        decide (r k * thr < p (testIdx c (k + 1))) := rfl
    rw [e]
    split_ifs with h
    · exact ⟨hm, le_rfl, fun h => absurd h (lt_irrefl _)⟩
    · obtain ⟨a1, a2, a3⟩ := ih (by omega) (by omega)
      refine ⟨a1, by omega, fun _ => ?_⟩
      by_cases e1 : insertIdx c s lov kmin k = k
      · rw [e1]; simpa using h
      · exact a3 (by omega)

/-- a row of the lattice is not inserted at a protected position -/
theorem not_insert {c : LLLCfg Exact} {η thr δ : ℚ} (hc : PCfg c η thr δ) {n : ℕ} {b : ℕ → ℕ → ℤ} {e k i : ℕ}
    (hi : i < e) (hk : k ≤ i) (hind : Indep e n (toQ b)) (hmin : MinProj n δ k e b) (hmu : |muS n (toQ b) i k| ≤ η)
    (h : projSq n (toQ b) i (testIdx c (k + 1)) ≤ normStar n (toQ b) k * thr) : False := by
  have hpos : 0 < projSq n (toQ b) i k := by
    have h1 := distSq_anti (n := n) (B := toQ b) hk (toQ b i)
    rw [distSq_row, distSq_projSq] at h1
    exact lt_of_lt_of_le (hind.pos i hi) h1
  have h2 := hmin (b i) (InPre.row hi)
  change 0 < distSq n (toQ b) k (toQ b i) → _ < distSq n (toQ b) k (toQ b i) at h2
  rw [distSq_projSq] at h2
  have h3 := h2 hpos
  have hr := hind.pos k (by omega)
  have hp := hc.prot
  unfold testIdx at h
  split_ifs at h hp
  · rw [projSq_succ'] at h3
    have : muS n (toQ b) i k ^ 2 ≤ η ^ 2 := by
      rw [← sq_abs]; exact pow_le_pow_left₀ (abs_nonneg _) hmu 2
    nlinarith
  · rw [Nat.add_sub_cancel] at h
    nlinarith

/-- loop invariant -/
structure PInv (a P e : ℕ) (s0 : GSO Exact) (st : LLLState Exact) : Prop where
  mv : Mv P e s0 st.s
  zeros : st.zeros = 0
  lo : a + 1 ≤ st.kappa
  hi : st.kappa ≤ e
  valid : ∀ k < st.kappa, k + 1 ≤ st.s.gsoValidCols k

theorem lovaszStep_pref (c : LLLCfg Exact) {η thr δ : ℚ} (hcfg : PCfg c η thr δ) {a P e : ℕ} {s0 : GSO Exact} {st : LLLState Exact}
    (he : e ≤ s0.d) (hind : Indep e s0.nCols (toQ s0.b)) (hprot : Prot δ a P e s0) (h : PInv a P e s0 st) (hlt : st.kappa < e)
    (hv : st.kappa ≤ st.s.gsoValidCols st.kappa) (hsr : ∀ j < st.kappa, |muS st.s.nCols st.s.bq st.kappa j| ≤ η) :
    PInv a P e s0 (lovaszStep c a e st) := by
  have hd0 : st.s.d = s0.d := h.mv.d
  have hind := h.mv.indep hind
  have hprot := hprot.mv h.mv
  have hz := h.zeros
  have hlo := h.lo
  unfold lovaszStep
  dsimp only
  have hwf := h.mv.st.full.wf
  have hf := h.mv.st.fresh
  have hkn := h.mv.st.full.known
  have hsn := h.mv.st.full.source
  have hl := h.mv.st.unlocked
  have hk : st.kappa < st.s.nKnownRows := by rw [hkn]; omega
  have hg := gram_exact hwf hf hk (le_refl st.kappa) (by omega)
  have hf1 := cacheGram_fresh hwf hf hk (le_refl st.kappa) (by omega)
  have k1 := Keep.of_fo h.mv.st.full (cacheGram_fo st.s st.kappa st.kappa)
  have hl1 : (st.s.cacheGram st.kappa st.kappa).colsLocked = false := hl
  have mv1 : Mv P e s0 (st.s.cacheGram st.kappa st.kappa) := h.mv.trans ⟨⟨k1.full, hf1, hl1⟩, rfl, rfl, fun _ _ => .refl _ _ _⟩
  have hk1 : st.kappa < (st.s.cacheGram st.kappa st.kappa).nKnownRows := hk
  have hd1 : (st.s.cacheGram st.kappa st.kappa).d = s0.d := hd0
  have hv1 : st.kappa ≤ (st.s.cacheGram st.kappa st.kappa).gsoValidCols st.kappa := hv
  have hsr1 : ∀ j < st.kappa, |muS (st.s.cacheGram st.kappa st.kappa).nCols
    (toQ (st.s.cacheGram st.kappa st.kappa).b) st.kappa j| ≤ η := hsr
  have hh1 : ∀ k < st.kappa, k + 1 ≤ (st.s.cacheGram st.kappa st.kappa).gsoValidCols k := h.valid
  have hind1 : Indep e (st.s.cacheGram st.kappa st.kappa).nCols (toQ (st.s.cacheGram st.kappa st.kappa).b) := hind
  have hprot1 : Prot δ a P e (st.s.cacheGram st.kappa st.kappa) := hprot
  have hg1 : (st.s.cacheGram st.kappa st.kappa).gramVal st.kappa st.kappa =
      some (dotQ (st.s.cacheGram st.kappa st.kappa).nCols (toQ (st.s.cacheGram st.kappa st.kappa).b st.kappa)
        (toQ (st.s.cacheGram st.kappa st.kappa).b st.kappa)) := by
    rw [hg]; congr 1; exact ip_dotQ st.s st.kappa st.kappa
  clear hg hl hf hk hd0 hv hsr hwf hkn hsn hind hprot
  generalize st.s.cacheGram st.kappa st.kappa = s at *
  have hsrc := k1.full.source
  have hknw := k1.full.known
  have hwf1 := k1.full.wf
  have hmu : ∀ j < st.kappa, s.mu st.kappa j = some (muS s.nCols (toQ s.b) st.kappa j) := fun j hj =>
    ((hf1.valid st.kappa hk1 (by simp) j (by omega) (by omega)).2 hj).1
  have hr : ∀ j < st.kappa, s.r st.kappa j = some (rS s.nCols (toQ s.b) st.kappa j) := fun j hj =>
    (hf1.valid st.kappa hk1 (by simp) j (by omega) (by omega)).1
  have hrd : ∀ k < st.kappa, s.r k k = some (normStar s.nCols (toQ s.b) k) := by
    intro k hk
    have := hh1 k hk
    rw [(hf1.valid k (by omega) (by simp) k (by omega) (by omega)).1]
    exact congrArg some (rS_self _ _ _)
  have hlov := lovaszTests_exact hg1 hmu hr
  have hins := insertIdx_stop c hcfg.thrE hlov hrd a (st.kappa - 1) (by omega) (by omega)
  dsimp only at hins
  generalize insertIdx c s (lovaszTests s st.kappa) a (st.kappa - 1) = k at *
  obtain ⟨hk2, hk3, hk4⟩ := hins
  have hti : testIdx c st.kappa ≤ st.kappa := by unfold testIdx; split_ifs <;> omega
  rw [hrd (st.kappa - 1) (by omega), hcfg.thrE, hlov _ hti, hlov k (by omega), hlov st.kappa le_rfl]
  have e1 : (gt (mul (some (normStar s.nCols (toQ s.b) (st.kappa - 1))) (some thr))
      (some (projSq s.nCols (toQ s.b) st.kappa (testIdx c st.kappa))) : Bool) =
      decide (projSq s.nCols (toQ s.b) st.kappa (testIdx c st.kappa) < normStar s.nCols (toQ s.b) (st.kappa - 1) * thr) := rfl
  have e2 : (gt (some (projSq s.nCols (toQ s.b) st.kappa k)) (ofInt 0) : Bool) =
      decide (((0 : ℤ) : ℚ) < projSq s.nCols (toQ s.b) st.kappa k) := rfl
  have hpos : ∀ j ≤ st.kappa, 0 < projSq s.nCols (toQ s.b) st.kappa j := by
    intro j hj
    have h1 := distSq_anti (n := s.nCols) (B := toQ s.b) hj (toQ s.b st.kappa)
    rw [distSq_row, distSq_projSq] at h1
    exact lt_of_lt_of_le (hind1.pos _ hlt) h1
  rw [e1, e2]
  by_cases hA : projSq s.nCols (toQ s.b) st.kappa (testIdx c st.kappa) < normStar s.nCols (toQ s.b) (st.kappa - 1) * thr
  · rw [if_pos (by simpa using hA), if_pos (by simpa using hpos k (by omega))]
    have hko : k < st.kappa := by omega
    have htest : projSq s.nCols (toQ s.b) st.kappa (testIdx c (k + 1)) ≤ normStar s.nCols (toQ s.b) k * thr := by
      by_cases hc : k < st.kappa - 1
      · exact hk4 hc
      · have : k = st.kappa - 1 := by omega
        subst this
        rw [show st.kappa - 1 + 1 = st.kappa by omega]
        exact hA.le
    have hPk : P ≤ k := by
      by_contra hc
      exact not_insert hcfg hlt hko.le hind1 (hprot1 k hk2 (by omega)) (hsr1 k hko) htest
    obtain ⟨m1, m2, m3, m4, m5⟩ := moveRow_up s hko hk1
    have kp2 := moveRow_keep k1.full (o := st.kappa) (n := k) (by omega) (by omega)
    have f2 : Fresh (s.moveRow st.kappa k) 0 0 := moveRow_fresh hwf1 hf1 (by omega) (by omega)
    have l2 := (moveRow_locked s st.kappa k).trans hl1
    have sb := moveRow_sameBlock s s.nCols (k := k) (d := st.kappa + 1 - k) (o := st.kappa) (n := k) (by omega) (by omega)
    have mv2 : Mv P e s (s.moveRow st.kappa k) := (Mv.of_block kp2 sb f2 l2).mono hPk (by omega)
    have hns : normStar s.nCols (toQ (s.moveRow st.kappa k).b) k = projSq s.nCols (toQ s.b) st.kappa k :=
      normStar_insert (fun l hl c _ => by unfold toQ; rw [m1 l hl]) (fun c _ => by unfold toQ; rw [m2])
    have n2 := kp2.good.cfg.nCols
    clear m1 m2 m3 sb
    generalize s.moveRow st.kappa k = t at *
    have hvk : t.gsoValidCols k = k := by rw [m5]; omega
    have hset : (t.setR k k (some (projSq s.nCols (toQ s.b) st.kappa k))).gsoValidCols =
        setAt t.gsoValidCols k (k + 1) := by
      unfold setR; dsimp only; rw [if_pos hvk]
    have hf3 : Fresh (t.setR k k (some (projSq s.nCols (toQ s.b) st.kappa k))) 0 0 :=
      setR_fresh f2 (by omega) (by rw [n2, rS_self]; exact congrArg some hns.symm)
    have kp3 := Keep.of_fo kp2.full (setR_fo t k k (some (projSq s.nCols (toQ s.b) st.kappa k)))
    refine ⟨(mv1.trans mv2).trans ⟨⟨kp3.full, hf3, l2⟩, rfl, rfl, fun _ _ => .refl _ _ _⟩, hz, by dsimp only; omega, by dsimp only; omega, ?_⟩
    intro j hj
    dsimp only at hj ⊢
    rw [hset]
    by_cases hjk : j = k
    · rw [hjk, setAt_self]
    · rw [setAt_ne _ _ hjk, m4 j (by omega)]; exact hh1 j (by omega)
  · rw [if_neg (by simpa using hA), projSq_self]
    have kp3 := Keep.of_fo k1.full (setR_fo s st.kappa st.kappa (some (normStar s.nCols (toQ s.b) st.kappa)))
    have hle := hf1.validLe st.kappa hk1
    have hval : ∀ l, (s.setR st.kappa st.kappa (some (normStar s.nCols (toQ s.b) st.kappa))).gsoValidCols l =
        if l = st.kappa then st.kappa + 1 else s.gsoValidCols l := by
      intro l
      unfold setR
      dsimp only
      split_ifs with h h'
      · rw [h', setAt_self]
      · rw [setAt_ne _ _ h']
      · rename_i h'; rw [h']; omega
      · rfl
    refine ⟨mv1.trans ⟨⟨kp3.full, setR_fresh hf1 hv1 (by rw [rS_self]; rfl), hl1⟩, rfl, rfl, fun _ _ => .refl _ _ _⟩, hz, by dsimp only; omega,
      by dsimp only; omega, ?_⟩
    intro j hj
    dsimp only at hj ⊢
    rw [hval]
    split_ifs with hjk
    · omega
    · exact hh1 j (by omega)

theorem babai_pref (c : LLLCfg Exact) {η : ℚ} (hc : c.eta = some η) (fuel start : ℕ) {s : GSO Exact} (h : St s) {kappa stop : ℕ} (P E : ℕ)
    (hk : kappa < s.d) (hle : stop ≤ kappa) (hv : ∀ j < stop, j + 1 ≤ s.gsoValidCols j)
    (hok : (babai c fuel s kappa stop start).1 = .success) :
    Mv P E s (babai c fuel s kappa stop start).2 ∧ XPost s (babai c fuel s kappa stop start).2 kappa stop start η := by
  have pre : BabaiPre s kappa stop := ⟨h.full.wf, hk, by rw [h.full.known]; exact hk.le, hle, by rw [h.full.source]; omega⟩
  have x := babai_exact c hc start fuel ⟨pre, h.fresh, hv⟩ hok
  exact ⟨.of_low (babai_low c fuel h.full start hk hle) x.fresh ((babai_res c fuel start pre hok).locked.trans h.unlocked), x⟩

theorem discoverStep_pref (c : LLLCfg Exact) {η thr δ : ℚ} (hcfg : PCfg c η thr δ) (fuel srs : ℕ) {a P e : ℕ} {s0 : GSO Exact}
    {st : LLLState Exact} (he : e ≤ s0.d) (h : PInv a P e s0 st) (hok : (discoverStep c fuel srs st).1 = .success) :
    PInv a P e s0 (discoverStep c fuel srs st).2 ∧ (discoverStep c fuel srs st).2.kappa = st.kappa := by
  unfold discoverStep at hok ⊢
  dsimp only at hok ⊢
  by_cases h1 : st.kappaMax < st.kappa
  swap
  · rw [if_neg h1]; exact ⟨h, rfl⟩
  rw [if_pos h1] at hok ⊢
  by_cases h2 : (c.earlyRedFlag && !st.s.intGram && isPowerOf2 st.kappa && decide (st.lastEarlyRed < st.kappa)) = true
  swap
  · rw [if_neg h2]; exact ⟨⟨h.mv, h.zeros, h.lo, h.hi, h.valid⟩, rfl⟩
  rw [if_pos h2] at hok ⊢
  simp only [Bool.and_eq_true, Bool.not_eq_eq_eq_not, Bool.not_true, decide_eq_true_eq] at h2
  by_cases h3 : (earlyReduction c fuel st.s st.kappa srs).1 = .success
  swap
  · rw [if_neg h3] at hok; exact absurd hok h3
  rw [if_pos h3]
  have hd := h.mv.d
  have hhi := h.hi
  have f := h.mv.st.full
  have e2 := (earlyReduction_good c fuel srs f.wf h2.1.1.2 (start := st.kappa) (by omega) (by rw [f.known]; omega) h.mv.st.unlocked).2 h3
  have x := (earlyReduction_exact c hcfg.eta hcfg.eta0 fuel srs f.wf h.mv.st.fresh h2.1.1.2 h.mv.st.unlocked
    (start := st.kappa) (by omega) (by rw [f.known]; omega) h.valid).1 h3
  have lw := earlyReduction_low c fuel f srs h2.1.1.2 (start := st.kappa) (by omega)
  refine ⟨⟨h.mv.trans (.of_low lw x.1 e2.2.2), h.zeros, h.lo, h.hi, fun k hk => ?_⟩, rfl⟩
  dsimp only at hk ⊢
  rw [(x.2.1 k hk).2]; exact h.valid k hk

theorem mainLoop_pref (c : LLLCfg Exact) {η thr δ : ℚ} (hcfg : PCfg c η thr δ) (fuel : ℕ) {a P e : ℕ} {s0 : GSO Exact}
    (he : e ≤ s0.d) (hind : Indep e s0.nCols (toQ s0.b)) (hprot : Prot δ a P e s0) (n : ℕ) (st : LLLState Exact) (h : PInv a P e s0 st)
    (hok : (LLL.mainLoop c fuel a e 0 n st).1 = .success) : PInv a P e s0 (LLL.mainLoop c fuel a e 0 n st).2 := by
  induction n generalizing st with
  | zero => exact h
  | succ n ih =>
    rw [LLL.mainLoop] at hok ⊢
    by_cases h1 : st.kappa < e - st.zeros
    swap
    · rw [if_neg h1]; exact h
    rw [if_pos h1] at hok ⊢
    have hz := h.zeros
    have ds := discoverStep_pref c hcfg fuel 0 he h
    dsimp only at hok ⊢
    generalize discoverStep c fuel 0 st = Q at *
    by_cases h2 : Q.1 = .success
    swap
    · rw [if_pos h2] at hok; exact absurd hok h2
    rw [if_neg (by simpa using h2)] at hok ⊢
    obtain ⟨b1, b2⟩ := ds h2
    have hd := b1.mv.d
    have bp := babai_pref c hcfg.eta fuel 0 b1.mv.st (kappa := Q.2.kappa) (stop := Q.2.kappa) P e (by omega) le_rfl b1.valid
    by_cases h3 : (babai c fuel Q.2.s Q.2.kappa Q.2.kappa 0).1 = .success
    swap
    · rw [if_pos h3] at hok; exact absurd hok h3
    rw [if_neg (by simpa using h3)] at hok ⊢
    obtain ⟨mv, x⟩ := bp h3
    generalize (babai c fuel Q.2.s Q.2.kappa Q.2.kappa 0).2 = t at *
    refine ih _ (lovaszStep_pref c hcfg he hind hprot (st := { Q.2 with s := t })
      ⟨b1.mv.trans mv, b1.zeros, b1.lo, b1.hi, fun k hk => ?_⟩ (by dsimp only; omega) x.validK (fun j hj => ?_)) hok
    · dsimp only at hk ⊢; rw [x.valid k hk]; exact b1.valid k hk
    · have := x.reduced j (by omega) hj
      dsimp only; rw [mv.cols]; exact this

theorem symmetrizeG_mv {s : GSO Exact} (h : St s) (P E : ℕ) : Mv P E s s.symmetrizeG :=
  ⟨⟨(symmetrizeG_keep h.full).full, h.fresh.modify rfl rfl rfl rfl rfl rfl rfl rfl rfl rfl (fun _ _ _ _ => rfl), h.unlocked⟩, rfl, rfl,
    fun _ _ => .refl _ _ _⟩

theorem startStep_pref (c : LLLCfg Exact) {η : ℚ} (hc : c.eta = some η) (fuel srs : ℕ) {s : GSO Exact} (h : St s) {k : ℕ} (P E : ℕ) (hk : k < s.d)
    (hv : ∀ j < k, j + 1 ≤ s.gsoValidCols j) (hok : (startStep c fuel s k srs).1 = .success) :
    Mv P E s (startStep c fuel s k srs).2 ∧ (∀ j < k + 1, j + 1 ≤ (startStep c fuel s k srs).2.gsoValidCols j) ∧
    (∀ i, i ≠ k → (startStep c fuel s k srs).2.b i = s.b i) ∧
    ∀ j, srs ≤ j → j < k → |muS s.nCols (toQ (startStep c fuel s k srs).2.b) k j| ≤ η := by
  unfold startStep at hok ⊢
  have k1 : (if 0 < k then babai c fuel s k k srs else (.success, s)).1 = .success →
      Mv P E s (if 0 < k then babai c fuel s k k srs else (.success, s)).2 ∧
      (∀ j < k, j + 1 ≤ (if 0 < k then babai c fuel s k k srs else (.success, s)).2.gsoValidCols j) ∧
      (∀ i, i ≠ k → (if 0 < k then babai c fuel s k k srs else (.success, s)).2.b i = s.b i) ∧
      ∀ j, srs ≤ j → j < k → |muS s.nCols (toQ (if 0 < k then babai c fuel s k k srs else (.success, s)).2.b) k j| ≤ η := by
    split_ifs
    · intro h1
      obtain ⟨m, x⟩ := babai_pref c hc fuel srs h P E hk le_rfl hv h1
      exact ⟨m, fun j hj => by rw [x.valid j hj]; exact hv j hj, x.rows, x.reduced⟩
    · intro _; exact ⟨.refl h, hv, fun _ _ => rfl, fun j _ hj => by omega⟩
  generalize (if 0 < k then babai c fuel s k k srs else (.success, s)) = p at *
  unfold startTail at hok ⊢
  dsimp only at hok ⊢
  by_cases hp : p.1 = .success
  swap
  · rw [if_pos hp] at hok; exact absurd hok hp
  rw [if_neg (by simpa using hp)] at hok ⊢
  obtain ⟨m, v, rw1, sr⟩ := k1 hp
  have hd := m.d
  have hu := updateGsoRow_fresh m.st.full.wf m.st.fresh (i := k) (l := k + 1) (by omega) (by rw [m.st.full.known]; omega) le_rfl
    (.inl (by rw [m.st.full.source]; omega)) (fun j h1 h2 => v j h2)
  have lw := updateGsoRow_low m.st.full (i := k) (by omega) (k + 1)
  have lk := updateGsoRow_locked p.2 k (k + 1)
  have hb := updateGsoRow_b p.2 k (k + 1)
  have hkn := m.st.full.known
  generalize p.2.updateGsoRow k (k + 1) = q at *
  by_cases hq : q.1 = true
  swap
  · rw [if_neg hq] at hok; cases hok
  rw [if_pos hq]
  obtain ⟨f1, f2, f3, f4, f5⟩ := hu
  dsimp only
  refine ⟨m.trans (.of_low lw f1 (lk.trans m.st.unlocked)), fun j hj => ?_, fun i hi => by rw [hb]; exact rw1 i hi, by rw [hb]; exact sr⟩
  by_cases hjk : j = k
  · rw [hjk]; exact f2 hq
  · rw [f4 j hjk (by omega)]; exact v j (by omega)

theorem zeroLoop_nonzero {s : GSO Exact} (h : rowIsZero s 0 = false) (kmin kend n : ℕ) : zeroLoop kmin kend n 0 s = (0, s) := by
  cases n with
  | zero => rfl
  | succ n => rw [zeroLoop, if_neg (by rw [h]; simp)]

theorem row0_nonzero {e : ℕ} {s : GSO Exact} (he : 0 < e) (hind : Indep e s.nCols (toQ s.b)) : rowIsZero s 0 = false := by
  unfold rowIsZero
  rw [decide_eq_false_iff_not]
  intro hz
  have := hind.pos 0 he
  rw [normStar_eq] at this
  rw [dotQ_zero_right _ (fun c hc => by unfold toQ; rw [hz c hc]; simp)] at this
  simp at this

/-- a successful run of LLL on rows `a, …, e - 1` -/
theorem lll_pref (c : LLLCfg Exact) {η thr δ : ℚ} (hcfg : PCfg c η thr δ) (fuel maxIter last : ℕ) {a P e : ℕ} {s : GSO Exact} (h : St s)
    (hae : a < e) (he : e ≤ s.d) (hind : Indep e s.nCols (toQ s.b)) (hprot : Prot δ a P e s)
    (hv : ∀ k < a, k + 1 ≤ s.gsoValidCols k) (hok : (LLL.lll c fuel maxIter last s a a e 0).1 = .success) :
    Mv P e s (LLL.lll c fuel maxIter last s a a e 0).2.s ∧
    ∀ k < e, k + 1 ≤ (LLL.lll c fuel maxIter last s a a e 0).2.s.gsoValidCols k := by
  unfold LLL.lll at hok ⊢
  rw [zeroLoop_nonzero (row0_nonzero (by omega) hind)] at hok ⊢
  dsimp only at hok ⊢
  rw [if_pos (by omega)] at hok ⊢
  have ss := startStep_pref c hcfg.eta fuel 0 h (k := a) P e (by omega) hv
  generalize startStep c fuel s a 0 = p at *
  unfold lllTail at hok ⊢
  by_cases hp : p.1 = .success
  swap
  · rw [if_pos hp] at hok; exact absurd hok hp
  rw [if_neg (by simpa using hp)] at hok ⊢
  obtain ⟨m, v, -, -⟩ := ss hp
  have ml := mainLoop_pref c hcfg fuel he hind hprot maxIter
    { s := p.2, kappa := a + 1, kappaMax := 0, zeros := 0, nSwaps := 0, lastEarlyRed := last }
    ⟨m, rfl, le_rfl, hae, v⟩
  dsimp only at hok ⊢
  generalize LLL.mainLoop c fuel a e 0 maxIter _ = q at *
  unfold lllFinish at hok ⊢
  by_cases hq : q.1 = .success
  swap
  · rw [if_pos hq] at hok; exact absurd hok hq
  rw [if_neg (by simpa using hq)] at hok ⊢
  have inv := ml hq
  dsimp only at hok ⊢
  have hke : ¬ q.2.kappa < e - q.2.zeros := fun hc => by rw [if_pos hc] at hok; cases hok
  have hz := inv.zeros
  have val : ∀ k < e, k + 1 ≤ q.2.s.gsoValidCols k := fun k hk => inv.valid k (by omega)
  split_ifs
  · exact ⟨inv.mv.trans (symmetrizeG_mv inv.mv.st _ _), val⟩
  · exact ⟨inv.mv, val⟩

/-- a successful size reduction of rows `0, …, n - 1` -/
theorem sizeReductionLoop_pref (c : LLLCfg Exact) {η : ℚ} (hc : c.eta = some η) (fuel srs n k : ℕ) (s : GSO Exact) (h : St s) (P E : ℕ)
    (hd : k + n ≤ s.d) (hv : ∀ j < k, j + 1 ≤ s.gsoValidCols j) (hok : (sizeReductionLoop c fuel srs n k s).1 = .success) :
    Mv P E s (sizeReductionLoop c fuel srs n k s).2 ∧
    (∀ j < k + n, j + 1 ≤ (sizeReductionLoop c fuel srs n k s).2.gsoValidCols j) ∧
    (∀ i, i < k ∨ k + n ≤ i → (sizeReductionLoop c fuel srs n k s).2.b i = s.b i) ∧
    ∀ i, k ≤ i → i < k + n → ∀ j, srs ≤ j → j < i → |muS s.nCols (toQ (sizeReductionLoop c fuel srs n k s).2.b) i j| ≤ η := by
  induction n generalizing k s with
  | zero => exact ⟨.refl h, by simpa [sizeReductionLoop] using hv, fun _ _ => rfl, fun i h1 h2 => by omega⟩
  | succ n ih =>
    rw [sizeReductionLoop] at hok ⊢
    by_cases h1 : (startStep c fuel s k srs).1 = .success
    swap
    · rw [if_neg h1] at hok; exact absurd hok h1
    rw [if_pos h1] at hok ⊢
    obtain ⟨m, v, b, r⟩ := startStep_pref c hc fuel srs h (k := k) P E (by omega) hv h1
    generalize startStep c fuel s k srs = p at *
    obtain ⟨m2, v2, b2, r2⟩ := ih (k + 1) p.2 m.st (by rw [m.d]; omega) v hok
    refine ⟨m.trans m2, fun j hj => v2 j (by omega), fun i hi => by rw [b2 i (by omega), b i (by omega)], fun i h1 h2 j h3 h4 => ?_⟩
    by_cases hik : i = k
    · subst hik
      have : muS s.nCols (toQ (sizeReductionLoop c fuel srs n (i + 1) p.2).2.b) i j = muS s.nCols (toQ p.2.b) i j :=
        muS_congr (fun l hl c _ => by unfold toQ; rw [b2 l (by omega)]) (fun c _ => by unfold toQ; rw [b2 i (by omega)])
      rw [this]; exact r j h3 h4
    · have := r2 i (by omega) (by omega) j h3 h4
      rwa [m.cols] at this

end BKZ
end Fplll

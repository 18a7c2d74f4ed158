import Verif.Proofs.LastRow

/-!
# Clean tours

In exact arithmetic LLL and size reduction do not change an LLL-reduced basis, and an insertion makes `r(kappa, kappa)` smaller.  So a tour that
starts with an LLL-reduced basis and reports "clean" has changed nothing and has found nothing in any block.
-/

namespace Fplll
namespace BKZ

open FloatOps GSO LLL Spec

/-- what LLL aims for, on the first `e` rows (Lovász's condition, or Siegel's) -/
structure Red (c : LLLCfg Exact) (η thr : ℚ) (n e : ℕ) (B : ℕ → ℕ → ℚ) : Prop where
  sr : ∀ i < e, ∀ j < i, |muS n B i j| ≤ η
  cond : ∀ k, k + 1 < e → CondS c.siegel thr n B k

theorem Red.mono {c : LLLCfg Exact} {η thr : ℚ} {n e e' : ℕ} {B : ℕ → ℕ → ℚ} (h : Red c η thr n e B) (he : e' ≤ e) : Red c η thr n e' B :=
  ⟨fun i hi => h.sr i (by omega), fun k hk => h.cond k (by omega)⟩

theorem lovaszStep_noop (c : LLLCfg Exact) {thr : ℚ} (hthr : c.thr = some thr) (a e : ℕ) {st : LLLState Exact} (h : St st.s) (h1 : 1 ≤ st.kappa)
    (hk : st.kappa < st.s.d) (hval : ∀ k < st.kappa, k + 1 ≤ st.s.gsoValidCols k) (hv : st.kappa ≤ st.s.gsoValidCols st.kappa)
    (hcond : CondS c.siegel thr st.s.nCols st.s.bq (st.kappa - 1)) : (lovaszStep c a e st).s.b = st.s.b := by
  unfold lovaszStep
  dsimp only
  have hwf := h.full.wf
  have hf := h.fresh
  have hkn : st.kappa < st.s.nKnownRows := by rw [h.full.known]; exact hk
  have hsn := h.full.source
  have hg := gram_exact hwf hf hkn (le_refl st.kappa) (by omega)
  have hf1 := cacheGram_fresh hwf hf hkn (le_refl st.kappa) (by omega)
  have hk1 : st.kappa < (st.s.cacheGram st.kappa st.kappa).nKnownRows := hkn
  have hv1 : st.kappa ≤ (st.s.cacheGram st.kappa st.kappa).gsoValidCols st.kappa := hv
  have hh1 : ∀ k < st.kappa, k + 1 ≤ (st.s.cacheGram st.kappa st.kappa).gsoValidCols k := hval
  have hb : (st.s.cacheGram st.kappa st.kappa).b = st.s.b := rfl
  have hc1 : CondS c.siegel thr (st.s.cacheGram st.kappa st.kappa).nCols (toQ (st.s.cacheGram st.kappa st.kappa).b) (st.kappa - 1) := hcond
  have hg1 : (st.s.cacheGram st.kappa st.kappa).gramVal st.kappa st.kappa =
      some (dotQ (st.s.cacheGram st.kappa st.kappa).nCols (toQ (st.s.cacheGram st.kappa st.kappa).b st.kappa)
        (toQ (st.s.cacheGram st.kappa st.kappa).b st.kappa)) := by
    rw [hg]; congr 1; exact ip_dotQ st.s st.kappa st.kappa
  rw [← hb]
  clear hb hg hf hkn hv hval hwf hsn
  generalize st.s.cacheGram st.kappa st.kappa = s at *
  have hmu : ∀ j < st.kappa, s.mu st.kappa j = some (muS s.nCols (toQ s.b) st.kappa j) := fun j hj =>
    ((hf1.valid st.kappa hk1 (by simp) j (by omega) (by omega)).2 hj).1
  have hr : ∀ j < st.kappa, s.r st.kappa j = some (rS s.nCols (toQ s.b) st.kappa j) := fun j hj =>
    (hf1.valid st.kappa hk1 (by simp) j (by omega) (by omega)).1
  have hrd : s.r (st.kappa - 1) (st.kappa - 1) = some (normStar s.nCols (toQ s.b) (st.kappa - 1)) := by
    have := hh1 (st.kappa - 1) (by omega)
    rw [(hf1.valid (st.kappa - 1) (by omega) (by simp) (st.kappa - 1) (by omega) (by omega)).1]
    exact congrArg some (rS_self _ _ _)
  have hlov := lovaszTests_exact hg1 hmu hr
  have hti : testIdx c st.kappa ≤ st.kappa := by unfold testIdx; split_ifs <;> omega
  rw [hrd, hthr, hlov _ hti]
  have e1 : (gt (mul (some (normStar s.nCols (toQ s.b) (st.kappa - 1))) (some thr))
      (some (projSq s.nCols (toQ s.b) st.kappa (testIdx c st.kappa))) : Bool) =
      decide (projSq s.nCols (toQ s.b) st.kappa (testIdx c st.kappa) < normStar s.nCols (toQ s.b) (st.kappa - 1) * thr) := rfl
  rw [e1, if_neg]
  · rfl
  unfold CondS at hc1
  rw [decide_eq_true_eq, not_lt, mul_comm]
  unfold testIdx
  rwa [show st.kappa - 1 + 1 = st.kappa by omega] at hc1

theorem discoverStep_off (c : LLLCfg Exact) (her : c.earlyRedFlag = false) (fuel srs : ℕ) (st : LLLState Exact) :
    (discoverStep c fuel srs st).2.s = st.s ∧ (discoverStep c fuel srs st).2.kappa = st.kappa := by
  unfold discoverStep
  rw [her]
  simp only [Bool.false_and, Bool.false_eq_true, if_false]
  split_ifs <;> exact ⟨rfl, rfl⟩

theorem mainLoop_noop (c : LLLCfg Exact) {η thr δ : ℚ} (hcfg : PCfg c η thr δ) (her : c.earlyRedFlag = false) {fuel : ℕ} (hf : 1 ≤ fuel) {a e : ℕ} {s0 : GSO Exact}
    (he : e ≤ s0.d) (hind : Indep e s0.nCols (toQ s0.b)) (hred : Red c η thr s0.nCols e (toQ s0.b)) (n : ℕ) (st : LLLState Exact) (h : PInv a 0 e s0 st)
    (hb : st.s.b = s0.b) (hok : (LLL.mainLoop c fuel a e 0 n st).1 = .success) : (LLL.mainLoop c fuel a e 0 n st).2.s.b = s0.b := by
  induction n generalizing st with
  | zero => exact hb
  | succ n ih =>
    rw [LLL.mainLoop] at hok ⊢
    by_cases h1 : st.kappa < e - st.zeros
    swap
    · rw [if_neg h1]; exact hb
    rw [if_pos h1] at hok ⊢
    have hz := h.zeros
    have ds := discoverStep_pref c hcfg fuel 0 he h
    have dn := discoverStep_off c her fuel 0 st
    dsimp only at hok ⊢
    generalize discoverStep c fuel 0 st = Q at *
    by_cases h2 : Q.1 = .success
    swap
    · rw [if_pos h2] at hok; exact absurd hok h2
    rw [if_neg (by simpa using h2)] at hok ⊢
    obtain ⟨b1, b2⟩ := ds h2
    have hd := b1.mv.d
    have hcol := b1.mv.cols
    have hlo := b1.lo
    have hQb : Q.2.s.b = s0.b := by rw [dn.1, hb]
    have bp := babai_pref c hcfg.eta fuel 0 b1.mv.st (kappa := Q.2.kappa) (stop := Q.2.kappa) 0 e (by omega) le_rfl b1.valid
    have bn := babai_noop c hcfg.eta hf 0 b1.mv.st (k := Q.2.kappa) (by omega) b1.valid (fun j _ hj => by
      rw [hQb, hcol]; exact hred.sr _ (by omega) j hj)
    by_cases h3 : (babai c fuel Q.2.s Q.2.kappa Q.2.kappa 0).1 = .success
    swap
    · rw [if_pos h3] at hok; exact absurd hok h3
    rw [if_neg (by simpa using h3)] at hok ⊢
    obtain ⟨mv, x⟩ := bp h3
    generalize (babai c fuel Q.2.s Q.2.kappa Q.2.kappa 0).2 = t at *
    have htb : t.b = s0.b := bn.trans hQb
    have hval : ∀ k < Q.2.kappa, k + 1 ≤ t.gsoValidCols k := fun k hk => by rw [x.valid k hk]; exact b1.valid k hk
    have inv : PInv a 0 e s0 { Q.2 with s := t } := ⟨b1.mv.trans mv, b1.zeros, b1.lo, b1.hi, hval⟩
    refine ih _ (lovaszStep_pref c hcfg he hind (fun m _ hm => by omega) inv (by dsimp only; omega) x.validK (fun j hj => ?_)) ?_ hok
    · have := x.reduced j (by omega) hj
      dsimp only; rw [mv.cols]; exact this
    · rw [lovaszStep_noop c hcfg.thrE a e (st := { Q.2 with s := t }) inv.mv.st (by dsimp only; omega) (by dsimp only; rw [mv.d]; omega) hval x.validK]
      · exact htb
      · dsimp only
        have : t.bq = toQ s0.b := by rw [← htb]; rfl
        rw [this, mv.cols, hcol]
        exact hred.cond _ (by omega)

/-- LLL does not change reduced rows -/
theorem lll_noop (c : LLLCfg Exact) {η thr δ : ℚ} (hcfg : PCfg c η thr δ) (her : c.earlyRedFlag = false) {fuel : ℕ} (hf : 1 ≤ fuel) (maxIter last : ℕ) {a e : ℕ} {s : GSO Exact} (h : St s)
    (hae : a < e) (he : e ≤ s.d) (hind : Indep e s.nCols (toQ s.b)) (hred : Red c η thr s.nCols e (toQ s.b))
    (hv : ∀ k < a, k + 1 ≤ s.gsoValidCols k) (hok : (LLL.lll c fuel maxIter last s a a e 0).1 = .success) :
    (LLL.lll c fuel maxIter last s a a e 0).2.s.b = s.b := by
  unfold LLL.lll at hok ⊢
  rw [zeroLoop_nonzero (row0_nonzero (by omega) hind)] at hok ⊢
  dsimp only at hok ⊢
  rw [if_pos (by omega)] at hok ⊢
  have ss := startStep_pref c hcfg.eta fuel 0 h (k := a) 0 e (by omega) hv
  have sn := startStep_noop c hcfg.eta hf 0 h (k := a) (by omega) hv (fun j _ hj => hred.sr a hae j hj)
  generalize startStep c fuel s a 0 = p at *
  unfold lllTail at hok ⊢
  by_cases hp : p.1 = .success
  swap
  · rw [if_pos hp] at hok; exact absurd hok hp
  rw [if_neg (by simpa using hp)] at hok ⊢
  obtain ⟨m, v, -, -⟩ := ss hp
  have ml := mainLoop_noop c hcfg her hf he hind hred maxIter
    { s := p.2, kappa := a + 1, kappaMax := 0, zeros := 0, nSwaps := 0, lastEarlyRed := last }
    ⟨m, rfl, le_rfl, hae, v⟩ sn
  dsimp only at hok ⊢
  generalize LLL.mainLoop c fuel a e 0 maxIter _ = q at *
  unfold lllFinish at hok ⊢
  by_cases hq : q.1 = .success
  swap
  · rw [if_pos hq] at hok; exact absurd hok hq
  rw [if_neg (by simpa using hq)]
  have := ml hq
  dsimp only
  split_ifs <;> exact this

/-- size reduction does not change size-reduced rows -/
theorem sizeReductionLoop_noop (c : LLLCfg Exact) {η : ℚ} (hc : c.eta = some η) {fuel : ℕ} (hf : 1 ≤ fuel) (srs n k : ℕ) (s : GSO Exact) (h : St s)
    (hd : k + n ≤ s.d) (hv : ∀ j < k, j + 1 ≤ s.gsoValidCols j) (hsr : ∀ i < k + n, ∀ j < i, |muS s.nCols (toQ s.b) i j| ≤ η) :
    (sizeReductionLoop c fuel srs n k s).2.b = s.b := by
  induction n generalizing k s with
  | zero => rfl
  | succ n ih =>
    rw [sizeReductionLoop]
    have sn := startStep_noop c hc hf srs h (k := k) (by omega) hv (fun j _ hj => hsr k (by omega) j hj)
    have ss := startStep_pref c hc fuel srs h (k := k) 0 0 (by omega) hv
    split_ifs with h1
    · obtain ⟨m, v, -, -⟩ := ss h1
      rw [ih (k + 1) _ m.st (by rw [m.d]; omega) v (by rw [sn, m.cols]; intro i hi; exact hsr i (by omega)), sn]
    · exact sn

variable (c : SvpCfg Exact) (o : Orc Exact) {η thr δ rad : ℚ}

theorem sizeRedOp_noop (hc : c.lll.eta = some η) (hf : 1 ≤ c.fuel) {hi : ℤ} {w w' : W Exact} {ok : Bool} (hs : St w.s) (h : sizeRedOp c 0 hi 0 w = .ok ok w')
    (hsr : ∀ i < hi.toNat, ∀ j < i, |muS w.s.nCols (toQ w.s.b) i j| ≤ η) : w'.s.b = w.s.b := by
  unfold sizeRedOp at h
  split_ifs at h with hr
  simp only [Out.ok.injEq, sub_zero, Int.toNat_zero] at h
  rw [← h.2]
  exact sizeReductionLoop_noop c.lll hc hf 0 hi.toNat 0 w.s hs (by omega) (by intro j hj; omega) (by rwa [Nat.zero_add])

theorem preprocess_noop (hc : PCfg c.lll η thr δ) (her : c.lll.earlyRedFlag = false) (hf : 1 ≤ c.fuel) {bs : ℤ} (hpre : o.preproc bs = []) (bounded : Bool)
    (tour : ℤ → ℤ → ℤ → W Exact → Out (W Exact) Bool) {k : ℕ} {w w' : W Exact} (hs : St w.s) (hbs : 1 ≤ bs) (hd : k + bs.toNat ≤ w.s.d)
    (hind : Indep (k + bs.toNat) w.s.nCols (toQ w.s.b)) (hred : Red c.lll η thr w.s.nCols (k + bs.toNat) (toQ w.s.b))
    (hv : ∀ i < k, i + 1 ≤ w.s.gsoValidCols i) (h : preprocess c o bounded tour k bs w = .ok () w') : w'.s.b = w.s.b := by
  unfold preprocess at h
  obtain ⟨r, w1, h1, h2⟩ := Out.bind_ok h
  rw [hpre] at h2
  have key : ∀ a : ℕ, a ≤ k → lllOp c o a a (k + bs) w = .ok r w1 → w'.s.b = w.s.b := by
    intro a hak h1
    unfold lllOp at h1
    split_ifs at h1 with hr
    simp only [Out.ok.injEq] at h1
    split_ifs at h2 with h3
    simp only [preprocLoop, Out.ok.injEq, true_and] at h2
    have hok := congrArg Prod.fst h1.1
    dsimp only at hok
    rw [Bool.not_eq_false] at h3
    rw [h3, decide_eq_true_eq] at hok
    rw [← h2, ← h1.2]
    dsimp only
    have e : ((k : ℤ) + bs).toNat = k + bs.toNat := by omega
    rw [e] at hok ⊢
    rw [Int.toNat_natCast] at hok ⊢
    exact lll_noop c.lll hc her hf _ _ hs (by omega) hd hind hred (fun i hi => hv i (by omega)) hok
  cases bounded with
  | true => exact key k le_rfl h1
  | false => exact key 0 (by omega) (by exact_mod_cast h1)

/-- `svp_reduction` on a reduced basis: it reports "clean" iff the first vector is shortest in its block up to the radius; then nothing was changed -/
theorem svpReduction_clean (hc : PCfg c.lll η thr δ) (her : c.lll.earlyRedFlag = false) (hf : 1 ≤ c.fuel) (hrad : rad < 1) (htr : Truthful rad o) {k d : ℕ} (hd1 : 1 ≤ d)
    (hpre : o.preproc d = []) (hmore : ∀ t, o.more t 0 = true) (honce : ∀ t it, 1 ≤ it → o.more t it = false) (bounded : Bool)
    (tour : ℤ → ℤ → ℤ → W Exact → Out (W Exact) Bool)
    {w w' : W Exact} {cl : Bool} (hs : St w.s) (hind : Indep (k + d) w.s.nCols (toQ w.s.b)) (hred : Red c.lll η thr w.s.nCols (k + d) (toQ w.s.b))
    (h : svpReduction c o bounded tour k d false w = .ok cl w') :
    Mv 0 (k + d) w.s w'.s ∧ (cl = true ↔ MinProj w.s.nCols rad k (k + d) w.s.b) ∧ (cl = true → w'.s.b = w.s.b) ∧ (∀ i ≤ k, i + 1 ≤ w'.s.gsoValidCols i) := by
  unfold svpReduction at h
  simp only [Bool.false_eq_true, if_false] at h
  by_cases hr : 0 ≤ (k : ℤ) ∧ 1 ≤ (d : ℤ) ∧ (k : ℤ) + d ≤ w.s.d
  swap
  · rw [if_neg hr] at h; exact absurd h (by simp)
  rw [if_pos hr] at h
  have e : ((k : ℤ) + 1).toNat = k + 1 := by omega
  obtain ⟨r1, w1, h1, h⟩ := Out.bind_ok h
  have n1 := sizeRedOp_noop c hc.eta hf hs h1 (by rw [e]; intro i hi; exact hred.sr i (by omega))
  split_ifs at h with hr1
  rw [Bool.not_eq_false] at hr1
  rw [hr1] at h1
  obtain ⟨m1, v1, -, -⟩ := sizeRedOp_pref c hc.eta hs h1 0 (k + d)
  rw [e] at v1
  obtain ⟨_, w2, h2, h⟩ := Out.bind_ok h
  obtain ⟨r3, w3, h3, h⟩ := Out.bind_ok h
  have hfr : ∀ t : GSO Exact, St t → k < t.d → k + 1 ≤ t.gsoValidCols k → t.r k k = some (normStar t.nCols (toQ t.b) k) := by
    intro t ht hd hv
    rw [(ht.fresh.valid k (by rw [ht.full.known]; exact hd) (not_dirty_empty _) k (by omega) (by omega)).1, rS_self]
    rfl
  have old : w1.s.r k k = some (normStar w.s.nCols (toQ w.s.b) k) := by
    rw [hfr w1.s m1.st (by rw [m1.d]; omega) (v1 k (by omega)), m1.cols, n1]
  -- the loop
  have K : Mv 0 (k + d) w1.s w2.s ∧ (normStar w2.s.nCols (toQ w2.s.b) k < normStar w.s.nCols (toQ w.s.b) k ∧ ¬ MinProj w.s.nCols rad k (k + d) w.s.b ∨
      w2.s.b = w.s.b ∧ MinProj w.s.nCols rad k (k + d) w.s.b) := by
    have hi1 := m1.indep hind
    have hd1' : k + d ≤ w1.s.d := by rw [m1.d]; omega
    have hv1 : ∀ i < k, i + 1 ≤ w1.s.gsoValidCols i := fun i hi => v1 i (by omega)
    have hred1 : Red c.lll η thr w1.s.nCols (k + d) (toQ w1.s.b) := by rw [n1, m1.cols]; exact hred
    cases hn : c.inner with
    | zero => rw [hn] at h2; simp [svpLoop] at h2
    | succ n =>
      rw [hn, svpLoop, if_neg (by rw [hmore]; simp)] at h2
      simp only [Bool.false_eq_true, if_false] at h2
      obtain ⟨_, u1, g1, h2⟩ := Out.bind_ok h2
      simp only [Out.ok.injEq, true_and] at g1
      obtain ⟨_, u2, g2, h2⟩ := Out.bind_ok h2
      have su : u1.s = w1.s := by rw [← g1]; rfl
      have n2 := preprocess_noop c o hc her hf hpre bounded tour (k := k) (w := u1) (by rw [su]; exact m1.st) (by omega) (by rw [su]; exact hd1')
        (by rw [su]; exact hi1) (by rw [su]; exact hred1) (by rw [su]; exact hv1) g2
      obtain ⟨m2, v2⟩ := preprocess_pref c o hc hpre bounded tour (P := 0) (w := u1) (k := k) (by rw [su]; exact m1.st) (by omega) (by rw [su]; exact hd1')
        (by rw [su]; exact hi1) (fun m _ hm => by omega) (by rw [su]; exact hv1) g2
      rw [su] at m2 n2
      rw [Int.toNat_natCast] at m2 v2
      have hi2 := m2.indep hi1
      have tail : ∀ (n : ℕ) (re : Bool) (u v : W Exact), svpLoop c o bounded tour k d false n 1 re u = .ok () v → v.s = u.s := by
        intro n re u v hv
        cases n with
        | zero => simp [svpLoop] at hv
        | succ n =>
          rw [svpLoop, if_pos (honce _ _ le_rfl)] at hv
          simp only [Out.ok.injEq, true_and] at hv
          rw [← hv]; rfl
      have hsol := htr u2.t k d u2.s m2.st hd1 (by rw [m2.d]; exact hd1') hi2 v2
      have hb2 : u2.s.b = w.s.b := n2.trans n1
      have hc2 : u2.s.nCols = w.s.nCols := m2.cols.trans m1.cols
      cases hx : o.enum u2.t k d false u2.s with
      | none =>
        rw [hx] at h2 hsol
        rw [tail _ _ _ _ h2]
        refine ⟨m2, .inr ⟨hb2, ?_⟩⟩
        have : MinProj u2.s.nCols rad k (k + d) u2.s.b := hsol
        rwa [hb2, hc2] at this
      | some x =>
        rw [hx] at h2 hsol
        obtain ⟨_, u3, g3, h2⟩ := Out.bind_ok h2
        rw [tail _ _ _ _ h2]
        obtain ⟨z, z1, z2, zr, z3⟩ := hsol
        rw [Int.toNat_natCast, Int.toNat_natCast] at g3
        obtain ⟨m3, ins, -⟩ := postprocess_mv c (w := u2.tick) m2.st hd1 (by exact le_of_le_of_eq hd1' m2.d.symm) z1 (primitive_of_min z2 z3) g3
        refine ⟨m2.trans (m3.mono (by omega) le_rfl), .inl ⟨?_, fun hmp => ?_⟩⟩
        swap
        · rw [← hb2, ← hc2] at hmp
          exact absurd (hmp _ (blockSum_inPre _ k d _ z) z2) (not_lt.2 zr)
        obtain ⟨i1, -⟩ := minProj_inserted (δ := 0) (by norm_num) ins z2 z3
        have e3 : u3.s.nCols = u2.s.nCols := m3.cols
        have hpos : 0 < normStar u2.s.nCols (toQ u2.s.b) k := hi2.pos k (by omega)
        rw [e3]
        change normStar u2.s.nCols (toQ u3.s.b) k = _ at i1
        rw [i1, ← hb2, ← hc2]
        refine lt_of_le_of_lt zr ?_
        nlinarith
  obtain ⟨m2, K⟩ := K
  split_ifs at h with hr3
  rw [Bool.not_eq_false] at hr3
  rw [hr3] at h3
  obtain ⟨m3, v3, -, -⟩ := sizeRedOp_pref c hc.eta m2.st h3 (k + 1) (k + d)
  rw [e] at v3
  simp only [Out.ok.injEq] at h
  have new : w3.s.r k k = some (normStar w2.s.nCols (toQ w2.s.b) k) := by
    rw [hfr w3.s m3.st (by rw [m3.d, m2.d, m1.d]; omega) (v3 k (by omega)), m3.cols]
    congr 1
    exact (normStar_pre (m3.pre k (.inl (by omega))) (m3.pre (k + 1) (.inl (by omega)))).symm
  have hf1 : firstRow k d false = k := by unfold firstRow; simp
  rw [hf1, old, new] at h
  have hct : cleanTest false (some (normStar w.s.nCols (toQ w.s.b) k) : Exact) (some (normStar w2.s.nCols (toQ w2.s.b) k)) =
      !decide (normStar w2.s.nCols (toQ w2.s.b) k < normStar w.s.nCols (toQ w.s.b) k) := rfl
  rw [hct] at h
  have m : Mv 0 (k + d) w.s w3.s := (m1.trans m2).trans (m3.mono (by omega) le_rfl)
  rw [← h.1, ← h.2]
  rcases K with ⟨hlt, hn⟩ | ⟨b2, mp⟩
  · refine ⟨m, ?_, fun hcl => ?_, fun i hi => v3 i (by omega)⟩
    · rw [decide_eq_true hlt]; simpa using hn
    · rw [decide_eq_true hlt] at hcl; simp at hcl
  · have hnl : ¬ normStar w2.s.nCols (toQ w2.s.b) k < normStar w.s.nCols (toQ w.s.b) k := by
      rw [b2, m2.cols, m1.cols]; exact lt_irrefl _
    have n3 := sizeRedOp_noop c hc.eta hf m2.st h3 (by rw [e, b2, m2.cols, m1.cols]; intro i hi; exact hred.sr i (by omega))
    refine ⟨m, ?_, fun _ => n3.trans b2, fun i hi => v3 i (by omega)⟩
    rw [decide_eq_false hnl]; simpa using mp

theorem loop_false {f : ℤ → W Exact → Out (W Exact) Bool} {st : ℤ} (n : ℕ) (k : ℤ) {cl : Bool} {w w' : W Exact} (h : loop f st n k false w = .ok cl w') : cl = false := by
  induction n generalizing k w with
  | zero => simp only [loop, Out.ok.injEq] at h; exact h.1.symm
  | succ n ih =>
    rw [loop] at h
    obtain ⟨c1, w1, -, h⟩ := Out.bind_ok h
    exact ih _ (by simpa using h)

/-- a loop of calls of `svp_reduction` on a reduced basis; `D k` is the size of the block that starts at row `k` -/
theorem loop_clean (hc : PCfg c.lll η thr δ) (her : c.lll.earlyRedFlag = false) (hf : 1 ≤ c.fuel) (hrad : rad < 1) (htr : Truthful rad o)
    (hpre : ∀ bs, o.preproc bs = []) (hmore : ∀ t, o.more t 0 = true) (honce : ∀ t it, 1 ≤ it → o.more t it = false) (bounded : Bool)
    (tour : ℤ → ℤ → ℤ → W Exact → Out (W Exact) Bool) {E : ℕ} (D : ℕ → ℕ) (g : ℤ → ℤ) (cnt k : ℕ)
    (hD : ∀ i, k ≤ i → i < k + cnt → 1 ≤ D i ∧ i + D i ≤ E ∧ g i = D i) (cl cl' : Bool) {w w' : W Exact} (hs : St w.s) (hind : Indep E w.s.nCols (toQ w.s.b))
    (hred : Red c.lll η thr w.s.nCols E (toQ w.s.b))
    (h : loop (fun kappa => svpReduction c o bounded tour kappa (g kappa) false) 1 cnt k cl w = .ok cl' w') :
    (cl' = true ↔ cl = true ∧ ∀ i, k ≤ i → i < k + cnt → MinProj w.s.nCols rad i (i + D i) w.s.b) ∧
    (cl' = true → w'.s.b = w.s.b ∧ St w'.s ∧ w'.s.d = w.s.d ∧ w'.s.nCols = w.s.nCols ∧
      (1 ≤ cnt → ∀ i < k + cnt, i + 1 ≤ w'.s.gsoValidCols i)) := by
  induction cnt generalizing k cl w with
  | zero =>
    simp only [loop, Out.ok.injEq] at h
    rw [← h.1, ← h.2]
    exact ⟨⟨fun hh => ⟨hh, fun i h1 h2 => by omega⟩, fun hh => hh.1⟩, fun _ => ⟨rfl, hs, rfl, rfl, fun h => by omega⟩⟩
  | succ cnt ih =>
    rw [loop] at h
    obtain ⟨c1, w1, h1, h⟩ := Out.bind_ok h
    obtain ⟨d1, d2, d3⟩ := hD k le_rfl (by omega)
    rw [d3] at h1
    obtain ⟨m1, a1, a2, a3⟩ := svpReduction_clean c o hc her hf hrad htr (k := k) (d := D k) d1 (hpre _) hmore honce bounded tour hs
      (indep_of_pos fun i hi => hind.pos i (by omega)) (hred.mono d2) h1
    cases c1 with
    | false =>
      rw [Bool.and_false] at h
      have := loop_false _ _ h
      rw [this]
      refine ⟨⟨fun h => (by cases h), fun hh => ?_⟩, fun h => (by cases h)⟩
      exact absurd (a1.2 (hh.2 k le_rfl (by omega))) (by simp)
    | true =>
      rw [Bool.and_true] at h
      have hb := a2 rfl
      obtain ⟨b1, b2⟩ := ih (k + 1) (fun i h1 h2 => hD i (by omega) (by omega)) cl m1.st (by rw [hb, m1.cols]; exact hind) (by rw [hb, m1.cols]; exact hred)
        (by exact_mod_cast h)
      rw [hb, m1.cols] at b1
      rw [hb, m1.d, m1.cols] at b2
      refine ⟨b1.trans ⟨fun hh => ⟨hh.1, fun i h1 h2 => ?_⟩, fun hh => ⟨hh.1, fun i h1 h2 => hh.2 i (by omega) (by omega)⟩⟩, fun hh => ?_⟩
      · rcases Nat.eq_or_lt_of_le h1 with rfl | hlt
        · exact a1.1 rfl
        · exact hh.2 i (by omega) (by omega)
      · obtain ⟨e1, e2, e3, e4, e5⟩ := b2 hh
        refine ⟨e1, e2, e3, e4, fun _ i hi => ?_⟩
        rcases Nat.eq_zero_or_pos cnt with hz | hz
        · subst hz
          simp only [loop, Out.ok.injEq] at h
          rw [← h.2]
          exact a3 i (by omega)
        · exact e5 hz i (by omega)

/-- a tour of BKZ on an LLL-reduced basis reports "clean" iff the first vector of every block is shortest up to the factor `rad`; then it has changed nothing -/
theorem tour_clean (hc : PCfg c.lll η thr δ) (her : c.lll.earlyRedFlag = false) (hf : 1 ≤ c.fuel) (hrad : rad < 1) (htr : Truthful rad o)
    (hpre : ∀ bs, o.preproc bs = []) (hmore : ∀ t, o.more t 0 = true) (honce : ∀ t it, 1 ≤ it → o.more t it = false) (bounded : Bool) (depth : ℕ)
    {E bs : ℕ} (hbs : 2 ≤ bs) (hE : 2 ≤ E) {cl : Bool} {w w' : W Exact} (hs : St w.s) (hd : E ≤ w.s.d) (hind : Indep E w.s.nCols (toQ w.s.b))
    (hred : Red c.lll η thr w.s.nCols E (toQ w.s.b)) (h : tour (svpOps c o (depth + 1) bounded) bs 0 E w = .ok cl w') :
    (cl = true ↔ ∀ k < E - 1, MinProj w.s.nCols rad k (min (k + bs) E) w.s.b) ∧ (cl = true → w'.s.b = w.s.b) := by
  unfold tour at h
  obtain ⟨c1, w1, h1, h⟩ := Out.bind_ok h
  obtain ⟨c2, w2, h2, h⟩ := Out.bind_ok h
  simp only [Out.ok.injEq] at h
  unfold truncTour at h1
  have e0 : ((E : ℤ) - bs - 0).toNat = E - bs := by omega
  rw [e0] at h1
  obtain ⟨p1, p2⟩ := loop_clean c o hc her hf hrad htr hpre hmore honce bounded (tour (svpOps c o depth false)) (E := E) (fun _ => bs) (fun _ => bs) (E - bs) 0
    (fun i _ hi => ⟨by omega, by omega, rfl⟩) true c1 hs hind hred (by exact_mod_cast h1)
  unfold hkz at h2
  obtain ⟨c3, w3, h3, h2⟩ := Out.bind_ok h2
  obtain ⟨ok4, w4, h4, h2⟩ := Out.bind_ok h2
  simp only [Out.ok.injEq] at h2
  have e1 : max ((E : ℤ) - bs) 0 = ((E - bs : ℕ) : ℤ) := by omega
  have e2 : ((E : ℤ) - 1 - ((E - bs : ℕ) : ℤ)).toNat = E - 1 - (E - bs) := by omega
  rw [e1, e2] at h3
  have hW : ∀ cl : Bool, (cl = true ↔ c1 = true ∧ c2 = true) → w' = w' → c1 = false →
      ((cl = true ↔ ∀ k < E - 1, MinProj w.s.nCols rad k (min (k + bs) E) w.s.b) ∧ (cl = true → w'.s.b = w.s.b)) := by
    intro cl hcl _ hc1
    have hcf : ¬ cl = true := fun h => by rw [hcl, hc1] at h; simp at h
    refine ⟨⟨fun h => absurd h hcf, fun hall => ?_⟩, fun h => absurd h hcf⟩
    have := p1.2 ⟨rfl, fun i _ hi => by
      have := hall i (by omega)
      rwa [min_eq_left (by omega)] at this⟩
    rw [this] at hc1; cases hc1
  have hcl : cl = true ↔ c1 = true ∧ c2 = true := by rw [← h.1]; simp
  by_cases hc1 : c1 = true
  swap
  · exact hW cl hcl rfl (by simpa using hc1)
  obtain ⟨q1, q2, q3, q4, -⟩ := p2 hc1
  obtain ⟨r1, r2⟩ := loop_clean c o hc her hf hrad htr hpre hmore honce bounded (tour (svpOps c o depth false)) (E := E) (fun i => E - i) (fun i => E - i) (E - 1 - (E - bs)) (E - bs)
    (fun i _ hi => ⟨by omega, by omega, by omega⟩) true c3 q2 (by rw [q1, q4]; exact hind) (by rw [q1, q4]; exact hred) h3
  have hc23 : c2 = c3 := h2.1.symm
  rw [q1, q4] at r1
  have hiff : cl = true ↔ ∀ k < E - 1, MinProj w.s.nCols rad k (min (k + bs) E) w.s.b := by
    rw [hcl, hc23, p1, r1]
    simp only [true_and]
    constructor
    · rintro ⟨h1, h2⟩ k hk
      rcases Nat.lt_or_ge k (E - bs) with hlt | hge
      · have := h1 k (by omega) (by omega)
        rwa [min_eq_left (by omega)]
      · have := h2 k hge (by omega)
        rwa [min_eq_right (by omega), ← show k + (E - k) = E by omega]
    · intro h
      refine ⟨fun i _ hi => ?_, fun i h1 hi => ?_⟩
      · have := h i (by omega)
        rwa [min_eq_left (by omega)] at this
      · have := h i (by omega)
        rw [min_eq_right (by omega)] at this
        rwa [show i + (E - i) = E by omega]
  refine ⟨hiff, fun hcl' => ?_⟩
  obtain ⟨-, hc2⟩ := hcl.1 hcl'
  obtain ⟨s1, s2, s3, s4, s5⟩ := r2 (hc23 ▸ hc2)
  -- the last size reduction
  have h4 : sizeRedOp c (E - 1) E (E - 2) w3 = .ok ok4 w4 := h4
  unfold sizeRedOp at h4
  split_ifs at h4 with hr
  simp only [Out.ok.injEq] at h4
  have f1 : ((E : ℤ) - (E - 1)).toNat = 1 := by omega
  have f2 : ((E : ℤ) - 1).toNat = E - 1 := by omega
  have f3 : ((E : ℤ) - 2).toNat = E - 2 := by omega
  rw [f1, f2, f3] at h4
  have hval : ∀ j < E - 1, j + 1 ≤ w3.s.gsoValidCols j := by
    intro j hj; exact s5 (by omega) j (by omega)
  have n4 := sizeReductionLoop_noop c.lll hc.eta hf (E - 2) 1 (E - 1) w3.s s2 (by omega) hval (by
    rw [s1, s4, q1, q4]; intro i hi; exact hred.sr i (by omega))
  have hb : w'.s.b = w4.s.b := by
    rw [← h.2, ← h2.2]
    simp only [svpOps]
    split_ifs <;> rfl
  rw [hb, ← h4.2]
  dsimp only
  rw [n4, s1, q1]

theorem mainLoop_count {σ D : Type} [LinearOrder D] (o : Ops σ) (cfg : Cfg D) (e : Env D σ) (E : ℤ) (inner : ℕ) (hao : autoOn cfg = false) (fuel i : ℕ) (a : AutoAbort D)
    {s s' : σ} {m : ℕ} (h : mainLoop o cfg e E inner fuel i a s = .ok (.success, m) s') : i + 1 ≤ m := by
  induction fuel generalizing i a s with
  | zero => simp [mainLoop] at h
  | succ fuel ih =>
    rw [mainLoop] at h
    simp only [hao, Bool.false_eq_true, false_and, if_false] at h
    split_ifs at h
    · simp at h
    · simp at h
    obtain ⟨cl, s1, -, h⟩ := Out.bind_ok h
    split_ifs at h
    · simp only [Out.ok.injEq, Prod.mk.injEq] at h; omega
    · have := ih _ _ h; omega

/-- a run of `bkz()` with a block size smaller than the number of rows, on an LLL-reduced basis -/
theorem runBKZ_clean {D : Type} [LinearOrder D] [OrderTop D] (hc : PCfg c.lll η thr δ) (her : c.lll.earlyRedFlag = false) (hf : 1 ≤ c.fuel) (hrad : rad < 1)
    (htr : Truthful rad o) (hpre : ∀ bs, o.preproc bs = []) (hmore : ∀ t, o.more t 0 = true) (honce : ∀ t it, 1 ≤ it → o.more t it = false) (cfg : Cfg D)
    (hsd : cfg.sd = false) (hsld : cfg.sld = false) (haa : cfg.autoAbort = false) (timeUp : ℕ → W Exact → Bool) (slope : ℕ → W Exact → D)
    (depth inner fuel : ℕ) {w w' : W Exact} {st : Status} {m : ℕ} (hs : WF w.s) (hfr : Fresh w.s 0 0) (hl : w.s.colsLocked = false) {bs : ℕ}
    (hb : cfg.blockSize = bs) (hbs : bs < numRows w.s w.s.d) (hind : Indep (numRows w.s w.s.d) w.s.nCols (toQ w.s.b))
    (hred : Red c.lll η thr w.s.nCols (numRows w.s w.s.d) (toQ w.s.b)) (hm : 1 ≤ m)
    (h : runBKZ c o cfg timeUp slope (depth + 1) inner fuel w = .ok (st, m) w') :
    let E := numRows w.s w.s.d
    ((st, m) = (Status.success, 1) ↔ ∀ k < E - 1, MinProj w.s.nCols rad k (min (k + bs) E) w.s.b) ∧
    ((st, m) = (Status.success, 1) → w'.s.b = w.s.b) := by
  obtain ⟨p1, p2, p3, p4⟩ := prepare_st hs hfr hl
  have hEd := numRows_le w.s w.s.d
  dsimp only
  unfold runBKZ at h
  dsimp only at h
  generalize numRows w.s w.s.d = E at *
  unfold bkz at h
  rw [hsd, hsld] at h
  simp only [Bool.false_eq_true, false_and, if_false] at h
  by_cases hb2 : cfg.blockSize < 2
  · rw [if_pos hb2] at h
    simp only [Out.ok.injEq, Prod.mk.injEq] at h
    omega
  rw [if_neg hb2] at h
  simp only [Out.bind] at h
  cases fuel with
  | zero => simp [mainLoop] at h
  | succ fuel =>
    rw [mainLoop] at h
    have ao : autoOn cfg = false := by unfold autoOn; rw [haa, hsd]; rfl
    simp only [ao, Bool.false_eq_true, false_and, if_false] at h
    split_ifs at h
    · simp only [Out.ok.injEq, Prod.mk.injEq] at h; omega
    · simp only [Out.ok.injEq, Prod.mk.injEq] at h; omega
    cases ht : oneTour (svpOps c o (depth + 1) cfg.bounded) cfg (E : ℤ) inner { w with s := prepare false w.s } with
    | ok clean w1 =>
      rw [ht] at h
      have hnb : ¬ (E : ℤ) ≤ cfg.blockSize := by omega
      simp only [Out.bind, hnb, or_false] at h
      unfold oneTour at ht
      rw [hsd, hsld, hb] at ht
      simp only [Bool.false_eq_true, if_false] at ht
      obtain ⟨t1, t2⟩ := tour_clean c o hc her hf hrad htr hpre hmore honce cfg.bounded depth (E := E) (bs := bs) (by omega) (by omega)
        (w := { w with s := prepare false w.s }) p1 (by dsimp only; omega) (by dsimp only; rw [p2, p4]; exact hind) (by dsimp only; rw [p2, p4]; exact hred) ht
      dsimp only at t1 t2
      rw [p2, p4] at t1
      rw [p2] at t2
      rw [← t1]
      cases clean with
      | true =>
        simp only [if_true, Out.ok.injEq, zero_add] at h
        rw [← h.1, ← h.2]
        exact ⟨⟨fun _ => rfl, fun _ => rfl⟩, fun _ => t2 rfl⟩
      | false =>
        simp only [Bool.false_eq_true, if_false] at h
        have : ¬ (st, m) = (Status.success, 1) := by
          intro he
          simp only [Prod.mk.injEq] at he
          obtain ⟨rfl, rfl⟩ := he
          change Out.bind (mainLoop _ _ _ _ _ _ _ _ _) _ = _ at h
          obtain ⟨r, s', h1, h⟩ := Out.bind_ok h
          simp only [Out.ok.injEq] at h
          rw [h.1] at h1
          have := mainLoop_count _ _ _ _ _ ao _ _ _ h1
          omega
        exact ⟨⟨fun h => absurd h this, fun h => (by cases h)⟩, fun h => absurd h this⟩
    | thrown => rw [ht] at h; simp [Out.bind] at h
    | ub => rw [ht] at h; simp [Out.bind] at h
    | stuck => rw [ht] at h; simp [Out.bind] at h

end BKZ
end Fplll

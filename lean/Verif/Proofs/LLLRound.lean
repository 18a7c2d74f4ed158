import Verif.Proofs.FreshRound
import Verif.Proofs.CholeskyLLL
import Verif.Proofs.BKZSvp
import Verif.Spec.GramDet

/-!
# LLL with rounding

The exact Gram matrix, and Gram-Schmidt coefficients in floating-point arithmetic with a relative error: what LLL returns is reduced.
-/

namespace Fplll

open FloatOps GSO Spec

namespace LLL

variable {fl : ℚ → ℚ} {sg : Bool}

/-- the state before and after a successful `babai` of row `kappa` -/
structure RPost (s s' : GSO (Rd fl)) (kappa : ℕ) (η : ℚ) : Prop where
  fresh : FreshR s'
  rows : ∀ k, k ≠ kappa → s'.b k = s.b k ∧ s'.mu k = s.mu k ∧ s'.r k = s.r k
  valid : ∀ k < kappa, s'.gsoValidCols k = s.gsoValidCols k
  validK : kappa ≤ s'.gsoValidCols kappa
  reduced : ∀ j < kappa, |Rd.val (s'.mu kappa j)| ≤ η

theorem loopNeeded_round (c : LLLCfg (Rd fl)) (s : GSO (Rd fl)) {kappa : ℕ} {η : ℚ} (hc : c.eta = Rd.of η) (hm : ∀ j < kappa, s.mu kappa j = Rd.of (Rd.val (s.mu kappa j)))
    (h : loopNeeded c s kappa 0 kappa = false) : ∀ j < kappa, |Rd.val (s.mu kappa j)| ≤ η := by
  unfold loopNeeded at h
  have := forDown_inv (P := fun j (b : Bool) => (b = false → ∀ k, j ≤ k → k < kappa → |Rd.val (s.mu kappa k)| ≤ η))
    (fun j need => need || gt (abs (s.mu kappa j)) c.eta) (Nat.zero_le kappa) false
    (by intro _ k h1 h2; omega)
    (by
      intro j b h1 h2 hb hf
      have e : (gt (abs (s.mu kappa j)) c.eta : Bool) = decide (η < |Rd.val (s.mu kappa j)|) := by
        conv_lhs => rw [hm j h2, hc]
        rfl
      rw [Bool.or_eq_false_iff, e, decide_eq_false_iff_not, not_lt] at hf
      intro k k1 k2
      by_cases h : k = j
      · rw [h]; exact hf.2
      · exact hb hf.1 k (by omega) k2)
  intro j hj
  exact this h j (by omega) hj

theorem babaiLoop_round (c : LLLCfg (Rd fl)) {η : ℚ} (hc : c.eta = Rd.of η) {kappa : ℕ} (fuel iter : ℕ) (e : ℤ) (s : GSO (Rd fl)) (h : BabaiPre s kappa kappa) (hf : FreshR s)
    (hready : ∀ j < kappa, j + 1 ≤ s.gsoValidCols j) (hok : (babaiLoop c kappa kappa 0 fuel iter e s).1 = .success) : RPost s (babaiLoop c kappa kappa 0 fuel iter e s).2 kappa η := by
  induction fuel generalizing iter e s with
  | zero => simp [babaiLoop] at hok
  | succ fuel ih =>
    have hu := updateGsoRow_freshR h.wf hf h.lt h.known (l := kappa) (by omega) (fun k h1 _ => hready k h1)
    have r1 := updateGsoRow_res (l := kappa) h.wf h.lt h.known
    have hb1 := updateGsoRow_b s kappa kappa
    rw [babaiLoop] at hok ⊢
    dsimp only at hok ⊢
    have hsrc := h.source
    have hknown := h.known
    have hkn : kappa < (s.updateGsoRow kappa kappa).2.nKnownRows := by rw [r1.known]; omega
    have hsr : kappa ≤ (s.updateGsoRow kappa kappa).2.nSourceRows := by rw [r1.source]; split_ifs <;> omega
    have hd1 : (s.updateGsoRow kappa kappa).2.d = s.d := r1.good.cfg.d
    generalize hP : s.updateGsoRow kappa kappa = P at *
    by_cases hP1 : P.1 = true
    swap
    · rw [if_pos (by simpa using hP1)] at hok
      cases hok
    rw [if_neg (by simpa using hP1)] at hok ⊢
    obtain ⟨a1, a2, a3, a4⟩ := hu hP1
    have hready1 : ∀ j < kappa, j + 1 ≤ P.2.gsoValidCols j := by
      intro j hj; rw [a3 j (by omega) (by omega)]; exact hready j hj
    have hmuP : ∀ j < kappa, P.2.mu kappa j = Rd.of (Rd.val (P.2.mu kappa j)) := fun j hj => (a1.entry kappa hkn j (by omega)).mu_some hj
    by_cases hl : loopNeeded c P.2 kappa 0 kappa = false
    · rw [if_pos (by simpa using hl)]
      exact ⟨a1, fun k hk => ⟨by rw [hb1], a4 k hk⟩, fun k hk => a3 k (by omega) (by omega), a2, loopNeeded_round c P.2 hc hmuP hl⟩
    rw [if_neg (by simpa using hl)] at hok ⊢
    obtain ⟨g2, d2⟩ := babaiPass_good (start := 0) r1.good.wf hkn hsr le_rfl
    obtain ⟨b1, b2, b3, b4⟩ := babaiPass_keep (start := 0) r1.good.wf a1.int hkn hsr le_rfl
    have f2 := a1.change (m := kappa) g2.cfg.intGram d2.known g2.cfg.nCols b1 b2 b3 b4
    have pre2 : BabaiPre (babaiPass P.2 kappa 0 kappa) kappa kappa := ⟨g2.wf, by rw [g2.cfg.d, hd1]; exact h.lt, by rw [d2.known]; omega, le_rfl, by rw [d2.source]; exact hsr⟩
    have hready2 : ∀ j < kappa, j + 1 ≤ (babaiPass P.2 kappa 0 kappa).gsoValidCols j := by
      intro j hj
      rw [b4 j (by omega), if_neg (by omega), if_neg (by omega)]
      exact hready1 j hj
    have combine : ∀ s', RPost (babaiPass P.2 kappa 0 kappa) s' kappa η → RPost s s' kappa η := by
      intro s' p
      refine ⟨p.fresh, fun k hk => ?_, fun k hk => ?_, p.validK, p.reduced⟩
      · obtain ⟨q1, q2, q3⟩ := p.rows k hk
        rw [q1, q2, q3, b3 k hk, b1, b2, hb1, (a4 k hk).1, (a4 k hk).2]
        exact ⟨rfl, rfl, rfl⟩
      · rw [p.valid k hk, b4 k (by omega), if_neg (by omega), if_neg (by omega), a3 k (by omega) (by omega)]
    split_ifs at hok ⊢ with hi2 hexp
    · exact combine _ (ih _ _ _ pre2 f2 hready2 hok)
    · exact combine _ (ih _ _ _ pre2 f2 hready2 hok)

/-- parameters of LLL; `sg` is the flag `LLL_SIEGEL` -/
structure RCfg (sg : Bool) (c : LLLCfg (Rd fl)) (η δ : ℚ) : Prop where
  eta : c.eta = Rd.of η
  thr : c.thr = Rd.of (Chol.thr sg η δ)
  siegel : c.siegel = sg

theorem RCfg.test {c : LLLCfg (Rd fl)} {η δ : ℚ} (hc : RCfg sg c η δ) (k : ℕ) : testIdx c (k + 1) = Chol.tix sg k := by
  unfold testIdx Chol.tix
  rw [hc.siegel]
  cases sg <;> rfl

theorem tix_le (sg : Bool) (k : ℕ) : Chol.tix sg k ≤ k + 1 := by
  cases sg
  · exact Nat.le_succ k
  · exact le_rfl

/-- what LLL has tested about its first rows -/
structure RHead (sg : Bool) (η δ : ℚ) (s : GSO (Rd fl)) (kappa : ℕ) : Prop where
  valid : ∀ k < kappa, k + 1 ≤ s.gsoValidCols k
  sr : ∀ i < kappa, ∀ j < i, |Rd.val (s.mu i j)| ≤ η
  cond : ∀ k, k + 1 < kappa → fl (Rd.val (s.r k k) * Chol.thr sg η δ) ≤ csum fl (s.ip (k + 1) (k + 1)) (fun j => Rd.val (s.mu (k + 1) j)) (fun j => Rd.val (s.r (k + 1) j)) (Chol.tix sg k)

/-- the head only depends on the first rows -/
theorem RHead.congr {η δ : ℚ} {s s' : GSO (Rd fl)} {kappa : ℕ} (h : RHead sg η δ s kappa) (hn : s'.nCols = s.nCols) (hb : ∀ k < kappa, s'.b k = s.b k) (hm : ∀ k < kappa, s'.mu k = s.mu k)
    (hr : ∀ k < kappa, ∀ q ≤ k, s'.r k q = s.r k q) (hv : ∀ k < kappa, s.gsoValidCols k ≤ s'.gsoValidCols k) : RHead sg η δ s' kappa := by
  refine ⟨fun k hk => (h.valid k hk).trans (hv k hk), ?_, ?_⟩
  · intro i hi j hj
    rw [hm i hi]; exact h.sr i hi j hj
  · intro k hk
    have := h.cond k hk
    have e : s'.ip (k + 1) (k + 1) = s.ip (k + 1) (k + 1) := by unfold ip; rw [hb _ hk, hn]
    rw [hr k (by omega) k le_rfl, e, hm _ hk]
    refine this.trans (le_of_eq ?_)
    exact csum_congr (fun _ _ => rfl) (fun j hj => by rw [hr _ hk j (by have := tix_le sg k; omega)])

theorem RHead.mono {η δ : ℚ} {s : GSO (Rd fl)} {kappa k : ℕ} (h : RHead sg η δ s kappa) (hk : k ≤ kappa) : RHead sg η δ s k :=
  ⟨fun i hi => h.valid i (by omega), fun i hi => h.sr i (by omega), fun i hi => h.cond i (by omega)⟩

theorem RHead.snoc {η δ : ℚ} {s : GSO (Rd fl)} {kappa : ℕ} (h : RHead sg η δ s kappa) (hv : kappa + 1 ≤ s.gsoValidCols kappa) (hs : ∀ j < kappa, |Rd.val (s.mu kappa j)| ≤ η)
    (hc : ∀ k, k + 1 = kappa → fl (Rd.val (s.r k k) * Chol.thr sg η δ) ≤ csum fl (s.ip (k + 1) (k + 1)) (fun j => Rd.val (s.mu (k + 1) j)) (fun j => Rd.val (s.r (k + 1) j)) (Chol.tix sg k)) : RHead sg η δ s (kappa + 1) := by
  refine ⟨?_, ?_, ?_⟩
  · intro k hk
    by_cases e : k = kappa
    · rw [e]; exact hv
    · exact h.valid k (by omega)
  · intro k hk
    by_cases e : k = kappa
    · rw [e]; exact hs
    · exact h.sr k (by omega)
  · intro k hk
    by_cases e : k + 1 = kappa
    · exact hc k e
    · exact h.cond k (by omega)

/-- the basis over the rationals -/
def bR (s : GSO (Rd fl)) : ℕ → ℕ → ℚ := fun i c => (s.b i c : ℚ)

/-- what LLL has tested, in the form of the error analysis -/
theorem RHead.comp {u η δ : ℚ} (hfl : Chol.RelErr u fl) {s : GSO (Rd fl)} {kappa d : ℕ} (hf : FreshR s) (h : RHead sg η δ s kappa) (hk : kappa ≤ s.nKnownRows) (hkd : kappa ≤ d) (hind : Indep d s.nCols (bR s)) :
    Chol.Comp sg kappa η δ u fl (fun p q => (s.ip p q : ℚ)) (rS s.nCols (bR s)) (muS s.nCols (bR s)) (fun p q => Rd.val (s.r p q)) (fun p q => Rd.val (s.mu p q)) := by
  have hip : ∀ p q : ℕ, (s.ip p q : ℚ) = dotQ s.nCols (bR s p) (bR s q) := by
    intro p q
    unfold ip dotQ bR; push_cast; rfl
  have hE : ∀ p < kappa, ∀ q ≤ p, Entry fl s p q := fun p hp q hq => hf.entry p (by omega) q (by have := h.valid p hp; omega)
  refine ⟨?_, ?_, ?_, hfl, ?_, ?_, h.sr, h.cond⟩
  · intro p hp
    rw [rS_self]; exact hind.pos p (by omega)
  · intro p hp q hq
    rw [rS_self]; exact rS_mu _ _ _ _
  · intro p hp q hq
    rw [rS_rec, hip]; ring
  · intro p hp q hq
    conv_lhs => rw [(hE p hp q hq).1]
    rfl
  · intro p hp q hq
    conv_lhs => rw [((hE p hp q hq.le).2 hq).1]
    rfl

/-- the parameters of the analysis -/
structure RPar (d : ℕ) (η δ η' δ' u ε ρ : ℚ) : Prop where
  par : Chol.Par d η δ η' δ' u ε ρ
  rho : 3 ≤ ρ
  eta' : 1 / 2 ≤ η'
  delta' : δ' ≤ 1

/-- the tested rows are reduced, and their computed lengths are positive -/
theorem RHead.sound {u η δ η' δ' ε ρ : ℚ} (hfl : Chol.RelErr u fl) {s : GSO (Rd fl)} {kappa d : ℕ} (hp : RPar d η δ η' δ' u ε ρ) (hf : FreshR s) (h : RHead sg η δ s kappa) (hk : kappa ≤ s.nKnownRows) (hkd : kappa ≤ d)
    (hind : Indep d s.nCols (bR s)) : (SizeReduced s.nCols kappa (bR s) η' ∧ (sg = false → Lovasz s.nCols kappa (bR s) δ') ∧ Siegel s.nCols kappa (bR s) (δ' - η' ^ 2)) ∧ ∀ k < kappa, 0 < Rd.val (s.r k k) := by
  obtain ⟨hD, hL⟩ := Chol.data_of_comp hp.par hp.rho hp.eta' hp.delta' hkd (h.comp hfl hf hk hkd hind)
  refine ⟨⟨?_, ?_, ?_⟩, ?_⟩
  · intro i hi j hj
    exact hD.red i hi j hj
  · intro hsg i hi
    have := hL hsg i hi
    rwa [rS_self, rS_self] at this
  · intro i hi
    have := hD.step i hi
    rw [rS_self, rS_self, one_div, ← div_eq_inv_mul, le_div_iff₀ hp.par.den] at this
    linarith
  · intro k hk
    have hden := hp.par.den
    have e := Chol.error hD hkd hp.eta' hp.par.eta1 (by positivity) (by
      rw [one_div, ← div_eq_inv_mul, le_div_iff₀ hden]; have := hp.delta'; linarith) hp.par.u0 hp.par.eps hp.rho (by rw [one_div, ← div_eq_inv_mul]; exact hp.par.growth) hp.par.prec k k le_rfl hk
    have hE := Chol.bnd_le hp.par.u0 (by have := hp.rho; linarith : 1 ≤ ρ) hp.par.prec (by omega : k < d)
    have h0 := hD.pos k hk
    have h1 : Chol.bnd d ρ u k ≤ 1 / 8 := le_trans hE (by have := hp.par.eps; linarith)
    have h2 := (abs_le.1 e).1
    have h3 := mul_le_mul_of_nonneg_right h1 h0.le
    linarith

theorem lovaszTests_round {s : GSO (Rd fl)} {kappa : ℕ} (hg : s.gramVal kappa kappa = Rd.of (fl (s.ip kappa kappa))) (hmu : ∀ j < kappa, s.mu kappa j = Rd.of (Rd.val (s.mu kappa j)))
    (hr : ∀ j < kappa, s.r kappa j = Rd.of (Rd.val (s.r kappa j))) :
    ∀ i ≤ kappa, lovaszTests s kappa i = Rd.of (csum fl (s.ip kappa kappa) (fun j => Rd.val (s.mu kappa j)) (fun j => Rd.val (s.r kappa j)) i) := by
  intro i hi
  unfold lovaszTests
  have := forUp_inv (P := fun m (lov : ℕ → Rd fl) => ∀ i < m, lov i = Rd.of (csum fl (s.ip kappa kappa) (fun j => Rd.val (s.mu kappa j)) (fun j => Rd.val (s.r kappa j)) i))
    (fun i (lov : ℕ → Rd fl) => setAt lov i (sub (lov (i - 1)) (mul (s.mu kappa (i - 1)) (s.r kappa (i - 1)))))
    (show 1 ≤ kappa + 1 by omega) (setAt (fun _ => nan) 0 (s.gramVal kappa kappa))
    (by
      intro i hi
      have : i = 0 := by omega
      subst this
      rw [setAt_self, hg]
      rfl)
    (by
      intro m lov h1 h2 hl i hi
      by_cases h : i = m
      · subst h
        rw [setAt_self, hl (i - 1) (by omega)]
        conv_lhs => rw [hmu (i - 1) (by omega), hr (i - 1) (by omega)]
        have e : i = i - 1 + 1 := by omega
        conv_rhs => rw [e]
        rfl
      · rw [setAt_ne _ _ h]; exact hl i (by omega))
  exact this i (by omega)

theorem insertIdx_round (c : LLLCfg (Rd fl)) {η δ : ℚ} (hc : RCfg sg c η δ) {s : GSO (Rd fl)} {lov : ℕ → Rd fl} {kappa : ℕ} {p r : ℕ → ℚ} (hl : ∀ i ≤ kappa, lov i = Rd.of (p i))
    (hr : ∀ k < kappa, s.r k k = Rd.of (r k)) (k : ℕ) (hk : k ≤ kappa) :
    let m := insertIdx c s lov 0 k
    m ≤ k ∧ (m = 0 ∨ (1 ≤ m ∧ fl (r (m - 1) * Chol.thr sg η δ) < p (Chol.tix sg (m - 1)))) := by
  induction k with
  | zero => simp [insertIdx]
  | succ k ih =>
    simp only [insertIdx]
    rw [if_pos (by omega)]
    rw [hr k (by omega), hc.thr, hc.test k, hl _ (by have := tix_le sg k; omega)]
    have e : (lt (mul (Rd.of (r k)) (Rd.of (Chol.thr sg η δ))) (Rd.of (p (Chol.tix sg k))) : Bool) = decide (fl (r k * Chol.thr sg η δ) < p (Chol.tix sg k)) := rfl
    rw [e]
    split_ifs with h
    · refine ⟨le_rfl, .inr ⟨by omega, ?_⟩⟩
      simpa using h
    · have := ih (by omega)
      exact ⟨by dsimp only at this; omega, this.2⟩

/-- loop invariant of LLL with rounding -/
structure RInv (sg : Bool) (η δ : ℚ) (s0 : GSO (Rd fl)) (d : ℕ) (st : LLLState (Rd fl)) : Prop where
  good : Good s0 st.s
  fresh : FreshR st.s
  unlocked : st.s.colsLocked = false
  zeros : st.zeros = 0
  k1 : 1 ≤ st.kappa
  known : st.kappa ≤ st.s.nKnownRows
  kle : st.kappa ≤ d
  head : RHead sg η δ st.s st.kappa

theorem indep_of_good {s0 s : GSO (Rd fl)} (g : Good s0 s) (hind : Indep s0.d s0.nCols (bR s0)) : Indep s0.d s.nCols (bR s) := by
  obtain ⟨T, T', h1, h2, h3, _⟩ := g.uni
  have hl : lattice (toM s0.d s0.nCols s.b) = lattice (toM s0.d s0.nCols s0.b) := by
    rw [h3]; exact lattice_mul ⟨T', h1, h2⟩ _
  rw [g.cfg.nCols]
  exact Indep.of_lattice hind hl

theorem lovaszStep_round (c : LLLCfg (Rd fl)) {u η δ η' δ' ε ρ : ℚ} (hc : RCfg sg c η δ) (hfl : Chol.RelErr u fl) {s0 : GSO (Rd fl)} (hp : RPar s0.d η δ η' δ' u ε ρ) (hind : Indep s0.d s0.nCols (bR s0))
    {st : LLLState (Rd fl)} (hg : Good s0 st.s) (hf : FreshR st.s) (hl : st.s.colsLocked = false) (hz : st.zeros = 0) (h1 : 1 ≤ st.kappa) (hk : st.kappa < st.s.nKnownRows) (hlt : st.kappa < s0.d)
    (hv : st.kappa ≤ st.s.gsoValidCols st.kappa) (hsr : ∀ j < st.kappa, |Rd.val (st.s.mu st.kappa j)| ≤ η) (hh : RHead sg η δ st.s st.kappa) : RInv sg η δ s0 s0.d (lovaszStep c 0 s0.d st) := by
  unfold lovaszStep
  dsimp only
  have hcg : st.s.cacheGram st.kappa st.kappa = st.s := by
    have e : (st.s.cacheGram st.kappa st.kappa).gf = st.s.gf := by
      unfold cacheGram
      dsimp only
      rw [if_neg (by rw [hf.int]; simp)]
    have e2 : st.s.cacheGram st.kappa st.kappa = { st.s with gf := (st.s.cacheGram st.kappa st.kappa).gf } := rfl
    rw [e2, e]
  rw [hcg]
  generalize st.s = s at *
  have hgv : s.gramVal st.kappa st.kappa = Rd.of (fl (s.ip st.kappa st.kappa)) := by
    unfold gramVal
    have := hg.wf.gram hf.int st.kappa hk st.kappa hk
    rw [symGet_of_le _ le_rfl] at this
    rw [if_pos hf.int, this]
    rfl
  have hmu : ∀ j < st.kappa, s.mu st.kappa j = Rd.of (Rd.val (s.mu st.kappa j)) := fun j hj => (hf.entry st.kappa hk j (by omega)).mu_some hj
  have hr : ∀ j < st.kappa, s.r st.kappa j = Rd.of (Rd.val (s.r st.kappa j)) := fun j hj => (hf.entry st.kappa hk j (by omega)).r_some
  have hrd : ∀ k < st.kappa, s.r k k = Rd.of (Rd.val (s.r k k)) := fun k hk' => (hf.entry k (by omega) k (by have := hh.valid k hk'; omega)).r_some
  have hlov := lovaszTests_round hgv hmu hr
  have hins := insertIdx_round c hc hlov hrd (st.kappa - 1) (by omega)
  dsimp only at hins
  generalize insertIdx c s (lovaszTests s st.kappa) 0 (st.kappa - 1) = k at *
  obtain ⟨hk2, hk3⟩ := hins
  have hti : testIdx c st.kappa = Chol.tix sg (st.kappa - 1) := by rw [← hc.test]; congr 1; omega
  have htl : Chol.tix sg (st.kappa - 1) ≤ st.kappa := by have := tix_le sg (st.kappa - 1); omega
  rw [hc.thr, hti, hlov _ htl, hlov k (by omega), hlov st.kappa le_rfl, hrd (st.kappa - 1) (by omega)]
  set X := csum fl (s.ip st.kappa st.kappa) (fun j => Rd.val (s.mu st.kappa j)) (fun j => Rd.val (s.r st.kappa j)) with hX
  have e1 : (gt (mul (Rd.of (Rd.val (s.r (st.kappa - 1) (st.kappa - 1)))) (Rd.of (Chol.thr sg η δ))) (Rd.of (X (Chol.tix sg (st.kappa - 1)))) : Bool) =
      decide (X (Chol.tix sg (st.kappa - 1)) < fl (Rd.val (s.r (st.kappa - 1) (st.kappa - 1)) * Chol.thr sg η δ)) := rfl
  rw [e1]
  by_cases hA : X (Chol.tix sg (st.kappa - 1)) < fl (Rd.val (s.r (st.kappa - 1) (st.kappa - 1)) * Chol.thr sg η δ)
  · rw [if_pos (by simpa using hA)]
    have hko : k < st.kappa := by omega
    -- the state after the insertion
    have f2 := moveRowUp_freshR hf hko hk
    have g2 : Good s (s.moveRow st.kappa k) := moveRow_good hg.wf hl (by omega) (by omega)
    have em : s.moveRow st.kappa k = s.moveRowUp st.kappa k := by unfold moveRow; rw [if_pos hko]
    have k2 := moveRow_known s st.kappa k
    have l2 := moveRow_locked s st.kappa k
    rw [em] at g2 k2 l2 ⊢
    have hb : ∀ j, (s.moveRowUp st.kappa k).b j = s.b (rotR k st.kappa j) := fun j => by
      change rotateRightBySwap s.b k st.kappa j = _; rw [rotateRight_eq _ hko.le]
    have hm : ∀ j, (s.moveRowUp st.kappa k).mu j = s.mu (rotR k st.kappa j) := fun j => by
      change rotateRightBySwap s.mu k st.kappa j = _; rw [rotateRight_eq _ hko.le]
    have hr2 : ∀ j, (s.moveRowUp st.kappa k).r j = s.r (rotR k st.kappa j) := fun j => by
      change rotateRightBySwap s.r k st.kappa j = _; rw [rotateRight_eq _ hko.le]
    have hlow : ∀ j < k, rotR k st.kappa j = j := by intro j hj; unfold rotR; grind
    have hself : rotR k st.kappa k = st.kappa := by unfold rotR; grind
    have hv2 : ∀ j < k, (s.moveRowUp st.kappa k).gsoValidCols j = s.gsoValidCols j := by
      intro j hj
      change rotateRightBySwap (s.invalidateFrom k k).gsoValidCols k st.kappa j = _
      rw [rotateRight_eq _ hko.le]; dsimp only
      rw [hlow j hj, invalidateFrom_keep, if_neg (by omega)]
    have hv3 : (s.moveRowUp st.kappa k).gsoValidCols k = k := by
      change rotateRightBySwap (s.invalidateFrom k k).gsoValidCols k st.kappa k = _
      rw [rotateRight_eq _ hko.le]; dsimp only
      rw [hself, invalidateFrom_keep, if_pos (by omega)]
      omega
    have hn2 : (s.moveRowUp st.kappa k).nCols = s.nCols := rfl
    rw [if_neg (by omega)] at k2
    generalize s.moveRowUp st.kappa k = t at *
    have hip : t.ip k k = s.ip st.kappa st.kappa := by unfold ip; rw [hb, hself, hn2]
    have hmk : t.mu k = s.mu st.kappa := by rw [hm, hself]
    have hrk : t.r k = s.r st.kappa := by rw [hr2, hself]
    have hfv : (Rd.of (X k) : Rd fl) = Rd.of (csum fl (t.ip k k) (fun j => Rd.val (t.mu k j)) (fun j => Rd.val (t.r k j)) k) := by
      rw [hip, hmk, hrk]
    obtain ⟨f3, v3, r3⟩ := setR_freshR f2 (i := k) (by omega) (by omega) (fun j hj => by rw [hv2 j hj]; exact hh.valid j (by omega)) hfv
    have fo := setR_fo t k k (Rd.of (X k) : Rd fl)
    have hm3 : (t.setR k k (Rd.of (X k))).mu = t.mu := rfl
    have hrkk : (t.setR k k (Rd.of (X k))).r k k = Rd.of (X k) := by
      change Mat.set t.r k k _ k k = _
      rw [Mat.set_apply, if_pos ⟨rfl, rfl⟩]
    have g3 : Good s0 (t.setR k k (Rd.of (X k))) := (hg.trans g2).trans (fo.good g2.wf)
    have hip3 : ∀ p q, (t.setR k k (Rd.of (X k))).ip p q = t.ip p q := fun _ _ => rfl
    have hhead : RHead sg η δ (t.setR k k (Rd.of (X k))) (k + 1) := by
      refine RHead.snoc (RHead.congr (hh.mono hko.le) ?_ ?_ ?_ ?_ ?_) ?_ ?_ ?_
      · rw [fo.nCols, hn2]
      · intro j hj; rw [fo.b, hb, hlow j hj]
      · intro j hj; rw [hm3, hm, hlow j hj]
      · intro j hj q hq; rw [r3 j q (.inl (by omega)), hr2, hlow j hj]
      · intro j hj; rw [v3, if_neg (by omega), hv2 j hj]
      · rw [v3, if_pos rfl]
      · intro j hj; rw [hm3, hmk]; exact hsr j (by omega)
      · intro l hlk
        rcases hk3 with h0 | ⟨h0, h4⟩
        · omega
        · have el : l = k - 1 := by omega
          have e2 : l + 1 = k := hlk
          have er : (t.setR k k (Rd.of (X k))).r l l = s.r l l := by rw [r3 l l (.inl (by omega)), hr2, hlow l (by omega)]
          rw [er, e2, hip3, hip, hm3, hmk]
          rw [← el] at h4
          refine h4.le.trans (le_of_eq ?_)
          rw [hX]
          exact csum_congr (fun _ _ => rfl) (fun j hj => by rw [r3 k j (.inr (by have := tix_le sg l; omega)), hrk])
    have hkn3 : k + 1 ≤ (t.setR k k (Rd.of (X k))).nKnownRows := by rw [fo.nKnownRows, k2]; omega
    have hpos := (hhead.sound hfl hp f3 hkn3 (by omega) (indep_of_good g3 hind)).2 k (by omega)
    rw [hrkk] at hpos
    have hpos' : 0 < X k := hpos
    have e2 : (gt (Rd.of (X k)) (ofInt 0 : Rd fl) : Bool) = decide (fl ((0 : ℤ) : ℚ) < X k) := rfl
    have hfl0 : fl ((0 : ℤ) : ℚ) = 0 := by
      have := hfl 0
      rw [sub_zero, abs_zero, mul_zero] at this
      simpa using this
    rw [if_pos (by rw [e2, hfl0]; simpa using hpos')]
    exact ⟨g3, f3, by change t.colsLocked = false; rw [l2]; exact hl, hz, by dsimp only; omega, hkn3, by dsimp only; omega, hhead⟩
  · rw [if_neg (by simpa using hA)]
    obtain ⟨f3, v3, r3⟩ := setR_freshR hf hk hv hh.valid (f := Rd.of (X st.kappa)) rfl
    have fo := setR_fo s st.kappa st.kappa (Rd.of (X st.kappa) : Rd fl)
    have hm3 : (s.setR st.kappa st.kappa (Rd.of (X st.kappa))).mu = s.mu := rfl
    have hip3 : ∀ p q, (s.setR st.kappa st.kappa (Rd.of (X st.kappa))).ip p q = s.ip p q := fun _ _ => rfl
    refine ⟨hg.trans (fo.good hg.wf), f3, hl, hz, by dsimp only; omega, by dsimp only; rw [fo.nKnownRows]; omega, by dsimp only; omega, ?_⟩
    refine RHead.snoc (RHead.congr hh fo.nCols (fun j _ => by rw [fo.b]) (fun j _ => by rw [hm3]) (fun j hj q hq => r3 j q (.inl (by omega))) (fun j hj => by rw [v3, if_neg (by omega)])) ?_ ?_ ?_
    · rw [v3, if_pos rfl]
    · intro j hj; rw [hm3]; exact hsr j hj
    · intro l hlk
      have el : st.kappa - 1 = l := by omega
      rw [el] at hA
      rw [hlk, r3 l l (.inl (by omega)), hip3, hm3]
      refine (not_lt.1 hA).trans (le_of_eq ?_)
      exact csum_congr (fun _ _ => rfl) (fun j hj => by rw [r3 st.kappa j (.inr (by have := tix_le sg l; omega))])

theorem mainLoop_round (c : LLLCfg (Rd fl)) {u η δ η' δ' ε ρ : ℚ} (hc : RCfg sg c η δ) (hfl : Chol.RelErr u fl) {s0 : GSO (Rd fl)} (hp : RPar s0.d η δ η' δ' u ε ρ) (hind : Indep s0.d s0.nCols (bR s0)) (fuel n : ℕ)
    (st : LLLState (Rd fl)) (h : RInv sg η δ s0 s0.d st) (hok : (mainLoop c fuel 0 s0.d 0 n st).1 = .success) : RInv sg η δ s0 s0.d (mainLoop c fuel 0 s0.d 0 n st).2 := by
  induction n generalizing st with
  | zero => exact h
  | succ n ih =>
    rw [mainLoop] at hok ⊢
    rw [h.zeros] at hok ⊢
    by_cases h1 : st.kappa < s0.d - 0
    swap
    · rw [if_neg h1]; exact h
    rw [if_pos h1] at hok ⊢
    dsimp only at hok ⊢
    -- no early reduction with the exact Gram matrix
    have hd : (discoverStep c fuel 0 st).1 = .success ∧ (discoverStep c fuel 0 st).2.s = st.s ∧ (discoverStep c fuel 0 st).2.kappa = st.kappa ∧ (discoverStep c fuel 0 st).2.zeros = st.zeros := by
      unfold discoverStep
      dsimp only
      by_cases hh : st.kappaMax < st.kappa
      · rw [if_pos hh, if_neg (by rw [h.fresh.int]; simp)]
        exact ⟨rfl, rfl, rfl, rfl⟩
      · rw [if_neg hh]
        exact ⟨rfl, rfl, rfl, rfl⟩
    generalize discoverStep c fuel 0 st = P at *
    obtain ⟨d1, d2, d3, d4⟩ := hd
    rw [if_neg (by simpa using d1)] at hok ⊢
    rw [d2, d3] at hok ⊢
    have hknown := h.known
    have hsd : st.s.d = s0.d := h.good.cfg.d
    have pre : BabaiPre st.s st.kappa st.kappa := ⟨h.good.wf, by omega, hknown, le_rfl, by rw [h.good.wf.unlocked h.unlocked]; exact hknown⟩
    have bl := babaiLoop_round c hc.eta fuel 0 longMax st.s pre h.fresh h.head.valid
    have bg := babai_good c fuel 0 pre
    have br := babai_res c fuel 0 pre
    unfold babai at hok bg br ⊢
    generalize babaiLoop c st.kappa st.kappa 0 fuel 0 longMax st.s = Q at *
    by_cases h3 : Q.1 = .success
    swap
    · rw [if_pos h3] at hok; exact absurd hok h3
    rw [if_neg (by simpa using h3)] at hok ⊢
    have x := bl h3
    have r := br h3
    refine ih _ ?_ hok
    refine lovaszStep_round c hc hfl hp hind (h.good.trans bg) x.fresh (r.locked.trans h.unlocked) (d4.trans h.zeros) (h.k1) (by dsimp only; rw [r.known]; omega) (by dsimp only; omega)
      x.validK x.reduced ?_
    exact h.head.congr bg.cfg.nCols (fun k hk => (x.rows k (by omega)).1) (fun k hk => (x.rows k (by omega)).2.1) (fun k hk q _ => by rw [(x.rows k (by omega)).2.2]) (fun k hk => (x.valid k hk).ge)

theorem zeroLoop_round {s : GSO (Rd fl)} (h : rowIsZero s 0 = false) (kmin kend n : ℕ) : zeroLoop kmin kend n 0 s = (0, s) := by
  cases n with
  | zero => rfl
  | succ n => rw [zeroLoop, if_neg (by rw [h]; simp)]

theorem row0_round {e : ℕ} {s : GSO (Rd fl)} (he : 0 < e) (hind : Indep e s.nCols (bR s)) : rowIsZero s 0 = false := by
  unfold rowIsZero
  rw [decide_eq_false_iff_not]
  intro hz
  have := hind.pos 0 he
  rw [normStar_eq] at this
  rw [dotQ_zero_right _ (fun c hc => by unfold bR; rw [hz c hc]; simp)] at this
  simp at this

/-- a successful run of LLL with rounding returns a reduced basis -/
theorem lll_round (c : LLLCfg (Rd fl)) {u η δ η' δ' ε ρ : ℚ} (hc : RCfg sg c η δ) (hfl : Chol.RelErr u fl) {s : GSO (Rd fl)} (hp : RPar s.d η δ η' δ' u ε ρ) (hind : Indep s.d s.nCols (bR s)) (hwf : WF s)
    (hf : FreshR s) (hl : s.colsLocked = false) (hd : 1 ≤ s.d) (fuel maxIter last : ℕ) (hok : (lll c fuel maxIter last s 0 0 s.d 0).1 = .success) :
    Good s (lll c fuel maxIter last s 0 0 s.d 0).2.s ∧ (lll c fuel maxIter last s 0 0 s.d 0).2.zeros = 0 ∧ SizeReduced s.nCols s.d (bR (lll c fuel maxIter last s 0 0 s.d 0).2.s) η' ∧
      (sg = false → Lovasz s.nCols s.d (bR (lll c fuel maxIter last s 0 0 s.d 0).2.s) δ') ∧ Siegel s.nCols s.d (bR (lll c fuel maxIter last s 0 0 s.d 0).2.s) (δ' - η' ^ 2) := by
  unfold lll at hok ⊢
  rw [zeroLoop_round (row0_round (by omega) hind)] at hok ⊢
  dsimp only at hok ⊢
  rw [if_pos (by omega)] at hok ⊢
  unfold startStep at hok ⊢
  rw [if_neg (by omega)] at hok ⊢
  unfold startTail at hok ⊢
  rw [if_neg (by simp)] at hok ⊢
  dsimp only at hok ⊢
  have hu := updateGsoRow_freshR hwf hf (i := 0) (l := 0 + 1) (by omega) (by omega) (by omega) (fun k _ h => by omega)
  have r1 := updateGsoRow_res (l := 0 + 1) hwf (kappa := 0) (by omega) (by omega)
  generalize s.updateGsoRow 0 (0 + 1) = P at *
  by_cases hP : P.1 = true
  swap
  · rw [if_neg hP] at hok
    unfold lllTail at hok
    rw [if_pos (by simp)] at hok
    cases hok
  rw [if_pos hP] at hok ⊢
  obtain ⟨a1, a2, a3, a4⟩ := hu hP
  unfold lllTail at hok ⊢
  rw [if_neg (by simp)] at hok ⊢
  have inv0 : RInv sg η δ s s.d { s := P.2, kappa := 0 + 1, kappaMax := 0, zeros := 0, nSwaps := 0, lastEarlyRed := last } := by
    refine ⟨r1.good, a1, r1.locked.trans hl, rfl, le_rfl, by dsimp only; rw [r1.known]; omega, by dsimp only; omega, ⟨?_, ?_, ?_⟩⟩
    · intro k hk
      have : k = 0 := by dsimp only at hk; omega
      subst this
      exact a2
    · intro i hi j hj; dsimp only at hi; omega
    · intro k hk; dsimp only at hk; omega
  have ml := mainLoop_round c hc hfl hp hind fuel maxIter _ inv0
  dsimp only at hok ⊢
  generalize mainLoop c fuel 0 s.d 0 maxIter _ = q at *
  unfold lllFinish at hok ⊢
  by_cases hq : q.1 = .success
  swap
  · rw [if_pos hq] at hok; exact absurd hok hq
  rw [if_neg (by simpa using hq)] at hok ⊢
  dsimp only at hok ⊢
  have inv := ml hq
  rw [inv.zeros] at hok
  have hkap : q.2.kappa = s.d := by
    have := inv.kle
    by_contra hne
    rw [if_pos (by omega)] at hok
    cases hok
  have sd := inv.head.sound hfl hp inv.fresh inv.known inv.kle (indep_of_good inv.good hind)
  rw [hkap, inv.good.cfg.nCols] at sd
  rw [if_pos inv.fresh.int]
  exact ⟨inv.good.trans (symmetrizeG_good inv.good.wf), inv.zeros, sd.1⟩

end LLL
end Fplll

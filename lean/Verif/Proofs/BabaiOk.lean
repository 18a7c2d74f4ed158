import Verif.Proofs.BabaiRound

/-!
# Size reduction with rounding succeeds

The loop of `babai` ends without a failure: the divisors are positive, and the largest coefficient of the row shrinks by more than the threshold of the loop until the row is reduced.
-/

namespace Fplll

open FloatOps GSO Spec

namespace GSO

variable {fl : ℚ → ℚ} {sg : Bool}

/-- the update of a row does not fail when the divisors are not zero -/
theorem updateGsoLoop_ok (i n : ℕ) : ∀ (j : ℕ) (s : GSO (Rd fl)), s.intGram = true →
    (∀ q < i, q < j + n → (∀ k < q, s.mu q k = Rd.of (Rd.val (s.mu q k))) ∧ s.r q q = Rd.of (Rd.val (s.r q q)) ∧ Rd.val (s.r q q) ≠ 0) →
    (∀ q < j, q < i → s.r i q = Rd.of (Rd.val (s.r i q)) ∧ s.mu i q = Rd.of (Rd.val (s.mu i q))) → j + n ≤ i + 1 → (updateGsoLoop i n j s).1 = true := by
  induction n with
  | zero => intro j s _ _ _ _; rfl
  | succ n ih =>
    intro j s hG hrow ho hj
    have hc : s.cacheGram i j = s := by
      have e : (s.cacheGram i j).gf = s.gf := by
        unfold cacheGram
        dsimp only
        rw [if_neg (by rw [hG]; simp)]
      have e2 : s.cacheGram i j = { s with gf := (s.cacheGram i j).gf } := rfl
      rw [e2, e]
    have hgv : s.gramVal i j = Rd.of (fl (s.g i j)) := by
      unfold gramVal
      rw [if_pos hG]
      rfl
    have hmu : ∀ k < j, s.mu j k = Rd.of (Rd.val (s.mu j k)) := by
      intro k hk
      by_cases e : j = i
      · subst e; exact (ho k hk hk).2
      · exact (hrow j (by omega) (by omega)).1 k hk
    have hF : gsoInner s.mu s.r i j (s.gramVal i j) = Rd.of (csum fl (s.g i j) (fun k => Rd.val (s.mu j k)) (fun k => Rd.val (s.r i k)) j) := by
      rw [hgv]
      exact gsoInner_round hmu (fun k hk => (ho k hk (by omega)).1)
    rw [updateGsoLoop]
    dsimp only
    rw [hc, hF]
    generalize csum fl (s.g i j) (fun k => Rd.val (s.mu j k)) (fun k => Rd.val (s.r i k)) j = x
    by_cases hlt : j < i
    · rw [if_pos hlt]
      have hrj : (Mat.set s.r i j (Rd.of x)) j j = s.r j j := by
        rw [Mat.set_apply, if_neg (by omega)]
      rw [hrj]
      obtain ⟨-, hjj, hne'⟩ := hrow j hlt (by omega)
      have hdiv' : FloatOps.div (Rd.of x : Rd fl) (s.r j j) = (Rd.of (fl (x / Rd.val (s.r j j))) : Rd fl) := by
        conv_lhs => rw [hjj]
        change (if Rd.val (s.r j j) = 0 then (none : Option ℚ) else some (fl (x / Rd.val (s.r j j)))) = some (fl (x / Rd.val (s.r j j)))
        rw [if_neg hne']
      rw [hdiv', if_pos (by rfl)]
      refine ih (j + 1) { s with r := Mat.set s.r i j (Rd.of x), mu := Mat.set s.mu i j (Rd.of (fl (x / Rd.val (s.r j j)))) } hG ?_ ?_ (by omega)
      · intro q hq hq2
        have w1 : ∀ k, (Mat.set s.r i j (Rd.of x)) q k = s.r q k := fun k => by rw [Mat.set_apply, if_neg (by omega)]
        have w2 : ∀ k, (Mat.set s.mu i j (Rd.of (fl (x / Rd.val (s.r j j))))) q k = s.mu q k := fun k => by rw [Mat.set_apply, if_neg (by omega)]
        dsimp only
        simp only [w1, w2]
        exact hrow q hq (by omega)
      · intro q hq hq2
        dsimp only
        rw [Mat.set_apply, Mat.set_apply]
        by_cases hqj : q = j
        · rw [if_pos ⟨rfl, hqj⟩, if_pos ⟨rfl, hqj⟩]; exact ⟨rfl, rfl⟩
        · rw [if_neg (by tauto), if_neg (by tauto)]; exact ho q (by omega) hq2
    · rw [if_neg hlt]
      refine ih (j + 1) { s with r := Mat.set s.r i j (Rd.of x) } hG ?_ ?_ (by omega)
      · intro q hq hq2
        have w1 : ∀ k, (Mat.set s.r i j (Rd.of x)) q k = s.r q k := fun k => by rw [Mat.set_apply, if_neg (by omega)]
        dsimp only
        simp only [w1]
        exact hrow q hq (by omega)
      · intro q hq hq2
        have hqj : q ≠ j := by omega
        dsimp only
        rw [Mat.set_apply, if_neg (by tauto)]
        exact ho q (by omega) hq2

theorem updateGsoRow_ok {s : GSO (Rd fl)} (hf : FreshR s) {i l : ℕ} (hik : i ≤ s.nKnownRows) (hl : l ≤ i + 1) (hready : ∀ k < l, k < i → k + 1 ≤ s.gsoValidCols k ∧ Rd.val (s.r k k) ≠ 0) :
    (s.updateGsoRow i l).1 = true := by
  unfold updateGsoRow
  obtain ⟨t, ht⟩ : ∃ t, t = if s.nKnownRows ≤ i then s.discoverRow else s := ⟨_, rfl⟩
  rw [← ht]
  dsimp only
  have ht_f : FreshR t := by
    rw [ht]; split_ifs with h
    · exact discoverRow_freshR hf
    · exact hf
  have ht_k : i < t.nKnownRows := by
    rw [ht]; split_ifs with h
    · change i < s.nKnownRows + 1; omega
    · omega
  have ht_v : ∀ k, k < s.nKnownRows → t.gsoValidCols k = s.gsoValidCols k := by
    intro k hk
    rw [ht]; split_ifs with h
    · change setAt s.gsoValidCols s.nKnownRows 0 k = _
      unfold setAt; rw [if_neg (by omega)]
    · rfl
  have ht_r : t.r = s.r := by rw [ht]; split_ifs <;> rfl
  clear ht
  by_cases hle : l ≤ t.gsoValidCols i
  · have e : l - t.gsoValidCols i = 0 := by omega
    rw [e]; rfl
  refine updateGsoLoop_ok i (l - t.gsoValidCols i) (t.gsoValidCols i) t ht_f.int ?_ ?_ (by omega)
  · intro q hq hq2
    obtain ⟨r1, r2⟩ := hready q (by omega) hq
    have hv : q + 1 ≤ t.gsoValidCols q := by rw [ht_v q (by omega)]; exact r1
    refine ⟨fun k hk => (ht_f.entry q (by omega) k (by omega)).mu_some hk, (ht_f.entry q (by omega) q (by omega)).r_some, ?_⟩
    rw [ht_r]; exact r2
  · intro q hq hq2
    have e := ht_f.entry i ht_k q hq
    exact ⟨e.r_some, e.mu_some hq2⟩

end GSO

namespace LLL

variable {fl : ℚ → ℚ} {sg : Bool}

/-! ### exponents -/

theorem ratExponent_le {q : ℚ} {m : ℤ} (h : |q| < 2 ^ m) (h0 : q = 0 → 0 ≤ m) : ratExponent q ≤ m := by
  unfold ratExponent
  split_ifs with hq
  · exact h0 hq
  · have hq0 : 0 < |q| := abs_pos.2 hq
    have := (Int.lt_zpow_iff_log_lt (b := 2) (by norm_num) hq0).1 (by exact_mod_cast h)
    omega

theorem lt_ratExponent {q : ℚ} : |q| < 2 ^ ratExponent q := by
  unfold ratExponent
  split_ifs with hq
  · rw [hq]; simp
  · have := Int.lt_zpow_succ_log_self (b := 2) (by norm_num) |q|
    exact_mod_cast this

theorem le_maxMuExp (s : GSO (Rd fl)) {i n j : ℕ} (hj : j < n) : exponent (s.mu i j) ≤ maxMuExp s i n := by
  unfold maxMuExp
  exact forUp_inv (P := fun m (e : ℤ) => ∀ j < m, exponent (s.mu i j) ≤ e) (fun j e => max e (exponent (s.mu i j))) (Nat.zero_le n) longMin (by intro j hj; omega)
    (by
      intro m e _ _ h j hj
      by_cases hjm : j = m
      · rw [hjm]; exact le_max_right _ _
      · exact (h j (by omega)).trans (le_max_left _ _)) j hj

theorem maxMuExp_le (s : GSO (Rd fl)) {i n : ℕ} {m : ℤ} (h0 : longMin ≤ m) (h : ∀ j < n, exponent (s.mu i j) ≤ m) : maxMuExp s i n ≤ m := by
  unfold maxMuExp
  exact forUp_inv' (fun e : ℤ => e ≤ m) _ 0 n _ h0 (fun j e _ hj he => max_le he (h j hj))

/-! ### the row of `babai` -/

/-- the data of the error analysis for the tested rows and the next one -/
theorem row_facts {u η δ η' δ' ε ρ : ℚ} (hfl : Chol.RelErr u fl) {s : GSO (Rd fl)} {kappa d : ℕ} (hp : RPar d η δ η' δ' u ε ρ) (hf : FreshR s) (h : RHead sg η δ s kappa) (hk : kappa < s.nKnownRows) (hkd : kappa < d)
    (hv : kappa ≤ s.gsoValidCols kappa) (hind : Indep d s.nCols (bR s)) :
    Chol.Data kappa η' (1 / (δ' - η' ^ 2)) u fl (fun p q => (s.ip p q : ℚ)) (rS s.nCols (bR s)) (muS s.nCols (bR s)) (fun p q => Rd.val (s.r p q)) (fun p q => Rd.val (s.mu p q)) ∧
    Chol.Row kappa fl (fun p q => (s.ip p q : ℚ)) (rS s.nCols (bR s)) (muS s.nCols (bR s)) (fun p q => Rd.val (s.r p q)) (fun p q => Rd.val (s.mu p q)) := by
  obtain ⟨hD, -⟩ := Chol.data_of_comp hp.par hp.rho hp.eta' hp.delta' hkd.le (h.comp hfl hf hk.le hkd.le hind)
  refine ⟨hD, ?_, ?_, ?_, ?_⟩
  · intro q hq
    rw [rS_self]; exact rS_mu _ _ _ _
  · intro q hq
    have hip : (s.ip kappa q : ℚ) = dotQ s.nCols (bR s kappa) (bR s q) := by
      unfold ip dotQ bR; push_cast; rfl
    rw [rS_rec, hip]; ring
  · intro q hq
    conv_lhs => rw [(hf.entry kappa hk q (by omega)).1]
    rfl
  · intro q hq
    conv_lhs => rw [((hf.entry kappa hk q (by omega)).2 hq).1]
    rfl

/-- the precision leaves room between `1/2` and `η` -/
structure Room (d : ℕ) (η u ρ : ℚ) : Prop where
  eta : 1 / 2 + 1024 * Chol.tau d ρ u ≤ η
  small : 16384 * Chol.tau d ρ u ≤ 1

/-- the computed coefficients of the row, and those after a pass -/
theorem row_pass {u η δ η' δ' ε ρ K : ℚ} (hfl : Chol.RelErr u fl) {s : GSO (Rd fl)} {kappa d : ℕ} (hp : RPar d η δ η' δ' u ε ρ) (hroom : Room d η u ρ) (hs : WF s) (hfo : s.forceLong = false) (hf : FreshR s) (h : RHead sg η δ s kappa)
    (hk : kappa < s.nKnownRows) (hkd : kappa < d) (hsrc : kappa ≤ s.nSourceRows) (hv : kappa ≤ s.gsoValidCols kappa) (hind : Indep d s.nCols (bR s)) (hK : 1 ≤ K)
    (hmu : ∀ j < kappa, |muS s.nCols (bR s) kappa j| ≤ K / 2) :
    (∀ j < kappa, |Rd.val (s.mu kappa j) - muS s.nCols (bR s) kappa j| ≤ 10 * Chol.tau d ρ u * K) ∧
    ∀ j < kappa, |muS s.nCols (bR (babaiPass s kappa 0 kappa)) kappa j| ≤ 1 / 2 + 11 * Chol.tau d ρ u * K := by
  obtain ⟨hD, hR⟩ := row_facts hfl hp hf h hk hkd hv hind
  have hρ3 := hp.rho
  have hu := hp.par.u0
  have hη' := hp.eta'
  have hτ0 : 0 ≤ Chol.tau d ρ u := by unfold Chol.tau; positivity
  have hd1 : (1 : ℚ) ≤ d := by exact_mod_cast (by omega : 1 ≤ d)
  have hden := hp.par.den
  have hα : (0 : ℚ) < 1 / (δ' - η' ^ 2) := by positivity
  have big := Chol.big_row hp.par hρ3 hη' hp.delta' hR (by omega) hD (K := K) (by linarith) (fun j hj => (hmu j hj).trans (by
    have := mul_le_mul_of_nonneg_right hη' (by linarith : 0 ≤ K)
    linarith))
  have hEτ : ∀ j < kappa, Chol.bnd d ρ u j ≤ 11 / 3 * Chol.tau d ρ u := fun j hj => Chol.bnd_tau (by linarith) hu (by omega)
  have c1 : ∀ j < kappa, |Rd.val (s.mu kappa j) - muS s.nCols (bR s) kappa j| ≤ 10 * Chol.tau d ρ u * K := by
    intro j hj
    refine (big j hj).2.trans (mul_le_mul_of_nonneg_right ?_ (by linarith))
    have := hEτ j hj
    linarith
  refine ⟨c1, ?_⟩
  have hsm := hroom.small
  have hτK : Chol.tau d ρ u * K ≤ 1 / 16384 * K := mul_le_mul_of_nonneg_right (by linarith) (by linarith)
  have pass := babaiPass_round (E := fun k => Chol.bnd d ρ u k) (K := K) (ρ := ρ) hfl hu hs hfo hk hsrc (by linarith) hρ3
    (fun k hk' => ⟨Chol.eleven_u hd1 hρ3 hu k, (Chol.bnd_le hu (by linarith) hp.par.prec (by omega)).trans (by have := hp.par.eps; linarith)⟩)
    (fun j hj => (hind.pos j (by omega)).ne')
    (fun j hj k hkj => by
      have hvj := h.valid j hj
      refine ⟨(hf.entry j (by omega) k (by omega)).mu_some hkj, ?_, ?_⟩
      · exact Chol.error_mu hD (by omega) hη' hp.par.eta1 hα (by
          rw [one_div, ← div_eq_inv_mul, le_div_iff₀ hden]; have := hp.delta'; linarith) hu hp.par.eps hρ3 (by rw [one_div, ← div_eq_inv_mul]; exact hp.par.growth) hp.par.prec hkj hj
      · refine (h.sr j hj k hkj).trans ?_
        have h1 := hp.par.mar1
        have h2 := hp.par.eta1
        have h3 : 0 ≤ 16 * d * ρ ^ (d - 1) * u := by positivity
        linarith)
    (fun k hk' => by
      refine ⟨(hf.entry kappa hk k (by omega)).mu_some hk', (big k hk').2, ?_⟩
      have := abs_sub_abs_le_abs_sub (Rd.val (s.mu kappa k)) (muS s.nCols (bR s) kappa k)
      have h1 := c1 k hk'
      have h2 := hmu k hk'
      linarith)
  intro j hj
  refine (pass j hj).trans ?_
  have e : 3 * Chol.bnd d ρ u j * K * ρ ^ (kappa - 1 - j) = 11 * (d * ρ ^ kappa * u) * K := by
    have : ρ ^ kappa = ρ ^ (j + 1) * ρ ^ (kappa - 1 - j) := by rw [← pow_add]; congr 1; omega
    rw [this]
    unfold Chol.bnd; ring
  rw [e]
  have h1 : ρ ^ kappa ≤ ρ ^ (d - 1) := pow_le_pow_right₀ (by linarith) (by omega)
  have h2 : d * ρ ^ kappa * u ≤ Chol.tau d ρ u := by unfold Chol.tau; gcongr
  have := mul_le_mul_of_nonneg_right h2 (by linarith : 0 ≤ K)
  linarith

/-- the loop is not needed for a reduced row -/
theorem loopNeeded_false (c : LLLCfg (Rd fl)) (s : GSO (Rd fl)) {kappa : ℕ} {η : ℚ} (hc : c.eta = Rd.of η) (hm : ∀ j < kappa, s.mu kappa j = Rd.of (Rd.val (s.mu kappa j)))
    (h : ∀ j < kappa, |Rd.val (s.mu kappa j)| ≤ η) : loopNeeded c s kappa 0 kappa = false := by
  unfold loopNeeded
  refine forDown_inv' (fun b : Bool => b = false) (fun j need => need || gt (abs (s.mu kappa j)) c.eta) 0 kappa false rfl ?_
  intro j b h1 h2 hb
  have e : (gt (abs (s.mu kappa j)) c.eta : Bool) = decide (η < |Rd.val (s.mu kappa j)|) := by
    conv_lhs => rw [hm j h2, hc]
    rfl
  rw [hb, e]
  simpa using h j h2

/-- the numbers: the coefficients after a pass from coefficients of size `K` -/
theorem room_num {τ K V P : ℚ} (hτ0 : 0 ≤ τ) (hτ : 16384 * τ ≤ 1) (hK : 1 ≤ K) (hV : V ≤ (1 / 2 + 10 * τ) * (1 + 22 * τ * K)) :
    (K ≤ 40 → V ≤ 1 / 2 + 1024 * τ) ∧ (40 < K → K ≤ 9 / 4 * P → V < P / 32) := by
  have h1 : τ * τ ≤ τ * (1 / 16384) := mul_le_mul_of_nonneg_left (by linarith) hτ0
  constructor
  · intro hK4
    have h2 : τ * K ≤ τ * 40 := mul_le_mul_of_nonneg_left hK4 hτ0
    have h3 : (1 / 2 + 10 * τ) * (1 + 22 * τ * K) ≤ (1 / 2 + 10 * τ) * (1 + 22 * (τ * 40)) := mul_le_mul_of_nonneg_left (by linarith) (by linarith)
    have e : (1 / 2 + 10 * τ) * (1 + 22 * (τ * 40)) = 1 / 2 + 450 * τ + 8800 * (τ * τ) := by ring
    linarith
  · intro hK4 hP
    have h2 : τ * K ≤ 1 / 16384 * K := mul_le_mul_of_nonneg_right (by linarith) (by linarith)
    have h3 : (1 / 2 + 10 * τ) * (1 + 22 * τ * K) ≤ (1 / 2 + 10 / 16384) * (1 + 22 * τ * K) := mul_le_mul_of_nonneg_right (by linarith) (by positivity)
    linarith

theorem babaiLoop_ok (c : LLLCfg (Rd fl)) {u η δ η' δ' ε ρ K0 : ℚ} (hc : c.eta = Rd.of η) (hfl : Chol.RelErr u fl) {kappa d : ℕ} (hp : RPar d η δ η' δ' u ε ρ) (hroom : Room d η u ρ) (hkd : kappa < d)
    {L : ℤ} (hK0 : 2 ≤ K0) (hK1 : K0 ≤ 2 ^ L) (fuel iter : ℕ) (e : ℤ) (s : GSO (Rd fl)) (hsd : s.d = d) (hfo : s.forceLong = false) (h : BabaiPre s kappa kappa) (hf : FreshR s) (hh : RHead sg η δ s kappa) (hind : Indep d s.nCols (bR s))
    (hi : iter < 2 → e = L ∧ ∀ j < kappa, |muS s.nCols (bR s) kappa j| ≤ K0 / 2)
    (hi2 : 2 ≤ iter → ∃ K, 1 ≤ K ∧ (K ≤ 40 ∨ K ≤ 9 / 4 * 2 ^ e) ∧ ∀ j < kappa, |muS s.nCols (bR s) kappa j| ≤ 1 / 2 + 11 * Chol.tau d ρ u * K) :
    (babaiLoop c kappa kappa 0 fuel iter e s).1 = .success ∨ (babaiLoop c kappa kappa 0 fuel iter e s).1 = .outOfFuel := by
  induction fuel generalizing iter e s with
  | zero => right; rfl
  | succ fuel ih =>
    have hknown := h.known
    have hso := hh.sound hfl hp hf hknown hkd.le hind
    have hP1 := updateGsoRow_ok hf (i := kappa) (l := kappa) h.known (by omega) (fun k h1 _ => ⟨hh.valid k h1, (hso.2 k h1).ne'⟩)
    have hu := updateGsoRow_freshR h.wf hf h.lt h.known (l := kappa) (by omega) (fun k h1 _ => hh.valid k h1) hP1
    have r1 := updateGsoRow_res (l := kappa) h.wf h.lt h.known
    have hb1 := updateGsoRow_b s kappa kappa
    rw [babaiLoop]
    dsimp only
    have hsrc := h.source
    have hkn : kappa < (s.updateGsoRow kappa kappa).2.nKnownRows := by rw [r1.known]; omega
    have hsr : kappa ≤ (s.updateGsoRow kappa kappa).2.nSourceRows := by rw [r1.source]; split_ifs <;> omega
    have hd1 : (s.updateGsoRow kappa kappa).2.d = s.d := r1.good.cfg.d
    have hn1 : (s.updateGsoRow kappa kappa).2.nCols = s.nCols := r1.good.cfg.nCols
    generalize s.updateGsoRow kappa kappa = P at *
    rw [if_neg (by simpa using hP1)]
    obtain ⟨a1, a2, a3, a4⟩ := hu
    have hbR : bR P.2 = bR s := by unfold bR; rw [hb1]
    have hhP : RHead sg η δ P.2 kappa := hh.congr hn1 (fun k _ => by rw [hb1]) (fun k hk => (a4 k (by omega)).1) (fun k hk q _ => by rw [(a4 k (by omega)).2]) (fun k hk => (a3 k (by omega) (by omega)).ge)
    have hindP : Indep d P.2.nCols (bR P.2) := by rw [hn1, hbR]; exact hind
    have hmuP : ∀ j < kappa, P.2.mu kappa j = Rd.of (Rd.val (P.2.mu kappa j)) := fun j hj => (a1.entry kappa hkn j (by omega)).mu_some hj
    by_cases hl : loopNeeded c P.2 kappa 0 kappa = false
    · rw [if_pos (by simpa using hl)]; exact .inl rfl
    rw [if_neg (by simpa using hl)]
    -- the size of the row
    obtain ⟨K, hK, hKle, hKat⟩ : ∃ K : ℚ, 1 ≤ K ∧ (∀ j < kappa, |muS s.nCols (bR s) kappa j| ≤ K / 2) ∧ (K = 1 ∨ ∃ j < kappa, |muS s.nCols (bR s) kappa j| = K / 2) := by
      have : ∀ m ≤ kappa, ∃ K : ℚ, 1 ≤ K ∧ (∀ j < m, |muS s.nCols (bR s) kappa j| ≤ K / 2) ∧ (K = 1 ∨ ∃ j < kappa, |muS s.nCols (bR s) kappa j| = K / 2) := by
        intro m
        induction m with
        | zero => intro _; exact ⟨1, le_rfl, fun j hj => by omega, .inl rfl⟩
        | succ m ihm =>
          intro hm
          obtain ⟨K, k1, k2, k3⟩ := ihm (by omega)
          by_cases hlt : |muS s.nCols (bR s) kappa m| ≤ K / 2
          · refine ⟨K, k1, fun j hj => ?_, k3⟩
            by_cases hjm : j = m
            · rw [hjm]; exact hlt
            · exact k2 j (by omega)
          · push Not at hlt
            refine ⟨2 * |muS s.nCols (bR s) kappa m|, by linarith, fun j hj => ?_, .inr ⟨m, by omega, by ring⟩⟩
            by_cases hjm : j = m
            · rw [hjm]; linarith
            · have := k2 j (by omega); linarith
      exact this kappa le_rfl
    have hτ0 : 0 ≤ Chol.tau d ρ u := by have := hp.par.u0; have := hp.rho; unfold Chol.tau; positivity
    have hτ := hroom.small
    obtain ⟨p1, p2⟩ := row_pass hfl hp hroom r1.good.wf (r1.good.cfg.forceLong.trans hfo) a1 hhP hkn hkd hsr a2 hindP hK (by rw [hn1, hbR]; exact hKle)
    rw [hbR, hn1] at p1
    obtain ⟨g2, d2⟩ := babaiPass_good (start := 0) r1.good.wf hkn hsr le_rfl
    obtain ⟨b1, b2, b3, b4⟩ := babaiPass_keep (start := 0) r1.good.wf a1.int hkn hsr le_rfl
    have f2 := a1.change (m := kappa) g2.cfg.intGram d2.known g2.cfg.nCols b1 b2 b3 b4
    have pre2 : BabaiPre (babaiPass P.2 kappa 0 kappa) kappa kappa := ⟨g2.wf, by rw [g2.cfg.d, hd1]; exact h.lt, by rw [d2.known]; omega, le_rfl, by rw [d2.source]; exact hsr⟩
    have hh2 : RHead sg η δ (babaiPass P.2 kappa 0 kappa) kappa := hhP.congr g2.cfg.nCols (fun k hk => b3 k (by omega)) (fun k hk => by rw [b1]) (fun k hk q _ => by rw [b2]) (fun k hk => by
      rw [b4 k (by omega), if_neg (by omega), if_neg (by omega)])
    have hind2 : Indep d (babaiPass P.2 kappa 0 kappa).nCols (bR (babaiPass P.2 kappa 0 kappa)) := by
      have := indep_of_good g2 (by rw [hd1, hsd]; exact hindP)
      rwa [hd1, hsd] at this
    have hn2 : (babaiPass P.2 kappa 0 kappa).nCols = s.nCols := g2.cfg.nCols.trans hn1
    rw [hn1] at p2
    -- a row with a large coefficient
    have hlarge : ¬ (∀ j < kappa, |Rd.val (P.2.mu kappa j)| ≤ η) := fun hall => hl (loopNeeded_false c P.2 hc hmuP hall)
    by_cases hi3 : 2 ≤ iter
    · rw [if_pos hi3]
      obtain ⟨Kp, q1, q2, q3⟩ := hi2 hi3
      have hKp : 1 ≤ 1 + 22 * Chol.tau d ρ u * Kp := by
        have : 0 ≤ Chol.tau d ρ u * Kp := mul_nonneg hτ0 (by linarith)
        linarith
      have hV : ∀ j < kappa, |Rd.val (P.2.mu kappa j)| ≤ (1 / 2 + 10 * Chol.tau d ρ u) * (1 + 22 * Chol.tau d ρ u * Kp) := by
        have w := (row_pass hfl hp hroom r1.good.wf (r1.good.cfg.forceLong.trans hfo) a1 hhP hkn hkd hsr a2 hindP hKp (by
          rw [hn1, hbR]
          intro j hj
          have := q3 j hj
          linarith)).1
        rw [hbR, hn1] at w
        intro j hj
        have h1 := w j hj
        have h2 := q3 j hj
        have h3 := abs_sub_abs_le_abs_sub (Rd.val (P.2.mu kappa j)) (muS s.nCols (bR s) kappa j)
        generalize Chol.tau d ρ u = τ at *
        linarith
      have hK40 : 40 < Kp := by
        by_contra hcon
        push Not at hcon
        refine hlarge fun j hj => ?_
        exact ((room_num (P := 0) hτ0 hτ q1 (hV j hj)).1 hcon).trans hroom.eta
      have hKe : Kp ≤ 9 / 4 * 2 ^ e := by
        rcases q2 with h1 | h1
        · linarith
        · exact h1
      have h32 : (2 : ℚ) ^ e / 32 = 2 ^ (e - 5) := by
        rw [zpow_sub₀ (by norm_num)]; norm_num
      have hV2 : ∀ j < kappa, |Rd.val (P.2.mu kappa j)| < 2 ^ (e - 5) := by
        intro j hj
        rw [← h32]
        exact (room_num hτ0 hτ q1 (hV j hj)).2 hK40 hKe
      have he5 : 0 ≤ e - 5 := by
        by_contra hcon
        push Not at hcon
        refine hlarge fun j hj => (hV2 j hj).le.trans ?_
        have h1 : (2 : ℚ) ^ (e - 5) ≤ 2 ^ (-1 : ℤ) := zpow_le_zpow_right₀ (by norm_num) (by omega)
        have h2 := hroom.eta
        have h3 : (2 : ℚ) ^ (-1 : ℤ) = 1 / 2 := by norm_num
        rw [h3] at h1
        linarith
      have hexp : ∀ j < kappa, exponent (P.2.mu kappa j) = ratExponent (Rd.val (P.2.mu kappa j)) := by
        intro j hj
        conv_lhs => rw [hmuP j hj]
        rfl
      have hnew : maxMuExp P.2 kappa kappa ≤ e - 5 := by
        refine maxMuExp_le P.2 (by unfold longMin; omega) fun j hj => ?_
        rw [hexp j hj]
        exact ratExponent_le (hV2 j hj) (fun _ => he5)
      rw [if_neg (by unfold sizeRedFailureThresh; omega)]
      refine ih (iter + 1) _ _ (by rw [g2.cfg.d, hd1]; exact hsd) (g2.cfg.forceLong.trans (r1.good.cfg.forceLong.trans hfo)) pre2 f2 hh2 hind2 (fun hcon => by omega) (fun _ => ⟨K, hK, ?_, ?_⟩)
      · rcases hKat with h1 | ⟨j, hj, h1⟩
        · left; linarith
        · right
          have h2 := p1 j hj
          have h3 := abs_sub_abs_le_abs_sub (muS s.nCols (bR s) kappa j) (Rd.val (P.2.mu kappa j))
          rw [abs_sub_comm] at h3
          have h4 : |Rd.val (P.2.mu kappa j)| < 2 ^ maxMuExp P.2 kappa kappa := by
            refine lt_of_lt_of_le lt_ratExponent (zpow_le_zpow_right₀ (by norm_num) ?_)
            rw [← hexp j hj]
            exact le_maxMuExp P.2 hj
          have h5 : Chol.tau d ρ u * K ≤ 1 / 16384 * K := mul_le_mul_of_nonneg_right (by linarith) (by linarith)
          linarith
      · rw [hn2]; exact p2
    · rw [if_neg hi3]
      obtain ⟨i1, i2⟩ := hi (by omega)
      have hKK : K ≤ K0 := by
        rcases hKat with h1 | ⟨j, hj, h1⟩
        · linarith
        · have := i2 j hj
          linarith
      refine ih (iter + 1) _ _ (by rw [g2.cfg.d, hd1]; exact hsd) (g2.cfg.forceLong.trans (r1.good.cfg.forceLong.trans hfo)) pre2 f2 hh2 hind2 (fun _ => ⟨i1, ?_⟩) (fun _ => ⟨K, hK, .inr ?_, ?_⟩)
      · rw [hn2]
        intro j hj
        refine (p2 j hj).trans ?_
        have h5 : Chol.tau d ρ u * K ≤ 1 / 16384 * K := mul_le_mul_of_nonneg_right (by linarith) (by linarith)
        linarith
      · rw [i1]
        linarith
      · rw [hn2]; exact p2

end LLL
end Fplll

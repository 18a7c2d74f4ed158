import Verif.Proofs.BabaiOk
import Verif.Proofs.LLLCount

/-!
# LLL with rounding succeeds

The number of iterations is bounded as in exact arithmetic: a row that fails the computed Lovász test fails the exact one for a slightly larger `δ`.
-/

open Finset

namespace Fplll

namespace Spec

theorem projSq_zero (n : ℕ) (B : ℕ → ℕ → ℚ) (i : ℕ) : projSq n B i 0 = dotQ n (B i) (B i) := by
  unfold projSq; simp

theorem projSq_anti (n : ℕ) (B : ℕ → ℕ → ℚ) (i : ℕ) {k l : ℕ} (h : k ≤ l) : projSq n B i l ≤ projSq n B i k := by
  induction l, h using Nat.le_induction with
  | base => exact le_rfl
  | succ l _ ih =>
    have := projSq_succ' n B i l
    have h0 := mul_nonneg (sq_nonneg (muS n B i l)) (normStar_nonneg n B l)
    linarith

theorem normStar_le_dot (n : ℕ) (B : ℕ → ℕ → ℚ) (i : ℕ) : normStar n B i ≤ dotQ n (B i) (B i) := by
  rw [← projSq_self, ← projSq_zero]
  exact projSq_anti n B i (Nat.zero_le i)

theorem projSq_sum (n : ℕ) (B : ℕ → ℕ → ℚ) (i : ℕ) {k : ℕ} (h : k ≤ i) : projSq n B i k = normStar n B i + ∑ l ∈ Ico k i, muS n B i l ^ 2 * normStar n B l := by
  rw [← projSq_self]
  induction h using Nat.decreasingInduction with
  | self => simp
  | of_succ k hk ih => rw [projSq_succ', ih, sum_eq_sum_Ico_succ_bot hk]; ring

/-- the squared lengths after row `i` is moved up to position `k` -/
theorem normStar_move {d n k i : ℕ} {b b' : ℕ → ℕ → ℤ} (hki : k ≤ i) (hi : i < d) (hpre : ∀ j, j ≤ k ∨ i + 1 ≤ j → PreEq n j b b')
    (hlt : ∀ j < k, b' j = b j) (hk : b' k = b i) (hsh : ∀ j, k < j → j ≤ i → b' j = b (j - 1)) {B : ℚ} (hB : ∀ j < d, normStar n (toQ b) j ≤ B) (hp : projSq n (toQ b) i k ≤ B) :
    ∀ j < d, normStar n (toQ b') j ≤ B := by
  intro j hj
  rcases Nat.lt_or_ge j k with h | h
  · rw [← normStar_pre (hpre j (by omega)) (hpre (j + 1) (by omega))]
    exact hB j hj
  rcases Nat.lt_or_ge i j with h2 | h2
  · rw [← normStar_pre (hpre j (by omega)) (hpre (j + 1) (by omega))]
    exact hB j hj
  rcases Nat.eq_or_lt_of_le h with h3 | h3
  · subst h3
    rw [normStar_insert (B := toQ b) (i := i) (fun l hl c _ => by unfold toQ; rw [hlt l hl]) (fun c _ => by unfold toQ; rw [hk])]
    exact hp
  · -- the rows before `j` are those before `j - 1` and row `i`
    let c : ℕ → ℕ → ℤ := fun l => if l = j - 1 then b i else if l = j then b (j - 1) else b l
    have hcj : c j = b (j - 1) := by simp only [c]; rw [if_neg (by omega), if_pos trivial]
    have hci : c (j - 1) = b i := by simp only [c]; rw [if_pos trivial]
    have hcl : ∀ l < j - 1, c l = b l := fun l hl => by simp only [c]; rw [if_neg (by omega), if_neg (by omega)]
    have rows : ∀ m, j ≤ m → m ≤ j + 1 → PreEq n m b' c := by
      intro m hm1 hm2
      refine preEq_of_rows ?_ ?_
      · intro l hl
        rcases Nat.lt_or_ge l (j - 1) with hl2 | hl2
        · rw [hcl l hl2]
          by_cases hlk : l < k
          · rw [← hlt l hlk]; exact InPre.row (by omega)
          · have e := hsh (l + 1) (by omega) (by omega)
            rw [Nat.add_sub_cancel] at e
            rw [← e]; exact InPre.row (by omega)
        · by_cases hl3 : l = j - 1
          · rw [hl3, hci, ← hk]; exact InPre.row (by omega)
          · have : l = j := by omega
            rw [this, hcj, ← hsh j h3 h2]
            exact InPre.row (by omega)
      · intro l hl
        rcases Nat.lt_or_ge l k with hl2 | hl2
        · rw [hlt l hl2, ← hcl l (by omega)]; exact InPre.row (by omega)
        rcases Nat.eq_or_lt_of_le hl2 with hl3 | hl3
        · rw [← hl3, hk, ← hci]; exact InPre.row (by omega)
        · rw [hsh l hl3 (by omega)]
          by_cases hlj : l = j
          · rw [hlj, ← hcj]; exact InPre.row (by omega)
          · rw [← hcl (l - 1) (by omega)]; exact InPre.row (by omega)
    rw [normStar_pre (rows j le_rfl (by omega)) (rows (j + 1) (by omega) le_rfl), ← projSq_self]
    refine (projSq_anti n (toQ c) j (by omega : j - 1 ≤ j)).trans ?_
    rw [← normStar_insert (n := n) (B := toQ c) (B' := toQ b) (i := j) (k := j - 1) (fun l hl _ _ => by unfold toQ; rw [hcl l hl]) (fun _ _ => by unfold toQ; rw [hcj])]
    exact hB (j - 1) (by omega)

end Spec

open FloatOps GSO Spec BKZ

namespace LLL

variable {fl : ℚ → ℚ} {sg : Bool}

/-- bounds for the basis during LLL -/
structure Size (B : ℚ) (d : ℕ) (s : GSO (Rd fl)) : Prop where
  star : ∀ j < d, normStar s.nCols (bR s) j ≤ B
  rows : ∀ j < d, dotQ s.nCols (bR s j) (bR s j) ≤ d * B

theorem one_le_normStar0 {d : ℕ} (hd : 0 < d) {s : GSO (Rd fl)} (hind : Indep d s.nCols (bR s)) : 1 ≤ normStar s.nCols (bR s) 0 := by
  have h := hind.pos 0 hd
  have e : normStar s.nCols (bR s) 0 = ((s.ip 0 0 : ℤ) : ℚ) := by
    rw [← projSq_self, projSq_zero]
    unfold ip dotQ bR; push_cast; rfl
  rw [e] at h ⊢
  have : 0 < s.ip 0 0 := by exact_mod_cast h
  exact_mod_cast this

/-- the coefficients of the next row -/
theorem mu_bound {u η δ η' δ' ε ρ B K0 : ℚ} (hfl : Chol.RelErr u fl) {s : GSO (Rd fl)} {kappa d : ℕ} (hp : RPar d η δ η' δ' u ε ρ) (hf : FreshR s) (h : RHead sg η δ s kappa) (hk : kappa ≤ s.nKnownRows) (hkd : kappa < d)
    (hind : Indep d s.nCols (bR s)) (hz : Size B d s) (hK0 : 0 ≤ K0) (hK : 4 * (d * B * ρ ^ (d - 1)) ≤ K0 ^ 2) : ∀ j < kappa, |muS s.nCols (bR s) kappa j| ≤ K0 / 2 := by
  obtain ⟨hD, -⟩ := Chol.data_of_comp hp.par hp.rho hp.eta' hp.delta' hkd.le (h.comp hfl hf hk hkd.le hind)
  have hden := hp.par.den
  have hρ := hp.rho
  have hα : (0 : ℚ) < 1 / (δ' - η' ^ 2) := by positivity
  have hαρ : 1 / (δ' - η' ^ 2) ≤ ρ := by
    refine le_trans ?_ hp.par.growth
    gcongr
    have := hp.par.eps0 (by linarith)
    have := hp.eta'
    nlinarith
  intro j hj
  have g := hD.grow hα.le (Nat.zero_le j) hj
  rw [rS_self, rS_self, Nat.sub_zero] at g
  have h1 := one_le_normStar0 (by omega : 0 < d) hind
  have hj0 := hind.pos j (by omega)
  have h2 : muS s.nCols (bR s) kappa j ^ 2 * normStar s.nCols (bR s) j ≤ d * B := by
    have e := projSq_succ' s.nCols (bR s) kappa j
    have h3 := projSq_nonneg s.nCols (bR s) kappa (j + 1)
    have h4 := projSq_anti s.nCols (bR s) kappa (Nat.zero_le j)
    rw [projSq_zero] at h4
    have h5 := hz.rows kappa hkd
    linarith
  have h3 : (1 / (δ' - η' ^ 2)) ^ j ≤ ρ ^ (d - 1) := (pow_le_pow_left₀ hα.le hαρ j).trans (pow_le_pow_right₀ (by linarith) (by omega))
  have h4 : 1 ≤ ρ ^ (d - 1) * normStar s.nCols (bR s) j := h1.trans (g.trans (mul_le_mul_of_nonneg_right h3 hj0.le))
  have h5 : muS s.nCols (bR s) kappa j ^ 2 ≤ d * B * ρ ^ (d - 1) := by
    have a1 := mul_le_mul_of_nonneg_left h4 (sq_nonneg (muS s.nCols (bR s) kappa j))
    have hρ0 : 0 ≤ ρ ^ (d - 1) := by positivity
    have a2 := mul_le_mul_of_nonneg_right h2 hρ0
    have e : muS s.nCols (bR s) kappa j ^ 2 * (ρ ^ (d - 1) * normStar s.nCols (bR s) j) = muS s.nCols (bR s) kappa j ^ 2 * normStar s.nCols (bR s) j * ρ ^ (d - 1) := by ring
    linarith
  refine abs_le_of_sq_le_sq ?_ (by linarith)
  have : (K0 / 2) ^ 2 = K0 ^ 2 / 4 := by ring
  linarith

theorem insertIdx_all_round (c : LLLCfg (Rd fl)) {η δ : ℚ} (hc : RCfg sg c η δ) {s : GSO (Rd fl)} {lov : ℕ → Rd fl} {kappa : ℕ} {p r : ℕ → ℚ} (hl : ∀ i ≤ kappa, lov i = Rd.of (p i))
    (hr : ∀ k < kappa, s.r k k = Rd.of (r k)) (k : ℕ) (hk : k ≤ kappa) : ∀ i, insertIdx c s lov 0 k ≤ i → i < k → p (Chol.tix sg i) ≤ fl (r i * Chol.thr sg η δ) := by
  induction k with
  | zero => intro i _ h; omega
  | succ k ih =>
    simp only [insertIdx]
    rw [if_pos (by omega)]
    rw [hr k (by omega), hc.thr, hc.test k, hl _ (by have := tix_le sg k; omega)]
    have e : (lt (mul (Rd.of (r k)) (Rd.of (Chol.thr sg η δ))) (Rd.of (p (Chol.tix sg k))) : Bool) = decide (fl (r k * Chol.thr sg η δ) < p (Chol.tix sg k)) := rfl
    rw [e]
    split_ifs with h
    · intro i h2 h3; omega
    · intro i h2 h3
      by_cases hik : i = k
      · subst hik; simpa using h
      · exact ih (by omega) i h2 (by omega)

/-- the cases of one iteration -/
theorem lovaszStep_cases (c : LLLCfg (Rd fl)) {η δ : ℚ} (hc : RCfg sg c η δ) {st : LLLState (Rd fl)} (hwf : WF st.s) (hf : FreshR st.s) (h1 : 1 ≤ st.kappa) (hk : st.kappa < st.s.nKnownRows)
    (hv : st.kappa ≤ st.s.gsoValidCols st.kappa) (hvv : ∀ k < st.kappa, k + 1 ≤ st.s.gsoValidCols k) (d : ℕ) :
    ((lovaszStep c 0 d st).kappa = st.kappa + 1 ∧ (lovaszStep c 0 d st).s.b = st.s.b ∧ (lovaszStep c 0 d st).s.nCols = st.s.nCols) ∨
    (∃ k < st.kappa, (lovaszStep c 0 d st).kappa = k + 1 ∧ (lovaszStep c 0 d st).s.b = (st.s.moveRow st.kappa k).b ∧ (lovaszStep c 0 d st).s.nCols = st.s.nCols ∧
      ∀ j, k ≤ j → j < st.kappa → csum fl (st.s.ip st.kappa st.kappa) (fun l => Rd.val (st.s.mu st.kappa l)) (fun l => Rd.val (st.s.r st.kappa l)) (Chol.tix sg j) ≤ fl (Rd.val (st.s.r j j) * Chol.thr sg η δ)) ∨
    (lovaszStep c 0 d st).zeros = st.zeros + 1 := by
  unfold lovaszStep
  dsimp only
  have hcg : st.s.cacheGram st.kappa st.kappa = st.s := by
    have e : (st.s.cacheGram st.kappa st.kappa).gf = st.s.gf := by
      unfold cacheGram
      dsimp only
      rw [if_neg (by rw [hf.int]; simp)]
    have e2 : st.s.cacheGram st.kappa st.kappa = { st.s with gf := (st.s.cacheGram st.kappa st.kappa).gf } := rfl
    rw [e2, e]
  rw [hcg]
  generalize st.s = s at *
  have hgv : s.gramVal st.kappa st.kappa = Rd.of (fl (s.ip st.kappa st.kappa)) := by
    unfold gramVal
    have := hwf.gram hf.int st.kappa hk st.kappa hk
    rw [symGet_of_le _ le_rfl] at this
    rw [if_pos hf.int, this]
    rfl
  have hmu : ∀ j < st.kappa, s.mu st.kappa j = Rd.of (Rd.val (s.mu st.kappa j)) := fun j hj => (hf.entry st.kappa hk j (by omega)).mu_some hj
  have hr : ∀ j < st.kappa, s.r st.kappa j = Rd.of (Rd.val (s.r st.kappa j)) := fun j hj => (hf.entry st.kappa hk j (by omega)).r_some
  have hrd : ∀ k < st.kappa, s.r k k = Rd.of (Rd.val (s.r k k)) := fun k hk' => (hf.entry k (by omega) k (by have := hvv k hk'; omega)).r_some
  have hlov := lovaszTests_round hgv hmu hr
  have hins := insertIdx_round c hc hlov hrd (st.kappa - 1) (by omega)
  have hall := insertIdx_all_round c hc hlov hrd (st.kappa - 1) (by omega)
  dsimp only at hins
  generalize insertIdx c s (lovaszTests s st.kappa) 0 (st.kappa - 1) = k at *
  obtain ⟨hk2, hk3⟩ := hins
  have hti : testIdx c st.kappa = Chol.tix sg (st.kappa - 1) := by rw [← hc.test]; congr 1; omega
  have htl : Chol.tix sg (st.kappa - 1) ≤ st.kappa := by have := tix_le sg (st.kappa - 1); omega
  rw [hc.thr, hti, hlov _ htl, hlov k (by omega), hlov st.kappa le_rfl, hrd (st.kappa - 1) (by omega)]
  set X := csum fl (s.ip st.kappa st.kappa) (fun j => Rd.val (s.mu st.kappa j)) (fun j => Rd.val (s.r st.kappa j)) with hX
  have e1 : (gt (mul (Rd.of (Rd.val (s.r (st.kappa - 1) (st.kappa - 1)))) (Rd.of (Chol.thr sg η δ))) (Rd.of (X (Chol.tix sg (st.kappa - 1)))) : Bool) =
      decide (X (Chol.tix sg (st.kappa - 1)) < fl (Rd.val (s.r (st.kappa - 1) (st.kappa - 1)) * Chol.thr sg η δ)) := rfl
  rw [e1]
  by_cases hA : X (Chol.tix sg (st.kappa - 1)) < fl (Rd.val (s.r (st.kappa - 1) (st.kappa - 1)) * Chol.thr sg η δ)
  · rw [if_pos (by simpa using hA)]
    split_ifs with hB
    · refine .inr (.inl ⟨k, by omega, rfl, rfl, moveRow_nCols s st.kappa k, ?_⟩)
      intro j hj1 hj2
      by_cases hjk : j < st.kappa - 1
      · exact hall j hj1 hjk
      · have : j = st.kappa - 1 := by omega
        rw [this]; exact hA.le
    · exact .inr (.inr rfl)
  · rw [if_neg (by simpa using hA)]
    exact .inl ⟨rfl, rfl, rfl⟩

/-- one iteration lowers the potential and keeps the bounds -/
theorem lovaszStep_ok (c : LLLCfg (Rd fl)) {u η δ η' δ' ε ρ B : ℚ} (hc : RCfg sg c η δ) (hfl : Chol.RelErr u fl) {d : ℕ} (hp : RPar d η δ η' δ' u ε ρ) (hη1 : η' ≤ 1) (hδ1 : δ + 16 * Chol.tau d ρ u ≤ 1)
    {st : LLLState (Rd fl)} (hwf : WF st.s) (hf : FreshR st.s) (h1 : 1 ≤ st.kappa) (hk : st.kappa < st.s.nKnownRows) (hlt : st.kappa < d)
    (hv : st.kappa ≤ st.s.gsoValidCols st.kappa) (hsr : ∀ j < st.kappa, |Rd.val (st.s.mu st.kappa j)| ≤ η) (hh : RHead sg η δ st.s st.kappa) (hind : Indep d st.s.nCols (bR st.s))
    (hB : ∀ j < d, normStar st.s.nCols (bR st.s) j ≤ B) (hrows : ∀ j < d, j ≠ st.kappa → dotQ st.s.nCols (bR st.s j) (bR st.s j) ≤ d * B) (hz : (lovaszStep c 0 d st).zeros = st.zeros) :
    (lovaszStep c 0 d st).s.nCols = st.s.nCols ∧ Size B d (lovaszStep c 0 d st).s ∧
    ∃ j ≤ st.kappa, (lovaszStep c 0 d st).kappa + j = st.kappa + 1 ∧
      ((potential (d - 1) st.s.nCols (lovaszStep c 0 d st).s.b : ℤ) : ℚ) ≤ (δ + 16 * Chol.tau d ρ u) ^ j * ((potential (d - 1) st.s.nCols st.s.b : ℤ) : ℚ) := by
  obtain ⟨hD, hR⟩ := row_facts hfl hp hf hh hk hlt hv hind
  have hmu := fun j hj => (Chol.row_small hp.par hp.rho hp.eta' hp.delta' hR hsr (by omega) hD j hj).2
  have hrow : dotQ st.s.nCols (bR st.s st.kappa) (bR st.s st.kappa) ≤ d * B := by
    rw [← projSq_zero, projSq_sum _ _ _ (Nat.zero_le _)]
    have h2 : ∑ l ∈ Ico 0 st.kappa, muS st.s.nCols (bR st.s) st.kappa l ^ 2 * normStar st.s.nCols (bR st.s) l ≤ ∑ l ∈ Ico 0 st.kappa, B := by
      refine sum_le_sum fun l hl => ?_
      rw [mem_Ico] at hl
      have a1 := hB l (by omega)
      have a2 := normStar_nonneg st.s.nCols (bR st.s) l
      have a3 : muS st.s.nCols (bR st.s) st.kappa l ^ 2 ≤ 1 := by
        rw [sq_le_one_iff_abs_le_one]; exact (hmu l hl.2).trans hη1
      calc _ ≤ 1 * normStar st.s.nCols (bR st.s) l := mul_le_mul_of_nonneg_right a3 a2
        _ ≤ B := by rw [one_mul]; exact a1
    rw [sum_const, Nat.card_Ico, nsmul_eq_mul, Nat.sub_zero] at h2
    have h3 := hB st.kappa hlt
    have h4 : (0 : ℚ) ≤ B := (normStar_nonneg _ _ _).trans h3
    have h5 : ((st.kappa : ℚ) + 1) ≤ d := by exact_mod_cast hlt
    nlinarith
  have hall : ∀ j < d, dotQ st.s.nCols (bR st.s j) (bR st.s j) ≤ d * B := fun j hj => by
    by_cases h : j = st.kappa
    · rw [h]; exact hrow
    · exact hrows j hj h
  rcases lovaszStep_cases c hc hwf hf h1 hk hv hh.valid d with ⟨e1, e2, e3⟩ | ⟨k, hko, e1, e2, e3, e4⟩ | e
  · refine ⟨e3, ⟨?_, ?_⟩, 0, by omega, by omega, ?_⟩
    · unfold bR; rw [e2, e3]; exact hB
    · unfold bR; rw [e2, e3]; exact hall
    · rw [e2, pow_zero, one_mul]
  · have htest : ∀ j, k ≤ j → j < st.kappa → projSq st.s.nCols (toQ st.s.b) st.kappa j ≤ (δ + 16 * Chol.tau d ρ u) * normStar st.s.nCols (toQ st.s.b) j := by
      intro j hj1 hj2
      have := Chol.lov_up hp.par hp.rho hp.eta' hp.delta' hR hsr (by omega) hD (by rw [rS_self]; exact hind.pos _ hlt) hj2 (e4 j hj1 hj2)
      rw [rS_self, rS_self] at this
      rw [projSq_sum _ _ _ hj2.le]
      refine le_trans (le_of_eq ?_) this
      congr 1
      exact sum_congr rfl fun l _ => by rw [rS_self]; rfl
    have sb := moveRow_sameBlock st.s st.s.nCols (k := k) (d := st.kappa + 1 - k) (o := st.kappa) (n := k) (by omega) (by omega)
    have hpre : ∀ j, j ≤ k ∨ st.kappa + 1 ≤ j → PreEq st.s.nCols j st.s.b (st.s.moveRow st.kappa k).b := fun j hj => sb.preEq (by omega)
    have hb : ∀ j, (st.s.moveRow st.kappa k).b j =
        if k < j ∧ j ≤ st.kappa then st.s.b (j - 1) else if j = k then st.s.b st.kappa else st.s.b j := fun j => by
      unfold moveRow; rw [if_pos hko]; exact rotateRightBySwap_apply st.s.b k st.kappa j hko.le
    have b1 : ∀ j < k, (st.s.moveRow st.kappa k).b j = st.s.b j := by
      intro j hj; rw [hb, if_neg (by omega), if_neg (by omega)]
    have b2 : (st.s.moveRow st.kappa k).b k = st.s.b st.kappa := by rw [hb, if_neg (by omega), if_pos rfl]
    have b3 : ∀ j, k < j → j ≤ st.kappa → (st.s.moveRow st.kappa k).b j = st.s.b (j - 1) := by
      intro j hj1 hj2; rw [hb, if_pos (by omega)]
    refine ⟨e3, ⟨?_, ?_⟩, st.kappa - k, by omega, by omega, ?_⟩
    · have e : bR (lovaszStep c 0 d st).s = toQ (st.s.moveRow st.kappa k).b := by unfold bR toQ; rw [e2]
      rw [e3, e]
      refine normStar_move hko.le hlt hpre b1 b2 b3 hB ?_
      refine (htest k le_rfl hko).trans ?_
      have h3 := hB k (by omega)
      have h4 : 0 ≤ normStar st.s.nCols (toQ st.s.b) k := normStar_nonneg _ _ _
      have h5 : normStar st.s.nCols (toQ st.s.b) k ≤ B := h3
      nlinarith
    · intro j hj
      have e : bR (lovaszStep c 0 d st).s j = fun c => (((st.s.moveRow st.kappa k).b j c : ℤ) : ℚ) := by unfold bR; rw [e2]
      rw [e3, e, hb]
      split_ifs
      · exact hall (j - 1) (by omega)
      · exact hall st.kappa hlt
      · exact hall j hj
    · rw [e2]
      exact potential_insert hlt hind hpre b1 b2 b3 htest
  · omega

theorem mainLoop_ok (c : LLLCfg (Rd fl)) {u η δ η' δ' ε ρ B K0 : ℚ} (hc : RCfg sg c η δ) (hfl : Chol.RelErr u fl) {s0 : GSO (Rd fl)} (hp : RPar s0.d η δ η' δ' u ε ρ) (hroom : Room s0.d η u ρ) (hη1 : η' ≤ 1)
    (hδ0 : 0 < δ) (hτ : 0 ≤ Chol.tau s0.d ρ u) (hδ1 : δ + 16 * Chol.tau s0.d ρ u ≤ 1) (hind : Indep s0.d s0.nCols (bR s0)) (hfo : s0.forceLong = false) {fuel : ℕ} (hfuel : babaiFuel ≤ fuel)
    {L : ℤ} (hL : longMax = L) (hK0 : 2 ≤ K0) (hK1 : K0 ≤ 2 ^ L) (hK : 4 * (s0.d * B * ρ ^ (s0.d - 1)) ≤ K0 ^ 2) (n m : ℕ)
    (st : LLLState (Rd fl)) (h : RInv sg η δ s0 s0.d st) (hz : Size B s0.d st.s) (hn : s0.d + m ≤ n + st.kappa)
    (hpot : ((potential (s0.d - 1) st.s.nCols st.s.b : ℤ) : ℚ) * (δ + 16 * Chol.tau s0.d ρ u) ^ (m + 1) < 1) :
    (mainLoop c fuel 0 s0.d 0 n st).1 = .success ∧ s0.d ≤ (mainLoop c fuel 0 s0.d 0 n st).2.kappa ∧ (mainLoop c fuel 0 s0.d 0 n st).2.zeros = 0 := by
  induction n generalizing st m with
  | zero => exact ⟨rfl, by change s0.d ≤ st.kappa; omega, h.zeros⟩
  | succ n ih =>
    rw [mainLoop]
    rw [h.zeros]
    by_cases h1 : st.kappa < s0.d - 0
    swap
    · rw [if_neg h1]; exact ⟨rfl, by dsimp only; omega, h.zeros⟩
    rw [if_pos h1]
    dsimp only
    have hd : (discoverStep c fuel 0 st).1 = .success ∧ (discoverStep c fuel 0 st).2.s = st.s ∧ (discoverStep c fuel 0 st).2.kappa = st.kappa ∧ (discoverStep c fuel 0 st).2.zeros = st.zeros := by
      unfold discoverStep
      dsimp only
      by_cases hh : st.kappaMax < st.kappa
      · rw [if_pos hh, if_neg (by rw [h.fresh.int]; simp)]
        exact ⟨rfl, rfl, rfl, rfl⟩
      · rw [if_neg hh]
        exact ⟨rfl, rfl, rfl, rfl⟩
    generalize discoverStep c fuel 0 st = P at *
    obtain ⟨d1, d2, d3, d4⟩ := hd
    rw [if_neg (by simpa using d1)]
    rw [d2, d3]
    have hknown := h.known
    have hsd : st.s.d = s0.d := h.good.cfg.d
    have pre : BabaiPre st.s st.kappa st.kappa := ⟨h.good.wf, by omega, hknown, le_rfl, by rw [h.good.wf.unlocked h.unlocked]; exact hknown⟩
    have hind1 := indep_of_good h.good hind
    have hkd : st.kappa < s0.d := by omega
    have bok : (babai c fuel st.s st.kappa st.kappa 0).1 = .success := by
      have b1 := babai_fuel c fuel hfuel st.s st.kappa st.kappa 0
      have b2 := babaiLoop_ok c hc.eta hfl hp hroom hkd hK0 hK1 fuel 0 longMax st.s hsd (h.good.cfg.forceLong.trans hfo) pre h.fresh h.head hind1
        (fun _ => ⟨hL, mu_bound hfl hp h.fresh h.head hknown hkd hind1 hz (by linarith) hK⟩) (fun h => by omega)
      unfold babai at b1 ⊢
      exact b2.resolve_right b1
    have bl := babaiLoop_round c hc.eta fuel 0 longMax st.s pre h.fresh h.head.valid
    have bg := babai_good c fuel 0 pre
    have br := babai_res c fuel 0 pre
    have lo := babai_lower c fuel 0 pre
    unfold babai at bok bg br lo ⊢
    generalize babaiLoop c st.kappa st.kappa 0 fuel 0 longMax st.s = Q at *
    rw [if_neg (by simpa using bok)]
    have x := bl bok
    have r := br bok
    have hQk : st.kappa < Q.2.nKnownRows := by rw [r.known]; omega
    have hQh : RHead sg η δ Q.2 st.kappa := h.head.congr bg.cfg.nCols (fun k hk => (x.rows k (by omega)).1) (fun k hk => (x.rows k (by omega)).2.1) (fun k hk q _ => by rw [(x.rows k (by omega)).2.2]) (fun k hk => (x.valid k hk).ge)
    have hgood := h.good.trans bg
    have hind2 := indep_of_good hgood hind
    have inv := lovaszStep_round c hc hfl hp hind (st := { P.2 with s := Q.2, kappa := st.kappa }) hgood x.fresh (r.locked.trans h.unlocked) (d4.trans h.zeros) h.k1 hQk hkd x.validK x.reduced hQh
    have hn1 := bg.cfg.nCols
    have hB : ∀ j < s0.d, normStar Q.2.nCols (bR Q.2) j ≤ B := by
      intro j hj
      rw [hn1]
      have e := normStar_pre (lo.preEq j) (lo.preEq (j + 1))
      have := hz.star j hj
      exact (le_of_eq e.symm).trans this
    have hrows : ∀ j < s0.d, j ≠ st.kappa → dotQ Q.2.nCols (bR Q.2 j) (bR Q.2 j) ≤ s0.d * B := by
      intro j hj hne
      have e : bR Q.2 j = bR st.s j := by unfold bR; rw [(x.rows j hne).1]
      rw [hn1, e]
      exact hz.rows j hj
    have hpot2 : potential (s0.d - 1) Q.2.nCols Q.2.b = potential (s0.d - 1) st.s.nCols st.s.b := by
      rw [hn1]; exact prod_congr rfl fun j _ => gramDet_pre (lo.preEq _)
    obtain ⟨s2, s3, j, s4, s5, s6⟩ := lovaszStep_ok c hc hfl hp hη1 hδ1 (st := { P.2 with s := Q.2, kappa := st.kappa }) hgood.wf x.fresh h.k1 hQk hkd x.validK x.reduced hQh hind2 hB hrows
      (inv.zeros.trans (d4.trans h.zeros).symm)
    dsimp only at s2 s3 s4 s5 s6
    generalize lovaszStep c 0 s0.d { P.2 with s := Q.2, kappa := st.kappa } = w at *
    have hge : (1 : ℚ) ≤ ((potential (s0.d - 1) w.s.nCols w.s.b : ℤ) : ℚ) := by
      have : 0 < potential (s0.d - 1) w.s.nCols w.s.b :=
        prod_pos fun m hm => gramDet_pos (indep_of_good inv.good hind) (by rw [mem_range] at hm; omega)
      exact_mod_cast this
    rw [hpot2] at s6
    rw [s2] at hge
    set δp := δ + 16 * Chol.tau s0.d ρ u with hδp
    have hδp0 : 0 < δp := by rw [hδp]; linarith
    have hjm : j ≤ m := by
      by_contra hcc
      have h2 : δp ^ j ≤ δp ^ (m + 1) := pow_le_pow_of_le_one hδp0.le hδ1 (by omega)
      have hp0 : (0 : ℚ) ≤ ((potential (s0.d - 1) st.s.nCols st.s.b : ℤ) : ℚ) := by
        have : 0 < potential (s0.d - 1) st.s.nCols st.s.b :=
          prod_pos fun m hm => gramDet_pos hind1 (by rw [mem_range] at hm; omega)
        exact_mod_cast this.le
      have := mul_le_mul_of_nonneg_right h2 hp0
      linarith
    refine ih (m - j) w inv s3 (by omega) ?_
    rw [s2]
    refine lt_of_le_of_lt (mul_le_mul_of_nonneg_right s6 (pow_nonneg hδp0.le _)) ?_
    have e : δp ^ (m + 1) = δp ^ j * δp ^ (m - j + 1) := by rw [← pow_add]; congr 1; omega
    rw [e] at hpot
    linarith

/-- LLL with rounding succeeds -/
theorem lll_ok (c : LLLCfg (Rd fl)) {u η δ η' δ' ε ρ B K0 : ℚ} (hc : RCfg sg c η δ) (hfl : Chol.RelErr u fl) {s : GSO (Rd fl)} (hp : RPar s.d η δ η' δ' u ε ρ) (hroom : Room s.d η u ρ) (hη1 : η' ≤ 1)
    (hδ0 : 0 < δ) (hτ : 0 ≤ Chol.tau s.d ρ u) (hδ1 : δ + 16 * Chol.tau s.d ρ u ≤ 1) (hind : Indep s.d s.nCols (bR s)) (hwf : WF s) (hf : FreshR s) (hl : s.colsLocked = false) (hfo : s.forceLong = false) (hd : 1 ≤ s.d)
    {fuel : ℕ} (hfuel : babaiFuel ≤ fuel) {L : ℤ} (hL : longMax = L) (hK0 : 2 ≤ K0) (hK1 : K0 ≤ 2 ^ L) (hK : 4 * (s.d * B * ρ ^ (s.d - 1)) ≤ K0 ^ 2) (maxIter last m : ℕ)
    (hB : ∀ j < s.d, dotQ s.nCols (bR s j) (bR s j) ≤ B) (hn : s.d - 1 + m ≤ maxIter)
    (hpot : ((potential (s.d - 1) s.nCols s.b : ℤ) : ℚ) * (δ + 16 * Chol.tau s.d ρ u) ^ (m + 1) < 1) :
    (lll c fuel maxIter last s 0 0 s.d 0).1 = .success ∧ (lll c fuel maxIter last s 0 0 s.d 0).2.zeros = 0 := by
  unfold lll
  rw [zeroLoop_round (row0_round (by omega) hind)]
  dsimp only
  rw [if_pos (by omega)]
  unfold startStep
  rw [if_neg (by omega)]
  unfold startTail
  rw [if_neg (by simp)]
  dsimp only
  have hP := updateGsoRow_ok hf (i := 0) (l := 0 + 1) (by omega) (by omega) (fun k _ h => by omega)
  have hu := updateGsoRow_freshR hwf hf (i := 0) (l := 0 + 1) (by omega) (by omega) (by omega) (fun k _ h => by omega) hP
  have r1 := updateGsoRow_res (l := 0 + 1) hwf (kappa := 0) (by omega) (by omega)
  have hb := updateGsoRow_b s 0 (0 + 1)
  generalize s.updateGsoRow 0 (0 + 1) = P at *
  rw [if_pos hP]
  obtain ⟨a1, a2, a3, a4⟩ := hu
  unfold lllTail
  rw [if_neg (by simp)]
  have inv0 : RInv sg η δ s s.d { s := P.2, kappa := 0 + 1, kappaMax := 0, zeros := 0, nSwaps := 0, lastEarlyRed := last } := by
    refine ⟨r1.good, a1, r1.locked.trans hl, rfl, le_rfl, by dsimp only; rw [r1.known]; omega, by dsimp only; omega, ⟨?_, ?_, ?_⟩⟩
    · intro k hk
      have : k = 0 := by dsimp only at hk; omega
      subst this
      exact a2
    · intro i hi j hj; dsimp only at hi; omega
    · intro k hk; dsimp only at hk; omega
  have hn2 : P.2.nCols = s.nCols := r1.good.cfg.nCols
  have hd1 : (1 : ℚ) ≤ s.d := by exact_mod_cast hd
  have size0 : Size B s.d P.2 := by
    have e : bR P.2 = bR s := by unfold bR; rw [hb]
    refine ⟨?_, ?_⟩
    · intro j hj; rw [e, hn2]; exact (normStar_le_dot _ _ _).trans (hB j hj)
    · intro j hj; rw [e, hn2]
      have h1 := hB j hj
      have h0 : 0 ≤ B := (normStar_nonneg s.nCols (bR s) j).trans ((normStar_le_dot _ _ _).trans h1)
      nlinarith
  obtain ⟨M1, M2, M3⟩ := mainLoop_ok c hc hfl hp hroom hη1 hδ0 hτ hδ1 hind hfo hfuel hL hK0 hK1 hK maxIter m _ inv0 size0 (by dsimp only; omega) (by dsimp only; rw [hn2, hb]; exact hpot)
  dsimp only
  generalize mainLoop c fuel 0 s.d 0 maxIter _ = q at *
  unfold lllFinish
  rw [if_neg (by simpa using M1)]
  dsimp only
  rw [M3, if_neg (by omega)]
  exact ⟨rfl, rfl⟩

end LLL
end Fplll

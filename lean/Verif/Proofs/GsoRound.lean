import Verif.Proofs.GSO
import Verif.Proofs.Cholesky
import Verif.Model.FloatRnd
import Verif.Spec.GramSchmidt
import Verif.Spec.Proj
import Verif.Spec.Indep

/-!
# The Gram-Schmidt coefficients computed with rounding
-/

namespace Fplll

open FloatOps Spec

namespace GSO

/-- the sums of the inner loop, with a rounding after every operation -/
def csum (fl : ℚ → ℚ) (g : ℚ) (m r : ℕ → ℚ) : ℕ → ℚ
  | 0 => fl g
  | k + 1 => fl (csum fl g m r k - fl (m k * r k))

theorem csum_congr {fl : ℚ → ℚ} {g : ℚ} {m r m' r' : ℕ → ℚ} {n : ℕ} (hm : ∀ k < n, m k = m' k) (hr : ∀ k < n, r k = r' k) : csum fl g m r n = csum fl g m' r' n := by
  induction n with
  | zero => rfl
  | succ n ih =>
    unfold csum
    rw [ih (fun k hk => hm k (by omega)) (fun k hk => hr k (by omega)), hm n (by omega), hr n (by omega)]

theorem gsoInner_round {fl : ℚ → ℚ} {mu r : Mat (Rd fl)} {i j : ℕ} {g : ℚ} (hm : ∀ k < j, mu j k = Rd.of (Rd.val (mu j k))) (hr : ∀ k < j, r i k = Rd.of (Rd.val (r i k))) :
    gsoInner mu r i j (Rd.of (fl g)) = Rd.of (csum fl g (fun k => Rd.val (mu j k)) (fun k => Rd.val (r i k)) j) := by
  unfold gsoInner
  refine forUp_inv (P := fun k acc => acc = Rd.of (csum fl g (fun k => Rd.val (mu j k)) (fun k => Rd.val (r i k)) k)) (fun k acc => sub acc (mul (mu j k) (r i k))) (Nat.zero_le j) _ rfl ?_
  intro k acc _ hk h
  have e1 := hm k hk
  have e2 := hr k hk
  rw [h]
  conv_lhs => rw [e1, e2]
  rfl

/-- row `i`, columns below `n`, was computed from the other entries -/
def RowOK (fl : ℚ → ℚ) (s : GSO (Rd fl)) (i n : ℕ) : Prop :=
  ∀ q < n, s.r i q = Rd.of (csum fl (s.ip i q) (fun k => Rd.val (s.mu q k)) (fun k => Rd.val (s.r i k)) q) ∧
    (q < i → s.mu i q = Rd.of (fl (Rd.val (s.r i q) / Rd.val (s.r q q))))

theorem RowOK.r_some {fl : ℚ → ℚ} {s : GSO (Rd fl)} {i n : ℕ} (h : RowOK fl s i n) {q : ℕ} (hq : q < n) : s.r i q = Rd.of (Rd.val (s.r i q)) := by
  rw [(h q hq).1]; rfl

theorem RowOK.mu_some {fl : ℚ → ℚ} {s : GSO (Rd fl)} {i n : ℕ} (h : RowOK fl s i n) {q : ℕ} (hq : q < n) (hi : q < i) : s.mu i q = Rd.of (Rd.val (s.mu i q)) := by
  rw [(h q hq).2 hi]; rfl

theorem updateGsoLoop_round {fl : ℚ → ℚ} (i n : ℕ) : ∀ (j : ℕ) (s : GSO (Rd fl)), s.intGram = true → (∀ q ≤ i, s.g i q = s.ip i q) → (∀ q < i, RowOK fl s q (q + 1)) →
    (∀ q < i, Rd.val (s.r q q) ≠ 0) → j + n = i + 1 → RowOK fl s i j →
    (updateGsoLoop i n j s).1 = true ∧ RowOK fl (updateGsoLoop i n j s).2 i (i + 1) ∧
      (∀ p < i, ∀ q, (updateGsoLoop i n j s).2.r p q = s.r p q ∧ (updateGsoLoop i n j s).2.mu p q = s.mu p q) := by
  induction n with
  | zero =>
    intro j s _ _ _ _ hj ho
    have : j = i + 1 := by omega
    subst this
    refine ⟨rfl, ?_, fun p _ q => ⟨rfl, rfl⟩⟩
    intro q hq
    exact ho q hq
  | succ n ih =>
    intro j s hG hg hrow hne hj ho
    have hji : j ≤ i := by omega
    have hc : s.cacheGram i j = s := by
      have e : (s.cacheGram i j).gf = s.gf := by
        unfold cacheGram
        dsimp only
        rw [if_neg (by rw [hG]; simp)]
      have e2 : s.cacheGram i j = { s with gf := (s.cacheGram i j).gf } := rfl
      rw [e2, e]
    have hgv : s.gramVal i j = Rd.of (fl (s.ip i j)) := by
      unfold gramVal
      rw [if_pos hG, hg j hji]
      rfl
    have hmu : ∀ k < j, s.mu j k = Rd.of (Rd.val (s.mu j k)) := by
      intro k hk
      by_cases e : j = i
      · subst e; exact ho.mu_some hk hk
      · exact (hrow j (by omega)).mu_some (by omega) hk
    have hF : gsoInner s.mu s.r i j (s.gramVal i j) = Rd.of (csum fl (s.ip i j) (fun k => Rd.val (s.mu j k)) (fun k => Rd.val (s.r i k)) j) := by
      rw [hgv]
      exact gsoInner_round hmu (fun k hk => ho.r_some hk)
    rw [updateGsoLoop]
    dsimp only
    rw [hc, hF]
    generalize hx : csum fl (s.ip i j) (fun k => Rd.val (s.mu j k)) (fun k => Rd.val (s.r i k)) j = x
    by_cases hlt : j < i
    · rw [if_pos hlt]
      have hrj : (Mat.set s.r i j (Rd.of x)) j j = s.r j j := by
        rw [Mat.set_apply, if_neg (by omega)]
      rw [hrj]
      have hjj := (hrow j hlt).r_some (Nat.lt_succ_self j)
      have hne' := hne j hlt
      have hdiv' : FloatOps.div (Rd.of x : Rd fl) (s.r j j) = (Rd.of (fl (x / Rd.val (s.r j j))) : Rd fl) := by
        conv_lhs => rw [hjj]
        change (if Rd.val (s.r j j) = 0 then (none : Option ℚ) else some (fl (x / Rd.val (s.r j j)))) = some (fl (x / Rd.val (s.r j j)))
        rw [if_neg hne']
      rw [hdiv', if_pos (by rfl)]
      generalize hm : (Rd.of (fl (x / Rd.val (s.r j j))) : Rd fl) = m
      obtain ⟨a, b, c⟩ := ih (j + 1) { s with r := Mat.set s.r i j (Rd.of x), mu := Mat.set s.mu i j m } hG hg (by
          intro q hq t ht
          have := hrow q hq t ht
          have w1 : ∀ k, (Mat.set s.r i j (Rd.of x)) q k = s.r q k := fun k => by rw [Mat.set_apply, if_neg (by omega)]
          have w2 : ∀ k, (Mat.set s.mu i j m) q k = s.mu q k := fun k => by rw [Mat.set_apply, if_neg (by omega)]
          have w3 : ∀ k, (Mat.set s.r i j (Rd.of x)) t k = s.r t k := fun k => by rw [Mat.set_apply, if_neg (by omega)]
          have w4 : ∀ k, (Mat.set s.mu i j m) t k = s.mu t k := fun k => by rw [Mat.set_apply, if_neg (by omega)]
          dsimp only
          simp only [w1, w2, w3, w4]
          exact this) (by
          intro q hq
          dsimp only
          rw [Mat.set_apply, if_neg (by omega)]
          exact hne q hq) (by omega) (by
          intro q hq
          have w0 : ∀ k, k < j → (Mat.set s.r i j (Rd.of x)) i k = s.r i k := fun k hk => by rw [Mat.set_apply, if_neg (by omega)]
          have w3 : ∀ k, (Mat.set s.r i j (Rd.of x)) q k = if i = q ∧ k = j then Rd.of x else s.r q k := fun k => by
            rw [Mat.set_apply]
            exact if_congr ⟨fun h => ⟨h.1.symm, h.2⟩, fun h => ⟨h.1.symm, h.2⟩⟩ rfl rfl
          have w4 : ∀ k, (Mat.set s.mu i j m) q k = s.mu q k := fun k => by rw [Mat.set_apply, if_neg (by omega)]
          dsimp only
          have hqi : q < i := by omega
          have hqq : (Mat.set s.r i j (Rd.of x)) q q = s.r q q := by rw [Mat.set_apply, if_neg (by omega)]
          have hcs : csum fl (s.ip i q) (fun k => Rd.val ((Mat.set s.mu i j m) q k)) (fun k => Rd.val ((Mat.set s.r i j (Rd.of x)) i k)) q =
              csum fl (s.ip i q) (fun k => Rd.val (s.mu q k)) (fun k => Rd.val (s.r i k)) q :=
            csum_congr (fun k hk => by rw [w4]) (fun k hk => by rw [w0 k (by omega)])
          change (Mat.set s.r i j (Rd.of x)) i q = Rd.of (csum fl (s.ip i q) (fun k => Rd.val ((Mat.set s.mu i j m) q k)) (fun k => Rd.val ((Mat.set s.r i j (Rd.of x)) i k)) q) ∧ _
          rw [hcs, hqq]
          rcases Nat.lt_succ_iff_lt_or_eq.mp hq with h | h
          · rw [w0 q h]
            refine ⟨(ho q h).1, fun _ => ?_⟩
            rw [Mat.set_apply, if_neg (by omega)]
            exact (ho q h).2 hqi
          · subst h
            rw [hx, Mat.set_apply, if_pos ⟨rfl, rfl⟩]
            refine ⟨rfl, fun _ => ?_⟩
            rw [Mat.set_apply, if_pos ⟨rfl, rfl⟩, ← hm]
            rfl)
      refine ⟨a, b, ?_⟩
      intro p hp q
      obtain ⟨c1, c2⟩ := c p hp q
      rw [c1, c2]
      dsimp only
      rw [Mat.set_apply, Mat.set_apply, if_neg (by omega), if_neg (by omega)]
      exact ⟨rfl, rfl⟩
    · rw [if_neg hlt]
      have hjj : j = i := by omega
      subst hjj
      obtain ⟨a, b, c⟩ := ih (j + 1) { s with r := Mat.set s.r j j (Rd.of x) } hG hg (by
          intro q hq t ht
          have := hrow q hq t ht
          have w1 : ∀ k, (Mat.set s.r j j (Rd.of x)) q k = s.r q k := fun k => by rw [Mat.set_apply, if_neg (by omega)]
          have w3 : ∀ k, (Mat.set s.r j j (Rd.of x)) t k = s.r t k := fun k => by rw [Mat.set_apply, if_neg (by omega)]
          dsimp only
          simp only [w1, w3]
          exact this) (by
          intro q hq
          dsimp only
          rw [Mat.set_apply, if_neg (by omega)]
          exact hne q hq) (by omega) (by
          intro q hq
          have w0 : ∀ k, k < j → (Mat.set s.r j j (Rd.of x)) j k = s.r j k := fun k hk => by rw [Mat.set_apply, if_neg (by omega)]
          have hcs : csum fl (s.ip j q) (fun k => Rd.val (s.mu q k)) (fun k => Rd.val ((Mat.set s.r j j (Rd.of x)) j k)) q =
              csum fl (s.ip j q) (fun k => Rd.val (s.mu q k)) (fun k => Rd.val (s.r j k)) q :=
            csum_congr (fun k hk => rfl) (fun k hk => by rw [w0 k (by omega)])
          change (Mat.set s.r j j (Rd.of x)) j q = Rd.of (csum fl (s.ip j q) (fun k => Rd.val (s.mu q k)) (fun k => Rd.val ((Mat.set s.r j j (Rd.of x)) j k)) q) ∧
            (q < j → s.mu j q = Rd.of (fl (Rd.val ((Mat.set s.r j j (Rd.of x)) j q) / Rd.val ((Mat.set s.r j j (Rd.of x)) q q))))
          rw [hcs]
          rcases Nat.lt_succ_iff_lt_or_eq.mp hq with h | h
          · rw [w0 q h]
            refine ⟨(ho q h).1, fun _ => ?_⟩
            rw [Mat.set_apply, if_neg (by omega)]
            exact (ho q h).2 h
          · subst h
            rw [hx, Mat.set_apply, if_pos ⟨rfl, rfl⟩]
            exact ⟨rfl, fun h => absurd h (lt_irrefl _)⟩)
      refine ⟨a, b, ?_⟩
      intro p hp q
      obtain ⟨c1, c2⟩ := c p hp q
      rw [c1, c2]
      dsimp only
      rw [Mat.set_apply, if_neg (by omega)]
      exact ⟨rfl, rfl⟩

/-- the data of the error analysis, for the rows before `i` -/
theorem data_of_rows {fl : ℚ → ℚ} {u δ η : ℚ} (hfl : Chol.RelErr u fl) {s : GSO (Rd fl)} {i e : ℕ} (hie : i ≤ e) (hind : Indep e s.nCols (fun i c => (s.b i c : ℚ)))
    (hlll : LLLReduced s.nCols e (fun i c => (s.b i c : ℚ)) δ η) (hδη : 0 < δ - η ^ 2) (hrow : ∀ q < i, RowOK fl s q (q + 1)) :
    Chol.Data i η (1 / (δ - η ^ 2)) u fl (fun p q => (s.ip p q : ℚ)) (rS s.nCols (fun i c => (s.b i c : ℚ))) (muS s.nCols (fun i c => (s.b i c : ℚ)))
      (fun p q => Rd.val (s.r p q)) (fun p q => Rd.val (s.mu p q)) := by
  have hip : ∀ p q : ℕ, (s.ip p q : ℚ) = dotQ s.nCols (fun c => (s.b p c : ℚ)) (fun c => (s.b q c : ℚ)) := by
    intro p q
    unfold ip dotQ; push_cast; rfl
  obtain ⟨hsr, hlo⟩ := hlll
  refine ⟨?_, ?_, ?_, ?_, ?_, hfl, ?_, ?_⟩
  · intro p hp
    rw [rS_self]; exact hind.pos p (by omega)
  · intro p hp q hq
    rw [rS_self]; exact rS_mu _ _ _ _
  · intro p hp q hq
    exact hsr p (by omega) q hq
  · intro p hp
    rw [rS_self, rS_self]
    have h1 := hlo p (by omega)
    have h2 := hsr (p + 1) (by omega) p (by omega)
    have h0 := hind.pos p (by omega)
    have h3 : (muS s.nCols (fun i c => (s.b i c : ℚ)) (p + 1) p) ^ 2 ≤ η ^ 2 := by
      rw [← sq_abs]; gcongr
    have h4 := mul_le_mul_of_nonneg_right h3 h0.le
    rw [one_div, ← div_eq_inv_mul, le_div_iff₀ hδη]
    linarith
  · intro p hp q hq
    rw [rS_rec]
    rw [hip]; ring
  · intro p hp q hq
    refine ⟨csum fl (s.ip p q) (fun k => Rd.val (s.mu q k)) (fun k => Rd.val (s.r p k)), rfl, fun k => rfl, ?_⟩
    conv_lhs => rw [(hrow p hp q (by omega)).1]
    rfl
  · intro p hp q hq
    conv_lhs => rw [(hrow p hp q (by omega)).2 hq]
    rfl

/-- a rounded GSO of a reduced basis, row by row -/
theorem updateGsoFrom_round {fl : ℚ → ℚ} {u δ η ε ρ : ℚ} (hfl : Chol.RelErr u fl) {e d : ℕ} (hed : e ≤ d) (hη : 1 / 2 ≤ η) (hη1 : η ≤ 1) (hδη : 0 < δ - η ^ 2) (hδ : δ ≤ 1) (hu : 0 ≤ u) (hε : ε ≤ 1)
    (hε0 : 0 < ε) (hρ3 : 3 ≤ ρ) (hρ : ((1 + η) ^ 2 + ε) / (δ - η ^ 2) ≤ ρ) (hprec : 32 * d ^ 2 * ρ ^ d * u ≤ ε) (n : ℕ) :
    ∀ (i : ℕ) (s : GSO (Rd fl)), WF s → s.intGram = true → s.d = e → s.nKnownRows = i → i + n = e → Indep e s.nCols (fun i c => (s.b i c : ℚ)) →
      LLLReduced s.nCols e (fun i c => (s.b i c : ℚ)) δ η → (∀ q < i, RowOK fl s q (q + 1)) →
      (updateGsoFrom n i s).1 = true ∧ (∀ q < e, RowOK fl (updateGsoFrom n i s).2 q (q + 1)) ∧ (updateGsoFrom n i s).2.b = s.b ∧ (updateGsoFrom n i s).2.nCols = s.nCols ∧
        (updateGsoFrom n i s).2.d = s.d := by
  induction n with
  | zero =>
    intro i s _ _ _ _ hi _ _ hrow
    refine ⟨rfl, ?_, rfl, rfl, rfl⟩
    have : i = e := by omega
    subst this
    exact hrow
  | succ n ih =>
    intro i s hwf hG hd hk hi hind hlll hrow
    have hkd : s.nKnownRows < s.d := by omega
    have g1 := discoverRow_good hwf hkd
    have hkn : s.discoverRow.nKnownRows = i + 1 := by rw [← hk]; rfl
    have hgr : ∀ q ≤ i, s.discoverRow.g i q = s.discoverRow.ip i q := by
      intro q hq
      have := g1.wf.gram hG i (by omega) q (by omega)
      rwa [symGet_of_le _ hq] at this
    have hrow1 : ∀ q < i, RowOK fl s.discoverRow q (q + 1) := hrow
    have hD := data_of_rows hfl (s := s.discoverRow) (by omega : i ≤ e) hind hlll hδη hrow1
    have hne : ∀ q < i, Rd.val (s.discoverRow.r q q) ≠ 0 := by
      intro q hq
      have hb := Chol.error hD (by omega : i ≤ d) hη hη1 (by positivity) (by
        rw [one_div, ← div_eq_inv_mul, le_div_iff₀ hδη]; linarith) hu hε hρ3 (by rw [one_div, ← div_eq_inv_mul]; exact hρ) hprec q q le_rfl hq
      have hE := Chol.bnd_le hu (by linarith : 1 ≤ ρ) hprec (by omega : q < d)
      have hp := hD.pos q hq
      intro h0
      rw [h0, zero_sub, abs_neg, abs_of_pos hp] at hb
      have : Chol.bnd d ρ u q ≤ 1 / 8 := le_trans hE (by linarith)
      nlinarith
    rw [updateGsoFrom]
    have hupd : s.updateGsoRow i (i + 1) = updateGsoLoop i (i + 1) 0 s.discoverRow := by
      unfold updateGsoRow
      rw [if_pos (by omega)]
      have : s.discoverRow.gsoValidCols i = 0 := by
        change setAt s.gsoValidCols s.nKnownRows 0 i = 0
        rw [hk]; simp [setAt]
      dsimp only
      rw [this]
      rfl
    obtain ⟨a, b, c⟩ := updateGsoLoop_round i (i + 1) 0 s.discoverRow hG hgr hrow1 hne (by omega) (fun q hq => absurd hq (by omega))
    have fo := updateGsoLoop_fo i (i + 1) 0 s.discoverRow
    have hwf' := (fo.good g1.wf).wf
    rw [hupd]
    rw [if_pos a]
    generalize updateGsoLoop i (i + 1) 0 s.discoverRow = t at a b c fo hwf'
    have hb : t.2.b = s.b := fo.b
    have hc : t.2.nCols = s.nCols := fo.nCols
    have hip : ∀ p q, t.2.ip p q = s.ip p q := by
      intro p q; unfold ip; rw [hb, hc]
    obtain ⟨r1, r2, r3, r4, r5⟩ := ih (i + 1) t.2 hwf' (by rw [fo.intGram]; exact hG) (by rw [fo.d]; exact hd) (by rw [fo.nKnownRows]; exact hkn) (by omega) (by rw [hb, hc]; exact hind)
      (by rw [hb, hc]; exact hlll) (by
        intro q hq
        by_cases e : q = i
        · subst e; exact b
        · have hqi : q < i := by omega
          intro p hp
          have := hrow q hqi p hp
          rw [hip, (c q hqi p).1, (c q hqi p).2]
          have w1 : ∀ k, t.2.r q k = s.r q k := fun k => (c q hqi k).1
          have w2 : ∀ k, t.2.mu p k = s.mu p k := fun k => (c p (by omega) k).2
          rw [(c p (by omega) p).1]
          simp only [w1, w2]
          exact this)
    exact ⟨r1, r2, r3.trans hb, r4.trans hc, r5.trans fo.d⟩

end GSO

end Fplll

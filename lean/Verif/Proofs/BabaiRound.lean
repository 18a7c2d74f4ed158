import Verif.Proofs.LLLRound
import Verif.Proofs.LLLExact
import Verif.Proofs.CholeskyRow

/-!
# Size reduction with rounding

One pass of `babai` makes the coefficients of the row small, up to the errors of the rounded coefficients.
-/

namespace Fplll

open FloatOps GSO Spec

namespace LLL

variable {fl : ℚ → ℚ}

theorem ratTrunc_int (z : ℤ) : ratTrunc (z : ℚ) = z := by
  unfold ratTrunc
  split_ifs
  · exact Int.floor_intCast z
  · exact Int.ceil_intCast z

theorem rowAddmulWe_b_round {s : GSO (Rd fl)} (hs : WF s) (hfo : s.forceLong = false) {i j : ℕ} (hj : j < s.nSourceRows) (z : ℤ) (k c : ℕ)
    (hc : c < s.nCols) :
    (s.rowAddmulWe i j (Rd.of (z : ℚ))).b k c = if k = i then s.b i c + z * s.b j c else s.b k c := by
  have e : (getSiExp (Rd.of (z : ℚ) : Rd fl)) = (ratTrunc ((z : ℚ) / 2 ^ siExpo z), siExpo z) := rfl
  have e2 : (getZExp (Rd.of (z : ℚ) : Rd fl)) = (z, 0) := by
    change ((ratTrunc (z : ℚ), 0) : ℤ × ℕ) = _
    rw [ratTrunc_int]
  have hz : s.nKnownCols ≤ c → s.b j c = 0 := fun h => hs.zeroSrc j hj c hc h
  unfold rowAddmulWe
  dsimp only
  rw [e, e2]
  dsimp only
  by_cases hx : siExpo (z : ℚ) = 0
  swap
  · rw [if_neg hx, hfo, if_neg (by simp)]
    change setAt s.b i _ k c = _
    rw [setAt_mat, vecAddmul2exp_apply]
    grind
  rw [if_pos hx, hx, pow_zero, div_one, ratTrunc_int]
  split_ifs with h1 h2 h3 h4 h5 h6
  all_goals first
    | (change setAt s.b i _ k c = _
       rw [setAt_mat]
       first
        | rw [vecAdd_apply]
        | rw [vecSub_apply]
        | rw [vecAddmulSi_apply]
       grind)
    | grind

/-- one update of a coefficient of the row -/
theorem step_num {u E W x M mu bm ν : ℚ} (hfl : Chol.RelErr u fl) (hu : 0 ≤ u) (huE : 11 * u ≤ E) (hE8 : E ≤ 1 / 8) (hx : |x| ≤ W) (hM : |M - mu| ≤ 5 / 2 * E) (hM1 : |M| ≤ 9 / 8) (hbm : |bm| + 1 / 2 ≤ W) :
    |fl (bm - fl (x * M)) - (ν - x * mu)| ≤ |bm - ν| + 3 * E * W ∧ |fl (bm - fl (x * M))| + 1 / 2 ≤ 3 * W := by
  have hW : 0 ≤ W := le_trans (abs_nonneg _) hx
  have h1 := hfl (x * M)
  have h2 := hfl (bm - fl (x * M))
  have hxM : |x * M| ≤ 9 / 8 * W := by
    rw [abs_mul, mul_comm]
    exact mul_le_mul hM1 hx (abs_nonneg _) (by norm_num)
  have hxm : |x * M - x * mu| ≤ 5 / 2 * E * W := by
    rw [← mul_sub, abs_mul, mul_comm]
    exact mul_le_mul hM hx (abs_nonneg _) (by linarith)
  generalize fl (x * M) = a at *
  have k1 : |a - x * M| ≤ u * (9 / 8 * W) := h1.trans (mul_le_mul_of_nonneg_left hxM hu)
  have hu1 : u ≤ 1 / 88 := by linarith
  have hu2 : u * W ≤ 1 / 88 * W := mul_le_mul_of_nonneg_right hu1 hW
  have k2 : |a| ≤ 8 / 7 * W := by
    have : |a| ≤ |a - x * M| + |x * M| := by
      have := abs_add_le (a - x * M) (x * M); rwa [sub_add_cancel] at this
    linarith
  have k3 : |bm - a| ≤ 15 / 7 * W - 1 / 2 := by
    have := abs_sub bm a
    linarith
  have k4 : u * |bm - a| ≤ u * (15 / 7 * W) := mul_le_mul_of_nonneg_left (by linarith) hu
  have k6 : 0 ≤ u * W := mul_nonneg hu hW
  have k5 : 11 * u * W ≤ E * W := mul_le_mul_of_nonneg_right huE hW
  generalize fl (bm - a) = b at *
  constructor
  · have e : b - (ν - x * mu) = (b - (bm - a)) + (bm - ν) - (a - x * M) - (x * M - x * mu) := by ring
    rw [e]
    have t1 := abs_sub (b - (bm - a) + (bm - ν) - (a - x * M)) (x * M - x * mu)
    have t2 := abs_sub (b - (bm - a) + (bm - ν)) (a - x * M)
    have t3 := abs_add_le (b - (bm - a)) (bm - ν)
    linarith
  · have : |b| ≤ |b - (bm - a)| + |bm - a| := by
      have := abs_add_le (b - (bm - a)) (bm - a); rwa [sub_add_cancel] at this
    linarith

/-- one pass of `babai` -/
theorem babaiPass_round {s : GSO (Rd fl)} {kappa : ℕ} {u K ρ : ℚ} {E : ℕ → ℚ} (hfl : Chol.RelErr u fl) (hu : 0 ≤ u) (hs : WF s) (hfo : s.forceLong = false) (hk : kappa < s.nKnownRows) (hsrc : kappa ≤ s.nSourceRows) (hK : 0 ≤ K) (hρ : 3 ≤ ρ)
    (hE : ∀ k < kappa, 11 * u ≤ E k ∧ E k ≤ 1 / 8) (hpos : ∀ j < kappa, normStar s.nCols (bR s) j ≠ 0)
    (hM : ∀ j < kappa, ∀ k < j, s.mu j k = Rd.of (Rd.val (s.mu j k)) ∧ |Rd.val (s.mu j k) - muS s.nCols (bR s) j k| ≤ 5 / 2 * E k ∧ |Rd.val (s.mu j k)| ≤ 9 / 8)
    (hMk : ∀ k < kappa, s.mu kappa k = Rd.of (Rd.val (s.mu kappa k)) ∧ |Rd.val (s.mu kappa k) - muS s.nCols (bR s) kappa k| ≤ 5 / 2 * E k * K ∧ |Rd.val (s.mu kappa k)| + 1 / 2 ≤ 2 * K) :
    ∀ k < kappa, |muS s.nCols (bR (babaiPass s kappa 0 kappa)) kappa k| ≤ 1 / 2 + 3 * E k * K * ρ ^ (kappa - 1 - k) := by
  unfold babaiPass
  dsimp only
  have hbm : ∀ k < kappa, forUp 0 kappa (fun j (bm : ℕ → Rd fl) => setAt bm j (s.mu kappa j)) (fun _ => nan) k = s.mu kappa k := by
    intro k h2
    have := forUp_inv (P := fun m (bm : ℕ → Rd fl) => ∀ k < m, bm k = s.mu kappa k)
      (fun j (bm : ℕ → Rd fl) => setAt bm j (s.mu kappa j)) (Nat.zero_le kappa) (fun _ => nan)
      (by intro k _; omega)
      (by
        intro m bm _ _ hb k hk2
        unfold setAt
        split_ifs with h
        · rw [h]
        · exact hb k (by omega))
    exact this k h2
  generalize forUp 0 kappa (fun j (bm : ℕ → Rd fl) => setAt bm j (s.mu kappa j)) (fun _ => nan) = bm0 at *
  have L := forDown_inv (P := fun j (p : GSO (Rd fl) × (ℕ → Rd fl)) =>
      Good s p.1 ∧ SameDims s p.1 ∧ p.1.mu = s.mu ∧ p.1.nCols = s.nCols ∧ (∀ k, k ≠ kappa → p.1.b k = s.b k) ∧
      (∀ k < j, p.2 k = Rd.of (Rd.val (p.2 k)) ∧ |Rd.val (p.2 k) - muS s.nCols (bR p.1) kappa k| ≤ 3 * E k * K * ρ ^ (kappa - j) ∧ |Rd.val (p.2 k)| + 1 / 2 ≤ 2 * K * ρ ^ (kappa - j)) ∧
      (∀ k, j ≤ k → k < kappa → |muS s.nCols (bR p.1) kappa k| ≤ 1 / 2 + 3 * E k * K * ρ ^ (kappa - 1 - k)))
    (babaiStep kappa 0) (Nat.zero_le kappa) (s, bm0)
    ⟨.refl hs, .refl s, rfl, rfl, fun _ _ => rfl, by
      intro k hk'
      obtain ⟨a1, a2, a3⟩ := hMk k hk'
      dsimp only
      rw [hbm k hk', Nat.sub_self, pow_zero, mul_one, mul_one]
      refine ⟨a1, a2.trans ?_, a3⟩
      have : 0 ≤ E k * K := mul_nonneg (by linarith [(hE k hk').1]) hK
      linarith, fun k h1 h2 => by omega⟩
    (by
      rintro j ⟨t, bm⟩ h1 h2 ⟨g, dm, tmu, tn, tb, tm, tr⟩
      dsimp only at g dm tmu tn tb tm tr ⊢
      obtain ⟨v1, v2, v3⟩ := tm j (by omega)
      have hpw : ρ ^ (kappa - j) = ρ ^ (kappa - (j + 1)) * ρ := by
        rw [← pow_succ]; congr 1; omega
      have hpw0 : 0 < ρ ^ (kappa - (j + 1)) := by positivity
      have hke : kappa - 1 - j = kappa - (j + 1) := by omega
      generalize hv : Rd.val (bm j) = v at *
      have hrs := ratRnd_spec v
      unfold babaiStep
      dsimp only
      rw [v1]
      have hrnd : (rnd (Rd.of v) : Rd fl) = Rd.of ((ratRnd v : ℤ) : ℚ) := rfl
      rw [hrnd]
      generalize ratRnd v = z at *
      have hisz : (isZero (Rd.of (z : ℚ) : Rd fl)) = decide ((z : ℚ) = 0) := rfl
      rw [hisz]
      -- growth of the bounds
      have hgrow : ∀ a : ℚ, 0 ≤ a → a * ρ ^ (kappa - (j + 1)) * 3 ≤ a * ρ ^ (kappa - j) := by
        intro a ha
        rw [hpw, ← mul_assoc]
        exact mul_le_mul_of_nonneg_left hρ (by positivity)
      by_cases hz : z = 0
      · rw [if_pos (by simp [hz])]
        refine ⟨g, dm, tmu, tn, tb, ?_, ?_⟩
        · intro k hkj
          obtain ⟨a1, a2, a3⟩ := tm k (by omega)
          refine ⟨a1, a2.trans ?_, a3.trans ?_⟩
          · have h0 : 0 ≤ 3 * E k * K := mul_nonneg (by linarith [(hE k (by omega)).1]) hK
            have := hgrow _ h0
            have h3 : 0 ≤ 3 * E k * K * ρ ^ (kappa - (j + 1)) := by positivity
            linarith
          · have := hgrow (2 * K) (by linarith)
            have h3 : 0 ≤ 2 * K * ρ ^ (kappa - (j + 1)) := by positivity
            linarith
        · intro k h3 h4
          by_cases hkj : k = j
          · subst hkj
            rw [hz] at hrs
            rw [hke]
            have := abs_sub_abs_le_abs_sub (muS s.nCols (bR t) kappa k) v
            rw [abs_sub_comm] at this
            simp only [Int.cast_zero, sub_zero] at hrs
            linarith
          · exact tr k (by omega) h4
      · rw [if_neg (by simpa using hz)]
        have hneg : (neg (Rd.of (z : ℚ)) : Rd fl) = Rd.of ((-z : ℤ) : ℚ) := by push_cast; rfl
        rw [hneg]
        have hjs : j < t.nSourceRows := by rw [dm.source]; omega
        have hkt : kappa < t.nKnownRows := by rw [dm.known]; exact hk
        obtain ⟨q1, q2, q3, q4, q5⟩ := rowAddmulWe_keep t kappa j (Rd.of ((-z : ℤ) : ℚ))
        have hb := fun k c hc => rowAddmulWe_b_round g.wf (g.cfg.forceLong.trans hfo) (i := kappa) (j := j) hjs (-z) k c hc
        have g' := g.trans (rowAddmulWe_good g.wf hkt hjs (by omega) (Rd.of ((-z : ℤ) : ℚ)))
        have d' := dm.trans (rowAddmulWe_dims t kappa j (Rd.of ((-z : ℤ) : ℚ)))
        generalize t.rowAddmulWe kappa j (Rd.of ((-z : ℤ) : ℚ)) = t' at *
        -- the change of the exact coefficients
        have hmuC : ∀ k < kappa, muS s.nCols (bR t') kappa k = muS s.nCols (bR t) kappa k - z * muS s.nCols (bR s) j k := by
          intro k hkk
          have e := muS_add (n := s.nCols) (B := bR t) (B' := bR t') (i := kappa) (j := j) (k := k) (x := ((-z : ℤ) : ℚ))
            (fun l hl c hc => by
              unfold bR
              rw [q5 l (by omega)])
            (fun c hc => by
              unfold bR
              rw [hb kappa c (by rw [tn]; exact hc), if_pos rfl]
              push_cast; ring)
          rw [e]
          have e2 : muS s.nCols (bR t) j k = muS s.nCols (bR s) j k := by
            refine muS_congr (fun l hl c hc => ?_) (fun c hc => ?_)
            · unfold bR; rw [tb l (by omega)]
            · unfold bR; rw [tb j (by omega)]
          rw [e2]; push_cast; ring
        have hxW : |((z : ℤ) : ℚ)| ≤ 2 * K * ρ ^ (kappa - (j + 1)) := by
          have := abs_sub_abs_le_abs_sub (z : ℚ) v
          rw [abs_sub_comm] at this
          linarith
        refine ⟨g', d', q1.trans tmu, q4.trans tn, fun k hk' => (q5 k hk').trans (tb k hk'), ?_, ?_⟩
        · -- the updated coefficients
          have hup := forUp_inv (P := fun m (bm' : ℕ → Rd fl) => (∀ k, m ≤ k → bm' k = bm k) ∧ ∀ k < m, bm' k = sub (bm k) (mul (Rd.of (z : ℚ)) (t.mu j k)))
            (fun k (bm : ℕ → Rd fl) => setAt bm k (sub (bm k) (mul (Rd.of (z : ℚ)) (t.mu j k)))) (Nat.zero_le j) bm
            ⟨fun _ _ => rfl, fun k hk' => by omega⟩
            (by
              intro m bm' _ hm ⟨i1, i2⟩
              refine ⟨fun k hk' => ?_, fun k hk' => ?_⟩
              · rw [setAt_ne _ _ (by omega)]; exact i1 k (by omega)
              · by_cases hkm : k = m
                · subst hkm; rw [setAt_self, i1 k le_rfl]
                · rw [setAt_ne _ _ hkm]; exact i2 k (by omega))
          intro k hkj
          dsimp only
          rw [hup.2 k hkj]
          obtain ⟨a1, a2, a3⟩ := tm k (by omega)
          obtain ⟨m1, m2, m3⟩ := hM j h2 k hkj
          obtain ⟨e1, e2⟩ := hE k (by omega)
          have hval : sub (bm k) (mul (Rd.of (z : ℚ)) (t.mu j k)) = (Rd.of (fl (Rd.val (bm k) - fl (z * Rd.val (s.mu j k)))) : Rd fl) := by
            rw [tmu]
            conv_lhs => rw [a1, m1]
            rfl
          rw [hval]
          have st := step_num hfl hu e1 e2 hxW m2 m3 a3 (ν := muS s.nCols (bR t) kappa k)
          refine ⟨rfl, ?_, ?_⟩
          · rw [hmuC k (by omega)]
            refine st.1.trans ?_
            have h0 : 0 ≤ 3 * E k * K := mul_nonneg (by linarith) hK
            have := hgrow _ h0
            have e3 : 3 * E k * (2 * K * ρ ^ (kappa - (j + 1))) = 2 * (3 * E k * K * ρ ^ (kappa - (j + 1))) := by ring
            linarith
          · refine st.2.trans ?_
            have := hgrow (2 * K) (by linarith)
            linarith
        · intro k h3 h4
          rw [hmuC k h4]
          by_cases hkj : k = j
          · subst hkj
            rw [muS_self (hpos k h4), mul_one, hke]
            have e : muS s.nCols (bR t) kappa k - z = -(v - muS s.nCols (bR t) kappa k) + (v - z) := by ring
            rw [e]
            have := abs_add_le (-(v - muS s.nCols (bR t) kappa k)) (v - z)
            rw [abs_neg] at this
            linarith
          · rw [muS_upper _ _ (by omega : j < k), mul_zero, sub_zero]
            exact tr k (by omega) h4)
  obtain ⟨g, dm, e1, e2, e3, e4, e5⟩ := L
  generalize (forDown 0 kappa (babaiStep kappa 0) (s, bm0)).1 = t at *
  have fo := rowOpEnd_fo t kappa (kappa + 1)
  have hbr : bR (t.rowOpEnd kappa (kappa + 1)) = bR t := by unfold bR; rw [fo.b]
  rw [hbr]
  intro k hk'
  exact e5 k (Nat.zero_le k) hk'

end LLL
end Fplll

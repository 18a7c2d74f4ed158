import Verif.Proofs.LLLRound
import Verif.Proofs.BabaiOk

/-!
# `is_lll_reduced` with rounding

The exact Gram matrix, and Gram-Schmidt coefficients in floating-point arithmetic with a relative error: what the tests of `is_lll_reduced` say about the basis.
-/

open Finset

namespace Fplll
namespace Chol

open GSO

/-- the right-hand side of the test: `r (δ - μ²)` -/
theorem lov_fl {u δ R M : ℚ} {fl : ℚ → ℚ} (hfl : RelErr u fl) (hu : 0 ≤ u) (hu8 : u ≤ 1 / 88) (hR : 0 ≤ R) (hδ : δ ≤ 1) (hM : M ^ 2 ≤ δ) : |fl (R * fl (δ - fl (M * M))) - R * (δ - M ^ 2)| ≤ 7 / 2 * u * R := by
  have hM0 := sq_nonneg M
  have e1 := hfl (M * M)
  rw [abs_of_nonneg (mul_self_nonneg M)] at e1
  rw [← pow_two] at e1 ⊢
  generalize fl (M ^ 2) = f1 at *
  generalize M ^ 2 = a at *
  have e1' : |f1 - a| ≤ u := e1.trans (mul_le_of_le_one_right hu (by linarith))
  obtain ⟨c1, c2⟩ := abs_le.1 e1'
  have hx : |δ - f1| ≤ 1 + u := by rw [abs_le]; constructor <;> linarith
  have e2 := (hfl (δ - f1)).trans (mul_le_mul_of_nonneg_left hx hu)
  generalize fl (δ - f1) = f2 at *
  obtain ⟨c3, c4⟩ := abs_le.1 e2
  have huu : u * u ≤ 1 / 88 * u := mul_le_mul_of_nonneg_right hu8 hu
  have e3 : |f2 - (δ - a)| ≤ 9 / 4 * u := by rw [abs_le]; constructor <;> nlinarith
  obtain ⟨c5, c6⟩ := abs_le.1 e3
  have hf2 : |f2| ≤ 1 + 9 / 4 * u := by rw [abs_le]; constructor <;> linarith
  have e4 := hfl (R * f2)
  rw [abs_mul, abs_of_nonneg hR] at e4
  have e5 : u * (R * |f2|) ≤ u * (R * (1 + 9 / 4 * u)) := mul_le_mul_of_nonneg_left (mul_le_mul_of_nonneg_left hf2 hR) hu
  have e6 : |R * f2 - R * (δ - a)| ≤ R * (9 / 4 * u) := by
    rw [← mul_sub, abs_mul, abs_of_nonneg hR]; exact mul_le_mul_of_nonneg_left e3 hR
  have e7 : fl (R * f2) - R * (δ - a) = (fl (R * f2) - R * f2) + (R * f2 - R * (δ - a)) := by ring
  rw [e7]
  refine (abs_add_le _ _).trans ?_
  have e8 : u * (R * (1 + 9 / 4 * u)) ≤ R * (5 / 4 * u) := by
    have : R * (u * u) ≤ R * (1 / 88 * u) := mul_le_mul_of_nonneg_left huu hR
    have e : u * (R * (1 + 9 / 4 * u)) = R * u + 9 / 4 * (R * (u * u)) := by ring
    have : 0 ≤ R * u := mul_nonneg hR hu
    linarith
  linarith

/-- the same, compared with the exact value -/
theorem lov_diff {u δ E r R M mu : ℚ} {fl : ℚ → ℚ} (hfl : RelErr u fl) (hu : 0 ≤ u) (huE : 11 * u ≤ E) (hE8 : E ≤ 1 / 8) (hr : 0 < r) (hR : |R - r| ≤ E * r) (hM : |M - mu| ≤ 5 / 2 * E) (hM1 : |M| ≤ 1) (hmu : |mu| ≤ 1)
    (hδ : δ ≤ 1) (hMδ : M ^ 2 ≤ δ) : |fl (R * fl (δ - fl (M * M))) - r * (δ - mu ^ 2)| ≤ 13 / 2 * E * r := by
  have hE : 0 ≤ E := by linarith
  obtain ⟨h1, h2⟩ := abs_le.1 hR
  have hR0 : 0 ≤ R := by
    have := mul_le_mul_of_nonneg_right hE8 hr.le
    linarith
  have k1 := lov_fl hfl hu (by linarith) hR0 hδ hMδ
  have k2 : |R * (δ - M ^ 2) - r * (δ - M ^ 2)| ≤ E * r := by
    rw [← sub_mul, abs_mul, abs_of_nonneg (by linarith : 0 ≤ δ - M ^ 2)]
    have := mul_le_mul hR (by have := sq_nonneg M; linarith : δ - M ^ 2 ≤ 1) (by linarith) (by positivity)
    linarith
  have k3 : |r * (δ - M ^ 2) - r * (δ - mu ^ 2)| ≤ 5 * E * r := by
    have e : r * (δ - M ^ 2) - r * (δ - mu ^ 2) = -(r * ((M - mu) * (M + mu))) := by ring
    rw [e, abs_neg, abs_mul, abs_mul, abs_of_pos hr]
    have a : |M + mu| ≤ 2 := (abs_add_le _ _).trans (by linarith)
    have := mul_le_mul hM a (abs_nonneg _) (by linarith)
    have := mul_le_mul_of_nonneg_left this hr.le
    linarith
  have k4 : 7 / 2 * u * R ≤ 1 / 2 * E * r := by
    have a : R ≤ 9 / 8 * r := by
      have := mul_le_mul_of_nonneg_right hE8 hr.le
      linarith
    have b := mul_le_mul_of_nonneg_left a (by linarith : 0 ≤ 7 / 2 * u)
    have c : u * r ≤ 1 / 11 * E * r := mul_le_mul_of_nonneg_right (by linarith) hr.le
    have := mul_nonneg hE hr.le
    nlinarith
  have e : fl (R * fl (δ - fl (M * M))) - r * (δ - mu ^ 2) = (fl (R * fl (δ - fl (M * M))) - R * (δ - M ^ 2)) + (R * (δ - M ^ 2) - r * (δ - M ^ 2)) + (r * (δ - M ^ 2) - r * (δ - mu ^ 2)) := by ring
  rw [e]
  refine (abs_add_le _ _).trans ?_
  have := abs_add_le (fl (R * fl (δ - fl (M * M))) - R * (δ - M ^ 2)) (R * (δ - M ^ 2) - r * (δ - M ^ 2))
  linarith

/-- the error of a quotient -/
theorem mu_err52 {u η E r R rk Rk M mu : ℚ} (hu : 0 ≤ u) (huE : 11 * u ≤ E) (hE8 : E ≤ 1 / 8) (hη : 0 ≤ η) (hη1 : η ≤ 1) (hrk : 0 < rk) (hr : r = mu * rk) (hmu : |mu| ≤ η) (h1 : |R - r| ≤ E * rk) (h2 : |Rk - rk| ≤ E * rk)
    (hM : |M - R / Rk| ≤ u * |R / Rk|) : |M - mu| ≤ 5 / 2 * E := by
  have hE : 0 ≤ E := by linarith
  have k1 := mu_err hu hη hE hE8 hrk hr hmu h1 h2 hM
  obtain ⟨-, q2⟩ := q_le hη hη1 hE hE8
  refine le_trans k1 ?_
  have h1E : 0 < 1 - E := by linarith
  have q0 : 0 ≤ (1 + η) * E / (1 - E) := by positivity
  generalize (1 + η) * E / (1 - E) = q at *
  have w : u * (η + q) ≤ u * (9 / 7) := mul_le_mul_of_nonneg_left (by linarith) hu
  linarith

/-- what `is_lll_reduced` knows: the recurrences, and its tests on the computed values -/
structure CompT (m : ℕ) (η δ u : ℚ) (fl : ℚ → ℚ) (g r mu R M : ℕ → ℕ → ℚ) : Prop where
  pos : ∀ i < m, 0 < r i i
  rmu : ∀ i < m, ∀ j < i, r i j = mu i j * r j j
  gram : ∀ i < m, ∀ j ≤ i, g i j = r i j + ∑ k ∈ range j, mu j k * r i k
  rel : RelErr u fl
  comp : ∀ i < m, ∀ j ≤ i, R i j = csum fl (g i j) (M j) (R i) j
  quot : ∀ i < m, ∀ j < i, M i j = fl (R i j / R j j)
  redc : ∀ i < m, ∀ j < i, |M i j| ≤ η
  lovc : ∀ i, i + 1 < m → fl (R i i * fl (δ - fl (M (i + 1) i * M (i + 1) i))) ≤ R (i + 1) (i + 1)

theorem CompT.mono {m m' : ℕ} {η δ u : ℚ} {fl : ℚ → ℚ} {g r mu R M : ℕ → ℕ → ℚ} (h : CompT m η δ u fl g r mu R M) (hm : m' ≤ m) : CompT m' η δ u fl g r mu R M :=
  ⟨fun i hi => h.pos i (by omega), fun i hi => h.rmu i (by omega), fun i hi => h.gram i (by omega), h.rel, fun i hi => h.comp i (by omega), fun i hi => h.quot i (by omega),
   fun i hi => h.redc i (by omega), fun i hi => h.lovc i (by omega)⟩

theorem CompT.row {m : ℕ} {η δ u : ℚ} {fl : ℚ → ℚ} {g r mu R M : ℕ → ℕ → ℚ} (h : CompT (m + 1) η δ u fl g r mu R M) : Row m fl g r mu R M :=
  ⟨h.rmu m (by omega), h.gram m (by omega), fun j hj => h.comp m (by omega) j hj.le, h.quot m (by omega)⟩

/-- Lovász' condition of the next row -/
theorem lov_stepT {d m : ℕ} {η δ η' δ' u ε ρ : ℚ} {fl : ℚ → ℚ} {g r mu R M : ℕ → ℕ → ℚ} (hp : Par d η δ η' δ' u ε ρ) (hρ3 : 3 ≤ ρ) (hη' : 1 / 2 ≤ η') (hδ' : δ' ≤ 1) (hηδ : η ^ 2 ≤ δ) (hη1 : η ≤ 1)
    (hc : CompT (m + 2) η δ u fl g r mu R M) (hmd : m + 3 ≤ d) (hD : Data (m + 1) η' (1 / (δ' - η' ^ 2)) u fl g r mu R M) :
    δ' * r m m ≤ r (m + 1) (m + 1) + mu (m + 1) m ^ 2 * r m m := by
  have hα : (0 : ℚ) < 1 / (δ' - η' ^ 2) := by have := hp.den; positivity
  have hα1 : 1 ≤ 1 / (δ' - η' ^ 2) * (1 - η' ^ 2) := by
    rw [one_div, ← div_eq_inv_mul, le_div_iff₀ hp.den]; linarith
  have hα2 : 1 / (δ' - η' ^ 2) * ((1 + η') ^ 2 + ε) ≤ ρ := by rw [one_div, ← div_eq_inv_mul]; exact hp.growth
  have hα3 : 1 ≤ 1 / (δ' - η' ^ 2) := by
    rw [le_div_iff₀ hp.den]; have := sq_nonneg η'; linarith
  have hd1 : (1 : ℚ) ≤ d := by exact_mod_cast (by omega : 1 ≤ d)
  have hρ1 : 1 ≤ ρ := by linarith
  have hu := hp.u0
  have herr := error hD (by omega : m + 1 ≤ d) hη' hp.eta1 hα hα1 hu hp.eps hρ3 hα2 hp.prec
  have hrow := row_small hp hρ3 hη' hδ' hc.row (hc.redc (m + 1) (by omega)) (by omega) hD
  set E := bnd d ρ u m with hE
  set E1 := bnd d ρ u (m + 1) with hE1
  have hE8 : E ≤ 1 / 8 := le_trans (bnd_le hu hρ1 hp.prec (by omega)) (by have := hp.eps; linarith)
  have hE0 : 0 ≤ E := by rw [hE]; unfold bnd; positivity
  have hEu : 11 * u ≤ E := by
    have h1 : ρ ≤ ρ ^ (m + 1) := le_self_pow₀ hρ1 (by omega)
    have h2 : 3 ≤ (d : ℚ) * ρ ^ (m + 1) := by nlinarith
    rw [hE]
    unfold bnd
    nlinarith
  have hEE : 3 * E ≤ E1 := by
    have : E1 = ρ * E := by rw [hE, hE1]; unfold bnd; ring
    rw [this]
    exact mul_le_mul_of_nonneg_right hρ3 hE0
  have hE4 : 4 * E1 ≤ 16 * d * ρ ^ (d - 1) * u := by
    have h1 : ρ ^ (m + 1 + 1) ≤ ρ ^ (d - 1) := pow_le_pow_right₀ hρ1 (by omega)
    have h2 : E1 ≤ 11 / 3 * d * ρ ^ (d - 1) * u := by rw [hE1]; unfold bnd; gcongr
    have : 0 ≤ (d : ℚ) * ρ ^ (d - 1) * u := by positivity
    linarith
  have rm := hc.pos m (by omega)
  have rm1 := hc.pos (m + 1) (by omega)
  rcases le_total (r m m) (r (m + 1) (m + 1)) with h | h
  · have := mul_nonneg (sq_nonneg (mu (m + 1) m)) rm.le
    exact ((mul_le_of_le_one_left rm.le hδ').trans h).trans (by linarith)
  have key : |R (m + 1) (m + 1) - r (m + 1) (m + 1)| ≤ E1 * r m m := by
    rw [hc.comp (m + 1) (by omega) (m + 1) le_rfl]
    refine pair (a := mu (m + 1)) (q := r (m + 1)) (Q := R (m + 1)) (p := r (m + 1)) (mp := mu (m + 1)) (D := fun k => r k k) (RD := fun k => R k k) hc.rel (by omega) hη' hp.eta1 hα hα1 hu hp.eps hρ3 hα2 hp.prec
      (fun k hk => hc.pos k (by omega)) (fun k hk => herr k k le_rfl (by omega)) (fun k hk => hc.rmu (m + 1) (by omega) k (by omega)) (fun k hk => (hrow k (by omega)).2) (fun k hk => (hrow k (by omega)).1)
      (fun k hk => hc.quot (m + 1) (by omega) k (by omega)) (fun k hk => hc.rmu (m + 1) (by omega) k (by omega)) (fun k hk => (hrow k (by omega)).2) (fun k hk => (hrow k (by omega)).1)
      rm ?_ ?_ (by rw [abs_of_pos rm1]; exact h)
    · intro k hk
      refine (hD.grow hα.le (by omega : k ≤ m) (by omega)).trans (mul_le_mul_of_nonneg_right ?_ rm.le)
      exact pow_le_pow_right₀ hα3 (by omega)
    · rw [hc.gram (m + 1) (by omega) (m + 1) le_rfl]
  have hMη := hc.redc (m + 1) (by omega) m (by omega)
  have hM2 : M (m + 1) m ^ 2 ≤ δ := by
    rw [← sq_abs]
    have h0 := abs_nonneg (M (m + 1) m)
    exact (pow_le_pow_left₀ h0 hMη 2).trans hηδ
  have hme := mu_err52 hu hEu hE8 (by linarith) hp.eta1 rm (hc.rmu (m + 1) (by omega) m (by omega)) (hrow m (by omega)).2 (hrow m (by omega)).1 (herr m m le_rfl (by omega)) (M := M (m + 1) m)
    (by rw [hc.quot (m + 1) (by omega) m (by omega)]; exact hc.rel _)
  have L := lov_diff hc.rel hu hEu hE8 rm (herr m m le_rfl (by omega)) hme (hMη.trans hη1) ((hrow m (by omega)).2.trans hp.eta1) hp.delta hM2
  have l := hc.lovc m (by omega)
  have l1 := (abs_le.1 L).1
  have l2 := (abs_le.1 key).2
  have l3 : E * r m m ≤ 1 / 3 * E1 * r m m := mul_le_mul_of_nonneg_right (by linarith) rm.le
  have l4 : δ' * r m m ≤ (δ - 4 * E1) * r m m := mul_le_mul_of_nonneg_right (by have := hp.mar2; linarith) rm.le
  have l5 : 0 ≤ E1 * r m m := mul_nonneg (by linarith) rm.le
  linarith

/-- the basis `is_lll_reduced` accepts is reduced -/
theorem data_of_compT {d m : ℕ} {η δ η' δ' u ε ρ : ℚ} {fl : ℚ → ℚ} {g r mu R M : ℕ → ℕ → ℚ} (hp : Par d η δ η' δ' u ε ρ) (hρ3 : 3 ≤ ρ) (hη' : 1 / 2 ≤ η') (hδ' : δ' ≤ 1) (hηδ : η ^ 2 ≤ δ) (hη1 : η ≤ 1)
    (hmd : m + 1 ≤ d) (hc : CompT m η δ u fl g r mu R M) :
    Data m η' (1 / (δ' - η' ^ 2)) u fl g r mu R M ∧ ∀ i, i + 1 < m → δ' * r i i ≤ r (i + 1) (i + 1) + mu (i + 1) i ^ 2 * r i i := by
  induction m with
  | zero =>
    refine ⟨⟨fun i hi => by omega, fun i hi => by omega, fun i hi => by omega, fun i hi => by omega, fun i hi => by omega, hc.rel, fun i hi => by omega, fun i hi => by omega⟩, fun i hi => by omega⟩
  | succ m ih =>
    obtain ⟨hD, hL⟩ := ih (by omega) (hc.mono (by omega))
    have hrow := row_small hp hρ3 hη' hδ' hc.row (hc.redc m (by omega)) (by omega) hD
    have hlov : ∀ i, i + 1 < m + 1 → δ' * r i i ≤ r (i + 1) (i + 1) + mu (i + 1) i ^ 2 * r i i := by
      intro i hi
      by_cases e : i + 1 < m
      · exact hL i e
      · have : m = i + 1 := by omega
        subst this
        exact lov_stepT hp hρ3 hη' hδ' hηδ hη1 hc (by omega) hD
    refine ⟨⟨hc.pos, hc.rmu, ?_, ?_, hc.gram, hc.rel, ?_, hc.quot⟩, hlov⟩
    · intro i hi j hj
      by_cases e : i = m
      · subst e; exact (hrow j hj).2
      · exact hD.red i (by omega) j hj
    · intro i hi
      have h1 := hlov i hi
      have h0 := hc.pos i (by omega)
      have h2 : |mu (i + 1) i| ≤ η' := by
        by_cases e : i + 1 = m
        · subst e; exact (hrow i (by omega)).2
        · exact hD.red (i + 1) (by omega) i (by omega)
      have h3 : mu (i + 1) i ^ 2 ≤ η' ^ 2 := by
        rw [← sq_abs]; gcongr
      have h4 := mul_le_mul_of_nonneg_right h3 h0.le
      rw [one_div, ← div_eq_inv_mul, le_div_iff₀ hp.den]
      linarith
    · intro i hi j hj
      exact ⟨csum fl (g i j) (M j) (R i), rfl, fun k => rfl, hc.comp i hi j hj⟩

end Chol

open FloatOps GSO Spec LLL

namespace GSO

variable {F : Type} [FloatOps F] {fl : ℚ → ℚ}

/-- the update of row `i` leaves the other rows alone -/
theorem updateGsoLoop_others (i n : ℕ) : ∀ (j : ℕ) (s : GSO F) (p : ℕ), p ≠ i → (updateGsoLoop i n j s).2.mu p = s.mu p ∧ (updateGsoLoop i n j s).2.r p = s.r p := by
  induction n with
  | zero => intro j s p _; exact ⟨rfl, rfl⟩
  | succ n ih =>
    intro j s p hp
    rw [updateGsoLoop]
    dsimp only
    have hr : ∀ x : F, Mat.set s.r i j x p = s.r p := fun x => by funext q; rw [Mat.set_apply, if_neg (by tauto)]
    have hm : ∀ x : F, Mat.set s.mu i j x p = s.mu p := fun x => by funext q; rw [Mat.set_apply, if_neg (by tauto)]
    split_ifs
    · refine ⟨((ih _ _ p hp).1).trans (hm _), ((ih _ _ p hp).2).trans (hr _)⟩
    · exact ⟨hm _, hr _⟩
    · refine ⟨((ih _ _ p hp).1).trans rfl, ((ih _ _ p hp).2).trans (hr _)⟩

theorem updateGsoRow_others (s : GSO F) (i l : ℕ) {p : ℕ} (hp : p ≠ i) : (s.updateGsoRow i l).2.mu p = s.mu p ∧ (s.updateGsoRow i l).2.r p = s.r p := by
  unfold updateGsoRow
  dsimp only
  split_ifs
  · exact updateGsoLoop_others _ _ _ _ _ hp
  · exact updateGsoLoop_others _ _ _ _ _ hp

/-- `update_gso` computes the rows until a division by zero -/
theorem updateGsoFrom_prefix (n : ℕ) : ∀ (i : ℕ) (s : GSO (Rd fl)), WF s → FreshR s → i + n = s.d → i ≤ s.nKnownRows → (∀ k < i, k + 1 ≤ s.gsoValidCols k) →
    ∃ m ≤ s.d, (∀ p < m, ∀ q ≤ p, Entry fl (updateGsoFrom n i s).2 p q) ∧ (m < s.d → ∃ j < m, Rd.val ((updateGsoFrom n i s).2.r j j) = 0) ∧
      (updateGsoFrom n i s).2.b = s.b ∧ (updateGsoFrom n i s).2.nCols = s.nCols ∧ (updateGsoFrom n i s).2.d = s.d := by
  induction n with
  | zero =>
    intro i s _ hf hi hk hv
    refine ⟨s.d, le_rfl, ?_, fun h => absurd h (lt_irrefl _), rfl, rfl, rfl⟩
    intro p hp q hq
    have e : (updateGsoFrom 0 i s).2 = s := rfl
    rw [e]
    have := hv p (by omega)
    exact hf.entry p (by omega) q (by omega)
  | succ n ih =>
    intro i s hs hf hi hk hv
    have hid : i < s.d := by omega
    have g := updateGsoRow_good hs hid (i + 1)
    have gb := updateGsoRow_b s i (i + 1)
    have gc := g.cfg.nCols
    have gd := g.cfg.d
    rw [updateGsoFrom]
    by_cases hok : (s.updateGsoRow i (i + 1)).1 = true
    · rw [if_pos hok]
      obtain ⟨f1, f2, f3, f4⟩ := updateGsoRow_freshR hs hf hid hk le_rfl (fun k h1 h2 => hv k h2) hok
      have hk' : i + 1 ≤ (s.updateGsoRow i (i + 1)).2.nKnownRows := by
        rw [updateGsoRow_known]; split_ifs <;> omega
      obtain ⟨m, a1, a2, a3, a4, a5, a6⟩ := ih (i + 1) (s.updateGsoRow i (i + 1)).2 g.wf f1 (by rw [gd]; omega) hk' (by
        intro k hk2
        by_cases e : k = i
        · rw [e]; exact f2
        · rw [f3 k e (by omega)]; exact hv k (by omega))
      exact ⟨m, by omega, a2, fun h => a3 (by omega), a4.trans gb, a5.trans gc, a6.trans gd⟩
    · rw [if_neg hok]
      have hz : ∃ k < i, Rd.val (s.r k k) = 0 := by
        by_contra hc
        push Not at hc
        exact hok (updateGsoRow_ok hf hk le_rfl (fun k h1 h2 => ⟨hv k h2, hc k h2⟩))
      obtain ⟨k, k1, k2⟩ := hz
      have ho : ∀ p < i, (s.updateGsoRow i (i + 1)).2.mu p = s.mu p ∧ (s.updateGsoRow i (i + 1)).2.r p = s.r p := fun p hp => updateGsoRow_others s i (i + 1) (by omega)
      refine ⟨i, hid.le, ?_, fun _ => ⟨k, k1, by rw [(ho k k1).2]; exact k2⟩, gb, gc, gd⟩
      intro p hp q hq
      have := hv p hp
      refine (hf.entry p (by omega) q (by omega)).congr id ?_ (fun k _ => by rw [(ho p hp).2]) (fun k _ => by rw [(ho q (by omega)).1]) (fun _ => by rw [(ho q (by omega)).2]) (fun _ => by rw [(ho p hp).1])
      unfold ip; rw [gb, gc]

/-- the tests of `is_lll_reduced` -/
theorem isLllReduced_iff (s : GSO F) (δ η : F) : (isLllReduced s δ η).1 = true ↔
    (∀ i < s.updateGso.2.d, ∀ j < i, (gt (abs (s.updateGso.2.mu i j)) η : Bool) = false) ∧
    ∀ i, i + 1 < s.updateGso.2.d → (lt (s.updateGso.2.r (i + 1) (i + 1)) (mul (s.updateGso.2.r i i) (sub δ (mul (s.updateGso.2.mu (i + 1) i) (s.updateGso.2.mu (i + 1) i)))) : Bool) = false := by
  unfold isLllReduced
  dsimp only
  rw [Bool.and_eq_true]
  generalize s.updateGso.2 = t
  refine and_congr ?_ ?_
  · refine forUp_inv (P := fun m (ok : Bool) => (ok = true ↔ ∀ i < m, ∀ j < i, (gt (abs (t.mu i j)) η : Bool) = false))
      (fun i ok => forUp 0 i (fun j ok => ok && !gt (abs (t.mu i j)) η) ok) (Nat.zero_le t.d) true
      (by simp) ?_
    intro i ok _ hi hok
    have inner := forUp_inv (P := fun m (ok' : Bool) => (ok' = true ↔ ok = true ∧ ∀ j < m, (gt (abs (t.mu i j)) η : Bool) = false))
      (fun j ok => ok && !gt (abs (t.mu i j)) η) (Nat.zero_le i) ok (by simp)
      (by
        intro j ok' _ hj hok'
        rw [Bool.and_eq_true, hok', Bool.not_eq_true', and_assoc]
        refine and_congr_right (fun _ => ?_)
        constructor
        · rintro ⟨a, b⟩ k hk
          by_cases h : k = j
          · rw [h]; exact b
          · exact a k (by omega)
        · intro a; exact ⟨fun k hk => a k (by omega), a j (by omega)⟩)
    rw [inner, hok]
    constructor
    · rintro ⟨a, b⟩ k hk
      by_cases h : k = i
      · rw [h]; exact b
      · exact a k (by omega)
    · intro a; exact ⟨fun k hk => a k (by omega), a i (by omega)⟩
  · by_cases hd1 : 1 ≤ t.d
    · refine forUp_inv (P := fun m (ok : Bool) => (ok = true ↔ ∀ i, i + 1 < m → (lt (t.r (i + 1) (i + 1)) (mul (t.r i i) (sub δ (mul (t.mu (i + 1) i) (t.mu (i + 1) i)))) : Bool) = false))
        (fun i ok => ok && !lt (t.r i i) (mul (t.r (i - 1) (i - 1)) (sub δ (mul (t.mu i (i - 1)) (t.mu i (i - 1)))))) hd1 true
        (by simp) ?_
      intro i ok h1 hi hok
      rw [Bool.and_eq_true, hok, Bool.not_eq_true']
      constructor
      · rintro ⟨a, b⟩ k hk
        by_cases h : k + 1 = i
        · rw [← h] at b; simpa only [Nat.add_sub_cancel] using b
        · exact a k (by omega)
      · intro a
        refine ⟨fun k hk => a k (by omega), ?_⟩
        have := a (i - 1) (by omega)
        rwa [show i - 1 + 1 = i by omega] at this
    · rw [forUp_empty (by omega)]
      simp only [true_iff]
      intro i hi; omega

end GSO
end Fplll

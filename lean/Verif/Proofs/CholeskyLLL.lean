import Verif.Proofs.GsoRound

/-!
# Rounding errors of the Cholesky factorisation, from what was computed

As `Proofs/Cholesky.lean`, but the basis is not known to be reduced: the conditions are those LLL tests on the computed values.
-/

open Finset

namespace Fplll
namespace Chol

open GSO

/-- the error of one sum: `x = G - ∑ a(k) p(k)`, where the errors of the coefficients before column `j` are known -/
theorem pairM {d j : ℕ} {η α u ε ρ N x G : ℚ} {fl : ℚ → ℚ} {a A q Q p P mp D RD : ℕ → ℚ} (hfl : RelErr u fl) (hj : j < d) (hη : 1 / 2 ≤ η) (hη1 : η ≤ 1) (hα : 0 < α) (hαη : 1 ≤ α * (1 - η ^ 2))
    (hu : 0 ≤ u) (hε : ε ≤ 1) (hρ3 : 3 ≤ ρ) (hρ : α * ((1 + η) ^ 2 + ε) ≤ ρ) (hprec : 32 * d ^ 2 * ρ ^ d * u ≤ ε)
    (hD : ∀ k < j, 0 < D k) (hRD : ∀ k < j, |RD k - D k| ≤ bnd d ρ u k * D k)
    (hq : ∀ k < j, q k = a k * D k) (ha : ∀ k < j, |a k| ≤ η) (hQ : ∀ k < j, |Q k - q k| ≤ bnd d ρ u k * D k) (hA : ∀ k < j, |A k - Q k / RD k| ≤ u * |Q k / RD k|)
    (hp : ∀ k < j, p k = mp k * D k) (hmp : ∀ k < j, |mp k| ≤ η) (hP : ∀ k < j, |P k - p k| ≤ bnd d ρ u k * D k)
    (hN : 0 < N) (hg : ∀ k < j, D k ≤ α ^ (j - k) * N) (hG : G = x + ∑ k ∈ range j, a k * p k) (hx : |x| ≤ N) :
    |csum fl G A P j - x| ≤ bnd d ρ u j * N := by
  have hd1 : (1 : ℚ) ≤ d := by exact_mod_cast (by omega : 1 ≤ d)
  have hρ1 : 1 ≤ ρ := by linarith
  have hE0 : ∀ k, 0 ≤ bnd d ρ u k := fun k => by unfold bnd; positivity
  have hEε := fun k hk => bnd_le hu hρ1 hprec (k := k) hk
  have hEu : ∀ k, 11 * u ≤ bnd d ρ u k := by
    intro k
    have h1 : ρ ≤ ρ ^ (k + 1) := le_self_pow₀ hρ1 (by omega)
    have h2 : 3 ≤ (d : ℚ) * ρ ^ (k + 1) := by nlinarith
    unfold bnd
    nlinarith
  have hε0 : 0 ≤ ε := le_trans (by positivity) hprec
  have hW := near_one hu hρ3 hε hprec hj
  set s : ℕ → ℚ := fun k => G - ∑ l ∈ range k, a l * p l with hs
  set T : ℕ → ℚ := fun k => ((1 + u) * (((1 + η) ^ 2 - 1) * bnd d ρ u k + 5 * bnd d ρ u k ^ 2) + 3 * u * η ^ 2) * D k with hT
  have acc := accumulate hu hfl (S := csum fl G A P) (s := s) (t := fun k => a k * p k) (P := fun k => fl (A k * P k)) (T := T) (n := j) (by rw [hs]; simp [csum]) (fun k => rfl)
    (fun k => by rw [hs]; simp only; rw [sum_range_succ]; ring) (by
      intro k hk
      refine prod_err hu (by linarith) hη1 (le_trans (hEε k (by omega)) (by linarith)) (hEu k) (hD k hk) (hq k hk) (ha k hk) (hQ k hk) (hRD k hk) (hA k hk)
        (hp k hk) (hmp k hk) (hP k hk) (hfl _)) j le_rfl
  have hsj : s j = x := by rw [hs]; simp only; rw [hG]; ring
  rw [hsj] at acc
  have H := sum_eta hα.le hαη j
  have hsl : ∀ l ∈ range (j + 1), |s l| ≤ α ^ j * N := by
    intro l hl
    rw [mem_range] at hl
    have e : s l = x + ∑ k ∈ Ico l j, a k * p k := by
      rw [hs]; simp only
      rw [hG, ← sum_range_add_sum_Ico _ (by omega : l ≤ j)]; ring
    have b2 : ∀ k ∈ Ico l j, |a k * p k| ≤ η ^ 2 * α ^ (j - k) * N := by
      intro k hk
      rw [mem_Ico] at hk
      have hkj : k < j := by omega
      rw [hp k hkj, abs_mul, abs_mul, abs_of_pos (hD k hkj)]
      have c4 : |a k| * |mp k| ≤ η * η := mul_le_mul (ha k hkj) (hmp k hkj) (abs_nonneg _) (by linarith)
      have c5 := mul_le_mul c4 (hg k hkj) (hD k hkj).le (by positivity)
      have e1 : η * η * (α ^ (j - k) * N) = η ^ 2 * α ^ (j - k) * N := by ring
      have e2 : |a k| * (|mp k| * D k) = |a k| * |mp k| * D k := by ring
      linarith
    rw [e]
    refine le_trans (abs_add_le _ _) ?_
    have b3 := le_trans (abs_sum_le_sum_abs _ _) (sum_le_sum b2)
    have b4 : ∑ k ∈ Ico l j, η ^ 2 * α ^ (j - k) * N ≤ ∑ k ∈ range j, η ^ 2 * α ^ (j - k) * N := by
      refine sum_le_sum_of_subset_of_nonneg (fun k hk => ?_) (fun k _ _ => by positivity)
      rw [mem_Ico] at hk
      rw [mem_range]; omega
    rw [← sum_mul (range j)] at b4
    have := mul_le_mul_of_nonneg_right H hN.le
    rw [add_mul, one_mul] at this
    linarith
  have hss : ∑ l ∈ range (j + 1), |s l| ≤ d * (α ^ j * N) := by
    refine le_trans (sum_le_card_nsmul _ _ _ hsl) ?_
    rw [card_range, nsmul_eq_mul]
    have : ((j + 1 : ℕ) : ℚ) ≤ d := by exact_mod_cast (by omega : j + 1 ≤ d)
    exact mul_le_mul_of_nonneg_right this (by positivity)
  set c := (1 + η) ^ 2 - 1 + ε with hc
  have hWc := near_c hη hη1 hε hε0 hW
  have hW0 : 0 ≤ (1 + u) ^ (j + 1) := by positivity
  have hW1 : (1 + u) ^ (j + 1) ≤ 2 := by
    have : (1 + u) ^ (j + 1) ≤ (1 + u) ^ (j + 2) := pow_le_pow_right₀ (by linarith) (by omega)
    linarith
  have hc0 : 0 ≤ c := by rw [hc]; nlinarith
  have hTk : ∀ k ∈ range j, (1 + u) ^ (j + 1) * T k ≤ (11 / 3 * d * ρ * u) * (α ^ (j - k) * (ρ ^ k * c)) * N + 6 * u * (η ^ 2 * α ^ (j - k)) * N := by
    intro k hk
    rw [mem_range] at hk
    exact term_le hα.le hu (by linarith) hc0 (hD k hk).le (hg k hk) (hEε k (by omega)) hWc hW1
  have Gr := sum_growth hα.le hc0 (by linarith) (c := c) (by rw [hc]; linarith) j (ρ := ρ)
  have hsum := sum_le_sum hTk
  rw [← mul_sum, sum_add_distrib, ← sum_mul, ← mul_sum, ← sum_mul, ← mul_sum] at hsum
  have hu2 : (1 + u) ^ (j + 1) * (u * ∑ l ∈ range (j + 1), |s l|) ≤ 2 * (u * (d * (α ^ j * N))) := by
    refine mul_le_mul hW1 (mul_le_mul_of_nonneg_left hss hu) ?_ (by norm_num)
    exact mul_nonneg hu (sum_nonneg fun _ _ => abs_nonneg _)
  rw [mul_add] at acc
  set X := ∑ k ∈ range j, α ^ (j - k) * (ρ ^ k * c) with hX
  set Y := ∑ k ∈ range j, η ^ 2 * α ^ (j - k) with hY
  have f1 : (11 / 3 * d * ρ * u) * X * N ≤ (11 / 3 * d * ρ * u) * (ρ ^ j - α ^ j) * N := by
    refine mul_le_mul_of_nonneg_right (mul_le_mul_of_nonneg_left (by linarith) (by positivity)) hN.le
  have f2 : 6 * u * Y * N ≤ 6 * u * α ^ j * N := by
    refine mul_le_mul_of_nonneg_right (mul_le_mul_of_nonneg_left (by linarith) (by positivity)) hN.le
  have f3 : 8 * d * u * α ^ j * N ≤ (11 / 3 * d * ρ * u) * α ^ j * N := by
    refine mul_le_mul_of_nonneg_right (mul_le_mul_of_nonneg_right ?_ (by positivity)) hN.le
    have h0 : 0 ≤ (d : ℚ) * u := by positivity
    have h1 := mul_le_mul_of_nonneg_left hρ3 h0
    have e : 11 / 3 * (d : ℚ) * ρ * u = 11 / 3 * ((d : ℚ) * u * ρ) := by ring
    rw [e]
    linarith
  have f4 : 6 * u * α ^ j * N ≤ 6 * d * u * α ^ j * N := by
    refine mul_le_mul_of_nonneg_right (mul_le_mul_of_nonneg_right ?_ (by positivity)) hN.le
    have := mul_le_mul_of_nonneg_right hd1 hu
    linarith
  have f5 : bnd d ρ u j * N = (11 / 3 * d * ρ * u) * (ρ ^ j - α ^ j) * N + (11 / 3 * d * ρ * u) * α ^ j * N := by
    unfold bnd; rw [pow_succ]; ring
  rw [f5]
  have e1 : 2 * (u * (d * (α ^ j * N))) = 2 * d * u * α ^ j * N := by ring
  have e2 : 8 * d * u * α ^ j * N = 2 * d * u * α ^ j * N + 6 * d * u * α ^ j * N := by ring
  linarith

/-- the same, with coefficients rounded like the sum -/
theorem pair {d j : ℕ} {η α u ε ρ N x G : ℚ} {fl : ℚ → ℚ} {a A q Q p P mp D RD : ℕ → ℚ} (hfl : RelErr u fl) (hj : j < d) (hη : 1 / 2 ≤ η) (hη1 : η ≤ 1) (hα : 0 < α) (hαη : 1 ≤ α * (1 - η ^ 2))
    (hu : 0 ≤ u) (hε : ε ≤ 1) (hρ3 : 3 ≤ ρ) (hρ : α * ((1 + η) ^ 2 + ε) ≤ ρ) (hprec : 32 * d ^ 2 * ρ ^ d * u ≤ ε)
    (hD : ∀ k < j, 0 < D k) (hRD : ∀ k < j, |RD k - D k| ≤ bnd d ρ u k * D k)
    (hq : ∀ k < j, q k = a k * D k) (ha : ∀ k < j, |a k| ≤ η) (hQ : ∀ k < j, |Q k - q k| ≤ bnd d ρ u k * D k) (hA : ∀ k < j, A k = fl (Q k / RD k))
    (hp : ∀ k < j, p k = mp k * D k) (hmp : ∀ k < j, |mp k| ≤ η) (hP : ∀ k < j, |P k - p k| ≤ bnd d ρ u k * D k)
    (hN : 0 < N) (hg : ∀ k < j, D k ≤ α ^ (j - k) * N) (hG : G = x + ∑ k ∈ range j, a k * p k) (hx : |x| ≤ N) :
    |csum fl G A P j - x| ≤ bnd d ρ u j * N :=
  pairM hfl hj hη hη1 hα hαη hu hε hρ3 hρ hprec hD hRD hq ha hQ (fun k hk => by rw [hA k hk]; exact hfl _) hp hmp hP hN hg hG hx

/-- a small computed coefficient is a small coefficient -/
theorem mu_back {u η E r R rk Rk M : ℚ} (hu : 0 ≤ u) (hη : 0 ≤ η) (hηE : η + 4 * E ≤ 1) (hE8 : E ≤ 1 / 8) (huE : 11 * u ≤ E) (hrk : 0 < rk) (h1 : |R - r| ≤ E * max rk |r|) (h2 : |Rk - rk| ≤ E * rk)
    (hM : |M - R / Rk| ≤ u * |R / Rk|) (hM1 : |M| ≤ η) : |r| ≤ (η + 4 * E) * rk := by
  have hE : 0 ≤ E := by linarith
  have hRk1 : Rk ≤ (1 + E) * rk := by
    have := (abs_le.1 h2).2
    linarith
  have hRk0 : 0 < Rk := by
    have := (abs_le.1 h2).1
    have : (1 - E) * rk ≤ Rk := by linarith
    exact lt_of_lt_of_le (mul_pos (by linarith) hrk) this
  have k1 : (1 - u) * |R / Rk| ≤ η := by
    have := abs_sub_abs_le_abs_sub (R / Rk) M
    rw [abs_sub_comm] at this
    linarith
  have k2 : |R| = |R / Rk| * Rk := by
    rw [abs_div, abs_of_pos hRk0]; field_simp
  have hx0 : 0 ≤ |R / Rk| := abs_nonneg _
  generalize |R / Rk| = x at k1 k2 hx0
  -- `|R| ≤ η (1 + 3/2 E) rk`
  have k3 : x ≤ η * (1 + 2 * u) := by
    have h3 : x * (1 - u) * (1 + 2 * u) ≤ η * (1 + 2 * u) := mul_le_mul_of_nonneg_right (by linarith) (by linarith)
    have h4 : 0 ≤ x * (u * (1 - 2 * u)) := mul_nonneg hx0 (mul_nonneg hu (by linarith))
    have e : x * (1 - u) * (1 + 2 * u) = x + x * (u * (1 - 2 * u)) := by ring
    linarith
  have k4 : |R| ≤ η * (1 + 2 * u) * ((1 + E) * rk) := by
    rw [k2]
    exact mul_le_mul k3 hRk1 hRk0.le (by positivity)
  have k5 : (1 + 2 * u) * (1 + E) ≤ 1 + 5 / 4 * E := by nlinarith
  have k6 : |R| ≤ (η + 5 / 4 * E) * rk := by
    have h3 := mul_le_mul_of_nonneg_left k5 hη
    have h4 : η * (5 / 4 * E) ≤ 5 / 4 * E := mul_le_of_le_one_left (by linarith) (by linarith)
    have h5 := mul_le_mul_of_nonneg_right (by linarith : η * ((1 + 2 * u) * (1 + E)) ≤ η + 5 / 4 * E) hrk.le
    have e : η * (1 + 2 * u) * ((1 + E) * rk) = η * ((1 + 2 * u) * (1 + E)) * rk := by ring
    linarith
  have k7 : |r| ≤ |R| + E * max rk |r| := by
    have := abs_sub_abs_le_abs_sub r R
    rw [abs_sub_comm] at this
    linarith
  rcases le_total |r| rk with h | h
  · rw [max_eq_left h] at k7
    have := mul_nonneg hE hrk.le
    linarith
  · rw [max_eq_right h] at k7
    have h6 : (1 - E) * |r| ≤ (η + 5 / 4 * E) * rk := by linarith
    have h7 : (1 - E) * |r| ≤ (1 - E) * ((η + 4 * E) * rk) := by
      refine le_trans h6 ?_
      rw [← mul_assoc]
      refine mul_le_mul_of_nonneg_right ?_ hrk.le
      nlinarith
    exact le_of_mul_le_mul_left h7 (by linarith)

/-- the threshold of the swap test, lll.cpp:40: `δ`, or with Siegel's condition `δ - η²` -/
def thr (sg : Bool) (η δ : ℚ) : ℚ := if sg then δ - η ^ 2 else δ

/-- the projection tested against row `i`, lll.cpp:119, :131 -/
def tix (sg : Bool) (i : ℕ) : ℕ := if sg then i + 1 else i

/-- what LLL knows: the recurrences, and its tests on the computed values; `sg` is the flag `LLL_SIEGEL` -/
structure Comp (sg : Bool) (m : ℕ) (η δ u : ℚ) (fl : ℚ → ℚ) (g r mu R M : ℕ → ℕ → ℚ) : Prop where
  pos : ∀ i < m, 0 < r i i
  rmu : ∀ i < m, ∀ j < i, r i j = mu i j * r j j
  gram : ∀ i < m, ∀ j ≤ i, g i j = r i j + ∑ k ∈ range j, mu j k * r i k
  rel : RelErr u fl
  comp : ∀ i < m, ∀ j ≤ i, R i j = csum fl (g i j) (M j) (R i) j
  quot : ∀ i < m, ∀ j < i, M i j = fl (R i j / R j j)
  redc : ∀ i < m, ∀ j < i, |M i j| ≤ η
  lovc : ∀ i, i + 1 < m → fl (R i i * thr sg η δ) ≤ csum fl (g (i + 1) (i + 1)) (M (i + 1)) (R (i + 1)) (tix sg i)

theorem Comp.mono {sg : Bool} {m m' : ℕ} {η δ u : ℚ} {fl : ℚ → ℚ} {g r mu R M : ℕ → ℕ → ℚ} (h : Comp sg m η δ u fl g r mu R M) (hm : m' ≤ m) : Comp sg m' η δ u fl g r mu R M :=
  ⟨fun i hi => h.pos i (by omega), fun i hi => h.rmu i (by omega), fun i hi => h.gram i (by omega), h.rel, fun i hi => h.comp i (by omega), fun i hi => h.quot i (by omega),
   fun i hi => h.redc i (by omega), fun i hi => h.lovc i (by omega)⟩

/-- the parameters: LLL was run with `δ` and `η`, and what it returns is reduced with `δ'` and `η'` -/
structure Par (d : ℕ) (η δ η' δ' u ε ρ : ℚ) : Prop where
  eta : 1 / 2 ≤ η
  eta1 : η' ≤ 1
  delta0 : 0 ≤ δ
  delta : δ ≤ 1
  den : 0 < δ' - η' ^ 2
  u0 : 0 ≤ u
  eps : ε ≤ 1
  growth : ((1 + η') ^ 2 + ε) / (δ' - η' ^ 2) ≤ ρ
  prec : 32 * d ^ 2 * ρ ^ d * u ≤ ε
  mar1 : η + 16 * d * ρ ^ (d - 1) * u ≤ η'
  mar2 : δ' + 16 * d * ρ ^ (d - 1) * u ≤ δ

namespace Par
variable {d : ℕ} {η δ η' δ' u ε ρ : ℚ}

theorem eps0 (h : Par d η δ η' δ' u ε ρ) (hρ : 0 ≤ ρ) : 0 ≤ ε := le_trans (by have := h.u0; positivity) h.prec

theorem le_mar {a b : ℚ} (hb : 0 ≤ b) : a ≤ a + b := by linarith

theorem rho3 (h : Par d η δ η' δ' u ε ρ) (hε : 0 ≤ ε) (h1 : 1 / 2 ≤ η') (h2 : δ' ≤ 1) : 3 ≤ ρ := by
  refine le_trans ?_ h.growth
  rw [le_div_iff₀ h.den]
  nlinarith

end Par

/-- the recurrences of the row after the first `m` rows, without its last column -/
structure Row (m : ℕ) (fl : ℚ → ℚ) (g r mu R M : ℕ → ℕ → ℚ) : Prop where
  rmu : ∀ j < m, r m j = mu m j * r j j
  gram : ∀ j ≤ m, g m j = r m j + ∑ k ∈ range j, mu j k * r m k
  comp : ∀ j < m, R m j = csum fl (g m j) (M j) (R m) j
  quot : ∀ j < m, M m j = fl (R m j / R j j)

theorem Comp.row {sg : Bool} {m : ℕ} {η δ u : ℚ} {fl : ℚ → ℚ} {g r mu R M : ℕ → ℕ → ℚ} (h : Comp sg (m + 1) η δ u fl g r mu R M) : Row m fl g r mu R M :=
  ⟨h.rmu m (by omega), h.gram m (by omega), fun j hj => h.comp m (by omega) j hj.le, h.quot m (by omega)⟩

/-- the next row, when its computed coefficients are small -/
theorem row_small {d m : ℕ} {η δ η' δ' u ε ρ : ℚ} {fl : ℚ → ℚ} {g r mu R M : ℕ → ℕ → ℚ} (hp : Par d η δ η' δ' u ε ρ) (hρ3 : 3 ≤ ρ) (hη' : 1 / 2 ≤ η') (hδ' : δ' ≤ 1)
    (hc : Row m fl g r mu R M) (hredc : ∀ j < m, |M m j| ≤ η) (hmd : m + 1 ≤ d) (hD : Data m η' (1 / (δ' - η' ^ 2)) u fl g r mu R M) :
    ∀ j < m, |R m j - r m j| ≤ bnd d ρ u j * r j j ∧ |mu m j| ≤ η' := by
  have hα : (0 : ℚ) < 1 / (δ' - η' ^ 2) := by have := hp.den; positivity
  have hα1 : 1 ≤ 1 / (δ' - η' ^ 2) * (1 - η' ^ 2) := by
    rw [one_div, ← div_eq_inv_mul, le_div_iff₀ hp.den]; linarith
  have hα2 : 1 / (δ' - η' ^ 2) * ((1 + η') ^ 2 + ε) ≤ ρ := by rw [one_div, ← div_eq_inv_mul]; exact hp.growth
  have hd1 : (1 : ℚ) ≤ d := by exact_mod_cast (by omega : 1 ≤ d)
  have hρ1 : 1 ≤ ρ := by linarith
  have hu := hp.u0
  have herr := error hD (by omega : m ≤ d) hη' hp.eta1 hα hα1 hu hp.eps hρ3 hα2 hp.prec
  intro j
  induction j using Nat.strong_induction_on with
  | _ j ih =>
  intro hj
  have rj := hD.pos j hj
  have hE8 : bnd d ρ u j ≤ 1 / 8 := le_trans (bnd_le hu hρ1 hp.prec (by omega)) (by have := hp.eps; linarith)
  have hE0 : 0 ≤ bnd d ρ u j := by unfold bnd; positivity
  have hEu : 11 * u ≤ bnd d ρ u j := by
    have h1 : ρ ≤ ρ ^ (j + 1) := le_self_pow₀ hρ1 (by omega)
    have h2 : 3 ≤ (d : ℚ) * ρ ^ (j + 1) := by nlinarith
    unfold bnd
    nlinarith
  have hE4 : 4 * bnd d ρ u j ≤ 16 * d * ρ ^ (d - 1) * u := by
    have h1 : ρ ^ (j + 1) ≤ ρ ^ (d - 1) := pow_le_pow_right₀ hρ1 (by omega)
    have h2 : bnd d ρ u j ≤ 11 / 3 * d * ρ ^ (d - 1) * u := by unfold bnd; gcongr
    have : 0 ≤ (d : ℚ) * ρ ^ (d - 1) * u := by positivity
    linarith
  have key : |R m j - r m j| ≤ bnd d ρ u j * max (r j j) |r m j| := by
    rw [hc.comp j hj]
    refine pair (a := mu j) (q := r j) (Q := R j) (p := r m) (mp := mu m) (D := fun k => r k k) (RD := fun k => R k k) hD.rel (by omega) hη' hp.eta1 hα hα1 hu hp.eps hρ3 hα2 hp.prec
      (fun k hk => hD.pos k (by omega)) (fun k hk => herr k k le_rfl (by omega)) (fun k hk => hD.rmu j (by omega) k hk) (fun k hk => hD.red j hj k hk) (fun k hk => herr k j hk.le hj)
      (fun k hk => hD.quot j (by omega) k hk) (fun k hk => hc.rmu k (by omega)) (fun k hk => (ih k hk (by omega)).2) (fun k hk => (ih k hk (by omega)).1)
      (lt_of_lt_of_le rj (le_max_left _ _)) ?_ (hc.gram j hj.le) (le_max_right _ _)
    intro k hk
    exact (hD.grow hα.le hk.le hj).trans (mul_le_mul_of_nonneg_left (le_max_left _ _) (by positivity))
  have hmar := hp.mar1
  have b := mu_back hu (by have := hp.eta; linarith) (by have := hp.eta1; linarith) hE8 hEu rj key (herr j j le_rfl hj) (by rw [hc.quot j hj]; exact hD.rel _) (hredc j hj)
  have b' : |r m j| ≤ η' * r j j := b.trans (mul_le_mul_of_nonneg_right (by linarith) rj.le)
  refine ⟨?_, ?_⟩
  · have : |r m j| ≤ r j j := b'.trans (mul_le_of_le_one_left rj.le hp.eta1)
    rwa [max_eq_left this] at key
  · rw [hc.rmu j hj, abs_mul, abs_of_pos rj] at b'
    exact le_of_mul_le_mul_right b' rj

/-- the next row -/
theorem row_step {sg : Bool} {d m : ℕ} {η δ η' δ' u ε ρ : ℚ} {fl : ℚ → ℚ} {g r mu R M : ℕ → ℕ → ℚ} (hp : Par d η δ η' δ' u ε ρ) (hρ3 : 3 ≤ ρ) (hη' : 1 / 2 ≤ η') (hδ' : δ' ≤ 1)
    (hc : Comp sg (m + 1) η δ u fl g r mu R M) (hmd : m + 1 ≤ d) (hD : Data m η' (1 / (δ' - η' ^ 2)) u fl g r mu R M) :
    ∀ j < m, |R m j - r m j| ≤ bnd d ρ u j * r j j ∧ |mu m j| ≤ η' :=
  row_small hp hρ3 hη' hδ' hc.row (hc.redc m (by omega)) hmd hD

/-- the length of the next row, one projection earlier -/
theorem lov_step {d m : ℕ} {η δ η' δ' u ε ρ : ℚ} {fl : ℚ → ℚ} {g r mu R M : ℕ → ℕ → ℚ} (hp : Par d η δ η' δ' u ε ρ) (hρ3 : 3 ≤ ρ) (hη' : 1 / 2 ≤ η') (hδ' : δ' ≤ 1)
    (hc : Comp false (m + 2) η δ u fl g r mu R M) (hmd : m + 2 ≤ d) (hD : Data (m + 1) η' (1 / (δ' - η' ^ 2)) u fl g r mu R M) :
    δ' * r m m ≤ r (m + 1) (m + 1) + mu (m + 1) m ^ 2 * r m m := by
  have hα : (0 : ℚ) < 1 / (δ' - η' ^ 2) := by have := hp.den; positivity
  have hα1 : 1 ≤ 1 / (δ' - η' ^ 2) * (1 - η' ^ 2) := by
    rw [one_div, ← div_eq_inv_mul, le_div_iff₀ hp.den]; linarith
  have hα2 : 1 / (δ' - η' ^ 2) * ((1 + η') ^ 2 + ε) ≤ ρ := by rw [one_div, ← div_eq_inv_mul]; exact hp.growth
  have hd1 : (1 : ℚ) ≤ d := by exact_mod_cast (by omega : 1 ≤ d)
  have hρ1 : 1 ≤ ρ := by linarith
  have hu := hp.u0
  have herr := error hD (by omega : m + 1 ≤ d) hη' hp.eta1 hα hα1 hu hp.eps hρ3 hα2 hp.prec
  have hrow := row_step hp hρ3 hη' hδ' hc (by omega) hD
  set E := bnd d ρ u m with hE
  have hE8 : E ≤ 1 / 8 := le_trans (bnd_le hu hρ1 hp.prec (by omega)) (by have := hp.eps; linarith)
  have hE0 : 0 ≤ E := by rw [hE]; unfold bnd; positivity
  have hEu : 11 * u ≤ E := by
    have h1 : ρ ≤ ρ ^ (m + 1) := le_self_pow₀ hρ1 (by omega)
    have h2 : 3 ≤ (d : ℚ) * ρ ^ (m + 1) := by nlinarith
    rw [hE]
    unfold bnd
    nlinarith
  have hE4 : 4 * E ≤ 16 * d * ρ ^ (d - 1) * u := by
    have h1 : ρ ^ (m + 1) ≤ ρ ^ (d - 1) := pow_le_pow_right₀ hρ1 (by omega)
    have h2 : E ≤ 11 / 3 * d * ρ ^ (d - 1) * u := by rw [hE]; unfold bnd; gcongr
    have : 0 ≤ (d : ℚ) * ρ ^ (d - 1) * u := by positivity
    linarith
  have rm := hc.pos m (by omega)
  have rm1 := hc.pos (m + 1) (by omega)
  set X := r (m + 1) (m + 1) + mu (m + 1) m ^ 2 * r m m with hX
  have hX0 : 0 < X := by rw [hX]; positivity
  rcases le_total (r m m) X with h | h
  · exact (mul_le_of_le_one_left rm.le hδ').trans h
  have key : |csum fl (g (m + 1) (m + 1)) (M (m + 1)) (R (m + 1)) m - X| ≤ E * r m m := by
    refine pair (a := mu (m + 1)) (q := r (m + 1)) (Q := R (m + 1)) (p := r (m + 1)) (mp := mu (m + 1)) (D := fun k => r k k) (RD := fun k => R k k) hc.rel (by omega) hη' hp.eta1 hα hα1 hu hp.eps hρ3 hα2 hp.prec
      (fun k hk => hc.pos k (by omega)) (fun k hk => herr k k le_rfl (by omega)) (fun k hk => hc.rmu (m + 1) (by omega) k (by omega)) (fun k hk => (hrow k (by omega)).2) (fun k hk => (hrow k (by omega)).1)
      (fun k hk => hc.quot (m + 1) (by omega) k (by omega)) (fun k hk => hc.rmu (m + 1) (by omega) k (by omega)) (fun k hk => (hrow k (by omega)).2) (fun k hk => (hrow k (by omega)).1)
      rm (fun k hk => hD.grow hα.le hk.le (by omega)) ?_ (by rw [abs_of_pos hX0]; exact h)
    rw [hc.gram (m + 1) (by omega) (m + 1) le_rfl, sum_range_succ, hX, hc.rmu (m + 1) (by omega) m (by omega)]
    ring
  have l := hc.lovc m (by omega)
  rw [show thr false η δ = δ from rfl, show tix false m = m from rfl] at l
  have e1 := hc.rel (R m m * δ)
  have e2 := herr m m le_rfl (by omega)
  have hR : (1 - E) * r m m ≤ R m m := by have := (abs_le.1 e2).1; linarith
  have hR0 : 0 ≤ R m m := le_trans (mul_nonneg (by linarith) rm.le) hR
  have hRδ : 0 ≤ R m m * δ := mul_nonneg hR0 hp.delta0
  rw [abs_of_nonneg hRδ] at e1
  have l1 := (abs_le.1 e1).1
  have l2 : (1 - u) * (R m m * δ) ≤ X + E * r m m := by
    have := (abs_le.1 key).2
    linarith
  have l3 : (1 - u) * ((1 - E) * r m m * δ) ≤ X + E * r m m := by
    refine le_trans (mul_le_mul_of_nonneg_left (mul_le_mul_of_nonneg_right hR hp.delta0) (by linarith)) l2
  have l4 : (δ - u - E) * r m m ≤ (1 - u) * ((1 - E) * r m m * δ) := by
    have e : (1 - u) * ((1 - E) * r m m * δ) = (1 - u) * (1 - E) * δ * r m m := by ring
    rw [e]
    refine mul_le_mul_of_nonneg_right ?_ rm.le
    have h1 : 0 ≤ u * E * δ := by have := hp.delta0; positivity
    have h2 : (u + E) * δ ≤ u + E := mul_le_of_le_one_right (by linarith) hp.delta
    have e : (1 - u) * (1 - E) * δ = δ - (u + E) * δ + u * E * δ := by ring
    linarith
  have l5 : δ' * r m m ≤ (δ - u - 2 * E) * r m m := by
    refine mul_le_mul_of_nonneg_right ?_ rm.le
    have := hp.mar2
    linarith
  linarith

/-- the length of the next row, with Siegel's condition -/
theorem siegel_step {d m : ℕ} {η δ η' δ' u ε ρ : ℚ} {fl : ℚ → ℚ} {g r mu R M : ℕ → ℕ → ℚ} (hp : Par d η δ η' δ' u ε ρ) (hρ3 : 3 ≤ ρ) (hη' : 1 / 2 ≤ η') (hδ' : δ' ≤ 1)
    (hc : Comp true (m + 2) η δ u fl g r mu R M) (hmd : m + 2 ≤ d) (hD : Data (m + 1) η' (1 / (δ' - η' ^ 2)) u fl g r mu R M) :
    (δ' - η' ^ 2) * r m m ≤ r (m + 1) (m + 1) := by
  have hden := hp.den
  have hu := hp.u0
  have hd1 : (1 : ℚ) ≤ d := by exact_mod_cast (by omega : 1 ≤ d)
  -- the smallest growth
  have hε0 := hp.eps0 (by linarith)
  obtain ⟨ρ0, hρ0⟩ : ∃ ρ0, ρ0 = ((1 + η') ^ 2 + ε) / (δ' - η' ^ 2) := ⟨_, rfl⟩
  have hle : ρ0 ≤ ρ := by rw [hρ0]; exact hp.growth
  have hρp : 0 ≤ ρ0 := by rw [hρ0]; positivity
  have hp0 : Par d η δ η' δ' u ε ρ0 := by
    have a1 : ρ0 ^ d ≤ ρ ^ d := pow_le_pow_left₀ hρp hle d
    have a2 : ρ0 ^ (d - 1) ≤ ρ ^ (d - 1) := pow_le_pow_left₀ hρp hle _
    have a3 : 16 * d * ρ0 ^ (d - 1) * u ≤ 16 * d * ρ ^ (d - 1) * u := by gcongr
    refine ⟨hp.eta, hp.eta1, hp.delta0, hp.delta, hp.den, hu, hp.eps, by rw [hρ0], ?_, ?_, ?_⟩
    · refine le_trans ?_ hp.prec
      gcongr
    · have := hp.mar1; linarith
    · have := hp.mar2; linarith
  have hρ03 := hp0.rho3 hε0 hη' hδ'
  have hmul : ρ0 * (δ' - η' ^ 2) ≤ 5 := by
    rw [hρ0, div_mul_cancel₀ _ hden.ne']
    have := hp.eta1
    have := hp.eps
    nlinarith
  clear hp hρ3 hle hρ0
  have hα : (0 : ℚ) < 1 / (δ' - η' ^ 2) := by positivity
  have hα1 : 1 ≤ 1 / (δ' - η' ^ 2) * (1 - η' ^ 2) := by
    rw [one_div, ← div_eq_inv_mul, le_div_iff₀ hp0.den]; linarith
  have hα2 : 1 / (δ' - η' ^ 2) * ((1 + η') ^ 2 + ε) ≤ ρ0 := by rw [one_div, ← div_eq_inv_mul]; exact hp0.growth
  have hρ1 : 1 ≤ ρ0 := by linarith
  have herr := error hD (by omega : m + 1 ≤ d) hη' hp0.eta1 hα hα1 hu hp0.eps hρ03 hα2 hp0.prec
  have hrow := row_step hp0 hρ03 hη' hδ' hc (by omega) hD
  set E := bnd d ρ0 u m with hE
  have hE1 : bnd d ρ0 u (m + 1) = ρ0 * E := by rw [hE]; unfold bnd; rw [pow_succ ρ0 (m + 1)]; ring
  have hE8 : E ≤ 1 / 8 := le_trans (bnd_le hu hρ1 hp0.prec (by omega)) (by have := hp0.eps; linarith)
  have hE0 : 0 ≤ E := by rw [hE]; unfold bnd; positivity
  have hEu : 11 * u ≤ E := by
    have h1 : ρ0 ≤ ρ0 ^ (m + 1) := le_self_pow₀ hρ1 (by omega)
    have h2 : 3 ≤ (d : ℚ) * ρ0 ^ (m + 1) := by nlinarith
    rw [hE]
    unfold bnd
    nlinarith
  have hE4 : 48 / 11 * E ≤ 16 * d * ρ0 ^ (d - 1) * u := by
    have h1 : ρ0 ^ (m + 1) ≤ ρ0 ^ (d - 1) := pow_le_pow_right₀ hρ1 (by omega)
    have h2 : E ≤ 11 / 3 * d * ρ0 ^ (d - 1) * u := by rw [hE]; unfold bnd; gcongr
    linarith
  have rm := hc.pos m (by omega)
  have rm1 := hc.pos (m + 1) (by omega)
  rcases le_total ((δ' - η' ^ 2) * r m m) (r (m + 1) (m + 1)) with h | h
  · exact h
  have key : |csum fl (g (m + 1) (m + 1)) (M (m + 1)) (R (m + 1)) (m + 1) - r (m + 1) (m + 1)| ≤ bnd d ρ0 u (m + 1) * ((δ' - η' ^ 2) * r m m) := by
    refine pair (a := mu (m + 1)) (q := r (m + 1)) (Q := R (m + 1)) (p := r (m + 1)) (mp := mu (m + 1)) (D := fun k => r k k) (RD := fun k => R k k) hc.rel (by omega) hη' hp0.eta1 hα hα1 hu hp0.eps hρ03 hα2 hp0.prec
      (fun k hk => hc.pos k (by omega)) (fun k hk => herr k k le_rfl (by omega)) (fun k hk => hc.rmu (m + 1) (by omega) k (by omega)) (fun k hk => (hrow k (by omega)).2) (fun k hk => (hrow k (by omega)).1)
      (fun k hk => hc.quot (m + 1) (by omega) k (by omega)) (fun k hk => hc.rmu (m + 1) (by omega) k (by omega)) (fun k hk => (hrow k (by omega)).2) (fun k hk => (hrow k (by omega)).1)
      (mul_pos hden rm) (fun k hk => ?_) (hc.gram (m + 1) (by omega) (m + 1) le_rfl) (by rw [abs_of_pos rm1]; exact h)
    refine (hD.grow hα.le (by omega : k ≤ m) (by omega)).trans (le_of_eq ?_)
    rw [show m + 1 - k = m - k + 1 by omega, pow_succ (1 / (δ' - η' ^ 2)) (m - k), mul_assoc, ← mul_assoc (1 / (δ' - η' ^ 2)), one_div_mul_cancel hden.ne', one_mul]
  have hkey : |csum fl (g (m + 1) (m + 1)) (M (m + 1)) (R (m + 1)) (m + 1) - r (m + 1) (m + 1)| ≤ 5 * E * r m m := by
    refine key.trans ?_
    have e : bnd d ρ0 u (m + 1) * ((δ' - η' ^ 2) * r m m) = ρ0 * (δ' - η' ^ 2) * E * r m m := by rw [hE1]; ring
    rw [e]
    exact mul_le_mul_of_nonneg_right (mul_le_mul_of_nonneg_right hmul hE0) rm.le
  -- the threshold
  have hm1 := hp0.mar1
  have hm2 := hp0.mar2
  have hτ : δ' - η' ^ 2 + 8 * E ≤ δ - η ^ 2 := by
    have hη := hp0.eta
    have h1 : η + 48 / 11 * E ≤ η' := by linarith
    have h2 : η ^ 2 + 48 / 11 * E ≤ η' ^ 2 := by nlinarith
    linarith
  have hτ0 : 0 ≤ δ - η ^ 2 := by linarith
  have hτ1 : δ - η ^ 2 ≤ 1 := by have := hp0.delta; have := sq_nonneg η; linarith
  have l := hc.lovc m (by omega)
  rw [show thr true η δ = δ - η ^ 2 from rfl, show tix true m = m + 1 from rfl] at l
  generalize δ - η ^ 2 = τ at *
  generalize δ' - η' ^ 2 = q at *
  have e1 := hc.rel (R m m * τ)
  have e2 := herr m m le_rfl (by omega)
  rw [← hE] at e2
  generalize csum fl (g (m + 1) (m + 1)) (M (m + 1)) (R (m + 1)) (m + 1) = c at *
  have hR : (1 - E) * r m m ≤ R m m := by have := (abs_le.1 e2).1; linarith
  have hR0 : 0 ≤ R m m := le_trans (mul_nonneg (by linarith) rm.le) hR
  rw [abs_of_nonneg (mul_nonneg hR0 hτ0)] at e1
  have l1 := (abs_le.1 e1).1
  have l2 : (1 - u) * (R m m * τ) ≤ r (m + 1) (m + 1) + 5 * E * r m m := by
    have := (abs_le.1 hkey).2
    linarith
  have l3 : (1 - u) * ((1 - E) * r m m * τ) ≤ r (m + 1) (m + 1) + 5 * E * r m m := by
    refine le_trans (mul_le_mul_of_nonneg_left (mul_le_mul_of_nonneg_right hR hτ0) (by linarith)) l2
  have l4 : (τ - u - E) * r m m ≤ (1 - u) * ((1 - E) * r m m * τ) := by
    have e : (1 - u) * ((1 - E) * r m m * τ) = (1 - u) * (1 - E) * τ * r m m := by ring
    rw [e]
    refine mul_le_mul_of_nonneg_right ?_ rm.le
    have h1 : 0 ≤ u * E * τ := by positivity
    have h2 : (u + E) * τ ≤ u + E := mul_le_of_le_one_right (by linarith) hτ1
    have e : (1 - u) * (1 - E) * τ = τ - (u + E) * τ + u * E * τ := by ring
    linarith
  have l5 : q * r m m ≤ (τ - u - 6 * E) * r m m := by
    refine mul_le_mul_of_nonneg_right ?_ rm.le
    linarith
  linarith

/-- the basis LLL accepts is reduced -/
theorem data_of_comp {sg : Bool} {d m : ℕ} {η δ η' δ' u ε ρ : ℚ} {fl : ℚ → ℚ} {g r mu R M : ℕ → ℕ → ℚ} (hp : Par d η δ η' δ' u ε ρ) (hρ3 : 3 ≤ ρ) (hη' : 1 / 2 ≤ η') (hδ' : δ' ≤ 1)
    (hmd : m ≤ d) (hc : Comp sg m η δ u fl g r mu R M) :
    Data m η' (1 / (δ' - η' ^ 2)) u fl g r mu R M ∧ (sg = false → ∀ i, i + 1 < m → δ' * r i i ≤ r (i + 1) (i + 1) + mu (i + 1) i ^ 2 * r i i) := by
  induction m with
  | zero =>
    refine ⟨⟨fun i hi => by omega, fun i hi => by omega, fun i hi => by omega, fun i hi => by omega, fun i hi => by omega, hc.rel, fun i hi => by omega, fun i hi => by omega⟩, fun _ i hi => by omega⟩
  | succ m ih =>
    obtain ⟨hD, hL⟩ := ih (by omega) (hc.mono (by omega))
    have hrow := row_step hp hρ3 hη' hδ' hc (by omega) hD
    have hlov : sg = false → ∀ i, i + 1 < m + 1 → δ' * r i i ≤ r (i + 1) (i + 1) + mu (i + 1) i ^ 2 * r i i := by
      intro hsg i hi
      by_cases e : i + 1 < m
      · exact hL hsg i e
      · have : m = i + 1 := by omega
        subst this
        subst hsg
        exact lov_step hp hρ3 hη' hδ' hc hmd hD
    refine ⟨⟨hc.pos, hc.rmu, ?_, ?_, hc.gram, hc.rel, ?_, hc.quot⟩, hlov⟩
    · intro i hi j hj
      by_cases e : i = m
      · subst e; exact (hrow j hj).2
      · exact hD.red i (by omega) j hj
    · intro i hi
      by_cases hsg : sg = true
      · subst hsg
        rw [one_div, ← div_eq_inv_mul, le_div_iff₀ hp.den]
        by_cases e : i + 1 < m
        · have := hD.step i e
          rw [one_div, ← div_eq_inv_mul, le_div_iff₀ hp.den] at this
          exact this
        · have : m = i + 1 := by omega
          subst this
          have := siegel_step hp hρ3 hη' hδ' hc hmd hD
          linarith
      have h1 := hlov (by simpa using hsg) i hi
      have h0 := hc.pos i (by omega)
      have h2 : |mu (i + 1) i| ≤ η' := by
        by_cases e : i + 1 = m
        · subst e; exact (hrow i (by omega)).2
        · exact hD.red (i + 1) (by omega) i (by omega)
      have h3 : mu (i + 1) i ^ 2 ≤ η' ^ 2 := by
        rw [← sq_abs]; gcongr
      have h4 := mul_le_mul_of_nonneg_right h3 h0.le
      rw [one_div, ← div_eq_inv_mul, le_div_iff₀ hp.den]
      linarith
    · intro i hi j hj
      exact ⟨csum fl (g i j) (M j) (R i), rfl, fun k => rfl, hc.comp i hi j hj⟩

end Chol
end Fplll

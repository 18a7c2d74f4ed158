import Verif.Proofs.CholeskyLLL

/-!
# Rounding errors of a row that is not yet reduced

As in `Proofs/CholeskyLLL.lean`, the first rows are reduced.  The coefficients of the next row are only known to be at most `η' K`: the errors are `K` times larger.
-/

open Finset

namespace Fplll
namespace Chol

open GSO

/-- the rounding seen after a change of scale -/
def scale (K : ℚ) (fl : ℚ → ℚ) : ℚ → ℚ := fun x => fl (K * x) / K

theorem scale_rel {K u : ℚ} {fl : ℚ → ℚ} (hK : 0 < K) (h : RelErr u fl) : RelErr u (scale K fl) := by
  intro x
  have := h (K * x)
  unfold scale
  rw [abs_mul, abs_of_pos hK] at this
  have e : fl (K * x) / K - x = (fl (K * x) - K * x) / K := by field_simp
  rw [e, abs_div, abs_of_pos hK, div_le_iff₀ hK]
  linarith

theorem scale_apply {K : ℚ} {fl : ℚ → ℚ} (hK : K ≠ 0) (x : ℚ) : scale K fl (x / K) = fl x / K := by
  unfold scale
  rw [mul_div_cancel₀ _ hK]

theorem csum_scale {K : ℚ} {fl : ℚ → ℚ} (hK : K ≠ 0) (G : ℚ) (A P : ℕ → ℚ) (n : ℕ) : csum (scale K fl) (G / K) A (fun k => P k / K) n = csum fl G A P n / K := by
  induction n with
  | zero => exact scale_apply hK G
  | succ n ih =>
    have e : csum (scale K fl) (G / K) A (fun k => P k / K) (n + 1) = scale K fl (csum (scale K fl) (G / K) A (fun k => P k / K) n - scale K fl (A n * (P n / K))) := rfl
    rw [e, ih, ← mul_div_assoc, scale_apply hK, ← sub_div, scale_apply hK]
    rfl

theorem eleven_u {d : ℕ} {ρ u : ℚ} (hd1 : (1 : ℚ) ≤ d) (hρ3 : 3 ≤ ρ) (hu : 0 ≤ u) (j : ℕ) : 11 * u ≤ bnd d ρ u j := by
  have h1 : ρ ≤ ρ ^ (j + 1) := le_self_pow₀ (by linarith) (by omega)
  have h2 : 3 ≤ (d : ℚ) * ρ ^ (j + 1) := by nlinarith
  unfold bnd
  nlinarith

/-- the unit of the errors -/
def tau (d : ℕ) (ρ u : ℚ) : ℚ := d * ρ ^ (d - 1) * u

theorem bnd_tau {d j : ℕ} {ρ u : ℚ} (hρ1 : 1 ≤ ρ) (hu : 0 ≤ u) (hj : j + 1 < d) : bnd d ρ u j ≤ 11 / 3 * tau d ρ u := by
  have h1 : ρ ^ (j + 1) ≤ ρ ^ (d - 1) := pow_le_pow_right₀ hρ1 (by omega)
  have h2 : bnd d ρ u j ≤ 11 / 3 * d * ρ ^ (d - 1) * u := by unfold bnd; gcongr
  unfold tau
  linarith

section
variable {d m : ℕ} {η δ η' δ' u ε ρ : ℚ} {fl : ℚ → ℚ} {g r mu R M : ℕ → ℕ → ℚ}

/-- the next row, when its coefficients are at most `η' K` -/
theorem big_row {K : ℚ} (hp : Par d η δ η' δ' u ε ρ) (hρ3 : 3 ≤ ρ) (hη' : 1 / 2 ≤ η') (hδ' : δ' ≤ 1) (hc : Row m fl g r mu R M) (hmd : m + 1 ≤ d)
    (hD : Data m η' (1 / (δ' - η' ^ 2)) u fl g r mu R M) (hK : 0 < K) (hmu : ∀ j < m, |mu m j| ≤ η' * K) :
    ∀ j < m, |R m j - r m j| ≤ bnd d ρ u j * K * r j j ∧ |M m j - mu m j| ≤ 5 / 2 * bnd d ρ u j * K := by
  have hα : (0 : ℚ) < 1 / (δ' - η' ^ 2) := by have := hp.den; positivity
  have hα1 : 1 ≤ 1 / (δ' - η' ^ 2) * (1 - η' ^ 2) := by
    rw [one_div, ← div_eq_inv_mul, le_div_iff₀ hp.den]; linarith
  have hα2 : 1 / (δ' - η' ^ 2) * ((1 + η') ^ 2 + ε) ≤ ρ := by rw [one_div, ← div_eq_inv_mul]; exact hp.growth
  have hd1 : (1 : ℚ) ≤ d := by exact_mod_cast (by omega : 1 ≤ d)
  have hρ1 : 1 ≤ ρ := by linarith
  have hu := hp.u0
  have hKne := hK.ne'
  have herr := error hD (by omega : m ≤ d) hη' hp.eta1 hα hα1 hu hp.eps hρ3 hα2 hp.prec
  have hmu' : ∀ j < m, |mu m j / K| ≤ η' := by
    intro j hj
    rw [abs_div, abs_of_pos hK, div_le_iff₀ hK]; exact hmu j hj
  have hrel := scale_rel hK hD.rel
  -- the scaled row
  have key : ∀ j < m, |R m j / K - r m j / K| ≤ bnd d ρ u j * r j j := by
    intro j
    induction j using Nat.strong_induction_on with
    | _ j ih =>
    intro hj
    have rj := hD.pos j hj
    -- the coefficients of row `j` are rounded by `fl`, not by the scaled rounding: they are given with their errors
    have e : R m j / K = csum (scale K fl) (g m j / K) (M j) (fun k => R m k / K) j := by
      rw [csum_scale hKne, hc.comp j hj]
    rw [e]
    refine pairM (a := mu j) (q := r j) (Q := R j) (p := fun k => r m k / K) (mp := fun k => mu m k / K) (D := fun k => r k k) (RD := fun k => R k k) hrel (by omega) hη' hp.eta1 hα hα1 hu hp.eps hρ3 hα2 hp.prec
      (fun k hk => hD.pos k (by omega)) (fun k hk => herr k k le_rfl (by omega)) (fun k hk => hD.rmu j (by omega) k hk) (fun k hk => hD.red j hj k hk) (fun k hk => herr k j hk.le hj)
      (fun k hk => by rw [hD.quot j (by omega) k hk]; exact hD.rel _) (fun k hk => by rw [hc.rmu k (by omega)]; ring) (fun k hk => hmu' k (by omega)) (fun k hk => ih k hk (by omega))
      rj (fun k hk => hD.grow hα.le hk.le hj) ?_ ?_
    · rw [hc.gram j hj.le, add_div, sum_div]
      congr 1
      exact sum_congr rfl fun k _ => by ring
    · rw [hc.rmu j hj, mul_div_right_comm, abs_mul, abs_of_pos rj]
      exact mul_le_of_le_one_left rj.le ((hmu' j hj).trans hp.eta1)
  intro j hj
  have rj := hD.pos j hj
  have kj := key j hj
  constructor
  · rw [← sub_div, abs_div, abs_of_pos hK, div_le_iff₀ hK] at kj
    linarith
  · have hE0 : 0 ≤ bnd d ρ u j := by unfold bnd; positivity
    have hE8 : bnd d ρ u j ≤ 1 / 8 := le_trans (bnd_le hu hρ1 hp.prec (by omega)) (by have := hp.eps; linarith)
    have hEu := eleven_u hd1 hρ3 hu j
    have k1 := mu_err hu (by linarith) hE0 hE8 rj (μ := mu m j / K) (by rw [hc.rmu j hj]; ring) (hmu' j hj) kj (herr j j le_rfl hj) (M := M m j / K) (by
      rw [hc.quot j hj, div_right_comm, ← scale_apply hKne]; exact hrel _)
    obtain ⟨-, q2⟩ := q_le (by linarith : 0 ≤ η') hp.eta1 hE0 hE8
    have k2 : |M m j / K - mu m j / K| ≤ 5 / 2 * bnd d ρ u j := by
      refine le_trans k1 ?_
      have h1E : 0 < 1 - bnd d ρ u j := by linarith
      have q0 : 0 ≤ (1 + η') * bnd d ρ u j / (1 - bnd d ρ u j) := by positivity
      have := hp.eta1
      generalize (1 + η') * bnd d ρ u j / (1 - bnd d ρ u j) = q at *
      have w : u * (η' + q) ≤ u * (9 / 7) := mul_le_mul_of_nonneg_left (by linarith) hu
      linarith
    rw [← sub_div, abs_div, abs_of_pos hK, div_le_iff₀ hK] at k2
    exact k2

theorem lov_up_num {δ E X c rk Rk N : ℚ} (hδ0 : 0 ≤ δ) (hδ : δ ≤ 1) (hE : 0 ≤ E) (hE8 : E ≤ 1 / 8) (hrk : 0 < rk) (hN : N = max rk X) (h1 : |c - X| ≤ E * N) (h2 : |Rk - rk| ≤ E * rk)
    (ht : c ≤ (δ + E) * Rk) : X ≤ (δ + 4 * E) * rk := by
  have hR1 : Rk ≤ (1 + E) * rk := by have := (abs_le.1 h2).2; linarith
  have f3 : (δ + E) * (1 + E) ≤ δ + 17 / 8 * E := by
    have g1 : E * E ≤ E * (1 / 8) := mul_le_mul_of_nonneg_left hE8 hE
    have g2 : E * δ ≤ E := mul_le_of_le_one_right hE hδ
    have e : (δ + E) * (1 + E) = δ + E * δ + E + E * E := by ring
    linarith
  have f4 : c ≤ (δ + 17 / 8 * E) * rk := by
    have a1 := mul_le_mul_of_nonneg_left hR1 (by linarith : 0 ≤ δ + E)
    have := mul_le_mul_of_nonneg_right f3 hrk.le
    have e : (δ + E) * ((1 + E) * rk) = (δ + E) * (1 + E) * rk := by ring
    linarith
  have f5 : X ≤ c + E * N := by have := (abs_le.1 h1).1; linarith
  have hErk : 0 ≤ E * rk := by positivity
  rcases le_total X rk with h | h
  · rw [hN, max_eq_left h] at f5
    linarith
  · rw [hN, max_eq_right h] at f5
    have h6 : (1 - E) * X ≤ (δ + 17 / 8 * E) * rk := by linarith
    have h7 : (1 - E) * X ≤ (1 - E) * ((δ + 4 * E) * rk) := by
      refine le_trans h6 ?_
      rw [← mul_assoc]
      refine mul_le_mul_of_nonneg_right ?_ hrk.le
      have g1 : E * E ≤ E * (1 / 8) := mul_le_mul_of_nonneg_left hE8 hE
      have g2 : E * δ ≤ E := mul_le_of_le_one_right hE hδ
      have e : (1 - E) * (δ + 4 * E) = δ + 4 * E - E * δ - 4 * (E * E) := by ring
      linarith
    exact le_of_mul_le_mul_left h7 (by linarith)

/-- the product subtracted last is at most `η²` times the length -/
theorem last_term {u η M R Rk p : ℚ} (hη0 : 0 ≤ η) (hη1 : η ≤ 1) (hu : 0 ≤ u) (hu8 : u ≤ 1 / 88) (hRk : 0 < Rk) (hM : |M - R / Rk| ≤ u * |R / Rk|) (hM1 : |M| ≤ η) (hp : |p - M * R| ≤ u * |M * R|) : p ≤ (η ^ 2 + 4 * u) * Rk := by
  have k1 : (1 - u) * |R / Rk| ≤ η := by
    have := abs_sub_abs_le_abs_sub (R / Rk) M
    rw [abs_sub_comm] at this
    linarith
  have k2 : |R| = |R / Rk| * Rk := by
    rw [abs_div, abs_of_pos hRk]; field_simp
  have hx0 : 0 ≤ |R / Rk| := abs_nonneg _
  generalize |R / Rk| = x at k1 k2 hx0
  have k3 : x ≤ η * (1 + 2 * u) := by
    have h3 : x * (1 - u) * (1 + 2 * u) ≤ η * (1 + 2 * u) := mul_le_mul_of_nonneg_right (by linarith) (by linarith)
    have h4 : 0 ≤ x * (u * (1 - 2 * u)) := mul_nonneg hx0 (mul_nonneg hu (by linarith))
    have e : x * (1 - u) * (1 + 2 * u) = x + x * (u * (1 - 2 * u)) := by ring
    linarith
  have k4 : |M * R| ≤ η * (η * (1 + 2 * u) * Rk) := by
    rw [abs_mul, k2]
    exact mul_le_mul hM1 (mul_le_mul_of_nonneg_right k3 hRk.le) (mul_nonneg hx0 hRk.le) hη0
  have k5 : p ≤ (1 + u) * |M * R| := by
    have := (abs_le.1 hp).2
    have := le_abs_self (M * R)
    linarith
  have k6 : p ≤ (1 + u) * (η * (η * (1 + 2 * u) * Rk)) := k5.trans (mul_le_mul_of_nonneg_left k4 (by linarith))
  refine k6.trans ?_
  have e : (1 + u) * (η * (η * (1 + 2 * u) * Rk)) = (η ^ 2 + η ^ 2 * (3 * u + 2 * (u * u))) * Rk := by ring
  rw [e]
  refine mul_le_mul_of_nonneg_right ?_ hRk.le
  have h1 : u * u ≤ u * (1 / 88) := mul_le_mul_of_nonneg_left hu8 hu
  have h2 : η ^ 2 ≤ 1 := by nlinarith
  have h3 : η ^ 2 * (3 * u + 2 * (u * u)) ≤ 3 * u + 2 * (u * u) := mul_le_of_le_one_left (by positivity) h2
  linarith

/-- the projection before the last product, when the tested one is short -/
theorem before_last {u η δ M R Rk p c c' F : ℚ} (hη0 : 0 ≤ η) (hη1 : η ≤ 1) (hδ : δ ≤ 1) (hδη : 0 ≤ δ - η ^ 2) (hu : 0 ≤ u) (hu8 : u ≤ 1 / 88) (hRk : 0 < Rk) (hM : |M - R / Rk| ≤ u * |R / Rk|) (hM1 : |M| ≤ η)
    (hp : |p - M * R| ≤ u * |M * R|) (hc : |c' - (c - p)| ≤ u * |c - p|) (hF : |F - Rk * (δ - η ^ 2)| ≤ u * |Rk * (δ - η ^ 2)|) (ht : c' ≤ F) : c ≤ (δ + 11 * u) * Rk := by
  have hpe := last_term hη0 hη1 hu hu8 hRk hM hM1 hp
  rcases le_total (c - p) 0 with h | h
  · have h1 : (η ^ 2 + 4 * u) * Rk ≤ (δ + 11 * u) * Rk := mul_le_mul_of_nonneg_right (by linarith) hRk.le
    linarith
  · rw [abs_of_nonneg h] at hc
    rw [abs_of_nonneg (mul_nonneg hRk.le hδη)] at hF
    have h1 : (1 - u) * (c - p) ≤ (1 + u) * (Rk * (δ - η ^ 2)) := by
      have := (abs_le.1 hc).1
      have := (abs_le.1 hF).2
      linarith
    have h2 : (1 - u) * (c - p) ≤ (1 - u) * ((δ - η ^ 2 + 3 * u) * Rk) := by
      refine h1.trans ?_
      have e1 : (1 + u) * (Rk * (δ - η ^ 2)) = ((1 + u) * (δ - η ^ 2)) * Rk := by ring
      have e2 : (1 - u) * ((δ - η ^ 2 + 3 * u) * Rk) = ((1 - u) * (δ - η ^ 2 + 3 * u)) * Rk := by ring
      rw [e1, e2]
      refine mul_le_mul_of_nonneg_right ?_ hRk.le
      have h3 : u * (δ - η ^ 2) ≤ u * 1 := mul_le_mul_of_nonneg_left (by have := sq_nonneg η; linarith) hu
      have h4 : u * u ≤ u * (1 / 88) := mul_le_mul_of_nonneg_left hu8 hu
      have e3 : (1 - u) * (δ - η ^ 2 + 3 * u) = δ - η ^ 2 + 3 * u - u * (δ - η ^ 2) - 3 * (u * u) := by ring
      have e4 : (1 + u) * (δ - η ^ 2) = δ - η ^ 2 + u * (δ - η ^ 2) := by ring
      rw [e3, e4]
      linarith
    have h3 := le_of_mul_le_mul_left h2 (by linarith)
    have e : (δ - η ^ 2 + 3 * u) * Rk + (η ^ 2 + 4 * u) * Rk = (δ + 7 * u) * Rk := by ring
    have h4 : (δ + 7 * u) * Rk ≤ (δ + 11 * u) * Rk := mul_le_mul_of_nonneg_right (by linarith) hRk.le
    linarith

/-- a row that fails the computed test is short -/
theorem lov_up {sg : Bool} (hp : Par d η δ η' δ' u ε ρ) (hρ3 : 3 ≤ ρ) (hη' : 1 / 2 ≤ η') (hδ' : δ' ≤ 1) (hc : Row m fl g r mu R M) (hredc : ∀ j < m, |M m j| ≤ η) (hmd : m + 1 ≤ d)
    (hD : Data m η' (1 / (δ' - η' ^ 2)) u fl g r mu R M) (hrm : 0 < r m m) {k : ℕ} (hk : k < m) (ht : csum fl (g m m) (M m) (R m) (tix sg k) ≤ fl (R k k * thr sg η δ)) :
    r m m + ∑ l ∈ Ico k m, mu m l ^ 2 * r l l ≤ (δ + 16 * tau d ρ u) * r k k := by
  have hα : (0 : ℚ) < 1 / (δ' - η' ^ 2) := by have := hp.den; positivity
  have hα1 : 1 ≤ 1 / (δ' - η' ^ 2) * (1 - η' ^ 2) := by
    rw [one_div, ← div_eq_inv_mul, le_div_iff₀ hp.den]; linarith
  have hα2 : 1 / (δ' - η' ^ 2) * ((1 + η') ^ 2 + ε) ≤ ρ := by rw [one_div, ← div_eq_inv_mul]; exact hp.growth
  have hd1 : (1 : ℚ) ≤ d := by exact_mod_cast (by omega : 1 ≤ d)
  have hρ1 : 1 ≤ ρ := by linarith
  have hu := hp.u0
  have herr := error hD (by omega : m ≤ d) hη' hp.eta1 hα hα1 hu hp.eps hρ3 hα2 hp.prec
  have hrow := row_small hp hρ3 hη' hδ' hc hredc hmd hD
  have hE8 : bnd d ρ u k ≤ 1 / 8 := le_trans (bnd_le hu hρ1 hp.prec (by omega)) (by have := hp.eps; linarith)
  have hE4 := bnd_tau hρ1 hu (by omega : k + 1 < d)
  have rk := hD.pos k hk
  have hX0 : 0 < r m m + ∑ l ∈ Ico k m, mu m l ^ 2 * r l l := by
    refine add_pos_of_pos_of_nonneg hrm (sum_nonneg fun l hl => ?_)
    rw [mem_Ico] at hl
    have := hD.pos l hl.2
    positivity
  have hG : g m m = r m m + ∑ l ∈ Ico k m, mu m l ^ 2 * r l l + ∑ l ∈ range k, mu m l * r m l := by
    rw [hc.gram m le_rfl, ← sum_range_add_sum_Ico _ hk.le]
    have : ∑ l ∈ Ico k m, mu m l * r m l = ∑ l ∈ Ico k m, mu m l ^ 2 * r l l := sum_congr rfl fun l hl => by
      rw [mem_Ico] at hl
      rw [hc.rmu l hl.2]; ring
    rw [this]; ring
  generalize r m m + ∑ l ∈ Ico k m, mu m l ^ 2 * r l l = X at *
  have key : |csum fl (g m m) (M m) (R m) k - X| ≤ bnd d ρ u k * max (r k k) X := by
    refine pair (a := mu m) (q := r m) (Q := R m) (p := r m) (mp := mu m) (D := fun k => r k k) (RD := fun k => R k k) hD.rel (by omega) hη' hp.eta1 hα hα1 hu hp.eps hρ3 hα2 hp.prec
      (fun l hl => hD.pos l (by omega)) (fun l hl => herr l l le_rfl (by omega)) (fun l hl => hc.rmu l (by omega)) (fun l hl => (hrow l (by omega)).2) (fun l hl => (hrow l (by omega)).1)
      (fun l hl => hc.quot l (by omega)) (fun l hl => hc.rmu l (by omega)) (fun l hl => (hrow l (by omega)).2) (fun l hl => (hrow l (by omega)).1)
      (lt_of_lt_of_le rk (le_max_left _ _)) ?_ hG (by rw [abs_of_pos hX0]; exact le_max_right _ _)
    intro l hl
    exact (hD.grow hα.le hl.le hk).trans (mul_le_mul_of_nonneg_left (le_max_left _ _) (by positivity))
  have hEu := eleven_u hd1 hρ3 hu k
  have hRk : 0 < R k k := by
    have h2 := (abs_le.1 (herr k k le_rfl hk)).1
    have h3 := mul_le_mul_of_nonneg_right hE8 rk.le
    linarith
  have hck : csum fl (g m m) (M m) (R m) k ≤ (δ + 11 * u) * R k k := by
    cases sg with
    | false =>
      rw [show thr false η δ = δ from rfl, show tix false k = k from rfl] at ht
      have hF := hD.rel (R k k * δ)
      rw [abs_of_nonneg (mul_nonneg hRk.le hp.delta0)] at hF
      have f1 := (abs_le.1 hF).2
      have f2 : u * (R k k * δ) ≤ u * R k k := mul_le_mul_of_nonneg_left (mul_le_of_le_one_right hRk.le hp.delta) hu
      have f3 : 0 ≤ u * R k k := by positivity
      linarith
    | true =>
      rw [show thr true η δ = δ - η ^ 2 from rfl, show tix true k = k + 1 from rfl] at ht
      have hη := hp.eta
      have hm1 := hp.mar1
      have hm2 := hp.mar2
      have hden := hp.den
      have h0 : 0 ≤ 16 * d * ρ ^ (d - 1) * u := by positivity
      have hηη : η ≤ η' := by linarith
      have hsq : η ^ 2 ≤ η' ^ 2 := pow_le_pow_left₀ (by linarith) hηη 2
      refine before_last (by linarith) (hηη.trans hp.eta1) hp.delta (by linarith) hu (by linarith) hRk (by rw [hc.quot k hk]; exact hD.rel _) (hredc k hk) (hD.rel _) ?_ (hD.rel _) ht
      exact hD.rel _
  have hck' : csum fl (g m m) (M m) (R m) k ≤ (δ + bnd d ρ u k) * R k k := hck.trans (mul_le_mul_of_nonneg_right (by linarith) hRk.le)
  have := lov_up_num hp.delta0 hp.delta (by linarith) hE8 rk rfl key (herr k k le_rfl hk) hck'
  refine this.trans (mul_le_mul_of_nonneg_right ?_ rk.le)
  have ht0 : 0 ≤ tau d ρ u := by unfold tau; positivity
  linarith

end

end Chol
end Fplll

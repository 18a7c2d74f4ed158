import Verif.Model.MinPrec
import Verif.Proofs.GsoRound
import Verif.Props.SVPRound
import Mathlib.Analysis.SpecialFunctions.Log.Basic
import Mathlib.Analysis.SpecialFunctions.Pow.Real
import Mathlib.Analysis.Complex.ExponentialBounds

/-!
# C81: rounding errors of the Gram-Schmidt orthogonalisation

`shortest_vector` computes the Gram-Schmidt orthogonalisation of a reduced basis with `mpfr` numbers of the precision given by `gso_min_prec`, and relies on error bounds for it (util.h:64-72, evaluator.cpp:22-25).
-/

open Finset

namespace Fplll
namespace ErrB

open Spec GSO Enum

/-! ## The precision -/

/-- rounding up and down, and the logarithm rounded up and down -/
structure LogOK (A : Arith) (logU logD : ℚ → ℚ) : Prop where
  ru : ∀ t, t ≤ A.ru t
  rd : ∀ t, A.rd t ≤ t
  up : ∀ t : ℚ, 0 < t → Real.log t ≤ (logU t : ℝ)
  down : ∀ t : ℚ, 0 < t → (logD t : ℝ) ≤ Real.log t
  two : 0 < logD 2

theorem rhoOf_ge {A : Arith} {logU logD : ℚ → ℚ} (hA : LogOK A logU logD) {δ η ε : ℚ} (hη : 0 ≤ η) (hε : 0 ≤ ε) (hden : 0 < rhoDen A δ η) :
    0 < δ - η ^ 2 ∧ ((1 + η) ^ 2 + ε) / (δ - η ^ 2) ≤ rhoOf A δ η ε := by
  have h1 : rhoDen A δ η ≤ δ - η ^ 2 := by
    unfold rhoDen
    have := hA.rd (δ - A.ru (η * η))
    have := hA.ru (η * η)
    nlinarith
  refine ⟨by linarith, le_trans ?_ (hA.ru _)⟩
  have h2 := hA.ru (η + 1)
  have h3 := hA.ru (A.ru (η + 1) * A.ru (η + 1))
  have h4 := hA.ru (A.ru (A.ru (η + 1) * A.ru (η + 1)) + ε)
  have h5 : (1 + η) ^ 2 ≤ A.ru (η + 1) * A.ru (η + 1) := by nlinarith
  have h6 : (1 + η) ^ 2 + ε ≤ A.ru (A.ru (A.ru (η + 1) * A.ru (η + 1)) + ε) := by linarith
  have h7 : 0 ≤ (1 + η) ^ 2 + ε := by positivity
  exact div_le_div₀ (le_trans h7 h6) h6 hden h1

theorem computeMinPrec_ok {A : Arith} {logU logD : ℚ → ℚ} {l2 : Bool} {d : ℕ} {δ η ε rho : ℚ} {p : ℤ} (h : computeMinPrec A logU logD l2 d δ η ε = .ok rho p) :
    0 < rhoDen A δ η ∧ 0 < d ∧ 0 < epsUsed A l2 δ η ε ∧ 0 < rho ∧ rho = rhoOf A δ η (epsUsed A l2 δ η ε) ∧ p = ⌈fMinPrec A logU logD l2 d (epsUsed A l2 δ η ε) rho⌉ := by
  unfold computeMinPrec at h
  dsimp only at h
  split_ifs at h with h1 h2
  push Not at h1 h2
  obtain ⟨h2, h3, h4⟩ := h2
  cases h
  exact ⟨h1, by omega, h3, h4, rfl, rfl⟩

/-- **C81 (precision).**  What `compute_min_prec` promises: `rho` is at least `((1 + η)^2 + ε) / (δ - η^2)` and the precision is at least `5 + 2 log2 d - log2 ε + d log2 rho`, with 10 in place of 5 for L2. -/
theorem C81_min_prec {A : Arith} {logU logD : ℚ → ℚ} (hA : LogOK A logU logD) {l2 : Bool} {d : ℕ} {δ η ε rho : ℚ} {p : ℤ} (hη : 0 ≤ η) (hδ : δ ≤ 1) (hε : ε ≤ 1)
    (h : computeMinPrec A logU logD l2 d δ η ε = .ok rho p) :
    0 < δ - η ^ 2 ∧ ((1 + η) ^ 2 + epsUsed A l2 δ η ε) / (δ - η ^ 2) ≤ rho ∧ (if l2 then 1024 else 32) * d ^ 2 * rho ^ d / epsUsed A l2 δ η ε ≤ 2 ^ p := by
  obtain ⟨hden, hd, he0, hrho0, hrho, hp⟩ := computeMinPrec_ok h
  obtain ⟨g1, g2⟩ := rhoOf_ge hA hη he0.le hden
  rw [← hrho] at g2
  refine ⟨g1, g2, ?_⟩
  have he1 : epsUsed A l2 δ η ε ≤ 1 := by
    refine le_trans ?_ hε
    unfold epsUsed
    dsimp only
    split_ifs <;> linarith
  have hrho1 : 1 ≤ rho := by
    refine le_trans ?_ g2
    rw [le_div_iff₀ g1]
    nlinarith
  generalize epsUsed A l2 δ η ε = e at *
  have hdR : (1 : ℝ) ≤ (d : ℝ) := by exact_mod_cast hd
  have heR : (0 : ℝ) < (e : ℝ) := by exact_mod_cast he0
  have heR1 : (e : ℝ) ≤ 1 := by exact_mod_cast he1
  have hrR : (1 : ℝ) ≤ (rho : ℝ) := by exact_mod_cast hrho1
  have hlr : 0 ≤ Real.log rho := Real.log_nonneg hrR
  have hld : 0 ≤ Real.log d := Real.log_nonneg hdR
  have hle : Real.log e ≤ 0 := Real.log_nonpos heR.le heR1
  have hl2 : 0 < Real.log 2 := Real.log_pos (by norm_num)
  have hlU := hA.up (d : ℚ) (by exact_mod_cast hd)
  have hlU2 := hA.up rho hrho0
  have hlD := hA.down e he0
  have hlD2 := hA.down 2 (by norm_num)
  have hl2pos : (0 : ℝ) < (logD 2 : ℝ) := by exact_mod_cast hA.two
  push_cast at hlU hlD2
  -- the sum of the logarithms
  set t1 := A.ru (2 * logU d - logD e) with ht1
  set t2 := A.ru (d * logU rho) with ht2
  set t3 := A.ru (t1 + t2) with ht3
  set t4 := A.ru (t3 / logD 2) with ht4
  have k1 : ((2 * logU d - logD e : ℚ) : ℝ) ≤ (t1 : ℝ) := by exact_mod_cast hA.ru _
  have k2 : ((d * logU rho : ℚ) : ℝ) ≤ (t2 : ℝ) := by exact_mod_cast hA.ru _
  have k3 : ((t1 + t2 : ℚ) : ℝ) ≤ (t3 : ℝ) := by exact_mod_cast hA.ru _
  have k4 : ((t3 / logD 2 : ℚ) : ℝ) ≤ (t4 : ℝ) := by exact_mod_cast hA.ru _
  push_cast at k1 k2 k3 k4
  have s2 : (d : ℝ) * Real.log rho ≤ t2 := le_trans (mul_le_mul_of_nonneg_left hlU2 (by linarith)) k2
  have s3 : 2 * Real.log d - Real.log e + d * Real.log rho ≤ t3 := by linarith
  have s30 : 0 ≤ 2 * Real.log d - Real.log e + d * Real.log rho := by
    have : 0 ≤ (d : ℝ) * Real.log rho := by positivity
    linarith
  have s4 : (2 * Real.log d - Real.log e + d * Real.log rho) / Real.log 2 ≤ t4 := by
    refine le_trans (div_le_div₀ (by linarith) s3 hl2pos hlD2) k4
  have hpR : (t4 : ℝ) + (if l2 then 10 else 5) ≤ (p : ℝ) := by
    rw [hp]
    have a1 : fMinPrec A logU logD l2 d e rho ≤ (⌈fMinPrec A logU logD l2 d e rho⌉ : ℚ) := Int.le_ceil _
    have a2 : t4 + (if l2 then 10 else 5) ≤ fMinPrec A logU logD l2 d e rho := hA.ru _
    have a3 := le_trans a2 a1
    have a4 : ((t4 + (if l2 then 10 else 5) : ℚ) : ℝ) ≤ (((⌈fMinPrec A logU logD l2 d e rho⌉ : ℤ) : ℚ) : ℝ) := by exact_mod_cast a3
    cases l2
    · simpa using a4
    · simpa using a4
  have hfin : (((if l2 then 1024 else 32) * d ^ 2 * rho ^ d / e : ℚ) : ℝ) ≤ ((2 ^ p : ℚ) : ℝ) := by
    have hc : ((if l2 then 10 else 5 : ℝ)) * Real.log 2 = Real.log (if l2 then 1024 else 32) := by
      cases l2
      · rw [if_neg (by simp), if_neg (by simp), show (32 : ℝ) = 2 ^ (5 : ℕ) by norm_num, Real.log_pow]; norm_num
      · rw [if_pos rfl, if_pos rfl, show (1024 : ℝ) = 2 ^ (10 : ℕ) by norm_num, Real.log_pow]; norm_num
    have hcp : (0 : ℝ) < (if l2 then 1024 else 32) := by cases l2 <;> norm_num
    push_cast
    rw [show (((if l2 = true then 1024 else 32 : ℚ)) : ℝ) = if l2 = true then 1024 else 32 by cases l2 <;> simp]
    have hpos : (0 : ℝ) < (if l2 then 1024 else 32) * d ^ 2 * rho ^ d / e := by positivity
    rw [← Real.log_le_log_iff hpos (by positivity), Real.log_zpow]
    have e1 : Real.log ((if l2 then 1024 else 32) * d ^ 2 * rho ^ d / e) = Real.log (if l2 then 1024 else 32) + 2 * Real.log d + d * Real.log rho - Real.log e := by
      rw [Real.log_div (by positivity) heR.ne', Real.log_mul (by positivity) (by positivity), Real.log_mul hcp.ne' (by positivity), Real.log_pow, Real.log_pow]
      push_cast; ring
    have e2 : (2 * Real.log d - Real.log e + d * Real.log rho) ≤ t4 * Real.log 2 := by
      rwa [div_le_iff₀ hl2] at s4
    have e3 := mul_le_mul_of_nonneg_right hpR hl2.le
    rw [add_mul, hc] at e3
    refine le_trans (le_of_eq ?_) (le_trans (by linarith : Real.log (if l2 then 1024 else 32) + 2 * Real.log d + d * Real.log rho - Real.log e ≤ _) e3)
    rw [← e1]
  exact_mod_cast hfin

/-- **C82.**  For L2 the number whose logarithm is taken is at most each of `ε`, `η - 1/2` (rounded) and `1 - δ`. -/
theorem C82_l2_eps {A : Arith} {ρ : ℚ} (hA : ArithOK A ρ) {δ η ε : ℚ} :
    epsUsed A true δ η ε ≤ ε ∧ epsUsed A true δ η ε ≤ A.rn (η - 1 / 2) ∧ epsUsed A true δ η ε ≤ 1 - δ := by
  have := hA.rd (1 - δ)
  unfold epsUsed
  dsimp only
  rw [if_pos rfl]
  split_ifs <;> refine ⟨?_, ?_, ?_⟩ <;> linarith

/-- **C82, violated.**  `l2_min_prec` for `eta = 0.5` or `delta = 1` takes the logarithm of 0 and converts an infinity to `int`: undefined behaviour, reached from `lll_reduction` with these parameters, whatever the
method (wrapper.cpp:56, :593). -/
theorem C82_l2_violated (logU logD : ℚ → ℚ) {d : ℕ} {δ η ε : ℚ} (hε : 0 < ε) (h : η = 1 / 2 ∨ δ = 1) (hden : 0 < rhoDen (mpfr 53) δ η) (hη : 1 / 2 ≤ η) (hδ : δ ≤ 1) :
    computeMinPrec (mpfr 53) logU logD true d δ η ε = .ub := by
  have r0 : (mpfr 53).rd 0 = 0 := rp_zero (fun t => ⌊t⌋) 53
  have r1 : (mpfr 53).rn 0 = 0 := rp_zero rhe 53
  have e0 : epsUsed (mpfr 53) true δ η ε ≤ 0 := by
    unfold epsUsed
    dsimp only
    rw [if_pos rfl]
    rcases h with rfl | rfl
    · rw [sub_self, r1]
      split_ifs <;> linarith
    · rw [sub_self, r0]
      split_ifs <;> linarith
  unfold computeMinPrec
  dsimp only
  rw [if_neg (by linarith), if_pos (.inr (.inl e0))]

/-- the parameters of `lll_reduction(b, 0.99, 0.5)` -/
example (logU logD : ℚ → ℚ) : computeMinPrec (mpfr 53) logU logD true 2 (r53 (99 / 100)) (1 / 2) (r53 (1 / 100)) = .ub :=
  C82_l2_violated logU logD (by decide +kernel) (.inl rfl) (by decide +kernel) le_rfl (by decide +kernel)

theorem rp_pos {g : ℚ → ℤ} (hg : RInt g) {p : ℕ} (hp : 1 ≤ p) {t : ℚ} (ht : 0 < t) : 0 < rp g p t :=
  lt_of_lt_of_le (two_zpow_pos _) (rp_pos_bounds hg hp ht).1

theorem rp_le_two {g : ℚ → ℤ} (hg : RInt g) {p : ℕ} (hp : 1 ≤ p) {t : ℚ} (ht : 0 ≤ t) : rp g p t ≤ 2 * t := by
  rcases ht.lt_or_eq with h | h
  · refine (rp_pos_bounds hg hp h).2.trans ?_
    have := (log_bounds h.ne').1
    rw [abs_of_pos h] at this ⊢
    rw [two_zpow_add, zpow_one]
    linarith
  · rw [← h, rp_zero]; norm_num

/-- **C82.**  Otherwise the conversion is defined. -/
theorem C82_l2_partial (logU logD : ℚ → ℚ) {d : ℕ} (hd : 1 ≤ d) {δ η ε : ℚ} (hε : 0 < ε) (hη : 1 / 2 < η) (hδ : δ < 1) (l2 : Bool) :
    computeMinPrec (mpfr 53) logU logD l2 d δ η ε ≠ .ub := by
  have e0 : 0 < epsUsed (mpfr 53) l2 δ η ε := by
    have h1 : 0 < (mpfr 53).rn (η - 1 / 2) := rp_pos RInt.rhe (by norm_num) (by linarith)
    have h2 : 0 < (mpfr 53).rd (1 - δ) := rp_pos RInt.floor (by norm_num) (by linarith)
    unfold epsUsed
    dsimp only
    split_ifs <;> assumption
  intro h
  unfold computeMinPrec at h
  dsimp only at h
  split_ifs at h with h1 h2
  rcases h2 with h2 | h2 | h2
  · omega
  · linarith
  · have hA := mpfr_ok (p := 53) le_rfl
    have k1 := hA.ru (η + 1)
    have k2 := hA.ru ((mpfr 53).ru (η + 1) * (mpfr 53).ru (η + 1))
    have k3 := hA.ru ((mpfr 53).ru ((mpfr 53).ru (η + 1) * (mpfr 53).ru (η + 1)) + epsUsed (mpfr 53) l2 δ η ε)
    have k4 := hA.ru ((mpfr 53).ru ((mpfr 53).ru ((mpfr 53).ru (η + 1) * (mpfr 53).ru (η + 1)) + epsUsed (mpfr 53) l2 δ η ε) / rhoDen (mpfr 53) δ η)
    have k5 : 0 < (mpfr 53).ru ((mpfr 53).ru ((mpfr 53).ru (η + 1) * (mpfr 53).ru (η + 1)) + epsUsed (mpfr 53) l2 δ η ε) / rhoDen (mpfr 53) δ η := by
      refine div_pos ?_ (by linarith)
      nlinarith
    unfold rhoOf at h2
    linarith

/-! ## The errors -/

/-- the computed values -/
def muOf {fl : ℚ → ℚ} (s : GSO (Rd fl)) : ℕ → ℕ → ℚ := fun i j => Rd.val (s.mu i j)

def rOf {fl : ℚ → ℚ} (s : GSO (Rd fl)) : ℕ → ℚ := fun i => Rd.val (s.r i i)

/-- the parameters of a GSO computed with `P` bits: `LLL_DEF_DELTA`, `LLL_DEF_ETA` and `DEF_GSO_PREC_EPSILON` in the code, and a precision as large as `gso_min_prec` asks for -/
structure EnoughPrec (δ η ε : ℚ) (D : ℕ) (rho : ℚ) (P : ℕ) : Prop where
  eta : 1 / 2 ≤ η
  eps0 : 0 < ε
  eps : η + ε ≤ 1
  delta : δ ≤ 1
  den : 0 < δ - η ^ 2
  growth : ((1 + η) ^ 2 + ε) / (δ - η ^ 2) ≤ rho
  prec : 32 * D ^ 2 * rho ^ D / ε ≤ 2 ^ P

/-- `gso_min_prec` gives enough precision -/
theorem enough_of_minPrec {A : Arith} {logU logD : ℚ → ℚ} (hA : LogOK A logU logD) {D : ℕ} {δ η ε rho : ℚ} {p : ℤ} (hη : 1 / 2 ≤ η) (hε0 : 0 < ε) (hε : η + ε ≤ 1) (hδ : δ ≤ 1)
    (h : computeMinPrec A logU logD false D δ η ε = .ok rho p) {P : ℕ} (hP : p ≤ P) : EnoughPrec δ η ε D rho P := by
  obtain ⟨h1, h2, h3⟩ := C81_min_prec hA (by linarith) hδ (by linarith) h
  have e : epsUsed A false δ η ε = ε := rfl
  rw [e] at h2 h3
  refine ⟨hη, hε0, hε, hδ, h1, h2, ?_⟩
  simp only [Bool.false_eq_true, if_false] at h3
  refine h3.trans ?_
  rw [← zpow_natCast]
  exact two_zpow_le hP

namespace EnoughPrec
variable {δ η ε rho : ℚ} {D P : ℕ}

theorem rho3 (h : EnoughPrec δ η ε D rho P) : 3 ≤ rho := by
  refine le_trans ?_ h.growth
  have h1 := h.eta
  have h2 := h.delta
  have h3 := h.eps0
  rw [le_div_iff₀ h.den]
  nlinarith

theorem small (h : EnoughPrec δ η ε D rho P) : 32 * D ^ 2 * rho ^ D * (1 / 2 ^ P) ≤ ε := by
  have := h.prec
  rw [div_le_iff₀ h.eps0] at this
  rw [mul_one_div, div_le_iff₀ (by positivity)]
  linarith

theorem lower (h : EnoughPrec δ η ε D rho P) {d : ℕ} (hd : d ≤ D) : EnoughPrec δ η ε d rho P := by
  refine ⟨h.eta, h.eps0, h.eps, h.delta, h.den, h.growth, le_trans ?_ h.prec⟩
  have h1 : rho ^ d ≤ rho ^ D := pow_le_pow_right₀ (by have := h.rho3; linarith) hd
  have h2 : (d : ℚ) ≤ D := by exact_mod_cast hd
  have h3 : 0 ≤ rho ^ d := pow_nonneg (by have := h.rho3; linarith) _
  have h4 := h.eps0
  gcongr

end EnoughPrec

theorem mpfr_ru_ge {P : ℕ} (hP : 1 ≤ P) (t : ℚ) : t ≤ (mpfr P).ru t := ceil_le_rp hP t

theorem relErr_rp {P : ℕ} (hP : 1 ≤ P) : Chol.RelErr (1 / 2 ^ P) (rp rhe P) := by
  intro x
  refine (rp_rel hP x).trans (le_of_eq ?_)
  ring

section
variable {δ η ε rho : ℚ} {D P n : ℕ} {b : Mat ℤ}

/-- the GSO of a fresh object succeeds, and every row is what the recurrences say -/
theorem round_run (hP : 1 ≤ P) (hn : 1 ≤ n) (hind : Indep D n (basisQ b)) (hlll : LLLReduced n D (basisQ b) δ η) (he : EnoughPrec δ η ε D rho P) (wu wi fl : Bool) (u v jz : Mat ℤ) (jf : Mat (Rd (rp rhe P))) :
    (updateGso (mk0 D n true wu wi fl b u v jz jf)).1 = true ∧ (∀ q < D, RowOK (rp rhe P) (updateGso (mk0 D n true wu wi fl b u v jz jf)).2 q (q + 1)) ∧
      (updateGso (mk0 D n true wu wi fl b u v jz jf)).2.b = b ∧ (updateGso (mk0 D n true wu wi fl b u v jz jf)).2.nCols = n := by
  obtain ⟨hwf, hb, hu, hv, hd, hc, hg, hwu, hwi, hk, hl⟩ := mk0_wf D n true wu wi fl b u v jz jf hn
  have hη1 : η ≤ 1 := by have := he.eps; have := he.eps0; linarith
  have hε1 : ε ≤ 1 := by have := he.eps; have := he.eta; linarith
  have := updateGsoFrom_round (relErr_rp hP) (le_refl D) he.eta hη1 he.den he.delta (by positivity) hε1 he.eps0 he.rho3 he.growth he.small D 0 (mk0 D n true wu wi fl b u v jz jf) hwf hg hd hk (by omega)
    (by rw [hb, hc]; exact hind) (by rw [hb, hc]; exact hlll) (fun q hq => absurd hq (by omega))
  unfold updateGso
  rw [hd]
  obtain ⟨h1, h2, h3, h4, -⟩ := this
  exact ⟨h1, h2, h3.trans hb, h4.trans hc⟩

/-- **C81.**  Let `b` be a `(δ, η)`-LLL-reduced basis of `D` vectors and `P` at least the precision returned by `gso_min_prec`.  `update_gso()` with an integer Gram matrix and `mpfr` numbers of `P` bits rounded to nearest - for every `b`,
whatever the arrays contained before - succeeds, all `r` and `mu` are finite, and for every `i < D`
`|r~(i, j) - r(i, j)| ≤ (11/12) D rho^(j+1) 2^(2-P) r(j, j)` (`j ≤ i`), `|mu~(i, j) - mu(i, j)| ≤ D rho^(j+1) 2^(4-P)` and `|mu~(i, j)| ≤ 1` (`j < i`).  The same holds for the first `d` vectors with `d` in place of `D`. -/
theorem C81_gso_error (hP : 1 ≤ P) (hn : 1 ≤ n) (hind : Indep D n (basisQ b)) (hlll : LLLReduced n D (basisQ b) δ η) (he : EnoughPrec δ η ε D rho P) (wu wi fl : Bool) (u v jz : Mat ℤ)
    (jf : Mat (Rd (rp rhe P))) :
    (updateGso (mk0 D n true wu wi fl b u v jz jf)).1 = true ∧ ∀ d ≤ D, ∀ i < d,
      (∀ j ≤ i, ∃ x, (updateGso (mk0 D n true wu wi fl b u v jz jf)).2.r i j = Rd.of x ∧
        |x - rS n (basisQ b) i j| ≤ 11 / 12 * (d * rho ^ (j + 1) * 2 ^ (2 - (P : ℤ))) * normStar n (basisQ b) j) ∧
      (∀ j < i, ∃ x, (updateGso (mk0 D n true wu wi fl b u v jz jf)).2.mu i j = Rd.of x ∧ |x - muS n (basisQ b) i j| ≤ d * rho ^ (j + 1) * 2 ^ (4 - (P : ℤ)) ∧ |x| ≤ 1) := by
  obtain ⟨h1, h2, h3, h4⟩ := round_run hP hn hind hlll he wu wi fl u v jz jf
  refine ⟨h1, ?_⟩
  generalize (updateGso (mk0 D n true wu wi fl b u v jz jf)).2 = s at h2 h3 h4
  intro d hd i hi
  have he' := he.lower hd
  have hη1 : η ≤ 1 := by have := he.eps; have := he.eps0; linarith
  have hε1 : ε ≤ 1 := by have := he.eps; have := he.eta; linarith
  have hD := data_of_rows (relErr_rp hP) (s := s) hd (by rw [h3, h4]; exact hind) (by rw [h3, h4]; exact hlll) he.den (fun q hq => h2 q (by omega))
  have hα : (0 : ℚ) < 1 / (δ - η ^ 2) := by have := he.den; positivity
  have hα1 : 1 ≤ 1 / (δ - η ^ 2) * (1 - η ^ 2) := by
    rw [one_div, ← div_eq_inv_mul, le_div_iff₀ he.den]; have := he.delta; linarith
  have hα2 : 1 / (δ - η ^ 2) * ((1 + η) ^ 2 + ε) ≤ rho := by rw [one_div, ← div_eq_inv_mul]; exact he.growth
  have hu : (0 : ℚ) ≤ 1 / 2 ^ P := by positivity
  have herr := Chol.error hD (le_refl d) he.eta hη1 hα hα1 hu hε1 he.rho3 hα2 he'.small
  have herrm := fun {j i : ℕ} => Chol.error_mu hD (le_refl d) he.eta hη1 hα hα1 hu hε1 he.rho3 hα2 he'.small (j := j) (i := i)
  have z2 : ((2 : ℚ) ^ (2 - (P : ℤ))) = 4 * (1 / 2 ^ P) := by rw [zpow_sub₀ (by norm_num), zpow_natCast]; norm_num [div_eq_mul_inv]
  have z4 : ((2 : ℚ) ^ (4 - (P : ℤ))) = 16 * (1 / 2 ^ P) := by rw [zpow_sub₀ (by norm_num), zpow_natCast]; norm_num [div_eq_mul_inv]
  rw [h3, h4] at hD herr herrm
  refine ⟨fun j hj => ⟨Rd.val (s.r i j), (h2 i (by omega)).r_some (by omega), ?_⟩, fun j hj => ⟨Rd.val (s.mu i j), (h2 i (by omega)).mu_some (by omega) hj, ?_, ?_⟩⟩
  · have := herr j i hj hi
    rw [rS_self] at this
    refine this.trans (le_of_eq ?_)
    rw [z2]
    unfold Chol.bnd basisQ
    ring
  · refine (herrm hj hi).trans ?_
    rw [z4]
    unfold Chol.bnd
    have : 0 ≤ (d : ℚ) * rho ^ (j + 1) * (1 / 2 ^ P) := by
      have := he.rho3
      positivity
    linarith
  · have e1 := herrm hj hi
    have e2 : |muS n (basisQ b) i j| ≤ η := hlll.1 i (by omega) j hj
    have e3 := Chol.bnd_le hu (by have := he.rho3; linarith : 1 ≤ rho) he'.small (by omega : j < d)
    have e4 := abs_sub_abs_le_abs_sub (Rd.val (s.mu i j)) (muS n (basisQ b) i j)
    have e5 := he.eps
    have e6 := he.eps0
    have e7 : |Rd.val (s.mu i j) - muS n (basisQ b) i j| ≤ 5 / 2 * Chol.bnd d rho (1 / 2 ^ P) j := e1
    linarith

/-- **C81 and C70.**  These are the errors that `init_delta_def` assumes. -/
theorem C81_gsoErr (hP : 4 ≤ P) (hn : 1 ≤ n) (hind : Indep D n (basisQ b)) (hlll : LLLReduced n D (basisQ b) δ η) (he : EnoughPrec δ η ε D rho P) (wu wi fl : Bool) (u v jz : Mat ℤ)
    (jf : Mat (Rd (rp rhe P))) {d : ℕ} (hd : d ≤ D) {s : GSO (Rd (rp rhe P))} (hs : s = (updateGso (mk0 D n true wu wi fl b u v jz jf)).2) :
    GsoErr (1 - 1 / 2 ^ P) P rho d (muOf s) (rOf s) (muS n (basisQ b)) (normStar n (basisQ b)) ∧
      (∀ i, i < d → 0 < (mpfr P).rd (1 - maxRelDR (mpfr P) P rho d i)) ∧ (∀ i j, i < j → j < d → |muOf s j i| ≤ 1) ∧
      ∀ i, i < D → |rOf s i - normStar n (basisQ b) i| ≤ normStar n (basisQ b) i / 3 := by
  obtain ⟨-, h⟩ := C81_gso_error (by omega) hn hind hlll he wu wi fl u v jz jf
  rw [← hs] at h
  have hpos : ∀ i < D, 0 < normStar n (basisQ b) i := fun i hi => hind.pos i hi
  have hr3 := he.rho3
  have z2 : ((2 : ℚ) ^ (2 - (P : ℤ))) = 4 * (1 / 2 ^ P) := by rw [zpow_sub₀ (by norm_num), zpow_natCast]; norm_num [div_eq_mul_inv]
  have hu : (0 : ℚ) < 1 / 2 ^ P := by positivity
  have hε1 : ε ≤ 1 := by have := he.eps; have := he.eta; linarith
  -- the relative error is small
  have hsm : ∀ c ≤ D, ∀ i < c, (c : ℚ) * rho ^ (i + 1) * 2 ^ (2 - (P : ℤ)) ≤ 1 / 8 := by
    intro c hc i hi
    have h1 := (he.lower hc).small
    have h2 : rho ^ (i + 1) ≤ rho ^ c := pow_le_pow_right₀ (by linarith) (by omega)
    have h3 : (1 : ℚ) ≤ c := by exact_mod_cast (by omega : 1 ≤ c)
    rw [z2]
    have h4 : (c : ℚ) * rho ^ (i + 1) ≤ c ^ 2 * rho ^ c := by
      have : (0 : ℚ) ≤ rho ^ c := by positivity
      have a1 : (c : ℚ) * rho ^ (i + 1) ≤ c * rho ^ c := by gcongr
      have a2 : (c : ℚ) * rho ^ c ≤ c ^ 2 * rho ^ c := by
        refine mul_le_mul_of_nonneg_right ?_ this
        nlinarith
      linarith
    have h5 := mul_le_mul_of_nonneg_right h4 hu.le
    linarith
  have hnear : ∀ c ≤ D, ∀ i < c, |rOf s i - normStar n (basisQ b) i| ≤ 11 / 12 * (c * rho ^ (i + 1) * 2 ^ (2 - (P : ℤ))) * normStar n (basisQ b) i := by
    intro c hc i hi
    obtain ⟨x, hx, hb⟩ := (h c hc i hi).1 i le_rfl
    have : rOf s i = x := by unfold rOf; rw [hx]; rfl
    rw [this, ← rS_self]
    rw [rS_self] at hb ⊢
    exact hb
  have hnear8 : ∀ c ≤ D, ∀ i < c, |rOf s i - normStar n (basisQ b) i| ≤ 1 / 8 * normStar n (basisQ b) i := by
    intro c hc i hi
    refine (hnear c hc i hi).trans ?_
    refine mul_le_mul_of_nonneg_right ?_ (hpos i (by omega)).le
    have := hsm c hc i hi
    linarith
  refine ⟨⟨fun i hi => hpos i (by omega), fun i hi => ?_, fun i hi => ?_, fun i j hij hj => ?_⟩, fun i hi => ?_, fun i j hij hj => ?_, fun i hi => ?_⟩
  · have h1 := abs_le.1 (hnear8 d hd i hi)
    have h2 := hpos i (by omega)
    linarith [h1.1]
  · refine (hnear d hd i hi).trans ?_
    refine mul_le_mul_of_nonneg_right (mul_le_mul_of_nonneg_right ?_ (by positivity)) (hpos i (by omega)).le
    have h16 : (16 : ℚ) ≤ 2 ^ P := by
      calc (16 : ℚ) = 2 ^ 4 := by norm_num
        _ ≤ 2 ^ P := pow_le_pow_right₀ (by norm_num) hP
    have : (1 : ℚ) / 2 ^ P ≤ 1 / 16 := one_div_le_one_div_of_le (by norm_num) h16
    linarith
  · obtain ⟨x, hx, hb, -⟩ := (h d hd j hj).2 i hij
    have : muOf s j i = x := by unfold muOf; rw [hx]; rfl
    rw [this]; exact hb
  · refine rp_pos RInt.floor (by omega) ?_
    have h1 := hsm d hd i hi
    have h2 : (mpfr P).ru (rho ^ (i + 1)) ≤ 2 * rho ^ (i + 1) := rp_le_two RInt.ceil (by omega) (by positivity)
    have h3 : (0 : ℚ) ≤ d * 2 ^ (2 - (P : ℤ)) := mul_nonneg (Nat.cast_nonneg d) (two_zpow_pos _).le
    have h5 : (0 : ℚ) ≤ rho ^ (i + 1) := by positivity
    have h6 := (mpfr_ru_ge (P := P) (by omega) (rho ^ (i + 1)))
    have h4 : maxRelDR (mpfr P) P rho d i ≤ 2 * (d * 2 ^ (2 - (P : ℤ)) * (mpfr P).ru (rho ^ (i + 1))) :=
      rp_le_two RInt.ceil (by omega) (mul_nonneg h3 (h5.trans h6))
    have h7 := mul_le_mul_of_nonneg_left h2 h3
    linarith
  · obtain ⟨x, hx, -, hb⟩ := (h d hd j hj).2 i hij
    have : muOf s j i = x := by unfold muOf; rw [hx]; rfl
    rw [this]; exact hb
  · refine (hnear8 D le_rfl i hi).trans ?_
    have := hpos i hi
    linarith

open SVP in
/-- **C81 and C71.**  `shortest_vector` with the proved method on a reduced basis: the GSO is computed with `P ≥ 53` bits, as many as `gso_min_prec` asks for, and the enumeration in `double` arithmetic.  What C71 assumed of the GSO
holds; it remains that the first bound on the error of the enumeration is small. -/
theorem C81_proved_svp (hP : 53 ≤ P) (hD : 1 ≤ D) (hn : 1 ≤ n) (hind : Indep D n (basisQ b)) (hlll : LLLReduced n D (basisQ b) δ η) (he : EnoughPrec δ η ε D rho P) (wu wi fl : Bool) (u v jz : Mat ℤ)
    (jf : Mat (Rd (rp rhe P))) {s : GSO (Rd (rp rhe P))} (hs : s = (updateGso (mk0 D n true wu wi fl b u v jz jf)).2) {d : ℕ} (hd : d = lastUseful (rOf s) (D - 1))
    {q : (ℕ → ℚ) × ℚ} (hq : Start (mpfr P) (1 - 1 / 2 ^ P) (initDelta (mpfr P) P rho d (muOf s) (rOf s) r53) (getBasisMin (fun i => sqLen n (b i)) 0 d) q) (hr0 : q.2 ≤ rOf s 0) :
    ∃ N, ∀ fuel, N ≤ fuel → ∃ x, provedR (mpfr P) r53 toDoubleUp D (muOf s) (rOf s)
      (fun d => initDelta (mpfr P) P rho d (muOf s) (rOf s) r53) (fun i => sqLen n (b i)) (fun d x => sqLen n (comb d b x)) fuel =
        .done (some x) ∧ IsShortest D n b x := by
  have hdD : d ≤ D := by
    rw [hd]
    have := (lastUseful_spec (rOf s) (D - 1)).2.1
    omega
  obtain ⟨h1, h2, h3, h4⟩ := C81_gsoErr (by omega) hn hind hlll he wu wi fl u v jz jf hdD hs
  exact C71_proved_double_init hP hD hind (by have := he.rho3; linarith) hd h1 h2 h3 h4 hq hr0

end

/-! ## Examples -/

/-- the hypotheses on the logarithm can be met -/
theorem logOK_example : ∃ logU logD : ℚ → ℚ, LogOK (mpfr 53) logU logD := by
  refine ⟨fun t => ⌈Real.log t * 2 ^ 60⌉ / 2 ^ 60, fun t => ⌊Real.log t * 2 ^ 60⌋ / 2 ^ 60, (mpfr_ok le_rfl).ru, (mpfr_ok le_rfl).rd, fun t _ => ?_, fun t _ => ?_, ?_⟩
  · push_cast
    rw [le_div_iff₀ (by positivity)]
    exact Int.le_ceil _
  · push_cast
    rw [div_le_iff₀ (by positivity)]
    exact Int.floor_le _
  · have h : (1 : ℝ) / 2 < Real.log 2 := by
      have := Real.log_two_gt_d9
      linarith
    have h2 : (1 : ℤ) ≤ ⌊Real.log ((2 : ℚ) : ℝ) * 2 ^ 60⌋ := by
      rw [Int.le_floor]
      push_cast
      linarith
    have h3 : (0 : ℚ) < (⌊Real.log ((2 : ℚ) : ℝ) * 2 ^ 60⌋ : ℤ) := by exact_mod_cast h2
    positivity

/-- the parameters of `shortest_vector` (svpcvp.cpp:106): for every dimension `gso_min_prec` returns a precision -/
theorem minPrec_example (logU logD : ℚ → ℚ) {D : ℕ} (hD : 1 ≤ D) : ∃ rho p, computeMinPrec (mpfr 53) logU logD false D (r53 (99 / 100)) (r53 (51 / 100)) (r53 (3 / 100)) = .ok rho p := by
  have h := C82_l2_partial logU logD hD (δ := r53 (99 / 100)) (η := r53 (51 / 100)) (ε := r53 (3 / 100)) (by decide +kernel) (by decide +kernel) (by decide +kernel) false
  cases hc : computeMinPrec (mpfr 53) logU logD false D (r53 (99 / 100)) (r53 (51 / 100)) (r53 (3 / 100)) with
  | abort =>
    exfalso
    unfold computeMinPrec at hc
    dsimp only at hc
    rw [if_neg (by have : 0 < rhoDen (mpfr 53) (r53 (99 / 100)) (r53 (51 / 100)) := by decide +kernel
                   linarith)] at hc
    split_ifs at hc
  | ub => exact absurd hc h
  | ok rho p => exact ⟨rho, p, rfl⟩

/-- with the precision chosen by `shortest_vector` -/
example : ∃ (rho : ℚ) (P : ℕ), 53 ≤ P ∧ EnoughPrec (r53 (99 / 100)) (r53 (51 / 100)) (r53 (3 / 100)) 200 rho P := by
  obtain ⟨logU, logD, hA⟩ := logOK_example
  obtain ⟨rho, p, h⟩ := minPrec_example logU logD (D := 200) (by norm_num)
  refine ⟨rho, (max 53 (p + 10)).toNat, by omega, enough_of_minPrec hA (by decide +kernel) (by decide +kernel) (by decide +kernel) (by decide +kernel) h (by omega)⟩

/-- the basis `(20, 3, 1), (6, 25, -4), (-9, 8, 31)` -/
def gexB : Mat ℤ := fun i j =>
  match i, j with
  | 0, 0 => 20 | 0, 1 => 3 | 0, 2 => 1
  | 1, 0 => 6 | 1, 1 => 25 | 1, 2 => -4
  | 2, 0 => -9 | 2, 1 => 8 | 2, 2 => 31
  | _, _ => 0

theorem gexB_indep : Indep 3 3 (basisQ gexB) := indep_of_pos (by decide +kernel)

theorem gexB_lll : LLLReduced 3 3 (basisQ gexB) (99 / 100) (51 / 100) := by
  constructor
  · have : ∀ i < 3, ∀ j < i, |muS 3 (basisQ gexB) i j| ≤ 51 / 100 := by decide +kernel
    exact this
  · have : ∀ i < 2, 99 / 100 * normStar 3 (basisQ gexB) i ≤ normStar 3 (basisQ gexB) (i + 1) + muS 3 (basisQ gexB) (i + 1) i ^ 2 * normStar 3 (basisQ gexB) i := by decide +kernel
    exact fun i hi => this i (by omega)

theorem gexB_enough : EnoughPrec (99 / 100) (51 / 100) (3 / 100) 3 4 80 := by
  constructor <;> norm_num

/-- its GSO with 80 bits, from arrays that are not zero -/
def gexS : GSO (Rd (rp rhe 80)) := (updateGso (mk0 3 3 true false false false gexB gexB gexB gexB (fun _ _ => Rd.of 7))).2

/-- the value computed for `mu(1, 0)` is not the exact one -/
example : muOf gexS 1 0 ≠ muS 3 (basisQ gexB) 1 0 ∧ rOf gexS 1 ≠ normStar 3 (basisQ gexB) 1 := by decide +kernel

open SVP in
/-- the hypotheses of C81 are met: the bounds hold, and `shortest_vector` finds a shortest vector (the last row is dropped by `last_useful_index`) -/
theorem gex_svp : ∃ N, ∀ fuel, N ≤ fuel → ∃ x, provedR (mpfr 80) r53 toDoubleUp 3 (muOf gexS) (rOf gexS)
    (fun d => initDelta (mpfr 80) 80 4 d (muOf gexS) (rOf gexS) r53) (fun i => sqLen 3 (gexB i)) (fun d x => sqLen 3 (comb d gexB x)) fuel = .done (some x) ∧ IsShortest 3 3 gexB x := by
  obtain ⟨s, hs, hr⟩ := startCheck_sound (A := mpfr 80) (ρ := 1 - 1 / 2 ^ 80) (q := initDelta (mpfr 80) 80 4 2 (muOf gexS) (rOf gexS) r53) (m := 410) (by decide +kernel)
  have hd : 2 = lastUseful (rOf gexS) (3 - 1) := by decide +kernel
  have hm : getBasisMin (fun i => sqLen 3 (gexB i)) 0 2 = 410 := by decide +kernel
  exact C81_proved_svp (by norm_num) (by norm_num) (by norm_num) gexB_indep gexB_lll gexB_enough false false false gexB gexB gexB (fun _ _ => Rd.of 7) (s := gexS) rfl hd (q := s) (by rw [hm]; exact hs) hr

end ErrB
end Fplll

import Verif.Proofs.LLLRoundOk
import Verif.Props.LLLRound
import Verif.Props.LLLBudget
import Verif.Props.GSOGram

/-!
# C84: the proved LLL succeeds

C83 is about the runs that succeed.  With linearly independent vectors and the precision of `l2_min_prec`, every run does: size reduction never gives up (lll.cpp:226-236) although it works with rounded coefficients, and the limit on the number of iterations
(lll.cpp:69-70) is not reached.
-/

open Finset

namespace Fplll
namespace ErrB

open Spec GSO LLL BKZ

/-- the limit suffices when the vectors are tested with a slightly larger `δ` -/
theorem budget_ok {d e n maxIter : ℕ} {b : ℕ → ℕ → ℤ} {δ δp : ℚ} (hd : 1 ≤ d) (hn : 1 ≤ n) (hδ : 1 / 4 ≤ δ) (hδ1 : δ < 1) (hle : δ ≤ δp) (hθ : δp ≤ δ + (1 - δ) / 64) (hind : Indep d n (toQ b))
    (he : ∀ i < d, ∀ j < n, |b i j| < 2 ^ e) (hcols : n ≤ 2 ^ 14 * 4 ^ e) (hmax : 9 / 10 * budget d e (δ : ℝ) < maxIter + 1) :
    ∃ m, d - 1 + m ≤ maxIter ∧ ((potential (d - 1) n b : ℤ) : ℚ) * δp ^ (m + 1) < 1 := by
  have hδp0 : 0 < δp := by linarith
  have hδp1 : δp < 1 := by linarith
  set L : ℝ := -Real.log (δ : ℝ) with hL
  set L' : ℝ := -Real.log (δp : ℝ) with hL'
  have hδR4 : (1 / 4 : ℝ) ≤ (δ : ℝ) := by
    have h2 : ((1 / 4 : ℚ) : ℝ) ≤ (δ : ℝ) := by exact_mod_cast hδ
    norm_num at h2 ⊢; exact h2
  have hδR : (0 : ℝ) < (δ : ℝ) := by linarith
  have hδR1 : (δ : ℝ) < 1 := by exact_mod_cast hδ1
  have hδpR : (0 : ℝ) < (δp : ℝ) := by exact_mod_cast hδp0
  have hLpos : 0 < L := by rw [hL]; linarith [Real.log_neg hδR hδR1]
  have hl2 := Real.log_two_lt_d9
  have hl2' := Real.log_two_gt_d9
  have hL4 : L ≤ 2 * Real.log 2 := by
    have h2 := Real.log_le_log (by norm_num) hδR4
    rw [show (1 / 4 : ℝ) = (2 ^ 2)⁻¹ by norm_num, Real.log_inv, Real.log_pow] at h2
    push_cast at h2
    linarith
  have hLL : 15 / 16 * L ≤ L' := by
    have h1 : (δp : ℝ) ≤ δ * (1 + (1 - δ) / 16) := by
      have a : (δp : ℝ) ≤ (δ : ℝ) + (1 - δ) / 64 := by
        have := (Rat.cast_le (K := ℝ)).2 hθ
        push_cast at this
        exact this
      nlinarith
    have h2 := Real.log_le_log hδpR h1
    rw [Real.log_mul hδR.ne' (by nlinarith)] at h2
    have h3 := Real.log_le_sub_one_of_pos (by nlinarith : (0 : ℝ) < 1 + (1 - δ) / 16)
    have h4 := Real.log_le_sub_one_of_pos hδR
    rw [hL, hL']
    linarith
  have hL'pos : 0 < L' := by linarith
  set P : ℚ := ((potential (d - 1) n b : ℤ) : ℚ) with hP
  have hP1 : 1 ≤ P := by
    have : 0 < potential (d - 1) n b :=
      prod_pos fun m hm => gramDet_pos hind (by rw [mem_range] at hm; omega)
    rw [hP]; exact_mod_cast this
  have hPle : P ≤ ((n : ℚ) * 4 ^ e) ^ (d * (d - 1) / 2) := potential_le (d := d) he
  have hPR : (1 : ℝ) ≤ (P : ℝ) := by exact_mod_cast hP1
  have hlogP : Real.log (P : ℝ) ≤ (d * (d - 1) / 2 : ℕ) * (Real.log 2 * (14 + 4 * e)) := by
    have h1 : (P : ℝ) ≤ ((n : ℝ) * 4 ^ e) ^ (d * (d - 1) / 2) := by
      have := (Rat.cast_le (K := ℝ)).2 hPle
      push_cast at this
      exact this
    have h2 := Real.log_le_log (by linarith) h1
    rw [Real.log_pow] at h2
    refine h2.trans (mul_le_mul_of_nonneg_left ?_ (by positivity))
    have h3 : (n : ℝ) * 4 ^ e ≤ 2 ^ (14 + 4 * e) := by
      have : n * 4 ^ e ≤ 2 ^ (14 + 4 * e) := by
        calc n * 4 ^ e ≤ 2 ^ 14 * 4 ^ e * 4 ^ e := Nat.mul_le_mul_right _ hcols
          _ = 2 ^ (14 + 4 * e) := by
            rw [mul_assoc, ← mul_pow, pow_add, pow_mul]; norm_num
      exact_mod_cast this
    have h4 := Real.log_le_log (by positivity) h3
    rw [Real.log_pow] at h4
    push_cast at h4
    linarith
  set m : ℕ := ⌊Real.log (P : ℝ) / L'⌋₊ with hm
  have hmL : (m : ℝ) ≤ Real.log (P : ℝ) / L' := Nat.floor_le (div_nonneg (Real.log_nonneg hPR) hL'pos.le)
  have hmU : Real.log (P : ℝ) / L' < m + 1 := Nat.lt_floor_add_one _
  refine ⟨m, ?_, ?_⟩
  · have hdR : (1 : ℝ) ≤ d := by exact_mod_cast hd
    have heR : (0 : ℝ) ≤ e := Nat.cast_nonneg e
    have hh : ((d * (d - 1) / 2 : ℕ) : ℝ) ≤ d * (d - 1) / 2 := by
      have : ((d * (d - 1) / 2 : ℕ) : ℝ) ≤ ((d * (d - 1) : ℕ) : ℝ) / 2 := Nat.cast_div_le
      rw [Nat.cast_mul, Nat.cast_sub hd, Nat.cast_one] at this
      exact this
    have hb : budget d e (δ : ℝ) = d + 2 * d * (d + 1) * (e + 3) / L := by
      unfold budget
      rw [show Real.log (δ : ℝ) = -L by rw [hL]; ring, div_neg]
      ring
    have hx : Real.log (P : ℝ) ≤ d * (d - 1) / 2 * (27 / 8 * (e + 3)) := by
      refine hlogP.trans (mul_le_mul hh ?_ (by positivity) (by nlinarith))
      nlinarith
    have hgoal : (d : ℝ) - 1 + m < maxIter + 1 := by
      refine lt_of_le_of_lt ?_ hmax
      rw [hb]
      have h1 : (m : ℝ) * L' ≤ Real.log (P : ℝ) := (le_div_iff₀ hL'pos).1 hmL
      have h1' : (m : ℝ) * (15 / 16 * L) ≤ d * (d - 1) / 2 * (27 / 8 * (e + 3)) :=
        (mul_le_mul_of_nonneg_left hLL (Nat.cast_nonneg m)).trans (h1.trans hx)
      have h2 : ((d : ℝ) - 1 + m) * L ≤ 9 / 10 * (d + 2 * d * (d + 1) * (e + 3) / L) * L := by
        have : 9 / 10 * (d + 2 * d * (d + 1) * (e + 3) / L) * L = 9 / 10 * d * L + 9 / 5 * d * (d + 1) * (e + 3) := by
          field_simp
          ring
        rw [this]
        have h3 : (m : ℝ) * L ≤ 9 / 5 * (d * (d - 1)) * (e + 3) := by linarith
        have h4 : 9 / 5 * (d : ℝ) * (d + 1) * (e + 3) = 9 / 5 * (d * (d - 1)) * (e + 3) + 18 / 5 * (d * e) + 54 / 5 * d := by ring
        have h5 : (0 : ℝ) ≤ d * e := mul_nonneg (by linarith) heR
        have h6 : (d : ℝ) * L ≤ d * (3 / 2) := mul_le_mul_of_nonneg_left (by linarith) (by linarith)
        rw [h4]
        nlinarith
      exact le_of_mul_le_mul_right h2 hLpos
    have hcast : ((d - 1 + m : ℕ) : ℝ) < ((maxIter + 1 : ℕ) : ℝ) := by
      push_cast [Nat.cast_sub hd]
      exact hgoal
    have : d - 1 + m < maxIter + 1 := by exact_mod_cast hcast
    omega
  · have h1 : Real.log (P : ℝ) < (m + 1) * L' := (div_lt_iff₀ hL'pos).1 hmU
    have h2 : Real.log ((P : ℝ) * (δp : ℝ) ^ (m + 1)) < 0 := by
      rw [Real.log_mul (by linarith) (by positivity), Real.log_pow]
      push_cast
      rw [show Real.log (δp : ℝ) = -L' by rw [hL']; ring]
      linarith
    have h3 : (P : ℝ) * (δp : ℝ) ^ (m + 1) < 1 := by
      by_contra hc
      exact absurd (Real.log_nonneg (not_lt.1 hc)) (not_le.2 h2)
    exact_mod_cast h3

theorem dot_le_of_entries {d n e : ℕ} {b : Mat ℤ} (he : ∀ i < d, ∀ j < n, |b i j| < 2 ^ e) : ∀ i < d, dotQ n (basisQ b i) (basisQ b i) ≤ n * 4 ^ e := by
  intro i hi
  have h2 : ∀ c ∈ range n, basisQ b i c * basisQ b i c ≤ 4 ^ e := by
    intro c hc
    rw [mem_range] at hc
    have h3 : |b i c| ≤ 2 ^ e := (he i hi c hc).le
    have h4 : b i c * b i c ≤ 4 ^ e := by
      rw [← abs_mul_abs_self (b i c)]
      calc |b i c| * |b i c| ≤ 2 ^ e * 2 ^ e := mul_le_mul h3 h3 (abs_nonneg _) (by positivity)
        _ = 4 ^ e := by rw [← mul_pow]; norm_num
    unfold basisQ
    exact_mod_cast h4
  unfold dotQ
  refine (sum_le_sum h2).trans ?_
  rw [sum_const, card_range, nsmul_eq_mul]

/-- the first coefficients fit in the exponents -/
theorem first_bound {d n e P : ℕ} {ε rho ρ : ℚ} (hd : 1 ≤ d) (hr : 3 ≤ rho) (hε0 : 0 < ε) (hε : ε ≤ 1) (hprec : 1024 * d ^ 2 * rho ^ d / ε ≤ 11 / 10 * 2 ^ P) (hρ : ρ ^ (d - 1) ≤ 3 * rho ^ (d - 1)) :
    4 * (d * (n * 4 ^ e) * ρ ^ (d - 1)) ≤ ((2 : ℚ) ^ (e + P + n)) ^ 2 := by
  have hd1 : (1 : ℚ) ≤ d := by exact_mod_cast hd
  have h1 : rho ^ (d - 1) ≤ rho ^ d := pow_le_pow_right₀ (by linarith) (by omega)
  have hr0 : 0 < rho ^ d := by positivity
  have h2 : 12 * d * rho ^ d ≤ 2 ^ P := by
    rw [div_le_iff₀ hε0] at hprec
    have a1 : (2 : ℚ) ^ P * ε ≤ 2 ^ P := mul_le_of_le_one_right (by positivity) hε
    have a2 : 24 * (d : ℚ) ≤ 1024 * d ^ 2 := by nlinarith
    have a3 := mul_le_mul_of_nonneg_right a2 hr0.le
    have a4 : (0 : ℚ) < 2 ^ P := by positivity
    linarith
  have h3 : (n : ℚ) ≤ 2 ^ n := by exact_mod_cast Nat.lt_two_pow_self.le
  have h4 : 4 * (d * (n * 4 ^ e) * ρ ^ (d - 1)) = n * 4 ^ e * (4 * d * ρ ^ (d - 1)) := by ring
  have h5 : 4 * d * ρ ^ (d - 1) ≤ 2 ^ P := by
    have := mul_le_mul_of_nonneg_left (hρ.trans (mul_le_mul_of_nonneg_left h1 (by norm_num))) (by linarith : 0 ≤ 4 * (d : ℚ))
    linarith
  have h6 : ((2 : ℚ) ^ (e + P + n)) ^ 2 = (2 ^ n * 4 ^ e * 2 ^ P) * (2 ^ n * 2 ^ P) := by
    rw [pow_add, pow_add, show (4 : ℚ) = 2 ^ 2 by norm_num, ← pow_mul]; ring
  have h7 : (1 : ℚ) ≤ 2 ^ n * 2 ^ P := by
    rw [← pow_add]; exact one_le_pow₀ (by norm_num)
  rw [h4, h6]
  calc (n : ℚ) * 4 ^ e * (4 * d * ρ ^ (d - 1)) ≤ n * 4 ^ e * 2 ^ P := mul_le_mul_of_nonneg_left h5 (by positivity)
    _ ≤ 2 ^ n * 4 ^ e * 2 ^ P := by gcongr
    _ ≤ _ := le_mul_of_one_le_right (by positivity) h7

section
variable {δ η ε rho : ℚ} {d P n : ℕ} {b : Mat ℤ}

/-- LLL succeeds, with Lovász's condition or with Siegel's -/
theorem lll_succeeds {fl : ℚ → ℚ} {sg : Bool} {c : LLLCfg (Rd fl)} (R : RCfg sg c η δ) (hfl : Chol.RelErr (1 / 2 ^ P) fl) (hn : 1 ≤ n) (hd : 1 ≤ d) (hind : Indep d n (basisQ b)) (he : EnoughL2 δ η ε d rho P) (hε1 : 1 / 2 + ε ≤ η) (hε2 : ε ≤ 1 - δ) (hε3 : ε ≤ 1 / 16)
    {e : ℕ} (hb : ∀ i < d, ∀ j < n, |b i j| < 2 ^ e) (hcols : n ≤ 2 ^ 14 * 4 ^ e) (hexp : ((e + P + n : ℕ) : ℤ) ≤ longMax) (wu wi : Bool) (u v jz : Mat ℤ) (jf : Mat (Rd fl)) (fuel maxIter last : ℕ) (hfuel : babaiFuel ≤ fuel)
    (hmax : 9 / 10 * budget d e (δ : ℝ) < maxIter + 1) :
    (lll c fuel maxIter last (mk0 d n true wu wi false b u v jz jf) 0 0 d 0).1 = .success := by
  obtain ⟨hwf, hb', hu, hv, hdd, hc, hg, hwu, hwi, hk, hl⟩ := mk0_wf d n true wu wi false b u v jz jf hn
  have hfo := (mk0_fields d n wu wi b u v jz jf).2.2.1
  have hf := mk0_freshR d n wu wi false b u v jz jf hn
  obtain ⟨θ, ρ, h0, h1, h2, h3, h4, h5⟩ := he.par' hd
  have hε0 := he.eps0
  have hden := he.den
  have hη := he.eta
  have hδ' := he.delta
  have hd1 : (1 : ℚ) ≤ d := by exact_mod_cast hd
  have hτ : 16 * Chol.tau d ρ (1 / 2 ^ P) = θ := by rw [h3]; unfold Chol.tau; ring
  have hθε : 64 * θ ≤ ε := by
    rw [le_div_iff₀ (by positivity)] at h1
    nlinarith
  have hη1 : η ≤ 1 := by nlinarith
  have hδ0 : 0 < δ := by nlinarith
  have hη63 : η + θ ≤ 1 := by
    have hp := h2.par.den
    have := h2.eta'
    have := h2.delta'
    nlinarith
  have hroom : Room d η (1 / 2 ^ P) ρ := ⟨by linarith, by linarith⟩
  have hfb := first_bound (n := n) (e := e) hd h5 hε0 he.eps he.prec h4
  obtain ⟨m, hm1, hm2⟩ := budget_ok (δp := δ + 16 * Chol.tau d ρ (1 / 2 ^ P)) hd hn (by nlinarith) (by linarith) (by linarith) (by linarith) hind hb hcols hmax
  have hdot := dot_le_of_entries hb
  have hind' : Indep d n (bR (mk0 d n true wu wi false b u v jz jf)) := by unfold bR; rw [hb']; exact hind
  generalize mk0 d n true wu wi false b u v jz jf = s at *
  subst hdd hc hb'
  have hK1 : (2 : ℚ) ^ (e + P + s.nCols) ≤ 2 ^ (((e + P + s.nCols : ℕ) : ℤ) ⊔ longMax) := by
    rw [← zpow_natCast]
    exact zpow_le_zpow_right₀ (by norm_num) (le_max_left _ _)
  have hL : longMax = (((e + P + s.nCols : ℕ) : ℤ) ⊔ longMax) := (max_eq_right hexp).symm
  generalize (((e + P + s.nCols : ℕ) : ℤ) ⊔ longMax) = L at hK1 hL
  have hK0 : (2 : ℚ) ≤ 2 ^ (e + P + s.nCols) := by
    calc (2 : ℚ) = 2 ^ 1 := by norm_num
      _ ≤ _ := pow_le_pow_right₀ (by norm_num) (by omega)
  exact (lll_ok _ R hfl h2 hroom hη63 hδ0 (by linarith) (by linarith) hind' hwf hf hl hfo hd hfuel hL hK0 hK1 hfb maxIter last m hdot hm1 hm2).1

/-- **C84.**  Let `b` be `d` linearly independent vectors with `n` coordinates of at most `e` bits, and `P` at least the precision returned by `l2_min_prec` for `δ < 1` and `η > 1/2`.  LLL with the exact Gram matrix and numbers of `P` bits (every operation
has a relative error of at most `2^-P`), with a limit on the number of iterations that is at least nine tenths of the expression in the code, succeeds - whatever the arrays contained before.  (Without `GSO_OP_FORCE_LONG`, as in the proved method, wrapper.cpp:118-123.)  It returns a basis of the same lattice, which is exactly
`(δ - θ, η + θ)`-LLL-reduced with `θ = ε/(64 d)`. -/
theorem C84_proved_lll_succeeds {fl : ℚ → ℚ} (hfl : Chol.RelErr (1 / 2 ^ P) fl) (hn : 1 ≤ n) (hd : 1 ≤ d) (hind : Indep d n (basisQ b)) (he : EnoughL2 δ η ε d rho P) (hε1 : 1 / 2 + ε ≤ η) (hε2 : ε ≤ 1 - δ) (hε3 : ε ≤ 1 / 16)
    {e : ℕ} (hb : ∀ i < d, ∀ j < n, |b i j| < 2 ^ e) (hcols : n ≤ 2 ^ 14 * 4 ^ e) (hexp : ((e + P + n : ℕ) : ℤ) ≤ longMax) (wu wi early : Bool) (u v jz : Mat ℤ) (jf : Mat (Rd fl)) (fuel maxIter last : ℕ) (hfuel : babaiFuel ≤ fuel)
    (hmax : 9 / 10 * budget d e (δ : ℝ) < maxIter + 1) :
    let q := lll (mkCfg (Rd.of δ) (Rd.of η) false early) fuel maxIter last (mk0 d n true wu wi false b u v jz jf) 0 0 d 0
    q.1 = .success ∧ lattice (toM d n q.2.s.b) = lattice (toM d n b) ∧ q.2.zeros = 0 ∧ LLLReduced n d (basisQ q.2.s.b) (δ - ε / (64 * d)) (η + ε / (64 * d)) := by
  intro q
  have h83 := C83_proved_lll hfl hn hd hind he wu wi false early u v jz jf fuel maxIter last
  have R : RCfg false (mkCfg (Rd.of δ : Rd fl) (Rd.of η) false early) η δ := ⟨rfl, rfl, rfl⟩
  have hs : q.1 = .success := lll_succeeds R hfl hn hd hind he hε1 hε2 hε3 hb hcols hexp wu wi u v jz jf fuel maxIter last hfuel hmax
  exact ⟨hs, h83 hs⟩

/-- **C84 with `l2_min_prec`.**  The same for the precision computed by `l2_min_prec` with `ε ≤ 1/16` (the code passes `LLL_DEF_EPSILON`, 0.01; `η - 1/2` is computed exactly because `1/2 ≤ η ≤ 1`) and the limit computed by `lll` from the largest exponent in the matrix. -/
theorem C84_l2 {fl : ℚ → ℚ} (hfl : Chol.RelErr (1 / 2 ^ P) fl) {A : Arith} {logU logD : ℚ → ℚ} (hA : LogOK A logU logD) {p : ℤ} (hη : 1 / 2 ≤ η) (hδ : δ < 1) (hε : ε ≤ 1 / 16) (hsub : A.rn (η - 1 / 2) ≤ η - 1 / 2) (h : computeMinPrec A logU logD true d δ η ε = .ok rho p) (hpP : p ≤ P)
    (hn : 1 ≤ n) (hn14 : n ≤ 2 ^ 14) (hd : 1 ≤ d) (hind : Indep d n (basisQ b)) (hexp : ((maxExp d n b + P + n : ℕ) : ℤ) ≤ longMax) (wu wi early : Bool) (u v jz : Mat ℤ) (jf : Mat (Rd fl)) (fuel last : ℕ) (hfuel : babaiFuel ≤ fuel) :
    ∃ k, maxIterOf d (maxExp d n b) (δ : ℝ) = some k ∧
    let q := lll (mkCfg (Rd.of δ) (Rd.of η) false early) fuel k.toNat last (mk0 d n true wu wi false b u v jz jf) 0 0 d 0
    q.1 = .success ∧ lattice (toM d n q.2.s.b) = lattice (toM d n b) ∧ LLLReduced n d (basisQ q.2.s.b) (δ - (1 - δ) / 64) (η + ε / 64) := by
  have he := enoughL2_of_minPrec hA hη hδ.le (by linarith) h hpP
  have hne : (δ : ℝ) ≠ 1 := by
    have : (δ : ℝ) < 1 := by exact_mod_cast hδ
    exact this.ne
  refine ⟨truncZ (budget d (maxExp d n b) (δ : ℝ)), by unfold maxIterOf; rw [if_neg hne], ?_⟩
  generalize hk : (truncZ (budget d (maxExp d n b) (δ : ℝ))).toNat = k
  have hδ0 : 0 < δ := by have := he.den; nlinarith
  have hpos : 0 ≤ budget d (maxExp d n b) (δ : ℝ) := by
    unfold budget
    have h0 : (0 : ℝ) < (δ : ℝ) := by exact_mod_cast hδ0
    have h1 : (δ : ℝ) < 1 := by exact_mod_cast hδ
    have h2 := Real.log_neg h0 h1
    have h3 : ((maxExp d n b : ℝ) + 3) / Real.log (δ : ℝ) ≤ 0 := div_nonpos_of_nonneg_of_nonpos (by positivity) h2.le
    have h4 : (2 : ℝ) * d * (d + 1) * (((maxExp d n b : ℝ) + 3) / Real.log (δ : ℝ)) ≤ 0 :=
      mul_nonpos_of_nonneg_of_nonpos (by positivity) h3
    have h5 : (0 : ℝ) ≤ d := Nat.cast_nonneg d
    linarith
  have hmax : 9 / 10 * budget d (maxExp d n b) (δ : ℝ) < k + 1 := by
    have h1 : budget d (maxExp d n b) (δ : ℝ) < k + 1 := by
      rw [← hk]
      unfold truncZ
      rw [if_pos hpos]
      have h2 := Int.lt_floor_add_one (budget d (maxExp d n b) (δ : ℝ))
      have h3 : ((⌊budget d (maxExp d n b) (δ : ℝ)⌋.toNat : ℕ) : ℝ) = ⌊budget d (maxExp d n b) (δ : ℝ)⌋ := by
        have : ((⌊budget d (maxExp d n b) (δ : ℝ)⌋.toNat : ℕ) : ℤ) = ⌊budget d (maxExp d n b) (δ : ℝ)⌋ :=
          Int.toNat_of_nonneg (Int.floor_nonneg.2 hpos)
        exact_mod_cast this
      rw [h3]; exact h2
    linarith
  have e0 := he.eps0
  have hrd := hA.rd (1 - δ)
  have k2 : epsUsed A true δ η ε ≤ 1 - δ ∧ epsUsed A true δ η ε ≤ ε ∧ epsUsed A true δ η ε ≤ η - 1 / 2 := by
    unfold epsUsed
    dsimp only
    rw [if_pos rfl]
    split_ifs <;> refine ⟨?_, ?_, ?_⟩ <;> linarith
  obtain ⟨k3, k4, k5⟩ := k2
  obtain ⟨a1, a2, -, a4⟩ := C84_proved_lll_succeeds hfl hn hd hind he (by linarith) k3 (by linarith) (maxExp_bound d n b) (hn14.trans (Nat.le_mul_of_pos_right _ (by positivity))) hexp wu wi early u v jz jf fuel k last hfuel hmax
  refine ⟨a1, a2, lllReduced_mono a4 ?_ ?_ (fun i hi => normStar_nonneg _ _ _)⟩
  all_goals
    have hd1 : (1 : ℚ) ≤ d := by exact_mod_cast hd
    have k : epsUsed A true δ η ε / (64 * d) ≤ epsUsed A true δ η ε / 64 := by
      gcongr
      linarith
    linarith

end

/-- the hypotheses of C84 are met by the basis of C83, with numbers of 53 bits -/
example : (lll (mkCfg (Rd.of (99 / 100)) (Rd.of (51 / 100)) false false) babaiFuel 28803 0
    (mk0 3 3 true false false false lexB lexB lexB lexB (fun _ _ => (Rd.of 7 : Rd (rp rhe 53)))) 0 0 3 0).1 = .success := by
  refine (C84_proved_lll_succeeds (e := 9) (relErr_rp (by norm_num)) (by norm_num) (by norm_num) lexB_indep lexB_enough (by norm_num) (by norm_num) (by norm_num) ?_ (by norm_num) ?_ false false false lexB lexB lexB
    (fun _ _ => Rd.of 7) babaiFuel 28803 0 le_rfl ?_).1
  · decide +kernel
  · unfold longMax; norm_num
  · unfold budget
    have h := Real.log_le_sub_one_of_pos (by norm_num : (0 : ℝ) < 99 / 100)
    have h2 : ((3 : ℝ) * (3 + 1)) * ((9 + 3) / -Real.log (99 / 100)) ≤ ((3 : ℝ) * (3 + 1)) * ((9 + 3) / (1 / 100)) := by
      gcongr
      linarith
    push_cast
    rw [div_neg] at h2
    linarith

end ErrB
end Fplll

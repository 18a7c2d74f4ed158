import Verif.Props.LLLRoundOk

/-!
# C92: the proved LLL with Siegel's condition

The flag `LLL_SIEGEL` (lll.cpp:37, :40, :119, :131) replaces Lovász's condition by `(δ - η²) r_i ≤ r_{i+1}`.  The threshold `δ - η²` is itself rounded.
-/

namespace Fplll
namespace ErrB

open Spec GSO LLL BKZ

/-- the precision also suffices when `δ` is rounded -/
theorem EnoughL2.shift {δ η ε rho δ₀ : ℚ} {d P : ℕ} (he : EnoughL2 δ η ε d rho P) (hs : 1024 * d ^ 2 * rho ^ d / ε ≤ 2 ^ P) (hε2 : ε ≤ 1 - δ) (hd : 1 ≤ d) (h : 512 * (d * rho * |δ₀ - δ|) ≤ ε) :
    3 ≤ rho ∧ |δ₀ - δ| ≤ ε / 1536 ∧ ∃ rho', EnoughL2 δ₀ η (15 / 16 * ε) d rho' P := by
  have hη := he.eta
  have hε0 := he.eps0
  have hε := he.eps
  have hden := he.den
  have hd1 : (1 : ℚ) ≤ d := by exact_mod_cast hd
  have hN : (1 + η) ^ 2 + ε ≤ rho * (δ - η ^ 2) := by have := he.growth; rwa [div_le_iff₀ hden] at this
  have hr3 : 3 ≤ rho := by
    refine le_trans ?_ he.growth
    rw [le_div_iff₀ hden]
    nlinarith
  obtain ⟨t, ht⟩ : ∃ t, t = |δ₀ - δ| := ⟨_, rfl⟩
  have ht0 : 0 ≤ t := by rw [ht]; exact abs_nonneg _
  have hlo : δ - t ≤ δ₀ := by have := neg_abs_le (δ₀ - δ); linarith
  have hup : δ₀ ≤ δ + t := by have := le_abs_self (δ₀ - δ); linarith
  rw [← ht] at h ⊢
  have hdr : 3 ≤ d * rho := by nlinarith
  have ht1 : t ≤ ε / 1536 := by
    have := mul_le_mul_of_nonneg_right hdr ht0
    linarith
  refine ⟨hr3, ht1, ?_⟩
  obtain ⟨x, hx⟩ : ∃ x, x = δ - η ^ 2 := ⟨_, rfl⟩
  rw [← hx] at hN hden
  have h94 : 9 / 4 ≤ rho * x := by nlinarith
  -- `t` is small compared to `x`
  have htx : d * t ≤ 1 / 1152 * x := by
    have a1 : d * t * rho ≤ 1 / 512 := by
      have : d * t * rho = d * rho * t := by ring
      linarith
    have a2 : d * t * (9 / 4) ≤ d * t * (rho * x) := mul_le_mul_of_nonneg_left h94 (by positivity)
    have a3 : d * t * (rho * x) = d * t * rho * x := by ring
    have a4 := mul_le_mul_of_nonneg_right a1 hden.le
    linarith
  have htx1 : t ≤ d * t := le_mul_of_one_le_left ht0 hd1
  have hy : 0 < x - t := by linarith
  have hq : (x / (x - t)) ^ d ≤ 1152 / 1151 := by
    have b1 : 1 - d * (t / x) ≤ (1 - t / x) ^ d := by
      have := one_add_mul_le_pow (a := -(t / x)) (by
        have : t / x ≤ 1 := by rw [div_le_one hden]; linarith
        linarith) d
      have e : 1 + (d : ℚ) * -(t / x) = 1 - d * (t / x) := by ring
      rw [e, ← sub_eq_add_neg] at this
      exact this
    have b2 : d * (t / x) ≤ 1 / 1152 := by
      rw [← mul_div_assoc, div_le_iff₀ hden]; exact htx
    have b3 : 1151 / 1152 ≤ (1 - t / x) ^ d := by linarith
    have b4 : x / (x - t) = (1 - t / x)⁻¹ := by
      rw [one_sub_div hden.ne', inv_div]
    rw [b4, inv_pow, inv_le_comm₀ (by linarith) (by norm_num)]
    norm_num
    exact b3
  have hge : 1 ≤ x / (x - t) := by rw [one_le_div hy]; linarith
  have hy0 : x - t ≤ δ₀ - η ^ 2 := by linarith
  refine ⟨rho * (x / (x - t)), hη, by linarith, by linarith, by linarith, by linarith, ?_, ?_⟩
  · have c1 : (1 + η) ^ 2 + 15 / 16 * ε ≤ rho * x := by linarith
    rw [div_le_iff₀ (by linarith)]
    have c2 : rho * (x / (x - t)) * (x - t) ≤ rho * (x / (x - t)) * (δ₀ - η ^ 2) := mul_le_mul_of_nonneg_left hy0 (by positivity)
    have c3 : rho * (x / (x - t)) * (x - t) = rho * x := by field_simp
    linarith
  · rw [mul_pow, div_le_iff₀ (by positivity)]
    rw [div_le_iff₀ hε0] at hs
    have c1 : 0 ≤ 1024 * (d : ℚ) ^ 2 * rho ^ d := by positivity
    have c2 : 1024 * (d : ℚ) ^ 2 * (rho ^ d * (x / (x - t)) ^ d) = 1024 * d ^ 2 * rho ^ d * (x / (x - t)) ^ d := by ring
    have c3 := mul_le_mul_of_nonneg_left hq c1
    have c4 : (0 : ℚ) ≤ 2 ^ P * ε := by positivity
    rw [c2]
    linarith

section
variable {η τ ε rho : ℚ} {d P n : ℕ} {b : Mat ℤ}

/-- Siegel's condition with a loss in the parameters -/
theorem siegel_mono {n d : ℕ} {B : ℕ → ℕ → ℚ} {c c' : ℚ} (h : Siegel n d B c) (hc : c' ≤ c) : Siegel n d B c' := fun i hi => (mul_le_mul_of_nonneg_right hc (normStar_nonneg _ _ _)).trans (h i hi)

/-- **C92.**  Let `b` be `d` linearly independent vectors, `τ` the swap threshold of LLL with Siegel's condition - whatever way it was computed - and `P` enough bits for `δ = τ + η²`.  When LLL with the exact Gram matrix and numbers of `P` bits succeeds, it returns a
basis of the same lattice and finds no zero vector; the basis is size-reduced with `η + θ`, and consecutive Gram-Schmidt norms satisfy Siegel's condition with `δ' - η'²` for `η' = η + θ`, `δ' = τ + η² - θ`, `θ = ε/(64 d)`. -/
theorem C92_siegel_sound {fl : ℚ → ℚ} (hfl : Chol.RelErr (1 / 2 ^ P) fl) (hn : 1 ≤ n) (hd : 1 ≤ d) (hind : Indep d n (basisQ b)) (he : EnoughL2 (τ + η ^ 2) η ε d rho P) (wu wi fo early : Bool) (u v jz : Mat ℤ) (jf : Mat (Rd fl)) (fuel maxIter last : ℕ) :
    let q := lll ⟨Rd.of η, Rd.of τ, true, early⟩ fuel maxIter last (mk0 d n true wu wi fo b u v jz jf) 0 0 d 0
    q.1 = .success → lattice (toM d n q.2.s.b) = lattice (toM d n b) ∧ q.2.zeros = 0 ∧ SizeReduced n d (basisQ q.2.s.b) (η + ε / (64 * d)) ∧ Siegel n d (basisQ q.2.s.b) (τ + η ^ 2 - ε / (64 * d) - (η + ε / (64 * d)) ^ 2) := by
  intro q hq
  have R : RCfg true (⟨Rd.of η, Rd.of τ, true, early⟩ : LLLCfg (Rd fl)) η (τ + η ^ 2) := ⟨rfl, by show Rd.of τ = Rd.of (τ + η ^ 2 - η ^ 2); rw [add_sub_cancel_right], rfl⟩
  obtain ⟨a1, a2, θ, h0, h1, a3, -, a4⟩ := lll_sound R hfl hn hd hind he wu wi fo u v jz jf fuel maxIter last hq
  refine ⟨a1, a2, fun i hi j hj => (a3 i hi j hj).trans (by linarith), siegel_mono a4 ?_⟩
  have := he.eta
  have : (η + θ) ^ 2 ≤ (η + ε / (64 * d)) ^ 2 := pow_le_pow_left₀ (by linarith) (by linarith) 2
  linarith

/-- **C92 (it succeeds).**  The same LLL succeeds within nine tenths of the iterations that the code allows. -/
theorem C92_siegel_succeeds {fl : ℚ → ℚ} (hfl : Chol.RelErr (1 / 2 ^ P) fl) (hn : 1 ≤ n) (hd : 1 ≤ d) (hind : Indep d n (basisQ b)) (he : EnoughL2 (τ + η ^ 2) η ε d rho P) (hε1 : 1 / 2 + ε ≤ η) (hε2 : ε ≤ 1 - (τ + η ^ 2)) (hε3 : ε ≤ 1 / 16)
    {e : ℕ} (hb : ∀ i < d, ∀ j < n, |b i j| < 2 ^ e) (hcols : n ≤ 2 ^ 14 * 4 ^ e) (hexp : ((e + P + n : ℕ) : ℤ) ≤ longMax) (wu wi early : Bool) (u v jz : Mat ℤ) (jf : Mat (Rd fl)) (fuel maxIter last : ℕ) (hfuel : babaiFuel ≤ fuel)
    (hmax : 9 / 10 * budget d e ((τ + η ^ 2 : ℚ) : ℝ) < maxIter + 1) :
    (lll ⟨Rd.of η, Rd.of τ, true, early⟩ fuel maxIter last (mk0 d n true wu wi false b u v jz jf) 0 0 d 0).1 = .success := by
  have R : RCfg true (⟨Rd.of η, Rd.of τ, true, early⟩ : LLLCfg (Rd fl)) η (τ + η ^ 2) := ⟨rfl, by show Rd.of τ = Rd.of (τ + η ^ 2 - η ^ 2); rw [add_sub_cancel_right], rfl⟩
  exact lll_succeeds R hfl hn hd hind he hε1 hε2 hε3 hb hcols hexp wu wi u v jz jf fuel maxIter last hfuel hmax

end

theorem budget_nonneg {d e : ℕ} {δ : ℚ} (hδ : 1 / 4 ≤ δ) (hδ1 : δ < 1) : 0 ≤ budget d e (δ : ℝ) := by
  unfold budget
  have h0 : (0 : ℝ) < (δ : ℝ) := by exact_mod_cast (by linarith : 0 < δ)
  have h1 : (δ : ℝ) < 1 := by exact_mod_cast hδ1
  have h2 := Real.log_neg h0 h1
  have h3 : ((e : ℝ) + 3) / Real.log (δ : ℝ) ≤ 0 := div_nonpos_of_nonneg_of_nonpos (by positivity) h2.le
  have h4 : (2 : ℝ) * d * (d + 1) * (((e : ℝ) + 3) / Real.log (δ : ℝ)) ≤ 0 := mul_nonpos_of_nonneg_of_nonpos (by positivity) h3
  have h5 : (0 : ℝ) ≤ d := Nat.cast_nonneg d
  linarith

theorem lt_truncZ_succ {x : ℝ} (hpos : 0 ≤ x) : x < (truncZ x).toNat + 1 := by
  unfold truncZ
  rw [if_pos hpos]
  have h2 := Int.lt_floor_add_one x
  have h3 : ((⌊x⌋.toNat : ℕ) : ℝ) = ⌊x⌋ := by
    have : ((⌊x⌋.toNat : ℕ) : ℤ) = ⌊x⌋ := Int.toNat_of_nonneg (Int.floor_nonneg.2 hpos)
    exact_mod_cast this
  rw [h3]; exact h2

theorem budget_shift {d e : ℕ} {δ δ₀ ε : ℚ} (hδ : 1 / 4 ≤ δ) (hδ1 : δ < 1) (hε : ε ≤ 1 - δ) (hε0 : 0 < ε) (h : |δ₀ - δ| ≤ ε / 1536) : 9 / 10 * budget d e (δ₀ : ℝ) ≤ budget d e (δ : ℝ) := by
  have hup : δ₀ ≤ δ + (1 - δ) / 1536 := by have := le_abs_self (δ₀ - δ); linarith
  have hlo : 0 < δ₀ := by have := neg_abs_le (δ₀ - δ); linarith
  have hδR : (1 / 4 : ℝ) ≤ (δ : ℝ) := by
    have h2 : ((1 / 4 : ℚ) : ℝ) ≤ (δ : ℝ) := by exact_mod_cast hδ
    norm_num at h2 ⊢; exact h2
  have hδR1 : (δ : ℝ) < 1 := by exact_mod_cast hδ1
  have hloR : (0 : ℝ) < (δ₀ : ℝ) := by exact_mod_cast hlo
  have hupR : (δ₀ : ℝ) ≤ (δ : ℝ) + (1 - δ) / 1536 := by
    have := (Rat.cast_le (K := ℝ)).2 hup
    push_cast at this
    exact this
  have hLpos : Real.log (δ : ℝ) < 0 := Real.log_neg (by linarith) hδR1
  have hLL : Real.log (δ₀ : ℝ) ≤ 9 / 10 * Real.log (δ : ℝ) := by
    have h1 : (δ₀ : ℝ) ≤ δ * (1 + (1 - δ) / 16) := by nlinarith
    have h2 := Real.log_le_log hloR h1
    rw [Real.log_mul (by linarith) (by nlinarith)] at h2
    have h3 := Real.log_le_sub_one_of_pos (by nlinarith : (0 : ℝ) < 1 + (1 - (δ : ℝ)) / 16)
    have h4 := Real.log_le_sub_one_of_pos (by linarith : (0 : ℝ) < (δ : ℝ))
    linarith
  unfold budget
  have hL0 : Real.log (δ₀ : ℝ) < 0 := by linarith
  have k : ((e : ℝ) + 3) / -Real.log (δ₀ : ℝ) * (9 / 10) ≤ ((e : ℝ) + 3) / -Real.log (δ : ℝ) := by
    rw [div_mul_eq_mul_div, div_le_div_iff₀ (by linarith) (by linarith)]
    have : (0 : ℝ) ≤ (e : ℝ) + 3 := by positivity
    nlinarith
  rw [div_neg, div_neg] at k
  have k2 := mul_le_mul_of_nonneg_left k (by positivity : (0 : ℝ) ≤ 2 * d * (d + 1))
  have k3 : (0 : ℝ) ≤ d := Nat.cast_nonneg d
  linarith

section
variable {δ η τ ε rho : ℚ} {d P n : ℕ} {b : Mat ℤ}

/-- **C92 with `l2_min_prec`.**  The same for the precision that `l2_min_prec` computes for `δ` and `η`, and the limit that `lll` computes: the rounded threshold `τ` may differ from `δ - η²` by `ε/(512 d rho)`.  The loss is at most that of C84. -/
theorem C92_l2 {fl : ℚ → ℚ} (hfl : Chol.RelErr (1 / 2 ^ P) fl) {A : Arith} {logU logD : ℚ → ℚ} (hA : LogOK A logU logD) {p : ℤ} (hη : 1 / 2 ≤ η) (hδ : δ < 1) (hε : ε ≤ 1 / 16) (hsub : A.rn (η - 1 / 2) ≤ η - 1 / 2) (h : computeMinPrec A logU logD true d δ η ε = .ok rho p) (hpP : p ≤ P)
    (hτ : 512 * (d * rho * |τ - (δ - η ^ 2)|) ≤ epsUsed A true δ η ε)
    (hn : 1 ≤ n) (hn14 : n ≤ 2 ^ 14) (hd : 1 ≤ d) (hind : Indep d n (basisQ b)) (hexp : ((maxExp d n b + P + n : ℕ) : ℤ) ≤ longMax) (wu wi early : Bool) (u v jz : Mat ℤ) (jf : Mat (Rd fl)) (fuel last : ℕ) (hfuel : babaiFuel ≤ fuel) :
    ∃ k, maxIterOf d (maxExp d n b) (δ : ℝ) = some k ∧
    let q := lll ⟨Rd.of η, Rd.of τ, true, early⟩ fuel k.toNat last (mk0 d n true wu wi false b u v jz jf) 0 0 d 0
    q.1 = .success ∧ lattice (toM d n q.2.s.b) = lattice (toM d n b) ∧ SizeReduced n d (basisQ q.2.s.b) (η + ε / 64) ∧ Siegel n d (basisQ q.2.s.b) (δ - (1 - δ) / 64 - (η + ε / 64) ^ 2) := by
  have he := enoughL2_of_minPrec hA hη hδ.le (by linarith) h hpP
  have hs : 1024 * d ^ 2 * rho ^ d / epsUsed A true δ η ε ≤ 2 ^ P := by
    obtain ⟨-, -, h3⟩ := C81_min_prec hA (by linarith) hδ.le (by linarith) h
    simp only [if_true] at h3
    refine h3.trans ?_
    rw [← zpow_natCast]
    exact two_zpow_le hpP
  have hne : (δ : ℝ) ≠ 1 := by
    have : (δ : ℝ) < 1 := by exact_mod_cast hδ
    exact this.ne
  have e0 := he.eps0
  have hrd := hA.rd (1 - δ)
  have k2 : epsUsed A true δ η ε ≤ 1 - δ ∧ epsUsed A true δ η ε ≤ ε ∧ epsUsed A true δ η ε ≤ η - 1 / 2 := by
    unfold epsUsed
    dsimp only
    rw [if_pos rfl]
    split_ifs <;> refine ⟨?_, ?_, ?_⟩ <;> linarith
  obtain ⟨k3, k4, k5⟩ := k2
  generalize epsUsed A true δ η ε = ε₁ at *
  have hab : |τ + η ^ 2 - δ| = |τ - (δ - η ^ 2)| := by congr 1; ring
  rw [← hab] at hτ
  obtain ⟨hr3, ht, rho', he'⟩ := he.shift hs k3 hd hτ
  have hden := he.den
  have hδ4 : 1 / 4 ≤ δ := by nlinarith
  have hη1 : η ≤ 1 := by nlinarith
  have t1 := le_abs_self (τ + η ^ 2 - δ)
  have t2 := neg_abs_le (τ + η ^ 2 - δ)
  refine ⟨truncZ (budget d (maxExp d n b) (δ : ℝ)), by unfold maxIterOf; rw [if_neg hne], ?_⟩
  generalize hk : (truncZ (budget d (maxExp d n b) (δ : ℝ))).toNat = k
  have hmax : 9 / 10 * budget d (maxExp d n b) ((τ + η ^ 2 : ℚ) : ℝ) < k + 1 := by
    refine lt_of_le_of_lt (budget_shift hδ4 hδ k3 e0 ht) ?_
    rw [← hk]
    exact lt_truncZ_succ (budget_nonneg hδ4 hδ)
  have ok := C92_siegel_succeeds hfl hn hd hind he' (by linarith) (by linarith) (by linarith) (maxExp_bound d n b) (hn14.trans (Nat.le_mul_of_pos_right _ (by positivity))) hexp wu wi early u v jz jf fuel k last hfuel hmax
  obtain ⟨a1, -, a3, a4⟩ := C92_siegel_sound hfl hn hd hind he' wu wi false early u v jz jf fuel k last ok
  have hd1 : (1 : ℚ) ≤ d := by exact_mod_cast hd
  have hk1 : 15 / 16 * ε₁ / (64 * d) ≤ 15 / 16 * ε₁ / 64 := by
    gcongr
    linarith
  have hx0 : 0 ≤ 15 / 16 * ε₁ / (64 * d) := by positivity
  refine ⟨ok, a1, fun i hi j hj => (a3 i hi j hj).trans (by linarith), siegel_mono a4 ?_⟩
  generalize 15 / 16 * ε₁ / (64 * d) = θ at *
  have : (η + θ) ^ 2 ≤ (η + ε / 64) ^ 2 := pow_le_pow_left₀ (by linarith) (by linarith) 2
  linarith

/-- **C92 with `l2_min_prec`, threshold in the same numbers.**  When the threshold is computed from `δ` and `η` in the numbers that LLL uses, its rounding error is always small enough. -/
theorem C92_mkCfg {fl : ℚ → ℚ} (hfl : Chol.RelErr (1 / 2 ^ P) fl) {A : Arith} {logU logD : ℚ → ℚ} (hA : LogOK A logU logD) {p : ℤ} (hη : 1 / 2 ≤ η) (hδ : δ < 1) (hε : ε ≤ 1 / 16) (hsub : A.rn (η - 1 / 2) ≤ η - 1 / 2) (h : computeMinPrec A logU logD true d δ η ε = .ok rho p) (hpP : p ≤ P)
    (hn : 1 ≤ n) (hn14 : n ≤ 2 ^ 14) (hd : 1 ≤ d) (hind : Indep d n (basisQ b)) (hexp : ((maxExp d n b + P + n : ℕ) : ℤ) ≤ longMax) (wu wi early : Bool) (u v jz : Mat ℤ) (jf : Mat (Rd fl)) (fuel last : ℕ) (hfuel : babaiFuel ≤ fuel) :
    ∃ k, maxIterOf d (maxExp d n b) (δ : ℝ) = some k ∧
    let q := lll (mkCfg (Rd.of δ) (Rd.of η) true early) fuel k.toNat last (mk0 d n true wu wi false b u v jz jf) 0 0 d 0
    q.1 = .success ∧ lattice (toM d n q.2.s.b) = lattice (toM d n b) ∧ SizeReduced n d (basisQ q.2.s.b) (η + ε / 64) ∧ Siegel n d (basisQ q.2.s.b) (δ - (1 - δ) / 64 - (η + ε / 64) ^ 2) := by
  have he := enoughL2_of_minPrec hA hη hδ.le (by linarith) h hpP
  obtain ⟨h1, h2, h3⟩ := C81_min_prec hA (by linarith) hδ.le (by linarith) h
  simp only [if_true] at h3
  have hs : 1024 * d ^ 2 * rho ^ d / epsUsed A true δ η ε ≤ 2 ^ P := by
    refine h3.trans ?_
    rw [← zpow_natCast]
    exact two_zpow_le hpP
  have e0 := he.eps0
  have e1 := he.eps
  refine C92_l2 (τ := fl (δ - fl (η * η))) hfl hA hη hδ hε hsub h hpP ?_ hn hn14 hd hind hexp wu wi early u v jz jf fuel last hfuel
  have hd1 : (1 : ℚ) ≤ d := by exact_mod_cast hd
  have hr1 : 1 ≤ rho := by
    refine le_trans ?_ he.growth
    rw [le_div_iff₀ he.den]
    nlinarith
  rw [div_le_iff₀ e0] at hs
  have hu0 : (0 : ℚ) < 1 / 2 ^ P := by positivity
  have hs' : 1024 * (d * rho) * (1 / 2 ^ P) ≤ epsUsed A true δ η ε := by
    rw [mul_one_div, div_le_iff₀ (by positivity)]
    have a1 : rho ≤ rho ^ d := le_self_pow₀ hr1 (by omega)
    have a2 : (d : ℚ) ≤ d ^ 2 := by nlinarith
    have a3 : (d : ℚ) * rho ≤ d ^ 2 * rho ^ d := mul_le_mul a2 a1 (by linarith) (by positivity)
    linarith
  have hu8 : 1 / 2 ^ P ≤ (1 : ℚ) := by
    have : 1 ≤ (d : ℚ) * rho := by nlinarith
    nlinarith
  generalize (1 : ℚ) / 2 ^ P = w at *
  have hx1 := hfl (η * η)
  have hx2 := hfl (δ - fl (η * η))
  have hden := he.den
  have hη2 : η * η ≤ 1 := by nlinarith
  rw [abs_of_nonneg (mul_self_nonneg η)] at hx1
  have hx3 : |fl (δ - fl (η * η)) - (δ - η ^ 2)| ≤ 2 * w := by
    generalize fl (η * η) = z at *
    generalize fl (δ - z) = y at *
    have c1 := abs_le.1 hx1
    have c4 : w * (η * η) ≤ w * 1 := mul_le_mul_of_nonneg_left hη2 hu0.le
    have c2 : |δ - z| ≤ δ - η * η + w * (η * η) := by
      rw [abs_le]; constructor <;> nlinarith [c1.1, c1.2]
    have c3 := abs_le.1 (hx2.trans (mul_le_mul_of_nonneg_left c2 hu0.le))
    have c5 : w * (δ - η * η + w * (η * η)) + w * (η * η) ≤ 2 * w := by
      have c6 : δ + w * (η * η) ≤ 2 := by nlinarith
      have := mul_le_mul_of_nonneg_left c6 hu0.le
      linarith
    rw [abs_le]
    constructor <;> linarith [c1.1, c1.2, c3.1, c3.2]
  have := mul_le_mul_of_nonneg_left hx3 (by positivity : 0 ≤ 512 * ((d : ℚ) * rho))
  linarith

end

/-- what LLL guarantees, with Lovász's condition or with Siegel's -/
def RedBy (sg : Bool) (n d : ℕ) (B : ℕ → ℕ → ℚ) (δ η : ℚ) : Prop := SizeReduced n d B η ∧ if sg then Siegel n d B (δ - η ^ 2) else Lovasz n d B δ

/-! ### a concrete run: the three vectors of C83 with Siegel's condition -/

/-- the run, from arrays that are not zero -/
def sgQ : LLLStatus × LLLState (Rd (rp rhe 53)) := lll ⟨Rd.of (51 / 100), Rd.of (99 / 100 - (51 / 100) ^ 2), true, false⟩ 20 60 0 (mk0 3 3 true false false false lexB lexB lexB lexB (fun _ _ => Rd.of 7)) 0 0 3 0

/-- it succeeds, exchanges vectors and rounds -/
theorem sgQ_ok : sgQ.1 = .success := by decide +kernel

example : sgQ.2.nSwaps ≠ 0 ∧ muOf sgQ.2.s 2 1 ≠ muS 3 (basisQ sgQ.2.s.b) 2 1 := by decide +kernel

/-- the hypotheses of C92 are met -/
example : Siegel 3 3 (basisQ sgQ.2.s.b) (99 / 100 - (51 / 100) ^ 2 + (51 / 100) ^ 2 - 1 / 100 / (64 * (3 : ℕ)) - (51 / 100 + 1 / 100 / (64 * (3 : ℕ))) ^ 2) :=
  (C92_siegel_sound (relErr_rp (by norm_num)) (by norm_num) (by norm_num) lexB_indep (by rw [sub_add_cancel]; exact lexB_enough) false false false false lexB lexB lexB (fun _ _ => Rd.of 7) 20 60 0 sgQ_ok).2.2.2

/-! ### the flag weakens the result

Two orthogonal vectors of squared norms 100 and 81: Siegel's condition holds with 0.73, Lovász's condition fails even with 0.82.  LLL with the flag returns them as they are. -/

/-- the run -/
def orthQ : LLLStatus × LLLState (Rd (rp rhe 53)) :=
  let b : Mat ℤ := fun i j => if i = 0 ∧ j = 0 then 10 else if i = 1 ∧ j = 1 then 9 else 0
  lll (mkCfg (Rd.of (99 / 100)) (Rd.of (51 / 100)) true false) 20 60 0 (mk0 2 2 true false false false b b b b (fun _ _ => Rd.of 7)) 0 0 2 0

/-- **C92 (limit).**  With the flag, success does not give Lovász's condition, not even with a much smaller factor. -/
theorem C92_not_lovasz : orthQ.1 = .success ∧ ¬ Lovasz 2 2 (basisQ orthQ.2.s.b) (82 / 100) := by
  refine ⟨by decide +kernel, fun h => ?_⟩
  have := h 0 (by norm_num)
  revert this
  decide +kernel

end ErrB
end Fplll

import Verif.Proofs.LLLRound
import Verif.Props.GsoErr

/-!
# C83: the proved LLL

LLL with an exact Gram matrix and Gram-Schmidt coefficients in `mpfr` numbers of the precision given by `l2_min_prec`, as run by `lll_reduction` with the proved method (wrapper.cpp:56-62, :590-600): when it succeeds, the basis
is reduced.
-/

namespace Fplll
namespace ErrB

open Spec GSO LLL

theorem pow_e_le {d : ℕ} (hd : 1 ≤ d) : (1 + 1 / (d : ℚ)) ^ d ≤ 272 / 100 := by
  have h : (1 + 1 / (d : ℝ)) ^ d ≤ 272 / 100 := by
    have hdR : (0 : ℝ) < d := by exact_mod_cast hd
    have h1 : 1 + 1 / (d : ℝ) ≤ Real.exp (1 / d) := by
      have := Real.add_one_le_exp (1 / (d : ℝ)); linarith
    have h2 : (1 + 1 / (d : ℝ)) ^ d ≤ Real.exp (1 / d) ^ d := pow_le_pow_left₀ (by positivity) h1 d
    rw [← Real.exp_nat_mul, mul_one_div_cancel hdR.ne'] at h2
    have := Real.exp_one_lt_d9
    linarith
  have h' : (((1 + 1 / (d : ℚ)) ^ d : ℚ) : ℝ) ≤ ((272 / 100 : ℚ) : ℝ) := by push_cast; exact h
  exact_mod_cast h'

/-- the parameters of the proved LLL: `δ` and `η` of the call, and a precision of `P` bits as large as `l2_min_prec` asks for (up to a factor `11/10`, for parameters that are themselves rounded) -/
structure EnoughL2 (δ η ε : ℚ) (d : ℕ) (rho : ℚ) (P : ℕ) : Prop where
  eta : 1 / 2 ≤ η
  eps0 : 0 < ε
  eps : ε ≤ 1
  delta : δ ≤ 1
  den : 0 < δ - η ^ 2
  growth : ((1 + η) ^ 2 + ε) / (δ - η ^ 2) ≤ rho
  prec : 1024 * d ^ 2 * rho ^ d / ε ≤ 11 / 10 * 2 ^ P

/-- `l2_min_prec` gives enough precision -/
theorem enoughL2_of_minPrec {A : Arith} {logU logD : ℚ → ℚ} (hA : LogOK A logU logD) {d : ℕ} {δ η ε rho : ℚ} {p : ℤ} (hη : 1 / 2 ≤ η) (hδ : δ ≤ 1) (hε : ε ≤ 1)
    (h : computeMinPrec A logU logD true d δ η ε = .ok rho p) {P : ℕ} (hP : p ≤ P) : EnoughL2 δ η (epsUsed A true δ η ε) d rho P := by
  obtain ⟨h1, h2, h3⟩ := C81_min_prec hA (by linarith) hδ hε h
  have h0 := (computeMinPrec_ok h).2.2.1
  have he : epsUsed A true δ η ε ≤ ε := by
    unfold epsUsed
    dsimp only
    split_ifs <;> linarith
  refine ⟨hη, h0, he.trans hε, hδ, h1, h2, ?_⟩
  simp only [if_true] at h3
  refine h3.trans (le_trans ?_ (le_mul_of_one_le_left (by positivity) (by norm_num)))
  rw [← zpow_natCast]
  exact two_zpow_le hP

theorem par_den {δ η θ rho e : ℚ} (hη : 1 / 2 ≤ η) (hη1 : η ≤ 1) (hr0 : 0 < rho) (hθ0 : 0 ≤ θ) (hθ1 : θ ≤ 1 / 64) (hθr : θ * rho ≤ 3 / 64 * e) (he : e ≤ 1) (hD : 9 / 4 ≤ rho * (δ - η ^ 2)) :
    0 < δ - η ^ 2 - 4 * θ ∧ δ - η ^ 2 - 4 * θ ≤ δ - θ - (η + θ) ^ 2 := by
  constructor
  · have : 0 < rho * (δ - η ^ 2 - 4 * θ) := by
      have e1 : rho * (δ - η ^ 2 - 4 * θ) = rho * (δ - η ^ 2) - 4 * (θ * rho) := by ring
      rw [e1]; linarith
    exact pos_of_mul_pos_right this hr0.le
  · have e1 : δ - θ - (η + θ) ^ 2 = δ - η ^ 2 - θ * (1 + 2 * η + θ) := by ring
    have e2 : θ * (1 + 2 * η + θ) ≤ θ * 4 := mul_le_mul_of_nonneg_left (by linarith) hθ0
    rw [e1]; linarith

theorem par_growth {δ η θ rho e t ε : ℚ} (hη : 1 / 2 ≤ η) (hη1 : η ≤ 1) (hε : 0 ≤ ε) (hr3 : 3 ≤ rho) (hθ0 : 0 ≤ θ) (hθ1 : θ ≤ 1 / 64) (hθr : θ * rho ≤ 3 / 64 * e) (he : e ≤ t) (ht0 : 0 ≤ t) (ht : t ≤ 1)
    (hN : (1 + η) ^ 2 + ε ≤ rho * (δ - η ^ 2)) : (1 + (η + θ)) ^ 2 + ε ≤ rho * (1 + t) * (δ - η ^ 2 - 4 * θ) := by
  have e0 : 9 / 4 ≤ (1 + η) ^ 2 := by nlinarith
  have e1 : rho * (1 + t) * (δ - η ^ 2 - 4 * θ) = (1 + t) * (rho * (δ - η ^ 2)) - 4 * (1 + t) * (θ * rho) := by ring
  have e2 : (1 + t) * ((1 + η) ^ 2 + ε) ≤ (1 + t) * (rho * (δ - η ^ 2)) := mul_le_mul_of_nonneg_left hN (by linarith)
  have e3 : (1 + t) * ((1 + η) ^ 2 + ε) = (1 + η) ^ 2 + ε + t * ((1 + η) ^ 2 + ε) := by ring
  have e4 : t * (9 / 4) ≤ t * ((1 + η) ^ 2 + ε) := mul_le_mul_of_nonneg_left (by linarith) ht0
  have hθr0 : 0 ≤ θ * rho := mul_nonneg hθ0 (by linarith)
  have e5 : (1 + t) * (θ * rho) ≤ 2 * (θ * rho) := mul_le_mul_of_nonneg_right (by linarith) hθr0
  have e6 : (1 + (η + θ)) ^ 2 = (1 + η) ^ 2 + θ * (2 * (1 + η) + θ) := by ring
  have e7 : θ * (2 * (1 + η) + θ) ≤ θ * 5 := mul_le_mul_of_nonneg_left (by linarith) hθ0
  have e8 : θ * 3 ≤ θ * rho := mul_le_mul_of_nonneg_left hr3 hθ0
  rw [e1, e6]
  linarith

/-- the loss in the parameters -/
theorem EnoughL2.par' {δ η ε rho : ℚ} {d P : ℕ} (h : EnoughL2 δ η ε d rho P) (hd : 1 ≤ d) :
    ∃ θ ρ, 0 ≤ θ ∧ θ ≤ ε / (64 * d) ∧ RPar d η δ (η + θ) (δ - θ) (1 / 2 ^ P) ε ρ ∧ θ = 16 * d * ρ ^ (d - 1) * (1 / 2 ^ P) ∧ ρ ^ (d - 1) ≤ 3 * rho ^ (d - 1) ∧ 3 ≤ rho := by
  have hη := h.eta
  have hε0 := h.eps0
  have hε := h.eps
  have hδ := h.delta
  have hden := h.den
  have hη1 : η ≤ 1 := by nlinarith
  have hd1 : (1 : ℚ) ≤ d := by exact_mod_cast hd
  have hN : (1 + η) ^ 2 + ε ≤ rho * (δ - η ^ 2) := by have := h.growth; rwa [div_le_iff₀ hden] at this
  have hr3 : 3 ≤ rho := by
    refine le_trans ?_ h.growth
    rw [le_div_iff₀ hden]
    nlinarith
  have hr0 : 0 < rho := by linarith
  have hu0 : (0 : ℚ) < 1 / 2 ^ P := by positivity
  have hprec : 1024 * d ^ 2 * rho ^ d * (1 / 2 ^ P) ≤ 11 / 10 * ε := by
    have := h.prec
    rw [div_le_iff₀ hε0] at this
    rw [mul_one_div, div_le_iff₀ (by positivity)]
    linarith
  generalize (1 : ℚ) / 2 ^ P = u at *
  have ht0 : (0 : ℚ) < 1 / d := by positivity
  have ht : (1 : ℚ) / d ≤ 1 := by rw [div_le_one (by linarith)]; exact hd1
  have hc3 : (1 + 1 / (d : ℚ)) ^ d ≤ 272 / 100 := pow_e_le hd
  have hc4 : (1 + 1 / (d : ℚ)) ^ (d - 1) ≤ 272 / 100 := (pow_le_pow_right₀ (by linarith) (by omega)).trans hc3
  have hrs : rho ^ (d - 1) * rho = rho ^ d := by rw [← pow_succ]; congr 1; omega
  have hD : 9 / 4 ≤ rho * (δ - η ^ 2) := by
    have : 9 / 4 ≤ (1 + η) ^ 2 := by nlinarith
    linarith
  have hx0 : 0 ≤ 1024 * (d : ℚ) ^ 2 * rho ^ d * u := by positivity
  have hprec' : 32 * (d : ℚ) ^ 2 * (rho * (1 + 1 / (d : ℚ))) ^ d * u ≤ ε := by
    have e : 32 * (d : ℚ) ^ 2 * (rho * (1 + 1 / (d : ℚ))) ^ d * u = (1 + 1 / (d : ℚ)) ^ d * (1024 * d ^ 2 * rho ^ d * u) / 32 := by rw [mul_pow]; ring
    rw [e]
    have := mul_le_mul hc3 hprec hx0 (by norm_num)
    linarith
  have hθr : 16 * d * (rho * (1 + 1 / (d : ℚ))) ^ (d - 1) * u * rho * (64 * d) ≤ 3 * ε := by
    have e : 16 * d * (rho * (1 + 1 / (d : ℚ))) ^ (d - 1) * u * rho * (64 * d) = (1 + 1 / (d : ℚ)) ^ (d - 1) * (1024 * d ^ 2 * rho ^ d * u) := by
      rw [mul_pow, ← hrs]; ring
    rw [e]
    have := mul_le_mul hc4 hprec hx0 (by norm_num)
    linarith
  have hθ0 : 0 ≤ 16 * d * (rho * (1 + 1 / (d : ℚ))) ^ (d - 1) * u := by positivity
  have hθe : ∃ θ, θ = 16 * d * (rho * (1 + 1 / (d : ℚ))) ^ (d - 1) * u := ⟨_, rfl⟩
  obtain ⟨θ, hθ⟩ := hθe
  rw [← hθ] at hθr hθ0
  have hθr' : θ * rho ≤ 3 / 64 * (ε / d) := by
    rw [← mul_div_assoc, le_div_iff₀ (by linarith)]
    linarith
  have hq1 : ε / d ≤ 1 / d := by gcongr
  have hθ3 : θ * 3 ≤ θ * rho := mul_le_mul_of_nonneg_left hr3 hθ0
  have hθ1 : θ ≤ 1 / 64 := by linarith
  obtain ⟨p1, p2⟩ := par_den hη hη1 hr0 hθ0 hθ1 hθr' (by linarith) hD
  have p3 := par_growth hη hη1 hε0.le hr3 hθ0 hθ1 hθr' hq1 ht0.le ht hN
  have hden' : 0 < δ - θ - (η + θ) ^ 2 := by linarith
  refine ⟨θ, rho * (1 + 1 / (d : ℚ)), hθ0, ?_, ⟨⟨hη, ?_, by nlinarith, hδ, hden', hu0.le, hε, ?_, hprec', by rw [hθ], by rw [← hθ]; linarith⟩, ?_, by linarith, by linarith⟩, hθ, ?_, hr3⟩
  · rw [le_div_iff₀ (by positivity)]
    have : θ * d * 3 ≤ θ * d * rho := mul_le_mul_of_nonneg_left hr3 (by positivity)
    linarith
  · by_contra hcon
    push Not at hcon
    nlinarith
  · rw [div_le_iff₀ hden']
    exact p3.trans (mul_le_mul_of_nonneg_left p2 (by positivity))
  · have := mul_le_mul_of_nonneg_left (by linarith : (1 : ℚ) ≤ 1 + 1 / d) hr0.le
    linarith
  · rw [mul_pow, mul_comm]
    exact mul_le_mul_of_nonneg_right (hc4.trans (by norm_num)) (by positivity)

theorem EnoughL2.par {δ η ε rho : ℚ} {d P : ℕ} (h : EnoughL2 δ η ε d rho P) (hd : 1 ≤ d) :
    ∃ θ ρ, 0 ≤ θ ∧ θ ≤ ε / (64 * d) ∧ RPar d η δ (η + θ) (δ - θ) (1 / 2 ^ P) ε ρ := by
  obtain ⟨θ, ρ, h1, h2, h3, -⟩ := h.par' hd
  exact ⟨θ, ρ, h1, h2, h3⟩

theorem lllReduced_mono {n d : ℕ} {B : ℕ → ℕ → ℚ} {δ δ' η η' : ℚ} (h : LLLReduced n d B δ η) (h1 : δ' ≤ δ) (h2 : η ≤ η') (hpos : ∀ i < d, 0 ≤ normStar n B i) : LLLReduced n d B δ' η' :=
  ⟨fun i hi j hj => (h.1 i hi j hj).trans h2, fun i hi => (mul_le_mul_of_nonneg_right h1 (hpos i (by omega))).trans (h.2 i hi)⟩

section
variable {δ η ε rho : ℚ} {d P n : ℕ} {b : Mat ℤ}

/-- the reduction, with Lovász's condition or with Siegel's -/
theorem lll_sound {fl : ℚ → ℚ} {sg : Bool} {c : LLLCfg (Rd fl)} (R : RCfg sg c η δ) (hfl : Chol.RelErr (1 / 2 ^ P) fl) (hn : 1 ≤ n) (hd : 1 ≤ d) (hind : Indep d n (basisQ b)) (he : EnoughL2 δ η ε d rho P) (wu wi fo : Bool) (u v jz : Mat ℤ) (jf : Mat (Rd fl))
    (fuel maxIter last : ℕ) :
    let q := lll c fuel maxIter last (mk0 d n true wu wi fo b u v jz jf) 0 0 d 0
    q.1 = .success → lattice (toM d n q.2.s.b) = lattice (toM d n b) ∧ q.2.zeros = 0 ∧
      ∃ θ, 0 ≤ θ ∧ θ ≤ ε / (64 * d) ∧ SizeReduced n d (basisQ q.2.s.b) (η + θ) ∧ (sg = false → Lovasz n d (basisQ q.2.s.b) (δ - θ)) ∧ Siegel n d (basisQ q.2.s.b) (δ - θ - (η + θ) ^ 2) := by
  intro q hq
  obtain ⟨hwf, hb, hu, hv, hdd, hc, hg, hwu, hwi, hk, hl⟩ := mk0_wf d n true wu wi fo b u v jz jf hn
  have hf := mk0_freshR d n wu wi fo b u v jz jf hn
  obtain ⟨θ, ρ, h0, h1, h2⟩ := he.par hd
  have hq' : q = lll c fuel maxIter last (mk0 d n true wu wi fo b u v jz jf) 0 0 d 0 := rfl
  have hind' : Indep d n (bR (mk0 d n true wu wi fo b u v jz jf)) := by unfold bR; rw [hb]; exact hind
  generalize mk0 d n true wu wi fo b u v jz jf = s at *
  rw [hq'] at hq ⊢
  clear hq' q
  subst hdd hc hb
  obtain ⟨a1, a2, a3⟩ := lll_round _ R hfl h2 hind' hwf hf hl hd fuel maxIter last hq
  generalize lll c fuel maxIter last s 0 0 s.d 0 = q at *
  refine ⟨?_, a2, θ, h0, h1, a3⟩
  obtain ⟨T, T', t1, t2, t3, _⟩ := a1.uni
  rw [t3]; exact lattice_mul ⟨T', t1, t2⟩ _

/-- **C83.**  Let `b` be `d` linearly independent vectors, and `P` at least the precision returned by `l2_min_prec` for `δ` and `η`.  LLL with the exact Gram matrix and numbers of `P` bits (every operation has a relative error of at most `2^-P`), if it succeeds - whatever the
arrays contained before, whatever the limits on the numbers of iterations - returns a basis of the same lattice, finds no zero vector, and the basis is exactly `(δ - θ, η + θ)`-LLL-reduced with `θ = ε/(64 d)`, where
`ε ≤ min(η - 1/2, 1 - δ)` for the `ε` of `l2_min_prec`. -/
theorem C83_proved_lll {fl : ℚ → ℚ} (hfl : Chol.RelErr (1 / 2 ^ P) fl) (hn : 1 ≤ n) (hd : 1 ≤ d) (hind : Indep d n (basisQ b)) (he : EnoughL2 δ η ε d rho P) (wu wi fo early : Bool) (u v jz : Mat ℤ) (jf : Mat (Rd fl)) (fuel maxIter last : ℕ) :
    let q := lll (mkCfg (Rd.of δ) (Rd.of η) false early) fuel maxIter last (mk0 d n true wu wi fo b u v jz jf) 0 0 d 0
    q.1 = .success → lattice (toM d n q.2.s.b) = lattice (toM d n b) ∧ q.2.zeros = 0 ∧ LLLReduced n d (basisQ q.2.s.b) (δ - ε / (64 * d)) (η + ε / (64 * d)) := by
  intro q hq
  have R : RCfg false (mkCfg (Rd.of δ : Rd fl) (Rd.of η) false early) η δ := ⟨rfl, rfl, rfl⟩
  obtain ⟨a1, a2, θ, h0, h1, a3, a4, -⟩ := lll_sound R hfl hn hd hind he wu wi fo u v jz jf fuel maxIter last hq
  exact ⟨a1, a2, lllReduced_mono ⟨a3, a4 rfl⟩ (by linarith) (by linarith) (fun i hi => (normStar_nonneg _ _ _))⟩

/-- **C83 with `l2_min_prec`.**  The same for the precision computed by `l2_min_prec`; the parameters returned are within `1/64` of the distance to the ends of their ranges. -/
theorem C83_l2 {A : Arith} {logU logD : ℚ → ℚ} (hA : LogOK A logU logD) {p : ℤ} (hη : 1 / 2 ≤ η) (hδ : δ ≤ 1) (hε : ε ≤ 1) (h : computeMinPrec A logU logD true d δ η ε = .ok rho p) (hpP : p ≤ P)
    (hP : 1 ≤ P) (hn : 1 ≤ n) (hd : 1 ≤ d) (hind : Indep d n (basisQ b)) (wu wi fo early : Bool) (u v jz : Mat ℤ) (jf : Mat (Rd (rp rhe P))) (fuel maxIter last : ℕ) :
    let q := lll (mkCfg (Rd.of δ) (Rd.of η) false early) fuel maxIter last (mk0 d n true wu wi fo b u v jz jf) 0 0 d 0
    q.1 = .success → lattice (toM d n q.2.s.b) = lattice (toM d n b) ∧ LLLReduced n d (basisQ q.2.s.b) (δ - (1 - δ) / 64) (η + ε / 64) := by
  intro q hq
  have he := enoughL2_of_minPrec hA hη hδ hε h hpP
  obtain ⟨h1, -, h3⟩ := C83_proved_lll (relErr_rp hP) hn hd hind he wu wi fo early u v jz jf fuel maxIter last hq
  refine ⟨h1, lllReduced_mono h3 ?_ ?_ (fun i hi => normStar_nonneg _ _ _)⟩
  all_goals
    have hd1 : (1 : ℚ) ≤ d := by exact_mod_cast hd
    have e0 := he.eps0
    have k : epsUsed A true δ η ε / (64 * d) ≤ epsUsed A true δ η ε / 64 := by
      gcongr
      linarith
    have := hA.rd (1 - δ)
    have k2 : epsUsed A true δ η ε ≤ 1 - δ ∧ epsUsed A true δ η ε ≤ ε := by
      unfold epsUsed
      dsimp only
      rw [if_pos rfl]
      split_ifs <;> constructor <;> linarith
    obtain ⟨k3, k4⟩ := k2
    linarith

end

/-! ## An example -/

/-- a basis that is not reduced -/
def lexB : Mat ℤ := fun i j =>
  match i, j with
  | 0, 0 => 101 | 0, 1 => 1 | 0, 2 => 0
  | 1, 0 => 67 | 1, 1 => 0 | 1, 2 => 3
  | 2, 0 => 331 | 2, 1 => 27 | 2, 2 => 5
  | _, _ => 0

theorem lexB_indep : Indep 3 3 (basisQ lexB) := indep_of_pos (by decide +kernel)

theorem lexB_enough : EnoughL2 (99 / 100) (51 / 100) (1 / 100) 3 4 53 := by
  constructor <;> norm_num

/-- the run, from arrays that are not zero -/
def lexQ : LLLStatus × LLLState (Rd (rp rhe 53)) := lll (mkCfg (Rd.of (99 / 100)) (Rd.of (51 / 100)) false false) 20 60 0 (mk0 3 3 true false false false lexB lexB lexB lexB (fun _ _ => Rd.of 7)) 0 0 3 0

/-- it succeeds, exchanges vectors and rounds -/
theorem lexQ_ok : lexQ.1 = .success := by decide +kernel

example : lexQ.2.nSwaps ≠ 0 ∧ muOf lexQ.2.s 2 1 ≠ muS 3 (basisQ lexQ.2.s.b) 2 1 := by decide +kernel

/-- the hypotheses of C83 are met -/
example : LLLReduced 3 3 (basisQ lexQ.2.s.b) (99 / 100 - 1 / 100 / (64 * (3 : ℕ))) (51 / 100 + 1 / 100 / (64 * (3 : ℕ))) :=
  (C83_proved_lll (relErr_rp (by norm_num)) (by norm_num) (by norm_num) lexB_indep lexB_enough false false false false lexB lexB lexB (fun _ _ => Rd.of 7) 20 60 0 lexQ_ok).2.2

end ErrB
end Fplll

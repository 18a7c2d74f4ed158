import Verif.Proofs.IsReduced
import Verif.Props.LLLRound

/-!
# C91: `is_lll_reduced` with rounding

`is_lll_reduced` (lll.cpp:226-258) on an object with an exact Gram matrix and Gram-Schmidt coefficients in floating-point arithmetic: what it accepts is reduced and what is reduced is accepted, up to a margin in the parameters.
-/

namespace Fplll
namespace ErrB

open FloatOps Spec GSO LLL

variable {fl : ℚ → ℚ} {δ η ε rho u ρ η' δ' : ℚ} {d P n : ℕ} {b : Mat ℤ}

/-- the computed rows, in the form of the error analysis -/
theorem rowOK_of_entry {t : GSO (Rd fl)} {m : ℕ} (h : ∀ p < m, ∀ q ≤ p, Entry fl t p q) : ∀ q < m, RowOK fl t q (q + 1) := by
  intro p hp q hq
  exact ⟨(h p hp q (by omega)).1, fun hqp => ((h p hp q (by omega)).2 hqp).1⟩

/-- the tests on computed coefficients -/
theorem gt_of {t : GSO (Rd fl)} {i j : ℕ} (h : t.mu i j = Rd.of (Rd.val (t.mu i j))) : (gt (abs (t.mu i j)) (Rd.of η : Rd fl) : Bool) = false ↔ |Rd.val (t.mu i j)| ≤ η := by
  rw [h]
  have e : (gt (abs (Rd.of (Rd.val (t.mu i j)) : Rd fl)) (Rd.of η : Rd fl) : Bool) = decide (η < |Rd.val (t.mu i j)|) := rfl
  rw [e, decide_eq_false_iff_not, not_lt]
  rfl

theorem lt_of {t : GSO (Rd fl)} {i : ℕ} (h : t.mu (i + 1) i = Rd.of (Rd.val (t.mu (i + 1) i))) (h1 : t.r i i = Rd.of (Rd.val (t.r i i))) (h2 : t.r (i + 1) (i + 1) = Rd.of (Rd.val (t.r (i + 1) (i + 1)))) :
    (lt (t.r (i + 1) (i + 1)) (mul (t.r i i) (sub (Rd.of δ : Rd fl) (mul (t.mu (i + 1) i) (t.mu (i + 1) i)))) : Bool) = false ↔
      fl (Rd.val (t.r i i) * fl (δ - fl (Rd.val (t.mu (i + 1) i) * Rd.val (t.mu (i + 1) i)))) ≤ Rd.val (t.r (i + 1) (i + 1)) := by
  generalize Rd.val (t.mu (i + 1) i) = a at *
  generalize Rd.val (t.r i i) = c at *
  generalize Rd.val (t.r (i + 1) (i + 1)) = e at *
  rw [h, h1, h2]
  have k : (lt (Rd.of e : Rd fl) (mul (Rd.of c) (sub (Rd.of δ : Rd fl) (mul (Rd.of a) (Rd.of a)))) : Bool) = decide (e < fl (c * fl (δ - fl (a * a)))) := rfl
  rw [k, decide_eq_false_iff_not, not_lt]

/-- what `is_lll_reduced` accepts is reduced -/
theorem isLllReduced_sound (hfl : Chol.RelErr u fl) {s : GSO (Rd fl)} (hwf : WF s) (hf : FreshR s) (hp : RPar (s.d + 1) η δ η' δ' u ε ρ) (hηδ : η ^ 2 ≤ δ) (hη1 : η ≤ 1) (hind : Indep s.d s.nCols (basisQ s.b))
    (h : (isLllReduced s (Rd.of δ) (Rd.of η)).1 = true) : LLLReduced s.nCols s.d (basisQ s.b) δ' η' := by
  rw [isLllReduced_iff] at h
  obtain ⟨m, a1, a2, a3, a4, a5, a6⟩ := updateGsoFrom_prefix s.d 0 s hwf hf (by omega) (by omega) (fun k hk => absurd hk (by omega))
  change ∀ p < m, ∀ q ≤ p, Entry fl s.updateGso.2 p q at a2
  change m < s.d → ∃ j < m, Rd.val (s.updateGso.2.r j j) = 0 at a3
  change s.updateGso.2.b = s.b at a4
  change s.updateGso.2.nCols = s.nCols at a5
  change s.updateGso.2.d = s.d at a6
  generalize s.updateGso.2 = t at *
  rw [a6] at h
  obtain ⟨h1, h2⟩ := h
  have hip : ∀ p q : ℕ, (t.ip p q : ℚ) = dotQ s.nCols (basisQ s.b p) (basisQ s.b q) := by
    intro p q
    unfold ip dotQ basisQ; rw [a4, a5]; push_cast; rfl
  have hc : Chol.CompT m η δ u fl (fun p q => (t.ip p q : ℚ)) (rS s.nCols (basisQ s.b)) (muS s.nCols (basisQ s.b)) (fun p q => Rd.val (t.r p q)) (fun p q => Rd.val (t.mu p q)) := by
    refine ⟨?_, ?_, ?_, hfl, ?_, ?_, ?_, ?_⟩
    · intro p hp
      rw [rS_self]; exact hind.pos p (by omega)
    · intro p hp q hq
      rw [rS_self]; exact rS_mu _ _ _ _
    · intro p hp q hq
      rw [rS_rec, hip]; ring
    · intro p hp q hq
      conv_lhs => rw [(a2 p hp q hq).1]
      rfl
    · intro p hp q hq
      conv_lhs => rw [((a2 p hp q hq.le).2 hq).1]
      rfl
    · intro p hp q hq
      exact (gt_of ((a2 p hp q hq.le).mu_some hq)).1 (h1 p (by omega) q hq)
    · intro i hi
      exact (lt_of ((a2 (i + 1) hi i (by omega)).mu_some (by omega)) (a2 i (by omega) i le_rfl).r_some (a2 (i + 1) hi (i + 1) le_rfl).r_some).1 (h2 i (by omega))
  obtain ⟨hD, hL⟩ := Chol.data_of_compT hp.par hp.rho hp.eta' hp.delta' hηδ hη1 (by omega) hc
  have hden := hp.par.den
  have hmd : m = s.d := by
    by_contra hne
    obtain ⟨j, j1, j2⟩ := a3 (by omega)
    have e := Chol.error hD (by omega : m ≤ s.d + 1) hp.eta' hp.par.eta1 (by positivity) (by
      rw [one_div, ← div_eq_inv_mul, le_div_iff₀ hden]; have := hp.delta'; linarith) hp.par.u0 hp.par.eps hp.rho (by rw [one_div, ← div_eq_inv_mul]; exact hp.par.growth) hp.par.prec j j le_rfl j1
    have hE := Chol.bnd_le hp.par.u0 (by have := hp.rho; linarith : 1 ≤ ρ) hp.par.prec (by omega : j < s.d + 1)
    have h0 := hD.pos j j1
    have h1 : Chol.bnd (s.d + 1) ρ u j ≤ 1 / 8 := le_trans hE (by have := hp.par.eps; linarith)
    have h2 := (abs_le.1 e).1
    have h3 := mul_le_mul_of_nonneg_right h1 h0.le
    rw [j2] at h2
    linarith
  subst hmd
  refine ⟨fun i hi j hj => hD.red i hi j hj, fun i hi => ?_⟩
  have := hL i hi
  rwa [rS_self, rS_self] at this

/-- what is reduced is accepted -/
theorem isLllReduced_complete (hfl : Chol.RelErr u fl) {s : GSO (Rd fl)} (hwf : WF s) (hf : FreshR s) {θ : ℚ} (hη : 1 / 2 ≤ η) (hη1 : η ≤ 1) (hden : 0 < δ - η ^ 2) (hδ : δ ≤ 1) (hu : 0 ≤ u) (hε : ε ≤ 1) (hρ3 : 3 ≤ ρ)
    (hgr : ((1 + η) ^ 2 + ε) / (δ - η ^ 2) ≤ ρ) (hprec : 32 * s.d ^ 2 * ρ ^ s.d * u ≤ ε) (hθ : 15 * s.d * ρ ^ s.d * u ≤ θ) (hind : Indep s.d s.nCols (basisQ s.b))
    (h : LLLReduced s.nCols s.d (basisQ s.b) (δ + θ) (η - θ)) : (isLllReduced s (Rd.of δ) (Rd.of η)).1 = true := by
  rw [isLllReduced_iff]
  obtain ⟨m, a1, a2, a3, a4, a5, a6⟩ := updateGsoFrom_prefix s.d 0 s hwf hf (by omega) (by omega) (fun k hk => absurd hk (by omega))
  change ∀ p < m, ∀ q ≤ p, Entry fl s.updateGso.2 p q at a2
  change m < s.d → ∃ j < m, Rd.val (s.updateGso.2.r j j) = 0 at a3
  change s.updateGso.2.b = s.b at a4
  change s.updateGso.2.nCols = s.nCols at a5
  change s.updateGso.2.d = s.d at a6
  generalize s.updateGso.2 = t at *
  rw [a6]
  have hθ0 : 0 ≤ θ := le_trans (by positivity) hθ
  have hlll : LLLReduced s.nCols s.d (basisQ s.b) δ η := lllReduced_mono h (by linarith) (by linarith) (fun i _ => normStar_nonneg _ _ _)
  have hD := data_of_rows hfl (s := t) a1 (by rw [a4, a5]; exact hind) (by rw [a4, a5]; exact hlll) hden (rowOK_of_entry a2)
  have hα : (0 : ℚ) < 1 / (δ - η ^ 2) := by positivity
  have hα1 : 1 ≤ 1 / (δ - η ^ 2) * (1 - η ^ 2) := by
    rw [one_div, ← div_eq_inv_mul, le_div_iff₀ hden]; linarith
  have hα2 : 1 / (δ - η ^ 2) * ((1 + η) ^ 2 + ε) ≤ ρ := by rw [one_div, ← div_eq_inv_mul]; exact hgr
  have herr := Chol.error hD a1 hη hη1 hα hα1 hu hε hρ3 hα2 hprec
  have herrm := fun {j i : ℕ} => Chol.error_mu hD a1 hη hη1 hα hα1 hu hε hρ3 hα2 hprec (j := j) (i := i)
  have hρ1 : 1 ≤ ρ := by linarith
  have hE8 : ∀ j < s.d, Chol.bnd s.d ρ u j ≤ 1 / 8 := fun j hj => le_trans (Chol.bnd_le hu hρ1 hprec hj) (by linarith)
  have hmd : m = s.d := by
    by_contra hne
    obtain ⟨j, j1, j2⟩ := a3 (by omega)
    have e := herr j j le_rfl j1
    have h0 := hD.pos j j1
    have h2 := (abs_le.1 e).1
    have h3 := mul_le_mul_of_nonneg_right (hE8 j (by omega)) h0.le
    rw [j2] at h2
    linarith
  subst hmd
  rw [a4, a5] at hD herr herrm
  change Chol.Data _ _ _ _ _ _ (rS s.nCols (basisQ s.b)) (muS s.nCols (basisQ s.b)) _ _ at hD
  change ∀ j i, j ≤ i → i < s.d → |Rd.val (t.r i j) - rS s.nCols (basisQ s.b) i j| ≤ Chol.bnd s.d ρ u j * rS s.nCols (basisQ s.b) j j at herr
  change ∀ {j i : ℕ}, j < i → i < s.d → |Rd.val (t.mu i j) - muS s.nCols (basisQ s.b) i j| ≤ 5 / 2 * Chol.bnd s.d ρ u j at herrm
  have hb : ∀ j < s.d, 4 * Chol.bnd s.d ρ u j ≤ θ := by
    intro j hj
    have hd1 : (0 : ℚ) ≤ s.d := by positivity
    have h1 : ρ ^ (j + 1) ≤ ρ ^ s.d := pow_le_pow_right₀ hρ1 (by omega)
    have h2 : Chol.bnd s.d ρ u j ≤ 11 / 3 * s.d * ρ ^ s.d * u := by unfold Chol.bnd; gcongr
    have : 0 ≤ (s.d : ℚ) * ρ ^ s.d * u := by positivity
    linarith
  have hMη : ∀ i < s.d, ∀ j < i, |Rd.val (t.mu i j)| ≤ η := by
    intro i hi j hj
    have e1 := herrm hj hi
    have e2 := h.1 i hi j hj
    have e3 := abs_sub_abs_le_abs_sub (Rd.val (t.mu i j)) (muS s.nCols (basisQ s.b) i j)
    have e4 := hb j (by omega)
    have e5 : 0 ≤ Chol.bnd s.d ρ u j := by unfold Chol.bnd; positivity
    linarith
  refine ⟨fun i hi j hj => (gt_of ((a2 i hi j hj.le).mu_some hj)).2 (hMη i hi j hj), fun i hi => ?_⟩
  refine (lt_of ((a2 (i + 1) hi i (by omega)).mu_some (by omega)) (a2 i (by omega) i le_rfl).r_some (a2 (i + 1) hi (i + 1) le_rfl).r_some).2 ?_
  have rm := hD.pos i (by omega)
  have rm1 := hD.pos (i + 1) (by omega)
  have hE0 : 0 ≤ Chol.bnd s.d ρ u i := by unfold Chol.bnd; positivity
  have hd1 : (1 : ℚ) ≤ s.d := by exact_mod_cast (by omega : 1 ≤ s.d)
  have hEu : 11 * u ≤ Chol.bnd s.d ρ u i := by
    have h1 : ρ ≤ ρ ^ (i + 1) := le_self_pow₀ hρ1 (by omega)
    have h2 : 3 ≤ (s.d : ℚ) * ρ ^ (i + 1) := by nlinarith
    unfold Chol.bnd
    nlinarith
  have hEE : 3 * Chol.bnd s.d ρ u i ≤ Chol.bnd s.d ρ u (i + 1) := by
    have : Chol.bnd s.d ρ u (i + 1) = ρ * Chol.bnd s.d ρ u i := by unfold Chol.bnd; ring
    rw [this]
    exact mul_le_mul_of_nonneg_right hρ3 hE0
  have hm := hMη (i + 1) hi i (by omega)
  have hM2 : Rd.val (t.mu (i + 1) i) ^ 2 ≤ δ := by
    rw [← sq_abs]
    exact (pow_le_pow_left₀ (abs_nonneg _) hm 2).trans (by linarith)
  have hmu1 : |muS s.nCols (basisQ s.b) (i + 1) i| ≤ 1 := (hlll.1 (i + 1) hi i (by omega)).trans hη1
  have L := Chol.lov_diff hfl hu hEu (hE8 i (by omega)) rm (herr i i le_rfl (by omega)) (herrm (by omega : i < i + 1) hi) (hm.trans hη1) hmu1 hδ hM2
  have l := h.2 i hi
  rw [← rS_self, ← rS_self] at l
  have k1 := (abs_le.1 L).2
  have k2 := (abs_le.1 (herr (i + 1) (i + 1) le_rfl hi)).1
  have k3 := hb (i + 1) hi
  have k4 := hE8 (i + 1) hi
  generalize Chol.bnd s.d ρ u (i + 1) = E1 at *
  generalize Chol.bnd s.d ρ u i = E at *
  generalize rS s.nCols (basisQ s.b) (i + 1) (i + 1) = r1 at *
  generalize rS s.nCols (basisQ s.b) i i = r0 at *
  have hms := sq_nonneg (muS s.nCols (basisQ s.b) (i + 1) i)
  generalize muS s.nCols (basisQ s.b) (i + 1) i ^ 2 = m2 at *
  have x1 : (1 - E1) * ((δ + θ - m2) * r0) ≤ (1 - E1) * r1 := mul_le_mul_of_nonneg_left (by linarith) (by linarith)
  have x2 : (δ - m2 + 13 / 6 * E1) * r0 ≤ (1 - E1) * ((δ + θ - m2) * r0) := by
    rw [← mul_assoc]
    refine mul_le_mul_of_nonneg_right ?_ rm.le
    have y1 : E1 * (δ - m2) ≤ E1 * 1 := mul_le_mul_of_nonneg_left (by linarith) (by linarith)
    have y2 : E1 * θ ≤ 1 / 8 * θ := mul_le_mul_of_nonneg_right k4 hθ0
    have e : (1 - E1) * (δ + θ - m2) = δ - m2 + θ - E1 * (δ - m2) - E1 * θ := by ring
    rw [e]; linarith
  have x3 : E * r0 ≤ 1 / 3 * E1 * r0 := mul_le_mul_of_nonneg_right (by linarith) rm.le
  nlinarith

/-- the margin in the parameters -/
def margin (ε : ℚ) (d : ℕ) : ℚ := ε / (64 * (d + 1))

/-- **C91.**  Let `b` be `d` linearly independent vectors, and `P` at least the precision asked for by `l2_min_prec` for `d + 1` vectors.  `is_lll_reduced(m, δ, η)` on an object with the exact Gram matrix and numbers of `P` bits - whatever it did
before, as long as the coefficients marked as valid are those of the current basis - returns true only if the basis is exactly `(δ - θ, η + θ)`-LLL-reduced, and returns true if the basis is exactly `(δ + θ, η - θ)`-LLL-reduced, where
`θ = ε / (64 (d + 1))`; it does not change the basis.  The result of `update_gso` is ignored, and need not be checked: when a division by zero stops it, one of the tests on the rows before fails. -/
theorem C91_object (hfl : Chol.RelErr (1 / 2 ^ P) fl) {s : GSO (Rd fl)} (hwf : WF s) (hf : FreshR s) (hind : Indep s.d s.nCols (basisQ s.b)) (he : EnoughL2 δ η ε (s.d + 1) rho P) :
    ((isLllReduced s (Rd.of δ) (Rd.of η)).1 = true → LLLReduced s.nCols s.d (basisQ s.b) (δ - margin ε s.d) (η + margin ε s.d)) ∧
    (LLLReduced s.nCols s.d (basisQ s.b) (δ + margin ε s.d) (η - margin ε s.d) → (isLllReduced s (Rd.of δ) (Rd.of η)).1 = true) ∧ (isLllReduced s (Rd.of δ) (Rd.of η)).2.b = s.b := by
  have hη := he.eta
  have hε0 := he.eps0
  have hε := he.eps
  have hδ := he.delta
  have hden := he.den
  have hη1 : η ≤ 1 := by nlinarith
  obtain ⟨θ, ρ, t0, t1, t2, -, -, hr3⟩ := he.par' (by omega)
  have hm : ((s.d + 1 : ℕ) : ℚ) = s.d + 1 := by push_cast; rfl
  refine ⟨fun h => ?_, fun h => ?_, ?_⟩
  · have k := isLllReduced_sound hfl hwf hf t2 (by linarith) hη1 hind h
    rw [hm] at t1
    unfold margin
    exact lllReduced_mono k (by linarith) (by linarith) (fun i _ => normStar_nonneg _ _ _)
  · have hprec : 1024 * ((s.d : ℚ) + 1) ^ 2 * (rho ^ s.d * rho) * (1 / 2 ^ P) ≤ 11 / 10 * ε := by
      have := he.prec
      rw [div_le_iff₀ hε0, hm, pow_succ rho] at this
      rw [mul_one_div, div_le_iff₀ (by positivity)]
      linarith
    have hd0 : (0 : ℚ) ≤ s.d := by positivity
    have hw : 0 ≤ rho ^ s.d * (1 / 2 ^ P) := by positivity
    have hw3 : 3 * (rho ^ s.d * (1 / 2 ^ P)) ≤ rho * (rho ^ s.d * (1 / 2 ^ P)) := mul_le_mul_of_nonneg_right (by linarith) hw
    have hbase : 1024 * ((s.d : ℚ) + 1) ^ 2 * (rho ^ s.d * (1 / 2 ^ P)) ≤ ε := by
      have := mul_le_mul_of_nonneg_left hw3 (by positivity : (0 : ℚ) ≤ 1024 * ((s.d : ℚ) + 1) ^ 2)
      linarith
    refine isLllReduced_complete hfl hwf hf hη hη1 hden hδ (by positivity) hε hr3 he.growth ?_ ?_ hind h
    · have : (s.d : ℚ) ^ 2 ≤ ((s.d : ℚ) + 1) ^ 2 := by nlinarith
      have := mul_le_mul_of_nonneg_right this hw
      have : 0 ≤ (s.d : ℚ) ^ 2 * (rho ^ s.d * (1 / 2 ^ P)) := by positivity
      linarith
    · unfold margin
      rw [le_div_iff₀ (by positivity)]
      have : (s.d : ℚ) * (s.d + 1) ≤ ((s.d : ℚ) + 1) ^ 2 := by nlinarith
      have := mul_le_mul_of_nonneg_right this hw
      have : 0 ≤ (s.d : ℚ) * (s.d + 1) * (rho ^ s.d * (1 / 2 ^ P)) := by positivity
      linarith
  · obtain ⟨m, -, -, -, a4, -⟩ := updateGsoFrom_prefix s.d 0 s hwf hf (by omega) (by omega) (fun k hk => absurd hk (by omega))
    exact a4

/-- **C91 for a new object.** -/
theorem C91_is_lll_reduced (hfl : Chol.RelErr (1 / 2 ^ P) fl) (hn : 1 ≤ n) (hind : Indep d n (basisQ b)) (he : EnoughL2 δ η ε (d + 1) rho P) (wu wi fo : Bool) (u v jz : Mat ℤ) (jf : Mat (Rd fl)) :
    let q := isLllReduced (mk0 d n true wu wi fo b u v jz jf) (Rd.of δ) (Rd.of η)
    (q.1 = true → LLLReduced n d (basisQ b) (δ - margin ε d) (η + margin ε d)) ∧ (LLLReduced n d (basisQ b) (δ + margin ε d) (η - margin ε d) → q.1 = true) ∧ q.2.b = b := by
  intro q
  obtain ⟨hwf, hb, hu, hv, hdd, hc, hg, hwu, hwi, hk, hl⟩ := mk0_wf d n true wu wi fo b u v jz jf hn
  have hf := mk0_freshR d n wu wi fo b u v jz jf hn
  have hq : q = isLllReduced (mk0 d n true wu wi fo b u v jz jf) (Rd.of δ) (Rd.of η) := rfl
  generalize mk0 d n true wu wi fo b u v jz jf = s at *
  subst hdd hc hb
  rw [hq]
  exact C91_object hfl hwf hf hind he

/-- **C91 after LLL.**  The basis returned by a successful run of the proved LLL with `δ` and `η` is accepted by `is_lll_reduced` with parameters weaker by the two margins. -/
theorem C91_after_lll (hfl : Chol.RelErr (1 / 2 ^ P) fl) (hn : 1 ≤ n) (hd : 1 ≤ d) (hind : Indep d n (basisQ b)) (he : EnoughL2 δ η ε d rho P) (wu wi fo early : Bool) (u v jz : Mat ℤ) (jf : Mat (Rd fl)) (fuel maxIter last : ℕ)
    {ε' rho' : ℚ} {Q : ℕ} {fl' : ℚ → ℚ} (hfl' : Chol.RelErr (1 / 2 ^ Q) fl') (he' : EnoughL2 (δ - ε / (64 * d) - margin ε' d) (η + ε / (64 * d) + margin ε' d) ε' (d + 1) rho' Q)
    (wu' wi' fo' : Bool) (u' v' jz' : Mat ℤ) (jf' : Mat (Rd fl')) :
    let q := lll (mkCfg (Rd.of δ) (Rd.of η) false early) fuel maxIter last (mk0 d n true wu wi fo b u v jz jf) 0 0 d 0
    q.1 = .success → (isLllReduced (mk0 d n true wu' wi' fo' q.2.s.b u' v' jz' jf') (Rd.of (δ - ε / (64 * d) - margin ε' d)) (Rd.of (η + ε / (64 * d) + margin ε' d))).1 = true := by
  intro q hq
  obtain ⟨h1, -, h3⟩ := C83_proved_lll hfl hn hd hind he wu wi fo early u v jz jf fuel maxIter last hq
  have hi : Indep d n (basisQ q.2.s.b) := Spec.Indep.of_lattice hind h1
  refine (C91_is_lll_reduced hfl' hn hi he' wu' wi' fo' u' v' jz' jf').2.1 ?_
  refine lllReduced_mono h3 (by linarith) (by linarith) (fun i _ => normStar_nonneg _ _ _)

/-! ## Examples -/

/-- a reduced basis -/
def redB : Mat ℤ := fun i j => if i = j then 8 else if i = 1 ∧ j = 0 then 3 else if i = 2 ∧ j = 1 then -2 else 0

theorem redB_indep : Indep 3 3 (basisQ redB) := indep_of_pos (by decide +kernel)

theorem redB_enough : EnoughL2 (99 / 100) (51 / 100) (1 / 100) (3 + 1) 4 53 := by
  refine ⟨by norm_num, by norm_num, by norm_num, by norm_num, by norm_num, by norm_num, by norm_num⟩

/-- it is reduced with the margin, so that `is_lll_reduced` accepts it -/
theorem redB_red : LLLReduced 3 3 (basisQ redB) (99 / 100 + margin (1 / 100) 3) (51 / 100 - margin (1 / 100) 3) := by
  have h1 : ∀ i < 3, ∀ j < i, |muS 3 (basisQ redB) i j| ≤ 51 / 100 - margin (1 / 100) 3 := by decide +kernel
  have h2 : ∀ i < 2, (99 / 100 + margin (1 / 100) 3) * normStar 3 (basisQ redB) i ≤ normStar 3 (basisQ redB) (i + 1) + muS 3 (basisQ redB) (i + 1) i ^ 2 * normStar 3 (basisQ redB) i := by decide +kernel
  exact ⟨h1, fun i hi => h2 i (by omega)⟩

example : (isLllReduced (mk0 3 3 true false false false redB redB redB redB (fun _ _ => (Rd.of 7 : Rd (rp rhe 53)))) (Rd.of (99 / 100)) (Rd.of (51 / 100))).1 = true :=
  (C91_is_lll_reduced (relErr_rp (by norm_num)) (by norm_num) redB_indep redB_enough false false false redB redB redB _).2.1 redB_red

/-- the basis of C83, before LLL: not reduced, hence rejected -/
example : (isLllReduced (mk0 3 3 true false false false lexB lexB lexB lexB (fun _ _ => (Rd.of 7 : Rd (rp rhe 53)))) (Rd.of (99 / 100)) (Rd.of (51 / 100))).1 = false := by
  by_contra h
  have := (C91_is_lll_reduced (relErr_rp (by norm_num)) (by norm_num) lexB_indep redB_enough false false false lexB lexB lexB (fun _ _ => (Rd.of 7 : Rd (rp rhe 53)))).1 (by simpa using h)
  have k : ¬ |muS 3 (basisQ lexB) 1 0| ≤ 51 / 100 + margin (1 / 100) 3 := by decide +kernel
  exact k (this.1 1 (by norm_num) 0 (by norm_num))

/-- the hypotheses of `C91_after_lll` are met: the basis LLL returns in the example of C83 is accepted -/
example : (isLllReduced (mk0 3 3 true false false false lexQ.2.s.b lexB lexB lexB (fun _ _ => (Rd.of 7 : Rd (rp rhe 64)))) (Rd.of (99 / 100 - 1 / 100 / (64 * (3 : ℕ)) - margin (1 / 100) 3))
    (Rd.of (51 / 100 + 1 / 100 / (64 * (3 : ℕ)) + margin (1 / 100) 3))).1 = true :=
  C91_after_lll (relErr_rp (by norm_num)) (by norm_num) (by norm_num) lexB_indep lexB_enough false false false false lexB lexB lexB (fun _ _ => Rd.of 7) 20 60 0 (relErr_rp (by norm_num)) (Q := 64) (rho' := 4) (by
    unfold margin; constructor <;> norm_num) false false false lexB lexB lexB (fun _ _ => (Rd.of 7 : Rd (rp rhe 64))) lexQ_ok

/-- a basis whose second projected vector is too short by a third -/
def lowB : Mat ℤ := fun i j =>
  match i, j with
  | 0, 0 => -2 | 0, 1 => -7 | 0, 2 => 3
  | 1, 0 => 11 | 1, 1 => 4 | 1, 2 => 6
  | 2, 0 => -8 | 2, 1 => 6 | 2, 2 => 3
  | _, _ => 0

/-- **C91 needs the precision**: with numbers of 3 bits `is_lll_reduced` accepts a basis of three independent vectors with parameters 0.99 and 0.51, which is not even `(0.7, 0.6)`-reduced. -/
theorem C91_low_precision_violated : Indep 3 3 (basisQ lowB) ∧ (isLllReduced (mk0 3 3 true false false false lowB lowB lowB lowB (fun _ _ => (Rd.of 7 : Rd (rp rhe 3)))) (Rd.of (99 / 100)) (Rd.of (51 / 100))).1 = true ∧
    ¬ LLLReduced 3 3 (basisQ lowB) (7 / 10) (6 / 10) :=
  ⟨indep_of_pos (by decide +kernel), by decide +kernel, fun h => by
    have k : ¬ 7 / 10 * normStar 3 (basisQ lowB) 1 ≤ normStar 3 (basisQ lowB) 2 + muS 3 (basisQ lowB) 2 1 ^ 2 * normStar 3 (basisQ lowB) 1 := by decide +kernel
    exact k (h.2 1 (by norm_num))⟩

/-- two vectors of three entries, exact in `double` -/
def canB : Mat ℤ := fun i j =>
  match i, j with
  | 0, 0 => 1 | 0, 1 => 1 | 0, 2 => 1
  | 1, 0 => 2 ^ 60 | 1, 1 => 100 | 1, 2 => -2 ^ 60
  | _, _ => 0

/-- LLL on them, with rounded scalar products -/
def canQ : LLLStatus × LLLState (Rd (rp rhe 53)) := lll (mkCfg (Rd.of (99 / 100)) (Rd.of (51 / 100)) false false) 20 60 0 (mk0 2 3 false false false false canB canB canB canB (fun _ _ => Rd.of 7)) 0 0 2 0

/-- **C91 needs the integer Gram matrix**: without `GSO_INT_GRAM` the scalar products are rounded.  With 53 bits, `is_lll_reduced` accepts the vectors `(1, 1, 1)` and `(2^60, 100, -2^60)`, whose coefficient is `100/3`.  LLL itself - the heuristic
method of `lll_reduction` uses such an object - succeeds on them and leaves them as they are. -/
theorem C91_float_gram_violated :
    (isLllReduced (mk0 2 3 false false false false canB canB canB canB (fun _ _ => (Rd.of 7 : Rd (rp rhe 53)))) (Rd.of (99 / 100)) (Rd.of (51 / 100))).1 = true ∧
    (canQ.1 = .success ∧ ∀ i < 2, ∀ j < 3, canQ.2.s.b i j = canB i j) ∧
    Indep 2 3 (basisQ canB) ∧ (∀ i < 2, ∀ j < 3, rp rhe 53 (canB i j) = canB i j) ∧ ∀ δ1 η1 : ℚ, η1 < 33 → ¬ LLLReduced 3 2 (basisQ canB) δ1 η1 := by
  refine ⟨by decide +kernel, by decide +kernel, indep_of_pos (by decide +kernel), by decide +kernel, fun δ η hη h => ?_⟩
  have k : (33 : ℚ) ≤ |muS 3 (basisQ canB) 1 0| := by decide +kernel
  have := h.1 1 (by norm_num) 0 (by norm_num)
  linarith

end ErrB
end Fplll

import Verif.Proofs.SVPApriori

/-!
# C86: `shortest_vector` with the proved method finds a shortest vector

Nothing is assumed of the computed error bounds: on an LLL-reduced basis of at most 52 vectors they are always good enough.
-/

open Finset

namespace Fplll
namespace ErrB

open Enum Spec GSO SVP

section
variable {δ η rho : ℚ} {D P n : ℕ} {b : Mat ℤ}

theorem normStar_zero_sq (n : ℕ) (b : Mat ℤ) : normStar n (basisQ b) 0 = (sqLen n (b 0) : ℚ) := by
  rw [sqLen_cast]
  unfold normStar
  have : bstar n (basisQ b) 0 = basisQ b 0 := by funext c; rw [bstar_eq]; simp
  rw [this]
  rfl

/-- the lengths of the Gram-Schmidt vectors do not drop fast -/
theorem normStar_ge (hind : Indep D n (basisQ b)) (hlll : LLLReduced n D (basisQ b) δ η) (hδ : 989 / 1000 ≤ δ) (hη : 0 ≤ η) (hη1 : η ≤ 511 / 1000) (i : ℕ) (hi : i < D) :
    (7278 / 10000) ^ i * normStar n (basisQ b) 0 ≤ normStar n (basisQ b) i := by
  induction i with
  | zero => simp
  | succ i ih =>
    have h1 := lovasz_step hlll hδ hη hη1 hi (hind.pos i (by omega)).le
    have h2 := ih (by omega)
    rw [pow_succ']
    linarith

/-- vectors of the lattice are not much shorter than the first row -/
theorem short_ge (hind : Indep D n (basisQ b)) (hlll : LLLReduced n D (basisQ b) δ η) (hδ : 989 / 1000 ≤ δ) (hη : 0 ≤ η) (hη1 : η ≤ 511 / 1000) {d : ℕ} (hdD : d ≤ D)
    (x : ℕ → ℤ) (hx : ∃ i < d, x i ≠ 0) : (7278 / 10000) ^ (d - 1) * normStar n (basisQ b) 0 ≤ (sqLen n (comb d b x) : ℚ) := by
  obtain ⟨t, ht, hyt, htop⟩ := exists_top (n := d) hx
  have hp : ∀ i < d, 0 < normStar n (basisQ b) i := fun i hi => hind.pos i (by omega)
  have h2 := lc_ge_top hp (fun i => (x i : ℚ)) t ht (fun i h h' => by rw [htop i h h']; simp)
  have h5 : (1 : ℚ) ≤ (x t : ℚ) ^ 2 := by
    have : (1 : ℤ) ≤ x t ^ 2 := by
      have := sq_nonneg (x t)
      have : x t ^ 2 ≠ 0 := pow_ne_zero 2 hyt
      omega
    exact_mod_cast this
  have h6 : ((sqLen n (comb d b x) : ℤ) : ℚ) = dotQ n (lc d (fun i => (x i : ℚ)) (basisQ b)) (lc d (fun i => (x i : ℚ)) (basisQ b)) := by
    rw [sqLen_cast, comb_cast]; rfl
  rw [h6]
  refine le_trans ?_ h2
  have h7 := normStar_ge hind hlll hδ hη hη1 t (by omega)
  have h8 : ((7278 : ℚ) / 10000) ^ (d - 1) ≤ (7278 / 10000) ^ t := pow_le_pow_of_le_one (by norm_num) (by norm_num) (by omega)
  have h9 := mul_le_mul_of_nonneg_right h8 (hp 0 (by omega)).le
  have h10 := hp t ht
  have h11 := mul_le_mul_of_nonneg_right h5 h10.le
  linarith

/-- the bound on `maxDE`, relative to the bound of the enumeration -/
def relDE (d : ℕ) : ℚ := 1001 / 1000 * (1 / 13000 + 6411 / 1000 * (hu * (d + 3) * gg ^ d))

theorem relDE_ok : ∀ d < 53, 0 < d → relDE d ≤ 1 / 2 ∧ gg ^ d < 6 * 10 ^ 15 ∧
    (4 * d * relDE d * (1001 / 1000) * 2 ^ 53 ≤ 2 ^ 53 * (7278 / 10000) ^ (d - 1) ∨
     4 * d * relDE d * (1001 / 1000) * 2 ^ 53 ≤ 2 ^ 20 * d ^ 2 * 3 ^ d * (7278 / 10000) ^ (d - 1)) := by
  decide +kernel

theorem start_of_reduced (hn : 1 ≤ n) (hind : Indep D n (basisQ b)) (hlll : LLLReduced n D (basisQ b) δ η) (hpr : SvpPrec D rho P)
    (hδ : 989 / 1000 ≤ δ) (hδ1 : δ ≤ 1) (hη : 1 / 2 ≤ η) (hη1 : η ≤ 511 / 1000) (hD : D ≤ 52) (wu wi fl : Bool) (u v jz : Mat ℤ)
    (jf : Mat (Rd (rp rhe P))) {s : GSO (Rd (rp rhe P))} (hs : s = (updateGso (mk0 D n true wu wi fl b u v jz jf)).2) {d : ℕ} (hd0 : 0 < d) (hdD : d ≤ D) :
    ∃ q, StartL (mpfr P) (1 - 1 / 2 ^ P) (initDelta (mpfr P) P rho d (muOf s) (rOf s) r53) (getBasisMin (fun i => sqLen n (b i)) 0 d)
      ((7278 / 10000) ^ (d - 1) * normStar n (basisQ b) 0) q ∧ q.2 ≤ rOf s 0 := by
  obtain ⟨ht, hnear⟩ := tame_of_reduced hn hind hlll hpr hδ hδ1 hη hη1 hD wu wi fl u v jz jf hs hd0 hdD
  have hP := hpr.P53
  have hF := mpfr_fine hP
  have hA := mpfr_ok hP
  obtain ⟨⟨i0, -, hi0, hm⟩, hmin⟩ := getBasisMin_spec (fun i => sqLen n (b i)) (first := 0) (last := d) hd0
  have hm0 := hmin 0 le_rfl hd0
  have hpos0 := hind.pos 0 (by omega)
  -- the squared length of the shortest row
  have hmpos : 0 < getBasisMin (fun i => sqLen n (b i)) 0 d := by
    rw [hm]
    have h1 := hind.pos i0 (by omega)
    have h2 : normStar n (basisQ b) i0 ≤ (sqLen n (b i0) : ℚ) := by
      rw [sqLen_cast]
      have := lc_ge_top (d := i0 + 1) (n := n) (B := basisQ b) (fun i hi => hind.pos i (by omega)) (fun i => if i = i0 then 1 else 0) i0 (by omega) (fun i h h' => by omega)
      simp only [if_true, one_pow, one_mul] at this
      refine this.trans (le_of_eq ?_)
      have e : lc (i0 + 1) (fun i => if i = i0 then (1 : ℚ) else 0) (basisQ b) = basisQ b i0 := by
        funext c
        unfold lc
        rw [sum_eq_single i0]
        · simp
        · intro j _ hj; simp [hj]
        · intro hj; simp at hj
      rw [e]
      rfl
    have h3 : (0 : ℚ) < (sqLen n (b i0) : ℚ) := by linarith
    exact_mod_cast h3
  generalize getBasisMin (fun i => sqLen n (b i)) 0 d = m at *
  have hmq : (0 : ℚ) < m := by exact_mod_cast hmpos
  have hmr : (m : ℚ) ≤ normStar n (basisQ b) 0 := by rw [normStar_zero_sq]; exact_mod_cast hm0
  have hmd0 : 0 < (mpfr P).ru m := hmq.trans_le (hA.ru _)
  have hmd1 : (mpfr P).ru m ≤ vv * normStar n (basisQ b) 0 := (hF.ru _ hmq.le).trans (mul_le_mul_of_nonneg_left hmr vv_pos.le)
  obtain ⟨q, hq, hl⟩ := maxErrorSt_nr ht hF hA hmd0
  obtain ⟨r1, r2, r3⟩ := relDE_ok d (by omega) hd0
  have hr0 := (abs_le.1 (hnear 0 hd0)).1
  have hd1 : (1 : ℚ) ≤ d := by exact_mod_cast hd0
  -- the bound on the error
  have hde0 := hl.de.1
  have hde : q.2 ≤ (mpfr P).ru m * relDE d := by
    have h1 := hl.de.le_ww (by
      have : (initDelta (mpfr P) P rho d (muOf s) (rOf s) r53).d = d := rfl
      rw [this]; omega)
    refine h1.trans ?_
    change ww * ((mpfr P).ru m * (5 * (1 / (65000 * (d : ℚ))) * ((d - 0 : ℕ) : ℚ) + 5 * (hu * (d + 3)) * ((gg ^ (d - 0) - 1) / (39 / 50)))) ≤ _
    rw [Nat.sub_zero]
    have e1 : 5 * (1 / (65000 * (d : ℚ))) * d = 1 / 13000 := by field_simp; norm_num
    rw [e1]
    have hg := gg_pow d
    have h0 : 0 ≤ hu * ((d : ℚ) + 3) := mul_nonneg hu_nonneg (by linarith)
    have e2 : 5 * (hu * ((d : ℚ) + 3)) * ((gg ^ d - 1) / (39 / 50)) ≤ 6411 / 1000 * (hu * (d + 3) * gg ^ d) := by
      have : 0 ≤ hu * ((d : ℚ) + 3) * gg ^ d := mul_nonneg h0 (by linarith)
      linarith
    have e3 : 0 ≤ 1 / 13000 + 6411 / 1000 * (hu * (d + 3) * gg ^ d) := by
      have : 0 ≤ hu * ((d : ℚ) + 3) * gg ^ d := mul_nonneg h0 (by linarith)
      linarith
    unfold relDE
    have e4 : (mpfr P).ru m * (1 / 13000 + 5 * (hu * (d + 3)) * ((gg ^ d - 1) / (39 / 50))) ≤ (mpfr P).ru m * (1 / 13000 + 6411 / 1000 * (hu * (d + 3) * gg ^ d)) :=
      mul_le_mul_of_nonneg_left (by linarith) hmd0.le
    have e5 := mul_le_mul (show ww ≤ 1001 / 1000 by norm_num [ww]) e4 (mul_nonneg hmd0.le (by
      have : 0 ≤ 5 * (hu * ((d : ℚ) + 3)) * ((gg ^ d - 1) / (39 / 50)) := mul_nonneg (by linarith) (div_nonneg (by linarith) (by norm_num))
      linarith)) (by norm_num)
    refine e5.trans (le_of_eq (by ring))
  have hv : vv ≤ 1001 / 1000 := by norm_num [vv]
  have hmd2 : (mpfr P).ru m ≤ 1001 / 1000 * normStar n (basisQ b) 0 := hmd1.trans (mul_le_mul_of_nonneg_right hv hpos0.le)
  have hrel0 : 0 ≤ relDE d := by
    have := hu_nonneg
    have := gg_pow d
    unfold relDE
    positivity
  refine ⟨q, ⟨hq, fun i hi => ?_, ?_⟩, ?_⟩
  · -- the coordinates
    change i < d at hi
    have h1 := hl.X i (Nat.zero_le _) hi
    change _ ≤ gg ^ (d - i) * _ at h1
    have hy : ∀ j < d, yv (mpfr P) (initDelta (mpfr P) P rho d (muOf s) (rOf s) r53) ((mpfr P).ru m) j ≤
        gg ^ j * yv (mpfr P) (initDelta (mpfr P) P rho d (muOf s) (rOf s) r53) ((mpfr P).ru m) 0 := by
      intro j
      induction j with
      | zero => intro _; simp
      | succ j ih =>
        intro hj
        have k1 := ht.y_step hF hA hmd0 (i := j) hj
        have k2 := ih (by omega)
        obtain ⟨k3, -⟩ := ht.y_sq hF hA hmd0 (i := j) (by change j < d; omega)
        rw [pow_succ']
        have : (2349 / 2000 : ℚ) ≤ gg := by norm_num [gg]
        have k4 := mul_le_mul_of_nonneg_right this k3.le
        have k5 := mul_le_mul_of_nonneg_left k2 gg_pos.le
        linarith
    obtain ⟨y0, -, y2⟩ := ht.y_sq hF hA hmd0 (i := 0) hd0
    change rOf s 0 * _ ≤ _ at y2
    have hy1 : yv (mpfr P) (initDelta (mpfr P) P rho d (muOf s) (rOf s) r53) ((mpfr P).ru m) 0 ≤ 11 / 10 := by
      generalize yv (mpfr P) (initDelta (mpfr P) P rho d (muOf s) (rOf s) r53) ((mpfr P).ru m) 0 = y at *
      have k1 : normStar n (basisQ b) 0 * (y * y) * (199999 / 200000) ≤ rOf s 0 * (y * y) := by
        have : normStar n (basisQ b) 0 * (199999 / 200000) ≤ rOf s 0 := by linarith
        have := mul_le_mul_of_nonneg_right this (mul_self_nonneg y)
        linarith
      have k2 : normStar n (basisQ b) 0 * (y * y) ≤ normStar n (basisQ b) 0 * (101 / 100) := by linarith
      have k3 := le_of_mul_le_mul_left k2 hpos0
      nlinarith
    have h2 := hy i hi
    have hg := gg_pow (d - i)
    have hgi := gg_pow i
    have h3 : gg ^ (d - i) * yv (mpfr P) (initDelta (mpfr P) P rho d (muOf s) (rOf s) r53) ((mpfr P).ru m) i ≤ gg ^ d * (11 / 10) := by
      have k1 := mul_le_mul_of_nonneg_left h2 (by linarith : 0 ≤ gg ^ (d - i))
      have k2 := mul_le_mul_of_nonneg_left hy1 (by have := gg_pow d; linarith : 0 ≤ gg ^ d)
      rw [← mul_assoc, ← pow_add, show d - i + i = d by omega] at k1
      exact k1.trans k2
    have : (2 : ℚ) ^ 53 = 9007199254740992 := by norm_num
    rw [this]
    linarith
  · -- the loss by rounding to nearest
    change (1 - loss (1 - 1 / 2 ^ P) d) * q.2 ≤ loss (1 - 1 / 2 ^ P) d * (hu * _)
    have hPpos : (0 : ℚ) < 2 ^ P := by positivity
    have hbern : 1 - (2 * d - 1) * (1 / 2 ^ P) ≤ loss (1 - 1 / 2 ^ P) d := by
      have h53 : (1 : ℚ) / 2 ^ P ≤ 1 := by
        rw [div_le_one hPpos]; exact one_le_pow₀ (by norm_num)
      have := one_add_mul_le_pow (a := -(1 / 2 ^ P : ℚ)) (by linarith) (2 * d - 1)
      unfold loss
      rw [Nat.cast_sub (by omega)] at this
      push_cast at this
      have e : (1 : ℚ) - 1 / 2 ^ P = 1 + -(1 / 2 ^ P) := by ring
      rw [e]
      linarith
    have hsm : (2 * d - 1) * (1 / (2 : ℚ) ^ P) ≤ 1 / 2 := by
      have h1 : (1 : ℚ) / 2 ^ P ≤ 1 / 2 ^ 53 := one_div_le_one_div_of_le (by norm_num) (pow_le_pow_right₀ (by norm_num) hP)
      have h2 : (d : ℚ) ≤ 52 := by exact_mod_cast (by omega : d ≤ 52)
      have h3 : (2 * d - 1) * (1 / (2 : ℚ) ^ P) ≤ 103 * (1 / 2 ^ 53) := mul_le_mul (by linarith) h1 (by positivity) (by norm_num)
      refine h3.trans (by norm_num)
    have hhu := hu_nonneg
    have hL0 : 0 ≤ ((7278 : ℚ) / 10000) ^ (d - 1) * normStar n (basisQ b) 0 := by positivity
    have hl1 : 1 - loss (1 - 1 / 2 ^ P) d ≤ 2 * d * (1 / 2 ^ P) := by
      have : (0 : ℚ) < 1 / 2 ^ P := by positivity
      linarith
    have hl2 : 1 / 2 ≤ loss (1 - 1 / 2 ^ P) d := by linarith
    have g1 : (1 - loss (1 - 1 / 2 ^ P) d) * q.2 ≤ 2 * d * (1 / 2 ^ P) * (1001 / 1000 * normStar n (basisQ b) 0 * relDE d) := by
      refine mul_le_mul hl1 (hde.trans (mul_le_mul_of_nonneg_right hmd2 hrel0)) hde0 (by positivity)
    have g2 : 1 / 2 * (hu * ((7278 / 10000) ^ (d - 1) * normStar n (basisQ b) 0)) ≤ loss (1 - 1 / 2 ^ P) d * (hu * ((7278 / 10000) ^ (d - 1) * normStar n (basisQ b) 0)) :=
      mul_le_mul_of_nonneg_right hl2 (mul_nonneg hhu hL0)
    refine g1.trans (le_trans ?_ g2)
    -- compare with the precision
    have key : 4 * d * relDE d * (1001 / 1000) * 2 ^ 53 ≤ 2 ^ P * (7278 / 10000) ^ (d - 1) := by
      have hβ : (0 : ℚ) ≤ (7278 / 10000) ^ (d - 1) := by positivity
      rcases r3 with h | h
      · exact h.trans (mul_le_mul_of_nonneg_right (pow_le_pow_right₀ (by norm_num) hP) hβ)
      · refine h.trans (mul_le_mul_of_nonneg_right (le_trans ?_ hpr.bits) hβ)
        have hrho := hpr.rho0
        have h3 : (3 : ℚ) ^ d ≤ rho ^ D := (pow_le_pow_left₀ (by norm_num) (by linarith) d).trans (pow_le_pow_right₀ (by linarith) hdD)
        have h4 : (d : ℚ) ^ 2 ≤ D ^ 2 := pow_le_pow_left₀ (by linarith) (by exact_mod_cast hdD) 2
        exact mul_le_mul (mul_le_mul_of_nonneg_left h4 (by norm_num)) h3 (by positivity) (by positivity)
    have e1 : 2 * (d : ℚ) * (1 / 2 ^ P) * (1001 / 1000 * normStar n (basisQ b) 0 * relDE d) =
        normStar n (basisQ b) 0 * (4 * d * relDE d * (1001 / 1000) * 2 ^ 53) * (hu / 2) / 2 ^ P := by
      unfold hu
      ring
    rw [e1, div_le_iff₀ hPpos]
    have g3 := mul_le_mul_of_nonneg_left key (mul_nonneg hpos0.le (by linarith : 0 ≤ hu / 2))
    refine le_trans (le_of_eq ?_) (g3.trans (le_of_eq ?_)) <;> ring
  · have := mul_le_mul_of_nonneg_left r1 hmd0.le
    linarith

/-- **C86.**  `shortest_vector` with the proved method, as svpcvp.cpp runs it: the precision is `max(53, 10 + gso_min_prec)`, the GSO is computed with `mpfr` numbers of that precision, the enumeration in `double` arithmetic.  For every basis of at most
52 vectors that is LLL-reduced with parameters close to (0.99, 0.51) - integers of any size - it terminates, does not call `abort()` and returns the coordinates of a shortest vector of the lattice. -/
theorem C86_shortest_vector {A : Arith} {logU logD : ℚ → ℚ} (hA : LogOK A logU logD) (hD0 : 1 ≤ D) (hD : D ≤ 52) (hn : 1 ≤ n) (hind : Indep D n (basisQ b))
    (hlll : LLLReduced n D (basisQ b) δ η) (hδ : 989 / 1000 ≤ δ) (hδ1 : δ ≤ 1) (hη : 1 / 2 ≤ η) (hη1 : η ≤ 511 / 1000) {p : ℤ}
    (hp : computeMinPrec A logU logD false D (r53 (99 / 100)) (r53 (51 / 100)) (r53 (3 / 100)) = .ok rho p) (hP : (P : ℤ) = max 53 (p + 10))
    (wu wi fl : Bool) (u v jz : Mat ℤ) (jf : Mat (Rd (rp rhe P))) {s : GSO (Rd (rp rhe P))} (hs : s = (updateGso (mk0 D n true wu wi fl b u v jz jf)).2) :
    ∃ N, ∀ fuel, N ≤ fuel → ∃ x, provedR (mpfr P) r53 toDoubleUp D (muOf s) (rOf s)
      (fun d => initDelta (mpfr P) P rho d (muOf s) (rOf s) r53) (fun i => sqLen n (b i)) (fun d x => sqLen n (comb d b x)) fuel =
        .done (some x) ∧ IsShortest D n b x := by
  have hpr := svpPrec_of_minPrec hA hp hP.ge
  obtain ⟨l1, l2, -⟩ := lastUseful_spec (rOf s) (D - 1)
  have hdD : lastUseful (rOf s) (D - 1) ≤ D := by omega
  obtain ⟨q, hq, hr0⟩ := start_of_reduced hn hind hlll hpr hδ hδ1 hη hη1 hD wu wi fl u v jz jf hs l1 hdD
  have hP53 := hpr.P53
  obtain ⟨h1, h2, h3, h4⟩ := C81_gsoErr (by omega) hn hind hlll (hpr.enough hδ hδ1 hη hη1) wu wi fl u v jz jf hdD hs
  exact C71_proved_double_initL hP53 hD0 hind (by have := hpr.rho0; linarith) rfl h1 h2 h3 h4
    (fun x hx => short_ge hind hlll hδ (by linarith) hη1 hdD x hx) hq hr0

end

end ErrB
end Fplll

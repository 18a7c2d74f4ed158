import Verif.Proofs.MpfrFine
import Verif.Props.GsoErr

/-!
# `shortest_vector` on a reduced basis in small dimension: the bounds on the errors are good enough
-/

open Finset

namespace Fplll
namespace ErrB

open Enum Spec GSO SVP

/-- what `shortest_vector` gets from `gso_min_prec` (svpcvp.cpp:103-107) -/
structure SvpPrec (D : ℕ) (rho : ℚ) (P : ℕ) : Prop where
  P53 : 53 ≤ P
  rho0 : 31649 / 10000 ≤ rho
  bits : 2 ^ 20 * D ^ 2 * rho ^ D ≤ 2 ^ P

theorem svpPrec_of_minPrec {A : Arith} {logU logD : ℚ → ℚ} (hA : LogOK A logU logD) {D : ℕ} {rho : ℚ} {p : ℤ}
    (h : computeMinPrec A logU logD false D (r53 (99 / 100)) (r53 (51 / 100)) (r53 (3 / 100)) = .ok rho p) {P : ℕ} (hP : max 53 (p + 10) ≤ (P : ℤ)) :
    SvpPrec D rho P := by
  obtain ⟨h1, h2, h3⟩ := C81_min_prec hA (by decide +kernel) (by decide +kernel) (by decide +kernel) h
  have e : epsUsed A false (r53 (99 / 100)) (r53 (51 / 100)) (r53 (3 / 100)) = r53 (3 / 100) := rfl
  rw [e] at h2 h3
  have hr : 31649 / 10000 ≤ rho := by
    refine le_trans ?_ h2
    decide +kernel
  refine ⟨by omega, hr, ?_⟩
  simp only [Bool.false_eq_true, if_false] at h3
  have k1 : (2 : ℚ) ^ p * 2 ^ 10 ≤ 2 ^ P := by
    rw [← zpow_natCast, ← zpow_natCast, ← two_zpow_add]
    exact two_zpow_le (by push_cast; omega)
  have e0 : 0 < r53 (3 / 100) := by decide +kernel
  have e1 : r53 (3 / 100) ≤ 301 / 10000 := by decide +kernel
  have x0 : 0 ≤ (D : ℚ) ^ 2 * rho ^ D := by
    have : 0 ≤ rho := by linarith
    positivity
  have k2 : 32 * (D : ℚ) ^ 2 * rho ^ D / (301 / 10000) ≤ 32 * D ^ 2 * rho ^ D / r53 (3 / 100) :=
    div_le_div_of_nonneg_left (by linarith) e0 e1
  have k3 : (32 * (D : ℚ) ^ 2 * rho ^ D) / (301 / 10000) * 2 ^ 10 ≤ 2 ^ P := by
    refine le_trans ?_ k1
    exact mul_le_mul_of_nonneg_right (k2.trans h3) (by norm_num)
  refine le_trans ?_ k3
  norm_num
  linarith

namespace SvpPrec
variable {D P : ℕ} {rho : ℚ}

theorem enough (h : SvpPrec D rho P) {δ η : ℚ} (hδ : 989 / 1000 ≤ δ) (hδ1 : δ ≤ 1) (hη : 1 / 2 ≤ η) (hη1 : η ≤ 511 / 1000) :
    EnoughPrec δ η (1 / 50) D rho P := by
  have hsq : η ^ 2 ≤ 261121 / 1000000 := by nlinarith
  have hden : 727879 / 1000000 ≤ δ - η ^ 2 := by linarith
  refine ⟨hη, by norm_num, by linarith, hδ1, by linarith, ?_, ?_⟩
  · refine le_trans ?_ h.rho0
    rw [div_le_iff₀ (by linarith)]
    nlinarith
  · have := h.bits
    have x0 : 0 ≤ (D : ℚ) ^ 2 * rho ^ D := by
      have : 0 ≤ rho := by have := h.rho0; linarith
      positivity
    rw [div_le_iff₀ (by norm_num)]
    linarith

/-- the error of `mu(., i)`, times the growth up to the last level -/
theorem err (h : SvpPrec D rho P) {d : ℕ} (hd : d ≤ D) {i : ℕ} (hi : i < d) :
    gg ^ (d - (i + 1)) * (d * rho ^ (i + 1) * 2 ^ (4 - (P : ℤ))) ≤ 1 / (65536 * d) := by
  have hr := h.rho0
  have z4 : ((2 : ℚ) ^ (4 - (P : ℤ))) = 16 * (1 / 2 ^ P) := by rw [zpow_sub₀ (by norm_num), zpow_natCast]; norm_num [div_eq_mul_inv]
  have hd0 : (1 : ℚ) ≤ d := by exact_mod_cast (by omega : 1 ≤ d)
  have hdD : (d : ℚ) ≤ D := by exact_mod_cast hd
  have h1 : gg ^ (d - (i + 1)) * rho ^ (i + 1) ≤ rho ^ D := by
    calc gg ^ (d - (i + 1)) * rho ^ (i + 1) ≤ rho ^ (d - (i + 1)) * rho ^ (i + 1) :=
          mul_le_mul_of_nonneg_right (pow_le_pow_left₀ gg_pos.le (by unfold gg; linarith) _) (pow_nonneg (by linarith) _)
      _ = rho ^ d := by rw [← pow_add]; congr 1; omega
      _ ≤ rho ^ D := pow_le_pow_right₀ (by linarith) hd
  rw [z4]
  have hb := h.bits
  have hP : (0 : ℚ) < 2 ^ P := by positivity
  have h2 : gg ^ (d - (i + 1)) * (d * rho ^ (i + 1) * (16 * (1 / 2 ^ P))) = 16 * d * (gg ^ (d - (i + 1)) * rho ^ (i + 1)) / 2 ^ P := by ring
  rw [h2, div_le_div_iff₀ hP (by positivity)]
  have h3 : 16 * (d : ℚ) * (gg ^ (d - (i + 1)) * rho ^ (i + 1)) ≤ 16 * d * rho ^ D := mul_le_mul_of_nonneg_left h1 (by positivity)
  have hrD : 0 ≤ rho ^ D := by
    have : 0 ≤ rho := by linarith
    positivity
  have h4 : (d : ℚ) * d ≤ D ^ 2 := by nlinarith
  have h5 := mul_le_mul_of_nonneg_right h4 hrD
  have h6 := mul_le_mul_of_nonneg_right h3 (show (0 : ℚ) ≤ 65536 * d by positivity)
  linarith

theorem err' (h : SvpPrec D rho P) {d : ℕ} (hd : d ≤ D) {i : ℕ} (hi : i < d) :
    0 ≤ d * rho ^ (i + 1) * 2 ^ (4 - (P : ℤ)) ∧ d * rho ^ (i + 1) * 2 ^ (4 - (P : ℤ)) ≤ 1 / (65536 * d) := by
  have hr := h.rho0
  have h0 : 0 ≤ d * rho ^ (i + 1) * 2 ^ (4 - (P : ℤ)) :=
    mul_nonneg (mul_nonneg (Nat.cast_nonneg d) (pow_nonneg (by linarith) _)) (two_zpow_pos _).le
  exact ⟨h0, (le_mul_of_one_le_left h0 (gg_pow _)).trans (h.err hd hi)⟩

end SvpPrec

theorem four_of_two (P : ℕ) : (2 : ℚ) ^ (2 - (P : ℤ)) = 2 ^ (4 - (P : ℤ)) / 4 := by
  rw [show 4 - (P : ℤ) = (2 - P) + 2 by ring, two_zpow_add]; norm_num

/-- the bounds set by `init_delta_def` -/
theorem initDm_le {P : ℕ} (hP : 53 ≤ P) {rho : ℚ} (hr : 0 ≤ rho) (d i : ℕ) :
    0 ≤ initDm (mpfr P) P rho d true i ∧ initDm (mpfr P) P rho d true i ≤ vv ^ 3 * (d * rho ^ (i + 1) * 2 ^ (4 - (P : ℤ)) + hu) := by
  have hF := mpfr_fine hP
  have hA := mpfr_ok hP
  have h0 : (0 : ℚ) ≤ d * 2 ^ (4 - (P : ℤ)) := mul_nonneg (Nat.cast_nonneg d) (two_zpow_pos _).le
  have h := (((Nr.refl h0).mul ((Nr.refl (pow_nonneg hr (i + 1))).ru hF hA)).ru hF hA).add Nr.hu |>.ru hF hA
  refine ⟨h.1, ?_⟩
  have := h.2
  unfold initDm
  simp only [if_true]
  refine this.trans (le_of_eq ?_)
  have e : max (0 + (0 + 1) + 1) 0 + 1 = 3 := by norm_num
  rw [e]
  ring

theorem initDr_le {P : ℕ} (hP : 53 ≤ P) {rho : ℚ} (hr : 0 ≤ rho) (d i : ℕ) {rj : ℚ} (hj : 0 < rj) {x : ℚ}
    (hx : x = d * rho ^ (i + 1) * 2 ^ (4 - (P : ℤ))) (hx1 : x ≤ 1 / 65536) :
    0 ≤ initDr (mpfr P) P rho d rj true i ∧ initDr (mpfr P) P rho d rj true i ≤ rj * (x + 2 * hu) := by
  have hF := mpfr_fine hP
  have hA := mpfr_ok hP
  have h0 : (0 : ℚ) ≤ d * 2 ^ (2 - (P : ℤ)) := mul_nonneg (Nat.cast_nonneg d) (two_zpow_pos _).le
  have hm := ((Nr.refl h0).mul ((Nr.refl (pow_nonneg hr (i + 1))).ru hF hA)).ru hF hA
  have e1 : (d : ℚ) * 2 ^ (2 - (P : ℤ)) * rho ^ (i + 1) = x / 4 := by rw [hx, four_of_two]; ring
  rw [e1] at hm
  change Nr _ (maxRelDR (mpfr P) P rho d i) _ at hm
  have hx0 : 0 ≤ x := by
    have := hm.nonneg
    linarith
  have hm1 : maxRelDR (mpfr P) P rho d i ≤ 1001 / 1000 * (x / 4) := by
    refine (hm.le_ww (by norm_num)).trans (mul_le_mul_of_nonneg_right (by norm_num [ww]) (by linarith))
  have hm0 := hm.1
  unfold initDr
  simp only [if_true]
  generalize maxRelDR (mpfr P) P rho d i = m at *
  have hrd := hF.rd (1 - m) (by linarith)
  have hrd1 : 99 / 100 ≤ (mpfr P).rd (1 - m) := by
    refine le_trans ?_ hrd
    have : (1 - 1 / 2 ^ 50 : ℚ) = 1125899906842623 / 1125899906842624 := by norm_num
    rw [this]; linarith
  have hdiv : Nr 0 (m / (mpfr P).rd (1 - m)) (m / (99 / 100)) :=
    Nr.of_le (div_nonneg hm0 (by linarith)) (div_le_div_of_nonneg_left hm0 (by norm_num) hrd1)
  have h := ((((hdiv.ru hF hA).mul (Nr.refl hj.le)).rn hF hA).add ((Nr.refl hj.le).mul Nr.hu)).ru hF hA
  refine ⟨h.1, (h.le_ww (by norm_num)).trans ?_⟩
  have h1 : ww * (m / (99 / 100) * rj + rj * hu) = rj * (ww * (m / (99 / 100) + hu)) := by ring
  rw [h1]
  refine mul_le_mul_of_nonneg_left ?_ hj.le
  have hhu := hu_nonneg
  have h2 : ww * (m / (99 / 100) + hu) ≤ 1001 / 1000 * (m / (99 / 100) + hu) :=
    mul_le_mul_of_nonneg_right (by norm_num [ww]) (by positivity)
  linarith

section
variable {δ η rho : ℚ} {D P n : ℕ} {b : Mat ℤ}

theorem lovasz_step (hlll : LLLReduced n D (basisQ b) δ η) (hδ : 989 / 1000 ≤ δ) (hη : 0 ≤ η) (hη1 : η ≤ 511 / 1000) {i : ℕ} (hi : i + 1 < D)
    (hp : 0 ≤ normStar n (basisQ b) i) : 7278 / 10000 * normStar n (basisQ b) i ≤ normStar n (basisQ b) (i + 1) := by
  have h1 := hlll.2 i hi
  have h2 := hlll.1 (i + 1) hi i (by omega)
  have h3 : muS n (basisQ b) (i + 1) i ^ 2 ≤ 261121 / 1000000 := by
    rw [← sq_abs]
    have := abs_nonneg (muS n (basisQ b) (i + 1) i)
    nlinarith
  have h4 := mul_le_mul_of_nonneg_right h3 hp
  have h5 := mul_le_mul_of_nonneg_right hδ hp
  linarith

theorem tame_of_reduced (hn : 1 ≤ n) (hind : Indep D n (basisQ b)) (hlll : LLLReduced n D (basisQ b) δ η) (hpr : SvpPrec D rho P)
    (hδ : 989 / 1000 ≤ δ) (hδ1 : δ ≤ 1) (hη : 1 / 2 ≤ η) (hη1 : η ≤ 511 / 1000) (hD : D ≤ 52) (wu wi fl : Bool) (u v jz : Mat ℤ)
    (jf : Mat (Rd (rp rhe P))) {s : GSO (Rd (rp rhe P))} (hs : s = (updateGso (mk0 D n true wu wi fl b u v jz jf)).2) {d : ℕ} (hd0 : 0 < d) (hdD : d ≤ D) :
    Tame (mpfr P) (initDelta (mpfr P) P rho d (muOf s) (rOf s) r53) (1 / (65000 * d)) ∧
      ∀ i < d, |rOf s i - normStar n (basisQ b) i| ≤ 1 / 200000 * normStar n (basisQ b) i := by
  have hP := hpr.P53
  have he := hpr.enough hδ hδ1 hη hη1
  obtain ⟨-, herr⟩ := C81_gso_error (by omega) hn hind hlll he wu wi fl u v jz jf
  rw [← hs] at herr
  have hrho := hpr.rho0
  have hd1 : (1 : ℚ) ≤ d := by exact_mod_cast hd0
  have hx : ∀ i < d, 0 ≤ d * rho ^ (i + 1) * 2 ^ (4 - (P : ℤ)) ∧ d * rho ^ (i + 1) * 2 ^ (4 - (P : ℤ)) ≤ 1 / (65536 * d) := fun i hi => hpr.err' hdD hi
  have h65 : (1 : ℚ) / (65536 * d) ≤ 1 / 65536 := by
    refine one_div_le_one_div_of_le (by norm_num) (by linarith)
  have hpos : ∀ i < d, 0 < normStar n (basisQ b) i := fun i hi => hind.pos i (by omega)
  have hnear : ∀ i < d, |rOf s i - normStar n (basisQ b) i| ≤ 1 / 200000 * normStar n (basisQ b) i := by
    intro i hi
    obtain ⟨x, hx', hb⟩ := (herr d hdD i hi).1 i le_rfl
    have : rOf s i = x := by unfold rOf; rw [hx']; rfl
    rw [this]
    rw [rS_self] at hb
    refine hb.trans (mul_le_mul_of_nonneg_right ?_ (hpos i hi).le)
    rw [four_of_two]
    have := hx i hi
    have e : (d : ℚ) * rho ^ (i + 1) * (2 ^ (4 - (P : ℤ)) / 4) = d * rho ^ (i + 1) * 2 ^ (4 - (P : ℤ)) / 4 := by ring
    rw [e]
    linarith [this.1, this.2]
  have hrpos : ∀ i < d, 0 < rOf s i := fun i hi => by
    have := (abs_le.1 (hnear i hi)).1
    have := hpos i hi
    linarith
  have hmu : ∀ i j, i < j → j < d → |muOf s j i| ≤ 511 / 1000 + 1 / 65536 := by
    intro i j hij hj
    obtain ⟨x, hx', hb, -⟩ := (herr d hdD j hj).2 i hij
    have e : muOf s j i = x := by unfold muOf; rw [hx']; rfl
    rw [e]
    have h1 := hlll.1 j (by omega) i hij
    have h2 := abs_sub_abs_le_abs_sub x (muS n (basisQ b) j i)
    have h3 := (hx i (by omega)).2
    linarith
  have hhu0 := hu_nonneg
  have hhu : hu ≤ 1 / 10 ^ 15 := by norm_num [hu]
  have hv3 : vv ^ 3 ≤ 10001 / 10000 := by norm_num [vv]
  have hdmle : ∀ i < d, initDm (mpfr P) P rho d true i ≤ 1 / 65000 := by
    intro i hi
    refine (initDm_le hP (by linarith) d i).2.trans ?_
    have h1 := hx i hi
    have : d * rho ^ (i + 1) * 2 ^ (4 - (P : ℤ)) + hu ≤ 1 / 65536 + 1 / 10 ^ 15 := by linarith [h1.2]
    refine (mul_le_mul hv3 this (by linarith [h1.1]) (by norm_num)).trans (by norm_num)
  refine ⟨?_, hnear⟩
  refine ⟨?_, by change d ≤ 64; omega, by positivity, ?_, fun i hi => hrpos i hi, fun i hi => ?_, fun i hi => ?_, fun i hi => ?_, fun i hi => ?_, fun i hi => ?_, fun i j hij hj => ?_, fun i j hij hj => ?_,
    fun i hi => ?_, fun i hi => ?_⟩
  · change gg ^ d * (hu * (d + 3)) ≤ 13 / 200
    have h1 : gg ^ d ≤ gg ^ 52 := pow_le_pow_right₀ (by norm_num [gg]) (by omega)
    have h2 : (d : ℚ) + 3 ≤ 55 := by
      have : (d : ℚ) ≤ 52 := by exact_mod_cast (by omega : d ≤ 52)
      linarith
    have h3 : hu * (d + 3) ≤ hu * 55 := mul_le_mul_of_nonneg_left h2 hhu0
    refine (mul_le_mul h1 h3 (by positivity) (by have := gg_pow 52; linarith)).trans ?_
    decide +kernel
  · rw [div_le_div_iff₀ (by positivity) (by norm_num)]; linarith
  · exact (initDr_le hP (by linarith) d i (hrpos i hi) rfl ((hx i hi).2.trans h65)).1
  · change initDr (mpfr P) P rho d (rOf s i) true i ≤ rOf s i * _
    refine (initDr_le hP (by linarith) d i (hrpos i hi) rfl ((hx i hi).2.trans h65)).2.trans ?_
    refine mul_le_mul_of_nonneg_left ?_ (hrpos i hi).le
    have h1 := (hx i hi).2
    have h2 : (1 : ℚ) / (65536 * d) ≤ 1 / (65000 * d) := one_div_le_one_div_of_le (by positivity) (by linarith)
    linarith
  · change i + 1 < d at hi
    have h1 := lovasz_step hlll hδ (by linarith) hη1 (i := i) (by omega) (hpos i (by omega)).le
    have h2 := (abs_le.1 (hnear i (by omega))).2
    have h3 := (abs_le.1 (hnear (i + 1) hi)).1
    have h4 := hpos i (by omega)
    change rOf s i ≤ 11 / 8 * rOf s (i + 1)
    linarith
  · exact (initDm_le hP (by linarith) d i).1
  · change gg ^ (d - (i + 1)) * initDm (mpfr P) P rho d true i ≤ _ + 2 * (gg ^ (d - (i + 1)) * hu)
    have h1 := (initDm_le hP (by linarith : 0 ≤ rho) d i).2
    have h2 := hpr.err hdD hi
    have hg := gg_pow (d - (i + 1))
    have h3 := mul_le_mul_of_nonneg_left h1 (by linarith : 0 ≤ gg ^ (d - (i + 1)))
    refine h3.trans ?_
    have h4 : gg ^ (d - (i + 1)) * (vv ^ 3 * (d * rho ^ (i + 1) * 2 ^ (4 - (P : ℤ)) + hu)) =
        vv ^ 3 * (gg ^ (d - (i + 1)) * (d * rho ^ (i + 1) * 2 ^ (4 - (P : ℤ)))) + vv ^ 3 * (gg ^ (d - (i + 1)) * hu) := by ring
    rw [h4]
    have h5 : vv ^ 3 * (gg ^ (d - (i + 1)) * (d * rho ^ (i + 1) * 2 ^ (4 - (P : ℤ)))) ≤ 10001 / 10000 * (1 / (65536 * d)) :=
      mul_le_mul hv3 h2 (mul_nonneg (by linarith) (hx i hi).1) (by norm_num)
    have h6 : vv ^ 3 * (gg ^ (d - (i + 1)) * hu) ≤ 2 * (gg ^ (d - (i + 1)) * hu) :=
      mul_le_mul_of_nonneg_right (by linarith) (mul_nonneg (by linarith) hhu0)
    have h7 : 10001 / 10000 * ((1 : ℚ) / (65536 * d)) ≤ 1 / (65000 * d) := by
      rw [mul_one_div, div_le_div_iff₀ (by positivity) (by positivity)]; nlinarith
    change _ ≤ 1 / (65000 * (d : ℚ)) + _
    linarith
  · change (mpfr P).ru (|muOf s j i| + initDm (mpfr P) P rho d true i) ≤ _
    have h1 := hmu i j hij hj
    have h2 := hdmle i (by change j < d at hj; omega)
    have h3 := (initDm_le hP (by linarith : 0 ≤ rho) d i).1
    refine ((mpfr_fine hP).ru _ (by positivity)).trans ?_
    have : |muOf s j i| + initDm (mpfr P) P rho d true i ≤ 5111 / 10000 := by linarith
    refine (mul_le_mul_of_nonneg_left this vv_pos.le).trans (by norm_num [vv])
  · change |r53 (muOf s j i)| ≤ _
    have h1 := hmu i j hij hj
    have h2 := rndU_r53.arg (muOf s j i)
    have h3 := abs_sub_abs_le_abs_sub (r53 (muOf s j i)) (muOf s j i)
    have h4 := mul_le_mul hhu h1 (abs_nonneg _) (by norm_num)
    linarith
  · change 0 ≤ r53 (rOf s i)
    exact rndU_r53.toRnd.nonneg (hrpos i hi).le
  · change r53 (rOf s i) ≤ vv * rOf s i
    have h2 := rndU_r53.arg (rOf s i)
    have h3 := hrpos i hi
    rw [abs_of_pos h3] at h2
    have h4 := (abs_le.1 h2).2
    have h5 := mul_le_mul_of_nonneg_right (show hu ≤ 1 / 2 ^ 50 by norm_num [hu]) h3.le
    unfold vv
    linarith

end

end ErrB
end Fplll

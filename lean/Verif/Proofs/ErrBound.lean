import Verif.Model.ErrBound
import Verif.Spec.Enum
import Verif.Base.LoopsDown

/-!
# The error bound of the enumeration: proofs
-/

open Finset

namespace Fplll
namespace ErrB

open Enum (Rnd)

theorem hu_pos : 0 < hu := by norm_num [hu]
theorem hu_nonneg : 0 ≤ hu := hu_pos.le

/-- rounding to `double`: the error is at most `2^-53` of the argument and of the result -/
structure RndU (fl : ℚ → ℚ) : Prop extends Rnd fl where
  arg : ∀ t, |fl t - t| ≤ hu * |t|
  res : ∀ t, |fl t - t| ≤ hu * |fl t|

/-- what is needed of the arithmetic; `ρ` is the accuracy of the operations rounded to nearest.  Rounding down may not
go below an integer that can be stored in a `double`. -/
structure ArithOK (A : Arith) (ρ : ℚ) : Prop where
  ρ0 : 0 < ρ
  ρ1 : ρ ≤ 1
  ru : ∀ t, t ≤ A.ru t
  rd : ∀ t, A.rd t ≤ t
  rdInt : ∀ (z : ℤ) t, |z| ≤ 2 ^ 53 → (z : ℚ) ≤ t → (z : ℚ) ≤ A.rd t
  sq0 : ∀ t, 0 ≤ A.sqrtU t
  sq : ∀ t, 0 ≤ t → t ≤ A.sqrtU t * A.sqrtU t
  rn : ∀ t, 0 ≤ t → ρ * t ≤ A.rn t

/-- what the evaluator is given: `mu`, `r` are the Gram–Schmidt data, `q.mu`, `q.r` the computed ones; `dm`, `dr`
bound their errors before and after rounding to `double` -/
structure DatOK (q : Dat) (fl : ℚ → ℚ) (mu : ℕ → ℕ → ℚ) (r : ℕ → ℚ) : Prop where
  getD : q.getD = fl
  hmu : ∀ i j, i < j → j < q.d → |q.mu j i - mu j i| ≤ q.dm i
  hmuD : ∀ i j, i < j → j < q.d → |fl (q.mu j i) - mu j i| ≤ q.dm i
  hr : ∀ i, i < q.d → |q.r i - r i| ≤ q.dr i
  hrD : ∀ i, i < q.d → |fl (q.r i) - r i| ≤ q.dr i
  rpos : ∀ i, i < q.d → 0 < r i
  qpos : ∀ i, i < q.d → 0 < q.r i

variable {A : Arith} {ρ : ℚ}

theorem ArithOK.nonneg (h : ArithOK A ρ) {t : ℚ} (ht : 0 ≤ t) : 0 ≤ A.ru t := ht.trans (h.ru t)

theorem ArithOK.K (h : ArithOK A ρ) : 1 + hu ≤ bigK A := h.ru _

theorem ArithOK.K1 (h : ArithOK A ρ) : 1 ≤ bigK A := by linarith [h.K, hu_pos]

theorem ArithOK.K0 (h : ArithOK A ρ) : 0 ≤ bigK A := by linarith [h.K1]

theorem ArithOK.rn0 (h : ArithOK A ρ) {t : ℚ} (ht : 0 ≤ t) : 0 ≤ A.rn t :=
  (mul_nonneg h.ρ0.le ht).trans (h.rn t ht)

theorem shrink {k a b : ℚ} (hk : k ≤ 1) (ha : 0 ≤ a) (h : a ≤ b) : k * a ≤ b :=
  ((mul_le_mul_of_nonneg_right hk ha).trans (one_mul a).le).trans h

/-- `a ≤ b·(1 + hu)` where the code multiplies by `K` -/
theorem ArithOK.mulK (h : ArithOK A ρ) {a b : ℚ} (hb : 0 ≤ b) (hab : a ≤ hu * b + b) : a ≤ A.ru (b * bigK A) := by
  refine le_trans ?_ (h.ru _)
  have := mul_le_mul_of_nonneg_left h.K hb
  linarith

theorem ArithOK.leK (h : ArithOK A ρ) {b : ℚ} (hb : 0 ≤ b) : b ≤ b * bigK A :=
  le_mul_of_one_le_right hb h.K1

/-! ## The centres -/

/-- exact centre: `∑_{l ≥ m} mu_{li} x_l` (its sign is opposite to that of `center`) -/
def cE (d : ℕ) (mu : ℕ → ℕ → ℚ) (v : ℕ → ℤ) (i m : ℕ) : ℚ := ∑ l ∈ Ico m d, (v l : ℚ) * mu l i

/-- computed centre -/
def cT (d : ℕ) (fl : ℚ → ℚ) (mu : ℕ → ℕ → ℚ) (v : ℕ → ℤ) (i m : ℕ) : ℚ :=
  forDown m d (fun l a => fl (a - fl (v l * fl (mu l i)))) 0

/-- the bounds hold for the centres of level `i` summed down to `m` -/
structure CInv (q : Dat) (fl : ℚ → ℚ) (mu : ℕ → ℕ → ℚ) (v : ℕ → ℤ) (i m : ℕ) (c : ℚ) (w : CAcc) : Prop where
  hc : |cE q.d mu v i m| ≤ w.c
  ct : |cT q.d fl q.mu v i m| ≤ w.ct
  dc0 : 0 ≤ w.dc
  dc : c * |cT q.d fl q.mu v i m + cE q.d mu v i m| ≤ w.dc

theorem cBody_inv (hA : ArithOK A ρ) {q : Dat} {fl : ℚ → ℚ} {mu : ℕ → ℕ → ℚ} {r : ℕ → ℚ} (hfl : RndU fl)
    (hq : DatOK q fl mu r) {v : ℕ → ℤ} {X : ℕ → ℚ} {i j : ℕ} (hij : i < j) (hj : j < q.d) (hX : |(v j : ℚ)| ≤ X j)
    {c : ℚ} (hc0 : 0 ≤ c) (hc1 : c ≤ 1) {w : CAcc} (h : CInv q fl mu v i (j + 1) c w) :
    CInv q fl mu v i j (ρ * c) (cBody A q X i j w) := by
  have hu0 := hu_nonneg
  have hK := hA.K
  have hK1 := hA.K1
  have hX0 := (abs_nonneg _).trans hX
  have e1 : cE q.d mu v i j = v j * mu j i + cE q.d mu v i (j + 1) := by
    rw [cE, sum_eq_sum_Ico_succ_bot hj]; rfl
  have e2 : cT q.d fl q.mu v i j = fl (cT q.d fl q.mu v i (j + 1) - fl (v j * fl (q.mu j i))) := by
    rw [cT, forDown_bot hj]; rfl
  have hm1 := hq.hmu i j hij hj
  have hm2 := hq.hmuD i j hij hj
  have hdm : 0 ≤ q.dm i := (abs_nonneg _).trans hm1
  set x : ℚ := (v j : ℚ)
  set m := mu j i
  set m' := fl (q.mu j i) with hm'
  set C := cE q.d mu v i (j + 1)
  set T := cT q.d fl q.mu v i (j + 1)
  set pr := fl (x * m') with hpr
  -- the product
  have hmx : |x * m'| ≤ A.ru (|q.getD (q.mu j i)| * X j) := by
    refine le_trans ?_ (hA.ru _)
    rw [hq.getD, abs_mul, mul_comm]
    exact mul_le_mul_of_nonneg_left hX (abs_nonneg _)
  set mx := A.ru (|q.getD (q.mu j i)| * X j)
  have hmx0 : 0 ≤ mx := (abs_nonneg _).trans hmx
  have hp1 : |pr - x * m'| ≤ hu * mx := (hfl.arg _).trans (mul_le_mul_of_nonneg_left hmx hu0)
  have hp2 : |pr| ≤ A.ru (mx * bigK A) := by
    refine hA.mulK hmx0 ?_
    have : |pr| ≤ |pr - x * m'| + |x * m'| := by
      have := abs_add_le (pr - x * m') (x * m'); rwa [sub_add_cancel] at this
    linarith
  set mx' := A.ru (mx * bigK A)
  have hmx'0 : 0 ≤ mx' := (abs_nonneg _).trans hp2
  -- the sum
  have hs1 : |T - pr| ≤ A.ru (w.ct + mx' * bigK A) := by
    refine le_trans ?_ (hA.ru _)
    have h1 : |T - pr| ≤ |T| + |pr| := abs_sub T pr
    have h2 := h.ct
    have h3 := hA.leK hmx'0
    linarith
  set ct1 := A.ru (w.ct + mx' * bigK A)
  have hct0 : 0 ≤ ct1 := (abs_nonneg _).trans hs1
  have hs2 : |fl (T - pr) - (T - pr)| ≤ hu * ct1 := (hfl.arg _).trans (mul_le_mul_of_nonneg_left hs1 hu0)
  have hdc1 : ρ * (w.dc + q.dm i * X j) ≤ A.rn (w.dc + q.dm i * X j) :=
    hA.rn _ (add_nonneg h.dc0 (mul_nonneg hdm hX0))
  set dc1 := A.rn (w.dc + q.dm i * X j)
  have hdc10 : 0 ≤ dc1 := hA.rn0 (add_nonneg h.dc0 (mul_nonneg hdm hX0))
  have hdc2 := hA.ru (dc1 + mx * hu)
  set dc2 := A.ru (dc1 + mx * hu)
  have hdc3 := hA.ru (dc2 + ct1 * hu)
  refine ⟨?_, ?_, ?_, ?_⟩
  · -- exact centre
    change |cE q.d mu v i j| ≤ A.ru (w.c + A.ru (|q.mu j i| + q.dm i) * X j)
    rw [e1]
    refine le_trans ?_ (hA.ru _)
    have h1 : |m| ≤ A.ru (|q.mu j i| + q.dm i) := by
      refine le_trans ?_ (hA.ru _)
      have h3 := abs_sub_abs_le_abs_sub m (q.mu j i)
      rw [abs_sub_comm] at h3
      linarith
    have h2 : |x * m + C| ≤ |x| * |m| + |C| := (abs_add_le _ _).trans (by rw [abs_mul])
    have h3 : |x| * |m| ≤ X j * A.ru (|q.mu j i| + q.dm i) := mul_le_mul hX h1 (abs_nonneg _) hX0
    have h4 := h.hc
    linarith
  · change |cT q.d fl q.mu v i j| ≤ A.ru (ct1 * bigK A)
    rw [e2]
    refine hA.mulK hct0 ?_
    have : |fl (T - pr)| ≤ |fl (T - pr) - (T - pr)| + |T - pr| := by
      have := abs_add_le (fl (T - pr) - (T - pr)) (T - pr); rwa [sub_add_cancel] at this
    linarith
  · change 0 ≤ A.ru (dc2 + ct1 * hu)
    have : 0 ≤ dc2 := hA.nonneg (add_nonneg hdc10 (mul_nonneg hmx0 hu0))
    exact hA.nonneg (add_nonneg this (mul_nonneg hct0 hu0))
  · change ρ * c * |cT q.d fl q.mu v i j + cE q.d mu v i j| ≤ A.ru (dc2 + ct1 * hu)
    rw [e1, e2]
    have h1 : |x * (m' - m)| ≤ q.dm i * X j := by
      rw [abs_mul, mul_comm]
      exact mul_le_mul hm2 hX (abs_nonneg _) hdm
    have h2 : |fl (T - pr) + (x * m + C)| ≤
        |fl (T - pr) - (T - pr)| + |pr - x * m'| + |x * (m' - m)| + |T + C| := by
      have e : fl (T - pr) + (x * m + C) =
          (fl (T - pr) - (T - pr)) + (-(pr - x * m')) + (-(x * (m' - m))) + (T + C) := by ring
      rw [e]
      refine (abs_add_le _ _).trans (add_le_add_left ((abs_add_le _ _).trans ?_) _)
      rw [abs_neg (x * (m' - m))]
      refine add_le_add_left ((abs_add_le _ _).trans ?_) _
      rw [abs_neg]
    have hρ0 := hA.ρ0
    have hρc : ρ * c ≤ 1 := shrink hA.ρ1 hc0 hc1
    have hρc0 : 0 ≤ ρ * c := mul_nonneg hρ0.le hc0
    have h3 := mul_le_mul_of_nonneg_left h2 hρc0
    have h4 : ρ * c * |T + C| ≤ ρ * w.dc := by
      rw [mul_assoc]; exact mul_le_mul_of_nonneg_left h.dc hρ0.le
    have h5 : ρ * c * |x * (m' - m)| ≤ ρ * (q.dm i * X j) := by
      rw [mul_assoc]; exact mul_le_mul_of_nonneg_left (shrink hc1 (abs_nonneg _) h1) hρ0.le
    have h6 : ρ * c * |pr - x * m'| ≤ hu * mx := shrink hρc (abs_nonneg _) hp1
    have h7 : ρ * c * |fl (T - pr) - (T - pr)| ≤ hu * ct1 := shrink hρc (abs_nonneg _) hs2
    rw [mul_add, mul_add, mul_add] at h3
    rw [mul_add] at hdc1
    linarith

theorem cLoop_inv (hA : ArithOK A ρ) {q : Dat} {fl : ℚ → ℚ} {mu : ℕ → ℕ → ℚ} {r : ℕ → ℚ} (hfl : RndU fl)
    (hq : DatOK q fl mu r) {v : ℕ → ℤ} {X : ℕ → ℚ} {i : ℕ} (hi : i < q.d)
    (hX : ∀ j, i < j → j < q.d → |(v j : ℚ)| ≤ X j) :
    CInv q fl mu v i (i + 1) (ρ ^ (q.d - 1)) (cLoop A q X i) := by
  have key : ∀ n m, m + n = q.d → i + 1 ≤ m →
      CInv q fl mu v i m (ρ ^ n) (forDown m q.d (fun j w => cBody A q X i j w) ⟨0, 0, 0⟩) := by
    intro n
    induction n with
    | zero =>
      intro m hm _
      have hm : q.d ≤ m := by omega
      rw [forDown_empty hm]
      have e1 : cE q.d mu v i m = 0 := by rw [cE, Ico_eq_empty (by omega), sum_empty]
      have e2 : cT q.d fl q.mu v i m = 0 := by rw [cT, forDown_empty hm]
      refine ⟨?_, ?_, le_rfl, ?_⟩
      · rw [e1]; simp
      · rw [e2]; simp
      · rw [e1, e2]; simp
    | succ n ih =>
      intro m hm him
      rw [forDown_bot (by omega), pow_succ']
      exact cBody_inv hA hfl hq (by omega) (by omega) (hX m (by omega) (by omega)) (pow_nonneg hA.ρ0.le _)
        (pow_le_one₀ hA.ρ0.le hA.ρ1) (ih (m + 1) (by omega) (by omega))
  have h := key (q.d - (i + 1)) (i + 1) (by omega) le_rfl
  refine ⟨h.hc, h.ct, h.dc0, le_trans ?_ h.dc⟩
  exact mul_le_mul_of_nonneg_right (pow_le_pow_of_le_one hA.ρ0.le hA.ρ1 (by omega)) (abs_nonneg _)

/-! ## One level -/

/-- the bounds hold for the offset of one coordinate `x`: exact `y`, computed `y'` -/
structure YInv (c x y y' : ℚ) (w : YAcc) : Prop where
  hx : |x| ≤ w.x
  dy0 : 0 ≤ w.dy
  hdy : c * |y' - y| ≤ w.dy
  yt0 : 0 ≤ w.yt
  hyt : c * |y'| ≤ w.yt
  ht : |y| ≤ w.t ∨ |y'| ≤ w.t

theorem abs_le_of_sq_le {y a t : ℚ} (ht : 0 ≤ t) (h1 : y * y ≤ a) (h2 : a ≤ t * t) : |y| ≤ t := by
  refine abs_le_of_sq_le_sq ?_ ht
  rw [pow_two, pow_two]; exact h1.trans h2

theorem le_floor_rd (hA : ArithOK A ρ) {z : ℤ} {t : ℚ} (hz : |z| ≤ 2 ^ 53 ∨ ((⌊A.rd t⌋ : ℤ) : ℚ) < 2 ^ 53)
    (h : |(z : ℚ)| ≤ t) : |(z : ℚ)| ≤ (⌊A.rd t⌋ : ℤ) := by
  have hz' : |z| ≤ 2 ^ 53 := by
    rcases hz with hz | hz
    · exact hz
    by_contra hc
    push Not at hc
    have h1 : ((2 ^ 53 : ℤ) : ℚ) ≤ |(z : ℚ)| := by
      rw [show |(z : ℚ)| = ((|z| : ℤ) : ℚ) by push_cast; rfl]
      exact_mod_cast hc.le
    have h2 := Int.le_floor.2 (hA.rdInt (2 ^ 53) t (by norm_num) (h1.trans h))
    have h3 : ((2 ^ 53 : ℤ) : ℚ) ≤ (⌊A.rd t⌋ : ℤ) := by exact_mod_cast h2
    push_cast at h3
    linarith
  have h1 : ((|z| : ℤ) : ℚ) ≤ A.rd t := hA.rdInt |z| t (by rwa [abs_abs]) (by push_cast; exact h)
  have h2 := Int.le_floor.2 h1
  rw [show |(z : ℚ)| = ((|z| : ℤ) : ℚ) by push_cast; rfl]
  exact_mod_cast h2

/-- the branch for a bound on the exact distance -/
theorem yExact_ok (hA : ArithOK A ρ) {q : Dat} {fl : ℚ → ℚ} {mu : ℕ → ℕ → ℚ} {r : ℕ → ℚ} (hfl : RndU fl)
    (hq : DatOK q fl mu r) {v : ℕ → ℤ} {i : ℕ} (hi : i < q.d) {c : ℚ} (hc0 : 0 ≤ c) (hc1 : c ≤ 1)
    {w : CAcc} (hw : CInv q fl mu v i (i + 1) c w) {md : ℚ} (hmd : 0 ≤ md)
    (hb : (v i + cE q.d mu v i (i + 1)) * (v i + cE q.d mu v i (i + 1)) * r i ≤ md) {y : YAcc}
    (h : yExact A q md i w = some y) (hv : |v i| ≤ 2 ^ 53 ∨ y.x < 2 ^ 53) :
    YInv c (v i) (v i + cE q.d mu v i (i + 1)) (fl (v i - cT q.d fl q.mu v i (i + 1))) y := by
  have hu0 := hu_nonneg
  rw [yExact] at h
  dsimp only at h
  by_cases hm : A.rd (q.r i - q.dr i) ≤ 0
  · rw [if_pos hm] at h; cases h
  rw [if_neg hm] at h
  push Not at hm
  cases h
  set C := cE q.d mu v i (i + 1)
  set T := cT q.d fl q.mu v i (i + 1)
  set x : ℚ := (v i : ℚ)
  have hmr : A.rd (q.r i - q.dr i) ≤ r i := by
    have h1 := (abs_le.1 (hq.hr i hi)).2
    linarith [hA.rd (q.r i - q.dr i)]
  have hY : |x + C| ≤ A.sqrtU (A.ru (md / A.rd (q.r i - q.dr i))) := by
    refine abs_le_of_sq_le (a := md / A.rd (q.r i - q.dr i)) (hA.sq0 _) ?_ ?_
    · rw [le_div_iff₀ hm]
      refine le_trans ?_ hb
      exact mul_le_mul_of_nonneg_left hmr (mul_self_nonneg _)
    · refine (hA.ru _).trans (hA.sq _ ?_)
      exact hA.nonneg (div_nonneg hmd hm.le)
  set Y := A.sqrtU (A.ru (md / A.rd (q.r i - q.dr i)))
  have hY0 : 0 ≤ Y := hA.sq0 _
  have hdy : |fl (x - T) - (x + C)| ≤ hu * Y + |T + C| * (1 + hu) := by
    have h1 := hfl.arg (x - T)
    have h2 : |x - T| ≤ |x + C| + |T + C| := by
      have := abs_sub (x + C) (T + C); rwa [show x + C - (T + C) = x - T by ring] at this
    have h3 : |fl (x - T) - (x + C)| ≤ |fl (x - T) - (x - T)| + |T + C| := by
      have := abs_sub (fl (x - T) - (x - T)) (T + C)
      rwa [show fl (x - T) - (x - T) - (T + C) = fl (x - T) - (x + C) by ring] at this
    have h4 : hu * |x - T| ≤ hu * (Y + |T + C|) := mul_le_mul_of_nonneg_left (by linarith) hu0
    linarith
  have hdy' : c * |fl (x - T) - (x + C)| ≤ A.ru (A.ru (Y * hu) + w.dc * bigK A) := by
    refine le_trans ?_ (hA.ru _)
    have h1 := hA.ru (Y * hu)
    have h2 := mul_le_mul_of_nonneg_left hdy hc0
    have h3 : c * (hu * Y) ≤ Y * hu := shrink hc1 (mul_nonneg hu0 hY0) (by linarith)
    have h4 : c * |T + C| * (1 + hu) ≤ w.dc * bigK A :=
      mul_le_mul hw.dc hA.K (by linarith) hw.dc0
    rw [mul_add, ← mul_assoc c |T + C|] at h2
    linarith
  have hdy0 : 0 ≤ A.ru (A.ru (Y * hu) + w.dc * bigK A) :=
    hA.nonneg (add_nonneg (hA.nonneg (mul_nonneg hY0 hu0)) (mul_nonneg hw.dc0 hA.K0))
  refine ⟨?_, hdy0, hdy', ?_, ?_, .inl hY⟩
  · refine le_floor_rd hA hv ?_
    have : |x| ≤ |x + C| + |C| := by
      have := abs_sub (x + C) C; rwa [add_sub_cancel_right] at this
    have := hw.hc
    linarith
  · exact hA.nonneg (add_nonneg hY0 hdy0)
  · refine le_trans ?_ (hA.ru _)
    have h1 : |fl (x - T)| ≤ |fl (x - T) - (x + C)| + |x + C| := by
      have := abs_add_le (fl (x - T) - (x + C)) (x + C); rwa [sub_add_cancel] at this
    have h2 := mul_le_mul_of_nonneg_left h1 hc0
    have h3 : c * |x + C| ≤ Y := shrink hc1 (abs_nonneg _) hY
    rw [mul_add] at h2
    linarith

/-- the branch for a bound on the computed distance -/
theorem yComp_ok (hA : ArithOK A ρ) {q : Dat} {fl : ℚ → ℚ} {mu : ℕ → ℕ → ℚ} {r : ℕ → ℚ} (hfl : RndU fl)
    (hq : DatOK q fl mu r) {v : ℕ → ℤ} {i : ℕ} (hi : i < q.d) {c : ℚ} (hc0 : 0 ≤ c) (hc1 : c ≤ 1)
    {w : CAcc} (hw : CInv q fl mu v i (i + 1) c w) {md : ℚ} (hmd : 0 ≤ md) {y' : ℚ}
    (hy' : y' = fl (v i - cT q.d fl q.mu v i (i + 1))) (hb : fl (fl (y' * y') * fl (q.r i)) ≤ md)
    (hv : |v i| ≤ 2 ^ 53 ∨ (yComp A q md i w).x < 2 ^ 53) :
    YInv c (v i) (v i + cE q.d mu v i (i + 1)) y' (yComp A q md i w) := by
  have hu0 := hu_nonneg
  set C := cE q.d mu v i (i + 1)
  set T := cT q.d fl q.mu v i (i + 1)
  set x : ℚ := (v i : ℚ)
  have hrp : 0 < fl (q.r i) := hfl.toRnd.pos (hq.qpos i hi)
  have hw0 : 0 ≤ fl (y' * y') := hfl.toRnd.nonneg (mul_self_nonneg _)
  -- the two roundings of the products
  have k1 : fl (y' * y') * fl (q.r i) ≤ (1 + hu) * md := by
    have h1 := hfl.res (fl (y' * y') * fl (q.r i))
    have h0 : 0 ≤ fl (fl (y' * y') * fl (q.r i)) := hfl.toRnd.nonneg (mul_nonneg hw0 hrp.le)
    rw [abs_of_nonneg h0] at h1
    have h2 := (abs_le.1 h1).1
    have h3 := mul_le_mul_of_nonneg_left hb hu0
    linarith
  have k2 : fl (y' * y') ≤ A.ru (A.ru (md * bigK A) / q.getD (q.r i)) := by
    refine le_trans ?_ (hA.ru _)
    rw [hq.getD, le_div_iff₀ hrp]
    refine k1.trans (le_trans ?_ (hA.ru _))
    have := mul_le_mul_of_nonneg_left hA.K hmd
    linarith
  set t1 := A.ru (A.ru (md * bigK A) / q.getD (q.r i))
  have ht10 : 0 ≤ t1 := hw0.trans k2
  have hY : |y'| ≤ A.sqrtU (A.ru (t1 * bigK A)) := by
    refine abs_le_of_sq_le (a := A.ru (t1 * bigK A)) (hA.sq0 _) ?_ ?_
    · refine hA.mulK ht10 ?_
      have h1 := hfl.res (y' * y')
      rw [abs_of_nonneg hw0] at h1
      have h2 := (abs_le.1 h1).1
      have h3 := mul_le_mul_of_nonneg_left k2 hu0
      linarith
    · exact hA.sq _ (hA.nonneg (mul_nonneg ht10 hA.K0))
  set Y := A.sqrtU (A.ru (t1 * bigK A)) with hYdef
  have hY0 : 0 ≤ Y := hA.sq0 _
  have hres : |y' - (x - T)| ≤ hu * Y := by
    rw [hy'] at hY ⊢
    exact (hfl.res _).trans (mul_le_mul_of_nonneg_left hY hu0)
  change YInv c x (x + C) y' ⟨Y, A.ru (A.ru (Y * hu) + w.dc), ⌊A.rd (w.ct + Y * bigK A)⌋, Y⟩
  refine ⟨?_, ?_, ?_, hY0, shrink hc1 (abs_nonneg _) hY, .inr hY⟩
  · refine le_floor_rd hA hv ?_
    have h1 : |x| ≤ |y' - (x - T)| + |y'| + |T| := by
      have h2 := abs_add_le (-(y' - (x - T)) + y') T
      rw [show -(y' - (x - T)) + y' + T = x by ring] at h2
      have h3 := abs_add_le (-(y' - (x - T))) y'
      rw [abs_neg] at h3
      linarith
    have h2 := hw.ct
    have h3 := mul_le_mul_of_nonneg_left hA.K hY0
    linarith
  · exact hA.nonneg (add_nonneg (hA.nonneg (mul_nonneg hY0 hu0)) hw.dc0)
  · refine le_trans ?_ (hA.ru _)
    have h1 : |y' - (x + C)| ≤ |y' - (x - T)| + |T + C| := by
      have := abs_sub (y' - (x - T)) (T + C)
      rwa [show y' - (x - T) - (T + C) = y' - (x + C) by ring] at this
    have h2 := mul_le_mul_of_nonneg_left h1 hc0
    have h3 : c * |y' - (x - T)| ≤ Y * hu := shrink hc1 (abs_nonneg _) (by linarith)
    have h4 := hA.ru (Y * hu)
    have h5 := hw.dc
    rw [mul_add] at h2
    linarith

/-- error of `y~ *~ y~ *~ r~` -/
theorem dry2_ok (hA : ArithOK A ρ) {q : Dat} {fl : ℚ → ℚ} {mu : ℕ → ℕ → ℚ} {r : ℕ → ℚ} (hfl : RndU fl)
    (hq : DatOK q fl mu r) {i : ℕ} (hi : i < q.d) {c x y y' : ℚ} (hc0 : 0 ≤ c) (hc1 : c ≤ 1) {w : YAcc}
    (hw : YInv c x y y' w) :
    ρ * (c * c) * |fl (fl (y' * y') * fl (q.r i)) - y * y * r i| ≤ dry2 A q i w := by
  have hu0 := hu_nonneg
  have hρ0 := hA.ρ0
  have hκ0 : 0 ≤ ρ * (c * c) := mul_nonneg hρ0.le (mul_self_nonneg c)
  have hcc : c * c ≤ 1 := shrink hc1 hc0 hc1
  have hκ1 : ρ * (c * c) ≤ 1 := shrink hA.ρ1 (mul_self_nonneg c) hcc
  have hκc : ρ * (c * c) ≤ c * c := shrink hA.ρ1 (mul_self_nonneg c) le_rfl
  have hrp : 0 < fl (q.r i) := hfl.toRnd.pos (hq.qpos i hi)
  have hr := hq.rpos i hi
  have hdr : 0 ≤ q.dr i := (abs_nonneg _).trans (hq.hr i hi)
  have hw0 : 0 ≤ fl (y' * y') := hfl.toRnd.nonneg (mul_self_nonneg _)
  have hwt0 : 0 ≤ w.t := by
    rcases hw.ht with h | h <;> exact (abs_nonneg _).trans h
  -- the square before rounding
  have a1 : |y' * y' - y * y| ≤ |y' - y| * (2 * w.t + |y' - y|) := by
    rcases hw.ht with h | h
    · have e : y' * y' - y * y = (y' - y) * (2 * y + (y' - y)) := by ring
      rw [e, abs_mul]
      refine mul_le_mul_of_nonneg_left ((abs_add_le _ _).trans ?_) (abs_nonneg _)
      rw [abs_mul, abs_of_pos (by norm_num : (0 : ℚ) < 2)]
      linarith
    · have e : y' * y' - y * y = (y' - y) * (2 * y' - (y' - y)) := by ring
      rw [e, abs_mul]
      refine mul_le_mul_of_nonneg_left ((abs_sub _ _).trans ?_) (abs_nonneg _)
      rw [abs_mul, abs_of_pos (by norm_num : (0 : ℚ) < 2)]
      linarith
  have a2 : ρ * (c * c) * |y' * y' - y * y| ≤ A.ru (A.rn (w.dy * w.t) * 2 + w.dy * w.dy) := by
    refine le_trans ?_ (hA.ru _)
    have h1 := hA.rn (w.dy * w.t) (mul_nonneg hw.dy0 hwt0)
    have h2 : c * |y' - y| * w.t ≤ w.dy * w.t := mul_le_mul_of_nonneg_right hw.hdy hwt0
    have h3 : (c * |y' - y|) * (c * |y' - y|) ≤ w.dy * w.dy :=
      mul_le_mul hw.hdy hw.hdy (mul_nonneg hc0 (abs_nonneg _)) hw.dy0
    have h4 := mul_le_mul_of_nonneg_left a1 hκ0
    have h5 : ρ * (c * c) * (|y' - y| * (2 * w.t)) ≤ ρ * (w.dy * w.t) * 2 := by
      have e : ρ * (c * c) * (|y' - y| * (2 * w.t)) = c * (ρ * (c * |y' - y| * w.t) * 2) := by ring
      rw [e]
      refine shrink hc1 ?_ ?_
      · have := mul_nonneg hρ0.le (mul_nonneg (mul_nonneg hc0 (abs_nonneg (y' - y))) hwt0)
        linarith
      · have := mul_le_mul_of_nonneg_left h2 hρ0.le
        linarith
    have h6 : ρ * (c * c) * (|y' - y| * |y' - y|) ≤ w.dy * w.dy := by
      have e : ρ * (c * c) * (|y' - y| * |y' - y|) = ρ * ((c * |y' - y|) * (c * |y' - y|)) := by ring
      rw [e]
      exact shrink hA.ρ1 (mul_self_nonneg _) h3
    rw [mul_add |y' - y|, mul_add (ρ * (c * c))] at h4
    linarith
  set a := A.ru (A.rn (w.dy * w.t) * 2 + w.dy * w.dy)
  have b1 : c * c * (y' * y') ≤ A.ru (w.yt * w.yt) := by
    refine le_trans ?_ (hA.ru _)
    have := mul_le_mul hw.hyt hw.hyt (mul_nonneg hc0 (abs_nonneg _)) hw.yt0
    calc c * c * (y' * y') = c * |y'| * (c * |y'|) := by rw [← abs_mul_abs_self y']; ring
      _ ≤ _ := this
  set y2 := A.ru (w.yt * w.yt)
  have hy20 : 0 ≤ y2 := hA.nonneg (mul_self_nonneg _)
  -- the rounded square
  have c1 : |fl (y' * y') - y' * y'| ≤ hu * (y' * y') := by
    have := hfl.arg (y' * y')
    rwa [abs_of_nonneg (mul_self_nonneg y')] at this
  have a3 : ρ * (c * c) * |fl (y' * y') - y * y| ≤ A.ru (a + y2 * hu) := by
    refine le_trans ?_ (hA.ru _)
    have h1 : |fl (y' * y') - y * y| ≤ |fl (y' * y') - y' * y'| + |y' * y' - y * y| := abs_sub_le _ _ _
    have h2 := mul_le_mul_of_nonneg_left h1 hκ0
    have h3 : ρ * (c * c) * |fl (y' * y') - y' * y'| ≤ y2 * hu := by
      have h4 := mul_le_mul_of_nonneg_left c1 hκ0
      have h5 := mul_le_mul_of_nonneg_right hκc (mul_nonneg hu0 (mul_self_nonneg y'))
      have h6 := mul_le_mul_of_nonneg_left b1 hu0
      linarith
    rw [mul_add] at h2
    linarith
  set a' := A.ru (a + y2 * hu)
  have b2 : c * c * fl (y' * y') ≤ A.ru (y2 * bigK A) := by
    refine hA.mulK hy20 ?_
    have h1 := (abs_le.1 c1).2
    have h2 := mul_le_mul_of_nonneg_left h1 (mul_self_nonneg c)
    have h3 := mul_le_mul_of_nonneg_left b1 hu0
    linarith
  set y2' := A.ru (y2 * bigK A)
  have hy2'0 : 0 ≤ y2' := (mul_nonneg (mul_self_nonneg c) hw0).trans b2
  have hR : r i ≤ A.ru (q.r i + q.dr i) := by
    refine le_trans ?_ (hA.ru _)
    have := (abs_le.1 (hq.hr i hi)).1
    linarith
  have hRY : c * c * (fl (y' * y') * fl (q.r i)) ≤ A.ru (q.getD (q.r i) * y2') := by
    refine le_trans ?_ (hA.ru _)
    rw [hq.getD]
    have := mul_le_mul_of_nonneg_right b2 hrp.le
    linarith
  -- the three parts of the error
  have p1 : ρ * (c * c) * (|fl (y' * y') - y * y| * r i) ≤ A.ru (A.ru (q.r i + q.dr i) * a') := by
    refine le_trans ?_ (hA.ru _)
    have := mul_le_mul a3 hR hr.le ((mul_nonneg hκ0 (abs_nonneg _)).trans a3)
    linarith
  have p2 : ρ * (c * c) * (fl (y' * y') * |fl (q.r i) - r i|) ≤ y2' * q.dr i := by
    have h1 : c * c * fl (y' * y') * |fl (q.r i) - r i| ≤ y2' * q.dr i :=
      mul_le_mul b2 (hq.hrD i hi) (abs_nonneg _) hy2'0
    have h2 := mul_le_mul_of_nonneg_right hκc (mul_nonneg hw0 (abs_nonneg (fl (q.r i) - r i)))
    linarith
  have p3 : ρ * (c * c) * |fl (fl (y' * y') * fl (q.r i)) - fl (y' * y') * fl (q.r i)| ≤
      A.ru (q.getD (q.r i) * y2') * hu := by
    have h1 := hfl.arg (fl (y' * y') * fl (q.r i))
    rw [abs_of_nonneg (mul_nonneg hw0 hrp.le)] at h1
    have h2 := mul_le_mul_of_nonneg_left h1 hκ0
    have h3 := mul_le_mul_of_nonneg_right hκc (mul_nonneg hu0 (mul_nonneg hw0 hrp.le))
    have h4 := mul_le_mul_of_nonneg_left hRY hu0
    linarith
  have tri : |fl (fl (y' * y') * fl (q.r i)) - y * y * r i| ≤
      |fl (fl (y' * y') * fl (q.r i)) - fl (y' * y') * fl (q.r i)| + fl (y' * y') * |fl (q.r i) - r i| +
        |fl (y' * y') - y * y| * r i := by
    have e : fl (fl (y' * y') * fl (q.r i)) - y * y * r i =
        (fl (fl (y' * y') * fl (q.r i)) - fl (y' * y') * fl (q.r i)) + fl (y' * y') * (fl (q.r i) - r i) +
          (fl (y' * y') - y * y) * r i := by ring
    rw [e]
    refine (abs_add_le _ _).trans (add_le_add ((abs_add_le _ _).trans ?_) ?_)
    · rw [abs_mul (fl (y' * y')), abs_of_nonneg hw0]
    · rw [abs_mul, abs_of_pos hr]
  have h1 := mul_le_mul_of_nonneg_left tri hκ0
  rw [mul_add, mul_add] at h1
  change _ ≤ A.ru (A.ru (A.ru (A.ru (q.r i + q.dr i) * a') + y2' * q.dr i) + A.ru (q.getD (q.r i) * y2') * hu)
  refine le_trans ?_ (hA.ru _)
  have h2 := hA.ru (A.ru (A.ru (q.r i + q.dr i) * a') + y2' * q.dr i)
  linarith

/-! ## All levels -/

/-- exact offset -/
def yE (d : ℕ) (mu : ℕ → ℕ → ℚ) (v : ℕ → ℤ) (i : ℕ) : ℚ := v i + cE d mu v i (i + 1)

/-- computed offset -/
def yT (d : ℕ) (fl : ℚ → ℚ) (mu : ℕ → ℕ → ℚ) (v : ℕ → ℤ) (i : ℕ) : ℚ := fl (v i - cT d fl mu v i (i + 1))

/-- exact squared norm of the projection -/
def dE (d : ℕ) (mu : ℕ → ℕ → ℚ) (r : ℕ → ℚ) (v : ℕ → ℤ) (i : ℕ) : ℚ :=
  ∑ j ∈ Ico i d, yE d mu v j * yE d mu v j * r j

/-- computed squared norm of the projection -/
def dT (d : ℕ) (fl : ℚ → ℚ) (mu : ℕ → ℕ → ℚ) (r : ℕ → ℚ) (v : ℕ → ℤ) (i : ℕ) : ℚ :=
  forDown i d (fun j a => fl (a + fl (fl (yT d fl mu v j * yT d fl mu v j) * fl (r j)))) 0

theorem dT_step {fl : ℚ → ℚ} (hfl : Rnd fl) {d : ℕ} {mu : ℕ → ℕ → ℚ} {r : ℕ → ℚ} {v : ℕ → ℤ}
    (hr : ∀ i, i < d → 0 < r i) : ∀ n i, i + n = d → 0 ≤ dT d fl mu r v i ∧ fl (dT d fl mu r v i) = dT d fl mu r v i ∧
      dT d fl mu r v i ≤ dT d fl mu r v 0 := by
  have hinc : ∀ i, i < d → 0 ≤ fl (fl (yT d fl mu v i * yT d fl mu v i) * fl (r i)) := fun i hi =>
    hfl.nonneg (mul_nonneg (hfl.nonneg (mul_self_nonneg _)) (hfl.nonneg (hr i hi).le))
  have h1 : ∀ n i, i + n = d → 0 ≤ dT d fl mu r v i ∧ fl (dT d fl mu r v i) = dT d fl mu r v i := by
    intro n
    induction n with
    | zero =>
      intro i hi
      rw [dT, forDown_empty (by omega)]
      exact ⟨le_rfl, hfl.zero⟩
    | succ n ih =>
      intro i hi
      obtain ⟨a, b⟩ := ih (i + 1) (by omega)
      rw [dT, forDown_bot (by omega)]
      exact ⟨hfl.nonneg (add_nonneg a (hinc i (by omega))), hfl.idem _⟩
  have h2 : ∀ i, i ≤ d → dT d fl mu r v i ≤ dT d fl mu r v 0 := by
    intro i
    induction i with
    | zero => intro _; exact le_rfl
    | succ i ih =>
      intro hi
      refine le_trans ?_ (ih (by omega))
      have e : dT d fl mu r v i = fl (dT d fl mu r v (i + 1) +
          fl (fl (yT d fl mu v i * yT d fl mu v i) * fl (r i))) := by rw [dT, forDown_bot (by omega)]; rfl
      rw [e, ← (h1 (d - (i + 1)) (i + 1) (by omega)).2]
      refine hfl.mono ?_
      rw [(h1 (d - (i + 1)) (i + 1) (by omega)).2]
      linarith [hinc i (by omega)]
  intro n i hi
  exact ⟨(h1 n i hi).1, (h1 n i hi).2, h2 i (by omega)⟩

theorem dE_anti {d : ℕ} {mu : ℕ → ℕ → ℚ} {r : ℕ → ℚ} {v : ℕ → ℤ} (hr : ∀ i, i < d → 0 < r i) (i : ℕ) :
    dE d mu r v i ≤ dE d mu r v 0 := by
  refine sum_le_sum_of_subset_of_nonneg ?_ ?_
  · intro j; simp only [mem_Ico]; omega
  · intro j hj _
    rw [mem_Ico] at hj
    exact mul_nonneg (mul_self_nonneg _) (hr j hj.2).le

theorem dE_nonneg {d : ℕ} {mu : ℕ → ℕ → ℚ} {r : ℕ → ℚ} {v : ℕ → ℤ} (hr : ∀ i, i < d → 0 < r i) (i : ℕ) :
    0 ≤ dE d mu r v i :=
  sum_nonneg fun j hj => mul_nonneg (mul_self_nonneg _) (hr j (mem_Ico.1 hj).2).le

/-- what is known when the levels `i, …, d-1` have been treated -/
def LInv (q : Dat) (fl : ℚ → ℚ) (mu : ℕ → ℕ → ℚ) (r : ℕ → ℚ) (v : ℕ → ℤ) (md κ : ℚ) (i : ℕ) (X : ℕ → ℚ) (de : ℚ) : Prop :=
  (∀ j, i ≤ j → j < q.d → |(v j : ℚ)| ≤ X j) ∧
    κ * (|dT q.d fl q.mu q.r v i - dE q.d mu r v i| + (if i < q.d then hu * md else 0)) ≤ de

theorem level_inv (hA : ArithOK A ρ) {q : Dat} {fl : ℚ → ℚ} {mu : ℕ → ℕ → ℚ} {r : ℕ → ℚ} (hfl : RndU fl)
    (hq : DatOK q fl mu r) {v : ℕ → ℤ} {md : ℚ} (hmd : 0 ≤ md) {exact : Bool}
    (hb : if exact then dE q.d mu r v 0 ≤ md else dT q.d fl q.mu q.r v 0 ≤ md) {i : ℕ} (hi : i < q.d)
    {X : ℕ → ℚ} {de : ℚ} (h : LInv q fl mu r v md (ρ * (ρ ^ (q.d - 1) * ρ ^ (q.d - 1))) (i + 1) X de)
    {s' : (ℕ → ℚ) × ℚ} (hs : level A q md exact i (X, de) = some s') (hv : |v i| ≤ 2 ^ 53 ∨ s'.1 i < 2 ^ 53) :
    LInv q fl mu r v md (ρ * (ρ ^ (q.d - 1) * ρ ^ (q.d - 1))) i s'.1 s'.2 := by
  have hu0 := hu_nonneg
  set c := ρ ^ (q.d - 1)
  have hc0 : 0 ≤ c := pow_nonneg hA.ρ0.le _
  have hc1 : c ≤ 1 := pow_le_one₀ hA.ρ0.le hA.ρ1
  set κ := ρ * (c * c)
  have hκ0 : 0 ≤ κ := mul_nonneg hA.ρ0.le (mul_self_nonneg c)
  have hκ1 : κ ≤ 1 := shrink hA.ρ1 (mul_self_nonneg c) (shrink hc1 hc0 hc1)
  have hw := cLoop_inv hA hfl hq hi (v := v) (X := X) (fun j h1 h2 => h.1 j (by omega) h2)
  -- the distances of this level
  have eE : dE q.d mu r v i = yE q.d mu v i * yE q.d mu v i * r i + dE q.d mu r v (i + 1) := by
    rw [dE, sum_eq_sum_Ico_succ_bot hi]; rfl
  have eT : dT q.d fl q.mu q.r v i = fl (dT q.d fl q.mu q.r v (i + 1) +
      fl (fl (yT q.d fl q.mu v i * yT q.d fl q.mu v i) * fl (q.r i))) := by rw [dT, forDown_bot hi]; rfl
  obtain ⟨t0, tr, tm⟩ := dT_step hfl.toRnd (mu := q.mu) (v := v) hq.qpos (q.d - (i + 1)) (i + 1) (by omega)
  obtain ⟨t0', tr', tm'⟩ := dT_step hfl.toRnd (mu := q.mu) (v := v) hq.qpos (q.d - i) i (by omega)
  have e0 := dE_nonneg (mu := mu) (v := v) hq.rpos (i + 1)
  have em := dE_anti (mu := mu) (v := v) hq.rpos i
  have hv0 : 0 ≤ fl (fl (yT q.d fl q.mu v i * yT q.d fl q.mu v i) * fl (q.r i)) :=
    hfl.toRnd.nonneg (mul_nonneg (hfl.toRnd.nonneg (mul_self_nonneg _)) (hfl.toRnd.nonneg (hq.qpos i hi).le))
  have hvE0 : 0 ≤ yE q.d mu v i * yE q.d mu v i * r i := mul_nonneg (mul_self_nonneg _) (hq.rpos i hi).le
  -- the offsets
  have hy : ∃ y, s' = (Enum.setAt X i y.x, deStep A md de (dry2 A q i y)) ∧
      YInv c (v i) (yE q.d mu v i) (yT q.d fl q.mu v i) y := by
    rw [level] at hs
    dsimp only at hs
    cases exact with
    | true =>
      simp only [if_true] at hs hb
      cases hy : yExact A q md i (cLoop A q X i) with
      | none => rw [hy] at hs; cases hs
      | some y =>
        rw [hy] at hs
        cases hs
        refine ⟨y, rfl, yExact_ok hA hfl hq hi hc0 hc1 hw hmd ?_ hy (by simpa [Enum.setAt] using hv)⟩
        change yE q.d mu v i * yE q.d mu v i * r i ≤ md
        linarith
    | false =>
      simp only [Bool.false_eq_true, if_false] at hs hb
      cases hs
      refine ⟨_, rfl, yComp_ok hA hfl hq hi hc0 hc1 hw hmd rfl ?_ (by simpa [Enum.setAt] using hv)⟩
      refine le_trans ?_ (tm'.trans hb)
      rw [eT]
      change fl (fl (yT q.d fl q.mu v i * yT q.d fl q.mu v i) * fl (q.r i)) ≤ _
      conv_lhs => rw [← hfl.toRnd.idem]
      exact hfl.toRnd.mono (by linarith)
  obtain ⟨y, rfl, hY⟩ := hy
  refine ⟨?_, ?_⟩
  · intro j h1 h2
    change |(v j : ℚ)| ≤ Enum.setAt X i y.x j
    rw [Enum.setAt]
    by_cases hji : j = i
    · rw [if_pos hji, hji]; exact hY.hx
    · rw [if_neg hji]; exact h.1 j (by omega) h2
  · have hd := dry2_ok hA hfl hq hi hc0 hc1 hY
    have h2 := h.2
    rw [if_pos hi]
    change _ ≤ deStep A md de (dry2 A q i y)
    rw [deStep]
    refine le_trans ?_ (hA.ru _)
    have hde0 : 0 ≤ de := le_trans (mul_nonneg hκ0 (add_nonneg (abs_nonneg _) (by
      split_ifs
      · exact mul_nonneg hu0 hmd
      · exact le_rfl))) h2
    have hdr0 : 0 ≤ dry2 A q i y := (mul_nonneg hκ0 (abs_nonneg _)).trans hd
    have hsum := hA.ru (de + dry2 A q i y)
    have hmul := hA.ru (A.ru (de + dry2 A q i y) * bigK A)
    have hmul2 : (de + dry2 A q i y) * (1 + hu) ≤ A.ru (de + dry2 A q i y) * bigK A :=
      mul_le_mul hsum hA.K (by linarith) ((add_nonneg hde0 hdr0).trans hsum)
    set V := fl (fl (yT q.d fl q.mu v i * yT q.d fl q.mu v i) * fl (q.r i))
    set W := yE q.d mu v i * yE q.d mu v i * r i
    set D := dT q.d fl q.mu q.r v (i + 1)
    set D' := dE q.d mu r v (i + 1)
    have hmd' : κ * (hu * md) ≤ md * hu := shrink hκ1 (mul_nonneg hu0 hmd) (by linarith)
    by_cases htop : i + 1 < q.d
    · rw [if_pos htop] at h2
      -- one more rounded addition
      have hE : |D + V - (D' + W)| ≤ |D - D'| + |V - W| := by
        have := abs_add_le (D - D') (V - W)
        rwa [show D - D' + (V - W) = D + V - (D' + W) by ring] at this
      have herr : |fl (D + V) - (W + D')| ≤ hu * md + (1 + hu) * (|D - D'| + |V - W|) := by
        have h3 : |fl (D + V) - (W + D')| ≤ |fl (D + V) - (D + V)| + |D + V - (D' + W)| := by
          rw [add_comm W D']; exact abs_sub_le _ _ _
        have hE0 : 0 ≤ hu * (|D - D'| + |V - W|) :=
          mul_nonneg hu0 (add_nonneg (abs_nonneg _) (abs_nonneg _))
        cases exact with
        | true =>
          simp only [if_true] at hb
          have h4 := hfl.arg (D + V)
          have h5 : |D + V| ≤ md + (|D - D'| + |V - W|) := by
            rw [abs_of_nonneg (add_nonneg t0 hv0)]
            have := le_abs_self (D + V - (D' + W))
            linarith
          have h6 := mul_le_mul_of_nonneg_left h5 hu0
          linarith
        | false =>
          simp only [Bool.false_eq_true, if_false] at hb
          have h4 := hfl.res (D + V)
          rw [← eT, abs_of_nonneg t0'] at h4
          have h6 := mul_le_mul_of_nonneg_left (tm'.trans hb) hu0
          rw [← eT] at h3 ⊢
          linarith
      rw [eT, eE]
      have h7 := mul_le_mul_of_nonneg_left herr hκ0
      have h8 : κ * ((1 + hu) * (|D - D'| + |V - W|)) + κ * (hu * md) ≤ (de + dry2 A q i y) * (1 + hu) := by
        have h9 : κ * (|D - D'| + |V - W|) + κ * (hu * md) ≤ de + dry2 A q i y := by
          rw [mul_add] at h2
          rw [mul_add]
          linarith
        have h10 := mul_le_mul_of_nonneg_right h9 (by linarith : 0 ≤ 1 + hu)
        have h11 : 0 ≤ κ * (hu * md) * hu := mul_nonneg (mul_nonneg hκ0 (mul_nonneg hu0 hmd)) hu0
        linarith
      rw [mul_add κ] at h7 ⊢
      linarith
    · -- the first level: adding to zero does not round
      have hD : D = 0 := by
        change dT q.d fl q.mu q.r v (i + 1) = 0
        rw [dT, forDown_empty (by omega)]
      have hD' : D' = 0 := by
        change dE q.d mu r v (i + 1) = 0
        rw [dE, Ico_eq_empty (by omega), sum_empty]
      rw [eT, eE, hD, hD', zero_add, add_zero, hfl.toRnd.idem, mul_add]
      change κ * |V - W| + κ * (hu * md) ≤ _
      have h8 : dry2 A q i y ≤ (de + dry2 A q i y) * (1 + hu) := by
        have := mul_nonneg hu0 (add_nonneg hde0 hdr0)
        linarith
      linarith

theorem level_old {q : Dat} {md : ℚ} {exact : Bool} {i : ℕ} {s s' : (ℕ → ℚ) × ℚ} (h : level A q md exact i s = some s')
    {j : ℕ} (hj : j ≠ i) : s'.1 j = s.1 j := by
  rw [level] at h
  split at h
  · cases h
  · cases h
    simp [Enum.setAt, hj]

theorem maxErrorSt_inv (hA : ArithOK A ρ) {q : Dat} {fl : ℚ → ℚ} {mu : ℕ → ℕ → ℚ} {r : ℕ → ℚ} (hfl : RndU fl)
    (hq : DatOK q fl mu r) {v : ℕ → ℤ} {md : ℚ} (hmd : 0 ≤ md) {exact : Bool}
    (hb : if exact then dE q.d mu r v 0 ≤ md else dT q.d fl q.mu q.r v 0 ≤ md) {X : ℕ → ℚ} {e : ℚ}
    (he : maxErrorSt A q md exact = some (X, e)) (hv : ∀ i, i < q.d → |v i| ≤ 2 ^ 53 ∨ X i < 2 ^ 53) :
    (∀ i, i < q.d → |(v i : ℚ)| ≤ X i) ∧ ρ * (ρ ^ (q.d - 1) * ρ ^ (q.d - 1)) *
      (|dT q.d fl q.mu q.r v 0 - dE q.d mu r v 0| + (if 0 < q.d then hu * md else 0)) ≤ e := by
  rw [maxErrorSt] at he
  have := forDown_inv (fun i (o : Option ((ℕ → ℚ) × ℚ)) => ∀ s, o = some s →
    (∀ j, i ≤ j → j < q.d → |v j| ≤ 2 ^ 53 ∨ s.1 j < 2 ^ 53) →
    LInv q fl mu r v md (ρ * (ρ ^ (q.d - 1) * ρ ^ (q.d - 1))) i s.1 s.2)
    (fun i s => s.bind (level A q md exact i)) (Nat.zero_le q.d) (some (fun _ => 0, 0)) ?_ ?_ (X, e) he
    (fun j _ hj => hv j hj)
  · exact ⟨fun i hi => this.1 i (Nat.zero_le i) hi, this.2⟩
  · intro s hs _
    cases hs
    refine ⟨fun j h1 h2 => by omega, ?_⟩
    rw [if_neg (lt_irrefl _), dT, forDown_empty le_rfl, dE, Ico_self, sum_empty]
    simp
  · intro i s _ hi ih s' hs' hv'
    cases s with
    | none => cases hs'
    | some s =>
      have hl : level A q md exact i s = some s' := hs'
      refine level_inv hA hfl hq hmd hb hi (ih s rfl ?_) hl (hv' i le_rfl hi)
      intro j h1 h2
      rw [← level_old hl (by omega : j ≠ i)]
      exact hv' j (by omega) h2

end ErrB
end Fplll

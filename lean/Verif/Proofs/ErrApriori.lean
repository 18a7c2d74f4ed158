import Verif.Proofs.ErrBound
import Mathlib.Tactic.Linarith
import Mathlib.Tactic.Positivity

/-!
# The error bound of the enumeration on a reduced basis: an estimate of what `get_max_error_aux` returns
-/

open Finset

namespace Fplll
namespace ErrB

/-- factor of one rounding -/
def vv : ℚ := 1 + 1 / 2 ^ 50

theorem vv_one : 1 ≤ vv := by norm_num [vv]
theorem vv_pos : 0 < vv := by norm_num [vv]

theorem vv_pow (k : ℕ) : 1 ≤ vv ^ k := one_le_pow₀ vv_one

/-- factor of many roundings -/
def ww : ℚ := 1 + 1 / 2 ^ 20

theorem vv_ww {k : ℕ} (hk : k ≤ 1400) : vv ^ k ≤ ww := by
  refine (pow_le_pow_right₀ vv_one hk).trans ?_
  have : decide (vv ^ 1400 ≤ ww) = true := by decide +kernel
  exact of_decide_eq_true this

/-- every operation is accurate to about 50 bits -/
structure Fine (A : Arith) : Prop where
  ru : ∀ t, 0 ≤ t → A.ru t ≤ vv * t
  rn : ∀ t, 0 ≤ t → A.rn t ≤ vv * t
  rd : ∀ t, 0 ≤ t → (1 - 1 / 2 ^ 50) * t ≤ A.rd t
  sq : ∀ t, 0 ≤ t → A.sqrtU t * A.sqrtU t ≤ vv ^ 2 * t

/-- `a` is at most `b`, up to `k` roundings -/
def Nr (k : ℕ) (a b : ℚ) : Prop := 0 ≤ a ∧ a ≤ vv ^ k * b

namespace Nr
variable {A : Arith} {ρ : ℚ} {k l : ℕ} {a b a' b' : ℚ}

theorem nonneg (h : Nr k a b) : 0 ≤ b := by
  have h1 := h.1.trans h.2
  have h2 : 0 < vv ^ k := pow_pos vv_pos k
  by_contra hc
  push Not at hc
  nlinarith

theorem refl (h : 0 ≤ a) : Nr 0 a a := ⟨h, by rw [pow_zero, one_mul]⟩

theorem of_le (h0 : 0 ≤ a) (h : a ≤ b) : Nr 0 a b := ⟨h0, by rw [pow_zero, one_mul]; exact h⟩

theorem mono (h : Nr k a b) (hk : k ≤ l) (hb : b ≤ b') : Nr l a b' :=
  ⟨h.1, h.2.trans (mul_le_mul (pow_le_pow_right₀ vv_one hk) hb h.nonneg (pow_pos vv_pos l).le)⟩

theorem add (h : Nr k a b) (h' : Nr l a' b') : Nr (max k l) (a + a') (b + b') := by
  have h1 := (h.mono (le_max_left k l) le_rfl).2
  have h2 := (h'.mono (le_max_right k l) le_rfl).2
  exact ⟨add_nonneg h.1 h'.1, by rw [mul_add]; exact add_le_add h1 h2⟩

theorem mul (h : Nr k a b) (h' : Nr l a' b') : Nr (k + l) (a * a') (b * b') := by
  refine ⟨mul_nonneg h.1 h'.1, ?_⟩
  have := mul_le_mul h.2 h'.2 h'.1 (h.1.trans h.2)
  rw [pow_add]
  calc a * a' ≤ vv ^ k * b * (vv ^ l * b') := this
    _ = _ := by ring

theorem ru (hF : Fine A) (hA : ArithOK A ρ) (h : Nr k a b) : Nr (k + 1) (A.ru a) b := by
  refine ⟨hA.nonneg h.1, (hF.ru a h.1).trans ?_⟩
  rw [pow_succ', mul_assoc]
  exact mul_le_mul_of_nonneg_left h.2 vv_pos.le

theorem rn (hF : Fine A) (hA : ArithOK A ρ) (h : Nr k a b) : Nr (k + 1) (A.rn a) b := by
  refine ⟨hA.rn0 h.1, (hF.rn a h.1).trans ?_⟩
  rw [pow_succ', mul_assoc]
  exact mul_le_mul_of_nonneg_left h.2 vv_pos.le

theorem hu : Nr 0 ErrB.hu ErrB.hu := refl hu_nonneg

theorem K (hF : Fine A) (hA : ArithOK A ρ) : Nr 2 (bigK A) 1 := by
  have h : Nr 1 (1 + ErrB.hu) 1 := ⟨by have := hu_pos; linarith, by norm_num [vv, ErrB.hu]⟩
  exact h.ru hF hA

theorem le_ww (h : Nr k a b) (hk : k ≤ 1400) : a ≤ ww * b :=
  h.2.trans (mul_le_mul_of_nonneg_right (vv_ww hk) h.nonneg)

end Nr

variable {A : Arith} {ρ : ℚ} {q : Dat}

/-- bounds on `maxC`, `maxCTilde`, `maxDC` after `n` steps -/
structure CNr (n : ℕ) (M m S : ℚ) (w : CAcc) : Prop where
  c : Nr (20 * n) w.c (M * S)
  ct : Nr (20 * n) w.ct (M * S)
  dc : Nr (20 * n) w.dc (S * (m + hu * (1 + n) * M))

theorem cBody_nr (hF : Fine A) (hA : ArithOK A ρ) {X : ℕ → ℚ} {i j n : ℕ} {M S : ℚ} {w : CAcc} (hM : 0 ≤ M) (hS : 0 ≤ S)
    (h : CNr n M (q.dm i) S w) (hX : 0 ≤ X j) (hdm : 0 ≤ q.dm i) (h1 : A.ru (|q.mu j i| + q.dm i) ≤ M) (h2 : |q.getD (q.mu j i)| ≤ M) :
    CNr (n + 1) M (q.dm i) (S + X j) (cBody A q X i j w) := by
  have hu := Nr.hu
  have K := Nr.K hF hA
  have hXX := Nr.refl hX
  have dm := Nr.refl hdm
  have hmu : Nr 0 (A.ru (|q.mu j i| + q.dm i)) M := Nr.of_le (hA.nonneg (add_nonneg (abs_nonneg _) hdm)) h1
  have hmx := ((Nr.of_le (abs_nonneg _) h2).mul hXX).ru hF hA
  have hct1 := (h.ct.add (((hmx.mul K).ru hF hA).mul K)).ru hF hA
  refine ⟨?_, ?_, ?_⟩
  · exact ((h.c.add (hmu.mul hXX)).ru hF hA).mono (by omega) (by rw [mul_add])
  · exact ((hct1.mul K).ru hF hA).mono (by omega) (by linarith)
  · refine (((((h.dc.add (dm.mul hXX)).rn hF hA).add (hmx.mul hu)).ru hF hA).add (hct1.mul hu) |>.ru hF hA).mono (by omega) ?_
    have := hu_nonneg
    push_cast
    have e : 0 ≤ ErrB.hu * M * X j * n := by positivity
    nlinarith

theorem cLoop_nr (hF : Fine A) (hA : ArithOK A ρ) {X : ℕ → ℚ} {i : ℕ} {M : ℚ} (hM : 0 ≤ M) (hi : i < q.d) (hX : ∀ j, 0 ≤ X j)
    (hdm : 0 ≤ q.dm i) (h1 : ∀ j, i < j → j < q.d → A.ru (|q.mu j i| + q.dm i) ≤ M) (h2 : ∀ j, i < j → j < q.d → |q.getD (q.mu j i)| ≤ M) :
    CNr (q.d - (i + 1)) M (q.dm i) (∑ j ∈ Ico (i + 1) q.d, X j) (cLoop A q X i) := by
  have key : ∀ k m, m + k = q.d → i + 1 ≤ m →
      CNr k M (q.dm i) (∑ j ∈ Ico m q.d, X j) (forDown m q.d (fun j w => cBody A q X i j w) ⟨0, 0, 0⟩) := by
    intro k
    induction k with
    | zero =>
      intro m hm _
      rw [forDown_empty (by omega), Ico_eq_empty (by omega), sum_empty]
      refine ⟨?_, ?_, ?_⟩ <;> exact (Nr.refl le_rfl).mono le_rfl (by simp)
    | succ k ih =>
      intro m hm him
      rw [forDown_bot (f := fun j w => cBody A q X i j w) (by omega), sum_eq_sum_Ico_succ_bot (by omega), add_comm (X m)]
      exact cBody_nr hF hA hM (sum_nonneg fun j _ => hX j) (ih (m + 1) (by omega) (by omega)) (hX m) hdm (h1 m (by omega) (by omega)) (h2 m (by omega) (by omega))
  exact key (q.d - (i + 1)) (i + 1) (by omega) le_rfl

/-! ## Reduced bases -/

/-- growth of the bounds on the coordinates from one level to the next -/
def gg : ℚ := 89 / 50

theorem gg_pos : 0 < gg := by norm_num [gg]
theorem gg_pow (n : ℕ) : 1 ≤ gg ^ n := one_le_pow₀ (by norm_num [gg])

/-- data of a reduced basis in small dimension, with accurate GSO data -/
structure Tame (A : Arith) (q : Dat) (E : ℚ) : Prop where
  dim : gg ^ q.d * (hu * (q.d + 3)) ≤ 13 / 200
  d64 : q.d ≤ 64
  E0 : 0 ≤ E
  E1 : E ≤ 1 / 2000
  rpos : ∀ i, i < q.d → 0 < q.r i
  dr0 : ∀ i, i < q.d → 0 ≤ q.dr i
  dr : ∀ i, i < q.d → q.dr i ≤ q.r i * (E + 2 * hu)
  step : ∀ i, i + 1 < q.d → q.r i ≤ 11 / 8 * q.r (i + 1)
  dm0 : ∀ i, i < q.d → 0 ≤ q.dm i
  dm : ∀ i, i < q.d → gg ^ (q.d - (i + 1)) * q.dm i ≤ E + 2 * (gg ^ (q.d - (i + 1)) * hu)
  mu : ∀ i j, i < j → j < q.d → A.ru (|q.mu j i| + q.dm i) ≤ 64 / 125
  muD : ∀ i j, i < j → j < q.d → |q.getD (q.mu j i)| ≤ 64 / 125
  getD0 : ∀ i, i < q.d → 0 ≤ q.getD (q.r i)
  getD : ∀ i, i < q.d → q.getD (q.r i) ≤ vv * q.r i

/-- `tmp1`, evaluator.cpp:134-136 -/
def yv (A : Arith) (q : Dat) (md : ℚ) (i : ℕ) : ℚ := A.sqrtU (A.ru (md / A.rd (q.r i - q.dr i)))

namespace Tame
variable {E md : ℚ}

theorem zeta (h : Tame A q E) : E + 2 * hu ≤ 1 / 1000 := by
  have := h.E1
  have : hu ≤ 1 / 4000 := by norm_num [hu]
  linarith

theorem minR (h : Tame A q E) (hF : Fine A) (hA : ArithOK A ρ) {i : ℕ} (hi : i < q.d) :
    9989 / 10000 * q.r i ≤ A.rd (q.r i - q.dr i) ∧ A.rd (q.r i - q.dr i) ≤ q.r i := by
  have hr := h.rpos i hi
  have h1 := h.dr i hi
  have h2 := mul_le_mul_of_nonneg_left h.zeta hr.le
  have h3 : 0 ≤ q.r i - q.dr i := by linarith
  have h4 := hF.rd _ h3
  have h5 := hA.rd (q.r i - q.dr i)
  have h6 := h.dr0 i hi
  refine ⟨le_trans ?_ h4, by linarith⟩
  have h7 : (0 : ℚ) ≤ 1 - 1 / 2 ^ 50 := by norm_num
  have h8 : 999 / 1000 * q.r i ≤ q.r i - q.dr i := by linarith
  have h9 := mul_le_mul_of_nonneg_left h8 h7
  refine le_trans ?_ h9
  rw [← mul_assoc]
  exact mul_le_mul_of_nonneg_right (by norm_num) hr.le

theorem y_sq (h : Tame A q E) (hF : Fine A) (hA : ArithOK A ρ) (hmd : 0 < md) {i : ℕ} (hi : i < q.d) :
    0 < yv A q md i ∧ md ≤ q.r i * (yv A q md i * yv A q md i) ∧ q.r i * (yv A q md i * yv A q md i) ≤ 10012 / 10000 * md := by
  obtain ⟨h1, h2⟩ := h.minR hF hA hi
  have hr := h.rpos i hi
  have h0 : 0 < A.rd (q.r i - q.dr i) := lt_of_lt_of_le (by positivity) h1
  have h3 : 0 ≤ md / A.rd (q.r i - q.dr i) := by positivity
  have h4 := hA.nonneg h3
  have h5 := hA.sq _ h4
  have h6 := hA.ru (md / A.rd (q.r i - q.dr i))
  have h7 := hF.sq _ h4
  have h8 := hF.ru _ h3
  change _ ≤ yv A q md i * yv A q md i at h5
  change yv A q md i * yv A q md i ≤ _ at h7
  have hy0 : 0 ≤ yv A q md i := hA.sq0 _
  generalize yv A q md i = y at *
  have h9 : md / q.r i ≤ md / A.rd (q.r i - q.dr i) := div_le_div_of_nonneg_left hmd.le h0 h2
  have h10 : md / q.r i ≤ y * y := by linarith
  have h11 : md / A.rd (q.r i - q.dr i) ≤ md / (9989 / 10000 * q.r i) := div_le_div_of_nonneg_left hmd.le (by positivity) h1
  have h12 : md / (9989 / 10000 * q.r i) = 10000 / 9989 * (md / q.r i) := by field_simp
  have h13 : 0 < md / q.r i := by positivity
  refine ⟨?_, ?_, ?_⟩
  · rcases hy0.lt_or_eq with h' | h'
    · exact h'
    · rw [← h'] at h10; linarith
  · rw [div_le_iff₀ hr] at h10; linarith
  · have h14 : y * y ≤ 10012 / 10000 * (md / q.r i) := by
      have e1 : A.ru (md / A.rd (q.r i - q.dr i)) ≤ vv * (10000 / 9989 * (md / q.r i)) :=
        h8.trans (mul_le_mul_of_nonneg_left (by linarith) vv_pos.le)
      have e2 := h7.trans (mul_le_mul_of_nonneg_left e1 (pow_pos vv_pos 2).le)
      refine e2.trans ?_
      rw [← mul_assoc, ← mul_assoc]
      exact mul_le_mul_of_nonneg_right (by norm_num [vv]) h13.le
    have h15 := mul_le_mul_of_nonneg_left h14 hr.le
    calc q.r i * (y * y) ≤ q.r i * (10012 / 10000 * (md / q.r i)) := h15
      _ = 10012 / 10000 * md := by field_simp

theorem y_step (h : Tame A q E) (hF : Fine A) (hA : ArithOK A ρ) (hmd : 0 < md) {i : ℕ} (hi : i + 1 < q.d) :
    yv A q md (i + 1) ≤ 2349 / 2000 * yv A q md i := by
  obtain ⟨a1, a2, a3⟩ := h.y_sq hF hA hmd (i := i) (by omega)
  obtain ⟨b1, b2, b3⟩ := h.y_sq hF hA hmd hi
  have hr := h.rpos i (by omega)
  have hr' := h.rpos (i + 1) hi
  have hs := h.step i hi
  generalize yv A q md i = y at *
  generalize yv A q md (i + 1) = z at *
  -- z² ≤ 1.0012 md / r' ≤ 1.0012 * 11/8 md / r ≤ 1.0012 * 11/8 y²
  have c1 : q.r (i + 1) * (z * z) ≤ 10012 / 10000 * (11 / 8 * q.r (i + 1)) * (y * y) := by
    have : q.r i * (y * y) ≤ 11 / 8 * q.r (i + 1) * (y * y) := mul_le_mul_of_nonneg_right hs (by positivity)
    linarith
  have c2 : z * z ≤ 10012 / 10000 * (11 / 8) * (y * y) := by
    have : q.r (i + 1) * (z * z) ≤ q.r (i + 1) * (10012 / 10000 * (11 / 8) * (y * y)) := by linarith
    exact le_of_mul_le_mul_left this hr'
  by_contra hc
  push Not at hc
  have c3 : (2349 / 2000 * y) * (2349 / 2000 * y) ≤ z * z := mul_self_le_mul_self (by positivity) hc.le
  have c4 : 0 < y * y := by positivity
  linarith

end Tame

/-- the relative error at a level with `n` levels above it -/
def ee (E : ℚ) (d n : ℕ) : ℚ := 151 / 100 * (E + gg ^ n * (hu * (d + 3)))

/-- state of `get_max_error_aux` when the levels from `i` on are done -/
structure LNr (A : Arith) (q : Dat) (E md : ℚ) (i : ℕ) (s : (ℕ → ℚ) × ℚ) : Prop where
  X0 : ∀ j, 0 ≤ s.1 j
  sum : 39 / 50 * ∑ j ∈ Ico i q.d, s.1 j ≤ (gg ^ (q.d - i) - 1) * yv A q md i
  X : ∀ j, i ≤ j → j < q.d → 39 / 50 * s.1 j ≤ gg ^ (q.d - j) * yv A q md j
  de : Nr (5 * (q.d - i)) s.2 (md * (5 * E * ((q.d - i : ℕ) : ℚ) + 5 * (hu * (q.d + 3)) * ((gg ^ (q.d - i) - 1) / (39 / 50))))

theorem dry2_nr (h : Tame A q E) (hF : Fine A) (hA : ArithOK A ρ) {i : ℕ} (hi : i < q.d) {y dy x e md : ℚ} (hy : 0 < y) (hdy0 : 0 ≤ dy)
    (hdy : dy ≤ e * y) (he : e ≤ 1 / 10) (hry : q.r i * (y * y) ≤ 10012 / 10000 * md) (hmd : 0 < md) :
    0 ≤ dry2 A q i ⟨A.ru (y + dy), dy, x, y⟩ ∧
      dry2 A q i ⟨A.ru (y + dy), dy, x, y⟩ ≤ md * (211 / 100 * e + 122 / 100 * E + 5 * hu) := by
  have hu := Nr.hu
  have K := Nr.K hF hA
  have hr := h.rpos i hi
  have e0 : 0 ≤ e := by
    by_contra hc
    push Not at hc
    nlinarith
  have ndy : Nr 0 dy (e * y) := Nr.of_le hdy0 hdy
  have ny := Nr.refl hy.le
  have n2 : Nr 0 (2 : ℚ) 2 := Nr.refl (by norm_num)
  have nr := Nr.refl hr.le
  have ndr := Nr.of_le (h.dr0 i hi) (h.dr i hi)
  have nrD : Nr 1 (q.getD (q.r i)) (q.r i) := ⟨h.getD0 i hi, by rw [pow_one]; exact h.getD i hi⟩
  have yt := (ny.add ndy).ru hF hA
  have a := ((((ndy.mul ny).rn hF hA).mul n2).add (ndy.mul ndy)).ru hF hA
  have y2 := (yt.mul yt).ru hF hA
  have a' := (a.add (y2.mul hu)).ru hF hA
  have y2' := (y2.mul K).ru hF hA
  have maxR := (nr.add ndr).ru hF hA
  have ry := (nrD.mul y2').ru hF hA
  have res := ((((maxR.mul a').ru hF hA).add (y2'.mul ndr)).ru hF hA).add (ry.mul hu) |>.ru hF hA
  refine ⟨res.1, ?_⟩
  have res' := res.le_ww (by norm_num)
  refine le_trans res' ?_
  have hz := h.zeta
  have hz0 : 0 ≤ E + 2 * ErrB.hu := by have := h.E0; have := hu_nonneg; linarith
  have hhu := hu_nonneg
  have hE := h.E0
  set Y := q.r i * (y * y) with hY
  have hY0 : 0 < Y := by positivity
  have s1 : ww * ((q.r i + q.r i * (E + 2 * ErrB.hu)) * (e * y * y * 2 + e * y * (e * y) + (y + e * y) * (y + e * y) * ErrB.hu) +
      (y + e * y) * (y + e * y) * 1 * (q.r i * (E + 2 * ErrB.hu)) + q.r i * ((y + e * y) * (y + e * y) * 1) * ErrB.hu) =
      Y * (ww * ((1 + (E + 2 * ErrB.hu)) * (2 * e + e * e + (1 + e) * (1 + e) * ErrB.hu) + (1 + e) * (1 + e) * ((E + 2 * ErrB.hu) + ErrB.hu))) := by
    rw [hY]; ring
  rw [s1]
  generalize ErrB.hu = u at *
  have s2 : (1 + e) * (1 + e) ≤ 121 / 100 := by nlinarith
  have s3 : e * e ≤ e / 10 := by nlinarith
  have s4 : (1 + e) * (1 + e) * u ≤ 121 / 100 * u := mul_le_mul_of_nonneg_right s2 hhu
  have s5 : (1 + e) * (1 + e) * ((E + 2 * u) + u) ≤ 121 / 100 * ((E + 2 * u) + u) := mul_le_mul_of_nonneg_right s2 (by linarith)
  have s6 : (1 + (E + 2 * u)) * (2 * e + e * e + (1 + e) * (1 + e) * u) ≤ 1001 / 1000 * (21 / 10 * e + 121 / 100 * u) :=
    mul_le_mul (by linarith) (by linarith) (by positivity) (by norm_num)
  have s7 : (1 + (E + 2 * u)) * (2 * e + e * e + (1 + e) * (1 + e) * u) + (1 + e) * (1 + e) * ((E + 2 * u) + u) ≤
      21021 / 10000 * e + 121 / 100 * E + 486 / 100 * u := by linarith
  have s8 : ww * ((1 + (E + 2 * u)) * (2 * e + e * e + (1 + e) * (1 + e) * u) + (1 + e) * (1 + e) * ((E + 2 * u) + u)) ≤
      ww * (21021 / 10000 * e + 121 / 100 * E + 486 / 100 * u) := mul_le_mul_of_nonneg_left s7 (by norm_num [ww])
  have s9 := mul_le_mul hry s8 (by have : 0 ≤ ww := by norm_num [ww]
                                   positivity) (by positivity)
  refine s9.trans ?_
  have s10 : ww ≤ 100001 / 100000 := by norm_num [ww]
  have s11 : 0 ≤ 21021 / 10000 * e + 121 / 100 * E + 486 / 100 * u := by positivity
  have s12 := mul_le_mul_of_nonneg_right s10 s11
  calc 10012 / 10000 * md * (ww * (21021 / 10000 * e + 121 / 100 * E + 486 / 100 * u)) ≤
      10012 / 10000 * md * (100001 / 100000 * (21021 / 10000 * e + 121 / 100 * E + 486 / 100 * u)) := mul_le_mul_of_nonneg_left s12 (by positivity)
    _ = md * (10012 / 10000 * (100001 / 100000 * (21021 / 10000 * e + 121 / 100 * E + 486 / 100 * u))) := by ring
    _ ≤ _ := mul_le_mul_of_nonneg_left (by linarith) hmd.le

/-- the error of one level -/
theorem dy_le (h : Tame A q E) {i : ℕ} (hi : i < q.d) {y S dy : ℚ} (hy : 0 < y) (hS0 : 0 ≤ S)
    (hS : 39 / 50 * S ≤ (gg ^ (q.d - (i + 1)) - 1) * (2349 / 2000 * y))
    (hdy : dy ≤ ww * (y * hu + S * (q.dm i + hu * (1 + (q.d - (i + 1) : ℕ)) * (64 / 125)))) :
    dy ≤ ee E q.d (q.d - (i + 1)) * y ∧ ee E q.d (q.d - (i + 1)) ≤ 1 / 10 := by
  have hg := gg_pow (q.d - (i + 1))
  have hdm := h.dm i hi
  have hdm0 := h.dm0 i hi
  have hhu := hu_nonneg
  have hE := h.E0
  have hE1 := h.E1
  have hdim := h.dim
  have hgd : gg ^ (q.d - (i + 1)) ≤ gg ^ q.d := pow_le_pow_right₀ (by norm_num [gg]) (by omega)
  have hn : ((q.d - (i + 1) : ℕ) : ℚ) + 1 ≤ q.d := by exact_mod_cast (by omega : q.d - (i + 1) + 1 ≤ q.d)
  have hn0 : (0 : ℚ) ≤ ((q.d - (i + 1) : ℕ) : ℚ) := Nat.cast_nonneg _
  generalize ((q.d - (i + 1) : ℕ) : ℚ) = n at *
  unfold ee
  generalize gg ^ (q.d - (i + 1)) = g at *
  generalize gg ^ q.d = g' at *
  generalize (q.d : ℚ) = d at *
  generalize q.dm i = m at *
  generalize hu = u at *
  constructor
  · have a1 : S ≤ 1506 / 1000 * g * y := by nlinarith
    have a2 : S * (m + u * (1 + n) * (64 / 125)) ≤ 1506 / 1000 * g * y * (m + u * d * (64 / 125)) := by
      refine mul_le_mul a1 ?_ (by positivity) (by positivity)
      have : u * (1 + n) ≤ u * d := mul_le_mul_of_nonneg_left (by linarith) hhu
      linarith
    have a3 : 1506 / 1000 * g * y * (m + u * d * (64 / 125)) ≤ 1506 / 1000 * y * (E + 2 * (g * u) + g * u * d * (64 / 125)) := by
      have : 1506 / 1000 * y * (g * m) ≤ 1506 / 1000 * y * (E + 2 * (g * u)) := mul_le_mul_of_nonneg_left hdm (by positivity)
      linarith
    have a4 : y * u ≤ y * (g * u) := mul_le_mul_of_nonneg_left (le_mul_of_one_le_left hhu hg) hy.le
    have a5 : y * u + S * (m + u * (1 + n) * (64 / 125)) ≤ y * (1506 / 1000 * E + 4012 / 1000 * (g * u) + 772 / 1000 * (g * u * d)) := by
      have a6 : 0 ≤ y * (g * u * d) := by
        have : 0 ≤ d := by linarith
        positivity
      linarith
    have a7 := mul_le_mul_of_nonneg_left a5 (show (0 : ℚ) ≤ ww by norm_num [ww])
    refine hdy.trans (a7.trans ?_)
    have d0 : 0 ≤ d := by linarith
    have a8 : 0 ≤ y * (1506 / 1000 * E + 4012 / 1000 * (g * u) + 772 / 1000 * (g * u * d)) := by positivity
    have a9 := mul_le_mul_of_nonneg_right (show ww ≤ 1001 / 1000 by norm_num [ww]) a8
    refine a9.trans ?_
    have b1 : 0 ≤ y * E := by positivity
    have b2 : 0 ≤ y * (g * u) := by positivity
    have b3 : 0 ≤ y * (g * u * d) := by positivity
    nlinarith
  · have : g * (u * (d + 3)) ≤ g' * (u * (d + 3)) := by
      refine mul_le_mul_of_nonneg_right hgd ?_
      have : 0 ≤ d := by linarith
      positivity
    linarith

theorem level_nr (h : Tame A q E) (hF : Fine A) (hA : ArithOK A ρ) {md : ℚ} (hmd : 0 < md) {i : ℕ} (hi : i < q.d) {s : (ℕ → ℚ) × ℚ}
    (hs : LNr A q E md (i + 1) s) : ∃ s', level A q md true i s = some s' ∧ LNr A q E md i s' := by
  obtain ⟨hy, hy1, hy2⟩ := h.y_sq hF hA hmd hi
  have hminR := (h.minR hF hA hi).1
  have hr := h.rpos i hi
  have hpos : 0 < A.rd (q.r i - q.dr i) := lt_of_lt_of_le (by positivity) hminR
  have hS0 : 0 ≤ ∑ j ∈ Ico (i + 1) q.d, s.1 j := sum_nonneg fun j _ => hs.X0 j
  have hg := gg_pow (q.d - (i + 1))
  have hS : 39 / 50 * ∑ j ∈ Ico (i + 1) q.d, s.1 j ≤ (gg ^ (q.d - (i + 1)) - 1) * (2349 / 2000 * yv A q md i) := by
    by_cases hid : i + 1 < q.d
    · exact hs.sum.trans (mul_le_mul_of_nonneg_left (h.y_step hF hA hmd hid) (by linarith))
    · rw [Ico_eq_empty (by omega), show q.d - (i + 1) = 0 by omega]; simp
  have hw := cLoop_nr hF hA (M := 64 / 125) (by norm_num) hi hs.X0 (h.dm0 i hi) (h.mu i) (h.muD i)
  have hn64 := h.d64
  unfold level
  simp only [if_true]
  unfold yExact
  rw [if_neg (not_le.2 hpos)]
  refine ⟨_, rfl, ?_⟩
  change LNr A q E md i (Enum.setAt s.1 i (⌊A.rd (yv A q md i + (cLoop A q s.1 i).c)⌋ : ℚ),
    deStep A md s.2 (dry2 A q i ⟨A.ru (yv A q md i + A.ru (A.ru (yv A q md i * hu) + (cLoop A q s.1 i).dc * bigK A)),
      A.ru (A.ru (yv A q md i * hu) + (cLoop A q s.1 i).dc * bigK A), (⌊A.rd (yv A q md i + (cLoop A q s.1 i).c)⌋ : ℚ), yv A q md i⟩))
  generalize cLoop A q s.1 i = w at hw
  generalize hyy : yv A q md i = y at *
  -- the error
  have ndy := (((Nr.refl hy.le).mul Nr.hu).ru hF hA).add (hw.dc.mul (Nr.K hF hA)) |>.ru hF hA
  have hdy0 := ndy.1
  have hdy := ndy.le_ww (by omega)
  rw [mul_one] at hdy
  obtain ⟨g1, g2⟩ := dy_le h hi hy hS0 hS hdy
  generalize A.ru (A.ru (y * hu) + w.dc * bigK A) = dy at *
  obtain ⟨k0, k1⟩ := dry2_nr h hF hA hi (x := (⌊A.rd (y + w.c)⌋ : ℚ)) hy hdy0 g1 g2 hy2 hmd
  generalize dry2 A q i ⟨A.ru (y + dy), dy, (⌊A.rd (y + w.c)⌋ : ℚ), y⟩ = x at *
  -- the coordinate
  have hc : w.c ≤ 5121 / 10000 * ∑ j ∈ Ico (i + 1) q.d, s.1 j := by
    have h1 := hw.c.le_ww (by omega)
    refine h1.trans ?_
    rw [← mul_assoc]
    exact mul_le_mul_of_nonneg_right (by norm_num [ww]) hS0
  have hc0 := hw.c.1
  have hx1 : ((⌊A.rd (y + w.c)⌋ : ℤ) : ℚ) ≤ y + w.c := (Int.floor_le _).trans (hA.rd _)
  have hx0 : (0 : ℚ) ≤ ((⌊A.rd (y + w.c)⌋ : ℤ) : ℚ) := by
    have h1 := hA.rdInt 0 (y + w.c) (by norm_num) (by push_cast; linarith)
    have h2 : 0 ≤ ⌊A.rd (y + w.c)⌋ := Int.floor_nonneg.2 (by push_cast at h1; exact h1)
    exact_mod_cast h2
  generalize ((⌊A.rd (y + w.c)⌋ : ℤ) : ℚ) = X at *
  have e1 : q.d - i = q.d - (i + 1) + 1 := by omega
  have hsum : ∑ j ∈ Ico i q.d, Enum.setAt s.1 i X j = X + ∑ j ∈ Ico (i + 1) q.d, s.1 j := by
    rw [sum_eq_sum_Ico_succ_bot hi]
    congr 1
    · simp [Enum.setAt]
    · refine sum_congr rfl fun j hj => ?_
      rw [mem_Ico] at hj
      simp only [Enum.setAt]
      rw [if_neg (by omega)]
  generalize hSS : ∑ j ∈ Ico (i + 1) q.d, s.1 j = S at *
  have hnew : 39 / 50 * (X + S) ≤ (gg ^ (q.d - i) - 1) * y := by
    rw [e1, pow_succ, show gg = 89 / 50 from rfl] at *
    generalize ((89 : ℚ) / 50) ^ (q.d - (i + 1)) = g at *
    have : 0 ≤ (g - 1) * y := mul_nonneg (by linarith) hy.le
    nlinarith
  refine ⟨fun j => ?_, ?_, fun j h1 h2 => ?_, ?_⟩
  · dsimp only [Enum.setAt]
    split_ifs
    · exact hx0
    · exact hs.X0 j
  · rw [hsum, hyy]; exact hnew
  · dsimp only [Enum.setAt]
    split_ifs with hj
    · subst hj
      rw [hyy]
      have := mul_nonneg (by norm_num : (0 : ℚ) ≤ 39 / 50) hS0
      linarith
    · exact hs.X j (by omega) h2
  · have nx : Nr 0 x _ := Nr.of_le k0 k1
    have res := ((((hs.de.add nx).ru hF hA).mul (Nr.K hF hA)).ru hF hA).add ((Nr.refl hmd.le).mul Nr.hu) |>.ru hF hA
    refine Nr.mono (a := deStep A md s.2 x) res (by omega) ?_
    rw [e1, pow_succ, show ((q.d - (i + 1) + 1 : ℕ) : ℚ) = ((q.d - (i + 1) : ℕ) : ℚ) + 1 by push_cast; ring, mul_one]
    have hhu := hu_nonneg
    have hE := h.E0
    have hd0 : (0 : ℚ) ≤ q.d := Nat.cast_nonneg _
    have hd1 : (1 : ℚ) ≤ q.d := by exact_mod_cast (by omega : 1 ≤ q.d)
    unfold ee
    generalize ((q.d - (i + 1) : ℕ) : ℚ) = m
    rw [show gg = 89 / 50 from rfl] at *
    generalize ((89 : ℚ) / 50) ^ (q.d - (i + 1)) = g at *
    generalize (q.d : ℚ) = d at *
    generalize hu = u at *
    have b1 : 4 * u ≤ g * (u * (d + 3)) := by
      have : 4 * u ≤ u * (d + 3) := by nlinarith
      exact this.trans (le_mul_of_one_le_left (by positivity) hg)
    have b2 : 211 / 100 * (151 / 100 * (E + g * (u * (d + 3)))) + 122 / 100 * E + 5 * u + u ≤ 5 * E + 5 * (g * (u * (d + 3))) := by linarith
    have b3 := mul_le_mul_of_nonneg_left b2 hmd.le
    linarith

/-- `get_max_error_aux` does not fail on such data, and its bounds are small -/
theorem maxErrorSt_nr (h : Tame A q E) (hF : Fine A) (hA : ArithOK A ρ) {md : ℚ} (hmd : 0 < md) :
    ∃ s, maxErrorSt A q md true = some s ∧ LNr A q E md 0 s := by
  have key : ∀ k m, m + k = q.d → ∃ s, forDown m q.d (fun i s => s.bind (level A q md true i)) (some (fun _ => 0, 0)) = some s ∧ LNr A q E md m s := by
    intro k
    induction k with
    | zero =>
      intro m hm
      obtain rfl : m = q.d := by omega
      rw [forDown_empty le_rfl]
      refine ⟨_, rfl, fun _ => le_rfl, ?_, fun j h1 h2 => by omega, ?_⟩
      · simp
      · simpa using Nr.refl (le_refl (0 : ℚ))
    | succ k ih =>
      intro m hm
      obtain ⟨s, h1, h2⟩ := ih (m + 1) (by omega)
      rw [forDown_bot (by omega), h1, Option.bind_some]
      exact level_nr h hF hA hmd (by omega) h2
  exact key q.d 0 (by omega)

end ErrB
end Fplll

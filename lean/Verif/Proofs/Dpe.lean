import Verif.Model.Dpe
import Mathlib.Tactic.Ring
import Mathlib.Tactic.Linarith
import Mathlib.Tactic.Positivity
import Mathlib.Tactic.FieldSimp
import Mathlib.Tactic.NormNum

/-!
# Rounding of doubles, and the operations of `dpe_t`
-/

namespace Fplll

/-- specification: numbers with a significand of 53 bits and any exponent -/
def Fl53 (q : ℚ) : Prop := ∃ n k : ℤ, |n| ≤ 2 ^ 53 ∧ q = n * 2 ^ k

/-- specification: `r` is one of the 53-bit numbers nearest to `q` -/
def Nearest (q r : ℚ) : Prop := Fl53 r ∧ ∀ s, Fl53 s → |q - r| ≤ |q - s|

theorem rhe_near (q : ℚ) : |q - rhe q| ≤ 1 / 2 := by
  have h1 := Int.floor_le q
  have h2 := Int.lt_floor_add_one q
  rw [rhe]
  split_ifs with a b c <;> push_cast <;> rw [abs_le] <;> constructor <;> linarith

/-- `rhe q` is as near to `q` as any integer -/
theorem rhe_best (q : ℚ) (m : ℤ) : |q - rhe q| ≤ |q - m| := by
  have hn := rhe_near q
  by_cases h : m = rhe q
  · rw [h]
  · have h1 : (1 : ℚ) ≤ |(rhe q : ℚ) - m| := by
      have : (1 : ℤ) ≤ |rhe q - m| := Int.one_le_abs (by omega)
      exact_mod_cast this
    have h2 : |(rhe q : ℚ) - m| ≤ |q - rhe q| + |q - m| := by
      have := abs_sub_le (rhe q : ℚ) q m
      rwa [abs_sub_comm (rhe q : ℚ) q] at this
    linarith

theorem two_zpow_pos (k : ℤ) : (0 : ℚ) < 2 ^ k := zpow_pos (by norm_num) k

theorem two_zpow_le {a b : ℤ} (h : a ≤ b) : (2 : ℚ) ^ a ≤ 2 ^ b := zpow_le_zpow_right₀ (by norm_num) h

theorem two_zpow_lt {a b : ℤ} (h : a < b) : (2 : ℚ) ^ a < 2 ^ b := zpow_lt_zpow_right₀ (by norm_num) h

theorem lt_of_two_zpow_lt {a b : ℤ} (h : (2 : ℚ) ^ a < 2 ^ b) : a < b := (zpow_lt_zpow_iff_right₀ (by norm_num)).1 h

theorem two_zpow_add (a b : ℤ) : (2 : ℚ) ^ (a + b) = 2 ^ a * 2 ^ b := zpow_add₀ (by norm_num) a b

theorem log_bounds {q : ℚ} (h : q ≠ 0) : (2 : ℚ) ^ Int.log 2 |q| ≤ |q| ∧ |q| < 2 ^ (Int.log 2 |q| + 1) := by
  have hp : 0 < |q| := abs_pos.2 h
  have a := Int.zpow_log_le_self (b := 2) (r := |q|) (by norm_num) hp
  have b := Int.lt_zpow_succ_log_self (b := 2) (by norm_num) |q|
  exact ⟨by exact_mod_cast a, by exact_mod_cast b⟩

theorem log_unique {q : ℚ} {e : ℤ} (h1 : (2 : ℚ) ^ e ≤ |q|) (h2 : |q| < 2 ^ (e + 1)) : Int.log 2 |q| = e := by
  have hq : q ≠ 0 := by
    intro h; rw [h, abs_zero] at h1; exact absurd (two_zpow_pos e) (not_lt.2 h1)
  obtain ⟨a, b⟩ := log_bounds hq
  have := lt_of_two_zpow_lt (lt_of_le_of_lt h1 b)
  have := lt_of_two_zpow_lt (lt_of_le_of_lt a h2)
  omega

/-- away from underflow `rn` works with a 53-bit integer significand -/
theorem rn_form {q : ℚ} (h : (2 : ℚ) ^ (-1022 : ℤ) ≤ |q|) : ∃ (e n : ℤ) (t : ℚ),
    e = Int.log 2 |q| - 52 ∧ q = t * 2 ^ e ∧ rn q = n * 2 ^ e ∧ n = rhe t ∧ 2 ^ 52 ≤ |t| ∧ |t| < 2 ^ 53 ∧
    2 ^ 52 ≤ |n| ∧ |n| ≤ 2 ^ 53 := by
  have hq : q ≠ 0 := by
    intro h'; rw [h', abs_zero] at h; exact absurd (two_zpow_pos _) (not_lt.2 h)
  obtain ⟨a, b⟩ := log_bounds hq
  have hL : -1022 ≤ Int.log 2 |q| := by
    have := lt_of_two_zpow_lt (lt_of_le_of_lt h b); omega
  have hu : ulpExp q = Int.log 2 |q| - 52 := by rw [ulpExp]; omega
  have hp := two_zpow_pos (Int.log 2 |q| - 52)
  have ha : (2 : ℚ) ^ Int.log 2 |q| = 2 ^ 52 * 2 ^ (Int.log 2 |q| - 52) := by
    rw [← zpow_natCast, ← two_zpow_add]; congr 1; push_cast; ring
  have hb : (2 : ℚ) ^ (Int.log 2 |q| + 1) = 2 ^ 53 * 2 ^ (Int.log 2 |q| - 52) := by
    rw [← zpow_natCast, ← two_zpow_add]; congr 1; push_cast; ring
  have ht : |q / 2 ^ (Int.log 2 |q| - 52)| = |q| / 2 ^ (Int.log 2 |q| - 52) := by
    rw [abs_div, abs_of_pos hp]
  have t1 : (2 : ℚ) ^ 52 ≤ |q / 2 ^ (Int.log 2 |q| - 52)| := by rw [ht, le_div_iff₀ hp, ← ha]; exact a
  have t2 : |q / 2 ^ (Int.log 2 |q| - 52)| < 2 ^ 53 := by rw [ht, div_lt_iff₀ hp, ← hb]; exact b
  refine ⟨_, rhe (q / 2 ^ (Int.log 2 |q| - 52)), q / 2 ^ (Int.log 2 |q| - 52), rfl, (div_mul_cancel₀ _ hp.ne').symm, ?_, rfl, t1, t2, ?_, ?_⟩
  · rw [rn, if_neg hq, hu]
  · have hn := rhe_near (q / 2 ^ (Int.log 2 |q| - 52))
    generalize q / 2 ^ (Int.log 2 |q| - 52) = t at *
    have : ((2 : ℤ) ^ 52 - 1 : ℤ) < |rhe t| := by
      have h3 : |t| ≤ |t - rhe t| + |(rhe t : ℚ)| := by
        have := abs_add_le (t - rhe t) (rhe t : ℚ); rwa [sub_add_cancel] at this
      have h4 : (2 : ℚ) ^ 52 - 1 < |(rhe t : ℚ)| := by linarith
      have h5 : (((2 : ℤ) ^ 52 - 1 : ℤ) : ℚ) < ((|rhe t| : ℤ) : ℚ) := by push_cast; norm_num at h4 ⊢; exact h4
      exact_mod_cast h5
    linarith
  · have hn := rhe_near (q / 2 ^ (Int.log 2 |q| - 52))
    generalize q / 2 ^ (Int.log 2 |q| - 52) = t at *
    have : |rhe t| < ((2 : ℤ) ^ 53 + 1 : ℤ) := by
      have h3 : |(rhe t : ℚ)| ≤ |t - rhe t| + |t| := by
        have := abs_sub_le (rhe t : ℚ) t 0
        rwa [sub_zero, sub_zero, abs_sub_comm] at this
      have h4 : |(rhe t : ℚ)| < (2 : ℚ) ^ 53 + 1 := by linarith
      have h5 : ((|rhe t| : ℤ) : ℚ) < (((2 : ℤ) ^ 53 + 1 : ℤ) : ℚ) := by push_cast; norm_num at h4 ⊢; exact h4
      exact_mod_cast h5
    linarith

/-- away from underflow `rn` is a nearest 53-bit number -/
theorem rn_nearest {q : ℚ} (h : (2 : ℚ) ^ (-1022 : ℤ) ≤ |q|) : Nearest q (rn q) := by
  obtain ⟨e, n, t, _, hq, hr, hn, t1, t2, n1, n2⟩ := rn_form h
  refine ⟨⟨n, e, n2, hr⟩, ?_⟩
  rintro s ⟨m, k, hm, rfl⟩
  have hp := two_zpow_pos e
  rw [hr, hq, ← sub_mul, abs_mul, abs_of_pos hp]
  by_cases hk : e ≤ k
  · obtain ⟨j, rfl⟩ : ∃ j : ℕ, k = e + j := ⟨(k - e).toNat, by omega⟩
    have : (m : ℚ) * 2 ^ (e + (j : ℤ)) = ((m * 2 ^ j : ℤ) : ℚ) * 2 ^ e := by
      rw [two_zpow_add, zpow_natCast]; push_cast; ring
    rw [this, ← sub_mul, abs_mul, abs_of_pos hp]
    exact mul_le_mul_of_nonneg_right (by rw [hn]; exact rhe_best t _) hp.le
  · have hs : |(m : ℚ) * 2 ^ k| ≤ 2 ^ 52 * 2 ^ e := by
      have h1 : |(m : ℚ)| ≤ 2 ^ 53 := by exact_mod_cast hm
      have h2 : (2 : ℚ) ^ k ≤ 2 ^ (e - 1) := two_zpow_le (by omega)
      have h3 : (2 : ℚ) ^ e = 2 * 2 ^ (e - 1) := by
        rw [show e = 1 + (e - 1) by ring, two_zpow_add]; norm_num
      rw [abs_mul, abs_of_pos (two_zpow_pos k)]
      calc |(m : ℚ)| * 2 ^ k ≤ 2 ^ 53 * 2 ^ (e - 1) := mul_le_mul h1 h2 (two_zpow_pos k).le (by norm_num)
        _ = _ := by rw [h3]; ring
    have hbest : |t - rhe t| ≤ |t| - 2 ^ 52 := by
      rcases le_total 0 t with h0 | h0
      · have := rhe_best t (2 ^ 52)
        rw [abs_of_nonneg h0] at t1 ⊢
        have e52 : (((2 ^ 52 : ℤ)) : ℚ) = 2 ^ 52 := by norm_num
        rw [e52] at this
        rwa [abs_of_nonneg (by linarith : 0 ≤ t - 2 ^ 52)] at this
      · have := rhe_best t (-2 ^ 52)
        rw [abs_of_nonpos h0] at t1 ⊢
        have e52 : (((-2 ^ 52 : ℤ)) : ℚ) = -2 ^ 52 := by norm_num
        rw [e52] at this
        rw [abs_of_nonpos (by linarith : t - -2 ^ 52 ≤ 0)] at this
        linarith
    have htri : |t * 2 ^ e| - |(m : ℚ) * 2 ^ k| ≤ |t * 2 ^ e - m * 2 ^ k| := abs_sub_abs_le_abs_sub _ _
    rw [abs_mul, abs_of_pos hp] at htri
    rw [hn]
    have := mul_le_mul_of_nonneg_right hbest hp.le
    linarith [this, sub_mul |t| (2 ^ 52 : ℚ) ((2 : ℚ) ^ e)]

/-- rounding error relative to the result -/
theorem rn_err {q : ℚ} (h : (2 : ℚ) ^ (-1022 : ℤ) ≤ |q|) : |q - rn q| ≤ 2 ^ (-53 : ℤ) * |rn q| := by
  obtain ⟨e, n, t, _, hq, hr, hn, t1, t2, n1, n2⟩ := rn_form h
  have hp := two_zpow_pos e
  have hq' : q - rn q = (t - n) * 2 ^ e := by rw [hr, hq]; ring
  rw [hq', hr, abs_mul, abs_mul, abs_of_pos hp, ← mul_assoc]
  refine mul_le_mul_of_nonneg_right ?_ hp.le
  rw [hn]
  refine (rhe_near t).trans ?_
  have : (2 : ℚ) ^ 52 ≤ |(rhe t : ℚ)| := by rw [← hn]; exact_mod_cast n1
  calc (1 / 2 : ℚ) = 2 ^ (-53 : ℤ) * 2 ^ 52 := by norm_num
    _ ≤ _ := mul_le_mul_of_nonneg_left this (by norm_num)

theorem fl53_zero : Fl53 0 := ⟨0, 0, by norm_num, by simp⟩

theorem nearest_self {q r : ℚ} (h : Nearest q r) (hq : Fl53 q) : r = q := by
  have := h.2 q hq
  rw [sub_self, abs_zero] at this
  have := abs_nonpos_iff.1 this
  linarith

/-- numbers with 53 bits are not changed by rounding -/
theorem rn_fl53 {q : ℚ} (h : Fl53 q) (hb : q = 0 ∨ (2 : ℚ) ^ (-1022 : ℤ) ≤ |q|) : rn q = q := by
  rcases hb with rfl | hb
  · simp [rn]
  · exact nearest_self (rn_nearest hb) h

theorem rn_zero : rn 0 = 0 := by simp [rn]

theorem fl53_scale {q : ℚ} (h : Fl53 q) (k : ℤ) : Fl53 (q * 2 ^ k) := by
  obtain ⟨n, j, hn, rfl⟩ := h
  exact ⟨n, j + k, hn, by rw [two_zpow_add]; ring⟩

theorem nearest_scale {q r : ℚ} (h : Nearest q r) (k : ℤ) : Nearest (q * 2 ^ k) (r * 2 ^ k) := by
  refine ⟨fl53_scale h.1 k, fun s hs => ?_⟩
  have hp := two_zpow_pos k
  have h1 : Fl53 (s * 2 ^ (-k)) := fl53_scale hs (-k)
  have h2 := h.2 _ h1
  have h3 : s = s * 2 ^ (-k) * 2 ^ k := by rw [mul_assoc, ← two_zpow_add]; simp
  rw [h3, ← sub_mul, ← sub_mul, abs_mul, abs_mul]
  exact mul_le_mul_of_nonneg_right h2 (abs_nonneg _)

theorem fl53_neg {q : ℚ} (h : Fl53 q) : Fl53 (-q) := by
  obtain ⟨n, k, hn, rfl⟩ := h
  exact ⟨-n, k, by rwa [abs_neg], by push_cast; ring⟩

theorem fl53_int {z : ℤ} (h : |z| ≤ 2 ^ 53) : Fl53 z := ⟨z, 0, h, by simp⟩

end Fplll

namespace Fplll
namespace Dpe

/-- specification: the number a `dpe_t` stands for -/
def val (x : Dpe) : ℚ := x.d * 2 ^ x.exp

/-- the exponent is an `int` -/
def ExpOk (x : Dpe) : Prop := -2 ^ 31 ≤ x.exp ∧ x.exp < 2 ^ 31

/-- specification: a normalized `dpe_t`: the mantissa has 53 bits and `1/2 ≤ |d| < 1`, or it is the zero with the least
exponent (the comment of `dpe_normalize`, dpe.h:147) -/
def Norm (x : Dpe) : Prop :=
  ExpOk x ∧ ((x.d = 0 ∧ x.exp = -2 ^ 31) ∨ ∃ n : ℤ, x.d = n / 2 ^ 53 ∧ 2 ^ 52 ≤ |n| ∧ |n| < 2 ^ 53)

/-- a mantissa of a normalized number -/
def MantOk (d : ℚ) : Prop := ∃ n : ℤ, d = n / 2 ^ 53 ∧ 2 ^ 52 ≤ |n| ∧ |n| < 2 ^ 53

theorem mantOk_bounds {d : ℚ} (h : MantOk d) : 1 / 2 ≤ |d| ∧ |d| < 1 := by
  obtain ⟨n, rfl, h1, h2⟩ := h
  have h1' : (2 : ℚ) ^ 52 ≤ |(n : ℚ)| := by exact_mod_cast h1
  have h2' : |(n : ℚ)| < (2 : ℚ) ^ 53 := by exact_mod_cast h2
  rw [abs_div, abs_of_pos (by norm_num : (0 : ℚ) < 2 ^ 53)]
  constructor
  · rw [le_div_iff₀ (by norm_num)]; norm_num at h1' ⊢; exact h1'
  · rw [div_lt_one (by norm_num)]; exact h2'

theorem mantOk_ne {d : ℚ} (h : MantOk d) : d ≠ 0 := by
  rintro rfl
  have := (mantOk_bounds h).1
  norm_num at this

theorem mantOk_fl53 {d : ℚ} (h : MantOk d) : Fl53 d := by
  obtain ⟨n, rfl, h1, h2⟩ := h
  exact ⟨n, -53, h2.le, by norm_num [div_eq_mul_inv]⟩

theorem norm_fl53 {x : Dpe} (h : Norm x) : Fl53 x.d := by
  rcases h.2 with ⟨h0, _⟩ | h1
  · rw [h0]; exact fl53_zero
  · exact mantOk_fl53 h1

theorem val_fl53 {x : Dpe} (h : Norm x) : Fl53 x.val := fl53_scale (norm_fl53 h) _

theorem chk_ok {e t : ℤ} : chk e = .ok t ↔ t = e ∧ -2 ^ 31 ≤ e ∧ e < 2 ^ 31 := by
  rw [chk]
  split_ifs with h
  · constructor
    · intro h'; cases h'; exact ⟨rfl, h⟩
    · rintro ⟨rfl, _⟩; rfl
  · constructor
    · intro h'; cases h'
    · rintro ⟨rfl, h'⟩; exact absurd h' h

theorem chk_of {e : ℤ} (h1 : -2 ^ 31 ≤ e) (h2 : e < 2 ^ 31) : chk e = .ok e := chk_ok.2 ⟨rfl, h1, h2⟩

/-- a 53-bit number divided by its power of two is a mantissa -/
theorem mantOk_frexp {m : ℚ} (h : Fl53 m) (h0 : m ≠ 0) : MantOk (m / 2 ^ frexpE m) := by
  obtain ⟨a, b⟩ := log_bounds h0
  obtain ⟨n, k, hn, rfl⟩ := h
  set L := Int.log 2 |(n : ℚ) * 2 ^ k| with hL
  have hfe : frexpE ((n : ℚ) * 2 ^ k) = L + 1 := rfl
  rw [hfe]
  have hn0 : n ≠ 0 := by rintro rfl; simp at h0
  rw [abs_mul, abs_of_pos (two_zpow_pos k)] at a b
  have hnq : |(n : ℚ)| ≤ 2 ^ (53 : ℤ) := by exact_mod_cast hn
  have hn1 : (1 : ℚ) ≤ |(n : ℚ)| := by exact_mod_cast Int.one_le_abs hn0
  -- the significand as an integer
  have key : ∃ N : ℤ, (n : ℚ) * 2 ^ k / 2 ^ (L + 1) = N / 2 ^ 53 := by
    by_cases hlt : |n| < 2 ^ 53
    · have hlq : |(n : ℚ)| < 2 ^ (53 : ℤ) := by exact_mod_cast hlt
      have h1 : (2 : ℚ) ^ L < 2 ^ (53 + k) := by
        rw [two_zpow_add]
        exact lt_of_le_of_lt a (mul_lt_mul_of_pos_right hlq (two_zpow_pos k))
      have h2 := lt_of_two_zpow_lt h1
      obtain ⟨j, hj⟩ : ∃ j : ℕ, k + 53 = L + 1 + j := ⟨(k + 53 - (L + 1)).toNat, by omega⟩
      refine ⟨n * 2 ^ j, ?_⟩
      rw [div_eq_div_iff (two_zpow_pos _).ne' (by norm_num)]
      push_cast
      have e1 : (2 : ℚ) ^ k * 2 ^ 53 = 2 ^ (L + 1) * 2 ^ j := by
        rw [← zpow_natCast, ← zpow_natCast, ← two_zpow_add, ← two_zpow_add]
        congr 1
      rw [mul_assoc, e1]; ring
    · have hEq : |n| = 2 ^ 53 := le_antisymm hn (not_lt.1 hlt)
      have hEq' : |(n : ℚ)| = 2 ^ (53 : ℤ) := by exact_mod_cast hEq
      rw [hEq', ← two_zpow_add] at a b
      have hLk : L = 53 + k := by
        have := lt_of_two_zpow_lt b
        by_contra hne
        have h3 : (2 : ℚ) ^ (53 + k) < 2 ^ L := two_zpow_lt (by omega)
        linarith
      rcases abs_eq (by norm_num : (0 : ℤ) ≤ 2 ^ 53) |>.1 hEq with h | h
      · refine ⟨2 ^ 52, ?_⟩
        rw [h, hLk, div_eq_div_iff (two_zpow_pos _).ne' (by norm_num), two_zpow_add, two_zpow_add]
        push_cast; norm_num; ring
      · refine ⟨-2 ^ 52, ?_⟩
        rw [h, hLk, div_eq_div_iff (two_zpow_pos _).ne' (by norm_num), two_zpow_add, two_zpow_add]
        push_cast; norm_num; ring
  obtain ⟨N, hN⟩ := key
  refine ⟨N, hN, ?_, ?_⟩
  · have h1 : (2 : ℚ) ^ 52 ≤ |(N : ℚ)| := by
      have : |(N : ℚ)| / 2 ^ 53 = |(n : ℚ)| * 2 ^ k / 2 ^ (L + 1) := by
        have := congrArg (fun t : ℚ => |t|) hN
        rw [abs_div, abs_div, abs_mul, abs_of_pos (two_zpow_pos k), abs_of_pos (two_zpow_pos (L + 1)),
          abs_of_pos (by norm_num : (0 : ℚ) < 2 ^ 53)] at this
        exact this.symm
      have h2 : (1 / 2 : ℚ) ≤ |(N : ℚ)| / 2 ^ 53 := by
        rw [this, le_div_iff₀ (two_zpow_pos _), two_zpow_add]
        linarith
      rw [le_div_iff₀ (by norm_num)] at h2
      norm_num at h2 ⊢; exact h2
    exact_mod_cast h1
  · have h1 : |(N : ℚ)| < (2 : ℚ) ^ 53 := by
      have : |(N : ℚ)| / 2 ^ 53 = |(n : ℚ)| * 2 ^ k / 2 ^ (L + 1) := by
        have := congrArg (fun t : ℚ => |t|) hN
        rw [abs_div, abs_div, abs_mul, abs_of_pos (two_zpow_pos k), abs_of_pos (two_zpow_pos (L + 1)),
          abs_of_pos (by norm_num : (0 : ℚ) < 2 ^ 53)] at this
        exact this.symm
      have h2 : |(N : ℚ)| / 2 ^ 53 < 1 := by
        rw [this, div_lt_one (two_zpow_pos _)]
        exact b
      rwa [div_lt_one (by norm_num)] at h2
    exact_mod_cast h1

/-- both versions of `dpe_normalize` agree on doubles that are not subnormal -/
theorem normalize_agree {x : Dpe} (hm : (2 : ℚ) ^ (-1022 : ℤ) ≤ |x.d|) : normalize true x = normalize false x := by
  have h0 : x.d ≠ 0 := by
    intro h'; rw [h', abs_zero] at hm; exact absurd (two_zpow_pos _) (not_lt.2 hm)
  rw [normalize, normalize, if_neg h0, if_neg h0, if_pos rfl]
  rw [if_neg (show ¬ (false = true) by decide)]
  have he : expField x.d - 1022 = frexpE x.d := by
    rw [expField, if_neg (not_lt.2 hm), frexpE]; ring
  have hd : (if x.d < 0 then -1 else 1) * ((2 ^ 52 + fracBits x.d) / 2 ^ 53) = x.d / 2 ^ frexpE x.d := by
    rw [fracBits, if_neg (not_lt.2 hm), frexpE]
    have e1 : (2 : ℚ) ^ (Int.log 2 |x.d| + 1) = 2 ^ (Int.log 2 |x.d| - 52) * 2 ^ 53 := by
      rw [← zpow_natCast, ← two_zpow_add]; congr 1; push_cast; ring
    have hp := (two_zpow_pos (Int.log 2 |x.d| - 52)).ne'
    rw [e1]
    have : (2 : ℚ) ^ 52 + (|x.d| / 2 ^ (Int.log 2 |x.d| - 52) - 2 ^ 52) = |x.d| / 2 ^ (Int.log 2 |x.d| - 52) := by ring
    rw [this, div_div]
    split_ifs with hneg
    · rw [abs_of_neg hneg]; ring
    · rw [abs_of_nonneg (not_lt.1 hneg)]; ring
  rw [he, hd]

/-- `dpe_normalize` does not change the number and makes it normalized -/
theorem normalize_ok {le : Bool} {x r : Dpe} (hf : Fl53 x.d) (hm : x.d = 0 ∨ (2 : ℚ) ^ (-1022 : ℤ) ≤ |x.d|)
    (h : normalize le x = .ok r) : Norm r ∧ r.val = x.val := by
  by_cases h0 : x.d = 0
  · rw [normalize, if_pos h0] at h
    cases h
    refine ⟨⟨⟨le_refl _, by norm_num [expMin]⟩, Or.inl ⟨rfl, rfl⟩⟩, ?_⟩
    simp [val, h0]
  · have hm' := hm.resolve_left h0
    have h' : normalize false x = .ok r := by
      cases le
      · exact h
      · rw [← normalize_agree hm']; exact h
    rw [normalize, if_neg h0, if_neg (by decide)] at h'
    cases hc : chk (x.exp + frexpE x.d) with
    | error e => rw [hc] at h'; cases h'
    | ok t =>
      rw [hc] at h'
      obtain ⟨rfl, r1, r2⟩ := chk_ok.1 hc
      cases h'
      refine ⟨⟨⟨r1, r2⟩, Or.inr (mantOk_frexp hf h0)⟩, ?_⟩
      rw [val, val, two_zpow_add]
      have := (two_zpow_pos (frexpE x.d)).ne'
      field_simp

/-- `dpe_normalize` succeeds when the new exponent is an `int` -/
theorem normalize_total {le : Bool} {x : Dpe} (hm : x.d = 0 ∨ (2 : ℚ) ^ (-1022 : ℤ) ≤ |x.d|)
    (h1 : x.d ≠ 0 → -2 ^ 31 ≤ x.exp + frexpE x.d) (h2 : x.d ≠ 0 → x.exp + frexpE x.d < 2 ^ 31) :
    ∃ r, normalize le x = .ok r := by
  by_cases h0 : x.d = 0
  · exact ⟨_, by rw [normalize, if_pos h0]⟩
  · have hm' := hm.resolve_left h0
    have h' : ∃ r, normalize false x = .ok r := by
      rw [normalize, if_neg h0, if_neg (by decide), chk_of (h1 h0) (h2 h0)]
      exact ⟨_, rfl⟩
    cases le
    · exact h'
    · rw [normalize_agree hm']; exact h'

theorem small_le {q : ℚ} {k : ℤ} (hk : -1022 ≤ k) (h : (2 : ℚ) ^ k ≤ |q|) : (2 : ℚ) ^ (-1022 : ℤ) ≤ |q| :=
  (two_zpow_le hk).trans h

/-- rounding does not go below a power of two -/
theorem rn_ge {q : ℚ} (h : (2 : ℚ) ^ (-1022 : ℤ) ≤ |q|) : (2 : ℚ) ^ (-1022 : ℤ) ≤ |rn q| := by
  obtain ⟨e, n, t, he, hq, hr, hn, t1, t2, n1, n2⟩ := rn_form h
  have hq0 : q ≠ 0 := by
    intro h'; rw [h', abs_zero] at h; exact absurd (two_zpow_pos _) (not_lt.2 h)
  obtain ⟨a, b⟩ := log_bounds hq0
  have hL : -1022 ≤ Int.log 2 |q| := by
    have := lt_of_two_zpow_lt (lt_of_le_of_lt h b); omega
  rw [hr, abs_mul, abs_of_pos (two_zpow_pos e)]
  have h1 : (2 : ℚ) ^ (52 : ℤ) ≤ |(n : ℚ)| := by exact_mod_cast n1
  calc (2 : ℚ) ^ (-1022 : ℤ) ≤ 2 ^ (52 + e) := two_zpow_le (by omega)
    _ = 2 ^ (52 : ℤ) * 2 ^ e := two_zpow_add _ _
    _ ≤ _ := mul_le_mul_of_nonneg_right h1 (two_zpow_pos e).le

/-- the last step of every arithmetic operation: round the mantissa and normalize -/
theorem round_ok {le : Bool} {q : ℚ} {e : ℤ} {r : Dpe} (hq : q = 0 ∨ (2 : ℚ) ^ (-1022 : ℤ) ≤ |q|)
    (h : normalize le ⟨rn q, e⟩ = .ok r) :
    Norm r ∧ Nearest (q * 2 ^ e) r.val ∧ |q * 2 ^ e - r.val| ≤ 2 ^ (-53 : ℤ) * |r.val| := by
  have hn : Nearest q (rn q) ∧ |q - rn q| ≤ 2 ^ (-53 : ℤ) * |rn q| := by
    rcases hq with rfl | hq
    · rw [rn_zero]
      exact ⟨⟨fl53_zero, fun s _ => by simp⟩, by simp⟩
    · exact ⟨rn_nearest hq, rn_err hq⟩
  obtain ⟨h1, h2⟩ := normalize_ok (x := ⟨rn q, e⟩) hn.1.1
    (hq.imp (fun h => by rw [h]; exact rn_zero) rn_ge) h
  rw [h2]
  refine ⟨h1, nearest_scale hn.1 e, ?_⟩
  show |q * 2 ^ e - rn q * 2 ^ e| ≤ 2 ^ (-53 : ℤ) * |rn q * 2 ^ e|
  rw [← sub_mul, abs_mul, abs_mul, ← mul_assoc]
  exact mul_le_mul_of_nonneg_right hn.2 (abs_nonneg _)

/-- the constants of `dpe_scale_tab` are exactly the powers of two -/
theorem scaleTab_eq : scaleTab = (List.range 54).map fun k : ℕ => (1 / 2 ^ k : ℚ) := by decide +kernel

/-- the integer significand of a normalized number -/
theorem norm_int {x : Dpe} (h : Norm x) :
    ∃ n : ℤ, x.d = n / 2 ^ 53 ∧ |n| < 2 ^ 53 ∧ (2 ^ 52 ≤ |n| ∨ n = 0 ∧ x.d = 0 ∧ x.exp = -2 ^ 31) := by
  rcases h.2 with ⟨h0, h1⟩ | ⟨n, h1, h2, h3⟩
  · exact ⟨0, by simp [h0], by norm_num, Or.inr ⟨rfl, h0, h1⟩⟩
  · exact ⟨n, h1, h3, Or.inl h2⟩

/-- `dpe_scale` is exact -/
theorem scale_eq {x : Dpe} (h : Norm x) {k : ℕ} (hk : k ≤ 53) : scale x.d (-(k : ℤ)) = x.d / 2 ^ k := by
  have ht : scaleTab.getD k 0 = 1 / 2 ^ k := by
    rw [scaleTab_eq, List.getD_eq_getElem?_getD, List.getElem?_map, List.getElem?_range (by omega)]
    rfl
  rw [scale, neg_neg, Int.toNat_natCast, ht, mul_one_div]
  have hdiv : x.d / 2 ^ k = x.d * 2 ^ (-(k : ℤ)) := by rw [zpow_neg, zpow_natCast, div_eq_mul_inv]
  refine rn_fl53 (by rw [hdiv]; exact fl53_scale (norm_fl53 h) _) ?_
  rcases h.2 with ⟨h0, _⟩ | h1
  · left; rw [h0, zero_div]
  · right
    rw [hdiv, abs_mul, abs_of_pos (two_zpow_pos _)]
    have hb := (mantOk_bounds h1).1
    calc (2 : ℚ) ^ (-1022 : ℤ) ≤ 2 ^ (-1 + -(k : ℤ)) := two_zpow_le (by omega)
      _ = 2 ^ (-1 : ℤ) * 2 ^ (-(k : ℤ)) := two_zpow_add _ _
      _ ≤ _ := mul_le_mul_of_nonneg_right (by norm_num at hb ⊢; exact hb) (two_zpow_pos _).le

/-- the sum of two mantissas, one shifted by at most 53 places, is zero or not small -/
theorem sum_size {y z : Dpe} (hy : Norm y) (hz : Norm z) {k : ℕ} (hk : k ≤ 53) :
    y.d + z.d / 2 ^ k = 0 ∨ (2 : ℚ) ^ (-1022 : ℤ) ≤ |y.d + z.d / 2 ^ k| := by
  obtain ⟨n, hn, -, -⟩ := norm_int hy
  obtain ⟨m, hm, -, -⟩ := norm_int hz
  have hs : y.d + z.d / 2 ^ k = ((n * 2 ^ k + m : ℤ) : ℚ) * 2 ^ (-(53 + k : ℤ)) := by
    rw [hn, hm, zpow_neg, two_zpow_add, zpow_natCast]
    have : (2 : ℚ) ^ k ≠ 0 := by positivity
    push_cast
    field_simp
    norm_num
    try ring
  by_cases h0 : n * 2 ^ k + m = 0
  · left; rw [hs, h0]; simp
  · right
    rw [hs, abs_mul, abs_of_pos (two_zpow_pos _)]
    have h1 : (1 : ℚ) ≤ |((n * 2 ^ k + m : ℤ) : ℚ)| := by exact_mod_cast Int.one_le_abs h0
    calc (2 : ℚ) ^ (-1022 : ℤ) ≤ 2 ^ (-(53 + k : ℤ)) := two_zpow_le (by omega)
      _ = 1 * 2 ^ (-(53 + k : ℤ)) := (one_mul _).symm
      _ ≤ _ := mul_le_mul_of_nonneg_right h1 (two_zpow_pos _).le

/-- an integer significand is still nearest after a small disturbance -/
theorem far_int {n : ℤ} {w : ℚ} (hn : 2 ^ 52 ≤ n) (hw : |w| ≤ 1 / 2) (hc : n = 2 ^ 52 → w < 0 → |w| ≤ 1 / 4)
    {s : ℚ} (hs : Fl53 s) : |w| ≤ |(n : ℚ) + w - s| := by
  obtain ⟨m, k, hm, rfl⟩ := hs
  obtain ⟨w1, w2⟩ := abs_le.1 hw
  have hnq : (2 : ℚ) ^ 52 ≤ n := by exact_mod_cast hn
  by_cases hk : 0 ≤ k
  · obtain ⟨j, rfl⟩ : ∃ j : ℕ, k = j := ⟨k.toNat, by omega⟩
    have hi : (m : ℚ) * 2 ^ (j : ℤ) = ((m * 2 ^ j : ℤ) : ℚ) := by push_cast; rfl
    rw [hi]
    generalize m * 2 ^ j = i
    by_cases hin : i = n
    · rw [hin]; simp
    · have h1 : (1 : ℚ) ≤ |(n : ℚ) - i| := by exact_mod_cast Int.one_le_abs (sub_ne_zero.2 (Ne.symm hin))
      have h2 : |(n : ℚ) - i| ≤ |(n : ℚ) + w - i| + |w| := by
        have := abs_sub_le ((n : ℚ) + w - i) 0 w
        have h3 : (n : ℚ) - i = ((n : ℚ) + w - i) - w := by ring
        rw [h3]; exact abs_sub _ _
      linarith
  · have hmq : (m : ℚ) ≤ 2 ^ 53 := by exact_mod_cast (le_abs_self m).trans hm
    have hp : (2 : ℚ) ^ k ≤ 1 / 2 := by
      calc (2 : ℚ) ^ k ≤ 2 ^ (-1 : ℤ) := two_zpow_le (by omega)
        _ = _ := by norm_num
    have hs52 : (m : ℚ) * 2 ^ k ≤ 2 ^ 52 := by
      calc (m : ℚ) * 2 ^ k ≤ 2 ^ 53 * 2 ^ k := mul_le_mul_of_nonneg_right hmq (two_zpow_pos k).le
        _ ≤ 2 ^ 53 * (1 / 2) := mul_le_mul_of_nonneg_left hp (by norm_num)
        _ = _ := by norm_num
    by_cases h52 : n = 2 ^ 52
    · have hq52 : (n : ℚ) = 2 ^ 52 := by exact_mod_cast h52
      rw [hq52]
      by_cases hw0 : 0 ≤ w
      · rw [abs_of_nonneg hw0, abs_of_nonneg (by linarith)]; linarith
      · have hw4 := hc h52 (not_le.1 hw0)
        obtain ⟨w3, w4⟩ := abs_le.1 hw4
        by_cases hk1 : k = -1
        · subst hk1
          have hhalf : (m : ℚ) * 2 ^ (-1 : ℤ) = m / 2 := by norm_num [div_eq_mul_inv]
          rw [hhalf] at hs52 ⊢
          by_cases hm53 : m = 2 ^ 53
          · have : (2 : ℚ) ^ 52 + w - ((2 ^ 53 : ℤ) : ℚ) / 2 = w := by push_cast; ring
            rw [hm53, this]
          · have hm' : m ≤ 2 ^ 53 - 1 := by
              have := (le_abs_self m).trans hm; omega
            have hm'' : (m : ℚ) ≤ 2 ^ 53 - 1 := by
              have : ((m : ℤ) : ℚ) ≤ ((2 ^ 53 - 1 : ℤ) : ℚ) := by exact_mod_cast hm'
              norm_num at this ⊢; exact this
            rw [abs_of_neg (not_le.1 hw0), abs_of_nonneg (by linarith)]
            linarith
        · have hp4 : (2 : ℚ) ^ k ≤ 1 / 4 := by
            calc (2 : ℚ) ^ k ≤ 2 ^ (-2 : ℤ) := two_zpow_le (by omega)
              _ = _ := by norm_num
          have hs51 : (m : ℚ) * 2 ^ k ≤ 2 ^ 51 := by
            calc (m : ℚ) * 2 ^ k ≤ 2 ^ 53 * 2 ^ k := mul_le_mul_of_nonneg_right hmq (two_zpow_pos k).le
              _ ≤ 2 ^ 53 * (1 / 4) := mul_le_mul_of_nonneg_left hp4 (by norm_num)
              _ = _ := by norm_num
          rw [abs_of_neg (not_le.1 hw0), abs_of_nonneg (by linarith)]
          linarith
    · have hn1 : (2 : ℚ) ^ 52 + 1 ≤ n := by
        have : (2 : ℤ) ^ 52 + 1 ≤ n := by omega
        have h' : ((2 ^ 52 + 1 : ℤ) : ℚ) ≤ n := by exact_mod_cast this
        norm_num at h' ⊢; exact h'
      rw [abs_of_nonneg (by linarith : 0 ≤ (n : ℚ) + w - m * 2 ^ k), abs_le]
      constructor <;> linarith

/-- the exponents in `dpe_add`: which of the three branches is taken, and nothing overflows before the last step -/
theorem add_cases {le : Bool} {y z x : Dpe} (h : add le y z = .ok x) :
    (z.exp + 53 < y.exp ∧ x = y) ∨ (y.exp + 53 < z.exp ∧ x = z) ∨
    (∃ k : ℕ, k ≤ 53 ∧ y.exp = z.exp + k ∧ normalize le ⟨rn (y.d + scale z.d (-(k : ℤ))), y.exp⟩ = .ok x) ∨
    (∃ k : ℕ, k ≤ 53 ∧ z.exp = y.exp + k ∧ normalize le ⟨rn (z.d + scale y.d (-(k : ℤ))), z.exp⟩ = .ok x) := by
  rw [add] at h
  cases h1 : chk (z.exp + 53) with
  | error e => rw [h1] at h; cases h
  | ok t =>
    obtain ⟨rfl, -, -⟩ := chk_ok.1 h1
    rw [h1] at h
    simp only [bind, Except.bind] at h
    by_cases c1 : z.exp + 53 < y.exp
    · rw [if_pos c1] at h
      cases h
      exact Or.inl ⟨c1, rfl⟩
    · rw [if_neg c1] at h
      cases h2 : chk (y.exp + 53) with
      | error e => rw [h2] at h; cases h
      | ok t =>
        obtain ⟨rfl, -, -⟩ := chk_ok.1 h2
        rw [h2] at h
        simp only [] at h
        by_cases c2 : y.exp + 53 < z.exp
        · rw [if_pos c2] at h
          cases h
          exact Or.inr (Or.inl ⟨c2, rfl⟩)
        · rw [if_neg c2] at h
          cases h3 : chk (y.exp - z.exp) with
          | error e => rw [h3] at h; cases h
          | ok t =>
            obtain ⟨rfl, -, -⟩ := chk_ok.1 h3
            rw [h3] at h
            simp only [] at h
            by_cases c3 : 0 ≤ y.exp - z.exp
            · rw [if_pos c3] at h
              refine Or.inr (Or.inr (Or.inl ⟨(y.exp - z.exp).toNat, by omega, by omega, ?_⟩))
              rw [Int.toNat_of_nonneg c3]; exact h
            · rw [if_neg c3] at h
              refine Or.inr (Or.inr (Or.inr ⟨(z.exp - y.exp).toNat, by omega, by omega, ?_⟩))
              rw [Int.toNat_of_nonneg (by omega), neg_sub]; exact h

/-- the case where `dpe_add` returns the larger operand although another 53-bit number is nearer: the larger operand is a
power of two, the other one has the opposite sign, and the exponents differ by 54 -/
def Corner (y z : Dpe) : Prop := y.exp = z.exp + 54 ∧ |y.d| = 1 / 2 ∧ y.d * z.d < 0 ∧ 1 / 2 < |z.d|

theorem far_err {y z : Dpe} (hy : Norm y) (hz : Norm z) (h : z.exp + 53 < y.exp) :
    |y.val + z.val - y.val| ≤ 2 ^ (-53 : ℤ) * |y.val| := by
  have hy1 : MantOk y.d := by
    rcases hy.2 with ⟨_, h1⟩ | h1
    · have := hz.1.1; omega
    · exact h1
  have hyb := (mantOk_bounds hy1).1
  have hzb : |z.d| < 1 := by
    rcases hz.2 with ⟨h0, _⟩ | h1
    · rw [h0]; norm_num
    · exact (mantOk_bounds h1).2
  rw [add_sub_cancel_left, val, val, abs_mul, abs_mul, abs_of_pos (two_zpow_pos _), abs_of_pos (two_zpow_pos _)]
  calc |z.d| * 2 ^ z.exp ≤ 1 * 2 ^ (y.exp - 54) :=
        mul_le_mul hzb.le (two_zpow_le (by omega)) (two_zpow_pos _).le (by norm_num)
    _ = 2 ^ (-53 : ℤ) * (1 / 2 * 2 ^ y.exp) := by
        rw [show y.exp - 54 = -53 + (-1 + y.exp) by ring, two_zpow_add, two_zpow_add]; norm_num
    _ ≤ _ := mul_le_mul_of_nonneg_left (mul_le_mul_of_nonneg_right hyb (two_zpow_pos _).le) (two_zpow_pos _).le

/-- the operand that `dpe_add` returns when the exponents differ by more than 53 is nearest to the sum, except in the corner
case -/
theorem far_nearest {y z : Dpe} (hy : Norm y) (hz : Norm z) (h : z.exp + 53 < y.exp) (hc : ¬ Corner y z) :
    Nearest (y.val + z.val) y.val := by
  refine ⟨val_fl53 hy, fun s hs => ?_⟩
  rw [add_sub_cancel_left]
  obtain ⟨n, hn, hlt, hge⟩ := norm_int hy
  have hge' : 2 ^ 52 ≤ |n| := by
    rcases hge with h1 | ⟨_, _, h1⟩
    · exact h1
    · have := hz.1.1; omega
  have hzb : |z.d| < 1 ∧ (z.d = 0 ∨ 1 / 2 ≤ |z.d|) := by
    rcases hz.2 with ⟨h0, _⟩ | h1
    · rw [h0]; norm_num
    · exact ⟨(mantOk_bounds h1).2, Or.inr (mantOk_bounds h1).1⟩
  -- in units of the last place of `y`
  set u : ℚ := 2 ^ (y.exp - 53) with hu
  have hup : 0 < u := two_zpow_pos _
  have hyv : y.val = n * u := by
    rw [val, hn, hu, show y.exp - 53 = y.exp + -53 by ring, two_zpow_add]; norm_num; ring
  set w : ℚ := z.val / u with hw
  have hzv : z.val = w * u := (div_mul_cancel₀ _ hup.ne').symm
  have hzu : w = z.d * 2 ^ (z.exp - (y.exp - 53)) := by
    rw [hw, val, hu, div_eq_iff hup.ne', hu, mul_assoc, ← two_zpow_add]; congr 2; ring
  have hw2 : |w| ≤ 1 / 2 := by
    rw [hzu, abs_mul, abs_of_pos (two_zpow_pos _)]
    calc |z.d| * 2 ^ (z.exp - (y.exp - 53)) ≤ 1 * 2 ^ (-1 : ℤ) :=
          mul_le_mul hzb.1.le (two_zpow_le (by omega)) (two_zpow_pos _).le (by norm_num)
      _ = _ := by norm_num
  have hw4 : |n| = 2 ^ 52 → y.d * z.d < 0 → |w| ≤ 1 / 4 := by
    intro h52 hneg
    have hyd : |y.d| = 1 / 2 := by
      have : |(n : ℚ)| = 2 ^ 52 := by exact_mod_cast h52
      rw [hn, abs_div, this, abs_of_pos (by norm_num : (0 : ℚ) < 2 ^ 53)]; norm_num
    rw [hzu, abs_mul, abs_of_pos (two_zpow_pos _)]
    by_cases h54 : y.exp = z.exp + 54
    · have hzd : |z.d| ≤ 1 / 2 := by
        by_contra hgt
        exact hc ⟨h54, hyd, hneg, not_le.1 hgt⟩
      rw [show z.exp - (y.exp - 53) = -1 by omega]
      calc |z.d| * 2 ^ (-1 : ℤ) ≤ 1 / 2 * 2 ^ (-1 : ℤ) := mul_le_mul_of_nonneg_right hzd (by norm_num)
        _ = _ := by norm_num
    · calc |z.d| * 2 ^ (z.exp - (y.exp - 53)) ≤ 1 * 2 ^ (-2 : ℤ) :=
            mul_le_mul hzb.1.le (two_zpow_le (by omega)) (two_zpow_pos _).le (by norm_num)
        _ = _ := by norm_num
  have hpw : (0 : ℚ) < 2 ^ (z.exp - (y.exp - 53)) := two_zpow_pos _
  have hs' : Fl53 (s / u) := by
    have : s / u = s * 2 ^ (-(y.exp - 53)) := by rw [hu, zpow_neg, div_eq_mul_inv]
    rw [this]; exact fl53_scale hs _
  have hsu : s = s / u * u := (div_mul_cancel₀ _ hup.ne').symm
  rw [hyv, hzv, hsu, ← add_mul, ← sub_mul, abs_mul, abs_mul, abs_of_pos hup]
  refine mul_le_mul_of_nonneg_right ?_ hup.le
  rcases le_total 0 n with h0 | h0
  · rw [abs_of_nonneg h0] at hge' hw4
    refine far_int hge' hw2 (fun h52 hwn => hw4 h52 ?_) hs'
    have hyp : 0 < y.d := by
      rw [hn]
      have : (0 : ℚ) < n := by
        have : (0 : ℤ) < n := by omega
        exact_mod_cast this
      positivity
    have hzn : z.d < 0 := by
      rw [hzu] at hwn; exact neg_of_mul_neg_left hwn hpw.le
    exact mul_neg_of_pos_of_neg hyp hzn
  · rw [abs_of_nonpos h0] at hge' hw4
    have := far_int (n := -n) (w := -w) hge' (by rwa [abs_neg]) (fun h52 hwn => by
      rw [abs_neg]
      refine hw4 h52 ?_
      have hyp : y.d < 0 := by
        rw [hn]
        have : (n : ℚ) < 0 := by
          have : n < 0 := by omega
          exact_mod_cast this
        exact div_neg_of_neg_of_pos this (by norm_num)
      have hzn : 0 < z.d := by
        rw [hzu] at hwn
        exact pos_of_mul_pos_left (by linarith) hpw.le
      exact mul_neg_of_neg_of_pos hyp hzn) (fl53_neg hs')
    rw [abs_neg] at this
    have h3 : ((-n : ℤ) : ℚ) + -w - -(s / u) = -((n : ℚ) + w - s / u) := by push_cast; ring
    rwa [h3, abs_neg] at this

/-- in the corner case the returned operand is not nearest -/
theorem corner_not_nearest {y z : Dpe} (h : Corner y z) (hz : |z.d| < 1) : ¬ Nearest (y.val + z.val) y.val := by
  obtain ⟨he, hyd, hneg, hzd⟩ := h
  intro hn
  have h0 := hn.2
  -- the neighbour of `y` on the side of zero
  set σ : ℚ := if 0 < y.d then 1 else -1 with hσ
  have hy : y.d = σ / 2 := by
    rw [hσ]
    split_ifs with hp
    · rw [abs_of_pos hp] at hyd; exact hyd
    · rw [abs_of_nonpos (not_lt.1 hp)] at hyd; linarith
  have hz' : z.d = -σ * |z.d| := by
    rw [hσ]
    split_ifs with hp
    · have : z.d < 0 := neg_of_mul_neg_right hneg hp.le
      rw [abs_of_neg this]; ring
    · have : 0 < z.d := by
        by_contra hz0
        have := mul_nonneg_of_nonpos_of_nonpos (not_lt.1 hp) (not_lt.1 hz0)
        linarith
      rw [abs_of_pos this]; ring
  have hσ2 : |σ| = 1 := by rw [hσ]; split_ifs <;> simp
  have hf : Fl53 (σ * (1 / 2 - 2 ^ (-54 : ℤ)) * 2 ^ y.exp) := by
    refine fl53_scale ?_ _
    have : Fl53 (1 / 2 - 2 ^ (-54 : ℤ)) := ⟨2 ^ 53 - 1, -54, by norm_num, by norm_num⟩
    rw [hσ]
    split_ifs
    · rwa [one_mul]
    · rw [neg_one_mul]; exact fl53_neg this
  have := h0 _ hf
  have hze : (2 : ℚ) ^ z.exp = 2 ^ (-54 : ℤ) * 2 ^ y.exp := by rw [← two_zpow_add]; congr 1; omega
  have hp := two_zpow_pos y.exp
  have e1 : y.val + z.val - y.val = σ * (-|z.d| * 2 ^ (-54 : ℤ)) * 2 ^ y.exp := by
    rw [add_sub_cancel_left, val, hze]
    nth_rewrite 1 [hz']
    ring
  have e2 : y.val + z.val - σ * (1 / 2 - 2 ^ (-54 : ℤ)) * 2 ^ y.exp = σ * ((1 - |z.d|) * 2 ^ (-54 : ℤ)) * 2 ^ y.exp := by
    rw [val, val, hze, hy]
    nth_rewrite 1 [hz']
    ring
  rw [e1, e2] at this
  simp only [abs_mul, hσ2, one_mul, abs_neg, abs_abs] at this
  have h2 := le_of_mul_le_mul_right this (abs_pos.2 hp.ne')
  rw [abs_of_pos (by linarith : 0 < 1 - |z.d|)] at h2
  have h3 := le_of_mul_le_mul_right h2 (by norm_num)
  linarith

end Dpe
end Fplll

import Mathlib.Tactic.LinearCombination
import Mathlib.Tactic.FieldSimp
import Mathlib.Tactic.Push
import Mathlib.Tactic.Positivity
import Mathlib.Algebra.Order.Field.Rat
import Verif.Spec.Enum

/-!
# The zig-zag of Schnorr and Euchner
-/

namespace Fplll
namespace Enum

theorem roundto_spec (q : ℚ) : |(roundto q : ℚ) - q| ≤ 1 / 2 := by
  unfold roundto
  split_ifs with h
  · have h1 := Int.floor_le (q + 1 / 2)
    have h2 := Int.lt_floor_add_one (q + 1 / 2)
    rw [abs_le]
    constructor <;> linarith
  · have h1 := Int.le_ceil (q - 1 / 2)
    have h2 := Int.ceil_lt_add_one (q - 1 / 2)
    rw [abs_le]
    constructor <;> linarith

theorem roundto_zero : roundto 0 = 0 := by
  unfold roundto
  rw [if_pos le_rfl]
  norm_num

/-- offset of the `n`-th visited integer from the first one -/
def zz (s : ℤ) (n : ℕ) : ℤ := if n % 2 = 1 then s * ((n + 1) / 2 : ℕ) else -s * (n / 2 : ℕ)

/-- `ddx` at the `n`-th visited integer -/
def zddx (s : ℤ) (n : ℕ) : ℤ := if n % 2 = 1 then -s else s

/-- `dx` at the `n`-th visited integer -/
def zdx (s : ℤ) (n : ℕ) : ℤ := zddx s n * (n + 1)

theorem zz_zero (s : ℤ) : zz s 0 = 0 := by simp [zz]
theorem zdx_zero (s : ℤ) : zdx s 0 = s := by simp [zdx, zddx]
theorem zddx_zero (s : ℤ) : zddx s 0 = s := by simp [zddx]

theorem zddx_succ (s : ℤ) (n : ℕ) : zddx s (n + 1) = -zddx s n := by
  unfold zddx
  split_ifs with h1 h2 h2 <;> omega

theorem zdx_succ (s : ℤ) (n : ℕ) : zdx s (n + 1) = -zddx s n - zdx s n := by
  unfold zdx
  rw [zddx_succ]
  push_cast
  ring

theorem zz_succ (s : ℤ) (n : ℕ) : zz s (n + 1) = zz s n + zdx s n := by
  unfold zz zdx zddx
  rcases Nat.even_or_odd' n with ⟨m, rfl | rfl⟩
  · rw [if_pos (by omega), if_neg (by omega), if_neg (by omega), show (2 * m + 1 + 1) / 2 = m + 1 by omega,
      show 2 * m / 2 = m by omega]
    push_cast; ring
  · rw [if_neg (by omega), if_pos (by omega), if_pos (by omega), show (2 * m + 1 + 1) / 2 = m + 1 by omega]
    push_cast; ring

/-- every integer is visited -/
theorem zz_surj {s : ℤ} (hs : s = 1 ∨ s = -1) (z : ℤ) : ∃ n, zz s n = z := by
  rcases lt_trichotomy 0 (s * z) with h | h | h
  · refine ⟨2 * (s * z).toNat - 1, ?_⟩
    unfold zz
    rw [if_pos (by omega), show (2 * (s * z).toNat - 1 + 1) / 2 = (s * z).toNat by omega,
      Int.toNat_of_nonneg h.le]
    rcases hs with rfl | rfl <;> ring
  · refine ⟨0, ?_⟩
    rw [zz_zero]
    rcases hs with rfl | rfl <;> linarith
  · refine ⟨2 * (-(s * z)).toNat, ?_⟩
    unfold zz
    rw [if_neg (by omega), show 2 * (-(s * z)).toNat / 2 = (-(s * z)).toNat by omega,
      Int.toNat_of_nonneg (by omega)]
    rcases hs with rfl | rfl <;> ring

/-- no integer is visited twice -/
theorem zz_inj {s : ℤ} (hs : s = 1 ∨ s = -1) {m n : ℕ} (h : zz s m = zz s n) : m = n := by
  unfold zz at h
  rcases hs with rfl | rfl <;> split_ifs at h <;> omega

/-- distance of the `n`-th visited integer from the centre `e` (relative to the first one) -/
theorem zz_dist {s : ℤ} (hs : s = 1 ∨ s = -1) {e : ℚ} (he : |e| ≤ 1 / 2) (hse : 0 ≤ s * e) (n : ℕ) :
    |(zz s n : ℚ) - e| = if n % 2 = 1 then ((n : ℚ) + 1) / 2 - |e| else (n : ℚ) / 2 + |e| := by
  have h1 := abs_le.1 he
  unfold zz
  rcases Nat.even_or_odd' n with ⟨m, rfl | rfl⟩
  · rw [if_neg (by omega), if_neg (by omega), show 2 * m / 2 = m by omega]
    have hm : (0 : ℚ) ≤ m := by positivity
    rcases hs with rfl | rfl
    · norm_num at hse ⊢
      rw [abs_of_nonneg hse, abs_of_nonpos (by linarith)]
      ring
    · norm_num at hse ⊢
      rw [abs_of_nonpos hse, abs_of_nonneg (by linarith)]
      ring
  · rw [if_pos (by omega), if_pos (by omega), show (2 * m + 1 + 1) / 2 = m + 1 by omega]
    have hm : (0 : ℚ) ≤ m := by positivity
    rcases hs with rfl | rfl
    · norm_num at hse ⊢
      rw [abs_of_nonneg hse, abs_of_nonneg (by linarith)]
      ring
    · norm_num at hse ⊢
      rw [abs_of_nonpos hse, abs_of_nonpos (by linarith)]
      ring

theorem zz_dist_mono_succ {s : ℤ} (hs : s = 1 ∨ s = -1) {e : ℚ} (he : |e| ≤ 1 / 2) (hse : 0 ≤ s * e) (n : ℕ) :
    |(zz s n : ℚ) - e| ≤ |(zz s (n + 1) : ℚ) - e| := by
  rw [zz_dist hs he hse, zz_dist hs he hse]
  push_cast
  have := abs_nonneg e
  split_ifs <;> first | omega | linarith

theorem zz_dist_mono {s : ℤ} (hs : s = 1 ∨ s = -1) {e : ℚ} (he : |e| ≤ 1 / 2) (hse : 0 ≤ s * e) {m n : ℕ}
    (h : m ≤ n) : |(zz s m : ℚ) - e| ≤ |(zz s n : ℚ) - e| := by
  induction n, h using Nat.le_induction with
  | base => exact le_rfl
  | succ n _ ih => exact ih.trans (zz_dist_mono_succ hs he hse n)

theorem zz_dist_ge {s : ℤ} (hs : s = 1 ∨ s = -1) {e : ℚ} (he : |e| ≤ 1 / 2) (hse : 0 ≤ s * e) (n : ℕ) :
    (n : ℚ) / 2 ≤ |(zz s n : ℚ) - e| := by
  rw [zz_dist hs he hse]
  have := abs_nonneg e
  split_ifs <;> linarith

theorem startDir_or (q : ℚ) (z : ℤ) : startDir q z = 1 ∨ startDir q z = -1 := by
  unfold startDir; split_ifs <;> simp

theorem startDir_sign (q : ℚ) (z : ℤ) : 0 ≤ (startDir q z : ℚ) * (q - z) := by
  unfold startDir
  split_ifs with h
  · push_cast; linarith
  · push_cast; push Not at h; linarith

end Enum
end Fplll

import Verif.Proofs.ErrApriori
import Verif.Props.ErrBound

/-!
# `mpfr` numbers of at least 53 bits are accurate to about 50 bits
-/

namespace Fplll
namespace ErrB

open Enum

theorem rp_near {g : ℚ → ℤ} (hg : ∀ t, |(g t : ℚ) - t| ≤ 1) {p : ℕ} (hp : 53 ≤ p) (t : ℚ) : |rp g p t - t| ≤ |t| / 2 ^ 52 := by
  by_cases ht : t = 0
  · simp [ht, rp_zero]
  obtain ⟨e, s, -, h1, h2, h3, -⟩ := rp_form (g := g) ht (by omega : 1 ≤ p)
  have hpz := two_zpow_pos e
  have hs : (2 : ℚ) ^ 52 ≤ |s| := (pow_le_pow_right₀ (by norm_num) (by omega)).trans h3
  rw [h2, show (g s : ℚ) * 2 ^ e - t = (g s - s) * 2 ^ e by rw [h1]; ring, abs_mul, abs_of_pos hpz]
  conv_rhs => rw [h1, abs_mul, abs_of_pos hpz, mul_div_right_comm]
  refine mul_le_mul_of_nonneg_right ((hg s).trans ?_) hpz.le
  rw [le_div_iff₀ (by positivity)]
  linarith

theorem sqU_sq_le {p : ℕ} (hp : 53 ≤ p) {t : ℚ} (ht : 0 < t) : sqU p t * sqU p t ≤ vv ^ 2 * t := by
  obtain ⟨b1, -⟩ := sqU_bounds (p := p) ht
  have hiff := fun m => sqU_le_iff (p := p) ht m
  have hform : ∃ k : ℕ, sqU p t = k * 2 ^ (Int.log 2 |t| / 2 - ((p : ℤ) - 1)) := ⟨_, by rw [sqU, if_neg (not_le.2 ht)]⟩
  obtain ⟨k, hk⟩ := hform
  have hpz := two_zpow_pos (Int.log 2 |t| / 2 - ((p : ℤ) - 1))
  have he : (2 : ℚ) ^ (Int.log 2 |t| / 2) = 2 ^ (p - 1) * 2 ^ (Int.log 2 |t| / 2 - ((p : ℤ) - 1)) := by
    rw [← zpow_natCast, ← two_zpow_add]; congr 1; push_cast [show 1 ≤ p by omega]; ring
  rw [he, hk] at b1
  generalize (2 : ℚ) ^ (Int.log 2 |t| / 2 - ((p : ℤ) - 1)) = z at *
  have hk1 : (2 : ℚ) ^ 52 ≤ k := by
    have : (2 : ℚ) ^ (p - 1) ≤ k := le_of_mul_le_mul_right b1 hpz
    exact (pow_le_pow_right₀ (by norm_num) (by omega)).trans this
  have hk0 : 1 ≤ k := by
    have : (1 : ℚ) ≤ k := le_trans (by norm_num) hk1
    exact_mod_cast this
  have hlt : ¬ t ≤ ((k - 1 : ℕ) : ℚ) * z * (((k - 1 : ℕ) : ℚ) * z) := by
    rw [← hiff (k - 1), hk]
    push Not
    refine mul_lt_mul_of_pos_right ?_ hpz
    exact_mod_cast (by omega : k - 1 < k)
  push Not at hlt
  push_cast [hk0] at hlt
  rw [hk]
  have h1 : (k : ℚ) ≤ vv * (k - 1) := by unfold vv; linarith
  have h2 : (k : ℚ) * z ≤ vv * ((k - 1) * z) := by nlinarith
  have h3 := mul_self_le_mul_self (by positivity : (0 : ℚ) ≤ k * z) h2
  have h4 := mul_le_mul_of_nonneg_left hlt.le (pow_pos vv_pos 2).le
  calc (k : ℚ) * z * (k * z) ≤ vv * ((k - 1) * z) * (vv * ((k - 1) * z)) := h3
    _ = vv ^ 2 * ((k - 1) * z * ((k - 1) * z)) := by ring
    _ ≤ _ := h4

theorem mpfr_fine {p : ℕ} (hp : 53 ≤ p) : Fine (mpfr p) where
  ru t ht := by
    have h := rp_near (g := fun t => ⌈t⌉) (fun t => by
      rw [abs_le]; constructor <;> linarith [Int.le_ceil t, Int.ceil_lt_add_one t]) hp t
    rw [abs_of_nonneg ht] at h
    have := (abs_le.1 h).2
    change rp _ p t ≤ _
    unfold vv
    linarith
  rn t ht := by
    have h := rp_near (g := rhe) (fun t => by
      have := rhe_near t
      rw [abs_sub_comm] at this
      linarith) hp t
    rw [abs_of_nonneg ht] at h
    have := (abs_le.1 h).2
    change rp _ p t ≤ _
    unfold vv
    linarith
  rd t ht := by
    have h := rp_near (g := fun t => ⌊t⌋) (fun t => by
      rw [abs_le]; constructor <;> linarith [Int.floor_le t, Int.lt_floor_add_one t]) hp t
    rw [abs_of_nonneg ht] at h
    have := (abs_le.1 h).1
    change _ ≤ rp _ p t
    linarith
  sq t ht := by
    rcases ht.lt_or_eq with h | h
    · exact sqU_sq_le hp h
    · rw [← h]
      change sqU p 0 * sqU p 0 ≤ _
      rw [sqU, if_pos le_rfl]
      norm_num

end ErrB
end Fplll

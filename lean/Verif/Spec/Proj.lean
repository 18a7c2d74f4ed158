import Mathlib.Algebra.BigOperators.Intervals
import Verif.Spec.GramSchmidt

/-!
# Specification: projections and linear combinations

`spanSq n B lo hi w` is the squared length of the component of `w` in the span of the Gram–Schmidt
vectors `b*_lo, …, b*_{hi-1}`.
-/

open Finset

namespace Fplll.Spec

/-- `∑_{j<d} a_j b_j` -/
def lc (d : ℕ) (a : ℕ → ℚ) (B : ℕ → ℕ → ℚ) : ℕ → ℚ := fun c => ∑ j ∈ range d, a j * B j c

/-- see above -/
def spanSq (n : ℕ) (B : ℕ → ℕ → ℚ) (lo hi : ℕ) (w : ℕ → ℚ) : ℚ :=
  ∑ i ∈ Ico lo hi, dotQ n w (bstar n B i) ^ 2 / normStar n B i

theorem dotQ_row (n : ℕ) (B : ℕ → ℕ → ℚ) (w : ℕ → ℚ) (j : ℕ) :
    dotQ n w (B j) = dotQ n w (bstar n B j) + ∑ k ∈ range j, muS n B j k * dotQ n w (bstar n B k) := by
  rw [dotQ_bstar]; ring

theorem rS_lt (n : ℕ) (B : ℕ → ℕ → ℚ) {i j : ℕ} (h : i < j) : rS n B i j = 0 := by
  unfold rS
  rw [dotQ_comm, dotQ_row, bstar_orth n B (by omega : j ≠ i), zero_add]
  apply Finset.sum_eq_zero
  intro k hk
  rw [mem_range] at hk
  rw [bstar_orth n B (by omega : j ≠ k), mul_zero]

theorem rS_mu (n : ℕ) (B : ℕ → ℕ → ℚ) (i j : ℕ) : rS n B i j = muS n B i j * normStar n B j := by
  by_cases h : normStar n B j = 0
  · unfold rS
    rw [h, mul_zero, dotQ_zero_right _ (dotQ_self_eq_zero h)]
  · unfold muS
    rw [show dotQ n (bstar n B j) (bstar n B j) = normStar n B j from rfl, div_mul_cancel₀ _ h]
    rfl

theorem dotQ_lc (n : ℕ) (B : ℕ → ℕ → ℚ) (d : ℕ) (a : ℕ → ℚ) (w : ℕ → ℚ) :
    dotQ n (lc d a B) w = ∑ j ∈ range d, a j * dotQ n (B j) w := by
  unfold lc
  rw [dotQ_comm, dotQ_sum_right]
  exact Finset.sum_congr rfl (fun j _ => by rw [dotQ_comm])

/-- coefficient of a linear combination along `b*_i` -/
theorem dotQ_lc_bstar (n : ℕ) (B : ℕ → ℕ → ℚ) (d : ℕ) (a : ℕ → ℚ) (i : ℕ) (hi : i < d) :
    dotQ n (lc d a B) (bstar n B i) = (a i + ∑ j ∈ Ico (i + 1) d, a j * muS n B j i) * normStar n B i := by
  rw [dotQ_lc, Finset.range_eq_Ico, ← Finset.sum_Ico_consecutive _ (Nat.zero_le i) hi.le,
    Finset.sum_eq_sum_Ico_succ_bot hi]
  have h0 : ∑ j ∈ Ico 0 i, a j * dotQ n (B j) (bstar n B i) = 0 := by
    apply Finset.sum_eq_zero
    intro j hj
    rw [mem_Ico] at hj
    have := rS_lt n B hj.2
    unfold rS at this
    rw [this, mul_zero]
  have h1 : dotQ n (B i) (bstar n B i) = normStar n B i := rS_self n B i
  rw [h0, zero_add, h1, add_mul, Finset.sum_mul]
  congr 1
  apply Finset.sum_congr rfl
  intro j _
  have := rS_mu n B j i
  unfold rS at this
  rw [this, mul_assoc]

/-- a linear combination of the rows is one of the Gram–Schmidt vectors -/
theorem lc_bstar (n : ℕ) (B : ℕ → ℕ → ℚ) (d : ℕ) (a : ℕ → ℚ) :
    ∃ g : ℕ → ℚ, ∀ c, lc d a B c = ∑ k ∈ range d, g k * bstar n B k c := by
  induction d with
  | zero => exact ⟨fun _ => 0, fun c => by simp [lc]⟩
  | succ d ih =>
    obtain ⟨g, hg⟩ := ih
    refine ⟨fun k => if k < d then g k + a d * muS n B d k else a d, fun c => ?_⟩
    rw [Finset.sum_range_succ]
    simp only [lt_irrefl, if_false]
    have h1 : lc (d + 1) a B c = lc d a B c + a d * B d c := by
      unfold lc; rw [Finset.sum_range_succ]
    have h2 : B d c = bstar n B d c + ∑ j ∈ range d, muS n B d j * bstar n B j c := by
      rw [bstar_eq]; ring
    rw [h1, hg, h2, mul_add, mul_sum]
    have h3 : ∑ k ∈ range d, (if k < d then g k + a d * muS n B d k else a d) * bstar n B k c =
        ∑ k ∈ range d, g k * bstar n B k c + ∑ k ∈ range d, a d * (muS n B d k * bstar n B k c) := by
      rw [← Finset.sum_add_distrib]
      apply Finset.sum_congr rfl
      intro k hk
      rw [mem_range] at hk
      rw [if_pos hk]; ring
    rw [h3]; ring

/-- Pythagoras: a vector of the span is as long as all its components together -/
theorem spanSq_full (n : ℕ) (B : ℕ → ℕ → ℚ) (d : ℕ) (a : ℕ → ℚ) (hp : ∀ i < d, 0 < normStar n B i) :
    spanSq n B 0 d (lc d a B) = dotQ n (lc d a B) (lc d a B) := by
  obtain ⟨g, hg⟩ := lc_bstar n B d a
  have hw : lc d a B = fun c => ∑ k ∈ range d, g k * bstar n B k c := funext hg
  have hk : ∀ k < d, dotQ n (lc d a B) (bstar n B k) = g k * normStar n B k := by
    intro k hk
    rw [hw, dotQ_comm, dotQ_sum_right, Finset.sum_eq_single k]
    · rfl
    · intro j _ hj
      rw [bstar_orth n B (Ne.symm hj), mul_zero]
    · intro h; exact absurd (mem_range.2 hk) h
  conv_rhs => rw [show dotQ n (lc d a B) (lc d a B) = dotQ n (lc d a B) (fun c => ∑ k ∈ range d, g k * bstar n B k c)
    from by rw [← hw]]
  rw [dotQ_sum_right]
  unfold spanSq
  rw [← Finset.range_eq_Ico]
  apply Finset.sum_congr rfl
  intro k hk'
  rw [mem_range] at hk'
  rw [hk k hk', pow_two]
  field_simp [(hp k hk').ne']

theorem spanSq_nonneg (n : ℕ) (B : ℕ → ℕ → ℚ) (lo hi : ℕ) (w : ℕ → ℚ) : 0 ≤ spanSq n B lo hi w :=
  Finset.sum_nonneg (fun _ _ => div_nonneg (sq_nonneg _) (normStar_nonneg n B _))

end Fplll.Spec

import Mathlib.Algebra.BigOperators.Fin
import Mathlib.Algebra.Order.BigOperators.Ring.Finset
import Mathlib.Data.Rat.Defs
import Mathlib.Algebra.Order.Ring.Rat
import Mathlib.Algebra.Order.Field.Rat
import Mathlib.Tactic.Ring
import Mathlib.Tactic.Linarith
import Mathlib.Tactic.FieldSimp
import Mathlib.Tactic.Positivity

/-!
# Specification: Gram–Schmidt orthogonalisation and LLL-reducedness (textbook)

A basis is given by rows `B : ℕ → ℕ → ℚ` with `n` columns.
-/

namespace Fplll.Spec

/-- inner product on the first `n` coordinates -/
def dotQ (n : ℕ) (v w : ℕ → ℚ) : ℚ := ∑ c ∈ Finset.range n, v c * w c

/-- Gram–Schmidt vectors: `b*_i = b_i - Σ_{j<i} (⟨b_i, b*_j⟩ / ⟨b*_j, b*_j⟩) b*_j` -/
def bstar (n : ℕ) (B : ℕ → ℕ → ℚ) (i : ℕ) : ℕ → ℚ := fun c =>
  B i c - ∑ j : Fin i, dotQ n (B i) (bstar n B j) / dotQ n (bstar n B j) (bstar n B j) * bstar n B j c
termination_by i
decreasing_by all_goals exact j.2

/-- Gram–Schmidt coefficient `μ_{i,j}` -/
def muS (n : ℕ) (B : ℕ → ℕ → ℚ) (i j : ℕ) : ℚ :=
  dotQ n (B i) (bstar n B j) / dotQ n (bstar n B j) (bstar n B j)

/-- `‖b*_i‖²` -/
def normStar (n : ℕ) (B : ℕ → ℕ → ℚ) (i : ℕ) : ℚ := dotQ n (bstar n B i) (bstar n B i)

/-- `r_{i,j} = ⟨b_i, b*_j⟩` -/
def rS (n : ℕ) (B : ℕ → ℕ → ℚ) (i j : ℕ) : ℚ := dotQ n (B i) (bstar n B j)

/-- The first `d` rows are size-reduced with parameter `η`. -/
def SizeReduced (n d : ℕ) (B : ℕ → ℕ → ℚ) (η : ℚ) : Prop :=
  ∀ i < d, ∀ j < i, |muS n B i j| ≤ η

/-- Lovász condition with parameter `δ` between consecutive rows. -/
def Lovasz (n d : ℕ) (B : ℕ → ℕ → ℚ) (δ : ℚ) : Prop :=
  ∀ i, i + 1 < d → δ * normStar n B i ≤ normStar n B (i + 1) + muS n B (i + 1) i ^ 2 * normStar n B i

/-- `(δ, η)`-LLL-reduced -/
def LLLReduced (n d : ℕ) (B : ℕ → ℕ → ℚ) (δ η : ℚ) : Prop := SizeReduced n d B η ∧ Lovasz n d B δ

/-- Siegel condition with parameter `c` -/
def Siegel (n d : ℕ) (B : ℕ → ℕ → ℚ) (c : ℚ) : Prop :=
  ∀ i, i + 1 < d → c * normStar n B i ≤ normStar n B (i + 1)

/-! ### basic facts -/

theorem bstar_eq (n : ℕ) (B : ℕ → ℕ → ℚ) (i c : ℕ) :
    bstar n B i c = B i c - ∑ j ∈ Finset.range i, muS n B i j * bstar n B j c := by
  rw [bstar, Finset.sum_range]; rfl

theorem dotQ_comm (n : ℕ) (v w : ℕ → ℚ) : dotQ n v w = dotQ n w v := by
  unfold dotQ; exact Finset.sum_congr rfl (fun c _ => mul_comm _ _)

theorem dotQ_congr {n : ℕ} {v v' w w' : ℕ → ℚ} (h1 : ∀ c < n, v c = v' c) (h2 : ∀ c < n, w c = w' c) :
    dotQ n v w = dotQ n v' w' := by
  unfold dotQ
  refine Finset.sum_congr rfl (fun c hc => ?_)
  rw [Finset.mem_range] at hc
  rw [h1 c hc, h2 c hc]

theorem dotQ_sub_right (n : ℕ) (v w w' : ℕ → ℚ) :
    dotQ n v (fun c => w c - w' c) = dotQ n v w - dotQ n v w' := by
  unfold dotQ; rw [← Finset.sum_sub_distrib]; exact Finset.sum_congr rfl (fun c _ => by ring)

theorem dotQ_sum_right {ι : Type*} (n : ℕ) (v : ℕ → ℚ) (s : Finset ι) (a : ι → ℚ) (w : ι → ℕ → ℚ) :
    dotQ n v (fun c => ∑ j ∈ s, a j * w j c) = ∑ j ∈ s, a j * dotQ n v (w j) := by
  unfold dotQ
  simp only [Finset.mul_sum]
  rw [Finset.sum_comm]
  exact Finset.sum_congr rfl (fun j _ => Finset.sum_congr rfl (fun c _ => by ring))

theorem dotQ_self_nonneg (n : ℕ) (v : ℕ → ℚ) : 0 ≤ dotQ n v v :=
  Finset.sum_nonneg (fun c _ => mul_self_nonneg _)

theorem dotQ_self_eq_zero {n : ℕ} {v : ℕ → ℚ} (h : dotQ n v v = 0) : ∀ c < n, v c = 0 := by
  intro c hc
  unfold dotQ at h
  have := (Finset.sum_eq_zero_iff_of_nonneg (fun c _ => mul_self_nonneg (v c))).1 h c
    (Finset.mem_range.2 hc)
  exact mul_self_eq_zero.1 this

theorem dotQ_zero_right {n : ℕ} (v : ℕ → ℚ) {w : ℕ → ℚ} (h : ∀ c < n, w c = 0) : dotQ n v w = 0 := by
  unfold dotQ
  refine Finset.sum_eq_zero (fun c hc => ?_)
  rw [h c (Finset.mem_range.1 hc), mul_zero]

/-- expanding `b*_j` in `⟨v, b*_j⟩` -/
theorem dotQ_bstar (n : ℕ) (B : ℕ → ℕ → ℚ) (v : ℕ → ℚ) (j : ℕ) :
    dotQ n v (bstar n B j) = dotQ n v (B j) - ∑ k ∈ Finset.range j, muS n B j k * dotQ n v (bstar n B k) := by
  rw [show bstar n B j = fun c => B j c - ∑ k ∈ Finset.range j, muS n B j k * bstar n B k c from
    funext (bstar_eq n B j), dotQ_sub_right, dotQ_sum_right]

/-- the recurrence used by the code -/
theorem rS_rec (n : ℕ) (B : ℕ → ℕ → ℚ) (i j : ℕ) :
    rS n B i j = dotQ n (B i) (B j) - ∑ k ∈ Finset.range j, muS n B j k * rS n B i k :=
  dotQ_bstar n B (B i) j

theorem bstar_orth_aux (n : ℕ) (B : ℕ → ℕ → ℚ) (i : ℕ) : ∀ j < i, dotQ n (bstar n B i) (bstar n B j) = 0 := by
  induction i using Nat.strong_induction_on with
  | _ i ih =>
    intro j hj
    rw [dotQ_comm, dotQ_bstar]
    rw [Finset.sum_eq_single j]
    · by_cases h0 : dotQ n (bstar n B j) (bstar n B j) = 0
      · have hz := dotQ_self_eq_zero h0
        rw [dotQ_comm, dotQ_zero_right _ hz, dotQ_zero_right _ hz]; ring
      · unfold muS
        rw [div_mul_cancel₀ _ h0, dotQ_comm, sub_self]
    · intro k hk hkj
      rw [Finset.mem_range] at hk
      rcases lt_or_gt_of_ne hkj with h | h
      · rw [ih j hj k h, mul_zero]
      · rw [dotQ_comm, ih k hk j h, mul_zero]
    · intro h; exact absurd (Finset.mem_range.2 hj) h

theorem bstar_orth (n : ℕ) (B : ℕ → ℕ → ℚ) {i j : ℕ} (h : i ≠ j) :
    dotQ n (bstar n B i) (bstar n B j) = 0 := by
  rcases lt_or_gt_of_ne h with h | h
  · rw [dotQ_comm]; exact bstar_orth_aux n B j i h
  · exact bstar_orth_aux n B i j h

/-- `r_{i,i} = ‖b*_i‖²` -/
theorem rS_self (n : ℕ) (B : ℕ → ℕ → ℚ) (i : ℕ) : rS n B i i = normStar n B i := by
  unfold rS normStar
  rw [dotQ_comm]
  conv_rhs => rw [dotQ_bstar]
  rw [Finset.sum_eq_zero]
  · ring
  · intro k hk
    rw [bstar_orth n B (by simp at hk; omega), mul_zero]

theorem muS_eq (n : ℕ) (B : ℕ → ℕ → ℚ) (i j : ℕ) : muS n B i j = rS n B i j / rS n B j j := by
  rw [rS_self]; rfl

theorem normStar_nonneg (n : ℕ) (B : ℕ → ℕ → ℚ) (i : ℕ) : 0 ≤ normStar n B i := dotQ_self_nonneg _ _

/-- the Gram–Schmidt data only depends on the rows involved -/
theorem bstar_congr {n : ℕ} {B B' : ℕ → ℕ → ℚ} (i : ℕ) (h : ∀ k ≤ i, ∀ c < n, B k c = B' k c) :
    ∀ c < n, bstar n B i c = bstar n B' i c := by
  induction i using Nat.strong_induction_on with
  | _ i ih =>
    intro c hc
    rw [bstar_eq, bstar_eq, h i le_rfl c hc]
    congr 1
    refine Finset.sum_congr rfl (fun k hk => ?_)
    rw [Finset.mem_range] at hk
    have hb := ih k hk (fun k' hk' => h k' (by omega))
    rw [hb c hc]
    congr 1
    unfold muS
    rw [dotQ_congr (h i le_rfl) hb, dotQ_congr hb hb]

theorem rS_congr {n : ℕ} {B B' : ℕ → ℕ → ℚ} {i i' j : ℕ} (h : ∀ k ≤ j, ∀ c < n, B k c = B' k c)
    (hi : ∀ c < n, B i c = B' i' c) : rS n B i j = rS n B' i' j :=
  dotQ_congr hi (bstar_congr j h)

theorem normStar_congr {n : ℕ} {B B' : ℕ → ℕ → ℚ} {j : ℕ} (h : ∀ k ≤ j, ∀ c < n, B k c = B' k c) :
    normStar n B j = normStar n B' j := dotQ_congr (bstar_congr j h) (bstar_congr j h)

theorem muS_congr {n : ℕ} {B B' : ℕ → ℕ → ℚ} {i i' j : ℕ} (h : ∀ k ≤ j, ∀ c < n, B k c = B' k c)
    (hi : ∀ c < n, B i c = B' i' c) : muS n B i j = muS n B' i' j := by
  rw [muS_eq, muS_eq, rS_congr h hi, rS_self, rS_self, normStar_congr h]

/-- partial projections: `‖b_i‖² - Σ_{k<j} μ_{ik} r_{ik}` for `j = i` is `‖b*_i‖²` -/
theorem normStar_eq (n : ℕ) (B : ℕ → ℕ → ℚ) (i : ℕ) :
    normStar n B i = dotQ n (B i) (B i) - ∑ k ∈ Finset.range i, muS n B i k * rS n B i k := by
  rw [← rS_self, rS_rec]

end Fplll.Spec

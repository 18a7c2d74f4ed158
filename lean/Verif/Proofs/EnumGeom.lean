import Verif.Proofs.EnumTop
import Verif.Spec.Proj

/-!
# The distances of the enumeration are lengths of projected vectors
-/

open Finset

namespace Fplll
namespace Enum

open Spec

/-- The input data of `enumerate` are those of the block of `p.d` rows of `B` starting at row `f`
(with the target `T`), and the enumeration is exact. -/
structure Input.FromBasis (p : Input) (n f : ℕ) (B : ℕ → ℕ → ℚ) (T : ℕ → ℚ) : Prop where
  exact : p.fl = id
  mu : ∀ i j, j < i → i < p.d → p.mu i j = muS n B (f + i) (f + j)
  r : ∀ i, i < p.d → p.r i = normStar n B (f + i)
  target : ∀ i, i < p.d → p.target.getD (fun _ => 0) i = dotQ n T (bstar n B (f + i)) / normStar n B (f + i)

/-- `∑_{j<d} v_j b_{f+j} - T` -/
def blockVec (d f : ℕ) (v : ℕ → ℤ) (B : ℕ → ℕ → ℚ) (T : ℕ → ℚ) : ℕ → ℚ :=
  fun c => lc (f + d) (fun j => if j < f then 0 else (v (j - f) : ℚ)) B c - T c

theorem al_primal {p : Input} {n f : ℕ} {B : ℕ → ℕ → ℚ} {T : ℕ → ℚ} (h : p.FromBasis n f B T) (hd : p.dual = false)
    (hp : ∀ i < p.d, 0 < normStar n B (f + i)) (v : ℕ → ℤ) (k : ℕ) (hk : k < p.d) :
    al p.full v k = dotQ n (blockVec p.d f v B T) (bstar n B (f + k)) / normStar n B (f + k) := by
  have hd' : p.full.dual = false := hd
  rw [al_exact (show p.full.fl = id from h.exact), cen_exact (show p.full.fl = id from h.exact)]
  change (v k : ℚ) - (p.fl (p.target.getD (fun _ => 0) k) - ∑ l ∈ Ico (k + 1) p.d, yS p.full v l * p.mt k l) = _
  rw [show p.fl (p.target.getD (fun _ => 0) k) = p.target.getD (fun _ => 0) k by rw [h.exact]; rfl]
  rw [h.target k hk]
  have h1 : dotQ n (blockVec p.d f v B T) (bstar n B (f + k)) =
      dotQ n (lc (f + p.d) (fun j => if j < f then 0 else (v (j - f) : ℚ)) B) (bstar n B (f + k)) -
        dotQ n T (bstar n B (f + k)) := by
    unfold blockVec
    rw [dotQ_comm, dotQ_sub_right, dotQ_comm n _ (lc _ _ _), dotQ_comm n _ T]
  rw [h1, dotQ_lc_bstar n B _ _ _ (by omega), sub_div, mul_div_assoc, div_self (hp k hk).ne', mul_one,
    if_neg (by omega), show f + k - f = k by omega]
  have h2 : ∑ j ∈ Ico (f + k + 1) (f + p.d), (if j < f then 0 else (v (j - f) : ℚ)) * muS n B j (f + k) =
      ∑ l ∈ Ico (k + 1) p.d, yS p.full v l * p.mt k l := by
    rw [show f + k + 1 = (k + 1) + f by omega, show f + p.d = p.d + f by omega, ← Finset.sum_Ico_add]
    apply Finset.sum_congr rfl
    intro l hl
    rw [mem_Ico] at hl
    rw [if_neg (by omega), show f + l - f = l by omega, yS, hd', Input.mt, hd, h.mu l k (by omega) hl.2, h.exact]
    simp
  rw [h2]
  ring

/-- **Meaning of the distances, primal case**: squared length of the projection. -/
theorem dist_primal {p : Input} {n f : ℕ} {B : ℕ → ℕ → ℚ} {T : ℕ → ℚ} (h : p.FromBasis n f B T) (hd : p.dual = false)
    (hr : p.subtreeReset = false) (hp : ∀ i < p.d, 0 < normStar n B (f + i)) (v : ℕ → ℤ) (k : ℕ) :
    p.dist v k = spanSq n B (f + k) (f + p.d) (blockVec p.d f v B T) := by
  rw [Input.dist_exact h.exact]
  unfold spanSq
  rw [hr, show f + k = k + f by omega, show f + p.d = p.d + f by omega, ← Finset.sum_Ico_add]
  simp only [Bool.false_eq_true, if_false]
  apply Finset.sum_congr rfl
  intro j hj
  rw [mem_Ico] at hj
  rw [al_primal h hd hp v j hj.2, Input.rdiag, hd, h.exact]
  simp only [Bool.false_eq_true, if_false, id]
  rw [h.r j hj.2]
  have := (hp j hj.2).ne'
  field_simp

/-- **Meaning of the distances, dual case** (block starting at row 0): if `w` is the vector of the span with
`⟨w, b_i⟩ = v_{d-1-i}`, i.e. the vector of the dual lattice with (reversed) coordinates `v`, then the distance
is its squared length. -/
theorem dist_dual {p : Input} {n : ℕ} {B : ℕ → ℕ → ℚ} {T : ℕ → ℚ} (h : p.FromBasis n 0 B T) (hd : p.dual = true)
    (ht : p.target = none) (hr : p.subtreeReset = false) (hp : ∀ i < p.d, 0 < normStar n B i) (v : ℕ → ℤ)
    (a : ℕ → ℚ) (hw : ∀ i < p.d, dotQ n (lc p.d a B) (B i) = v (p.d - 1 - i)) :
    p.dist v 0 = dotQ n (lc p.d a B) (lc p.d a B) := by
  have hd' : p.full.dual = true := hd
  have key : ∀ m k, p.d - k = m → k < p.d → al p.full v k = dotQ n (lc p.d a B) (bstar n B (p.d - 1 - k)) := by
    intro m
    induction m using Nat.strong_induction_on with
    | _ m ih =>
      intro k hm hk
      rw [al_exact (show p.full.fl = id from h.exact), cen_exact (show p.full.fl = id from h.exact)]
      change (v k : ℚ) - (p.fl (p.target.getD (fun _ => 0) k) - ∑ l ∈ Ico (k + 1) p.d, yS p.full v l * p.mt k l) = _
      rw [show p.fl (p.target.getD (fun _ => 0) k) = p.target.getD (fun _ => 0) k by rw [h.exact]; rfl, ht]
      simp only [Option.getD_none, zero_sub, sub_neg_eq_add]
      have h1 := dotQ_row n B (lc p.d a B) (p.d - 1 - k)
      rw [hw (p.d - 1 - k) (by omega), show p.d - 1 - (p.d - 1 - k) = k by omega] at h1
      rw [h1]
      have h2 : ∑ l ∈ Ico (k + 1) p.d, yS p.full v l * p.mt k l =
          - ∑ j ∈ range (p.d - 1 - k), muS n B (p.d - 1 - k) j * dotQ n (lc p.d a B) (bstar n B j) := by
        have hrf := Finset.sum_Ico_reflect
          (fun j => muS n B (p.d - 1 - k) j * dotQ n (lc p.d a B) (bstar n B j)) (k + 1) (n := p.d - 1) (m := p.d)
          (by omega)
        rw [show p.d - 1 + 1 - p.d = 0 by omega, show p.d - 1 + 1 - (k + 1) = p.d - 1 - k by omega] at hrf
        rw [Finset.range_eq_Ico, ← hrf, ← Finset.sum_neg_distrib]
        apply Finset.sum_congr rfl
        intro l hl
        rw [mem_Ico] at hl
        rw [yS, hd', Input.mt, hd, if_pos rfl, if_pos rfl, ih (p.d - l) (by omega) l rfl hl.2,
          show p.d - k - 1 = p.d - 1 - k by omega, show p.d - l - 1 = p.d - 1 - l by omega,
          h.mu _ _ (by omega) (by omega), h.exact]
        simp only [zero_add, id]
        ring
      rw [h2]; ring
  rw [← spanSq_full n B p.d a hp]
  rw [Input.dist_exact h.exact]
  unfold spanSq
  rw [hr]
  simp only [Bool.false_eq_true, if_false]
  rcases Nat.eq_zero_or_pos p.d with h0 | h0
  · rw [h0]; simp
  · have hrf := Finset.sum_Ico_reflect
      (fun i => dotQ n (lc p.d a B) (bstar n B i) ^ 2 / normStar n B i) 0 (n := p.d - 1) (m := p.d) (by omega)
    rw [show p.d - 1 + 1 - p.d = 0 by omega, show p.d - 1 + 1 - 0 = p.d by omega] at hrf
    rw [← hrf]
    apply Finset.sum_congr rfl
    intro j hj
    rw [mem_Ico] at hj
    rw [key _ _ rfl hj.2, Input.rdiag, hd, if_pos rfl, h.r _ (by omega),
      show p.d - j - 1 = p.d - 1 - j by omega, h.exact]
    simp only [zero_add, id]
    ring

end Enum
end Fplll

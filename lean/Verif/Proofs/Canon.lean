import Verif.Model.Canon
import Verif.Spec.Indep
import Verif.Proofs.EnumGeom

/-!
# Proofs about coordinate conversions and Babai rounding
-/

open Finset

namespace Fplll

open Spec
open Enum (blockVec)

theorem sumLoop (n : ℕ) (f : ℕ → ℚ) : forUp 0 n (fun j t => t + f j) 0 = ∑ j ∈ range n, f j :=
  forUp_inv (P := fun k t => t = ∑ j ∈ range k, f j) (fun j t => t + f j) (Nat.zero_le n) 0 (by simp)
    (by intro i s _ _ h; rw [h, Finset.sum_range_succ])

theorem subLoop (i : ℕ) (f : ℕ → ℚ) (t : ℚ) : forUp 0 i (fun j t => t - f j) t = t - ∑ j ∈ range i, f j :=
  forUp_inv (P := fun k s => s = t - ∑ j ∈ range k, f j) (fun j t => t - f j) (Nat.zero_le i) t (by simp)
    (by intro i s _ _ h; rw [h, Finset.sum_range_succ]; ring)

/-- inner loop of the triangular solver -/
theorem triLoop (mu : ℕ → ℚ) (i : ℕ) (x : ℕ → ℚ) :
    forUp 0 i (fun j (x : ℕ → ℚ) => setAt x i (x i - mu j * x j)) x = setAt x i (x i - ∑ j ∈ range i, mu j * x j) := by
  have := forUp_inv (P := fun k (y : ℕ → ℚ) => y = setAt x i (x i - ∑ j ∈ range k, mu j * x j))
    (fun j (x : ℕ → ℚ) => setAt x i (x i - mu j * x j)) (Nat.zero_le i) x
    (by funext c; simp only [setAt]; split_ifs with h <;> simp [h])
    (by
      intro k y _ hk hy
      rw [hy]
      funext c
      simp only [setAt]
      by_cases h1 : c = i
      · simp only [if_pos h1, if_neg (show k ≠ i by omega), Finset.sum_range_succ, if_true]; ring
      · simp only [if_neg h1])
  exact this

theorem fromCanonical_spec {n : ℕ} {B : ℕ → ℕ → ℚ} {mu : ℕ → ℕ → ℚ} {r : ℕ → ℚ} {start dim : ℕ}
    (hmu : ∀ i j, j < i → i < start + dim → mu i j = muS n B i j)
    (hr : ∀ i, i < start + dim → r i = normStar n B i) (w : ℕ → ℚ) (i : ℕ) (hi : i < dim) :
    fromCanonical n B mu r start dim w i = dotQ n w (bstar n B (start + i)) / normStar n B (start + i) := by
  unfold fromCanonical
  rw [if_pos hi]
  have h1 := forUp_inv (P := fun k (x : ℕ → ℚ) => ∀ i < k, x i = dotQ n w (B i))
    (fun i (x : ℕ → ℚ) => setAt x i (forUp 0 n (fun j t => t + B i j * w j) 0)) (Nat.zero_le (start + dim)) (fun _ => 0)
    (by intro i h; omega)
    (by
      intro k x _ _ hx i hi
      simp only [setAt]
      split_ifs with h
      · rw [sumLoop, h]; unfold dotQ; exact Finset.sum_congr rfl (fun c _ => by ring)
      · exact hx i (by omega))
  generalize forUp 0 (start + dim) (fun i (x : ℕ → ℚ) => setAt x i (forUp 0 n (fun j t => t + B i j * w j) 0)) (fun _ => 0)
    = x1 at h1
  have h2 := forUp_inv (P := fun k (x : ℕ → ℚ) => (∀ i < k, x i = dotQ n w (bstar n B i)) ∧
      ∀ i, k ≤ i → i < start + dim → x i = dotQ n w (B i))
    (fun i (x : ℕ → ℚ) => forUp 0 i (fun j (x : ℕ → ℚ) => setAt x i (x i - mu i j * x j)) x)
    (Nat.zero_le (start + dim)) x1 ⟨by intro i h; omega, fun i _ h => h1 i h⟩
    (by
      rintro k x _ hk ⟨hx1, hx2⟩
      rw [triLoop (mu k) k x]
      constructor
      · intro i hi
        simp only [setAt]
        split_ifs with h
        · rw [h, hx2 k le_rfl hk, dotQ_bstar]
          congr 1
          refine Finset.sum_congr rfl (fun j hj => ?_)
          rw [mem_range] at hj
          rw [hmu k j hj hk, hx1 j hj]
        · exact hx1 i (by omega)
      · intro i h3 h4
        simp only [setAt]
        rw [if_neg (by omega)]
        exact hx2 i (by omega) h4)
  generalize forUp 0 (start + dim) (fun i (x : ℕ → ℚ) =>
    forUp 0 i (fun j (x : ℕ → ℚ) => setAt x i (x i - mu i j * x j)) x) x1 = x2 at h2
  have h3 := forUp_inv (P := fun k (x : ℕ → ℚ) => (∀ i < k, x (start + i) = x2 (start + i) / r (start + i)) ∧
      ∀ i, k ≤ i → x (start + i) = x2 (start + i))
    (fun i (x : ℕ → ℚ) => setAt x (i + start) (x (i + start) / r (start + i)))
    (Nat.zero_le dim) x2 ⟨by intro i h; omega, fun i _ => rfl⟩
    (by
      rintro k x _ hk ⟨hx1, hx2⟩
      constructor
      · intro i hi
        simp only [setAt]
        split_ifs with h
        · rw [show i = k by omega, show k + start = start + k by omega, hx2 k le_rfl]
        · exact hx1 i (by omega)
      · intro i h4
        simp only [setAt]
        rw [if_neg (by omega)]
        exact hx2 i (by omega))
  rw [h3.1 i hi, h2.1 (start + i) (by omega), hr (start + i) (by omega)]

theorem babaiRound_spec (rd : ℚ → ℤ) (mu : ℕ → ℕ → ℚ) (start dim : ℕ) (x : ℕ → ℚ) :
    (∀ i < dim, ∃ z : ℤ, babaiRound rd mu start dim x i = z) ∧
    ∀ i < dim, babaiRound rd mu start dim x i =
      rd (x i - ∑ j ∈ Ico (i + 1) dim, babaiRound rd mu start dim x j * mu (start + j) (start + i)) := by
  have := forDown_inv (P := fun k (y : ℕ → ℚ) =>
      (∀ i, k ≤ i → i < dim → (∃ z : ℤ, y i = z) ∧
        y i = rd (x i - ∑ j ∈ Ico (i + 1) dim, y j * mu (start + j) (start + i))) ∧
      ∀ i < k, y i = x i - ∑ j ∈ Ico k dim, y j * mu (start + j) (start + i))
    (fun i (x : ℕ → ℚ) =>
      forUp 0 i (fun j (y : ℕ → ℚ) => setAt y j (y j - mu (start + i) (start + j) * y i)) (setAt x i (rd (x i) : ℚ)))
    (Nat.zero_le dim) x ⟨by intro i h1 h2; omega, by intro i _; simp⟩
    (by
      rintro k y _ hk ⟨hy1, hy2⟩
      set y1 : ℕ → ℚ := setAt y k (rd (y k) : ℚ) with hy1'
      have e1 : y1 k = rd (y k) := by simp [hy1', setAt]
      have e2 : ∀ i, i ≠ k → y1 i = y i := fun i hi => by simp [hy1', setAt, hi]
      have h4 := forUp_inv (P := fun m (z : ℕ → ℚ) => ∀ i, z i = if i < m then y1 i - mu (start + k) (start + i) * y1 k
          else y1 i)
        (fun j (y : ℕ → ℚ) => setAt y j (y j - mu (start + k) (start + j) * y k)) (Nat.zero_le k) y1
        (by intro i; simp)
        (by
          intro m z _ hm hz i
          simp only [setAt]
          split_ifs with h5 h6 h6
          · rw [hz m, hz k, if_neg (by omega), if_neg (by omega), h5]
          · omega
          · rw [hz i, if_pos (by omega)]
          · rw [hz i, if_neg (by omega)])
      generalize forUp 0 k (fun j (y : ℕ → ℚ) => setAt y j (y j - mu (start + k) (start + j) * y k)) y1 = z at h4
      have z1 : ∀ i, k < i → z i = y i := fun i hi => by rw [h4, if_neg (by omega), e2 i (by omega)]
      have z2 : z k = rd (y k) := by rw [h4, if_neg (by omega), e1]
      have z3 : ∀ i < k, z i = y i - mu (start + k) (start + i) * z k := fun i hi => by
        rw [h4 i, if_pos hi, e2 i (by omega), e1, z2]
      have hsum : ∀ m i, k < m → ∑ j ∈ Ico m dim, z j * mu (start + j) (start + i) =
          ∑ j ∈ Ico m dim, y j * mu (start + j) (start + i) := fun m i hm =>
        Finset.sum_congr rfl (fun j hj => by rw [mem_Ico] at hj; rw [z1 j (by omega)])
      constructor
      · intro i h5 h6
        rcases Nat.lt_or_ge k i with h7 | h7
        · rw [z1 i h7, hsum _ i (by omega)]
          exact hy1 i (by omega) h6
        · have : i = k := by omega
          subst this
          rw [z2, hsum _ i (by omega), hy2 i (by omega)]
          exact ⟨⟨_, rfl⟩, rfl⟩
      · intro i hi
        rw [z3 i hi, hy2 i (by omega), Finset.sum_eq_sum_Ico_succ_bot hk, hsum _ i (by omega)]
        ring)
  unfold babaiRound
  dsimp only
  exact ⟨fun i hi => (this.1 i (Nat.zero_le i) hi).1, fun i hi => (this.1 i (Nat.zero_le i) hi).2⟩

/-- coefficient of a block combination minus a target along a Gram–Schmidt vector -/
theorem blockVec_coeff {n : ℕ} {B : ℕ → ℕ → ℚ} {f d : ℕ} (T : ℕ → ℚ) (v : ℕ → ℤ) {k : ℕ} (hk : k < d)
    (hp : 0 < normStar n B (f + k)) :
    dotQ n (blockVec d f v B T) (bstar n B (f + k)) / normStar n B (f + k) =
      v k - (dotQ n T (bstar n B (f + k)) / normStar n B (f + k) -
        ∑ j ∈ Ico (k + 1) d, (v j : ℚ) * muS n B (f + j) (f + k)) := by
  have h1 : dotQ n (blockVec d f v B T) (bstar n B (f + k)) =
      dotQ n (lc (f + d) (fun j => if j < f then 0 else (v (j - f) : ℚ)) B) (bstar n B (f + k)) -
        dotQ n T (bstar n B (f + k)) := by
    unfold blockVec
    rw [dotQ_comm, dotQ_sub_right, dotQ_comm n _ (lc _ _ _), dotQ_comm n _ T]
  rw [h1, dotQ_lc_bstar n B _ _ _ (by omega), sub_div, mul_div_assoc, div_self hp.ne', mul_one,
    if_neg (by omega), show f + k - f = k by omega]
  have h2 : ∑ j ∈ Ico (f + k + 1) (f + d), (if j < f then 0 else (v (j - f) : ℚ)) * muS n B j (f + k) =
      ∑ l ∈ Ico (k + 1) d, (v l : ℚ) * muS n B (f + l) (f + k) := by
    rw [show f + k + 1 = (k + 1) + f by omega, show f + d = d + f by omega, ← Finset.sum_Ico_add]
    apply Finset.sum_congr rfl
    intro l hl
    rw [mem_Ico] at hl
    rw [if_neg (by omega), show f + l - f = l by omega]
  rw [h2]
  ring

/-- Babai rounding of the GSO coefficients of `T`: the coefficients of `w B - T` are at most one half -/
theorem babai_close {n : ℕ} {B : ℕ → ℕ → ℚ} {mu : ℕ → ℕ → ℚ} {start dim : ℕ} {rd : ℚ → ℤ}
    (hrd : ∀ q : ℚ, |(rd q : ℚ) - q| ≤ 1 / 2)
    (hmu : ∀ i j, j < i → i < start + dim → mu i j = muS n B i j)
    (hp : ∀ i < dim, 0 < normStar n B (start + i)) (T x : ℕ → ℚ)
    (hx : ∀ i < dim, x i = dotQ n T (bstar n B (start + i)) / normStar n B (start + i)) (w : ℕ → ℤ)
    (hw : ∀ i < dim, (w i : ℚ) = babaiRound rd mu start dim x i) (i : ℕ) (hi : i < dim) :
    |dotQ n (blockVec dim start w B T) (bstar n B (start + i)) / normStar n B (start + i)| ≤ 1 / 2 := by
  rw [blockVec_coeff T w hi (hp i hi), hw i hi, (babaiRound_spec rd mu start dim x).2 i hi, ← hx i hi]
  have : ∑ j ∈ Ico (i + 1) dim, (w j : ℚ) * muS n B (start + j) (start + i) =
      ∑ j ∈ Ico (i + 1) dim, babaiRound rd mu start dim x j * mu (start + j) (start + i) :=
    Finset.sum_congr rfl (fun j hj => by
      rw [mem_Ico] at hj
      rw [hw j hj.2, hmu (start + j) (start + i) (by omega) (by omega)])
  rw [this]
  exact hrd _

/-- inner loop of the downward triangular solver -/
theorem triLoop' (mu : ℕ → ℚ) (i dim : ℕ) (hid : i + 1 ≤ dim) (x : ℕ → ℚ) :
    forUp (i + 1) dim (fun j (x : ℕ → ℚ) => setAt x i (x i - mu j * x j)) x =
      setAt x i (x i - ∑ j ∈ Ico (i + 1) dim, mu j * x j) := by
  have := forUp_inv (P := fun k (y : ℕ → ℚ) => y = setAt x i (x i - ∑ j ∈ Ico (i + 1) k, mu j * x j))
    (fun j (x : ℕ → ℚ) => setAt x i (x i - mu j * x j)) hid x
    (by funext c; simp only [setAt]; split_ifs with h <;> simp [h])
    (by
      intro k y h1 hk hy
      rw [hy]
      funext c
      simp only [setAt]
      by_cases h2 : c = i
      · simp only [if_pos h2, if_neg (show k ≠ i by omega), Finset.sum_Ico_succ_top h1, if_true]; ring
      · simp only [if_neg h2])
  exact this

theorem toCanonical_coeff {d n : ℕ} {B : ℕ → ℕ → ℚ} {mu : ℕ → ℕ → ℚ} {sz start : ℕ} (v : ℕ → ℚ)
    (hmu : ∀ i j, j < i → i < d → mu i j = muS n B i j) :
    ∃ x : ℕ → ℚ, (∀ i < min sz (d - start), x i + ∑ j ∈ Ico (i + 1) (min sz (d - start)),
        x j * muS n B (start + j) (start + i) = v i) ∧
      ∀ c < n, toCanonical d n B mu sz start v c = ∑ i ∈ range (min sz (d - start)), x i * B (start + i) c := by
  have hdim : (if sz < d - start then sz else d - start) = min sz (d - start) := by grind
  unfold toCanonical
  rw [hdim]
  generalize hdd : min sz (d - start) = dim
  have hds : start + dim ≤ d ∨ dim = 0 := by omega
  have h1 := forDown_inv (P := fun k (x : ℕ → ℚ) => (∀ i, k ≤ i → i < dim →
        x i + ∑ j ∈ Ico (i + 1) dim, x j * muS n B (start + j) (start + i) = v i) ∧ ∀ i < k, x i = v i)
    (fun i (x : ℕ → ℚ) =>
      forUp (i + 1) dim (fun j (x : ℕ → ℚ) => setAt x i (x i - mu (start + j) (start + i) * x j)) x)
    (Nat.zero_le dim) v ⟨by intro i h1 h2; omega, fun i _ => rfl⟩
    (by
      rintro k x _ hk ⟨hx1, hx2⟩
      rw [triLoop' (fun j => mu (start + j) (start + k)) k dim (by omega) x]
      constructor
      · intro i h1 h2
        have hs : ∀ t, ∑ j ∈ Ico (i + 1) dim, setAt x k t j * muS n B (start + j) (start + i) =
            ∑ j ∈ Ico (i + 1) dim, x j * muS n B (start + j) (start + i) := fun t =>
          Finset.sum_congr rfl (fun j hj => by
            rw [mem_Ico] at hj
            simp only [setAt]
            rw [if_neg (by omega)])
        rw [hs]
        simp only [setAt]
        split_ifs with h
        · subst h
          have : ∑ j ∈ Ico (i + 1) dim, mu (start + j) (start + i) * x j =
              ∑ j ∈ Ico (i + 1) dim, x j * muS n B (start + j) (start + i) :=
            Finset.sum_congr rfl (fun j hj => by
              rw [mem_Ico] at hj
              rw [hmu (start + j) (start + i) (by omega) (by omega)]; ring)
          rw [this, hx2 i (by omega)]; ring
        · exact hx1 i (by omega) h2
      · intro i hi
        simp only [setAt]
        rw [if_neg (by omega)]
        exact hx2 i (by omega))
  refine ⟨_, fun i hi => h1.1 i (Nat.zero_le i) hi, ?_⟩
  generalize forDown 0 dim (fun i (x : ℕ → ℚ) =>
      forUp (i + 1) dim (fun j (x : ℕ → ℚ) => setAt x i (x i - mu (start + j) (start + i) * x j)) x) v = x
  have h2 := forUp_inv (P := fun k (w : ℕ → ℚ) => ∀ c < k, w c = ∑ i ∈ range dim, x i * B (start + i) c)
    (fun j (w : ℕ → ℚ) => setAt w j (forUp 0 dim (fun i t => t + B (start + i) j * x i) 0)) (Nat.zero_le n) (fun _ => 0)
    (by intro c h; omega)
    (by
      intro k w _ hk hw c hc
      simp only [setAt]
      split_ifs with h
      · rw [sumLoop, h]; exact Finset.sum_congr rfl (fun i _ => by ring)
      · exact hw c (by omega))
  exact h2

end Fplll

import Verif.Model.Matrix
import Verif.Proofs.NumVect

namespace Fplll

variable {α : Type*}

theorem Mat.set_apply (m : Mat α) (i j : ℕ) (x : α) (a b : ℕ) :
    m.set i j x a b = if a = i ∧ b = j then x else m a b := by
  unfold Mat.set setAt
  by_cases h : a = i
  · subst h
    by_cases h2 : b = j <;> simp [h2]
  · simp [h]

theorem Mat.swapEntry_apply (m : Mat α) (i j k l a b : ℕ) :
    m.swapEntry i j k l a b =
      if a = k ∧ b = l then m i j else if a = i ∧ b = j then m k l else m a b := by
  unfold Mat.swapEntry
  simp only [Mat.set_apply]

theorem symGet_comm (g : Mat α) (i j : ℕ) : symGet g i j = symGet g j i := by
  unfold symGet
  by_cases h : i = j
  · subst h; rfl
  · split_ifs <;> first | rfl | omega

theorem symGet_symSet (g : Mat α) (i j a b : ℕ) (x : α) :
    symGet (symSet g i j x) a b = if (a = i ∧ b = j) ∨ (a = j ∧ b = i) then x else symGet g a b := by
  unfold symGet symSet
  split_ifs <;> simp only [Mat.set_apply] <;> split_ifs <;> first | rfl | omega

theorem symGet_of_le (g : Mat α) {i j : ℕ} (h : j ≤ i) : symGet g i j = g i j := by simp [symGet, h]

/-- the permutation of `rotate_left(first,last)`: new position `k` holds old `rotL k` -/
def rotL (first last k : ℕ) : ℕ := if first ≤ k ∧ k < last then k + 1 else if k = last then first else k

/-- the permutation of `rotate_right(first,last)` -/
def rotR (first last k : ℕ) : ℕ := if first < k ∧ k ≤ last then k - 1 else if k = first then last else k

theorem rotateLeft_eq (v : ℕ → α) {first last : ℕ} (h : first ≤ last) :
    rotateLeftBySwap v first last = fun k => v (rotL first last k) := by
  funext k
  rw [rotateLeftBySwap_apply _ _ _ _ h]; unfold rotL
  split_ifs <;> rfl

theorem rotateRight_eq (v : ℕ → α) {first last : ℕ} (h : first ≤ last) :
    rotateRightBySwap v first last = fun k => v (rotR first last k) := by
  funext k
  rw [rotateRightBySwap_apply _ _ _ _ h]; unfold rotR
  split_ifs <;> rfl

theorem rotL_rotR {f l : ℕ} (h : f ≤ l) (k : ℕ) : rotL f l (rotR f l k) = k := by
  unfold rotL rotR; split_ifs <;> omega

theorem rotR_rotL {f l : ℕ} (h : f ≤ l) (k : ℕ) : rotR f l (rotL f l k) = k := by
  unfold rotL rotR; split_ifs <;> omega

theorem rotL_lt {f l n k : ℕ} (hl : l < n) (hfl : f ≤ l) : rotL f l k < n ↔ k < n := by
  unfold rotL; split_ifs <;> omega

theorem rotR_lt {f l n k : ℕ} (hl : l < n) (hfl : f ≤ l) : rotR f l k < n ↔ k < n := by
  unfold rotR; split_ifs <;> omega

/-- loop applying an operation to each row of a range -/
theorem forUp_rows (a n : ℕ) (han : a ≤ n) (m : Mat α) (f : ℕ → (ℕ → α) → (ℕ → α)) (k : ℕ) :
    forUp a n (fun i (m : Mat α) => setAt m i (f i (m i))) m k =
      if a ≤ k ∧ k < n then f k (m k) else m k := by
  have := forUp_inv (P := fun i w => ∀ k, w k = if a ≤ k ∧ k < i then f k (m k) else m k)
    (fun i (m : Mat α) => setAt m i (f i (m i))) han m
    (by intro k; rw [if_neg (by omega)])
    (by
      intro i w hi1 hi2 hw k
      simp only [setAt, hw]
      by_cases hk : k = i
      · subst hk; rw [if_pos rfl, if_neg (by omega), if_pos (by omega)]
      · rw [if_neg hk]
        by_cases h : a ≤ k ∧ k < i
        · rw [if_pos h, if_pos (by omega)]
        · rw [if_neg h, if_neg (by omega)])
  exact this k

theorem gramSwapLoop (m : Mat α) (f l : ℕ) (hfl : f ≤ l) (a b : ℕ) :
    forUp f l (fun i (m : Mat α) => m.swapEntry (i + 1) f f i) m a b =
      if a = f ∧ f ≤ b ∧ b < l then m (b + 1) f
      else if b = f ∧ f < a ∧ a ≤ l then m f (a - 1)
      else m a b := by
  have := forUp_inv (P := fun i w => ∀ a b, w a b =
      if a = f ∧ f ≤ b ∧ b < i then m (b + 1) f
      else if b = f ∧ f < a ∧ a ≤ i then m f (a - 1)
      else m a b)
    (fun i (m : Mat α) => m.swapEntry (i + 1) f f i) hfl m
    (by intro a b; rw [if_neg (by omega), if_neg (by omega)])
    (by
      intro i w hi1 hi2 hw a b
      rw [Mat.swapEntry_apply]
      grind)
  exact this a b

/-- `rotate_gram_left` permutes rows and columns of the symmetric matrix stored in the lower
triangle. -/
theorem rotateGramLeft_lower (m : Mat α) {f l n : ℕ} (hfl : f ≤ l) (hl : l < n) {i j : ℕ}
    (hi : i < n) (hj : j ≤ i) :
    (m.rotateGramLeft f l n) i j = symGet m (rotL f l i) (rotL f l j) := by
  unfold Mat.rotateGramLeft
  rw [rotateLeft_eq _ hfl]
  have hσ : rotL f l i < n := (rotL_lt hl hfl).2 hi
  beta_reduce
  rw [forUp_rows f n (by omega) _ (fun i v => rotateLeftBySwap v f (min l i))]
  by_cases hfi : f ≤ i
  · have h1 : f ≤ rotL f l i := by unfold rotL; split_ifs <;> omega
    rw [if_pos ⟨h1, hσ⟩, rotateLeft_eq _ (by omega)]
    simp only [gramSwapLoop _ _ _ hfl, Mat.swapEntry_apply]
    unfold symGet rotL
    grind
  · have h1 : rotL f l i = i := by unfold rotL; split_ifs <;> omega
    rw [h1, if_neg (by omega)]
    simp only [gramSwapLoop _ _ _ hfl, Mat.swapEntry_apply]
    unfold symGet rotL
    grind

theorem rotateGramRight_lower (m : Mat α) {f l n : ℕ} (hfl : f ≤ l) (hl : l < n) {i j : ℕ}
    (hi : i < n) (hj : j ≤ i) :
    (m.rotateGramRight f l n) i j = symGet m (rotR f l i) (rotR f l j) := by
  unfold Mat.rotateGramRight
  rw [rotateRight_eq _ hfl]
  have key : ∀ k c, forUp f n
      (fun i (m : Mat α) => setAt m i (rotateRightBySwap (m i) f (min l i)))
      (fun k => m (rotR f l k)) k c =
      if f ≤ k ∧ k < n then m (rotR f l k) (rotR f (min l k) c) else m (rotR f l k) c := by
    intro k c
    rw [forUp_rows f n (by omega) _ (fun i v => rotateRightBySwap v f (min l i))]
    split_ifs with h
    · rw [rotateRight_eq _ (by omega)]
    · rfl
  rw [Mat.swapEntry_apply]
  simp only [gramSwapLoop _ _ _ hfl, key]
  unfold symGet rotR
  grind

end Fplll

import Verif.Proofs.Matrix

/-!
# C10: rotations and reversals of rows are the permutations they claim to be

The specification speaks about the list of the rows `first .. last`, using the list
functions `reverse` and `rotate`.
-/

namespace Fplll

variable {α : Type*}

/-- the rows `first .. e-1` as a list -/
def segment (v : ℕ → α) (first e : ℕ) : List α := (List.range (e - first)).map (fun k => v (first + k))

theorem segment_length (v : ℕ → α) (first e : ℕ) : (segment v first e).length = e - first := by
  simp [segment]

theorem segment_getElem (v : ℕ → α) (first e k : ℕ) (h : k < (segment v first e).length) :
    (segment v first e)[k] = v (first + k) := by simp [segment]

/-- **C10 (reversal).** `reverse_by_swap` reverses the segment and leaves the rest alone. -/
theorem C10_reverse (v : ℕ → α) (first e : ℕ) :
    segment (reverseBySwap v first e) first e = (segment v first e).reverse ∧
    ∀ k, (k < first ∨ e ≤ k) → reverseBySwap v first e k = v k := by
  constructor
  · apply List.ext_getElem
    · simp [segment_length]
    · intro k h1 h2
      rw [segment_length] at h1
      rw [segment_getElem, List.getElem_reverse, segment_getElem, reverseBySwap_apply,
        if_pos (by omega), segment_length]
      congr 1; omega
  · intro k hk
    rw [reverseBySwap_apply, if_neg (by omega)]

/-- **C10 (rotation).** `rotate_by_swap(first, middle, last)` rotates the segment so that `middle`
comes first, as `std::rotate` does. -/
theorem C10_rotate (v : ℕ → α) (first middle e : ℕ) (h1 : first ≤ middle) (h2 : middle ≤ e) :
    segment (rotateBySwap v first middle e) first e = (segment v first e).rotate (middle - first) ∧
    ∀ k, (k < first ∨ e ≤ k) → rotateBySwap v first middle e k = v k := by
  constructor
  · apply List.ext_getElem
    · simp [segment_length]
    · intro k hk hk'
      rw [segment_length] at hk
      rw [segment_getElem, List.getElem_rotate, segment_getElem, rotateBySwap_apply _ _ _ _ _ h1 h2,
        segment_length]
      by_cases hc : k < e - middle
      · rw [if_pos (by omega), Nat.mod_eq_of_lt (by omega)]; congr 1; omega
      · rw [if_neg (by omega), if_pos (by omega), Nat.mod_eq_sub_mod (by omega),
          Nat.mod_eq_of_lt (by omega)]
        congr 1; omega
  · intro k hk
    rw [rotateBySwap_apply _ _ _ _ _ h1 h2, if_neg (by omega), if_neg (by omega)]

/-- **C10 (rotate left).** The first row goes to the end of the segment, the others move up by one. -/
theorem C10_rotate_left (v : ℕ → α) (first last : ℕ) (h : first ≤ last) :
    segment (rotateLeftBySwap v first last) first (last + 1) =
      (segment v first (last + 1)).rotate 1 ∧
    ∀ k, (k < first ∨ last < k) → rotateLeftBySwap v first last k = v k := by
  constructor
  · apply List.ext_getElem
    · simp [segment_length]
    · intro k hk hk'
      rw [segment_length] at hk
      rw [segment_getElem, List.getElem_rotate, segment_getElem, rotateLeftBySwap_apply _ _ _ _ h,
        segment_length]
      by_cases hc : first + k < last
      · rw [if_pos (by omega), Nat.mod_eq_of_lt (by omega)]; congr 1
      · have : k + 1 = last + 1 - first := by omega
        rw [if_neg (by omega), if_pos (by omega), this, Nat.mod_self]; rfl
  · intro k hk
    rw [rotateLeftBySwap_apply _ _ _ _ h, if_neg (by omega), if_neg (by omega)]

/-- **C10 (rotate right).** The inverse of `rotate_left`: the last row comes first. -/
theorem C10_rotate_right (v : ℕ → α) (first last : ℕ) (h : first ≤ last) :
    (segment (rotateRightBySwap v first last) first (last + 1)).rotate 1 =
      segment v first (last + 1) ∧
    ∀ k, (k < first ∨ last < k) → rotateRightBySwap v first last k = v k := by
  constructor
  · apply List.ext_getElem
    · simp [segment_length]
    · intro k hk hk'
      rw [segment_length] at hk'
      rw [List.getElem_rotate, segment_getElem, segment_getElem, rotateRightBySwap_apply _ _ _ _ h,
        segment_length]
      by_cases hc : first + k < last
      · rw [Nat.mod_eq_of_lt (by omega), if_pos (by omega)]; congr 1
      · have : k + 1 = last + 1 - first := by omega
        rw [this, Nat.mod_self, if_neg (by omega), if_pos (by omega)]; congr 1; omega
  · intro k hk
    rw [rotateRightBySwap_apply _ _ _ _ h, if_neg (by omega), if_neg (by omega)]

/-- **C10 (Gram matrices).**  `rotate_gram_left/right` on the lower triangle of a symmetric matrix `G`
permutes rows and columns simultaneously: if the stored lower triangle is that of `G`, the
result is the lower triangle of `G` with rows and columns rotated like `rotate_left/right` do. -/
theorem C10_rotate_gram (G : ℕ → ℕ → α) (hsym : ∀ i j, G i j = G j i) (m : Mat α) (n first last : ℕ)
    (hfl : first ≤ last) (hl : last < n) (hm : ∀ i < n, ∀ j ≤ i, m i j = G i j) :
    (∀ i < n, ∀ j ≤ i, m.rotateGramLeft first last n i j =
      G (rotateLeftBySwap id first last i) (rotateLeftBySwap id first last j)) ∧
    (∀ i < n, ∀ j ≤ i, m.rotateGramRight first last n i j =
      G (rotateRightBySwap id first last i) (rotateRightBySwap id first last j)) := by
  have hsg : ∀ i < n, ∀ j < n, symGet m i j = G i j := by
    intro i hi j hj
    unfold symGet
    split_ifs with h
    · exact hm i hi j h
    · rw [hm j hj i (by omega), hsym]
  constructor
  · intro i hi j hj
    rw [rotateGramLeft_lower m hfl hl hi hj,
      hsg _ ((rotL_lt hl hfl).2 hi) _ ((rotL_lt hl hfl).2 (by omega)), rotateLeft_eq _ hfl]; rfl
  · intro i hi j hj
    rw [rotateGramRight_lower m hfl hl hi hj,
      hsg _ ((rotR_lt hl hfl).2 hi) _ ((rotR_lt hl hfl).2 (by omega)), rotateRight_eq _ hfl]; rfl

/-- non-vacuity: a symmetric matrix, rotated over an inner segment -/
example : ∃ (G : ℕ → ℕ → ℤ) (m : Mat ℤ), (∀ i j, G i j = G j i) ∧ (∀ i < 5, ∀ j ≤ i, m i j = G i j) ∧
    m.rotateGramLeft 1 3 5 3 2 = G 1 3 :=
  ⟨fun i j => (i + j) * 10 + i * j, fun i j => if j ≤ i then (i + j) * 10 + i * j else -1,
    by intro i j; ring, by intro i _ j hj; simp [hj], by decide⟩

example : segment (rotateBySwap (fun k => k * k) 1 3 6) 1 6 = [9, 16, 25, 1, 4] := by
  rw [(C10_rotate _ _ _ _ (by omega) (by omega)).1]; decide

end Fplll

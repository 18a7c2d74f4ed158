import Verif.Model.LllDiff
import Verif.Base.Loops
import Mathlib.Tactic.IntervalCases

/-!
# C75: `llldiff` compares two bases up to the signs of their rows
-/

namespace Fplll
namespace LllDiff

/-- specification: equal rows up to the sign of each row -/
def UpToSign (r c : ℕ) (B1 B2 : Mat ℤ) : Prop :=
  ∀ i, i < r → (∀ j, j < c → B2 i j = B1 i j) ∨ ∀ j, j < c → B2 i j = -B1 i j

theorem all_loop {c : ℕ} {p : ℕ → Prop} [DecidablePred p] (t : Bool) (hc : 1 ≤ c) :
    forUp 1 c (fun j t => if ¬ p j then false else t) t = true ↔ t = true ∧ ∀ j, 1 ≤ j → j < c → p j := by
  refine forUp_inv (fun n s => s = true ↔ t = true ∧ ∀ j, 1 ≤ j → j < n → p j) _ hc t ?_ ?_
  · constructor
    · intro h; exact ⟨h, fun j h1 h2 => by omega⟩
    · exact fun h => h.1
  · intro n s h1 h2 ih
    by_cases h : p n
    · rw [if_neg (not_not.2 h), ih]
      constructor
      · rintro ⟨a, b⟩
        refine ⟨a, fun j h3 h4 => ?_⟩
        rcases Nat.lt_succ_iff_lt_or_eq.1 h4 with h5 | rfl
        · exact b j h3 h5
        · exact h
      · rintro ⟨a, b⟩
        exact ⟨a, fun j h3 h4 => b j h3 (by omega)⟩
    · rw [if_pos h]
      constructor
      · intro h'; cases h'
      · rintro ⟨-, b⟩
        exact absurd (b n h1 (by omega)) h

theorem rowTest_iff {c : ℕ} (hc : 1 ≤ c) (v w : ℕ → ℤ) (t : Bool) : rowTest c v w t = true ↔
    t = true ∧ ((∀ j, j < c → w j = v j) ∨ (v 0 ≠ 0 ∧ ∀ j, j < c → w j = -v j)) := by
  have ext : ∀ {p : ℕ → Prop}, (∀ j, j < c → p j) ↔ p 0 ∧ ∀ j, 1 ≤ j → j < c → p j := by
    intro p
    constructor
    · exact fun h => ⟨h 0 (by omega), fun j _ h2 => h j h2⟩
    · rintro ⟨h0, h1⟩ j hj
      rcases Nat.eq_zero_or_pos j with rfl | h2
      · exact h0
      · exact h1 j h2 hj
  have e1 := @all_loop c (fun j => v j = w j) _ t hc
  have e2 := @all_loop c (fun j => v j * -1 = w j) _ t hc
  have e1' := @all_loop c (fun j => v j = w j) _ false hc
  have e2' := @all_loop c (fun j => v j * -1 = w j) _ false hc
  unfold rowTest
  dsimp only
  by_cases ha : |v 0| = |w 0|
  · rw [if_neg (not_not.2 ha)]
    rw [ext, ext]
    rcases abs_eq_abs.1 ha with h | h
    · have hs : (if |v 0| ≠ w 0 then (if |v 0| ≠ v 0 then (1 : ℤ) * -1 else 1) * -1 else if |v 0| ≠ v 0 then (1 : ℤ) * -1 else 1) = 1 := by
        rw [← h]; by_cases h3 : |v 0| = v 0 <;> simp [h3]
      rw [if_pos hs]
      refine e1.trans ⟨fun ⟨a, b⟩ => ⟨a, Or.inl ⟨h.symm, fun j h1 h2 => (b j h1 h2).symm⟩⟩, ?_⟩
      rintro ⟨a, ⟨-, b⟩ | ⟨h0, b0, -⟩⟩
      · exact ⟨a, fun j h1 h2 => (b j h1 h2).symm⟩
      · omega
    · by_cases h0 : v 0 = 0
      · have h0' : w 0 = 0 := by omega
        have hs : (if |v 0| ≠ w 0 then (if |v 0| ≠ v 0 then (1 : ℤ) * -1 else 1) * -1 else if |v 0| ≠ v 0 then (1 : ℤ) * -1 else 1) = 1 := by
          simp [h0, h0']
        rw [if_pos hs]
        refine e1.trans ⟨fun ⟨a, b⟩ => ⟨a, Or.inl ⟨by omega, fun j h1 h2 => (b j h1 h2).symm⟩⟩, ?_⟩
        rintro ⟨a, ⟨-, b⟩ | ⟨h1, -⟩⟩
        · exact ⟨a, fun j h1 h2 => (b j h1 h2).symm⟩
        · exact absurd h0 h1
      · have hs : (if |v 0| ≠ w 0 then (if |v 0| ≠ v 0 then (1 : ℤ) * -1 else 1) * -1 else if |v 0| ≠ v 0 then (1 : ℤ) * -1 else 1) ≠ 1 := by
          rcases lt_or_gt_of_ne h0 with h3 | h3
          · have : |v 0| = w 0 := by rw [abs_of_neg h3]; omega
            have h4 : |v 0| ≠ v 0 := by rw [abs_of_neg h3]; omega
            simp [this, h4, this ▸ h4]
          · have : |v 0| = v 0 := abs_of_pos h3
            have h4 : |v 0| ≠ w 0 := by rw [this]; omega
            rw [if_pos h4, if_neg (not_not.2 this)]
            decide
        rw [if_neg hs]
        refine e2.trans ⟨fun ⟨a, b⟩ => ⟨a, Or.inr ⟨h0, by omega, fun j h1 h2 => by have := b j h1 h2; omega⟩⟩, ?_⟩
        rintro ⟨a, ⟨b0, -⟩ | ⟨-, -, b⟩⟩
        · omega
        · exact ⟨a, fun j h1 h2 => by have := b j h1 h2; omega⟩
  · rw [if_pos ha]
    have no : ¬ ((∀ j, j < c → w j = v j) ∨ (v 0 ≠ 0 ∧ ∀ j, j < c → w j = -v j)) := by
      rintro (h | ⟨-, h⟩)
      · exact ha (by rw [h 0 (by omega)])
      · exact ha (by rw [h 0 (by omega), abs_neg])
    constructor
    · intro h
      split_ifs at h
      all_goals first
        | exact absurd (e1'.1 h).1 (by decide)
        | exact absurd (e2'.1 h).1 (by decide)
    · exact fun h => absurd h.2 no

/-- **C75**, exactly what `llldiff` tests: rows with a zero in the first column must be equal, the other ones equal up to
sign. -/
theorem C75_llldiff_iff {r c : ℕ} (hc : 1 ≤ c) (B1 B2 : Mat ℤ) : llldiff B1 B2 c r = true ↔
    ∀ i, i < r → (∀ j, j < c → B2 i j = B1 i j) ∨ (B1 i 0 ≠ 0 ∧ ∀ j, j < c → B2 i j = -B1 i j) := by
  unfold llldiff
  refine forUp_inv (fun n s => s = true ↔ ∀ i, i < n → (∀ j, j < c → B2 i j = B1 i j) ∨ (B1 i 0 ≠ 0 ∧ ∀ j, j < c → B2 i j = -B1 i j))
    _ (Nat.zero_le r) true ⟨fun _ i h => by omega, fun _ => rfl⟩ ?_
  intro n s _ _ ih
  rw [rowTest_iff hc, ih]
  constructor
  · rintro ⟨a, b⟩ i hi
    rcases Nat.lt_succ_iff_lt_or_eq.1 hi with h | rfl
    · exact a i h
    · exact b
  · exact fun h => ⟨fun i hi => h i (by omega), h n (by omega)⟩

/-- **C75**: bases that pass are equal up to the signs of the rows. -/
theorem C75_sound {r c : ℕ} (hc : 1 ≤ c) (B1 B2 : Mat ℤ) (h : llldiff B1 B2 c r = true) : UpToSign r c B1 B2 :=
  fun i hi => ((C75_llldiff_iff hc B1 B2).1 h i hi).imp id fun h => h.2

/-- **C75**, the converse, where it holds (`_partial`): no row of the first basis begins with zero. -/
theorem C75_complete_partial {r c : ℕ} (hc : 1 ≤ c) (B1 B2 : Mat ℤ) (h0 : ∀ i, i < r → B1 i 0 ≠ 0) :
    llldiff B1 B2 c r = true ↔ UpToSign r c B1 B2 :=
  ⟨C75_sound hc B1 B2, fun h => (C75_llldiff_iff hc B1 B2).2 fun i hi => (h i hi).imp id fun h => ⟨h0 i hi, h⟩⟩

/-- The converse fails: `(0, 1)` and `(0, -1)` are reported as different. -/
theorem C75_leading_zero : let B1 : Mat ℤ := fun _ j => if j = 1 then 1 else 0
    let B2 : Mat ℤ := fun _ j => if j = 1 then -1 else 0
    UpToSign 1 2 B1 B2 ∧ main 1 2 B1 1 2 B2 = .different := by
  refine ⟨fun i _ => Or.inr fun j hj => ?_, by decide⟩
  interval_cases j <;> rfl

/-- Additional rows and columns of the second matrix are ignored: two bases of different lattices are the same. -/
theorem C75_extra_ignored : main 1 1 (fun _ _ => 1) 2 2 (fun i j => if i = 0 ∧ j = 0 then 1 else 7) = .same := by decide

/-- **C75** (`main`): with matrices of the same dimensions nothing is read out of bounds, and the answer is that of the
test. -/
theorem C75_main {r c : ℕ} (hc : 1 ≤ c) (B1 B2 : Mat ℤ) (h0 : ∀ i, i < r → B1 i 0 ≠ 0) :
    main r c B1 r c B2 ≠ .outOfBounds ∧ (main r c B1 r c B2 = .same ↔ UpToSign r c B1 B2) := by
  have e := C75_complete_partial hc B1 B2 h0
  unfold main
  rw [if_neg (by omega)]
  by_cases h : llldiff B1 B2 c r = true
  · rw [if_pos h]; exact ⟨by decide, fun _ => e.1 h, fun _ => rfl⟩
  · rw [if_neg h]; exact ⟨by decide, ⟨fun h' => absurd h' (by decide), fun h' => absurd (e.2 h') h⟩⟩

/-! ## Concrete cases -/

/-- `C75_main` applies to `(2, -3), (-1, 5)` and `(-2, 3), (-1, 5)`. -/
example : main 2 2 (fun i j => if i = 0 then (if j = 0 then 2 else -3) else if j = 0 then -1 else 5) 2 2
    (fun i j => if i = 0 then (if j = 0 then -2 else 3) else if j = 0 then -1 else 5) = .same := by
  refine (C75_main (by norm_num) _ _ fun i _ => ?_).2.2 fun i hi => ?_
  · by_cases h : i = 0 <;> simp [h]
  · interval_cases i
    · exact Or.inr fun j hj => by interval_cases j <;> rfl
    · exact Or.inl fun j hj => by interval_cases j <;> rfl

example : main 1 2 (fun _ j => if j = 0 then 2 else 3) 1 2 (fun _ j => if j = 0 then -2 else 3) = .different := by decide
example : main 2 2 (fun _ _ => 1) 1 2 (fun _ _ => 1) = .outOfBounds := by decide

end LllDiff
end Fplll

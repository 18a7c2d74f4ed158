import Verif.Props.Clean

/-!
# C58 fails for the default parameters

An LLL-reduced basis in dimension 5 for which BKZ with block size 3 and the default parameters stops with success after two tours, though the result is not BKZ-reduced.
-/

namespace Fplll

open Spec GSO LLL BKZ

def fiveB : Mat ℤ := fun i j =>
  (([[9, 50, 4, -57, -13], [-2, -5, -3, -55, 54], [51, 11, -7, 61, 7], [-5, -56, 54, -5, 6], [10, -13, -50, -56, -11]] : List (List ℤ)).getD i []).getD j 0

theorem five_lll : LLLReduced 5 5 (toQ fiveB) (99 / 100) (51 / 100) := by
  refine ⟨fun i hi j hj => ?_, fun i hi => ?_⟩
  · interval_cases i <;> interval_cases j <;> decide +kernel
  · obtain rfl | rfl | rfl | rfl : i = 0 ∨ i = 1 ∨ i = 2 ∨ i = 3 := by omega
    all_goals decide +kernel

/-- the outcome, and the squared lengths of the first and the third row of the result -/
theorem five_out : (match cleanRun 5 3 9 (99 / 100) (99 / 100) fiveB with
    | .ok a w => decide (a = (.success, 2)) && decide (normStar 5 (toQ w.s.b) 0 = 6015) && decide (distSq 5 (toQ w.s.b) 0 (vecQ (w.s.b 2)) = 5652)
    | _ => false) = true := by decide +kernel

/-- **C58 fails for equal parameters.**  The basis is LLL-reduced with `δ = 0.99`, `η = 0.51`, and BKZ with block size 3 and `δ = 0.99` is run on it.  In the first tour something is inserted, and since the
size reduction allows `|μ| > 1/2` the last insertion into the block of rows 3 and 4 leaves a basis that is not LLL-reduced.  LLL in the second tour moves rows of the first block after this block was treated, but no
`r(kappa, kappa)` that is looked at becomes smaller: the tour is clean and `bkz()` returns success.  The third row of the result is shorter than the first one (5652 against 6015), although both are in the first block. -/
theorem C58_not_reduced_default :
    LLLReduced 5 5 (toQ fiveB) (99 / 100) (51 / 100) ∧
    ∃ w', cleanRun 5 3 9 (99 / 100) (99 / 100) fiveB = .ok (.success, 2) w' ∧ ¬ BkzReduced (99 / 100) (51 / 100) (99 / 100) 3 5 5 w'.s.b := by
  refine ⟨five_lll, ?_⟩
  have h := five_out
  generalize cleanRun 5 3 9 (99 / 100) (99 / 100) fiveB = m at h
  cases m with
  | ok a w =>
    simp only [Bool.and_eq_true, decide_eq_true_eq] at h
    obtain ⟨⟨rfl, e2⟩, e1⟩ := h
    refine ⟨w, rfl, fun hb => ?_⟩
    have h2 := hb.block 0 (by norm_num) (w.s.b 2) ⟨fun i => if i = 2 then 1 else 0, fun c _ => by simp [comb]⟩
    rw [e1, e2] at h2
    norm_num at h2
  | thrown => simp at h
  | ub => simp at h
  | stuck => simp at h

end Fplll

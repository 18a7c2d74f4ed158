import Verif.Model.DualOrder
import Verif.Proofs.NumVect
import Mathlib.Algebra.BigOperators.Intervals
import Mathlib.Algebra.BigOperators.Pi

/-!
# The order of the coordinates after dual enumeration (C104)
-/

namespace Fplll
namespace DualOrder

open Finset

variable {V : Type*} [AddCommGroup V]

/-- the vector with these coordinates -/
def vec (D : ℕ → V) (d : ℕ) (x : ℕ → ℤ) : V := ∑ i ∈ range d, x i • D i

/-- the vectors of the block as dual enumeration sees them: in reverse order -/
def seen (dual : Bool) (D : ℕ → V) (d : ℕ) : ℕ → V := if dual = true then fun i => D (d - 1 - i) else D

theorem vec_reverse (D : ℕ → V) (d : ℕ) (x : ℕ → ℤ) : vec D d (reverseBySwap x 0 d) = vec (seen true D d) d x := by
  unfold vec seen
  rw [← sum_range_reflect]
  refine sum_congr rfl fun i hi => ?_
  rw [mem_range] at hi
  rw [reverseBySwap_apply, if_pos (by omega), if_pos rfl]
  congr 2
  omega

/-- **C104, solutions.** With an evaluator that has no solutions yet, each solution that the search finds - a combination of the vectors
as it sees them - is returned with the same distance and with the coordinates of the same vector in the order of the rows; nothing else is
returned. -/
theorem C104_solutions (D : ℕ → V) (dual findsubs reset : Bool) (hr : dual = false ∨ reset = false) (d : ℕ)
    (found : Bool × Bool × Bool → Ev) (ev : Ev) (he : ev.solutions = []) :
    ((enumerate dual findsubs reset d found ev).solutions.map fun p => (p.1, vec D d p.2)) =
      (found (dual, findsubs, reset)).solutions.map fun p => (p.1, vec (seen dual D d) d p.2) := by
  have hd : dispatch dual findsubs reset = some (dual, findsubs, reset) := by
    rcases hr with rfl | rfl
    · cases findsubs <;> cases reset <;> rfl
    · cases dual <;> cases findsubs <;> rfl
  unfold enumerate
  rw [hd]
  dsimp only
  rw [he, List.nil_append]
  cases dual with
  | false => rfl
  | true =>
    unfold putBack
    rw [if_pos rfl, List.map_map]
    refine List.map_congr_left fun p _ => ?_
    simp only [Function.comp, vec_reverse]

/-- **C104, primal enumeration** adds its solutions and leaves those that are there alone. -/
theorem C104_primal (findsubs reset : Bool) (d : ℕ) (found : Bool × Bool × Bool → Ev) (ev : Ev) :
    (enumerate false findsubs reset d found ev).solutions = ev.solutions ++ (found (false, findsubs, reset)).solutions := by
  cases findsubs <;> cases reset <;> rfl

/-- **C104 violated, second call.** Solutions that are in the evaluator from an earlier call are reversed again: after a dual enumeration
the coordinates of each old solution are those of the vector with the rows in reverse order. -/
theorem C104_twice_violated (D : ℕ → V) (findsubs : Bool) (d : ℕ) (found : Bool × Bool × Bool → Ev) (ev : Ev) {p : Sol}
    (hp : p ∈ ev.solutions) :
    ∃ q ∈ (enumerate true findsubs false d found ev).solutions, q.1 = p.1 ∧ vec D d q.2 = vec (seen true D d) d p.2 := by
  refine ⟨(p.1, reverseBySwap p.2 0 d), ?_, rfl, vec_reverse D d p.2⟩
  have : ∃ t, dispatch true findsubs false = some t := by cases findsubs <;> exact ⟨_, rfl⟩
  obtain ⟨t, ht⟩ := this
  unfold enumerate putBack
  rw [ht, if_pos rfl]
  exact List.mem_map.2 ⟨p, List.mem_append_left _ hp, rfl⟩

/-- unit vectors -/
def unit : ℕ → ℕ → ℤ := fun i j => if i = j then 1 else 0

theorem vec_unit {d j : ℕ} (x : ℕ → ℤ) (hj : j < d) : vec unit d x j = x j := by
  unfold vec unit
  rw [Finset.sum_apply, Finset.sum_eq_single j]
  · simp
  · intro i _ hi; simp [hi]
  · intro h; exact absurd (mem_range.2 hj) h

/-- **C104 violated, sub-solutions.** They are returned as the search sees them, in reverse order: for vectors that are independent, the
coordinates returned are those of another vector as soon as they are not the same from both ends. -/
theorem C104_sub_violated (d : ℕ) (found : Bool × Bool × Bool → Ev) (ev : Ev) {p : Sol} (hp : p ∈ (found (true, true, false)).subs)
    {j : ℕ} (hj : j < d) (hx : p.2 j ≠ p.2 (d - 1 - j)) :
    ∃ q ∈ (enumerate true true false d found ev).subs, q.1 = p.1 ∧ vec unit d q.2 ≠ vec (seen true unit d) d p.2 := by
  refine ⟨p, hp, rfl, fun h => hx ?_⟩
  have h1 := congrFun h j
  rw [← vec_reverse, vec_unit _ hj, vec_unit _ hj, reverseBySwap_apply, if_pos (by omega)] at h1
  rw [h1, show 0 + d - 1 - j = d - 1 - j by omega]

/-- **C104 violated, `max_indices`.** Dual enumeration with a non-empty `max_indices` does not search, and reports no error. -/
theorem C104_reset_violated (findsubs : Bool) (d : ℕ) (found : Bool × Bool × Bool → Ev) (subs : List Sol) :
    enumerate true findsubs true d found ⟨[], subs⟩ = ⟨[], subs⟩ := by
  cases findsubs <;> rfl

/-! ## Concrete cases -/

/-- the coordinates `(3, 1, 0)` -/
def x310 : ℕ → ℤ := fun i => if i = 0 then 3 else if i = 1 then 1 else 0

/-- a search that finds `(3, 1, 0)` and the sub-solution `(3, 1, 0)` -/
def once : Bool × Bool × Bool → Ev := fun _ => ⟨[(10, x310)], [(10, x310)]⟩

/-- the vector found is `(0, 1, 3)` -/
example : (List.range 3).map (vec (seen true unit 3) 3 x310) = [0, 1, 3] := by decide +kernel

/-- so are the coordinates returned first -/
example : (enumerate true true false 3 once ⟨[], []⟩).solutions.map (fun p => (List.range 3).map p.2) = [[0, 1, 3]] := by decide +kernel

/-- but not those of the sub-solution -/
example : (enumerate true true false 3 once ⟨[], []⟩).subs.map (fun p => (List.range 3).map p.2) = [[3, 1, 0]] := by decide +kernel

/-- and after a second call the first solution is wrong -/
example : (enumerate true true false 3 once (enumerate true true false 3 once ⟨[], []⟩)).solutions.map (fun p => (List.range 3).map p.2) =
    [[3, 1, 0], [0, 1, 3]] := by decide +kernel

end DualOrder
end Fplll

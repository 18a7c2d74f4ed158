import Verif.Props.DualOrder
import Verif.Props.Enum
import Verif.Spec.Indep

/-!
# Dual enumeration from the search to the coordinates returned (C104 with C11)
-/

namespace Fplll
namespace DualOrder

open Enum

/-- the solutions that a finished search gave to the evaluator -/
def given {σ : Type} (s : St σ) : List Sol :=
  s.events.filterMap fun e => match e with
    | .sol v δ => some (δ, v)
    | _ => none

/-- **C104, distances.** Whatever the evaluator keeps of what the search gives it: each solution returned from dual enumeration of the
rows of `B` (exact arithmetic, an evaluator without solutions) has as distance the squared length of the vector of the dual lattice
whose inner products with the rows, in their order, are the coordinates returned; it is within the radius. -/
theorem C104_distance {σ : Type} {p : Input} {E : EvalOps σ} {I : σ → ℚ → Prop} {e : σ} (h : p.OK)
    (hE : EvalOK p.cfg E I) (hI : I e p.maxdist) {fuel : ℕ} {s' : St σ} (run : Enum.enumerate p E fuel e = some s')
    {n : ℕ} {B : ℕ → ℕ → ℚ} {T : ℕ → ℚ} (hB : p.FromBasis n 0 B T) (hd : p.dual = true) (hr : p.subtreeReset = false)
    (hp : ∀ i < p.d, 0 < Spec.normStar n B i)
    {findsubs : Bool} {found : Bool × Bool × Bool → Ev} (hf : ∀ q ∈ (found (true, findsubs, false)).solutions, q ∈ given s')
    {ev : Ev} (he : ev.solutions = []) {q : Sol} (hq : q ∈ (DualOrder.enumerate true findsubs false p.d found ev).solutions)
    {w : ℕ → ℚ} (hw : Spec.DualVec p.d n B q.2 w) :
    q.1 = Spec.dotQ n w w ∧ q.1 ≤ p.maxdist := by
  have hs : (DualOrder.enumerate true findsubs false p.d found ev).solutions =
      (found (true, findsubs, false)).solutions.map fun p' => (p'.1, reverseBySwap p'.2 0 p.d) := by
    cases findsubs <;> simp [DualOrder.enumerate, putBack, dispatch, he]
  rw [hs] at hq
  obtain ⟨⟨δ, v⟩, h1, rfl⟩ := List.mem_map.1 hq
  obtain ⟨ev', h2, h3⟩ := List.mem_filterMap.1 (hf _ h1)
  obtain ⟨⟨a, rfl⟩, h4⟩ := hw
  cases ev' with
  | node => simp at h3
  | sub => simp at h3
  | sol v' δ' =>
    simp only [Option.some.injEq, Prod.mk.injEq] at h3
    obtain ⟨rfl, rfl⟩ := h3
    obtain ⟨L₁, L₂, h5⟩ := List.append_of_mem h2
    obtain ⟨-, h6, h7, -⟩ := C11_enumeration_sound h hE hI run h5
    have h8 := C11_distance_dual hB hd (h.dualOK hd).1 hr hp v' a fun i hi => by
      rw [h4 i hi]
      dsimp only
      rw [reverseBySwap_apply, if_pos (by omega), show 0 + p.d - 1 - i = p.d - 1 - i by omega]
    refine ⟨by rw [← h8, h6], ?_⟩
    have h9 := h7 0 h.K_pos
    rw [← h6] at h9
    exact h9.trans (h.prune 0 (lt_of_lt_of_le h.K_pos p.K_le))

/-- the rows `(2, 0)` and `(1, 1)`, dual enumeration with radius 1 -/
def sk : Input where
  d := 2
  mu _ _ := 1 / 2
  r i := if i = 0 then 4 else 1
  maxdist := 1
  target := none
  subtree := []
  pruning := none
  dual := true
  subtreeReset := false
  findsubsols := false

/-- its rows -/
def skB : ℕ → ℕ → ℚ := fun i c => if i = 0 then (if c = 0 then 2 else 0) else if c ≤ 1 then 1 else 0

example : sk.OK where
  rnd := Rnd.id
  mrep := rfl
  rpos i _ := by
    simp only [sk]
    split_ifs <;> norm_num
  sublen := by decide
  dualOK _ := ⟨rfl, rfl⟩
  prune k _ := by simp [setBounds, Input.full, sk]

example : sk.FromBasis 2 0 skB (fun _ => 0) where
  exact := rfl
  mu i j h1 h2 := by
    have hi : i = 1 := by simp only [sk] at h2; omega
    have hj : j = 0 := by omega
    subst hi hj
    decide +kernel
  r i h := by
    have hi : i = 0 ∨ i = 1 := by simp only [sk] at h; omega
    rcases hi with rfl | rfl <;> decide +kernel
  target i h := by
    have hi : i = 0 ∨ i = 1 := by simp only [sk] at h; omega
    rcases hi with rfl | rfl <;> decide +kernel

example : ∀ i < sk.d, 0 < Spec.normStar 2 skB i := by decide +kernel

/-- the search finds three vectors, the first with coordinates `(1, 0)` and distance 1 -/
example : (match Enum.enumerate sk (fastEval 1 .best) 30 EvSt.new with
    | some s => decide ((given s).map (fun q => (q.1, q.2 0, q.2 1)) = [(1, 1, 0), (1 / 2, 1, 1), (1 / 2, 0, 1)])
    | none => false) = true := by decide +kernel

/-- the vector of the dual lattice with coordinates `(0, 1)` is `(0, 1)`, of squared length 1; with `(1, 0)`, the coordinates in the order
of the search, it would be `(1/2, -1/2)`, of squared length 1/2 -/
example : Spec.DualVec 2 2 skB (fun i => if i = 1 then 1 else 0) (fun c => Spec.lc 2 (fun i => if i = 0 then -1 / 2 else 1) skB c) ∧
    Spec.DualVec 2 2 skB (fun i => if i = 0 then 1 else 0) (fun c => Spec.lc 2 (fun i => if i = 0 then 1 / 2 else -1 / 2) skB c) :=
  ⟨⟨⟨_, rfl⟩, by decide +kernel⟩, ⟨⟨_, rfl⟩, by decide +kernel⟩⟩

end DualOrder
end Fplll

import Verif.Model.NodeTotal
import Mathlib.Algebra.BigOperators.Group.List.Basic

/-!
# The total number of nodes (C43)
-/

namespace Fplll
namespace NodeTotal

theorem accStep_mod (a : ℤ) (n : ℕ) : (accStep a n - (a + n)) % 2 ^ 32 = 0 := by
  unfold accStep toInt
  omega

theorem toInt_range (z : ℤ) : -2 ^ 31 ≤ toInt z ∧ toInt z < 2 ^ 31 := by
  unfold toInt
  omega

theorem fold_spec (ns : List ℕ) : ∀ a : ℤ, -2 ^ 31 ≤ a → a < 2 ^ 31 →
    (ns.foldl accStep a - (a + (ns.sum : ℕ))) % 2 ^ 32 = 0 ∧ -2 ^ 31 ≤ ns.foldl accStep a ∧ ns.foldl accStep a < 2 ^ 31 := by
  induction ns with
  | nil => intro a h1 h2; exact ⟨by simp, h1, h2⟩
  | cons n ns ih =>
    intro a h1 h2
    obtain ⟨h3, h4⟩ := toInt_range (((a % 2 ^ 64) + n) % 2 ^ 64)
    obtain ⟨h5, h6, h7⟩ := ih (accStep a n) h3 h4
    have h8 := accStep_mod a n
    rw [List.foldl_cons, List.sum_cons]
    refine ⟨?_, h6, h7⟩
    push_cast at h5 ⊢
    omega

/-- **C43, total.** For counters whose sum is below `2^64 - 2^31`, `get_nodes()` is the sum of the counters exactly when it is below `2^31`. -/
theorem C43_total_iff (ns : List ℕ) (h : ns.sum < 2 ^ 64 - 2 ^ 31) : getNodes ns = ns.sum ↔ ns.sum < 2 ^ 31 := by
  obtain ⟨h1, h2, h3⟩ := fold_spec ns 0 (by decide) (by decide)
  unfold getNodes
  generalize ns.foldl accStep 0 = t at *
  generalize ns.sum = m at *
  omega

/-- **C43 violated, total.** From `2^31` to `2^32 - 1` nodes `get_nodes()` reports more than `2^64 - 2^32` nodes, and for `2^32` nodes and more
it reports the remainder modulo `2^32`, with the same effect. -/
theorem C43_total_violated (ns : List ℕ) :
    getNodes ns = if ns.sum % 2 ^ 32 < 2 ^ 31 then ns.sum % 2 ^ 32 else 2 ^ 64 - 2 ^ 32 + ns.sum % 2 ^ 32 := by
  obtain ⟨h1, h2, h3⟩ := fold_spec ns 0 (by decide) (by decide)
  unfold getNodes
  generalize ns.foldl accStep 0 = t at *
  generalize ns.sum = m at *
  split_ifs <;> omega

example : getNodes [3, 5, 7] = 15 := by decide +kernel
example : getNodes [1500000000, 1500000000] = 18446744072414584320 := by decide +kernel
example : getNodes [4294967296, 5] = 5 := by decide +kernel

end NodeTotal
end Fplll

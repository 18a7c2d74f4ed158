import Verif.Proofs.CVPReset

/-!
# C73: the levels at which the proved method of `closest_vector` restarts

`max_indices[k]` is the first level up to `k` with the largest `r(i, i)` among the levels `0 … k`, except for the top level,
whose entry is the level itself.
-/

namespace Fplll
namespace Enum

/-- specification: `m` is the first of the levels `0 … k` with the largest `r` -/
def FirstMax (r : ℕ → ℚ) (k m : ℕ) : Prop := m ≤ k ∧ (∀ j, j ≤ k → r j ≤ r m) ∧ ∀ j, j < m → r j < r m

theorem maxScan_max (r : ℕ → ℚ) {prev mx : ℕ} (h1 : mx ≤ prev) :
    (∀ j, j < prev → r j ≤ r (maxScan r prev mx)) ∧ (∀ j, j < maxScan r prev mx → r j < r (maxScan r prev mx)) := by
  have key := forDown_inv (fun c (w : ℚ × ℕ) => w.1 = r w.2 ∧ w.2 ≤ prev ∧ (∀ j, c ≤ j → j < prev → r j ≤ r w.2) ∧
      ∀ j, c ≤ j → j < w.2 → j < prev → r j < r w.2)
    (fun cur (w : ℚ × ℕ) => if w.1 ≤ r cur then (r cur, cur) else w) (Nat.zero_le prev) (r mx, mx)
    ⟨rfl, h1, fun j h h' => by omega, fun j h _ h' => by omega⟩ ?_
  · obtain ⟨-, k1, k2, k3⟩ := key
    exact ⟨fun j => k2 j (Nat.zero_le j), fun j hj => k3 j (Nat.zero_le j) hj (lt_of_lt_of_le hj k1)⟩
  · rintro c ⟨v, i⟩ - hc ⟨e, hi, a, b⟩
    dsimp only at e hi a b
    subst e
    by_cases hle : r i ≤ r c
    · rw [if_pos hle]
      refine ⟨rfl, hc.le, fun j hj hj' => ?_, fun j hj hj' => by dsimp only at hj'; omega⟩
      dsimp only
      rcases Nat.eq_or_lt_of_le hj with rfl | hj2
      · exact le_rfl
      · exact (a j hj2 hj').trans hle
    · rw [if_neg hle]
      refine ⟨rfl, hi, fun j hj hj' => ?_, fun j hj hj' hj3 => ?_⟩
      · dsimp only
        rcases Nat.eq_or_lt_of_le hj with rfl | hj2
        · exact (not_le.1 hle).le
        · exact a j hj2 hj'
      · dsimp only at hj' ⊢
        rcases Nat.eq_or_lt_of_le hj with rfl | hj2
        · exact not_le.1 hle
        · exact b j hj2 hj' hj3

theorem maxLoop_max (r : ℕ → ℚ) : ∀ (n prev mx : ℕ) (f : ℕ → ℕ), mx ≤ prev → prev ≤ mx + 1 → mx ≤ n →
    (∀ k, k < prev → f k = 0) →
    (∀ k, k < prev → FirstMax r k (maxLoop r n prev mx f k)) ∧
      (maxLoop r n prev mx f prev = if 0 < mx then prev else f prev) ∧ ∀ k, prev < k → maxLoop r n prev mx f k = f k := by
  intro n
  induction n with
  | zero =>
    intro prev mx f h1 h2 h3 hf
    have : mx = 0 := by omega
    subst this
    refine ⟨fun k hk => ?_, rfl, fun k _ => rfl⟩
    have : k = 0 := by omega
    subst this
    rw [maxLoop, hf 0 hk]
    refine ⟨le_rfl, fun j hj => ?_, fun j hj => by omega⟩
    rw [Nat.le_zero.1 hj]
  | succ n ih =>
    intro prev mx f h1 h2 h3 hf
    by_cases h : 0 < mx
    · have hle := (maxScan_le r h1).2 h2
      obtain ⟨s1, s2⟩ := maxScan_max r h1
      rw [maxLoop, if_pos h]
      generalize maxScan r prev mx = m at hle s1 s2
      obtain ⟨i1, i2, i3⟩ := ih m (m - 1) (setAt (fun cur => if m ≤ cur ∧ cur < prev then m else f cur) prev prev)
        (by omega) (by omega) (by omega) (fun k hk => by
          simp only [setAt]
          rw [if_neg (by omega), if_neg (by omega)]
          exact hf k (by omega))
      have good : ∀ k, m ≤ k → k < prev → FirstMax r k m := fun k hk hk' =>
        ⟨hk, fun j hj => s1 j (by omega), s2⟩
      refine ⟨fun k hk => ?_, ?_, fun k hk => ?_⟩
      · rcases lt_trichotomy k m with hkm | hkm | hkm
        · exact i1 k hkm
        · subst hkm
          have e : setAt (fun cur => if k ≤ cur ∧ cur < prev then k else f cur) prev prev k = k := by
            simp only [setAt]
            rw [if_neg (by omega : k ≠ prev), if_pos ⟨le_rfl, hk⟩]
          rw [i2, e, ite_self]
          exact good k le_rfl hk
        · rw [i3 k hkm]
          simp only [setAt]
          rw [if_neg (by omega : k ≠ prev), if_pos ⟨hkm.le, hk⟩]
          exact good k hkm.le hk
      · rw [if_pos h]
        rcases Nat.eq_or_lt_of_le (hle.trans h1) with e | e
        · subst e
          rw [i2]
          simp [setAt]
        · rw [i3 _ e]
          simp [setAt]
      · rw [i3 k (by omega)]
        simp only [setAt]
        rw [if_neg (by omega), if_neg (by omega)]
    · have : mx = 0 := by omega
      subst this
      rw [maxLoop, if_neg h]
      refine ⟨fun k hk => ?_, rfl, fun k _ => rfl⟩
      have : k = 0 := by omega
      subst this
      rw [hf 0 hk]
      refine ⟨le_rfl, fun j hj => ?_, fun j hj => by omega⟩
      rw [Nat.le_zero.1 hj]

/-- **C73** (`max_indices`): below the top level, `max_indices[k]` is the first of the levels `0 … k` with the largest
`r(i, i)`; the entry of the top level is the level itself. -/
theorem C73_max_indices (d : ℕ) (r : ℕ → ℚ) :
    (∀ k, k + 1 < d → FirstMax r k (maxIndices d r k)) ∧ maxIndices d r (d - 1) = d - 1 := by
  obtain ⟨h1, h2, -⟩ := maxLoop_max r d (d - 1) (d - 1) (fun _ => 0) le_rfl (by omega) (by omega) (fun _ _ => rfl)
  refine ⟨fun k hk => h1 k (by omega), ?_⟩
  unfold maxIndices
  rw [h2]
  split_ifs with h
  · rfl
  · omega

/-- the top level has its own entry although level 1 has the largest `r` -/
example : (List.range 6).map (maxIndices 6 fun i => [3, 9, 4, 7, 7, 5].getD i 0) = [0, 1, 1, 1, 1, 5] := by decide +kernel
example : (List.range 5).map (maxIndices 5 fun i => [4, 4, 4, 6, 2].getD i 0) = [0, 0, 0, 3, 4] := by decide +kernel

end Enum
end Fplll

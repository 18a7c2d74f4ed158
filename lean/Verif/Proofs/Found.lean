import Verif.Props.Evaluator

/-!
# What an enumeration for SVP has found

`Found` is what the callers rely on; both the sequential (`found_dyn`) and the parallel enumeration (Props/ExtEnum.lean)
guarantee it.
-/

open Finset

namespace Fplll
namespace Enum

variable {σ : Type}

/-- The evaluator was offered the solutions in `L` one after the other, starting from `e`; these are non-zero vectors within the
initial bounds, given with their distance; all non-zero vectors within the final bounds are among them, up to sign. -/
structure Found (p : Input) (E : EvalOps σ) (I : σ → ℚ → Prop) (e ev : σ) (md : ℚ) (L : List Event) : Prop where
  fold : (ev, md) = L.foldl (evStep E) (e, p.maxdist)
  inv : I ev md
  sound : ∀ v δ, Event.sol v δ ∈ L → δ = p.dist v 0 ∧ 0 < δ ∧ ∀ j, j < p.d → p.dist v j ≤ setBounds p.full p.maxdist j
  comp : ∀ v : ℕ → ℤ, (∃ j, j < p.d ∧ v j ≠ 0) → (∀ j, j < p.d → p.dist v j ≤ setBounds p.full md j) →
    Offered p L v ∨ Offered p L fun j => -v j

theorem K_eq {p : Input} (hst : p.subtree = []) : p.K = p.d := by simp [Input.K, hst]

theorem symm_of {p : Input} (ht : p.target = none) (hst : p.subtree = []) : p.Symm :=
  ⟨ht, fun j h1 h2 => by rw [K_eq hst] at h1; omega⟩

theorem agrees_of {p : Input} (hst : p.subtree = []) (v : ℕ → ℤ) : p.Agrees v := by
  intro j h1 h2
  rw [K_eq hst] at h1
  omega

/-- `EnumerationDyn::enumerate` -/
theorem found_dyn {p : Input} {E : EvalOps σ} {I : σ → ℚ → Prop} {e : σ} (h : p.OK) (hE : EvalOK p.cfg E I)
    (hI : I e p.maxdist) (ht : p.target = none) (hst : p.subtree = []) {fuel : ℕ} {s' : St σ}
    (run : enumerate p E fuel e = some s') : Found p E I e s'.ev s'.maxdist s'.events := by
  have S := enumerate_done h hE hI run
  have hK := K_eq hst
  refine ⟨S.fold, S.inv, fun v δ hm => ?_, fun v hv hb => ?_⟩
  · obtain ⟨h1, h2⟩ := (S.solsOk v δ).1 hm
    obtain ⟨-, -, h3, h4, -⟩ := S.node 0 v δ h1
    refine ⟨h3, ?_, fun j hj => h4 j (Nat.zero_le _) (by omega)⟩
    rcases h2 with h2 | h2
    · exact h2
    · exact absurd (symm_of ht hst) h2
  · rcases C12_enumeration_complete_svp h hE hI run (symm_of ht hst) (agrees_of hst v) hv (fun j hj => hb j (by omega)) with
      h1 | h1
    · exact .inl h1.1
    · exact .inr h1.1

namespace Found

variable {p : Input} {E : EvalOps σ} {I : σ → ℚ → Prop} {e ev : σ} {md : ℚ} {L : List Event}

/-- offered vectors are not zero -/
theorem ne_zero (F : Found p E I e ev md L) (h : p.OK) (ht : p.target = none) {v : ℕ → ℤ} {δ : ℚ} (hm : Event.sol v δ ∈ L) :
    ∃ j, j < p.d ∧ v j ≠ 0 := by
  by_contra hc
  push Not at hc
  obtain ⟨h1, h2, -⟩ := F.sound v δ hm
  rw [dist_zero_of_zero h.rnd ht hc] at h1
  exact absurd h1 h2.ne'

/-- without pruning, whatever is within the final radius was offered -/
theorem offered (F : Found p E I e ev md L) (h : p.OK) (hst : p.subtree = []) (hp : p.pruning = none) {v : ℕ → ℤ}
    (hv : ∃ j, j < p.d ∧ v j ≠ 0) (hle : p.dist v 0 ≤ md) : Offered p L v ∨ Offered p L fun j => -v j := by
  refine F.comp v hv fun j hj => ?_
  unfold setBounds
  rw [show p.full.pruning = none from hp]
  exact (dist_anti h v (Nat.zero_le j) (by rw [K_eq hst]; exact hj.le)).trans hle

/-- … with its distance -/
theorem offered_dist (F : Found p E I e ev md L) (h : p.OK) (ht : p.target = none) (hst : p.subtree = [])
    (hp : p.pruning = none) {v : ℕ → ℤ} (hv : ∃ j, j < p.d ∧ v j ≠ 0) (hle : p.dist v 0 ≤ md) :
    ∃ w, Event.sol w (p.dist v 0) ∈ L := by
  rcases F.offered h hst hp hv hle with ⟨w, hw, -⟩ | ⟨w, hw, -⟩
  · exact ⟨w, hw⟩
  · exact ⟨w, by rwa [dist_neg h.rnd ht] at hw⟩

end Found

/-- the evaluator that keeps the `N` best: C15 for whatever enumeration -/
theorem found_best {p : Input} {N : ℕ} (hN : 1 ≤ N) (h : p.OK) (ht : p.target = none) (hst : p.subtree = [])
    (hp : p.pruning = none) {I : EvSt → ℚ → Prop} {ev : EvSt} {md : ℚ} {L : List Event}
    (F : Found p (fastEval N .best) I EvSt.new ev md L) :
    Desc ev.sols ∧ ev.sols.length ≤ N ∧
    (∀ a ∈ ev.sols, a.1 = p.dist a.2 0 ∧ a.1 ≤ p.maxdist ∧ 0 < a.1 ∧ ∃ j, j < p.d ∧ a.2 j ≠ 0) ∧
    ∀ v : ℕ → ℤ, p.dist v 0 ≤ p.maxdist → (∃ j, j < p.d ∧ v j ≠ 0) →
      (Stored p ev.sols v ∨ Stored p ev.sols fun j => -v j) ∨
        ev.sols.length = N ∧ ∀ a ∈ ev.sols, a.1 ≤ p.dist v 0 := by
  obtain ⟨h1, h2⟩ := fast_fold N .best L EvSt.new EvSt.new p.maxdist rfl
  rw [← F.fold] at h1 h2
  dsimp only at h1 h2
  obtain ⟨k1, k2, k3⟩ := C15_best_keeps_N_shortest hN p.maxdist (offersOf L)
  rw [← h1] at k1 k3
  rw [← h2] at k2 k3
  obtain ⟨D, hD, hle⟩ := k1.drop
  have hlen := k1.len
  refine ⟨k1.desc, by omega, ?_, ?_⟩
  · intro a ha
    have hm : Event.sol a.2 a.1 ∈ L := mem_offersOf.1 (hD.mem_iff.1 (List.mem_append_left _ ha))
    obtain ⟨c1, c2, c3⟩ := F.sound _ _ hm
    refine ⟨c1, ?_, c2, F.ne_zero h ht hm⟩
    have := c3 0 (by have := h.sublen; omega)
    unfold setBounds at this
    rw [show p.full.pruning = none from hp] at this
    rw [c1]; exact this
  · intro v hvd hne
    by_cases hle' : p.dist v 0 ≤ md
    · have key : ∀ u : ℕ → ℤ, Offered p L u → p.dist u 0 = p.dist v 0 →
          Stored p ev.sols u ∨ ev.sols.length = N ∧ ∀ a ∈ ev.sols, a.1 ≤ p.dist v 0 := by
        rintro u ⟨w, hw, hwu⟩ hd
        rcases List.mem_append.1 (hD.mem_iff.2 (mem_offersOf.2 hw)) with hm | hm
        · exact .inl ⟨_, hm, rfl, hwu⟩
        · refine .inr ⟨?_, fun a ha => ?_⟩
          · have := hD.length_eq
            rw [List.length_append] at this
            have : 0 < D.length := List.length_pos_of_mem hm
            omega
          · have := hle a ha _ hm
            rw [← hd]; exact this
      rcases F.offered h hst hp hne hle' with ho | ho
      · exact (key v ho rfl).imp .inl id
      · exact (key _ ho (dist_neg h.rnd ht v 0)).imp .inr id
    · right
      have hlN : ¬ (offersOf L).length < N := fun hc => by
        rw [k2 hc] at hle'; exact hle' hvd
      refine ⟨by omega, fun a ha => ?_⟩
      have := (k3 (by omega)).2 a ha
      push Not at hle'
      linarith

end Enum
end Fplll

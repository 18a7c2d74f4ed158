import Verif.Proofs.Pruner

/-!
# C44: pruning coefficients are always valid

The specification: `Valid n pr` says what a user of the result needs (pruning_params.h: coefficients in `(0, 1]`, non-increasing,
starting with 1).
-/

namespace Fplll
namespace Pruner

open Function (update update_self update_of_ne)

/-- C44, `enforce` alone, for each `j` it may be called with (the index that has just been changed), each vector and each
non-decreasing lower bound: the result is non-decreasing, at most 1, not below the lower bounds, and the last coefficient is at
least .999 unless it is the one that was changed. -/
theorem C44_enforce (d : ℕ) (mn : Vec) (dn : ℕ) (b : Vec) (j : ℕ) (hj : j < dn) (hmn : ∀ k, k < d → mn k ≤ 1)
    (hmono : ∀ k k', k ≤ k' → k' < d → mn k ≤ mn k') (hjd : j / (if dn = d then 1 else 2) < d) :
    let r := (enforce d mn dn b j).2
    (∀ i k, i ≤ k → k < dn → r i ≤ r k) ∧ (∀ i, i < dn → r i ≤ 1) ∧
    (∀ i, i < dn → i / (if dn = d then 1 else 2) < d → mn (i / (if dn = d then 1 else 2)) ≤ r i) ∧
    (j ≠ dn - 1 → 0.999 ≤ r (dn - 1)) := by
  dsimp only
  set c := if dn = d then 1 else 2 with hc
  have hcpos : 0 < c := by rw [hc]; split_ifs <;> norm_num
  -- the lower bound of an index; an index without one gets what the first loop leaves
  set lo : Vec := fun i => if i / c < d then mn (i / c) else min (pre dn b j i) 1 with hlo
  obtain ⟨h1, h2, h3⟩ := enforce_spec d mn dn b j hj lo (by
      intro i hi
      rw [hlo]
      dsimp only
      rw [← hc]
      by_cases h : i / c < d
      · rw [if_pos h, if_pos h]
        exact le_max_right _ _
      · rw [if_neg h, if_neg h]) (by
      intro i hi
      have hle : (i + 1) / c ≤ j / c := Nat.div_le_div_right (by omega)
      have hle' : i / c ≤ (i + 1) / c := Nat.div_le_div_right (by omega)
      rw [hlo]
      dsimp only
      rw [if_pos (by omega), if_pos (by omega)]
      exact hmono _ _ hle' (by omega)) hmn
  refine ⟨fun i k hik hk => ?_, fun i hi => (h1 i hi).2, fun i hi h => ?_, fun hne => ?_⟩
  · obtain ⟨m, rfl⟩ := Nat.exists_eq_add_of_le hik
    clear hik
    induction m with
    | zero => exact le_rfl
    | succ m ih => exact (ih (by omega)).trans (h2 (i + m) (by omega))
  · have := (h1 i hi).1
    rw [hlo] at this
    dsimp only at this
    rwa [if_pos h] at this
  · refine h3 _ (by norm_num) ?_
    unfold pre
    by_cases h : b (dn - 1) < 0.999
    · rw [if_pos ⟨h, hne⟩, update_self]; norm_num
    · rw [if_neg (fun h' => h h'.1)]; linarith

/-- the hypotheses of `C44_enforce` hold for a vector that really is changed -/
example : ∃ (mn b : Vec), (∀ k, k < 2 → mn k ≤ 1) ∧ (∀ k k', k ≤ k' → k' < 2 → mn k ≤ mn k') ∧
    (1 : ℕ) / (if 4 = 2 then 1 else 2) < 2 ∧ (enforce 2 mn 4 b 1).2 3 ≠ b 3 := by
  refine ⟨fun _ => 0.1, fun _ => 2, fun _ _ => by norm_num, fun _ _ _ _ => le_rfl, by norm_num, ?_⟩
  have := (C44_enforce 2 (fun _ => 0.1) 4 (fun _ => 2) 1 (by omega) (fun _ _ => by norm_num) (fun _ _ _ _ => le_rfl)
    (by norm_num)).2.1 3 (by omega)
  intro h
  rw [h] at this
  norm_num at this

/-- C44: `enforce` only repairs. A vector that is already valid stays as it is and the return value is false. -/
theorem C44_enforce_valid (d : ℕ) (mn : Vec) (dn : ℕ) (hdn : 0 < dn) (b : Vec) (hle : ∀ i, i < dn → b i ≤ 1)
    (hmono : ∀ i, i + 1 < dn → b i ≤ b (i + 1))
    (hlo : ∀ i, i < dn → i / (if dn = d then 1 else 2) < d → mn (i / (if dn = d then 1 else 2)) ≤ b i)
    (hlast : 0.999 ≤ b (dn - 1) ∨ dn = 1) :
    (enforce d mn dn b 0).1 = false ∧ ∀ i, i < dn → (enforce d mn dn b 0).2 i = b i :=
  enforce_status d mn dn hdn b hle hmono hlo hlast

/-- a case for `C44_enforce_valid` -/
example : (enforce 2 (fun _ => 0.1) 4 (fun i => ((i : ℝ) + 1) / 4) 0).1 = false :=
  (C44_enforce_valid 2 (fun _ => 0.1) 4 (by norm_num) (fun i => ((i : ℝ) + 1) / 4)
    (fun i hi => by
      have : (i : ℝ) ≤ 3 := by exact_mod_cast (by omega : i ≤ 3)
      linarith)
    (fun i hi => by push_cast; linarith)
    (fun i hi _ => by
      have : (0 : ℝ) ≤ i := Nat.cast_nonneg i
      have h : (0.1 : ℝ) ≤ (0 + 1) / 4 := by norm_num
      linarith)
    (Or.inl (by norm_num))).1

/-- what callers rely on: in `(0, 1]`, non-increasing, first entry 1 -/
def Valid (n : ℕ) (pr : Vec) : Prop :=
  pr 0 = 1 ∧ (∀ i, i < n → 0 < pr i ∧ pr i ≤ 1) ∧ ∀ i k, i ≤ k → k < n → pr k ≤ pr i

theorem valid_iff (n : ℕ) (pr : Vec) : Valid n pr ↔ VP n pr :=
  ⟨fun h => ⟨h.1, fun i hi => (h.2.1 i hi).1, fun i hi => (h.2.1 i hi).2, fun i hi => h.2.2 i (i + 1) (by omega) hi⟩,
   fun h => ⟨h.one, fun i hi => ⟨h.pos i hi, h.le i hi⟩, fun i k hik hk => h.anti hik hk⟩⟩

/-- C44: each vector that goes through `enforce` and `save_coefficients` gives a valid `pr`, in both representations -/
theorem C44_enforce_save (c : Cfg) (hn : 2 ≤ c.n) (dn : ℕ) (hdn : dn = c.d ∨ dn = c.n) (mn : Vec)
    (hmn : ∀ k, k < c.d → 0 < mn k ∧ mn k ≤ 1) (b pr : Vec) : Valid c.n (save c dn (enforce c.d mn dn b 0).2 pr) :=
  (valid_iff _ _).2 (save_ok ⟨hn, hdn⟩ pr (enforce_zero ⟨hn, hdn⟩ (fun k hk => (hmn k hk).2) (fun _ _ => Or.inr hmn)).vb)

/-- C44: loading what was saved gives the same coefficients back (in the full representation the last one becomes 1) -/
theorem C44_load_save (c : Cfg) (hn : 2 ≤ c.n) (dn : ℕ) (hdn : dn = c.d ∨ dn = c.n) (b pr : Vec) (i : ℕ) (hi : i < dn)
    (hlast : i ≠ c.n - 1) : load c dn (save c dn b pr) i = b i := by
  unfold load
  rcases hdn with h | h
  · rw [if_pos h]
    rw [h] at hi
    simp only [Cfg.d] at hi
    rw [save_val ⟨hn, Or.inl h⟩ b pr _ (by omega), if_neg (by omega), if_pos h]
    congr 1
    omega
  · have hne : dn ≠ c.d := by simp only [Cfg.d]; omega
    rw [if_neg hne, save_val ⟨hn, Or.inr h⟩ b pr _ (by omega), if_neg (by omega), if_neg hne]
    congr 1
    omega

/-- C44, the whole optimisation: whatever the cost functions, flags, target and iteration counts are, if `optimize_coefficients`
returns, then the coefficients are valid. With `PRUNER_START_FROM_INPUT` the input has to be valid. -/
theorem C44_optimize (c : Cfg) (hn : 2 ≤ c.n) (O Omin : Oracle) (fuel : ℕ) (pr pr' : Vec)
    (hp : c.fromInput = true → Valid c.n pr) (h : optimize c O Omin fuel pr = .ok pr') : Valid c.n pr' := by
  have := optimize_ok hn O Omin fuel (fun h => (valid_iff _ _).1 (hp h))
  rw [h] at this
  exact (valid_iff _ _).2 this

/-- C44: the two exceptions of `nelder_mead_step` ("Concavity says that should not happen", "Something certain is false in
Nelder-Mead") are never thrown -/
theorem C44_no_exception (c : Cfg) (hn : 2 ≤ c.n) (O Omin : Oracle) (fuel : ℕ) (pr : Vec)
    (hp : c.fromInput = true → Valid c.n pr) : optimize c O Omin fuel pr ≠ .thrown := by
  have := optimize_ok hn O Omin fuel (fun h => (valid_iff _ _).1 (hp h))
  intro h
  rw [h] at this
  exact this

/-- cost functions for the example: constant cost, no gradient -/
def exOracle : Oracle :=
  { cost := fun _ _ => 1, grad := fun _ _ _ _ => 0, single := fun _ _ => 0, detail := fun _ _ _ => 0, metric := fun _ _ => 1,
    tooMany := fun _ _ => false }

/-- a configuration for the example -/
def exCfg : Cfg := { n := 4, fromInput := false, gradient := true, nelderMead := false, half := false, single := true, target := 1 }

/-- the optimisation does return in some case -/
example : ∃ pr', optimize exCfg exOracle exOracle 1 (fun _ => 0) = .ok pr' := by
  have hg : greedy exCfg exOracle 1 = .ok (fun _ => 1) := by
    simp [greedy, exCfg, Cfg.d, greedyFor, greedyWhile, exOracle, Res.bind]
  have hp : preparation exCfg exOracle exOracle 1 (fun _ => 0) =
      .ok (fun _ => 1, save exCfg exCfg.d (fun _ => 1) (fun _ => 0)) := by
    unfold preparation
    rw [hg]
    simp [exCfg, Res.bind]
  have hc : ∀ mn dn pr, core exCfg exOracle mn dn 1 pr = .ok (save exCfg dn (load exCfg dn pr) pr) := by
    intro mn dn pr
    simp [core, exCfg, gradientDescent, gradLoop, gradStep, exOracle, Res.bind]
  refine ⟨?_, ?_⟩
  swap
  · unfold optimize fixedProb
    rw [if_pos (show exCfg.single = true from rfl), hp]
    simp only [Res.bind, hc]
    rw [if_pos (by simp [exOracle, exCfg])]
    unfold adjustProb
    rw [adjustLoop, if_pos (by simp only [exOracle, exCfg]; norm_num)]
    rfl

/-- the hypothesis of `C44_optimize` on the input can be met -/
example : Valid 3 (fun i => 1 / ((i : ℝ) + 1)) := by
  refine ⟨by norm_num, fun i _ => ⟨by positivity, ?_⟩, fun i k hik _ => ?_⟩
  · rw [div_le_one (by positivity)]
    have : (0 : ℝ) ≤ i := Nat.cast_nonneg i
    linarith
  · have : (i : ℝ) ≤ k := by exact_mod_cast hik
    exact one_div_le_one_div_of_le (by positivity) (by linarith)

end Pruner
end Fplll

import Verif.Model.RunPruner
import Verif.Props.Shape

/-!
# C95: `fplll -a pru`
-/

namespace Fplll
namespace RunPruner

open Spec Shape MeasureTheory Finset

/-- **C95 (window).**  For all arguments the block is one of the matrix and not empty; a block `S .. T - 1` that exists and does not begin with the last row is taken as it is. -/
theorem C95_window {rows : ℤ} (h : 1 ≤ rows) (S T : ℤ) :
    0 ≤ (window rows S T).1 ∧ (window rows S T).1 < (window rows S T).2 ∧ (window rows S T).2 ≤ rows ∧
      (0 ≤ S → S < rows - 1 → S < T → T ≤ rows → window rows S T = (S, T)) := by
  unfold window
  dsimp only
  by_cases h1 : S < 0 ∨ S ≥ rows - 1
  · rw [if_pos h1]
    by_cases h2 : T ≤ 0 ∨ T ≥ rows
    · rw [if_pos h2]
      exact ⟨le_rfl, by omega, le_rfl, fun _ _ => by omega⟩
    · rw [if_neg h2]
      exact ⟨le_rfl, by omega, by omega, fun _ _ => by omega⟩
  · rw [if_neg h1]
    by_cases h2 : T ≤ S ∨ T ≥ rows
    · rw [if_pos h2]
      refine ⟨by omega, by omega, le_rfl, fun _ _ h3 h4 => ?_⟩
      rw [show T = rows by omega]
    · rw [if_neg h2]
      exact ⟨by omega, by omega, by omega, fun _ _ _ _ => rfl⟩

/-- **C95 (window, violated).**  The block of the last row is replaced by the whole matrix. -/
theorem C95_last_row_violated {rows : ℤ} (h : 2 ≤ rows) : window rows (rows - 1) rows = (0, rows) := by
  unfold window
  dsimp only
  rw [if_pos (.inr le_rfl), if_pos (.inr le_rfl)]

/-- the square of the radius of the ball in dimension `m` whose volume is `sqrt (g^m * v)` -/
def GhRadius (m : ℕ) (g v ρ : ℝ) : Prop :=
  0 < ρ ∧ volume (Metric.ball (0 : EuclideanSpace ℝ (Fin m)) (√ρ)) = ENNReal.ofReal (√(g ^ m * v))

section
variable {d n : ℕ} {b : ℕ → ℕ → ℤ} {x : ℤ → ℝ} {e : ℤ → ℤ} {S T : ℤ} {pre target gh : ℝ}

theorem length_norms (r : ℤ → ℝ) (s t : ℤ) : (norms r s t).length = (t - s).toNat := by simp [norms]

/-- **C95.**  For linearly independent vectors, a positive target and a block of 2 to 2046 of them, the coefficients are optimised for the squared lengths of the Gram-Schmidt vectors of the block, in their order, and for the smaller one of the first of them and
`gh_factor` times the square of the Gaussian heuristic of the block. -/
theorem C95_run (hb : Indep d n (toQ b)) (hd : 1 ≤ d) (hn : 1 ≤ n) (hx : ∀ i, x i * (2 : ℝ) ^ e i = profOf n b i) (ht : 0 < target) (hgh : 0 < gh)
    (h2 : 2 ≤ (window d S T).2 - (window d S T).1) (h3 : (window d S T).2 - (window d S T).1 < 2047) :
    ∃ s t m : ℕ, window d S T = ((s : ℤ), (t : ℤ)) ∧ s + m = t ∧ t ≤ d ∧ ∃ ρ, GhRadius m gh (∏ j ∈ range m, (normStar n (toQ b) (s + j) : ℝ)) ρ ∧
      runPrunerF d n x e (profOf n b) S T pre target gh = .run s t (min (normStar n (toQ b) s : ℝ) ρ) (max 1 pre) ((List.range m).map fun j => (normStar n (toQ b) (s + j) : ℝ)) target := by
  obtain ⟨w1, w2, w3, -⟩ := C95_window (rows := d) (by exact_mod_cast hd) S T
  generalize hw : window d S T = w at *
  obtain ⟨s, hs⟩ := Int.eq_ofNat_of_zero_le w1
  obtain ⟨t, ht'⟩ := Int.eq_ofNat_of_zero_le (w1.trans w2.le)
  have hw' : w = ((s : ℤ), (t : ℤ)) := Prod.ext hs ht'
  subst hw'
  dsimp only at *
  obtain ⟨m, rfl⟩ : ∃ m, t = s + m := ⟨t - s, by omega⟩
  have hm : ((s + m : ℕ) - (s : ℤ) : ℤ).toNat = m := by omega
  have hpos : ∀ i : ℤ, 0 ≤ i → i < d → 0 < profOf n b i := fun i h0 hi => profOf_pos hb i h0 hi
  have hrd := C77_root_det d (profOf n b) s (s + m : ℕ) hpos w1 w2 w3
  rw [hm] at hrd
  have hprod : ∏ j ∈ range m, profOf n b ((s : ℤ) + j) = ∏ j ∈ range m, (normStar n (toQ b) (s + j) : ℝ) := by
    refine prod_congr rfl fun j _ => ?_
    unfold profOf
    rw [show ((s : ℤ) + j).toNat = s + j by omega]
  rw [hprod] at hrd
  obtain ⟨g1, g2⟩ := C77_gh (e s) m (by omega) _ gh hrd.1 hgh
  rw [mul_pow, hrd.2] at g2
  refine ⟨s, s + m, m, rfl, rfl, by omega, ghBound (e s) m (rootDet d (profOf n b) s (s + m : ℕ)) gh * (2 : ℝ) ^ e s, ⟨by positivity, g2⟩, ?_⟩
  unfold runPrunerF
  rw [if_neg (by omega)]
  dsimp only
  rw [hw]
  dsimp only
  rw [hm]
  unfold pruneCall
  rw [if_neg (by linarith), length_norms, hm, if_neg (by omega), if_neg (by omega)]
  have hn1 : norms (profOf n b) s (s + m : ℕ) = (List.range m).map fun j => (normStar n (toQ b) (s + j) : ℝ) := by
    unfold norms
    rw [hm]
    refine List.map_congr_left fun j _ => ?_
    unfold profOf
    rw [show ((s : ℤ) + j).toNat = s + j by omega]
  have hr1 : adjustRadius (x s) (e s) m (rootDet d (profOf n b) s (s + m : ℕ)) gh * (2 : ℝ) ^ e s =
      min (normStar n (toQ b) s : ℝ) (ghBound (e s) m (rootDet d (profOf n b) s (s + m : ℕ)) gh * (2 : ℝ) ^ e s) := by
    have h0 : (0 : ℝ) < (2 : ℝ) ^ e s := by positivity
    have h1 : (normStar n (toQ b) s : ℝ) = x s * (2 : ℝ) ^ e s := by
      rw [hx]; unfold profOf; rw [Int.toNat_natCast]
    rw [h1, ← min_mul_of_nonneg _ _ h0.le]
    congr 1
    unfold adjustRadius
    by_cases h : ghBound (e s) m (rootDet d (profOf n b) s (s + m : ℕ)) gh < x s
    · rw [if_pos h, min_eq_right h.le]
    · rw [if_neg h, min_eq_left (not_lt.1 h)]
  have hp1 : (if pre ≤ 1 then 1 else pre) = max 1 pre := by
    by_cases h : pre ≤ 1
    · rw [if_pos h, max_eq_left h]
    · rw [if_neg h, max_eq_right (not_le.1 h).le]
  rw [hn1, hr1, hp1]

end

section
variable {rows cols : ℤ} {x : ℤ → ℝ} {e : ℤ → ℤ} {r : ℤ → ℝ} {S T : ℤ} {pre target gh : ℝ}

/-- **C95 (violated).**  `prune_min_prob = -1` is documented to optimise the cost without fixing the probability, and it is the default; but for every matrix that is not empty, an exception is thrown that nothing catches. -/
theorem C95_minus_one_violated (hr : rows ≠ 0) (hc : cols ≠ 0) (ht : target ≤ 0) : runPrunerF rows cols x e r S T pre target gh = .throw := by
  unfold runPrunerF
  rw [if_neg (by omega)]
  dsimp only
  unfold pruneCall
  rw [if_pos ht]

/-- **C95 (violated).**  A block of one row - a matrix with one row, or `-prustart k -pruend k+1` - is accepted, and the pruner reads outside of its vectors. -/
theorem C95_one_row_violated (hr : 1 ≤ rows) (hc : cols ≠ 0) (ht : 0 < target) (h : rows = 1 ∨ (0 ≤ S ∧ S < rows - 1 ∧ T = S + 1)) : runPrunerF rows cols x e r S T pre target gh = .ub := by
  have hw : (window rows S T).2 - (window rows S T).1 = 1 := by
    obtain ⟨w1, w2, w3, w4⟩ := C95_window hr S T
    rcases h with h | ⟨h1, h2, h3⟩
    · omega
    · rw [w4 h1 h2 (by omega) (by omega)]; dsimp only; omega
  unfold runPrunerF
  rw [if_neg (by omega)]
  dsimp only
  unfold pruneCall
  rw [if_neg (by linarith), length_norms, hw]
  rfl

/-- **C95 (violated).**  Blocks of 2047 and more rows are accepted, and the pruner reads outside of its tables. -/
theorem C95_table_violated (hr : 2047 ≤ rows) (hc : cols ≠ 0) (ht : 0 < target) : runPrunerF rows cols x e r 0 rows pre target gh = .ub := by
  have hw : window rows 0 rows = (0, rows) := (C95_window (by omega) 0 rows).2.2.2 le_rfl (by omega) (by omega) le_rfl
  unfold runPrunerF
  rw [if_neg (by omega)]
  dsimp only
  rw [hw]
  unfold pruneCall
  rw [if_neg (by linarith), length_norms, if_neg (by omega), if_pos (by omega)]

/-- **C95 (the command).**  The action `pru` either ends with an error message, does nothing (empty matrix), or runs with a positive target; the latter only if all four options were given and `-pruminprob` is positive.  So `fplll -a pru` without options never gives coefficients. -/
theorem C95_command {mpz mpfr built : Bool} {o : Cli.Options ℝ} {s t : ℤ} {ρ p : ℝ} {l : List ℝ} {τ : ℝ} (h : command mpz mpfr built o rows cols x e r = .run s t ρ p l τ) :
    o.pruneMinProb = some τ ∧ 0 < τ ∧ 2 ≤ l.length ∧ l.length < 2047 ∧ l.length = (t - s).toNat ∧ mpz = true ∧ built = true ∧ ∃ S T P, o.pruneStart = some S ∧ o.pruneEnd = some T ∧ o.prunePreNodes = some P ∧
      (s, t) = window rows S (if T = 0 then rows else T) := by
  unfold command at h
  by_cases hz : mpz = false
  · rw [if_pos hz] at h; cases h
  rw [if_neg hz] at h
  dsimp only at h
  generalize (if o.bkzFlags &&& Cli.BKZ_GH_BND ≠ 0 then o.ghFactor else 1) = g at h
  cases hS : o.pruneStart with
  | none => rw [hS] at h; cases h
  | some S =>
  cases hT : o.pruneEnd with
  | none => rw [hS, hT] at h; cases h
  | some T =>
  cases hP : o.prunePreNodes with
  | none => rw [hS, hT, hP] at h; cases h
  | some P =>
  cases hM : o.pruneMinProb with
  | none => rw [hS, hT, hP, hM] at h; cases h
  | some M =>
  rw [hS, hT, hP, hM] at h
  unfold Cli.pruneArg at h
  simp only [Option.map_some] at h
  unfold runPruner at h
  by_cases h1 : mpfr = true ∧ o.precision = 0
  · rw [if_pos h1] at h; cases h
  rw [if_neg h1] at h
  by_cases h2 : built = false
  · rw [if_pos h2] at h; cases h
  rw [if_neg h2] at h
  unfold runPrunerF at h
  by_cases h3 : rows = 0 ∨ cols = 0
  · rw [if_pos h3] at h; cases h
  rw [if_neg h3] at h
  dsimp only at h
  have hS0 : (if S = 0 then 0 else S) = S := by split <;> omega
  rw [hS0] at h
  unfold pruneCall at h
  by_cases h4 : (if M = 0 then (-1 : ℝ) else M) ≤ 0
  · rw [if_pos h4] at h; cases h
  rw [if_neg h4] at h
  by_cases h5 : (norms r (window rows S (if T = 0 then rows else T)).1 (window rows S (if T = 0 then rows else T)).2).length / 2 = 0
  · rw [if_pos h5] at h; cases h
  rw [if_neg h5] at h
  by_cases h6 : 2047 ≤ (norms r (window rows S (if T = 0 then rows else T)).1 (window rows S (if T = 0 then rows else T)).2).length
  · rw [if_pos h6] at h; cases h
  rw [if_neg h6] at h
  injection h with e1 e2 e3 e4 e5 e6
  have hM0 : M ≠ 0 := by
    intro h0
    rw [if_pos h0] at h4
    exact h4 (by norm_num)
  rw [if_neg hM0] at e6 h4
  subst e6
  refine ⟨rfl, not_le.1 h4, ?_, ?_, ?_, by simpa using hz, by simpa using h2, S, T, P, rfl, rfl, rfl, ?_⟩
  · rw [← e5]; omega
  · rw [← e5]; omega
  · rw [← e5, length_norms, e1, e2]
  · rw [← e1, ← e2]

end

/-! ### the hypotheses are met -/

/-- rows 1 and 2 of the identity in dimension 3, doubled -/
example : ∃ ρ, GhRadius 2 1 (∏ j ∈ range 2, (normStar 3 (toQ fun i j => if i = j then 2 else 0) (1 + j) : ℝ)) ρ ∧
    runPrunerF 3 3 (profOf 3 fun i j => if i = j then 2 else 0) (fun _ => 0) (profOf 3 fun i j => if i = j then 2 else 0) 1 3 100 (1 / 2) 1 =
      .run 1 3 (min (normStar 3 (toQ fun i j => if i = j then 2 else 0) 1 : ℝ) ρ) 100 ((List.range 2).map fun j => (normStar 3 (toQ fun i j => if i = j then 2 else 0) (1 + j) : ℝ)) (1 / 2) := by
  have hw : window 3 1 3 = (1, 3) := by decide
  have hi : Indep 3 3 (toQ fun i j => if i = j then 2 else 0) := by
    intro a h
    have h0 := h 0 (by norm_num)
    have h1 := h 1 (by norm_num)
    have h2 := h 2 (by norm_num)
    simp only [lc, toQ, Finset.sum_range_succ, Finset.sum_range_zero] at h0 h1 h2
    norm_num at h0 h1 h2
    intro i hi
    interval_cases i <;> assumption
  obtain ⟨s, t, m, h1, h2, h3, ρ, h4, h5⟩ := C95_run (d := 3) (n := 3) (S := 1) (T := 3) (pre := 100) (target := 1 / 2) (gh := 1) (x := profOf 3 fun i j => if i = j then 2 else 0) (e := fun _ => 0) hi (by norm_num) (by norm_num) (fun i => by simp)
    (by norm_num) (by norm_num) (by rw [show ((3 : ℕ) : ℤ) = 3 from rfl, hw]; norm_num) (by rw [show ((3 : ℕ) : ℤ) = 3 from rfl, hw]; norm_num)
  rw [show ((3 : ℕ) : ℤ) = 3 from rfl, hw, Prod.mk.injEq] at h1
  obtain rfl : s = 1 := by omega
  obtain rfl : t = 3 := by omega
  obtain rfl : m = 2 := by omega
  refine ⟨ρ, h4, ?_⟩
  have : max (1 : ℝ) 100 = 100 := by norm_num
  rw [this] at h5
  exact h5

end RunPruner
end Fplll

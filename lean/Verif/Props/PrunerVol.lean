import Verif.Proofs.PrunerVol
import Verif.Proofs.PrunerCyl

/-!
# C45: volumes and probabilities of the pruner
-/

open Finset MeasureTheory

namespace Fplll
namespace Pruner

/-- the squared radii that `relative_volume` uses: the coefficients divided by the last one -/
noncomputable def radii (rd : ℕ) (b : Vec) : List ℝ := List.ofFn fun i : Fin rd => b i / b (rd - 1)

theorem relVol_loop (rd : ℕ) (b : Vec) : ∀ m, m ≤ rd → ∀ (s : ℕ × Vec) (ε : ℝ) (l : List ℝ),
    (∀ x, polyVal s.1 s.2 x = ε * nested l x) → ∀ x,
    polyVal (forDown 0 m (volStep rd b) s).1 (forDown 0 m (volStep rd b) s).2 x =
      (-1) ^ m * ε * nested ((List.ofFn fun i : Fin m => b i / b (rd - 1)) ++ l) x := by
  intro m
  induction m with
  | zero => intro _ s ε l h x; simpa [forDown] using h x
  | succ m ih =>
    intro hm s ε l h x
    rw [forDown, if_pos (Nat.zero_le m), ih (by omega) (volStep rd b m s) (-ε) (b m / b (rd - 1) :: l)]
    · rw [List.ofFn_succ_last, List.append_assoc]
      simp only [Fin.val_castSucc, Fin.val_last, List.singleton_append]
      ring
    · intro y
      rw [volStep_val, nested]
      simp only [h]
      rw [intervalIntegral.integral_const_mul]
      ring

theorem polyVal_zero (ld : ℕ) (p : Vec) : polyVal ld p 0 = p 0 := by
  unfold polyVal
  rw [Finset.sum_range_succ']
  simp

/-- **C45** `relative_volume` computes `rd!` times the nested integral over the simplex. -/
theorem C45_nested_integral (rd : ℕ) (b : Vec) : relativeVolume rd b = rd.factorial * nested (radii rd b) 0 := by
  have h := relVol_loop rd b rd le_rfl (0, fun k => if k = 0 then 1 else 0) 1 [] (by
    intro x
    simp [polyVal, nested]) 0
  rw [polyVal_zero, List.append_nil, mul_one] at h
  unfold relativeVolume
  simp only [h]
  unfold radii
  rcases Nat.even_or_odd rd with he | ho
  · rw [if_neg (by rw [Nat.even_iff] at he; omega), he.neg_one_pow]
    ring
  · rw [if_pos (by rw [Nat.odd_iff] at ho; omega), ho.neg_one_pow]
    ring

/-- valid coefficients: positive and non-decreasing -/
def Mono (d : ℕ) (b : Vec) : Prop := (∀ i, i < d → 0 < b i) ∧ ∀ i j, i ≤ j → j < d → b i ≤ b j

theorem Mono.last {d : ℕ} {b : Vec} (h : Mono d b) (hd : 0 < d) : 0 < b (d - 1) := h.1 _ (by omega)

theorem nested_const : ∀ (d : ℕ) (c x : ℝ), nested (List.replicate d c) x = (c - x) ^ d / d.factorial := by
  intro d
  induction d with
  | zero => intro c x; simp [nested]
  | succ d ih =>
    intro c x
    rw [List.replicate_succ, nested]
    simp only [ih]
    rw [intervalIntegral.integral_div, intervalIntegral.integral_comp_sub_left (fun t => t ^ d), integral_pow,
      Nat.factorial_succ]
    push_cast
    have : (d.factorial : ℝ) ≠ 0 := by exact_mod_cast d.factorial_ne_zero
    field_simp
    simp

/-- the unit ball of `ℝ^(2d)` -/
theorem volume_ball (d : ℕ) : volume (cylinder d (fun _ => 1) 0) = ENNReal.ofReal (Real.pi ^ d / d.factorial) := by
  rw [volume_cylinder d _ _ (fun _ _ _ => le_rfl) (fun _ => zero_le_one), List.ofFn_const, nested_const]
  congr 1
  simp
  ring

/-- with all radii 1 the cylinder intersection is the ball: only the last condition counts -/
theorem cylinder_ball (d : ℕ) (hd : 0 < d) :
    cylinder d (fun _ => 1) 0 = {z | ∑ i : Fin d, ((z i).1 ^ 2 + (z i).2 ^ 2) ≤ 1} := by
  ext z
  simp only [cylinder, Set.mem_ofPred_eq, zero_add]
  constructor
  · intro h
    have := h ⟨d - 1, by omega⟩
    rwa [Finset.sum_congr rfl (fun i _ => if_pos (by rw [Fin.le_def]; simp; omega))] at this
  · intro h k
    refine le_trans (Finset.sum_le_sum fun i _ => ?_) h
    split_ifs
    · exact le_rfl
    · positivity

/-- **C45** what `relative_volume` stands for: for valid coefficients it is the volume of that part of the unit ball of
`ℝ^(2d)` whose projection to the first `2 (k + 1)` coordinates has squared length at most `b k / b (d - 1)` for each `k`, divided
by the volume of the ball. -/
theorem C45_relative_volume {d : ℕ} {b : Vec} (h : Mono d b) (hd : 0 < d) :
    ENNReal.ofReal (relativeVolume d b) =
      volume (cylinder d (fun i => b i / b (d - 1)) 0) / volume {z : Fin d → ℝ × ℝ | ∑ i, ((z i).1 ^ 2 + (z i).2 ^ 2) ≤ 1} := by
  have hl := h.last hd
  rw [← cylinder_ball d hd, volume_ball, volume_cylinder d _ _ (fun i j hij => by
      have := h.2 i j hij j.2
      exact div_le_div_of_nonneg_right this hl.le) (fun i => div_nonneg (h.1 i i.2).le hl.le), C45_nested_integral,
    ← ENNReal.ofReal_div_of_pos (by positivity)]
  congr 1
  unfold radii
  have : (d.factorial : ℝ) ≠ 0 := by exact_mod_cast d.factorial_ne_zero
  have := Real.pi_pos.ne'
  field_simp

/-- **C45** no pruning: constant coefficients have relative volume 1. -/
theorem C45_no_pruning_volume {d : ℕ} {b : Vec} {c : ℝ} (hc : c ≠ 0) (h : ∀ i, i < d → b i = c) : relativeVolume d b = 1 := by
  rw [C45_nested_integral]
  have : radii d b = List.replicate d 1 := by
    unfold radii
    rw [← List.ofFn_const]
    congr 1
    funext i
    have h1 := h i i.2
    have h2 := h (d - 1) (by have := i.2; omega)
    rw [h1, h2, div_self hc]
  rw [this, nested_const]
  have : (d.factorial : ℝ) ≠ 0 := by exact_mod_cast d.factorial_ne_zero
  field_simp
  simp

/-- **C45** no pruning: the probability for all-ones coefficients is exactly 1, for half vectors and full vectors, for each shell
ratio that makes sense. -/
theorem C45_no_pruning_probability {d dn : ℕ} (hd : 0 < d) {b : Vec} (h : ∀ i, i < 2 * d → b i = 1) {dx : ℝ} (h0 : 0 < dx)
    (h1 : dx ≠ 1) : svpProbability dx d dn b = 1 := by
  have key : ∀ b : Vec, (∀ i, i < d → b i = 1) → svpProbabilityEvec dx d b = 1 := by
    intro b hb
    unfold svpProbabilityEvec
    simp only
    have hc : (if 1 / (dx * dx) > 1 then (1 : ℝ) else 1 / (dx * dx)) ≠ 0 := by
      split_ifs
      · exact one_ne_zero
      · positivity
    rw [C45_no_pruning_volume one_ne_zero hb, C45_no_pruning_volume hc (fun i hi => by rw [hb i hi]), mul_one]
    apply div_self
    intro h2
    have h3 : dx ^ (2 * d) = 1 := by linarith
    exact h1 ((pow_eq_one_iff_of_nonneg h0.le (by omega)).1 h3)
  unfold svpProbability
  split_ifs
  · exact key b fun i hi => h i (by omega)
  · rw [key _ fun i hi => h (2 * i) (by omega), key _ fun i hi => h (2 * i + 1) (by omega)]
    norm_num

/-! ## The probability is a probability -/

theorem nested_scale (c : ℝ) (hc : c ≠ 0) : ∀ (l : List ℝ) (x : ℝ),
    nested (l.map (c * ·)) (c * x) = c ^ l.length * nested l x := by
  intro l
  induction l with
  | nil => intro x; simp [nested]
  | cons β l ih =>
    intro x
    rw [List.map_cons, nested, nested, List.length_cons]
    have := intervalIntegral.integral_comp_mul_left (a := x) (b := β) (fun t => nested (l.map (c * ·)) t) hc
    rw [smul_eq_mul] at this
    have h2 : ∫ t in c * x..c * β, nested (l.map (c * ·)) t = c * ∫ t in x..β, nested (l.map (c * ·)) (c * t) := by
      rw [this, ← mul_assoc, mul_inv_cancel₀ hc, one_mul]
    rw [h2]
    simp only [ih]
    rw [intervalIntegral.integral_const_mul, pow_succ]
    ring

/-- the ball of radius `ρ` -/
def ball (d : ℕ) (ρ : ℝ) : Set (Fin d → ℝ × ℝ) := {z | ∑ i : Fin d, ((z i).1 ^ 2 + (z i).2 ^ 2) ≤ ρ ^ 2}

theorem ball_eq (d : ℕ) (hd : 0 < d) (ρ : ℝ) : ball d ρ = cylinder d (fun _ => ρ ^ 2) 0 := by
  ext z
  simp only [ball, cylinder, Set.mem_ofPred_eq, zero_add]
  constructor
  · intro h k
    refine le_trans (Finset.sum_le_sum fun i _ => ?_) h
    split_ifs
    · exact le_rfl
    · positivity
  · intro h
    have := h ⟨d - 1, by omega⟩
    rwa [Finset.sum_congr rfl (fun i _ => if_pos (by rw [Fin.le_def]; simp; omega))] at this

theorem cylinder_inter (d : ℕ) (β : Fin d → ℝ) (c r : ℝ) :
    cylinder d β r ∩ cylinder d (fun _ => c) r = cylinder d (fun i => min (β i) c) r := by
  ext z
  simp only [cylinder, Set.mem_inter_iff, Set.mem_ofPred_eq, le_min_iff]
  exact ⟨fun h k => ⟨h.1 k, h.2 k⟩, fun h => ⟨fun k => (h k).1, fun k => (h k).2⟩⟩

theorem real_cylinder {d : ℕ} {β : Fin d → ℝ} {r : ℝ} (hβ : Monotone β) (hr : ∀ i, r ≤ β i) :
    volume.real (cylinder d β r) = Real.pi ^ d * nested (List.ofFn β) r ∧ volume (cylinder d β r) ≠ ⊤ := by
  have h := volume_cylinder d β r hβ hr
  refine ⟨?_, by rw [h]; exact ENNReal.ofReal_ne_top⟩
  rw [measureReal_def, h, ENNReal.toReal_ofReal]
  apply mul_nonneg (by positivity)
  apply nested_nonneg
  · rw [List.pairwise_ofFn]
    intro i j hij
    exact hβ hij.le
  · intro b hb
    rw [List.mem_ofFn] at hb
    obtain ⟨i, rfl⟩ := hb
    exact hr i

/-- **C45** what `svp_probability` stands for: the probability that a uniformly distributed point of the shell
`dx < |z| ≤ 1` of `ℝ^(2d)` is in the cylinder intersection.  (`dx < 1` as in the code, last coefficient 1.) -/
theorem C45_probability_meaning {d : ℕ} (hd : 0 < d) {b : Vec} (h : Mono d b) (hl : b (d - 1) = 1) {dx : ℝ} (h0 : 0 < dx)
    (h1 : dx < 1) : svpProbabilityEvec dx d b =
      volume.real (cylinder d (fun i => b i) 0 \ ball d dx) / volume.real (ball d 1 \ ball d dx) := by
  have hdx2 : dx * dx < 1 := by nlinarith
  have hdx2p : 0 < dx * dx := by positivity
  have hle : ∀ i : Fin d, b i ≤ 1 := fun i => by rw [← hl]; exact h.2 _ _ (by omega) (by omega)
  have hmono : Monotone fun i : Fin d => b i := fun i j hij => h.2 _ _ hij j.2
  have hpi : (0 : ℝ) < Real.pi ^ d := by positivity
  have hfac : (0 : ℝ) < d.factorial := by exact_mod_cast d.factorial_pos
  -- the volumes of the four sets
  obtain ⟨v1, f1⟩ := real_cylinder hmono (r := 0) fun i => (h.1 i i.2).le
  have hminm : Monotone fun i : Fin d => min (b i) (dx ^ 2) := fun i j hij => min_le_min_right _ (hmono hij)
  obtain ⟨v2, f2⟩ := real_cylinder hminm (r := 0) fun i => le_min (h.1 i i.2).le (sq_nonneg _)
  obtain ⟨v3, f3⟩ := real_cylinder (d := d) (β := fun _ => (1 : ℝ) ^ 2) (r := 0) (fun _ _ _ => le_rfl) (fun _ => by norm_num)
  obtain ⟨v4, f4⟩ := real_cylinder (d := d) (β := fun _ => dx ^ 2) (r := 0) (fun _ _ _ => le_rfl) (fun _ => sq_nonneg _)
  have e1 : volume.real (cylinder d (fun i => b i) 0 \ ball d dx) =
      volume.real (cylinder d (fun i => b i) 0) - volume.real (cylinder d (fun i => min (b i) (dx ^ 2)) 0) := by
    rw [ball_eq d hd, ← cylinder_inter]
    have := measureReal_inter_add_sdiff (μ := volume) (s := cylinder d (fun i => b i) 0)
      (cylinder_measurable d (fun _ => dx ^ 2) 0) f1
    linarith
  have e2 : volume.real (ball d 1 \ ball d dx) =
      volume.real (cylinder d (fun _ => (1 : ℝ) ^ 2) 0) - volume.real (cylinder d (fun _ => dx ^ 2) 0) := by
    have hsub : cylinder d (fun _ => (1 : ℝ) ^ 2) 0 ∩ cylinder d (fun _ => dx ^ 2) 0 = cylinder d (fun _ => dx ^ 2) 0 := by
      rw [cylinder_inter]
      congr 1
      funext _
      exact min_eq_right (by nlinarith)
    rw [ball_eq d hd, ball_eq d hd]
    have := measureReal_inter_add_sdiff (μ := volume) (s := cylinder d (fun _ => (1 : ℝ) ^ 2) 0)
      (cylinder_measurable d (fun _ => dx ^ 2) 0) f3
    rw [hsub] at this
    linarith
  rw [e1, e2, v1, v2, v3, v4]
  -- the model
  have r1 : relativeVolume d b = d.factorial * nested (List.ofFn fun i : Fin d => b i) 0 := by
    rw [C45_nested_integral]
    unfold radii
    simp only [hl, div_one]
  have r2 : dx ^ (2 * d) * relativeVolume d (fun i => if b i / (dx * dx) > 1 then 1 else b i / (dx * dx)) =
      d.factorial * nested (List.ofFn fun i : Fin d => min (b i) (dx ^ 2)) 0 := by
    rw [C45_nested_integral]
    have hmap : (List.ofFn fun i : Fin d => min (b i) (dx ^ 2)) =
        (radii d fun i => if b i / (dx * dx) > 1 then 1 else b i / (dx * dx)).map (dx ^ 2 * ·) := by
      unfold radii
      rw [List.map_ofFn]
      congr 1
      funext i
      simp only [Function.comp_apply, hl]
      rw [if_pos (show 1 / (dx * dx) > 1 by rw [gt_iff_lt, lt_div_iff₀ hdx2p]; linarith), div_one]
      split_ifs with hc
      · rw [gt_iff_lt, lt_div_iff₀ hdx2p] at hc
        rw [mul_one]
        exact min_eq_right (by nlinarith)
      · rw [gt_iff_lt, lt_div_iff₀ hdx2p] at hc
        rw [min_eq_left (by nlinarith)]
        field_simp
    have := nested_scale (dx ^ 2) (by positivity) (radii d fun i => if b i / (dx * dx) > 1 then 1 else b i / (dx * dx)) 0
    rw [mul_zero, ← hmap] at this
    rw [this]
    have hlen : (radii d fun i => if b i / (dx * dx) > 1 then 1 else b i / (dx * dx)).length = d := by
      unfold radii
      rw [List.length_ofFn]
    rw [hlen, ← pow_mul]
    ring
  unfold svpProbabilityEvec
  simp only
  rw [r2, r1, List.ofFn_const, List.ofFn_const, nested_const, nested_const]
  simp only [sub_zero, one_pow]
  have hdxn : dx ^ (2 * d) < 1 := pow_lt_one₀ h0.le h1 (by omega)
  have hne : dx ^ (2 * d) - 1 ≠ 0 := by linarith
  have hne2 : Real.pi ^ d * (1 / (d.factorial : ℝ)) - Real.pi ^ d * ((dx ^ 2) ^ d / d.factorial) ≠ 0 := by
    have : Real.pi ^ d * (1 / (d.factorial : ℝ)) - Real.pi ^ d * ((dx ^ 2) ^ d / d.factorial) =
        Real.pi ^ d / d.factorial * (1 - dx ^ (2 * d)) := by rw [← pow_mul]; ring
    rw [this]
    have : (0 : ℝ) < Real.pi ^ d / d.factorial * (1 - dx ^ (2 * d)) := mul_pos (by positivity) (by linarith)
    exact this.ne'
  rw [div_eq_div_iff hne hne2, ← pow_mul]
  field_simp
  ring

/-- **C45** the probability is between 0 and 1. -/
theorem C45_probability_range {d : ℕ} (hd : 0 < d) {b : Vec} (h : Mono d b) (hl : b (d - 1) = 1) {dx : ℝ} (h0 : 0 < dx)
    (h1 : dx < 1) : 0 ≤ svpProbabilityEvec dx d b ∧ svpProbabilityEvec dx d b ≤ 1 := by
  rw [C45_probability_meaning hd h hl h0 h1]
  refine ⟨div_nonneg measureReal_nonneg measureReal_nonneg, div_le_one_of_le₀ ?_ measureReal_nonneg⟩
  apply measureReal_mono
  · apply Set.sdiff_subset_sdiff_left
    rw [ball_eq d hd]
    intro z hz k
    refine (hz k).trans ?_
    rw [one_pow, ← hl]
    exact h.2 _ _ (by omega) (by omega)
  · refine ne_top_of_le_ne_top ?_ (measure_mono Set.sdiff_subset)
    rw [ball_eq d hd]
    exact (real_cylinder (d := d) (β := fun _ => (1 : ℝ) ^ 2) (r := 0) (fun _ _ _ => le_rfl) (fun _ => by norm_num)).2

/-- a concrete case with pruning: `d = 2`, `b = (1/2, 1)`: half of the simplex `0 ≤ t₀ ≤ t₁ ≤ 1` plus a quarter -/
example : relativeVolume 2 (fun i => if i = 0 then 1 / 2 else 1) = 3 / 4 := by
  simp [relativeVolume, forDown, volStep, integratePoly, evalPoly, Function.update]
  norm_num

example : Mono 2 (fun i => if i = 0 then 1 / 2 else 1) := by
  refine ⟨fun i _ => by dsimp only; split_ifs <;> norm_num, fun i j hij hj => ?_⟩
  interval_cases j <;> interval_cases i <;> norm_num

end Pruner
end Fplll

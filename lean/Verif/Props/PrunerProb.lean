import Mathlib.Analysis.SpecificLimits.Basic
import Verif.Props.PrunerVol
import Verif.Model.Strategy

/-!
# C59: the success probability of full coefficient vectors

`svp_probability` of a vector with `n` coefficients is the mean of a lower and an upper bound.  Internally the coefficients are
in reversed order: `b 0` belongs to the last Gram-Schmidt vector, the last one is `pr[0] = 1`.
-/

open Finset MeasureTheory

namespace Fplll
namespace Pruner

/-- probability that a uniformly distributed point of the shell `dx < |z| ≤ 1` of `ℝ^(2d)` is in `S` -/
noncomputable def shellProb (d : ℕ) (dx : ℝ) (S : Set (Fin d → ℝ × ℝ)) : ℝ :=
  volume.real (S \ ball d dx) / volume.real (ball d 1 \ ball d dx)

/-! ## Volumes -/

theorem ball_finite (d : ℕ) (hd : 0 < d) (ρ : ℝ) : volume (ball d ρ) ≠ ⊤ := by
  rw [ball_eq d hd]
  exact (real_cylinder (d := d) (β := fun _ => ρ ^ 2) (r := 0) (fun _ _ _ => le_rfl) (fun _ => sq_nonneg _)).2

theorem shellProb_mono {d : ℕ} (hd : 0 < d) (dx : ℝ) {S T : Set (Fin d → ℝ × ℝ)} (h : S ⊆ T) (hT : T ⊆ ball d 1) :
    shellProb d dx S ≤ shellProb d dx T := by
  unfold shellProb
  apply div_le_div_of_nonneg_right _ measureReal_nonneg
  refine measureReal_mono (Set.sdiff_subset_sdiff_left h) ?_
  exact ne_top_of_le_ne_top (ball_finite d hd 1) (measure_mono (Set.sdiff_subset.trans hT))

theorem cylinder_mono {d : ℕ} {β γ : Fin d → ℝ} (r : ℝ) (h : ∀ i, β i ≤ γ i) : cylinder d β r ⊆ cylinder d γ r :=
  fun _ hz k => (hz k).trans (h k)

theorem cylinder_sub_ball {d : ℕ} (hd : 0 < d) {β : Fin d → ℝ} (h : ∀ i, β i ≤ 1) : cylinder d β 0 ⊆ ball d 1 := by
  rw [ball_eq d hd]
  exact cylinder_mono 0 fun i => by rw [one_pow]; exact h i

theorem relVol_eq {d : ℕ} {b : Vec} (h : Mono d b) (hd : 0 < d) :
    relativeVolume d b = volume.real (cylinder d (fun i => b i / b (d - 1)) 0) * (d.factorial / Real.pi ^ d) := by
  have hl := h.last hd
  have := (real_cylinder (d := d) (β := fun i => b i / b (d - 1)) (r := 0) (fun i j hij =>
    div_le_div_of_nonneg_right (h.2 i j hij j.2) hl.le) (fun i => div_nonneg (h.1 i i.2).le hl.le)).1
  rw [this, C45_nested_integral]
  unfold radii
  have := Real.pi_pos.ne'
  field_simp

theorem relVol_nonneg {d : ℕ} {b : Vec} (h : Mono d b) (hd : 0 < d) : 0 ≤ relativeVolume d b := by
  rw [relVol_eq h hd]
  have := measureReal_nonneg (μ := volume) (s := cylinder d (fun i => b i / b (d - 1)) 0)
  positivity

theorem relVol_mono {d : ℕ} {b b' : Vec} (h : Mono d b) (h' : Mono d b') (hd : 0 < d)
    (hle : ∀ i, i < d → b i / b (d - 1) ≤ b' i / b' (d - 1)) : relativeVolume d b ≤ relativeVolume d b' := by
  rw [relVol_eq h hd, relVol_eq h' hd]
  apply mul_le_mul_of_nonneg_right _ (by positivity)
  have hl := h'.last hd
  refine measureReal_mono (cylinder_mono 0 fun i => hle i i.2) ?_
  exact (real_cylinder (d := d) (β := fun i => b' i / b' (d - 1)) (r := 0) (fun i j hij =>
    div_le_div_of_nonneg_right (h'.2 i j hij j.2) hl.le) (fun i => div_nonneg (h'.1 i i.2).le hl.le)).2

theorem relVol_le_one {d : ℕ} {b : Vec} (h : Mono d b) (hd : 0 < d) : relativeVolume d b ≤ 1 := by
  have h1 := relVol_mono (b' := fun _ => 1) h ⟨fun _ _ => one_pos, fun _ _ _ _ => le_rfl⟩ hd (fun i hi => by
    rw [div_one]
    exact (div_le_one (h.last hd)).2 (h.2 i (d - 1) (by omega) (by omega)))
  rwa [C45_no_pruning_volume one_ne_zero (fun i _ => rfl)] at h1

/-! ## Half vectors whose last coefficient may be smaller than one -/

/-- the coefficients for the smaller radius -/
noncomputable def shrunk (dx : ℝ) (b : Vec) : Vec := fun i => if b i / (dx * dx) > 1 then 1 else b i / (dx * dx)

theorem shrunk_eq (dx : ℝ) (b : Vec) (i : ℕ) : shrunk dx b i = min (b i / (dx * dx)) 1 := by
  unfold shrunk
  split_ifs with h
  · exact (min_eq_right h.le).symm
  · exact (min_eq_left (not_lt.1 h)).symm

theorem shrunk_mono {d : ℕ} {b : Vec} {dx : ℝ} (h0 : 0 < dx) (h : Mono d b) : Mono d (shrunk dx b) := by
  refine ⟨fun i hi => ?_, fun i j hij hj => ?_⟩
  · rw [shrunk_eq]
    exact lt_min (div_pos (h.1 i hi) (by positivity)) one_pos
  · rw [shrunk_eq, shrunk_eq]
    exact min_le_min_right _ (div_le_div_of_nonneg_right (h.2 i j hij hj) (by positivity))

theorem evec_eq (dx : ℝ) (d : ℕ) (b : Vec) : svpProbabilityEvec dx d b =
    (relativeVolume d b - dx ^ (2 * d) * relativeVolume d (shrunk dx b)) / (1 - dx ^ (2 * d)) := by
  unfold svpProbabilityEvec
  simp only
  rw [← neg_sub (1 : ℝ) (dx ^ (2 * d)), ← neg_sub (relativeVolume d b), neg_div_neg_eq]
  rfl

/-- the volume for the smaller radius is at most the volume for the larger one -/
theorem shrunk_le {d : ℕ} (hd : 0 < d) {b : Vec} (h : Mono d b) (hl : b (d - 1) ≤ 1) {dx : ℝ} (h0 : 0 < dx) (h1 : dx < 1) :
    dx ^ (2 * d) * relativeVolume d (shrunk dx b) ≤ relativeVolume d b := by
  have hdx2p : 0 < dx * dx := by positivity
  have hdx2 : dx * dx < 1 := by nlinarith
  have hlp := h.last hd
  have hdxn : dx ^ (2 * d) ≤ 1 := pow_le_one₀ h0.le h1.le
  by_cases hc : b (d - 1) ≤ dx * dx
  · -- nothing is cut off: the same relative volume
    have hsame : relativeVolume d (shrunk dx b) ≤ relativeVolume d b := by
      apply relVol_mono (shrunk_mono h0 h) h hd
      intro i hi
      rw [shrunk_eq, shrunk_eq, min_eq_left ((div_le_one hdx2p).2 hc),
        min_eq_left ((div_le_one hdx2p).2 ((h.2 i (d - 1) (by omega) (by omega)).trans hc)), div_div_div_cancel_right₀ hdx2p.ne']
    have := relVol_nonneg (shrunk_mono h0 h) hd
    nlinarith
  · rw [not_le] at hc
    have hlast : shrunk dx b (d - 1) = 1 := by
      rw [shrunk_eq, min_eq_right]
      rw [le_div_iff₀ hdx2p]
      linarith
    -- scale the smaller set
    have hmap : (List.ofFn fun i : Fin d => min (b i) (dx ^ 2)) = (radii d (shrunk dx b)).map (dx ^ 2 * ·) := by
      unfold radii
      rw [List.map_ofFn]
      congr 1
      funext i
      simp only [Function.comp_apply, hlast, div_one, shrunk_eq]
      rw [mul_min_of_nonneg _ _ (by positivity), mul_one]
      congr 1
      field_simp
    have hs := nested_scale (dx ^ 2) (by positivity) (radii d (shrunk dx b)) 0
    rw [mul_zero, ← hmap, show (radii d (shrunk dx b)).length = d by unfold radii; rw [List.length_ofFn], ← pow_mul] at hs
    have hminm : Monotone fun i : Fin d => min (b i) (dx ^ 2) := fun i j hij => min_le_min_right _ (h.2 i j hij j.2)
    have v2 := (real_cylinder hminm (r := 0) fun i => le_min (h.1 i i.2).le (sq_nonneg _)).1
    have key : dx ^ (2 * d) * relativeVolume d (shrunk dx b) =
        volume.real (cylinder d (fun i => min (b i) (dx ^ 2)) 0) * (d.factorial / Real.pi ^ d) := by
      rw [v2, hs, C45_nested_integral]
      have := Real.pi_pos.ne'
      field_simp
    rw [key, relVol_eq h hd]
    apply mul_le_mul_of_nonneg_right _ (by positivity)
    apply measureReal_mono
    · refine cylinder_mono 0 fun i => (min_le_left _ _).trans ?_
      rw [le_div_iff₀ hlp]
      have := h.1 i i.2
      nlinarith
    · exact (real_cylinder (d := d) (β := fun i => b i / b (d - 1)) (r := 0) (fun i j hij =>
        div_le_div_of_nonneg_right (h.2 i j hij j.2) hlp.le) (fun i => div_nonneg (h.1 i i.2).le hlp.le)).2

/-- the relative volume does not become smaller when the radius does -/
theorem le_shrunk {d : ℕ} (hd : 0 < d) {b : Vec} (h : Mono d b) {dx : ℝ} (h0 : 0 < dx) :
    relativeVolume d b ≤ relativeVolume d (shrunk dx b) := by
  have hdx2p : 0 < dx * dx := by positivity
  have hlp := h.last hd
  apply relVol_mono h (shrunk_mono h0 h) hd
  intro i hi
  have hil := h.2 i (d - 1) (by omega) (by omega)
  rw [shrunk_eq, shrunk_eq]
  by_cases hc : b (d - 1) ≤ dx * dx
  · rw [min_eq_left ((div_le_one hdx2p).2 hc), min_eq_left ((div_le_one hdx2p).2 (hil.trans hc)),
      div_div_div_cancel_right₀ hdx2p.ne']
  · rw [not_le] at hc
    rw [min_eq_right ((one_le_div hdx2p).2 hc.le), div_one]
    apply le_min
    · apply div_le_div_of_nonneg_left (h.1 i hi).le hdx2p hc.le
    · exact (div_le_one hlp).2 hil

theorem evec_range {d : ℕ} (hd : 0 < d) {b : Vec} (h : Mono d b) (hl : b (d - 1) ≤ 1) {dx : ℝ} (h0 : 0 < dx) (h1 : dx < 1) :
    0 ≤ svpProbabilityEvec dx d b ∧ svpProbabilityEvec dx d b ≤ 1 := by
  have hdxn : dx ^ (2 * d) < 1 := pow_lt_one₀ h0.le h1 (by omega)
  have hdx0 : 0 < dx ^ (2 * d) := by positivity
  have a := shrunk_le hd h hl h0 h1
  have b1 := le_shrunk hd h h0
  have c := relVol_le_one h hd
  rw [evec_eq]
  refine ⟨div_nonneg (by linarith) (by linarith), (div_le_one (by linarith)).2 ?_⟩
  nlinarith

theorem even_mono {d : ℕ} {b : Vec} (h : Mono (2 * d) b) : Mono d fun i => b (2 * i) :=
  ⟨fun i hi => h.1 _ (by omega), fun i j hij hj => h.2 _ _ (by omega) (by omega)⟩

theorem odd_mono {d : ℕ} {b : Vec} (h : Mono (2 * d) b) : Mono d fun i => b (2 * i + 1) :=
  ⟨fun i hi => h.1 _ (by omega), fun i j hij hj => h.2 _ _ (by omega) (by omega)⟩

/-- **C59** the result is always a number between 0 and 1, for even and odd `n`, also if the second coefficient `pr[1]` is
smaller than 1. -/
theorem C59_range {d dn : ℕ} (hd : 0 < d) {b : Vec} (h : Mono (2 * d) b) (hl : b (2 * d - 1) ≤ 1) {dx : ℝ} (h0 : 0 < dx)
    (h1 : dx < 1) : 0 ≤ svpProbability dx d dn b ∧ svpProbability dx d dn b ≤ 1 := by
  unfold svpProbability
  split_ifs
  · exact evec_range hd ⟨fun i hi => h.1 i (by omega), fun i j hij hj => h.2 i j hij (by omega)⟩
      ((h.2 (d - 1) (2 * d - 1) (by omega) (by omega)).trans hl) h0 h1
  · have e := evec_range hd (even_mono h) ((h.2 (2 * (d - 1)) (2 * d - 1) (by omega) (by omega)).trans hl) h0 h1
    have o := evec_range hd (odd_mono h) ((h.2 (2 * (d - 1) + 1) (2 * d - 1) (by omega) (by omega)).trans hl) h0 h1
    constructor <;> linarith [e.1, e.2, o.1, o.2]

/-! ## What the two bounds mean -/

theorem sum_le_split {d : ℕ} (z : Fin d → ℝ × ℝ) (k : Fin d) :
    (∑ i : Fin d, if i ≤ k then (z i).1 ^ 2 + (z i).2 ^ 2 else 0) =
      (∑ i : Fin d, if i < k then (z i).1 ^ 2 + (z i).2 ^ 2 else 0) + ((z k).1 ^ 2 + (z k).2 ^ 2) := by
  have : ((z k).1 ^ 2 + (z k).2 ^ 2) = ∑ i : Fin d, if i = k then (z i).1 ^ 2 + (z i).2 ^ 2 else 0 := by
    rw [Finset.sum_ite_eq' Finset.univ k]
    simp
  rw [this, ← Finset.sum_add_distrib]
  apply Finset.sum_congr rfl
  intro i _
  rcases lt_trichotomy i k with h | h | h
  · rw [if_pos h.le, if_pos h, if_neg h.ne, add_zero]
  · subst h
    simp
  · rw [if_neg (not_le.2 h), if_neg (not_lt.2 h.le), if_neg h.ne', add_zero]

/-- pruning each pair with the smaller radius cuts off more, with the larger radius less -/
theorem pruned_between {d : ℕ} {b : Vec} (h : Mono (2 * d) b) :
    cylinder d (fun i => b (2 * i)) 0 ⊆ pruned d b ∧ pruned d b ⊆ cylinder d (fun i => b (2 * i + 1)) 0 := by
  constructor
  · intro z hz k
    have := hz k
    rw [zero_add, sum_le_split] at this
    have hm := h.2 (2 * k) (2 * k + 1) (by omega) (by omega)
    exact ⟨by nlinarith [sq_nonneg (z k).2], by linarith⟩
  · intro z hz k
    rw [zero_add, sum_le_split]
    exact (hz k).2

/-- **C59** the lower and the upper bound are the shell probabilities of the two cylinder intersections, and the probability of
the region that enumeration with the coefficients `b` visits lies between them, if the first two coefficients `pr[0]`, `pr[1]`
are 1. -/
theorem C59_between {d : ℕ} (hd : 0 < d) {b : Vec} (h : Mono (2 * d) b) (hl : b (2 * d - 2) = 1) (hl1 : b (2 * d - 1) = 1)
    {dx : ℝ} (h0 : 0 < dx) (h1 : dx < 1) :
    ∃ lo hi, lo ≤ shellProb d dx (pruned d b) ∧ shellProb d dx (pruned d b) ≤ hi ∧ svpProbability dx d (2 * d) b = (lo + hi) / 2 ∧
      lo = shellProb d dx (cylinder d (fun i => b (2 * i)) 0) ∧ hi = shellProb d dx (cylinder d (fun i => b (2 * i + 1)) 0) := by
  have hb1 : ∀ i, i < 2 * d → b i ≤ 1 := fun i hi => by rw [← hl1]; exact h.2 _ _ (by omega) (by omega)
  have hu : cylinder d (fun i => b (2 * i + 1)) 0 ⊆ ball d 1 := cylinder_sub_ball hd fun i => hb1 _ (by omega)
  refine ⟨_, _, shellProb_mono hd dx (pruned_between h).1 ((pruned_between h).2.trans hu),
    shellProb_mono hd dx (pruned_between h).2 hu, ?_, rfl, rfl⟩
  unfold svpProbability
  rw [if_neg (by omega), C45_probability_meaning hd (even_mono h) (by rw [← hl]; congr 1; omega) h0 h1,
    C45_probability_meaning hd (odd_mono h) (by rw [← hl1]; congr 1; omega) h0 h1]
  rfl

/-- **C59** less pruning never gives a smaller probability, if the first two coefficients are 1. -/
theorem C59_monotone_partial {d : ℕ} (hd : 0 < d) {b b' : Vec} (h : Mono (2 * d) b) (h' : Mono (2 * d) b')
    (hle : ∀ i, i < 2 * d → b i ≤ b' i) (hl : b (2 * d - 2) = 1) (hl1 : b' (2 * d - 1) = 1)
    {dx : ℝ} (h0 : 0 < dx) (h1 : dx < 1) : svpProbability dx d (2 * d) b ≤ svpProbability dx d (2 * d) b' := by
  have hb1 : ∀ i, i < 2 * d → b' i ≤ 1 := fun i hi => by rw [← hl1]; exact h'.2 _ _ (by omega) (by omega)
  have k1 : b (2 * d - 1) = 1 := le_antisymm ((hle _ (by omega)).trans (hb1 _ (by omega)))
    (by rw [← hl]; exact h.2 _ _ (by omega) (by omega))
  have k2 : b' (2 * d - 2) = 1 := le_antisymm (hb1 _ (by omega)) (by rw [← hl]; exact hle _ (by omega))
  obtain ⟨lo, hi, _, _, e, rfl, rfl⟩ := C59_between hd h hl k1 h0 h1
  obtain ⟨lo', hi', _, _, e', rfl, rfl⟩ := C59_between hd h' k2 hl1 h0 h1
  rw [e, e']
  have a := shellProb_mono hd dx (cylinder_mono 0 fun i : Fin d => hle (2 * i) (by omega))
    (cylinder_sub_ball hd fun i => hb1 _ (by omega))
  have b := shellProb_mono hd dx (cylinder_mono 0 fun i : Fin d => hle (2 * i + 1) (by omega))
    (cylinder_sub_ball hd fun i => hb1 _ (by omega))
  linarith

/-! ## Violations -/

/-- `pr = (1, 1/1000, 1/1000, 1/1000)` -/
noncomputable def deep : Vec := fun i => if i = 3 then 1 else 1 / 1000

theorem deep_mono : Mono 4 deep := by
  refine ⟨fun i _ => by unfold deep; split_ifs <;> norm_num, fun i j hij hj => ?_⟩
  unfold deep
  interval_cases j <;> interval_cases i <;> norm_num

/-- `pr = (1, 1, 1/1000, 1/1000)` -/
noncomputable def deep' : Vec := fun i => if 2 ≤ i then 1 else 1 / 1000

theorem deep_lower (dx : ℝ) (h0 : 0 < dx) (h1 : dx < 1) : svpProbabilityEvec dx 2 (fun i => deep (2 * i)) = 1 := by
  have hm : ∀ i, i < 2 → deep (2 * i) = 1 / 1000 := by
    intro i hi
    unfold deep
    interval_cases i <;> norm_num
  have hdxn : dx ^ (2 * 2) < 1 := pow_lt_one₀ h0.le h1 (by omega)
  rw [evec_eq, C45_no_pruning_volume (c := 1 / 1000) (by norm_num) hm,
    C45_no_pruning_volume (c := min (1 / 1000 / (dx * dx)) 1) (by positivity) (fun i hi => by rw [shrunk_eq, hm i hi]), mul_one]
  exact div_self (by linarith)

theorem upper_val : svpProbabilityEvec 0.995 2 (fun i => if i = 0 then 1 / 1000 else 1) < 1 / 100 := by
  unfold svpProbabilityEvec
  simp [relativeVolume, forDown, volStep, integratePoly, evalPoly, Function.update]
  norm_num

/-- **C59 violated** (even `n`): with `pr = (1, 0.001, 0.001, 0.001)`, which is non-increasing and starts with 1, the "lower
bound" is 1 and larger than the upper bound, because `relative_volume` takes the coefficients relative to the last one.  The
result is larger than 1/2; the probability is smaller than 1/100.  Raising `pr[1]` to 1 makes the result smaller than 1/100. -/
theorem C59_second_coefficient_violated :
    Mono 4 deep ∧ deep 3 = 1 ∧ 1 / 2 ≤ svpProbability 0.995 2 4 deep ∧ shellProb 2 0.995 (pruned 2 deep) < 1 / 100 ∧
    svpProbabilityEvec 0.995 2 (fun i => deep (2 * i + 1)) < svpProbabilityEvec 0.995 2 (fun i => deep (2 * i)) ∧
    (∀ i, deep i ≤ deep' i) ∧ svpProbability 0.995 2 4 deep' < 1 / 100 := by
  have hlo := deep_lower 0.995 (by norm_num) (by norm_num)
  have hup : svpProbabilityEvec 0.995 2 (fun i => deep (2 * i + 1)) < 1 / 100 := by
    have : svpProbabilityEvec 0.995 2 (fun i => deep (2 * i + 1)) =
        svpProbabilityEvec 0.995 2 (fun i => if i = 0 then 1 / 1000 else 1) := by
      unfold svpProbabilityEvec deep
      simp [relativeVolume, forDown, volStep, integratePoly, evalPoly, Function.update]
    rw [this]
    exact upper_val
  have hm := odd_mono (d := 2) deep_mono
  have hrange := evec_range (by norm_num) hm (by unfold deep; norm_num) (dx := 0.995) (by norm_num) (by norm_num)
  refine ⟨deep_mono, by simp [deep], ?_, ?_, by rw [hlo]; linarith, ?_, ?_⟩
  · unfold svpProbability
    rw [if_neg (by norm_num), hlo]
    linarith [hrange.1]
  · refine lt_of_le_of_lt (shellProb_mono (by norm_num) _ (pruned_between (d := 2) deep_mono).2
      (cylinder_sub_ball (by norm_num) fun i => ?_)) ?_
    · unfold deep
      split_ifs <;> norm_num
    · refine lt_of_eq_of_lt ?_ hup
      rw [C45_probability_meaning (by norm_num) hm (by unfold deep; norm_num) (by norm_num) (by norm_num)]
      rfl
  · intro i
    unfold deep deep'
    split_ifs <;> first | omega | norm_num
  · have e1 : svpProbabilityEvec 0.995 2 (fun i => deep' (2 * i)) = svpProbabilityEvec 0.995 2 (fun i => if i = 0 then 1 / 1000 else 1) := by
      unfold svpProbabilityEvec deep'
      simp [relativeVolume, forDown, volStep, integratePoly, evalPoly, Function.update]
    have e2 : svpProbabilityEvec 0.995 2 (fun i => deep' (2 * i + 1)) = svpProbabilityEvec 0.995 2 (fun i => if i = 0 then 1 / 1000 else 1) := by
      unfold svpProbabilityEvec deep'
      simp [relativeVolume, forDown, volStep, integratePoly, evalPoly, Function.update]
    unfold svpProbability
    rw [if_neg (by norm_num), e1, e2]
    linarith [upper_val]

/-- **C59 violated** (odd `n = 2d + 1`): `pr[0]` is not looked at, and for `pr = (1, x, …, x)` the result is 1, however small `x`
is. -/
theorem C59_odd_violated {d : ℕ} (hd : 0 < d) {x : ℝ} (hx : 0 < x) {b : Vec} (hb : ∀ i, i < 2 * d → b i = x) {dx : ℝ} (h0 : 0 < dx)
    (h1 : dx < 1) : svpProbability dx d (2 * d + 1) b = 1 := by
  have key : ∀ b : Vec, (∀ i, i < d → b i = x) → svpProbabilityEvec dx d b = 1 := by
    intro b hb
    have hdxn : dx ^ (2 * d) < 1 := pow_lt_one₀ h0.le h1 (by omega)
    rw [evec_eq, C45_no_pruning_volume (c := x) hx.ne' hb,
      C45_no_pruning_volume (c := min (x / (dx * dx)) 1) (by positivity) (fun i hi => by rw [shrunk_eq, hb i hi]), mul_one]
    exact div_self (by linarith)
  unfold svpProbability
  rw [if_neg (by omega), key _ fun i hi => hb _ (by omega), key _ fun i hi => hb _ (by omega)]
  norm_num

/-- what is cut off in that case, for `n = 3`: an open part of the shell -/
theorem C59_odd_cut_off {x dx : ℝ} (hx : 0 < x) (hx1 : x < 1) (h0 : 0 < dx) (h1 : dx < 1) :
    0 < volume {z : (ℝ × ℝ) × ℝ | dx ^ 2 < z.1.1 ^ 2 + z.1.2 ^ 2 + z.2 ^ 2 ∧ z.1.1 ^ 2 + z.1.2 ^ 2 + z.2 ^ 2 < 1 ∧
      ¬(z.1.1 ^ 2 ≤ x ∧ z.1.1 ^ 2 + z.1.2 ^ 2 ≤ x)} := by
  have hsub : {z : (ℝ × ℝ) × ℝ | dx ^ 2 < z.1.1 ^ 2 + z.1.2 ^ 2 + z.2 ^ 2 ∧ z.1.1 ^ 2 + z.1.2 ^ 2 + z.2 ^ 2 < 1 ∧
      x < z.1.1 ^ 2} ⊆ {z : (ℝ × ℝ) × ℝ | dx ^ 2 < z.1.1 ^ 2 + z.1.2 ^ 2 + z.2 ^ 2 ∧
      z.1.1 ^ 2 + z.1.2 ^ 2 + z.2 ^ 2 < 1 ∧ ¬(z.1.1 ^ 2 ≤ x ∧ z.1.1 ^ 2 + z.1.2 ^ 2 ≤ x)} :=
    fun z hz => ⟨hz.1, hz.2.1, fun h => absurd h.1 (not_le.2 hz.2.2)⟩
  refine lt_of_lt_of_le ?_ (measure_mono hsub)
  apply IsOpen.measure_pos
  · refine IsOpen.and (isOpen_lt (by fun_prop) (by fun_prop)) ?_
    exact IsOpen.and (isOpen_lt (by fun_prop) (by fun_prop)) (isOpen_lt (by fun_prop) (by fun_prop))
  · obtain ⟨t, ht1, ht2⟩ := exists_between (max_lt (show dx ^ 2 < 1 by nlinarith) hx1)
    refine ⟨((√t, 0), 0), ?_⟩
    have htp : 0 ≤ t := hx.le.trans ((le_max_right _ _).trans ht1.le)
    have : √t ^ 2 = t := Real.sq_sqrt htp
    simp only [Set.mem_ofPred_eq, this]
    refine ⟨by have := lt_of_le_of_lt (le_max_left _ _) ht1; linarith, by linarith, lt_of_le_of_lt (le_max_right _ _) ht1⟩

/-- **C59 violated** by `LinearPruningParams(3, 2)`: the coefficients are `1, 2/3, 1/3` and `expectation` is set to 1
(bkz_param.cpp:34). -/
theorem C59_linear_three_violated {dx : ℝ} (h0 : 0 < dx) (h1 : dx < 1) :
    Strat.linearPruning 3 2 = some [1, 2 / 3, 1 / 3] ∧
    svpProbability dx 1 3 (fun i => if i = 0 then 1 / 3 else if i = 1 then 2 / 3 else 1) = 1 := by
  constructor
  · decide +kernel
  have key : ∀ b : Vec, 0 < b 0 → svpProbabilityEvec dx 1 b = 1 := by
    intro b hb
    have := C59_odd_violated (d := 1) one_pos hb (b := fun _ => b 0) (fun _ _ => rfl) h0 h1
    unfold svpProbability at this
    rw [if_neg (by norm_num)] at this
    have e : svpProbabilityEvec dx 1 (fun _ => b 0) = svpProbabilityEvec dx 1 b := by
      unfold svpProbabilityEvec
      simp [relativeVolume, forDown, volStep, integratePoly, evalPoly, Function.update]
    rw [e] at this
    linarith
  unfold svpProbability
  rw [if_neg (by norm_num), key _ (by norm_num), key _ (by norm_num)]
  norm_num

/-- a case with real pruning that meets the hypotheses of `C59_between` -/
example : Mono 4 deep' ∧ deep' (2 * 2 - 2) = 1 ∧ deep' (2 * 2 - 1) = 1 := by
  refine ⟨⟨fun i _ => by unfold deep'; split_ifs <;> norm_num, fun i j hij hj => ?_⟩, by simp [deep'], by simp [deep']⟩
  unfold deep'
  interval_cases j <;> interval_cases i <;> norm_num

end Pruner
end Fplll

import Mathlib.Analysis.SpecialFunctions.PolarCoord
import Mathlib.MeasureTheory.Integral.IntervalIntegral.IntegrationByParts
import Mathlib.MeasureTheory.Integral.DominatedConvergence
import Mathlib.Algebra.BigOperators.Fin
import Verif.Spec.Simplex

open MeasureTheory Set ENNReal

namespace Fplll

theorem nested_continuous (l : List ℝ) : Continuous (nested l) := by
  induction l with
  | nil => exact continuous_const
  | cons β l ih =>
    have h : nested (β :: l) = fun x => -∫ t in β..x, nested l t := by
      funext x
      rw [nested, intervalIntegral.integral_symm]
    rw [h]
    exact (intervalIntegral.continuous_primitive (fun a b => ih.intervalIntegrable a b) β).neg

/-- integral of a radial function over a disc -/
theorem lintegral_disc {R : ℝ} (hR : 0 ≤ R) {g : ℝ → ℝ} (hg : Continuous g) (h0 : ∀ s, 0 ≤ s → s ≤ R → 0 ≤ g s) :
    ∫⁻ z in {z : ℝ × ℝ | z.1 ^ 2 + z.2 ^ 2 ≤ R}, ENNReal.ofReal (g (z.1 ^ 2 + z.2 ^ 2)) =
      ENNReal.ofReal (Real.pi * ∫ s in (0 : ℝ)..R, g s) := by
  have hms : MeasurableSet {z : ℝ × ℝ | z.1 ^ 2 + z.2 ^ 2 ≤ R} :=
    measurableSet_le (by fun_prop) (by fun_prop)
  rw [← lintegral_indicator hms, ← lintegral_comp_polarCoord_symm]
  set F : ℝ → ℝ≥0∞ := fun r => ENNReal.ofReal r * (if r ^ 2 ≤ R then ENNReal.ofReal (g (r ^ 2)) else 0) with hF
  have hFm : Measurable F := by
    apply Measurable.mul (by fun_prop)
    exact Measurable.ite (measurableSet_le (by fun_prop) (by fun_prop)) (by fun_prop) measurable_const
  have h1 : ∀ p : ℝ × ℝ, ENNReal.ofReal p.1 • ({z : ℝ × ℝ | z.1 ^ 2 + z.2 ^ 2 ≤ R}.indicator
      (fun z => ENNReal.ofReal (g (z.1 ^ 2 + z.2 ^ 2))) (polarCoord.symm p)) = F p.1 * 1 := by
    intro p
    have hsq : (p.1 * Real.cos p.2) ^ 2 + (p.1 * Real.sin p.2) ^ 2 = p.1 ^ 2 := by
      have := Real.sin_sq_add_cos_sq p.2
      linear_combination p.1 ^ 2 * this
    simp only [hF, smul_eq_mul, polarCoord_symm_apply, indicator, mem_ofPred_eq, hsq, mul_one]
  simp only [h1]
  rw [polarCoord_target, Measure.volume_eq_prod, ← Measure.prod_restrict, lintegral_prod_mul hFm.aemeasurable
    aemeasurable_const]
  simp only [lintegral_const, Measure.restrict_apply, MeasurableSet.univ, univ_inter, Real.volume_Ioo, one_mul]
  -- the radial part
  have h2 : ∫⁻ r in Ioi (0 : ℝ), F r = ENNReal.ofReal (∫ r in (0 : ℝ)..(√R), g (r ^ 2) * r) := by
    have hsplit : ∫⁻ r in Ioi (0 : ℝ), F r = ∫⁻ r in Ioc (0 : ℝ) (√R), ENNReal.ofReal (g (r ^ 2) * r) := by
      rw [← lintegral_indicator measurableSet_Ioi, ← lintegral_indicator measurableSet_Ioc]
      congr 1
      funext r
      simp only [indicator, mem_Ioi, mem_Ioc, hF]
      by_cases hr : 0 < r
      · have hiff : r ≤ √R ↔ r ^ 2 ≤ R := Real.le_sqrt hr.le hR
        by_cases hr2 : r ^ 2 ≤ R
        · rw [if_pos hr, if_pos hr2, if_pos ⟨hr, hiff.2 hr2⟩, mul_comm (g _), ENNReal.ofReal_mul hr.le]
        · rw [if_pos hr, if_neg hr2, if_neg (fun h => hr2 (hiff.1 h.2)), mul_zero]
      · rw [if_neg hr, if_neg (fun h => hr h.1)]
    rw [hsplit, intervalIntegral.integral_of_le (Real.sqrt_nonneg R), ofReal_integral_eq_lintegral_ofReal]
    · have : Continuous fun r : ℝ => g (r ^ 2) * r := by fun_prop
      exact (this.integrableOn_Icc (a := 0) (b := √R)).mono_set Ioc_subset_Icc_self
    · refine (ae_restrict_iff' measurableSet_Ioc).2 (Filter.Eventually.of_forall fun r hr => ?_)
      exact mul_nonneg (h0 _ (sq_nonneg r) ((Real.le_sqrt hr.1.le hR).1 hr.2)) hr.1.le
  have h3 : ∫ r in (0 : ℝ)..(√R), g (r ^ 2) * r = (∫ s in (0 : ℝ)..R, g s) / 2 := by
    have := intervalIntegral.integral_comp_mul_deriv' (a := 0) (b := √R) (f := fun r => r ^ 2) (f' := fun r => 2 * r) (g := g)
      (fun x _ => by simpa using hasDerivAt_pow 2 x) (by fun_prop) hg.continuousOn
    simp only [Function.comp_def, Real.sq_sqrt hR] at this
    rw [show (0 : ℝ) ^ 2 = 0 by norm_num] at this
    rw [← this, ← intervalIntegral.integral_div]
    congr 1
    funext r
    ring
  rw [h2, h3, ← ENNReal.ofReal_mul' (by linarith [Real.pi_pos])]
  congr 1
  ring

theorem nested_nonneg : ∀ (l : List ℝ) (x : ℝ), l.Pairwise (· ≤ ·) → (∀ b ∈ l, x ≤ b) → 0 ≤ nested l x := by
  intro l
  induction l with
  | nil => intro x _ _; simp [nested]
  | cons β l ih =>
    intro x hs hx
    rw [nested]
    apply intervalIntegral.integral_nonneg (hx β (by simp))
    intro t ht
    exact ih t (List.pairwise_cons.1 hs).2 fun b hb => ht.2.trans ((List.pairwise_cons.1 hs).1 b hb)

theorem cylinder_measurable (d : ℕ) (β : Fin d → ℝ) (r : ℝ) : MeasurableSet (cylinder d β r) := by
  unfold cylinder
  rw [ofPred_forall]
  apply MeasurableSet.iInter
  intro k
  apply measurableSet_le _ measurable_const
  apply Measurable.const_add
  apply Finset.measurable_sum
  intro i _
  by_cases h : i ≤ k
  · simp only [if_pos h]; fun_prop
  · simp only [if_neg h]; fun_prop

/-- splitting off the first plane -/
theorem cylinder_cons (d : ℕ) (β : Fin (d + 1) → ℝ) (r : ℝ) (a : ℝ × ℝ) (z : Fin d → ℝ × ℝ) :
    (Fin.cons a z : Fin (d + 1) → ℝ × ℝ) ∈ cylinder (d + 1) β r ↔
      r + (a.1 ^ 2 + a.2 ^ 2) ≤ β 0 ∧ z ∈ cylinder d (fun i => β i.succ) (r + (a.1 ^ 2 + a.2 ^ 2)) := by
  unfold cylinder
  simp only [mem_ofPred_eq]
  constructor
  · intro h
    refine ⟨?_, fun k => ?_⟩
    · have := h 0
      rw [Fin.sum_univ_succ] at this
      simp only [le_refl, if_true, Fin.cons_zero] at this
      rw [Finset.sum_eq_zero (by intro i _; rw [if_neg (by simp)])] at this
      linarith
    · have := h k.succ
      rw [Fin.sum_univ_succ] at this
      simp only [Fin.zero_le, if_true, Fin.cons_zero, Fin.cons_succ, Fin.succ_le_succ_iff] at this
      linarith
  · rintro ⟨h0, h⟩ k
    rw [Fin.sum_univ_succ]
    refine Fin.cases ?_ (fun k => ?_) k
    · simp only [le_refl, if_true, Fin.cons_zero]
      rw [Finset.sum_eq_zero (by intro i _; rw [if_neg (by simp)])]
      linarith
    · have := h k
      simp only [Fin.zero_le, if_true, Fin.cons_zero, Fin.cons_succ, Fin.succ_le_succ_iff]
      linarith

/-- **Volume of a cylinder intersection** in even dimension -/
theorem volume_cylinder : ∀ (d : ℕ) (β : Fin d → ℝ) (r : ℝ), Monotone β → (∀ i, r ≤ β i) →
    volume (cylinder d β r) = ENNReal.ofReal (Real.pi ^ d * nested (List.ofFn β) r) := by
  intro d
  induction d with
  | zero =>
    intro β r _ _
    have : cylinder 0 β r = univ := by
      ext z
      simp [cylinder]
    rw [this]
    simp [nested, volume_pi]
  | succ d ih =>
    intro β r hβ hr
    have hmp := volume_preserving_piFinSuccAbove (fun _ : Fin (d + 1) => ℝ × ℝ) 0
    have hsucc : Monotone fun i : Fin d => β i.succ := fun i j hij => hβ (by simpa using hij)
    set S : Set ((ℝ × ℝ) × (Fin d → ℝ × ℝ)) :=
      (MeasurableEquiv.piFinSuccAbove (fun _ : Fin (d + 1) => ℝ × ℝ) 0).symm ⁻¹' cylinder (d + 1) β r with hS
    have hSmem : ∀ (a : ℝ × ℝ) (z : Fin d → ℝ × ℝ), (a, z) ∈ S ↔
        (Fin.cons a z : Fin (d + 1) → ℝ × ℝ) ∈ cylinder (d + 1) β r := by
      intro a z
      rw [hS, mem_preimage, MeasurableEquiv.piFinSuccAbove_symm_apply]
      simp only [Fin.insertNthEquiv_zero]
      rfl
    have hpre : cylinder (d + 1) β r = (MeasurableEquiv.piFinSuccAbove (fun _ : Fin (d + 1) => ℝ × ℝ) 0) ⁻¹' S := by
      ext z
      rw [hS, mem_preimage, mem_preimage, MeasurableEquiv.symm_apply_apply]
    have hSm : MeasurableSet S :=
      (MeasurableEquiv.measurable _) (cylinder_measurable _ _ _)
    rw [hpre, hmp.measure_preimage hSm.nullMeasurableSet, Measure.volume_eq_prod, Measure.prod_apply hSm]
    have hfib : ∀ a : ℝ × ℝ, volume (Prod.mk a ⁻¹' S) = {z : ℝ × ℝ | z.1 ^ 2 + z.2 ^ 2 ≤ β 0 - r}.indicator
        (fun z => ENNReal.ofReal (Real.pi ^ d * nested (List.ofFn fun i : Fin d => β i.succ) (r + (z.1 ^ 2 + z.2 ^ 2)))) a := by
      intro a
      by_cases ha : a.1 ^ 2 + a.2 ^ 2 ≤ β 0 - r
      · rw [indicator_of_mem (show a ∈ {z : ℝ × ℝ | z.1 ^ 2 + z.2 ^ 2 ≤ β 0 - r} from ha)]
        rw [← ih (fun i => β i.succ) (r + (a.1 ^ 2 + a.2 ^ 2)) hsucc
          (fun i => by have := hβ (Fin.zero_le i.succ); linarith)]
        congr 1
        ext z
        simp only [mem_preimage, hSmem, cylinder_cons d β]
        exact ⟨fun h => h.2, fun h => ⟨by linarith, h⟩⟩
      · rw [indicator_of_notMem (show a ∉ {z : ℝ × ℝ | z.1 ^ 2 + z.2 ^ 2 ≤ β 0 - r} from ha)]
        have : Prod.mk a ⁻¹' S = ∅ := by
          ext z
          simp only [mem_preimage, hSmem, cylinder_cons d β, mem_empty_iff_false, iff_false]
          intro h
          exact ha (by linarith [h.1])
        rw [this, measure_empty]
    have hms : MeasurableSet {z : ℝ × ℝ | z.1 ^ 2 + z.2 ^ 2 ≤ β 0 - r} :=
      measurableSet_le (by fun_prop) (by fun_prop)
    simp only [hfib]
    rw [lintegral_indicator hms]
    have hc := nested_continuous (List.ofFn fun i : Fin d => β i.succ)
    rw [lintegral_disc (by linarith [hr 0]) (g := fun s => Real.pi ^ d * nested (List.ofFn fun i : Fin d => β i.succ) (r + s))
      (by fun_prop)]
    · congr 1
      rw [intervalIntegral.integral_const_mul, List.ofFn_succ, nested, pow_succ]
      rw [intervalIntegral.integral_comp_add_left (fun t => nested (List.ofFn fun i : Fin d => β i.succ) t) r]
      simp only [add_zero, add_sub_cancel]
      ring
    · intro s hs1 hs2
      apply mul_nonneg (by positivity)
      apply nested_nonneg
      · rw [List.pairwise_ofFn]
        intro i j hij
        exact hsucc hij.le
      · intro b hb
        rw [List.mem_ofFn] at hb
        obtain ⟨i, rfl⟩ := hb
        have := hβ (Fin.zero_le i.succ)
        linarith

end Fplll

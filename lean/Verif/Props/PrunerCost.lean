import Verif.Model.PrunerCost
import Verif.Props.PrunerProb

/-!
# C60: the estimated cost of an enumeration
-/

open Finset MeasureTheory

namespace Fplll
namespace Pruner

/-- the summand for level `i` -/
noncomputable def term (sh : Shape) (sym : ℝ) (bv : Vec) (b : Vec) (i : ℕ) : ℝ :=
  sh.R ^ (i + 1) * rv b i * bv (i + 1) * Real.sqrt (b (i / 2) ^ (1 + i)) * sh.ipv i * sym

theorem singleEvec_eq (sh : Shape) (sym : ℝ) (bv : Vec) (d : ℕ) (b det : Vec) :
    (singleEvec sh sym bv d b det).1 = ∑ i ∈ range (2 * d), term sh sym bv b i ∧
    (∀ i, i < 2 * d → (singleEvec sh sym bv d b det).2 (2 * d - (i + 1)) = term sh sym bv b i) ∧
    ∀ k, 2 * d ≤ k → (singleEvec sh sym bv d b det).2 k = det k := by
  have h := forUp_inv (fun i (s : ℝ × ℝ × Vec) => s.1 = ∑ k ∈ range i, term sh sym bv b k ∧ s.2.1 = sh.R ^ (i + 1) ∧
      (∀ k, k < i → s.2.2 (2 * d - (k + 1)) = term sh sym bv b k) ∧ ∀ k, 2 * d ≤ k → s.2.2 k = det k)
    (costStep sh sym bv d b) (Nat.zero_le (2 * d)) (0, sh.R, det)
    ⟨by simp, by simp, fun k hk => by omega, fun k _ => rfl⟩ (by
      intro i s _ hi ⟨h1, h2, h3, h4⟩
      have ht : s.2.1 * rv b i * bv (i + 1) * Real.sqrt (b (i / 2) ^ (1 + i)) * sh.ipv i * sym = term sh sym bv b i := by
        rw [h2]
        rfl
      refine ⟨?_, ?_, fun k hk => ?_, fun k hk => ?_⟩
      · simp only [costStep]
        rw [ht, h1, Finset.sum_range_succ]
      · simp only [costStep]
        rw [h2, ← pow_succ]
      · simp only [costStep]
        by_cases hki : k = i
        · subst hki
          rw [Function.update_self, ht]
        · rw [Function.update_of_ne (by omega)]
          exact h3 k (by omega)
      · simp only [costStep]
        rw [Function.update_of_ne (by omega)]
        exact h4 k hk)
  exact ⟨h.1, h.2.2.1, h.2.2.2⟩

/-- **C60** half vectors: the cost is the sum of the detailed costs. -/
theorem C60_sum (sh : Shape) (sym : ℝ) (bv : Vec) (d : ℕ) (b det : Vec) :
    (singleCost sh sym bv d d b det).1 = ∑ k ∈ range (2 * d), (singleCost sh sym bv d d b det).2 k := by
  unfold singleCost
  rw [if_pos rfl]
  obtain ⟨h1, h2, _⟩ := singleEvec_eq sh sym bv d b det
  rw [h1, ← Finset.sum_range_reflect]
  apply Finset.sum_congr rfl
  intro i hi
  rw [mem_range] at hi
  have := h2 (2 * d - 1 - i) (by omega)
  rw [show 2 * d - (2 * d - 1 - i + 1) = i by omega] at this
  exact this.symm

/-- **C60** full vectors: the cost is the mean of the costs for the lower and the upper half vector, but the detailed costs are
those of the upper one. -/
theorem C60_full (sh : Shape) (sym : ℝ) (bv : Vec) (d dn : ℕ) (hdn : dn ≠ d) (b det : Vec) :
    (singleCost sh sym bv d dn b det).1 = ((∑ i ∈ range (2 * d), term sh sym bv (fun i => b (2 * i)) i) +
      ∑ i ∈ range (2 * d), term sh sym bv (fun i => b (2 * i + 1)) i) / 2 ∧
    ∀ i, i < 2 * d → (singleCost sh sym bv d dn b det).2 (2 * d - (i + 1)) = term sh sym bv (fun i => b (2 * i + 1)) i := by
  unfold singleCost
  rw [if_neg hdn]
  simp only
  exact ⟨by rw [(singleEvec_eq _ _ _ _ _ _).1, (singleEvec_eq _ _ _ _ _ _).1], (singleEvec_eq _ _ _ _ _ _).2.1⟩

/-! ## Levels of even dimension -/

theorem loadShape_ipv (n d : ℕ) (gso : Vec) (radius : ℝ) {i : ℕ} (hi : i < 2 * d) :
    (loadShape n d gso radius).ipv i = 1 / ∏ k ∈ range (i + 1), Real.sqrt (gso (n - 1 - k) * normFactor n gso) := by
  have h := forUp_inv (fun i (s : ℝ × Vec) => s.1 = ∏ k ∈ range i, Real.sqrt (gso (n - 1 - k) * normFactor n gso) ∧
      ∀ m, m < i → s.2 m = 1 / ∏ k ∈ range (m + 1), Real.sqrt (gso (n - 1 - k) * normFactor n gso))
    (fun i (s : ℝ × Vec) => (s.1 * Real.sqrt (gso (n - 1 - i) * normFactor n gso),
      Function.update s.2 i (1 / (s.1 * Real.sqrt (gso (n - 1 - i) * normFactor n gso)))))
    (Nat.zero_le (2 * d)) (1, fun _ => 0) ⟨by simp, fun m hm => by omega⟩ (by
      intro i s _ hi ⟨h1, h2⟩
      refine ⟨?_, fun m hm => ?_⟩
      · simp only
        rw [h1, Finset.prod_range_succ]
      · simp only
        by_cases hmi : m = i
        · subst hmi
          rw [Function.update_self, h1, Finset.prod_range_succ]
        · rw [Function.update_of_ne hmi]
          exact h2 m (by omega))
  exact h.2 i hi

theorem cylinder_scale {d : ℕ} {β : Fin d → ℝ} (hβ : Monotone β) (h0 : ∀ i, 0 ≤ β i) {c : ℝ} (hc : 0 < c) :
    volume.real (cylinder d (fun i => c * β i) 0) = c ^ d * volume.real (cylinder d β 0) := by
  rw [(real_cylinder (fun i j hij => mul_le_mul_of_nonneg_left (hβ hij) hc.le) fun i => mul_nonneg hc.le (h0 i)).1,
    (real_cylinder hβ h0).1]
  have hmap : (List.ofFn fun i => c * β i) = (List.ofFn β).map (c * ·) := by
    rw [List.map_ofFn]
    rfl
  have := nested_scale c hc.ne' (List.ofFn β) 0
  rw [mul_zero, List.length_ofFn] at this
  rw [hmap, this]
  ring

theorem normFactor_pos (n : ℕ) (gso : Vec) : 0 < normFactor n gso := Real.exp_pos _

/-- **C60** what the detailed cost of a level of even dimension `2 (j + 1)` stands for: `sym` times the Gaussian heuristic for the
number of points of the projected lattice (of the last `2 (j + 1)` Gram-Schmidt vectors) in the cylinder intersection with squared
radii `radius · b k`, that is its volume divided by the covolume. -/
theorem C60_level {n d : ℕ} (hn : 2 * d ≤ n) {gso : Vec} (hg : ∀ k, k < n → 0 < gso k) {radius : ℝ} (hR : 0 < radius) (sym : ℝ)
    {bv : Vec} {b : Vec} (h : Mono d b) {j : ℕ} (hj : j < d)
    (hbv : bv (2 * j + 2) = Real.pi ^ (j + 1) / (j + 1).factorial) (det : Vec) :
    (singleCost (loadShape n d gso radius) sym bv d d b det).2 (2 * d - (2 * j + 2)) =
      sym * volume.real (cylinder (j + 1) (fun k => radius * b k) 0) / ∏ k ∈ range (2 * j + 2), Real.sqrt (gso (n - 1 - k)) := by
  unfold singleCost
  rw [if_pos rfl]
  have ht := (singleEvec_eq (loadShape n d gso radius) sym bv d b det).2.1 (2 * j + 1) (by omega)
  rw [show 2 * d - (2 * j + 1 + 1) = 2 * d - (2 * j + 2) by omega] at ht
  rw [ht]
  unfold term
  have hmj : Mono (j + 1) b := ⟨fun i hi => h.1 i (by omega), fun i k hik hk => h.2 i k hik (by omega)⟩
  have hbj : 0 < b j := h.1 j hj
  have hnf := normFactor_pos n gso
  have hrv : rv b (2 * j + 1) = relativeVolume (j + 1) b := by
    unfold rv
    rw [if_pos (by omega), show (2 * j + 1) / 2 + 1 = j + 1 by omega]
  have hrel := relVol_eq hmj (Nat.succ_pos j)
  rw [show j + 1 - 1 = j by omega] at hrel
  have hmono : Monotone fun i : Fin (j + 1) => b i := fun i k hik => hmj.2 i k hik k.2
  have hsc : volume.real (cylinder (j + 1) (fun i => b i / b j) 0) * b j ^ (j + 1) * radius ^ (j + 1) =
      volume.real (cylinder (j + 1) (fun k => radius * b k) 0) := by
    have h1 := cylinder_scale (d := j + 1) (β := fun i => b i / b j) (fun i k hik =>
      div_le_div_of_nonneg_right (hmono hik) hbj.le) (fun i => div_nonneg (hmj.1 i i.2).le hbj.le) (mul_pos hR hbj)
    have h2 : (fun i : Fin (j + 1) => radius * b j * (b i / b j)) = fun i : Fin (j + 1) => radius * b i := by
      funext i
      field_simp
    rw [h2] at h1
    rw [h1, mul_pow]
    ring
  have hsqrt : Real.sqrt (b ((2 * j + 1) / 2) ^ (1 + (2 * j + 1))) = b j ^ (j + 1) := by
    rw [show (2 * j + 1) / 2 = j by omega, show 1 + (2 * j + 1) = (j + 1) * 2 by omega, pow_mul, Real.sqrt_sq (by positivity)]
  have hRp : (loadShape n d gso radius).R ^ (2 * j + 1 + 1) = (radius * normFactor n gso) ^ (j + 1) := by
    show Real.sqrt (radius * normFactor n gso) ^ (2 * j + 1 + 1) = _
    rw [show 2 * j + 1 + 1 = 2 * (j + 1) by omega, pow_mul, Real.sq_sqrt (by positivity)]
  have hprod : (∏ k ∈ range (2 * j + 1 + 1), Real.sqrt (gso (n - 1 - k) * normFactor n gso)) =
      normFactor n gso ^ (j + 1) * ∏ k ∈ range (2 * j + 2), Real.sqrt (gso (n - 1 - k)) := by
    have : ∀ k ∈ range (2 * j + 2), Real.sqrt (gso (n - 1 - k) * normFactor n gso) =
        Real.sqrt (gso (n - 1 - k)) * Real.sqrt (normFactor n gso) := fun k hk => by
      rw [mem_range] at hk
      exact Real.sqrt_mul (hg _ (by omega)).le _
    rw [show 2 * j + 1 + 1 = 2 * j + 2 by omega, Finset.prod_congr rfl this, Finset.prod_mul_distrib, Finset.prod_const,
      Finset.card_range, show 2 * j + 2 = 2 * (j + 1) by omega, pow_mul, Real.sq_sqrt hnf.le]
    ring
  have hpos : 0 < ∏ k ∈ range (2 * j + 2), Real.sqrt (gso (n - 1 - k)) :=
    Finset.prod_pos fun k hk => Real.sqrt_pos.2 (hg _ (by rw [mem_range] at hk; omega))
  rw [loadShape_ipv n d gso radius (by omega), hprod, hrv, hrel, hsqrt, hRp,
    show 2 * j + 1 + 1 = 2 * j + 2 by omega, hbv, ← hsc, mul_pow]
  have := Real.pi_pos.ne'
  have hfac : ((j + 1).factorial : ℝ) ≠ 0 := by exact_mod_cast (j + 1).factorial_ne_zero
  field_simp

/-- **C60** less pruning never makes the cost of a level of even dimension smaller. -/
theorem C60_level_monotone {n d : ℕ} (hn : 2 * d ≤ n) {gso : Vec} (hg : ∀ k, k < n → 0 < gso k) {radius : ℝ} (hR : 0 < radius)
    {sym : ℝ} (hs : 0 ≤ sym) {bv : Vec} {b b' : Vec} (h : Mono d b) (h' : Mono d b') (hle : ∀ i, i < d → b i ≤ b' i)
    {j : ℕ} (hj : j < d) (hbv : bv (2 * j + 2) = Real.pi ^ (j + 1) / (j + 1).factorial) (det : Vec) :
    (singleCost (loadShape n d gso radius) sym bv d d b det).2 (2 * d - (2 * j + 2)) ≤
      (singleCost (loadShape n d gso radius) sym bv d d b' det).2 (2 * d - (2 * j + 2)) := by
  rw [C60_level hn hg hR sym h hj hbv det, C60_level hn hg hR sym h' hj hbv det]
  apply div_le_div_of_nonneg_right _ (Finset.prod_nonneg fun _ _ => Real.sqrt_nonneg _)
  apply mul_le_mul_of_nonneg_left _ hs
  refine measureReal_mono (cylinder_mono 0 fun i => mul_le_mul_of_nonneg_left (hle i (by omega)) hR.le) ?_
  exact (real_cylinder (d := j + 1) (β := fun i => radius * b' i) (r := 0) (fun i k hik =>
    mul_le_mul_of_nonneg_left (h'.2 i k hik (by omega)) hR.le) (fun i => mul_nonneg hR.le (h'.1 i (by omega)).le)).2

/-! ## Violations -/

noncomputable def oddLo : Vec := fun i => if i = 0 then 1 / 100 else if i = 1 then 1 / 10 else 1
noncomputable def oddHi : Vec := fun i => if i = 0 then 1 / 100 else 1

theorem rv_lo : rv oddLo 4 = Real.sqrt (0.19 * 0.005401) := by
  have h1 : relativeVolume 2 oddLo = 0.19 := by
    simp [relativeVolume, forDown, volStep, integratePoly, evalPoly, Function.update, oddLo]
    norm_num
  have h2 : relativeVolume 3 oddLo = 0.005401 := by
    simp [relativeVolume, forDown, volStep, integratePoly, evalPoly, Function.update, oddLo, Nat.factorial]
    norm_num
  unfold rv
  rw [if_neg (by norm_num), if_neg (by norm_num)]
  norm_num [h1, h2]

theorem rv_hi : rv oddHi 4 = Real.sqrt (0.0199 * 0.029701) := by
  have h1 : relativeVolume 2 oddHi = 0.0199 := by
    simp [relativeVolume, forDown, volStep, integratePoly, evalPoly, Function.update, oddHi]
    norm_num
  have h2 : relativeVolume 3 oddHi = 0.029701 := by
    simp [relativeVolume, forDown, volStep, integratePoly, evalPoly, Function.update, oddHi, Nat.factorial]
    norm_num
  unfold rv
  rw [if_neg (by norm_num), if_neg (by norm_num)]
  norm_num [h1, h2]

/-- **C60 violated** for levels of odd dimension, where the relative volume is interpolated: for each basis of dimension 6,
raising the second coefficient from 0.1 to 1 makes the cost of the level of dimension 5 smaller. -/
theorem C60_odd_level_not_monotone {sh : Shape} (hR : 0 < sh.R) (hi : 0 < sh.ipv 4) {sym : ℝ} (hs : 0 < sym) {bv : Vec}
    (hbv : 0 < bv 5) (det : Vec) :
    Mono 3 oddLo ∧ Mono 3 oddHi ∧ (∀ i, oddLo i ≤ oddHi i) ∧
    (singleCost sh sym bv 3 3 oddHi det).2 1 < (singleCost sh sym bv 3 3 oddLo det).2 1 := by
  refine ⟨⟨fun i _ => by unfold oddLo; split_ifs <;> norm_num, fun i j hij hj => ?_⟩,
    ⟨fun i _ => by unfold oddHi; split_ifs <;> norm_num, fun i j hij hj => ?_⟩, fun i => ?_, ?_⟩
  · unfold oddLo
    interval_cases j <;> interval_cases i <;> norm_num
  · unfold oddHi
    interval_cases j <;> interval_cases i <;> norm_num
  · unfold oddLo oddHi
    split_ifs <;> norm_num
  · unfold singleCost
    rw [if_pos rfl, if_pos rfl]
    have h1 := (singleEvec_eq sh sym bv 3 oddLo det).2.1 4 (by norm_num)
    have h2 := (singleEvec_eq sh sym bv 3 oddHi det).2.1 4 (by norm_num)
    norm_num at h1 h2
    rw [h1, h2]
    unfold term
    have e1 : oddLo (4 / 2) = 1 := by simp [oddLo]
    have e2 : oddHi (4 / 2) = 1 := by simp [oddHi]
    rw [e1, e2, rv_lo, rv_hi]
    have hlt : Real.sqrt (0.0199 * 0.029701) < Real.sqrt (0.19 * 0.005401) := Real.sqrt_lt_sqrt (by norm_num) (by norm_num)
    have hp : 0 < sh.R ^ (4 + 1) := by positivity
    simp only [one_pow, Real.sqrt_one, mul_one]
    have := mul_lt_mul_of_pos_right (mul_lt_mul_of_pos_right (mul_lt_mul_of_pos_right
      (mul_lt_mul_of_pos_left hlt hp) hbv) hi) hs
    exact this

/-- **C60 violated** for full vectors: the detailed costs do not add up to the cost (dimension 2, coefficients `(1, x)`, `x < 1`). -/
theorem C60_full_detail_violated {sh : Shape} (hR : 0 < sh.R) (h0 : 0 < sh.ipv 0) (h1 : 0 < sh.ipv 1) {sym : ℝ} (hs : 0 < sym)
    {bv : Vec} (hb1 : 0 < bv 1) (hb2 : 0 < bv 2) {x : ℝ} (hx0 : 0 < x) (hx : x < 1) (det : Vec) :
    (singleCost sh sym bv 1 2 (fun i => if i = 0 then x else 1) det).1 <
      ∑ k ∈ range 2, (singleCost sh sym bv 1 2 (fun i => if i = 0 then x else 1) det).2 k := by
  obtain ⟨hc, hd⟩ := C60_full sh sym bv 1 2 (by norm_num) (fun i => if i = 0 then x else 1) det
  have d0 := hd 0 (by norm_num)
  have d1 := hd 1 (by norm_num)
  norm_num at d0 d1
  have hsum : ∑ k ∈ range 2, (singleCost sh sym bv 1 2 (fun i => if i = 0 then x else 1) det).2 k =
      term sh sym bv (fun _ => 1) 1 + term sh sym bv (fun _ => 1) 0 := by
    rw [Finset.sum_range_succ, Finset.sum_range_one, d0, d1]
  rw [hc, hsum]
  have r1 : ∀ b : Vec, b 0 ≠ 0 → rv b 1 = 1 := by
    intro b hb
    unfold rv
    rw [if_pos (by norm_num)]
    simp [relativeVolume, forDown, volStep, integratePoly, evalPoly, Function.update, hb]
  have r0 : ∀ b : Vec, rv b 0 = 1 := fun b => by simp [rv]
  have hsx : Real.sqrt x < 1 := by rw [Real.sqrt_lt' one_pos]; simpa using hx
  have hlo0 : term sh sym bv (fun i => if 2 * i = 0 then x else 1) 0 < term sh sym bv (fun i => if 2 * i + 1 = 0 then x else 1) 0 := by
    unfold term
    rw [r0, r0]
    have : 0 < sh.R ^ (0 + 1) * 1 * bv (0 + 1) := by simpa using mul_pos hR hb1
    have k := mul_lt_mul_of_pos_right (mul_lt_mul_of_pos_right (mul_lt_mul_of_pos_left hsx this) h0) hs
    simpa using k
  have hlo1 : term sh sym bv (fun i => if 2 * i = 0 then x else 1) 1 < term sh sym bv (fun i => if 2 * i + 1 = 0 then x else 1) 1 := by
    unfold term
    rw [r1 _ (by simpa using hx0.ne'), r1 _ (by simp)]
    have hp : 0 < sh.R ^ (1 + 1) * 1 * bv (1 + 1) := by
      rw [mul_one]
      exact mul_pos (by positivity) hb2
    have hsq : Real.sqrt (x ^ (1 + 1)) < 1 := by
      rw [Real.sqrt_sq hx0.le]
      exact hx
    have k := mul_lt_mul_of_pos_right (mul_lt_mul_of_pos_right (mul_lt_mul_of_pos_left hsq hp) h1) hs
    simpa using k
  have hodd : (fun i : ℕ => if 2 * i + 1 = 0 then x else (1 : ℝ)) = fun _ => 1 := by
    funext i
    simp
  have hr : range (2 * 1) = range 2 := rfl
  rw [hodd] at hlo0 hlo1 ⊢
  rw [hr, Finset.sum_range_succ, Finset.sum_range_one, Finset.sum_range_succ, Finset.sum_range_one]
  linarith

theorem relVol_congr {rd : ℕ} {b b' : Vec} (h : ∀ i, i < rd → b i = b' i) : relativeVolume rd b = relativeVolume rd b' := by
  rw [C45_nested_integral, C45_nested_integral]
  congr 2
  unfold radii
  congr 1
  funext i
  rw [h i i.2, h (rd - 1) (by have := i.2; omega)]

theorem term_congr (sh : Shape) (sym : ℝ) (bv : Vec) {b b' : Vec} {d i : ℕ} (hi : i < 2 * d) (h : ∀ i, i < d → b i = b' i) :
    term sh sym bv b i = term sh sym bv b' i := by
  have h1 : rv b i = rv b' i := by
    unfold rv
    split_ifs
    · exact relVol_congr fun k hk => h k (by omega)
    · rfl
    · rw [relVol_congr fun k hk => h k (by omega), relVol_congr (rd := i / 2 + 1) fun k hk => h k (by omega)]
  unfold term
  rw [h1, h (i / 2) (by omega)]

/-- **C60** the public function looks at every second coefficient only: coefficients that agree at `n - 1, n - 3, …` get the same
cost, although the enumeration regions differ (`measure_metric` and `repeated_enum_cost` use all of them). -/
theorem C60_public_ignores (c : Cfg) (sh : Shape) (sym : ℝ) (bv pr pr' det : Vec)
    (h : ∀ i, i < c.d → pr (c.n - 1 - 2 * i) = pr' (c.n - 1 - 2 * i)) :
    (publicCost c sh sym bv pr det).1 = (publicCost c sh sym bv pr' det).1 := by
  unfold publicCost singleCost
  rw [if_pos rfl, if_pos rfl, (singleEvec_eq _ _ _ _ _ _).1, (singleEvec_eq _ _ _ _ _ _).1]
  apply Finset.sum_congr rfl
  intro i hi
  rw [mem_range] at hi
  apply term_congr _ _ _ hi
  intro k hk
  unfold load
  rw [if_pos rfl, show c.n - 2 * k - 1 = c.n - 1 - 2 * k by omega]
  exact h k hk

/-- the hypotheses of `C60_level` hold for the true volume of the ball of dimension 2 and a basis shape with pruning -/
example : Mono 2 (fun i => if i = 0 then 1 / 2 else 1) ∧ (∀ k, k < 4 → 0 < (fun k : ℕ => (2 : ℝ) ^ k) k) :=
  ⟨⟨fun i _ => by dsimp only; split_ifs <;> norm_num, fun i j hij hj => by interval_cases j <;> interval_cases i <;> norm_num⟩,
    fun k _ => by positivity⟩

end Pruner
end Fplll

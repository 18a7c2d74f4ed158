import Verif.Proofs.PrunerBest
import Verif.Props.Pruner
import Verif.Props.PrunerCost

/-!
# C61: the optimiser returns nothing worse than it started with

"Worse" is measured by fplll's own `target_function`.
-/

open Finset

namespace Fplll
namespace Pruner

open Function (update update_self update_of_ne)

/-! ## The real target function -/

theorem evec_congr {dx : ℝ} {d : ℕ} {b b' : Vec} (h : ∀ i, i < d → b i = b' i) :
    svpProbabilityEvec dx d b = svpProbabilityEvec dx d b' := by
  unfold svpProbabilityEvec
  dsimp only
  rw [relVol_congr h, relVol_congr (b := fun i => if b i / (dx * dx) > 1 then 1 else b i / (dx * dx))
    (b' := fun i => if b' i / (dx * dx) > 1 then 1 else b' i / (dx * dx)) (fun i hi => by simp only [h i hi])]

theorem expectedEvec_congr (D : Data) {b b' : Vec} (hd : 0 < D.d) (h : ∀ i, i < D.d → b i = b' i) :
    expectedEvec D b = expectedEvec D b' := by
  unfold expectedEvec
  dsimp only
  rw [relVol_congr h, h _ (by omega)]

theorem single_congr (D : Data) {b b' : Vec} (det det' : Vec) (h : ∀ i, i < D.d → b i = b' i) :
    (singleEvec D.sh D.sym D.bv D.d b det).1 = (singleEvec D.sh D.sym D.bv D.d b' det').1 := by
  rw [(singleEvec_eq _ _ _ _ _ _).1, (singleEvec_eq _ _ _ _ _ _).1]
  exact Finset.sum_congr rfl fun i hi => term_congr _ _ _ (mem_range.1 hi) h

theorem target_congr (D : Data) {dn dn' : ℕ} {b b' : Vec}
    (h1 : svpProbability 0.995 D.d dn b = svpProbability 0.995 D.d dn' b') (h2 : expected D dn b = expected D dn' b')
    (h3 : (singleCost D.sh D.sym D.bv D.d dn b (fun _ => 0)).1 = (singleCost D.sh D.sym D.bv D.d dn' b' (fun _ => 0)).1) :
    targetFunction D dn b = targetFunction D dn' b' := by
  unfold targetFunction trials
  rw [h1, h2, h3]

/-- fplll's cost functions read `dn` entries, treat a full vector of equal pairs as the half vector, and have gradient 0 in the last
coordinate -/
theorem real_plain (D : Data) (hn : 2 ≤ D.n) (c : Cfg) (hc : c.n = D.n) (mn : Vec) (tooMany : ℕ → Vec → Bool) :
    Plain c (realOracle D mn tooMany) := by
  have hcd : c.d = D.d := by unfold Cfg.d Data.d; rw [hc]
  have hd0 : 0 < D.d := by unfold Data.d; omega
  have hne : D.n ≠ D.d := by unfold Data.d; omega
  refine ⟨fun dn b b' h hdn => ?_, fun b b' h => ?_, fun dn b e => ?_⟩
  · rw [hcd, hc] at hdn
    show targetFunction D dn b = targetFunction D dn b'
    rcases hdn with rfl | rfl
    · refine target_congr D ?_ ?_ ?_
      · unfold svpProbability; rw [if_pos rfl, if_pos rfl]; exact evec_congr h
      · unfold expected; rw [if_pos rfl, if_pos rfl]; exact expectedEvec_congr D hd0 h
      · unfold singleCost; rw [if_pos rfl, if_pos rfl]; exact single_congr D _ _ h
    · have hlo : ∀ i, i < D.d → b (2 * i) = b' (2 * i) := fun i hi => h _ (by unfold Data.d at hi; omega)
      have hup : ∀ i, i < D.d → b (2 * i + 1) = b' (2 * i + 1) := fun i hi => h _ (by unfold Data.d at hi; omega)
      refine target_congr D ?_ ?_ ?_
      · unfold svpProbability; rw [if_neg hne, if_neg hne, evec_congr hlo, evec_congr hup]
      · unfold expected; rw [if_neg hne, if_neg hne, expectedEvec_congr D hd0 hlo, expectedEvec_congr D hd0 hup]
      · unfold singleCost
        rw [if_neg hne, if_neg hne]
        dsimp only
        rw [single_congr D _ (fun _ => 0) hlo,
          single_congr D _ (singleEvec D.sh D.sym D.bv D.d (fun i => b' (2 * i)) fun _ => 0).2 hup]
  · rw [hcd] at h ⊢
    rw [hc]
    show targetFunction D D.n b = targetFunction D D.d b'
    have hlo : ∀ i, i < D.d → b (2 * i) = b' i := fun i hi => by
      rw [h (2 * i) (by omega), show 2 * i / 2 = i by omega]
    have hup : ∀ i, i < D.d → b (2 * i + 1) = b' i := fun i hi => by
      rw [h (2 * i + 1) (by omega), show (2 * i + 1) / 2 = i by omega]
    refine target_congr D ?_ ?_ ?_
    · unfold svpProbability
      rw [if_neg hne, if_pos rfl, evec_congr hlo, evec_congr hup]
      ring
    · unfold expected
      rw [if_neg hne, if_pos rfl, expectedEvec_congr D hd0 hlo, expectedEvec_congr D hd0 hup]
      ring
    · unfold singleCost
      rw [if_neg hne, if_pos rfl]
      dsimp only
      rw [single_congr D _ (fun _ => 0) hlo, single_congr D _ (fun _ => 0) hup]
      ring
  · show targetGradient D mn dn b e (dn - 1) = 0
    unfold targetGradient
    rw [if_pos rfl]

/-! ## Never worse -/

theorem greedy_last (c : Cfg) (hn : 4 ≤ c.n) (O : Oracle) (fuel : ℕ) : (greedy c O fuel).All fun b => b (c.d - 1) = 1 := by
  unfold greedy
  have h2 : 2 ≤ c.d := by simp only [Cfg.d]; omega
  obtain ⟨m, hm⟩ : ∃ m, c.d - 1 = m + 1 := ⟨c.d - 2, by omega⟩
  rw [hm]
  have := greedyFor_ok O fuel m
  revert this
  cases greedyFor O fuel (m + 1) (fun _ => 1) with
  | ok b => exact fun hb => GInv.rest hb (m + 1) (by omega)
  | thrown => exact id
  | stuck => exact id

/-- the half vector the optimisation starts with: the one given, or that of `greedy` -/
def Starts (c : Cfg) (O : Oracle) (fuel : ℕ) (pr b0 : Vec) : Prop :=
  if c.fromInput = true then b0 = load c c.d pr ∧ b0 (c.d - 1) = 1 ∧ Valid c.n pr else greedy c O fuel = .ok b0

/-- **C61** `optimize_coefficients_cost_vary_prob` never returns coefficients whose cost is larger than that of the half vector it
starts with, for all cost functions of the kind fplll has.  With `PRUNER_START_FROM_INPUT` the input has to be valid and its last half
coefficient 1; with `PRUNER_NELDER_MEAD` the start has to satisfy the lower bounds `min_pruning_coefficients` (otherwise the first
`enforce` raises it to them). -/
theorem C61_never_worse (c : Cfg) (hn : 4 ≤ c.n) {O Omin : Oracle} (hO : Plain c O) (fuel : ℕ) {pr pr' b0 : Vec}
    (hs : Starts c O fuel pr b0)
    (hnm : c.nelderMead = true → ∀ p, preparation c O Omin fuel pr = .ok p → ∀ k, k < c.d → p.1 k ≤ b0 k)
    (h : varyProb c O Omin fuel pr = .ok pr') : O.cost c.n (load c c.n pr') ≤ O.cost c.d b0 := by
  have hn2 : 2 ≤ c.n := by omega
  have hd : Dim c c.d := ⟨hn2, Or.inl rfl⟩
  have hb0 : (if c.fromInput = true then .ok (load c c.d pr) else greedy c O fuel : Res Vec) = .ok b0 ∧ b0 (c.d - 1) = 1 ∧
      (c.fromInput = true → VP c.n pr) ∧ VB c.d b0 := by
    unfold Starts at hs
    by_cases hf : c.fromInput = true
    · rw [if_pos hf] at hs ⊢
      obtain ⟨h1, h2, h3⟩ := hs
      have hv := (valid_iff _ _).1 h3
      exact ⟨by rw [h1], h2, fun _ => hv, by rw [h1]; exact load_ok hd hv⟩
    · rw [if_neg hf] at hs ⊢
      have h1 := greedy_last c hn O fuel
      have h2 := greedy_ok c hn2 O fuel
      rw [hs] at h1 h2
      exact ⟨hs, h1, fun h => (hf h).elim, h2⟩
  obtain ⟨hst, hl, hin, hvb⟩ := hb0
  unfold varyProb at h
  obtain ⟨p, hp, h⟩ := bind_ok h
  have hpok := preparation_ok hn2 O Omin fuel hin
  rw [hp] at hpok
  obtain ⟨hmn, -, -⟩ := hpok
  have hp2 : p.2 = save c c.d b0 pr := by
    unfold preparation at hp
    rw [hst] at hp
    obtain ⟨b, hb, hp⟩ := bind_ok hp
    cases hb
    obtain ⟨mn, -, hp⟩ := bind_ok hp
    cases hp
    rfl
  have hle : ∀ i, i < c.d → load c c.d p.2 i = b0 i := fun i hi => by
    rw [hp2]
    exact load_half_save_half hn2 b0 pr hi
  have hdpos := hd.pos
  have hcost : O.cost c.d (load c c.d p.2) = O.cost c.d b0 := hO.loc _ _ _ hle (Or.inl rfl)
  obtain ⟨pr1, h1, h⟩ := bind_ok h
  have hcore := core_half hn hO hmn fuel (pr := p.2) (by rw [hle _ (by omega)]; exact hl) (fun hNM =>
    ⟨⟨fun i hi => by rw [hle i hi]; exact hvb.pos i hi, fun i hi => by rw [hle i hi]; exact hvb.le i hi,
      fun i hi => by rw [hle i (by omega), hle (i + 1) hi]; exact hvb.mono i hi⟩,
      fun i hi hk => by
        rw [if_pos rfl, Nat.div_one] at hk ⊢
        rw [hle i hi]
        exact hnm hNM p hp i hi,
      Or.inl (by rw [hle _ (by omega), hl]; norm_num)⟩)
  rw [h1] at hcore
  obtain ⟨b, pr2, hpr1, hbl, hbc⟩ := hcore
  rw [hcost] at hbc
  have hfull : O.cost c.n (load c c.n pr1) ≤ O.cost c.d b0 := by
    rw [hO.dup (load c c.n pr1) b (fun i hi => by rw [hpr1]; exact load_full_save_half hn2 hbl pr2 hi)]
    exact hbc
  have hlast : load c c.n pr1 (c.n - 1) = 1 := by rw [hpr1]; exact load_full_last hn2 (Or.inl rfl) _ _
  dsimp only at h
  split_ifs at h
  · cases h
    rw [hO.loc _ _ (load c c.n pr1) (fun i hi => load_save_full hn2 hlast pr1 hi) (Or.inr rfl)]
    exact hfull
  · exact varyTours_best hn2 hO fuel _ _ _ _ _ _ hlast rfl hfull pr' h

/-- **C61** for fplll's own target function, for both metrics. -/
theorem C61_never_worse_real (D : Data) (c : Cfg) (hc : c.n = D.n) (hn : 4 ≤ c.n) {Omin : Oracle} (mn : Vec)
    (tooMany : ℕ → Vec → Bool) (fuel : ℕ) {pr pr' b0 : Vec} (hs : Starts c (realOracle D mn tooMany) fuel pr b0)
    (hnm : c.nelderMead = true →
      ∀ p, preparation c (realOracle D mn tooMany) Omin fuel pr = .ok p → ∀ k, k < c.d → p.1 k ≤ b0 k)
    (h : varyProb c (realOracle D mn tooMany) Omin fuel pr = .ok pr') :
    targetFunction D D.n (load c c.n pr') ≤ targetFunction D D.d b0 := by
  have := C61_never_worse c hn (real_plain D (by omega) c hc mn tooMany) fuel hs hnm h
  rw [hc] at this
  rw [show D.d = c.d by unfold Cfg.d Data.d; rw [hc]]
  exact hc ▸ this

/-- the hypotheses of `C61_never_worse` hold in a run of fplll's pruner that starts from given coefficients -/
example (D : Data) (hD : D.n = 4) : ∃ pr' b0,
    Starts ⟨4, true, false, false, true, false, 0.5⟩ (realOracle D (fun _ => 0) fun _ _ => false) 1
      (fun i => if i < 2 then 1 else 0.5) b0 ∧
    varyProb ⟨4, true, false, false, true, false, 0.5⟩ (realOracle D (fun _ => 0) fun _ _ => false)
      (realOracle D (fun _ => 0) fun _ _ => false) 1 (fun i => if i < 2 then 1 else 0.5) = .ok pr' ∧
    targetFunction D 4 (load ⟨4, true, false, false, true, false, 0.5⟩ 4 pr') ≤ targetFunction D 2 b0 := by
  set c : Cfg := ⟨4, true, false, false, true, false, 0.5⟩ with hc
  have hs : Starts c (realOracle D (fun _ => 0) fun _ _ => false) 1 (fun i => if i < 2 then 1 else 0.5)
      (load c c.d fun i => if i < 2 then 1 else 0.5) := by
    unfold Starts
    rw [if_pos rfl]
    refine ⟨rfl, by simp [load, hc, Cfg.d], by norm_num, fun i _ => by dsimp only; split_ifs <;> norm_num, fun i k hik _ => ?_⟩
    dsimp only
    split_ifs <;> first | omega | norm_num
  obtain ⟨pr', hpr⟩ : ∃ pr', varyProb c (realOracle D (fun _ => 0) fun _ _ => false)
      (realOracle D (fun _ => 0) fun _ _ => false) 1 (fun i => if i < 2 then 1 else 0.5) = .ok pr' := ⟨_, rfl⟩
  refine ⟨pr', _, hs, hpr, ?_⟩
  have := C61_never_worse_real D c hD.symm (le_refl 4) _ _ 1 hs (fun h => by cases h) hpr
  rw [hD, show D.d = 2 by unfold Data.d; rw [hD]] at this
  exact this

/-! ## expected_solutions -/

theorem relVol_pos {d : ℕ} {b : Vec} (h : Mono d b) (hd : 0 < d) : 0 < relativeVolume d b := by
  rw [relVol_eq h hd]
  have hl := h.last hd
  have h0 : 0 < b 0 / b (d - 1) := div_pos (h.1 0 hd) hl
  refine mul_pos ?_ (by positivity)
  have hfin := (real_cylinder (d := d) (β := fun i => b i / b (d - 1)) (r := 0) (fun i j hij =>
    div_le_div_of_nonneg_right (h.2 i j hij j.2) hl.le) (fun i => div_nonneg (h.1 i i.2).le hl.le)).2
  refine ENNReal.toReal_pos (ne_of_gt ?_) hfin
  have hsub : {z : Fin d → ℝ × ℝ | ∑ i, ((z i).1 ^ 2 + (z i).2 ^ 2) < b 0 / b (d - 1)} ⊆
      cylinder d (fun i => b i / b (d - 1)) 0 := by
    intro z hz k
    rw [Set.mem_ofPred_eq] at hz
    have h1 : ∑ i : Fin d, (if i ≤ k then (z i).1 ^ 2 + (z i).2 ^ 2 else 0) ≤ ∑ i, ((z i).1 ^ 2 + (z i).2 ^ 2) := by
      apply Finset.sum_le_sum
      intro i _
      split_ifs
      · exact le_rfl
      · positivity
    have h2 : b 0 / b (d - 1) ≤ b k / b (d - 1) := div_le_div_of_nonneg_right (h.2 0 k (Nat.zero_le _) k.2) hl.le
    linarith
  refine lt_of_lt_of_le ?_ (MeasureTheory.measure_mono hsub)
  apply IsOpen.measure_pos
  · exact isOpen_lt (by fun_prop) (by fun_prop)
  · exact ⟨0, by simpa using h0⟩

/-- **C60** `expected_solutions` of a half vector is the detailed cost of the last level (which `C60_level` relates to a volume). -/
theorem C60_expected (D : Data) (hd : 0 < D.d) {b : Vec} (h : Mono D.d b) (hR : 0 < D.sh.R) (hi : 0 < D.sh.ipv (2 * D.d - 1))
    (hs : 0 < D.sym) (hb : 0 < D.bv (2 * D.d)) (det : Vec) :
    expected D D.d b = (singleCost D.sh D.sym D.bv D.d D.d b det).2 0 := by
  have ht := (singleEvec_eq D.sh D.sym D.bv D.d b det).2.1 (2 * D.d - 1) (by omega)
  rw [show 2 * D.d - (2 * D.d - 1 + 1) = 0 by omega] at ht
  unfold singleCost expected
  rw [if_pos rfl, if_pos rfl, ht]
  unfold expectedEvec term
  dsimp only
  have hl : 0 < b (D.d - 1) := h.last hd
  have hidx : (2 * D.d - 1) / 2 = D.d - 1 := by omega
  have hrv : rv b (2 * D.d - 1) = relativeVolume D.d b := by
    unfold rv
    rw [if_pos (by omega), hidx, show D.d - 1 + 1 = D.d by omega]
  rw [mul_comm D.d 2, hidx, hrv, show 2 * D.d - 1 + 1 = 2 * D.d by omega, show 1 + (2 * D.d - 1) = 2 * D.d by omega]
  have hpow : Real.exp ((Real.log D.sh.R + Real.log (b (D.d - 1)) / 2) * ((2 * D.d : ℕ) : ℝ)) =
      D.sh.R ^ (2 * D.d) * b (D.d - 1) ^ D.d := by
    rw [mul_comm, Real.exp_nat_mul, Real.exp_add, Real.exp_log hR, mul_pow]
    congr 1
    rw [pow_mul, ← Real.exp_nat_mul]
    push_cast
    rw [show (2 : ℝ) * (Real.log (b (D.d - 1)) / 2) = Real.log (b (D.d - 1)) by ring, Real.exp_log hl]
  have hsq : Real.sqrt (b (D.d - 1) ^ (2 * D.d)) = b (D.d - 1) ^ D.d := by
    rw [mul_comm 2, pow_mul, Real.sqrt_sq (by positivity)]
  rw [Real.exp_add, Real.exp_add, Real.exp_add, Real.exp_add, hpow, Real.exp_log (relVol_pos h hd), Real.exp_log hb, Real.exp_log hi,
    Real.exp_log hs, hsq]
  ring

/-! ## The number of trials -/

/-- **C61** the number of trials of the metric probability is the least real number `t ≥ 1` for which `t` independent enumerations
with success probability `p` together succeed with probability at least `target`. -/
theorem C61_trials (D : Data) (hp : D.prob = true) {dn : ℕ} {b : Vec} (h0 : 0 < svpProbability 0.995 D.d dn b)
    (h1 : svpProbability 0.995 D.d dn b < 1) (ht1 : D.target < 1) :
    IsLeast {t : ℝ | 1 ≤ t ∧ D.target ≤ 1 - (1 - svpProbability 0.995 D.d dn b) ^ t} (trials D dn b) := by
  unfold trials
  rw [if_pos hp]
  dsimp only
  set q := 1 - svpProbability 0.995 D.d dn b with hq
  have hq0 : 0 < q := by linarith
  have hq1 : q < 1 := by linarith
  have hlq : Real.log q < 0 := Real.log_neg hq0 hq1
  have hu : 0 < 1 - D.target := by linarith
  have key : ∀ t : ℝ, D.target ≤ 1 - q ^ t ↔ Real.log (1 - D.target) / Real.log q ≤ t := by
    intro t
    rw [div_le_iff_of_neg hlq, ← Real.log_rpow hq0, Real.log_le_log_iff (Real.rpow_pos_of_pos hq0 t) hu]
    constructor <;> intro h <;> linarith
  constructor
  · rw [Set.mem_ofPred_eq, key]
    split_ifs with h
    · exact ⟨le_rfl, h.le⟩
    · exact ⟨not_lt.1 h, le_rfl⟩
  · rintro t ⟨h2, h3⟩
    rw [key] at h3
    split_ifs
    · exact h2
    · exact h3

/-- **C61** `repeated_enum_cost` is the target function for the metric probability. -/
theorem C61_repeated (D : Data) (hp : D.prob = true) (dn : ℕ) (b : Vec) : repeatedCost D dn b = targetFunction D dn b := by
  unfold repeatedCost targetFunction trials
  simp only [if_pos hp]

/-- **C61 violated** for the metric of expected solutions: `repeated_enum_cost` (public, pruner.h:568) uses `1 / expected`
trials where `target_function`, which was optimised, uses `target / expected`; for each target above one the reported cost of an
enumeration expecting fewer than one solution is too small. -/
theorem C61_repeated_violated (D : Data) (hp : D.prob = false) (ht : 1 < D.target) {dn : ℕ} {b : Vec} (h0 : 0 < expected D dn b)
    (h1 : expected D dn b ≤ 1) (hs : 0 < (singleCost D.sh D.sym D.bv D.d dn b (fun _ => 0)).1) (hpp : 0 ≤ D.preproc) :
    repeatedCost D dn b < targetFunction D dn b := by
  have hpn : ¬ D.prob = true := by rw [hp]; exact Bool.false_ne_true
  have h2 : 1 ≤ 1 / expected D dn b := by rwa [le_div_iff₀ h0, one_mul]
  have h3 : 1 / expected D dn b < D.target / expected D dn b := div_lt_div_of_pos_right ht h0
  unfold repeatedCost targetFunction trials
  simp only [if_neg hpn, if_neg (not_lt.2 h2), if_neg (not_lt.2 (h2.trans h3.le))]
  have := mul_lt_mul_of_pos_left h3 hs
  have := mul_le_mul_of_nonneg_left h3.le hpp
  linarith

/-! ## Violations -/

/-- **C61 violated**: pruner_optimize_tc.cpp:443 says "Make the tree width as a parabola, with maximum at n/2", but the summand for the
parabola is an integer division and always 0: the goal is the same on all levels. -/
theorem C61_goal_flat_violated {n j : ℕ} (hn : 2 ≤ n) (hj : j < n) : goalFactor n j = 1 / (3 * n) := by
  unfold goalFactor
  have : 4 * j * (n - j) / (n * n * n) = 0 := by
    rw [Nat.div_eq_zero_iff]
    right
    obtain ⟨k, rfl⟩ := Nat.exists_eq_add_of_lt hj
    rw [show j + k + 1 - j = k + 1 by omega]
    have h1 : 4 * j * (k + 1) ≤ (j + k + 1) * (j + k + 1) := by
      zify
      nlinarith [sq_nonneg ((j : ℤ) - (k + 1))]
    have h2 : (j + k + 1) * (j + k + 1) < (j + k + 1) * (j + k + 1) * (j + k + 1) := by
      have : 0 < (j + k + 1) * (j + k + 1) := by positivity
      nlinarith
    omega
  rw [this]
  simp

/-- half vectors `(x, y)`: the probability -/
theorem prob_two {x y : ℝ} {b : Vec} (h0 : b 0 = x) (h1 : b 1 = y) (hx2 : x ≤ 0.9) (hy : 0.995 ≤ y) :
    svpProbabilityEvec 0.995 2 b =
      (0.995 ^ 4 * (2 * (x / 0.995 ^ 2) - (x / 0.995 ^ 2) ^ 2) - (2 * (x / y) - (x / y) ^ 2)) / (0.995 ^ 4 - 1) := by
  have hv : ∀ c : Vec, c 1 ≠ 0 → relativeVolume 2 c = 2 * (c 0 / c 1) - (c 0 / c 1) ^ 2 := by
    intro c hc
    simp [relativeVolume, forDown, volStep, integratePoly, evalPoly, Function.update, div_self hc]
    ring
  unfold svpProbabilityEvec
  dsimp only
  have hb1 : b 1 / (0.995 * 0.995) > 1 := by
    rw [h1, gt_iff_lt, lt_div_iff₀ (by norm_num)]
    linarith
  have hb0 : ¬ b 0 / (0.995 * 0.995) > 1 := by
    rw [h0, gt_iff_lt, not_lt, div_le_iff₀ (by norm_num)]
    linarith
  rw [hv b (by rw [h1]; linarith), hv (fun i => if b i / (0.995 * 0.995) > 1 then 1 else b i / (0.995 * 0.995)) (by
    rw [if_pos hb1]; exact one_ne_zero)]
  rw [if_pos hb1, if_neg hb0, h0, h1, div_one]
  norm_num

/-- agreement on the four entries -/
def Four (b : Vec) (x y : ℝ) : Prop := b 0 = x ∧ b 1 = x ∧ b 2 = y ∧ b 3 = y

theorem four_at {b : Vec} {x y : ℝ} (h : Four b x y) {i : ℕ} (hi : i < 4) : b i = if i < 2 then x else y := by
  obtain ⟨h0, h1, h2, h3⟩ := h
  interval_cases i <;> simp [*]

theorem prob_four {b : Vec} {x y : ℝ} (h : Four b x y) (hx2 : x ≤ 0.9) (hy : 0.995 ≤ y) :
    svpProbability 0.995 2 4 b =
      (0.995 ^ 4 * (2 * (x / 0.995 ^ 2) - (x / 0.995 ^ 2) ^ 2) - (2 * (x / y) - (x / y) ^ 2)) / (0.995 ^ 4 - 1) := by
  obtain ⟨h0, h1, h2, h3⟩ := h
  unfold svpProbability
  rw [if_neg (by norm_num), prob_two (b := fun i => b (2 * i)) h0 h2 hx2 hy,
    prob_two (b := fun i => b (2 * i + 1)) h1 h3 hx2 hy]
  ring

/-- **C61 violated**: `optimize_coefficients_local_adjust_prob` may run forever.  Dimension 4, metric probability, target 0.00055, lower
bounds not above the coefficients: from `(0.0006, 0.0006, 1, 1)` (in the internal order) the probability is more than 5% above the
target, one step down gives `(0.0005, 0.0005, 0.9999, 0.9999)` and a probability more than 5% below it, one step up gives the first
vector again.  The test for no change compares with the last vector only, and `tours` is counted but not used. -/
theorem C61_adjust_hangs {c : Cfg} (hn : c.n = 4) (ht : c.target = 0.00055) {O : Oracle}
    (hO : ∀ b, O.metric 4 b = svpProbability 0.995 2 4 b) {mn : Vec} (hm0 : mn 0 ≤ 0.0005) (hm1 : mn 1 ≤ 0.9999) :
    ∀ fuel b, Four b 0.0006 1 ∨ Four b 0.0005 0.9999 → adjustLoop c O mn fuel b = .stuck := by
  have hd : c.d = 2 := by unfold Cfg.d; rw [hn]
  have hen : ∀ (b : Vec) (x y : ℝ), Four b x y → 0.0005 ≤ x → x ≤ 0.9 → 0.9999 ≤ y → y ≤ 1 →
      Four (enforce c.d mn c.n b 0).2 x y := by
    intro b x y h hx1 hx2 hy1 hy2
    rw [hd, hn]
    have := (enforce_status 2 mn 4 (by norm_num) b (fun i hi => by
        rw [four_at h hi]; split_ifs <;> linarith) (fun i hi => by
        rw [four_at h (by omega), four_at h hi]
        split_ifs <;> linarith) (fun i hi _ => by
        rw [four_at h hi, if_neg (by norm_num : ¬ (4 = 2))]
        interval_cases i <;> norm_num <;> linarith) (Or.inl (by
        rw [four_at h (by norm_num), if_neg (by norm_num)]; linarith))).2
    refine ⟨?_, ?_, ?_, ?_⟩ <;> rw [this _ (by norm_num)]
    exacts [h.1, h.2.1, h.2.2.1, h.2.2.2]
  intro fuel
  induction fuel with
  | zero => intros; rfl
  | succ f ih =>
    rintro b (h | h)
    · have hp := prob_four h (by norm_num) (by norm_num)
      have hr : 1.05 < O.metric c.n b / c.target := by
        rw [hn, hO, hp, ht]
        norm_num
      have h4 := hen (fun i => if b i - 0.0001 < 0.0001 then 0.0001 else b i - 0.0001) 0.0005 0.9999 (by
        obtain ⟨h0, h1, h2, h3⟩ := h
        refine ⟨?_, ?_, ?_, ?_⟩ <;> simp only [h0, h1, h2, h3] <;> norm_num) (by norm_num) (by norm_num) (by norm_num) (by norm_num)
      rw [adjustLoop]
      dsimp only
      rw [if_neg (fun h => by linarith [h.1]), if_neg (show ¬ O.metric c.n b / c.target < 1 by linarith)]
      rw [if_neg (fun hall => by
        have := hall 0 (by omega)
        rw [h4.1, h.1] at this
        norm_num at this)]
      exact ih _ (Or.inr h4)
    · have hp := prob_four h (by norm_num) (by norm_num)
      have hr : O.metric c.n b / c.target < 0.95 := by
        rw [hn, hO, hp, ht]
        norm_num
      have h4 := hen (fun i => if b i + 0.0001 ≥ 1 then 1 else b i + 0.0001) 0.0006 1 (by
        obtain ⟨h0, h1, h2, h3⟩ := h
        refine ⟨?_, ?_, ?_, ?_⟩ <;> simp only [h0, h1, h2, h3] <;> norm_num) (by norm_num) (by norm_num) (by norm_num) (by norm_num)
      rw [adjustLoop]
      dsimp only
      rw [if_neg (fun h => by linarith [h.2]), if_pos (show O.metric c.n b / c.target < 1 by linarith)]
      rw [if_neg (fun hall => by
        have := hall 0 (by omega)
        rw [h4.1, h.1] at this
        norm_num at this)]
      exact ih _ (Or.inl h4)

/-- `optimize_coefficients_local_adjust_prob` on valid coefficients that make it run forever, with fplll's own metric -/
theorem C61_adjust_hangs_valid {D : Data} (hD : D.n = 4) (hprob : D.prob = true) {c : Cfg} (hn : c.n = 4) (ht : c.target = 0.00055)
    {mn mn' : Vec} {tooMany : ℕ → Vec → Bool} (hm0 : mn 0 ≤ 0.0005) (hm1 : mn 1 ≤ 0.9999) :
    Valid 4 (fun i => if i < 2 then 1 else 0.0006) ∧
    ∀ fuel, adjustProb c (realOracle D mn' tooMany) mn fuel (fun i => if i < 2 then 1 else 0.0006) = .stuck := by
  refine ⟨⟨by norm_num, fun i _ => by dsimp only; split_ifs <;> norm_num, fun i k hik _ => by
    dsimp only
    split_ifs <;> first | omega | norm_num⟩, fun fuel => ?_⟩
  have hne : ¬ c.n = c.d := by unfold Cfg.d; omega
  unfold adjustProb
  rw [C61_adjust_hangs hn ht (O := realOracle D mn' tooMany) (fun b => by
    show measure D 4 b = _
    unfold measure
    rw [if_pos hprob]
    unfold Data.d
    rw [hD]) hm0 hm1 fuel _ (Or.inl ⟨?_, ?_, ?_, ?_⟩)]
  · rfl
  all_goals
    unfold load
    rw [if_neg hne, hn]
    norm_num

end Pruner
end Fplll

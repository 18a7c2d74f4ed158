import Mathlib.MeasureTheory.Measure.Lebesgue.VolumeOfBalls
import Verif.Model.Volume
import Verif.Proofs.PiDigits
import Verif.Props.PrunerCost

/-!
# C88: the tables of the pruner and the volumes of `util.cpp` are right
-/

open Finset Real MeasureTheory

namespace Fplll
namespace Volume

/-- specification: the volume of the ball of radius `R` in dimension `n` -/
noncomputable def ballVol (n : ℕ) (R : ℝ) : ℝ := volume.real (Metric.ball (0 : EuclideanSpace ℝ (Fin n)) R)

/-- formula for the volume of the unit ball -/
noncomputable def V (n : ℕ) : ℝ := √π ^ n / Gamma (n / 2 + 1)

theorem ballVol_eq {n : ℕ} (hn : 1 ≤ n) {R : ℝ} (hR : 0 ≤ R) : ballVol n R = R ^ n * V n := by
  haveI : Nonempty (Fin n) := ⟨⟨0, hn⟩⟩
  unfold ballVol V Measure.real
  rw [EuclideanSpace.volume_ball, Fintype.card_fin, ENNReal.toReal_mul, ENNReal.toReal_pow, ENNReal.toReal_ofReal hR, ENNReal.toReal_ofReal]
  exact div_nonneg (pow_nonneg (Real.sqrt_nonneg _) _) (Gamma_nonneg_of_nonneg (by positivity))

theorem V_zero : V 0 = 1 := by
  unfold V
  simp [Gamma_one]

theorem V_one : V 1 = 2 := by
  unfold V
  rw [pow_one, Nat.cast_one, Gamma_add_one (by norm_num), Gamma_one_half_eq]
  have : √π ≠ 0 := (Real.sqrt_pos.2 pi_pos).ne'
  field_simp

theorem V_pos (n : ℕ) : 0 < V n := div_pos (pow_pos (Real.sqrt_pos.2 pi_pos) _) (Gamma_pos_of_pos (by positivity))

theorem V_step (n : ℕ) : V (n + 2) = V n * (2 * π) / (n + 2) := by
  unfold V
  have h1 : ((n + 2 : ℕ) : ℝ) / 2 + 1 = ((n : ℝ) / 2 + 1) + 1 := by push_cast; ring
  have h0 : Gamma ((n : ℝ) / 2 + 1) ≠ 0 := (Gamma_pos_of_pos (by positivity)).ne'
  rw [h1, Gamma_add_one (by positivity), pow_add, Real.sq_sqrt pi_pos.le]
  have h2 : (n : ℝ) + 2 ≠ 0 := by positivity
  field_simp
  try ring

/-! ## `sphere_volume` and `cost_estimate` -/

theorem facLoop (k : ℕ) (v : ℝ) : forUp 1 (k + 1) (fun i v => v / (i : ℝ)) v = v / k.factorial := by
  induction k with
  | zero => rw [forUp_empty (by omega)]; simp
  | succ k ih =>
    rw [forUp_succ_right (by omega), ih, Nat.factorial_succ, div_div]
    push_cast
    ring

theorem sphereVolume_even (k : ℕ) : sphereVolume (2 * k) = V (2 * k) := by
  have hV : ∀ k : ℕ, V (2 * k) = π ^ k / k.factorial := by
    intro k
    induction k with
    | zero => rw [mul_zero, V_zero]; simp
    | succ k ih =>
      rw [show 2 * (k + 1) = 2 * k + 2 by ring, V_step, ih, Nat.factorial_succ]
      push_cast
      have : ((k.factorial : ℕ) : ℝ) ≠ 0 := by positivity
      field_simp
      ring
  unfold sphereVolume
  dsimp only
  rw [if_pos (by omega), show 2 * k / 2 = k by omega, facLoop, hV]

theorem sphereVolume_odd (k : ℕ) : sphereVolume (2 * k + 1) = V (2 * k + 1) := by
  have h : ∀ k : ℕ, forUp 0 (k + 1) (fun i v => v * (2 / ((2 * i + 1 : ℕ) : ℝ))) (π ^ k) = V (2 * k + 1) := by
    have hs : ∀ k : ℕ, ∀ c v : ℝ, forUp 0 k (fun i v => v * (2 / ((2 * i + 1 : ℕ) : ℝ))) (c * v) = c * forUp 0 k (fun i v => v * (2 / ((2 * i + 1 : ℕ) : ℝ))) v := by
      intro k c v
      induction k with
      | zero => rw [forUp_empty (by omega), forUp_empty (by omega)]
      | succ k ih => rw [forUp_succ_right (by omega), forUp_succ_right (by omega), ih, mul_assoc]
    intro k
    induction k with
    | zero =>
      rw [forUp_succ_right (by omega), forUp_empty (by omega), mul_zero, zero_add, V_one]
      norm_num
    | succ k ih =>
      rw [forUp_succ_right (by omega), pow_succ', hs, ih, show 2 * (k + 1) + 1 = 2 * k + 1 + 2 by ring, V_step]
      push_cast
      ring
  unfold sphereVolume
  dsimp only
  rw [if_neg (by omega), show (2 * k + 1) / 2 = k by omega, h]

theorem sphereVolume_eq (d : ℕ) : sphereVolume d = V d := by
  rcases Nat.even_or_odd' d with ⟨k, rfl | rfl⟩
  · exact sphereVolume_even k
  · exact sphereVolume_odd k

/-- **C88** `sphere_volume` computes the volume of the unit ball, in every dimension. -/
theorem C88_sphere_volume {d : ℕ} (hd : 1 ≤ d) : sphereVolume d = ballVol d 1 := by
  rw [sphereVolume_eq, ballVol_eq hd zero_le_one, one_pow, one_mul]

theorem costEstimate_aux {bound : ℝ} (hb : 0 ≤ bound) {r : ℕ → ℝ} {D : ℕ} (hr : ∀ i < D, 0 < r i) (k : ℕ) (hk : k ≤ D) :
    forUp 0 k (fun k (s : ℝ × ℝ) => (s.1 * (bound / r (D - 1 - k)), s.2 + √(s.1 * (bound / r (D - 1 - k))) * sphereVolume (D - (D - 1 - k)))) (1, 0) =
      (∏ j ∈ Ico (D - k) D, bound / r j, ∑ i ∈ Ico (D - k) D, ballVol (D - i) (√bound) / ∏ j ∈ Ico i D, √(r j)) := by
  induction k with
  | zero =>
    rw [forUp_empty (by omega)]
    simp
  | succ k ih =>
    rw [forUp_succ_right (by omega), ih (by omega)]
    have e : D - k = D - (k + 1) + 1 := by omega
    have hi : D - 1 - k = D - (k + 1) := by omega
    have hlt : D - (k + 1) < D := by omega
    have hprod : (∏ j ∈ Ico (D - k) D, bound / r j) * (bound / r (D - 1 - k)) = ∏ j ∈ Ico (D - (k + 1)) D, bound / r j := by
      rw [prod_eq_prod_Ico_succ_bot hlt, ← e, hi, mul_comm]
    dsimp only
    rw [hprod, sum_eq_sum_Ico_succ_bot hlt, ← e, hi]
    refine Prod.ext rfl ?_
    dsimp only
    rw [add_comm]
    congr 1
    rw [show D - (D - (k + 1)) = k + 1 by omega, sphereVolume_eq, ballVol_eq (by omega) (Real.sqrt_nonneg _)]
    have hsq : √(∏ j ∈ Ico (D - (k + 1)) D, bound / r j) = √bound ^ (k + 1) / ∏ j ∈ Ico (D - (k + 1)) D, √(r j) := by
      have hsp : ∀ s : Finset ℕ, (∀ j ∈ s, 0 ≤ bound / r j) → √(∏ j ∈ s, bound / r j) = ∏ j ∈ s, √(bound / r j) := by
        intro s
        induction s using Finset.induction_on with
        | empty => intro _; simp
        | insert a s ha ih' =>
          intro h
          rw [prod_insert ha, prod_insert ha, Real.sqrt_mul (h a (mem_insert_self _ _)), ih' fun j hj => h j (mem_insert_of_mem hj)]
      rw [hsp _ fun j hj => div_nonneg hb (hr j (mem_Ico.1 hj).2).le, prod_congr rfl fun j _ => Real.sqrt_div hb (r j), prod_div_distrib, prod_const, Nat.card_Ico, show D - (D - (k + 1)) = k + 1 by omega]
    rw [hsq]
    ring

/-- **C88** `cost_estimate` adds up, over all levels `i`, the volume of the ball of squared radius `bound` in dimension `dimMax - i` divided by the covolume of the projected lattice: the Gaussian heuristic for the number of nodes. -/
theorem C88_cost_estimate {bound : ℝ} (hb : 0 ≤ bound) {r : ℕ → ℝ} {D : ℕ} (hr : ∀ i < D, 0 < r i) :
    costEstimate bound r D = ∑ i ∈ range D, ballVol (D - i) (√bound) / ∏ j ∈ Ico i D, √(r j) := by
  have := costEstimate_aux hb hr D le_rfl
  unfold costEstimate
  dsimp only
  rw [this, Nat.sub_self, Finset.range_eq_Ico]

/-! ## The tables -/

/-- check of `preFactorial` from index `n` on, `f = n!` -/
def factOk : ℕ → ℕ → List (ℕ × ℕ) → Bool
  | _, _, [] => true
  | n, f, e :: l => Nat.ble (e.1 * 10 ^ e.2) (f * (10 ^ 46 + 1)) && Nat.ble (f * (10 ^ 46 - 1)) (e.1 * 10 ^ e.2) && factOk (n + 1) (f * (n + 1)) l

theorem factOk_table : factOk 0 1 PrunerTables.preFactorial = true := by decide +kernel

theorem factOk_spec (l : List (ℕ × ℕ)) : ∀ n, factOk n n.factorial l = true → ∀ (i : ℕ) (e : ℕ × ℕ), l[i]? = some e →
    e.1 * 10 ^ e.2 ≤ (n + i).factorial * (10 ^ 46 + 1) ∧ (n + i).factorial * (10 ^ 46 - 1) ≤ e.1 * 10 ^ e.2 := by
  induction l with
  | nil => intro n _ i e h; simp at h
  | cons a l ih =>
    intro n hn i e h
    unfold factOk at hn
    rw [Bool.and_eq_true, Bool.and_eq_true] at hn
    cases i with
    | zero =>
      rw [List.getElem?_cons_zero] at h
      obtain rfl := Option.some.inj h
      exact ⟨Nat.le_of_ble_eq_true hn.1.1, Nat.le_of_ble_eq_true hn.1.2⟩
    | succ i =>
      rw [List.getElem?_cons_succ] at h
      have := ih (n + 1) (by rw [Nat.factorial_succ, mul_comm]; exact hn.2) i e h
      rw [show n + 1 + i = n + (i + 1) by ring] at this
      exact this

theorem length_factorial : PrunerTables.preFactorial.length = 2048 := by decide +kernel

theorem length_ballVol : PrunerTables.preBallVol.length = 2048 := by decide +kernel

/-- **C88** every entry of `tabulated_factorial` is the factorial up to one unit of the 46th digit after the first. -/
theorem C88_factorial {n : ℕ} (hn : n < 2047) : ∃ x, tabulatedFactorial n = some x ∧ |x - (n.factorial : ℚ)| ≤ n.factorial / 10 ^ 46 := by
  have hl : n < PrunerTables.preFactorial.length := by rw [length_factorial]; omega
  have hs := factOk_spec _ 0 factOk_table n _ (List.getElem?_eq_getElem hl)
  unfold tabulatedFactorial
  rw [if_pos (show n < maxN from hn), List.getElem?_eq_getElem hl]
  refine ⟨_, rfl, ?_⟩
  generalize PrunerTables.preFactorial[n] = e at hs
  rw [zero_add] at hs
  obtain ⟨h1, h2⟩ := hs
  have g1 : (e.1 : ℚ) * 10 ^ e.2 ≤ n.factorial * (10 ^ 46 + 1) := by exact_mod_cast h1
  have g2 : (n.factorial : ℚ) * (10 ^ 46 - 1) ≤ e.1 * 10 ^ e.2 := by
    have : ((10 ^ 46 - 1 : ℕ) : ℚ) = 10 ^ 46 - 1 := by norm_num
    rw [← this]
    exact_mod_cast h2
  dsimp only
  rw [show (e.1 : ℚ) / 10 ^ 46 * 10 ^ e.2 = e.1 * 10 ^ e.2 / 10 ^ 46 by ring, abs_le]
  generalize (e.1 : ℚ) * 10 ^ e.2 = y at *
  constructor
  · rw [← sub_nonneg]
    have : y / 10 ^ 46 - n.factorial - -(n.factorial / 10 ^ 46) = (y - n.factorial * (10 ^ 46 - 1)) / 10 ^ 46 := by ring
    rw [this]
    exact div_nonneg (sub_nonneg.2 g2) (by norm_num)
  · rw [← sub_nonneg]
    have : n.factorial / 10 ^ 46 - (y / 10 ^ 46 - n.factorial) = (n.factorial * (10 ^ 46 + 1) - y) / 10 ^ 46 := by ring
    rw [this]
    exact div_nonneg (sub_nonneg.2 g1) (by norm_num)

/-- check of two entries at distance 2: `t (n + 2) = t n * 2 π / (n + 2)` up to `2 / 10^52` -/
def stepOk (n : ℕ) (a c : ℕ × ℕ) : Bool :=
  Nat.ble (c.1 * (n + 2) * 10 ^ a.2 * 10 ^ 60 * 10 ^ 52) (a.1 * 2 * PiDigits.P * 10 ^ c.2 * (10 ^ 52 + 2)) &&
  Nat.ble (a.1 * 2 * (PiDigits.P + 1) * 10 ^ c.2 * (10 ^ 52 - 2)) (c.1 * (n + 2) * 10 ^ a.2 * 10 ^ 60 * 10 ^ 52)

/-- check of `preBallVol` from index `n` on -/
def volOk : ℕ → List (ℕ × ℕ) → Bool
  | n, a :: b :: c :: l => stepOk n a c && volOk (n + 1) (b :: c :: l)
  | _, _ => true

theorem volOk_table : volOk 0 PrunerTables.preBallVol = true := by decide +kernel

theorem volOk_spec (l : List (ℕ × ℕ)) : ∀ n, volOk n l = true → ∀ (i : ℕ) (a c : ℕ × ℕ), l[i]? = some a → l[i + 2]? = some c → stepOk (n + i) a c = true := by
  induction l with
  | nil => intro n _ i a c h; simp at h
  | cons x l ih =>
    intro n hn i a c ha hc
    match l, ih, hn, ha, hc with
    | [], _, _, ha, hc => simp at hc
    | [_], _, _, ha, hc => simp at hc
    | y :: z :: l, ih, hn, ha, hc =>
      unfold volOk at hn
      rw [Bool.and_eq_true] at hn
      cases i with
      | zero =>
        simp only [List.getElem?_cons_zero, List.getElem?_cons_succ, Option.some.injEq, zero_add] at ha hc
        subst ha hc
        exact hn.1
      | succ i =>
        have := ih (n + 1) hn.2 i a c (by simpa using ha) (by simpa using hc)
        rw [show n + 1 + i = n + (i + 1) by ring] at this
        exact this

/-- value of an entry of `preBallVol` -/
noncomputable def val (e : ℕ × ℕ) : ℝ := (e.1 : ℝ) / 10 ^ 56 / 10 ^ e.2

theorem step_near {n : ℕ} {a c : ℕ × ℕ} (h : stepOk n a c = true) :
    val a * (2 * π) / (n + 2) * (1 - 2 / 10 ^ 52) ≤ val c ∧ val c ≤ val a * (2 * π) / (n + 2) * (1 + 2 / 10 ^ 52) := by
  unfold stepOk at h
  rw [Bool.and_eq_true] at h
  have h1 : (c.1 : ℝ) * (n + 2) * 10 ^ a.2 * 10 ^ 60 * 10 ^ 52 ≤ a.1 * 2 * PiDigits.P * 10 ^ c.2 * (10 ^ 52 + 2) := by exact_mod_cast Nat.le_of_ble_eq_true h.1
  have h2 : (a.1 : ℝ) * 2 * (PiDigits.P + 1) * 10 ^ c.2 * (10 ^ 52 - 2) ≤ c.1 * (n + 2) * 10 ^ a.2 * 10 ^ 60 * 10 ^ 52 := by
    have e : ((10 ^ 52 - 2 : ℕ) : ℝ) = 10 ^ 52 - 2 := by norm_num
    rw [← e]
    exact_mod_cast Nat.le_of_ble_eq_true h.2
  obtain ⟨p1, p2⟩ := PiDigits.pi_digits
  rw [div_le_iff₀ (by positivity)] at p1
  rw [le_div_iff₀ (by positivity)] at p2
  generalize ((PiDigits.P : ℕ) : ℝ) = P at *
  have hA : (0 : ℝ) < 10 ^ a.2 := by positivity
  have hC : (0 : ℝ) < 10 ^ c.2 := by positivity
  have ha : (0 : ℝ) ≤ a.1 := Nat.cast_nonneg _
  have hn : (0 : ℝ) < n + 2 := by positivity
  unfold val
  generalize (10 : ℝ) ^ a.2 = A at *
  generalize (10 : ℝ) ^ c.2 = C at *
  generalize ((a.1 : ℕ) : ℝ) = x at *
  generalize ((c.1 : ℕ) : ℝ) = y at *
  generalize (n : ℝ) + 2 = N at *
  have k1 : y * N * A * 10 ^ 60 * 10 ^ 52 ≤ x * 2 * (π * 10 ^ 60) * C * (10 ^ 52 + 2) := by
    refine h1.trans ?_
    gcongr
  have k2 : x * 2 * (π * 10 ^ 60) * C * (10 ^ 52 - 2) ≤ y * N * A * 10 ^ 60 * 10 ^ 52 := by
    refine le_trans ?_ h2
    gcongr
  constructor
  · rw [← sub_nonneg]
    have : y / 10 ^ 56 / C - x / 10 ^ 56 / A * (2 * π) / N * (1 - 2 / 10 ^ 52) = (y * N * A * 10 ^ 60 * 10 ^ 52 - x * 2 * (π * 10 ^ 60) * C * (10 ^ 52 - 2)) / (10 ^ 56 * C * A * N * 10 ^ 60 * 10 ^ 52) := by
      field_simp
      try ring
    rw [this]
    exact div_nonneg (sub_nonneg.2 k2) (by positivity)
  · rw [← sub_nonneg]
    have : x / 10 ^ 56 / A * (2 * π) / N * (1 + 2 / 10 ^ 52) - y / 10 ^ 56 / C = (x * 2 * (π * 10 ^ 60) * C * (10 ^ 52 + 2) - y * N * A * 10 ^ 60 * 10 ^ 52) / (10 ^ 56 * C * A * N * 10 ^ 60 * 10 ^ 52) := by
      field_simp
      try ring
    rw [this]
    exact div_nonneg (sub_nonneg.2 k1) (by positivity)

/-- the errors add up -/
theorem val_near (n : ℕ) : ∀ e, PrunerTables.preBallVol[n]? = some e → V n * (1 - 2 / 10 ^ 52) ^ (n / 2) ≤ val e ∧ val e ≤ V n * (1 + 2 / 10 ^ 52) ^ (n / 2) := by
  induction n using Nat.strong_induction_on with
  | _ n ih =>
    intro e he
    match n, ih, he with
    | 0, _, he =>
      rw [show PrunerTables.preBallVol[0]? = some (10 ^ 56, 0) by decide +kernel] at he
      obtain rfl := Option.some.inj he
      rw [V_zero]
      unfold val
      norm_num
    | 1, _, he =>
      rw [show PrunerTables.preBallVol[1]? = some (2 * 10 ^ 56, 0) by decide +kernel] at he
      obtain rfl := Option.some.inj he
      rw [V_one]
      unfold val
      norm_num
    | m + 2, ih, he =>
      have hl : m + 2 < PrunerTables.preBallVol.length := (List.getElem?_eq_some_iff.1 he).1
      have hm : PrunerTables.preBallVol[m]? = some PrunerTables.preBallVol[m] := List.getElem?_eq_getElem (by omega)
      have hstep := step_near (volOk_spec _ 0 volOk_table m _ _ hm he)
      obtain ⟨i1, i2⟩ := ih m (by omega) _ hm
      generalize PrunerTables.preBallVol[m] = a at *
      rw [zero_add] at hstep
      rw [show (m + 2) / 2 = m / 2 + 1 by omega, V_step, pow_succ, pow_succ]
      have hk : (0 : ℝ) ≤ 2 * π / (m + 2) := by positivity
      constructor
      · refine le_trans (le_of_eq_of_le ?_ (mul_le_mul_of_nonneg_right (mul_le_mul_of_nonneg_right i1 hk) (by norm_num : (0 : ℝ) ≤ 1 - 2 / 10 ^ 52))) (le_of_eq_of_le ?_ hstep.1) <;> ring
      · refine le_trans (hstep.2.trans_eq ?_) ((mul_le_mul_of_nonneg_right (mul_le_mul_of_nonneg_right i2 hk) (by norm_num : (0 : ℝ) ≤ 1 + 2 / 10 ^ 52)).trans_eq ?_)
        · exact (show val a * (2 * π) / (m + 2) * (1 + 2 / 10 ^ 52) = val a * (2 * π / (m + 2)) * (1 + 2 / 10 ^ 52) by ring)
        · ring

theorem powers {k : ℕ} (hk : k ≤ 1024) : (1 - 1 / 10 ^ 48 : ℝ) ≤ (1 - 2 / 10 ^ 52) ^ k ∧ (1 + 2 / 10 ^ 52 : ℝ) ^ k ≤ 1 + 1 / 10 ^ 48 := by
  have hk' : (k : ℝ) ≤ 1024 := by exact_mod_cast hk
  constructor
  · have := one_add_mul_le_pow (a := (-(2 / 10 ^ 52) : ℝ)) (by norm_num) k
    rw [← sub_eq_add_neg] at this
    refine le_trans ?_ this
    norm_num
    linarith
  · have h : ∀ k : ℕ, k ≤ 1024 → (1 + 2 / 10 ^ 52 : ℝ) ^ k ≤ 1 + k * (4 / 10 ^ 52) := by
      intro k
      induction k with
      | zero => intro _; norm_num
      | succ k ih =>
        intro hk
        have h1 := ih (by omega)
        have h2 : (k : ℝ) ≤ 1024 := by exact_mod_cast (show k ≤ 1024 by omega)
        rw [pow_succ]
        refine (mul_le_mul_of_nonneg_right h1 (by norm_num)).trans ?_
        push_cast
        norm_num
        linarith
    refine (h k hk).trans ?_
    norm_num
    linarith

/-- **C88** every entry of `tabulated_ball_vol` is the volume of the unit ball, up to the relative error `10^-48`. -/
theorem C88_ball_vol {n : ℕ} (h1 : 1 ≤ n) (hn : n < 2047) : ∃ x, tabulatedBallVol n = some x ∧ |(x : ℝ) - ballVol n 1| ≤ ballVol n 1 / 10 ^ 48 := by
  have hl : n < PrunerTables.preBallVol.length := by rw [length_ballVol]; omega
  have hs := val_near n _ (List.getElem?_eq_getElem hl)
  unfold tabulatedBallVol
  rw [if_pos (show n < maxN from hn), List.getElem?_eq_getElem hl]
  refine ⟨_, rfl, ?_⟩
  rw [ballVol_eq h1 zero_le_one, one_pow, one_mul]
  obtain ⟨p1, p2⟩ := powers (k := n / 2) (by omega)
  generalize PrunerTables.preBallVol[n] = e at *
  unfold val at hs
  push_cast
  have hV := V_pos n
  rw [abs_le]
  constructor
  · nlinarith [hs.1, mul_le_mul_of_nonneg_left p1 hV.le]
  · nlinarith [hs.2, mul_le_mul_of_nonneg_left p2 hV.le]

/-- **C88** with the table, the detailed cost of a level of even dimension is what `C60_level` describes (`sym` times volume divided by covolume), up to the relative error `10^-48`. -/
theorem C88_level {n d : ℕ} (hn : 2 * d ≤ n) (hd : 2 * d < 2047) {gso : Pruner.Vec} (hg : ∀ k, k < n → 0 < gso k) {radius : ℝ} (hR : 0 < radius) {sym : ℝ}
    {bv b : Pruner.Vec} (h : Pruner.Mono d b) (hbv : ∀ i x, tabulatedBallVol i = some x → bv i = x) {j : ℕ} (hj : j < d) (det : Pruner.Vec) :
    |(Pruner.singleCost (Pruner.loadShape n d gso radius) sym bv d d b det).2 (2 * d - (2 * j + 2)) -
        sym * volume.real (cylinder (j + 1) (fun k => radius * b k) 0) / ∏ k ∈ range (2 * j + 2), √(gso (n - 1 - k))| ≤
      |sym * volume.real (cylinder (j + 1) (fun k => radius * b k) 0) / ∏ k ∈ range (2 * j + 2), √(gso (n - 1 - k))| / 10 ^ 48 := by
  have hV : V (2 * j + 2) = π ^ (j + 1) / (j + 1).factorial := by
    rw [show 2 * j + 2 = 2 * (j + 1) by ring, ← sphereVolume_eq]
    unfold sphereVolume
    dsimp only
    rw [if_pos (by omega), show 2 * (j + 1) / 2 = j + 1 by omega]
    exact facLoop _ _
  rw [← Pruner.C60_level hn hg hR sym h hj (bv := V) hV det]
  obtain ⟨x, hx, hxV⟩ := C88_ball_vol (n := 2 * j + 2) (by omega) (by omega)
  rw [ballVol_eq (by omega) zero_le_one, one_pow, one_mul, ← hbv _ _ hx] at hxV
  unfold Pruner.singleCost
  rw [if_pos rfl, if_pos rfl]
  have h1 := (Pruner.singleEvec_eq (Pruner.loadShape n d gso radius) sym bv d b det).2.1 (2 * j + 1) (by omega)
  have h2 := (Pruner.singleEvec_eq (Pruner.loadShape n d gso radius) sym V d b det).2.1 (2 * j + 1) (by omega)
  rw [show 2 * d - (2 * j + 1 + 1) = 2 * d - (2 * j + 2) by omega] at h1 h2
  rw [h1, h2]
  unfold Pruner.term
  rw [show 2 * j + 1 + 1 = 2 * j + 2 by ring]
  have key : ∀ p q s t u v w : ℝ, |u - v| ≤ v / 10 ^ 48 → 0 < v → |p * q * u * s * t * w - p * q * v * s * t * w| ≤ |p * q * v * s * t * w| / 10 ^ 48 := by
    intro p q s t u v w huv hv
    rw [show p * q * u * s * t * w - p * q * v * s * t * w = p * q * s * t * w * (u - v) by ring, show p * q * v * s * t * w = p * q * s * t * w * v by ring, abs_mul _ (u - v), abs_mul _ v, abs_of_pos hv, mul_div_assoc]
    exact mul_le_mul_of_nonneg_left huv (abs_nonneg _)
  exact key _ _ _ _ _ _ _ hxV (V_pos _)

/-- the tables are large enough exactly up to dimension 2046; dimensions are not checked when a `Pruner` is constructed (pruner.h:290-460), so `gaussian_heuristic` (pruner_util.cpp:90-96) reads outside of the table in dimension 2047 -/
theorem C88_bounds_violated : tabulatedBallVol 2047 = none ∧ ∀ n, 2047 ≤ n → tabulatedFactorial n = none ∧ tabulatedBallVol n = none :=
  ⟨rfl, fun _ hn => ⟨if_neg (not_lt.2 hn), if_neg (not_lt.2 hn)⟩⟩

/-- concrete entries -/
example : tabulatedFactorial 5 = some 120 ∧ tabulatedBallVol 1 = some 2 := by decide +kernel

/-- the estimate for two levels with bound 1 and `r = (1, 1)`: `π + 2` -/
example : costEstimate 1 (fun _ => 1) 2 = π + 2 := by
  rw [C88_cost_estimate zero_le_one fun _ _ => one_pos, sum_range_succ, sum_range_one, ballVol_eq (by norm_num) (Real.sqrt_nonneg _), ballVol_eq (by norm_num) (Real.sqrt_nonneg _)]
  rw [show 2 - 0 = 0 + 2 by rfl, V_step, V_zero, show 2 - 1 = 1 by rfl, V_one]
  simp

end Volume
end Fplll

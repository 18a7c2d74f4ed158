import Mathlib.MeasureTheory.Measure.Lebesgue.VolumeOfBalls
import Mathlib.Analysis.SpecialFunctions.Gamma.Deligne
import Verif.Model.Shape
import Verif.Proofs.LLLCount
import Verif.Props.BKZ
import Verif.Props.BKZSvp

/-!
# C77: slope, determinants, slide potential and Gaussian heuristic
-/

namespace Fplll
namespace Shape

open Finset Spec

/-! ## The slope -/

/-- the sum of squared errors of the line `a * i + c` -/
def lsqErr (n : ℕ) (x : ℕ → ℝ) (a c : ℝ) : ℝ := ∑ i ∈ range n, (x i - (a * i + c)) ^ 2

/-- `a` is the slope of a line of least squares through the points `(i, x i)` -/
def LsqSlope (n : ℕ) (x : ℕ → ℝ) (a : ℝ) : Prop := ∃ c, ∀ a' c', lsqErr n x a c ≤ lsqErr n x a' c'

theorem slopeLoop_eq (f : ℤ → ℝ) (expo : ℤ → ℤ) (k : ℕ) (i : ℤ) (w v : ℝ) :
    slopeLoop f expo k i w v = v + ∑ j ∈ range k, (w + j) * (Real.log (f (i + j)) + expo (i + j) * Real.log 2) := by
  induction k generalizing i w v with
  | zero => simp [slopeLoop]
  | succ k ih =>
    rw [slopeLoop, ih, sum_range_succ']
    have : ∀ j : ℕ, i + 1 + (j : ℤ) = i + ((j + 1 : ℕ) : ℤ) := fun j => by push_cast; ring
    simp only [this]
    push_cast
    simp only [add_zero]
    rw [add_comm (∑ j ∈ range k, _), add_assoc]
    congr 2
    refine sum_congr rfl fun j _ => ?_
    ring

theorem sum_weight (n : ℕ) : ∑ j ∈ range n, ((1 - (n : ℝ)) / 2 + j) = 0 := by
  have h : ∀ m : ℕ, ∑ j ∈ range m, ((1 - (n : ℝ)) / 2 + j) = m * ((m : ℝ) - n) / 2 := by
    intro m
    induction m with
    | zero => simp
    | succ m ih => rw [sum_range_succ, ih]; push_cast; ring
  rw [h]; ring

theorem sum_weight_sq (n : ℕ) : ∑ j ∈ range n, ((1 - (n : ℝ)) / 2 + j) ^ 2 = ((n : ℝ) + 1) * n * (n - 1) / 12 := by
  have h : ∀ (c : ℝ) (m : ℕ), ∑ j ∈ range m, (c + j) ^ 2 = m * c ^ 2 + c * (m * (m - 1)) + (m - 1) * m * (2 * m - 1) / 6 := by
    intro c m
    induction m with
    | zero => simp
    | succ m ih => rw [sum_range_succ, ih]; push_cast; ring
  rw [h]; ring

/-- the error of a line, split at the best one -/
theorem lsqErr_split (n : ℕ) (hn : 2 ≤ n) (x : ℕ → ℝ) (s : ℝ)
    (hs : s * ((n + 1) * n * (n - 1) / 12 : ℝ) = ∑ j ∈ range n, ((1 - (n : ℝ)) / 2 + j) * x j) :
    ∃ E m : ℝ, ∀ a c, lsqErr n x a c = E + (s - a) ^ 2 * ((n + 1) * n * (n - 1) / 12 : ℝ) + n * (m - c - a * ((n - 1) / 2)) ^ 2 := by
  have hn0 : (n : ℝ) ≠ 0 := by positivity
  set w : ℕ → ℝ := fun j => (1 - (n : ℝ)) / 2 + j with hw
  set m : ℝ := (∑ j ∈ range n, x j) / n with hm
  refine ⟨∑ j ∈ range n, (x j - m - s * w j) ^ 2, m, fun a c => ?_⟩
  have e0 : ∑ j ∈ range n, w j = 0 := sum_weight n
  have e1 : ∑ j ∈ range n, w j ^ 2 = (n + 1) * n * (n - 1) / 12 := sum_weight_sq n
  have e2 : ∑ j ∈ range n, (x j - m - s * w j) = 0 := by
    rw [sum_sub_distrib, sum_sub_distrib, ← mul_sum, e0, sum_const, card_range, nsmul_eq_mul, hm]
    field_simp; ring
  have e3 : ∑ j ∈ range n, (x j - m - s * w j) * w j = 0 := by
    have : ∀ j ∈ range n, (x j - m - s * w j) * w j = w j * x j - m * w j - s * w j ^ 2 := fun j _ => by ring
    rw [sum_congr rfl this, sum_sub_distrib, sum_sub_distrib, ← mul_sum, ← mul_sum, e0, e1, hs]; ring
  unfold lsqErr
  have e4 : ∀ j ∈ range n, (x j - (a * j + c)) ^ 2 = (x j - m - s * w j) ^ 2 + (s - a) ^ 2 * w j ^ 2 + (m - c - a * ((n - 1) / 2)) ^ 2
      + 2 * (s - a) * ((x j - m - s * w j) * w j) + 2 * (m - c - a * ((n - 1) / 2)) * (x j - m - s * w j)
      + 2 * (s - a) * (m - c - a * ((n - 1) / 2)) * w j := by
    intro j _
    simp only [hw]
    ring
  rw [sum_congr rfl e4]
  simp only [sum_add_distrib, ← mul_sum]
  rw [e0, e1, e2, e3, sum_const, card_range, nsmul_eq_mul]
  ring

/-- **C77, slope.**  For two or more rows, `get_current_slope` is the slope of the line of least squares through the logarithms of
the squared Gram–Schmidt lengths, and the only such slope. -/
theorem C77_slope (f : ℤ → ℝ) (expo : ℤ → ℤ) (start stop : ℤ) (h : start + 2 ≤ stop) (hf : ∀ i, start ≤ i → i < stop → 0 < f i)
    (a : ℝ) :
    LsqSlope (stop - start).toNat (fun j => Real.log (f (start + j) * (2 : ℝ) ^ expo (start + j))) a ↔
      a = currentSlope f expo start stop := by
  obtain ⟨n, hn⟩ : ∃ n : ℕ, stop - start = n := ⟨(stop - start).toNat, by omega⟩
  have hn2 : 2 ≤ n := by omega
  rw [hn, Int.toNat_natCast]
  set x : ℕ → ℝ := fun j => Real.log (f (start + j) * (2 : ℝ) ^ expo (start + j)) with hx
  have hv : (0 : ℝ) < (n + 1) * n * (n - 1) / 12 := by
    have : (2 : ℝ) ≤ n := by exact_mod_cast hn2
    have h1 : (0 : ℝ) < n - 1 := by linarith
    positivity
  have hs : currentSlope f expo start stop * ((n + 1) * n * (n - 1) / 12 : ℝ) = ∑ j ∈ range n, ((1 - (n : ℝ)) / 2 + j) * x j := by
    unfold currentSlope slopeDen
    rw [hn, Int.toNat_natCast, slopeLoop_eq, zero_add]
    push_cast
    rw [div_mul_cancel₀ _ hv.ne']
    refine sum_congr rfl fun j hj => ?_
    rw [mem_range] at hj
    have := hf (start + j) (by omega) (by omega)
    simp only [hx]
    rw [Real.log_mul this.ne' (by positivity), Real.log_zpow]
  obtain ⟨E, m, hE⟩ := lsqErr_split n hn2 x _ hs
  constructor
  · rintro ⟨c, hc⟩
    have h1 := hc (currentSlope f expo start stop) (m - currentSlope f expo start stop * ((n - 1) / 2))
    rw [hE, hE] at h1
    have h2 : (currentSlope f expo start stop - a) ^ 2 * ((n + 1) * n * (n - 1) / 12 : ℝ) ≤ 0 := by
      have h3 : (0 : ℝ) ≤ n * (m - c - a * ((n - 1) / 2)) ^ 2 := by positivity
      have h4 : m - (m - currentSlope f expo start stop * ((n - 1) / 2)) - currentSlope f expo start stop * (((n : ℝ) - 1) / 2) = 0 := by
        ring
      rw [h4] at h1
      simp only [sub_self] at h1
      linarith
    have h5 : (currentSlope f expo start stop - a) ^ 2 ≤ 0 := by
      by_contra hcon
      exact absurd h2 (not_le.2 (mul_pos (not_le.1 hcon) hv))
    have h6 := pow_eq_zero_iff (two_ne_zero) |>.1 (le_antisymm h5 (sq_nonneg _))
    linarith
  · rintro rfl
    refine ⟨m - currentSlope f expo start stop * ((n - 1) / 2), fun a' c' => ?_⟩
    rw [hE, hE]
    have h3 : (0 : ℝ) ≤ n * (m - c' - a' * ((n - 1) / 2)) ^ 2 := by positivity
    have h4 : m - (m - currentSlope f expo start stop * ((n - 1) / 2)) - currentSlope f expo start stop * (((n : ℝ) - 1) / 2) = 0 := by
      ring
    have h5 : 0 ≤ (currentSlope f expo start stop - a') ^ 2 * ((n + 1) * n * (n - 1) / 12 : ℝ) := by positivity
    rw [h4, sub_self]
    nlinarith

/-- **C77, one row.**  For a single row `get_current_slope` divides zero by zero. -/
theorem C77_slope_one (f : ℤ → ℝ) (expo : ℤ → ℤ) (start : ℤ) :
    slopeLoop f expo 1 start ((1 - (1 : ℝ)) / 2) 0 = 0 ∧ slopeDen 1 = 0 := by
  constructor
  · rw [slopeLoop_eq]; simp
  · unfold slopeDen; norm_num

/-- three rows of squared lengths `16 = 4 * 2^2, 4, 1`: the slope is `-log 4` -/
example : currentSlope (fun i => if i = 0 then 4 else if i = 1 then 4 else 1) (fun i => if i = 0 then 2 else 0) 0 3 = -Real.log 4 := by
  have h4 : Real.log 4 = 2 * Real.log 2 := by rw [show (4 : ℝ) = 2 ^ 2 by norm_num, Real.log_pow]; push_cast; ring
  unfold currentSlope slopeDen
  rw [show (3 - 0 : ℤ).toNat = 3 from rfl, slopeLoop_eq]
  simp [sum_range_succ, h4]
  ring

/-! ## Determinants -/

/-- the squared Gram–Schmidt lengths of an integer basis -/
noncomputable def profOf (n : ℕ) (b : ℕ → ℕ → ℤ) (i : ℤ) : ℝ := ((normStar n (toQ b) i.toNat : ℚ) : ℝ)

theorem logDetLoop_eq (r : ℤ → ℝ) (k : ℕ) (i : ℤ) (acc : ℝ) :
    logDetLoop r k i acc = acc + ∑ j ∈ range k, Real.log (r (i + j)) := by
  induction k generalizing i acc with
  | zero => simp [logDetLoop]
  | succ k ih =>
    rw [logDetLoop, ih, sum_range_succ']
    have : ∀ j : ℕ, i + 1 + (j : ℤ) = i + ((j + 1 : ℕ) : ℤ) := fun j => by push_cast; ring
    simp only [this]
    push_cast
    rw [add_zero]; ring

/-- `exp(get_log_det)` is the product of the squared lengths -/
theorem exp_logDet (d : ℤ) (r : ℤ → ℝ) (start stop : ℤ) (hr : ∀ i, 0 ≤ i → i < d → 0 < r i) :
    Real.exp (logDet d r start stop) = ∏ j ∈ range (min d stop - max 0 start).toNat, r (max 0 start + j) := by
  unfold logDet
  rw [logDetLoop_eq, zero_add, Real.exp_sum]
  refine prod_congr rfl fun j hj => ?_
  rw [mem_range] at hj
  exact Real.exp_log (hr _ (by omega) (by omega))

theorem profOf_pos {d n : ℕ} {b : ℕ → ℕ → ℤ} (h : Indep d n (toQ b)) (i : ℤ) (h0 : 0 ≤ i) (hi : i < d) : 0 < profOf n b i := by
  unfold profOf
  exact_mod_cast h.pos i.toNat (by omega)

theorem gramDet_real (n : ℕ) (b : ℕ → ℕ → ℤ) (m : ℕ) : ((gramDet n b m : ℤ) : ℝ) = ∏ j ∈ range m, profOf n b j := by
  have h := gramDet_eq n b m
  have h' : (((gramDet n b m : ℤ) : ℚ) : ℝ) = ((∏ j ∈ range m, normStar n (fun i c => (b i c : ℚ)) j : ℚ) : ℝ) := by rw [h]
  rw [Rat.cast_intCast] at h'
  rw [h', Rat.cast_prod]
  rfl

theorem gramDet_split {n : ℕ} {b : ℕ → ℕ → ℤ} {lo hi : ℕ} (h : lo ≤ hi) :
    (∏ j ∈ range (hi - lo), profOf n b ((lo : ℤ) + j)) * ((gramDet n b lo : ℤ) : ℝ) = ((gramDet n b hi : ℤ) : ℝ) := by
  rw [gramDet_real, gramDet_real, mul_comm]
  obtain ⟨k, rfl⟩ := Nat.exists_eq_add_of_le h
  rw [Nat.add_sub_cancel_left, prod_range_add]
  congr 1

/-- **C77, determinant of a block.**  With exact squared lengths, `get_log_det(start, end)` (with the bounds cut off at `0` and `d`) is
the logarithm of the quotient of the Gram determinants of the first `end` and the first `start` rows. -/
theorem C77_log_det {d n : ℕ} {b : ℕ → ℕ → ℤ} (h : Indep d n (toQ b)) (start stop : ℤ) (hle : max 0 start ≤ min (d : ℤ) stop) :
    Real.exp (logDet d (profOf n b) start stop) * gramDet n b (max 0 start).toNat = gramDet n b (min (d : ℤ) stop).toNat := by
  rw [exp_logDet d _ start stop fun i h0 hi => profOf_pos h i h0 hi]
  rw [← gramDet_split (n := n) (b := b) (show (max 0 start).toNat ≤ (min (d : ℤ) stop).toNat by omega)]
  congr 1
  have e : (min (d : ℤ) stop - max 0 start).toNat = (min (d : ℤ) stop).toNat - (max 0 start).toNat := by omega
  have e' : ((max 0 start).toNat : ℤ) = max 0 start := by omega
  rw [e, e']

/-- the determinant of the whole basis only depends on the lattice -/
theorem C77_log_det_lattice {d n : ℕ} {b b' : ℕ → ℕ → ℤ} (h : Indep d n (toQ b)) (hl : PreEq n d b b') :
    logDet d (profOf n b') 0 d = logDet d (profOf n b) 0 d := by
  have h' : Indep d n (toQ b') := Indep.of_lattice h hl.lattice_eq
  have e := C77_log_det h 0 d (by omega)
  have e' := C77_log_det h' 0 d (by omega)
  have h0 : ∀ c : ℕ → ℕ → ℤ, gramDet n c (max 0 (0 : ℤ)).toNat = 1 := fun c => by
    rw [show (max 0 (0 : ℤ)).toNat = 0 from rfl]
    unfold gramDet
    exact Matrix.det_isEmpty
  have hd : (min (d : ℤ) d).toNat = d := by omega
  rw [h0, hd, Int.cast_one, mul_one] at e e'
  rw [gramDet_pre hl, ← e] at e'
  exact Real.exp_injective e'

/-- **C77, root determinant.**  `get_root_det(start, end)` is the geometric mean of the squared lengths. -/
theorem C77_root_det (d : ℤ) (r : ℤ → ℝ) (start stop : ℤ) (hr : ∀ i, 0 ≤ i → i < d → 0 < r i) (h0 : 0 ≤ start) (h1 : start < stop)
    (h2 : stop ≤ d) : 0 < rootDet d r start stop ∧ rootDet d r start stop ^ (stop - start).toNat = ∏ j ∈ range (stop - start).toNat, r (start + j) := by
  refine ⟨Real.exp_pos _, ?_⟩
  unfold rootDet
  have e1 : max 0 start = start := by omega
  have e2 : min d stop = stop := by omega
  rw [e1, e2, ← Real.exp_nat_mul]
  obtain ⟨k, hk⟩ : ∃ k : ℕ, stop - start = k := ⟨(stop - start).toNat, by omega⟩
  have hk0 : (k : ℝ) ≠ 0 := by
    have : k ≠ 0 := by omega
    exact_mod_cast this
  rw [hk, Int.toNat_natCast, Int.cast_natCast, mul_div_cancel₀ _ hk0, exp_logDet d r start stop hr, e1, e2, hk, Int.toNat_natCast]

/-! ## The slide potential -/

/-- the product of the Gram determinants of the first `bs, 2 bs, …` rows (all multiples below `d`) -/
def slideProd (d n bs : ℕ) (b : ℕ → ℕ → ℤ) : ℤ := ∏ k ∈ range ((d - 1) / bs), gramDet n b ((k + 1) * bs)

theorem potLoop_eq (d : ℤ) (r : ℤ → ℝ) (p bs : ℤ) (k : ℕ) (i : ℤ) (acc : ℝ) :
    potLoop d r p bs k i acc = acc + ∑ j ∈ range k, ((p - (i + j) : ℤ) : ℝ) * logDet d r ((i + j) * bs) ((i + j + 1) * bs) := by
  induction k generalizing i acc with
  | zero => simp [potLoop]
  | succ k ih =>
    rw [potLoop, ih, sum_range_succ']
    have : ∀ j : ℕ, i + 1 + (j : ℤ) = i + ((j + 1 : ℕ) : ℤ) := fun j => by push_cast; ring
    simp only [this]
    push_cast
    simp only [add_zero]
    ring

theorem potBlocks_eq {d bs : ℕ} (hd : 1 ≤ d) (hbs : 1 ≤ bs) : potBlocks 0 d bs = (((d - 1) / bs : ℕ) : ℤ) := by
  unfold potBlocks
  rw [sub_zero, Int.tmod_eq_emod_of_nonneg (by omega), Int.tdiv_eq_ediv_of_nonneg (by omega)]
  rw [← Int.natCast_mod, ← Int.natCast_div]
  have h1 := Nat.div_add_mod d bs
  have h2 := Nat.mod_lt d (show 0 < bs by omega)
  have h3 : 0 < bs := hbs
  split_ifs with h
  · have h : d % bs = 0 := by exact_mod_cast h
    rw [h, add_zero] at h1
    obtain ⟨q, hq⟩ : ∃ q, d / bs = q + 1 := ⟨d / bs - 1, by
      have : d / bs ≠ 0 := fun h0 => by rw [h0] at h1; omega
      exact (Nat.sub_add_cancel (Nat.one_le_iff_ne_zero.2 this)).symm⟩
    rw [hq] at h1 ⊢
    have : (d - 1) / bs = q := by
      rw [Nat.div_eq_iff h3]
      have e : bs * (q + 1) = q * bs + bs := by ring
      constructor <;> omega
    rw [this]
    push_cast; ring
  · have h : d % bs ≠ 0 := fun h' => h (by rw [h']; rfl)
    have : (d - 1) / bs = d / bs := by
      rw [Nat.div_eq_iff h3]
      have e : bs * (d / bs) = d / bs * bs := by ring
      constructor <;> omega
    rw [this]

/-- weighting the blocks is the same as adding up the leading determinants -/
theorem sum_weighted (p : ℕ) (x : ℕ → ℝ) :
    ∑ i ∈ range p, ((p : ℝ) - i) * x i = ∑ k ∈ range p, ∑ i ∈ range (k + 1), x i := by
  induction p with
  | zero => simp
  | succ p ih =>
    rw [sum_range_succ (fun k => ∑ i ∈ range (k + 1), x i), ← ih, sum_range_succ, sum_range_succ x]
    have : ∀ i ∈ range p, (((p + 1 : ℕ) : ℝ) - i) * x i = ((p : ℝ) - i) * x i + x i := fun i _ => by push_cast; ring
    rw [sum_congr rfl this, sum_add_distrib]
    push_cast
    ring

/-- **C77, slide potential.**  With exact squared lengths, `get_slide_potential(0, d, bs)` is the logarithm of the product of the
Gram determinants of the first `bs, 2 bs, …` rows, which is a positive integer. -/
theorem C77_slide_potential {d n bs : ℕ} (hd : 1 ≤ d) (hbs : 1 ≤ bs) {b : ℕ → ℕ → ℤ} (h : Indep d n (toQ b)) :
    1 ≤ slideProd d n bs b ∧ slidePotential d (profOf n b) 0 d bs = Real.log (slideProd d n bs b) := by
  have hle : ∀ k < (d - 1) / bs, (k + 1) * bs ≤ d := by
    intro k hk
    have h1 : (k + 1) * bs ≤ (d - 1) / bs * bs := Nat.mul_le_mul_right _ hk
    have h2 := Nat.div_mul_le_self (d - 1) bs
    omega
  have hpos : ∀ k ∈ range ((d - 1) / bs), 0 < gramDet n b ((k + 1) * bs) := fun k hk => gramDet_pos h (hle k (mem_range.1 hk))
  have h1 : 0 < slideProd d n bs b := prod_pos hpos
  refine ⟨h1, ?_⟩
  unfold slidePotential
  rw [potBlocks_eq hd hbs, potLoop_eq, zero_add, Int.toNat_natCast]
  have e0 : ∀ j ∈ range ((d - 1) / bs), ((((((d - 1) / bs : ℕ) : ℤ)) - (0 + (j : ℤ)) : ℤ) : ℝ) *
      logDet d (profOf n b) ((0 + (j : ℤ)) * bs) ((0 + (j : ℤ) + 1) * bs) =
      ((((d - 1) / bs : ℕ) : ℝ) - j) * (Real.log (gramDet n b ((j + 1) * bs)) - Real.log (gramDet n b (j * bs))) := by
    intro j hj
    have hj' := hle j (mem_range.1 hj)
    have hjle : j * bs ≤ (j + 1) * bs := Nat.mul_le_mul_right _ (by omega)
    rw [zero_add]
    congr 1
    · rw [Int.cast_sub, Int.cast_natCast, Int.cast_natCast]
    · have a1 : max 0 ((j : ℤ) * bs) = ((j * bs : ℕ) : ℤ) := by
        rw [max_eq_right (by positivity)]; push_cast; ring
      have a2 : min (d : ℤ) (((j : ℤ) + 1) * bs) = (((j + 1) * bs : ℕ) : ℤ) := by
        have : (((j + 1) * bs : ℕ) : ℤ) ≤ d := by exact_mod_cast hj'
        rw [min_eq_right (by push_cast at this; exact this)]; push_cast; ring
      have e := C77_log_det h ((j : ℤ) * bs) (((j : ℤ) + 1) * bs) (by rw [a1, a2]; exact_mod_cast hjle)
      rw [a1, a2, Int.toNat_natCast, Int.toNat_natCast] at e
      have g1 : (0 : ℝ) < gramDet n b (j * bs) := by exact_mod_cast gramDet_pos h (hjle.trans hj')
      rw [← e, Real.log_mul (Real.exp_pos _).ne' g1.ne', Real.log_exp]; ring
  rw [sum_congr rfl e0, sum_weighted]
  have e1 : ∀ k ∈ range ((d - 1) / bs), ∑ i ∈ range (k + 1), (Real.log (gramDet n b ((i + 1) * bs)) - Real.log (gramDet n b (i * bs)))
      = Real.log (gramDet n b ((k + 1) * bs)) := by
    intro k _
    rw [sum_range_sub (fun i => Real.log ((gramDet n b (i * bs) : ℤ) : ℝ))]
    have : gramDet n b (0 * bs) = 1 := by
      rw [Nat.zero_mul]; unfold gramDet; exact Matrix.det_isEmpty
    rw [this]; simp
  rw [sum_congr rfl e1]
  unfold slideProd
  rw [Int.cast_prod, Real.log_prod]
  intro k hk
  have := hpos k hk
  exact_mod_cast this.ne'

/-- **C77, `start_row` is ignored.**  The potential of the rows from `start_row` on reads rows before `start_row`: for the basis with
squared lengths `9, 9, 1, 1` the potential of the last two rows, in blocks of one row, is `log 9` instead of `log 1 = 0`. -/
theorem C77_start_row_violated : ∃ r : ℤ → ℝ, (∀ i, 0 < r i) ∧ (∀ i, 2 ≤ i → r i = 1) ∧ slidePotential 4 r 2 4 1 ≠ 0 ∧
    slidePotential 2 (fun i => r (i + 2)) 0 2 1 = 0 := by
  refine ⟨fun i => if i < 2 then 9 else 1, fun i => by dsimp only; split_ifs <;> norm_num, fun i hi => if_neg (by omega), ?_, ?_⟩
  · unfold slidePotential potBlocks
    have : ((4 - 2 : ℤ).tmod 1 = 0) := by decide
    rw [if_pos this, show ((4 - 2 : ℤ).tdiv 1 - 1) = 1 by decide, show (1 : ℤ).toNat = 1 from rfl, potLoop_eq]
    unfold logDet
    simp [logDetLoop]
    norm_num
  · unfold slidePotential potBlocks
    have : ((2 - 0 : ℤ).tmod 1 = 0) := by decide
    rw [if_pos this, show ((2 - 0 : ℤ).tdiv 1 - 1) = 1 by decide, show (1 : ℤ).toNat = 1 from rfl, potLoop_eq]
    unfold logDet
    simp [logDetLoop]

/-! ## Slide reduction stops -/

section stops
open BKZ
variable {σ : Type}

theorem withPot_all {α : Type} {P Q : σ → Prop} {m : Out σ α} (v : ℝ) (h : m.All P Q) :
    (withPot v m).All (fun s => P s.1 ∧ s.2 = v) (fun s => Q s.1) := by
  cases m with
  | ok a s => exact ⟨h, rfl⟩
  | thrown s => exact ⟨h, rfl⟩
  | stuck s => exact ⟨h, rfl⟩
  | ub s => exact h

theorem slideLoop_ops {o o' : Ops σ} (h1 : o.svp = o'.svp) (h2 : o.lll = o'.lll) (bounded : Bool) (bs lo hi : ℤ) (fuel : ℕ) (s : σ) :
    slideLoop o bounded bs lo hi fuel s = slideLoop o' bounded bs lo hi fuel s := by
  induction fuel generalizing s with
  | zero => rfl
  | succ fuel ih =>
    rw [slideLoop, slideLoop, h1, h2]
    simp only [ih]

/-- the procedures without the last test respect the invariant and leave the potential alone -/
theorem potOps_inv {o : Ops σ} {prof : σ → ℤ → ℝ} {d bs : ℤ} {P Q : σ → Prop} (h : OpsInv d o P Q) (v : ℝ) :
    OpsInv d { potOps o prof d bs with noProgress := fun s => (true, s) } (fun s => P s.1 ∧ s.2 = v) (fun s => Q s.1) where
  svp kappa b dual s h0 h1 h2 hs := by obtain ⟨hs, rfl⟩ := hs; exact withPot_all s.2 (h.svp kappa b dual s.1 h0 h1 h2 hs)
  lll s hs := by obtain ⟨hs, rfl⟩ := hs; exact withPot_all s.2 (h.lll s.1 hs)
  sizeRed k s h1 h2 hs := by obtain ⟨hs, rfl⟩ := hs; exact withPot_all s.2 (h.sizeRed k s.1 h1 h2 hs)
  symG s hs := ⟨h.symG s.1 hs.1, hs.2⟩
  noProgress s hs := hs

/-- what a slide tour leaves behind -/
theorem slideTour_pot {o : Ops σ} {prof : σ → ℤ → ℝ} {d : ℤ} {P Q : σ → Prop} (h : OpsInv d o P Q) (hd : 0 ≤ d) {bounded : Bool} {bs : ℤ}
    (hbs : 1 ≤ bs) (fuel : ℕ) {s : σ × ℝ} (hs : P s.1) {clean : Bool} {s' : σ × ℝ}
    (ht : slideTour (potOps o prof d bs) bounded bs 0 d fuel s = .ok clean s') :
    P s'.1 ∧ (clean = false → s'.2 = slidePotential d (prof s'.1) 0 d bs ∧ s'.2 < s.2) := by
  set o' : Ops (σ × ℝ) := { potOps o prof d bs with noProgress := fun s => (true, s) } with ho'
  have hinv : OpsInv d o' (fun t => P t.1 ∧ t.2 = s.2) (fun t => Q t.1) := potOps_inv h s.2
  have h1 := slideTour_all hinv hd (bounded := bounded) hbs fuel (s := s) ⟨hs, rfl⟩
  unfold slideTour at ht h1
  rw [slideLoop_ops (o := o') (o' := potOps o prof d bs) rfl rfl] at h1
  cases e1 : slideLoop (potOps o prof d bs) bounded bs 0 d fuel s with
  | thrown t => rw [e1] at ht; cases ht
  | ub t => rw [e1] at ht; cases ht
  | stuck t => rw [e1] at ht; cases ht
  | ok a t =>
    rw [e1] at ht h1
    dsimp only [Out.bind] at ht h1
    have e3 : o'.svp = (potOps o prof d bs).svp := rfl
    rw [e3] at h1
    cases e2 : loop (fun i => (potOps o prof d bs).svp (0 + i * bs + 1) bs true) 1 (numBlocks bs 0 d - 1).toNat 0 true t with
    | thrown t => rw [e2] at ht; cases ht
    | ub t => rw [e2] at ht; cases ht
    | stuck t => rw [e2] at ht; cases ht
    | ok a t =>
      rw [e2] at ht h1
      dsimp only at ht h1
      obtain ⟨hP, hv⟩ : P t.1 ∧ t.2 = s.2 := h1
      unfold potOps at ht
      dsimp only at ht
      by_cases hc : t.2 ≤ slidePotential d (prof t.1) 0 d bs
      · rw [if_pos hc] at ht
        cases ht
        exact ⟨hP, fun h => absurd h Bool.noConfusion⟩
      · rw [if_neg hc] at ht
        cases ht
        refine ⟨hP, fun _ => ⟨rfl, ?_⟩⟩
        rw [← hv]
        exact not_lt.1 (fun h => hc (not_lt.1 (fun h' => absurd h (not_lt.2 h'.le)))) |>.lt_of_ne (fun h => hc h.ge)

variable {D : Type} [LinearOrder D] [OrderTop D]

/-- after `k` tours with progress, the potential is the logarithm of a positive integer that is smaller than the first one by `k` -/
theorem pot_decreases {o : Ops σ} {bas : σ → ℕ → ℕ → ℤ} {d n : ℕ} (hd : 1 ≤ d) {P Q : σ → Prop} (h : OpsInv d o P Q)
    (hP : ∀ s, P s → Indep d n (toQ (bas s))) (c : Cfg D) (hsd : c.sd = false) (hsld : c.sld = true) {bs : ℕ} (hbs : 1 ≤ bs)
    (hcbs : c.blockSize = bs) (e : Env D (σ × ℝ)) (he : ∀ i s, P s.1 → P (e.slope i s).2.1 ∧ (e.slope i s).2.2 = s.2) (inner : ℕ)
    (s0 : σ) (hs0 : P s0) (k : ℕ)
    (hr : Ran (potOps o (fun s => profOf n (bas s)) d bs) c e d inner (s0, slidePotential d (profOf n (bas s0)) 0 d bs) k) :
    P (headState (potOps o (fun s => profOf n (bas s)) d bs) c e d inner (s0, slidePotential d (profOf n (bas s0)) 0 d bs) k).1 ∧
    ∃ z : ℤ, 1 ≤ z ∧ z + k ≤ slideProd d n bs (bas s0) ∧
      (headState (potOps o (fun s => profOf n (bas s)) d bs) c e d inner (s0, slidePotential d (profOf n (bas s0)) 0 d bs) k).2 = Real.log z := by
  induction k with
  | zero =>
    obtain ⟨h1, h2⟩ := C77_slide_potential hd hbs (hP s0 hs0)
    exact ⟨hs0, _, h1, by simp, h2⟩
  | succ k ih =>
    obtain ⟨hPk, z, hz1, hz2, hz3⟩ := ih fun i hi => hr i (by omega)
    obtain ⟨-, -, s', hs'⟩ := hr k (by omega)
    have hst : headState (potOps o (fun s => profOf n (bas s)) d bs) c e d inner (s0, slidePotential d (profOf n (bas s0)) 0 d bs) (k + 1)
        = s' := by
      have : headState (potOps o (fun s => profOf n (bas s)) d bs) c e d inner (s0, slidePotential d (profOf n (bas s0)) 0 d bs) (k + 1)
        = (tourAt (potOps o (fun s => profOf n (bas s)) d bs) c e d inner (s0, slidePotential d (profOf n (bas s0)) 0 d bs) k).state := rfl
      rw [this, hs']; rfl
    rw [hst]
    unfold tourAt oneTour at hs'
    rw [hsd, hsld, if_neg (by decide), if_pos rfl, hcbs] at hs'
    have hent : P (entry c e k (headState (potOps o (fun s => profOf n (bas s)) d bs) c e d inner
        (s0, slidePotential d (profOf n (bas s0)) 0 d bs) k)).1 ∧
        (entry c e k (headState (potOps o (fun s => profOf n (bas s)) d bs) c e d inner
        (s0, slidePotential d (profOf n (bas s0)) 0 d bs) k)).2 = Real.log z := by
      unfold entry
      split_ifs
      · exact ⟨(he _ _ hPk).1, (he _ _ hPk).2.trans hz3⟩
      · exact ⟨hPk, hz3⟩
    obtain ⟨hP', hpot⟩ := slideTour_pot h (by omega) (by exact_mod_cast hbs) inner hent.1 hs'
    obtain ⟨hp1, hp2⟩ := hpot rfl
    obtain ⟨h1, h2⟩ := C77_slide_potential hd hbs (hP s'.1 hP')
    rw [hent.2, hp1, h2] at hp2
    have hlt : slideProd d n bs (bas s'.1) < z := by
      have := (Real.log_lt_log_iff (by exact_mod_cast h1) (by exact_mod_cast hz1)).1 hp2
      exact_mod_cast this
    refine ⟨hP', slideProd d n bs (bas s'.1), h1, ?_, hp1.trans h2⟩
    push_cast
    omega

/-- **C77, slide reduction stops.**  Let the procedures keep the basis independent (`P`), and let the potential be computed exactly.
Then `bkz()` in slide mode runs at most as many tours as the product of the Gram determinants of the first `bs, 2 bs, …` rows of the
basis it starts from, whatever the other limits are: the loop can only be stuck if a tour is. -/
theorem C77_slide_stops {o : Ops σ} {bas : σ → ℕ → ℕ → ℤ} {d n : ℕ} (hd : 1 ≤ d) {P Q : σ → Prop} (h : OpsInv d o P Q)
    (hP : ∀ s, P s → Indep d n (toQ (bas s))) (c : Cfg D) (hsd : c.sd = false) (hsld : c.sld = true) {bs : ℕ} (hbs : 1 ≤ bs)
    (hcbs : c.blockSize = bs) (e : Env D (σ × ℝ)) (he : ∀ i s, P s.1 → P (e.slope i s).2.1 ∧ (e.slope i s).2.2 = s.2) (inner fuel : ℕ)
    (s0 : σ) (hs0 : P s0) :
    (∀ st k s, mainLoop (potOps o (fun s => profOf n (bas s)) d bs) c e d inner fuel 0 AutoAbort.init
      (s0, slidePotential d (profOf n (bas s0)) 0 d bs) = .ok (st, k) s → k ≤ slideProd d n bs (bas s0)) ∧
    (slideProd d n bs (bas s0) ≤ fuel →
      (∀ k s, tourAt (potOps o (fun s => profOf n (bas s)) d bs) c e d inner (s0, slidePotential d (profOf n (bas s0)) 0 d bs) k ≠ .stuck s) →
      ∀ s, mainLoop (potOps o (fun s => profOf n (bas s)) d bs) c e d inner fuel 0 AutoAbort.init
        (s0, slidePotential d (profOf n (bas s0)) 0 d bs) ≠ .stuck s) := by
  set o' := potOps o (fun s => profOf n (bas s)) d bs with ho'
  set s0' : σ × ℝ := (s0, slidePotential d (profOf n (bas s0)) 0 d bs) with hs0'
  have hdec := fun k hr => pot_decreases hd h hP c hsd hsld hbs hcbs e he inner s0 hs0 k hr
  constructor
  · intro st k s hs
    rcases C24_loop o' c e d inner fuel s0' with ⟨j, -, hr, hend⟩ | ⟨-, hst⟩
    · obtain ⟨-, z, hz1, hz2, -⟩ := hdec j hr
      rw [hs] at hend
      cases hend with
      | loops _ => omega
      | time _ _ => omega
      | abort _ _ _ => omega
      | done _ _ _ _ _ => push_cast; omega
    · rw [hs] at hst; cases hst
  · intro hfuel htour s hs
    rcases C24_loop o' c e d inner fuel s0' with ⟨j, -, hr, hend⟩ | ⟨hr, -⟩
    · rw [hs] at hend
      cases hend with
      | stuck _ _ ht => exact htour _ _ ht
    · obtain ⟨-, z, hz1, hz2, -⟩ := hdec fuel hr
      omega

/-- **C77, slide reduction of fplll stops.**  The same for the procedures of `BKZReduction` (any floating-point type, any enumeration
results and random numbers), from an object with linearly independent rows, all of them known: the basis stays independent since every step is
unimodular. -/
theorem C77_slide_stops_fplll {F : Type} [FloatOps F] (g0 : GSO F) (hfull : Full g0) (hd : 1 ≤ g0.d)
    (hind : Indep g0.d g0.nCols (toQ g0.b)) (sc : SvpCfg F) (orc : Orc F) (hpre : ∀ bs, ∀ p ∈ orc.preproc bs, 1 ≤ p) (depth : ℕ)
    (c : Cfg D) (hsd : c.sd = false) (hsld : c.sld = true) {bs : ℕ} (hbs : 1 ≤ bs) (hcbs : c.blockSize = bs)
    (timeUp : ℕ → W F × ℝ → Bool) (slope : ℕ → W F × ℝ → D) (inner fuel t last : ℕ) (st : Status) (k : ℕ) (s : W F × ℝ)
    (hrun : mainLoop (potOps (svpOps sc orc depth c.bounded) (fun w => profOf g0.nCols w.s.b) g0.d bs) c
      ⟨timeUp, fun i w => (slope i w, ({ w.1 with s := slopeUpdate g0.d w.1.s }, w.2))⟩ g0.d inner fuel 0 AutoAbort.init
      (⟨g0, t, last, false⟩, slidePotential g0.d (profOf g0.nCols g0.b) 0 g0.d bs) = .ok (st, k) s) :
    k ≤ slideProd g0.d g0.nCols bs g0.b := by
  have hP : ∀ w : W F, Inv g0 w → Indep g0.d g0.nCols (toQ w.s.b) := by
    intro w hw
    obtain ⟨T, T', a1, a2, a3⟩ := hw.uniB
    refine Indep.of_lattice hind ?_
    rw [a3, lattice_mul ⟨T', a1, a2⟩]
  have hinv : OpsInv (g0.d : ℤ) (svpOps sc orc depth c.bounded) (Inv g0) (fun _ => True) :=
    svpOps_inv sc orc (by omega) le_rfl hpre (fun _ _ _ _ _ _ _ _ => trivial) depth c.bounded
  refine (C77_slide_stops (bas := fun w : W F => w.s.b) (n := g0.nCols) hd hinv hP c hsd hsld hbs hcbs _ ?_ inner fuel
    ⟨g0, t, last, false⟩ ((Keep.refl hfull).keeps false)).1 st k s hrun
  intro i w hw
  refine ⟨?_, rfl⟩
  exact hw.keep (slopeUpdate_keep hw.full (by rw [hw.d]))

/-- an example: two rows `(3, 0), (0, 1)`, which the dual step exchanges -/
def exBas (swapped : Bool) : ℕ → ℕ → ℤ := fun i c => if (i = 0) = (c = 0) then (if c = 0 then 3 else 1) * (if swapped then 0 else 1)
  else (if c = 0 then 3 else 1) * (if swapped then 1 else 0)

/-- its procedures -/
def exOps : Ops Bool where
  svp _ _ dual s := if dual = true then .ok false true else .ok true s
  lll _ _ _ s := .ok (true, false) s
  sizeRed _ _ _ s := .ok true s
  symG s := s
  noProgress s := (true, s)

theorem exOps_inv : OpsInv 2 exOps (fun _ => True) (fun _ => False) where
  svp _ _ dual _ _ _ _ _ := by unfold exOps; cases dual <;> trivial
  lll _ _ := trivial
  sizeRed _ _ _ _ _ := trivial
  symG _ _ := trivial
  noProgress _ _ := trivial

theorem exBas_indep (s : Bool) : Indep 2 2 (toQ (exBas s)) := by
  cases s <;> exact indep_of_pos (by decide +kernel)

/-- the product goes down from 9 to 1 -/
example : slideProd 2 2 1 (exBas false) = 9 ∧ slideProd 2 2 1 (exBas true) = 1 := by decide +kernel

/-- so at most 9 tours are run (in fact two) -/
example (inner fuel : ℕ) (st : Status) (k : ℕ) (s : Bool × ℝ)
    (h : mainLoop (potOps exOps (fun s => profOf 2 (exBas s)) 2 1) ⟨1, false, true, none, false, false, false, id, 5⟩ (exEnv _) 2 inner fuel 0
      AutoAbort.init (false, slidePotential 2 (profOf 2 (exBas false)) 0 2 1) = .ok (st, k) s) : (k : ℤ) ≤ 9 := by
  have := (C77_slide_stops (d := 2) (n := 2) (bas := exBas) (by norm_num) exOps_inv (fun s _ => exBas_indep s) _ rfl rfl (bs := 1) le_rfl rfl (exEnv _)
    (fun _ _ _ => ⟨trivial, rfl⟩) inner fuel false trivial).1 st k s h
  rwa [show slideProd 2 2 1 (exBas false) = 9 by decide +kernel] at this

end stops

/-! ## The Gaussian heuristic -/

section gh
open MeasureTheory

theorem sqrt_pow' {x : ℝ} (hx : 0 ≤ x) (n : ℕ) : √x ^ n = √(x ^ n) := by
  rw [← Real.sqrt_sq (pow_nonneg (Real.sqrt_nonneg x) n), ← pow_mul, mul_comm, pow_mul, Real.sq_sqrt hx]

/-- **C77, Gaussian heuristic.**  The bound of `adjust_radius_to_gh_bound` is the squared radius (without its exponent) of a ball whose
volume is `√((gh_factor * root_det) ^ bs)`: for `gh_factor = 1` and `root_det` the geometric mean of the squared lengths of a block, the
volume of the lattice projected to the block. -/
theorem C77_gh (e : ℤ) (bs : ℕ) (hbs : 1 ≤ bs) (rd gh : ℝ) (hrd : 0 < rd) (hgh : 0 < gh) :
    0 < ghBound e bs rd gh ∧ volume (Metric.ball (0 : EuclideanSpace ℝ (Fin bs)) (√(ghBound e bs rd gh * (2 : ℝ) ^ e))) =
      ENNReal.ofReal (√((gh * rd) ^ bs)) := by
  have hpi := Real.pi_pos
  have hG : 0 < Real.Gamma ((bs : ℝ) / 2 + 1) := Real.Gamma_pos_of_pos (by positivity)
  have hb0 : (bs : ℝ) ≠ 0 := by
    have : bs ≠ 0 := by omega
    exact_mod_cast this
  set G : ℝ := Real.exp (Real.log (Real.Gamma ((bs : ℝ) / 2 + 1)) * 2 / bs) with hGd
  have hG0 : 0 < G := Real.exp_pos _
  have hGb : G ^ bs = Real.Gamma ((bs : ℝ) / 2 + 1) ^ 2 := by
    rw [hGd, ← Real.exp_nat_mul, mul_div_cancel₀ _ hb0, mul_two, Real.exp_add, Real.exp_log hG, sq]
  have hx : ghBound e bs rd gh * (2 : ℝ) ^ e = G / Real.pi * (gh * rd) := by
    unfold ghBound
    rw [← hGd]
    have : (2 : ℝ) ^ (-e) * (2 : ℝ) ^ e = 1 := by rw [← zpow_add₀ two_ne_zero]; simp
    linear_combination (G / Real.pi * rd * gh) * this
  refine ⟨by unfold ghBound; positivity, ?_⟩
  have : Nonempty (Fin bs) := ⟨⟨0, by omega⟩⟩
  rw [EuclideanSpace.volume_ball, hx, Fintype.card_fin, ← ENNReal.ofReal_pow (Real.sqrt_nonneg _), ← ENNReal.ofReal_mul (by positivity)]
  congr 1
  have h1 : √(G / Real.pi * (gh * rd)) ^ bs = Real.Gamma ((bs : ℝ) / 2 + 1) / √Real.pi ^ bs * √((gh * rd) ^ bs) := by
    rw [Real.sqrt_mul (by positivity), Real.sqrt_div hG0.le, mul_pow, div_pow]
    have e1 : √G ^ bs = Real.Gamma ((bs : ℝ) / 2 + 1) := by
      rw [sqrt_pow' hG0.le, hGb, Real.sqrt_sq hG.le]
    have e2 : √(gh * rd) ^ bs = √((gh * rd) ^ bs) := sqrt_pow' (by positivity) _
    rw [e1, e2]
  rw [h1]
  have h2 : √Real.pi ^ bs ≠ 0 := by positivity
  field_simp

/-- the squared enumeration radius that `svp_reduction` passes on -/
noncomputable def sqRadius (d : ℤ) (r : ℤ → ℝ) (x : ℝ) (e : ℤ) (kappa : ℤ) (bs : ℕ) (delta ghFactor : ℝ) (ghOn dual : Bool) : ℝ :=
  (svpRadius d r x e kappa bs delta ghFactor ghOn dual).1 * (2 : ℝ) ^ (svpRadius d r x e kappa bs delta ghFactor ghOn dual).2

/-- the volume of the ball in which vectors are enumerated -/
noncomputable def ballVol (bs : ℕ) (R : ℝ) : ENNReal := volume (Metric.ball (0 : EuclideanSpace ℝ (Fin bs)) (√R))

/-- the volume of the projected lattice of a block -/
noncomputable def blockVol (r : ℤ → ℝ) (kappa : ℤ) (bs : ℕ) : ℝ := √(∏ j ∈ range bs, r (kappa + j))

theorem root_pow {d : ℤ} {r : ℤ → ℝ} (hr : ∀ i, 0 ≤ i → i < d → 0 < r i) {kappa : ℤ} {bs : ℕ} (hk : 0 ≤ kappa) (hb : 1 ≤ bs)
    (hd : kappa + bs ≤ d) : 0 < rootDet d r kappa (kappa + bs) ∧ rootDet d r kappa (kappa + bs) ^ bs = ∏ j ∈ range bs, r (kappa + j) := by
  have h := C77_root_det d r kappa (kappa + bs) hr hk (by omega) hd
  have e : (kappa + (bs : ℤ) - kappa).toNat = bs := by omega
  rw [e] at h
  exact h

theorem ballVol_mono {bs : ℕ} {R R' : ℝ} (h : R ≤ R') : ballVol bs R ≤ ballVol bs R' :=
  measure_mono (Metric.ball_subset_ball (Real.sqrt_le_sqrt h))

/-- **C77, radius of a primal block.**  With `BKZ_GH_BND` and more than 30 rows, the squared radius is at most `delta` times the
squared length of the first vector of the block, the ball has at most `gh_factor^(bs/2)` times the volume of the projected lattice, and one of
the two bounds is attained.  Otherwise it is the first bound. -/
theorem C77_radius_primal (d : ℤ) (r : ℤ → ℝ) (hr : ∀ i, 0 ≤ i → i < d → 0 < r i) (x : ℝ) (e : ℤ) (kappa : ℤ) (bs : ℕ) (hk : 0 ≤ kappa)
    (hb : 1 ≤ bs) (hd : kappa + bs ≤ d) (hx : x * (2 : ℝ) ^ e = r kappa) (delta gh : ℝ) (hgh : 0 < gh) (ghOn : Bool) :
    if ghOn = true ∧ 30 < bs then
      sqRadius d r x e kappa bs delta gh ghOn false ≤ delta * r kappa ∧
      ballVol bs (sqRadius d r x e kappa bs delta gh ghOn false) ≤ ENNReal.ofReal (√(gh ^ bs) * blockVol r kappa bs) ∧
      (sqRadius d r x e kappa bs delta gh ghOn false = delta * r kappa ∨
        ballVol bs (sqRadius d r x e kappa bs delta gh ghOn false) = ENNReal.ofReal (√(gh ^ bs) * blockVol r kappa bs))
    else sqRadius d r x e kappa bs delta gh ghOn false = delta * r kappa := by
  obtain ⟨hr0, hrp⟩ := root_pow hr hk hb hd
  obtain ⟨hg0, hvol⟩ := C77_gh e bs hb _ gh hr0 hgh
  have h2 : (0 : ℝ) < (2 : ℝ) ^ e := by positivity
  have e1 : √((gh * rootDet d r kappa (kappa + bs)) ^ bs) = √(gh ^ bs) * blockVol r kappa bs := by
    unfold blockVol
    rw [mul_pow, hrp, Real.sqrt_mul (by positivity)]
  rw [e1] at hvol
  have e2 : x * delta * (2 : ℝ) ^ e = delta * r kappa := by rw [← hx]; ring
  split_ifs with h
  · unfold sqRadius svpRadius
    dsimp only
    rw [if_pos h]
    simp only [Bool.false_eq_true, if_false]
    unfold adjustRadius
    split_ifs with hlt
    · exact ⟨e2 ▸ (mul_le_mul_of_nonneg_right hlt.le h2.le), hvol.le, Or.inr hvol⟩
    · rw [e2]
      refine ⟨le_rfl, ?_, Or.inl rfl⟩
      rw [← e2]
      exact (ballVol_mono (mul_le_mul_of_nonneg_right (not_lt.1 hlt) h2.le)).trans hvol.le
  · unfold sqRadius svpRadius
    dsimp only
    rw [if_neg h]
    simp only [Bool.false_eq_true, if_false]
    exact e2

/-- **C77, radius of a dual block.**  For a dual block the bound is compared with the volume of the *primal* block: when it takes
effect, the ball has `gh_factor^(bs/2)` times the volume of the primal block, not of its dual. -/
theorem C77_radius_dual (d : ℤ) (r : ℤ → ℝ) (hr : ∀ i, 0 ≤ i → i < d → 0 < r i) (x : ℝ) (e : ℤ) (kappa : ℤ) (bs : ℕ) (hk : 0 ≤ kappa)
    (hb : 30 < bs) (hd : kappa + bs ≤ d) (hx : x * (2 : ℝ) ^ e = r (kappa + bs - 1)) (delta gh : ℝ) (hgh : 0 < gh) :
    sqRadius d r x e kappa bs delta gh true true ≤ delta / r (kappa + bs - 1) ∧
    (sqRadius d r x e kappa bs delta gh true true = delta / r (kappa + bs - 1) ∨
      ballVol bs (sqRadius d r x e kappa bs delta gh true true) = ENNReal.ofReal (√(gh ^ bs) * blockVol r kappa bs)) := by
  obtain ⟨hr0, hrp⟩ := root_pow hr hk (by omega) hd
  obtain ⟨hg0, hvol⟩ := C77_gh (e * -1) bs (by omega) _ gh hr0 hgh
  have h2 : (0 : ℝ) < (2 : ℝ) ^ (e * -1) := by positivity
  have e1 : √((gh * rootDet d r kappa (kappa + bs)) ^ bs) = √(gh ^ bs) * blockVol r kappa bs := by
    unfold blockVol
    rw [mul_pow, hrp, Real.sqrt_mul (by positivity)]
  rw [e1] at hvol
  have e2 : x⁻¹ * delta * (2 : ℝ) ^ (e * -1) = delta / r (kappa + bs - 1) := by
    rw [← hx, mul_neg_one, zpow_neg, div_eq_mul_inv, mul_inv]; ring
  unfold sqRadius svpRadius
  dsimp only
  rw [if_pos ⟨rfl, hb⟩]
  simp only [if_true]
  unfold adjustRadius
  split_ifs with hlt
  · exact ⟨e2 ▸ (mul_le_mul_of_nonneg_right hlt.le h2.le), Or.inr hvol⟩
  · exact ⟨e2.le, Or.inl e2⟩

/-- a case in which the bound takes effect -/
theorem dual_active (r : ℤ → ℝ) (hr : ∀ i, 0 < r i) (hp : ∏ j ∈ range 31, r (0 + j) ≤ 2) (hl : (2 : ℝ) ^ 28 ≤ (r 30)⁻¹ * (99 / 100)) :
    sqRadius 31 r (r 30) 0 0 31 (99 / 100) 1 true true < (r 30)⁻¹ * (99 / 100) ∧
    ballVol 31 (sqRadius 31 r (r 30) 0 0 31 (99 / 100) 1 true true) = ENNReal.ofReal (blockVol r 0 31) := by
  obtain ⟨hr0, hrp⟩ := root_pow (d := 31) (kappa := 0) (bs := 31) (fun i _ _ => hr i) le_rfl (by norm_num) (by norm_num)
  obtain ⟨hg0, hvol⟩ := C77_gh 0 31 (by norm_num) _ 1 hr0 one_pos
  rw [one_mul, hrp] at hvol
  have hlt : ghBound 0 31 (rootDet 31 r 0 (0 + (31 : ℕ))) 1 < (r 30)⁻¹ * (99 / 100) := by
    refine lt_of_lt_of_le ?_ hl
    refine lt_of_pow_lt_pow_left₀ 31 (by norm_num) ?_
    unfold ghBound
    rw [neg_zero, zpow_zero, mul_one, mul_one, mul_pow, hrp, div_pow]
    have hG : 0 < Real.Gamma (((31 : ℕ) : ℝ) / 2 + 1) := Real.Gamma_pos_of_pos (by positivity)
    have e1 : Real.exp (Real.log (Real.Gamma (((31 : ℕ) : ℝ) / 2 + 1)) * 2 / ((31 : ℕ) : ℝ)) ^ 31
        = Real.Gamma (((31 : ℕ) : ℝ) / 2 + 1) ^ 2 := by
      rw [← Real.exp_nat_mul, mul_div_cancel₀ _ (by norm_num), mul_two, Real.exp_add, Real.exp_log hG, sq]
    rw [e1]
    have e2 : Real.Gamma (((31 : ℕ) : ℝ) / 2 + 1) ≤ 20922789888000 := by
      have h1 : Real.Gamma (((31 : ℕ) : ℝ) / 2 + 1) ≤ Real.Gamma (((16 : ℕ) : ℝ) + 1) :=
        Real.Gamma_strictMonoOn_Ici.monotoneOn (by rw [Set.mem_Ici]; norm_num) (by rw [Set.mem_Ici]; norm_num) (by norm_num)
      rw [Real.Gamma_nat_eq_factorial] at h1
      refine h1.trans ?_
      norm_num [Nat.factorial]
    have e3 : (1 : ℝ) ≤ Real.pi ^ 31 := one_le_pow₀ (by linarith [Real.two_le_pi])
    have e4 : Real.Gamma (((31 : ℕ) : ℝ) / 2 + 1) ^ 2 / Real.pi ^ 31 ≤ 20922789888000 ^ 2 :=
      (div_le_self (by positivity) e3).trans (pow_le_pow_left₀ hG.le e2 2)
    have e5 : (0 : ℝ) ≤ ∏ j ∈ range 31, r (0 + j) := prod_nonneg fun j _ => (hr _).le
    calc _ ≤ (20922789888000 : ℝ) ^ 2 * 2 := mul_le_mul e4 hp e5 (by norm_num)
      _ < _ := by norm_num
  unfold sqRadius svpRadius adjustRadius
  dsimp only
  rw [if_pos ⟨rfl, by norm_num⟩]
  simp only [if_true, zero_mul]
  rw [if_pos hlt]
  refine ⟨?_, hvol⟩
  rw [zpow_zero, mul_one]
  exact hlt

/-- **C77, the radius of dual blocks is wrong.**  With `gh_factor = 1` the ball should have at most the volume of the dual of the
projected lattice, and should not be smaller unless the last vector of the block demands it.  The first fails for squared lengths `2, …, 2, 2^-29`
(31 rows), the second for `1, …, 1, 2^-29`. -/
theorem C77_radius_dual_violated :
    (∃ r : ℤ → ℝ, (∀ i, 0 < r i) ∧
      ENNReal.ofReal (blockVol r 0 31)⁻¹ < ballVol 31 (sqRadius 31 r (r 30) 0 0 31 (99 / 100) 1 true true)) ∧
    (∃ r : ℤ → ℝ, (∀ i, 0 < r i) ∧ sqRadius 31 r (r 30) 0 0 31 (99 / 100) 1 true true < 99 / 100 / r 30 ∧
      ballVol 31 (sqRadius 31 r (r 30) 0 0 31 (99 / 100) 1 true true) < ENNReal.ofReal (blockVol r 0 31)⁻¹) := by
  constructor
  · refine ⟨fun i => if i = 30 then ((2 : ℝ) ^ 29)⁻¹ else 2, fun i => by dsimp only; split_ifs <;> positivity, ?_⟩
    have hp : ∏ j ∈ range 31, (fun i : ℤ => if i = 30 then ((2 : ℝ) ^ 29)⁻¹ else 2) (0 + j) = 2 := by
      norm_num [prod_range_succ]
    have hpos : ∀ i : ℤ, 0 < (fun i : ℤ => if i = 30 then ((2 : ℝ) ^ 29)⁻¹ else 2) i := fun i => by
      change 0 < if i = 30 then ((2 : ℝ) ^ 29)⁻¹ else 2
      split_ifs <;> positivity
    rw [(dual_active _ hpos hp.le (by norm_num)).2]
    unfold blockVol
    rw [hp, ENNReal.ofReal_lt_ofReal_iff (by positivity)]
    have h1 : 1 < √(2 : ℝ) := by rw [Real.lt_sqrt (by norm_num)]; norm_num
    exact lt_trans (inv_lt_one_of_one_lt₀ h1) h1
  · refine ⟨fun i => if i = 30 then ((2 : ℝ) ^ 29)⁻¹ else 1, fun i => by dsimp only; split_ifs <;> positivity, ?_⟩
    have hp : ∏ j ∈ range 31, (fun i : ℤ => if i = 30 then ((2 : ℝ) ^ 29)⁻¹ else 1) (0 + j) = ((2 : ℝ) ^ 29)⁻¹ := by
      norm_num [prod_range_succ]
    have hpos : ∀ i : ℤ, 0 < (fun i : ℤ => if i = 30 then ((2 : ℝ) ^ 29)⁻¹ else 1) i := fun i => by
      change 0 < if i = 30 then ((2 : ℝ) ^ 29)⁻¹ else 1
      split_ifs <;> positivity
    obtain ⟨hact1, hact⟩ := dual_active _ hpos (by rw [hp]; norm_num) (by norm_num)
    have h1 : √((2 : ℝ) ^ 29)⁻¹ < 1 := by rw [Real.sqrt_lt' one_pos]; norm_num
    have h0 : 0 < √((2 : ℝ) ^ 29)⁻¹ := by positivity
    have hlt : ENNReal.ofReal (√((2 : ℝ) ^ 29)⁻¹) < ENNReal.ofReal (√((2 : ℝ) ^ 29)⁻¹)⁻¹ := by
      rw [ENNReal.ofReal_lt_ofReal_iff (by positivity)]
      exact h1.trans ((one_lt_inv₀ h0).2 h1)
    refine ⟨lt_of_lt_of_eq hact1 ((mul_comm _ _).trans (div_eq_mul_inv _ _).symm), ?_⟩
    rw [hact]
    unfold blockVol
    rw [hp]
    exact hlt

end gh

end Shape
end Fplll

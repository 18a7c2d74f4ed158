import Mathlib.Analysis.SpecialFunctions.Log.Deriv
import Mathlib.Analysis.Complex.ExponentialBounds
import Mathlib.Algebra.BigOperators.Intervals
import Verif.Model.LLLBudget
import Verif.Proofs.LLLCount
import Verif.Props.LLLExact

/-!
# C62: the iteration limit of LLL is large enough

In exact arithmetic, on linearly independent rows, LLL never stops with `RED_LLL_FAILURE`: the limit computed at its start suffices.
-/

open Finset

namespace Fplll

open FloatOps Spec GSO LLL BKZ

theorem size_bound {x : ℤ} {e : ℕ} (h : expZ x ≤ e) : |x| < 2 ^ e := by
  have h1 : x.natAbs < 2 ^ e := Nat.size_le.1 h
  rw [Int.abs_eq_natAbs]
  exact_mod_cast h1

/-- the largest exponent bounds all entries -/
theorem maxExp_bound (r n : ℕ) (b : Mat ℤ) : ∀ i < r, ∀ j < n, |b i j| < 2 ^ maxExp r n b := by
  have key : ∀ i < r, ∀ j < n, expZ (b i j) ≤ maxExp r n b := by
    refine forUp_inv (P := fun k (m : ℕ) => ∀ i < k, ∀ j < n, expZ (b i j) ≤ m)
      (fun i m => forUp 0 n (fun j m => max m (expZ (b i j))) m) (Nat.zero_le r) 0 (by intro i hi; omega) ?_
    intro i m _ _ hm
    have inner := forUp_inv (P := fun k (m' : ℕ) => m ≤ m' ∧ ∀ j < k, expZ (b i j) ≤ m')
      (fun j m => max m (expZ (b i j))) (Nat.zero_le n) m ⟨le_rfl, by intro j hj; omega⟩
      (by
        rintro j m' _ _ ⟨h1, h2⟩
        refine ⟨by omega, fun l hl => ?_⟩
        by_cases hlj : l = j
        · rw [hlj]; exact le_max_right _ _
        · exact (h2 l (by omega)).trans (le_max_left _ _))
    intro l hl j hj
    by_cases hli : l = i
    · rw [hli]; exact inner.2 j hj
    · exact (hm l (by omega) j hj).trans inner.1
  exact fun i hi j hj => size_bound (key i hi j hj)

/-- the potential of a matrix with bounded entries -/
theorem potential_le {d n e : ℕ} {b : ℕ → ℕ → ℤ} (hb : ∀ i < d, ∀ j < n, |b i j| < 2 ^ e) :
    ((potential (d - 1) n b : ℤ) : ℚ) ≤ ((n : ℚ) * 4 ^ e) ^ (d * (d - 1) / 2) := by
  have hM : (0 : ℚ) ≤ (n : ℚ) * 4 ^ e := by positivity
  have h1 : ∀ i < d, normStar n (toQ b) i ≤ (n : ℚ) * 4 ^ e := by
    intro i hi
    have h0 := distSq_anti (n := n) (B := toQ b) (Nat.zero_le i) (toQ b i)
    rw [distSq_row] at h0
    refine h0.trans ?_
    have : distSq n (toQ b) 0 (toQ b i) = ∑ c ∈ range n, toQ b i c * toQ b i c := by
      unfold distSq spanSq dotQ; simp
    rw [this]
    have h2 : ∀ c ∈ range n, toQ b i c * toQ b i c ≤ 4 ^ e := by
      intro c hc
      rw [mem_range] at hc
      have h3 : |b i c| ≤ 2 ^ e := (hb i hi c hc).le
      have h4 : b i c * b i c ≤ 4 ^ e := by
        rw [← abs_mul_abs_self (b i c)]
        calc |b i c| * |b i c| ≤ 2 ^ e * 2 ^ e := mul_le_mul h3 h3 (abs_nonneg _) (by positivity)
          _ = 4 ^ e := by rw [← mul_pow]; norm_num
      unfold toQ
      exact_mod_cast h4
    refine (sum_le_sum h2).trans ?_
    rw [sum_const, card_range, nsmul_eq_mul]
  unfold potential
  push_cast
  have h2 : ∀ m ∈ range (d - 1), ((gramDet n b (m + 1) : ℤ) : ℚ) ≤ ((n : ℚ) * 4 ^ e) ^ (m + 1) := by
    intro m hm
    rw [mem_range] at hm
    rw [gramDet_eq]
    calc ∏ j ∈ range (m + 1), normStar n (fun i c => (b i c : ℚ)) j ≤ ∏ _j ∈ range (m + 1), ((n : ℚ) * 4 ^ e) :=
          prod_le_prod (fun j _ => normStar_nonneg _ _ _) (fun j hj => h1 j (by rw [mem_range] at hj; omega))
      _ = _ := by rw [prod_const, card_range]
  refine (prod_le_prod (fun m _ => by rw [gramDet_eq]; exact prod_nonneg fun j _ => normStar_nonneg _ _ _) h2).trans (le_of_eq ?_)
  rw [prod_pow_eq_pow_sum]
  congr 1
  have h3 : ∑ i ∈ range (d - 1), (i + 1) = ∑ i ∈ range d, i := by
    rcases d with _ | d
    · rfl
    · rw [Nat.add_sub_cancel, sum_range_succ']
      simp
  rw [h3, sum_range_id]

/-- **C62.**  `lll()` in exact arithmetic, with `1/2 ≤ η`, `η² < δ < 1`, after any disciplined use of the object, on the first `d` rows, when
these are linearly independent.  Let `e` bound the exponents of the entries.  If the iteration limit is the truncation of a number
that is at least nine tenths of the expression in the code (so rounding errors do not matter), and the matrix has at most
`2 ^ 15 * 8 ^ e` columns, then LLL succeeds and finds no zero row. -/
theorem C62_budget_suffices {D n : ℕ} (hn : 1 ≤ n) (ig wu wi fl : Bool) (b u v jz : Mat ℤ)
    (jf : Mat Exact) (s : GSO Exact) (h : Session (mk0 D n ig wu wi fl b u v jz jf) s none)
    (hu : s.colsLocked = false) {d : ℕ} (hd : 1 ≤ d) (hds : d ≤ s.d) (δ η : ℚ) (hη : 1 / 2 ≤ η) (hδ : η ^ 2 < δ) (hδ1 : δ < 1)
    (siegel early : Bool) (fuel maxIter last : ℕ) (hfuel : 2 ≤ fuel)
    (hind : Indep d s.nCols (basisQ s.b)) (e : ℕ) (he : ∀ i < d, ∀ j < s.nCols, |s.b i j| < 2 ^ e)
    (hcols : s.nCols ≤ 2 ^ 15 * 8 ^ e) (hmax : 9 / 10 * budget d e (δ : ℝ) < maxIter + 1) :
    let q := lll (mkCfg (some δ) (some η) siegel early) fuel maxIter last s 0 0 d 0
    q.1 = .success ∧ q.2.zeros = 0 := by
  have hwf := (mk0_wf D n ig wu wi fl b u v jz jf hn).1
  obtain ⟨hs, hf⟩ := h.inv hwf (mk0_fresh D n ig wu wi fl b u v jz jf hn)
  have hX := mkCfg_xcfg (by linarith : 0 ≤ η) hδ siegel early
  have hcfg : PCfg (mkCfg (some δ : Exact) (some η) siegel early) η (if siegel then δ - η * η else δ) δ := by
    refine ⟨hX.eta, hX.thrE, hX.eta0, ?_⟩
    change if siegel = true then _ else _
    split_ifs
    · nlinarith
    · exact le_rfl
  have hδ0 : 0 < δ := by nlinarith
  have hn1 : 1 ≤ s.nCols := by
    by_contra hc
    have := hind (fun _ => 1) (fun c hc' => by omega) 0 (by omega)
    norm_num at this
  -- real numbers
  set L : ℝ := -Real.log (δ : ℝ) with hL
  have hδR : (0 : ℝ) < (δ : ℝ) := by exact_mod_cast hδ0
  have hδR1 : (δ : ℝ) < 1 := by exact_mod_cast hδ1
  have hLpos : 0 < L := by rw [hL]; linarith [Real.log_neg hδR hδR1]
  have hl2 := Real.log_two_lt_d9
  have hl2' := Real.log_two_gt_d9
  have hL4 : L ≤ 2 * Real.log 2 := by
    have : (1 / 4 : ℝ) ≤ (δ : ℝ) := by
      have : (1 / 4 : ℚ) ≤ δ := by nlinarith
      have h2 : ((1 / 4 : ℚ) : ℝ) ≤ (δ : ℝ) := by exact_mod_cast this
      norm_num at h2 ⊢; exact h2
    have h2 := Real.log_le_log (by norm_num) this
    rw [show (1 / 4 : ℝ) = (2 ^ 2)⁻¹ by norm_num, Real.log_inv, Real.log_pow] at h2
    push_cast at h2
    linarith
  set P : ℚ := ((potential (d - 1) s.nCols s.b : ℤ) : ℚ) with hP
  have hP1 : 1 ≤ P := by
    have : 0 < potential (d - 1) s.nCols s.b :=
      prod_pos fun m hm => gramDet_pos hind (by rw [mem_range] at hm; omega)
    rw [hP]; exact_mod_cast this
  have hPle : P ≤ ((s.nCols : ℚ) * 4 ^ e) ^ (d * (d - 1) / 2) := potential_le (d := d) he
  have hPR : (1 : ℝ) ≤ (P : ℝ) := by exact_mod_cast hP1
  have hlogP : Real.log (P : ℝ) ≤ (d * (d - 1) / 2 : ℕ) * (Real.log 2 * (15 + 5 * e)) := by
    have h1 : (P : ℝ) ≤ ((s.nCols : ℝ) * 4 ^ e) ^ (d * (d - 1) / 2) := by
      have := (Rat.cast_le (K := ℝ)).2 hPle
      push_cast at this
      exact this
    have h2 := Real.log_le_log (by linarith) h1
    rw [Real.log_pow] at h2
    refine h2.trans (mul_le_mul_of_nonneg_left ?_ (by positivity))
    have h3 : (s.nCols : ℝ) * 4 ^ e ≤ 2 ^ (15 + 5 * e) := by
      have : s.nCols * 4 ^ e ≤ 2 ^ (15 + 5 * e) := by
        calc s.nCols * 4 ^ e ≤ 2 ^ 15 * 8 ^ e * 4 ^ e := Nat.mul_le_mul_right _ hcols
          _ = 2 ^ (15 + 5 * e) := by
            rw [mul_assoc, ← mul_pow, pow_add, pow_mul]; norm_num
      exact_mod_cast this
    have h4 := Real.log_le_log (by positivity) h3
    rw [Real.log_pow] at h4
    push_cast at h4
    linarith
  -- the number of swaps
  set m : ℕ := ⌊Real.log (P : ℝ) / L⌋₊ with hm
  have hmL : (m : ℝ) ≤ Real.log (P : ℝ) / L := Nat.floor_le (div_nonneg (Real.log_nonneg hPR) hLpos.le)
  have hmU : Real.log (P : ℝ) / L < m + 1 := Nat.lt_floor_add_one _
  refine lll_count _ hX hcfg hη hδ0 hδ1.le hfuel maxIter last m hs hf hu hd hds hind ?_ ?_
  · -- the limit
    have hdR : (1 : ℝ) ≤ d := by exact_mod_cast hd
    have heR : (0 : ℝ) ≤ e := Nat.cast_nonneg e
    have hh : ((d * (d - 1) / 2 : ℕ) : ℝ) ≤ d * (d - 1) / 2 := by
      have : ((d * (d - 1) / 2 : ℕ) : ℝ) ≤ ((d * (d - 1) : ℕ) : ℝ) / 2 := Nat.cast_div_le
      rw [Nat.cast_mul, Nat.cast_sub hd, Nat.cast_one] at this
      exact this
    have hb : budget d e (δ : ℝ) = d + 2 * d * (d + 1) * (e + 3) / L := by
      unfold budget
      rw [show Real.log (δ : ℝ) = -L by rw [hL]; ring, div_neg]
      ring
    have hx : Real.log (P : ℝ) ≤ d * (d - 1) / 2 * (3.6 * (e + 3)) := by
      refine hlogP.trans (mul_le_mul hh ?_ (by positivity) (by nlinarith))
      nlinarith
    have hgoal : (d : ℝ) - 1 + m < maxIter + 1 := by
      refine lt_of_le_of_lt ?_ hmax
      rw [hb]
      have h1 : (m : ℝ) * L ≤ Real.log (P : ℝ) := (le_div_iff₀ hLpos).1 hmL
      have h2 : ((d : ℝ) - 1 + m) * L ≤ 9 / 10 * (d + 2 * d * (d + 1) * (e + 3) / L) * L := by
        have : 9 / 10 * (d + 2 * d * (d + 1) * (e + 3) / L) * L = 9 / 10 * d * L + 9 / 5 * d * (d + 1) * (e + 3) := by
          field_simp
          ring
        rw [this]
        nlinarith [mul_nonneg (by linarith : (0 : ℝ) ≤ d) heR]
      exact le_of_mul_le_mul_right h2 hLpos
    have hcast : ((d - 1 + m : ℕ) : ℝ) < ((maxIter + 1 : ℕ) : ℝ) := by
      push_cast [Nat.cast_sub hd]
      exact hgoal
    have : d - 1 + m < maxIter + 1 := by exact_mod_cast hcast
    omega
  · -- the potential
    have h1 : Real.log (P : ℝ) < (m + 1) * L := (div_lt_iff₀ hLpos).1 hmU
    have h2 : Real.log ((P : ℝ) * (δ : ℝ) ^ (m + 1)) < 0 := by
      rw [Real.log_mul (by linarith) (by positivity), Real.log_pow]
      push_cast
      rw [show Real.log (δ : ℝ) = -L by rw [hL]; ring]
      linarith
    have h3 : (P : ℝ) * (δ : ℝ) ^ (m + 1) < 1 := by
      by_contra hc
      exact absurd (Real.log_nonneg (not_lt.1 hc)) (not_le.2 h2)
    exact_mod_cast h3

/-- the same for the limit as in the code, without rounding errors in its computation: `get_max_exp_of_b` covers the rows LLL works
on -/
theorem C62_never_runs_out {D n : ℕ} (hn : 1 ≤ n) (ig wu wi fl : Bool) (b u v jz : Mat ℤ)
    (jf : Mat Exact) (s : GSO Exact) (h : Session (mk0 D n ig wu wi fl b u v jz jf) s none)
    (hu : s.colsLocked = false) {d : ℕ} (hd : 1 ≤ d) (hds : d ≤ s.d) (δ η : ℚ) (hη : 1 / 2 ≤ η) (hδ : η ^ 2 < δ) (hδ1 : δ < 1)
    (siegel early : Bool) (fuel last : ℕ) (hfuel : 2 ≤ fuel)
    (hind : Indep d s.nCols (basisQ s.b)) (hcols : s.nCols ≤ 2 ^ 15) :
    ∃ k, maxIterOf d (maxExp s.d s.nCols s.b) (δ : ℝ) = some k ∧
      let q := lll (mkCfg (some δ) (some η) siegel early) fuel k.toNat last s 0 0 d 0
      q.1 = .success ∧ q.2.zeros = 0 ∧ SizeReduced s.nCols d (basisQ q.2.s.b) η ∧
      (siegel = false → Lovasz s.nCols d (basisQ q.2.s.b) δ) ∧
      (siegel = true → Siegel s.nCols d (basisQ q.2.s.b) (δ - η ^ 2)) := by
  have hne : (δ : ℝ) ≠ 1 := by
    have : (δ : ℝ) < 1 := by exact_mod_cast hδ1
    exact this.ne
  refine ⟨truncZ (budget d (maxExp s.d s.nCols s.b) (δ : ℝ)), by unfold maxIterOf; rw [if_neg hne], ?_⟩
  generalize hk : (truncZ (budget d (maxExp s.d s.nCols s.b) (δ : ℝ))).toNat = k
  have hpos : 0 ≤ budget d (maxExp s.d s.nCols s.b) (δ : ℝ) := by
    unfold budget
    have h0 : (0 : ℝ) < (δ : ℝ) := by
      have : (0 : ℚ) < δ := by nlinarith
      exact_mod_cast this
    have h1 : (δ : ℝ) < 1 := by exact_mod_cast hδ1
    have h2 := Real.log_neg h0 h1
    have h3 : ((maxExp s.d s.nCols s.b : ℝ) + 3) / Real.log (δ : ℝ) ≤ 0 := div_nonpos_of_nonneg_of_nonpos (by positivity) h2.le
    have h4 : (2 : ℝ) * d * (d + 1) * (((maxExp s.d s.nCols s.b : ℝ) + 3) / Real.log (δ : ℝ)) ≤ 0 :=
      mul_nonpos_of_nonneg_of_nonpos (by positivity) h3
    have h5 : (0 : ℝ) ≤ d := Nat.cast_nonneg d
    linarith
  have hmax : 9 / 10 * budget d (maxExp s.d s.nCols s.b) (δ : ℝ) < k + 1 := by
    have h1 : budget d (maxExp s.d s.nCols s.b) (δ : ℝ) < k + 1 := by
      rw [← hk]
      unfold truncZ
      rw [if_pos hpos]
      have h2 := Int.lt_floor_add_one (budget d (maxExp s.d s.nCols s.b) (δ : ℝ))
      have h3 : ((⌊budget d (maxExp s.d s.nCols s.b) (δ : ℝ)⌋.toNat : ℕ) : ℝ) = ⌊budget d (maxExp s.d s.nCols s.b) (δ : ℝ)⌋ := by
        have : ((⌊budget d (maxExp s.d s.nCols s.b) (δ : ℝ)⌋.toNat : ℕ) : ℤ) = ⌊budget d (maxExp s.d s.nCols s.b) (δ : ℝ)⌋ :=
          Int.toNat_of_nonneg (Int.floor_nonneg.2 hpos)
        exact_mod_cast this
      rw [h3]; exact h2
    linarith
  have he : ∀ i < d, ∀ j < s.nCols, |s.b i j| < 2 ^ maxExp s.d s.nCols s.b := fun i hi j hj =>
    maxExp_bound s.d s.nCols s.b i (by omega) j hj
  have hc : s.nCols ≤ 2 ^ 15 * 8 ^ maxExp s.d s.nCols s.b :=
    hcols.trans (Nat.le_mul_of_pos_right _ (by positivity))
  have A := C62_budget_suffices hn ig wu wi fl b u v jz jf s h hu hd hds δ η hη hδ hδ1 siegel early fuel k last hfuel hind
    (maxExp s.d s.nCols s.b) he hc hmax
  have B := C03_lll_reduced hn ig wu wi fl b u v jz jf s h hu hd hds δ η (by linarith) hδ siegel early fuel k last
  dsimp only at A B ⊢
  have B := B A.1
  rw [A.2, Nat.sub_zero] at B
  exact ⟨A.1, A.2, B.2.1, B.2.2.1, B.2.2.2.1⟩

/-- the hypotheses are met by the rows (2, 0), (1, 1) -/
example : ∃ k, maxIterOf 2 (maxExp 2 2 exBasis) ((99 / 100 : ℚ) : ℝ) = some k ∧
    (lll (mkCfg (some (99 / 100)) (some (51 / 100)) false false) 2 k.toNat 0
      (mk0 2 2 true false false false exBasis idMat idMat (fun _ _ => 0) (fun _ _ => (none : Exact))) 0 0 2 0).1 = .success := by
  have hw := mk0_wf 2 2 true false false false exBasis idMat idMat (fun _ _ => 0) (fun _ _ => (none : Exact)) (by norm_num)
  obtain ⟨hwf, hb, hu, hv, hd, hc, hg, hwu, hwi, hk, hl⟩ := hw
  have hind : Indep 2 2 (basisQ exBasis) := by
    intro a ha i hi
    have h0 := ha 0 (by norm_num)
    have h1 := ha 1 (by norm_num)
    unfold lc at h0 h1
    rw [sum_range_succ, sum_range_succ, sum_range_zero] at h0 h1
    norm_num [basisQ, exBasis] at h0 h1
    have : i = 0 ∨ i = 1 := by omega
    rcases this with rfl | rfl
    · linarith
    · exact h1
  obtain ⟨k, h1, h2⟩ := C62_never_runs_out (by norm_num) true false false false exBasis idMat idMat (fun _ _ => 0) (fun _ _ => (none : Exact)) _ .start
    hl (d := 2) (by norm_num) hd.ge (99 / 100) (51 / 100) (by norm_num) (by norm_num) (by norm_num) false false 2 0 le_rfl
    (by rw [hc, hb]; exact hind) (by rw [hc]; norm_num)
  rw [hc, hb, hd] at h1
  exact ⟨k, h1, h2.1⟩

end Fplll

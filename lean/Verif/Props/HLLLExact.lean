import Verif.Model.HExact
import Verif.Proofs.HLLLMain
import Verif.Props.HLLL

/-!
# C30 (what HLLL computes), exact arithmetic

Every theorem holds for every choice `ExactCfg` leaves open: row exponents, rounding of ties and the way integers are split
into mantissa and exponent.
-/

open Finset

namespace Fplll

open Spec GSO HInt HH Gen

namespace HL

theorem mk0_base [ExactCfg] (d n : ℕ) (fast : Bool) (t : Triple) (junk : Mat ℝ) (hn : 1 ≤ n) :
    Base 0 (mk0 d n fast t.u.isSome t.v.isSome fast t.b (t.u.getD fun _ _ => 0) (t.v.getD fun _ _ => 0) junk) :=
  ⟨mk0_wf d n fast _ _ fast t.b _ _ junk hn, fun _ => le_max_right _ _, fun _ _ => rfl⟩

/-- everything about a run at once -/
theorem zf_exact [ExactCfg] (srFuel fuel : ℕ) (fast : Bool) (δ η θ : ℝ) {d n : ℕ} (hd : 2 ≤ d) (t : Triple)
    (junk : Mat ℝ) (hi : Indep d n (basisQ t.b)) :
    (match zf srFuel fuel fast δ η θ d n t junk with
    | .next _ => False
    | .done .success h => RedTo n h.m.b δ d ∧ House d h.m ∧ d ≤ n ∧ h.m.d = d ∧ h.m.n = n
    | .done .hlllNormFailure _ => ¬ δ ≤ 1
    | .done .hlllSrFailure _ => ¬ (1 / 2 ≤ δ ∧ 0 ≤ θ)
    | .done _ _ => False
    | .ub => False
    | .outOfFuel _ => ¬ (Settles ∧ 2 ≤ srFuel ∧ δ ≤ 1 ∧ 2 * (potential d n t.b).toNat + (d - 1) < fuel)) := by
  have hn : 1 ≤ n := by
    by_contra h
    have := hi.pos 0 (by omega)
    have hn0 : n = 0 := by omega
    subst hn0
    rw [← projSq_self] at this
    unfold projSq dotQ at this
    simp at this
  unfold zf
  dsimp only
  rw [if_neg (by omega)]
  set m := mk0 d n fast t.u.isSome t.v.isSome fast t.b (t.u.getD fun _ _ => 0) (t.v.getD fun _ _ => 0) junk with hm
  have hs := start_inv (h := ⟨δ, η, θ, m, junk 0, junk 0⟩) (junk := junk 0) (junkE := fun _ => 0)
    (mk0_base d n fast t junk hn) hd hi rfl
  unfold hlll
  rw [if_neg (by change ¬ d < 2; omega)]
  obtain ⟨hI, e1, e2, e3, e4, e5, e6⟩ := hs
  have hl := loop_exact srFuel fuel _ hI
  generalize hst : start ⟨δ, η, θ, m, junk 0, junk 0⟩ (junk 0) (fun _ => 0) = st at *
  have e3' : st.h.m.d = d := e3
  have e4' : st.h.m.n = n := e4
  have e5' : st.h.m.b = t.b := e5
  unfold fuelOf at hl
  rw [e1, e2, e3', e4', e5', e6] at hl
  generalize loop srFuel fuel st = r at hl
  cases r with
  | next _ => exact hl
  | ub => exact hl
  | outOfFuel _ => exact hl
  | done s h =>
    cases s <;> first | exact hl | skip
    dsimp only at hl ⊢
    obtain ⟨h1, h2, h3, h4, h5⟩ := hl
    rw [h4, h5] at h1
    rw [h4] at h2
    exact ⟨h1, h2, by omega, h4, h5⟩

variable [ExactCfg]

/-- **C30 (partial).**  When HLLL with exact arithmetic reports success for independent rows, the output is
`(δ, η, θ)`-HLLL-reduced, for every `η ≥ 1/2` and `θ ≥ 0`.  Missing: smaller `η`, for which the statement fails
(`C30_eta_violated`), as the code compares with `δ` in place of `η`. -/
theorem C30_reduced_partial (srFuel fuel : ℕ) (fast : Bool) (δ η θ : ℝ) {d n : ℕ} (t : Triple) (junk : Mat ℝ)
    (hη : 1 / 2 ≤ η) (hθ : 0 ≤ θ) (hi : Indep d n (basisQ t.b)) (h : HL ℝ)
    (hr : zf srFuel fuel fast δ η θ d n t junk = .done .success h) : HLLLReduced n d (basisQ h.m.b) δ η θ := by
  by_cases hd : 2 ≤ d
  · have := zf_exact srFuel fuel fast δ η θ hd t junk hi
    rw [hr] at this
    exact this.1.hlll.mono le_rfl hη hθ
  · constructor
    · intro i h1 j h2; omega
    · intro i h1; omega

/-- **C30 (LLL).**  The output is also LLL-reduced, with the given `δ` and `η = 1/2`, and generates the input lattice. -/
theorem C30_lll (srFuel fuel : ℕ) (fast : Bool) (δ : ℚ) (η θ : ℝ) {d n : ℕ} (t : Triple) (junk : Mat ℝ)
    (hi : Indep d n (basisQ t.b)) (h : HL ℝ) (hr : zf srFuel fuel fast (δ : ℝ) η θ d n t junk = .done .success h) :
    LLLReduced n d (basisQ h.m.b) δ (1 / 2) ∧ lattice (toM d n h.m.b) = lattice (toM d n t.b) := by
  have ht := zf_trel srFuel fuel fast (δ : ℝ) η θ (d := d) (n := n) t junk
  rw [hr] at ht
  obtain ⟨-, -, T, T', a1, a2, a3, -⟩ := ht
  have hlat : lattice (toM d n h.m.b) = lattice (toM d n t.b) := by
    have a3' : toM d n h.m.b = T * toM d n t.b := a3
    rw [a3']; exact lattice_mul ⟨T', a1, a2⟩ _
  refine ⟨?_, hlat⟩
  by_cases hd : 2 ≤ d
  · have := zf_exact srFuel fuel fast (δ : ℝ) η θ hd t junk hi
    rw [hr] at this
    have h1 := this.1.hlll
    have hi' : Indep d n (basisQ h.m.b) := Spec.Indep.of_lattice hi hlat
    refine HLLLReduced.lll ?_ fun i hi => hi'.pos i hi
    push_cast
    exact h1
  · constructor
    · intro i h1 j h2; omega
    · intro i h1; omega

/-- **C30 (R-factor).**  On success the stored `R`, with its row exponents, is the R-factor of the returned basis. -/
theorem C30_rfactor (srFuel fuel : ℕ) (fast : Bool) (δ η θ : ℝ) {d n : ℕ} (hd : 2 ≤ d) (t : Triple) (junk : Mat ℝ)
    (hi : Indep d n (basisQ t.b)) (h : HL ℝ) (hr : zf srFuel fuel fast δ η θ d n t junk = .done .success h) :
    (∀ i < d, h.m.R i i * (2 : ℝ) ^ h.m.rowExpo i = rDiag n (basisQ h.m.b) i) ∧
    ∀ i < d, ∀ j < i, h.m.R i j * (2 : ℝ) ^ h.m.rowExpo i = rEntry n (basisQ h.m.b) i j := by
  have := zf_exact srFuel fuel fast δ η θ hd t junk hi
  rw [hr] at this
  obtain ⟨-, h2, h3, -, h5⟩ := this
  have := house_rfactor h2 (by omega)
  rw [h5] at this
  exact this

/-- **C30 (statuses).**  With exact arithmetic and at least two independent rows, HLLL accesses only rows and columns that
exist; it reports a norm failure only if `δ > 1` and a size-reduction failure only if `δ < 1/2` or `θ < 0`. -/
theorem C30_statuses (srFuel fuel : ℕ) (fast : Bool) (δ η θ : ℝ) {d n : ℕ} (hd : 2 ≤ d) (t : Triple) (junk : Mat ℝ)
    (hi : Indep d n (basisQ t.b)) :
    zf srFuel fuel fast δ η θ d n t junk ≠ .ub ∧
    ∀ s h, zf srFuel fuel fast δ η θ d n t junk = .done s h →
      s = .success ∨ s = .hlllNormFailure ∧ 1 < δ ∨ s = .hlllSrFailure ∧ (δ < 1 / 2 ∨ θ < 0) := by
  have := zf_exact srFuel fuel fast δ η θ hd t junk hi
  refine ⟨fun h => by rw [h] at this; exact this, fun s h hr => ?_⟩
  rw [hr] at this
  cases s <;> first | exact this.elim | skip
  · exact .inl rfl
  · exact .inr (.inl ⟨rfl, not_le.1 this⟩)
  · refine .inr (.inr ⟨rfl, ?_⟩)
    by_contra hc
    rw [not_or, not_lt, not_lt] at hc
    exact this hc

/-- **C30 (termination).**  For `1/2 ≤ δ ≤ 1`, `θ ≥ 0`, at least two independent rows and a rounding whose remainders round to
zero, HLLL with exact arithmetic succeeds: every size reduction ends within two passes and the main loop within twice the
product of the leading Gram determinants plus `d` rounds. -/
theorem C30_terminates (srFuel fuel : ℕ) (fast : Bool) (δ η θ : ℝ) {d n : ℕ} (hd : 2 ≤ d) (t : Triple) (junk : Mat ℝ)
    (hi : Indep d n (basisQ t.b)) (hS : Settles) (hsr : 2 ≤ srFuel) (hδ : 1 / 2 ≤ δ) (hδ1 : δ ≤ 1) (hθ : 0 ≤ θ)
    (hf : 2 * (potential d n t.b).toNat + d ≤ fuel) :
    ∃ h, zf srFuel fuel fast δ η θ d n t junk = .done .success h := by
  have := zf_exact srFuel fuel fast δ η θ hd t junk hi
  cases hz : zf srFuel fuel fast δ η θ d n t junk with
  | next _ => rw [hz] at this; exact this.elim
  | ub => rw [hz] at this; exact this.elim
  | outOfFuel _ => rw [hz] at this; exact (this ⟨hS, hsr, hδ1, by omega⟩).elim
  | done s h =>
    rw [hz] at this
    cases s <;> first | exact ⟨h, rfl⟩ | exact this.elim | exact (this hδ1).elim | exact (this ⟨hδ, hθ⟩).elim

/-! ## `η < 1/2` -/

/-- the basis (2, 0), (1, 2) -/
def tieB : Mat ℤ := fun i j => if i = 0 then (if j = 0 then 2 else 0) else if j = 0 then 1 else 2

omit [ExactCfg] in
theorem normStar0 (n : ℕ) (b : Mat ℤ) : normStar n (basisQ b) 0 = dotQ n (basisQ b 0) (basisQ b 0) := by
  rw [← rS_self, rS_rec, range_zero, sum_empty, sub_zero]

omit [ExactCfg] in
theorem rS10 (n : ℕ) (b : Mat ℤ) : rS n (basisQ b) 1 0 = dotQ n (basisQ b 1) (basisQ b 0) := by
  rw [rS_rec, range_zero, sum_empty, sub_zero]

omit [ExactCfg] in
theorem normStar1 (n : ℕ) (b : Mat ℤ) :
    normStar n (basisQ b) 1 = dotQ n (basisQ b 1) (basisQ b 1) - muS n (basisQ b) 1 0 * rS n (basisQ b) 1 0 := by
  rw [← rS_self, rS_rec, sum_range_one]

omit [ExactCfg] in
theorem indep2 {b : Mat ℤ} (h : b 0 0 * b 1 1 - b 0 1 * b 1 0 ≠ 0) : Indep 2 2 (basisQ b) := by
  intro a ha
  have h0 := ha 0 (by omega)
  have h1 := ha 1 (by omega)
  unfold lc at h0 h1
  rw [sum_range_succ, sum_range_one] at h0 h1
  unfold basisQ at h0 h1
  have hq : (b 0 0 : ℚ) * b 1 1 - b 0 1 * b 1 0 ≠ 0 := by exact_mod_cast h
  have e0 : a 0 * ((b 0 0 : ℚ) * b 1 1 - b 0 1 * b 1 0) = 0 := by linear_combination b 1 1 * h0 - b 1 0 * h1
  have e1 : a 1 * ((b 0 0 : ℚ) * b 1 1 - b 0 1 * b 1 0) = 0 := by linear_combination b 0 0 * h1 - b 0 1 * h0
  intro i hi
  interval_cases i
  · exact (mul_eq_zero.1 e0).resolve_right hq
  · exact (mul_eq_zero.1 e1).resolve_right hq

omit [ExactCfg] in
/-- no basis of this lattice is size reduced with `η = 0.3` and satisfies the Lovász condition with `δ = 0.99` -/
theorem tie_not_reduced {b : Mat ℤ} {T T' : Matrix (Fin 2) (Fin 2) ℤ} (hT : T * T' = 1)
    (hb : toM 2 2 b = T * toM 2 2 tieB) : ¬ HLLLReduced 2 2 (basisQ b) (99 / 100) (3 / 10) 0 := by
  intro hr
  have hdet : (T 0 0 * T 1 1 - T 0 1 * T 1 0) ^ 2 = 1 := by
    have h1 : T.det * T'.det = 1 := by rw [← Matrix.det_mul, hT, Matrix.det_one]
    have h2 := Int.isUnit_iff.1 (IsUnit.of_mul_eq_one _ h1)
    rw [Matrix.det_fin_two] at h2
    rcases h2 with h2 | h2 <;> rw [h2] <;> norm_num
  have hrow : ∀ i : Fin 2, b i 0 = 2 * T i 0 + T i 1 ∧ b i 1 = 2 * T i 1 := by
    intro i
    constructor
    · have := congrFun (congrFun hb i) 0
      rw [Matrix.mul_apply, Fin.sum_univ_two] at this
      simp [toM, tieB] at this
      rw [this]; ring
    · have := congrFun (congrFun hb i) 1
      rw [Matrix.mul_apply, Fin.sum_univ_two] at this
      simp [toM, tieB] at this
      rw [this]; ring
  have r0 := hrow 0
  have r1 := hrow 1
  simp only [Fin.val_zero, Fin.val_one] at r0 r1
  generalize T 0 0 = x at *
  generalize T 0 1 = y at *
  generalize T 1 0 = x' at *
  generalize T 1 1 = y' at *
  have hdet' : b 0 0 * b 1 1 - b 0 1 * b 1 0 ≠ 0 := by
    rw [r0.1, r0.2, r1.1, r1.2]
    intro h
    have : x * y' - y * x' = 0 := by linarith
    rw [this] at hdet
    norm_num at hdet
  have hi := indep2 hdet'
  have hlll : LLLReduced 2 2 (basisQ b) (99 / 100) (3 / 10) := by
    refine HLLLReduced.lll ?_ fun i h => hi.pos i h
    push_cast; exact hr
  have hs := hlll.1 1 (by omega) 0 (by omega)
  have hv := hlll.2 0 (by omega)
  have hp := hi.pos 0 (by omega)
  have hmu : muS 2 (basisQ b) 1 0 * normStar 2 (basisQ b) 0 = rS 2 (basisQ b) 1 0 := by
    rw [muS_eq, rS_self]; field_simp
  rw [zero_add, normStar1] at hv
  rw [rS10] at hmu hv
  generalize muS 2 (basisQ b) 1 0 = ν at *
  rw [normStar0] at hp hmu hv
  have d00 : dotQ 2 (basisQ b 0) (basisQ b 0) = (((2 * x + y) ^ 2 + 4 * y ^ 2 : ℤ) : ℚ) := by
    unfold dotQ basisQ
    rw [sum_range_succ, sum_range_one, r0.1, r0.2]; push_cast; ring
  have d10 : dotQ 2 (basisQ b 1) (basisQ b 0) = (((2 * x + y) * (2 * x' + y') + 4 * y * y' : ℤ) : ℚ) := by
    unfold dotQ basisQ
    rw [sum_range_succ, sum_range_one, r0.1, r0.2, r1.1, r1.2]; push_cast; ring
  have d11 : dotQ 2 (basisQ b 1) (basisQ b 1) = (((2 * x' + y') ^ 2 + 4 * y' ^ 2 : ℤ) : ℚ) := by
    unfold dotQ basisQ
    rw [sum_range_succ, sum_range_one, r1.1, r1.2]; push_cast; ring
  rw [d00] at hp hmu hv
  rw [d10] at hmu hv
  rw [d11] at hv
  have hgram : ((2 * x + y) ^ 2 + 4 * y ^ 2) * ((2 * x' + y') ^ 2 + 4 * y' ^ 2)
      = 16 + ((2 * x + y) * (2 * x' + y') + 4 * y * y') ^ 2 := by linear_combination 16 * hdet
  have hpar : (2 * x + y) * (2 * x' + y') + 4 * y * y' = 2 * ((2 * x + y) * x' + x * y') + y * y' + 4 * y * y' := by ring
  have hN : (2 * x + y) ^ 2 + 4 * y ^ 2 = (2 * x + y) ^ 2 + 4 * y ^ 2 := rfl
  generalize hn0 : (2 * x + y) ^ 2 + 4 * y ^ 2 = n0 at *
  generalize hn1 : (2 * x' + y') ^ 2 + 4 * y' ^ 2 = n1 at *
  generalize hdd : (2 * x + y) * (2 * x' + y') + 4 * y * y' = p at *
  rw [abs_le] at hs
  have hgq : (n0 : ℚ) * n1 = 16 + (p : ℚ) ^ 2 := by exact_mod_cast hgram
  have hν2 : ν ^ 2 ≤ 9 / 100 := by nlinarith
  have h4 : (n0 : ℚ) ≤ 4 := by
    by_contra hc
    rw [not_le] at hc
    have h5 : (5 : ℚ) ≤ n0 := by
      have : (4 : ℤ) < n0 := by exact_mod_cast hc
      exact_mod_cast this
    have e1 : (p : ℚ) ^ 2 = ν ^ 2 * (n0 : ℚ) ^ 2 := by rw [← hmu]; ring
    have e2 : 99 / 100 * (n0 : ℚ) ≤ n1 := by
      have : ν * (p : ℚ) = ν ^ 2 * n0 := by rw [← hmu]; ring
      nlinarith
    nlinarith [mul_le_mul_of_nonneg_right hν2 (sq_nonneg (n0 : ℚ)), mul_le_mul_of_nonneg_left e2 hp.le]
  have h4' : n0 ≤ 4 := by exact_mod_cast h4
  have hp' : 0 < n0 := by exact_mod_cast hp
  have hy : y = 0 := by
    by_contra hy
    have : 1 ≤ y ^ 2 := by
      have := sq_nonneg y
      have h0 : y ^ 2 ≠ 0 := pow_ne_zero _ hy
      omega
    have h2 : (2 * x + y) ^ 2 = 0 := by
      have := sq_nonneg (2 * x + y)
      omega
    have h3 : y ^ 2 = 1 := by omega
    have h6 : 2 * x + y = 0 := by simpa using h2
    have : y = -2 * x := by linarith
    rw [this] at h3
    have h7 : 4 * x ^ 2 = 1 := by linarith [h3]
    omega
  subst hy
  have hx : x ^ 2 = 1 := by
    have : (2 * x + 0) ^ 2 + 4 * 0 ^ 2 = 4 * x ^ 2 := by ring
    omega
  have hn04 : n0 = 4 := by
    have : (2 * x + 0) ^ 2 + 4 * 0 ^ 2 = 4 * x ^ 2 := by ring
    omega
  have hodd : y' ^ 2 = 1 := by
    have : (x * y' - 0 * x') ^ 2 = x ^ 2 * y' ^ 2 := by ring
    rw [this, hx, one_mul] at hdet
    exact hdet
  have hpp : p = 2 * (x * (2 * x' + y')) := by rw [← hdd]; ring
  have hle : |(p : ℚ)| ≤ 12 / 10 := by
    rw [← hmu, hn04, abs_le]
    push_cast
    constructor <;> nlinarith
  have hlt : |p| < 2 := by
    have : ((|p| : ℤ) : ℚ) < 2 := by push_cast; linarith
    exact_mod_cast this
  have hz : x * (2 * x' + y') = 0 := by rw [abs_lt] at hlt; omega
  rcases mul_eq_zero.1 hz with h | h
  · rw [h] at hx; norm_num at hx
  · have : y' = -2 * x' := by linarith
    rw [this] at hodd
    have : 4 * x' ^ 2 = 1 := by linarith
    omega

omit [ExactCfg] in
theorem settles_example : letI := exactExample; Settles := by
  let _ := exactExample
  intro x
  have := ExactCfg.near x
  change (if |x - ((ExactCfg.rnd x : ℤ) : ℝ)| ≤ 1 / 2 then (0 : ℤ) else _) = 0
  rw [if_pos this]

/-- **C30 is violated for `η < 1/2`.**  For the basis (2, 0), (1, 2) and `δ = 0.99`, `η = 0.3`, `θ = 0`, HLLL with exact
arithmetic reports success whenever its rounding settles, and never returns a reduced basis: there is none. -/
theorem C30_eta_violated (srFuel fuel : ℕ) (fast : Bool) (junk : Mat ℝ) (h : HL ℝ)
    (hr : zf srFuel fuel fast (99 / 100) (3 / 10) 0 2 2 ⟨tieB, none, none⟩ junk = .done .success h) :
    ¬ HLLLReduced 2 2 (basisQ h.m.b) (99 / 100) (3 / 10) 0 := by
  have ht := zf_trel srFuel fuel fast (99 / 100 : ℝ) (3 / 10) 0 (d := 2) (n := 2) ⟨tieB, none, none⟩ junk
  rw [hr] at ht
  obtain ⟨-, -, T, T', a1, a2, a3, -⟩ := ht
  exact tie_not_reduced a1 a3

omit [ExactCfg] in
/-- such a run exists -/
theorem C30_eta_run : letI := exactExample; ∃ srFuel fuel h,
    zf srFuel fuel true (99 / 100 : ℝ) (3 / 10) 0 2 2 ⟨tieB, none, none⟩ (fun _ _ => 0) = .done .success h := by
  let _ := exactExample
  obtain ⟨h, hh⟩ := C30_terminates 2 (2 * (potential 2 2 tieB).toNat + 2) true (99 / 100) (3 / 10) 0 le_rfl
    ⟨tieB, none, none⟩ (fun _ _ => 0) (indep2 (by decide)) settles_example le_rfl (by norm_num) (by norm_num) le_rfl le_rfl
  exact ⟨_, _, h, hh⟩

/-! ## Non-vacuity -/

/-- the hypotheses of the theorems above are met by the basis (7, 0), (4, 1), which has to be reduced -/
example : letI := exactExample; ∃ h, zf 2 5000 true (99 / 100 : ℝ) (51 / 100) (1 / 1000) 2 2
    ⟨exB, none, none⟩ (fun _ _ => 0) = .done .success h ∧
    HLLLReduced 2 2 (basisQ h.m.b) (99 / 100) (51 / 100) (1 / 1000) := by
  let _ := exactExample
  have hi : Indep 2 2 (basisQ exB) := indep2 (by decide)
  have hp : potential 2 2 exB = 49 * 49 := by
    unfold potential gramDet
    rw [prod_range_succ, prod_range_one, Matrix.det_fin_two, Matrix.det_fin_one]
    decide
  obtain ⟨h, hh⟩ := C30_terminates 2 5000 true (99 / 100) (51 / 100) (1 / 1000) le_rfl ⟨exB, none, none⟩ (fun _ _ => 0) hi
    settles_example le_rfl (by norm_num) (by norm_num) (by norm_num) (by rw [hp]; decide)
  exact ⟨h, hh, C30_reduced_partial _ _ _ _ _ _ _ _ (by norm_num) (by norm_num) hi h hh⟩

end HL
end Fplll

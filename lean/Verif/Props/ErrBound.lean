import Verif.Proofs.ErrBound
import Verif.Proofs.Mpfr
import Verif.Props.EnumFloat

/-!
# C68, C69: the error bound of `ErrorBoundedEvaluator`
-/

open Finset

namespace Fplll
namespace ErrB

open Enum Spec

/-! ## Links to the enumeration and to the lattice -/

/-- the distance computed by an enumeration for the shortest vector -/
theorem dist_eq_dT {p : Input} (hr : Rnd p.fl) (ht : p.target = none) (hd : p.dual = false)
    (hs : p.subtreeReset = false) (v : ℕ → ℤ) : p.dist v 0 = dT p.d p.fl p.mu p.r v 0 := by
  have hal : ∀ k, al p.full v k = yT p.d p.fl p.mu v k := by
    intro k
    rw [al, cen_eq, psum, yT, cT]
    have e0 : p.full.cpart k = 0 := by
      simp [Input.full, Input.ctarget, ht, hr.zero]
    rw [e0]
    have e1 : forDown (k + 1) p.full.K (fun l a => p.full.fl (a - p.full.fl (yS p.full v l * p.full.mt k l))) 0 =
        forDown (k + 1) p.d (fun l a => p.fl (a - p.fl (v l * p.fl (p.mu l k)))) 0 := by
      refine forDown_congr ?_ _
      intro l a _ _
      simp [yS, Input.full, Input.mt, hd]
    rw [e1]
    rfl
  rw [Input.dist, dT, hs, if_neg (by decide)]
  refine forDown_congr ?_ _
  intro j a _ _
  rw [hal, Input.rdiag, hd, if_neg (by decide)]

theorem cT_id (d : ℕ) (mu : ℕ → ℕ → ℚ) (v : ℕ → ℤ) (i m : ℕ) : cT d id mu v i m = -cE d mu v i m := by
  have := forDown_sub (fun l => (v l : ℚ) * mu l i) m d 0
  rw [zero_sub] at this
  exact this

theorem dT_id (d : ℕ) (mu : ℕ → ℕ → ℚ) (r : ℕ → ℚ) (v : ℕ → ℤ) (i : ℕ) : dT d id mu r v i = dE d mu r v i := by
  have := forDown_sub (fun j => -(yE d mu v j * yE d mu v j * r j)) i d 0
  rw [Finset.sum_neg_distrib, sub_neg_eq_add, zero_add] at this
  rw [dE, ← this, dT]
  refine forDown_congr ?_ _
  intro j a _ _
  have hy : yT d id mu v j = yE d mu v j := by
    rw [yT, yE, cT_id]; simp
  rw [hy]
  simp only [id]
  ring

/-- the exact sum is the squared length of the lattice vector -/
theorem dE_eq_length {d n : ℕ} {B : ℕ → ℕ → ℚ} (hp : ∀ i < d, 0 < normStar n B i) (v : ℕ → ℤ) :
    dE d (muS n B) (normStar n B) v 0 = dotQ n (lc d (fun j => v j) B) (lc d (fun j => v j) B) := by
  let p : Input := { d := d, mu := muS n B, r := normStar n B, maxdist := 0, target := none, subtree := [],
                     pruning := none, dual := false, subtreeReset := false, findsubsols := false }
  have h : p.FromBasis n 0 B (fun _ => 0) :=
    { exact := rfl
      mu := fun i j _ _ => by simp [p]
      r := fun i _ => by simp [p]
      target := fun i _ => by simp [p, dotQ] }
  rw [← C11_distance_svp h rfl rfl hp v, dist_eq_dT Rnd.id rfl rfl rfl v]
  exact (dT_id d (muS n B) (normStar n B) v 0).symm

/-! ## Concrete arithmetic -/

/-- double arithmetic -/
theorem rndU_r53 : RndU r53 where
  toRnd := C67_double
  arg t := (r53_rel t).trans (le_of_eq (by rw [hu]; norm_num))
  res t := by
    by_cases ht : t = 0
    · rw [ht, r53_zero]; simp
    obtain ⟨e, n, s, he, h1, h2, h3, h4, h5⟩ := r53_form ht
    have hpz := two_zpow_pos e
    have hn : (2 : ℚ) ^ 52 ≤ |(n : ℚ)| := by
      rcases le_total 0 s with hs | hs
      · rw [abs_of_nonneg hs] at h4
        have := rhe_mono (show ((2 ^ 52 : ℤ) : ℚ) ≤ s by push_cast; exact h4)
        rw [RInt.rhe.int, ← h3] at this
        refine le_trans ?_ (le_abs_self _)
        exact_mod_cast this
      · rw [abs_of_nonpos hs] at h4
        have := rhe_mono (show s ≤ ((-2 ^ 52 : ℤ) : ℚ) by push_cast; linarith)
        rw [RInt.rhe.int, ← h3] at this
        refine le_trans ?_ (neg_le_abs _)
        have h6 : (n : ℚ) ≤ -2 ^ 52 := by exact_mod_cast this
        linarith
    rw [h2, show (n : ℚ) * 2 ^ e - t = -((s - n) * 2 ^ e) by rw [h1]; ring, abs_neg, abs_mul, abs_mul, abs_of_pos hpz,
      ← mul_assoc]
    refine mul_le_mul_of_nonneg_right ?_ hpz.le
    rw [h3] at hn ⊢
    refine (rhe_near s).trans ?_
    rw [hu]
    have : (1 : ℚ) / 2 = 1 / 2 ^ 53 * 2 ^ 52 := by norm_num
    rw [this]
    exact mul_le_mul_of_nonneg_left hn (by positivity)

/-- arithmetic of `FP_NR<mpfr_t>` with `p` bits -/
def mpfr (p : ℕ) : Arith where
  rn := rp rhe p
  rd := rp (fun t => ⌊t⌋) p
  ru := rp (fun t => ⌈t⌉) p
  sqrtU := sqU p

theorem mpfr_ok {p : ℕ} (hp : 53 ≤ p) : ArithOK (mpfr p) (1 - 1 / 2 ^ p) where
  ρ0 := by
    have : (2 : ℚ) ≤ 2 ^ p := by
      calc (2 : ℚ) = 2 ^ 1 := by norm_num
        _ ≤ 2 ^ p := pow_le_pow_right₀ (by norm_num) (by omega)
    have : (1 : ℚ) / 2 ^ p ≤ 1 / 2 := one_div_le_one_div_of_le (by norm_num) this
    linarith
  ρ1 := by
    have : (0 : ℚ) < 1 / 2 ^ p := by positivity
    linarith
  ru t := ceil_le_rp (by omega) t
  rd t := rp_le_floor (by omega) t
  rdInt z t hz h := by
    have h1 := rp_mono RInt.floor (p := p) (by omega) h
    have h2 := rp_fix RInt.floor (p := p) (by omega) (m := z) (k := 0)
      (hz.trans (pow_le_pow_right₀ (by norm_num) hp))
    rw [zpow_zero, mul_one] at h2
    rwa [h2] at h1
  sq0 t := sqU_nonneg p t
  sq t _ := sqU_sq p t
  rn t ht := by
    have := (abs_le.1 (rp_rel (p := p) (by omega) t)).1
    rw [abs_of_nonneg ht] at this
    change (1 - 1 / 2 ^ p) * t ≤ rp rhe p t
    have e : (1 - 1 / 2 ^ p) * t = t - t / 2 ^ p := by ring
    rw [e]
    linarith

/-! ## C68 -/

/-- the part of the bound that is lost where the code rounds to nearest instead of up -/
def loss (ρ : ℚ) (d : ℕ) : ℚ := ρ ^ (2 * d - 1)

theorem loss_eq (ρ : ℚ) {d : ℕ} (hd : 0 < d) : ρ * (ρ ^ (d - 1) * ρ ^ (d - 1)) = loss ρ d := by
  rw [loss, ← pow_add, ← pow_succ']
  congr 1
  omega

variable {A : Arith} {ρ : ℚ} {q : Dat} {n : ℕ} {B : ℕ → ℕ → ℚ} {p : Input}

/-- `p` is the enumeration for the shortest vector on the data that the evaluator sees -/
structure Runs (p : Input) (q : Dat) : Prop where
  d : p.d = q.d
  mu : p.mu = q.mu
  r : p.r = q.r
  target : p.target = none
  dual : p.dual = false
  reset : p.subtreeReset = false

/-- squared length of the lattice vector with the coordinates `v` -/
def len2 (n d : ℕ) (B : ℕ → ℕ → ℚ) (v : ℕ → ℤ) : ℚ := dotQ n (lc d (fun j => v j) B) (lc d (fun j => v j) B)

/-- **C68** `get_max_error_aux`: let it return the bound `e` for `max_dist`.  For every vector whose computed squared
length (or, with `boundOnExactVal`, whose exact squared length) is at most `max_dist`, the squared length computed by the
enumeration differs from the exact one by at most `e`, up to what is lost by rounding to nearest; and `maxX` bounds the
coordinates.  Coordinates of more than 53 bits are excluded, by assumption or because `maxX` says so. -/
theorem C68_error_bound (hA : ArithOK A ρ) (hfl : RndU p.fl) (hq : DatOK q p.fl (muS n B) (normStar n B)) (hp : Runs p q)
    (hd : 0 < q.d) {md : ℚ} (hmd : 0 ≤ md) {exact : Bool} {X : ℕ → ℚ} {e : ℚ}
    (he : maxErrorSt A q md exact = some (X, e)) {v : ℕ → ℤ} (hv : ∀ i, i < q.d → |v i| ≤ 2 ^ 53 ∨ X i < 2 ^ 53)
    (hb : (if exact then len2 n q.d B v else p.dist v 0) ≤ md) :
    loss ρ q.d * (|p.dist v 0 - len2 n q.d B v| + hu * md) ≤ e ∧ ∀ i, i < q.d → |(v i : ℚ)| ≤ X i := by
  rw [len2, ← dE_eq_length (fun i hi => hq.rpos i hi)] at hb ⊢
  rw [dist_eq_dT hfl.toRnd hp.target hp.dual hp.reset, hp.d, hp.mu, hp.r] at hb ⊢
  have := maxErrorSt_inv hA hfl hq hmd (exact := exact) (by cases exact <;> simpa using hb) he hv
  rw [if_pos hd, loss_eq ρ hd] at this
  exact ⟨this.2, this.1⟩

/-- the bound is not so large that what is lost matters; it is checked on the result -/
def Enough (ρ : ℚ) (d : ℕ) (md e : ℚ) : Prop := (1 - loss ρ d) * e ≤ loss ρ d * (hu * md)

instance (ρ : ℚ) (d : ℕ) (md e : ℚ) : Decidable (Enough ρ d md e) := inferInstanceAs (Decidable (_ ≤ _))

/-- **C68** the bound itself -/
theorem C68_error_bound' (hA : ArithOK A ρ) (hfl : RndU p.fl) (hq : DatOK q p.fl (muS n B) (normStar n B)) (hp : Runs p q)
    (hd : 0 < q.d) {md : ℚ} (hmd : 0 ≤ md) {exact : Bool} {X : ℕ → ℚ} {e : ℚ}
    (he : maxErrorSt A q md exact = some (X, e)) (hen : Enough ρ q.d md e)
    {v : ℕ → ℤ} (hv : ∀ i, i < q.d → |v i| ≤ 2 ^ 53 ∨ X i < 2 ^ 53)
    (hb : (if exact then len2 n q.d B v else p.dist v 0) ≤ md) :
    |p.dist v 0 - len2 n q.d B v| ≤ e := by
  have h := (C68_error_bound hA hfl hq hp hd hmd he hv hb).1
  have hl : 0 < loss ρ q.d := pow_pos hA.ρ0 _
  rw [Enough] at hen
  have : loss ρ q.d * |p.dist v 0 - len2 n q.d B v| ≤ loss ρ q.d * e := by linarith
  exact le_of_mul_le_mul_left this hl

/-- if every operation is rounded up (`ρ = 1`) the bound holds without a condition -/
theorem enough_one (d : ℕ) {md e : ℚ} (hmd : 0 ≤ md) : Enough 1 d md e := by
  rw [Enough, loss, one_pow, sub_self, zero_mul, one_mul]
  exact mul_nonneg hu_nonneg hmd

/-- with `b` bits it is enough that the bound is at most `2^(b-54) / (2d-1)` times `max_dist` -/
theorem enough_mpfr {b d : ℕ} (hd : 0 < d) (hdb : 2 * (2 * d - 1) ≤ 2 ^ b) {md e : ℚ} (he : 0 ≤ e) (hmd : 0 ≤ md)
    (h : (2 * d - 1) * 2 ^ 54 * e ≤ 2 ^ b * md) : Enough (1 - 1 / 2 ^ b) d md e := by
  have hpb : (0 : ℚ) < 2 ^ b := by positivity
  have hd1 : (1 : ℚ) ≤ d := by exact_mod_cast hd
  have hm : (((2 * d - 1 : ℕ) : ℕ) : ℚ) = 2 * d - 1 := by
    rw [Nat.cast_sub (by omega)]; push_cast; ring
  have h1 : 1 - loss (1 - 1 / 2 ^ b) d ≤ (2 * d - 1) / 2 ^ b := by
    have h2 := one_add_mul_le_pow (a := -(1 / 2 ^ b : ℚ)) (by
      have : (1 : ℚ) / 2 ^ b ≤ 1 := by
        rw [div_le_one hpb]; exact one_le_pow₀ (by norm_num)
      linarith) (2 * d - 1)
    rw [hm, ← sub_eq_add_neg (1 : ℚ) (1 / 2 ^ b)] at h2
    rw [loss]
    have e1 : (2 * d - 1 : ℚ) * -(1 / 2 ^ b) = -((2 * d - 1) / 2 ^ b) := by ring
    rw [e1] at h2
    linarith
  have h3 : (2 * (d : ℚ) - 1) / 2 ^ b ≤ 1 / 2 := by
    rw [div_le_div_iff₀ hpb (by norm_num), ← hm]
    have : ((2 * (2 * d - 1) : ℕ) : ℚ) ≤ ((2 ^ b : ℕ) : ℚ) := by exact_mod_cast hdb
    push_cast at this
    linarith
  rw [Enough]
  have h4 : (1 - loss (1 - 1 / 2 ^ b) d) * e ≤ (2 * d - 1) / 2 ^ b * e := mul_le_mul_of_nonneg_right h1 he
  have h5 : 1 / 2 * (hu * md) ≤ loss (1 - 1 / 2 ^ b) d * (hu * md) :=
    mul_le_mul_of_nonneg_right (by linarith) (mul_nonneg hu_nonneg hmd)
  have h6 : (2 * (d : ℚ) - 1) / 2 ^ b * e ≤ 1 / 2 * (hu * md) := by
    rw [div_mul_eq_mul_div, div_le_iff₀ hpb, hu]
    have : (1 : ℚ) / 2 * (1 / 2 ^ 53 * md) * 2 ^ b = 2 ^ b * md / 2 ^ 54 := by norm_num; ring
    rw [this, le_div_iff₀ (by positivity)]
    linarith
  linarith

/-! ## C69 -/

/-- `get_max_error` can be relied on: both bounds could be computed, neither is too large, no coordinate has more than
53 bits, and the lower bound `minOptE` on the optimum is positive -/
structure Checked (A : Arith) (ρ : ℚ) (q : Dat) (dist : ℚ) : Prop where
  sound : ∃ X de, maxErrorSt A q dist false = some (X, de) ∧ (∀ i, i < q.d → X i < 2 ^ 53) ∧ Enough ρ q.d dist de ∧
    ∃ X' opt, maxErrorSt A q (A.ru (dist + de)) true = some (X', opt) ∧ (∀ i, i < q.d → X' i < 2 ^ 53) ∧
      Enough ρ q.d (A.ru (dist + de)) opt ∧ 0 < A.rd (dist - opt)

/-- the conditions can be computed -/
def check (A : Arith) (ρ : ℚ) (q : Dat) (dist : ℚ) : Bool :=
  match maxErrorSt A q dist false with
  | none => false
  | some s =>
    decide (∀ i, i < q.d → s.1 i < 2 ^ 53) && decide (Enough ρ q.d dist s.2) &&
    match maxErrorSt A q (A.ru (dist + s.2)) true with
    | none => false
    | some t => decide (∀ i, i < q.d → t.1 i < 2 ^ 53) && decide (Enough ρ q.d (A.ru (dist + s.2)) t.2) &&
      decide (0 < A.rd (dist - t.2))

theorem check_sound {dist : ℚ} (h : check A ρ q dist = true) : Checked A ρ q dist := by
  rw [check] at h
  split at h
  · cases h
  rename_i s hs
  rw [Bool.and_eq_true, Bool.and_eq_true] at h
  obtain ⟨⟨h1, h2⟩, h3⟩ := h
  split at h3
  · cases h3
  rename_i t ht
  rw [Bool.and_eq_true, Bool.and_eq_true] at h3
  obtain ⟨⟨h4, h5⟩, h6⟩ := h3
  exact ⟨s.1, s.2, hs, of_decide_eq_true h1, of_decide_eq_true h2, t.1, t.2, ht, of_decide_eq_true h4,
    of_decide_eq_true h5, of_decide_eq_true h6⟩

theorem len2_nonneg (n d : ℕ) (B : ℕ → ℕ → ℚ) (v : ℕ → ℤ) : 0 ≤ len2 n d B v := by
  rw [len2, dotQ]
  exact Finset.sum_nonneg fun _ _ => mul_self_nonneg _

/-- **C69** `FastErrorBoundedEvaluator::get_max_error`: after an enumeration without pruning in rounded arithmetic the
squared length of the vector kept is at most `1 + max_error` times that of any vector that is not zero, provided that
`minOptE` is positive (and the conditions of C68 hold). -/
theorem C69_max_error_partial (hA : ArithOK A ρ) (h : p.OK) (hpr : p.pruning = none) (hst : p.subtree = [])
    (hmd : 0 ≤ p.maxdist) (hfl : RndU p.fl) (hq : DatOK q p.fl (muS n B) (normStar n B)) (hp : Runs p q)
    {fuel : ℕ} {s' : St EvSt} (run : enumerate p (fastEval 1 .best) fuel EvSt.new = some s')
    {a : ℚ × (ℕ → ℤ)} (ha : a ∈ s'.ev.sols) {me : ℚ} (hme : maxError A q a.1 = some me) (hc : Checked A ρ q a.1)
    {v : ℕ → ℤ} (hv : ∃ j, j < p.d ∧ v j ≠ 0) :
    len2 n q.d B a.2 ≤ (1 + me) * len2 n q.d B v := by
  obtain ⟨h1, h2, h3⟩ := C15_enumerate_finds_N_shortest (N := 1) le_rfl h hpr hmd run
  obtain ⟨-, ad, amd, apos⟩ := h2 a ha
  have hagree : ∀ w : ℕ → ℤ, p.Agrees w := by
    intro w j k1 k2
    simp [Input.K, hst] at k1
    omega
  have hsymm : p.Symm := ⟨hp.target, fun j k1 k2 => by simp [Input.K, hst] at k1; omega⟩
  have ha0 := apos hsymm
  have hd : 0 < q.d := by
    have := h.sublen
    rw [← hp.d]; omega
  -- every vector that is not zero is at least as long as the computed one
  have hopt : a.1 ≤ p.dist v 0 := by
    by_contra hcon
    push Not at hcon
    obtain ⟨b, hb⟩ := List.length_eq_one_iff.1 (le_antisymm h1 (List.length_pos_of_mem ha))
    have hab : ∀ c ∈ s'.ev.sols, c = a := by
      intro c hc'
      rw [hb] at ha hc'
      rw [List.mem_singleton.1 ha, List.mem_singleton.1 hc']
    rcases h3 v (hagree v) (by linarith) (fun _ => hv) with (⟨c, hc', e, -⟩ | ⟨-, c, hc', e, -⟩) | ⟨-, hS⟩
    · rw [hab c hc'] at e
      linarith
    · rw [hab c hc', dist_neg h.rnd hp.target] at e
      linarith
    · exact absurd (hS a ha) (not_le.2 hcon)
  obtain ⟨X, de, e1, hX, en, X', opt, e2, hX', en', hpos⟩ := hc.sound
  have hE := C68_error_bound' hA hfl hq hp hd ha0.le e1 en (v := a.2) (fun i hi => .inr (hX i hi)) (by
    rw [if_neg (by decide), ad])
  rw [← ad] at hE
  have hru := hA.ru (a.1 + de)
  have hmaxE : len2 n q.d B a.2 ≤ A.ru (a.1 + de) := by
    have := (abs_le.1 hE).1
    linarith
  have hM0 : 0 ≤ A.ru (a.1 + de) := (len2_nonneg n q.d B a.2).trans hmaxE
  have hrd := hA.rd (a.1 - opt)
  have hme' : A.ru (a.1 + de) / A.rd (a.1 - opt) ≤ 1 + me := by
    rw [maxError, maxErrorAux, e1] at hme
    simp only [Option.map_some, maxErrorAux, e2] at hme
    cases hme
    have k1 := hA.ru (A.ru (a.1 + de) / A.rd (a.1 - opt))
    have k2 := hA.ru (A.ru (A.ru (a.1 + de) / A.rd (a.1 - opt)) - 1)
    linarith
  have hq0 : 0 ≤ A.ru (a.1 + de) / A.rd (a.1 - opt) := div_nonneg hM0 hpos.le
  -- a vector longer than `maxE` is longer than the result
  have hlow : A.rd (a.1 - opt) ≤ len2 n q.d B v := by
    by_cases hv' : len2 n q.d B v ≤ A.ru (a.1 + de)
    · have hE' := C68_error_bound' hA hfl hq hp hd hM0 e2 en' (v := v) (fun i hi => .inr (hX' i hi)) (by
        rw [if_pos rfl]; exact hv')
      have := (abs_le.1 hE').2
      linarith
    · push Not at hv'
      have hde0 : 0 ≤ de := (abs_nonneg _).trans hE
      have hopt0 : 0 ≤ opt := by
        have := C68_error_bound' hA hfl hq hp hd hM0 e2 en' (v := a.2) (fun i hi => .inr (hX' i hi)) (by
          rw [if_pos rfl]; exact hmaxE)
        exact (abs_nonneg _).trans this
      linarith
  calc len2 n q.d B a.2 ≤ A.ru (a.1 + de) := hmaxE
    _ = A.ru (a.1 + de) / A.rd (a.1 - opt) * A.rd (a.1 - opt) := (div_mul_cancel₀ _ hpos.ne').symm
    _ ≤ (1 + me) * len2 n q.d B v := mul_le_mul hme' hlow hpos.le (hq0.trans hme')

/-! ## Examples -/

/-- the basis `(2, 0), (1, 2)` -/
def exB : ℕ → ℕ → ℚ := fun i j => if i = 0 then (if j = 0 then 2 else 0) else if i = 1 then (if j = 0 then 1 else 2) else 0

/-- its GSO data with the given bounds on the errors -/
def exD (dr dm : ℚ) : Dat where
  d := 2
  mu _ _ := 1 / 2
  r _ := 4
  dr _ := dr
  dm _ := dm
  getD := r53

def exP : Input where
  fl := r53
  d := 2
  mu _ _ := 1 / 2
  r _ := 4
  maxdist := 4
  target := none
  subtree := []
  pruning := none
  dual := false
  subtreeReset := false
  findsubsols := false

theorem exB_mu : muS 2 exB 1 0 = 1 / 2 := by decide +kernel
theorem exB_r0 : normStar 2 exB 0 = 4 := by decide +kernel
theorem exB_r1 : normStar 2 exB 1 = 4 := by decide +kernel

theorem exD_ok {dr dm : ℚ} (h1 : 0 ≤ dr) (h2 : 0 ≤ dm) : DatOK (exD dr dm) exP.fl (muS 2 exB) (normStar 2 exB) := by
  have e1 : r53 (1 / 2) = 1 / 2 := by decide +kernel
  have e2 : r53 4 = 4 := by decide +kernel
  have hmu : ∀ i j, i < j → j < 2 → muS 2 exB j i = 1 / 2 := by
    intro i j h1 h2
    obtain rfl : i = 0 := by omega
    obtain rfl : j = 1 := by omega
    exact exB_mu
  have hr : ∀ i, i < 2 → normStar 2 exB i = 4 := by
    intro i hi
    rcases (by omega : i = 0 ∨ i = 1) with rfl | rfl
    · exact exB_r0
    · exact exB_r1
  refine ⟨rfl, ?_, ?_, ?_, ?_, ?_, ?_⟩
  · intro i j a b
    rw [hmu i j a b]
    simpa [exD] using h2
  · intro i j a b
    rw [hmu i j a b]
    change |r53 (1 / 2) - 1 / 2| ≤ dm
    rw [e1]; simpa using h2
  · intro i hi
    rw [hr i hi]
    simpa [exD] using h1
  · intro i hi
    rw [hr i hi]
    change |r53 4 - 4| ≤ dr
    rw [e2]; simpa using h1
  · intro i hi
    rw [hr i hi]; norm_num
  · intro i _; simp [exD]

theorem exP_ok : exP.OK where
  rnd := C67_double
  mrep := by decide +kernel
  rpos i _ := by simp [exP]
  sublen := by simp [exP]
  dualOK h := absurd h (by decide)
  prune k _ := by
    unfold setBounds
    rfl

theorem exP_runs (dr dm : ℚ) : Runs exP (exD dr dm) := ⟨rfl, rfl, rfl, rfl, rfl, rfl⟩


/-- for every vector whose computed squared length is at most 4 the error is less than `2^-36` -/
example : ∃ X e, maxErrorSt (mpfr 63) (exD (1 / 2 ^ 40) (1 / 2 ^ 40)) 4 false = some (X, e) ∧ e ≤ 1 / 2 ^ 36 ∧
    ∀ v : ℕ → ℤ, exP.dist v 0 ≤ 4 → |exP.dist v 0 - len2 2 2 exB v| ≤ e := by
  have h : (maxErrorSt (mpfr 63) (exD (1 / 2 ^ 40) (1 / 2 ^ 40)) 4 false).map
      (fun s => decide (s.1 0 = 1 ∧ s.1 1 = 1 ∧ 0 ≤ s.2 ∧ s.2 ≤ 1 / 2 ^ 36)) = some true := by decide +kernel
  obtain ⟨⟨X, e⟩, hs, h1⟩ := Option.map_eq_some_iff.1 h
  obtain ⟨x0, x1, e0, e1⟩ := of_decide_eq_true h1
  dsimp only at x0 x1 e0 e1
  refine ⟨X, e, hs, e1, fun v hv => ?_⟩
  refine C68_error_bound' (A := mpfr 63) (q := exD (1 / 2 ^ 40) (1 / 2 ^ 40)) (mpfr_ok (by norm_num)) rndU_r53
    (exD_ok (by norm_num) (by norm_num)) (exP_runs _ _) (by decide) (by norm_num) hs ?_ (fun i hi => .inr ?_) hv
  · refine enough_mpfr (by decide) (by decide) e0 (by norm_num) ?_
    simp only [exD] at *
    norm_num at e1 ⊢
    linarith
  · have hi' : i < 2 := hi
    rcases (by omega : i = 0 ∨ i = 1) with rfl | rfl
    · rw [x0]; norm_num
    · rw [x1]; norm_num

/-- what `get_max_error` computes for the example: the result is a shortest vector up to a factor `1 + 2^-37` -/
theorem ex_maxError : ∃ me, maxError (mpfr 63) (exD (1 / 2 ^ 40) (1 / 2 ^ 40)) 4 = some me ∧ 0 < me ∧ me < 1 / 2 ^ 37 := by
  have h : (maxError (mpfr 63) (exD (1 / 2 ^ 40) (1 / 2 ^ 40)) 4).map
      (fun e => decide (0 < e ∧ e < 1 / 2 ^ 37)) = some true := by decide +kernel
  obtain ⟨e, hs, h1⟩ := Option.map_eq_some_iff.1 h
  exact ⟨e, hs, of_decide_eq_true h1⟩

theorem ex_checked : Checked (mpfr 63) (1 - 1 / 2 ^ 63) (exD (1 / 2 ^ 40) (1 / 2 ^ 40)) 4 :=
  check_sound (by decide +kernel)

/-- the enumeration of the example in double arithmetic finds a vector of computed squared length 4 -/
theorem exP_run : ∃ s' a, enumerate exP (fastEval 1 .best) 20 EvSt.new = some s' ∧ a ∈ s'.ev.sols ∧ a.1 = 4 := by
  have h : (enumerate exP (fastEval 1 .best) 20 EvSt.new).map
      (fun s => decide (s.ev.sols.map (·.1) = [4])) = some true := by decide +kernel
  obtain ⟨s', hs, h1⟩ := Option.map_eq_some_iff.1 h
  obtain ⟨a, ha, h4⟩ := List.map_eq_singleton_iff.1 (of_decide_eq_true h1)
  exact ⟨s', a, hs, by rw [ha]; simp, h4⟩

example : ∃ (a : ℚ × (ℕ → ℤ)) (me : ℚ), me < 1 / 2 ^ 37 ∧ ∀ v : ℕ → ℤ, (∃ j, j < 2 ∧ v j ≠ 0) →
    len2 2 2 exB a.2 ≤ (1 + me) * len2 2 2 exB v := by
  obtain ⟨s', a, run, ha, ha4⟩ := exP_run
  obtain ⟨me, hme, -, hlt⟩ := ex_maxError
  refine ⟨a, me, hlt, fun v hv => ?_⟩
  exact C69_max_error_partial (mpfr_ok (p := 63) (by norm_num)) exP_ok rfl rfl (by simp [exP]) rndU_r53
    (exD_ok (dr := 1 / 2 ^ 40) (dm := 1 / 2 ^ 40) (by norm_num) (by norm_num)) (exP_runs _ _) run ha (by rw [ha4]; exact hme)
    (by rw [ha4]; exact ex_checked) hv

/-- **C69 violated**: `get_max_error` does not look at the sign of `minOptE`.  For the same basis and the (valid but
large) bounds 2 on the errors of the `r_i` it returns true and a negative `max_error`, so the inequality it stands for
fails for the vector returned itself. -/
theorem C69_negative : ∃ (s' : St EvSt) (a : ℚ × (ℕ → ℤ)) (me : ℚ),
    enumerate exP (fastEval 1 .best) 20 EvSt.new = some s' ∧ a ∈ s'.ev.sols ∧
    DatOK (exD 2 (1 / 2 ^ 40)) exP.fl (muS 2 exB) (normStar 2 exB) ∧ Runs exP (exD 2 (1 / 2 ^ 40)) ∧
    maxError (mpfr 63) (exD 2 (1 / 2 ^ 40)) a.1 = some me ∧ me < -1 ∧
    ¬ len2 2 2 exB a.2 ≤ (1 + me) * len2 2 2 exB a.2 := by
  have h : (enumerate exP (fastEval 1 .best) 20 EvSt.new).map
      (fun s => decide (s.ev.sols.map (fun a => (a.1, len2 2 2 exB a.2)) = [(4, 4)])) = some true := by decide +kernel
  have h' : (maxError (mpfr 63) (exD 2 (1 / 2 ^ 40)) 4).map (fun e => decide (e < -1)) = some true := by decide +kernel
  obtain ⟨s', hs, h1⟩ := Option.map_eq_some_iff.1 h
  obtain ⟨a, ha, h4⟩ := List.map_eq_singleton_iff.1 (of_decide_eq_true h1)
  obtain ⟨me, hme, h5⟩ := Option.map_eq_some_iff.1 h'
  have h6 := of_decide_eq_true h5
  have h7 := Prod.ext_iff.1 h4
  refine ⟨s', a, me, hs, by rw [ha]; simp, exD_ok (by norm_num) (by norm_num), exP_runs _ _, ?_, h6, ?_⟩
  · rw [show a.1 = 4 from h7.1]; exact hme
  · rw [show len2 2 2 exB a.2 = 4 from h7.2]
    intro hc
    linarith

end ErrB
end Fplll

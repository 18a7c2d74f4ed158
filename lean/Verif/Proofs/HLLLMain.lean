import Verif.Proofs.HLLLExact
import Verif.Spec.HLLL

/-!
# The main loop of HLLL in exact arithmetic
-/

open Finset

namespace Fplll

open Spec GSO HInt HH

namespace HL

/-- the first `k` rows are size reduced with `1/2` and satisfy the Lovász condition with `δ` -/
structure RedTo (n : ℕ) (b : Mat ℤ) (δ : ℝ) (k : ℕ) : Prop where
  size : ∀ i < k, ∀ j < i, |muS n (basisQ b) i j| ≤ 1 / 2
  lovasz : ∀ i, i + 1 < k → δ * (normStar n (basisQ b) i : ℝ) ≤ (projSq n (basisQ b) (i + 1) i : ℝ)

theorem RedTo.congr {n : ℕ} {b b' : Mat ℤ} {δ : ℝ} {k : ℕ} (h : RedTo n b δ k)
    (hb : ∀ i < k, ∀ c < n, b' i c = b i c) : RedTo n b' δ k := by
  have hq : ∀ i < k, ∀ c < n, basisQ b' i c = basisQ b i c := fun i hi c hc => by unfold basisQ; rw [hb i hi c hc]
  have hmu : ∀ i < k, ∀ j < k, muS n (basisQ b') i j = muS n (basisQ b) i j := fun i hi j hj =>
    muS_congr (fun l hl => hq l (by omega)) (hq i hi)
  have hrs : ∀ i < k, ∀ j < k, rS n (basisQ b') i j = rS n (basisQ b) i j := fun i hi j hj =>
    rS_congr (fun l hl => hq l (by omega)) (hq i hi)
  constructor
  · intro i hi j hj
    rw [hmu i hi j (by omega)]; exact h.size i hi j hj
  · intro i hi
    have e1 : normStar n (basisQ b') i = normStar n (basisQ b) i := normStar_congr fun l hl => hq l (by omega)
    have e2 : projSq n (basisQ b') (i + 1) i = projSq n (basisQ b) (i + 1) i := by
      unfold projSq
      rw [dotQ_congr (hq (i + 1) hi) (hq (i + 1) hi)]
      congr 1
      refine sum_congr rfl fun j hj => ?_
      rw [mem_range] at hj
      rw [hmu _ hi j (by omega), hrs _ hi j (by omega)]
    rw [e1, e2]; exact h.lovasz i hi

theorem RedTo.mono {n : ℕ} {b : Mat ℤ} {δ : ℝ} {k k' : ℕ} (h : RedTo n b δ k) (hk : k' ≤ k) : RedTo n b δ k' :=
  ⟨fun i hi => h.size i (by omega), fun i hi => h.lovasz i (by omega)⟩

theorem RedTo.hlll {n d : ℕ} {b : Mat ℤ} {δ : ℝ} (h : RedTo n b δ d) : HLLLReduced n d (basisQ b) δ (1 / 2) 0 := by
  constructor
  · intro i hi j hj
    have h1 := rDiag_nonneg n (basisQ b) j
    unfold rEntry
    rw [abs_mul, abs_of_nonneg h1, zero_mul, add_zero]
    have : |(muS n (basisQ b) i j : ℝ)| ≤ 1 / 2 := by
      have := (Rat.cast_le (K := ℝ)).2 (h.size i hi j hj)
      push_cast at this
      exact this
    exact mul_le_mul_of_nonneg_right this h1
  · intro i hi
    unfold rEntry
    rw [mul_pow, rDiag_sq, rDiag_sq]
    have h1 := h.lovasz i hi
    rw [projSq_succ', projSq_self] at h1
    push_cast at h1
    linarith

variable [ExactCfg]

/-- the invariant of the main loop -/
structure Inv (st : St ℝ) : Prop where
  k1 : 1 ≤ st.k
  kMax : st.k ≤ st.kMax
  d : st.kMax < st.h.m.d
  n : st.k ≤ st.h.m.n
  base : Base (st.kMax + 1) st.h.m
  known : ∀ j < st.kMax + 1, Known j st.h.m
  house : House st.k st.h.m
  head : (st.h.m.updatedR = false ∧ RowAt st.k 0 st.h.m) ∨
    (st.h.m.updatedR = true ∧ RowAt st.k st.k st.h.m ∧ HistOk st.k st.k st.h.m)
  dR : ∀ j < st.k, st.h.dR j = st.h.delta * (st.h.m.R j j * st.h.m.R j j)
  eR : ∀ j < st.k, st.h.eR j = st.h.delta * st.h.m.R j j
  prev : ∀ j, 1 ≤ j → j < st.k → 0 ≤ st.prevR j ∧
    (st.prevR j * (2 : ℝ) ^ st.prevExpo j) ^ 2 = (normStar st.h.m.n (basisQ st.h.m.b) j : ℝ)
  back : st.h.delta ≤ 1 → st.prevK = st.k + 1 → 0 ≤ st.prevR st.k ∧
    (normStar st.h.m.n (basisQ st.h.m.b) st.k : ℝ) ≤ (st.prevR st.k * (2 : ℝ) ^ st.prevExpo st.k) ^ 2
  red : RedTo st.h.m.n st.h.m.b st.h.delta st.k
  indep : Indep st.h.m.d st.h.m.n (basisQ st.h.m.b)

/-- decreases in every round when `δ ≤ 1` -/
def fuelOf (st : St ℝ) : ℕ := 2 * (potential st.h.m.d st.h.m.n st.h.m.b).toNat + (st.h.m.d - st.k)

/-! ## Size reduction -/

theorem sizeReduction_ready {st : St ℝ} (hI : Inv st) :
    ∃ s, (∀ f, sizeReduction f st.h.m st.k st.k 0 = sizeLoop st.k st.k 0 f true s) ∧ Ready (st.kMax + 1) st.k s ∧
      Same st.k st.h.m s := by
  have hk := hI.kMax
  rcases hI.head with ⟨hu, hr⟩ | ⟨hu, hr, hh⟩
  · have hw : st.h.m.updateR st.k false = forUp 0 st.k (updateRStep st.k) st.h.m := by
      unfold updateR; rw [if_neg (by rw [hu]; simp)]; rfl
    obtain ⟨ho, hrow, hhist⟩ := updateLoop (i := st.k) (k := st.k) hI.n hr
    rw [← hw] at ho hrow hhist
    set w := st.h.m.updateR st.k false with hwdef
    have hwb : w.b = st.h.m.b := by rw [ho.eq]
    have hK : OnlyK st.k st.h.m { w with updatedR := false } := by
      have := ho.toK
      exact ⟨by rw [this.eq], this.b, this.R, this.bf, this.rowExpo, this.normSqB⟩
    refine ⟨{ w with updatedR := false }, fun f => rfl, ⟨⟨?_, ?_, ?_⟩, ?_, hK.house hI.house hI.n, hrow, hhist, rfl⟩,
      hK, ?_, ?_⟩
    · change WF _ w.ints
      rw [hwdef, updateR_ints]; exact hI.base.wf
    · intro i; change 1 ≤ w.initRowSize i; rw [ho.eq]; exact hI.base.init i
    · intro h i
      change w.expoOn = false at h
      change w.rowExpo i = 0
      rw [ho.eq] at h ⊢
      exact hI.base.expo h i
    · intro j hj
      refine (hI.known j hj).frame ?_ ?_ ?_ ?_ ?_
      · change w.n = _; rw [ho.eq]
      · intro c _; change w.b j c = _; rw [ho.eq]
      · change w.bf j = _; rw [ho.eq]
      · change w.rowExpo j = _; rw [ho.eq]
      · change w.normSqB j = _; rw [ho.eq]
    · intro l; change gramDet _ w.b l = _; rw [hwb]
    · intro c _ hc
      exact im_congr (s := st.h.m) (s' := { w with updatedR := false }) (by change w.n = _; rw [ho.eq])
        (fun i _ => by change w.V i = _; rw [ho.eq]) (fun i _ => by change w.sigma i = _; rw [ho.eq])
        (fun c _ => by change w.b _ c = _; rw [hwb]) c hc
  · have hw : st.h.m.updateR st.k false = st.h.m := by unfold updateR; rw [if_pos hu]
    refine ⟨{ st.h.m with updatedR := false }, fun f => ?_, ⟨⟨hI.base.wf, hI.base.init, hI.base.expo⟩, ?_, ?_, hr, hh, rfl⟩,
      ⟨rfl, fun _ _ => rfl, fun _ _ => rfl, fun _ _ => rfl, fun _ _ => rfl, fun _ _ => rfl⟩, fun _ => rfl, fun _ _ _ => rfl⟩
    · unfold sizeReduction; rw [hw]
    · intro j hj; exact ⟨(hI.known j hj).bf, (hI.known j hj).nsq⟩
    · exact ⟨hI.house.orth, hI.house.tri, hI.house.pos, hI.house.row⟩

/-- the state after size reduction -/
structure After (st : St ℝ) (s : HH ℝ) : Prop where
  ready : Ready (st.kMax + 1) st.k s
  same : Same st.k st.h.m s
  small : ∀ j < st.k, |muS s.n (basisQ s.b) st.k j| ≤ 1 / 2
  smallR : ∀ j < st.k, |s.im st.k st.k j| ≤ 1 / 2 * s.im (j + 1) j j

theorem after_of {st : St ℝ} (hI : Inv st) {f : ℕ} {s : HH ℝ} (h : sizeReduction f st.h.m st.k st.k 0 = some s) :
    After st s := by
  obtain ⟨t, h1, h2, h3⟩ := sizeReduction_ready hI
  rw [h1 f] at h
  have hk := hI.kMax
  have hd := hI.d
  have hn := hI.n
  have htn : t.n = st.h.m.n := by rw [h3.only.eq]
  have htd : t.d = st.h.m.d := by rw [h3.only.eq]
  obtain ⟨g1, g2, g3⟩ := sizeLoop_exact (by omega) f true t h2 (by omega) (by omega) s h
  have hsn : s.n = t.n := by rw [g2.only.eq]
  have hsm : ∀ j < st.k, |s.im st.k st.k j / s.im (j + 1) j j| ≤ 1 / 2 := by
    intro j hj
    obtain ⟨y, hy⟩ := g3 j hj
    rw [hy]; exact ExactCfg.near y
  have htri := g1.house.toTri (by omega)
  refine ⟨g1, h3.trans g2, ?_, ?_⟩
  · intro j hj
    have h4 := htri.muS_cast hj st.k
    have h5 : s.im st.k j j = s.im (j + 1) j j := by rw [g1.house.im_row hj (by omega)]
    have hp := g1.house.pos j hj
    have h6 := hsm j hj
    rw [h5] at h4
    rw [← h4, mul_div_assoc, div_self hp.ne', mul_one] at h6
    refine (Rat.cast_le (K := ℝ)).1 ?_
    push_cast
    exact h6
  · intro j hj
    have hp := g1.house.pos j hj
    have h6 := hsm j hj
    rw [abs_div, abs_of_pos hp, div_le_iff₀ hp] at h6
    exact h6

theorem sizeReduction_total (hst : Settles) {st : St ℝ} (hI : Inv st) {f : ℕ} (hf : 2 ≤ f) :
    ∃ s, sizeReduction f st.h.m st.k st.k 0 = some s := by
  obtain ⟨t, h1, h2, h3⟩ := sizeReduction_ready hI
  have hk := hI.kMax
  have hd := hI.d
  have hn := hI.n
  have htn : t.n = st.h.m.n := by rw [h3.only.eq]
  have htd : t.d = st.h.m.d := by rw [h3.only.eq]
  rw [h1 f]
  exact sizeLoop_terminates hst (by omega) f hf true t h2 (by omega) (by omega)

/-! ## What is preserved by size reduction -/

section after

variable {st : St ℝ} {s : HH ℝ}

omit [ExactCfg] in
theorem house_lt {k : ℕ} {s : HH ℝ} (hh : House k s) (hk : k ≤ s.n) (hp : 0 < normStar s.n (basisQ s.b) k) : k < s.n := by
  rcases hk.lt_or_eq with h | h
  · exact h
  · have h1 := (hh.toTri hk).projSq_cast le_rfl k
    rw [projSq_self, ← h, Ico_self, sum_empty] at h1
    have : normStar k (basisQ s.b) k = 0 := by exact_mod_cast h1
    rw [← h] at hp
    exact absurd this hp.ne'

omit [ExactCfg] in
theorem dotQ_of_gram {n : ℕ} {b b' : Mat ℤ} {k : ℕ} (h : ∀ l, gramDet n b' l = gramDet n b l) {d : ℕ}
    (hi : Indep d n (basisQ b)) (hk : k < d) : normStar n (basisQ b') k = normStar n (basisQ b) k := by
  have h1 := gramDet_eq n b (k + 1)
  have h2 := gramDet_eq n b' (k + 1)
  have h3 := gramDet_eq n b k
  have h4 := gramDet_eq n b' k
  rw [prod_range_succ] at h1 h2
  have hpos : 0 < gramDet n b k := gramDet_pos hi (by omega)
  have hpos' : (0 : ℚ) < gramDet n b k := by exact_mod_cast hpos
  rw [h k, h3] at h4
  rw [h (k + 1), h1, ← h4, ← h3] at h2
  exact (mul_left_cancel₀ hpos'.ne' h2).symm

omit [ExactCfg] in
theorem After.n (ha : After st s) : s.n = st.h.m.n := by rw [ha.same.only.eq]
omit [ExactCfg] in
theorem After.d (ha : After st s) : s.d = st.h.m.d := by rw [ha.same.only.eq]

omit [ExactCfg] in
theorem After.indep (hI : Inv st) (ha : After st s) : Indep s.d s.n (basisQ s.b) := by
  rw [ha.n, ha.d]
  refine indep_of_pos fun i hi => ?_
  rw [dotQ_of_gram ha.same.gram hI.indep hi]
  exact hI.indep.pos i hi

omit [ExactCfg] in
theorem After.red (hI : Inv st) (ha : After st s) : RedTo s.n s.b st.h.delta st.k := by
  rw [ha.n]
  exact hI.red.congr fun i hi c _ => by rw [ha.same.only.b i (by omega)]

omit [ExactCfg] in
theorem refls_dot' {k : ℕ} {s : HH ℝ} (hk : k ≤ s.n) (h : ∀ j < k, IsRefl s.n j (s.V j) (s.sigma j)) (i : ℕ) :
    ∑ c ∈ range s.n, s.im k i c * s.im k i c = ∑ c ∈ range s.n, realRows s.b i c * realRows s.b i c :=
  hmaps_dot hk h _ _

omit [ExactCfg] in
/-- the diagonal entry of an orthogonalised row -/
theorem diag_sq {k : ℕ} {s : HH ℝ} (hh : House k s) (hk : k ≤ s.n) {j : ℕ} (hj : j < k) :
    (s.R j j * (2 : ℝ) ^ s.rowExpo j) ^ 2 = (normStar s.n (basisQ s.b) j : ℝ) := by
  rw [(hh.toTri hk).normStar_cast hj, hh.im_row hj (by omega), hh.row j hj j le_rfl]

omit [ExactCfg] in
theorem diag_pos {k : ℕ} {s : HH ℝ} (hh : House k s) {j : ℕ} (hj : j < k) : 0 < s.R j j := by
  have h1 := hh.pos j hj
  rw [← hh.row j hj j le_rfl] at h1
  exact (pos_iff_pos_of_mul_pos h1).2 (two_pos' _)

/-! ## The two tests -/

theorem verify_exact {h : HL ℝ} {k : ℕ} {m : ℕ} (hr : Ready m k h.m) (hkn : k ≤ h.m.n) (hδ : 1 / 2 ≤ h.delta)
    (hθ : 0 ≤ h.theta) (heR : ∀ j < k, h.eR j = h.delta * h.m.R j j)
    (hsm : ∀ j < k, |h.m.im k k j| ≤ 1 / 2 * h.m.im (j + 1) j j) : h.verifySizeReduction k = true := by
  unfold verifySizeReduction
  dsimp only
  refine forUp_inv' (fun ok : Bool => ok = true) _ 0 k true rfl ?_
  rintro i ok - hi rfl
  rw [Bool.true_and]
  unfold verifyOne
  dsimp only
  rw [decide_eq_true_iff, fcmp_pos, not_lt]
  have hf1 : 0 ≤ (HFloat.mul (h.m.normRRow k k h.m.n).1 h.theta : ℝ) := by
    refine mul_nonneg ?_ hθ
    unfold normRRow
    dsimp only
    split_ifs
    · exact le_rfl
    · exact Real.sqrt_nonneg _
  set f1 : ℝ := HFloat.mul (h.m.normRRow k k h.m.n).1 h.theta
  have hpk := two_pos' (h.m.rowExpo k)
  have h1 := hsm i hi
  rw [← hr.row i (by omega), ← hr.house.row i hi i le_rfl, abs_mul, abs_of_pos hpk] at h1
  have hRi := diag_pos hr.house hi
  change |h.m.R k i| ≤ f1 + h.eR i * (2 : ℝ) ^ (h.m.rowExpo i - h.m.rowExpo k)
  rw [heR i hi, zpow_sub₀ two_ne]
  have h2 : |h.m.R k i| ≤ 1 / 2 * (h.m.R i i * (2 : ℝ) ^ h.m.rowExpo i) / (2 : ℝ) ^ h.m.rowExpo k := by
    rw [le_div_iff₀ hpk]; exact h1
  have h3 : 1 / 2 * (h.m.R i i * (2 : ℝ) ^ h.m.rowExpo i) / (2 : ℝ) ^ h.m.rowExpo k
      ≤ h.delta * h.m.R i i * ((2 : ℝ) ^ h.m.rowExpo i / (2 : ℝ) ^ h.m.rowExpo k) := by
    have hpi := two_pos' (h.m.rowExpo i)
    have : 0 ≤ h.m.R i i * ((2 : ℝ) ^ h.m.rowExpo i / (2 : ℝ) ^ h.m.rowExpo k) := by positivity
    have e : 1 / 2 * (h.m.R i i * (2 : ℝ) ^ h.m.rowExpo i) / (2 : ℝ) ^ h.m.rowExpo k
        = 1 / 2 * (h.m.R i i * ((2 : ℝ) ^ h.m.rowExpo i / (2 : ℝ) ^ h.m.rowExpo k)) := by ring
    rw [e, mul_assoc h.delta]
    exact mul_le_mul_of_nonneg_right hδ this
  linarith

theorem lovasz_exact {h : HL ℝ} {k : ℕ} {m : ℕ} (hk1 : 1 ≤ k) (hkm : k < m) (hr : Ready m k h.m) (hkn : k ≤ h.m.n)
    (hdR : ∀ j < k, h.dR j = h.delta * (h.m.R j j * h.m.R j j)) :
    h.lovaszTest k = true ↔
      h.delta * (normStar h.m.n (basisQ h.m.b) (k - 1) : ℝ) ≤ (projSq h.m.n (basisQ h.m.b) k (k - 1) : ℝ) := by
  unfold lovaszTest
  dsimp only
  rw [decide_eq_true_iff, fcmp_le, hdR (k - 1) (by omega)]
  set s := h.m with hs
  have hq1 : (s.normSquareRRow k 0 (k - 1)).1 = ∑ c ∈ range (k - 1), s.R k c * s.R k c := by
    unfold normSquareRRow
    dsimp only
    split_ifs with h0
    · rw [h0, range_zero, sum_empty]; rfl
    · rw [dotF_real _ _ (by omega), range_eq_Ico]
  have hq2 : (s.normSquareRRow k 0 (k - 1)).2 = 2 * s.rowExpo k := by
    unfold normSquareRRow
    dsimp only
    split_ifs with h0
    · rfl
    · rw [hr.base.expo (by simpa using h0)]; rfl
  rw [hq1, hq2]
  change _ ≤ (s.normSqB k - ∑ c ∈ range (k - 1), s.R k c * s.R k c) * (2 : ℝ) ^ (2 * s.rowExpo k - 2 * s.rowExpo (k - 1)) ↔ _
  have hp := two_pos' (2 * s.rowExpo (k - 1))
  rw [← diag_sq hr.house hkn (by omega : k - 1 < k), zpow_sub₀ two_ne, ← mul_div_assoc, le_div_iff₀ hp]
  have e1 : h.delta * (s.R (k - 1) (k - 1) * s.R (k - 1) (k - 1)) * (2 : ℝ) ^ (2 * s.rowExpo (k - 1))
      = h.delta * (s.R (k - 1) (k - 1) * (2 : ℝ) ^ s.rowExpo (k - 1)) ^ 2 := by
    rw [two_mul, zpow_add₀ two_ne]; ring
  have e2 : (s.normSqB k - ∑ c ∈ range (k - 1), s.R k c * s.R k c) * (2 : ℝ) ^ (2 * s.rowExpo k)
      = (projSq s.n (basisQ s.b) k (k - 1) : ℝ) := by
    rw [sub_mul, (hr.known k hkm).nsq, (hr.house.toTri hkn).projSq_cast (by omega : k - 1 ≤ k), sum_mul]
    have hd := refls_dot' (s := s) hkn hr.house.orth k
    rw [← hd, sum_range_split (by omega : k - 1 ≤ s.n)]
    have : ∑ c ∈ range (k - 1), s.R k c * s.R k c * (2 : ℝ) ^ (2 * s.rowExpo k)
        = ∑ c ∈ range (k - 1), s.im k k c * s.im k k c := by
      refine sum_congr rfl fun c hc => ?_
      rw [mem_range] at hc
      rw [← hr.row c (by omega), two_mul, zpow_add₀ two_ne]; ring
    rw [this]; ring
  rw [e1, e2]

/-! ## One round -/

/-- what a round may do -/
def StepOk (srFuel : ℕ) (st : St ℝ) : Res ℝ → Prop
  | .next st' => Inv st' ∧ st'.h.delta = st.h.delta ∧ st'.h.theta = st.h.theta ∧ st'.h.m.d = st.h.m.d ∧
      st'.h.m.n = st.h.m.n ∧ (st.h.delta ≤ 1 → fuelOf st' < fuelOf st)
  | .done .success h => RedTo h.m.n h.m.b st.h.delta h.m.d ∧ House h.m.d h.m ∧ h.m.d ≤ h.m.n ∧
      h.m.d = st.h.m.d ∧ h.m.n = st.h.m.n
  | .done .hlllNormFailure _ => ¬ st.h.delta ≤ 1
  | .done .hlllSrFailure _ => ¬ (1 / 2 ≤ st.h.delta ∧ 0 ≤ st.h.theta)
  | .done _ _ => False
  | .ub => False
  | .outOfFuel _ => ¬ (Settles ∧ 2 ≤ srFuel)

theorem advance_exact (srFuel : ℕ) (hI : Inv st) (ha : After st s)
    (hlov : st.h.delta * (normStar s.n (basisQ s.b) (st.k - 1) : ℝ) ≤ (projSq s.n (basisQ s.b) st.k (st.k - 1) : ℝ)) :
    StepOk srFuel st (advance st { st.h with m := s }) := by
  have hk1 := hI.k1
  have hkM := hI.kMax
  have hdM := hI.d
  have hnn := hI.n
  have hsn := ha.n
  have hsd := ha.d
  have hind := ha.indep hI
  have hr := ha.ready
  have hkd : st.k < s.d := by omega
  have hpos : 0 < normStar s.n (basisQ s.b) st.k := hind.pos st.k hkd
  have hkn : st.k < s.n := house_lt hr.house (by omega) hpos
  -- the new last row
  have hH := updateRLast_next hkn hr.house hr.row hpos
  have hL := updateRLast_only s st.k
  set t := s.updateRLast st.k with ht
  have htn : t.n = s.n := by rw [hL.eq]
  have htd : t.d = s.d := by rw [hL.eq]
  have htb : t.b = s.b := by rw [hL.eq]
  have hte : t.rowExpo = s.rowExpo := by rw [hL.eq]
  have htu : t.updatedR = false := by rw [hL.eq]; exact hr.upd
  have hbase : Base (st.kMax + 1) t := by
    refine ⟨?_, ?_, ?_⟩
    · rw [ht, updateRLast_ints]; exact hr.base.wf
    · intro i; rw [hL.eq]; exact hr.base.init i
    · intro h i; rw [hL.eq] at h ⊢; exact hr.base.expo h i
  have hknown : ∀ j < st.kMax + 1, Known j t := by
    intro j hj
    refine (hr.known j hj).frame htn ?_ ?_ ?_ ?_
    · intro c _; rw [htb]
    · rw [hL.eq]
    · rw [hte]
    · rw [hL.eq]
  have hred : RedTo t.n t.b st.h.delta (st.k + 1) := by
    rw [htn, htb]
    have h0 := ha.red hI
    constructor
    · intro i hi j hj
      rcases Nat.lt_succ_iff_lt_or_eq.1 hi with h | h
      · exact h0.size i h j hj
      · subst h; exact ha.small j hj
    · intro i hi
      rcases Nat.lt_succ_iff_lt_or_eq.1 hi with h | h
      · exact h0.lovasz i h
      · have : i = st.k - 1 := by omega
        subst this
        rw [show st.k - 1 + 1 = st.k by omega]; exact hlov
  have hRsame : ∀ j < st.k, t.R j j = st.h.m.R j j := fun j hj => by
    rw [hL.R j (by omega), ha.same.only.R j (by omega)]
  have hdiag := diag_sq hH (by omega) (Nat.lt_succ_self st.k)
  have hdpos := diag_pos hH (Nat.lt_succ_self st.k)
  have hnorm : ∀ j, j ≤ st.k → normStar t.n (basisQ t.b) j = normStar st.h.m.n (basisQ st.h.m.b) j := by
    intro j hj
    rw [htn, htb, hsn]
    exact dotQ_of_gram ha.same.gram hI.indep (by omega)
  -- the part of the next state that does not depend on how row `k + 1` is loaded
  have hdR : ∀ j < st.k + 1, setAt st.h.dR st.k (st.h.delta * (t.R st.k st.k * t.R st.k st.k)) j
      = st.h.delta * (t.R j j * t.R j j) := by
    intro j hj
    rcases Nat.lt_succ_iff_lt_or_eq.1 hj with h | h
    · rw [setAt_ne _ _ (by omega), hRsame j h]; exact hI.dR j h
    · subst h; rw [setAt_self]
  have heR : ∀ j < st.k + 1, setAt st.h.eR st.k (st.h.delta * t.R st.k st.k) j = st.h.delta * t.R j j := by
    intro j hj
    rcases Nat.lt_succ_iff_lt_or_eq.1 hj with h | h
    · rw [setAt_ne _ _ (by omega), hRsame j h]; exact hI.eR j h
    · subst h; rw [setAt_self]
  have hprev : ∀ j, 1 ≤ j → j < st.k + 1 → 0 ≤ setAt st.prevR st.k (t.R st.k st.k) j ∧
      (setAt st.prevR st.k (t.R st.k st.k) j * (2 : ℝ) ^ setAt st.prevExpo st.k (t.rowExpo st.k) j) ^ 2
        = (normStar t.n (basisQ t.b) j : ℝ) := by
    intro j h1 hj
    rcases Nat.lt_succ_iff_lt_or_eq.1 hj with h | h
    · rw [setAt_ne _ _ (by omega), setAt_ne _ _ (by omega), hnorm j h.le]; exact hI.prev j h1 h
    · subst h; rw [setAt_self, setAt_self]; exact ⟨hdpos.le, hdiag⟩
  have hpot : potential t.d t.n t.b = potential st.h.m.d st.h.m.n st.h.m.b := by
    rw [htd, htn, htb, hsd, hsn]
    unfold potential
    exact prod_congr rfl fun l _ => ha.same.gram (l + 1)
  have hindt : Indep t.d t.n (basisQ t.b) := by rw [htd, htn, htb]; exact hind
  -- the result
  have hres : advance st { st.h with m := s } =
      if st.prevK = st.k + 1 ∧ 0 < HFloat.fcmp (t.R st.k st.k)
          (HFloat.mul2si (st.prevR st.k) (st.prevExpo st.k - t.rowExpo st.k) : ℝ) then
        .done .hlllNormFailure ⟨st.h.delta, st.h.eta, st.h.theta, t,
          setAt st.h.dR st.k (st.h.delta * (t.R st.k st.k * t.R st.k st.k)),
          setAt st.h.eR st.k (st.h.delta * t.R st.k st.k)⟩
      else if st.k + 1 < t.d then
        if st.kMax < st.k + 1 then
          .next ⟨⟨st.h.delta, st.h.eta, st.h.theta, t.refreshRBf (st.k + 1),
            setAt st.h.dR st.k (st.h.delta * (t.R st.k st.k * t.R st.k st.k)),
            setAt st.h.eR st.k (st.h.delta * t.R st.k st.k)⟩, st.k + 1, st.k + 1, st.k,
            setAt st.prevR st.k (t.R st.k st.k), setAt st.prevExpo st.k (t.rowExpo st.k)⟩
        else
          .next ⟨⟨st.h.delta, st.h.eta, st.h.theta, t.refreshR (st.k + 1),
            setAt st.h.dR st.k (st.h.delta * (t.R st.k st.k * t.R st.k st.k)),
            setAt st.h.eR st.k (st.h.delta * t.R st.k st.k)⟩, st.k + 1, st.kMax, st.k,
            setAt st.prevR st.k (t.R st.k st.k), setAt st.prevExpo st.k (t.rowExpo st.k)⟩
      else .done .success ⟨st.h.delta, st.h.eta, st.h.theta, t,
          setAt st.h.dR st.k (st.h.delta * (t.R st.k st.k * t.R st.k st.k)),
          setAt st.h.eR st.k (st.h.delta * t.R st.k st.k)⟩ := by
    unfold advance
    dsimp only
    rw [if_neg (by omega)]
    rfl
  rw [hres]
  by_cases h1 : st.prevK = st.k + 1 ∧ 0 < HFloat.fcmp (t.R st.k st.k)
      (HFloat.mul2si (st.prevR st.k) (st.prevExpo st.k - t.rowExpo st.k) : ℝ)
  · rw [if_pos h1]
    intro hδ
    obtain ⟨h2, h3⟩ := h1
    rw [fcmp_pos] at h3
    obtain ⟨h4, h5⟩ := hI.back hδ h2
    rw [← hnorm st.k le_rfl, ← hdiag] at h5
    have hp := two_pos' (t.rowExpo st.k)
    have hp2 := two_pos' (st.prevExpo st.k)
    have h6 : t.R st.k st.k * (2 : ℝ) ^ t.rowExpo st.k ≤ st.prevR st.k * (2 : ℝ) ^ st.prevExpo st.k :=
      (sq_le_sq₀ (by positivity) (by positivity)).1 h5
    change st.prevR st.k * (2 : ℝ) ^ (st.prevExpo st.k - t.rowExpo st.k) < _ at h3
    rw [zpow_sub₀ two_ne, ← mul_div_assoc, div_lt_iff₀ hp] at h3
    linarith
  · rw [if_neg h1]
    by_cases h2 : st.k + 1 < t.d
    · rw [if_pos h2]
      by_cases h3 : st.kMax < st.k + 1
      · rw [if_pos h3]
        have hkk : st.kMax = st.k := by omega
        obtain ⟨g1, g2, g3⟩ := refreshRBf_exact (m' := st.k + 1 + 1) hbase h2 (.inr ⟨by omega, by omega⟩)
        have ho := (refreshRBf_only t (st.k + 1)).toK
        set v := t.refreshRBf (st.k + 1) with hv
        have hvb : v.b = t.b := rfl
        refine ⟨⟨?_, le_rfl, h2, ?_, g1, ?_, ?_, .inl ⟨htu, g3⟩, ?_, ?_, hprev, ?_, hred, hindt⟩, rfl, rfl, ?_, ?_, ?_⟩
        · change 1 ≤ st.k + 1; omega
        · change st.k + 1 ≤ t.n; omega
        · intro j hj
          change j < st.k + 1 + 1 at hj
          by_cases h : j = st.k + 1
          · subst h; exact g2
          · exact ho.known h (hknown j (by omega))
        · exact hH.frame (by omega) rfl (fun _ _ => rfl) (fun _ _ => rfl) (fun _ _ _ _ => rfl)
            (fun j hj c _ => by rw [ho.R j (by omega)]) (fun j hj => ho.rowExpo j (by omega))
        · intro j hj
          change j < st.k + 1 at hj
          change _ = st.h.delta * (v.R j j * v.R j j)
          rw [ho.R j (by omega)]; exact hdR j hj
        · intro j hj
          change j < st.k + 1 at hj
          change _ = st.h.delta * v.R j j
          rw [ho.R j (by omega)]; exact heR j hj
        · intro _ h
          change (st.k : ℤ) = ((st.k + 1 : ℕ) : ℤ) + 1 at h
          omega
        · exact htd.trans hsd
        · exact htn.trans hsn
        · intro _
          change 2 * (potential t.d t.n t.b).toNat + (t.d - (st.k + 1)) < _
          rw [hpot, fuelOf]; omega
      · rw [if_neg h3]
        have ho : OnlyK (st.k + 1) t (t.refreshR (st.k + 1)) :=
          ⟨rfl, fun _ _ => rfl, fun j hj => setAt_ne _ _ hj, fun _ _ => rfl, fun _ _ => rfl, fun _ _ => rfl⟩
        have g3 : RowAt (st.k + 1) 0 (t.refreshR (st.k + 1)) :=
          refreshR_exact hbase (by omega) h2 (hknown _ (by omega))
        set v := t.refreshR (st.k + 1) with hv
        refine ⟨⟨?_, ?_, ?_, ?_, ⟨hbase.wf, hbase.init, hbase.expo⟩, ?_, ?_, .inl ⟨htu, g3⟩, ?_, ?_, hprev, ?_, hred, hindt⟩,
          rfl, rfl, ?_, ?_, ?_⟩
        · change 1 ≤ st.k + 1; omega
        · change st.k + 1 ≤ st.kMax; omega
        · change st.kMax < t.d; omega
        · change st.k + 1 ≤ t.n; omega
        · intro j hj
          exact ⟨(hknown j hj).bf, (hknown j hj).nsq⟩
        · exact hH.frame (by omega) rfl (fun _ _ => rfl) (fun _ _ => rfl) (fun _ _ _ _ => rfl)
            (fun j hj c _ => by rw [ho.R j (by omega)]) (fun j hj => ho.rowExpo j (by omega))
        · intro j hj
          change j < st.k + 1 at hj
          change _ = st.h.delta * (v.R j j * v.R j j)
          rw [ho.R j (by omega)]; exact hdR j hj
        · intro j hj
          change j < st.k + 1 at hj
          change _ = st.h.delta * v.R j j
          rw [ho.R j (by omega)]; exact heR j hj
        · intro _ h
          change (st.k : ℤ) = ((st.k + 1 : ℕ) : ℤ) + 1 at h
          omega
        · exact htd.trans hsd
        · exact htn.trans hsn
        · intro _
          change 2 * (potential t.d t.n t.b).toNat + (t.d - (st.k + 1)) < _
          rw [hpot, fuelOf]; omega
    · rw [if_neg h2]
      have hkk : st.k + 1 = t.d := by omega
      refine ⟨?_, ?_, ?_, htd.trans hsd, htn.trans hsn⟩
      · change RedTo t.n t.b _ t.d
        rw [← hkk]; exact hred
      · change House t.d t
        rw [← hkk]; exact hH
      · change t.d ≤ t.n
        omega

/-! ### Swapping -/

omit [ExactCfg] in
/-- swapping rows `k - 1` and `k` -/
theorem swapP_prev {k : ℕ} (hk : 1 ≤ k) : swapP (k - 1) k (k - 1) = k ∧ swapP (k - 1) k k = k - 1 ∧
    ∀ j, j ≠ k - 1 → j ≠ k → swapP (k - 1) k j = j := by
  unfold swapP
  refine ⟨?_, ?_, ?_⟩
  · simp
  · rw [if_neg (by omega)]; simp
  · intro j h1 h2; rw [if_neg h1, if_neg h2]

omit [ExactCfg] in
theorem gramDet_swap {n : ℕ} {b : Mat ℤ} {k : ℕ} (hk : 1 ≤ k) {m : ℕ} (hm : m ≠ k) :
    gramDet n (swapAt b (k - 1) k) m = gramDet n b m := by
  obtain ⟨p1, p2, p3⟩ := swapP_prev hk
  rw [swapAt_eq]
  rcases lt_or_gt_of_ne hm with h | h
  · exact gramDet_congr fun i hi c _ => by rw [p3 i (by omega) (by omega)]
  · have hlt : ∀ i < m, swapP (k - 1) k i < m := fun i hi => by unfold swapP; split_ifs <;> omega
    have hpp : ∀ i < m, swapP (k - 1) k (swapP (k - 1) k i) = i := fun i _ => by unfold swapP; grind
    refine gramDet_mul (permM m (swapP (k - 1) k)) ?_ ?_
    · rw [← Matrix.det_mul, permM_inv _ _ _ hlt hpp, Matrix.det_one]
    · rw [permM_mul _ _ _ hlt]

omit [ExactCfg] in
/-- a swap after a failed Lovász test decreases the potential -/
theorem potential_swap {d n k : ℕ} {b : Mat ℤ} (hi : Indep d n (basisQ b)) (hk : 1 ≤ k) (hkd : k < d)
    (hlt : projSq n (basisQ b) k (k - 1) < normStar n (basisQ b) (k - 1)) :
    potential d n (swapAt b (k - 1) k) < potential d n b := by
  refine potential_lt (k := k - 1) hi (by omega) (fun m _ hm => gramDet_swap hk (by omega)) ?_
  have hns : normStar n (basisQ (swapAt b (k - 1) k)) (k - 1) = projSq n (basisQ b) k (k - 1) := by
    refine normStar_insert (fun l hl c _ => ?_) (fun c _ => ?_)
    · unfold basisQ swapAt; rw [if_neg (by omega), if_neg (by omega)]
    · unfold basisQ swapAt; rw [if_pos rfl]
  have h1 := gramDet_eq n (swapAt b (k - 1) k) (k - 1 + 1)
  have h2 := gramDet_eq n b (k - 1 + 1)
  have h3 := gramDet_eq n (swapAt b (k - 1) k) (k - 1)
  have h4 := gramDet_eq n b (k - 1)
  rw [gramDet_swap hk (by omega)] at h3
  rw [prod_range_succ, ← h3] at h1
  rw [prod_range_succ, ← h4] at h2
  have hpos : (0 : ℚ) < gramDet n b (k - 1) := by exact_mod_cast gramDet_pos hi (by omega : k - 1 ≤ d)
  have : ((gramDet n (swapAt b (k - 1) k) (k - 1 + 1) : ℤ) : ℚ) < gramDet n b (k - 1 + 1) := by
    rw [h1, h2]
    refine mul_lt_mul_of_pos_left ?_ hpos
    change normStar n (basisQ (swapAt b (k - 1) k)) (k - 1) < normStar n (basisQ b) (k - 1)
    rw [hns]; exact hlt
  exact_mod_cast this

theorem swapBack_exact (srFuel : ℕ) (hI : Inv st) (ha : After st s)
    (hlov : ¬ st.h.delta * (normStar s.n (basisQ s.b) (st.k - 1) : ℝ) ≤ (projSq s.n (basisQ s.b) st.k (st.k - 1) : ℝ)) :
    StepOk srFuel st (swapBack st { st.h with m := s }) := by
  have hk1 := hI.k1
  have hkM := hI.kMax
  have hdM := hI.d
  have hnn := hI.n
  have hsn := ha.n
  have hsd := ha.d
  have hind := ha.indep hI
  have hr := ha.ready
  have hkd : st.k < s.d := by omega
  obtain ⟨p1, p2, p3⟩ := swapP_prev hk1
  set t := s.swap (st.k - 1) st.k with ht
  have hg := swap_good s hr.base.wf (i := st.k - 1) (j := st.k) (by omega) (by omega) (by omega) (by omega)
  have htb : t.b = swapAt s.b (st.k - 1) st.k := rfl
  have hb' : ∀ j, t.b j = s.b (swapP (st.k - 1) st.k j) := fun j => by rw [htb, swapAt_eq]
  have hexpo : ∀ j, t.rowExpo j = s.rowExpo (swapP (st.k - 1) st.k j) := by
    intro j
    change (if s.expoOn = true then swapAt s.rowExpo _ _ else s.rowExpo) j = _
    split_ifs with h
    · rw [swapAt_eq]
    · rw [hr.base.expo (by simpa using h), hr.base.expo (by simpa using h)]
  have hbase : Base (st.kMax + 1) t := by
    refine ⟨hg.wf, ?_, ?_⟩
    · intro i
      change 1 ≤ swapAt s.initRowSize _ _ i
      rw [swapAt_eq]; exact hr.base.init _
    · intro h i
      rw [hexpo]; exact hr.base.expo h _
  have hknown : ∀ j < st.kMax + 1, Known j t := by
    intro j hj
    have hj' : swapP (st.k - 1) st.k j < st.kMax + 1 := by unfold swapP; split_ifs <;> omega
    have h0 := hr.known _ hj'
    constructor
    · intro c hc
      change swapAt s.bf _ _ j c * _ = (swapAt s.b _ _ j c : ℝ)
      rw [hexpo, swapAt_eq, swapAt_eq]; exact h0.bf c hc
    · change swapAt s.normSqB _ _ j * _ = ∑ c ∈ range s.n, (t.b j c : ℝ) * (t.b j c : ℝ)
      rw [hexpo, swapAt_eq, hb']; exact h0.nsq
  have hH : House (st.k - 1) t := by
    refine (hr.house.mono (by omega : st.k - 1 ≤ st.k)).frame (by omega) rfl (fun _ _ => rfl) ?_ ?_ (fun _ _ _ _ => rfl) ?_
    · intro i hi
      change swapAt s.sigma _ _ i = _
      rw [swapAt_eq]; change s.sigma _ = _; rw [p3 i (by omega) (by omega)]
    · intro i hi c _
      rw [hb', p3 i (by omega) (by omega)]
    · intro i hi; rw [hexpo, p3 i (by omega) (by omega)]
  have hbsame : ∀ i < st.k - 1, ∀ c < s.n, t.b i c = s.b i c := fun i hi c _ => by
    rw [hb', p3 i (by omega) (by omega)]
  have hred : RedTo t.n t.b st.h.delta (st.k - 1) := ((ha.red hI).mono (by omega)).congr hbsame
  have hns : normStar t.n (basisQ t.b) (st.k - 1) = projSq s.n (basisQ s.b) st.k (st.k - 1) := by
    refine normStar_insert (fun l hl c hc => ?_) (fun c hc => ?_)
    · unfold basisQ; rw [hbsame l hl c hc]
    · unfold basisQ; rw [hb', p1]
  have hindt : Indep t.d t.n (basisQ t.b) := by
    obtain ⟨T, T', a1, a2, a3, -, -⟩ := hg.uni.uni
    refine Spec.Indep.of_lattice hind ?_
    have a3' : toM t.d t.n t.b = T * toM s.d s.n s.b := a3
    rw [a3']
    exact lattice_mul ⟨T', a1, a2⟩ _
  have hltR : (projSq s.n (basisQ s.b) st.k (st.k - 1) : ℝ) < st.h.delta * (normStar s.n (basisQ s.b) (st.k - 1) : ℝ) :=
    not_le.1 hlov
  have hle : st.h.delta ≤ 1 → projSq s.n (basisQ s.b) st.k (st.k - 1) < normStar s.n (basisQ s.b) (st.k - 1) := by
    intro hδ
    have h0 : (0 : ℝ) ≤ (normStar s.n (basisQ s.b) (st.k - 1) : ℝ) := by exact_mod_cast normStar_nonneg _ _ _
    have : (projSq s.n (basisQ s.b) st.k (st.k - 1) : ℝ) < (normStar s.n (basisQ s.b) (st.k - 1) : ℝ) := by nlinarith
    exact_mod_cast this
  have hpot : st.h.delta ≤ 1 → potential t.d t.n t.b < potential st.h.m.d st.h.m.n st.h.m.b := by
    intro hδ
    have h0 : potential s.d s.n s.b = potential st.h.m.d st.h.m.n st.h.m.b := by
      rw [hsd, hsn]
      unfold potential
      exact prod_congr rfl fun l _ => ha.same.gram (l + 1)
    rw [← h0]
    exact potential_swap hind hk1 hkd (hle hδ)
  have hpotpos : 0 < potential t.d t.n t.b := potential_pos hindt
  have htu : t.updatedR = false := hr.upd
  have hRsame : ∀ j < st.k, t.R j j = st.h.m.R j j := fun j hj => ha.same.only.R j (by omega) ▸ rfl
  have hfuel : st.h.delta ≤ 1 → ∀ k', st.k ≤ k' + 1 →
      2 * (potential t.d t.n t.b).toNat + (t.d - k') < fuelOf st := by
    intro hδ k' hk'
    have h1 := hpot hδ
    have h2 : t.d = st.h.m.d := hsd
    unfold fuelOf
    omega
  unfold swapBack
  dsimp only
  by_cases h0 : st.k - 1 = 0
  · rw [if_pos h0]
    have hk : st.k = 1 := by omega
    -- row 0
    have hr0 : RowAt 0 0 (t.refreshR 0) := refreshR_exact hbase (by omega) (by change 0 < s.d; omega) (hknown 0 (by omega))
    have hHv : House 0 (t.refreshR 0) :=
      ⟨fun j hj => absurd hj (by omega), fun j hj => absurd hj (by omega), fun j hj => absurd hj (by omega),
        fun j hj => absurd hj (by omega)⟩
    have hn0 : 0 < t.n := by change 0 < s.n; omega
    have hH1 := updateRLast_next (s := t.refreshR 0) hn0 hHv hr0 (hindt.pos 0 (by change 0 < s.d; omega))
    have hL := updateRLast_only (t.refreshR 0) 0
    have hint : ((t.refreshR 0).updateRLast 0).ints = t.ints := by rw [updateRLast_ints]; rfl
    set w := (t.refreshR 0).updateRLast 0 with hw
    have hwn : w.n = t.n := by rw [hL.eq]; rfl
    have hwd : w.d = t.d := by rw [hL.eq]; rfl
    have hwb : w.b = t.b := by rw [hL.eq]; rfl
    have hwe : w.rowExpo = t.rowExpo := by rw [hL.eq]; rfl
    have hwu : w.updatedR = false := by rw [hL.eq]; exact htu
    have hbw : Base (st.kMax + 1) w := by
      refine ⟨by rw [hint]; exact hbase.wf, ?_, ?_⟩
      · intro i; rw [hL.eq]; exact hbase.init i
      · intro h i; rw [hL.eq] at h ⊢; exact hbase.expo h i
    have hkw : ∀ j < st.kMax + 1, Known j w := by
      intro j hj
      refine (hknown j hj).frame hwn ?_ ?_ ?_ ?_
      · intro c _; rw [hwb]
      · rw [hL.eq]; rfl
      · rw [hwe]
      · rw [hL.eq]; rfl
    have hr1 : RowAt 1 0 (w.refreshR 1) := refreshR_exact hbw (by omega) (by rw [hwd]; change 1 < s.d; omega) (hkw 1 (by omega))
    have hR0 : (w.refreshR 1).R 0 = w.R 0 := by
      funext c; simp [refreshR, setAt]
    refine ⟨⟨le_rfl, ?_, ?_, ?_, ⟨hbw.wf, hbw.init, hbw.expo⟩, ?_, ?_, .inl ⟨hwu, hr1⟩, ?_, ?_, ?_, ?_, ?_, ?_⟩,
      rfl, rfl, ?_, ?_, ?_⟩
    · change 1 ≤ st.kMax; omega
    · change st.kMax < w.d; rw [hwd]; change st.kMax < s.d; omega
    · change 1 ≤ w.n; rw [hwn]; exact hn0
    · intro j hj
      exact ⟨(hkw j hj).bf, (hkw j hj).nsq⟩
    · refine hH1.frame (by rw [hwn]; exact hn0) rfl (fun _ _ => rfl) (fun _ _ => rfl) (fun _ _ _ _ => rfl) ?_ (fun _ _ => rfl)
      intro i hi c _
      have : i = 0 := by omega
      subst this
      change (w.refreshR 1).R 0 c = _
      rw [hR0]
    · intro j hj
      have hj0 : j = 0 := by change j < 1 at hj; omega
      subst hj0
      change setAt st.h.dR 0 (st.h.delta * (w.R 0 0 * w.R 0 0)) 0 = st.h.delta * ((w.refreshR 1).R 0 0 * (w.refreshR 1).R 0 0)
      rw [setAt_self, hR0]
    · intro j hj
      have hj0 : j = 0 := by change j < 1 at hj; omega
      subst hj0
      change setAt st.h.eR 0 (st.h.delta * w.R 0 0) 0 = st.h.delta * (w.refreshR 1).R 0 0
      rw [setAt_self, hR0]
    · intro j hj1 hj
      change j < 1 at hj
      omega
    · intro _ h
      change (st.k : ℤ) = ((1 : ℕ) : ℤ) + 1 at h
      omega
    · refine ⟨fun i hi j hj => ?_, fun i hi => ?_⟩
      · change i < 1 at hi; omega
      · change i + 1 < 1 at hi; omega
    · change Indep w.d w.n (basisQ w.b)
      rw [hwd, hwn, hwb]; exact hindt
    · exact hwd.trans hsd
    · exact hwn.trans hsn
    · intro hδ
      change 2 * (potential w.d w.n w.b).toNat + (w.d - 1) < _
      rw [hwd, hwn, hwb]
      exact hfuel hδ 1 (by omega)
  · rw [if_neg h0]
    have himt : ∀ l ≤ st.k - 1, ∀ c < s.n, t.im l (st.k - 1) c = s.im l st.k c := by
      intro l hl c hc
      refine hmaps_congr (fun _ _ => rfl) (fun j hj => ?_) (fun c _ => ?_) c hc
      · change swapAt s.sigma _ _ j = _
        rw [swapAt_eq]; change s.sigma _ = _; rw [p3 j (by omega) (by omega)]
      · unfold realRows; rw [hb', p1]
    have hhist : HistOk (st.k - 1) (st.k - 1) t := by
      intro l hl c h1 h2
      have h2' : c < s.n := h2
      change swapAt s.hist _ _ (st.k - 1) l c * _ = _
      rw [swapAt_eq, hexpo, p1, himt (l + 1) (by omega) c h2']
      change s.hist (swapP (st.k - 1) st.k (st.k - 1)) l c * _ = _
      rw [p1]
      exact hr.hist l (by omega) c h1 h2'
    set v := t.recoverR (st.k - 1) with hv
    have hrow : RowAt (st.k - 1) (st.k - 1) v := by
      intro c hc
      have hc' : c < t.n := hc
      change setAt t.R (st.k - 1) _ (st.k - 1) c * (2 : ℝ) ^ t.rowExpo (st.k - 1) = t.im (st.k - 1) (st.k - 1) c
      rw [setAt_self]
      by_cases h1 : c < st.k - 1 - 1
      · rw [if_pos h1, hhist c (by omega) c le_rfl hc']
        exact (hmaps_low (by omega) (by omega)).symm
      · rw [if_neg h1, if_pos hc', hhist (st.k - 1 - 1) (by omega) c (by omega) hc', show st.k - 1 - 1 + 1 = st.k - 1 by omega]
    have hRv : ∀ j, j ≠ st.k - 1 → v.R j = t.R j := fun j hj => setAt_ne _ _ hj
    refine ⟨⟨?_, ?_, ?_, ?_, ⟨hbase.wf, hbase.init, hbase.expo⟩, ?_, ?_, .inr ⟨rfl, hrow, hhist⟩, ?_, ?_, ?_, ?_, hred, hindt⟩,
      rfl, rfl, hsd, hsn, ?_⟩
    · change 1 ≤ st.k - 1; omega
    · change st.k - 1 ≤ st.kMax; omega
    · change st.kMax < s.d; omega
    · change st.k - 1 ≤ s.n; omega
    · intro j hj
      exact ⟨(hknown j hj).bf, (hknown j hj).nsq⟩
    · exact hH.frame (by change st.k - 1 ≤ s.n; omega) rfl (fun _ _ => rfl) (fun _ _ => rfl) (fun _ _ _ _ => rfl)
        (fun j hj c _ => by
          change j < st.k - 1 at hj
          change v.R j c = t.R j c
          rw [hRv j (by omega)]) (fun _ _ => rfl)
    · intro j hj
      change j < st.k - 1 at hj
      change st.h.dR j = st.h.delta * (v.R j j * v.R j j)
      rw [hRv j (by omega), hRsame j (by omega)]; exact hI.dR j (by omega)
    · intro j hj
      change j < st.k - 1 at hj
      change st.h.eR j = st.h.delta * v.R j j
      rw [hRv j (by omega), hRsame j (by omega)]; exact hI.eR j (by omega)
    · intro j hj1 hj
      change j < st.k - 1 at hj
      have := hI.prev j hj1 (by omega)
      refine ⟨this.1, this.2.trans ?_⟩
      change _ = (normStar t.n (basisQ t.b) j : ℝ)
      have e1 : normStar t.n (basisQ t.b) j = normStar s.n (basisQ s.b) j :=
        normStar_congr fun l hl c hc => by unfold basisQ; rw [hbsame l (by omega) c hc]
      rw [e1, hsn, dotQ_of_gram ha.same.gram hI.indep (by omega)]
    · intro hδ _
      have := hI.prev (st.k - 1) (by omega) (by omega)
      refine ⟨this.1, ?_⟩
      change (normStar t.n (basisQ t.b) (st.k - 1) : ℝ) ≤ (st.prevR (st.k - 1) * (2 : ℝ) ^ st.prevExpo (st.k - 1)) ^ 2
      rw [this.2, hns, ← dotQ_of_gram ha.same.gram hI.indep (by omega), ← hsn]
      exact_mod_cast (hle hδ).le
    · intro hδ
      exact hfuel hδ (st.k - 1) (by omega)

theorem step_exact (srFuel : ℕ) (hI : Inv st) : StepOk srFuel st (step srFuel st) := by
  unfold step
  cases hs : sizeReduction srFuel st.h.m st.k st.k 0 with
  | none =>
    rintro ⟨h1, h2⟩
    obtain ⟨s, hs'⟩ := sizeReduction_total h1 hI h2
    rw [hs] at hs'; cases hs'
  | some s =>
    have ha := after_of hI hs
    have hkM := hI.kMax
    have hn := hI.n
    have hsn := ha.n
    have hdR : ∀ j < st.k, st.h.dR j = st.h.delta * (s.R j j * s.R j j) := fun j hj => by
      rw [ha.same.only.R j (by omega)]; exact hI.dR j hj
    have heR : ∀ j < st.k, st.h.eR j = st.h.delta * s.R j j := fun j hj => by
      rw [ha.same.only.R j (by omega)]; exact hI.eR j hj
    dsimp only
    split_ifs with h1 h2
    · rintro ⟨h2, h3⟩
      have := verify_exact (h := { st.h with m := s }) ha.ready (by change st.k ≤ s.n; omega) h2 h3 heR ha.smallR
      rw [this] at h1; cases h1
    · exact advance_exact srFuel hI ha
        ((lovasz_exact (h := { st.h with m := s }) hI.k1 (by omega) ha.ready (by change st.k ≤ s.n; omega) hdR).1 h2)
    · exact swapBack_exact srFuel hI ha fun h3 => h2
        ((lovasz_exact (h := { st.h with m := s }) hI.k1 (by omega) ha.ready (by change st.k ≤ s.n; omega) hdR).2 h3)

/-! ## The loop -/

theorem loop_exact (srFuel fuel : ℕ) (st : St ℝ) (hI : Inv st) :
    (match loop srFuel fuel st with
    | .next _ => False
    | .done .success h => RedTo h.m.n h.m.b st.h.delta h.m.d ∧ House h.m.d h.m ∧ h.m.d ≤ h.m.n ∧
        h.m.d = st.h.m.d ∧ h.m.n = st.h.m.n
    | .done .hlllNormFailure _ => ¬ st.h.delta ≤ 1
    | .done .hlllSrFailure _ => ¬ (1 / 2 ≤ st.h.delta ∧ 0 ≤ st.h.theta)
    | .done _ _ => False
    | .ub => False
    | .outOfFuel _ => ¬ (Settles ∧ 2 ≤ srFuel ∧ st.h.delta ≤ 1 ∧ fuelOf st < fuel)) := by
  induction fuel generalizing st with
  | zero => rintro ⟨-, -, -, h⟩; omega
  | succ fuel ih =>
    have h := step_exact srFuel hI
    rw [loop]
    cases hs : step srFuel st with
    | next st' =>
      rw [hs] at h
      obtain ⟨h1, h2, h3, h4, h5, h6⟩ := h
      have := ih st' h1
      dsimp only
      cases hl : loop srFuel fuel st' with
      | next st'' => rw [hl] at this; exact this
      | done r h' =>
        rw [hl] at this
        cases r <;> first | exact this | (rw [h2] at this; first | exact this | (rw [h4, h5] at this; exact this)) |
          (rw [h2, h3] at this; exact this)
      | ub => rw [hl] at this; exact this
      | outOfFuel h' =>
        rw [hl] at this
        rintro ⟨a1, a2, a3, a4⟩
        exact this ⟨a1, a2, h2 ▸ a3, by have := h6 a3; omega⟩
    | done r h' =>
      rw [hs] at h
      cases r <;> exact h
    | ub => rw [hs] at h; exact h
    | outOfFuel h' =>
      rw [hs] at h
      rintro ⟨a1, a2, -, -⟩
      exact h ⟨a1, a2⟩

end after

/-! ## The start -/

theorem start_inv {h : HL ℝ} {junk : ℕ → ℝ} {junkE : ℕ → ℤ} (hb : Base 0 h.m) (hd : 2 ≤ h.m.d)
    (hi : Indep h.m.d h.m.n (basisQ h.m.b)) (hu : h.m.updatedR = false) :
    Inv (start h junk junkE) ∧ (start h junk junkE).h.delta = h.delta ∧ (start h junk junkE).h.theta = h.theta ∧
      (start h junk junkE).h.m.d = h.m.d ∧ (start h junk junkE).h.m.n = h.m.n ∧ (start h junk junkE).h.m.b = h.m.b ∧
      (start h junk junkE).k = 1 := by
  obtain ⟨b0, k0, r0⟩ := refreshRBf_exact hb (i := 0) (m' := 1) (by omega) (.inr ⟨rfl, rfl⟩)
  have o0 := refreshRBf_only h.m 0
  set t := h.m.refreshRBf 0 with ht
  have htb : t.b = h.m.b := by rw [o0.eq]
  have htn : t.n = h.m.n := by rw [o0.eq]
  have htd : t.d = h.m.d := by rw [o0.eq]
  have htu : t.updatedR = false := by rw [o0.eq]; exact hu
  have hpos : 0 < normStar t.n (basisQ t.b) 0 := by rw [htn, htb]; exact hi.pos 0 (by omega)
  have hH0 : House 0 t :=
    ⟨fun j hj => absurd hj (by omega), fun j hj => absurd hj (by omega), fun j hj => absurd hj (by omega),
      fun j hj => absurd hj (by omega)⟩
  have hn0 : 0 < t.n := house_lt hH0 (Nat.zero_le _) hpos
  have hH1 := updateRLast_next hn0 hH0 r0 hpos
  have hL := updateRLast_only t 0
  have hint : (t.updateRLast 0).ints = t.ints := updateRLast_ints _ _
  set w := t.updateRLast 0 with hw
  have hwn : w.n = t.n := by rw [hL.eq]
  have hwd : w.d = t.d := by rw [hL.eq]
  have hwb : w.b = t.b := by rw [hL.eq]
  have hwe : w.rowExpo = t.rowExpo := by rw [hL.eq]
  have hwu : w.updatedR = false := by rw [hL.eq]; exact htu
  have hbw : Base 1 w := by
    refine ⟨by rw [hint]; exact b0.wf, ?_, ?_⟩
    · intro i; rw [hL.eq]; exact b0.init i
    · intro h i; rw [hL.eq] at h ⊢; exact b0.expo h i
  have hk0 : Known 0 w := by
    refine k0.frame hwn ?_ ?_ ?_ ?_
    · intro c _; rw [hwb]
    · rw [hL.eq]
    · rw [hwe]
    · rw [hL.eq]
  obtain ⟨b1, k1, r1⟩ := refreshRBf_exact hbw (i := 1) (m' := 2) (by omega) (.inr ⟨rfl, rfl⟩)
  have o1 := refreshRBf_only w 1
  have hst : (start h junk junkE).h.m = w.refreshRBf 1 := rfl
  set z := w.refreshRBf 1 with hz
  have hzb : z.b = w.b := by rw [o1.eq]
  have hzn : z.n = w.n := by rw [o1.eq]
  have hzd : z.d = w.d := by rw [o1.eq]
  have hR0 : z.R 0 = w.R 0 := o1.R 0 (by omega)
  refine ⟨⟨le_rfl, le_rfl, ?_, ?_, b1, ?_, ?_, .inl ⟨?_, r1⟩, ?_, ?_, ?_, ?_, ?_, ?_⟩, rfl, rfl,
    hzd.trans (hwd.trans htd), hzn.trans (hwn.trans htn), hzb.trans (hwb.trans htb), rfl⟩
  · change 1 < z.d; omega
  · change 1 ≤ z.n; omega
  · intro j hj
    change j < 2 at hj
    rw [hst]
    rcases Nat.lt_succ_iff_lt_or_eq.1 hj with h0 | h1
    · have : j = 0 := by omega
      subst this
      exact hk0.frame hzn (fun c _ => by rw [hzb]) (o1.bf 0 (by omega)) (o1.rowExpo 0 (by omega)) (o1.normSqB 0 (by omega))
    · subst h1; exact k1
  · rw [hst]
    exact hH1.frame (by omega) hzn (fun i _ => by rw [o1.eq]) (fun i _ => by rw [o1.eq]) (fun i _ c _ => by rw [hzb])
      (fun i hi c _ => by rw [o1.R i (by omega)]) (fun i hi => o1.rowExpo i (by omega))
  · rw [hst, o1.eq]; exact hwu
  · intro j hj
    have hj0 : j = 0 := by change j < 1 at hj; omega
    subst hj0
    change setAt h.dR 0 (h.delta * (w.R 0 0 * w.R 0 0)) 0 = h.delta * (z.R 0 0 * z.R 0 0)
    rw [setAt_self, hR0]
  · intro j hj
    have hj0 : j = 0 := by change j < 1 at hj; omega
    subst hj0
    change setAt h.eR 0 (h.delta * w.R 0 0) 0 = h.delta * z.R 0 0
    rw [setAt_self, hR0]
  · intro j hj1 hj
    change j < 1 at hj
    omega
  · intro _ hp
    change (-1 : ℤ) = ((1 : ℕ) : ℤ) + 1 at hp
    omega
  · refine ⟨fun i hi j hj => ?_, fun i hi => ?_⟩
    · change i < 1 at hi; omega
    · change i + 1 < 1 at hi; omega
  · rw [hst, hzd, hzn, hzb, hwd, hwn, hwb, htd, htn, htb]; exact hi

omit [ExactCfg] in
/-- the stored factor is the R-factor of the basis -/
theorem house_rfactor {k : ℕ} {s : HH ℝ} (h : House k s) (hk : k ≤ s.n) :
    (∀ i < k, s.R i i * (2 : ℝ) ^ s.rowExpo i = rDiag s.n (basisQ s.b) i) ∧
    ∀ i < k, ∀ j < i, s.R i j * (2 : ℝ) ^ s.rowExpo i = rEntry s.n (basisQ s.b) i j := by
  have hd : ∀ i < k, s.R i i * (2 : ℝ) ^ s.rowExpo i = rDiag s.n (basisQ s.b) i := by
    intro i hi
    have h1 := diag_sq h hk hi
    have h2 := diag_pos h hi
    unfold rDiag
    rw [← h1, Real.sqrt_sq (by positivity)]
  refine ⟨hd, fun i hi j hj => ?_⟩
  have ht := h.toTri hk
  have hjk : j < k := by omega
  have e1 := ht.muS_cast hjk i
  have hw : rDiag s.n (basisQ s.b) j = s.im k j j := by
    rw [← hd j hjk, h.row j hjk j le_rfl, h.im_row (m := k) hjk (by omega)]
  unfold rEntry
  rw [h.row i hi j hj.le, ← h.im_row (m := k) hi (by omega), hw, e1]

end HL
end Fplll

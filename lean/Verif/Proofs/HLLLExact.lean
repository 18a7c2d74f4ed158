import Verif.Model.HExact
import Verif.Proofs.HLLL
import Verif.Proofs.Householder
import Verif.Spec.GramDet
import Verif.Props.Fresh

/-!
# HLLL in exact arithmetic
-/

open Finset

namespace Fplll

open Spec GSO HInt

/-- the rows as real vectors -/
def realRows (b : Mat ℤ) : Mat ℝ := fun i c => (b i c : ℝ)

theorem two_ne : (2 : ℝ) ≠ 0 := by norm_num

theorem two_pos' (e : ℤ) : 0 < (2 : ℝ) ^ e := zpow_pos (by norm_num) e

theorem two_mul_neg (e : ℤ) : (2 : ℝ) ^ e * (2 : ℝ) ^ (-e) = 1 := by
  rw [← zpow_add₀ two_ne]; simp

namespace HH

variable [ExactCfg]

theorem dotF_real (v w : ℕ → ℝ) {a n : ℕ} (h : a < n) : dotF v w a n = ∑ x ∈ Ico a n, v x * w x := by
  unfold dotF
  refine forUp_inv (fun m acc => acc = ∑ x ∈ Ico a m, v x * w x) _ (by omega : a + 1 ≤ n) _ ?_ ?_
  · rw [Finset.sum_Ico_succ_top le_rfl]; simp; rfl
  · rintro m acc h1 - rfl
    rw [Finset.sum_Ico_succ_top (by omega)]; rfl

theorem addmulF_real (r v : ℕ → ℝ) (x : ℝ) (a n c : ℕ) :
    addmulF r v x a n c = if a ≤ c ∧ c < n then r c + v c * x else r c := rfl

theorem fcmp_ne {a b : ℝ} : HFloat.fcmp a b ≠ 0 ↔ a ≠ b := by
  change (if a < b then (-1 : ℤ) else if a = b then 0 else 1) ≠ 0 ↔ _
  split_ifs with h1 h2
  · simp [h1.ne]
  · simp [h2]
  · simp [h2]

theorem fcmp_eq {a b : ℝ} : HFloat.fcmp a b = 0 ↔ a = b := by
  rw [← not_iff_not]; exact fcmp_ne

theorem fcmp_neg {a b : ℝ} : HFloat.fcmp a b < 0 ↔ a < b := by
  change (if a < b then (-1 : ℤ) else if a = b then 0 else 1) < 0 ↔ _
  split_ifs with h1 h2
  · simp [h1]
  · simp [h1]
  · simp [h1]

theorem fcmp_le {a b : ℝ} : HFloat.fcmp a b ≤ 0 ↔ a ≤ b := by
  change (if a < b then (-1 : ℤ) else if a = b then 0 else 1) ≤ 0 ↔ _
  split_ifs with h1 h2
  · simp [h1.le]
  · simp [h2]
  · have : b < a := lt_of_le_of_ne (not_lt.1 h1) (Ne.symm h2)
    simp [this]

theorem fcmp_pos {a b : ℝ} : 0 < HFloat.fcmp a b ↔ b < a := by
  rw [← not_iff_not, not_lt, not_lt]; exact fcmp_le

theorem sgn_ne {a : ℝ} : HFloat.sgn a ≠ 0 ↔ a ≠ 0 := by
  change (if a < 0 then (-1 : ℤ) else if a = 0 then 0 else 1) ≠ 0 ↔ _
  split_ifs with h1 h2
  · simp [h1.ne]
  · simp [h2]
  · simp [h2]

/-! ## What the float part represents -/

/-- the integer part and the exponents; the first `m` rows are known -/
structure Base (m : ℕ) (s : HH ℝ) : Prop where
  wf : WF m s.ints
  init : ∀ i, 1 ≤ s.initRowSize i
  expo : s.expoOn = false → ∀ i, s.rowExpo i = 0

/-- the copy of row `i` and its squared norm are up to date -/
structure Known (i : ℕ) (s : HH ℝ) : Prop where
  bf : ∀ c < s.n, s.bf i c * (2 : ℝ) ^ s.rowExpo i = s.b i c
  nsq : s.normSqB i * (2 : ℝ) ^ (2 * s.rowExpo i) = ∑ c ∈ range s.n, realRows s.b i c * realRows s.b i c

/-- row `j` of the lattice basis after the first `k` reflections -/
noncomputable abbrev im (s : HH ℝ) (k j : ℕ) : ℕ → ℝ := hmaps s.n s.V s.sigma k (realRows s.b j)

/-- the first `k` rows are orthogonalised -/
structure House (k : ℕ) (s : HH ℝ) : Prop where
  orth : ∀ j < k, IsRefl s.n j (s.V j) (s.sigma j)
  tri : ∀ j < k, ∀ c, j < c → c < s.n → s.im (j + 1) j c = 0
  pos : ∀ j < k, 0 < s.im (j + 1) j j
  row : ∀ j < k, ∀ c ≤ j, s.R j c * (2 : ℝ) ^ s.rowExpo j = s.im (j + 1) j c

/-- row `i` of `R` is row `i` of the basis after `k` reflections -/
def RowAt (i k : ℕ) (s : HH ℝ) : Prop := ∀ c < s.n, s.R i c * (2 : ℝ) ^ s.rowExpo i = s.im k i c

/-- the history of row `i` up to reflection `k - 1` -/
def HistOk (i k : ℕ) (s : HH ℝ) : Prop :=
  ∀ l < k, ∀ c, l ≤ c → c < s.n → s.hist i l c * (2 : ℝ) ^ s.rowExpo i = s.im (l + 1) i c

omit [ExactCfg] in
theorem im_congr {s s' : HH ℝ} (hn : s'.n = s.n) {k j : ℕ} (hV : ∀ i < k, s'.V i = s.V i)
    (hs : ∀ i < k, s'.sigma i = s.sigma i) (hb : ∀ c < s.n, s'.b j c = s.b j c) :
    ∀ c < s.n, s'.im k j c = s.im k j c := by
  unfold im
  rw [hn]
  exact hmaps_congr hV hs fun c hc => by unfold realRows; rw [hb c hc]

omit [ExactCfg] in
theorem House.frame {k : ℕ} {s s' : HH ℝ} (h : House k s) (hkn : k ≤ s.n) (hn : s'.n = s.n)
    (hV : ∀ i < k, s'.V i = s.V i) (hs : ∀ i < k, s'.sigma i = s.sigma i)
    (hb : ∀ i < k, ∀ c < s.n, s'.b i c = s.b i c) (hR : ∀ i < k, ∀ c ≤ i, s'.R i c = s.R i c)
    (he : ∀ i < k, s'.rowExpo i = s.rowExpo i) : House k s' := by
  have e : ∀ j < k, ∀ c < s.n, s'.im (j + 1) j c = s.im (j + 1) j c := fun j hj =>
    im_congr hn (fun i hi => hV i (by omega)) (fun i hi => hs i (by omega)) (hb j hj)
  refine ⟨?_, ?_, ?_, ?_⟩
  · intro j hj; rw [hn, hV j hj, hs j hj]; exact h.orth j hj
  · intro j hj c h1 h2; rw [hn] at h2; rw [e j hj c h2]; exact h.tri j hj c h1 h2
  · intro j hj; rw [e j hj j (by omega)]; exact h.pos j hj
  · intro j hj c hc; rw [hR j hj c hc, he j hj, e j hj c (by omega)]; exact h.row j hj c hc

omit [ExactCfg] in
theorem House.mono {k k' : ℕ} {s : HH ℝ} (h : House k s) (hk : k' ≤ k) : House k' s :=
  ⟨fun j hj => h.orth j (by omega), fun j hj => h.tri j (by omega), fun j hj => h.pos j (by omega),
    fun j hj => h.row j (by omega)⟩

omit [ExactCfg] in
/-- an orthogonalised row does not change under the later reflections -/
theorem House.im_row {k : ℕ} {s : HH ℝ} (h : House k s) {j m : ℕ} (hj : j < k) (hm : j + 1 ≤ m) :
    s.im m j = s.im (j + 1) j :=
  hmaps_fix hm fun c h1 h2 => h.tri j hj c (by omega) h2

omit [ExactCfg] in
theorem House.toTri {k : ℕ} {s : HH ℝ} (h : House k s) (hk : k ≤ s.n) : Tri s.n k (basisQ s.b) (s.im k) := by
  refine ⟨hk, ?_, ?_, ?_⟩
  · intro i j
    rw [hmaps_dot hk h.orth]
    unfold dotQ basisQ realRows
    push_cast
    rfl
  · intro j hj c h1 h2; rw [h.im_row hj (by omega)]; exact h.tri j hj c h1 h2
  · intro j hj; rw [h.im_row hj (by omega)]; exact h.pos j hj

/-! ## `update_R` -/

theorem step_row {s : HH ℝ} {i j : ℕ} (hj : j < s.n) (hr : RowAt i j s) :
    RowAt i (j + 1) (updateRStep i j s) ∧
      ∀ c, j ≤ c → c < s.n → (updateRStep i j s).hist i j c = (updateRStep i j s).R i c := by
  have key : ∀ c, (updateRStep i j s).R i c = hmap s.n j (s.V j) (s.sigma j) (s.R i) c := by
    intro c
    unfold updateRStep
    dsimp only
    rw [setAt_self, dotF_real _ _ hj]
    unfold hmap setAt
    rw [addmulF_real, addmulF_real]
    by_cases hc : c = j
    · subst hc
      rw [if_pos rfl, if_pos ⟨le_rfl, hj⟩, if_pos rfl, if_pos ⟨le_rfl, hj⟩]
      rfl
    · rw [if_neg hc]
      by_cases h2 : j ≤ c ∧ c < s.n
      · rw [if_pos h2, if_pos h2, if_neg hc, one_mul]; rfl
      · rw [if_neg h2, if_neg h2]
  constructor
  · intro c hc
    have hc' : c < s.n := hc
    rw [key]
    change _ = hmap s.n j (s.V j) (s.sigma j) (s.im j i) c
    rw [← hmap_congr (n := s.n) (v := s.V j) (fun _ _ _ => rfl) hr c hc']
    have := hmap_lin s.n j (s.V j) (s.sigma j) ((2 : ℝ) ^ s.rowExpo i) 0 (s.R i) (s.R i)
    have e : (fun c => s.R i c * (2 : ℝ) ^ s.rowExpo i)
        = fun c => (2 : ℝ) ^ s.rowExpo i * s.R i c + 0 * s.R i c := by funext c; ring
    rw [e, this]
    change _ * (2 : ℝ) ^ s.rowExpo i = _
    ring
  · intro c h1 h2
    unfold updateRStep
    dsimp only
    rw [setAt_self, setAt_self, setAt_self, if_pos ⟨h1, h2⟩]

/-- only row `i` of `R` and of the history differ -/
structure OnlyR (i : ℕ) (s s' : HH ℝ) : Prop where
  eq : s' = { s with R := s'.R, hist := s'.hist }
  R : ∀ j, j ≠ i → s'.R j = s.R j
  hist : ∀ j, j ≠ i → s'.hist j = s.hist j

theorem updateLoop {s : HH ℝ} {i k : ℕ} (hk : k ≤ s.n) (hr : RowAt i 0 s) :
    OnlyR i s (forUp 0 k (updateRStep i) s) ∧ RowAt i k (forUp 0 k (updateRStep i) s) ∧
      HistOk i k (forUp 0 k (updateRStep i) s) := by
  refine forUp_inv (fun j t => OnlyR i s t ∧ RowAt i j t ∧ HistOk i j t) _ (Nat.zero_le k) s
    ⟨⟨rfl, fun _ _ => rfl, fun _ _ => rfl⟩, hr, fun l hl => by omega⟩ ?_
  rintro j t - hj ⟨ho, hrow, hh⟩
  have hn : t.n = s.n := by rw [ho.eq]
  obtain ⟨h1, h2⟩ := step_row (by omega) hrow
  refine ⟨⟨?_, ?_, ?_⟩, h1, ?_⟩
  · conv_lhs => unfold updateRStep
    dsimp only
    rw [ho.eq]
    rfl
  · intro l hl
    exact (setAt_ne _ _ hl).trans (ho.R l hl)
  · intro l hl
    exact (setAt_ne _ _ hl).trans (ho.hist l hl)
  · intro l hl c hc1 hc2
    have hc2' : c < t.n := hc2
    by_cases hlj : l = j
    · subst hlj
      rw [h2 c hc1 hc2']
      exact h1 c hc2
    · have e : (updateRStep i j t).hist i l = t.hist i l := by
        change setAt t.hist i _ i l = _
        rw [setAt_self, setAt_ne _ _ hlj]
      rw [e]
      exact hh l (by omega) c hc1 hc2'

/-- only row `i` of `R`, `V` and `sigma` differ -/
structure OnlyLast (i : ℕ) (s s' : HH ℝ) : Prop where
  eq : s' = { s with R := s'.R, V := s'.V, sigma := s'.sigma }
  R : ∀ j, j ≠ i → s'.R j = s.R j
  V : ∀ j, j ≠ i → s'.V j = s.V j
  sigma : ∀ j, j ≠ i → s'.sigma j = s.sigma j

theorem updateRLast_only (s : HH ℝ) (i : ℕ) : OnlyLast i s (s.updateRLast i) := by
  unfold updateRLast
  dsimp only
  split_ifs <;> exact ⟨rfl, fun j hj => setAt_ne _ _ hj, fun j hj => setAt_ne _ _ hj, fun j hj => setAt_ne _ _ hj⟩

theorem updateRLast_house {s : HH ℝ} {i : ℕ} (hi : i < s.n) (hpos : 0 < ∑ x ∈ Ico i s.n, s.R i x * s.R i x) :
    let s' := s.updateRLast i
    IsRefl s.n i (s'.V i) (s'.sigma i) ∧
      (∀ c, i < c → c < s.n → hmap s.n i (s'.V i) (s'.sigma i) (s.R i) c = 0) ∧
      hmap s.n i (s'.V i) (s'.sigma i) (s.R i) i = s'.R i i ∧ 0 < s'.R i i ∧ ∀ c < i, s'.R i c = s.R i c := by
  intro s'
  set rest : ℝ := if i + 1 = s.n then HFloat.zero else dotF (s.R i) (s.R i) (i + 1) s.n with hrest
  have hrest' : rest = ∑ x ∈ Ico (i + 1) s.n, s.R i x * s.R i x := by
    rw [hrest]
    split_ifs with h
    · rw [h, Ico_self, sum_empty]; rfl
    · exact dotF_real _ _ (by omega)
  have hall : ∑ x ∈ Ico i s.n, s.R i x * s.R i x = s.R i i * s.R i i + rest := by
    rw [hrest', Finset.sum_eq_sum_Ico_succ_bot hi]
  rw [hall] at hpos
  set sg : ℝ := if HFloat.fcmp (s.R i i) HFloat.zero < 0 then (HFloat.negOne : ℝ) else HFloat.one with hsg
  have hsg' : sg = if s.R i i < 0 then -1 else 1 := by
    rw [hsg]
    by_cases h : s.R i i < 0
    · rw [if_pos (show HFloat.fcmp (s.R i i) HFloat.zero < 0 from fcmp_neg.2 h), if_pos h]; rfl
    · rw [if_neg (show ¬ HFloat.fcmp (s.R i i) HFloat.zero < 0 from fun h' => h (fcmp_neg.1 h')), if_neg h]; rfl
  set nrm : ℝ := Real.sqrt (s.R i i * s.R i i + rest) with hnrm
  have hnrm0 : 0 < nrm := Real.sqrt_pos.2 hpos
  set f3 : ℝ := -rest / (s.R i i + sg * nrm) with hf3
  have c1 : HFloat.fcmp (HFloat.add (HFloat.mul (s.R i i) (s.R i i)) rest) (HFloat.zero : ℝ) ≠ 0 :=
    fcmp_ne.2 hpos.ne'
  by_cases h3 : f3 = 0
  · have c2 : ¬ HFloat.fcmp f3 (HFloat.zero : ℝ) ≠ 0 := fun h => fcmp_ne.1 h h3
    have hs' : s' = { s with
        sigma := setAt s.sigma i sg
        V := setAt s.V i fun c => if i ≤ c ∧ c < s.n then HFloat.zero else s.V i c
        R := setAt s.R i (setAt (s.R i) i
          (if HFloat.fcmp (s.R i i) HFloat.zero < 0 then HFloat.neg (s.R i i) else s.R i i)) } :=
      (if_pos c1).trans (if_neg c2)
    have hrest0 : 0 ≤ rest := by rw [hrest']; exact sum_nonneg fun x _ => mul_self_nonneg _
    have hden : s.R i i + sg * nrm ≠ 0 := by
      rw [hsg']
      split_ifs with h
      · have : s.R i i + -1 * nrm < 0 := by linarith
        exact this.ne
      · have : 0 < s.R i i + 1 * nrm := by linarith [not_lt.1 h]
        exact this.ne'
    have hr0 : rest = 0 := by
      have := (div_eq_zero_iff.1 h3).resolve_right hden
      linarith
    have hz : ∀ c, i < c → c < s.n → s.R i c = 0 := by
      intro c h1 h2
      rw [hrest'] at hr0
      have := (sum_eq_zero_iff_of_nonneg fun x _ => mul_self_nonneg _).1 hr0 c (mem_Ico.2 ⟨h1, h2⟩)
      exact mul_self_eq_zero.1 this
    obtain ⟨g1, g2, g3⟩ := house_spec_zero hi (r := s.R i) (v := s'.V i) (σ := sg) hsg' hz (fun c h1 h2 => by
      rw [hs']; dsimp only; rw [setAt_self, if_pos ⟨h1, h2⟩]; rfl)
    have esg : s'.sigma i = sg := by rw [hs']; exact setAt_self _ _ _
    have eR : s'.R i i = |s.R i i| := by
      rw [hs']; dsimp only; rw [setAt_self, setAt_self]
      by_cases h : s.R i i < 0
      · rw [if_pos (show HFloat.fcmp (s.R i i) HFloat.zero < 0 from fcmp_neg.2 h), abs_of_neg h]; rfl
      · rw [if_neg (show ¬ HFloat.fcmp (s.R i i) HFloat.zero < 0 from fun h' => h (fcmp_neg.1 h')), abs_of_nonneg (not_lt.1 h)]
    rw [esg, eR]
    refine ⟨g1, g3, g2, ?_, ?_⟩
    · rw [hr0, add_zero] at hpos
      exact abs_pos.2 fun h => by rw [h] at hpos; simp at hpos
    · intro c hc; rw [hs']; dsimp only; rw [setAt_self, setAt_ne _ _ (by omega)]
  · have c2 : HFloat.fcmp f3 (HFloat.zero : ℝ) ≠ 0 := fcmp_ne.2 h3
    have hs' : s' = { s with
        sigma := setAt s.sigma i sg
        V := setAt s.V i fun c => if c = i then f3 / Real.sqrt (-(sg * nrm) * f3) else if i < c ∧ c < s.n then
          s.R i c / Real.sqrt (-(sg * nrm) * f3) else s.V i c
        R := setAt s.R i (setAt (s.R i) i nrm) } :=
      (if_pos c1).trans (if_pos c2)
    obtain ⟨g1, g2, g3⟩ := house_spec hi (r := s.R i) (v := s'.V i) hsg' hrest' hnrm hpos hf3 h3 rfl
      (by rw [hs']; dsimp only; rw [setAt_self, if_pos rfl])
      (fun c h1 h2 => by rw [hs']; dsimp only; rw [setAt_self, if_neg (by omega), if_pos ⟨h1, h2⟩])
    have esg : s'.sigma i = sg := by rw [hs']; exact setAt_self _ _ _
    have eR : s'.R i i = nrm := by rw [hs']; dsimp only; rw [setAt_self, setAt_self]
    rw [esg, eR]
    refine ⟨g1, g3, g2, hnrm0, ?_⟩
    intro c hc; rw [hs']; dsimp only; rw [setAt_self, setAt_ne _ _ (by omega)]

theorem updateRLast_next {s : HH ℝ} {k : ℕ} (hk : k < s.n) (hh : House k s) (hr : RowAt k k s)
    (hpos : 0 < normStar s.n (basisQ s.b) k) : House (k + 1) (s.updateRLast k) := by
  have ho := updateRLast_only s k
  have hp := two_pos' (s.rowExpo k)
  have hsum : 0 < ∑ x ∈ Ico k s.n, s.R k x * s.R k x := by
    have h1 := (hh.toTri hk.le).projSq_cast le_rfl k
    rw [projSq_self] at h1
    have h2 : ∑ c ∈ Ico k s.n, s.im k k c * s.im k k c
        = ((2 : ℝ) ^ s.rowExpo k) ^ 2 * ∑ x ∈ Ico k s.n, s.R k x * s.R k x := by
      rw [mul_sum]
      refine sum_congr rfl fun c hc => ?_
      rw [mem_Ico] at hc
      rw [← hr c hc.2]; ring
    have h3 : (0 : ℝ) < ((normStar s.n (basisQ s.b) k : ℚ) : ℝ) := by exact_mod_cast hpos
    rw [h1, h2] at h3
    exact (pos_iff_pos_of_mul_pos h3).1 (by positivity)
  obtain ⟨g1, g2, g3, g4, g5⟩ := updateRLast_house hk hsum
  set s' := s.updateRLast k with hs'
  have hn : s'.n = s.n := by rw [ho.eq]
  have hb : s'.b = s.b := by rw [ho.eq]
  have he : s'.rowExpo = s.rowExpo := by rw [ho.eq]
  have hold : House k s' := hh.frame hk.le hn (fun i hi => ho.V i (by omega)) (fun i hi => ho.sigma i (by omega))
    (fun i _ c _ => by rw [hb]) (fun i hi c _ => by rw [ho.R i (by omega)]) (fun i _ => by rw [he])
  have him : ∀ c < s.n, s'.im (k + 1) k c
      = hmap s.n k (s'.V k) (s'.sigma k) (s.R k) c * (2 : ℝ) ^ s.rowExpo k := by
    intro c hc
    have e1 : s'.im (k + 1) k c = hmap s.n k (s'.V k) (s'.sigma k) (s'.im k k) c := by
      unfold im
      rw [hn]
      rfl
    have e2 : ∀ c < s.n, s'.im k k c = (2 : ℝ) ^ s.rowExpo k * s.R k c + 0 * s.R k c := by
      intro c hc
      rw [im_congr hn (fun i hi => ho.V i (by omega)) (fun i hi => ho.sigma i (by omega)) (fun c _ => by rw [hb]) c hc,
        ← hr c hc]
      ring
    rw [e1, hmap_congr (fun _ _ _ => rfl) e2 c hc, hmap_lin]
    ring
  refine ⟨?_, ?_, ?_, ?_⟩
  · intro j hj
    rcases Nat.lt_succ_iff_lt_or_eq.1 hj with h | h
    · exact hold.orth j h
    · subst h; rw [hn]; exact g1
  · intro j hj c h1 h2
    rcases Nat.lt_succ_iff_lt_or_eq.1 hj with h | h
    · exact hold.tri j h c h1 h2
    · subst h; rw [hn] at h2; rw [him c h2, g2 c h1 h2, zero_mul]
  · intro j hj
    rcases Nat.lt_succ_iff_lt_or_eq.1 hj with h | h
    · exact hold.pos j h
    · subst h; rw [him j hk, g3]; positivity
  · intro j hj c hc
    rcases Nat.lt_succ_iff_lt_or_eq.1 hj with h | h
    · exact hold.row j h c hc
    · subst h
      rw [him c (by omega), he]
      rcases hc.lt_or_eq with h | h
      · rw [hmap_low h, g5 c h]
      · rw [h, g3]

/-! ## Refreshing a row -/

/-- only row `i` differs, and the integer matrices do not -/
structure OnlyRow (i : ℕ) (s s' : HH ℝ) : Prop where
  eq : s' = { s with bf := s'.bf, R := s'.R, rowExpo := s'.rowExpo, nKnownCols := s'.nKnownCols,
                     normSqB := s'.normSqB, expoNormSqB := s'.expoNormSqB }
  bf : ∀ j, j ≠ i → s'.bf j = s.bf j
  R : ∀ j, j ≠ i → s'.R j = s.R j
  rowExpo : ∀ j, j ≠ i → s'.rowExpo j = s.rowExpo j
  normSqB : ∀ j, j ≠ i → s'.normSqB j = s.normSqB j

theorem refreshRBf_only (s : HH ℝ) (i : ℕ) : OnlyRow i s (s.refreshRBf i) := by
  refine ⟨rfl, fun j hj => setAt_ne _ _ hj, fun j hj => setAt_ne _ _ hj, fun j hj => ?_, fun j hj => setAt_ne _ _ hj⟩
  change (if s.expoOn = true then setAt s.rowExpo i _ else s.rowExpo) j = _
  split_ifs
  · exact setAt_ne _ _ hj
  · rfl

omit [ExactCfg] in
theorem Known.frame {j : ℕ} {s s' : HH ℝ} (h : Known j s) (hn : s'.n = s.n) (hb : ∀ c < s.n, s'.b j c = s.b j c)
    (hbf : s'.bf j = s.bf j) (he : s'.rowExpo j = s.rowExpo j) (hq : s'.normSqB j = s.normSqB j) : Known j s' := by
  constructor
  · intro c hc
    rw [hn] at hc
    rw [hbf, he, hb c hc]; exact h.bf c hc
  · rw [hq, he, h.nsq, hn]
    refine sum_congr rfl fun c hc => ?_
    rw [mem_range] at hc
    unfold realRows; rw [hb c hc]

theorem refreshRBf_exact {m m' : ℕ} {s : HH ℝ} (hs : Base m s) {i : ℕ} (hi : i < s.d)
    (hm : i < m ∧ m' = m ∨ i = m ∧ m' = m + 1) :
    Base m' (s.refreshRBf i) ∧ Known i (s.refreshRBf i) ∧ RowAt i 0 (s.refreshRBf i) := by
  have hg := refreshRBf_good s hs.wf hi hm
  set s' := s.refreshRBf i with hs'
  have hn : s'.n = s.n := rfl
  have hb : s'.b = s.b := rfl
  have hnk : s'.nKnownCols = max s.nKnownCols (s.initRowSize i) := rfl
  have hnk1 : 1 ≤ s'.nKnownCols := by rw [hnk]; exact (hs.init i).trans (le_max_right _ _)
  have hnkn : s'.nKnownCols ≤ s.n := hg.wf.cols_le
  have hz : ∀ c, s'.nKnownCols ≤ c → c < s.n → s.b i c = 0 :=
    fun c h1 h2 => hg.wf.known i (by omega) (by exact hi) c h1 h2
  set e := maxExpo ℝ (s.b i) s'.nKnownCols with he
  have hexp : s'.rowExpo i = if s.expoOn = true then e else s.rowExpo i := by
    change (if s.expoOn = true then setAt s.rowExpo i _ else s.rowExpo) i = _
    split_ifs
    · rw [setAt_self, he, hnk]
    · rfl
  have hbf : ∀ c < s.n, s'.bf i c = if c < s'.nKnownCols then (if s.expoOn = true then
      (s.b i c * (2 : ℝ) ^ (-ExactCfg.fexp (s.b i c))) * (2 : ℝ) ^ (ExactCfg.fexp (s.b i c) - e) else s.b i c)
      else 0 := by
    intro c hc
    change setAt s.bf i _ i c = _
    rw [setAt_self]
    by_cases h : c < s'.nKnownCols
    · rw [if_pos h]
      exact if_pos h
    · rw [if_neg h]
      exact (if_neg h).trans (if_pos hc)
  have hval : ∀ c < s.n, s'.bf i c * (2 : ℝ) ^ s'.rowExpo i = s.b i c := by
    intro c hc
    rw [hbf c hc, hexp]
    split_ifs with h1 h2
    · rw [mul_assoc, mul_assoc, ← zpow_add₀ two_ne, ← zpow_add₀ two_ne]
      have : -ExactCfg.fexp (s.b i c) + (ExactCfg.fexp (s.b i c) - e + e) = 0 := by ring
      rw [this]; simp
    · rw [hs.expo (by simpa using h2)]; simp
    · rw [hz c (by omega) hc]; simp
    · rw [hz c (by omega) hc]; simp
  have hR : ∀ c < s.n, s'.R i c = s'.bf i c := by
    intro c hc
    have h1 : s'.R i c = if c < s'.nKnownCols then s'.bf i c else if c < s.n then 0 else s.R i c := by
      change setAt s.R i _ i c = if c < s'.nKnownCols then setAt s.bf i _ i c else _
      rw [setAt_self, setAt_self]
      rfl
    rw [h1]
    by_cases h : c < s'.nKnownCols
    · rw [if_pos h]
    · rw [if_neg h, if_pos hc, hbf c hc, if_neg h]
  refine ⟨⟨hg.wf, hs.init, ?_⟩, ⟨hval, ?_⟩, ?_⟩
  · intro h j
    have h' : s.expoOn = false := h
    change (if s.expoOn = true then setAt s.rowExpo i _ else s.rowExpo) j = _
    rw [h']
    exact hs.expo h' j
  · have h1 : s'.normSqB i = dotF (s'.bf i) (s'.bf i) 0 s'.nKnownCols := by
      change setAt s.normSqB i _ i = _
      rw [setAt_self]
      rfl
    rw [h1, dotF_real _ _ hnk1, ← Finset.range_eq_Ico, sum_mul, hn]
    have h2 : ∑ c ∈ range s'.nKnownCols, s'.bf i c * s'.bf i c * (2 : ℝ) ^ (2 * s'.rowExpo i)
        = ∑ c ∈ range s'.nKnownCols, realRows s'.b i c * realRows s'.b i c := by
      refine sum_congr rfl fun c hc => ?_
      rw [mem_range] at hc
      unfold realRows
      rw [hb, ← hval c (by omega), two_mul, zpow_add₀ two_ne]; ring
    rw [h2]
    refine sum_subset (fun x hx => ?_) (fun x h1 h2 => ?_)
    · rw [mem_range] at *; omega
    · rw [mem_range] at *
      unfold realRows
      rw [hb, hz x (by omega) h1]; simp
  · intro c hc
    have hc' : c < s.n := hc
    rw [hR c hc', hval c hc']; rfl

theorem refreshR_exact {m : ℕ} {s : HH ℝ} (hs : Base m s) {i : ℕ} (him : i < m) (hi : i < s.d) (hk : Known i s) :
    RowAt i 0 (s.refreshR i) := by
  intro c hc
  have hc' : c < s.n := hc
  change setAt s.R i _ i c * _ = _
  rw [setAt_self]
  by_cases h : c < s.nKnownCols
  · rw [if_pos h]; exact hk.bf c hc'
  · rw [if_neg h, if_pos hc']
    have : s.b i c = 0 := hs.wf.known i him hi c (not_lt.1 h) hc'
    change (0 : ℝ) * _ = realRows s.b i c
    unfold realRows
    rw [this]; simp

/-! ## Row operations and size reduction -/

/-- only row `k` of `b` and `R` and the transforms differ -/
structure OnlyB (k : ℕ) (s s' : HH ℝ) : Prop where
  eq : s' = { s with b := s'.b, u := s'.u, uInvT := s'.uInvT, R := s'.R }
  b : ∀ j, j ≠ k → s'.b j = s.b j
  R : ∀ j, j ≠ k → s'.R j = s.R j

omit [ExactCfg] in
theorem OnlyB.refl (k : ℕ) (s : HH ℝ) : OnlyB k s s := ⟨rfl, fun _ _ => rfl, fun _ _ => rfl⟩

omit [ExactCfg] in
theorem OnlyB.trans {k : ℕ} {s t v : HH ℝ} (h1 : OnlyB k s t) (h2 : OnlyB k t v) : OnlyB k s v := by
  refine ⟨?_, fun j hj => (h2.b j hj).trans (h1.b j hj), fun j hj => (h2.R j hj).trans (h1.R j hj)⟩
  rw [h2.eq, h1.eq]

omit [ExactCfg] in
theorem track_eq (s : HH ℝ) (i j : ℕ) (up dn : (ℕ → ℤ) → (ℕ → ℤ) → ℕ → ℤ) :
    s.track i j up dn = { s with u := (s.track i j up dn).u, uInvT := (s.track i j up dn).uInvT } := by
  unfold track; split_ifs <;> rfl

theorem rowAddmulWeZ_exact {s : HH ℝ} {k i : ℕ} {x : ℝ} {e X : ℤ} (hx : x * (2 : ℝ) ^ e = X)
    (hz : ∀ c, s.nKnownCols ≤ c → c < s.n → s.b i c = 0) :
    OnlyB k s (s.rowAddmulWeZ k i x e) ∧ (s.rowAddmulWeZ k i x e).R = s.R ∧
      ∀ c < s.n, (s.rowAddmulWeZ k i x e).b k c = s.b k c + X * s.b i c := by
  have hfl : ⌊x * (2 : ℝ) ^ e⌋ = X := by rw [hx, Int.floor_intCast]
  have hsi : (HFloat.siExpWe x e : ℤ × ℕ) = ExactCfg.si X := by
    change ExactCfg.si ⌊x * (2 : ℝ) ^ e⌋ = _; rw [hfl]
  have hzi : (HFloat.zExpWe x e : ℤ × ℕ) = ExactCfg.zi X := by
    change ExactCfg.zi ⌊x * (2 : ℝ) ^ e⌋ = _; rw [hfl]
  have key : ∀ (vb : (ℕ → ℤ) → (ℕ → ℤ) → ℕ → ℤ) (up dn : (ℕ → ℤ) → (ℕ → ℤ) → ℕ → ℤ),
      (∀ v w c, vb v w c = if c < s.nKnownCols then v c + X * w c else v c) →
      OnlyB k s (({ s with b := setAt s.b k (vb (s.b k) (s.b i)) } : HH ℝ).track k i up dn) ∧
      (({ s with b := setAt s.b k (vb (s.b k) (s.b i)) } : HH ℝ).track k i up dn).R = s.R ∧
      ∀ c < s.n, (({ s with b := setAt s.b k (vb (s.b k) (s.b i)) } : HH ℝ).track k i up dn).b k c
        = s.b k c + X * s.b i c := by
    intro vb up dn hvb
    have ht := track_eq ({ s with b := setAt s.b k (vb (s.b k) (s.b i)) } : HH ℝ) k i up dn
    refine ⟨⟨?_, ?_, ?_⟩, ?_, ?_⟩
    · rw [ht]
    · intro j hj; rw [ht]; exact setAt_ne _ _ hj
    · intro j _; rw [ht]
    · rw [ht]
    · intro c hc
      rw [ht]
      dsimp only
      rw [setAt_self, hvb]
      by_cases h : c < s.nKnownCols
      · rw [if_pos h]
      · rw [if_neg h, hz c (by omega) hc]; ring
  have h2e : ∀ (y : ℤ) (p : ℕ), y * 2 ^ p = X → OnlyB k s (s.rowAddmul2exp k i y p) ∧
      (s.rowAddmul2exp k i y p).R = s.R ∧ ∀ c < s.n, (s.rowAddmul2exp k i y p).b k c = s.b k c + X * s.b i c := by
    intro y p hy
    refine key (fun v w => vecAddmul2exp s.nKnownCols v w y p) (fun v w => vecAddmul2exp s.d v w y p)
      (fun v w => vecAddmul2exp s.d v w (-y) p) fun v w c => ?_
    rw [vecAddmul2exp_apply, ← hy]; split_ifs <;> ring
  have hsie := ExactCfg.si_eq X
  unfold rowAddmulWeZ
  rw [hsi, hzi]
  dsimp only
  split_ifs with h1 h2 h3 h4 h5
  · rw [h1, pow_zero, mul_one, h2] at hsie
    refine key (vecAdd s.nKnownCols) _ _ fun v w c => ?_
    rw [vecAdd_apply, ← hsie]; split_ifs <;> ring
  · rw [h1, pow_zero, mul_one, h3] at hsie
    refine key (vecSub s.nKnownCols) _ _ fun v w c => ?_
    rw [vecSub_apply, ← hsie]; split_ifs <;> ring
  · rw [h1, pow_zero, mul_one] at hsie
    refine key (fun v w => vecAddmulSi s.nKnownCols v w (ExactCfg.si X).1)
      (fun v w => vecAddmulSi s.d v w (ExactCfg.si X).1) (fun v w => vecAddmulSi s.d v w (-(ExactCfg.si X).1))
      fun v w c => ?_
    rw [vecAddmulSi_apply, hsie]; split_ifs <;> ring
  · rw [h1, pow_zero, mul_one] at hsie
    refine ⟨.refl k s, rfl, fun c _ => ?_⟩
    rw [← hsie, not_not.1 h4]; ring
  · exact h2e _ _ hsie
  · exact h2e _ _ (ExactCfg.zi_eq X)

theorem rowAddmulWe_exact {s : HH ℝ} {k i : ℕ} {x : ℝ} {e X : ℤ} (hx : x * (2 : ℝ) ^ e = X)
    (hz : ∀ c, s.nKnownCols ≤ c → c < s.n → s.b i c = 0) :
    OnlyB k s (s.rowAddmulWe k i x e) ∧ (∀ c < k, (s.rowAddmulWe k i x e).R k c = s.R k c + x * s.R i c) ∧
      ∀ c < s.n, (s.rowAddmulWe k i x e).b k c = s.b k c + X * s.b i c := by
  obtain ⟨h1, h2, h3⟩ := rowAddmulWeZ_exact (k := k) hx hz
  unfold rowAddmulWe
  dsimp only
  refine ⟨⟨?_, h1.b, fun j hj => (setAt_ne _ _ hj).trans (h1.R j hj)⟩, ?_, h3⟩
  · rw [h1.eq]
  · intro c hc
    rw [setAt_self, h2, if_pos hc]
    by_cases c1 : x = 1
    · rw [if_pos (show HFloat.fcmp x HFloat.one = 0 from fcmp_eq.2 c1), c1, one_mul]; rfl
    · rw [if_neg (show ¬ HFloat.fcmp x HFloat.one = 0 from fun h => c1 (fcmp_eq.1 h))]
      by_cases c2 : x = -1
      · rw [if_pos (show HFloat.fcmp x HFloat.negOne = 0 from fcmp_eq.2 c2), c2]
        change _ - _ = _
        ring
      · rw [if_neg (show ¬ HFloat.fcmp x HFloat.negOne = 0 from fun h => c2 (fcmp_eq.1 h))]
        change _ + _ * _ = _
        ring

omit [ExactCfg] in
/-- adding a multiple of an earlier row does not change the Gram determinants -/
theorem gramDet_addRow {n : ℕ} {b b' : Mat ℤ} {k i : ℕ} (hik : i < k) (X : ℤ) (hother : ∀ j, j ≠ k → b' j = b j)
    (hk : ∀ c < n, b' k c = b k c + X * b i c) (m : ℕ) : gramDet n b' m = gramDet n b m := by
  by_cases hm : m ≤ k
  · exact gramDet_congr fun j hj c _ => by rw [hother j (by omega)]
  · have hne : (⟨k, by omega⟩ : Fin m) ≠ ⟨i, by omega⟩ := by simp; omega
    refine gramDet_mul (Matrix.transvection ⟨k, by omega⟩ ⟨i, by omega⟩ X) ?_ ?_
    · rw [Matrix.det_transvection_of_ne _ _ hne]; ring
    · refine transvection_toM m n b b' ⟨k, by omega⟩ ⟨i, by omega⟩ X fun j c hc => ?_
      by_cases h : j = k
      · subst h; rw [if_pos rfl, hk c hc]
      · rw [if_neg h, hother j h, add_zero]

omit [ExactCfg] in
/-- the quotient whose nearest integer `size_reduce` subtracts -/
theorem quot_eq {s : HH ℝ} {k i : ℕ} (hh : House k s) (hi : i < k)
    (hc : s.R k i * (2 : ℝ) ^ s.rowExpo k = s.im k k i) :
    s.R k i / s.R i i * (2 : ℝ) ^ (s.rowExpo k - s.rowExpo i) = s.im k k i / s.im (i + 1) i i := by
  have h1 := hh.row i hi i le_rfl
  have h2 := hh.pos i hi
  have h3 := two_pos' (s.rowExpo i)
  have h4 : s.R i i ≠ 0 := fun h => by rw [h, zero_mul] at h1; exact h2.ne h1
  rw [← hc, ← h1, zpow_sub₀ two_ne]
  field_simp

/-- the effect of `size_reduce(k, i)` on row `k`, down to column `i` -/
structure Reduced (m k i : ℕ) (s : HH ℝ) (q : Bool × HH ℝ) : Prop where
  only : OnlyB k s q.2
  wf : WF m q.2.ints
  gram : ∀ l, gramDet s.n q.2.b l = gramDet s.n s.b l
  cols : ∀ c < i, q.2.R k c * (2 : ℝ) ^ s.rowExpo k = q.2.im k k c
  small : ∀ j, i ≤ j → j < k → ∃ y : ℝ, q.2.im k k j / s.im (j + 1) j j = y - ExactCfg.rnd y
  tail : ∀ c, k ≤ c → c < s.n → q.2.im k k c = s.im k k c
  same : q.1 = false → q.2 = s

omit [ExactCfg] in
theorem OnlyB.house {k : ℕ} {s t : HH ℝ} (h : OnlyB k s t) (hh : House k s) (hk : k ≤ s.n) : House k t :=
  hh.frame hk (by rw [h.eq]) (fun i _ => by rw [h.eq]) (fun i _ => by rw [h.eq])
    (fun i hi c _ => by rw [h.b i (by omega)]) (fun i hi c _ => by rw [h.R i (by omega)]) (fun i _ => by rw [h.eq])

omit [ExactCfg] in
theorem OnlyB.im {k : ℕ} {s t : HH ℝ} (h : OnlyB k s t) {j : ℕ} (hj : j ≠ k) (l : ℕ) : ∀ c < s.n, t.im l j c = s.im l j c :=
  im_congr (by rw [h.eq]) (fun i _ => by rw [h.eq]) (fun i _ => by rw [h.eq]) (fun c _ => by rw [h.b j hj])

theorem sizeReduceStep_exact {m k i : ℕ} {s : HH ℝ} {q : Bool × HH ℝ} (hh : House k s) (hkn : k ≤ s.n) (hkm : k < m)
    (hkd : k < s.d) (hi : i < k) (h : Reduced m k (i + 1) s q) : Reduced m k i s (sizeReduceStep k i q) := by
  obtain ⟨flag, t⟩ := q
  have ho := h.only
  dsimp only at ho
  have hht := ho.house hh hkn
  have hn : t.n = s.n := by rw [ho.eq]
  have hd : t.d = s.d := by rw [ho.eq]
  have he : t.rowExpo = s.rowExpo := by rw [ho.eq]
  have hw : t.im (i + 1) i i = s.im (i + 1) i i := ho.im (by omega) _ i (by omega)
  have hwpos := hht.pos i hi
  have hq := quot_eq hht hi (by rw [he]; exact h.cols i (by omega))
  set Q := t.im k k i / t.im (i + 1) i i with hQ
  set X := ExactCfg.rnd Q with hX
  set E := t.rowExpo k - t.rowExpo i with hE
  have hx : (HFloat.neg (HFloat.rndWe (HFloat.div (t.R k i) (t.R i i)) E) : ℝ) = -(X * (2 : ℝ) ^ (-E)) := by
    change -((ExactCfg.rnd (t.R k i / t.R i i * (2 : ℝ) ^ E) : ℝ) * (2 : ℝ) ^ (-E)) = _
    rw [hq]
  set x : ℝ := HFloat.neg (HFloat.rndWe (HFloat.div (t.R k i) (t.R i i)) E) with hxdef
  have hxE : x * (2 : ℝ) ^ E = ((-X : ℤ) : ℝ) := by
    rw [hx]
    have := two_mul_neg E
    push_cast
    linear_combination -(X : ℝ) * this
  have hstep : sizeReduceStep k i (flag, t) = if HFloat.sgn x ≠ 0 then (true, t.rowAddmulWe k i x E) else (flag, t) := rfl
  rw [hstep]
  by_cases hx0 : x = 0
  · rw [if_neg (fun h' => sgn_ne.1 h' hx0)]
    have hX0 : X = 0 := by
      rw [hx0, zero_mul] at hxE
      have : (-X : ℤ) = 0 := by exact_mod_cast hxE.symm
      omega
    refine ⟨h.only, h.wf, h.gram, fun c hc => h.cols c (by omega), ?_, h.tail, h.same⟩
    intro j h1 h2
    rcases h1.lt_or_eq with h3 | h3
    · exact h.small j (by omega) h2
    · subst h3
      refine ⟨Q, ?_⟩
      change t.im k k i / _ = _
      rw [← hw, ← hQ, ← hX, hX0]; simp
  · rw [if_pos (sgn_ne.2 hx0)]
    have hz : ∀ c, t.nKnownCols ≤ c → c < t.n → t.b i c = 0 := fun c h1 h2 =>
      h.wf.known i (by omega) (by change i < t.d; omega) c h1 h2
    obtain ⟨g1, g2, g3⟩ := rowAddmulWe_exact (k := k) (i := i) hxE hz
    have gg := rowAddmulWe_good t h.wf hkm (by omega : i < m) (by omega) (by omega) (by omega : k ≠ i) x E
    set v := t.rowAddmulWe k i x E with hv
    have hvn : v.n = t.n := by rw [g1.eq]
    have him : ∀ c < t.n, v.im k k c = t.im k k c - X * t.im (i + 1) i c := by
      intro c hc
      have e1 : v.im k k c = hmaps t.n t.V t.sigma k (fun c => realRows t.b k c + (-X : ℝ) * realRows t.b i c) c := by
        change hmaps v.n v.V v.sigma k (realRows v.b k) c = _
        rw [hvn, show v.V = t.V by rw [g1.eq], show v.sigma = t.sigma by rw [g1.eq]]
        refine hmaps_congr (fun _ _ => rfl) (fun _ _ => rfl) (fun c hc => ?_) c hc
        unfold realRows
        rw [g3 c hc]; push_cast; ring
      rw [e1, hmaps_add]
      have : t.im k i = t.im (i + 1) i := hht.im_row hi (by omega)
      change t.im k k c + -X * t.im k i c = _
      rw [this]; ring
    have hho := h.only.trans g1
    refine ⟨hho, gg.wf, ?_, ?_, ?_, ?_, ?_⟩
    · intro l
      rw [← h.gram l]
      exact gramDet_addRow hi (-X) g1.b (fun c hc => g3 c (by rw [hn]; exact hc)) l
    · intro c hc
      change v.R k c * _ = v.im k k c
      rw [g2 c (by omega), him c (by omega), add_mul, show t.R k c * (2 : ℝ) ^ s.rowExpo k = t.im k k c from h.cols c (by omega),
        ← hht.row i hi c (by omega), ← he]
      have e2 : x * (2 : ℝ) ^ t.rowExpo k = -X * (2 : ℝ) ^ t.rowExpo i := by
        have : t.rowExpo k = E + t.rowExpo i := by rw [hE]; ring
        rw [this, zpow_add₀ two_ne, ← mul_assoc, hxE]; push_cast; ring
      linear_combination (t.R i c) * e2
    · intro j h1 h2
      change ∃ y : ℝ, v.im k k j / _ = _
      rw [him j (by omega)]
      rcases h1.lt_or_eq with h3 | h3
      · rw [hht.tri i hi j h3 (by omega), mul_zero, sub_zero]
        exact h.small j (by omega) h2
      · subst h3
        refine ⟨Q, ?_⟩
        rw [← hw, sub_div, ← hQ, mul_div_assoc, div_self hwpos.ne', mul_one]
    · intro c h1 h2
      change v.im k k c = _
      rw [him c (by omega), hht.tri i hi c (by omega) (by omega), mul_zero, sub_zero]
      exact h.tail c h1 h2
    · intro h'; cases h'

theorem sizeReduce_exact {m k : ℕ} {s : HH ℝ} (hs : WF m s.ints) (hh : House k s) (hr : RowAt k k s) (hkn : k ≤ s.n)
    (hkm : k < m) (hkd : k < s.d) : Reduced m k 0 s (s.sizeReduce k k 0) := by
  unfold sizeReduce
  refine forDown_inv (fun i q => Reduced m k i s q) (sizeReduceStep k) (Nat.zero_le k) (false, s) ?_ ?_
  · exact ⟨.refl k s, hs, fun _ => rfl, fun c hc => hr c (by omega), fun j h1 h2 => by omega, fun _ _ _ => rfl, fun _ => rfl⟩
  · intro i q _ hi h
    exact sizeReduceStep_exact hh hkn hkm hkd hi h

/-- nothing is left to do -/
theorem sizeReduce_none {k : ℕ} {s : HH ℝ} (hh : House k s) (hr : RowAt k k s) (hkn : k ≤ s.n)
    (h0 : ∀ j < k, ExactCfg.rnd (s.im k k j / s.im (j + 1) j j) = 0) : s.sizeReduce k k 0 = (false, s) := by
  unfold sizeReduce
  refine forDown_inv (fun _ q => q = (false, s)) (sizeReduceStep k) (Nat.zero_le k) (false, s) rfl ?_
  rintro i q - hi rfl
  have hq := quot_eq hh hi (hr i (by omega))
  unfold sizeReduceStep
  dsimp only
  refine if_neg fun h => sgn_ne.1 h ?_
  change -((ExactCfg.rnd (s.R k i / s.R i i * (2 : ℝ) ^ (s.rowExpo k - s.rowExpo i)) : ℝ) * _) = 0
  rw [hq, h0 i hi]; simp

/-- only row `k` differs -/
structure OnlyK (k : ℕ) (s s' : HH ℝ) : Prop where
  eq : s' = { s with b := s'.b, u := s'.u, uInvT := s'.uInvT, R := s'.R, hist := s'.hist, bf := s'.bf,
                     rowExpo := s'.rowExpo, nKnownCols := s'.nKnownCols, normSqB := s'.normSqB,
                     expoNormSqB := s'.expoNormSqB, updatedR := s'.updatedR }
  b : ∀ j, j ≠ k → s'.b j = s.b j
  R : ∀ j, j ≠ k → s'.R j = s.R j
  bf : ∀ j, j ≠ k → s'.bf j = s.bf j
  rowExpo : ∀ j, j ≠ k → s'.rowExpo j = s.rowExpo j
  normSqB : ∀ j, j ≠ k → s'.normSqB j = s.normSqB j

omit [ExactCfg] in
theorem OnlyK.refl (k : ℕ) (s : HH ℝ) : OnlyK k s s :=
  ⟨rfl, fun _ _ => rfl, fun _ _ => rfl, fun _ _ => rfl, fun _ _ => rfl, fun _ _ => rfl⟩

omit [ExactCfg] in
theorem OnlyK.trans {k : ℕ} {s t v : HH ℝ} (h1 : OnlyK k s t) (h2 : OnlyK k t v) : OnlyK k s v := by
  refine ⟨?_, fun j hj => (h2.b j hj).trans (h1.b j hj), fun j hj => (h2.R j hj).trans (h1.R j hj),
    fun j hj => (h2.bf j hj).trans (h1.bf j hj), fun j hj => (h2.rowExpo j hj).trans (h1.rowExpo j hj),
    fun j hj => (h2.normSqB j hj).trans (h1.normSqB j hj)⟩
  rw [h2.eq, h1.eq]

omit [ExactCfg] in
theorem OnlyB.toK {k : ℕ} {s t : HH ℝ} (h : OnlyB k s t) : OnlyK k s t := by
  refine ⟨?_, h.b, h.R, fun j _ => ?_, fun j _ => ?_, fun j _ => ?_⟩ <;> rw [h.eq]

omit [ExactCfg] in
theorem OnlyR.toK {k : ℕ} {s t : HH ℝ} (h : OnlyR k s t) : OnlyK k s t := by
  refine ⟨?_, fun j _ => ?_, h.R, fun j _ => ?_, fun j _ => ?_, fun j _ => ?_⟩ <;> rw [h.eq]

omit [ExactCfg] in
theorem OnlyRow.toK {k : ℕ} {s t : HH ℝ} (h : OnlyRow k s t) : OnlyK k s t := by
  refine ⟨?_, fun j _ => ?_, h.R, h.bf, h.rowExpo, h.normSqB⟩ <;> rw [h.eq]

omit [ExactCfg] in
theorem OnlyK.house {k : ℕ} {s t : HH ℝ} (h : OnlyK k s t) (hh : House k s) (hk : k ≤ s.n) : House k t :=
  hh.frame hk (by rw [h.eq]) (fun i _ => by rw [h.eq]) (fun i _ => by rw [h.eq])
    (fun i hi c _ => by rw [h.b i (by omega)]) (fun i hi c _ => by rw [h.R i (by omega)])
    (fun i hi => by rw [h.rowExpo i (by omega)])

omit [ExactCfg] in
theorem OnlyK.im {k : ℕ} {s t : HH ℝ} (h : OnlyK k s t) {j : ℕ} (hj : j ≠ k) (l : ℕ) : ∀ c < s.n, t.im l j c = s.im l j c :=
  im_congr (by rw [h.eq]) (fun i _ => by rw [h.eq]) (fun i _ => by rw [h.eq]) (fun c _ => by rw [h.b j hj])

omit [ExactCfg] in
theorem OnlyK.known {k : ℕ} {s t : HH ℝ} (h : OnlyK k s t) {j : ℕ} (hj : j ≠ k) (hk : Known j s) : Known j t :=
  hk.frame (by rw [h.eq]) (fun c _ => by rw [h.b j hj]) (h.bf j hj) (h.rowExpo j hj) (h.normSqB j hj)

/-- the state when row `k` is about to be size reduced, or has been -/
structure Ready (m k : ℕ) (s : HH ℝ) : Prop where
  base : Base m s
  known : ∀ j < m, Known j s
  house : House k s
  row : RowAt k k s
  hist : HistOk k k s
  upd : s.updatedR = false

/-- how row `k` has changed -/
structure Same (k : ℕ) (s s' : HH ℝ) : Prop where
  only : OnlyK k s s'
  gram : ∀ l, gramDet s.n s'.b l = gramDet s.n s.b l
  tail : ∀ c, k ≤ c → c < s.n → s'.im k k c = s.im k k c

omit [ExactCfg] in
theorem Same.trans {k : ℕ} {s t v : HH ℝ} (h1 : Same k s t) (h2 : Same k t v) : Same k s v := by
  have hn : t.n = s.n := by rw [h1.only.eq]
  have g2 := h2.gram
  have t2 := h2.tail
  rw [hn] at g2 t2
  exact ⟨h1.only.trans h2.only, fun l => (g2 l).trans (h1.gram l), fun c a b => (t2 c a b).trans (h1.tail c a b)⟩

/-- one pass of `size_reduction` that changed something: `size_reduce`, `refresh_R_bf` and `update_R` -/
theorem pass_exact {m k : ℕ} {s : HH ℝ} (hs : Ready m k s) (hkn : k ≤ s.n) (hkm : k < m) (hkd : k < s.d)
    {q : Bool × HH ℝ} (hq : Reduced m k 0 s q) :
    Ready m k ((q.2.refreshRBf k).updateR k false) ∧ Same k s ((q.2.refreshRBf k).updateR k false) ∧
      ∀ j < k, ∃ y : ℝ, ((q.2.refreshRBf k).updateR k false).im k k j
        / ((q.2.refreshRBf k).updateR k false).im (j + 1) j j = y - ExactCfg.rnd y := by
  set t := q.2 with ht
  have ho : OnlyB k s t := hq.only
  have hn : t.n = s.n := by rw [ho.eq]
  have hd : t.d = s.d := by rw [ho.eq]
  have hbt : Base m t := ⟨hq.wf, fun i => by rw [ho.eq]; exact hs.base.init i, fun h i => by
    rw [ho.eq] at h ⊢; exact hs.base.expo h i⟩
  obtain ⟨hbv, hkv, hrv⟩ := refreshRBf_exact hbt (i := k) (m' := m) (by omega) (.inl ⟨hkm, rfl⟩)
  have hov := refreshRBf_only t k
  set v := t.refreshRBf k with hv
  have hvn : v.n = s.n := hn
  have hvu : v.updatedR = false := by
    have : v.updatedR = t.updatedR := rfl
    rw [this, ho.eq]; exact hs.upd
  have hw : v.updateR k false = forUp 0 k (updateRStep k) v := by
    unfold updateR; rw [if_neg (by rw [hvu]; simp)]; rfl
  obtain ⟨hor, hrow, hhist⟩ := updateLoop (i := k) (k := k) (by omega : k ≤ v.n) hrv
  rw [← hw] at hor hrow hhist
  set w := v.updateR k false with hwdef
  have hvk : OnlyK k s v := ho.toK.trans hov.toK
  have hwk : OnlyK k s w := hvk.trans hor.toK
  have hwn : w.n = s.n := by rw [hwk.eq]
  have hbw : w.b = t.b := by rw [hor.eq, hov.eq]
  have himw : ∀ c < s.n, w.im k k c = t.im k k c := by
    have := im_congr (s := t) (s' := w) (k := k) (j := k) (by rw [hwn, hn]) (fun i _ => by rw [hor.eq, hov.eq])
      (fun i _ => by rw [hor.eq, hov.eq]) (fun c _ => by rw [hbw])
    intro c hc
    exact this c (by omega)
  refine ⟨⟨⟨?_, ?_, ?_⟩, ?_, hwk.house hs.house hkn, hrow, hhist, ?_⟩, ⟨hwk, ?_, ?_⟩, ?_⟩
  · rw [hwdef, updateR_ints]; exact hbv.wf
  · intro i; rw [hor.eq]; exact hbv.init i
  · intro h i
    rw [hor.eq] at h ⊢
    exact hbv.expo h i
  · intro j hj
    by_cases h : j = k
    · subst h
      refine hkv.frame ?_ ?_ ?_ ?_ ?_
      · rw [hor.eq]
      · intro c _; rw [hor.eq]
      · rw [hor.eq]
      · rw [hor.eq]
      · rw [hor.eq]
    · exact hwk.known h (hs.known j hj)
  · rw [hor.eq]; exact hvu
  · intro l; rw [hbw]; exact hq.gram l
  · intro c h1 h2; rw [himw c h2]; exact hq.tail c h1 h2
  · intro j hj
    rw [himw j (by omega), hwk.im (by omega) (j + 1) j (by omega)]
    exact hq.small j (Nat.zero_le _) hj

end HH

namespace HL

open HH

variable [ExactCfg]

theorem sizeLoop_exact {m k : ℕ} (hkm : k < m) (fuel : ℕ) (p : Bool) (s : HH ℝ) (hs : Ready m k s) (hkn : k ≤ s.n)
    (hkd : k < s.d) (s' : HH ℝ) (h : sizeLoop k k 0 fuel p s = some s') :
    Ready m k s' ∧ Same k s s' ∧ ∀ j < k, ∃ y : ℝ, s'.im k k j / s'.im (j + 1) j j = y - ExactCfg.rnd y := by
  induction fuel generalizing p s with
  | zero => cases h
  | succ fuel ih =>
    have hq := sizeReduce_exact hs.base.wf hs.house hs.row hkn hkm hkd
    rw [sizeLoop] at h
    generalize s.sizeReduce k k 0 = q at *
    dsimp only at h
    by_cases hf : q.1 = false
    · rw [if_pos hf] at h
      have e : q.2 = s := hq.same hf
      rw [e] at h
      cases h
      refine ⟨hs, ⟨.refl _ _, fun _ => rfl, fun _ _ _ => rfl⟩, ?_⟩
      intro j hj
      have := hq.small j (Nat.zero_le _) hj
      rwa [e] at this
    · rw [if_neg hf] at h
      obtain ⟨g1, g2, g3⟩ := pass_exact hs hkn hkm hkd hq
      set w := (q.2.refreshRBf k).updateR k false with hw
      have hwn : w.n = s.n := by rw [g2.only.eq]
      have hwd : w.d = s.d := by rw [g2.only.eq]
      split_ifs at h
      · obtain ⟨a1, a2, a3⟩ := ih _ w g1 (by omega) (by omega) h
        exact ⟨a1, g2.trans a2, a3⟩
      · have h := Option.some.inj h
        rw [← h]; exact ⟨g1, g2, g3⟩

/-- with a rounding that settles two passes are enough -/
theorem sizeLoop_terminates (hst : Settles) {m k : ℕ} (hkm : k < m) (fuel : ℕ) (hf : 2 ≤ fuel) (p : Bool) (s : HH ℝ)
    (hs : Ready m k s) (hkn : k ≤ s.n) (hkd : k < s.d) : ∃ s', sizeLoop k k 0 fuel p s = some s' := by
  obtain ⟨f, rfl⟩ : ∃ f, fuel = f + 2 := ⟨fuel - 2, by omega⟩
  have hq := sizeReduce_exact hs.base.wf hs.house hs.row hkn hkm hkd
  rw [sizeLoop]
  generalize s.sizeReduce k k 0 = q at *
  dsimp only
  by_cases hf : q.1 = false
  · rw [if_pos hf]; exact ⟨_, rfl⟩
  · rw [if_neg hf]
    obtain ⟨g1, g2, g3⟩ := pass_exact hs hkn hkm hkd hq
    set w := (q.2.refreshRBf k).updateR k false with hw
    have hwn : w.n = s.n := by rw [g2.only.eq]
    split_ifs
    · rw [sizeLoop, sizeReduce_none g1.house g1.row (by omega)]
      · exact ⟨_, rfl⟩
      · intro j hj
        obtain ⟨y, hy⟩ := g3 j hj
        rw [hy]; exact hst y
    · exact ⟨_, rfl⟩

end HL
end Fplll

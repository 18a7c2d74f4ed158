import Verif.Proofs.HLLLMain

/-!
# The naive R-factor of `is_hlll_reduced` in exact arithmetic

The naive arrays are viewed as those of a `MatHouseholder` object, so that the invariants of HLLL apply.
-/

open Finset

namespace Fplll

open Spec GSO HH HFloat

namespace HNaive

/-- the naive arrays, in place of the arrays of the main computation -/
def emb (n : ℕ) (b : Mat ℤ) (s : HNaive ℝ) : HH ℝ :=
  { mk0 0 n false false false false b (fun _ _ => 0) (fun _ _ => 0) (fun _ _ => 0) with
    R := s.R, V := s.V, sigma := s.sigma, rowExpo := s.rowExpo }

variable [ExactCfg]

theorem houseStep_row {n i j : ℕ} {b : Mat ℤ} {s : HNaive ℝ} (hj : j < n) (h : RowAt i j (emb n b s)) :
    RowAt i (j + 1) (emb n b (houseStep n i j s)) := (step_row (s := emb n b s) hj h).1

/-- only row `i` of `R` differs -/
structure OnlyR (i : ℕ) (s s' : HNaive ℝ) : Prop where
  V : s'.V = s.V
  sigma : s'.sigma = s.sigma
  rowExpo : s'.rowExpo = s.rowExpo
  R : ∀ j, j ≠ i → s'.R j = s.R j

theorem houseLoop {n i k : ℕ} {b : Mat ℤ} {s : HNaive ℝ} (hk : k ≤ n) (h : RowAt i 0 (emb n b s)) :
    OnlyR i s (forUp 0 k (houseStep n i) s) ∧ RowAt i k (emb n b (forUp 0 k (houseStep n i) s)) := by
  refine forUp_inv (fun j t => OnlyR i s t ∧ RowAt i j (emb n b t)) _ (Nat.zero_le k) s
    ⟨⟨rfl, rfl, rfl, fun _ _ => rfl⟩, h⟩ ?_
  rintro j t - hj ⟨ho, hrow⟩
  refine ⟨⟨ho.V, ho.sigma, ho.rowExpo, ?_⟩, houseStep_row (by omega) hrow⟩
  intro l hl
  exact (setAt_ne _ _ hl).trans (ho.R l hl)

/-- only row `i` differs -/
structure OnlyLast (i : ℕ) (s s' : HNaive ℝ) : Prop where
  rowExpo : s'.rowExpo = s.rowExpo
  R : ∀ j, j ≠ i → s'.R j = s.R j
  V : ∀ j, j ≠ i → s'.V j = s.V j
  sigma : ∀ j, j ≠ i → s'.sigma j = s.sigma j

theorem houseLast_only (n i : ℕ) (s : HNaive ℝ) : OnlyLast i s (houseLast n i s) := by
  unfold houseLast
  dsimp only
  split_ifs <;>
    exact ⟨rfl, fun j hj => setAt_ne _ _ hj, fun j hj => setAt_ne _ _ hj, fun j hj => setAt_ne _ _ hj⟩

theorem houseLast_house {n i : ℕ} {s : HNaive ℝ} (hi : i < n) (hpos : 0 < ∑ x ∈ Ico i n, s.R i x * s.R i x) :
    let s' := houseLast n i s
    IsRefl n i (s'.V i) (s'.sigma i) ∧
      (∀ c, i < c → c < n → hmap n i (s'.V i) (s'.sigma i) (s.R i) c = 0) ∧
      hmap n i (s'.V i) (s'.sigma i) (s.R i) i = s'.R i i ∧ 0 < s'.R i i ∧ ∀ c < i, s'.R i c = s.R i c := by
  intro s'
  set rest : ℝ := if i + 1 = n then HFloat.zero else dotF (s.R i) (s.R i) (i + 1) n with hrest
  have hrest' : rest = ∑ x ∈ Ico (i + 1) n, s.R i x * s.R i x := by
    rw [hrest]
    split_ifs with h
    · rw [h, Ico_self, sum_empty]; rfl
    · exact dotF_real _ _ (by omega)
  have hrest0 : 0 ≤ rest := by rw [hrest']; exact sum_nonneg fun x _ => mul_self_nonneg _
  have hall : dotF (s.R i) (s.R i) i n = s.R i i * s.R i i + rest := by
    rw [dotF_real _ _ hi, hrest', Finset.sum_eq_sum_Ico_succ_bot hi]
  have hpos' : 0 < s.R i i * s.R i i + rest := by rw [← hall, dotF_real _ _ hi]; exact hpos
  set sg : ℝ := if HFloat.fcmp (s.R i i) HFloat.zero < 0 then (HFloat.negOne : ℝ) else HFloat.one with hsg
  have hsg' : sg = if s.R i i < 0 then -1 else 1 := by
    rw [hsg]
    by_cases h : s.R i i < 0
    · rw [if_pos (show HFloat.fcmp (s.R i i) HFloat.zero < 0 from fcmp_neg.2 h), if_pos h]; rfl
    · rw [if_neg (show ¬ HFloat.fcmp (s.R i i) HFloat.zero < 0 from fun h' => h (fcmp_neg.1 h')), if_neg h]; rfl
  set nrm : ℝ := Real.sqrt (s.R i i * s.R i i + rest) with hnrm
  have hnrm0 : 0 < nrm := Real.sqrt_pos.2 hpos'
  have hden : s.R i i + nrm * sg ≠ 0 := by
    rw [hsg']
    split_ifs with h
    · have : s.R i i + nrm * -1 < 0 := by linarith
      exact this.ne
    · have : 0 < s.R i i + nrm * 1 := by linarith [not_lt.1 h]
      exact this.ne'
  have hsq : HFloat.sqrt (dotF (s.R i) (s.R i) i n) = nrm := by rw [hall]; rfl
  have c1 : HFloat.fcmp (HFloat.add (s.R i i) (HFloat.mul (HFloat.sqrt (dotF (s.R i) (s.R i) i n)) sg)) (HFloat.zero : ℝ)
      ≠ 0 := by rw [hsq]; exact fcmp_ne.2 hden
  by_cases h3 : rest = 0
  · have c2 : ¬ HFloat.fcmp rest (HFloat.zero : ℝ) ≠ 0 := fun h => fcmp_ne.1 h h3
    have hs' : s' = { s with
        sigma := setAt s.sigma i sg
        V := setAt s.V i fun c => if i ≤ c ∧ c < n then HFloat.zero else s.V i c
        R := setAt s.R i fun c =>
          if c = i then (if HFloat.fcmp (s.R i i) HFloat.zero < 0 then HFloat.neg (s.R i i) else s.R i i)
          else if i < c ∧ c < n then HFloat.zero else s.R i c } :=
      (if_pos c1).trans (if_neg c2)
    have hz : ∀ c, i < c → c < n → s.R i c = 0 := by
      intro c h1 h2
      rw [hrest'] at h3
      have := (sum_eq_zero_iff_of_nonneg fun x _ => mul_self_nonneg _).1 h3 c (mem_Ico.2 ⟨h1, h2⟩)
      exact mul_self_eq_zero.1 this
    obtain ⟨g1, g2, g3⟩ := house_spec_zero hi (r := s.R i) (v := s'.V i) (σ := sg) hsg' hz (fun c h1 h2 => by
      rw [hs']; dsimp only; rw [setAt_self, if_pos ⟨h1, h2⟩]; rfl)
    have esg : s'.sigma i = sg := by rw [hs']; exact setAt_self _ _ _
    have eR : s'.R i i = |s.R i i| := by
      rw [hs']; dsimp only; rw [setAt_self, if_pos rfl]
      by_cases h : s.R i i < 0
      · rw [if_pos (show HFloat.fcmp (s.R i i) HFloat.zero < 0 from fcmp_neg.2 h), abs_of_neg h]; rfl
      · rw [if_neg (show ¬ HFloat.fcmp (s.R i i) HFloat.zero < 0 from fun h' => h (fcmp_neg.1 h')), abs_of_nonneg (not_lt.1 h)]
    rw [esg, eR]
    refine ⟨g1, g3, g2, ?_, ?_⟩
    · rw [h3, add_zero] at hpos'
      exact abs_pos.2 fun h => by rw [h] at hpos'; simp at hpos'
    · intro c hc; rw [hs']; dsimp only; rw [setAt_self, if_neg (by omega), if_neg (by omega)]
  · have c2 : HFloat.fcmp rest (HFloat.zero : ℝ) ≠ 0 := fcmp_ne.2 h3
    set f3 : ℝ := -rest / (s.R i i + sg * nrm) with hf3
    have hf3' : -rest / (s.R i i + nrm * sg) = f3 := by rw [hf3, mul_comm]
    have hf0 : f3 ≠ 0 := by rw [← hf3']; exact div_ne_zero (neg_ne_zero.2 h3) hden
    have hs' : s' = { s with
        sigma := setAt s.sigma i sg
        V := setAt s.V i fun c => if i ≤ c ∧ c < n then
          (if c = i then f3 else s.R i c) / Real.sqrt (-(sg * nrm) * f3) else s.V i c
        R := setAt s.R i fun c => if c = i then |-(nrm * sg)| else if i < c ∧ c < n then 0 else s.R i c } := by
      refine (if_pos c1).trans ((if_pos c2).trans ?_)
      rw [hsq]
      have e1 : HFloat.div (HFloat.neg rest) (HFloat.add (s.R i i) (HFloat.mul nrm sg)) = f3 := hf3'
      have e2 : HFloat.mul (HFloat.neg (HFloat.mul nrm sg)) f3 = -(sg * nrm) * f3 := by
        change -(nrm * sg) * f3 = _
        rw [mul_comm nrm]
      rw [e1]
      dsimp only
      rw [show HFloat.mul (HFloat.neg (HFloat.mul nrm (if HFloat.fcmp (s.R i i) HFloat.zero < 0 then (HFloat.negOne : ℝ)
        else HFloat.one))) f3 = -(sg * nrm) * f3 from e2]
      rfl
    obtain ⟨g1, g2, g3⟩ := house_spec hi (r := s.R i) (v := s'.V i) hsg' hrest' hnrm hpos' hf3 hf0 rfl
      (by rw [hs']; dsimp only; rw [setAt_self, if_pos ⟨le_rfl, hi⟩, if_pos rfl])
      (fun c h1 h2 => by rw [hs']; dsimp only; rw [setAt_self, if_pos ⟨h1.le, h2⟩, if_neg (by omega)])
    have esg : s'.sigma i = sg := by rw [hs']; exact setAt_self _ _ _
    have eR : s'.R i i = nrm := by
      rw [hs']; dsimp only; rw [setAt_self, if_pos rfl, abs_neg, abs_mul, abs_of_pos hnrm0]
      have : |sg| = 1 := by rw [hsg']; split_ifs <;> simp
      rw [this, mul_one]
    rw [esg, eR]
    refine ⟨g1, g3, g2, hnrm0, ?_⟩
    intro c hc; rw [hs']; dsimp only; rw [setAt_self, if_neg (by omega), if_neg (by omega)]

theorem houseLast_next {n k : ℕ} {b : Mat ℤ} {s : HNaive ℝ} (hk : k < n) (hh : House k (emb n b s))
    (hr : RowAt k k (emb n b s)) (hpos : 0 < normStar n (basisQ b) k) :
    House (k + 1) (emb n b (houseLast n k s)) := by
  have ho := houseLast_only n k s
  have hsum : 0 < ∑ x ∈ Ico k n, s.R k x * s.R k x := by
    have h1 := (hh.toTri hk.le).projSq_cast le_rfl k
    rw [projSq_self] at h1
    have h2 : ∑ c ∈ Ico k n, (emb n b s).im k k c * (emb n b s).im k k c
        = ((2 : ℝ) ^ s.rowExpo k) ^ 2 * ∑ x ∈ Ico k n, s.R k x * s.R k x := by
      rw [mul_sum]
      refine sum_congr rfl fun c hc => ?_
      rw [mem_Ico] at hc
      rw [← hr c hc.2]
      change s.R k c * (2 : ℝ) ^ s.rowExpo k * (s.R k c * (2 : ℝ) ^ s.rowExpo k) = _
      ring
    have h3 : (0 : ℝ) < ((normStar n (basisQ b) k : ℚ) : ℝ) := by exact_mod_cast hpos
    have h1' : ((normStar n (basisQ b) k : ℚ) : ℝ) = _ := h1
    rw [h1'] at h3
    change 0 < ∑ c ∈ Ico k n, (emb n b s).im k k c * (emb n b s).im k k c at h3
    rw [h2] at h3
    exact (pos_iff_pos_of_mul_pos h3).1 (by have := two_pos' (s.rowExpo k); positivity)
  obtain ⟨g1, g2, g3, g4, g5⟩ := houseLast_house hk hsum
  set s' := houseLast n k s with hs'
  have he : s'.rowExpo = s.rowExpo := ho.rowExpo
  have hp := two_pos' (s.rowExpo k)
  have hold : House k (emb n b s') := hh.frame (s' := emb n b s') hk.le rfl (fun i hi => ho.V i (by omega))
    (fun i hi => ho.sigma i (by omega)) (fun i _ c _ => rfl)
    (fun i hi c _ => by change s'.R i c = s.R i c; rw [ho.R i (by omega)]) (fun i _ => by change s'.rowExpo i = _; rw [he]; rfl)
  have him : ∀ c < n, (emb n b s').im (k + 1) k c
      = hmap n k (s'.V k) (s'.sigma k) (s.R k) c * (2 : ℝ) ^ s.rowExpo k := by
    intro c hc
    have e1 : (emb n b s').im (k + 1) k c = hmap n k (s'.V k) (s'.sigma k) ((emb n b s').im k k) c := rfl
    have e2 : ∀ c < n, (emb n b s').im k k c = (2 : ℝ) ^ s.rowExpo k * s.R k c + 0 * s.R k c := by
      intro c hc
      rw [im_congr (s := emb n b s) (s' := emb n b s') rfl (fun i hi => ho.V i (by omega))
        (fun i hi => ho.sigma i (by omega)) (fun c _ => rfl) c hc, ← hr c hc]
      change s.R k c * (2 : ℝ) ^ s.rowExpo k = _
      ring
    rw [e1, hmap_congr (fun _ _ _ => rfl) e2 c hc, hmap_lin]
    ring
  refine ⟨?_, ?_, ?_, ?_⟩
  · intro j hj
    rcases Nat.lt_succ_iff_lt_or_eq.1 hj with h | h
    · exact hold.orth j h
    · subst h; exact g1
  · intro j hj c h1 h2
    rcases Nat.lt_succ_iff_lt_or_eq.1 hj with h | h
    · exact hold.tri j h c h1 h2
    · subst h; rw [him c h2, g2 c h1 h2, zero_mul]
  · intro j hj
    rcases Nat.lt_succ_iff_lt_or_eq.1 hj with h | h
    · exact hold.pos j h
    · subst h; rw [him j hk, g3]; positivity
  · intro j hj c hc
    rcases Nat.lt_succ_iff_lt_or_eq.1 hj with h | h
    · exact hold.row j h c hc
    · subst h
      rw [him c (by omega)]
      change s'.R j c * (2 : ℝ) ^ s'.rowExpo j = _
      rw [he]
      rcases hc.lt_or_eq with h | h
      · rw [hmap_low h, g5 c h]
      · rw [h, g3]

theorem updateRow_next {expoOn : Bool} {n k : ℕ} {b : Mat ℤ} {s : HNaive ℝ} (hk : k < n) (hh : House k (emb n b s))
    (hz : expoOn = false → ∀ i, s.rowExpo i = 0) (hpos : 0 < normStar n (basisQ b) k) :
    House (k + 1) (emb n b (updateRow expoOn n b k s)) ∧
      (expoOn = false → ∀ i, (updateRow expoOn n b k s).rowExpo i = 0) := by
  unfold updateRow
  dsimp only
  set e := maxExpo ℝ (b k) n
  set row : ℕ → ℝ := fun c =>
    if c < n then
      if expoOn = true then
        HFloat.mul2si (HFloat.getFExp (F := ℝ) (b k c)).1 ((HFloat.getFExp (F := ℝ) (b k c)).2 - e)
      else HFloat.ofInt (b k c)
    else s.R k c with hrow
  set s1 : HNaive ℝ := ⟨setAt s.R k row, s.V, s.sigma, if expoOn = true then setAt s.rowExpo k e else s.rowExpo⟩ with hs1
  have hne : ∀ i, i ≠ k → s1.rowExpo i = s.rowExpo i := by
    intro i hi
    change (if expoOn = true then setAt s.rowExpo k e else s.rowExpo) i = _
    split_ifs
    · exact setAt_ne _ _ hi
    · rfl
  have hz1 : expoOn = false → ∀ i, s1.rowExpo i = 0 := by
    intro h i
    change (if expoOn = true then setAt s.rowExpo k e else s.rowExpo) i = 0
    rw [if_neg (by rw [h]; decide)]; exact hz h i
  have hr0 : RowAt k 0 (emb n b s1) := by
    intro c hc
    change setAt s.R k row k c * (2 : ℝ) ^ s1.rowExpo k = (b k c : ℝ)
    rw [setAt_self, hrow]
    dsimp only
    rw [if_pos (show c < n from hc)]
    by_cases hx : expoOn = true
    · rw [if_pos hx]
      have : s1.rowExpo k = e := by
        change (if expoOn = true then setAt s.rowExpo k e else s.rowExpo) k = e
        rw [if_pos hx]; exact setAt_self _ _ _
      rw [this]
      change (b k c : ℝ) * (2 : ℝ) ^ (-ExactCfg.fexp (b k c)) * (2 : ℝ) ^ (ExactCfg.fexp (b k c) - e) * (2 : ℝ) ^ e = _
      rw [mul_assoc, mul_assoc, ← zpow_add₀ two_ne, ← zpow_add₀ two_ne]
      simp
    · rw [if_neg hx, hz1 (by simpa using hx)]
      change (b k c : ℝ) * (2 : ℝ) ^ (0 : ℤ) = _
      rw [zpow_zero, mul_one]
  have hh1 : House k (emb n b s1) := by
    refine hh.frame (s' := emb n b s1) (show k ≤ n by omega) rfl (fun _ _ => rfl) (fun _ _ => rfl) (fun _ _ _ _ => rfl) ?_ ?_
    · intro i hi c _
      change setAt s.R k row i c = s.R i c
      rw [setAt_ne _ _ (by omega)]
    · intro i hi; exact hne i (by omega)
  obtain ⟨ho, hrk⟩ := houseLoop (b := b) hk.le hr0
  set s2 := forUp 0 k (houseStep n k) s1 with hs2
  have hh2 : House k (emb n b s2) := by
    refine hh1.frame (s' := emb n b s2) (show k ≤ n by omega) rfl ?_ ?_ (fun _ _ _ _ => rfl) ?_ ?_
    · intro i _; change s2.V i = _; rw [ho.V]; rfl
    · intro i _; change s2.sigma i = _; rw [ho.sigma]; rfl
    · intro i hi c _; change s2.R i c = _; rw [ho.R i (by omega)]; rfl
    · intro i _; change s2.rowExpo i = _; rw [ho.rowExpo]; rfl
  refine ⟨houseLast_next hk hh2 hrk hpos, fun h i => ?_⟩
  rw [(houseLast_only n k s2).rowExpo, ho.rowExpo]
  exact hz1 h i

theorem updateAll_exact {expoOn : Bool} {d n : ℕ} {b : Mat ℤ} {junk : Mat ℝ} (hi : Indep d n (basisQ b)) :
    House d (emb n b (updateAll expoOn d n b junk)) ∧ d ≤ n ∧
      (expoOn = false → ∀ i, (updateAll expoOn d n b junk).rowExpo i = 0) := by
  unfold updateAll
  have := forUp_inv (fun k t => House k (emb n b t) ∧ k ≤ n ∧ (expoOn = false → ∀ i, t.rowExpo i = 0))
    (updateRow expoOn n b) (Nat.zero_le d) ⟨junk, junk, junk 0, fun _ => 0⟩
    ⟨⟨fun j hj => absurd hj (by omega), fun j hj => absurd hj (by omega), fun j hj => absurd hj (by omega),
        fun j hj => absurd hj (by omega)⟩, Nat.zero_le _, fun _ _ => rfl⟩ ?_
  · exact this
  · rintro k t - hk ⟨h1, h2, h3⟩
    have hp := hi.pos k hk
    have hkn : k < n := HL.house_lt h1 h2 hp
    obtain ⟨g1, g2⟩ := updateRow_next hkn h1 h3 hp
    exact ⟨g1, hkn, g2⟩

/-- the naive R-factor, with its exponents -/
theorem naive_rfactor {expoOn : Bool} {d n : ℕ} {b : Mat ℤ} {junk : Mat ℝ} (hi : Indep d n (basisQ b)) :
    let s := updateAll expoOn d n b junk
    (∀ i < d, s.R i i * (2 : ℝ) ^ s.rowExpo i = rDiag n (basisQ b) i) ∧
    ∀ i < d, ∀ j < i, s.R i j * (2 : ℝ) ^ s.rowExpo i = rEntry n (basisQ b) i j := by
  obtain ⟨h1, h2, -⟩ := updateAll_exact (expoOn := expoOn) (junk := junk) hi
  exact HL.house_rfactor h1 h2

end HNaive
end Fplll

import Verif.Proofs.SVPRound
import Verif.Props.ErrInit
import Verif.Props.SVP

/-!
# C71: the proved method of `shortest_vector` in floating-point arithmetic
-/

open Finset

namespace Fplll
namespace SVP

open Enum Spec ErrB

/-! ## Arithmetic -/

theorem mpfr_mono {P : ℕ} (hP : 1 ≤ P) : ArithMono (mpfr P) where
  rn := rp_mono RInt.rhe hP
  rd := rp_mono RInt.floor hP
  ru := rp_mono RInt.ceil hP
  sq := sqU_mono

/-- `get_d(GMP_RNDU)` -/
def toDoubleUp : ℚ → ℚ := rp (fun t => ⌈t⌉) 53

/-- a number of `P` bits -/
theorem rp_bits {g : ℚ → ℤ} (hg : RInt g) {P : ℕ} (hP : 1 ≤ P) (t : ℚ) : ∃ n k : ℤ, |n| ≤ 2 ^ P ∧ rp g P t = n * 2 ^ k := by
  by_cases ht : t = 0
  · exact ⟨0, 0, by simp, by rw [ht, rp_zero]; simp⟩
  obtain ⟨e, s, -, -, h1, -, h2⟩ := rp_form (g := g) ht hP
  refine ⟨g s, e, ?_, h1⟩
  obtain ⟨a, b⟩ := abs_lt.1 h2
  have h3 := hg.mono b.le
  have h4 := hg.mono a.le
  have e3 : g ((2 : ℚ) ^ P) = 2 ^ P := by
    have := hg.int (2 ^ P); push_cast at this; exact this
  have e4 : g (-(2 : ℚ) ^ P) = -2 ^ P := by
    have := hg.int (-2 ^ P); push_cast at this; exact this
  rw [e3] at h3
  rw [e4] at h4
  exact abs_le.2 ⟨h4, h3⟩

theorem rp_keep {g : ℚ → ℤ} (hg : RInt g) {P : ℕ} (hP : 53 ≤ P) {x t : ℚ} (hx : Fl53 x) (h : x ≤ t) : x ≤ rp g P t := by
  obtain ⟨n, k, hn, rfl⟩ := hx
  have := rp_mono hg (p := P) (by omega) h
  rwa [rp_fix hg (by omega) (hn.trans (pow_le_pow_right₀ (by norm_num) hP))] at this

theorem rn_le_ru {P : ℕ} (hP : 1 ≤ P) (t : ℚ) : (mpfr P).rn t ≤ (mpfr P).ru t := by
  obtain ⟨n, k, hn, e⟩ := rp_bits RInt.ceil hP t
  have h := rp_mono RInt.rhe hP (ceil_le_rp hP t)
  rw [e, rp_fix RInt.rhe hP hn, ← e] at h
  exact h

/-! ## The enumeration -/

/-- the enumeration started by `provedR` -/
def inputR (mu : ℕ → ℕ → ℚ) (r : ℕ → ℚ) (d : ℕ) (md : ℚ) : Input where
  fl := r53
  d := d
  mu := mu
  r := r
  maxdist := md
  target := none
  subtree := []
  pruning := none
  dual := false
  subtreeReset := false
  findsubsols := false

/-- the data of `shortest_vector` on the basis `b`: the evaluator works on the first `d` rows, whose computed GSO
data have errors within its bounds, and squared lengths of integer vectors are exact; the relative error of
all `r_i` is at most 1/3 -/
structure DataR (D n : ℕ) (b : Mat ℤ) (mu : ℕ → ℕ → ℚ) (r : ℕ → ℚ) (q : Dat) (sqRow : ℕ → ℤ) (sq : (ℕ → ℤ) → ℤ) :
    Prop where
  hd : q.d = lastUseful r (D - 1)
  hqm : q.mu = mu
  hqr : q.r = r
  ok : DatOK q r53 (muS n (basisQ b)) (normStar n (basisQ b))
  third : ∀ i, i < D → |r i - normStar n (basisQ b) i| ≤ normStar n (basisQ b) i / 3
  hrow : ∀ i, i < D → sqRow i = sqLen n (b i)
  hsq : ∀ x, sq x = sqLen n (comb q.d b x)

theorem lastUseful_third {D n : ℕ} {B : ℕ → ℕ → ℚ} {r : ℕ → ℚ} (hD : 1 ≤ D)
    (h : ∀ i, i < D → |r i - normStar n B i| ≤ normStar n B i / 3) {t : ℕ} (h1 : lastUseful r (D - 1) ≤ t) (h2 : t < D) :
    normStar n B 0 ≤ normStar n B t := by
  have h3 := (lastUseful_spec r (D - 1)).2.2 t h1 (by omega)
  have h4 := (abs_le.1 (h 0 (by omega))).1
  have h5 := (abs_le.1 (h t h2)).2
  linarith

/-- vectors of the lattice that are not zero have squared length at least 1 -/
theorem DataR.pos {D n : ℕ} (hD : 1 ≤ D) {b : Mat ℤ} (hind : Indep D n (basisQ b)) {mu : ℕ → ℕ → ℚ} {r : ℕ → ℚ} {q : Dat}
    {sqRow : ℕ → ℤ} {sq : (ℕ → ℤ) → ℤ} (H : DataR D n b mu r q sqRow sq) (x : ℕ → ℤ) (hx : ∃ i < q.d, x i ≠ 0) : 1 ≤ sq x := by
  obtain ⟨l1, l2, -⟩ := lastUseful_spec r (D - 1)
  rw [← H.hd] at l1 l2
  have hindd : Indep q.d n (basisQ b) := indep_of_pos (fun i hi => hind.pos i (by omega))
  obtain ⟨c, hc, hne⟩ := (comb_ne_zero_iff hindd x).2 hx
  rw [H.hsq]
  have h1 : comb q.d b x c ^ 2 ≤ sqLen n (comb q.d b x) :=
    Finset.single_le_sum (f := fun c => comb q.d b x c ^ 2) (fun c _ => sq_nonneg _) (mem_range.2 hc)
  have h2 : 0 < comb q.d b x c ^ 2 := lt_of_le_of_ne (sq_nonneg _) (Ne.symm (pow_ne_zero 2 hne))
  omega

/-- the core: every outcome of a finished run of whichever enumeration -/
theorem provedR_core {P : ℕ} (hP : 53 ≤ P) {D n : ℕ} (hD : 1 ≤ D) {b : Mat ℤ} (hind : Indep D n (basisQ b))
    {mu : ℕ → ℕ → ℚ} {r : ℕ → ℚ} {q : Dat} {sqRow : ℕ → ℤ} {sq : (ℕ → ℤ) → ℤ} (H : DataR D n b mu r q sqRow sq)
    {lo : ℚ} (hL : ∀ x : ℕ → ℤ, (∃ i < q.d, x i ≠ 0) → lo ≤ sq x)
    {s : (ℕ → ℚ) × ℚ} (hs : StartL (mpfr P) (1 - 1 / 2 ^ P) q (getBasisMin sqRow 0 q.d) lo s) {md : ℚ}
    (hmd : md = toDoubleUp ((mpfr P).ru ((mpfr P).ru (getBasisMin sqRow 0 q.d) + s.2))) :
    (inputR mu r q.d md).OK ∧ (∀ x, 0 ≤ sq x) ∧
      DistOK (mpfr P) q toDoubleUp (distVal (mpfr P) q) (getBasisMin sqRow 0 q.d) md ∧
      RInv toDoubleUp sq (distVal (mpfr P) q) (getBasisMin sqRow 0 q.d) md ⟨none, getBasisMin sqRow 0 q.d, false⟩ md ∧
      ∀ {ev : RSt} {md' : ℚ} {L : List Event}, Found (inputR mu r q.d md) (evalR (mpfr P) q toDoubleUp sq)
        (RInv toDoubleUp sq (distVal (mpfr P) q) (getBasisMin sqRow 0 q.d) md) ⟨none, getBasisMin sqRow 0 q.d, false⟩ ev md' L →
      (s.2 ≤ r 0 → ev.aborted = false) ∧
      (ev.aborted = false → ∃ δ x, ev.sol = some (δ, x) ∧ IsShortest D n b (fun i => if i < q.d then x i else 0)) := by
  obtain ⟨l1, l2, -⟩ := lastUseful_spec r (D - 1)
  rw [← H.hd] at l1 l2
  have hdD : q.d ≤ D := by omega
  have hp := hind.pos
  have hA := mpfr_ok hP
  have hM := mpfr_mono (P := P) (by omega)
  have hsq0 : ∀ x, 0 ≤ sq x := fun x => by
    rw [H.hsq]; exact Finset.sum_nonneg (fun c _ => sq_nonneg _)
  have hindd : Indep q.d n (basisQ b) := indep_of_pos (fun i hi => hp i (by omega))
  have hpos := H.pos hD hind
  obtain ⟨⟨i0, -, hi0, hm⟩, -⟩ := getBasisMin_spec sqRow (first := 0) (last := q.d) (by omega)
  set m := getBasisMin sqRow 0 q.d with hmdef
  have hm' : m = sq (unit i0) := by
    rw [hm, H.hrow i0 (by omega), H.hsq, comb_unit b hi0]
  have hm1 : 1 ≤ m := by rw [hm']; exact hpos _ ⟨i0, hi0, by simp [unit]⟩
  have HD : DistOK (mpfr P) q toDoubleUp (distVal (mpfr P) q) m md := by
    rw [hmd]
    exact hs.distOK hA hM rndU_r53.toRnd H.ok (by omega) (rp_mono RInt.ceil (by norm_num)) (rn_le_ru (by omega))
  have hok : (inputR mu r q.d md).OK :=
    { rnd := C67_double
      mrep := by
        obtain ⟨n, k, hn, e⟩ := rp_bits RInt.ceil (P := 53) (by norm_num)
          ((mpfr P).ru ((mpfr P).ru (getBasisMin sqRow 0 q.d) + s.2))
        exact r53_fl53 ⟨n, k, hn, by rw [← e, ← toDoubleUp]; exact hmd⟩
      rpos := fun i hi => by
        have := H.ok.qpos i hi
        rwa [H.hqr] at this
      sublen := by simp [inputR]; omega
      dualOK := fun h => absurd h (by simp [inputR])
      prune := fun k _ => by unfold setBounds; rfl }
  set p := inputR mu r q.d md with hpdef
  have hI : RInv toDoubleUp sq (distVal (mpfr P) q) m md ⟨none, m, false⟩ md := ⟨by dsimp only; omega, le_rfl, .inl ⟨rfl, rfl, rfl⟩⟩
  refine ⟨hok, hsq0, HD, hI, ?_⟩
  intro ev md' L F
  have hfold : (ev, md') = L.foldl (evStep (evalR (mpfr P) q toDoubleUp sq)) (⟨none, m, false⟩, md) := F.fold
  have hF : ev = (L.foldl (evStep (evalR (mpfr P) q toDoubleUp sq)) (⟨none, m, false⟩, md)).1 := by rw [← hfold]
  -- what is at most as long as the best vector so far passes the bound
  have hpass : ∀ (v : ℕ → ℤ) (t : ℤ), 1 ≤ t → lo ≤ t → t ≤ m → sq v ≤ t → p.dist v 0 ≤ toDoubleUp (distVal (mpfr P) q t) := by
    intro v t h1 hLt h2 h3
    obtain ⟨a, a', ha, ha', hX, ha0, hab, has⟩ := hs.below hA hM rndU_r53.toRnd H.ok (by omega : 0 ≤ t) h2 le_rfl
    have hle : ∀ j, j < q.d → a.1 j ≤ s.1 j := fun j hj => (hX j hj).1.trans (hX j hj).2
    have ht1 : (1 : ℚ) ≤ t := by exact_mod_cast h1
    have hrt := hA.ru (t : ℚ)
    have has2 : a.2 ≤ s.2 := hab.trans has
    have hl0 : 0 ≤ loss (1 - 1 / 2 ^ P) q.d := (pow_pos hA.ρ0 _).le
    have hl1 : 0 ≤ 1 - loss (1 - 1 / 2 ^ P) q.d := by
      have := pow_le_one₀ (n := 2 * q.d - 1) hA.ρ0.le hA.ρ1
      rw [loss]; linarith
    have hen : ErrB.Enough (1 - 1 / 2 ^ P) q.d ((mpfr P).ru t) a.2 := by
      have e1 := mul_le_mul_of_nonneg_left has2 hl1
      have e2 := hs.small
      have e3 : loss (1 - 1 / 2 ^ P) q.d * (hu * lo) ≤ loss (1 - 1 / 2 ^ P) q.d * (hu * (mpfr P).ru t) :=
        mul_le_mul_of_nonneg_left (mul_le_mul_of_nonneg_left (hLt.trans hrt) hu_nonneg) hl0
      rw [ErrB.Enough]
      linarith
    have hlen : len2 n q.d (basisQ b) v = (sq v : ℚ) := by
      rw [H.hsq, sqLen_cast, comb_cast]; rfl
    have herr := C68_error_bound' (p := p) hA rndU_r53 H.ok ⟨rfl, H.hqm.symm, H.hqr.symm, rfl, rfl, rfl⟩ l1
      (by linarith) (exact := true) ha hen (v := v)
      (fun i hi => .inr (lt_of_le_of_lt (hle i hi) (hs.bits i hi)))
      (by rw [if_pos rfl, hlen]
          have : (sq v : ℚ) ≤ t := by exact_mod_cast h3
          linarith)
    have hfl53 : Fl53 (p.dist v 0) := by
      have := dist_rep hok v 0
      rw [← this]
      exact r53_isFl53 _
    have hsum : p.dist v 0 ≤ (mpfr P).ru t + a.2 := by
      have h4 := (abs_le.1 herr).2
      have : (sq v : ℚ) ≤ t := by exact_mod_cast h3
      rw [hlen] at h4
      linarith
    refine rp_keep RInt.ceil le_rfl hfl53 ?_
    rw [distVal, ha]
    exact rp_keep RInt.rhe hP hfl53 hsum
  have hoff : ∀ v : ℕ → ℤ, (∃ j < q.d, v j ≠ 0) → p.dist v 0 ≤ md' →
      ∃ w δ, Event.sol w δ ∈ L ∧ sq w = sq v := by
    intro v hv hle
    have hcongr : ∀ w u : ℕ → ℤ, (∀ j, j < p.d → w j = u j) → comb q.d b w = comb q.d b u := by
      intro w u h
      funext c
      unfold comb
      exact Finset.sum_congr rfl (fun i hi => by rw [h i (mem_range.1 hi)])
    rcases F.offered hok rfl rfl hv hle with ⟨w, hw, h⟩ | ⟨w, hw, h⟩
    · exact ⟨w, _, hw, by rw [H.hsq, H.hsq, hcongr w v h]⟩
    · refine ⟨w, _, hw, ?_⟩
      rw [H.hsq, H.hsq, hcongr w _ h]
      unfold sqLen comb
      refine Finset.sum_congr rfl (fun c _ => ?_)
      simp only [neg_mul, Finset.sum_neg_distrib, neg_sq]
  refine ⟨fun hr => ?_, fun hna => ?_⟩
  · rw [hF]
    refine evalR_fold_ok hsq0 HD (fun t h0 h1 => ?_) L _ _ hI rfl
    exact hs.distR_some hA hM rndU_r53.toRnd H.ok (by rw [H.hqr]; exact hr) h0 h1
  · rw [hF] at hna
    obtain ⟨f1, f2, f3⟩ := evalR_fold hsq0 HD L _ _ hI rfl hna
    rw [← hF] at f1 f2 f3
    dsimp only at f1 f2 f3
    rcases f3 with ⟨f3, f4⟩ | ⟨x, δ, hx, f3⟩
    · exfalso
      rcases F.inv.sols with ⟨-, -, hmax⟩ | ⟨x, h4, -⟩
      · obtain ⟨w, δ, hw, hsw⟩ := hoff (unit i0) ⟨i0, hi0, by simp [unit]⟩ (by
          rw [hmax]
          exact (hpass (unit i0) m hm1 (by rw [hm']; exact hL _ ⟨i0, hi0, by simp [unit]⟩) le_rfl hm'.ge).trans HD.top)
        exact f4 w δ hw (by rw [hsw, hm'])
      · rw [f3] at h4; cases h4
    · refine ⟨_, x, f3, ?_⟩
      have hnz : ∃ i < q.d, x i ≠ 0 := F.ne_zero hok rfl hx
      rcases F.inv.sols with ⟨h4, -⟩ | ⟨y, h4, h5, h6⟩
      · rw [h4] at f3; cases f3
      have hxy : y = x := by
        rw [h4] at f3
        simp only [Option.some.injEq, Prod.mk.injEq] at f3
        exact f3.2
      subst hxy
      refine shortest_of_tail hp l1 hdD (fun t h1 h2 => ?_) hnz (fun v hv => ?_)
      · exact lastUseful_third hD H.third (by rw [← H.hd]; exact h1) h2
      · rw [← H.hsq, ← H.hsq, h5]
        by_contra hc
        push Not at hc
        obtain ⟨w, δ', hw, hsw⟩ := hoff v hv (by
          rw [h6]
          exact hpass v _ (by rw [← h5]; exact hpos y hnz) (by rw [← h5]; exact hL y hnz) F.inv.le hc.le)
        have := f2 w δ' hw
        omega

/-- **C71** `shortest_vector` with the proved method, the enumeration in `double` arithmetic and `mpfr` numbers of `P`
bits: it terminates, and it calls `abort()` or returns the coordinates of a shortest vector of the lattice, whatever the
computed GSO data as long as their errors are within the bounds.  `abort()` is called only if the first bound on the error
exceeds `r(0, 0)`.  `L` is any lower bound on the squared lengths of the vectors of the lattice. -/
theorem C71_proved_doubleL {P : ℕ} (hP : 53 ≤ P) {D n : ℕ} (hD : 1 ≤ D) {b : Mat ℤ} (hind : Indep D n (basisQ b))
    {mu : ℕ → ℕ → ℚ} {r : ℕ → ℚ} {dat : ℕ → Dat} {sqRow : ℕ → ℤ} {sq : ℕ → (ℕ → ℤ) → ℤ}
    (H : DataR D n b mu r (dat (lastUseful r (D - 1))) sqRow (sq (lastUseful r (D - 1))))
    {L : ℚ} (hL : ∀ x : ℕ → ℤ, (∃ i < lastUseful r (D - 1), x i ≠ 0) → L ≤ sq (lastUseful r (D - 1)) x)
    {s : (ℕ → ℚ) × ℚ} (hs : StartL (mpfr P) (1 - 1 / 2 ^ P) (dat (lastUseful r (D - 1)))
      (getBasisMin sqRow 0 (lastUseful r (D - 1))) L s) :
    ∃ N, ∀ fuel, N ≤ fuel →
      (r 0 < s.2 ∧ provedR (mpfr P) r53 toDoubleUp D mu r dat sqRow sq fuel = .abort) ∨
      ∃ x, provedR (mpfr P) r53 toDoubleUp D mu r dat sqRow sq fuel = .done (some x) ∧ IsShortest D n b x := by
  have hd := H.hd
  obtain ⟨hok, hsq0, HD, hI, hres⟩ := provedR_core hP hD hind H (by rw [hd]; exact hL) (s := s) (by rw [hd]; exact hs) rfl
  have hE := evalR_ok (pruneOK_none hok rfl) hsq0 HD
  obtain ⟨N, s', hN⟩ := C13_terminates hok hE hI
  refine ⟨N, fun fuel hf => ?_⟩
  have hrun := hN fuel hf
  obtain ⟨h1, h2⟩ := hres (found_dyn hok hE hI rfl rfl hrun)
  rw [hd] at hrun h2
  have e : provedR (mpfr P) r53 toDoubleUp D mu r dat sqRow sq fuel =
      if s'.ev.aborted then .abort
      else match s'.ev.sol with
        | none => .done none
        | some o => .done (some fun i => if i < lastUseful r (D - 1) then o.2 i else 0) := by
    rw [provedR]
    simp only [boundR, hs.run]
    simp only [inputR] at hrun
    rw [hrun]
    rfl
  rw [e]
  by_cases ha : s'.ev.aborted = true
  · refine .inl ⟨?_, by rw [if_pos ha]⟩
    by_contra hc
    have := h1 (not_lt.1 hc)
    rw [this] at ha
    cases ha
  · refine .inr ?_
    obtain ⟨δ, x, e1, e2⟩ := h2 (by simpa using ha)
    exact ⟨_, by rw [if_neg ha, e1], e2⟩

/-- **C71** `shortest_vector` with the proved method, the enumeration in `double` arithmetic and `mpfr` numbers of `P`
bits: it terminates, and it calls `abort()` or returns the coordinates of a shortest vector of the lattice, whatever the
computed GSO data as long as their errors are within the bounds.  `abort()` is called only if the first bound on the error
exceeds `r(0, 0)`. -/
theorem C71_proved_double {P : ℕ} (hP : 53 ≤ P) {D n : ℕ} (hD : 1 ≤ D) {b : Mat ℤ} (hind : Indep D n (basisQ b))
    {mu : ℕ → ℕ → ℚ} {r : ℕ → ℚ} {dat : ℕ → Dat} {sqRow : ℕ → ℤ} {sq : ℕ → (ℕ → ℤ) → ℤ}
    (H : DataR D n b mu r (dat (lastUseful r (D - 1))) sqRow (sq (lastUseful r (D - 1))))
    {s : (ℕ → ℚ) × ℚ} (hs : Start (mpfr P) (1 - 1 / 2 ^ P) (dat (lastUseful r (D - 1)))
      (getBasisMin sqRow 0 (lastUseful r (D - 1))) s) :
    ∃ N, ∀ fuel, N ≤ fuel →
      (r 0 < s.2 ∧ provedR (mpfr P) r53 toDoubleUp D mu r dat sqRow sq fuel = .abort) ∨
      ∃ x, provedR (mpfr P) r53 toDoubleUp D mu r dat sqRow sq fuel = .done (some x) ∧ IsShortest D n b x :=
  C71_proved_doubleL hP hD hind H (fun x hx => by exact_mod_cast H.pos hD hind x (by rw [H.hd]; exact hx)) hs

/-- **C71** with the bounds on the errors as `init_delta_def` sets them (C70) -/
theorem C71_proved_double_initL {P : ℕ} (hP : 53 ≤ P) {D n : ℕ} (hD : 1 ≤ D) {b : Mat ℤ} (hind : Indep D n (basisQ b))
    {mu : ℕ → ℕ → ℚ} {r : ℕ → ℚ} {prec : ℤ} {rho : ℚ} (hrho : 0 ≤ rho) {d : ℕ} (hd : d = lastUseful r (D - 1))
    (hg : GsoErr (1 - 1 / 2 ^ P) prec rho d mu r (muS n (basisQ b)) (normStar n (basisQ b)))
    (hrel : ∀ i, i < d → 0 < (mpfr P).rd (1 - maxRelDR (mpfr P) prec rho d i))
    (hone : ∀ i j, i < j → j < d → |mu j i| ≤ 1)
    (hthird : ∀ i, i < D → |r i - normStar n (basisQ b) i| ≤ normStar n (basisQ b) i / 3)
    {L : ℚ} (hL : ∀ x : ℕ → ℤ, (∃ i < d, x i ≠ 0) → L ≤ sqLen n (comb d b x))
    {s : (ℕ → ℚ) × ℚ} (hs : StartL (mpfr P) (1 - 1 / 2 ^ P) (initDelta (mpfr P) prec rho d mu r r53)
      (getBasisMin (fun i => sqLen n (b i)) 0 d) L s) (hr0 : s.2 ≤ r 0) :
    ∃ N, ∀ fuel, N ≤ fuel → ∃ x, provedR (mpfr P) r53 toDoubleUp D mu r
      (fun d => initDelta (mpfr P) prec rho d mu r r53) (fun i => sqLen n (b i)) (fun d x => sqLen n (comb d b x)) fuel =
        .done (some x) ∧ IsShortest D n b x := by
  subst hd
  have hok := C70_init_delta_partial (mpfr_ok hP) rndU_r53 hrho hg hrel hone
  obtain ⟨N, hN⟩ := C71_proved_doubleL hP hD hind (mu := mu) (r := r)
    (dat := fun d => initDelta (mpfr P) prec rho d mu r r53) (sqRow := fun i => sqLen n (b i))
    (sq := fun d x => sqLen n (comb d b x)) ⟨rfl, rfl, rfl, hok, hthird, fun _ _ => rfl, fun _ => rfl⟩ hL hs
  refine ⟨N, fun fuel hf => ?_⟩
  rcases hN fuel hf with ⟨h, -⟩ | h
  · exact absurd h (not_lt.2 hr0)
  · exact h

/-- **C71** with the bounds on the errors as `init_delta_def` sets them (C70) -/
theorem C71_proved_double_init {P : ℕ} (hP : 53 ≤ P) {D n : ℕ} (hD : 1 ≤ D) {b : Mat ℤ} (hind : Indep D n (basisQ b))
    {mu : ℕ → ℕ → ℚ} {r : ℕ → ℚ} {prec : ℤ} {rho : ℚ} (hrho : 0 ≤ rho) {d : ℕ} (hd : d = lastUseful r (D - 1))
    (hg : GsoErr (1 - 1 / 2 ^ P) prec rho d mu r (muS n (basisQ b)) (normStar n (basisQ b)))
    (hrel : ∀ i, i < d → 0 < (mpfr P).rd (1 - maxRelDR (mpfr P) prec rho d i))
    (hone : ∀ i j, i < j → j < d → |mu j i| ≤ 1)
    (hthird : ∀ i, i < D → |r i - normStar n (basisQ b) i| ≤ normStar n (basisQ b) i / 3)
    {s : (ℕ → ℚ) × ℚ} (hs : Start (mpfr P) (1 - 1 / 2 ^ P) (initDelta (mpfr P) prec rho d mu r r53)
      (getBasisMin (fun i => sqLen n (b i)) 0 d) s) (hr0 : s.2 ≤ r 0) :
    ∃ N, ∀ fuel, N ≤ fuel → ∃ x, provedR (mpfr P) r53 toDoubleUp D mu r
      (fun d => initDelta (mpfr P) prec rho d mu r r53) (fun i => sqLen n (b i)) (fun d x => sqLen n (comb d b x)) fuel =
        .done (some x) ∧ IsShortest D n b x := by
  subst hd
  have hok := C70_init_delta_partial (mpfr_ok hP) rndU_r53 hrho hg hrel hone
  obtain ⟨N, hN⟩ := C71_proved_double hP hD hind (mu := mu) (r := r)
    (dat := fun d => initDelta (mpfr P) prec rho d mu r r53) (sqRow := fun i => sqLen n (b i))
    (sq := fun d x => sqLen n (comb d b x)) ⟨rfl, rfl, rfl, hok, hthird, fun _ _ => rfl, fun _ => rfl⟩ hs
  refine ⟨N, fun fuel hf => ?_⟩
  rcases hN fuel hf with ⟨h, -⟩ | h
  · exact absurd h (not_lt.2 hr0)
  · exact h

/-- the conditions on the first bound can be computed -/
def startCheck (A : Arith) (ρ : ℚ) (q : Dat) (m : ℤ) : Bool :=
  match maxErrorSt A q (A.ru m) true with
  | none => false
  | some s => decide (∀ i, i < q.d → s.1 i < 2 ^ 53) && decide ((1 - loss ρ q.d) * s.2 ≤ loss ρ q.d * hu) &&
      decide (s.2 ≤ q.r 0)

theorem startCheck_sound {A : Arith} {ρ : ℚ} {q : Dat} {m : ℤ} (h : startCheck A ρ q m = true) :
    ∃ s, Start A ρ q m s ∧ s.2 ≤ q.r 0 := by
  rw [startCheck] at h
  split at h
  · cases h
  rename_i s hs
  rw [Bool.and_eq_true, Bool.and_eq_true] at h
  exact ⟨s, ⟨hs, of_decide_eq_true h.1.1, by rw [mul_one]; exact of_decide_eq_true h.1.2⟩, of_decide_eq_true h.2⟩

/-! ## Examples -/

/-- the basis `(3, 0), (2, 1)`; its shortest vectors are `± (1, -1)` -/
def exBZ : Mat ℤ := fun i j => if i = 0 then (if j = 0 then 3 else 0) else if i = 1 then (if j = 0 then 2 else 1) else 0

/-- its GSO data; `mu` is rounded -/
def exMu : ℕ → ℕ → ℚ := fun _ _ => rp rhe 80 (2 / 3)

def exR : ℕ → ℚ := fun i => if i = 0 then 9 else 1

def exDat (d : ℕ) : Dat := initDelta (mpfr 80) 80 10 d exMu exR r53

/-- what `provedR` returns for the example -/
def exRun (fuel : ℕ) : Option (ℤ × ℤ) :=
  match provedR (mpfr 80) r53 toDoubleUp 2 exMu exR exDat (fun i => sqLen 2 (exBZ i)) (fun d x => sqLen 2 (comb d exBZ x)) fuel with
  | .done (some x) => some (x 0, x 1)
  | _ => none

theorem exBZ_mu : muS 2 (basisQ exBZ) 1 0 = 2 / 3 := by decide +kernel
theorem exBZ_r0 : normStar 2 (basisQ exBZ) 0 = 9 := by decide +kernel
theorem exBZ_r1 : normStar 2 (basisQ exBZ) 1 = 1 := by decide +kernel

theorem exBZ_indep : Indep 2 2 (basisQ exBZ) := indep_of_pos (by decide +kernel)

theorem exBZ_r (i : ℕ) (hi : i < 2) : normStar 2 (basisQ exBZ) i = exR i := by
  rcases (by omega : i = 0 ∨ i = 1) with rfl | rfl
  · rw [exBZ_r0]; rfl
  · rw [exBZ_r1]; rfl

/-- the hypotheses of C71 are met: the run returns a shortest vector -/
theorem ex_proved : ∃ N, ∀ fuel, N ≤ fuel → ∃ x, provedR (mpfr 80) r53 toDoubleUp 2 exMu exR exDat
    (fun i => sqLen 2 (exBZ i)) (fun d x => sqLen 2 (comb d exBZ x)) fuel = .done (some x) ∧ IsShortest 2 2 exBZ x := by
  obtain ⟨s, hs, hr⟩ := startCheck_sound (A := mpfr 80) (ρ := 1 - 1 / 2 ^ 80) (q := exDat 2) (m := 5) (by decide +kernel)
  have hd : 2 = lastUseful exR (2 - 1) := by decide +kernel
  refine C71_proved_double_init (by norm_num) (by norm_num) exBZ_indep (prec := 80) (rho := 10) (by norm_num) hd ?_ ?_ ?_ ?_
    (s := s) ?_ hr
  · refine ⟨fun i hi => ?_, fun i _ => ?_, fun i hi => ?_, fun i j h1 h2 => ?_⟩
    · exact exBZ_indep.pos i hi
    · rw [exR]; split_ifs <;> norm_num
    · rw [exBZ_r i hi, sub_self, abs_zero]
      have : 0 < exR i := by rw [exR]; split_ifs <;> norm_num
      have : (0 : ℚ) < 1 - 1 / 2 ^ 80 := by norm_num
      positivity
    · obtain rfl : i = 0 := by omega
      obtain rfl : j = 1 := by omega
      rw [exBZ_mu]
      decide +kernel
  · decide +kernel
  · intro i j _ _
    change |rp rhe 80 (2 / 3)| ≤ 1
    decide +kernel
  · intro i hi
    rw [exBZ_r i hi, sub_self, abs_zero]
    have : 0 < exR i := by rw [exR]; split_ifs <;> norm_num
    positivity
  · have : getBasisMin (fun i => sqLen 2 (exBZ i)) 0 2 = 5 := by decide +kernel
    rw [this]
    exact hs

/-- the vector is not a row of the basis -/
theorem ex_proved_run : exRun 40 = some (-1, 1) := by decide +kernel

/-- **C71 needs more than the comment says**: "assuming that the error on rdiag's is less than 100%" (svpcvp.cpp:28) the
vectors that `last_useful_index` drops may be needed: for `(2, 0), (0, 1)` and the values 2/5 and 1 of `r` (errors 90% and
0%) the second row is dropped, though it is the shortest vector. -/
theorem C71_useful_index : ∃ (b : Mat ℤ) (r : ℕ → ℚ),
    (∀ i, i < 2 → 0 < r i ∧ |r i - normStar 2 (basisQ b) i| < normStar 2 (basisQ b) i) ∧
    ∀ x : ℕ → ℤ, ¬ IsShortest 2 2 b (fun i => if i < lastUseful r (2 - 1) then x i else 0) := by
  let b : Mat ℤ := fun i j => if i = 0 then (if j = 0 then 2 else 0) else if i = 1 then (if j = 1 then 1 else 0) else 0
  let r : ℕ → ℚ := fun i => if i = 0 then 2 / 5 else 1
  refine ⟨b, r, by decide +kernel, fun x h => ?_⟩
  have hl : lastUseful r (2 - 1) = 1 := by decide +kernel
  rw [hl] at h
  obtain ⟨⟨c, hc, h1⟩, h2⟩ := h
  have h3 := h2 (unit 1) ⟨1, by norm_num, by decide +kernel⟩
  have h4 : sqLen 2 (comb 2 b (unit 1)) = 1 := by decide +kernel
  rw [h4] at h3
  have h5 : sqLen 2 (comb 2 b fun i => if i < 1 then x i else 0) = (x 0 * 2) ^ 2 := by
    simp [sqLen, comb, Finset.sum_range_succ, b]
  rw [h5] at h3
  have h6 : x 0 ≠ 0 := by
    intro h0
    apply h1
    simp [comb, Finset.sum_range_succ, h0]
  have h7 : 1 ≤ x 0 ^ 2 := by
    have := pow_pos (abs_pos.2 h6) 2
    rw [sq_abs] at this
    omega
  nlinarith

end SVP
end Fplll

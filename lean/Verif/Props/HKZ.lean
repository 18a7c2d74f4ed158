import Verif.Proofs.HkzExact
import Verif.Proofs.BKZEnum
import Verif.Proofs.LastRow
import Verif.Props.BKZSvp
import Verif.Props.LLLExact

/-!
# C57: HKZ reduction in exact arithmetic

`BKZReduction::bkz()` with a block size of at least the number of rows (this is what `hkz_reduction`, bkz.cpp:946-955, runs), on
exact numbers, with fplll's own enumeration.
-/

namespace Fplll

open Spec GSO LLL BKZ

/-- `b*_k` is a shortest non-zero vector of the projection of the lattice of the first `e` rows, for each `k < e` -/
def ShortestProjections (n e : ℕ) (b : ℕ → ℕ → ℤ) : Prop :=
  ∀ k < e, ∀ v : ℕ → ℤ, InPre n e b v → 0 < distSq n (toQ b) k (vecQ v) → normStar n (toQ b) k ≤ distSq n (toQ b) k (vecQ v)

/-- the same up to a factor -/
def ShortestUpTo (δ : ℚ) (n e : ℕ) (b : ℕ → ℕ → ℤ) : Prop :=
  ∀ k < e, ∀ v : ℕ → ℤ, InPre n e b v → 0 < distSq n (toQ b) k (vecQ v) → δ * normStar n (toQ b) k < distSq n (toQ b) k (vecQ v)

/-- Hermite–Korkine–Zolotarev reduced, with a bound `η` for the size reduction -/
def HkzReduced (n e : ℕ) (b : ℕ → ℕ → ℤ) (η : ℚ) : Prop := SizeReduced n e (toQ b) η ∧ ShortestProjections n e b

/-- the parameters of such a run: exact LLL with parameters `δl`, `η`, no strategies, one enumeration for each block (`PruningParams()` has
success probability 1), enumeration radius `rad · r(kappa, kappa)`, plain BKZ -/
structure HkzRun {D : Type} (δl η rad : ℚ) (c : SvpCfg Exact) (o : Orc Exact) (cfg : Cfg D) (e : ℕ) : Prop where
  lll : ∃ sg er, c.lll = mkCfg (some δl) (some η) sg er
  fuel : 2 ≤ c.fuel
  eta : 1 / 2 ≤ η
  runs : Runs rad o
  strategies : ∀ bs, o.preproc bs = []
  more : ∀ t, o.more t 0 = true
  sd : cfg.sd = false
  sld : cfg.sld = false
  noAbort : cfg.autoAbort = false
  bs : (e : ℤ) ≤ cfg.blockSize

namespace BKZ

theorem numRows_eq (s : GSO Exact) {d e : ℕ} (hed : e ≤ d) (hz : ∀ i, e ≤ i → i < d → ∀ k < s.nCols, s.b i k = 0) (hind : Indep e s.nCols (toQ s.b)) :
    numRows s d = e := by
  induction d with
  | zero => rw [numRows]; omega
  | succ d ih =>
    rw [numRows]
    rcases Nat.lt_or_ge e (d + 1) with hlt | hge
    · rw [if_pos (by unfold rowIsZero; rw [decide_eq_true_iff]; exact hz d (by omega) (by omega))]
      exact ih (by omega) (fun i h1 h2 => hz i h1 (by omega))
    · obtain rfl : e = d + 1 := by omega
      rw [if_neg]
      intro h
      have hp := hind.pos d (by omega)
      have hzz : ∀ c < s.nCols, s.b d c = 0 := by simpa [rowIsZero] using h
      rw [← distSq_row] at hp
      have h2 := hp.trans_le (distSq_anti (Nat.zero_le d) _)
      unfold distSq spanSq at h2
      rw [dotQ_zero_right _ (fun c hc => by unfold toQ; rw [hzz c hc]; simp)] at h2
      simp at h2

theorem pcfg_mkCfg {δl η δ : ℚ} (sg er : Bool) (h0 : 0 ≤ η) (h : δl ≤ δ) : PCfg (mkCfg (some δl : Exact) (some η) sg er) η (if sg then δl - η * η else δl) δ where
  eta := rfl
  thrE := by cases sg <;> rfl
  eta0 := h0
  prot := by cases sg <;> simp [mkCfg] <;> nlinarith

end BKZ

/-- a `δ` close to 1 is enough -/
theorem shortest_of_upTo {n e : ℕ} {b : ℕ → ℕ → ℤ} {δ0 : ℚ} (h0 : δ0 < 1) (h : ∀ δ, δ0 ≤ δ → δ < 1 → ShortestUpTo δ n e b) : ShortestProjections n e b := by
  intro k hk v hv hp
  by_contra hlt
  push Not at hlt
  have hr : 0 < normStar n (toQ b) k := hp.trans hlt
  have hq : distSq n (toQ b) k (vecQ v) / normStar n (toQ b) k < 1 := by rw [div_lt_one hr]; exact hlt
  have := h _ (le_max_left δ0 _) (max_lt h0 hq) k hk v hv hp
  have h2 : distSq n (toQ b) k (vecQ v) ≤ max δ0 (distSq n (toQ b) k (vecQ v) / normStar n (toQ b) k) * normStar n (toQ b) k := by
    calc _ = distSq n (toQ b) k (vecQ v) / normStar n (toQ b) k * normStar n (toQ b) k := by rw [div_mul_cancel₀ _ hr.ne']
      _ ≤ _ := mul_le_mul_of_nonneg_right (le_max_right _ _) hr.le
  linarith

section
variable {D : Type} [LinearOrder D] [OrderTop D]

/-- **C57 (with a factor).**  `b` has `e ≥ 1` independent rows followed by zero rows; a new object is made for it and one tour is run with a block size
of at least `e` and parameters `δl ≤ δ ≤ rad`, `δ < 1` (BKZ with `-d δ` has `δl = rad = δ`).  If the run ends normally, the first `e` rows generate the same lattice, and for each `k < e` no vector of the lattice has
a projection orthogonal to the first `k` rows that is non-zero and of squared length at most `δ · r(k, k)`; the rows but the last are size-reduced, and the last one with respect to the
one before it. -/
theorem C57_hkz_delta {d n : ℕ} (hn : 1 ≤ n) (ig wu wi fl : Bool) (b u v jz : Mat ℤ) (jf : Mat Exact) {e : ℕ} (he : 1 ≤ e) (hed : e ≤ d)
    (hz : ∀ i, e ≤ i → i < d → ∀ k < n, b i k = 0) (hind : Indep e n (toQ b)) {δl η rad δ : ℚ} (h1 : δl ≤ δ) (h2 : δ ≤ rad) (h3 : δ < 1) (h4 : 0 ≤ rad)
    {c : SvpCfg Exact} {o : Orc Exact} {cfg : Cfg D} (hr : HkzRun δl η rad c o cfg e) (timeUp : ℕ → W Exact → Bool) (slope : ℕ → W Exact → D)
    (depth inner fuel : ℕ) (w w' : W Exact) (hw : w.s = mk0 d n ig wu wi fl b u v jz jf) {st : Status} {m : ℕ} (hm : 1 ≤ m)
    (run : runBKZ c o cfg timeUp slope depth inner fuel w = .ok (st, m) w') :
    (∀ x, InPre n e w'.s.b x ↔ InPre n e b x) ∧ ShortestUpTo δ n e w'.s.b ∧
    (∀ i < e - 1, ∀ j < i, |muS n (toQ w'.s.b) i j| ≤ η) ∧ (2 ≤ e → |muS n (toQ w'.s.b) (e - 1) (e - 2)| ≤ η) := by
  obtain ⟨hwf, hb, hu, hv, hd, hc, hg, hwu, hwi, hk, hl⟩ := mk0_wf d n ig wu wi fl b u v jz jf hn
  rw [← hw] at hwf hb hd hc hl
  obtain ⟨sg, er, hl'⟩ := hr.lll
  have hnum : numRows w.s w.s.d = e := numRows_eq w.s (by omega) (by rw [hd, hc, hb]; exact hz) (by rw [hc, hb]; exact hind)
  have := runBKZ_hkz c o (δ := δ) (η := η) (by rw [hl']; exact pcfg_mkCfg sg er (by linarith [hr.eta]) h1) h3 h2 (hr.runs.truthful h4) hr.strategies hr.more
    hr.eta hr.fuel cfg hr.sd hr.sld hr.noAbort timeUp slope depth inner fuel hwf (by rw [hw]; exact mk0_fresh d n ig wu wi fl b u v jz jf hn) hl
    (by omega) (by rw [hnum]; exact hr.bs) (by rw [hnum, hc, hb]; exact hind) hm run
  dsimp only at this
  rw [hnum, hc, hb] at this
  obtain ⟨a1, a2, a3, a4⟩ := this
  exact ⟨fun x => (a1 x).symm, a2, a3, a4⟩

/-- **C57.**  The same with `rad ≥ 1` and `δl < 1` (`hkz_reduction`: `rad = 1`, `δl = 0.99`): each Gram–Schmidt vector is a shortest non-zero vector of the projected lattice, so
(first rows of) the basis are Hermite–Korkine–Zolotarev reduced, up to the size reduction of the last row. -/
theorem C57_hkz_partial {d n : ℕ} (hn : 1 ≤ n) (ig wu wi fl : Bool) (b u v jz : Mat ℤ) (jf : Mat Exact) {e : ℕ} (he : 1 ≤ e) (hed : e ≤ d)
    (hz : ∀ i, e ≤ i → i < d → ∀ k < n, b i k = 0) (hind : Indep e n (toQ b)) {δl η rad : ℚ} (h1 : δl < 1) (h2 : 1 ≤ rad)
    {c : SvpCfg Exact} {o : Orc Exact} {cfg : Cfg D} (hr : HkzRun δl η rad c o cfg e) (timeUp : ℕ → W Exact → Bool) (slope : ℕ → W Exact → D)
    (depth inner fuel : ℕ) (w w' : W Exact) (hw : w.s = mk0 d n ig wu wi fl b u v jz jf) {st : Status} {m : ℕ} (hm : 1 ≤ m)
    (run : runBKZ c o cfg timeUp slope depth inner fuel w = .ok (st, m) w') :
    (∀ x, InPre n e w'.s.b x ↔ InPre n e b x) ∧ ShortestProjections n e w'.s.b ∧
    (∀ i < e - 1, ∀ j < i, |muS n (toQ w'.s.b) i j| ≤ η) ∧ (2 ≤ e → |muS n (toQ w'.s.b) (e - 1) (e - 2)| ≤ η) := by
  have K := fun δ (h : δl ≤ δ) (h' : δ < 1) => C57_hkz_delta hn ig wu wi fl b u v jz jf he hed hz hind h (by linarith) h' (by linarith) hr timeUp slope depth inner fuel w w' hw hm run
  obtain ⟨a1, -, a3, a4⟩ := K δl le_rfl h1
  exact ⟨a1, shortest_of_upTo h1 fun δ h h' => (K δ h h').2.1, a3, a4⟩

/-- the further parameters of the default configuration: LLL without the Siegel condition and BKZ without `-bounded`; the pruner's default asks for one enumeration for each block -/
structure HkzDefault {D : Type} (δl η : ℚ) (c : SvpCfg Exact) (o : Orc Exact) (cfg : Cfg D) : Prop where
  siegel : c.lll.siegel = false
  once : ∀ t it, 1 ≤ it → o.more t it = false
  bounded : cfg.bounded = false
  tame : Tame η δl

/-- all rows but the last, and the last one -/
theorem sizeReduced_of_last {n e : ℕ} {B : ℕ → ℕ → ℚ} {η : ℚ} (h1 : ∀ i < e - 1, ∀ j < i, |muS n B i j| ≤ η) (h2 : ∀ j < e - 1, |muS n B (e - 1) j| ≤ η) :
    SizeReduced n e B η := by
  intro i hi j hj
  rcases Nat.lt_or_ge i (e - 1) with h | h
  · exact h1 i h j hj
  · obtain rfl : i = e - 1 := by omega
    exact h2 j hj

/-- **C57 (BKZ with a full block).**  For default-like parameters (`Tame η δl`; `0.99` and `0.51` qualify) all rows are size-reduced, although the size reduction
at the end of `hkz` looks at one coefficient of the last row only: the others are small already. -/
theorem C57_hkz_delta_sr {d n : ℕ} (hn : 1 ≤ n) (ig wu wi fl : Bool) (b u v jz : Mat ℤ) (jf : Mat Exact) {e : ℕ} (he : 1 ≤ e) (hed : e ≤ d)
    (hz : ∀ i, e ≤ i → i < d → ∀ k < n, b i k = 0) (hind : Indep e n (toQ b)) {δl η rad δ : ℚ} (h1 : δl ≤ δ) (h2 : δ ≤ rad) (h3 : δ < 1) (h4 : 0 ≤ rad)
    {c : SvpCfg Exact} {o : Orc Exact} {cfg : Cfg D} (hr : HkzRun δl η rad c o cfg e) (hdef : HkzDefault δl η c o cfg) (timeUp : ℕ → W Exact → Bool) (slope : ℕ → W Exact → D)
    (depth inner fuel : ℕ) (w w' : W Exact) (hw : w.s = mk0 d n ig wu wi fl b u v jz jf) {st : Status} {m : ℕ} (hm : 1 ≤ m)
    (run : runBKZ c o cfg timeUp slope depth inner fuel w = .ok (st, m) w') :
    (∀ x, InPre n e w'.s.b x ↔ InPre n e b x) ∧ ShortestUpTo δ n e w'.s.b ∧ SizeReduced n e (toQ w'.s.b) η := by
  obtain ⟨a1, a2, a3, -⟩ := C57_hkz_delta hn ig wu wi fl b u v jz jf he hed hz hind h1 h2 h3 h4 hr timeUp slope depth inner fuel w w' hw hm run
  refine ⟨a1, a2, sizeReduced_of_last a3 ?_⟩
  obtain ⟨hwf, hb, hu, hv, hd, hc, hg, hwu, hwi, hk, hl⟩ := mk0_wf d n ig wu wi fl b u v jz jf hn
  rw [← hw] at hwf hb hd hc hl
  obtain ⟨sg, er, hl'⟩ := hr.lll
  have hsg : sg = false := by have := hdef.siegel; rw [hl'] at this; exact this
  subst hsg
  have hη0 : 0 ≤ η := by linarith [hr.eta]
  have hnum : numRows w.s w.s.d = e := numRows_eq w.s (by omega) (by rw [hd, hc, hb]; exact hz) (by rw [hc, hb]; exact hind)
  have hpc := pcfg_mkCfg (δl := δl) (δ := δ) false er hη0 h1
  have hxc := mkCfg_xcfg (δ := δl) hη0 (by have := hdef.tame.c; linarith) false er
  rw [← hl'] at hpc hxc
  have := runBKZ_last c o (δ := δ) (η := η) hdef.tame hpc hxc hdef.siegel h3 h2 (hr.runs.truthful h4) hr.strategies hr.more hdef.once
    hr.fuel cfg hr.sd hr.sld hr.noAbort hdef.bounded timeUp slope depth inner fuel hwf (by rw [hw]; exact mk0_fresh d n ig wu wi fl b u v jz jf hn) hl
    (by omega) (by rw [hnum]; exact hr.bs) (by rw [hnum, hc, hb]; exact hind) hm run
  rwa [hnum, hc] at this

/-- **C57.**  `hkz_reduction` (`rad = 1`, LLL with `0.99` and `0.51`) in exact arithmetic: if it ends normally, the first `e` rows are a basis of the same lattice and are Hermite–Korkine–Zolotarev
reduced. -/
theorem C57_hkz {d n : ℕ} (hn : 1 ≤ n) (ig wu wi fl : Bool) (b u v jz : Mat ℤ) (jf : Mat Exact) {e : ℕ} (he : 1 ≤ e) (hed : e ≤ d)
    (hz : ∀ i, e ≤ i → i < d → ∀ k < n, b i k = 0) (hind : Indep e n (toQ b)) {δl η rad : ℚ} (h1 : δl < 1) (h2 : 1 ≤ rad)
    {c : SvpCfg Exact} {o : Orc Exact} {cfg : Cfg D} (hr : HkzRun δl η rad c o cfg e) (hdef : HkzDefault δl η c o cfg) (timeUp : ℕ → W Exact → Bool) (slope : ℕ → W Exact → D)
    (depth inner fuel : ℕ) (w w' : W Exact) (hw : w.s = mk0 d n ig wu wi fl b u v jz jf) {st : Status} {m : ℕ} (hm : 1 ≤ m)
    (run : runBKZ c o cfg timeUp slope depth inner fuel w = .ok (st, m) w') :
    (∀ x, InPre n e w'.s.b x ↔ InPre n e b x) ∧ HkzReduced n e w'.s.b η := by
  obtain ⟨a1, a2, -, -⟩ := C57_hkz_partial hn ig wu wi fl b u v jz jf he hed hz hind h1 h2 hr timeUp slope depth inner fuel w w' hw hm run
  exact ⟨a1, (C57_hkz_delta_sr hn ig wu wi fl b u v jz jf he hed hz hind le_rfl (by linarith) h1 (by linarith) hr hdef timeUp slope depth inner fuel w w' hw hm run).2.2, a2⟩

/-- the defaults of `hkz_reduction` -/
theorem tame_default : Tame (51 / 100) (99 / 100) := ⟨by norm_num, by norm_num, by norm_num, by norm_num, by norm_num⟩

end

/-! ## Concrete cases -/

open Classical in
/-- no strategies; the enumeration is fplll's (the fuel only helps to compute) -/
noncomputable def enumOrc (rad : ℚ) (fuel : ℕ) : Orc Exact :=
  { rnd := id
    enum := fun _ k d _ s => match enumBlock rad s k.toNat d.toNat fuel with
      | some r => r
      | none => if h : ∃ r, ∃ fuel, enumBlock rad s k.toNat d.toNat fuel = some r then h.choose else none
    more := fun _ it => decide (it = 0), maxIter := fun _ => 100, preproc := fun _ => [], noProgress := fun _ => true }

theorem enumOrc_runs {rad : ℚ} (h : 0 ≤ rad) (fuel : ℕ) : Runs rad (enumOrc rad fuel) := by
  intro t k d s hs hd1 hd hind hv
  obtain ⟨r, N, hN⟩ := enumBlock_ends h hs hd1 hd hind hv
  unfold enumOrc
  simp only [Int.toNat_natCast]
  cases h0 : enumBlock rad s k d fuel with
  | some r => exact ⟨fuel, by rw [h0]⟩
  | none =>
    have hex : ∃ r, ∃ fuel, enumBlock rad s k d fuel = some r := ⟨r, N, hN N le_rfl⟩
    obtain ⟨f', hf⟩ := hex.choose_spec
    refine ⟨f', ?_⟩
    simp only
    rw [dif_pos hex]
    exact hf

/-- `(100, 0, 0), (40, 200, 0), (-30, 101, 141)` -/
def lastB : Mat ℤ := fun i j =>
  match i, j with
  | 0, 0 => 100
  | 1, 0 => 40
  | 1, 1 => 200
  | 2, 0 => -30
  | 2, 1 => 101
  | 2, 2 => 141
  | _, _ => 0

def lastObj : GSO Exact := mk0 3 3 false false false false lastB idMat idMat (fun _ _ => 0) (fun _ _ => none)

/-- BKZ with block size 3; `-d δ` -/
noncomputable def lastRun (δl rad : ℚ) : Out (W Exact) (Status × ℕ) :=
  runBKZ ⟨mkCfg (some δl) (some (51 / 100)) false false, 20, 20, 1⟩ (enumOrc rad 200) (exBkz 3) (fun _ _ => false) (fun _ _ => ⊤) 2 20 20
    ⟨lastObj, 0, 0, false⟩

def rows3 (m : Out (W Exact) (Status × ℕ)) : List ℤ :=
  [m.state.s.b 0 0, m.state.s.b 0 1, m.state.s.b 0 2, m.state.s.b 1 0, m.state.s.b 1 1, m.state.s.b 1 2, m.state.s.b 2 0, m.state.s.b 2 1, m.state.s.b 2 2]

theorem lastRun_out : ∃ w, lastRun (3 / 4) (3 / 4) = .ok (.success, 1) w := by
  have h : (match lastRun (3 / 4) (3 / 4) with | .ok a _ => decide (a = (.success, 1)) | _ => false) = true := by decide +kernel
  generalize lastRun (3 / 4) (3 / 4) = m at h
  cases m <;> simp_all

theorem last_hkzRun {δl rad : ℚ} (h : 0 ≤ rad) :
    HkzRun δl (51 / 100) rad ⟨mkCfg (some δl) (some (51 / 100)) false false, 20, 20, 1⟩ (enumOrc rad 200) (exBkz 3) 3 where
  lll := ⟨_, _, rfl⟩
  fuel := by norm_num
  eta := by norm_num
  runs := enumOrc_runs h 200
  strategies _ := rfl
  more _ := rfl
  sd := rfl
  sld := rfl
  noAbort := rfl
  bs := by simp [exBkz]

theorem last_indep : Indep 3 3 (toQ lastB) := by
  intro a h
  have h0 := h 0 (by norm_num)
  have h1 := h 1 (by norm_num)
  have h2 := h 2 (by norm_num)
  simp only [lc, toQ, lastB, Finset.sum_range_succ, Finset.sum_range_zero] at h0 h1 h2
  norm_num at h0 h1 h2
  intro i hi
  interval_cases i <;> linarith

/-- **C57 fails for the last row.**  `hkz` ends with `size_reduction(max_row - 1, max_row, max_row - 2)` (bkz.cpp:438), which reduces the last row with
respect to the row before it only, and may spoil its other coefficients.  The basis `(100, 0, 0), (40, 200, 0), (-30, 101, 141)` is LLL-reduced with `δ = 0.75`, `η = 0.51`.  BKZ with block size 3 and
`δ = 0.75` ends after one tour with success, and the last row has `μ(2, 0) = 0.7`. -/
theorem C57_last_row_not_size_reduced :
    LLLReduced 3 3 (toQ lastB) (3 / 4) (51 / 100) ∧
    ∃ w', lastRun (3 / 4) (3 / 4) = .ok (.success, 1) w' ∧ muS 3 (toQ w'.s.b) 2 0 = 7 / 10 := by
  refine ⟨⟨fun i hi j hj => ?_, fun i hi => ?_⟩, ?_⟩
  · interval_cases i <;> interval_cases j <;> decide +kernel
  · obtain rfl | rfl : i = 0 ∨ i = 1 := by omega
    all_goals decide +kernel
  obtain ⟨w, hw⟩ := lastRun_out
  refine ⟨w, hw, ?_⟩
  have : w = (lastRun (3 / 4) (3 / 4)).state := by rw [hw]; rfl
  rw [this]
  decide +kernel

/-- the rows of the result -/
example : rows3 (lastRun (3 / 4) (3 / 4)) = [100, 0, 0, 30, -99, 141, 70, 101, 141] := by decide +kernel

/-- this run meets the hypotheses of `C57_hkz_delta` -/
example : ∃ w', lastRun (3 / 4) (3 / 4) = .ok (.success, 1) w' ∧ ShortestUpTo (3 / 4) 3 3 w'.s.b := by
  obtain ⟨w, hw⟩ := lastRun_out
  exact ⟨w, hw, (C57_hkz_delta (by norm_num) false false false false lastB idMat idMat _ _ (by norm_num) le_rfl (fun i h1 h2 => by omega) last_indep le_rfl le_rfl
    (by norm_num) (by norm_num) (last_hkzRun (by norm_num)) _ _ _ _ _ _ _ rfl le_rfl hw).2.1⟩

/-- the default parameters on the same basis: `C57_hkz` applies; its last row is reduced -/
example : ∃ w', lastRun (99 / 100) 1 = .ok (.success, 1) w' ∧ HkzReduced 3 3 w'.s.b (51 / 100) := by
  have h : (match lastRun (99 / 100) 1 with | .ok a _ => decide (a = (.success, 1)) | _ => false) = true := by decide +kernel
  have h' : ∃ w', lastRun (99 / 100) 1 = .ok (.success, 1) w' := by
    generalize lastRun (99 / 100) 1 = m at h
    cases m <;> simp_all
  obtain ⟨w, hw⟩ := h'
  exact ⟨w, hw, (C57_hkz (by norm_num) false false false false lastB idMat idMat _ _ (by norm_num) le_rfl (fun i h1 h2 => by omega) last_indep (by norm_num) le_rfl
    (last_hkzRun (by norm_num)) ⟨rfl, fun t it h => by simp [enumOrc]; omega, rfl, tame_default⟩ _ _ _ _ _ _ _ rfl le_rfl hw).2⟩

example : rows3 (lastRun (99 / 100) 1) = [100, 0, 0, -30, 99, -141, -30, 101, 141] := by decide +kernel

end Fplll

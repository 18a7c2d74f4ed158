import Verif.Props.HKZ
import Verif.Proofs.CleanAll

/-!
# C58: BKZ stops when the basis is BKZ-reduced

`BKZReduction::bkz()` stops with success after a tour that was "clean": for no block did `r(kappa, kappa)` become smaller.  Is the basis BKZ-reduced then?  In exact arithmetic, with fplll's own
enumeration, and a block size smaller than the number of rows.
-/

namespace Fplll

open Spec GSO LLL BKZ

/-- BKZ-reduced with block size `β` and factor `δ`: LLL-reduced, and in each block the first vector is shortest up to the factor (all lengths after projection orthogonally to the rows before the block) -/
structure BkzReduced (δl η δ : ℚ) (β n e : ℕ) (b : ℕ → ℕ → ℤ) : Prop where
  lll : LLLReduced n e (toQ b) δl η
  block : ∀ k < e, ∀ v : ℕ → ℤ, InPre n (min (k + β) e) b v → 0 < distSq n (toQ b) k (vecQ v) → δ * normStar n (toQ b) k < distSq n (toQ b) k (vecQ v)

/-- the parameters of such a run: exact LLL with `δl`, `η`, without Siegel's condition and early reduction, no strategies, one enumeration for each block with radius `rad · r(kappa, kappa)`, plain
BKZ without auto-abort, `β < e` -/
structure BkzRun {D : Type} (δl η rad : ℚ) (β : ℕ) (c : SvpCfg Exact) (o : Orc Exact) (cfg : Cfg D) (e : ℕ) : Prop where
  lll : c.lll = mkCfg (some δl) (some η) false false
  fuel : 2 ≤ c.fuel
  eta : 0 ≤ η
  rad0 : 0 ≤ rad
  rad1 : rad < 1
  runs : Runs rad o
  strategies : ∀ bs, o.preproc bs = []
  more : ∀ t, o.more t 0 = true
  once : ∀ t it, 1 ≤ it → o.more t it = false
  sd : cfg.sd = false
  sld : cfg.sld = false
  noAbort : cfg.autoAbort = false
  bs : cfg.blockSize = β
  lt : β < e

theorem block_last {n e β : ℕ} {δ : ℚ} (hδ : δ < 1) {b : ℕ → ℕ → ℤ} (h : ∀ k < e - 1, MinProj n δ k (min (k + β) e) b) (hβ : 1 ≤ β) : ∀ k < e, MinProj n δ k (min (k + β) e) b := by
  intro k hk
  rcases Nat.lt_or_ge k (e - 1) with hlt | hge
  · exact h k hlt
  · rw [min_eq_right (by omega), show e = k + 1 by omega]
    exact minProj_last hδ b

section
variable {D : Type} [LinearOrder D] [OrderTop D]

/-- **C58 (first tour).**  `b` has `e` independent rows followed by zero rows and is LLL-reduced (with the parameters of the LLL object of BKZ).  If a run with block size `2 ≤ β < e` ends normally after at least one
tour, then: it ends with success after the first tour iff `b` is BKZ-reduced for block size `β`, and in this case the basis is unchanged. -/
theorem C58_first_tour {d n : ℕ} (hn : 1 ≤ n) (ig wu wi fl : Bool) (b u v jz : Mat ℤ) (jf : Mat Exact) {e : ℕ} (hed : e ≤ d)
    (hz : ∀ i, e ≤ i → i < d → ∀ k < n, b i k = 0) (hind : Indep e n (toQ b)) {δl η rad : ℚ} {β : ℕ} (hβ : 2 ≤ β)
    {c : SvpCfg Exact} {o : Orc Exact} {cfg : Cfg D} (hr : BkzRun δl η rad β c o cfg e) (hlll : LLLReduced n e (toQ b) δl η)
    (timeUp : ℕ → W Exact → Bool) (slope : ℕ → W Exact → D)
    (depth inner fuel : ℕ) (w w' : W Exact) (hw : w.s = mk0 d n ig wu wi fl b u v jz jf) {st : Status} {m : ℕ} (hm : 1 ≤ m)
    (run : runBKZ c o cfg timeUp slope (depth + 1) inner fuel w = .ok (st, m) w') :
    ((st = .success ∧ m = 1) ↔ BkzReduced δl η rad β n e b) ∧ (st = .success ∧ m = 1 → w'.s.b = b) := by
  obtain ⟨hwf, hb, hu, hv, hd, hc, hg, hwu, hwi, hk, hl⟩ := mk0_wf d n ig wu wi fl b u v jz jf hn
  rw [← hw] at hwf hb hd hc hl
  have hnum : numRows w.s w.s.d = e := numRows_eq w.s (by omega) (by rw [hd, hc, hb]; exact hz) (by rw [hc, hb]; exact hind)
  have hpc := pcfg_mkCfg (δl := δl) (δ := δl) false false hr.eta le_rfl
  rw [← hr.lll] at hpc
  have := runBKZ_clean c o hpc (by rw [hr.lll]; rfl) (by have := hr.fuel; omega) hr.rad1 (hr.runs.truthful hr.rad0) hr.strategies hr.more hr.once cfg hr.sd hr.sld hr.noAbort timeUp slope
    depth inner fuel hwf (by rw [hw]; exact mk0_fresh d n ig wu wi fl b u v jz jf hn) hl (bs := β) hr.bs (by rw [hnum]; exact hr.lt) (by rw [hnum, hc, hb]; exact hind)
    (by rw [hnum, hc, hb]; exact LLLReduced.red hlll (by rw [hr.lll]; rfl)) hm run
  dsimp only at this
  rw [hnum, hc, hb, Prod.mk.injEq] at this
  obtain ⟨a1, a2⟩ := this
  refine ⟨a1.trans ⟨fun h => ⟨hlll, block_last hr.rad1 h (by omega)⟩, fun h k hk => h.block k (by omega)⟩, a2⟩

/-- **C58 (any number of tours).**  For equal parameters, `rad = δl`, and more than one tour this is false (`C58_not_reduced_default`).  If the parameter of LLL is somewhat larger than that of the enumeration radius (`Gap`: for `η = 0.51` and `δl = 0.99`, `rad < 0.97`), then every run that ends with success is BKZ-reduced and
generates the same lattice: after any number of tours, if the input was LLL-reduced; after at least two, for any input. -/
theorem C58_success_partial {d n : ℕ} (hn : 1 ≤ n) (ig wu wi fl : Bool) (b u v jz : Mat ℤ) (jf : Mat Exact) {e : ℕ} (hed : e ≤ d)
    (hz : ∀ i, e ≤ i → i < d → ∀ k < n, b i k = 0) (hind : Indep e n (toQ b)) {δl η rad : ℚ} {β : ℕ} (hβ : 2 ≤ β)
    {c : SvpCfg Exact} {o : Orc Exact} {cfg : Cfg D} (hr : BkzRun δl η rad β c o cfg e) (hbd : cfg.bounded = false) (hg : Gap η δl rad)
    (timeUp : ℕ → W Exact → Bool) (slope : ℕ → W Exact → D)
    (depth inner fuel : ℕ) (w w' : W Exact) (hw : w.s = mk0 d n ig wu wi fl b u v jz jf) {m : ℕ} (hm : 1 ≤ m)
    (hlll : 2 ≤ m ∨ LLLReduced n e (toQ b) δl η)
    (run : runBKZ c o cfg timeUp slope (depth + 1) inner fuel w = .ok (.success, m) w') :
    (∀ x, InPre n e w'.s.b x ↔ InPre n e b x) ∧ BkzReduced δl η rad β n e w'.s.b := by
  obtain ⟨hwf, hb, hu, hv, hd, hc, hg', hwu, hwi, hk, hl⟩ := mk0_wf d n ig wu wi fl b u v jz jf hn
  rw [← hw] at hwf hb hd hc hl
  have hnum : numRows w.s w.s.d = e := numRows_eq w.s (by omega) (by rw [hd, hc, hb]; exact hz) (by rw [hc, hb]; exact hind)
  have hpc := pcfg_mkCfg (δl := δl) (δ := δl) false false hr.eta le_rfl
  have hxc := mkCfg_xcfg (δ := δl) hr.eta (by have := hg.b; have := hr.rad0; linarith) false false
  rw [← hr.lll] at hpc hxc
  have := runBKZ_success c o hg hpc hxc (by rw [hr.lll]; rfl) (by rw [hr.lll]; rfl) hr.fuel (hr.runs.truthful hr.rad0) hr.strategies hr.more hr.once cfg hr.sd hr.sld hr.noAbort hbd timeUp slope
    depth inner fuel hwf (by rw [hw]; exact mk0_fresh d n ig wu wi fl b u v jz jf hn) hl (bs := β) hr.bs (by rw [hnum]; exact hr.lt) (by rw [hnum, hc, hb]; exact hind) hm
    (by rw [hnum, hc, hb]; exact hlll) run
  dsimp only at this
  rw [hnum, hc, hb] at this
  obtain ⟨a1, a2, a3⟩ := this
  exact ⟨fun x => (a1 x).symm, a2, block_last hr.rad1 a3 (by omega)⟩

end

/-- parameters that qualify -/
theorem gap_example : Gap (51 / 100) (99 / 100) (24 / 25) := ⟨by norm_num, by norm_num, by norm_num, by norm_num, by norm_num⟩

/-! ## Without LLL before -/

/-- `(-12, 3, -3, -8), (-13, -7, -13, -15), (-19, 14, -7, 1), (4, 4, -12, -6)` -/
def rawB : Mat ℤ := fun i j =>
  (([[-12, 3, -3, -8], [-13, -7, -13, -15], [-19, 14, -7, 1], [4, 4, -12, -6]] : List (List ℤ)).getD i []).getD j 0

/-- BKZ with block size `bs` on `d` rows -/
noncomputable def cleanRun (d : ℕ) (bs : ℤ) (loops : ℤ) (δl rad : ℚ) (b : Mat ℤ) : Out (W Exact) (Status × ℕ) :=
  runBKZ ⟨mkCfg (some δl) (some (51 / 100)) false false, 20, 20, 1⟩ (enumOrc rad 200) (⟨bs, false, false, some loops, false, false, false, id, 5⟩ : Cfg (WithTop ℕ)) (fun _ _ => false) (fun _ _ => ⊤) 2 20 20
    ⟨mk0 d d false false false false b idMat idMat (fun _ _ => 0) (fun _ _ => none), 0, 0, false⟩

def rowsN (d : ℕ) (m : Out (W Exact) (Status × ℕ)) : List (List ℤ) := (List.range d).map fun i => (List.range d).map fun j => m.state.s.b i j

example : rowsN 4 (cleanRun 4 3 1 (99 / 100) (99 / 100) rawB) = [[-12, 3, -3, -8], [4, -2, -11, 10], [12, 3, 2, -8], [-1, -10, -10, -7]] := by decide +kernel

theorem cleanRun_out : ∃ w, cleanRun 4 3 9 (99 / 100) (99 / 100) rawB = .ok (.success, 1) w := by
  have h : (match cleanRun 4 3 9 (99 / 100) (99 / 100) rawB with | .ok a _ => decide (a = (.success, 1)) | _ => false) = true := by decide +kernel
  generalize cleanRun 4 3 9 (99 / 100) (99 / 100) rawB = m at h
  cases m <;> simp_all

theorem cleanRun_bkzRun {δl rad : ℚ} (h0 : 0 ≤ rad) (h1 : rad < 1) {β e : ℕ} (hlt : β < e) (loops : ℤ) :
    BkzRun δl (51 / 100) rad β ⟨mkCfg (some δl) (some (51 / 100)) false false, 20, 20, 1⟩ (enumOrc rad 200) (⟨β, false, false, some loops, false, false, false, id, 5⟩ : Cfg (WithTop ℕ)) e where
  lll := rfl
  fuel := by norm_num
  eta := by norm_num
  rad0 := h0
  rad1 := h1
  runs := enumOrc_runs h0 200
  strategies _ := rfl
  more _ := rfl
  once t it h := by simp [enumOrc]; omega
  sd := rfl
  sld := rfl
  noAbort := rfl
  bs := rfl
  lt := hlt

/-- **C58 fails without LLL before.**  With `BKZ_NO_LLL` (or a direct use of the class) the basis need not be LLL-reduced at the start; then a tour can be "clean" though it has changed the basis: LLL on a later block
changes rows of an earlier one, and only `r(kappa, kappa)` is looked at.  This run (`δ = 0.99`, block size 3) ends with success after one tour, and the third row is shorter than `0.99` times
the first one, although both are in the first block. -/
theorem C58_not_reduced_without_lll :
    ∃ w', cleanRun 4 3 9 (99 / 100) (99 / 100) rawB = .ok (.success, 1) w' ∧ w'.s.b ≠ rawB ∧ ¬ BkzReduced (99 / 100) (51 / 100) (99 / 100) 3 4 4 w'.s.b := by
  obtain ⟨w, hw⟩ := cleanRun_out
  refine ⟨w, hw, ?_, ?_⟩
  all_goals
    have : w = (cleanRun 4 3 9 (99 / 100) (99 / 100) rawB).state := by rw [hw]; rfl
    rw [this]
  · intro h
    have : (cleanRun 4 3 9 (99 / 100) (99 / 100) rawB).state.s.b 1 0 = 4 := by decide +kernel
    rw [h] at this
    revert this
    decide
  · intro h
    have h2 := h.block 0 (by norm_num) ((cleanRun 4 3 9 (99 / 100) (99 / 100) rawB).state.s.b 2) ⟨fun i => if i = 2 then 1 else 0, fun c _ => by
      simp [comb]⟩
    have e1 : distSq 4 (toQ (cleanRun 4 3 9 (99 / 100) (99 / 100) rawB).state.s.b) 0 (vecQ ((cleanRun 4 3 9 (99 / 100) (99 / 100) rawB).state.s.b 2)) = 221 := by decide +kernel
    have e2 : normStar 4 (toQ (cleanRun 4 3 9 (99 / 100) (99 / 100) rawB).state.s.b) 0 = 226 := by decide +kernel
    rw [e1, e2] at h2
    norm_num at h2

/-- `C58_success_partial` applies: two tours on this basis -/
def twoB : Mat ℤ := fun i j => (([[7, 1, 0], [1, 2, 0], [0, 1, 3]] : List (List ℤ)).getD i []).getD j 0

theorem two_indep : Indep 3 3 (toQ twoB) := by
  intro a h
  have h0 := h 0 (by norm_num)
  have h1 := h 1 (by norm_num)
  have h2 := h 2 (by norm_num)
  simp only [lc, toQ, twoB, Finset.sum_range_succ, Finset.sum_range_zero] at h0 h1 h2
  norm_num at h0 h1 h2
  intro i hi
  interval_cases i <;> linarith

example : ∃ w', cleanRun 3 2 9 (99 / 100) (24 / 25) twoB = .ok (.success, 2) w' ∧ BkzReduced (99 / 100) (51 / 100) (24 / 25) 2 3 3 w'.s.b := by
  have h : (match cleanRun 3 2 9 (99 / 100) (24 / 25) twoB with | .ok a _ => decide (a = (.success, 2)) | _ => false) = true := by decide +kernel
  have h' : ∃ w', cleanRun 3 2 9 (99 / 100) (24 / 25) twoB = .ok (.success, 2) w' := by
    generalize cleanRun 3 2 9 (99 / 100) (24 / 25) twoB = m at h
    cases m <;> simp_all
  obtain ⟨w, hw⟩ := h'
  exact ⟨w, hw, (C58_success_partial (by norm_num) false false false false twoB idMat idMat _ _ le_rfl (fun i h1 h2 => by omega) two_indep le_rfl
    (cleanRun_bkzRun (by norm_num) (by norm_num) (by norm_num) 9) rfl gap_example _ _ 1 _ _ _ w rfl (by norm_num) (.inl le_rfl) hw).2⟩

def oneB : Mat ℤ := fun i j => (([[2, 0, 0], [1, 2, 0], [0, 1, 3]] : List (List ℤ)).getD i []).getD j 0

theorem one_indep : Indep 3 3 (toQ oneB) := by
  intro a h
  have h0 := h 0 (by norm_num)
  have h1 := h 1 (by norm_num)
  have h2 := h 2 (by norm_num)
  simp only [lc, toQ, oneB, Finset.sum_range_succ, Finset.sum_range_zero] at h0 h1 h2
  norm_num at h0 h1 h2
  intro i hi
  interval_cases i <;> linarith

theorem one_lll : LLLReduced 3 3 (toQ oneB) (99 / 100) (51 / 100) := by
  refine ⟨fun i hi j hj => ?_, fun i hi => ?_⟩
  · interval_cases i <;> interval_cases j <;> decide +kernel
  · obtain rfl | rfl : i = 0 ∨ i = 1 := by omega
    all_goals decide +kernel

/-- an LLL-reduced basis whose first tour with block size 2 is clean, so it is BKZ-reduced -/
example : BkzReduced (99 / 100) (51 / 100) (99 / 100) 2 3 3 oneB := by
  have h : (match cleanRun 3 2 9 (99 / 100) (99 / 100) oneB with | .ok a _ => decide (a = (.success, 1)) | _ => false) = true := by decide +kernel
  have h' : ∃ w', cleanRun 3 2 9 (99 / 100) (99 / 100) oneB = .ok (.success, 1) w' := by
    generalize cleanRun 3 2 9 (99 / 100) (99 / 100) oneB = m at h
    cases m <;> simp_all
  obtain ⟨w, hw⟩ := h'
  exact (C58_first_tour (by norm_num) false false false false oneB idMat idMat _ _ le_rfl (fun i h1 h2 => by omega) one_indep le_rfl
    (cleanRun_bkzRun (by norm_num) (by norm_num) (by norm_num) 9) one_lll _ _ 1 _ _ _ w rfl (by norm_num) hw).1.1 ⟨rfl, rfl⟩

/-- one that is not BKZ-reduced, since its first tour is not clean (`lastB` is LLL-reduced with `0.75`, see C57; radius `0.9`) -/
example : ¬ BkzReduced (3 / 4) (51 / 100) (9 / 10) 2 3 3 lastB := by
  have h : (match cleanRun 3 2 9 (3 / 4) (9 / 10) lastB with | .ok a _ => decide (a = (.success, 2)) | _ => false) = true := by decide +kernel
  have h' : ∃ w', cleanRun 3 2 9 (3 / 4) (9 / 10) lastB = .ok (.success, 2) w' := by
    generalize cleanRun 3 2 9 (3 / 4) (9 / 10) lastB = m at h
    cases m <;> simp_all
  obtain ⟨w, hw⟩ := h'
  intro hb
  have := ((C58_first_tour (by norm_num) false false false false lastB idMat idMat _ _ le_rfl (fun i h1 h2 => by omega) last_indep le_rfl
    (cleanRun_bkzRun (by norm_num) (by norm_num) (by norm_num) 9) C57_last_row_not_size_reduced.1 _ _ 1 _ _ _ w rfl (by norm_num) hw).1.2 hb).2
  norm_num at this

end Fplll

import Verif.Props.Clean
import Verif.Proofs.BkzStop
import Verif.Props.BKZ

/-!
# C80: BKZ stops

Does `BKZReduction::bkz()` stop, without a limit on loops or time and without auto-abort?  In exact arithmetic, with fplll's own enumeration and a radius smaller than `r(kappa, kappa)`: yes.  "Stops" is said in terms of
the fuel of the model: from some amount on, the outcome is always the same and is not "stuck".
-/

namespace Fplll

open Spec GSO LLL BKZ

/-- the parameters of such a run: exact LLL with `1/2 ≤ η` and `δl < 1` (Lovász's condition or Siegel's, early reduction or not), no strategies, one enumeration for each block with radius `rad · r(kappa, kappa)`, `rad < 1` -/
structure StopRun (δl η rad : ℚ) (sg er : Bool) (c : SvpCfg Exact) (o : Orc Exact) : Prop where
  lll : c.lll = mkCfg (some δl) (some η) sg er
  fuel : 2 ≤ c.fuel
  eta : 1 / 2 ≤ η
  delta : δl < 1
  rad0 : 0 ≤ rad
  rad1 : rad < 1
  runs : Runs rad o
  strategies : ∀ bs, o.preproc bs = []
  more : ∀ t, o.more t 0 = true
  once : ∀ t it, 1 ≤ it → o.more t it = false

theorem StopRun.pcfg {δl η rad : ℚ} {sg er : Bool} {c : SvpCfg Exact} {o : Orc Exact} (h : StopRun δl η rad sg er c o) : ∃ thr, PCfg c.lll η thr δl := by
  rw [h.lll]
  exact ⟨_, pcfg_mkCfg sg er (by have := h.eta; linarith) le_rfl⟩

section
variable {D : Type} [LinearOrder D] [OrderTop D]

/-- **C80.**  `b` has `e ≥ 1` independent rows followed by zero rows.  A run of `bkz()` (not the SD variant, not slide reduction; any block size, any limits) stops: there is an amount of fuel from which on the outcome is always the same, either normal, and then
the first `e` rows generate the lattice they generated before, or an exception thrown because LLL or size reduction failed. -/
theorem C80_bkz_stops {d n : ℕ} (hn : 1 ≤ n) (ig wu wi fl : Bool) (b u v jz : Mat ℤ) (jf : Mat Exact) {e : ℕ} (he : 1 ≤ e) (hed : e ≤ d)
    (hz : ∀ i, e ≤ i → i < d → ∀ k < n, b i k = 0) (hind : Indep e n (toQ b)) {δl η rad : ℚ} {sg er : Bool}
    {c : SvpCfg Exact} {o : Orc Exact} (hr : StopRun δl η rad sg er c o) (cfg : Cfg D) (hsd : cfg.sd = false) (hsld : cfg.sld = false)
    (timeUp : ℕ → W Exact → Bool) (slope : ℕ → W Exact → D) (depth inner : ℕ) (w : W Exact) (hw : w.s = mk0 d n ig wu wi fl b u v jz jf) :
    ∃ N : ℕ,
      (∃ r w', (∀ m f, N ≤ m → N ≤ f → runBKZ { c with inner := m } o cfg timeUp slope (depth + 1) inner f w = .ok r w') ∧ ∀ x, InPre n e w'.s.b x ↔ InPre n e b x) ∨
      ∃ w', ∀ m f, N ≤ m → N ≤ f → runBKZ { c with inner := m } o cfg timeUp slope (depth + 1) inner f w = .thrown w' := by
  obtain ⟨hwf, hb, hu, hv, hd, hc, hg, hwu, hwi, hk, hl⟩ := mk0_wf d n ig wu wi fl b u v jz jf hn
  rw [← hw] at hwf hb hd hc hl
  have hnum : numRows w.s w.s.d = e := numRows_eq w.s (by omega) (by rw [hd, hc, hb]; exact hz) (by rw [hc, hb]; exact hind)
  obtain ⟨thr, hpc⟩ := hr.pcfg
  obtain ⟨N, h⟩ := runBKZ_ev c o hpc hr.delta hr.eta hr.fuel hr.rad1 (hr.runs.truthful hr.rad0) hr.strategies hr.more hr.once cfg hsd hsld timeUp slope depth inner hwf
    (by rw [hw]; exact mk0_fresh d n ig wu wi fl b u v jz jf hn) hl (by rw [hnum]; exact he) (by rw [hnum, hc, hb]; exact hind)
  refine ⟨N, ?_⟩
  rcases h with ⟨r, w', h1, h2⟩ | h
  · refine .inl ⟨r, w', h1, fun x => ?_⟩
    rw [hnum, hc, hb] at h2
    exact (h2.1 x).symm
  · exact .inr h

/-- **C80 and C58: total correctness.**  The same for a run without limits and auto-abort, from an LLL-reduced basis, with the parameters of C58: unless LLL gives up (its iteration limit, C62), it ends with success and the basis is BKZ-reduced. -/
theorem C80_total {d n : ℕ} (hn : 1 ≤ n) (ig wu wi fl : Bool) (b u v jz : Mat ℤ) (jf : Mat Exact) {e : ℕ} (hed : e ≤ d)
    (hz : ∀ i, e ≤ i → i < d → ∀ k < n, b i k = 0) (hind : Indep e n (toQ b)) {δl η rad : ℚ} {β : ℕ} (hβ : 2 ≤ β)
    {c : SvpCfg Exact} {o : Orc Exact} {cfg : Cfg D} (hr : BkzRun δl η rad β c o cfg e) (hη : 1 / 2 ≤ η) (hδ : δl < 1) (hbd : cfg.bounded = false) (hg : Gap η δl rad) (hlll : LLLReduced n e (toQ b) δl η)
    (hloops : cfg.maxLoops = none) (htime : cfg.maxTime = false) (timeUp : ℕ → W Exact → Bool) (slope : ℕ → W Exact → D)
    (depth inner : ℕ) (w : W Exact) (hw : w.s = mk0 d n ig wu wi fl b u v jz jf) :
    ∃ N : ℕ,
      (∃ k w', (∀ m f, N ≤ m → N ≤ f → runBKZ { c with inner := m } o cfg timeUp slope (depth + 1) inner f w = .ok (.success, k) w') ∧ (∀ x, InPre n e w'.s.b x ↔ InPre n e b x) ∧
        BkzReduced δl η rad β n e w'.s.b) ∨
      ∃ w', ∀ m f, N ≤ m → N ≤ f → runBKZ { c with inner := m } o cfg timeUp slope (depth + 1) inner f w = .thrown w' := by
  have hlt := hr.lt
  obtain ⟨N, ⟨⟨st, k⟩, w', h1, h2⟩ | h⟩ := C80_bkz_stops hn ig wu wi fl b u v jz jf (by omega) hed hz hind ⟨hr.lll, hr.fuel, hη, hδ, hr.rad0, hr.rad1, hr.runs, hr.strategies, hr.more, hr.once⟩ cfg hr.sd hr.sld
    timeUp slope depth inner w hw
  · have run := h1 N N le_rfl le_rfl
    have hst : st = .success ∧ 1 ≤ k := by
      unfold runBKZ at run
      obtain ⟨s0, -, j, s1, -, he⟩ := bkz_ends _ _ _ _ _ _ _ _ _ _ _ (by rw [hr.bs]; exact_mod_cast hβ) run
      have hau : autoOn cfg = false := by simp [autoOn, hr.noAbort, hr.sd]
      cases he with
      | loops hl => simp [LimitAt, hloops] at hl
      | time _ ht => simp [TimeAt, htime] at ht
      | abort _ _ ha => simp [AbortAt, hau] at ha
      | done _ _ _ _ _ => exact ⟨rfl, by omega⟩
    obtain ⟨rfl, hk⟩ := hst
    have hr' : BkzRun δl η rad β { c with inner := N } o cfg e := ⟨hr.lll, hr.fuel, hr.eta, hr.rad0, hr.rad1, hr.runs, hr.strategies, hr.more, hr.once, hr.sd, hr.sld, hr.noAbort, hr.bs, hr.lt⟩
    exact ⟨N, .inl ⟨k, w', h1, C58_success_partial hn ig wu wi fl b u v jz jf hed hz hind hβ hr' hbd hg timeUp slope depth inner N w w' hw hk (.inr hlll) run⟩⟩
  · exact ⟨N, .inr h⟩

omit [OrderTop D] in
/-- **C80 (each tour makes progress).**  The determinants of the lattices of the first `1, 2, …, e` rows are positive integers.  A tour that is not clean (and ends normally) makes the first one that it changes smaller. -/
theorem C80_progress {e : ℕ} (he : 1 ≤ e) {bs : ℕ} (hbs : 2 ≤ bs) {δl η rad : ℚ} {sg er : Bool} {c : SvpCfg Exact} {o : Orc Exact} (hr : StopRun δl η rad sg er c o) (bounded : Bool) (depth : ℕ)
    {w : W Exact} (hs : St w.s) (hed : e ≤ w.s.d) (hind : Indep e w.s.nCols (toQ w.s.b)) :
    ∃ N : ℕ,
      (∃ clean w', (∀ m, N ≤ m → tour (svpOps { c with inner := m } o (depth + 1) bounded) bs 0 e w = .ok clean w') ∧
        ((∀ j ≤ e, gramDet w.s.nCols w'.s.b j = gramDet w.s.nCols w.s.b j) ∧ clean = true ∨
          ∃ k < e, (∀ j ≤ k, gramDet w.s.nCols w'.s.b j = gramDet w.s.nCols w.s.b j) ∧ gramDet w.s.nCols w'.s.b (k + 1) < gramDet w.s.nCols w.s.b (k + 1))) ∨
      ∃ w', ∀ m, N ≤ m → tour (svpOps { c with inner := m } o (depth + 1) bounded) bs 0 e w = .thrown w' := by
  obtain ⟨thr, hpc⟩ := hr.pcfg
  obtain ⟨N, h⟩ := tour_ev c o hpc hr.delta hr.eta hr.fuel hr.rad1 (hr.runs.truthful hr.rad0) hr.strategies hr.more hr.once bounded depth hbs he (w := w) ⟨hs, hed, hind⟩
  refine ⟨N, ?_⟩
  rcases h with ⟨cl, w', h1, h2⟩ | h
  · refine .inl ⟨cl, w', h1, ?_⟩
    have z0 : gramDet w.s.nCols w'.s.b 0 = gramDet w.s.nCols w.s.b 0 := gramDet_pre (h2.mv.pre 0 (.inl le_rfl))
    have conv : ∀ i : ℕ, (gramDet w.s.nCols w'.s.b i).toNat = (gramDet w.s.nCols w.s.b i).toNat → gramDet w.s.nCols w'.s.b i = gramDet w.s.nCols w.s.b i := by
      intro i hi
      have := gramDet_nonneg w.s.nCols w'.s.b i
      have := gramDet_nonneg w.s.nCols w.s.b i
      omega
    rcases h2.le.lt_or_eq with hlt | heq
    · obtain ⟨⟨k, hk⟩, k1, k2⟩ := hlt
      refine .inr ⟨k, hk, fun j hj => ?_, ?_⟩
      · cases j with
        | zero => exact z0
        | succ j => exact conv _ (k1 ⟨j, by omega⟩ (by exact (by omega : j < k)))
      · have k2 : (gramDet w.s.nCols w'.s.b (k + 1)).toNat < (gramDet w.s.nCols w.s.b (k + 1)).toNat := k2
        omega
    · refine .inl ⟨fun j hj => ?_, ?_⟩
      · cases j with
        | zero => exact z0
        | succ j => exact conv _ (congrFun heq (⟨j, by omega⟩ : Fin e))
      · by_contra hc
        have := h2.lt (by simpa using hc)
        rw [heq] at this
        exact absurd this (lt_irrefl _)
  · exact .inr h

/-- **C80 (slide reduction).**  The `do … while (!clean)` loop of `slide_tour` stops, from any state in which the cached values are right, with bounded LLL or not. -/
theorem C80_slide_loop_stops {e : ℕ} (he : 1 ≤ e) {bs : ℕ} (hbs : 2 ≤ bs) {δl η rad : ℚ} {sg er : Bool} {c : SvpCfg Exact} {o : Orc Exact} (hr : StopRun δl η rad sg er c o) (bounded : Bool)
    (depth : ℕ) {w : W Exact} (hs : St w.s) (hed : e ≤ w.s.d) (hind : Indep e w.s.nCols (toQ w.s.b)) :
    ∃ N : ℕ,
      (∃ w', (∀ m f, N ≤ m → N ≤ f → slideLoop (svpOps { c with inner := m } o (depth + 1) bounded) bounded bs 0 e f w = .ok () w') ∧ ∀ x, InPre w.s.nCols e w'.s.b x ↔ InPre w.s.nCols e w.s.b x) ∨
      ∃ w', ∀ m f, N ≤ m → N ≤ f → slideLoop (svpOps { c with inner := m } o (depth + 1) bounded) bounded bs 0 e f w = .thrown w' := by
  obtain ⟨thr, hpc⟩ := hr.pcfg
  obtain ⟨N, h⟩ := slideLoop_ev c o hpc hr.delta hr.rad1 (hr.runs.truthful hr.rad0) hr.strategies hr.more hr.once bounded depth hbs he w ⟨hs, hed, hind⟩
  refine ⟨N, ?_⟩
  rcases h with ⟨r, w', h1, h2⟩ | h
  · exact .inl ⟨w', h1, fun x => (h2.mv.pre e (.inr le_rfl) x).symm⟩
  · exact .inr h

end

/-! ## A run that meets the hypotheses -/

theorem stopRun_example : StopRun (99 / 100) (51 / 100) (99 / 100) false false ⟨mkCfg (some (99 / 100)) (some (51 / 100)) false false, 20, 20, 1⟩ (enumOrc (99 / 100) 200) where
  lll := rfl
  fuel := by norm_num
  eta := by norm_num
  delta := by norm_num
  rad0 := by norm_num
  rad1 := by norm_num
  runs := enumOrc_runs (by norm_num) 200
  strategies _ := rfl
  more _ := rfl
  once t it h := by simp [enumOrc]; omega

theorem stopRun_total : StopRun (99 / 100) (51 / 100) (24 / 25) false false ⟨mkCfg (some (99 / 100)) (some (51 / 100)) false false, 20, 20, 1⟩ (enumOrc (24 / 25) 200) :=
  { stopRun_example with rad0 := by norm_num, rad1 := by norm_num, runs := enumOrc_runs (by norm_num) 200 }

/-- no limits, no auto-abort, any block size -/
def freeCfg (bs : ℤ) : Cfg (WithTop ℕ) := ⟨bs, false, false, none, false, false, false, id, 5⟩

noncomputable def freeW (b : Mat ℤ) : W Exact := ⟨mk0 3 3 false false false false b idMat idMat (fun _ _ => 0) (fun _ _ => none), 0, 0, false⟩

/-- `C80_bkz_stops` applies to the basis `twoB` of C58 … -/
example := C80_bkz_stops (e := 3) (by norm_num) false false false false twoB idMat idMat (fun _ _ => 0) (fun _ _ => none) (by norm_num) le_rfl (fun i h1 h2 => by omega) two_indep stopRun_example (freeCfg 2) rfl rfl
  (fun _ _ => false) (fun _ _ => ⊤) 1 20 (freeW twoB) rfl

/-- … and the outcome is a normal one, after two tours -/
example : (match runBKZ ⟨mkCfg (some (99 / 100)) (some (51 / 100)) false false, 20, 20, 1⟩ (enumOrc (99 / 100) 200) (freeCfg 2) (fun _ _ => false) (fun _ _ => ⊤) 2 20 20 (freeW twoB) with
    | .ok a _ => decide (a = (.success, 2))
    | _ => false) = true := by decide +kernel

/-- `C80_total` applies to the basis `oneB` of C58 -/
example := C80_total (e := 3) (by norm_num) false false false false oneB idMat idMat (fun _ _ => 0) (fun _ _ => none) le_rfl (fun i h1 h2 => by omega) one_indep (β := 2) le_rfl
  (⟨rfl, by norm_num, by norm_num, by norm_num, by norm_num, stopRun_total.runs, fun _ => rfl, fun _ => rfl, stopRun_total.once, rfl, rfl, rfl, rfl, by norm_num⟩ :
    BkzRun (99 / 100) (51 / 100) (24 / 25) 2 ⟨mkCfg (some (99 / 100)) (some (51 / 100)) false false, 20, 20, 1⟩ (enumOrc (24 / 25) 200) (freeCfg 2) 3)
  (by norm_num) (by norm_num) rfl gap_example one_lll rfl rfl (fun _ _ => false) (fun _ _ => ⊤) 1 20 (freeW oneB) rfl

/-- states in which the cached values are right: for one, all states from which `bkz()` starts its first tour -/
theorem freeW_st (b : Mat ℤ) : St (prepare false (freeW b).s) ∧ (prepare false (freeW b).s).b = b ∧ (prepare false (freeW b).s).d = 3 ∧ (prepare false (freeW b).s).nCols = 3 := by
  obtain ⟨hwf, hb, hu, hv, hd, hc, hg, hwu, hwi, hk, hl⟩ := mk0_wf 3 3 false false false false b idMat idMat (fun _ _ => 0) (fun _ _ => (none : Exact)) (by norm_num)
  obtain ⟨p1, p2, p3, p4⟩ := prepare_st hwf (mk0_fresh 3 3 false false false false b idMat idMat (fun _ _ => 0) (fun _ _ => none) (by norm_num)) hl
  exact ⟨p1, p2.trans hb, p3.trans hd, p4.trans hc⟩

example := C80_progress (e := 3) (bs := 2) (by norm_num) le_rfl stopRun_example false 1 (w := { freeW twoB with s := prepare false (freeW twoB).s }) (freeW_st twoB).1
  (freeW_st twoB).2.2.1.ge (by have h := freeW_st twoB; dsimp only; rw [h.2.2.2, h.2.1]; exact two_indep)

example := C80_slide_loop_stops (e := 3) (bs := 2) (by norm_num) le_rfl stopRun_example false 1 (w := { freeW twoB with s := prepare false (freeW twoB).s }) (freeW_st twoB).1
  (freeW_st twoB).2.2.1.ge (by have h := freeW_st twoB; dsimp only; rw [h.2.2.2, h.2.1]; exact two_indep)

end Fplll

import Verif.Model.ExtEnum
import Verif.Props.ParEnum
import Verif.Props.SVPRound

/-!
# C72: which enumeration runs does not matter

`Enumeration::enumerate` runs the parallel enumeration if it can and `EnumerationDyn` otherwise.
-/

open Finset

namespace Fplll
namespace Ext

open Enum Spec SVP
open ErrB (Arith Dat mpfr)

variable {σ : Type}

/-! ## The choice -/

theorem enumerateD_eq {D dim : ℕ} (h1 : D - 9 ≤ dim) (h2 : dim ≤ D) : enumerateD D dim = .run dim := by
  unfold enumerateD
  have : [D - 9, D - 8, D - 7, D - 6, D - 5, D - 4, D - 3, D - 2, D - 1, D].find? (· = dim) = some dim := by
    cases h : [D - 9, D - 8, D - 7, D - 6, D - 5, D - 4, D - 3, D - 2, D - 1, D].find? (· = dim) with
    | some n =>
      have := List.find?_some h
      simp only [decide_eq_true_eq] at this
      rw [this]
    | none =>
      exfalso
      rw [List.find?_eq_none] at h
      have hm : dim ∈ [D - 9, D - 8, D - 7, D - 6, D - 5, D - 4, D - 3, D - 2, D - 1, D] := by
        simp only [List.mem_cons, List.not_mem_nil, or_false]
        omega
      exact h dim hm (by simp)
  rw [this]

/-- **C72** (choice) `enumlib_enumerate` runs the instance whose dimension is that of the problem, exactly for the primal
problems of dimension 11 to `FPLLL_MAX_PARALLEL_ENUM_DIM` rounded down to a multiple of 10 (at most 160); it never arrives at
"wrong dimension!". -/
theorem C72_dispatch (maxPar dim : ℕ) (dual : Bool) :
    enumlib maxPar dim dual = if dual = false ∧ 10 < dim ∧ dim ≤ 10 * (maxPar / 10) ∧ dim ≤ 160 then .run dim else .notSupported := by
  unfold enumlib
  by_cases h0 : dim ≤ 10 ∨ dual = true
  · rw [if_pos h0, if_neg]
    rintro ⟨h1, h2, -⟩
    rcases h0 with h0 | h0
    · omega
    · rw [h1] at h0; cases h0
  rw [if_neg h0]
  push Not at h0
  have hd : dual = false := by simpa using h0.2
  have hc : ∀ (k m : ℕ), 2 ≤ k → 10 * (k - 1) < dim → k + m = 17 →
      chain maxPar dim ((List.range' k m).map (10 * ·)) =
        if dim ≤ 10 * (maxPar / 10) ∧ dim ≤ 160 then .run dim else .notSupported := by
    intro k m
    induction m generalizing k with
    | zero =>
      intro h1 h2 h3
      have : k = 17 := by omega
      subst this
      rw [if_neg (by omega)]
      rfl
    | succ m ih =>
      intro h1 h2 h3
      rw [List.range'_succ, List.map_cons, chain]
      by_cases h4 : 10 * k ≤ maxPar ∧ dim ≤ 10 * k
      · rw [if_pos h4, enumerateD_eq (by omega) h4.2, if_pos (by omega)]
      · rw [if_neg h4]
        by_cases h5 : dim ≤ 10 * k
        · -- no larger instance is compiled in either
          have h6 : maxPar < 10 * k := by omega
          rw [if_neg (by omega)]
          clear ih
          have : ∀ (m k : ℕ), maxPar < 10 * k → chain maxPar dim ((List.range' k m).map (10 * ·)) = .notSupported := by
            intro m
            induction m with
            | zero => intro k _; rfl
            | succ m ih =>
              intro k hk
              rw [List.range'_succ, List.map_cons, chain, if_neg (by omega)]
              exact ih (k + 1) (by omega)
          exact this m (k + 1) (by omega)
        · exact ih (k + 1) (by omega) (by simp only [Nat.add_sub_cancel]; omega) (by omega)
  have := hc 2 15 le_rfl (by omega) rfl
  rw [show (List.range' 2 15).map (10 * ·) =
    [20, 30, 40, 50, 60, 70, 80, 90, 100, 110, 120, 130, 140, 150, 160] from by decide] at this
  rw [this]
  have e : (dual = false ∧ 10 < dim ∧ dim ≤ 10 * (maxPar / 10) ∧ dim ≤ 160) ↔ (dim ≤ 10 * (maxPar / 10) ∧ dim ≤ 160) :=
    ⟨fun h => h.2.2, fun h => ⟨hd, h0.1, h⟩⟩
  simp only [e]

/-- in the default build, the dimensions 11 to 120 -/
example : enumlib 120 11 false = .run 11 ∧ enumlib 120 120 false = .run 120 ∧ enumlib 120 121 false = .notSupported ∧
    enumlib 120 10 false = .notSupported ∧ enumlib 120 50 true = .notSupported ∧ enumlib 0 50 false = .notSupported ∧
    enumlib 125 121 false = .notSupported := by decide

theorem tryExt_some {maxPar n : ℕ} {p : Input} (h : tryExt maxPar p = some n) :
    n = p.d ∧ 10 < p.d ∧ p.dual = false ∧ p.target = none ∧ p.subtree = [] := by
  unfold tryExt at h
  split_ifs at h with h1
  rw [C72_dispatch] at h
  by_cases h2 : p.dual = false ∧ 10 < p.d ∧ p.d ≤ 10 * (maxPar / 10) ∧ p.d ≤ 160
  · simp only [if_pos h2, Option.some.injEq] at h
    exact ⟨h.symm, h2.2.1, h2.1, h1.2, h1.1⟩
  · simp only [if_neg h2] at h
    cases h

/-! ## Both see the same problem -/

theorem extCfg_ok {p : Input} (h : p.OK) (hp : PruneOK p.cfg) (hst : p.subtree = []) : Par.CfgOK (extCfg p.d p) where
  rnd := h.rnd
  rrep k _ := h.rnd.idem _
  rpos k hk := h.rnd.pos (h.rpos k hk)
  pnn k hk := by
    change 0 ≤ p.pruning.getD (fun _ => 1) k
    cases hc : p.pruning with
    | none => norm_num
    | some q => exact (hp.2 q hc).1 k (by rw [show p.cfg.K = p.K from rfl, K_eq hst]; exact hk)

/-- the same lengths -/
theorem plen_ext {p : Input} (h : Rnd p.fl) (hd : p.dual = false) (ht : p.target = none) (hst : p.subtree = [])
    (v : ℕ → ℤ) (k : ℕ) : Par.plen (extCfg p.d p) v k = p.dist v k := by
  have hal : ∀ j, al (extCfg p.d p).e v j = al p.full v j := by
    intro j
    unfold al cen
    change p.fl (v j - forDown (j + 1) p.d _ ((extCfg p.d p).e.cpart j)) = p.fl (v j - forDown (j + 1) p.d _ (p.full.cpart j))
    have e1 : p.full.cpart j = 0 := by
      change p.fl (p.target.getD (fun _ => 0) j) = 0
      rw [ht]; exact h.zero
    rw [e1]
    congr 2
    apply forDown_congr
    intro l a _ _
    change p.fl (a - p.fl ((v l : ℚ) * p.fl (p.mu l j))) =
      p.fl (a - p.fl ((if p.dual = true then _ else (v l : ℚ)) * p.mt j l))
    rw [hd, if_neg (by simp), Input.mt, hd, if_neg (by simp)]
  unfold Par.plen pd Input.dist
  have e2 : (if p.subtreeReset = true then p.K else p.d) = p.d := by split_ifs <;> simp [K_eq hst]
  rw [e2]
  change forDown k p.d _ 0 = _
  apply forDown_congr
  intro j a _ _
  rw [hal j]
  change p.fl (a + p.fl (p.fl _ * p.fl (p.r j))) = p.fl (a + p.fl (p.fl _ * p.rdiag j))
  rw [Input.rdiag, hd, if_neg (by simp)]

/-- the same bounds, except that the parallel enumeration rounds a bound that is not pruned -/
theorem bnd_ext (p : Input) (A : ℚ) (k : ℕ) :
    (extCfg p.d p).bnd A k = setBounds p.full A k ∨ p.pruning = none ∧ (extCfg p.d p).bnd A k = p.fl A := by
  cases hc : p.pruning with
  | none => right; simp [Par.Cfg.bnd, extCfg, hc]
  | some q =>
    left
    unfold setBounds
    rw [show p.full.pruning = some q from hc]
    change p.fl (A * p.pruning.getD (fun _ => 1) k) = p.fl (q k * A)
    rw [hc, Option.getD_some, mul_comm]

theorem bnd_full {p : Input} {A : ℚ} (hA : p.fl A = A) (k : ℕ) : (extCfg p.d p).bnd A k = setBounds p.full A k := by
  rcases bnd_ext p A k with h | ⟨h1, h2⟩
  · exact h
  · rw [h2, hA]
    unfold setBounds
    rw [show p.full.pruning = none from h1]

/-- the evaluator sees the reports in the order of the log -/
theorem reach_fold {c : Par.Cfg} {E : EvalOps σ} {fuel T : ℕ} {e : σ} {st : Par.Sys σ} (h : Par.Reach c E fuel T e st) :
    (st.ev, st.A) = (st.log.map fun q => Event.sol q.1 q.2).foldl (evStep E) (e, c.maxdist) := by
  induction h with
  | init h => rfl
  | step h hs ih =>
    rename_i s s'
    cases hs with
    | fill hd hr hf => exact ih
    | th j upd ht hs =>
      rename_i t
      cases t with
      | done => simp [Par.thStep] at hs
      | fresh => obtain rfl := Option.some.inj hs; exact ih
      | idle u =>
        cases hb : s.batch[s.idx]? with
        | none => simp only [Par.thStep, hb, Option.some.injEq] at hs; subst hs; exact ih
        | some it => simp only [Par.thStep, hb, Option.some.injEq] at hs; subst hs; exact ih
      | walk w =>
        cases w with
        | stuck => simp [Par.thStep] at hs
        | ret u => obtain rfl := Option.some.inj hs; exact ih
        | offer x l k =>
          obtain rfl := Option.some.inj hs
          simp only [List.map_append, List.map_cons, List.map_nil, List.foldl_append, List.foldl_cons, List.foldl_nil]
          rw [← ih]
          rfl

/-- the parallel enumeration, whatever the schedule -/
theorem found_ext {p : Input} (h : p.OK) (hp : PruneOK p.cfg) (hd : p.dual = false) (ht : p.target = none)
    (hst : p.subtree = []) (hN : 10 < p.d) {E : EvalOps σ} {I : σ → ℚ → Prop} (hE : Par.ParOK (extCfg p.d p) E I) {e : σ}
    (hI : I e p.maxdist) {fuel : ℕ} (hF : Par.Fuel (extCfg p.d p) fuel) {T : ℕ} (hT : 1 ≤ T) {st : Par.Sys σ}
    (hr : Par.Reach (extCfg p.d p) E fuel T e st) (hf : st.final) :
    Found p E I e st.ev st.A (st.log.map fun q => Event.sol q.1 q.2) := by
  have hc := extCfg_ok h hp hst
  have hs := (Par.C34_sound hc hN hF hE hI hT hr).1
  obtain ⟨items0, cns, D, own, hi, -⟩ := Par.inv_reach hc hN hF hE hI hT hr
  have hpl := plen_ext h.rnd hd ht hst
  refine ⟨reach_fold hr, hi.inv, fun v δ hm => ?_, fun v hv hb => ?_⟩
  · obtain ⟨q, hq, he⟩ := List.mem_map.1 hm
    cases he
    obtain ⟨h1, h2⟩ := hs q hq
    have h3 := ((Par.region_iff hc).1 h1).2
    rw [hpl] at h2 h3
    refine ⟨h2, ?_, fun j hj => ?_⟩
    · rw [h2]; exact lt_of_le_of_ne (dist_nonneg h _ _) (Ne.symm h3)
    · have := h1.1 j hj
      rw [hpl, show (extCfg p.d p).maxdist = p.maxdist from rfl, bnd_full h.mrep] at this
      exact this
  · have hb' : ∀ j, j < (extCfg p.d p).N → Par.plen (extCfg p.d p) v j ≤ (extCfg p.d p).bnd st.A j := by
      intro j hj
      rw [hpl]
      rcases bnd_ext p st.A j with h1 | ⟨h1, h2⟩
      · rw [h1]; exact hb j hj
      · rw [h2, ← dist_rep h v j]
        refine h.rnd.mono ?_
        have := hb j hj
        unfold setBounds at this
        rwa [show p.full.pruning = none from h1] at this
    have main : ∀ u : ℕ → ℤ, Par.Region (extCfg p.d p) st.A u → Offered p (st.log.map fun q => Event.sol q.1 q.2) u := by
      intro u hu
      obtain ⟨q, hq, hq'⟩ := Par.C34_complete hc hN hF hE hI hT hr hf u hu
      refine ⟨q.1, ?_, hq'⟩
      have h2 := (hs q hq).2
      rw [hpl, dist_congr p q.1 u 0 (fun j _ hj => hq' j hj)] at h2
      rw [← h2]
      exact List.mem_map_of_mem (f := fun q : Par.Item => Event.sol q.1 q.2) hq
    rcases Par.canon_or (n := p.d) v with hcan | hcan
    · exact .inl (main v ⟨hb', hv, hcan⟩)
    · refine .inr (main _ ⟨fun j hj => by rw [Par.plen_neg hc]; exact hb' j hj, ?_, fun j hj hz => ?_⟩)
      · obtain ⟨j, h1, h2⟩ := hv
        exact ⟨j, h1, neg_ne_zero.2 h2⟩
      · exact hcan j hj fun i h1 h2 => neg_eq_zero.1 (hz i h1 h2)

/-- what the two enumerations need of the evaluator: invariants `I` and `J` -/
structure BothOK (p : Input) (E : EvalOps σ) (I J : σ → ℚ → Prop) (e : σ) : Prop where
  dyn : EvalOK p.cfg E I
  dyn0 : I e p.maxdist
  ext : Par.ParOK (extCfg p.d p) E J
  ext0 : J e p.maxdist

theorem both_same {p : Input} {E : EvalOps σ} {I : σ → ℚ → Prop} {e : σ} (hE : EvalOK p.cfg E I) (hI : I e p.maxdist)
    (hs : ∀ ev A x l, I ev A → I (E.evalSol ev x l A).1 (E.evalSol ev x l A).2 ∧ (E.evalSol ev x l A).2 ≤ A) :
    BothOK p E I I e :=
  ⟨hE, hI, ⟨fun ev A x l hi _ _ _ _ => hs ev A x l hi⟩, hI⟩

/-- enough iterations for whichever enumeration runs -/
def Fuel (maxPar : ℕ) (p : Input) (E : EvalOps σ) (e : σ) (fuel : ℕ) : Prop :=
  match tryExt maxPar p with
  | some n => Par.Fuel (extCfg n p) fuel
  | none => ∃ s, enumerate p E fuel e = some s

theorem fuel_exists {p : Input} (h : p.OK) (hp : PruneOK p.cfg) {E : EvalOps σ} {I J : σ → ℚ → Prop} {e : σ}
    (hE : BothOK p E I J e) (maxPar : ℕ) : ∃ N, ∀ fuel, N ≤ fuel → Fuel maxPar p E e fuel := by
  unfold Fuel
  cases ht : tryExt maxPar p with
  | none =>
    obtain ⟨N, s, hN⟩ := C13_terminates h hE.dyn hE.dyn0
    exact ⟨N, fun fuel hf => ⟨s, hN fuel hf⟩⟩
  | some n =>
    obtain ⟨rfl, -, -, -, hst⟩ := tryExt_some ht
    have hc := extCfg_ok h hp hst
    obtain ⟨N, hN⟩ := Par.fuel_exists hc
    refine ⟨N, fun fuel hf k hk => (hN k hk).trans_le ?_⟩
    have h1 : (N : ℚ) ≤ fuel := by exact_mod_cast hf
    have h2 := hc.rpos k hk
    have h3 : (0 : ℚ) ≤ N := by positivity
    refine mul_le_mul_of_nonneg_right ?_ h2.le
    nlinarith

/-- **C72** (both do the job) whichever enumeration runs, with whatever number of threads and schedule: the evaluator was
offered non-zero vectors within the initial bounds with their lengths, among them, up to sign, all those within the bounds in
force at the end. -/
theorem C72_found {p : Input} (h : p.OK) (hp : PruneOK p.cfg) (ht : p.target = none) (hst : p.subtree = [])
    {E : EvalOps σ} {I J : σ → ℚ → Prop} {e : σ} (hE : BothOK p E I J e) {maxPar fuel T : ℕ} (hT : 1 ≤ T)
    (hF : Fuel maxPar p E e fuel) {ev : σ} {ret : ℚ} (ho : Out maxPar p E fuel T e ev ret) :
    ∃ md L, Found p E (fun e m => I e m ∨ J e m) e ev md L := by
  cases ho with
  | ext hx hr hf =>
    rename_i n st
    obtain ⟨rfl, h1, h2, -, -⟩ := tryExt_some hx
    unfold Fuel at hF
    rw [hx] at hF
    have F := found_ext h hp h2 ht hst h1 hE.ext hE.ext0 hF hT hr hf
    exact ⟨_, _, ⟨F.fold, .inr F.inv, F.sound, F.comp⟩⟩
  | dyn hx hr =>
    have F := found_dyn h hE.dyn hE.dyn0 ht hst hr
    exact ⟨_, _, ⟨F.fold, .inl F.inv, F.sound, F.comp⟩⟩

/-- **C72** (termination) `Enumeration::enumerate` has an outcome, and no schedule gets stuck or runs for ever. -/
theorem C72_terminates {p : Input} (h : p.OK) (hp : PruneOK p.cfg) {E : EvalOps σ} {I J : σ → ℚ → Prop} {e : σ}
    (hE : BothOK p E I J e) {maxPar fuel T : ℕ} (hT : 1 ≤ T) (hF : Fuel maxPar p E e fuel) :
    (∃ ev md, Out maxPar p E fuel T e ev md) ∧
    ∀ n, tryExt maxPar p = some n → (∀ f : ℕ → Par.Sys σ, ¬ ∀ k, Par.Step (extCfg n p) E fuel T (f k) (f (k + 1))) ∧
      ∀ st, Par.Reach (extCfg n p) E fuel T e st → ¬ st.final → ∃ st', Par.Step (extCfg n p) E fuel T st st' := by
  unfold Fuel at hF
  cases hx : tryExt maxPar p with
  | none =>
    rw [hx] at hF
    obtain ⟨s, hs⟩ := hF
    exact ⟨⟨_, _, .dyn hx hs⟩, fun n hn => by cases hn⟩
  | some n =>
    rw [hx] at hF
    obtain ⟨rfl, h1, h2, -, hst⟩ := tryExt_some hx
    have hc := extCfg_ok h hp hst
    refine ⟨?_, fun m hm => ?_⟩
    · obtain ⟨items, loc, h3, -⟩ := Par.stage0_ok hc h1 hF
      obtain ⟨st, h4, h5⟩ := Par.C34_final_reached hc h1 hF hE.ext hE.ext0 hT (Par.Reach.init (T := T) (E := E) (e := e) h3)
      refine ⟨_, _, .ext hx ?_ h5⟩
      clear h5
      induction h4 with
      | refl => exact Par.Reach.init h3
      | tail _ h6 ih => exact Par.Reach.step ih h6
    · cases hm
      exact ⟨fun f => Par.C34_terminates f, fun st hr hnf => Par.C34_progress hc h1 hF hE.ext hE.ext0 hT hr hnf⟩

/-! ## The fast evaluator -/

theorem pr0_le {p : Input} (hp : PruneOK p.cfg) : (extCfg p.d p).pr 0 ≤ 1 := by
  change p.pruning.getD (fun _ => 1) 0 ≤ 1
  cases hc : p.pruning with
  | none => norm_num
  | some q => exact (hp.2 q hc).2

theorem fast_both {p : Input} (h : p.OK) (hp : PruneOK p.cfg) (hst : p.subtree = []) {N : ℕ} (hN : 1 ≤ N)
    (h0 : 0 ≤ p.maxdist) :
    BothOK p (fastEval N .best) (FastInv p.fl .best) (Par.BestInv p.fl N p.maxdist) EvSt.new where
  dyn := fastEval_ok hp N .best
  dyn0 := fastInv_new .best h0 h.mrep
  ext := Par.best_ok (extCfg_ok h hp hst) hN h0 h.mrep (pr0_le hp)
  ext0 := Par.best_init N h.mrep

/-- **C72** (the `N` shortest) without pruning the fast evaluator ends up with the `N` shortest vectors, whichever enumeration
runs and whatever the schedule. -/
theorem C72_finds_N_shortest {p : Input} (h : p.OK) (hp : p.pruning = none) (ht : p.target = none) (hst : p.subtree = [])
    {N : ℕ} (hN : 1 ≤ N) (h0 : 0 ≤ p.maxdist) (maxPar : ℕ) : ∃ M, ∀ fuel, M ≤ fuel → ∀ T, 1 ≤ T →
      (∃ ev md, Out maxPar p (fastEval N .best) fuel T EvSt.new ev md) ∧
      ∀ ev md, Out maxPar p (fastEval N .best) fuel T EvSt.new ev md →
        Desc ev.sols ∧ ev.sols.length ≤ N ∧
        (∀ a ∈ ev.sols, a.1 = p.dist a.2 0 ∧ a.1 ≤ p.maxdist ∧ 0 < a.1 ∧ ∃ j, j < p.d ∧ a.2 j ≠ 0) ∧
        ∀ v : ℕ → ℤ, p.dist v 0 ≤ p.maxdist → (∃ j, j < p.d ∧ v j ≠ 0) →
          (Stored p ev.sols v ∨ Stored p ev.sols fun j => -v j) ∨
            ev.sols.length = N ∧ ∀ a ∈ ev.sols, a.1 ≤ p.dist v 0 := by
  have hpo := pruneOK_none h hp
  have hE := fast_both h hpo hst hN h0
  obtain ⟨M, hM⟩ := fuel_exists h hpo hE maxPar
  refine ⟨M, fun fuel hf T hT => ⟨(C72_terminates h hpo hE hT (hM fuel hf)).1, fun ev md ho => ?_⟩⟩
  obtain ⟨md', L, F⟩ := C72_found h hpo ht hst hE hT (hM fuel hf) ho
  exact found_best hN h ht hst hp F

/-- **C72** (same length) without pruning, the length of the best vector does not depend on the number of threads, the schedule
or the way the library was configured. -/
theorem C72_same_length {p : Input} (h : p.OK) (hp : p.pruning = none) (ht : p.target = none) (hst : p.subtree = [])
    (h0 : 0 ≤ p.maxdist) (maxPar maxPar' : ℕ) : ∃ M, ∀ fuel, M ≤ fuel → ∀ T T', 1 ≤ T → 1 ≤ T' → ∀ ev ev' md md',
      Out maxPar p (fastEval 1 .best) fuel T EvSt.new ev md → Out maxPar' p (fastEval 1 .best) fuel T' EvSt.new ev' md' →
      ev.sols.map Prod.fst = ev'.sols.map Prod.fst := by
  obtain ⟨M, hM⟩ := C72_finds_N_shortest h hp ht hst (N := 1) le_rfl h0 maxPar
  obtain ⟨M', hM'⟩ := C72_finds_N_shortest h hp ht hst (N := 1) le_rfl h0 maxPar'
  refine ⟨max M M', fun fuel hf T T' hT hT' ev ev' md md' ho ho' => ?_⟩
  obtain ⟨-, a2, a3, a4⟩ := (hM fuel (le_trans (le_max_left _ _) hf) T hT).2 ev md ho
  obtain ⟨-, b2, b3, b4⟩ := (hM' fuel (le_trans (le_max_right _ _) hf) T' hT').2 ev' md' ho'
  have key : ∀ (S S' : List Sol), S.length ≤ 1 → S'.length ≤ 1 →
      (∀ a ∈ S, a.1 = p.dist a.2 0 ∧ a.1 ≤ p.maxdist ∧ 0 < a.1 ∧ ∃ j, j < p.d ∧ a.2 j ≠ 0) →
      (∀ v : ℕ → ℤ, p.dist v 0 ≤ p.maxdist → (∃ j, j < p.d ∧ v j ≠ 0) →
          (Stored p S' v ∨ Stored p S' fun j => -v j) ∨ S'.length = 1 ∧ ∀ a ∈ S', a.1 ≤ p.dist v 0) →
      ∀ q, S = [q] → ∃ q', S' = [q'] ∧ q'.1 ≤ q.1 := by
    intro S S' h1 h2 h3 h4 q hq
    subst hq
    obtain ⟨c1, c2, -, c4⟩ := h3 q (by simp)
    have hst : ∀ u, Stored p S' u → p.dist u 0 = q.1 → ∃ q', S' = [q'] ∧ q'.1 ≤ q.1 := by
      rintro u ⟨q', hq', e1, -⟩ e2
      obtain ⟨x, rfl⟩ : ∃ x, S' = [x] := List.length_eq_one_iff.1 (by have := List.length_pos_of_mem hq'; omega)
      simp only [List.mem_cons, List.not_mem_nil, or_false] at hq'
      exact ⟨x, rfl, by rw [← hq', e1, e2]⟩
    rcases h4 q.2 (by rw [← c1]; exact c2) c4 with (h5 | h5) | ⟨h5, h6⟩
    · exact hst _ h5 c1.symm
    · exact hst _ h5 (by rw [dist_neg h.rnd ht, c1])
    · obtain ⟨x, rfl⟩ := List.length_eq_one_iff.1 h5
      exact ⟨x, rfl, by rw [c1]; exact h6 x (by simp)⟩
  rcases Nat.lt_or_ge 0 ev.sols.length with hl | hl
  · obtain ⟨q, hq⟩ := List.length_eq_one_iff.1 (show ev.sols.length = 1 by omega)
    obtain ⟨q', hq', hle⟩ := key _ _ a2 b2 a3 b4 q hq
    obtain ⟨q2, hq2, hle2⟩ := key _ _ b2 a2 b3 a4 q' hq'
    rw [hq] at hq2
    simp only [List.cons.injEq, and_true] at hq2
    subst hq2
    rw [hq, hq']
    simp only [List.map_cons, List.map_nil, List.cons.injEq, and_true]
    exact le_antisymm hle2 hle
  · have e0 : ev.sols = [] := List.eq_nil_of_length_eq_zero (by omega)
    cases hs' : ev'.sols with
    | nil => rw [e0]
    | cons q T =>
      have : T = [] := by
        rw [hs'] at b2
        exact List.eq_nil_of_length_eq_zero (by simp only [List.length_cons] at b2; omega)
      subst this
      obtain ⟨q2, hq2, -⟩ := key _ _ b2 a2 b3 a4 q hs'
      rw [e0] at hq2
      cases hq2

/-! ## `shortest_vector` -/

theorem collect_single {d : ℕ} {m : Method} {ovr : Bool} {e : EvSt} {q : Sol} (hq : e.sols.getLast? = some q) :
    collect d (shortestArgs m false ovr) e =
      .done { success := true, coord := fun i => if i < d then q.2 i else 0, subs := fun _ => none, aux := none } := by
  have hne : e.sols ≠ [] := by
    intro h0; rw [h0] at hq; cases hq
  unfold collect
  simp [shortestArgs, hne, hq]

/-- **C72** (shortest vector, fast method) C17 for whichever enumeration runs: every schedule of every number of threads
returns a shortest vector. -/
theorem C72_shortest_vector {D n : ℕ} (hD : 1 ≤ D) (hn : D ≤ n) (b jz : Mat ℤ) (jf : Mat Exact)
    (h : Indep D n (basisQ b)) {err : ℚ → ℚ} (herr : ∀ q, 0 ≤ q → 0 ≤ err q) (ovr : Bool) (maxPar : ℕ) :
    ∃ N, ∀ fuel, N ≤ fuel → ∀ T, 1 ≤ T → (∃ o, SvpBasisOut maxPar fuel T D n b jz jf err (shortestArgs .fast false ovr) o) ∧
      ∀ o, SvpBasisOut maxPar fuel T D n b jz jf err (shortestArgs .fast false ovr) o → ∃ res, o = .done res ∧
        res.success = true ∧ IsShortest D n b res.coord := by
  have H := basis_data hD hn b jz jf h
  simp only [SvpBasisOut]
  generalize (fun i j => val (((GSO.mk0 D n true false false false b (fun _ _ => 0) (fun _ _ => 0) jz jf : GSO Exact).updateGso).2.mu i j)) = mu at H ⊢
  generalize (fun i => val (((GSO.mk0 D n true false false false b (fun _ _ => 0) (fun _ _ => 0) jz jf : GSO Exact).updateGso).2.r i i)) = r at H ⊢
  generalize (fun i => dotZ n (b i) (b i)) = sqRow at H ⊢
  generalize (fun (d : ℕ) (x : ℕ → ℤ) => sqZ n (vecMat D n (fun i => if i < d then x i else 0) b)) = sq at H ⊢
  set a := shortestArgs .fast false ovr with ha
  have l1 := (lastUseful_spec r (D - 1)).1
  have l2 := (lastUseful_spec r (D - 1)).2.1
  have hok := svpInput_ok H h.pos l1 (by omega) (svpBound r sqRow err (lastUseful r (D - 1)) a) (a := a) rfl
  obtain ⟨m0, m1, -⟩ := svpBound_ge H (d := lastUseful r (D - 1)) l1 (by omega) herr (a := a) rfl
  have hmd0 : 0 ≤ svpBound r sqRow err (lastUseful r (D - 1)) a := le_trans (by exact_mod_cast m0) m1
  have hpo := pruneOK_none hok rfl
  have hE := fast_both hok hpo rfl (N := 1) le_rfl hmd0
  obtain ⟨M, hM⟩ := fuel_exists hok hpo hE maxPar
  refine ⟨M, fun fuel hf T hT => ⟨?_, fun o ho => ?_⟩⟩
  · obtain ⟨ev, md, ho⟩ := (C72_terminates hok hpo hE hT (hM fuel hf)).1
    exact ⟨_, .fast rfl ho⟩
  · cases ho with
    | proved ha' _ => simp [ha, shortestArgs] at ha'
    | fast _ ho =>
      obtain ⟨md', L, F⟩ := C72_found hok hpo rfl rfl hE hT (hM fuel hf) ho
      obtain ⟨c1, -, -, -, c5, -⟩ := fast_found H h.pos hD herr (a := a) rfl rfl rfl le_rfl F
      obtain ⟨q, hq⟩ := Option.ne_none_iff_exists'.1 (fun hl => c1 (List.getLast?_eq_none_iff.1 hl))
      exact ⟨_, collect_single hq, rfl, c5 q hq⟩

/-- **C72** (shortest vector, proved method in exact arithmetic) -/
theorem C72_shortest_vector_proved {D n : ℕ} (hD : 1 ≤ D) (hn : D ≤ n) (b jz : Mat ℤ) (jf : Mat Exact)
    (h : Indep D n (basisQ b)) {err : ℚ → ℚ} (herr : ∀ q, 0 ≤ q → 0 ≤ err q)
    (hmono : ∀ x y : ℚ, 0 ≤ x → x ≤ y → x + err x ≤ y + err y) (maxPar : ℕ) :
    ∃ N, ∀ fuel, N ≤ fuel → ∀ T, 1 ≤ T → (∃ o, SvpBasisOut maxPar fuel T D n b jz jf err (shortestArgs .proved false false) o) ∧
      ∀ o, SvpBasisOut maxPar fuel T D n b jz jf err (shortestArgs .proved false false) o → ∃ res, o = .done res ∧
        res.success = true ∧ IsShortest D n b res.coord := by
  have H := basis_data hD hn b jz jf h
  simp only [SvpBasisOut]
  generalize (fun i j => val (((GSO.mk0 D n true false false false b (fun _ _ => 0) (fun _ _ => 0) jz jf : GSO Exact).updateGso).2.mu i j)) = mu at H ⊢
  generalize (fun i => val (((GSO.mk0 D n true false false false b (fun _ _ => 0) (fun _ _ => 0) jz jf : GSO Exact).updateGso).2.r i i)) = r at H ⊢
  generalize (fun i => dotZ n (b i) (b i)) = sqRow at H ⊢
  generalize (fun (d : ℕ) (x : ℕ → ℤ) => sqZ n (vecMat D n (fun i => if i < d then x i else 0) b)) = sq at H ⊢
  set a := shortestArgs .proved false false with ha
  obtain ⟨hok, hE0, hI, hres⟩ := proved_core H h.pos hD herr
    (fun i j h1 h2 => hmono i j (by exact_mod_cast h1) (by exact_mod_cast h2)) (a := a) rfl rfl rfl rfl
  have l1 := (lastUseful_spec r (D - 1)).1
  have l2 := (lastUseful_spec r (D - 1)).2.1
  have hpo := pruneOK_none hok rfl
  have hsq : ∀ x, 0 ≤ sq (lastUseful r (D - 1)) x := fun x => by
    rw [H.sq _ (by omega)]; exact Finset.sum_nonneg (fun c _ => sq_nonneg _)
  have hE : BothOK (svpInput mu r (lastUseful r (D - 1)) (svpBound r sqRow err (lastUseful r (D - 1)) a) a)
      (exactEval 1 (sq (lastUseful r (D - 1))) err) (ExactInv (sq (lastUseful r (D - 1))) err
        (intMaxDist sqRow (lastUseful r (D - 1)) a) (svpBound r sqRow err (lastUseful r (D - 1)) a))
      (ExactInv (sq (lastUseful r (D - 1))) err
        (intMaxDist sqRow (lastUseful r (D - 1)) a) (svpBound r sqRow err (lastUseful r (D - 1)) a))
      (EvSt.new, intMaxDist sqRow (lastUseful r (D - 1)) a) := by
    refine ⟨hE0, hI, ⟨fun ev A x l hi _ _ _ _ => ?_⟩, hI⟩
    have hmd : ((intMaxDist sqRow (lastUseful r (D - 1)) a : ℤ) : ℚ) + err (intMaxDist sqRow (lastUseful r (D - 1)) a) ≤
        svpBound r sqRow err (lastUseful r (D - 1)) a := by
      unfold svpBound intMaxDist; simp [ha, shortestArgs]
    obtain ⟨h1, h2, -⟩ := exactEval_sol hsq
      (fun i j h1 h2 => hmono i j (by exact_mod_cast h1) (by exact_mod_cast h2)) hmd hi x l
    exact ⟨h1, h2⟩
  obtain ⟨M, hM⟩ := fuel_exists hok hpo hE maxPar
  refine ⟨M, fun fuel hf T hT => ⟨?_, fun o ho => ?_⟩⟩
  · obtain ⟨ev, md, ho⟩ := (C72_terminates hok hpo hE hT (hM fuel hf)).1
    exact ⟨_, .proved rfl ho⟩
  · cases ho with
    | fast ha' _ => simp [ha, shortestArgs] at ha'
    | proved _ ho =>
      rename_i ev md
      obtain ⟨md', L, F⟩ := C72_found hok hpo rfl rfl hE hT (hM fuel hf) ho
      obtain ⟨x, hx, hx2⟩ := hres ⟨F.fold, F.inv.elim id id, F.sound, F.comp⟩
      exact ⟨_, collect_single (q := (_, x)) (by rw [hx]; rfl), rfl, hx2⟩

/-- **C72** (shortest vector, proved method in floating-point arithmetic) C71 for whichever enumeration runs. -/
theorem C72_proved_double {P : ℕ} (hP : 53 ≤ P) {D n : ℕ} (hD : 1 ≤ D) {b : Mat ℤ} (hind : Indep D n (basisQ b))
    {mu : ℕ → ℕ → ℚ} {r : ℕ → ℚ} {dat : ℕ → Dat} {sqRow : ℕ → ℤ} {sq : ℕ → (ℕ → ℤ) → ℤ}
    (H : DataR D n b mu r (dat (lastUseful r (D - 1))) sqRow (sq (lastUseful r (D - 1))))
    {s : (ℕ → ℚ) × ℚ} (hs : Start (mpfr P) (1 - 1 / 2 ^ P) (dat (lastUseful r (D - 1)))
      (getBasisMin sqRow 0 (lastUseful r (D - 1))) s) (maxPar : ℕ) :
    ∃ N, ∀ fuel, N ≤ fuel → ∀ T, 1 ≤ T →
      (∃ o, ProvedOut maxPar fuel T (mpfr P) r53 toDoubleUp D mu r dat sqRow sq o) ∧
      ∀ o, ProvedOut maxPar fuel T (mpfr P) r53 toDoubleUp D mu r dat sqRow sq o →
        r 0 < s.2 ∧ o = .abort ∨ ∃ x, o = .done (some x) ∧ IsShortest D n b x := by
  have hd := H.hd
  obtain ⟨hok, hsq0, HD, hI, hres⟩ := provedR_core (lo := 1) hP hD hind H (fun x hx => by exact_mod_cast H.pos hD hind x hx) (s := s) (by rw [hd]; exact hs) rfl
  have hpo := pruneOK_none hok rfl
  have hE := both_same (evalR_ok hpo hsq0 HD) hI (fun ev A x l hi => evalR_sol hsq0 HD hi x l)
  obtain ⟨M, hM⟩ := fuel_exists hok hpo hE maxPar
  rw [hd] at hok hpo hE hM
  have hb : boundR (mpfr P) (dat (lastUseful r (D - 1))) toDoubleUp (getBasisMin sqRow 0 (lastUseful r (D - 1))) =
      some (toDoubleUp ((mpfr P).ru ((mpfr P).ru (getBasisMin sqRow 0 (lastUseful r (D - 1))) + s.2))) := by
    rw [boundR, hs.run]
  refine ⟨M, fun fuel hf T hT => ⟨?_, fun o ho => ?_⟩⟩
  · obtain ⟨ev, md, ho⟩ := (C72_terminates hok hpo hE hT (hM fuel hf)).1
    exact ⟨_, .enum hb ho⟩
  · cases ho with
    | first hf => rw [hb] at hf; cases hf
    | enum hb' ho =>
      rename_i md md' ev
      rw [hb] at hb'
      cases hb'
      obtain ⟨md', L, F⟩ := C72_found hok hpo rfl rfl hE hT (hM fuel hf) ho
      rw [hd] at hres
      obtain ⟨h1, h2⟩ := hres ⟨F.fold, F.inv.elim id id, F.sound, F.comp⟩
      by_cases ha : ev.aborted = true
      · refine .inl ⟨?_, by rw [if_pos ha]⟩
        by_contra hc
        have := h1 (not_lt.1 hc)
        rw [this] at ha
        cases ha
      · refine .inr ?_
        obtain ⟨δ, x, e1, e2⟩ := h2 (by simpa using ha)
        exact ⟨_, by rw [if_neg ha, e1], e2⟩

/-! ## The radius -/

/-- **C72** (radius) in primal problems both enumerations get the same normalised radius. -/
theorem C72_radius_primal (md : ℚ) (expo normexp : ℤ) : extRadius false md expo normexp = dynRadius false md expo normexp := by
  simp [extRadius, dynRadius]

/-- **C72** (finding) in dual problems the radius given to an external enumerator is wrong by the factor `2 ^ (-2 expo)`
(enumerate_ext.cpp:74 negates `fmaxdistexpo` with the normalisation); `enumlib_enumerate` refuses dual problems, so that this
concerns user-supplied enumerators. -/
theorem C72_radius_dual (md : ℚ) (expo normexp : ℤ) :
    extRadius true md expo normexp = dynRadius true md expo normexp * 2 ^ (-2 * expo) := by
  simp only [extRadius, dynRadius, if_true]
  rw [mul_assoc, ← zpow_add₀ (by norm_num)]
  congr 2
  ring

/-- they differ as soon as there is an exponent -/
theorem C72_radius_dual_iff {md : ℚ} (hm : 0 < md) (expo normexp : ℤ) :
    extRadius true md expo normexp = dynRadius true md expo normexp ↔ expo = 0 := by
  rw [C72_radius_dual]
  have h0 : dynRadius true md expo normexp ≠ 0 := by
    unfold dynRadius
    positivity
  constructor
  · intro h
    have h1 : (2 : ℚ) ^ (-2 * expo) = 1 := by
      have := mul_left_cancel₀ h0 (h.trans (mul_one _).symm)
      exact this
    have h2 : (2 : ℚ) ^ (-2 * expo) = 2 ^ (0 : ℤ) := by rw [h1]; norm_num
    have := zpow_right_injective₀ (by norm_num : (0 : ℚ) < 2) (by norm_num) h2
    omega
  · rintro rfl
    simp

/-! ## The hypotheses are met -/

/-- a 12-dimensional basis: `i + 2` on the diagonal, ones below -/
def exB : Mat ℤ := fun i j => if i = j then i + 2 else if j < i then 1 else 0

theorem exB_indep : Indep 12 12 (basisQ exB) := by
  intro x hx
  have e : ∀ c, c < 12 → ∑ i ∈ Finset.range 12, x i * basisQ exB i c = 0 := hx
  simp only [Finset.sum_range_succ, Finset.sum_range_zero, basisQ, exB] at e
  have h11 := e 11 (by norm_num)
  have h10 := e 10 (by norm_num)
  have h9 := e 9 (by norm_num)
  have h8 := e 8 (by norm_num)
  have h7 := e 7 (by norm_num)
  have h6 := e 6 (by norm_num)
  have h5 := e 5 (by norm_num)
  have h4 := e 4 (by norm_num)
  have h3 := e 3 (by norm_num)
  have h2 := e 2 (by norm_num)
  have h1 := e 1 (by norm_num)
  have h0 := e 0 (by norm_num)
  norm_num at h0 h1 h2 h3 h4 h5 h6 h7 h8 h9 h10 h11
  intro i hi
  interval_cases i <;> linarith

example (jf : Mat Exact) (err : ℚ → ℚ) (herr : ∀ q, 0 ≤ q → 0 ≤ err q) : ∃ N, ∀ fuel, N ≤ fuel →
    (∃ o, SvpBasisOut 160 fuel 4 12 12 exB (fun _ _ => 0) jf err (shortestArgs .fast false false) o) ∧
    ∀ o, SvpBasisOut 160 fuel 4 12 12 exB (fun _ _ => 0) jf err (shortestArgs .fast false false) o → ∃ res,
      o = .done res ∧ res.success = true ∧ IsShortest 12 12 exB res.coord :=
  (C72_shortest_vector (by norm_num) (by norm_num) exB _ _ exB_indep herr false 160).imp
    fun _ h fuel hf => h fuel hf 4 (by norm_num)

/-- there the parallel enumeration runs -/
example (mu : ℕ → ℕ → ℚ) (r : ℕ → ℚ) (md : ℚ) : tryExt 160 (svpInput mu r 12 md (shortestArgs .fast false false)) = some 12 := by
  rfl

end Ext
end Fplll

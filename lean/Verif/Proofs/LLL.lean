import Verif.Model.LLL
import Verif.Proofs.GSO

/-!
# LLL on arbitrary floats: every run is a sequence of unimodular row operations
-/

set_option linter.unusedSectionVars false

namespace Fplll

open FloatOps GSO

namespace LLL

variable {F : Type} [FloatOps F]

/-- the bookkeeping counters are unchanged -/
structure SameDims (s s' : GSO F) : Prop where
  known : s'.nKnownRows = s.nKnownRows
  source : s'.nSourceRows = s.nSourceRows
  locked : s'.colsLocked = s.colsLocked

theorem SameDims.refl (s : GSO F) : SameDims s s := ⟨rfl, rfl, rfl⟩

theorem SameDims.trans {s t v : GSO F} (h1 : SameDims s t) (h2 : SameDims t v) : SameDims s v :=
  ⟨h2.known.trans h1.known, h2.source.trans h1.source, h2.locked.trans h1.locked⟩

theorem SameDims.of_fo {s t : GSO F} (h : FloatOnly s t) : SameDims s t :=
  ⟨h.nKnownRows, h.nSourceRows, h.colsLocked⟩

theorem rowAddmulWe_dims (s : GSO F) (i j : ℕ) (x : F) : SameDims s (s.rowAddmulWe i j x) := by
  unfold rowAddmulWe
  dsimp only
  split_ifs <;> exact ⟨rfl, rfl, rfl⟩

/-- the whole reduction loop of `babai` -/
theorem babaiPass_good {s : GSO F} (hs : WF s) {kappa start stop : ℕ} (hk : kappa < s.nKnownRows)
    (hsrc : stop ≤ s.nSourceRows) (hle : stop ≤ kappa) :
    Good s (babaiPass s kappa start stop) ∧ SameDims s (babaiPass s kappa start stop) := by
  unfold babaiPass
  dsimp only
  have h := forDown_inv' (fun p : GSO F × (ℕ → F) => Good s p.1 ∧ SameDims s p.1)
    (babaiStep kappa start) start stop
    (s, forUp start stop (fun j (bm : ℕ → F) => setAt bm j (s.mu kappa j)) (fun _ => nan))
    ⟨.refl hs, .refl s⟩
    (by
      rintro j ⟨t, bm⟩ h1 h2 ⟨g, dm⟩
      unfold babaiStep
      dsimp only at g dm ⊢
      split_ifs with hz
      · exact ⟨g, dm⟩
      · have e := rowAddmulWe_good g.wf (i := kappa) (j := j) (by rw [dm.known]; exact hk)
          (by rw [dm.source]; omega) (by omega) (neg (rnd (bm j)))
        exact ⟨g.trans e, dm.trans (rowAddmulWe_dims _ _ _ _)⟩)
  obtain ⟨g, dm⟩ := h
  have fo := rowOpEnd_fo (forDown start stop (babaiStep kappa start)
    (s, forUp start stop (fun j (bm : ℕ → F) => setAt bm j (s.mu kappa j)) (fun _ => nan))).1
      kappa (kappa + 1)
  exact ⟨g.trans (fo.good g.wf), dm.trans (.of_fo fo)⟩

/-- what `babai` does to the object: unimodular operations, and it may discover row `kappa` -/
structure BabaiRes (s s' : GSO F) (kappa : ℕ) : Prop where
  good : Good s s'
  known : s'.nKnownRows = max s.nKnownRows (kappa + 1)
  source : s'.nSourceRows =
    if s.nKnownRows ≤ kappa ∧ s.colsLocked = false then kappa + 1 else s.nSourceRows
  locked : s'.colsLocked = s.colsLocked

theorem updateGsoRow_res {s : GSO F} (hs : WF s) {kappa l : ℕ} (hd : kappa < s.d)
    (hk : kappa ≤ s.nKnownRows) : BabaiRes s (s.updateGsoRow kappa l).2 kappa := by
  refine ⟨updateGsoRow_good hs hd l, ?_, ?_, updateGsoRow_locked s kappa l⟩
  · rw [updateGsoRow_known]; split_ifs <;> omega
  · rw [updateGsoRow_source]; split_ifs <;> omega

theorem BabaiRes.trans {s t v : GSO F} {kappa : ℕ} (h1 : BabaiRes s t kappa) (h2 : BabaiRes t v kappa)
    : BabaiRes s v kappa := by
  refine ⟨h1.good.trans h2.good, ?_, ?_, h2.locked.trans h1.locked⟩
  · rw [h2.known, h1.known]; omega
  · rw [h2.source, if_neg, h1.source]; rw [h1.known]; omega

theorem BabaiRes.dims {s t v : GSO F} {kappa : ℕ} (h1 : BabaiRes s t kappa) (h2 : Good t v)
    (h3 : SameDims t v) : BabaiRes s v kappa :=
  ⟨h1.good.trans h2, h3.known.trans h1.known, h3.source.trans h1.source, h3.locked.trans h1.locked⟩

theorem babaiLoop_res (c : LLLCfg F) {kappa stop start : ℕ} (fuel iter : ℕ) (e : ℤ) (s : GSO F)
    (hs : WF s) (hd : kappa < s.d) (hk : kappa ≤ s.nKnownRows) (hle : stop ≤ kappa)
    (hsrc : stop ≤ s.nSourceRows) (h0 : 0 < fuel) :
    BabaiRes s (babaiLoop c kappa stop start fuel iter e s).2 kappa := by
  induction fuel generalizing iter e s with
  | zero => omega
  | succ fuel ih =>
    have g1 := updateGsoRow_res (l := stop) hs hd hk
    rw [babaiLoop]
    have hsd : (s.updateGsoRow kappa stop).2.d = s.d := g1.good.cfg.d
    have hkn : kappa < (s.updateGsoRow kappa stop).2.nKnownRows := by rw [g1.known]; omega
    have hsr : stop ≤ (s.updateGsoRow kappa stop).2.nSourceRows := by rw [g1.source]; split_ifs <;> omega
    obtain ⟨g2, d2⟩ := babaiPass_good (start := start) g1.good.wf hkn hsr hle
    have next : ∀ it e', BabaiRes s (babaiLoop c kappa stop start fuel it e'
        (babaiPass (s.updateGsoRow kappa stop).2 kappa start stop)).2 kappa := by
      intro it e'
      cases fuel with
      | zero => exact g1.dims g2 d2
      | succ fuel =>
        refine (g1.dims g2 d2).trans (ih it e' _ g2.wf ?_ ?_ ?_ (by omega))
        · rw [g2.cfg.d, hsd]; exact hd
        · rw [d2.known]; omega
        · rw [d2.source]; exact hsr
    dsimp only
    split_ifs
    · exact g1
    · exact g1
    · exact g1
    · exact next _ _
    · exact next _ _

/-- preconditions of `babai` -/
structure BabaiPre (s : GSO F) (kappa stop : ℕ) : Prop where
  wf : WF s
  lt : kappa < s.d
  known : kappa ≤ s.nKnownRows
  stop_le : stop ≤ kappa
  source : stop ≤ s.nSourceRows

theorem babai_good (c : LLLCfg F) (fuel : ℕ) {s : GSO F} {kappa stop : ℕ} (start : ℕ)
    (h : BabaiPre s kappa stop) : Good s (babai c fuel s kappa stop start).2 := by
  unfold babai
  cases fuel with
  | zero => exact .refl h.wf
  | succ fuel =>
    exact (babaiLoop_res c _ _ _ s h.wf h.lt h.known h.stop_le h.source (by omega)).good

theorem babai_res (c : LLLCfg F) (fuel : ℕ) {s : GSO F} {kappa stop : ℕ} (start : ℕ)
    (h : BabaiPre s kappa stop) (hok : (babai c fuel s kappa stop start).1 = .success) :
    BabaiRes s (babai c fuel s kappa stop start).2 kappa := by
  unfold babai at *
  cases fuel with
  | zero => simp [babaiLoop] at hok
  | succ fuel => exact babaiLoop_res c _ _ _ s h.wf h.lt h.known h.stop_le h.source (by omega)

theorem earlyLoop_good (c : LLLCfg F) (fuel start srs n i : ℕ) (s : GSO F) (hs : WF s)
    (hd : i + n ≤ s.d) (hi : start ≤ i) (hk : i ≤ s.nKnownRows) (hsrc : start ≤ s.nSourceRows) :
    Good s (earlyLoop c fuel start srs n i s).2 ∧
    ((earlyLoop c fuel start srs n i s).1 = .success →
      start ≤ (earlyLoop c fuel start srs n i s).2.nSourceRows) ∧
    (s.colsLocked = true → (earlyLoop c fuel start srs n i s).1 = .success →
      (earlyLoop c fuel start srs n i s).2.nSourceRows = s.nSourceRows) := by
  induction n generalizing i s with
  | zero => exact ⟨.refl hs, fun _ => hsrc, fun _ _ => rfl⟩
  | succ n ih =>
    have pre : BabaiPre s i start := ⟨hs, by omega, hk, hi, hsrc⟩
    rw [earlyLoop]
    have g := babai_good c fuel srs pre
    split_ifs with h
    · have r := babai_res c fuel srs pre h
      have := ih (i + 1) _ g.wf (by rw [g.cfg.d]; omega) (by omega) (by rw [r.known]; omega)
        (by rw [r.source]; split_ifs <;> omega)
      refine ⟨g.trans this.1, this.2.1, ?_⟩
      intro hl h2
      rw [this.2.2 (by rw [r.locked]; exact hl) h2, r.source, if_neg (by rw [hl]; simp)]
    · exact ⟨g, fun h2 => absurd h2 h, fun _ h2 => absurd h2 h⟩

theorem earlyReduction_good (c : LLLCfg F) (fuel : ℕ) {s : GSO F} {start : ℕ} (srs : ℕ) (hs : WF s)
    (hG : s.intGram = false) (hd : start ≤ s.d) (hk : start ≤ s.nKnownRows) (hl : s.colsLocked = false) :
    Good s (earlyReduction c fuel s start srs).2 ∧
    ((earlyReduction c fuel s start srs).1 = .success →
      (earlyReduction c fuel s start srs).2.nKnownRows = s.nKnownRows ∧
      (earlyReduction c fuel s start srs).2.nSourceRows = s.nSourceRows ∧
      (earlyReduction c fuel s start srs).2.colsLocked = false) := by
  have g0 := lockCols_good hs hG
  have hsrc := hs.unlocked hl
  have e := earlyLoop_good c fuel start srs (s.d - start) start s.lockCols g0.wf
    (by rw [g0.cfg.d]; omega) le_rfl hk (by change start ≤ s.nSourceRows; omega)
  unfold earlyReduction
  dsimp only
  have g := g0.trans e.1
  split_ifs with h
  · have e3 := e.2.2 rfl h
    refine ⟨g.trans (unlockCols_good g.wf), fun _ => ⟨?_, e3, rfl⟩⟩
    change (earlyLoop c fuel start srs (s.d - start) start s.lockCols).2.nSourceRows = _
    rw [e3]; exact hsrc
  · exact ⟨g, fun h2 => absurd h2 h⟩

theorem moveRow_locked (s : GSO F) (o n : ℕ) : (s.moveRow o n).colsLocked = s.colsLocked := by
  unfold moveRow
  split_ifs
  · rfl
  · unfold moveRowForget; dsimp only; split_ifs <;> rfl
  · rfl

theorem moveRow_known (s : GSO F) (o n : ℕ) : (s.moveRow o n).nKnownRows =
    if o < n ∧ s.nKnownRows ≤ n ∧ o < s.nKnownRows then s.nKnownRows - 1 else s.nKnownRows := by
  unfold moveRow
  split_ifs with h1 h3 h2 h3 h3
  · omega
  · rfl
  · unfold moveRowForget; dsimp only
    change (if s.nKnownRows ≤ n then _ else _ : GSO F).nKnownRows = _
    rw [if_pos h3.2.1]
    change (if o < s.nKnownRows then _ else _ : GSO F).nKnownRows = _
    rw [if_pos h3.2.2]; rfl
  · unfold moveRowForget; dsimp only
    change (if s.nKnownRows ≤ n then _ else _ : GSO F).nKnownRows = _
    split_ifs with h4 h5
    · exact absurd ⟨h2, h4, h5⟩ h3
    · rfl
    · rfl
  · omega
  · rfl

theorem zeroLoop_good (kmin kend n zeros : ℕ) (s : GSO F) (hs : WF s) (hl : s.colsLocked = false)
    (hd : kend ≤ s.d) (hn : kmin + (zeros + n) = kend) :
    Good s (zeroLoop kmin kend n zeros s).2 ∧ (zeroLoop kmin kend n zeros s).2.colsLocked = false ∧
    (zeroLoop kmin kend n zeros s).1 ≤ zeros + n ∧
    (rowIsZero s 0 = false → (zeroLoop kmin kend n zeros s).2 = s) ∧
    ((zeroLoop kmin kend n zeros s).1 < zeros + n →
      rowIsZero (zeroLoop kmin kend n zeros s).2 0 = false) := by
  induction n generalizing zeros s with
  | zero => exact ⟨.refl hs, hl, by simp [zeroLoop], fun _ => rfl, by simp [zeroLoop]⟩
  | succ n ih =>
    rw [zeroLoop]
    split_ifs with h
    · have g : Good s (s.moveRow kmin (kend - 1 - zeros)) :=
        moveRow_good hs hl (by omega) (by omega)
      have := ih (zeros + 1) _ g.wf (by rw [moveRow_locked]; exact hl) (by rw [g.cfg.d]; exact hd) (by omega)
      refine ⟨g.trans this.1, this.2.1, by omega, fun h2 => absurd h2 (by simp [h]), ?_⟩
      intro h2; exact this.2.2.2.2 (by omega)
    · exact ⟨.refl hs, hl, by omega, fun _ => rfl, fun _ => by simpa using h⟩

theorem insertIdx_le (c : LLLCfg F) (s : GSO F) (lov : ℕ → F) (kmin k : ℕ) :
    insertIdx c s lov kmin k ≤ k := by
  induction k with
  | zero => simp [insertIdx]
  | succ k ih => rw [insertIdx]; split_ifs <;> omega

theorem setR_dims (s : GSO F) (i j : ℕ) (f : F) : SameDims s (s.setR i j f) := .of_fo (setR_fo s i j f)

/-- invariant of the main loop of LLL -/
structure MainInv (s0 : GSO F) (kend : ℕ) (st : LLLState F) : Prop where
  good : Good s0 st.s
  unlocked : st.s.colsLocked = false
  known : st.kappa < kend - st.zeros → 1 ≤ st.kappa ∧ st.kappa ≤ st.s.nKnownRows

theorem lovaszStep_inv (c : LLLCfg F) {kmin kend : ℕ} {s0 : GSO F} {st : LLLState F} (hkd : kend ≤ s0.d)
    (hg : Good s0 st.s) (hl : st.s.colsLocked = false) (h1 : 1 ≤ st.kappa)
    (hk : st.kappa < st.s.nKnownRows) (hlt : st.kappa < kend - st.zeros) :
    MainInv s0 kend (lovaszStep c kmin kend st) := by
  unfold lovaszStep
  dsimp only
  have fo := cacheGram_fo st.s st.kappa st.kappa
  have g1 := hg.trans (fo.good hg.wf)
  have hl1 : (st.s.cacheGram st.kappa st.kappa).colsLocked = false := hl
  have hk1 : st.kappa < (st.s.cacheGram st.kappa st.kappa).nKnownRows := hk
  generalize st.s.cacheGram st.kappa st.kappa = s at *
  have hd : s.d = s0.d := g1.cfg.d
  have hins := insertIdx_le c s (lovaszTests s st.kappa) kmin (st.kappa - 1)
  generalize insertIdx c s (lovaszTests s st.kappa) kmin (st.kappa - 1) = k at *
  split_ifs with h2 h3
  · have g2 : Good s (s.moveRow st.kappa k) := moveRow_good g1.wf hl1 (by omega) (by omega)
    refine ⟨g1.trans (g2.trans ((setR_fo _ _ _ _).good g2.wf)), ?_, fun _ => ⟨by dsimp only; omega, ?_⟩⟩
    · exact ((setR_dims _ _ _ _).locked).trans (by rw [moveRow_locked]; exact hl1)
    · dsimp only
      rw [(setR_dims _ _ _ _).known, moveRow_known, if_neg (by omega)]; omega
  · have g2 : Good s (s.moveRow st.kappa (kend - (st.zeros + 1))) :=
      moveRow_good g1.wf hl1 (by omega) (by omega)
    refine ⟨g1.trans g2, by dsimp only; rw [moveRow_locked]; exact hl1, fun _ => ⟨h1, ?_⟩⟩
    dsimp only
    rw [moveRow_known]; split_ifs <;> omega
  · refine ⟨g1.trans ((setR_fo _ _ _ _).good g1.wf), ?_, fun _ => ⟨by dsimp only; omega, ?_⟩⟩
    · exact ((setR_dims _ _ _ _).locked).trans hl1
    · dsimp only; rw [(setR_dims _ _ _ _).known]; omega

theorem discoverStep_inv (c : LLLCfg F) (fuel srs : ℕ) {kend : ℕ} {s0 : GSO F} {st : LLLState F}
    (hkd : kend ≤ s0.d) (h : MainInv s0 kend st) (hlt : st.kappa < kend - st.zeros) :
    Good s0 (discoverStep c fuel srs st).2.s ∧
    ((discoverStep c fuel srs st).1 = .success → MainInv s0 kend (discoverStep c fuel srs st).2 ∧
      (discoverStep c fuel srs st).2.kappa = st.kappa ∧ (discoverStep c fuel srs st).2.zeros = st.zeros) := by
  have hk := h.known hlt
  unfold discoverStep
  dsimp only
  split_ifs with h1 h2 h3
  · simp only [Bool.and_eq_true, Bool.not_eq_eq_eq_not, Bool.not_true, decide_eq_true_eq] at h2
    have hdk := h.good.wf.known_le
    have e := earlyReduction_good c fuel srs h.good.wf h2.1.1.2 (start := st.kappa) (by omega) hk.2 h.unlocked
    obtain ⟨e1, e2⟩ := e
    refine ⟨h.good.trans e1, fun _ => ⟨⟨h.good.trans e1, (e2 h3).2.2, fun _ => ⟨hk.1, ?_⟩⟩, rfl, rfl⟩⟩
    dsimp only; rw [(e2 h3).1]; exact hk.2
  · simp only [Bool.and_eq_true, Bool.not_eq_eq_eq_not, Bool.not_true, decide_eq_true_eq] at h2
    have hdk := h.good.wf.known_le
    have e := earlyReduction_good c fuel srs h.good.wf h2.1.1.2 (start := st.kappa) (by omega) hk.2 h.unlocked
    exact ⟨h.good.trans e.1, fun h4 => absurd h4 h3⟩
  · exact ⟨h.good, fun _ => ⟨⟨h.good, h.unlocked, fun _ => hk⟩, rfl, rfl⟩⟩
  · exact ⟨h.good, fun _ => ⟨h, rfl, rfl⟩⟩

theorem mainLoop_inv (c : LLLCfg F) (fuel kmin srs : ℕ) {kend : ℕ} {s0 : GSO F} (n : ℕ) (st : LLLState F)
    (hkd : kend ≤ s0.d) (h : MainInv s0 kend st) :
    Good s0 (mainLoop c fuel kmin kend srs n st).2.s := by
  induction n generalizing st with
  | zero => exact h.good
  | succ n ih =>
    rw [mainLoop]
    dsimp only
    split_ifs with h1 h2 h3
    · exact (discoverStep_inv c fuel srs hkd h h1).1
    · obtain ⟨a1, a2⟩ := discoverStep_inv c fuel srs hkd h h1
      obtain ⟨b1, b2, b3⟩ := a2 (by simpa using h2)
      have hk := b1.known (by rw [b2, b3]; exact h1)
      have hdk := b1.good.wf.known_le
      have hd := b1.good.cfg.d
      have pre : BabaiPre (discoverStep c fuel srs st).2.s (discoverStep c fuel srs st).2.kappa
          (discoverStep c fuel srs st).2.kappa :=
        ⟨b1.good.wf, by rw [hd, b2]; omega, hk.2, le_rfl, by rw [b1.good.wf.unlocked b1.unlocked]; exact hk.2⟩
      exact b1.good.trans (babai_good c fuel srs pre)
    · obtain ⟨a1, a2⟩ := discoverStep_inv c fuel srs hkd h h1
      obtain ⟨b1, b2, b3⟩ := a2 (by simpa using h2)
      have hk := b1.known (by rw [b2, b3]; exact h1)
      have hdk := b1.good.wf.known_le
      have hd := b1.good.cfg.d
      have pre : BabaiPre (discoverStep c fuel srs st).2.s (discoverStep c fuel srs st).2.kappa
          (discoverStep c fuel srs st).2.kappa :=
        ⟨b1.good.wf, by rw [hd, b2]; omega, hk.2, le_rfl, by rw [b1.good.wf.unlocked b1.unlocked]; exact hk.2⟩
      have g := babai_good c fuel srs pre
      have r := babai_res c fuel srs pre (by simpa using h3)
      refine ih _ (lovaszStep_inv c hkd (b1.good.trans g) (by dsimp only; rw [r.locked]; exact b1.unlocked)
        hk.1 (by dsimp only; rw [r.known]; omega) (by dsimp only; rw [b2, b3]; exact h1))
    · exact h.good

theorem symmetrizeG_low (s : GSO F) (i j : ℕ) (h : j ≤ i) : s.symmetrizeG.g i j = s.g i j := by
  have := forUp_inv' (fun g : Mat ℤ => ∀ p q, q ≤ p → g p q = s.g p q)
    (fun i (g : Mat ℤ) => forUp 0 s.d (fun j (g : Mat ℤ) => Mat.set g i j (symGet g i j)) g) 0 s.d s.g
    (fun _ _ _ => rfl)
    (by
      intro a g _ _ hg
      refine forUp_inv' (fun g : Mat ℤ => ∀ p q, q ≤ p → g p q = s.g p q) _ 0 s.d g hg ?_
      intro b w _ _ hw p q hqp
      rw [Mat.set_apply]
      split_ifs with e
      · rw [e.1, e.2, symGet_of_le _ (by omega)]; exact hw a b (by omega)
      · exact hw p q hqp)
  exact this i j h

theorem symmetrizeG_good {s : GSO F} (hs : WF s) : Good s s.symmetrizeG := by
  refine ⟨⟨hs.src_le, hs.known_le, hs.unlocked, hs.cols_pos, hs.cols_le, hs.init_le, hs.zeroSrc, hs.zeroNew,
    hs.lockGram, ?_⟩, ⟨rfl, rfl, rfl, rfl, rfl, rfl⟩, .of_eq rfl rfl rfl⟩
  intro hG i hi j hj
  rw [show s.symmetrizeG.ip i j = s.ip i j from rfl, ← hs.gram hG i hi j hj]
  unfold symGet
  split_ifs with h
  · exact symmetrizeG_low s i j h
  · exact symmetrizeG_low s j i (by omega)

/-- Preconditions of `lll`, lll.cpp:50, plus what its code relies on silently: the columns are not
locked, and either it starts at row 0 or the rows before `kappa_start` are known and the first row is
not zero. -/
structure LLLPre (s : GSO F) (kmin kstart kend : ℕ) : Prop where
  wf : WF s
  unlocked : s.colsLocked = false
  le : kmin ≤ kstart
  lt : kstart < kend
  end_le : kend ≤ s.d
  start : kstart = 0 ∨ (rowIsZero s 0 = false ∧ kstart ≤ s.nKnownRows)

theorem startTail_good {s : GSO F} {kstart : ℕ} (p : LLLStatus × GSO F) (g : Good s p.2) (hd : kstart < s.d)
    (hp : p.1 = .success → kstart ≤ p.2.nKnownRows ∧ p.2.colsLocked = false) :
    Good s (startTail kstart p).2 ∧
    ((startTail kstart p).1 = .success →
      kstart + 1 ≤ (startTail kstart p).2.nKnownRows ∧ (startTail kstart p).2.colsLocked = false) := by
  unfold startTail
  dsimp only
  split_ifs with h1 h2
  · exact ⟨g, fun h => absurd h h1⟩
  · obtain ⟨p1, p2⟩ := hp (by simpa using h1)
    have r := updateGsoRow_res (l := kstart + 1) g.wf (kappa := kstart) (by rw [g.cfg.d]; exact hd) p1
    exact ⟨g.trans r.good, fun _ => ⟨by dsimp only; rw [r.known]; omega, by dsimp only; rw [r.locked]; exact p2⟩⟩
  · obtain ⟨p1, p2⟩ := hp (by simpa using h1)
    have r := updateGsoRow_res (l := kstart + 1) g.wf (kappa := kstart) (by rw [g.cfg.d]; exact hd) p1
    exact ⟨g.trans r.good, fun h => by cases h⟩

theorem startStep_good (c : LLLCfg F) (fuel : ℕ) {s : GSO F} {kstart : ℕ} (srs : ℕ)
    (hs : WF s) (hl : s.colsLocked = false) (hd : kstart < s.d) (hk : kstart ≤ s.nKnownRows) :
    Good s (startStep c fuel s kstart srs).2 ∧
    ((startStep c fuel s kstart srs).1 = .success →
      kstart + 1 ≤ (startStep c fuel s kstart srs).2.nKnownRows ∧
      (startStep c fuel s kstart srs).2.colsLocked = false) := by
  unfold startStep
  have pre : BabaiPre s kstart kstart := ⟨hs, hd, hk, le_rfl, by rw [hs.unlocked hl]; exact hk⟩
  refine startTail_good _ ?_ hd ?_
  · split_ifs
    · exact babai_good c fuel srs pre
    · exact .refl hs
  · split_ifs
    · intro h
      have r := babai_res c fuel srs pre h
      exact ⟨by rw [r.known]; omega, by rw [r.locked]; exact hl⟩
    · intro _; exact ⟨hk, hl⟩

theorem lllFinish_good {s : GSO F} (kend : ℕ) (q : LLLStatus × LLLState F) (g : Good s q.2.s) :
    Good s (lllFinish kend q).2.s := by
  unfold lllFinish
  split_ifs
  · exact g
  · exact g.trans (symmetrizeG_good g.wf)
  · exact g
  · exact g.trans (symmetrizeG_good g.wf)
  · exact g

/-- **LLL is a sequence of unimodular operations**, whatever the floats, the iteration limit and the
outcome. -/
theorem lll_good (c : LLLCfg F) (fuel maxIter last : ℕ) {s : GSO F} {kmin kstart kend : ℕ} (srs : ℕ)
    (h : LLLPre s kmin kstart kend) :
    Good s (lll c fuel maxIter last s kmin kstart kend srs).2.s := by
  unfold lll
  dsimp only
  have hlt := h.lt
  have hle := h.le
  obtain ⟨z1, z2, z3, z4, z5⟩ := zeroLoop_good kmin kend (kend - kmin) 0 s h.wf h.unlocked h.end_le (by omega)
  have hknown : kstart ≤ (zeroLoop kmin kend (kend - kmin) 0 s).2.nKnownRows := by
    rcases h.start with h0 | ⟨h1, h2⟩
    · omega
    · rw [z4 h1]; exact h2
  have hd : (zeroLoop kmin kend (kend - kmin) 0 s).2.d = s.d := z1.cfg.d
  have hend := h.end_le
  generalize zeroLoop kmin kend (kend - kmin) 0 s = z at *
  have hss := startStep_good c fuel srs z1.wf z2 (kstart := kstart) (by omega) hknown
  have key : ∀ p : LLLStatus × GSO F, Good s p.2 → (p.1 = .success → p.2.colsLocked = false) →
      (p.1 = .success → kstart + 1 < kend - z.1 → kstart + 1 ≤ p.2.nKnownRows) →
      Good s (lllTail c fuel maxIter kmin kend srs
        { s := z.2, kappa := kstart + 1, kappaMax := 0, zeros := z.1, nSwaps := 0, lastEarlyRed := last } p).2.s := by
    intro p g hp hp2
    unfold lllTail
    by_cases hps : p.1 = .success
    · rw [if_neg (by simpa using hps)]
      exact lllFinish_good kend _ (mainLoop_inv c fuel kmin srs maxIter _ h.end_le
        ⟨g, hp hps, fun hh => ⟨by dsimp only; omega, hp2 hps hh⟩⟩)
    · rw [if_pos (by simpa using hps)]
      exact g
  refine key _ ?_ ?_ ?_
  · split_ifs
    · exact z1.trans hss.1
    · exact z1
  · split_ifs
    · intro h; exact (hss.2 h).2
    · intro _; exact z2
  · split_ifs with hz
    · intro h _; exact (hss.2 h).1
    · intro _ h; omega

theorem sizeReductionLoop_good (c : LLLCfg F) (fuel srs n k : ℕ) (s : GSO F) (hs : WF s)
    (hl : s.colsLocked = false) (hd : k + n ≤ s.d) (hk : k ≤ s.nKnownRows) :
    Good s (sizeReductionLoop c fuel srs n k s).2 := by
  induction n generalizing k s with
  | zero => exact .refl hs
  | succ n ih =>
    have e := startStep_good c fuel srs hs hl (kstart := k) (by omega) hk
    rw [sizeReductionLoop]
    split_ifs with h
    · exact e.1.trans (ih (k + 1) _ e.1.wf (e.2 h).2 (by rw [e.1.cfg.d]; omega) (e.2 h).1)
    · exact e.1

end LLL
end Fplll

namespace Fplll
namespace LLL

open FloatOps GSO

variable {F : Type} [FloatOps F]

/-! ### termination of `babai` -/

theorem maxMuExp_ge (s : GSO F) (i n : ℕ) : longMin ≤ maxMuExp s i n := by
  unfold maxMuExp
  exact forUp_inv' (fun e : ℤ => longMin ≤ e) _ 0 n _ le_rfl (fun j e _ _ h => le_max_of_le_left h)

theorem babaiLoop_fuel (c : LLLCfg F) (kappa stop start fuel iter : ℕ) (e : ℤ) (s : GSO F) (hi : 2 ≤ iter)
    (he : longMin ≤ e) (hf : e - longMin < 5 * fuel) :
    (babaiLoop c kappa stop start fuel iter e s).1 ≠ .outOfFuel := by
  induction fuel generalizing iter e s with
  | zero => simp at hf; omega
  | succ fuel ih =>
    rw [babaiLoop]
    dsimp only
    split_ifs with h1 h2 h3
    · simp
    · simp
    · simp
    · refine ih (iter + 1) _ _ (by omega) (maxMuExp_ge _ _ _) ?_
      unfold sizeRedFailureThresh at h3
      push_cast at hf
      omega

/-- number of iterations that always suffices for the loop of `babai` -/
def babaiFuel : ℕ := 2 ^ 62

theorem babai_fuel (c : LLLCfg F) (fuel : ℕ) (hf : babaiFuel ≤ fuel) (s : GSO F) (kappa stop start : ℕ) :
    (babai c fuel s kappa stop start).1 ≠ .outOfFuel := by
  unfold babaiFuel at hf
  obtain ⟨f, rfl⟩ : ∃ f, fuel = f + 2 := ⟨fuel - 2, by norm_num at hf; omega⟩
  have h2 : ∀ t : GSO F, (babaiLoop c kappa stop start f 2 longMax t).1 ≠ .outOfFuel := by
    intro t
    refine babaiLoop_fuel c kappa stop start f 2 longMax t le_rfl ?_ ?_
    · unfold longMin longMax; norm_num
    · unfold longMin longMax; norm_num at hf ⊢; omega
  unfold babai
  rw [babaiLoop]
  dsimp only
  split_ifs with h1 h3 h4
  · simp
  · simp
  · omega
  · omega
  · rw [babaiLoop]
    dsimp only
    split_ifs with h1 h3 h4
    · simp
    · simp
    · omega
    · omega
    · exact h2 _

theorem earlyLoop_fuel (c : LLLCfg F) (fuel : ℕ) (hf : babaiFuel ≤ fuel) (start srs n i : ℕ) (s : GSO F) :
    (earlyLoop c fuel start srs n i s).1 ≠ .outOfFuel := by
  induction n generalizing i s with
  | zero => simp [earlyLoop]
  | succ n ih =>
    rw [earlyLoop]
    split_ifs
    · exact ih _ _
    · exact babai_fuel c fuel hf _ _ _ _

theorem discoverStep_fuel (c : LLLCfg F) (fuel : ℕ) (hf : babaiFuel ≤ fuel) (srs : ℕ) (st : LLLState F) :
    (discoverStep c fuel srs st).1 ≠ .outOfFuel := by
  unfold discoverStep
  dsimp only
  split_ifs
  · simp
  · dsimp only
    unfold earlyReduction
    dsimp only
    split_ifs
    · simp
    · exact earlyLoop_fuel c fuel hf _ _ _ _ _
  · simp
  · simp

theorem mainLoop_fuel (c : LLLCfg F) (fuel : ℕ) (hf : babaiFuel ≤ fuel) (kmin kend srs n : ℕ) (st : LLLState F) :
    (mainLoop c fuel kmin kend srs n st).1 ≠ .outOfFuel := by
  induction n generalizing st with
  | zero => simp [mainLoop]
  | succ n ih =>
    rw [mainLoop]
    dsimp only
    split_ifs
    · exact discoverStep_fuel c fuel hf srs st
    · exact babai_fuel c fuel hf _ _ _ _
    · exact ih _
    · simp

theorem startStep_fuel (c : LLLCfg F) (fuel : ℕ) (hf : babaiFuel ≤ fuel) (s : GSO F) (k srs : ℕ) :
    (startStep c fuel s k srs).1 ≠ .outOfFuel := by
  unfold startStep startTail
  dsimp only
  split_ifs
  · exact babai_fuel c fuel hf _ _ _ _
  · simp
  · simp
  · simp_all
  · simp
  · simp

theorem lll_fuel (c : LLLCfg F) (fuel : ℕ) (hf : babaiFuel ≤ fuel) (maxIter last : ℕ) (s : GSO F)
    (kmin kstart kend srs : ℕ) : (lll c fuel maxIter last s kmin kstart kend srs).1 ≠ .outOfFuel := by
  unfold lll lllTail lllFinish
  dsimp only
  split_ifs
  · exact startStep_fuel c fuel hf _ _ _
  all_goals first | exact mainLoop_fuel c fuel hf _ _ _ _ _ | simp_all

theorem sizeReductionLoop_fuel (c : LLLCfg F) (fuel : ℕ) (hf : babaiFuel ≤ fuel) (srs n k : ℕ) (s : GSO F) :
    (sizeReductionLoop c fuel srs n k s).1 ≠ .outOfFuel := by
  induction n generalizing k s with
  | zero => simp [sizeReductionLoop]
  | succ n ih =>
    rw [sizeReductionLoop]
    split_ifs
    · exact ih _ _
    · exact startStep_fuel c fuel hf _ _ _

end LLL
end Fplll

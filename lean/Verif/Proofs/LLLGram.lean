import Verif.Proofs.GSOGram

/-!
# Simulation of `LLLReduction` on `MatGSO` and on `MatGSOGram`
-/

namespace Fplll

open FloatOps Spec GSO LLL

set_option linter.unusedSectionVars false

variable {F : Type} [FloatOps F]

namespace Gram

theorem forDown_pair {σ τ : Type*} (P : σ → τ → Prop) (f : ℕ → σ → σ) (f' : ℕ → τ → τ) (a b : ℕ) (s : σ) (t : τ)
    (h : P s t) (hf : ∀ i s t, a ≤ i → i < b → P s t → P (f i s) (f' i t)) :
    P (forDown a b f s) (forDown a b f' t) := by
  induction b generalizing s t with
  | zero => exact h
  | succ b ih =>
    rw [forDown, forDown]
    split_ifs with hb
    · exact ih _ _ (hf b s t hb (by omega) h) (fun i s t h1 h2 => hf i s t h1 (by omega))
    · exact h

theorem babaiPass_sim {s t : GSO F} (h : Sim s t) {kappa start stop : ℕ} (hk : kappa < s.nKnownRows)
    (hle : stop ≤ kappa) : Sim (LLL.babaiPass s kappa start stop) (babaiPass t kappa start stop) := by
  unfold LLL.babaiPass babaiPass
  dsimp only
  rw [h.mu]
  have key := forDown_pair (fun (p p' : GSO F × (ℕ → F)) => Sim p.1 p'.1 ∧ p'.2 = p.2 ∧ SameDims s p.1)
    (LLL.babaiStep kappa start) (babaiStep kappa start) start stop
    (s, forUp start stop (fun j (bm : ℕ → F) => setAt bm j (s.mu kappa j)) (fun _ => nan))
    (t, forUp start stop (fun j (bm : ℕ → F) => setAt bm j (s.mu kappa j)) (fun _ => nan))
    ⟨h, rfl, .refl s⟩
    (by
      rintro j ⟨p, bm⟩ ⟨p', bm'⟩ h1 h2 ⟨g, e, dm⟩
      unfold LLL.babaiStep babaiStep
      dsimp only at g e dm ⊢
      subst e
      split_ifs with hz
      · exact ⟨g, rfl, dm⟩
      · have hsrc := h.unlocked
        refine ⟨g.rowAddmulWe (by rw [dm.known]; exact hk) (by rw [dm.source]; omega) (by omega) _, ?_,
          dm.trans (rowAddmulWe_dims _ _ _ _)⟩
        dsimp only
        rw [g.mu])
  exact key.1.rowOpEnd _ _

theorem loopNeeded_sim {s t : GSO F} (h : Sim s t) (c : LLLCfg F) (kappa start stop : ℕ) :
    LLL.loopNeeded c t kappa start stop = LLL.loopNeeded c s kappa start stop := by
  unfold LLL.loopNeeded; rw [h.mu]

theorem maxMuExp_sim {s t : GSO F} (h : Sim s t) (i n : ℕ) : LLL.maxMuExp t i n = LLL.maxMuExp s i n := by
  unfold LLL.maxMuExp; rw [h.mu]

theorem babaiLoop_sim (c : LLLCfg F) {kappa stop start : ℕ} (fuel iter : ℕ) (e : ℤ) {s t : GSO F} (h : Sim s t)
    (hd : kappa < s.d) (hk : kappa ≤ s.nKnownRows) (hle : stop ≤ kappa) :
    (babaiLoop c kappa stop start fuel iter e t).1 = (LLL.babaiLoop c kappa stop start fuel iter e s).1 ∧
    Sim (LLL.babaiLoop c kappa stop start fuel iter e s).2 (babaiLoop c kappa stop start fuel iter e t).2 := by
  induction fuel generalizing iter e s t with
  | zero => exact ⟨rfl, h⟩
  | succ fuel ih =>
    have g1 := updateGsoRow_res (l := stop) h.wf hd hk
    obtain ⟨u1, u2⟩ := h.updateGsoRow (l := stop) hd hk (by omega)
    have hkn : kappa < (s.updateGsoRow kappa stop).2.nKnownRows := by rw [g1.known]; omega
    have hsd : (s.updateGsoRow kappa stop).2.d = s.d := g1.good.cfg.d
    have hsr : stop ≤ (s.updateGsoRow kappa stop).2.nSourceRows := by rw [u2.unlocked]; omega
    obtain ⟨g2, d2⟩ := babaiPass_good (start := start) g1.good.wf hkn hsr hle
    have u3 := babaiPass_sim (start := start) u2 hkn hle
    have next : ∀ it e', _ := fun it e' => ih it e' u3 (by rw [g2.cfg.d, hsd]; exact hd)
      (by rw [d2.known]; omega)
    rw [babaiLoop, LLL.babaiLoop]
    dsimp only
    rw [u1, loopNeeded_sim u2, maxMuExp_sim u2]
    split_ifs
    · exact ⟨rfl, u2⟩
    · exact ⟨rfl, u2⟩
    · exact ⟨rfl, u2⟩
    · exact next _ _
    · exact next _ _

theorem babai_sim (c : LLLCfg F) (fuel : ℕ) {s t : GSO F} (h : Sim s t) {kappa stop : ℕ} (start : ℕ)
    (hd : kappa < s.d) (hk : kappa ≤ s.nKnownRows) (hle : stop ≤ kappa) :
    (babai c fuel t kappa stop start).1 = (LLL.babai c fuel s kappa stop start).1 ∧
    Sim (LLL.babai c fuel s kappa stop start).2 (babai c fuel t kappa stop start).2 :=
  babaiLoop_sim c fuel 0 _ h hd hk hle

theorem lovaszTests_sim {s t : GSO F} (h : Sim s t) {kappa : ℕ} (hk : kappa < s.nKnownRows) :
    LLL.lovaszTests t kappa = LLL.lovaszTests s kappa := by
  unfold LLL.lovaszTests; rw [h.mu, h.r, h.gramVal hk le_rfl]

theorem insertIdx_sim {s t : GSO F} (h : Sim s t) (c : LLLCfg F) (lov : ℕ → F) (kmin k : ℕ) :
    LLL.insertIdx c t lov kmin k = LLL.insertIdx c s lov kmin k := by
  induction k with
  | zero => rfl
  | succ k ih => rw [LLL.insertIdx, LLL.insertIdx, ih, h.r]

/-- the loop variables of the two runs agree -/
structure SimSt (st st' : LLLState F) : Prop where
  s : Sim st.s st'.s
  kappa : st'.kappa = st.kappa
  kappaMax : st'.kappaMax = st.kappaMax
  zeros : st'.zeros = st.zeros
  nSwaps : st'.nSwaps = st.nSwaps
  lastEarlyRed : st'.lastEarlyRed = st.lastEarlyRed

theorem lovaszStep_zeros (c : LLLCfg F) (kmin kend : ℕ) (st : LLLState F) :
    st.zeros ≤ (LLL.lovaszStep c kmin kend st).zeros := by
  unfold LLL.lovaszStep
  dsimp only
  split_ifs
  · exact le_rfl
  · exact Nat.le_succ _
  · exact le_rfl

theorem lovaszStep_zeros' (c : LLLCfg F) (kmin kend : ℕ) (st : LLLState F) {z : ℕ} (h : st.zeros = z) :
    z ≤ (LLL.lovaszStep c kmin kend st).zeros := h ▸ lovaszStep_zeros c kmin kend st

theorem discoverStep_int (c : LLLCfg F) (fuel srs : ℕ) {st : LLLState F} (h : st.s.intGram = true) :
    LLL.discoverStep c fuel srs st =
      (.success, bumpMax st) := by
  unfold LLL.discoverStep bumpMax
  dsimp only
  rw [if_neg (show ¬ (c.earlyRedFlag && !st.s.intGram && isPowerOf2 st.kappa &&
    decide (st.lastEarlyRed < st.kappa)) = true by rw [h]; simp)]
  split_ifs <;> rfl

theorem mainLoop_zeros (c : LLLCfg F) (fuel kmin kend srs n : ℕ) (st : LLLState F) :
    st.zeros ≤ (LLL.mainLoop c fuel kmin kend srs n st).2.zeros := by
  have hd : ∀ st : LLLState F, (LLL.discoverStep c fuel srs st).2.zeros = st.zeros := by
    intro st
    unfold LLL.discoverStep
    dsimp only
    split_ifs <;> rfl
  induction n generalizing st with
  | zero => exact le_rfl
  | succ n ih =>
    rw [LLL.mainLoop]
    dsimp only
    split_ifs
    · exact (hd st).ge
    · exact (hd st).ge
    · refine le_trans ?_ (ih _)
      exact le_trans (hd st).ge (lovaszStep_zeros' c kmin kend _ rfl)
    · exact le_rfl

theorem lovaszStep_sim (c : LLLCfg F) {kmin kend : ℕ} {st st' : LLLState F} (h : SimSt st st')
    (h1 : 1 ≤ st.kappa) (hk : st.kappa < st.s.nKnownRows)
    (hz : (LLL.lovaszStep c kmin kend st).zeros = st.zeros) :
    SimSt (LLL.lovaszStep c kmin kend st) (lovaszStep c kmin kend st') := by
  unfold LLL.lovaszStep lovaszStep at *
  dsimp only at *
  rw [cacheGram_int h.s.ig] at *
  rw [h.kappa, lovaszTests_sim h.s hk, insertIdx_sim h.s, h.s.r]
  have hins := insertIdx_le c st.s (lovaszTests st.s st.kappa) kmin (st.kappa - 1)
  generalize insertIdx c st.s (lovaszTests st.s st.kappa) kmin (st.kappa - 1) = k at *
  split_ifs at hz ⊢ with h2 h3
  · exact ⟨(h.s.moveRow h.s.unlocked (fun _ => hk) (by omega)).setR _ _ _, rfl, h.kappaMax, h.zeros,
      by dsimp only; rw [h.nSwaps], h.lastEarlyRed⟩
  · dsimp only at hz; omega
  · exact ⟨h.s.setR _ _ _, rfl, h.kappaMax, h.zeros, h.nSwaps, h.lastEarlyRed⟩

theorem bumpMax_sim {st st' : LLLState F} (h : SimSt st st') : SimSt (bumpMax st) (bumpMax st') ∧
    (bumpMax st).s = st.s ∧ (bumpMax st).kappa = st.kappa ∧ (bumpMax st).zeros = st.zeros := by
  unfold bumpMax
  rw [h.kappa, h.kappaMax]
  split_ifs
  · exact ⟨⟨h.s, rfl, rfl, h.zeros, h.nSwaps, h.lastEarlyRed⟩, rfl, rfl, rfl⟩
  · exact ⟨h, rfl, rfl, rfl⟩

theorem mainLoop_sim (c : LLLCfg F) (fuel kmin srs : ℕ) {kend : ℕ} {s0 : GSO F} (hkd : kend ≤ s0.d) (n : ℕ)
    {st st' : LLLState F} (h : SimSt st st') (hi : MainInv s0 kend st)
    (hz : (LLL.mainLoop c fuel kmin kend srs n st).2.zeros = st.zeros) :
    (mainLoop c fuel kmin kend srs n st').1 = (LLL.mainLoop c fuel kmin kend srs n st).1 ∧
    SimSt (LLL.mainLoop c fuel kmin kend srs n st).2 (mainLoop c fuel kmin kend srs n st').2 := by
  induction n generalizing st st' with
  | zero => exact ⟨rfl, h⟩
  | succ n ih =>
    rw [LLL.mainLoop] at hz ⊢
    rw [mainLoop]
    dsimp only at hz ⊢
    rw [discoverStep_int c fuel srs h.s.ig] at hz ⊢
    rw [h.kappa, h.zeros]
    by_cases hlt : st.kappa < kend - st.zeros
    swap
    · rw [if_neg hlt, if_neg hlt]; exact ⟨rfl, h⟩
    rw [if_pos hlt] at hz
    rw [if_pos hlt, if_pos hlt]
    dsimp only at hz ⊢
    rw [if_neg (by simp)] at hz
    rw [if_neg (c := LLLStatus.success ≠ LLLStatus.success) (by simp)]
    obtain ⟨hs, e1, e2, e3⟩ := bumpMax_sim h
    have hmi : MainInv s0 kend (bumpMax st) := ⟨by rw [e1]; exact hi.good, by rw [e1]; exact hi.unlocked,
      by rw [e1, e2, e3]; exact hi.known⟩
    have hlt' : (bumpMax st).kappa < kend - (bumpMax st).zeros := by rw [e2, e3]; exact hlt
    rw [← e3] at hz
    clear e1 e2 e3 hlt h hi
    generalize bumpMax st = w at *
    generalize bumpMax st' = w' at *
    have hk := hmi.known hlt'
    have hdk := hmi.good.wf.known_le
    have hd := hmi.good.cfg.d
    have pre : BabaiPre w.s w.kappa w.kappa :=
        ⟨hmi.good.wf, by rw [hd]; omega, hk.2, le_rfl, by rw [hs.s.unlocked]; exact hk.2⟩
    obtain ⟨b1, b2⟩ := babai_sim c fuel hs.s srs pre.lt pre.known pre.stop_le
    rw [hs.kappa, b1]
    have mono := lovaszStep_zeros c kmin kend { w with s := (LLL.babai c fuel w.s w.kappa w.kappa srs).2 }
    have hsim : SimSt { w with s := (LLL.babai c fuel w.s w.kappa w.kappa srs).2 }
        { w' with s := (babai c fuel w'.s w.kappa w.kappa srs).2 } :=
      ⟨b2, hs.kappa, hs.kappaMax, hs.zeros, hs.nSwaps, hs.lastEarlyRed⟩
    by_cases hok : (LLL.babai c fuel w.s w.kappa w.kappa srs).1 = .success
    swap
    · rw [if_pos (by simpa using hok), if_pos (by simpa using hok)]
      exact ⟨rfl, by simpa [hs.kappa] using hsim⟩
    rw [if_neg (by simpa using hok)] at hz
    rw [if_neg (by simpa using hok), if_neg (by simpa using hok)]
    have r := babai_res c fuel srs pre hok
    have mono2 := mainLoop_zeros c fuel kmin kend srs n
      (LLL.lovaszStep c kmin kend { w with s := (LLL.babai c fuel w.s w.kappa w.kappa srs).2 })
    have hz1 : (LLL.lovaszStep c kmin kend { w with s := (LLL.babai c fuel w.s w.kappa w.kappa srs).2 }).zeros
        = w.zeros := le_antisymm (by rw [hz] at mono2; exact mono2) mono
    have ls := lovaszStep_sim c (kmin := kmin) (kend := kend) hsim hk.1 (by dsimp only; rw [r.known]; omega) hz1
    have li := lovaszStep_inv c (kmin := kmin) (kend := kend) (s0 := s0)
      (st := { w with s := (LLL.babai c fuel w.s w.kappa w.kappa srs).2 }) hkd (hmi.good.trans r.good)
      (by dsimp only; rw [r.locked]; exact hmi.unlocked) hk.1 (by dsimp only; rw [r.known]; omega) hlt'
    have := ih ls li (by rw [hz1]; exact hz)
    simpa [hs.kappa] using this

theorem symmetrizeG_sim {s t : GSO F} (h : Sim s t) : Sim s.symmetrizeG t.symmetrizeG :=
  ⟨(symmetrizeG_good h.wf).wf, h.ig, h.ig', h.d, h.withU, h.withUinv, h.forceLong, h.colsLocked, h.nKnownRows,
    h.nSourceRows, h.u, h.uInvT, h.mu, h.r, h.valid, by
      intro i hi j hj
      rw [show s.symmetrizeG.ip i j = s.ip i j from rfl, ← h.gram i hi j hj]
      unfold symGet
      split_ifs with h
      · exact symmetrizeG_low t i j h
      · exact symmetrizeG_low t j i (by omega)⟩

/-- after `symmetrize_g` both triangles agree -/
theorem symmetrizeG_full (t : GSO F) {i j : ℕ} (hi : i < t.d) (hj : j < t.d) :
    t.symmetrizeG.g i j = symGet t.g i j := by
  have := forUp_inv (P := fun i (g : Mat ℤ) => (∀ p q, symGet g p q = symGet t.g p q) ∧
      ∀ p < i, ∀ q < t.d, g p q = symGet t.g p q)
    (fun i (g : Mat ℤ) => forUp 0 t.d (fun j (g : Mat ℤ) => Mat.set g i j (symGet g i j)) g) (Nat.zero_le t.d) t.g
    ⟨fun _ _ => rfl, by intro p hp; omega⟩
    (by
      intro i g _ _ ⟨h1, h2⟩
      have := forUp_inv (P := fun j (g : Mat ℤ) => (∀ p q, symGet g p q = symGet t.g p q) ∧
          (∀ p < i, ∀ q < t.d, g p q = symGet t.g p q) ∧ ∀ q < j, g i q = symGet t.g i q)
        (fun j (g : Mat ℤ) => Mat.set g i j (symGet g i j)) (Nat.zero_le t.d) g
        ⟨h1, h2, by intro p hp; omega⟩
        (by
          intro j g _ _ ⟨h1, h2, h3⟩
          refine ⟨?_, ?_, ?_⟩
          · intro p q
            rw [← h1 p q]
            unfold symGet
            simp only [Mat.set_apply]
            grind
          · intro p hp q hq
            rw [Mat.set_apply, if_neg (by omega)]; exact h2 p hp q hq
          · intro q hq
            rw [Mat.set_apply]
            split_ifs with e
            · rw [h1, e.2]
            · exact h3 q (by omega))
      refine ⟨this.1, ?_⟩
      intro p hp q hq
      rcases Nat.lt_succ_iff_lt_or_eq.1 hp with h | h
      · exact this.2.1 p h q hq
      · rw [h]; exact this.2.2 q hq)
  exact this.2 i hi j hj

theorem rowIsZero_sim {s t : GSO F} (h : Sim s t) {i : ℕ} (hi : i < s.d) :
    rowIsZero t i = LLL.rowIsZero s i := by
  unfold rowIsZero LLL.rowIsZero
  have : t.g i i = s.ip i i := by rw [← h.gram i hi i hi, symGet_of_le _ le_rfl]
  rw [this]
  congr 1
  apply propext
  unfold ip
  rw [Finset.sum_eq_zero_iff_of_nonneg (fun c _ => mul_self_nonneg _)]
  simp

theorem startStep_sim (c : LLLCfg F) (fuel : ℕ) {s t : GSO F} (h : Sim s t) {kstart : ℕ} (srs : ℕ)
    (hd : kstart < s.d) (hk : kstart ≤ s.nKnownRows) :
    (startStep c fuel t kstart srs).1 = (LLL.startStep c fuel s kstart srs).1 ∧
    Sim (LLL.startStep c fuel s kstart srs).2 (startStep c fuel t kstart srs).2 := by
  unfold startStep LLL.startStep
  have pre : BabaiPre s kstart kstart := ⟨h.wf, hd, hk, le_rfl, by rw [h.unlocked]; exact hk⟩
  have key : ∀ p p' : LLLStatus × GSO F, p'.1 = p.1 → Sim p.2 p'.2 →
      (p.1 = .success → p.2.d = s.d ∧ kstart ≤ p.2.nKnownRows) →
      (startTail kstart p').1 = (LLL.startTail kstart p).1 ∧
      Sim (LLL.startTail kstart p).2 (startTail kstart p').2 := by
    intro p p' e1 e2 e3
    unfold startTail LLL.startTail
    dsimp only
    rw [e1]
    by_cases hp : p.1 = .success
    · obtain ⟨f1, f2⟩ := e3 hp
      have hn : ¬ p.1 ≠ LLLStatus.success := by simpa using hp
      rw [if_neg hn, if_neg hn]
      obtain ⟨u1, u2⟩ := e2.updateGsoRow (i := kstart) (l := kstart + 1) (by rw [f1]; exact hd) f2 le_rfl
      rw [u1]
      split_ifs <;> exact ⟨rfl, u2⟩
    · rw [if_pos (by simpa using hp), if_pos (by simpa using hp)]
      exact ⟨e1, e2⟩
  split_ifs with h0
  · obtain ⟨b1, b2⟩ := babai_sim c fuel h srs pre.lt pre.known pre.stop_le
    refine key _ _ b1 b2 ?_
    intro hok
    have r := babai_res c fuel srs pre hok
    exact ⟨r.good.cfg.d, by rw [r.known]; omega⟩
  · exact key (.success, s) (.success, t) rfl h (fun _ => ⟨rfl, hk⟩)

theorem lllFinish_zeros (kend : ℕ) (q : LLLStatus × LLLState F) : (LLL.lllFinish kend q).2.zeros = q.2.zeros := by
  unfold LLL.lllFinish; split_ifs <;> rfl

theorem lllTail_zeros (c : LLLCfg F) (fuel maxIter kmin kend srs : ℕ) (st : LLLState F) (p : LLLStatus × GSO F) :
    st.zeros ≤ (LLL.lllTail c fuel maxIter kmin kend srs st p).2.zeros := by
  unfold LLL.lllTail
  split_ifs
  · exact le_rfl
  · rw [lllFinish_zeros]; exact mainLoop_zeros c fuel kmin kend srs maxIter { st with s := p.2 }

theorem zeroLoop_zeros (kmin kend n z : ℕ) (s : GSO F) : z ≤ (LLL.zeroLoop kmin kend n z s).1 := by
  induction n generalizing z s with
  | zero => exact le_rfl
  | succ n ih =>
    rw [LLL.zeroLoop]
    split_ifs
    · exact le_trans (Nat.le_succ z) (ih _ _)
    · exact le_rfl

theorem lllTail_sim (c : LLLCfg F) (fuel maxIter kmin srs : ℕ) {kend : ℕ} {s0 : GSO F} (hkd : kend ≤ s0.d)
    (st st' : LLLState F) (p p' : LLLStatus × GSO F) (h1 : p'.1 = p.1)
    (h2 : SimSt { st with s := p.2 } { st' with s := p'.2 })
    (h3 : p.1 = .success → MainInv s0 kend { st with s := p.2 })
    (hz : (LLL.lllTail c fuel maxIter kmin kend srs st p).2.zeros = st.zeros) :
    (lllTail c fuel maxIter kmin kend srs st' p').1 = (LLL.lllTail c fuel maxIter kmin kend srs st p).1 ∧
    SimSt (LLL.lllTail c fuel maxIter kmin kend srs st p).2 (lllTail c fuel maxIter kmin kend srs st' p').2 ∧
    ((LLL.lllTail c fuel maxIter kmin kend srs st p).1 = .success → ∀ i < s0.d, ∀ j < s0.d,
      (lllTail c fuel maxIter kmin kend srs st' p').2.s.g i j =
        (LLL.lllTail c fuel maxIter kmin kend srs st p).2.s.ip i j) := by
  unfold LLL.lllTail lllTail at *
  rw [h1]
  by_cases hok : p.1 = .success
  swap
  · rw [if_pos (by simpa using hok), if_pos (by simpa using hok)]
    exact ⟨rfl, h2, fun hc => absurd hc hok⟩
  have hn : ¬ p.1 ≠ LLLStatus.success := by simpa using hok
  rw [if_neg hn] at hz
  rw [if_neg hn, if_neg hn]
  rw [lllFinish_zeros] at hz
  have ms := mainLoop_sim c fuel kmin srs hkd maxIter h2 (h3 hok) hz
  have hg := mainLoop_inv c fuel kmin srs maxIter _ hkd (h3 hok)
  generalize LLL.mainLoop c fuel kmin kend srs maxIter _ = q at *
  generalize mainLoop c fuel kmin kend srs maxIter _ = q' at *
  obtain ⟨m1, m2⟩ := ms
  unfold LLL.lllFinish
  rw [m1, m2.kappa, m2.zeros]
  by_cases hq : q.1 = .success
  swap
  · rw [if_pos (by simpa using hq), if_pos (by simpa using hq)]
    exact ⟨m1, m2, fun hc => absurd hc hq⟩
  have hn : ¬ q.1 ≠ LLLStatus.success := by simpa using hq
  rw [if_neg hn, if_neg hn, if_pos m2.s.ig, if_pos m2.s.ig']
  have sy := symmetrizeG_sim m2.s
  refine ⟨rfl, ⟨sy, m2.kappa, m2.kappaMax, m2.zeros, m2.nSwaps, m2.lastEarlyRed⟩, ?_⟩
  intro _ i hi j hj
  have hqd : q.2.s.d = s0.d := hg.cfg.d
  dsimp only
  rw [symmetrizeG_full _ (by rw [m2.s.d, hqd]; exact hi) (by rw [m2.s.d, hqd]; exact hj),
    m2.s.gram i (by rw [hqd]; exact hi) j (by rw [hqd]; exact hj)]
  rfl

/-- **LLL on the Gram matrix follows LLL on the basis**, as long as the latter meets no zero vector. -/
theorem lll_sim (c : LLLCfg F) (fuel maxIter last : ℕ) {s t : GSO F} (h : Sim s t) {kmin kstart kend : ℕ} (srs : ℕ)
    (hp : LLLPre s kmin kstart kend) (hz : (LLL.lll c fuel maxIter last s kmin kstart kend srs).2.zeros = 0) :
    (lll c fuel maxIter last t kmin kstart kend srs).1 = (LLL.lll c fuel maxIter last s kmin kstart kend srs).1 ∧
    SimSt (LLL.lll c fuel maxIter last s kmin kstart kend srs).2 (lll c fuel maxIter last t kmin kstart kend srs).2 ∧
    ((LLL.lll c fuel maxIter last s kmin kstart kend srs).1 = .success → ∀ i < s.d, ∀ j < s.d,
      (lll c fuel maxIter last t kmin kstart kend srs).2.s.g i j =
        (LLL.lll c fuel maxIter last s kmin kstart kend srs).2.s.ip i j) := by
  have hlt := hp.lt
  have hle := hp.le
  have hend := hp.end_le
  obtain ⟨m, hm⟩ : ∃ m, kend - kmin = m + 1 := ⟨kend - kmin - 1, by omega⟩
  have hz0 : LLL.rowIsZero s 0 = false := by
    by_contra hc
    rw [Bool.not_eq_false] at hc
    unfold LLL.lll at hz
    dsimp only at hz
    have e := lllTail_zeros c fuel maxIter kmin kend srs
      { s := (LLL.zeroLoop kmin kend (kend - kmin) 0 s).2, kappa := kstart + 1, kappaMax := 0,
        zeros := (LLL.zeroLoop kmin kend (kend - kmin) 0 s).1, nSwaps := 0, lastEarlyRed := last }
      (if (LLL.zeroLoop kmin kend (kend - kmin) 0 s).1 < kend - kmin then
        LLL.startStep c fuel (LLL.zeroLoop kmin kend (kend - kmin) 0 s).2 kstart srs
        else (.success, (LLL.zeroLoop kmin kend (kend - kmin) 0 s).2))
    rw [hz] at e
    dsimp only at e
    rw [hm, LLL.zeroLoop, if_pos hc] at e
    have := zeroLoop_zeros kmin kend m (0 + 1) (s.moveRow kmin (kend - 1 - 0))
    omega
  have ezs : LLL.zeroLoop kmin kend (kend - kmin) 0 s = (0, s) := by
    rw [hm, LLL.zeroLoop, if_neg (by simp [hz0])]
  have ezt : zeroLoop kmin kend (kend - kmin) 0 t = (0, t) := by
    rw [hm, zeroLoop, if_neg (by rw [rowIsZero_sim h (by omega)]; simp [hz0])]
  have hknown : kstart ≤ s.nKnownRows := by
    rcases hp.start with h0 | ⟨_, h2⟩
    · omega
    · exact h2
  have hpos : 0 < kend - kmin := by omega
  obtain ⟨a1, a2⟩ := startStep_sim c fuel h srs (kstart := kstart) (by omega) hknown
  have hss := startStep_good c fuel srs hp.wf hp.unlocked (kstart := kstart) (by omega) hknown
  unfold LLL.lll lll at *
  dsimp only at *
  rw [ezs] at hz ⊢
  rw [ezt]
  dsimp only at *
  rw [if_pos hpos] at hz ⊢
  rw [if_pos hpos]
  exact lllTail_sim c fuel maxIter kmin srs hp.end_le _ _ _ _ a1 ⟨a2, rfl, rfl, rfl, rfl, rfl⟩
    (fun hok => ⟨hss.1, (hss.2 hok).2, fun _ => ⟨by dsimp only; omega, (hss.2 hok).1⟩⟩) hz

end Gram

end Fplll

import Verif.Proofs.SvpExact

/-!
# `hkz` in exact arithmetic
-/

namespace Fplll
namespace BKZ

open FloatOps GSO LLL Spec

/-- the last row of a lattice is always shortest -/
theorem minProj_last {n k : ℕ} {δ : ℚ} (hδ : δ < 1) (b : ℕ → ℕ → ℤ) : MinProj n δ k (k + 1) b := by
  intro v hv hp
  obtain ⟨z, hz⟩ := hv
  have e : distSq n (toQ b) k (vecQ v) = distSq n (toQ b) k (vecQ (comb (k + 1) b z)) :=
    distSq_congr (fun _ _ _ _ => rfl) (fun c hc => by unfold vecQ; rw [hz c hc])
  rw [e, distSq_top] at hp ⊢
  have hn := normStar_nonneg n (toQ b) k
  have hz0 : z k ≠ 0 := by rintro h; rw [h] at hp; simp at hp
  have h1 : (1 : ℚ) ≤ (z k : ℚ) ^ 2 := by
    have : 1 ≤ z k ^ 2 := by
      have := sq_pos_of_ne_zero (a := z k) hz0
      omega
    exact_mod_cast this
  have hpos : 0 < normStar n (toQ b) k := by
    rcases hn.lt_or_eq with h | h
    · exact h
    · rw [← h, mul_zero] at hp; exact absurd hp (lt_irrefl _)
  nlinarith

theorem startStep_success (c : LLLCfg Exact) {η : ℚ} (hc : c.eta = some η) (hη : 1 / 2 ≤ η) {fuel : ℕ} (hf : 2 ≤ fuel) (srs : ℕ) {s : GSO Exact}
    (h : St s) {k : ℕ} (hk : k < s.d) (hv : ∀ j < k, j + 1 ≤ s.gsoValidCols j) (hind : Indep (k + 1) s.nCols (toQ s.b)) :
    (startStep c fuel s k srs).1 = .success := by
  unfold startStep
  have k1 : (if 0 < k then babai c fuel s k k srs else (.success, s)).1 = .success ∧
      (Mv 0 (k + 1) s (if 0 < k then babai c fuel s k k srs else (.success, s)).2 ∧
      (∀ j < k, j + 1 ≤ (if 0 < k then babai c fuel s k k srs else (.success, s)).2.gsoValidCols j)) := by
    split_ifs
    · have pre : BabaiPre s k k := ⟨h.full.wf, hk, by rw [h.full.known]; exact hk.le, le_rfl, by rw [h.full.source]; omega⟩
      have h1 := babai_exact_success c hc hη srs hf ⟨pre, h.fresh, hv⟩ (fun j hj => ne_of_gt (hind.pos j (by omega)))
      obtain ⟨m, x⟩ := babai_pref c hc fuel srs h 0 (k + 1) hk le_rfl hv h1
      exact ⟨h1, m, fun j hj => by rw [x.valid j hj]; exact hv j hj⟩
    · exact ⟨rfl, .refl h, hv⟩
  generalize (if 0 < k then babai c fuel s k k srs else (.success, s)) = p at *
  obtain ⟨hp, m, v⟩ := k1
  unfold startTail
  rw [if_neg (by simpa using hp)]
  have hd := m.d
  have hu := updateGsoRow_fresh m.st.full.wf m.st.fresh (i := k) (l := k + 1) (by omega) (by rw [m.st.full.known]; omega) le_rfl
    (.inl (by rw [m.st.full.source]; omega)) (fun j h1 h2 => v j h2)
  have hi := m.indep hind
  have hb : p.2.bq = toQ p.2.b := rfl
  dsimp only
  generalize p.2.updateGsoRow k (k + 1) = q at *
  by_cases hq : q.1 = true
  · rw [if_pos hq]
  · obtain ⟨j, h1, h2, h3⟩ := hu.2.2.1 (by simpa using hq)
    have := hi.pos j (by omega)
    rw [hb, rS_self] at h3
    exact absurd h3 (ne_of_gt this)

variable (c : SvpCfg Exact) (o : Orc Exact) {η thr δ rad : ℚ}

/-- the loop of `hkz` -/
theorem hkzLoop_pref (hc : PCfg c.lll η thr δ) (hδ : δ < 1) (hrad : δ ≤ rad) (htr : Truthful rad o) (hpre : ∀ bs, o.preproc bs = [])
    (hmore : ∀ t, o.more t 0 = true) (bounded : Bool) (tour : ℤ → ℤ → ℤ → W Exact → Out (W Exact) Bool) {E : ℕ} (cnt k : ℕ) (hk : k + cnt + 1 ≤ E)
    (cl cl' : Bool) {w w' : W Exact} (hs : St w.s) (hind : Indep E w.s.nCols (toQ w.s.b)) (hprot : Prot δ 0 k E w.s)
    (hv : ∀ i < k, i + 1 ≤ w.s.gsoValidCols i) (hsr : ∀ i < k, ∀ j < i, |muS w.s.nCols (toQ w.s.b) i j| ≤ η)
    (h : loop (fun kappa => svpReduction c o bounded tour kappa (E - kappa) false) 1 cnt k cl w = .ok cl' w') :
    Mv 0 E w.s w'.s ∧ Prot δ 0 (k + cnt) E w'.s ∧ (∀ i < k + cnt, i + 1 ≤ w'.s.gsoValidCols i) ∧
    ∀ i < k + cnt, ∀ j < i, |muS w'.s.nCols (toQ w'.s.b) i j| ≤ η := by
  induction cnt generalizing k cl w with
  | zero =>
    simp only [loop, Out.ok.injEq] at h
    rw [← h.2]
    exact ⟨.refl hs, hprot, hv, hsr⟩
  | succ cnt ih =>
    rw [loop] at h
    obtain ⟨c1, w1, h1, h⟩ := Out.bind_ok h
    have e : (E : ℤ) - k = ((E - k : ℕ) : ℤ) := by omega
    have e' : k + (E - k) = E := by omega
    rw [e] at h1
    have S := svpReduction_pref c o hc hδ hrad htr (k := k) (d := E - k) (by omega) (hpre _) hmore bounded tour hs
      (by rw [e']; exact hind) (by rw [e']; intro m _ hm; exact hprot m (by omega) hm) h1
    rw [e'] at S
    obtain ⟨m1, v1, p1, q1⟩ := S
    have hp1 : Prot δ 0 (k + 1) E w1.s := by
      intro m a b
      rcases Nat.lt_or_ge m k with hlt | hge
      · exact (hprot.mv m1) m a hlt
      · have : m = k := by omega
        subst this
        exact p1
    obtain ⟨a1, a2, a3, a4⟩ := ih (k + 1) (by omega) (cl && c1) m1.st (m1.indep hind) hp1 (fun i hi => v1 i (by omega))
      (fun i hi => q1 i (by omega)) (by exact_mod_cast h)
    rw [show k + 1 + cnt = k + (cnt + 1) by ring] at a2 a3 a4
    exact ⟨(m1.mono (by omega) le_rfl).trans a1, a2, a3, a4⟩

/-- `hkz(0, E)`: each row is shortest; the rows before the last one are size-reduced, the last one against the one before it -/
theorem hkz_pref (hc : PCfg c.lll η thr δ) (hδ : δ < 1) (hrad : δ ≤ rad) (htr : Truthful rad o) (hpre : ∀ bs, o.preproc bs = [])
    (hmore : ∀ t, o.more t 0 = true) (hη : 1 / 2 ≤ η) (hf : 2 ≤ c.fuel) (bounded : Bool) (depth : ℕ) {E : ℕ} (hE : 1 ≤ E) {cl : Bool} {w w' : W Exact} (hs : St w.s)
    (hd : E ≤ w.s.d) (hind : Indep E w.s.nCols (toQ w.s.b)) (h : hkz (svpOps c o depth bounded) 0 E w = .ok cl w') :
    PreEq w.s.nCols E w.s.b w'.s.b ∧ (∀ k < E, MinProj w.s.nCols δ k E w'.s.b) ∧
    (∀ i < E - 1, ∀ j < i, |muS w.s.nCols (toQ w'.s.b) i j| ≤ η) ∧
    (2 ≤ E → |muS w.s.nCols (toQ w'.s.b) (E - 1) (E - 2)| ≤ η) := by
  unfold hkz at h
  obtain ⟨cl1, w1, h1, h⟩ := Out.bind_ok h
  obtain ⟨ok2, w2, h2, h⟩ := Out.bind_ok h
  simp only [Out.ok.injEq] at h
  have e : ((E : ℤ) - 1 - 0).toNat = E - 1 := by omega
  rw [e] at h1
  have L : Mv 0 E w.s w1.s ∧ Prot δ 0 (E - 1) E w1.s ∧ (∀ i < E - 1, i + 1 ≤ w1.s.gsoValidCols i) ∧
      ∀ i < E - 1, ∀ j < i, |muS w1.s.nCols (toQ w1.s.b) i j| ≤ η := by
    have h0 : ∀ i < 0, i + 1 ≤ w.s.gsoValidCols i := fun i hi => by omega
    cases depth with
    | zero =>
      rcases Nat.eq_zero_or_pos (E - 1) with hz | hz
      · rw [hz, loop] at h1
        simp only [Out.ok.injEq] at h1
        rw [hz, ← h1.2]
        exact ⟨.refl hs, fun m _ hm => by omega, fun i hi => by omega, fun i hi => by omega⟩
      · obtain ⟨q, hq⟩ : ∃ q, E - 1 = q + 1 := ⟨E - 2, by omega⟩
        rw [hq, loop] at h1
        simp [svpOps, Out.bind] at h1
    | succ depth =>
      have := hkzLoop_pref c o hc hδ hrad htr hpre hmore bounded (tour (svpOps c o depth false)) (E := E) (E - 1) 0 (by omega) true cl1 hs hind
        (fun m _ hm => by omega) h0 (fun i hi => by omega) (by exact_mod_cast h1)
      rw [Nat.zero_add] at this
      exact this
  obtain ⟨m1, p1, v1, q1⟩ := L
  have h2 : sizeRedOp c (E - 1) E (E - 2) w1 = .ok ok2 w2 := by cases depth <;> exact h2
  unfold sizeRedOp at h2
  split_ifs at h2 with hr
  simp only [Out.ok.injEq] at h2
  have e1 : ((E : ℤ) - (E - 1)).toNat = 1 := by omega
  have e2 : ((E : ℤ) - 1).toNat = E - 1 := by omega
  have e3 : ((E : ℤ) - 2).toNat = E - 2 := by omega
  rw [e1, e2, e3] at h2
  have w1d := m1.d
  have hok := startStep_success c.lll hc.eta hη hf (E - 2) m1.st (k := E - 1) (by omega) v1 (by
    rw [Nat.sub_add_cancel hE]; exact m1.indep hind)
  have hok' : (sizeReductionLoop c.lll c.fuel (E - 2) 1 (E - 1) w1.s).1 = .success := by
    rw [sizeReductionLoop, if_pos hok]; rfl
  obtain ⟨m2, -, b2, r2⟩ := sizeReductionLoop_pref c.lll hc.eta c.fuel (E - 2) 1 (E - 1) w1.s m1.st E E (by omega) v1 hok'
  have pre1 := m1.pre E (.inr le_rfl)
  rw [← h.2, ← h2.2]
  dsimp only
  have cols := m1.cols
  rw [cols] at q1 r2
  have lowp : ∀ j, j ≤ E → PreEq w.s.nCols j w1.s.b (sizeReductionLoop c.lll c.fuel (E - 2) 1 (E - 1) w1.s).2.b := fun j hj => by
    have := m2.pre j (.inl hj); rwa [cols] at this
  refine ⟨pre1.trans (lowp E le_rfl), fun k hk => ?_, fun i hi j hj => ?_, fun hE2 => ?_⟩
  · rcases Nat.lt_or_ge k (E - 1) with hlt | hge
    · have := p1 k (by omega) hlt
      rw [cols] at this
      exact this.congr (lowp _ (by omega)) (lowp _ (by omega)) (lowp _ le_rfl)
    · obtain rfl : E = k + 1 := by omega
      exact minProj_last hδ _
  · rw [muS_congr (B' := toQ w1.s.b) (fun l hl c' hc' => by unfold toQ; rw [b2 l (by omega)])
      (fun c' hc' => by unfold toQ; rw [b2 i (by omega)])]
    exact q1 i hi j hj
  · exact r2 (E - 1) le_rfl (by omega) (E - 2) le_rfl (by omega)

/-- the start of `bkz()` -/
theorem prepare_st {s : GSO Exact} (hs : WF s) (hf : Fresh s 0 0) (hl : s.colsLocked = false) :
    St (prepare false s) ∧ (prepare false s).b = s.b ∧ (prepare false s).d = s.d ∧ (prepare false s).nCols = s.nCols := by
  obtain ⟨g, hF⟩ := prepare_keep false hs hl
  have key : Fresh (prepare false s) 0 0 ∧ (prepare false s).colsLocked = false ∧ (prepare false s).b = s.b := by
    unfold prepare
    simp only [Bool.false_eq_true, if_false]
    unfold discoverAllRows
    have := forUp_inv (P := fun n (t : GSO Exact) => Good s t ∧ t.nKnownRows = n ∧ Fresh t 0 0 ∧ t.colsLocked = false ∧ t.b = s.b)
      (fun _ (t : GSO Exact) => t.discoverRow) hs.known_le s ⟨.refl hs, rfl, hf, hl, rfl⟩ (by
        intro i t _ hi h
        obtain ⟨h1, h2, h3, h4, h5⟩ := h
        have hk : t.nKnownRows < t.d := by rw [h2, h1.cfg.d]; exact hi
        exact ⟨h1.trans (discoverRow_good h1.wf hk), by rw [← h2]; rfl, discoverRow_fresh h1.wf hk h3, h4, h5⟩)
    exact ⟨this.2.2.1, this.2.2.2.1, this.2.2.2.2⟩
  exact ⟨⟨hF, key.1, key.2.1⟩, key.2.2, g.cfg.d, g.cfg.nCols⟩

/-- a run of `bkz()` whose block size is at least the number of rows is one call of `hkz` -/
theorem runBKZ_one {D : Type} [LinearOrder D] [OrderTop D] (cfg : Cfg D) (hsd : cfg.sd = false) (hsld : cfg.sld = false) (haa : cfg.autoAbort = false)
    (timeUp : ℕ → W Exact → Bool) (slope : ℕ → W Exact → D) (depth inner fuel : ℕ) {w w' : W Exact} {st : Status} {m : ℕ}
    (hbs : (numRows w.s w.s.d : ℤ) ≤ cfg.blockSize) (hm : 1 ≤ m) (h : runBKZ c o cfg timeUp slope depth inner fuel w = .ok (st, m) w') :
    ∃ cl v, hkz (svpOps c o depth cfg.bounded) 0 (numRows w.s w.s.d) { w with s := prepare false w.s } = .ok cl v ∧ w'.s.b = v.s.b := by
  unfold runBKZ at h
  dsimp only at h
  generalize numRows w.s w.s.d = E at *
  unfold bkz at h
  rw [hsd, hsld] at h
  simp only [Bool.false_eq_true, false_and, if_false] at h
  by_cases hb2 : cfg.blockSize < 2
  · rw [if_pos hb2] at h
    simp only [Out.ok.injEq, Prod.mk.injEq] at h
    omega
  rw [if_neg hb2] at h
  simp only [Out.bind] at h
  cases fuel with
  | zero => simp [mainLoop] at h
  | succ fuel =>
    rw [mainLoop] at h
    have ao : autoOn cfg = false := by unfold autoOn; rw [haa, hsd]; rfl
    simp only [ao, Bool.false_eq_true, false_and, if_false] at h
    split_ifs at h
    · simp only [Out.ok.injEq, Prod.mk.injEq] at h; omega
    · simp only [Out.ok.injEq, Prod.mk.injEq] at h; omega
    cases ht : oneTour (svpOps c o depth cfg.bounded) cfg (E : ℤ) inner { w with s := prepare false w.s } with
    | ok clean w1 =>
      rw [ht] at h
      simp only [Out.bind, hbs, or_true, if_true, Out.ok.injEq] at h
      unfold oneTour at ht
      rw [hsd, hsld] at ht
      simp only [Bool.false_eq_true, if_false] at ht
      unfold tour at ht
      obtain ⟨c1, v1, t1, ht⟩ := Out.bind_ok ht
      obtain ⟨c2, v2, t2, ht⟩ := Out.bind_ok ht
      unfold truncTour at t1
      rw [show ((E : ℤ) - cfg.blockSize - 0).toNat = 0 by omega, loop] at t1
      simp only [Out.ok.injEq] at t1
      rw [max_eq_right (by omega), ← t1.2] at t2
      simp only [Out.ok.injEq] at ht
      refine ⟨c2, v2, t2, ?_⟩
      rw [← h.2, ← ht.2]
      cases depth <;> (simp only [svpOps]; split_ifs <;> rfl)
    | thrown => rw [ht] at h; simp [Out.bind] at h
    | ub => rw [ht] at h; simp [Out.bind] at h
    | stuck => rw [ht] at h; simp [Out.bind] at h

/-- a run of `bkz()` whose block size is at least the number of rows -/
theorem runBKZ_hkz {D : Type} [LinearOrder D] [OrderTop D] (hc : PCfg c.lll η thr δ) (hδ : δ < 1) (hrad : δ ≤ rad) (htr : Truthful rad o)
    (hpre : ∀ bs, o.preproc bs = []) (hmore : ∀ t, o.more t 0 = true) (hη : 1 / 2 ≤ η) (hf : 2 ≤ c.fuel) (cfg : Cfg D) (hsd : cfg.sd = false)
    (hsld : cfg.sld = false) (haa : cfg.autoAbort = false) (timeUp : ℕ → W Exact → Bool) (slope : ℕ → W Exact → D) (depth inner fuel : ℕ)
    {w w' : W Exact} {st : Status} {m : ℕ} (hs : WF w.s) (hfr : Fresh w.s 0 0) (hl : w.s.colsLocked = false)
    (hE : 1 ≤ numRows w.s w.s.d) (hbs : (numRows w.s w.s.d : ℤ) ≤ cfg.blockSize) (hind : Indep (numRows w.s w.s.d) w.s.nCols (toQ w.s.b)) (hm : 1 ≤ m)
    (h : runBKZ c o cfg timeUp slope depth inner fuel w = .ok (st, m) w') :
    let E := numRows w.s w.s.d
    PreEq w.s.nCols E w.s.b w'.s.b ∧ (∀ k < E, MinProj w.s.nCols δ k E w'.s.b) ∧
    (∀ i < E - 1, ∀ j < i, |muS w.s.nCols (toQ w'.s.b) i j| ≤ η) ∧
    (2 ≤ E → |muS w.s.nCols (toQ w'.s.b) (E - 1) (E - 2)| ≤ η) := by
  obtain ⟨cl, v, h1, h2⟩ := runBKZ_one c o cfg hsd hsld haa timeUp slope depth inner fuel hbs hm h
  obtain ⟨p1, p2, p3, p4⟩ := prepare_st hs hfr hl
  have K := hkz_pref c o hc hδ hrad htr hpre hmore hη hf cfg.bounded depth hE (w := { w with s := prepare false w.s }) p1
    (by dsimp only; rw [p3]; exact numRows_le w.s w.s.d) (by dsimp only; rw [p2, p4]; exact hind) h1
  dsimp only at K ⊢
  rw [p2, p4] at K
  rw [h2]
  exact K

end BKZ
end Fplll

import Verif.Proofs.LLLPref

/-!
# Insertion and rerandomisation leave everything cached right (exact arithmetic)
-/

namespace Fplll
namespace BKZ

open FloatOps GSO LLL Spec

/-- inside a row operation on the rows `lo, …, hi - 1` -/
structure Frs (lo hi : ℕ) (s s' : GSO Exact) : Prop where
  full : Full s'
  d : s'.d = s.d
  cols : s'.nCols = s.nCols
  fresh : Fresh s' lo hi
  locked : s'.colsLocked = s.colsLocked
  valid : s'.gsoValidCols = s.gsoValidCols

theorem Frs.refl {lo hi : ℕ} {s : GSO Exact} (h : St s) : Frs lo hi s s := ⟨h.full, rfl, rfl, h.fresh.begin _ _, rfl, rfl⟩

/-- the end of the row operation -/
theorem Frs.finish {lo hi : ℕ} {s s' : GSO Exact} (h : Frs lo hi s s') (hs : St s) (hlh : lo ≤ hi) (hd : hi ≤ s.d) :
    St (s'.rowOpEnd lo hi) ∧ (∀ k < lo, (s'.rowOpEnd lo hi).gsoValidCols k = s.gsoValidCols k) ∧ (s'.rowOpEnd lo hi).b = s'.b := by
  have e := rowOpEnd_fresh h.full.wf h.fresh hlh (by rw [h.full.known, h.d]; exact hd)
  have fo := rowOpEnd_fo s' lo hi
  exact ⟨⟨(rowOpEnd_keep h.full lo hi).full, e.1, fo.colsLocked.trans (h.locked.trans hs.unlocked)⟩, fun k hk => by rw [e.2 k hk, h.valid], fo.b⟩

theorem rowOpEnd_nCols (s : GSO Exact) (lo hi : ℕ) : (s.rowOpEnd lo hi).nCols = s.nCols := (rowOpEnd_fo s lo hi).nCols

theorem rowOpEnd_d (s : GSO Exact) (lo hi : ℕ) : (s.rowOpEnd lo hi).d = s.d := (rowOpEnd_fo s lo hi).d

/-- `move_row` inside a block -/
theorem moveRow_st {s : GSO Exact} (h : St s) {o n : ℕ} (ho : o < s.d) (hn : n < s.d) : St (s.moveRow o n) :=
  ⟨(moveRow_keep h.full ho hn).full, moveRow_fresh h.full.wf h.fresh (fun _ => by rw [h.full.known]; exact ho) (fun _ => hn),
    (moveRow_locked s o n).trans h.unlocked⟩

theorem moveRow_valid {s : GSO Exact} (h : St s) {o n lo : ℕ} (ho : lo ≤ o) (hod : o < s.d) (hn : lo ≤ n) (k : ℕ) (hk : k < lo) :
    (s.moveRow o n).gsoValidCols k = s.gsoValidCols k := by
  rcases Nat.lt_or_ge n o with hlt | hge
  · exact (moveRow_up s hlt (by rw [h.full.known]; exact hod)).2.2.2.1 k (by omega)
  · exact (moveRow_down s hge).2.2.2 k (by omega)

section generic
variable {kappa d : ℕ} {P : GState Exact → Prop}

theorem euclid_P {k off : ℕ} (dual : Bool) (hsw : ∀ g, P g → P (swapPair kappa k off g)) (hsu : ∀ g, P g → P (subPair kappa k off dual g)) (n : ℕ)
    (g : GState Exact) (h : P g) : GAll P (euclid kappa k off dual n g) := by
  induction n generalizing g with
  | zero => exact h
  | succ n ih =>
    rw [euclid]
    split_ifs
    · exact h
    · exact ih _ (hsu g h)
    · exact ih _ (hsw g h)

theorem pairLoop_P {off : ℕ} (fuel : ℕ) (dual : Bool)
    (hsw : ∀ k < d, off ≤ k → ∀ g, P g → P (swapPair kappa k off g)) (hsu : ∀ k < d, off ≤ k → ∀ g, P g → P (subPair kappa k off dual g))
    (n k : ℕ) (hkd : k < d) (g : GState Exact) (h : P g) : GAll P (pairLoop fuel kappa off dual n k g) := by
  induction n generalizing k g with
  | zero => exact h
  | succ n ih =>
    rw [pairLoop]
    by_cases hk : off ≤ k
    · rw [if_pos hk]
      have : GAll P (pairStep fuel kappa k off dual g) := by
        unfold pairStep
        split_ifs
        · exact h
        · exact euclid_P dual (hsw k hkd hk) (hsu k hkd hk) _ _ (hsw k hkd hk g h)
        · exact euclid_P dual (hsw k hkd hk) (hsu k hkd hk) _ _ h
      refine this.bind fun g h => ?_
      split_ifs
      · exact ih _ (by omega) _ h
      · exact h
    · rw [if_neg hk]; exact h

theorem levelLoop_P (fuel : ℕ) (dual : Bool)
    (hsw : ∀ off, 1 ≤ off → ∀ k < d, off ≤ k → ∀ g, P g → P (swapPair kappa k off g))
    (hsu : ∀ off, 1 ≤ off → ∀ k < d, off ≤ k → ∀ g, P g → P (subPair kappa k off dual g)) (n off : ℕ) (hoff : 1 ≤ off)
    (g : GState Exact) (h : P g) : GAll P (levelLoop fuel kappa d dual n off g) := by
  induction n generalizing off g with
  | zero => exact h
  | succ n ih =>
    rw [levelLoop]
    split_ifs
    · exact (pairLoop_P fuel dual (hsw off hoff) (hsu off hoff) d (d - 1) (by omega) g h).bind fun g h => ih _ (by omega) _ h
    · exact h

end generic

variable {kappa d : ℕ}

theorem swapPair_frs {s0 : GSO Exact} (hd : kappa + d ≤ s0.d) {k off : ℕ} (h1 : 1 ≤ off) (hk : k < d) (ho : off ≤ k) {g : GState Exact}
    (h : Frs kappa (kappa + d) s0 g.s) : Frs kappa (kappa + d) s0 (swapPair kappa k off g).s := by
  have hd' := h.d
  refine ⟨(rowSwap_keeps h.full (i := kappa + k - off) (j := kappa + k) (by omega) (by omega)).full, h.d, h.cols,
    rowSwap_fresh h.full.wf h.fresh ⟨by omega, by omega⟩ ⟨by omega, by omega⟩ (by rw [h.full.source]; omega) (by rw [h.full.source]; omega), h.locked, h.valid⟩

theorem subPair_frs {s0 : GSO Exact} (hd : kappa + d ≤ s0.d) (dual : Bool) {k off : ℕ} (h1 : 1 ≤ off) (hk : k < d) (ho : off ≤ k) {g : GState Exact}
    (h : Frs kappa (kappa + d) s0 g.s) : Frs kappa (kappa + d) s0 (subPair kappa k off dual g).s := by
  have hd' := h.d
  unfold subPair
  dsimp only
  split_ifs
  · exact ⟨(rowSub_keep h.full (by omega) (by omega) (by omega)).full, h.d, h.cols, rowSub_fresh h.fresh ⟨by omega, by omega⟩, h.locked, h.valid⟩
  · exact ⟨(rowAdd_keep h.full (by omega) (by omega) (by omega)).full, h.d, h.cols, rowAdd_fresh h.fresh ⟨by omega, by omega⟩, h.locked, h.valid⟩

theorem negateRow_frs {s0 s : GSO Exact} (hd : kappa + d ≤ s0.d) {i : ℕ} (hi : i < d) (h : Frs kappa (kappa + d) s0 s) :
    Frs kappa (kappa + d) s0 (s.negateRowOfB (kappa + i)) := by
  have hd' := h.d
  refine ⟨(negateRow_keeps h.full _).full, h.d, h.cols, h.fresh.modify rfl rfl rfl rfl rfl rfl rfl rfl rfl rfl ?_, h.locked, h.valid⟩
  intro k c hc hk
  rw [negateRow_b']
  split_ifs with h1
  · rcases hk with hk | hk
    · exact absurd ⟨by omega, by omega⟩ hk
    · rw [h.full.wf.zeroSrc k (by rw [h.full.source]; omega) c hc hk]; simp
  · rfl

theorem negateLoop_frs {s0 : GSO Exact} (hd : kappa + d ≤ s0.d) {g : GState Exact} (h : Frs kappa (kappa + d) s0 g.s) :
    Frs kappa (kappa + d) s0 (negateLoop kappa d g).s := by
  unfold negateLoop
  refine forUp_inv' (fun g => Frs kappa (kappa + d) s0 g.s) _ 0 d g h fun i g _ hi hg => ?_
  split_ifs
  · exact negateRow_frs hd hi hg
  · exact hg

/-- the generic insertion, when it ends -/
theorem insertGeneric_st {s : GSO Exact} (h : St s) (h1 : 1 ≤ d) (hd : kappa + d ≤ s.d) {fuel : ℕ} {x : ℕ → Exact} {dual : Bool} {g : GState Exact}
    (hok : insertGeneric fuel kappa d x dual s = .ok () g) :
    St g.s ∧ g.s.d = s.d ∧ g.s.nCols = s.nCols ∧ ∀ k < kappa, g.s.gsoValidCols k = s.gsoValidCols k := by
  unfold insertGeneric at hok
  have f0 := negateLoop_frs (kappa := kappa) (d := d) (s0 := s) hd (g := ⟨x, s⟩) (.refl h)
  have L := levelLoop_P (P := fun g => Frs kappa (kappa + d) s g.s) (kappa := kappa) (d := d) fuel dual
    (fun off ho k hk hok g hg => swapPair_frs hd ho hk hok hg) (fun off ho k hk hok g hg => subPair_frs hd dual ho hk hok hg) d 1 le_rfl _ f0
  generalize levelLoop fuel kappa d dual d 1 (negateLoop kappa d ⟨x, s⟩) = m at *
  cases m with
  | ok u g' =>
    have L : Frs kappa (kappa + d) s g'.s := L
    simp only [Out.bind, Out.ok.injEq, true_and] at hok
    obtain ⟨e1, e2, e3⟩ := L.finish h (by omega) hd
    have n1 := (rowOpEnd_nCols g'.s kappa (kappa + d)).trans L.cols
    have n2 := (rowOpEnd_d g'.s kappa (kappa + d)).trans L.d
    rw [← hok]
    dsimp only
    split_ifs
    · exact ⟨e1, n2, n1, e2⟩
    · refine ⟨moveRow_st e1 (by omega) (by omega), ?_, (moveRow_nCols _ _ _).trans n1, fun k hk => ?_⟩
      · rw [(moveRow_keep e1.full (by omega) (by omega)).good.cfg.d, n2]
      · rw [moveRow_valid e1 (lo := kappa) (by omega) (by omega) (by omega) k hk, e2 k hk]
  | thrown => simp [Out.bind] at hok
  | ub => simp [Out.bind] at hok
  | stuck => simp [Out.bind] at hok

/-- the insertion with a unit coordinate, primal case -/
theorem insertUnit_st {s : GSO Exact} (h : St s) (x : ℕ → Exact) {iv : ℕ} (hiv : iv < d) (hd : kappa + d ≤ s.d) :
    St (insertUnit x kappa d iv false s) ∧ (insertUnit x kappa d iv false s).d = s.d ∧ (insertUnit x kappa d iv false s).nCols = s.nCols ∧
    ∀ k < kappa, (insertUnit x kappa d iv false s).gsoValidCols k = s.gsoValidCols k := by
  have kp := insertUnit_keep h.full x false hiv hd
  refine ⟨?_, kp.good.cfg.d, kp.good.cfg.nCols, ?_⟩
  all_goals
    unfold insertUnit
    simp only [Bool.false_eq_true, if_false]
    generalize (getSiExp (x iv)).1 = sol
    have L : Frs (kappa + iv) (kappa + iv + 1) s (insertLoop x kappa d iv false sol s) := by
      unfold insertLoop
      refine forUp_inv' (fun t => Frs (kappa + iv) (kappa + iv + 1) s t) _ 0 d s (.refl h) fun i t _ hi ht => ?_
      have hd' := ht.d
      simp only [Bool.false_eq_true, if_false]
      split_ifs
      · have k := rowAddmulWe_keep ht.full (i := kappa + iv) (j := kappa + i) (by omega) (by omega) (by omega) (mul (ofInt sol) (x i))
        have r := rowAddmulWe_rest t (kappa + iv) (kappa + i) (mul (ofInt sol) (x i))
        exact ⟨k.full, k.good.cfg.d.trans ht.d, k.good.cfg.nCols.trans ht.cols, rowAddmulWe_fresh ht.fresh ⟨le_rfl, by omega⟩ _,
          (rowAddmulWe_dims t _ _ _).locked.trans ht.locked, r.2.2.1.trans ht.valid⟩
      · exact ht
    generalize insertLoop x kappa d iv false sol s = t at L
    obtain ⟨e1, e2, e3⟩ := L.finish h (by omega) (by omega)
    have hd' := (rowOpEnd_d t (kappa + iv) (kappa + iv + 1)).trans L.d
  · exact moveRow_st e1 (by omega) (by omega)
  · intro k hk
    rw [moveRow_valid e1 (lo := kappa) (by omega) (by omega) (by omega) k hk, e2 k (by omega)]

/-! ## more fuel -/

theorem Out.bind_ok {σ α β : Type} {m : Out σ α} {f : α → σ → Out σ β} {b : β} {s : σ} (h : m.bind f = .ok b s) :
    ∃ a s', m = .ok a s' ∧ f a s' = .ok b s := by
  cases m with
  | ok a s' => exact ⟨a, s', rfl, h⟩
  | thrown => simp [Out.bind] at h
  | ub => simp [Out.bind] at h
  | stuck => simp [Out.bind] at h

theorem euclid_fuel {kappa k off : ℕ} {dual : Bool} {n m : ℕ} (hnm : n ≤ m) {g g' : GState Exact} (h : euclid kappa k off dual n g = .ok () g') :
    euclid kappa k off dual m g = .ok () g' := by
  induction n generalizing m g with
  | zero => simp [euclid] at h
  | succ n ih =>
    obtain ⟨m, rfl⟩ : ∃ m', m = m' + 1 := ⟨m - 1, by omega⟩
    rw [euclid] at h ⊢
    split_ifs at h ⊢
    · exact h
    · exact ih (by omega) h
    · exact ih (by omega) h

theorem pairStep_fuel {kappa k off : ℕ} {dual : Bool} {n m : ℕ} (hnm : n ≤ m) {g g' : GState Exact} (h : pairStep n kappa k off dual g = .ok () g') :
    pairStep m kappa k off dual g = .ok () g' := by
  unfold pairStep at h ⊢
  split_ifs at h ⊢
  · exact h
  · exact euclid_fuel hnm h
  · exact euclid_fuel hnm h

theorem pairLoop_fuel {kappa off : ℕ} {dual : Bool} {f f' : ℕ} (hf : f ≤ f') (n k : ℕ) {g g' : GState Exact}
    (h : pairLoop f kappa off dual n k g = .ok () g') : pairLoop f' kappa off dual n k g = .ok () g' := by
  induction n generalizing k g with
  | zero => exact h
  | succ n ih =>
    rw [pairLoop] at h ⊢
    by_cases hk : off ≤ k
    swap
    · rw [if_neg hk] at h ⊢; exact h
    rw [if_pos hk] at h ⊢
    obtain ⟨a, s, h1, h2⟩ := Out.bind_ok h
    rw [pairStep_fuel hf h1]
    simp only [Out.bind]
    split_ifs at h2 ⊢
    · exact ih _ h2
    · exact h2

theorem levelLoop_fuel {kappa d : ℕ} {dual : Bool} {f f' : ℕ} (hf : f ≤ f') (n off : ℕ) {g g' : GState Exact}
    (h : levelLoop f kappa d dual n off g = .ok () g') : levelLoop f' kappa d dual n off g = .ok () g' := by
  induction n generalizing off g with
  | zero => exact h
  | succ n ih =>
    rw [levelLoop] at h ⊢
    split_ifs at h ⊢
    · obtain ⟨a, s, h1, h2⟩ := Out.bind_ok h
      rw [pairLoop_fuel hf _ _ h1]
      simp only [Out.bind]
      exact ih _ h2
    · exact h

theorem insertGeneric_fuel {kappa d : ℕ} {x : ℕ → Exact} {dual : Bool} {s : GSO Exact} {f f' : ℕ} (hf : f ≤ f') {g : GState Exact}
    (h : insertGeneric f kappa d x dual s = .ok () g) : insertGeneric f' kappa d x dual s = .ok () g := by
  unfold insertGeneric at h ⊢
  obtain ⟨a, s', h1, h2⟩ := Out.bind_ok h
  rw [levelLoop_fuel hf _ _ h1]
  exact h2

/-- `svp_postprocessing`, primal, when it ends -/
theorem postprocess_mv (c : SvpCfg Exact) {x : ℕ → Exact} {z : ℕ → ℤ} {w w' : W Exact} (hs : St w.s) (h1 : 1 ≤ d)
    (hd : kappa + d ≤ w.s.d) (hx : ∀ i < d, x i = some (z i : ℚ)) (hgcd : ∀ m : ℤ, (∀ i < d, m ∣ z i) → IsUnit m)
    (hok : postprocess c kappa d x false w = .ok () w') :
    Mv kappa (kappa + d) w.s w'.s ∧ Inserted w.s.nCols kappa d false z w.s.b w'.s.b ∧ ∀ k < kappa, w'.s.gsoValidCols k = w.s.gsoValidCols k := by
  have big : ∃ c' : SvpCfg Exact, postprocess c' kappa d x false w = .ok () w' ∧ 2 * (∑ i ∈ Finset.range d, |z i|) + 1 < c'.inner := by
    obtain ⟨N, hN⟩ : ∃ N : ℕ, 2 * (∑ i ∈ Finset.range d, |z i|) + 1 < N ∧ c.inner ≤ N := by
      refine ⟨c.inner + (2 * (∑ i ∈ Finset.range d, |z i|) + 2).toNat, ?_, by omega⟩
      push_cast
      have := Int.self_le_toNat (2 * (∑ i ∈ Finset.range d, |z i|) + 2)
      omega
    refine ⟨{ c with inner := N }, ?_, hN.1⟩
    unfold postprocess at hok ⊢
    dsimp only at hok ⊢
    cases hp : (scan x d).2 with
    | some iv => rw [hp] at hok; exact hok
    | none =>
      rw [hp] at hok
      split_ifs at hok ⊢ with hn
      cases hg : insertGeneric c.inner kappa d x false w.s with
      | ok u g => rw [insertGeneric_fuel hN.2 hg]; rw [hg] at hok; exact hok
      | thrown g => rw [hg] at hok; simp [liftG] at hok
      | ub g => rw [hg] at hok; simp [liftG] at hok
      | stuck g => rw [hg] at hok; simp [liftG] at hok
  obtain ⟨c', hc1, hc2⟩ := big
  obtain ⟨w'', e1, ins⟩ := postprocess_inserted c' false hs.full hd hx hgcd hc2
  rw [hc1] at e1
  simp only [Out.ok.injEq, true_and] at e1
  subst e1
  have key : St w'.s ∧ w'.s.d = w.s.d ∧ w'.s.nCols = w.s.nCols ∧ ∀ k < kappa, w'.s.gsoValidCols k = w.s.gsoValidCols k := by
    obtain ⟨q1, q2, q3⟩ := scan_spec x d
    unfold postprocess at hok
    dsimp only at hok
    cases hp : (scan x d).2 with
    | some iv =>
      have hiv := (q2 iv hp).1
      rw [hp] at hok
      simp only [Bool.false_eq_true, if_false] at hok
      by_cases hn : (scan x d).1 = 1
      · rw [if_pos hn] at hok
        simp only [Out.ok.injEq, true_and] at hok
        subst hok
        have kp := moveRow_keep hs.full (o := kappa + iv) (n := kappa) (by omega) (by omega)
        exact ⟨moveRow_st hs (by omega) (by omega), kp.good.cfg.d, kp.good.cfg.nCols,
          fun k hk => moveRow_valid hs (lo := kappa) (by omega) (by omega) (by omega) k hk⟩
      · rw [if_neg hn] at hok
        simp only [Out.ok.injEq, true_and] at hok
        subst hok
        exact insertUnit_st hs x hiv hd
    | none =>
      rw [hp] at hok
      split_ifs at hok
      dsimp only at hok
      cases hg : insertGeneric c.inner kappa d x false w.s with
      | ok u g =>
        rw [hg] at hok
        simp only [liftG, Out.ok.injEq, true_and] at hok
        subst hok
        exact insertGeneric_st hs h1 hd hg
      | thrown g => rw [hg] at hok; simp [liftG] at hok
      | ub g => rw [hg] at hok; simp [liftG] at hok
      | stuck g => rw [hg] at hok; simp [liftG] at hok
  exact ⟨⟨key.1, key.2.1, key.2.2.1, fun j hj => ins.block.preEq hj⟩, ins, key.2.2.2⟩

end BKZ
end Fplll

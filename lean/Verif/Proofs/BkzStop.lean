import Verif.Proofs.LexPot

/-!
# BKZ in exact arithmetic stops

A tour that is not "clean" makes the lexicographic potential smaller, so there are only finitely many.
-/

namespace Fplll
namespace BKZ

open FloatOps GSO LLL Spec

variable {σ α β : Type}

/-- with enough fuel the outcome is always the same, `ok` or an exception, and in the first case `Q` holds -/
def Ev (f : ℕ → Out σ α) (Q : α → σ → Prop) : Prop :=
  ∃ M, (∃ a s, (∀ m, M ≤ m → f m = .ok a s) ∧ Q a s) ∨ ∃ s, ∀ m, M ≤ m → f m = .thrown s

theorem Ev.ok {f : ℕ → Out σ α} {Q : α → σ → Prop} {a : α} {s : σ} (h : ∀ m, f m = .ok a s) (hq : Q a s) : Ev f Q := ⟨0, .inl ⟨a, s, fun m _ => h m, hq⟩⟩

theorem Ev.thrown {f : ℕ → Out σ α} {Q : α → σ → Prop} {s : σ} (h : ∀ m, f m = .thrown s) : Ev f Q := ⟨0, .inr ⟨s, fun m _ => h m⟩⟩

theorem Ev.congr {f g : ℕ → Out σ α} {Q : α → σ → Prop} (M0 : ℕ) (h : ∀ m, M0 ≤ m → f m = g m) (hg : Ev g Q) : Ev f Q := by
  obtain ⟨M, hg⟩ := hg
  refine ⟨max M M0, ?_⟩
  rcases hg with ⟨a, s, h1, h2⟩ | ⟨s, h1⟩
  · exact .inl ⟨a, s, fun m hm => by rw [h m (by omega), h1 m (by omega)], h2⟩
  · exact .inr ⟨s, fun m hm => by rw [h m (by omega), h1 m (by omega)]⟩

theorem Ev.bind {f : ℕ → Out σ α} {g : ℕ → α → σ → Out σ β} {Q : α → σ → Prop} {R : β → σ → Prop} (hf : Ev f Q)
    (hg : ∀ a s, Q a s → Ev (fun m => g m a s) R) : Ev (fun m => (f m).bind (g m)) R := by
  obtain ⟨M, hf⟩ := hf
  rcases hf with ⟨a, s, h1, h2⟩ | ⟨s, h1⟩
  · exact (hg a s h2).congr M fun m hm => by rw [h1 m hm]; rfl
  · exact ⟨M, .inr ⟨s, fun m hm => by dsimp only; rw [h1 m hm]; rfl⟩⟩

theorem Ev.imp {f : ℕ → Out σ α} {Q R : α → σ → Prop} (h : Ev f Q) (hi : ∀ a s, Q a s → R a s) : Ev f R := by
  obtain ⟨M, h⟩ := h
  refine ⟨M, ?_⟩
  rcases h with ⟨a, s, h1, h2⟩ | h
  · exact .inl ⟨a, s, h1, hi a s h2⟩
  · exact .inr h

theorem postprocess_ev (c : SvpCfg Exact) {kappa d : ℕ} {x : ℕ → Exact} {z : ℕ → ℤ} {w : W Exact} (hs : St w.s) (h1 : 1 ≤ d)
    (hd : kappa + d ≤ w.s.d) (hx : ∀ i < d, x i = some (z i : ℚ)) (hgcd : ∀ m : ℤ, (∀ i < d, m ∣ z i) → IsUnit m) :
    Ev (fun m => postprocess { c with inner := m } kappa d x false w) fun _ w' =>
      Mv kappa (kappa + d) w.s w'.s ∧ Inserted w.s.nCols kappa d false z w.s.b w'.s.b := by
  obtain ⟨N, hN⟩ : ∃ N : ℕ, 2 * (∑ i ∈ Finset.range d, |z i|) + 1 < N := by
    refine ⟨(2 * (∑ i ∈ Finset.range d, |z i|) + 2).toNat, ?_⟩
    have := Int.self_le_toNat (2 * (∑ i ∈ Finset.range d, |z i|) + 2)
    omega
  obtain ⟨w', e1, -⟩ := postprocess_inserted { c with inner := N } (kappa := kappa) false hs.full hd hx hgcd hN
  obtain ⟨a1, a2, -⟩ := postprocess_mv { c with inner := N } hs h1 hd hx hgcd e1
  refine ⟨N, .inl ⟨(), w', fun m hm => ?_, a1, a2⟩⟩
  unfold postprocess at e1 ⊢
  dsimp only at e1 ⊢
  cases hp : (scan x d).2 with
  | some iv => rw [hp] at e1; exact e1
  | none =>
    rw [hp] at e1
    split_ifs at e1 ⊢ with hn
    cases hg : insertGeneric N kappa d x false w.s with
    | ok u g => rw [insertGeneric_fuel hm hg]; rw [hg] at e1; exact e1
    | thrown g => rw [hg] at e1; simp [liftG] at e1
    | ub g => rw [hg] at e1; simp [liftG] at e1
    | stuck g => rw [hg] at e1; simp [liftG] at e1

/-- `E` independent rows, everything cached is right -/
structure Okay (E : ℕ) (w : W Exact) : Prop where
  st : St w.s
  d : E ≤ w.s.d
  ind : Indep E w.s.nCols (toQ w.s.b)

/-- from `w` to `w'` the lattice is kept and the potential does not become larger; it becomes smaller if `sw` -/
structure Desc (E : ℕ) (w w' : W Exact) (sw : Prop) : Prop where
  mv : Mv 0 E w.s w'.s
  le : lexPot E w.s.nCols w'.s.b ≤ lexPot E w.s.nCols w.s.b
  lt : sw → lexPot E w.s.nCols w'.s.b < lexPot E w.s.nCols w.s.b

theorem Desc.okay {E : ℕ} {w w' : W Exact} {sw : Prop} (h : Desc E w w' sw) (ho : Okay E w) : Okay E w' :=
  ⟨h.mv.st, by rw [h.mv.d]; exact ho.d, h.mv.indep ho.ind⟩

theorem Desc.refl {E : ℕ} {w : W Exact} (h : St w.s) {sw : Prop} (hs : ¬ sw) : Desc E w w sw := ⟨.refl h, le_rfl, fun hh => absurd hh hs⟩

theorem Desc.trans {E : ℕ} {w w' w'' : W Exact} {p q r : Prop} (h1 : Desc E w w' p) (h2 : Desc E w' w'' q) (hr : r → p ∨ q) : Desc E w w'' r := by
  have hl := h2.le
  have ht := h2.lt
  rw [h1.mv.cols] at hl ht
  refine ⟨h1.mv.trans h2.mv, hl.trans h1.le, fun h => ?_⟩
  rcases hr h with h | h
  · exact lt_of_le_of_lt hl (h1.lt h)
  · exact lt_of_lt_of_le (ht h) h1.le

theorem Desc.of_dn {E e : ℕ} {w w' : W Exact} {sw : Prop} (hm : Mv 0 e w.s w'.s) (he : e ≤ E) (h : Dn e w.s.nCols w.s.b w'.s.b sw) : Desc E w w' sw := by
  have h' := h.mono he fun j hj => hm.pre j (.inr hj)
  refine ⟨hm.mono le_rfl he, lexPot_le h'.le, fun hh => ?_⟩
  obtain ⟨m, h1, h2⟩ := h'.lt hh
  exact lexPot_lt h'.le h1 h2

/-- nothing but size reduction -/
theorem Desc.of_low {E : ℕ} {w w' : W Exact} (hm : Mv E 0 w.s w'.s) : Desc E w w' False := by
  refine ⟨hm.mono (by omega) (by omega), le_of_eq (lexPot_congr fun j _ => gramDet_pre (hm.pre j (.inr (by omega)))), fun h => absurd h id⟩

variable (c : SvpCfg Exact) (o : Orc Exact) {η thr δ rad : ℚ}

theorem lllOp_desc (hc : PCfg c.lll η thr δ) (hδ : δ < 1) {a e E : ℕ} {hi : ℤ} (hhi : hi = e) (hae : a < e) (heE : e ≤ E) {w w' : W Exact} (hw : Okay E w)
    (hv : ∀ k < a, k + 1 ≤ w.s.gsoValidCols k) {sw : Bool} (h : lllOp c o a a hi w = .ok (true, sw) w') :
    Dn e w.s.nCols w.s.b w'.s.b (sw = true) ∧ Mv 0 e w.s w'.s ∧ ∀ k < e, k + 1 ≤ w'.s.gsoValidCols k := by
  subst hhi
  have hd := hw.d
  have hind : Indep e w.s.nCols (toQ w.s.b) := indep_of_pos fun i hi => hw.ind.pos i (by omega)
  unfold lllOp at h
  rw [if_pos (by omega)] at h
  simp only [Out.ok.injEq, Prod.mk.injEq, Int.toNat_natCast, decide_eq_true_eq] at h
  obtain ⟨⟨h1, h2⟩, h3⟩ := h
  obtain ⟨m, v⟩ := lll_pref c.lll hc c.fuel (o.maxIter w.t) w.last (P := 0) hw.st hae (by omega) hind (fun m _ hm => by omega) hv h1
  have dn := lll_dn c.lll hc hδ c.fuel (o.maxIter w.t) w.last hw.st hae (by omega) hind hv h1
  rw [← h3]
  refine ⟨⟨dn.le, fun hh => dn.lt ?_⟩, m, v⟩
  rw [← h2] at hh
  simpa using hh

theorem lllOp_total {a e : ℕ} {w : W Exact} {hi : ℤ} (hhi : hi = e) (hae : a < e) (hed : e ≤ w.s.d) : ∃ r w', lllOp c o a a hi w = .ok r w' := by
  subst hhi
  unfold lllOp
  rw [if_pos (by omega)]
  exact ⟨_, _, rfl⟩

theorem sizeRedOp_total {k : ℕ} {w : W Exact} (hk : k + 1 ≤ w.s.d) : ∃ r w', sizeRedOp c 0 (k + 1) 0 w = .ok r w' := by
  unfold sizeRedOp
  rw [if_pos (by omega)]
  exact ⟨_, _, rfl⟩

theorem preprocess_ev (hc : PCfg c.lll η thr δ) (hδ : δ < 1) {k d E : ℕ} (hd1 : 1 ≤ d) (hkE : k + d ≤ E) (hpre : o.preproc d = []) (bounded : Bool)
    (tr : ℕ → ℤ → ℤ → ℤ → W Exact → Out (W Exact) Bool) {w : W Exact} (hw : Okay E w) (hv : ∀ i < k, i + 1 ≤ w.s.gsoValidCols i) :
    Ev (fun m => preprocess { c with inner := m } o bounded (tr m) k d w) fun _ w' => Dn (k + d) w.s.nCols w.s.b w'.s.b False ∧ Mv 0 (k + d) w.s w'.s ∧ ∀ i < k + d, i + 1 ≤ w'.s.gsoValidCols i := by
  have hd := hw.d
  have key : ∀ a : ℕ, a ≤ k → Ev (fun m => (lllOp { c with inner := m } o a a (k + d) w).bind fun r w =>
      if r.1 = false then .thrown w else preprocLoop (tr m) k (k + d) (o.preproc d) w) fun _ w' =>
        Dn (k + d) w.s.nCols w.s.b w'.s.b False ∧ Mv 0 (k + d) w.s w'.s ∧ ∀ i < k + d, i + 1 ≤ w'.s.gsoValidCols i := by
    intro a ha
    have hhi : (k : ℤ) + d = ((k + d : ℕ) : ℤ) := by push_cast; rfl
    obtain ⟨r, w1, e⟩ := lllOp_total c o (a := a) (e := k + d) (w := w) hhi (by omega) (by omega)
    obtain ⟨r1, r2⟩ := r
    rw [hpre]
    cases r1 with
    | false => exact .thrown fun m => by rw [show lllOp { c with inner := m } o a a (k + d) w = _ from e]; rfl
    | true =>
      obtain ⟨x1, x2, x3⟩ := lllOp_desc c o hc hδ hhi (by omega) hkE hw (fun i hi => hv i (by omega)) e
      refine .ok (s := w1) (fun m => by rw [show lllOp { c with inner := m } o a a (k + d) w = _ from e]; rfl) ⟨⟨x1.le, fun h => absurd h id⟩, x2, x3⟩
  unfold preprocess
  cases bounded with
  | true => exact key k le_rfl
  | false => exact_mod_cast key 0 (Nat.zero_le _)

/-- the loop of `svp_reduction`: only LLL (no determinant becomes larger), or a vector was inserted -/
theorem svpLoop_ev (hc : PCfg c.lll η thr δ) (hδ : δ < 1) (hrad : rad < 1) (htr : Truthful rad o) {k d E : ℕ} (hd1 : 1 ≤ d) (hkE : k + d ≤ E)
    (hpre : o.preproc d = []) (hmore : ∀ t, o.more t 0 = true) (honce : ∀ t it, 1 ≤ it → o.more t it = false) (bounded : Bool)
    (tr : ℕ → ℤ → ℤ → ℤ → W Exact → Out (W Exact) Bool) {w : W Exact} (hw : Okay E w) (hv : ∀ i < k, i + 1 ≤ w.s.gsoValidCols i) :
    Ev (fun m => svpLoop { c with inner := m } o bounded (tr m) k d false m 0 false w) fun _ w' => Desc E w w' (normStar w.s.nCols (toQ w'.s.b) k < normStar w.s.nCols (toQ w.s.b) k) := by
  let g : ℕ → Unit → W Exact → Out (W Exact) Unit := fun m _ u =>
    match o.enum u.t k d false u.s with
    | none => .ok () u.tick.tick
    | some x => (postprocess { c with inner := m } k d x false u.tick).bind fun _ v => .ok () v.tick
  refine Ev.congr 2 (g := fun m => (preprocess { c with inner := m } o bounded (tr m) k d w.tick).bind (g m)) (fun m hm => ?_) ?_
  · obtain ⟨n, rfl⟩ : ∃ n, m = n + 1 + 1 := ⟨m - 2, by omega⟩
    rw [svpLoop, if_neg (by rw [hmore]; simp)]
    simp only [Bool.false_eq_true, if_false]
    change Out.bind (preprocess _ o bounded (tr (n + 1 + 1)) k d w.tick) _ = _
    congr 1
    funext _ u
    simp only [g]
    cases o.enum u.t k d false u.s with
    | none =>
      dsimp only
      rw [svpLoop, if_pos (honce _ _ (by omega))]
    | some x =>
      dsimp only
      rw [Int.toNat_natCast, Int.toNat_natCast]
      congr 1
      funext _ v
      rw [svpLoop, if_pos (honce _ _ (by omega))]
  refine (preprocess_ev c o hc hδ (E := E) hd1 hkE hpre bounded tr (w := w.tick) ⟨hw.st, hw.d, hw.ind⟩ hv).bind fun _ u hu => ?_
  obtain ⟨dn, mv, vv⟩ := hu
  have okU : Okay E u := (Desc.of_dn (w := w) mv hkE dn).okay hw
  have hd := okU.d
  have hi2 : Indep (k + d) u.s.nCols (toQ u.s.b) := indep_of_pos fun i hi => okU.ind.pos i (by omega)
  have hsol := htr u.t k d u.s okU.st hd1 (by omega) hi2 vv
  have ds0 : Desc E w u (normStar w.s.nCols (toQ u.s.b) k < normStar w.s.nCols (toQ w.s.b) k) := by
    refine .of_dn mv hkE ⟨dn.le, fun hlt => ⟨k, by omega, ?_⟩⟩
    have h0 : (0 : ℚ) < ((gramDet w.s.nCols w.s.b k : ℤ) : ℚ) := by exact_mod_cast gramDet_pos hw.ind (by omega)
    have h1 : ((gramDet w.s.nCols u.s.b k : ℤ) : ℚ) ≤ ((gramDet w.s.nCols w.s.b k : ℤ) : ℚ) := by exact_mod_cast dn.le k (by omega)
    have : ((gramDet w.s.nCols u.s.b (k + 1) : ℤ) : ℚ) < ((gramDet w.s.nCols w.s.b (k + 1) : ℤ) : ℚ) := by
      rw [gramDet_succ, gramDet_succ]
      exact lt_of_le_of_lt (mul_le_mul_of_nonneg_right h1 (normStar_nonneg _ _ _)) (mul_lt_mul_of_pos_left hlt h0)
    exact_mod_cast this
  simp only [g]
  cases hx : o.enum u.t k d false u.s with
  | none =>
    refine .ok (fun _ => rfl) ?_
    exact ⟨ds0.mv, ds0.le, ds0.lt⟩
  | some x =>
    rw [hx] at hsol
    obtain ⟨z, z1, z2, zr, z3⟩ := hsol
    refine (postprocess_ev c (w := u.tick) okU.st hd1 (by exact (by omega : k + d ≤ u.s.d)) z1 (primitive_of_min z2 z3)).bind fun _ v hv => ?_
    obtain ⟨m3, ins⟩ := hv
    refine .ok (fun _ => rfl) ?_
    obtain ⟨i1, -⟩ := minProj_inserted (δ := 0) (by norm_num) ins z2 z3
    have hpos : 0 < normStar u.s.nCols (toQ u.s.b) k := hi2.pos k (by omega)
    have hlt : normStar u.s.nCols (toQ v.s.b) k < normStar u.s.nCols (toQ u.s.b) k := by
      change normStar u.s.nCols (toQ v.s.b) k = _ at i1
      rw [i1]
      refine lt_of_le_of_lt zr ?_
      nlinarith
    have hk0 : ∀ j ≤ k, gramDet u.s.nCols v.s.b j = gramDet u.s.nCols u.s.b j := fun j hj => gramDet_pre (m3.pre j (.inl hj))
    have hk1 : gramDet u.s.nCols v.s.b (k + 1) < gramDet u.s.nCols u.s.b (k + 1) := by
      have h0 : (0 : ℚ) < ((gramDet u.s.nCols u.s.b k : ℤ) : ℚ) := by exact_mod_cast gramDet_pos hi2 (by omega)
      have : ((gramDet u.s.nCols v.s.b (k + 1) : ℤ) : ℚ) < ((gramDet u.s.nCols u.s.b (k + 1) : ℤ) : ℚ) := by
        rw [gramDet_succ, gramDet_succ, hk0 k le_rfl]
        exact mul_lt_mul_of_pos_left hlt h0
      exact_mod_cast this
    have hlex := lexPot_lt_at (E := E) (by omega) hk0 hk1
    have d2 : Desc E u v.tick True := ⟨m3.mono (by omega) hkE, hlex.le, fun _ => hlex⟩
    exact ds0.trans d2 fun _ => .inr trivial

/-- `svp_reduction` of a block: the potential does not become larger, and if the answer is not "clean" it becomes smaller -/
theorem svpReduction_ev (hc : PCfg c.lll η thr δ) (hδ : δ < 1) (hrad : rad < 1) (htr : Truthful rad o) {k d E : ℕ} (hd1 : 1 ≤ d) (hkE : k + d ≤ E)
    (hpre : o.preproc d = []) (hmore : ∀ t, o.more t 0 = true) (honce : ∀ t it, 1 ≤ it → o.more t it = false) (bounded : Bool)
    (tr : ℕ → ℤ → ℤ → ℤ → W Exact → Out (W Exact) Bool) {w : W Exact} (hw : Okay E w) :
    Ev (fun m => svpReduction { c with inner := m } o bounded (tr m) k d false w) fun cl w' => Desc E w w' (cl = false) ∧ ∀ i ≤ k, i + 1 ≤ w'.s.gsoValidCols i := by
  have hd := hw.d
  unfold svpReduction
  simp only [Bool.false_eq_true, if_false]
  simp only [if_pos (show 0 ≤ (k : ℤ) ∧ 1 ≤ (d : ℤ) ∧ (k : ℤ) + d ≤ w.s.d by omega)]
  have e : ((k : ℤ) + 1).toNat = k + 1 := by omega
  have hfr : ∀ t : GSO Exact, St t → k < t.d → k + 1 ≤ t.gsoValidCols k → t.r k k = some (normStar t.nCols (toQ t.b) k) := by
    intro t ht hd hv
    rw [(ht.fresh.valid k (by rw [ht.full.known]; exact hd) (not_dirty_empty _) k (by omega) (by omega)).1, rS_self]
    rfl
  obtain ⟨r1, w1, h1⟩ := sizeRedOp_total c (k := k) (w := w) (by omega)
  cases r1 with
  | false => exact .thrown fun m => by rw [show sizeRedOp { c with inner := m } 0 (k + 1) 0 w = _ from h1]; rfl
  | true =>
    obtain ⟨m1, v1, -, -⟩ := sizeRedOp_pref c hc.eta hw.st h1 E 0
    rw [e] at v1
    have d1 := Desc.of_low m1
    have ok1 := d1.okay hw
    have hd' := ok1.d
    have hf1 : firstRow k d false = k := by unfold firstRow; simp
    have old := hfr w1.s ok1.st (by omega) (v1 k (by omega))
    refine Ev.congr 0 (fun m _ => show _ = (svpLoop { c with inner := m } o bounded (tr m) k d false m 0 false w1).bind fun _ w =>
      (sizeRedOp c 0 (k + 1) 0 w).bind fun r w => if r = false then .thrown w else .ok (cleanTest false (w1.s.r k k) (w.s.r k k)) w by
        rw [show sizeRedOp { c with inner := m } 0 (k + 1) 0 w = _ from h1, hf1]; rfl) ?_
    refine (svpLoop_ev c o hc hδ hrad htr hd1 hkE hpre hmore honce bounded tr ok1 (fun i hi => v1 i (by omega))).bind fun _ w2 d2 => ?_
    have ok2 := d2.okay ok1
    have hd2 := ok2.d
    obtain ⟨r3, w3, h3⟩ := sizeRedOp_total c (k := k) (w := w2) (by omega)
    rw [h3]
    cases r3 with
    | false => exact .thrown fun _ => rfl
    | true =>
      obtain ⟨m3, v3, -, -⟩ := sizeRedOp_pref c hc.eta ok2.st h3 E 0
      rw [e] at v3
      have d3 := Desc.of_low m3
      have ok3 := d3.okay ok2
      have hd3 := ok3.d
      have new := hfr w3.s ok3.st (by omega) (v3 k (by omega))
      refine .ok (fun _ => rfl) ⟨(d1.trans d2 (r := _) .inr).trans d3 (fun hcl => .inl ?_), fun i hi => v3 i (by omega)⟩
      rw [old, new, m3.cols, d2.mv.cols] at hcl
      have hct : cleanTest false (some (normStar w1.s.nCols (toQ w1.s.b) k) : Exact) (some (normStar w1.s.nCols (toQ w3.s.b) k)) =
          !decide (normStar w1.s.nCols (toQ w3.s.b) k < normStar w1.s.nCols (toQ w1.s.b) k) := rfl
      rw [hct] at hcl
      have := normStar_pre (m3.pre k (.inr (by omega))) (m3.pre (k + 1) (.inr (by omega)))
      rw [d2.mv.cols] at this
      rw [this]
      simpa using hcl

/-- a loop of such calls -/
theorem loop_ev {E : ℕ} (f : ℕ → ℤ → W Exact → Out (W Exact) Bool) (V : ℕ → W Exact → Prop) (cnt k : ℕ)
    (hf : ∀ i, k ≤ i → i < k + cnt → ∀ w, Okay E w → Ev (fun m => f m i w) fun cl w' => Desc E w w' (cl = false) ∧ V i w') (cl : Bool) {w : W Exact} (hw : Okay E w) :
    Ev (fun m => loop (f m) 1 cnt k cl w) fun cl' w' => Desc E w w' (cl = true ∧ cl' = false) ∧ (1 ≤ cnt → V (k + cnt - 1) w') := by
  induction cnt generalizing k cl w with
  | zero => exact .ok (fun _ => rfl) ⟨.refl hw.st (by simp), fun h => by omega⟩
  | succ cnt ih =>
    refine Ev.congr 0 (fun m _ => by rw [loop]) ?_
    refine (hf k le_rfl (by omega) w hw).bind fun c1 w1 h1 => ?_
    obtain ⟨d1, v1⟩ := h1
    have hcl : ∀ cl' : Bool, cl = true ∧ cl' = false → c1 = false ∨ (cl && c1) = true ∧ cl' = false := by
      intro cl' h
      cases c1 with
      | false => exact .inl rfl
      | true => exact .inr (by simpa using h)
    rcases Nat.eq_zero_or_pos cnt with hz | hz
    · subst hz
      exact .ok (fun _ => rfl) ⟨⟨d1.mv, d1.le, fun h => d1.lt ((hcl _ h).resolve_right (by simp))⟩, fun _ => v1⟩
    have := ih (k + 1) (fun i h1 h2 => hf i (by omega) (by omega)) (cl && c1) (d1.okay hw)
    rw [Nat.cast_succ] at this
    refine this.imp fun cl' w' h2 => ⟨d1.trans h2.1 (hcl cl'), fun _ => ?_⟩
    have := h2.2 hz
    rwa [show k + 1 + cnt - 1 = k + (cnt + 1) - 1 by omega] at this

/-- a tour of BKZ -/
theorem tour_ev (hc : PCfg c.lll η thr δ) (hδ : δ < 1) (hη : 1 / 2 ≤ η) (hfu : 2 ≤ c.fuel) (hrad : rad < 1) (htr : Truthful rad o) (hpre : ∀ bs, o.preproc bs = []) (hmore : ∀ t, o.more t 0 = true)
    (honce : ∀ t it, 1 ≤ it → o.more t it = false) (bounded : Bool) (depth : ℕ) {E bs : ℕ} (hbs : 2 ≤ bs) (hE : 1 ≤ E) {w : W Exact} (hw : Okay E w) :
    Ev (fun m => tour (svpOps { c with inner := m } o (depth + 1) bounded) bs 0 E w) fun cl w' => Desc E w w' (cl = false) := by
  unfold tour
  have e0 : ((E : ℤ) - bs - 0).toNat = E - bs := by omega
  have t1 : Ev (fun m => truncTour (svpOps { c with inner := m } o (depth + 1) bounded) bs 0 E w) fun cl w' => Desc E w w' (cl = false) := by
    unfold truncTour
    rw [e0]
    refine (loop_ev (fun m kappa => svpReduction { c with inner := m } o bounded (tour (svpOps { c with inner := m } o depth false)) kappa bs false) (fun _ _ => True) (E - bs) 0
      (fun i _ hi w hw => (svpReduction_ev c o hc hδ hrad htr (by omega) (by omega) (hpre _) hmore honce bounded (fun m => tour (svpOps { c with inner := m } o depth false)) hw).imp
        fun cl w' h => ⟨h.1, trivial⟩) true hw).imp fun cl w' h => ⟨h.1.mv, h.1.le, fun hh => h.1.lt ⟨rfl, hh⟩⟩
  refine t1.bind fun c1 w1 d1 => ?_
  have ok1 := d1.okay hw
  have e1 : max ((E : ℤ) - bs) 0 = ((E - bs : ℕ) : ℤ) := by omega
  have e2 : ((E : ℤ) - 1 - ((E - bs : ℕ) : ℤ)).toNat = E - 1 - (E - bs) := by omega
  unfold hkz
  rw [e1, e2]
  have t2 : Ev (fun m => (loop (fun kappa => (svpOps { c with inner := m } o (depth + 1) bounded).svp kappa (E - kappa) false) 1 (E - 1 - (E - bs)) ((E - bs : ℕ) : ℤ) true w1).bind fun clean s =>
      ((svpOps { c with inner := m } o (depth + 1) bounded).sizeRed (E - 1) E (E - 2) s).bind fun _ s => .ok clean s) fun cl w' => Desc E w1 w' (cl = false) := by
    refine (loop_ev (fun m kappa => svpReduction { c with inner := m } o bounded (tour (svpOps { c with inner := m } o depth false)) kappa (E - kappa) false)
      (fun i w' => ∀ j ≤ i, j + 1 ≤ w'.s.gsoValidCols j) (E - 1 - (E - bs)) (E - bs) (fun i h1 h2 w hw => ?_) true ok1).bind fun c2 w2 h2 => ?_
    · have e3 : (E : ℤ) - i = ((E - i : ℕ) : ℤ) := by omega
      simp only [e3]
      exact svpReduction_ev c o hc hδ hrad htr (by omega) (by omega) (hpre _) hmore honce bounded (fun m => tour (svpOps { c with inner := m } o depth false)) hw
    · obtain ⟨d2, v2⟩ := h2
      have ok2 := d2.okay ok1
      have hd2 := ok2.d
      have hval : ∀ j < E - 1, j + 1 ≤ w2.s.gsoValidCols j := fun j hj => v2 (by omega) j (by omega)
      have hok := startStep_success c.lll hc.eta hη hfu (E - 2) ok2.st (k := E - 1) (by omega) hval (by rw [Nat.sub_add_cancel hE]; exact ok2.ind)
      have hok' : (sizeReductionLoop c.lll c.fuel (E - 2) 1 (E - 1) w2.s).1 = .success := by
        rw [sizeReductionLoop, if_pos hok]; rfl
      obtain ⟨m3, -, -, -⟩ := sizeReductionLoop_pref c.lll hc.eta c.fuel (E - 2) 1 (E - 1) w2.s ok2.st E 0 (by omega) hval hok'
      have f1 : ((E : ℤ) - (E - 1)).toNat = 1 := by omega
      have f2 : ((E : ℤ) - 1).toNat = E - 1 := by omega
      have f3 : ((E : ℤ) - 2).toNat = E - 2 := by omega
      have d3 : Desc E w2 { w2 with s := (sizeReductionLoop c.lll c.fuel (E - 2) 1 (E - 1) w2.s).2 } False := .of_low m3
      have hsz : sizeRedOp c (E - 1) E (E - 2) w2 = .ok (decide ((sizeReductionLoop c.lll c.fuel (E - 2) 1 (E - 1) w2.s).1 = .success))
          { w2 with s := (sizeReductionLoop c.lll c.fuel (E - 2) 1 (E - 1) w2.s).2 } := by
        unfold sizeRedOp
        rw [if_pos (by omega), f1, f2, f3]
      refine .ok (a := c2) (fun m => ?_) (d2.trans d3 fun h => .inl ⟨rfl, h⟩)
      change Out.bind (sizeRedOp c (E - 1) E (E - 2) w2) _ = _
      rw [hsz]
      rfl
  refine t2.bind fun c2 w2 d2 => ?_
  refine .ok (a := c1 && c2) (s := { w2 with s := if w2.s.intGram = true then w2.s.symmetrizeG else w2.s }) (fun m => rfl) ?_
  have d3 : Desc E w2 { w2 with s := if w2.s.intGram = true then w2.s.symmetrizeG else w2.s } False := by
    apply Desc.of_low
    dsimp only
    split_ifs
    · exact symmetrizeG_mv d2.mv.st _ _
    · exact .refl d2.mv.st
  refine (d1.trans d2 (r := (c1 && c2) = false) fun h => ?_).trans d3 .inl
  cases c1
  · exact .inl rfl
  · exact .inr (by simpa using h)

/-- the inner loop of a tour of slide reduction: one pass over the blocks -/
theorem slidePass_ev (hc : PCfg c.lll η thr δ) (hδ : δ < 1) (hrad : rad < 1) (htr : Truthful rad o) (hpre : ∀ bs, o.preproc bs = []) (hmore : ∀ t, o.more t 0 = true)
    (honce : ∀ t it, 1 ≤ it → o.more t it = false) (bounded : Bool) (depth : ℕ) {E bs : ℕ} (hbs : 2 ≤ bs) {w : W Exact} (hw : Okay E w) :
    Ev (fun m => loop (fun i => (svpOps { c with inner := m } o (depth + 1) bounded).svp (0 + i * bs) (min (E - (0 + i * bs)) bs) false) 1 (numBlocks bs 0 E).toNat 0 true w)
      fun cl w' => Desc E w w' (cl = false) := by
  refine (loop_ev (fun m i => svpReduction { c with inner := m } o bounded (tour (svpOps { c with inner := m } o depth false)) (0 + i * bs) (min (E - (0 + i * bs)) bs) false)
    (fun _ _ => True) _ 0 (fun i _ hi w hw => ?_) true hw).imp fun cl w' h => ⟨h.1.mv, h.1.le, fun hh => h.1.lt ⟨rfl, hh⟩⟩
  have hlt : i * bs < E := by
    rw [Nat.zero_add] at hi
    unfold numBlocks at hi
    have e : ((E : ℤ) - 0).tdiv bs = ((E / bs : ℕ) : ℤ) := by
      rw [sub_zero]; exact (Int.ofNat_tdiv E bs).symm
    have e' : ((E : ℤ) - 0).tmod bs = ((E % bs : ℕ) : ℤ) := by
      rw [sub_zero]; exact (Int.ofNat_tmod E bs).symm
    rw [e, e'] at hi
    have h1 := Nat.div_add_mod E bs
    split_ifs at hi with hm
    · have : i ≤ E / bs := by omega
      have h2 : bs * i ≤ bs * (E / bs) := Nat.mul_le_mul_left _ this
      have : 0 < E % bs := by omega
      rw [mul_comm]; omega
    · have : i + 1 ≤ E / bs := by omega
      have h2 : bs * (i + 1) ≤ bs * (E / bs) := Nat.mul_le_mul_left _ this
      rw [mul_comm]; rw [mul_add] at h2; omega
  have a1 : (0 : ℤ) + (i : ℤ) * bs = ((i * bs : ℕ) : ℤ) := by push_cast; ring
  have a2 : min ((E : ℤ) - ((i * bs : ℕ) : ℤ)) bs = ((min (E - i * bs) bs : ℕ) : ℤ) := by omega
  simp only [a1, a2]
  exact (svpReduction_ev c o hc hδ hrad htr (by omega) (by omega) (hpre _) hmore honce bounded (fun m => tour (svpOps { c with inner := m } o depth false)) hw).imp
    fun cl w' h => ⟨h.1, trivial⟩

/-- computing the slope only updates the cached values -/
theorem slopeUpdate_mv {E : ℕ} {w : W Exact} (hw : Okay E w) : Desc E w { w with s := slopeUpdate E w.s } False := by
  have hd := hw.d
  have key : Mv E 0 w.s (slopeUpdate E w.s) ∧ ∀ j < E, j + 1 ≤ (slopeUpdate E w.s).gsoValidCols j := by
    unfold slopeUpdate
    refine forUp_inv (P := fun n (t : GSO Exact) => Mv E 0 w.s t ∧ ∀ j < n, j + 1 ≤ t.gsoValidCols j) (fun i (t : GSO Exact) => (t.updateGsoRow i (i + 1)).2) (Nat.zero_le E) w.s
      ⟨.refl hw.st, fun j hj => by omega⟩ fun i t _ hi ht => ?_
    obtain ⟨m, v⟩ := ht
    have hd := m.d
    have hu := updateGsoRow_fresh m.st.full.wf m.st.fresh (i := i) (l := i + 1) (by omega) (by rw [m.st.full.known]; omega) le_rfl
      (.inl (by rw [m.st.full.source]; omega)) (fun j h1 h2 => v j h2)
    have lw := updateGsoRow_low m.st.full (i := i) (by omega) (i + 1)
    have lk := updateGsoRow_locked t i (i + 1)
    have hind := (m.mono (P' := 0) (E' := E) (by omega) (by omega)).indep hw.ind
    have hb : t.bq = toQ t.b := rfl
    have hkn := m.st.full.known
    generalize t.updateGsoRow i (i + 1) = q at *
    obtain ⟨f1, f2, f3, f4, f5⟩ := hu
    have hq : q.1 = true := by
      by_contra hq
      obtain ⟨j, h1, h2, h3⟩ := f3 (by simpa using hq)
      have := hind.pos j (by omega)
      rw [hb, rS_self] at h3
      exact absurd h3 (ne_of_gt this)
    refine ⟨m.trans (.of_low lw f1 (lk.trans m.st.unlocked)), fun j hj => ?_⟩
    by_cases hjk : j = i
    · rw [hjk]; exact f2 hq
    · rw [f4 j hjk (by omega)]; exact v j (by omega)
  exact .of_low key.1

/-- a loop with its own fuel: with enough fuel of both kinds the outcome is always the same, and normal or an exception -/
def Ev2 (f : ℕ → ℕ → Out σ α) (Q : α → σ → Prop) : Prop :=
  ∃ M, (∃ a s, (∀ m n, M ≤ m → M ≤ n → f m n = .ok a s) ∧ Q a s) ∨ ∃ s, ∀ m n, M ≤ m → M ≤ n → f m n = .thrown s

theorem Ev2.ok {f : ℕ → ℕ → Out σ α} {Q : α → σ → Prop} {a : α} {s : σ} (h : ∀ m n, f m (n + 1) = .ok a s) (hq : Q a s) : Ev2 f Q :=
  ⟨1, .inl ⟨a, s, fun m n _ hn => by obtain ⟨k, rfl⟩ : ∃ k, n = k + 1 := ⟨n - 1, by omega⟩; exact h m k, hq⟩⟩

theorem Ev2.step {f : ℕ → ℕ → Out σ β} {t : ℕ → Out σ α} {g : ℕ → ℕ → α → σ → Out σ β} {Q : α → σ → Prop} {R : β → σ → Prop} (h : ∀ m n, f m (n + 1) = (t m).bind (g m n))
    (ht : Ev t Q) (hg : ∀ a s, Q a s → Ev2 (fun m n => g m n a s) R) : Ev2 f R := by
  obtain ⟨M, ht⟩ := ht
  rcases ht with ⟨a, s, h1, h2⟩ | ⟨s, h1⟩
  · obtain ⟨N, hN⟩ := hg a s h2
    refine ⟨max M N + 1, ?_⟩
    rcases hN with ⟨a', s', g1, g2⟩ | ⟨s', g1⟩
    · refine .inl ⟨a', s', fun m n hm hn => ?_, g2⟩
      obtain ⟨k, rfl⟩ : ∃ k, n = k + 1 := ⟨n - 1, by omega⟩
      rw [h, h1 m (by omega)]
      exact g1 m k (by omega) (by omega)
    · refine .inr ⟨s', fun m n hm hn => ?_⟩
      obtain ⟨k, rfl⟩ : ∃ k, n = k + 1 := ⟨n - 1, by omega⟩
      rw [h, h1 m (by omega)]
      exact g1 m k (by omega) (by omega)
  · refine ⟨M + 1, .inr ⟨s, fun m n hm hn => ?_⟩⟩
    obtain ⟨k, rfl⟩ : ∃ k, n = k + 1 := ⟨n - 1, by omega⟩
    rw [h, h1 m (by omega)]
    rfl

theorem Ev2.const {f : ℕ → ℕ → Out σ α} {Q : α → σ → Prop} {a : α} {s : σ} (h : ∀ m n, f m n = .ok a s) (hq : Q a s) : Ev2 f Q := ⟨0, .inl ⟨a, s, fun m n _ _ => h m n, hq⟩⟩

theorem Ev2.thrown {f : ℕ → ℕ → Out σ α} {Q : α → σ → Prop} {s : σ} (h : ∀ m n, f m n = .thrown s) : Ev2 f Q := ⟨0, .inr ⟨s, fun m n _ _ => h m n⟩⟩

/-- the `do … while (!clean)` loop of `slide_tour` -/
theorem slideLoop_ev (hc : PCfg c.lll η thr δ) (hδ : δ < 1) (hrad : rad < 1) (htr : Truthful rad o) (hpre : ∀ bs, o.preproc bs = []) (hmore : ∀ t, o.more t 0 = true)
    (honce : ∀ t it, 1 ≤ it → o.more t it = false) (bounded : Bool) (depth : ℕ) {E bs : ℕ} (hbs : 2 ≤ bs) (hE : 1 ≤ E) (w : W Exact) (hw : Okay E w) :
    Ev2 (fun m n => slideLoop (svpOps { c with inner := m } o (depth + 1) bounded) bounded bs 0 E n w) fun _ w' => Desc E w w' False := by
  generalize hp : lexPot E w.s.nCols w.s.b = p
  induction p using WellFoundedLT.induction generalizing w with
  | ind p ih =>
    have rec' : ∀ w', Desc E w w' True → Ev2 (fun m n => slideLoop (svpOps { c with inner := m } o (depth + 1) bounded) bounded bs 0 E n w') fun _ w'' => Desc E w w'' False := by
      intro w' hd'
      have hlt := hd'.lt trivial
      rw [hp, ← hd'.mv.cols] at hlt
      obtain ⟨M, h⟩ := ih _ hlt w' (hd'.okay hw) rfl
      refine ⟨M, ?_⟩
      rcases h with ⟨a, s, h1, h2⟩ | h
      · exact .inl ⟨a, s, h1, hd'.trans h2 (fun h => .inr h)⟩
      · exact .inr h
    refine Ev2.step (fun m n => by rw [slideLoop]) (slidePass_ev c o hc hδ hrad htr hpre hmore honce bounded depth hbs hw) fun cl w1 d1 => ?_
    have ok1 := d1.okay hw
    cases bounded with
    | false =>
      simp only [Bool.false_eq_true, if_false]
      cases cl with
      | true => exact .const (fun _ _ => rfl) ⟨d1.mv, d1.le, fun h => absurd h id⟩
      | false => exact rec' w1 ⟨d1.mv, d1.le, fun _ => d1.lt rfl⟩
    | true =>
      simp only [if_true]
      have hd1 := ok1.d
      obtain ⟨r, w2, e⟩ := lllOp_total c o (a := 0) (e := E) (w := w1) rfl (by omega) hd1
      obtain ⟨r1, r2⟩ := r
      have e' : ∀ m, (svpOps { c with inner := m } o (depth + 1) true).lll 0 0 E w1 = .ok (r1, r2) w2 := fun m => by exact_mod_cast e
      simp only [e', Out.bind]
      cases r1 with
      | false => exact .thrown (fun _ _ => rfl)
      | true =>
        obtain ⟨x1, x2, -⟩ := lllOp_desc c o hc hδ rfl (by omega) le_rfl ok1 (fun k hk => by omega) e
        have d2 : Desc E w1 w2 (r2 = true) := .of_dn x2 le_rfl x1
        simp only [Bool.true_eq_false, if_false]
        by_cases hcl : cl = true ∧ r2 = false
        · simp only [if_pos hcl]
          exact .const (fun _ _ => rfl) (d1.trans d2 fun h => absurd h id)
        · simp only [if_neg hcl]
          refine rec' w2 (d1.trans d2 fun _ => ?_)
          cases cl <;> cases r2 <;> simp_all

/-- the main loop of `bkz()`, without `BKZ_SD_VARIANT` and `BKZ_SLD_RED` -/
theorem mainLoop_ev {D : Type} [LinearOrder D] (hc : PCfg c.lll η thr δ) (hδ : δ < 1) (hη : 1 / 2 ≤ η) (hfu : 2 ≤ c.fuel) (hrad : rad < 1) (htr : Truthful rad o) (hpre : ∀ bs, o.preproc bs = [])
    (hmore : ∀ t, o.more t 0 = true) (honce : ∀ t it, 1 ≤ it → o.more t it = false) (depth inner : ℕ) (cfg : Cfg D) (hsd : cfg.sd = false) (hsld : cfg.sld = false)
    (timeUp : ℕ → W Exact → Bool) (slope : ℕ → W Exact → D) {E bs : ℕ} (hb : cfg.blockSize = bs) (hbs : 2 ≤ bs) (hE : 1 ≤ E) (i : ℕ) (a : AutoAbort D) (w : W Exact) (hw : Okay E w) :
    Ev2 (fun m n => mainLoop (svpOps { c with inner := m } o (depth + 1) cfg.bounded) cfg ⟨timeUp, fun i w => (slope i w, { w with s := slopeUpdate E w.s })⟩ E inner n i a w)
      fun _ w' => Desc E w w' False := by
  generalize hp : lexPot E w.s.nCols w.s.b = p
  induction p using WellFoundedLT.induction generalizing w i a with
  | ind p ih =>
    have rec' : ∀ i a w', Desc E w w' True → Ev2 (fun m n => mainLoop (svpOps { c with inner := m } o (depth + 1) cfg.bounded) cfg
        ⟨timeUp, fun i w => (slope i w, { w with s := slopeUpdate E w.s })⟩ E inner n i a w') fun _ w'' => Desc E w w'' False := by
      intro i a w' hd'
      have hlt := hd'.lt trivial
      rw [hp, ← hd'.mv.cols] at hlt
      obtain ⟨M, h⟩ := ih _ hlt i a w' (hd'.okay hw) rfl
      refine ⟨M, ?_⟩
      rcases h with ⟨a, s, h1, h2⟩ | h
      · exact .inl ⟨a, s, h1, hd'.trans h2 (fun h => .inr h)⟩
      · exact .inr h
    have hlast : Desc E w w False := .refl hw.st id
    by_cases h1 : cfg.maxLoops.any (fun m => decide (m ≤ (i : ℤ))) = true
    · exact .ok (fun m n => by rw [mainLoop, if_pos h1]) hlast
    by_cases h2 : cfg.maxTime = true ∧ timeUp i w = true
    · exact .ok (fun m n => by rw [mainLoop, if_neg h1, if_pos h2]) hlast
    have d0 : Desc E w (if autoOn cfg = true then { w with s := slopeUpdate E w.s } else w) False := by
      split_ifs
      · exact slopeUpdate_mv hw
      · exact hlast
    by_cases h3 : autoOn cfg = true ∧ (a.test cfg.scaled cfg.maxNoDec (slope i w)).1 = true
    · exact .ok (fun m n => by rw [mainLoop, if_neg h1, if_neg h2]; dsimp only; rw [if_pos h3]) d0
    have ok0 := d0.okay hw
    refine Ev2.step (t := fun m => tour (svpOps { c with inner := m } o (depth + 1) cfg.bounded) bs 0 E (if autoOn cfg = true then { w with s := slopeUpdate E w.s } else w))
      (g := fun m n cl v => if cl = true ∨ (E : ℤ) ≤ bs then .ok (.success, i + 1) v else
        mainLoop (svpOps { c with inner := m } o (depth + 1) cfg.bounded) cfg ⟨timeUp, fun i w => (slope i w, { w with s := slopeUpdate E w.s })⟩ E inner n (i + 1)
          (if autoOn cfg = true then (a.test cfg.scaled cfg.maxNoDec (slope i w)).2 else a) v)
      (fun m n => by rw [mainLoop, if_neg h1, if_neg h2]; dsimp only; rw [if_neg h3]; unfold oneTour; rw [hsd, hsld, hb]; simp only [Bool.false_eq_true, if_false])
      (tour_ev c o hc hδ hη hfu hrad htr hpre hmore honce cfg.bounded depth hbs hE ok0) fun cl w1 d1 => ?_
    by_cases h4 : cl = true ∨ (E : ℤ) ≤ bs
    · simp only [if_pos h4]
      exact .const (fun _ _ => rfl) (d0.trans d1 fun h => absurd h id)
    · simp only [if_neg h4]
      refine rec' _ _ w1 (d0.trans d1 fun _ => .inr ?_)
      push Not at h4
      simpa using h4.1

/-- a whole run of `bkz()` -/
theorem runBKZ_ev {D : Type} [LinearOrder D] [OrderTop D] (hc : PCfg c.lll η thr δ) (hδ : δ < 1) (hη : 1 / 2 ≤ η) (hfu : 2 ≤ c.fuel) (hrad : rad < 1) (htr : Truthful rad o)
    (hpre : ∀ bs, o.preproc bs = []) (hmore : ∀ t, o.more t 0 = true) (honce : ∀ t it, 1 ≤ it → o.more t it = false) (cfg : Cfg D)
    (hsd : cfg.sd = false) (hsld : cfg.sld = false) (timeUp : ℕ → W Exact → Bool) (slope : ℕ → W Exact → D)
    (depth inner : ℕ) {w : W Exact} (hs : WF w.s) (hfr : Fresh w.s 0 0) (hl : w.s.colsLocked = false)
    (hE : 1 ≤ numRows w.s w.s.d) (hind : Indep (numRows w.s w.s.d) w.s.nCols (toQ w.s.b)) :
    Ev2 (fun m n => runBKZ { c with inner := m } o cfg timeUp slope (depth + 1) inner n w) fun _ w' =>
      PreEq w.s.nCols (numRows w.s w.s.d) w.s.b w'.s.b ∧ lexPot (numRows w.s w.s.d) w.s.nCols w'.s.b ≤ lexPot (numRows w.s w.s.d) w.s.nCols w.s.b := by
  obtain ⟨p1, p2, p3, p4⟩ := prepare_st hs hfr hl
  have hEd := numRows_le w.s w.s.d
  unfold runBKZ
  dsimp only
  generalize numRows w.s w.s.d = E at *
  unfold bkz
  rw [hsd, hsld]
  simp only [Bool.false_eq_true, false_and, if_false]
  by_cases hb2 : cfg.blockSize < 2
  · simp only [if_pos hb2]
    exact .const (fun _ _ => rfl) ⟨.refl _ _ _, le_rfl⟩
  simp only [if_neg hb2]
  obtain ⟨bs, hbs⟩ : ∃ bs : ℕ, cfg.blockSize = bs := ⟨cfg.blockSize.toNat, by omega⟩
  obtain ⟨M, h⟩ := mainLoop_ev c o hc hδ hη hfu hrad htr hpre hmore honce depth inner cfg hsd hsld timeUp slope (E := E) hbs (by omega) hE 0 AutoAbort.init
    { w with s := prepare false w.s } ⟨p1, by dsimp only; omega, by dsimp only; rw [p2, p4]; exact hind⟩
  refine ⟨M, ?_⟩
  rcases h with ⟨a, s, h1, h2⟩ | ⟨s, h1⟩
  · refine .inl ⟨a, s, fun m n hm hn => ?_, ?_⟩
    · change Out.bind (mainLoop _ _ _ _ _ _ _ _ _) _ = _
      rw [show mainLoop _ _ _ _ _ _ _ _ _ = _ from h1 m n hm hn]
      rfl
    · have a1 := h2.mv.pre E (.inr le_rfl)
      have a2 := h2.le
      dsimp only at a1 a2
      rw [p2, p4] at a1 a2
      exact ⟨a1, a2⟩
  · refine .inr ⟨s, fun m n hm hn => ?_⟩
    change Out.bind (mainLoop _ _ _ _ _ _ _ _ _) _ = _
    rw [show mainLoop _ _ _ _ _ _ _ _ _ = _ from h1 m n hm hn]
    rfl

end BKZ
end Fplll

import Verif.Proofs.Clean

/-!
# Tours end with an LLL-reduced basis

If the parameter of LLL is somewhat larger than that of the enumeration radius, nothing is inserted into the last block of a tour (two rows), so the basis is
as LLL left it.  Together with `tour_clean`: whenever BKZ stops because of a clean tour, the basis is BKZ-reduced.
-/

namespace Fplll
namespace BKZ

open FloatOps GSO LLL Spec

/-- parameters such that LLL leaves nothing for the enumeration of a block of two rows -/
structure Gap (η thr rad : ℚ) : Prop where
  half : 1 / 2 ≤ η
  le1 : η ≤ 1
  a : rad < thr + 1 - 2 * η
  b : rad < 4 * (thr - η ^ 2)
  lt1 : rad < 1

theorem gap_two {η thr rad μ r0 r1 : ℚ} (hg : Gap η thr rad) (h0 : 0 < r0) (h1 : 0 < r1) (hm : |μ| ≤ η) (hl : thr * r0 ≤ r1 + μ ^ 2 * r0) {z0 z1 : ℤ}
    (hz : 0 < (z1 : ℚ) ^ 2 * r1 + (z0 + z1 * μ) ^ 2 * r0) : rad * r0 < (z1 : ℚ) ^ 2 * r1 + (z0 + z1 * μ) ^ 2 * r0 := by
  have hmu2 : μ ^ 2 ≤ η ^ 2 := by rw [← sq_abs]; exact pow_le_pow_left₀ (abs_nonneg _) hm 2
  have hr1 : (thr - η ^ 2) * r0 ≤ r1 := by nlinarith
  obtain ⟨ga, gl, g1, g2, g3⟩ := hg
  by_cases hz1 : z1 = 0
  · subst hz1
    simp only [Int.cast_zero, zero_mul, add_zero, ne_eq, OfNat.ofNat_ne_zero, not_false_eq_true, zero_pow, zero_add] at hz ⊢
    have hz0 : z0 ≠ 0 := by rintro rfl; simp at hz
    have : 1 ≤ z0 ^ 2 := by
      have : 0 < z0 ^ 2 := by positivity
      omega
    have : (1 : ℚ) ≤ (z0 : ℚ) ^ 2 := by exact_mod_cast this
    nlinarith
  by_cases hz1' : z1 = 1 ∨ z1 = -1
  · have hsq : (z1 : ℚ) ^ 2 = 1 := by rcases hz1' with h | h <;> rw [h] <;> norm_num
    rw [hsq, one_mul]
    by_cases hz0 : z0 = 0
    · subst hz0
      have e : ((0 : ℤ) : ℚ) + z1 * μ = z1 * μ := by push_cast; ring
      rw [e, mul_pow, hsq, one_mul]
      nlinarith
    · have : 1 ≤ |z0| := Int.one_le_abs hz0
      have hz0 : (1 : ℚ) ≤ |(z0 : ℚ)| := by exact_mod_cast this
      have habs : |(z1 : ℚ) * μ| = |μ| := by
        rw [abs_mul]
        have : |(z1 : ℚ)| = 1 := by rcases hz1' with h | h <;> rw [h] <;> simp
        rw [this, one_mul]
      have h2 : 1 - |μ| ≤ |(z0 : ℚ) + z1 * μ| := by
        have := abs_sub_abs_le_abs_sub (z0 : ℚ) (-(z1 * μ))
        rw [abs_neg, habs, sub_neg_eq_add] at this
        linarith
      have h3 : (1 - |μ|) ^ 2 ≤ ((z0 : ℚ) + z1 * μ) ^ 2 := by
        rw [← sq_abs ((z0 : ℚ) + z1 * μ)]
        exact pow_le_pow_left₀ (by linarith) h2 2
      have h4 : (1 - |μ|) ^ 2 = 1 - 2 * |μ| + μ ^ 2 := by rw [sub_sq, sq_abs]; ring
      have h5 : (1 - |μ|) ^ 2 * r0 ≤ ((z0 : ℚ) + z1 * μ) ^ 2 * r0 := mul_le_mul_of_nonneg_right h3 h0.le
      rw [h4] at h5
      have h6 : |μ| * r0 ≤ η * r0 := mul_le_mul_of_nonneg_right hm h0.le
      have h7 : rad * r0 < (thr + 1 - 2 * η) * r0 := mul_lt_mul_of_pos_right g1 h0
      nlinarith
  · have : 2 ≤ |z1| := by
      rcases abs_cases z1 with ⟨h, h'⟩ | ⟨h, h'⟩ <;> rw [h] <;> omega
    have h4 : (4 : ℤ) ≤ z1 ^ 2 := by rw [← sq_abs]; nlinarith
    have h4 : (4 : ℚ) ≤ (z1 : ℚ) ^ 2 := by exact_mod_cast h4
    have : 4 * r1 ≤ (z1 : ℚ) ^ 2 * r1 := mul_le_mul_of_nonneg_right h4 h1.le
    have : 0 ≤ ((z0 : ℚ) + z1 * μ) ^ 2 * r0 := mul_nonneg (sq_nonneg _) h0.le
    have : rad * r0 < 4 * (thr - η ^ 2) * r0 := mul_lt_mul_of_pos_right g2 h0
    nlinarith

variable (c : SvpCfg Exact) (o : Orc Exact) {η thr δ rad : ℚ}

theorem LLLReduced.red {n e : ℕ} {B : ℕ → ℕ → ℚ} (h : LLLReduced n e B thr η) {c : LLLCfg Exact} (hsg : c.siegel = false) : Red c η thr n e B := by
  refine ⟨h.1, fun k hk => ?_⟩
  unfold CondS
  rw [hsg]
  simp only [Bool.false_eq_true, if_false]
  rw [projSq_succ', projSq_self]
  exact h.2 k hk

/-- `svp_reduction` of any block: what it keeps; and a block of two rows at the end leaves the rows LLL-reduced -/
theorem svpReduction_any (hg : Gap η thr rad) (hc : PCfg c.lll η thr δ) (hX : XCfg c.lll η thr) (hsg : c.lll.siegel = false) (hf : 1 ≤ c.fuel) (htr : Truthful rad o) {k d : ℕ} (hd1 : 1 ≤ d)
    (hpre : o.preproc d = []) (hmore : ∀ t, o.more t 0 = true) (honce : ∀ t it, 1 ≤ it → o.more t it = false)
    (tour : ℤ → ℤ → ℤ → W Exact → Out (W Exact) Bool)
    {w w' : W Exact} {cl : Bool} (hs : St w.s) (hind : Indep (k + d) w.s.nCols (toQ w.s.b))
    (h : svpReduction c o false tour k d false w = .ok cl w') :
    Mv 0 (k + d) w.s w'.s ∧ (∀ i ≤ k, i + 1 ≤ w'.s.gsoValidCols i) ∧ (d = 2 → LLLReduced w'.s.nCols (k + 2) (toQ w'.s.b) thr η) := by
  unfold svpReduction at h
  simp only [Bool.false_eq_true, if_false] at h
  by_cases hr : 0 ≤ (k : ℤ) ∧ 1 ≤ (d : ℤ) ∧ (k : ℤ) + d ≤ w.s.d
  swap
  · rw [if_neg hr] at h; exact absurd h (by simp)
  rw [if_pos hr] at h
  have e : ((k : ℤ) + 1).toNat = k + 1 := by omega
  obtain ⟨r1, w1, h1, h⟩ := Out.bind_ok h
  split_ifs at h with hr1
  rw [Bool.not_eq_false] at hr1
  rw [hr1] at h1
  obtain ⟨m1, v1, -, -⟩ := sizeRedOp_pref c hc.eta hs h1 0 (k + d)
  rw [e] at v1
  obtain ⟨_, w2, h2, h⟩ := Out.bind_ok h
  obtain ⟨r3, w3, h3, h⟩ := Out.bind_ok h
  -- the loop
  have K : Mv 0 (k + d) w1.s w2.s ∧ (d = 2 → LLLReduced w2.s.nCols (k + 2) (toQ w2.s.b) thr η) := by
    have hi1 := m1.indep hind
    have hd1' : k + d ≤ w1.s.d := by rw [m1.d]; omega
    have hv1 : ∀ i < k, i + 1 ≤ w1.s.gsoValidCols i := fun i hi => v1 i (by omega)
    cases hn : c.inner with
    | zero => rw [hn] at h2; simp [svpLoop] at h2
    | succ n =>
      rw [hn, svpLoop, if_neg (by rw [hmore]; simp)] at h2
      simp only [Bool.false_eq_true, if_false] at h2
      obtain ⟨_, u1, g1, h2⟩ := Out.bind_ok h2
      simp only [Out.ok.injEq, true_and] at g1
      obtain ⟨_, u2, g2, h2⟩ := Out.bind_ok h2
      have su : u1.s = w1.s := by rw [← g1]; rfl
      have hl := preprocess_reduced c o hc hX hsg hpre tour (k := k) (w := u1) (by rw [su]; exact m1.st) (by omega) (by rw [su]; exact hd1')
        (by rw [su]; exact hi1) (by rw [su]; exact hv1) g2
      obtain ⟨m2, v2⟩ := preprocess_pref c o hc hpre false tour (P := 0) (w := u1) (k := k) (by rw [su]; exact m1.st) (by omega) (by rw [su]; exact hd1')
        (by rw [su]; exact hi1) (fun m _ hm => by omega) (by rw [su]; exact hv1) g2
      rw [su] at m2
      rw [Int.toNat_natCast] at m2 v2 hl
      have hi2 := m2.indep hi1
      have tail : ∀ (n : ℕ) (re : Bool) (u v : W Exact), svpLoop c o false tour k d false n 1 re u = .ok () v → v.s = u.s := by
        intro n re u v hv
        cases n with
        | zero => simp [svpLoop] at hv
        | succ n =>
          rw [svpLoop, if_pos (honce _ _ le_rfl)] at hv
          simp only [Out.ok.injEq, true_and] at hv
          rw [← hv]; rfl
      have hsol := htr u2.t k d u2.s m2.st hd1 (by rw [m2.d]; exact hd1') hi2 v2
      cases hx : o.enum u2.t k d false u2.s with
      | none =>
        rw [hx] at h2 hsol
        rw [tail _ _ _ _ h2]
        exact ⟨m2, fun h2 => by subst h2; exact hl⟩
      | some x =>
        rw [hx] at h2 hsol
        obtain ⟨_, u3, g3, h2⟩ := Out.bind_ok h2
        rw [tail _ _ _ _ h2]
        obtain ⟨z, z1, z2, zr, z3⟩ := hsol
        rw [Int.toNat_natCast, Int.toNat_natCast] at g3
        obtain ⟨m3, ins, -⟩ := postprocess_mv c (w := u2.tick) m2.st hd1 (by exact le_of_le_of_eq hd1' m2.d.symm) z1 (primitive_of_min z2 z3) g3
        refine ⟨m2.trans (m3.mono (by omega) le_rfl), fun hd2 => ?_⟩
        subst hd2
        exfalso
        have hr0 := hi2.pos k (by omega)
        have hr1 := hi2.pos (k + 1) (by omega)
        have hdist : distSq u2.s.nCols (toQ u2.s.b) k (vecQ fun c => ∑ i ∈ Finset.range 2, z i * u2.s.b (k + i) c) =
            (z 1 : ℚ) ^ 2 * normStar u2.s.nCols (toQ u2.s.b) (k + 1) +
            (z 0 + z 1 * muS u2.s.nCols (toQ u2.s.b) (k + 1) k) ^ 2 * normStar u2.s.nCols (toQ u2.s.b) k :=
          distSq_two hr0 _ _ fun c _ => by
            unfold vecQ toQ
            dsimp only
            rw [Finset.sum_range_succ, Finset.sum_range_one, Nat.add_zero]
            push_cast; ring
        rw [hdist] at z2 zr
        exact absurd (gap_two hg hr0 hr1 (hl.1 (k + 1) (by omega) k (by omega)) (hl.2 k (by omega)) z2) (not_lt.2 zr)
  obtain ⟨m2, K⟩ := K
  split_ifs at h with hr3
  have h3' := h3
  rw [Bool.not_eq_false] at hr3
  rw [hr3] at h3
  obtain ⟨m3, v3, -, -⟩ := sizeRedOp_pref c hc.eta m2.st h3 (k + 1) (k + d)
  rw [e] at v3
  simp only [Out.ok.injEq] at h
  rw [← h.2]
  refine ⟨(m1.trans m2).trans (m3.mono (by omega) le_rfl), fun i hi => v3 i (by omega), fun hd2 => ?_⟩
  have n3 := sizeRedOp_noop c hc.eta hf m2.st h3' (by rw [e]; intro i hi; exact (K hd2).1 i (by omega))
  rw [n3, m3.cols]
  exact K hd2

/-- a loop of calls of `svp_reduction`; `D k` is the size of the block that starts at row `k` -/
theorem loop_any (hg : Gap η thr rad) (hc : PCfg c.lll η thr δ) (hX : XCfg c.lll η thr) (hsg : c.lll.siegel = false) (hf : 1 ≤ c.fuel) (htr : Truthful rad o)
    (hpre : ∀ bs, o.preproc bs = []) (hmore : ∀ t, o.more t 0 = true) (honce : ∀ t it, 1 ≤ it → o.more t it = false)
    (tour : ℤ → ℤ → ℤ → W Exact → Out (W Exact) Bool) {E : ℕ} (D : ℕ → ℕ) (g : ℤ → ℤ) (cnt k : ℕ)
    (hD : ∀ i, k ≤ i → i < k + cnt → 1 ≤ D i ∧ i + D i ≤ E ∧ g i = D i) (cl cl' : Bool) {w w' : W Exact} (hs : St w.s) (hind : Indep E w.s.nCols (toQ w.s.b))
    (h : loop (fun kappa => svpReduction c o false tour kappa (g kappa) false) 1 cnt k cl w = .ok cl' w') :
    Mv 0 E w.s w'.s ∧ (1 ≤ cnt → (∀ i < k + cnt, i + 1 ≤ w'.s.gsoValidCols i) ∧
      (D (k + cnt - 1) = 2 → k + cnt + 1 = E → LLLReduced w'.s.nCols E (toQ w'.s.b) thr η)) := by
  induction cnt generalizing k cl w with
  | zero =>
    simp only [loop, Out.ok.injEq] at h
    rw [← h.2]
    exact ⟨.refl hs, fun h => by omega⟩
  | succ cnt ih =>
    rw [loop] at h
    obtain ⟨c1, w1, h1, h⟩ := Out.bind_ok h
    obtain ⟨d1, d2, d3⟩ := hD k le_rfl (by omega)
    rw [d3] at h1
    obtain ⟨m1, a1, a2⟩ := svpReduction_any c o hg hc hX hsg hf htr (k := k) (d := D k) d1 (hpre _) hmore honce tour hs
      (indep_of_pos fun i hi => hind.pos i (by omega)) h1
    have m1 := m1.mono (P' := 0) (E' := E) le_rfl d2
    obtain ⟨b1, b2⟩ := ih (k + 1) (fun i h1 h2 => hD i (by omega) (by omega)) _ m1.st (m1.indep hind) (by exact_mod_cast h)
    refine ⟨m1.trans b1, fun _ => ?_⟩
    rcases Nat.eq_zero_or_pos cnt with hz | hz
    · subst hz
      simp only [loop, Out.ok.injEq] at h
      rw [← h.2]
      refine ⟨fun i hi => a1 i (by omega), fun hh he => ?_⟩
      rw [show k + (0 + 1) - 1 = k by omega] at hh
      have := a2 hh
      rwa [show k + 2 = E by omega] at this
    · obtain ⟨q1, q2⟩ := b2 hz
      exact ⟨fun i hi => q1 i (by omega), fun hh he => q2 (by rwa [show k + 1 + cnt - 1 = k + (cnt + 1) - 1 by omega]) (by omega)⟩

/-- a tour ends with an LLL-reduced basis of the same lattice -/
theorem tour_any (hg : Gap η thr rad) (hc : PCfg c.lll η thr δ) (hX : XCfg c.lll η thr) (hsg : c.lll.siegel = false) (hf : 2 ≤ c.fuel) (htr : Truthful rad o)
    (hpre : ∀ bs, o.preproc bs = []) (hmore : ∀ t, o.more t 0 = true) (honce : ∀ t it, 1 ≤ it → o.more t it = false) (depth : ℕ)
    {E bs : ℕ} (hbs : 2 ≤ bs) (hE : 2 ≤ E) {cl : Bool} {w w' : W Exact} (hs : St w.s) (hd : E ≤ w.s.d) (hind : Indep E w.s.nCols (toQ w.s.b))
    (h : tour (svpOps c o (depth + 1) false) bs 0 E w = .ok cl w') :
    Mv 0 E w.s w'.s ∧ LLLReduced w'.s.nCols E (toQ w'.s.b) thr η := by
  unfold tour at h
  obtain ⟨c1, w1, h1, h⟩ := Out.bind_ok h
  obtain ⟨c2, w2, h2, h⟩ := Out.bind_ok h
  simp only [Out.ok.injEq] at h
  unfold truncTour at h1
  have e0 : ((E : ℤ) - bs - 0).toNat = E - bs := by omega
  rw [e0] at h1
  obtain ⟨p1, -⟩ := loop_any c o hg hc hX hsg (by omega) htr hpre hmore honce (tour (svpOps c o depth false)) (E := E) (fun _ => bs) (fun _ => bs) (E - bs) 0
    (fun i _ hi => ⟨by omega, by omega, rfl⟩) true c1 hs hind (by exact_mod_cast h1)
  unfold hkz at h2
  obtain ⟨c3, w3, h3, h2⟩ := Out.bind_ok h2
  obtain ⟨ok4, w4, h4, h2⟩ := Out.bind_ok h2
  simp only [Out.ok.injEq] at h2
  have e1 : max ((E : ℤ) - bs) 0 = ((E - bs : ℕ) : ℤ) := by omega
  have e2 : ((E : ℤ) - 1 - ((E - bs : ℕ) : ℤ)).toNat = E - 1 - (E - bs) := by omega
  rw [e1, e2] at h3
  obtain ⟨q1, q2⟩ := loop_any c o hg hc hX hsg (by omega) htr hpre hmore honce (tour (svpOps c o depth false)) (E := E) (fun i => E - i) (fun i => E - i) (E - 1 - (E - bs)) (E - bs)
    (fun i _ hi => ⟨by omega, by omega, by omega⟩) true c3 p1.st (p1.indep hind) h3
  obtain ⟨v3, l3⟩ := q2 (by omega)
  have l3 := l3 (by omega) (by omega)
  have hi3 := q1.indep (p1.indep hind)
  have d3 : w3.s.d = w.s.d := q1.d.trans p1.d
  -- the last size reduction
  have h4 : sizeRedOp c (E - 1) E (E - 2) w3 = .ok ok4 w4 := h4
  unfold sizeRedOp at h4
  split_ifs at h4 with hr
  simp only [Out.ok.injEq] at h4
  have f1 : ((E : ℤ) - (E - 1)).toNat = 1 := by omega
  have f2 : ((E : ℤ) - 1).toNat = E - 1 := by omega
  have f3 : ((E : ℤ) - 2).toNat = E - 2 := by omega
  rw [f1, f2, f3] at h4
  have hval : ∀ j < E - 1, j + 1 ≤ w3.s.gsoValidCols j := fun j hj => v3 j (by omega)
  have n4 := sizeReductionLoop_noop c.lll hc.eta (fuel := c.fuel) (by omega) (E - 2) 1 (E - 1) w3.s q1.st (by omega) hval (by
    intro i hi; exact l3.1 i (by omega))
  have ok : (sizeReductionLoop c.lll c.fuel (E - 2) 1 (E - 1) w3.s).1 = .success := by
    have := startStep_success c.lll hc.eta hg.half hf (E - 2) q1.st (k := E - 1) (by omega) hval (indep_of_pos fun i hi => hi3.pos i (by omega))
    rw [sizeReductionLoop, if_pos this, sizeReductionLoop]
  obtain ⟨m4, -⟩ := sizeReductionLoop_pref c.lll hc.eta c.fuel (E - 2) 1 (E - 1) w3.s q1.st 0 E (by omega) hval ok
  have m4' : Mv 0 E w3.s w4.s := by rw [← h4.2]; exact m4
  have b4 : w4.s.b = w3.s.b := by rw [← h4.2]; exact n4
  have m5 : Mv 0 E w4.s w'.s := by
    rw [← h.2, ← h2.2]
    simp only [svpOps]
    split_ifs
    · exact symmetrizeG_mv m4'.st _ _
    · exact .refl m4'.st
  have b5 : w'.s.b = w4.s.b := by
    rw [← h.2, ← h2.2]
    simp only [svpOps]
    split_ifs <;> rfl
  refine ⟨((p1.trans q1).trans m4').trans m5, ?_⟩
  rw [b5, b4, m5.cols, m4'.cols]
  exact l3

/-- the loop of `bkz()`: if it ends because of a clean tour, the basis is BKZ-reduced -/
theorem mainLoop_success {D : Type} [LinearOrder D] (hg : Gap η thr rad) (hc : PCfg c.lll η thr δ) (hX : XCfg c.lll η thr) (hsg : c.lll.siegel = false)
    (her : c.lll.earlyRedFlag = false) (hf : 2 ≤ c.fuel) (htr : Truthful rad o)
    (hpre : ∀ bs, o.preproc bs = []) (hmore : ∀ t, o.more t 0 = true) (honce : ∀ t it, 1 ≤ it → o.more t it = false) (depth : ℕ) (cfg : Cfg D)
    (hsd : cfg.sd = false) (hsld : cfg.sld = false) (haa : cfg.autoAbort = false) (env : Env D (W Exact)) {E bs : ℕ} (hb : cfg.blockSize = bs) (hbs : 2 ≤ bs)
    (hbE : bs < E) (inner fuel i : ℕ) (a : AutoAbort D) {w w' : W Exact} {m : ℕ} (hs : St w.s) (hd : E ≤ w.s.d) (hind : Indep E w.s.nCols (toQ w.s.b))
    (hred : i + 2 ≤ m ∨ LLLReduced w.s.nCols E (toQ w.s.b) thr η)
    (h : mainLoop (svpOps c o (depth + 1) false) cfg env E inner fuel i a w = .ok (.success, m) w') :
    PreEq w.s.nCols E w.s.b w'.s.b ∧ LLLReduced w.s.nCols E (toQ w'.s.b) thr η ∧ ∀ k < E - 1, MinProj w.s.nCols rad k (min (k + bs) E) w'.s.b := by
  induction fuel generalizing i a w with
  | zero => simp [mainLoop] at h
  | succ fuel ih =>
    rw [mainLoop] at h
    have ao : autoOn cfg = false := by unfold autoOn; rw [haa, hsd]; rfl
    simp only [ao, Bool.false_eq_true, false_and, if_false] at h
    split_ifs at h
    · simp at h
    · simp at h
    obtain ⟨cl, w1, ht, h⟩ := Out.bind_ok h
    unfold oneTour at ht
    rw [hsd, hsld, hb] at ht
    simp only [Bool.false_eq_true, if_false] at ht
    have hnb : ¬ (E : ℤ) ≤ cfg.blockSize := by omega
    simp only [hnb, or_false] at h
    obtain ⟨m1, l1⟩ := tour_any c o hg hc hX hsg hf htr hpre hmore honce depth hbs (by omega) hs hd hind ht
    cases cl with
    | true =>
      simp only [if_true, Out.ok.injEq, Prod.mk.injEq] at h
      have hl : LLLReduced w.s.nCols E (toQ w.s.b) thr η := by rcases hred with h' | h'; exacts [by omega, h']
      obtain ⟨t1, t2⟩ := tour_clean c o hc her (by omega) hg.lt1 htr hpre hmore honce false depth hbs (by omega) hs hd hind (LLLReduced.red hl hsg) ht
      rw [← h.2, t2 rfl]
      exact ⟨.refl _ _ _, hl, t1.1 rfl⟩
    | false =>
      simp only [Bool.false_eq_true, if_false] at h
      obtain ⟨q1, q2⟩ := ih (i + 1) a m1.st (by rw [m1.d]; exact hd) (m1.indep hind) (.inr l1) h
      rw [m1.cols] at q1 q2
      exact ⟨(m1.pre E (.inr le_rfl)).trans q1, q2⟩

/-- a run of `bkz()` with a block size smaller than the number of rows that ends because of a clean tour -/
theorem runBKZ_success {D : Type} [LinearOrder D] [OrderTop D] (hg : Gap η thr rad) (hc : PCfg c.lll η thr δ) (hX : XCfg c.lll η thr) (hsg : c.lll.siegel = false)
    (her : c.lll.earlyRedFlag = false) (hf : 2 ≤ c.fuel) (htr : Truthful rad o)
    (hpre : ∀ bs, o.preproc bs = []) (hmore : ∀ t, o.more t 0 = true) (honce : ∀ t it, 1 ≤ it → o.more t it = false) (cfg : Cfg D)
    (hsd : cfg.sd = false) (hsld : cfg.sld = false) (haa : cfg.autoAbort = false) (hbd : cfg.bounded = false) (timeUp : ℕ → W Exact → Bool) (slope : ℕ → W Exact → D)
    (depth inner fuel : ℕ) {w w' : W Exact} {m : ℕ} (hs : WF w.s) (hfr : Fresh w.s 0 0) (hl : w.s.colsLocked = false) {bs : ℕ}
    (hb : cfg.blockSize = bs) (hbs : bs < numRows w.s w.s.d) (hind : Indep (numRows w.s w.s.d) w.s.nCols (toQ w.s.b)) (hm : 1 ≤ m)
    (hred : 2 ≤ m ∨ LLLReduced w.s.nCols (numRows w.s w.s.d) (toQ w.s.b) thr η)
    (h : runBKZ c o cfg timeUp slope (depth + 1) inner fuel w = .ok (.success, m) w') :
    let E := numRows w.s w.s.d
    PreEq w.s.nCols E w.s.b w'.s.b ∧ LLLReduced w.s.nCols E (toQ w'.s.b) thr η ∧ ∀ k < E - 1, MinProj w.s.nCols rad k (min (k + bs) E) w'.s.b := by
  obtain ⟨p1, p2, p3, p4⟩ := prepare_st hs hfr hl
  have hEd := numRows_le w.s w.s.d
  dsimp only
  unfold runBKZ at h
  dsimp only at h
  generalize numRows w.s w.s.d = E at *
  unfold bkz at h
  rw [hsd, hsld, hbd] at h
  simp only [Bool.false_eq_true, false_and, if_false] at h
  by_cases hb2 : cfg.blockSize < 2
  · rw [if_pos hb2] at h
    simp only [Out.ok.injEq, Prod.mk.injEq] at h
    omega
  rw [if_neg hb2] at h
  change Out.bind (mainLoop _ _ _ _ _ _ _ _ _) _ = _ at h
  obtain ⟨r, s', h1, h⟩ := Out.bind_ok h
  simp only [Out.bind, Out.ok.injEq] at h
  rw [h.1] at h1
  have K := mainLoop_success c o hg hc hX hsg her hf htr hpre hmore honce depth cfg hsd hsld haa _ hb (by omega) hbs inner fuel 0 _
    (w := { w with s := prepare false w.s }) p1 (by dsimp only; omega) (by dsimp only; rw [p2, p4]; exact hind) (by dsimp only; rw [p2, p4]; simpa using hred) h1
  dsimp only at K
  rw [p2, p4] at K
  rw [← h.2]
  exact K

end BKZ
end Fplll

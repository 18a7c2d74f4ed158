import Verif.Proofs.Evaluator
import Verif.Proofs.EnumGeom

/-!
# C11–C14, C42, C43, C49: the enumeration

All theorems are about the model of `EnumerationDyn::enumerate` with every operation on `enumf` rounded by any
function that meets `Rnd` (`Input.fl`; the identity and rounding to the nearest double do); `dist` are the rounded
distances, and `C11_distance_primal`, `_svp` and `_dual` say what they are in exact arithmetic.  `run : enumerate p E
fuel e = some s'` says that the call finished (C13 shows that it always does); `s'.events` lists what it did.
The evaluator is arbitrary (`E`), except that it must not enlarge the pruning bounds (`EvalOK`): this is
proved for the evaluators of fplll in `fastEval_ok` and `callbackEval_ok`.
-/

open Finset

namespace Fplll
namespace Enum

variable {σ : Type}

/-! ## A larger budget changes nothing -/

theorem sibLoop_mono (c : Cfg) (E : EvalOps σ) (k : ℕ) {rec rec' : St σ → Option (St σ)}
    (hr : ∀ s s', rec s = some s' → rec' s = some s') : ∀ (n n' : ℕ) (s s' : St σ), n ≤ n' →
      sibLoop c E rec k n s = some s' → sibLoop c E rec' k n' s = some s' := by
  intro n
  induction n with
  | zero => intro n' s s' _ h; simp [sibLoop] at h
  | succ n ih =>
    intro n' s s' hn h
    obtain ⟨m, rfl⟩ : ∃ m, n' = m + 1 := ⟨n' - 1, by omega⟩
    rw [sibLoop] at h ⊢
    cases h1 : rec s with
    | none => rw [h1] at h; simp at h
    | some s1 =>
      rw [h1] at h
      rw [hr s s1 h1]
      simp only at h ⊢
      split_ifs at h ⊢ with h2
      · exact ih m _ _ (by omega) h
      · exact h

theorem recursive_mono (c : Cfg) (E : EvalOps σ) {f f' : ℕ} (hf : f ≤ f') : ∀ (m : ℕ) (s s' : St σ),
    recursive c E f m s = some s' → recursive c E f' m s = some s' := by
  intro m
  induction m with
  | zero => intro s s' h; exact h
  | succ k ih =>
    intro s s' h
    rw [recursive] at h ⊢
    split_ifs at h ⊢ with h1
    · exact sibLoop_mono c E k ih f f' _ _ hf h
    · exact h

theorem enumerate_mono {p : Input} {E : EvalOps σ} {f f' : ℕ} (hf : f ≤ f') {e : σ} {s' : St σ}
    (h : enumerate p E f e = some s') : enumerate p E f' e = some s' := by
  unfold enumerate enumerateRec at *
  split_ifs at h ⊢
  · exact h
  · exact recursive_mono _ _ hf _ _ _ h

theorem Enough.mono_fuel {c : Cfg} {b : ℕ → ℚ} {f f' : ℕ} (hr : ∀ k, k < c.K → 0 < c.rdiag k) (h : Enough c b f)
    (hf : f ≤ f') : Enough c b f' := by
  intro k hk
  refine (h k hk).trans_le (mul_le_mul_of_nonneg_right ?_ (hr k hk).le)
  have h1 : (f : ℚ) ≤ f' := by exact_mod_cast hf
  have h2 : (0 : ℚ) ≤ f := by positivity
  nlinarith

/-- every finished call satisfies the specification -/
theorem enumerate_done {p : Input} {E : EvalOps σ} {I : σ → ℚ → Prop} {e : σ} (h : p.OK)
    (hE : EvalOK p.cfg E I) (hI : I e p.maxdist) {fuel : ℕ} {s' : St σ} (run : enumerate p E fuel e = some s') :
    EnumSpec p E I e s' := by
  have hr : ∀ k, k < p.cfg.K → 0 < p.cfg.rdiag k := fun k hk => h.rdpos k (lt_of_lt_of_le hk p.K_le)
  obtain ⟨N, hN⟩ := enough_exists p.cfg (setBounds p.cfg p.maxdist) hr
  obtain ⟨t, ht, hspec⟩ := enumerate_spec h hE hI (hN.mono_fuel hr (le_max_left N fuel))
  rw [enumerate_mono (le_max_right N fuel) run] at ht
  cases ht
  exact hspec

/-! ## C11 -/

/-- the top coordinate that is not zero -/
theorem exists_top {v : ℕ → ℤ} : ∀ {n : ℕ}, (∃ j, j < n ∧ v j ≠ 0) → ∃ t, t < n ∧ v t ≠ 0 ∧ ∀ i, t < i → i < n → v i = 0 := by
  intro n
  induction n with
  | zero => rintro ⟨j, hj, -⟩; omega
  | succ n ih =>
    rintro ⟨j, hj, hv⟩
    by_cases hn : v n = 0
    · obtain ⟨t, h1, h2, h3⟩ := ih ⟨j, by
        rcases Nat.lt_or_ge j n with h | h
        · exact h
        · have : j = n := by omega
          subst this; exact absurd hn hv, hv⟩
      refine ⟨t, by omega, h2, fun i hi hi' => ?_⟩
      rcases Nat.lt_or_ge i n with h | h
      · exact h3 i hi h
      · have : i = n := by omega
        subst this; exact hn
    · exact ⟨n, by omega, hn, fun i h1 h2 => by omega⟩

theorem dist_zero_of_zero {p : Input} (h : Rnd p.fl) (hs : p.target = none) {v : ℕ → ℤ} (hv : ∀ j, j < p.d → v j = 0) (k : ℕ) :
    p.dist v k = 0 := by
  have hKd := p.K_le
  unfold Input.dist
  refine forDown_inv' (fun a => a = 0) _ _ _ _ rfl ?_
  intro j a h1 h2 ha
  have hj' : j < p.d := by split_ifs at h2 <;> omega
  have : al p.full v j = 0 := by
    rw [al, cen_zero_of (c := p.full) h (fun k _ => by simp [Input.full, Input.ctarget, hs, h.zero]) v j hj'
      (fun i _ hi => hv i hi), hv j hj']
    simp [show p.full.fl = p.fl from rfl, h.zero]
  rw [this, ha]
  simp [h.zero]

theorem dist_pos {p : Input} (h : p.OK) (hs : p.Symm) {v : ℕ → ℤ} (hv : p.Agrees v) (hne : ∃ j, j < p.d ∧ v j ≠ 0) :
    0 < p.dist v 0 := by
  have hKd := p.K_le
  obtain ⟨t, ht, hvt, htop⟩ := exists_top hne
  have htK : t < p.K := by
    by_contra hc
    exact hvt (by rw [hv t (by omega) ht, hs.2 t (by omega) ht])
  refine lt_of_le_of_ne (dist_nonneg h v 0) (fun h0 => ?_)
  have h1 : p.dist v t = 0 := le_antisymm (h0 ▸ dist_anti h v (Nat.zero_le t) htK.le) (dist_nonneg h v t)
  have h2 := al_zero_of_dist h htK h1
  rw [al, cen_zero_of (c := p.full) h.rnd (fun k _ => by simp [Input.full, Input.ctarget, hs.1, h.rnd.zero]) v t ht
    (fun i h1 h2 => htop i h1 h2), sub_zero, show p.full.fl = p.fl from rfl, h.rnd.eq_zero] at h2
  exact hvt (by exact_mod_cast h2)

/-- **C11** every coefficient vector given to the evaluator keeps the prescribed coordinates; its reported
distance is the squared length of the vector (`dist`; see `C11_distance_primal` and `C11_distance_dual` for the
meaning); all its partial distances respect the pruning bounds; it is within the bound in force at that moment;
and in the symmetric (SVP) case it is not zero and its last non-zero coordinate is positive. -/
theorem C11_enumeration_sound {p : Input} {E : EvalOps σ} {I : σ → ℚ → Prop} {e : σ} (h : p.OK)
    (hE : EvalOK p.cfg E I) (hI : I e p.maxdist) {fuel : ℕ} {s' : St σ} (run : enumerate p E fuel e = some s')
    {v : ℕ → ℤ} {δ : ℚ} {L₁ L₂ : List Event} (hm : s'.events = L₁ ++ .sol v δ :: L₂) :
    p.Agrees v ∧ δ = p.dist v 0 ∧
    (∀ j, j < p.K → p.dist v j ≤ setBounds p.full p.maxdist j) ∧
    δ ≤ setBounds p.full (L₁.foldl (evStep E) (e, p.maxdist)).2 0 ∧
    (p.Symm → 0 < δ ∧ ∃ t, t < p.K ∧ 0 < v t ∧ ∀ i, t < i → i < p.d → v i = 0) := by
  have S := enumerate_done h hE hI run
  have hKd := p.K_le
  have hmem : Event.sol v δ ∈ s'.events := by rw [hm]; simp
  obtain ⟨hn, hpos⟩ := (S.solsOk v δ).1 hmem
  obtain ⟨-, h2, h3, h4, h5⟩ := S.node 0 v δ hn
  refine ⟨h2, h3, fun j hj => h4 j (Nat.zero_le _) hj, ?_, ?_⟩
  · have := S.within
    rw [hm, within_append] at this
    exact this.2.1
  · intro hs
    have hδ : 0 < δ := hpos.resolve_right (not_not.2 hs)
    refine ⟨hδ, ?_⟩
    have hne : ∃ j, j < p.d ∧ v j ≠ 0 := by
      by_contra hc
      push Not at hc
      have := dist_zero_of_zero h.rnd hs.1 hc 0
      rw [← h3] at this
      linarith
    obtain ⟨t, ht, hvt, htop⟩ := exists_top hne
    have htK : t < p.K := by
      by_contra hc
      exact hvt (by rw [h2 t (by omega) ht, hs.2 t (by omega) ht])
    have := h5 hs t (Nat.zero_le _) htK (fun i h6 h7 => htop i h6 (by omega))
    exact ⟨t, htK, by omega, htop⟩

/-- **C11** for every visited node (of any level): its distance is that of the partial assignment and it is
within the bound in force when it is visited. -/
theorem C11_nodes_sound {p : Input} {E : EvalOps σ} {I : σ → ℚ → Prop} {e : σ} (h : p.OK)
    (hE : EvalOK p.cfg E I) (hI : I e p.maxdist) {fuel : ℕ} {s' : St σ} (run : enumerate p E fuel e = some s')
    {l : ℕ} {v : ℕ → ℤ} {δ : ℚ} {L₁ L₂ : List Event} (hm : s'.events = L₁ ++ .node l v δ :: L₂) :
    l < p.K ∧ p.Agrees v ∧ δ = p.dist v l ∧
    (∀ j, l ≤ j → j < p.K → p.dist v j ≤ setBounds p.full p.maxdist j) ∧
    δ ≤ setBounds p.full (L₁.foldl (evStep E) (e, p.maxdist)).2 l := by
  have S := enumerate_done h hE hI run
  obtain ⟨h1, h2, h3, h4, -⟩ := S.node l v δ (by rw [hm]; simp)
  refine ⟨h1, h2, h3, h4, ?_⟩
  have := S.within
  rw [hm, within_append] at this
  exact this.2.1

/-- **C11**, meaning of the distances in primal enumeration of the rows `f, …, f+d-1` of `B`: the squared length
of `∑ v_j b_{f+j} - T` projected onto the span of `b*_{f+k}, …, b*_{f+d-1}`. -/
theorem C11_distance_primal {p : Input} {n f : ℕ} {B : ℕ → ℕ → ℚ} {T : ℕ → ℚ} (h : p.FromBasis n f B T)
    (hd : p.dual = false) (hr : p.subtreeReset = false) (hp : ∀ i < p.d, 0 < Spec.normStar n B (f + i)) (v : ℕ → ℤ)
    (k : ℕ) : p.dist v k = Spec.spanSq n B (f + k) (f + p.d) (blockVec p.d f v B T) :=
  dist_primal h hd hr hp v k

/-- **C11**, in particular for a whole basis without target: the squared length of the lattice vector. -/
theorem C11_distance_svp {p : Input} {n : ℕ} {B : ℕ → ℕ → ℚ} (h : p.FromBasis n 0 B (fun _ => 0))
    (hd : p.dual = false) (hr : p.subtreeReset = false) (hp : ∀ i < p.d, 0 < Spec.normStar n B i) (v : ℕ → ℤ) :
    p.dist v 0 = Spec.dotQ n (Spec.lc p.d (fun j => v j) B) (Spec.lc p.d (fun j => v j) B) := by
  rw [dist_primal h hd hr (by simpa using hp), ← Spec.spanSq_full n B p.d _ hp]
  have : blockVec p.d 0 v B (fun _ => 0) = Spec.lc p.d (fun j => v j) B := by
    funext c
    simp [blockVec]
  rw [this]
  simp

/-- **C11**, meaning of the distances in dual enumeration: the squared length of the vector `w` of the dual
lattice with `⟨w, b_i⟩ = v_{d-1-i}`. -/
theorem C11_distance_dual {p : Input} {n : ℕ} {B : ℕ → ℕ → ℚ} {T : ℕ → ℚ} (h : p.FromBasis n 0 B T) (hd : p.dual = true)
    (ht : p.target = none) (hr : p.subtreeReset = false) (hp : ∀ i < p.d, 0 < Spec.normStar n B i) (v : ℕ → ℤ)
    (a : ℕ → ℚ) (hw : ∀ i < p.d, Spec.dotQ n (Spec.lc p.d a B) (B i) = v (p.d - 1 - i)) :
    p.dist v 0 = Spec.dotQ n (Spec.lc p.d a B) (Spec.lc p.d a B) :=
  dist_dual h hd ht hr hp v a hw

/-! ## C12 -/

/-- a vector with these coordinates was given to the evaluator -/
def Offered (p : Input) (L : List Event) (v : ℕ → ℤ) : Prop :=
  ∃ w, Event.sol w (p.dist v 0) ∈ L ∧ ∀ j, j < p.d → w j = v j

/-- **C12**, problems without symmetry (CVP, or a non-zero fixed coordinate): every vector with the prescribed
coordinates whose partial distances are within the bounds that are still in force at the end was offered. -/
theorem C12_enumeration_complete {p : Input} {E : EvalOps σ} {I : σ → ℚ → Prop} {e : σ} (h : p.OK)
    (hE : EvalOK p.cfg E I) (hI : I e p.maxdist) {fuel : ℕ} {s' : St σ} (run : enumerate p E fuel e = some s')
    (hs : ¬ p.Symm) {v : ℕ → ℤ} (hv : p.Agrees v)
    (hb : ∀ j, j < p.K → p.dist v j ≤ setBounds p.full s'.maxdist j) : Offered p s'.events v := by
  have S := enumerate_done h hE hI run
  obtain ⟨w, hw, hw'⟩ := S.comp v 0 h.K_pos hv (fun hs' => absurd hs' hs)
    (fun j _ hj => by rw [S.bounds]; exact hb j hj)
  exact ⟨w, (S.solsOk w _).2 ⟨hw, .inr hs⟩, fun j hj => hw' j (Nat.zero_le _) hj⟩

theorem al_neg {c : Cfg} (hfl : Rnd c.fl) (hc : ∀ k, k < c.K → c.cpart k = 0) (v : ℕ → ℤ) (k : ℕ) (hk : k < c.K) :
    al c (fun j => -v j) k = -al c v k := by
  induction hn : c.K - k using Nat.strong_induction_on generalizing k with
  | _ n ih =>
    subst hn
    have : cen c (fun j => -v j) k = -cen c v k := by
      rw [cen_eq, cen_eq]
      have hj : ∀ n j, c.K - j = n → k + 1 ≤ j → j ≤ c.K → psum c (fun j => -v j) k j = -psum c v k j := by
        intro n
        induction n with
        | zero =>
          intro j hn h1 h2
          have : j = c.K := by omega
          rw [this, psum_top, psum_top, hc k hk, neg_zero]
        | succ n ihn =>
          intro j hn h1 h2
          have hy : yS c (fun j => -v j) j = -yS c v j := by
            unfold yS
            rw [ih (c.K - j) (by omega) j (by omega) rfl]
            split_ifs
            · rfl
            · push_cast; rfl
          rw [psum_succ c _ k j (by omega), psum_succ c _ k j (by omega), ihn (j + 1) (by omega) (by omega) (by omega),
            hy, neg_mul, hfl.neg, ← hfl.neg (psum c v k (j + 1) - _)]
          congr 1
          ring
      exact hj _ _ rfl le_rfl hk
    rw [al, al, this, ← hfl.neg]
    congr 1
    push_cast; ring

theorem dist_neg {p : Input} (h : Rnd p.fl) (hs : p.target = none) (v : ℕ → ℤ) (k : ℕ) :
    p.dist (fun j => -v j) k = p.dist v k := by
  have hKd := p.K_le
  unfold Input.dist
  apply forDown_congr
  intro j a h1 h2
  have hj' : j < p.d := by split_ifs at h2 <;> omega
  rw [al_neg (c := p.full) h (fun k _ => by simp [Input.full, Input.ctarget, hs, h.zero]) v j hj', neg_mul_neg]

/-- **C12**, symmetric problems (SVP): of each pair `±v` of non-zero vectors whose partial distances are within
the bounds in force at the end, exactly one was offered. -/
theorem C12_enumeration_complete_svp {p : Input} {E : EvalOps σ} {I : σ → ℚ → Prop} {e : σ} (h : p.OK)
    (hE : EvalOK p.cfg E I) (hI : I e p.maxdist) {fuel : ℕ} {s' : St σ} (run : enumerate p E fuel e = some s')
    (hs : p.Symm) {v : ℕ → ℤ} (hv : p.Agrees v) (hne : ∃ j, j < p.d ∧ v j ≠ 0)
    (hb : ∀ j, j < p.K → p.dist v j ≤ setBounds p.full s'.maxdist j) :
    Xor' (Offered p s'.events v) (Offered p s'.events fun j => -v j) := by
  have S := enumerate_done h hE hI run
  have hKd := p.K_le
  have hKp := h.K_pos
  -- existence
  have main : ∀ u : ℕ → ℤ, p.Agrees u → (∀ j, j < p.K → p.dist u j ≤ setBounds p.full s'.maxdist j) →
      (∃ t, t < p.K ∧ 0 < u t ∧ ∀ i, t < i → i < p.K → u i = 0) → Offered p s'.events u := by
    rintro u hu hbu ⟨t, ht, hut, htop⟩
    have hc : p.Canon u 0 ∧ (p.K = 1 → 1 ≤ u 0) := by
      refine ⟨?_, fun hK => ?_⟩
      · intro j _ hjK hz
        rcases lt_trichotomy j t with h1 | h1 | h1
        · have := hz t h1 ht; omega
        · subst h1; omega
        · rw [htop j h1 hjK]
      · have : t = 0 := by omega
        subst this; omega
    obtain ⟨w, hw, hw'⟩ := S.comp u 0 hKp hu (fun _ => hc) (fun j _ hj => by rw [S.bounds]; exact hbu j hj)
    have hpos := dist_pos h hs hu ⟨t, by omega, by omega⟩
    exact ⟨w, (S.solsOk w _).2 ⟨hw, .inl hpos⟩, fun j hj => hw' j (Nat.zero_le _) hj⟩
  obtain ⟨t, ht, hvt, htop⟩ := exists_top hne
  have htK : t < p.K := by
    by_contra hc
    exact hvt (by rw [hv t (by omega) ht, hs.2 t (by omega) ht])
  have hneg : p.Agrees fun j => -v j := fun j h1 h2 => by
    simp only
    rw [hv j h1 h2, hs.2 j h1 h2]; rfl
  -- an offered vector has its last non-zero coordinate positive
  have hsign : ∀ u : ℕ → ℤ, Offered p s'.events u → (∀ i, t < i → i < p.d → u i = 0) → 0 ≤ u t := by
    rintro u ⟨w, hw, hwu⟩ hu
    obtain ⟨hn, -⟩ := (S.solsOk _ _).1 hw
    obtain ⟨-, -, -, -, h5⟩ := S.node 0 w _ hn
    have := h5 hs t (Nat.zero_le _) htK (fun i h6 h7 => by rw [hwu i (by omega)]; exact hu i h6 (by omega))
    rwa [hwu t ht] at this
  rcases lt_or_gt_of_ne hvt with hlt | hgt
  · refine .inr ⟨?_, ?_⟩
    · exact main _ hneg (fun j hj => by rw [dist_neg h.rnd hs.1]; exact hb j hj)
        ⟨t, htK, by simpa using hlt, fun i h1 h2 => by simp [htop i h1 (by omega)]⟩
    · intro ho
      have := hsign v ho htop
      omega
  · refine .inl ⟨?_, ?_⟩
    · exact main v hv hb ⟨t, htK, hgt, fun i h1 h2 => htop i h1 (by omega)⟩
    · intro ho
      have := hsign _ ho (fun i h1 h2 => by simp [htop i h1 h2])
      omega

/-! ## C13 -/

/-- **C13** no coefficient vector is given to the evaluator twice. -/
theorem C13_no_duplicates {p : Input} {E : EvalOps σ} {I : σ → ℚ → Prop} {e : σ} (h : p.OK)
    (hE : EvalOK p.cfg E I) (hI : I e p.maxdist) {fuel : ℕ} {s' : St σ} (run : enumerate p E fuel e = some s') :
    (solsOf s'.events).Pairwise fun a b => ∃ j, j < p.d ∧ a.1 j ≠ b.1 j := by
  have S := enumerate_done h hE hI run
  have hKd := p.K_le
  exact ((S.nodup 0).sublist S.solsSub).imp (fun ⟨j, _, h2, h3⟩ => ⟨j, by omega, h3⟩)

/-- **C13** no node of the tree is visited twice. -/
theorem C13_no_node_twice {p : Input} {E : EvalOps σ} {I : σ → ℚ → Prop} {e : σ} (h : p.OK)
    (hE : EvalOK p.cfg E I) (hI : I e p.maxdist) {fuel : ℕ} {s' : St σ} (run : enumerate p E fuel e = some s') (l : ℕ) :
    (nodesAt l s'.events).Pairwise fun a b => ∃ j, l ≤ j ∧ j < p.d ∧ a.1 j ≠ b.1 j := by
  have S := enumerate_done h hE hI run
  have hKd := p.K_le
  exact (S.nodup l).imp (fun ⟨j, h1, h2, h3⟩ => ⟨j, h1, by omega, h3⟩)

/-- **C13** the call terminates, in the default build … -/
theorem C13_terminates {p : Input} {E : EvalOps σ} {I : σ → ℚ → Prop} {e : σ} (h : p.OK)
    (hE : EvalOK p.cfg E I) (hI : I e p.maxdist) : ∃ N s', ∀ fuel, N ≤ fuel → enumerate p E fuel e = some s' := by
  have hr : ∀ k, k < p.cfg.K → 0 < p.cfg.rdiag k := fun k hk => h.rdpos k (lt_of_lt_of_le hk p.K_le)
  obtain ⟨N, hN⟩ := enough_exists p.cfg (setBounds p.cfg p.maxdist) hr
  obtain ⟨t, ht, -⟩ := enumerate_spec h hE hI hN
  exact ⟨N, t, fun fuel hf => enumerate_mono hf ht⟩

/-- **C13** … and in the build with the iterative loop; **C49**: both builds end in the same state (same
solutions in the same order, same radius, same node counts). -/
theorem C49_builds_agree {p : Input} {E : EvalOps σ} {I : σ → ℚ → Prop} {e : σ} (h : p.OK)
    (hE : EvalOK p.cfg E I) (hI : I e p.maxdist) :
    ∃ N s', ∀ fuel, N ≤ fuel → enumerate p E fuel e = some s' ∧ enumerateI p E fuel e = some s' := by
  have hr : ∀ k, k < p.cfg.K → 0 < p.cfg.rdiag k := fun k hk => h.rdpos k (lt_of_lt_of_le hk p.K_le)
  obtain ⟨N, hN⟩ := enough_exists p.cfg (setBounds p.cfg p.maxdist) hr
  obtain ⟨t, ht, -⟩ := enumerate_spec h hE hI hN
  obtain ⟨n, hn⟩ := iter_eq_rec h hE hI hN
  refine ⟨max N n, t, fun fuel hf => ⟨enumerate_mono (by omega) ht, ?_⟩⟩
  have := hn (fuel - n)
  rw [show n + (fuel - n) = fuel by omega] at this
  rw [this, ht]

/-! ## C14 -/

theorem zigzag_iter (s : St σ) (k : ℕ) (ctr nd : ℚ) (n : ℕ) :
    ((fun s => zigzag s k)^[n] (startLevel s k ctr nd)).x k = roundto ctr + zz (startDir ctr (roundto ctr)) n ∧
    ((fun s => zigzag s k)^[n] (startLevel s k ctr nd)).dx k = zdx (startDir ctr (roundto ctr)) n ∧
    ((fun s => zigzag s k)^[n] (startLevel s k ctr nd)).ddx k = zddx (startDir ctr (roundto ctr)) n := by
  induction n with
  | zero => simp [startLevel, setAt, zz_zero, zdx_zero, zddx_zero]
  | succ n ih =>
    rw [Function.iterate_succ_apply']
    obtain ⟨h1, h2, h3⟩ := ih
    generalize (fun s => zigzag s k)^[n] (startLevel s k ctr nd) = t at h1 h2 h3
    simp only [zigzag, setAt, if_true, h1, h2, h3, zz_succ, zdx_succ, zddx_succ, and_true]
    ring

/-- **C14** (`enumerate_base`): starting a level at centre `ctr` and stepping with the zig-zag visits the integers
in non-decreasing distance from `ctr`, each exactly once. -/
theorem C14_zigzag (s : St σ) (k : ℕ) (ctr nd : ℚ) :
    (∀ m n, m ≤ n → |((((fun s => zigzag s k)^[m] (startLevel s k ctr nd)).x k : ℤ) : ℚ) - ctr| ≤
      |((((fun s => zigzag s k)^[n] (startLevel s k ctr nd)).x k : ℤ) : ℚ) - ctr|) ∧
    ∀ z : ℤ, ∃! n, ((fun s => zigzag s k)^[n] (startLevel s k ctr nd)).x k = z := by
  have hdir := startDir_or ctr (roundto ctr)
  have hclose : |ctr - (roundto ctr : ℚ)| ≤ 1 / 2 := by rw [abs_sub_comm]; exact roundto_spec ctr
  have hsign := startDir_sign ctr (roundto ctr)
  constructor
  · intro m n hmn
    rw [(zigzag_iter s k ctr nd m).1, (zigzag_iter s k ctr nd n).1]
    have := zz_dist_mono hdir hclose hsign hmn
    push_cast
    rw [show (roundto ctr : ℚ) + zz (startDir ctr (roundto ctr)) m - ctr =
        zz (startDir ctr (roundto ctr)) m - (ctr - roundto ctr) by ring,
      show (roundto ctr : ℚ) + zz (startDir ctr (roundto ctr)) n - ctr =
        zz (startDir ctr (roundto ctr)) n - (ctr - roundto ctr) by ring]
    exact this
  · intro z
    obtain ⟨n, hn⟩ := zz_surj hdir (z - roundto ctr)
    refine ⟨n, by simp only [(zigzag_iter s k ctr nd n).1]; omega, ?_⟩
    intro m hm
    simp only [(zigzag_iter s k ctr nd m).1] at hm
    exact zz_inj hdir (by omega)

theorem top_iter (x0 : ℤ) (ctr : ℚ) (n : ℕ) :
    topStep^[n] (topStart x0 ctr) = ⟨x0 + zz (startDir ctr x0) n, -zddx (startDir ctr x0) n * n, -zddx (startDir ctr x0) n⟩ := by
  induction n with
  | zero =>
    simp only [Function.iterate_zero, id, topStart, zz_zero, zddx_zero, startDir]
    split_ifs <;> simp
  | succ n ih =>
    rw [Function.iterate_succ_apply', ih]
    simp only [topStep, zz_succ, zdx, zddx_succ, TopLvl.mk.injEq]
    push_cast
    exact ⟨by ring, by ring, trivial⟩

/-- **C14** (`topenum`): the zig-zag of `Enumerator::enum_next`, started at any nearest integer `x0` of the centre
(half-integers rounded either way), visits the integers in non-decreasing distance, each exactly once. -/
theorem C14_zigzag_topenum (x0 : ℤ) (ctr : ℚ) (h0 : |(x0 : ℚ) - ctr| ≤ 1 / 2) :
    (∀ m n, m ≤ n → |((topStep^[m] (topStart x0 ctr)).x : ℚ) - ctr| ≤ |((topStep^[n] (topStart x0 ctr)).x : ℚ) - ctr|) ∧
    ∀ z : ℤ, ∃! n, (topStep^[n] (topStart x0 ctr)).x = z := by
  have hdir := startDir_or ctr x0
  have hclose : |ctr - (x0 : ℚ)| ≤ 1 / 2 := by rw [abs_sub_comm]; exact h0
  have hsign := startDir_sign ctr x0
  constructor
  · intro m n hmn
    rw [top_iter, top_iter]
    have := zz_dist_mono hdir hclose hsign hmn
    push_cast
    rw [show (x0 : ℚ) + zz (startDir ctr x0) m - ctr = zz (startDir ctr x0) m - (ctr - x0) by ring,
      show (x0 : ℚ) + zz (startDir ctr x0) n - ctr = zz (startDir ctr x0) n - (ctr - x0) by ring]
    exact this
  · intro z
    obtain ⟨n, hn⟩ := zz_surj hdir (z - x0)
    refine ⟨n, by simp only [top_iter]; omega, ?_⟩
    intro m hm
    simp only [top_iter] at hm
    exact zz_inj hdir (by omega)

/-- **C14**, in the whole walk: nodes of one level with the same parent are visited in the order of their
distance. -/
theorem C14_siblings_in_order {p : Input} {E : EvalOps σ} {I : σ → ℚ → Prop} {e : σ} (h : p.OK)
    (hE : EvalOK p.cfg E I) (hI : I e p.maxdist) {fuel : ℕ} {s' : St σ} (run : enumerate p E fuel e = some s') (l : ℕ) :
    (nodesAt l s'.events).Pairwise fun a b => (∀ j, l < j → j < p.d → a.1 j = b.1 j) → a.2 ≤ b.2 := by
  have S := enumerate_done h hE hI run
  have hKd := p.K_le
  refine (S.order l).imp_of_mem (fun {a b} ha hb ⟨j, h1, h2, h3, h4, h5⟩ heq => ?_)
  have hj : j = l := by
    by_contra hne
    exact h3 (heq j (by omega) (by omega))
  subst hj
  rw [(S.node j a.1 a.2 (mem_nodesAt.1 ha)).2.2.1, (S.node j b.1 b.2 (mem_nodesAt.1 hb)).2.2.1]
  exact h5

/-- **C14**, for whole vectors: of two visited nodes of one level (in particular two solutions), the one visited
first is closer on the highest coordinate on which they differ. -/
theorem C14_depth_first_order {p : Input} {E : EvalOps σ} {I : σ → ℚ → Prop} {e : σ} (h : p.OK)
    (hE : EvalOK p.cfg E I) (hI : I e p.maxdist) {fuel : ℕ} {s' : St σ} (run : enumerate p E fuel e = some s') (l : ℕ) :
    (nodesAt l s'.events).Pairwise fun a b => ∃ j, l ≤ j ∧ j < p.K ∧ a.1 j ≠ b.1 j ∧
      (∀ i, j < i → i < p.d → a.1 i = b.1 i) ∧ p.dist a.1 j ≤ p.dist b.1 j :=
  (enumerate_done h hE hI run).order l

/-! ## C42 -/

/-- **C42** after a finished enumeration with sub-solutions enabled and a new evaluator, the entry of level `l` is
a partial assignment of least non-zero length among all that were visited on that level (with the coordinates
below `l` set to zero), provided one shorter than `b*_l` was visited; otherwise there is no entry. -/
theorem C42_subsolutions {p : Input} {N : ℕ} {strat : Strategy} (h : p.OK) (hp : PruneOK p.cfg)
    (hmd : 0 ≤ p.maxdist) (hfs : p.findsubsols = true) {fuel : ℕ} {s' : St EvSt}
    (run : enumerate p (fastEval N strat) fuel EvSt.new = some s') (l : ℕ) :
    (∀ δ fx, s'.ev.subs l = some (δ, fx) →
      (∃ v, Event.node l v δ ∈ s'.events ∧ fx = fun j => if j < l then 0 else v j) ∧ δ ≠ 0 ∧ δ < p.rdiag l ∧
      ∀ w δ', Event.node l w δ' ∈ s'.events → δ' ≠ 0 → δ ≤ δ') ∧
    (s'.ev.subs l = none → ∀ w δ', Event.node l w δ' ∈ s'.events → δ' ≠ 0 → p.rdiag l ≤ δ') := by
  have S := enumerate_done h (fastEval_ok hp N strat) (fastInv_new strat hmd h.mrep) run
  have hfold := S.fold
  have hsubs := fast_subs N strat l s'.events (EvSt.new, p.maxdist) (S.subDec l) (by simp [EvSt.new])
    (by
      intro fx d hm i hi
      obtain ⟨-, -, -, v, -, rfl⟩ := S.subEv l fx d hm
      simp [hi])
  rw [← hfold] at hsubs
  have hlast := S.subLast l
  have hll : lastDist (p.rdiag l) (subsAt l s'.events) =
      match (subsAt l s'.events).getLast? with
      | none => p.rdiag l
      | some a => a.2 := by
    unfold lastDist
    generalize subsAt l s'.events = M
    induction M using List.reverseRecOn with
    | nil => rfl
    | append_singleton M a _ => simp
  rw [hll] at hlast
  simp only at hsubs
  cases hg : (subsAt l s'.events).getLast? with
  | none =>
    rw [hg] at hsubs hlast
    simp only [EvSt.new] at hsubs hlast
    refine ⟨fun δ fx hh => (by rw [hsubs] at hh; cases hh), fun _ w δ' hn hne => ?_⟩
    rw [← hlast]
    exact S.subNode hfs l w δ' hn hne
  | some a =>
    rw [hg] at hsubs hlast
    simp only at hsubs hlast
    refine ⟨fun δ fx hh => ?_, fun hh => by rw [hsubs] at hh; cases hh⟩
    rw [hsubs] at hh
    cases hh
    have hmem : a ∈ subsAt l s'.events := List.mem_of_getLast? hg
    obtain ⟨-, h1, h2, v, h3, h4⟩ := S.subEv l a.1 a.2 (mem_subsAt.1 hmem)
    refine ⟨⟨v, h3, h4⟩, h1, h2, fun w δ' hn hne => ?_⟩
    rw [← hlast]
    exact S.subNode hfs l w δ' hn hne

/-! ## C43 -/

/-- **C43** (part that holds): the counter of a level is, modulo 2^64, the number of its nodes that were visited,
less one on the levels between the one where `prepare_enumeration` stopped and `k_end`.  Those levels lose one
because `enumerate_loop` decrements their counters in advance (enumerate_base.cpp:174-178) to make up for an
increment which only the descent of an earlier version performed; see `C43_violated`.  Missing: the exact count on
all levels. -/
theorem C43_node_counts_partial {p : Input} {E : EvalOps σ} {I : σ → ℚ → Prop} {e : σ} (h : p.OK)
    (hE : EvalOK p.cfg E I) (hI : I e p.maxdist) {fuel : ℕ} {s' : St σ} (run : enumerate p E fuel e = some s') (l : ℕ) :
    s'.nodes l = BitVec.ofNat 64 (nodesAt l s'.events).length -
      (if (prepare p).2 + 1 ≤ l ∧ l < p.K then 1 else 0) :=
  (enumerate_done h hE hI run).cnt l

/-- an evaluator without memory that leaves the radius alone -/
def idle : EvalOps Unit where
  evalSol _ _ _ md := ((), md)
  evalSub _ _ _ _ := ()

theorem idle_ok (c : Cfg) : EvalOK c idle (fun _ _ => True) where
  sol _ _ _ _ _ _ _ _ := ⟨trivial, fun _ _ => le_rfl⟩
  sub _ _ _ _ _ _ := trivial

/-- the integer lattice of dimension 2 with radius 1 -/
def z2 : Input where
  d := 2
  mu _ _ := 0
  r _ := 1
  maxdist := 1
  target := none
  subtree := []
  pruning := none
  dual := false
  subtreeReset := false
  findsubsols := true

theorem z2_ok : z2.OK where
  rnd := Rnd.id
  mrep := rfl
  rpos _ _ := show (0 : ℚ) < 1 by norm_num
  sublen := by decide
  dualOK h := by cases h
  prune k _ := by simp [setBounds, Input.full, z2]

/-- **C43 is violated**: in the plane with radius 1, two nodes of level 1 are visited, one is reported. -/
theorem C43_violated : ∃ s', enumerate z2 idle 10 () = some s' ∧
    (nodesAt 1 s'.events).length = 2 ∧ s'.nodes 1 = 1#64 := by
  have h : (enumerate z2 idle 10 ()).map (fun s => decide ((nodesAt 1 s.events).length = 2 ∧ s.nodes 1 = 1#64)) =
      some true := by decide +kernel
  obtain ⟨s', hs, h1⟩ := Option.map_eq_some_iff.1 h
  exact ⟨s', hs, by simpa using h1⟩

/-- A closest vector problem whose first level has no node within the pruned bound. -/
def cvp2 : Input where
  d := 2
  mu _ _ := 0
  r _ := 1
  maxdist := 1
  target := some fun _ => 1 / 2
  subtree := []
  pruning := some fun k => if k = 0 then 1 else 1 / 10
  dual := false
  subtreeReset := false
  findsubsols := false

/-- **C43 is violated** even by 2^64 - 1: no node of level 1 is visited, 2^64 - 1 are reported. -/
theorem C43_violated_wrap : ∃ s', enumerate cvp2 idle 10 () = some s' ∧
    (nodesAt 1 s'.events).length = 0 ∧ s'.nodes 1 = 18446744073709551615#64 := by
  have h : (enumerate cvp2 idle 10 ()).map
      (fun s => decide ((nodesAt 1 s.events).length = 0 ∧ s.nodes 1 = 18446744073709551615#64)) =
      some true := by decide +kernel
  obtain ⟨s', hs, h1⟩ := Option.map_eq_some_iff.1 h
  exact ⟨s', hs, by simpa using h1⟩

/-! ## Non-vacuity -/

/-- a primal problem with a target, a fixed coordinate and pruning -/
def ex3 : Input where
  d := 3
  mu i j := if i = 1 ∧ j = 0 then 1 / 2 else if i = 2 ∧ j = 1 then 1 / 3 else 0
  r i := if i = 0 then 4 else if i = 1 then 3 else 5
  maxdist := 20
  target := some fun i => if i = 0 then 1 / 2 else 1 / 3
  subtree := [1]
  pruning := some fun k => if k = 0 then 1 else 3 / 4
  dual := false
  subtreeReset := false
  findsubsols := true

theorem ex3_ok : ex3.OK where
  rnd := Rnd.id
  mrep := rfl
  rpos i _ := by
    simp only [ex3]
    split_ifs <;> norm_num
  sublen := by decide
  dualOK h := by cases h
  prune k _ := by
    simp only [setBounds, Input.full, ex3, id]
    split_ifs <;> norm_num

theorem ex3_prune : PruneOK ex3.cfg := by
  refine ⟨Rnd.id, ?_⟩
  intro q hq
  simp only [Input.cfg, ex3, Option.some.injEq] at hq
  subst hq
  refine ⟨fun k _ => ?_, by norm_num⟩
  dsimp only
  split_ifs <;> norm_num

example : ∃ s', enumerate ex3 (fastEval 2 .best) 30 EvSt.new = some s' ∧ (solsOf s'.events).length ≠ 0 := by
  have h : (enumerate ex3 (fastEval 2 .best) 30 EvSt.new).map
      (fun s => decide ((solsOf s.events).length ≠ 0)) = some true := by decide +kernel
  obtain ⟨s', hs, h1⟩ := Option.map_eq_some_iff.1 h
  exact ⟨s', hs, by simpa using h1⟩

example : ¬ ex3.Symm := fun h => by simpa [ex3] using h.1
example : z2.Symm := ⟨rfl, fun j h1 h2 => by rfl⟩

/-- the integer lattice with its Gram–Schmidt data -/
example : z2.FromBasis 2 0 (fun i c => if i = c then 1 else 0) (fun _ => 0) where
  exact := rfl
  mu i j h1 h2 := by
    have hi : i = 1 := by simp only [z2] at h2; omega
    have hj : j = 0 := by omega
    subst hi hj
    decide +kernel
  r i h := by
    have hi : i = 0 ∨ i = 1 := by simp only [z2] at h; omega
    rcases hi with rfl | rfl <;> decide +kernel
  target i h := by
    have hi : i = 0 ∨ i = 1 := by simp only [z2] at h; omega
    rcases hi with rfl | rfl <;> decide +kernel

end Enum
end Fplll

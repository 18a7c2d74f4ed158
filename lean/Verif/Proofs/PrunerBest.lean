import Verif.Proofs.Pruner
import Verif.Model.PrunerTarget

/-!
# The optimiser never loses a good vector

For cost functions that depend on the entries of the vector only.
-/

namespace Fplll
namespace Pruner

open Function (update update_self update_of_ne)

/-- what is needed of the cost functions: they read `dn` entries, a full vector made of equal pairs costs as much as the half vector,
the gradient does not touch the last coefficient -/
structure Plain (c : Cfg) (O : Oracle) : Prop where
  loc : ∀ dn b b', (∀ i, i < dn → b i = b' i) → (dn = c.d ∨ dn = c.n) → O.cost dn b = O.cost dn b'
  dup : ∀ b h, (∀ i, i < 2 * c.d → b i = h (i / 2)) → O.cost c.n b = O.cost c.d h
  grad : ∀ dn b e, O.grad dn b e (dn - 1) = 0

theorem enforce_last {c : Cfg} {dn : ℕ} (hd : Dim c dn) {mn : Vec} (hmn : MinOK c.d mn) {b : Vec}
    (h : b (dn - 1) = 1 ∨ (b (dn - 1) < 0.999 ∧ 2 ≤ dn)) : (enforce c.d mn dn b 0).2 (dn - 1) = 1 := by
  have hp := hd.pos
  obtain ⟨h1, -, h3⟩ := enforce_spec c.d mn dn b 0 hp _ (fun i _ => le_rfl) (fun i hi => by omega) (fun k hk => (hmn k hk).2)
  refine le_antisymm (h1 _ (by omega)).2 (h3 1 le_rfl ?_)
  unfold pre
  rcases h with h | ⟨h, h2⟩
  · rw [h]
    split_ifs
    · rw [update_self]
    · exact h.ge
  · rw [if_pos ⟨h, by omega⟩, update_self]

/-! ## gradient descent -/

/-- a vector that is fit to be the result: `en` says whether it satisfies the bounds of `enforce` -/
structure Fit (c : Cfg) (O : Oracle) (mn : Vec) (dn : ℕ) (F : ℝ) (en : Prop) (b : Vec) : Prop where
  last : b (dn - 1) = 1
  cost : O.cost dn b ≤ F
  en : en → En c.d mn dn b

theorem miniSteps_fit {c : Cfg} {dn : ℕ} (hd : Dim c dn) {O : Oracle} {mn : Vec} (hmn : MinOK c.d mn) {g : Vec}
    (hg : g (dn - 1) = 0) (old : ℝ) (F : ℝ) (en : Prop) : ∀ fuel j step newb b cf, newb (dn - 1) = 1 → Fit c O mn dn F en b →
    cf = O.cost dn b → (miniSteps c O mn dn g old fuel j step newb b cf).All (fun r => Fit c O mn dn F en r.2) := by
  intro fuel
  induction fuel with
  | zero => intros; trivial
  | succ f ih =>
    intro j step newb b cf hn hb hcf
    rw [miniSteps]
    have he := enforce_zero hd (b := fun i => newb i + step * g i) (fun k hk => (hmn k hk).2) (fun _ _ => Or.inr hmn)
    have hl := enforce_last hd hmn (b := fun i => newb i + step * g i) (Or.inl (by rw [hg, hn]; ring))
    dsimp only
    by_cases h1 : step > dn
    · rw [if_pos h1]; exact hb
    rw [if_neg h1]
    by_cases h2 : O.cost dn (enforce c.d mn dn (fun i => newb i + step * g i) 0).2 ≥ cf
    · rw [if_pos h2]
      split_ifs <;> exact hb
    · rw [if_neg h2]
      have hb' := hb.cost
      exact ih _ _ _ _ _ hl ⟨hl, by rw [← hcf] at hb'; linarith, fun _ => he⟩ rfl

theorem gradLoop_fit {c : Cfg} {dn : ℕ} (hd : Dim c dn) {O : Oracle} (hO : Plain c O) {mn : Vec} (hmn : MinOK c.d mn) (inner : ℕ)
    (F : ℝ) (en : Prop) :
    ∀ fuel eps ms tr b, Fit c O mn dn F en b → (gradLoop c O mn dn inner fuel eps ms tr b).All (Fit c O mn dn F en) := by
  intro fuel
  induction fuel with
  | zero => intros; trivial
  | succ f ih =>
    intro eps ms tr b hb
    rw [gradLoop]
    have hs : (gradStep c O mn dn inner eps ms b).All (fun r => Fit c O mn dn F en r.2) := by
      unfold gradStep
      dsimp only
      split_ifs
      · exact hb
      · exact miniSteps_fit hd hmn (by rw [hO.grad, zero_div]) _ _ _ _ _ _ _ _ _ hb.last hb rfl
    refine hs.bind fun r hr => ?_
    split_ifs
    · exact hr
    · exact hr
    · exact ih _ _ _ _ hr
    · exact ih _ _ _ _ hr

/-! ## Nelder-Mead -/

theorem nmMini_le (l : ℕ) (hl : 1 ≤ l) (fs : ℕ → ℝ) : ∀ k, k < l → fs (nmMini l fs) ≤ fs k := by
  unfold nmMini
  refine forUp_inv (fun m t => ∀ k, k < m → fs t ≤ fs k) _ hl 0 (fun k hk => by rw [show k = 0 by omega]) ?_
  intro m t _ _ ht k hk
  split_ifs with h
  · by_cases e : k = m
    · rw [e]
    · exact h.le.trans (ht k (by omega))
  · by_cases e : k = m
    · rw [e]; exact not_lt.1 h
    · exact ht k (by omega)

/-- `maxi` is not the place of the smallest value, unless all values are equal -/
theorem nmMaxi_spec (l : ℕ) (hl : 1 ≤ l) (fs : ℕ → ℝ) :
    (∀ k, k < l → fs k = fs (nmMini l fs)) ∨ fs (nmMini l fs) < fs (nmMaxi l fs) := by
  have key := forUp_inv (fun m (t : ℕ × ℕ) => t.1 = forUp 1 m (fun i m => if fs i < fs m then i else m) 0 ∧ t.2 < m ∧
      ((∀ k, k < m → fs k = fs t.1) ∨ fs t.1 < fs t.2))
    (fun i (m : ℕ × ℕ) =>
      let mini := if fs i < fs m.1 then i else m.1
      (mini, if fs i > fs mini then i else m.2)) hl (0, 0) ⟨by rw [forUp_empty le_rfl], Nat.one_pos,
        Or.inl fun k hk => by rw [show k = 0 by omega]⟩ (by
      intro m t h1 _ ⟨g0, g1, g2⟩
      dsimp only
      refine ⟨?_, ?_, ?_⟩
      · rw [forUp_succ_right h1, ← g0]
      · split_ifs <;> omega
      · by_cases h : fs m < fs t.1
        · rw [if_pos h, if_neg (lt_irrefl _)]
          right
          rcases g2 with g2 | g2
          · rw [g2 _ g1]; exact h
          · exact h.trans g2
        · rw [if_neg h]
          by_cases h' : fs m > fs t.1
          · rw [if_pos h']; exact Or.inr h'
          · rw [if_neg h']
            rcases g2 with g2 | g2
            · left
              intro k hk
              by_cases e : k = m
              · rw [e]; linarith
              · exact g2 k (by omega)
            · exact Or.inr g2)
  obtain ⟨g0, -, g2⟩ := key
  unfold nmMaxi nmMini
  rw [← g0]
  exact g2

theorem nmMaxi2_lt (l : ℕ) (hl : 2 ≤ l) (fs : ℕ → ℝ) (maxi : ℕ) : nmMaxi2 l fs maxi < l := by
  unfold nmMaxi2
  refine forUp_inv (fun _ m => m < l) _ (Nat.zero_le l) _ (forUp_inv (fun _ m => m < l) _ (by omega : 1 ≤ l) _ ?_ ?_) ?_
  · split_ifs <;> omega
  · intro m t _ hm ht
    split_ifs
    · exact hm
    · exact ht
  · intro m t _ hm ht
    split_ifs
    · exact hm
    · exact ht

/-- all points of the simplex satisfy the bounds, their values are those of the cost function, one of them is at most `F` -/
structure SInv (c : Cfg) (O : Oracle) (mn : Vec) (dn : ℕ) (F : ℝ) (s : Simplex) : Prop where
  en : ∀ k, k < dn + 1 → En c.d mn dn (s.bs k)
  last : ∀ k, k < dn + 1 → s.bs k (dn - 1) = 1
  val : ∀ k, k < dn + 1 → s.fs k = O.cost dn (s.bs k)
  low : ∃ k, k < dn + 1 ∧ s.fs k ≤ F

theorem sinv_update {c : Cfg} {O : Oracle} {mn : Vec} {dn : ℕ} {F : ℝ} {s : Simplex} (h : SInv c O mn dn F s) (m : ℕ)
    {b : Vec} (he : En c.d mn dn b) (hl : b (dn - 1) = 1)
    (hlow : O.cost dn b ≤ F ∧ m < dn + 1 ∨ ∃ k, k < dn + 1 ∧ k ≠ m ∧ s.fs k ≤ F) :
    SInv c O mn dn F ⟨update s.bs m b, update s.fs m (O.cost dn b)⟩ := by
  refine ⟨fun k hk => ?_, fun k hk => ?_, fun k hk => ?_, ?_⟩
  · by_cases e : k = m
    · simp only [e, update_self]; exact he
    · simp only [update_of_ne e]; exact h.en k hk
  · by_cases e : k = m
    · simp only [e, update_self]; exact hl
    · simp only [update_of_ne e]; exact h.last k hk
  · by_cases e : k = m
    · simp only [e, update_self]
    · simp only [update_of_ne e]; exact h.val k hk
  · rcases hlow with ⟨h1, h2⟩ | ⟨k, h1, h2, h3⟩
    · exact ⟨m, h2, by simp only [update_self]; exact h1⟩
    · exact ⟨k, h1, by simp only [update_of_ne h2]; exact h3⟩

theorem nmMaxi_lt (l : ℕ) (hl : 1 ≤ l) (fs : ℕ → ℝ) : nmMaxi l fs < l := by
  unfold nmMaxi
  refine forUp_inv (fun _ (m : ℕ × ℕ) => m.2 < l) _ hl (0, 0) (by show 0 < l; omega) ?_
  intro m t _ hm ht
  dsimp only
  by_cases h : fs m > fs (if fs m < fs t.1 then m else t.1)
  · rw [if_pos h]; exact hm
  · rw [if_neg h]; exact ht

theorem nmLoop_fit {c : Cfg} {dn : ℕ} (hd : Dim c dn) (h2dn : 2 ≤ dn) {O : Oracle} (hO : Plain c O) {mn : Vec} (hmn : MinOK c.d mn)
    (F : ℝ) : ∀ fuel counter last s, SInv c O mn dn F s →
      (nmLoop c O mn dn fuel counter last s).All (fun r => Fit c O mn dn F True (r.1.bs r.2)) := by
  have he : ∀ b, En c.d mn dn (enforce c.d mn dn b 0).2 := fun b =>
    enforce_zero hd (fun k hk => (hmn k hk).2) (fun _ _ => Or.inr hmn)
  intro fuel
  induction fuel with
  | zero => intros; trivial
  | succ f ih =>
    intro counter last s hs
    have hc := centroid_ok (dn + 1) (by omega) s.bs hs.en
    have hcl : nmCentroid (dn + 1) s.bs (dn - 1) = 1 := by
      unfold nmCentroid
      have := forUp_inv (fun m (acc : ℝ) => acc = m) (fun k acc => acc + s.bs k (dn - 1)) (by omega : 1 ≤ dn + 1)
        (s.bs 0 (dn - 1)) (by rw [hs.last 0 (by omega)]; norm_num)
        (by intro m t _ hm ht; rw [hs.last m hm, ht]; push_cast; ring)
      rw [this]
      exact div_self (by positivity)
    have hol := enforce_last hd hmn (Or.inl hcl)
    have hst := (enforce_status c.d mn dn hd.pos _ hc.vb.le hc.vb.mono hc.lo hc.last).1
    have hmlt := nmMini_lt (dn + 1) (by omega) s.fs
    have hMlt := nmMaxi_lt (dn + 1) (by omega) s.fs
    have hM2lt := nmMaxi2_lt (dn + 1) (by omega) s.fs (nmMaxi (dn + 1) s.fs)
    have hmin := nmMini_le (dn + 1) (by omega) s.fs
    have hmax := nmMaxi_spec (dn + 1) (by omega) s.fs
    have hF : s.fs (nmMini (dn + 1) s.fs) ≤ F := by
      obtain ⟨k, hk, hkF⟩ := hs.low
      exact (hmin k hk).trans hkF
    rw [nmLoop]
    dsimp only
    rw [if_neg (by rw [hst]; exact Bool.false_ne_true)]
    generalize (if counter = 0 then s.fs (nmMaxi (dn + 1) s.fs) else last) = last'
    generalize (if (counter + 1) % (dn + 1) = 0 then s.fs (nmMaxi (dn + 1) s.fs) else last') = last''
    revert hol
    generalize (enforce c.d mn dn (nmCentroid (dn + 1) s.bs) 0).2 = bo
    intro hol
    have hxl := hs.last _ hMlt
    revert hmlt hMlt hM2lt hmin hmax hF hxl
    generalize nmMaxi2 (dn + 1) s.fs (nmMaxi (dn + 1) s.fs) = maxi2
    generalize nmMaxi (dn + 1) s.fs = maxi
    generalize nmMini (dn + 1) s.fs = mini
    intro hmlt hMlt hM2lt hmin hmax hF hxl
    have hrl := enforce_last hd hmn (b := fun i => bo i + 1 * (bo i - s.bs maxi i)) (Or.inl (by rw [hol, hxl]; norm_num))
    have hrc := he (fun i => bo i + 1 * (bo i - s.bs maxi i))
    revert hrl hrc
    generalize (enforce c.d mn dn (fun i => bo i + 1 * (bo i - s.bs maxi i)) 0).2 = br
    intro hrl hrc
    have hel := enforce_last hd hmn (b := fun i => bo i + 2 * (br i - bo i)) (Or.inl (by rw [hol, hrl]; norm_num))
    have hkl := enforce_last hd hmn (b := fun i => bo i + 0.5 * (s.bs maxi i - bo i)) (Or.inl (by rw [hol, hxl]; norm_num))
    have hne : ∀ x, s.fs mini ≤ x → x < s.fs maxi2 → mini ≠ maxi := by
      intro x h1 h2 h3
      rcases hmax with hmax | hmax
      · have := hmax maxi2 hM2lt
        linarith
      · rw [h3] at hmax
        exact lt_irrefl _ hmax
    split_ifs with h1 h2 h3 h4 h5 h6
    · exact ⟨hs.last _ hmlt, by rw [← hs.val _ hmlt]; exact hF, fun _ => hs.en _ hmlt⟩
    · exact ih _ _ _ (sinv_update hs _ hrc hrl (Or.inr ⟨mini, hmlt, hne _ h2.1 h2.2, hF⟩))
    · exact ih _ _ _ (sinv_update hs _ (he _) hel (Or.inl ⟨by linarith, hMlt⟩))
    · exact ih _ _ _ (sinv_update hs _ hrc hrl (Or.inl ⟨by linarith, hMlt⟩))
    · refine ih _ _ _ (sinv_update hs _ (he _) hkl ?_)
      by_cases e : mini = maxi
      · left
        rw [e] at hF
        exact ⟨by linarith, hMlt⟩
      · exact Or.inr ⟨mini, hmlt, e, hF⟩
    · refine ih _ _ _ ?_
      have hsh := forUp_inv (fun _ (t : Simplex) => SInv c O mn dn F t ∧ t.fs mini ≤ F) (fun j (s : Simplex) =>
          let b := (enforce c.d mn dn (fun i => s.bs mini i + 0.5 * (s.bs j i - s.bs mini i)) 0).2
          (⟨update s.bs j b, update s.fs j (O.cost dn b)⟩ : Simplex)) (Nat.zero_le (dn + 1)) s ⟨hs, hF⟩ (by
        intro m t _ hm ⟨ht, htF⟩
        dsimp only
        have hl := enforce_last hd hmn (b := fun i => t.bs mini i + 0.5 * (t.bs m i - t.bs mini i))
          (Or.inl (by rw [ht.last _ hmlt, ht.last _ hm]; norm_num))
        by_cases e : m = mini
        · have hv : (fun i => t.bs mini i + 0.5 * (t.bs m i - t.bs mini i)) = t.bs mini := by
            funext i; rw [e]; ring
          have hen := ht.en _ hmlt
          have hid := (enforce_status c.d mn dn hd.pos _ hen.vb.le hen.vb.mono hen.lo hen.last).2
          have hcost : O.cost dn (enforce c.d mn dn (t.bs mini) 0).2 = t.fs mini := by
            rw [ht.val _ hmlt]
            exact hO.loc _ _ _ hid hd.dn
          rw [hv] at hl ⊢
          refine ⟨sinv_update ht m (he _) hl (Or.inl ⟨by rw [hcost]; exact htF, hm⟩), ?_⟩
          rw [e, update_self, hcost]
          exact htF
        · refine ⟨sinv_update ht m (he _) hl (Or.inr ⟨mini, hmlt, fun h => e h.symm, htF⟩), ?_⟩
          rw [update_of_ne (fun h => e h.symm)]
          exact htF)
      exact hsh.1
    · exfalso
      rw [not_and_or, not_le, not_lt] at h2
      rcases h2 with h2 | h2
      · exact h3 h2
      · exact h5 h2

theorem nelderMead_fit {c : Cfg} {dn : ℕ} (hd : Dim c dn) (h2dn : 2 ≤ dn) {O : Oracle} (hO : Plain c O) {mn : Vec}
    (hmn : MinOK c.d mn) (F : ℝ) (inner : ℕ) :
    ∀ fuel b, Fit c O mn dn F True b → (nelderMead c O mn dn inner fuel b).All (Fit c O mn dn F True) := by
  have he : ∀ b, En c.d mn dn (enforce c.d mn dn b 0).2 := fun b =>
    enforce_zero hd (fun k hk => (hmn k hk).2) (fun _ _ => Or.inr hmn)
  intro fuel
  induction fuel with
  | zero => intros; trivial
  | succ f ih =>
    intro b hb
    rw [nelderMead]
    have hen := hb.en trivial
    have hid := (enforce_status c.d mn dn hd.pos _ hen.vb.le hen.vb.mono hen.lo hen.last).2
    have hs : (nmStep c O mn dn inner b).All (fun r => Fit c O mn dn F True r.2) := by
      unfold nmStep
      refine (nmLoop_fit hd h2dn hO hmn F inner _ _ _ ⟨fun k _ => he _, fun k _ => ?_, fun k _ => rfl, dn, by omega, ?_⟩).bind
        fun r hr => hr
      · refine enforce_last hd hmn ?_
        by_cases hk : k < dn
        · rw [if_pos hk]
          by_cases e : k = dn - 1
          · right
            rw [e, update_self, hb.last]
            exact ⟨by norm_num, h2dn⟩
          · left
            rw [update_of_ne (fun h => e h.symm)]
            exact hb.last
        · rw [if_neg hk]
          exact Or.inl hb.last
      · show O.cost dn (enforce c.d mn dn (if dn < dn then _ else b) 0).2 ≤ F
        rw [if_neg (lt_irrefl _), hO.loc _ _ _ hid hd.dn]
        exact hb.cost
    refine hs.bind fun r hr => ?_
    split_ifs
    · exact ih _ hr
    · exact hr

/-! ## the whole optimisation -/

theorem load_save_full {c : Cfg} (hn : 2 ≤ c.n) {b : Vec} (hb : b (c.n - 1) = 1) (pr : Vec) {i : ℕ} (hi : i < c.n) :
    load c c.n (save c c.n b pr) i = b i := by
  have hne : c.n ≠ c.d := by simp only [Cfg.d]; omega
  unfold load
  rw [if_neg hne, save_val ⟨hn, Or.inr rfl⟩ b pr _ (by omega), if_neg hne]
  split_ifs with h
  · rw [show i = c.n - 1 by omega, hb]
  · congr 1
    omega

theorem load_full_save_half {c : Cfg} (hn : 2 ≤ c.n) {b : Vec} (hb : b (c.d - 1) = 1) (pr : Vec) {i : ℕ} (hi : i < 2 * c.d) :
    load c c.n (save c c.d b pr) i = b (i / 2) := by
  have hne : c.n ≠ c.d := by simp only [Cfg.d]; omega
  simp only [Cfg.d] at hi
  unfold load
  rw [if_neg hne, save_val ⟨hn, Or.inl rfl⟩ b pr _ (by omega), if_pos rfl]
  split_ifs with h
  · rw [← hb]
    congr 1
    simp only [Cfg.d]
    omega
  · congr 1
    omega

theorem load_half_save_half {c : Cfg} (hn : 2 ≤ c.n) (b pr : Vec) {i : ℕ} (hi : i < c.d) :
    load c c.d (save c c.d b pr) i = b i := by
  simp only [Cfg.d] at hi
  unfold load
  rw [if_pos rfl, save_val ⟨hn, Or.inl rfl⟩ b pr _ (by omega), if_neg (by omega), if_pos rfl]
  congr 1
  omega

theorem load_full_last {c : Cfg} (hn : 2 ≤ c.n) {dn : ℕ} (hdn : dn = c.d ∨ dn = c.n) (b pr : Vec) :
    load c c.n (save c dn b pr) (c.n - 1) = 1 := by
  have hne : c.n ≠ c.d := by simp only [Cfg.d]; omega
  unfold load
  rw [if_neg hne, save_val ⟨hn, hdn⟩ b pr _ (by omega), if_pos (by omega)]

/-- `optimize_coefficients_evec_core`: the half vector after it costs at most as much as before -/
theorem core_half {c : Cfg} (hn : 4 ≤ c.n) {O : Oracle} (hO : Plain c O) {mn : Vec}
    (hmn : c.gradient = true ∨ c.nelderMead = true → MinOK c.d mn) (fuel : ℕ) {pr : Vec}
    (hl : load c c.d pr (c.d - 1) = 1) (hen : c.nelderMead = true → En c.d mn c.d (load c c.d pr)) :
    (core c O mn c.d fuel pr).All fun pr' => ∃ b pr'', pr' = save c c.d b pr'' ∧ b (c.d - 1) = 1 ∧
      O.cost c.d b ≤ O.cost c.d (load c c.d pr) := by
  have hd : Dim c c.d := ⟨by omega, Or.inl rfl⟩
  have h2d : 2 ≤ c.d := by simp only [Cfg.d]; omega
  unfold core
  set F := O.cost c.d (load c c.d pr) with hF
  have h1 : (if c.gradient = true then gradientDescent c O mn c.d fuel (load c c.d pr) else .ok (load c c.d pr)).All
      (Fit c O mn c.d F (c.nelderMead = true)) := by
    have h0 : Fit c O mn c.d F (c.nelderMead = true) (load c c.d pr) := ⟨hl, le_rfl, hen⟩
    split_ifs with h
    · exact gradLoop_fit hd hO (hmn (Or.inl h)) _ _ _ _ _ _ _ _ h0
    · exact h0
  refine h1.bind fun b hb => ?_
  have h2 : (if c.nelderMead = true then nelderMead c O mn c.d fuel fuel b else .ok b).All (Fit c O mn c.d F False) := by
    split_ifs with h
    · have := nelderMead_fit hd h2d hO (hmn (Or.inr h)) F fuel fuel b ⟨hb.last, hb.cost, fun _ => hb.en h⟩
      revert this
      cases nelderMead c O mn c.d fuel fuel b with
      | ok b => exact fun hb => ⟨hb.last, hb.cost, False.elim⟩
      | thrown => exact id
      | stuck => exact id
    · exact ⟨hb.last, hb.cost, False.elim⟩
  exact h2.bind fun b hb => ⟨b, pr, rfl, hb.last, hb.cost⟩

theorem core_form {c : Cfg} {O : Oracle} {mn : Vec} {dn fuel : ℕ} {pr : Vec} :
    ∀ r, core c O mn dn fuel pr = .ok r → ∃ b, r = save c dn b pr := by
  intro r
  unfold core
  dsimp only
  cases (if c.gradient = true then gradientDescent c O mn dn fuel (load c dn pr) else .ok (load c dn pr)) with
  | thrown => intro h; cases h
  | stuck => intro h; cases h
  | ok b =>
    rw [Res.bind]
    cases (if c.nelderMead = true then nelderMead c O mn dn fuel fuel b else .ok b) with
    | thrown => intro h; cases h
    | stuck => intro h; cases h
    | ok b => intro h; cases h; exact ⟨b, rfl⟩

theorem bind_ok {α β : Type} {m : Res α} {f : α → Res β} {r : β} (h : m.bind f = .ok r) : ∃ a, m = .ok a ∧ f a = .ok r := by
  cases m with
  | ok a => exact ⟨a, rfl, h⟩
  | thrown => cases h
  | stuck => cases h

/-- the tours never return anything worse than `best` -/
theorem varyTours_best {c : Cfg} (hn : 2 ≤ c.n) {O : Oracle} (hO : Plain c O) {mn : Vec} (inner : ℕ) (F : ℝ) :
    ∀ fuel tours pr best minc, best (c.n - 1) = 1 → O.cost c.n best = minc → minc ≤ F →
      ∀ r, varyTours c O mn inner fuel tours pr best minc = .ok r → O.cost c.n (load c c.n r) ≤ F := by
  intro fuel
  induction fuel with
  | zero => intro _ _ _ _ _ _ _ r h; cases h
  | succ f ih =>
    intro tours pr best minc hb hc hF r h
    rw [varyTours] at h
    dsimp only at h
    obtain ⟨pr1, h1, h⟩ := bind_ok h
    obtain ⟨pr2, h2, h⟩ := bind_ok h
    set b1 := load c c.n (smooth c (incrProb c O pr1)) with hb1
    have hl1 : b1 (c.n - 1) = 1 := by rw [hb1]; unfold smooth; exact load_full_last hn (Or.inr rfl) _ _
    obtain ⟨b2', h2'⟩ := core_form _ h2
    set b2 := load c c.n pr2 with hb2
    have hl2 : b2 (c.n - 1) = 1 := by rw [hb2, h2']; exact load_full_last hn (Or.inr rfl) _ _
    set best1 := (if O.cost c.n b1 < minc then b1 else best) with hbest1
    set minc1 := (if O.cost c.n b1 < minc then O.cost c.n b1 else minc) with hminc1
    have k1 : best1 (c.n - 1) = 1 ∧ O.cost c.n best1 = minc1 ∧ minc1 ≤ F := by
      rw [hbest1, hminc1]
      split_ifs with h
      · exact ⟨hl1, rfl, h.le.trans hF⟩
      · exact ⟨hb, hc, hF⟩
    set best2 := (if O.cost c.n b2 < minc1 then b2 else best1) with hbest2
    set minc2 := (if O.cost c.n b2 < minc1 then O.cost c.n b2 else minc1) with hminc2
    have k2 : best2 (c.n - 1) = 1 ∧ O.cost c.n best2 = minc2 ∧ minc2 ≤ F := by
      rw [hbest2, hminc2]
      split_ifs with h
      · exact ⟨hl2, rfl, h.le.trans k1.2.2⟩
      · exact k1
    split_ifs at h
    · cases h
      rw [hO.loc _ _ best2 (fun i hi => load_save_full hn k2.1 pr2 hi) (Or.inr rfl), k2.2.1]
      exact k2.2.2
    · exact ih _ _ _ _ k2.1 k2.2.1 k2.2.2 r h

end Pruner
end Fplll

import Verif.Props.Enum

/-!
# C15, C16: what the evaluators keep

First for arbitrary sequences of offered solutions (`runSols`), then for the sequences that `enumerate` produces.
-/

open Finset

namespace Fplll
namespace Enum

/-! ## C15 -/

/-- **C15** after any sequence of offers, the best-`N` evaluator holds exactly the `N` shortest ones (all of them
if there are fewer), longest first; the radius is the longest stored length, or still the initial one if fewer
than `N` are stored. -/
theorem C15_best_keeps_N_shortest {N : ℕ} (hN : 1 ≤ N) (md : ℚ) (offers : List Sol) :
    Shortest N (runSols N .best (EvSt.new, md) offers).1.sols offers ∧
    (offers.length < N → (runSols N .best (EvSt.new, md) offers).2 = md) ∧
    (N ≤ offers.length →
      (∃ a ∈ (runSols N .best (EvSt.new, md) offers).1.sols, a.1 = (runSols N .best (EvSt.new, md) offers).2) ∧
      ∀ a ∈ (runSols N .best (EvSt.new, md) offers).1.sols, a.1 ≤ (runSols N .best (EvSt.new, md) offers).2) := by
  obtain ⟨h1, h2⟩ := runSols_best hN EvSt.new rfl md offers
  refine ⟨h1, fun h => by rw [h2, if_pos h], fun h => ?_⟩
  rw [h2, if_neg (by omega)]
  have hl := h1.len
  have hd := h1.desc
  cases hs : (runSols N .best (EvSt.new, md) offers).1.sols with
  | nil => rw [hs] at hl; simp only [List.length_nil] at hl; omega
  | cons q T =>
    rw [hs] at hd
    refine ⟨⟨q, by simp, by simp⟩, ?_⟩
    intro a ha
    rcases List.mem_cons.1 ha with rfl | ha
    · simp
    · exact (List.pairwise_cons.1 hd).1 a ha

/-- an offered vector (with the coordinates of the block) is stored -/
def Stored (p : Input) (K : List Sol) (v : ℕ → ℤ) : Prop :=
  ∃ a ∈ K, a.1 = p.dist v 0 ∧ ∀ j, j < p.d → a.2 j = v j

theorem pruneOK_none {p : Input} (h : p.OK) (hp : p.pruning = none) : PruneOK p.cfg := by
  refine ⟨h.rnd, ?_⟩
  intro q hq
  simp only [Input.cfg, hp] at hq
  cases hq

theorem mem_offersOf {L : List Event} {v : ℕ → ℤ} {δ : ℚ} : (δ, v) ∈ offersOf L ↔ Event.sol v δ ∈ L := by
  unfold offersOf
  rw [List.mem_map, ← mem_solsOf]
  constructor
  · rintro ⟨⟨a, b⟩, h1, h2⟩
    simp only [Prod.mk.injEq] at h2
    rw [← h2.1, ← h2.2]; exact h1
  · intro h; exact ⟨(v, δ), h, rfl⟩

theorem fast_result {p : Input} {N : ℕ} {strat : Strategy} {s' : St EvSt}
    (S : EnumSpec p (fastEval N strat) (FastInv p.fl strat) EvSt.new s') :
    s'.ev.sols = (runSols N strat (EvSt.new, p.maxdist) (offersOf s'.events)).1.sols ∧
    s'.maxdist = (runSols N strat (EvSt.new, p.maxdist) (offersOf s'.events)).2 := by
  obtain ⟨h1, h2⟩ := fast_fold N strat s'.events EvSt.new EvSt.new p.maxdist rfl
  rw [← S.fold] at h1 h2
  exact ⟨h1, h2⟩

theorem offered_of_le {p : Input} {N : ℕ} {strat : Strategy} (h : p.OK) (hp : p.pruning = none)
    (hmd : 0 ≤ p.maxdist) {fuel : ℕ} {s' : St EvSt}
    (run : enumerate p (fastEval N strat) fuel EvSt.new = some s') {v : ℕ → ℤ} (hv : p.Agrees v)
    (hle : p.dist v 0 ≤ s'.maxdist) (hne : p.Symm → ∃ j, j < p.d ∧ v j ≠ 0) :
    Offered p s'.events v ∨ p.Symm ∧ Offered p s'.events fun j => -v j := by
  have hb : ∀ j, j < p.K → p.dist v j ≤ setBounds p.full s'.maxdist j := by
    intro j hj
    unfold setBounds
    rw [show p.full.pruning = none from hp]
    exact (dist_anti h v (Nat.zero_le j) hj.le).trans hle
  by_cases hs : p.Symm
  · rcases C12_enumeration_complete_svp h (fastEval_ok (pruneOK_none h hp) N strat) (fastInv_new strat hmd h.mrep) run hs hv
      (hne hs) hb with ho | ho
    · exact .inl ho.1
    · exact .inr ⟨hs, ho.1⟩
  · exact .inl (C12_enumeration_complete h (fastEval_ok (pruneOK_none h hp) N strat) (fastInv_new strat hmd h.mrep) run hs hv hb)

/-- **C15** for enumeration without pruning: the evaluator ends up with the `N` shortest vectors of the
problem.  Everything stored is a genuine solution of distance at most `maxdist`, at most `N` are stored, and a
vector of distance at most `maxdist` which is not stored (up to sign in the symmetric case) is not shorter than
any of the `N` stored ones. -/
theorem C15_enumerate_finds_N_shortest {p : Input} {N : ℕ} (hN : 1 ≤ N) (h : p.OK) (hp : p.pruning = none)
    (hmd : 0 ≤ p.maxdist) {fuel : ℕ} {s' : St EvSt}
    (run : enumerate p (fastEval N .best) fuel EvSt.new = some s') :
    s'.ev.sols.length ≤ N ∧
    (∀ a ∈ s'.ev.sols, p.Agrees a.2 ∧ a.1 = p.dist a.2 0 ∧ a.1 ≤ p.maxdist ∧ (p.Symm → 0 < a.1)) ∧
    ∀ v, p.Agrees v → p.dist v 0 ≤ p.maxdist → (p.Symm → ∃ j, j < p.d ∧ v j ≠ 0) →
      (Stored p s'.ev.sols v ∨ p.Symm ∧ Stored p s'.ev.sols fun j => -v j) ∨
        s'.ev.sols.length = N ∧ ∀ a ∈ s'.ev.sols, a.1 ≤ p.dist v 0 := by
  have hE := fastEval_ok (pruneOK_none h hp) N .best
  have hI := fastInv_new .best hmd h.mrep
  have S := enumerate_done h hE hI run
  obtain ⟨h1, h2⟩ := fast_result S
  obtain ⟨k1, k2, k3⟩ := C15_best_keeps_N_shortest hN p.maxdist (offersOf s'.events)
  rw [← h1] at k1 k3
  rw [← h2] at k2 k3
  obtain ⟨D, hD, hle⟩ := k1.drop
  have hlen := k1.len
  refine ⟨by omega, ?_, ?_⟩
  · intro a ha
    have hm : Event.sol a.2 a.1 ∈ s'.events := mem_offersOf.1 (hD.mem_iff.1 (List.mem_append_left _ ha))
    obtain ⟨L₁, L₂, hL⟩ := List.append_of_mem hm
    obtain ⟨c1, c2, c3, -, c5⟩ := C11_enumeration_sound h hE hI run hL
    refine ⟨c1, c2, ?_, fun hs => (c5 hs).1⟩
    have := c3 0 h.K_pos
    unfold setBounds at this
    rw [show p.full.pruning = none from hp] at this
    rw [c2]; exact this
  · intro v hv hvd hne
    by_cases hle' : p.dist v 0 ≤ s'.maxdist
    · -- offered, hence stored or dropped
      have key : ∀ u : ℕ → ℤ, Offered p s'.events u → p.dist u 0 = p.dist v 0 →
          Stored p s'.ev.sols u ∨ s'.ev.sols.length = N ∧ ∀ a ∈ s'.ev.sols, a.1 ≤ p.dist v 0 := by
        rintro u ⟨w, hw, hwu⟩ hd
        rcases List.mem_append.1 (hD.mem_iff.2 (mem_offersOf.2 hw)) with hm | hm
        · exact .inl ⟨_, hm, rfl, hwu⟩
        · refine .inr ⟨?_, fun a ha => ?_⟩
          · have := hD.length_eq
            rw [List.length_append] at this
            have : 0 < D.length := List.length_pos_of_mem hm
            omega
          · have := hle a ha _ hm
            rw [← hd]; exact this
      rcases offered_of_le h hp hmd run hv hle' hne with ho | ⟨hs, ho⟩
      · exact (key v ho rfl).imp .inl id
      · exact (key _ ho (dist_neg h.rnd hs.1 v 0)).imp (fun h => .inr ⟨hs, h⟩) id
    · right
      have hlN : ¬ (offersOf s'.events).length < N := fun hc => by
        rw [k2 hc] at hle'; exact hle' hvd
      refine ⟨by omega, fun a ha => ?_⟩
      have := (k3 (by omega)).2 a ha
      push Not at hle'
      linarith

/-! ## C16 -/

/-- **C16** for arbitrary offers: the first-`N` evaluator stores everything it is given, and closes the search by
the radius 0 as soon as `N` solutions are stored. -/
theorem C16_first_closes {N : ℕ} (hN : 1 ≤ N) (md : ℚ) (offers : List Sol) :
    (runSols N .first (EvSt.new, md) offers).1.sols.Perm offers ∧
    Desc (runSols N .first (EvSt.new, md) offers).1.sols ∧
    (runSols N .first (EvSt.new, md) offers).2 = if offers.length < N then md else 0 := by
  obtain ⟨h1, h2, h3⟩ := runSols_first EvSt.new rfl md offers (N := N)
  refine ⟨h1, h2, ?_⟩
  rw [h3]
  split_ifs with c1 c2 c2
  · rfl
  · rcases c1 with rfl | c1
    · simp only [List.length_nil] at c2; omega
    · exact absurd c1 c2
  · exact absurd (.inr c2) c1
  · rfl

theorem solsOf_split {L : List Event} {A R : List ((ℕ → ℤ) × ℚ)} {o : (ℕ → ℤ) × ℚ} (h : solsOf L = A ++ o :: R) :
    ∃ L₁ L₂, L = L₁ ++ .sol o.1 o.2 :: L₂ ∧ solsOf L₁ = A := by
  unfold solsOf at *
  rw [List.filterMap_eq_append_iff] at h
  obtain ⟨L₁, L₂, rfl, h1, h2⟩ := h
  rw [List.filterMap_eq_cons_iff] at h2
  obtain ⟨M, a, M', rfl, h3, h4, h5⟩ := h2
  refine ⟨L₁ ++ M, M', ?_, ?_⟩
  · have : a = Event.sol o.1 o.2 := by
      cases a with
      | sol x d => simp only [Option.some.injEq] at h4; rw [← h4]
      | node k x d => cases h4
      | sub k x d => cases h4
    rw [this, List.append_assoc]
  · rw [List.filterMap_append, h1, List.filterMap_eq_nil_iff.2 h3, List.append_nil]

theorem within_of_split {p : Input} {E : EvalOps EvSt} {I : EvSt → ℚ → Prop} {e : EvSt} {s' : St EvSt}
    (S : EnumSpec p E I e s') {L₁ L₂ : List Event} {v : ℕ → ℤ} {δ : ℚ} (h : s'.events = L₁ ++ .sol v δ :: L₂) :
    δ ≤ setBounds p.full (L₁.foldl (evStep E) (e, p.maxdist)).2 0 := by
  have := S.within
  rw [h, within_append] at this
  exact this.2.1

/-- a vector of distance zero is found before all others -/
theorem zero_is_first {p : Input} (h : p.OK) {a b : ℕ → ℤ}
    (hab : ∃ j, j < p.K ∧ a j ≠ b j ∧ (∀ i, j < i → i < p.d → a i = b i) ∧ p.dist a j ≤ p.dist b j) : 0 < p.dist b 0 := by
  obtain ⟨j, h1, h2, h3, h4⟩ := hab
  have hKd := p.K_le
  rcases (dist_nonneg h b 0).lt_or_eq with h0 | h0
  · exact h0
  exfalso
  have hbj : p.dist b j = 0 := le_antisymm (by rw [h0]; exact dist_anti h b (Nat.zero_le j) h1.le) (dist_nonneg h b j)
  have haj : p.dist a j = 0 := le_antisymm (by rw [← hbj]; exact h4) (dist_nonneg h a j)
  have hal : ∀ u : ℕ → ℤ, p.dist u j = 0 → al p.full u j = 0 := by
    intro u hu
    exact al_zero_of_dist h h1 hu
  have e1 := hal a haj
  have e2 := hal b hbj
  rw [al, show p.full.fl = p.fl from rfl, h.rnd.eq_zero] at e1 e2
  rw [cen_congr p.full a b j (fun i hi hi' => h3 i hi hi')] at e1
  apply h2
  have : (a j : ℚ) = b j := by linarith
  exact_mod_cast this

/-- **C16** in enumeration: the first-`N` evaluator ends with the first `N` solutions met, never more; if it
has fewer, nothing was cut off: every vector within the initial bounds was offered. -/
theorem C16_enumerate_first {p : Input} {N : ℕ} (hN : 1 ≤ N) (h : p.OK) (hp : PruneOK p.cfg)
    (hmd : 0 ≤ p.maxdist) {fuel : ℕ} {s' : St EvSt}
    (run : enumerate p (fastEval N .first) fuel EvSt.new = some s') :
    s'.ev.sols.Perm (offersOf s'.events) ∧ s'.ev.sols.length ≤ N ∧ (s'.ev.sols.length < N → s'.maxdist = p.maxdist) := by
  have S := enumerate_done h (fastEval_ok hp N .first) (fastInv_new .first hmd h.mrep) run
  obtain ⟨h1, h2⟩ := fast_result S
  obtain ⟨k1, -, k3⟩ := C16_first_closes hN p.maxdist (offersOf s'.events)
  rw [← h1] at k1
  rw [← h2] at k3
  have hle : (offersOf s'.events).length ≤ N := by
    by_contra hc
    push Not at hc
    have hlen : (offersOf s'.events).length = (solsOf s'.events).length := by simp [offersOf]
    rw [hlen] at hc
    -- the offer after the first `N`
    have hsplit : solsOf s'.events = (solsOf s'.events).take N ++ (solsOf s'.events)[N] :: (solsOf s'.events).drop (N + 1) := by
      rw [← List.drop_eq_getElem_cons hc, List.take_append_drop]
    obtain ⟨L₁, L₂, hL, hL1⟩ := solsOf_split hsplit
    have hw := within_of_split S hL
    have hoff : (offersOf L₁).length = N := by
      unfold offersOf; rw [hL1, List.length_map, List.length_take]; omega
    have hmd0 : (L₁.foldl (evStep (fastEval N .first)) (EvSt.new, p.maxdist)).2 = 0 := by
      rw [(fast_fold N .first L₁ EvSt.new EvSt.new p.maxdist rfl).2, (C16_first_closes hN p.maxdist (offersOf L₁)).2.2,
        if_neg (by omega)]
    rw [hmd0] at hw
    have hb0 : setBounds p.full 0 0 = 0 := by
      unfold setBounds
      cases p.full.pruning
      · rfl
      · simp [show p.full.fl = p.fl from rfl, h.rnd.zero]
    rw [hb0] at hw
    -- there is an earlier offer
    obtain ⟨q, hq⟩ : ∃ q, q ∈ (solsOf s'.events).take N := by
      apply List.exists_mem_of_length_pos
      rw [List.length_take]; omega
    have hord := (S.order 0).sublist S.solsSub
    rw [hsplit, List.pairwise_append] at hord
    obtain ⟨j, -, g2, g3, g4, g5⟩ := hord.2.2 q hq _ List.mem_cons_self
    have := zero_is_first h ⟨j, g2, g3, g4, g5⟩
    obtain ⟨hn, -⟩ := (S.solsOk _ _).1 (mem_solsOf.1 (List.getElem_mem hc))
    have hδ : (solsOf s'.events)[N].2 = p.dist (solsOf s'.events)[N].1 0 := (S.node 0 _ _ hn).2.2.1
    rw [← hδ] at this
    linarith
  refine ⟨k1, by rw [k1.length_eq]; exact hle, fun hlt => ?_⟩
  rw [k3, if_pos (by rw [← k1.length_eq]; exact hlt)]

/-- **C16** for arbitrary offers: the opportunistic evaluator sets the radius to each offered length and keeps the
`N` shortest offers; if the offers improve, these are the last `N` in the order of arrival. -/
theorem C16_opportunistic {N : ℕ} (hN : 1 ≤ N) (md : ℚ) (offers : List Sol) :
    (runSols N .opportunistic (EvSt.new, md) offers).2 = (offers.getLast?.map (·.1)).getD md ∧
    Shortest N (runSols N .opportunistic (EvSt.new, md) offers).1.sols offers ∧
    (Desc offers → (runSols N .opportunistic (EvSt.new, md) offers).1.sols = offers.drop (offers.length - N)) :=
  ⟨(runSols_opp EvSt.new rfl md offers).2, (runSols_opp EvSt.new rfl md offers).1,
    runSols_opp_last hN EvSt.new rfl md offers⟩

theorem opp_desc {c : Cfg} (hfl : Rnd c.fl) (hp : ∀ p, c.pruning = some p → p 0 ≤ 1) {N : ℕ} {md : ℚ} (hmd : 0 ≤ md) (L : List Event)
    (hnn : ∀ v δ, Event.sol v δ ∈ L → 0 ≤ δ ∧ c.fl δ = δ) (hw : Within c (fastEval N .opportunistic) (EvSt.new, md) L) :
    Desc (offersOf L) := by
  induction L using List.reverseRecOn with
  | nil => simp [offersOf, solsOf, Desc]
  | append_singleton L a ih =>
    rw [within_append] at hw
    have hd := ih (fun v δ hm => hnn v δ (List.mem_append_left _ hm)) hw.1
    cases a with
    | node k x d =>
      have : offersOf (L ++ [Event.node k x d]) = offersOf L := by simp [offersOf, solsOf]
      rw [this]; exact hd
    | sub k x d =>
      have : offersOf (L ++ [Event.sub k x d]) = offersOf L := by simp [offersOf, solsOf]
      rw [this]; exact hd
    | sol x d =>
      have : offersOf (L ++ [Event.sol x d]) = offersOf L ++ [(d, x)] := by simp [offersOf, solsOf]
      rw [this]
      unfold Desc at *
      rw [List.pairwise_append]
      refine ⟨hd, by simp, ?_⟩
      intro q hq r hr
      rw [List.mem_singleton] at hr
      subst hr
      have h1 : d ≤ setBounds c (L.foldl (evStep (fastEval N .opportunistic)) (EvSt.new, md)).2 0 := hw.2.1
      rw [(fast_fold N .opportunistic L EvSt.new EvSt.new md rfl).2, (runSols_opp EvSt.new rfl md (offersOf L)).2] at h1
      have hne : offersOf L ≠ [] := List.ne_nil_of_mem hq
      have hlast := List.getLast_mem hne
      rw [List.getLast?_eq_some_getLast hne] at h1
      simp only [Option.map_some, Option.getD_some] at h1
      have hnn' :=
        hnn ((offersOf L).getLast hne).2 _ (List.mem_append_left _ (mem_offersOf.1 hlast))
      have h2 : setBounds c ((offersOf L).getLast hne).1 0 ≤ ((offersOf L).getLast hne).1 := by
        unfold setBounds
        cases hc : c.pruning with
        | none => exact le_rfl
        | some p =>
          have := hp p hc
          calc c.fl (p 0 * ((offersOf L).getLast hne).1) ≤ c.fl ((offersOf L).getLast hne).1 :=
                hfl.mono (by nlinarith [hnn'.1])
            _ = _ := hnn'.2
      have h3 : ((offersOf L).getLast hne).1 ≤ q.1 := by
        have hsp := List.dropLast_append_getLast hne
        rw [← hsp] at hq hd
        rw [List.pairwise_append] at hd
        rcases List.mem_append.1 hq with hq | hq
        · exact hd.2.2 q hq _ (by simp)
        · rw [List.mem_singleton] at hq; rw [hq]
      exact h1.trans (h2.trans h3)

/-- **C16** in enumeration: with the opportunistic evaluator every solution is at most as long as those before it,
the last `N` are kept, and the radius is the length of the last one. -/
theorem C16_enumerate_opportunistic {p : Input} {N : ℕ} (hN : 1 ≤ N) (h : p.OK) (hp : PruneOK p.cfg)
    (hmd : 0 ≤ p.maxdist) {fuel : ℕ} {s' : St EvSt}
    (run : enumerate p (fastEval N .opportunistic) fuel EvSt.new = some s') :
    Desc (offersOf s'.events) ∧
    s'.ev.sols = (offersOf s'.events).drop ((offersOf s'.events).length - N) ∧
    s'.maxdist = ((offersOf s'.events).getLast?.map (·.1)).getD p.maxdist := by
  have S := enumerate_done h (fastEval_ok hp N .opportunistic) (fastInv_new .opportunistic hmd h.mrep) run
  obtain ⟨h1, h2⟩ := fast_result S
  have hd : Desc (offersOf s'.events) := by
    refine opp_desc (c := p.full) h.rnd (fun q hq => (hp.2 q hq).2) hmd s'.events ?_ S.within
    intro v δ hm
    obtain ⟨hn, -⟩ := (S.solsOk v δ).1 hm
    rw [(S.node 0 v δ hn).2.2.1]
    exact ⟨dist_nonneg h v 0, dist_rep h v 0⟩
  obtain ⟨k1, -, k3⟩ := C16_opportunistic hN p.maxdist (offersOf s'.events)
  exact ⟨hd, by rw [h1, k3 hd], by rw [h2, k1]⟩

/-- **C16** hence without pruning the last solution is a shortest one. -/
theorem C16_opportunistic_shortest {p : Input} {N : ℕ} (hN : 1 ≤ N) (h : p.OK) (hp : p.pruning = none)
    (hmd : 0 ≤ p.maxdist) {fuel : ℕ} {s' : St EvSt}
    (run : enumerate p (fastEval N .opportunistic) fuel EvSt.new = some s') {v : ℕ → ℤ} (hv : p.Agrees v)
    (hne : p.Symm → ∃ j, j < p.d ∧ v j ≠ 0) (hle : p.dist v 0 ≤ p.maxdist) :
    ∃ a, s'.ev.sols.getLast? = some a ∧ a.1 ≤ p.dist v 0 := by
  obtain ⟨h1, h2, h3⟩ := C16_enumerate_opportunistic hN h (pruneOK_none h hp) hmd run
  have hlast : ∀ o, (offersOf s'.events).getLast? = some o → s'.ev.sols.getLast? = some o := by
    intro o ho
    rw [h2, List.getLast?_drop, if_neg, ho]
    have : offersOf s'.events ≠ [] := by rintro h0; rw [h0] at ho; simp at ho
    have := List.length_pos_of_ne_nil this
    omega
  cases hg : (offersOf s'.events).getLast? with
  | none =>
    exfalso
    rw [hg] at h3
    have hnil := List.getLast?_eq_none_iff.1 hg
    have h4 : p.dist v 0 ≤ s'.maxdist := by rw [h3]; exact hle
    rcases offered_of_le h hp hmd run hv h4 hne with ⟨w, hw, -⟩ | ⟨-, w, hw, -⟩
    · rw [← mem_offersOf, hnil] at hw; cases hw
    · rw [← mem_offersOf, hnil] at hw; cases hw
  | some o =>
    refine ⟨o, hlast o hg, ?_⟩
    rw [hg] at h3
    simp only [Option.map_some, Option.getD_some] at h3
    by_contra hc
    push Not at hc
    have hmem := List.mem_of_getLast? hg
    have hmin : ∀ q ∈ offersOf s'.events, o.1 ≤ q.1 := by
      intro q hq
      have hne' : offersOf s'.events ≠ [] := List.ne_nil_of_mem hq
      have hsp := List.dropLast_append_getLast hne'
      have ho : (offersOf s'.events).getLast hne' = o := by
        rw [List.getLast?_eq_some_getLast hne'] at hg
        exact Option.some.inj hg
      rw [ho] at hsp
      unfold Desc at h1
      rw [← hsp] at hq h1
      rw [List.pairwise_append] at h1
      rcases List.mem_append.1 hq with hq | hq
      · exact h1.2.2 q hq _ (by simp)
      · rw [List.mem_singleton] at hq; rw [hq]
    rcases offered_of_le h hp hmd run hv (by rw [h3]; exact hc.le) hne with ⟨w, hw, -⟩ | ⟨hs, w, hw, -⟩
    · have := hmin _ (mem_offersOf.2 hw)
      simp only at this
      linarith
    · have := hmin _ (mem_offersOf.2 hw)
      simp only at this
      rw [dist_neg h.rnd hs.1] at this
      linarith

/-! ## Non-vacuity -/

/-- the integer lattice of dimension 2 with radius 2: four pairs of vectors -/
def z2r2 : Input := { z2 with maxdist := 2 }

theorem z2r2_ok : z2r2.OK where
  rnd := Rnd.id
  mrep := rfl
  rpos _ _ := show (0 : ℚ) < 1 by norm_num
  sublen := by decide
  dualOK h := by cases h
  prune k _ := by simp [setBounds, Input.full, z2r2, z2]

example : ∃ s', enumerate z2r2 (fastEval 2 .best) 10 EvSt.new = some s' ∧ s'.ev.sols.map (·.1) = [1, 1] := by
  have h : (enumerate z2r2 (fastEval 2 .best) 10 EvSt.new).map (fun s => decide (s.ev.sols.map (·.1) = [1, 1])) =
      some true := by decide +kernel
  obtain ⟨s', hs, h1⟩ := Option.map_eq_some_iff.1 h
  exact ⟨s', hs, by simpa using h1⟩

example : ∃ s', enumerate z2r2 (fastEval 3 .first) 10 EvSt.new = some s' ∧ s'.ev.sols.map (·.1) = [2, 1, 1] := by
  have h : (enumerate z2r2 (fastEval 3 .first) 10 EvSt.new).map (fun s => decide (s.ev.sols.map (·.1) = [2, 1, 1])) =
      some true := by decide +kernel
  obtain ⟨s', hs, h1⟩ := Option.map_eq_some_iff.1 h
  exact ⟨s', hs, by simpa using h1⟩

example : ∃ s', enumerate z2r2 (fastEval 1 .opportunistic) 10 EvSt.new = some s' ∧ s'.ev.sols.map (·.1) = [1] := by
  have h : (enumerate z2r2 (fastEval 1 .opportunistic) 10 EvSt.new).map (fun s => decide (s.ev.sols.map (·.1) = [1])) =
      some true := by decide +kernel
  obtain ⟨s', hs, h1⟩ := Option.map_eq_some_iff.1 h
  exact ⟨s', hs, by simpa using h1⟩

/-- Outside enumeration the first-`N` evaluator would keep more than `N`: it relies on the radius 0. -/
example : (runSols 1 .first (EvSt.new, 5) [(1, fun _ => 1), (0, fun _ => 0)]).1.sols.length = 2 := by decide +kernel

end Enum
end Fplll

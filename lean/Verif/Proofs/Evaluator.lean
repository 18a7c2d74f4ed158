import Mathlib.Data.List.Sort
import Verif.Model.Evaluator
import Verif.Proofs.EnumMain

/-!
# What the evaluators store
-/

namespace Fplll
namespace Enum

/-- a solution offered to an evaluator: distance and coordinates -/
abbrev Sol := ℚ × (ℕ → ℤ)

/-- longest first -/
def Desc (L : List Sol) : Prop := L.Pairwise fun a b => b.1 ≤ a.1

theorem emplace_perm (d : ℚ) (x : ℕ → ℤ) (L : List Sol) : (emplace d x L).Perm ((d, x) :: L) := by
  induction L with
  | nil => exact List.Perm.refl _
  | cons p L ih =>
    unfold emplace
    split_ifs
    · exact (ih.cons p).trans (List.Perm.swap _ _ _)
    · exact List.Perm.refl _

theorem emplace_length (d : ℚ) (x : ℕ → ℤ) (L : List Sol) : (emplace d x L).length = L.length + 1 := by
  rw [(emplace_perm d x L).length_eq]; rfl

theorem emplace_desc (d : ℚ) (x : ℕ → ℤ) (L : List Sol) (h : Desc L) : Desc (emplace d x L) := by
  unfold Desc at *
  induction L with
  | nil => simp [emplace]
  | cons p L ih =>
    rw [List.pairwise_cons] at h
    unfold emplace
    split_ifs with hp
    · rw [List.pairwise_cons]
      refine ⟨?_, ih h.2⟩
      intro q hq
      rcases List.mem_cons.1 ((emplace_perm d x L).mem_iff.1 hq) with rfl | hq
      · exact hp
      · exact h.1 q hq
    · rw [List.pairwise_cons, List.pairwise_cons]
      refine ⟨?_, h⟩
      intro q hq
      have hp' := (not_le.1 hp).le
      rcases List.mem_cons.1 hq with rfl | hq
      · exact hp'
      · exact (h.1 q hq).trans hp'

theorem emplace_ne_nil (d : ℚ) (x : ℕ → ℤ) (L : List Sol) : emplace d x L ≠ [] := by
  intro h
  have := emplace_length d x L
  rw [h] at this
  simp at this

/-- inserting a smallest element appends it -/
theorem emplace_last (d : ℚ) (x : ℕ → ℤ) (L : List Sol) (h : ∀ p ∈ L, d ≤ p.1) : emplace d x L = L ++ [(d, x)] := by
  induction L with
  | nil => rfl
  | cons p L ih =>
    rw [emplace, if_pos (h p (by simp)), ih (fun q hq => h q (by simp [hq]))]
    rfl

/-- offering a list of solutions one after the other -/
def runSols (N : ℕ) (strat : Strategy) (t : EvSt × ℚ) (offers : List Sol) : EvSt × ℚ :=
  offers.foldl (fun t o => processSol N strat t.1 o.1 o.2 t.2) t

theorem runSols_concat (N : ℕ) (strat : Strategy) (t : EvSt × ℚ) (L : List Sol) (o : Sol) :
    runSols N strat t (L ++ [o]) =
      processSol N strat (runSols N strat t L).1 o.1 o.2 (runSols N strat t L).2 := by
  simp [runSols]

/-- `K` are the `N` shortest elements of `L` (all of them if there are fewer). -/
structure Shortest (N : ℕ) (K L : List Sol) : Prop where
  len : K.length = min N L.length
  desc : Desc K
  drop : ∃ D, (K ++ D).Perm L ∧ ∀ a ∈ K, ∀ b ∈ D, a.1 ≤ b.1

/-- one more offer, then dropping the longest if there are too many -/
theorem Shortest.step {N : ℕ} {K L : List Sol} (h : Shortest N K L) (o : Sol) :
    Shortest N (if (emplace o.1 o.2 K).length > N then (emplace o.1 o.2 K).tail else emplace o.1 o.2 K) (L ++ [o]) := by
  have hd := emplace_desc o.1 o.2 K h.desc
  have hp := emplace_perm o.1 o.2 K
  have hl := emplace_length o.1 o.2 K
  obtain ⟨D, hD, hle⟩ := h.drop
  have hlen := h.len
  split_ifs with hc
  · -- full before
    have hKN : K.length = N := by
      have : K.length ≤ N := by rw [hlen]; exact min_le_left _ _
      omega
    cases hE : emplace o.1 o.2 K with
    | nil => exact absurd hE (emplace_ne_nil _ _ _)
    | cons q T =>
      rw [hE] at hd hp hl
      simp only [List.tail_cons]
      have hT : Desc T := by unfold Desc at *; exact (List.pairwise_cons.1 hd).2
      have hq : ∀ a ∈ T, a.1 ≤ q.1 := (List.pairwise_cons.1 hd).1
      refine ⟨?_, hT, q :: D, ?_, ?_⟩
      · simp only [List.length_cons] at hl
        rw [List.length_append]
        simp only [List.length_cons, List.length_nil]
        omega
      · have h1 : (T ++ q :: D).Perm (q :: T ++ D) := by
          simp only [List.cons_append]
          exact List.perm_middle
        refine h1.trans ((hp.append_right D).trans ?_)
        simp only [List.cons_append]
        exact (hD.cons _).trans (List.perm_append_singleton _ _).symm
      · intro a ha b hb
        rcases List.mem_cons.1 hb with rfl | hb
        · exact hq a ha
        · -- `a` is an old element, or the new one which is at most `q`
          have hqm := hp.mem_iff.1 (List.mem_cons_self (a := q) (l := T))
          rcases List.mem_cons.1 (hp.mem_iff.1 (List.mem_cons_of_mem q ha)) with h1 | h1
          · rcases List.mem_cons.1 hqm with h2 | h2
            · -- the dropped one is the new one, so `a` is not
              have hTK : T.Perm K := by
                have := hp
                rw [← show q = o from h2] at this
                exact List.Perm.cons_inv this
              exact hle a (hTK.mem_iff.1 ha) b hb
            · exact (hq a ha).trans (hle q h2 b hb)
          · exact hle a h1 b hb
  · have hKL : K.length = L.length := by
      rw [hl] at hc
      omega
    have hD0 : D = [] := by
      have := hD.length_eq
      rw [List.length_append] at this
      exact List.eq_nil_of_length_eq_zero (by omega)
    subst hD0
    refine ⟨?_, hd, [], ?_, by simp⟩
    · rw [hl, List.length_append]
      simp only [List.length_cons, List.length_nil]
      rw [hl] at hc
      omega
    · rw [List.append_nil] at hD ⊢
      exact hp.trans ((hD.cons _).trans (List.perm_append_singleton _ _).symm)

theorem Shortest.nil (N : ℕ) : Shortest N [] [] := ⟨by simp, List.Pairwise.nil, [], by simp, by simp⟩

theorem runSols_best {N : ℕ} (hN : 1 ≤ N) (e : EvSt) (he : e.sols = []) (md : ℚ) (offers : List Sol) :
    Shortest N (runSols N .best (e, md) offers).1.sols offers ∧
    (runSols N .best (e, md) offers).2 =
      if offers.length < N then md else ((runSols N .best (e, md) offers).1.sols.head?.map (·.1)).getD 0 := by
  induction offers using List.reverseRecOn with
  | nil =>
    refine ⟨by simpa [runSols, he] using Shortest.nil N, ?_⟩
    simp [runSols, show 0 < N by omega]
  | append_singleton L o ih =>
    obtain ⟨h1, h2⟩ := ih
    have hs := h1.step o
    rw [runSols_concat]
    have hl := emplace_length o.1 o.2 (runSols N .best (e, md) L).1.sols
    have hlen := h1.len
    unfold processSol
    simp only
    split_ifs at hs ⊢ with c1 c2 c3 c4 c5
    all_goals first
      | (exfalso; simp only [List.length_append, List.length_cons, List.length_nil] at *; omega)
      | skip
    · refine ⟨hs, ?_⟩
      simp only
      rw [h2, if_pos (by simp only [List.length_append, List.length_cons, List.length_nil] at c2; omega)]
    · refine ⟨hs, ?_⟩
      simp only
      cases hE : (emplace o.1 o.2 (runSols N .best (e, md) L).1.sols).tail with
      | nil =>
        rw [hE] at hs
        have := hs.len
        simp only [List.length_append, List.length_cons, List.length_nil] at this
        omega
      | cons q T => simp
    · refine ⟨hs, ?_⟩
      simp only
      cases hE : emplace o.1 o.2 (runSols N .best (e, md) L).1.sols with
      | nil => exact absurd hE (emplace_ne_nil _ _ _)
      | cons q T => simp

theorem runSols_first {N : ℕ} (e : EvSt) (he : e.sols = []) (md : ℚ) (offers : List Sol) :
    (runSols N .first (e, md) offers).1.sols.Perm offers ∧ Desc (runSols N .first (e, md) offers).1.sols ∧
    (runSols N .first (e, md) offers).2 = if offers = [] ∨ offers.length < N then md else 0 := by
  induction offers using List.reverseRecOn with
  | nil => simp [runSols, he, Desc]
  | append_singleton L o ih =>
    obtain ⟨h1, h2, h3⟩ := ih
    have hd := emplace_desc o.1 o.2 _ h2
    have hp := emplace_perm o.1 o.2 (runSols N .first (e, md) L).1.sols
    have hp' := hp.trans ((h1.cons _).trans (List.perm_append_singleton o L).symm)
    rw [runSols_concat]
    unfold processSol
    simp only
    have hl := hp'.length_eq
    split_ifs with c1 c2 c3
    · refine ⟨hp', hd, ?_⟩
      simp only
      rw [h3, if_pos]
      right
      simp only [List.length_append, List.length_cons, List.length_nil] at hl
      omega
    · rw [hl] at c1; exact absurd (Or.inr c1) c2
    · rcases c3 with c3 | c3
      · simp at c3
      · rw [hl] at c1; exact absurd c3 c1
    · exact ⟨hp', hd, rfl⟩

theorem runSols_opp {N : ℕ} (e : EvSt) (he : e.sols = []) (md : ℚ) (offers : List Sol) :
    Shortest N (runSols N .opportunistic (e, md) offers).1.sols offers ∧
    (runSols N .opportunistic (e, md) offers).2 = (offers.getLast?.map (·.1)).getD md := by
  induction offers using List.reverseRecOn with
  | nil =>
    refine ⟨by simpa [runSols, he] using Shortest.nil N, ?_⟩
    simp [runSols]
  | append_singleton L o ih =>
    obtain ⟨h1, h2⟩ := ih
    have hs := h1.step o
    rw [runSols_concat]
    unfold processSol
    simp only
    split_ifs at hs ⊢ with c1 c2 c3
    · omega
    · exact ⟨hs, by simp⟩
    · exact ⟨hs, by simp⟩
    · omega

/-- with improving offers, the opportunistic strategy keeps the last `N` in the order of arrival -/
theorem runSols_opp_last {N : ℕ} (hN : 1 ≤ N) (e : EvSt) (he : e.sols = []) (md : ℚ) (offers : List Sol)
    (ho : Desc offers) :
    (runSols N .opportunistic (e, md) offers).1.sols = offers.drop (offers.length - N) := by
  induction offers using List.reverseRecOn with
  | nil => simp [runSols, he]
  | append_singleton L o ih =>
    unfold Desc at *
    rw [List.pairwise_append] at ho
    have h1 := ih ho.1
    rw [runSols_concat]
    have hem : emplace o.1 o.2 (runSols N .opportunistic (e, md) L).1.sols = L.drop (L.length - N) ++ [o] := by
      rw [h1]
      exact emplace_last o.1 o.2 _ (fun p hp => ho.2.2 p (List.mem_of_mem_drop hp) o (by simp))
    unfold processSol
    simp only [hem]
    have hl : (L.drop (L.length - N) ++ [o]).length = min N L.length + 1 := by
      simp only [List.length_append, List.length_drop, List.length_cons, List.length_nil]; omega
    rw [hl]
    have hlen : (L ++ [o]).length = L.length + 1 := by simp
    split_ifs with c1
    · simp only
      rw [hlen, List.drop_append_of_le_length (by omega)]
      rw [show L.length + 1 - N = 0 by omega, show L.length - N = 0 by omega]
    · simp only
      rw [hlen, List.drop_append_of_le_length (by omega), show L.length + 1 - N = L.length - N + 1 by omega,
        ← List.drop_drop]
      have hne : (L.drop (L.length - N)) ≠ [] := by
        intro h0
        have := congrArg List.length h0
        rw [List.length_drop, List.length_nil] at this
        omega
      rw [List.tail_append_of_ne_nil hne, List.drop_one]

/-! ## Evaluators within the enumeration -/

/-- the offers recorded in a list of events -/
def offersOf (L : List Event) : List Sol := (solsOf L).map fun p => (p.2, p.1)

theorem fastEvalSub_sols (e : EvSt) (k : ℕ) (x : ℕ → ℤ) (d : ℚ) :
    (fastEvalSub e k x d).sols = e.sols ∧ (fastEvalSub e k x d).count = e.count := by
  unfold fastEvalSub
  simp only
  split
  · exact ⟨rfl, rfl⟩
  · split_ifs <;> exact ⟨rfl, rfl⟩

theorem processSol_congr (N : ℕ) (strat : Strategy) (e e' : EvSt) (d : ℚ) (x : ℕ → ℤ) (md : ℚ) (h : e.sols = e'.sols) :
    (processSol N strat e d x md).1.sols = (processSol N strat e' d x md).1.sols ∧
      (processSol N strat e d x md).2 = (processSol N strat e' d x md).2 := by
  unfold processSol
  cases strat <;> simp only [h] <;> split_ifs <;> exact ⟨rfl, rfl⟩

/-- the events of an enumeration act on the stored solutions like the sequence of offers -/
theorem fast_fold (N : ℕ) (strat : Strategy) (L : List Event) : ∀ (e e' : EvSt) (md : ℚ), e.sols = e'.sols →
    (L.foldl (evStep (fastEval N strat)) (e, md)).1.sols = (runSols N strat (e', md) (offersOf L)).1.sols ∧
      (L.foldl (evStep (fastEval N strat)) (e, md)).2 = (runSols N strat (e', md) (offersOf L)).2 := by
  induction L with
  | nil => intro e e' md h; simp [offersOf, solsOf, runSols, h]
  | cons a L ih =>
    intro e e' md h
    rw [List.foldl_cons]
    cases a with
    | node k x d =>
      have : offersOf (Event.node k x d :: L) = offersOf L := by simp [offersOf, solsOf]
      rw [this]
      exact ih e e' md h
    | sub k x d =>
      have : offersOf (Event.sub k x d :: L) = offersOf L := by simp [offersOf, solsOf]
      rw [this]
      exact ih _ e' md (by rw [← h]; exact (fastEvalSub_sols e k x d).1)
    | sol x d =>
      have : offersOf (Event.sol x d :: L) = (d, x) :: offersOf L := by simp [offersOf, solsOf]
      rw [this]
      obtain ⟨h1, h2⟩ := processSol_congr N strat e e' d x md h
      have h3 : evStep (fastEval N strat) (e, md) (.sol x d) =
          ((processSol N strat e d x md).1, (processSol N strat e d x md).2) := rfl
      have h4 : runSols N strat (e', md) ((d, x) :: offersOf L) =
          runSols N strat ((processSol N strat e' d x md).1, (processSol N strat e' d x md).2) (offersOf L) := rfl
      rw [h3, h4, h2]
      exact ih _ _ _ h1

/-- Invariant of an evaluator during enumeration: with the best-`N` strategy nothing stored is longer
than the radius; everything is representable. -/
def FastInv (fl : ℚ → ℚ) (strat : Strategy) (e : EvSt) (md : ℚ) : Prop :=
  (0 ≤ md ∧ fl md = md) ∧ (strat = .best → Desc e.sols ∧ ∀ p ∈ e.sols, (0 ≤ p.1 ∧ fl p.1 = p.1) ∧ p.1 ≤ md)

/-- what is needed of pruning coefficients (and of the rounding) -/
def PruneOK (c : Cfg) : Prop := Rnd c.fl ∧ ∀ p, c.pruning = some p → (∀ k, k < c.K → 0 ≤ p k) ∧ p 0 ≤ 1

theorem setBounds_mono {c : Cfg} (hp : PruneOK c) {a b : ℚ} (h : a ≤ b) (k : ℕ) (hk : k < c.K) :
    setBounds c a k ≤ setBounds c b k := by
  unfold setBounds
  cases hc : c.pruning with
  | none => exact h
  | some p => exact hp.1.mono (mul_le_mul_of_nonneg_left h ((hp.2 p hc).1 k hk))

theorem processSol_inv {fl : ℚ → ℚ} (hfl : fl 0 = 0) {N : ℕ} {strat : Strategy} {e : EvSt} {md d : ℚ} (x : ℕ → ℤ)
    (hi : FastInv fl strat e md) (hd : 0 ≤ d ∧ fl d = d) (hdm : d ≤ md) :
    FastInv fl strat (processSol N strat e d x md).1 (processSol N strat e d x md).2 ∧
      (processSol N strat e d x md).2 ≤ md := by
  obtain ⟨h1, h23⟩ := hi
  unfold processSol
  cases strat with
  | best =>
    obtain ⟨h2, h3⟩ := h23 rfl
    have hp := emplace_perm d x e.sols
    have hD := emplace_desc d x e.sols h2
    have hm : ∀ p ∈ emplace d x e.sols, (0 ≤ p.1 ∧ fl p.1 = p.1) ∧ p.1 ≤ md := by
      intro p hpm
      rcases List.mem_cons.1 (hp.mem_iff.1 hpm) with rfl | hpm
      · exact ⟨hd, hdm⟩
      · exact h3 p hpm
    have htail : Desc (emplace d x e.sols).tail := by
      unfold Desc at *; exact hD.tail
    have hhead : ∀ L : List Sol, Desc L → (∀ p ∈ L, (0 ≤ p.1 ∧ fl p.1 = p.1) ∧ p.1 ≤ md) →
        FastInv fl .best { e with sols := L, count := e.count + 1 } ((L.head?.map (·.1)).getD md) ∧
        (L.head?.map (·.1)).getD md ≤ md := by
      intro L hL hLm
      cases L with
      | nil => exact ⟨⟨h1, fun _ => ⟨hL, by simp⟩⟩, le_rfl⟩
      | cons q T =>
        have hq := hLm q (by simp)
        refine ⟨⟨by simpa using hq.1, fun _ => ⟨hL, ?_⟩⟩, by simpa using hq.2⟩
        intro p hpm
        refine ⟨(hLm p hpm).1, ?_⟩
        simp only [List.head?_cons, Option.map_some, Option.getD_some]
        rcases List.mem_cons.1 hpm with rfl | hpm
        · exact le_rfl
        · exact (List.pairwise_cons.1 hL).1 p hpm
    simp only
    split_ifs with c1 c2
    · exact ⟨⟨h1, fun _ => ⟨hD, hm⟩⟩, le_rfl⟩
    · exact hhead _ htail (fun p hpm => hm p (List.mem_of_mem_tail hpm))
    · exact hhead _ hD hm
  | opportunistic =>
    simp only
    split_ifs
    · exact ⟨⟨hd, fun h => by cases h⟩, hdm⟩
    · exact ⟨⟨hd, fun h => by cases h⟩, hdm⟩
  | first =>
    simp only
    split_ifs
    · exact ⟨⟨h1, fun h => by cases h⟩, le_rfl⟩
    · exact ⟨⟨⟨le_rfl, hfl⟩, fun h => by cases h⟩, h1.1⟩

theorem fastEvalSub_inv {fl : ℚ → ℚ} {strat : Strategy} {e : EvSt} {md : ℚ} (h : FastInv fl strat e md) (k : ℕ)
    (x : ℕ → ℤ) (d : ℚ) : FastInv fl strat (fastEvalSub e k x d) md := by
  unfold FastInv
  rw [(fastEvalSub_sols e k x d).1]
  exact h

theorem bound0_le {c : Cfg} (hp : PruneOK c) {md : ℚ} (h : 0 ≤ md ∧ c.fl md = md) : setBounds c md 0 ≤ md := by
  unfold setBounds
  cases hc : c.pruning with
  | none => exact le_rfl
  | some p =>
    have := (hp.2 p hc).2
    calc c.fl (p 0 * md) ≤ c.fl md := hp.1.mono (by nlinarith [h.1])
      _ = md := h.2

/-- `FastEvaluator` never enlarges the bounds, whatever its strategy and size -/
theorem fastEval_ok {c : Cfg} (hp : PruneOK c) (N : ℕ) (strat : Strategy) :
    EvalOK c (fastEval N strat) (FastInv c.fl strat) where
  sol e md x d hi hd hr hdm := by
    have h := processSol_inv hp.1.zero (N := N) x hi ⟨hd, hr⟩ (hdm.trans (bound0_le hp hi.1))
    exact ⟨h.1, fun k hk => setBounds_mono hp h.2 k hk⟩
  sub e md l x d hi := fastEvalSub_inv hi l x d

/-- neither does `CallbackEvaluator`, whatever the callback -/
theorem callbackEval_ok {τ : Type} {c : Cfg} (hp : PruneOK c) (cb : τ → (ℕ → ℤ) → Bool × τ) (N : ℕ)
    (strat : Strategy) : EvalOK c (callbackEval cb N strat) (fun t md => FastInv c.fl strat t.2 md) where
  sol t md x d hi hd hr hdm := by
    have h := processSol_inv hp.1.zero (N := N) x hi ⟨hd, hr⟩ (hdm.trans (bound0_le hp hi.1))
    unfold callbackEval
    simp only
    split_ifs
    · exact ⟨h.1, fun k hk => setBounds_mono hp h.2 k hk⟩
    · exact ⟨hi, fun k _ => le_rfl⟩
  sub t md l x d hi := fastEvalSub_inv hi l x d

theorem fastInv_new {fl : ℚ → ℚ} (strat : Strategy) {md : ℚ} (h : 0 ≤ md) (hr : fl md = md) :
    FastInv fl strat EvSt.new md :=
  ⟨⟨h, hr⟩, fun _ => ⟨List.Pairwise.nil, by simp [EvSt.new]⟩⟩

/-- the sub-solutions kept by the evaluator are the last ones reported, if they improve -/
theorem fast_subs (N : ℕ) (strat : Strategy) (l : ℕ) (L : List Event) :
    ∀ (t : EvSt × ℚ), (subsAt l L).Pairwise (fun a b => b.2 < a.2) →
      (∀ q, t.1.subs l = some q → ∀ a ∈ subsAt l L, a.2 < q.1) →
      (∀ fx d, Event.sub l fx d ∈ L → ∀ i, i < l → fx i = 0) →
      (L.foldl (evStep (fastEval N strat)) t).1.subs l =
        match (subsAt l L).getLast? with
        | none => t.1.subs l
        | some a => some (a.2, a.1) := by
  induction L with
  | nil => intro t _ _ _; simp [subsAt]
  | cons a L ih =>
    intro t h1 h2 h3
    rw [List.foldl_cons]
    have h3' : ∀ fx d, Event.sub l fx d ∈ L → ∀ i, i < l → fx i = 0 :=
      fun fx d hm => h3 fx d (List.mem_cons_of_mem _ hm)
    cases a with
    | node k x d =>
      have hc : subsAt l (Event.node k x d :: L) = subsAt l L := by simp [subsAt]
      rw [hc] at h1 h2 ⊢
      exact ih t h1 h2 h3'
    | sol x d =>
      have hc : subsAt l (Event.sol x d :: L) = subsAt l L := by simp [subsAt]
      rw [hc] at h1 h2 ⊢
      have hs : (evStep (fastEval N strat) t (.sol x d)).1.subs = t.1.subs := by
        change (processSol N strat t.1 d x t.2).1.subs = _
        unfold processSol
        cases strat <;> simp only <;> split_ifs <;> rfl
      rw [ih _ h1 (by rw [hs]; exact h2) h3', hs]
    | sub k x d =>
      by_cases hk : k = l
      · subst hk
        have hc : subsAt k (Event.sub k x d :: L) = (x, d) :: subsAt k L := by simp [subsAt]
        rw [hc] at h1 h2 ⊢
        rw [List.pairwise_cons] at h1
        have hx : (fun i => if i < k then 0 else x i) = x := by
          funext i
          split_ifs with hi
          · exact (h3 x d (by simp) i hi).symm
          · rfl
        have hs : (evStep (fastEval N strat) t (.sub k x d)).1.subs k = some (d, x) := by
          change (fastEvalSub t.1 k x d).subs k = _
          unfold fastEvalSub
          simp only [hx]
          cases hq : t.1.subs k with
          | none => simp [setAt]
          | some q =>
            have := h2 q hq (x, d) (by simp)
            simp only at this ⊢
            rw [if_pos this]
            simp [setAt]
        rw [ih _ h1.2 (by
          intro q hq a ha
          rw [hs] at hq
          cases hq
          exact h1.1 a ha) h3', hs, List.getLast?_cons]
        cases (subsAt k L).getLast? <;> simp
      · have hc : subsAt l (Event.sub k x d :: L) = subsAt l L := by simp [subsAt, hk]
        rw [hc] at h1 h2 ⊢
        have hs : (evStep (fastEval N strat) t (.sub k x d)).1.subs l = t.1.subs l := by
          change (fastEvalSub t.1 k x d).subs l = _
          unfold fastEvalSub
          simp only
          split
          · simp [setAt, Ne.symm hk]
          · split_ifs
            · simp [setAt, Ne.symm hk]
            · rfl
        rw [ih _ h1 (by rw [hs]; exact h2) h3', hs]

end Enum
end Fplll

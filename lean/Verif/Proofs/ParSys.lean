import Verif.Proofs.ParWalk

/-!
# The parallel enumeration as a whole
-/

open Finset

namespace Fplll
namespace Par

open Enum (setAt setAt2 EvalOps psum pd cen Enough)

variable {σ : Type}

/-! ## The stages of the master -/

/-- the last column of the partial sums is never written -/
def Col (c : Cfg) (s : Loc) : Prop := ∀ i, s.sig i (c.N - 1) = 0

/-- reported vector and length -/
def Ev.item (e : Ev) : Item := (e.1, e.2.1)

theorem collect_spec {α : Type} {A : ℚ} {w : Walk α} {Q : List Ev → α → Prop} (h : wp A w Q) :
    ∃ tr a, collect A w = some (tr.map Ev.item, a) ∧ Q tr a ∧ lastA A tr = A := by
  induction w generalizing Q with
  | ret a => exact ⟨[], a, rfl, h, rfl⟩
  | stuck => exact h.elim
  | offer x l k ih =>
    obtain ⟨tr, a, h1, h2, h3⟩ := ih A (h A le_rfl)
    refine ⟨(x, l, A) :: tr, a, ?_, h2, h3⟩
    simp only [collect, h1, Option.map_some, List.map_cons]
    rfl

/-- two vectors differ in a coordinate from `m` on -/
def Diff (c : Cfg) (m : ℕ) (u v : ℕ → ℤ) : Prop := ∃ j, m ≤ j ∧ j < c.N ∧ u j ≠ v j

theorem Diff.symm {c : Cfg} {m : ℕ} {u v : ℕ → ℤ} (h : Diff c m u v) : Diff c m v u := by
  obtain ⟨j, h1, h2, h3⟩ := h
  exact ⟨j, h1, h2, h3.symm⟩

theorem Diff.agree {c : Cfg} {m n : ℕ} {u v u' v' : ℕ → ℤ} (h : Diff c m u v) (hu : Agree c m u u') (hv : Agree c m v v')
    (hn : n ≤ m) : Diff c n u' v' := by
  obtain ⟨j, h1, h2, h3⟩ := h
  exact ⟨j, by omega, h2, by rw [hu j h1 h2, hv j h1 h2]; exact h3⟩

/-- levels `lo, …, hi - 1` of `v` are within the bounds for `A` and on the enumerated side -/
def Within (c : Cfg) (A : ℚ) (lo hi : ℕ) (v : ℕ → ℤ) : Prop :=
  (∀ j, lo ≤ j → j < hi → plen c v j ≤ c.bnd A j) ∧ ∀ j, lo ≤ j → j < hi → plen c v (j + 1) = 0 → 0 ≤ v j

theorem Within.agree {c : Cfg} {A : ℚ} {lo hi : ℕ} {u v : ℕ → ℤ} (h : Within c A lo hi u) (ha : Agree c lo u v)
    (hi' : hi ≤ c.N) : Within c A lo hi v := by
  refine ⟨fun j h1 h2 => ?_, fun j h1 h2 h3 => ?_⟩
  · rw [ha.plen h1]; exact h.1 j h1 h2
  · rw [ha.plen (by omega)] at h3
    rw [ha j h1 (by omega)]
    exact h.2 j h1 h2 h3

theorem Within.mono {c : Cfg} (hc : CfgOK c) {A B : ℚ} {lo hi : ℕ} {v : ℕ → ℤ} (h : Within c A lo hi v) (hAB : A ≤ B)
    (hi' : hi ≤ c.N) : Within c B lo hi v :=
  ⟨fun j h1 h2 => (h.1 j h1 h2).trans (hc.bnd_mono hAB (by omega)), h.2⟩

theorem Within.sub {c : Cfg} {A : ℚ} {lo hi lo' hi' : ℕ} {v : ℕ → ℤ} (h : Within c A lo hi v) (h1 : lo ≤ lo') (h2 : hi' ≤ hi) :
    Within c A lo' hi' v :=
  ⟨fun j h3 h4 => h.1 j (by omega) (by omega), fun j h3 h4 => h.2 j (by omega) (by omega)⟩

theorem Within.join {c : Cfg} {A : ℚ} {lo mid hi : ℕ} {v : ℕ → ℤ} (h : Within c A lo mid v) (g : Within c A mid hi v) :
    Within c A lo hi v := by
  refine ⟨fun j h1 h2 => ?_, fun j h1 h2 => ?_⟩
  · rcases Nat.lt_or_ge j mid with h3 | h3
    · exact h.1 j h1 h3
    · exact g.1 j h3 h2
  · rcases Nat.lt_or_ge j mid with h3 | h3
    · exact h.2 j h1 h3
    · exact g.2 j h3 h2

/-- items that cover `P`, by their coordinates from `bot` on -/
structure ICov (c : Cfg) (bot hi : ℕ) (P : (ℕ → ℤ) → Prop) (L : List Item) : Prop where
  sound : ∀ it ∈ L, P it.1 ∧ it.2 = plen c it.1 bot ∧ Within c c.maxdist bot hi it.1
  comp : ∀ v, P v → Within c c.maxdist bot hi v → ∃ it ∈ L, Agree c bot it.1 v
  nodup : L.Pairwise fun a b => Diff c bot a.1 b.1

theorem Cov.items {c : Cfg} {bot hi : ℕ} {P : (ℕ → ℤ) → Prop} {tr : List Ev}
    (h : Cov c bot false hi P c.maxdist c.maxdist tr) : ICov c bot hi P (tr.map Ev.item) := by
  refine ⟨fun it hit => ?_, fun v hP hw => ?_, ?_⟩
  · obtain ⟨e, he, rfl⟩ := List.mem_map.1 hit
    obtain ⟨h1, h2, h3, h4, _⟩ := h.sound e he
    exact ⟨h1, h2, h3, h4⟩
  · obtain ⟨e, he, h1⟩ := h.comp v hP hw.1 hw.2 (by simp)
    exact ⟨e.item, List.mem_map_of_mem he, fun j h2 h3 => (h1 j h2 h3).symm⟩
  · rw [List.pairwise_map]
    exact h.nodup

theorem ICov.append {c : Cfg} {bot hi : ℕ} {P Q R : (ℕ → ℤ) → Prop} {L M : List Item} (h : ICov c bot hi P L)
    (g : ICov c bot hi Q M) (hR : ∀ v, R v ↔ P v ∨ Q v) (hd : ∀ u v, P u → Q v → Diff c bot u v) :
    ICov c bot hi R (L ++ M) := by
  refine ⟨fun it hit => ?_, fun v hv hw => ?_, ?_⟩
  · rcases List.mem_append.1 hit with h1 | h1
    · obtain ⟨h2, h3⟩ := h.sound it h1
      exact ⟨(hR _).2 (Or.inl h2), h3⟩
    · obtain ⟨h2, h3⟩ := g.sound it h1
      exact ⟨(hR _).2 (Or.inr h2), h3⟩
  · rcases (hR v).1 hv with h1 | h1
    · obtain ⟨it, h2, h3⟩ := h.comp v h1 hw
      exact ⟨it, List.mem_append_left _ h2, h3⟩
    · obtain ⟨it, h2, h3⟩ := g.comp v h1 hw
      exact ⟨it, List.mem_append_right _ h2, h3⟩
  · rw [List.pairwise_append]
    exact ⟨h.nodup, g.nodup, fun a ha b hb => hd _ _ (h.sound a ha).1 (g.sound b hb).1⟩

theorem startItem_in {c : Cfg} {s : Loc} (hs : Col c s) (bot m : ℕ) (it : Item) (hm : m + 1 < c.N)
    (hit : it.2 = plen c it.1 (m + 1)) :
    In c bot (m + 1) (startItem c s (m + 1) it) ∧ Col c (startItem c s (m + 1) it) := by
  have hsp := refreshRow_spec (c := c) (x := it.1) (i := m) (b := c.N - 1) (sig := s.sig) (by omega) (by omega)
    (by rw [hs m, show c.N - 1 + 1 = c.N by omega, psum_N])
  refine ⟨⟨?_, ?_, ?_, ?_, ?_⟩, ?_⟩
  · simp only [startItem, setAt, if_true]
    exact hit
  · intro i hi
    obtain rfl : i = m := by omega
    simp only [startItem]
    rw [hsp.2.2 i le_rfl (by omega), Enum.cen_eq]
  · intro i i' j hi hi' _ hj hr
    obtain rfl : i = m := by omega
    have h1 := hr i' le_rfl (by omega)
    simp only [startItem] at h1
    rw [if_pos (by omega)] at h1
    obtain rfl : j = c.N - 1 := by omega
    simp only [startItem]
    rw [hsp.1 i' _ (by omega), hs i', show c.N - 1 + 1 = c.N by omega, psum_N]
  · intro l hl
    simp only [startItem]
    rw [if_pos (by omega)]
    omega
  · intro i hi
    simp only [startItem]
    rw [if_pos (by omega)]
    omega
  · intro i
    simp only [startItem]
    by_cases h : i = m
    · subst h
      rw [hsp.2.1 _ le_rfl, hs i]
    · rw [hsp.1 i _ h, hs i]

theorem init_in {c : Cfg} (bot : ℕ) (hN : 1 ≤ c.N) : In c bot c.N (init c) := by
  refine ⟨?_, ?_, ?_, ?_, ?_⟩
  · exact (Enum.pd_top c.e 0 _).symm
  · intro i hi
    rw [Enum.cen_eq, ← hi, psum_N]
    rfl
  · intro i i' j hi hi' _ hj hr
    have h1 := hr i' le_rfl (by omega)
    simp only [init] at h1
    obtain rfl : j = c.N - 1 := by omega
    rw [show c.N - 1 + 1 = c.N by omega, psum_N]
    rfl
  · intro l _
    simp only [init]
    omega
  · intro i hi
    simp only [init]
    omega

/-- enough iterations for every level -/
def Fuel (c : Cfg) (fuel : ℕ) : Prop := Enough c.e (fun k => c.bnd c.maxdist k) fuel

theorem Fuel.le {c : Cfg} (hc : CfgOK c) {fuel : ℕ} (h : Fuel c fuel) {A : ℚ} (hA : A ≤ c.maxdist) :
    Enough c.e (fun k => c.bnd A k) fuel :=
  h.mono fun k hk => hc.bnd_mono hA hk

/-- dimensions for which the parallel enumeration is used: `dim > 10` (enumlib.cpp:100-101) -/
theorem S_bound {c : Cfg} (hN : 10 < c.N) : 1 ≤ c.S ∧ 2 * c.S < c.N := by
  unfold Cfg.S
  omega

/-- the items of the first stage cover everything -/
theorem stage0_ok {c : Cfg} (hc : CfgOK c) (hN : 10 < c.N) {fuel : ℕ} (hF : Fuel c fuel) :
    ∃ items loc, stage0 c fuel = some (items, loc) ∧ Col c loc ∧ loc.A = c.maxdist ∧
      ICov c (c.N - c.S) c.N (fun _ => True) items := by
  obtain ⟨h1, h2⟩ := S_bound hN
  have hs : c.N - c.S + c.S = c.N := by omega
  have h := recur_ok hc (bot := c.N - c.S) (leaf := false) (by simp) (fuel := fuel) c.S (init c) (by omega)
    (by rw [hs]; exact init_in _ (by omega)) (by omega) hF
  rw [hs] at h
  obtain ⟨tr, s', h3, ⟨ho, hA, hle, hcov⟩, h4⟩ := collect_spec h
  have hA' : s'.A = c.maxdist := hA.trans h4
  rw [hA'] at hcov
  refine ⟨_, _, h3, fun i => ?_, hA', ?_⟩
  · rw [ho.fr.col]
    rfl
  · have := Cov.items hcov
    refine ⟨fun it hit => ⟨trivial, (this.sound it hit).2⟩, fun v _ => this.comp v fun j h5 h6 => by omega, this.nodup⟩

/-- the items of the second stage cover what the given item stands for -/
theorem stage1_ok {c : Cfg} (hc : CfgOK c) (hN : 10 < c.N) {fuel : ℕ} (hF : Fuel c fuel) {s : Loc} (hs : Col c s)
    (hsA : s.A = c.maxdist) {it : Item} (hit : it.2 = plen c it.1 (c.N - c.S)) :
    ∃ items loc, stage1 c fuel s it = some (items, loc) ∧ Col c loc ∧ loc.A = c.maxdist ∧
      ICov c (c.N - 2 * c.S) (c.N - c.S) (Agree c (c.N - c.S) it.1) items := by
  obtain ⟨h1, h2⟩ := S_bound hN
  have he : c.N - 2 * c.S + c.S = c.N - c.S := by omega
  have hm : c.N - c.S = (c.N - c.S - 1) + 1 := by omega
  obtain ⟨hin, hcol⟩ := startItem_in hs (c.N - 2 * c.S) (c.N - c.S - 1) it (by omega) (by rw [← hm]; exact hit)
  rw [← hm] at hin hcol
  have hA0 : (startItem c s (c.N - c.S) it).A = c.maxdist := hsA
  have h := recur_ok hc (bot := c.N - 2 * c.S) (leaf := false) (by simp) (fuel := fuel) c.S
    (startItem c s (c.N - c.S) it) (by omega) (by rw [he]; exact hin) (by omega) (by rw [hA0]; exact hF)
  rw [he, hA0] at h
  obtain ⟨tr, s', h3, ⟨ho, hA, hle, hcov⟩, h4⟩ := collect_spec h
  rw [hA0] at hA
  have hA' : s'.A = c.maxdist := hA.trans h4
  rw [hA', hA0] at hcov
  refine ⟨_, _, h3, fun i => ?_, hA', Cov.items hcov⟩
  rw [ho.fr.col]
  exact hcol i

/-- vectors an item of the list stands for -/
def OfItems (c : Cfg) (L : List Item) (v : ℕ → ℤ) : Prop := ∃ it ∈ L, Agree c (c.N - c.S) it.1 v

/-- items of the first stage -/
def Items0 (c : Cfg) (L : List Item) : Prop :=
  (∀ it ∈ L, it.2 = plen c it.1 (c.N - c.S)) ∧ L.Pairwise fun a b => Diff c (c.N - c.S) a.1 b.1

theorem fill_ok {c : Cfg} (hc : CfgOK c) (hN : 10 < c.N) {fuel : ℕ} (hF : Fuel c fuel) :
    ∀ (rest batch : List Item) (s : Loc), Items0 c rest → Col c s → s.A = c.maxdist →
      ∃ rest' new s' done, fill c fuel rest batch s = some (rest', batch ++ new, s') ∧ rest = done ++ rest' ∧
        ICov c (c.N - 2 * c.S) (c.N - c.S) (OfItems c done) new ∧ Col c s' ∧ s'.A = c.maxdist ∧
        (rest ≠ [] → batch = [] → done ≠ []) := by
  intro rest
  have hnil : ICov c (c.N - 2 * c.S) (c.N - c.S) (OfItems c []) [] :=
    ⟨fun it h => by simp at h, fun v hv => by obtain ⟨it, h, _⟩ := hv; simp at h, List.Pairwise.nil⟩
  induction rest with
  | nil =>
    intro batch s _ hs hA
    exact ⟨[], [], s, [], by simp [fill], by simp, hnil, hs, hA, fun h => absurd rfl h⟩
  | cons it rest ih =>
    intro batch s h0 hs hA
    by_cases hb : batch.length < swirly2buf
    · obtain ⟨l, s1, h1, h2, h3, h4⟩ := stage1_ok hc hN hF hs hA (h0.1 it (by simp))
      have hp := List.pairwise_cons.1 h0.2
      obtain ⟨rest', new, s', dn, h5, h6, h7, h8, h9, _⟩ := ih (batch ++ l) s1
        ⟨fun a ha => h0.1 a (by simp [ha]), hp.2⟩ h2 h3
      refine ⟨rest', l ++ new, s', it :: dn, ?_, by rw [h6]; rfl, ?_, h8, h9, fun _ _ => by simp⟩
      · simp only [fill, if_pos hb, h1]
        rw [h5, List.append_assoc]
      · refine ICov.append h4 h7 (fun v => ?_) fun u v hu hv => ?_
        · unfold OfItems
          simp
        · obtain ⟨it', hit', hv⟩ := hv
          exact (hp.1 it' (by rw [h6]; simp [hit'])).agree hu hv (by omega)
    · refine ⟨it :: rest, [], s, [], ?_, rfl, hnil, hs, hA, fun _ h => ?_⟩
      · simp only [fill, if_neg hb, List.append_nil]
      · rw [h] at hb
        simp [swirly2buf] at hb

/-! ## The invariant -/

/-- The evaluator never enlarges the bound, whatever (allowed) length is offered - also one that is larger than the present
bound, because a thread may go on with an old bound. -/
structure ParOK (c : Cfg) (E : EvalOps σ) (I : σ → ℚ → Prop) : Prop where
  sol : ∀ ev A x l, I ev A → A ≤ c.maxdist → 0 < l → c.fl l = l → l ≤ c.bnd c.maxdist 0 →
    I (E.evalSol ev x l A).1 (E.evalSol ev x l A).2 ∧ (E.evalSol ev x l A).2 ≤ A

/-- a worker that walks the item `d.1` and has reported `d.2` so far -/
def Active (c : Cfg) (A : ℚ) (d : Item × List Ev) (w : Walk Loc) : Prop :=
  ∃ B, A ≤ B ∧ B ≤ c.maxdist ∧ wp B w fun tr s' => Col c s' ∧ s'.A = lastA B tr ∧
    Cov c 0 true (c.N - 2 * c.S) (Agree c (c.N - 2 * c.S) d.1.1) c.maxdist s'.A (d.2 ++ tr)

/-- an item that was walked with the reports `d.2` -/
def Complete (c : Cfg) (A : ℚ) (d : Item × List Ev) : Prop :=
  ∃ B, A ≤ B ∧ Cov c 0 true (c.N - 2 * c.S) (Agree c (c.N - 2 * c.S) d.1.1) c.maxdist B d.2

structure SInv (c : Cfg) (I : σ → ℚ → Prop) (items0 : List Item) (st : Sys σ) (cns : List Item)
    (D : List (Item × List Ev)) (own : ℕ → ℕ) : Prop where
  A_le : st.A ≤ c.maxdist
  inv : I st.ev st.A
  loc : Col c st.loc
  locA : st.loc.A = c.maxdist
  consumed : items0 = cns ++ st.rest
  P : ICov c (c.N - 2 * c.S) (c.N - c.S) (OfItems c cns) st.filled
  Dtaken : D.map Prod.fst = st.taken
  filled : st.taken ++ st.batch.drop st.idx = st.filled
  log : st.log.Perm (D.flatMap fun d => d.2.map Ev.item)
  idle : ∀ (j : ℕ) (s : Loc), st.ths[j]? = some (.idle s) → Col c s ∧ st.A ≤ s.A ∧ s.A ≤ c.maxdist
  walk : ∀ (j : ℕ) (w : Walk Loc), st.ths[j]? = some (.walk w) → ∃ d, D[own j]? = some d ∧ Active c st.A d w
  inj : ∀ (j j' : ℕ) (w w' : Walk Loc), st.ths[j]? = some (.walk w) → st.ths[j']? = some (.walk w') → own j = own j' → j = j'
  comp : ∀ (k : ℕ) (d : Item × List Ev), D[k]? = some d →
    (∃ (j : ℕ) (w : Walk Loc), st.ths[j]? = some (.walk w) ∧ own j = k) ∨ Complete c st.A d
  dn : (∃ j : ℕ, st.ths[j]? = some .done) → st.batch.length ≤ st.idx
  ne : st.ths = [] → st.batch = []

theorem Active.mono {c : Cfg} {A A' : ℚ} {d : Item × List Ev} {w : Walk Loc} (h : Active c A d w) (hA : A' ≤ A) :
    Active c A' d w := by
  obtain ⟨B, h1, h2⟩ := h
  exact ⟨B, hA.trans h1, h2⟩

theorem Complete.mono {c : Cfg} {A A' : ℚ} {d : Item × List Ev} (h : Complete c A d) (hA : A' ≤ A) : Complete c A' d := by
  obtain ⟨B, h1, h2⟩ := h
  exact ⟨B, hA.trans h1, h2⟩

theorem set_get {α : Type} {L : List α} {j : ℕ} {t : α} (a : α) (h : L[j]? = some t) (k : ℕ) :
    (L.set j a)[k]? = if k = j then some a else L[k]? := by
  rw [List.getElem?_set]
  have hj : j < L.length := (List.getElem?_eq_some_iff.1 h).1
  by_cases hk : k = j
  · subst hk; simp [hj]
  · rw [if_neg hk, if_neg (fun h => hk h.symm)]

theorem flatMap_set {α β : Type} (f : α → List β) (ex : List β) (a : α) :
    ∀ (L : List α) (k : ℕ) (t : α), L[k]? = some t → f a = f t ++ ex →
      ((L.set k a).flatMap f).Perm (L.flatMap f ++ ex) := by
  intro L
  induction L with
  | nil => intro k t h; simp at h
  | cons b L ih =>
    intro k t h hf
    cases k with
    | zero =>
      simp only [List.getElem?_cons_zero, Option.some.injEq] at h
      subst h
      simp only [List.set_cons_zero, List.flatMap_cons, hf, List.append_assoc]
      exact (List.perm_append_comm).append_left _
    | succ k =>
      simp only [List.getElem?_cons_succ] at h
      simp only [List.set_cons_succ, List.flatMap_cons, List.append_assoc]
      exact (ih k t h hf).append_left _

theorem inv_init {c : Cfg} {I : σ → ℚ → Prop} {items : List Item} {loc : Loc} {e : σ} (hI : I e c.maxdist)
    (h1 : Col c loc) (h2 : loc.A = c.maxdist) :
    SInv c I items ⟨e, c.maxdist, items, loc, [], 0, [], [], [], []⟩ [] [] (fun _ => 0) := by
  refine ⟨le_rfl, hI, h1, h2, rfl, ?_, rfl, rfl, List.Perm.refl _, ?_, ?_, ?_, ?_, ?_, fun _ => rfl⟩
  · exact ⟨fun it h => by simp at h, fun v hv => by obtain ⟨it, h, _⟩ := hv; simp at h, List.Pairwise.nil⟩
  · intro j s h; simp at h
  · intro j s h; simp at h
  · intro j j' w w' h; simp at h
  · intro k d h; simp at h
  · rintro ⟨j, h⟩; simp at h

theorem inv_fill {c : Cfg} (hc : CfgOK c) (hN : 10 < c.N) {fuel : ℕ} (hF : Fuel c fuel) {I : σ → ℚ → Prop}
    {items0 : List Item} (h0 : Items0 c items0) {st : Sys σ} {cns : List Item} {D : List (Item × List Ev)} {own : ℕ → ℕ}
    (h : SInv c I items0 st cns D own) {T : ℕ} (hT : 1 ≤ T) {rest batch : List Item} {loc : Loc} (hd : st.allDone)
    (hf : fill c fuel st.rest [] st.loc = some (rest, batch, loc)) :
    ∃ cns', SInv c I items0 { st with
      rest := rest, batch := batch, loc := loc, idx := 0, ths := List.replicate T .fresh, filled := st.filled ++ batch }
      cns' D own := by
  have hr0 : Items0 c st.rest := by
    refine ⟨fun it hit => h0.1 it (by rw [h.consumed]; simp [hit]), ?_⟩
    have := h0.2
    rw [h.consumed, List.pairwise_append] at this
    exact this.2.1
  obtain ⟨rest', new, s', dn, h1, h2, h3, h4, h5, _⟩ := fill_ok hc hN hF st.rest [] st.loc hr0 h.loc h.locA
  rw [hf] at h1
  simp only [Option.some.injEq, Prod.mk.injEq, List.nil_append] at h1
  obtain ⟨rfl, rfl, rfl⟩ := h1
  have hdrop : st.batch.drop st.idx = [] := by
    cases hths : st.ths with
    | nil => rw [h.ne hths]; simp
    | cons t ts =>
      apply List.drop_eq_nil_of_le
      apply h.dn
      refine ⟨0, ?_⟩
      rw [hths]
      simp only [List.getElem?_cons_zero, Option.some.injEq]
      exact hd t (by rw [hths]; simp)
  have hP : st.taken = st.filled := by
    have := h.filled
    rwa [hdrop, List.append_nil] at this
  refine ⟨cns ++ dn, h.A_le, h.inv, h4, h5, by rw [h.consumed, h2, List.append_assoc], ?_, h.Dtaken, ?_, h.log, ?_, ?_, ?_, ?_, ?_, ?_⟩
  · refine ICov.append h.P h3 (fun v => ?_) fun u v hu hv => ?_
    · unfold OfItems
      simp only [List.mem_append, or_and_right, exists_or]
    · obtain ⟨a, ha, hu⟩ := hu
      obtain ⟨b, hb, hv⟩ := hv
      have := h0.2
      rw [h.consumed, h2, List.pairwise_append] at this
      exact (this.2.2 a ha b (by simp [hb])).agree hu hv (by omega)
  · change st.taken ++ batch.drop 0 = st.filled ++ batch
    rw [hP, List.drop_zero]
  · intro j s hj
    have := List.mem_of_getElem? hj
    simp at this
  · intro j s hj
    have := List.mem_of_getElem? hj
    simp at this
  · intro j j' w w' hj
    have := List.mem_of_getElem? hj
    simp at this
  · intro k d hk
    rcases h.comp k d hk with ⟨j, w, hj, _⟩ | h6
    · exact absurd (hd _ (List.mem_of_getElem? hj)) (by simp)
    · exact Or.inr h6
  · rintro ⟨j, hj⟩
    have := List.mem_of_getElem? hj
    simp at this
  · intro h6
    change List.replicate T Th.fresh = [] at h6
    have := congrArg List.length h6
    rw [List.length_replicate, List.length_nil] at this
    omega

/-- a worker starts with an item -/
theorem work_ok {c : Cfg} (hc : CfgOK c) (hN : 10 < c.N) {fuel : ℕ} (hF : Fuel c fuel) {s : Loc} (hs : Col c s) {A B : ℚ}
    (hAB : A ≤ B) (hB : B ≤ c.maxdist) {it : Item} (hit : it.2 = plen c it.1 (c.N - 2 * c.S)) :
    Active c A (it, []) (work c fuel s B it) := by
  obtain ⟨h1, h2⟩ := S_bound hN
  have hm : c.N - 2 * c.S = (c.N - 2 * c.S - 1) + 1 := by omega
  obtain ⟨hin, hcol⟩ := startItem_in hs 0 (c.N - 2 * c.S - 1) it (by omega) (by rw [← hm]; exact hit)
  rw [← hm] at hin hcol
  have h := recur_ok hc (bot := 0) (leaf := true) (fun _ => rfl) (fuel := fuel) (c.N - 2 * c.S)
    { startItem c s (c.N - 2 * c.S) it with A := B } (by omega)
    (by rw [Nat.zero_add]; exact ⟨hin.l, hin.ctr, hin.rows, hin.rlt, hin.rge⟩) (by omega) (hF.le hc hB)
  rw [Nat.zero_add] at h
  refine ⟨B, hAB, hB, wp_mono h ?_⟩
  rintro tr s' ⟨ho, hA, hle, hcov⟩
  refine ⟨fun i => ?_, hA, hcov.mono hc (by omega) hB le_rfl⟩
  rw [ho.fr.col]
  exact hcol i

theorem inv_th {c : Cfg} (hc : CfgOK c) (hN : 10 < c.N) {fuel : ℕ} (hF : Fuel c fuel) {E : EvalOps σ} {I : σ → ℚ → Prop}
    (hE : ParOK c E I) {items0 : List Item} {st st' : Sys σ} {cns : List Item} {D : List (Item × List Ev)} {own : ℕ → ℕ}
    (h : SInv c I items0 st cns D own) {t : Th} {j : ℕ} {upd : Bool} (ht : st.ths[j]? = some t)
    (hs : thStep c E fuel st j upd t = some st') : ∃ D' own', SInv c I items0 st' cns D' own' := by
  have hmem := fun (a : Th) => set_get (L := st.ths) a ht
  have hnn : ∀ a : Th, st.ths.set j a ≠ [] := by
    intro a h1
    have := congrArg List.length h1
    rw [List.length_set] at this
    have hj : j < st.ths.length := (List.getElem?_eq_some_iff.1 ht).1
    simp only [List.length_nil] at this
    omega
  cases t with
  | done => simp [thStep] at hs
  | fresh =>
    obtain rfl := Option.some.inj hs
    refine ⟨D, own, h.A_le, h.inv, h.loc, h.locA, h.consumed, h.P, h.Dtaken, h.filled, h.log, ?_, ?_, ?_, ?_, ?_, fun h1 => absurd h1 (hnn _)⟩
    · intro k s hk
      rw [hmem] at hk
      split_ifs at hk with h1
      · simp only [Option.some.injEq, Th.idle.injEq] at hk
        subst hk
        exact ⟨h.loc, by rw [h.locA]; exact h.A_le, by rw [h.locA]⟩
      · exact h.idle k s hk
    · intro k w hk
      rw [hmem] at hk
      split_ifs at hk with h1
      · simp at hk
      · exact h.walk k w hk
    · intro k k' w w' hk hk'
      rw [hmem] at hk hk'
      split_ifs at hk hk' with h1 h2
      all_goals first | (simp at hk) | (simp at hk') | exact h.inj k k' w w' hk hk'
    · intro k d hk
      rcases h.comp k d hk with ⟨i, w, h1, h2⟩ | h1
      · left
        refine ⟨i, w, ?_, h2⟩
        rw [hmem, if_neg, h1]
        rintro rfl
        rw [ht] at h1
        simp at h1
      · exact Or.inr h1
    · rintro ⟨i, hi⟩
      rw [hmem] at hi
      split_ifs at hi with h1
      · simp at hi
      · exact h.dn ⟨i, hi⟩
  | idle s =>
    obtain ⟨hcol, hAle, hAmax⟩ := h.idle j s ht
    cases hb : st.batch[st.idx]? with
    | none =>
      simp only [thStep, hb, Option.some.injEq] at hs
      subst hs
      have hlen : st.batch.length ≤ st.idx := List.getElem?_eq_none_iff.1 hb
      have hfil : st.taken ++ st.batch.drop (st.idx + 1) = st.filled := by
        rw [← h.filled, List.drop_eq_nil_of_le hlen, List.drop_eq_nil_of_le (by omega)]
      refine ⟨D, own, h.A_le, h.inv, h.loc, h.locA, h.consumed, h.P, h.Dtaken, hfil, h.log, ?_, ?_, ?_, ?_, ?_, fun h1 => absurd h1 (hnn _)⟩
      · intro k s hk
        rw [hmem] at hk
        split_ifs at hk with h1
        · simp at hk
        · exact h.idle k s hk
      · intro k w hk
        rw [hmem] at hk
        split_ifs at hk with h1
        · simp at hk
        · exact h.walk k w hk
      · intro k k' w w' hk hk'
        rw [hmem] at hk hk'
        split_ifs at hk hk' with h1 h2
        all_goals first | (simp at hk) | (simp at hk') | exact h.inj k k' w w' hk hk'
      · intro k d hk
        rcases h.comp k d hk with ⟨i, w, h1, h2⟩ | h1
        · left
          refine ⟨i, w, ?_, h2⟩
          rw [hmem, if_neg, h1]
          rintro rfl
          rw [ht] at h1
          simp at h1
        · exact Or.inr h1
      · intro _
        change st.batch.length ≤ st.idx + 1
        omega
    | some it =>
      simp only [thStep, hb, Option.some.injEq] at hs
      subst hs
      obtain ⟨hlt, hget⟩ := List.getElem?_eq_some_iff.1 hb
      have hdrop : st.batch.drop st.idx = it :: st.batch.drop (st.idx + 1) := by
        rw [List.drop_eq_getElem_cons hlt, hget]
      have hfil : (st.taken ++ [it]) ++ st.batch.drop (st.idx + 1) = st.filled := by
        rw [← h.filled, hdrop, List.append_assoc]
        rfl
      have hitP : it ∈ st.filled := by rw [← h.filled, hdrop]; simp
      have hit := (h.P.sound it hitP).2.1
      have hB : st.A ≤ (if upd = true then st.A else s.A) ∧ (if upd = true then st.A else s.A) ≤ c.maxdist := by
        split_ifs
        · exact ⟨le_rfl, h.A_le⟩
        · exact ⟨hAle, hAmax⟩
      have hact := work_ok hc hN hF hcol hB.1 hB.2 hit
      refine ⟨D ++ [(it, [])], fun i => if i = j then D.length else own i, h.A_le, h.inv, h.loc, h.locA, h.consumed, h.P, ?_, hfil, ?_,
        ?_, ?_, ?_, ?_, ?_, fun h1 => absurd h1 (hnn _)⟩
      · rw [List.map_append, h.Dtaken]
        rfl
      · rw [List.flatMap_append]
        simpa using h.log
      · intro k s hk
        rw [hmem] at hk
        by_cases h1 : k = j
        · rw [if_pos h1] at hk
          simp at hk
        · rw [if_neg h1] at hk
          exact h.idle k s hk
      · intro k w hk
        rw [hmem] at hk
        by_cases h1 : k = j
        · rw [if_pos h1] at hk
          simp only [Option.some.injEq, Th.walk.injEq] at hk
          subst hk
          refine ⟨(it, []), ?_, hact⟩
          simp only [if_pos h1]
          rw [List.getElem?_append_right le_rfl, Nat.sub_self]
          rfl
        · rw [if_neg h1] at hk
          obtain ⟨d, h2, h3⟩ := h.walk k w hk
          refine ⟨d, ?_, h3⟩
          simp only [if_neg h1]
          rw [List.getElem?_append_left (List.getElem?_eq_some_iff.1 h2).1]
          exact h2
      · have hown : ∀ k w, st.ths[k]? = some (.walk w) → own k < D.length := by
          intro k w hk
          obtain ⟨d, h2, _⟩ := h.walk k w hk
          exact (List.getElem?_eq_some_iff.1 h2).1
        intro k k' w w' hk hk' he
        rw [hmem] at hk hk'
        by_cases h1 : k = j <;> by_cases h2 : k' = j
        · rw [h1, h2]
        · rw [if_neg h2] at hk'
          simp only [if_pos h1, if_neg h2] at he
          have := hown k' w' hk'
          omega
        · rw [if_neg h1] at hk
          simp only [if_pos h2, if_neg h1] at he
          have := hown k w hk
          omega
        · rw [if_neg h1] at hk
          rw [if_neg h2] at hk'
          simp only [if_neg h1, if_neg h2] at he
          exact h.inj k k' w w' hk hk' he
      · intro k d hk
        rcases Nat.lt_or_ge k D.length with h1 | h1
        · rw [List.getElem?_append_left h1] at hk
          rcases h.comp k d hk with ⟨i, w, h2, h3⟩ | h2
          · left
            have hij : i ≠ j := by
              rintro rfl
              rw [ht] at h2
              simp at h2
            refine ⟨i, w, ?_, ?_⟩
            · rw [hmem, if_neg hij, h2]
            · simp only [if_neg hij]; exact h3
          · exact Or.inr h2
        · left
          have hk2 := (List.getElem?_eq_some_iff.1 hk).1
          rw [List.length_append, List.length_singleton] at hk2
          refine ⟨j, work c fuel s (if upd = true then st.A else s.A) it, by rw [hmem, if_pos rfl], ?_⟩
          simp only [if_true]
          omega
      · rintro ⟨i, hi⟩
        rw [hmem] at hi
        by_cases h1 : i = j
        · rw [if_pos h1] at hi
          simp at hi
        · rw [if_neg h1] at hi
          have := h.dn ⟨i, hi⟩
          omega
  | walk w =>
    obtain ⟨d, hd, hact⟩ := h.walk j w ht
    cases w with
    | stuck => simp [thStep] at hs
    | ret s =>
      obtain rfl := Option.some.inj hs
      obtain ⟨B, hB1, hB2, hcol, hA, hcov⟩ := hact
      have hsA : s.A = B := hA
      rw [List.append_nil] at hcov
      refine ⟨D, own, h.A_le, h.inv, h.loc, h.locA, h.consumed, h.P, h.Dtaken, h.filled, h.log, ?_, ?_, ?_, ?_, ?_, fun h1 => absurd h1 (hnn _)⟩
      · intro k s' hk
        rw [hmem] at hk
        split_ifs at hk with h1
        · simp only [Option.some.injEq, Th.idle.injEq] at hk
          subst hk
          exact ⟨hcol, by rw [hsA]; exact hB1, by rw [hsA]; exact hB2⟩
        · exact h.idle k s' hk
      · intro k w hk
        rw [hmem] at hk
        split_ifs at hk with h1
        · simp at hk
        · exact h.walk k w hk
      · intro k k' w w' hk hk'
        rw [hmem] at hk hk'
        split_ifs at hk hk' with h1 h2
        all_goals first | (simp at hk) | (simp at hk') | exact h.inj k k' w w' hk hk'
      · intro k d' hk
        rcases h.comp k d' hk with ⟨i, w, h1, h2⟩ | h1
        · by_cases hij : i = j
          · right
            subst hij
            rw [h2] at hd
            rw [hd] at hk
            obtain rfl := Option.some.inj hk
            exact ⟨s.A, by rw [hsA]; exact hB1, hcov⟩
          · left
            exact ⟨i, w, by rw [hmem, if_neg hij, h1], h2⟩
        · exact Or.inr h1
      · rintro ⟨i, hi⟩
        rw [hmem] at hi
        split_ifs at hi with h1
        · simp at hi
        · exact h.dn ⟨i, hi⟩
    | offer x l k =>
      obtain rfl := Option.some.inj hs
      obtain ⟨B, hB1, hB2, hwp⟩ := hact
      -- the offered length
      have hlx : 0 < l ∧ c.fl l = l ∧ l ≤ c.bnd c.maxdist 0 := by
        obtain ⟨h1, h2⟩ := S_bound hN
        obtain ⟨tr, a, _, _, hcov⟩ := wp_exists (hwp B le_rfl)
        obtain ⟨_, h3, h4, _, h6⟩ := hcov.sound (x, l, B) (by simp)
        have h7 := h6 rfl
        have h8 := h4 0 le_rfl (by omega)
        rw [← h3] at h7 h8
        have h9 : 0 ≤ l := by
          change l = _ at h3
          rw [h3]
          exact hc.tree.pd_nonneg x 0
        refine ⟨lt_of_le_of_ne h9 (Ne.symm h7), ?_, h8⟩
        change l = _ at h3
        rw [h3]
        exact hc.tree.pd_rep x 0
      obtain ⟨hI', hA'⟩ := hE.sol st.ev st.A x l h.inv h.A_le hlx.1 hlx.2.1 hlx.2.2
      have hown : ∀ (i : ℕ) (w : Walk Loc), st.ths[i]? = some (.walk w) → i ≠ j → own i ≠ own j :=
        fun i w hi hij he => hij (h.inj i j w _ hi ht he)
      have hDset := fun (a : Item × List Ev) => set_get (L := D) a hd
      refine ⟨D.set (own j) (d.1, d.2 ++ [(x, l, (E.evalSol st.ev x l st.A).2)]), own, hA'.trans h.A_le, hI', h.loc, h.locA, h.consumed,
        h.P, ?_, h.filled, ?_, ?_, ?_, ?_, ?_, ?_, fun h1 => absurd h1 (hnn _)⟩
      · rw [List.map_set, ← h.Dtaken]
        change (D.map Prod.fst).set (own j) d.1 = D.map Prod.fst
        apply List.ext_getElem?
        intro n
        rw [set_get (t := d.1) _ (by rw [List.getElem?_map, hd]; rfl)]
        split_ifs with hn
        · rw [hn, List.getElem?_map, hd]; rfl
        · rfl
      · refine (h.log.append_right [(x, l)]).trans (flatMap_set (fun d : Item × List Ev => d.2.map Ev.item) [(x, l)] _ D (own j) d hd ?_).symm
        simp only [List.map_append, List.map_cons, List.map_nil]
        rfl
      · intro i s hi
        rw [hmem] at hi
        split_ifs at hi with h1
        · simp at hi
        · obtain ⟨h2, h3, h4⟩ := h.idle i s hi
          exact ⟨h2, hA'.trans h3, h4⟩
      · intro i w hi
        rw [hmem] at hi
        by_cases h1 : i = j
        · rw [if_pos h1] at hi
          simp only [Option.some.injEq, Th.walk.injEq] at hi
          subst hi
          refine ⟨(d.1, d.2 ++ [(x, l, (E.evalSol st.ev x l st.A).2)]), by rw [hDset, if_pos (by rw [h1])], ?_⟩
          refine ⟨_, le_rfl, hA'.trans h.A_le, wp_mono (hwp _ (hA'.trans hB1)) ?_⟩
          rintro tr s' ⟨h2, h3, h4⟩
          refine ⟨h2, h3, ?_⟩
          rw [List.append_assoc]
          exact h4
        · rw [if_neg h1] at hi
          obtain ⟨d', h2, h3⟩ := h.walk i w hi
          exact ⟨d', by rw [hDset, if_neg (hown i w hi h1)]; exact h2, h3.mono hA'⟩
      · intro i i' w w' hi hi' he
        rw [hmem] at hi hi'
        by_cases h1 : i = j <;> by_cases h2 : i' = j
        · rw [h1, h2]
        · rw [if_neg h2] at hi'
          exact absurd (by rw [← he, h1]) (hown i' w' hi' h2)
        · rw [if_neg h1] at hi
          exact absurd (by rw [he, h2]) (hown i w hi h1)
        · rw [if_neg h1] at hi
          rw [if_neg h2] at hi'
          exact h.inj i i' w w' hi hi' he
      · intro n d' hn
        rw [hDset] at hn
        by_cases h1 : n = own j
        · left
          exact ⟨j, _, by rw [hmem, if_pos rfl], h1.symm⟩
        · rw [if_neg h1] at hn
          rcases h.comp n d' hn with ⟨i, w, h2, h3⟩ | h2
          · left
            have hij : i ≠ j := by
              rintro rfl
              exact h1 h3.symm
            exact ⟨i, w, by rw [hmem, if_neg hij, h2], h3⟩
          · exact Or.inr (h2.mono hA')
      · rintro ⟨i, hi⟩
        rw [hmem] at hi
        split_ifs at hi with h1
        · simp at hi
        · exact h.dn ⟨i, hi⟩

/-- the invariant holds in every reachable state -/
theorem inv_reach {c : Cfg} (hc : CfgOK c) (hN : 10 < c.N) {fuel : ℕ} (hF : Fuel c fuel) {E : EvalOps σ} {I : σ → ℚ → Prop}
    (hE : ParOK c E I) {e : σ} (hI : I e c.maxdist) {T : ℕ} (hT : 1 ≤ T) {st : Sys σ} (h : Reach c E fuel T e st) :
    ∃ items0 cns D own, SInv c I items0 st cns D own ∧ ICov c (c.N - c.S) c.N (fun _ => True) items0 := by
  obtain ⟨items, loc, h1, h2, h3, h4⟩ := stage0_ok hc hN hF
  have h0 : Items0 c items := ⟨fun it hit => (h4.sound it hit).2.1, h4.nodup⟩
  refine ⟨items, ?_⟩
  induction h with
  | init h =>
    rw [h1] at h
    simp only [Option.some.injEq, Prod.mk.injEq] at h
    obtain ⟨rfl, rfl⟩ := h
    exact ⟨_, _, _, inv_init hI h2 h3, h4⟩
  | step _ hs ih =>
    obtain ⟨cns, D, own, hi, _⟩ := ih
    cases hs with
    | fill hd hr hf =>
      obtain ⟨cns', h5⟩ := inv_fill hc hN hF h0 hi hT hd hf
      exact ⟨cns', D, own, h5, h4⟩
    | th j upd ht hs =>
      obtain ⟨D', own', h5⟩ := inv_th hc hN hF hE hi ht hs
      exact ⟨cns, D', own', h5, h4⟩

end Par
end Fplll

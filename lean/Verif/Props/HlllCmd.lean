import Verif.Model.HlllCmd
import Verif.Props.RedCmd
import Verif.Props.HLLL
import Verif.Props.HNaive
import Verif.Props.HlllPrec

/-!
# C99: `fplll -a hlll`, from the arguments and the input text to the output text and the exit code
-/

namespace Fplll
namespace HlllCmd

open Wrapper Cli TextIO Spec LllCmd
open RedCmd (Asked spread exNum)
open Gen hiding toQ

/-! ## Specification -/

/-- the codes that `hlll` knows: all but `t` -/
def ofHlll : Code → Bool
  | .t => false
  | _ => true

/-- what is written for a code: nothing for `t` -/
def Written (d n : ℕ) (b : ℕ → ℕ → ℤ) (u v : Option (ℕ → ℕ → ℤ)) (c : Code) (t : List Char) : Prop :=
  if ofHlll c = true then Shows d n 0 b u v c t else t = []

/-- the identity matrix -/
def ident : ℕ → ℕ → ℤ := fun i j => if i = j then 1 else 0

/-! ## Printing -/

theorem printHlll_codes : ∀ cs : List Code, printHlll (cs.flatMap Code.text) = (cs.filter ofHlll).map Code.item
  | [] => rfl
  | x :: cs => by
    have ih := printHlll_codes cs
    have hk := text_head cs
    have hf : ((x :: cs).filter ofHlll).map Code.item = if ofHlll x = true then x.item :: (cs.filter ofHlll).map Code.item else (cs.filter ofHlll).map Code.item := by
      rw [List.filter_cons]
      split_ifs <;> rfl
    rw [List.flatMap_cons, hf]
    generalize (cs.filter ofHlll).map Code.item = q at ih
    generalize cs.flatMap Code.text = r at hk ih
    subst ih
    cases r with
    | nil => cases x <;> rfl
    | cons a r =>
      have ha : a ≠ 'k' := fun e => hk (by rw [e]; rfl)
      cases x <;> simp [Code.text, Code.item, printHlll, ofHlll, ha]

theorem wanted (cs : List Code) : ((wantTransforms (cs.flatMap Code.text)).1 = true ↔ Code.u ∈ cs ∨ Code.uk ∈ cs ∨ Code.v ∈ cs ∨ Code.vk ∈ cs) ∧
    ((wantTransforms (cs.flatMap Code.text)).2 = true ↔ Code.v ∈ cs ∨ Code.vk ∈ cs) := by
  have hv : 'v' ∈ cs.flatMap Code.text ↔ Code.v ∈ cs ∨ Code.vk ∈ cs := by
    rw [List.mem_flatMap]
    constructor
    · rintro ⟨x, hx, hc⟩
      cases x <;> simp [Code.text] at hc <;> tauto
    · rintro (hx | hx)
      · exact ⟨_, hx, by simp [Code.text]⟩
      · exact ⟨_, hx, by simp [Code.text]⟩
  have hu := RedCmd.mem_u (cs := cs)
  unfold wantTransforms
  by_cases h1 : 'v' ∈ cs.flatMap Code.text
  · rw [if_pos h1]
    have := hv.1 h1
    refine ⟨iff_of_true rfl (by tauto), iff_of_true rfl this⟩
  · rw [if_neg h1]
    by_cases h2 : 'u' ∈ cs.flatMap Code.text
    · rw [if_pos h2]
      exact ⟨iff_of_true rfl (by tauto), iff_of_false (by decide) fun h => h1 (hv.2 h)⟩
    · rw [if_neg h2]
      exact ⟨iff_of_false (by decide) (by tauto), iff_of_false (by decide) fun h => h1 (hv.2 h)⟩

theorem output_hlll {d n : ℕ} (hd : 1 ≤ d) (hn : 1 ≤ n) (s : RedStatus) (m : Triple) (cs : List Code)
    (hu : (wantTransforms (cs.flatMap Code.text)).1 = true → m.u.isSome = true) (hv : (wantTransforms (cs.flatMap Code.text)).2 = true → m.v.isSome = true) :
    ∃ ts, List.Forall₂ (Written d n m.b m.u m.v) cs ts ∧ output d n s m (printHlll (cs.flatMap Code.text)) = some ts.flatten := by
  obtain ⟨w1, w2⟩ := wanted cs
  obtain ⟨ts, h1, h2⟩ := output_codes hd hn s m (cs.filter ofHlll)
    (fun h => hu (w1.2 (by simp only [List.mem_filter] at h; tauto)))
    (fun h => hv (w2.2 (by simp only [List.mem_filter] at h; tauto)))
  obtain ⟨ts', h3, h4⟩ := spread cs ts h1
  refine ⟨ts', h3.imp fun c t h => ?_, by rw [printHlll_codes, h2, h4]⟩
  unfold Written
  by_cases hc : ofHlll c = true
  · rw [if_pos hc] at h ⊢
    cases h with
    | b t h => exact .b t h
    | bk t h => exact .bk t h
    | u m t h h' => exact .u m t h h'
    | uk m t h h' => exact .uk m t h h'
    | v m t h h' => exact .v m t h h'
    | vk m t h h' => exact .vk m t h h'
    | t t h => cases hc
    | blank => exact .blank
  · rw [if_neg hc] at h ⊢
    exact h

/-! ## The runs -/

theorem total_good (w : HWorld) (theta : ℚ) (d n : ℕ) : GoodRun d n (total w theta d n) := by
  intro t call last inp
  unfold total one
  dsimp only
  letI := w.ops call.ft call.prec
  have h := HL.zf_trel w.srFuel w.fuel (decide (call.meth = .fast)) (w.conv call.ft call.prec call.delta) (w.conv call.ft call.prec call.eta) (w.conv call.ft call.prec theta) (d := d) (n := n) inp (w.junk t call.ft call.prec)
  cases hz : HL.zf w.srFuel w.fuel (decide (call.meth = .fast)) (w.conv call.ft call.prec call.delta) (w.conv call.ft call.prec call.eta) (w.conv call.ft call.prec theta) d n inp (w.junk t call.ft call.prec) with
  | done s h' => rw [hz] at h; exact h
  | ub => exact TRel.refl _ _ _
  | next _ => exact TRel.refl _ _ _
  | outOfFuel _ => exact TRel.refl _ _ _

theorem one_done {w : HWorld} {theta : ℚ} {d n t : ℕ} {call : Call} {inp : Triple} {r : Wrapper.Res} (h : one w theta d n t call inp = .ret r) :
    letI := w.ops call.ft call.prec
    ∃ h', HL.zf w.srFuel w.fuel (decide (call.meth = .fast)) (w.conv call.ft call.prec call.delta) (w.conv call.ft call.prec call.eta) (w.conv call.ft call.prec theta) d n inp (w.junk t call.ft call.prec) = .done r.status h' ∧
      r.out = HL.out inp h' := by
  letI := w.ops call.ft call.prec
  unfold one at h
  dsimp only at h
  cases hz : HL.zf w.srFuel w.fuel (decide (call.meth = .fast)) (w.conv call.ft call.prec call.delta) (w.conv call.ft call.prec call.eta) (w.conv call.ft call.prec theta) d n inp (w.junk t call.ft call.prec) with
  | done s h' => rw [hz] at h; cases h; exact ⟨h', rfl, rfl⟩
  | ub => rw [hz] at h; cases h
  | next _ => rw [hz] at h; cases h
  | outOfFuel _ => rw [hz] at h; cases h

theorem one_ub {w : HWorld} {theta : ℚ} {d n t : ℕ} {call : Call} {inp : Triple} (h : one w theta d n t call inp = .ub) (hd : 2 ≤ d) : n < d := by
  by_contra hc
  letI := w.ops call.ft call.prec
  have := HL.C29_no_ub w.srFuel w.fuel (decide (call.meth = .fast)) (w.conv call.ft call.prec call.delta) (w.conv call.ft call.prec call.eta) (w.conv call.ft call.prec theta) hd (by omega : d ≤ n) inp (w.junk t call.ft call.prec)
  unfold one at h
  dsimp only at h
  cases hz : HL.zf w.srFuel w.fuel (decide (call.meth = .fast)) (w.conv call.ft call.prec call.delta) (w.conv call.ft call.prec call.eta) (w.conv call.ft call.prec theta) d n inp (w.junk t call.ft call.prec) with
  | done s h' => rw [hz] at h; cases h
  | ub => exact this hz
  | next _ => rw [hz] at h; cases h
  | outOfFuel _ => rw [hz] at h; cases h

theorem one_row {w : HWorld} {theta : ℚ} {n t : ℕ} (hn : 1 ≤ n) (call : Call) (inp : Triple) : one w theta 1 n t call inp = .ub := by
  letI := w.ops call.ft call.prec
  unfold one
  dsimp only
  rw [HL.C29_one_row_violated w.srFuel w.fuel (decide (call.meth = .fast)) (w.conv call.ft call.prec call.delta) (w.conv call.ft call.prec call.eta) (w.conv call.ft call.prec theta) hn inp]

theorem stuck_some {w : HWorld} {theta : ℚ} {d n : ℕ} : ∀ {l : List (Call × Triple)} {p : Proc}, stuck w theta d n l = some p →
    (p = .ub ∧ ∃ t call inp, one w theta d n t call inp = .ub) ∨ (p = .outOfFuel ∧ ∃ t call inp, one w theta d n t call inp = .outOfFuel)
  | [], p, h => by cases h
  | x :: l, p, h => by
    rw [stuck] at h
    cases hs : stuck w theta d n l with
    | some q => rw [hs] at h; cases h; exact stuck_some hs
    | none =>
      rw [hs] at h
      dsimp only at h
      cases ho : one w theta d n l.length x.1 x.2 with
      | ret r => rw [ho] at h; cases h
      | ub => rw [ho] at h; cases h; exact .inl ⟨rfl, _, _, _, ho⟩
      | outOfFuel => rw [ho] at h; cases h; exact .inr ⟨rfl, _, _, _, ho⟩

theorem stuck_none {w : HWorld} {theta : ℚ} {d n : ℕ} {x : Call × Triple} {l : List (Call × Triple)} (h : stuck w theta d n (x :: l) = none) :
    ∃ r, one w theta d n l.length x.1 x.2 = .ret r := by
  rw [stuck] at h
  cases hs : stuck w theta d n l with
  | some q => rw [hs] at h; cases h
  | none =>
    rw [hs] at h
    dsimp only at h
    cases ho : one w theta d n l.length x.1 x.2 with
    | ret r => exact ⟨r, rfl⟩
    | ub => rw [ho] at h; cases h
    | outOfFuel => rw [ho] at h; cases h

theorem stuck_row {w : HWorld} {theta : ℚ} {n : ℕ} (hn : 1 ≤ n) : ∀ l : List (Call × Triple), l ≠ [] → stuck w theta 1 n l = some .ub
  | [], h => absurd rfl h
  | [x], _ => by rw [stuck, stuck]; dsimp only; rw [one_row hn]
  | x :: y :: l, _ => by rw [stuck, stuck_row hn (y :: l) (by simp)]

/-- the matrices with which the reduction starts -/
abbrev first (m : Triple) : Triple := ⟨m.b, identityIf m.u, (identityIf m.v).map transposeMat⟩

theorem reduction_trel {c : Cfg} {run : Runner} (hr : GoodRun c.d c.n run) (fuel : ℕ) (a : Args) (m : Triple) (junk : Mat ℤ) (s : RedStatus) (m' : Triple) (h : hlllReduction c run fuel a m junk = .done (s, m')) :
    ∃ t, TRel c.d c.n (first m) t ∧ m' = { t with v := t.v.map transposeMat } := by
  unfold hlllReduction hlllReductionZ at h
  cases hch : hlllChoice c.bld c.goodPrec a with
  | abort => rw [hch] at h; cases h
  | wrapper =>
    rw [hch] at h
    dsimp only at h
    cases hw : hlllReductionWrapper c run fuel (first m) junk with
    | none => rw [hw] at h; cases h
    | some q =>
      rw [hw] at h
      cases h
      refine ⟨_, ?_, rfl⟩
      unfold hlllReductionWrapper at hw
      rw [Option.map_eq_some_iff] at hw
      obtain ⟨r, hr1, rfl⟩ := hw
      refine TRel.trans ?_ (zerosFirst_trel _)
      by_cases hd : c.d = 0 ∨ c.n = 0
      · unfold Wrapper.hlll at hr1; rw [if_pos hd] at hr1; cases hr1; exact TRel.refl _ _ _
      rw [hlll_eq (by omega) (by omega), Option.map_eq_some_iff] at hr1
      obtain ⟨st1, hb, rfl⟩ := hr1
      have hi := hlllBefore_inv (c := c) (run := run) (P := fun st => TRel c.d c.n (first m) st.m) (fun call st h => h.trans (hr _ _ _ _)) fuel (mk c _ junk) (TRel.refl _ _ _) st1 hb
      obtain ⟨call, h5, -⟩ := lastHlll_eq (c := c) (run := run) st1
      dsimp only
      rw [h5]
      exact hi.trans (hr _ _ _ _)
  | single ft p =>
    rw [hch] at h
    dsimp only at h
    cases h
    refine ⟨_, ?_, rfl⟩
    refine TRel.trans ?_ (zerosFirst_trel _)
    unfold lllReductionZf
    by_cases hd : c.d = 0 ∨ c.n = 0
    · rw [if_pos hd]; exact TRel.refl _ _ _
    · rw [if_neg hd]; exact hr _ _ _ _

theorem reduction_stops {c : Cfg} {run : Runner} (hd : 1 ≤ c.d) (hn : 1 ≤ c.n) (fuel : ℕ) (a : Args) (m : Triple) (junk : Mat ℤ) (hf : c.goodPrec.toNat + 1 ≤ fuel) (hld : 1 ≤ c.bld.ldBits) :
    (hlllChoice c.bld c.goodPrec a = .abort ∧ hlllReduction c run fuel a m junk = .abort ∧ made c run fuel a (first m) junk = []) ∨
    hlllChoice c.bld c.goodPrec a ≠ .abort ∧ made c run fuel a (first m) junk ≠ [] ∧ ∃ s m', hlllReduction c run fuel a m junk = .done (s, m') := by
  unfold hlllReduction hlllReductionZ made
  cases hch : hlllChoice c.bld c.goodPrec a with
  | abort => exact .inl ⟨rfl, rfl, rfl⟩
  | wrapper =>
    right
    obtain ⟨r, e, es, h1, h2, -⟩ := C28_last_run_partial (c := c) (run := run) (by omega) (by omega) fuel (first m) junk hf hld
    refine ⟨nofun, ?_, ?_⟩
    · dsimp only
      rw [h1]
      simp [h2]
    · dsimp only
      unfold hlllReductionWrapper
      rw [h1]
      exact ⟨_, _, rfl⟩
  | single ft p =>
    right
    refine ⟨nofun, ?_, _, _, rfl⟩
    dsimp only
    rw [if_neg (by omega)]
    simp

theorem indep_le {d n : ℕ} {B : ℕ → ℕ → ℚ} (h : Indep d n B) : d ≤ n := by
  have : LinearIndependent ℚ fun (i : Fin d) (c : Fin n) => B i c := by
    rw [Fintype.linearIndependent_iff]
    intro g hg i
    have := h (fun j => if hj : j < d then g ⟨j, hj⟩ else 0) (fun c hc => by
      have := congrFun hg ⟨c, hc⟩
      unfold lc
      rw [Finset.sum_range]
      simpa [Finset.sum_apply] using this) i i.2
    simpa using this
  simpa using this.fintype_card_le_finrank

/-! ## The theorems -/

variable {he : HEnv} {argv : List String} {o : Options ℚ}

theorem main_eq {cs : List Code} (ha : Asked he.e argv o .hlll cs) {rows : List (List ℤ)} (hg : Given he.e o rows) {n : ℕ} (hn : Cols rows n) (fuel : ℕ) (junk : Mat ℤ) :
    main he argv fuel junk = hlll he o (rows.map (padRow n)) n fuel junk := by
  obtain ⟨t, tail, h1, h2⟩ := hg
  have hi : input he.e o = ⟨t ++ tail, true⟩ := by
    unfold input
    rcases h2 with ⟨h2, h3⟩ | ⟨f, h2, h3⟩
    · rw [h2, h3]
    · rw [h2]; dsimp only; rw [h3]
  unfold main
  rw [ha.opts]
  dsimp only
  rw [if_neg (not_not.2 ha.int)]
  unfold runAction
  dsimp only
  rw [hi, readMatrix_eq h1 tail, cols_eq hn]
  dsimp only
  rw [if_neg (by decide), if_neg (not_not.2 ha.action)]

theorem format_codes {cs : List Code} (h : Asked he.e argv o .hlll cs) : format o = cs.flatMap Code.text := by
  unfold format
  rcases h.codes with h1 | ⟨h1, rfl⟩
  · rw [h1]; simp
  · rw [h1]; rfl

/-- the matrices handed to `hlll_reduction` -/
def handed (cs : List Code) (rows : List (List ℤ)) : Triple :=
  ⟨given rows, if (wantTransforms (cs.flatMap Code.text)).1 then some fun _ _ => 0 else none, if (wantTransforms (cs.flatMap Code.text)).2 then some fun _ _ => 0 else none⟩

theorem hlll_stop {cs : List Code} (ha : Asked he.e argv o .hlll cs) {rows : List (List ℤ)} {n fuel : ℕ} {junk : Mat ℤ} {p : Proc} (h : reduce he o rows.length n (handed cs rows) fuel junk = .stop p) :
    hlll he o (rows.map (padRow n)) n fuel junk = p := by
  unfold hlll
  dsimp only
  rw [List.length_map, given_pad, format_codes ha]
  unfold handed at h
  rw [h]

theorem hlll_ret {cs : List Code} (ha : Asked he.e argv o .hlll cs) {rows : List (List ℤ)} (hr : rows ≠ []) {n fuel : ℕ} (hn : 1 ≤ n) {junk : Mat ℤ} {s : RedStatus} {m : Triple} (h : reduce he o rows.length n (handed cs rows) fuel junk = .ret s m)
    (hu : m.u.isSome = (handed cs rows).u.isSome) (hv : m.v.isSome = (handed cs rows).v.isSome) :
    ∃ ts, List.Forall₂ (Written rows.length n m.b m.u m.v) cs ts ∧ hlll he o (rows.map (padRow n)) n fuel junk = .exit (statusCode s) ts.flatten := by
  have hd : 1 ≤ rows.length := List.length_pos_iff.2 hr
  obtain ⟨ts, h1, h2⟩ := output_hlll hd hn s m cs (fun hw => by rw [hu]; unfold handed; rw [if_pos hw]; rfl) (fun hw => by rw [hv]; unfold handed; rw [if_pos hw]; rfl)
  refine ⟨ts, h1, ?_⟩
  unfold hlll
  dsimp only
  rw [List.length_map, given_pad, format_codes ha]
  unfold handed at h
  rw [h]
  dsimp only
  rw [h2]

/-- the parameters of the reduction -/
abbrev params (he : HEnv) (o : Options ℚ) (rows : List (List ℤ)) (n : ℕ) (good : ℤ) : Cfg := cfg he.e o rows.length n good

theorem reduce_eq {d n : ℕ} {good : ℤ} (hm : o.method ≠ .heuristic) (hp : he.minPrec d n o.delta o.eta o.theta o.c = .ok good) (hno : o.noLll = false) (m : Triple) (fuel : ℕ) (junk : Mat ℤ) :
    reduce he o d n m fuel junk =
      match stuck he.w o.theta d n (made (cfg he.e o d n good) (total he.w o.theta d n) fuel (args o) (first m) junk) with
      | some p => .stop p
      | none =>
        match hlllReduction (cfg he.e o d n good) (total he.w o.theta d n) fuel (args o) m junk with
        | .abort => .stop .abort
        | .outOfFuel => .stop .outOfFuel
        | .done (s, m') => .ret s m' := by
  unfold reduce
  rw [if_neg hm, hp]
  dsimp only
  rw [hno]
  rfl

/-- **C99 (end to end, partial).**  For every command line that selects `hlll` (with `mpz_t` integers, without `-nolll`), every input that starts with a matrix of at least two rows, and whatever the floating-point numbers do: the program aborts because the method, type and
precision do not fit together; or a run of HLLL does not end within the budget of the model; or there are more rows than columns and a run reads an entry that does not exist; or the program writes exactly the items asked for (`t` is ignored), in this order and in the documented
formats, where the basis written generates the lattice of the input, `u` transforms one into the other and is unimodular, and `u_inv` is its inverse.  Missing: one row (`C99_one_row_violated`). -/
theorem C99_end_to_end_partial {cs : List Code} (ha : Asked he.e argv o .hlll cs) {rows : List (List ℤ)} (hgi : Given he.e o rows) (hr : 2 ≤ rows.length) {n : ℕ} (hn : Cols rows n) (hn1 : 1 ≤ n) {good : ℤ}
    (hp : he.minPrec rows.length n o.delta o.eta o.theta o.c = .ok good) (hno : o.noLll = false) (hld : 1 ≤ he.e.bld.ldBits) (fuel : ℕ) (hf : good.toNat + 1 ≤ fuel) (junk : Mat ℤ) :
    (main he argv fuel junk = .abort ∧ (o.method = .heuristic ∨ hlllChoice he.e.bld good ⟨o.method, .mpz, o.floatType, o.precision, false⟩ = .abort)) ∨
    (main he argv fuel junk = .outOfFuel ∧ ∃ t call inp, one he.w o.theta rows.length n t call inp = .outOfFuel) ∨
    (main he argv fuel junk = .ub ∧ n < rows.length) ∨
    ∃ s b u v ts, main he argv fuel junk = .exit s ts.flatten ∧ List.Forall₂ (Written rows.length n b u v) cs ts ∧ Reduced rows.length n (given rows) b u v := by
  rw [main_eq ha hgi hn]
  have hne : rows ≠ [] := by rintro rfl; simp at hr
  by_cases hm : o.method = .heuristic
  · exact .inl ⟨hlll_stop ha (by unfold reduce; rw [if_pos hm]), .inl hm⟩
  have he1 := reduce_eq (he := he) hm hp hno (handed cs rows) fuel junk
  cases hs : stuck he.w o.theta rows.length n (made (params he o rows n good) (total he.w o.theta rows.length n) fuel (args o) (first (handed cs rows)) junk) with
  | some p =>
    rw [hs] at he1
    have := hlll_stop ha he1
    rcases stuck_some hs with ⟨rfl, t, call, inp, h⟩ | ⟨rfl, h⟩
    · exact .inr (.inr (.inl ⟨this, one_ub h hr⟩))
    · exact .inr (.inl ⟨this, h⟩)
  | none =>
    rw [hs] at he1
    dsimp only at he1
    rcases reduction_stops (c := params he o rows n good) (run := total he.w o.theta rows.length n) (by change 1 ≤ rows.length; omega) hn1 fuel (args o) (handed cs rows) junk hf hld with ⟨h1, h2, -⟩ | ⟨-, -, s, m', h2⟩
    · rw [h2] at he1
      exact .inl ⟨hlll_stop ha he1, .inr h1⟩
    · rw [h2] at he1
      obtain ⟨t, ht, rfl⟩ := reduction_trel (c := params he o rows n good) (total_good he.w o.theta rows.length n) fuel (args o) (handed cs rows) junk s _ h2
      obtain ⟨ts, k1, k2⟩ := hlll_ret ha hne hn1 he1 (ht.1.trans (by simp [first, identityIf])) (by have := ht.2.1; simpa [first, identityIf] using this)
      exact .inr (.inr (.inr ⟨_, _, _, _, ts, k2, k1, ht.reduced⟩))

theorem exit_inv {cs : List Code} (ha : Asked he.e argv o .hlll cs) {rows : List (List ℤ)} (hgi : Given he.e o rows) {n : ℕ} (hn : Cols rows n) (hno : o.noLll = false) (fuel : ℕ) (junk : Mat ℤ) {s : ℕ} {out : List Char}
    (h : main he argv fuel junk = .exit s out) :
    ∃ good st m', o.method ≠ .heuristic ∧ he.minPrec rows.length n o.delta o.eta o.theta o.c = .ok good ∧
      stuck he.w o.theta rows.length n (made (params he o rows n good) (total he.w o.theta rows.length n) fuel (args o) (first (handed cs rows)) junk) = none ∧
      hlllReduction (params he o rows n good) (total he.w o.theta rows.length n) fuel (args o) (handed cs rows) junk = .done (st, m') ∧ s = statusCode st ∧
      reduce he o rows.length n (handed cs rows) fuel junk = .ret st m' := by
  rw [main_eq ha hgi hn] at h
  cases hre : reduce he o rows.length n (handed cs rows) fuel junk with
  | stop p =>
    have := hlll_stop ha hre
    rw [this] at h
    subst h
    exfalso
    unfold reduce at hre
    by_cases hm : o.method = .heuristic
    · rw [if_pos hm] at hre; cases hre
    rw [if_neg hm] at hre
    cases hp : he.minPrec rows.length n o.delta o.eta o.theta o.c with
    | abort => rw [hp] at hre; cases hre
    | ub => rw [hp] at hre; cases hre
    | ok good =>
      rw [hp] at hre
      dsimp only at hre
      rw [hno, if_neg (by decide)] at hre
      split at hre
      · rename_i hs
        cases hre
        rcases stuck_some hs with ⟨h, -⟩ | ⟨h, -⟩ <;> cases h
      · split at hre <;> cases hre
  | ret st m' =>
    have hre' := hre
    unfold reduce at hre
    by_cases hm : o.method = .heuristic
    · rw [if_pos hm] at hre; cases hre
    rw [if_neg hm] at hre
    cases hp : he.minPrec rows.length n o.delta o.eta o.theta o.c with
    | abort => rw [hp] at hre; cases hre
    | ub => rw [hp] at hre; cases hre
    | ok good =>
      have he1 := reduce_eq (he := he) hm hp hno (handed cs rows) fuel junk
      rw [hre'] at he1
      cases hs : stuck he.w o.theta rows.length n (made (params he o rows n good) (total he.w o.theta rows.length n) fuel (args o) (first (handed cs rows)) junk) with
      | some p => rw [hs] at he1; cases he1
      | none =>
        rw [hs] at he1
        dsimp only at he1
        cases hl : hlllReduction (params he o rows n good) (total he.w o.theta rows.length n) fuel (args o) (handed cs rows) junk with
        | abort => rw [hl] at he1; cases he1
        | outOfFuel => rw [hl] at he1; cases he1
        | done q =>
          obtain ⟨st', m''⟩ := q
          rw [hl] at he1
          dsimp only at he1
          injection he1 with e1 e2
          subst e1 e2
          have hsc : s = statusCode st := by
            unfold hlll at h
            dsimp only at h
            rw [List.length_map, given_pad, format_codes ha] at h
            unfold handed at hre'
            rw [hre'] at h
            dsimp only at h
            split at h
            · cases h
            · cases h; rfl
          exact ⟨good, st, m', hm, rfl, hs, hl, hsc, rfl⟩

/-- **C99 (parameters).**  If the program returns without `-nolll` then `hlll_reduction` was called with the values of the options and the matrix read, with `u` exactly if `u` or `u_inv` is to be written and `u_inv` exactly if it is to be written, every run returned, and the exit
code is 0 exactly if `hlll_reduction` reported success.  With the default method it always does, whatever the runs report (C28). -/
theorem C99_library {cs : List Code} (ha : Asked he.e argv o .hlll cs) {rows : List (List ℤ)} (hgi : Given he.e o rows) {n : ℕ} (hn : Cols rows n) (hno : o.noLll = false) (fuel : ℕ) (junk : Mat ℤ) {s : ℕ} {out : List Char}
    (h : main he argv fuel junk = .exit s out) :
    ∃ c m st m', c.d = rows.length ∧ c.n = n ∧ c.delta = o.delta ∧ c.eta = o.eta ∧ c.bld = he.e.bld ∧ he.minPrec rows.length n o.delta o.eta o.theta o.c = .ok c.goodPrec ∧ m.b = given rows ∧
      (m.u.isSome = true ↔ Code.u ∈ cs ∨ Code.uk ∈ cs ∨ Code.v ∈ cs ∨ Code.vk ∈ cs) ∧ (m.v.isSome = true ↔ Code.v ∈ cs ∨ Code.vk ∈ cs) ∧
      hlllReduction c (total he.w o.theta rows.length n) fuel ⟨o.method, .mpz, o.floatType, o.precision, false⟩ m junk = .done (st, m') ∧
      stuck he.w o.theta rows.length n (made c (total he.w o.theta rows.length n) fuel ⟨o.method, .mpz, o.floatType, o.precision, false⟩ ⟨m.b, identityIf m.u, (identityIf m.v).map transposeMat⟩ junk) = none ∧
      (s = 0 ↔ st = .success) ∧ (o.method = .wrapper → s = 0) := by
  obtain ⟨good, st, m', hm, hp, hs, hl, hsc, -⟩ := exit_inv ha hgi hn hno fuel junk h
  obtain ⟨w1, w2⟩ := wanted cs
  refine ⟨params he o rows n good, handed cs rows, st, m', rfl, rfl, rfl, rfl, rfl, hp, rfl, ?_, ?_, hl, hs, ?_, ?_⟩
  · rw [← w1]; unfold handed; dsimp only; split_ifs with hw <;> simp [hw]
  · rw [← w2]; unfold handed; dsimp only; split_ifs with hw <;> simp [hw]
  · rw [hsc]
    cases st <;> simp [statusCode]
  · intro hw
    rw [hsc]
    have : st = .success := by
      unfold hlllReduction hlllReductionZ at hl
      cases hch : hlllChoice he.e.bld good (args o) with
      | abort => rw [show hlllChoice (params he o rows n good).bld (params he o rows n good).goodPrec (args o) = _ from hch] at hl; cases hl
      | wrapper =>
        rw [show hlllChoice (params he o rows n good).bld (params he o rows n good).goodPrec (args o) = _ from hch] at hl
        dsimp only at hl
        cases hx : hlllReductionWrapper (params he o rows n good) (total he.w o.theta rows.length n) fuel (first (handed cs rows)) junk with
        | none => rw [hx] at hl; cases hl
        | some q =>
          rw [hx] at hl
          cases hl
          exact C28_always_success fuel _ junk _ _ hx
      | single ft p =>
        exfalso
        unfold hlllChoice at hch
        rw [if_neg (show ¬ (args o).meth = .heuristic from hm), if_pos (show (args o).meth = .wrapper from hw)] at hch
        split_ifs at hch
    rw [this]
    rfl

/-- **C99 is violated for one row.**  Unless the arguments do not fit together, `fplll -a hlll` on a matrix with one row reads a row that does not exist. -/
theorem C99_one_row_violated {cs : List Code} (ha : Asked he.e argv o .hlll cs) {rows : List (List ℤ)} (hgi : Given he.e o rows) (hr : rows.length = 1) {n : ℕ} (hn : Cols rows n) (hn1 : 1 ≤ n) {good : ℤ}
    (hp : he.minPrec 1 n o.delta o.eta o.theta o.c = .ok good) (hno : o.noLll = false) (hm : o.method ≠ .heuristic) (hch : hlllChoice he.e.bld good ⟨o.method, .mpz, o.floatType, o.precision, false⟩ ≠ .abort) (hld : 1 ≤ he.e.bld.ldBits)
    (fuel : ℕ) (hf : good.toNat + 1 ≤ fuel) (junk : Mat ℤ) : main he argv fuel junk = .ub := by
  rw [main_eq ha hgi hn]
  refine hlll_stop ha ?_
  rw [hr]
  rw [reduce_eq (he := he) hm hp hno (handed cs rows) fuel junk]
  rcases reduction_stops (c := cfg he.e o 1 n good) (run := total he.w o.theta 1 n) le_rfl hn1 fuel (args o) (handed cs rows) junk hf hld with ⟨h1, -⟩ | ⟨-, h1, -⟩
  · exact absurd h1 hch
  · rw [stuck_row hn1 _ h1]

/-- **C99 (`-nolll`).**  With `-nolll` (and at most as many rows as columns) the program always returns: it writes the basis it was given, identity matrices for `u` and `u_inv`, and the exit code is 0 if `is_hlll_reduced`, run with the precision asked for (default: that of
`hlll_min_prec`), accepts the basis, and 9 (`RED_HLLL_FAILURE`) otherwise. -/
theorem C99_nolll {cs : List Code} (ha : Asked he.e argv o .hlll cs) {rows : List (List ℤ)} (hgi : Given he.e o rows) (hr : 1 ≤ rows.length) {n : ℕ} (hn : Cols rows n) (hrn : rows.length ≤ n) {good : ℤ}
    (hp : he.minPrec rows.length n o.delta o.eta o.theta o.c = .ok good) (hno : o.noLll = true) (hm : o.method ≠ .heuristic) (fuel : ℕ) (junk : Mat ℤ) :
    let p := if o.precision = 0 then good else o.precision
    letI := he.w.ops .mpfr p
    ∃ u v ts, main he argv fuel junk = .exit (if HNaive.isHlllReduced false rows.length n (given rows) (he.w.conv .mpfr p o.delta) (he.w.conv .mpfr p o.eta) (he.w.conv .mpfr p o.theta) (he.w.junk 0 .mpfr p) = true then 0 else 9) ts.flatten ∧
      List.Forall₂ (Written rows.length n (given rows) u v) cs ts ∧ (∀ m, u = some m → m = ident) ∧ ∀ m, v = some m → m = ident := by
  intro p
  letI := he.w.ops .mpfr p
  rw [main_eq ha hgi hn]
  have hne : rows ≠ [] := by rintro rfl; simp at hr
  have hpe : (if o.precision ≠ 0 then o.precision else good) = p := by
    change _ = if o.precision = 0 then good else o.precision
    split_ifs with h1 h2 <;> first | rfl | omega
  have hid : ∀ x : Option (Mat ℤ), ∀ m, identityIf x = some m → m = ident := by
    intro x m h
    cases x with
    | none => cases h
    | some y => cases h; rfl
  have key : reduce he o rows.length n (handed cs rows) fuel junk =
      .ret (if HNaive.isHlllReduced false rows.length n (given rows) (he.w.conv .mpfr p o.delta) (he.w.conv .mpfr p o.eta) (he.w.conv .mpfr p o.theta) (he.w.junk 0 .mpfr p) = true then .success else .hlllFailure)
        ⟨given rows, identityIf (handed cs rows).u, identityIf (handed cs rows).v⟩ := by
    unfold reduce
    rw [if_neg hm, hp]
    dsimp only
    rw [if_pos hno]
    unfold verify
    dsimp only
    rw [hpe, if_neg (by omega), if_neg (by omega), show (handed cs rows).b = given rows from rfl]
    split_ifs <;> rfl
  obtain ⟨ts, h1, h2⟩ := hlll_ret ha hne (by omega) key (by simp [identityIf]) (by simp [identityIf])
  refine ⟨_, _, ts, ?_, h1, hid _, hid _⟩
  rw [h2]
  split_ifs <;> rfl

/-- exact arithmetic, with a rounding for each type and precision -/
noncomputable def exactWorld (cfgs : FT → ℤ → ExactCfg) (srFuel fuel : ℕ) (junk : ℕ → FT → ℤ → Mat ℝ) : HWorld where
  F := fun _ _ => ℝ
  ops := fun ft p => @exactFloat (cfgs ft p)
  conv := fun _ _ q => (q : ℝ)
  srFuel := srFuel
  fuel := fuel
  junk := junk

theorem run_exact {cfgs : FT → ℤ → ExactCfg} {sf f : ℕ} {jk : ℕ → FT → ℤ → Mat ℝ} {theta : ℚ} {d n t : ℕ} {call : Call} {inp : Triple} (hd : 2 ≤ d) (hind : Indep d n (basisQ inp.b)) (hδ : 1 / 2 ≤ call.delta) (hδ1 : call.delta ≤ 1) (hη : 1 / 2 ≤ call.eta)
    (hθ : 0 ≤ theta) {r : Wrapper.Res} (h : one (exactWorld cfgs sf f jk) theta d n t call inp = .ret r) :
    r.status = .success ∧ HLLLReduced n d (basisQ r.out.b) call.delta call.eta theta ∧ Indep d n (basisQ r.out.b) := by
  obtain ⟨h', hz, hout⟩ := one_done h
  letI := cfgs call.ft call.prec
  change HL.zf (F := ℝ) sf f (decide (call.meth = .fast)) (call.delta : ℝ) (call.eta : ℝ) (theta : ℝ) d n inp (jk t call.ft call.prec) = .done r.status h' at hz
  have hδ' : (1 / 2 : ℝ) ≤ call.delta := by have : ((1 / 2 : ℚ) : ℝ) ≤ call.delta := by exact_mod_cast hδ
                                            simpa using this
  have hδ1' : (call.delta : ℝ) ≤ 1 := by exact_mod_cast hδ1
  have hη' : (1 / 2 : ℝ) ≤ call.eta := by have : ((1 / 2 : ℚ) : ℝ) ≤ call.eta := by exact_mod_cast hη
                                          simpa using this
  have hθ' : (0 : ℝ) ≤ theta := by exact_mod_cast hθ
  have hs : r.status = .success := by
    rcases (HL.C30_statuses sf f (decide (call.meth = .fast)) (call.delta : ℝ) (call.eta : ℝ) (theta : ℝ) hd inp (jk t call.ft call.prec) hind).2 _ _ hz with h1 | ⟨-, h1⟩ | ⟨-, h1 | h1⟩
    · exact h1
    · linarith
    · linarith
    · linarith
  rw [hs] at hz
  have hb : r.out.b = h'.m.b := by rw [hout]; rfl
  rw [hb]
  exact ⟨hs, HL.C30_reduced_partial sf f _ _ _ _ inp _ hη' hθ' hind h' hz, Spec.Indep.of_lattice hind (HL.C30_lll sf f _ call.delta _ _ inp _ hind h' hz).2⟩

theorem total_exact {cfgs : FT → ℤ → ExactCfg} {sf f : ℕ} {jk : ℕ → FT → ℤ → Mat ℝ} {theta : ℚ} {d n t : ℕ} {call : Call} {inp : Triple} {last : ℤ} (hind : Indep d n (basisQ inp.b)) :
    Indep d n (basisQ (total (exactWorld cfgs sf f jk) theta d n t call last inp).out.b) := by
  obtain ⟨-, -, T, T', a1, a2, a3, -⟩ := total_good (exactWorld cfgs sf f jk) theta d n t call last inp
  exact Spec.Indep.of_lattice hind (by rw [a3]; exact lattice_mul ⟨T', a1, a2⟩ _)

theorem reduction_exact {cfgs : FT → ℤ → ExactCfg} {sf f : ℕ} {jk : ℕ → FT → ℤ → Mat ℝ} {theta : ℚ} {c : Cfg} (hd : 2 ≤ c.d) {m : Triple} (hind : Indep c.d c.n (basisQ m.b)) (hδ : 1 / 2 ≤ c.delta) (hδ1 : c.delta ≤ 1) (hη : 1 / 2 ≤ c.eta)
    (hθ : 0 ≤ theta) {fuel : ℕ} {a : Args} {junk : Mat ℤ} (hs : stuck (exactWorld cfgs sf f jk) theta c.d c.n (made c (total (exactWorld cfgs sf f jk) theta c.d c.n) fuel a (first m) junk) = none) {st : RedStatus} {m' : Triple}
    (h : hlllReduction c (total (exactWorld cfgs sf f jk) theta c.d c.n) fuel a m junk = .done (st, m')) : st = .success ∧ HLLLReduced c.n c.d (basisQ m'.b) c.delta c.eta theta := by
  have hn : c.d ≤ c.n := indep_le hind
  have key : ∀ (t : ℕ) (call : Call) (last : ℤ) (inp : Triple), call.delta = c.delta → call.eta = c.eta → Indep c.d c.n (basisQ inp.b) → (∃ r, one (exactWorld cfgs sf f jk) theta c.d c.n t call inp = .ret r) →
      (total (exactWorld cfgs sf f jk) theta c.d c.n t call last inp).status = .success ∧
      HLLLReduced c.n c.d (basisQ (zerosFirst c.d c.n (total (exactWorld cfgs sf f jk) theta c.d c.n t call last inp).out).b) c.delta c.eta theta := by
    rintro t call last inp h1 h2 h3 ⟨r, hr⟩
    have ht : total (exactWorld cfgs sf f jk) theta c.d c.n t call last inp = r := by unfold total; rw [hr]
    rw [ht]
    obtain ⟨k1, k2, k3⟩ := run_exact hd h3 (by rw [h1]; exact hδ) (by rw [h1]; exact hδ1) (by rw [h2]; exact hη) hθ hr
    rw [zerosFirst_of_indep (by omega) k3]
    rw [h1, h2] at k2
    exact ⟨k1, k2⟩
  unfold hlllReduction hlllReductionZ at h
  unfold made at hs
  cases hch : hlllChoice c.bld c.goodPrec a with
  | abort => rw [hch] at h; cases h
  | wrapper =>
    rw [hch] at h hs
    dsimp only at h hs
    cases hw : hlllReductionWrapper c (total (exactWorld cfgs sf f jk) theta c.d c.n) fuel (first m) junk with
    | none => rw [hw] at h; cases h
    | some q =>
      rw [hw] at h
      cases h
      refine ⟨C28_always_success fuel _ junk _ _ hw, ?_⟩
      unfold hlllReductionWrapper at hw
      rw [Option.map_eq_some_iff] at hw
      obtain ⟨r, hr1, rfl⟩ := hw
      rw [hr1] at hs
      rw [hlll_eq (by omega) (by omega), Option.map_eq_some_iff] at hr1
      obtain ⟨st1, hb, rfl⟩ := hr1
      have hi := hlllBefore_inv (c := c) (run := total (exactWorld cfgs sf f jk) theta c.d c.n) (P := fun st => Indep c.d c.n (basisQ st.m.b)) (fun call st h => total_exact h) fuel (mk c (first m) junk) hind st1 hb
      obtain ⟨call, h5, -, h6, h7, -⟩ := lastHlll_eq (c := c) (run := total (exactWorld cfgs sf f jk) theta c.d c.n) st1
      dsimp only at hs ⊢
      rw [h5] at hs ⊢
      unfold callHlll at hs ⊢
      dsimp only at hs ⊢
      rw [List.map_cons] at hs
      have := stuck_none hs
      rw [List.length_map] at this
      exact (key _ _ _ _ h6 h7 hi this).2
  | single ft p =>
    rw [hch] at h hs
    dsimp only at h hs
    unfold lllReductionZf at h
    rw [if_neg (by omega)] at h hs
    cases h
    exact key 0 _ 0 _ rfl rfl hind (stuck_none hs)

/-- **C99 (exact arithmetic, partial).**  With exact arithmetic, at least two linearly independent rows, `1/2 ≤ δ ≤ 1`, `η ≥ 1/2` and `θ ≥ 0`: if `fplll -a hlll` returns then its exit code is 0, the basis written is `(δ, η, θ)`-HLLL-reduced and generates the lattice of the input.
Missing: rounding errors; with them the exit code of the default method is 0 in any case (`C99_status_violated`). -/
theorem C99_reduced_partial {cfgs : FT → ℤ → ExactCfg} {sf f : ℕ} {jk : ℕ → FT → ℤ → Mat ℝ} (hw : he.w = exactWorld cfgs sf f jk) {cs : List Code} (ha : Asked he.e argv o .hlll cs) {rows : List (List ℤ)} (hgi : Given he.e o rows) (hr : 2 ≤ rows.length)
    {n : ℕ} (hn : Cols rows n) (hind : Indep rows.length n (basisQ (given rows))) (hδ : 1 / 2 ≤ o.delta) (hδ1 : o.delta ≤ 1) (hη : 1 / 2 ≤ o.eta) (hθ : 0 ≤ o.theta) (hno : o.noLll = false) (fuel : ℕ) (junk : Mat ℤ) {s : ℕ} {out : List Char}
    (h : main he argv fuel junk = .exit s out) :
    s = 0 ∧ ∃ b u v ts, out = List.flatten ts ∧ List.Forall₂ (Written rows.length n b u v) cs ts ∧ Reduced rows.length n (given rows) b u v ∧ HLLLReduced n rows.length (basisQ b) o.delta o.eta o.theta := by
  obtain ⟨good, st, m', hm, hp, hs, hl, hsc, hre⟩ := exit_inv ha hgi hn hno fuel junk h
  have hne : rows ≠ [] := by rintro rfl; simp at hr
  obtain ⟨t, ht, he1⟩ := reduction_trel (c := params he o rows n good) (total_good he.w o.theta rows.length n) fuel (args o) (handed cs rows) junk st m' hl
  have hex : st = .success ∧ HLLLReduced n rows.length (basisQ m'.b) o.delta o.eta o.theta := by
    rw [hw] at hs hl
    exact reduction_exact (c := params he o rows n good) (m := handed cs rows) hr hind hδ hδ1 hη hθ hs hl
  subst he1
  obtain ⟨ts, k1, k2⟩ := hlll_ret ha hne (by have := indep_le hind; omega) hre (ht.1.trans (by simp [identityIf])) (by have := ht.2.1; simpa [identityIf] using this)
  rw [main_eq ha hgi hn, k2, hex.1] at h
  cases h
  exact ⟨rfl, _, _, _, ts, rfl, k1, ht.reduced, hex.2⟩

theorem one_of_done {w : HWorld} {theta : ℚ} {d n t : ℕ} {call : Call} {inp : Triple} {s : RedStatus} {h : HL (w.F call.ft call.prec)}
    (hz : letI := w.ops call.ft call.prec; HL.zf w.srFuel w.fuel (decide (call.meth = .fast)) (w.conv call.ft call.prec call.delta) (w.conv call.ft call.prec call.eta) (w.conv call.ft call.prec theta) d n inp (w.junk t call.ft call.prec) = .done s h) :
    ∃ r, one w theta d n t call inp = .ret r := by
  unfold one
  dsimp only at hz ⊢
  rw [hz]
  exact ⟨_, rfl⟩

/-- **C99 (termination).**  With exact arithmetic, a rounding whose remainders round to zero, at least two linearly independent rows and the parameters of `C99_reduced_partial`, the methods `proved` and `fast` always return with exit code 0 if the other arguments fit:
the main loop makes at most twice the product of the leading Gram determinants plus `d` rounds. -/
theorem C99_returns {cfgs : FT → ℤ → ExactCfg} {sf f : ℕ} {jk : ℕ → FT → ℤ → Mat ℝ} (hw : he.w = exactWorld cfgs sf f jk) (hS : ∀ ft p, @Settles (cfgs ft p)) {cs : List Code} (ha : Asked he.e argv o .hlll cs) {rows : List (List ℤ)} (hgi : Given he.e o rows)
    (hr : 2 ≤ rows.length) {n : ℕ} (hn : Cols rows n) (hind : Indep rows.length n (basisQ (given rows))) (hδ : 1 / 2 ≤ o.delta) (hδ1 : o.delta ≤ 1) (hη : 1 / 2 ≤ o.eta) (hθ : 0 ≤ o.theta) (hno : o.noLll = false) {good : ℤ}
    (hp : he.minPrec rows.length n o.delta o.eta o.theta o.c = .ok good) (hf : 2 * (potential rows.length n (given rows)).toNat + rows.length ≤ f) (hsf : 2 ≤ sf) (hm : o.method = .proved ∨ o.method = .fast)
    (hch : hlllChoice he.e.bld good ⟨o.method, .mpz, o.floatType, o.precision, false⟩ ≠ .abort) (fuel : ℕ) (junk : Mat ℤ) : ∃ out, main he argv fuel junk = .exit 0 out := by
  have hmh : o.method ≠ .heuristic := by rcases hm with h | h <;> rw [h] <;> decide
  have hmw : o.method ≠ .wrapper := by rcases hm with h | h <;> rw [h] <;> decide
  have hne : rows ≠ [] := by rintro rfl; simp at hr
  have hrn := indep_le hind
  obtain ⟨ft, p, hch⟩ : ∃ ft p, hlllChoice he.e.bld good (args o) = .single ft p := by
    cases hx : hlllChoice he.e.bld good (args o) with
    | abort => exact absurd hx hch
    | wrapper =>
      unfold hlllChoice at hx
      rw [if_neg (show ¬ (args o).meth = .heuristic from hmh), if_neg (show ¬ (args o).meth = .wrapper from hmw)] at hx
      unfold select at hx
      dsimp only at hx
      repeat' split at hx
      all_goals cases hx
    | single ft p => exact ⟨ft, p, rfl⟩
  have hre := reduce_eq (he := he) hmh hp hno (handed cs rows) fuel junk
  have hmade : made (cfg he.e o rows.length n good) (total he.w o.theta rows.length n) fuel (args o) (first (handed cs rows)) junk =
      [(⟨.mpz, ft, o.method, if ft = .mpfr then p else 0, o.delta, o.eta, decide (o.method = .fast)⟩, first (handed cs rows))] := by
    unfold made
    rw [show hlllChoice (cfg he.e o rows.length n good).bld (cfg he.e o rows.length n good).goodPrec (args o) = _ from hch]
    dsimp only
    rw [if_neg (by change ¬ (rows.length = 0 ∨ n = 0); omega)]
    rfl
  have hred : ∃ s m', hlllReduction (cfg he.e o rows.length n good) (total he.w o.theta rows.length n) fuel (args o) (handed cs rows) junk = .done (s, m') := by
    unfold hlllReduction hlllReductionZ
    rw [show hlllChoice (cfg he.e o rows.length n good).bld (cfg he.e o rows.length n good).goodPrec (args o) = _ from hch]
    exact ⟨_, _, rfl⟩
  have hone : ∀ call : Call, call.delta = o.delta → call.eta = o.eta → ∃ r, one he.w o.theta rows.length n 0 call (first (handed cs rows)) = .ret r := by
    intro call h1 h2
    rw [hw]
    letI := cfgs call.ft call.prec
    have hδ' : (1 / 2 : ℝ) ≤ call.delta := by
      have : ((1 / 2 : ℚ) : ℝ) ≤ call.delta := by rw [h1]; exact_mod_cast hδ
      simpa using this
    have hδ1' : (call.delta : ℝ) ≤ 1 := by rw [h1]; exact_mod_cast hδ1
    have hθ' : (0 : ℝ) ≤ o.theta := by exact_mod_cast hθ
    obtain ⟨h, hh⟩ := HL.C30_terminates sf f (decide (call.meth = .fast)) (call.delta : ℝ) (call.eta : ℝ) (o.theta : ℝ) hr (first (handed cs rows)) (jk 0 call.ft call.prec) hind (hS _ _) hsf hδ' hδ1' hθ' hf
    exact one_of_done (w := exactWorld cfgs sf f jk) (s := .success) (h := h) hh
  obtain ⟨r, hr1⟩ := hone ⟨.mpz, ft, o.method, if ft = .mpfr then p else 0, o.delta, o.eta, decide (o.method = .fast)⟩ rfl rfl
  obtain ⟨s, m', k⟩ := hred
  rw [hmade, stuck, stuck] at hre
  dsimp only [List.length_nil] at hre
  rw [hr1] at hre
  dsimp only at hre
  rw [k] at hre
  dsimp only at hre
  obtain ⟨t, ht, rfl⟩ := reduction_trel (c := cfg he.e o rows.length n good) (total_good he.w o.theta rows.length n) fuel _ _ _ s _ k
  obtain ⟨ts, -, h2⟩ := hlll_ret ha hne (by omega) hre (ht.1.trans (by simp [identityIf])) (by have := ht.2.1; simpa [identityIf] using this)
  rw [← main_eq ha hgi hn] at h2
  have := (C99_reduced_partial hw ha hgi hr hn hind hδ hδ1 hη hθ hno fuel junk h2).1
  exact ⟨_, by rw [h2, this]⟩

/-- **C99 (`-nolll`, exact arithmetic).**  With exact arithmetic the exit code of `fplll -a hlll -nolll` is 0 exactly if the (linearly independent) rows are `(δ, η, θ)`-HLLL-reduced. -/
theorem C99_nolll_decides {cfgs : FT → ℤ → ExactCfg} {sf f : ℕ} {jk : ℕ → FT → ℤ → Mat ℝ} (hw : he.w = exactWorld cfgs sf f jk) {cs : List Code} (ha : Asked he.e argv o .hlll cs) {rows : List (List ℤ)} (hgi : Given he.e o rows) (hr : 1 ≤ rows.length)
    {n : ℕ} (hn : Cols rows n) (hind : Indep rows.length n (basisQ (given rows))) {good : ℤ} (hp : he.minPrec rows.length n o.delta o.eta o.theta o.c = .ok good) (hno : o.noLll = true) (hm : o.method ≠ .heuristic) (fuel : ℕ) (junk : Mat ℤ) :
    ∃ s out, main he argv fuel junk = .exit s out ∧ (s = 0 ↔ HLLLReduced n rows.length (basisQ (given rows)) o.delta o.eta o.theta) := by
  obtain ⟨u, v, ts, h1, -⟩ := C99_nolll ha hgi hr hn (indep_le hind) hp hno hm fuel junk
  refine ⟨_, _, h1, ?_⟩
  obtain ⟨e, mp, w⟩ := he
  dsimp only at hw
  subst hw
  generalize (if o.precision = 0 then good else o.precision) = p
  letI := cfgs .mpfr p
  have := HNaive.C56_decides_partial rows.length n (given rows) o.delta o.eta o.theta (jk 0 .mpfr p) hind
  rw [← this]
  change (if @HNaive.isHlllReduced ℝ exactFloat false rows.length n (given rows) (o.delta : ℝ) (o.eta : ℝ) (o.theta : ℝ) (jk 0 .mpfr p) = true then 0 else 9) = 0 ↔ _
  split_ifs with hx <;> simp [hx]

/-- **C99 is violated for matrices without rows or columns** (with the parameters the program accepts): `hlll_min_prec` converts a number that is not finite to `int` (C94). -/
theorem C99_empty_violated {rn : ℝ → ℝ} (hmp : ∀ d n (δ η θ c : ℚ), he.minPrec d n δ η θ c = HlllPrec.hlllMinPrec rn d n δ η θ c) (h0 : rn 0 = 0) {cs : List Code} (ha : Asked he.e argv o .hlll cs) {rows : List (List ℤ)} (hgi : Given he.e o rows) {n : ℕ}
    (hn : Cols rows n) (h : rows = [] ∨ n = 0) (hδ : (1 / 4 : ℝ) ≤ o.delta) (hδ1 : (o.delta : ℝ) < 1) (hη : (1 / 2 : ℝ) ≤ o.eta) (hθ : (0 : ℝ) ≤ o.theta) (hηθ : 1 / 2 < rn (o.eta - o.theta)) (hm : o.method ≠ .heuristic) (fuel : ℕ) (junk : Mat ℤ) :
    main he argv fuel junk = .ub := by
  rw [main_eq ha hgi hn]
  refine hlll_stop ha ?_
  unfold reduce
  rw [if_neg hm, hmp, HlllPrec.C94_undefined h0 hδ hδ1 hη hθ hηθ (by rcases h with rfl | h; · exact .inl rfl
                                                                     · exact .inr (.inl h))]

/-- **C99 (rejected parameters).**  The program aborts if `δ`, `η`, `θ` do not satisfy `1/4 ≤ δ < 1`, `θ ≥ 0`, `η ≥ 1/2` and `η - θ > 1/2`. -/
theorem C99_rejects {rn : ℝ → ℝ} (hmp : ∀ d n (δ η θ c : ℚ), he.minPrec d n δ η θ c = HlllPrec.hlllMinPrec rn d n δ η θ c) {cs : List Code} (ha : Asked he.e argv o .hlll cs) {rows : List (List ℤ)} (hgi : Given he.e o rows) {n : ℕ} (hn : Cols rows n)
    (h : ¬ ((1 / 4 : ℝ) ≤ o.delta ∧ (o.delta : ℝ) < 1 ∧ (0 : ℝ) ≤ o.theta ∧ (1 / 2 : ℝ) ≤ o.eta ∧ 1 / 2 < rn (o.eta - o.theta))) (fuel : ℕ) (junk : Mat ℤ) : main he argv fuel junk = .abort := by
  rw [main_eq ha hgi hn]
  refine hlll_stop ha ?_
  unfold reduce
  by_cases hm : o.method = .heuristic
  · rw [if_pos hm]
  rw [if_neg hm, hmp, (HlllPrec.C94_checks o.c).2 h]

/-- **C99 (invalid input).**  If the file cannot be opened, or there is nothing but white space, or something else than a bracket comes first, the exit code is 1 and nothing is written. -/
theorem C99_invalid (ho : readOptions he.e.cv argv (Options.init he.e.cv) = .ok o) (hz : o.intType = .mpz) (fuel : ℕ) (junk : Mat ℤ)
    (h : (∃ f, o.inputFile = some f ∧ he.e.files f = none) ∨
      ∃ w t, (∀ c ∈ w, Ws c) ∧ (t = [] ∨ ∃ c r, t = c :: r ∧ ¬ Ws c ∧ c ≠ '[') ∧ ((o.inputFile = none ∧ he.e.stdin = w ++ t) ∨ ∃ f, o.inputFile = some f ∧ he.e.files f = some (w ++ t))) :
    main he argv fuel junk = .exit 1 [] := by
  have key : (readMatrix (input he.e o)).2.ok = false := by
    rcases h with ⟨f, h1, h2⟩ | ⟨w, t, hw, ht, h⟩
    · have : input he.e o = ⟨[], false⟩ := by unfold input; rw [h1]; dsimp only; rw [h2]
      rw [this]
      rfl
    · have hi : input he.e o = ⟨w ++ t, true⟩ := by
        unfold input
        rcases h with ⟨h2, h3⟩ | ⟨f, h2, h3⟩
        · rw [h2, h3]
        · rw [h2]; dsimp only; rw [h3]
      rw [hi]
      unfold readMatrix
      rcases ht with rfl | ⟨c, r, rfl, hc, hb⟩
      · have : readChar ⟨w ++ [], true⟩ = (none, ⟨[], false⟩) := by
          unfold readChar
          rw [if_pos rfl]
          dsimp only
          rw [dropWs hw]
          rfl
        rw [this]
      · rw [readChar_eq hw (by rw [← isWs_iff] at hc; simpa using hc)]
        dsimp only
        rw [if_neg hb]
  unfold main
  rw [ho]
  dsimp only
  rw [if_neg (not_not.2 hz)]
  unfold runAction
  dsimp only
  rw [if_pos key]

/-! ## Examples: rational numbers, square roots rounded to 20 bits -/

noncomputable def exHEnv (stdin : List Char) : HEnv where
  e := { exEnv stdin with cv := { (exEnv stdin).cv with atoi := exNum, atof := fun s => (exNum s : ℚ) / 100 } }
  minPrec := fun _ _ _ _ _ _ => .ok 60
  w := ⟨fun _ _ => ℚ, fun _ _ => HL.ratFloat, fun _ _ => id, 10, 20, fun _ _ _ _ _ => 0⟩

/-- `fplll -a hlll -of bkuvt` on `(7, 0), (4, 1)`: nothing is written for `t` -/
example : LllCmd.exOut (main (exHEnv "[[7 0][4 1]]".toList) ["-a", "hlll", "-of", "bkuvt"] 100 fun _ _ => 0) =
    some (0, "[[1, 2],\n[-3, 1]]\n[[-1 2 ]\n[-1 1 ]\n]\n[[1 -2 ]\n[1 -1 ]\n]\n".toList) := by decide +kernel

/-- **C99 is violated: the exit code of the default method does not tell whether the reduction succeeded.**  With `δ = 0.3` all runs on `(20, 0), (9, 1)` end with `RED_HLLL_SR_FAILURE`, as the code compares with `δ` in place of `η`; `-m proved` exits with 11, the default method
with 0.  The basis written is that of the input, which does not satisfy Lovász' condition for `δ = 0.3`. -/
theorem C99_status_violated :
    LllCmd.exOut (main (exHEnv "[[20 0][9 1]]".toList) ["-a", "hlll", "-d", "30", "-m", "proved"] 100 fun _ _ => 0) = some (11, "[[20 0 ]\n[9 1 ]\n]\n".toList) ∧
    LllCmd.exOut (main (exHEnv "[[20 0][9 1]]".toList) ["-a", "hlll", "-d", "30"] 100 fun _ _ => 0) = some (0, "[[20 0 ]\n[9 1 ]\n]\n".toList) ∧
    ((9 : ℚ) ^ 2 + 1 ^ 2 < 3 / 10 * 20 ^ 2) := by
  refine ⟨by decide +kernel, by decide +kernel, by norm_num⟩

/-- `fplll -a hlll -nolll` on a basis that is not reduced and on its reduction -/
example : LllCmd.exOut (main (exHEnv "[[7 0][4 1]]".toList) ["-a", "hlll", "-nolll", "-of", "u"] 100 fun _ _ => 0) = some (9, "[[1 0 ]\n[0 1 ]\n]\n".toList) ∧
    LllCmd.exOut (main (exHEnv "[[1 2][-3 1]]".toList) ["-a", "hlll", "-nolll", "-of", "b"] 100 fun _ _ => 0) = some (0, "[[1 2 ]\n[-3 1 ]\n]\n".toList) := by
  refine ⟨by decide +kernel, by decide +kernel⟩

noncomputable def exOpts : Options ℚ := { Options.init (exHEnv []).e.cv with action := .hlll }

theorem ex_given (w : HWorld) (rows : List (List ℤ)) : Given { exHEnv (matrixText false rows) with w := w }.e exOpts rows := ⟨_, [], matrixText_tok false _, .inl ⟨rfl, by simp [exHEnv, exEnv]⟩⟩

theorem ex_asked (t : List Char) (w : HWorld) : Asked { exHEnv t with w := w }.e ["-a", "hlll"] exOpts .hlll [.b] := ⟨by rfl, rfl, rfl, .inr ⟨rfl, rfl⟩⟩

/-- the hypotheses of `C99_end_to_end_partial` and `C99_library` are met by `fplll -a hlll` on `(7, 0), (4, 1)` -/
example : ∃ t b, main (exHEnv (matrixText false [[7, 0], [4, 1]])) ["-a", "hlll"] 100 (fun _ _ => 0) = .exit 0 t ∧ Plain 2 2 b t ∧ lattice (toM 2 2 b) = lattice (toM 2 2 (given [[7, 0], [4, 1]])) := by
  have h : LllCmd.exOut (main (exHEnv (matrixText false [[7, 0], [4, 1]])) ["-a", "hlll"] 100 fun _ _ => 0) = some (0, "[[1 2 ]\n[-3 1 ]\n]\n".toList) := by decide +kernel
  have h' := RedCmd.exOut_exit h
  rcases C99_end_to_end_partial (he := exHEnv (matrixText false [[7, 0], [4, 1]])) (o := exOpts) (ex_asked _ _) (ex_given _ _) (by decide) ⟨by decide, fun _ => ⟨[7, 0], by decide, rfl⟩, by decide⟩ (n := 2) (by decide) (good := 60) rfl rfl (by decide) 100 (by decide)
    (fun _ _ => 0) with ⟨h1, -⟩ | ⟨h1, -⟩ | ⟨h1, -⟩ | ⟨s, b, u, v, ts, h1, h2, h3⟩
  · rw [h'] at h1; cases h1
  · rw [h'] at h1; cases h1
  · rw [h'] at h1; cases h1
  · rw [h'] at h1
    cases h2 with
    | cons k1 k2 =>
      cases k2
      injection h1 with e1 e2
      refine ⟨_, b, by rw [h'], ?_, h3.1⟩
      rw [e2]
      cases k1 with
      | b t ht => simpa using ht

/-- exact arithmetic -/
noncomputable def exExact (rows : List (List ℤ)) : HEnv := { exHEnv (matrixText false rows) with w := exactWorld (fun _ _ => exactExample) 2 5000 fun _ _ _ _ _ => 0 }

theorem ex_indep : Indep 2 2 (basisQ (given [[7, 0], [4, 1]])) := HL.indep2 (by decide)

/-- `C99_nolll_decides` applies -/
example : ∃ s out, main (exExact [[7, 0], [4, 1]]) ["-a", "hlll", "-nolll"] 100 (fun _ _ => 0) = .exit s out ∧ (s = 0 ↔ HLLLReduced 2 2 (basisQ (given [[7, 0], [4, 1]])) ((99 / 100 : ℚ) : ℝ) ((51 / 100 : ℚ) : ℝ) ((1 / 1000 : ℚ) : ℝ)) :=
  C99_nolll_decides (he := exExact [[7, 0], [4, 1]]) (o := { exOpts with noLll := true }) (cs := [.b]) rfl ⟨by rfl, rfl, rfl, .inr ⟨rfl, rfl⟩⟩ ⟨_, [], matrixText_tok false _, .inl ⟨rfl, by simp [exExact, exHEnv, exEnv]⟩⟩ (by decide)
    ⟨by decide, fun _ => ⟨[7, 0], by decide, rfl⟩, by decide⟩ ex_indep (good := 60) rfl rfl (by decide) 100 _

/-- the options of `fplll -a hlll -m proved` -/
noncomputable def exProved : Options ℚ := { exOpts with method := .proved }

/-- `C99_returns` and `C99_reduced_partial` apply to `fplll -a hlll -m proved` on `(7, 0), (4, 1)` with exact arithmetic -/
example : ∃ t b, main (exExact [[7, 0], [4, 1]]) ["-a", "hlll", "-m", "proved"] 100 (fun _ _ => 0) = .exit 0 t ∧ Plain 2 2 b t ∧ HLLLReduced 2 2 (basisQ b) ((99 / 100 : ℚ) : ℝ) ((51 / 100 : ℚ) : ℝ) ((1 / 1000 : ℚ) : ℝ) := by
  have ha : Asked (exExact [[7, 0], [4, 1]]).e ["-a", "hlll", "-m", "proved"] exProved .hlll [.b] := ⟨by rfl, rfl, rfl, .inr ⟨rfl, rfl⟩⟩
  have hg : Given (exExact [[7, 0], [4, 1]]).e exProved [[7, 0], [4, 1]] := ⟨_, [], matrixText_tok false _, .inl ⟨rfl, by simp [exExact, exHEnv, exEnv]⟩⟩
  have hc : Cols [[7, 0], [4, 1]] 2 := ⟨by decide, fun _ => ⟨[7, 0], by decide, rfl⟩, by decide⟩
  have hp : potential 2 2 (given [[7, 0], [4, 1]]) = 49 * 49 := by
    unfold potential gramDet
    rw [Finset.prod_range_succ, Finset.prod_range_one, Matrix.det_fin_two, Matrix.det_fin_one]
    decide
  obtain ⟨out, h⟩ := C99_returns (he := exExact [[7, 0], [4, 1]]) rfl (fun _ _ => HL.settles_example) ha hg (by decide) hc ex_indep (by decide +kernel) (by decide +kernel) (by decide +kernel) (by decide +kernel) rfl (good := 60) rfl
    (by change 2 * (potential 2 2 (given [[7, 0], [4, 1]])).toNat + 2 ≤ 5000; rw [hp]; decide) le_rfl (.inl rfl) (by decide +kernel) 100 fun _ _ => 0
  obtain ⟨-, b, u, v, ts, rfl, h2, -, h4⟩ := C99_reduced_partial (he := exExact [[7, 0], [4, 1]]) rfl ha hg (by decide) hc ex_indep (by decide +kernel) (by decide +kernel) (by decide +kernel) (by decide +kernel) rfl 100 _ h
  refine ⟨_, b, h, ?_, h4⟩
  cases h2 with
  | cons k1 k2 =>
    cases k2
    cases k1 with
    | b t ht => simpa using ht

end HlllCmd
end Fplll

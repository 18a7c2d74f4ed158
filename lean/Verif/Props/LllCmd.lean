import Verif.Model.LllCmd
import Verif.Props.Cli
import Verif.Props.TextIO
import Verif.Props.WrapperOk
import Verif.Props.BkzDump

/-!
# C96: `fplll -a lll`, from the arguments and the input text to the output text and the exit code
-/

namespace Fplll
namespace LllCmd

open Wrapper Cli TextIO ErrB Gen Spec Json
open BkzDump (number_int blank_nil)

/-! ## Specification -/

/-- `rows` lists the entries of the `r × c` matrix `m` -/
def IsMat (r c : ℕ) (m : ℕ → ℕ → ℤ) (rows : List (List ℤ)) : Prop :=
  rows.length = r ∧ ∀ i, i < r → ∃ row, rows[i]? = some row ∧ row.length = c ∧ ∀ j, j < c → row[j]? = some (m i j)

/-- a line (or more) with a matrix in the format that is also read -/
def Plain (r c : ℕ) (m : ℕ → ℕ → ℤ) (t : List Char) : Prop := ∃ rows t', IsMat r c m rows ∧ MatTok rows t' ∧ t = t' ++ ['\n']

/-- a nested list of integers, as in Python, Sage or JSON -/
def Nested (rows : List (List ℤ)) (v : JVal) : Prop :=
  ∃ ws, v = .arr ws ∧ List.Forall₂ (fun row w => ∃ es, w = JVal.arr es ∧ List.Forall₂ (fun z x => ∃ t, x = JVal.num t ∧ IntTok z t) row es) rows ws

/-- a line (or more) with a matrix in the format of the codes with `k` -/
def Comma (r c : ℕ) (m : ℕ → ℕ → ℤ) (t : List Char) : Prop := ∃ rows v t', IsMat r c m rows ∧ Nested rows v ∧ Val v t' ∧ t = t' ++ ['\n']

/-- the text for a code of the output format (README, section on the option `-of`), if the result is the basis `b`, the transformations `u`, `v` and the status `s` -/
inductive Shows (d n s : ℕ) (b : ℕ → ℕ → ℤ) (u v : Option (ℕ → ℕ → ℤ)) : Code → List Char → Prop
  | b (t) : Plain d n b t → Shows d n s b u v .b t
  | bk (t) : Comma d n b t → Shows d n s b u v .bk t
  | u (m t) : u = some m → Plain d d m t → Shows d n s b u v .u t
  | uk (m t) : u = some m → Comma d d m t → Shows d n s b u v .uk t
  | v (m t) : v = some m → Plain d d m t → Shows d n s b u v .v t
  | vk (m t) : v = some m → Comma d d m t → Shows d n s b u v .vk t
  | t (t) : IntTok s t → Shows d n s b u v .t (t ++ ['\n'])
  | blank : Shows d n s b u v .blank ['\n']

/-- the matrix read: short rows are filled with zeros -/
def given (rows : List (List ℤ)) : ℕ → ℕ → ℤ := fun i j => ((rows[i]?.getD [])[j]?).getD 0

/-! ## Printing -/

theorem isMat_rowsOf (r c : ℕ) (m : ℕ → ℕ → ℤ) : IsMat r c m (rowsOf r c m) := by
  refine ⟨by simp [rowsOf], fun i hi => ⟨(List.range c).map (m i), by simp [rowsOf, hi], by simp, fun j hj => by simp [hj]⟩⟩

theorem plain_item (r c : ℕ) (m : ℕ → ℕ → ℤ) : ∃ t, matItem false (rowsOf r c m) = some t ∧ Plain r c m t :=
  ⟨_, rfl, _, _, isMat_rowsOf r c m, matrixText_tok true _, rfl⟩

theorem commaRow_elems : ∀ row : List ℤ, row ≠ [] → ∃ t, commaRow row = some t ∧ ∀ a, Blank a → Elems (row.map fun z => .num (intText z)) (a ++ t)
  | [], h => absurd rfl h
  | [x], _ => ⟨_, rfl, fun a ha => by
      have := Elems.one (.num (intText x)) a (intText x) [] ha (.num _ (number_int x)) blank_nil
      simpa using this⟩
  | x :: y :: l, _ => by
    obtain ⟨t, h1, h2⟩ := commaRow_elems (y :: l) (by simp)
    refine ⟨_, by rw [commaRow, h1]; rfl, fun a ha => ?_⟩
    have := Elems.cons (.num (intText x)) _ a (intText x) [] _ ha (.num _ (number_int x)) blank_nil (h2 [' '] (by unfold Blank; decide))
    simpa using this

theorem commaRows_elems : ∀ rows : List (List ℤ), rows ≠ [] → (∀ r ∈ rows, r ≠ []) →
    ∃ t, commaRows rows = some t ∧ ∀ a, Blank a → Elems (rows.map fun row => .arr (row.map fun z => .num (intText z))) (a ++ t)
  | [], h, _ => absurd rfl h
  | [x], _, hr => by
    obtain ⟨t, h1, h2⟩ := commaRow_elems x (hr x (by simp))
    refine ⟨_, by rw [commaRows, h1]; rfl, fun a ha => ?_⟩
    have := Elems.one _ a _ [] ha (.arr _ t (by simpa using h2 [] blank_nil)) blank_nil
    simpa using this
  | x :: y :: l, _, hr => by
    obtain ⟨t, h1, h2⟩ := commaRow_elems x (hr x (by simp))
    obtain ⟨t', h3, h4⟩ := commaRows_elems (y :: l) (by simp) (fun r h => hr r (by simp [h]))
    refine ⟨_, by rw [commaRows, h1, h3], fun a ha => ?_⟩
    have := Elems.cons _ _ a _ [] _ ha (.arr _ t (by simpa using h2 [] blank_nil)) blank_nil (h4 ['\n'] (by unfold Blank; decide))
    simpa using this

theorem nested_map (rows : List (List ℤ)) : Nested rows (.arr (rows.map fun row => .arr (row.map fun z => .num (intText z)))) := by
  refine ⟨_, rfl, ?_⟩
  rw [List.forall₂_map_right_iff, List.forall₂_same]
  intro row _
  refine ⟨_, rfl, ?_⟩
  rw [List.forall₂_map_right_iff, List.forall₂_same]
  exact fun z _ => ⟨_, rfl, intText_tok z⟩

theorem rowsOf_ne {r c : ℕ} (hr : 1 ≤ r) (hc : 1 ≤ c) (m : ℕ → ℕ → ℤ) : rowsOf r c m ≠ [] ∧ ∀ x ∈ rowsOf r c m, x ≠ [] := by
  constructor
  · intro h
    have := congrArg List.length h
    simp [rowsOf] at this
    omega
  · intro x hx h
    obtain ⟨i, -, rfl⟩ := List.mem_map.1 hx
    have := congrArg List.length h
    simp at this
    omega

theorem comma_item {r c : ℕ} (hr : 1 ≤ r) (hc : 1 ≤ c) (m : ℕ → ℕ → ℤ) : ∃ t, matItem true (rowsOf r c m) = some t ∧ Comma r c m t := by
  obtain ⟨h1, h2⟩ := rowsOf_ne hr hc m
  obtain ⟨t, h3, h4⟩ := commaRows_elems _ h1 h2
  refine ⟨'[' :: (t ++ [']']) ++ ['\n'], ?_, _, _, '[' :: (t ++ [']']), isMat_rowsOf r c m, nested_map _, .arr _ t (by simpa using h4 [] blank_nil), rfl⟩
  show printComma _ = _
  rw [printComma, h3]
  simp

theorem commaRow_nil {row : List ℤ} : commaRow row = none ↔ row = [] := by
  constructor
  · intro h
    by_contra hne
    obtain ⟨t, h1, -⟩ := commaRow_elems row hne
    rw [h1] at h
    cases h
  · rintro rfl
    rfl

/-- **C96 is violated for matrices without rows or columns**: `print_comma` reads `matrix[r - 1]` or `[c - 1]` out of bounds. -/
theorem C96_print_comma_violated {r c : ℕ} (h : r = 0 ∨ c = 0) (m : ℕ → ℕ → ℤ) : printComma (rowsOf r c m) = none := by
  have key : ∀ rows : List (List ℤ), (rows = [] ∨ ∃ x ∈ rows, x = []) → commaRows rows = none := by
    intro rows
    induction rows with
    | nil => intro _; rfl
    | cons x rows ih =>
      intro h
      cases rows with
      | nil =>
        rcases h with h | ⟨y, hy, rfl⟩
        · cases h
        · rw [List.mem_singleton] at hy; subst hy; rfl
      | cons y l =>
        rw [commaRows]
        rcases h with h | ⟨z, hz, rfl⟩
        · cases h
        · rcases List.mem_cons.1 hz with rfl | hz
          · rfl
          · rw [ih (.inr ⟨_, hz, rfl⟩)]
            cases commaRow x <;> rfl
  unfold printComma
  rw [key]
  · rfl
  · by_cases hr : r = 0
    · left; simp [rowsOf, hr]
    · right
      have hc : c = 0 := h.resolve_left hr
      exact ⟨[], by simp [rowsOf, hc, hr], rfl⟩

theorem output_codes {d n : ℕ} (hd : 1 ≤ d) (hn : 1 ≤ n) (s : RedStatus) (m : Triple) (cs : List Code)
    (hu : (.u ∈ cs ∨ .uk ∈ cs) → m.u.isSome = true) (hv : (.v ∈ cs ∨ .vk ∈ cs) → m.v.isSome = true) :
    ∃ ts, List.Forall₂ (Shows d n (statusCode s) m.b m.u m.v) cs ts ∧ output d n s m (cs.map Code.item) = some ts.flatten := by
  induction cs with
  | nil => exact ⟨[], .nil, rfl⟩
  | cons x cs ih =>
    obtain ⟨ts, h1, h2⟩ := ih (fun h => hu (by simpa using h.imp .inr .inr)) (fun h => hv (by simpa using h.imp .inr .inr))
    have key : ∃ t, itemText d n s m x.item = some t ∧ Shows d n (statusCode s) m.b m.u m.v x t := by
      cases x with
      | b => obtain ⟨t, k1, k2⟩ := plain_item d n m.b; exact ⟨t, k1, .b t k2⟩
      | bk => obtain ⟨t, k1, k2⟩ := comma_item hd hn m.b; exact ⟨t, k1, .bk t k2⟩
      | u =>
        obtain ⟨q, hq⟩ := Option.isSome_iff_exists.1 (hu (by simp))
        obtain ⟨t, k1, k2⟩ := plain_item d d q
        exact ⟨t, by rw [← k1]; simp [itemText, Code.item, hq, transRows], .u q t hq k2⟩
      | uk =>
        obtain ⟨q, hq⟩ := Option.isSome_iff_exists.1 (hu (by simp))
        obtain ⟨t, k1, k2⟩ := comma_item hd hd q
        exact ⟨t, by rw [← k1]; simp [itemText, Code.item, hq, transRows], .uk q t hq k2⟩
      | v =>
        obtain ⟨q, hq⟩ := Option.isSome_iff_exists.1 (hv (by simp))
        obtain ⟨t, k1, k2⟩ := plain_item d d q
        exact ⟨t, by rw [← k1]; simp [itemText, Code.item, hq, transRows], .v q t hq k2⟩
      | vk =>
        obtain ⟨q, hq⟩ := Option.isSome_iff_exists.1 (hv (by simp))
        obtain ⟨t, k1, k2⟩ := comma_item hd hd q
        exact ⟨t, by rw [← k1]; simp [itemText, Code.item, hq, transRows], .vk q t hq k2⟩
      | t => exact ⟨_, rfl, .t _ (by exact_mod_cast intText_tok (statusCode s))⟩
      | blank => exact ⟨_, rfl, .blank⟩
    obtain ⟨t, k1, k2⟩ := key
    exact ⟨t :: ts, .cons k2 h1, by rw [List.map_cons, output, k1, h2]; rfl⟩

/-! ## The reduction -/

/-- `lll_reduction` returns a matrix `u` or `u_inv` exactly if it was given one -/
theorem lllReduction_some {c : Cfg} (w : World) (hd : 1 ≤ c.d) (hn : 1 ≤ c.n) (hg : ∀ x : ℤ, -2 ^ 63 ≤ x → x < 2 ^ 63 → c.getSi x = x) (fuel : ℕ) (a : Args) (m : Triple) (junk : Mat ℤ)
    (s : RedStatus) (m' : Triple) (h : lllReduction c (lllRun w c.d c.n) fuel a m junk = .done (s, m')) : m'.u.isSome = m.u.isSome ∧ m'.v.isSome = m.v.isSome := by
  have hr : GoodRun c.d c.n (lllRun w c.d c.n) := fun t call last inp => lllRun_trel w hd hn t call last inp
  unfold lllReduction lllReductionZ at h
  cases hch : lllChoice c.bld c.goodPrec a with
  | abort => rw [hch] at h; cases h
  | wrapper =>
    rw [hch] at h
    dsimp only at h
    cases hw : lllReductionWrapper c (lllRun w c.d c.n) fuel ⟨m.b, identityIf m.u, (identityIf m.v).map transposeMat⟩ junk with
    | none => rw [hw] at h; cases h
    | some q =>
      rw [hw] at h
      cases h
      unfold lllReductionWrapper at hw
      rw [Option.map_eq_some_iff] at hw
      obtain ⟨r, hr1, rfl⟩ := hw
      obtain ⟨k1, k2, -⟩ := (lll_inv hr hg fuel junk r hr1).trans (zerosFirst_trel _)
      exact ⟨k1.trans (by simp [identityIf]), by simpa [identityIf] using k2⟩
  | single ft p =>
    rw [hch] at h
    dsimp only at h
    cases h
    unfold lllReductionZf
    rw [if_neg (by omega)]
    obtain ⟨k1, k2, -⟩ := (hr 0 ⟨a.zt, ft, a.meth, if ft = .mpfr then p else 0, c.delta, c.eta, decide (a.meth = .fast)⟩ 0 ⟨m.b, identityIf m.u, (identityIf m.v).map transposeMat⟩).trans (zerosFirst_trel _)
    exact ⟨k1.trans (by simp [identityIf]), by simpa [identityIf] using k2⟩

theorem given_pad (rows : List (List ℤ)) (c : ℕ) : matOf (rows.map (padRow c)) = given rows := by
  funext i j
  unfold matOf given
  rw [List.getD_eq_getElem?_getD, List.getD_eq_getElem?_getD, List.getElem?_map]
  cases rows[i]? with
  | none => rfl
  | some l =>
    simp only [Option.map_some, Option.getD_some, padRow, List.getElem?_append, List.getElem?_replicate]
    split_ifs with h1 h2
    · rfl
    · rw [List.getElem?_eq_none (by omega)]; rfl
    · rw [List.getElem?_eq_none (by omega)]

/-! ## The theorems -/

variable {e : Env} {argv : List String} {o : Options ℚ}

/-- the arguments select the action `lll` for `mpz_t` integers, and `cs` are the codes of the output format (default: `b`) -/
structure Asked (e : Env) (argv : List String) (o : Options ℚ) (cs : List Code) : Prop where
  opts : readOptions e.cv argv (Options.init e.cv) = .ok o
  action : o.action = .lll
  int : o.intType = .mpz
  codes : o.outputFormat = some (String.ofList (cs.flatMap Code.text)) ∨ o.outputFormat = none ∧ cs = [.b]

/-- the matrix `rows` is what the program finds in its input -/
def Given (e : Env) (o : Options ℚ) (rows : List (List ℤ)) : Prop :=
  ∃ t tail, MatTok rows t ∧ ((o.inputFile = none ∧ e.stdin = t ++ tail) ∨ ∃ f, o.inputFile = some f ∧ e.files f = some (t ++ tail))

/-- `n` is the length of the longest row -/
def Cols (rows : List (List ℤ)) (n : ℕ) : Prop := (∀ l ∈ rows, l.length ≤ n) ∧ (rows ≠ [] → ∃ l ∈ rows, l.length = n) ∧ (rows = [] → n = 0)

theorem format_codes {cs : List Code} (h : Asked e argv o cs) : format o = cs.flatMap Code.text := by
  unfold format
  rcases h.codes with h1 | ⟨h1, rfl⟩
  · rw [h1]; simp
  · rw [h1]; rfl

theorem cols_eq {rows : List (List ℤ)} {n : ℕ} (h : Cols rows n) : maxLen rows = n := by
  obtain ⟨h1, h2, h3⟩ := maxLen_spec rows
  obtain ⟨k1, k2, k3⟩ := h
  by_cases hr : rows = []
  · rw [h3 hr, k3 hr]
  · obtain ⟨l, hl, e1⟩ := h2 hr
    obtain ⟨l', hl', e2⟩ := k2 hr
    have := k1 l hl
    have := h1 l' hl'
    omega

theorem main_eq {cs : List Code} (ha : Asked e argv o cs) {rows : List (List ℤ)} (hg : Given e o rows) {n : ℕ} (hn : Cols rows n) (fuel : ℕ) (junk : Mat ℤ) :
    main e argv fuel junk = lll e o (rows.map (padRow n)) n fuel junk := by
  obtain ⟨t, tail, h1, h2⟩ := hg
  have hi : input e o = ⟨t ++ tail, true⟩ := by
    unfold input
    rcases h2 with ⟨h2, h3⟩ | ⟨f, h2, h3⟩
    · rw [h2, h3]
    · rw [h2]; dsimp only; rw [h3]
  unfold main
  rw [ha.opts]
  dsimp only
  rw [if_neg (not_not.2 ha.int)]
  unfold runAction
  dsimp only
  rw [hi, readMatrix_eq h1 tail, cols_eq hn]
  dsimp only
  rw [if_neg (by decide), if_neg (not_not.2 ha.action)]

/-- the parameters with which the reduction is run -/
abbrev params (e : Env) (o : Options ℚ) (rows : List (List ℤ)) (n : ℕ) (good : ℤ) : Cfg := cfg e o rows.length n good

theorem lll_eq {cs : List Code} (ha : Asked e argv o cs) {rows : List (List ℤ)} {n : ℕ} (hr : rows ≠ []) (hn1 : 1 ≤ n) {rho : ℚ} {good : ℤ} (hp : computeMinPrec e.arith e.logU e.logD true rows.length o.delta o.eta e.epsilon = .ok rho good)
    (hg : ∀ x : ℤ, -2 ^ 63 ≤ x → x < 2 ^ 63 → e.getSi x = x) (fuel : ℕ) (junk : Mat ℤ) {s : RedStatus} {m' : Triple} {um vm : Option (Mat ℤ)} (hum : um = if (wantTransforms (cs.flatMap Code.text)).1 then some fun _ _ => 0 else none)
    (hvm : vm = if (wantTransforms (cs.flatMap Code.text)).2 then some fun _ _ => 0 else none) (hrej : rejected (args o) = false)
    (h : lllReduction (params e o rows n good) (lllRun (world e o) rows.length n) fuel (args o) ⟨given rows, um, vm⟩ junk = .done (s, m')) :
    ∃ ts, List.Forall₂ (Shows rows.length n (statusCode s) m'.b m'.u m'.v) cs ts ∧ lll e o (rows.map (padRow n)) n fuel junk = .exit (statusCode s) ts.flatten := by
  have hd : 1 ≤ rows.length := List.length_pos_iff.2 hr
  obtain ⟨k1, k2⟩ := lllReduction_some (c := params e o rows n good) (world e o) hd hn1 hg fuel (args o) ⟨given rows, um, vm⟩ junk s m' h
  obtain ⟨c1, c2⟩ := C55_computed cs
  rw [C55_printed] at c1 c2
  obtain ⟨ts, t1, t2⟩ := output_codes hd hn1 s m' cs
    (fun hx => by
      rw [k1, hum, if_pos (c1 ?_)]
      · rfl
      · rcases hx with hx | hx
        · exact ⟨false, List.mem_map.2 ⟨_, hx, rfl⟩⟩
        · exact ⟨true, List.mem_map.2 ⟨_, hx, rfl⟩⟩)
    (fun hx => by
      rw [k2, hvm, if_pos (c2 ?_)]
      · rfl
      · rcases hx with hx | hx
        · exact ⟨false, List.mem_map.2 ⟨_, hx, rfl⟩⟩
        · exact ⟨true, List.mem_map.2 ⟨_, hx, rfl⟩⟩)
  refine ⟨ts, t1, ?_⟩
  unfold lll
  dsimp only
  rw [if_neg (by rw [hrej]; decide), List.length_map, if_neg (by omega), hp]
  dsimp only
  rw [given_pad, format_codes ha, ← hum, ← hvm, h]
  dsimp only
  rw [C55_printed, t2]

/-- **C96 (end to end).**  For every command line that selects the action `lll` (with `mpz_t` integers) and every input that starts with a matrix in the documented format, with at least one row and one column, and whatever the floating-point
arithmetic does: if `l2_min_prec` is defined then the program aborts (inconsistent method, type and precision) or writes exactly the items asked for, in this order and in the documented formats, where the basis written generates the lattice
of the input, `u` transforms one into the other and is unimodular, `u_inv` is its inverse, and the number written for `t` is the exit code. -/
theorem C96_end_to_end {cs : List Code} (ha : Asked e argv o cs) {rows : List (List ℤ)} (hgi : Given e o rows) (hr : rows ≠ []) {n : ℕ} (hn : Cols rows n) (hn1 : 1 ≤ n) {rho : ℚ} {good : ℤ}
    (hp : computeMinPrec e.arith e.logU e.logD true rows.length o.delta o.eta e.epsilon = .ok rho good) (hg : ∀ x : ℤ, -2 ^ 63 ≤ x → x < 2 ^ 63 → e.getSi x = x) (fuel : ℕ) (hf : good.toNat + 2 ≤ fuel) (junk : Mat ℤ) :
    (main e argv fuel junk = .abort ∧ lllChoice e.bld good (args o) = .abort) ∨
    ∃ s b u v ts, main e argv fuel junk = .exit s ts.flatten ∧ List.Forall₂ (Shows rows.length n s b u v) cs ts ∧ Reduced rows.length n (given rows) b u v := by
  rw [main_eq ha hgi hn]
  have hd : 1 ≤ rows.length := List.length_pos_iff.2 hr
  by_cases hrej : rejected (args o) = true
  · left
    refine ⟨by unfold lll; dsimp only; rw [if_pos hrej], ?_⟩
    unfold rejected at hrej
    unfold lllChoice
    split_ifs at hrej ⊢ <;> simp_all
  replace hrej : rejected (args o) = false := by simpa using hrej
  obtain ⟨um, hum⟩ : ∃ um, um = if (wantTransforms (cs.flatMap Code.text)).1 then some (fun _ _ => 0 : Mat ℤ) else none := ⟨_, rfl⟩
  obtain ⟨vm, hvm⟩ : ∃ vm, vm = if (wantTransforms (cs.flatMap Code.text)).2 then some (fun _ _ => 0 : Mat ℤ) else none := ⟨_, rfl⟩
  rcases C53_stops (c := params e o rows n good) (run := lllRun (world e o) rows.length n) fuel (args o) ⟨given rows, um, vm⟩ junk hf with h | ⟨⟨s, m'⟩, h⟩
  · left
    constructor
    · unfold lll
      dsimp only
      rw [if_neg (by rw [hrej]; decide), List.length_map, if_neg (by omega), hp]
      dsimp only
      rw [given_pad, format_codes ha, ← hum, ← hvm, h]
    · unfold lllReduction lllReductionZ at h
      cases hch : lllChoice e.bld good (args o) with
      | abort => rfl
      | wrapper =>
        rw [show lllChoice (params e o rows n good).bld (params e o rows n good).goodPrec (args o) = .wrapper from hch] at h
        dsimp only at h
        split at h
        · rename_i hx
          split at hx <;> cases hx
        · cases h
        · cases h
      | single ft p =>
        rw [show lllChoice (params e o rows n good).bld (params e o rows n good).goodPrec (args o) = .single ft p from hch] at h
        cases h
  · right
    obtain ⟨ts, h1, h2⟩ := lll_eq ha hr hn1 hp hg fuel junk hum hvm hrej h
    exact ⟨_, _, _, _, ts, h2, h1, C53_lll_reduction (c := params e o rows n good) (world e o) hd hn1 hg fuel (args o) ⟨given rows, um, vm⟩ junk s m' h⟩

/-- **C96 (status).**  Different outcomes have different exit codes; 0 is success; no code is lost as the operating system keeps eight bits. -/
theorem C96_status : statusCode .success = 0 ∧ (∀ s t, statusCode s = statusCode t → s = t) ∧ ∀ s, statusCode s < 256 := by
  refine ⟨rfl, fun s t h => ?_, fun s => ?_⟩
  · cases s <;> cases t <;> first | rfl | (exfalso; revert h; decide)
  · cases s <;> decide

/-- **C96 (parameters).**  If the program returns then `lll_reduction` was called with the values of the options and the matrix read, with `u` exactly if `u` or `u_inv` is to be written and `u_inv` exactly if it is to be written; the exit code is 0
exactly if it succeeded. -/
theorem C96_library {cs : List Code} (ha : Asked e argv o cs) {rows : List (List ℤ)} (hgi : Given e o rows) (hr : rows ≠ []) {n : ℕ} (hn : Cols rows n) (hn1 : 1 ≤ n) {rho : ℚ} {good : ℤ}
    (hp : computeMinPrec e.arith e.logU e.logD true rows.length o.delta o.eta e.epsilon = .ok rho good) (fuel : ℕ) (junk : Mat ℤ) {s : ℕ} {out : List Char} (h : main e argv fuel junk = .exit s out) :
    ∃ c w m st m', c.d = rows.length ∧ c.n = n ∧ c.delta = o.delta ∧ c.eta = o.eta ∧ c.goodPrec = good ∧ w.earlyRed = o.earlyRed ∧ w.siegel = o.siegel ∧ m.b = given rows ∧
      (m.u.isSome = true ↔ Code.u ∈ cs ∨ Code.uk ∈ cs ∨ Code.v ∈ cs ∨ Code.vk ∈ cs) ∧ (m.v.isSome = true ↔ Code.v ∈ cs ∨ Code.vk ∈ cs) ∧
      lllReduction c (lllRun w rows.length n) fuel ⟨o.method, .mpz, o.floatType, o.precision, o.earlyRed⟩ m junk = .done (st, m') ∧ (s = 0 ↔ st = .success) := by
  rw [main_eq ha hgi hn] at h
  have hd : 1 ≤ rows.length := List.length_pos_iff.2 hr
  unfold lll at h
  dsimp only at h
  by_cases h1 : rejected (args o) = true
  · rw [if_pos h1] at h; cases h
  rw [if_neg h1, List.length_map, if_neg (by omega), hp] at h
  dsimp only at h
  rw [given_pad, format_codes ha] at h
  have hv : 'v' ∈ cs.flatMap Code.text ↔ Code.v ∈ cs ∨ Code.vk ∈ cs := by
    rw [List.mem_flatMap]
    constructor
    · rintro ⟨x, hx, hc⟩
      cases x <;> simp [Code.text] at hc <;> tauto
    · rintro (hx | hx)
      · exact ⟨_, hx, by simp [Code.text]⟩
      · exact ⟨_, hx, by simp [Code.text]⟩
  have hu : 'u' ∈ cs.flatMap Code.text ↔ Code.u ∈ cs ∨ Code.uk ∈ cs := by
    rw [List.mem_flatMap]
    constructor
    · rintro ⟨x, hx, hc⟩
      cases x <;> simp [Code.text] at hc <;> tauto
    · rintro (hx | hx)
      · exact ⟨_, hx, by simp [Code.text]⟩
      · exact ⟨_, hx, by simp [Code.text]⟩
  split at h
  · cases h
  · cases h
  · rename_i st m' hl
    split at h
    · cases h
    · refine ⟨_, _, _, st, m', ?_, ?_, ?_, ?_, ?_, ?_, ?_, ?_, ?_, ?_, hl, ?_⟩
      · rfl
      · rfl
      · rfl
      · rfl
      · rfl
      · rfl
      · rfl
      · rfl
      · unfold wantTransforms
        split_ifs <;> simp_all
      · unfold wantTransforms
        split_ifs <;> simp_all
      · cases h
        cases st <;> simp [statusCode]

/-- the matrices with which the wrapper starts -/
def start (cs : List Code) (rows : List (List ℤ)) : Triple :=
  ⟨given rows, identityIf (if (wantTransforms (cs.flatMap Code.text)).1 then some fun _ _ => 0 else none), (identityIf (if (wantTransforms (cs.flatMap Code.text)).2 then some fun _ _ => 0 else none)).map transposeMat⟩

/-- **C96 (guarantee).**  Under the assumptions of C92 – linearly independent rows, the wrapper or the proved method with its default precision, types of sufficient precision that round with a relative error of at most `2^-p`, no bit lengths beyond `long` – the
exit code is 0 and the basis written is size-reduced and satisfies Lovász' condition (with `-l 1`: Siegel's), with the constants of C85 and C92. -/
theorem C96_guarantee {cs : List Code} (ha : Asked e argv o cs) {rows : List (List ℤ)} (hgi : Given e o rows) (hr : rows ≠ []) {n : ℕ} (hn : Cols rows n) {rho : ℚ} {good : ℤ}
    (hp : computeMinPrec e.arith e.logU e.logD true rows.length o.delta o.eta e.epsilon = .ok rho good) (hw : Accurate0 (world e o) (params e o rows n good)) (hc : Params (params e o rows n good) e.epsilon)
    (hind : Indep rows.length n (basisQ (given rows))) (hgu : Guaranteed (params e o rows n good) (args o)) (hm : Fits (params e o rows n good) (given rows)) (fuel : ℕ) (hf : good.toNat + 2 ≤ fuel) (junk : Mat ℤ)
    (hfit : o.method = .wrapper → ∀ r, Wrapper.lll (params e o rows n good) (lllRun (world e o) rows.length n) fuel (Wrapper.mk (params e o rows n good) (start cs rows) junk) = some r → ∀ x ∈ r.2.log, Fits (params e o rows n good) x.inp.b) :
    ∃ b u v ts, main e argv fuel junk = .exit 0 ts.flatten ∧ List.Forall₂ (Shows rows.length n 0 b u v) cs ts ∧ Reduced rows.length n (given rows) b u v ∧
      RedBy o.siegel n rows.length (basisQ b) (o.delta - (1 - o.delta) / 64) (o.eta + e.epsilon / 64) := by
  rw [main_eq ha hgi hn]
  obtain ⟨um, hum⟩ : ∃ um, um = if (wantTransforms (cs.flatMap Code.text)).1 then some (fun _ _ => 0 : Mat ℤ) else none := ⟨_, rfl⟩
  obtain ⟨vm, hvm⟩ : ∃ vm, vm = if (wantTransforms (cs.flatMap Code.text)).2 then some (fun _ _ => 0 : Mat ℤ) else none := ⟨_, rfl⟩
  obtain ⟨m', h, h3, h4⟩ := C92_lll_reduction hw hc (m := ⟨given rows, um, vm⟩) hind hgu hm junk fuel hf (fun h r hr => hfit h r (by unfold start; rw [← hum, ← hvm]; exact hr))
  have hrej : rejected (args o) = false := by
    rcases hgu with hgu | ⟨hgu, ft, p, hgu', -⟩
    · unfold lllChoice at hgu
      unfold rejected
      split_ifs at hgu ⊢ with h1 h2 h3
      · simp [h2.2.1, h2.2.2]
      · unfold select at hgu
        dsimp only at hgu
        repeat' split at hgu
        all_goals cases hgu
    · unfold lllChoice at hgu'
      unfold rejected
      rw [hgu] at hgu' ⊢
      rw [if_neg (by decide)] at hgu' ⊢
      by_cases he : (args o).earlyRed = true
      · rw [if_pos ⟨rfl, he⟩] at hgu'; cases hgu'
      · simpa using he
  obtain ⟨ts, h1, h2⟩ := lll_eq ha hr hc.npos hp hc.getSi fuel junk hum hvm hrej h
  exact ⟨_, _, _, ts, h2, h1, h3, h4⟩

/-- **C96 (invalid input).**  If the file cannot be opened, or there is nothing but white space, or something else than a bracket comes first, the exit code is 1 and nothing is written. -/
theorem C96_invalid (ho : readOptions e.cv argv (Options.init e.cv) = .ok o) (hz : o.intType = .mpz) (fuel : ℕ) (junk : Mat ℤ)
    (h : (∃ f, o.inputFile = some f ∧ e.files f = none) ∨
      ∃ w t, (∀ c ∈ w, Ws c) ∧ (t = [] ∨ ∃ c r, t = c :: r ∧ ¬ Ws c ∧ c ≠ '[') ∧ ((o.inputFile = none ∧ e.stdin = w ++ t) ∨ ∃ f, o.inputFile = some f ∧ e.files f = some (w ++ t))) :
    main e argv fuel junk = .exit 1 [] := by
  have key : (readMatrix (input e o)).2.ok = false := by
    rcases h with ⟨f, h1, h2⟩ | ⟨w, t, hw, ht, h⟩
    · have : input e o = ⟨[], false⟩ := by unfold input; rw [h1]; dsimp only; rw [h2]
      rw [this]
      rfl
    · have hi : input e o = ⟨w ++ t, true⟩ := by
        unfold input
        rcases h with ⟨h2, h3⟩ | ⟨f, h2, h3⟩
        · rw [h2, h3]
        · rw [h2]; dsimp only; rw [h3]
      rw [hi]
      unfold readMatrix
      rcases ht with rfl | ⟨c, r, rfl, hc, hb⟩
      · have : readChar ⟨w ++ [], true⟩ = (none, ⟨[], false⟩) := by
          unfold readChar
          rw [if_pos rfl]
          dsimp only
          rw [dropWs hw]
          rfl
        rw [this]
      · rw [readChar_eq hw (by rw [← isWs_iff] at hc; simpa using hc)]
        dsimp only
        rw [if_neg hb]
  unfold main
  rw [ho]
  dsimp only
  rw [if_neg (not_not.2 hz)]
  unfold runAction
  dsimp only
  rw [if_pos key]

/-- **C96 is violated for the empty matrix.**  `[]` is a matrix of the documented format, and the library function returns `RED_SUCCESS` for it, but the parameters are computed first: with the default method `log2(0)` is converted to `int`. -/
theorem C96_empty_violated {cs : List Code} (ha : Asked e argv o cs) {rows : List (List ℤ)} (hgi : Given e o rows) {n : ℕ} (hn : Cols rows n) (h0 : rows = [] ∨ n = 0) (hm : o.method = .wrapper) (hft : o.floatType = none) (hpr : o.precision = 0)
    (fuel : ℕ) (junk : Mat ℤ) : main e argv fuel junk = .ub := by
  rw [main_eq ha hgi hn]
  unfold lll
  have hrej : rejected (args o) = false := by simp [rejected, args, hm, hft, hpr]
  dsimp only
  rw [if_neg (by rw [hrej]; decide), if_pos]
  refine ⟨hm, ?_⟩
  rcases h0 with rfl | h0
  · left; rfl
  · right; exact h0

/-- **C96 is violated for rows without entries**: with another method than the wrapper they are accepted, `b` prints them, but `bk` is undefined. -/
theorem C96_no_columns_violated {cs : List Code} (ha : Asked e argv o cs) {rows : List (List ℤ)} (hgi : Given e o rows) (hn : Cols rows 0) (hbk : .bk ∈ cs) {rho : ℚ} {good : ℤ}
    (hp : computeMinPrec e.arith e.logU e.logD true rows.length o.delta o.eta e.epsilon = .ok rho good) {ft : FT} {p : ℤ} (hch : lllChoice e.bld good (args o) = .single ft p) (fuel : ℕ) (junk : Mat ℤ) :
    main e argv fuel junk = .ub := by
  rw [main_eq ha hgi hn]
  have hmeth : (args o).meth ≠ .wrapper := by
    intro h
    unfold lllChoice at hch
    rw [if_pos h] at hch
    split_ifs at hch
  have hrej : rejected (args o) = false := by
    unfold lllChoice at hch
    unfold rejected
    rw [if_neg hmeth] at hch ⊢
    split_ifs at hch with h1
    simpa using h1
  have hout : ∀ s m (l : List Item), Item.b true ∈ l → output rows.length 0 s m l = none := by
    intro s m l hl
    induction l with
    | nil => cases hl
    | cons x l ih =>
      rw [output]
      rcases List.mem_cons.1 hl with rfl | hl
      · rw [show itemText rows.length 0 s m (.b true) = printComma (rowsOf rows.length 0 m.b) from rfl, C96_print_comma_violated (.inr rfl)]
      · rw [ih hl]
        cases itemText rows.length 0 s m x <;> rfl
  unfold lll
  dsimp only
  rw [if_neg (by rw [hrej]; decide), List.length_map, if_neg (by tauto), hp]
  dsimp only
  unfold lllReduction lllReductionZ
  dsimp only
  rw [show lllChoice (cfg e o rows.length 0 good).bld (cfg e o rows.length 0 good).goodPrec (args o) = .single ft p from hch]
  dsimp only
  rw [format_codes ha, C55_printed, hout]
  exact List.mem_map.2 ⟨_, hbk, rfl⟩

/-! ## Example: `fplll -m proved -of bkuvt` on the basis (2, 0), (3, 1), with exact arithmetic -/

/-- the arguments are converted by `String.toInt?` -/
def exEnv (stdin : List Char) : Env where
  cv := ⟨fun s => s.toInt?.getD 0, fun s => s.toInt?.getD 0, 99 / 100, 51 / 100, 1 / 1000, 1 / 10, 11 / 10, 0⟩
  bld := exBld
  slack := fun _ _ => 1
  arith := ⟨id, id, id, id⟩
  logU := fun _ => 1
  logD := fun _ => 1 / 2
  epsilon := 1 / 100
  little := fun _ _ => false
  getSi := id
  world := exWorld
  files := fun _ => none
  stdin := stdin

def exArgs : List String := ["-m", "proved", "-of", "bkuvt"]

def exOut : Proc → Option (ℕ × List Char)
  | .exit c t => some (c, t)
  | _ => none

example : exOut (main (exEnv "[[2 0][3 1]]".toList) exArgs 100 fun _ _ => 0) =
    some (0, "[[-1, 1],\n[1, 1]]\n[[-2 1 ]\n[-1 1 ]\n]\n[[-1 1 ]\n[-1 2 ]\n]\n0\n".toList) := by decide +kernel

/-- the options of the example -/
def exOpts : Options ℚ := { Options.init (exEnv []).cv with method := .proved, outputFormat := some "bkuvt" }

example : Asked (exEnv (matrixText false [[2, 0], [3, 1]])) exArgs exOpts [.bk, .u, .v, .t] ∧ Given (exEnv (matrixText false [[2, 0], [3, 1]])) exOpts [[2, 0], [3, 1]] ∧ Cols [[2, 0], [3, 1]] 2 ∧
    (∃ rho good, computeMinPrec (exEnv []).arith (exEnv []).logU (exEnv []).logD true 2 exOpts.delta exOpts.eta (exEnv []).epsilon = .ok rho good) := by
  refine ⟨⟨?_, rfl, rfl, .inl ?_⟩, ⟨_, [], matrixText_tok false _, .inl ⟨rfl, by simp [exEnv]⟩⟩, ⟨by decide, fun _ => ⟨[2, 0], by decide, rfl⟩, by decide⟩, ?_⟩
  · rfl
  · rfl
  · refine ⟨_, _, by unfold computeMinPrec; dsimp only; rw [if_neg (by decide +kernel), if_neg (by decide +kernel)]⟩

/-- `fplll` on `[]` -/
example : main (exEnv "[]\n".toList) [] 100 (fun _ _ => 0) = .ub :=
  C96_empty_violated (o := Options.init (exEnv []).cv) (rows := []) ⟨rfl, rfl, rfl, .inr ⟨rfl, rfl⟩⟩ ⟨_, ['\n'], matrixText_tok true [], .inl ⟨rfl, by decide⟩⟩ ⟨by simp, by simp, fun _ => rfl⟩ (.inl rfl) rfl rfl rfl 100 _

/-- `fplll -m fast -of bk` on `[[]]` -/
example : main (exEnv "[[]]\n".toList) ["-m", "fast", "-of", "bk"] 100 (fun _ _ => 0) = .ub :=
  C96_no_columns_violated (o := { Options.init (exEnv []).cv with method := .fast, outputFormat := some "bk" }) (rows := [[]]) (cs := [.bk]) ⟨rfl, rfl, rfl, .inl rfl⟩ ⟨_, ['\n'], matrixText_tok false [[]], .inl ⟨rfl, by decide⟩⟩
    ⟨by simp, by simp, by simp⟩ (by simp) (by unfold computeMinPrec; dsimp only; rw [if_neg (by decide +kernel), if_neg (by decide +kernel)]) (ft := .double) (p := 53) (by decide +kernel) 100 _

/-- `fplll` on a text that is no matrix -/
example : main (exEnv " 1".toList) [] 100 (fun _ _ => 0) = .exit 1 [] :=
  C96_invalid (o := Options.init (exEnv []).cv) rfl rfl 100 _ (.inr ⟨[' '], ['1'], by simp [Ws], .inr ⟨'1', [], rfl, by simp [Ws], by decide⟩, .inl ⟨rfl, rfl⟩⟩)

theorem given_rowsOf {r c i j : ℕ} (hi : i < r) (hj : j < c) (m : ℕ → ℕ → ℤ) : given (rowsOf r c m) i j = m i j := by
  simp [given, rowsOf, hi, hj]

/-- `fplll -m proved` with 48 vectors and the worlds of C85 -/
example : ∃ (e : Env) (good : ℤ) (b : Mat ℤ) (t : List Char), main e ["-m", "proved"] (good.toNat + 2) (fun _ _ => 0) = .exit 0 t ∧ Plain 48 48 b t ∧ lattice (toM 48 48 b) = lattice (toM 48 48 triB) ∧
    RedBy false 48 48 (basisQ b) (99 / 100 - (1 - 99 / 100) / 64) (51 / 100 + 1 / 100 / 64) := by
  obtain ⟨good, g1, g2, hc⟩ := tri_params
  obtain ⟨A, logU, logD, rho, -, -, hp⟩ := hc.prec
  let rows := rowsOf 48 48 triB
  let e : Env := { exEnv (matrixText true rows) with bld := ⟨true, true, true, true, 64⟩, slack := fun _ _ => 6, arith := A, logU := logU, logD := logD, world := nanWorld }
  let o : Options ℚ := { Options.init e.cv with method := .proved }
  have hl : rows.length = 48 := by simp [rows, rowsOf]
  have hpar : params e o rows 48 good = triCfg good := by unfold params; rw [hl]; rfl
  have hrow : ∀ l ∈ rows, l.length = 48 := fun l h => by
    obtain ⟨i, -, rfl⟩ := List.mem_map.1 h
    simp
  have hgv : ∀ i < 48, ∀ j < 48, given rows i j = triB i j := fun i hi j hj => given_rowsOf hi hj _
  have hne : rows ≠ [] := by
    intro h
    rw [h] at hl
    cases hl
  obtain ⟨b, u, v, ts, h1, h2, h3, h4⟩ := C96_guarantee (e := e) (o := o) (argv := ["-m", "proved"]) (cs := [.b]) (rows := rows) (n := 48) (good := good) ⟨rfl, rfl, rfl, .inr ⟨rfl, rfl⟩⟩ ⟨_, [], matrixText_tok true rows, .inl ⟨rfl, by simp [e, exEnv]⟩⟩ hne
    ⟨fun l h => (hrow l h).le, fun _ => ⟨_, List.getElem_mem (show 0 < rows.length by omega), hrow _ (List.getElem_mem _)⟩, fun h => absurd h hne⟩ (rho := rho) (by rw [hl]; exact hp) (by rw [hpar]; exact tri_accurate0 g1) (by rw [hpar]; exact hc)
    (by
      rw [hl]
      refine tri_indep (m' := given rows) (fun i hi => ?_) fun i hi j hj hij => ?_
      · rw [hgv i hi i hi]; unfold triB; rw [if_pos rfl]; decide
      · rw [hgv i hi j hj]
        unfold triB
        rw [if_neg (by omega), if_neg (by omega)])
    (by rw [hpar]; exact C85_default _ rfl rfl (.inr ⟨rfl, rfl⟩))
    (by
      rw [hpar]
      have h1 : maxExp 48 48 (given rows) ≤ 3 := maxExp_le fun i hi j hj => by rw [hgv i hi j hj]; exact triB_small i j
      unfold Fits
      show (maxExp 48 48 (given rows) : ℤ) + good.toNat + 48 ≤ LLL.longMax
      unfold LLL.longMax
      omega) (good.toNat + 2) le_rfl (fun _ _ => 0) (fun h => by cases h)
  rw [hl] at h2 h3 h4
  cases h2 with
  | cons ha hb =>
    cases hb
    cases ha with
    | b _ ht =>
      refine ⟨e, good, b, _, by simpa using h1, ht, h3.1.trans ?_, h4⟩
      congr 1
      ext i j
      exact hgv i i.2 j j.2

end LllCmd
end Fplll

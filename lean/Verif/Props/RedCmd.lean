import Verif.Model.RedCmd
import Verif.Props.LllCmd
import Verif.Props.BKZTop
import Verif.Props.BKZ

/-!
# C98: `fplll -a bkz` and `fplll -a hkz`, from the arguments and the input text to the output text and the exit code
-/

namespace Fplll
namespace RedCmd

open Wrapper Cli TextIO ErrB Spec Json BkzTop LllCmd
open Gen hiding toQ

/-! ## Specification -/

/-- the codes of the option `-of` that README.md documents for `bkz` -/
def ofBkz : Code → Bool
  | .v | .vk => false
  | _ => true

/-- the codes that `hkz` knows -/
def ofHkz : Code → Bool
  | .b | .bk => true
  | _ => false

/-- what is written for a code: nothing if the action does not know it -/
def Written (known : Code → Bool) (d n s : ℕ) (b : ℕ → ℕ → ℤ) (u : Option (ℕ → ℕ → ℤ)) (c : Code) (t : List Char) : Prop :=
  if known c = true then Shows d n s b u none c t else t = []

variable {S D : Type} {be : BEnv S D} {argv : List String} {o : Options ℚ}

/-- the options reach the library: bit `i` of `bkz_flags` stands for `2 ^ i` of `enum BKZFlags` (defs.h) -/
structure Passed (be : BEnv S D) (o : Options ℚ) (p : BParam S) (cfg : BKZ.Cfg D) : Prop where
  block : p.blockSize = o.blockSize ∧ cfg.blockSize = o.blockSize
  delta : p.delta = o.delta
  strategies : p.strategies = none ∧ o.strategyFile = "" ∨ o.strategyFile ≠ "" ∧ ∃ x, be.load o.strategyFile = some x ∧ p.strategies = some x
  sd : cfg.sd = o.bkzFlags.testBit 8
  sld : cfg.sld = o.bkzFlags.testBit 9
  loops : cfg.maxLoops = if o.bkzFlags.testBit 2 then some o.bkzMaxLoops else none
  time : cfg.maxTime = o.bkzFlags.testBit 3 ∧ (o.bkzFlags.testBit 3 = true → p.maxTime = o.bkzMaxTime)
  abort : cfg.autoAbort = o.bkzFlags.testBit 5
  bounded : cfg.bounded = o.bkzFlags.testBit 4
  gh : p.ghFactor = if o.bkzFlags.testBit 7 then o.ghFactor else be.e.cv.defGh
  dump : o.bkzFlags.testBit 6 = true → p.dumpFile = o.dumpFile
  flags : ∀ i, 2 ≤ i → p.flags.testBit i = o.bkzFlags.testBit i
  rest : cfg.scaled = be.scaled 1 ∧ cfg.maxNoDec = 5 ∧ p.minProb = 1 / 2 ∧ p.density = 3

/-- the arguments select the action `act` for `mpz_t` integers, and `cs` are the codes of the output format (default: `b`) -/
structure Asked (e : LllCmd.Env) (argv : List String) (o : Options ℚ) (act : Action) (cs : List Code) : Prop where
  opts : readOptions e.cv argv (Options.init e.cv) = .ok o
  action : o.action = act
  int : o.intType = .mpz
  codes : o.outputFormat = some (String.ofList (cs.flatMap Code.text)) ∨ o.outputFormat = none ∧ cs = [.b]

/-! ## Printing -/

theorem printBkz_codes : ∀ cs : List Code, printBkz (cs.flatMap Code.text) = (cs.filter ofBkz).map Code.item
  | [] => rfl
  | x :: cs => by
    have ih := printBkz_codes cs
    have hk := text_head cs
    have hf : ((x :: cs).filter ofBkz).map Code.item = if ofBkz x = true then x.item :: (cs.filter ofBkz).map Code.item else (cs.filter ofBkz).map Code.item := by
      rw [List.filter_cons]
      split_ifs <;> rfl
    rw [List.flatMap_cons, hf]
    generalize (cs.filter ofBkz).map Code.item = q at ih
    generalize cs.flatMap Code.text = r at hk ih
    subst ih
    cases r with
    | nil => cases x <;> rfl
    | cons a r =>
      have ha : a ≠ 'k' := fun e => hk (by rw [e]; rfl)
      cases x <;> simp [Code.text, Code.item, printBkz, ofBkz, ha]

theorem printHkz_codes : ∀ cs : List Code, printHkz (cs.flatMap Code.text) = (cs.filter ofHkz).map Code.item
  | [] => rfl
  | x :: cs => by
    have ih := printHkz_codes cs
    have hk := text_head cs
    have hf : ((x :: cs).filter ofHkz).map Code.item = if ofHkz x = true then x.item :: (cs.filter ofHkz).map Code.item else (cs.filter ofHkz).map Code.item := by
      rw [List.filter_cons]
      split_ifs <;> rfl
    rw [List.flatMap_cons, hf]
    generalize (cs.filter ofHkz).map Code.item = q at ih
    generalize cs.flatMap Code.text = r at hk ih
    subst ih
    cases r with
    | nil => cases x <;> rfl
    | cons a r =>
      have ha : a ≠ 'k' := fun e => hk (by rw [e]; rfl)
      cases x <;> simp [Code.text, Code.item, printHkz, ofHkz, ha]

theorem spread {R : Code → List Char → Prop} {p : Code → Bool} : ∀ (cs : List Code) (ts : List (List Char)), List.Forall₂ R (cs.filter p) ts →
    ∃ ts', List.Forall₂ (fun c t => if p c = true then R c t else t = []) cs ts' ∧ ts'.flatten = ts.flatten
  | [], ts, h => by
    cases h
    exact ⟨[], .nil, rfl⟩
  | x :: cs, ts, h => by
    by_cases hx : p x = true
    · rw [List.filter_cons_of_pos hx] at h
      cases h with
      | cons h1 h2 =>
        obtain ⟨ts', h3, h4⟩ := spread cs _ h2
        exact ⟨_ :: ts', .cons (by rw [if_pos hx]; exact h1) h3, by rw [List.flatten_cons, List.flatten_cons, h4]⟩
    · rw [List.filter_cons_of_neg hx] at h
      obtain ⟨ts', h3, h4⟩ := spread cs _ h
      exact ⟨[] :: ts', .cons (by rw [if_neg hx]) h3, by rw [List.flatten_cons, h4]; rfl⟩

theorem output_known {known : Code → Bool} (hk : known .v = false ∧ known .vk = false) {d n : ℕ} (hd : 1 ≤ d) (hn : 1 ≤ n) (s : RedStatus) (m : Triple) (cs : List Code)
    (hu : (.u ∈ cs ∨ .uk ∈ cs) → m.u.isSome = true ∨ (known .u = false ∧ known .uk = false)) :
    ∃ ts, List.Forall₂ (Written known d n (statusCode s) m.b m.u) cs ts ∧ output d n s m ((cs.filter known).map Code.item) = some ts.flatten := by
  obtain ⟨ts, h1, h2⟩ := output_codes hd hn s m (cs.filter known)
    (fun h => by
      simp only [List.mem_filter] at h
      rcases hu (h.imp And.left And.left) with h3 | ⟨h3, h4⟩
      · exact h3
      · rw [h3, h4] at h
        simp at h)
    (fun h => by
      simp only [List.mem_filter, hk.1, hk.2] at h
      simp at h)
  obtain ⟨ts', h3, h4⟩ := spread cs ts h1
  refine ⟨ts', h3.imp fun c t h => ?_, by rw [h2, h4]⟩
  unfold Written
  by_cases hc : known c = true
  · rw [if_pos hc] at h ⊢
    cases h with
    | b t h => exact .b t h
    | bk t h => exact .bk t h
    | u m t h h' => exact .u m t h h'
    | uk m t h h' => exact .uk m t h h'
    | v m t h h' => rw [hk.1] at hc; cases hc
    | vk m t h h' => rw [hk.2] at hc; cases hc
    | t t h => exact .t t h
    | blank => exact .blank
  · rw [if_neg hc] at h ⊢
    exact h

/-! ## Parameters -/

theorem has_bit (f i : ℕ) : has f (2 ^ i) = f.testBit i := by
  unfold has
  rw [Bool.eq_iff_iff, decide_eq_true_iff]
  constructor
  · intro h
    by_contra hb
    refine h (Nat.eq_of_testBit_eq fun j => ?_)
    rw [Nat.testBit_and, Nat.testBit_two_pow, Nat.zero_testBit]
    by_cases hj : i = j
    · subst hj
      rw [Bool.not_eq_true] at hb
      rw [hb, Bool.false_and]
    · simp [hj]
  · intro hb h
    have := congrArg (fun x => x.testBit i) h
    simp [hb] at this

theorem has_loops (f : ℕ) : has f BKZ_MAX_LOOPS = f.testBit 2 := has_bit f 2
theorem has_time (f : ℕ) : has f BKZ_MAX_TIME = f.testBit 3 := has_bit f 3
theorem has_bounded (f : ℕ) : has f BKZ_BOUNDED_LLL = f.testBit 4 := has_bit f 4
theorem has_auto (f : ℕ) : has f BKZ_AUTO_ABORT = f.testBit 5 := has_bit f 5
theorem has_dump (f : ℕ) : has f BKZ_DUMP_GSO = f.testBit 6 := has_bit f 6
theorem has_gh (f : ℕ) : has f BKZ_GH_BND = f.testBit 7 := has_bit f 7
theorem has_sd (f : ℕ) : has f BKZ_SD_VARIANT = f.testBit 8 := has_bit f 8
theorem has_sld (f : ℕ) : has f BKZ_SLD_RED = f.testBit 9 := has_bit f 9
theorem has_nolll (f : ℕ) : has f BKZ_NO_LLL = f.testBit 1 := has_bit f 1

theorem bkzParam_flags (cv : Conv ℚ) (o : Options ℚ) (st : Option S) (i : ℕ) :
    (bkzParam cv o st).flags.testBit i = (o.bkzFlags.testBit i || (decide (i = 0) && o.verbose) || (decide (i = 1) && o.noLll)) := by
  have hv : ∀ j, (BKZ_VERBOSE).testBit j = decide (j = 0) := fun j => by
    rw [show BKZ_VERBOSE = 2 ^ 0 from rfl, Nat.testBit_two_pow]; simp [eq_comm]
  have hl : ∀ j, (BKZ_NO_LLL).testBit j = decide (j = 1) := fun j => by
    rw [show BKZ_NO_LLL = 2 ^ 1 from rfl, Nat.testBit_two_pow]; simp [eq_comm]
  show Nat.testBit ((o.bkzFlags ||| (if o.verbose then BKZ_VERBOSE else 0)) ||| (if o.noLll then BKZ_NO_LLL else 0)) i = _
  rw [Nat.testBit_or, Nat.testBit_or]
  congr 1
  · congr 1
    cases o.verbose
    · simp
    · rw [if_pos rfl, hv]; simp
  · cases o.noLll
    · simp
    · rw [if_pos rfl, hl]; simp

theorem passed (be : BEnv S D) (o : Options ℚ) {st : Option S} (hst : strategies be o = some st) : Passed be o (bkzParam be.e.cv o st) (bkzCfg be (bkzParam be.e.cv o st)) := by
  have hf : ∀ i, 2 ≤ i → (bkzParam be.e.cv o st).flags.testBit i = o.bkzFlags.testBit i := by
    intro i hi
    rw [bkzParam_flags]
    simp [show i ≠ 0 by omega, show i ≠ 1 by omega]
  refine ⟨⟨rfl, rfl⟩, rfl, ?_, ?_, ?_, ?_, ⟨?_, fun h => ?_⟩, ?_, ?_, ?_, fun h => ?_, hf, rfl, rfl, rfl, rfl⟩
  · show st = none ∧ _ ∨ _ ∧ ∃ x, _ ∧ st = some x
    unfold strategies at hst
    by_cases h : o.strategyFile = ""
    · rw [if_pos h] at hst; cases hst; exact .inl ⟨rfl, h⟩
    · rw [if_neg h, Option.map_eq_some_iff] at hst
      obtain ⟨x, h1, h2⟩ := hst
      exact .inr ⟨h, x, h1, h2.symm⟩
  · show has _ _ = _; rw [has_sd, hf 8 (by omega)]
  · show has _ _ = _; rw [has_sld, hf 9 (by omega)]
  · show (if has _ _ = true then some (if has o.bkzFlags BKZ_MAX_LOOPS = true then o.bkzMaxLoops else 0) else none) = _
    rw [has_loops, has_loops, hf 2 (by omega)]
    by_cases h : o.bkzFlags.testBit 2 = true
    · rw [if_pos h, if_pos h, if_pos h]
    · rw [if_neg h, if_neg h]
  · show has _ _ = _; rw [has_time, hf 3 (by omega)]
  · show (if has o.bkzFlags BKZ_MAX_TIME = true then _ else _) = _
    rw [has_time, if_pos h]
  · show has _ _ = _; rw [has_auto, hf 5 (by omega)]
  · show has _ _ = _; rw [has_bounded, hf 4 (by omega)]
  · show (if has o.bkzFlags BKZ_GH_BND = true then _ else _) = _
    rw [has_gh]
    rfl
  · show (if has o.bkzFlags BKZ_DUMP_GSO = true then _ else _) = _
    rw [has_dump, if_pos h]

/-! ## The reduction -/

/-- `bkz_reduction` returns a matrix `u` exactly if it was given one -/
theorem bkzReduction_some {c : Cfg} {run : Runner} (hr : GoodRun c.d c.n run) (hg : ∀ x : ℤ, -2 ^ 63 ≤ x → x < 2 ^ 63 → c.getSi x = x) {brun : BRunner}
    (hb : ∀ long ft p inp st k bad m, brun long ft p inp = .ok st k bad m → m.u.isSome = inp.u.isSome) (wfuel : ℕ) (a : BkzTop.Args) (mprec : ℤ) (junk b : Mat ℤ) (u : Option (Mat ℤ)) {st : RedStatus} {bad lost : Bool} {m : Triple} {mp : ℤ}
    (h : bkzReduction c run brun wfuel a mprec junk b u = .ret st bad lost m mp) : m.u.isSome = u.isSome := by
  have hid : (identityIf u).isSome = u.isSome := by simp [identityIf]
  unfold bkzReduction at h
  by_cases hp : a.ft.getD .double = .mpfr ∧ a.prec = 0
  · rw [if_pos hp] at h; cases h
  rw [if_neg hp] at h
  cases hx : firstStep { c with delta := lllDelta a.delta, eta := lllEta } run wfuel a.noLll junk ⟨b, identityIf u, none⟩ with
  | none => rw [hx] at h; cases h
  | some q =>
    rw [hx] at h
    have ht : TRel c.d c.n ⟨b, identityIf u, none⟩ q.2.2 := firstStep_trel (c := { c with delta := lllDelta a.delta, eta := lllEta }) hr hg wfuel a.noLll junk _ hx
    have h1 : q.2.2.u.isSome = u.isSome := ht.1.trans hid
    obtain ⟨ok, st1, m1⟩ := q
    cases ok with
    | false => cases h; exact h1
    | true =>
      dsimp only at h h1
      unfold secondStep at h
      dsimp only at h
      by_cases hav : available c.bld (a.ft.getD .double) = false
      · rw [if_pos hav] at h; cases h
      rw [if_neg hav] at h
      rw [← h1]
      unfold bkzReductionF at h
      by_cases h0 : c.d = 0 ∨ c.n = 0
      · rw [if_pos h0] at h
        cases h
        exact (zerosFirst_trel _).1
      rw [if_neg h0] at h
      by_cases hl : (toLong c.d c.n c.getSi junk m1).1 = true
      · rw [if_pos hl] at h
        cases hy : brun true (a.ft.getD .double) (if a.ft.getD .double = .mpfr then a.prec else 0) (toLong c.d c.n c.getSi junk m1).2 with
        | ok st k bad r =>
          rw [hy] at h
          cases h
          refine (zerosFirst_trel _).1.trans ?_
          have := hb _ _ _ _ _ _ _ _ hy
          simp [fromLong, this, toLong]
        | thrown bad r => rw [hy] at h; cases h
        | ub => rw [hy] at h; cases h
        | stuck bad r => rw [hy] at h; cases h
      · rw [if_neg hl] at h
        cases hy : brun false (a.ft.getD .double) (if a.ft.getD .double = .mpfr then a.prec else 0) m1 with
        | ok st k bad r =>
          rw [hy] at h
          cases h
          exact (zerosFirst_trel _).1.trans (hb _ _ _ _ _ _ _ _ hy)
        | thrown bad r => rw [hy] at h; cases h
        | ub => rw [hy] at h; cases h
        | stuck bad r => rw [hy] at h; cases h

variable [LinearOrder D] [OrderTop D]

theorem bkzRun_some (bw : BWorld D) (d n : ℕ) (delta : ℚ) (cfg : BKZ.Cfg D) (long : Bool) (ft : FT) (p : ℤ) (inp : Triple) (st : BKZ.Status) (k : ℕ) (bad : Bool) (m : Triple)
    (h : bkzRun bw d n delta cfg long ft p inp = .ok st k bad m) : m.u.isSome = inp.u.isSome := by
  unfold bkzRun at h
  dsimp only at h
  split at h
  · cases h; simp [outT]
  · cases h
  · cases h
  · cases h

/-- a limit is only reported if it was set -/
theorem bkzRun_limits (bw : BWorld D) (d n : ℕ) (delta : ℚ) (cfg : BKZ.Cfg D) (long : Bool) (ft : FT) (p : ℤ) (inp : Triple) (st : BKZ.Status) (k : ℕ) (bad : Bool) (m : Triple)
    (h : bkzRun bw d n delta cfg long ft p inp = .ok st k bad m) : (st = .loopsLimit → ∃ l, cfg.maxLoops = some l ∧ l ≤ k) ∧ (st = .timeLimit → cfg.maxTime = true) := by
  unfold bkzRun at h
  dsimp only at h
  split at h
  · rename_i r w hx
    cases h
    unfold BKZ.runBKZ at hx
    by_cases hbs : 2 ≤ cfg.blockSize
    · obtain ⟨s0, -, h1⟩ := BKZ.C24_loops_limit _ _ _ _ _ _ _ _ _ _ _ hbs hx
      obtain ⟨s0', -, h2⟩ := BKZ.C24_time_limit _ _ _ _ _ _ _ _ _ _ _ hbs hx
      exact ⟨fun h => (h1.1 h).2, fun h => (h2.1 h).2.2.1⟩
    · unfold BKZ.bkz at hx
      dsimp only at hx
      by_cases hv : cfg.sd = true ∧ cfg.sld = true
      · rw [if_pos hv] at hx; cases hx
      · rw [if_neg hv, if_pos (by omega)] at hx
        cases hx
        exact ⟨nofun, nofun⟩
  · cases h
  · cases h
  · cases h

/-- what `reduce` calls when it returns -/
theorem reduce_ret {p : BParam S} {ft : Option FT} {prec : ℤ} {withU : Bool} {d n : ℕ} {b : Mat ℤ} {fuel : ℕ} {junk : Mat ℤ} {st : RedStatus} {bad lost : Bool} {m : Triple} {mp : ℤ}
    (h : reduce be p ft prec withU d n b fuel junk = .ret st bad lost m mp) :
    ∃ good, bkzReduction (topCfg be.e p d n good) (lllRun (lllWorld be.e) d n) (bkzRun (be.bw p) d n p.delta (bkzCfg be p)) fuel ⟨p.delta, p.flags.testBit 1, ft, prec⟩ be.mprec junk b (if withU then some fun _ _ => 0 else none) =
        .ret st bad lost m mp ∧
      (p.flags.testBit 1 = false → ∃ rho, computeMinPrec be.e.arith be.e.logU be.e.logD true d (lllDelta p.delta) lllEta be.e.epsilon = .ok rho good) := by
  unfold reduce at h
  dsimp only at h
  rw [has_nolll] at h
  by_cases h1 : ft.getD .double = .mpfr ∧ prec = 0
  · rw [if_pos h1] at h; cases h
  rw [if_neg h1] at h
  by_cases h2 : p.flags.testBit 1 = true
  · rw [if_pos h2] at h
    exact ⟨0, h, fun h3 => by rw [h2] at h3; cases h3⟩
  rw [if_neg h2] at h
  by_cases h3 : d = 0 ∨ n = 0
  · rw [if_pos h3] at h; cases h
  rw [if_neg h3] at h
  split at h
  · cases h
  · cases h
  · rename_i rho good hp
    exact ⟨good, h, fun _ => ⟨rho, hp⟩⟩

theorem finish_exit {d n : ℕ} {items : List Item} {x : TOut} {s : ℕ} {out : List Char} (h : finish d n items x = .exit s out) :
    ∃ st bad lost m mp, x = .ret st bad lost m mp ∧ s = statusCode st ∧ output d n st m items = some out := by
  cases x with
  | ret st bad lost m mp =>
    unfold finish at h
    dsimp only at h
    split at h
    · cases h
    · rename_i t ht
      cases h
      exact ⟨_, _, _, _, _, rfl, rfl, ht⟩
  | _ => cases h

theorem format_codes {act : Action} {cs : List Code} (h : Asked be.e argv o act cs) : format o = cs.flatMap Code.text := by
  unfold format
  rcases h.codes with h1 | ⟨h1, rfl⟩
  · rw [h1]; simp
  · rw [h1]; rfl

theorem run_eq {act : Action} {cs : List Code} (ha : Asked be.e argv o act cs) {rows : List (List ℤ)} (hg : Given be.e o rows) {n : ℕ} (hn : Cols rows n) (fuel : ℕ) (junk : Mat ℤ) :
    readMatrix (input be.e o) = (some (rows.map (padRow n), n), (readMatrix (input be.e o)).2) ∧ (readMatrix (input be.e o)).2.ok = true ∧ main be argv fuel junk = runAction be o fuel junk := by
  obtain ⟨t, tail, h1, h2⟩ := hg
  have hi : input be.e o = ⟨t ++ tail, true⟩ := by
    unfold input
    rcases h2 with ⟨h2, h3⟩ | ⟨f, h2, h3⟩
    · rw [h2, h3]
    · rw [h2]; dsimp only; rw [h3]
  refine ⟨?_, ?_, ?_⟩
  · rw [hi, readMatrix_eq h1 tail, cols_eq hn]
  · rw [hi, readMatrix_eq h1 tail]
  · unfold main
    rw [ha.opts]
    dsimp only
    rw [if_pos ha.int]

theorem main_bkz {cs : List Code} (ha : Asked be.e argv o .bkz cs) {rows : List (List ℤ)} (hg : Given be.e o rows) {n : ℕ} (hn : Cols rows n) (fuel : ℕ) (junk : Mat ℤ) :
    main be argv fuel junk = bkz be o (rows.map (padRow n)) n fuel junk := by
  obtain ⟨h1, h2, h3⟩ := run_eq ha hg hn fuel junk
  rw [h3]
  unfold runAction
  dsimp only
  rw [if_neg (by rw [h2]; decide), h1]
  dsimp only
  rw [ha.action]

theorem main_hkz {cs : List Code} (ha : Asked be.e argv o .hkz cs) {rows : List (List ℤ)} (hg : Given be.e o rows) {n : ℕ} (hn : Cols rows n) (fuel : ℕ) (junk : Mat ℤ) :
    main be argv fuel junk = hkz be o (rows.map (padRow n)) n fuel junk := by
  obtain ⟨h1, h2, h3⟩ := run_eq ha hg hn fuel junk
  rw [h3]
  unfold runAction
  dsimp only
  rw [if_neg (by rw [h2]; decide), h1]
  dsimp only
  rw [ha.action]

theorem mem_u {cs : List Code} : 'u' ∈ cs.flatMap Code.text ↔ Code.u ∈ cs ∨ Code.uk ∈ cs := by
  rw [List.mem_flatMap]
  constructor
  · rintro ⟨x, hx, hc⟩
    cases x <;> simp [Code.text] at hc <;> tauto
  · rintro (hx | hx)
    · exact ⟨_, hx, by simp [Code.text]⟩
    · exact ⟨_, hx, by simp [Code.text]⟩

/-- the preprocessing block sizes of the strategies are positive -/
def Pre (bw : BWorld D) : Prop := ∀ long ft p inp bs, ∀ q ∈ (bw.orc long ft p inp).preproc bs, 1 ≤ q

/-! ## The theorems -/

/-- **C98 (`-a bkz`).**  For every command line that selects `bkz`, `sdb` or `sld`, and every input that starts with a matrix of at least one row and one column: if the program returns, `bkz_reduction` was called with the values of the options and the matrix
read, with `u` exactly if `u` is to be written, the exit code is its status, and the output consists of exactly the items asked for, in this order and in the documented formats (nothing for `v`).  The basis written generates the lattice of the input and is `u` times the
basis read, with a unimodular `u`, unless a conversion failed or a row was negated (`lost`, `bad`: see C79). -/
theorem C98_bkz_partial {cs : List Code} (ha : Asked be.e argv o .bkz cs) {rows : List (List ℤ)} (hgi : Given be.e o rows) (hr : rows ≠ []) {n : ℕ} (hn : Cols rows n) (hn1 : 1 ≤ n) (hbs : 1 ≤ o.blockSize)
    (hg : ∀ x : ℤ, -2 ^ 63 ≤ x → x < 2 ^ 63 → be.e.getSi x = x) (fuel : ℕ) (junk : Mat ℤ) {s : ℕ} {out : List Char} (h : main be argv fuel junk = .exit s out) :
    ∃ p cfg c w u st bad lost m mp ts, Passed be o p cfg ∧ c.d = rows.length ∧ c.n = n ∧ (u.isSome = true ↔ .u ∈ cs ∨ .uk ∈ cs) ∧
      bkzReduction c (lllRun w rows.length n) (bkzRun (be.bw p) rows.length n o.delta cfg) fuel ⟨o.delta, o.noLll || o.bkzFlags.testBit 1, o.floatType, o.precision⟩ be.mprec junk (given rows) u = .ret st bad lost m mp ∧
      s = statusCode st ∧ out = ts.flatten ∧ List.Forall₂ (Written ofBkz rows.length n s m.b m.u) cs ts ∧
      (Adm rows.length n (o.bkzFlags.testBit 8) o.blockSize (given rows) → Pre (be.bw p) → lost = false → Kept rows.length n (given rows) m bad) := by
  have hd : 1 ≤ rows.length := List.length_pos_iff.2 hr
  rw [main_bkz ha hgi hn] at h
  unfold bkz at h
  rw [if_neg (by omega)] at h
  cases hst : strategies be o with
  | none => rw [hst] at h; cases h
  | some x =>
    rw [hst] at h
    dsimp only at h
    rw [format_codes ha, printBkz_codes, List.length_map, given_pad] at h
    obtain ⟨st, bad, lost, m, mp, h1, h2, h3⟩ := finish_exit h
    obtain ⟨good, h4, -⟩ := reduce_ret h1
    have hp := passed be o hst
    have hgr : GoodRun rows.length n (lllRun (lllWorld be.e) rows.length n) := fun t call last inp => lllRun_trel _ hd hn1 t call last inp
    have hus := bkzReduction_some (c := topCfg be.e (bkzParam be.e.cv o x) rows.length n good) hgr hg (bkzRun_some _ _ _ _ _) _ _ _ _ _ _ h4
    have hb1 : (bkzParam be.e.cv o x).flags.testBit 1 = (o.noLll || o.bkzFlags.testBit 1) := by
      rw [bkzParam_flags]; simp [Bool.or_comm]
    obtain ⟨ts, t1, t2⟩ := output_known (known := ofBkz) ⟨rfl, rfl⟩ hd hn1 st m cs (fun hu => .inl (by rw [hus, if_pos (by simpa using mem_u.2 hu)]; rfl))
    rw [t2] at h3
    cases h3
    rw [hb1, hp.delta] at h4
    refine ⟨_, _, _, _, _, st, bad, lost, m, mp, ts, hp, rfl, rfl, ?_, h4, h2, rfl, by rw [h2]; exact t1, fun hadm hpre hl => ?_⟩
    · rw [← mem_u]
      split_ifs <;> simp_all
    · have hgb : GoodBRun rows.length n (o.bkzFlags.testBit 8) o.blockSize (bkzRun (be.bw (bkzParam be.e.cv o x)) rows.length n o.delta (bkzCfg be (bkzParam be.e.cv o x))) := by
        have := bkzRun_good (be.bw (bkzParam be.e.cv o x)) (d := rows.length) hn1 o.delta (bkzCfg be (bkzParam be.e.cv o x)) hpre
        rw [hp.sd, hp.block.2] at this
        exact this
      have := C79_lattice_partial (c := topCfg be.e (bkzParam be.e.cv o x) rows.length n good) hgr hgb hg fuel ⟨o.delta, o.noLll || o.bkzFlags.testBit 1, o.floatType, o.precision⟩ be.mprec junk (given rows)
        (if decide ('u' ∈ cs.flatMap Code.text) = true then some fun _ _ => 0 else none) hadm
      rw [h4] at this
      exact (this hl).1

/-- the status of a failing wrapper is one of LLL -/
theorem lll_status {c : Cfg} (w : World) (d n : ℕ) (hd : c.d ≠ 0) (hn : c.n ≠ 0) (fuel : ℕ) (st : St) {ok : Bool} {st' : St} (h : Wrapper.lll c (lllRun w d n) fuel st = some (ok, st')) :
    statusCode st'.status ≤ 4 := by
  rw [lll_eq hd hn, Option.map_eq_some_iff] at h
  obtain ⟨st1, -, h⟩ := h
  obtain ⟨call, st2, h1, -⟩ := lastLll_eq (c := c) (run := lllRun w d n) (setUseLong c (provLong c st) st1)
  rw [h1] at h
  obtain ⟨e, -, -, h3, -, h5, -⟩ := callLll_log (run := lllRun w d n) call st2
  rw [Prod.mk.injEq] at h
  rw [← h.2, (setUseLong_log _ _).2.1, h3, h5]
  have key : ∀ x, statusCode (memberStatus .success x) ≤ 4 := by
    intro x
    cases x <;> decide
  exact key _

/-- the outcome of `bkz()` inside of `bkz_reduction` -/
theorem reductionF_ok {d n : ℕ} {getSi : ℤ → ℤ} {brun : BRunner} {junk : Mat ℤ} {ft : FT} {prec : ℤ} {m r : Triple} {st : BKZ.Status} {k : ℕ} {bad lost : Bool} (h0 : ¬ (d = 0 ∨ n = 0))
    (h : bkzReductionF d n getSi brun junk ft prec m = .ok st k bad lost r) : ∃ long inp r', brun long ft prec inp = .ok st k bad r' := by
  unfold bkzReductionF at h
  rw [if_neg h0] at h
  by_cases hl : (toLong d n getSi junk m).1 = true
  · rw [if_pos hl] at h
    cases hy : brun true ft prec (toLong d n getSi junk m).2 with
    | ok st k bad r => rw [hy] at h; cases h; exact ⟨_, _, _, hy⟩
    | thrown bad r => rw [hy] at h; cases h
    | ub => rw [hy] at h; cases h
    | stuck bad r => rw [hy] at h; cases h
  · rw [if_neg hl] at h
    cases hy : brun false ft prec m with
    | ok st k bad r => rw [hy] at h; cases h; exact ⟨_, _, _, hy⟩
    | thrown bad r => rw [hy] at h; cases h
    | ub => rw [hy] at h; cases h
    | stuck bad r => rw [hy] at h; cases h

/-- the exit codes of `bkz_reduction` -/
theorem reduction_codes {c : Cfg} (w : World) (d n : ℕ) (bw : BWorld D) (cfg : BKZ.Cfg D) (delta : ℚ) (hd : c.d ≠ 0) (hn : c.n ≠ 0) (wfuel : ℕ) (a : BkzTop.Args) (mprec : ℤ) (junk b : Mat ℤ) (u : Option (Mat ℤ)) {st : RedStatus}
    {bad lost : Bool} {m : Triple} {mp : ℤ} (h : bkzReduction c (lllRun w d n) (bkzRun bw d n delta cfg) wfuel a mprec junk b u = .ret st bad lost m mp) :
    (statusCode st = 8 → ∃ l, cfg.maxLoops = some l) ∧ (statusCode st = 7 → cfg.maxTime = true) ∧ (statusCode st = 0 → ¬ (cfg.sd = true ∧ cfg.sld = true)) ∧
      (a.noLll = true → statusCode st = 0 ∨ statusCode st = 7 ∨ statusCode st = 8) ∧ (statusCode st ≤ 4 ∨ statusCode st = 7 ∨ statusCode st = 8) := by
  rcases C79_status hd hn _ _ _ _ _ _ h with ⟨st', m1, -, bst, k, r, h2, ⟨h3, h4, h5⟩, -⟩ | ⟨hne, hx⟩
  · obtain ⟨long, inp, r', h6⟩ := reductionF_ok (by tauto) h2
    obtain ⟨h7, h8⟩ := bkzRun_limits _ _ _ _ _ _ _ _ _ _ _ _ _ h6
    have hcodes : st = .success ∨ st = .bkzLoopsLimit ∨ st = .bkzTimeLimit := by
      cases bst with
      | success => exact .inl (h3.2 rfl)
      | loopsLimit => exact .inr (.inl (h4.2 rfl))
      | timeLimit => exact .inr (.inr (h5.2 rfl))
    refine ⟨fun hs => ?_, fun hs => ?_, fun _ hv => ?_, fun _ => ?_, ?_⟩
    · have : st = .bkzLoopsLimit := by rcases hcodes with rfl | rfl | rfl <;> simp [statusCode] at hs ⊢
      obtain ⟨l, hl, -⟩ := h7 (h4.1 this)
      exact ⟨l, hl⟩
    · have : st = .bkzTimeLimit := by rcases hcodes with rfl | rfl | rfl <;> simp [statusCode] at hs ⊢
      exact h8 (h5.1 this)
    · unfold bkzRun BKZ.runBKZ BKZ.bkz at h6
      dsimp only at h6
      rw [if_pos hv] at h6
      cases h6
    · rcases hcodes with rfl | rfl | rfl <;> decide
    · rcases hcodes with rfl | rfl | rfl <;> decide
  · unfold firstStep at hx
    by_cases hl : a.noLll = true
    · rw [if_pos hl] at hx; cases hx
    · rw [if_neg hl, Option.map_eq_some_iff] at hx
      obtain ⟨⟨ok, st1⟩, h1, h2⟩ := hx
      have hle := lll_status (c := { c with delta := lllDelta a.delta, eta := lllEta }) w d n hd hn _ _ h1
      simp only [Prod.mk.injEq] at h2
      rw [h2.2.1] at hle
      refine ⟨fun h => by omega, fun h => by omega, fun h => ?_, fun h => absurd h hl, .inl hle⟩
      exact absurd (C96_status.2.1 st .success (h.trans C96_status.1.symm)) hne

/-- **C98 (exit codes).**  The exit codes 8 and 7 (limits) only occur with `-bkzmaxloops` and `-bkzmaxtime`; 0, 7 and 8 are the only ones with `-nolll`; all others are those of LLL (2 to 4); 0 does not occur if both `-a sdb` and `-a sld` were given. -/
theorem C98_codes {cs : List Code} (ha : Asked be.e argv o .bkz cs) {rows : List (List ℤ)} (hgi : Given be.e o rows) (hr : rows ≠ []) {n : ℕ} (hn : Cols rows n) (hn1 : 1 ≤ n) (hbs : 1 ≤ o.blockSize)
    (hg : ∀ x : ℤ, -2 ^ 63 ≤ x → x < 2 ^ 63 → be.e.getSi x = x) (fuel : ℕ) (junk : Mat ℤ) {s : ℕ} {out : List Char} (h : main be argv fuel junk = .exit s out) :
    (s = 8 → o.bkzFlags.testBit 2 = true) ∧ (s = 7 → o.bkzFlags.testBit 3 = true) ∧ (s = 0 → ¬ (o.bkzFlags.testBit 8 = true ∧ o.bkzFlags.testBit 9 = true)) ∧ (o.noLll = true → s = 0 ∨ s = 7 ∨ s = 8) ∧
      (s ≤ 4 ∨ s = 7 ∨ s = 8) := by
  obtain ⟨p, cfg, c, w, u, st, bad, lost, m, mp, ts, h1, h2, h3, -, h4, h5, -⟩ := C98_bkz_partial ha hgi hr hn hn1 hbs hg fuel junk h
  have hd : 1 ≤ rows.length := List.length_pos_iff.2 hr
  obtain ⟨g1, g2, g3, g4, g5⟩ := reduction_codes w rows.length n (be.bw p) cfg o.delta (by omega) (by omega) _ _ _ _ _ _ h4
  rw [← h5] at g1 g2 g3 g4 g5
  refine ⟨fun hs => ?_, fun hs => ?_, fun hs => ?_, fun hs => ?_, g5⟩
  · obtain ⟨l, hl⟩ := g1 hs
    by_contra hb
    rw [h1.loops, if_neg hb] at hl
    cases hl
  · rw [← h1.time.1]; exact g2 hs
  · rw [← h1.sd, ← h1.sld]; exact g3 hs
  · exact g4 (by simp [hs])

/-- **C98 (errors).**  Without a positive block size, or with other integers than `mpz_t`, the exit code is 1 and nothing is written. -/
theorem C98_errors (ho : readOptions be.e.cv argv (Options.init be.e.cv) = .ok o) (fuel : ℕ) (junk : Mat ℤ) :
    (o.intType ≠ .mpz → o.action = .bkz ∨ o.action = .hkz → main be argv fuel junk = .exit 1 []) ∧
    (∀ cs rows n, Asked be.e argv o .bkz cs → Given be.e o rows → Cols rows n → o.blockSize ≤ 0 → main be argv fuel junk = .exit 1 []) := by
  constructor
  · intro h1 h2
    unfold main
    rw [ho]
    dsimp only
    rw [if_neg h1, if_pos h2]
  · intro cs rows n ha hgi hn h
    rw [main_bkz ha hgi hn]
    unfold bkz
    rw [if_pos h]

theorem hkz_exit {cs : List Code} (ha : Asked be.e argv o .hkz cs) {rows : List (List ℤ)} (hgi : Given be.e o rows) (hr : rows ≠ []) {n : ℕ} (hn : Cols rows n) (hn1 : 1 ≤ n) (fuel : ℕ) (junk : Mat ℤ) {s : ℕ} {out : List Char}
    (h : main be argv fuel junk = .exit s out) :
    ∃ good st bad lost m mp ts, hkzReduction (topCfg be.e (hkzParam be.e.cv o rows.length : BParam S) rows.length n good) (lllRun (lllWorld be.e) rows.length n)
        (bkzRun (be.bw (hkzParam be.e.cv o rows.length)) rows.length n 1 (bkzCfg be (hkzParam be.e.cv o rows.length))) fuel o.floatType o.precision be.mprec junk (given rows) = .ret st bad lost m mp ∧
      s = statusCode st ∧ out = ts.flatten ∧ List.Forall₂ (Written ofHkz rows.length n s m.b m.u) cs ts := by
  have hd : 1 ≤ rows.length := List.length_pos_iff.2 hr
  rw [main_hkz ha hgi hn] at h
  unfold hkz at h
  rw [format_codes ha, printHkz_codes, List.length_map, given_pad] at h
  obtain ⟨st, bad, lost, m, mp, h1, h2, h3⟩ := finish_exit h
  obtain ⟨good, h4, -⟩ := reduce_ret h1
  obtain ⟨ts, t1, t2⟩ := output_known (known := ofHkz) ⟨rfl, rfl⟩ hd hn1 st m cs (fun _ => .inr ⟨rfl, rfl⟩)
  rw [t2] at h3
  cases h3
  have hb : (hkzParam be.e.cv o rows.length : BParam S).flags.testBit 1 = false := by
    show Nat.testBit (if o.verbose then BKZ_VERBOSE else 0) 1 = false
    split_ifs <;> decide
  rw [hb] at h4
  exact ⟨good, st, bad, lost, m, mp, ts, h4, h2, rfl, by rw [h2]; exact t1⟩

omit [LinearOrder D] [OrderTop D] in
theorem hkzCfg_spec (be : BEnv S D) (o : Options ℚ) (d : ℕ) : (bkzCfg be (hkzParam be.e.cv o d)).blockSize = d ∧ (bkzCfg be (hkzParam be.e.cv o d)).sd = false ∧ (bkzCfg be (hkzParam be.e.cv o d)).sld = false ∧
    (bkzCfg be (hkzParam be.e.cv o d)).maxLoops = none ∧ (bkzCfg be (hkzParam be.e.cv o d)).maxTime = false ∧ (bkzCfg be (hkzParam be.e.cv o d)).autoAbort = false ∧ (bkzCfg be (hkzParam be.e.cv o d)).bounded = false := by
  have hf : ∀ i, 1 ≤ i → (hkzParam be.e.cv o d : BParam S).flags.testBit i = false := by
    intro i hi
    show Nat.testBit (if o.verbose then BKZ_VERBOSE else 0) i = false
    split_ifs
    · rw [show BKZ_VERBOSE = 2 ^ 0 from rfl, Nat.testBit_two_pow]; simp; omega
    · simp
  refine ⟨rfl, ?_, ?_, ?_, ?_, ?_, ?_⟩
  · show has _ _ = _; rw [has_sd, hf 8 (by omega)]
  · show has _ _ = _; rw [has_sld, hf 9 (by omega)]
  · show (if has _ _ = true then _ else _) = _
    rw [has_loops, hf 2 (by omega)]
    rfl
  · show has _ _ = _; rw [has_time, hf 3 (by omega)]
  · show has _ _ = _; rw [has_auto, hf 5 (by omega)]
  · show has _ _ = _; rw [has_bounded, hf 4 (by omega)]

/-- **C98 (`-a hkz`).**  The same for `hkz`, which writes the basis for `b` and `bk` and nothing for the other codes; its exit code is 0 or that of a failure of LLL. -/
theorem C98_hkz_partial {cs : List Code} (ha : Asked be.e argv o .hkz cs) {rows : List (List ℤ)} (hgi : Given be.e o rows) (hr : rows ≠ []) {n : ℕ} (hn : Cols rows n) (hn1 : 1 ≤ n)
    (hg : ∀ x : ℤ, -2 ^ 63 ≤ x → x < 2 ^ 63 → be.e.getSi x = x) (hne : toM rows.length n (given rows) ≠ 0) (hpre : ∀ p, Pre (be.bw p)) (fuel : ℕ) (junk : Mat ℤ) {s : ℕ} {out : List Char} (h : main be argv fuel junk = .exit s out) :
    ∃ c w brun st bad lost m mp ts, hkzReduction c (lllRun w rows.length n) brun fuel o.floatType o.precision be.mprec junk (given rows) = .ret st bad lost m mp ∧ s = statusCode st ∧ s ≤ 4 ∧ out = ts.flatten ∧
      List.Forall₂ (Written ofHkz rows.length n s m.b none) cs ts ∧ (lost = false → lattice (toM rows.length n m.b) = lattice (toM rows.length n (given rows))) := by
  have hd : 1 ≤ rows.length := List.length_pos_iff.2 hr
  obtain ⟨good, st, bad, lost, m, mp, ts, h1, h2, h3, h4⟩ := hkz_exit ha hgi hr hn hn1 fuel junk h
  obtain ⟨k1, k2, -, k4, k5, -⟩ := hkzCfg_spec be o rows.length
  obtain ⟨g1, g2, -, -, g5⟩ := reduction_codes _ rows.length n _ _ 1 (by show rows.length ≠ 0; omega) (by show n ≠ 0; omega) _ _ _ _ _ _ h1
  have hgr : GoodRun rows.length n (lllRun (lllWorld be.e) rows.length n) := fun t call last inp => lllRun_trel _ hd hn1 t call last inp
  refine ⟨_, _, _, st, bad, lost, m, mp, ts, h1, h2, ?_, h3, h4.imp fun c t hc => ?_, fun hl => ?_⟩
  · rw [h2]
    rcases g5 with g | g | g
    · exact g
    · have := g2 g; rw [k5] at this; cases this
    · obtain ⟨l, hl⟩ := g1 g; rw [k4] at hl; cases hl
  · unfold Written at hc ⊢
    by_cases hk : ofHkz c = true
    · rw [if_pos hk] at hc ⊢
      cases hc with
      | b t h => exact .b t h
      | bk t h => exact .bk t h
      | _ => cases hk
    · rw [if_neg hk] at hc ⊢
      exact hc
  · have hgb := bkzRun_good (be.bw (hkzParam be.e.cv o rows.length)) (d := rows.length) hn1 1 (bkzCfg be (hkzParam be.e.cv o rows.length)) (hpre _)
    rw [k1, k2] at hgb
    have := C79_lattice_partial (c := topCfg be.e (hkzParam be.e.cv o rows.length : BParam S) rows.length n good) hgr hgb hg fuel ⟨1, false, o.floatType, o.precision⟩ be.mprec junk (given rows) none ⟨hne, nofun⟩
    unfold hkzReduction at h1
    rw [h1] at this
    exact (this hl).1.1

open BKZ LLL in
/-- **C98 (HKZ).**  In exact arithmetic, for linearly independent rows: if the exit code is 0 then the basis written is HKZ-reduced (and the lattice is kept), given that the conversions of machine integers succeeded. -/
theorem C98_hkz_reduced_partial {cs : List Code} (ha : Asked be.e argv o .hkz cs) {rows : List (List ℤ)} (hgi : Given be.e o rows) (hr : 2 ≤ rows.length) {n : ℕ} (hn : Cols rows n) (hn1 : 1 ≤ n)
    (hg : ∀ x : ℤ, -2 ^ 63 ≤ x → x < 2 ^ 63 → be.e.getSi x = x) {jz : ℕ → Mat ℤ} {jf : ℕ → Mat Exact} {orc : Bool → Triple → BKZ.Orc Exact}
    {timeUp : ℕ → BKZ.W Exact → Bool} {slope : ℕ → BKZ.W Exact → D} {babai inner density depth tries tours : ℕ} (hbw : ∀ p, be.bw p = exactB jz jf orc timeUp slope babai inner density depth tries tours)
    (hfuel : 2 ≤ babai) (hruns : ∀ long inp, Runs 1 (orc long inp)) (hstr : ∀ long inp bs, (orc long inp).preproc bs = []) (hmore : ∀ long inp t it, (orc long inp).more t it = decide (it = 0))
    (hind : Indep rows.length n (toQ (given rows))) (fuel : ℕ) (junk : Mat ℤ) {out : List Char} (h : main be argv fuel junk = .exit 0 out) :
    ∃ c w brun st bad lost m mp ts, hkzReduction c (lllRun w rows.length n) brun fuel o.floatType o.precision be.mprec junk (given rows) = .ret st bad lost m mp ∧ out = ts.flatten ∧
      List.Forall₂ (Written ofHkz rows.length n 0 m.b m.u) cs ts ∧ (lost = false → (∀ x, InPre n rows.length m.b x ↔ InPre n rows.length (given rows) x) ∧ HkzReduced n rows.length m.b (51 / 100)) := by
  have hne : rows ≠ [] := by rintro rfl; simp at hr
  obtain ⟨good, st, bad, lost, m, mp, ts, h1, h2, h3, h4⟩ := hkz_exit ha hgi hne hn hn1 fuel junk h
  obtain ⟨k1, k2, k3, k4, k5, k6, k7⟩ := hkzCfg_spec be o rows.length
  have hs : st = .success := C96_status.2.1 st .success (h2.symm.trans C96_status.1.symm)
  subst hs
  have hgr : GoodRun rows.length n (lllRun (lllWorld be.e) rows.length n) := fun t call last inp => lllRun_trel _ (by omega) hn1 t call last inp
  refine ⟨_, _, _, _, bad, lost, m, mp, ts, h1, h3, h4, fun hl => ?_⟩
  subst hl
  rw [hbw] at h1
  refine C79_hkz (c := topCfg be.e (hkzParam be.e.cv o rows.length : BParam S) rows.length n good) hgr hg hr hn1 (fun long inp => ?_) (fun long inp => ?_) k4 k5 fuel o.floatType o.precision be.mprec junk (given rows) hind h1
  · exact ⟨⟨_, _, rfl⟩, hfuel, by norm_num, hruns long inp, hstr long inp, fun t => by rw [hmore]; rfl, k2, k3, k6, by rw [k1]; exact le_rfl⟩
  · exact ⟨rfl, fun t it hit => by rw [hmore]; simp; omega, k7, tame_default⟩

/-! ## Violations -/

theorem readOptions_append (cv : Conv ℚ) : ∀ (k : ℕ) (argv rest : List String) (o o' : Options ℚ), argv.length ≤ k → readOptions cv argv o = .ok o' → readOptions cv (argv ++ rest) o = readOptions cv rest o'
  | _, [], rest, o, o', _, h => by cases h; rfl
  | 0, a :: l, rest, o, o', hk, _ => by simp at hk
  | k + 1, a :: l, rest, o, o', hk, h => by
    have hk' : l.length ≤ k := by simpa using hk
    cases hx : kind cv a with
    | val f =>
      cases l with
      | nil => rw [readOptions] at h; simp only [hx] at h; cases h
      | cons v l =>
        rw [readOptions_val hx] at h
        rw [List.cons_append, List.cons_append, readOptions_val hx]
        cases hf : f v o with
        | ok o1 =>
          rw [hf] at h
          dsimp only at h ⊢
          exact readOptions_append cv k l rest o1 o' (by simp at hk'; omega) h
        | exit0 => rw [hf] at h; cases h
        | exit1 => rw [hf] at h; cases h
    | flag f =>
      rw [readOptions_flag hx] at h
      rw [List.cons_append, readOptions_flag hx]
      exact readOptions_append cv k l rest _ o' hk' h
    | stop r =>
      rw [readOptions_stop hx] at h
      rw [List.cons_append, readOptions_stop hx, h]
      exfalso
      rcases kind_inv (cv := cv) a with ⟨-, f, hk⟩ | ⟨-, f, hk⟩ | ⟨-, hk⟩ | hk | ⟨-, hk⟩ <;> rw [hx] at hk <;> cases hk <;> cases h
    | file =>
      rw [readOptions_file hx] at h
      rw [List.cons_append, readOptions_file hx]
      split_ifs at h ⊢
      exact readOptions_append cv k l rest _ o' hk' h

/-- **C98 is violated by `-a hkz -nolll`.**  README.md: "In the case of bkz, hkz and svp, by default, the input basis is LLL-reduced before anything else.  This option allows to remove that initial LLL-reduction".  For `hkz` the option has no effect at all. -/
theorem C98_hkz_nolll_violated {cs : List Code} (ha : Asked be.e argv o .hkz cs) (fuel : ℕ) (junk : Mat ℤ) :
    readOptions be.e.cv (argv ++ ["-nolll"]) (Options.init be.e.cv) = .ok { o with noLll := true } ∧ main be (argv ++ ["-nolll"]) fuel junk = main be argv fuel junk := by
  have h : readOptions be.e.cv (argv ++ ["-nolll"]) (Options.init be.e.cv) = .ok { o with noLll := true } := by
    rw [readOptions_append be.e.cv argv.length argv _ _ o le_rfl ha.opts]
    rfl
  refine ⟨h, ?_⟩
  unfold main
  rw [h, ha.opts]
  dsimp only
  rw [if_pos ha.int, if_pos ha.int]
  unfold runAction
  dsimp only
  rw [ha.action]
  rfl

/-- **C98 is violated for matrices without rows or columns**: `log2(0)` is converted to `int`. -/
theorem C98_empty_violated {cs : List Code} (ha : Asked be.e argv o .hkz cs) {rows : List (List ℤ)} (hgi : Given be.e o rows) {n : ℕ} (hn : Cols rows n) (h0 : rows = [] ∨ n = 0) (hft : o.floatType = none) (fuel : ℕ) (junk : Mat ℤ) :
    main be argv fuel junk = .ub := by
  rw [main_hkz ha hgi hn]
  unfold hkz reduce
  dsimp only
  rw [hft, if_neg (by rintro ⟨h, -⟩; cases h), has_nolll]
  have hb : (hkzParam be.e.cv o (rows.map (padRow n)).length : BParam S).flags.testBit 1 = false := by
    show Nat.testBit (if o.verbose then BKZ_VERBOSE else 0) 1 = false
    split_ifs <;> decide
  rw [if_neg (by rw [hb]; decide), if_pos]
  · rfl
  · rcases h0 with rfl | h0
    · left; rfl
    · right; exact h0

/-! ## Examples: `fplll` with the enumeration of C57 in exact arithmetic -/

/-- the arguments are decimal numbers -/
def exNum (s : String) : ℤ := s.toList.foldl (fun a c => 10 * a + (c.toNat - 48)) 0

noncomputable def exBEnv (stdin : List Char) : BEnv Unit (WithTop ℕ) where
  e := { exEnv stdin with cv := { (exEnv stdin).cv with atoi := exNum, atof := fun s => exNum s } }
  load := fun _ => none
  bw := fun _ => exactB (fun _ _ _ => 7) (fun _ _ _ => none) (fun _ _ => enumOrc 1 200) (fun _ _ => false) (fun _ _ => ⊤) 20 20 1 2 20 20
  scaled := fun _ => id
  mprec := 53

/-- `fplll -a bkz -b 2 -of but` on `(1, 0, 0), (2³¹, 1, 0), (0, 3·2³⁰, 1)` -/
example : exOut (main (exBEnv "[[1 0 0][2147483648 1 0][0 3221225472 1]]".toList) ["-a", "bkz", "-b", "2", "-d", "1", "-of", "but"] 100 fun _ _ => 0) =
    some (0, "[[0 1 0 ]\n[0 0 1 ]\n[1 0 0 ]\n]\n[[-2147483648 1 0 ]\n[6917529027641081856 -3221225472 1 ]\n[1 0 0 ]\n]\n0\n".toList) := by decide +kernel

/-- **C98 is violated by large transforms.**  `fplll -a bkz -b 2 -nolll -of but` on the same basis reports success (`t` is 0, and so is the exit code) and writes a singular matrix `u`: see C79. -/
theorem C98_u_violated : exOut (main (exBEnv "[[1 0 0][2147483648 1 0][0 3221225472 1]]".toList) ["-a", "bkz", "-b", "2", "-d", "1", "-nolll", "-of", "but"] 100 fun _ _ => 0) =
    some (0, "[[0 1 0 ]\n[0 0 1 ]\n[1 0 0 ]\n]\n[[-2147483648 1 0 ]\n[0 0 0 ]\n[0 0 0 ]\n]\n0\n".toList) := by decide +kernel

/-- `fplll -a hkz -of bkt` -/
example : exOut (main (exBEnv "[[100 0 0][40 200 0][-30 101 141]]".toList) ["-a", "hkz", "-of", "bkt"] 100 fun _ _ => 0) =
    some (0, "[[100, 0, 0],\n[-30, 99, -141],\n[-30, 101, 141]]\n".toList) := by decide +kernel

/-- both variants at once: an exception that is not caught -/
example : exOut (main (exBEnv "[[2 0][3 1]]".toList) ["-a", "sdb", "-b", "2", "-a", "sld"] 100 fun _ _ => 0) = none := by decide +kernel

theorem exOut_exit {x : Proc} {c : ℕ} {t : List Char} (h : exOut x = some (c, t)) : x = .exit c t := by
  cases x <;> cases h
  rfl

def exRows : List (List ℤ) := [[100, 0, 0], [40, 200, 0], [-30, 101, 141]]

noncomputable def exOpts (act : Action) (bs : ℤ) : Options ℚ := { Options.init (exBEnv []).e.cv with action := act, blockSize := bs }

theorem ex_given (act : Action) (bs : ℤ) : Given (exBEnv (matrixText false exRows)).e (exOpts act bs) exRows := ⟨_, [], matrixText_tok false _, .inl ⟨rfl, by simp [exBEnv, exEnv]⟩⟩

theorem ex_cols : Cols exRows 3 := ⟨by decide, fun _ => ⟨[100, 0, 0], by decide, rfl⟩, by decide⟩

/-- `C98_bkz_partial` and `C98_codes` apply to `fplll -a bkz -b 2` -/
example : ∃ s out, main (exBEnv (matrixText false exRows)) ["-a", "bkz", "-b", "2"] 100 (fun _ _ => 0) = .exit s out ∧ Asked (exBEnv (matrixText false exRows)).e ["-a", "bkz", "-b", "2"] (exOpts .bkz 2) .bkz [.b] ∧
    Given (exBEnv (matrixText false exRows)).e (exOpts .bkz 2) exRows ∧ Cols exRows 3 ∧ Adm 3 3 ((exOpts .bkz 2).bkzFlags.testBit 8) 2 (given exRows) := by
  have h : exOut (main (exBEnv (matrixText false exRows)) ["-a", "bkz", "-b", "2"] 100 (fun _ _ => 0)) = some (0, "[[100 0 0 ]\n[-30 99 -141 ]\n[-30 101 141 ]\n]\n".toList) := by decide +kernel
  exact ⟨_, _, exOut_exit h, ⟨by rfl, rfl, rfl, .inr ⟨rfl, rfl⟩⟩, ex_given _ _, ex_cols, fun h => absurd (congrFun (congrFun h 0) 0) (by decide), fun h => by cases h⟩

/-- `C98_hkz_reduced_partial` applies to `fplll -a hkz` -/
example : ∃ c w brun st bad lost m mp ts, hkzReduction c (lllRun w 3 3) brun 100 none 0 53 (fun _ _ => 0) (given exRows) = .ret st bad lost m mp ∧
    main (exBEnv (matrixText false exRows)) ["-a", "hkz"] 100 (fun _ _ => 0) = .exit 0 (List.flatten ts) ∧ List.Forall₂ (Written ofHkz 3 3 0 m.b m.u) [.b] ts ∧ (lost = false → HkzReduced 3 3 m.b (51 / 100)) := by
  have h : exOut (main (exBEnv (matrixText false exRows)) ["-a", "hkz"] 100 (fun _ _ => 0)) = some (0, "[[100 0 0 ]\n[-30 99 -141 ]\n[-30 101 141 ]\n]\n".toList) := by decide +kernel
  have h' := exOut_exit h
  obtain ⟨c, w, brun, st, bad, lost, m, mp, ts, h1, h2, h3, h4⟩ := C98_hkz_reduced_partial (be := exBEnv (matrixText false exRows)) (o := exOpts .hkz 0) (cs := [.b]) ⟨by rfl, rfl, rfl, .inr ⟨rfl, rfl⟩⟩ (ex_given _ _) (by decide) ex_cols (by decide)
    (fun _ _ _ => rfl) (fun _ => rfl) (by norm_num) (fun _ _ => enumOrc_runs (by norm_num) 200) (fun _ _ _ => rfl) (fun _ _ _ _ => rfl)
    (by
      have : ∀ i < 3, ∀ k < 3, toQ lastB i k = toQ (given exRows) i k := by decide +kernel
      intro a hc
      refine last_indep a fun k hk => ?_
      rw [← hc k hk]
      unfold lc
      exact Finset.sum_congr rfl fun i hi => by rw [this i (Finset.mem_range.1 hi) k hk]) 100 _ h'
  exact ⟨c, w, brun, st, bad, lost, m, mp, ts, h1, by rw [h', h2], h3, fun hl => (h4 hl).2⟩

end RedCmd
end Fplll

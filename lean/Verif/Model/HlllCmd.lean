import Verif.Model.LllCmd
import Verif.Model.HLLL
import Verif.Model.HlllPrec

/-!
# The program `fplll` with the action `hlll`, from its arguments and its input text to its output text

main.cpp:318-383 (`hlll`), 423-473 (`run_action`), 778-803 (`main`), wrapper.cpp:733-1087.  Only integers of type `mpz_t`.  Messages on standard error are left out.
-/

namespace Fplll
namespace HlllCmd

open Wrapper Cli TextIO Gen LllCmd

/-- what the runs of HLLL depend on: the floating-point numbers of each type and precision, the conversion from `double`, the content of fresh memory; the two numbers bound the loops of the model -/
structure HWorld where
  F : FT → ℤ → Type
  ops : ∀ ft p, HFloat (F ft p)
  conv : ∀ ft p, ℚ → F ft p
  srFuel : ℕ
  fuel : ℕ
  junk : ℕ → ∀ ft p, Mat (F ft p)

/-- what the program depends on: as for `lll`, `hlll_min_prec` (`Model/HlllPrec`) and the runs -/
structure HEnv where
  e : LllCmd.Env
  minPrec : ℕ → ℕ → ℚ → ℚ → ℚ → ℚ → HlllPrec.Res
  w : HWorld

/-- how a run of HLLL ends -/
inductive RunEnd
  | ret (r : Wrapper.Res)
  | ub
  | outOfFuel

/-- run number `t`: `hlll_reduction_zf`, wrapper.cpp:789-806, and the body of `Wrapper::call_hlll`, wrapper.cpp:411-425.  HLLL has neither `final_kappa` nor `last_early_red`. -/
def one (w : HWorld) (theta : ℚ) (d n t : ℕ) (call : Call) (inp : Triple) : RunEnd :=
  letI := w.ops call.ft call.prec
  let cv := w.conv call.ft call.prec
  match HL.zf w.srFuel w.fuel (decide (call.meth = .fast)) (cv call.delta) (cv call.eta) (cv theta) d n inp (w.junk t call.ft call.prec) with
  | .done s h => .ret ⟨s, 0, 0, HL.out inp h⟩
  | .ub => .ub
  | _ => .outOfFuel

/-- the runs as the wrapper sees them; after one that does not return nothing matters -/
def total (w : HWorld) (theta : ℚ) (d n : ℕ) : Runner := fun t call _ inp =>
  match one w theta d n t call inp with
  | .ret r => r
  | _ => ⟨.success, 0, 0, inp⟩

/-- the end of the process in the first run that does not return, if there is one (latest run first) -/
def stuck (w : HWorld) (theta : ℚ) (d n : ℕ) : List (Call × Triple) → Option Proc
  | [] => none
  | x :: l =>
    match stuck w theta d n l with
    | some p => some p
    | none =>
      match one w theta d n l.length x.1 x.2 with
      | .ret _ => none
      | .ub => some .ub
      | .outOfFuel => some .outOfFuel

/-- the runs made, latest first: by the wrapper (wrapper.cpp:478-529) or one (wrapper.cpp:949-981); none for an empty matrix -/
def made (c : Cfg) (run : Runner) (fuel : ℕ) (a : Args) (m : Triple) (junk : Mat ℤ) : List (Call × Triple) :=
  match hlllChoice c.bld c.goodPrec a with
  | .abort => []
  | .wrapper =>
    match Wrapper.hlll c run fuel (Wrapper.mk c m junk) with
    | none => []
    | some q => q.2.log.map fun x => (x.call, x.inp)
  | .single ft p => if c.d = 0 ∨ c.n = 0 then [] else [(⟨a.zt, ft, a.meth, if ft = .mpfr then p else 0, c.delta, c.eta, decide (a.meth = .fast)⟩, m)]

/-- how `hlll_reduction` ends -/
inductive Ret
  | stop (p : Proc)
  | ret (s : RedStatus) (m : Triple)

/-- `nolll`: `is_hlll_reduced_pr<ZT, mpfr_t>` with `precision` or `good_prec` bits, wrapper.cpp:828-860 and 748-760.  The entry `R_naively(i, i)` of a row `i ≥ n` does not exist (householder.cpp:312). -/
def verify (w : HWorld) (o : Options ℚ) (d n : ℕ) (good : ℤ) (m : Triple) : Ret :=
  let p := if o.precision ≠ 0 then o.precision else good
  letI := w.ops .mpfr p
  let cv := w.conv .mpfr p
  let t : Triple := ⟨m.b, identityIf m.u, identityIf m.v⟩
  if d = 0 ∨ n = 0 then .ret .success t
  else if n < d then .stop .ub
  else if HNaive.isHlllReduced false d n m.b (cv o.delta) (cv o.eta) (cv o.theta) (w.junk 0 .mpfr p) = true then .ret .success t
  else .ret .hlllFailure t

/-- the arguments of `hlll_reduction`, main.cpp:329-341 -/
def args (o : Options ℚ) : Args := ⟨o.method, .mpz, o.floatType, o.precision, false⟩

/-- `hlll_reduction(b, u, u_inv, delta, eta, theta, c, method, float_type, precision, flags, nolll)`, wrapper.cpp:1051-1087 -/
def reduce (he : HEnv) (o : Options ℚ) (d n : ℕ) (m : Triple) (fuel : ℕ) (junk : Mat ℤ) : Ret :=
  if o.method = .heuristic then .stop .abort
  else
    match he.minPrec d n o.delta o.eta o.theta o.c with
    | .abort => .stop .abort
    | .ub => .stop .ub
    | .ok good =>
      if o.noLll then verify he.w o d n good m
      else
        let c := cfg he.e o d n good
        let run := total he.w o.theta d n
        match stuck he.w o.theta d n (made c run fuel (args o) ⟨m.b, identityIf m.u, (identityIf m.v).map transposeMat⟩ junk) with
        | some p => .stop p
        | none =>
          match hlllReduction c run fuel (args o) m junk with
          | .abort => .stop .abort
          | .outOfFuel => .stop .outOfFuel
          | .done (s, m') => .ret s m'

/-- the loop over the format, main.cpp:344-376: there is no case for `t` -/
def printHlll : List Char → List Item
  | [] => []
  | 'b' :: 'k' :: r => .b true :: printHlll r
  | 'u' :: 'k' :: r => .u true :: printHlll r
  | 'v' :: 'k' :: r => .v true :: printHlll r
  | 'b' :: r => .b false :: printHlll r
  | 'u' :: r => .u false :: printHlll r
  | 'v' :: r => .v false :: printHlll r
  | ' ' :: r => .newline :: printHlll r
  | _ :: r => printHlll r

/-- `hlll(o, b)`, main.cpp:318-383, on the rows read -/
def hlll (he : HEnv) (o : Options ℚ) (rows : List (List ℤ)) (n fuel : ℕ) (junk : Mat ℤ) : Proc :=
  let d := rows.length
  let want := wantTransforms (format o)
  let zero : ℕ → ℕ → ℤ := fun _ _ => 0
  match reduce he o d n ⟨matOf rows, if want.1 then some zero else none, if want.2 then some zero else none⟩ fuel junk with
  | .stop p => p
  | .ret s m =>
    match output d n s m (printHlll (format o)) with
    | none => .ub
    | some t => .exit (statusCode s) t

/-- `run_action<mpz_t>`, main.cpp:423-473 -/
def runAction (he : HEnv) (o : Options ℚ) (fuel : ℕ) (junk : Mat ℤ) : Proc :=
  let p := readMatrix (input he.e o)
  if p.2.ok = false then .exit 1 []
  else if o.action ≠ .hlll then .other
  else
    match p.1 with
    | none => .other
    | some (rows, n) => hlll he o rows n fuel junk

/-- `main`, main.cpp:778-803.  The text printed for `-h` and `-v` is left out. -/
def main (he : HEnv) (argv : List String) (fuel : ℕ) (junk : Mat ℤ) : Proc :=
  match readOptions he.e.cv argv (Options.init he.e.cv) with
  | .exit0 => .exit 0 []
  | .exit1 => .exit 1 []
  | .ok o => if o.intType ≠ .mpz then .other else runAction he o fuel junk

end HlllCmd
end Fplll

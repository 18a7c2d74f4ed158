import Verif.Model.LllCmd
import Verif.Model.BKZTop

/-!
# The program `fplll` with the actions `bkz` (also `sdb`, `sld`) and `hkz`, from its arguments and its input text to its output text

main.cpp:120-226 (`bkz`, `hkz`), 423-473 (`run_action`), 778-803 (`main`), bkz_param.h:109-136 (`BKZParam`).  Messages on standard error, messages of `-v` and the file of `-bkzdumpgso` (C93) are left out.
-/

namespace Fplll
namespace RedCmd

open Wrapper Cli TextIO ErrB Gen BkzTop LllCmd

/-- `BKZParam`, bkz_param.h:109-175.  `strategies = none`: the vector was empty and the constructor creates dummy strategies for all block sizes. -/
structure BParam (S : Type) where
  blockSize : ℤ
  strategies : Option S
  delta : ℚ
  flags : ℕ
  maxLoops : ℤ
  maxTime : ℚ
  scale : ℚ
  maxNoDec : ℤ
  ghFactor : ℚ
  dumpFile : String
  minProb : ℚ
  density : ℕ

/-- what the program depends on: as for `lll`, and what a run of `bkz()` depends on, for each set of parameters.  `load` is `load_strategies_json(strategy_full_path(name))`, which throws (`none`) or gives the strategies; `mprec` is the default precision of `mpfr`
numbers; `scaled x` is the multiplication of slopes by `x`. -/
structure BEnv (S D : Type) where
  e : LllCmd.Env
  load : String → Option S
  bw : BParam S → BWorld D
  scaled : ℚ → D → D
  mprec : ℤ

variable {S D : Type}

/-- the constructor with two arguments, bkz_param.h:109-136; the default values are in defs.h:143 and 256-260 -/
def mkParam (cv : Conv ℚ) (blockSize : ℤ) (strategies : Option S) : BParam S :=
  ⟨blockSize, strategies, cv.defDelta, 0, 0, 0, 1, 5, cv.defGh, "gso.json", 1 / 2, 3⟩

/-- is the flag set? -/
def has (flags bit : ℕ) : Bool := decide (flags &&& bit ≠ 0)

/-- the parameters of `-a bkz`, main.cpp:131-154 -/
def bkzParam (cv : Conv ℚ) (o : Options ℚ) (strategies : Option S) : BParam S :=
  let p : BParam S := mkParam cv o.blockSize strategies
  { p with
    delta := o.delta
    flags := (o.bkzFlags ||| (if o.verbose then BKZ_VERBOSE else 0)) ||| (if o.noLll then BKZ_NO_LLL else 0)
    dumpFile := if has o.bkzFlags BKZ_DUMP_GSO then o.dumpFile else p.dumpFile
    ghFactor := if has o.bkzFlags BKZ_GH_BND then o.ghFactor else p.ghFactor
    maxLoops := if has o.bkzFlags BKZ_MAX_LOOPS then o.bkzMaxLoops else p.maxLoops
    maxTime := if has o.bkzFlags BKZ_MAX_TIME then o.bkzMaxTime else p.maxTime }

/-- the parameters of `hkz_reduction`, bkz.cpp:946-955, called from main.cpp:198-201 -/
def hkzParam (cv : Conv ℚ) (o : Options ℚ) (d : ℕ) : BParam S :=
  { mkParam cv d none with delta := 1, flags := if o.verbose then BKZ_VERBOSE else 0 }

/-- what `bkz()` reads of the parameters -/
def bkzCfg (be : BEnv S D) (p : BParam S) : BKZ.Cfg D where
  blockSize := p.blockSize
  sd := has p.flags BKZ_SD_VARIANT
  sld := has p.flags BKZ_SLD_RED
  maxLoops := if has p.flags BKZ_MAX_LOOPS then some p.maxLoops else none
  maxTime := has p.flags BKZ_MAX_TIME
  autoAbort := has p.flags BKZ_AUTO_ABORT
  bounded := has p.flags BKZ_BOUNDED_LLL
  scaled := be.scaled p.scale
  maxNoDec := p.maxNoDec

/-- the data of the LLL wrapper inside `bkz_reduction`, bkz.cpp:862 and 872; `bkzReduction` sets `delta` and `eta` -/
def topCfg (e : LllCmd.Env) (p : BParam S) (d n : ℕ) (good : ℤ) : Cfg where
  bld := e.bld
  d := d
  n := n
  slack := e.slack d n
  delta := lllDelta p.delta
  eta := lllEta
  goodPrec := good
  little := e.little
  getSi := e.getSi

/-- `LLL_DEFAULT`, bkz.cpp:872 -/
def lllWorld (e : LllCmd.Env) : World := { e.world with earlyRed := false, siegel := false }

/-- `bkz_reduction(&b, U, param, float_type, precision)` with the constructor of the wrapper (wrapper.cpp:45-58), which converts `log2(0)` to `int` for a matrix without rows or columns; `withU`: `U` is the matrix of one row and one column of main.cpp:133 -/
def reduce [LinearOrder D] [OrderTop D] (be : BEnv S D) (p : BParam S) (ft : Option FT) (prec : ℤ) (withU : Bool) (d n : ℕ) (b : Mat ℤ) (fuel : ℕ) (junk : Mat ℤ) : TOut :=
  let noLll := has p.flags BKZ_NO_LLL
  let go := fun good => bkzReduction (topCfg be.e p d n good) (lllRun (lllWorld be.e) d n) (bkzRun (be.bw p) d n p.delta (bkzCfg be p)) fuel ⟨p.delta, noLll, ft, prec⟩ be.mprec junk b
    (if withU then some fun _ _ => 0 else none)
  if ft.getD .double = .mpfr ∧ prec = 0 then .abort
  else if noLll then go 0
  else if d = 0 ∨ n = 0 then .ub
  else
    match computeMinPrec be.e.arith be.e.logU be.e.logD true d (lllDelta p.delta) lllEta be.e.epsilon with
    | .abort => .abort
    | .ub => .ub
    | .ok _ good => go good

/-- the printing loop of `bkz`, main.cpp:158-187 -/
def printBkz : List Char → List Item
  | [] => []
  | 'b' :: 'k' :: r => .b true :: printBkz r
  | 'u' :: 'k' :: r => .u true :: printBkz r
  | 'b' :: r => .b false :: printBkz r
  | 'u' :: r => .u false :: printBkz r
  | 't' :: r => .status :: printBkz r
  | ' ' :: r => .newline :: printBkz r
  | _ :: r => printBkz r

/-- the printing loop of `hkz`, main.cpp:202-214 -/
def printHkz : List Char → List Item
  | [] => []
  | 'b' :: 'k' :: r => .b true :: printHkz r
  | 'b' :: r => .b false :: printHkz r
  | _ :: r => printHkz r

/-- from the outcome of the reduction to the end of the process: an exception is not caught; `u` that was not computed is the matrix of main.cpp:133 -/
def finish (d n : ℕ) (items : List Item) : TOut → Proc
  | .abort => .abort
  | .outOfFuel => .outOfFuel
  | .ub => .ub
  | .throws _ _ _ => .abort
  | .stuck _ _ => .outOfFuel
  | .ret s _ _ m _ =>
    match output d n s m items with
    | none => .ub
    | some t => .exit (statusCode s) t

/-- the strategies, main.cpp:125-129: `none` is an exception -/
def strategies (be : BEnv S D) (o : Options ℚ) : Option (Option S) := if o.strategyFile = "" then some none else (be.load o.strategyFile).map some

/-- `bkz(o, b)`, main.cpp:122-193 -/
def bkz [LinearOrder D] [OrderTop D] (be : BEnv S D) (o : Options ℚ) (rows : List (List ℤ)) (n fuel : ℕ) (junk : Mat ℤ) : Proc :=
  if o.blockSize ≤ 0 then .exit 1 []
  else
    match strategies be o with
    | none => .abort
    | some st =>
      finish rows.length n (printBkz (format o)) (reduce be (bkzParam be.e.cv o st) o.floatType o.precision (decide ('u' ∈ format o)) rows.length n (matOf rows) fuel junk)

/-- `hkz(o, b)`, main.cpp:195-220 -/
def hkz [LinearOrder D] [OrderTop D] (be : BEnv S D) (o : Options ℚ) (rows : List (List ℤ)) (n fuel : ℕ) (junk : Mat ℤ) : Proc :=
  finish rows.length n (printHkz (format o)) (reduce be (hkzParam be.e.cv o rows.length) o.floatType o.precision false rows.length n (matOf rows) fuel junk)

/-- `run_action`, main.cpp:423-473, for `mpz_t` integers; the actions `svp`, `cvp`, `hlll`, `pru` are not modelled here -/
def runAction [LinearOrder D] [OrderTop D] (be : BEnv S D) (o : Options ℚ) (fuel : ℕ) (junk : Mat ℤ) : Proc :=
  let p := readMatrix (input be.e o)
  if p.2.ok = false then .exit 1 []
  else
    match p.1 with
    | none => .other
    | some (rows, n) =>
      match o.action with
      | .lll => lll be.e o rows n fuel junk
      | .bkz => bkz be o rows n fuel junk
      | .hkz => hkz be o rows n fuel junk
      | _ => .other

/-- `main`, main.cpp:778-803.  With other integers `bkz` and `hkz` end with a message (main.cpp:120 and 195), as does an input that is no matrix or a build without them. -/
def main [LinearOrder D] [OrderTop D] (be : BEnv S D) (argv : List String) (fuel : ℕ) (junk : Mat ℤ) : Proc :=
  match readOptions be.e.cv argv (Options.init be.e.cv) with
  | .exit0 => .exit 0 []
  | .exit1 => .exit 1 []
  | .ok o =>
    if o.intType = .mpz then runAction be o fuel junk
    else if o.action = .bkz ∨ o.action = .hkz then .exit 1 []
    else .other

end RedCmd
end Fplll

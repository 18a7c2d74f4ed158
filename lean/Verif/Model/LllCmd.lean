import Verif.Model.Cli
import Verif.Model.TextIO
import Verif.Model.MinPrec

/-!
# The program `fplll` with the action `lll`, from its arguments and its input text to its output text

main.cpp:20-93 (`lll`), 423-473 (`run_action`), 778-803 (`main`), matrix.cpp:206-224 (`print_comma`).
Only integers of type `mpz_t`.  Messages on standard error are left out.
-/

namespace Fplll
namespace LllCmd

open Wrapper Cli TextIO ErrB Gen

/-- What the program depends on besides its arguments and its input: the conversions of arguments, the build, the floating-point arithmetic of `l2_min_prec` and of the reduction, the tests of the wrapper.  `slack d n` is
`(int)ceil(0.5 * log2((double)d * n))`, wrapper.cpp:53; `epsilon` is `LLL_DEF_EPSILON`. -/
structure Env where
  cv : Conv ℚ
  bld : Build
  slack : ℕ → ℕ → ℕ
  arith : Arith
  logU : ℚ → ℚ
  logD : ℚ → ℚ
  epsilon : ℚ
  little : ℤ → ℤ → Bool
  getSi : ℤ → ℤ
  world : World
  /-- content of an input file; `none`: it cannot be opened -/
  files : String → Option (List Char)
  stdin : List Char

/-- how the process ends: `exit` or a return from `main` with a code, and the text on standard output; `abort()`; undefined behaviour; the model ran out of fuel; another action or integer type, not modelled here -/
inductive Proc
  | exit (code : ℕ) (out : List Char)
  | abort
  | ub
  | outOfFuel
  | other

/-- `enum RedStatus`, defs.h:153-169 -/
def statusCode : RedStatus → ℕ
  | .success => 0
  | .gsoFailure => 2
  | .babaiFailure => 3
  | .lllFailure => 4
  | .enumFailure => 5
  | .bkzFailure => 6
  | .bkzTimeLimit => 7
  | .bkzLoopsLimit => 8
  | .hlllFailure => 9
  | .hlllNormFailure => 10
  | .hlllSrFailure => 11

/-- the entries of a row as `print_comma` writes them, matrix.cpp:212-216: all but the last one are followed by a comma and a space.  Reading the last entry of an empty row is undefined (`none`). -/
def commaRow : List ℤ → Option (List Char)
  | [] => none
  | [x] => some (intText x)
  | x :: y :: l => (commaRow (y :: l)).map fun t => intText x ++ ',' :: ' ' :: t

/-- the rows as `print_comma` writes them, matrix.cpp:209-221.  Without a row `matrix[r - 1]` is undefined. -/
def commaRows : List (List ℤ) → Option (List Char)
  | [] => none
  | [x] => (commaRow x).map fun t => '[' :: (t ++ [']'])
  | x :: y :: l =>
    match commaRow x, commaRows (y :: l) with
    | some t, some r => some ('[' :: (t ++ ']' :: ',' :: '\n' :: r))
    | _, _ => none

/-- `Matrix::print_comma`, matrix.cpp:206-224 -/
def printComma (rows : List (List ℤ)) : Option (List Char) := (commaRows rows).map fun t => '[' :: (t ++ [']', '\n'])

/-- `cout << m << endl` or `m.print_comma(cout)`, with `MAT_PRINT_REGULAR` (main.cpp:783) -/
def matItem (comma : Bool) (rows : List (List ℤ)) : Option (List Char) :=
  if comma then printComma rows else some (matrixText true rows ++ ['\n'])

/-- the rows of a matrix -/
def rowsOf (r c : ℕ) (m : ℕ → ℕ → ℤ) : List (List ℤ) := (List.range r).map fun i => (List.range c).map (m i)

/-- the matrix with given rows -/
def matOf (rows : List (List ℤ)) : ℕ → ℕ → ℤ := fun i j => (rows.getD i []).getD j 0

/-- rows of a transformation; one that was not computed is the matrix of main.cpp:23, of one row, one column and the entry 0 -/
def transRows (d : ℕ) : Option (ℕ → ℕ → ℤ) → List (List ℤ)
  | some m => rowsOf d d m
  | none => [[0]]

/-- one turn of the loop in main.cpp:48-84 -/
def itemText (d n : ℕ) (s : RedStatus) (m : Triple) : Item → Option (List Char)
  | .b comma => matItem comma (rowsOf d n m.b)
  | .u comma => matItem comma (transRows d m.u)
  | .v comma => matItem comma (transRows d m.v)
  | .status => some (intText (statusCode s) ++ ['\n'])
  | .newline => some ['\n']
  | _ => some []

/-- the whole loop, main.cpp:48-84 -/
def output (d n : ℕ) (s : RedStatus) (m : Triple) : List Item → Option (List Char)
  | [] => some []
  | i :: l =>
    match itemText d n s m i, output d n s m l with
    | some t, some r => some (t ++ r)
    | _, _ => none

/-- the arguments of `lll_reduction`, main.cpp:25-46 -/
def args (o : Options ℚ) : Args := ⟨o.method, .mpz, o.floatType, o.precision, o.earlyRed⟩

/-- the checks made before `l2_min_prec` is called: wrapper.cpp:567-569 and 589 -/
def rejected (a : Args) : Bool :=
  if a.meth = .wrapper then !decide (a.ft = none ∧ a.prec = 0) else decide (a.meth = .proved) && a.earlyRed

/-- parameters of the reduction, wrapper.cpp:45-58 and 592-593 -/
def cfg (e : Env) (o : Options ℚ) (d n : ℕ) (good : ℤ) : Cfg where
  bld := e.bld
  d := d
  n := n
  slack := e.slack d n
  delta := o.delta
  eta := o.eta
  goodPrec := good
  little := e.little
  getSi := e.getSi

/-- the flags of main.cpp:26-31 -/
def world (e : Env) (o : Options ℚ) : World := { e.world with earlyRed := o.earlyRed, siegel := o.siegel }

/-- the format, main.cpp:24 -/
def format (o : Options ℚ) : List Char := (o.outputFormat.getD "b").toList

/-- `lll(o, b)`, main.cpp:20-93, on the rows read.  With the wrapper the constructor converts `log2(0)` to `int` if the matrix has no row or no column (wrapper.cpp:53), which is undefined. -/
def lll (e : Env) (o : Options ℚ) (rows : List (List ℤ)) (n fuel : ℕ) (junk : ℕ → ℕ → ℤ) : Proc :=
  let d := rows.length
  let a := args o
  let want := wantTransforms (format o)
  if rejected a then .abort
  else if a.meth = .wrapper ∧ (d = 0 ∨ n = 0) then .ub
  else
    match computeMinPrec e.arith e.logU e.logD true d o.delta o.eta e.epsilon with
    | .abort => .abort
    | .ub => .ub
    | .ok _ good =>
      let c := cfg e o d n good
      let zero : ℕ → ℕ → ℤ := fun _ _ => 0
      match lllReduction c (lllRun (world e o) d n) fuel a ⟨matOf rows, if want.1 then some zero else none, if want.2 then some zero else none⟩ junk with
      | .abort => .abort
      | .outOfFuel => .outOfFuel
      | .done (s, m) =>
        match output d n s m (printLll (format o)) with
        | none => .ub
        | some t => .exit (statusCode s) t

/-- the stream read from, main.cpp:428-432 -/
def input (e : Env) (o : Options ℚ) : Stream :=
  match o.inputFile with
  | none => ⟨e.stdin, true⟩
  | some f =>
    match e.files f with
    | none => ⟨[], false⟩
    | some t => ⟨t, true⟩

/-- `run_action<mpz_t>`, main.cpp:423-473: if the stream failed the matrix does not matter -/
def runAction (e : Env) (o : Options ℚ) (fuel : ℕ) (junk : ℕ → ℕ → ℤ) : Proc :=
  let p := readMatrix (input e o)
  if p.2.ok = false then .exit 1 []
  else if o.action ≠ .lll then .other
  else
    match p.1 with
    | none => .other
    | some (rows, n) => lll e o rows n fuel junk

/-- `main`, main.cpp:778-803.  The text printed for `-h` and `-v` is left out. -/
def main (e : Env) (argv : List String) (fuel : ℕ) (junk : ℕ → ℕ → ℤ) : Proc :=
  match readOptions e.cv argv (Options.init e.cv) with
  | .exit0 => .exit 0 []
  | .exit1 => .exit 1 []
  | .ok o => if o.intType ≠ .mpz then .other else runAction e o fuel junk

end LllCmd
end Fplll

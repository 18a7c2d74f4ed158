import Verif.Model.Wrapper
import Verif.Model.SVP

/-!
# Model of the program `fplll` (fplll/main.h, fplll/main.cpp)
-/

namespace Fplll
namespace Cli

open Wrapper

/-- `Action`, main.h:35-44 -/
inductive Action
  | lll
  | hkz
  | bkz
  | svp
  | cvp
  | hlll
  | pru
  deriving DecidableEq

/-- `BKZFlags`, defs.h (the ones set by the command line) -/
def BKZ_VERBOSE : ℕ := 1
def BKZ_NO_LLL : ℕ := 2
def BKZ_MAX_LOOPS : ℕ := 4
def BKZ_MAX_TIME : ℕ := 8
def BKZ_BOUNDED_LLL : ℕ := 0x10
def BKZ_AUTO_ABORT : ℕ := 0x20
def BKZ_DUMP_GSO : ℕ := 0x40
def BKZ_GH_BND : ℕ := 0x80
def BKZ_SD_VARIANT : ℕ := 0x100
def BKZ_SLD_RED : ℕ := 0x200

/-- The conversions `atoi` and `atof` are arbitrary functions; `R` are the doubles, with the default values of defs.h. -/
structure Conv (R : Type) where
  atoi : String → ℤ
  atof : String → R
  defDelta : R
  defEta : R
  defTheta : R
  defC : R
  /-- 1.1 -/
  defGh : R
  zero : R

/-- `Options`, main.h:46-88.  The four `prune_*` members are not initialised by the constructor: `none` is an
indeterminate value. -/
structure Options (R : Type) where
  action : Action
  method : Meth
  intType : ZT
  floatType : Option FT
  delta : R
  eta : R
  precision : ℤ
  earlyRed : Bool
  siegel : Bool
  noLll : Bool
  blockSize : ℤ
  bkzFlags : ℕ
  bkzMaxLoops : ℤ
  pruneStart : Option ℤ
  pruneEnd : Option ℤ
  prunePreNodes : Option R
  pruneMinProb : Option R
  bkzMaxTime : R
  dumpFile : String
  ghFactor : R
  strategyFile : String
  verbose : Bool
  inputFile : Option String
  outputFormat : Option String
  theta : R
  c : R

/-- the constructor of `Options`, main.h:48-57 -/
def Options.init {R : Type} (cv : Conv R) : Options R where
  action := .lll
  method := .wrapper
  intType := .mpz
  floatType := none
  delta := cv.defDelta
  eta := cv.defEta
  precision := 0
  earlyRed := false
  siegel := false
  noLll := false
  blockSize := 0
  bkzFlags := 0
  bkzMaxLoops := 0
  pruneStart := none
  pruneEnd := none
  prunePreNodes := none
  pruneMinProb := none
  bkzMaxTime := cv.zero
  dumpFile := ""
  ghFactor := cv.defGh
  strategyFile := ""
  verbose := false
  inputFile := none
  outputFormat := none
  theta := cv.defTheta
  c := cv.defC

/-- how the parsing ends: normally, or with `exit(0)` (help, version), or with `exit(1)` (`ABORT_MSG`) -/
inductive Res (α : Type)
  | ok (a : α)
  | exit0
  | exit1
  deriving DecidableEq

variable {R : Type}

/-- the value of `-a`, main.cpp:483-511 -/
def setAction (v : String) (o : Options R) : Res (Options R) :=
  if v = "lll" then .ok { o with action := .lll }
  else if v = "hkz" then .ok { o with action := .hkz }
  else if v = "bkz" then .ok { o with action := .bkz }
  else if v = "svp" then .ok { o with action := .svp }
  else if v = "cvp" then .ok { o with action := .cvp }
  else if v = "sdb" then .ok { o with action := .bkz, bkzFlags := o.bkzFlags ||| BKZ_SD_VARIANT }
  else if v = "sld" then .ok { o with action := .bkz, bkzFlags := o.bkzFlags ||| BKZ_SLD_RED }
  else if v = "hlll" then .ok { o with action := .hlll }
  else if v = "pru" then .ok { o with action := .pru }
  else .exit1

/-- the value of `-f`, main.cpp:607-624 -/
def setFloat (v : String) (o : Options R) : Res (Options R) :=
  if v = "mpfr" then .ok { o with floatType := some .mpfr }
  else if v = "dpe" then .ok { o with floatType := some .dpe }
  else if v = "dd" then .ok { o with floatType := some .dd }
  else if v = "qd" then .ok { o with floatType := some .qd }
  else if v = "double" then .ok { o with floatType := some .double }
  else if v = "longdouble" then .ok { o with floatType := some .longDouble }
  else .exit1

/-- the value of `-m`, main.cpp:637-657 -/
def setMethod (v : String) (o : Options R) : Res (Options R) :=
  if v = "wrapper" then .ok { o with method := .wrapper }
  else if v = "proved" then .ok { o with method := .proved }
  else if v = "heuristic" then .ok { o with method := .heuristic }
  else if v = "fast" then .ok { o with method := .fast }
  else .exit1

/-- the value of `-z`, main.cpp:682-694 -/
def setInt (v : String) (o : Options R) : Res (Options R) :=
  if v = "mpz" then .ok { o with intType := .mpz }
  else if v = "long" ∨ v = "int" then .ok { o with intType := .long }
  else if v = "double" then .ok { o with intType := .double }
  else .exit1

/-- what `read_options` does with an argument: take the next argument as value, set a flag, stop, or take it as the name of
the input file -/
inductive Kind (R : Type)
  | val (f : String → Options R → Res (Options R))
  | flag (f : Options R → Options R)
  | stop (r : Res (Options R))
  | file

/-- the chain of comparisons of `read_options`, main.cpp:481-761, in its order: argument and action -/
def table (cv : Conv R) : List (String × Kind R) :=
  [("-a", .val setAction),
   ("-b", .val fun v o => .ok { o with blockSize := cv.atoi v }),
   ("-prustart", .val fun v o => .ok { o with pruneStart := some (cv.atoi v) }),
   ("-pruend", .val fun v o => .ok { o with pruneEnd := some (cv.atoi v) }),
   ("-pruprenodes", .val fun v o => .ok { o with prunePreNodes := some (cv.atof v) }),
   ("-pruminprob", .val fun v o => .ok { o with pruneMinProb := some (cv.atof v) }),
   ("-bkzboundedlll", .flag fun o => { o with bkzFlags := o.bkzFlags ||| BKZ_BOUNDED_LLL }),
   ("-bkzmaxloops", .val fun v o =>
     .ok { o with bkzMaxLoops := cv.atoi v, bkzFlags := o.bkzFlags ||| BKZ_MAX_LOOPS }),
   ("-bkzmaxtime", .val fun v o =>
     .ok { o with bkzMaxTime := cv.atof v, bkzFlags := o.bkzFlags ||| BKZ_MAX_TIME }),
   ("-bkzautoabort", .flag fun o => { o with bkzFlags := o.bkzFlags ||| BKZ_AUTO_ABORT }),
   ("-bkzdumpgso", .val fun v o => .ok { o with dumpFile := v, bkzFlags := o.bkzFlags ||| BKZ_DUMP_GSO }),
   ("-c", .val fun v o => .ok { o with c := cv.atof v }),
   ("-r", .val fun v o => .ok { o with c := cv.atof v }),
   ("-bkzghbound", .val fun v o =>
     .ok { o with ghFactor := cv.atof v, bkzFlags := o.bkzFlags ||| BKZ_GH_BND }),
   ("-d", .val fun v o => .ok { o with delta := cv.atof v }),
   ("-delta", .val fun v o => .ok { o with delta := cv.atof v }),
   ("-e", .val fun v o => .ok { o with eta := cv.atof v }),
   ("-eta", .val fun v o => .ok { o with eta := cv.atof v }),
   ("-t", .val fun v o => .ok { o with theta := cv.atof v }),
   ("-theta", .val fun v o => .ok { o with theta := cv.atof v }),
   ("-f", .val setFloat),
   ("-s", .val fun v o => .ok { o with strategyFile := v }),
   ("-l", .val fun v o => .ok { o with siegel := decide (cv.atoi v = 0) }),
   ("-m", .val setMethod),
   ("-nolll", .flag fun o => { o with noLll := true }),
   ("-of", .val fun v o => .ok { o with outputFormat := some v }),
   ("-p", .val fun v o => .ok { o with precision := cv.atoi v }),
   ("-v", .flag fun o => { o with verbose := true }),
   ("-y", .flag fun o => { o with earlyRed := true }),
   ("-z", .val setInt),
   ("-h", .stop .exit0),
   ("--help", .stop .exit0),
   ("--version", .stop .exit0)]

/-- the first entry of the table for the argument; otherwise an invalid option or the input file, main.cpp:762-775 -/
def kind (cv : Conv R) (a : String) : Kind R :=
  match (table cv).lookup a with
  | some k => k
  | none => if a.toList.head? = some '-' then .stop .exit1 else .file

/-- `read_options(argc, argv, o)`, main.cpp:477-777; the list is `argv[1], …, argv[argc - 1]` -/
def readOptions (cv : Conv R) : List String → Options R → Res (Options R)
  | [], o => .ok o
  | a :: rest, o =>
    match kind cv a with
    | .val f =>
      match rest with
      | [] => .exit1
      | v :: rest' =>
        match f v o with
        | .ok o' => readOptions cv rest' o'
        | r => r
    | .flag f => readOptions cv rest (f o)
    | .stop r => r
    | .file => if o.inputFile.isSome then .exit1 else readOptions cv rest { o with inputFile := some a }

/-- Reading of one of the `prune_*` members in `prune`, main.cpp:402-412: `if (o.x) y = o.x`.  An indeterminate value is
undefined behaviour (`none`). -/
def pruneArg {α : Type} [DecidableEq α] (zero : α) (dflt : α) (x : Option α) : Option α :=
  x.map fun v => if v = zero then dflt else v

/-! ## Output -/

/-- an item printed on standard output: a matrix (with commas or not), the status, an empty line, a vector -/
inductive Item
  | b (comma : Bool)
  | u (comma : Bool)
  | v (comma : Bool)
  | status
  | newline
  | coord
  | solution
  deriving DecidableEq

/-- the printing loop of `lll`, main.cpp:48-84 -/
def printLll : List Char → List Item
  | [] => []
  | 'b' :: 'k' :: r => .b true :: printLll r
  | 'u' :: 'k' :: r => .u true :: printLll r
  | 'v' :: 'k' :: r => .v true :: printLll r
  | 'b' :: r => .b false :: printLll r
  | 'u' :: r => .u false :: printLll r
  | 'v' :: r => .v false :: printLll r
  | 't' :: r => .status :: printLll r
  | ' ' :: r => .newline :: printLll r
  | _ :: r => printLll r

/-- which of `u`, `u_inv` the action `lll` asks for, main.cpp:33-46 -/
def wantTransforms (format : List Char) : Bool × Bool :=
  if 'v' ∈ format then (true, true) else if 'u' ∈ format then (true, false) else (false, false)

/-- outcome of an action -/
inductive Run (α : Type)
  /-- `FPLLL_ABORT`, `FPLLL_CHECK` -/
  | abort
  /-- undefined behaviour -/
  | ub
  /-- the model ran out of fuel -/
  | outOfFuel
  /-- returned without printing, after an error message -/
  | failed
  | ok (a : α)

/-- `vector_matrix_product(result, x, m)`, util.h:41-49, for an `rows × cols` matrix and a vector of `size` entries -/
def vecMatChecked (size rows cols : ℕ) (x : ℕ → ℤ) (m : Mat ℤ) : Option (List ℤ) :=
  if size = rows then
    some ((List.range cols).map (SVP.vecMat rows cols x m))
  else none

/-- what `-a svp` prints: `sol_coord_2` and `solution`, where they were computed -/
structure SvpOut where
  coord : Option (List ℤ)
  solution : Option (List ℤ)
  deriving DecidableEq

/-- the end of `svpcvp`, main.cpp:288-299, with the coordinates `x` in the basis `b'`.  The matrix `u` is the empty
matrix of main.cpp:251: `lll_reduction` leaves an empty `u` empty. -/
def svpFinish (d n : ℕ) (noLll withCoord withStd : Bool) (b' : Mat ℤ) (x : ℕ → ℤ) : Run SvpOut :=
  let coord : Option (Option (List ℤ)) :=
    if withCoord then
      if noLll then some (some ((List.range d).map x)) else (vecMatChecked d 0 0 x fun _ _ => 0).map some
    else some none
  match coord with
  | none => .abort
  | some co =>
    if withStd then
      match vecMatChecked d d n x b' with
      | none => .abort
      | some v => .ok ⟨co, some v⟩
    else .ok ⟨co, none⟩

/-- `svpcvp` for the action `svp` and integers `mpz_t`, main.cpp:242-319, up to the printing.  `shortest_vector` is run in
exact arithmetic; `junk`, `jz`, `jf`: uninitialised memory; one fuel for each of the two calls. -/
def svpCmd (c : Cfg) (run : Runner) (err : ℚ → ℚ) (lllFuel fuel : ℕ) (noLll : Bool) (format : List Char) (b junk jz : Mat ℤ)
    (jf : Mat Exact) : Run SvpOut :=
  let red : Run (Mat ℤ) :=
    if noLll then .ok b
    else
      match lllReduction c run lllFuel ⟨.wrapper, .mpz, none, 0, false⟩ ⟨b, none, none⟩ junk with
      | .abort => .abort
      | .outOfFuel => .outOfFuel
      | .done (s, m) => if s = .success then .ok m.b else .failed
  match red with
  | .abort => .abort
  | .ub => .ub
  | .outOfFuel => .outOfFuel
  | .failed => .failed
  | .ok b' =>
    match SVP.svpBasis c.d c.n b' jz jf err (SVP.shortestArgs .proved false false) fuel with
    | .done res =>
      if res.success then svpFinish c.d c.n noLll (decide ('c' ∈ format)) (decide ('s' ∈ format)) b' res.coord else .failed
    | .abort => .abort
    | .ub => .ub
    | .running => .outOfFuel

end Cli
end Fplll

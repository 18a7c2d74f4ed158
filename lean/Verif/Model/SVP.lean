import Verif.Model.GSO
import Verif.Model.Evaluator
import Verif.Model.Canon

/-!
# Model of `fplll/svpcvp.cpp`

Simplifications, valid for the whole file:
* exact arithmetic (`FP_NR<mpfr_t>` is `Exact`, `enumf` is `ℚ`); an entry of the GSO matrices that is NaN
  is read as 0 (`val`), which happens only for linearly dependent rows;
* `get_max_error_aux` (evaluator.cpp:75-211) is a parameter `err`, an arbitrary function of the distance: the
  amount by which bounds are enlarged to make up for rounding errors.  The aborts when it cannot be computed
  are left out;
* `eval_mode = EVALMODE_SV` (the only mode the functions of svpcvp.h pass on);
* `FP_NR<mpfr_t>::set_prec`, `SVP_VERBOSE` and the warnings are left out.
-/

namespace Fplll
namespace SVP

open Enum (Input EvSt EvalOps Strategy processSol fastEval fastEvalSub enumerate roundto)

/-- numerical value of an entry -/
def val (x : Exact) : ℚ := x.getD 0

/-- what a call can come to -/
inductive Outcome (α : Type)
  /-- normal return -/
  | done (a : α)
  /-- `FPLLL_CHECK` failed: `abort()` -/
  | abort
  /-- undefined behaviour -/
  | ub
  /-- the iteration budget of the model was too small -/
  | running
  deriving DecidableEq

/-- `last_useful_index(r)`, svpcvp.cpp:32-43, from row `i` on -/
def lastUseful (r : ℕ → ℚ) : ℕ → ℕ
  | 0 => 1
  | i + 1 => if r (i + 1) ≤ r 0 * 2 then i + 1 + 1 else lastUseful r i

/-- `get_basis_min`, svpcvp.cpp:47-59, :61-72; `sq i` is the squared length of row `i` -/
def getBasisMin (sq : ℕ → ℤ) (first last : ℕ) : ℤ :=
  forUp (first + 1) last (fun i m => if sq i < m then sq i else m) (sq first)

/-- `SVPMethod`, defs.h -/
inductive Method
  | fast
  | proved
  deriving DecidableEq

/-- arguments of `shortest_vector_ex` other than the basis -/
structure Args where
  method : Method
  /-- `pruning`, `none` for an empty vector -/
  pruning : Option (ℕ → ℚ)
  /-- `SVP_DUAL` -/
  dual : Bool
  /-- `SVP_OVERRIDE_BND` -/
  overrideBnd : Bool
  /-- the pointers `subsol_coord`, `subsol_dist` are given -/
  subsols : Bool
  /-- the pointers `auxsol_coord`, `auxsol_dist` are given -/
  auxsols : Bool
  maxAuxSols : ℕ
  mergeSolInAux : Bool

/-- status and results of `shortest_vector_ex` -/
structure Res where
  /-- `RED_SUCCESS` or `RED_ENUM_FAILURE` -/
  success : Bool
  /-- `sol_coord` -/
  coord : ℕ → ℤ
  /-- `subsol_dist`, `subsol_coord` -/
  subs : ℕ → Option (ℚ × (ℕ → ℤ))
  /-- `auxsol_dist`, `auxsol_coord`; `none`: the caller's vectors were not touched -/
  aux : Option (List (ℚ × (ℕ → ℤ)))

/-- `ExactErrorBoundedEvaluator` with strategy best-`N`, evaluator.cpp:281-356; the state includes
`int_max_dist`.  `sq` is `gso.sqnorm_coordinates` on the coordinates of the `d` rows. -/
def exactEval (N : ℕ) (sq : (ℕ → ℤ) → ℤ) (err : ℚ → ℚ) : EvalOps (EvSt × ℤ) where
  evalSol t x _ md :=
    if t.2 < 0 ∨ sq x ≤ t.2 then
      (((processSol N .best t.1 (sq x + err (sq x)) x md).1, sq x),
        (processSol N .best t.1 (sq x + err (sq x)) x md).2)
    else (t, md)
  evalSub t k x _ :=
    let y : ℕ → ℤ := fun i => if i < k then 0 else x i
    let sd : ℚ := sq y + err (sq y)
    match t.1.subs k with
    | none => ({ t.1 with subs := Enum.setAt t.1.subs k (some (sd, y)) }, t.2)
    | some q => if sd ≤ q.1 then ({ t.1 with subs := Enum.setAt t.1.subs k (some (sd, y)) }, t.2) else t

/-- input of the enumeration of the block `[0, d)`, svpcvp.cpp:74-82 -/
def svpInput (mu : ℕ → ℕ → ℚ) (r : ℕ → ℚ) (d : ℕ) (maxDist : ℚ) (a : Args) : Input where
  d := d
  mu := mu
  r := r
  maxdist := maxDist
  target := none
  subtree := []
  pruning := a.pruning
  dual := a.dual
  subtreeReset := false
  findsubsols := a.subsols

/-- `reverse_by_swap(it->second, 0, d - 1)` of the solutions of a dual enumeration, enumerate.cpp:152-157 -/
def reverseSols (d : ℕ) (L : List (ℚ × (ℕ → ℤ))) : List (ℚ × (ℕ → ℤ)) :=
  L.map fun q => (q.1, fun i => if i < d then q.2 (d - 1 - i) else q.2 i)

/-- the end of `shortest_vector_ex`, svpcvp.cpp:179-239, :374-434: `e` is the evaluator after the enumeration -/
def collect (d : ℕ) (a : Args) (e : EvSt) : Outcome Res :=
  let sols := (if a.dual then reverseSols d e.sols else e.sols).reverse
  let out : Res :=
    { success := !sols.isEmpty
      coord := match sols.head? with | some q => fun i => if i < d then q.2 i else 0 | none => fun _ => 0
      subs := if a.subsols then e.subs else fun _ => none
      aux := none }
  if a.auxsols ∧ a.maxAuxSols ≠ 0 then
    if a.mergeSolInAux then .done { out with aux := some sols }
    else if sols.isEmpty then .ub
    else .done { out with aux := some sols.tail }
  else .done out

/-- `int_max_dist` as handed to the exact evaluator: `get_basis_min` is only called in the primal branch, a
`Z_NR<mpz_t>` starts as 0; svpcvp.cpp:117, :140-145, :165 -/
def intMaxDist (sqRow : ℕ → ℤ) (d : ℕ) (a : Args) : ℤ := if a.dual then 0 else getBasisMin sqRow 0 d

/-- the bound of the enumeration, svpcvp.cpp:131-145, :168-174 -/
def svpBound (r : ℕ → ℚ) (sqRow : ℕ → ℤ) (err : ℚ → ℚ) (d : ℕ) (a : Args) : ℚ :=
  let m : ℚ := if a.dual then 1 / r (d - 1) else getBasisMin sqRow 0 d
  if a.overrideBnd then m else m + err m

/-- `shortest_vector_ex` once the GSO is known: `D` rows, `mu`, `r` the GSO matrices, `sqRow` the squared
lengths of the rows and `sq d x` the squared length of `∑_{i<d} x_i b_i`; svpcvp.cpp:123-239, :317-434. -/
def svpCore (D : ℕ) (mu : ℕ → ℕ → ℚ) (r : ℕ → ℚ) (sqRow : ℕ → ℤ) (sq : ℕ → (ℕ → ℤ) → ℤ) (err : ℚ → ℚ) (a : Args)
    (fuel : ℕ) : Outcome Res :=
  let d := lastUseful r (D - 1)
  let p := svpInput mu r d (svpBound r sqRow err d a) a
  match a.method with
  | .fast =>
    match enumerate p (fastEval (a.maxAuxSols + 1) .best) fuel EvSt.new with
    | none => .running
    | some s => collect d a s.ev
  | .proved =>
    match enumerate p (exactEval (a.maxAuxSols + 1) (sq d) err) fuel (EvSt.new, intMaxDist sqRow d a) with
    | none => .running
    | some s => collect d a s.ev.1

/-- squared length of an integer vector -/
def sqZ (n : ℕ) (v : ℕ → ℤ) : ℤ := forUp 0 n (fun j z => z + v j * v j) 0

/-- `vector_matrix_product(result, x, m)`, util.h:41-50: result has `m.get_cols()` entries -/
def vecMat (d n : ℕ) (x : ℕ → ℤ) (m : Mat ℤ) : ℕ → ℤ :=
  forUp 0 d (fun i (res : ℕ → ℤ) => forUp 0 n (fun j (res : ℕ → ℤ) => setAt res j (res j + x i * m i j)) res)
    (fun _ => 0)

/-- `shortest_vector_ex` for a basis, svpcvp.cpp:84-241.  The GSO object is local, in integer-Gram mode;
`jz`, `jf` are the uninitialised contents of its matrices. -/
def svpBasis (D n : ℕ) (b : Mat ℤ) (jz : Mat ℤ) (jf : Mat Exact) (err : ℚ → ℚ) (a : Args) (fuel : ℕ) : Outcome Res :=
  if ¬ (0 < D ∧ 0 < n) then .abort
  else if ¬ D ≤ n then .abort
  else
    let g := ((GSO.mk0 D n true false false false b (fun _ _ => 0) (fun _ _ => 0) jz jf : GSO Exact).updateGso).2
    svpCore D (fun i j => val (g.mu i j)) (fun i => val (g.r i i)) (fun i => dotZ n (b i) (b i))
      (fun d x => sqZ n (vecMat D n (fun i => if i < d then x i else 0) b)) err a fuel

/-- `shortest_vector_ex` for a `MatGSO` object, svpcvp.cpp:278-437 -/
def svpGso (s : GSO Exact) (err : ℚ → ℚ) (a : Args) (fuel : ℕ) : Outcome Res :=
  if ¬ (0 < s.d ∧ 0 < s.nCols) then .abort
  else if ¬ s.d ≤ s.nCols then .abort
  else
    let g := s.updateGso.2
    svpCore s.d (fun i j => val (g.mu i j)) (fun i => val (g.r i i)) (fun i => g.getIntGram i i)
      (fun d x => sqZ g.nCols (vecMat s.d g.nCols (fun i => if i < d then x i else 0) g.b)) err a fuel

/-- `shortest_vector(b, sol_coord, method, flags)`, svpcvp.cpp:243-247 -/
def shortestArgs (m : Method) (dual ovr : Bool) : Args where
  method := m
  pruning := none
  dual := dual
  overrideBnd := ovr
  subsols := false
  auxsols := false
  maxAuxSols := 0
  mergeSolInAux := false

/-- `shortest_vectors(gso, sol_coord, sol_dist, max_sols, method, flags)`, svpcvp.cpp:446-454, for
`max_sols ≥ 1` -/
def manyArgs (maxSols : ℕ) (m : Method) (dual ovr : Bool) : Args where
  method := m
  pruning := none
  dual := dual
  overrideBnd := ovr
  subsols := false
  auxsols := true
  maxAuxSols := maxSols - 1
  mergeSolInAux := true

/-! ## Closest vector -/

/-- `get_gscoords(matrix, mu, r, v, vcoord)`, svpcvp.cpp:491-515 -/
def gsCoords (d n : ℕ) (b : ℕ → ℕ → ℚ) (mu : ℕ → ℕ → ℚ) (r : ℕ → ℚ) (v : ℕ → ℚ) : ℕ → ℚ :=
  let vc : ℕ → ℚ := forUp 0 d (fun i (vc : ℕ → ℚ) =>
    let t := forUp 0 n (fun j t => t + v j * b i j) 0
    setAt vc i (forUp 0 i (fun j t => t - mu i j * vc j) t)) (fun _ => 0)
  forUp 0 d (fun i (vc : ℕ → ℚ) => setAt vc i (vc i / r i)) vc

/-- `babai(matrix, mu, r, target, target_coord)`, svpcvp.cpp:517-530; the rounding loop is literally that of
`MatGSOInterface::babai`.  `mpfr_round` rounds half away from zero. -/
def babai (d n : ℕ) (b : ℕ → ℕ → ℚ) (mu : ℕ → ℕ → ℚ) (r : ℕ → ℚ) (t : ℕ → ℚ) : ℕ → ℚ :=
  babaiRound roundto mu 0 d (gsCoords d n b mu r t)

/-- state of the reduction of the target: `sol_coord` and `int_new_target` -/
structure CvpSt where
  coord : ℕ → ℤ
  target : ℕ → ℤ

/-- the test of svpcvp.cpp:582-586 -/
def babaiSmall (d : ℕ) (w : ℕ → ℚ) : Bool := forUp 0 d (fun i ok => ok && decide (-1 ≤ w i ∧ w i ≤ 1)) true

/-- svpcvp.cpp:588-594; `set_f` of an integral value is its value -/
def cvpShift (d n : ℕ) (b : Mat ℤ) (w : ℕ → ℚ) (s : CvpSt) : CvpSt :=
  forUp 0 d (fun i (s : CvpSt) =>
    { coord := setAt s.coord i (s.coord i + ⌊w i⌋)
      target := forUp 0 n (fun j (t : ℕ → ℤ) => setAt t j (t j - ⌊w i⌋ * b i j)) s.target }) s

/-- the `for (;;)` loop of svpcvp.cpp:571-595; `none`: not finished -/
def cvpLoop (d n : ℕ) (b : Mat ℤ) (mu : ℕ → ℕ → ℚ) (r : ℕ → ℚ) : ℕ → CvpSt → Option CvpSt
  | 0, _ => none
  | k + 1, s =>
    let w := babai d n (fun i j => (b i j : ℚ)) mu r (fun j => s.target j)
    if babaiSmall d w then some s else cvpLoop d n b mu r k (cvpShift d n b w s)

/-- input of the enumeration of `closest_vector`, svpcvp.cpp:597-606, :637-641 -/
def cvpInput (d n : ℕ) (b : Mat ℤ) (mu : ℕ → ℕ → ℚ) (r : ℕ → ℚ) (s : CvpSt) : Input where
  d := d
  mu := mu
  r := r
  maxdist := forUp 1 d (fun i m => m + r i) 0
  target := some (gsCoords d n (fun i j => (b i j : ℚ)) mu r (fun j => s.target j))
  subtree := []
  pruning := none
  dual := false
  subtreeReset := false
  findsubsols := false

/-- `closest_vector(b, int_target, sol_coord, CVPM_FAST, flags)`, svpcvp.cpp:532-659; the result is the status and
`sol_coord`.  `CVPM_PROVED` (enumeration with resets) is in Model/CVPReset.lean. -/
def closestVector (d n : ℕ) (b : Mat ℤ) (jz : Mat ℤ) (jf : Mat Exact) (target : ℕ → ℤ) (fuel : ℕ) :
    Outcome (Bool × (ℕ → ℤ)) :=
  if ¬ (0 < d ∧ 0 < n) then .abort
  else if ¬ d ≤ n then .abort
  else
    let g := ((GSO.mk0 d n true false false false b (fun _ _ => 0) (fun _ _ => 0) jz jf : GSO Exact).updateGso).2
    let mu := fun i j => val (g.mu i j)
    let r := fun i => val (g.r i i)
    match cvpLoop d n b mu r fuel ⟨fun _ => 0, target⟩ with
    | none => .running
    | some s =>
      match enumerate (cvpInput d n b mu r s) (fastEval 1 .best) fuel EvSt.new with
      | none => .running
      | some t =>
        match t.ev.sols.reverse.head? with
        | none => .done (false, s.coord)
        | some q => .done (true, fun i => if i < d then s.coord i + q.2 i else s.coord i)

end SVP
end Fplll

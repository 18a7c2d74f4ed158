import Verif.Model.ParEnum
import Verif.Model.SVPRound

/-!
# Model of the choice between the two enumerations

`Enumeration::enumerate` (enum/enumerate.h) tries the external enumeration (enum/enumerate_ext.cpp), which is the parallel
one of enum-parallel unless the user sets another one, and falls back on `EnumerationDyn`.

Simplifications: the external enumerator is `enumlib_enumerate` (fplll_extenum, enumerate_ext.cpp:30-38); the model of the
parallel enumeration has `findsubsols = false` and no node counters; normalisation by powers of two is only modelled for the
radius (`dynRadius`, `extRadius`).
-/

namespace Fplll
namespace Ext

open Enum (Input EvalOps EvSt enumerate fastEval)

/-- what `enumlib_enumerate` does -/
inductive Disp
  /-- `out[0] = ~0` without a message -/
  | notSupported
  /-- message "wrong dimension!" and `arr[0] = ~0` -/
  | wrongDimension
  /-- `enumerate_dim<n>` is called -/
  | run (n : ℕ)
  deriving DecidableEq

/-- `enumerateD`, the `switch` of enumlib_dim.cpp:114-140 -/
def enumerateD (D dim : ℕ) : Disp :=
  match [D - 9, D - 8, D - 7, D - 6, D - 5, D - 4, D - 3, D - 2, D - 1, D].find? (· = dim) with
  | some n => .run n
  | none => .wrongDimension

/-- the `#if … if (dim <= D) return enumerateD(…)` lines, enumlib.cpp:108-167 -/
def chain (maxPar dim : ℕ) : List ℕ → Disp
  | [] => .notSupported
  | D :: Ds => if D ≤ maxPar ∧ dim ≤ D then enumerateD D dim else chain maxPar dim Ds

/-- `enumlib_enumerate`, enumlib.cpp:95-172; `maxPar` is `FPLLL_MAX_PARALLEL_ENUM_DIM` -/
def enumlib (maxPar dim : ℕ) (dual : Bool) : Disp :=
  if dim ≤ 10 ∨ dual = true then .notSupported
  else chain maxPar dim [20, 30, 40, 50, 60, 70, 80, 90, 100, 110, 120, 130, 140, 150, 160]

/-- the dimension with which the parallel enumeration is run, if it is: enumerate.h:93-103, enumerate_ext.cpp:87.  Without
parallel enumeration (`maxPar = 0`) there is no external enumerator. -/
def tryExt (maxPar : ℕ) (p : Input) : Option ℕ :=
  if p.subtree = [] ∧ p.target = none then
    match enumlib maxPar p.d p.dual with
    | .run n => some n
    | _ => none
  else none

/-- what `enumerate_dim_detail<n>` sets up (enumlib_dim.cpp:59-69) with `callback_set_config` (enumerate_ext.cpp:90-146,
`mutranspose = true`); the constructor of the GSO values is the same as in `EnumerationDyn`. -/
def extCfg (n : ℕ) (p : Input) : Par.Cfg where
  N := n
  mt := fun i j => p.fl (p.mu j i)
  rdiag := fun i => p.fl (p.r i)
  pr := p.pruning.getD fun _ => 1
  maxdist := p.maxdist
  fl := p.fl

/-- `Enumeration::enumerate`, enumerate.h:87-112: the evaluator and `fmaxdist` after a finished run with `T` threads under
some schedule.  The external enumeration leaves `fmaxdist` as it is (enumerate_ext.cpp:49-88). -/
inductive Out {σ : Type} (maxPar : ℕ) (p : Input) (E : EvalOps σ) (fuel T : ℕ) (e : σ) : σ → ℚ → Prop
  | ext {n : ℕ} {st : Par.Sys σ} (h : tryExt maxPar p = some n) (hr : Par.Reach (extCfg n p) E fuel T e st)
      (hf : st.final) : Out maxPar p E fuel T e st.ev p.maxdist
  | dyn {s : Enum.St σ} (h : tryExt maxPar p = none) (hr : enumerate p E fuel e = some s) :
      Out maxPar p E fuel T e s.ev s.maxdist

/-- `shortest_vector_ex` as in `svpCore`, with `Enumeration::enumerate` choosing; svpcvp.cpp:74-82, :123-239 -/
inductive SvpOut (maxPar fuel T D : ℕ) (mu : ℕ → ℕ → ℚ) (r : ℕ → ℚ) (sqRow : ℕ → ℤ) (sq : ℕ → (ℕ → ℤ) → ℤ) (err : ℚ → ℚ)
    (a : SVP.Args) : SVP.Outcome SVP.Res → Prop
  | fast {ev : EvSt} {md : ℚ} (ha : a.method = .fast)
      (h : Out maxPar (SVP.svpInput mu r (SVP.lastUseful r (D - 1)) (SVP.svpBound r sqRow err (SVP.lastUseful r (D - 1)) a) a)
        (fastEval (a.maxAuxSols + 1) .best) fuel T EvSt.new ev md) :
      SvpOut maxPar fuel T D mu r sqRow sq err a (SVP.collect (SVP.lastUseful r (D - 1)) a ev)
  | proved {ev : EvSt × ℤ} {md : ℚ} (ha : a.method = .proved)
      (h : Out maxPar (SVP.svpInput mu r (SVP.lastUseful r (D - 1)) (SVP.svpBound r sqRow err (SVP.lastUseful r (D - 1)) a) a)
        (SVP.exactEval (a.maxAuxSols + 1) (sq (SVP.lastUseful r (D - 1))) err) fuel T
        (EvSt.new, SVP.intMaxDist sqRow (SVP.lastUseful r (D - 1)) a) ev md) :
      SvpOut maxPar fuel T D mu r sqRow sq err a (SVP.collect (SVP.lastUseful r (D - 1)) a ev.1)

/-- `shortest_vector_ex` for a basis as in `svpBasis` (for which `0 < D ≤ n` is checked first), svpcvp.cpp:84-241 -/
def SvpBasisOut (maxPar fuel T D n : ℕ) (b jz : Mat ℤ) (jf : Mat Exact) (err : ℚ → ℚ) (a : SVP.Args) :
    SVP.Outcome SVP.Res → Prop :=
  let g := ((GSO.mk0 D n true false false false b (fun _ _ => 0) (fun _ _ => 0) jz jf : GSO Exact).updateGso).2
  SvpOut maxPar fuel T D (fun i j => SVP.val (g.mu i j)) (fun i => SVP.val (g.r i i)) (fun i => dotZ n (b i) (b i))
    (fun d x => SVP.sqZ n (SVP.vecMat D n (fun i => if i < d then x i else 0) b)) err a

/-- the proved method in floating-point arithmetic as in `provedR`, with `Enumeration::enumerate` choosing -/
inductive ProvedOut (maxPar fuel T : ℕ) (A : ErrB.Arith) (fl up : ℚ → ℚ) (D : ℕ) (mu : ℕ → ℕ → ℚ) (r : ℕ → ℚ)
    (dat : ℕ → ErrB.Dat) (sqRow : ℕ → ℤ) (sq : ℕ → (ℕ → ℤ) → ℤ) : SVP.Outcome (Option (ℕ → ℤ)) → Prop
  | first (h : SVP.boundR A (dat (SVP.lastUseful r (D - 1))) up (SVP.getBasisMin sqRow 0 (SVP.lastUseful r (D - 1))) = none) :
      ProvedOut maxPar fuel T A fl up D mu r dat sqRow sq .abort
  | enum {md md' : ℚ} {ev : SVP.RSt}
      (h : SVP.boundR A (dat (SVP.lastUseful r (D - 1))) up (SVP.getBasisMin sqRow 0 (SVP.lastUseful r (D - 1))) = some md)
      (hr : Out maxPar { fl := fl, d := SVP.lastUseful r (D - 1), mu := mu, r := r, maxdist := md, target := none,
                         subtree := [], pruning := none, dual := false, subtreeReset := false, findsubsols := false }
        (SVP.evalR A (dat (SVP.lastUseful r (D - 1))) up (sq (SVP.lastUseful r (D - 1)))) fuel T
        ⟨none, SVP.getBasisMin sqRow 0 (SVP.lastUseful r (D - 1)), false⟩ ev md') :
      ProvedOut maxPar fuel T A fl up D mu r dat sqRow sq
        (if ev.aborted then .abort
         else match ev.sol with
          | none => .done none
          | some o => .done (some fun i => if i < SVP.lastUseful r (D - 1) then o.2 i else 0))

/-! ## The normalised radius -/

/-- `normexp`: at least -1, enumerate.cpp:92-97, enumerate_ext.cpp:67-73; `ex i` is `rexpo + fr.exponent()` of `r_i` -/
def normExp (d : ℕ) (ex : ℕ → ℤ) : ℤ := forUp 0 d (fun i m => max m (ex i)) (-1)

/-- `fmaxdistnorm` of `EnumerationDyn`, enumerate.cpp:98-104 -/
def dynRadius (dual : Bool) (md : ℚ) (expo normexp : ℤ) : ℚ := md * 2 ^ (expo - if dual then -normexp else normexp)

/-- `fmaxdistnorm` of `ExternalEnumeration`, enumerate_ext.cpp:74 -/
def extRadius (dual : Bool) (md : ℚ) (expo normexp : ℤ) : ℚ := md * 2 ^ (if dual then normexp - expo else expo - normexp)

/-- the exponent given to the evaluator, enumerate.cpp:98-105 and enumerate_ext.cpp:77 -/
def dynEvExp (dual : Bool) (normexp : ℤ) : ℤ := if dual then -normexp else normexp

end Ext
end Fplll

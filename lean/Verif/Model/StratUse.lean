import Verif.Model.BKZ
import Verif.Model.Strategy

/-!
# Model of the use of strategies by block reduction (fplll/bkz.cpp:82-126, :275-358)

The vector of strategies is indexed with the block size, without a check in a release build (`FPLLL_DEBUG_CHECK` is empty).  The
preprocessing of a block runs tours with other parameters on the block, which come back to `svp_reduction`.  What is modelled: which
entries of the vector are read, that an entry outside the vector is undefined behaviour, the choice of the pruning parameters, and the
nesting of the calls.  Everything else that happens in a block (LLL, rerandomisation, enumeration, insertion) is an arbitrary
function of an arbitrary state.
-/

namespace Fplll
namespace StratUse

open BKZ Strat

variable {σ : Type}

/-- what block reduction does besides reading strategies and calling itself -/
structure Acts (σ : Type) where
  /-- the size reduction at the start of `svp_reduction`, bkz.cpp:289-295 -/
  start : ℤ → ℤ → Bool → σ → Out σ Unit
  /-- the number of iterations of the loop bkz.cpp:300-340.  Simplified: given at the start of the loop; the code stops when the
  remaining probability is small. -/
  rounds : ℤ → ℤ → Bool → σ → ℕ
  /-- rerandomisation and LLL, bkz.cpp:302-305, :108-114 -/
  before : ℤ → ℤ → Bool → σ → Out σ Unit
  /-- `fabs(p.gh_factor - gh_factor)` for the current radius, bkz.cpp:91-97, bkz_param.cpp:62-72 -/
  dist : ℤ → ℤ → σ → PruningParams → ℚ
  /-- enumeration with these pruning parameters and insertion, bkz.cpp:309-339 -/
  after : ℤ → ℤ → Bool → PruningParams → σ → Out σ Unit
  /-- the final size reduction and comparison, bkz.cpp:341-357 -/
  finish : ℤ → ℤ → Bool → σ → Out σ Bool
  /-- `lll_obj.lll` as called by the tours -/
  lll : ℤ → ℤ → ℤ → σ → Out σ (Bool × Bool)
  /-- `lll_obj.size_reduction` as called by the tours -/
  sizeRed : ℤ → ℤ → ℤ → σ → Out σ Bool
  /-- `m.symmetrize_g()` -/
  symG : σ → σ
  /-- the slide potential -/
  noProgress : σ → Bool × σ

/-- `strategies[block_size]`, bkz.cpp:89, :117; the argument is converted to `unsigned int`; `none`: outside the vector -/
def readStrategy (S : List Strategy) (bs : ℤ) : Option Strategy := if 0 ≤ bs then S[bs.toNat]? else none

/-- the preprocessing tours, bkz.cpp:118-123 -/
def preTours (tour : ℤ → ℤ → ℤ → σ → Out σ Bool) (lo hi : ℤ) : List ℕ → σ → Out σ Unit
  | [], s => .ok () s
  | p :: l, s => (tour p lo hi s).bind fun _ s => preTours tour lo hi l s

/-- `get_pruning`, bkz.cpp:82-98, and `Strategy::get_pruning`, bkz_param.cpp:62-78 -/
def choosePruning (S : List Strategy) (E : Acts σ) (kappa bs : ℤ) (s : σ) : Option PruningParams :=
  (readStrategy S bs).bind fun st => getPruning (E.dist kappa bs s) (2 ^ 80) st.pruning

/-- get the pruning parameters and go on with the rest of the round, bkz.cpp:324-339 -/
def enumPart (S : List Strategy) (E : Acts σ) (kappa bs : ℤ) (dual : Bool) (s : σ) : Out σ Unit :=
  match choosePruning S E kappa bs s with
  | none => .ub s
  | some p => E.after kappa bs dual p s

/-- read the strategy and run its preprocessing tours, bkz.cpp:117-123 -/
def prePart (S : List Strategy) (tour : ℤ → ℤ → ℤ → σ → Out σ Bool) (kappa bs : ℤ) (s : σ) : Out σ Unit :=
  match readStrategy S bs with
  | none => .ub s
  | some st => preTours tour kappa (kappa + bs) st.preprocessing s

/-- the loop of `svp_reduction`, bkz.cpp:300-340 -/
def roundLoop (S : List Strategy) (E : Acts σ) (tour : ℤ → ℤ → ℤ → σ → Out σ Bool) (kappa bs : ℤ) (dual : Bool) : ℕ → σ → Out σ Unit
  | 0, s => .ok () s
  | k + 1, s =>
    (E.before kappa bs dual s).bind fun _ s =>
    (prePart S tour kappa bs s).bind fun _ s =>
    (enumPart S E kappa bs dual s).bind fun _ s => roundLoop S E tour kappa bs dual k s

/-- `svp_reduction`, bkz.cpp:275-358 -/
def svpUse (S : List Strategy) (E : Acts σ) (tour : ℤ → ℤ → ℤ → σ → Out σ Bool) (kappa bs : ℤ) (dual : Bool) (s : σ) : Out σ Bool :=
  (E.start kappa bs dual s).bind fun _ s =>
  (roundLoop S E tour kappa bs dual (E.rounds kappa bs dual s) s).bind fun _ s => E.finish kappa bs dual s

/-- the procedures of a BKZ object with room for `depth` nested calls of `svp_reduction` on the stack; without room a call is
undefined behaviour.  Only the preprocessing tours nest, with the same vector of strategies (bkz.cpp:121). -/
def useOps (S : List Strategy) (E : Acts σ) : ℕ → Ops σ
  | 0 => { svp := fun _ _ _ s => .ub s, lll := E.lll, sizeRed := E.sizeRed, symG := E.symG, noProgress := E.noProgress }
  | depth + 1 =>
    { svp := svpUse S E (tour (useOps S E depth)), lll := E.lll, sizeRed := E.sizeRed, symG := E.symG, noProgress := E.noProgress }

end StratUse
end Fplll

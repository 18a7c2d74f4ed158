import Verif.Model.BKZ
import Verif.Model.LLL

/-!
# Model of the SVP reduction of a block (fplll/bkz.cpp)

`svp_reduction` with randomisation, preprocessing and insertion of the enumerated vector, working on the GSO object.  The
floating-point type is arbitrary.  What comes from the outside is taken from an oracle `Orc` indexed by a counter: random
numbers, the result of enumeration (so pruning, radii and the evaluator do not matter), the loop test on the remaining probability
and the iteration limit of LLL.  `get_r_exp`, `get_root_det`, `get_pruning` and
`enumerate` only read the object.
-/

namespace Fplll
namespace BKZ

open FloatOps GSO LLL

variable {F : Type} [FloatOps F]

/-- the state of a BKZ object -/
structure W (F : Type) where
  /-- `m` -/
  s : GSO F
  /-- number of oracle questions asked so far -/
  t : ℕ
  /-- `lll_obj.last_early_red` -/
  last : ℕ
  /-- ghost: a generic insertion negated a row, or swapped rows while `u_inv_t` is kept (neither is tracked in the transforms) -/
  bad : Bool

/-- the outside world -/
structure Orc (F : Type) where
  /-- `gmp_urandomm_ui`, before reduction modulo its argument -/
  rnd : ℕ → ℕ
  /-- `evaluator.begin()->second` after the enumeration of the block (counter, `kappa`, `block_size`, `dual`), if there is a solution -/
  enum : ℕ → ℤ → ℤ → Bool → GSO F → Option (ℕ → F)
  /-- `remaining_probability > 1. - par.min_success_probability` (counter, number of iterations done so far) -/
  more : ℕ → ℕ → Bool
  /-- the iteration limit computed by `lll` -/
  maxIter : ℕ → ℕ
  /-- `strategies[block_size].preprocessing_block_sizes` -/
  preproc : ℤ → List ℤ
  /-- `get_slide_potential` comparison -/
  noProgress : ℕ → Bool

/-- parameters that do not change -/
structure SvpCfg (F : Type) where
  lll : LLLCfg F
  /-- fuel for `babai` -/
  fuel : ℕ
  /-- fuel for the loops of this file -/
  inner : ℕ
  /-- `rerandomization_density` -/
  density : ℕ

/-- ask the oracle -/
def W.tick (w : W F) : W F := { w with t := w.t + 1 }

/-- `lll_obj.lll(lo, start, hi, 0)` with range check; success, and `n_swaps > 0` -/
def lllOp (c : SvpCfg F) (o : Orc F) (lo start hi : ℤ) (w : W F) : Out (W F) (Bool × Bool) :=
  if 0 ≤ lo ∧ lo ≤ start ∧ start < hi ∧ hi ≤ w.s.d then
    let p := LLL.lll c.lll c.fuel (o.maxIter w.t) w.last w.s lo.toNat start.toNat hi.toNat 0
    .ok (decide (p.1 = .success), decide (0 < p.2.nSwaps)) { w with s := p.2.s, last := p.2.lastEarlyRed, t := w.t + 1 }
  else .ub w

/-- `lll_obj.size_reduction(lo, hi, start)` with range check (a negative `start` only occurs for `hi = 1`, where row 0 is not
size-reduced) -/
def sizeRedOp (c : SvpCfg F) (lo hi start : ℤ) (w : W F) : Out (W F) Bool :=
  if 0 ≤ lo ∧ lo ≤ hi ∧ hi ≤ w.s.d then
    let p := sizeReductionLoop c.lll c.fuel start.toNat (hi - lo).toNat lo.toNat w.s
    .ok (decide (p.1 = .success)) { w with s := p.2 }
  else .ub w

/-! ## rerandomize_block -/

/-- `while (b == a) b = …`, bkz.cpp:55-59 -/
def drawOther (o : Orc F) (lo m a : ℕ) : ℕ → W F → Out (W F) ℕ
  | 0, w => .stuck w
  | n + 1, w =>
    let b := o.rnd w.t % m + lo
    if b = a then drawOther o lo m a n w.tick else .ok b w.tick

/-- the permutation loop, bkz.cpp:52-61, `n` iterations -/
def permuteLoop (c : SvpCfg F) (o : Orc F) (lo m : ℕ) : ℕ → W F → Out (W F) Unit
  | 0, w => .ok () w
  | n + 1, w =>
    let a := o.rnd w.t % m + lo
    (drawOther o lo m a c.inner w.tick).bind fun b w => permuteLoop c o lo m n { w with s := w.s.moveRow b a }

/-- one random addition, bkz.cpp:69-74 -/
def mixStep (o : Orc F) (hi a : ℕ) (w : W F) : W F :=
  let b := o.rnd w.t % (hi - (a + 1) - 1) + a + 1
  { w with s := if o.rnd (w.t + 1) % 2 ≠ 0 then w.s.rowAdd a b else w.s.rowSub a b, t := w.t + 2 }

/-- the triangular transformation, bkz.cpp:66-76 -/
def mixLoop (o : Orc F) (density lo hi : ℕ) (w : W F) : W F :=
  forUp lo (hi - 2) (fun a w => forUp 0 density (fun _ w => mixStep o hi a w) w) w

/-- `rerandomize_block(lo, hi, density)`, bkz.cpp:43-80 -/
def rerandomize (c : SvpCfg F) (o : Orc F) (lo hi : ℕ) (w : W F) : Out (W F) Unit :=
  if hi - lo < 2 then .ok () w
  else
    (permuteLoop c o lo (hi - lo - 1) (4 * (hi - lo)) w).bind fun _ w =>
    let w := mixLoop o c.density lo hi w
    .ok () { w with s := w.s.rowOpEnd lo hi }

/-! ## Insertion -/

/-- `fabs(x.get_d()) == 1`, for the integers found by enumeration -/
def isUnit (x : F) : Bool := decide (getSiExp x = (1, 0)) || decide (getSiExp x = (-1, 0))

/-- number of non-zero coordinates and last coordinate `±1`, bkz.cpp:133-142 -/
def scan (x : ℕ → F) (d : ℕ) : ℕ × Option ℕ :=
  forDown 0 d (fun i (p : ℕ × Option ℕ) =>
    if isZero (x i) then p
    else (p.1 + 1, if p.2 = none ∧ isUnit (x i) = true then some i else p.2)) (0, none)

/-- the loop of `svp_postprocessing`, bkz.cpp:172-185; `sol` is `sol_i` -/
def insertLoop (x : ℕ → F) (kappa d iv : ℕ) (dual : Bool) (sol : ℤ) (s : GSO F) : GSO F :=
  forUp 0 d (fun i s =>
    if isZero (x i) = false ∧ i ≠ iv then
      if dual = true then s.rowAddmulWe (kappa + i) (kappa + iv) (mul (ofInt sol) (x i))
      else s.rowAddmulWe (kappa + iv) (kappa + i) (mul (ofInt sol) (x i))
    else s) s

/-- bkz.cpp:153-196: a coordinate is `±1` -/
def insertUnit (x : ℕ → F) (kappa d iv : ℕ) (dual : Bool) (s : GSO F) : GSO F :=
  let sol := (getSiExp (x iv)).1
  let s := insertLoop x kappa d iv dual (if dual = true then sol * -1 else sol) s
  let s := if dual = true then s.rowOpEnd kappa (kappa + d) else s.rowOpEnd (kappa + iv) (kappa + iv + 1)
  s.moveRow (kappa + iv) (if dual = true then kappa + d - 1 else kappa)

/-- coefficients and basis during the gcd computation -/
structure GState (F : Type) where
  x : ℕ → F
  s : GSO F

/-- bkz.cpp:213-220: make the coefficients non-negative -/
def negateLoop (kappa d : ℕ) (g : GState F) : GState F :=
  forUp 0 d (fun i g => if lt (g.x i) (ofInt 0) then ⟨setAt g.x i (neg (g.x i)), g.s.negateRowOfB (kappa + i)⟩ else g) g

/-- swap the coefficients and rows `k - off` and `k`, bkz.cpp:236-237, :255-256 -/
def swapPair (kappa k off : ℕ) (g : GState F) : GState F :=
  ⟨swapAt g.x k (k - off), g.s.rowSwap (kappa + k - off) (kappa + k)⟩

/-- the subtraction, bkz.cpp:244-252 -/
def subPair (kappa k off : ℕ) (dual : Bool) (g : GState F) : GState F :=
  ⟨setAt g.x k (sub (g.x k) (g.x (k - off))),
   if dual = true then g.s.rowSub (kappa + k) (kappa + k - off) else g.s.rowAdd (kappa + k - off) (kappa + k)⟩

/-- the nested loops bkz.cpp:240-257 as one loop: `x[k - off]` does not change in the inner loop, so testing it again there makes
no difference.  `a <= b` is taken as `!(a > b)`. -/
def euclid (kappa k off : ℕ) (dual : Bool) : ℕ → GState F → Out (GState F) Unit
  | 0, g => .stuck g
  | n + 1, g =>
    if isZero (g.x (k - off)) = true then .ok () g
    else if gt (g.x (k - off)) (g.x k) = false then euclid kappa k off dual n (subPair kappa k off dual g)
    else euclid kappa k off dual n (swapPair kappa k off g)

/-- bkz.cpp:231-258 -/
def pairStep (fuel kappa k off : ℕ) (dual : Bool) (g : GState F) : Out (GState F) Unit :=
  if isZero (g.x k) = true ∧ isZero (g.x (k - off)) = true then .ok () g
  else euclid kappa k off dual fuel (if lt (g.x k) (g.x (k - off)) then swapPair kappa k off g else g)

/-- bkz.cpp:229-260, from `k` on; `n` bounds the number of pairs -/
def pairLoop (fuel kappa off : ℕ) (dual : Bool) : ℕ → ℕ → GState F → Out (GState F) Unit
  | 0, _, g => .ok () g
  | n + 1, k, g =>
    if off ≤ k then
      (pairStep fuel kappa k off dual g).bind fun _ g => if 2 * off ≤ k then pairLoop fuel kappa off dual n (k - 2 * off) g else .ok () g
    else .ok () g

/-- bkz.cpp:227-262; `n` bounds the number of levels -/
def levelLoop (fuel kappa d : ℕ) (dual : Bool) : ℕ → ℕ → GState F → Out (GState F) Unit
  | 0, _, g => .ok () g
  | n + 1, off, g =>
    if off < d then (pairLoop fuel kappa off dual d (d - 1) g).bind fun _ g => levelLoop fuel kappa d dual n (off * 2) g
    else .ok () g

/-- `svp_postprocessing_generic`, bkz.cpp:205-272 -/
def insertGeneric (fuel kappa d : ℕ) (x : ℕ → F) (dual : Bool) (s : GSO F) : Out (GState F) Unit :=
  (levelLoop fuel kappa d dual d 1 (negateLoop kappa d ⟨x, s⟩)).bind fun _ g =>
  let s := g.s.rowOpEnd kappa (kappa + d)
  .ok () ⟨g.x, if dual = true then s else s.moveRow (kappa + d - 1) kappa⟩

/-- put the basis back into the state -/
def liftG (w : W F) (bad : Bool) : Out (GState F) Unit → Out (W F) Unit
  | .ok _ g => .ok () { w with s := g.s, bad := bad }
  | .thrown g => .thrown { w with s := g.s, bad := bad }
  | .ub g => .ub { w with s := g.s, bad := bad }
  | .stuck g => .stuck { w with s := g.s, bad := bad }

/-- `svp_postprocessing`, bkz.cpp:128-203.  When the only non-zero coordinate is not `±1` the code moves row `kappa - 1`, which is
outside the block (and outside the basis for `kappa = 0`): `ub`. -/
def postprocess (c : SvpCfg F) (kappa d : ℕ) (x : ℕ → F) (dual : Bool) (w : W F) : Out (W F) Unit :=
  let p := scan x d
  if p.1 = 1 then
    match p.2 with
    | some iv => .ok () { w with s := w.s.moveRow (kappa + iv) (if dual = true then kappa + d - 1 else kappa) }
    | none => .ub w
  else
    match p.2 with
    | some iv => .ok () { w with s := insertUnit x kappa d iv dual w.s }
    | none => liftG w (w.bad || w.s.withUinv || decide (∃ i < d, lt (x i) (ofInt 0) = true)) (insertGeneric c.inner kappa d x dual w.s)

/-! ## svp_reduction -/

/-- preprocessing tours, bkz.cpp:118-123 -/
def preprocLoop (tour : ℤ → ℤ → ℤ → W F → Out (W F) Bool) (lo hi : ℤ) : List ℤ → W F → Out (W F) Unit
  | [], w => .ok () w
  | b :: l, w => (tour b lo hi w).bind fun _ w => preprocLoop tour lo hi l w

/-- `svp_preprocessing`, bkz.cpp:100-126; the result is not used by the caller -/
def preprocess (c : SvpCfg F) (o : Orc F) (bounded : Bool) (tour : ℤ → ℤ → ℤ → W F → Out (W F) Bool) (kappa bs : ℤ) (w : W F) :
    Out (W F) Unit :=
  (lllOp c o (if bounded = true then kappa else 0) (if bounded = true then kappa else 0) (kappa + bs) w).bind fun r w =>
  if r.1 = false then .thrown w else preprocLoop tour kappa (kappa + bs) (o.preproc bs) w

/-- the loop of `svp_reduction`, bkz.cpp:300-340; `it` counts the iterations -/
def svpLoop (c : SvpCfg F) (o : Orc F) (bounded : Bool) (tour : ℤ → ℤ → ℤ → W F → Out (W F) Bool) (kappa bs : ℤ) (dual : Bool) :
    ℕ → ℕ → Bool → W F → Out (W F) Unit
  | 0, _, _, w => .stuck w
  | n + 1, it, rerand, w =>
    if o.more w.t it = false then .ok () w.tick
    else
      (if rerand = true then rerandomize c o (kappa.toNat + 1) (kappa.toNat + bs.toNat) w.tick else .ok () w.tick).bind fun _ w =>
      (preprocess c o bounded tour kappa bs w).bind fun _ w =>
      match o.enum w.t kappa bs dual w.s with
      | none => svpLoop c o bounded tour kappa bs dual n (it + 1) true w.tick
      | some x => (postprocess c kappa.toNat bs.toNat x dual w.tick).bind fun _ w => svpLoop c o bounded tour kappa bs dual n (it + 1) false w

/-- `first`, bkz.cpp:276 -/
def firstRow (kappa bs : ℤ) (dual : Bool) : ℕ := (if dual = true then kappa + bs - 1 else kappa).toNat

/-- the comparison of the first vectors, bkz.cpp:356; `a <= b` is taken as `!(a > b)` (they differ for NaN only) -/
def cleanTest (dual : Bool) (old new : F) : Bool := if dual = true then !(gt new old) else !(gt old new)

/-- `svp_reduction`, bkz.cpp:274-358, with range check -/
def svpReduction (c : SvpCfg F) (o : Orc F) (bounded : Bool) (tour : ℤ → ℤ → ℤ → W F → Out (W F) Bool) (kappa bs : ℤ) (dual : Bool)
    (w : W F) : Out (W F) Bool :=
  if 0 ≤ kappa ∧ 1 ≤ bs ∧ kappa + bs ≤ w.s.d then
    (sizeRedOp c 0 ((if dual = true then kappa + bs - 1 else kappa) + 1) 0 w).bind fun r w =>
    if r = false then .thrown w
    else
      let old := w.s.r (firstRow kappa bs dual) (firstRow kappa bs dual)
      (svpLoop c o bounded tour kappa bs dual c.inner 0 false w).bind fun _ w =>
      (sizeRedOp c 0 ((if dual = true then kappa + bs - 1 else kappa) + 1) 0 w).bind fun r w =>
      if r = false then .thrown w
      else .ok (cleanTest dual old (w.s.r (firstRow kappa bs dual) (firstRow kappa bs dual))) w
  else .ub w

/-- the procedures of a BKZ object; `depth` bounds the nesting of preprocessing, whose tours do not use bounded LLL
(bkz.cpp:121) -/
def svpOps (c : SvpCfg F) (o : Orc F) : ℕ → Bool → Ops (W F)
  | 0, _ =>
    { svp := fun _ _ _ w => .stuck w
      lll := lllOp c o
      sizeRed := sizeRedOp c
      symG := fun w => { w with s := if w.s.intGram = true then w.s.symmetrizeG else w.s }
      noProgress := fun w => (o.noProgress w.t, w.tick) }
  | depth + 1, bounded =>
    { svp := svpReduction c o bounded (tour (svpOps c o depth false))
      lll := lllOp c o
      sizeRed := sizeRedOp c
      symG := fun w => { w with s := if w.s.intGram = true then w.s.symmetrizeG else w.s }
      noProgress := fun w => (o.noProgress w.t, w.tick) }

/-- the number of rows BKZ works on (constructor, bkz.cpp:35-37): trailing zero rows are left out -/
def numRows (s : GSO F) : ℕ → ℕ
  | 0 => 0
  | n + 1 => if rowIsZero s n = true then numRows s n else n + 1

/-- `get_current_slope`, gso_interface.cpp:198-218: updates all rows; the value is from outside -/
def slopeUpdate (n : ℕ) (s : GSO F) : GSO F := forUp 0 n (fun i s => (s.updateGsoRow i (i + 1)).2) s

/-- bkz.cpp:561-567 -/
def prepare (sld : Bool) (s : GSO F) : GSO F := if sld = true then (s.discoverAllRows).updateGso.2 else s.discoverAllRows

/-- a whole run of `BKZReduction::bkz()` on a GSO object -/
def runBKZ {D : Type} [LinearOrder D] [OrderTop D] (c : SvpCfg F) (o : Orc F) (cfg : Cfg D) (timeUp : ℕ → W F → Bool) (slope : ℕ → W F → D)
    (depth inner fuel : ℕ) (w : W F) : Out (W F) (Status × ℕ) :=
  let n := numRows w.s w.s.d
  bkz (svpOps c o depth cfg.bounded) cfg ⟨timeUp, fun i w => (slope i w, { w with s := slopeUpdate n w.s })⟩
    (fun w => { w with s := prepare cfg.sld w.s }) n inner fuel w

end BKZ
end Fplll

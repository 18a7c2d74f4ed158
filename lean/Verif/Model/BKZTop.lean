import Verif.Model.BKZSvp
import Verif.Model.Wrapper

/-!
# Model of `bkz_reduction` and `hkz_reduction` (fplll/bkz.cpp)

The public functions around `BKZReduction::bkz()`: first LLL by the `Wrapper` (or `zeros_last`), then the selection of the types, the
conversion to machine integers and back, and `zeros_first`.  A run of `bkz()` is an oracle (`BRunner`); `bkzRun` is the instance where
it is the modelled `runBKZ` on a new object.
-/

namespace Fplll
namespace BkzTop

open Gen Wrapper

/-- outcome of `bkz()` on a new object: status, number of tours, the ghost `bad` (see `BKZ.W`) and the matrices `b`, `u`, `u_inv_t`; an
escaping exception; undefined behaviour; a run that does not end -/
inductive BOut
  | ok (st : BKZ.Status) (tours : ℕ) (bad : Bool) (m : Triple)
  | thrown (bad : Bool) (m : Triple)
  | ub
  | stuck (bad : Bool) (m : Triple)

/-- construct `MatGSO`, `LLLReduction` and `BKZReduction` and run `bkz()`: machine integers?, floating-point type, precision, matrices -/
abbrev BRunner := Bool → FT → ℤ → Triple → BOut

/-- `lll_delta`, bkz.cpp:862; `LLL_DEF_DELTA` is `0.99` (defs.h:143) -/
def lllDelta (delta : ℚ) : ℚ := if delta < 1 then delta else 99 / 100

/-- `LLL_DEF_ETA`, defs.h:144 -/
def lllEta : ℚ := 51 / 100

/-- did all three `convert<long, mpz_t>(…, 10)` succeed? bkz.cpp:826-827 -/
def toLong (d n : ℕ) (getSi : ℤ → ℤ) (junk : Mat ℤ) (m : Triple) : Bool × Triple :=
  let cb := convert d n 10 m.b getSi junk
  let cu := m.u.map fun u => convert d d 10 u getSi junk
  let cv := m.v.map fun v => convert d d 10 v getSi junk
  (cb.1 && cu.all (·.1) && cv.all (·.1), ⟨cb.2, cu.map (·.2), cv.map (·.2)⟩)

/-- the conversion back, bkz.cpp:833-835.  The results of the three `convert<mpz_t, long>(…, 0)` are ignored by the code; the first
component tells whether all succeeded. -/
def fromLong (d n : ℕ) (junk : Mat ℤ) (m : Triple) : Bool × Triple :=
  let cb := convert d n 0 m.b id junk
  let cu := m.u.map fun u => convert d d 0 u id junk
  let cv := m.v.map fun v => convert d d 0 v id junk
  (cb.1 && cu.all (·.1) && cv.all (·.1), ⟨cb.2, cu.map (·.2), cv.map (·.2)⟩)

/-- outcome of `bkz_reduction_f`; the ghost `lost` tells that a conversion back failed -/
inductive FOut
  | ok (st : BKZ.Status) (tours : ℕ) (bad lost : Bool) (m : Triple)
  | thrown (bad : Bool) (m : Triple)
  | ub
  | stuck (bad : Bool) (m : Triple)

/-- `bkz_reduction_f<FT>`, bkz.cpp:811-846.  In the branch for machine integers an exception leaves `b` and `u` as they were. -/
def bkzReductionF (d n : ℕ) (getSi : ℤ → ℤ) (brun : BRunner) (junk : Mat ℤ) (ft : FT) (prec : ℤ) (m : Triple) : FOut :=
  if d = 0 ∨ n = 0 then .ok .success 0 false false m
  else if (toLong d n getSi junk m).1 = true then
    match brun true ft prec (toLong d n getSi junk m).2 with
    | .ok st k bad r => .ok st k bad (!(fromLong d n junk r).1) (fromLong d n junk r).2
    | .thrown _ _ => .thrown false m
    | .ub => .ub
    | .stuck _ _ => .stuck false m
  else
    match brun false ft prec m with
    | .ok st k bad r => .ok st k bad false r
    | .thrown bad r => .thrown bad r
    | .ub => .ub
    | .stuck bad r => .stuck bad r

/-- the `RedStatus` of a `bkz()` status, defs.h:152-165 -/
def redStatus : BKZ.Status → RedStatus
  | .success => .success
  | .loopsLimit => .bkzLoopsLimit
  | .timeLimit => .bkzTimeLimit

/-- outcome of `bkz_reduction`: `FPLLL_CHECK`/`FPLLL_ABORT`; LLL out of fuel; undefined behaviour; a return with status, ghosts,
matrices and the default precision of `mpfr` numbers afterwards; an escaping exception; a run that does not end -/
inductive TOut
  | abort
  | outOfFuel
  | ub
  | ret (st : RedStatus) (bad lost : Bool) (m : Triple) (mprec : ℤ)
  | throws (bad : Bool) (m : Triple) (mprec : ℤ)
  | stuck (bad : Bool) (m : Triple)

/-- the arguments of `bkz_reduction` besides the matrices and `BKZParam` (of which `delta` and `BKZ_NO_LLL` matter here) -/
structure Args where
  delta : ℚ
  noLll : Bool
  /-- `none` is `FT_DEFAULT` -/
  ft : Option FT
  prec : ℤ

/-- the first step of `bkz_reduction`, bkz.cpp:868-876: did it succeed, status, matrices; `none`: out of fuel -/
def firstStep (c : Cfg) (run : Runner) (wfuel : ℕ) (noLll : Bool) (junk : Mat ℤ) (m : Triple) : Option (Bool × RedStatus × Triple) :=
  if noLll = true then some (true, .success, zerosLast c.d c.n m)
  else (lll c run wfuel (mk c m junk)).map fun q => (q.1, q.2.status, q.2.m)

/-- the second step, bkz.cpp:878-926 -/
def secondStep (c : Cfg) (brun : BRunner) (a : Args) (mprec : ℤ) (junk : Mat ℤ) (m : Triple) : TOut :=
  let sel := a.ft.getD .double
  if available c.bld sel = false then .abort
  else
    match bkzReductionF c.d c.n c.getSi brun junk sel (if sel = .mpfr then a.prec else 0) m with
    | .ok st _ bad lost r => .ret (redStatus st) bad lost (zerosFirst c.d c.n r) mprec
    | .thrown bad r => .throws bad r (if sel = .mpfr then a.prec else mprec)
    | .ub => .ub
    | .stuck bad r => .stuck bad r

/-- `bkz_reduction(&b, U, param, float_type, precision)`, bkz.cpp:849-927.  `u = none`: `U` is null or an empty matrix (`u` is the
identity otherwise); `mprec`: the default precision of `mpfr` numbers on entry. -/
def bkzReduction (c : Cfg) (run : Runner) (brun : BRunner) (wfuel : ℕ) (a : Args) (mprec : ℤ) (junk : Mat ℤ) (b : Mat ℤ) (u : Option (Mat ℤ)) :
    TOut :=
  if a.ft.getD .double = .mpfr ∧ a.prec = 0 then .abort
  else
    match firstStep { c with delta := lllDelta a.delta, eta := lllEta } run wfuel a.noLll junk ⟨b, identityIf u, none⟩ with
    | none => .outOfFuel
    | some (false, st, m) => .ret st false false m mprec
    | some (true, _, m) => secondStep c brun a mprec junk m

/-- `hkz_reduction(b, flags, float_type, precision)`, bkz.cpp:946-956; the flags only ask for messages, the block size (the number of
rows) is part of `brun` -/
def hkzReduction (c : Cfg) (run : Runner) (brun : BRunner) (wfuel : ℕ) (ft : Option FT) (prec mprec : ℤ) (junk : Mat ℤ) (b : Mat ℤ) : TOut :=
  bkzReduction c run brun wfuel ⟨1, false, ft, prec⟩ mprec junk b none

/-! ## A run of `bkz()` -/

/-- what a run of `bkz()` depends on, for each type -/
structure BWorld (D : Type) where
  w : World
  orc : Bool → ∀ ft p, Triple → BKZ.Orc (w.F ft p)
  timeUp : ∀ ft p, ℕ → BKZ.W (w.F ft p) → Bool
  slope : ∀ ft p, ℕ → BKZ.W (w.F ft p) → D
  babai : ℕ
  inner : ℕ
  density : ℕ
  depth : ℕ
  tries : ℕ
  tours : ℕ

/-- the matrices at the end of a run -/
def outT {F : Type} (inp : Triple) (s : GSO F) : Triple := ⟨s.b, inp.u.map fun _ => s.u, inp.v.map fun _ => s.uInvT⟩

/-- construct the objects and run `bkz()`, bkz.cpp:829-832 and 840-843.  Simplifications: `long` integers do not overflow;
`GSO_ROW_EXPO` is part of the numbers. -/
def bkzRun {D : Type} [LinearOrder D] [OrderTop D] (bw : BWorld D) (d n : ℕ) (delta : ℚ) (cfg : BKZ.Cfg D) : BRunner := fun long ft p inp =>
  letI := bw.w.ops ft p
  let s : GSO (bw.w.F ft p) :=
    GSO.mk0 d n false inp.u.isSome inp.v.isSome false inp.b (inp.u.getD fun _ _ => 0) (inp.v.getD fun _ _ => 0) (bw.w.junkZ 0)
      (bw.w.junkF 0 ft p)
  match BKZ.runBKZ ⟨LLL.mkCfg (bw.w.conv ft p (lllDelta delta)) (bw.w.conv ft p lllEta) false false, bw.babai, bw.inner, bw.density⟩
      (bw.orc long ft p inp) cfg (bw.timeUp ft p) (bw.slope ft p) bw.depth bw.tries bw.tours ⟨s, 0, 0, false⟩ with
  | .ok r w => .ok r.1 r.2 w.bad (outT inp w.s)
  | .thrown w => .thrown w.bad (outT inp w.s)
  | .ub _ => .ub
  | .stuck w => .stuck w.bad (outT inp w.s)

end BkzTop
end Fplll

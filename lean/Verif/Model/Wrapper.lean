import Verif.Model.LLL
import Verif.Model.Gen
import Mathlib.Data.Nat.Size

/-!
# Model of the LLL and HLLL drivers (fplll/wrapper.h, fplll/wrapper.cpp)

The class `Wrapper` runs LLL again and again with growing precision; `lll_reduction_z` and `hlll_reduction_z` select
a floating-point type for a single run.  A single run is an oracle here: a function of the call, of the number of
runs so far and of the matrices, so the results hold for every behaviour of the individual runs.
`lllRun` is the instance where a run is the modelled `LLLReduction::lll` on a fresh `MatGSO`.
-/

namespace Fplll
namespace Wrapper

open Gen

/-- `enum RedStatus`, defs.h:153-169, without the values that are no status -/
inductive RedStatus
  | success
  | gsoFailure
  | babaiFailure
  | lllFailure
  | enumFailure
  | bkzFailure
  | bkzTimeLimit
  | bkzLoopsLimit
  | hlllFailure
  | hlllNormFailure
  | hlllSrFailure
  deriving DecidableEq

/-- `enum LLLMethod`, defs.h:186-192 -/
inductive Meth
  | wrapper
  | proved
  | heuristic
  | fast
  deriving DecidableEq

/-- `enum FloatType` without `FT_DEFAULT`, defs.h:209-218 -/
inductive FT
  | double
  | longDouble
  | dpe
  | dd
  | qd
  | mpfr
  deriving DecidableEq

/-- `enum IntType`, defs.h:200-205 -/
inductive ZT
  | mpz
  | long
  | double
  deriving DecidableEq

/-- what the preprocessor decides (defs.h:22-29, fplll_config.h) and the number of mantissa bits of `long double` -/
structure Build where
  zlong : Bool
  longDouble : Bool
  dpe : Bool
  qd : Bool
  ldBits : ℤ

/-- one run `call_lll<Z, F>(…, method, precision, delta, eta)`; `prec = 0`: the precision is not set -/
structure Call where
  zt : ZT
  ft : FT
  meth : Meth
  prec : ℤ
  delta : ℚ
  eta : ℚ
  /-- `GSO_OP_FORCE_LONG`, `HOUSEHOLDER_OP_FORCE_LONG` -/
  forceLong : Bool
  deriving DecidableEq

/-- outcome of a run: the members `status`, `final_kappa`, `last_early_red` of the `LLLReduction` object, and the
matrices `b`, `u`, `u_inv` -/
structure Res where
  status : RedStatus
  finalKappa : ℤ
  lastEarly : ℤ
  out : Triple

/-- record of a run -/
structure Entry where
  call : Call
  inp : Triple
  res : Res

/-- Constant members of a `Wrapper` object, wrapper.h:86-117.  `slack` is `(int)ceil(0.5 * log2((double)d * n))`,
`little` the member function of that name (a comparison of doubles, wrapper.cpp:73-94), `getSi` is
`mpz_get_si`. -/
structure Cfg where
  bld : Build
  d : ℕ
  n : ℕ
  slack : ℕ
  delta : ℚ
  eta : ℚ
  goodPrec : ℤ
  little : ℤ → ℤ → Bool
  getSi : ℤ → ℤ

/-- Variable members of a `Wrapper` object; `log` lists the runs, the latest first. -/
structure St where
  m : Triple
  bLong : Mat ℤ
  useLong : Bool
  status : RedStatus
  lastEarly : ℤ
  maxExponent : ℤ
  log : List Entry

/-- a single run: number of earlier runs, call, `last_early_red`, matrices -/
abbrev Runner := ℕ → Call → ℤ → Triple → Res

/-- `Matrix::get_max_exp()`, matrix.cpp:127-134; the exponent of `x ≠ 0` is the `e` with `2^(e-1) ≤ |x| < 2^e`, that
of 0 is 0 -/
def maxExp (d n : ℕ) (b : Mat ℤ) : ℕ :=
  forUp 0 d (fun i e => forUp 0 n (fun j e => max e (Nat.size (b i j).natAbs)) e) 0

/-- Constructor `Wrapper(b, u, u_inv, delta, eta, flags)`, wrapper.cpp:45-58.  `junk` is the content of `b_long` after
`resize`. -/
def mk (c : Cfg) (m : Triple) (junk : Mat ℤ) : St :=
  { m := m, bLong := junk, useLong := false, status := .success, lastEarly := 0
    maxExponent := maxExp c.d c.n m.b + c.slack, log := [] }

/-- `Wrapper::call_lll`, wrapper.cpp:99-152 -/
def callLll (run : Runner) (call : Call) (st : St) : ℤ × St :=
  let inp : Triple := if call.zt = .long then ⟨st.bLong, none, none⟩ else st.m
  let r := run st.log.length call st.lastEarly inp
  let st' : St :=
    { st with
      status := r.status
      lastEarly := max st.lastEarly r.lastEarly
      m := if call.zt = .long then st.m else r.out
      bLong := if call.zt = .long then r.out.b else st.bLong
      log := ⟨call, inp, r⟩ :: st.log }
  (if r.status = .success then 0
   else if r.status = .gsoFailure ∨ r.status = .babaiFailure then r.finalKappa
   else -1, st')

/-- `Wrapper::fast_lll<F>(delta, eta)`, wrapper.cpp:157-160 -/
def fastLll (c : Cfg) (run : Runner) (ft : FT) (st : St) : ℤ × St :=
  callLll run ⟨.mpz, ft, .fast, 0, c.delta, c.eta, true⟩ st

/-- `Wrapper::heuristic_lll<Z, F>(…, precision, delta, eta)`, wrapper.cpp:162-167 -/
def heuristicLll (c : Cfg) (run : Runner) (zt : ZT) (ft : FT) (prec : ℤ) (st : St) : ℤ × St :=
  callLll run ⟨zt, ft, .heuristic, prec, c.delta, c.eta, decide (prec = 0)⟩ st

/-- `Wrapper::proved_lll<Z, F>(…, precision, delta, eta)`, wrapper.cpp:169-174 -/
def provedLll (c : Cfg) (run : Runner) (zt : ZT) (ft : FT) (prec : ℤ) (st : St) : ℤ × St :=
  callLll run ⟨zt, ft, .proved, prec, c.delta, c.eta, false⟩ st

/-- `Wrapper::increase_prec(precision)`, wrapper.cpp:387 -/
def increasePrec (c : Cfg) (p : ℤ) : ℤ := min (p * 2) c.goodPrec

/-- `numeric_limits<double>::digits` = `PREC_DOUBLE` = `DPE_BITSIZE` -/
def dblDigits : ℤ := 53
/-- `PREC_DD`, defs.h:140 -/
def precDD : ℤ := 106
/-- `PREC_QD`, defs.h:141 -/
def precQD : ℤ := 212
/-- `MAX_EXP_DOUBLE`, defs.h:138 -/
def maxExpDouble : ℤ := 1000
/-- `numeric_limits<long>::digits` -/
def longDigits : ℤ := 63

/-- the run of `proved_loop(precision)`, wrapper.cpp:204-224 -/
def provedOnce (c : Cfg) (run : Runner) (p : ℤ) (st : St) : ℤ × St :=
  if (if c.bld.qd then precDD else dblDigits) < p then provedLll c run .mpz .mpfr p st
  else if maxExpDouble < st.maxExponent * 2 then
    if c.bld.dpe then provedLll c run .mpz .dpe 0 st else provedLll c run .mpz .mpfr p st
  else if c.bld.qd ∧ dblDigits < p then provedLll c run .mpz .dd p st
  else provedLll c run .mpz .double 0 st

/-- `Wrapper::proved_loop(precision)`, wrapper.cpp:202-232; `none`: out of fuel -/
def provedLoop (c : Cfg) (run : Runner) : ℕ → ℤ → St → Option (ℤ × St)
  | 0, _, _ => none
  | fuel + 1, p, st =>
    let q := provedOnce c run p st
    if q.1 = 0 then some (0, q.2)
    else if p < c.goodPrec then provedLoop c run fuel (increasePrec c p) q.2
    else some (-1, q.2)

/-- the run of `heuristic_loop(precision)`, wrapper.cpp:181-192 -/
def heuristicOnce (c : Cfg) (run : Runner) (p : ℤ) (st : St) : ℤ × St :=
  if dblDigits < p then heuristicLll c run .mpz .mpfr p st
  else if c.bld.dpe then heuristicLll c run .mpz .dpe 0 st
  else heuristicLll c run .mpz .mpfr p st

/-- `Wrapper::heuristic_loop(precision)`, wrapper.cpp:179-200 -/
def heuristicLoop (c : Cfg) (run : Runner) : ℕ → ℤ → St → Option (ℤ × St)
  | 0, _, _ => none
  | fuel + 1, p, st =>
    let q := heuristicOnce c run p st
    if q.1 = 0 then some (0, q.2)
    else if p < c.goodPrec ∧ c.little q.1 p = false then heuristicLoop c run fuel (increasePrec c p) q.2
    else provedLoop c run fuel p q.2

/-- `Wrapper::last_lll()`, wrapper.cpp:237-273 -/
def lastLll (c : Cfg) (run : Runner) (st : St) : ℤ × St :=
  if st.useLong then
    if c.goodPrec ≤ dblDigits then provedLll c run .long .double c.goodPrec st
    else if c.bld.qd ∧ c.goodPrec ≤ precDD then provedLll c run .long .dd c.goodPrec st
    else provedLll c run .long .mpfr c.goodPrec st
  else if c.bld.dpe then
    if c.goodPrec ≤ dblDigits then provedLll c run .mpz .dpe c.goodPrec st
    else if c.bld.qd ∧ c.goodPrec ≤ precDD then
      let st := { st with maxExponent := maxExp c.d c.n st.m.b + c.slack }
      if st.maxExponent * 2 < maxExpDouble then provedLll c run .mpz .dd c.goodPrec st
      else provedLll c run .mpz .mpfr c.goodPrec st
    else provedLll c run .mpz .mpfr c.goodPrec st
  else provedLll c run .mpz .mpfr c.goodPrec st

/-- copy of the `d × n` corner, entry by entry, wrapper.cpp:373-375 and 379-381 -/
def copyMat (c : Cfg) (f : ℤ → ℤ) (src dst : Mat ℤ) : Mat ℤ :=
  forUp 0 c.d (fun i m => forUp 0 c.n (fun j (m : Mat ℤ) => m.set i j (f (src i j))) m) dst

/-- `Wrapper::set_use_long(value)`, wrapper.cpp:364-385 -/
def setUseLong (c : Cfg) (value : Bool) (st : St) : St :=
  if c.bld.zlong then
    if !st.useLong && value then { st with bLong := copyMat c c.getSi st.m.b st.bLong, useLong := value }
    else if st.useLong && !value then
      { st with m := { st.m with b := copyMat c id st.bLong st.m.b }, useLong := value }
    else { st with useLong := value }
  else st

/-- the branch "large matrix" of `Wrapper::lll`, wrapper.cpp:308-351 -/
def largeLll (c : Cfg) (run : Runner) (fuel : ℕ) (st : St) : Option St :=
  let q := fastLll c run .double st
  let q := if c.bld.longDouble ∧ q.1 ≠ 0 then fastLll c run .longDouble q.2 else q
  let q := if c.bld.qd ∧ q.1 ≠ 0 then fastLll c run .dd q.2 else q
  let lastPrec := if c.bld.qd then precDD else if c.bld.longDouble then c.bld.ldBits else dblDigits
  if q.1 ≠ 0 then
    ((if c.little q.1 lastPrec then provedLoop c run fuel dblDigits q.2
      else heuristicLoop c run fuel (increasePrec c dblDigits) q.2)).map (·.2)
  else some q.2

/-- `Wrapper::lll()`, wrapper.cpp:281-359: the returned `bool` and the object; `none`: out of fuel.  For an empty basis
the returned value is `RED_SUCCESS`, that is `false`. -/
def lll (c : Cfg) (run : Runner) (fuel : ℕ) (st : St) : Option (Bool × St) :=
  if c.d = 0 ∨ c.n = 0 then some (false, st)
  else
    let heurLong : Bool := c.bld.zlong && decide (st.maxExponent < longDigits - 2) && st.m.u.isNone && st.m.v.isNone
    let provLong : Bool := c.bld.zlong && decide (2 * st.maxExponent < longDigits - 2) && st.m.u.isNone && st.m.v.isNone
    let mid : Option St :=
      if heurLong then some (heuristicLll c run .long .double 0 (setUseLong c true st)).2
      else largeLll c run fuel st
    mid.map fun st =>
      let q := lastLll c run (setUseLong c provLong st)
      (decide (q.1 = 0), setUseLong c false q.2)

/-- `lll_reduction_wrapper(b, u, u_inv, …)` for `mpz_t`, wrapper.cpp:564-574, after the two checks of its arguments: the
returned status and the matrices -/
def lllReductionWrapper (c : Cfg) (run : Runner) (fuel : ℕ) (m : Triple) (junk : Mat ℤ) : Option (RedStatus × Triple) :=
  (lll c run fuel (mk c m junk)).map fun q => (q.2.status, zerosFirst c.d c.n q.2.m)

/-! ## A single run of LLL -/

/-- the member `status` of an `LLLReduction` object after a call, given its value before it: `startFailure` returns
without setting it -/
def memberStatus (old : RedStatus) : LLLStatus → RedStatus
  | .success => .success
  | .gsoFailure => .gsoFailure
  | .babaiFailure => .babaiFailure
  | .lllFailure => .lllFailure
  | .startFailure => old
  | .outOfFuel => old

/-- Everything a run depends on that is not modelled exactly: for each floating-point type and precision the numbers and
their operations, the conversion from `double`, the iteration limit of `lll` and the content of fresh memory. -/
structure World where
  F : FT → ℤ → Type
  ops : ∀ ft p, FloatOps (F ft p)
  conv : ∀ ft p, ℚ → F ft p
  maxIter : ℕ → Triple → ℕ
  junkZ : ℕ → Mat ℤ
  junkF : ℕ → ∀ ft p, Mat (F ft p)
  earlyRed : Bool
  siegel : Bool

/-- The `LLLReduction` part of `call_lll`, wrapper.cpp:117-132: construct `MatGSO` and `LLLReduction`, set
`last_early_red`, run `lll()`.  Babai's loop gets `2^62` steps, which is enough (C05).
Simplifications: `long` integers do not overflow; `GSO_ROW_EXPO` is part of the numbers. -/
def lllRun (w : World) (d n : ℕ) : Runner := fun t call last inp =>
  letI := w.ops call.ft call.prec
  let s : GSO (w.F call.ft call.prec) :=
    GSO.mk0 d n (decide (call.meth = .proved)) inp.u.isSome inp.v.isSome
      call.forceLong inp.b (inp.u.getD fun _ _ => 0)
      (inp.v.getD fun _ _ => 0) (w.junkZ t) (w.junkF t call.ft call.prec)
  let cfg := LLL.mkCfg (w.conv call.ft call.prec call.delta) (w.conv call.ft call.prec call.eta) w.siegel w.earlyRed
  let q := LLL.lll cfg (2 ^ 62) (w.maxIter t inp) last.toNat s 0 0 d 0
  { status := memberStatus .success q.1
    finalKappa := match q.1 with
      | .gsoFailure => q.2.kappa
      | .babaiFailure => q.2.kappa
      | _ => 0
    lastEarly := q.2.lastEarlyRed
    out := ⟨q.2.s.b, inp.u.map fun _ => q.2.s.u, inp.v.map fun _ => q.2.s.uInvT⟩ }

/-! ## Selection of the floating-point type -/

/-- the arguments of `lll_reduction_z`, wrapper.cpp:580-583; `ft = none` is `FT_DEFAULT` -/
structure Args where
  meth : Meth
  zt : ZT
  ft : Option FT
  prec : ℤ
  earlyRed : Bool

/-- what `lll_reduction_z` does with its arguments: abort, run the wrapper, or one run with a type and a precision -/
inductive Choice
  | abort
  | wrapper
  | single (ft : FT) (prec : ℤ)
  deriving DecidableEq

/-- `FP_NR<F>::get_prec()` for the types of fixed precision (nr_FP_*.inl) -/
def fixedPrec (bld : Build) : FT → Option ℤ
  | .double => some dblDigits
  | .longDouble => some bld.ldBits
  | .dpe => some dblDigits
  | .dd => some precDD
  | .qd => some precQD
  | .mpfr => none

/-- is the type compiled in? -/
def available (bld : Build) : FT → Bool
  | .double => true
  | .longDouble => bld.longDouble
  | .dpe => bld.dpe
  | .dd => bld.qd
  | .qd => bld.qd
  | .mpfr => true

/-- the default type for a precision, wrapper.cpp:621-638 -/
def defaultFt (bld : Build) (meth : Meth) (selPrec : ℤ) : FT :=
  if meth = .fast then .double
  else if bld.dpe ∧ selPrec ≤ dblDigits then .dpe
  else if bld.qd ∧ selPrec ≤ precDD then .dd
  else if bld.qd ∧ selPrec ≤ precQD then .qd
  else .mpfr

/-- the part of the selection shared by LLL and HLLL, wrapper.cpp:595-731 and 873-996 -/
def select (bld : Build) (goodPrec : ℤ) (a : Args) : Choice :=
  let selPrec := if a.meth = .proved then (if a.prec ≠ 0 then a.prec else goodPrec)
    else (if a.prec ≠ 0 then a.prec else dblDigits)
  let selFt := if a.prec ≠ 0 ∧ a.ft = none then some .mpfr else a.ft
  if a.prec ≠ 0 ∧ selFt ≠ some .mpfr then .abort
  else
    match selFt with
    | none =>
      let ft := defaultFt bld a.meth selPrec
      .single ft ((fixedPrec bld ft).getD selPrec)
    | some ft =>
      if a.meth = .fast ∧ ft ≠ .double ∧ ft ≠ .longDouble ∧ ft ≠ .dd ∧ ft ≠ .qd then .abort
      else if available bld ft = false then .abort
      else .single ft ((fixedPrec bld ft).getD selPrec)

/-- the choice made by `lll_reduction_z`, wrapper.cpp:580-731, with the checks of `lll_reduction_wrapper`
(wrapper.cpp:555-570) -/
def lllChoice (bld : Build) (goodPrec : ℤ) (a : Args) : Choice :=
  if a.meth = .wrapper then
    if a.zt = .mpz ∧ a.ft = none ∧ a.prec = 0 then .wrapper else .abort
  else if a.meth = .proved ∧ a.earlyRed then .abort
  else select bld goodPrec a

/-- the choice made by `hlll_reduction_z` without `nolll`, wrapper.cpp:809-996, with the checks of
`hlll_reduction_wrapper` (wrapper.cpp:766-781) -/
def hlllChoice (bld : Build) (goodPrec : ℤ) (a : Args) : Choice :=
  if a.meth = .heuristic then .abort
  else if a.meth = .wrapper then
    if a.zt = .mpz ∧ a.ft = none ∧ a.prec = 0 then .wrapper else .abort
  else select bld goodPrec a

/-- `lll_reduction_zf<ZT, FT>`, wrapper.cpp:539-553: for the empty basis nothing is done.  The call is recorded with
precision 0 except for `mpfr`, whose precision has been set. -/
def lllReductionZf (run : Runner) (c : Cfg) (call : Call) (m : Triple) : RedStatus × Triple :=
  if c.d = 0 ∨ c.n = 0 then (.success, m)
  else
    let r := run 0 call 0 m
    (r.status, r.out)

/-- outcome of the public functions -/
inductive Outcome (α : Type)
  | abort
  | outOfFuel
  | done (a : α)

/-- `lll_reduction_z`, wrapper.cpp:580-734 -/
def lllReductionZ (c : Cfg) (run : Runner) (fuel : ℕ) (a : Args) (m : Triple) (junk : Mat ℤ) :
    Outcome (RedStatus × Triple) :=
  match lllChoice c.bld c.goodPrec a with
  | .abort => .abort
  | .wrapper =>
    match lllReductionWrapper c run fuel m junk with
    | none => .outOfFuel
    | some r => .done r
  | .single ft p =>
    let q := lllReductionZf run c ⟨a.zt, ft, a.meth, if ft = .mpfr then p else 0, c.delta, c.eta,
      decide (a.meth = .fast)⟩ m
    .done (q.1, zerosFirst c.d c.n q.2)

/-- `u.gen_identity(b.get_rows())` if `u` is not empty -/
def identityIf (u : Option (Mat ℤ)) : Option (Mat ℤ) := u.map fun _ i j => if i = j then 1 else 0

/-- `transpose()` of a square matrix -/
def transposeMat (m : Mat ℤ) : Mat ℤ := fun i j => m j i

/-- `lll_reduction(b, u, u_inv, delta, eta, method, float_type, precision, flags)`, wrapper.cpp:1024-1037; the two
other overloads are the cases `u = none`, `u_inv = none` -/
def lllReduction (c : Cfg) (run : Runner) (fuel : ℕ) (a : Args) (m : Triple) (junk : Mat ℤ) :
    Outcome (RedStatus × Triple) :=
  match lllReductionZ c run fuel a ⟨m.b, identityIf m.u, (identityIf m.v).map transposeMat⟩ junk with
  | .abort => .abort
  | .outOfFuel => .outOfFuel
  | .done (s, m') => .done (s, { m' with v := m'.v.map transposeMat })

/-! ## The HLLL wrapper -/

/-- `Wrapper::call_hlll<F>(method, precision)`, wrapper.cpp:395-438: the member `status` is shadowed by a local variable
and stays as it is -/
def callHlll (run : Runner) (call : Call) (st : St) : Bool × St :=
  let r := run st.log.length call st.lastEarly st.m
  (decide (r.status = .success), { st with m := r.out, log := ⟨call, st.m, r⟩ :: st.log })

/-- `Wrapper::proved_hlll<F>(precision)`, wrapper.cpp:473-476 -/
def provedHlll (c : Cfg) (run : Runner) (ft : FT) (p : ℤ) (st : St) : Bool × St :=
  callHlll run ⟨.mpz, ft, .proved, p, c.delta, c.eta, false⟩ st

/-- `Wrapper::fast_hlll<F>()`, wrapper.cpp:471 -/
def fastHlll (c : Cfg) (run : Runner) (ft : FT) (st : St) : Bool × St :=
  callHlll run ⟨.mpz, ft, .fast, 0, c.delta, c.eta, true⟩ st

/-- `Wrapper::last_hlll()`, wrapper.cpp:443-455 -/
def lastHlll (c : Cfg) (run : Runner) (st : St) : Bool × St :=
  if c.bld.dpe ∧ c.goodPrec ≤ dblDigits then provedHlll c run .dpe c.goodPrec st
  else if c.bld.dpe ∧ c.bld.qd ∧ c.goodPrec ≤ precDD then provedHlll c run .dd c.goodPrec st
  else provedHlll c run .mpfr c.goodPrec st

/-- `Wrapper::hlll_proved_loop(precision)`, wrapper.cpp:456-466; the returned number is 0 or -1 -/
def hlllProvedLoop (c : Cfg) (run : Runner) : ℕ → ℤ → St → Option (ℤ × St)
  | 0, _, _ => none
  | fuel + 1, p, st =>
    let q := provedHlll c run .mpfr p st
    if q.1 then some (0, q.2)
    else if p < c.goodPrec then hlllProvedLoop c run fuel (increasePrec c p) q.2
    else some (-1, q.2)

/-- `Wrapper::hlll()`, wrapper.cpp:478-529.  The result of the proved loop is converted to `bool` and then overwritten.
The returned value is `hlll_complete == RED_SUCCESS`, that is `!hlll_complete`. -/
def hlll (c : Cfg) (run : Runner) (fuel : ℕ) (st : St) : Option (Bool × St) :=
  if c.d = 0 ∨ c.n = 0 then some (false, st)
  else
    let q := fastHlll c run .double st
    let lastPrec := dblDigits
    let r := if c.bld.longDouble ∧ q.1 = false then (fastHlll c run .longDouble q.2, c.bld.ldBits) else (q, lastPrec)
    let r := if c.bld.qd ∧ r.1.1 = false then (fastHlll c run .dd r.1.2, precDD) else r
    let mid := if r.1.1 = false then (hlllProvedLoop c run fuel r.2 r.1.2).map (·.2) else some r.1.2
    mid.map fun st =>
      let q := lastHlll c run st
      (!q.1, q.2)

/-- `hlll_reduction_wrapper` for `mpz_t`, wrapper.cpp:776-787 -/
def hlllReductionWrapper (c : Cfg) (run : Runner) (fuel : ℕ) (m : Triple) (junk : Mat ℤ) :
    Option (RedStatus × Triple) :=
  (hlll c run fuel (mk c m junk)).map fun q => (q.2.status, zerosFirst c.d c.n q.2.m)

end Wrapper
end Fplll

import Verif.Model.GSO

/-!
# Model of `LLLReduction` (fplll/lll.h, fplll/lll.cpp)
-/

namespace Fplll

open FloatOps

/-- How a call of `lll`, `babai`, … ends.  All but `success` return false.  The first four set the member `status` to
the corresponding `RedStatus` (defs.h:152-165); `startFailure` marks the return without `set_status` after a failing
`update_gso_row(kappa_start)` (lll.cpp:71-76, lll.h:117): `status` keeps its previous value.
`outOfFuel` is not a C++ outcome: it marks a run that needs more loop iterations than the model was given. -/
inductive LLLStatus
  | success
  | gsoFailure
  | babaiFailure
  | lllFailure
  | startFailure
  | outOfFuel
  deriving DecidableEq

/-- Parameters of an `LLLReduction` object, lll.cpp:28-42. -/
structure LLLCfg (F : Type) where
  /-- `eta` -/
  eta : F
  /-- `swap_threshold` -/
  thr : F
  siegel : Bool
  /-- the flag `LLL_EARLY_RED` -/
  earlyRedFlag : Bool

namespace LLL

variable {F : Type} [FloatOps F]

/-- Constructor `LLLReduction(m, delta, eta, flags)`, lll.cpp:26-42.  Simplification: `swap_threshold`
is computed in double and then rounded to `FT`; here it is computed in `F`. -/
def mkCfg (delta eta : F) (siegel earlyRedFlag : Bool) : LLLCfg F where
  eta := eta
  thr := if siegel then sub delta (mul eta eta) else delta
  siegel := siegel
  earlyRedFlag := earlyRedFlag

/-- `LONG_MAX` -/
def longMax : ℤ := 2 ^ 63 - 1
/-- `LONG_MIN` -/
def longMin : ℤ := -2 ^ 63

/-- `SIZE_RED_FAILURE_THRESH`, defs.h -/
def sizeRedFailureThresh : ℤ := 5

/-- `MatGSOInterface::get_max_mu_exp(i, n_columns)`, gso_interface.cpp:88-99 -/
def maxMuExp (s : GSO F) (i n : ℕ) : ℤ :=
  forUp 0 n (fun j e => max e (exponent (s.mu i j))) longMin

/-- the test loop of `babai`, lll.cpp:178-185; stopping early does not change the result -/
def loopNeeded (c : LLLCfg F) (s : GSO F) (kappa start stop : ℕ) : Bool :=
  forDown start stop (fun j need => need || gt (abs (s.mu kappa j)) c.eta) false

/-- one step `j` of the reduction loop of `babai`, lll.cpp:204-221; the state is the object together
with `babai_mu` -/
def babaiStep (kappa start j : ℕ) (p : GSO F × (ℕ → F)) : GSO F × (ℕ → F) :=
  let x := rnd (p.2 j)
  if isZero x then p
  else
    (p.1.rowAddmulWe kappa j (neg x),
     forUp start j (fun k (bm : ℕ → F) => setAt bm k (sub (bm k) (mul x (p.1.mu j k)))) p.2)

/-- the reduction loop of `babai`, lll.cpp:197-222, including `row_op_end` -/
def babaiPass (s : GSO F) (kappa start stop : ℕ) : GSO F :=
  let bm := forUp start stop (fun j (bm : ℕ → F) => setAt bm j (s.mu kappa j)) (fun _ => nan)
  (forDown start stop (babaiStep kappa start) (s, bm)).1.rowOpEnd kappa (kappa + 1)

/-- `LLLReduction::babai(kappa, size_reduction_end, size_reduction_start)`, lll.cpp:166-224.
The `for (iter = 0;; iter++)` loop gets fuel; `maxExpo` and `iter` are its loop variables. -/
def babaiLoop (c : LLLCfg F) (kappa stop start : ℕ) : ℕ → ℕ → ℤ → GSO F → LLLStatus × GSO F
  | 0, _, _, s => (.outOfFuel, s)
  | fuel + 1, iter, maxExpo, s =>
    let p := s.updateGsoRow kappa stop
    if !p.1 then (.gsoFailure, p.2)
    else if !loopNeeded c p.2 kappa start stop then (.success, p.2)
    else if 2 ≤ iter then
      let newMax := maxMuExp p.2 kappa stop
      if maxExpo - sizeRedFailureThresh < newMax then (.babaiFailure, p.2)
      else babaiLoop c kappa stop start fuel (iter + 1) newMax (babaiPass p.2 kappa start stop)
    else babaiLoop c kappa stop start fuel (iter + 1) maxExpo (babaiPass p.2 kappa start stop)

/-- `LLLReduction::babai`, lll.cpp:166-224 -/
def babai (c : LLLCfg F) (fuel : ℕ) (s : GSO F) (kappa stop start : ℕ) : LLLStatus × GSO F :=
  babaiLoop c kappa stop start fuel 0 longMax s

/-- loop of `early_reduction`, lll.h:131-135, with `n` rows to go -/
def earlyLoop (c : LLLCfg F) (fuel start srs : ℕ) : ℕ → ℕ → GSO F → LLLStatus × GSO F
  | 0, _, s => (.success, s)
  | n + 1, i, s =>
    let p := babai c fuel s i start srs
    if p.1 = .success then earlyLoop c fuel start srs n (i + 1) p.2 else p

/-- `LLLReduction::early_reduction(start, size_reduction_start)`, lll.h:124-140: on a failure the
columns stay locked -/
def earlyReduction (c : LLLCfg F) (fuel : ℕ) (s : GSO F) (start srs : ℕ) : LLLStatus × GSO F :=
  let p := earlyLoop c fuel start srs (s.d - start) start s.lockCols
  if p.1 = .success then (.success, p.2.unlockCols) else p

/-- `b_row_is_zero(i)`, gso.h:186-189 -/
def rowIsZero (s : GSO F) (i : ℕ) : Bool := decide (∀ c < s.nCols, s.b i c = 0)

/-- loop variables of `lll` -/
structure LLLState (F : Type) where
  s : GSO F
  kappa : ℕ
  kappaMax : ℕ
  zeros : ℕ
  nSwaps : ℕ
  lastEarlyRed : ℕ

/-- the loop removing leading zero rows, lll.cpp:66-69; `n` bounds the remaining iterations
(`d - zeros`) -/
def zeroLoop (kmin kend : ℕ) : ℕ → ℕ → GSO F → ℕ × GSO F
  | 0, zeros, s => (zeros, s)
  | n + 1, zeros, s =>
    if rowIsZero s 0 then zeroLoop kmin kend n (zeros + 1) (s.moveRow kmin (kend - 1 - zeros))
    else (zeros, s)

/-- `lovasz_tests`, lll.cpp:107-112 (after `get_gram` has cached the entry) -/
def lovaszTests (s : GSO F) (kappa : ℕ) : ℕ → F :=
  forUp 1 (kappa + 1) (fun i (lov : ℕ → F) =>
    setAt lov i (sub (lov (i - 1)) (mul (s.mu kappa (i - 1)) (s.r kappa (i - 1)))))
    (setAt (fun _ => nan) 0 (s.gramVal kappa kappa))

/-- which entry of `lovasz_tests` is compared for a row at position `k`, lll.cpp:119, 131 -/
def testIdx (c : LLLCfg F) (k : ℕ) : ℕ := if c.siegel then k else k - 1

/-- the insertion loop, lll.cpp:124-133, started at `kappa` after the first decrement -/
def insertIdx (c : LLLCfg F) (s : GSO F) (lov : ℕ → F) (kmin : ℕ) : ℕ → ℕ
  | 0 => 0
  | k + 1 =>
    if kmin < k + 1 then
      if lt (mul (s.r k k) c.thr) (lov (testIdx c (k + 1))) then k + 1
      else insertIdx c s lov kmin k
    else k + 1

/-- `is_power_of_2`, lll.cpp:25 -/
def isPowerOf2 (i : ℕ) : Bool := (i &&& (i - 1)) == 0

/-- the part of the loop body after `babai`, lll.cpp:106-153 -/
def lovaszStep (c : LLLCfg F) (kmin kend : ℕ) (st : LLLState F) : LLLState F :=
  let s := st.s.cacheGram st.kappa st.kappa
  let lov := lovaszTests s st.kappa
  if gt (mul (s.r (st.kappa - 1) (st.kappa - 1)) c.thr) (lov (testIdx c st.kappa)) then
    let k := insertIdx c s lov kmin (st.kappa - 1)
    if gt (lov k) (ofInt 0) then
      { st with s := (s.moveRow st.kappa k).setR k k (lov k), kappa := k + 1, nSwaps := st.nSwaps + 1 }
    else
      { st with s := s.moveRow st.kappa (kend - (st.zeros + 1)), zeros := st.zeros + 1, nSwaps := st.nSwaps + 1 }
  else { st with s := s.setR st.kappa st.kappa (lov st.kappa), kappa := st.kappa + 1 }

/-- early reduction at the discovery of a new row, lll.cpp:82-98 -/
def discoverStep (c : LLLCfg F) (fuel srs : ℕ) (st : LLLState F) : LLLStatus × LLLState F :=
  if st.kappaMax < st.kappa then
    let st := { st with kappaMax := st.kappa }
    if c.earlyRedFlag && !st.s.intGram && isPowerOf2 st.kappa && decide (st.lastEarlyRed < st.kappa) then
      let p := earlyReduction c fuel st.s st.kappa srs
      if p.1 = .success then (.success, { st with s := p.2, lastEarlyRed := st.kappa })
      else (p.1, { st with s := p.2 })
    else (.success, st)
  else (.success, st)

/-- the main loop, lll.cpp:80-154, with `n` iterations left until `max_iter` -/
def mainLoop (c : LLLCfg F) (fuel kmin kend srs : ℕ) : ℕ → LLLState F → LLLStatus × LLLState F
  | 0, st => (.success, st)
  | n + 1, st =>
    if st.kappa < kend - st.zeros then
      let p := discoverStep c fuel srs st
      if p.1 ≠ .success then p
      else
        let q := babai c fuel p.2.s p.2.kappa p.2.kappa srs
        if q.1 ≠ .success then (q.1, { p.2 with s := q.2 })
        else mainLoop c fuel kmin kend srs n (lovaszStep c kmin kend { p.2 with s := q.2 })
    else (.success, st)

/-- second half of `startStep` -/
def startTail (kstart : ℕ) (p : LLLStatus × GSO F) : LLLStatus × GSO F :=
  if p.1 ≠ .success then p
  else
    let q := p.2.updateGsoRow kstart (kstart + 1)
    if q.1 then (.success, q.2) else (.startFailure, q.2)

/-- the start of `lll`, lll.cpp:71-76: size-reduce row `kappa_start` -/
def startStep (c : LLLCfg F) (fuel : ℕ) (s : GSO F) (kstart srs : ℕ) : LLLStatus × GSO F :=
  startTail kstart (if 0 < kstart then babai c fuel s kstart kstart srs else (.success, s))

/-- the end of `lll`, lll.cpp:155-163 -/
def lllFinish (kend : ℕ) (q : LLLStatus × LLLState F) : LLLStatus × LLLState F :=
  if q.1 ≠ .success then q
  else
    (if q.2.kappa < kend - q.2.zeros then .lllFailure else .success,
     { q.2 with s := if q.2.s.intGram then q.2.s.symmetrizeG else q.2.s })

/-- `lll` after its initial steps, lll.cpp:76-163 -/
def lllTail (c : LLLCfg F) (fuel maxIter kmin kend srs : ℕ) (st : LLLState F) (p : LLLStatus × GSO F) :
    LLLStatus × LLLState F :=
  if p.1 ≠ .success then (p.1, { st with s := p.2 })
  else lllFinish kend (mainLoop c fuel kmin kend srs maxIter { st with s := p.2 })

/-- `LLLReduction::lll(kappa_min, kappa_start, kappa_end, size_reduction_start)`, lll.cpp:44-164.
`maxIter` is the value computed from floating-point logarithms at lll.cpp:78-79, here arbitrary;
`lastEarlyRed` is the member left by earlier calls. -/
def lll (c : LLLCfg F) (fuel maxIter lastEarlyRed : ℕ) (s : GSO F) (kmin kstart kend srs : ℕ) :
    LLLStatus × LLLState F :=
  let z := zeroLoop kmin kend (kend - kmin) 0 s
  lllTail c fuel maxIter kmin kend srs
    { s := z.2, kappa := kstart + 1, kappaMax := 0, zeros := z.1, nSwaps := 0, lastEarlyRed := lastEarlyRed }
    (if z.1 < kend - kmin then startStep c fuel z.2 kstart srs else (.success, z.2))

/-- `LLLReduction::size_reduction(kappa_min, kappa_end, size_reduction_start)`, lll.h:106-122, with `n`
rows to go -/
def sizeReductionLoop (c : LLLCfg F) (fuel srs : ℕ) : ℕ → ℕ → GSO F → LLLStatus × GSO F
  | 0, _, s => (.success, s)
  | n + 1, k, s =>
    let p := startStep c fuel s k srs
    if p.1 = .success then sizeReductionLoop c fuel srs n (k + 1) p.2 else p

/-- `is_lll_reduced(m, delta, eta)`, lll.cpp:226-258: the return value (and the object with its
updated coefficients).  `m.update_gso()` may fail, its result is ignored. -/
def isLllReduced (s : GSO F) (delta eta : F) : Bool × GSO F :=
  let s := s.updateGso.2
  let sizeOk := forUp 0 s.d (fun i ok => forUp 0 i (fun j ok => ok && !gt (abs (s.mu i j)) eta) ok) true
  let lovOk := forUp 1 s.d (fun i ok =>
    ok && !lt (s.r i i) (mul (s.r (i - 1) (i - 1)) (sub delta (mul (s.mu i (i - 1)) (s.mu i (i - 1)))))) true
  (sizeOk && lovOk, s)

end LLL

end Fplll

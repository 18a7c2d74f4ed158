import Verif.Model.Householder
import Verif.Model.Wrapper

/-!
# Model of the class `HLLLReduction` and of `is_hlll_reduced` (fplll/hlll.h, fplll/hlll.cpp)

The main loop of `hlll` and the loop of `size_reduction` have no bound in the code; both take a step budget here and
running out of it is a distinct outcome.  Verbose output is left out.
-/

namespace Fplll

open HFloat

/-- the state of `HLLLReduction`, hlll.h:59-104 (`c`, `sr` are not used in the default build) -/
structure HL (F : Type) where
  delta : F
  eta : F
  theta : F
  m : HH F
  dR : ℕ → F
  eR : ℕ → F

namespace HL

variable {F : Type} [HFloat F]

/-- `compute_dR(k)`, hlll.h:148-153 -/
def computeDR (h : HL F) (k : ℕ) : HL F :=
  { h with dR := setAt h.dR k (mul h.delta (mul (h.m.R k k) (h.m.R k k))) }

/-- `compute_eR(k)`, hlll.h:155-159.  The code multiplies by `delta`, not by `eta`. -/
def computeER (h : HL F) (k : ℕ) : HL F :=
  { h with eR := setAt h.eR k (mul h.delta (h.m.R k k)) }

/-- `lovasz_test(k)`, hlll.cpp:175-240 -/
def lovaszTest (h : HL F) (k : ℕ) : Bool :=
  let q := h.m.normSquareRRow k 0 (k - 1)
  let f1 := sub (h.m.normSqB k) q.1
  let f1 := mul2si f1 (q.2 - 2 * h.m.rowExpo (k - 1))
  decide (fcmp (h.dR (k - 1)) f1 ≤ 0)

/-- the loop of `size_reduction`, hlll.cpp:316-352 -/
def sizeLoop (k stop start : ℕ) : ℕ → Bool → HH F → Option (HH F)
  | 0, _, _ => none
  | fuel + 1, prevNotStop, s =>
    let q := s.sizeReduce k stop start
    if q.1 = false then some q.2
    else
      let s := q.2
      let t0 := s.normSqB k
      let e0 := s.expoNormSqB k
      let s := s.refreshRBf k
      let t1 := s.normSqB k
      let e1 := s.expoNormSqB k
      let notStop := decide (fcmp t1 (mul2si (mul tenth t0) (e0 - e1)) ≤ 0)
      let s := s.updateR k false
      if prevNotStop || notStop then sizeLoop k stop start fuel notStop s else some s

/-- `size_reduction(kappa, end, start)`, hlll.cpp:261-353 -/
def sizeReduction (fuel : ℕ) (s : HH F) (k stop start : ℕ) : Option (HH F) :=
  let s := s.updateR k false
  sizeLoop k stop start fuel true { s with updatedR := false }

/-- one round of the loop of `verify_size_reduction`, hlll.cpp:463-486 -/
def verifyOne (h : HL F) (k : ℕ) (f1 : F) (i : ℕ) : Bool :=
  let f2 := add f1 (mul2si (h.eR i) (h.m.rowExpo i - h.m.rowExpo k))
  decide (¬ 0 < fcmp (abs (h.m.R k i)) f2)

/-- `verify_size_reduction(kappa)`, hlll.cpp:371-492.  `expo0` is the exponent of row `kappa`, whether or not row
exponents are enabled: without them it is 0. -/
def verifySizeReduction (h : HL F) (k : ℕ) : Bool :=
  let f1 := mul (h.m.normRRow k k h.m.n).1 h.theta
  forUp 0 k (fun i ok => ok && h.verifyOne k f1 i) true

/-- the local variables of the main loop, hlll.cpp:58-66 -/
structure St (F : Type) where
  h : HL F
  k : ℕ
  kMax : ℕ
  prevK : ℤ
  prevR : ℕ → F
  prevExpo : ℕ → ℤ

/-- result of one round of the main loop -/
inductive Res (F : Type)
  | next (st : St F)
  | done (s : Wrapper.RedStatus) (h : HL F)
  /-- an access outside the allocated rows or columns -/
  | ub
  | outOfFuel (h : HL F)

/-- the branch of the main loop after a successful Lovász test, hlll.cpp:85-134.  `update_R_last(k)` accesses column `k`. -/
def advance (st : St F) (h : HL F) : Res F :=
  let k := st.k
  if h.m.n ≤ k then .ub
  else
    let h := { h with m := h.m.updateRLast k }
    let h := h.computeDR k
    let h := h.computeER k
    if st.prevK = k + 1 ∧ 0 < fcmp (h.m.R k k) (mul2si (st.prevR k) (st.prevExpo k - h.m.rowExpo k)) then
      .done .hlllNormFailure h
    else
      let prevR := setAt st.prevR k (h.m.R k k)
      let prevExpo := setAt st.prevExpo k (h.m.rowExpo k)
      if k + 1 < h.m.d then
        if st.kMax < k + 1 then
          .next ⟨{ h with m := h.m.refreshRBf (k + 1) }, k + 1, k + 1, k, prevR, prevExpo⟩
        else .next ⟨{ h with m := h.m.refreshR (k + 1) }, k + 1, st.kMax, k, prevR, prevExpo⟩
      else .done .success h

/-- the branch of the main loop after a failed Lovász test, hlll.cpp:136-170 -/
def swapBack (st : St F) (h : HL F) : Res F :=
  let k := st.k
  let h := { h with m := h.m.swap (k - 1) k }
  if k - 1 = 0 then
    let h := { h with m := (h.m.refreshR 0).updateRLast 0 }
    let h := h.computeDR 0
    let h := h.computeER 0
    .next { st with h := { h with m := h.m.refreshR 1 }, k := 1, prevK := k }
  else .next { st with h := { h with m := h.m.recoverR (k - 1) }, k := k - 1, prevK := k }

/-- one round of the main loop, hlll.cpp:77-171 -/
def step (srFuel : ℕ) (st : St F) : Res F :=
  match sizeReduction srFuel st.h.m st.k st.k 0 with
  | none => .outOfFuel st.h
  | some m =>
    let h := { st.h with m := m }
    if h.verifySizeReduction st.k = false then .done .hlllSrFailure h
    else if h.lovaszTest st.k then advance st h
    else swapBack st h

/-- the main loop -/
def loop (srFuel : ℕ) : ℕ → St F → Res F
  | 0, st => .outOfFuel st.h
  | fuel + 1, st =>
    match step srFuel st with
    | .next st => loop srFuel fuel st
    | r => r

/-- the part of `hlll` before the main loop, hlll.cpp:46-75 -/
def start (h : HL F) (junk : ℕ → F) (junkE : ℕ → ℤ) : St F :=
  let h := { h with m := (h.m.refreshRBf 0).updateRLast 0 }
  let h := h.computeDR 0
  let h := h.computeER 0
  ⟨{ h with m := h.m.refreshRBf 1 }, 1, 1, -1, junk, junkE⟩

/-- `HLLLReduction::hlll()`, hlll.cpp:26-173.  The code refreshes row 1 unconditionally, hlll.cpp:75; for `d = 1` this
reads and writes outside the arrays.  Row 0 and column 0 exist when the function is called (see `zf`). -/
def hlll (srFuel fuel : ℕ) (h : HL F) (junk : ℕ → F) (junkE : ℕ → ℤ) : Res F :=
  if h.m.d < 2 then .ub else loop srFuel fuel (start h junk junkE)

/-- `hlll_reduction_zf`, wrapper.cpp:789-806, and the body of `Wrapper::call_hlll`, wrapper.cpp:411-425: with the method
`fast` row exponents and `HOUSEHOLDER_OP_FORCE_LONG` are on -/
def zf (srFuel fuel : ℕ) (fast : Bool) (delta eta theta : F) (d n : ℕ) (t : Gen.Triple) (junk : Mat F) : Res F :=
  let m := HH.mk0 d n fast t.u.isSome t.v.isSome fast t.b (t.u.getD fun _ _ => 0) (t.v.getD fun _ _ => 0) junk
  let h : HL F := ⟨delta, eta, theta, m, junk 0, junk 0⟩
  if d = 0 ∨ n = 0 then .done .success h else hlll srFuel fuel h (junk 0) fun _ => 0

/-- the matrices the caller sees when the object is gone -/
def out (t : Gen.Triple) (h : HL F) : Gen.Triple :=
  ⟨h.m.b, t.u.map fun _ => h.m.u, t.v.map fun _ => h.m.uInvT⟩

end HL

/-! ## `is_hlll_reduced` -/

namespace HNaive

variable {F : Type} [HFloat F]

/-- the size-reduction test for rows `j` and `i`, hlll.cpp:527-547 -/
def testSize (s : HNaive F) (eta theta : F) (j i : ℕ) : Bool :=
  let f1 := mul (s.R j j) theta
  let f2 := mul2si (mul (s.R i i) eta) (s.rowExpo i - s.rowExpo j)
  decide (¬ 0 < fcmp (abs (s.R j i)) (add f1 f2))

/-- the Lovász test for rows `i - 1` and `i`, hlll.cpp:553-583: only the last term is rescaled -/
def testLovasz (s : HNaive F) (delta : F) (i : ℕ) : Bool :=
  let f0 := mul (mul (s.R (i - 1) (i - 1)) (s.R (i - 1) (i - 1))) delta
  let f1 := mul (s.R i (i - 1)) (s.R i (i - 1))
  let f2 := mul2si (mul (s.R i i) (s.R i i)) (2 * s.rowExpo i - 2 * s.rowExpo (i - 1))
  decide (¬ 0 < fcmp f0 (add f1 f2))

/-- `is_hlll_reduced(m, delta, eta, theta)`, hlll.cpp:499-586; `true` is `RED_SUCCESS` -/
def isHlllReduced (expoOn : Bool) (d n : ℕ) (b : Mat ℤ) (delta eta theta : F) (junk : Mat F) : Bool :=
  let s := updateAll expoOn d n b junk
  forUp 0 d (fun j ok => forUp 0 j (fun i ok => ok && s.testSize eta theta j i) ok) true &&
    forUp 1 d (fun i ok => ok && s.testLovasz delta i) true

end HNaive

/-! ## The public functions -/

namespace Wrapper

open Gen

/-- `hlll_reduction_z` without `nolll`, wrapper.cpp:808-998, over a given behaviour of the individual runs -/
def hlllReductionZ (c : Cfg) (run : Runner) (fuel : ℕ) (a : Args) (m : Triple) (junk : Mat ℤ) :
    Outcome (RedStatus × Triple) :=
  match hlllChoice c.bld c.goodPrec a with
  | .abort => .abort
  | .wrapper =>
    match hlllReductionWrapper c run fuel m junk with
    | none => .outOfFuel
    | some r => .done r
  | .single ft p =>
    let q := lllReductionZf run c ⟨a.zt, ft, a.meth, if ft = .mpfr then p else 0, c.delta, c.eta,
      decide (a.meth = .fast)⟩ m
    .done (q.1, zerosFirst c.d c.n q.2)

/-- `hlll_reduction(b, u, u_inv, delta, eta, theta, c, method, float_type, precision, flags, false)`,
wrapper.cpp:1074-1087; the two other overloads are the cases `u = none`, `u_inv = none` -/
def hlllReduction (c : Cfg) (run : Runner) (fuel : ℕ) (a : Args) (m : Triple) (junk : Mat ℤ) :
    Outcome (RedStatus × Triple) :=
  match hlllReductionZ c run fuel a ⟨m.b, identityIf m.u, (identityIf m.v).map transposeMat⟩ junk with
  | .abort => .abort
  | .outOfFuel => .outOfFuel
  | .done (s, m') => .done (s, { m' with v := m'.v.map transposeMat })

end Wrapper
end Fplll

import Verif.Model.LLL

/-!
# Model of `MatGSOGram` (fplll/gso_gram.h, fplll/gso_gram.cpp) and of `LLLReduction` on it

`MatGSOGram` is the second implementation of `MatGSOInterface`: it is given the Gram matrix, a
`d × d` matrix `*gptr` owned by the caller, and never sees the vectors.  Its state is kept in the
record `GSO` with `intGram = true`.  The fields `b`, `nCols`, `nKnownCols`, `initRowSize`, `bf` and `gf`
are not members of `MatGSOGram`; no function below reads or writes them, and the theorems allow
arbitrary contents.  Methods of the base class that `MatGSOGram` does not override (`row_op_end`,
`update_gso_row`'s loop, `set_r`, `symmetrize_g`, …) are the ones of Model/GSO.lean, which with
`intGram = true` do not use these fields either.
-/

namespace Fplll

open FloatOps

variable {F : Type} [FloatOps F]

namespace Gram

open GSO

/-- Constructor `MatGSOGram(g, u, u_inv_t, GSO_INT_GRAM)`, gso_gram.h:75-92; any other value of
`flags` is rejected with an exception, so `row_op_force_long` is false.  `junk*` stand for the uninitialised
contents of `mu`, `r` (gso_gram.cpp:360-376) and for the fields which do not exist. -/
def mkG (d : ℕ) (withU withUinv : Bool) (g u uInvT junkZ : Mat ℤ) (junkF : Mat F) (junkN : ℕ) : GSO F :=
  { d := d, nCols := junkN, intGram := true, withU := withU, withUinv := withUinv
    forceLong := false, colsLocked := false, nKnownRows := 0, nSourceRows := 0
    nKnownCols := junkN, initRowSize := fun _ => junkN, b := junkZ, u := u, uInvT := uInvT
    g := g, bf := junkF, gf := junkF, mu := junkF, r := junkF, gsoValidCols := fun _ => 0 }

/-- `MatGSOGram::discover_row()`, gso_gram.cpp:24-39 -/
def discoverRow (s : GSO F) : GSO F :=
  let i := s.nKnownRows
  { s with
    nKnownRows := i + 1
    nSourceRows := if s.colsLocked then s.nSourceRows else i + 1
    gsoValidCols := setAt s.gsoValidCols i 0 }

/-- `MatGSOGram::row_add(i, j)`, gso_gram.cpp:51-78 -/
def rowAdd (s : GSO F) (i j : ℕ) : GSO F :=
  { s with
    u := if s.withU then setAt s.u i (vecAdd s.d (s.u i) (s.u j)) else s.u
    uInvT := if s.withU && s.withUinv then setAt s.uInvT j (vecSub s.d (s.uInvT j) (s.uInvT i)) else s.uInvT
    g :=
      let z := symGet s.g i j * 2
      let z := z + s.g j j
      gramAddLoop s.d i j (Mat.set s.g i i (s.g i i + z)) }

/-- `MatGSOGram::row_sub(i, j)`, gso_gram.cpp:80-105 -/
def rowSub (s : GSO F) (i j : ℕ) : GSO F :=
  { s with
    u := if s.withU then setAt s.u i (vecSub s.d (s.u i) (s.u j)) else s.u
    uInvT := if s.withU && s.withUinv then setAt s.uInvT j (vecAdd s.d (s.uInvT j) (s.uInvT i)) else s.uInvT
    g :=
      let z := symGet s.g i j * 2
      let z := s.g j j - z
      gramSubLoop s.d i j (Mat.set s.g i i (s.g i i + z)) }

/-- `MatGSOGram::row_addmul_si(i, j, x)`, gso_gram.cpp:107-142 -/
def rowAddmulSi (s : GSO F) (i j : ℕ) (x : ℤ) : GSO F :=
  { s with
    u := if s.withU then setAt s.u i (vecAddmulSi s.d (s.u i) (s.u j) x) else s.u
    uInvT := if s.withU && s.withUinv then setAt s.uInvT j (vecAddmulSi s.d (s.uInvT j) (s.uInvT i) (-x)) else s.uInvT
    g :=
      let z := symGet s.g i j * x
      let z := z * 2
      let g := Mat.set s.g i i (s.g i i + z)
      let z := g j j * x
      let z := z * x
      gramAddmulLoop s.d i j x (Mat.set g i i (g i i + z)) }

/-- `MatGSOGram::row_addmul_si_2exp(i, j, x, expo)`, gso_gram.cpp:144-181, and
`MatGSOGram::row_addmul_2exp(i, j, x, expo)`, gso_gram.cpp:183-225, the same over unbounded integers -/
def rowAddmul2exp (s : GSO F) (i j : ℕ) (x : ℤ) (expo : ℕ) : GSO F :=
  { s with
    u := if s.withU then setAt s.u i (vecAddmul2exp s.d (s.u i) (s.u j) x expo) else s.u
    uInvT := if s.withU && s.withUinv then setAt s.uInvT j (vecAddmul2exp s.d (s.uInvT j) (s.uInvT i) (-x) expo) else s.uInvT
    g :=
      let z := symGet s.g i j * x
      let z := z * 2 ^ (expo + 1)
      let g := Mat.set s.g i i (s.g i i + z)
      let z := g j j * x
      let z := z * x
      let z := z * 2 ^ (2 * expo)
      gramAddmul2expLoop s.d i j x expo (Mat.set g i i (g i i + z)) }

/-- `MatGSOGram::row_addmul_we(i, j, x, expo_add)`, gso_gram.cpp:227-252 -/
def rowAddmulWe (s : GSO F) (i j : ℕ) (x : F) : GSO F :=
  let lx := (getSiExp x).1
  let expo := (getSiExp x).2
  if expo = 0 then
    if lx = 1 then rowAdd s i j
    else if lx = -1 then rowSub s i j
    else if lx ≠ 0 then rowAddmulSi s i j lx
    else s
  else if s.forceLong then rowAddmul2exp s i j lx expo
  else rowAddmul2exp s i j (getZExp x).1 (getZExp x).2

/-- `MatGSOGram::row_swap(i, j)` for `i < j`, gso_gram.cpp:254-281 (an exception is thrown if `j < i`) -/
def rowSwap (s : GSO F) (i j : ℕ) : GSO F :=
  { s with
    u := if s.withU then swapAt s.u i j else s.u
    g := gramSwap s.g i j s.d }

/-- `MatGSOGram::move_row(old_r, new_r)` with `new_r < old_r`, gso_gram.cpp:286-313 -/
def moveRowUp (s : GSO F) (oldR newR : ℕ) : GSO F :=
  { s with
    gsoValidCols := rotateRightBySwap (s.invalidateFrom newR newR).gsoValidCols newR oldR
    mu := rotateRightBySwap s.mu newR oldR
    r := rotateRightBySwap s.r newR oldR
    u := if s.withU then rotateRightBySwap s.u newR oldR else s.u
    uInvT := if s.withU && s.withUinv then rotateRightBySwap s.uInvT newR oldR else s.uInvT
    g := Mat.rotateGramRight s.g newR oldR s.d }

/-- `MatGSOGram::move_row(old_r, new_r)` with `old_r < new_r`, gso_gram.cpp:316-357: the Gram matrix is
rotated inside the known rows only, although all its rows are in use -/
def moveRowDown (s : GSO F) (oldR newR : ℕ) : GSO F :=
  let s' := { s with
    gsoValidCols := rotateLeftBySwap (s.invalidateFrom oldR oldR).gsoValidCols oldR newR
    mu := rotateLeftBySwap s.mu oldR newR
    r := rotateLeftBySwap s.r oldR newR
    u := if s.withU then rotateLeftBySwap s.u oldR newR else s.u
    uInvT := if s.withU && s.withUinv then rotateLeftBySwap s.uInvT oldR newR else s.uInvT
    g := if oldR + 1 < s.nKnownRows then
        Mat.rotateGramLeft s.g oldR (min newR (s.nKnownRows - 1)) s.d else s.g }
  if s.nKnownRows ≤ newR ∧ oldR < s.nKnownRows then
    { s' with nKnownRows := s.nKnownRows - 1, nSourceRows := s.nKnownRows - 1 }
  else s'

/-- `MatGSOGram::move_row(old_r, new_r)`, gso_gram.cpp:283-358 -/
def moveRow (s : GSO F) (oldR newR : ℕ) : GSO F :=
  if newR < oldR then moveRowUp s oldR newR
  else if oldR < newR then moveRowDown s oldR newR
  else s

/-- `MatGSOGram::negate_row_of_b(i)`, gso_gram.h:217-232: neither `b`, which does not exist, nor `u` -/
def negateRowOfB (s : GSO F) (i : ℕ) : GSO F :=
  { s with g := forUp 0 s.d (fun j (g : Mat ℤ) =>
      if j ≠ i then symSet g i j (-(symGet g i j)) else g) s.g }

/-- `MatGSOInterface::update_gso_row(i, last_j)`, gso_interface.cpp:131-164, with the overridden
`discover_row`; the loop and `get_gram` (gso_gram.h:234-247) are those of Model/GSO.lean with `intGram = true`.
`lastJ1 = last_j + 1`. -/
def updateGsoRow (s : GSO F) (i lastJ1 : ℕ) : Bool × GSO F :=
  let s := if s.nKnownRows ≤ i then discoverRow s else s
  let j := s.gsoValidCols i
  updateGsoLoop i (lastJ1 - j) j s

/-- `vector_matrix_product(result, x, m)`, util.h, entry `j` of the result, for an `n`-row matrix -/
def vecMat (n : ℕ) (x : ℕ → ℤ) (m : Mat ℤ) (j : ℕ) : ℤ := forUp 0 n (fun i acc => acc + x i * m i j) 0

/-- `MatGSOGram::sqnorm_coordinates(sqnorm, coordinates)`, gso_gram.h:153-167: both triangles of the
matrix are read -/
def sqnormCoordinates (s : GSO F) (x : ℕ → ℤ) : ℤ :=
  forUp 0 s.d (fun i acc => acc + vecMat s.d x s.g i * x i) 0

/-! ### `LLLReduction` on a `MatGSOGram`

`LLLReduction` (lll.h, lll.cpp) calls the virtual functions of `MatGSOInterface`.  The definitions below
are those of Model/LLL.lean with the calls resolved to `MatGSOGram`.  Functions that only read `mu`, `r`
and `g` are shared. -/

/-- one step of the reduction loop of `babai`, lll.cpp:204-221 -/
def babaiStep (kappa start j : ℕ) (p : GSO F × (ℕ → F)) : GSO F × (ℕ → F) :=
  let x := rnd (p.2 j)
  if isZero x then p
  else
    (rowAddmulWe p.1 kappa j (neg x),
     forUp start j (fun k (bm : ℕ → F) => setAt bm k (sub (bm k) (mul x (p.1.mu j k)))) p.2)

/-- the reduction loop of `babai`, lll.cpp:197-222 -/
def babaiPass (s : GSO F) (kappa start stop : ℕ) : GSO F :=
  let bm := forUp start stop (fun j (bm : ℕ → F) => setAt bm j (s.mu kappa j)) (fun _ => nan)
  (forDown start stop (babaiStep kappa start) (s, bm)).1.rowOpEnd kappa (kappa + 1)

/-- the loop of `babai`, lll.cpp:172-223 -/
def babaiLoop (c : LLLCfg F) (kappa stop start : ℕ) : ℕ → ℕ → ℤ → GSO F → LLLStatus × GSO F
  | 0, _, _, s => (.outOfFuel, s)
  | fuel + 1, iter, maxExpo, s =>
    let p := updateGsoRow s kappa stop
    if !p.1 then (.gsoFailure, p.2)
    else if !LLL.loopNeeded c p.2 kappa start stop then (.success, p.2)
    else if 2 ≤ iter then
      let newMax := LLL.maxMuExp p.2 kappa stop
      if maxExpo - LLL.sizeRedFailureThresh < newMax then (.babaiFailure, p.2)
      else babaiLoop c kappa stop start fuel (iter + 1) newMax (babaiPass p.2 kappa start stop)
    else babaiLoop c kappa stop start fuel (iter + 1) maxExpo (babaiPass p.2 kappa start stop)

/-- `LLLReduction::babai`, lll.cpp:166-224 -/
def babai (c : LLLCfg F) (fuel : ℕ) (s : GSO F) (kappa stop start : ℕ) : LLLStatus × GSO F :=
  babaiLoop c kappa stop start fuel 0 LLL.longMax s

/-- `MatGSOGram::b_row_is_zero(i)`, gso_gram.h:185-197 -/
def rowIsZero (s : GSO F) (i : ℕ) : Bool := decide (s.g i i = 0)

/-- the loop removing leading zero rows, lll.cpp:66-69 -/
def zeroLoop (kmin kend : ℕ) : ℕ → ℕ → GSO F → ℕ × GSO F
  | 0, zeros, s => (zeros, s)
  | n + 1, zeros, s =>
    if rowIsZero s 0 then zeroLoop kmin kend n (zeros + 1) (moveRow s kmin (kend - 1 - zeros))
    else (zeros, s)

/-- the part of the loop body after `babai`, lll.cpp:106-153 -/
def lovaszStep (c : LLLCfg F) (kmin kend : ℕ) (st : LLL.LLLState F) : LLL.LLLState F :=
  let s := st.s
  let lov := LLL.lovaszTests s st.kappa
  if gt (mul (s.r (st.kappa - 1) (st.kappa - 1)) c.thr) (lov (LLL.testIdx c st.kappa)) then
    let k := LLL.insertIdx c s lov kmin (st.kappa - 1)
    if gt (lov k) (ofInt 0) then
      { st with s := (moveRow s st.kappa k).setR k k (lov k), kappa := k + 1, nSwaps := st.nSwaps + 1 }
    else
      { st with s := moveRow s st.kappa (kend - (st.zeros + 1)), zeros := st.zeros + 1, nSwaps := st.nSwaps + 1 }
  else { st with s := s.setR st.kappa st.kappa (lov st.kappa), kappa := st.kappa + 1 }

/-- `kappa_max = kappa` when a new row is discovered, lll.cpp:82-89.  `enable_early_red` is false because
`enable_int_gram` is true (lll.cpp:37), so nothing else happens. -/
def bumpMax (st : LLL.LLLState F) : LLL.LLLState F :=
  if st.kappaMax < st.kappa then { st with kappaMax := st.kappa } else st

/-- the main loop, lll.cpp:80-154, with `n` iterations left until `max_iter` -/
def mainLoop (c : LLLCfg F) (fuel kmin kend srs : ℕ) : ℕ → LLL.LLLState F → LLLStatus × LLL.LLLState F
  | 0, st => (.success, st)
  | n + 1, st =>
    if st.kappa < kend - st.zeros then
      let st := bumpMax st
      let q := babai c fuel st.s st.kappa st.kappa srs
      if q.1 ≠ .success then (q.1, { st with s := q.2 })
      else mainLoop c fuel kmin kend srs n (lovaszStep c kmin kend { st with s := q.2 })
    else (.success, st)

/-- second half of `startStep` -/
def startTail (kstart : ℕ) (p : LLLStatus × GSO F) : LLLStatus × GSO F :=
  if p.1 ≠ .success then p
  else
    let q := updateGsoRow p.2 kstart (kstart + 1)
    if q.1 then (.success, q.2) else (.startFailure, q.2)

/-- the start of `lll`, lll.cpp:71-76 -/
def startStep (c : LLLCfg F) (fuel : ℕ) (s : GSO F) (kstart srs : ℕ) : LLLStatus × GSO F :=
  startTail kstart (if 0 < kstart then babai c fuel s kstart kstart srs else (.success, s))

/-- `lll` after its initial steps, lll.cpp:76-163 -/
def lllTail (c : LLLCfg F) (fuel maxIter kmin kend srs : ℕ) (st : LLL.LLLState F) (p : LLLStatus × GSO F) :
    LLLStatus × LLL.LLLState F :=
  if p.1 ≠ .success then (p.1, { st with s := p.2 })
  else LLL.lllFinish kend (mainLoop c fuel kmin kend srs maxIter { st with s := p.2 })

/-- `LLLReduction::lll(kappa_min, kappa_start, kappa_end, size_reduction_start)`, lll.cpp:44-164, on a
`MatGSOGram`.  `maxIter` (lll.cpp:78-79, computed from `get_max_exp_of_b`, which is only approximated by
gso_gram.h:169-183) is arbitrary. -/
def lll (c : LLLCfg F) (fuel maxIter lastEarlyRed : ℕ) (s : GSO F) (kmin kstart kend srs : ℕ) :
    LLLStatus × LLL.LLLState F :=
  let z := zeroLoop kmin kend (kend - kmin) 0 s
  lllTail c fuel maxIter kmin kend srs
    { s := z.2, kappa := kstart + 1, kappaMax := 0, zeros := z.1, nSwaps := 0, lastEarlyRed := lastEarlyRed }
    (if z.1 < kend - kmin then startStep c fuel z.2 kstart srs else (.success, z.2))

end Gram

end Fplll

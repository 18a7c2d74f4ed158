import Verif.Model.Matrix
import Verif.Model.Float

/-!
# Model of `MatGSOInterface` / `MatGSO` (fplll/gso_interface.{h,cpp}, fplll/gso.{h,cpp})
-/

namespace Fplll

open FloatOps

/-- State of a `MatGSO<ZT, FT>` object together with the matrices it holds by
reference (gso.h:113-140, gso_interface.h:59-625).
Simplifications: `row_expo` is folded into `F`; temporaries are local. -/
structure GSO (F : Type) where
  /-- number of rows -/
  d : ℕ
  /-- `b.get_cols()` -/
  nCols : ℕ
  /-- `enable_int_gram` -/
  intGram : Bool
  /-- `enable_transform` -/
  withU : Bool
  /-- `enable_inverse_transform` -/
  withUinv : Bool
  /-- `row_op_force_long` -/
  forceLong : Bool
  colsLocked : Bool
  nKnownRows : ℕ
  nSourceRows : ℕ
  nKnownCols : ℕ
  initRowSize : ℕ → ℕ
  b : Mat ℤ
  u : Mat ℤ
  uInvT : Mat ℤ
  /-- integer Gram matrix, lower triangle -/
  g : Mat ℤ
  /-- floating-point copy of `b` -/
  bf : Mat F
  /-- floating-point Gram matrix, NaN when not computed -/
  gf : Mat F
  mu : Mat F
  r : Mat F
  gsoValidCols : ℕ → ℕ

namespace GSO

variable {F : Type} [FloatOps F]

/-- `dot_product` on floating-point vectors, numvect.h:385-395 (entry 0 is always read). -/
def dotF (n : ℕ) (v w : ℕ → F) : F :=
  forUp 1 n (fun i acc => add acc (mul (v i) (w i))) (mul (v 0) (w 0))

/-- `MatGSO::update_bf(i)`, gso.cpp:24-48 (branch without row exponents) -/
def updateBf (s : GSO F) (i : ℕ) : GSO F :=
  let n := max s.nKnownCols (s.initRowSize i)
  { s with bf := setAt s.bf i (forUp 0 n (fun j row => setAt row j (ofInt (s.b i j))) (s.bf i)) }

/-- `MatGSO::invalidate_gram_row(i)`, gso.cpp:50-54 -/
def invalidateGramRow (s : GSO F) (i : ℕ) : GSO F :=
  { s with gf := setAt s.gf i (forUp 0 (i + 1) (fun j row => setAt row j nan) (s.gf i)) }

/-- `MatGSOInterface::invalidate_gso_row(i, new_valid_cols)`, gso_interface.cpp:25-30 -/
def invalidateGsoRow (s : GSO F) (i newValid : ℕ) : GSO F :=
  { s with gsoValidCols := setAt s.gsoValidCols i (min (s.gsoValidCols i) newValid) }

/-- `MatGSO::size_increased()`, gso.cpp:368-403, for a freshly constructed object (`old_d = 0`). -/
def sizeIncreased (s : GSO F) : GSO F :=
  forUp 0 s.d (fun i s =>
    let s := { s with initRowSize := setAt s.initRowSize i (max (sizeNz (s.b i) s.nCols) 1) }
    if s.intGram then s
    else updateBf { s with bf := setAt s.bf i (fun _ => ofInt 0) } i) s

/-- Constructor `MatGSO(b, u, u_inv_t, flags)`, gso.h:113-130 and
gso_interface.h:59-120: nothing is known yet.  `junk*` stand for the
uninitialised contents of freshly allocated matrices. -/
def mk0 (d nCols : ℕ) (intGram withU withUinv forceLong : Bool) (b u uInvT : Mat ℤ)
    (junkZ : Mat ℤ) (junkF : Mat F) : GSO F :=
  sizeIncreased
    { d := d, nCols := nCols, intGram := intGram, withU := withU, withUinv := withUinv
      forceLong := forceLong, colsLocked := false, nKnownRows := 0, nSourceRows := 0
      nKnownCols := 0, initRowSize := fun _ => 0, b := b, u := u, uInvT := uInvT
      g := junkZ, bf := junkF, gf := junkF, mu := junkF, r := junkF, gsoValidCols := fun _ => 0 }

/-- `MatGSO::discover_row()`, gso.cpp:56-82 -/
def discoverRow (s : GSO F) : GSO F :=
  let i := s.nKnownRows
  let nKnownCols := if s.colsLocked then s.nKnownCols else max s.nKnownCols (s.initRowSize i)
  { s with
    nKnownRows := i + 1
    nSourceRows := if s.colsLocked then s.nSourceRows else i + 1
    nKnownCols := nKnownCols
    g := if s.intGram then
        setAt s.g i (forUp 0 (i + 1) (fun j row => setAt row j (dotZ nKnownCols (s.b i) (s.b j))) (s.g i))
      else s.g
    gf := if s.intGram then s.gf else (s.invalidateGramRow i).gf
    gsoValidCols := setAt s.gsoValidCols i 0 }

/-- `discover_all_rows`, gso_interface.h:761-765 -/
def discoverAllRows (s : GSO F) : GSO F := forUp s.nKnownRows s.d (fun _ s => s.discoverRow) s

/-- the loop over `k` in `row_add`, gso.cpp:101-103 -/
def gramAddLoop (n i j : ℕ) (g : Mat ℤ) : Mat ℤ :=
  forUp 0 n (fun k g => if k ≠ i then symSet g i k (symGet g i k + symGet g j k) else g) g

/-- `MatGSO::row_add(i, j)`, gso.cpp:84-105 -/
def rowAdd (s : GSO F) (i j : ℕ) : GSO F :=
  { s with
    b := setAt s.b i (vecAdd s.nKnownCols (s.b i) (s.b j))
    u := if s.withU then setAt s.u i (vecAdd s.d (s.u i) (s.u j)) else s.u
    uInvT := if s.withU && s.withUinv then setAt s.uInvT j (vecSub s.d (s.uInvT j) (s.uInvT i)) else s.uInvT
    g := if s.intGram then
        let z := symGet s.g i j * 2
        let z := z + s.g j j
        gramAddLoop s.nKnownRows i j (Mat.set s.g i i (s.g i i + z))
      else s.g }

/-- the loop over `k` in `row_sub`, gso.cpp:124-126 -/
def gramSubLoop (n i j : ℕ) (g : Mat ℤ) : Mat ℤ :=
  forUp 0 n (fun k g => if k ≠ i then symSet g i k (symGet g i k - symGet g j k) else g) g

/-- `MatGSO::row_sub(i, j)`, gso.cpp:107-128 -/
def rowSub (s : GSO F) (i j : ℕ) : GSO F :=
  { s with
    b := setAt s.b i (vecSub s.nKnownCols (s.b i) (s.b j))
    u := if s.withU then setAt s.u i (vecSub s.d (s.u i) (s.u j)) else s.u
    uInvT := if s.withU && s.withUinv then setAt s.uInvT j (vecAdd s.d (s.uInvT j) (s.uInvT i)) else s.uInvT
    g := if s.intGram then
        let z := symGet s.g i j * 2
        let z := s.g j j - z
        gramSubLoop s.nKnownRows i j (Mat.set s.g i i (s.g i i + z))
      else s.g }

/-- the loop over `k` in `row_addmul_si`, gso.cpp:152-158 -/
def gramAddmulLoop (n i j : ℕ) (x : ℤ) (g : Mat ℤ) : Mat ℤ :=
  forUp 0 n (fun k g => if k = i then g else symSet g i k (symGet g i k + symGet g j k * x)) g

/-- `MatGSO::row_addmul_si(i, j, x)`, gso.cpp:130-160 -/
def rowAddmulSi (s : GSO F) (i j : ℕ) (x : ℤ) : GSO F :=
  { s with
    b := setAt s.b i (vecAddmulSi s.nKnownCols (s.b i) (s.b j) x)
    u := if s.withU then setAt s.u i (vecAddmulSi s.d (s.u i) (s.u j) x) else s.u
    uInvT := if s.withU && s.withUinv then setAt s.uInvT j (vecAddmulSi s.d (s.uInvT j) (s.uInvT i) (-x)) else s.uInvT
    g := if s.intGram then
        let z := symGet s.g i j * x
        let z := z * 2
        let g := Mat.set s.g i i (s.g i i + z)
        let z := g j j * x
        let z := z * x
        gramAddmulLoop s.nKnownRows i j x (Mat.set g i i (g i i + z))
      else s.g }

/-- the loop over `k` in `row_addmul_si_2exp` / `row_addmul_2exp`, gso.cpp:186-193, 225-232 -/
def gramAddmul2expLoop (n i j : ℕ) (x : ℤ) (expo : ℕ) (g : Mat ℤ) : Mat ℤ :=
  forUp 0 n (fun k g => if k = i then g
    else symSet g i k (symGet g i k + symGet g j k * x * 2 ^ expo)) g

/-- `MatGSO::row_addmul_si_2exp(i, j, x, expo)`, gso.cpp:162-195, and
`MatGSO::row_addmul_2exp(i, j, x, expo)`, gso.cpp:197-234.  The two differ only in the
type of `x` (long / mpz), which is the same over unbounded integers. -/
def rowAddmul2exp (s : GSO F) (i j : ℕ) (x : ℤ) (expo : ℕ) : GSO F :=
  { s with
    b := setAt s.b i (vecAddmul2exp s.nKnownCols (s.b i) (s.b j) x expo)
    u := if s.withU then setAt s.u i (vecAddmul2exp s.d (s.u i) (s.u j) x expo) else s.u
    uInvT := if s.withU && s.withUinv then setAt s.uInvT j (vecAddmul2exp s.d (s.uInvT j) (s.uInvT i) (-x) expo) else s.uInvT
    g := if s.intGram then
        let z := symGet s.g i j * x
        let z := z * 2 ^ (expo + 1)
        let g := Mat.set s.g i i (s.g i i + z)
        let z := g j j * x
        let z := z * x
        let z := z * 2 ^ (2 * expo)
        gramAddmul2expLoop s.nKnownRows i j x expo (Mat.set g i i (g i i + z))
      else s.g }

/-- `MatGSO::row_addmul_we(i, j, x, expo_add)`, gso.cpp:236-262 -/
def rowAddmulWe (s : GSO F) (i j : ℕ) (x : F) : GSO F :=
  let lx := (getSiExp x).1
  let expo := (getSiExp x).2
  if expo = 0 then
    if lx = 1 then s.rowAdd i j
    else if lx = -1 then s.rowSub i j
    else if lx ≠ 0 then s.rowAddmulSi i j lx
    else s
  else if s.forceLong then s.rowAddmul2exp i j lx expo
  else s.rowAddmul2exp i j (getZExp x).1 (getZExp x).2

/-- Gram part of `row_swap`, gso.cpp:279-285 -/
def gramSwap (g : Mat ℤ) (i j n : ℕ) : Mat ℤ :=
  let g := forUp 0 i (fun k (g : Mat ℤ) => g.swapEntry i k j k) g
  let g := forUp (i + 1) j (fun k (g : Mat ℤ) => g.swapEntry k i j k) g
  let g := forUp (j + 1) n (fun k (g : Mat ℤ) => g.swapEntry k i k j) g
  Mat.swapEntry g i i j j

/-- `MatGSO::row_swap(i, j)` for `i < j`, gso.cpp:264-287 -/
def rowSwap (s : GSO F) (i j : ℕ) : GSO F :=
  { s with
    b := swapAt s.b i j
    u := if s.withU then swapAt s.u i j else s.u
    g := if s.intGram then gramSwap s.g i j s.nKnownRows else s.g }

/-- the invalidation loops at the start of `move_row`, gso.cpp:295-298, 324-327 -/
def invalidateFrom (s : GSO F) (first col : ℕ) : GSO F :=
  forUp first s.nKnownRows (fun i s => s.invalidateGsoRow i col) s

/-- `MatGSO::move_row(old_r, new_r)` with `new_r < old_r`, gso.cpp:292-321 -/
def moveRowUp (s : GSO F) (oldR newR : ℕ) : GSO F :=
  { s with
    gsoValidCols := rotateRightBySwap (s.invalidateFrom newR newR).gsoValidCols newR oldR
    mu := rotateRightBySwap s.mu newR oldR
    r := rotateRightBySwap s.r newR oldR
    b := rotateRightBySwap s.b newR oldR
    u := if s.withU then rotateRightBySwap s.u newR oldR else s.u
    uInvT := if s.withU && s.withUinv then rotateRightBySwap s.uInvT newR oldR else s.uInvT
    g := if s.intGram then Mat.rotateGramRight s.g newR oldR s.nKnownRows else s.g
    gf := if s.intGram then s.gf else Mat.rotateGramRight s.gf newR oldR s.nKnownRows
    bf := if s.intGram then s.bf else rotateRightBySwap s.bf newR oldR }

/-- `MatGSO::move_row(old_r, new_r)` with `old_r < new_r`, gso.cpp:322-353 (before the
adjustment of the number of known rows) -/
def moveRowDown (s : GSO F) (oldR newR : ℕ) : GSO F :=
  { s with
    gsoValidCols := rotateLeftBySwap (s.invalidateFrom oldR oldR).gsoValidCols oldR newR
    mu := rotateLeftBySwap s.mu oldR newR
    r := rotateLeftBySwap s.r oldR newR
    b := rotateLeftBySwap s.b oldR newR
    u := if s.withU then rotateLeftBySwap s.u oldR newR else s.u
    uInvT := if s.withU && s.withUinv then rotateLeftBySwap s.uInvT oldR newR else s.uInvT
    g := if s.intGram && decide (oldR + 1 < s.nKnownRows) then
        Mat.rotateGramLeft s.g oldR (min newR (s.nKnownRows - 1)) s.nKnownRows else s.g
    gf := if !s.intGram && decide (oldR + 1 < s.nKnownRows) then
        Mat.rotateGramLeft s.gf oldR (min newR (s.nKnownRows - 1)) s.nKnownRows else s.gf
    bf := if s.intGram then s.bf else rotateLeftBySwap s.bf oldR newR }

/-- `MatGSO::move_row`, gso.cpp:354-364: a row moved past the known rows is forgotten -/
def moveRowForget (s : GSO F) (oldR newR : ℕ) : GSO F :=
  if s.nKnownRows ≤ newR then
    let sizes := rotateLeftBySwap s.initRowSize oldR newR
    if oldR < s.nKnownRows then
      { s with
        nKnownRows := s.nKnownRows - 1
        nSourceRows := s.nKnownRows - 1
        initRowSize := setAt sizes newR (max (sizeNz (s.b newR) s.nCols) 1) }
    else { s with initRowSize := sizes }
  else s

/-- `MatGSO::move_row(old_r, new_r)`, gso.cpp:289-366 -/
def moveRow (s : GSO F) (oldR newR : ℕ) : GSO F :=
  if newR < oldR then s.moveRowUp oldR newR
  else if oldR < newR then (s.moveRowDown oldR newR).moveRowForget oldR newR
  else s

/-- the part of `row_op_end` for the floating-point Gram matrix, gso_interface.cpp:40-46 -/
def rowOpEndFloat (s : GSO F) (i : ℕ) : GSO F :=
  let s := s.updateBf i
  let s := s.invalidateGramRow i
  forUp (i + 1) s.nKnownRows (fun j s => { s with gf := Mat.set s.gf j i nan }) s

/-- body of the first loop of `row_op_end`, gso_interface.cpp:38-48 -/
def rowOpEndBody (s : GSO F) (i : ℕ) : GSO F :=
  (if s.intGram then s else s.rowOpEndFloat i).invalidateGsoRow i 0

/-- `MatGSOInterface::row_op_end(first, last)`, gso_interface.cpp:32-53 -/
def rowOpEnd (s : GSO F) (first last : ℕ) : GSO F :=
  let s := forUp first last (fun i s => s.rowOpEndBody i) s
  forUp last s.nKnownRows (fun i s => s.invalidateGsoRow i first) s

/-- `MatGSO::get_gram(f, i, j)`, gso.h:314-331: the entry is cached in `gf` -/
def cacheGram (s : GSO F) (i j : ℕ) : GSO F :=
  { s with gf := if !s.intGram && isNan (s.gf i j) then
      Mat.set s.gf i j (dotF s.nKnownCols (s.bf i) (s.bf j)) else s.gf }

/-- `MatGSO::get_gram(f, i, j)`, gso.h:314-331: the value (to be read after `cacheGram`) -/
def gramVal (s : GSO F) (i j : ℕ) : F := if s.intGram then ofInt (s.g i j) else s.gf i j

/-- `MatGSO::get_int_gram(z, i, j)`, gso.h:333-347 -/
def getIntGram (s : GSO F) (i j : ℕ) : ℤ :=
  if s.intGram then s.g i j else dotZ s.nKnownCols (s.b i) (s.b j)

/-- the inner loop over `k` in `update_gso_row`, gso_interface.cpp:147-151 -/
def gsoInner (mu r : Mat F) (i j : ℕ) (f : F) : F :=
  forUp 0 j (fun k f => sub f (mul (mu j k) (r i k))) f

/-- the loop over `j` in `update_gso_row`, gso_interface.cpp:143-161, with `n` columns to go -/
def updateGsoLoop (i : ℕ) : ℕ → ℕ → GSO F → Bool × GSO F
  | 0, j, s => (true, { s with gsoValidCols := setAt s.gsoValidCols i j })
  | n + 1, j, s =>
    let s := s.cacheGram i j
    let f := gsoInner s.mu s.r i j (s.gramVal i j)
    let s := { s with r := Mat.set s.r i j f }
    if j < i then
      let m := div f (s.r j j)
      let s := { s with mu := Mat.set s.mu i j m }
      if isFinite m then updateGsoLoop i n (j + 1) s else (false, s)
    else updateGsoLoop i n (j + 1) s

/-- `MatGSOInterface::update_gso_row(i, last_j)`, gso_interface.cpp:131-164.
`lastJ1 = last_j + 1` so that `last_j = -1` needs no negative numbers. -/
def updateGsoRow (s : GSO F) (i lastJ1 : ℕ) : Bool × GSO F :=
  let s := if s.nKnownRows ≤ i then s.discoverRow else s
  let j := s.gsoValidCols i
  updateGsoLoop i (lastJ1 - j) j s

/-- `MatGSOInterface::set_r(i, j, f)`, gso_interface.h:739-746 -/
def setR (s : GSO F) (i j : ℕ) (f : F) : GSO F :=
  { s with
    r := Mat.set s.r i j f
    gsoValidCols := if s.gsoValidCols i = j then setAt s.gsoValidCols i (j + 1) else s.gsoValidCols }

/-- `MatGSOInterface::lock_cols()`, gso_interface.cpp:166 -/
def lockCols (s : GSO F) : GSO F := { s with colsLocked := true }

/-- `MatGSOInterface::unlock_cols()`, gso_interface.cpp:168-172 -/
def unlockCols (s : GSO F) : GSO F := { s with nKnownRows := s.nSourceRows, colsLocked := false }

/-- `MatGSOInterface::symmetrize_g()`, gso_interface.h:632-646 -/
def symmetrizeG (s : GSO F) : GSO F :=
  let g := forUp 0 s.d (fun i (g : Mat ℤ) =>
    forUp 0 s.d (fun j (g : Mat ℤ) => Mat.set g i j (symGet g i j)) g) s.g
  { s with g := g }

/-- `MatGSO::negate_row_of_b(i)`, gso.h:291-312: touches `b` and `g`, not `u`, `bf` or `gf`. -/
def negateRowOfB (s : GSO F) (i : ℕ) : GSO F :=
  { s with
    b := setAt s.b i (forUp 0 s.nCols (fun j row => setAt row j (-(row j))) (s.b i))
    g := if s.intGram then
        forUp 0 s.d (fun j (g : Mat ℤ) =>
          if j < i then Mat.set g i j (-(g i j))
          else if i < j then Mat.set g j i (-(g j i)) else g) s.g
      else s.g }

/-- `MatGSOInterface::update_gso()`, gso_interface.h:767-776: all rows in order, stop at a failure -/
def updateGsoFrom : ℕ → ℕ → GSO F → Bool × GSO F
  | 0, _, s => (true, s)
  | n + 1, i, s =>
    let p := s.updateGsoRow i (i + 1)
    if p.1 then updateGsoFrom n (i + 1) p.2 else (false, p.2)

/-- `update_gso()`, gso_interface.h:767-776 -/
def updateGso (s : GSO F) : Bool × GSO F := updateGsoFrom s.d 0 s

end GSO

end Fplll

import Verif.Model.NumVect
import Verif.Model.Matrix

/-!
# Model of the class `MatHouseholder` (fplll/householder.h, fplll/householder.cpp)

`HFloat F` lists the operations of `FP_NR<FT>` used by HLLL and assumes nothing about them.  Row exponents
(`HOUSEHOLDER_ROW_EXPO`) are modelled.

The compile-time options `HOUSEHOLDER_PRECOMPUTE_INVERSE`, `HOUSEHOLDER_DEBUG`, `DEBUG`, `MODIFIED_LOVASZ_TEST`,
`HOUSEHOLDER_USE_SIZE_REDUCTION_TEST` and `HOUSEHOLDER_VERIFY_SIZE_REDUCTION_HPLLL` are off, as in the default build.

Simplifications: loops that set the entries of one row independently of each other are written as one function; the
members `n_known_rows`, `col_kept` and the temporaries only serve debug checks and scratch values and are left out;
`long` exponents and integers do not overflow.
-/

namespace Fplll

/-- Operations of `FP_NR<FT>` used by HLLL; no laws. -/
class HFloat (F : Type) where
  /-- `set_z` -/
  ofInt : ℤ → F
  /-- `Z_NR::get_f_exp(f, expo)` -/
  getFExp : ℤ → F × ℤ
  /-- `0.0` -/
  zero : F
  /-- `1.0` -/
  one : F
  /-- `-1.0` -/
  negOne : F
  /-- `0.1`, the constant `approx` of hlll.cpp:297 -/
  tenth : F
  add : F → F → F
  sub : F → F → F
  mul : F → F → F
  div : F → F → F
  /-- `acc.addmul(a, b)` -/
  addmul : F → F → F → F
  neg : F → F
  abs : F → F
  sqrt : F → F
  /-- `mul_2si` -/
  mul2si : F → ℤ → F
  /-- `cmp` -/
  fcmp : F → F → ℤ
  /-- `sgn` -/
  sgn : F → ℤ
  /-- `rnd_we` -/
  rndWe : F → ℤ → F
  /-- `get_si_exp_we(expo, expo_add)`: a machine integer and a non-negative exponent -/
  siExpWe : F → ℤ → ℤ × ℕ
  /-- `get_z_exp_we(z, expo, expo_add)`: an integer and a non-negative exponent -/
  zExpWe : F → ℤ → ℤ × ℕ

open HFloat

/-- `dot_product(f, v, w, beg, n)` on floats, numvect.h:385-395 -/
def dotF {F : Type} [HFloat F] (v w : ℕ → F) (beg n : ℕ) : F :=
  forUp (beg + 1) n (fun i acc => addmul acc (v i) (w i)) (mul (v beg) (w beg))

/-- `NumVect::addmul(v, x, beg, n)` on floats, numvect.h:300-305 -/
def addmulF {F : Type} [HFloat F] (r v : ℕ → F) (x : F) (beg n : ℕ) : ℕ → F :=
  fun c => if beg ≤ c ∧ c < n then addmul (r c) (v c) x else r c

/-- the state of `MatHouseholder`, householder.h:317-448 -/
structure HH (F : Type) where
  d : ℕ
  n : ℕ
  /-- `enable_row_expo` -/
  expoOn : Bool
  /-- `enable_transform` -/
  withU : Bool
  /-- `enable_inverse_transform` -/
  withUinv : Bool
  /-- `row_op_force_long` -/
  forceLong : Bool
  b : Mat ℤ
  u : Mat ℤ
  uInvT : Mat ℤ
  bf : Mat F
  R : Mat F
  V : Mat F
  sigma : ℕ → F
  rowExpo : ℕ → ℤ
  initRowSize : ℕ → ℕ
  nKnownCols : ℕ
  /-- `R_history` -/
  hist : ℕ → ℕ → ℕ → F
  /-- `updated_R` -/
  updatedR : Bool
  /-- `norm_square_b` -/
  normSqB : ℕ → F
  /-- `expo_norm_square_b` -/
  expoNormSqB : ℕ → ℤ

namespace HH

variable {F : Type} [HFloat F]

/-- the constructor, householder.h:69-141; `junk` is the content of the freshly allocated float arrays -/
def mk0 (d n : ℕ) (expoOn withU withUinv forceLong : Bool) (b u uInvT : Mat ℤ) (junk : Mat F) : HH F where
  d := d
  n := n
  expoOn := expoOn
  withU := withU
  withUinv := withUinv
  forceLong := forceLong
  b := b
  u := u
  uInvT := uInvT
  bf := junk
  R := junk
  V := junk
  sigma := junk 0
  rowExpo := fun _ => 0
  initRowSize := fun i => max (sizeNz (b i) n) 1
  nKnownCols := 0
  hist := fun _ => junk
  updatedR := false
  normSqB := junk 0
  expoNormSqB := fun _ => 0

/-- `update_R_last(i)`, householder.cpp:28-145 -/
def updateRLast (s : HH F) (i : ℕ) : HH F :=
  let sg := if fcmp (s.R i i) zero < 0 then (negOne : F) else one
  let s := { s with sigma := setAt s.sigma i sg }
  let rest := if i + 1 = s.n then zero else dotF (s.R i) (s.R i) (i + 1) s.n
  let all := add (mul (s.R i i) (s.R i i)) rest
  if fcmp all zero ≠ 0 then
    let nrm := sqrt all
    let f0 := mul sg nrm
    let f3 := div (neg rest) (add (s.R i i) f0)
    if fcmp f3 zero ≠ 0 then
      let f0 := sqrt (mul (neg f0) f3)
      let row := s.R i
      { s with
        V := setAt s.V i fun c => if c = i then div f3 f0 else if i < c ∧ c < s.n then div (row c) f0 else s.V i c
        R := setAt s.R i (setAt row i nrm) }
    else
      { s with
        V := setAt s.V i fun c => if i ≤ c ∧ c < s.n then zero else s.V i c
        R := setAt s.R i (setAt (s.R i) i (if fcmp (s.R i i) zero < 0 then neg (s.R i i) else s.R i i)) }
  else
    { s with
      V := setAt s.V i fun c => if i ≤ c ∧ c < s.n then zero else s.V i c
      R := setAt s.R i (setAt (s.R i) i zero) }

/-- one round of the loop of `update_R`, householder.cpp:160-177 -/
def updateRStep (i j : ℕ) (s : HH F) : HH F :=
  let f0 := neg (dotF (s.V j) (s.R i) j s.n)
  let r := addmulF (s.R i) (s.V j) f0 j s.n
  let r := setAt r j (mul (s.sigma j) (r j))
  { s with
    R := setAt s.R i r
    hist := setAt s.hist i (setAt (s.hist i) j fun c => if j ≤ c ∧ c < s.n then r c else s.hist i j c) }

/-- `update_R(i, last_j)`, householder.cpp:150-184 -/
def updateR (s : HH F) (i : ℕ) (lastJ : Bool) : HH F :=
  if s.updatedR then s
  else
    let s := forUp 0 i (updateRStep i) s
    if lastJ then updateRLast s i else s

/-- the exponent of row `i` in `refresh_R_bf` and `update_R_naively`, householder.cpp:195-206 and 273-281: the maximum
over the first `m` columns -/
def maxExpo (F : Type) [HFloat F] (row : ℕ → ℤ) (m : ℕ) : ℤ :=
  forUp 1 m (fun j e => max e (getFExp (F := F) (row j)).2) (getFExp (F := F) (row 0)).2

/-- `norm_square_b_row(f, k, expo)`, householder.h:538-551 -/
def normSquareBRow (s : HH F) (k : ℕ) : F × ℤ :=
  (dotF (s.bf k) (s.bf k) 0 s.nKnownCols, if s.expoOn then 2 * s.rowExpo k else 0)

/-- `refresh_R_bf(i)`, householder.cpp:186-241 -/
def refreshRBf (s : HH F) (i : ℕ) : HH F :=
  let s := { s with nKnownCols := max s.nKnownCols (s.initRowSize i) }
  let e := maxExpo F (s.b i) s.nKnownCols
  let row : ℕ → F := fun c =>
    if c < s.nKnownCols then
      if s.expoOn then
        let q := getFExp (F := F) (s.b i c)
        mul2si q.1 (q.2 - e)
      else ofInt (s.b i c)
    else if c < s.n then zero else s.bf i c
  let s :=
    { s with
      bf := setAt s.bf i row
      rowExpo := if s.expoOn then setAt s.rowExpo i e else s.rowExpo
      R := setAt s.R i fun c => if c < s.nKnownCols then row c else if c < s.n then zero else s.R i c }
  let q := s.normSquareBRow i
  { s with normSqB := setAt s.normSqB i q.1, expoNormSqB := setAt s.expoNormSqB i q.2 }

/-- `refresh_R(i)`, householder.cpp:243-258 -/
def refreshR (s : HH F) (i : ℕ) : HH F :=
  { s with R := setAt s.R i fun c => if c < s.nKnownCols then s.bf i c else if c < s.n then zero else s.R i c }

/-- `recover_R(i)`, householder.h:597-608 (`i ≥ 1`) -/
def recoverR (s : HH F) (i : ℕ) : HH F :=
  { s with
    R := setAt s.R i fun c =>
      if c < i - 1 then s.hist i c c else if c < s.n then s.hist i (i - 1) c else s.R i c
    updatedR := true }

/-- `swap(i, j)`, householder.cpp:371-398 -/
def swap (s : HH F) (i j : ℕ) : HH F :=
  { s with
    b := swapAt s.b i j
    bf := swapAt s.bf i j
    sigma := swapAt s.sigma i j
    rowExpo := if s.expoOn then swapAt s.rowExpo i j else s.rowExpo
    initRowSize := swapAt s.initRowSize i j
    hist := swapAt s.hist i j
    u := if s.withU then swapAt s.u i j else s.u
    uInvT := if s.withU then (if s.withUinv then swapAt s.uInvT i j else s.uInvT) else s.uInvT
    normSqB := swapAt s.normSqB i j
    expoNormSqB := swapAt s.expoNormSqB i j }

/-- `u` and `u_inv_t` after a row operation that adds to row `i` and subtracts from row `j` of the dual -/
def track (s : HH F) (i j : ℕ) (up dn : (ℕ → ℤ) → (ℕ → ℤ) → ℕ → ℤ) : HH F :=
  if s.withU then
    { s with
      u := setAt s.u i (up (s.u i) (s.u j))
      uInvT := if s.withUinv then setAt s.uInvT j (dn (s.uInvT j) (s.uInvT i)) else s.uInvT }
  else s

/-- `row_add(i, j)`, householder.cpp:455-465 -/
def rowAdd (s : HH F) (i j : ℕ) : HH F :=
  let s := { s with b := setAt s.b i (vecAdd s.nKnownCols (s.b i) (s.b j)) }
  s.track i j (vecAdd s.d) (vecSub s.d)

/-- `row_sub(i, j)`, householder.cpp:467-477 -/
def rowSub (s : HH F) (i j : ℕ) : HH F :=
  let s := { s with b := setAt s.b i (vecSub s.nKnownCols (s.b i) (s.b j)) }
  s.track i j (vecSub s.d) (vecAdd s.d)

/-- `row_addmul_si(i, j, x)`, householder.cpp:479-489 -/
def rowAddmulSi (s : HH F) (i j : ℕ) (x : ℤ) : HH F :=
  let s := { s with b := setAt s.b i (vecAddmulSi s.nKnownCols (s.b i) (s.b j) x) }
  s.track i j (fun v w => vecAddmulSi s.d v w x) (fun v w => vecAddmulSi s.d v w (-x))

/-- `row_addmul_si_2exp(i, j, x, expo)`, householder.cpp:491-502, and `row_addmul_2exp(i, j, x, expo)`,
householder.cpp:504-520 -/
def rowAddmul2exp (s : HH F) (i j : ℕ) (x : ℤ) (expo : ℕ) : HH F :=
  let s := { s with b := setAt s.b i (vecAddmul2exp s.nKnownCols (s.b i) (s.b j) x expo) }
  s.track i j (fun v w => vecAddmul2exp s.d v w x expo) (fun v w => vecAddmul2exp s.d v w (-x) expo)

/-- the integer part of `row_addmul_we(i, j, x, expo_add)`, householder.cpp:529-549 -/
def rowAddmulWeZ (s : HH F) (i j : ℕ) (x : F) (expoAdd : ℤ) : HH F :=
  let q := siExpWe x expoAdd
  if q.2 = 0 then
    if q.1 = 1 then s.rowAdd i j
    else if q.1 = -1 then s.rowSub i j
    else if q.1 ≠ 0 then s.rowAddmulSi i j q.1
    else s
  else if s.forceLong then s.rowAddmul2exp i j q.1 q.2
  else
    let z := zExpWe x expoAdd
    s.rowAddmul2exp i j z.1 z.2

/-- `row_addmul_we(i, j, x, expo_add)`, householder.cpp:522-559 -/
def rowAddmulWe (s : HH F) (i j : ℕ) (x : F) (expoAdd : ℤ) : HH F :=
  let s := s.rowAddmulWeZ i j x expoAdd
  let row : ℕ → F := fun c =>
    if c < i then
      if fcmp x one = 0 then add (s.R i c) (s.R j c)
      else if fcmp x negOne = 0 then sub (s.R i c) (s.R j c)
      else addmul (s.R i c) (s.R j c) x
    else s.R i c
  { s with R := setAt s.R i row }

/-- one round of the loop of `size_reduce`, householder.cpp:409-434 -/
def sizeReduceStep (k i : ℕ) (q : Bool × HH F) : Bool × HH F :=
  let s := q.2
  let x := neg (rndWe (div (s.R k i) (s.R i i)) (s.rowExpo k - s.rowExpo i))
  if sgn x ≠ 0 then (true, s.rowAddmulWe k i x (s.rowExpo k - s.rowExpo i)) else q

/-- `size_reduce(k, size_reduction_end, size_reduction_start)`, householder.cpp:402-451 -/
def sizeReduce (s : HH F) (k stop start : ℕ) : Bool × HH F :=
  forDown start stop (sizeReduceStep k) (false, s)

/-- `norm_square_R_row(f, k, beg, end, expo)`, householder.h:553-568 -/
def normSquareRRow (s : HH F) (k beg stop : ℕ) : F × ℤ :=
  (if stop = beg then zero else dotF (s.R k) (s.R k) beg stop, if s.expoOn then 2 * s.rowExpo k else 0)

/-- `norm_R_row(f, k, beg, end, expo)`, householder.h:571-588 -/
def normRRow (s : HH F) (k beg stop : ℕ) : F × ℤ :=
  (if stop = beg then zero else sqrt (dotF (s.R k) (s.R k) beg stop), if s.expoOn then s.rowExpo k else 0)

/-! ## The naive computation used by `is_hlll_reduced` -/

end HH

/-- `R_naively`, `V_naively`, `sigma_naively`, `row_expo_naively`, householder.h:470-497 -/
structure HNaive (F : Type) where
  R : Mat F
  V : Mat F
  sigma : ℕ → F
  rowExpo : ℕ → ℤ

namespace HNaive

variable {F : Type} [HFloat F]

/-- one round of the loop of `update_R_naively(i)`, householder.cpp:298-309 -/
def houseStep (n i j : ℕ) (s : HNaive F) : HNaive F :=
  let f0 := neg (dotF (s.V j) (s.R i) j n)
  let r := addmulF (s.R i) (s.V j) f0 j n
  { s with R := setAt s.R i (setAt r j (mul (s.sigma j) (r j))) }

/-- the part of `update_R_naively(i)` after the loop, householder.cpp:311-366 -/
def houseLast (n i : ℕ) (s : HNaive F) : HNaive F :=
  let row := s.R i
  let sg := if fcmp (row i) zero < 0 then (negOne : F) else one
  let s := { s with sigma := setAt s.sigma i sg }
  let f2 := mul (sqrt (dotF row row i n)) sg
  let f0 := add (row i) f2
  if fcmp f0 zero ≠ 0 then
    let f1 := if i + 1 = n then zero else dotF row row (i + 1) n
    if fcmp f1 zero ≠ 0 then
      let v := div (neg f1) f0
      let f2 := neg f2
      let f0 := sqrt (mul f2 v)
      { s with
        V := setAt s.V i fun c => if i ≤ c ∧ c < n then div (if c = i then v else row c) f0 else s.V i c
        R := setAt s.R i fun c => if c = i then abs f2 else if i < c ∧ c < n then zero else row c }
    else
      { s with
        V := setAt s.V i fun c => if i ≤ c ∧ c < n then zero else s.V i c
        R := setAt s.R i fun c =>
          if c = i then (if fcmp (row i) zero < 0 then neg (row i) else row i)
          else if i < c ∧ c < n then zero else row c }
  else
    { s with
      V := setAt s.V i fun c => if i ≤ c ∧ c < n then zero else s.V i c
      R := setAt s.R i fun c => if i ≤ c ∧ c < n then zero else row c }

/-- `update_R_naively(i)`, householder.cpp:260-369 -/
def updateRow (expoOn : Bool) (n : ℕ) (b : Mat ℤ) (i : ℕ) (s : HNaive F) : HNaive F :=
  let e := HH.maxExpo F (b i) n
  let row : ℕ → F := fun c =>
    if c < n then
      if expoOn then
        let q := getFExp (F := F) (b i c)
        mul2si q.1 (q.2 - e)
      else ofInt (b i c)
    else s.R i c
  let s := { s with R := setAt s.R i row, rowExpo := if expoOn then setAt s.rowExpo i e else s.rowExpo }
  houseLast n i (forUp 0 i (houseStep n i) s)

/-- `update_R_naively()`, householder.h:632-636, on a fresh object -/
def updateAll (expoOn : Bool) (d n : ℕ) (b : Mat ℤ) (junk : Mat F) : HNaive F :=
  forUp 0 d (updateRow expoOn n b) ⟨junk, junk, junk 0, fun _ => 0⟩

end HNaive
end Fplll

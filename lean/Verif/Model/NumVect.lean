import Verif.Base.Loops

/-!
# Model of `fplll/nr/numvect.h`

A `vector<T>` / `NumVect<T>` is a total function `ℕ → α`; entries beyond the size
are never touched by the operations below when their index arguments are in
range.  (Simplification: the size is carried by the caller.)
-/

namespace Fplll

variable {α : Type*}

/-- `v[i] = x` -/
def setAt (v : ℕ → α) (i : ℕ) (x : α) : ℕ → α := fun k => if k = i then x else v k

/-- `v[i].swap(v[j])` (used throughout numvect.h and matrix.cpp) -/
def swapAt (v : ℕ → α) (i j : ℕ) : ℕ → α := fun k => if k = i then v j else if k = j then v i else v k

/-- `reverse_by_swap(v, first, last)`, numvect.h:34-38.
Simplification: the inclusive bound `last` is passed as the exclusive bound
`e = last + 1`, so that `last = first - 1 = -1` needs no negative numbers. -/
def reverseBySwap (v : ℕ → α) (first e : ℕ) : ℕ → α :=
  if first + 1 < e then reverseBySwap (swapAt v first (e - 1)) (first + 1) (e - 1) else v
termination_by e - first

/-- the middle loop of `rotate_by_swap`, numvect.h:46-49 followed by lines 50-53 -/
def rotateLoop (v : ℕ → α) (first middle e : ℕ) : ℕ → α :=
  if first < middle ∧ middle < e then rotateLoop (swapAt v first (e - 1)) (first + 1) middle (e - 1)
  else if first = middle then reverseBySwap v middle e else reverseBySwap v first middle
termination_by middle - first

/-- `rotate_by_swap(v, first, middle, last)`, numvect.h:41-54, with `e = last + 1`. -/
def rotateBySwap (v : ℕ → α) (first middle e : ℕ) : ℕ → α :=
  rotateLoop (reverseBySwap (reverseBySwap v first middle) middle e) first middle e

/-- `rotate_left_by_swap(v, first, last)`, numvect.h:57-64 -/
def rotateLeftBySwap (v : ℕ → α) (first last : ℕ) : ℕ → α :=
  forUp first last (fun i v => swapAt v i (i + 1)) v

/-- `rotate_right_by_swap(v, first, last)`, numvect.h:67-74 -/
def rotateRightBySwap (v : ℕ → α) (first last : ℕ) : ℕ → α :=
  forDown first last (fun i v => swapAt v i (i + 1)) v

/-- `NumVect::add(v, n)`, numvect.h:268-273: only the first `n` entries change. -/
def vecAdd (n : ℕ) (v w : ℕ → ℤ) : ℕ → ℤ :=
  forDown 0 n (fun i v => setAt v i (v i + w i)) v

/-- `NumVect::sub(v, n)`, numvect.h:275-280 -/
def vecSub (n : ℕ) (v w : ℕ → ℤ) : ℕ → ℤ :=
  forDown 0 n (fun i v => setAt v i (v i - w i)) v

/-- `NumVect::addmul_si(v, x, n)`, numvect.h:324-329 -/
def vecAddmulSi (n : ℕ) (v w : ℕ → ℤ) (x : ℤ) : ℕ → ℤ :=
  forDown 0 n (fun i v => setAt v i (v i + w i * x)) v

/-- `NumVect::addmul_si_2exp(v, x, expo, n, tmp)`, numvect.h:331-341 and
`NumVect::addmul_2exp(v, x, expo, n, tmp)`, numvect.h:312-322.  Over unbounded
integers both multiply by `x * 2^expo`; the exponent is never negative there
(it comes from `get_si_exp_we` / `get_z_exp_we`). -/
def vecAddmul2exp (n : ℕ) (v w : ℕ → ℤ) (x : ℤ) (expo : ℕ) : ℕ → ℤ :=
  forDown 0 n (fun i v => setAt v i (v i + w i * x * 2 ^ expo)) v

/-- `NumVect::is_zero(fromCol)`, numvect.h:361-369, for a vector of size `n` -/
def vecIsZero (n : ℕ) (v : ℕ → ℤ) (fromCol : ℕ := 0) : Bool :=
  forUp fromCol n (fun i ok => ok && v i == 0) true

/-- `NumVect::size_nz()`, numvect.h:371-380, for a vector of size `n` -/
def sizeNz (v : ℕ → ℤ) : ℕ → ℕ
  | 0 => 0
  | i + 1 => if v i ≠ 0 then i + 1 else sizeNz v i

/-- `dot_product(result, v1, v2, n)` on integers, numvect.h:385-402.
Simplification: for `n = 0` the C++ code reads entry 0; here the result is 0. -/
def dotZ (n : ℕ) (v w : ℕ → ℤ) : ℤ :=
  if n = 0 then 0 else forUp 1 n (fun i acc => acc + v i * w i) (v 0 * w 0)

end Fplll

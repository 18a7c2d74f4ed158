import Verif.Model.NumVect

/-!
# Model of the index manipulating parts of `fplll/nr/matrix.h`, `matrix.cpp`

A matrix is a total function of row and column index.
-/

namespace Fplll

/-- Contents of a `Matrix<T>`: row index, then column index. -/
abbrev Mat (α : Type*) := ℕ → ℕ → α

variable {α : Type*}

/-- `m(i, j) = x` -/
def Mat.set (m : Mat α) (i j : ℕ) (x : α) : Mat α := setAt m i (setAt (m i) j x)

/-- `m(i, j).swap(m(k, l))` -/
def Mat.swapEntry (m : Mat α) (i j k l : ℕ) : Mat α := (m.set i j (m k l)).set k l (m i j)

/-- `Matrix::rotate_gram_left(first, last, n_valid_rows)`, matrix.cpp:65-78 -/
def Mat.rotateGramLeft (m : Mat α) (first last nValid : ℕ) : Mat α :=
  let m : Mat α := m.swapEntry first first first last
  let m : Mat α := forUp first last (fun i (m : Mat α) => m.swapEntry (i + 1) first first i) m
  let m : Mat α := forUp first nValid (fun i (m : Mat α) => setAt m i (rotateLeftBySwap (m i) first (min last i))) m
  rotateLeftBySwap m first last

/-- `Matrix::rotate_gram_right(first, last, n_valid_rows)`, matrix.cpp:80-93 -/
def Mat.rotateGramRight (m : Mat α) (first last nValid : ℕ) : Mat α :=
  let m : Mat α := rotateRightBySwap m first last
  let m : Mat α := forUp first nValid (fun i (m : Mat α) => setAt m i (rotateRightBySwap (m i) first (min last i))) m
  let m : Mat α := forUp first last (fun i (m : Mat α) => m.swapEntry (i + 1) first first i) m
  m.swapEntry first first first last

/-- `MatGSOInterface::sym_g(i, j)` used as an rvalue, gso_interface.h:664-672 -/
def symGet (g : Mat α) (i j : ℕ) : α := if j ≤ i then g i j else g j i

/-- assignment through `MatGSOInterface::sym_g(i, j)`, gso_interface.h:664-672 -/
def symSet (g : Mat α) (i j : ℕ) (x : α) : Mat α := if j ≤ i then g.set i j x else g.set j i x

end Fplll

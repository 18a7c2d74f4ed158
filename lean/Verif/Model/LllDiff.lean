import Verif.Model.Matrix

/-!
# `llldiff` (fplll/llldiff.cpp), the program that compares two bases up to the signs of the rows
-/

namespace Fplll
namespace LllDiff

/-- The body of the row loop, llldiff.cpp:31-69: `sg` from the first column, then all other columns. -/
def rowTest (c : ℕ) (v w : ℕ → ℤ) (test : Bool) : Bool :=
  let tmp1 := |v 0|
  let tmp2 := |w 0|
  let test := if tmp1 ≠ tmp2 then false else test
  let sg : ℤ := 1
  let sg := if tmp1 ≠ v 0 then sg * -1 else sg
  let sg := if tmp1 ≠ w 0 then sg * -1 else sg
  if sg = 1 then forUp 1 c (fun j t => if v j ≠ w j then false else t) test
  else forUp 1 c (fun j t => if v j * -1 ≠ w j then false else t) test

/-- `llldiff(B1, B2, c, r)`, llldiff.cpp:25-72 -/
def llldiff (B1 B2 : Mat ℤ) (c r : ℕ) : Bool := forUp 0 r (fun i t => rowTest c (B1 i) (B2 i) t) true

/-- what `main` does with two matrices -/
inductive Outcome where
  | same       -- exit code 0
  | different  -- "===INVALID RESULT===", exit code 1
  | outOfBounds -- entries outside of a matrix are read
deriving DecidableEq, Repr

/-- `main`, llldiff.cpp:118-128, after both matrices are read: the dimensions are those of the first one.  The read outside
of `mat2` is the first thing that goes wrong, so one outcome stands for it. -/
def main (r1 c1 : ℕ) (mat1 : Mat ℤ) (r2 c2 : ℕ) (mat2 : Mat ℤ) : Outcome :=
  if 0 < r1 ∧ (c1 = 0 ∨ r2 < r1 ∨ c2 < c1) then .outOfBounds
  else if llldiff mat1 mat2 c1 r1 then .same else .different

end LllDiff
end Fplll

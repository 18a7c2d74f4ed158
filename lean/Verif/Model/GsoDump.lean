import Verif.Model.GSO

/-!
# Dumping the Gram-Schmidt coefficients

`dump_mu_d` and `dump_r_d`, gso_interface.h:791-860, four functions.  The exponents of `GSO_ROW_EXPO` are part of the numbers, and the conversion to `double` is left out.  `none`: undefined behaviour, either an access outside of the matrices or an
overflow of `int`.  The matrices have `alloc_dim` rows, which is the number of rows unless rows were removed.
-/

namespace Fplll
namespace GSO

variable {F : Type}

/-- the size of the block, gso_interface.h:795-798 -/
def dumpSize (rows blockSize : ℤ) : ℤ := if blockSize ≤ 0 then rows else blockSize

/-- some of the rows `offset, …, offset + size - 1` do not exist -/
def dumpOutside (rows offset size : ℤ) : Prop := 0 < size ∧ (offset < 0 ∨ rows < offset + size)

instance (rows offset size : ℤ) : Decidable (dumpOutside rows offset size) := by unfold dumpOutside; infer_instance

/-- the largest `int` -/
def intMax : ℤ := 2 ^ 31 - 1

/-- `dump_mu_d(double *mu, offset, block_size)`, gso_interface.h:791-808 -/
def dumpMuPtr (s : GSO F) (mu : ℕ → F) (offset blockSize : ℤ) : Option (ℕ → F) :=
  let size := dumpSize s.d blockSize
  if dumpOutside s.d offset size then none
  else if intMax < size * size - 1 then none
  else
    some (forUp 0 size.toNat (fun i mu => forUp 0 size.toNat (fun j mu => setAt mu (i * size.toNat + j) (s.mu (offset.toNat + i) (offset.toNat + j))) mu) mu)

/-- `dump_mu_d(vector<double> mu, offset, block_size)`, gso_interface.h:810-828: what the caller's vector is afterwards.  The parameter is a copy. -/
def dumpMuVec (s : GSO F) (mu : List F) (offset blockSize : ℤ) : Option (List F) :=
  let size := dumpSize s.d blockSize
  if intMax < size * size then none
  else if dumpOutside s.d offset size then none
  else
    let _copy := forUp 0 size.toNat (fun i (mu : List F) => forUp 0 size.toNat (fun j mu => mu ++ [s.mu (offset.toNat + i) (offset.toNat + j)]) mu) mu
    some mu

/-- `dump_r_d(double *r, offset, block_size)`, gso_interface.h:830-844 -/
def dumpRPtr (s : GSO F) (r : ℕ → F) (offset blockSize : ℤ) : Option (ℕ → F) :=
  let size := dumpSize s.d blockSize
  if dumpOutside s.d offset size then none
  else some (forUp 0 size.toNat (fun i r => setAt r i (s.r (offset.toNat + i) (offset.toNat + i))) r)

/-- `dump_r_d(vector<double> &r, offset, block_size)`, gso_interface.h:846-860: the size reserved is the square of the block size -/
def dumpRVec (s : GSO F) (r : List F) (offset blockSize : ℤ) : Option (List F) :=
  let size := dumpSize s.d blockSize
  if intMax < size * size then none
  else if dumpOutside s.d offset size then none
  else some (forUp 0 size.toNat (fun i (r : List F) => r ++ [s.r (offset.toNat + i) (offset.toNat + i)]) r)

end GSO
end Fplll

import Verif.Base.Loops

/-!
# Model of the storage of `Matrix<T>` (fplll/nr/matrix.h, matrix.cpp:26-63, 95-112)

A `Matrix<T>` owns a vector of row vectors that may be longer than its number of rows: rows beyond `r` are kept when
the matrix shrinks.  An access outside of a vector is undefined behaviour: the operation returns `none`.
New elements of a vector have an arbitrary value (`junk`, indexed by row and column).
-/

namespace Fplll

/-- `Matrix<T>`: `matrix` is the store, `r` and `c` the dimensions -/
structure MStore (α : Type) where
  /-- `matrix.size()` -/
  len : ℕ
  /-- `matrix[i].size()` -/
  size : ℕ → ℕ
  /-- `matrix[i][j]` -/
  ent : ℕ → ℕ → α
  r : ℕ
  c : ℕ

namespace MStore

variable {α : Type}

/-- `matrix[i].resize(n)`, numvect.h:163: entries from the old size on are new -/
def resizeRow (junk : ℕ → ℕ → α) (i n : ℕ) (m : MStore α) : Option (MStore α) :=
  if i < m.len then
    some { m with size := fun k => if k = i then n else m.size k
                  ent := fun k j => if k = i ∧ m.size i ≤ j then junk k j else m.ent k j }
  else none

/-- `matrix[i].extend(n)`, numvect.h:190-194 -/
def extendRow (junk : ℕ → ℕ → α) (i n : ℕ) (m : MStore α) : Option (MStore α) :=
  if i < m.len then if m.size i < n then resizeRow junk i n m else some m else none

/-- `matrix[i][j].swap(matrix[k][l])` -/
def swapEnt (i j k l : ℕ) (m : MStore α) : Option (MStore α) :=
  if (i < m.len ∧ j < m.size i) ∧ k < m.len ∧ l < m.size k then
    some { m with ent := fun a b => if a = i ∧ b = j then m.ent k l else if a = k ∧ b = l then m.ent i j else m.ent a b }
  else none

/-- the vector of rows grows to `n` rows, the new ones are empty -/
def growStore (n : ℕ) (m : MStore α) : MStore α :=
  { m with len := n, size := fun k => if k < m.len then m.size k else 0 }

/-- `for (i = a; i < b; i++)` with a body that may fail -/
def forOpt {σ : Type} (a b : ℕ) (f : ℕ → σ → Option σ) (s : Option σ) : Option σ :=
  forUp a b (fun i s => s.bind (f i)) s

/-- `Matrix::resize(rows, cols)`, matrix.cpp:26-52.  (The loop of :44-47 runs downwards; its rounds are independent.) -/
def resize (junk : ℕ → ℕ → α) (rows cols : ℕ) (m : MStore α) : Option (MStore α) :=
  let m1 := if m.len < rows then growStore (max (m.len * 2) rows) m else m
  let m2 := forOpt m.r rows (fun i m => resizeRow junk i cols m) (some m1)
  let m3 := if cols ≠ m.c then forOpt 0 (min m.r rows) (fun i m => resizeRow junk i cols m) m2 else m2
  m3.map fun m => { m with r := rows, c := cols }

/-- `Matrix::transpose()`, matrix.cpp:95-112 -/
def transpose (junk : ℕ → ℕ → α) (m : MStore α) : Option (MStore α) :=
  let m1 := if m.len < m.c then growStore m.c m else m
  let m2 := forOpt 0 m.c (fun i m' => extendRow junk i m.r m') (some m1)
  let m3 := forOpt 0 (min m.r m.c) (fun i m' =>
    (forOpt (i + 1) (max m.r m.c) (fun j m' => swapEnt i j j i m') (some m')).bind
      (fun m' => if m.r < m.c then resizeRow junk i m.r m' else some m')) m2
  m3.map fun m' => { m' with r := m.c, c := m.r }

/-- `matrix[i][j] = x`, e.g. through `operator()` -/
def write (i j : ℕ) (x : α) (m : MStore α) : Option (MStore α) :=
  if i < m.len ∧ j < m.size i then
    some { m with ent := fun a b => if a = i ∧ b = j then x else m.ent a b } else none

/-- `swap_rows(i, j)`, matrix.h:171 -/
def swapRows (i j : ℕ) (m : MStore α) : Option (MStore α) :=
  if i < m.len ∧ j < m.len then
    some { m with size := fun k => if k = i then m.size j else if k = j then m.size i else m.size k
                  ent := fun k => if k = i then m.ent j else if k = j then m.ent i else m.ent k }
  else none

/-- `Matrix()`, matrix.h:117 -/
def empty (junk : ℕ → ℕ → α) : MStore α := ⟨0, fun _ => 0, junk, 0, 0⟩

/-- `matrix[i].size()` seen through `MatrixRow::size()`, matrix.h:42 -/
def rowSize (m : MStore α) (i : ℕ) : ℕ := m.size i

/-- `matrix[i].is_zero()`, numvect.h:361-369: all entries up to the *size* of the row vector -/
def rowIsZero [DecidableEq α] [Zero α] (m : MStore α) (i : ℕ) : Bool :=
  (List.range (m.size i)).all fun j => decide (m.ent i j = 0)

/-- operations of a history -/
inductive Op (α : Type)
  | resize (junk : ℕ → ℕ → α) (rows cols : ℕ)
  | transpose (junk : ℕ → ℕ → α)
  | write (i j : ℕ) (x : α)
  | swapRows (i j : ℕ)

/-- one operation -/
def step (m : MStore α) : Op α → Option (MStore α)
  | .resize junk rows cols => m.resize junk rows cols
  | .transpose junk => m.transpose junk
  | .write i j x => m.write i j x
  | .swapRows i j => m.swapRows i j

/-- a history of operations -/
def run : MStore α → List (Op α) → Option (MStore α)
  | m, [] => some m
  | m, o :: l => (m.step o).bind fun m => run m l

end MStore
end Fplll

import Mathlib.Data.Int.Notation
import Mathlib.Algebra.Order.Ring.Int

/-!
# Model of printing and reading of integers, vectors and matrices

`fplll/nr/nr_Z_mpz.inl:236-287`, `fplll/nr/numvect.h:76-115, 411-414`, `fplll/nr/matrix.cpp:136-203`.

A stream is the list of characters still to be read together with `!fail()`.  (Simplification: in the functions
below `eofbit` is only ever set together with `failbit`, so it is left out; characters are Lean characters; white space
is that of the C locale.)
-/

namespace Fplll
namespace TextIO

/-- an input stream -/
structure Stream where
  rest : List Char
  ok : Bool
  deriving DecidableEq

/-- white space skipped by `operator>>`: `isspace` in the C locale -/
def isWs (c : Char) : Bool := c = ' ' || c = '\n' || c = '\t' || c = '\r' || c = '\x0b' || c = '\x0c'

/-- `c >= '0' && c <= '9'`, nr_Z_mpz.inl:260 -/
def isDig (c : Char) : Bool := '0' ≤ c && c ≤ '9'

/-- `is >> c` -/
def readChar (s : Stream) : Option Char × Stream :=
  if s.ok then
    match s.rest.dropWhile isWs with
    | [] => (none, ⟨[], false⟩)
    | c :: cs => (some c, ⟨cs, true⟩)
  else (none, s)

/-- `is.putback(c)` on a good stream from which `c` was just read -/
def putback (c : Char) (s : Stream) : Stream := ⟨c :: s.rest, s.ok⟩

/-- value of a digit -/
def digVal (c : Char) : ℕ := c.toNat - '0'.toNat

/-- `mpz_set_str` (base 10) on a string of digits: its value -/
def digitsVal (l : List Char) : ℕ := l.foldl (fun a c => 10 * a + digVal c) 0

/-- the `do … while (is.get(c) && c >= '0' && c <= '9')` loop of nr_Z_mpz.inl:266-269 and the tests after it: the
digits read, or `none` if the stream ended (`get` then sets `failbit`, so that line 271 returns and the branch
`is.eof()` of line 273 is never taken) -/
def readDigits : List Char → List Char → Option (List Char × List Char)
  | _, [] => none
  | acc, c :: cs => if isDig c then readDigits (acc ++ [c]) cs else some (acc, c :: cs)

/-- `operator>>(istream&, Z_NR<mpz_t>&)`, nr_Z_mpz.inl:246-287; `none`: the variable keeps its old value -/
def readInt (s : Stream) : Option ℤ × Stream :=
  match readChar s with
  | (none, s) => (none, s)
  | (some c, s) =>
    let go (neg : Bool) (c : Char) (s : Stream) : Option ℤ × Stream :=
      if isDig c then
        match readDigits [c] s.rest with
        | none => (none, ⟨[], false⟩)
        | some (ds, rest) => (some (if neg then -(digitsVal ds : ℤ) else digitsVal ds), ⟨rest, true⟩)
      else (none, ⟨s.rest, false⟩)
    if c = '-' then
      match readChar s with
      | (none, s) => (none, s)
      | (some c, s) => go true c s
    else go false c s

/-- the loop of `operator>>(istream&, vector<T>&)`, numvect.h:102-112, with the element reader `rd`.  Simplification:
`fuel` bounds the number of rounds; each round consumes a character, so the callers' `length + 1` is always enough. -/
def readLoop {α : Type} (rd : Stream → Option α × Stream) : ℕ → List α → Stream → List α × Stream
  | 0, acc, s => (acc, s)
  | k + 1, acc, s =>
    match readChar s with
    | (none, s) => (acc, s)
    | (some c, s) =>
      if c = ']' then (acc, s)
      else
        match rd (putback c s) with
        | (some x, s) => if s.ok then readLoop rd k (acc ++ [x]) s else (acc, s)
        | (none, s) => (acc, s)

/-- `operator>>(istream&, vector<T>&)`, numvect.h:92-114, and `operator>>(istream&, NumVect<T>&)` -/
def readVect {α : Type} (rd : Stream → Option α × Stream) (s : Stream) : List α × Stream :=
  match readChar s with
  | (none, s) => ([], s)
  | (some c, s) => if c = '[' then readLoop rd (s.rest.length + 1) [] s else ([], ⟨s.rest, false⟩)

/-- as the element reader of `Matrix::read`, matrix.cpp:179-184: a row whose stream failed is dropped -/
def readRow (s : Stream) : Option (List ℤ) × Stream :=
  let p := readVect readInt s
  (if p.2.ok then some p.1 else none, p.2)

/-- padding of short rows by zeros, matrix.cpp:188-202 -/
def padRow (c : ℕ) (l : List ℤ) : List ℤ := l ++ List.replicate (c - l.length) 0

/-- number of columns, matrix.cpp:187-191 -/
def maxLen (rows : List (List ℤ)) : ℕ := rows.foldl (fun c l => max c l.length) 0

/-- `Matrix::read(is)`, matrix.cpp:163-203: the rows of the matrix (their number is `r`), and `c`.  If the first
character is missing or is not `[` the dimensions keep their old values although the rows are cleared: `none`. -/
def readMatrix (s : Stream) : Option (List (List ℤ) × ℕ) × Stream :=
  match readChar s with
  | (none, s) => (none, s)
  | (some c, s) =>
    if c = '[' then
      let p := readLoop readRow (s.rest.length + 1) [] s
      (some (p.1.map (padRow (maxLen p.1)), maxLen p.1), p.2)
    else (none, ⟨s.rest, false⟩)

/-- character of a digit -/
def digChar (k : ℕ) : Char := Char.ofNat (k + '0'.toNat)

/-- decimal digits of a natural number, most significant first -/
def natText (n : ℕ) : List Char := if n < 10 then [digChar n] else natText (n / 10) ++ [digChar (n % 10)]
termination_by n

/-- `os << x` for `Z_NR<mpz_t>`: `mpz_get_str` in base 10, nr_Z_mpz.inl:236-244 -/
def intText (z : ℤ) : List Char := if z < 0 then '-' :: natText z.natAbs else natText z.natAbs

/-- items separated by a character, as in the loops of numvect.h:81-86 and matrix.cpp:147-152 -/
def sepBy (sep : Char) : List (List Char) → List Char
  | [] => []
  | [x] => x
  | x :: y :: l => x ++ sep :: sepBy sep (y :: l)

/-- `os << v` for a vector of integers, numvect.h:77-89 -/
def vectText (v : List ℤ) : List Char := '[' :: sepBy ' ' (v.map intText) ++ [']']

/-- one row in `Matrix::print`, matrix.cpp:146-155; `regular` is `print_mode == MAT_PRINT_REGULAR` -/
def rowText (regular : Bool) (v : List ℤ) : List Char :=
  '[' :: sepBy ' ' (v.map intText) ++ (if regular ∧ v ≠ [] then [' ', ']'] else [']'])

/-- `Matrix::print(os)`, matrix.cpp:136-161 -/
def matrixText (regular : Bool) (rows : List (List ℤ)) : List Char :=
  '[' :: sepBy '\n' (rows.map (rowText regular)) ++ (if regular ∧ rows ≠ [] then ['\n', ']'] else [']'])

end TextIO
end Fplll

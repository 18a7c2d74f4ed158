import Mathlib.Data.List.Basic
import Mathlib.Algebra.Order.Ring.Int

/-!
# Specification of the text format of integer matrices

A grammar, independent of the reader and the printer.
-/

namespace Fplll
namespace Spec

/-- white space of the C locale -/
def Ws (c : Char) : Prop := c ∈ [' ', '\n', '\t', '\r', '\x0b', '\x0c']

/-- the ten digits in order -/
def tenDigits : List Char := ['0', '1', '2', '3', '4', '5', '6', '7', '8', '9']

/-- `Dec n ds`: the digit string `ds` is a decimal representation of `n` -/
inductive Dec : ℕ → List Char → Prop
  | one (k : ℕ) (h : k < 10) : Dec k [tenDigits[k]]
  | snoc (n k : ℕ) (ds : List Char) (h : k < 10) : Dec n ds → Dec (10 * n + k) (ds ++ [tenDigits[k]])

/-- decimal representations of integers -/
inductive IntTok : ℤ → List Char → Prop
  | pos (n : ℕ) (ds : List Char) : Dec n ds → IntTok n ds
  | neg (n : ℕ) (ds : List Char) : Dec n ds → IntTok (-n) ('-' :: ds)

/-- the text does not start with a digit -/
def NoDigit (t : List Char) : Prop := ∀ c ∈ t.head?, c ∉ tenDigits

/-- the entries of a row, up to and including the closing bracket -/
inductive RowBody : List ℤ → List Char → Prop
  | nil (w : List Char) : (∀ c ∈ w, Ws c) → RowBody [] (w ++ [']'])
  | cons (w t body : List Char) (z : ℤ) (zs : List ℤ) : (∀ c ∈ w, Ws c) → IntTok z t → NoDigit body → RowBody zs body →
      RowBody (z :: zs) (w ++ t ++ body)

/-- the rows of a matrix, up to and including the closing bracket -/
inductive MatBody : List (List ℤ) → List Char → Prop
  | nil (w : List Char) : (∀ c ∈ w, Ws c) → MatBody [] (w ++ [']'])
  | cons (w t body : List Char) (v : List ℤ) (vs : List (List ℤ)) : (∀ c ∈ w, Ws c) → RowBody v t → MatBody vs body →
      MatBody (v :: vs) (w ++ '[' :: t ++ body)

/-- text of a vector -/
def VectTok (v : List ℤ) (t : List Char) : Prop := ∃ w b, (∀ c ∈ w, Ws c) ∧ RowBody v b ∧ t = w ++ '[' :: b
/-- text of a (possibly ragged) matrix -/
def MatTok (v : List (List ℤ)) (t : List Char) : Prop := ∃ w b, (∀ c ∈ w, Ws c) ∧ MatBody v b ∧ t = w ++ '[' :: b

end Spec
end Fplll

import Verif.Spec.TextIO

/-!
# Specification of JSON texts (RFC 8259)

A grammar that relates texts and the values they denote.  Numbers are represented by their text.
-/

namespace Fplll
namespace Json

/-- values -/
inductive JVal
  | null
  | bool (b : Bool)
  | num (t : List Char)
  | str (s : List Char)
  | arr (vs : List JVal)
  | obj (ms : List (List Char × JVal))

/-- white space, RFC 8259 section 2 -/
def Blank (w : List Char) : Prop := ∀ c ∈ w, c ∈ [' ', '\t', '\n', '\r']

/-- digits -/
def Digits (t : List Char) : Prop := ∀ c ∈ t, c ∈ Spec.tenDigits

/-- integer part: no leading zero -/
inductive IntPart : List Char → Prop
  | zero : IntPart ['0']
  | other (c : Char) (t : List Char) : c ∈ Spec.tenDigits → c ≠ '0' → Digits t → IntPart (c :: t)

/-- fraction -/
inductive Frac : List Char → Prop
  | none : Frac []
  | some (t : List Char) : t ≠ [] → Digits t → Frac ('.' :: t)

/-- exponent -/
inductive Exp : List Char → Prop
  | none : Exp []
  | some (e : Char) (sg t : List Char) : e ∈ ['e', 'E'] → sg ∈ [[], ['+'], ['-']] → t ≠ [] → Digits t → Exp (e :: (sg ++ t))

/-- numbers, section 6 -/
def Number (t : List Char) : Prop := ∃ sg i f e, sg ∈ [[], ['-']] ∧ IntPart i ∧ Frac f ∧ Exp e ∧ t = sg ++ i ++ f ++ e

/-- hexadecimal digits with their values -/
def hexTable : List (Char × ℕ) :=
  [('0', 0), ('1', 1), ('2', 2), ('3', 3), ('4', 4), ('5', 5), ('6', 6), ('7', 7), ('8', 8), ('9', 9), ('A', 10), ('B', 11), ('C', 12), ('D', 13), ('E', 14), ('F', 15),
    ('a', 10), ('b', 11), ('c', 12), ('d', 13), ('e', 14), ('f', 15)]

/-- four hexadecimal digits with the value `n` -/
def Hex4 (n : ℕ) (h : List Char) : Prop :=
  ∃ a b c d x y z w, (a, x) ∈ hexTable ∧ (b, y) ∈ hexTable ∧ (c, z) ∈ hexTable ∧ (d, w) ∈ hexTable ∧ h = [a, b, c, d] ∧ n = x * 4096 + y * 256 + z * 16 + w

/-- characters between the quotes of a string, section 7.  An escape with hexadecimal digits denotes a character of the basic plane; two of them denote one of the other planes by its surrogates.  Single surrogates denote no character. -/
inductive Chars : List Char → List Char → Prop
  | nil : Chars [] []
  | plain (c : Char) (s t : List Char) : 0x20 ≤ c.toNat → c ≠ '"' → c ≠ '\\' → Chars s t → Chars (c :: s) (c :: t)
  | esc (c d : Char) (s t : List Char) : (c, d) ∈ [('"', '"'), ('\\', '\\'), ('/', '/'), ('\x08', 'b'), ('\x0c', 'f'), ('\n', 'n'), ('\r', 'r'), ('\t', 't')] → Chars s t →
      Chars (c :: s) ('\\' :: d :: t)
  | uni (c : Char) (h s t : List Char) : Hex4 c.toNat h → Chars s t → Chars (c :: s) ('\\' :: 'u' :: (h ++ t))
  | pair (c : Char) (m n : ℕ) (h k s t : List Char) : Hex4 m h → Hex4 n k → 0xD800 ≤ m → m < 0xDC00 → 0xDC00 ≤ n → n < 0xE000 → c.toNat = 0x10000 + (m - 0xD800) * 0x400 + (n - 0xDC00) → Chars s t →
      Chars (c :: s) ('\\' :: 'u' :: (h ++ '\\' :: 'u' :: (k ++ t)))

mutual
/-- values, section 3 -/
inductive Val : JVal → List Char → Prop
  | null : Val .null ['n', 'u', 'l', 'l']
  | true : Val (.bool true) ['t', 'r', 'u', 'e']
  | false : Val (.bool false) ['f', 'a', 'l', 's', 'e']
  | num (t : List Char) : Number t → Val (.num t) t
  | str (s t : List Char) : Chars s t → Val (.str s) ('"' :: (t ++ ['"']))
  | arr0 (w : List Char) : Blank w → Val (.arr []) ('[' :: (w ++ [']']))
  | arr (vs : List JVal) (t : List Char) : Elems vs t → Val (.arr vs) ('[' :: (t ++ [']']))
  | obj0 (w : List Char) : Blank w → Val (.obj []) ('{' :: (w ++ ['}']))
  | obj (ms : List (List Char × JVal)) (t : List Char) : Membs ms t → Val (.obj ms) ('{' :: (t ++ ['}']))

/-- the elements of a nonempty array, section 5 -/
inductive Elems : List JVal → List Char → Prop
  | one (v : JVal) (a t b : List Char) : Blank a → Val v t → Blank b → Elems [v] (a ++ t ++ b)
  | cons (v : JVal) (vs : List JVal) (a t b r : List Char) : Blank a → Val v t → Blank b → Elems vs r → Elems (v :: vs) (a ++ t ++ b ++ ',' :: r)

/-- the members of a nonempty object, section 4 -/
inductive Membs : List (List Char × JVal) → List Char → Prop
  | one (k : List Char) (v : JVal) (a kt b c t d : List Char) : Blank a → Chars k kt → Blank b → Blank c → Val v t → Blank d →
      Membs [(k, v)] (a ++ '"' :: (kt ++ '"' :: (b ++ ':' :: (c ++ t ++ d))))
  | cons (k : List Char) (v : JVal) (ms : List (List Char × JVal)) (a kt b c t d r : List Char) : Blank a → Chars k kt → Blank b → Blank c → Val v t → Blank d → Membs ms r →
      Membs ((k, v) :: ms) (a ++ '"' :: (kt ++ '"' :: (b ++ ':' :: (c ++ t ++ d ++ ',' :: r))))
end

/-- the text denotes the value -/
def Doc (v : JVal) (l : List Char) : Prop := ∃ a t b, Blank a ∧ Val v t ∧ Blank b ∧ l = a ++ t ++ b

end Json
end Fplll

import Verif.Spec.Json

/-!
# UTF-8

The encoding of RFC 3629, section 3. A byte is written as the character with its value.
-/

namespace Fplll
namespace Json

/-- the bytes of a character, RFC 3629 section 3 -/
def utf8 (c : Char) : List Char :=
  let p := c.toNat
  (if p < 0x80 then [p]
  else if p < 0x800 then [192 + p / 64, 128 + p % 64]
  else if p < 0x10000 then [224 + p / 4096, 128 + p / 64 % 64, 128 + p % 64]
  else [240 + p / 262144, 128 + p / 4096 % 64, 128 + p / 64 % 64, 128 + p % 64]).map Char.ofNat

/-- the bytes of a text -/
def enc (l : List Char) : List Char := l.flatMap utf8

/-- no character begins here -/
def Bad (r : List Char) : Prop := ∀ c x, r ≠ utf8 c ++ x

mutual
/-- a value with the strings encoded -/
def encV : JVal → JVal
  | .null => .null
  | .bool b => .bool b
  | .num t => .num t
  | .str s => .str (enc s)
  | .arr vs => .arr (encVs vs)
  | .obj ms => .obj (encMs ms)

/-- all elements -/
def encVs : List JVal → List JVal
  | [] => []
  | v :: vs => encV v :: encVs vs

/-- all members -/
def encMs : List (List Char × JVal) → List (List Char × JVal)
  | [] => []
  | (k, v) :: ms => (enc k, encV v) :: encMs ms
end

end Json
end Fplll

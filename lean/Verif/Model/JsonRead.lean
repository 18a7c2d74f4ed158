import Verif.Spec.Json
import Verif.Model.Strategy
import Mathlib.Data.List.Dedup

/-!
# Reading a strategies file

`load_strategies_json`, bkz_param.cpp:80-157, from the text of the file: the lexer and the parser of io/json.hpp (7134-8640, 12918-13330) and the conversion of the value.
Texts are lists of characters; for the bytes of the file see `Model/JsonBytes`.  Positions and messages of errors are left out.
-/

namespace Fplll
namespace JsonRead

open Json

/-- `token_type`, io/json.hpp:7060-7083; numbers are represented by their text -/
inductive Tok
  | beginArr | endArr | beginObj | endObj | colon | comma
  | litTrue | litFalse | litNull
  | str (s : List Char)
  | num (t : List Char)
  | eof
  | err
  deriving DecidableEq

/-- value of a hexadecimal digit, io/json.hpp:7204-7219 -/
def hexVal (c : Char) : Option ℕ :=
  if 48 ≤ c.toNat ∧ c.toNat ≤ 57 then some (c.toNat - 0x30)
  else if 65 ≤ c.toNat ∧ c.toNat ≤ 70 then some (c.toNat - 0x37)
  else if 97 ≤ c.toNat ∧ c.toNat ≤ 102 then some (c.toNat - 0x57)
  else none

/-- `get_codepoint()`, io/json.hpp:7191-7224, and what is left of the text; `none`: -1 -/
def codepoint : List Char → Option (ℕ × List Char)
  | a :: b :: c :: d :: r =>
    match hexVal a, hexVal b, hexVal c, hexVal d with
    | some x, some y, some z, some w => some (x * 4096 + y * 256 + z * 16 + w, r)
    | _, _, _, _ => none
  | _ => none

/-- the escapes of one character, io/json.hpp:7307-7340 -/
def simpleEsc : Char → Option Char
  | '"' => some '"'
  | '\\' => some '\\'
  | '/' => some '/'
  | 'b' => some '\x08'
  | 'f' => some '\x0c'
  | 'n' => some '\n'
  | 'r' => some '\r'
  | 't' => some '\t'
  | _ => none

/-- `\u`, io/json.hpp:7343-7434 -/
def uniEsc (l : List Char) : Option (Char × List Char) :=
  match codepoint l with
  | none => none
  | some (p, r) =>
    if 0xD800 ≤ p ∧ p ≤ 0xDBFF then
      match r with
      | a :: b :: r =>
        if a = '\\' ∧ b = 'u' then
          match codepoint r with
          | none => none
          | some (q, r) => if 0xDC00 ≤ q ∧ q ≤ 0xDFFF then some (Char.ofNat (p * 1024 + q - 0x35FDC00), r) else none
        else none
      | _ => none
    else if 0xDC00 ≤ p ∧ p ≤ 0xDFFF then none
    else some (Char.ofNat p, r)

/-- one character of a string after the backslash, io/json.hpp:7304-7442 -/
def escape : List Char → Option (Char × List Char)
  | [] => none
  | d :: r =>
    if d = 'u' then uniEsc r
    else (simpleEsc d).map fun c => (c, r)

/-- the loop of `scan_string()`, io/json.hpp:7285-7858, after the opening quote.  The first argument bounds the rounds; every round reads a character. -/
def scanString : ℕ → List Char → Option (List Char × List Char)
  | 0, _ => none
  | _ + 1, [] => none
  | n + 1, c :: r =>
    if c = '"' then some ([], r)
    else if c = '\\' then (escape r).bind fun p => (scanString n p.2).map fun q => (p.1 :: q.1, q.2)
    else if c.toNat < 0x20 then none
    else (scanString n r).map fun q => (c :: q.1, q.2)

/-- the labels of `scan_number()`, io/json.hpp:7992-8270 -/
inductive NSt
  | minus | zero | any1 | decimal1 | decimal2 | exponent | sign | any2
  deriving DecidableEq

/-- `case '0': … case '9':` -/
def isDigit (c : Char) : Bool := decide (48 ≤ c.toNat ∧ c.toNat ≤ 57)

/-- the `switch` at each label: the next label, or `none` for `default` -/
def NSt.step (s : NSt) (c : Char) : Option NSt :=
  match s with
  | .minus => if c = '0' then some .zero else if isDigit c then some .any1 else none
  | .zero => if c = '.' then some .decimal1 else if c = 'e' ∨ c = 'E' then some .exponent else none
  | .any1 => if isDigit c then some .any1 else if c = '.' then some .decimal1 else if c = 'e' ∨ c = 'E' then some .exponent else none
  | .decimal1 => if isDigit c then some .decimal2 else none
  | .decimal2 => if isDigit c then some .decimal2 else if c = 'e' ∨ c = 'E' then some .exponent else none
  | .exponent => if c = '+' ∨ c = '-' then some .sign else if isDigit c then some .any2 else none
  | .sign => if isDigit c then some .any2 else none
  | .any2 => if isDigit c then some .any2 else none

/-- whether `default` means `scan_number_done` -/
def NSt.fin : NSt → Bool
  | .zero | .any1 | .decimal2 | .any2 => true
  | _ => false

/-- `scan_number()` from a label on: the characters added and what is left (the last character is put back, line 8274) -/
def scanNum : NSt → List Char → Option (List Char × List Char)
  | s, [] => if s.fin then some ([], []) else none
  | s, c :: r =>
    match s.step c with
    | some s' => (scanNum s' r).map fun p => (c :: p.1, p.2)
    | none => if s.fin then some ([], c :: r) else none

/-- the first `switch` of `scan_number()`, io/json.hpp:8002-8036 -/
def scanNumber (c : Char) (r : List Char) : Option (List Char × List Char) :=
  (scanNum (if c = '-' then .minus else if c = '0' then .zero else .any1) r).map fun p => (c :: p.1, p.2)

/-- `scan_literal`, io/json.hpp:8325-8338, after the first character -/
def scanLiteral : List Char → List Char → Option (List Char)
  | [], r => some r
  | _ :: _, [] => none
  | a :: l, c :: r => if c = a then scanLiteral l r else none

/-- `skip_whitespace()`, io/json.hpp:8531-8538 -/
def skipBlank : List Char → List Char
  | [] => []
  | c :: r => if c = ' ' ∨ c = '\t' ∨ c = '\n' ∨ c = '\r' then skipBlank r else c :: r

/-- the `switch` of `scan()`, io/json.hpp:8564-8633, and what is left of the text -/
def scanTok : List Char → Tok × List Char
  | [] => (.eof, [])
  | c :: r =>
    if c = '[' then (.beginArr, r)
    else if c = ']' then (.endArr, r)
    else if c = '{' then (.beginObj, r)
    else if c = '}' then (.endObj, r)
    else if c = ':' then (.colon, r)
    else if c = ',' then (.comma, r)
    else if c = 't' then (match scanLiteral ['r', 'u', 'e'] r with | some r => (.litTrue, r) | none => (.err, []))
    else if c = 'f' then (match scanLiteral ['a', 'l', 's', 'e'] r with | some r => (.litFalse, r) | none => (.err, []))
    else if c = 'n' then (match scanLiteral ['u', 'l', 'l'] r with | some r => (.litNull, r) | none => (.err, []))
    else if c = '"' then (match scanString (r.length + 1) r with | some (s, r) => (.str s, r) | none => (.err, []))
    else if c = '-' ∨ isDigit c = true then (match scanNumber c r with | some (t, r) => (.num t, r) | none => (.err, []))
    else if c = '\x00' then (.eof, [])
    else (.err, [])

/-- `scan()`, io/json.hpp:8540-8634, without the byte order mark -/
def scan (l : List Char) : Tok × List Char := scanTok (skipBlank l)

/-- `skip_bom()`, io/json.hpp:8517-8529 -/
def skipBom : List Char → List Char
  | [] => []
  | c :: r => if c = '\ufeff' then r else c :: r

/-- an array or object that is not complete: entry of `states` (io/json.hpp:13016) together with the entry of `ref_stack` (io/json.hpp:8817-9040).
Members of objects are kept in the order of the text, a `std::map` keeps the last for each key, see `find`. -/
inductive Frame
  | arr (vs : List JVal)
  | obj (ms : List (List Char × JVal)) (k : List Char)

/-- where `sax_parse_internal` is: at the `switch` with `last_token`, or at the evaluation of `states` with the value just completed -/
inductive Ctl
  | value (t : Tok)
  | done (v : JVal)

/-- state of `sax_parse_internal`, io/json.hpp:13010-13226 -/
structure PSt where
  stack : List Frame
  ctl : Ctl
  rest : List Char

/-- what a round leads to -/
inductive Next
  | go (s : PSt)
  | ok (v : JVal) (rest : List Char)
  /-- an exception -/
  | throw

/-- key and colon, then the first token of the value; io/json.hpp:13047-13073 and 13181-13205 -/
def member (stack : List Frame) (ms : List (List Char × JVal)) (tk : Tok × List Char) : Next :=
  match tk with
  | (.str k, r) =>
    let c := scan r
    if c.1 = .colon then
      let t := scan c.2
      .go ⟨.obj ms k :: stack, .value t.1, t.2⟩
    else .throw
  | _ => .throw

/-- one round of the loop; `fin t`: the number `t` fits into 64 bits or its value as a `double` is finite (io/json.hpp:8276-8318, 13122-13138) -/
def step (fin : List Char → Bool) (s : PSt) : Next :=
  match s.ctl with
  | .value .beginObj =>
    let t := scan s.rest
    if t.1 = .endObj then .go ⟨s.stack, .done (.obj []), t.2⟩ else member s.stack [] t
  | .value .beginArr =>
    let t := scan s.rest
    if t.1 = .endArr then .go ⟨s.stack, .done (.arr []), t.2⟩ else .go ⟨.arr [] :: s.stack, .value t.1, t.2⟩
  | .value (.num t) => if fin t then .go ⟨s.stack, .done (.num t), s.rest⟩ else .throw
  | .value (.str t) => .go ⟨s.stack, .done (.str t), s.rest⟩
  | .value .litTrue => .go ⟨s.stack, .done (.bool true), s.rest⟩
  | .value .litFalse => .go ⟨s.stack, .done (.bool false), s.rest⟩
  | .value .litNull => .go ⟨s.stack, .done .null, s.rest⟩
  | .value _ => .throw
  | .done v =>
    match s.stack with
    | [] => .ok v s.rest
    | .arr vs :: st =>
      let t := scan s.rest
      if t.1 = .comma then
        let t := scan t.2
        .go ⟨.arr (vs ++ [v]) :: st, .value t.1, t.2⟩
      else if t.1 = .endArr then .go ⟨st, .done (.arr (vs ++ [v])), t.2⟩
      else .throw
    | .obj ms k :: st =>
      let t := scan s.rest
      if t.1 = .comma then member st (ms ++ [(k, v)]) (scan t.2)
      else if t.1 = .endObj then .go ⟨st, .done (.obj (ms ++ [(k, v)])), t.2⟩
      else .throw

/-- how reading a value ends -/
inductive Out
  | ok (v : JVal) (rest : List Char)
  | throw
  | outOfFuel

/-- the loop of `sax_parse_internal` -/
def run (fin : List Char → Bool) : ℕ → PSt → Out
  | 0, _ => .outOfFuel
  | n + 1, s =>
    match step fin s with
    | .go s => run fin n s
    | .ok v r => .ok v r
    | .throw => .throw

/-- `fs >> js`, io/json.hpp:24185-24189: `parse(false, j)`, so what follows the value is not looked at -/
def parse (fin : List Char → Bool) (fuel : ℕ) (l : List Char) : Out :=
  let t := scan (skipBom l)
  run fin fuel ⟨[], .value t.1, t.2⟩

/-! ## From the value to the strategies -/

/-- how the use of the value ends -/
inductive R (α : Type)
  | ok (a : α)
  /-- an exception -/
  | throw
  /-- a failed assertion -/
  | abort
  /-- an element behind the end of an array is read -/
  | ub
  deriving DecidableEq

/-- one after the other -/
def R.bind {α β : Type} : R α → (α → R β) → R β
  | .ok a, f => f a
  | .throw, _ => .throw
  | .abort, _ => .abort
  | .ub, _ => .ub

/-- a loop that collects results -/
def mapR {α β : Type} (f : α → R β) : List α → R (List β)
  | [] => .ok []
  | a :: l => (f a).bind fun b => (mapR f l).bind fun bs => .ok (b :: bs)

/-- `find` in the `std::map`: the last member with the key -/
def find (k : List Char) (ms : List (List Char × JVal)) : Option JVal := ((ms.filter fun m => decide (m.1 = k)).getLast?).map Prod.snd

/-- the elements between `begin()` and `end()`, io/json.hpp:22580-22680; the members of objects are sorted by their keys -/
def items : JVal → List JVal
  | .null => []
  | .arr vs => vs
  | .obj ms => ((ms.map Prod.fst).dedup.mergeSort fun a b => decide (a ≤ b)).filterMap fun k => find k ms
  | v => [v]

/-- `v[k]` for a key, io/json.hpp:22182-22193 -/
def key (k : List Char) : JVal → R JVal
  | .obj ms =>
    match find k ms with
    | some v => .ok v
    | none => .abort
  | _ => .throw

/-- `v[i]` for an index, io/json.hpp:22147-22156: not checked -/
def index (i : ℕ) : JVal → R JVal
  | .arr vs =>
    match vs[i]? with
    | some v => .ok v
    | none => .ub
  | _ => .throw

/-- conversion to a number, io/json.hpp:4857-4887 -/
def number {α : Type} (f : List Char → α) : JVal → R α
  | .num t => .ok (f t)
  | _ => .throw

/-- the conversions of a number in the file: to `size_t`, to `int` and then to `size_t`, to `double` -/
structure Conv where
  size : List Char → ℕ
  int : List Char → ℕ
  real : List Char → ℚ

/-- a block size for preprocessing, bkz_param.cpp:110-120 -/
def pre (cv : Conv) : JVal → R ℕ
  | .num t => .ok (cv.int t)
  | v => (key "block_size".toList v).bind (number cv.size)

/-- a set of pruning parameters, bkz_param.cpp:126-142 -/
def prun (cv : Conv) (v : JVal) : R Strat.PruningParams :=
  (index 0 v).bind fun a => (number cv.real a).bind fun gh =>
  (index 1 v).bind fun b => (mapR (number cv.real) (items b)).bind fun cs =>
  (index 2 v).bind fun c => (number cv.real c).bind fun ex => .ok ⟨gh, cs, ex⟩

/-- an optional member, bkz_param.cpp:107-109 and 123-125 -/
def opt {α : Type} (k : List Char) (f : JVal → R α) (ms : List (List Char × JVal)) : R (Option (List α)) :=
  match find k ms with
  | none => .ok none
  | some v => (mapR f (items v)).bind fun l => .ok (some l)

/-- an entry of the file, bkz_param.cpp:92-144 -/
def entry (cv : Conv) : JVal → R Strat.Entry
  | .obj ms =>
    (key "block_size".toList (.obj ms)).bind fun v => (number cv.size v).bind fun bs =>
    (opt "preprocessing_block_sizes".toList (pre cv) ms).bind fun p =>
    (opt "pruning_parameters".toList (prun cv) ms).bind fun q => .ok ⟨bs, p, q⟩
  | _ => .throw

/-- `load_strategies_json`, bkz_param.cpp:80-157, for a file with this text.  An exception anywhere ends the function. -/
def load (cv : Conv) (fin : List Char → Bool) (fuel : ℕ) (text : List Char) : R (List Strat.Strategy) :=
  match parse fin fuel text with
  | .ok v _ => (mapR (entry cv) (items v)).bind fun es => .ok (Strat.loadStrategies es)
  | _ => .throw

end JsonRead
end Fplll

import Verif.Model.JsonRead

/-!
# Reading a strategies file from its bytes

The lexer of io/json.hpp reads bytes. Everything outside of strings compares with single ASCII characters, so that the functions of `Model/JsonRead` serve for bytes too; strings, escapes and the byte order mark are modelled here.
A byte is written as the character with its value.
-/

namespace Fplll
namespace JsonRead

open Json

/-- "translate codepoint into bytes", io/json.hpp:7404-7430 -/
def emit (c : Char) : List Char :=
  let p := c.toNat
  if p < 0x80 then [Char.ofNat p]
  else if p ≤ 0x7FF then [Char.ofNat (0xC0 ||| (p >>> 6)), Char.ofNat (0x80 ||| (p &&& 0x3F))]
  else if p ≤ 0xFFFF then [Char.ofNat (0xE0 ||| (p >>> 12)), Char.ofNat (0x80 ||| ((p >>> 6) &&& 0x3F)), Char.ofNat (0x80 ||| (p &&& 0x3F))]
  else [Char.ofNat (0xF0 ||| (p >>> 18)), Char.ofNat (0x80 ||| ((p >>> 12) &&& 0x3F)), Char.ofNat (0x80 ||| ((p >>> 6) &&& 0x3F)), Char.ofNat (0x80 ||| (p &&& 0x3F))]

/-- the ranges for the bytes that follow, by the first byte; io/json.hpp:7635-7855. `none`: ill-formed -/
def ranges (c : Char) : Option (List (ℕ × ℕ)) :=
  let n := c.toNat
  if n ≤ 0x7F then some []
  else if 0xC2 ≤ n ∧ n ≤ 0xDF then some [(0x80, 0xBF)]
  else if n = 0xE0 then some [(0xA0, 0xBF), (0x80, 0xBF)]
  else if n = 0xED then some [(0x80, 0x9F), (0x80, 0xBF)]
  else if 0xE1 ≤ n ∧ n ≤ 0xEF then some [(0x80, 0xBF), (0x80, 0xBF)]
  else if n = 0xF0 then some [(0x90, 0xBF), (0x80, 0xBF), (0x80, 0xBF)]
  else if 0xF1 ≤ n ∧ n ≤ 0xF3 then some [(0x80, 0xBF), (0x80, 0xBF), (0x80, 0xBF)]
  else if n = 0xF4 then some [(0x80, 0x8F), (0x80, 0xBF), (0x80, 0xBF)]
  else none

/-- the loop of `next_byte_in_range`, io/json.hpp:7239-7260 -/
def nextBytes : List (ℕ × ℕ) → List Char → Option (List Char × List Char)
  | [], r => some ([], r)
  | _ :: _, [] => none
  | (a, b) :: rs, c :: r => if a ≤ c.toNat ∧ c.toNat ≤ b then (nextBytes rs r).map fun q => (c :: q.1, q.2) else none

/-- the loop of `scan_string()` on bytes, io/json.hpp:7285-7858. The first argument bounds the rounds. -/
def scanStringB : ℕ → List Char → Option (List Char × List Char)
  | 0, _ => none
  | _ + 1, [] => none
  | n + 1, c :: r =>
    if c = '"' then some ([], r)
    else if c = '\\' then (escape r).bind fun p => (scanStringB n p.2).map fun q => (emit p.1 ++ q.1, q.2)
    else if c.toNat < 0x20 then none
    else (ranges c).bind fun rs => (nextBytes rs r).bind fun p => (scanStringB n p.2).map fun q => (c :: (p.1 ++ q.1), q.2)

/-- the `switch` of `scan()` on bytes, io/json.hpp:8564-8633 -/
def scanTokB : List Char → Tok × List Char
  | [] => (.eof, [])
  | c :: r =>
    if c = '"' then (match scanStringB (r.length + 1) r with | some (s, r) => (.str s, r) | none => (.err, []))
    else scanTok (c :: r)

/-- `scan()` on bytes -/
def scanB (l : List Char) : Tok × List Char := scanTokB (skipBlank l)

/-- the second and third byte of the byte order mark, io/json.hpp:8522 -/
def bomRest : List Char → Option (List Char)
  | a :: b :: r => if a.toNat = 0xBB ∧ b.toNat = 0xBF then some r else none
  | _ => none

/-- `skip_bom()`, io/json.hpp:8517-8529; `none`: `false` -/
def bomB : List Char → Option (List Char)
  | [] => some []
  | c :: r => if c.toNat = 0xEF then bomRest r else some (c :: r)

/-- `member` for any scanner -/
def memberW (sc : List Char → Tok × List Char) (stack : List Frame) (ms : List (List Char × JVal)) (tk : Tok × List Char) : Next :=
  match tk with
  | (.str k, r) =>
    let c := sc r
    if c.1 = .colon then
      let t := sc c.2
      .go ⟨.obj ms k :: stack, .value t.1, t.2⟩
    else .throw
  | _ => .throw

/-- `step` for any scanner; `stepW scan` is `step`, see `step_W` -/
def stepW (sc : List Char → Tok × List Char) (fin : List Char → Bool) (s : PSt) : Next :=
  match s.ctl with
  | .value .beginObj =>
    let t := sc s.rest
    if t.1 = .endObj then .go ⟨s.stack, .done (.obj []), t.2⟩ else memberW sc s.stack [] t
  | .value .beginArr =>
    let t := sc s.rest
    if t.1 = .endArr then .go ⟨s.stack, .done (.arr []), t.2⟩ else .go ⟨.arr [] :: s.stack, .value t.1, t.2⟩
  | .value (.num t) => if fin t then .go ⟨s.stack, .done (.num t), s.rest⟩ else .throw
  | .value (.str t) => .go ⟨s.stack, .done (.str t), s.rest⟩
  | .value .litTrue => .go ⟨s.stack, .done (.bool true), s.rest⟩
  | .value .litFalse => .go ⟨s.stack, .done (.bool false), s.rest⟩
  | .value .litNull => .go ⟨s.stack, .done .null, s.rest⟩
  | .value _ => .throw
  | .done v =>
    match s.stack with
    | [] => .ok v s.rest
    | .arr vs :: st =>
      let t := sc s.rest
      if t.1 = .comma then
        let t := sc t.2
        .go ⟨.arr (vs ++ [v]) :: st, .value t.1, t.2⟩
      else if t.1 = .endArr then .go ⟨st, .done (.arr (vs ++ [v])), t.2⟩
      else .throw
    | .obj ms k :: st =>
      let t := sc s.rest
      if t.1 = .comma then memberW sc st (ms ++ [(k, v)]) (sc t.2)
      else if t.1 = .endObj then .go ⟨st, .done (.obj (ms ++ [(k, v)])), t.2⟩
      else .throw

/-- the loop -/
def runW (sc : List Char → Tok × List Char) (fin : List Char → Bool) : ℕ → PSt → Out
  | 0, _ => .outOfFuel
  | n + 1, s =>
    match stepW sc fin s with
    | .go s => runW sc fin n s
    | .ok v r => .ok v r
    | .throw => .throw

/-- `fs >> js` on the bytes of the file -/
def parseB (fin : List Char → Bool) (fuel : ℕ) (l : List Char) : Out :=
  match bomB l with
  | none => .throw
  | some l =>
    let t := scanB l
    runW scanB fin fuel ⟨[], .value t.1, t.2⟩

/-- `load_strategies_json` on the bytes of the file, bkz_param.cpp:80-157 -/
def loadB (cv : Conv) (fin : List Char → Bool) (fuel : ℕ) (text : List Char) : R (List Strat.Strategy) :=
  match parseB fin fuel text with
  | .ok v _ => (mapR (entry cv) (items v)).bind fun es => .ok (Strat.loadStrategies es)
  | _ => .throw

end JsonRead
end Fplll

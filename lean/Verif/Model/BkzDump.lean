import Mathlib.Analysis.SpecialFunctions.Log.Basic
import Verif.Model.BKZ
import Verif.Model.TextIO

/-!
# Model of `bkz()` with `BKZ_DUMP_GSO` (fplll/bkz.cpp, bkz.h)

The tours and the main loop of `Model/BKZ`, over states that contain the text of the dump file.
Not modelled: a file that cannot be opened or written (`dump.exceptions`, both `catch` clauses only rethrow), and which of the texts of `Dbl` is printed for a given `double`.
-/

namespace Fplll
namespace BkzDump

open BKZ

/-- the text printed for a `double` by `operator<<`: the format `%g` of C (C11 7.21.6.1), for numbers, infinities and NaN.  `exp`: sign and absolute value of the decimal exponent. -/
inductive Dbl
  | fin (neg : Bool) (int : ℕ) (frac : List (Fin 10)) (exp : Option (Bool × ℕ))
  | inf (neg : Bool)
  | nan (neg : Bool)

/-- `%g`: the exponent has at least two digits, there is no point without a fraction -/
def Dbl.text : Dbl → List Char
  | .fin neg int frac exp => (if neg then ['-'] else []) ++ TextIO.natText int ++ (if frac = [] then [] else '.' :: frac.map fun k : Fin 10 => TextIO.digChar k.val) ++
      (match exp with
        | none => []
        | some (neg, e) => 'e' :: ((if neg then ['-'] else ['+']) ++ (if e < 10 then '0' :: TextIO.natText e else TextIO.natText e)))
  | .inf neg => (if neg then ['-'] else []) ++ ['i', 'n', 'f']
  | .nan neg => (if neg then ['-'] else []) ++ ['n', 'a', 'n']

/-- the number that is dumped for a row, bkz.cpp:769-772, in exact arithmetic: `f` and `expo` are what `get_r_exp(i, i, expo)` gives.  For `f = 0` the code gets an infinity. -/
noncomputable def dumpedNorm (f : ℝ) (expo : ℤ) : ℝ := Real.log f + expo * Real.log 2

/-- `endl` -/
def nl : List Char := ['\n']

/-- `string(k, ' ')` -/
def sp (k : ℕ) : List Char := List.replicate k ' '

/-- the text `ss.str()`: every number is followed by `", "`, bkz.cpp:767-773 -/
def normsText (l : List Dbl) : List Char := l.flatMap fun x => x.text ++ [',', ' ']

/-- a text in quotes -/
def quoted (t : List Char) : List Char := '"' :: (t ++ ['"'])

/-- the object that one call of `dump_gso` writes, bkz.cpp:757-778.  `s.substr(0, s.size() - 2)`: for an empty `s` the length wraps around and the result is empty as well. -/
def body (step : List Char) (loop : ℤ) (time : Dbl) (norms : List Dbl) : List Char :=
  ['{'] ++ nl ++
  sp 16 ++ quoted "step".toList ++ [':', ' '] ++ quoted step ++ [','] ++ nl ++
  sp 16 ++ quoted "loop".toList ++ [':', ' '] ++ TextIO.intText loop ++ [','] ++ nl ++
  sp 16 ++ quoted "time".toList ++ [':', ' '] ++ time.text ++ [','] ++ nl ++
  sp 16 ++ quoted "norms".toList ++ [':', ' ', '['] ++ (normsText norms).take ((normsText norms).length - 2) ++ [']'] ++ nl ++
  sp 8 ++ ['}']

/-- everything that one call of `dump_gso` writes, bkz.cpp:746-786 -/
def record (append : Bool) (step : List Char) (loop : ℤ) (time : Dbl) (norms : List Dbl) : List Char :=
  (if append then [] else ['['] ++ nl) ++ (sp 8 ++ (body step loop time norms ++ (if step = "Output".toList then nl ++ [']'] else [','] ++ nl)))

variable {σ D : Type}

/-- what `dump_gso` reads besides its arguments -/
structure Src (σ : Type) where
  /-- the numbers of bkz.cpp:767-773 and the state after `update_gso_row` of all rows -/
  norms : σ → List Dbl × σ
  /-- `(cputime() - cputime_start) * 0.001`, at any time -/
  time : σ → Dbl

/-- `dump_gso`, bkz.cpp:727-796: the file is emptied or kept (:740-748), then the record is written -/
def dumpGso (d : Src σ) (append : Bool) (step : List Char) (loop : ℤ) (time : Dbl) (s : σ × List Char) : σ × List Char :=
  ((d.norms s.1).2, (if append then s.2 else []) ++ record append step loop time (d.norms s.1).1)

/-- a procedure that does not touch the file -/
def keep {α : Type} (f : σ → Out σ α) (s : σ × List Char) : Out (σ × List Char) α := match f s.1 with
  | .ok a x => .ok a (x, s.2)
  | .thrown x => .thrown (x, s.2)
  | .ub x => .ub (x, s.2)
  | .stuck x => .stuck (x, s.2)

/-- `tour`, bkz.cpp:361-384, with the dump of :373-377 -/
def tourD (o : Ops σ) (d : Src σ) (bs numRows : ℤ) (i : ℕ) (s : σ × List Char) : Out (σ × List Char) Bool :=
  (keep (truncTour o bs 0 numRows) s).bind fun c1 s =>
  (keep (hkz o (max (numRows - bs) 0) numRows) s).bind fun c2 s =>
  let s := dumpGso d true "End of BKZ loop".toList i (d.time s.1) s
  .ok (c1 && c2) (o.symG s.1, s.2)

/-- `sd_tour`, bkz.cpp:444-463, with the dump of :456-460 -/
def sdTourD (o : Ops σ) (d : Src σ) (bs numRows : ℤ) (i : ℕ) (s : σ × List Char) : Out (σ × List Char) Bool :=
  (keep (truncDtour o bs 0 numRows) s).bind fun c1 s =>
  (keep (truncTour o bs 0 numRows) s).bind fun c2 s =>
  .ok (c1 && c2) (dumpGso d true "End of SD-BKZ loop".toList i (d.time s.1) s)

/-- `slide_tour`, bkz.cpp:466-520, with the dump of :508-512 -/
def slideTourD (o : Ops σ) (d : Src σ) (bounded : Bool) (bs numRows : ℤ) (fuel : ℕ) (i : ℕ) (s : σ × List Char) : Out (σ × List Char) Bool :=
  (keep (slideLoop o bounded bs 0 numRows fuel) s).bind fun _ s =>
  (keep (BKZ.loop (fun i => o.svp (0 + i * bs + 1) bs true) 1 (numBlocks bs 0 numRows - 1).toNat 0 true) s).bind fun _ s =>
  let s := dumpGso d true "End of SLD loop".toList i (d.time s.1) s
  .ok (o.noProgress s.1).1 ((o.noProgress s.1).2, s.2)

/-- one tour, bkz.cpp:590-602 -/
def oneTourD (o : Ops σ) (d : Src σ) (c : Cfg D) (numRows : ℤ) (fuel : ℕ) (i : ℕ) (s : σ × List Char) : Out (σ × List Char) Bool :=
  if c.sd = true then sdTourD o d c.blockSize numRows i s
  else if c.sld = true then slideTourD o d c.bounded c.blockSize numRows fuel i s
  else tourD o d c.blockSize numRows i s

/-- the loop of `bkz()`, bkz.cpp:571-614 -/
def mainLoopD [LinearOrder D] (o : Ops σ) (d : Src σ) (c : Cfg D) (e : Env D σ) (numRows : ℤ) (inner : ℕ) :
    ℕ → ℕ → AutoAbort D → σ × List Char → Out (σ × List Char) (Status × ℕ)
  | 0, _, _, s => .stuck s
  | fuel + 1, i, a, s =>
    if c.maxLoops.any (fun m => decide (m ≤ (i : ℤ))) = true then .ok (.loopsLimit, i) s
    else if c.maxTime = true ∧ e.timeUp i s.1 = true then .ok (.timeLimit, i) s
    else
      let t := a.test c.scaled c.maxNoDec (e.slope i s.1).1
      let s' := if autoOn c = true then ((e.slope i s.1).2, s.2) else s
      if autoOn c = true ∧ t.1 = true then .ok (.success, i) s'
      else
        (oneTourD o d c numRows inner i s').bind fun clean s =>
        if clean = true ∨ numRows ≤ c.blockSize then .ok (.success, i + 1) s
        else mainLoopD o d c e numRows inner fuel (i + 1) (if autoOn c = true then t.2 else a) s

/-- `bkz()` with `BKZ_DUMP_GSO`, bkz.cpp:522-672: the dumps of :536-539 and :667-670 -/
def bkzD [LinearOrder D] [OrderTop D] (o : Ops σ) (d : Src σ) (c : Cfg D) (e : Env D σ) (prep : σ → σ) (numRows : ℤ) (inner fuel : ℕ)
    (s : σ × List Char) : Out (σ × List Char) (Status × ℕ) :=
  if c.sd = true ∧ c.sld = true then .thrown s
  else
    let s := dumpGso d false "Input".toList (-1) (.fin false 0 [] none) s
    if c.blockSize < 2 then .ok (.success, 0) s
    else
      let s := (prep s.1, s.2)
      (if c.sd = true then (keep (o.lll 0 0 numRows) s).bind fun _ s => .ok () s else .ok () s).bind fun _ s =>
      (mainLoopD o d c e numRows inner fuel 0 AutoAbort.init s).bind fun r s =>
      (if c.sd = true then keep (hkz o (numRows - c.blockSize) numRows) s else .ok true s).bind fun _ s =>
      (if c.sld = true then keep (sldFinish o c.blockSize numRows) s else .ok true s).bind fun _ s =>
      .ok r (dumpGso d true "Output".toList (-1) (d.time s.1) s)

end BkzDump
end Fplll

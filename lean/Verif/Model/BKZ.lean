import Mathlib.Data.Int.Basic
import Mathlib.Order.Lattice
import Mathlib.Order.BoundedOrder.Basic
import Mathlib.Data.Int.Order.Basic

/-!
# Model of the control flow of block reduction (fplll/bkz.cpp, fplll/bkz.h)

The tours and the main loop are written over an arbitrary state `σ` and arbitrary basic procedures `Ops σ`, so that
statements about the control flow hold for each behaviour of enumeration, LLL, clocks and floating-point numbers.
`Verif.Model.BKZSvp` instantiates `σ` with the GSO object and `svp` with `svp_reduction`.

Row indices are `ℤ` as in the code (`int`).  Output of `print_*` is left out (`dump_gso`: see `Model.BkzDump`), as is the overflow of `int`.
-/

namespace Fplll
namespace BKZ

/-- outcome of a procedure -/
inductive Out (σ α : Type)
  /-- returned normally -/
  | ok (a : α) (s : σ)
  /-- `std::runtime_error` escaped -/
  | thrown (s : σ)
  /-- a row outside the basis was used -/
  | ub (s : σ)
  /-- the model's fuel was not enough -/
  | stuck (s : σ)

variable {σ α β : Type}

/-- sequential composition -/
def Out.bind (m : Out σ α) (f : α → σ → Out σ β) : Out σ β := match m with
  | .ok a s => f a s
  | .thrown s => .thrown s
  | .ub s => .ub s
  | .stuck s => .stuck s

/-- the procedures used by the tours -/
structure Ops (σ : Type) where
  /-- `svp_reduction(kappa, block_size, par, dual)`, bkz.cpp:275-358 -/
  svp : ℤ → ℤ → Bool → σ → Out σ Bool
  /-- `lll_obj.lll(min, start, end, 0)`: success, and was `n_swaps > 0`? -/
  lll : ℤ → ℤ → ℤ → σ → Out σ (Bool × Bool)
  /-- `lll_obj.size_reduction(min, end, start)`: success -/
  sizeRed : ℤ → ℤ → ℤ → σ → Out σ Bool
  /-- `if (m.enable_int_gram) m.symmetrize_g()`, bkz.cpp:381-382 -/
  symG : σ → σ
  /-- is the new slide potential at least the old one (bkz.cpp:514-518)? sets `sld_potential` if not -/
  noProgress : σ → Bool × σ

/-- `for (kappa = k; n times; kappa += step) clean &= f(kappa)` -/
def loop (f : ℤ → σ → Out σ Bool) (step : ℤ) : ℕ → ℤ → Bool → σ → Out σ Bool
  | 0, _, clean, s => .ok clean s
  | n + 1, k, clean, s => (f k s).bind fun c s => loop f step n (k + step) (clean && c) s

/-- `trunc_tour`, bkz.cpp:387-403: `kappa = min_row, …, max_row - block_size - 1` -/
def truncTour (o : Ops σ) (bs minRow maxRow : ℤ) (s : σ) : Out σ Bool :=
  loop (fun kappa => o.svp kappa bs false) 1 (maxRow - bs - minRow).toNat minRow true s

/-- `trunc_dtour`, bkz.cpp:406-417: `kappa = max_row - block_size, …, min_row + 1` -/
def truncDtour (o : Ops σ) (bs minRow maxRow : ℤ) (s : σ) : Out σ Bool :=
  loop (fun kappa => o.svp kappa bs true) (-1) (maxRow - bs - minRow).toNat (maxRow - bs) true s

/-- `hkz`, bkz.cpp:420-441; the result of the final size reduction is ignored -/
def hkz (o : Ops σ) (minRow maxRow : ℤ) (s : σ) : Out σ Bool :=
  (loop (fun kappa => o.svp kappa (maxRow - kappa) false) 1 (maxRow - 1 - minRow).toNat minRow true s).bind fun clean s =>
  (o.sizeRed (maxRow - 1) maxRow (maxRow - 2) s).bind fun _ s => .ok clean s

/-- `tour`, bkz.cpp:361-384 -/
def tour (o : Ops σ) (bs minRow maxRow : ℤ) (s : σ) : Out σ Bool :=
  (truncTour o bs minRow maxRow s).bind fun c1 s =>
  (hkz o (max (maxRow - bs) 0) maxRow s).bind fun c2 s => .ok (c1 && c2) (o.symG s)

/-- `sd_tour`, bkz.cpp:444-463 -/
def sdTour (o : Ops σ) (bs minRow maxRow : ℤ) (s : σ) : Out σ Bool :=
  (truncDtour o bs minRow maxRow s).bind fun c1 s =>
  (truncTour o bs minRow maxRow s).bind fun c2 s => .ok (c1 && c2) s

/-- number of blocks, bkz.cpp:469-471, :649-651 -/
def numBlocks (bs minRow maxRow : ℤ) : ℤ :=
  (maxRow - minRow).tdiv bs + (if (maxRow - minRow).tmod bs ≠ 0 then 1 else 0)

/-- the `do … while (!clean)` loop of `slide_tour`, bkz.cpp:473-497 -/
def slideLoop (o : Ops σ) (bounded : Bool) (bs minRow maxRow : ℤ) : ℕ → σ → Out σ Unit
  | 0, s => .stuck s
  | fuel + 1, s =>
    (loop (fun i => o.svp (minRow + i * bs) (min (maxRow - (minRow + i * bs)) bs) false) 1 (numBlocks bs minRow maxRow).toNat 0
      true s).bind fun clean s =>
    if bounded = true then
      (o.lll minRow minRow maxRow s).bind fun r s =>
        if r.1 = false then .thrown s
        else if clean = true ∧ r.2 = false then .ok () s else slideLoop o bounded bs minRow maxRow fuel s
    else if clean = true then .ok () s
    else slideLoop o bounded bs minRow maxRow fuel s

/-- `slide_tour`, bkz.cpp:466-520; `bounded`: `BKZ_BOUNDED_LLL` -/
def slideTour (o : Ops σ) (bounded : Bool) (bs minRow maxRow : ℤ) (fuel : ℕ) (s : σ) : Out σ Bool :=
  (slideLoop o bounded bs minRow maxRow fuel s).bind fun _ s =>
  (loop (fun i => o.svp (minRow + i * bs + 1) bs true) 1 (numBlocks bs minRow maxRow - 1).toNat 0 true s).bind fun _ s =>
  .ok (o.noProgress s).1 (o.noProgress s).2

/-! ## Auto-abort -/

/-- members of `BKZAutoAbort`, bkz.h:72-77 -/
structure AutoAbort (D : Type) where
  oldSlope : D
  noDec : ℤ

/-- constructor, bkz.h:46-50: `old_slope` is the largest double -/
def AutoAbort.init {D : Type} [LE D] [OrderTop D] : AutoAbort D := ⟨⊤, -1⟩

/-- `test_abort`, bkz.cpp:800-809, when `get_current_slope` gives `-newSlope`; `scaled x`: `scale * x`.  The doubles are an
arbitrary linear order (so no NaN). -/
def AutoAbort.test {D : Type} [LinearOrder D] (scaled : D → D) (maxNoDec : ℤ) (a : AutoAbort D) (newSlope : D) :
    Bool × AutoAbort D :=
  let noDec := if a.noDec = -1 ∨ newSlope < scaled a.oldSlope then 0 else a.noDec + 1
  (decide (maxNoDec ≤ noDec), ⟨min a.oldSlope newSlope, noDec⟩)

/-! ## The main loop -/

/-- statuses set by `bkz`, defs.h:152-165 -/
inductive Status
  | success
  | loopsLimit
  | timeLimit
  deriving DecidableEq

/-- parameters and flags of `bkz()` -/
structure Cfg (D : Type) where
  blockSize : ℤ
  /-- `BKZ_SD_VARIANT` -/
  sd : Bool
  /-- `BKZ_SLD_RED` -/
  sld : Bool
  /-- `BKZ_MAX_LOOPS` and `max_loops` -/
  maxLoops : Option ℤ
  /-- `BKZ_MAX_TIME` -/
  maxTime : Bool
  /-- `BKZ_AUTO_ABORT` -/
  autoAbort : Bool
  /-- `BKZ_BOUNDED_LLL` -/
  bounded : Bool
  /-- `scale * x` -/
  scaled : D → D
  /-- `auto_abort_max_no_dec` -/
  maxNoDec : ℤ

/-- what the main loop reads from the outside world besides the tours -/
structure Env (D σ : Type) where
  /-- `cputime() - cputime_start >= max_time` before tour `i` -/
  timeUp : ℕ → σ → Bool
  /-- the negated slope before tour `i`; computing it may update the GSO object -/
  slope : ℕ → σ → D × σ

/-- one tour of the kind selected by the flags, bkz.cpp:590-602 -/
def oneTour {D : Type} (o : Ops σ) (c : Cfg D) (numRows : ℤ) (fuel : ℕ) (s : σ) : Out σ Bool :=
  if c.sd = true then sdTour o c.blockSize 0 numRows s
  else if c.sld = true then slideTour o c.bounded c.blockSize 0 numRows fuel s
  else tour o c.blockSize 0 numRows s

/-- is auto-abort on (also switched on for SD-BKZ without another termination condition, bkz.cpp:543-549)? -/
def autoOn {D : Type} (c : Cfg D) : Bool :=
  c.autoAbort || (c.sd && !(c.maxLoops.isSome || c.maxTime || c.autoAbort))

/-- the loop of `bkz()`, bkz.cpp:571-614, from iteration `i` on.  The result is `final_status` and the number of tours that
were run. -/
def mainLoop {D : Type} [LinearOrder D] (o : Ops σ) (c : Cfg D) (e : Env D σ) (numRows : ℤ) (inner : ℕ) :
    ℕ → ℕ → AutoAbort D → σ → Out σ (Status × ℕ)
  | 0, _, _, s => .stuck s
  | fuel + 1, i, a, s =>
    if c.maxLoops.any (fun m => decide (m ≤ (i : ℤ))) = true then .ok (.loopsLimit, i) s
    else if c.maxTime = true ∧ e.timeUp i s = true then .ok (.timeLimit, i) s
    else
      let t := a.test c.scaled c.maxNoDec (e.slope i s).1
      let s' := if autoOn c = true then (e.slope i s).2 else s
      if autoOn c = true ∧ t.1 = true then .ok (.success, i) s'
      else
        (oneTour o c numRows inner s').bind fun clean s =>
        if clean = true ∨ numRows ≤ c.blockSize then .ok (.success, i + 1) s
        else mainLoop o c e numRows inner fuel (i + 1) (if autoOn c = true then t.2 else a) s

/-- post-processing of slide reduction, bkz.cpp:645-657 -/
def sldFinish (o : Ops σ) (bs numRows : ℤ) (s : σ) : Out σ Bool :=
  loop (fun j => hkz o (j * bs + 1) (min numRows (j * bs + 1 + bs - 1))) 1 (numBlocks bs 0 numRows).toNat 0 true s

/-- `bkz()`, bkz.cpp:522-672.  Returns `status` and the number of tours; `prep`: `discover_all_rows` and the initial slide
potential (:561-567); the result of the initial LLL of SD-BKZ is ignored (:572-573).  The `catch (RedStatus &)` clauses are left
out since nothing throws a `RedStatus`. -/
def bkz {D : Type} [LinearOrder D] [OrderTop D] (o : Ops σ) (c : Cfg D) (e : Env D σ) (prep : σ → σ) (numRows : ℤ) (inner fuel : ℕ)
    (s : σ) : Out σ (Status × ℕ) :=
  if c.sd = true ∧ c.sld = true then .thrown s
  else if c.blockSize < 2 then .ok (.success, 0) s
  else
    (if c.sd = true then (o.lll 0 0 numRows (prep s)).bind fun _ s => .ok () s else .ok () (prep s)).bind fun _ s =>
    (mainLoop o c e numRows inner fuel 0 AutoAbort.init s).bind fun r s =>
    (if c.sd = true then hkz o (numRows - c.blockSize) numRows s else .ok true s).bind fun _ s =>
    (if c.sld = true then sldFinish o c.blockSize numRows s else .ok true s).bind fun _ s =>
    .ok r s

end BKZ
end Fplll

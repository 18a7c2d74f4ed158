import Verif.Model.StratUse

/-!
# Model of the use of the pruning vector by enumeration (fplll/enum/enumerate.h:86-112, enumerate.cpp:58-74, :218-229,
fplll/enum/enumerate_ext.cpp:48-65, :134-148)

Vectors are lists here: reading behind the end is visible (in `Model/Enum` the pruning vector is a function).
-/

namespace Fplll
namespace PruneFit

open BKZ Strat StratUse

variable {σ : Type}

/-- `for (i = 0; i < d; ++i) out[i] = f(v[i])`; `none`: `v` is too short -/
def fillFrom (f : ℚ → ℚ) (v : List ℚ) : ℕ → Option (List ℚ)
  | 0 => some []
  | d + 1 => (fillFrom f v d).bind fun l => (v[d]?).map fun c => l ++ [f c]

/-- `set_bounds`, enumerate.cpp:218-229; `fl`: rounding of the product -/
def setBounds (fl : ℚ → ℚ) (v : List ℚ) (maxdist : ℚ) (d : ℕ) : Option (List ℚ) :=
  if v.isEmpty = true then some (List.replicate d maxdist) else fillFrom (fun c => fl (c * maxdist)) v d

/-- how the enumeration of a block begins -/
inductive Start
  /-- the external enumerator is used, with these factors -/
  | external (l : List ℚ)
  /-- fplll's own enumeration is used, with these bounds -/
  | own (l : List ℚ)
  /-- a failed `FPLLL_CHECK` -/
  | aborted
  /-- the pruning vector is read behind its end -/
  | ub
  deriving DecidableEq

/-- the external enumerator: absent, present and successful, or present but unable to do the job -/
inductive Ext
  | absent
  | done
  | failed
  deriving DecidableEq

/-- `ExternalEnumeration::enumerate` up to the call, enumerate_ext.cpp:48-65, and `callback_set_config`, :134-148 -/
def extStart (v : List ℚ) (d : ℕ) : Start :=
  if v.isEmpty = true then .external (List.replicate d 1)
  else match fillFrom id v d with
    | none => .ub
    | some l => .external l

/-- `EnumerationDyn::enumerate` up to the search, enumerate.cpp:58-74, :218-229; `M`: `FPLLL_MAX_ENUM_DIM` -/
def ownStart (M : ℕ) (fl : ℚ → ℚ) (v : List ℚ) (maxdist : ℚ) (d : ℕ) : Start :=
  if d < M then
    match setBounds fl v maxdist d with
    | none => .ub
    | some l => .own l
  else .aborted

/-- `Enumeration::enumerate` for the shortest vector problem, enumerate.h:86-112 -/
def enumStart (M : ℕ) (ext : Ext) (fl : ℚ → ℚ) (v : List ℚ) (maxdist : ℚ) (d : ℕ) : Start :=
  if ext ≠ .absent ∧ ¬ (v.isEmpty = true ∨ v.length = d) then .aborted
  else if ext = .done then extStart v d
  else ownStart M fl v maxdist d

/-- block reduction whose enumerations start in this way; a run that aborts or reads outside the vector does not go on, both are
counted as `ub` -/
def guarded (M : ℕ) (ext : ℤ → ℤ → σ → Ext) (fl : ℚ → ℚ) (maxdist : ℤ → ℤ → σ → ℚ) (E : Acts σ) : Acts σ :=
  { E with after := fun k b dual p s => match enumStart M (ext k b s) fl p.coefficients (maxdist k b s) b.toNat with
    | .external _ => E.after k b dual p s
    | .own _ => E.after k b dual p s
    | .aborted => .ub s
    | .ub => .ub s }

end PruneFit
end Fplll

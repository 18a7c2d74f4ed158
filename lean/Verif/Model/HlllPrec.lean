import Mathlib.Analysis.SpecialFunctions.Log.Basic
import Mathlib.Analysis.SpecialFunctions.Pow.Real
import Mathlib.Data.Real.Sqrt

/-!
# The precision for HLLL: `hlll_min_prec`, util.cpp:110-198

Numbers of type `FP_NR<mpfr_t>` are real numbers, infinities or NaN.  Every operation is rounded by an arbitrary function `rn`; the range of exponents of `mpfr` is not modelled, and zeros have no sign (those that occur in the code are positive).
-/

namespace Fplll
namespace HlllPrec

/-- a `mpfr_t` -/
inductive X
  | fin (x : ℝ)
  | pinf
  | ninf
  | nan

namespace X

/-- `mpfr_add` -/
noncomputable def add (rn : ℝ → ℝ) : X → X → X
  | .fin x, .fin y => .fin (rn (x + y))
  | .nan, _ => .nan
  | _, .nan => .nan
  | .pinf, .ninf => .nan
  | .ninf, .pinf => .nan
  | .pinf, _ => .pinf
  | _, .pinf => .pinf
  | .ninf, _ => .ninf
  | _, .ninf => .ninf

/-- `mpfr_neg` -/
def neg : X → X
  | .fin x => .fin (-x)
  | .pinf => .ninf
  | .ninf => .pinf
  | .nan => .nan

/-- `mpfr_sub` -/
noncomputable def sub (rn : ℝ → ℝ) (a b : X) : X := add rn a (neg b)

/-- an infinity with the sign of `x`, NaN for zero -/
noncomputable def infOf (x : ℝ) : X := if 0 < x then .pinf else if x < 0 then .ninf else .nan

/-- `mpfr_mul` -/
noncomputable def mul (rn : ℝ → ℝ) : X → X → X
  | .fin x, .fin y => .fin (rn (x * y))
  | .nan, _ => .nan
  | _, .nan => .nan
  | .fin x, .pinf => infOf x
  | .pinf, .fin x => infOf x
  | .fin x, .ninf => infOf (-x)
  | .ninf, .fin x => infOf (-x)
  | .pinf, .pinf => .pinf
  | .ninf, .ninf => .pinf
  | .pinf, .ninf => .ninf
  | .ninf, .pinf => .ninf

/-- `mpfr_div` -/
noncomputable def div (rn : ℝ → ℝ) : X → X → X
  | .fin x, .fin y => if y = 0 then infOf x else .fin (rn (x / y))
  | .nan, _ => .nan
  | _, .nan => .nan
  | .fin _, _ => .fin 0
  | .pinf, .fin y => if y < 0 then .ninf else .pinf
  | .ninf, .fin y => if y < 0 then .pinf else .ninf
  | _, _ => .nan

/-- `mpfr_sqrt` -/
noncomputable def sqrt (rn : ℝ → ℝ) : X → X
  | .fin x => if x < 0 then .nan else .fin (rn (Real.sqrt x))
  | .pinf => .pinf
  | _ => .nan

/-- `mpfr_abs` -/
noncomputable def abs : X → X
  | .fin x => .fin |x|
  | .nan => .nan
  | _ => .pinf

/-- `mpfr_pow_si` for an exponent `k ≥ 0` -/
noncomputable def pow (rn : ℝ → ℝ) (a : X) (k : ℕ) : X :=
  if k = 0 then .fin 1
  else match a with
    | .fin x => .fin (rn (x ^ k))
    | .pinf => .pinf
    | .ninf => if k % 2 = 0 then .pinf else .ninf
    | .nan => .nan

/-- `mpfr_log` -/
noncomputable def log (rn : ℝ → ℝ) : X → X
  | .fin x => if 0 < x then .fin (rn (Real.log x)) else if x = 0 then .ninf else .nan
  | .pinf => .pinf
  | _ => .nan

/-- `a <= b`, false for NaN -/
def le : X → X → Prop
  | .fin x, .fin y => x ≤ y
  | .ninf, .nan => False
  | .ninf, _ => True
  | .nan, _ => False
  | .pinf, .pinf => True
  | .fin _, .pinf => True
  | _, _ => False

open Classical in
/-- `FP_NR::max_f`, nr_FP.inl:219-225: returns the larger number and changes nothing -/
noncomputable def maxF (a b : X) : X := if le a b then b else a

end X

/-- outcome: a failed check (util.cpp:112-115); the conversion of an infinity, of NaN or of a number outside the range of `int` to `int` (:193), which is undefined; the precision -/
inductive Res
  | abort
  | ub
  | ok (p : ℤ)

section
variable (rn : ℝ → ℝ)
local infixl:65 " ⊞ " => X.add rn
local infixl:65 " ⊟ " => X.sub rn
local infixl:70 " ⊠ " => X.mul rn
local infixl:70 " ⊘ " => X.div rn
local prefix:max "↟" => X.fin

/-- `alpha`, util.cpp:128-135 -/
noncomputable def alpha (δ η θ : ℝ) : X :=
  let f0 := X.sqrt rn ((↟1 ⊞ ↟θ ⊠ ↟θ) ⊠ ↟δ ⊟ ↟η ⊠ ↟η)
  (↟θ ⊠ ↟η ⊞ f0) ⊘ (↟δ ⊟ ↟η ⊠ ↟η)

/-- the two terms of the maximum, util.cpp:137-154 -/
noncomputable def term1 (η θ : ℝ) (α : X) : X :=
  let f1 := X.abs (↟1 ⊟ ↟η ⊟ ↟θ)
  (↟1 ⊞ f1 ⊠ α) ⊘ ((↟η ⊞ ↟θ) ⊠ (↟(-1) ⊞ X.sqrt rn (↟(3 / 2))))
noncomputable def term2 (d : ℕ) (η : ℝ) : X :=
  ↟4 ⊠ X.sqrt rn (↟6) ⊘ (↟1 ⊞ ↟η) ⊠ X.sqrt rn (↟1 ⊞ ↟d ⊠ ↟η ⊠ ↟η)

/-- `c0`, util.cpp:155-159.  The statement `ftmp0.max_f(ftmp1);` discards the maximum, and `ftmp0` still is the first term. -/
noncomputable def c0 (d n : ℕ) (η θ : ℝ) (α : X) : X :=
  let ftmp0 := term1 rn η θ α
  let ftmp1 := term2 rn d η
  let _ := X.maxF ftmp0 ftmp1
  ftmp0 ⊠ ↟n ⊠ X.sqrt rn (↟d)

/-- `p`, util.cpp:161-190 -/
noncomputable def pOf (d n : ℕ) (δ η θ c : ℝ) : X :=
  let α := alpha rn δ η θ
  let c1 := ↟8 ⊠ ↟d ⊠ (↟n ⊞ ↟9) ⊠ c0 rn d n η θ α
  let rho := (↟1 ⊞ ↟η ⊞ ↟θ) ⊠ α
  let phi := c1 ⊠ (↟1 ⊞ ↟1 ⊘ ↟θ) ⊠ X.pow rn rho (d + 1)
  let l2 := X.log rn (↟2)
  let f0 := X.log rn (↟d ⊠ ↟d ⊠ ↟d ⊠ phi ⊠ X.pow rn α d ⊘ ↟θ) ⊘ l2
  let p0 := f0 ⊞ ↟16 ⊞ ↟c ⊠ ↟d ⊘ ↟2
  let f0 := X.log rn (↟1 ⊟ ↟δ) ⊘ l2
  let f2 := X.log rn (↟η ⊟ ↟θ ⊟ ↟(1 / 2)) ⊘ l2
  p0 ⊞ ↟1 ⊟ f0 ⊟ f2

/-- `hlll_min_prec`, util.cpp:110-198.  `eta_d - theta_d` (:115) is an operation on `double` numbers. -/
noncomputable def hlllMinPrec (d n : ℕ) (δ η θ c : ℝ) : Res :=
  if ¬ (δ < 1 ∧ 1 / 4 ≤ δ) then .abort
  else if ¬ 0 ≤ θ then .abort
  else if ¬ 1 / 2 ≤ η then .abort
  else if ¬ 1 / 2 < rn (η - θ) then .abort
  else match pOf rn d n δ η θ c with
    | .fin p => if -2 ^ 31 ≤ ⌈p⌉ ∧ ⌈p⌉ < 2 ^ 31 then .ok ⌈p⌉ else .ub
    | _ => .ub

end

end HlllPrec
end Fplll

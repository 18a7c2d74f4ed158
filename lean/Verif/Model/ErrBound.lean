import Verif.Model.Enum

/-!
# Model of `ErrorBoundedEvaluator` (fplll/enum/evaluator.cpp:20-269, 345-355)

Bounds on the error of the squared norms computed by the enumeration.

Simplifications: `FP_NR<mpfr_t>` is `ℚ` with one function per rounding mode; the precision is at least 53, so that
assigning a `double` is exact; no overflow and no underflow.  `FPLLL_CHECK(input_error_defined)` is left out:
`init_delta_def` sets it.
-/

namespace Fplll
namespace ErrB

/-- arithmetic of `FP_NR<mpfr_t>`: rounding to nearest, down and up, and the square root rounded up -/
structure Arith where
  rn : ℚ → ℚ
  rd : ℚ → ℚ
  ru : ℚ → ℚ
  sqrtU : ℚ → ℚ

/-- the members of `ErrorBoundedEvaluator`, evaluator.h:283-293 -/
structure Dat where
  d : ℕ
  mu : ℕ → ℕ → ℚ
  /-- diagonal of `r` -/
  r : ℕ → ℚ
  /-- `max_dr_diag` -/
  dr : ℕ → ℚ
  /-- `max_dm_u` -/
  dm : ℕ → ℚ
  /-- `get_d()`: rounding to `double` -/
  getD : ℚ → ℚ

/-- `halfULP`, evaluator.cpp:88-89: `numeric_limits<double>::epsilon() / 2` -/
def hu : ℚ := 1 / 2 ^ 53

/-- `maxRelDR`, evaluator.cpp:33-37; `mul_2si` and the assignment of `d` are exact -/
def maxRelDR (A : Arith) (prec : ℤ) (rho : ℚ) (d j : ℕ) : ℚ := A.ru (d * 2 ^ (2 - prec) * A.ru (rho ^ (j + 1)))

/-- `max_dr_diag[j]`, evaluator.cpp:38-42, :54; `rj` is `r(j, j)`, `toD` is `withRoundingToEnumf` -/
def initDr (A : Arith) (prec : ℤ) (rho : ℚ) (d : ℕ) (rj : ℚ) (toD : Bool) (j : ℕ) : ℚ :=
  let m := maxRelDR A prec rho d j
  let x := A.rn (A.ru (m / A.rd (1 - m)) * rj)
  if toD then A.ru (x + rj * hu) else x

/-- `max_dm_u[j]`, evaluator.cpp:44-47, :55 -/
def initDm (A : Arith) (prec : ℤ) (rho : ℚ) (d : ℕ) (toD : Bool) (j : ℕ) : ℚ :=
  let x := A.ru (d * 2 ^ (4 - prec) * A.ru (rho ^ (j + 1)))
  if toD then A.ru (x + hu) else x

/-- `init_delta_def(prec, rho, true)`, evaluator.cpp:20-58 -/
def initDelta (A : Arith) (prec : ℤ) (rho : ℚ) (d : ℕ) (mu : ℕ → ℕ → ℚ) (r : ℕ → ℚ) (getD : ℚ → ℚ) : Dat where
  d := d
  mu := mu
  r := r
  dr j := initDr A prec rho d (r j) true j
  dm j := initDm A prec rho d true j
  getD := getD

/-- `K`, evaluator.cpp:90-91 -/
def bigK (A : Arith) : ℚ := A.ru (1 + hu)

/-- `maxC`, `maxCTilde`, `maxDC` -/
structure CAcc where
  c : ℚ
  ct : ℚ
  dc : ℚ

/-- body of the loop over `j`, evaluator.cpp:111-125 -/
def cBody (A : Arith) (q : Dat) (X : ℕ → ℚ) (i j : ℕ) (w : CAcc) : CAcc :=
  let maxMu := A.ru (|q.mu j i| + q.dm i)
  let c := A.ru (w.c + maxMu * X j)
  let mx := A.ru (|q.getD (q.mu j i)| * X j)
  let dc1 := A.rn (w.dc + q.dm i * X j)
  let dc2 := A.ru (dc1 + mx * hu)
  let mx' := A.ru (mx * bigK A)
  let ct1 := A.ru (w.ct + mx' * bigK A)
  let dc3 := A.ru (dc2 + ct1 * hu)
  let ct2 := A.ru (ct1 * bigK A)
  ⟨c, ct2, dc3⟩

/-- the loop over `j`, evaluator.cpp:95-97, :109-126 -/
def cLoop (A : Arith) (q : Dat) (X : ℕ → ℚ) (i : ℕ) : CAcc :=
  forDown (i + 1) q.d (fun j w => cBody A q X i j w) ⟨0, 0, 0⟩

/-- `maxYTilde`, `maxDY`, `maxX[i]` and `tmp1` after the branches on `boundOnExactVal`, evaluator.cpp:128-166 -/
structure YAcc where
  yt : ℚ
  dy : ℚ
  x : ℚ
  t : ℚ

/-- the branch `boundOnExactVal`, evaluator.cpp:130-146; `none`: returns false -/
def yExact (A : Arith) (q : Dat) (md : ℚ) (i : ℕ) (w : CAcc) : Option YAcc :=
  let minR := A.rd (q.r i - q.dr i)
  if minR ≤ 0 then none
  else
    let y := A.sqrtU (A.ru (md / minR))
    let dy := A.ru (A.ru (y * hu) + w.dc * bigK A)
    some ⟨A.ru (y + dy), dy, ⌊A.rd (y + w.c)⌋, y⟩

/-- the other branch, evaluator.cpp:150-166; `rdiagTilde` (:99-102) is `getD (r i)` -/
def yComp (A : Arith) (q : Dat) (md : ℚ) (i : ℕ) (w : CAcc) : YAcc :=
  let yt := A.sqrtU (A.ru (A.ru (A.ru (md * bigK A) / q.getD (q.r i)) * bigK A))
  let dy := A.ru (A.ru (yt * hu) + w.dc)
  ⟨yt, dy, ⌊A.rd (w.ct + yt * bigK A)⌋, yt⟩

/-- `maxDRY2`, evaluator.cpp:169-188 -/
def dry2 (A : Arith) (q : Dat) (i : ℕ) (y : YAcc) : ℚ :=
  let a := A.ru (A.rn (y.dy * y.t) * 2 + y.dy * y.dy)
  let y2 := A.ru (y.yt * y.yt)
  let a' := A.ru (a + y2 * hu)
  let y2' := A.ru (y2 * bigK A)
  let maxR := A.ru (q.r i + q.dr i)
  let ry := A.ru (q.getD (q.r i) * y2')
  A.ru (A.ru (A.ru (maxR * a') + y2' * q.dr i) + ry * hu)

/-- the end of the body of the main loop, evaluator.cpp:205-207 -/
def deStep (A : Arith) (md de x : ℚ) : ℚ := A.ru (A.ru (A.ru (de + x) * bigK A) + md * hu)

/-- body of the main loop, evaluator.cpp:93-208: the array `maxX` and `maxDE` -/
def level (A : Arith) (q : Dat) (md : ℚ) (exact : Bool) (i : ℕ) (s : (ℕ → ℚ) × ℚ) : Option ((ℕ → ℚ) × ℚ) :=
  let w := cLoop A q s.1 i
  match (if exact then yExact A q md i w else some (yComp A q md i w)) with
  | none => none
  | some y => some (Enum.setAt s.1 i y.x, deStep A md s.2 (dry2 A q i y))

/-- the main loop of `get_max_error_aux`, evaluator.cpp:75-209: the array `maxX` and `maxDE`; `none`: returns false -/
def maxErrorSt (A : Arith) (q : Dat) (md : ℚ) (exact : Bool) : Option ((ℕ → ℚ) × ℚ) :=
  forDown 0 q.d (fun i s => s.bind (level A q md exact i)) (some (fun _ => 0, 0))

/-- `get_max_error_aux`, evaluator.cpp:75-211; `none`: returns false -/
def maxErrorAux (A : Arith) (q : Dat) (md : ℚ) (exact : Bool) : Option ℚ := (maxErrorSt A q md exact).map (·.2)

/-- `FastErrorBoundedEvaluator::get_max_error`, evaluator.cpp:247-269, with a solution present; `none`: returns
false -/
def maxError (A : Arith) (q : Dat) (dist : ℚ) : Option ℚ :=
  match maxErrorAux A q dist false with
  | none => none
  | some de =>
    let maxE := A.ru (dist + de)
    match maxErrorAux A q maxE true with
    | none => none
    | some opt => some (A.ru (A.ru (maxE / A.rd (dist - opt)) - 1))

end ErrB
end Fplll

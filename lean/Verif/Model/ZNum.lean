import Verif.Model.FpConv
import Verif.Model.Matrix

/-!
# The integer types `Z_NR<mpz_t>`, `Z_NR<long>`, `Z_NR<double>` (fplll/nr/nr_Z_mpz.inl, nr_Z_l.inl, nr_Z_d.inl)

The arithmetic functions of the three types, and the row operations of `MatGSO` on the basis with each of them.
GMP's functions are the exact ones.
-/

namespace Fplll
namespace ZNum

/-- what can go wrong -/
inductive Err where
  | overflow   -- signed overflow (undefined behaviour)
  | shift      -- shift by 64 or more (undefined behaviour)
  | divZero    -- division by zero
  | notFinite  -- a double overflows
deriving DecidableEq, Repr

/-- the functions `data.op(a, b)`; `data` is the old value, `b` is ignored by unary functions -/
inductive Op where
  | add | addUi | sub | subUi | mod | neg | mul | mulSi | mulUi | mul2si | div2si
  | addmul | addmulUi | addmulSi | submul | submulUi | abs
deriving DecidableEq, Repr

/-- `Z_NR<mpz_t>`, nr_Z_mpz.inl:109-196.  `mpz_mod` is never negative; `mpz_div_2exp` rounds down; `addmul_si` negates its
argument as a `long` (lines 178-184). -/
def mpz (o : Op) (data a b : ℤ) : Except Err ℤ :=
  match o with
  | .add => .ok (a + b)
  | .addUi => .ok (a + b)
  | .sub => .ok (a - b)
  | .subUi => .ok (a - b)
  | .mod => if b = 0 then .error .divZero else .ok (a % b)
  | .neg => .ok (-a)
  | .mul => .ok (a * b)
  | .mulSi => .ok (a * b)
  | .mulUi => .ok (a * b)
  | .mul2si => .ok (if 0 ≤ b then a * 2 ^ b.toNat else a / 2 ^ (-b).toNat)
  | .div2si => .ok (if 0 ≤ b then a / 2 ^ b.toNat else a * 2 ^ (-b).toNat)
  | .addmul => .ok (data + a * b)
  | .addmulUi => .ok (data + a * b)
  | .addmulSi => if 0 ≤ b then .ok (data + a * b) else if b = -2 ^ 63 then .error .overflow else .ok (data - a * -b)
  | .submul => .ok (data - a * b)
  | .submulUi => .ok (data - a * b)
  | .abs => .ok |a|

/-- values of `long` -/
def InRange (z : ℤ) : Prop := -2 ^ 63 ≤ z ∧ z < 2 ^ 63

instance (z : ℤ) : Decidable (InRange z) := by unfold InRange; infer_instance

/-- conversion to `long` modulo `2^64` -/
def wrap (z : ℤ) : ℤ := (z + 2 ^ 63) % 2 ^ 64 - 2 ^ 63

/-- signed arithmetic: `strict` is the standard (overflow is undefined), otherwise two's complement arithmetic (`-fwrapv`,
what the machine instructions do) -/
def chk (strict : Bool) (z : ℤ) : Except Err ℤ :=
  if strict then (if InRange z then .ok z else .error .overflow) else .ok (wrap z)

/-- `Z_NR<long>`, nr_Z_l.inl:109-187.  A product with an `unsigned long` is computed modulo `2^64` and never undefined.  The
left shift of a negative number is taken to be defined (as in GCC and C++20). -/
def long (strict : Bool) (o : Op) (data a b : ℤ) : Except Err ℤ :=
  match o with
  | .add => chk strict (a + b)
  | .addUi => chk strict (a + b)
  | .sub => chk strict (a - b)
  | .subUi => chk strict (a - b)
  | .mod => if b = 0 then .error .divZero else if a = -2 ^ 63 ∧ b = -1 then .error .overflow else .ok (a.tmod b)
  | .neg => chk strict (-a)
  | .mul => chk strict (a * b)
  | .mulSi => chk strict (a * b)
  | .mulUi => .ok (wrap (a * b))
  | .mul2si =>
    if 0 ≤ b then (if 64 ≤ b then .error .shift else chk strict (a * 2 ^ b.toNat))
    else if 64 ≤ -b then .error .shift else .ok (a / 2 ^ (-b).toNat)
  | .div2si =>
    if 0 ≤ b then (if 64 ≤ b then .error .shift else .ok (a / 2 ^ b.toNat))
    else if 64 ≤ -b then .error .shift else chk strict (a * 2 ^ (-b).toNat)
  | .addmul => do let p ← chk strict (a * b); chk strict (data + p)
  | .addmulUi => .ok (wrap (data + a * b))
  | .addmulSi => do let p ← chk strict (a * b); chk strict (data + p)
  | .submul => do let p ← chk strict (a * b); chk strict (data - p)
  | .submulUi => .ok (wrap (data - a * b))
  | .abs => chk strict |a|

/-- an operation on doubles: rounded to nearest -/
def fl (q : ℚ) : Except Err ℚ :=
  let v := FpConv.rnd FpConv.dbl q
  if |v| < 2 ^ 1024 then .ok v else .error .notFinite

/-- `Z_NR<double>`, nr_Z_d.inl:135-213, for operands that are integers; the result need not be one.  Every operation is
rounded on its own (no contraction to fused operations).  The operands `b` of `_si` and `_ui` functions are converted to
`double` first. -/
def dbl (o : Op) (data a b : ℤ) : Except Err ℚ :=
  match o with
  | .add => fl (a + b)
  | .addUi => do let b ← fl b; fl (a + b)
  | .sub => fl (a - b)
  | .subUi => do let b ← fl b; fl (a - b)
  | .mod => if b = 0 then .error .divZero else .ok (a.tmod b)
  | .neg => .ok (-a)
  | .mul => fl (a * b)
  | .mulSi => do let b ← fl b; fl (a * b)
  | .mulUi => do let b ← fl b; fl (a * b)
  | .mul2si => fl (a * 2 ^ wrap32 b)
  | .div2si => fl (a * 2 ^ wrap32 (-b))
  | .addmul => do let p ← fl (a * b); fl (data + p)
  | .addmulUi => do let b ← fl b; let p ← fl (a * b); fl (data + p)
  | .addmulSi => do let b ← fl b; let p ← fl (a * b); fl (data + p)
  | .submul => do let p ← fl (a * b); fl (data - p)
  | .submulUi => do let b ← fl b; let p ← fl (a * b); fl (data - p)
  | .abs => .ok |(a : ℚ)|

/-! ## Row operations on the basis -/

/-- the loops of nr/numvect.h:268-341: `for (i = n - 1; i >= 0; i--) data[i] = f(data[i], v[i])` -/
def vecLoop (f : ℤ → ℤ → Except Err ℤ) (w : ℕ → ℤ) : ℕ → (ℕ → ℤ) → Except Err (ℕ → ℤ)
  | 0, v => .ok v
  | n + 1, v => do
    let y ← f (v n) (w n)
    vecLoop f w n (setAt v n y)

/-- the operations of `MatGSO` on the basis, gso.cpp:84-262: `row_add`, `row_sub`, `row_addmul_si`,
`row_addmul_si_2exp`, `row_addmul_2exp`, `row_swap` -/
inductive RowOp where
  | add (i j : ℕ)
  | sub (i j : ℕ)
  | addmulSi (i j : ℕ) (x : ℤ)
  | addmulSi2exp (i j : ℕ) (x : ℤ) (expo : ℕ)
  | addmul2exp (i j : ℕ) (x : ℤ) (expo : ℕ)
  | swap (i j : ℕ)
deriving DecidableEq, Repr

/-- one row operation with the numbers `ev`; `n` columns.  Transform and Gram matrix are not modelled here (`long` bases are
used without them, wrapper.cpp:286-290). -/
def rowOp (ev : Op → ℤ → ℤ → ℤ → Except Err ℤ) (n : ℕ) (b : Mat ℤ) : RowOp → Except Err (Mat ℤ)
  | .add i j => do let v ← vecLoop (fun y w => ev .add y y w) (b j) n (b i); return setAt b i v
  | .sub i j => do let v ← vecLoop (fun y w => ev .sub y y w) (b j) n (b i); return setAt b i v
  | .addmulSi i j x => do let v ← vecLoop (fun y w => ev .addmulSi y w x) (b j) n (b i); return setAt b i v
  | .addmulSi2exp i j x e => do
    let v ← vecLoop (fun y w => do let t ← ev .mulSi 0 w x; let t ← ev .mul2si t t e; ev .add y y t) (b j) n (b i)
    return setAt b i v
  | .addmul2exp i j x e => do
    let v ← vecLoop (fun y w => do let t ← ev .mul 0 w x; let t ← ev .mul2si t t e; ev .add y y t) (b j) n (b i)
    return setAt b i v
  | .swap i j => .ok (setAt (setAt b i (b j)) j (b i))

/-- a sequence of row operations -/
def rowOps (ev : Op → ℤ → ℤ → ℤ → Except Err ℤ) (n : ℕ) : List RowOp → Mat ℤ → Except Err (Mat ℤ)
  | [], b => .ok b
  | o :: l, b => do let b ← rowOp ev n b o; rowOps ev n l b

end ZNum
end Fplll

import Verif.Model.GSO

/-!
# Model of the coordinate conversions and of Babai rounding (fplll/gso.cpp:405-509, gso_interface.cpp:277-310)

Exact arithmetic: `get_mu`, `get_r` are the functions `mu`, `r`, and `b[i][j].get_f_exp` followed by `mul_2si` is
the value of the entry.  The rounding `FP_NR::rnd` (`rint` for `double`, `mpfr_round` for `mpfr_t`: they differ on
ties) is a parameter `rd`.
-/

namespace Fplll

/-- `MatGSO::from_canonical(v, w, start, dim)`, gso.cpp:437-477; `b` has `n` columns -/
def fromCanonical (n : ℕ) (b : ℕ → ℕ → ℚ) (mu : ℕ → ℕ → ℚ) (r : ℕ → ℚ) (start dim : ℕ) (w : ℕ → ℚ) : ℕ → ℚ :=
  let x : ℕ → ℚ := forUp 0 (start + dim) (fun i (x : ℕ → ℚ) =>
    setAt x i (forUp 0 n (fun j t => t + b i j * w j) 0)) (fun _ => 0)
  let x : ℕ → ℚ := forUp 0 (start + dim) (fun i (x : ℕ → ℚ) =>
    forUp 0 i (fun j (x : ℕ → ℚ) => setAt x i (x i - mu i j * x j)) x) x
  let x : ℕ → ℚ := forUp 0 dim (fun i (x : ℕ → ℚ) => setAt x (i + start) (x (i + start) / r (start + i))) x
  fun i => if i < dim then x (start + i) else 0

/-- `MatGSO::to_canonical(w, v, start)`, gso.cpp:405-434, for `v` of `sz` entries; `d` rows, `n` columns -/
def toCanonical (d n : ℕ) (b : ℕ → ℕ → ℚ) (mu : ℕ → ℕ → ℚ) (sz start : ℕ) (v : ℕ → ℚ) : ℕ → ℚ :=
  let dim := if sz < d - start then sz else d - start
  let x : ℕ → ℚ := forDown 0 dim (fun i (x : ℕ → ℚ) =>
    forUp (i + 1) dim (fun j (x : ℕ → ℚ) => setAt x i (x i - mu (start + j) (start + i) * x j)) x) v
  forUp 0 n (fun j (w : ℕ → ℚ) => setAt w j (forUp 0 dim (fun i t => t + b (start + i) j * x i) 0)) (fun _ => 0)

/-- the rounding loop of `MatGSOInterface::babai`, gso_interface.cpp:297-305, on rows `start, …` -/
def babaiRound (rd : ℚ → ℤ) (mu : ℕ → ℕ → ℚ) (start dim : ℕ) (x : ℕ → ℚ) : ℕ → ℚ :=
  forDown 0 dim (fun i (x : ℕ → ℚ) =>
    let x := setAt x i (rd (x i) : ℚ)
    forUp 0 i (fun j (y : ℕ → ℚ) => setAt y j (y j - mu (start + i) (start + j) * y i)) x) x

/-- `MatGSO::babai(w, v, start, dimension, gso)`, gso.cpp:495-509, gso_interface.cpp:291-310; `set_f` of an
integral value is this value. -/
def matBabai (rd : ℚ → ℤ) (n : ℕ) (b : ℕ → ℕ → ℚ) (mu : ℕ → ℕ → ℚ) (r : ℕ → ℚ) (start dim : ℕ) (gso : Bool)
    (v : ℕ → ℚ) : ℕ → ℤ :=
  let x := if gso then v else fromCanonical n b mu r start dim v
  fun i => if i < dim then ⌊babaiRound rd mu start dim x i⌋ else 0

end Fplll

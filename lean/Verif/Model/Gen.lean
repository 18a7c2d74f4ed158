import Verif.Model.Matrix

/-!
# Model of the lattice generators (fplll/nr/matrix.cpp:227-498), of `convert` (:500-523) and of
`zeros_first`, `zeros_last` (fplll/util.cpp:257-287)

The previous content `m` of the matrix is arbitrary.  Random numbers: the value drawn for entry `(i, j)` is
`rnd i j`, an arbitrary natural number, reduced to the range of the generator (`randb(bits)`: below `2^bits`,
`randm(q)`: below `q`); the order of the draws does not matter since the values are arbitrary.
`FPLLL_ABORT` and accesses out of range are `none`.
-/

namespace Fplll
namespace Gen

/-- `for (i = i0; i < i1; i++) for (j = j0; j < j1; j++) matrix[i][j] = f i j` -/
def setRect (i0 i1 : ℕ) (j0 j1 : ℕ → ℕ) (f : ℕ → ℕ → ℤ) (m : Mat ℤ) : Mat ℤ :=
  forUp i0 i1 (fun i (m : Mat ℤ) => forUp (j0 i) (j1 i) (fun j (m : Mat ℤ) => m.set i j (f i j)) m) m

/-- `for (i = i0; i < i1; i++) matrix[i][i] = x` -/
def setDiag (i0 i1 : ℕ) (x : ℤ) (m : Mat ℤ) : Mat ℤ := forUp i0 i1 (fun i (m : Mat ℤ) => m.set i i x) m

/-- `randb(bits)` -/
def randb (x bits : ℕ) : ℤ := (x % 2 ^ bits : ℕ)
/-- `randm(q)` -/
def randm (x q : ℕ) : ℤ := (x % q : ℕ)

/-- `gen_intrel(bits)`, matrix.cpp:229-250 -/
def intrel (r c bits : ℕ) (rnd : ℕ → ℕ → ℕ) (m : Mat ℤ) : Option (Mat ℤ) :=
  if c ≠ r + 1 then none
  else some (forUp 0 r (fun i (m : Mat ℤ) =>
    let m : Mat ℤ := m.set i 0 (randb (rnd i 0) bits)
    let m : Mat ℤ := forUp 1 (i + 1) (fun j (m : Mat ℤ) => m.set i j 0) m
    let m : Mat ℤ := m.set i (i + 1) 1
    forUp (i + 2) c (fun j (m : Mat ℤ) => m.set i j 0) m) m)

/-- `gen_simdioph(bits, bits2)`, matrix.cpp:252-274 -/
def simdioph (r c bits bits2 : ℕ) (rnd : ℕ → ℕ → ℕ) (m : Mat ℤ) : Option (Mat ℤ) :=
  if c ≠ r then none
  else if r = 0 then none
  else
    let m : Mat ℤ := m.set 0 0 (1 * 2 ^ bits2)
    let m : Mat ℤ := forUp 1 r (fun i (m : Mat ℤ) => m.set 0 i (randb (rnd 0 i) bits)) m
    some (forUp 1 r (fun i (m : Mat ℤ) =>
      let m : Mat ℤ := forUp 1 i (fun j (m : Mat ℤ) => m.set j i 0) m
      let m : Mat ℤ := m.set i i (1 * 2 ^ bits)
      forUp (i + 1) c (fun j (m : Mat ℤ) => m.set j i 0) m) m)

/-- `gen_uniform(bits)`, matrix.cpp:276-286 -/
def uniform (r c bits : ℕ) (rnd : ℕ → ℕ → ℕ) (m : Mat ℤ) : Option (Mat ℤ) :=
  if c ≠ r then none else some (setRect 0 r (fun _ => 0) (fun _ => c) (fun i j => randb (rnd i j) bits) m)

/-- the polynomial `h` of matrix.cpp:304-312, :367-375; `d ≥ 1` -/
def ntruH (d q : ℕ) (rnd : ℕ → ℕ → ℕ) : ℕ → ℤ :=
  forUp 1 d (fun i (h : ℕ → ℤ) =>
    let h : ℕ → ℤ := setAt h i (randm (rnd 0 i) q)
    let h : ℕ → ℤ := setAt h 0 (h 0 - h i)
    if h 0 < 0 then setAt h 0 (h 0 + q) else h) (fun _ => 0)

/-- `while (k < 0) k += d`, matrix.cpp:342-345; simplification: at most `fuel` rounds -/
def wrapIdx (d : ℕ) : ℕ → ℤ → ℤ
  | 0, k => k
  | f + 1, k => if k < 0 then wrapIdx d f (k + d) else k

/-- `gen_ntrulike(q)`, matrix.cpp:288-352; `d = r / 2`.  For `d = 0` the statement `h[0] = 0` writes outside of the
array. -/
def ntrulike (r c q : ℕ) (rnd : ℕ → ℕ → ℕ) (m : Mat ℤ) : Option (Mat ℤ) :=
  let d := r / 2
  if c ≠ r ∨ c ≠ 2 * d then none
  else if d = 0 then none
  else
    let h := ntruH d q rnd
    -- I in A00
    let m : Mat ℤ := forUp 0 d (fun i (m : Mat ℤ) =>
      let m : Mat ℤ := forUp 0 i (fun j (m : Mat ℤ) => m.set i j 0) m
      let m : Mat ℤ := m.set i i 1
      forUp (i + 1) d (fun j (m : Mat ℤ) => m.set i j 0) m) m
    -- 0 in A10
    let m : Mat ℤ := setRect d r (fun _ => 0) (fun _ => d) (fun _ _ => 0) m
    -- qI in A11
    let m : Mat ℤ := forUp d r (fun i (m : Mat ℤ) =>
      let m : Mat ℤ := forUp d i (fun j (m : Mat ℤ) => m.set i j 0) m
      let m : Mat ℤ := m.set i i q
      forUp (i + 1) c (fun j (m : Mat ℤ) => m.set i j 0) m) m
    -- H in A01
    some (setRect 0 d (fun _ => d) (fun _ => c) (fun i j => h (wrapIdx d d ((j : ℤ) - d - i)).toNat) m)

/-- `gen_ntrulike2(q)`, matrix.cpp:354-405 -/
def ntrulike2 (r c q : ℕ) (rnd : ℕ → ℕ → ℕ) (m : Mat ℤ) : Option (Mat ℤ) :=
  let d := r / 2
  if c ≠ r ∨ c ≠ 2 * d then none
  else if d = 0 then none
  else
    let h := ntruH d q rnd
    let m : Mat ℤ := setRect 0 d (fun _ => 0) (fun _ => c) (fun _ _ => 0) m
    let m : Mat ℤ := setDiag 0 d q m
    let m : Mat ℤ := setRect d r (fun _ => d) (fun _ => c) (fun _ _ => 0) m
    let m : Mat ℤ := setDiag d c 1 m
    some (setRect d r (fun _ => 0) (fun _ => d) (fun i j => h (wrapIdx d d ((i : ℤ) - d - j)).toNat) m)

/-- `gen_qary(k, q)`, matrix.cpp:407-434; `k ≥ 0` -/
def qary (r c k q : ℕ) (rnd : ℕ → ℕ → ℕ) (m : Mat ℤ) : Option (Mat ℤ) :=
  let d := r
  if c ≠ r ∨ k > r then none
  else
    let m : Mat ℤ := setRect 0 (d - k) (fun _ => 0) (fun _ => d - k) (fun _ _ => 0) m
    let m : Mat ℤ := setDiag 0 (d - k) 1 m
    let m : Mat ℤ := setRect 0 (d - k) (fun _ => d - k) (fun _ => d) (fun i j => randm (rnd i j) q) m
    let m : Mat ℤ := setRect (d - k) d (fun _ => 0) (fun _ => d) (fun _ _ => 0) m
    some (setDiag (d - k) d q m)

/-- `gen_trg(alpha)`, matrix.cpp:436-469: `bits i` is `(int)pow(2*d - i, alpha)`, `sgn` the random signs.  For `bits i = 0`
the modulus of the first `randm` is zero: GMP divides by zero. -/
def trg (r c : ℕ) (bits : ℕ → ℕ) (rnd : ℕ → ℕ → ℕ) (sgn : ℕ → ℕ → Bool) (m : Mat ℤ) : Option (Mat ℤ) :=
  let d := r
  if c ≠ r then none
  else if (List.range d).any (fun i => bits i = 0) then none
  else some (forUp 0 d (fun i (m : Mat ℤ) =>
    let m : Mat ℤ := m.set i i (randm (rnd i i) (2 ^ bits i - 1))
    let m : Mat ℤ := m.set i i (m i i + 2)
    let ztmp : ℤ := m i i / 2
    forUp (i + 1) d (fun j (m : Mat ℤ) =>
      let m : Mat ℤ := m.set j i (randm (rnd j i) ztmp.toNat)
      let m : Mat ℤ := if sgn j i then m.set j i (0 - m j i) else m
      m.set i j 0) m) m)

/-- `gen_trg2(w)`, matrix.cpp:471-498; `w i` is the integer that `set_f(w[i])` stores (its rounding is not modelled), at
least 0.  `sgn j i` is `rand() % 2 == 1`. -/
def trg2 (r c : ℕ) (w : ℕ → ℤ) (rnd : ℕ → ℕ → ℕ) (sgn : ℕ → ℕ → Bool) (m : Mat ℤ) : Option (Mat ℤ) :=
  let d := r
  if c ≠ r then none
  else some (forUp 0 d (fun i (m : Mat ℤ) =>
    let m : Mat ℤ := m.set i i (w i)
    let ztmp : ℤ := m i i / 2
    let ztmp : ℤ := ztmp + 1
    forUp (i + 1) d (fun j (m : Mat ℤ) =>
      let m : Mat ℤ := m.set j i (randm (rnd j i) ztmp.toNat)
      let m : Mat ℤ := if sgn j i then m.set j i (0 - m j i) else m
      m.set i j 0) m) m)

/-- `convert(Ato, Afrom, buffer)`, matrix.cpp:500-523, for `0 ≤ buffer ≤ 62`: the result and the content of `Ato`,
initially `junk`.  `getSi` is `get_si`, exact on the range of `long`. -/
def convertLoop (buffer : ℕ) (A : Mat ℤ) (getSi : ℤ → ℤ) : List (ℕ × ℕ) → Mat ℤ → Bool × Mat ℤ
  | [], B => (true, B)
  | (i, j) :: l, B =>
    if |A i j| > 2 ^ (63 - buffer - 1) then (false, B)
    else convertLoop buffer A getSi l (B.set i j (getSi (A i j)))

/-- see `convertLoop`; the pairs `(i, j)` in the order of the two loops -/
def convert (r c buffer : ℕ) (A : Mat ℤ) (getSi : ℤ → ℤ) (junk : Mat ℤ) : Bool × Mat ℤ :=
  convertLoop buffer A getSi ((List.range r).flatMap fun i => (List.range c).map fun j => (i, j)) junk

/-- `b[i].is_zero()` for a row of `c` entries -/
def rowZero (c : ℕ) (v : ℕ → ℤ) : Bool := (List.range c).all fun j => v j = 0

/-- the loop of `zeros_first`, util.cpp:260-262 -/
def lastNonzero (c : ℕ) (b : Mat ℤ) : ℕ → ℕ
  | 0 => 0
  | i + 1 => if rowZero c (b i) then lastNonzero c b i else i + 1

/-- the loop of `zeros_last`, util.cpp:276-278, from row `i` on, `k` rows left -/
def firstNonzero (c : ℕ) (b : Mat ℤ) (i : ℕ) : ℕ → ℕ
  | 0 => i
  | k + 1 => if rowZero c (b i) then firstNonzero c b (i + 1) k else i

/-- the three matrices handled together; `u`, `v` are `none` when empty -/
structure Triple where
  b : Mat ℤ
  u : Option (Mat ℤ)
  v : Option (Mat ℤ)

/-- util.cpp:263-270, :279-286 -/
def rotateAll (d i : ℕ) (t : Triple) : Triple :=
  if 0 < i ∧ i < d then
    ⟨rotateBySwap t.b 0 i d, t.u.map fun u => rotateBySwap u 0 i d, t.v.map fun v => rotateBySwap v 0 i d⟩
  else t

/-- `zeros_first(b, u, u_inv_t)`, util.cpp:257-271 -/
def zerosFirst (d c : ℕ) (t : Triple) : Triple := rotateAll d (lastNonzero c t.b d) t

/-- `zeros_last(b, u, u_inv_t)`, util.cpp:273-287 -/
def zerosLast (d c : ℕ) (t : Triple) : Triple := rotateAll d (firstNonzero c t.b 0 d) t

end Gen
end Fplll

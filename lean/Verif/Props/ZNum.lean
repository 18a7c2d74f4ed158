import Verif.Model.ZNum
import Verif.Proofs.FpConv

/-!
# C76: the integer types compute the same numbers
-/

namespace Fplll
namespace ZNum

/-- specification: the number that `data.op(a, b)` stands for -/
def exact (o : Op) (data a b : ℤ) : ℤ :=
  match o with
  | .add | .addUi => a + b
  | .sub | .subUi => a - b
  | .mod => a % b
  | .neg => -a
  | .mul | .mulSi | .mulUi => a * b
  | .mul2si => ⌊(a : ℚ) * 2 ^ b⌋
  | .div2si => ⌊(a : ℚ) * 2 ^ (-b)⌋
  | .addmul | .addmulUi | .addmulSi => data + a * b
  | .submul | .submulUi => data - a * b
  | .abs => |a|

theorem floor_shift (a b : ℤ) : (if 0 ≤ b then a * 2 ^ b.toNat else a / 2 ^ (-b).toNat) = ⌊(a : ℚ) * 2 ^ b⌋ := by
  by_cases h : 0 ≤ b
  · rw [if_pos h]
    obtain ⟨n, rfl⟩ := Int.eq_ofNat_of_zero_le h
    have : (a : ℚ) * 2 ^ ((n : ℕ) : ℤ) = ((a * 2 ^ n : ℤ) : ℚ) := by push_cast; rw [zpow_natCast]
    rw [this, Int.floor_intCast]
    simp
  · rw [if_neg h]
    obtain ⟨n, hn⟩ := Int.eq_ofNat_of_zero_le (by omega : 0 ≤ -b)
    have hb : b = -(n : ℤ) := by omega
    subst hb
    rw [neg_neg, Int.toNat_natCast, zpow_neg, zpow_natCast, ← div_eq_mul_inv]
    have : ((2 : ℚ) ^ n) = ((2 ^ n : ℕ) : ℚ) := by push_cast; rfl
    rw [this, Rat.floor_intCast_div_natCast]
    push_cast; rfl

theorem floor_shift' (a b : ℤ) : (if 0 ≤ b then a / 2 ^ b.toNat else a * 2 ^ (-b).toNat) = ⌊(a : ℚ) * 2 ^ (-b)⌋ := by
  rw [← floor_shift a (-b)]
  by_cases h : 0 ≤ b
  · rw [if_pos h]
    by_cases h0 : b = 0
    · subst h0; simp
    · rw [if_neg (by omega), neg_neg]
  · rw [if_neg h, if_pos (by omega)]

/-- **C76** (`mpz_t`): every function returns the number it stands for, except division by zero and `addmul_si` with the
least `long`. -/
theorem C76_mpz (o : Op) (data a b : ℤ) (h1 : o = .mod → b ≠ 0) (h2 : o = .addmulSi → b ≠ -2 ^ 63) :
    mpz o data a b = .ok (exact o data a b) := by
  cases o <;> simp only [mpz, exact]
  case mod => rw [if_neg (h1 rfl)]
  case mul2si => rw [floor_shift]
  case div2si => rw [floor_shift']
  case addmulSi =>
    by_cases h : 0 ≤ b
    · rw [if_pos h]
    · rw [if_neg h, if_neg (h2 rfl)]; congr 1; ring

/-- the last case of the code is reached: undefined behaviour of `addmul_si` -/
theorem C76_mpz_addmul_si_min (data a : ℤ) : mpz .addmulSi data a (-2 ^ 63) = .error .overflow := by
  simp [mpz]

theorem chk_ok {z v : ℤ} (h : chk true z = .ok v) : v = z := by
  unfold chk at h
  rw [if_pos rfl] at h
  split_ifs at h
  cases h; rfl

theorem chk_of {z : ℤ} (s : Bool) (h : InRange z) : chk s z = .ok z := by
  unfold chk
  cases s
  · simp only [Bool.false_eq_true, if_false]
    congr 1
    obtain ⟨h1, h2⟩ := h
    unfold wrap
    omega
  · simp [h]

/-- **C76** (`long`, the standard): a function whose execution is defined returns the number it stands for – except the
products with `unsigned long`, which are only right modulo `2^64`, and `mod`. -/
theorem C76_long_defined (o : Op) (data a b v : ℤ) (ho : o ≠ .mod ∧ o ≠ .mulUi ∧ o ≠ .addmulUi ∧ o ≠ .submulUi)
    (h : long true o data a b = .ok v) : v = exact o data a b := by
  obtain ⟨o1, o2, o3, o4⟩ := ho
  have two : ∀ {x : Except Err ℤ} {f : ℤ → Except Err ℤ} {v : ℤ}, (do let p ← x; f p) = .ok v → ∃ p, x = .ok p ∧ f p = .ok v := by
    intro x f v h
    cases x with
    | error e => cases h
    | ok p => exact ⟨p, rfl, h⟩
  cases o <;> simp only [long] at h <;> simp only [exact]
  case add => exact chk_ok h
  case addUi => exact chk_ok h
  case sub => exact chk_ok h
  case subUi => exact chk_ok h
  case mod => exact absurd rfl o1
  case neg => exact chk_ok h
  case mul => exact chk_ok h
  case mulSi => exact chk_ok h
  case mulUi => exact absurd rfl o2
  case mul2si =>
    rw [← floor_shift]
    split_ifs at h ⊢
    · exact chk_ok h
    · cases h; rfl
  case div2si =>
    rw [← floor_shift']
    split_ifs at h ⊢
    · cases h; rfl
    · exact chk_ok h
  case addmul => obtain ⟨p, h1, h2⟩ := two h; rw [chk_ok h2, chk_ok h1]
  case addmulUi => exact absurd rfl o3
  case addmulSi => obtain ⟨p, h1, h2⟩ := two h; rw [chk_ok h2, chk_ok h1]
  case submul => obtain ⟨p, h1, h2⟩ := two h; rw [chk_ok h2, chk_ok h1]
  case submulUi => exact absurd rfl o4
  case abs => exact chk_ok h

theorem wrap_id {z : ℤ} (h : InRange z) : wrap z = z := by
  obtain ⟨h1, h2⟩ := h
  unfold wrap
  omega

theorem wrap_range (z : ℤ) : InRange (wrap z) := by
  unfold wrap InRange
  omega

theorem wrap_congr {x y : ℤ} (h : (2 : ℤ) ^ 64 ∣ x - y) : wrap x = wrap y := by
  obtain ⟨k, hk⟩ := h
  unfold wrap
  omega

theorem wrap_dvd (z : ℤ) : (2 : ℤ) ^ 64 ∣ wrap z - z := by
  unfold wrap
  exact ⟨-((z + 2 ^ 63) / 2 ^ 64), by have := Int.emod_add_mul_ediv (z + 2 ^ 63) (2 ^ 64); linarith⟩

theorem floor_range {a : ℤ} (ha : InRange a) (n : ℕ) : InRange (a / 2 ^ n) := by
  obtain ⟨h1, h2⟩ := ha
  have hp : (0 : ℤ) < 2 ^ n := by positivity
  have hp1 : (1 : ℤ) ≤ 2 ^ n := hp
  constructor
  · rw [Int.le_ediv_iff_mul_le hp]; nlinarith
  · rw [Int.ediv_lt_iff_lt_mul hp]; nlinarith

/-- **C76** (`long`): a function is defined and right when its operands are `long` values, and the result, the product and
the shift are in range; in two's complement arithmetic the product need not be. -/
theorem C76_long (s : Bool) (o : Op) (data a b : ℤ) (ho : o ≠ .mod) (ha : InRange a)
    (hr : InRange (exact o data a b)) (hs : o = .mul2si ∨ o = .div2si → |b| < 64)
    (hp : s = true → o = .addmul ∨ o = .addmulSi ∨ o = .submul → InRange (a * b)) :
    long s o data a b = .ok (exact o data a b) := by
  have two : ∀ (p : ℤ) (g : ℤ → ℤ), (s = true → InRange p) → InRange (g p) → (2 : ℤ) ^ 64 ∣ g (wrap p) - g p →
      (do let q ← chk s p; chk s (g q)) = .ok (g p) := by
    intro p g h1 h2 h3
    cases s with
    | true =>
      rw [chk_of true (h1 rfl)]
      exact chk_of true h2
    | false =>
      show chk false (g (wrap p)) = _
      show Except.ok (wrap (g (wrap p))) = _
      rw [wrap_congr h3, wrap_id h2]
  cases o <;> simp only [long] <;> simp only [exact] at hr ⊢
  case add => exact chk_of s hr
  case addUi => exact chk_of s hr
  case sub => exact chk_of s hr
  case subUi => exact chk_of s hr
  case mod => exact absurd rfl ho
  case neg => exact chk_of s hr
  case mul => exact chk_of s hr
  case mulSi => exact chk_of s hr
  case mulUi => rw [wrap_id hr]
  case mul2si =>
    have hb := abs_lt.1 (hs (Or.inl rfl))
    rw [← floor_shift] at hr ⊢
    split_ifs at hr ⊢ <;> first | omega | exact chk_of s hr | rfl
  case div2si =>
    have hb := abs_lt.1 (hs (Or.inr rfl))
    rw [← floor_shift'] at hr ⊢
    split_ifs at hr ⊢ <;> first | omega | exact chk_of s hr | rfl
  case addmul => exact two (a * b) (fun q => data + q) (fun h => hp h (Or.inl rfl)) hr (by simpa using wrap_dvd (a * b))
  case addmulUi => rw [wrap_id hr]
  case addmulSi =>
    exact two (a * b) (fun q => data + q) (fun h => hp h (Or.inr (Or.inl rfl))) hr (by simpa using wrap_dvd (a * b))
  case submul =>
    refine two (a * b) (fun q => data - q) (fun h => hp h (Or.inr (Or.inr rfl))) hr ?_
    have : data - wrap (a * b) - (data - a * b) = -(wrap (a * b) - a * b) := by ring
    rw [this, dvd_neg]
    exact wrap_dvd _
  case submulUi => rw [wrap_id hr]
  case abs => exact chk_of s hr

/-- **C76** (`mod`) is violated: the three types disagree on the sign: `-7 mod 3` is 2 with `mpz_t` and -1 with `long` and
`double`. -/
theorem C76_mod_violated : mpz .mod 0 (-7) 3 = .ok 2 ∧ long true .mod 0 (-7) 3 = .ok (-1) ∧ dbl .mod 0 (-7) 3 = .ok (-1) := by
  decide +kernel

/-- What holds for `mod` (`_partial`): non-negative first operands. -/
theorem C76_mod_partial (s : Bool) (data a b : ℤ) (ha : 0 ≤ a) (hb : b ≠ 0) :
    long s .mod data a b = .ok (exact .mod data a b) := by
  simp only [long, exact]
  rw [if_neg hb, if_neg (by omega), Int.tmod_eq_emod_of_nonneg ha]

/-- A product with `unsigned long` can be silently wrong with `long`. -/
theorem C76_mul_ui_wraps : long true .mulUi 0 (2 ^ 62) 4 = .ok 0 := by decide

/-! ## `double` -/

open FpConv in
theorem fl_exact {z : ℤ} (h : |z| ≤ 2 ^ 53) : fl (z : ℚ) = .ok (z : ℚ) := by
  have e : rnd FpConv.dbl (z : ℚ) = z := by
    rcases lt_or_eq_of_le h with h' | h'
    · have := rnd_rep (f := FpConv.dbl) (m := z) (e := 0) h' (by decide)
      simpa using this
    · rcases abs_eq (by norm_num : (0 : ℤ) ≤ 2 ^ 53) |>.1 h' with rfl | rfl
      · decide +kernel
      · decide +kernel
  unfold fl
  dsimp only
  rw [e, if_pos]
  have : |(z : ℚ)| ≤ 2 ^ 53 := by exact_mod_cast h
  exact lt_of_le_of_lt this (pow_lt_pow_right₀ (by norm_num) (by norm_num))

open FpConv in
/-- **C76** (`double`): a function returns the number it stands for as long as operands, product and result are at most
`2^53` in absolute value; shifts to the right only when nothing is shifted out. -/
theorem C76_double (o : Op) (data a b : ℤ) (ho : o ≠ .mod) (ha : |a| ≤ 2 ^ 53) (hr : |exact o data a b| ≤ 2 ^ 53)
    (hb : o = .addUi ∨ o = .subUi ∨ o = .mulSi ∨ o = .mulUi ∨ o = .addmulSi ∨ o = .addmulUi ∨ o = .submulUi → |b| ≤ 2 ^ 53)
    (hp : o = .addmul ∨ o = .addmulSi ∨ o = .addmulUi ∨ o = .submul ∨ o = .submulUi → |a * b| ≤ 2 ^ 53)
    (hs : o = .mul2si ∨ o = .div2si → |b| < 2 ^ 31)
    (hs' : o = .mul2si → (a : ℚ) * 2 ^ b = exact o data a b) (hs'' : o = .div2si → (a : ℚ) * 2 ^ (-b) = exact o data a b) :
    dbl o data a b = .ok (exact o data a b : ℚ) := by
  have f2 : ∀ (z : ℤ) (q : ℚ), q = z → |z| ≤ 2 ^ 53 → fl q = .ok (z : ℚ) := by
    rintro z q rfl h; exact fl_exact h
  have b2 : ∀ (z : ℤ) (q : ℚ) (f : ℚ → Except Err ℚ), q = z → |z| ≤ 2 ^ 53 → (do let p ← fl q; f p) = f z := by
    rintro z q f rfl h; rw [fl_exact h]; rfl
  cases o <;> simp only [dbl] <;> simp only [exact] at hr hs' hs'' ⊢
  case add => exact f2 _ _ (by push_cast; ring) hr
  case addUi => rw [b2 b _ _ rfl (hb (by simp))]; exact f2 _ _ (by push_cast; ring) hr
  case sub => exact f2 _ _ (by push_cast; ring) hr
  case subUi => rw [b2 b _ _ rfl (hb (by simp))]; exact f2 _ _ (by push_cast; ring) hr
  case mod => exact absurd rfl ho
  case neg => push_cast; rfl
  case mul => exact f2 _ _ (by push_cast; ring) hr
  case mulSi => rw [b2 b _ _ rfl (hb (by simp))]; exact f2 _ _ (by push_cast; ring) hr
  case mulUi => rw [b2 b _ _ rfl (hb (by simp))]; exact f2 _ _ (by push_cast; ring) hr
  case mul2si =>
    have h := abs_lt.1 (hs (Or.inl rfl))
    rw [wrap32_id (by omega) (by omega)]
    exact f2 _ _ (hs' trivial) hr
  case div2si =>
    have h := abs_lt.1 (hs (Or.inr rfl))
    rw [wrap32_id (by omega) (by omega)]
    exact f2 _ _ (hs'' trivial) hr
  case addmul => rw [b2 (a * b) _ _ (by push_cast; ring) (hp (by simp))]; exact f2 _ _ (by push_cast; ring) hr
  case addmulUi =>
    rw [b2 b _ _ rfl (hb (by simp)), b2 (a * b) _ _ (by push_cast; ring) (hp (by simp))]; exact f2 _ _ (by push_cast; ring) hr
  case addmulSi =>
    rw [b2 b _ _ rfl (hb (by simp)), b2 (a * b) _ _ (by push_cast; ring) (hp (by simp))]; exact f2 _ _ (by push_cast; ring) hr
  case submul => rw [b2 (a * b) _ _ (by push_cast; ring) (hp (by simp))]; exact f2 _ _ (by push_cast; ring) hr
  case submulUi =>
    rw [b2 b _ _ rfl (hb (by simp)), b2 (a * b) _ _ (by push_cast; ring) (hp (by simp))]; exact f2 _ _ (by push_cast; ring) hr
  case abs => push_cast; rfl

/-- Shifts to the right are violated with `double`: `3 / 2` is 1.5, which is no integer. -/
theorem C76_double_shift_violated : dbl .div2si 0 3 1 = .ok (3 / 2) ∧ exact .div2si 0 3 1 = 1 := by
  refine ⟨by decide +kernel, ?_⟩
  show ⌊((3 : ℤ) : ℚ) * 2 ^ (-1 : ℤ)⌋ = 1
  rw [Int.floor_eq_iff]
  norm_num

/-- Beyond `2^53` results are rounded. -/
theorem C76_double_rounds : dbl .add 0 (2 ^ 53) 1 = .ok (2 ^ 53) := by decide +kernel

/-! ## Row operations -/

/-- specification: add `c` times row `j` to row `i` (`n` columns) -/
def addRow (n : ℕ) (b : Mat ℤ) (i j : ℕ) (c : ℤ) : Mat ℤ :=
  fun k l => if k = i ∧ l < n then b i l + c * b j l else b k l

/-- specification of the row operations -/
def exactOp (n : ℕ) (b : Mat ℤ) : RowOp → Mat ℤ
  | .add i j => addRow n b i j 1
  | .sub i j => addRow n b i j (-1)
  | .addmulSi i j x => addRow n b i j x
  | .addmulSi2exp i j x e => addRow n b i j (x * 2 ^ e)
  | .addmul2exp i j x e => addRow n b i j (x * 2 ^ e)
  | .swap i j => fun k => b (if k = j then i else if k = i then j else k)

/-- specification of a sequence -/
def exactOps (n : ℕ) : List RowOp → Mat ℤ → Mat ℤ
  | [], b => b
  | o :: l, b => exactOps n l (exactOp n b o)

theorem vecLoop_ok {f : ℤ → ℤ → Except Err ℤ} {g : ℤ → ℤ → ℤ} {w : ℕ → ℤ} : ∀ {n : ℕ} {v v' : ℕ → ℤ},
    (∀ i y, i < n → f (v i) (w i) = .ok y → y = g (v i) (w i)) → vecLoop f w n v = .ok v' →
    v' = fun l => if l < n then g (v l) (w l) else v l := by
  intro n
  induction n with
  | zero => intro v v' _ h; cases h; funext l; simp
  | succ n ih =>
    intro v v' hf h
    rw [vecLoop] at h
    cases hy : f (v n) (w n) with
    | error e => rw [hy] at h; cases h
    | ok y =>
      rw [hy] at h
      have := ih (fun i z hi hz => by
        simp only [setAt] at hz ⊢
        rw [if_neg (by omega)] at hz ⊢
        exact hf i z (by omega) hz) h
      rw [this, hf n y (by omega) hy]
      funext l
      simp only [setAt]
      rcases lt_trichotomy l n with h1 | h1 | h1
      · rw [if_pos h1, if_neg (by omega), if_pos (by omega)]
      · subst h1; simp
      · rw [if_neg (by omega), if_neg (by omega), if_neg (by omega)]

theorem vecLoop_total {f : ℤ → ℤ → Except Err ℤ} {g : ℤ → ℤ → ℤ} {w : ℕ → ℤ} : ∀ {n : ℕ} {v : ℕ → ℤ},
    (∀ i, i < n → f (v i) (w i) = .ok (g (v i) (w i))) → vecLoop f w n v = .ok (fun l => if l < n then g (v l) (w l) else v l) := by
  intro n
  induction n with
  | zero => intro v _; simp [vecLoop]
  | succ n ih =>
    intro v hf
    rw [vecLoop, hf n (by omega)]
    show vecLoop f w n (setAt v n _) = _
    rw [ih (fun i hi => by
      simp only [setAt]
      rw [if_neg (by omega)]
      exact hf i (by omega))]
    congr 1
    funext l
    simp only [setAt]
    rcases lt_trichotomy l n with h1 | h1 | h1
    · rw [if_pos h1, if_neg (by omega), if_pos (by omega)]
    · subst h1; simp
    · rw [if_neg (by omega), if_neg (by omega), if_neg (by omega)]

theorem setAt_addRow {n : ℕ} {b : Mat ℤ} {i j : ℕ} {c : ℤ} {v : ℕ → ℤ}
    (h : v = fun l => if l < n then b i l + c * b j l else b i l) : setAt b i v = addRow n b i j c := by
  subst h
  funext k l
  simp only [setAt, addRow]
  by_cases hk : k = i
  · subst hk; by_cases hl : l < n <;> simp [hl]
  · simp [hk]

/-- **C76**, rows of `long`, the standard: when no operation overflows the result is the exact one. -/
theorem C76_rows_defined (n : ℕ) : ∀ (l : List RowOp) (b b' : Mat ℤ), rowOps (long true) n l b = .ok b' → b' = exactOps n l b := by
  have two : ∀ {α β : Type} {x : Except Err α} {f : α → Except Err β} {v : β}, (x >>= f) = .ok v → ∃ p, x = .ok p ∧ f p = .ok v := by
    intro α β x f v h
    cases x with
    | error e => cases h
    | ok p => exact ⟨p, rfl, h⟩
  have shift : ∀ (x : ℤ) (e : ℕ) (y w z : ℤ) (o : Op), (o = .mulSi ∨ o = .mul) →
      (do let t ← long true o 0 w x; let t ← long true .mul2si t t e; long true .add y y t) = .ok z → z = y + x * 2 ^ e * w := by
    intro x e y w z o ho h
    obtain ⟨t, h1, h⟩ := two h
    obtain ⟨t', h2, h3⟩ := two h
    have e1 : t = w * x := by
      rcases ho with rfl | rfl
      · exact C76_long_defined .mulSi _ _ _ _ (by decide) h1
      · exact C76_long_defined .mul _ _ _ _ (by decide) h1
    have e2 := C76_long_defined .mul2si _ _ _ _ (by decide) h2
    have e3 := C76_long_defined .add _ _ _ _ (by decide) h3
    simp only [exact] at e2 e3
    rw [← floor_shift, if_pos (Int.natCast_nonneg e), Int.toNat_natCast] at e2
    rw [e3, e2, e1]; ring
  have one : ∀ (o : RowOp) (b b' : Mat ℤ), rowOp (long true) n b o = .ok b' → b' = exactOp n b o := by
    intro o b b' h
    cases o with
    | add i j =>
      obtain ⟨v, h1, h2⟩ := two h
      cases h2
      refine setAt_addRow (vecLoop_ok (g := fun y w => y + 1 * w) (fun k y _ hk => ?_) h1)
      rw [C76_long_defined .add _ _ _ _ (by decide) hk]; simp [exact]
    | sub i j =>
      obtain ⟨v, h1, h2⟩ := two h
      cases h2
      refine setAt_addRow (vecLoop_ok (g := fun y w => y + -1 * w) (fun k y _ hk => ?_) h1)
      rw [C76_long_defined .sub _ _ _ _ (by decide) hk]; simp only [exact]; ring
    | addmulSi i j x =>
      obtain ⟨v, h1, h2⟩ := two h
      cases h2
      refine setAt_addRow (vecLoop_ok (g := fun y w => y + x * w) (fun k y _ hk => ?_) h1)
      rw [C76_long_defined .addmulSi _ _ _ _ (by decide) hk]; simp only [exact]; ring
    | addmulSi2exp i j x e =>
      obtain ⟨v, h1, h2⟩ := two h
      cases h2
      exact setAt_addRow (vecLoop_ok (g := fun y w => y + x * 2 ^ e * w)
        (fun k y _ hk => shift x e _ _ _ _ (Or.inl rfl) hk) h1)
    | addmul2exp i j x e =>
      obtain ⟨v, h1, h2⟩ := two h
      cases h2
      exact setAt_addRow (vecLoop_ok (g := fun y w => y + x * 2 ^ e * w)
        (fun k y _ hk => shift x e _ _ _ _ (Or.inr rfl) hk) h1)
    | swap i j =>
      cases h
      funext k l
      simp only [setAt, exactOp]
      by_cases h1 : k = j
      · simp [h1]
      · by_cases h2 : k = i
        · subst h2; simp [h1]
        · simp [h1, h2]
  intro l
  induction l with
  | nil => intro b b' h; cases h; rfl
  | cons o l ih =>
    intro b b' h
    obtain ⟨b1, h1, h2⟩ := two h
    rw [ih b1 b' h2, one o b b1 h1]
    rfl

/-- shifts that are defined -/
def ShiftOK : RowOp → Prop
  | .addmulSi2exp _ _ _ e => e < 64
  | .addmul2exp _ _ _ e => e < 64
  | _ => True

/-- `wrap` of every entry -/
def wrapMat (b : Mat ℤ) : Mat ℤ := fun i j => wrap (b i j)

theorem wrap_lin (y w c : ℤ) : wrap (wrap y + c * wrap w) = wrap (y + c * w) := by
  refine wrap_congr ?_
  have : wrap y + c * wrap w - (y + c * w) = (wrap y - y) + c * (wrap w - w) := by ring
  rw [this]
  exact dvd_add (wrap_dvd y) ((wrap_dvd w).mul_left c)

/-- **C76**, rows of `long`, two's complement arithmetic: the result is the exact one modulo `2^64`, whatever overflows on
the way. -/
theorem C76_rows_wrap (n : ℕ) : ∀ (l : List RowOp) (b : Mat ℤ), (∀ o ∈ l, ShiftOK o) →
    rowOps (long false) n l (wrapMat b) = .ok (wrapMat (exactOps n l b)) := by
  have shift : ∀ (x : ℤ) (e : ℕ) (y w : ℤ) (o : Op), (o = .mulSi ∨ o = .mul) → e < 64 →
      (do let t ← long false o 0 (wrap w) x; let t ← long false .mul2si t t e; long false .add (wrap y) (wrap y) t) =
        .ok (wrap (y + x * 2 ^ e * w)) := by
    intro x e y w o ho he
    have e1 : long false o 0 (wrap w) x = .ok (wrap (wrap w * x)) := by rcases ho with rfl | rfl <;> rfl
    rw [e1]
    show (do let t ← long false .mul2si (wrap (wrap w * x)) (wrap (wrap w * x)) e; long false .add (wrap y) (wrap y) t) = _
    have e2 : long false .mul2si (wrap (wrap w * x)) (wrap (wrap w * x)) e = .ok (wrap (wrap (wrap w * x) * 2 ^ e)) := by
      simp only [long]
      rw [if_pos (Int.natCast_nonneg e), if_neg (by omega), Int.toNat_natCast]
      rfl
    rw [e2]
    show Except.ok (wrap (wrap y + wrap (wrap (wrap w * x) * 2 ^ e))) = _
    congr 1
    refine wrap_congr ?_
    have k1 := wrap_dvd (wrap (wrap w * x) * 2 ^ e)
    have k2 := (wrap_dvd (wrap w * x)).mul_right (2 ^ e)
    have k3 := (wrap_dvd w).mul_right (x * 2 ^ e)
    have k4 := wrap_dvd y
    have : wrap y + wrap (wrap (wrap w * x) * 2 ^ e) - (y + x * 2 ^ e * w) =
        (wrap y - y) + ((wrap (wrap (wrap w * x) * 2 ^ e) - wrap (wrap w * x) * 2 ^ e) +
          ((wrap (wrap w * x) - wrap w * x) * 2 ^ e + (wrap w - w) * (x * 2 ^ e))) := by ring
    rw [this]
    exact dvd_add k4 (dvd_add k1 (dvd_add k2 k3))
  have row : ∀ (b : Mat ℤ) (i j : ℕ) (c : ℤ) (f : ℤ → ℤ → Except Err ℤ),
      (∀ y w, f (wrap y) (wrap w) = .ok (wrap (y + c * w))) →
      (do let v ← vecLoop f (wrapMat b j) n (wrapMat b i); return setAt (wrapMat b) i v : Except Err (Mat ℤ)) =
        .ok (wrapMat (addRow n b i j c)) := by
    intro b i j c f hf
    rw [vecLoop_total (g := fun y w => wrap (y + c * w)) (fun k _ => by
      show f (wrap (b i k)) (wrap (b j k)) = .ok (wrap (wrap (b i k) + c * wrap (b j k)))
      rw [hf, wrap_lin])]
    show Except.ok (setAt (wrapMat b) i _) = _
    congr 1
    funext k l
    simp only [setAt, wrapMat, addRow]
    by_cases hk : k = i
    · subst hk
      by_cases hl : l < n
      · simp [hl, wrap_lin]
      · simp [hl]
    · simp [hk, wrapMat]
  have one : ∀ (o : RowOp) (b : Mat ℤ), ShiftOK o → rowOp (long false) n (wrapMat b) o = .ok (wrapMat (exactOp n b o)) := by
    intro o b ho
    cases o with
    | add i j =>
      refine row b i j 1 _ fun y w => ?_
      show Except.ok (wrap (wrap y + wrap w)) = _
      have := wrap_lin y w 1
      rw [one_mul, one_mul] at this
      rw [one_mul, this]
    | sub i j =>
      refine row b i j (-1) _ fun y w => ?_
      show Except.ok (wrap (wrap y - wrap w)) = _
      have := wrap_lin y w (-1)
      rw [← this]; congr 2; ring
    | addmulSi i j x =>
      refine row b i j x _ fun y w => ?_
      show Except.ok (wrap (wrap y + wrap (wrap w * x))) = _
      congr 1
      rw [← wrap_lin y w x]
      refine wrap_congr ?_
      have := wrap_dvd (wrap w * x)
      have e : wrap y + wrap (wrap w * x) - (wrap y + x * wrap w) = wrap (wrap w * x) - wrap w * x := by ring
      rwa [e]
    | addmulSi2exp i j x e => exact row b i j (x * 2 ^ e) _ fun y w => shift x e y w _ (Or.inl rfl) ho
    | addmul2exp i j x e => exact row b i j (x * 2 ^ e) _ fun y w => shift x e y w _ (Or.inr rfl) ho
    | swap i j =>
      show Except.ok _ = _
      congr 1
      funext k l
      simp only [setAt, exactOp, wrapMat]
      by_cases h1 : k = j
      · simp [h1, wrapMat]
      · by_cases h2 : k = i
        · subst h2; simp [h1, wrapMat]
        · simp [h1, h2, wrapMat]
  intro l
  induction l with
  | nil => intro b _; rfl
  | cons o l ih =>
    intro b ho
    show (do let b ← rowOp (long false) n (wrapMat b) o; rowOps (long false) n l b) = _
    rw [one o b (ho o (by simp))]
    exact ih _ fun o' h => ho o' (by simp [h])

/-- **C76**, rows of `long`, two's complement arithmetic: a sequence of row operations whose exact result consists of `long`
values computes it. -/
theorem C76_rows (n : ℕ) (l : List RowOp) (b : Mat ℤ) (ho : ∀ o ∈ l, ShiftOK o) (hb : ∀ i j, InRange (b i j))
    (hr : ∀ i j, InRange (exactOps n l b i j)) : rowOps (long false) n l b = .ok (exactOps n l b) := by
  have h := C76_rows_wrap n l b ho
  have e1 : wrapMat b = b := by funext i j; exact wrap_id (hb i j)
  have e2 : wrapMat (exactOps n l b) = exactOps n l b := by funext i j; exact wrap_id (hr i j)
  rwa [e1, e2] at h

/-! ## Overflow in the size reduction

A lower triangular basis of 14 vectors: 13 rows with `b*_i = r_i e_i` and `μ_ij = -1/2`, LLL-reduced, and the row
`(2^56 - 1) e_12 + e_13`. -/

/-- the lengths `r_i` -/
def ovR (i : ℕ) : ℤ := [1000, 862, 742, 640, 552, 476, 410, 354, 306, 264, 228, 198, 172].getD i 0

/-- the basis -/
def ovB : Mat ℤ := fun i j =>
  if i < 13 then (if j < i then -(ovR j / 2) else if j = i then ovR i else 0)
  else if i = 13 then (if j = 12 then 2 ^ 56 - 1 else if j = 13 then 1 else 0) else 0

/-- the row operations of the size reduction of the last row of `ovB`: for `j = 12 … 0` the nearest integer to `μ_13,j`,
which is `b(13, j) / r_j` for the current row (the basis is triangular) -/
def ovOps : ℕ → Mat ℤ → List RowOp
  | 0, _ => []
  | j + 1, b =>
    let o := RowOp.addmulSi 13 j (-rhe (b 13 j / ovR j))
    o :: ovOps j (exactOp 14 b o)

/-- **C76**, overflow does happen: the wrapper reduces `ovB` with `long` (`max_exponent = 56 + ⌈log₂ 14⌉ = 60 < 61`,
wrapper.cpp:286-288), the first rows are LLL-reduced with `delta = 0.99` (`r_(i+1)² + r_i²/4 ≥ 0.99 r_i²`, `|μ| = 1/2`), and
the size reduction of the last row overflows; in two's complement arithmetic it ends with the right row. -/
theorem C76_size_reduction_overflow :
    (∀ i, i < 14 → ∀ j, j < 14 → |ovB i j| < 2 ^ 56) ∧ (∀ i, i < 14 → ∀ j, j < 14 → i < j → ovB i j = 0) ∧
    (∀ i, i < 12 → 99 * (4 * ovR i ^ 2) ≤ 100 * (4 * ovR (i + 1) ^ 2 + ovR i ^ 2)) ∧
    (rowOps (long true) 14 (ovOps 13 ovB) ovB).toOption.isNone = true ∧
    (∀ j, j < 13 → 2 * |exactOps 14 (ovOps 13 ovB) ovB 13 j| ≤ ovR j) ∧
    rowOps (long false) 14 (ovOps 13 ovB) ovB = .ok (exactOps 14 (ovOps 13 ovB) ovB) := by
  have hR : ∀ i, i < 14 → ∀ j, j < 14 → |ovB i j| < 2 ^ 56 := by decide +kernel
  have hz : ∀ i j, ¬ (i < 14 ∧ j < 14) → ovB i j = 0 := by
    intro i j h
    unfold ovB
    by_cases h1 : i < 13
    · rw [if_pos h1, if_neg (by omega), if_neg (by omega)]
    · rw [if_neg h1]
      by_cases h2 : i = 13
      · rw [if_pos h2, if_neg (by omega), if_neg (by omega)]
      · rw [if_neg h2]
  have hb : ∀ i j, InRange (ovB i j) := by
    intro i j
    by_cases h : i < 14 ∧ j < 14
    · have := abs_lt.1 (hR i h.1 j h.2)
      exact ⟨by omega, by omega⟩
    · rw [hz i j h]; decide
  have hfin : ∀ j, j < 14 → |exactOps 14 (ovOps 13 ovB) ovB 13 j| ≤ 500 := by decide +kernel
  have hsi : ∀ o ∈ ovOps 13 ovB, ∃ j x, o = RowOp.addmulSi 13 j x := by
    have : ∀ n b, ∀ o ∈ ovOps n b, ∃ j x, o = RowOp.addmulSi 13 j x := by
      intro n
      induction n with
      | zero => intro b o h; cases h
      | succ n ih =>
        intro b o h
        rcases List.mem_cons.1 h with rfl | h
        · exact ⟨_, _, rfl⟩
        · exact ih _ o h
    exact this 13 ovB
  have hother : ∀ (l : List RowOp), (∀ o ∈ l, ∃ j x, o = RowOp.addmulSi 13 j x) → ∀ (b : Mat ℤ) (i k : ℕ), (i ≠ 13 ∨ 14 ≤ k) →
      exactOps 14 l b i k = b i k := by
    intro l
    induction l with
    | nil => intro _ b i k _; rfl
    | cons o l ih =>
      intro hl b i k hik
      obtain ⟨j, x, rfl⟩ := hl o (by simp)
      show exactOps 14 l (exactOp 14 b _) i k = _
      rw [ih (fun o h => hl o (by simp [h])) _ i k hik]
      show (if i = 13 ∧ k < 14 then _ else b i k) = _
      rw [if_neg (by omega)]
  refine ⟨hR, by decide +kernel, by decide +kernel, by decide +kernel, by decide +kernel, ?_⟩
  refine C76_rows 14 _ _ (fun o h => ?_) hb fun i j => ?_
  · obtain ⟨j, x, rfl⟩ := hsi o h
    trivial
  · by_cases h : i = 13 ∧ j < 14
    · rw [h.1]
      have := abs_le.1 (hfin j h.2)
      exact ⟨by omega, by omega⟩
    · rw [hother _ hsi _ _ _ (by omega)]
      exact hb i j

/-! ## Concrete cases -/

example : long true .addmul 5 (2 ^ 31) (2 ^ 31) = .ok (2 ^ 62 + 5) :=
  C76_long true .addmul 5 (2 ^ 31) (2 ^ 31) (by decide) (by decide) (by decide) (by simp) (fun _ _ => by decide)

/-- the product overflows, the result does not -/
example : long true .addmul (-2 ^ 62) (2 ^ 32) (2 ^ 31) = .error .overflow ∧
    long false .addmul (-2 ^ 62) (2 ^ 32) (2 ^ 31) = .ok (2 ^ 62) :=
  ⟨by decide, C76_long false .addmul (-2 ^ 62) (2 ^ 32) (2 ^ 31) (by decide) (by decide) (by decide) (by simp) (by simp)⟩

example : dbl .submul 7 (2 ^ 20) (-3) = .ok (7 + 3 * 2 ^ 20) := by
  have := C76_double .submul 7 (2 ^ 20) (-3) (by decide) (by decide) (by decide) (by simp) (fun _ => by decide) (by simp)
    (by simp) (by simp)
  rw [this]
  norm_num [exact]

example : mpz .div2si 0 (-7) 1 = .ok (-4) := by decide

example : ∃ b', rowOps (long true) 2 [.addmulSi 0 1 3, .swap 0 1, .addmulSi2exp 1 0 (-1) 2] (fun i j => (i : ℤ) * 2 + j + 1) = .ok b' ∧
    b' 1 0 = -2 := ⟨_, rfl, by decide⟩

end ZNum
end Fplll

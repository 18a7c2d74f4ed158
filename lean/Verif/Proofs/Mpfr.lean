import Verif.Proofs.Double

/-!
# Arithmetic of `p` bits with directed rounding, as in mpfr

The exponent is unbounded.
-/

namespace Fplll

/-- rounding of rationals to integers that is monotone and keeps integers -/
structure RInt (g : ℚ → ℤ) : Prop where
  mono : Monotone g
  int : ∀ z : ℤ, g z = z

theorem RInt.floor : RInt (fun q => ⌊q⌋) := ⟨fun _ _ h => Int.floor_le_floor h, fun z => Int.floor_intCast z⟩
theorem RInt.ceil : RInt (fun q => ⌈q⌉) := ⟨fun _ _ h => Int.ceil_le_ceil h, fun z => Int.ceil_intCast z⟩
theorem RInt.rhe : RInt rhe := ⟨fun _ _ h => rhe_mono h, fun z => rhe_unique (Or.inl (by simp))⟩

theorem RInt.opp {g : ℚ → ℤ} (h : RInt g) : RInt (fun q => -g (-q)) :=
  ⟨fun a b hab => neg_le_neg (h.mono (neg_le_neg hab)), fun z => by
    have := h.int (-z)
    push_cast at this
    rw [this, neg_neg]⟩

/-- rounding to `p` bits; `g` is the rounding of significands -/
def rp (g : ℚ → ℤ) (p : ℕ) (q : ℚ) : ℚ :=
  if q = 0 then 0 else (g (q / 2 ^ (Int.log 2 |q| - (p - 1))) : ℚ) * 2 ^ (Int.log 2 |q| - ((p : ℤ) - 1))

theorem rp_zero (g : ℚ → ℤ) (p : ℕ) : rp g p 0 = 0 := by simp [rp]

theorem rp_r53 (q : ℚ) : rp rhe 53 q = r53 q := by
  rw [rp, r53]; norm_num

theorem rp_neg (g : ℚ → ℤ) (p : ℕ) (q : ℚ) : rp g p (-q) = -rp (fun t => -g (-t)) p q := by
  rw [rp, rp, abs_neg]
  by_cases hq : q = 0
  · simp [hq]
  · rw [if_neg (by simpa using hq), if_neg hq, neg_div]
    push_cast; ring

variable {g : ℚ → ℤ}

theorem rp_form {p : ℕ} {q : ℚ} (hq : q ≠ 0) (hp : 1 ≤ p) : ∃ (e : ℤ) (t : ℚ),
    e = Int.log 2 |q| - (p - 1) ∧ q = t * 2 ^ e ∧ rp g p q = g t * 2 ^ e ∧ 2 ^ (p - 1) ≤ |t| ∧ |t| < 2 ^ p := by
  obtain ⟨a, b⟩ := log_bounds hq
  have hpz := two_zpow_pos (Int.log 2 |q| - ((p : ℤ) - 1))
  have ha : (2 : ℚ) ^ Int.log 2 |q| = 2 ^ (p - 1) * 2 ^ (Int.log 2 |q| - ((p : ℤ) - 1)) := by
    rw [← zpow_natCast, ← two_zpow_add]; congr 1; push_cast [hp]; ring
  have hb : (2 : ℚ) ^ (Int.log 2 |q| + 1) = 2 ^ p * 2 ^ (Int.log 2 |q| - ((p : ℤ) - 1)) := by
    rw [← zpow_natCast, ← two_zpow_add]; congr 1; ring
  have ht : |q / 2 ^ (Int.log 2 |q| - ((p : ℤ) - 1))| = |q| / 2 ^ (Int.log 2 |q| - ((p : ℤ) - 1)) := by
    rw [abs_div, abs_of_pos hpz]
  refine ⟨_, q / 2 ^ (Int.log 2 |q| - ((p : ℤ) - 1)), rfl, (div_mul_cancel₀ _ hpz.ne').symm, ?_, ?_, ?_⟩
  · rw [rp, if_neg hq]
  · rw [ht, le_div_iff₀ hpz, ← ha]; exact a
  · rw [ht, div_lt_iff₀ hpz, ← hb]; exact b

theorem rp_pos_bounds (hg : RInt g) {p : ℕ} (hp : 1 ≤ p) {q : ℚ} (hq : 0 < q) :
    (2 : ℚ) ^ Int.log 2 |q| ≤ rp g p q ∧ rp g p q ≤ 2 ^ (Int.log 2 |q| + 1) := by
  obtain ⟨e, t, he, h1, h2, h4, h5⟩ := rp_form (g := g) hq.ne' hp
  have hpz := two_zpow_pos e
  have ht : 0 < t := by
    by_contra hc
    push Not at hc
    have := mul_nonpos_of_nonpos_of_nonneg hc hpz.le
    linarith
  rw [abs_of_pos ht] at h4 h5
  have m1 : (2 ^ (p - 1) : ℤ) ≤ g t := by
    have := hg.mono (show ((2 ^ (p - 1) : ℤ) : ℚ) ≤ t by push_cast; exact h4)
    rwa [hg.int] at this
  have m2 : g t ≤ 2 ^ p := by
    have := hg.mono (show t ≤ ((2 ^ p : ℤ) : ℚ) by push_cast; exact h5.le)
    rwa [hg.int] at this
  have m1' : (2 ^ (p - 1) : ℚ) ≤ g t := by exact_mod_cast m1
  have m2' : (g t : ℚ) ≤ 2 ^ p := by exact_mod_cast m2
  have e1 : (2 : ℚ) ^ Int.log 2 |q| = 2 ^ (p - 1) * 2 ^ e := by
    rw [← zpow_natCast, ← two_zpow_add]; congr 1; push_cast [hp]; omega
  have e2 : (2 : ℚ) ^ (Int.log 2 |q| + 1) = 2 ^ p * 2 ^ e := by
    rw [← zpow_natCast, ← two_zpow_add]; congr 1; omega
  rw [e1, e2, h2]
  exact ⟨mul_le_mul_of_nonneg_right m1' hpz.le, mul_le_mul_of_nonneg_right m2' hpz.le⟩

theorem rp_mono_pos (hg : RInt g) {p : ℕ} (hp : 1 ≤ p) {q q' : ℚ} (hq : 0 < q) (h : q ≤ q') : rp g p q ≤ rp g p q' := by
  have hq' := hq.trans_le h
  have hl : Int.log 2 |q| ≤ Int.log 2 |q'| := by
    have h1 := (log_bounds hq.ne').1
    have h2 := (log_bounds hq'.ne').2
    rw [abs_of_pos hq] at h1 ⊢
    rw [abs_of_pos hq'] at h2 ⊢
    have := lt_of_two_zpow_lt ((h1.trans h).trans_lt h2)
    omega
  rcases hl.lt_or_eq with hlt | heq
  · exact (rp_pos_bounds hg hp hq).2.trans ((two_zpow_le (by omega)).trans (rp_pos_bounds hg hp hq').1)
  · rw [rp, rp, if_neg hq.ne', if_neg hq'.ne', heq]
    have hpz := two_zpow_pos (Int.log 2 |q'| - ((p : ℤ) - 1))
    refine mul_le_mul_of_nonneg_right ?_ hpz.le
    exact_mod_cast hg.mono (div_le_div_of_nonneg_right h hpz.le)

theorem rp_nonneg (hg : RInt g) {p : ℕ} (hp : 1 ≤ p) {q : ℚ} (hq : 0 ≤ q) : 0 ≤ rp g p q := by
  rcases hq.lt_or_eq with h | h
  · exact (two_zpow_pos _).le.trans (rp_pos_bounds hg hp h).1
  · rw [← h, rp_zero]

theorem rp_mono (hg : RInt g) {p : ℕ} (hp : 1 ≤ p) : Monotone (rp g p) := by
  intro q q' h
  have hn : ∀ t : ℚ, rp g p t = -rp (fun s => -g (-s)) p (-t) := fun t => by rw [← rp_neg, neg_neg]
  rcases lt_trichotomy q 0 with h1 | h1 | h1
  · rcases lt_or_ge q' 0 with h2 | h2
    · have := rp_mono_pos hg.opp hp (q := -q') (q' := -q) (by linarith) (by linarith)
      rw [hn q, hn q']
      linarith
    · have h3 := rp_nonneg hg.opp hp (q := -q) (by linarith)
      rw [hn q]
      linarith [rp_nonneg hg hp h2]
  · rw [h1, rp_zero]
    exact rp_nonneg hg hp (by linarith)
  · exact rp_mono_pos hg hp h1 h

/-- numbers of `p` bits are not changed -/
theorem rp_fix (hg : RInt g) {p : ℕ} (hp : 1 ≤ p) {m k : ℤ} (hm : |m| ≤ 2 ^ p) : rp g p (m * 2 ^ k) = m * 2 ^ k := by
  set q : ℚ := m * 2 ^ k with hqm
  by_cases hq : q = 0
  · rw [hq, rp_zero]
  obtain ⟨e, t, he, h1, h2, h4, h5⟩ := rp_form (g := g) hq hp
  have hpz := two_zpow_pos e
  have hint : ∃ z : ℤ, t = z := by
    by_cases hk : e ≤ k
    · obtain ⟨j, hj⟩ : ∃ j : ℕ, k = e + j := ⟨(k - e).toNat, by omega⟩
      refine ⟨m * 2 ^ j, ?_⟩
      have : t * 2 ^ e = ((m * 2 ^ j : ℤ) : ℚ) * 2 ^ e := by
        rw [← h1, hqm, hj, two_zpow_add, zpow_natCast]; push_cast; ring
      exact mul_right_cancel₀ hpz.ne' this
    · have h6 : |q| ≤ 2 ^ p * 2 ^ k := by
        rw [hqm, abs_mul, abs_of_pos (two_zpow_pos k)]
        refine mul_le_mul_of_nonneg_right ?_ (two_zpow_pos k).le
        exact_mod_cast hm
      have h7 : (2 : ℚ) ^ (p - 1) * 2 ^ e ≤ |q| := by
        rw [h1, abs_mul, abs_of_pos hpz]
        exact mul_le_mul_of_nonneg_right h4 hpz.le
      have h8 : (2 : ℚ) ^ k ≤ 2 ^ (e - 1) := two_zpow_le (by omega)
      have h9 : (2 : ℚ) ^ e = 2 * 2 ^ (e - 1) := by
        rw [show e = 1 + (e - 1) by ring, two_zpow_add]; norm_num
      have h9' : (2 : ℚ) ^ p = 2 * 2 ^ (p - 1) := by
        rw [← pow_succ']; congr 1; omega
      have h10 : |q| = 2 ^ (p - 1) * 2 ^ e := by
        refine le_antisymm ?_ h7
        calc |q| ≤ 2 ^ p * 2 ^ k := h6
          _ ≤ 2 ^ p * 2 ^ (e - 1) := mul_le_mul_of_nonneg_left h8 (by positivity)
          _ = 2 ^ (p - 1) * 2 ^ e := by rw [h9, h9']; ring
      have h11 : |t| = 2 ^ (p - 1) := by
        rw [h1, abs_mul, abs_of_pos hpz] at h10
        exact mul_right_cancel₀ hpz.ne' h10
      rcases abs_choice t with h12 | h12
      · exact ⟨2 ^ (p - 1), by rw [← h12, h11]; push_cast; rfl⟩
      · exact ⟨-2 ^ (p - 1), by rw [show t = -|t| by rw [h12]; ring, h11]; push_cast; rfl⟩
  obtain ⟨z, hz⟩ := hint
  rw [h2, h1, hz, hg.int]

theorem ceil_le_rp {p : ℕ} (hp : 1 ≤ p) (q : ℚ) : q ≤ rp (fun t => ⌈t⌉) p q := by
  by_cases hq : q = 0
  · rw [hq, rp_zero]
  obtain ⟨e, t, he, h1, h2, -, -⟩ := rp_form (g := fun t => ⌈t⌉) hq hp
  rw [h2, h1]
  exact mul_le_mul_of_nonneg_right (Int.le_ceil t) (two_zpow_pos e).le

theorem rp_le_floor {p : ℕ} (hp : 1 ≤ p) (q : ℚ) : rp (fun t => ⌊t⌋) p q ≤ q := by
  by_cases hq : q = 0
  · rw [hq, rp_zero]
  obtain ⟨e, t, he, h1, h2, -, -⟩ := rp_form (g := fun t => ⌊t⌋) hq hp
  rw [h2, h1]
  exact mul_le_mul_of_nonneg_right (Int.floor_le t) (two_zpow_pos e).le

theorem rp_rel {p : ℕ} (hp : 1 ≤ p) (q : ℚ) : |rp rhe p q - q| ≤ |q| / 2 ^ p := by
  by_cases hq : q = 0
  · simp [hq, rp_zero]
  obtain ⟨e, t, he, h1, h2, h4, -⟩ := rp_form (g := rhe) hq hp
  have hpz := two_zpow_pos e
  have : rp rhe p q - q = -((t - rhe t) * 2 ^ e) := by rw [h2, h1]; ring
  rw [this, abs_neg, h1, abs_mul, abs_mul, abs_of_pos hpz, mul_div_right_comm]
  refine mul_le_mul_of_nonneg_right ((rhe_near t).trans ?_) hpz.le
  rw [div_le_div_iff₀ (by norm_num) (by positivity), one_mul]
  have h9' : (2 : ℚ) ^ p = 2 * 2 ^ (p - 1) := by
    rw [← pow_succ']; congr 1; omega
  rw [h9']; linarith

/-! ## Square root -/

/-- square root, bit by bit: the bits from `k` on are in `a` -/
def isq (n : ℕ) : ℕ → ℕ → ℕ
  | 0, a => a
  | k + 1, a => if (a + 2 ^ k) * (a + 2 ^ k) ≤ n then isq n k (a + 2 ^ k) else isq n k a

theorem isq_spec (n k a : ℕ) (h1 : a * a ≤ n) (h2 : n < (a + 2 ^ k) * (a + 2 ^ k)) :
    isq n k a * isq n k a ≤ n ∧ n < (isq n k a + 1) * (isq n k a + 1) := by
  induction k generalizing a with
  | zero => exact ⟨h1, h2⟩
  | succ k ih =>
    rw [isq]
    split_ifs with h
    · refine ih _ h ?_
      rw [add_assoc, ← two_mul, ← pow_succ']; exact h2
    · exact ih _ h1 (not_le.1 h)

/-- integer square root -/
def isqrt (n : ℕ) : ℕ := isq n (Nat.log2 n + 1) 0

theorem isqrt_spec (n : ℕ) : isqrt n * isqrt n ≤ n ∧ n < (isqrt n + 1) * (isqrt n + 1) := by
  refine isq_spec n _ 0 (by omega) ?_
  have h1 : n < 2 ^ (Nat.log2 n + 1) := Nat.lt_log2_self
  have h2 : 1 ≤ 2 ^ (Nat.log2 n + 1) := Nat.one_le_two_pow
  rw [zero_add]
  exact h1.trans_le (Nat.le_mul_of_pos_left _ h2)

/-- least natural number whose square is at least `n` -/
def csqrt (n : ℕ) : ℕ := if isqrt n * isqrt n = n then isqrt n else isqrt n + 1

theorem csqrt_le_iff {n m : ℕ} : csqrt n ≤ m ↔ n ≤ m * m := by
  obtain ⟨h1, h2⟩ := isqrt_spec n
  rw [csqrt]
  split_ifs with h
  · constructor
    · intro h3; rw [← h]; exact Nat.mul_le_mul h3 h3
    · intro h3
      by_contra hc
      push Not at hc
      have := Nat.mul_lt_mul'' hc hc
      omega
  · constructor
    · intro h3; exact (h2.le).trans (Nat.mul_le_mul h3 h3)
    · intro h3
      by_contra hc
      push Not at hc
      have h4 : m ≤ isqrt n := by omega
      have := Nat.mul_le_mul h4 h4
      omega

/-- square root of `p` bits, rounded up -/
def sqU (p : ℕ) (t : ℚ) : ℚ :=
  if t ≤ 0 then 0
  else (csqrt ⌈t / 4 ^ (Int.log 2 |t| / 2 - ((p : ℤ) - 1))⌉.toNat : ℚ) * 2 ^ (Int.log 2 |t| / 2 - ((p : ℤ) - 1))

theorem four_zpow (e : ℤ) : (4 : ℚ) ^ e = 2 ^ e * 2 ^ e := by
  rw [← mul_zpow]; norm_num

theorem sqU_nonneg (p : ℕ) (t : ℚ) : 0 ≤ sqU p t := by
  rw [sqU]
  split_ifs
  · exact le_rfl
  · exact mul_nonneg (Nat.cast_nonneg _) (two_zpow_pos _).le

/-- `sqU` is the least multiple of its unit that is at least the root -/
theorem sqU_le_iff {p : ℕ} {t : ℚ} (ht : 0 < t) (m : ℕ) :
    sqU p t ≤ m * 2 ^ (Int.log 2 |t| / 2 - ((p : ℤ) - 1)) ↔
      t ≤ (m * 2 ^ (Int.log 2 |t| / 2 - ((p : ℤ) - 1))) * (m * 2 ^ (Int.log 2 |t| / 2 - ((p : ℤ) - 1))) := by
  rw [sqU, if_neg (not_le.2 ht)]
  set e := Int.log 2 |t| / 2 - ((p : ℤ) - 1)
  have hpz := two_zpow_pos e
  have h4 : (0 : ℚ) < 4 ^ e := by rw [four_zpow]; positivity
  rw [mul_le_mul_iff_left₀ hpz, Nat.cast_le, csqrt_le_iff, Int.toNat_le, Int.ceil_le, div_le_iff₀ h4, four_zpow]
  push_cast
  rw [show (m : ℚ) * m * (2 ^ e * 2 ^ e) = m * 2 ^ e * (m * 2 ^ e) by ring]

theorem sqU_sq (p : ℕ) (t : ℚ) : t ≤ sqU p t * sqU p t := by
  by_cases ht : t ≤ 0
  · exact ht.trans (mul_self_nonneg _)
  push Not at ht
  have := (sqU_le_iff (p := p) ht (csqrt ⌈t / 4 ^ (Int.log 2 |t| / 2 - ((p : ℤ) - 1))⌉.toNat)).1
    (by rw [sqU, if_neg (not_le.2 ht)])
  rwa [sqU, if_neg (not_le.2 ht)]

theorem sqU_bounds {p : ℕ} {t : ℚ} (ht : 0 < t) :
    (2 : ℚ) ^ (Int.log 2 |t| / 2) ≤ sqU p t ∧ sqU p t ≤ 2 ^ (Int.log 2 |t| / 2 + 1) := by
  obtain ⟨a, b⟩ := log_bounds ht.ne'
  rw [abs_of_pos ht] at a b
  constructor
  · refine le_of_sq_le_sq' ?_ (sqU_nonneg p t)
    refine le_trans ?_ (sqU_sq p t)
    refine le_trans ?_ a
    rw [← two_zpow_add]
    refine two_zpow_le ?_
    rw [abs_of_pos ht]
    omega
  · have e2 : (2 : ℚ) ^ (Int.log 2 |t| / 2 + 1) = ((2 ^ p : ℕ) : ℚ) * 2 ^ (Int.log 2 |t| / 2 - ((p : ℤ) - 1)) := by
      push_cast
      rw [← zpow_natCast, ← two_zpow_add]; congr 1; ring
    rw [e2, sqU_le_iff ht, ← e2, ← two_zpow_add]
    refine b.le.trans (two_zpow_le ?_)
    rw [abs_of_pos ht]
    omega
where
  le_of_sq_le_sq' {a b : ℚ} (h : a * a ≤ b * b) (hb : 0 ≤ b) : a ≤ b := by
    by_contra hc
    push Not at hc
    nlinarith

theorem sqU_mono {p : ℕ} : Monotone (sqU p) := by
  intro t t' h
  by_cases ht : t ≤ 0
  · rw [sqU, if_pos ht]; exact sqU_nonneg p t'
  push Not at ht
  have ht' := ht.trans_le h
  have hl : Int.log 2 |t| ≤ Int.log 2 |t'| := by
    have h1 := (log_bounds ht.ne').1
    have h2 := (log_bounds ht'.ne').2
    rw [abs_of_pos ht] at h1 ⊢
    rw [abs_of_pos ht'] at h2 ⊢
    have := lt_of_two_zpow_lt ((h1.trans h).trans_lt h2)
    omega
  have hl2 : Int.log 2 |t| / 2 ≤ Int.log 2 |t'| / 2 := by omega
  rcases hl2.lt_or_eq with hlt | heq
  · exact (sqU_bounds ht).2.trans ((two_zpow_le (by omega)).trans (sqU_bounds ht').1)
  · have e' : sqU p t' = (csqrt ⌈t' / 4 ^ (Int.log 2 |t'| / 2 - ((p : ℤ) - 1))⌉.toNat : ℚ) *
        2 ^ (Int.log 2 |t| / 2 - ((p : ℤ) - 1)) := by rw [sqU, if_neg (not_le.2 ht'), heq]
    rw [e', sqU_le_iff ht, ← e']
    exact h.trans (sqU_sq p t')

end Fplll

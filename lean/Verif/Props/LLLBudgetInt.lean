import Verif.Model.LLLBudgetInt
import Mathlib.Analysis.SpecialFunctions.Log.Basic
import Mathlib.Analysis.Complex.ExponentialBounds

/-!
# The iteration limit of LLL in `int` arithmetic (C105)
-/

namespace Fplll

open LLL

theorem int32_some {z : ℤ} (h1 : -2147483648 ≤ z) (h2 : z < 2147483648) : int32 z = some z := by
  unfold int32
  rw [if_pos]
  norm_num
  exact ⟨h1, h2⟩

theorem int32_none {z : ℤ} (h : 2147483648 ≤ z) : int32 z = none := by
  unfold int32
  rw [if_neg]
  norm_num
  intro _
  exact h

theorem factorInt_some {d : ℕ} (hd : d ≤ 32767) : factorInt d = some (2 * (d : ℤ) * (d + 1)) := by
  have h0 : (d : ℤ) ≤ 32767 := by exact_mod_cast hd
  have h4 : (0 : ℤ) ≤ d := Int.natCast_nonneg d
  unfold factorInt
  rw [int32_some (z := 2 * (d : ℤ)) (by linarith) (by linarith), Option.bind_some,
    int32_some (z := (d : ℤ) + 1) (by linarith) (by linarith), Option.bind_some]
  exact int32_some (by nlinarith) (by nlinarith)

theorem factorInt_none {d : ℕ} (hd : 32768 ≤ d) : factorInt d = none := by
  have h0 : (32768 : ℤ) ≤ d := by exact_mod_cast hd
  unfold factorInt
  rcases lt_or_ge (2 * (d : ℤ)) 2147483648 with h1 | h1
  · rw [int32_some (z := 2 * (d : ℤ)) (by linarith) h1, Option.bind_some,
      int32_some (z := (d : ℤ) + 1) (by linarith) (by linarith), Option.bind_some]
    exact int32_none (by nlinarith)
  · rw [int32_none h1, Option.bind_none]

/-- **C105, defined.** The product in the iteration limit is computed exactly for up to 32767 rows; for more it overflows. -/
theorem C105_defined_iff (d : ℕ) : factorInt d = some (2 * (d : ℤ) * (d + 1)) ↔ d ≤ 32767 := by
  constructor
  · intro h
    by_contra hd
    rw [factorInt_none (by omega)] at h
    simp at h
  · exact factorInt_some

/-- **C105, limit.** Up to 32767 rows the limit is the one of the real numbers (of which C62 says that it is large enough). -/
theorem C105_limit {d : ℕ} (hd : d ≤ 32767) (e : ℕ) (δ : ℝ) : maxIterInt d e δ = maxIterOf d e δ := by
  unfold maxIterInt maxIterOf maxIterWith budget
  rw [factorInt_some hd, Option.map_some]
  push_cast
  rfl

/-- **C105 violated, undefined.** From 32768 rows on the limit is undefined, for every basis and every `delta`. -/
theorem C105_undefined_violated {d : ℕ} (hd : 32768 ≤ d) (e : ℕ) (δ : ℝ) : maxIterInt d e δ = none := by
  unfold maxIterInt
  split_ifs
  · rfl
  · rw [factorInt_none hd]
    rfl

theorem factorWrap_neg {d : ℕ} (h1 : 32768 ≤ d) (h2 : d ≤ 46340) : factorWrap d ≤ -83416 := by
  have h3 : (32768 : ℤ) ≤ d := by omega
  have h4 : (d : ℤ) ≤ 46340 := by omega
  have h5 : (2 ^ 31 : ℤ) ≤ 2 * d * (d + 1) := by nlinarith
  have h6 : (2 * d * (d + 1) : ℤ) ≤ 4294883880 := by nlinarith
  unfold factorWrap
  generalize (2 * d * (d + 1) : ℤ) = z at h5 h6
  omega

/-- the limit is not positive when the product wraps around -/
theorem C105_wrap {d : ℕ} (h1 : 32768 ≤ d) (h2 : d ≤ 46340) (e : ℕ) {δ : ℝ} (hδ : 1 / 4 < δ) (hδ1 : δ < 1) :
    maxIterWith (factorWrap d) d e δ ≤ 0 := by
  have hl : Real.log δ < 0 := Real.log_neg (by linarith) hδ1
  have hl2 : -(3 / 2) ≤ Real.log δ := by
    have ha : Real.log (1 / 4) ≤ Real.log δ := Real.log_le_log (by norm_num) hδ.le
    have hb : Real.log (1 / 4 : ℝ) = -(2 * Real.log 2) := by
      rw [show (1 / 4 : ℝ) = ((2 : ℝ) ^ 2)⁻¹ by norm_num, Real.log_inv, Real.log_pow]
      push_cast; ring
    have := Real.log_two_lt_d9
    linarith
  have hf : (factorWrap d : ℝ) ≤ -83416 := by exact_mod_cast factorWrap_neg h1 h2
  have hq : ((e : ℝ) + 3) / Real.log δ ≤ -2 := by
    rw [div_le_iff_of_neg hl]
    have : (0 : ℝ) ≤ e := Nat.cast_nonneg e
    linarith
  have hd : (d : ℝ) ≤ 46340 := by exact_mod_cast h2
  have hx : (d : ℝ) - factorWrap d * (((e : ℝ) + 3) / Real.log δ) < 0 := by nlinarith
  unfold maxIterWith truncZ
  rw [if_neg (not_le.2 hx), Int.ceil_le]
  push_cast
  exact hx.le

/-- **C105 violated, failure.** With a limit of at most zero - that is what wrapping around gives for 32768 to 46340 rows, any entries and
any `delta` between 1/4 and 1 - LLL does not succeed, whatever the basis (a reduced one too), unless at most one row remains after the
zero rows. -/
theorem C105_failure_violated {F : Type} [FloatOps F] {d e : ℕ} (h1 : 32768 ≤ d) (h2 : d ≤ 46340) {δ : ℝ} (hδ : 1 / 4 < δ) (hδ1 : δ < 1)
    (c : LLLCfg F) (fuel last : ℕ) (s : GSO F) (hz : (zeroLoop 0 d d 0 s).1 + 1 < d) :
    (lll c fuel (maxIterWith (factorWrap d) d e δ).toNat last s 0 0 d 0).1 ≠ .success := by
  rw [Int.toNat_of_nonpos (C105_wrap h1 h2 e hδ hδ1)]
  have key : ∀ (st : LLLState F) (p : LLLStatus × GSO F), st.kappa < d - st.zeros → (lllTail c fuel 0 0 d 0 st p).1 ≠ .success := by
    intro st p hk
    unfold lllTail
    split_ifs with h3
    · exact h3
    · unfold mainLoop lllFinish
      rw [if_neg (by simp)]
      dsimp only
      rw [if_pos hk]
      simp
  unfold lll
  refine key _ _ ?_
  simp only [Nat.sub_zero]
  omega

/-- a first row that is not zero is enough for the last hypothesis -/
theorem zeroLoop_first {F : Type} [FloatOps F] {d : ℕ} (hd : 2 ≤ d) {s : GSO F} (h : rowIsZero s 0 = false) :
    (zeroLoop 0 d d 0 s).1 + 1 < d := by
  obtain ⟨n, rfl⟩ : ∃ n, d = n + 1 := ⟨d - 1, by omega⟩
  unfold zeroLoop
  rw [h, if_neg (by simp)]
  dsimp only; omega

/-- the bounds are met; the identity matrix with 40000 rows is not recognised as reduced -/
example : (32768 : ℕ) ≤ 40000 ∧ (40000 : ℕ) ≤ 46340 ∧ factorWrap 40000 = -1094887296 := by decide +kernel

example {F : Type} [FloatOps F] (c : LLLCfg F) (s : GSO F) (h : rowIsZero s 0 = false) :
    (lll c 1000 (maxIterWith (factorWrap 40000) 40000 1 (99 / 100)).toNat 0 s 0 0 40000 0).1 ≠ .success :=
  C105_failure_violated (by norm_num) (by norm_num) (by norm_num) (by norm_num) c 1000 0 s (zeroLoop_first (by norm_num) h)

example : factorInt 32767 = some 2147418112 ∧ factorInt 32768 = none := by decide +kernel

end Fplll

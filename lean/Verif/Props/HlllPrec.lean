import Verif.Model.HlllPrec
import Mathlib.Analysis.SpecialFunctions.Log.Base

/-!
# C94: `hlll_min_prec`
-/

namespace Fplll
namespace HlllPrec

/-! ### numbers that are positive, not negative, finite, or none of these -/

/-- a rounding: monotone, keeps signs, 1 and 9/8 -/
structure Rnd (rn : ℝ → ℝ) : Prop where
  mono : Monotone rn
  zero : rn 0 = 0
  pos : ∀ {x}, 0 < x → 0 < rn x
  one : rn 1 = 1
  nine : rn (9 / 8) = 9 / 8

theorem rnd_id : Rnd id := ⟨monotone_id, rfl, fun h => h, rfl, rfl⟩

def PosX (a : X) : Prop := ∃ x : ℝ, 0 < x ∧ a = .fin x
def NonnegX (a : X) : Prop := ∃ x : ℝ, 0 ≤ x ∧ a = .fin x
def FinX (a : X) : Prop := ∃ x : ℝ, a = .fin x
/-- an infinity or NaN -/
def Non (a : X) : Prop := ∀ x : ℝ, a ≠ .fin x
/-- zero, an infinity or NaN -/
def Zn (a : X) : Prop := a = .fin 0 ∨ Non a

section
variable {rn : ℝ → ℝ} (R : Rnd rn)
include R

theorem PosX.add {a b : X} (ha : PosX a) (hb : NonnegX b) : PosX (X.add rn a b) := by
  obtain ⟨x, hx, rfl⟩ := ha; obtain ⟨y, hy, rfl⟩ := hb
  exact ⟨_, R.pos (by linarith), rfl⟩
theorem NonnegX.add {a b : X} (ha : NonnegX a) (hb : PosX b) : PosX (X.add rn a b) := by
  obtain ⟨x, hx, rfl⟩ := ha; obtain ⟨y, hy, rfl⟩ := hb
  exact ⟨_, R.pos (by linarith), rfl⟩
theorem PosX.mul {a b : X} (ha : PosX a) (hb : PosX b) : PosX (X.mul rn a b) := by
  obtain ⟨x, hx, rfl⟩ := ha; obtain ⟨y, hy, rfl⟩ := hb
  exact ⟨_, R.pos (mul_pos hx hy), rfl⟩
theorem NonnegX.mul {a b : X} (ha : NonnegX a) (hb : NonnegX b) : NonnegX (X.mul rn a b) := by
  obtain ⟨x, hx, rfl⟩ := ha; obtain ⟨y, hy, rfl⟩ := hb
  exact ⟨_, R.zero ▸ R.mono (mul_nonneg hx hy), rfl⟩
theorem PosX.div {a b : X} (ha : PosX a) (hb : PosX b) : PosX (X.div rn a b) := by
  obtain ⟨x, hx, rfl⟩ := ha; obtain ⟨y, hy, rfl⟩ := hb
  refine ⟨rn (x / y), R.pos (div_pos hx hy), ?_⟩
  show (if y = 0 then _ else _) = _
  rw [if_neg hy.ne']
theorem PosX.sqrt {a : X} (ha : PosX a) : PosX (X.sqrt rn a) := by
  obtain ⟨x, hx, rfl⟩ := ha
  refine ⟨rn (Real.sqrt x), R.pos (Real.sqrt_pos.2 hx), ?_⟩
  show (if x < 0 then _ else _) = _
  rw [if_neg (by linarith)]
theorem PosX.pow {a : X} (ha : PosX a) (k : ℕ) : PosX (X.pow rn a k) := by
  obtain ⟨x, hx, rfl⟩ := ha
  unfold X.pow
  by_cases h : k = 0
  · rw [if_pos h]; exact ⟨1, one_pos, rfl⟩
  · rw [if_neg h]; exact ⟨_, R.pos (pow_pos hx k), rfl⟩
end

section
variable {rn : ℝ → ℝ}
theorem PosX.nonneg {a : X} (ha : PosX a) : NonnegX a := by obtain ⟨x, hx, rfl⟩ := ha; exact ⟨x, hx.le, rfl⟩
theorem PosX.log {a : X} (ha : PosX a) : FinX (X.log rn a) := by
  obtain ⟨x, hx, rfl⟩ := ha
  refine ⟨rn (Real.log x), ?_⟩
  show (if 0 < x then _ else _) = _
  rw [if_pos hx]
theorem FinX.add {a b : X} (ha : FinX a) (hb : FinX b) : FinX (X.add rn a b) := by
  obtain ⟨x, rfl⟩ := ha; obtain ⟨y, rfl⟩ := hb; exact ⟨_, rfl⟩
theorem FinX.sub {a b : X} (ha : FinX a) (hb : FinX b) : FinX (X.sub rn a b) := by
  obtain ⟨x, rfl⟩ := ha; obtain ⟨y, rfl⟩ := hb; exact ⟨_, rfl⟩
theorem FinX.mul {a b : X} (ha : FinX a) (hb : FinX b) : FinX (X.mul rn a b) := by
  obtain ⟨x, rfl⟩ := ha; obtain ⟨y, rfl⟩ := hb; exact ⟨_, rfl⟩
theorem FinX.div {a b : X} (ha : FinX a) (hb : PosX b) : FinX (X.div rn a b) := by
  obtain ⟨x, rfl⟩ := ha; obtain ⟨y, hy, rfl⟩ := hb
  refine ⟨rn (x / y), ?_⟩
  show (if y = 0 then _ else _) = _
  rw [if_neg hy.ne']
theorem finX (x : ℝ) : FinX (.fin x) := ⟨x, rfl⟩
theorem posX {x : ℝ} (h : 0 < x) : PosX (.fin x) := ⟨x, h, rfl⟩

/-! infinities and NaN stay -/

theorem non_infOf (x : ℝ) : Non (X.infOf x) := by
  intro y
  unfold X.infOf
  split
  · exact X.noConfusion
  · split
    · exact X.noConfusion
    · exact X.noConfusion
theorem non_pinf : Non .pinf := fun _ => X.noConfusion
theorem non_ninf : Non .ninf := fun _ => X.noConfusion
theorem non_nan : Non .nan := fun _ => X.noConfusion

theorem Non.add {a b : X} (h : Non a ∨ Non b) : Non (X.add rn a b) := by
  cases a <;> cases b <;> first | exact non_pinf | exact non_ninf | exact non_nan | exact (h.elim (fun h => absurd rfl (h _)) fun h => absurd rfl (h _))
theorem Non.neg {a : X} (h : Non a) : Non (X.neg a) := by
  cases a <;> first | exact non_pinf | exact non_ninf | exact non_nan | exact absurd rfl (h _)
theorem Non.sub {a b : X} (h : Non a ∨ Non b) : Non (X.sub rn a b) := Non.add (h.imp_right Non.neg)
theorem Non.mul {a b : X} (h : Non a ∨ Non b) : Non (X.mul rn a b) := by
  cases a <;> cases b <;> first | exact non_pinf | exact non_ninf | exact non_nan | exact non_infOf _ | exact (h.elim (fun h => absurd rfl (h _)) fun h => absurd rfl (h _))
theorem Non.div {a : X} (h : Non a) (y : ℝ) : Non (X.div rn a (.fin y)) := by
  cases a with
  | fin x => exact absurd rfl (h x)
  | nan => exact non_nan
  | pinf =>
    show Non (if y < 0 then _ else _)
    split
    · exact non_ninf
    · exact non_pinf
  | ninf =>
    show Non (if y < 0 then _ else _)
    split
    · exact non_pinf
    · exact non_ninf
theorem Non.log {a : X} (h : Zn a) : Non (X.log rn a) := by
  rcases h with rfl | h
  · show Non (if (0 : ℝ) < 0 then _ else if (0 : ℝ) = 0 then _ else _)
    rw [if_neg (lt_irrefl _), if_pos rfl]; exact non_ninf
  · cases a <;> first | exact absurd rfl (h _) | exact non_pinf | exact non_nan
theorem Non.pow {a : X} (h : Non a) {k : ℕ} (hk : k ≠ 0) : Non (X.pow rn a k) := by
  unfold X.pow
  rw [if_neg hk]
  cases a with
  | fin x => exact absurd rfl (h x)
  | nan => exact non_nan
  | pinf => exact non_pinf
  | ninf =>
    show Non (if k % 2 = 0 then _ else _)
    split
    · exact non_pinf
    · exact non_ninf

theorem Zn.mul (h0 : rn 0 = 0) {a b : X} (h : Zn a ∨ Zn b) : Zn (X.mul rn a b) := by
  by_cases hn : Non a ∨ Non b
  · exact .inr (Non.mul hn)
  · have ha : ¬ Non a := fun h => hn (.inl h)
    have hb : ¬ Non b := fun h => hn (.inr h)
    cases a <;> cases b <;> first | exact absurd non_pinf ha | exact absurd non_ninf ha | exact absurd non_nan ha | exact absurd non_pinf hb | exact absurd non_ninf hb | exact absurd non_nan hb | skip
    rename_i x y
    left
    have : x * y = 0 := by
      rcases h with h | h
      · rcases h with h | h
        · rw [X.fin.injEq] at h; rw [h, zero_mul]
        · exact absurd h ha
      · rcases h with h | h
        · rw [X.fin.injEq] at h; rw [h, mul_zero]
        · exact absurd h hb
    show X.fin (rn (x * y)) = _
    rw [this, h0]
theorem Zn.div (h0 : rn 0 = 0) {a : X} (h : Zn a) (y : ℝ) : Zn (X.div rn a (.fin y)) := by
  rcases h with rfl | h
  · show Zn (if y = 0 then _ else _)
    split
    · exact .inr (non_infOf _)
    · rw [zero_div, h0]; exact .inl rfl
  · exact .inr (Non.div h y)
end

/-! ### where the precision is defined -/

section
variable {rn : ℝ → ℝ} {d n : ℕ} {δ η θ : ℝ}

theorem alpha_pos (R : Rnd rn) (hδ : rn δ = δ) (hδ0 : 0 < δ) (hη : 1 / 2 ≤ η) (hθ : 0 < θ) (h : rn (η * η) < δ) : PosX (alpha rn δ η θ) := by
  have h1 : PosX (X.sub rn (X.mul rn (X.add rn (.fin 1) (X.mul rn (.fin θ) (.fin θ))) (.fin δ)) (X.mul rn (.fin η) (.fin η))) := by
    refine ⟨_, R.pos ?_, rfl⟩
    have a1 : 0 ≤ rn (θ * θ) := R.zero ▸ R.mono (mul_self_nonneg θ)
    have a2 : 1 ≤ rn (1 + rn (θ * θ)) := R.one ▸ R.mono (by rw [R.one]; linarith)
    have a3 : δ ≤ rn (rn (1 + rn (θ * θ)) * δ) := by
      have := R.mono (show δ ≤ rn (1 + rn (θ * θ)) * δ by nlinarith)
      rwa [hδ] at this
    linarith
  have h2 : PosX (X.sub rn (.fin δ) (X.mul rn (.fin η) (.fin η))) := ⟨_, R.pos (by linarith), rfl⟩
  exact PosX.div R (PosX.add R (PosX.mul R (posX hθ) (posX (by linarith))) (PosX.sqrt R h1).nonneg) h2

/-- **C94.**  For positive dimensions and for all parameters that pass the checks, with `theta > 0` and the rounded square of `eta` less than `delta`, all numbers that `hlll_min_prec` computes are finite, in every rounding; the result is the number rounded up, or too
large for an `int`. -/
theorem C94_defined (R : Rnd rn) (hδ : rn δ = δ) (hd : 1 ≤ d) (hn : 1 ≤ n) (hδ0 : 1 / 4 ≤ δ) (hδ1 : δ < 1) (hη : 1 / 2 ≤ η) (hθ : 0 < θ) (hηθ : 1 / 2 < rn (η - θ)) (h : rn (η * η) < δ) (c : ℝ) :
    ∃ p, pOf rn d n δ η θ c = .fin p ∧ hlllMinPrec rn d n δ η θ c = if -2 ^ 31 ≤ ⌈p⌉ ∧ ⌈p⌉ < 2 ^ 31 then .ok ⌈p⌉ else .ub := by
  have hdr : (0 : ℝ) < d := by exact_mod_cast hd
  have hnr : (0 : ℝ) < n := by exact_mod_cast hn
  have hα := alpha_pos R hδ (by linarith) hη hθ h
  have hη0 : 0 < η := by linarith
  have hs : PosX (X.add rn (.fin (-1)) (X.sqrt rn (.fin (3 / 2)))) := by
    have e : X.sqrt rn (.fin (3 / 2)) = .fin (rn (Real.sqrt (3 / 2))) := by
      show (if (3 / 2 : ℝ) < 0 then _ else _) = _
      rw [if_neg (by norm_num)]
    rw [e]
    refine ⟨_, R.pos ?_, rfl⟩
    have : (9 / 8 : ℝ) ≤ Real.sqrt (3 / 2) := Real.le_sqrt_of_sq_le (by norm_num)
    have := R.mono this
    rw [R.nine] at this
    linarith
  have ht : PosX (term1 rn η θ (alpha rn δ η θ)) := by
    refine PosX.div R (PosX.add R (posX one_pos) (NonnegX.mul R ?_ hα.nonneg)) (PosX.mul R (PosX.add R (posX hη0) (posX hθ).nonneg) hs)
    exact ⟨_, abs_nonneg _, rfl⟩
  have hc0 : PosX (c0 rn d n η θ (alpha rn δ η θ)) := PosX.mul R (PosX.mul R ht (posX hnr)) (PosX.sqrt R (posX hdr))
  have hl2 : PosX (X.log rn (.fin 2)) := by
    refine ⟨rn (Real.log 2), R.pos (Real.log_pos (by norm_num)), ?_⟩
    show (if (0 : ℝ) < 2 then _ else _) = _
    rw [if_pos (by norm_num)]
  have h9 : (0 : ℝ) < 9 := by norm_num
  have h8 : (0 : ℝ) < 8 := by norm_num
  have hphi := PosX.mul R (PosX.mul R (PosX.mul R (PosX.mul R (PosX.mul R (posX h8) (posX hdr)) (PosX.add R (posX hnr) (posX h9).nonneg)) hc0)
    (PosX.add R (posX one_pos) (PosX.div R (posX one_pos) (posX hθ)).nonneg))
    (PosX.pow R (PosX.mul R (PosX.add R (PosX.add R (posX one_pos) (posX hη0).nonneg) (posX hθ).nonneg) hα) (d + 1))
  have harg := PosX.div R (PosX.mul R (PosX.mul R (PosX.mul R (PosX.mul R (posX hdr) (posX hdr)) (posX hdr)) hphi) (PosX.pow R hα d)) (posX hθ)
  have h1δ : PosX (X.sub rn (.fin 1) (.fin δ)) := ⟨_, R.pos (by linarith), rfl⟩
  have h2 : PosX (X.sub rn (X.sub rn (.fin η) (.fin θ)) (.fin (1 / 2))) := by
    refine ⟨_, R.pos ?_, rfl⟩
    rw [← sub_eq_add_neg, ← sub_eq_add_neg]; linarith
  have h22 : (0 : ℝ) < 2 := by norm_num
  obtain ⟨p, hp⟩ : FinX (pOf rn d n δ η θ c) :=
    FinX.sub (FinX.sub (FinX.add (FinX.add (FinX.add (FinX.div harg.log hl2) (finX _)) (FinX.div (FinX.mul (finX _) (finX _)) (posX h22))) (finX _)) (FinX.div h1δ.log hl2)) (FinX.div h2.log hl2)
  refine ⟨p, hp, ?_⟩
  unfold hlllMinPrec
  rw [if_neg (not_not.2 ⟨hδ1, hδ0⟩), if_neg (not_not.2 hθ.le), if_neg (not_not.2 hη), if_neg (not_not.2 hηθ), hp]

/-- **C94 (checks).**  Exactly the parameters outside of the documented ranges are rejected (but see `C94_undefined` and `C94_alpha_violated`). -/
theorem C94_checks (c : ℝ) : hlllMinPrec rn d n δ η θ c = .abort ↔ ¬ (1 / 4 ≤ δ ∧ δ < 1 ∧ 0 ≤ θ ∧ 1 / 2 ≤ η ∧ 1 / 2 < rn (η - θ)) := by
  unfold hlllMinPrec
  by_cases h1 : δ < 1 ∧ 1 / 4 ≤ δ
  · rw [if_neg (not_not.2 h1)]
    by_cases h2 : 0 ≤ θ
    · rw [if_neg (not_not.2 h2)]
      by_cases h3 : 1 / 2 ≤ η
      · rw [if_neg (not_not.2 h3)]
        by_cases h4 : 1 / 2 < rn (η - θ)
        · rw [if_neg (not_not.2 h4)]
          refine iff_of_false ?_ (not_not.2 ⟨h1.2, h1.1, h2, h3, h4⟩)
          generalize pOf rn d n δ η θ c = q
          cases q with
          | fin p => dsimp only; split <;> exact Res.noConfusion
          | _ => exact Res.noConfusion
        · rw [if_pos h4]; exact iff_of_true rfl fun h => h4 h.2.2.2.2
      · rw [if_pos h3]; exact iff_of_true rfl fun h => h3 h.2.2.2.1
    · rw [if_pos h2]; exact iff_of_true rfl fun h => h2 h.2.2.1
  · rw [if_pos h1]; exact iff_of_true rfl fun h => h1 ⟨h.2.1, h.1⟩

/-- what happens to the result when the argument of the first logarithm is zero, infinite or NaN -/
theorem non_pOf {c : ℝ} (h : Zn (X.div rn (X.mul rn (X.mul rn (X.mul rn (X.mul rn (.fin d) (.fin d)) (.fin d))
      (X.mul rn (X.mul rn (X.mul rn (X.mul rn (X.mul rn (.fin 8) (.fin d)) (X.add rn (.fin n) (.fin 9))) (c0 rn d n η θ (alpha rn δ η θ))) (X.add rn (.fin 1) (X.div rn (.fin 1) (.fin θ))))
        (X.pow rn (X.mul rn (X.add rn (X.add rn (.fin 1) (.fin η)) (.fin θ)) (alpha rn δ η θ)) (d + 1)))) (X.pow rn (alpha rn δ η θ) d)) (.fin θ))) : Non (pOf rn d n δ η θ c) := by
  obtain ⟨y, hy⟩ : FinX (X.log rn (.fin 2)) := PosX.log (posX (by norm_num))
  unfold pOf
  dsimp only
  rw [hy]
  exact Non.sub (.inl (Non.sub (.inl (Non.add (.inl (Non.add (.inl (Non.add (.inl (Non.div (Non.log h) _)))))))))) 

/-- **C94 (undefined conversions, violated).**  The checks accept `theta = 0`, `delta = eta^2` (up to rounding) and empty matrices, but then the number converted to `int` is an infinity or NaN, in every rounding. -/
theorem C94_undefined (h0 : rn 0 = 0) (hδ0 : 1 / 4 ≤ δ) (hδ1 : δ < 1) (hη : 1 / 2 ≤ η) (hθ : 0 ≤ θ) (hηθ : 1 / 2 < rn (η - θ)) (h : d = 0 ∨ n = 0 ∨ θ = 0 ∨ rn (η * η) = δ) (c : ℝ) :
    hlllMinPrec rn d n δ η θ c = .ub := by
  have key : Non (pOf rn d n δ η θ c) := by
    refine non_pOf (Zn.div h0 ?_ θ)
    by_cases hd : d = 0
    · subst hd
      refine Zn.mul h0 (.inl (Zn.mul h0 (.inl (Zn.mul h0 (.inr (.inl ?_))))))
      simp
    rcases h with h | h | h | h
    · exact absurd h hd
    · subst h
      refine Zn.mul h0 (.inl (Zn.mul h0 (.inr (Zn.mul h0 (.inl (Zn.mul h0 (.inl (Zn.mul h0 (.inr ?_)))))))))
      unfold c0
      refine Zn.mul h0 (.inl (Zn.mul h0 (.inr (.inl ?_))))
      simp
    · subst h
      refine .inr (Non.mul (.inl (Non.mul (.inr (Non.mul (.inl (Non.mul (.inr (Non.add (.inr ?_)))))))))) 
      show Non (if (0 : ℝ) = 0 then _ else _)
      rw [if_pos rfl]; exact non_infOf _
    · refine .inr (Non.mul (.inr (Non.pow ?_ hd)))
      unfold alpha
      have e : X.sub rn (.fin δ) (X.mul rn (.fin η) (.fin η)) = .fin 0 := by
        show X.fin (rn (δ + -rn (η * η))) = _
        rw [h, add_neg_cancel, h0]
      dsimp only
      rw [e]
      generalize X.add rn (X.mul rn (.fin θ) (.fin η)) _ = q
      cases q with
      | fin x =>
        show Non (if (0 : ℝ) = 0 then _ else _)
        rw [if_pos rfl]; exact non_infOf _
      | pinf => exact Non.div non_pinf _
      | ninf => exact Non.div non_ninf _
      | nan => exact non_nan
  unfold hlllMinPrec
  rw [if_neg (not_not.2 ⟨hδ1, hδ0⟩), if_neg (not_not.2 hθ), if_neg (not_not.2 hη), if_neg (not_not.2 hηθ)]
  generalize pOf rn d n δ η θ c = q at key
  cases q with
  | fin x => exact absurd rfl (key x)
  | pinf => rfl
  | ninf => rfl
  | nan => rfl

end

/-! ### the value -/

/-- `α` of Morel, Stehlé and Villard -/
noncomputable def alphaR (δ η θ : ℝ) : ℝ := (θ * η + Real.sqrt ((1 + θ ^ 2) * δ - η ^ 2)) / (δ - η ^ 2)

/-- the terms of the maximum in `c0`, in the comments of util.cpp:150-157 -/
noncomputable def termA (δ η θ : ℝ) : ℝ := (1 + |1 - η - θ| * alphaR δ η θ) / ((η + θ) * (-1 + Real.sqrt (3 / 2)))
noncomputable def termB (d : ℕ) (η : ℝ) : ℝ := 4 * Real.sqrt 6 / (1 + η) * Real.sqrt (1 + d * η ^ 2)

/-- the bound on the precision, with `c0 = K n sqrt(d)` -/
noncomputable def bits (d n : ℕ) (δ η θ c K : ℝ) : ℝ :=
  Real.logb 2 (d ^ 3 * (8 * d * (n + 9) * (K * n * Real.sqrt d) * (1 + 1 / θ) * ((1 + η + θ) * alphaR δ η θ) ^ (d + 1)) * alphaR δ η θ ^ d / θ) + 16 + c * d / 2 + 1 - Real.logb 2 (1 - δ) - Real.logb 2 (η - θ - 1 / 2)

/-- the precision that the comments (and the paper) ask for -/
noncomputable def required (d n : ℕ) (δ η θ c : ℝ) : ℤ := ⌈bits d n δ η θ c (max (termA δ η θ) (termB d η))⌉

section
variable {d n : ℕ} {δ η θ : ℝ}

theorem sqrt_gt : (9 / 8 : ℝ) ≤ Real.sqrt (3 / 2) := Real.le_sqrt_of_sq_le (by norm_num)

theorem alphaR_pos (hη : 1 / 2 ≤ η) (hθ : 0 < θ) (h : η ^ 2 < δ) : 0 < alphaR δ η θ := by
  unfold alphaR
  have := mul_pos hθ (by linarith : 0 < η)
  have h2 := Real.sqrt_nonneg ((1 + θ ^ 2) * δ - η ^ 2)
  exact div_pos (by linarith) (by linarith)

theorem termA_pos (hη : 1 / 2 ≤ η) (hθ : 0 < θ) (h : η ^ 2 < δ) : 0 < termA δ η θ := by
  unfold termA
  have h1 := alphaR_pos hη hθ h
  have h2 := sqrt_gt
  have h3 := mul_nonneg (abs_nonneg (1 - η - θ)) h1.le
  exact div_pos (by linarith) (mul_pos (by linarith) (by linarith))

/-- **C94 (value).**  In exact arithmetic the number is the bound with the first term of the maximum only. -/
theorem C94_value (hd : 1 ≤ d) (hn : 1 ≤ n) (hδ0 : 1 / 4 ≤ δ) (hδ1 : δ < 1) (hη : 1 / 2 ≤ η) (hθ : 0 < θ) (hηθ : 1 / 2 < η - θ) (h : η ^ 2 < δ) (c : ℝ) :
    pOf id d n δ η θ c = .fin (bits d n δ η θ c (termA δ η θ)) := by
  have hα := alphaR_pos hη hθ h
  have hA := termA_pos hη hθ h
  have hdr : (0 : ℝ) < d := by exact_mod_cast hd
  have hnr : (0 : ℝ) < n := by exact_mod_cast hn
  have e1 : alpha id δ η θ = .fin (alphaR δ η θ) := by
    unfold alpha alphaR X.sub X.neg X.mul X.add X.sqrt X.div
    simp only [id]
    have a1 : ¬ ((1 + θ * θ) * δ + -(η * η) < 0) := by nlinarith [mul_pos (mul_pos hθ hθ) (by linarith : 0 < δ)]
    have a2 : ¬ (δ + -(η * η) = 0) := by intro e; nlinarith
    rw [if_neg a1]
    dsimp only
    rw [if_neg a2, show (1 + θ * θ) * δ + -(η * η) = (1 + θ ^ 2) * δ - η ^ 2 by ring, show δ + -(η * η) = δ - η ^ 2 by ring]
  have e2 : term1 id η θ (.fin (alphaR δ η θ)) = .fin (termA δ η θ) := by
    unfold term1 termA X.sub X.neg X.mul X.add X.sqrt X.div X.abs
    simp only [id]
    rw [if_neg (by norm_num : ¬ (3 / 2 : ℝ) < 0)]
    dsimp only
    have := sqrt_gt
    rw [if_neg (mul_pos (by linarith) (by linarith)).ne']
    congr 4
  have e3 : c0 id d n η θ (.fin (alphaR δ η θ)) = .fin (termA δ η θ * n * Real.sqrt d) := by
    unfold c0
    dsimp only
    rw [e2]
    unfold X.mul X.sqrt
    simp only [id]
    rw [if_neg (by linarith)]
  have hdn : d ≠ 0 := by omega
  unfold pOf
  dsimp only
  rw [e1, e3]
  unfold X.sub X.neg X.mul X.add X.div X.pow X.log
  simp only [id, if_neg hdn, Nat.succ_ne_zero, if_false, if_neg hθ.ne', if_pos (by norm_num : (0 : ℝ) < 2)]
  have hl : Real.log 2 ≠ 0 := (Real.log_pos (by norm_num)).ne'
  have hs := Real.sqrt_pos.2 hdr
  have harg : 0 < (d : ℝ) * d * d * (8 * d * (n + 9) * (termA δ η θ * n * Real.sqrt d) * (1 + 1 / θ) * ((1 + η + θ) * alphaR δ η θ) ^ (d + 1)) * alphaR δ η θ ^ d / θ := by
    have : 0 < 1 + η + θ := by linarith
    positivity
  rw [if_pos harg, if_pos (by linarith : 0 < 1 + -δ), if_pos (by linarith : 0 < η + -θ + -(1 / 2))]
  simp only [if_neg hl, if_neg (by norm_num : ¬ (2 : ℝ) = 0)]
  unfold bits Real.logb
  congr 1
  have r1 : (d : ℝ) * d * d = d ^ 3 := by ring
  rw [r1]
  ring_nf

/-- the number that is compared and then ignored is the second term -/
theorem C94_second_term (hη : 1 / 2 ≤ η) (α : X) : term2 id d η = .fin (termB d η) ∧ c0 id d n η θ α = X.mul id (X.mul id (term1 id η θ α) (.fin n)) (X.sqrt id (.fin d)) := by
  refine ⟨?_, rfl⟩
  unfold term2 termB X.mul X.add X.sqrt X.div
  simp only [id]
  have h1 : (0 : ℝ) ≤ d * η * η := by rw [mul_assoc]; exact mul_nonneg (Nat.cast_nonneg d) (mul_self_nonneg η)
  rw [if_neg (by norm_num : ¬ (6 : ℝ) < 0), if_neg (by linarith : ¬ (1 + d * η * η < 0))]
  dsimp only
  rw [if_neg (by linarith : ¬ (1 + η = 0)), show (1 : ℝ) + d * η * η = 1 + d * η ^ 2 by ring]

/-- the number of bits grows with the factor of `c0` -/
theorem bits_ratio (hd : 1 ≤ d) (hn : 1 ≤ n) (hη : 1 / 2 ≤ η) (hθ : 0 < θ) (h : η ^ 2 < δ) (c : ℝ) {K : ℝ} (hK : 0 < K) {L : ℝ} (hL : 0 < L) : bits d n δ η θ c L = bits d n δ η θ c K + Real.logb 2 (L / K) := by
  have hα := alphaR_pos hη hθ h
  have hdr : (0 : ℝ) < d := by exact_mod_cast hd
  have hnr : (0 : ℝ) < n := by exact_mod_cast hn
  have hs := Real.sqrt_pos.2 hdr
  have h1 : 0 < 1 + η + θ := by linarith
  have e : ∀ M : ℝ, (d : ℝ) ^ 3 * (8 * d * (n + 9) * (M * n * Real.sqrt d) * (1 + 1 / θ) * ((1 + η + θ) * alphaR δ η θ) ^ (d + 1)) * alphaR δ η θ ^ d / θ =
      M * ((d : ℝ) ^ 3 * (8 * d * (n + 9) * (n * Real.sqrt d) * (1 + 1 / θ) * ((1 + η + θ) * alphaR δ η θ) ^ (d + 1)) * alphaR δ η θ ^ d / θ) := fun M => by ring
  have hz : 0 < (d : ℝ) ^ 3 * (8 * d * (n + 9) * (n * Real.sqrt d) * (1 + 1 / θ) * ((1 + η + θ) * alphaR δ η θ) ^ (d + 1)) * alphaR δ η θ ^ d / θ := by positivity
  unfold bits
  rw [e K, e L]
  generalize (d : ℝ) ^ 3 * (8 * d * (n + 9) * (n * Real.sqrt d) * (1 + 1 / θ) * ((1 + η + θ) * alphaR δ η θ) ^ (d + 1)) * alphaR δ η θ ^ d / θ = z at *
  rw [Real.logb_mul hK.ne' hz.ne', Real.logb_mul hL.ne' hz.ne', Real.logb_div hL.ne' hK.ne']
  ring

/-- **C94 (the maximum is discarded).**  The statement `ftmp0.max_f(ftmp1)` (util.cpp:159) has no effect: the precision never exceeds the one asked for, and agrees with it when the first term is the larger one. -/
theorem C94_precision_partial (hd : 1 ≤ d) (hn : 1 ≤ n) (hδ0 : 1 / 4 ≤ δ) (hδ1 : δ < 1) (hη : 1 / 2 ≤ η) (hθ : 0 < θ) (hηθ : 1 / 2 < η - θ) (h : η ^ 2 < δ) (c : ℝ) {p : ℤ} (hp : hlllMinPrec id d n δ η θ c = .ok p) :
    p ≤ required d n δ η θ c ∧ (termB d η ≤ termA δ η θ → p = required d n δ η θ c) := by
  have hA := termA_pos hη hθ h
  have hv := C94_value hd hn hδ0 hδ1 hη hθ hηθ h c
  unfold hlllMinPrec at hp
  rw [if_neg (not_not.2 ⟨hδ1, hδ0⟩), if_neg (not_not.2 hθ.le), if_neg (not_not.2 hη), if_neg (not_not.2 (show 1 / 2 < id (η - θ) from hηθ)), hv] at hp
  dsimp only at hp
  split at hp
  · rw [Res.ok.injEq] at hp
    subst hp
    constructor
    · refine Int.ceil_mono ?_
      rw [bits_ratio hd hn hη hθ h c hA (lt_max_of_lt_left hA)]
      have : 0 ≤ Real.logb 2 (max (termA δ η θ) (termB d η) / termA δ η θ) := Real.logb_nonneg (by norm_num) (by rw [le_div_iff₀ hA, one_mul]; exact le_max_left _ _)
      linarith
    · intro hBA
      unfold required
      rw [max_eq_left hBA]
  · cases hp

/-- **C94 (violated).**  With the default parameters of `fplll` - `delta = 0.99`, `eta = 0.51`, `theta = 0.001`, any `c` - the precision is too small by at least one bit for all dimensions from 100 on. -/
theorem C94_too_small_violated (hd : 100 ≤ d) (hn : 1 ≤ n) (c : ℝ) {p : ℤ} (hp : hlllMinPrec id d n (99 / 100) (51 / 100) (1 / 1000) c = .ok p) : p < required d n (99 / 100) (51 / 100) (1 / 1000) c := by
  have hA := termA_pos (δ := 99 / 100) (η := 51 / 100) (θ := 1 / 1000) (by norm_num) (by norm_num) (by norm_num)
  have hv := C94_value (d := d) (n := n) (δ := 99 / 100) (η := 51 / 100) (θ := 1 / 1000) (by omega) hn (by norm_num) (by norm_num) (by norm_num) (by norm_num) (by norm_num) (by norm_num) c
  unfold hlllMinPrec at hp
  rw [if_neg (by norm_num), if_neg (by norm_num), if_neg (by norm_num), if_neg (by norm_num), hv] at hp
  dsimp only at hp
  split at hp
  · rw [Res.ok.injEq] at hp
    subst hp
    have hα : alphaR (99 / 100) (51 / 100) (1 / 1000) ≤ 12 / 10 := by
      unfold alphaR
      have : Real.sqrt ((1 + (1 / 1000) ^ 2) * (99 / 100) - (51 / 100) ^ 2) ≤ 87 / 100 := Real.sqrt_le_iff.2 ⟨by norm_num, by norm_num⟩
      rw [div_le_iff₀ (by norm_num)]
      linarith
    have hT : termA (99 / 100) (51 / 100) (1 / 1000) ≤ 16 := by
      unfold termA
      have : (122 / 100 : ℝ) ≤ Real.sqrt (3 / 2) := Real.le_sqrt_of_sq_le (by norm_num)
      have h1 : |(1 : ℝ) - 51 / 100 - 1 / 1000| = 489 / 1000 := by rw [abs_of_pos (by norm_num)]; norm_num
      rw [h1, div_le_iff₀ (mul_pos (by norm_num) (by linarith))]
      linarith
    have hB : 32 ≤ termB d (51 / 100) := by
      unfold termB
      have h6 : (24 / 10 : ℝ) ≤ Real.sqrt 6 := Real.le_sqrt_of_sq_le (by norm_num)
      have hdr : (100 : ℝ) ≤ d := by exact_mod_cast hd
      have h7 : (51 / 10 : ℝ) ≤ Real.sqrt (1 + d * (51 / 100) ^ 2) := Real.le_sqrt_of_sq_le (by linarith)
      have h8 : (63 / 10 : ℝ) ≤ 4 * Real.sqrt 6 / (1 + 51 / 100) := by rw [le_div_iff₀ (by norm_num)]; linarith
      calc (32 : ℝ) ≤ 63 / 10 * (51 / 10) := by norm_num
        _ ≤ _ := mul_le_mul h8 h7 (by norm_num) (by linarith)
    unfold required
    rw [bits_ratio (by omega) hn (by norm_num) (by norm_num) (by norm_num) c hA (lt_max_of_lt_left hA)]
    have h2 : 1 ≤ Real.logb 2 (max (termA (99 / 100) (51 / 100) (1 / 1000)) (termB d (51 / 100)) / termA (99 / 100) (51 / 100) (1 / 1000)) := by
      rw [Real.le_logb_iff_rpow_le (by norm_num) (div_pos (lt_max_of_lt_left hA) hA), Real.rpow_one, le_div_iff₀ hA]
      exact le_max_of_le_right (by linarith)
    have h3 := Int.ceil_mono (add_le_add_right h2 (bits d n (99 / 100) (51 / 100) (1 / 1000) c (termA (99 / 100) (51 / 100) (1 / 1000))))
    rw [Int.ceil_add_one] at h3
    omega
  · cases hp

/-- **C94 (violated).**  `delta < eta^2` is not rejected, although `alpha` is then negative: for `delta = 0.8`, `eta = 0.9`, `theta = 0.39` all signs cancel and a number results (dimension 1, exact arithmetic). -/
theorem C94_alpha_violated (c : ℝ) : alphaR (4 / 5) (9 / 10) (39 / 100) < 0 ∧ FinX (pOf id 1 1 (4 / 5) (9 / 10) (39 / 100) c) := by
  have hs := Real.sqrt_nonneg ((1 + (39 / 100 : ℝ) ^ 2) * (4 / 5) - (9 / 10) ^ 2)
  have hα : alphaR (4 / 5) (9 / 10) (39 / 100) ≤ -30 := by
    unfold alphaR
    rw [div_le_iff_of_neg (by norm_num)]
    linarith
  have e1 : alpha id (4 / 5) (9 / 10) (39 / 100) = .fin (alphaR (4 / 5) (9 / 10) (39 / 100)) := by
    unfold alpha alphaR X.sub X.neg X.mul X.add X.sqrt X.div
    simp only [id]
    rw [if_neg (by norm_num)]
    dsimp only
    rw [if_neg (by norm_num)]
    norm_num
  have e2 : term1 id (9 / 10) (39 / 100) (.fin (alphaR (4 / 5) (9 / 10) (39 / 100))) = .fin (termA (4 / 5) (9 / 10) (39 / 100)) := by
    unfold term1 termA X.sub X.neg X.mul X.add X.sqrt X.div X.abs
    simp only [id]
    rw [if_neg (by norm_num : ¬ (3 / 2 : ℝ) < 0)]
    dsimp only
    have := sqrt_gt
    rw [if_neg (mul_pos (by norm_num) (by linarith)).ne']
    congr 4
  have hA : termA (4 / 5) (9 / 10) (39 / 100) < 0 := by
    unfold termA
    have := sqrt_gt
    have h1 : |(1 : ℝ) - 9 / 10 - 39 / 100| = 29 / 100 := by rw [abs_of_neg (by norm_num)]; norm_num
    rw [h1]
    exact div_neg_of_neg_of_pos (by linarith) (mul_pos (by norm_num) (by linarith))
  refine ⟨by linarith, ?_⟩
  unfold pOf c0
  dsimp only
  rw [e1, e2]
  unfold X.sub X.neg X.mul X.add X.div X.pow X.log X.sqrt
  simp only [id, Nat.cast_one, if_neg one_ne_zero, Nat.succ_ne_zero, if_false, if_pos (by norm_num : (0 : ℝ) < 2), if_neg (by norm_num : ¬ (1 : ℝ) < 0), if_neg (by norm_num : ¬ (39 / 100 : ℝ) = 0)]
  have hl : Real.log 2 ≠ 0 := (Real.log_pos (by norm_num)).ne'
  generalize alphaR (4 / 5) (9 / 10) (39 / 100) = a at *
  generalize termA (4 / 5) (9 / 10) (39 / 100) = b at *
  have hab : 0 < b * a := mul_pos_of_neg_of_neg hA (by linarith)
  have ha2 : 0 < a ^ 2 := by nlinarith
  have harg : 0 < (1 : ℝ) * 1 * 1 * (8 * 1 * (1 + 9) * (b * 1 * Real.sqrt 1) * (1 + 1 / (39 / 100)) * ((1 + 9 / 10 + 39 / 100) * a) ^ (1 + 1)) * a ^ 1 / (39 / 100) := by
    rw [Real.sqrt_one]
    have : (1 : ℝ) * 1 * 1 * (8 * 1 * (1 + 9) * (b * 1 * 1) * (1 + 1 / (39 / 100)) * ((1 + 9 / 10 + 39 / 100) * a) ^ (1 + 1)) * a ^ 1 / (39 / 100) = (80 * (1 + 1 / (39 / 100)) * (1 + 9 / 10 + 39 / 100) ^ 2 / (39 / 100)) * (b * a) * a ^ 2 := by ring
    rw [this]
    positivity
  rw [if_pos harg, if_pos (by norm_num : (0 : ℝ) < 1 + -(4 / 5)), if_pos (by norm_num : (0 : ℝ) < 9 / 10 + -(39 / 100) + -(1 / 2))]
  simp only [if_neg hl, if_neg (by norm_num : ¬ (2 : ℝ) = 0)]
  exact ⟨_, rfl⟩

/-! ### the hypotheses are met -/

example (c : ℝ) : ∃ p, pOf id 40 41 (99 / 100) (51 / 100) (1 / 1000) c = .fin p := by
  obtain ⟨p, hp, -⟩ := C94_defined (d := 40) (n := 41) (δ := 99 / 100) (η := 51 / 100) (θ := 1 / 1000) rnd_id rfl (by norm_num) (by norm_num) (by norm_num) (by norm_num) (by norm_num) (by norm_num) (by norm_num) (by norm_num) c
  exact ⟨p, hp⟩

/-- `fplll -a hlll -t 0` -/
example (c : ℝ) : hlllMinPrec id 40 41 (99 / 100) (51 / 100) 0 c = .ub :=
  C94_undefined rfl (by norm_num) (by norm_num) (by norm_num) le_rfl (by norm_num) (.inr (.inr (.inl rfl))) c

/-- the first term is the larger one in dimension 4 -/
example : termB 4 (51 / 100) ≤ termA (99 / 100) (51 / 100) (1 / 1000) := by
  have h1 : termB 4 (51 / 100) ≤ 10 := by
    unfold termB
    have h6 : Real.sqrt 6 ≤ 25 / 10 := Real.sqrt_le_iff.2 ⟨by norm_num, by norm_num⟩
    have h7 : Real.sqrt (1 + (4 : ℕ) * (51 / 100) ^ 2) ≤ 145 / 100 := Real.sqrt_le_iff.2 ⟨by norm_num, by norm_num⟩
    have h8 : 4 * Real.sqrt 6 / (1 + 51 / 100) ≤ 67 / 10 := by rw [div_le_iff₀ (by norm_num)]; linarith
    calc _ ≤ (67 / 10 : ℝ) * (145 / 100) := mul_le_mul h8 h7 (Real.sqrt_nonneg _) (by norm_num)
      _ ≤ 10 := by norm_num
  have h2 : 10 ≤ termA (99 / 100) (51 / 100) (1 / 1000) := by
    unfold termA
    have hα := alphaR_pos (δ := 99 / 100) (η := 51 / 100) (θ := 1 / 1000) (by norm_num) (by norm_num) (by norm_num)
    have hα1 : 1 ≤ alphaR (99 / 100) (51 / 100) (1 / 1000) := by
      unfold alphaR
      have : (85 / 100 : ℝ) ≤ Real.sqrt ((1 + (1 / 1000) ^ 2) * (99 / 100) - (51 / 100) ^ 2) := Real.le_sqrt_of_sq_le (by norm_num)
      rw [le_div_iff₀ (by norm_num)]
      linarith
    have h3 : Real.sqrt (3 / 2) ≤ 123 / 100 := Real.sqrt_le_iff.2 ⟨by norm_num, by norm_num⟩
    have h4 := sqrt_gt
    have h5 : |(1 : ℝ) - 51 / 100 - 1 / 1000| = 489 / 1000 := by rw [abs_of_pos (by norm_num)]; norm_num
    rw [h5, le_div_iff₀ (mul_pos (by norm_num) (by linarith))]
    linarith
  linarith

end

end HlllPrec
end Fplll

import Mathlib.Logic.Function.Basic
import Mathlib.Tactic.Ring
import Mathlib.Tactic.Linarith
import Mathlib.Tactic.SplitIfs

/-!
# Counting loops

`for (int i = a; i < b; i++)` and `for (int i = b - 1; i >= a; i--)` as used all
over the sources.  No simplification: bodies are arbitrary state transformers.
-/

namespace Fplll

variable {σ : Type*}

/-- `for (int i = a; i < a + n; i++) s = f i s` -/
def forN (a : ℕ) : ℕ → (ℕ → σ → σ) → σ → σ
  | 0, _, s => s
  | n + 1, f, s => forN (a + 1) n f (f a s)

/-- `for (int i = a; i < b; i++) s = f i s` (no iteration when `b ≤ a`). -/
def forUp (a b : ℕ) (f : ℕ → σ → σ) (s : σ) : σ := forN a (b - a) f s

/-- `for (int i = b - 1; i >= a; i--) s = f i s` -/
def forDown (a : ℕ) : ℕ → (ℕ → σ → σ) → σ → σ
  | 0, _, s => s
  | b + 1, f, s => if a ≤ b then forDown a b f (f b s) else s

theorem forN_inv (P : ℕ → σ → Prop) (f : ℕ → σ → σ) (n a : ℕ) (s : σ) (h0 : P a s)
    (hs : ∀ i s, a ≤ i → i < a + n → P i s → P (i + 1) (f i s)) : P (a + n) (forN a n f s) := by
  induction n generalizing a s with
  | zero => simpa [forN] using h0
  | succ n ih =>
    have := ih (a + 1) (f a s) (hs a s le_rfl (by omega) h0)
      (fun i s h1 h2 h3 => hs i s (by omega) (by omega) h3)
    rw [show a + (n + 1) = a + 1 + n by omega]
    simpa [forN] using this

/-- Invariant rule for ascending loops. -/
theorem forUp_inv (P : ℕ → σ → Prop) (f : ℕ → σ → σ) {a b : ℕ} (hab : a ≤ b) (s : σ) (h0 : P a s)
    (hs : ∀ i s, a ≤ i → i < b → P i s → P (i + 1) (f i s)) : P b (forUp a b f s) := by
  have := forN_inv P f (b - a) a s h0 (fun i s h1 h2 h3 => hs i s h1 (by omega) h3)
  rwa [show a + (b - a) = b by omega] at this

/-- Invariant rule for descending loops. -/
theorem forDown_inv (P : ℕ → σ → Prop) (f : ℕ → σ → σ) {a b : ℕ} (hab : a ≤ b) (s : σ) (h0 : P b s)
    (hs : ∀ i s, a ≤ i → i < b → P (i + 1) s → P i (f i s)) : P a (forDown a b f s) := by
  induction b generalizing s with
  | zero =>
    have : a = 0 := by omega
    subst this; simpa [forDown] using h0
  | succ b ih =>
    rw [forDown]
    split_ifs with h
    · exact ih h _ (hs b s h (by omega) h0) (fun i s h1 h2 h3 => hs i s h1 (by omega) h3)
    · have : a = b + 1 := by omega
      subst this; exact h0

theorem forUp_empty {a b : ℕ} (h : b ≤ a) (f : ℕ → σ → σ) (s : σ) : forUp a b f s = s := by
  simp [forUp, Nat.sub_eq_zero_of_le h, forN]

theorem forDown_empty {a b : ℕ} (h : b ≤ a) (f : ℕ → σ → σ) (s : σ) : forDown a b f s = s := by
  cases b with
  | zero => rfl
  | succ b => rw [forDown, if_neg (by omega)]

/-- invariant that does not depend on the counter -/
theorem forUp_inv' (P : σ → Prop) (f : ℕ → σ → σ) (a b : ℕ) (s : σ) (h0 : P s)
    (hs : ∀ i s, a ≤ i → i < b → P s → P (f i s)) : P (forUp a b f s) := by
  by_cases h : a ≤ b
  · exact forUp_inv (fun _ => P) f h s h0 hs
  · rw [forUp_empty (by omega)]; exact h0

theorem forDown_inv' (P : σ → Prop) (f : ℕ → σ → σ) (a b : ℕ) (s : σ) (h0 : P s)
    (hs : ∀ i s, a ≤ i → i < b → P s → P (f i s)) : P (forDown a b f s) := by
  by_cases h : a ≤ b
  · exact forDown_inv (fun _ => P) f h s h0 hs
  · rw [forDown_empty (by omega)]; exact h0

theorem forUp_succ_right {a b : ℕ} (h : a ≤ b) (f : ℕ → σ → σ) (s : σ) :
    forUp a (b + 1) f s = f b (forUp a b f s) := by
  unfold forUp
  obtain ⟨n, rfl⟩ := Nat.exists_eq_add_of_le h
  rw [show a + n + 1 - a = n + 1 by omega, show a + n - a = n by omega]
  clear h
  induction n generalizing a s with
  | zero => simp [forN]
  | succ n ih =>
    have := ih (a := a + 1) (s := f a s)
    rw [forN, this, show a + 1 + n = a + (n + 1) by omega]
    simp [forN]

theorem forUp_succ_left {a b : ℕ} (h : a < b) (f : ℕ → σ → σ) (s : σ) :
    forUp a b f s = forUp (a + 1) b f (f a s) := by
  unfold forUp
  rw [show b - a = (b - (a + 1)) + 1 by omega, forN]

end Fplll

import Verif.Base.Loops

/-!
# More about descending loops
-/

namespace Fplll

variable {σ : Type*}

theorem forDown_bot {a b : ℕ} (h : a < b) (f : ℕ → σ → σ) (s : σ) :
    forDown a b f s = f a (forDown (a + 1) b f s) := by
  induction b generalizing s with
  | zero => omega
  | succ b ih =>
    rw [forDown, if_pos (by omega)]
    rcases Nat.lt_or_ge a b with hab | hab
    · rw [ih hab, forDown, if_pos (show a + 1 ≤ b from hab)]
    · have : a = b := by omega
      subst this
      rw [forDown_empty le_rfl, forDown_empty le_rfl]

theorem forDown_split {a b c : ℕ} (h1 : a ≤ b) (h2 : b ≤ c) (f : ℕ → σ → σ) (s : σ) :
    forDown a c f s = forDown a b f (forDown b c f s) := by
  induction c generalizing s with
  | zero =>
    have : b = 0 := by omega
    subst this
    rfl
  | succ c ih =>
    rcases Nat.lt_or_ge c b with hb | hb
    · have : b = c + 1 := by omega
      subst this
      rw [forDown_empty (le_refl (c + 1))]
    · rw [forDown, if_pos (by omega), ih hb, forDown, if_pos hb]

theorem forDown_congr {f g : ℕ → σ → σ} {a b : ℕ} (h : ∀ i s, a ≤ i → i < b → f i s = g i s) (s : σ) :
    forDown a b f s = forDown a b g s := by
  induction b generalizing s with
  | zero => rfl
  | succ b ih =>
    rw [forDown, forDown]
    split_ifs with hb
    · rw [h b s hb (by omega), ih (fun i s h1 h2 => h i s h1 (by omega))]
    · rfl

end Fplll

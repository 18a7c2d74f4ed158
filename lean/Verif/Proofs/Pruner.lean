import Mathlib.Tactic.NormNum
import Mathlib.Tactic.Positivity
import Mathlib.Tactic.FieldSimp
import Verif.Model.Pruner

open Finset

namespace Fplll
namespace Pruner

open Function (update update_self update_of_ne)

/-- the result satisfies `P`, or the fuel was not enough; nothing is thrown -/
def Res.All {α : Type} (P : α → Prop) : Res α → Prop
  | .ok a => P a
  | .thrown => False
  | .stuck => True

theorem Res.All.bind {α β : Type} {P : α → Prop} {Q : β → Prop} {m : Res α} {f : α → Res β} (h : m.All P)
    (hf : ∀ a, P a → (f a).All Q) : (m.bind f).All Q := by
  cases m with
  | ok a => exact hf a h
  | thrown => exact h.elim
  | stuck => trivial

/-- valid coefficients: in `(0, 1]` and non-decreasing -/
structure VB (dn : ℕ) (b : Vec) : Prop where
  pos : ∀ i, i < dn → 0 < b i
  le : ∀ i, i < dn → b i ≤ 1
  mono : ∀ i, i + 1 < dn → b i ≤ b (i + 1)

/-- valid `pr`: starts with 1, in `(0, 1]`, non-increasing -/
structure VP (n : ℕ) (pr : Vec) : Prop where
  one : pr 0 = 1
  pos : ∀ i, i < n → 0 < pr i
  le : ∀ i, i < n → pr i ≤ 1
  mono : ∀ i, i + 1 < n → pr (i + 1) ≤ pr i

theorem VP.anti {n : ℕ} {pr : Vec} (h : VP n pr) {i j : ℕ} (hij : i ≤ j) (hj : j < n) : pr j ≤ pr i := by
  obtain ⟨k, rfl⟩ := Nat.exists_eq_add_of_le hij
  clear hij
  induction k with
  | zero => exact le_rfl
  | succ k ih => exact (h.mono (i + k) (by omega)).trans (ih (by omega))

theorem VB.anti {n : ℕ} {b : Vec} (h : VB n b) {i j : ℕ} (hij : i ≤ j) (hj : j < n) : b i ≤ b j := by
  obtain ⟨k, rfl⟩ := Nat.exists_eq_add_of_le hij
  clear hij
  induction k with
  | zero => exact le_rfl
  | succ k ih => exact (ih (by omega)).trans (h.mono (i + k) (by omega))

/-! ## enforce -/

theorem clampStep_ne (d c : ℕ) (mn : Vec) (i k : ℕ) (s : Bool × Vec) (h : k ≠ i) : (clampStep d c mn i s).2 k = s.2 k := by
  unfold clampStep
  simp only
  split_ifs <;> simp only [update_of_ne h]

theorem clampStep_self (d c : ℕ) (mn : Vec) (i : ℕ) (s : Bool × Vec) :
    (clampStep d c mn i s).2 i = if i / c < d then max (min (s.2 i) 1) (mn (i / c)) else min (s.2 i) 1 := by
  have hmin : (if s.2 i > 1 then (1 : ℝ) else s.2 i) = min (s.2 i) 1 := by
    split_ifs with h
    · rw [min_eq_right (by linarith)]
    · rw [min_eq_left (by linarith)]
  unfold clampStep
  simp only [update_self, hmin]
  by_cases h1 : i / c < d
  · by_cases h2 : min (s.2 i) 1 ≤ mn (i / c)
    · rw [if_pos ⟨h1, h2⟩, if_pos h1, update_self, max_eq_right h2]
    · rw [if_neg (fun h => h2 h.2), if_pos h1, update_self, max_eq_left (by linarith)]
  · rw [if_neg (fun h => h1 h.1), if_neg h1, update_self]

/-- the first loop treats each entry on its own -/
theorem clamp_val (d c : ℕ) (mn : Vec) (dn : ℕ) (s : Bool × Vec) (i : ℕ) (hi : i < dn) :
    (forUp 0 dn (clampStep d c mn) s).2 i = if i / c < d then max (min (s.2 i) 1) (mn (i / c)) else min (s.2 i) 1 := by
  have h := forUp_inv (fun m (t : Bool × Vec) => (∀ k, k < m → t.2 k =
      if k / c < d then max (min (s.2 k) 1) (mn (k / c)) else min (s.2 k) 1) ∧ ∀ k, m ≤ k → t.2 k = s.2 k)
    (clampStep d c mn) (Nat.zero_le dn) s ⟨fun k hk => by omega, fun k _ => rfl⟩ (by
      intro m t _ _ ⟨h1, h2⟩
      constructor
      · intro k hk
        by_cases hkm : k = m
        · subst hkm
          rw [clampStep_self, h2 k le_rfl]
        · rw [clampStep_ne _ _ _ _ _ _ hkm]
          exact h1 k (by omega)
      · intro k hk
        rw [clampStep_ne _ _ _ _ _ _ (by omega)]
        exact h2 k (by omega))
  exact h.1 i hi

theorem upStep_val (i : ℕ) (s : Bool × Vec) (k : ℕ) :
    (upStep i s).2 k = if k = i + 1 then max (s.2 i) (s.2 (i + 1)) else s.2 k := by
  unfold upStep
  by_cases h : s.2 (i + 1) < s.2 i
  · rw [if_pos h]
    dsimp only
    by_cases hk : k = i + 1
    · subst hk
      rw [update_self, if_pos rfl, max_eq_left h.le]
    · rw [update_of_ne hk, if_neg hk]
  · rw [if_neg h]
    split_ifs with hk
    · subst hk
      rw [max_eq_right (by linarith)]
    · rfl

theorem downStep_val (i : ℕ) (s : Bool × Vec) (k : ℕ) :
    (downStep i s).2 k = if k = i then min (s.2 i) (s.2 (i + 1)) else s.2 k := by
  unfold downStep
  by_cases h : s.2 (i + 1) < s.2 i
  · rw [if_pos h]
    dsimp only
    by_cases hk : k = i
    · subst hk
      rw [update_self, if_pos rfl, min_eq_right h.le]
    · rw [update_of_ne hk, if_neg hk]
  · rw [if_neg h]
    split_ifs with hk
    · subst hk
      rw [min_eq_left (by linarith)]
    · rfl

/-- the vector before the loops -/
noncomputable def pre (dn : ℕ) (b : Vec) (j : ℕ) : Vec := if b (dn - 1) < 0.999 ∧ j ≠ dn - 1 then update b (dn - 1) 1 else b

theorem enforce_snd (d : ℕ) (mn : Vec) (dn : ℕ) (b : Vec) (j : ℕ) : ∃ st : Bool, enforce d mn dn b j =
    forDown 0 (min j (dn - 1)) downStep (forUp j (dn - 1) upStep
      (forUp 0 dn (clampStep d (if dn = d then 1 else 2) mn) (st, pre dn b j))) := by
  unfold enforce pre
  dsimp only
  by_cases h : b (dn - 1) < 0.999 ∧ j ≠ dn - 1
  · rw [if_pos h, if_pos h]
    exact ⟨true, rfl⟩
  · rw [if_neg h, if_neg h]
    exact ⟨false, rfl⟩

/-- what `enforce` guarantees about a vector, for lower bounds `lo` and an upper bound 1: `lo` may be anything that holds after
the first loop and is non-decreasing up to `j` -/
theorem enforce_spec (d : ℕ) (mn : Vec) (dn : ℕ) (b : Vec) (j : ℕ) (hj : j < dn) (lo : Vec)
    (hlo : ∀ i, i < dn → lo i ≤ if i / (if dn = d then 1 else 2) < d then
      max (min (pre dn b j i) 1) (mn (i / (if dn = d then 1 else 2))) else min (pre dn b j i) 1)
    (hlom : ∀ i, i < j → lo i ≤ lo (i + 1)) (hmn : ∀ k, k < d → mn k ≤ 1) :
    (∀ i, i < dn → lo i ≤ (enforce d mn dn b j).2 i ∧ (enforce d mn dn b j).2 i ≤ 1) ∧
    (∀ i, i + 1 < dn → (enforce d mn dn b j).2 i ≤ (enforce d mn dn b j).2 (i + 1)) ∧
    (∀ x, x ≤ 1 → x ≤ pre dn b j (dn - 1) → x ≤ (enforce d mn dn b j).2 (dn - 1)) := by
  obtain ⟨st, he⟩ := enforce_snd d mn dn b j
  rw [he]
  set c := if dn = d then 1 else 2
  set s1 := forUp 0 dn (clampStep d c mn) (st, pre dn b j) with hs1
  have h1 : ∀ i, i < dn → lo i ≤ s1.2 i ∧ s1.2 i ≤ 1 := by
    intro i hi
    have hv := clamp_val d c mn dn (st, pre dn b j) i hi
    rw [hs1, hv]
    refine ⟨hlo i hi, ?_⟩
    split_ifs with h
    · exact max_le (min_le_right _ _) (hmn _ h)
    · exact min_le_right _ _
  have h1x : ∀ x, x ≤ 1 → x ≤ pre dn b j (dn - 1) → x ≤ s1.2 (dn - 1) := by
    intro x hx1 hx2
    have hv := clamp_val d c mn dn (st, pre dn b j) (dn - 1) (by omega)
    rw [hs1, hv]
    split_ifs with h
    · exact le_max_of_le_left (le_min hx2 hx1)
    · exact le_min hx2 hx1
  -- second loop
  have h2 := forUp_inv (fun m (t : Bool × Vec) => (∀ i, i < dn → lo i ≤ t.2 i ∧ t.2 i ≤ 1) ∧
      (∀ i, j ≤ i → i < m → t.2 i ≤ t.2 (i + 1)) ∧ (∀ x, x ≤ 1 → x ≤ pre dn b j (dn - 1) → x ≤ t.2 (dn - 1)))
    upStep (by omega : j ≤ dn - 1) s1 ⟨h1, fun i h3 h4 => by omega, h1x⟩ (by
      intro m t hm1 hm2 ⟨g1, g2, g3⟩
      refine ⟨fun i hi => ?_, fun i h3 h4 => ?_, fun x hx1 hx2 => ?_⟩
      · rw [upStep_val]
        split_ifs with h
        · subst h
          exact ⟨(g1 (m + 1) hi).1.trans (le_max_right _ _), max_le (g1 m (by omega)).2 (g1 (m + 1) hi).2⟩
        · exact g1 i hi
      · rw [upStep_val, upStep_val, if_neg (by omega)]
        split_ifs with h
        · obtain rfl : i = m := by omega
          exact le_max_left _ _
        · exact g2 i h3 (by omega)
      · rw [upStep_val]
        split_ifs with h
        · exact (h ▸ g3 x hx1 hx2).trans (le_max_right _ _)
        · exact g3 x hx1 hx2)
  set s2 := forUp j (dn - 1) upStep s1
  obtain ⟨g1, g2, g3⟩ := h2
  -- third loop
  have h3 := forDown_inv (fun m (t : Bool × Vec) => (∀ i, i < dn → lo i ≤ t.2 i ∧ t.2 i ≤ 1) ∧
      (∀ i, m ≤ i → i + 1 < dn → t.2 i ≤ t.2 (i + 1)) ∧ (∀ x, x ≤ 1 → x ≤ pre dn b j (dn - 1) → x ≤ t.2 (dn - 1)))
    downStep (Nat.zero_le (min j (dn - 1))) s2
    ⟨g1, fun i h4 h5 => g2 i (by rw [min_eq_left (by omega)] at h4; exact h4) (by omega), g3⟩ (by
      intro m t _ hm ⟨k1, k2, k3⟩
      rw [min_eq_left (by omega)] at hm
      refine ⟨fun i hi => ?_, fun i h4 h5 => ?_, fun x hx1 hx2 => ?_⟩
      · rw [downStep_val]
        split_ifs with h
        · subst h
          refine ⟨le_min (k1 i hi).1 ((hlom i hm).trans (k1 (i + 1) (by omega)).1), (min_le_left _ _).trans (k1 i hi).2⟩
        · exact k1 i hi
      · rw [downStep_val, downStep_val, if_neg (show ¬ i + 1 = m by omega)]
        split_ifs with h
        · subst h
          exact min_le_right _ _
        · exact k2 i (by omega) h5
      · rw [downStep_val, if_neg (by omega)]
        exact k3 x hx1 hx2)
  exact ⟨h3.1, fun i hi => h3.2.1 i (Nat.zero_le i) hi, h3.2.2⟩

/-- a vector that satisfies all bounds raises no flag and is not changed -/
theorem enforce_status (d : ℕ) (mn : Vec) (dn : ℕ) (hdn : 0 < dn) (b : Vec) (hle : ∀ i, i < dn → b i ≤ 1)
    (hmono : ∀ i, i + 1 < dn → b i ≤ b (i + 1))
    (hlo : ∀ i, i < dn → i / (if dn = d then 1 else 2) < d → mn (i / (if dn = d then 1 else 2)) ≤ b i)
    (hlast : 0.999 ≤ b (dn - 1) ∨ dn = 1) :
    (enforce d mn dn b 0).1 = false ∧ ∀ i, i < dn → (enforce d mn dn b 0).2 i = b i := by
  unfold enforce
  dsimp only
  have hno : ¬ (b (dn - 1) < 0.999 ∧ 0 ≠ dn - 1) := by
    rintro ⟨h1, h2⟩
    rcases hlast with h | h
    · linarith
    · omega
  rw [if_neg hno]
  set c := if dn = d then 1 else 2
  have h1 := forUp_inv (fun m (t : Bool × Vec) => t.1 = false ∧ ∀ k, k < dn → t.2 k = b k) (clampStep d c mn)
    (Nat.zero_le dn) (false, b) ⟨rfl, fun k _ => rfl⟩ (by
      intro m t _ hm ⟨g1, g2⟩
      refine ⟨?_, fun k hk => ?_⟩
      · unfold clampStep
        simp only
        rw [g1, g2 m hm]
        simp only [Bool.false_or, decide_eq_false_iff_not, not_lt, gt_iff_lt]
        exact (hle m hm).trans (by norm_num)
      · by_cases h : k = m
        · subst h
          rw [clampStep_self, g2 k hk, min_eq_left (hle k hk)]
          split_ifs with h
          · exact max_eq_left (hlo k hk h)
          · rfl
        · rw [clampStep_ne _ _ _ _ _ _ h]
          exact g2 k hk)
  have h2 := forUp_inv (fun m (t : Bool × Vec) => t.1 = false ∧ ∀ k, k < dn → t.2 k = b k) upStep
    (Nat.zero_le (dn - 1)) _ h1 (by
      intro m t _ hm ⟨g1, g2⟩
      have : upStep m t = t := by
        unfold upStep
        rw [if_neg]
        rw [g2 m (by omega), g2 (m + 1) (by omega)]
        exact not_lt.2 (hmono m (by omega))
      rw [this]
      exact ⟨g1, g2⟩)
  rw [show min 0 (dn - 1) = 0 by omega]
  exact h2

/-- all that `enforce(b)` guarantees -/
structure En (d : ℕ) (mn : Vec) (dn : ℕ) (b : Vec) : Prop where
  vb : VB dn b
  lo : ∀ i, i < dn → i / (if dn = d then 1 else 2) < d → mn (i / (if dn = d then 1 else 2)) ≤ b i
  last : 0.999 ≤ b (dn - 1) ∨ dn = 1

/-- the lower bounds the optimiser uses: in `(0, 1]` -/
def MinOK (d : ℕ) (mn : Vec) : Prop := ∀ k, k < d → 0 < mn k ∧ mn k ≤ 1

/-- the two kinds of vectors -/
structure Dim (c : Cfg) (dn : ℕ) : Prop where
  n2 : 2 ≤ c.n
  dn : dn = c.d ∨ dn = c.n

theorem Dim.pos {c : Cfg} {dn : ℕ} (h : Dim c dn) : 0 < dn := by
  have := h.n2
  rcases h.dn with h | h
  · simp only [Cfg.d] at h
    omega
  · omega

/-- an index without a lower bound is the last one of a vector with at least two entries -/
theorem Dim.idx {c : Cfg} {dn : ℕ} (h : Dim c dn) {i : ℕ} (hi : i < dn) :
    i / (if dn = c.d then 1 else 2) < c.d ∨ (i = dn - 1 ∧ 2 ≤ dn) := by
  have := h.n2
  rcases h.dn with h | h
  · left
    rw [if_pos h, Nat.div_one]
    omega
  · rw [if_neg (by simp only [Cfg.d]; omega)]
    simp only [Cfg.d]
    omega

theorem enforce_zero {c : Cfg} {dn : ℕ} (hd : Dim c dn) {mn : Vec} {b : Vec} (hmn : ∀ k, k < c.d → mn k ≤ 1)
    (hpos : ∀ i, i < dn → 0 < b i ∨ MinOK c.d mn) : En c.d mn dn (enforce c.d mn dn b 0).2 := by
  have hdn := hd.pos
  have hpre : 2 ≤ dn → 0.999 ≤ pre dn b 0 (dn - 1) := by
    intro h2
    unfold pre
    by_cases h : b (dn - 1) < 0.999
    · rw [if_pos ⟨h, by omega⟩, update_self]
      norm_num
    · rw [if_neg (fun h' => h h'.1)]
      linarith
  have hpre' : ∀ i, i < dn → 0 < pre dn b 0 i ∨ MinOK c.d mn := by
    intro i hi
    rcases hpos i hi with h | h
    · left
      unfold pre
      split_ifs
      · by_cases hi' : i = dn - 1
        · rw [hi', update_self]; norm_num
        · rw [update_of_ne hi']; exact h
      · exact h
    · exact Or.inr h
  set lo : Vec := fun i => if i / (if dn = c.d then 1 else 2) < c.d then
      max (min (pre dn b 0 i) 1) (mn (i / (if dn = c.d then 1 else 2))) else min (pre dn b 0 i) 1 with hlo
  obtain ⟨h1, h2, h3⟩ := enforce_spec c.d mn dn b 0 hdn lo (fun i _ => le_rfl) (fun i hi => by omega) hmn
  refine ⟨⟨fun i hi => ?_, fun i hi => (h1 i hi).2, h2⟩, fun i hi h => ?_, ?_⟩
  · refine lt_of_lt_of_le ?_ (h1 i hi).1
    rw [hlo]
    simp only
    rcases hd.idx hi with h | ⟨h, h'⟩
    · rw [if_pos h]
      rcases hpre' i hi with h4 | h4
      · exact lt_max_of_lt_left (lt_min h4 one_pos)
      · exact lt_max_of_lt_right (h4 _ h).1
    · have h5 : 0 < min (pre dn b 0 i) 1 := lt_min (by rw [h]; have := hpre h'; linarith) one_pos
      by_cases h6 : i / (if dn = c.d then 1 else 2) < c.d
      · rw [if_pos h6]
        exact lt_max_of_lt_left h5
      · rw [if_neg h6]
        exact h5
  · refine le_trans ?_ (h1 i hi).1
    rw [hlo]
    simp only
    rw [if_pos h]
    exact le_max_right _ _
  · by_cases h : dn = 1
    · exact Or.inr h
    · left
      exact h3 _ (by norm_num) (hpre (by omega))

/-! ## save and load -/

theorem load_ok {c : Cfg} {dn : ℕ} (hd : Dim c dn) {pr : Vec} (h : VP c.n pr) : VB dn (load c dn pr) := by
  have hn := hd.n2
  unfold load
  rcases hd.dn with hdn | hdn
  · rw [if_pos hdn]
    simp only [Cfg.d] at hdn
    exact ⟨fun i hi => h.pos _ (by omega), fun i hi => h.le _ (by omega), fun i hi => h.anti (by omega) (by omega)⟩
  · rw [if_neg (by simp only [Cfg.d]; omega)]
    exact ⟨fun i hi => h.pos _ (by omega), fun i hi => h.le _ (by omega), fun i hi => h.anti (by omega) (by omega)⟩

/-- the entries that `save_coefficients` writes -/
theorem save_val {c : Cfg} {dn : ℕ} (hd : Dim c dn) (b pr : Vec) (k : ℕ) (hk : k < c.n) :
    save c dn b pr k = if k = 0 then 1 else if dn = c.d then b ((c.n - 1 - k) / 2) else b (c.n - 1 - k) := by
  have hn := hd.n2
  unfold save
  by_cases h0 : k = 0
  · rw [h0, update_self, if_pos rfl]
  · rw [update_of_ne h0, if_neg h0]
    by_cases hdn : dn = c.d
    · rw [if_pos hdn, if_pos hdn]
      have h := forUp_inv (fun m (t : Vec) => ∀ k, c.n - 2 * m ≤ k → k < c.n → t k = b ((c.n - 1 - k) / 2))
        (fun i (pr : Vec) => update (update pr (c.n - 1 - 2 * i) (b i)) (c.n - 2 - 2 * i) (b i)) (Nat.zero_le c.d) pr
        (fun k h1 h2 => by omega) (by
          intro m t _ hm ih k h1 h2
          simp only [Cfg.d] at hm
          by_cases e1 : k = c.n - 2 - 2 * m
          · rw [e1, update_self]
            congr 1
            omega
          · rw [update_of_ne e1]
            by_cases e2 : k = c.n - 1 - 2 * m
            · rw [e2, update_self]
              congr 1
              omega
            · rw [update_of_ne e2]
              exact ih k (by omega) h2)
      exact h k (by simp only [Cfg.d]; omega) hk
    · rw [if_neg hdn, if_neg hdn]
      have h := forUp_inv (fun m (t : Vec) => ∀ k, c.n - m ≤ k → k < c.n → t k = b (c.n - 1 - k))
        (fun i (pr : Vec) => update pr (c.n - 1 - i) (b i)) (Nat.zero_le c.n) pr
        (fun k h1 h2 => by omega) (by
          intro m t _ hm ih k h1 h2
          by_cases e1 : k = c.n - 1 - m
          · rw [e1, update_self]
            congr 1
            omega
          · rw [update_of_ne e1]
            exact ih k (by omega) h2)
      exact h k (by omega) hk

theorem save_ok {c : Cfg} {dn : ℕ} (hd : Dim c dn) {b : Vec} (pr : Vec) (h : VB dn b) : VP c.n (save c dn b pr) := by
  have hn := hd.n2
  have key : ∀ k, k < c.n → k ≠ 0 → ∃ i, i < dn ∧ save c dn b pr k = b i ∧
      i = if dn = c.d then (c.n - 1 - k) / 2 else c.n - 1 - k := by
    intro k hk h0
    rw [save_val hd b pr k hk, if_neg h0]
    rcases hd.dn with h1 | h1
    · rw [if_pos h1]
      exact ⟨(c.n - 1 - k) / 2, by rw [h1]; simp only [Cfg.d]; omega, rfl, by rw [if_pos h1]⟩
    · have hne : dn ≠ c.d := by simp only [Cfg.d]; omega
      rw [if_neg hne]
      exact ⟨c.n - 1 - k, by omega, rfl, by rw [if_neg hne]⟩
  have h0 : save c dn b pr 0 = 1 := by rw [save_val hd b pr 0 (by omega), if_pos rfl]
  refine ⟨h0, fun k hk => ?_, fun k hk => ?_, fun k hk => ?_⟩
  · by_cases hk0 : k = 0
    · rw [hk0, h0]; norm_num
    · obtain ⟨i, h1, h2, _⟩ := key k hk hk0
      rw [h2]; exact h.pos i h1
  · by_cases hk0 : k = 0
    · rw [hk0, h0]
    · obtain ⟨i, h1, h2, _⟩ := key k hk hk0
      rw [h2]; exact h.le i h1
  · obtain ⟨i, h1, h2, h3⟩ := key (k + 1) hk (by omega)
    rw [h2]
    by_cases hk0 : k = 0
    · rw [hk0, h0]; exact h.le i h1
    · obtain ⟨i', h1', h2', h3'⟩ := key k (by omega) hk0
      rw [h2']
      apply h.anti _ h1'
      rw [h3, h3']
      split_ifs <;> omega

/-! ## greedy -/

/-- the state of `greedy` when it works on level `i` -/
structure GInv (i : ℕ) (b : Vec) : Prop where
  pos : ∀ k, k ≤ i → 0 < b k
  le : ∀ k, k ≤ i → b k ≤ 1
  mono : ∀ k, k + 1 ≤ i → b k ≤ b (k + 1)
  rest : ∀ k, i < k → b k = 1

theorem ginv_lower {i : ℕ} {b : Vec} (h : GInv i b) (x : ℝ) (hx : 0 < x) (hxb : x ≤ b i) :
    GInv i (forUp 0 i (fun k (b : Vec) => update b k (if b k < b i then b k else b i)) (update b i x)) := by
  have hb : update b i x i = x := update_self ..
  have h1 := forUp_inv (fun m (t : Vec) => t i = x ∧ (∀ k, k < m → t k = min (b k) x) ∧ ∀ k, m ≤ k → k ≠ i → t k = b k)
    (fun k (b : Vec) => update b k (if b k < b i then b k else b i)) (Nat.zero_le i) (update b i x)
    ⟨hb, fun k hk => by omega, fun k _ hk => update_of_ne hk _ _⟩ (by
      intro m t _ hm ⟨g1, g2, g3⟩
      refine ⟨by rw [update_of_ne (by omega)]; exact g1, fun k hk => ?_, fun k hk hki => ?_⟩
      · by_cases hkm : k = m
        · subst hkm
          rw [update_self, g1, g3 k le_rfl (by omega)]
          split_ifs with h
          · rw [min_eq_left h.le]
          · rw [min_eq_right (by linarith)]
        · rw [update_of_ne hkm]
          exact g2 k (by omega)
      · rw [update_of_ne (by omega)]
        exact g3 k (by omega) hki)
  obtain ⟨g1, g2, g3⟩ := h1
  have hle := h.le i le_rfl
  refine ⟨fun k hk => ?_, fun k hk => ?_, fun k hk => ?_, fun k hk => ?_⟩
  · rcases Nat.lt_or_eq_of_le hk with hk | rfl
    · rw [g2 k hk]; exact lt_min (h.pos k hk.le) hx
    · rw [g1]; exact hx
  · rcases Nat.lt_or_eq_of_le hk with hk | rfl
    · rw [g2 k hk]; exact (min_le_left _ _).trans (h.le k hk.le)
    · rw [g1]; linarith
  · rw [g2 k (by omega)]
    rcases Nat.lt_or_eq_of_le hk with hk | hk
    · rw [g2 (k + 1) hk]; exact min_le_min_right _ (h.mono k (by omega))
    · rw [hk, g1]; exact min_le_right _ _
  · rw [g3 k (by omega) (by omega)]; exact h.rest k hk

theorem greedyWhile_ok (O : Oracle) (j i : ℕ) : ∀ fuel b, GInv i b → (greedyWhile O j i fuel b).All (GInv i) := by
  intro fuel
  induction fuel with
  | zero => intro b _; trivial
  | succ f ih =>
    intro b h
    rw [greedyWhile]
    split_ifs with hc
    · apply ih
      have := h.pos i le_rfl
      exact ginv_lower h _ (by linarith) (by linarith)
    · exact h

theorem greedyFor_ok (O : Oracle) (fuel : ℕ) : ∀ m, (greedyFor O fuel (m + 1) (fun _ => 1)).All (GInv m) := by
  have step : ∀ m b, (m = 0 ∧ b = fun _ => 1) ∨ (∃ m', m = m' + 1 ∧ GInv m' b) →
      GInv m (if m > 1 then update b m (if b (m - 1) > 0.9 then 1 else 1.1 * b (m - 1)) else b) := by
    rintro m b (⟨rfl, rfl⟩ | ⟨m', rfl, h⟩)
    · exact ⟨fun _ _ => one_pos, fun _ _ => le_rfl, fun _ _ => le_rfl, fun _ _ => rfl⟩
    · have key : ∀ y, b m' ≤ y → y ≤ 1 → GInv (m' + 1) (update b (m' + 1) y) := by
        intro y hy hy1
        have hp := h.pos m' le_rfl
        refine ⟨fun k hk => ?_, fun k hk => ?_, fun k hk => ?_, fun k hk => ?_⟩
        · by_cases e : k = m' + 1
          · rw [e, update_self]; linarith
          · rw [update_of_ne e]; exact h.pos k (by omega)
        · by_cases e : k = m' + 1
          · rw [e, update_self]; exact hy1
          · rw [update_of_ne e]; exact h.le k (by omega)
        · rw [update_of_ne (by omega)]
          by_cases e : k = m'
          · rw [e, update_self]; exact hy
          · rw [update_of_ne (by omega)]; exact h.mono k (by omega)
        · rw [update_of_ne (by omega)]; exact h.rest k (by omega)
      have hp := h.pos m' le_rfl
      have hl := h.le m' le_rfl
      split_ifs with h1 h2
      · exact key 1 hl le_rfl
      · rw [Nat.add_sub_cancel] at h2 ⊢
        exact key _ (by linarith) (by linarith)
      · have hr : b (m' + 1) = 1 := h.rest _ (by omega)
        have := key (b (m' + 1)) (by rw [hr]; exact hl) hr.le
        rwa [Function.update_eq_self] at this
  intro m
  induction m with
  | zero =>
    rw [greedyFor, greedyFor]
    exact greedyWhile_ok O _ 0 fuel _ (step 0 _ (Or.inl ⟨rfl, rfl⟩))
  | succ m ih =>
    rw [greedyFor]
    exact ih.bind (fun b hb => greedyWhile_ok O _ _ fuel _ (step (m + 1) b (Or.inr ⟨m, rfl, hb⟩)))

theorem greedy_ok (c : Cfg) (hn : 2 ≤ c.n) (O : Oracle) (fuel : ℕ) : (greedy c O fuel).All (VB c.d) := by
  unfold greedy
  have hd : 1 ≤ c.d := by simp only [Cfg.d]; omega
  rcases Nat.lt_or_eq_of_le hd with h | h
  · obtain ⟨m, hm⟩ : ∃ m, c.d - 1 = m + 1 := ⟨c.d - 2, by omega⟩
    rw [hm]
    have := greedyFor_ok O fuel m
    revert this
    cases greedyFor O fuel (m + 1) (fun _ => 1) with
    | ok b =>
      intro (hb : GInv m b)
      have hr := hb.rest (m + 1) (by omega)
      refine ⟨fun i hi => ?_, fun i hi => ?_, fun i hi => ?_⟩
      · rcases Nat.lt_or_ge m i with h | h
        · rw [hb.rest i h]; exact one_pos
        · exact hb.pos i h
      · rcases Nat.lt_or_ge m i with h | h
        · rw [hb.rest i h]
        · exact hb.le i h
      · by_cases e : i = m
        · rw [e, hr]; exact hb.le m le_rfl
        · exact hb.mono i (by omega)
    | thrown => exact id
    | stuck => exact id
  · rw [← h]
    exact ⟨fun _ _ => one_pos, fun _ _ => le_rfl, fun _ _ => le_rfl⟩

/-! ## gradient descent -/

theorem miniSteps_ok {c : Cfg} {dn : ℕ} (hd : Dim c dn) (O : Oracle) {mn : Vec} (hmn : MinOK c.d mn) (g : Vec) (old : ℝ) :
    ∀ fuel j step newb b cf, VB dn b → (miniSteps c O mn dn g old fuel j step newb b cf).All (fun r => VB dn r.2) := by
  intro fuel
  induction fuel with
  | zero => intros; trivial
  | succ f ih =>
    intro j step newb b cf hb
    rw [miniSteps]
    have he := enforce_zero hd (b := fun i => newb i + step * g i) (fun k hk => (hmn k hk).2) (fun _ _ => Or.inr hmn)
    dsimp only
    split_ifs
    · exact hb
    · exact hb
    · exact hb
    · exact ih _ _ _ _ _ he.vb

theorem gradLoop_ok {c : Cfg} {dn : ℕ} (hd : Dim c dn) (O : Oracle) {mn : Vec} (hmn : MinOK c.d mn) (inner : ℕ) :
    ∀ fuel eps ms tr b, VB dn b → (gradLoop c O mn dn inner fuel eps ms tr b).All (VB dn) := by
  intro fuel
  induction fuel with
  | zero => intros; trivial
  | succ f ih =>
    intro eps ms tr b hb
    rw [gradLoop]
    have hs : (gradStep c O mn dn inner eps ms b).All (fun r => VB dn r.2) := by
      unfold gradStep
      dsimp only
      split_ifs
      · exact hb
      · exact miniSteps_ok hd O hmn _ _ _ _ _ _ _ _ hb
    refine hs.bind fun r hr => ?_
    split_ifs
    · exact hr
    · exact hr
    · exact ih _ _ _ _ hr
    · exact ih _ _ _ _ hr

/-! ## Nelder-Mead -/

theorem nmMini_lt (l : ℕ) (hl : 0 < l) (fs : ℕ → ℝ) : nmMini l fs < l := by
  unfold nmMini
  exact forUp_inv (fun _ m => m < l) _ (by omega : 1 ≤ l) 0 hl (by
    intro m t _ hm ht
    split_ifs
    · exact hm
    · exact ht)

theorem centroid_ok {d : ℕ} {mn : Vec} {dn : ℕ} (l : ℕ) (hl : 1 ≤ l) (bs : ℕ → Vec)
    (h : ∀ k, k < l → En d mn dn (bs k)) : En d mn dn (nmCentroid l bs) := by
  have hl' : (0 : ℝ) < l := by exact_mod_cast hl
  have hsum : ∀ i, forUp 1 l (fun k acc => acc + bs k i) (bs 0 i) = ∑ k ∈ Finset.range l, bs k i := by
    intro i
    have := forUp_inv (fun m (acc : ℝ) => acc = ∑ k ∈ Finset.range m, bs k i) (fun k acc => acc + bs k i) hl (bs 0 i)
      (by simp) (by intro m t _ _ ht; rw [Finset.sum_range_succ, ht])
    exact this
  have hv : ∀ i, nmCentroid l bs i = (∑ k ∈ Finset.range l, bs k i) / l := fun i => by
    unfold nmCentroid
    rw [hsum]
  have hlow : ∀ i x, (∀ k, k < l → x ≤ bs k i) → x ≤ nmCentroid l bs i := by
    intro i x hx
    rw [hv, le_div_iff₀ hl']
    calc x * l = ∑ k ∈ Finset.range l, x := by rw [Finset.sum_const, Finset.card_range, nsmul_eq_mul, mul_comm]
      _ ≤ _ := Finset.sum_le_sum fun k hk => hx k (Finset.mem_range.1 hk)
  refine ⟨⟨fun i hi => ?_, fun i hi => ?_, fun i hi => ?_⟩, fun i hi hk => ?_, ?_⟩
  · rw [hv]
    exact div_pos (Finset.sum_pos (fun k hk => (h k (Finset.mem_range.1 hk)).vb.pos i hi) ⟨0, Finset.mem_range.2 hl⟩) hl'
  · rw [hv, div_le_iff₀ hl']
    calc _ ≤ ∑ k ∈ Finset.range l, (1 : ℝ) := Finset.sum_le_sum fun k hk => (h k (Finset.mem_range.1 hk)).vb.le i hi
      _ = 1 * l := by rw [Finset.sum_const, Finset.card_range, nsmul_eq_mul, mul_comm]
  · rw [hv, hv]
    exact div_le_div_of_nonneg_right (Finset.sum_le_sum fun k hk => (h k (Finset.mem_range.1 hk)).vb.mono i hi) hl'.le
  · exact hlow i _ fun k hk' => (h k hk').lo i hi hk
  · by_cases h1 : dn = 1
    · exact Or.inr h1
    · exact Or.inl (hlow _ _ fun k hk' => ((h k hk').last).resolve_right h1)

theorem nmLoop_ok {c : Cfg} {dn : ℕ} (hd : Dim c dn) (O : Oracle) {mn : Vec} (hmn : MinOK c.d mn) :
    ∀ fuel counter last s, (∀ k, k < dn + 1 → En c.d mn dn (s.bs k)) →
      (nmLoop c O mn dn fuel counter last s).All (fun r => En c.d mn dn (r.1.bs r.2)) := by
  have he : ∀ b, En c.d mn dn (enforce c.d mn dn b 0).2 := fun b =>
    enforce_zero hd (fun k hk => (hmn k hk).2) (fun _ _ => Or.inr hmn)
  have hup : ∀ (s : Simplex) (m : ℕ) (b : Vec), (∀ k, k < dn + 1 → En c.d mn dn (s.bs k)) → En c.d mn dn b →
      ∀ k, k < dn + 1 → En c.d mn dn (update s.bs m b k) := by
    intro s m b hs hb k hk
    by_cases e : k = m
    · rw [e, update_self]; exact hb
    · rw [update_of_ne e]; exact hs k hk
  intro fuel
  induction fuel with
  | zero => intros; trivial
  | succ f ih =>
    intro counter last s hs
    have hc := centroid_ok (dn + 1) (by omega) s.bs hs
    have hst := (enforce_status c.d mn dn hd.pos _ hc.vb.le hc.vb.mono hc.lo hc.last).1
    rw [nmLoop]
    dsimp only
    rw [if_neg (by rw [hst]; exact Bool.false_ne_true)]
    generalize (if counter = 0 then s.fs (nmMaxi (dn + 1) s.fs) else last) = last'
    generalize (if (counter + 1) % (dn + 1) = 0 then s.fs (nmMaxi (dn + 1) s.fs) else last') = last''
    generalize (enforce c.d mn dn (nmCentroid (dn + 1) s.bs) 0).2 = bo
    split_ifs with h1 h2 h3 h4 h5 h6
    · exact hs _ (nmMini_lt _ (by omega) _)
    · exact ih _ _ _ (hup s _ _ hs (he _))
    · exact ih _ _ _ (hup s _ _ hs (he _))
    · exact ih _ _ _ (hup s _ _ hs (he _))
    · exact ih _ _ _ (hup s _ _ hs (he _))
    · refine ih _ _ _ ?_
      exact forUp_inv (fun _ (t : Simplex) => ∀ k, k < dn + 1 → En c.d mn dn (t.bs k)) _ (Nat.zero_le (dn + 1)) s hs
        (fun m t _ _ ht => hup t _ _ ht (he _))
    · exfalso
      rw [not_and_or, not_le, not_lt] at h2
      rcases h2 with h2 | h2
      · exact h3 h2
      · exact h5 h2

theorem nelderMead_ok {c : Cfg} {dn : ℕ} (hd : Dim c dn) (O : Oracle) {mn : Vec} (hmn : MinOK c.d mn) (inner : ℕ) :
    ∀ fuel b, (nelderMead c O mn dn inner fuel b).All (VB dn) := by
  have he : ∀ b, En c.d mn dn (enforce c.d mn dn b 0).2 := fun b =>
    enforce_zero hd (fun k hk => (hmn k hk).2) (fun _ _ => Or.inr hmn)
  intro fuel
  induction fuel with
  | zero => intros; trivial
  | succ f ih =>
    intro b
    rw [nelderMead]
    have hs : (nmStep c O mn dn inner b).All (fun r => VB dn r.2) := by
      unfold nmStep
      exact (nmLoop_ok hd O hmn inner _ _ _ (fun k _ => he _)).bind fun r hr => hr.vb
    refine hs.bind fun r hr => ?_
    split_ifs
    · exact ih _
    · exact hr

theorem core_ok {c : Cfg} {dn : ℕ} (hd : Dim c dn) (O : Oracle) {mn : Vec}
    (hmn : c.gradient = true ∨ c.nelderMead = true → MinOK c.d mn) (fuel : ℕ) {pr : Vec} (hp : VP c.n pr) :
    (core c O mn dn fuel pr).All (VP c.n) := by
  unfold core
  have hb := load_ok hd hp
  have h1 : (if c.gradient = true then gradientDescent c O mn dn fuel (load c dn pr) else .ok (load c dn pr)).All (VB dn) := by
    split_ifs with h
    · exact gradLoop_ok hd O (hmn (Or.inl h)) _ _ _ _ _ _ hb
    · exact hb
  refine h1.bind fun b hb => ?_
  have h2 : (if c.nelderMead = true then nelderMead c O mn dn fuel fuel b else .ok b).All (VB dn) := by
    split_ifs with h
    · exact nelderMead_ok hd O (hmn (Or.inr h)) _ _ _
    · exact hb
  exact h2.bind fun b hb => save_ok hd pr hb

/-! ## local adjustments -/

/-- replacing an entry by something between its neighbours -/
theorem vb_update {n : ℕ} {b : Vec} (h : VB n b) (i : ℕ) (x : ℝ) (h1 : 0 < x) (h2 : x ≤ 1) (h3 : ∀ k, k + 1 = i → b k ≤ x)
    (h4 : i + 1 < n → x ≤ b (i + 1)) : VB n (update b i x) := by
  refine ⟨fun k hk => ?_, fun k hk => ?_, fun k hk => ?_⟩
  · by_cases e : k = i
    · rw [e, update_self]; exact h1
    · rw [update_of_ne e]; exact h.pos k hk
  · by_cases e : k = i
    · rw [e, update_self]; exact h2
    · rw [update_of_ne e]; exact h.le k hk
  · by_cases e : k = i
    · rw [e, update_self, update_of_ne (by omega)]; exact h4 (by omega)
    · rw [update_of_ne e]
      by_cases e' : k + 1 = i
      · rw [e', update_self]; exact h3 k e'
      · rw [update_of_ne e']; exact h.mono k hk

theorem decrLoop_ok {c : Cfg} (O : Oracle) : ∀ fuel lasti fails thr slices b, (∀ i, 1 ≤ slices i) → VB c.n b →
    (decrLoop c O fuel lasti fails thr slices b).All (VB c.n) := by
  intro fuel
  induction fuel with
  | zero => intros; trivial
  | succ f ih =>
    intro lasti fails thr slices b hsl hb
    rw [decrLoop]
    dsimp only
    split_ifs with h1 h2 h3 h4 h5
    · exact hb
    · exact hb
    · exact hb
    · exact ih _ _ _ _ _ hsl hb
    all_goals
      generalize hind : c.n - bottleneck c.n (fun i => decide (lasti ≠ some (c.n - 1 - i)) && decide (thr (c.n - i - 1) > 0))
        (O.detail c.n b) - 1 = ind at *
      have hlt : ind < c.n := by omega
      have hm : b (ind - 1) ≤ b ind := hb.anti (by omega) hlt
      have hs := hsl ind
      have hq0 : 0 ≤ (b ind - b (ind - 1)) / slices ind := div_nonneg (by linarith) (by linarith)
      have hq : (b ind - b (ind - 1)) / slices ind ≤ b ind - b (ind - 1) := div_le_self (by linarith) hs
      have hp := hb.pos (ind - 1) (by omega)
      have hv : VB c.n (update b ind (b ind - (b ind - b (ind - 1)) / slices ind)) := by
        refine vb_update hb ind _ (by linarith) (by linarith [hb.le ind hlt]) (fun k hk => ?_) (fun hk => ?_)
        · obtain rfl : k = ind - 1 := by omega
          linarith
        · linarith [hb.mono ind hk]
      refine ih _ _ _ _ _ (fun i => ?_) hv
    · by_cases e : i = ind
      · rw [e, update_self]; linarith
      · rw [update_of_ne e]; exact hsl i
    · exact hsl i

theorem incrTrials_ok {c : Cfg} (O : Oracle) (i : ℕ) (hi : 1 ≤ i) (hin : i < c.n) : ∀ m (s : Vec × Vec), (∀ i, 1 ≤ s.1 i) → VB c.n s.2 →
    (∀ j, 1 ≤ (incrTrials c O i m s).1 j) ∧ VB c.n (incrTrials c O i m s).2 := by
  intro m
  induction m with
  | zero => intro s h1 h2; exact ⟨h1, h2⟩
  | succ m ih =>
    rintro ⟨slices, b⟩ hsl hb
    rw [incrTrials]
    dsimp only at *
    split_ifs with h1 h2
    · exact ⟨hsl, hb⟩
    all_goals
      have hm : b (i - 1) ≤ b i := hb.anti (by omega) hin
      have hs := hsl (i - 1)
      have hq0 : 0 ≤ (b i - b (i - 1)) / slices (i - 1) := div_nonneg (by linarith) (by linarith)
      have hq : (b i - b (i - 1)) / slices (i - 1) ≤ b i - b (i - 1) := div_le_self (by linarith) hs
      have hp := hb.pos (i - 1) (by omega)
      have hv : VB c.n (update b (i - 1) (b (i - 1) + (b i - b (i - 1)) / slices (i - 1))) := by
        refine vb_update hb (i - 1) _ (by linarith) (by linarith [hb.le i hin]) (fun k hk => ?_) (fun hk => ?_)
        · have := hb.mono k (by omega)
          rw [hk] at this
          linarith
        · rw [show i - 1 + 1 = i by omega]
          linarith
      refine ih _ (fun j => ?_) hv
    · by_cases e : j = i - 1
      · dsimp only; rw [e, update_self]; linarith
      · dsimp only; rw [update_of_ne e]; exact hsl j
    · exact hsl j

theorem incrTours_ok {c : Cfg} (O : Oracle) (cf0 : ℝ) : ∀ m slices b, (∀ i, 1 ≤ slices i) → VB c.n b →
    VB c.n (incrTours c O cf0 m slices b) := by
  intro m
  induction m with
  | zero => intro _ _ _ h; exact h
  | succ m ih =>
    intro slices b hsl hb
    rw [incrTours]
    dsimp only
    generalize hind : c.n - bottleneck c.n (fun _ => true) (O.detail c.n b) - 1 = ind
    by_cases h0 : ind ≤ 1
    · rw [if_pos h0]; exact hb
    rw [if_neg h0]
    have hf := forDown_inv (fun _ (s : Vec × Vec) => (∀ i, 1 ≤ s.1 i) ∧ VB c.n s.2)
      (fun i (s : Vec × Vec) => if s.2 i ≤ s.2 (i - 1) then s else incrTrials c O i 10 s) (by omega : 1 ≤ ind + 1) (slices, b)
      ⟨hsl, hb⟩ (by
        intro i t h1 h2 ht
        split_ifs
        · exact ht
        · exact incrTrials_ok O i h1 (by omega) 10 t ht.1 ht.2)
    split_ifs
    · exact hb
    · exact hf.2
    · exact ih _ _ hf.1 hf.2

theorem smoothStep_ok {n i : ℕ} (hi : 1 ≤ i) (hin : i + 1 < n) {b : Vec} (hb : VB n b) : VB n (smoothStep n i b) := by
  have key : ∀ (b : Vec), VB n b → ∀ x, b (i - 1) ≤ x → x ≤ b (i + 1) → VB n (update b i x) := by
    intro b hb x h1 h2
    have hp := hb.pos (i - 1) (by omega)
    have hl := hb.le (i + 1) hin
    refine vb_update hb i x (by linarith) (by linarith) (fun k hk => ?_) (fun _ => h2)
    obtain rfl : k = i - 1 := by omega
    exact h1
  have hm : ∀ (b : Vec), VB n b → b (i - 1) ≤ b (i + 1) := fun b hb => hb.anti (by omega) hin
  have h1 : VB n (if b (i + 1) / b i / (b i / b (i - 1)) > 1.25 ∨ b (i + 1) / b i / (b i / b (i - 1)) < 0.8 then
      update b i (√(b (i - 1) * b (i + 1))) else b) := by
    split_ifs
    · have hp := hb.pos (i - 1) (by omega)
      have hq := hb.pos (i + 1) hin
      have hmb := hm b hb
      apply key b hb
      · apply Real.le_sqrt_of_sq_le
        nlinarith
      · rw [Real.sqrt_le_left hq.le]
        nlinarith
    · exact hb
  unfold smoothStep
  dsimp only
  generalize (if b (i + 1) / b i / (b i / b (i - 1)) > 1.25 ∨ b (i + 1) / b i / (b i / b (i - 1)) < 0.8 then
      update b i (√(b (i - 1) * b (i + 1))) else b) = b1 at h1
  have := hm b1 h1
  split_ifs
  · exact key b1 h1 _ (by linarith) (by linarith)
  · exact h1

theorem smooth_ok {c : Cfg} (hn : 2 ≤ c.n) {pr : Vec} (hp : VP c.n pr) : VP c.n (smooth c pr) := by
  have hd : Dim c c.n := ⟨hn, Or.inr rfl⟩
  exact save_ok hd pr (forUp_inv (fun _ b => VB c.n b) _ (by omega : 1 ≤ c.n - 1) _ (load_ok hd hp)
    (fun i t h1 h2 ht => smoothStep_ok h1 (by omega) ht))

theorem incrProb_ok {c : Cfg} (hn : 2 ≤ c.n) (O : Oracle) {pr : Vec} (hp : VP c.n pr) : VP c.n (incrProb c O pr) := by
  have hd : Dim c c.n := ⟨hn, Or.inr rfl⟩
  exact save_ok hd pr (incrTours_ok O _ _ _ _ (fun _ => by norm_num) (load_ok hd hp))

theorem decrSingle_ok {c : Cfg} (hn : 2 ≤ c.n) (O : Oracle) (fuel : ℕ) {pr : Vec} (hp : VP c.n pr) :
    (decrSingle c O fuel pr).All (VP c.n) := by
  have hd : Dim c c.n := ⟨hn, Or.inr rfl⟩
  exact (decrLoop_ok O fuel none 0 _ _ _ (fun _ => by norm_num) (load_ok hd hp)).bind fun b hb => save_ok hd pr hb

/-! ## reaching the target -/

theorem weights_nonneg (dn : ℕ) (dc : Vec) (i : ℕ) : 0 ≤ weights dn dc i := by
  unfold weights
  have h : ∀ k, 0 ≤ max (1 / ∑ j ∈ Finset.Ico k dn, dc j) (0.0001 : ℝ) := fun k => le_max_of_le_right (by norm_num)
  exact div_nonneg (h i) (Finset.sum_nonneg fun k _ => h k)

theorem incrTarget_ok {c : Cfg} (hn : 2 ≤ c.n) (O : Oracle) {mn : Vec} (hmn : ∀ k, k < c.d → mn k ≤ 1) :
    ∀ m b, VB c.n b → VB c.n (incrTarget c O mn m b) := by
  have hd : Dim c c.n := ⟨hn, Or.inr rfl⟩
  intro m
  induction m with
  | zero => intro b h; exact h
  | succ m ih =>
    intro b hb
    rw [incrTarget]
    dsimp only
    have he := (enforce_zero hd (b := fun i => if b i + weights c.n (O.detail c.n b) i ≥ 1 then 1 else
      b i + weights c.n (O.detail c.n b) i) hmn (fun i hi => by
        left
        have := hb.pos i hi
        have := weights_nonneg c.n (O.detail c.n b) i
        split_ifs <;> linarith)).vb
    split_ifs
    · exact hb
    · exact he
    · exact ih _ he

theorem decrTarget_ok {c : Cfg} (hn : 2 ≤ c.n) (O : Oracle) {mn : Vec} (hmn : ∀ k, k < c.d → mn k ≤ 1) :
    ∀ m b, VB c.n b → VB c.n (decrTarget c O mn m b) := by
  have hd : Dim c c.n := ⟨hn, Or.inr rfl⟩
  intro m
  induction m with
  | zero => intro b h; exact h
  | succ m ih =>
    intro b hb
    rw [decrTarget]
    dsimp only
    have he := (enforce_zero hd (b := fun i => if b i - weights c.n (O.detail c.n b) i < 0.0001 then 0.0001 else
      b i - weights c.n (O.detail c.n b) i) hmn (fun i hi => by
        left
        split_ifs <;> linarith)).vb
    split_ifs
    · exact hb
    · exact he
    · exact ih _ he

theorem adjustLoop_ok {c : Cfg} (hn : 2 ≤ c.n) (O : Oracle) {mn : Vec} (hmn : ∀ k, k < c.d → mn k ≤ 1) :
    ∀ fuel b, VB c.n b → (adjustLoop c O mn fuel b).All (VB c.n) := by
  have hd : Dim c c.n := ⟨hn, Or.inr rfl⟩
  intro fuel
  induction fuel with
  | zero => intros; trivial
  | succ m ih =>
    intro b hb
    rw [adjustLoop]
    dsimp only
    have he : VB c.n (enforce c.d mn c.n (if O.metric c.n b / c.target < 1 then
        fun i => if b i + 0.0001 ≥ 1 then 1 else b i + 0.0001
        else fun i => if b i - 0.0001 < 0.0001 then 0.0001 else b i - 0.0001) 0).2 :=
      (enforce_zero hd hmn (fun i hi => by
        left
        have := hb.pos i hi
        by_cases h : O.metric c.n b / c.target < 1
        · rw [if_pos h]
          split_ifs <;> linarith
        · rw [if_neg h]
          split_ifs <;> linarith)).vb
    by_cases h1 : O.metric c.n b / c.target < 1.05 ∧ O.metric c.n b / c.target > 0.95
    · rw [if_pos h1]; exact hb
    · rw [if_neg h1]
      generalize (enforce c.d mn c.n (if O.metric c.n b / c.target < 1 then
        fun i => if b i + 0.0001 ≥ 1 then 1 else b i + 0.0001
        else fun i => if b i - 0.0001 < 0.0001 then 0.0001 else b i - 0.0001) 0).2 = b' at he
      by_cases h2 : ∀ i, i < c.n → b' i = b i
      · rw [if_pos h2]; exact he
      · rw [if_neg h2]; exact ih _ he

/-! ## the whole optimisation -/

theorem preparation_ok {c : Cfg} (hn : 2 ≤ c.n) (O Omin : Oracle) (fuel : ℕ) {pr : Vec} (hp : c.fromInput = true → VP c.n pr) :
    (preparation c O Omin fuel pr).All (fun p => (c.gradient = true ∨ c.nelderMead = true → MinOK c.d p.1) ∧
      (∀ k, k < c.d → p.1 k ≤ 1) ∧ VP c.n p.2) := by
  have hd : Dim c c.d := ⟨hn, Or.inl rfl⟩
  have hf : Dim c c.n := ⟨hn, Or.inr rfl⟩
  unfold preparation
  have h1 : (if c.fromInput = true then .ok (load c c.d pr) else greedy c O fuel : Res Vec).All (VB c.d) := by
    split_ifs with h
    · exact load_ok hd (hp h)
    · exact greedy_ok c hn O fuel
  refine h1.bind fun b hb => ?_
  have h2 : (if c.gradient = true ∨ c.nelderMead = true then
      (greedy c Omin fuel).bind fun mn =>
        if c.single = true then .ok mn
        else
          let prMin := save c c.d mn (fun _ => 0)
          .ok (load c c.d (if Omin.metric c.d mn > c.target then optDecr c Omin (fun _ => 0) prMin else prMin))
     else .ok (fun _ => 0) : Res Vec).All (fun mn => (c.gradient = true ∨ c.nelderMead = true → MinOK c.d mn) ∧
      ∀ k, k < c.d → mn k ≤ 1) := by
    have hconv : ∀ {mn : Vec}, VB c.d mn → (c.gradient = true ∨ c.nelderMead = true → MinOK c.d mn) ∧ ∀ k, k < c.d → mn k ≤ 1 :=
      fun h => ⟨fun _ k hk => ⟨h.pos k hk, h.le k hk⟩, h.le⟩
    by_cases h : c.gradient = true ∨ c.nelderMead = true
    · rw [if_pos h]
      refine (greedy_ok c hn Omin fuel).bind fun mn hmn => ?_
      by_cases hs : c.single = true
      · rw [if_pos hs]
        exact hconv hmn
      · rw [if_neg hs]
        have hsv := save_ok hd (fun _ => 0) hmn
        refine hconv (load_ok hd ?_)
        split_ifs
        · exact save_ok hf _ (decrTarget_ok hn Omin (fun _ _ => zero_le_one) _ _ (load_ok hf hsv))
        · exact hsv
    · rw [if_neg h]
      exact ⟨fun h' => (h h').elim, fun _ _ => zero_le_one⟩
  exact h2.bind fun mn hmn => ⟨hmn.1, hmn.2, save_ok hd pr hb⟩

theorem varyTours_ok {c : Cfg} (hn : 2 ≤ c.n) (O : Oracle) {mn : Vec}
    (hmn : c.gradient = true ∨ c.nelderMead = true → MinOK c.d mn) (inner : ℕ) :
    ∀ fuel tours pr best minc, VP c.n pr → VB c.n best → (varyTours c O mn inner fuel tours pr best minc).All (VP c.n) := by
  have hf : Dim c c.n := ⟨hn, Or.inr rfl⟩
  intro fuel
  induction fuel with
  | zero => intros; trivial
  | succ f ih =>
    intro tours pr best minc hp hbest
    rw [varyTours]
    refine (decrSingle_ok hn O inner hp).bind fun pr1 hp1 => ?_
    have hp2 := smooth_ok hn (incrProb_ok hn O hp1)
    refine (core_ok hf O hmn inner hp2).bind fun pr3 hp3 => ?_
    dsimp only
    have hb2 := load_ok hf hp2
    have hb3 := load_ok hf hp3
    generalize load c c.n (smooth c (incrProb c O pr1)) = b2 at hb2 ⊢
    generalize load c c.n pr3 = b3 at hb3 ⊢
    have hx : VB c.n (if O.cost c.n b2 < minc then b2 else best) := by split_ifs <;> assumption
    generalize (if O.cost c.n b2 < minc then b2 else best) = x at hx ⊢
    generalize (if O.cost c.n b2 < minc then O.cost c.n b2 else minc) = y
    have hx' : VB c.n (if O.cost c.n b3 < y then b3 else x) := by split_ifs <;> assumption
    generalize (if O.cost c.n b3 < y then b3 else x) = x' at hx' ⊢
    split_ifs
    · exact save_ok hf pr3 hx'
    · exact ih _ _ _ _ hp3 hx'
    · exact ih _ _ _ _ hp3 hx'

theorem optimize_ok {c : Cfg} (hn : 2 ≤ c.n) (O Omin : Oracle) (fuel : ℕ) {pr : Vec} (hp : c.fromInput = true → VP c.n pr) :
    (optimize c O Omin fuel pr).All (VP c.n) := by
  have hd : Dim c c.d := ⟨hn, Or.inl rfl⟩
  have hf : Dim c c.n := ⟨hn, Or.inr rfl⟩
  unfold optimize
  split_ifs with hs
  · unfold fixedProb
    refine (preparation_ok hn O Omin fuel hp).bind fun p ⟨hm1, hm2, hp0⟩ => ?_
    refine (core_ok hd O hm1 fuel hp0).bind fun pr1 hp1 => ?_
    refine (core_ok hf O hm1 fuel (smooth_ok hn hp1)).bind fun pr2 hp2 => ?_
    have hp3 := smooth_ok hn hp2
    have hp4 : VP c.n (if O.metric c.n (load c c.n (smooth c pr2)) ≤ c.target then optIncr c O p.1 (smooth c pr2)
        else optDecr c O p.1 (smooth c pr2)) := by
      split_ifs
      · exact save_ok hf _ (incrTarget_ok hn O hm2 _ _ (load_ok hf hp3))
      · exact save_ok hf _ (decrTarget_ok hn O hm2 _ _ (load_ok hf hp3))
    have hp5 := smooth_ok hn hp4
    exact (adjustLoop_ok hn O hm2 fuel _ (load_ok hf hp5)).bind fun b hb => save_ok hf _ hb
  · unfold varyProb
    refine (preparation_ok hn O Omin fuel hp).bind fun p ⟨hm1, hm2, hp0⟩ => ?_
    refine (core_ok hd O hm1 fuel hp0).bind fun pr1 hp1 => ?_
    have hb := load_ok hf hp1
    dsimp only
    by_cases hh : c.half = true
    · rw [if_pos hh]
      exact save_ok hf _ hb
    · rw [if_neg hh]
      exact varyTours_ok hn O hm1 fuel _ _ _ _ _ hp1 hb

end Pruner
end Fplll

import Mathlib.Tactic.Linarith
import Mathlib.Tactic.Ring
import Mathlib.Algebra.Order.BigOperators.Group.Finset
import Mathlib.Algebra.Order.Field.Rat
import Mathlib.Data.Fintype.Pi
import Mathlib.Algebra.BigOperators.Intervals
import Mathlib.Order.Interval.Finset.Defs
import Verif.Model.TopEnum

/-!
# Invariant of the walk of `Enumerator`
-/

open Finset

namespace Fplll
namespace TopEnum

/-! ## The zig-zag at one level -/

/-- `y` comes after the present value in the zig-zag -/
def LaterZ (x dx y : ℤ) : Prop := y ≠ x ∧ ¬ (x - dx ≤ y ∧ y < x) ∧ ¬ (x < y ∧ y ≤ x - dx)

/-- the zig-zag stands at `x`, around `c` -/
structure Zig (c : ℚ) (x dx ddx : ℤ) : Prop where
  n : ∃ n : ℕ, dx = n * ddx
  dir : ddx = 1 ∨ ddx = -1
  lo : 0 ≤ (ddx : ℚ) * (x - dx / 2 - c)
  hi : (ddx : ℚ) * (x - dx / 2 - c) ≤ 1 / 2

theorem Zig.start {c : ℚ} {x : ℤ} (h : |(x : ℚ) - c| ≤ 1 / 2) : Zig c x 0 (if (x : ℚ) ≤ c then -1 else 1) := by
  have h' := abs_le.1 h
  split_ifs with hx
  · exact ⟨⟨0, by simp⟩, .inr rfl, by push_cast; linarith, by push_cast; linarith [h'.1]⟩
  · rw [not_le] at hx
    exact ⟨⟨0, by simp⟩, .inl rfl, by push_cast; linarith, by push_cast; linarith [h'.2]⟩

theorem Zig.step {c : ℚ} {x dx ddx : ℤ} (h : Zig c x dx ddx) : Zig c (x + (-ddx - dx)) (-ddx - dx) (-ddx) := by
  obtain ⟨⟨n, hn⟩, hd, hlo, hhi⟩ := h
  rcases hd with rfl | rfl
  · refine ⟨⟨n + 1, by push_cast; rw [hn]; ring⟩, .inr rfl, ?_, ?_⟩ <;> push_cast at * <;> linarith
  · refine ⟨⟨n + 1, by push_cast; rw [hn]; ring⟩, .inl rfl, ?_, ?_⟩ <;> push_cast at * <;> linarith

theorem laterZ_start {x y : ℤ} : LaterZ x 0 y ↔ y ≠ x := by
  unfold LaterZ
  constructor
  · exact fun h => h.1
  · intro h
    exact ⟨h, by omega, by omega⟩

theorem Zig.later {c : ℚ} {x dx ddx : ℤ} (h : Zig c x dx ddx) (y : ℤ) : LaterZ x dx y ↔ y = x + (-ddx - dx) ∨ LaterZ (x + (-ddx - dx)) (-ddx - dx) y := by
  obtain ⟨⟨n, hn⟩, hd, -, -⟩ := h
  unfold LaterZ
  rcases hd with rfl | rfl <;> rw [hn] <;> constructor <;> intro hy <;> omega

theorem Zig.not_later {c : ℚ} {x dx ddx : ℤ} (h : Zig c x dx ddx) : ¬ LaterZ (x + (-ddx - dx)) (-ddx - dx) x ∧ x + (-ddx - dx) ≠ x := by
  obtain ⟨⟨n, hn⟩, hd, -, -⟩ := h
  unfold LaterZ
  rcases hd with rfl | rfl <;> rw [hn] <;> constructor <;> omega

theorem Zig.dist {c : ℚ} {x dx ddx y : ℤ} (h : Zig c x dx ddx) (hy : LaterZ x dx y) : (c - x) * (c - x) ≤ (c - y) * (c - y) := by
  obtain ⟨⟨n, hn⟩, hd, hlo, hhi⟩ := h
  unfold LaterZ at hy
  rcases hd with rfl | rfl
  · rw [mul_one] at hn
    subst hn
    push_cast at hlo hhi
    have hn0 : (0 : ℚ) ≤ n := Nat.cast_nonneg n
    rcases (show x + 1 ≤ y ∨ y ≤ x - n - 1 by omega) with h1 | h1
    · have h1' : (x : ℚ) + 1 ≤ y := by exact_mod_cast h1
      nlinarith
    · have h1' : (y : ℚ) ≤ x - n - 1 := by exact_mod_cast h1
      nlinarith
  · obtain rfl : dx = -(n : ℤ) := by rw [hn]; ring
    push_cast at hlo hhi
    have hn0 : (0 : ℚ) ≤ n := Nat.cast_nonneg n
    rcases (show y ≤ x - 1 ∨ x + n + 1 ≤ y by omega) with h1 | h1
    · have h1' : (y : ℚ) ≤ x - 1 := by exact_mod_cast h1
      nlinarith
    · have h1' : (x : ℚ) + n + 1 ≤ y := by exact_mod_cast h1
      nlinarith

/-! ## The invariant -/

variable (p : Params)

/-- `-∑_{l > j} x_l μ_{l,j}` -/
def ctr (x : ℕ → ℤ) (j : ℕ) : ℚ := -∑ l ∈ Ico (j + 1) p.d, (x l : ℚ) * p.mu l j

/-- squared norm of the projection: levels `k` and above -/
def pnorm (k : ℕ) (x : ℕ → ℤ) : ℚ := ∑ i ∈ Ico k p.d, p.r i * ((ctr p x i - x i) * (ctr p x i - x i))

variable {p}

theorem ctr_congr {x y : ℕ → ℤ} {j : ℕ} (h : ∀ l, j < l → l < p.d → x l = y l) : ctr p x j = ctr p y j := by
  unfold ctr
  congr 1
  refine sum_congr rfl fun l hl => ?_
  rw [h l (by have := mem_Ico.1 hl; omega) (mem_Ico.1 hl).2]

theorem pnorm_congr {x y : ℕ → ℤ} {k : ℕ} (h : ∀ l, k ≤ l → l < p.d → x l = y l) : pnorm p k x = pnorm p k y := by
  unfold pnorm
  refine sum_congr rfl fun i hi => ?_
  have := mem_Ico.1 hi
  rw [ctr_congr (y := y) fun l h1 h2 => h l (by omega) h2, h i this.1 this.2]

theorem pnorm_succ {x : ℕ → ℤ} {k : ℕ} (hk : k < p.d) : pnorm p k x = p.r k * ((ctr p x k - x k) * (ctr p x k - x k)) + pnorm p (k + 1) x := by
  unfold pnorm
  rw [sum_eq_sum_Ico_succ_bot hk]

theorem pnorm_mono (hr : ∀ i < p.d, 0 < p.r i) {x : ℕ → ℤ} {k l : ℕ} (h : k ≤ l) : pnorm p l x ≤ pnorm p k x := by
  unfold pnorm
  refine sum_le_sum_of_subset_of_nonneg (Ico_subset_Ico_left h) fun i hi _ => ?_
  exact mul_nonneg (hr i (mem_Ico.1 hi).2).le (mul_self_nonneg _)

theorem pnorm_nonneg (hr : ∀ i < p.d, 0 < p.r i) {x : ℕ → ℤ} {k : ℕ} : 0 ≤ pnorm p k x :=
  sum_nonneg fun i hi => mul_nonneg (hr i (mem_Ico.1 hi).2).le (mul_self_nonneg _)

theorem ctr_zero {x : ℕ → ℤ} {j : ℕ} (h : ∀ l, j < l → l < p.d → x l = 0) : ctr p x j = 0 := by
  unfold ctr
  rw [sum_eq_zero, neg_zero]
  intro l hl
  rw [h l (by have := mem_Ico.1 hl; omega) (mem_Ico.1 hl).2]
  simp

theorem pnorm_zero {x : ℕ → ℤ} {k : ℕ} (h : ∀ l, k ≤ l → l < p.d → x l = 0) : pnorm p k x = 0 := by
  unfold pnorm
  refine sum_eq_zero fun i hi => ?_
  have := mem_Ico.1 hi
  rw [ctr_zero fun l h1 h2 => h l (by omega) h2, h i this.1 this.2]
  simp

variable (p)

/-- the state at the head of the loop -/
structure Inv (s : St) : Prop where
  kmax : s.k ≤ s.kmax
  lt : s.kmax < p.d
  zero : ∀ j, s.kmax < j → j < p.d → s.x j = 0
  nonneg : 0 ≤ s.x s.kmax
  top : ∀ j, s.kmax ≤ j → s.center j = 0 ∧ s.dist j = 0
  zig : ∀ j, s.k ≤ j → j < s.kmax → Zig (s.center j) (s.x j) (s.dx j) (s.ddx j)
  ctr : ∀ j, s.k ≤ j → j < s.kmax → s.center j = ctr p s.x j
  dist : ∀ j, s.k ≤ j → j < s.kmax → s.dist j = pnorm p (j + 1) s.x

variable {p}

/-- the same for all levels -/
theorem Inv.ctr' {s : St} (h : Inv p s) {j : ℕ} (hj : s.k ≤ j) : s.center j = TopEnum.ctr p s.x j ∧ s.dist j = pnorm p (j + 1) s.x := by
  rcases Nat.lt_or_ge j s.kmax with hlt | hge
  · exact ⟨h.ctr j hj hlt, h.dist j hj hlt⟩
  · rw [(h.top j hge).1, (h.top j hge).2, ctr_zero fun l h1 h2 => h.zero l (by omega) h2, pnorm_zero fun l h1 h2 => h.zero l (by omega) h2]
    exact ⟨rfl, rfl⟩

theorem Inv.newdist {s : St} (h : Inv p s) : newdist p s = pnorm p s.k s.x := by
  have hk : s.k < p.d := lt_of_le_of_lt h.kmax h.lt
  unfold TopEnum.newdist
  rw [(h.ctr' le_rfl).1, (h.ctr' le_rfl).2, pnorm_succ hk]
  ring

/-- `y` comes after the present value at level `j` -/
def Later (s : St) (j : ℕ) (y : ℤ) : Prop := if j < s.kmax then LaterZ (s.x j) (s.dx j) y else s.x j < y

/-- the node at level `j` with coefficients `w` is not yet done -/
def Rem (d : ℕ) (s : St) (j : ℕ) (w : ℕ → ℤ) : Prop :=
  (∃ i, s.k ≤ i ∧ j ≤ i ∧ i < d ∧ (∀ l, i < l → l < d → w l = s.x l) ∧ Later s i (w i)) ∨ (j ≤ s.k ∧ s.k < d ∧ ∀ l, s.k ≤ l → l < d → w l = s.x l)

theorem Inv.later_dist {s : St} (h : Inv p s) (hr : ∀ i < p.d, 0 < p.r i) {v : ℕ → ℤ} (hv : ∀ l, s.k < l → l < p.d → v l = s.x l) (hl : Later s s.k (v s.k)) :
    pnorm p s.k s.x ≤ pnorm p s.k v := by
  have hk : s.k < p.d := lt_of_le_of_lt h.kmax h.lt
  rw [pnorm_succ hk, pnorm_succ hk, ctr_congr hv, pnorm_congr (k := s.k + 1) (fun l h1 h2 => hv l (by omega) h2)]
  refine add_le_add (mul_le_mul_of_nonneg_left ?_ (hr _ hk).le) le_rfl
  rw [← (h.ctr' le_rfl).1]
  unfold Later at hl
  split_ifs at hl with hlt
  · exact (h.zig _ le_rfl hlt).dist hl
  · have e : s.k = s.kmax := by have := h.kmax; omega
    have h0 := h.nonneg
    rw [(h.top _ (by omega)).1]
    rw [← e] at h0
    have h0' : (0 : ℚ) ≤ s.x s.k := by exact_mod_cast h0
    have h1' : (s.x s.k : ℚ) ≤ v s.k := by exact_mod_cast hl.le
    nlinarith

/-! ## Steps -/

theorem down_center (s : St) (k : ℕ) (hk : k < p.d) : forUp 0 (p.d - 1 - k) (fun t (c : ℚ) => c - s.x (p.d - 1 - t) * p.mu (p.d - 1 - t) k) 0 = ctr p s.x k := by
  have : ∀ m, m ≤ p.d - 1 - k → forUp 0 m (fun t (c : ℚ) => c - s.x (p.d - 1 - t) * p.mu (p.d - 1 - t) k) 0 = -∑ l ∈ Ico (p.d - m) p.d, (s.x l : ℚ) * p.mu l k := by
    intro m
    induction m with
    | zero => intro _; rw [forUp_empty (by omega)]; simp
    | succ m ih =>
      intro hm
      rw [forUp_succ_right (by omega), ih (by omega), sum_eq_sum_Ico_succ_bot (show p.d - (m + 1) < p.d by omega), show p.d - (m + 1) + 1 = p.d - m by omega, show p.d - 1 - m = p.d - (m + 1) by omega]
      ring
  rw [this _ le_rfl]
  unfold ctr
  rw [show p.d - (p.d - 1 - k) = k + 1 by omega]

theorem down_spec {s : St} (h : Inv p s) (hrnd : ∀ c, |(p.rnd c : ℚ) - c| ≤ 1 / 2) (h0 : 0 < s.k) :
    Inv p (down p s (newdist p s)) ∧ (∀ j v, Rem p.d (down p s (newdist p s)) j v → Rem p.d s j v) ∧
    (∀ v, Rem p.d s 0 v → Rem p.d (down p s (newdist p s)) 0 v) ∧ (∀ w, (∀ l, s.k ≤ l → l < p.d → w l = s.x l) → ¬ Rem p.d (down p s (newdist p s)) s.k w) := by
  have hk : s.k < p.d := lt_of_le_of_lt h.kmax h.lt
  have hkm := h.kmax
  have hne : ∀ j, s.k ≤ j → j ≠ s.k - 1 := fun j hj => by omega
  set s' := down p s (newdist p s) with hs'
  have ek : s'.k = s.k - 1 := rfl
  have em : s'.kmax = s.kmax := rfl
  have ex : ∀ j, s.k ≤ j → s'.x j = s.x j := fun j hj => Function.update_of_ne (hne j hj) _ _
  have edx : ∀ j, s.k ≤ j → s'.dx j = s.dx j := fun j hj => Function.update_of_ne (hne j hj) _ _
  have eddx : ∀ j, s.k ≤ j → s'.ddx j = s.ddx j := fun j hj => Function.update_of_ne (hne j hj) _ _
  have ec : ∀ j, s.k ≤ j → s'.center j = s.center j := fun j hj => Function.update_of_ne (hne j hj) _ _
  have ed : ∀ j, s.k ≤ j → s'.dist j = s.dist j := fun j hj => Function.update_of_ne (hne j hj) _ _
  have ec0 : s'.center (s.k - 1) = ctr p s.x (s.k - 1) := (Function.update_self _ _ _).trans (down_center s _ (by omega))
  have ed0 : s'.dist (s.k - 1) = pnorm p s.k s.x := (Function.update_self _ _ _).trans h.newdist
  have ex0 : s'.x (s.k - 1) = p.rnd (ctr p s.x (s.k - 1)) := (Function.update_self _ _ _).trans (by rw [down_center s _ (by omega)])
  have edx0 : s'.dx (s.k - 1) = 0 := Function.update_self _ _ _
  have eddx0 : s'.ddx (s.k - 1) = if (p.rnd (ctr p s.x (s.k - 1)) : ℚ) ≤ ctr p s.x (s.k - 1) then -1 else 1 :=
    (Function.update_self _ _ _).trans (by rw [down_center s _ (by omega)])
  have hcc : ∀ j, s.k - 1 ≤ j → ctr p s'.x j = ctr p s.x j := fun j hj => ctr_congr fun l h1 _ => ex l (by omega)
  have hpp : ∀ j, s.k ≤ j → pnorm p j s'.x = pnorm p j s.x := fun j hj => pnorm_congr fun l h1 _ => ex l (by omega)
  have hlater : ∀ j y, s.k ≤ j → (Later s' j y ↔ Later s j y) := fun j y hj => by
    unfold Later
    rw [em, ex j hj, edx j hj]
  have hlater0 : ∀ y, Later s' (s.k - 1) y ↔ y ≠ s'.x (s.k - 1) := fun y => by
    unfold Later
    rw [em, if_pos (by omega), edx0]
    exact laterZ_start
  have hcases : ∀ j, s'.k ≤ j → j = s.k - 1 ∨ s.k ≤ j := fun j hj => by rw [ek] at hj; omega
  refine ⟨⟨by omega, h.lt, fun j h1 h2 => ?_, ?_, fun j hj => ?_, fun j h1 h2 => ?_, fun j h1 h2 => ?_, fun j h1 h2 => ?_⟩, fun j v hv => ?_, fun v hv => ?_, fun w hw hv => ?_⟩
  · rw [em] at h1; rw [ex j (by omega)]; exact h.zero j h1 h2
  · rw [em, ex _ hkm]; exact h.nonneg
  · rw [em] at hj; rw [ec j (by omega), ed j (by omega)]; exact h.top j hj
  · rcases hcases j h1 with rfl | hj
    · rw [ec0, ex0, edx0, eddx0]
      exact Zig.start (hrnd _)
    · rw [ec j hj, ex j hj, edx j hj, eddx j hj]
      exact h.zig j hj h2
  · rcases hcases j h1 with rfl | hj
    · rw [ec0, hcc _ le_rfl]
    · rw [ec j hj, hcc j (by omega)]
      exact h.ctr j hj h2
  · rcases hcases j h1 with rfl | hj
    · rw [ed0, show s.k - 1 + 1 = s.k by omega, hpp _ le_rfl]
    · rw [ed j hj, hpp _ (by omega)]
      exact h.dist j hj h2
  · rcases hv with ⟨i, h1, h2, h3, h4, h5⟩ | ⟨h1, h2, h3⟩
    · rcases hcases i h1 with rfl | hi
      · exact .inr ⟨by omega, hk, fun l hl hd => by rw [h4 l (by omega) hd, ex l hl]⟩
      · exact .inl ⟨i, hi, h2, h3, fun l hl hd => by rw [h4 l hl hd, ex l (by omega)], (hlater i _ hi).1 h5⟩
    · rw [ek] at h1 h2 h3
      exact .inr ⟨by omega, hk, fun l hl hd => by rw [h3 l (by omega) hd, ex l hl]⟩
  · rcases hv with ⟨i, h1, h2, h3, h4, h5⟩ | ⟨h1, h2, h3⟩
    · exact .inl ⟨i, by omega, h2, h3, fun l hl hd => by rw [h4 l hl hd, ex l (by omega)], (hlater i _ h1).2 h5⟩
    · by_cases hx : v (s.k - 1) = s'.x (s.k - 1)
      · refine .inr ⟨Nat.zero_le _, by omega, fun l hl hd => ?_⟩
        rcases hcases l hl with rfl | hl
        · exact hx
        · rw [h3 l hl hd, ex l hl]
      · exact .inl ⟨s.k - 1, le_of_eq ek, Nat.zero_le _, by omega, fun l hl hd => by rw [h3 l (by omega) hd, ex l (by omega)], (hlater0 _).2 hx⟩
  · rcases hv with ⟨i, h1, h2, h3, h4, h5⟩ | ⟨h1, h2, h3⟩
    · rw [hlater i _ h2, hw i h2 h3] at h5
      unfold Later at h5
      split_ifs at h5 with hlt
      · exact h5.1 rfl
      · exact lt_irrefl _ h5
    · rw [ek] at h1
      omega

theorem advance_rem {s s' : St} {K : ℕ} (hk : s'.k = K) (hd : K < p.d) (ex : ∀ j, K < j → s'.x j = s.x j) (hl : ∀ j y, K < j → (Later s' j y ↔ Later s j y))
    (hK : ∀ y, Later s K y ↔ y = s'.x K ∨ Later s' K y) (hn : ¬ Later s' K (s.x K) ∧ s'.x K ≠ s.x K) (hself : ∀ j, ¬ Later s j (s.x j)) :
    (∀ j v, j ≤ K → (Rem p.d s' j v ↔ ∃ i, K ≤ i ∧ j ≤ i ∧ i < p.d ∧ (∀ l, i < l → l < p.d → v l = s.x l) ∧ Later s i (v i))) ∧
    (∀ j v, Rem p.d s' j v → ∃ i, K ≤ i ∧ j ≤ i ∧ i < p.d ∧ (∀ l, i < l → l < p.d → v l = s.x l) ∧ Later s i (v i)) ∧
    ∀ v, (∀ l, K ≤ l → l < p.d → v l = s.x l) → ∀ j, ¬ Rem p.d s' j v := by
  have h2 : ∀ j v, Rem p.d s' j v → ∃ i, K ≤ i ∧ j ≤ i ∧ i < p.d ∧ (∀ l, i < l → l < p.d → v l = s.x l) ∧ Later s i (v i) := by
    rintro j v (⟨i, h1, h2, h3, h4, h5⟩ | ⟨h1, h2, h3⟩)
    · rw [hk] at h1
      refine ⟨i, h1, h2, h3, fun l hl hd => by rw [h4 l hl hd, ex l (by omega)], ?_⟩
      rcases Nat.eq_or_lt_of_le h1 with rfl | hlt
      · exact (hK _).2 (.inr h5)
      · exact (hl i _ hlt).1 h5
    · rw [hk] at h1 h2 h3
      exact ⟨K, le_rfl, h1, h2, fun l hl hd => by rw [h3 l hl.le hd, ex l hl], (hK _).2 (.inl (h3 K le_rfl h2))⟩
  refine ⟨fun j v hj => ⟨h2 j v, ?_⟩, h2, fun v hv j hr => ?_⟩
  · rintro ⟨i, h1, h2, h3, h4, h5⟩
    rcases Nat.eq_or_lt_of_le h1 with rfl | hlt
    · rcases (hK _).1 h5 with hx | hx
      · refine .inr ⟨by omega, by omega, fun l hl hd => ?_⟩
        rw [hk] at hl
        rcases Nat.eq_or_lt_of_le hl with rfl | hlt
        · exact hx
        · rw [h4 l hlt hd, ex l hlt]
      · exact .inl ⟨K, by omega, h2, h3, fun l hl hd => by rw [h4 l hl hd, ex l hl], hx⟩
    · exact .inl ⟨i, by omega, h2, h3, fun l hl hd => by rw [h4 l hl hd, ex l (by omega)], (hl i _ hlt).2 h5⟩
  · obtain ⟨i, h1, -, h3, -, h5⟩ := h2 j v hr
    rw [hv i h1 h3] at h5
    exact hself i h5

theorem later_self (s : St) (j : ℕ) : ¬ Later s j (s.x j) := by
  unfold Later
  split_ifs
  · exact fun h => h.1 rfl
  · exact lt_irrefl _

/-- advancing at level `K`, where `K = k` or one level above -/
theorem advance_spec {s : St} {K : ℕ} (h : Inv p s) (hK : s.k ≤ K) (hK1 : K ≤ s.kmax + 1) (hd : K < p.d) :
    Inv p (advance { s with k := K }) ∧
    (∀ j v, j ≤ K → (Rem p.d (advance { s with k := K }) j v ↔ ∃ i, K ≤ i ∧ j ≤ i ∧ i < p.d ∧ (∀ l, i < l → l < p.d → v l = s.x l) ∧ Later s i (v i))) ∧
    (∀ j v, Rem p.d (advance { s with k := K }) j v → ∃ i, K ≤ i ∧ j ≤ i ∧ i < p.d ∧ (∀ l, i < l → l < p.d → v l = s.x l) ∧ Later s i (v i)) ∧
    ∀ v, (∀ l, K ≤ l → l < p.d → v l = s.x l) → ∀ j, ¬ Rem p.d (advance { s with k := K }) j v := by
  by_cases hlt : K < s.kmax
  · have e : advance { s with k := K } = { s with k := K, ddx := Function.update s.ddx K (-s.ddx K), dx := Function.update s.dx K (-s.ddx K - s.dx K), x := Function.update s.x K (s.x K + (-s.ddx K - s.dx K)) } := if_pos hlt
    rw [e]
    set s' : St := { s with k := K, ddx := Function.update s.ddx K (-s.ddx K), dx := Function.update s.dx K (-s.ddx K - s.dx K), x := Function.update s.x K (s.x K + (-s.ddx K - s.dx K)) } with hs'
    have ex : ∀ j, K < j → s'.x j = s.x j := fun j hj => Function.update_of_ne (by omega) _ _
    have edx : ∀ j, K < j → s'.dx j = s.dx j := fun j hj => Function.update_of_ne (by omega) _ _
    have eddx : ∀ j, K < j → s'.ddx j = s.ddx j := fun j hj => Function.update_of_ne (by omega) _ _
    have ex0 : s'.x K = s.x K + (-s.ddx K - s.dx K) := Function.update_self _ _ _
    have edx0 : s'.dx K = -s.ddx K - s.dx K := Function.update_self _ _ _
    have eddx0 : s'.ddx K = -s.ddx K := Function.update_self _ _ _
    have hz := h.zig K hK hlt
    refine ⟨⟨hlt.le, h.lt, fun j h1 h2 => ?_, ?_, h.top, fun j h1 h2 => ?_, fun j h1 h2 => ?_, fun j h1 h2 => ?_⟩, ?_⟩
    · rw [ex j (by have : s.kmax < j := h1; omega)]; exact h.zero j h1 h2
    · show 0 ≤ s'.x s.kmax
      rw [ex _ hlt]; exact h.nonneg
    · have h1' : K ≤ j := h1
      rcases Nat.eq_or_lt_of_le h1' with rfl | hj
      · rw [ex0, edx0, eddx0]
        exact hz.step
      · rw [ex j hj, edx j hj, eddx j hj]
        exact h.zig j (by omega) h2
    · have h1' : K ≤ j := h1
      rw [ctr_congr (y := s.x) fun l hl _ => ex l (by omega)]
      exact h.ctr j (by omega) h2
    · have h1' : K ≤ j := h1
      rw [pnorm_congr (y := s.x) fun l hl _ => ex l (by omega)]
      exact h.dist j (by omega) h2
    · refine advance_rem rfl hd ex (fun j y hj => ?_) (fun y => ?_) ⟨?_, ?_⟩ (later_self s)
      · unfold Later
        rw [ex j hj, edx j hj]
      · unfold Later
        rw [if_pos hlt, if_pos (show K < s'.kmax from hlt), ex0, edx0]
        exact hz.later y
      · unfold Later
        rw [if_pos (show K < s'.kmax from hlt), ex0, edx0]
        exact hz.not_later.1
      · rw [ex0]
        exact hz.not_later.2
  · have e : advance { s with k := K } = { s with k := K, kmax := K, x := Function.update s.x K (s.x K + 1) } := if_neg hlt
    rw [e]
    set s' : St := { s with k := K, kmax := K, x := Function.update s.x K (s.x K + 1) } with hs'
    have ex : ∀ j, K < j → s'.x j = s.x j := fun j hj => Function.update_of_ne (by omega) _ _
    have ex0 : s'.x K = s.x K + 1 := Function.update_self _ _ _
    have hx0 : 0 ≤ s.x K := by
      rcases Nat.eq_or_lt_of_le (not_lt.1 hlt) with he | hj
      · rw [← he]; exact h.nonneg
      · rw [h.zero K hj hd]
    refine ⟨⟨le_rfl, hd, fun j h1 h2 => ?_, ?_, fun j hj => h.top j (le_trans (not_lt.1 hlt) hj), fun j h1 h2 => ?_, fun j h1 h2 => ?_, fun j h1 h2 => ?_⟩, ?_⟩
    · rw [ex j h1]; exact h.zero j (lt_of_le_of_lt (not_lt.1 hlt) h1) h2
    · show 0 ≤ s'.x K
      omega
    · exact absurd (lt_of_le_of_lt h1 h2) (lt_irrefl _)
    · exact absurd (lt_of_le_of_lt h1 h2) (lt_irrefl _)
    · exact absurd (lt_of_le_of_lt h1 h2) (lt_irrefl _)
    · refine advance_rem rfl hd ex (fun j y hj => ?_) (fun y => ?_) ⟨?_, ?_⟩ (later_self s)
      · unfold Later
        rw [ex j hj, if_neg (show ¬ j < s'.kmax from not_lt.2 hj.le), if_neg (by omega)]
      · unfold Later
        rw [if_neg hlt, if_neg (show ¬ K < s'.kmax from lt_irrefl _), ex0]
        omega
      · unfold Later
        rw [if_neg (show ¬ K < s'.kmax from lt_irrefl _), ex0]
        omega
      · omega

/-! ## One call -/

/-- what an emitted subtree is: a prefix of the state -/
structure Emit (p : Params) (R : ℚ) (l : List ℤ) : Prop where
  pos : 1 ≤ l.length
  le : l.length ≤ p.d
  norm : ∀ v : ℕ → ℤ, (∀ i (h : i < l.length), v (p.d - l.length + i) = l[i]) → pnorm p (p.d - l.length) v ≤ R ∧ (p.d - l.length ≤ p.kmin ∨ p.vol (R - pnorm p (p.d - l.length) v) (p.d - l.length - 1) < p.maxVolume)

/-- `v` is in the subtree `l` -/
def Covers (d : ℕ) (l : List ℤ) (v : ℕ → ℤ) : Prop := ∀ i (h : i < l.length), v (d - l.length + i) = l[i]

theorem covers_subTree {s : St} (hk : s.k ≤ p.d) {v : ℕ → ℤ} : Covers p.d (subTree p s) v ↔ ∀ l, s.k ≤ l → l < p.d → v l = s.x l := by
  have hlen : (subTree p s).length = p.d - s.k := by simp [subTree]
  constructor
  · intro h l h1 h2
    have := h (l - s.k) (by omega)
    have e : p.d - (subTree p s).length + (l - s.k) = l := by omega
    rw [e] at this
    rw [this]
    simp only [subTree, List.getElem_map, List.getElem_range]
    rw [show l - s.k + s.k = l by omega]
  · intro h i hi
    have hi' := hi
    rw [hlen] at hi'
    have e : p.d - (subTree p s).length + i = i + s.k := by omega
    rw [e, h _ (by omega) (by omega)]
    simp only [subTree, List.getElem_map, List.getElem_range]

theorem loop_spec (hr : ∀ i < p.d, 0 < p.r i) (hrnd : ∀ c, |(p.rnd c : ℚ) - c| ≤ 1 / 2) {R : ℚ} (fuel : ℕ) : ∀ {s s' : St} {o : Option (List ℤ)}, Inv p s → loop p R fuel s = some (s', o) →
    s'.init = s.init ∧ match o with
    | none => p.d ≤ s'.k ∧ ∀ v, pnorm p 0 v ≤ R → ¬ Rem p.d s 0 v
    | some l => (Inv p s') ∧ Emit p R l ∧ (∀ v, Rem p.d s' 0 v → Rem p.d s 0 v) ∧ (∀ v, Covers p.d l v → Rem p.d s 0 v ∧ ¬ Rem p.d s' 0 v) ∧ ∀ v, pnorm p 0 v ≤ R → Rem p.d s 0 v → Covers p.d l v ∨ Rem p.d s' 0 v := by
  induction fuel with
  | zero => intro s s' o _ h; exact absurd h (by simp [loop])
  | succ n ih =>
    intro s s' o hi h
    have hk : s.k < p.d := lt_of_le_of_lt hi.kmax hi.lt
    unfold loop at h
    dsimp only at h
    by_cases hnd : newdist p s ≤ R
    · rw [if_pos hnd] at h
      by_cases hdn : p.kmin < s.k ∧ p.maxVolume ≤ p.vol (R - newdist p s) (s.k - 1)
      · rw [if_pos hdn] at h
        obtain ⟨d1, d2, d3, -⟩ := down_spec hi hrnd (by omega)
        obtain ⟨g0, g⟩ := ih d1 h
        refine ⟨g0, ?_⟩
        cases o with
        | none => exact ⟨g.1, fun v hv hv' => g.2 v hv (d3 v hv')⟩
        | some l =>
          obtain ⟨g1, g2, g3, g4, g5⟩ := g
          exact ⟨g1, g2, fun v hv => d2 0 v (g3 v hv), fun v hv => ⟨d2 0 v (g4 v hv).1, (g4 v hv).2⟩, fun v hv hv' => g5 v hv (d3 v hv')⟩
      · rw [if_neg hdn] at h
        obtain ⟨rfl, rfl⟩ : advance s = s' ∧ some (subTree p s) = o := by simpa using h
        obtain ⟨a1, a2, a3, a4⟩ := advance_spec (K := s.k) hi le_rfl (by have := hi.kmax; omega) hk
        have es : ({ s with k := s.k } : St) = s := rfl
        rw [es] at a1 a2 a3 a4
        have hlen : (subTree p s).length = p.d - s.k := by simp [subTree]
        have hdk : p.d - (p.d - s.k) = s.k := by omega
        refine ⟨by unfold advance; split_ifs <;> rfl, a1, ⟨by omega, by omega, fun v hv => ?_⟩, fun v hv => ?_, fun v hv => ?_, fun v hv hv' => ?_⟩
        · have hv' := (covers_subTree hk.le).1 hv
          rw [hlen, hdk, pnorm_congr hv', ← hi.newdist]
          refine ⟨hnd, ?_⟩
          rw [not_and_or, not_lt, not_le] at hdn
          exact hdn
        · obtain ⟨i, h1, h2, h3, h4, h5⟩ := a3 0 v hv
          exact .inl ⟨i, h1, h2, h3, h4, h5⟩
        · have hv' := (covers_subTree hk.le).1 hv
          exact ⟨.inr ⟨Nat.zero_le _, hk, hv'⟩, a4 v hv' 0⟩
        · rcases hv' with ⟨i, h1, h2, h3, h4, h5⟩ | ⟨-, -, h3⟩
          · exact .inr ((a2 0 v (Nat.zero_le _)).2 ⟨i, h1, h2, h3, h4, h5⟩)
          · exact .inl ((covers_subTree hk.le).2 h3)
    · rw [if_neg hnd] at h
      have hfar : ∀ v, pnorm p 0 v ≤ R → Rem p.d s 0 v → ∃ i, s.k + 1 ≤ i ∧ 0 ≤ i ∧ i < p.d ∧ (∀ l, i < l → l < p.d → v l = s.x l) ∧ Later s i (v i) := by
        intro v hv hv'
        rw [hi.newdist, not_le] at hnd
        have hkv : pnorm p s.k v ≤ R := (pnorm_mono hr (Nat.zero_le _)).trans hv
        rcases hv' with ⟨i, h1, h2, h3, h4, h5⟩ | ⟨-, -, h3⟩
        · rcases Nat.eq_or_lt_of_le h1 with rfl | hlt
          · exact absurd (hi.later_dist hr h4 h5) (not_le.2 (lt_of_le_of_lt hkv hnd))
          · exact ⟨i, hlt, h2, h3, h4, h5⟩
        · rw [pnorm_congr h3] at hkv
          exact absurd hkv (not_le.2 hnd)
      by_cases hup : s.k + 1 < s.kmax ∨ s.k + 1 < p.d
      · rw [if_pos hup] at h
        have hk1 : s.k + 1 < p.d := by have := hi.lt; omega
        obtain ⟨a1, a2, a3, -⟩ := advance_spec (K := s.k + 1) hi (Nat.le_succ _) (by have := hi.kmax; omega) hk1
        obtain ⟨g0, g⟩ := ih a1 h
        refine ⟨g0.trans (by unfold advance; split_ifs <;> rfl), ?_⟩
        have hb : ∀ v, Rem p.d (advance { s with k := s.k + 1 }) 0 v → Rem p.d s 0 v := fun v hv => by
          obtain ⟨i, h1, h2, h3, h4, h5⟩ := a3 0 v hv
          exact .inl ⟨i, by omega, h2, h3, h4, h5⟩
        cases o with
        | none => exact ⟨g.1, fun v hv hv' => g.2 v hv ((a2 0 v (Nat.zero_le _)).2 (hfar v hv hv'))⟩
        | some l =>
          obtain ⟨g1, g2, g3, g4, g5⟩ := g
          exact ⟨g1, g2, fun v hv => hb v (g3 v hv), fun v hv => ⟨hb v (g4 v hv).1, (g4 v hv).2⟩, fun v hv hv' => g5 v hv ((a2 0 v (Nat.zero_le _)).2 (hfar v hv hv'))⟩
      · rw [if_neg hup] at h
        obtain ⟨rfl, rfl⟩ : ({ s with k := s.k + 1 } : St) = s' ∧ none = o := by simpa using h
        refine ⟨rfl, ?_, fun v hv hv' => ?_⟩
        · show p.d ≤ s.k + 1
          omega
        · obtain ⟨i, h1, h2, h3, -, -⟩ := hfar v hv hv'
          omega

end TopEnum
end Fplll

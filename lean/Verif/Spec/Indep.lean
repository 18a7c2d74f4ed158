import Mathlib.Algebra.Order.Floor.Ring
import Verif.Spec.Proj

/-!
# Specification: independence, shortest and closest vectors
-/

open Finset

namespace Fplll.Spec

/-- The first `d` rows are linearly independent (as vectors of `n` coordinates). -/
def Indep (d n : ℕ) (B : ℕ → ℕ → ℚ) : Prop :=
  ∀ a : ℕ → ℚ, (∀ c < n, lc d a B c = 0) → ∀ i < d, a i = 0

/-- `∑_{i<d} x_i b_i`, an integer vector -/
def comb (d : ℕ) (b : ℕ → ℕ → ℤ) (x : ℕ → ℤ) : ℕ → ℤ := fun c => ∑ i ∈ range d, x i * b i c

/-- squared Euclidean length -/
def sqLen (n : ℕ) (v : ℕ → ℤ) : ℤ := ∑ c ∈ range n, v c ^ 2

/-- `x` is the coordinate vector of a shortest non-zero vector of the lattice with basis `b_0, …, b_{d-1}` -/
def IsShortest (d n : ℕ) (b : ℕ → ℕ → ℤ) (x : ℕ → ℤ) : Prop :=
  (∃ c < n, comb d b x c ≠ 0) ∧
  ∀ y : ℕ → ℤ, (∃ c < n, comb d b y c ≠ 0) → sqLen n (comb d b x) ≤ sqLen n (comb d b y)

/-- `x` is the coordinate vector of a lattice vector closest to `t` -/
def IsClosest (d n : ℕ) (b : ℕ → ℕ → ℤ) (t x : ℕ → ℤ) : Prop :=
  ∀ y : ℕ → ℤ, sqLen n (fun c => t c - comb d b x c) ≤ sqLen n (fun c => t c - comb d b y c)

/-- `w` is the vector `∑ x_i b_i^∨` of the dual lattice: in the span, with inner products `x_i` with the basis -/
def DualVec (d n : ℕ) (B : ℕ → ℕ → ℚ) (x : ℕ → ℤ) (w : ℕ → ℚ) : Prop :=
  (∃ a : ℕ → ℚ, w = lc d a B) ∧ ∀ i < d, dotQ n w (B i) = x i

/-- `x` are the coordinates (in the dual basis) of a shortest non-zero vector of the dual lattice -/
def IsShortestDual (d n : ℕ) (B : ℕ → ℕ → ℚ) (x : ℕ → ℤ) : Prop :=
  (∃ i < d, x i ≠ 0) ∧ ∀ y : ℕ → ℤ, (∃ i < d, y i ≠ 0) → ∀ w w', DualVec d n B x w → DualVec d n B y w' →
    dotQ n w w ≤ dotQ n w' w'

theorem sqLen_cast (n : ℕ) (v : ℕ → ℤ) : ((sqLen n v : ℤ) : ℚ) = dotQ n (fun c => v c) (fun c => v c) := by
  unfold sqLen dotQ
  push_cast
  exact Finset.sum_congr rfl (fun c _ => by ring)

theorem comb_cast (d : ℕ) (b : ℕ → ℕ → ℤ) (x : ℕ → ℤ) :
    (fun c => ((comb d b x c : ℤ) : ℚ)) = lc d (fun i => x i) (fun i c => (b i c : ℚ)) := by
  funext c
  unfold comb lc
  push_cast
  rfl

/-- leading rows only -/
theorem lc_trunc {d D : ℕ} (h : d ≤ D) (a : ℕ → ℚ) (B : ℕ → ℕ → ℚ) (hz : ∀ i, d ≤ i → i < D → a i = 0) :
    lc D a B = lc d a B := by
  funext c
  unfold lc
  symm
  apply Finset.sum_subset
  · intro k; simp only [mem_range]; omega
  · intro k h1 h2
    simp only [mem_range] at h1 h2
    rw [hz k (by omega) h1, zero_mul]

theorem lc_congr {d : ℕ} {a a' : ℕ → ℚ} (B : ℕ → ℕ → ℚ) (h : ∀ i < d, a i = a' i) : lc d a B = lc d a' B := by
  funext c
  unfold lc
  exact Finset.sum_congr rfl (fun i hi => by rw [h i (mem_range.1 hi)])

theorem lc_ext {d D : ℕ} (h : d ≤ D) (a : ℕ → ℚ) (B : ℕ → ℕ → ℚ) :
    lc D (fun k => if k < d then a k else 0) B = lc d a B := by
  rw [lc_trunc h _ B (fun i h1 _ => if_neg (by omega))]
  exact lc_congr B (fun i hi => if_pos hi)

/-- a Gram–Schmidt vector is `b_i` plus a combination of the earlier rows -/
theorem bstar_lc (n : ℕ) (B : ℕ → ℕ → ℚ) (i : ℕ) : ∃ g : ℕ → ℚ, g i = 1 ∧ ∀ c, bstar n B i c = lc (i + 1) g B c := by
  induction i using Nat.strong_induction_on with
  | _ i ih =>
    have hj : ∀ j : ℕ, ∃ g : ℕ → ℚ, j < i → (∀ c, bstar n B j c = lc i g B c) := by
      intro j
      by_cases h : j < i
      · obtain ⟨g, -, hg⟩ := ih j h
        exact ⟨fun k => if k < j + 1 then g k else 0, fun _ c => by rw [hg c, lc_ext (by omega)]⟩
      · exact ⟨fun _ => 0, fun h' => absurd h' h⟩
    choose g hg using hj
    refine ⟨fun k => if k = i then 1 else - ∑ j ∈ range i, muS n B i j * g j k, by simp, fun c => ?_⟩
    rw [bstar_eq]
    unfold lc
    rw [Finset.sum_range_succ]
    simp only [if_true, one_mul]
    have h1 : ∑ j ∈ range i, muS n B i j * bstar n B j c = ∑ k ∈ range i, (∑ j ∈ range i, muS n B i j * g j k) * B k c := by
      rw [Finset.sum_congr rfl (fun j hj => by rw [hg j (mem_range.1 hj) c])]
      unfold lc
      simp only [Finset.mul_sum, Finset.sum_mul]
      rw [Finset.sum_comm]
      exact Finset.sum_congr rfl (fun k _ => Finset.sum_congr rfl (fun j _ => by ring))
    rw [h1]
    have h2 : ∑ k ∈ range i, (if k = i then 1 else -∑ j ∈ range i, muS n B i j * g j k) * B k c =
        - ∑ k ∈ range i, (∑ j ∈ range i, muS n B i j * g j k) * B k c := by
      rw [← Finset.sum_neg_distrib]
      apply Finset.sum_congr rfl
      intro k hk
      rw [mem_range] at hk
      rw [if_neg (by omega)]; ring
    rw [h2]; ring

/-- independent rows have non-zero Gram–Schmidt vectors … -/
theorem Indep.pos {d n : ℕ} {B : ℕ → ℕ → ℚ} (h : Indep d n B) (i : ℕ) (hi : i < d) : 0 < normStar n B i := by
  rcases (normStar_nonneg n B i).lt_or_eq with h0 | h0
  · exact h0
  exfalso
  obtain ⟨g, hg1, hg⟩ := bstar_lc n B i
  have hz := dotQ_self_eq_zero (n := n) (v := bstar n B i) h0.symm
  have := h (fun k => if k < i + 1 then g k else 0) (fun c hc => by
    rw [lc_ext (by omega), ← hg c, hz c hc]) i hi
  simp only [Nat.lt_succ_self, if_true] at this
  rw [hg1] at this
  exact one_ne_zero this

/-- … and conversely -/
theorem indep_of_pos {d n : ℕ} {B : ℕ → ℕ → ℚ} (hp : ∀ i < d, 0 < normStar n B i) : Indep d n B := by
  intro a ha
  have hz : ∀ w : ℕ → ℚ, dotQ n (lc d a B) w = 0 := by
    intro w
    unfold dotQ
    exact Finset.sum_eq_zero (fun c hc => by rw [ha c (mem_range.1 hc), zero_mul])
  have key : ∀ m i, d - i = m → i < d → a i = 0 := by
    intro m
    induction m using Nat.strong_induction_on with
    | _ m ih =>
      intro i hm hi
      have h1 := dotQ_lc_bstar n B d a i hi
      rw [hz] at h1
      have h2 : ∑ j ∈ Ico (i + 1) d, a j * muS n B j i = 0 := by
        apply Finset.sum_eq_zero
        intro j hj
        rw [mem_Ico] at hj
        rw [ih (d - j) (by omega) j rfl hj.2, zero_mul]
      rw [h2, add_zero] at h1
      rcases mul_eq_zero.1 h1.symm with h | h
      · exact h
      · exact absurd h (hp i hi).ne'
  exact fun i hi => key _ i rfl hi

/-- a combination is at least as long as its last Gram–Schmidt component -/
theorem lc_ge_top {d n : ℕ} {B : ℕ → ℕ → ℚ} (hp : ∀ i < d, 0 < normStar n B i) (a : ℕ → ℚ) (t : ℕ) (ht : t < d)
    (htop : ∀ i, t < i → i < d → a i = 0) : a t ^ 2 * normStar n B t ≤ dotQ n (lc d a B) (lc d a B) := by
  rw [← spanSq_full n B d a hp]
  unfold spanSq
  have h1 : a t ^ 2 * normStar n B t = dotQ n (lc d a B) (bstar n B t) ^ 2 / normStar n B t := by
    rw [dotQ_lc_bstar n B d a t ht]
    have h2 : ∑ j ∈ Ico (t + 1) d, a j * muS n B j t = 0 := by
      apply Finset.sum_eq_zero
      intro j hj
      rw [mem_Ico] at hj
      rw [htop j (by omega) hj.2, zero_mul]
    rw [h2, add_zero]
    have := (hp t ht).ne'
    field_simp
  rw [h1]
  exact Finset.single_le_sum (f := fun i => dotQ n (lc d a B) (bstar n B i) ^ 2 / normStar n B i)
    (fun i _ => div_nonneg (sq_nonneg _) (normStar_nonneg n B i)) (by simp [ht])

theorem comb_ne_zero_iff {d n : ℕ} {b : ℕ → ℕ → ℤ} (h : Indep d n (fun i c => (b i c : ℚ))) (x : ℕ → ℤ) :
    (∃ c < n, comb d b x c ≠ 0) ↔ ∃ i < d, x i ≠ 0 := by
  constructor
  · rintro ⟨c, hc, h1⟩
    by_contra hn
    push Not at hn
    apply h1
    unfold comb
    exact Finset.sum_eq_zero (fun i hi => by rw [hn i (mem_range.1 hi), zero_mul])
  · rintro ⟨i, hi, h1⟩
    by_contra hn
    push Not at hn
    apply h1
    have := h (fun i => x i) (fun c hc => by
      have := congrFun (comb_cast d b x) c
      rw [← this, hn c hc]; simp) i hi
    exact_mod_cast this

/-- the span contains a vector with given inner products with the basis -/
theorem exists_lc_dot {d n : ℕ} {B : ℕ → ℕ → ℚ} (hp : ∀ i < d, 0 < normStar n B i) (x : ℕ → ℚ) :
    ∃ w, (∃ a : ℕ → ℚ, w = lc d a B) ∧ ∀ i < d, dotQ n w (B i) = x i := by
  have key : ∀ m ≤ d, ∃ w, (∃ a : ℕ → ℚ, w = lc m a B) ∧ ∀ i < m, dotQ n w (B i) = x i := by
    intro m
    induction m with
    | zero => exact fun _ => ⟨_, ⟨fun _ => 0, rfl⟩, fun i hi => absurd hi (by omega)⟩
    | succ m ih =>
      intro hm
      obtain ⟨w, ⟨a, ha⟩, hw⟩ := ih (by omega)
      obtain ⟨g, hg1, hg⟩ := bstar_lc n B m
      have h0 := (hp m (by omega)).ne'
      let s : ℚ := (x m - dotQ n w (B m)) / normStar n B m
      refine ⟨fun c => w c + s * bstar n B m c, ⟨fun k => (if k < m then a k else 0) + s * g k, ?_⟩, ?_⟩
      · funext c
        rw [hg c, ha, ← lc_ext (Nat.le_succ m) a B]
        unfold lc
        rw [Finset.mul_sum, ← Finset.sum_add_distrib]
        exact Finset.sum_congr rfl (fun k _ => by ring)
      · intro i hi
        have h1 : dotQ n (fun c => w c + s * bstar n B m c) (B i) = dotQ n w (B i) + s * rS n B i m := by
          unfold dotQ rS dotQ
          rw [Finset.mul_sum, ← Finset.sum_add_distrib]
          exact Finset.sum_congr rfl (fun k _ => by ring)
        rw [h1]
        rcases Nat.lt_or_ge i m with h | h
        · rw [rS_lt n B h, hw i h]; ring
        · have : i = m := by omega
          subst this
          rw [rS_self]
          simp only [s]
          field_simp
          ring
  exact key d le_rfl

/-- the dual lattice vector with given coordinates exists -/
theorem exists_dualVec {d n : ℕ} {B : ℕ → ℕ → ℚ} (hp : ∀ i < d, 0 < normStar n B i) (x : ℕ → ℤ) :
    ∃ w, DualVec d n B x w := exists_lc_dot hp (fun i => (x i : ℚ))

theorem dotQ_bstar_eq {d n : ℕ} {B : ℕ → ℕ → ℚ} {v w : ℕ → ℚ} (h : ∀ i < d, dotQ n v (B i) = dotQ n w (B i)) :
    ∀ i < d, dotQ n v (bstar n B i) = dotQ n w (bstar n B i) := by
  intro i hi
  induction i using Nat.strong_induction_on with
  | _ i ih =>
    rw [dotQ_bstar, dotQ_bstar, h i hi]
    congr 1
    exact Finset.sum_congr rfl (fun k hk => by rw [mem_range] at hk; rw [ih k hk (by omega)])

/-- Pythagoras: the part of `lc a - T` outside the span does not depend on `a` -/
theorem dist_split {d n : ℕ} {B : ℕ → ℕ → ℚ} (hp : ∀ i < d, 0 < normStar n B i) (T : ℕ → ℚ) :
    ∃ e : ℚ, ∀ a : ℕ → ℚ, dotQ n (fun c => lc d a B c - T c) (fun c => lc d a B c - T c) =
      spanSq n B 0 d (fun c => lc d a B c - T c) + e := by
  obtain ⟨P, ⟨g, hg⟩, hP⟩ := exists_lc_dot hp (fun i => dotQ n T (B i))
  have hPT := dotQ_bstar_eq hP
  refine ⟨dotQ n (fun c => T c - P c) (fun c => T c - P c), fun a => ?_⟩
  have hd : ∀ c, lc d (fun i => a i - g i) B c = lc d a B c - P c := by
    intro c; rw [hg]; unfold lc; rw [← Finset.sum_sub_distrib]; exact Finset.sum_congr rfl (fun i _ => by ring)
  have h1 : spanSq n B 0 d (fun c => lc d a B c - T c) = spanSq n B 0 d (lc d (fun i => a i - g i) B) := by
    unfold spanSq
    refine Finset.sum_congr rfl (fun i hi => ?_)
    rw [mem_Ico] at hi
    congr 2
    rw [show lc d (fun i => a i - g i) B = fun c => lc d a B c - P c from funext hd]
    rw [dotQ_comm, dotQ_sub_right, dotQ_comm n (fun c => lc d a B c - P c), dotQ_sub_right, dotQ_comm n _ P, hPT i hi.2,
      dotQ_comm n T]
  have h2 : dotQ n (lc d (fun i => a i - g i) B) (fun c => T c - P c) = 0 := by
    rw [dotQ_lc]
    apply Finset.sum_eq_zero
    intro i hi
    rw [mem_range] at hi
    rw [dotQ_sub_right, dotQ_comm n _ T, dotQ_comm n _ P, hP i hi]
    ring
  rw [h1, spanSq_full n B d _ hp]
  have h3 : dotQ n (fun c => lc d a B c - T c) (fun c => lc d a B c - T c) =
      dotQ n (lc d (fun i => a i - g i) B) (lc d (fun i => a i - g i) B) -
        2 * dotQ n (lc d (fun i => a i - g i) B) (fun c => T c - P c) +
        dotQ n (fun c => T c - P c) (fun c => T c - P c) := by
    unfold dotQ
    rw [Finset.mul_sum, ← Finset.sum_sub_distrib, ← Finset.sum_add_distrib]
    refine Finset.sum_congr rfl (fun c _ => ?_)
    rw [hd c]; ring
  rw [h3, h2]; ring

end Fplll.Spec

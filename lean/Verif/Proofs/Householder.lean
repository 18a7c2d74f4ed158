import Mathlib.Analysis.Real.Sqrt
import Verif.Proofs.LLLExact

/-!
# Householder reflections over the reals

`hmap n j v σ` is the map the code applies to a row for column `j`: subtract `⟨v, r⟩ v` on the coordinates `[j, n)`,
then multiply coordinate `j` by `σ`.  `hmaps k` applies the maps of the columns `0, …, k - 1`.
-/

open Finset

namespace Fplll.Spec

/-- the map for column `j` -/
noncomputable def hmap (n j : ℕ) (v : ℕ → ℝ) (σ : ℝ) (r : ℕ → ℝ) : ℕ → ℝ := fun c =>
  if j ≤ c ∧ c < n then
    (if c = j then σ else 1) * (r c + v c * (-∑ x ∈ Ico j n, v x * r x))
  else r c

/-- the maps of the first `k` columns, in order -/
noncomputable def hmaps (n : ℕ) (V : ℕ → ℕ → ℝ) (σ : ℕ → ℝ) : ℕ → (ℕ → ℝ) → ℕ → ℝ
  | 0, r => r
  | k + 1, r => hmap n k (V k) (σ k) (hmaps n V σ k r)

/-- the map for column `j` is orthogonal: a sign and either a reflection or nothing -/
structure IsRefl (n j : ℕ) (v : ℕ → ℝ) (σ : ℝ) : Prop where
  sign : σ = 1 ∨ σ = -1
  unit : (∑ x ∈ Ico j n, v x * v x = 2) ∨ ∀ x, j ≤ x → x < n → v x = 0

theorem hmap_lin (n j : ℕ) (v : ℕ → ℝ) (σ : ℝ) (a x : ℝ) (r s : ℕ → ℝ) :
    hmap n j v σ (fun c => a * r c + x * s c) = fun c => a * hmap n j v σ r c + x * hmap n j v σ s c := by
  have e : ∑ t ∈ Ico j n, v t * (a * r t + x * s t) = a * ∑ t ∈ Ico j n, v t * r t + x * ∑ t ∈ Ico j n, v t * s t := by
    rw [mul_sum, mul_sum, ← sum_add_distrib]
    exact sum_congr rfl fun t _ => by ring
  funext c
  unfold hmap
  rw [e]
  split_ifs <;> ring

theorem hmaps_lin (n : ℕ) (V : ℕ → ℕ → ℝ) (σ : ℕ → ℝ) (k : ℕ) (a x : ℝ) (r s : ℕ → ℝ) :
    hmaps n V σ k (fun c => a * r c + x * s c) = fun c => a * hmaps n V σ k r c + x * hmaps n V σ k s c := by
  induction k with
  | zero => rfl
  | succ k ih => unfold hmaps; rw [ih, hmap_lin]

theorem hmaps_add (n : ℕ) (V : ℕ → ℕ → ℝ) (σ : ℕ → ℝ) (k : ℕ) (x : ℝ) (r s : ℕ → ℝ) :
    hmaps n V σ k (fun c => r c + x * s c) = fun c => hmaps n V σ k r c + x * hmaps n V σ k s c := by
  have := hmaps_lin n V σ k 1 x r s
  simpa using this

theorem hmaps_smul (n : ℕ) (V : ℕ → ℕ → ℝ) (σ : ℕ → ℝ) (k : ℕ) (a : ℝ) (r : ℕ → ℝ) :
    hmaps n V σ k (fun c => a * r c) = fun c => a * hmaps n V σ k r c := by
  have := hmaps_lin n V σ k a 0 r r
  simpa using this

theorem hmap_low {n j : ℕ} {v : ℕ → ℝ} {σ : ℝ} {r : ℕ → ℝ} {c : ℕ} (h : c < j) : hmap n j v σ r c = r c := by
  unfold hmap; rw [if_neg (by omega)]

theorem hmaps_low {n : ℕ} {V : ℕ → ℕ → ℝ} {σ : ℕ → ℝ} {r : ℕ → ℝ} {c j k : ℕ} (hc : c < j) (hjk : j ≤ k) :
    hmaps n V σ k r c = hmaps n V σ j r c := by
  induction k, hjk using Nat.le_induction with
  | base => rfl
  | succ k hk ih =>
    change hmap n k (V k) (σ k) (hmaps n V σ k r) c = _
    rw [hmap_low (by omega), ih]

theorem hmap_congr {n j : ℕ} {v v' : ℕ → ℝ} {σ : ℝ} {r r' : ℕ → ℝ} (hv : ∀ c, j ≤ c → c < n → v c = v' c)
    (h : ∀ c < n, r c = r' c) : ∀ c < n, hmap n j v σ r c = hmap n j v' σ r' c := by
  intro c hc
  have e : ∑ x ∈ Ico j n, v x * r x = ∑ x ∈ Ico j n, v' x * r' x := sum_congr rfl fun x hx => by
    rw [mem_Ico] at hx; rw [h x hx.2, hv x hx.1 hx.2]
  unfold hmap
  rw [e, h c hc]
  split_ifs with h1 h2
  · rw [hv c h1.1 h1.2]
  · rw [hv c h1.1 h1.2]
  · rfl

theorem hmaps_congr {n k : ℕ} {V V' : ℕ → ℕ → ℝ} {σ σ' : ℕ → ℝ} {r r' : ℕ → ℝ} (hV : ∀ j < k, V j = V' j)
    (hσ : ∀ j < k, σ j = σ' j) (h : ∀ c < n, r c = r' c) : ∀ c < n, hmaps n V σ k r c = hmaps n V' σ' k r' c := by
  induction k with
  | zero => exact h
  | succ k ih =>
    intro c hc
    unfold hmaps
    rw [hV k (by omega), hσ k (by omega)]
    exact hmap_congr (fun _ _ _ => rfl) (ih (fun j hj => hV j (by omega)) (fun j hj => hσ j (by omega))) c hc

theorem hmap_fix {n j : ℕ} {v : ℕ → ℝ} {σ : ℝ} {r : ℕ → ℝ} (h : ∀ c, j ≤ c → c < n → r c = 0) :
    hmap n j v σ r = r := by
  have e : ∑ x ∈ Ico j n, v x * r x = 0 := sum_eq_zero fun x hx => by
    rw [mem_Ico] at hx; rw [h x hx.1 hx.2, mul_zero]
  funext c
  unfold hmap
  rw [e]
  split_ifs with h1 h2
  · rw [h c h1.1 h1.2]; ring
  · rw [h c h1.1 h1.2]; ring
  · rfl

theorem hmaps_fix {n : ℕ} {V : ℕ → ℕ → ℝ} {σ : ℕ → ℝ} {r : ℕ → ℝ} {j k : ℕ} (hjk : j ≤ k)
    (h : ∀ c, j ≤ c → c < n → hmaps n V σ j r c = 0) : hmaps n V σ k r = hmaps n V σ j r := by
  induction k, hjk using Nat.le_induction with
  | base => rfl
  | succ k hk ih =>
    change hmap n k (V k) (σ k) (hmaps n V σ k r) = _
    rw [ih]
    exact hmap_fix fun c h1 h2 => h c (by omega) h2

theorem sum_range_split {n j : ℕ} (h : j ≤ n) (f : ℕ → ℝ) :
    ∑ c ∈ range n, f c = ∑ c ∈ range j, f c + ∑ c ∈ Ico j n, f c := by
  rw [Finset.sum_range_add_sum_Ico _ h]

theorem hmap_dot {n j : ℕ} (hj : j ≤ n) {v : ℕ → ℝ} {σ : ℝ} (h : IsRefl n j v σ) (r s : ℕ → ℝ) :
    ∑ c ∈ range n, hmap n j v σ r c * hmap n j v σ s c = ∑ c ∈ range n, r c * s c := by
  rw [sum_range_split hj, sum_range_split hj]
  have e1 : ∑ c ∈ range j, hmap n j v σ r c * hmap n j v σ s c = ∑ c ∈ range j, r c * s c :=
    sum_congr rfl fun c hc => by
      rw [mem_range] at hc; rw [hmap_low hc, hmap_low hc]
  rw [e1]
  congr 1
  set A := ∑ x ∈ Ico j n, v x * r x with hA
  set B := ∑ x ∈ Ico j n, v x * s x with hB
  have e2 : ∑ c ∈ Ico j n, hmap n j v σ r c * hmap n j v σ s c
      = ∑ c ∈ Ico j n, (r c * s c - A * (v c * s c) - B * (v c * r c) + A * B * (v c * v c)) := by
    refine sum_congr rfl fun c hc => ?_
    rw [mem_Ico] at hc
    unfold hmap
    rw [if_pos hc, if_pos hc, ← hA, ← hB]
    have hs : σ * σ = 1 := by rcases h.sign with e | e <;> rw [e] <;> ring
    split_ifs
    · linear_combination (r c + v c * -A) * (s c + v c * -B) * hs
    · ring
  rw [e2, sum_add_distrib, sum_sub_distrib, sum_sub_distrib, ← mul_sum, ← mul_sum, ← mul_sum, ← hA, ← hB]
  rcases h.unit with e | e
  · rw [e]; ring
  · have hA0 : A = 0 := sum_eq_zero fun x hx => by
      rw [mem_Ico] at hx; rw [e x hx.1 hx.2, zero_mul]
    have hB0 : B = 0 := sum_eq_zero fun x hx => by
      rw [mem_Ico] at hx; rw [e x hx.1 hx.2, zero_mul]
    rw [hA0, hB0]; ring

theorem hmaps_dot {n k : ℕ} (hk : k ≤ n) {V : ℕ → ℕ → ℝ} {σ : ℕ → ℝ} (h : ∀ j < k, IsRefl n j (V j) (σ j))
    (r s : ℕ → ℝ) : ∑ c ∈ range n, hmaps n V σ k r c * hmaps n V σ k s c = ∑ c ∈ range n, r c * s c := by
  induction k with
  | zero => rfl
  | succ k ih =>
    unfold hmaps
    rw [hmap_dot (by omega) (h k (by omega)), ih (by omega) fun j hj => h j (by omega)]

/-! ## The choice of the reflection -/

/-- the quantities of `update_R_last`: with `s = σ ‖r‖` and `f = -∑_{c>j} r_c² / (r_j + s)`, which is `r_j - s`, the
vector `(f, r_{j+1}, …) / √(-s f)` defines the reflection that maps `r` to `(‖r‖, 0, …)` -/
theorem house_spec {n j : ℕ} (hj : j < n) {r v : ℕ → ℝ} {σ rest nrm f D : ℝ} (hσ : σ = if r j < 0 then -1 else 1)
    (hrest : rest = ∑ x ∈ Ico (j + 1) n, r x * r x) (hnrm : nrm = Real.sqrt (r j * r j + rest))
    (hpos : 0 < r j * r j + rest) (hf : f = -rest / (r j + σ * nrm)) (hf0 : f ≠ 0)
    (hD : D = Real.sqrt (-(σ * nrm) * f)) (hvj : v j = f / D) (hv : ∀ c, j < c → c < n → v c = r c / D) :
    IsRefl n j v σ ∧ hmap n j v σ r j = nrm ∧ ∀ c, j < c → c < n → hmap n j v σ r c = 0 := by
  have hσ1 : σ = 1 ∨ σ = -1 := by rw [hσ]; split_ifs <;> simp
  have hσσ : σ * σ = 1 := by rcases hσ1 with e | e <;> rw [e] <;> ring
  have hrest0 : 0 ≤ rest := by rw [hrest]; exact sum_nonneg fun x _ => mul_self_nonneg _
  have hn2 : nrm * nrm = r j * r j + rest := by rw [hnrm]; exact Real.mul_self_sqrt hpos.le
  have hn0 : 0 < nrm := by rw [hnrm]; exact Real.sqrt_pos.2 hpos
  have hsr : 0 ≤ σ * r j := by rw [hσ]; split_ifs with h <;> linarith
  have hden : 0 < σ * (r j + σ * nrm) := by
    have : σ * (r j + σ * nrm) = σ * r j + nrm := by linear_combination nrm * hσσ
    rw [this]; linarith
  have hden0 : r j + σ * nrm ≠ 0 := fun e => by rw [e] at hden; simp at hden
  have hf' : f = r j - σ * nrm := by
    rw [hf, div_eq_iff hden0]; linear_combination hn2 + (nrm * nrm) * hσσ
  have hrestpos : 0 < rest := by
    rcases hrest0.lt_or_eq with h | h
    · exact h
    · exact absurd (by rw [hf, ← h]; simp) hf0
  have hE : -(σ * nrm) * f = nrm * nrm - σ * nrm * r j := by rw [hf']; linear_combination (nrm * nrm) * hσσ
  have hEpos : 0 < -(σ * nrm) * f := by
    have h1 : -(σ * nrm) * f * (σ * (r j + σ * nrm)) = nrm * rest := by
      rw [hf']
      linear_combination (nrm * (nrm * nrm - r j * r j)) * hσσ + σ * σ * nrm ^ 3 * hσσ + nrm * hn2
    have h2 : 0 < nrm * rest := mul_pos hn0 hrestpos
    rw [← h1] at h2
    exact (pos_iff_pos_of_mul_pos h2).2 hden
  have hDD : D * D = nrm * nrm - σ * nrm * r j := by rw [hD, Real.mul_self_sqrt hEpos.le, hE]
  have hD0 : D ≠ 0 := by rw [hD]; exact (Real.sqrt_pos.2 hEpos).ne'
  have hDD0 : D * D ≠ 0 := mul_ne_zero hD0 hD0
  -- Σ v v = 2
  have hvv : ∑ x ∈ Ico j n, v x * v x = 2 := by
    rw [Finset.sum_eq_sum_Ico_succ_bot hj]
    have : ∑ x ∈ Ico (j + 1) n, v x * v x = rest / (D * D) := by
      rw [hrest, sum_div]
      refine sum_congr rfl fun x hx => ?_
      rw [mem_Ico] at hx
      rw [hv x (by omega) hx.2]; field_simp
    rw [this, hvj, div_mul_div_comm, ← add_div, div_eq_iff hDD0, hDD, hf']
    linear_combination (nrm * nrm) * hσσ - hn2
  have hvr : ∑ x ∈ Ico j n, v x * r x = D := by
    rw [Finset.sum_eq_sum_Ico_succ_bot hj]
    have : ∑ x ∈ Ico (j + 1) n, v x * r x = rest / D := by
      rw [hrest, sum_div]
      refine sum_congr rfl fun x hx => ?_
      rw [mem_Ico] at hx
      rw [hv x (by omega) hx.2]; ring
    rw [this, hvj, div_mul_eq_mul_div, ← add_div, div_eq_iff hD0, hDD, hf']
    linear_combination -hn2
  refine ⟨⟨hσ1, .inl hvv⟩, ?_, ?_⟩
  · unfold hmap
    rw [if_pos ⟨le_rfl, hj⟩, if_pos rfl, hvr, hvj]
    have : r j + f / D * -D = σ * nrm := by
      rw [mul_neg, div_mul_cancel₀ _ hD0, hf']; ring
    rw [this]; linear_combination nrm * hσσ
  · intro c h1 h2
    unfold hmap
    rw [if_pos ⟨h1.le, h2⟩, if_neg (by omega), hvr, hv c h1 h2]
    field_simp; ring

/-- when the coordinates after `j` vanish no reflection is needed, only the sign -/
theorem house_spec_zero {n j : ℕ} (hj : j < n) {r v : ℕ → ℝ} {σ : ℝ} (hσ : σ = if r j < 0 then -1 else 1)
    (hrest : ∀ c, j < c → c < n → r c = 0) (hv : ∀ c, j ≤ c → c < n → v c = 0) :
    IsRefl n j v σ ∧ hmap n j v σ r j = |r j| ∧ ∀ c, j < c → c < n → hmap n j v σ r c = 0 := by
  have hσ1 : σ = 1 ∨ σ = -1 := by rw [hσ]; split_ifs <;> simp
  have e : ∑ x ∈ Ico j n, v x * r x = 0 := sum_eq_zero fun x hx => by
    rw [mem_Ico] at hx; rw [hv x hx.1 hx.2, zero_mul]
  refine ⟨⟨hσ1, .inr hv⟩, ?_, ?_⟩
  · unfold hmap
    rw [if_pos ⟨le_rfl, hj⟩, if_pos rfl, e, hσ]
    split_ifs with h
    · rw [abs_of_neg h]; ring
    · rw [abs_of_nonneg (not_lt.1 h)]; ring
  · intro c h1 h2
    unfold hmap
    rw [if_pos ⟨h1.le, h2⟩, e, hrest c h1 h2]; ring

/-! ## Triangular rows and Gram–Schmidt -/

/-- rows `w` with the scalar products of the rows `B`, the first `m` of them triangular with positive diagonal -/
structure Tri (n m : ℕ) (B : ℕ → ℕ → ℚ) (w : ℕ → ℕ → ℝ) : Prop where
  le : m ≤ n
  dot : ∀ i j, ∑ c ∈ range n, w i c * w j c = (dotQ n (B i) (B j) : ℝ)
  tri : ∀ j < m, ∀ c, j < c → c < n → w j c = 0
  pos : ∀ j < m, 0 < w j j

namespace Tri

variable {n m : ℕ} {B : ℕ → ℕ → ℚ} {w : ℕ → ℕ → ℝ}

theorem rS_cast (h : Tri n m B w) : ∀ j < m, ∀ i, ((rS n B i j : ℚ) : ℝ) = w i j * w j j := by
  intro j
  induction j using Nat.strong_induction_on with
  | _ j ih =>
    intro hj i
    have hmu : ∀ k < j, ((muS n B j k : ℚ) : ℝ) * w k k = w j k := by
      intro k hk
      have hp := h.pos k (by omega)
      rw [muS_eq]
      push_cast
      rw [ih k hk (by omega), ih k hk (by omega)]
      field_simp
    rw [rS_rec]
    push_cast
    rw [← h.dot i j]
    have hjn : j + 1 ≤ n := by have := h.le; omega
    have e1 : ∑ c ∈ range n, w i c * w j c = ∑ c ∈ range (j + 1), w i c * w j c := by
      symm
      refine sum_subset (fun x hx => ?_) (fun x h1 h2 => ?_)
      · rw [mem_range] at *; omega
      · rw [mem_range] at *
        rw [h.tri j hj x (by omega) h1, mul_zero]
    have e2 : ∑ k ∈ range j, ((muS n B j k : ℚ) : ℝ) * ((rS n B i k : ℚ) : ℝ) = ∑ k ∈ range j, w i k * w j k := by
      refine sum_congr rfl fun k hk => ?_
      rw [mem_range] at hk
      rw [ih k hk (by omega), ← hmu k hk]; ring
    rw [e1, e2, sum_range_succ]; ring

theorem normStar_cast (h : Tri n m B w) {j : ℕ} (hj : j < m) : ((normStar n B j : ℚ) : ℝ) = w j j ^ 2 := by
  rw [← rS_self, h.rS_cast j hj]; ring

theorem muS_cast (h : Tri n m B w) {j : ℕ} (hj : j < m) (i : ℕ) : ((muS n B i j : ℚ) : ℝ) * w j j = w i j := by
  have hp := h.pos j hj
  rw [muS_eq]
  push_cast
  rw [h.rS_cast j hj, h.rS_cast j hj]
  field_simp

theorem projSq_cast (h : Tri n m B w) {k : ℕ} (hk : k ≤ m) (i : ℕ) :
    ((projSq n B i k : ℚ) : ℝ) = ∑ c ∈ Ico k n, w i c * w i c := by
  unfold projSq
  push_cast
  rw [← h.dot i i, sum_range_split (hk.trans h.le)]
  have : ∑ j ∈ range k, ((muS n B i j : ℚ) : ℝ) * ((rS n B i j : ℚ) : ℝ) = ∑ c ∈ range k, w i c * w i c := by
    refine sum_congr rfl fun j hj => ?_
    rw [mem_range] at hj
    rw [h.rS_cast j (by omega), ← h.muS_cast (by omega : j < m) i]; ring
  rw [this]; ring

end Tri
end Fplll.Spec

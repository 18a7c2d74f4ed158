import Verif.Model.Gen
import Verif.Props.Rotations
import Verif.Spec.Indep
import Verif.Proofs.Matrix

/-!
# C37 (conversion), C38 (zero rows), C39 (generators)
-/

open Finset

namespace Fplll
namespace Gen

open Spec

/-! ## Loops that fill a matrix -/

theorem setRow_apply (i a b : ℕ) (f : ℕ → ℤ) (m : Mat ℤ) (x y : ℕ) :
    forUp a b (fun j (m : Mat ℤ) => m.set i j (f j)) m x y = if x = i ∧ a ≤ y ∧ y < b then f y else m x y := by
  by_cases hab : a ≤ b
  · revert x y
    refine forUp_inv (fun k (m' : Mat ℤ) => ∀ x y, m' x y = if x = i ∧ a ≤ y ∧ y < k then f y else m x y)
      _ hab m (fun x y => by rw [if_neg (by omega)]) ?_
    intro k s h1 h2 hs x y
    rw [Mat.set_apply]
    by_cases hk : x = i ∧ y = k
    · rw [if_pos hk, if_pos (by omega), hk.2]
    · rw [if_neg hk, hs]
      by_cases h3 : x = i ∧ a ≤ y ∧ y < k
      · rw [if_pos h3, if_pos (by omega)]
      · rw [if_neg h3, if_neg (by omega)]
  · rw [forUp_empty (by omega), if_neg (by omega)]

theorem setCol_apply (i a b : ℕ) (f : ℕ → ℤ) (m : Mat ℤ) (x y : ℕ) :
    forUp a b (fun j (m : Mat ℤ) => m.set j i (f j)) m x y = if y = i ∧ a ≤ x ∧ x < b then f x else m x y := by
  by_cases hab : a ≤ b
  · revert x y
    refine forUp_inv (fun k (m' : Mat ℤ) => ∀ x y, m' x y = if y = i ∧ a ≤ x ∧ x < k then f x else m x y)
      _ hab m (fun x y => by rw [if_neg (by omega)]) ?_
    intro k s h1 h2 hs x y
    rw [Mat.set_apply]
    by_cases hk : x = k ∧ y = i
    · rw [if_pos hk, if_pos (by omega), hk.1]
    · rw [if_neg hk, hs]
      by_cases h3 : y = i ∧ a ≤ x ∧ x < k
      · rw [if_pos h3, if_pos (by omega)]
      · rw [if_neg h3, if_neg (by omega)]
  · rw [forUp_empty (by omega), if_neg (by omega)]

theorem setDiag_apply (a b : ℕ) (v : ℤ) (m : Mat ℤ) (x y : ℕ) :
    setDiag a b v m x y = if x = y ∧ a ≤ x ∧ x < b then v else m x y := by
  unfold setDiag
  by_cases hab : a ≤ b
  · revert x y
    refine forUp_inv (fun k (m' : Mat ℤ) => ∀ x y, m' x y = if x = y ∧ a ≤ x ∧ x < k then v else m x y)
      _ hab m (fun x y => by rw [if_neg (by omega)]) ?_
    intro k s h1 h2 hs x y
    rw [Mat.set_apply]
    by_cases hk : x = k ∧ y = k
    · rw [if_pos hk, if_pos (by omega)]
    · rw [if_neg hk, hs]
      by_cases h3 : x = y ∧ a ≤ x ∧ x < k
      · rw [if_pos h3, if_pos (by omega)]
      · rw [if_neg h3, if_neg (by omega)]
  · rw [forUp_empty (by omega), if_neg (by omega)]

theorem setRect_apply (i0 i1 : ℕ) (j0 j1 : ℕ → ℕ) (f : ℕ → ℕ → ℤ) (m : Mat ℤ) (x y : ℕ) :
    setRect i0 i1 j0 j1 f m x y = if (i0 ≤ x ∧ x < i1) ∧ j0 x ≤ y ∧ y < j1 x then f x y else m x y := by
  unfold setRect
  by_cases hab : i0 ≤ i1
  · revert x y
    refine forUp_inv (fun k (m' : Mat ℤ) => ∀ x y,
        m' x y = if (i0 ≤ x ∧ x < k) ∧ j0 x ≤ y ∧ y < j1 x then f x y else m x y)
      _ hab m (fun x y => by rw [if_neg (by omega)]) ?_
    intro k s h1 h2 hs x y
    rw [setRow_apply]
    by_cases hk : x = k
    · subst hk
      by_cases h3 : j0 x ≤ y ∧ y < j1 x
      · rw [if_pos ⟨rfl, h3⟩, if_pos ⟨by omega, h3⟩]
      · rw [if_neg (by tauto), if_neg (by tauto), hs, if_neg (by omega)]
    · rw [if_neg (by tauto), hs]
      by_cases h3 : (i0 ≤ x ∧ x < k) ∧ j0 x ≤ y ∧ y < j1 x
      · rw [if_pos h3, if_pos ⟨by omega, h3.2⟩]
      · rw [if_neg h3, if_neg]
        rintro ⟨h4, h5⟩
        exact h3 ⟨by omega, h5⟩
  · rw [forUp_empty (by omega), if_neg (by omega)]

/-- a loop over rows whose body sets row `i` completely from column `lo` to `hi` -/
theorem rowsLoop {body : ℕ → Mat ℤ → Mat ℤ} {a b : ℕ} {P : ℕ → ℕ → Prop} [∀ x y, Decidable (P x y)]
    {f : ℕ → ℕ → ℤ} (hbody : ∀ i m x y, a ≤ i → i < b → body i m x y = if x = i ∧ P x y then f x y else m x y)
    (m : Mat ℤ) (x y : ℕ) :
    forUp a b body m x y = if (a ≤ x ∧ x < b) ∧ P x y then f x y else m x y := by
  by_cases hab : a ≤ b
  · revert x y
    refine forUp_inv (fun k (m' : Mat ℤ) => ∀ x y, m' x y = if (a ≤ x ∧ x < k) ∧ P x y then f x y else m x y)
      _ hab m (fun x y => by rw [if_neg (by omega)]) ?_
    intro k s h1 h2 hs x y
    rw [hbody k s x y h1 h2]
    by_cases hk : x = k
    · subst hk
      by_cases h3 : P x y
      · rw [if_pos ⟨rfl, h3⟩, if_pos ⟨by omega, h3⟩]
      · rw [if_neg (by tauto), if_neg (by tauto), hs, if_neg (by omega)]
    · rw [if_neg (by tauto), hs]
      by_cases h3 : (a ≤ x ∧ x < k) ∧ P x y
      · rw [if_pos h3, if_pos ⟨by omega, h3.2⟩]
      · rw [if_neg h3, if_neg]
        rintro ⟨h4, h5⟩
        exact h3 ⟨by omega, h5⟩
  · rw [forUp_empty (by omega), if_neg (by omega)]

theorem randb_range (x bits : ℕ) : 0 ≤ randb x bits ∧ randb x bits < 2 ^ bits := by
  unfold randb
  have := Nat.mod_lt x (show 0 < 2 ^ bits by positivity)
  constructor
  · positivity
  · exact_mod_cast this

theorem randm_range (x : ℕ) {q : ℕ} (hq : 0 < q) : 0 ≤ randm x q ∧ randm x q < q := by
  unfold randm
  have := Nat.mod_lt x hq
  constructor
  · positivity
  · exact_mod_cast this

/-- rational rows of an integer matrix -/
abbrev toQ (m : Mat ℤ) : ℕ → ℕ → ℚ := fun i j => (m i j : ℚ)

/-! ## C39 -/

/-- **C39**, `gen_intrel`: `[x | I]` with `0 ≤ x_i < 2^bits`, and the rows are independent. -/
theorem C39_intrel (r bits : ℕ) (rnd : ℕ → ℕ → ℕ) (m : Mat ℤ) :
    ∃ m', intrel r (r + 1) bits rnd m = some m' ∧
      (∀ i < r, 0 ≤ m' i 0 ∧ m' i 0 < 2 ^ bits) ∧
      (∀ i < r, ∀ j < r, m' i (j + 1) = if i = j then 1 else 0) ∧ Indep r (r + 1) (toQ m') := by
  have hb : ∀ i (m : Mat ℤ) x y, 0 ≤ i → i < r →
      (fun i (m : Mat ℤ) =>
        let m : Mat ℤ := m.set i 0 (randb (rnd i 0) bits)
        let m : Mat ℤ := forUp 1 (i + 1) (fun j (m : Mat ℤ) => m.set i j 0) m
        let m : Mat ℤ := m.set i (i + 1) 1
        forUp (i + 2) (r + 1) (fun j (m : Mat ℤ) => m.set i j 0) m) i m x y =
      if x = i ∧ y < r + 1 then (if y = 0 then randb (rnd x 0) bits else if y = x + 1 then 1 else 0) else m x y := by
    intro i m x y _ hi
    dsimp only
    rw [setRow_apply, Mat.set_apply, setRow_apply, Mat.set_apply]
    grind
  refine ⟨_, by unfold intrel; rw [if_neg (by simp)], ?_, ?_, ?_⟩
  · intro i hi
    rw [rowsLoop hb, if_pos ⟨⟨Nat.zero_le _, hi⟩, by omega⟩, if_pos rfl]
    exact randb_range _ _
  · intro i hi j hj
    rw [rowsLoop hb, if_pos ⟨⟨Nat.zero_le _, hi⟩, by omega⟩, if_neg (by omega)]
    grind
  · intro a ha i hi
    have := ha (i + 1) (by omega)
    unfold lc toQ at this
    rw [Finset.sum_eq_single i] at this
    · rw [rowsLoop hb, if_pos ⟨⟨Nat.zero_le _, hi⟩, by omega⟩, if_neg (by omega), if_pos rfl] at this
      simpa using this
    · intro k hk hki
      rw [mem_range] at hk
      rw [rowsLoop hb, if_pos ⟨⟨Nat.zero_le _, hk⟩, by omega⟩, if_neg (by omega), if_neg (by omega)]
      simp
    · intro h; simp at h; omega

/-- what `gen_simdioph` leaves in the matrix: column 0 below the first row is *not* written -/
theorem simdioph_apply (r bits bits2 : ℕ) (hr : 1 ≤ r) (rnd : ℕ → ℕ → ℕ) (m : Mat ℤ) :
    ∃ m', simdioph r r bits bits2 rnd m = some m' ∧ ∀ x < r, ∀ y < r,
      m' x y = if x = 0 then (if y = 0 then 2 ^ bits2 else randb (rnd 0 y) bits)
        else if y = 0 then m x y else if x = y then 2 ^ bits else 0 := by
  refine ⟨_, by unfold simdioph; rw [if_neg (by simp), if_neg (by omega)], ?_⟩
  intro x hx y hy
  have key : ∀ (m0 : Mat ℤ) (x y : ℕ), x < r → forUp 1 r (fun i (m : Mat ℤ) =>
      let m : Mat ℤ := forUp 1 i (fun j (m : Mat ℤ) => m.set j i 0) m
      let m : Mat ℤ := m.set i i (1 * 2 ^ bits)
      forUp (i + 1) r (fun j (m : Mat ℤ) => m.set j i 0) m) m0 x y =
      if 1 ≤ y ∧ y < r ∧ 1 ≤ x then (if x = y then 2 ^ bits else 0) else m0 x y := by
    intro m0 x y hx
    revert x y
    refine forUp_inv (fun k (m' : Mat ℤ) => ∀ x y, x < r → m' x y =
      if 1 ≤ y ∧ y < k ∧ 1 ≤ x then (if x = y then 2 ^ bits else 0) else m0 x y) _ hr m0
      (fun x y _ => by rw [if_neg (by omega)]) ?_
    intro k s h1 h2 hs x y hx
    rw [setCol_apply, Mat.set_apply, setCol_apply, hs x y hx]
    grind
  rw [key _ x y hx, setRow_apply, Mat.set_apply]
  grind

/-- **C39 fails** for `gen_simdioph`: column 0 below the first row keeps whatever the matrix contained.  On a matrix with
old content the result does not have the documented shape. -/
theorem C39_simdioph_fails : ∃ (m m' : Mat ℤ), simdioph 2 2 3 3 (fun _ _ => 5) m = some m' ∧ m' 1 0 ≠ 0 := by
  refine ⟨fun _ _ => 7, _, rfl, ?_⟩
  decide +kernel

/-- **C39**, `gen_simdioph`, for a matrix that is zero below `(0, 0)` (such as a newly allocated one) (`_partial`; missing:
other matrices, where the shape is wrong). -/
theorem C39_simdioph_partial (r bits bits2 : ℕ) (hr : 1 ≤ r) (rnd : ℕ → ℕ → ℕ) (m : Mat ℤ)
    (hz : ∀ i, 1 ≤ i → i < r → m i 0 = 0) :
    ∃ m', simdioph r r bits bits2 rnd m = some m' ∧ m' 0 0 = 2 ^ bits2 ∧
      (∀ i, 1 ≤ i → i < r → 0 ≤ m' 0 i ∧ m' 0 i < 2 ^ bits) ∧
      (∀ i, 1 ≤ i → i < r → ∀ j < r, m' i j = if i = j then 2 ^ bits else 0) ∧ Indep r r (toQ m') := by
  obtain ⟨m', e, h⟩ := simdioph_apply r bits bits2 hr rnd m
  have hrow : ∀ i, 1 ≤ i → i < r → ∀ j < r, m' i j = if i = j then 2 ^ bits else 0 := by
    intro i h1 h2 j hj
    rw [h i h2 j hj, if_neg (by omega)]
    by_cases hj0 : j = 0
    · subst hj0; rw [if_pos rfl, if_neg (by omega), hz i h1 h2]
    · rw [if_neg hj0]
  have h00 : m' 0 0 = 2 ^ bits2 := by rw [h 0 (by omega) 0 (by omega), if_pos rfl, if_pos rfl]
  refine ⟨m', e, h00, ?_, hrow, ?_⟩
  · intro i h1 h2
    rw [h 0 (by omega) i h2, if_pos rfl, if_neg (by omega)]
    exact randb_range _ _
  · intro a ha
    have ha0 : a 0 = 0 := by
      have := ha 0 (by omega)
      unfold lc toQ at this
      rw [Finset.sum_eq_single 0] at this
      · rw [h00] at this
        simpa using this
      · intro k hk hk0
        rw [mem_range] at hk
        rw [hrow k (by omega) hk 0 (by omega), if_neg hk0]
        simp
      · intro h; simp at h; omega
    intro i hi
    by_cases hi0 : i = 0
    · rw [hi0, ha0]
    have := ha i hi
    unfold lc toQ at this
    rw [Finset.sum_eq_single i] at this
    · rw [hrow i (by omega) hi i hi, if_pos rfl] at this
      simpa using this
    · intro k hk hki
      rw [mem_range] at hk
      by_cases hk0 : k = 0
      · rw [hk0, ha0, zero_mul]
      · rw [hrow k (by omega) hk i hi, if_neg hki]
        simp
    · intro h; simp at h; omega

/-- a matrix `[[I, A], [0, qI]]` (`e` rows on top) -/
def TopShape (d e : ℕ) (q : ℕ) (m : Mat ℤ) : Prop :=
  (∀ i < e, ∀ j < e, m i j = if i = j then 1 else 0) ∧
  ∀ i, e ≤ i → i < d → ∀ j < d, m i j = if i = j then (q : ℤ) else 0

theorem topShape_indep {d e q : ℕ} (he : e ≤ d) (hq : 0 < q) {m : Mat ℤ} (h : TopShape d e q m) : Indep d d (toQ m) := by
  obtain ⟨h1, h2⟩ := h
  intro a ha
  have htop : ∀ i < e, a i = 0 := by
    intro i hi
    have := ha i (by omega)
    unfold lc toQ at this
    rw [Finset.sum_eq_single i] at this
    · rw [h1 i hi i hi, if_pos rfl] at this
      simpa using this
    · intro k hk hki
      rw [mem_range] at hk
      by_cases hke : k < e
      · rw [h1 k hke i hi, if_neg hki]; simp
      · rw [h2 k (by omega) hk i (by omega), if_neg hki]; simp
    · intro h; simp at h; omega
  intro i hi
  by_cases hie : i < e
  · exact htop i hie
  have := ha i hi
  unfold lc toQ at this
  rw [Finset.sum_eq_single i] at this
  · rw [h2 i (by omega) hi i hi, if_pos rfl] at this
    have hq' : (q : ℚ) ≠ 0 := by exact_mod_cast hq.ne'
    simpa [hq.ne'] using this
  · intro k hk hki
    rw [mem_range] at hk
    by_cases hke : k < e
    · rw [htop k hke, zero_mul]
    · rw [h2 k (by omega) hk i hi, if_neg hki]; simp
  · intro h; simp at h; omega

/-- the lattice of `[[I, A], [0, qI]]`: the coordinates from `e` on are determined by the first ones modulo `q` -/
theorem topShape_lattice {d e q : ℕ} (he : e ≤ d) {m : Mat ℤ} (h : TopShape d e q m) (x : ℕ → ℤ) :
    (∃ y : ℕ → ℤ, ∀ c < d, comb d m y c = x c) ↔
      ∀ j, e ≤ j → j < d → (q : ℤ) ∣ x j - ∑ i ∈ range e, x i * m i j := by
  obtain ⟨h1, h2⟩ := h
  have hsplit : ∀ (y : ℕ → ℤ) (c : ℕ), c < d → comb d m y c =
      if c < e then y c else (∑ i ∈ range e, y i * m i c) + y c * q := by
    intro y c hc
    unfold comb
    rw [Finset.range_eq_Ico, ← Finset.sum_Ico_consecutive _ (Nat.zero_le e) he]
    by_cases hce : c < e
    · rw [if_pos hce, Finset.sum_eq_single c, Finset.sum_eq_zero (s := Ico e d), h1 c hce c hce]
      · simp
      · intro k hk
        rw [mem_Ico] at hk
        rw [h2 k hk.1 hk.2 c hc, if_neg (by omega), mul_zero]
      · intro k hk hkc
        rw [mem_Ico] at hk
        rw [h1 k hk.2 c hce, if_neg hkc, mul_zero]
      · intro h; simp at h; omega
    · rw [if_neg hce, Finset.range_eq_Ico, Finset.sum_eq_single (s := Ico e d) c, h2 c (by omega) hc c hc, if_pos rfl]
      · intro k hk hkc
        rw [mem_Ico] at hk
        rw [h2 k hk.1 hk.2 c hc, if_neg hkc, mul_zero]
      · intro h; simp at h; omega
  constructor
  · rintro ⟨y, hy⟩ j hj1 hj2
    have hyx : ∀ i < e, x i = y i := by
      intro i hi
      rw [← hy i (by omega), hsplit y i (by omega), if_pos hi]
    rw [← hy j hj2, hsplit y j hj2, if_neg (by omega)]
    refine ⟨y j, ?_⟩
    rw [Finset.sum_congr rfl (fun i hi => by rw [← hyx i (mem_range.1 hi)])]
    ring
  · intro hx
    choose! z hz using hx
    refine ⟨fun i => if i < e then x i else z i, fun c hc => ?_⟩
    rw [hsplit _ c hc]
    by_cases hce : c < e
    · rw [if_pos hce, if_pos hce]
    · rw [if_neg hce, if_neg hce]
      have := hz c (by omega) hc
      rw [Finset.sum_congr rfl (fun i hi => by rw [if_pos (mem_range.1 hi)])]
      linarith

/-- **C39**, `gen_qary(k, q)`: shape `[[I, A], [0, qI]]` with `0 ≤ A < q`, full rank, and the lattice is the set of integer
vectors whose last `k` coordinates satisfy `x_j ≡ ∑ x_i A_ij` modulo `q`. -/
theorem C39_qary (d k q : ℕ) (hk : k ≤ d) (hq : 0 < q) (rnd : ℕ → ℕ → ℕ) (m : Mat ℤ) :
    ∃ m', qary d d k q rnd m = some m' ∧ TopShape d (d - k) q m' ∧
      (∀ i < d - k, ∀ j, d - k ≤ j → j < d → 0 ≤ m' i j ∧ m' i j < q) ∧ Indep d d (toQ m') ∧
      ∀ x : ℕ → ℤ, (∃ y : ℕ → ℤ, ∀ c < d, comb d m' y c = x c) ↔
        ∀ j, d - k ≤ j → j < d → (q : ℤ) ∣ x j - ∑ i ∈ range (d - k), x i * m' i j := by
  have hval : ∀ x < d, ∀ y < d, setDiag (d - k) d q (setRect (d - k) d (fun _ => 0) (fun _ => d) (fun _ _ => 0)
      (setRect 0 (d - k) (fun _ => d - k) (fun _ => d) (fun i j => randm (rnd i j) q)
        (setDiag 0 (d - k) 1 (setRect 0 (d - k) (fun _ => 0) (fun _ => d - k) (fun _ _ => 0) m)))) x y =
      if x < d - k then (if y < d - k then (if x = y then 1 else 0) else randm (rnd x y) q)
      else if x = y then (q : ℤ) else 0 := by
    intro x hx y hy
    rw [setDiag_apply, setRect_apply, setRect_apply, setDiag_apply, setRect_apply]
    grind
  refine ⟨_, by unfold qary; rw [if_neg (by simp; omega)], ?_⟩
  have hsh : TopShape d (d - k) q (setDiag (d - k) d q (setRect (d - k) d (fun _ => 0) (fun _ => d) (fun _ _ => 0)
      (setRect 0 (d - k) (fun _ => d - k) (fun _ => d) (fun i j => randm (rnd i j) q)
        (setDiag 0 (d - k) 1 (setRect 0 (d - k) (fun _ => 0) (fun _ => d - k) (fun _ _ => 0) m))))) := by
    constructor
    · intro i hi j hj
      rw [hval i (by omega) j (by omega), if_pos hi, if_pos hj]
    · intro i h1 h2 j hj
      rw [hval i h2 j hj, if_neg (by omega)]
  refine ⟨hsh, ?_, topShape_indep (by omega) hq hsh, fun x => topShape_lattice (by omega) hsh x⟩
  intro i hi j h1 h2
  rw [hval i (by omega) j h2, if_pos hi, if_neg (by omega)]
  exact randm_range _ hq

theorem wrapIdx_eq (d : ℕ) {k : ℤ} (h1 : -(d : ℤ) < k) (h2 : k < d) (hd : 0 < d) :
    wrapIdx d d k = if k < 0 then k + d else k := by
  obtain ⟨e, rfl⟩ : ∃ e, d = e + 1 := ⟨d - 1, by omega⟩
  rw [wrapIdx]
  split_ifs with h
  · cases e with
    | zero => rfl
    | succ e => rw [wrapIdx, if_neg (by omega)]
  · rfl

/-- the coefficients of `h` lie in `[0, q)` and `h(1) ≡ 0` modulo `q` -/
theorem ntruH_spec (d q : ℕ) (hd : 1 ≤ d) (hq : 0 < q) (rnd : ℕ → ℕ → ℕ) :
    (∀ i < d, 0 ≤ ntruH d q rnd i ∧ ntruH d q rnd i < q) ∧ (q : ℤ) ∣ ∑ i ∈ range d, ntruH d q rnd i := by
  have hq' : (0 : ℤ) < q := by exact_mod_cast hq
  have key := forUp_inv (fun k (h : ℕ → ℤ) => (∀ i < k, 0 ≤ h i ∧ h i < q) ∧ (q : ℤ) ∣ ∑ i ∈ range k, h i)
    (fun i (h : ℕ → ℤ) =>
      let h : ℕ → ℤ := setAt h i (randm (rnd 0 i) q)
      let h : ℕ → ℤ := setAt h 0 (h 0 - h i)
      if h 0 < 0 then setAt h 0 (h 0 + q) else h) hd (fun _ => 0)
    ⟨fun i hi => ⟨le_rfl, hq'⟩, by simp⟩ (by
      intro i h h1 h2 ⟨i1, i2⟩
      obtain ⟨r1, r2⟩ := randm_range (rnd 0 i) hq
      obtain ⟨z1, z2⟩ := i1 0 (by omega)
      have hi0 : i ≠ 0 := by omega
      have hform : ∃ e : ℤ, (e = 0 ∨ e = q) ∧ 0 ≤ h 0 - randm (rnd 0 i) q + e ∧ h 0 - randm (rnd 0 i) q + e < q ∧
          (let h : ℕ → ℤ := setAt h i (randm (rnd 0 i) q)
           let h : ℕ → ℤ := setAt h 0 (h 0 - h i)
           if h 0 < 0 then setAt h 0 (h 0 + q) else h) =
          fun k => if k = 0 then h 0 - randm (rnd 0 i) q + e else if k = i then randm (rnd 0 i) q else h k := by
        dsimp only
        have e0 : setAt (setAt h i (randm (rnd 0 i) q)) 0 (setAt h i (randm (rnd 0 i) q) 0 -
            setAt h i (randm (rnd 0 i) q) i) 0 = h 0 - randm (rnd 0 i) q := by
          simp [setAt, hi0.symm]
        rw [e0]
        by_cases hneg : h 0 - randm (rnd 0 i) q < 0
        · rw [if_pos hneg]
          refine ⟨q, .inr rfl, by omega, by omega, ?_⟩
          funext k
          simp only [setAt]
          grind
        · rw [if_neg hneg]
          refine ⟨0, .inl rfl, by omega, by omega, ?_⟩
          funext k
          simp only [setAt]
          grind
      obtain ⟨e, he, b1, b2, hf⟩ := hform
      dsimp only at hf ⊢
      rw [hf]
      refine ⟨fun k hk => ?_, ?_⟩
      · dsimp only
        split_ifs with c1 c2
        · exact ⟨b1, b2⟩
        · exact ⟨r1, r2⟩
        · exact i1 k (by omega)
      · rw [Finset.sum_range_succ, if_neg hi0, if_pos rfl]
        have : ∑ k ∈ range i, (if k = 0 then h 0 - randm (rnd 0 i) q + e else if k = i then randm (rnd 0 i) q else h k) =
            ∑ k ∈ range i, h k + (- randm (rnd 0 i) q + e) := by
          rw [← Finset.sum_erase_add _ _ (mem_range.2 h1 : (0 : ℕ) ∈ range i),
            ← Finset.sum_erase_add (range i) h (mem_range.2 h1 : (0 : ℕ) ∈ range i), if_pos rfl]
          have hc : ∀ k ∈ (range i).erase 0, (if k = 0 then h 0 - randm (rnd 0 i) q + e else
              if k = i then randm (rnd 0 i) q else h k) = h k := by
            intro k hk
            rw [mem_erase, mem_range] at hk
            rw [if_neg hk.1, if_neg (by omega)]
          rw [Finset.sum_congr rfl hc]
          ring
        rw [this]
        rw [show ∑ k ∈ range i, h k + (-randm (rnd 0 i) q + e) + randm (rnd 0 i) q = ∑ k ∈ range i, h k + e by ring]
        refine dvd_add i2 ?_
        rcases he with rfl | rfl
        · exact dvd_zero _
        · exact dvd_rfl)
  exact key

/-- **C39**, `gen_ntrulike(q)`: `[[I, H], [0, qI]]` where row `i` of `H` is `h` rotated by `i`, the coefficients of `h` lie
in `[0, q)` and sum to a multiple of `q`; full rank. -/
theorem C39_ntrulike (d q : ℕ) (hd : 1 ≤ d) (hq : 0 < q) (rnd : ℕ → ℕ → ℕ) (m : Mat ℤ) :
    ∃ (m' : Mat ℤ) (h : ℕ → ℤ), ntrulike (2 * d) (2 * d) q rnd m = some m' ∧ TopShape (2 * d) d q m' ∧
      (∀ i < d, ∀ j < d, m' i (d + j) = h ((j + (d - i)) % d)) ∧ (∀ i < d, 0 ≤ h i ∧ h i < (q : ℤ)) ∧
      (q : ℤ) ∣ ∑ i ∈ range d, h i ∧ Indep (2 * d) (2 * d) (toQ m') := by
  have hdiv : 2 * d / 2 = d := by omega
  have b1 : ∀ i (m : Mat ℤ) x y, 0 ≤ i → i < d → (fun i (m : Mat ℤ) =>
      let m : Mat ℤ := forUp 0 i (fun j (m : Mat ℤ) => m.set i j 0) m
      let m : Mat ℤ := m.set i i 1
      forUp (i + 1) d (fun j (m : Mat ℤ) => m.set i j 0) m) i m x y =
      if x = i ∧ y < d then (if x = y then 1 else 0) else m x y := by
    intro i m x y _ hi
    dsimp only
    rw [setRow_apply, Mat.set_apply, setRow_apply]
    grind
  have b2 : ∀ i (m : Mat ℤ) x y, d ≤ i → i < 2 * d → (fun i (m : Mat ℤ) =>
      let m : Mat ℤ := forUp d i (fun j (m : Mat ℤ) => m.set i j 0) m
      let m : Mat ℤ := m.set i i (q : ℤ)
      forUp (i + 1) (2 * d) (fun j (m : Mat ℤ) => m.set i j 0) m) i m x y =
      if x = i ∧ (d ≤ y ∧ y < 2 * d) then (if x = y then (q : ℤ) else 0) else m x y := by
    intro i m x y _ hi
    dsimp only
    rw [setRow_apply, Mat.set_apply, setRow_apply]
    grind
  refine ⟨_, ntruH d q rnd, by unfold ntrulike; rw [hdiv, if_neg (by simp), if_neg (by omega)], ?_⟩
  have hval : ∀ x < 2 * d, ∀ y < 2 * d,
      setRect 0 d (fun _ => d) (fun _ => 2 * d) (fun i j => ntruH d q rnd (wrapIdx d d ((j : ℤ) - d - i)).toNat)
        (forUp d (2 * d) (fun i (m : Mat ℤ) =>
          let m : Mat ℤ := forUp d i (fun j (m : Mat ℤ) => m.set i j 0) m
          let m : Mat ℤ := m.set i i (q : ℤ)
          forUp (i + 1) (2 * d) (fun j (m : Mat ℤ) => m.set i j 0) m)
        (setRect d (2 * d) (fun _ => 0) (fun _ => d) (fun _ _ => 0)
          (forUp 0 d (fun i (m : Mat ℤ) =>
            let m : Mat ℤ := forUp 0 i (fun j (m : Mat ℤ) => m.set i j 0) m
            let m : Mat ℤ := m.set i i 1
            forUp (i + 1) d (fun j (m : Mat ℤ) => m.set i j 0) m) m))) x y =
      if x < d then (if y < d then (if x = y then 1 else 0) else
        ntruH d q rnd (wrapIdx d d ((y : ℤ) - d - x)).toNat) else if x = y then (q : ℤ) else 0 := by
    intro x hx y hy
    rw [setRect_apply, rowsLoop b2, setRect_apply, rowsLoop b1]
    grind
  dsimp only
  generalize setRect 0 d (fun _ => d) (fun _ => 2 * d) (fun i j => ntruH d q rnd (wrapIdx d d ((j : ℤ) - d - i)).toNat)
        (forUp d (2 * d) (fun i (m : Mat ℤ) =>
          let m : Mat ℤ := forUp d i (fun j (m : Mat ℤ) => m.set i j 0) m
          let m : Mat ℤ := m.set i i (q : ℤ)
          forUp (i + 1) (2 * d) (fun j (m : Mat ℤ) => m.set i j 0) m)
        (setRect d (2 * d) (fun _ => 0) (fun _ => d) (fun _ _ => 0)
          (forUp 0 d (fun i (m : Mat ℤ) =>
            let m : Mat ℤ := forUp 0 i (fun j (m : Mat ℤ) => m.set i j 0) m
            let m : Mat ℤ := m.set i i 1
            forUp (i + 1) d (fun j (m : Mat ℤ) => m.set i j 0) m) m))) = m' at hval ⊢
  have hsh : TopShape (2 * d) d q m' := by
    constructor
    · intro i hi j hj
      rw [hval i (by omega) j (by omega), if_pos hi, if_pos hj]
    · intro i h1 h2 j hj
      rw [hval i h2 j hj, if_neg (by omega)]
  obtain ⟨s1, s2⟩ := ntruH_spec d q hd hq rnd
  refine ⟨hsh, ?_, s1, s2, topShape_indep (by omega) hq hsh⟩
  intro i hi j hj
  rw [hval i (by omega) (d + j) (by omega), if_pos hi, if_neg (by omega)]
  congr 1
  rw [wrapIdx_eq d (by push_cast; omega) (by push_cast; omega) hd]
  push_cast
  split_ifs with hneg
  · rw [Nat.mod_eq_of_lt (by omega)]; omega
  · rw [Nat.mod_eq_sub_mod (by omega), Nat.mod_eq_of_lt (by omega)]; omega

/-- **C39**, `gen_ntrulike2(q)`: `[[qI, 0], [H, I]]`, column `j` of `H` is `h` rotated by `j`. -/
theorem C39_ntrulike2 (d q : ℕ) (hd : 1 ≤ d) (hq : 0 < q) (rnd : ℕ → ℕ → ℕ) (m : Mat ℤ) :
    ∃ (m' : Mat ℤ) (h : ℕ → ℤ), ntrulike2 (2 * d) (2 * d) q rnd m = some m' ∧
      (∀ i < d, ∀ j < 2 * d, m' i j = if i = j then (q : ℤ) else 0) ∧
      (∀ i < d, ∀ j < d, m' (d + i) (d + j) = if i = j then 1 else 0) ∧
      (∀ i < d, ∀ j < d, m' (d + i) j = h ((i + (d - j)) % d)) ∧ (∀ i < d, 0 ≤ h i ∧ h i < (q : ℤ)) ∧
      (q : ℤ) ∣ ∑ i ∈ range d, h i ∧ Indep (2 * d) (2 * d) (toQ m') := by
  have hdiv : 2 * d / 2 = d := by omega
  refine ⟨_, ntruH d q rnd, by unfold ntrulike2; rw [hdiv, if_neg (by simp), if_neg (by omega)], ?_⟩
  have hval : ∀ x < 2 * d, ∀ y < 2 * d,
      setRect d (2 * d) (fun _ => 0) (fun _ => d) (fun i j => ntruH d q rnd (wrapIdx d d ((i : ℤ) - d - j)).toNat)
        (setDiag d (2 * d) 1 (setRect d (2 * d) (fun _ => d) (fun _ => 2 * d) (fun _ _ => 0)
          (setDiag 0 d q (setRect 0 d (fun _ => 0) (fun _ => 2 * d) (fun _ _ => 0) m)))) x y =
      if x < d then (if x = y then (q : ℤ) else 0) else if y < d then
        ntruH d q rnd (wrapIdx d d ((x : ℤ) - d - y)).toNat else if x = y then 1 else 0 := by
    intro x hx y hy
    rw [setRect_apply, setDiag_apply, setRect_apply, setDiag_apply, setRect_apply]
    grind
  generalize setRect d (2 * d) (fun _ => 0) (fun _ => d) (fun i j => ntruH d q rnd (wrapIdx d d ((i : ℤ) - d - j)).toNat)
        (setDiag d (2 * d) 1 (setRect d (2 * d) (fun _ => d) (fun _ => 2 * d) (fun _ _ => 0)
          (setDiag 0 d q (setRect 0 d (fun _ => 0) (fun _ => 2 * d) (fun _ _ => 0) m)))) = m' at hval ⊢
  obtain ⟨s1, s2⟩ := ntruH_spec d q hd hq rnd
  refine ⟨fun i hi j hj => ?_, fun i hi j hj => ?_, fun i hi j hj => ?_, s1, s2, ?_⟩
  · rw [hval i (by omega) j hj, if_pos hi]
  · rw [hval _ (by omega) _ (by omega), if_neg (by omega), if_neg (by omega)]
    by_cases h : i = j
    · rw [if_pos (by omega), if_pos h]
    · rw [if_neg (by omega), if_neg h]
  · rw [hval _ (by omega) _ (by omega), if_neg (by omega), if_pos hj]
    congr 1
    rw [wrapIdx_eq d (by push_cast; omega) (by push_cast; omega) hd]
    push_cast
    split_ifs with hneg
    · rw [Nat.mod_eq_of_lt (by omega)]; omega
    · rw [Nat.mod_eq_sub_mod (by omega), Nat.mod_eq_of_lt (by omega)]; omega
  · intro a ha
    have hbot : ∀ i, d ≤ i → i < 2 * d → a i = 0 := by
      intro i h1 h2
      have := ha i h2
      unfold lc toQ at this
      rw [Finset.sum_eq_single i] at this
      · rw [hval i h2 i h2, if_neg (by omega), if_neg (by omega), if_pos rfl] at this
        simpa using this
      · intro k hk hki
        rw [mem_range] at hk
        by_cases hke : k < d
        · rw [hval k hk i h2, if_pos hke, if_neg hki]; simp
        · rw [hval k hk i h2, if_neg hke, if_neg (by omega), if_neg hki]; simp
      · intro h; simp at h; omega
    intro i hi
    by_cases hie : d ≤ i
    · exact hbot i hie hi
    have := ha i hi
    unfold lc toQ at this
    rw [Finset.sum_eq_single i] at this
    · rw [hval i hi i hi, if_pos (by omega), if_pos rfl] at this
      simpa [hq.ne'] using this
    · intro k hk hki
      rw [mem_range] at hk
      by_cases hke : k < d
      · rw [hval k hk i hi, if_pos hke, if_neg hki]; simp
      · rw [hbot k (by omega) hk, zero_mul]
    · intro h; simp at h; omega

/-- **C39**, `gen_uniform`: all entries in `[0, 2^bits)`. -/
theorem C39_uniform (d bits : ℕ) (rnd : ℕ → ℕ → ℕ) (m : Mat ℤ) :
    ∃ m', uniform d d bits rnd m = some m' ∧ ∀ i < d, ∀ j < d, 0 ≤ m' i j ∧ m' i j < 2 ^ bits := by
  refine ⟨_, by unfold uniform; rw [if_neg (by simp)], fun i hi j hj => ?_⟩
  rw [setRect_apply, if_pos ⟨⟨Nat.zero_le _, hi⟩, Nat.zero_le _, hj⟩]
  exact randb_range _ _

/-- lower triangular with non-zero diagonal: independent rows -/
theorem tri_indep {d : ℕ} {m' : Mat ℤ} (k1 : ∀ i < d, m' i i ≠ 0) (k2 : ∀ i < d, ∀ j < d, i < j → m' i j = 0) :
    Indep d d (toQ m') := by
  intro a ha
  have hdown : ∀ k, ∀ i, d - k ≤ i → i < d → a i = 0 := by
    intro k
    induction k with
    | zero => intro i h1 h2; omega
    | succ k ih =>
      intro i h1 h2
      by_cases hik : d - k ≤ i
      · exact ih i hik h2
      have := ha i h2
      unfold lc toQ at this
      rw [Finset.sum_eq_single i] at this
      · have hne : (m' i i : ℚ) ≠ 0 := by exact_mod_cast k1 i h2
        rcases mul_eq_zero.1 this with h | h
        · exact h
        · exact absurd h hne
      · intro j hj hji
        rw [mem_range] at hj
        by_cases hlt : j < i
        · rw [k2 j hj i h2 hlt]; simp
        · rw [ih j (by omega) hj, zero_mul]
      · intro h; simp at h; omega
  exact fun i hi => hdown d i (by omega) hi

/-- **C39**, `gen_trg`: lower triangular, `2 ≤ m_ii ≤ 2^bits_i`, entries below the diagonal smaller than half of the
diagonal entry of their column; full rank. -/
theorem C39_trg (d : ℕ) (bits : ℕ → ℕ) (hb : ∀ i < d, 1 ≤ bits i) (rnd : ℕ → ℕ → ℕ) (sgn : ℕ → ℕ → Bool) (m : Mat ℤ) :
    ∃ m', trg d d bits rnd sgn m = some m' ∧ (∀ i < d, 2 ≤ m' i i ∧ m' i i ≤ 2 ^ bits i) ∧
      (∀ i < d, ∀ j < d, i < j → m' i j = 0) ∧ (∀ i < d, ∀ j < i, 2 * |m' i j| < m' j j) ∧ Indep d d (toQ m') := by
  have hnone : (List.range d).any (fun i => bits i = 0) = false := by
    rw [List.any_eq_false]
    intro i hi
    rw [List.mem_range] at hi
    have := hb i hi
    simp; omega
  have key := forUp_inv (fun k (m' : Mat ℤ) =>
      (∀ i < k, 2 ≤ m' i i ∧ m' i i ≤ 2 ^ bits i) ∧ (∀ i < k, ∀ j < d, i < j → m' i j = 0) ∧
      (∀ j < k, ∀ i < d, j < i → 2 * |m' i j| < m' j j))
    (fun i (m : Mat ℤ) =>
      let m : Mat ℤ := m.set i i (randm (rnd i i) (2 ^ bits i - 1))
      let m : Mat ℤ := m.set i i (m i i + 2)
      let ztmp : ℤ := m i i / 2
      forUp (i + 1) d (fun j (m : Mat ℤ) =>
        let m : Mat ℤ := m.set j i (randm (rnd j i) ztmp.toNat)
        let m : Mat ℤ := if sgn j i then m.set j i (0 - m j i) else m
        m.set i j 0) m) (Nat.zero_le d) m
    ⟨fun i hi => absurd hi (by omega), fun i hi => absurd hi (by omega), fun i hi => absurd hi (by omega)⟩ (by
      intro i m h1 h2 ⟨i1, i2, i3⟩
      have hbi := hb i h2
      have hpow : 2 ≤ 2 ^ bits i := by
        calc 2 = 2 ^ 1 := by norm_num
          _ ≤ 2 ^ bits i := Nat.pow_le_pow_right (by norm_num) hbi
      obtain ⟨r1, r2⟩ := randm_range (rnd i i) (show 0 < 2 ^ bits i - 1 by omega)
      have r2' : randm (rnd i i) (2 ^ bits i - 1) < 2 ^ bits i - 1 := by
        have : ((2 ^ bits i - 1 : ℕ) : ℤ) = 2 ^ bits i - 1 := by
          rw [Nat.cast_sub (by omega)]; push_cast; ring
        omega
      set dg : ℤ := randm (rnd i i) (2 ^ bits i - 1) + 2 with hdg
      have hm2 : ∀ x y, ((m.set i i (randm (rnd i i) (2 ^ bits i - 1))).set i i
          ((m.set i i (randm (rnd i i) (2 ^ bits i - 1))) i i + 2)) x y = if x = i ∧ y = i then dg else m x y := by
        intro x y
        rw [Mat.set_apply, Mat.set_apply, Mat.set_apply]
        grind
      dsimp only
      generalize ((m.set i i (randm (rnd i i) (2 ^ bits i - 1))).set i i
          ((m.set i i (randm (rnd i i) (2 ^ bits i - 1))) i i + 2)) = m2 at hm2 ⊢
      have hdgi : m2 i i = dg := by rw [hm2]; simp
      have hloop := forUp_inv (fun k (m' : Mat ℤ) =>
          (∀ x y, (x ≠ i ∧ y ≠ i) ∨ (x = i ∧ y ≤ i) ∨ (y = i ∧ x ≤ i) → m' x y = m2 x y) ∧
          (∀ x, i < x → x < k → 2 * |m' x i| < dg) ∧ (∀ y, i < y → y < k → m' i y = 0))
        (fun j (m : Mat ℤ) =>
          let m : Mat ℤ := m.set j i (randm (rnd j i) (m2 i i / 2).toNat)
          let m : Mat ℤ := if sgn j i then m.set j i (0 - m j i) else m
          m.set i j 0) (by omega : i + 1 ≤ d) m2
        ⟨fun _ _ _ => rfl, fun x h1 h2 => by omega, fun y h1 h2 => by omega⟩ (by
          intro j s g1 g2 ⟨l1, l2, l3⟩
          rw [hdgi]
          have hz : 0 < (dg / 2).toNat := by omega
          obtain ⟨q1, q2⟩ := randm_range (rnd j i) hz
          set v := randm (rnd j i) (dg / 2).toNat with hv
          have hbody : ∃ w : ℤ, (w = v ∨ w = -v) ∧ ∀ x y,
              (let m : Mat ℤ := s.set j i v
               let m : Mat ℤ := if sgn j i then m.set j i (0 - m j i) else m
               m.set i j 0) x y = if x = i ∧ y = j then 0 else if x = j ∧ y = i then w else s x y := by
            dsimp only
            by_cases hs : sgn j i
            · refine ⟨-v, .inr rfl, fun x y => ?_⟩
              rw [if_pos hs, Mat.set_apply, Mat.set_apply, Mat.set_apply, Mat.set_apply]
              grind
            · refine ⟨v, .inl rfl, fun x y => ?_⟩
              rw [if_neg hs, Mat.set_apply, Mat.set_apply]
          obtain ⟨w, hw, hbody⟩ := hbody
          have hw2 : 2 * |w| < dg := by
            have : |w| = v := by
              rcases hw with rfl | rfl
              · exact abs_of_nonneg q1
              · rw [abs_neg]; exact abs_of_nonneg q1
            rw [this]; omega
          refine ⟨?_, ?_, ?_⟩
          · intro x y hxy
            rw [hbody, if_neg (by omega), if_neg (by omega)]
            exact l1 x y hxy
          · intro x hx1 hx2
            rw [hbody, if_neg (by omega)]
            by_cases hxj : x = j
            · rw [if_pos ⟨hxj, rfl⟩]; exact hw2
            · rw [if_neg (by omega)]; exact l2 x hx1 (by omega)
          · intro y hy1 hy2
            rw [hbody]
            by_cases hyj : y = j
            · rw [if_pos ⟨rfl, hyj⟩]
            · rw [if_neg (by omega), if_neg (by omega)]; exact l3 y hy1 (by omega))
      obtain ⟨l1, l2, l3⟩ := hloop
      generalize forUp (i + 1) d (fun j (m : Mat ℤ) =>
          let m : Mat ℤ := m.set j i (randm (rnd j i) (m2 i i / 2).toNat)
          let m : Mat ℤ := if sgn j i then m.set j i (0 - m j i) else m
          m.set i j 0) m2 = m3 at l1 l2 l3 ⊢
      have l1' : ∀ x y, (x ≠ i ∧ y ≠ i) ∨ (x = i ∧ y < i) ∨ (y = i ∧ x < i) → m3 x y = m x y := by
        intro x y h
        rw [l1 x y (by omega), hm2, if_neg (by omega)]
      have hd3 : m3 i i = dg := by rw [l1 i i (by omega), hdgi]
      refine ⟨?_, ?_, ?_⟩
      · intro x hx
        by_cases hxi : x = i
        · rw [hxi, hd3]
          constructor <;> omega
        · rw [l1' x x (by omega)]; exact i1 x (by omega)
      · intro x hx y hy hxy
        by_cases hxi : x = i
        · rw [hxi]; exact l3 y (by omega) hy
        · rw [l1' x y (by omega)]; exact i2 x (by omega) y hy hxy
      · intro y hy x hx hxy
        by_cases hyi : y = i
        · rw [hyi, hd3]; exact l2 x (by omega) hx
        · rw [l1' y y (by omega), l1' x y (by omega)]; exact i3 y (by omega) x hx hxy)
  refine ⟨_, by unfold trg; rw [if_neg (by simp), if_neg (by rw [hnone]; simp)], ?_⟩
  obtain ⟨k1, k2, k3⟩ := key
  dsimp only at k1 k2 k3 ⊢
  generalize forUp 0 d _ m = m' at k1 k2 k3 ⊢
  refine ⟨k1, fun i hi j hj h => k2 i hi j hj h, fun i hi j hj => k3 j (by omega) i hi hj, ?_⟩
  exact tri_indep (fun i hi => by have := (k1 i hi).1; omega) k2

/-- **C39**, `gen_trg2`: lower triangular, diagonal `w`, entries below the diagonal at most half of the diagonal entry of
their column; full rank. -/
theorem C39_trg2 (d : ℕ) (w : ℕ → ℤ) (hw : ∀ i < d, 1 ≤ w i) (rnd : ℕ → ℕ → ℕ) (sgn : ℕ → ℕ → Bool) (m : Mat ℤ) :
    ∃ m', trg2 d d w rnd sgn m = some m' ∧ (∀ i < d, m' i i = w i) ∧
      (∀ i < d, ∀ j < d, i < j → m' i j = 0) ∧ (∀ i < d, ∀ j < i, 2 * |m' i j| ≤ m' j j) ∧ Indep d d (toQ m') := by
  have key := forUp_inv (fun k (m' : Mat ℤ) =>
      (∀ i < k, m' i i = w i) ∧ (∀ i < k, ∀ j < d, i < j → m' i j = 0) ∧
      (∀ j < k, ∀ i < d, j < i → 2 * |m' i j| ≤ m' j j))
    (fun i (m : Mat ℤ) =>
      let m : Mat ℤ := m.set i i (w i)
      let ztmp : ℤ := m i i / 2
      let ztmp : ℤ := ztmp + 1
      forUp (i + 1) d (fun j (m : Mat ℤ) =>
        let m : Mat ℤ := m.set j i (randm (rnd j i) ztmp.toNat)
        let m : Mat ℤ := if sgn j i then m.set j i (0 - m j i) else m
        m.set i j 0) m) (Nat.zero_le d) m
    ⟨fun i hi => absurd hi (by omega), fun i hi => absurd hi (by omega), fun i hi => absurd hi (by omega)⟩ (by
      intro i m h1 h2 ⟨i1, i2, i3⟩
      have hwi := hw i h2
      set dg : ℤ := w i with hdg
      have hm2 : ∀ x y, (m.set i i dg) x y = if x = i ∧ y = i then dg else m x y := fun x y => Mat.set_apply ..
      dsimp only
      generalize (m.set i i dg) = m2 at hm2 ⊢
      have hdgi : m2 i i = dg := by rw [hm2]; simp
      have hloop := forUp_inv (fun k (m' : Mat ℤ) =>
          (∀ x y, (x ≠ i ∧ y ≠ i) ∨ (x = i ∧ y ≤ i) ∨ (y = i ∧ x ≤ i) → m' x y = m2 x y) ∧
          (∀ x, i < x → x < k → 2 * |m' x i| ≤ dg) ∧ (∀ y, i < y → y < k → m' i y = 0))
        (fun j (m : Mat ℤ) =>
          let m : Mat ℤ := m.set j i (randm (rnd j i) (m2 i i / 2 + 1).toNat)
          let m : Mat ℤ := if sgn j i then m.set j i (0 - m j i) else m
          m.set i j 0) (by omega : i + 1 ≤ d) m2
        ⟨fun _ _ _ => rfl, fun x h1 h2 => by omega, fun y h1 h2 => by omega⟩ (by
          intro j s g1 g2 ⟨l1, l2, l3⟩
          rw [hdgi]
          have hz : 0 < (dg / 2 + 1).toNat := by omega
          obtain ⟨q1, q2⟩ := randm_range (rnd j i) hz
          set v := randm (rnd j i) (dg / 2 + 1).toNat with hv
          have hbody : ∃ v' : ℤ, (v' = v ∨ v' = -v) ∧ ∀ x y,
              (let m : Mat ℤ := s.set j i v
               let m : Mat ℤ := if sgn j i then m.set j i (0 - m j i) else m
               m.set i j 0) x y = if x = i ∧ y = j then 0 else if x = j ∧ y = i then v' else s x y := by
            dsimp only
            by_cases hs : sgn j i
            · refine ⟨-v, .inr rfl, fun x y => ?_⟩
              rw [if_pos hs, Mat.set_apply, Mat.set_apply, Mat.set_apply, Mat.set_apply]
              grind
            · refine ⟨v, .inl rfl, fun x y => ?_⟩
              rw [if_neg hs, Mat.set_apply, Mat.set_apply]
          obtain ⟨v', hw, hbody⟩ := hbody
          have hw2 : 2 * |v'| ≤ dg := by
            have : |v'| = v := by
              rcases hw with rfl | rfl
              · exact abs_of_nonneg q1
              · rw [abs_neg]; exact abs_of_nonneg q1
            rw [this]; omega
          refine ⟨?_, ?_, ?_⟩
          · intro x y hxy
            rw [hbody, if_neg (by omega), if_neg (by omega)]
            exact l1 x y hxy
          · intro x hx1 hx2
            rw [hbody, if_neg (by omega)]
            by_cases hxj : x = j
            · rw [if_pos ⟨hxj, rfl⟩]; exact hw2
            · rw [if_neg (by omega)]; exact l2 x hx1 (by omega)
          · intro y hy1 hy2
            rw [hbody]
            by_cases hyj : y = j
            · rw [if_pos ⟨rfl, hyj⟩]
            · rw [if_neg (by omega), if_neg (by omega)]; exact l3 y hy1 (by omega))
      obtain ⟨l1, l2, l3⟩ := hloop
      generalize forUp (i + 1) d (fun j (m : Mat ℤ) =>
          let m : Mat ℤ := m.set j i (randm (rnd j i) (m2 i i / 2 + 1).toNat)
          let m : Mat ℤ := if sgn j i then m.set j i (0 - m j i) else m
          m.set i j 0) m2 = m3 at l1 l2 l3 ⊢
      have l1' : ∀ x y, (x ≠ i ∧ y ≠ i) ∨ (x = i ∧ y < i) ∨ (y = i ∧ x < i) → m3 x y = m x y := by
        intro x y h
        rw [l1 x y (by omega), hm2, if_neg (by omega)]
      have hd3 : m3 i i = dg := by rw [l1 i i (by omega), hdgi]
      refine ⟨?_, ?_, ?_⟩
      · intro x hx
        by_cases hxi : x = i
        · rw [hxi, hd3]
        · rw [l1' x x (by omega)]; exact i1 x (by omega)
      · intro x hx y hy hxy
        by_cases hxi : x = i
        · rw [hxi]; exact l3 y (by omega) hy
        · rw [l1' x y (by omega)]; exact i2 x (by omega) y hy hxy
      · intro y hy x hx hxy
        by_cases hyi : y = i
        · rw [hyi, hd3]; exact l2 x (by omega) hx
        · rw [l1' y y (by omega), l1' x y (by omega)]; exact i3 y (by omega) x hx hxy)
  refine ⟨_, by unfold trg2; rw [if_neg (by simp)], ?_⟩
  obtain ⟨k1, k2, k3⟩ := key
  dsimp only at k1 k2 k3 ⊢
  generalize forUp 0 d _ m = m' at k1 k2 k3 ⊢
  refine ⟨k1, fun i hi j hj h => k2 i hi j hj h, fun i hi j hj => k3 j (by omega) i hi hj, ?_⟩
  exact tri_indep (fun i hi => by have := k1 i hi; have := hw i hi; omega) k2

/-- the generators on concrete data -/
example : ((qary 3 3 1 7 (fun i j => 10 * i + j) (fun _ _ => 9)).map fun m => (m 0 0, m 0 2, m 1 2, m 2 2)) =
    some (1, 2, 5, 7) := by decide +kernel

/-! ## C37 -/

theorem convertLoop_spec (buffer : ℕ) (A : Mat ℤ) (getSi : ℤ → ℤ) (l : List (ℕ × ℕ)) (B : Mat ℤ) :
    ((convertLoop buffer A getSi l B).1 = true ↔ ∀ p ∈ l, |A p.1 p.2| ≤ 2 ^ (63 - buffer - 1)) ∧
    ((convertLoop buffer A getSi l B).1 = true → ∀ i j, (convertLoop buffer A getSi l B).2 i j =
      if (i, j) ∈ l then getSi (A i j) else B i j) := by
  induction l generalizing B with
  | nil => simp [convertLoop]
  | cons p l ih =>
    obtain ⟨x, y⟩ := p
    rw [convertLoop]
    by_cases h : |A x y| > 2 ^ (63 - buffer - 1)
    · rw [if_pos h]
      refine ⟨⟨by simp, fun hh => absurd (hh (x, y) (by simp)) (by simpa using h)⟩, by simp⟩
    · rw [if_neg h]
      obtain ⟨i1, i2⟩ := ih (B.set x y (getSi (A x y)))
      refine ⟨?_, ?_⟩
      · rw [i1]
        constructor
        · intro hh p hp
          rw [List.mem_cons] at hp
          rcases hp with rfl | hp
          · simpa using h
          · exact hh p hp
        · intro hh p hp
          exact hh p (List.mem_cons_of_mem _ hp)
      · intro hok i j
        rw [i2 hok i j, Mat.set_apply]
        by_cases h1 : (i, j) ∈ l
        · rw [if_pos h1, if_pos (List.mem_cons_of_mem _ h1)]
        · rw [if_neg h1]
          by_cases h2 : i = x ∧ j = y
          · rw [if_pos h2, if_pos (by simp [h2.1, h2.2]), h2.1, h2.2]
          · rw [if_neg h2, if_neg]
            simp only [List.mem_cons, Prod.mk.injEq, not_or]
            exact ⟨h2, h1⟩

/-- **C37.**  For `buffer ≤ 62`: `convert` returns true exactly when every entry is at most `2^(62-buffer)` in absolute
value; then the result equals the source, and `2^buffer` times any entry still fits into 63 bits. -/
theorem C37_convert (r c buffer : ℕ) (hb : buffer ≤ 62) (A : Mat ℤ) (getSi : ℤ → ℤ)
    (hg : ∀ z : ℤ, -2 ^ 63 ≤ z → z < 2 ^ 63 → getSi z = z) (junk : Mat ℤ) :
    ((convert r c buffer A getSi junk).1 = true ↔ ∀ i < r, ∀ j < c, |A i j| ≤ 2 ^ (62 - buffer)) ∧
    ((convert r c buffer A getSi junk).1 = true → ∀ i < r, ∀ j < c,
      (convert r c buffer A getSi junk).2 i j = A i j ∧ |A i j| * 2 ^ buffer < 2 ^ 63) := by
  unfold convert
  obtain ⟨h1, h2⟩ := convertLoop_spec buffer A getSi
    ((List.range r).flatMap fun i => (List.range c).map fun j => (i, j)) junk
  have hmem : ∀ i j, (i, j) ∈ ((List.range r).flatMap fun i => (List.range c).map fun j => (i, j)) ↔ i < r ∧ j < c := by
    intro i j; simp
  have hiff : (∀ p ∈ (List.range r).flatMap fun i => (List.range c).map fun j => (i, j),
      |A p.1 p.2| ≤ 2 ^ (63 - buffer - 1)) ↔ ∀ i < r, ∀ j < c, |A i j| ≤ 2 ^ (62 - buffer) := by
    rw [show 63 - buffer - 1 = 62 - buffer by omega]
    exact ⟨fun h i hi j hj => h (i, j) ((hmem i j).2 ⟨hi, hj⟩), fun h p hp => by
      obtain ⟨i, j⟩ := p
      obtain ⟨hi, hj⟩ := (hmem i j).1 hp
      exact h i hi j hj⟩
  refine ⟨h1.trans hiff, fun hok i hi j hj => ?_⟩
  have hle := hiff.1 (h1.1 hok) i hi j hj
  have hmul : |A i j| * 2 ^ buffer ≤ 2 ^ 62 := by
    calc |A i j| * 2 ^ buffer ≤ 2 ^ (62 - buffer) * 2 ^ buffer := mul_le_mul_of_nonneg_right hle (by positivity)
      _ = 2 ^ 62 := by rw [← pow_add]; congr 1; omega
  have h62 : |A i j| ≤ 2 ^ 62 := le_trans hle (pow_le_pow_right₀ (by norm_num) (by omega))
  refine ⟨?_, lt_of_le_of_lt hmul (by norm_num)⟩
  rw [h2 hok, if_pos ((hmem i j).2 ⟨hi, hj⟩)]
  rw [abs_le] at h62
  exact hg _ (by linarith [h62.1]) (by linarith [h62.2])

/-- the conversion back, `convert<mpz_t, long>(b, bl, 0)` in `bkz_reduction_f` (bkz.cpp:833-835), whose result is ignored,
is *not* lossless: machine integers beyond `2^62` are refused and the rest of the matrix is lost. -/
theorem C37_back_conversion_loses : ∃ A : Mat ℤ, (∀ i j, -2 ^ 63 ≤ A i j ∧ A i j < 2 ^ 63) ∧
    (convert 1 2 0 A id (fun _ _ => 0)).1 = false ∧ (convert 1 2 0 A id (fun _ _ => 0)).2 0 1 ≠ A 0 1 := by
  refine ⟨fun _ j => if j = 0 then 2 ^ 62 + 1 else 5, ?_, by decide +kernel, by decide +kernel⟩
  intro i j
  dsimp only
  split_ifs <;> constructor <;> norm_num

example : (convert 2 2 10 (fun i j => if i = j then 2 ^ 52 else -3) id (fun _ _ => 0)).1 = true ∧
    (convert 2 2 10 (fun i j => if i = j then 2 ^ 52 + 1 else -3) id (fun _ _ => 0)).1 = false := by decide +kernel

/-! ## C38 -/

theorem rowZero_iff (c : ℕ) (v : ℕ → ℤ) : rowZero c v = true ↔ ∀ j < c, v j = 0 := by
  simp [rowZero, List.all_eq_true]

theorem lastNonzero_spec (c : ℕ) (b : Mat ℤ) (d : ℕ) :
    lastNonzero c b d ≤ d ∧ (∀ k, lastNonzero c b d ≤ k → k < d → rowZero c (b k) = true) ∧
      (0 < lastNonzero c b d → rowZero c (b (lastNonzero c b d - 1)) = false) := by
  induction d with
  | zero => exact ⟨le_rfl, fun k _ h => by omega, fun h => by simp [lastNonzero] at h⟩
  | succ d ih =>
    obtain ⟨i1, i2, i3⟩ := ih
    rw [lastNonzero]
    split_ifs with h
    · refine ⟨by omega, fun k h1 h2 => ?_, i3⟩
      by_cases hk : k = d
      · rw [hk]; exact h
      · exact i2 k h1 (by omega)
    · exact ⟨le_rfl, fun k h1 h2 => by omega, fun _ => by simpa using h⟩

theorem firstNonzero_spec (c : ℕ) (b : Mat ℤ) (k i : ℕ) :
    i ≤ firstNonzero c b i k ∧ firstNonzero c b i k ≤ i + k ∧
      (∀ l, i ≤ l → l < firstNonzero c b i k → rowZero c (b l) = true) ∧
      (firstNonzero c b i k < i + k → rowZero c (b (firstNonzero c b i k)) = false) := by
  induction k generalizing i with
  | zero => exact ⟨le_rfl, le_rfl, fun l h1 h2 => by simp [firstNonzero] at h2; omega, fun h => by simp [firstNonzero] at h⟩
  | succ k ih =>
    rw [firstNonzero]
    split_ifs with h
    · obtain ⟨i1, i2, i3, i4⟩ := ih (i + 1)
      refine ⟨by omega, by omega, fun l h1 h2 => ?_, fun h => i4 (by omega)⟩
      by_cases hl : l = i
      · rw [hl]; exact h
      · exact i3 l (by omega) h2
    · exact ⟨le_rfl, by omega, fun l h1 h2 => by omega, fun _ => by simpa using h⟩

/-- a rotation that moves row `i` to the front, on all three matrices -/
theorem rotateAll_spec (d i : ℕ) (hi : i ≤ d) (t : Triple) :
    segment (rotateAll d i t).b 0 d = (segment t.b 0 d).rotate i ∧
    ((rotateAll d i t).u.map fun u => segment u 0 d) = (t.u.map fun u => (segment u 0 d).rotate i) ∧
    ((rotateAll d i t).v.map fun u => segment u 0 d) = (t.v.map fun u => (segment u 0 d).rotate i) := by
  unfold rotateAll
  by_cases h : 0 < i ∧ i < d
  · rw [if_pos h]
    refine ⟨?_, ?_, ?_⟩
    · simpa using (C10_rotate t.b 0 i d (by omega) (by omega)).1
    · cases t.u with
      | none => rfl
      | some u => simpa using (C10_rotate u 0 i d (by omega) (by omega)).1
    · cases t.v with
      | none => rfl
      | some u => simpa using (C10_rotate u 0 i d (by omega) (by omega)).1
  · rw [if_neg h]
    have hid : ∀ l : List (ℕ → ℤ), l.length = d → l.rotate i = l := by
      intro l hl
      have : i = 0 ∨ i = d := by omega
      rcases this with rfl | rfl
      · simp
      · rw [← hl, List.rotate_length]
    refine ⟨(hid _ (by simp [segment_length])).symm, ?_, ?_⟩
    · cases t.u with
      | none => rfl
      | some u => simp [hid (segment u 0 d) (by simp [segment_length])]
    · cases t.v with
      | none => rfl
      | some u => simp [hid (segment u 0 d) (by simp [segment_length])]

/-- **C38.**  `zeros_first`: the maximal block of zero rows at the end, rows `i, …, d-1`, comes to the front; the other rows
keep their order, and `u`, `u_inv_t` undergo the same permutation.  In particular if these are all zero rows,
every zero row now precedes every other row. -/
theorem C38_zeros_first (d c : ℕ) (t : Triple) : ∃ i ≤ d,
    (∀ k, i ≤ k → k < d → ∀ j < c, t.b k j = 0) ∧ (0 < i → ∃ j < c, t.b (i - 1) j ≠ 0) ∧
    segment (zerosFirst d c t).b 0 d = (segment t.b 0 d).drop i ++ (segment t.b 0 d).take i ∧
    ((zerosFirst d c t).u.map fun u => segment u 0 d) =
      (t.u.map fun u => (segment u 0 d).drop i ++ (segment u 0 d).take i) ∧
    ((zerosFirst d c t).v.map fun u => segment u 0 d) =
      (t.v.map fun u => (segment u 0 d).drop i ++ (segment u 0 d).take i) := by
  obtain ⟨h1, h2, h3⟩ := lastNonzero_spec c t.b d
  have hrot : ∀ v : ℕ → ℕ → ℤ, (segment v 0 d).rotate (lastNonzero c t.b d) =
      (segment v 0 d).drop (lastNonzero c t.b d) ++ (segment v 0 d).take (lastNonzero c t.b d) :=
    fun v => List.rotate_eq_drop_append_take (by rw [segment_length]; omega)
  obtain ⟨r1, r2, r3⟩ := rotateAll_spec d _ h1 t
  refine ⟨_, h1, fun k g1 g2 => (rowZero_iff c _).1 (h2 k g1 g2), fun hpos => ?_, ?_, ?_, ?_⟩
  · have := h3 hpos
    by_contra hcon
    push Not at hcon
    rw [(rowZero_iff c _).2 hcon] at this
    exact absurd this (by simp)
  · rw [← hrot]; exact r1
  · simp only [← hrot]; exact r2
  · simp only [← hrot]; exact r3

/-- **C38.**  `zeros_last`: the maximal block of zero rows at the front goes to the end. -/
theorem C38_zeros_last (d c : ℕ) (t : Triple) : ∃ i ≤ d,
    (∀ k < i, ∀ j < c, t.b k j = 0) ∧ (i < d → ∃ j < c, t.b i j ≠ 0) ∧
    segment (zerosLast d c t).b 0 d = (segment t.b 0 d).drop i ++ (segment t.b 0 d).take i ∧
    ((zerosLast d c t).u.map fun u => segment u 0 d) =
      (t.u.map fun u => (segment u 0 d).drop i ++ (segment u 0 d).take i) ∧
    ((zerosLast d c t).v.map fun u => segment u 0 d) =
      (t.v.map fun u => (segment u 0 d).drop i ++ (segment u 0 d).take i) := by
  obtain ⟨-, h1, h2, h3⟩ := firstNonzero_spec c t.b d 0
  rw [zero_add] at h1 h3
  have hrot : ∀ v : ℕ → ℕ → ℤ, (segment v 0 d).rotate (firstNonzero c t.b 0 d) =
      (segment v 0 d).drop (firstNonzero c t.b 0 d) ++ (segment v 0 d).take (firstNonzero c t.b 0 d) :=
    fun v => List.rotate_eq_drop_append_take (by rw [segment_length]; omega)
  obtain ⟨r1, r2, r3⟩ := rotateAll_spec d _ h1 t
  refine ⟨_, h1, fun k g1 => (rowZero_iff c _).1 (h2 k (Nat.zero_le _) g1), fun hpos => ?_, ?_, ?_, ?_⟩
  · have := h3 hpos
    by_contra hcon
    push Not at hcon
    rw [(rowZero_iff c _).2 hcon] at this
    exact absurd this (by simp)
  · rw [← hrot]; exact r1
  · simp only [← hrot]; exact r2
  · simp only [← hrot]; exact r3

/-- rows `1, 2, 0, 0` become `0, 0, 1, 2` -/
example : (segment (zerosFirst 4 1 ⟨fun i _ => if i < 2 then i + 1 else 0, none, none⟩).b 0 4).map (fun v => v 0) =
    [0, 0, 1, 2] := by decide +kernel

end Gen
end Fplll

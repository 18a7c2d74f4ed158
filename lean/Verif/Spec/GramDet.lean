import Mathlib.LinearAlgebra.Matrix.Determinant.Basic
import Mathlib.LinearAlgebra.Matrix.Block
import Verif.Spec.Indep
import Verif.Spec.Lattice

/-!
# Specification: Gram determinants and the potential of a basis
-/

open Finset

namespace Fplll.Spec

/-- the Gram determinant of the first `m` rows -/
def gramDet (n : ℕ) (b : ℕ → ℕ → ℤ) (m : ℕ) : ℤ := (toM m n b * (toM m n b).transpose).det

/-- the product of all Gram determinants of leading rows -/
def potential (d n : ℕ) (b : ℕ → ℕ → ℤ) : ℤ := ∏ m ∈ range d, gramDet n b (m + 1)

/-- multiplying the leading rows by a matrix of determinant `±1` does not change the Gram determinant -/
theorem gramDet_mul {n m : ℕ} {b b' : ℕ → ℕ → ℤ} (T : Matrix (Fin m) (Fin m) ℤ) (hT : T.det * T.det = 1)
    (h : toM m n b' = T * toM m n b) : gramDet n b' m = gramDet n b m := by
  unfold gramDet
  rw [h, Matrix.transpose_mul, Matrix.mul_assoc, ← Matrix.mul_assoc (toM m n b), Matrix.det_mul, Matrix.det_mul,
    Matrix.det_transpose]
  linear_combination (Matrix.det (toM m n b * (toM m n b).transpose)) * hT

theorem gramDet_congr {n m : ℕ} {b b' : ℕ → ℕ → ℤ} (h : ∀ i < m, ∀ c < n, b' i c = b i c) :
    gramDet n b' m = gramDet n b m := by
  have : toM m n b' = toM m n b := by
    ext i c; exact h i i.2 c c.2
  unfold gramDet; rw [this]

/-- the Gram determinant is the product of the squared lengths of the Gram–Schmidt vectors -/
theorem gramDet_eq (n : ℕ) (b : ℕ → ℕ → ℤ) (m : ℕ) :
    ((gramDet n b m : ℤ) : ℚ) = ∏ j ∈ range m, normStar n (fun i c => (b i c : ℚ)) j := by
  set B : ℕ → ℕ → ℚ := fun i c => (b i c : ℚ) with hB
  let U : Matrix (Fin m) (Fin m) ℚ := fun i j => if (j : ℕ) < i then muS n B i j else if (i : ℕ) = j then 1 else 0
  let S : Matrix (Fin m) (Fin n) ℚ := fun i c => bstar n B i c
  let M : Matrix (Fin m) (Fin n) ℚ := fun i c => B i c
  have hM : M = U * S := by
    ext i c
    rw [Matrix.mul_apply]
    have e : B i c = bstar n B i c + ∑ k ∈ range (i : ℕ), muS n B i k * bstar n B k c := by
      rw [bstar_eq]; ring
    change B i c = ∑ j : Fin m, U i j * S j c
    rw [e]
    have e2 : ∑ j : Fin m, U i j * S j c
        = ∑ j ∈ range m, (if j < i then muS n B i j else if (i : ℕ) = j then 1 else 0) * bstar n B j c := by
      rw [Finset.sum_range]
    rw [e2]
    have hsub : range ((i : ℕ) + 1) ⊆ range m := by
      intro x; rw [mem_range, mem_range]; have := i.2; omega
    rw [← sum_subset hsub, sum_range_succ]
    · rw [if_neg (lt_irrefl _), if_pos rfl, one_mul, add_comm]
      congr 1
      refine sum_congr rfl fun k hk => ?_
      rw [mem_range] at hk
      rw [if_pos hk]
    · intro x _ hx
      rw [mem_range] at hx
      rw [if_neg (by omega), if_neg (by omega), zero_mul]
  have hU : U.det = 1 := by
    rw [Matrix.det_of_isLowerTriangular]
    · refine prod_eq_one fun i _ => ?_
      change (if (i : ℕ) < i then muS n B i i else if (i : ℕ) = i then 1 else 0) = (1 : ℚ)
      rw [if_neg (lt_irrefl _), if_pos rfl]
    · intro i j hij
      change (if (j : ℕ) < i then muS n B i j else if (i : ℕ) = j then 1 else 0) = (0 : ℚ)
      have : i < j := hij
      rw [if_neg (by omega), if_neg (by omega)]
  have hS : S * S.transpose = Matrix.diagonal fun i : Fin m => normStar n B i := by
    ext i j
    rw [Matrix.mul_apply]
    have e : ∑ c : Fin n, S i c * S.transpose c j = dotQ n (bstar n B i) (bstar n B j) := by
      unfold dotQ; rw [Finset.sum_range]; rfl
    rw [e]
    by_cases hij : i = j
    · subst hij; rw [Matrix.diagonal_apply_eq]; rfl
    · rw [Matrix.diagonal_apply_ne _ hij]
      exact bstar_orth n B fun h => hij (Fin.ext h)
  have hcast : ((gramDet n b m : ℤ) : ℚ) = (M * M.transpose).det := by
    unfold gramDet
    have : ((Int.castRingHom ℚ).mapMatrix (toM m n b * (toM m n b).transpose)) = M * M.transpose := by
      rw [RingHom.mapMatrix_apply, Matrix.map_mul]
      rfl
    rw [← this, ← RingHom.map_det]; rfl
  rw [hcast, hM, Matrix.transpose_mul, Matrix.mul_assoc, ← Matrix.mul_assoc S, hS, Matrix.det_mul, Matrix.det_mul,
    Matrix.det_transpose, hU, Matrix.det_diagonal, one_mul, mul_one, Finset.prod_range]

theorem gramDet_pos {d n : ℕ} {b : ℕ → ℕ → ℤ} (h : Indep d n (fun i c => (b i c : ℚ))) {m : ℕ} (hm : m ≤ d) :
    0 < gramDet n b m := by
  have : (0 : ℚ) < ((gramDet n b m : ℤ) : ℚ) := by
    rw [gramDet_eq]
    refine prod_pos fun j hj => ?_
    rw [mem_range] at hj
    exact h.pos j (by omega)
  exact_mod_cast this

theorem potential_pos {d n : ℕ} {b : ℕ → ℕ → ℤ} (h : Indep d n (fun i c => (b i c : ℚ))) : 0 < potential d n b :=
  prod_pos fun m hm => gramDet_pos h (by rw [mem_range] at hm; omega)

/-- the potential decreases when exactly one Gram determinant decreases -/
theorem potential_lt {d n k : ℕ} {b b' : ℕ → ℕ → ℤ} (h : Indep d n (fun i c => (b i c : ℚ))) (hk : k < d)
    (hother : ∀ m ≤ d, m ≠ k + 1 → gramDet n b' m = gramDet n b m) (hlt : gramDet n b' (k + 1) < gramDet n b (k + 1)) :
    potential d n b' < potential d n b := by
  unfold potential
  have hmem : k ∈ range d := mem_range.2 hk
  rw [← mul_prod_erase _ _ hmem, ← mul_prod_erase _ (fun m => gramDet n b (m + 1)) hmem]
  have e : ∏ x ∈ (range d).erase k, gramDet n b' (x + 1) = ∏ x ∈ (range d).erase k, gramDet n b (x + 1) := by
    refine prod_congr rfl fun x hx => ?_
    rw [mem_erase, mem_range] at hx
    exact hother _ (by omega) (by omega)
  rw [e]
  refine mul_lt_mul_of_pos_right hlt (prod_pos fun x hx => ?_)
  rw [mem_erase, mem_range] at hx
  exact gramDet_pos h (by omega)

/-- independence only depends on the lattice (for a fixed number of rows) -/
theorem Indep.of_lattice {d n : ℕ} {b b' : ℕ → ℕ → ℤ} (h : Indep d n (fun i c => (b i c : ℚ)))
    (hl : lattice (toM d n b') = lattice (toM d n b)) : Indep d n (fun i c => (b' i c : ℚ)) := by
  have hrow : ∀ (m : ℕ → ℕ → ℤ) (i : Fin d), (toM d n m) i ∈ lattice (toM d n m) := by
    intro m i
    refine ⟨Pi.single i 1, ?_⟩
    rw [Matrix.single_one_vecMul]
    rfl
  have h1 : ∀ i : Fin d, ∃ x : Fin d → ℤ, (toM d n b) i = Matrix.vecMul x (toM d n b') := fun i => by
    have := hrow b i
    rw [← hl] at this
    exact this
  have h2 : ∀ i : Fin d, ∃ x : Fin d → ℤ, (toM d n b') i = Matrix.vecMul x (toM d n b) := fun i => by
    have := hrow b' i
    rw [hl] at this
    exact this
  choose S hS using h1
  choose T hT using h2
  -- over the rationals
  let Q := fun (m : ℕ → ℕ → ℤ) => (toM d n m).map (Int.cast : ℤ → ℚ)
  have eB : Q b = (Matrix.of S).map (Int.cast : ℤ → ℚ) * Q b' := by
    have : toM d n b = Matrix.of S * toM d n b' := by
      ext i j
      rw [hS i]
      rfl
    have := congrArg (fun M : Matrix (Fin d) (Fin n) ℤ => M.map (Int.castRingHom ℚ)) this
    rw [Matrix.map_mul] at this
    exact this
  have eB' : Q b' = (Matrix.of T).map (Int.cast : ℤ → ℚ) * Q b := by
    have : toM d n b' = Matrix.of T * toM d n b := by
      ext i j
      rw [hT i]
      rfl
    have := congrArg (fun M : Matrix (Fin d) (Fin n) ℤ => M.map (Int.castRingHom ℚ)) this
    rw [Matrix.map_mul] at this
    exact this
  set SQ := (Matrix.of S).map (Int.cast : ℤ → ℚ)
  set TQ := (Matrix.of T).map (Int.cast : ℤ → ℚ)
  have hind : ∀ a : Fin d → ℚ, Matrix.vecMul a (Q b) = 0 → a = 0 := by
    intro a ha
    funext i
    have := h (fun k => if hk : k < d then a ⟨k, hk⟩ else 0) (fun c hc => ?_) i i.2
    · simpa using this
    · have e := congrFun ha ⟨c, hc⟩
      rw [Pi.zero_apply] at e
      refine Eq.trans ?_ e
      unfold lc
      rw [← Fin.sum_univ_eq_sum_range (fun k => (if hk : k < d then a ⟨k, hk⟩ else 0) * (b k c : ℚ))]
      unfold Matrix.vecMul dotProduct
      refine Finset.sum_congr rfl fun k _ => ?_
      simp [Q, toM]
  have hST : SQ * TQ = 1 := by
    have hz : (SQ * TQ - 1) * Q b = 0 := by
      rw [Matrix.sub_mul, Matrix.mul_assoc, ← eB', ← eB, Matrix.one_mul, sub_self]
    have : ∀ i, (SQ * TQ - 1) i = 0 := fun i => hind _ (by
      have := congrFun hz i
      exact this)
    have e : SQ * TQ - 1 = 0 := by
      ext i j
      rw [this i]
      rfl
    exact sub_eq_zero.1 e
  have hTS : TQ * SQ = 1 := mul_eq_one_comm.1 hST
  intro a ha i hi
  have hz : Matrix.vecMul (fun k : Fin d => a k) (Q b') = 0 := by
    funext c
    have := ha c c.2
    unfold lc at this
    rw [← Fin.sum_univ_eq_sum_range (fun k => a k * (b' k c : ℚ))] at this
    exact this
  have hz' : Matrix.vecMul (Matrix.vecMul (fun k : Fin d => a k) TQ) (Q b) = 0 := by
    rw [Matrix.vecMul_vecMul, ← eB', hz]
  have h0 := hind _ hz'
  have : (fun k : Fin d => a k) = 0 := by
    calc (fun k : Fin d => a k) = Matrix.vecMul (Matrix.vecMul (fun k : Fin d => a k) TQ) SQ := by
          rw [Matrix.vecMul_vecMul, hTS, Matrix.vecMul_one]
      _ = 0 := by rw [h0, Matrix.zero_vecMul]
  exact congrFun this ⟨i, hi⟩

end Fplll.Spec

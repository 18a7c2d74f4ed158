import Mathlib.Tactic.Linarith
import Mathlib.Tactic.FieldSimp
import Verif.Spec.Indep
import Verif.Spec.GramDet
import Verif.Spec.Block

/-!
# Specification: projections orthogonal to the first rows, and the lattices of the first rows

`distSq n B k w` is the squared length of the projection of `w` orthogonally to the first `k` rows of `B`.  It and the squared
Gram–Schmidt lengths depend only on the lattices generated by leading rows.  Nothing here mentions the model.
-/

open Finset

namespace Fplll.Spec

/-- squared length of the projection of `w` orthogonally to `B_0, …, B_{k-1}` -/
def distSq (n : ℕ) (B : ℕ → ℕ → ℚ) (k : ℕ) (w : ℕ → ℚ) : ℚ := dotQ n w w - spanSq n B 0 k w

/-- an integer matrix as a rational one -/
def toQ (b : ℕ → ℕ → ℤ) : ℕ → ℕ → ℚ := fun i c => b i c

/-- an integer vector as a rational one -/
def vecQ (v : ℕ → ℤ) : ℕ → ℚ := fun c => v c

theorem vecQ_comb (d : ℕ) (b : ℕ → ℕ → ℤ) (z : ℕ → ℤ) : vecQ (comb d b z) = lc d (fun i => z i) (toQ b) := comb_cast d b z

theorem dotQ_addL (n : ℕ) (v v' w : ℕ → ℚ) : dotQ n (fun c => v c + v' c) w = dotQ n v w + dotQ n v' w := by
  unfold dotQ; rw [← Finset.sum_add_distrib]; exact Finset.sum_congr rfl (fun c _ => by ring)

theorem dotQ_smul_left (n : ℕ) (t : ℚ) (v w : ℕ → ℚ) : dotQ n (fun c => t * v c) w = t * dotQ n v w := by
  unfold dotQ; rw [Finset.mul_sum]; exact Finset.sum_congr rfl (fun c _ => by ring)

theorem distSq_congr {n k : ℕ} {B B' : ℕ → ℕ → ℚ} {w w' : ℕ → ℚ} (hB : ∀ j < k, ∀ c < n, B j c = B' j c) (hw : ∀ c < n, w c = w' c) :
    distSq n B k w = distSq n B' k w' := by
  unfold distSq spanSq
  rw [dotQ_congr hw hw]
  congr 1
  refine Finset.sum_congr rfl fun i hi => ?_
  rw [mem_Ico] at hi
  rw [dotQ_congr hw (bstar_congr i (fun l hl => hB l (by omega))), normStar_congr (fun l hl => hB l (by omega))]

/-- orthogonal to the rows, orthogonal to the Gram–Schmidt vectors -/
theorem orth_bstar {n k : ℕ} {B : ℕ → ℕ → ℚ} {p : ℕ → ℚ} (h : ∀ j < k, dotQ n p (B j) = 0) (i : ℕ) (hi : i < k) :
    dotQ n p (bstar n B i) = 0 := by
  obtain ⟨g, -, hg⟩ := bstar_lc n B i
  rw [dotQ_congr (fun _ _ => rfl) (fun c _ => hg c), dotQ_comm, dotQ_lc]
  refine Finset.sum_eq_zero fun j hj => ?_
  rw [mem_range] at hj
  rw [dotQ_comm, h j (by omega), mul_zero]

/-- the projection is the orthogonal part of any decomposition -/
theorem distSq_of_orth {n k : ℕ} {B : ℕ → ℕ → ℚ} {w p a : ℕ → ℚ} (hw : ∀ c < n, w c = lc k a B c + p c)
    (hp : ∀ j < k, dotQ n p (B j) = 0) : distSq n B k w = dotQ n p p := by
  obtain ⟨g, hg⟩ := lc_bstar n B k a
  have hpo := orth_bstar hp
  have hw' : ∀ c < n, w c = (∑ i ∈ range k, g i * bstar n B i c) + p c := fun c hc => by rw [hw c hc, hg]
  have e1 : ∀ v : ℕ → ℚ, dotQ n w v = (∑ i ∈ range k, g i * dotQ n v (bstar n B i)) + dotQ n p v := by
    intro v
    rw [dotQ_congr hw' (fun _ _ => rfl), dotQ_addL, dotQ_comm, dotQ_sum_right]
  have e2 : ∀ i < k, dotQ n w (bstar n B i) = g i * normStar n B i := by
    intro i hi
    rw [e1, hpo i hi, add_zero, Finset.sum_eq_single i]
    · rfl
    · intro j _ hj; rw [bstar_orth n B (Ne.symm hj), mul_zero]
    · intro h; exact absurd (mem_range.2 hi) h
  have e3 : dotQ n w p = dotQ n p p := by
    rw [e1, Finset.sum_eq_zero, zero_add]
    intro i hi; rw [hpo i (mem_range.1 hi), mul_zero]
  have e4 : dotQ n w w = (∑ i ∈ range k, g i * (g i * normStar n B i)) + dotQ n p p := by
    rw [e1, dotQ_comm n p w, e3]
    congr 1
    exact Finset.sum_congr rfl fun i hi => by rw [e2 i (mem_range.1 hi)]
  have e5 : spanSq n B 0 k w = ∑ i ∈ range k, g i * (g i * normStar n B i) := by
    unfold spanSq
    rw [← Finset.range_eq_Ico]
    refine Finset.sum_congr rfl fun i hi => ?_
    rw [e2 i (mem_range.1 hi)]
    by_cases h0 : normStar n B i = 0
    · rw [h0]; simp
    · field_simp
  unfold distSq
  rw [e4, e5]; ring

/-- each vector has such a decomposition -/
theorem exists_orth (n k : ℕ) (B : ℕ → ℕ → ℚ) (w : ℕ → ℚ) :
    ∃ a p : ℕ → ℚ, (∀ c, w c = lc k a B c + p c) ∧ ∀ j < k, dotQ n p (B j) = 0 := by
  have hj : ∀ j : ℕ, ∃ g : ℕ → ℚ, j < k → (∀ c, bstar n B j c = lc k g B c) := by
    intro j
    by_cases h : j < k
    · obtain ⟨g, -, hg⟩ := bstar_lc n B j
      exact ⟨fun l => if l < j + 1 then g l else 0, fun _ c => by rw [hg c, lc_ext (by omega)]⟩
    · exact ⟨fun _ => 0, fun h' => absurd h' h⟩
  choose g hg using hj
  let x : ℕ → ℚ := fun j => dotQ n w (bstar n B j) / normStar n B j
  have hlc : ∀ c, lc k (fun l => ∑ j ∈ range k, x j * g j l) B c = ∑ j ∈ range k, x j * bstar n B j c := by
    intro c
    rw [Finset.sum_congr rfl (fun j hj => by rw [hg j (mem_range.1 hj) c])]
    unfold lc
    simp only [Finset.mul_sum, Finset.sum_mul]
    rw [Finset.sum_comm]
    exact Finset.sum_congr rfl (fun k _ => Finset.sum_congr rfl (fun j _ => by ring))
  refine ⟨fun l => ∑ j ∈ range k, x j * g j l, fun c => w c - ∑ j ∈ range k, x j * bstar n B j c, fun c => by rw [hlc]; ring, ?_⟩
  have ho : ∀ i < k, dotQ n (fun c => w c - ∑ j ∈ range k, x j * bstar n B j c) (bstar n B i) = 0 := by
    intro i hi
    rw [dotQ_comm, dotQ_sub_right, dotQ_sum_right, Finset.sum_eq_single i]
    · change dotQ n (bstar n B i) w - x i * normStar n B i = 0
      by_cases h0 : normStar n B i = 0
      · rw [h0, mul_zero, sub_zero, dotQ_comm]
        exact dotQ_zero_right _ (dotQ_self_eq_zero h0)
      · rw [dotQ_comm]; change _ - dotQ n w (bstar n B i) / normStar n B i * normStar n B i = 0
        rw [div_mul_cancel₀ _ h0, sub_self]
    · intro j _ hj; rw [bstar_orth n B (Ne.symm hj), mul_zero]
    · intro h; exact absurd (mem_range.2 hi) h
  intro j hj
  rw [dotQ_row, ho j hj, zero_add]
  refine Finset.sum_eq_zero fun i hi => ?_
  rw [mem_range] at hi
  rw [ho i (by omega), mul_zero]

theorem distSq_nonneg (n : ℕ) (B : ℕ → ℕ → ℚ) (k : ℕ) (w : ℕ → ℚ) : 0 ≤ distSq n B k w := by
  obtain ⟨a, p, h1, h2⟩ := exists_orth n k B w
  rw [distSq_of_orth (fun c _ => h1 c) h2]
  exact dotQ_self_nonneg _ _

theorem lc_add (d : ℕ) (a a' : ℕ → ℚ) (B : ℕ → ℕ → ℚ) (c : ℕ) : lc d (fun i => a i + a' i) B c = lc d a B c + lc d a' B c := by
  unfold lc; rw [← Finset.sum_add_distrib]; exact Finset.sum_congr rfl (fun i _ => by ring)

theorem lc_smul (d : ℕ) (t : ℚ) (a : ℕ → ℚ) (B : ℕ → ℕ → ℚ) (c : ℕ) : lc d (fun i => t * a i) B c = t * lc d a B c := by
  unfold lc; rw [Finset.mul_sum]; exact Finset.sum_congr rfl (fun i _ => by ring)

theorem distSq_scale {n k : ℕ} {B : ℕ → ℕ → ℚ} {w w' a : ℕ → ℚ} (t : ℚ) (h : ∀ c < n, w' c = t * w c + lc k a B c) :
    distSq n B k w' = t ^ 2 * distSq n B k w := by
  obtain ⟨g, p, h1, h2⟩ := exists_orth n k B w
  rw [distSq_of_orth (fun c _ => h1 c) h2,
    distSq_of_orth (w := w') (p := fun c => t * p c) (a := fun i => t * g i + a i)]
  · rw [dotQ_smul_left, dotQ_comm, dotQ_smul_left]; ring
  · intro c hc; rw [h c hc, h1 c, lc_add, lc_smul]; ring
  · intro j hj; rw [dotQ_smul_left, h2 j hj, mul_zero]

theorem distSq_row (n : ℕ) (B : ℕ → ℕ → ℚ) (k : ℕ) : distSq n B k (B k) = normStar n B k := by
  rw [normStar_eq]
  unfold distSq spanSq
  rw [← Finset.range_eq_Ico]
  congr 1
  refine Finset.sum_congr rfl fun i _ => ?_
  change rS n B k i ^ 2 / normStar n B i = _
  rw [muS_eq, rS_self]
  ring

/-- projecting orthogonally to more rows does not make a vector longer -/
theorem distSq_anti {n : ℕ} {B : ℕ → ℕ → ℚ} {k l : ℕ} (h : k ≤ l) (w : ℕ → ℚ) : distSq n B l w ≤ distSq n B k w := by
  unfold distSq spanSq
  have := Finset.sum_le_sum_of_subset_of_nonneg (s := Ico 0 k) (t := Ico 0 l)
    (f := fun i => dotQ n w (bstar n B i) ^ 2 / normStar n B i) (Finset.Ico_subset_Ico le_rfl h)
    (fun i _ _ => div_nonneg (sq_nonneg _) (normStar_nonneg n B i))
  linarith

/-! ### lattices of the first rows -/

/-- `v` is in the lattice generated by the first `j` rows -/
def InPre (n j : ℕ) (b : ℕ → ℕ → ℤ) (v : ℕ → ℤ) : Prop := ∃ z : ℕ → ℤ, ∀ c < n, v c = comb j b z c

/-- the first `j` rows generate the same lattice -/
def PreEq (n j : ℕ) (b b' : ℕ → ℕ → ℤ) : Prop := ∀ v, InPre n j b v ↔ InPre n j b' v

theorem PreEq.refl (n j : ℕ) (b : ℕ → ℕ → ℤ) : PreEq n j b b := fun _ => Iff.rfl

theorem PreEq.symm {n j : ℕ} {b b' : ℕ → ℕ → ℤ} (h : PreEq n j b b') : PreEq n j b' b := fun v => (h v).symm

theorem PreEq.trans {n j : ℕ} {b b' b'' : ℕ → ℕ → ℤ} (h : PreEq n j b b') (h' : PreEq n j b' b'') : PreEq n j b b'' :=
  fun v => (h v).trans (h' v)

theorem comb_add (d : ℕ) (b : ℕ → ℕ → ℤ) (z z' : ℕ → ℤ) (c : ℕ) : comb d b (fun i => z i + z' i) c = comb d b z c + comb d b z' c := by
  unfold comb; rw [← Finset.sum_add_distrib]; exact Finset.sum_congr rfl (fun i _ => by ring)

theorem comb_smul (d : ℕ) (b : ℕ → ℕ → ℤ) (t : ℤ) (z : ℕ → ℤ) (c : ℕ) : comb d b (fun i => t * z i) c = t * comb d b z c := by
  unfold comb; rw [Finset.mul_sum]; exact Finset.sum_congr rfl (fun i _ => by ring)

theorem comb_succ (d : ℕ) (b : ℕ → ℕ → ℤ) (z : ℕ → ℤ) (c : ℕ) : comb (d + 1) b z c = comb d b z c + z d * b d c := by
  unfold comb; rw [Finset.sum_range_succ]

theorem comb_single (d : ℕ) (b : ℕ → ℕ → ℤ) (i : ℕ) (hi : i < d) (c : ℕ) : comb d b (fun k => if k = i then 1 else 0) c = b i c := by
  unfold comb
  rw [Finset.sum_eq_single i]
  · simp
  · intro j _ hj; dsimp only; rw [if_neg hj, zero_mul]
  · intro h; exact absurd (mem_range.2 hi) h

theorem comb_congr_z {d : ℕ} (b : ℕ → ℕ → ℤ) {z z' : ℕ → ℤ} (h : ∀ i < d, z i = z' i) (c : ℕ) : comb d b z c = comb d b z' c := by
  unfold comb; exact Finset.sum_congr rfl (fun i hi => by rw [h i (mem_range.1 hi)])

namespace InPre
variable {n j : ℕ} {b : ℕ → ℕ → ℤ} {v w : ℕ → ℤ}

theorem add (hv : InPre n j b v) (hw : InPre n j b w) : InPre n j b (fun c => v c + w c) := by
  obtain ⟨z, hz⟩ := hv; obtain ⟨z', hz'⟩ := hw
  exact ⟨fun i => z i + z' i, fun c hc => by dsimp only; rw [comb_add, hz c hc, hz' c hc]⟩

theorem smul (t : ℤ) (hv : InPre n j b v) : InPre n j b (fun c => t * v c) := by
  obtain ⟨z, hz⟩ := hv
  exact ⟨fun i => t * z i, fun c hc => by dsimp only; rw [comb_smul, hz c hc]⟩

theorem congr (hv : InPre n j b v) (h : ∀ c < n, w c = v c) : InPre n j b w := by
  obtain ⟨z, hz⟩ := hv
  exact ⟨z, fun c hc => by rw [h c hc, hz c hc]⟩

theorem row {i : ℕ} (hi : i < j) : InPre n j b (b i) := ⟨_, fun c _ => (comb_single j b i hi c).symm⟩

theorem zero : InPre n j b (fun _ => 0) := ⟨fun _ => 0, fun c _ => by unfold comb; simp⟩

theorem mono {l : ℕ} (h : j ≤ l) (hv : InPre n j b v) : InPre n l b v := by
  obtain ⟨z, hz⟩ := hv
  refine ⟨fun i => if i < j then z i else 0, fun c hc => ?_⟩
  rw [hz c hc]
  unfold comb
  symm
  rw [← Finset.sum_subset (Finset.range_mono h)]
  · exact Finset.sum_congr rfl (fun i hi => by dsimp only; rw [if_pos (mem_range.1 hi)])
  · intro i _ hi; dsimp only; rw [if_neg (by simpa using hi), zero_mul]

theorem of_comb (z : ℕ → ℤ) : InPre n j b (comb j b z) := ⟨z, fun _ _ => rfl⟩

/-- a combination of vectors of the lattice -/
theorem comb_mem {m : ℕ} {b' : ℕ → ℕ → ℤ} (h : ∀ i < m, InPre n j b (b' i)) (z : ℕ → ℤ) : InPre n j b (comb m b' z) := by
  induction m with
  | zero => exact zero.congr (fun c _ => by unfold comb; simp)
  | succ m ih => exact ((ih (fun i hi => h i (by omega))).add ((h m (by omega)).smul (z m))).congr (fun c _ => comb_succ m b' z c)

theorem trans {m : ℕ} {b' : ℕ → ℕ → ℤ} (h : ∀ i < m, InPre n j b (b' i)) (hv : InPre n m b' v) : InPre n j b v := by
  obtain ⟨z, hz⟩ := hv
  exact (comb_mem h z).congr hz

end InPre

theorem preEq_of_rows {n j : ℕ} {b b' : ℕ → ℕ → ℤ} (h1 : ∀ i < j, InPre n j b (b' i)) (h2 : ∀ i < j, InPre n j b' (b i)) : PreEq n j b b' :=
  fun _ => ⟨fun h => h.trans h2, fun h => h.trans h1⟩

/-- rows outside a block are the same, the block is a combination of what was there before -/
theorem preEq_of_block {n lo hi : ℕ} {b b' : ℕ → ℕ → ℤ} (h0 : ∀ i < lo, ∀ c < n, b' i c = b i c)
    (h1 : ∀ i, hi ≤ i → ∀ c < n, b' i c = b i c) (h2 : ∀ i, lo ≤ i → i < hi → InPre n hi b (b' i) ∧ InPre n hi b' (b i)) {j : ℕ} (hj : j ≤ lo ∨ hi ≤ j) :
    PreEq n j b b' := by
  refine preEq_of_rows (fun i hi' => ?_) (fun i hi' => ?_)
  · by_cases a : i < lo
    · exact (InPre.row (i := i) hi').congr (h0 i a)
    · by_cases a' : i < hi
      · exact (h2 i (by omega) a').1.mono (by omega)
      · exact (InPre.row (i := i) hi').congr (h1 i (by omega))
  · by_cases a : i < lo
    · exact (InPre.row (b := b') (i := i) hi').congr (fun c hc => (h0 i a c hc).symm)
    · by_cases a' : i < hi
      · exact (h2 i (by omega) a').2.mono (by omega)
      · exact (InPre.row (b := b') (i := i) hi').congr (fun c hc => (h1 i (by omega) c hc).symm)

/-- each row changes by a combination of the rows before it -/
def LowerTri (n : ℕ) (b b' : ℕ → ℕ → ℤ) : Prop := ∀ r, InPre n r b (fun c => b' r c - b r c)

theorem LowerTri.preEq {n : ℕ} {b b' : ℕ → ℕ → ℤ} (h : LowerTri n b b') (j : ℕ) : PreEq n j b b' := by
  induction j with
  | zero =>
    refine preEq_of_rows (fun i hi => by omega) (fun i hi => by omega)
  | succ j ih =>
    refine preEq_of_rows (fun i hi => ?_) (fun i hi => ?_)
    · by_cases hij : i < j
      · exact ((ih (b' i)).2 (InPre.row hij)).mono (by omega)
      · have : i = j := by omega
        subst this
        exact (((h i).mono (by omega)).add (InPre.row (i := i) hi)).congr (fun c _ => by ring)
    · by_cases hij : i < j
      · exact ((ih (b i)).1 (InPre.row hij)).mono (by omega)
      · have : i = j := by omega
        subst this
        have := ((ih _).1 (h i)).smul (-1)
        exact ((this.mono (by omega)).add (InPre.row (i := i) hi)).congr (fun c _ => by ring)

theorem LowerTri.refl (n : ℕ) (b : ℕ → ℕ → ℤ) : LowerTri n b b := fun _ => InPre.zero.congr (fun _ _ => by ring)

theorem LowerTri.trans {n : ℕ} {b b' b'' : ℕ → ℕ → ℤ} (h : LowerTri n b b') (h' : LowerTri n b' b'') : LowerTri n b b'' := fun r =>
  ((h r).add ((h.preEq r _).2 (h' r))).congr (fun c _ => by ring)

/-! ### what depends only on these lattices -/

theorem lc_of_pre {n j : ℕ} {b b' : ℕ → ℕ → ℤ} (h : PreEq n j b b') (a : ℕ → ℚ) : ∃ a' : ℕ → ℚ, ∀ c < n, lc j a (toQ b) c = lc j a' (toQ b') c := by
  have hz : ∀ i : ℕ, ∃ z : ℕ → ℤ, i < j → ∀ c < n, b i c = comb j b' z c := by
    intro i
    by_cases hi : i < j
    · obtain ⟨z, hz⟩ := (h (b i)).1 (InPre.row hi)
      exact ⟨z, fun _ => hz⟩
    · exact ⟨fun _ => 0, fun h => absurd h hi⟩
  choose z hz using hz
  refine ⟨fun l => ∑ i ∈ range j, a i * z i l, fun c hc => ?_⟩
  unfold lc toQ
  rw [Finset.sum_congr rfl (fun i hi => by rw [hz i (mem_range.1 hi) c hc])]
  unfold comb
  push_cast
  simp only [Finset.mul_sum, Finset.sum_mul]
  rw [Finset.sum_comm]
  exact Finset.sum_congr rfl (fun k _ => Finset.sum_congr rfl (fun j _ => by ring))

theorem distSq_pre {n k : ℕ} {b b' : ℕ → ℕ → ℤ} (h : PreEq n k b b') (w : ℕ → ℚ) : distSq n (toQ b) k w = distSq n (toQ b') k w := by
  obtain ⟨a, p, h1, h2⟩ := exists_orth n k (toQ b) w
  obtain ⟨a', ha⟩ := lc_of_pre h a
  rw [distSq_of_orth (fun c _ => h1 c) h2, distSq_of_orth (a := a') (fun c hc => by rw [h1 c, ha c hc])]
  intro j hj
  obtain ⟨z, hz⟩ := (h (b' j)).2 (InPre.row hj)
  have : ∀ c < n, toQ b' j c = lc k (fun i => z i) (toQ b) c := by
    intro c hc
    have := congrFun (vecQ_comb k b z) c
    rw [← this]; unfold toQ vecQ; rw [hz c hc]
  rw [dotQ_congr (fun _ _ => rfl) this, dotQ_comm, dotQ_lc]
  refine Finset.sum_eq_zero fun i hi => ?_
  rw [dotQ_comm, h2 i (mem_range.1 hi), mul_zero]

/-- the projection of a vector of the lattice of `k + 1` rows is a multiple of `b*_k` -/
theorem distSq_top (n k : ℕ) (b : ℕ → ℕ → ℤ) (z : ℕ → ℤ) :
    distSq n (toQ b) k (vecQ (comb (k + 1) b z)) = (z k : ℚ) ^ 2 * normStar n (toQ b) k := by
  rw [← distSq_row]
  refine distSq_scale (a := fun i => z i) (z k : ℚ) fun c _ => ?_
  rw [← vecQ_comb]
  unfold vecQ toQ
  rw [comb_succ]; push_cast; ring

theorem normStar_pre {n k : ℕ} {b b' : ℕ → ℕ → ℤ} (h : PreEq n k b b') (h' : PreEq n (k + 1) b b') :
    normStar n (toQ b) k = normStar n (toQ b') k := by
  have key : ∀ {b b' : ℕ → ℕ → ℤ}, PreEq n k b b' → PreEq n (k + 1) b b' → ∃ t : ℤ, normStar n (toQ b') k = (t : ℚ) ^ 2 * normStar n (toQ b) k := by
    intro b b' h h'
    obtain ⟨z, hz⟩ := (h' (b' k)).2 (InPre.row (by omega))
    refine ⟨z k, ?_⟩
    rw [← distSq_top, ← distSq_row, ← distSq_pre h]
    exact distSq_congr (fun _ _ _ _ => rfl) (fun c hc => by unfold toQ vecQ; rw [hz c hc])
  obtain ⟨t, ht⟩ := key h h'
  obtain ⟨t', ht'⟩ := key h.symm h'.symm
  by_cases h0 : normStar n (toQ b) k = 0
  · rw [ht, h0, mul_zero]
  · rw [ht, ← mul_assoc] at ht'
    have h1 : ((t' : ℚ) ^ 2 * (t : ℚ) ^ 2) = 1 := by
      have := mul_right_cancel₀ h0 (ht'.symm.trans (one_mul _).symm)
      exact this
    have h2 : (t' * t) ^ 2 = 1 := by exact_mod_cast (by rw [mul_pow]; exact h1 : ((t' : ℚ) * t) ^ 2 = 1)
    have h3 : t ^ 2 = 1 := by
      have : t ∣ 1 := by
        have h4 : t' * t ∣ 1 := ⟨t' * t, by rw [← h2]; ring⟩
        exact (dvd_mul_left t t').trans h4
      rcases Int.isUnit_iff.1 (isUnit_of_dvd_one this) with h | h <;> rw [h] <;> norm_num
    have h4 : (t : ℚ) ^ 2 = 1 := by exact_mod_cast h3
    rw [ht, h4, one_mul]

theorem InPre.mem_lattice {n d : ℕ} {b : ℕ → ℕ → ℤ} {v : ℕ → ℤ} : InPre n d b v ↔ (fun c : Fin n => v c) ∈ lattice (toM d n b) := by
  have key : ∀ (z : ℕ → ℤ) (c : Fin n), Matrix.vecMul (fun i : Fin d => z i) (toM d n b) c = comb d b z c := by
    intro z c
    unfold comb
    rw [← Fin.sum_univ_eq_sum_range (fun i => z i * b i c)]
    rfl
  constructor
  · rintro ⟨z, hz⟩
    exact ⟨fun i => z i, funext fun c => by rw [key, hz c c.2]⟩
  · rintro ⟨x, hx⟩
    refine ⟨fun i => if h : i < d then x ⟨i, h⟩ else 0, fun c hc => ?_⟩
    have := congrFun hx ⟨c, hc⟩
    dsimp only at this
    rw [this, ← key _ ⟨c, hc⟩]
    congr 1
    funext i
    rw [dif_pos i.2]

theorem PreEq.lattice_eq {n d : ℕ} {b b' : ℕ → ℕ → ℤ} (h : PreEq n d b b') : lattice (toM d n b') = lattice (toM d n b) := by
  ext v
  have e : v = fun c : Fin n => (fun c : ℕ => if h : c < n then v ⟨c, h⟩ else 0) c := by
    funext c; dsimp only; rw [dif_pos c.2]
  rw [e]
  exact (InPre.mem_lattice (v := fun c : ℕ => if h : c < n then v ⟨c, h⟩ else 0)).symm.trans ((h _).symm.trans InPre.mem_lattice)

theorem PreEq.indep {n d : ℕ} {b b' : ℕ → ℕ → ℤ} (h : PreEq n d b b') (hi : Indep d n (toQ b)) : Indep d n (toQ b') :=
  Indep.of_lattice hi h.lattice_eq

/-- the rows of a block generate the same lattice, the others do not change -/
theorem SameBlock.preEq {n k d : ℕ} {b b' : ℕ → ℕ → ℤ} (h : SameBlock n k d b b') {j : ℕ} (hj : j ≤ k ∨ k + d ≤ j) : PreEq n j b b' := by
  have mem : ∀ {b b' : ℕ → ℕ → ℤ}, blockSpan n k d b' = blockSpan n k d b → ∀ i, k ≤ i → i < k + d → InPre n (k + d) b (b' i) := by
    intro b b' hs i h1 h2
    have hm : rowV n b' (k + (i - k)) ∈ blockSpan n k d b := by rw [← hs]; exact row_mem b' (by omega)
    rw [show k + (i - k) = i by omega] at hm
    rw [InPre.mem_lattice]
    change rowV n b' i ∈ _
    generalize rowV n b' i = v at hm
    unfold blockSpan at hm
    have cl : ∀ v : Fin n → ℤ, v ∈ lattice (toM (k + d) n b) ↔ InPre n (k + d) b (fun c => if h : c < n then v ⟨c, h⟩ else 0) := by
      intro v
      rw [InPre.mem_lattice]
      have e : (fun c : Fin n => (fun c : ℕ => if h : c < n then v ⟨c, h⟩ else 0) c) = v := by
        funext c; dsimp only; rw [dif_pos c.2]
      rw [e]
    induction hm using Submodule.span_induction with
    | mem v hv =>
      obtain ⟨i, hi, rfl⟩ := hv
      exact InPre.mem_lattice.1 (InPre.row (show k + i < k + d by omega))
    | zero => rw [cl]; exact InPre.zero.congr (fun c hc => by rw [dif_pos hc]; rfl)
    | add x y _ _ hx hy =>
      rw [cl] at *
      exact (hx.add hy).congr (fun c hc => by simp only [dif_pos hc]; rfl)
    | smul a x _ hx =>
      rw [cl] at *
      exact (hx.smul a).congr (fun c hc => by simp only [dif_pos hc]; rfl)
  have out : ∀ r, ¬(k ≤ r ∧ r < k + d) → ∀ c < n, b' r c = b r c := fun r hr c hc => by
    have := congrFun (h.outside r (by omega)) ⟨c, hc⟩
    exact this
  exact preEq_of_block (lo := k) (hi := k + d) (fun i hi => out i (by omega)) (fun i hi => out i (by omega))
    (fun i h1 h2 => ⟨mem h.span i h1 h2, mem h.span.symm i h1 h2⟩) hj

/-- adding a multiple of an earlier row -/
theorem lowerTri_add {n i j : ℕ} {b b' : ℕ → ℕ → ℤ} {t : ℤ} (hji : j < i)
    (h : ∀ k, ∀ c < n, b' k c = if k = i then b i c + t * b j c else b k c) : LowerTri n b b' := by
  intro r
  by_cases hr : r = i
  · subst hr
    exact ((InPre.row hji).smul t).congr (fun c hc => by rw [h _ c hc, if_pos rfl]; ring)
  · exact InPre.zero.congr (fun c hc => by rw [h _ c hc, if_neg hr]; ring)

/-- `b*_k` is, up to the factor `δ` on squared lengths, shorter than the non-zero projections of all vectors of the lattice of the
first `e` rows -/
def MinProj (n : ℕ) (δ : ℚ) (k e : ℕ) (b : ℕ → ℕ → ℤ) : Prop :=
  ∀ v : ℕ → ℤ, InPre n e b v → 0 < distSq n (toQ b) k (vecQ v) → δ * normStar n (toQ b) k < distSq n (toQ b) k (vecQ v)

theorem MinProj.congr {n k e : ℕ} {δ : ℚ} {b b' : ℕ → ℕ → ℤ} (h : MinProj n δ k e b) (h1 : PreEq n k b b') (h2 : PreEq n (k + 1) b b')
    (h3 : PreEq n e b b') : MinProj n δ k e b' := by
  intro v hv
  rw [← distSq_pre h1, ← normStar_pre h1 h2]
  exact h v ((h3 v).2 hv)

theorem MinProj.mono {n k e e' : ℕ} {δ : ℚ} {b : ℕ → ℕ → ℤ} (h : MinProj n δ k e b) (he : e' ≤ e) : MinProj n δ k e' b :=
  fun v hv => h v (hv.mono he)

end Fplll.Spec

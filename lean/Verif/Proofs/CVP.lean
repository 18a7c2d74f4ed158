import Verif.Proofs.SVP
import Verif.Proofs.Canon

/-!
# Proofs about `closest_vector`
-/

open Finset

namespace Fplll
namespace SVP

open Enum Spec

theorem gsCoords_spec {d n : ℕ} {B : ℕ → ℕ → ℚ} {mu : ℕ → ℕ → ℚ} {r : ℕ → ℚ}
    (hmu : ∀ i j, j < i → i < d → mu i j = muS n B i j) (hr : ∀ i, i < d → r i = normStar n B i) (v : ℕ → ℚ) (i : ℕ)
    (hi : i < d) : gsCoords d n B mu r v i = dotQ n v (bstar n B i) / normStar n B i := by
  unfold gsCoords
  have h1 := forUp_inv (P := fun k (x : ℕ → ℚ) => ∀ i < k, x i = dotQ n v (bstar n B i))
    (fun i (vc : ℕ → ℚ) =>
      setAt vc i (forUp 0 i (fun j t => t - mu i j * vc j) (forUp 0 n (fun j t => t + v j * B i j) 0)))
    (Nat.zero_le d) (fun _ => 0) (by intro i h; omega)
    (by
      intro k x _ hk hx i hi
      simp only [setAt]
      split_ifs with h
      · rw [sumLoop, subLoop k (fun j => mu k j * x j), h, dotQ_bstar]
        congr 1
        refine Finset.sum_congr rfl (fun j hj => ?_)
        rw [mem_range] at hj
        rw [hmu k j hj hk, hx j hj]
      · exact hx i (by omega))
  dsimp only
  generalize forUp 0 d (fun i (vc : ℕ → ℚ) =>
      setAt vc i (forUp 0 i (fun j t => t - mu i j * vc j) (forUp 0 n (fun j t => t + v j * B i j) 0)))
    (fun _ => 0) = x1 at h1 ⊢
  have h3 := forUp_inv (P := fun k (x : ℕ → ℚ) => (∀ i < k, x i = x1 i / r i) ∧ ∀ i, k ≤ i → x i = x1 i)
    (fun i (x : ℕ → ℚ) => setAt x i (x i / r i))
    (Nat.zero_le d) x1 ⟨by intro i h; omega, fun i _ => rfl⟩
    (by
      rintro k x _ hk ⟨hx1, hx2⟩
      constructor
      · intro i hi
        simp only [setAt]
        split_ifs with h
        · rw [h, hx2 k le_rfl]
        · exact hx1 i (by omega)
      · intro i h4
        simp only [setAt]
        rw [if_neg (by omega)]
        exact hx2 i (by omega))
  rw [h3.1 i hi, h1 i hi, hr i hi]

theorem cvpShift_spec (d n : ℕ) (b : Mat ℤ) (w : ℕ → ℚ) (s : CvpSt) :
    (∀ i, (cvpShift d n b w s).coord i = if i < d then s.coord i + ⌊w i⌋ else s.coord i) ∧
    (∀ c < n, (cvpShift d n b w s).target c = s.target c - ∑ i ∈ range d, ⌊w i⌋ * b i c) ∧
    ∀ c, n ≤ c → (cvpShift d n b w s).target c = s.target c :=
  forUp_inv (P := fun k (t : CvpSt) => (∀ i, t.coord i = if i < k then s.coord i + ⌊w i⌋ else s.coord i) ∧
      (∀ c < n, t.target c = s.target c - ∑ i ∈ range k, ⌊w i⌋ * b i c) ∧ ∀ c, n ≤ c → t.target c = s.target c)
    (fun i (s : CvpSt) =>
      { coord := setAt s.coord i (s.coord i + ⌊w i⌋)
        target := forUp 0 n (fun j (t : ℕ → ℤ) => setAt t j (t j - ⌊w i⌋ * b i j)) s.target })
    (Nat.zero_le d) s ⟨by simp, by simp, by simp⟩
    (by
      rintro k t _ hk ⟨h1, h2, h2'⟩
      have h3 := forUp_inv (P := fun m (y : ℕ → ℤ) => ∀ c, y c = if c < m then t.target c - ⌊w k⌋ * b k c else t.target c)
          (fun j (t : ℕ → ℤ) => setAt t j (t j - ⌊w k⌋ * b k j)) (Nat.zero_le n) t.target (by simp)
          (by
            intro m y _ hm hy c
            simp only [setAt]
            have := hy c
            have := hy m
            grind)
      refine ⟨?_, ?_, ?_⟩
      · intro i
        simp only [setAt]
        have := h1 i
        have := h1 k
        grind
      · intro c hc
        dsimp only
        rw [h3 c, if_pos hc, h2 c hc, Finset.sum_range_succ]
        ring
      · intro c hc
        dsimp only
        rw [h3 c, if_neg (by omega), h2' c hc])

theorem cvpLoop_inv {d n : ℕ} {b : Mat ℤ} {mu : ℕ → ℕ → ℚ} {r : ℕ → ℚ} {t0 : ℕ → ℤ} (k : ℕ) :
    ∀ (s s' : CvpSt), (∀ c < n, s.target c = t0 c - comb d b s.coord c) → cvpLoop d n b mu r k s = some s' →
      ∀ c < n, s'.target c = t0 c - comb d b s'.coord c := by
  induction k with
  | zero => intro s s' _ h; cases h
  | succ k ih =>
    intro s s' hs h
    simp only [cvpLoop] at h
    split_ifs at h with hc
    · cases h; exact hs
    · refine ih _ s' ?_ h
      intro c hcn
      obtain ⟨h1, h2, -⟩ := cvpShift_spec d n b (babai d n (fun i j => (b i j : ℚ)) mu r (fun j => s.target j)) s
      rw [h2 c hcn, hs c hcn]
      unfold comb
      have : ∀ i ∈ range d, (cvpShift d n b (babai d n (fun i j => (b i j : ℚ)) mu r (fun j => s.target j)) s).coord i * b i c =
          s.coord i * b i c + ⌊babai d n (fun i j => (b i j : ℚ)) mu r (fun j => s.target j) i⌋ * b i c := by
        intro i hi
        rw [mem_range] at hi
        rw [h1 i, if_pos hi]; ring
      rw [Finset.sum_congr rfl this, Finset.sum_add_distrib]
      ring

theorem cvpLoop_mono {d n : ℕ} {b : Mat ℤ} {mu : ℕ → ℕ → ℚ} {r : ℕ → ℚ} {k : ℕ} :
    ∀ {s s' : CvpSt} {k' : ℕ}, k ≤ k' → cvpLoop d n b mu r k s = some s' → cvpLoop d n b mu r k' s = some s' := by
  induction k with
  | zero => intro s s' k' _ h; cases h
  | succ k ih =>
    intro s s' k' hk h
    obtain ⟨m, rfl⟩ : ∃ m, k' = m + 1 := ⟨k' - 1, by omega⟩
    simp only [cvpLoop] at h ⊢
    split_ifs at h ⊢ with hc
    · exact h
    · exact ih (by omega) h

theorem boundLoop (r : ℕ → ℚ) (d : ℕ) (hd : 1 ≤ d) : forUp 1 d (fun i m => m + r i) 0 = ∑ i ∈ Ico 1 d, r i :=
  forUp_inv (P := fun k m => m = ∑ i ∈ Ico 1 k, r i) (fun i m => m + r i) hd 0 (by simp)
    (by intro i s h _ hs; rw [hs, Finset.sum_Ico_succ_top h])

theorem sqLen_sub_comm (n : ℕ) (v w : ℕ → ℤ) : sqLen n (fun c => v c - w c) = sqLen n (fun c => w c - v c) := by
  unfold sqLen; exact Finset.sum_congr rfl (fun c _ => by ring)

/-- the enumeration of `closest_vector` finds a vector closest to the reduced target -/
theorem cvp_core {d n : ℕ} {b : Mat ℤ} {mu : ℕ → ℕ → ℚ} {r : ℕ → ℚ} (hd : 1 ≤ d)
    (hmu : ∀ i j, j < i → i < d → mu i j = muS n (basisQ b) i j) (hr : ∀ i, i < d → r i = normStar n (basisQ b) i)
    (hp : ∀ i < d, 0 < normStar n (basisQ b) i)
    (hlarge : normStar n (basisQ b) 0 ≤ 3 * ∑ i ∈ Ico 1 d, normStar n (basisQ b) i) (s : CvpSt) :
    (∃ N, ∀ fuel, N ≤ fuel → ∃ t, enumerate (cvpInput d n b mu r s) (fastEval 1 .best) fuel EvSt.new = some t) ∧
    ∀ fuel t, enumerate (cvpInput d n b mu r s) (fastEval 1 .best) fuel EvSt.new = some t →
      ∃ q, t.ev.sols.reverse.head? = some q ∧ IsClosest d n b s.target q.2 := by
  set p := cvpInput d n b mu r s with hpdef
  have hb0 : p.maxdist = ∑ i ∈ Ico 1 d, normStar n (basisQ b) i := by
    rw [hpdef]
    unfold cvpInput
    rw [boundLoop r d hd]
    exact Finset.sum_congr rfl (fun i hi => hr i (mem_Ico.1 hi).2)
  have hok : p.OK :=
    { rnd := Rnd.id
      mrep := rfl
      rpos := fun i h => by
        have h' : i < d := h
        change 0 < r i
        rw [hr i h']; exact hp i h'
      sublen := by change 0 < d; omega
      dualOK := fun h => by cases h
      prune := fun k _ => le_rfl }
  have hmd : 0 ≤ p.maxdist := by
    rw [hb0]; exact Finset.sum_nonneg (fun i _ => normStar_nonneg _ _ _)
  have hpr : p.pruning = none := rfl
  have hns : ¬ p.Symm := fun h => by cases h.1
  have hag : ∀ v, p.Agrees v := by
    intro v j h1 h2
    simp [hpdef, cvpInput, Input.K] at h1 h2
    omega
  let T : ℕ → ℚ := fun j => s.target j
  have hfrom : p.FromBasis n 0 (basisQ b) T :=
    { exact := rfl
      mu := fun i j h1 h2 => by rw [zero_add, zero_add]; exact hmu i j h1 h2
      r := fun i h => by rw [zero_add]; exact hr i h
      target := fun i h => by rw [zero_add]; exact gsCoords_spec hmu hr T i h }
  have hbv : ∀ v : ℕ → ℤ, blockVec d 0 v (basisQ b) T = fun c => lc d (fun j => (v j : ℚ)) (basisQ b) c - T c := by
    intro v; funext c; simp [blockVec]
  obtain ⟨e, he⟩ := dist_split hp T
  have hdist : ∀ v : ℕ → ℤ, p.dist v 0 + e = sqLen n (fun c => s.target c - comb d b v c) := by
    intro v
    rw [C11_distance_primal hfrom rfl rfl (fun i hi => by rw [zero_add]; exact hp i hi) v 0]
    change spanSq n (basisQ b) 0 (0 + d) (blockVec d 0 v (basisQ b) T) + e = _
    rw [hbv, zero_add, ← he, sqLen_sub_comm, sqLen_cast]
    apply dotQ_congr <;>
    · intro c _
      rw [Int.cast_sub]
      congr 1
      exact (congrFun (comb_cast d b v) c).symm
  -- the vector of Babai's algorithm is within the bound
  have hz : ∃ z : ℕ → ℤ, p.dist z 0 ≤ p.maxdist := by
    obtain ⟨z, hz⟩ : ∃ z : ℕ → ℤ, ∀ i < d, (z i : ℚ) = babaiRound roundto mu 0 d (gsCoords d n (basisQ b) mu r T) i := by
      have := (babaiRound_spec roundto mu 0 d (gsCoords d n (basisQ b) mu r T)).1
      choose f hf using this
      refine ⟨fun i => if h : i < d then f i h else 0, fun i hi => ?_⟩
      dsimp only
      rw [dif_pos hi, hf i hi]
    refine ⟨z, ?_⟩
    rw [C11_distance_primal hfrom rfl rfl (fun i hi => by rw [zero_add]; exact hp i hi) z 0, hb0]
    change spanSq n (basisQ b) 0 (0 + d) (blockVec d 0 z (basisQ b) T) ≤ _
    have hc := babai_close (n := n) (B := basisQ b) (mu := mu) (start := 0) (dim := d) roundto_spec
      (by simpa using hmu) (by simpa using hp) T (gsCoords d n (basisQ b) mu r T)
      (fun i hi => by simpa using gsCoords_spec hmu hr T i hi) z hz
    have h1 : spanSq n (basisQ b) 0 (0 + d) (blockVec d 0 z (basisQ b) T) ≤ ∑ i ∈ Ico 0 d, 1 / 4 * normStar n (basisQ b) i := by
      unfold spanSq
      rw [zero_add]
      refine Finset.sum_le_sum (fun i hi => ?_)
      have hi' := (mem_Ico.1 hi).2
      have h2 := hc i hi'
      rw [zero_add] at h2
      have hpi := hp i hi'
      set u := dotQ n (blockVec d 0 z (basisQ b) T) (bstar n (basisQ b) i)
      set N := normStar n (basisQ b) i
      have h3 : u ^ 2 / N = (u / N) ^ 2 * N := by field_simp
      rw [h3]
      have h4 : (u / N) ^ 2 ≤ 1 / 4 := by
        rw [abs_le] at h2
        nlinarith
      nlinarith
    refine h1.trans ?_
    rw [Finset.sum_eq_sum_Ico_succ_bot (by omega : 0 < d), ← Finset.mul_sum]
    linarith
  constructor
  · obtain ⟨N, t, h⟩ := C13_terminates hok (fastEval_ok (pruneOK_none hok hpr) 1 .best) (fastInv_new .best hmd hok.mrep)
    exact ⟨N, fun fuel hf => ⟨t, h fuel hf⟩⟩
  · intro fuel t run
    obtain ⟨e1, e2, e3⟩ := C15_enumerate_finds_N_shortest le_rfl hok hpr hmd run
    have hst : ∀ v, (Stored p t.ev.sols v ∨ p.Symm ∧ Stored p t.ev.sols fun j => -v j) →
        ∃ a ∈ t.ev.sols, a.1 = p.dist v 0 := by
      rintro v (⟨a, h1, h2, -⟩ | ⟨h, -⟩)
      · exact ⟨a, h1, h2⟩
      · exact absurd h hns
    have hne : t.ev.sols ≠ [] := by
      obtain ⟨z, hz⟩ := hz
      rcases e3 z (hag z) hz (fun h => absurd h hns) with h | ⟨h, -⟩
      · obtain ⟨a, ha, -⟩ := hst z h
        exact List.ne_nil_of_mem ha
      · intro h0; rw [h0] at h; simp at h
    obtain ⟨q, hq⟩ : ∃ q, t.ev.sols = [q] := by
      match hL : t.ev.sols with
      | [] => exact absurd hL hne
      | [q] => exact ⟨q, rfl⟩
      | _ :: _ :: _ => rw [hL] at e1; simp at e1
    refine ⟨q, by rw [hq]; rfl, fun y => ?_⟩
    have hq1 := (e2 q (by rw [hq]; simp)).2.1
    have hqm := (e2 q (by rw [hq]; simp)).2.2.1
    have : p.dist q.2 0 ≤ p.dist y 0 := by
      rw [← hq1]
      rcases le_or_gt (p.dist y 0) p.maxdist with h | h
      · rcases e3 y (hag y) h (fun h => absurd h hns) with h' | ⟨-, h'⟩
        · obtain ⟨a, ha, h2⟩ := hst y h'
          rw [hq] at ha
          simp only [List.mem_singleton] at ha
          rw [← h2, ha]
        · exact h' q (by rw [hq]; simp)
      · exact hqm.trans h.le
    have h4 : (sqLen n (fun c => s.target c - comb d b q.2 c) : ℚ) ≤ sqLen n (fun c => s.target c - comb d b y c) := by
      rw [← hdist, ← hdist]; linarith
    exact_mod_cast h4

theorem isClosest_shift {d n : ℕ} {b : Mat ℤ} {t0 : ℕ → ℤ} {s : CvpSt} {x : ℕ → ℤ}
    (hs : ∀ c < n, s.target c = t0 c - comb d b s.coord c) (h : IsClosest d n b s.target x) :
    IsClosest d n b t0 (fun i => if i < d then s.coord i + x i else s.coord i) := by
  intro y
  have h1 := h (fun i => y i - s.coord i)
  have e1 : sqLen n (fun c => s.target c - comb d b x c) =
      sqLen n (fun c => t0 c - comb d b (fun i => if i < d then s.coord i + x i else s.coord i) c) := by
    apply sqLen_congr
    intro c hc
    rw [hs c hc]
    have : comb d b (fun i => if i < d then s.coord i + x i else s.coord i) c = comb d b s.coord c + comb d b x c := by
      unfold comb
      rw [← Finset.sum_add_distrib]
      refine Finset.sum_congr rfl (fun i hi => ?_)
      rw [mem_range] at hi
      dsimp only
      rw [if_pos hi]; ring
    rw [this]; ring
  have e2 : sqLen n (fun c => s.target c - comb d b (fun i => y i - s.coord i) c) =
      sqLen n (fun c => t0 c - comb d b y c) := by
    apply sqLen_congr
    intro c hc
    rw [hs c hc]
    have : comb d b (fun i => y i - s.coord i) c = comb d b y c - comb d b s.coord c := by
      unfold comb
      rw [← Finset.sum_sub_distrib]
      exact Finset.sum_congr rfl (fun i _ => by ring)
    rw [this]; ring
  rwa [e1, e2] at h1

end SVP
end Fplll

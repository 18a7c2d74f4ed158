import Verif.Model.SVP
import Verif.Spec.Indep
import Verif.Proofs.Found
import Verif.Props.Fresh

/-!
# Proofs about `shortest_vector`
-/

open Finset

namespace Fplll
namespace SVP

open Enum Spec

theorem lastUseful_spec (r : ℕ → ℚ) (i : ℕ) :
    1 ≤ lastUseful r i ∧ lastUseful r i ≤ i + 1 ∧ (∀ j, lastUseful r i ≤ j → j ≤ i → r 0 * 2 < r j) := by
  induction i with
  | zero => exact ⟨le_rfl, le_rfl, fun j h1 h2 => by simp only [lastUseful] at h1; omega⟩
  | succ i ih =>
    obtain ⟨h1, h2, h3⟩ := ih
    simp only [lastUseful]
    split_ifs with h
    · exact ⟨by omega, le_rfl, fun j _ _ => by omega⟩
    · refine ⟨h1, by omega, fun j h4 h5 => ?_⟩
      by_cases hj : j = i + 1
      · rw [hj]; exact not_le.1 h
      · exact h3 j h4 (by omega)

theorem getBasisMin_spec (sq : ℕ → ℤ) {first last : ℕ} (h : first < last) :
    (∃ i, first ≤ i ∧ i < last ∧ getBasisMin sq first last = sq i) ∧
    ∀ i, first ≤ i → i < last → getBasisMin sq first last ≤ sq i := by
  exact forUp_inv (P := fun k m => (∃ i, first ≤ i ∧ i < last ∧ m = sq i) ∧ ∀ i, first ≤ i → i < k → m ≤ sq i)
    (fun i m => if sq i < m then sq i else m) (by omega : first + 1 ≤ last) (sq first)
    ⟨⟨first, le_rfl, h, rfl⟩, fun i h1 h2 => by rw [show i = first by omega]⟩
    (by
      rintro i m h1 h2 ⟨h3, h4⟩
      split_ifs with hc
      · refine ⟨⟨i, by omega, h2, rfl⟩, fun j h5 h6 => ?_⟩
        by_cases hj : j = i
        · rw [hj]
        · exact hc.le.trans (h4 j h5 (by omega))
      · refine ⟨h3, fun j h5 h6 => ?_⟩
        by_cases hj : j = i
        · rw [hj]; omega
        · exact h4 j h5 (by omega))

theorem sqZ_eq (n : ℕ) (v : ℕ → ℤ) : sqZ n v = sqLen n v :=
  forUp_inv (P := fun k z => z = sqLen k v) (fun j z => z + v j * v j) (Nat.zero_le n) 0 (by simp [sqLen])
    (by intro i s _ _ h; rw [h]; unfold sqLen; rw [Finset.sum_range_succ]; ring)

theorem vecMat_eq (d n : ℕ) (x : ℕ → ℤ) (m : Mat ℤ) (c : ℕ) : vecMat d n x m c = if c < n then comb d m x c else 0 := by
  have := forUp_inv (P := fun k (res : ℕ → ℤ) => ∀ c, res c = if c < n then comb k m x c else 0)
    (fun i (res : ℕ → ℤ) => forUp 0 n (fun j (res : ℕ → ℤ) => setAt res j (res j + x i * m i j)) res)
    (Nat.zero_le d) (fun _ => 0) (by intro c; simp [comb])
    (by
      intro i res _ _ h c
      have h2 := forUp_inv (P := fun k (t : ℕ → ℤ) => ∀ c, t c = res c + if c < k then x i * m i c else 0)
        (fun j (res : ℕ → ℤ) => setAt res j (res j + x i * m i j)) (Nat.zero_le n) res (by intro c; simp)
        (by
          intro j t _ _ ht c
          simp only [setAt]
          split_ifs with h1 h2 h2
          · rw [h1, ht, if_neg (by omega)]; ring
          · omega
          · rw [ht, if_pos (by omega)]
          · rw [ht, if_neg (by omega)])
      rw [h2 c, h c]
      split_ifs
      · unfold comb; rw [Finset.sum_range_succ]
      · simp)
  exact this c

theorem sqLen_congr {n : ℕ} {v w : ℕ → ℤ} (h : ∀ c < n, v c = w c) : sqLen n v = sqLen n w := by
  unfold sqLen
  exact Finset.sum_congr rfl (fun c hc => by rw [h c (mem_range.1 hc)])

/-- the data that `shortest_vector_ex` reads from its basis or GSO object -/
structure Data (D n : ℕ) (b : Mat ℤ) (mu : ℕ → ℕ → ℚ) (r : ℕ → ℚ) (sqRow : ℕ → ℤ) (sq : ℕ → (ℕ → ℤ) → ℤ) : Prop where
  mu : ∀ i j, j < i → i < D → mu i j = muS n (basisQ b) i j
  r : ∀ i, i < D → r i = normStar n (basisQ b) i
  sqRow : ∀ i, i < D → sqRow i = sqLen n (b i)
  sq : ∀ d, d ≤ D → ∀ x, sq d x = sqLen n (comb d b x)

theorem comb_trunc {d D : ℕ} (h : d ≤ D) (b : Mat ℤ) (x : ℕ → ℤ) :
    comb D b (fun i => if i < d then x i else 0) = comb d b x := by
  funext c
  unfold comb
  symm
  rw [← Finset.sum_subset (s₁ := range d) (s₂ := range D)]
  · exact Finset.sum_congr rfl (fun i hi => by dsimp only; rw [if_pos (mem_range.1 hi)])
  · intro k; simp only [mem_range]; omega
  · intro k _ h2
    simp only [mem_range] at h2
    dsimp only
    rw [if_neg h2, zero_mul]

theorem svpInput_from {D n : ℕ} {b : Mat ℤ} {mu : ℕ → ℕ → ℚ} {r : ℕ → ℚ} {sqRow : ℕ → ℤ} {sq : ℕ → (ℕ → ℤ) → ℤ}
    (H : Data D n b mu r sqRow sq) {d : ℕ} (hd : d ≤ D) (md : ℚ) (a : Args) :
    (svpInput mu r d md a).FromBasis n 0 (basisQ b) (fun _ => 0) where
  exact := rfl
  mu i j h1 h2 := by
    have h2' : i < d := h2
    simpa [svpInput] using H.mu i j h1 (by omega)
  r i h := by
    have h' : i < d := h
    simpa [svpInput] using H.r i (by omega)
  target i _ := by
    simp [svpInput, dotQ]

theorem svpInput_ok {D n : ℕ} {b : Mat ℤ} {mu : ℕ → ℕ → ℚ} {r : ℕ → ℚ} {sqRow : ℕ → ℤ} {sq : ℕ → (ℕ → ℤ) → ℤ}
    (H : Data D n b mu r sqRow sq) (hp : ∀ i < D, 0 < normStar n (basisQ b) i) {d : ℕ} (hd0 : 0 < d) (hd : d ≤ D)
    (md : ℚ) {a : Args} (ha : a.pruning = none) : (svpInput mu r d md a).OK where
  rnd := Rnd.id
  mrep := rfl
  rpos i h := by
    have h' : i < d := h
    simp only [svpInput]
    rw [H.r i (by omega)]
    exact hp i (by omega)
  sublen := by simpa [svpInput] using hd0
  dualOK _ := ⟨rfl, rfl⟩
  prune k _ := by
    unfold setBounds
    rw [show (svpInput mu r d md a).full.pruning = a.pruning from rfl, ha]

/-- distances of the enumeration are squared lengths of lattice vectors -/
theorem svp_dist {D n : ℕ} {b : Mat ℤ} {mu : ℕ → ℕ → ℚ} {r : ℕ → ℚ} {sqRow : ℕ → ℤ} {sq : ℕ → (ℕ → ℤ) → ℤ}
    (H : Data D n b mu r sqRow sq) (hp : ∀ i < D, 0 < normStar n (basisQ b) i) {d : ℕ} (hd : d ≤ D) (md : ℚ) {a : Args}
    (hdual : a.dual = false) (v : ℕ → ℤ) : (svpInput mu r d md a).dist v 0 = sqLen n (comb d b v) := by
  rw [C11_distance_svp (svpInput_from H hd md a) hdual rfl (fun i hi => hp i (lt_of_lt_of_le hi hd)) v, sqLen_cast,
    comb_cast]
  rfl

theorem svpInput_agrees (mu : ℕ → ℕ → ℚ) (r : ℕ → ℚ) (d : ℕ) (md : ℚ) (a : Args) (v : ℕ → ℤ) :
    (svpInput mu r d md a).Agrees v := by
  intro j h1 h2
  simp [svpInput, Input.K] at h1 h2
  omega

theorem svpInput_symm (mu : ℕ → ℕ → ℚ) (r : ℕ → ℚ) (d : ℕ) (md : ℚ) (a : Args) : (svpInput mu r d md a).Symm :=
  ⟨rfl, fun j h1 h2 => by simp [svpInput, Input.K] at h1 h2; omega⟩

/-- unit coordinate vector -/
def unit (i : ℕ) : ℕ → ℤ := fun j => if j = i then 1 else 0

theorem comb_unit {d : ℕ} (b : Mat ℤ) {i : ℕ} (hi : i < d) : comb d b (unit i) = b i := by
  funext c
  unfold comb unit
  rw [Finset.sum_eq_single i]
  · simp
  · intro j _ hj; simp [hj]
  · intro h; exact absurd (mem_range.2 hi) h

/-- Vectors of minimal length lie in a leading sub-lattice if the Gram–Schmidt vectors behind it are at least as long
as the first one: whoever is at most as long as every vector of the sub-lattice is shortest in the whole lattice. -/
theorem shortest_of_tail {D n : ℕ} {b : Mat ℤ} (hp : ∀ i < D, 0 < normStar n (basisQ b) i) {x : ℕ → ℤ} {d : ℕ}
    (l1 : 0 < d) (hdD : d ≤ D) (l3 : ∀ t, d ≤ t → t < D → normStar n (basisQ b) 0 ≤ normStar n (basisQ b) t)
    (hne : ∃ i < d, x i ≠ 0)
    (hmin : ∀ y : ℕ → ℤ, (∃ i < d, y i ≠ 0) → sqLen n (comb d b x) ≤ sqLen n (comb d b y)) :
    IsShortest D n b (fun i => if i < d then x i else 0) := by
  have hD : 0 < D := by omega
  have hind : Indep D n (basisQ b) := indep_of_pos hp
  refine ⟨(comb_ne_zero_iff hind _).2 ?_, fun y hy => ?_⟩
  · obtain ⟨i, h1, h2⟩ := hne
    exact ⟨i, by omega, by simpa [h1] using h2⟩
  · rw [comb_trunc hdD]
    obtain ⟨t, ht, hyt, htop⟩ := exists_top (n := D) (by
      obtain ⟨i, h1, h2⟩ := (comb_ne_zero_iff hind y).1 hy
      exact ⟨i, h1, h2⟩)
    by_cases htd : t < d
    · have hy' : comb D b y = comb d b y := by
        rw [← comb_trunc hdD b y]
        funext c
        unfold comb
        apply Finset.sum_congr rfl
        intro i hi
        rw [mem_range] at hi
        dsimp only
        split_ifs with h
        · rfl
        · rw [htop i (by omega) hi]
      rw [hy']
      exact hmin y ⟨t, htd, hyt⟩
    · -- the vector is at least as long as the first basis vector
      have h1 := hmin (unit 0) ⟨0, by omega, by simp [unit]⟩
      rw [comb_unit b (by omega)] at h1
      have h2 := lc_ge_top hp (fun i => (y i : ℚ)) t ht (fun i h h' => by rw [htop i h h']; simp)
      have h3 := l3 t (by omega) (by omega)
      have h4 : normStar n (basisQ b) 0 = (sqLen n (b 0) : ℚ) := by
        rw [sqLen_cast]
        unfold normStar
        have : bstar n (basisQ b) 0 = basisQ b 0 := by funext c; rw [bstar_eq]; simp
        rw [this]
        rfl
      have h5 : (1 : ℚ) ≤ (y t : ℚ) ^ 2 := by
        have : (1 : ℤ) ≤ y t ^ 2 := by
          have := sq_nonneg (y t)
          have : y t ^ 2 ≠ 0 := pow_ne_zero 2 hyt
          omega
        exact_mod_cast this
      have h6 : ((sqLen n (comb D b y) : ℤ) : ℚ) = dotQ n (lc D (fun i => (y i : ℚ)) (basisQ b)) (lc D (fun i => (y i : ℚ)) (basisQ b)) := by
        rw [sqLen_cast, comb_cast]; rfl
      have h7 : (sqLen n (b 0) : ℚ) ≤ sqLen n (comb D b y) := by
        rw [h6]
        have hp0 := hp 0 hD
        have hpt := hp t ht
        rw [h4] at h3 hp0
        have : normStar n (basisQ b) t ≤ (y t : ℚ) ^ 2 * normStar n (basisQ b) t := by nlinarith
        linarith
      have h8 : sqLen n (b 0) ≤ sqLen n (comb D b y) := by exact_mod_cast h7
      exact h1.trans h8

/-- Vectors of minimal length lie in the sub-basis that `last_useful_index` keeps: whoever is at most as long as
every vector of the leading sub-lattice is shortest in the whole lattice. -/
theorem shortest_of_trunc {D n : ℕ} {b : Mat ℤ} {r : ℕ → ℚ} (hr : ∀ i < D, r i = normStar n (basisQ b) i)
    (hp : ∀ i < D, 0 < normStar n (basisQ b) i) (hD : 0 < D) {x : ℕ → ℤ} {d : ℕ} (hd : d = lastUseful r (D - 1))
    (hne : ∃ i < d, x i ≠ 0)
    (hmin : ∀ y : ℕ → ℤ, (∃ i < d, y i ≠ 0) → sqLen n (comb d b x) ≤ sqLen n (comb d b y)) :
    IsShortest D n b (fun i => if i < d then x i else 0) := by
  obtain ⟨l1, l2, l3⟩ := lastUseful_spec r (D - 1)
  rw [← hd] at l1 l2 l3
  refine shortest_of_tail hp l1 (by omega) (fun t h1 h2 => ?_) hne hmin
  have h3 := l3 t (by omega) (by omega)
  rw [hr 0 hD, hr t h2] at h3
  have := hp 0 hD
  linarith

/-- the bound of a primal enumeration lets the shortest row pass -/
theorem svpBound_ge {D n : ℕ} {b : Mat ℤ} {mu : ℕ → ℕ → ℚ} {r : ℕ → ℚ} {sqRow : ℕ → ℤ} {sq : ℕ → (ℕ → ℤ) → ℤ}
    (H : Data D n b mu r sqRow sq) {d : ℕ} (hd0 : 0 < d) (hd : d ≤ D) {err : ℚ → ℚ} (herr : ∀ q, 0 ≤ q → 0 ≤ err q)
    {a : Args} (hdual : a.dual = false) :
    0 ≤ getBasisMin sqRow 0 d ∧ ((getBasisMin sqRow 0 d : ℤ) : ℚ) ≤ svpBound r sqRow err d a ∧
    ∃ i < d, getBasisMin sqRow 0 d = sqLen n (b i) := by
  obtain ⟨⟨i, -, hi, hm⟩, -⟩ := getBasisMin_spec sqRow hd0
  rw [H.sqRow i (by omega)] at hm
  have h0 : 0 ≤ getBasisMin sqRow 0 d := by
    rw [hm]; exact Finset.sum_nonneg (fun c _ => sq_nonneg _)
  refine ⟨h0, ?_, i, hi, hm⟩
  unfold svpBound
  simp only [hdual, Bool.false_eq_true, if_false]
  split_ifs
  · exact le_rfl
  · have := herr (getBasisMin sqRow 0 d) (by exact_mod_cast h0)
    linarith

theorem stored_dist {p : Input} (hr : Rnd p.fl) (hs : p.Symm) {K : List Sol} {v : ℕ → ℤ}
    (h : Stored p K v ∨ p.Symm ∧ Stored p K fun j => -v j) : ∃ a ∈ K, a.1 = p.dist v 0 := by
  rcases h with ⟨a, h1, h2, -⟩ | ⟨-, a, h1, h2, -⟩
  · exact ⟨a, h1, h2⟩
  · exact ⟨a, h1, by rw [h2, dist_neg hr hs.1]⟩

/-- what the fast method has found when the enumeration is over, whichever it was -/
theorem fast_found {D n : ℕ} {b : Mat ℤ} {mu : ℕ → ℕ → ℚ} {r : ℕ → ℚ} {sqRow : ℕ → ℤ} {sq : ℕ → (ℕ → ℤ) → ℤ}
    (H : Data D n b mu r sqRow sq) (hp : ∀ i < D, 0 < normStar n (basisQ b) i) (hD : 0 < D) {err : ℚ → ℚ}
    (herr : ∀ q, 0 ≤ q → 0 ≤ err q) {a : Args} (hpr : a.pruning = none) (hdual : a.dual = false) {d : ℕ}
    (hd : d = lastUseful r (D - 1)) {N : ℕ} (hN : 1 ≤ N) {I : EvSt → ℚ → Prop} {ev : EvSt} {md' : ℚ} {L : List Event}
    (F : Found (svpInput mu r d (svpBound r sqRow err d a) a) (fastEval N .best) I EvSt.new ev md' L) :
    ev.sols ≠ [] ∧ Desc ev.sols ∧ ev.sols.length ≤ N ∧
    (∀ q ∈ ev.sols, q.1 = sqLen n (comb d b q.2) ∧ 0 < q.1) ∧
    (∀ q, ev.sols.getLast? = some q → IsShortest D n b (fun i => if i < d then q.2 i else 0)) ∧
    ∀ y : ℕ → ℤ, (∃ i < d, y i ≠ 0) → ((sqLen n (comb d b y) : ℤ) : ℚ) ≤ svpBound r sqRow err d a →
      (∃ q ∈ ev.sols, (∀ i < d, q.2 i = y i) ∨ ∀ i < d, q.2 i = -y i) ∨
      (ev.sols.length = N ∧ ∀ q ∈ ev.sols, q.1 ≤ sqLen n (comb d b y)) := by
  obtain ⟨l1, l2, l3⟩ := lastUseful_spec r (D - 1)
  rw [← hd] at l1 l2 l3
  have hdD : d ≤ D := by omega
  set md := svpBound r sqRow err d a with hmd
  set p := svpInput mu r d md a with hpdef
  have hok : p.OK := svpInput_ok H hp l1 hdD md hpr
  obtain ⟨m0, m1, i0, hi0, m2⟩ := svpBound_ge H (d := d) l1 hdD herr hdual
  have hsym : p.Symm := svpInput_symm mu r d md a
  have hdist : ∀ v, p.dist v 0 = sqLen n (comb d b v) := svp_dist H hp hdD md hdual
  obtain ⟨hdesc, e1, e2, e3⟩ := found_best hN hok rfl rfl hpr F
  -- something was found
  have hne : ev.sols ≠ [] := by
    have h1 : p.dist (unit i0) 0 ≤ p.maxdist := by
      rw [hdist, comb_unit b hi0, ← m2]; exact m1
    rcases e3 (unit i0) h1 ⟨i0, hi0, by simp [unit]⟩ with h | ⟨h, -⟩
    · obtain ⟨q, hq, -⟩ := stored_dist hok.rnd hsym (h.imp id fun h => ⟨hsym, h⟩)
      exact List.ne_nil_of_mem hq
    · intro h0; rw [h0] at h; simp at h; omega
  have hlast : ∀ q, ev.sols.getLast? = some q → ∀ q' ∈ ev.sols, q.1 ≤ q'.1 := by
    intro q hq q' hq'
    obtain ⟨L, hL⟩ := List.getLast?_eq_some_iff.1 hq
    rw [hL] at hq' hdesc
    unfold Desc at hdesc
    rw [List.pairwise_append] at hdesc
    rcases List.mem_append.1 hq' with h | h
    · exact hdesc.2.2 q' h q (by simp)
    · simp at h; rw [h]
  refine ⟨hne, hdesc, e1, fun q hq => ⟨by rw [(e2 q hq).1, hdist], (e2 q hq).2.2.1⟩, fun q hq => ?_, ?_⟩
  swap
  · intro y hy hle
    rcases e3 y (by rw [hdist]; exact hle) hy with (⟨q, h1, -, h2⟩ | ⟨q, h1, -, h2⟩) | h'
    · exact .inl ⟨q, h1, .inl h2⟩
    · exact .inl ⟨q, h1, .inr h2⟩
    · refine .inr ⟨h'.1, fun q hq => ?_⟩
      have := h'.2 q hq
      rwa [hdist] at this
  have hqm : q ∈ ev.sols := List.mem_of_getLast? hq
  obtain ⟨hq1, hq2, -, hnz⟩ := e2 q hqm
  refine shortest_of_trunc H.r hp hD hd hnz (fun y hy => ?_)
  have : q.1 ≤ p.dist y 0 := by
    rcases le_or_gt (p.dist y 0) p.maxdist with h | h
    · rcases e3 y h hy with h' | ⟨-, h'⟩
      · obtain ⟨q', hq', h2⟩ := stored_dist hok.rnd hsym (h'.imp id fun h => ⟨hsym, h⟩)
        rw [← h2]; exact hlast q hq q' hq'
      · exact h' q hqm
    · exact hq2.trans h.le
  rw [hq1, hdist, hdist] at this
  exact_mod_cast this

/-- what the fast evaluator holds after a primal enumeration without pruning -/
theorem fast_core {D n : ℕ} {b : Mat ℤ} {mu : ℕ → ℕ → ℚ} {r : ℕ → ℚ} {sqRow : ℕ → ℤ} {sq : ℕ → (ℕ → ℤ) → ℤ}
    (H : Data D n b mu r sqRow sq) (hp : ∀ i < D, 0 < normStar n (basisQ b) i) (hD : 0 < D) {err : ℚ → ℚ}
    (herr : ∀ q, 0 ≤ q → 0 ≤ err q) {a : Args} (hpr : a.pruning = none) (hdual : a.dual = false) {d : ℕ}
    (hd : d = lastUseful r (D - 1)) {N : ℕ} (hN : 1 ≤ N) {fuel : ℕ} {s' : St EvSt}
    (run : enumerate (svpInput mu r d (svpBound r sqRow err d a) a) (fastEval N .best) fuel EvSt.new = some s') :
    s'.ev.sols ≠ [] ∧ Desc s'.ev.sols ∧ s'.ev.sols.length ≤ N ∧
    (∀ q ∈ s'.ev.sols, q.1 = sqLen n (comb d b q.2) ∧ 0 < q.1) ∧
    (∀ q, s'.ev.sols.getLast? = some q → IsShortest D n b (fun i => if i < d then q.2 i else 0)) ∧
    ∀ y : ℕ → ℤ, (∃ i < d, y i ≠ 0) → ((sqLen n (comb d b y) : ℤ) : ℚ) ≤ svpBound r sqRow err d a →
      (∃ q ∈ s'.ev.sols, (∀ i < d, q.2 i = y i) ∨ ∀ i < d, q.2 i = -y i) ∨
      (s'.ev.sols.length = N ∧ ∀ q ∈ s'.ev.sols, q.1 ≤ sqLen n (comb d b y)) := by
  obtain ⟨l1, l2, -⟩ := lastUseful_spec r (D - 1)
  rw [← hd] at l1 l2
  have hok := svpInput_ok H hp l1 (by omega : d ≤ D) (svpBound r sqRow err d a) hpr
  obtain ⟨m0, m1, -⟩ := svpBound_ge H (d := d) l1 (by omega) herr hdual
  have hmd0 : 0 ≤ svpBound r sqRow err d a := le_trans (by exact_mod_cast m0) m1
  exact fast_found H hp hD herr hpr hdual hd hN
    (found_dyn hok (fastEval_ok (pruneOK_none hok hpr) N .best) (fastInv_new .best hmd0 hok.mrep) rfl rfl run)

/-! ## The exact evaluator -/

/-- invariant of the exact evaluator with one solution -/
structure ExactInv (sq : (ℕ → ℤ) → ℤ) (err : ℚ → ℚ) (im0 : ℤ) (md0 : ℚ) (t : EvSt × ℤ) (md : ℚ) : Prop where
  nonneg : 0 ≤ t.2
  le : t.2 ≤ im0
  sols : (t.1.sols = [] ∧ t.2 = im0 ∧ md = md0) ∨
    (∃ x, t.1.sols = [((t.2 : ℚ) + err t.2, x)] ∧ sq x = t.2 ∧ md = t.2 + err t.2)

theorem exactEval_sol {sq : (ℕ → ℤ) → ℤ} {err : ℚ → ℚ} {im0 : ℤ} {md0 : ℚ} (hsq : ∀ x, 0 ≤ sq x)
    (hmono : ∀ i j : ℤ, 0 ≤ i → i ≤ j → (i : ℚ) + err i ≤ j + err j) (hmd0 : (im0 : ℚ) + err im0 ≤ md0)
    {t : EvSt × ℤ} {md : ℚ} (hi : ExactInv sq err im0 md0 t md) (x : ℕ → ℤ) (δ : ℚ) :
    ExactInv sq err im0 md0 ((exactEval 1 sq err).evalSol t x δ md).1 ((exactEval 1 sq err).evalSol t x δ md).2 ∧
    ((exactEval 1 sq err).evalSol t x δ md).2 ≤ md ∧
    ((exactEval 1 sq err).evalSol t x δ md).1.2 ≤ t.2 ∧ ((exactEval 1 sq err).evalSol t x δ md).1.2 ≤ sq x ∧
    (sq x ≤ t.2 → ((exactEval 1 sq err).evalSol t x δ md).1.1.sols = [((sq x : ℚ) + err (sq x), x)]) ∧
    (¬ sq x ≤ t.2 → ((exactEval 1 sq err).evalSol t x δ md).1.1.sols = t.1.sols) := by
  obtain ⟨h1, h2, h3⟩ := hi
  unfold exactEval
  dsimp only
  by_cases hc : sq x ≤ t.2
  · rw [if_pos (.inr hc)]
    have hx := hsq x
    have key : processSol 1 .best t.1 (sq x + err (sq x)) x md =
        ({ t.1 with sols := [((sq x : ℚ) + err (sq x), x)], count := t.1.count + 1 }, (sq x : ℚ) + err (sq x)) := by
      rcases h3 with ⟨h4, -, -⟩ | ⟨y, h4, -, -⟩
      · simp [processSol, h4, emplace]
      · have := hmono _ _ hx hc
        simp [processSol, h4, emplace, this]
    rw [key]
    refine ⟨⟨hx, hc.trans h2, .inr ⟨x, rfl, rfl, rfl⟩⟩, ?_, hc, le_rfl, fun _ => rfl, fun h => absurd hc h⟩
    have h5 := hmono _ _ hx hc
    have h6 := hmono _ _ h1 h2
    dsimp only
    rcases h3 with ⟨-, -, h7⟩ | ⟨y, -, -, h7⟩
    · rw [h7]; exact (h5.trans h6).trans hmd0
    · rw [h7]; exact h5
  · rw [if_neg (by omega)]
    exact ⟨⟨h1, h2, h3⟩, le_rfl, le_rfl, by dsimp only; omega, fun h => absurd h hc, fun _ => rfl⟩

theorem exactEval_sub {sq : (ℕ → ℤ) → ℤ} {err : ℚ → ℚ} (N : ℕ) (t : EvSt × ℤ) (k : ℕ) (x : ℕ → ℤ) (δ : ℚ) :
    ((exactEval N sq err).evalSub t k x δ).1.sols = t.1.sols ∧ ((exactEval N sq err).evalSub t k x δ).2 = t.2 := by
  unfold exactEval
  dsimp only
  split
  · exact ⟨rfl, rfl⟩
  · split_ifs
    · exact ⟨rfl, rfl⟩
    · exact ⟨rfl, rfl⟩

theorem exactEval_sub_inv {sq : (ℕ → ℤ) → ℤ} {err : ℚ → ℚ} {im0 : ℤ} {md0 : ℚ} {t : EvSt × ℤ} {md : ℚ}
    (hi : ExactInv sq err im0 md0 t md) (N k : ℕ) (x : ℕ → ℤ) (δ : ℚ) :
    ExactInv sq err im0 md0 ((exactEval N sq err).evalSub t k x δ) md := by
  obtain ⟨e1, e2⟩ := exactEval_sub (sq := sq) (err := err) N t k x δ
  exact ⟨by rw [e2]; exact hi.nonneg, by rw [e2]; exact hi.le, by rw [e1, e2]; exact hi.sols⟩

theorem exactEval_ok {c : Cfg} (hp : PruneOK c) {sq : (ℕ → ℤ) → ℤ} {err : ℚ → ℚ} {im0 : ℤ} {md0 : ℚ}
    (hsq : ∀ x, 0 ≤ sq x) (hmono : ∀ i j : ℤ, 0 ≤ i → i ≤ j → (i : ℚ) + err i ≤ j + err j)
    (hmd0 : (im0 : ℚ) + err im0 ≤ md0) : EvalOK c (exactEval 1 sq err) (ExactInv sq err im0 md0) where
  sol e md x d hi _ _ _ := by
    obtain ⟨h1, h2, -⟩ := exactEval_sol hsq hmono hmd0 hi x d
    exact ⟨h1, fun k hk => setBounds_mono hp h2 k hk⟩
  sub e md l x d hi := exactEval_sub_inv hi 1 l x d

/-- the exact evaluator keeps a shortest one of the vectors it is offered -/
theorem exactEval_fold {sq : (ℕ → ℤ) → ℤ} {err : ℚ → ℚ} {im0 : ℤ} {md0 : ℚ} (hsq : ∀ x, 0 ≤ sq x)
    (hmono : ∀ i j : ℤ, 0 ≤ i → i ≤ j → (i : ℚ) + err i ≤ j + err j) (hmd0 : (im0 : ℚ) + err im0 ≤ md0)
    (L : List Event) : ∀ (t : EvSt × ℤ) (md : ℚ), ExactInv sq err im0 md0 t md →
      (L.foldl (evStep (exactEval 1 sq err)) (t, md)).1.2 ≤ t.2 ∧
      (∀ x δ, Event.sol x δ ∈ L → (L.foldl (evStep (exactEval 1 sq err)) (t, md)).1.2 ≤ sq x) ∧
      ((L.foldl (evStep (exactEval 1 sq err)) (t, md)).1.1.sols = t.1.sols ∧
          (∀ x δ, Event.sol x δ ∈ L → ¬ sq x ≤ t.2) ∨
        ∃ x δ, Event.sol x δ ∈ L ∧ (L.foldl (evStep (exactEval 1 sq err)) (t, md)).1.1.sols =
          [((sq x : ℚ) + err (sq x), x)]) := by
  induction L with
  | nil => intro t md _; exact ⟨le_rfl, by simp, .inl ⟨rfl, by simp⟩⟩
  | cons a L ih =>
    intro t md hi
    rw [List.foldl_cons]
    cases a with
    | node k x d =>
      obtain ⟨h1, h2, h3⟩ := ih t md hi
      refine ⟨h1, fun x δ hm => h2 x δ (by simpa using hm), ?_⟩
      rcases h3 with ⟨h3, h4⟩ | ⟨x, δ, h3, h4⟩
      · exact .inl ⟨h3, fun x δ hm => h4 x δ (by simpa using hm)⟩
      · exact .inr ⟨x, δ, List.mem_cons_of_mem _ h3, h4⟩
    | sub k x d =>
      obtain ⟨e1, e2⟩ := exactEval_sub (sq := sq) (err := err) 1 t k x d
      obtain ⟨h1, h2, h3⟩ := ih ((exactEval 1 sq err).evalSub t k x d) md (exactEval_sub_inv hi 1 k x d)
      rw [e2] at h1 h3
      rw [e1] at h3
      refine ⟨h1, fun x δ hm => h2 x δ (by simpa using hm), ?_⟩
      rcases h3 with ⟨h3, h4⟩ | ⟨x, δ, h3, h4⟩
      · exact .inl ⟨h3, fun x δ hm => h4 x δ (by simpa using hm)⟩
      · exact .inr ⟨x, δ, List.mem_cons_of_mem _ h3, h4⟩
    | sol x d =>
      obtain ⟨g1, g2, g3, g4, g5, g6⟩ := exactEval_sol hsq hmono hmd0 hi x d
      obtain ⟨h1, h2, h3⟩ := ih _ _ g1
      change _ ∧ (∀ y δ, _ → (L.foldl (evStep (exactEval 1 sq err)) (((exactEval 1 sq err).evalSol t x d md).1,
        ((exactEval 1 sq err).evalSol t x d md).2)).1.2 ≤ sq y) ∧ _
      refine ⟨h1.trans g3, ?_, ?_⟩
      · intro y δ hm
        rcases List.mem_cons.1 hm with hm | hm
        · cases hm; exact h1.trans g4
        · exact h2 y δ hm
      · rcases h3 with ⟨h3, h4⟩ | ⟨y, δ, h3, h4⟩
        · by_cases hc : sq x ≤ t.2
          · exact .inr ⟨x, d, by simp, h3.trans (g5 hc)⟩
          · refine .inl ⟨h3.trans (g6 hc), ?_⟩
            intro y δ hm
            rcases List.mem_cons.1 hm with hm | hm
            · cases hm; exact hc
            · have := h4 y δ hm
              have e : ((exactEval 1 sq err).evalSol t x d md).1.2 = t.2 := by
                unfold exactEval; dsimp only; rw [if_neg (by have := hi.nonneg; omega)]
              rwa [e] at this
        · exact .inr ⟨y, δ, List.mem_cons_of_mem _ h3, h4⟩

/-- what the exact evaluator holds after a primal enumeration without pruning -/
theorem proved_core {D n : ℕ} {b : Mat ℤ} {mu : ℕ → ℕ → ℚ} {r : ℕ → ℚ} {sqRow : ℕ → ℤ} {sq : ℕ → (ℕ → ℤ) → ℤ}
    (H : Data D n b mu r sqRow sq) (hp : ∀ i < D, 0 < normStar n (basisQ b) i) (hD : 0 < D) {err : ℚ → ℚ}
    (herr : ∀ q, 0 ≤ q → 0 ≤ err q) (hmono : ∀ i j : ℤ, 0 ≤ i → i ≤ j → (i : ℚ) + err i ≤ j + err j) {a : Args}
    (hpr : a.pruning = none) (hdual : a.dual = false) (hovr : a.overrideBnd = false) {d : ℕ}
    (hd : d = lastUseful r (D - 1)) :
    (svpInput mu r d (svpBound r sqRow err d a) a).OK ∧
    EvalOK (svpInput mu r d (svpBound r sqRow err d a) a).cfg (exactEval 1 (sq d) err)
      (ExactInv (sq d) err (intMaxDist sqRow d a) (svpBound r sqRow err d a)) ∧
    ExactInv (sq d) err (intMaxDist sqRow d a) (svpBound r sqRow err d a) (EvSt.new, intMaxDist sqRow d a)
      (svpBound r sqRow err d a) ∧
    ∀ {ev : EvSt × ℤ} {md' : ℚ} {L : List Event}, Found (svpInput mu r d (svpBound r sqRow err d a) a)
      (exactEval 1 (sq d) err) (ExactInv (sq d) err (intMaxDist sqRow d a) (svpBound r sqRow err d a))
      (EvSt.new, intMaxDist sqRow d a) ev md' L →
    ∃ x, ev.1.sols = [((sqLen n (comb d b x) : ℚ) + err (sqLen n (comb d b x)), x)] ∧
      IsShortest D n b (fun i => if i < d then x i else 0) := by
  obtain ⟨l1, l2, l3⟩ := lastUseful_spec r (D - 1)
  rw [← hd] at l1 l2 l3
  have hdD : d ≤ D := by omega
  have hsqe : ∀ x, sq d x = sqLen n (comb d b x) := H.sq d hdD
  have hsq : ∀ x, 0 ≤ sq d x := fun x => by
    rw [hsqe]; exact Finset.sum_nonneg (fun c _ => sq_nonneg _)
  obtain ⟨m0, m1, i0, hi0, m2⟩ := svpBound_ge H (d := d) l1 hdD herr hdual
  have him : intMaxDist sqRow d a = getBasisMin sqRow 0 d := by unfold intMaxDist; simp [hdual]
  have hmd : svpBound r sqRow err d a = (getBasisMin sqRow 0 d : ℤ) + err (getBasisMin sqRow 0 d : ℤ) := by
    unfold svpBound; simp [hdual, hovr]
  rw [him]
  set im0 := getBasisMin sqRow 0 d with him0
  set md := svpBound r sqRow err d a with hmdd
  set p := svpInput mu r d md a with hpdef
  have hok : p.OK := svpInput_ok H hp l1 hdD md hpr
  have hE : EvalOK p.cfg (exactEval 1 (sq d) err) (ExactInv (sq d) err im0 md) :=
    exactEval_ok (pruneOK_none hok hpr) hsq hmono hmd.ge
  have hI : ExactInv (sq d) err im0 md (EvSt.new, im0) md := ⟨m0, le_rfl, .inl ⟨rfl, rfl, rfl⟩⟩
  refine ⟨hok, hE, hI, ?_⟩
  intro ev md' L F
  have hdist : ∀ v, p.dist v 0 = sqLen n (comb d b v) := svp_dist H hp hdD md hdual
  obtain ⟨f1, f2, f3⟩ := exactEval_fold hsq hmono hmd.ge L (EvSt.new, im0) md hI
  have hfold : (ev, md') = L.foldl (evStep (exactEval 1 (sq d) err)) ((EvSt.new, im0), md) := F.fold
  rw [← hfold] at f1 f2 f3
  have hevd : ∀ x δ, Event.sol x δ ∈ L → δ = (sq d x : ℚ) ∧ 0 < δ := by
    intro x δ hm
    obtain ⟨h1, h2, -⟩ := F.sound x δ hm
    exact ⟨by rw [h1, hdist, hsqe], h2⟩
  have hmem : ∀ v : ℕ → ℤ, (∃ j < d, v j ≠ 0) → (sqLen n (comb d b v) : ℚ) ≤ md' →
      ∃ w, (∃ δ, Event.sol w δ ∈ L) ∧ sq d w = sqLen n (comb d b v) := by
    intro v hv hle
    obtain ⟨w, hw⟩ := F.offered_dist hok rfl rfl hpr hv (by rw [hdist]; exact hle)
    refine ⟨w, ⟨_, hw⟩, ?_⟩
    have := (hevd w _ hw).1
    rw [hdist] at this
    exact_mod_cast this.symm
  rcases f3 with ⟨f3, f4⟩ | ⟨x, δ, hx, f3⟩
  · exfalso
    rcases F.inv.sols with ⟨-, -, hmax⟩ | ⟨x, h4, -⟩
    · obtain ⟨w, ⟨δ, hw⟩, hsw⟩ := hmem (unit i0) ⟨i0, hi0, by simp [unit]⟩ (by
        rw [comb_unit b hi0, ← m2, hmax]; exact m1)
      refine f4 w δ hw ?_
      rw [hsw, comb_unit b hi0, ← m2]
    · rw [f3] at h4; cases h4
  · rcases F.inv.sols with ⟨h4, -⟩ | ⟨y, h4, h5, h6⟩
    · rw [h4] at f3; cases f3
    · have hxy : y = x := by
        rw [h4] at f3
        simp only [List.cons.injEq, Prod.mk.injEq, and_true] at f3
        exact f3.2
      subst hxy
      refine ⟨y, by rw [f3, hsqe], ?_⟩
      have hnz : ∃ i < d, y i ≠ 0 := F.ne_zero hok rfl hx
      refine shortest_of_trunc H.r hp hD hd hnz (fun v hv => ?_)
      rw [← hsqe y, h5]
      by_contra hc
      push Not at hc
      obtain ⟨w, ⟨δ', hw⟩, hsw⟩ := hmem v hv (by
        rw [h6]
        have h9 : (sqLen n (comb d b v) : ℚ) ≤ ev.2 := by exact_mod_cast hc.le
        have := herr ev.2 (by exact_mod_cast F.inv.nonneg)
        linarith)
      have := f2 w δ' hw
      dsimp only at this
      omega

/-! ## Dual enumeration -/

theorem svp_dist_dual {D n : ℕ} {b : Mat ℤ} {mu : ℕ → ℕ → ℚ} {r : ℕ → ℚ} {sqRow : ℕ → ℤ} {sq : ℕ → (ℕ → ℤ) → ℤ}
    (H : Data D n b mu r sqRow sq) (hp : ∀ i < D, 0 < normStar n (basisQ b) i) {d : ℕ} (hd : d ≤ D) (md : ℚ) {a : Args}
    (hdual : a.dual = true) (v x : ℕ → ℤ) (hx : ∀ i < d, x i = v (d - 1 - i)) {w : ℕ → ℚ}
    (hw : DualVec d n (basisQ b) x w) : (svpInput mu r d md a).dist v 0 = dotQ n w w := by
  obtain ⟨⟨g, rfl⟩, h2⟩ := hw
  exact C11_distance_dual (svpInput_from H hd md a) hdual rfl rfl (fun i hi => hp i (lt_of_lt_of_le hi hd)) v g
    (fun i hi => by
      have hi' : i < d := hi
      have := h2 i hi
      rw [hx i hi'] at this
      exact this)

/-- the dual vector of the last basis vector has squared length `1 / r_{d-1}` -/
theorem dual_last {d n : ℕ} {B : ℕ → ℕ → ℚ} (hp : ∀ i < d, 0 < normStar n B i) (hd : 0 < d) :
    ∃ w, DualVec d n B (unit (d - 1)) w ∧ dotQ n w w = 1 / normStar n B (d - 1) := by
  obtain ⟨g, hg1, hg⟩ := bstar_lc n B (d - 1)
  have h0 := (hp (d - 1) (by omega)).ne'
  refine ⟨fun c => 1 / normStar n B (d - 1) * bstar n B (d - 1) c,
    ⟨⟨fun k => 1 / normStar n B (d - 1) * g k, ?_⟩, ?_⟩, ?_⟩
  · funext c
    rw [hg c]
    unfold lc
    rw [Finset.mul_sum, show d - 1 + 1 = d by omega]
    exact Finset.sum_congr rfl (fun k _ => by ring)
  · intro i hi
    have h1 : dotQ n (fun c => 1 / normStar n B (d - 1) * bstar n B (d - 1) c) (B i) =
        1 / normStar n B (d - 1) * rS n B i (d - 1) := by
      unfold dotQ rS dotQ
      rw [Finset.mul_sum]
      exact Finset.sum_congr rfl (fun k _ => by ring)
    rw [h1]
    unfold unit
    split_ifs with h
    · rw [h, rS_self]; field_simp; simp
    · rw [rS_lt n B (by omega)]; simp
  · have h1 : dotQ n (fun c => 1 / normStar n B (d - 1) * bstar n B (d - 1) c)
        (fun c => 1 / normStar n B (d - 1) * bstar n B (d - 1) c) =
        1 / normStar n B (d - 1) * (1 / normStar n B (d - 1)) * normStar n B (d - 1) := by
      generalize 1 / normStar n B (d - 1) = e
      unfold normStar dotQ
      rw [Finset.mul_sum]
      exact Finset.sum_congr rfl (fun k _ => by ring)
    rw [h1]
    field_simp

/-- what the fast evaluator holds after a dual enumeration without pruning -/
theorem dual_core {D n : ℕ} {b : Mat ℤ} {mu : ℕ → ℕ → ℚ} {r : ℕ → ℚ} {sqRow : ℕ → ℤ} {sq : ℕ → (ℕ → ℤ) → ℤ}
    (H : Data D n b mu r sqRow sq) (hp : ∀ i < D, 0 < normStar n (basisQ b) i) (hD : 0 < D) {err : ℚ → ℚ}
    (herr : ∀ q, 0 ≤ q → 0 ≤ err q) {a : Args} (hpr : a.pruning = none) (hdual : a.dual = true) {d : ℕ}
    (hd : d = lastUseful r (D - 1)) {N : ℕ} (hN : 1 ≤ N) {fuel : ℕ} {s' : St EvSt}
    (run : enumerate (svpInput mu r d (svpBound r sqRow err d a) a) (fastEval N .best) fuel EvSt.new = some s') :
    s'.ev.sols ≠ [] ∧
    ∀ q, s'.ev.sols.getLast? = some q →
      IsShortestDual d n (basisQ b) (fun i => if i < d then q.2 (d - 1 - i) else q.2 i) := by
  obtain ⟨l1, l2, l3⟩ := lastUseful_spec r (D - 1)
  rw [← hd] at l1 l2 l3
  have hdD : d ≤ D := by omega
  have hpd : ∀ i < d, 0 < normStar n (basisQ b) i := fun i hi => hp i (by omega)
  have hmd1 : 1 / normStar n (basisQ b) (d - 1) ≤ svpBound r sqRow err d a := by
    unfold svpBound
    simp only [hdual, if_true]
    rw [H.r (d - 1) (by omega)]
    have h0 : 0 ≤ 1 / normStar n (basisQ b) (d - 1) := by have := hpd (d - 1) (by omega); positivity
    split_ifs
    · exact le_rfl
    · have := herr _ h0; linarith
  set md := svpBound r sqRow err d a with hmd
  set p := svpInput mu r d md a with hpdef
  have hok : p.OK := svpInput_ok H hp l1 hdD md hpr
  have hmd0 : 0 ≤ p.maxdist := by
    have := hpd (d - 1) (by omega)
    have h0 : 0 ≤ 1 / normStar n (basisQ b) (d - 1) := by positivity
    exact h0.trans hmd1
  have hsym : p.Symm := svpInput_symm mu r d md a
  have hag : ∀ v, p.Agrees v := svpInput_agrees mu r d md a
  have hdist : ∀ v x, (∀ i < d, x i = v (d - 1 - i)) → ∀ w, DualVec d n (basisQ b) x w → p.dist v 0 = dotQ n w w :=
    fun v x hx w hw => svp_dist_dual H hp hdD md hdual v x hx hw
  obtain ⟨e1, e2, e3⟩ := C15_enumerate_finds_N_shortest hN hok hpr hmd0 run
  have S := enumerate_done hok (fastEval_ok (pruneOK_none hok hpr) N .best) (fastInv_new .best hmd0 hok.mrep) run
  have hdesc : Desc s'.ev.sols := by
    rw [(fast_result S).1]
    exact (C15_best_keeps_N_shortest hN p.maxdist (offersOf s'.events)).1.desc
  have hne : s'.ev.sols ≠ [] := by
    obtain ⟨w, hw, hw2⟩ := dual_last hpd l1
    have h1 : p.dist (unit 0) 0 ≤ p.maxdist := by
      rw [hdist (unit 0) (unit (d - 1)) (fun i hi => by unfold unit; grind) w hw, hw2]
      exact hmd1
    rcases e3 (unit 0) (hag _) h1 (fun _ => ⟨0, l1, by simp [unit]⟩) with h | ⟨h, -⟩
    · obtain ⟨q, hq, -⟩ := stored_dist hok.rnd hsym h
      exact List.ne_nil_of_mem hq
    · intro h0; rw [h0] at h; simp at h; omega
  have hlast : ∀ q, s'.ev.sols.getLast? = some q → ∀ q' ∈ s'.ev.sols, q.1 ≤ q'.1 := by
    intro q hq q' hq'
    obtain ⟨L, hL⟩ := List.getLast?_eq_some_iff.1 hq
    rw [hL] at hq' hdesc
    unfold Desc at hdesc
    rw [List.pairwise_append] at hdesc
    rcases List.mem_append.1 hq' with h | h
    · exact hdesc.2.2 q' h q (by simp)
    · simp at h; rw [h]
  refine ⟨hne, fun q hq => ?_⟩
  have hqm : q ∈ s'.ev.sols := List.mem_of_getLast? hq
  have hq1 := (e2 q hqm).2.1
  have hpos := (e2 q hqm).2.2.2 hsym
  have hnz : ∃ i < d, q.2 i ≠ 0 := by
    by_contra hc
    push Not at hc
    rw [hq1, dist_zero_of_zero hok.rnd hsym.1 (fun j hj => hc j hj)] at hpos
    exact lt_irrefl _ hpos
  constructor
  · obtain ⟨i, h1, h2⟩ := hnz
    refine ⟨d - 1 - i, by omega, ?_⟩
    dsimp only
    rw [if_pos (by omega), show d - 1 - (d - 1 - i) = i by omega]
    exact h2
  · intro y hy w w' hw hw'
    have e1 : p.dist q.2 0 = dotQ n w w := hdist q.2 _ (fun i hi => by simp [hi]) w hw
    have e2' : p.dist (fun i => y (d - 1 - i)) 0 = dotQ n w' w' :=
      hdist _ y (fun i hi => by rw [show d - 1 - (d - 1 - i) = i by omega]) w' hw'
    rw [← e1, ← e2', ← hq1]
    have hy' : ∃ j < d, y (d - 1 - j) ≠ 0 := by
      obtain ⟨i, h1, h2⟩ := hy
      exact ⟨d - 1 - i, by omega, by rwa [show d - 1 - (d - 1 - i) = i by omega]⟩
    rcases le_or_gt (p.dist (fun i => y (d - 1 - i)) 0) p.maxdist with h | h
    · rcases e3 _ (hag _) h (fun _ => hy') with h' | ⟨-, h'⟩
      · obtain ⟨q', hq', h2⟩ := stored_dist hok.rnd hsym h'
        rw [← h2]; exact hlast q hq q' hq'
      · exact h' q hqm
    · exact ((e2 q hqm).2.2.1).trans h.le

/-! ## The data of the GSO object -/

theorem session_data {d n : ℕ} (hn : 1 ≤ n) (ig wu wi fl : Bool) (b u v jz : Mat ℤ) (jf : Mat Exact) (s : GSO Exact)
    (h : Session (GSO.mk0 d n ig wu wi fl b u v jz jf) s none) (hu : s.colsLocked = false)
    (hp : ∀ i < s.d, 0 < normStar s.nCols (basisQ s.b) i) :
    s.updateGso.2.b = s.b ∧ s.updateGso.2.nCols = s.nCols ∧
    (∀ i j, j < i → i < s.d → s.updateGso.2.mu i j = some (muS s.nCols (basisQ s.b) i j)) ∧
    (∀ i, i < s.d → s.updateGso.2.r i i = some (normStar s.nCols (basisQ s.b) i)) ∧
    (∀ i, i < s.d → s.updateGso.2.getIntGram i i = sqLen s.nCols (s.b i)) := by
  obtain ⟨c1, c2, c3⟩ := C07_update_gso hn ig wu wi fl b u v jz jf s h hu
  have hwf := (GSO.mk0_wf d n ig wu wi fl b u v jz jf hn).1
  obtain ⟨hs, hf⟩ := h.inv hwf (GSO.mk0_fresh d n ig wu wi fl b u v jz jf hn)
  obtain ⟨b1, b2, b3, b4, b5, b6, b7, b8⟩ :=
    updateGsoFrom_fresh s.d 0 s hs hf hu (by omega) (by omega) (by intro k hk; omega)
  have hok : s.updateGso.1 = true := by
    by_contra hc
    obtain ⟨k, k1, k2⟩ := c3 (by simpa using hc)
    exact absurd k2 (hp k (by omega)).ne'
  refine ⟨c1, b4, fun i j h1 h2 => (c2 hok i h2 j h1.le).2.1 h1, fun i h1 => (c2 hok i h1 i le_rfl).2.2 rfl, ?_⟩
  intro i hi
  have hk : s.updateGso.2.nKnownRows = s.d := (b6 hok).1
  have hsrc : s.updateGso.2.nSourceRows = s.updateGso.2.nKnownRows := b1.unlocked b8
  have hip : s.updateGso.2.ip i i = sqLen s.nCols (s.b i) := by
    unfold GSO.ip sqLen
    rw [show s.updateGso.2.nCols = s.nCols from b4, c1]
    exact Finset.sum_congr rfl (fun c _ => by ring)
  rw [← hip]
  unfold GSO.getIntGram
  split_ifs with hg
  · have := b1.gram hg i (by rw [b6 hok |>.1]; exact hi) i (by rw [b6 hok |>.1]; exact hi)
    rw [symGet_of_le _ le_rfl] at this
    exact this
  · refine GSO.dotZ_ip b1.cols_le ?_
    intro c hc h1
    right
    exact b1.zeroSrc i (by change i < s.updateGso.2.nSourceRows; omega) c hc h1

theorem data_of_gso {D n : ℕ} {b : Mat ℤ} {g : GSO Exact} {sqRow : ℕ → ℤ}
    (hmu : ∀ i j, j < i → i < D → g.mu i j = some (muS n (basisQ b) i j))
    (hr : ∀ i, i < D → g.r i i = some (normStar n (basisQ b) i))
    (hrow : ∀ i, i < D → sqRow i = sqLen n (b i)) :
    Data D n b (fun i j => val (g.mu i j)) (fun i => val (g.r i i)) sqRow
      (fun d x => sqZ n (vecMat D n (fun i => if i < d then x i else 0) b)) where
  mu i j h1 h2 := by simp [val, hmu i j h1 h2]
  r i h := by simp [val, hr i h]
  sqRow := hrow
  sq d hd x := by
    rw [sqZ_eq]
    apply sqLen_congr
    intro c hc
    rw [vecMat_eq, if_pos hc, comb_trunc hd]

end SVP
end Fplll

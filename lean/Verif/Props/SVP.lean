import Verif.Proofs.CVP

/-!
# C17, C18, C19: shortest vectors

Specification: `Spec.IsShortest`, `Spec.IsShortestDual` (Spec/Indep.lean).  `err` stands for
`get_max_error_aux`: all that is used is that it is non-negative (and, for the proved method, that
`x + err x` is monotone).
-/

open Finset

namespace Fplll
namespace SVP

open Enum Spec

/-- the Gram–Schmidt data of a basis satisfy the requirements of the core theorems -/
theorem basis_data {D n : ℕ} (hD : 1 ≤ D) (hn : D ≤ n) (b jz : Mat ℤ) (jf : Mat Exact) (h : Indep D n (basisQ b)) :
    Data D n b (fun i j => val (((GSO.mk0 D n true false false false b (fun _ _ => 0) (fun _ _ => 0) jz jf : GSO Exact).updateGso).2.mu i j))
      (fun i => val (((GSO.mk0 D n true false false false b (fun _ _ => 0) (fun _ _ => 0) jz jf : GSO Exact).updateGso).2.r i i))
      (fun i => dotZ n (b i) (b i))
      (fun d x => sqZ n (vecMat D n (fun i => if i < d then x i else 0) b)) := by
  obtain ⟨hwf, hb, hu, hv, hd, hc, hg, hwu, hwi, hk, hl⟩ :=
    GSO.mk0_wf D n true false false false b (fun _ _ => 0) (fun _ _ => 0) jz jf (by omega)
  obtain ⟨-, -, s3, s4, -⟩ := session_data (by omega) true false false false b (fun _ _ => 0) (fun _ _ => 0) jz jf _
    (Session.start) hl (by rw [hb, hc, hd]; exact fun i hi => h.pos i hi)
  rw [hd, hb, hc] at s3 s4
  refine data_of_gso s3 s4 (fun i _ => ?_)
  rw [dotZ_eq]
  unfold sqLen
  exact Finset.sum_congr rfl (fun c _ => by ring)

/-- the fast method on given Gram–Schmidt data -/
theorem svpCore_fast {D n : ℕ} {b : Mat ℤ} {mu : ℕ → ℕ → ℚ} {r : ℕ → ℚ} {sqRow : ℕ → ℤ} {sq : ℕ → (ℕ → ℤ) → ℤ}
    (H : Data D n b mu r sqRow sq) (h : Indep D n (basisQ b)) (hD : 0 < D) {err : ℚ → ℚ}
    (herr : ∀ q, 0 ≤ q → 0 ≤ err q) (ovr : Bool) : ∃ N, ∀ fuel, N ≤ fuel → ∃ res,
      svpCore D mu r sqRow sq err (shortestArgs .fast false ovr) fuel = .done res ∧ res.success = true ∧
      IsShortest D n b res.coord := by
  set a := shortestArgs .fast false ovr
  set d := lastUseful r (D - 1) with hd
  have l1 := (lastUseful_spec r (D - 1)).1
  have l2 := (lastUseful_spec r (D - 1)).2.1
  rw [← hd] at l1 l2
  have hok := svpInput_ok H h.pos l1 (by omega : d ≤ D) (svpBound r sqRow err d a) (a := a) rfl
  obtain ⟨m0, m1, -⟩ := svpBound_ge H (d := d) l1 (by omega) herr (a := a) rfl
  have hmd0 : 0 ≤ svpBound r sqRow err d a := le_trans (by exact_mod_cast m0) m1
  obtain ⟨N, s', hN⟩ := C13_terminates hok (fastEval_ok (pruneOK_none hok rfl) 1 .best) (fastInv_new .best hmd0 hok.mrep)
  refine ⟨N, fun fuel hf => ?_⟩
  have run := hN fuel hf
  obtain ⟨c1, c2, c3, c4, c5, -⟩ := fast_core H h.pos hD herr (a := a) rfl rfl hd le_rfl run
  have e : svpCore D mu r sqRow sq err a fuel = collect d a s'.ev := by
    unfold svpCore
    dsimp only
    rw [← hd, show a.method = .fast from rfl, show a.maxAuxSols + 1 = 1 from rfl]
    simp only [run]
  obtain ⟨q, hq⟩ : ∃ q, s'.ev.sols.getLast? = some q := by
    cases hl : s'.ev.sols.getLast? with
    | none => exact absurd (List.getLast?_eq_none_iff.1 hl) c1
    | some q => exact ⟨q, rfl⟩
  have hh : s'.ev.sols.reverse.head? = some q := by rw [List.head?_reverse]; exact hq
  refine ⟨{ success := true, coord := fun i => if i < d then q.2 i else 0, subs := fun _ => none, aux := none },
    ?_, rfl, c5 q hq⟩
  rw [e]
  unfold collect
  simp [a, shortestArgs, c1, hq]

/-- the proved method on given Gram–Schmidt data -/
theorem svpCore_proved {D n : ℕ} {b : Mat ℤ} {mu : ℕ → ℕ → ℚ} {r : ℕ → ℚ} {sqRow : ℕ → ℤ} {sq : ℕ → (ℕ → ℤ) → ℤ}
    (H : Data D n b mu r sqRow sq) (h : Indep D n (basisQ b)) (hD : 0 < D) {err : ℚ → ℚ}
    (herr : ∀ q, 0 ≤ q → 0 ≤ err q) (hmono : ∀ x y : ℚ, 0 ≤ x → x ≤ y → x + err x ≤ y + err y) :
    ∃ N, ∀ fuel, N ≤ fuel → ∃ res,
      svpCore D mu r sqRow sq err (shortestArgs .proved false false) fuel = .done res ∧ res.success = true ∧
      IsShortest D n b res.coord := by
  set a := shortestArgs .proved false false
  set d := lastUseful r (D - 1) with hd
  obtain ⟨hok, hE, hI, hres⟩ := proved_core H h.pos hD herr
    (fun i j h1 h2 => hmono i j (by exact_mod_cast h1) (by exact_mod_cast h2)) (a := a) rfl rfl rfl hd
  obtain ⟨N, s', hN⟩ := C13_terminates hok hE hI
  refine ⟨N, fun fuel hf => ?_⟩
  have run := hN fuel hf
  obtain ⟨x, hx, hx2⟩ := hres (found_dyn hok hE hI rfl rfl run)
  have e : svpCore D mu r sqRow sq err a fuel = collect d a s'.ev.1 := by
    unfold svpCore
    dsimp only
    rw [← hd, show a.method = .proved from rfl, show a.maxAuxSols + 1 = 1 from rfl]
    simp only [run]
  refine ⟨{ success := true, coord := fun i => if i < d then x i else 0, subs := fun _ => none, aux := none },
    ?_, rfl, hx2⟩
  rw [e]
  unfold collect
  simp [a, shortestArgs, hx]

theorem svpBasis_eq {D n : ℕ} (hD : 1 ≤ D) (hn : D ≤ n) (b jz : Mat ℤ) (jf : Mat Exact) (err : ℚ → ℚ) (a : Args)
    (fuel : ℕ) : svpBasis D n b jz jf err a fuel =
      svpCore D (fun i j => val (((GSO.mk0 D n true false false false b (fun _ _ => 0) (fun _ _ => 0) jz jf : GSO Exact).updateGso).2.mu i j))
      (fun i => val (((GSO.mk0 D n true false false false b (fun _ _ => 0) (fun _ _ => 0) jz jf : GSO Exact).updateGso).2.r i i))
      (fun i => dotZ n (b i) (b i))
      (fun d x => sqZ n (vecMat D n (fun i => if i < d then x i else 0) b)) err a fuel := by
  unfold svpBasis
  rw [if_neg (by simp; omega), if_neg (by simp; omega)]

theorem svpGso_eq {s : GSO Exact} (hD : 1 ≤ s.d) (hn : s.d ≤ s.nCols) (err : ℚ → ℚ) (a : Args) (fuel : ℕ) :
    svpGso s err a fuel =
      svpCore s.d (fun i j => val (s.updateGso.2.mu i j)) (fun i => val (s.updateGso.2.r i i))
        (fun i => s.updateGso.2.getIntGram i i)
        (fun d x => sqZ s.updateGso.2.nCols (vecMat s.d s.updateGso.2.nCols (fun i => if i < d then x i else 0) s.updateGso.2.b))
        err a fuel := by
  unfold svpGso
  rw [if_neg (by simp; omega), if_neg (by simp; omega)]

/-- **C17.**  `shortest_vector` with the fast method: for every basis of independent rows, whatever the
uninitialised memory, it terminates, reports success and returns the coordinates of a non-zero vector of minimal
length of the whole lattice. -/
theorem C17_shortest_vector {D n : ℕ} (hD : 1 ≤ D) (hn : D ≤ n) (b jz : Mat ℤ) (jf : Mat Exact)
    (h : Indep D n (basisQ b)) {err : ℚ → ℚ} (herr : ∀ q, 0 ≤ q → 0 ≤ err q) (ovr : Bool) :
    ∃ N, ∀ fuel, N ≤ fuel → ∃ res, svpBasis D n b jz jf err (shortestArgs .fast false ovr) fuel = .done res ∧
      res.success = true ∧ IsShortest D n b res.coord := by
  simp only [svpBasis_eq hD hn]
  exact svpCore_fast (basis_data hD hn b jz jf h) h hD herr ovr

/-- **C17**, proved method. -/
theorem C17_shortest_vector_proved {D n : ℕ} (hD : 1 ≤ D) (hn : D ≤ n) (b jz : Mat ℤ) (jf : Mat Exact)
    (h : Indep D n (basisQ b)) {err : ℚ → ℚ} (herr : ∀ q, 0 ≤ q → 0 ≤ err q)
    (hmono : ∀ x y : ℚ, 0 ≤ x → x ≤ y → x + err x ≤ y + err y) :
    ∃ N, ∀ fuel, N ≤ fuel → ∃ res, svpBasis D n b jz jf err (shortestArgs .proved false false) fuel = .done res ∧
      res.success = true ∧ IsShortest D n b res.coord := by
  simp only [svpBasis_eq hD hn]
  exact svpCore_proved (basis_data hD hn b jz jf h) h hD herr hmono

/-- the Gram–Schmidt data of a GSO object at any point of its life -/
theorem gso_data {d n : ℕ} (hn : 1 ≤ n) (ig wu wi fl : Bool) (b u v jz : Mat ℤ) (jf : Mat Exact) (s : GSO Exact)
    (hs : Session (GSO.mk0 d n ig wu wi fl b u v jz jf) s none) (hu : s.colsLocked = false)
    (h : Indep s.d s.nCols (basisQ s.b)) :
    Data s.d s.nCols s.b (fun i j => val (s.updateGso.2.mu i j)) (fun i => val (s.updateGso.2.r i i))
      (fun i => s.updateGso.2.getIntGram i i)
      (fun e x => sqZ s.updateGso.2.nCols (vecMat s.d s.updateGso.2.nCols (fun i => if i < e then x i else 0) s.updateGso.2.b)) := by
  obtain ⟨s1, s2, s3, s4, s5⟩ := session_data hn ig wu wi fl b u v jz jf s hs hu h.pos
  rw [s1, s2]
  exact data_of_gso s3 s4 s5

/-- **C17** for the variant that takes a GSO object: after any disciplined use of the object (C07) the result is a
shortest vector of the lattice of its current basis. -/
theorem C17_shortest_vector_gso {d n : ℕ} (hn : 1 ≤ n) (ig wu wi fl : Bool) (b u v jz : Mat ℤ) (jf : Mat Exact)
    (s : GSO Exact) (hs : Session (GSO.mk0 d n ig wu wi fl b u v jz jf) s none) (hu : s.colsLocked = false)
    (hd1 : 1 ≤ s.d) (hdn : s.d ≤ s.nCols) (h : Indep s.d s.nCols (basisQ s.b)) {err : ℚ → ℚ}
    (herr : ∀ q, 0 ≤ q → 0 ≤ err q) (ovr : Bool) :
    ∃ N, ∀ fuel, N ≤ fuel → ∃ res, svpGso s err (shortestArgs .fast false ovr) fuel = .done res ∧
      res.success = true ∧ IsShortest s.d s.nCols s.b res.coord := by
  simp only [svpGso_eq hd1 hdn]
  exact svpCore_fast (gso_data hn ig wu wi fl b u v jz jf s hs hu h) h hd1 herr ovr

/-- a basis of a lattice in which the shortest vector is not a basis vector -/
def demoBasis : Mat ℤ := fun i j => if i = 0 then (if j = 0 then 5 else 0) else if i = 1 then (if j = 0 then 2 else if j = 1 then 5 else 0) else 0

theorem demoBasis_indep : Indep 2 2 (basisQ demoBasis) :=
  indep_of_pos (by decide +kernel)

/-- Non-vacuity of C17. -/
example : ∃ N, ∀ fuel, N ≤ fuel → ∃ res,
    svpBasis 2 2 demoBasis (fun _ _ => 9) (fun _ _ => none) (fun q => q / 100) (shortestArgs .fast false false) fuel = .done res ∧
      res.success = true ∧ IsShortest 2 2 demoBasis res.coord :=
  C17_shortest_vector (by norm_num) (by norm_num) _ _ _ demoBasis_indep (fun q hq => by positivity) false

example : ∃ N, ∀ fuel, N ≤ fuel → ∃ res,
    svpBasis 2 2 demoBasis (fun _ _ => 9) (fun _ _ => none) (fun q => q / 100) (shortestArgs .proved false false) fuel = .done res ∧
      res.success = true ∧ IsShortest 2 2 demoBasis res.coord :=
  C17_shortest_vector_proved (by norm_num) (by norm_num) _ _ _ demoBasis_indep (fun q hq => by positivity)
    (fun x y _ h => by linarith)

/-! ## C19 -/

/-- **C19**, `max_sols ≥ 2`: `shortest_vectors` succeeds, its list is non-empty, has at most `max_sols` entries and
is in order of increasing length; every entry is the squared length and the coordinates of a non-zero vector of the
lattice; the first one is a shortest vector.  Moreover the list is the best possible below the search radius: a
vector of the enumerated sub-lattice that is at most as long as the shortest basis vector is in the list (up to
sign) unless the list is full of vectors that are not longer. -/
theorem C19_shortest_vectors {d n : ℕ} (hn : 1 ≤ n) (ig wu wi fl : Bool) (b u v jz : Mat ℤ) (jf : Mat Exact)
    (s : GSO Exact) (hs : Session (GSO.mk0 d n ig wu wi fl b u v jz jf) s none) (hu : s.colsLocked = false)
    (hd1 : 1 ≤ s.d) (hdn : s.d ≤ s.nCols) (h : Indep s.d s.nCols (basisQ s.b)) {err : ℚ → ℚ}
    (herr : ∀ q, 0 ≤ q → 0 ≤ err q) (ovr : Bool) (maxSols : ℕ) (hm : 2 ≤ maxSols) :
    ∃ N, ∀ fuel, N ≤ fuel → ∃ res L, svpGso s err (manyArgs maxSols .fast false ovr) fuel = .done res ∧
      res.success = true ∧ res.aux = some L ∧ 1 ≤ L.length ∧ L.length ≤ maxSols ∧
      (L.Pairwise fun p q => p.1 ≤ q.1) ∧
      (∃ e, 1 ≤ e ∧ e ≤ s.d ∧
        (∀ q ∈ L, q.1 = sqLen s.nCols (comb e s.b q.2) ∧ 0 < q.1) ∧
        (∀ q, L.head? = some q → IsShortest s.d s.nCols s.b (fun i => if i < e then q.2 i else 0)) ∧
        ∀ y : ℕ → ℤ, (∃ i < e, y i ≠ 0) → (∀ i < e, sqLen s.nCols (comb e s.b y) ≤ sqLen s.nCols (s.b i)) →
          (∃ q ∈ L, (∀ i < e, q.2 i = y i) ∨ ∀ i < e, q.2 i = -y i) ∨
          (L.length = maxSols ∧ ∀ q ∈ L, q.1 ≤ sqLen s.nCols (comb e s.b y))) := by
  have H := gso_data hn ig wu wi fl b u v jz jf s hs hu h
  simp only [svpGso_eq hd1 hdn]
  set mu := fun i j => val (s.updateGso.2.mu i j)
  set r := fun i => val (s.updateGso.2.r i i)
  set sqRow := fun i => s.updateGso.2.getIntGram i i
  set sq := (fun (e : ℕ) (x : ℕ → ℤ) => sqZ s.updateGso.2.nCols
    (vecMat s.d s.updateGso.2.nCols (fun i => if i < e then x i else 0) s.updateGso.2.b))
  set a := manyArgs maxSols .fast false ovr
  set e := lastUseful r (s.d - 1) with he
  have l1 := (lastUseful_spec r (s.d - 1)).1
  have l2 := (lastUseful_spec r (s.d - 1)).2.1
  rw [← he] at l1 l2
  have hed : e ≤ s.d := by omega
  have hok := svpInput_ok H h.pos l1 hed (svpBound r sqRow err e a) (a := a) rfl
  obtain ⟨m0, m1, i0, hi0, m2⟩ := svpBound_ge H (d := e) l1 hed herr (a := a) rfl
  have hmd0 : 0 ≤ svpBound r sqRow err e a := le_trans (by exact_mod_cast m0) m1
  obtain ⟨N, s', hN⟩ := C13_terminates hok (fastEval_ok (pruneOK_none hok rfl) maxSols .best) (fastInv_new .best hmd0 hok.mrep)
  refine ⟨N, fun fuel hf => ?_⟩
  have run := hN fuel hf
  obtain ⟨c1, c2, c3, c4, c5, c6⟩ := fast_core H h.pos hd1 herr (a := a) rfl rfl he (by omega : 1 ≤ maxSols) run
  have ha : a.maxAuxSols + 1 = maxSols := by simp only [a, manyArgs]; omega
  have ha' : a.maxAuxSols ≠ 0 := by simp only [a, manyArgs]; omega
  have heq : svpCore s.d mu r sqRow sq err a fuel = collect e a s'.ev := by
    unfold svpCore
    dsimp only
    rw [← he, show a.method = .fast from rfl, ha]
    simp only [run]
  rw [heq]
  obtain ⟨q, hq⟩ : ∃ q, s'.ev.sols.getLast? = some q := by
    cases hl : s'.ev.sols.getLast? with
    | none => exact absurd (List.getLast?_eq_none_iff.1 hl) c1
    | some q => exact ⟨q, rfl⟩
  refine ⟨{ success := true, coord := fun i => if i < e then q.2 i else 0, subs := fun _ => none,
            aux := some s'.ev.sols.reverse }, s'.ev.sols.reverse, ?_, rfl, rfl, ?_, ?_, ?_, e, l1, hed, ?_, ?_, ?_⟩
  · unfold collect
    simp [show a.auxsols = true from rfl, show a.mergeSolInAux = true from rfl, show a.dual = false from rfl,
      show a.subsols = false from rfl, ha', c1, hq]
  · rw [List.length_reverse]
    exact List.length_pos_iff.2 c1
  · rw [List.length_reverse]; exact c3
  · rw [List.pairwise_reverse]; exact c2
  · intro q hq; exact c4 q (by simpa using hq)
  · intro q hq; rw [List.head?_reverse] at hq; exact c5 q hq
  · intro y hy hle
    have := c6 y hy (by
      refine le_trans ?_ m1
      rw [m2]
      exact_mod_cast hle i0 hi0)
    simpa using this

/-- **C19 fails** for `max_sols = 1`: for every lattice `shortest_vectors` reports success but leaves the caller's
lists untouched (`none`), since `max_aux_sols = 0` switches the auxiliary solutions off (svpcvp.cpp:287). -/
theorem C19_max_sols_one_fails {d n : ℕ} (hn : 1 ≤ n) (ig wu wi fl : Bool) (b u v jz : Mat ℤ) (jf : Mat Exact)
    (s : GSO Exact) (hs : Session (GSO.mk0 d n ig wu wi fl b u v jz jf) s none) (hu : s.colsLocked = false)
    (hd1 : 1 ≤ s.d) (hdn : s.d ≤ s.nCols) (h : Indep s.d s.nCols (basisQ s.b)) {err : ℚ → ℚ}
    (herr : ∀ q, 0 ≤ q → 0 ≤ err q) (ovr : Bool) :
    ∃ N, ∀ fuel, N ≤ fuel → ∃ res, svpGso s err (manyArgs 1 .fast false ovr) fuel = .done res ∧
      res.success = true ∧ res.aux = none := by
  have H := gso_data hn ig wu wi fl b u v jz jf s hs hu h
  simp only [svpGso_eq hd1 hdn]
  obtain ⟨N, hN⟩ := svpCore_fast H h hd1 herr ovr
  refine ⟨N, fun fuel hf => ?_⟩
  obtain ⟨res, h1, h2, -⟩ := hN fuel hf
  refine ⟨res, ?_, h2, ?_⟩
  · rw [← h1]
    rfl
  · revert h1
    unfold svpCore collect
    dsimp only [shortestArgs]
    split
    · intro h; cases h
    · intro h
      simp at h
      rw [← h]

/-! ## C18 -/

/-- **C18 fails**: for the basis `(1,0), (0,10)` the dual call returns `(1, 0)`, of squared length 1, although
`(0, 1)` (i.e. the vector `(0, 1/10)` of the dual lattice) has squared length 1/100.  `last_useful_index` drops the
last row, which is harmless for the lattice but not for its dual. -/
theorem C18_dual_fails : ∃ b : Mat ℤ, Indep 2 2 (basisQ b) ∧ ∃ res,
    svpBasis 2 2 b (fun _ _ => 0) (fun _ _ => none) (fun _ => 0) (shortestArgs .fast true false) 10 = .done res ∧
      res.success = true ∧ ¬ IsShortestDual 2 2 (basisQ b) res.coord := by
  let b : Mat ℤ := fun i j => if i = 0 then (if j = 0 then 1 else 0) else (if j = 1 then 10 else 0)
  have hp : ∀ i < 2, 0 < normStar 2 (basisQ b) i := by decide +kernel
  refine ⟨b, indep_of_pos hp, ?_⟩
  have h : (match svpBasis 2 2 b (fun _ _ => 0) (fun _ _ => none) (fun _ => 0) (shortestArgs .fast true false) 10 with
      | .done res => res.success && decide (res.coord 0 = 1) && decide (res.coord 1 = 0)
      | _ => false) = true := by decide +kernel
  split at h
  · rename_i res he
    simp only [Bool.and_eq_true, decide_eq_true_eq] at h
    refine ⟨res, he, h.1.1, fun hs => ?_⟩
    have := hs.2 (fun i => if i = 1 then 1 else 0) ⟨1, by norm_num, by norm_num⟩
      (fun c => if c = 0 then 1 else 0) (fun c => if c = 1 then 1 / 10 else 0)
      ⟨⟨fun i => if i = 0 then 1 else 0, by funext c; simp [lc, b, basisQ, Finset.sum_range_succ]⟩, by
        intro i hi
        interval_cases i
        · rw [h.1.2]; simp [dotQ, b, basisQ]
        · rw [h.2]; simp [dotQ, b, basisQ]⟩
      ⟨⟨fun i => if i = 1 then 1 / 100 else 0, by funext c; simp [lc, b, basisQ, Finset.sum_range_succ]; norm_num⟩, by
        intro i hi
        interval_cases i
        · simp [dotQ, b, basisQ]
        · simp [dotQ, b, basisQ]⟩
    norm_num [dotQ, Finset.sum_range_succ] at this
  · cases h

/-- **C18**, what does hold (`_partial`): with the fast method the dual call always succeeds and returns a shortest
vector of the dual of the lattice spanned by the rows `0, …, e-1` that `last_useful_index` keeps; if no row is
dropped, i.e. if `‖b*_{D-1}‖² ≤ 2 ‖b*_0‖²`, this is the dual of the whole lattice.  Missing: bases in which rows are
dropped (`C18_dual_fails`) and the proved method (`C18_dual_proved_always_fails`). -/
theorem C18_dual_partial {D n : ℕ} (hD : 1 ≤ D) (hn : D ≤ n) (b jz : Mat ℤ) (jf : Mat Exact)
    (h : Indep D n (basisQ b)) {err : ℚ → ℚ} (herr : ∀ q, 0 ≤ q → 0 ≤ err q) (ovr : Bool) :
    ∃ e, 1 ≤ e ∧ e ≤ D ∧ (normStar n (basisQ b) (D - 1) ≤ 2 * normStar n (basisQ b) 0 → e = D) ∧
    ∃ N, ∀ fuel, N ≤ fuel → ∃ res, svpBasis D n b jz jf err (shortestArgs .fast true ovr) fuel = .done res ∧
      res.success = true ∧ IsShortestDual e n (basisQ b) res.coord := by
  have H := basis_data hD hn b jz jf h
  simp only [svpBasis_eq hD hn]
  revert H
  generalize ((GSO.mk0 D n true false false false b (fun _ _ => 0) (fun _ _ => 0) jz jf : GSO Exact).updateGso).2 = g
  intro H
  set mu := fun i j => val (g.mu i j)
  set r := fun i => val (g.r i i)
  set sqRow := fun i => dotZ n (b i) (b i)
  set a := shortestArgs .fast true ovr
  set e := lastUseful r (D - 1) with he
  have l1 := (lastUseful_spec r (D - 1)).1
  have l2 := (lastUseful_spec r (D - 1)).2.1
  have l3 := (lastUseful_spec r (D - 1)).2.2
  rw [← he] at l1 l2 l3
  refine ⟨e, l1, by omega, ?_, ?_⟩
  · intro hle
    by_contra hc
    have := l3 (D - 1) (by omega) le_rfl
    rw [H.r (D - 1) (by omega), H.r 0 (by omega)] at this
    linarith
  · have hed : e ≤ D := by omega
    have hok := svpInput_ok H h.pos l1 hed (svpBound r sqRow err e a) (a := a) rfl
    have hmd0 : 0 ≤ svpBound r sqRow err e a := by
      have hp := h.pos (e - 1) (by omega)
      unfold svpBound
      rw [show a.dual = true from rfl, if_pos rfl, H.r (e - 1) (by omega)]
      dsimp only
      have h0 : 0 ≤ 1 / normStar n (basisQ b) (e - 1) := by positivity
      split_ifs
      · exact h0
      · have := herr _ h0; linarith
    obtain ⟨N, s', hN⟩ := C13_terminates hok (fastEval_ok (pruneOK_none hok rfl) 1 .best) (fastInv_new .best hmd0 hok.mrep)
    refine ⟨N, fun fuel hf => ?_⟩
    have run := hN fuel hf
    obtain ⟨c1, c2⟩ := dual_core H h.pos hD herr (a := a) rfl rfl he le_rfl run
    obtain ⟨q, hq⟩ : ∃ q, s'.ev.sols.getLast? = some q := by
      cases hl : s'.ev.sols.getLast? with
      | none => exact absurd (List.getLast?_eq_none_iff.1 hl) c1
      | some q => exact ⟨q, rfl⟩
    refine ⟨{ success := true, coord := fun i => if i < e then (if i < e then q.2 (e - 1 - i) else q.2 i) else 0,
              subs := fun _ => none, aux := none }, ?_, rfl, ?_⟩
    · unfold svpCore
      dsimp only
      rw [← he, show a.method = .fast from rfl, show a.maxAuxSols + 1 = 1 from rfl]
      simp only [run]
      unfold collect
      simp [a, shortestArgs, c1, hq, reverseSols]
    · have := c2 q hq
      refine ⟨?_, fun y hy w w' hw hw' => this.2 y hy w w' ⟨hw.1, fun i hi => ?_⟩ hw'⟩
      · obtain ⟨i, h1, h2⟩ := this.1
        exact ⟨i, h1, by simpa [h1] using h2⟩
      · have := hw.2 i hi
        simpa [hi] using this

/-- Non-vacuity of `C18_dual_partial`, in a case without dropped rows. -/
example : ∃ e, 1 ≤ e ∧ e ≤ 2 ∧ (normStar 2 (basisQ demoBasis) (2 - 1) ≤ 2 * normStar 2 (basisQ demoBasis) 0 → e = 2) ∧
    ∃ N, ∀ fuel, N ≤ fuel → ∃ res,
      svpBasis 2 2 demoBasis (fun _ _ => 9) (fun _ _ => none) (fun q => q / 100) (shortestArgs .fast true false) fuel = .done res ∧
      res.success = true ∧ IsShortestDual e 2 (basisQ demoBasis) res.coord :=
  C18_dual_partial (by norm_num) (by norm_num) _ _ _ demoBasis_indep (fun q hq => by positivity) false
example : normStar 2 (basisQ demoBasis) (2 - 1) ≤ 2 * normStar 2 (basisQ demoBasis) 0 := by decide +kernel

/-- **C18 fails always with the proved method**: `int_max_dist` is only set in the primal branch
(svpcvp.cpp:131-145), so the exact evaluator rejects every vector and the call returns `RED_ENUM_FAILURE`, for every
basis of independent rows. -/
theorem C18_dual_proved_always_fails {D n : ℕ} (hD : 1 ≤ D) (hn : D ≤ n) (b jz : Mat ℤ) (jf : Mat Exact)
    (h : Indep D n (basisQ b)) {err : ℚ → ℚ}
    (hmono : ∀ x y : ℚ, 0 ≤ x → x ≤ y → x + err x ≤ y + err y) :
    ∃ N, ∀ fuel, N ≤ fuel → ∃ res, svpBasis D n b jz jf err (shortestArgs .proved true false) fuel = .done res ∧
      res.success = false := by
  have H := basis_data hD hn b jz jf h
  simp only [svpBasis_eq hD hn]
  revert H
  generalize ((GSO.mk0 D n true false false false b (fun _ _ => 0) (fun _ _ => 0) jz jf : GSO Exact).updateGso).2 = g
  intro H
  set mu := fun i j => val (g.mu i j)
  set r := fun i => val (g.r i i)
  set sqRow := fun i => dotZ n (b i) (b i)
  set sq := (fun (d : ℕ) (x : ℕ → ℤ) => sqZ n (vecMat D n (fun i => if i < d then x i else 0) b))
  set a := shortestArgs .proved true false
  set e := lastUseful r (D - 1) with he
  have l1 := (lastUseful_spec r (D - 1)).1
  have l2 := (lastUseful_spec r (D - 1)).2.1
  rw [← he] at l1 l2
  have hed : e ≤ D := by omega
  have hsqe : ∀ x, sq e x = sqLen n (comb e b x) := H.sq e hed
  have hsq : ∀ x, 0 ≤ sq e x := fun x => by
    rw [hsqe]; exact Finset.sum_nonneg (fun c _ => sq_nonneg _)
  have hpos : ∀ x : ℕ → ℤ, (∃ i < e, x i ≠ 0) → ¬ sq e x ≤ 0 := by
    intro x hx hc
    have hind : Indep e n (basisQ b) := indep_of_pos (fun i hi => h.pos i (by omega))
    obtain ⟨c, hc1, hc2⟩ := (comb_ne_zero_iff hind x).2 hx
    rw [hsqe] at hc
    have h1 : comb e b x c ^ 2 ≤ sqLen n (comb e b x) :=
      Finset.single_le_sum (f := fun c => comb e b x c ^ 2) (fun c _ => sq_nonneg _) (mem_range.2 hc1)
    have h2 := sq_nonneg (comb e b x c)
    have h3 : comb e b x c ^ 2 ≠ 0 := pow_ne_zero 2 hc2
    omega
  have hok := svpInput_ok H h.pos l1 hed (svpBound r sqRow err e a) (a := a) rfl
  set md := svpBound r sqRow err e a with hmd
  have hmd0 : ((0 : ℤ) : ℚ) + err ((0 : ℤ) : ℚ) ≤ md := by
    have hp := h.pos (e - 1) (by omega)
    rw [hmd]
    unfold svpBound
    rw [show a.dual = true from rfl, if_pos rfl, H.r (e - 1) (by omega), show a.overrideBnd = false from rfl]
    simp only [Bool.false_eq_true, if_false]
    exact hmono _ _ (by norm_num) (by push_cast; positivity)
  have hm' : ∀ i j : ℤ, 0 ≤ i → i ≤ j → (i : ℚ) + err i ≤ j + err j :=
    fun i j h1 h2 => hmono i j (by exact_mod_cast h1) (by exact_mod_cast h2)
  have hE : EvalOK (svpInput mu r e md a).cfg (exactEval 1 (sq e) err) (ExactInv (sq e) err 0 md) :=
    exactEval_ok (pruneOK_none hok rfl) hsq hm' hmd0
  have hI : ExactInv (sq e) err 0 md (EvSt.new, 0) md := ⟨le_rfl, le_rfl, .inl ⟨rfl, rfl, rfl⟩⟩
  obtain ⟨N, s', hN⟩ := C13_terminates hok hE hI
  refine ⟨N, fun fuel hf => ?_⟩
  have run := hN fuel hf
  have S := enumerate_done hok hE hI run
  have hsym : (svpInput mu r e md a).Symm := svpInput_symm mu r e md a
  have hfold : (s'.ev, s'.maxdist) = s'.events.foldl (evStep (exactEval 1 (sq e) err)) ((EvSt.new, 0), md) := S.fold
  have hno : ∀ x δ, Event.sol x δ ∈ s'.events → ¬ sq e x ≤ 0 := by
    intro x δ hm
    apply hpos
    by_contra hc
    push Not at hc
    obtain ⟨h1, h2⟩ := (S.solsOk x δ).1 hm
    have h3 := (S.node 0 x δ h1).2.2.1
    rw [dist_zero_of_zero hok.rnd hsym.1 (fun j hj => hc j hj)] at h3
    rcases h2 with h2 | h2
    · rw [h3] at h2; exact lt_irrefl _ h2
    · exact h2 hsym
  obtain ⟨f1, f2, f3⟩ := exactEval_fold hsq hm' hmd0 s'.events (EvSt.new, 0) md hI
  rw [← hfold] at f1 f2 f3
  have hsols : s'.ev.1.sols = [] := by
    rcases f3 with ⟨f3, -⟩ | ⟨x, δ, hx, f3⟩
    · exact f3
    · exfalso
      apply hno x δ hx
      rcases S.inv.sols with ⟨h4, -⟩ | ⟨y, h4, h5, -⟩
      · dsimp only at f3; rw [h4] at f3; cases f3
      · have := S.inv.le
        have h6 : y = x := by
          dsimp only at f3
          rw [h4] at f3
          simp only [List.cons.injEq, Prod.mk.injEq, and_true] at f3
          exact f3.2
        rw [← h6, h5]
        exact this
  refine ⟨{ success := false, coord := fun _ => 0, subs := fun _ => none, aux := none }, ?_, rfl⟩
  unfold svpCore
  dsimp only
  rw [← he, show a.method = .proved from rfl, show a.maxAuxSols + 1 = 1 from rfl,
    show intMaxDist sqRow e a = 0 from rfl, ← hmd]
  simp only [run]
  unfold collect
  simp [a, shortestArgs, hsols, reverseSols]

example : ∃ N, ∀ fuel, N ≤ fuel → ∃ res,
    svpBasis 2 2 demoBasis (fun _ _ => 9) (fun _ _ => none) (fun q => q / 100) (shortestArgs .proved true false) fuel = .done res ∧
      res.success = false :=
  C18_dual_proved_always_fails (by norm_num) (by norm_num) _ _ _ demoBasis_indep
    (fun x y _ h => by linarith)

/-- Non-vacuity of C19 (and of `C17_shortest_vector_gso`): a fresh GSO object. -/
example : ∃ N, ∀ fuel, N ≤ fuel → ∃ res,
    svpGso (GSO.mk0 2 2 false false false false demoBasis (fun _ _ => 0) (fun _ _ => 0) (fun _ _ => 5) (fun _ _ => none))
      (fun q => q / 100) (manyArgs 1 .fast false false) fuel = .done res ∧ res.success = true ∧ res.aux = none := by
  obtain ⟨hwf, hb, hu, hv, hd, hc, hg, hwu, hwi, hk, hl⟩ :=
    GSO.mk0_wf 2 2 false false false false demoBasis (fun _ _ => 0) (fun _ _ => 0) (fun _ _ => 5)
      (fun _ _ => (none : Exact)) (by norm_num)
  exact C19_max_sols_one_fails (d := 2) (n := 2) (by norm_num) false false false false demoBasis _ _ _ _ _ Session.start hl
    (by rw [hd]; norm_num) (by rw [hd, hc]) (by rw [hd, hc, hb]; exact demoBasis_indep) (fun q hq => by positivity) false

end SVP
end Fplll

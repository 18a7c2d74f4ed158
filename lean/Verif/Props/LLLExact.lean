import Verif.Proofs.LLLExactMain
import Verif.Props.Fresh
import Verif.Props.LLLLattice

/-!
# C03, C04, C05: what LLL and the reducedness test guarantee in exact arithmetic
-/

namespace Fplll

open FloatOps Spec GSO LLL

theorem mkCfg_xcfg {δ η : ℚ} (hη : 0 ≤ η) (hδ : η ^ 2 < δ) (sg er : Bool) :
    XCfg (mkCfg (some δ : Exact) (some η) sg er) η (if sg then δ - η * η else δ) := by
  refine ⟨rfl, ?_, hη, ?_⟩
  · unfold mkCfg; dsimp only; split_ifs <;> rfl
  · unfold mkCfg; dsimp only; split_ifs
    · nlinarith
    · exact hδ

/-- **C03.**  `lll()` in exact arithmetic, for every basis (of any rank) and every flag combination,
after any disciplined use of the object, on the first `e` rows.  If it reports success then these rows are
`e - zeros` linearly independent rows that are `(δ, η)`-LLL-reduced (with the Siegel flag: size-reduced and
satisfying Siegel's condition with `δ - η²`), followed by `zeros` zero rows. -/
theorem C03_lll_reduced {d n : ℕ} (hn : 1 ≤ n) (ig wu wi fl : Bool) (b u v jz : Mat ℤ)
    (jf : Mat Exact) (s : GSO Exact) (h : Session (mk0 d n ig wu wi fl b u v jz jf) s none)
    (hu : s.colsLocked = false) {e : ℕ} (he : 1 ≤ e) (hed : e ≤ s.d) (δ η : ℚ) (hη : 0 ≤ η) (hδ : η ^ 2 < δ) (siegel early : Bool)
    (fuel maxIter last : ℕ) :
    let q := lll (mkCfg (some δ) (some η) siegel early) fuel maxIter last s 0 0 e 0
    q.1 = .success →
      (∀ k < e - q.2.zeros, 0 < normStar s.nCols (basisQ q.2.s.b) k) ∧
      SizeReduced s.nCols (e - q.2.zeros) (basisQ q.2.s.b) η ∧
      (siegel = false → Lovasz s.nCols (e - q.2.zeros) (basisQ q.2.s.b) δ) ∧
      (siegel = true → Siegel s.nCols (e - q.2.zeros) (basisQ q.2.s.b) (δ - η ^ 2)) ∧
      (∀ k, e - q.2.zeros ≤ k → k < e → ∀ c < s.nCols, q.2.s.b k c = 0) := by
  have hwf := (mk0_wf d n ig wu wi fl b u v jz jf hn).1
  obtain ⟨hs, hf⟩ := h.inv hwf (mk0_fresh d n ig wu wi fl b u v jz jf hn)
  have hc := mkCfg_xcfg hη hδ siegel early
  have x := lll_exact (mkCfg (some δ : Exact) (some η) siegel early) hc fuel maxIter last hs hf hu he hed
  have g := lll_good (mkCfg (some δ : Exact) (some η) siegel early) fuel maxIter last (srs := 0) (s := s)
    (kmin := 0) (kstart := 0) (kend := e) ⟨hs, hu, le_rfl, by omega, hed, .inl rfl⟩
  dsimp only at x ⊢
  intro hok
  have y := x.1 hok
  have hnn : (lll (mkCfg (some δ : Exact) (some η) siegel early) fuel maxIter last s 0 0 e 0).2.s.nCols = s.nCols :=
    g.cfg.nCols
  generalize lll (mkCfg (some δ : Exact) (some η) siegel early) fuel maxIter last s 0 0 e 0 = q at *
  have hbq : q.2.s.bq = basisQ q.2.s.b := rfl
  refine ⟨?_, ?_, ?_, ?_, ?_⟩
  · have := y.pos; rwa [hnn] at this
  · have := y.sr; rwa [hnn] at this
  · intro hsg k hk
    have := y.cond k hk
    unfold CondS mkCfg at this
    dsimp only at this
    rw [hsg, hnn] at this
    simp only [Bool.false_eq_true, if_false] at this
    rw [projSq_succ', projSq_self] at this
    exact this
  · intro hsg k hk
    have := y.cond k hk
    unfold CondS mkCfg at this
    dsimp only at this
    rw [hsg, hnn] at this
    simp only [if_true] at this
    rw [projSq_self, ← pow_two] at this
    exact this
  · intro k k1 k2 c hcc
    exact y.zero k k1 (by omega) c (by rw [hnn]; exact hcc)

/-- **C05 (exact arithmetic).**  With `η ≥ 1/2` no call of `lll()` can end in a size-reduction or
Gram–Schmidt failure: two passes of Babai's loop always suffice, so the outcome is success or, when
`max_iter` is too small, `RED_LLL_FAILURE`. -/
theorem C05_lll_exact_outcome {d n : ℕ} (hn : 1 ≤ n) (ig wu wi fl : Bool) (b u v jz : Mat ℤ)
    (jf : Mat Exact) (s : GSO Exact) (h : Session (mk0 d n ig wu wi fl b u v jz jf) s none)
    (hu : s.colsLocked = false) {e : ℕ} (he : 1 ≤ e) (hed : e ≤ s.d) (δ η : ℚ) (hη : 1 / 2 ≤ η) (hδ : η ^ 2 < δ) (siegel early : Bool)
    (fuel maxIter last : ℕ) (hfuel : 2 ≤ fuel) :
    let q := lll (mkCfg (some δ) (some η) siegel early) fuel maxIter last s 0 0 e 0
    q.1 = .success ∨ q.1 = .lllFailure := by
  have hwf := (mk0_wf d n ig wu wi fl b u v jz jf hn).1
  obtain ⟨hs, hf⟩ := h.inv hwf (mk0_fresh d n ig wu wi fl b u v jz jf hn)
  have hc := mkCfg_xcfg (by linarith : 0 ≤ η) hδ siegel early
  have x := lll_exact (mkCfg (some δ : Exact) (some η) siegel early) hc fuel maxIter last hs hf hu he hed
  dsimp only at x ⊢
  exact x.2 hη hfuel

theorem isLllReduced_exact {s : GSO Exact} {n d : ℕ} {B : ℕ → ℕ → ℚ} {δ η : ℚ}
    (hd : s.updateGso.2.d = d)
    (hmu : ∀ i < d, ∀ j < i, s.updateGso.2.mu i j = some (muS n B i j))
    (hr : ∀ i < d, s.updateGso.2.r i i = some (normStar n B i)) :
    (isLllReduced s (some δ) (some η)).1 = true ↔ LLLReduced n d B δ η := by
  unfold isLllReduced
  dsimp only
  rw [hd, Bool.and_eq_true]
  generalize s.updateGso.2 = t at *
  unfold LLLReduced
  refine and_congr ?_ ?_
  · have := forUp_inv (P := fun m (ok : Bool) => (ok = true ↔ ∀ i < m, ∀ j < i, |muS n B i j| ≤ η))
      (fun i ok => forUp 0 i (fun j ok => ok && !gt (abs (t.mu i j)) (some η)) ok) (Nat.zero_le d) true
      (by simp)
      (by
        intro i ok _ hi hok
        have inner := forUp_inv (P := fun m (ok' : Bool) => (ok' = true ↔ ok = true ∧ ∀ j < m, |muS n B i j| ≤ η))
          (fun j ok => ok && !gt (abs (t.mu i j)) (some η)) (Nat.zero_le i) ok (by simp)
          (by
            intro j ok' _ hj hok'
            have e : (gt (abs (t.mu i j)) (some η) : Bool) = decide (η < |muS n B i j|) := by
              rw [hmu i hi j hj]; rfl
            rw [e, Bool.and_eq_true, hok', Bool.not_eq_true', decide_eq_false_iff_not, not_lt, and_assoc]
            refine and_congr_right (fun _ => ?_)
            constructor
            · rintro ⟨a, b⟩ k hk
              by_cases h : k = j
              · rw [h]; exact b
              · exact a k (by omega)
            · intro a; exact ⟨fun k hk => a k (by omega), a j (by omega)⟩)
        rw [inner, hok]
        constructor
        · rintro ⟨a, b⟩ k hk
          by_cases h : k = i
          · rw [h]; exact b
          · exact a k (by omega)
        · intro a; exact ⟨fun k hk => a k (by omega), a i (by omega)⟩)
    exact this
  · by_cases hd1 : 1 ≤ d
    · have := forUp_inv (P := fun m (ok : Bool) => (ok = true ↔ ∀ i, i + 1 < m →
          δ * normStar n B i ≤ normStar n B (i + 1) + muS n B (i + 1) i ^ 2 * normStar n B i))
        (fun i ok => ok && !lt (t.r i i) (mul (t.r (i - 1) (i - 1))
          (sub (some δ) (mul (t.mu i (i - 1)) (t.mu i (i - 1)))))) hd1 true
        (by simp)
        (by
          intro i ok h1 hi hok
          have e : (lt (t.r i i) (mul (t.r (i - 1) (i - 1))
              (sub (some δ) (mul (t.mu i (i - 1)) (t.mu i (i - 1))))) : Bool) =
              decide (normStar n B i < normStar n B (i - 1) * (δ - muS n B i (i - 1) * muS n B i (i - 1))) := by
            rw [hr i hi, hr (i - 1) (by omega), hmu i hi (i - 1) (by omega)]; rfl
          rw [e, Bool.and_eq_true, hok, Bool.not_eq_true', decide_eq_false_iff_not, not_lt]
          constructor
          · rintro ⟨a, b⟩ k hk
            by_cases h : k + 1 = i
            · rw [← h] at b; simp only [Nat.add_sub_cancel] at b; nlinarith
            · exact a k (by omega)
          · intro a
            refine ⟨fun k hk => a k (by omega), ?_⟩
            have := a (i - 1) (by omega)
            rw [show i - 1 + 1 = i by omega] at this
            nlinarith)
      exact this
    · rw [forUp_empty (by omega)]
      simp only [true_iff]
      intro i hi; omega

/-- **C04.**  For linearly independent rows (the last one may be dependent), after any disciplined use
of the object, `is_lll_reduced(m, δ, η)` in exact arithmetic returns true exactly when the basis is
`(δ, η)`-LLL-reduced in the textbook sense; it does not change the basis. -/
theorem C04_is_lll_reduced {d n : ℕ} (hn : 1 ≤ n) (ig wu wi fl : Bool) (b u v jz : Mat ℤ)
    (jf : Mat Exact) (s : GSO Exact) (h : Session (mk0 d n ig wu wi fl b u v jz jf) s none)
    (hu : s.colsLocked = false) (hind : ∀ k, k + 1 < s.d → normStar s.nCols (basisQ s.b) k ≠ 0) (δ η : ℚ) :
    ((isLllReduced s (some δ) (some η)).1 = true ↔ LLLReduced s.nCols s.d (basisQ s.b) δ η) ∧
    (isLllReduced s (some δ) (some η)).2.b = s.b := by
  have C := C07_update_gso hn ig wu wi fl b u v jz jf s h hu
  have hok : s.updateGso.1 = true := by
    by_contra hc
    obtain ⟨k, k1, k2⟩ := C.2.2 (by simpa using hc)
    exact hind k k1 k2
  have hwf := (mk0_wf d n ig wu wi fl b u v jz jf hn).1
  obtain ⟨hs, hf⟩ := h.inv hwf (mk0_fresh d n ig wu wi fl b u v jz jf hn)
  obtain ⟨b1, b2, b3, b4, b5, b6, b7, _⟩ :=
    updateGsoFrom_fresh s.d 0 s hs hf hu (by omega) (by omega) (by intro k hk; omega)
  refine ⟨isLllReduced_exact b5 ?_ ?_, C.1⟩
  · intro i hi j hj; exact (C.2.1 hok i hi j hj.le).2.1 hj
  · intro i hi; exact (C.2.1 hok i hi i le_rfl).2.2 rfl

/-- the rows (0), (0), (1), (7) -/
def depBasis : Mat ℤ := fun i _ => if i = 2 then 1 else if i = 3 then 7 else 0

/-- **C04 fails without linear independence**: `m.update_gso()` gives up at the first vanishing
Gram–Schmidt vector and `is_lll_reduced` ignores that, so it compares coefficients that were never
computed.  For the rows (0), (0), (1), (7) and matrices initialised to NaN (as `mpfr_init` does) it
returns true although `μ_{3,2} = 7`. -/
theorem C04_dependent_rows_violation :
    (isLllReduced (mk0 4 1 true false false false depBasis idMat idMat (fun _ _ => 0) (fun _ _ => (none : Exact)))
      (some (3 / 4)) (some (1 / 2))).1 = true ∧
    ¬ LLLReduced 1 4 (basisQ depBasis) (3 / 4) (1 / 2) := by
  constructor
  · decide +kernel
  · rintro ⟨h, -⟩
    have key := h 3 (by norm_num) 2 (by norm_num)
    have e2 : ∀ c < 1, bstar 1 (basisQ depBasis) 2 c = 1 := by
      intro c hc
      have hz : ∀ i < 2, ∀ c < 1, bstar 1 (basisQ depBasis) i c = 0 := by
        intro i
        induction i using Nat.strong_induction_on with
        | _ i ih =>
          intro hi c hc
          rw [bstar_eq, Finset.sum_eq_zero (fun j hj => by
            rw [Finset.mem_range] at hj; rw [ih j hj (by omega) c hc, mul_zero])]
          unfold basisQ depBasis
          rw [if_neg (by omega), if_neg (by omega)]; simp
      rw [bstar_eq, Finset.sum_eq_zero (fun j hj => by
        rw [Finset.mem_range] at hj; rw [hz j hj c hc, mul_zero])]
      unfold basisQ depBasis; simp
    have : muS 1 (basisQ depBasis) 3 2 = 7 := by
      unfold muS
      rw [dotQ_congr e2 e2, dotQ_congr (fun c _ => rfl) e2]
      unfold dotQ basisQ depBasis
      simp
    rw [this] at key
    norm_num at key

/-- Non-vacuity of C03–C05: the standard call on a fresh object, for every 3 × 4 basis. -/
example (b jz : Mat ℤ) (jf : Mat Exact) :
    let s := mk0 3 4 false true false false b idMat idMat jz jf
    let q := lll (mkCfg (some (99 / 100)) (some (51 / 100)) false true) 2 1000 0 s 0 0 3 0
    (q.1 = .success ∨ q.1 = .lllFailure) ∧
    (q.1 = .success → Lovasz 4 (3 - q.2.zeros) (basisQ q.2.s.b) (99 / 100)) := by
  obtain ⟨hwf, hb, hu, hv, hd, hc, hg, hwu, hwi, hk, hl⟩ :=
    mk0_wf 3 4 false true false false b idMat idMat jz jf (by norm_num)
  refine ⟨C05_lll_exact_outcome (by norm_num) false true false false b idMat idMat jz jf _ .start hl (by norm_num) hd.ge _ _
    (by norm_num) (by norm_num) false true 2 1000 0 le_rfl, fun h => ?_⟩
  have := (C03_lll_reduced (by norm_num) false true false false b idMat idMat jz jf _ .start hl (by norm_num) hd.ge _ _
    (by norm_num) (by norm_num) false true 2 1000 0 h).2.2.1 rfl
  rw [hc] at this
  exact this

/-- the basis (2, 0), (1, 1) -/
def exBasis : Mat ℤ := fun i j => if i = 0 then (if j = 0 then 2 else 0) else 1

/-- Non-vacuity of C03: on (2, 0), (1, 1) `lll()` does succeed. -/
example : (lll (mkCfg (some (99 / 100)) (some (51 / 100)) false false) 2 20 0
    (mk0 2 2 true false false false exBasis idMat idMat (fun _ _ => 0) (fun _ _ => (none : Exact))) 0 0 2 0).1 =
      .success := by
  decide +kernel

end Fplll

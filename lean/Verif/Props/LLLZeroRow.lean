import Verif.Proofs.LLL
import Verif.Proofs.NumVect
import Verif.Model.Float

/-!
# LLL on a part of the rows when the first row of the basis is zero (C107)
-/

namespace Fplll

open LLL

variable {F : Type} [FloatOps F]

theorem moveRow_b_down (s : GSO F) {o n : ℕ} (h : o ≤ n) : (s.moveRow o n).b = rotateLeftBySwap s.b o n ∧ (s.moveRow o n).nCols = s.nCols := by
  unfold GSO.moveRow
  rw [if_neg (by omega)]
  split_ifs with h1
  · unfold GSO.moveRowForget
    split_ifs <;> exact ⟨rfl, rfl⟩
  · have : o = n := by omega
    subst this
    refine ⟨?_, rfl⟩
    unfold rotateLeftBySwap
    rw [forUp_empty (by omega)]

/-- what the loop over the zero rows does to the rows when row 0, outside of the block, is zero -/
theorem zeroLoop_reverse {kmin kend : ℕ} (hk : 1 ≤ kmin) (n : ℕ) : ∀ (zeros : ℕ) (s : GSO F), kmin + (zeros + n) = kend → rowIsZero s 0 = true →
    (zeroLoop kmin kend n zeros s).1 = zeros + n ∧
    ∀ i, (zeroLoop kmin kend n zeros s).2.b i = if kmin ≤ i ∧ i < kmin + n then s.b (kmin + (kmin + n) - 1 - i) else s.b i := by
  induction n with
  | zero =>
    intro zeros s _ _
    refine ⟨rfl, fun i => ?_⟩
    rw [if_neg (by omega)]
    rfl
  | succ n ih =>
    intro zeros s h h0
    obtain ⟨hb, hc⟩ := moveRow_b_down s (o := kmin) (n := kend - 1 - zeros) (by omega)
    have h1 : rowIsZero (s.moveRow kmin (kend - 1 - zeros)) 0 = true := by
      unfold rowIsZero at h0 ⊢
      rw [hb, hc]
      rw [decide_eq_true_iff] at h0 ⊢
      intro c hcc
      rw [rotateLeftBySwap_apply _ _ _ _ (by omega), if_neg (by omega), if_neg (by omega)]
      exact h0 c hcc
    obtain ⟨h2, h3⟩ := ih (zeros + 1) _ (by omega) h1
    rw [zeroLoop, if_pos h0]
    refine ⟨by rw [h2]; omega, fun i => ?_⟩
    rw [h3, hb]
    have e : kend - 1 - zeros = kmin + n := by omega
    rw [e]
    by_cases h4 : kmin ≤ i ∧ i < kmin + n
    · rw [if_pos h4, rotateLeftBySwap_apply _ _ _ _ (by omega), if_pos (by omega), if_pos (by omega)]
      congr 1
      omega
    · rw [if_neg h4, rotateLeftBySwap_apply _ _ _ _ (by omega), if_neg h4]
      by_cases h5 : i = kmin + n
      · rw [if_pos h5, if_pos (by omega)]
        congr 1
        omega
      · rw [if_neg h5, if_neg (by omega)]

/-- **C107 violated.** `lll(kappa_min, kappa_start, kappa_end)` with `kappa_min > 0`, as the documentation of `lll` allows: the loop that
removes zero rows looks at row 0 instead of row `kappa_min` (lll.cpp:66).  If row 0 is zero, LLL takes all rows of the block for zero rows: it
reports success, whatever the rows are, and returns them in reverse order, not reduced.  (Any floating-point type, any parameters.) -/
theorem C107_zero_row_violated (c : LLLCfg F) (fuel maxIter last : ℕ) (s : GSO F) {kmin kstart kend : ℕ} (srs : ℕ) (hk : 1 ≤ kmin)
    (h1 : kmin ≤ kstart) (h2 : kstart < kend) (hz : ∀ c < s.nCols, s.b 0 c = 0) :
    (lll c fuel maxIter last s kmin kstart kend srs).1 = .success ∧
    ∀ i, (lll c fuel maxIter last s kmin kstart kend srs).2.s.b i =
      if kmin ≤ i ∧ i < kend then s.b (kmin + kend - 1 - i) else s.b i := by
  have h0 : rowIsZero s 0 = true := decide_eq_true hz
  obtain ⟨h3, h4⟩ := zeroLoop_reverse (kend := kend) hk (kend - kmin) 0 s (by omega) h0
  have key : ∀ st : LLLState F, kend - st.zeros ≤ st.kappa →
      (lllTail c fuel maxIter kmin kend srs st (.success, st.s)).1 = .success ∧ (lllTail c fuel maxIter kmin kend srs st (.success, st.s)).2.s.b = st.s.b := by
    intro st hst
    have hm : mainLoop c fuel kmin kend srs maxIter st = (.success, st) := by
      cases maxIter with
      | zero => rfl
      | succ m => rw [mainLoop, if_neg (by omega)]
    unfold lllTail
    rw [if_neg (by simp)]
    have he : ({ st with s := st.s } : LLLState F) = st := rfl
    dsimp only
    rw [hm]
    unfold lllFinish
    rw [if_neg (by simp)]
    dsimp only
    refine ⟨if_neg (by omega), ?_⟩
    split_ifs <;> rfl
  unfold lll
  dsimp only
  rw [if_neg (show ¬ (zeroLoop kmin kend (kend - kmin) 0 s).1 < kend - kmin by omega)]
  have := key { s := (zeroLoop kmin kend (kend - kmin) 0 s).2, kappa := kstart + 1, kappaMax := 0, zeros := (zeroLoop kmin kend (kend - kmin) 0 s).1,
                nSwaps := 0, lastEarlyRed := last } (by dsimp only; omega)
  refine ⟨this.1, fun i => ?_⟩
  rw [this.2, h4]
  have e : kmin + (kend - kmin) = kend := by omega
  rw [e]

omit [FloatOps F] in
/-- **C107.** When row 0 is not zero, the loop leaves the basis as it is. -/
theorem C107_nonzero (kmin kend : ℕ) (s : GSO F) (hz : ∃ c < s.nCols, s.b 0 c ≠ 0) :
    zeroLoop kmin kend (kend - kmin) 0 s = (0, s) := by
  have h : rowIsZero s 0 = false := by
    unfold rowIsZero
    rw [decide_eq_false_iff_not]
    push Not
    exact hz
  cases hn : kend - kmin with
  | zero => rfl
  | succ n => rw [zeroLoop, if_neg (by simp [h])]

theorem zeroLoop_whole {kend : ℕ} (n : ℕ) : ∀ (zeros : ℕ) (s : GSO F), zeros + n = kend →
    (∀ i, n ≤ i → i < kend → rowIsZero s i = true) →
    (zeroLoop 0 kend n zeros s).1 ≤ kend ∧
    (∀ i, kend - (zeroLoop 0 kend n zeros s).1 ≤ i → i < kend → rowIsZero (zeroLoop 0 kend n zeros s).2 i = true) ∧
    ((zeroLoop 0 kend n zeros s).1 < kend → rowIsZero (zeroLoop 0 kend n zeros s).2 0 = false) := by
  induction n with
  | zero =>
    intro zeros s h hz
    exact ⟨by simp only [zeroLoop]; omega, fun i _ hi => hz i (Nat.zero_le _) hi, by simp only [zeroLoop]; omega⟩
  | succ n ih =>
    intro zeros s h hz
    rw [zeroLoop]
    split_ifs with h0
    · refine ih (zeros + 1) _ (by omega) fun i h1 h2 => ?_
      obtain ⟨hb, hc⟩ := moveRow_b_down s (o := 0) (n := kend - 1 - zeros) (by omega)
      have e : kend - 1 - zeros = n := by omega
      rw [e] at hb hc ⊢
      unfold rowIsZero
      rw [hb, hc, decide_eq_true_iff]
      intro c hcc
      rw [rotateLeftBySwap_apply _ _ _ _ (by omega), if_neg (by omega)]
      split_ifs with h3
      · exact (of_decide_eq_true h0) c hcc
      · exact (of_decide_eq_true (hz i (by omega) h2)) c hcc
    · exact ⟨by omega, fun i h1 h2 => hz i (by dsimp only at h1; omega) h2, fun _ => by simpa using h0⟩

theorem zeroLoop_cols {kmin kend : ℕ} (n : ℕ) : ∀ (zeros : ℕ) (s : GSO F), kmin + (zeros + n) = kend →
    (zeroLoop kmin kend n zeros s).2.nCols = s.nCols := by
  induction n with
  | zero => intro _ _ _; rfl
  | succ n ih =>
    intro zeros s h
    rw [zeroLoop]
    split_ifs
    · rw [ih _ _ (by omega), (moveRow_b_down s (o := kmin) (n := kend - 1 - zeros) (by omega)).2]
    · rfl

/-- **C107, whole basis.** With `kappa_min = 0` every row that the loop moves to the end is zero: the rows behind the first
`kappa_end - zeros` are zero, and row 0 is not zero unless all are. -/
theorem C107_whole (kend : ℕ) (s : GSO F) :
    (zeroLoop 0 kend kend 0 s).1 ≤ kend ∧
    (∀ i, kend - (zeroLoop 0 kend kend 0 s).1 ≤ i → i < kend → ∀ c < s.nCols, (zeroLoop 0 kend kend 0 s).2.b i c = 0) ∧
    ((zeroLoop 0 kend kend 0 s).1 < kend → ∃ c < s.nCols, (zeroLoop 0 kend kend 0 s).2.b 0 c ≠ 0) := by
  obtain ⟨h1, h2, h3⟩ := zeroLoop_whole (kend := kend) kend 0 s (by omega) fun i h1 h2 => by omega
  have hc := zeroLoop_cols (kmin := 0) (kend := kend) kend 0 s (by omega)
  refine ⟨h1, fun i h4 h5 c hcc => ?_, fun h4 => ?_⟩
  · have := h2 i h4 h5
    unfold rowIsZero at this
    exact of_decide_eq_true this c (by rw [hc]; exact hcc)
  · have := h3 h4
    unfold rowIsZero at this
    rw [decide_eq_false_iff_not] at this
    push Not at this
    rw [hc] at this
    exact this

/-- a zero row and the rows `(7, 1)` and `(1, 0)`, of which the first can be reduced by the second -/
def zrB : Mat ℤ := fun i j => if i = 1 then (if j = 0 then 7 else 1) else if i = 2 then (if j = 0 then 1 else 0) else 0

example : ∀ c < 2, (GSO.mk0 3 2 true false false false zrB (fun _ _ => 0) (fun _ _ => 0) (fun _ _ => 0) (fun _ _ => FloatOps.nan) : GSO Exact).b 0 c = 0 := by
  decide +kernel

end Fplll

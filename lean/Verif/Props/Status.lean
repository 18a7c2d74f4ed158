import Verif.Proofs.LLL
import Verif.Proofs.Wrapper

/-!
# C52: the return value of `lll`, `size_reduction` and the member `status` agree

`lll` and `size_reduction` have a return path that does not set `status`: a failing `update_gso_row(kappa_start)`.
Callers (`lll_reduction_zf`, `Wrapper::call_lll`, BKZ) look at `status` only.
-/

namespace Fplll
namespace LLL

open FloatOps GSO Wrapper

variable {F : Type} [FloatOps F]

/-- no division takes place from the diagonal on -/
theorem updateGsoLoop_diag (i n j : ℕ) (s : GSO F) (h : i ≤ j) : (updateGsoLoop i n j s).1 = true := by
  induction n generalizing j s with
  | zero => rfl
  | succ n ih =>
    rw [updateGsoLoop]
    dsimp only
    rw [if_neg (by omega)]
    exact ih (j + 1) _ (by omega)

theorem updateGsoLoop_valid (i n j : ℕ) (s : GSO F) (h : (updateGsoLoop i n j s).1 = true) :
    (updateGsoLoop i n j s).2.gsoValidCols i = j + n := by
  induction n generalizing j s with
  | zero => simp [updateGsoLoop, setAt]
  | succ n ih =>
    rw [updateGsoLoop] at h ⊢
    dsimp only at h ⊢
    split_ifs at h ⊢
    · rw [ih _ _ h]; omega
    · rw [ih _ _ h]; omega

theorem updateGsoRow_valid (s : GSO F) (i l : ℕ) (h : (s.updateGsoRow i l).1 = true) :
    l ≤ (s.updateGsoRow i l).2.gsoValidCols i := by
  unfold updateGsoRow at h ⊢
  dsimp only at h ⊢
  rw [updateGsoLoop_valid _ _ _ _ h]
  omega

/-- a row that is valid up to the diagonal can always be completed -/
theorem updateGsoRow_diag (s : GSO F) (i l : ℕ) (hk : i < s.nKnownRows) (hv : i ≤ s.gsoValidCols i) :
    (s.updateGsoRow i l).1 = true := by
  unfold updateGsoRow
  dsimp only
  rw [if_neg (by omega)]
  exact updateGsoLoop_diag _ _ _ _ hv

theorem babaiLoop_valid (c : LLLCfg F) (kappa stop start fuel iter : ℕ) (e : ℤ) (s : GSO F)
    (h : (babaiLoop c kappa stop start fuel iter e s).1 = .success) :
    stop ≤ (babaiLoop c kappa stop start fuel iter e s).2.gsoValidCols kappa := by
  induction fuel generalizing iter e s with
  | zero => cases h
  | succ fuel ih =>
    rw [babaiLoop] at h ⊢
    have hv := updateGsoRow_valid s kappa stop
    generalize s.updateGsoRow kappa stop = p at *
    dsimp only at h ⊢
    split_ifs at h ⊢ with h1 h2 h3 h4
    · exact hv (by simpa using h1)
    · exact ih _ _ _ h
    · exact ih _ _ _ h

theorem babaiLoop_ne (c : LLLCfg F) (kappa stop start fuel iter : ℕ) (e : ℤ) (s : GSO F) :
    (babaiLoop c kappa stop start fuel iter e s).1 ≠ .startFailure := by
  induction fuel generalizing iter e s with
  | zero => nofun
  | succ fuel ih =>
    rw [babaiLoop]
    dsimp only
    split_ifs
    · nofun
    · nofun
    · nofun
    · exact ih _ _ _
    · exact ih _ _ _

theorem babai_ne (c : LLLCfg F) (fuel : ℕ) (s : GSO F) (kappa stop start : ℕ) :
    (babai c fuel s kappa stop start).1 ≠ .startFailure := babaiLoop_ne _ _ _ _ _ _ _ _

theorem earlyLoop_ne (c : LLLCfg F) (fuel start srs n i : ℕ) (s : GSO F) :
    (earlyLoop c fuel start srs n i s).1 ≠ .startFailure := by
  induction n generalizing i s with
  | zero => nofun
  | succ n ih =>
    rw [earlyLoop]
    split_ifs
    · exact ih _ _
    · exact babai_ne c fuel _ _ _ _

theorem discoverStep_ne (c : LLLCfg F) (fuel : ℕ) (srs : ℕ) (st : LLLState F) :
    (discoverStep c fuel srs st).1 ≠ .startFailure := by
  unfold discoverStep
  dsimp only
  split_ifs
  · simp
  · dsimp only
    unfold earlyReduction
    dsimp only
    split_ifs
    · simp
    · exact earlyLoop_ne c fuel _ _ _ _ _
  · simp
  · simp

theorem mainLoop_ne (c : LLLCfg F) (fuel : ℕ) (kmin kend srs n : ℕ) (st : LLLState F) :
    (mainLoop c fuel kmin kend srs n st).1 ≠ .startFailure := by
  induction n generalizing st with
  | zero => simp [mainLoop]
  | succ n ih =>
    rw [mainLoop]
    dsimp only
    split_ifs
    · exact discoverStep_ne c fuel srs st
    · exact babai_ne c fuel _ _ _ _
    · exact ih _
    · simp

/-- the return without `set_status` is dead code -/
theorem startStep_ne (c : LLLCfg F) (fuel : ℕ) (s : GSO F) (k srs : ℕ) (h : 0 < k → BabaiPre s k k) :
    (startStep c fuel s k srs).1 ≠ .startFailure := by
  unfold startStep
  by_cases hk : 0 < k
  · rw [if_pos hk]
    unfold startTail
    by_cases hs : (babai c fuel s k k srs).1 = .success
    · rw [if_neg (by simpa using hs)]
      have r := babai_res c fuel srs (h hk) hs
      have v := babaiLoop_valid c k k srs fuel 0 longMax s hs
      have := updateGsoRow_diag (babai c fuel s k k srs).2 k (k + 1) (by rw [r.known]; omega) v
      dsimp only
      rw [this]
      nofun
    · rw [if_pos (by simpa using hs)]
      exact babai_ne c fuel s k k srs
  · rw [if_neg hk]
    have : k = 0 := by omega
    subst this
    unfold startTail
    rw [if_neg (by simp)]
    have : (s.updateGsoRow 0 (0 + 1)).1 = true := updateGsoLoop_diag _ _ _ _ (Nat.zero_le _)
    dsimp only
    rw [this]
    nofun

/-- **C52 (`lll`).**  For every floating-point arithmetic, every state in which `lll` may be called and every previous value
of `status`: after `lll` returns, the member `status` is `RED_SUCCESS` if and only if `lll` returned true.  The return
path without `set_status` is never taken: when it is reached the row is already valid up to the diagonal. -/
theorem C52_lll_status (c : LLLCfg F) (fuel : ℕ) (hf : 2 ^ 62 ≤ fuel) (maxIter last : ℕ) {s : GSO F} {kmin kstart kend : ℕ}
    (srs : ℕ) (h : LLLPre s kmin kstart kend) (old : RedStatus) :
    let q := lll c fuel maxIter last s kmin kstart kend srs
    memberStatus old q.1 = .success ↔ q.1 = .success := by
  have h1 : (lll c fuel maxIter last s kmin kstart kend srs).1 ≠ .startFailure := by
    unfold lll
    dsimp only
    have hlt := h.lt
    have hle := h.le
    obtain ⟨z1, z2, z3, z4, z5⟩ := zeroLoop_good kmin kend (kend - kmin) 0 s h.wf h.unlocked h.end_le (by omega)
    have hknown : kstart ≤ (zeroLoop kmin kend (kend - kmin) 0 s).2.nKnownRows := by
      rcases h.start with h0 | ⟨h1, h2⟩
      · omega
      · rw [z4 h1]; exact h2
    have hd : (zeroLoop kmin kend (kend - kmin) 0 s).2.d = s.d := z1.cfg.d
    have hend := h.end_le
    generalize zeroLoop kmin kend (kend - kmin) 0 s = z at *
    have hss := startStep_ne c fuel z.2 kstart srs
      fun _ => ⟨z1.wf, by omega, hknown, le_rfl, by rw [z1.wf.unlocked z2]; exact hknown⟩
    have key : ∀ p : LLLStatus × GSO F, p.1 ≠ .startFailure → (lllTail c fuel maxIter kmin kend srs
        { s := z.2, kappa := kstart + 1, kappaMax := 0, zeros := z.1, nSwaps := 0, lastEarlyRed := last } p).1 ≠
        .startFailure := by
      intro p hp
      unfold lllTail
      by_cases hps : p.1 = .success
      · rw [if_neg (by simpa using hps)]
        have hm := mainLoop_ne c fuel kmin kend srs maxIter
          { s := p.2, kappa := kstart + 1, kappaMax := 0, zeros := z.1, nSwaps := 0, lastEarlyRed := last }
        unfold lllFinish
        split_ifs
        · exact hm
        · simp
        · simp
        · simp
        · simp
      · rw [if_pos (by simpa using hps)]; exact hp
    apply key
    split_ifs
    · exact hss
    · simp
  have h2 := lll_fuel c fuel hf maxIter last s kmin kstart kend srs
  dsimp only
  generalize (lll c fuel maxIter last s kmin kstart kend srs).1 = x at *
  cases x <;> simp [memberStatus] at *

/-- **C52 (`size_reduction`).** -/
theorem C52_size_reduction_status (c : LLLCfg F) (fuel : ℕ) (hf : 2 ^ 62 ≤ fuel) (srs n k : ℕ) (s : GSO F) (hs : WF s)
    (hl : s.colsLocked = false) (hd : k + n ≤ s.d) (hk : k ≤ s.nKnownRows) (old : RedStatus) :
    let q := sizeReductionLoop c fuel srs n k s
    memberStatus old q.1 = .success ↔ q.1 = .success := by
  have h1 : (sizeReductionLoop c fuel srs n k s).1 ≠ .startFailure := by
    induction n generalizing k s with
    | zero => simp [sizeReductionLoop]
    | succ n ih =>
      have e := startStep_good c fuel srs hs hl (kstart := k) (by omega) hk
      have e2 := startStep_ne c fuel s k srs fun _ => ⟨hs, by omega, hk, le_rfl, by rw [hs.unlocked hl]; exact hk⟩
      rw [sizeReductionLoop]
      split_ifs with h
      · exact ih (k + 1) _ e.1.wf (e.2 h).2 (by rw [e.1.cfg.d]; omega) (e.2 h).1
      · exact e2
  have h2 := sizeReductionLoop_fuel c fuel hf srs n k s
  dsimp only
  generalize (sizeReductionLoop c fuel srs n k s).1 = x at *
  cases x <;> simp [memberStatus] at *

/-- non-vacuity: a fresh object for a non-empty basis meets the hypotheses of both -/
example (c : LLLCfg F) (b jz : Mat ℤ) (jf : Mat F) (old : RedStatus) :
    let s := mk0 3 4 true false false false b b b jz jf
    (memberStatus old (lll c (2 ^ 62) 100 0 s 0 0 3 0).1 = .success ↔ (lll c (2 ^ 62) 100 0 s 0 0 3 0).1 = .success) ∧
    (memberStatus old (sizeReductionLoop c (2 ^ 62) 0 3 0 s).1 = .success ↔
      (sizeReductionLoop c (2 ^ 62) 0 3 0 s).1 = .success) := by
  obtain ⟨hwf, hb, hu, hv, hd, hc, hg, hwu, hwi, hk, hl⟩ := mk0_wf 3 4 true false false false b b b jz jf (by norm_num)
  exact ⟨C52_lll_status c _ le_rfl _ _ _ ⟨hwf, hl, by omega, by omega, by omega, .inl rfl⟩ old,
    C52_size_reduction_status c _ le_rfl _ _ _ _ hwf hl (by omega) (by omega) old⟩

end LLL
end Fplll

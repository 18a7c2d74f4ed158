import Verif.Proofs.BKZ
import Verif.Model.StratUse

/-!
# Lemmas on the use of strategies: no block is larger than the block size
-/

namespace Fplll
namespace StratUse

open BKZ Strat

variable {σ α : Type}

/-- invariant for the calls with blocks of size at most `B` -/
structure OpsLe (n B : ℤ) (o : Ops σ) (P Q : σ → Prop) : Prop where
  svp : ∀ kappa bs dual s, 0 ≤ kappa → 1 ≤ bs → bs ≤ B → kappa + bs ≤ n → P s → (o.svp kappa bs dual s).All P Q
  lll : ∀ s, P s → (o.lll 0 0 n s).All P Q
  sizeRed : ∀ k s, 1 ≤ k → k ≤ n → P s → (o.sizeRed (k - 1) k (k - 2) s).All P Q
  symG : ∀ s, P s → P (o.symG s)
  noProgress : ∀ s, P s → P (o.noProgress s).2

variable {P Q : σ → Prop} {o : Ops σ} {n B : ℤ}

theorem truncTour_le (h : OpsLe n B o P Q) {bs lo hi : ℤ} (hbs : 1 ≤ bs) (hB : bs ≤ B) (hlo : 0 ≤ lo) (hhi : hi ≤ n) {s : σ} (hs : P s) :
    (truncTour o bs lo hi s).All P Q :=
  loop_all _ _ (fun j hj s hs => h.svp _ _ _ s (by omega) hbs hB (by omega) hs) _ _ hs

theorem truncDtour_le (h : OpsLe n B o P Q) {bs lo hi : ℤ} (hbs : 1 ≤ bs) (hB : bs ≤ B) (hlo : 0 ≤ lo) (hhi : hi ≤ n) {s : σ} (hs : P s) :
    (truncDtour o bs lo hi s).All P Q :=
  loop_all _ _ (fun j hj s hs => h.svp _ _ _ s (by omega) hbs hB (by omega) hs) _ _ hs

theorem hkz_le (h : OpsLe n B o P Q) {lo hi : ℤ} (hlo : 0 ≤ lo) (hB : hi - lo ≤ B) (hhi1 : 1 ≤ hi) (hhi : hi ≤ n) {s : σ} (hs : P s) :
    (hkz o lo hi s).All P Q :=
  (loop_all _ _ (fun j hj s hs => h.svp _ _ _ s (by omega) (by omega) (by omega) (by omega) hs) _ _ hs).bind
    fun _ _ hs => (h.sizeRed hi _ hhi1 hhi hs).bind fun _ _ hs => hs

theorem tour_le (h : OpsLe n B o P Q) {bs lo hi : ℤ} (hbs : 1 ≤ bs) (hB : bs ≤ B) (hlo : 0 ≤ lo) (hhi1 : 1 ≤ hi) (hhi : hi ≤ n) {s : σ}
    (hs : P s) : (tour o bs lo hi s).All P Q :=
  (truncTour_le h hbs hB hlo hhi hs).bind fun _ _ hs =>
    (hkz_le h (le_max_right _ _) (by omega) hhi1 hhi hs).bind fun _ s hs => h.symG s hs

theorem sdTour_le (h : OpsLe n B o P Q) {bs : ℤ} (hbs : 1 ≤ bs) (hB : bs ≤ B) {s : σ} (hs : P s) : (sdTour o bs 0 n s).All P Q :=
  (truncDtour_le h hbs hB le_rfl le_rfl hs).bind fun _ _ hs => (truncTour_le h hbs hB le_rfl le_rfl hs).bind fun _ _ hs => hs

theorem slideLoop_le (h : OpsLe n B o P Q) (hn : 0 ≤ n) {bounded : Bool} {bs : ℤ} (hbs : 1 ≤ bs) (hB : bs ≤ B) (fuel : ℕ) {s : σ} (hs : P s) :
    (slideLoop o bounded bs 0 n fuel s).All P Q := by
  obtain ⟨hb1, hb2, hb3⟩ := numBlocks_spec hbs hn
  induction fuel generalizing s with
  | zero => exact hs
  | succ fuel ih =>
    rw [slideLoop]
    refine (loop_all _ _ (fun j hj s hs => ?_) _ _ hs).bind fun c s hs => ?_
    · have hj' : (j : ℤ) ≤ numBlocks bs 0 n - 1 := by omega
      have : (j : ℤ) * bs ≤ (numBlocks bs 0 n - 1) * bs := mul_le_mul_of_nonneg_right hj' (by omega)
      have h0 : 0 ≤ (j : ℤ) * bs := by positivity
      refine h.svp _ _ _ s ?_ ?_ ((min_le_right _ _).trans hB) ?_ hs
      · simpa using h0
      · simp only [zero_add, one_mul]; omega
      · simp only [zero_add, one_mul]; omega
    · split_ifs
      · refine (h.lll s hs).bind fun r s hs => ?_
        split_ifs
        · exact hs
        · exact hs
        · exact ih hs
      · exact hs
      · exact ih hs

theorem slideTour_le (h : OpsLe n B o P Q) (hn : 0 ≤ n) {bounded : Bool} {bs : ℤ} (hbs : 1 ≤ bs) (hB : bs ≤ B) (fuel : ℕ) {s : σ} (hs : P s) :
    (slideTour o bounded bs 0 n fuel s).All P Q := by
  obtain ⟨hb1, hb2, hb3⟩ := numBlocks_spec hbs hn
  refine (slideLoop_le h hn hbs hB fuel hs).bind fun _ s hs => (loop_all _ _ (fun j hj s hs => ?_) _ _ hs).bind fun _ s hs =>
    h.noProgress s hs
  have hj' : (j : ℤ) + 1 ≤ numBlocks bs 0 n - 1 := by omega
  have : ((j : ℤ) + 1) * bs ≤ (numBlocks bs 0 n - 1) * bs := mul_le_mul_of_nonneg_right hj' (by omega)
  have h0 : 0 ≤ (j : ℤ) * bs := by positivity
  have e : ((j : ℤ) + 1) * bs = j * bs + bs := by ring
  refine h.svp _ _ _ s ?_ hbs hB ?_ hs
  · simp only [zero_add, one_mul]; omega
  · simp only [zero_add, one_mul]; omega

theorem sldFinish_le (h : OpsLe n B o P Q) (hn : 0 ≤ n) {bs : ℤ} (hbs : 1 ≤ bs) (hB : bs ≤ B) {s : σ} (hs : P s) :
    (sldFinish o bs n s).All P Q := by
  obtain ⟨hb1, hb2, hb3⟩ := numBlocks_spec hbs hn
  refine loop_all _ _ (fun j hj s hs => ?_) _ _ hs
  have hj' : (j : ℤ) ≤ numBlocks bs 0 n - 1 := by omega
  have : (j : ℤ) * bs ≤ (numBlocks bs 0 n - 1) * bs := mul_le_mul_of_nonneg_right hj' (by omega)
  have h0 : 0 ≤ (j : ℤ) * bs := by positivity
  refine hkz_le h ?_ ?_ ?_ ?_ hs
  · simp only [zero_add, one_mul]; omega
  · simp only [zero_add, one_mul]; omega
  · simp only [zero_add, one_mul]; omega
  · exact min_le_left _ _

section main
variable {D : Type} [LinearOrder D]

omit [LinearOrder D] in
theorem oneTour_le (h : OpsLe n B o P Q) (hn : 1 ≤ n) {c : Cfg D} (hbs : 1 ≤ c.blockSize) (hB : c.blockSize ≤ B) (inner : ℕ) {s : σ} (hs : P s) :
    (oneTour o c n inner s).All P Q := by
  unfold oneTour
  split_ifs
  · exact sdTour_le h hbs hB hs
  · exact slideTour_le h (by omega) hbs hB inner hs
  · exact tour_le h hbs hB le_rfl hn le_rfl hs

theorem mainLoop_le (h : OpsLe n B o P Q) (hn : 1 ≤ n) {c : Cfg D} (hbs : 1 ≤ c.blockSize) (hB : c.blockSize ≤ B) {e : Env D σ}
    (he : ∀ i s, P s → P (e.slope i s).2) (inner fuel i : ℕ) (a : AutoAbort D) {s : σ} (hs : P s) :
    (mainLoop o c e n inner fuel i a s).All P Q := by
  induction fuel generalizing i a s with
  | zero => exact hs
  | succ fuel ih =>
    rw [mainLoop]
    have hs' : P (if autoOn c = true then (e.slope i s).2 else s) := by split_ifs; exacts [he i s hs, hs]
    by_cases h1 : c.maxLoops.any (fun m => decide (m ≤ (i : ℤ))) = true
    · rw [if_pos h1]; exact hs
    rw [if_neg h1]
    by_cases h2 : c.maxTime = true ∧ e.timeUp i s = true
    · rw [if_pos h2]; exact hs
    rw [if_neg h2]
    dsimp only
    by_cases h3 : autoOn c = true ∧ (a.test c.scaled c.maxNoDec (e.slope i s).1).1 = true
    · rw [if_pos h3]; exact hs'
    rw [if_neg h3]
    refine (oneTour_le h hn hbs hB inner hs').bind fun c s hs => ?_
    split_ifs
    · exact hs
    · exact ih _ _ hs
    · exact ih _ _ hs

theorem bkz_le [OrderTop D] {R : σ → Prop} (h : OpsLe n B o P Q) (hn : 1 ≤ n) {c : Cfg D} (hB : c.blockSize ≤ B) (hsd : c.sd = true → c.blockSize ≤ n) {e : Env D σ}
    (he : ∀ i s, P s → P (e.slope i s).2) {prep : σ → σ} (inner fuel : ℕ) {s : σ} (hprep : P (prep s)) (hs : R s) (hR : ∀ s, P s → R s) :
    (bkz o c e prep n inner fuel s).All R Q := by
  unfold bkz
  by_cases h1 : c.sd = true ∧ c.sld = true
  · rw [if_pos h1]; exact hs
  rw [if_neg h1]
  by_cases h2 : c.blockSize < 2
  · rw [if_pos h2]; exact hs
  rw [if_neg h2]
  refine Out.All.mono (P := P) ?_ hR
  refine Out.All.bind (α := Unit) ?_ fun _ s hs => (mainLoop_le h hn (by omega) hB he inner fuel 0 _ hs).bind fun r s hs =>
    Out.All.bind (α := Bool) ?_ fun _ s hs => Out.All.bind (α := Bool) ?_ fun _ s hs => hs
  · split_ifs
    · exact (h.lll _ hprep).bind fun _ _ hs => hs
    · exact hprep
  · split_ifs with h3
    · exact hkz_le h (by have := hsd h3; omega) (by omega) hn le_rfl hs
    · exact hs
  · split_ifs
    · exact sldFinish_le h (by omega) (by omega) hB hs
    · exact hs


end main

end StratUse
end Fplll

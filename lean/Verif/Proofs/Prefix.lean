import Verif.Proofs.BKZSvp
import Verif.Spec.Pref

/-!
# Size reduction adds multiples of earlier rows only, whatever the floating-point numbers are
-/

namespace Fplll
namespace BKZ

open FloatOps GSO LLL Spec

variable {F : Type} [FloatOps F]

theorem rowAddmulWe_row {s : GSO F} (h : Full s) (i : ℕ) {j : ℕ} (hj : j < s.d) (x : F) :
    ∃ t : ℤ, ∀ k, ∀ c < s.nCols, (s.rowAddmulWe i j x).b k c = if k = i then s.b i c + t * s.b j c else s.b k c := by
  have hz : ∀ c < s.nCols, s.nKnownCols ≤ c → s.b j c = 0 := fun c hc h1 => h.wf.zeroSrc j (by rw [h.source]; exact hj) c hc h1
  unfold rowAddmulWe
  dsimp only
  split_ifs
  · refine ⟨1, fun k c hc => ?_⟩
    change setAt s.b i _ k c = _
    rw [setAt_mat, vecAdd_apply]
    have := hz c hc
    grind
  · refine ⟨-1, fun k c hc => ?_⟩
    change setAt s.b i _ k c = _
    rw [setAt_mat, vecSub_apply]
    have := hz c hc
    grind
  · refine ⟨(getSiExp x).1, fun k c hc => ?_⟩
    change setAt s.b i _ k c = _
    rw [setAt_mat, vecAddmulSi_apply]
    have := hz c hc
    grind
  · exact ⟨0, fun k c _ => by split_ifs with h <;> simp [h]⟩
  · refine ⟨(getSiExp x).1 * 2 ^ (getSiExp x).2, fun k c hc => ?_⟩
    change setAt s.b i _ k c = _
    rw [setAt_mat, vecAddmul2exp_apply]
    have := hz c hc
    split_ifs with h1 h2
    · ring
    · rw [this (by omega)]; ring
    · rfl
  · refine ⟨(getZExp x).1 * 2 ^ (getZExp x).2, fun k c hc => ?_⟩
    change setAt s.b i _ k c = _
    rw [setAt_mat, vecAddmul2exp_apply]
    have := hz c hc
    split_ifs with h1 h2
    · ring
    · rw [this (by omega)]; ring
    · rfl

/-- unimodular operations that only add multiples of earlier rows -/
structure Low (s s' : GSO F) : Prop where
  keep : Keep s s'
  low : LowerTri s.nCols s.b s'.b

theorem Low.refl {s : GSO F} (h : Full s) : Low s s := ⟨.refl h, .refl _ _⟩

theorem Low.trans {s t v : GSO F} (h1 : Low s t) (h2 : Low t v) : Low s v :=
  ⟨h1.keep.trans h2.keep, h1.low.trans (by have := h2.low; rwa [h1.keep.good.cfg.nCols] at this)⟩

omit [FloatOps F] in
theorem Low.of_b {s s' : GSO F} (h : Keep s s') (e : s'.b = s.b) : Low s s' := ⟨h, e ▸ .refl _ _⟩

theorem updateGsoRow_low {s : GSO F} (h : Full s) {i : ℕ} (hi : i < s.d) (l : ℕ) : Low s (s.updateGsoRow i l).2 :=
  .of_b (updateGsoRow_keep h hi l) (updateGsoRow_b s i l)

theorem babaiPass_low {s : GSO F} (h : Full s) {kappa start stop : ℕ} (hk : kappa < s.d) (hle : stop ≤ kappa) :
    Low s (babaiPass s kappa start stop) := by
  unfold babaiPass
  dsimp only
  generalize forUp start stop (fun j (bm : ℕ → F) => setAt bm j (s.mu kappa j)) (fun _ => nan) = bm0
  have L : Low s (forDown start stop (babaiStep kappa start) (s, bm0)).1 := by
    by_cases hss : start ≤ stop
    swap
    · rw [forDown_empty (by omega)]; exact .refl h
    refine forDown_inv (P := fun _ (p : GSO F × (ℕ → F)) => Low s p.1) (babaiStep kappa start) hss (s, bm0) (.refl h) ?_
    rintro j ⟨t, bm⟩ h1 h2 ht
    dsimp only at ht
    unfold babaiStep
    dsimp only
    split_ifs
    · exact ht
    · have hd : t.d = s.d := ht.keep.good.cfg.d
      obtain ⟨y, hy⟩ := rowAddmulWe_row ht.keep.full kappa (j := j) (by omega) (neg (rnd (bm j)))
      exact ht.trans ⟨rowAddmulWe_keep ht.keep.full (by omega) (by omega) (by omega) _, lowerTri_add (by omega) hy⟩
  exact L.trans (.of_b (rowOpEnd_keep L.keep.full _ _) (rowOpEnd_fo _ _ _).b)

theorem babai_low (c : LLLCfg F) (fuel : ℕ) {s : GSO F} (h : Full s) {kappa stop : ℕ} (start : ℕ) (hk : kappa < s.d)
    (hle : stop ≤ kappa) : Low s (babai c fuel s kappa stop start).2 := by
  unfold babai
  generalize 0 = iter
  generalize longMax = e
  induction fuel generalizing iter e s with
  | zero => exact .refl h
  | succ fuel ih =>
    have k1 := updateGsoRow_low h hk stop
    have hd : (s.updateGsoRow kappa stop).2.d = s.d := k1.keep.good.cfg.d
    have k2 := babaiPass_low (start := start) k1.keep.full (kappa := kappa) (stop := stop) (by rw [hd]; exact hk) hle
    have k3 := k1.trans k2
    have next := fun it e' => k3.trans (ih k2.keep.full (by rw [k3.keep.good.cfg.d]; exact hk) it e')
    rw [babaiLoop]
    dsimp only
    split_ifs
    · exact k1
    · exact k1
    · exact k1
    · exact next _ _
    · exact next _ _

theorem earlyLoop_low (c : LLLCfg F) (fuel start srs n i : ℕ) (s : GSO F) (h : Full s) (hd : i + n ≤ s.d) (hi : start ≤ i) :
    Low s (earlyLoop c fuel start srs n i s).2 := by
  induction n generalizing i s with
  | zero => exact .refl h
  | succ n ih =>
    have k1 := babai_low c fuel h srs (kappa := i) (stop := start) (by omega) hi
    rw [earlyLoop]
    split_ifs
    · exact k1.trans (ih (i + 1) _ k1.keep.full (by rw [k1.keep.good.cfg.d]; omega) (by omega))
    · exact k1

theorem earlyReduction_low (c : LLLCfg F) (fuel : ℕ) {s : GSO F} (h : Full s) {start : ℕ} (srs : ℕ) (hG : s.intGram = false)
    (hd : start ≤ s.d) : Low s (earlyReduction c fuel s start srs).2 := by
  have k0 : Low s s.lockCols := .of_b (lockCols_keep h hG) rfl
  have k1 := k0.trans (earlyLoop_low c fuel start srs (s.d - start) start s.lockCols k0.keep.full (by rw [k0.keep.good.cfg.d]; omega) le_rfl)
  unfold earlyReduction
  dsimp only
  split_ifs
  · exact k1.trans (.of_b (unlockCols_keep k1.keep.full) rfl)
  · exact k1

theorem startStep_low (c : LLLCfg F) (fuel : ℕ) {s : GSO F} (h : Full s) {k : ℕ} (srs : ℕ) (hk : k < s.d) :
    Low s (startStep c fuel s k srs).2 := by
  unfold startStep
  have k1 : Low s (if 0 < k then babai c fuel s k k srs else (.success, s)).2 := by
    split_ifs
    · exact babai_low c fuel h srs hk le_rfl
    · exact .refl h
  generalize (if 0 < k then babai c fuel s k k srs else (.success, s)) = p at k1
  unfold startTail
  dsimp only
  have hd := k1.keep.good.cfg.d
  have k2 := k1.trans (updateGsoRow_low k1.keep.full (i := k) (by omega) (k + 1))
  split_ifs
  · exact k1
  · exact k2
  · exact k2

theorem sizeReductionLoop_low (c : LLLCfg F) (fuel srs n k : ℕ) (s : GSO F) (h : Full s) (hd : k + n ≤ s.d) :
    Low s (sizeReductionLoop c fuel srs n k s).2 := by
  induction n generalizing k s with
  | zero => exact .refl h
  | succ n ih =>
    have k1 := startStep_low c fuel h (k := k) srs (by omega)
    rw [sizeReductionLoop]
    split_ifs
    · exact k1.trans (ih (k + 1) _ k1.keep.full (by rw [k1.keep.good.cfg.d]; omega))
    · exact k1

end BKZ
end Fplll

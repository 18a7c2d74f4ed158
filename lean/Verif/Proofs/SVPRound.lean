import Verif.Model.SVPRound
import Verif.Proofs.SVP
import Verif.Proofs.ErrMono
import Verif.Props.ErrBound

/-!
# The exact evaluator on an enumeration in floating-point arithmetic
-/

open Finset

namespace Fplll
namespace SVP

open Enum Spec ErrB

variable {A : Arith} {q : Dat} {up : ℚ → ℚ} {sq : (ℕ → ℤ) → ℤ} {g : ℤ → ℚ} {im0 : ℤ} {md0 : ℚ}

/-- what the evaluator relies on: `int_dist2Float` aborts or gives the values of a monotone function -/
structure DistOK (A : Arith) (q : Dat) (up : ℚ → ℚ) (g : ℤ → ℚ) (im0 : ℤ) (md0 : ℚ) : Prop where
  val : ∀ t, 0 ≤ t → t ≤ im0 → distR A q t = none ∨ distR A q t = some (g t)
  mono : ∀ s t, 0 ≤ s → s ≤ t → t ≤ im0 → g s ≤ g t
  hup : Monotone up
  top : up (g im0) ≤ md0

/-- invariant of the evaluator -/
structure RInv (up : ℚ → ℚ) (sq : (ℕ → ℤ) → ℤ) (g : ℤ → ℚ) (im0 : ℤ) (md0 : ℚ) (t : RSt) (md : ℚ) : Prop where
  nonneg : 0 ≤ t.imd
  le : t.imd ≤ im0
  sols : (t.sol = none ∧ t.imd = im0 ∧ md = md0) ∨ (∃ x, t.sol = some (g t.imd, x) ∧ sq x = t.imd ∧ md = up (g t.imd))

theorem evalR_skip {t : RSt} {md : ℚ} {x : ℕ → ℤ} {δ : ℚ} (h0 : 0 ≤ t.imd) (h : t.aborted = true ∨ ¬ sq x ≤ t.imd) :
    (evalR A q up sq).evalSol t x δ md = (t, md) := by
  simp only [evalR]
  by_cases ha : t.aborted = true
  · rw [if_pos ha]
  · rw [if_neg ha, if_neg]
    rcases h with h | h
    · exact absurd h ha
    · omega

theorem evalR_abort {t : RSt} {md : ℚ} {x : ℕ → ℤ} {δ : ℚ} (ha : t.aborted = false) (h : sq x ≤ t.imd)
    (hd : distR A q (sq x) = none) : (evalR A q up sq).evalSol t x δ md = ({ t with aborted := true }, md) := by
  simp only [evalR, ha]
  rw [if_neg (by simp), if_pos (.inr h), hd]

theorem evalR_take (hsq : ∀ x, 0 ≤ sq x) (H : DistOK A q up g im0 md0) {t : RSt} {md : ℚ} (hi : RInv up sq g im0 md0 t md)
    {x : ℕ → ℤ} {δ : ℚ} (ha : t.aborted = false) (h : sq x ≤ t.imd) (hd : distR A q (sq x) = some (g (sq x))) :
    (evalR A q up sq).evalSol t x δ md = (⟨some (g (sq x), x), sq x, false⟩, up (g (sq x))) := by
  simp only [evalR, ha]
  rw [if_neg (by simp), if_pos (.inr h), hd]
  rcases hi.sols with ⟨h1, -, -⟩ | ⟨y, h1, -, -⟩
  · rw [h1]
  · rw [h1]
    dsimp only
    rw [if_neg (not_lt.2 (H.mono _ _ (hsq x) h hi.le))]

theorem evalR_sol (hsq : ∀ x, 0 ≤ sq x) (H : DistOK A q up g im0 md0) {t : RSt} {md : ℚ} (hi : RInv up sq g im0 md0 t md)
    (x : ℕ → ℤ) (δ : ℚ) :
    RInv up sq g im0 md0 ((evalR A q up sq).evalSol t x δ md).1 ((evalR A q up sq).evalSol t x δ md).2 ∧
    ((evalR A q up sq).evalSol t x δ md).2 ≤ md := by
  by_cases h : t.aborted = true ∨ ¬ sq x ≤ t.imd
  · rw [evalR_skip hi.nonneg h]; exact ⟨hi, le_rfl⟩
  push Not at h
  have ha : t.aborted = false := by simpa using h.1
  rcases H.val (sq x) (hsq x) (h.2.trans hi.le) with hd | hd
  · rw [evalR_abort ha h.2 hd]; exact ⟨⟨hi.nonneg, hi.le, hi.sols⟩, le_rfl⟩
  · rw [evalR_take hsq H hi ha h.2 hd]
    refine ⟨⟨hsq x, h.2.trans hi.le, .inr ⟨x, rfl, rfl, rfl⟩⟩, ?_⟩
    dsimp only
    rcases hi.sols with ⟨-, h1, h2⟩ | ⟨y, -, -, h2⟩
    · rw [h2]
      refine le_trans (H.hup (H.mono _ _ (hsq x) (h.2.trans hi.le) le_rfl)) H.top
    · rw [h2]; exact H.hup (H.mono _ _ (hsq x) h.2 hi.le)

theorem evalR_ok {c : Cfg} (hp : PruneOK c) (hsq : ∀ x, 0 ≤ sq x) (H : DistOK A q up g im0 md0) :
    EvalOK c (evalR A q up sq) (RInv up sq g im0 md0) where
  sol e md x d hi _ _ _ := by
    obtain ⟨h1, h2⟩ := evalR_sol hsq H hi x d
    exact ⟨h1, fun k hk => setBounds_mono hp h2 k hk⟩
  sub e md l x d hi := hi

/-- after `abort()` nothing changes -/
theorem evalR_fold_aborted (L : List Event) : ∀ (t : RSt) (md : ℚ), t.aborted = true →
    (L.foldl (evStep (evalR A q up sq)) (t, md)).1 = t := by
  induction L with
  | nil => intro t md _; rfl
  | cons a L ih =>
    intro t md ha
    rw [List.foldl_cons]
    cases a with
    | node k x d => exact ih t md ha
    | sub k x d => exact ih t md ha
    | sol x d =>
      have : evStep (evalR A q up sq) (t, md) (Event.sol x d) = (t, md) := by
        simp only [evStep, evalR, ha, if_true]
      rw [this]
      exact ih t md ha

/-- the evaluator aborts or keeps a shortest one of the vectors it is offered -/
theorem evalR_fold (hsq : ∀ x, 0 ≤ sq x) (H : DistOK A q up g im0 md0) (L : List Event) :
    ∀ (t : RSt) (md : ℚ), RInv up sq g im0 md0 t md → t.aborted = false →
      (L.foldl (evStep (evalR A q up sq)) (t, md)).1.aborted = false →
      (L.foldl (evStep (evalR A q up sq)) (t, md)).1.imd ≤ t.imd ∧
      (∀ x δ, Event.sol x δ ∈ L → (L.foldl (evStep (evalR A q up sq)) (t, md)).1.imd ≤ sq x) ∧
      ((L.foldl (evStep (evalR A q up sq)) (t, md)).1.sol = t.sol ∧ (∀ x δ, Event.sol x δ ∈ L → ¬ sq x ≤ t.imd) ∨
        ∃ x δ, Event.sol x δ ∈ L ∧ (L.foldl (evStep (evalR A q up sq)) (t, md)).1.sol = some (g (sq x), x)) := by
  induction L with
  | nil => intro t md _ _ _; exact ⟨le_rfl, by simp, .inl ⟨rfl, by simp⟩⟩
  | cons a L ih =>
    intro t md hi ha hF
    rw [List.foldl_cons] at hF ⊢
    cases a with
    | node k x d =>
      obtain ⟨h1, h2, h3⟩ := ih t md hi ha hF
      refine ⟨h1, fun x δ hm => h2 x δ (by simpa using hm), ?_⟩
      rcases h3 with ⟨h3, h4⟩ | ⟨x, δ, h3, h4⟩
      · exact .inl ⟨h3, fun x δ hm => h4 x δ (by simpa using hm)⟩
      · exact .inr ⟨x, δ, List.mem_cons_of_mem _ h3, h4⟩
    | sub k x d =>
      obtain ⟨h1, h2, h3⟩ := ih t md hi ha hF
      refine ⟨h1, fun x δ hm => h2 x δ (by simpa using hm), ?_⟩
      rcases h3 with ⟨h3, h4⟩ | ⟨x, δ, h3, h4⟩
      · exact .inl ⟨h3, fun x δ hm => h4 x δ (by simpa using hm)⟩
      · exact .inr ⟨x, δ, List.mem_cons_of_mem _ h3, h4⟩
    | sol x d =>
      have e1 : evStep (evalR A q up sq) (t, md) (Event.sol x d) = (evalR A q up sq).evalSol t x d md := rfl
      rw [e1] at hF ⊢
      by_cases hc : sq x ≤ t.imd
      · rcases H.val (sq x) (hsq x) (hc.trans hi.le) with hd | hd
        · rw [evalR_abort ha hc hd, evalR_fold_aborted L _ _ rfl] at hF
          cases hF
        · have hi' := (evalR_sol hsq H hi x d).1
          rw [evalR_take hsq H hi ha hc hd] at hi' hF ⊢
          obtain ⟨h1, h2, h3⟩ := ih _ _ hi' rfl hF
          dsimp only at h1 h2 h3
          refine ⟨h1.trans hc, ?_, .inr ?_⟩
          · intro y δ hm
            rcases List.mem_cons.1 hm with hm | hm
            · cases hm; exact h1
            · exact h2 y δ hm
          · rcases h3 with ⟨h3, -⟩ | ⟨y, δ, h3, h4⟩
            · exact ⟨x, d, by simp, h3⟩
            · exact ⟨y, δ, List.mem_cons_of_mem _ h3, h4⟩
      · rw [evalR_skip hi.nonneg (.inr hc)] at hF ⊢
        obtain ⟨h1, h2, h3⟩ := ih t md hi ha hF
        refine ⟨h1, ?_, ?_⟩
        · intro y δ hm
          rcases List.mem_cons.1 hm with hm | hm
          · cases hm; exact h1.trans (by omega)
          · exact h2 y δ hm
        · rcases h3 with ⟨h3, h4⟩ | ⟨y, δ, h3, h4⟩
          · refine .inl ⟨h3, fun y δ hm => ?_⟩
            rcases List.mem_cons.1 hm with hm | hm
            · cases hm; exact hc
            · exact h4 y δ hm
          · exact .inr ⟨y, δ, List.mem_cons_of_mem _ h3, h4⟩

/-- it never aborts if all distances can be computed -/
theorem evalR_fold_ok (hsq : ∀ x, 0 ≤ sq x) (H : DistOK A q up g im0 md0)
    (hd : ∀ t, 0 ≤ t → t ≤ im0 → distR A q t = some (g t)) (L : List Event) :
    ∀ (t : RSt) (md : ℚ), RInv up sq g im0 md0 t md → t.aborted = false →
      (L.foldl (evStep (evalR A q up sq)) (t, md)).1.aborted = false := by
  induction L with
  | nil => intro t md _ h; exact h
  | cons a L ih =>
    intro t md hi ha
    rw [List.foldl_cons]
    cases a with
    | node k x d => exact ih t md hi ha
    | sub k x d => exact ih t md hi ha
    | sol x d =>
      have hi' := (evalR_sol hsq H hi x d).1
      have e1 : evStep (evalR A q up sq) (t, md) (Event.sol x d) = (evalR A q up sq).evalSol t x d md := rfl
      rw [e1]
      by_cases hc : sq x ≤ t.imd
      · rw [evalR_take hsq H hi ha hc (hd _ (hsq x) (hc.trans hi.le))] at hi' ⊢
        exact ih _ _ hi' rfl
      · rw [evalR_skip hi.nonneg (.inr hc)]
        exact ih t md hi ha

/-! ## The bound -/

/-- the first call of `get_max_error_aux`, for the squared length `m` of the shortest row: the bounds on the coordinates
have at most 53 bits, and the bound on the error is so small that what it loses by rounding to nearest does not matter for
vectors whose squared length is at least `L` -/
structure StartL (A : Arith) (ρ : ℚ) (q : Dat) (m : ℤ) (L : ℚ) (s : (ℕ → ℚ) × ℚ) : Prop where
  run : maxErrorSt A q (A.ru m) true = some s
  bits : ∀ i, i < q.d → s.1 i < 2 ^ 53
  small : (1 - loss ρ q.d) * s.2 ≤ loss ρ q.d * (hu * L)

/-- for all integer vectors -/
abbrev Start (A : Arith) (ρ : ℚ) (q : Dat) (m : ℤ) (s : (ℕ → ℚ) × ℚ) : Prop := StartL A ρ q m 1 s

/-- the value of `int_dist2Float` when it does not abort -/
def distVal (A : Arith) (q : Dat) (t : ℤ) : ℚ := A.rn (A.ru t + ((maxErrorSt A q (A.ru t) true).map (·.2)).getD 0)

variable {ρ : ℚ} {fl : ℚ → ℚ} {mu : ℕ → ℕ → ℚ} {r : ℕ → ℚ}

theorem StartL.below (hA : ArithOK A ρ) (hM : ArithMono A) (hfl : Rnd fl) (hq : DatOK q fl mu r) {m : ℤ} {s : (ℕ → ℚ) × ℚ}
    {L : ℚ} (h : StartL A ρ q m L s) {t u : ℤ} (h0 : 0 ≤ t) (h1 : t ≤ u) (h2 : u ≤ m) :
    ∃ a b, maxErrorSt A q (A.ru t) true = some a ∧ maxErrorSt A q (A.ru u) true = some b ∧
      (∀ j, j < q.d → a.1 j ≤ b.1 j ∧ b.1 j ≤ s.1 j) ∧ 0 ≤ a.2 ∧ a.2 ≤ b.2 ∧ b.2 ≤ s.2 := by
  have c0 : (0 : ℚ) ≤ t := by exact_mod_cast h0
  have c1 : (t : ℚ) ≤ u := by exact_mod_cast h1
  have c2 : (u : ℚ) ≤ m := by exact_mod_cast h2
  obtain ⟨b, hb, b1, b2⟩ := maxErrorSt_up hA hM hfl hq (md := A.ru u) ⟨hA.nonneg (c0.trans c1), hM.ru c2⟩ h.run
  obtain ⟨a, ha, a1, a2⟩ := maxErrorSt_up hA hM hfl hq (md := A.ru t) ⟨hA.nonneg c0, hM.ru c1⟩ hb
  exact ⟨a, b, ha, hb, fun j hj => ⟨(a1 j hj).2, (b1 j hj).2⟩, a2.1, a2.2, b2.2⟩

theorem StartL.distOK (hA : ArithOK A ρ) (hM : ArithMono A) (hfl : Rnd fl) (hq : DatOK q fl mu r) {m : ℤ}
    {s : (ℕ → ℚ) × ℚ} {L : ℚ} (h : StartL A ρ q m L s) (hm : 0 ≤ m) (hup : Monotone up) (hru : ∀ t, A.rn t ≤ A.ru t) :
    DistOK A q up (distVal A q) m (up (A.ru (A.ru m + s.2))) where
  val t h0 h1 := by
    obtain ⟨a, -, ha, -⟩ := h.below hA hM hfl hq h0 le_rfl h1
    rw [distR, distVal, ha]
    dsimp only
    split_ifs
    · right; simp
    · left; rfl
  mono t u h0 h1 h2 := by
    obtain ⟨a, b, ha, hb, -, -, hab, -⟩ := h.below hA hM hfl hq h0 h1 h2
    rw [distVal, distVal, ha, hb]
    refine hM.rn ?_
    have := hM.ru (show (t : ℚ) ≤ u by exact_mod_cast h1)
    simp only [Option.map_some, Option.getD_some]
    linarith
  hup := hup
  top := by
    rw [distVal, h.run]
    exact hup (hru _)

/-- nothing aborts if the first bound is at most `r(0, 0)` -/
theorem StartL.distR_some (hA : ArithOK A ρ) (hM : ArithMono A) (hfl : Rnd fl) (hq : DatOK q fl mu r) {m : ℤ}
    {s : (ℕ → ℚ) × ℚ} {L : ℚ} (h : StartL A ρ q m L s) (hr : s.2 ≤ q.r 0) {t : ℤ} (h0 : 0 ≤ t) (h1 : t ≤ m) :
    distR A q t = some (distVal A q t) := by
  obtain ⟨a, b, ha, hb, -, -, hab, hbs⟩ := h.below hA hM hfl hq h0 le_rfl h1
  rw [distR, distVal, ha]
  dsimp only
  rw [if_pos (by linarith)]
  simp

end SVP
end Fplll

import Verif.Proofs.Fresh
import Verif.Props.RowOps

/-!
# C07: cached Gram–Schmidt coefficients are never stale

Exact arithmetic (`Exact`): every operation on floats returns the mathematical value, so any
difference between a returned coefficient and the Gram–Schmidt coefficient of the current basis could
only come from a cache that was not invalidated.
-/

namespace Fplll

open Spec GSO

/-- calls allowed between `row_op_begin` and `row_op_end` -/
inductive ModOp
  | add (i j : ℕ)
  | sub (i j : ℕ)
  | addmulSi (i j : ℕ) (x : ℤ)
  | addmul2exp (i j : ℕ) (x : ℤ) (e : ℕ)
  | addmulWe (i j : ℕ) (x : Exact)
  | swap (i j : ℕ)

/-- the same call as an `Op` -/
def ModOp.toOp : ModOp → Op Exact
  | add i j => .add i j
  | sub i j => .sub i j
  | addmulSi i j x => .addmulSi i j x
  | addmul2exp i j x e => .addmul2exp i j x e
  | addmulWe i j x => .addmulWe i j x
  | swap i j => .swap i j

/-- the rows a call modifies all lie in `[lo, hi)` -/
def ModOp.inside (lo hi : ℕ) : ModOp → Prop
  | add i _ => lo ≤ i ∧ i < hi
  | sub i _ => lo ≤ i ∧ i < hi
  | addmulSi i _ _ => lo ≤ i ∧ i < hi
  | addmul2exp i _ _ _ => lo ≤ i ∧ i < hi
  | addmulWe i _ _ => lo ≤ i ∧ i < hi
  | swap i j => (lo ≤ i ∧ i < hi) ∧ (lo ≤ j ∧ j < hi)

/-- `Session s0 s w`: from `s0` a disciplined sequence of calls leads to `s`; `w = none` when no row
operation is open, `w = some (lo, hi)` between `row_op_begin(lo, hi)` and the matching `row_op_end`
(the discipline that gso_interface.h:204-213 checks in debug builds). -/
inductive Session (s0 : GSO Exact) : GSO Exact → Option (ℕ × ℕ) → Prop
  | start : Session s0 s0 none
  | discover {s} : Session s0 s none → s.nKnownRows < s.d → Session s0 s.discoverRow none
  | move {s o n} : Session s0 s none → Op.ok s (.move o n) → Session s0 (s.moveRow o n) none
  | lock {s} : Session s0 s none → s.intGram = false → Session s0 s.lockCols none
  | unlock {s} : Session s0 s none → Session s0 s.unlockCols none
  | update {s i l} : Session s0 s none → i < s.d → i ≤ s.nKnownRows → l ≤ i + 1 →
      (l ≤ s.nSourceRows ∨ (s.colsLocked = false ∧ i = s.nKnownRows)) → Ready s i l →
      Session s0 (s.updateGsoRow i l).2 none
  | opBegin {s lo hi} : Session s0 s none → lo ≤ hi → hi ≤ s.nKnownRows → Session s0 s (some (lo, hi))
  | modify {s lo hi} (op : ModOp) : Session s0 s (some (lo, hi)) → op.inside lo hi →
      op.toOp.ok s → Session s0 (op.toOp.run s) (some (lo, hi))
  | opEnd {s lo hi} : Session s0 s (some (lo, hi)) → Session s0 (s.rowOpEnd lo hi) none

/-- what a session guarantees -/
def SessionInv (s : GSO Exact) : Option (ℕ × ℕ) → Prop
  | none => WF s ∧ Fresh s 0 0
  | some (lo, hi) => WF s ∧ Fresh s lo hi ∧ lo ≤ hi ∧ hi ≤ s.nKnownRows

theorem ModOp.run_known (s : GSO Exact) (op : ModOp) : (op.toOp.run s).nKnownRows = s.nKnownRows := by
  cases op with
  | addmulWe i j x => simp only [toOp, Op.run, rowAddmulWe]; split_ifs <;> rfl
  | _ => rfl

theorem ModOp.fresh {s : GSO Exact} (hs : WF s) {lo hi : ℕ} (hf : Fresh s lo hi) (op : ModOp)
    (hin : op.inside lo hi) (hok : op.toOp.ok s) : Fresh (op.toOp.run s) lo hi := by
  cases op with
  | add i j => exact rowAdd_fresh hf hin
  | sub i j => exact rowSub_fresh hf hin
  | addmulSi i j x => exact rowAddmulSi_fresh hf x hin
  | addmul2exp i j x e => exact rowAddmul2exp_fresh hf x e hin
  | addmulWe i j x => exact rowAddmulWe_fresh hf hin x
  | swap i j =>
    exact rowSwap_fresh hs hf hin.1 hin.2 (hok.1.trans hok.2.1) hok.2.1

theorem Session.inv {s0 s : GSO Exact} {w : Option (ℕ × ℕ)} (h : Session s0 s w) (h0 : WF s0)
    (hf0 : Fresh s0 0 0) : SessionInv s w := by
  induction h with
  | start => exact ⟨h0, hf0⟩
  | discover _ hk ih => exact ⟨(discoverRow_good ih.1 hk).wf, discoverRow_fresh ih.1 hk ih.2⟩
  | move _ hok ih =>
    exact ⟨(moveRow_good ih.1 hok.1 hok.2.1 hok.2.2).wf, moveRow_fresh ih.1 ih.2 hok.2.1 hok.2.2⟩
  | lock _ hG ih => exact ⟨(lockCols_good ih.1 hG).wf, lockCols_fresh ih.2⟩
  | unlock _ ih => exact ⟨(unlockCols_good ih.1).wf, unlockCols_fresh ih.1 ih.2⟩
  | update _ h1 h2 h3 h4 h5 ih =>
    exact ⟨(updateGsoRow_good ih.1 h1 _).wf, (updateGsoRow_fresh ih.1 ih.2 h1 h2 h3 h4 h5).1⟩
  | opBegin _ h1 h2 ih => exact ⟨ih.1, ih.2.begin _ _, h1, h2⟩
  | modify op _ hin hok ih =>
    refine ⟨(Op.run_good ih.1 _ hok).wf, op.fresh ih.1 ih.2.1 hin hok, ih.2.2.1, ?_⟩
    rw [op.run_known]; exact ih.2.2.2
  | opEnd _ ih =>
    exact ⟨((rowOpEnd_fo _ _ _).good ih.1).wf, (rowOpEnd_fresh ih.1 ih.2.1 ih.2.2.1 ih.2.2.2).1⟩

/-- the current basis, rows over ℚ -/
def basisQ (b : Mat ℤ) : ℕ → ℕ → ℚ := fun i c => (b i c : ℚ)

theorem GSO.Fresh.read {s : GSO Exact} (hf : Fresh s 0 0) {i j : ℕ} (hi : i < s.nKnownRows)
    (hj : j < s.gsoValidCols i) :
    s.r i j = some (rS s.nCols s.bq i j) ∧ (j < i → s.mu i j = some (muS s.nCols s.bq i j)) :=
  ⟨(hf.valid i hi (by simp) j hj (by omega)).1, fun h => ((hf.valid i hi (by simp) j hj (by omega)).2 h).1⟩

/-- **C07 (one row).**  After any disciplined session on a fresh object, with any flags, let
`update_gso_row(i, l - 1)` be called on row `i`, the rows it depends on being up to date.
If it returns true, the coefficients `r(i, j)` and `mu(i, j)` for `j < l` are exactly those of the
Gram–Schmidt orthogonalisation of the current basis.  If it returns false, some earlier
Gram–Schmidt vector of the current basis vanishes. -/
theorem C07_update_gso_row {d n : ℕ} (hn : 1 ≤ n) (ig wu wi fl : Bool) (b u v jz : Mat ℤ)
    (jf : Mat Exact) (s : GSO Exact) (h : Session (mk0 d n ig wu wi fl b u v jz jf) s none)
    (i l : ℕ) (hi : i < s.d) (hik : i ≤ s.nKnownRows) (hl : l ≤ i + 1)
    (hls : l ≤ s.nSourceRows ∨ (s.colsLocked = false ∧ i = s.nKnownRows)) (hr : Ready s i l) :
    ((s.updateGsoRow i l).2.b = s.b) ∧
    ((s.updateGsoRow i l).1 = true → ∀ j < l,
      (s.updateGsoRow i l).2.r i j = some (rS s.nCols (basisQ s.b) i j) ∧
      (j < i → (s.updateGsoRow i l).2.mu i j = some (muS s.nCols (basisQ s.b) i j))) ∧
    ((s.updateGsoRow i l).1 = false → ∃ k < l, k < i ∧ normStar s.nCols (basisQ s.b) k = 0) := by
  have hwf := (mk0_wf d n ig wu wi fl b u v jz jf hn).1
  obtain ⟨hs, hf⟩ := h.inv hwf (mk0_fresh d n ig wu wi fl b u v jz jf hn)
  obtain ⟨a1, a2, a3, a4, a5⟩ := updateGsoRow_fresh hs hf hi hik hl hls hr
  have g := updateGsoRow_good hs hi l
  have hb : (s.updateGsoRow i l).2.b = s.b := updateGsoRow_b s i l
  refine ⟨hb, ?_, ?_⟩
  · intro hok j hj
    have hk := updateGsoRow_known s i l
    have := a1.read (i := i) (j := j) (by rw [hk]; split_ifs <;> omega) (by have := a2 hok; omega)
    rw [g.cfg.nCols, a5] at this
    exact this
  · intro hfail
    obtain ⟨k, k1, k2, k3⟩ := a3 hfail
    refine ⟨k, k1, k2, ?_⟩
    rw [rS_self] at k3
    exact k3

theorem updateGsoFrom_fresh (n i : ℕ) (s : GSO Exact) (hs : WF s) (hf : Fresh s 0 0)
    (hu : s.colsLocked = false) (hd : i + n = s.d) (hi : i ≤ s.nKnownRows)
    (hv : ∀ k < i, k + 1 ≤ s.gsoValidCols k) :
    let t := updateGsoFrom n i s
    WF t.2 ∧ Fresh t.2 0 0 ∧ t.2.b = s.b ∧ t.2.nCols = s.nCols ∧ t.2.d = s.d ∧
    (t.1 = true → t.2.nKnownRows = s.d ∧ ∀ k < s.d, k + 1 ≤ t.2.gsoValidCols k) ∧
    (t.1 = false → ∃ k, k + 1 < s.d ∧ rS s.nCols s.bq k k = 0) ∧
    t.2.colsLocked = false := by
  induction n generalizing i s with
  | zero =>
    have := hs.known_le
    refine ⟨hs, hf, rfl, rfl, rfl, fun _ => ⟨?_, fun k hk => hv k (by omega)⟩, fun h => (by cases h), hu⟩
    change s.nKnownRows = s.d
    omega
  | succ n ih =>
    have hk := updateGsoRow_known s i (i + 1)
    have hl := updateGsoRow_locked s i (i + 1)
    have g := updateGsoRow_good hs (show i < s.d by omega) (i + 1)
    have hsrc := hs.unlocked hu
    obtain ⟨a1, a2, a3, a4, a5⟩ := updateGsoRow_fresh hs hf (i := i) (l := i + 1) (by omega) hi le_rfl
      (by rcases Nat.lt_or_ge i s.nKnownRows with h | h
          · left; omega
          · right; exact ⟨hu, by omega⟩)
      (fun j h1 h2 => hv j h2)
    have hb : (s.updateGsoRow i (i + 1)).2.b = s.b := updateGsoRow_b s i (i + 1)
    simp only [updateGsoFrom]
    by_cases hok : (s.updateGsoRow i (i + 1)).1 = true
    · rw [if_pos hok]
      have hd' : (s.updateGsoRow i (i + 1)).2.d = s.d := g.cfg.d
      have := ih (i + 1) (s.updateGsoRow i (i + 1)).2 g.wf a1 (by rw [hl]; exact hu) (by rw [hd']; omega)
        (by rw [hk]; split_ifs <;> omega)
        (by
          intro k hk'
          by_cases h : k = i
          · rw [h]; exact a2 hok
          · rw [a4 k h (by omega)]; exact hv k (by omega))
      rw [a5, hd', g.cfg.nCols, hb] at this
      exact this
    · rw [if_neg hok]
      refine ⟨g.wf, a1, hb, g.cfg.nCols, g.cfg.d, fun h => (by cases h), fun _ => ?_, by dsimp only; rw [hl, hu]⟩
      obtain ⟨k, k1, k2, k3⟩ := a3 (by simpa using hok)
      exact ⟨k, by omega, k3⟩

/-- **C07 (all rows).**  After any disciplined session on a fresh object in which the columns are not
locked at the end, if `update_gso()` returns true then every `r(i, j)`, `j ≤ i < d`, and every
`mu(i, j)`, `j < i`, is exact for the current basis, and the squared norms
`r(i, i)` are those of the Gram–Schmidt vectors; it returns false only if the current
rows (the last one aside) have a vanishing Gram–Schmidt vector. -/
theorem C07_update_gso {d n : ℕ} (hn : 1 ≤ n) (ig wu wi fl : Bool) (b u v jz : Mat ℤ)
    (jf : Mat Exact) (s : GSO Exact) (h : Session (mk0 d n ig wu wi fl b u v jz jf) s none)
    (hu : s.colsLocked = false) :
    s.updateGso.2.b = s.b ∧
    (s.updateGso.1 = true → ∀ i < s.d, ∀ j ≤ i,
      s.updateGso.2.r i j = some (rS s.nCols (basisQ s.b) i j) ∧
      (j < i → s.updateGso.2.mu i j = some (muS s.nCols (basisQ s.b) i j)) ∧
      (j = i → s.updateGso.2.r i j = some (normStar s.nCols (basisQ s.b) i))) ∧
    (s.updateGso.1 = false → ∃ k, k + 1 < s.d ∧ normStar s.nCols (basisQ s.b) k = 0) := by
  have hwf := (mk0_wf d n ig wu wi fl b u v jz jf hn).1
  obtain ⟨hs, hf⟩ := h.inv hwf (mk0_fresh d n ig wu wi fl b u v jz jf hn)
  obtain ⟨b1, b2, b3, b4, b5, b6, b7, _⟩ :=
    updateGsoFrom_fresh s.d 0 s hs hf hu (by omega) (by omega) (by intro k hk; omega)
  refine ⟨b3, ?_, ?_⟩
  · intro hok i hi j hj
    obtain ⟨c1, c2⟩ := b6 hok
    have := b2.read (i := i) (j := j) (by rw [c1]; exact hi) (by have := c2 i hi; omega)
    rw [b4, bq_of_b b3] at this
    refine ⟨this.1, this.2, ?_⟩
    intro hji
    subst hji
    have h1 := this.1
    rw [rS_self] at h1
    exact h1
  · intro hfail
    obtain ⟨k, k1, k2⟩ := b7 hfail
    refine ⟨k, k1, ?_⟩
    rw [rS_self] at k2
    exact k2

/-- Non-vacuity: a session with two updates, a row operation, a move and a lock on a rank-3 basis. -/
example : ∃ s : GSO Exact, Session (mk0 3 3 false true false false
    (fun i j => if i = j then 2 else if j < i then 1 else 0) idMat idMat (fun _ _ => 7)
    (fun _ _ => none)) s none ∧ s.colsLocked = false := by
  obtain ⟨hwf, hb, hu, hv, hd, hc, hg, hwu, hwi, hk, hl⟩ :=
    mk0_wf 3 3 false true false false (fun i j => if i = j then 2 else if j < i then 1 else 0)
      idMat idMat (fun _ _ => 7) (fun _ _ => (none : Exact)) (by norm_num)
  refine ⟨_, Session.unlock (.lock (.opEnd (.modify (.sub 1 0) (.opBegin (lo := 1) (hi := 2)
    (.discover (.update (i := 0) (l := 1) .start ?_ ?_ ?_ ?_ ?_) ?_) ?_ ?_) ?_ ?_)) ?_), ?_⟩
  all_goals
    try simp [Op.ok, Op.run, ModOp.toOp, ModOp.inside, discoverRow, hk, hd, hl, hg, rowSub,
      (rowOpEnd_fo _ _ _).intGram, unlockCols, lockCols, (rowOpEnd_fo _ _ _).b, setAt, hb, vecSub_apply,
      updateGsoRow_known, updateGsoRow_b, updateGsoRow_locked,
      (updateGsoRow_good hwf (show 0 < _ by rw [hd]; norm_num) 1).cfg.d,
      (updateGsoRow_good hwf (show 0 < _ by rw [hd]; norm_num) 1).cfg.intGram]
  intro j _ h; omega

end Fplll

import Verif.Proofs.GSO

/-!
# C01, C06, C09: histories of row operations on a `MatGSO` object

A *history* is any finite sequence of calls to the mutating methods, each made
under the precondition documented in the source (`FPLLL_DEBUG_CHECK`s).  All
statements hold for every floating-point type `F`, whatever its arithmetic.
-/

namespace Fplll

open Spec GSO

variable {F : Type} [FloatOps F]

/-- One call of a public method of `MatGSO`. -/
inductive Op (F : Type)
  | add (i j : ℕ)
  | sub (i j : ℕ)
  | addmulSi (i j : ℕ) (x : ℤ)
  | addmul2exp (i j : ℕ) (x : ℤ) (e : ℕ)
  | addmulWe (i j : ℕ) (x : F)
  | swap (i j : ℕ)
  | move (o n : ℕ)
  | discover
  | opEnd (a e : ℕ)
  | update (i l : ℕ)
  | setR (i j : ℕ) (f : F)
  | lock
  | unlock

/-- Preconditions of the calls: gso.cpp:239 (row operations), gso.cpp:266 (swap), gso.cpp:291-294
(move), gso.cpp:58-61 (discover, lock). -/
def Op.ok (s : GSO F) : Op F → Prop
  | add i j => i < s.nKnownRows ∧ j < s.nSourceRows ∧ i ≠ j
  | sub i j => i < s.nKnownRows ∧ j < s.nSourceRows ∧ i ≠ j
  | addmulSi i j _ => i < s.nKnownRows ∧ j < s.nSourceRows ∧ i ≠ j
  | addmul2exp i j _ _ => i < s.nKnownRows ∧ j < s.nSourceRows ∧ i ≠ j
  | addmulWe i j _ => i < s.nKnownRows ∧ j < s.nSourceRows ∧ i ≠ j
  | swap i j => i < j ∧ j < s.nSourceRows ∧ s.withUinv = false
  | move o n => s.colsLocked = false ∧ (n < o → o < s.nKnownRows) ∧ (o < n → n < s.d)
  | discover => s.nKnownRows < s.d
  | opEnd _ _ => True
  | update i _ => i < s.d
  | setR _ _ _ => True
  | lock => s.intGram = false
  | unlock => True

/-- The effect of a call. -/
def Op.run (s : GSO F) : Op F → GSO F
  | add i j => s.rowAdd i j
  | sub i j => s.rowSub i j
  | addmulSi i j x => s.rowAddmulSi i j x
  | addmul2exp i j x e => s.rowAddmul2exp i j x e
  | addmulWe i j x => s.rowAddmulWe i j x
  | swap i j => s.rowSwap i j
  | move o n => s.moveRow o n
  | discover => s.discoverRow
  | opEnd a e => s.rowOpEnd a e
  | update i l => (s.updateGsoRow i l).2
  | setR i j f => s.setR i j f
  | lock => s.lockCols
  | unlock => s.unlockCols

/-- `History s ops s'`: the calls `ops`, each legal when made, lead from `s` to `s'`. -/
inductive History : GSO F → List (Op F) → GSO F → Prop
  | nil (s) : History s [] s
  | cons {s op ops s'} : Op.ok s op → History (op.run s) ops s' → History s (op :: ops) s'

theorem Op.run_good {s : GSO F} (hs : WF s) (op : Op F) (h : op.ok s) : Good s (op.run s) := by
  cases op with
  | add i j => exact rowAdd_good hs h.1 h.2.1 h.2.2
  | sub i j => exact rowSub_good hs h.1 h.2.1 h.2.2
  | addmulSi i j x => exact rowAddmulSi_good hs h.1 h.2.1 h.2.2 x
  | addmul2exp i j x e => exact rowAddmul2exp_good hs h.1 h.2.1 h.2.2 x e
  | addmulWe i j x => exact rowAddmulWe_good hs h.1 h.2.1 h.2.2 x
  | swap i j => exact rowSwap_good hs h.1 h.2.1 h.2.2
  | move o n => exact moveRow_good hs h.1 h.2.1 h.2.2
  | discover => exact discoverRow_good hs h
  | opEnd a e => exact (rowOpEnd_fo s a e).good hs
  | update i l => exact updateGsoRow_good hs h l
  | setR i j f => exact (setR_fo s i j f).good hs
  | lock => exact lockCols_good hs h
  | unlock => exact unlockCols_good hs

theorem History.good {s s' : GSO F} {ops : List (Op F)} (h : History s ops s') (hs : WF s) :
    Good s s' := by
  induction h with
  | nil s => exact .refl hs
  | cons hop _ ih =>
    have g := Op.run_good hs _ hop
    exact g.trans (ih g.wf)

/-- the identity matrix, as created by `gen_identity` -/
def idMat : Mat ℤ := fun i j => if i = j then 1 else 0

theorem toM_idMat (d : ℕ) : toM d d idMat = 1 := by
  ext i j; simp [toM, idMat, Matrix.one_apply, Fin.ext_iff]

/-- **C01.** Take any `d × n` integer basis `b`, with `n ≥ 1`, build a GSO object for it with any
flags, `u` and `u_inv_t` being identities, and perform any legal history of calls.  Then
the rows still generate the same lattice; when the transform is tracked the current basis is exactly
`u` times the original basis and `u` is unimodular; when the inverse transform is also
tracked, it is the inverse transpose of `u`. -/
theorem C01_row_operations {d n : ℕ} (hn : 1 ≤ n) (ig wu wi fl : Bool) (b jz : Mat ℤ) (jf : Mat F)
    (ops : List (Op F)) (s : GSO F)
    (h : History (mk0 d n ig wu wi fl b idMat idMat jz jf) ops s) :
    lattice (toM d n s.b) = lattice (toM d n b) ∧
    (wu = true → toM d n s.b = toM d d s.u * toM d n b ∧ Unimodular (toM d d s.u)) ∧
    (wu = true → wi = true → toM d d s.u * (toM d d s.uInvT).transpose = 1) := by
  obtain ⟨hwf, hb, hu, hv, hd, hc, hg, hwu, hwi, hk, hl⟩ :=
    mk0_wf d n ig wu wi fl b idMat idMat jz jf hn
  have g := h.good hwf
  obtain ⟨T, T', a1, a2, a3, a4, a5⟩ := g.uni
  generalize mk0 d n ig wu wi fl b idMat idMat jz jf = s0 at *
  subst hd hc hwu hwi
  rw [hb] at a3
  rw [hu, toM_idMat, Matrix.mul_one] at a4
  rw [hv, toM_idMat, Matrix.mul_one] at a5
  refine ⟨?_, ?_, ?_⟩
  · rw [a3]; exact lattice_mul ⟨T', a1, a2⟩ _
  · intro h1; rw [a4 h1]; exact ⟨a3, ⟨T', a1, a2⟩⟩
  · intro h1 h2; rw [a4 h1, a5 h1 h2, Matrix.transpose_transpose, a1]

/-- **C06.** After any legal history on a fresh object, `get_int_gram(i, j)` returns the exact
inner product of the current rows `i` and `j`, for all discovered rows `j ≤ i`; with integer Gram
matrices also `sym_g(i, j)` does for all discovered rows. -/
theorem C06_int_gram {d n : ℕ} (hn : 1 ≤ n) (ig wu wi fl : Bool) (b u v jz : Mat ℤ) (jf : Mat F)
    (ops : List (Op F)) (s : GSO F)
    (h : History (mk0 d n ig wu wi fl b u v jz jf) ops s) (i j : ℕ) :
    (j ≤ i → i < s.nKnownRows → j < s.nSourceRows →
      s.getIntGram i j = ∑ c ∈ Finset.range n, s.b i c * s.b j c) ∧
    (ig = true → i < s.nKnownRows → j < s.nKnownRows →
      symGet s.g i j = ∑ c ∈ Finset.range n, s.b i c * s.b j c) := by
  obtain ⟨hwf, hb, hu, hv, hd, hc, hg, hwu, hwi, hk, hl⟩ := mk0_wf d n ig wu wi fl b u v jz jf hn
  have g := h.good hwf
  have hcols : s.nCols = n := g.cfg.nCols.trans hc
  have hig : s.intGram = ig := g.cfg.intGram.trans hg
  have hip : s.ip i j = ∑ c ∈ Finset.range n, s.b i c * s.b j c := by unfold GSO.ip; rw [hcols]
  rw [← hip]
  constructor
  · intro hji hi hj
    unfold getIntGram
    split_ifs with h
    · rw [← symGet_of_le s.g hji]; exact g.wf.gram h i hi j (by omega)
    · refine dotZ_ip g.wf.cols_le ?_
      intro c hc h1
      right; exact g.wf.zeroSrc j hj c hc h1
  · intro hG hi hj
    exact g.wf.gram (hig.trans hG) i hi j hj

/-! ### C09: negating a row -/

/-- the state reached by constructing a GSO for `[[1]]` and discovering its row -/
def negDemo : GSO F :=
  (mk0 1 1 true true false false (fun _ _ => 1) idMat idMat (fun _ _ => 0)
    (fun _ _ => FloatOps.nan) : GSO F).discoverRow

theorem negateRow_b (s : GSO F) (i k c : ℕ) :
    (s.negateRowOfB i).b k c = if k = i ∧ c < s.nCols then -(s.b k c) else s.b k c := by
  have := forUp_inv (P := fun m (w : ℕ → ℤ) => ∀ c, w c = if c < m then -(s.b i c) else s.b i c)
    (fun j row => setAt row j (-(row j))) (Nat.zero_le s.nCols) (s.b i) (by intro c; simp)
    (by intro m w _ _ hw c; unfold setAt; rw [hw, hw]; grind)
  unfold negateRowOfB
  dsimp only
  rw [setAt_mat]
  split_ifs with h1 h2 h2
  · rw [this]; grind
  · rw [this]; grind
  · exact absurd h2.1 h1
  · rfl

/-- **C09 fails.**  After a legal history followed by `negate_row_of_b`, the basis is no longer the
transform times the original basis: for the basis `[[1]]` the row becomes `-1` while `u` stays `1`. -/
theorem C09_violated : ∃ (d n : ℕ) (b jz : Mat ℤ) (jf : Mat F) (ops : List (Op F)) (s : GSO F) (i : ℕ),
    1 ≤ n ∧ History (mk0 d n true true false false b idMat idMat jz jf) ops s ∧ i < s.d ∧
    toM d n (s.negateRowOfB i).b ≠ toM d d (s.negateRowOfB i).u * toM d n b := by
  obtain ⟨hwf, hb, hu, hv, hd, hc, hg, hwu, hwi, hk, hl⟩ :=
    mk0_wf 1 1 true true false false (fun _ _ => 1) idMat idMat (fun _ _ => 0)
      (fun _ _ => (FloatOps.nan : F)) le_rfl
  refine ⟨1, 1, fun _ _ => 1, fun _ _ => 0, fun _ _ => FloatOps.nan, [.discover], _, 0, le_rfl,
    .cons (by simp [Op.ok, hk, hd]) (.nil _), by simp [Op.run, discoverRow, hd], ?_⟩
  intro h
  have h0 := congrFun (congrFun h 0) 0
  rw [Matrix.mul_apply] at h0
  simp only [toM, negateRow_b] at h0
  simp [Op.run, discoverRow, hb, hc, negateRowOfB, hu, idMat] at h0

/-- **C09 (partial).**  What does hold: negating a row of a well-formed object leaves the lattice
unchanged, and keeps the integer Gram matrix exact.  Missing: the transform does not follow
(`C09_violated`). -/
theorem C09_negate_lattice_partial {d n : ℕ} (hn : 1 ≤ n) (ig wu wi fl : Bool) (b u v jz : Mat ℤ)
    (jf : Mat F) (ops : List (Op F)) (s : GSO F)
    (h : History (mk0 d n ig wu wi fl b u v jz jf) ops s) (i : ℕ) (hi : i < s.nKnownRows) :
    lattice (toM d n (s.negateRowOfB i).b) = lattice (toM d n b) ∧
    (ig = true → ∀ p < s.nKnownRows, ∀ q < s.nKnownRows, symGet (s.negateRowOfB i).g p q =
      ∑ c ∈ Finset.range n, (s.negateRowOfB i).b p c * (s.negateRowOfB i).b q c) := by
  obtain ⟨hwf, hb, hu, hv, hd, hc, hg, hwu, hwi, hk, hl⟩ := mk0_wf d n ig wu wi fl b u v jz jf hn
  have g := h.good hwf
  have hcols : s.nCols = n := g.cfg.nCols.trans hc
  have hds : s.d = d := g.cfg.d.trans hd
  have hig : s.intGram = ig := g.cfg.intGram.trans hg
  constructor
  · have h1 : lattice (toM d n s.b) = lattice (toM d n b) := by
      obtain ⟨T, T', a1, a2, a3, _, _⟩ := g.uni
      generalize mk0 d n ig wu wi fl b u v jz jf = s0 at *
      subst hd hc
      rw [a3, hb]; exact lattice_mul ⟨T', a1, a2⟩ _
    rw [← h1]
    have hid : i < d := by have := g.wf.known_le; omega
    let D : Matrix (Fin d) (Fin d) ℤ := Matrix.diagonal (fun k => if (k : ℕ) = i then -1 else 1)
    have hD : D * D = 1 := by
      simp only [D, Matrix.diagonal_mul_diagonal]
      rw [← Matrix.diagonal_one]
      congr 1; funext k; split_ifs <;> simp
    have : toM d n (s.negateRowOfB i).b = D * toM d n s.b := by
      ext k c
      simp only [D, Matrix.diagonal_mul, toM, negateRow_b, hcols, c.2, and_true]
      split_ifs <;> simp
    rw [this]; exact lattice_mul ⟨D, hD, hD⟩ _
  · intro hG p hp q hq
    have hG' := hig.trans hG
    have hknown := g.wf.known_le
    have key : ∀ p < s.nKnownRows, ∀ q ≤ p, symGet (s.negateRowOfB i).g p q =
        (if p = i then -1 else 1) * (if q = i then -1 else 1) * symGet s.g p q := by
      intro p hp q hqp
      rw [symGet_of_le _ hqp, symGet_of_le _ hqp]
      have := forUp_inv (P := fun m (w : Mat ℤ) => ∀ a b, b ≤ a → w a b =
          if (a = i ∧ b < i ∧ b < m) ∨ (b = i ∧ i < a ∧ a < m) then -(s.g a b) else s.g a b)
        (fun j (g : Mat ℤ) => if j < i then Mat.set g i j (-(g i j))
          else if i < j then Mat.set g j i (-(g j i)) else g) (Nat.zero_le s.d) s.g
        (by intro a b _; simp)
        (by
          intro m w _ hm hw a b hab
          have e1 := hw i m
          have e2 := hw m i
          have e3 := hw a b hab
          rcases lt_trichotomy m i with h | h | h
          · rw [if_pos h, Mat.set_apply]; grind
          · subst h; simp only [lt_irrefl, if_false]; grind
          · rw [if_neg (by omega), if_pos h, Mat.set_apply]; grind)
      have e : (s.negateRowOfB i).g = forUp 0 s.d (fun j (g : Mat ℤ) =>
          if j < i then Mat.set g i j (-(g i j))
          else if i < j then Mat.set g j i (-(g j i)) else g) s.g := by
        unfold negateRowOfB; dsimp only; rw [if_pos hG']
      rw [e, this p q hqp]
      have : p < s.d := by omega
      grind
    have hb' : ∀ k c, c < n → (s.negateRowOfB i).b k c = (if k = i then -1 else 1) * s.b k c := by
      intro k c hc
      rw [negateRow_b, hcols]; split_ifs <;> grind
    have gram := g.wf.gram hG' p hp q hq
    have hsum : ∑ c ∈ Finset.range n, (s.negateRowOfB i).b p c * (s.negateRowOfB i).b q c =
        (if p = i then -1 else 1) * (if q = i then -1 else 1) * s.ip p q := by
      unfold GSO.ip
      rw [Finset.mul_sum, hcols]
      refine Finset.sum_congr rfl ?_
      intro c hc
      rw [Finset.mem_range] at hc
      rw [hb' p c hc, hb' q c hc]; ring
    rw [hsum, ← gram]
    by_cases hpq : q ≤ p
    · exact key p hp q hpq
    · rw [symGet_comm, key q hq p (by omega), symGet_comm]; ring

/-! ### the hypotheses are satisfiable -/

/-- A non-trivial history on a 3 × 3 basis: discover three rows, subtract, move to front and swap. -/
example : ∃ s : GSO Exact, History (mk0 3 3 true true false false
    (fun i j => if i = j then 2 else if j < i then 1 else 0) idMat idMat (fun _ _ => 7)
    (fun _ _ => none)) [.discover, .discover, .discover, .sub 1 0, .addmulSi 2 1 (-3), .opEnd 1 3,
      .move 2 0, .swap 0 1, .add 0 2, .move 0 2, .update 2 3] s := by
  obtain ⟨hwf, hb, hu, hv, hd, hc, hg, hwu, hwi, hk, hl⟩ :=
    mk0_wf 3 3 true true false false (fun i j => if i = j then 2 else if j < i then 1 else 0)
      idMat idMat (fun _ _ => 7) (fun _ _ => (none : Exact)) (by norm_num)
  refine ⟨_, .cons ?_ (.cons ?_ (.cons ?_ (.cons ?_ (.cons ?_ (.cons ?_ (.cons ?_ (.cons ?_
    (.cons ?_ (.cons ?_ (.cons ?_ (.nil _)))))))))))⟩ <;>
    simp [Op.ok, Op.run, discoverRow, hk, hd, hl, hwi, rowSub, rowAddmulSi, (rowOpEnd_fo _ _ _).d,
      (rowOpEnd_fo _ _ _).nKnownRows, (rowOpEnd_fo _ _ _).nSourceRows,
      (rowOpEnd_fo _ _ _).colsLocked, (rowOpEnd_fo _ _ _).withUinv, moveRow, moveRowUp, moveRowDown,
      moveRowForget, rowSwap, rowAdd]

end Fplll

import Verif.Proofs.LLLGram
import Verif.Props.LLLExact

/-!
# C08: the Gram-only mode and the basis mode

`MatGSOGram` is given `g = b · bᵀ` and is meant to do to `g`, `u` and `u_inv_t` whatever `MatGSO` would do
to `b`, `u` and `u_inv_t`.  This holds for every history of calls that never moves a row beyond the known
rows; `move_row` (gso_gram.cpp:333-341) then rotates `u` further than `g`.  `LLLReduction` does this exactly
when it meets a zero vector.
-/

namespace Fplll

open FloatOps Spec GSO

open LLL (mkCfg)

variable {F : Type} [FloatOps F]

/-- Preconditions of the calls on a `MatGSOGram`: gso_gram.cpp:28-31 (discover), 230 (row operations),
256 (swap), 285-288 (move), gso_gram.h:236 (`get_gram`, called by `update_gso_row`).  The last condition of
`move` is not checked by the code. -/
def Op.okG (s : GSO F) : Op F → Prop
  | .add i j => i < s.nKnownRows ∧ j < s.nSourceRows ∧ i ≠ j
  | .sub i j => i < s.nKnownRows ∧ j < s.nSourceRows ∧ i ≠ j
  | .addmulSi i j _ => i < s.nKnownRows ∧ j < s.nSourceRows ∧ i ≠ j
  | .addmul2exp i j _ _ => i < s.nKnownRows ∧ j < s.nSourceRows ∧ i ≠ j
  | .addmulWe i j _ => i < s.nKnownRows ∧ j < s.nSourceRows ∧ i ≠ j
  | .swap i j => i < j ∧ j < s.nSourceRows ∧ s.withUinv = false
  | .move o n => (n < o → o < s.nKnownRows) ∧ (o < n → n < s.nKnownRows)
  | .discover => s.nKnownRows < s.d
  | .opEnd _ _ => True
  | .update i l => i < s.d ∧ i ≤ s.nKnownRows ∧ l ≤ i + 1
  | .setR _ _ _ => True
  | .lock => False
  | .unlock => True

/-- The effect of a call on a `MatGSOGram`. -/
def Op.runG (s : GSO F) : Op F → GSO F
  | .add i j => Gram.rowAdd s i j
  | .sub i j => Gram.rowSub s i j
  | .addmulSi i j x => Gram.rowAddmulSi s i j x
  | .addmul2exp i j x e => Gram.rowAddmul2exp s i j x e
  | .addmulWe i j x => Gram.rowAddmulWe s i j x
  | .swap i j => Gram.rowSwap s i j
  | .move o n => Gram.moveRow s o n
  | .discover => Gram.discoverRow s
  | .opEnd a e => s.rowOpEnd a e
  | .update i l => (Gram.updateGsoRow s i l).2
  | .setR i j f => s.setR i j f
  | .lock => s.lockCols
  | .unlock => s.unlockCols

/-- `HistoryG t ops t'`: the calls `ops` on a `MatGSOGram`, each legal when made, lead from `t` to `t'`. -/
inductive HistoryG : GSO F → List (Op F) → GSO F → Prop
  | nil (s) : HistoryG s [] s
  | cons {s op ops s'} : Op.okG s op → HistoryG (op.runG s) ops s' → HistoryG s (op :: ops) s'

theorem Op.sim {s t : GSO F} (h : Sim s t) (op : Op F) (hok : op.okG t) : op.ok s ∧ Sim (op.run s) (op.runG t) := by
  have hl := h.wf.lockGram h.ig
  cases op with
  | add i j =>
    unfold Op.okG at hok; rw [h.nKnownRows, h.nSourceRows] at hok
    exact ⟨hok, h.rowAdd hok.1 hok.2.1 hok.2.2⟩
  | sub i j =>
    unfold Op.okG at hok; rw [h.nKnownRows, h.nSourceRows] at hok
    exact ⟨hok, h.rowSub hok.1 hok.2.1 hok.2.2⟩
  | addmulSi i j x =>
    unfold Op.okG at hok; rw [h.nKnownRows, h.nSourceRows] at hok
    exact ⟨hok, h.rowAddmulSi hok.1 hok.2.1 hok.2.2 x⟩
  | addmul2exp i j x e =>
    unfold Op.okG at hok; rw [h.nKnownRows, h.nSourceRows] at hok
    exact ⟨hok, h.rowAddmul2exp hok.1 hok.2.1 hok.2.2 x e⟩
  | addmulWe i j x =>
    unfold Op.okG at hok; rw [h.nKnownRows, h.nSourceRows] at hok
    exact ⟨hok, h.rowAddmulWe hok.1 hok.2.1 hok.2.2 x⟩
  | swap i j =>
    unfold Op.okG at hok; rw [h.nSourceRows, h.withUinv] at hok
    exact ⟨hok, h.rowSwap hok.1 hok.2.1 hok.2.2⟩
  | move o n =>
    unfold Op.okG at hok; rw [h.nKnownRows] at hok
    exact ⟨⟨hl, hok.1, fun a => lt_of_lt_of_le (hok.2 a) h.wf.known_le⟩, h.moveRow h.unlocked hok.1 hok.2⟩
  | discover =>
    unfold Op.okG at hok; rw [h.nKnownRows, h.d] at hok
    exact ⟨hok, h.discoverRow hok⟩
  | opEnd a e => exact ⟨trivial, h.rowOpEnd a e⟩
  | update i l =>
    unfold Op.okG at hok; rw [h.nKnownRows, h.d] at hok
    exact ⟨hok.1, (h.updateGsoRow hok.1 hok.2.1 hok.2.2).2⟩
  | setR i j f => exact ⟨trivial, h.setR i j f⟩
  | lock => exact hok.elim
  | unlock =>
    exact ⟨trivial, (unlockCols_good h.wf).wf, h.ig, h.ig', h.d, h.withU, h.withUinv, h.forceLong, rfl,
      h.nSourceRows, h.nSourceRows, h.u, h.uInvT, h.mu, h.r, h.valid, h.gram⟩

theorem HistoryG.sim {t t' : GSO F} {ops : List (Op F)} (h : HistoryG t ops t') {s : GSO F} (hs : Sim s t) :
    ∃ s', History s ops s' ∧ Sim s' t' := by
  induction h generalizing s with
  | nil t => exact ⟨s, .nil s, hs⟩
  | cons hop _ ih =>
    obtain ⟨h1, h2⟩ := Op.sim hs _ hop
    obtain ⟨s', h3, h4⟩ := ih h2
    exact ⟨s', .cons h1 h3, h4⟩

/-- `g`, as far as the code reads it (its lower triangle), is the Gram matrix of the `d` rows of `b` -/
def IsGram (d n : ℕ) (b g : Mat ℤ) : Prop :=
  ∀ i < d, ∀ j ≤ i, g i j = ∑ c ∈ Finset.range n, b i c * b j c

theorem mk0_fields (d n : ℕ) (wu wi : Bool) (b u v jz : Mat ℤ) (jf : Mat F) :
    (mk0 d n true wu wi false b u v jz jf).mu = jf ∧ (mk0 d n true wu wi false b u v jz jf).r = jf ∧
    (mk0 d n true wu wi false b u v jz jf).forceLong = false ∧
    (mk0 d n true wu wi false b u v jz jf).nSourceRows = 0 ∧
    (mk0 d n true wu wi false b u v jz jf).gsoValidCols = (fun _ => 0) := by
  unfold mk0 sizeIncreased
  dsimp only
  refine forUp_inv' (P := fun (s : GSO F) => s.mu = jf ∧ s.r = jf ∧ s.forceLong = false ∧ s.nSourceRows = 0 ∧
    s.gsoValidCols = (fun _ => 0)) _ _ _ _ ⟨rfl, rfl, rfl, rfl, rfl⟩ ?_
  intro i s _ _ h
  split_ifs
  · exact h
  · exact h

theorem Sim.init {d n : ℕ} (hn : 1 ≤ n) (wu wi : Bool) (b g u v jz jz' : Mat ℤ) (jf : Mat F) (jn : ℕ)
    (hg : IsGram d n b g) :
    Sim (mk0 d n true wu wi false b u v jz jf) (Gram.mkG d wu wi g u v jz' jf jn) := by
  obtain ⟨hwf, hb, hu, hv, hd, hc, hig, hwu, hwi, hk, hl⟩ := mk0_wf d n true wu wi false b u v jz jf hn
  obtain ⟨f1, f2, f3, f4, f5⟩ := mk0_fields d n wu wi b u v jz jf
  refine ⟨hwf, hig, rfl, hd.symm, hwu.symm, hwi.symm, f3.symm, hl.symm, hk.symm, f4.symm, hu.symm, hv.symm,
    f1.symm, f2.symm, f5.symm, ?_⟩
  intro i hi j hj
  rw [hd] at hi hj
  have e : ∀ i j, (mk0 d n true wu wi false b u v jz jf).ip i j = ∑ c ∈ Finset.range n, b i c * b j c := by
    intro i j; unfold GSO.ip; rw [hb, hc]
  rw [e]
  change symGet g i j = _
  unfold symGet
  split_ifs with h
  · exact hg i hi j h
  · rw [hg j hj i (by omega)]
    exact Finset.sum_congr rfl (fun c _ => mul_comm _ _)

/-- **C08 (partial: no row is moved beyond the known rows).**  Let `g` be the Gram matrix of `b`.  Any legal
history of calls on `MatGSOGram(g)` that moves rows only among the known ones is legal on `MatGSO(b)` with
integer Gram matrices, and afterwards the two objects have the same `u`, `u_inv_t`, `mu`, `r` and the
same valid columns, and `g` is the Gram matrix of the basis of the `MatGSO` object, for all its rows.  This is for
every floating-point type; both objects start with the same uninitialised `mu` and `r`.  The general statement is
false, see `C08_move_violated`. -/
theorem C08_gram_history_partial {d n : ℕ} (hn : 1 ≤ n) (wu wi : Bool) (b g u v jz jz' : Mat ℤ) (jf : Mat F) (jn : ℕ)
    (hg : IsGram d n b g) (ops : List (Op F)) (t : GSO F) (h : HistoryG (Gram.mkG d wu wi g u v jz' jf jn) ops t) :
    ∃ s, History (mk0 d n true wu wi false b u v jz jf) ops s ∧
      t.u = s.u ∧ t.uInvT = s.uInvT ∧ t.mu = s.mu ∧ t.r = s.r ∧ t.gsoValidCols = s.gsoValidCols ∧
      IsGram d n s.b t.g := by
  obtain ⟨s, h1, h2⟩ := h.sim (Sim.init hn wu wi b g u v jz jz' jf jn hg)
  obtain ⟨hwf, hb, hu, hv, hd, hc, hig, hwu, hwi, hk, hl⟩ := mk0_wf d n true wu wi false b u v jz jf hn
  have hgood := h1.good hwf
  refine ⟨s, h1, h2.u, h2.uInvT, h2.mu, h2.r, h2.valid, ?_⟩
  intro i hi j hj
  have hsd : s.d = d := hgood.cfg.d.trans hd
  rw [← symGet_of_le t.g hj, h2.gram i (by omega) j (by omega)]
  unfold GSO.ip
  rw [hgood.cfg.nCols.trans hc]

/-- In matrix form: with `u` starting as the identity, after any such history `g = u · g₀ · uᵀ`. -/
theorem C08_gram_transform_partial {d n : ℕ} (hn : 1 ≤ n) (wi : Bool) (b g jz' : Mat ℤ) (jf : Mat F) (jn : ℕ)
    (hg : IsGram d n b g) (ops : List (Op F)) (t : GSO F)
    (h : HistoryG (Gram.mkG d true wi g idMat idMat jz' jf jn) ops t) :
    Unimodular (toM d d t.u) ∧
    ∀ i j : Fin d, symGet t.g i j = ((toM d d t.u * toM d n b) * (toM d d t.u * toM d n b).transpose) i j := by
  obtain ⟨s, h1, h2, -, -, -, -, h3⟩ := C08_gram_history_partial hn true wi b g idMat idMat jz' jz' jf jn hg ops t h
  have h4 := (C01_row_operations hn true true wi false b jz' jf ops s h1).2.1 rfl
  rw [h2]
  refine ⟨h4.2, ?_⟩
  intro i j
  rw [← h4.1]
  have key : ∀ i < d, ∀ j < d, symGet t.g i j = ∑ c ∈ Finset.range n, s.b i c * s.b j c := by
    intro i hi j hj
    unfold symGet
    split_ifs with h
    · exact h3 i hi j h
    · rw [h3 j hj i (by omega)]
      exact Finset.sum_congr rfl (fun c _ => mul_comm _ _)
  rw [key i i.2 j j.2, Matrix.mul_apply, Finset.sum_range]
  rfl

/-- the basis (1, 0), (0, 2) -/
def moveBasis : Mat ℤ := fun i j => if i = 0 ∧ j = 0 then 1 else if i = 1 ∧ j = 1 then 2 else 0

/-- the Gram matrix of `moveBasis` -/
def moveGram : Mat ℤ := fun i j => if i = 0 ∧ j = 0 then 1 else if i = 1 ∧ j = 1 then 4 else 0

omit [FloatOps F] in
/-- **C08 fails when a row is moved beyond the known rows**: for the basis (1, 0), (0, 2), of which one row
has been discovered, `move_row(0, 1)` exchanges the rows of `u` but not those of `g`, so `g` is not the
Gram matrix of `u · b` any more.  `MatGSO::move_row` has no such defect (C01, C06). -/
theorem C08_move_violated (jz : Mat ℤ) (jf : Mat F) (jn : ℕ) :
    IsGram 2 2 moveBasis moveGram ∧
    (let t := Gram.moveRow (Gram.discoverRow (Gram.mkG 2 true true moveGram idMat idMat jz jf jn)) 0 1
     toM 2 2 t.u * toM 2 2 moveBasis = !![0, 2; 1, 0] ∧ t.g 0 0 = 1 ∧ t.g 1 1 = 4 ∧
     ¬ IsGram 2 2 (fun i c => ∑ k ∈ Finset.range 2, t.u i k * moveBasis k c) t.g) := by
  refine ⟨?_, ?_, rfl, rfl, ?_⟩
  · intro i hi j hj
    have : i = 0 ∨ i = 1 := by omega
    rcases this with rfl | rfl
    · obtain rfl : j = 0 := by omega
      rfl
    · have : j = 0 ∨ j = 1 := by omega
      rcases this with rfl | rfl <;> rfl
  · ext i j; fin_cases i <;> fin_cases j <;> rfl
  · intro h
    have := h 0 (by norm_num) 0 le_rfl
    revert this
    change ¬ ((1 : ℤ) = 4)
    norm_num

/-- Non-vacuity of `C08_gram_history_partial`: a legal history with row operations, a move and an
update. -/
example (wu wi : Bool) (u v jz : Mat ℤ) (jf : Mat F) (jn : ℕ) :
    ∃ t, HistoryG (Gram.mkG 2 wu wi moveGram u v jz jf jn)
      [.discover, .discover, .addmulSi 1 0 5, .opEnd 1 2, .move 1 0, .update 1 2] t :=
  ⟨_, .cons (by change 0 < 2; norm_num) <| .cons (by change 1 < 2; norm_num) <|
    .cons ⟨by change 1 < 2; norm_num, by change 0 < 2; norm_num, by norm_num⟩ <| .cons trivial <|
    .cons ⟨fun _ => by change 1 < 2; norm_num, fun h => absurd h (by norm_num)⟩ <|
    .cons ⟨by change 1 < 2; norm_num, by change 1 ≤ 2; norm_num, le_rfl⟩ <| .nil _⟩

/-! ### LLL on a Gram matrix -/

/-- **C08 for LLL (partial: no zero vector is met).**  Run `lll()` on a `MatGSO` with integer Gram matrix for `b`
and on a `MatGSOGram` for the Gram matrix of `b`, with the same parameters and with any floating-point arithmetic.
If the first run meets no zero vector, then the second one ends with the same status, the same `u` and the same
`u_inv_t`, and `g` is the Gram matrix of the basis computed by the first; upon success both triangles of
`g` are. -/
theorem C08_lll_partial {d n : ℕ} (hn : 1 ≤ n) (hd : 1 ≤ d) (wu wi : Bool) (b g u v jz jz' : Mat ℤ) (jf : Mat F)
    (jn : ℕ) (hg : IsGram d n b g) (c : LLLCfg F) (fuel maxIter last : ℕ) :
    let q := LLL.lll c fuel maxIter last (mk0 d n true wu wi false b u v jz jf) 0 0 d 0
    let q' := Gram.lll c fuel maxIter last (Gram.mkG d wu wi g u v jz' jf jn) 0 0 d 0
    q.2.zeros = 0 →
      q'.1 = q.1 ∧ q'.2.s.u = q.2.s.u ∧ q'.2.s.uInvT = q.2.s.uInvT ∧ q'.2.nSwaps = q.2.nSwaps ∧ q'.2.zeros = 0 ∧
      IsGram d n q.2.s.b q'.2.s.g ∧
      (q.1 = .success → ∀ i < d, ∀ j < d, q'.2.s.g i j = ∑ c ∈ Finset.range n, q.2.s.b i c * q.2.s.b j c) := by
  intro q q' hz
  have h0 := Sim.init hn wu wi b g u v jz jz' jf jn hg
  obtain ⟨hwf, hb, hu, hv, hdd, hc, hig, hwu, hwi, hk, hl⟩ := mk0_wf d n true wu wi false b u v jz jf hn
  have hp : LLL.LLLPre (mk0 d n true wu wi false b u v jz jf) 0 0 d := ⟨hwf, hl, le_rfl, hd, hdd.ge, .inl rfl⟩
  have hgood := LLL.lll_good c fuel maxIter last 0 hp
  obtain ⟨a1, a2, a3⟩ := Gram.lll_sim c fuel maxIter last h0 0 hp hz
  have hsd : q.2.s.d = d := hgood.cfg.d.trans hdd
  have hip : ∀ i j, q.2.s.ip i j = ∑ c ∈ Finset.range n, q.2.s.b i c * q.2.s.b j c := by
    intro i j; unfold GSO.ip; rw [hgood.cfg.nCols.trans hc]
  refine ⟨a1, a2.s.u, a2.s.uInvT, a2.nSwaps, a2.zeros.trans hz, ?_, ?_⟩
  · intro i hi j hj
    rw [← symGet_of_le q'.2.s.g hj, ← hip]
    exact a2.s.gram i (by rw [hsd]; exact hi) j (by rw [hsd]; omega)
  · intro hok i hi j hj
    rw [← hip]
    exact a3 hok i (by rw [hdd]; exact hi) j (by rw [hdd]; exact hj)

/-- **LLL on the Gram matrix of linearly independent vectors, exact arithmetic** (C03 for the Gram mode).
Given `g = b · bᵀ` with `b` of full row rank, `η < √δ`: when `lll()` on the Gram object would succeed on the
basis, it succeeds, `u` is unimodular, `g = (u·b)·(u·b)ᵀ`, and `u·b` is `(δ, η)`-LLL-reduced. -/
theorem C08_lll_gram_reduced_partial {d n : ℕ} (hn : 1 ≤ n) (hd : 1 ≤ d) (wi : Bool) (b g jz jz' : Mat ℤ)
    (jf : Mat Exact) (jn : ℕ) (hg : IsGram d n b g)
    (hind : ∀ x : Fin d → ℤ, Matrix.vecMul x (toM d n b) = 0 → x = 0)
    (δ η : ℚ) (hη : 0 ≤ η) (hδ : η ^ 2 < δ) (early : Bool) (fuel maxIter last : ℕ)
    (hok : (LLL.lll (mkCfg (some δ : Exact) (some η) false early) fuel maxIter last
      (mk0 d n true true wi false b idMat idMat jz jf) 0 0 d 0).1 = .success) :
    let q' := Gram.lll (mkCfg (some δ : Exact) (some η) false early) fuel maxIter last
      (Gram.mkG d true wi g idMat idMat jz' jf jn) 0 0 d 0
    q'.1 = .success ∧ Unimodular (toM d d q'.2.s.u) ∧
    toM d d q'.2.s.g = (toM d d q'.2.s.u * toM d n b) * (toM d d q'.2.s.u * toM d n b).transpose ∧
    ∃ b' : Mat ℤ, toM d n b' = toM d d q'.2.s.u * toM d n b ∧ LLLReduced n d (basisQ b') δ η := by
  intro q'
  obtain ⟨hwf, hb, hu, hv, hdd, hc, hig, hwu, hwi, hk, hl⟩ := mk0_wf d n true true wi false b idMat idMat jz jf hn
  have A := C03_lll_reduced hn true true wi false b idMat idMat jz jf _ .start hl hd hdd.ge δ η hη hδ false early
    fuel maxIter last hok
  have B := (C02_lll_lattice hn true true wi false b jz jf [] _ (.nil _) hl 0 0 d 0 le_rfl hd hdd.ge (.inl rfl)
    (mkCfg (some δ : Exact) (some η) false early) fuel maxIter last).2.1 rfl
  have C := C08_lll_partial hn hd true wi b g idMat idMat jz jz' jf jn hg
    (mkCfg (some δ : Exact) (some η) false early) fuel maxIter last
  dsimp only at A B C
  rw [hc] at A
  generalize LLL.lll (mkCfg (some δ : Exact) (some η) false early) fuel maxIter last
    (mk0 d n true true wi false b idMat idMat jz jf) 0 0 d 0 = q at *
  have hz : q.2.zeros = 0 := by
    by_contra hne
    have hrow : Matrix.vecMul (toM d d q.2.s.u ⟨d - 1, by omega⟩) (toM d n b) = 0 := by
      have h1 : (toM d n q.2.s.b) ⟨d - 1, by omega⟩ = 0 := by
        funext k
        exact A.2.2.2.2 (d - 1) (by omega) (by omega) k k.2
      rw [B.1] at h1
      exact h1
    have h2 := hind _ hrow
    obtain ⟨V, hV, -⟩ := B.2
    have h3 := congrFun (congrFun hV ⟨d - 1, by omega⟩) ⟨d - 1, by omega⟩
    rw [Matrix.mul_apply] at h3
    rw [Finset.sum_eq_zero (fun k _ => by rw [h2]; simp)] at h3
    simp at h3
  obtain ⟨c1, c2, c3, c4, c5, c6, c7⟩ := C hz
  have e : q'.2.s.u = q.2.s.u := c2
  refine ⟨c1.trans hok, ?_, ?_, q.2.s.b, ?_, ?_⟩
  · rw [e]; exact B.2
  · rw [e, ← B.1]
    ext i j
    refine (c7 hok i i.2 j j.2).trans ?_
    rw [Matrix.mul_apply, Finset.sum_range]
    rfl
  · rw [e]; exact B.1
  · have := A.2.1
    have h2 := A.2.2.1 rfl
    rw [hz, Nat.sub_zero] at this h2
    exact ⟨this, h2⟩

/-- Non-vacuity of the LLL theorems: on the Gram matrix of (2, 0), (1, 1) `lll()` on the basis succeeds and
meets no zero vector, and these two rows are linearly independent. -/
example :
    (let q := LLL.lll (mkCfg (some (99 / 100) : Exact) (some (51 / 100)) false false) 2 20 0
      (mk0 2 2 true true false false exBasis idMat idMat (fun _ _ => 0) (fun _ _ => none)) 0 0 2 0
     q.1 = .success ∧ q.2.zeros = 0) ∧
    ∀ x : Fin 2 → ℤ, Matrix.vecMul x (toM 2 2 exBasis) = 0 → x = 0 := by
  refine ⟨by decide +kernel, fun x h => ?_⟩
  have h0 : x 0 * 2 + x 1 * 1 = 0 := by
    have := congrFun h 0
    simpa [Matrix.vecMul, dotProduct, Fin.sum_univ_two, toM, exBasis] using this
  have h1 : x 1 = 0 := by
    have := congrFun h 1
    simpa [Matrix.vecMul, dotProduct, Fin.sum_univ_two, toM, exBasis] using this
  funext i
  fin_cases i
  · simp only [Fin.zero_eta, Pi.zero_apply]; omega
  · exact h1

/-- the rows (1), (1), (1), and their Gram matrix -/
def onesMat : Mat ℤ := fun _ _ => 1

/-- **C08 fails for dependent vectors**: given the Gram matrix of (1), (1), (1), `lll()` with exact arithmetic
reports success with two zero vectors, but the transform it returns maps the vectors to (1), (1), (0), which is
neither size-reduced nor described by the returned `g`: `g` claims that the second vector is zero. -/
theorem C08_lll_dependent_violated :
    IsGram 3 1 onesMat onesMat ∧
    (let q := Gram.lll (mkCfg (some (99 / 100) : Exact) (some (51 / 100)) false false) 5 20 0
        (Gram.mkG 3 true false onesMat idMat idMat (fun _ _ => 0) (fun _ _ => none) 0) 0 0 3 0
     q.1 = .success ∧ q.2.zeros = 2 ∧
     toM 3 3 q.2.s.u * toM 3 1 onesMat = !![1; 1; 0] ∧ q.2.s.g 1 1 = 0) := by
  refine ⟨?_, ?_⟩
  · intro i _ j _
    simp [onesMat]
  · decide +kernel

/-- the rows (0, 0), (3, 0), (1, 1) -/
def zeroFirst : Mat ℤ := fun i j => if i = 1 then (if j = 0 then 3 else 0) else if i = 2 then 1 else 0

/-- the Gram matrix of `zeroFirst` -/
def zeroFirstG : Mat ℤ := fun i j => ∑ c ∈ Finset.range 2, zeroFirst i c * zeroFirst j c

/-- **A leading zero vector stops LLL on Gram matrices**: for the vectors (0,0), (3,0), (1,1) the loop of
lll.cpp:66-69 calls `move_row` before any row is known, so `g` stays as it is, its row 0 is found to be zero three times
over, and `lll()` reports success, with all three vectors declared zero, without reducing anything.  On the basis
itself `lll()` finds one zero vector and two reduced ones. -/
theorem C08_lll_leading_zero_violated :
    let c := mkCfg (some (99 / 100) : Exact) (some (51 / 100)) false false
    let q := Gram.lll c 5 20 0 (Gram.mkG 3 true false zeroFirstG idMat idMat (fun _ _ => 0) (fun _ _ => none) 0) 0 0 3 0
    let p := LLL.lll c 5 20 0 (mk0 3 2 true true false false zeroFirst idMat idMat (fun _ _ => 0) (fun _ _ => none)) 0 0 3 0
    IsGram 3 2 zeroFirst zeroFirstG ∧
    q.1 = .success ∧ q.2.zeros = 3 ∧ toM 3 3 q.2.s.g = toM 3 3 zeroFirstG ∧
    p.1 = .success ∧ p.2.zeros = 1 ∧ toM 3 2 p.2.s.b = !![1, 1; 1, -2; 0, 0] := by
  dsimp only
  refine ⟨fun i _ j _ => rfl, ?_⟩
  decide +kernel

/-! ### `sqnorm_coordinates` and `negate_row_of_b` -/

theorem sum_comm3 (d n : ℕ) (x : ℕ → ℤ) (b : Mat ℤ) :
    ∑ i ∈ Finset.range d, (∑ k ∈ Finset.range d, x k * ∑ c ∈ Finset.range n, b k c * b i c) * x i =
      ∑ c ∈ Finset.range n, (∑ i ∈ Finset.range d, x i * b i c) ^ 2 := by
  have e : ∀ c, (∑ i ∈ Finset.range d, x i * b i c) ^ 2 =
      ∑ i ∈ Finset.range d, ∑ k ∈ Finset.range d, x k * (b k c * b i c) * x i := by
    intro c
    rw [pow_two, Finset.sum_mul_sum, Finset.sum_comm]
    refine Finset.sum_congr rfl (fun i _ => Finset.sum_congr rfl (fun k _ => by ring))
  simp only [e]
  rw [Finset.sum_comm]
  refine Finset.sum_congr rfl (fun i _ => ?_)
  rw [Finset.sum_mul, Finset.sum_comm]
  refine Finset.sum_congr rfl (fun k _ => ?_)
  rw [Finset.mul_sum, Finset.sum_mul]

theorem forUp_sum (f : ℕ → ℤ) (n : ℕ) : forUp 0 n (fun i acc => acc + f i) 0 = ∑ i ∈ Finset.range n, f i := by
  induction n with
  | zero => rw [forUp_empty le_rfl]; rfl
  | succ n ih => rw [forUp_succ_right (Nat.zero_le n), ih, Finset.sum_range_succ]

omit [FloatOps F] in
theorem sqnormCoordinates_eq (t : GSO F) (n : ℕ) (b : Mat ℤ)
    (h : ∀ i < t.d, ∀ j < t.d, t.g i j = ∑ c ∈ Finset.range n, b i c * b j c) (x : ℕ → ℤ) :
    Gram.sqnormCoordinates t x = ∑ c ∈ Finset.range n, (∑ i ∈ Finset.range t.d, x i * b i c) ^ 2 := by
  unfold Gram.sqnormCoordinates Gram.vecMat
  rw [forUp_sum, ← sum_comm3]
  refine Finset.sum_congr rfl (fun i hi => ?_)
  rw [forUp_sum]
  congr 1
  refine Finset.sum_congr rfl (fun k hk => ?_)
  rw [h k (Finset.mem_range.1 hk) i (Finset.mem_range.1 hi)]

/-- **`sqnorm_coordinates` of the Gram mode** returns the squared length of `∑ x_i b_i`, where `b` is the
basis `MatGSO` would have, after any history of the kind above followed by `symmetrize_g()`.  (With integer Gram
matrices; without `symmetrize_g()` it does not, see `C08_sqnorm_violated`.) -/
theorem C08_sqnorm_partial {d n : ℕ} (hn : 1 ≤ n) (wu wi : Bool) (b g u v jz jz' : Mat ℤ) (jf : Mat F) (jn : ℕ)
    (hg : IsGram d n b g) (ops : List (Op F)) (t : GSO F) (h : HistoryG (Gram.mkG d wu wi g u v jz' jf jn) ops t) :
    ∃ s, History (mk0 d n true wu wi false b u v jz jf) ops s ∧ ∀ x : ℕ → ℤ,
      Gram.sqnormCoordinates t.symmetrizeG x = ∑ c ∈ Finset.range n, (∑ i ∈ Finset.range d, x i * s.b i c) ^ 2 := by
  obtain ⟨s, h1, h2⟩ := h.sim (Sim.init hn wu wi b g u v jz jz' jf jn hg)
  obtain ⟨hwf, hb, hu, hv, hd, hc, hig, hwu, hwi, hk, hl⟩ := mk0_wf d n true wu wi false b u v jz jf hn
  have hgood := h1.good hwf
  have hsd : s.d = d := hgood.cfg.d.trans hd
  have htd : t.d = d := h2.d.trans hsd
  refine ⟨s, h1, fun x => ?_⟩
  rw [sqnormCoordinates_eq t.symmetrizeG n s.b ?_ x]
  · rw [show t.symmetrizeG.d = d from htd]
  · intro i hi j hj
    rw [show t.symmetrizeG.d = d from htd] at hi hj
    rw [Gram.symmetrizeG_full t (by omega) (by omega), h2.gram i (by omega) j (by omega)]
    unfold GSO.ip
    rw [hgood.cfg.nCols.trans hc]

/-- the same after a successful `lll()` that met no zero vector -/
theorem C08_lll_sqnorm_partial {d n : ℕ} (hn : 1 ≤ n) (hd : 1 ≤ d) (wu wi : Bool) (b g u v jz jz' : Mat ℤ) (jf : Mat F)
    (jn : ℕ) (hg : IsGram d n b g) (c : LLLCfg F) (fuel maxIter last : ℕ) (x : ℕ → ℤ) :
    let q := LLL.lll c fuel maxIter last (mk0 d n true wu wi false b u v jz jf) 0 0 d 0
    let q' := Gram.lll c fuel maxIter last (Gram.mkG d wu wi g u v jz' jf jn) 0 0 d 0
    q.2.zeros = 0 → q.1 = .success →
      Gram.sqnormCoordinates q'.2.s x = ∑ c ∈ Finset.range n, (∑ i ∈ Finset.range d, x i * q.2.s.b i c) ^ 2 := by
  intro q q' hz hok
  obtain ⟨hwf, hb, hu, hv, hdd, hc, hig, hwu, hwi, hk, hl⟩ := mk0_wf d n true wu wi false b u v jz jf hn
  have hp : LLL.LLLPre (mk0 d n true wu wi false b u v jz jf) 0 0 d := ⟨hwf, hl, le_rfl, hd, hdd.ge, .inl rfl⟩
  have hqd : q'.2.s.d = d :=
    (Gram.lll_sim c fuel maxIter last (Sim.init hn wu wi b g u v jz jz' jf jn hg) 0 hp hz).2.1.s.d.trans
      ((LLL.lll_good c fuel maxIter last 0 hp).cfg.d.trans hdd)
  have := (C08_lll_partial hn hd wu wi b g u v jz jz' jf jn hg c fuel maxIter last hz).2.2.2.2.2.2 hok
  rw [sqnormCoordinates_eq q'.2.s n q.2.s.b ?_ x, hqd]
  intro i hi j hj
  rw [hqd] at hi hj
  exact this i hi j hj

omit [FloatOps F] in
/-- **Without `symmetrize_g()` it is wrong**: for the basis (1,0), (0,1), after `row_add(1, 0)` the basis is (1,0),
(1,1); the vector with coordinates (1, 1) is (2, 1) of squared length 5, and `sqnorm_coordinates` returns 4, as
the row operations update one triangle and it reads both. -/
theorem C08_sqnorm_violated (jz : Mat ℤ) (jf : Mat F) (jn : ℕ) :
    let t := Gram.rowAdd (Gram.discoverRow (Gram.discoverRow (Gram.mkG 2 true true idMat idMat idMat jz jf jn))) 1 0
    IsGram 2 2 idMat idMat ∧ toM 2 2 t.u * toM 2 2 idMat = !![1, 0; 1, 1] ∧
    Gram.sqnormCoordinates t (fun _ => 1) = 4 ∧
    ∑ c ∈ Finset.range 2, (∑ i ∈ Finset.range 2, 1 * t.u i c) ^ 2 = 5 := by
  refine ⟨?_, ?_, rfl, rfl⟩
  · intro i hi j hj
    have : i = 0 ∨ i = 1 := by omega
    rcases this with rfl | rfl
    · obtain rfl : j = 0 := by omega
      rfl
    · have : j = 0 ∨ j = 1 := by omega
      rcases this with rfl | rfl <;> rfl
  · ext i j; fin_cases i <;> fin_cases j <;> rfl

omit [FloatOps F] in
/-- **`negate_row_of_b` of the Gram mode** turns the Gram matrix of `b` into that of `b` with row `i` negated (but
`u` is not changed: the Gram mode shares the defect C09 of the basis mode). -/
theorem C08_negate_row (t : GSO F) (n : ℕ) (b : Mat ℤ) (h : IsGram t.d n b t.g) (i : ℕ) (hi : i < t.d) :
    IsGram t.d n (fun k c => if k = i then -(b k c) else b k c) (Gram.negateRowOfB t i).g ∧
    (Gram.negateRowOfB t i).u = t.u := by
  refine ⟨?_, rfl⟩
  have key := forUp_inv (P := fun m (w : Mat ℤ) => ∀ p q, symGet w p q =
      if (p = i ∧ q ≠ i ∧ q < m) ∨ (q = i ∧ p ≠ i ∧ p < m) then -(symGet t.g p q) else symGet t.g p q)
    (fun j (g : Mat ℤ) => if j ≠ i then symSet g i j (-(symGet g i j)) else g) (Nat.zero_le t.d) t.g
    (by intro p q; simp)
    (by
      intro m w _ hm hw p q
      by_cases hmi : m = i
      · rw [if_neg (by simpa using hmi), hw p q]; grind
      · have e := hw p q
        have e' := hw i m
        have e'' := symGet_comm t.g i m
        rw [if_pos hmi, symGet_symSet]
        grind)
  intro p hp q hq
  have e : symGet (Gram.negateRowOfB t i).g p q = _ := key p q
  rw [symGet_of_le _ hq, symGet_of_le _ hq, h p hp q hq] at e
  rw [e]
  have hqd : q < t.d := by omega
  by_cases h1 : p = i <;> by_cases h2 : q = i <;> simp [h1, h2, hi, hp, hqd]

end Fplll

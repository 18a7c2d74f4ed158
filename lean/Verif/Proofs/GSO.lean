import Verif.Model.GSO
import Verif.Proofs.Matrix
import Verif.Spec.Lattice

/-!
# Invariants of the GSO state machine: lattice, transformations, Gram matrix
-/

namespace Fplll

open FloatOps Spec

set_option linter.unusedSectionVars false

variable {F : Type} [FloatOps F]

namespace GSO

/-- exact inner product of two rows over all columns -/
def ip (s : GSO F) (i j : ℕ) : ℤ := ∑ c ∈ Finset.range s.nCols, s.b i c * s.b j c

theorem ip_comm (s : GSO F) (i j : ℕ) : s.ip i j = s.ip j i := by
  unfold ip; exact Finset.sum_congr rfl (fun c _ => mul_comm _ _)

/-- well-formedness of the bookkeeping fields -/
structure WF (s : GSO F) : Prop where
  src_le : s.nSourceRows ≤ s.nKnownRows
  known_le : s.nKnownRows ≤ s.d
  unlocked : s.colsLocked = false → s.nSourceRows = s.nKnownRows
  cols_pos : 1 ≤ s.nCols
  cols_le : s.nKnownCols ≤ s.nCols
  init_le : ∀ k < s.d, s.initRowSize k ≤ s.nCols
  zeroSrc : ∀ k < s.nSourceRows, ∀ c < s.nCols, s.nKnownCols ≤ c → s.b k c = 0
  zeroNew : ∀ k < s.d, s.nSourceRows ≤ k → ∀ c < s.nCols, s.nKnownCols ≤ c → s.initRowSize k ≤ c →
    s.b k c = 0
  lockGram : s.intGram = true → s.colsLocked = false
  gram : s.intGram = true → ∀ i < s.nKnownRows, ∀ j < s.nKnownRows, symGet s.g i j = s.ip i j

/-- the configuration is unchanged -/
structure SameCfg (s s' : GSO F) : Prop where
  d : s'.d = s.d
  nCols : s'.nCols = s.nCols
  intGram : s'.intGram = s.intGram
  withU : s'.withU = s.withU
  withUinv : s'.withUinv = s.withUinv
  forceLong : s'.forceLong = s.forceLong

theorem SameCfg.refl (s : GSO F) : SameCfg s s := ⟨rfl, rfl, rfl, rfl, rfl, rfl⟩

theorem SameCfg.trans {s t v : GSO F} (h1 : SameCfg s t) (h2 : SameCfg t v) : SameCfg s v :=
  ⟨h2.d.trans h1.d, h2.nCols.trans h1.nCols, h2.intGram.trans h1.intGram, h2.withU.trans h1.withU,
    h2.withUinv.trans h1.withUinv, h2.forceLong.trans h1.forceLong⟩

/-- `b`, `u` and `u_inv_t` are multiplied by a unimodular matrix and its inverse transpose. -/
def Uni (s s' : GSO F) : Prop :=
  ∃ T T' : Matrix (Fin s.d) (Fin s.d) ℤ, T * T' = 1 ∧ T' * T = 1 ∧
    toM s.d s.nCols s'.b = T * toM s.d s.nCols s.b ∧
    (s.withU = true → toM s.d s.d s'.u = T * toM s.d s.d s.u) ∧
    (s.withU = true → s.withUinv = true → toM s.d s.d s'.uInvT = T'.transpose * toM s.d s.d s.uInvT)

theorem Uni.of_eq {s s' : GSO F} (hb : s'.b = s.b) (hu : s'.u = s.u) (hv : s'.uInvT = s.uInvT) :
    Uni s s' :=
  ⟨1, 1, by simp, by simp, by simp [hb], fun _ => by simp [hu], fun _ _ => by simp [hv]⟩

theorem Uni.trans {s t v : GSO F} (hc : SameCfg s t) (h1 : Uni s t) (h2 : Uni t v) : Uni s v := by
  obtain ⟨d, nCols, intGram, withU, withUinv, forceLong, _, _, _, _, _, b, u, w, _, _, _, _, _, _⟩ := t
  obtain ⟨h_d, h_n, _, h_u, h_v, _⟩ := hc
  dsimp at h_d h_n h_u h_v
  subst h_d h_n h_u h_v
  obtain ⟨T1, T1', a1, a2, a3, a4, a5⟩ := h1
  obtain ⟨T2, T2', c1, c2, c3, c4, c5⟩ := h2
  dsimp at a3 a4 a5 c3 c4 c5 T2 T2' c1 c2
  refine ⟨T2 * T1, T1' * T2', ?_, ?_, ?_, ?_, ?_⟩
  · rw [Matrix.mul_assoc, ← Matrix.mul_assoc T1, a1, Matrix.one_mul, c1]
  · rw [Matrix.mul_assoc, ← Matrix.mul_assoc T2', c2, Matrix.one_mul, a2]
  · rw [c3, a3, Matrix.mul_assoc]
  · intro h; rw [c4 h, a4 h, Matrix.mul_assoc]
  · intro h h'; rw [c5 h h', a5 h h', Matrix.transpose_mul, Matrix.mul_assoc]

/-- everything an operation has to preserve -/
structure Good (s s' : GSO F) : Prop where
  wf : WF s'
  cfg : SameCfg s s'
  uni : Uni s s'

theorem Good.refl {s : GSO F} (h : WF s) : Good s s := ⟨h, .refl s, .of_eq rfl rfl rfl⟩

theorem Good.trans {s t v : GSO F} (h1 : Good s t) (h2 : Good t v) : Good s v :=
  ⟨h2.wf, h1.cfg.trans h2.cfg, h1.uni.trans h1.cfg h2.uni⟩

/-- an operation that touches only floating-point data -/
structure FloatOnly (s s' : GSO F) : Prop where
  d : s'.d = s.d
  nCols : s'.nCols = s.nCols
  intGram : s'.intGram = s.intGram
  withU : s'.withU = s.withU
  withUinv : s'.withUinv = s.withUinv
  forceLong : s'.forceLong = s.forceLong
  colsLocked : s'.colsLocked = s.colsLocked
  nKnownRows : s'.nKnownRows = s.nKnownRows
  nSourceRows : s'.nSourceRows = s.nSourceRows
  nKnownCols : s'.nKnownCols = s.nKnownCols
  initRowSize : s'.initRowSize = s.initRowSize
  b : s'.b = s.b
  u : s'.u = s.u
  uInvT : s'.uInvT = s.uInvT
  g : s'.g = s.g

theorem FloatOnly.refl (s : GSO F) : FloatOnly s s := by constructor <;> rfl

theorem FloatOnly.trans {s t v : GSO F} (h1 : FloatOnly s t) (h2 : FloatOnly t v) : FloatOnly s v := by
  constructor
  · exact h2.d.trans h1.d
  · exact h2.nCols.trans h1.nCols
  · exact h2.intGram.trans h1.intGram
  · exact h2.withU.trans h1.withU
  · exact h2.withUinv.trans h1.withUinv
  · exact h2.forceLong.trans h1.forceLong
  · exact h2.colsLocked.trans h1.colsLocked
  · exact h2.nKnownRows.trans h1.nKnownRows
  · exact h2.nSourceRows.trans h1.nSourceRows
  · exact h2.nKnownCols.trans h1.nKnownCols
  · exact h2.initRowSize.trans h1.initRowSize
  · exact h2.b.trans h1.b
  · exact h2.u.trans h1.u
  · exact h2.uInvT.trans h1.uInvT
  · exact h2.g.trans h1.g

theorem FloatOnly.ip {s s' : GSO F} (h : FloatOnly s s') (i j : ℕ) : s'.ip i j = s.ip i j := by
  unfold GSO.ip; rw [h.nCols, h.b]

theorem FloatOnly.good {s s' : GSO F} (h : FloatOnly s s') (hs : WF s) : Good s s' := by
  refine ⟨?_, ⟨h.d, h.nCols, h.intGram, h.withU, h.withUinv, h.forceLong⟩, .of_eq h.b h.u h.uInvT⟩
  constructor
  · rw [h.nSourceRows, h.nKnownRows]; exact hs.src_le
  · rw [h.nKnownRows, h.d]; exact hs.known_le
  · rw [h.nSourceRows, h.nKnownRows, h.colsLocked]; exact hs.unlocked
  · rw [h.nCols]; exact hs.cols_pos
  · rw [h.nCols, h.nKnownCols]; exact hs.cols_le
  · rw [h.nCols, h.d, h.initRowSize]; exact hs.init_le
  · rw [h.nSourceRows, h.nCols, h.nKnownCols, h.b]; exact hs.zeroSrc
  · rw [h.nSourceRows, h.nCols, h.nKnownCols, h.b, h.d, h.initRowSize]; exact hs.zeroNew
  · rw [h.intGram, h.colsLocked]; exact hs.lockGram
  · rw [h.intGram, h.nKnownRows, h.g]
    intro hg i hi j hj
    rw [h.ip]; exact hs.gram hg i hi j hj

theorem forUp_floatOnly (a b : ℕ) (f : ℕ → GSO F → GSO F) (s : GSO F)
    (hf : ∀ i s, FloatOnly s (f i s)) : FloatOnly s (forUp a b f s) :=
  forUp_inv' (fun t => FloatOnly s t) f a b s (.refl s) (fun i t _ _ h => h.trans (hf i t))

theorem updateBf_fo (s : GSO F) (i : ℕ) : FloatOnly s (s.updateBf i) := by constructor <;> rfl
theorem invalidateGramRow_fo (s : GSO F) (i : ℕ) : FloatOnly s (s.invalidateGramRow i) := by
  constructor <;> rfl
theorem invalidateGsoRow_fo (s : GSO F) (i n : ℕ) : FloatOnly s (s.invalidateGsoRow i n) := by
  constructor <;> rfl
theorem invalidateFrom_fo (s : GSO F) (i n : ℕ) : FloatOnly s (s.invalidateFrom i n) :=
  forUp_floatOnly _ _ _ _ (fun _ _ => invalidateGsoRow_fo _ _ _)
theorem setR_fo (s : GSO F) (i j : ℕ) (f : F) : FloatOnly s (s.setR i j f) := by
  constructor <;> rfl
theorem cacheGram_fo (s : GSO F) (i j : ℕ) : FloatOnly s (s.cacheGram i j) := by
  constructor <;> rfl
theorem rowOpEndFloat_fo (s : GSO F) (i : ℕ) : FloatOnly s (s.rowOpEndFloat i) := by
  refine ((updateBf_fo s i).trans (invalidateGramRow_fo _ i)).trans (forUp_floatOnly _ _ _ _ ?_)
  intro j t; constructor <;> rfl
theorem rowOpEndBody_fo (s : GSO F) (i : ℕ) : FloatOnly s (s.rowOpEndBody i) := by
  unfold rowOpEndBody
  refine FloatOnly.trans ?_ (invalidateGsoRow_fo _ _ _)
  split_ifs
  · exact .refl s
  · exact rowOpEndFloat_fo s i
theorem rowOpEnd_fo (s : GSO F) (a e : ℕ) : FloatOnly s (s.rowOpEnd a e) := by
  unfold rowOpEnd
  exact (forUp_floatOnly _ _ _ _ (fun _ _ => rowOpEndBody_fo _ _)).trans
    (forUp_floatOnly _ _ _ _ (fun _ _ => invalidateGsoRow_fo _ _ _))
theorem updateGsoLoop_fo (i n j : ℕ) (s : GSO F) : FloatOnly s (updateGsoLoop i n j s).2 := by
  induction n generalizing j s with
  | zero => constructor <;> rfl
  | succ n ih =>
    have h := cacheGram_fo s i j
    rw [updateGsoLoop]
    generalize s.cacheGram i j = t at h
    dsimp only
    have aux : ∀ (r mu : Mat F), FloatOnly t { t with r := r, mu := mu } := fun r mu => by
      constructor <;> rfl
    have aux1 : ∀ (r : Mat F), FloatOnly t { t with r := r } := fun r => by
      constructor <;> rfl
    split_ifs
    · exact (h.trans (aux _ _)).trans (ih _ _)
    · exact h.trans (aux _ _)
    · exact (h.trans (aux1 _)).trans (ih _ _)

/-- closed form of the loops over `k` in the row operations -/
theorem gramLoop (n i j : ℕ) (hij : i ≠ j) (h : ℤ → ℤ) (g : Mat ℤ) (a b : ℕ) :
    symGet (forUp 0 n (fun k (g : Mat ℤ) => if k = i then g
        else symSet g i k (symGet g i k + h (symGet g j k))) g) a b =
      if a = i ∧ b ≠ i ∧ b < n then symGet g i b + h (symGet g j b)
      else if b = i ∧ a ≠ i ∧ a < n then symGet g i a + h (symGet g j a)
      else symGet g a b := by
  have := forUp_inv (P := fun k w => ∀ a b, symGet w a b =
      if a = i ∧ b ≠ i ∧ b < k then symGet g i b + h (symGet g j b)
      else if b = i ∧ a ≠ i ∧ a < k then symGet g i a + h (symGet g j a)
      else symGet g a b)
    (fun k (g : Mat ℤ) => if k = i then g else symSet g i k (symGet g i k + h (symGet g j k)))
    (Nat.zero_le n) g (by intro a b; simp)
    (by
      intro k w _ hk hw a b
      by_cases hki : k = i
      · subst hki
        rw [if_pos rfl, hw]
        grind
      · rw [if_neg hki, symGet_symSet, hw i k, hw j k, hw a b]
        have e1 := symGet_comm g i k
        have e2 := symGet_comm g j k
        grind)
  exact this a b

theorem set_set (g : Mat ℤ) (i : ℕ) (x y : ℤ) : Mat.set (Mat.set g i i x) i i y = Mat.set g i i y := by
  funext a b; simp only [Mat.set_apply]; grind

theorem symGet_set_diag (g : Mat ℤ) (i : ℕ) (x : ℤ) (a b : ℕ) :
    symGet (Mat.set g i i x) a b = if a = i ∧ b = i then x else symGet g a b := by
  unfold symGet; simp only [Mat.set_apply]; grind

theorem diag_symGet (g : Mat ℤ) (i : ℕ) : g i i = symGet g i i := by simp [symGet]

/-- effect on the Gram matrix of adding `x` times row `j` to row `i` -/
theorem gramRow (n i j : ℕ) (hij : i ≠ j) (x y z : ℤ) (h : ℤ → ℤ) (g : Mat ℤ)
    (hh : ∀ v, h v = v * x) (hz : z = g i i + 2 * (symGet g i j * x) + g j j * x * x)
    (a b : ℕ) (ha : a < n) (hb : b < n) :
    symGet (forUp 0 n (fun k (g : Mat ℤ) => if k = i then g
        else symSet g i k (symGet g i k + h (symGet g j k))) (Mat.set g i i z)) a b =
      symGet g a b + (if a = i then x * symGet g j b else 0) + (if b = i then x * symGet g a j else 0)
        + (if a = i ∧ b = i then x * x * symGet g j j else 0) := by
  rw [gramLoop n i j hij h]
  simp only [symGet_set_diag, hh, hz, diag_symGet g i, diag_symGet g j]
  have e1 := symGet_comm g i j
  have e2 := symGet_comm g i a
  have e3 := symGet_comm g j a
  by_cases h1 : a = i <;> by_cases h2 : b = i
  · subst h1; subst h2; simp; rw [e3]; ring
  · subst h1; simp [h2, hb, hij.symm]; ring
  · subst h2; simp [h1, ha, hij.symm]; rw [e2, e3]; ring
  · simp [h1, h2]

theorem ip_add (n : ℕ) (b b' : Mat ℤ) (i j : ℕ) (x : ℤ)
    (hb : ∀ k c, c < n → b' k c = b k c + if k = i then x * b j c else 0) (p q : ℕ) :
    ∑ c ∈ Finset.range n, b' p c * b' q c =
      (∑ c ∈ Finset.range n, b p c * b q c)
      + (if p = i then x * ∑ c ∈ Finset.range n, b j c * b q c else 0)
      + (if q = i then x * ∑ c ∈ Finset.range n, b p c * b j c else 0)
      + (if p = i ∧ q = i then x * x * ∑ c ∈ Finset.range n, b j c * b j c else 0) := by
  have : ∀ c ∈ Finset.range n, b' p c * b' q c = b p c * b q c
      + (if p = i then x * (b j c * b q c) else 0) + (if q = i then x * (b p c * b j c) else 0)
      + (if p = i ∧ q = i then x * x * (b j c * b j c) else 0) := by
    intro c hc
    rw [Finset.mem_range] at hc
    rw [hb _ _ hc, hb _ _ hc]
    by_cases h1 : p = i <;> by_cases h2 : q = i <;> simp [h1, h2] <;> ring
  rw [Finset.sum_congr rfl this]
  by_cases h1 : p = i <;> by_cases h2 : q = i <;>
    simp [h1, h2, Finset.sum_add_distrib, Finset.mul_sum]

theorem transvection_toM (d n : ℕ) (b b' : Mat ℤ) (i j : Fin d) (x : ℤ)
    (hb : ∀ k c, c < n → b' k c = b k c + if k = i then x * b j c else 0) :
    toM d n b' = Matrix.transvection i j x * toM d n b := by
  ext k c
  by_cases hk : k = i
  · subst hk
    rw [Matrix.transvection_mul_apply_same]
    simp [toM, hb _ _ c.2]
  · rw [Matrix.transvection_mul_apply_of_ne _ _ _ _ hk]
    have : (k : ℕ) ≠ i := fun h => hk (Fin.ext h)
    simp [toM, hb _ _ c.2, this]

theorem transvection_transpose {d : ℕ} (i j : Fin d) (x : ℤ) :
    (Matrix.transvection i j x).transpose = Matrix.transvection j i x := by
  unfold Matrix.transvection
  rw [Matrix.transpose_add, Matrix.transpose_one, Matrix.transpose_single]

/-- Adding `x` times a source row to a known row. -/
theorem good_addRow {s : GSO F} (hs : WF s) {i j : ℕ} (hi : i < s.nKnownRows) (hj : j < s.nSourceRows)
    (hij : i ≠ j) (x : ℤ) {b' u' v' g' : Mat ℤ}
    (hb : ∀ k c, b' k c = if k = i ∧ c < s.nKnownCols then s.b i c + x * s.b j c else s.b k c)
    (hu : s.withU = true → ∀ k c, u' k c = if k = i ∧ c < s.d then s.u i c + x * s.u j c else s.u k c)
    (hv : s.withU = true → s.withUinv = true → ∀ k c,
      v' k c = if k = j ∧ c < s.d then s.uInvT j c - x * s.uInvT i c else s.uInvT k c)
    (hg : s.intGram = true → ∀ a < s.nKnownRows, ∀ b < s.nKnownRows, symGet g' a b =
      symGet s.g a b + (if a = i then x * symGet s.g j b else 0)
        + (if b = i then x * symGet s.g a j else 0)
        + (if a = i ∧ b = i then x * x * symGet s.g j j else 0)) :
    Good s { s with b := b', u := u', uInvT := v', g := g' } := by
  have hsd : s.nSourceRows ≤ s.d := hs.src_le.trans hs.known_le
  have hb' : ∀ k c, c < s.nCols → b' k c = s.b k c + if k = i then x * s.b j c else 0 := by
    intro k c hc
    rw [hb]
    by_cases h : c < s.nKnownCols
    · by_cases hk : k = i
      · subst hk; simp [h]
      · simp [hk]
    · have := hs.zeroSrc j hj c hc (by omega)
      simp [h, this]
  refine ⟨?_, ⟨rfl, rfl, rfl, rfl, rfl, rfl⟩, ?_⟩
  · constructor
    · exact hs.src_le
    · exact hs.known_le
    · exact hs.unlocked
    · exact hs.cols_pos
    · exact hs.cols_le
    · exact hs.init_le
    · intro k hk c hc h
      dsimp only at *
      rw [hb' k c hc, hs.zeroSrc k hk c hc h, hs.zeroSrc j hj c hc h]; simp
    · intro k hk1 hk2 c hc h1 h2
      dsimp only at *
      rw [hb' k c hc, hs.zeroNew k hk1 hk2 c hc h1 h2, hs.zeroSrc j hj c hc h1]; simp
    · exact hs.lockGram
    · intro hG p hp q hq
      dsimp only at *
      have hjk : j < s.nKnownRows := lt_of_lt_of_le hj hs.src_le
      rw [hg hG p hp q hq, hs.gram hG p hp q hq, hs.gram hG j hjk q hq, hs.gram hG p hp j hjk,
        hs.gram hG j hjk j hjk]
      unfold ip
      dsimp only
      rw [ip_add s.nCols s.b b' i j x hb' p q]
  · have hid : i < s.d := lt_of_lt_of_le hi hs.known_le
    have hjd : j < s.d := lt_of_lt_of_le hj hsd
    have hij' : (⟨i, hid⟩ : Fin s.d) ≠ ⟨j, hjd⟩ := by simpa using hij
    refine ⟨Matrix.transvection ⟨i, hid⟩ ⟨j, hjd⟩ x, Matrix.transvection ⟨i, hid⟩ ⟨j, hjd⟩ (-x),
      ?_, ?_, ?_, ?_, ?_⟩
    · rw [Matrix.transvection_mul_transvection_same _ _ hij']; simp
    · rw [Matrix.transvection_mul_transvection_same _ _ hij']; simp
    · exact transvection_toM s.d s.nCols s.b b' ⟨i, hid⟩ ⟨j, hjd⟩ x hb'
    · intro hU
      refine transvection_toM s.d s.d s.u u' ⟨i, hid⟩ ⟨j, hjd⟩ x ?_
      intro k c hc
      rw [hu hU]
      by_cases hk : k = i
      · subst hk; simp [hc]
      · simp [hk]
    · intro hU hV
      rw [transvection_transpose]
      refine transvection_toM s.d s.d s.uInvT v' ⟨j, hjd⟩ ⟨i, hid⟩ (-x) ?_
      intro k c hc
      rw [hv hU hV]
      by_cases hk : k = j
      · subst hk; simp [hc]; ring
      · simp [hk]

theorem setAt_mat (m : Mat ℤ) (i : ℕ) (v : ℕ → ℤ) (k c : ℕ) :
    setAt m i v k c = if k = i then v c else m k c := by
  unfold setAt; split_ifs <;> rfl

theorem rowAdd_good {s : GSO F} (hs : WF s) {i j : ℕ} (hi : i < s.nKnownRows) (hj : j < s.nSourceRows)
    (hij : i ≠ j) : Good s (s.rowAdd i j) := by
  refine good_addRow hs hi hj hij 1 ?_ ?_ ?_ ?_
  · intro k c; rw [setAt_mat, vecAdd_apply]; grind
  · intro hU k c; rw [if_pos hU, setAt_mat, vecAdd_apply]; grind
  · intro hU hV k c; rw [if_pos (by simp [hU, hV]), setAt_mat, vecSub_apply]; grind
  · intro hG a ha b hb
    rw [if_pos hG]
    rw [← gramRow s.nKnownRows i j hij 1 0 (s.g i i + (symGet s.g i j * 2 + s.g j j)) (fun v => v) s.g
      (by intro v; ring) (by ring) a b ha hb]
    unfold gramAddLoop
    congr 2
    funext k g
    by_cases h : k = i <;> simp [h]

theorem rowSub_good {s : GSO F} (hs : WF s) {i j : ℕ} (hi : i < s.nKnownRows) (hj : j < s.nSourceRows)
    (hij : i ≠ j) : Good s (s.rowSub i j) := by
  refine good_addRow hs hi hj hij (-1) ?_ ?_ ?_ ?_
  · intro k c; rw [setAt_mat, vecSub_apply]; grind
  · intro hU k c; rw [if_pos hU, setAt_mat, vecSub_apply]; grind
  · intro hU hV k c; rw [if_pos (by simp [hU, hV]), setAt_mat, vecAdd_apply]; grind
  · intro hG a ha b hb
    rw [if_pos hG]
    rw [← gramRow s.nKnownRows i j hij (-1) 0 (s.g i i + (s.g j j - symGet s.g i j * 2)) (fun v => -v)
      s.g (by intro v; ring) (by ring) a b ha hb]
    unfold gramSubLoop
    congr 2
    funext k g
    by_cases h : k = i <;> simp [h, sub_eq_add_neg]

theorem rowAddmulSi_good {s : GSO F} (hs : WF s) {i j : ℕ} (hi : i < s.nKnownRows)
    (hj : j < s.nSourceRows) (hij : i ≠ j) (x : ℤ) : Good s (s.rowAddmulSi i j x) := by
  refine good_addRow hs hi hj hij x ?_ ?_ ?_ ?_
  · intro k c; rw [setAt_mat, vecAddmulSi_apply]; grind
  · intro hU k c; rw [if_pos hU, setAt_mat, vecAddmulSi_apply]; grind
  · intro hU hV k c; rw [if_pos (by simp [hU, hV]), setAt_mat, vecAddmulSi_apply]; grind
  · intro hG a ha b hb
    rw [if_pos hG]
    rw [← gramRow s.nKnownRows i j hij x 0
      (s.g i i + symGet s.g i j * x * 2 + s.g j j * x * x) (fun v => v * x)
      s.g (by intro v; ring) (by ring) a b ha hb]
    unfold gramAddmulLoop
    simp only [set_set, Mat.set_apply, hij.symm, and_self, if_true, if_false]

theorem rowAddmul2exp_good {s : GSO F} (hs : WF s) {i j : ℕ} (hi : i < s.nKnownRows)
    (hj : j < s.nSourceRows) (hij : i ≠ j) (x : ℤ) (e : ℕ) : Good s (s.rowAddmul2exp i j x e) := by
  refine good_addRow hs hi hj hij (x * 2 ^ e) ?_ ?_ ?_ ?_
  · intro k c; rw [setAt_mat, vecAddmul2exp_apply]; grind
  · intro hU k c; rw [if_pos hU, setAt_mat, vecAddmul2exp_apply]; grind
  · intro hU hV k c; rw [if_pos (by simp [hU, hV]), setAt_mat, vecAddmul2exp_apply]; grind
  · intro hG a ha b hb
    rw [if_pos hG]
    rw [← gramRow s.nKnownRows i j hij (x * 2 ^ e) 0
      (s.g i i + symGet s.g i j * x * 2 ^ (e + 1) + s.g j j * x * x * 2 ^ (2 * e))
      (fun v => v * x * 2 ^ e)
      s.g (by intro v; ring) (by ring) a b ha hb]
    unfold gramAddmul2expLoop
    simp only [set_set, Mat.set_apply, hij.symm, and_self, if_true, if_false]

theorem rowAddmulWe_good {s : GSO F} (hs : WF s) {i j : ℕ} (hi : i < s.nKnownRows)
    (hj : j < s.nSourceRows) (hij : i ≠ j) (x : F) : Good s (s.rowAddmulWe i j x) := by
  unfold rowAddmulWe
  dsimp only
  split_ifs
  · exact rowAdd_good hs hi hj hij
  · exact rowSub_good hs hi hj hij
  · exact rowAddmulSi_good hs hi hj hij _
  · exact .refl hs
  · exact rowAddmul2exp_good hs hi hj hij _ _
  · exact rowAddmul2exp_good hs hi hj hij _ _

/-! ### permutations of rows -/

/-- permutation matrix -/
def permM (d : ℕ) (σ : ℕ → ℕ) : Matrix (Fin d) (Fin d) ℤ := fun i j => if σ i = j then 1 else 0

theorem permM_mul (d n : ℕ) (σ : ℕ → ℕ) (hσ : ∀ i < d, σ i < d) (b : Mat ℤ) :
    permM d σ * toM d n b = toM d n (fun k => b (σ k)) := by
  ext i c
  rw [Matrix.mul_apply, Finset.sum_eq_single (⟨σ i, hσ i i.2⟩ : Fin d)]
  · simp [permM, toM]
  · intro j _ hj
    have : σ i ≠ j := fun h => hj (Fin.ext h.symm)
    simp [permM, this]
  · intro h; exact absurd (Finset.mem_univ _) h

theorem permM_inv (d : ℕ) (σ τ : ℕ → ℕ) (hσ : ∀ i < d, σ i < d)
    (h : ∀ i < d, τ (σ i) = i) : permM d σ * permM d τ = 1 := by
  ext i c
  rw [Matrix.mul_apply, Finset.sum_eq_single (⟨σ i, hσ i i.2⟩ : Fin d)]
  · simp [permM, h i i.2, Matrix.one_apply, Fin.ext_iff]
  · intro j _ hj
    have : σ i ≠ j := fun h => hj (Fin.ext h.symm)
    simp [permM, this]
  · intro h; exact absurd (Finset.mem_univ _) h

theorem permM_transpose (d : ℕ) (σ τ : ℕ → ℕ) (h1 : ∀ i < d, τ (σ i) = i) (h2 : ∀ i < d, σ (τ i) = i) :
    (permM d τ).transpose = permM d σ := by
  ext i j
  simp only [Matrix.transpose_apply, permM]
  have : τ j = i ↔ σ i = j := by
    constructor
    · intro h; rw [← h, h2 j j.2]
    · intro h; rw [← h, h1 i i.2]
  simp [this]

theorem uni_perm {s s' : GSO F} (σ τ : ℕ → ℕ) (hσ : ∀ i < s.d, σ i < s.d) (hτ : ∀ i < s.d, τ i < s.d)
    (h1 : ∀ i < s.d, τ (σ i) = i) (h2 : ∀ i < s.d, σ (τ i) = i)
    (hb : s'.b = fun k => s.b (σ k)) (hu : s.withU = true → s'.u = fun k => s.u (σ k))
    (hv : s.withU = true → s.withUinv = true → s'.uInvT = fun k => s.uInvT (σ k)) : Uni s s' := by
  refine ⟨permM s.d σ, permM s.d τ, permM_inv _ _ _ hσ h1, permM_inv _ _ _ hτ h2, ?_, ?_, ?_⟩
  · rw [permM_mul _ _ _ hσ, hb]
  · intro h; rw [permM_mul _ _ _ hσ, hu h]
  · intro h h'; rw [permM_transpose _ _ _ h1 h2, permM_mul _ _ _ hσ, hv h h']

theorem symGet_of_lower {g g' : Mat ℤ} {n : ℕ} {σ : ℕ → ℕ}
    (h : ∀ i j, i < n → j ≤ i → g' i j = symGet g (σ i) (σ j)) {i j : ℕ} (hi : i < n) (hj : j < n) :
    symGet g' i j = symGet g (σ i) (σ j) := by
  by_cases hij : j ≤ i
  · rw [symGet_of_le _ hij, h i j hi hij]
  · rw [symGet_comm, symGet_of_le _ (by omega), h j i hj (by omega), symGet_comm]

theorem moveRowUp_good {s : GSO F} (hs : WF s) (hsrc : s.nSourceRows = s.nKnownRows) {o n : ℕ} (hno : n < o)
    (ho : o < s.nKnownRows) : Good s (s.moveRowUp o n) := by
  have hd := hs.known_le
  have hle : n ≤ o := hno.le
  have hb : (s.moveRowUp o n).b = fun k => s.b (rotR n o k) := rotateRight_eq _ hle
  refine ⟨?_, ⟨rfl, rfl, rfl, rfl, rfl, rfl⟩, uni_perm (rotR n o) (rotL n o) ?_ ?_ ?_ ?_ hb ?_ ?_⟩
  · constructor
    · exact hs.src_le
    · exact hs.known_le
    · exact hs.unlocked
    · exact hs.cols_pos
    · exact hs.cols_le
    · exact hs.init_le
    · intro k hk c hc h
      rw [hb]
      refine hs.zeroSrc _ ?_ c hc h
      change k < s.nSourceRows at hk
      rw [hsrc] at hk ⊢
      exact (rotR_lt ho hle).2 hk
    · intro k hk1 hk2 c hc h1 h2
      rw [hb]
      have : rotR n o k = k := by
        change s.nSourceRows ≤ k at hk2
        unfold rotR; grind
      dsimp only
      rw [this]
      exact hs.zeroNew k hk1 hk2 c hc h1 h2
    · exact hs.lockGram
    · intro hG p hp q hq
      change s.intGram = true at hG
      change p < s.nKnownRows at hp
      change q < s.nKnownRows at hq
      have hgg : (s.moveRowUp o n).g = Mat.rotateGramRight s.g n o s.nKnownRows := by
        unfold moveRowUp; dsimp only; rw [if_pos hG]
      rw [hgg, symGet_of_lower (g := s.g) (g' := Mat.rotateGramRight s.g n o s.nKnownRows)
        (σ := rotR n o) (fun i j hi hj => rotateGramRight_lower s.g hle ho hi hj) hp hq,
        hs.gram hG _ ((rotR_lt ho hle).2 hp) _ ((rotR_lt ho hle).2 hq)]
      unfold ip; rw [hb]; rfl
  · intro i hi; exact (rotR_lt (by omega) hle).2 hi
  · intro i hi; exact (rotL_lt (by omega) hle).2 hi
  · intro i hi; exact rotL_rotR hle i
  · intro i hi; exact rotR_rotL hle i
  · intro h
    unfold moveRowUp; dsimp only; rw [if_pos h, rotateRight_eq _ hle]
  · intro h h'
    unfold moveRowUp; dsimp only; rw [if_pos (by simp [h, h']), rotateRight_eq _ hle]

theorem moveRowDown_good {s : GSO F} (hs : WF s) (hsrc : s.nSourceRows = s.nKnownRows) {o n : ℕ} (hno : o < n)
    (hn : n < s.d) : Good s ((s.moveRowDown o n).moveRowForget o n) := by
  have hd := hs.known_le
  have hle : o ≤ n := hno.le
  have hb0 : (s.moveRowDown o n).b = fun k => s.b (rotL o n k) := rotateLeft_eq _ hle
  have hcfg : SameCfg s ((s.moveRowDown o n).moveRowForget o n) := by
    unfold moveRowForget; dsimp only; split_ifs <;> constructor <;> rfl
  have hb : ((s.moveRowDown o n).moveRowForget o n).b = fun k => s.b (rotL o n k) := by
    rw [← hb0]; unfold moveRowForget; dsimp only; split_ifs <;> rfl
  have hu : ((s.moveRowDown o n).moveRowForget o n).u = (s.moveRowDown o n).u := by
    unfold moveRowForget; dsimp only; split_ifs <;> rfl
  have hv : ((s.moveRowDown o n).moveRowForget o n).uInvT = (s.moveRowDown o n).uInvT := by
    unfold moveRowForget; dsimp only; split_ifs <;> rfl
  have hg : ((s.moveRowDown o n).moveRowForget o n).g = (s.moveRowDown o n).g := by
    unfold moveRowForget; dsimp only; split_ifs <;> rfl
  have hkc : ((s.moveRowDown o n).moveRowForget o n).nKnownCols = s.nKnownCols := by
    unfold moveRowForget; dsimp only; split_ifs <;> rfl
  have hlk : ((s.moveRowDown o n).moveRowForget o n).colsLocked = s.colsLocked := by
    unfold moveRowForget; dsimp only; split_ifs <;> rfl
  have hkr : ((s.moveRowDown o n).moveRowForget o n).nKnownRows =
      if s.nKnownRows ≤ n ∧ o < s.nKnownRows then s.nKnownRows - 1 else s.nKnownRows := by
    unfold moveRowForget moveRowDown; dsimp only; split_ifs <;> first | rfl | omega
  have hsr : ((s.moveRowDown o n).moveRowForget o n).nSourceRows =
      ((s.moveRowDown o n).moveRowForget o n).nKnownRows := by
    unfold moveRowForget moveRowDown; dsimp only; split_ifs <;> first | rfl | exact hsrc
  have hir : ∀ k, ((s.moveRowDown o n).moveRowForget o n).initRowSize k =
      if s.nKnownRows ≤ n then
        if o < s.nKnownRows ∧ k = n then max (sizeNz (s.b o) s.nCols) 1
        else s.initRowSize (rotL o n k)
      else s.initRowSize k := by
    intro k
    have e : (s.moveRowDown o n).b n = s.b o := by
      rw [hb0]; dsimp only; congr 1; unfold rotL; grind
    have e2 : rotateLeftBySwap (s.moveRowDown o n).initRowSize o n k = s.initRowSize (rotL o n k) := by
      rw [rotateLeft_eq _ hle]; rfl
    unfold moveRowForget
    dsimp only
    have c1 : (s.moveRowDown o n).nKnownRows = s.nKnownRows := rfl
    have c2 : (s.moveRowDown o n).nCols = s.nCols := rfl
    rw [c1]
    split_ifs with h1 h2 h3 h3
    · dsimp only; rw [c2, e, setAt, if_pos h3.2]
    · dsimp only; rw [setAt, if_neg (by tauto), e2]
    · exact absurd h3.1 h2
    · exact e2
    · rfl
  have hσlt : ∀ k, k < s.d → rotL o n k < s.d := fun k hk => (rotL_lt hn hle).2 hk
  refine ⟨?_, hcfg, uni_perm (rotL o n) (rotR o n) hσlt ?_ ?_ ?_ hb ?_ ?_⟩
  · constructor
    · exact hsr.le
    · rw [hkr, hcfg.d]; split_ifs <;> omega
    · intro _; exact hsr
    · rw [hcfg.nCols]; exact hs.cols_pos
    · rw [hcfg.nCols, hkc]; exact hs.cols_le
    · rw [hcfg.nCols, hcfg.d]
      intro k hk
      rw [hir]
      split_ifs
      · have := sizeNz_le (s.b o) s.nCols
        have := hs.cols_pos
        omega
      · exact hs.init_le _ (hσlt k hk)
      · exact hs.init_le k hk
    · rw [hcfg.nCols, hkc, hsr, hkr, hb]
      intro k hk c hc h
      refine hs.zeroSrc _ ?_ c hc h
      rw [hsrc]
      unfold rotL
      grind
    · rw [hcfg.nCols, hkc, hsr, hkr, hb, hcfg.d]
      intro k hk1 hk2 c hc h1 h2
      rw [hir] at h2
      dsimp only
      by_cases hz : rotL o n k < s.nSourceRows
      · exact hs.zeroSrc _ hz c hc h1
      · refine hs.zeroNew _ (hσlt k hk1) (by omega) c hc h1 ?_
        unfold rotL at hz ⊢
        rw [hsrc] at hz
        unfold rotL at h2
        grind
    · rw [hcfg.intGram, hlk]; exact hs.lockGram
    · rw [hcfg.intGram, hg, hkr]
      intro hG p hp q hq
      have hip : ((s.moveRowDown o n).moveRowForget o n).ip p q = s.ip (rotL o n p) (rotL o n q) := by
        unfold ip; rw [hb, hcfg.nCols]
      rw [hip]
      have hgg : (s.moveRowDown o n).g = if o + 1 < s.nKnownRows then
          Mat.rotateGramLeft s.g o (min n (s.nKnownRows - 1)) s.nKnownRows else s.g := by
        unfold moveRowDown; dsimp only; simp [hG]
      rw [hgg]
      have hpq : ∀ k, k < (if s.nKnownRows ≤ n ∧ o < s.nKnownRows then s.nKnownRows - 1
          else s.nKnownRows) → (k < s.nKnownRows ∧ rotL o n k < s.nKnownRows ∧
            (o + 1 < s.nKnownRows → rotL o (min n (s.nKnownRows - 1)) k = rotL o n k) ∧
            (¬ o + 1 < s.nKnownRows → rotL o n k = k)) := by
        intro k hk; unfold rotL; grind
      obtain ⟨p1, p2, p3, p4⟩ := hpq p hp
      obtain ⟨q1, q2, q3, q4⟩ := hpq q hq
      split_ifs with h
      · rw [symGet_of_lower (g := s.g)
          (g' := Mat.rotateGramLeft s.g o (min n (s.nKnownRows - 1)) s.nKnownRows)
          (σ := rotL o (min n (s.nKnownRows - 1))) (fun i j hi hj => rotateGramLeft_lower s.g
          (by omega : o ≤ min n (s.nKnownRows - 1)) (by omega) hi hj) p1 q1, p3 h, q3 h]
        exact hs.gram hG _ p2 _ q2
      · rw [p4 h, q4 h]; exact hs.gram hG _ p1 _ q1
  · intro i hi; exact (rotR_lt hn hle).2 hi
  · intro i hi; exact rotR_rotL hle i
  · intro i hi; exact rotL_rotR hle i
  · intro h
    rw [hu]
    unfold moveRowDown; dsimp only; rw [if_pos h, rotateLeft_eq _ hle]
  · intro h h'
    rw [hv]
    unfold moveRowDown; dsimp only; rw [if_pos (by simp [h, h']), rotateLeft_eq _ hle]

/-- `move_row` under its documented preconditions -/
theorem moveRow_good' {s : GSO F} (hs : WF s) (hsrc : s.nSourceRows = s.nKnownRows) {o n : ℕ}
    (h1 : n < o → o < s.nKnownRows) (h2 : o < n → n < s.d) : Good s (s.moveRow o n) := by
  unfold moveRow
  split_ifs with a b
  · exact moveRowUp_good hs hsrc a (h1 a)
  · exact moveRowDown_good hs hsrc b (h2 b)
  · exact .refl hs

theorem moveRow_good {s : GSO F} (hs : WF s) (hl : s.colsLocked = false) {o n : ℕ}
    (h1 : n < o → o < s.nKnownRows) (h2 : o < n → n < s.d) : Good s (s.moveRow o n) :=
  moveRow_good' hs (hs.unlocked hl) h1 h2

/-- transposition -/
def swapP (i j k : ℕ) : ℕ := if k = i then j else if k = j then i else k

theorem swapAt_eq {α : Type*} (v : ℕ → α) (i j : ℕ) : swapAt v i j = fun k => v (swapP i j k) := by
  funext k; unfold swapAt swapP; split_ifs <;> rfl

theorem gramSwap_lower (g : Mat ℤ) {i j n : ℕ} (hij : i < j) (hj : j < n) {p q : ℕ} (hp : p < n)
    (hq : q ≤ p) : gramSwap g i j n p q = symGet g (swapP i j p) (swapP i j q) := by
  unfold gramSwap
  have s1 : ∀ p q, forUp 0 i (fun k (g : Mat ℤ) => g.swapEntry i k j k) g p q =
      if p = i ∧ q < i then g j q else if p = j ∧ q < i then g i q else g p q := by
    have := forUp_inv (P := fun k (w : Mat ℤ) => ∀ p q, w p q =
        if p = i ∧ q < k then g j q else if p = j ∧ q < k then g i q else g p q)
      (fun k (g : Mat ℤ) => g.swapEntry i k j k) (Nat.zero_le i) g (by intro p q; simp)
      (by intro k w _ hk hw p q; rw [Mat.swapEntry_apply]; simp only [hw]; grind)
    exact this
  generalize forUp 0 i (fun k (g : Mat ℤ) => g.swapEntry i k j k) g = g1 at s1
  have s2 : ∀ p q, forUp (i + 1) j (fun k (g : Mat ℤ) => g.swapEntry k i j k) g1 p q =
      if i < p ∧ p < j ∧ q = i then g1 j p else if p = j ∧ i < q ∧ q < j then g1 q i else g1 p q := by
    have := forUp_inv (P := fun k (w : Mat ℤ) => ∀ p q, w p q =
        if i < p ∧ p < k ∧ q = i then g1 j p else if p = j ∧ i < q ∧ q < k then g1 q i else g1 p q)
      (fun k (g : Mat ℤ) => g.swapEntry k i j k) (by omega : i + 1 ≤ j) g1 (by intro p q; grind)
      (by clear s1; intro k w _ hk hw p q; rw [Mat.swapEntry_apply]; simp only [hw]; grind)
    exact this
  generalize forUp (i + 1) j (fun k (g : Mat ℤ) => g.swapEntry k i j k) g1 = g2 at s2
  have s3 : ∀ p q, forUp (j + 1) n (fun k (g : Mat ℤ) => g.swapEntry k i k j) g2 p q =
      if j < p ∧ p < n ∧ q = i then g2 p j else if j < p ∧ p < n ∧ q = j then g2 p i else g2 p q := by
    have := forUp_inv (P := fun k (w : Mat ℤ) => ∀ p q, w p q =
        if j < p ∧ p < k ∧ q = i then g2 p j else if j < p ∧ p < k ∧ q = j then g2 p i else g2 p q)
      (fun k (g : Mat ℤ) => g.swapEntry k i k j) (by omega : j + 1 ≤ n) g2 (by intro p q; grind)
      (by clear s1 s2; intro k w _ hk hw p q; rw [Mat.swapEntry_apply]; simp only [hw]; grind)
    exact this
  generalize forUp (j + 1) n (fun k (g : Mat ℤ) => g.swapEntry k i k j) g2 = g3 at s3
  rw [Mat.swapEntry_apply]
  simp only [s3, s2, s1]
  unfold symGet swapP
  grind

/-- `row_swap(i, j)` for known rows `i < j` of a GSO object without inverse transform -/
theorem rowSwap_good {s : GSO F} (hs : WF s) {i j : ℕ} (hij : i < j) (hj : j < s.nSourceRows)
    (hinv : s.withUinv = false) : Good s (s.rowSwap i j) := by
  have hjk : j < s.nKnownRows := lt_of_lt_of_le hj hs.src_le
  have hd := hs.known_le
  have hinvol : ∀ k, swapP i j (swapP i j k) = k := by intro k; unfold swapP; grind
  have hlt : ∀ m k, j < m → k < m → swapP i j k < m := by intro m k h1 h2; unfold swapP; grind
  have hb : (s.rowSwap i j).b = fun k => s.b (swapP i j k) := swapAt_eq _ _ _
  refine ⟨?_, ⟨rfl, rfl, rfl, rfl, rfl, rfl⟩, uni_perm (swapP i j) (swapP i j) ?_ ?_ ?_ ?_ hb ?_ ?_⟩
  · constructor
    · exact hs.src_le
    · exact hs.known_le
    · exact hs.unlocked
    · exact hs.cols_pos
    · exact hs.cols_le
    · exact hs.init_le
    · intro k hk c hc h
      rw [hb]
      exact hs.zeroSrc _ (hlt _ _ hj hk) c hc h
    · intro k hk1 hk2 c hc h1 h2
      rw [hb]
      have : swapP i j k = k := by
        change s.nSourceRows ≤ k at hk2
        unfold swapP; grind
      dsimp only
      rw [this]
      exact hs.zeroNew k hk1 hk2 c hc h1 h2
    · exact hs.lockGram
    · intro hG p hp q hq
      change s.intGram = true at hG
      change p < s.nKnownRows at hp
      change q < s.nKnownRows at hq
      have hgg : (s.rowSwap i j).g = gramSwap s.g i j s.nKnownRows := by
        unfold rowSwap; dsimp only; rw [if_pos hG]
      rw [hgg, symGet_of_lower (g := s.g) (g' := gramSwap s.g i j s.nKnownRows) (σ := swapP i j)
        (fun p q hp hq => gramSwap_lower s.g hij hjk hp hq) hp hq,
        hs.gram hG _ (hlt _ _ hjk hp) _ (hlt _ _ hjk hq)]
      unfold ip; rw [hb]; rfl
  · intro k hk; exact hlt _ _ (by omega) hk
  · intro k hk; exact hlt _ _ (by omega) hk
  · intro k _; exact hinvol k
  · intro k _; exact hinvol k
  · intro h
    unfold rowSwap; dsimp only; rw [if_pos h, swapAt_eq]
  · intro h h'; rw [hinv] at h'; cases h'

/-! ### discovering rows -/

theorem dotZ_ip {s : GSO F} {m : ℕ} (hm : m ≤ s.nCols) {i j : ℕ}
    (h : ∀ c < s.nCols, m ≤ c → s.b i c = 0 ∨ s.b j c = 0) : dotZ m (s.b i) (s.b j) = s.ip i j := by
  rw [dotZ_eq]
  unfold ip
  refine Finset.sum_subset (by intro c; simp; omega) ?_
  intro c hc hc'
  simp only [Finset.mem_range] at hc hc'
  rcases h c hc (by omega) with h | h <;> simp [h]

theorem discoverRow_good {s : GSO F} (hs : WF s) (hk : s.nKnownRows < s.d) : Good s s.discoverRow := by
  refine ⟨?_, ⟨rfl, rfl, rfl, rfl, rfl, rfl⟩, .of_eq rfl rfl rfl⟩
  have hsk := hs.src_le
  have hkc : s.discoverRow.nKnownCols =
    if s.colsLocked then s.nKnownCols else max s.nKnownCols (s.initRowSize s.nKnownRows) := rfl
  have hsr : s.discoverRow.nSourceRows =
    if s.colsLocked then s.nSourceRows else s.nKnownRows + 1 := rfl
  have hzero : ∀ k < s.discoverRow.nSourceRows, ∀ c < s.nCols, s.discoverRow.nKnownCols ≤ c → s.b k c = 0 := by
    rw [hkc, hsr]
    intro k hk1 c hc h
    by_cases hl : s.colsLocked = true
    · rw [if_pos hl] at hk1 h
      exact hs.zeroSrc k hk1 c hc h
    · rw [if_neg hl] at hk1 h
      have := hs.unlocked (by simpa using hl)
      by_cases h3 : k = s.nKnownRows
      · subst h3; exact hs.zeroNew _ hk (by omega) c hc (by omega) (by omega)
      · exact hs.zeroSrc k (by omega) c hc (by omega)
  have hcl : s.discoverRow.nKnownCols ≤ s.nCols := by
    rw [hkc]
    have h1 := hs.cols_le
    have h2 := hs.init_le _ hk
    split_ifs <;> omega
  constructor
  · rw [hsr]; change _ ≤ s.nKnownRows + 1; split_ifs <;> omega
  · change s.nKnownRows + 1 ≤ s.d; omega
  · intro h
    change s.colsLocked = false at h
    rw [hsr, h]; rfl
  · exact hs.cols_pos
  · exact hcl
  · exact hs.init_le
  · exact hzero
  · intro k hk1 hk2 c hc h1 h2
    refine hs.zeroNew k hk1 ?_ c hc ?_ h2
    · rw [hsr] at hk2; split_ifs at hk2 <;> omega
    · rw [hkc] at h1; split_ifs at h1 <;> omega
  · exact hs.lockGram
  · intro hG
    change s.intGram = true at hG
    have hl := hs.lockGram hG
    have hsrc := hs.unlocked hl
    intro p hp q hq
    change p < s.nKnownRows + 1 at hp
    change q < s.nKnownRows + 1 at hq
    change symGet s.discoverRow.g p q = s.ip p q
    have hgg : ∀ a b, s.discoverRow.g a b = if a = s.nKnownRows ∧ b ≤ s.nKnownRows then
        dotZ s.discoverRow.nKnownCols (s.b s.nKnownRows) (s.b b) else s.g a b := by
      intro a b
      have e : s.discoverRow.g = setAt s.g s.nKnownRows (forUp 0 (s.nKnownRows + 1)
        (fun j row => setAt row j (dotZ s.discoverRow.nKnownCols (s.b s.nKnownRows) (s.b j)))
        (s.g s.nKnownRows)) := by
        unfold discoverRow; dsimp only; rw [if_pos hG]
      rw [e, setAt_mat]
      have := forUp_inv (P := fun k (w : ℕ → ℤ) => ∀ b, w b =
          if b < k then dotZ s.discoverRow.nKnownCols (s.b s.nKnownRows) (s.b b) else s.g s.nKnownRows b)
        (fun j row => setAt row j (dotZ s.discoverRow.nKnownCols (s.b s.nKnownRows) (s.b j)))
        (Nat.zero_le (s.nKnownRows + 1)) (s.g s.nKnownRows) (by intro b; simp)
        (by intro k w _ _ hw b; unfold setAt; grind)
      rw [this b]
      grind
    have hdot : ∀ q, q < s.nKnownRows + 1 →
        dotZ s.discoverRow.nKnownCols (s.b s.nKnownRows) (s.b q) = s.ip s.nKnownRows q := by
      intro q hq
      refine dotZ_ip hcl ?_
      intro c hc h
      right
      refine hzero q ?_ c hc h
      rw [hsr, hl]; simpa using hq
    have low : ∀ p q, q ≤ p → p < s.nKnownRows + 1 → symGet s.discoverRow.g p q = s.ip p q := by
      intro p q hqp hp
      rw [symGet_of_le _ hqp, hgg]
      split_ifs with h
      · rw [h.1]; exact hdot q (by omega)
      · rw [← symGet_of_le s.g hqp]; exact hs.gram hG p (by omega) q (by omega)
    by_cases hpq : q ≤ p
    · exact low p q hpq hp
    · rw [symGet_comm, ip_comm]; exact low q p (by omega) hq

/-- `lock_cols` is only allowed with a floating-point Gram matrix -/
theorem lockCols_good {s : GSO F} (hs : WF s) (h : s.intGram = false) : Good s s.lockCols := by
  refine ⟨?_, ⟨rfl, rfl, rfl, rfl, rfl, rfl⟩, .of_eq rfl rfl rfl⟩
  constructor
  · exact hs.src_le
  · exact hs.known_le
  · intro h; cases h
  · exact hs.cols_pos
  · exact hs.cols_le
  · exact hs.init_le
  · exact hs.zeroSrc
  · exact hs.zeroNew
  · intro h'; change s.intGram = true at h'; rw [h] at h'; cases h'
  · exact hs.gram

theorem unlockCols_good {s : GSO F} (hs : WF s) : Good s s.unlockCols := by
  refine ⟨?_, ⟨rfl, rfl, rfl, rfl, rfl, rfl⟩, .of_eq rfl rfl rfl⟩
  constructor
  · exact le_rfl
  · exact hs.src_le.trans hs.known_le
  · intro _; rfl
  · exact hs.cols_pos
  · exact hs.cols_le
  · exact hs.init_le
  · exact hs.zeroSrc
  · exact hs.zeroNew
  · intro _; rfl
  · intro hG p hp q hq
    exact hs.gram hG p (lt_of_lt_of_le hp hs.src_le) q (lt_of_lt_of_le hq hs.src_le)

/-- `update_gso_row(i, last_j)`, discovering the row if necessary -/
theorem updateGsoRow_good {s : GSO F} (hs : WF s) {i : ℕ} (hi : i < s.d) (l : ℕ) :
    Good s (s.updateGsoRow i l).2 := by
  unfold updateGsoRow
  split_ifs with h
  · have g1 := discoverRow_good hs (lt_of_le_of_lt h hi)
    exact g1.trans ((updateGsoLoop_fo _ _ _ _).good g1.wf)
  · exact (updateGsoLoop_fo _ _ _ _).good hs

theorem updateGsoRow_b (s : GSO F) (i l : ℕ) : (s.updateGsoRow i l).2.b = s.b := by
  unfold updateGsoRow
  split_ifs with h
  · rw [(updateGsoLoop_fo _ _ _ _).b]; rfl
  · rw [(updateGsoLoop_fo _ _ _ _).b]

theorem updateGsoRow_known (s : GSO F) (i l : ℕ) :
    (s.updateGsoRow i l).2.nKnownRows = if s.nKnownRows ≤ i then s.nKnownRows + 1 else s.nKnownRows := by
  unfold updateGsoRow
  split_ifs with h
  · rw [(updateGsoLoop_fo _ _ _ _).nKnownRows]; rfl
  · rw [(updateGsoLoop_fo _ _ _ _).nKnownRows]

theorem updateGsoRow_source (s : GSO F) (i l : ℕ) :
    (s.updateGsoRow i l).2.nSourceRows =
      if s.nKnownRows ≤ i ∧ s.colsLocked = false then s.nKnownRows + 1 else s.nSourceRows := by
  unfold updateGsoRow
  split_ifs with h h' h'
  · rw [(updateGsoLoop_fo _ _ _ _).nSourceRows]; simp [discoverRow, h'.2]
  · rw [(updateGsoLoop_fo _ _ _ _).nSourceRows]
    have : s.colsLocked = true := by
      by_contra hc; exact h' ⟨h, by simpa using hc⟩
    simp [discoverRow, this]
  · exact absurd h'.1 h
  · rw [(updateGsoLoop_fo _ _ _ _).nSourceRows]

theorem updateGsoRow_locked (s : GSO F) (i l : ℕ) :
    (s.updateGsoRow i l).2.colsLocked = s.colsLocked := by
  unfold updateGsoRow
  split_ifs with h
  · rw [(updateGsoLoop_fo _ _ _ _).colsLocked]; rfl
  · rw [(updateGsoLoop_fo _ _ _ _).colsLocked]

/-- a freshly constructed object is well formed -/
theorem mk0_wf (d n : ℕ) (ig wu wi fl : Bool) (b u v jz : Mat ℤ) (jf : Mat F) (hn : 1 ≤ n) :
    WF (mk0 d n ig wu wi fl b u v jz jf) ∧ (mk0 d n ig wu wi fl b u v jz jf).b = b ∧
    (mk0 d n ig wu wi fl b u v jz jf).u = u ∧ (mk0 d n ig wu wi fl b u v jz jf).uInvT = v ∧
    (mk0 d n ig wu wi fl b u v jz jf).d = d ∧ (mk0 d n ig wu wi fl b u v jz jf).nCols = n ∧
    (mk0 d n ig wu wi fl b u v jz jf).intGram = ig ∧ (mk0 d n ig wu wi fl b u v jz jf).withU = wu ∧
    (mk0 d n ig wu wi fl b u v jz jf).withUinv = wi ∧
    (mk0 d n ig wu wi fl b u v jz jf).nKnownRows = 0 ∧
    (mk0 d n ig wu wi fl b u v jz jf).colsLocked = false := by
  let s0 : GSO F := { d := d, nCols := n, intGram := ig, withU := wu, withUinv := wi
                      forceLong := fl, colsLocked := false, nKnownRows := 0, nSourceRows := 0
                      nKnownCols := 0, initRowSize := fun _ => 0, b := b, u := u, uInvT := v
                      g := jz, bf := jf, gf := jf, mu := jf, r := jf, gsoValidCols := fun _ => 0 }
  let body : ℕ → GSO F → GSO F := fun i s =>
    let s := { s with initRowSize := setAt s.initRowSize i (max (sizeNz (s.b i) s.nCols) 1) }
    if s.intGram then s else updateBf { s with bf := setAt s.bf i (fun _ => ofInt 0) } i
  have hbody : ∀ i s, (body i s).d = s.d ∧ (body i s).nCols = s.nCols ∧ (body i s).intGram = s.intGram ∧
      (body i s).withU = s.withU ∧ (body i s).withUinv = s.withUinv ∧
      (body i s).colsLocked = s.colsLocked ∧ (body i s).nKnownRows = s.nKnownRows ∧
      (body i s).nSourceRows = s.nSourceRows ∧ (body i s).nKnownCols = s.nKnownCols ∧
      (body i s).b = s.b ∧ (body i s).u = s.u ∧ (body i s).uInvT = s.uInvT ∧
      (body i s).initRowSize = setAt s.initRowSize i (max (sizeNz (s.b i) s.nCols) 1) := by
    intro i s
    dsimp only [body]
    split_ifs <;> simp [updateBf]
  have key := forUp_inv (P := fun i s => s.d = d ∧ s.nCols = n ∧ s.intGram = ig ∧ s.withU = wu ∧
      s.withUinv = wi ∧ s.colsLocked = false ∧ s.nKnownRows = 0 ∧ s.nSourceRows = 0 ∧ s.nKnownCols = 0 ∧
      s.b = b ∧ s.u = u ∧ s.uInvT = v ∧ ∀ k < i, s.initRowSize k = max (sizeNz (b k) n) 1)
    body (Nat.zero_le d) s0 (by simp [s0])
    (by
      intro i s _ _ h
      obtain ⟨a1, a2, a3, a4, a5, a6, a7, a8, a9, a10, a11, a12, a13⟩ := h
      obtain ⟨c1, c2, c3, c4, c5, c6, c7, c8, c9, c10, c11, c12, c13⟩ := hbody i s
      refine ⟨by rw [c1, a1], by rw [c2, a2], by rw [c3, a3], by rw [c4, a4], by rw [c5, a5],
        by rw [c6, a6], by rw [c7, a7], by rw [c8, a8], by rw [c9, a9], by rw [c10, a10],
        by rw [c11, a11], by rw [c12, a12], ?_⟩
      intro k hk
      rw [c13, a10, a2]
      unfold setAt
      split_ifs with h
      · rw [h]
      · exact a13 k (by omega))
  have hmk : mk0 d n ig wu wi fl b u v jz jf = forUp 0 d body s0 := rfl
  rw [hmk]
  obtain ⟨a1, a2, a3, a4, a5, a6, a7, a8, a9, a10, a11, a12, a13⟩ := key
  refine ⟨?_, a10, a11, a12, a1, a2, a3, a4, a5, a7, a6⟩
  constructor
  · omega
  · omega
  · intro _; omega
  · rw [a2]; exact hn
  · omega
  · rw [a1, a2]
    intro k hk
    have := sizeNz_le (b k) n
    rw [a13 k hk]; omega
  · intro k hk; omega
  · intro k hk _ c hc _ h
    rw [a10]
    rw [a1] at hk
    rw [a2] at hc
    rw [a13 k hk] at h
    exact sizeNz_zero _ n c (by omega) hc
  · intro _; exact a6
  · intro _ p hp; omega

end GSO
end Fplll

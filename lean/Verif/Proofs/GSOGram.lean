import Verif.Model.GSOGram
import Verif.Proofs.LLL

/-!
# Simulation between `MatGSO` with an integer Gram matrix and `MatGSOGram`
-/

namespace Fplll

open FloatOps Spec

set_option linter.unusedSectionVars false

variable {F : Type} [FloatOps F]

namespace GSO

/-- `t`, an object that has the Gram matrix only, is in step with the basis object `s` -/
structure Sim (s t : GSO F) : Prop where
  wf : WF s
  ig : s.intGram = true
  ig' : t.intGram = true
  d : t.d = s.d
  withU : t.withU = s.withU
  withUinv : t.withUinv = s.withUinv
  forceLong : t.forceLong = s.forceLong
  colsLocked : t.colsLocked = s.colsLocked
  nKnownRows : t.nKnownRows = s.nKnownRows
  nSourceRows : t.nSourceRows = s.nSourceRows
  u : t.u = s.u
  uInvT : t.uInvT = s.uInvT
  mu : t.mu = s.mu
  r : t.r = s.r
  valid : t.gsoValidCols = s.gsoValidCols
  gram : ∀ i < s.d, ∀ j < s.d, symGet t.g i j = s.ip i j

theorem Sim.g_eq {s t : GSO F} (h : Sim s t) {i j : ℕ} (hi : i < s.nKnownRows) (hj : j ≤ i) :
    t.g i j = s.g i j := by
  have hd := h.wf.known_le
  rw [← symGet_of_le t.g hj, ← symGet_of_le s.g hj, h.gram i (by omega) j (by omega),
    h.wf.gram h.ig i hi j (by omega)]

theorem Sim.gramVal {s t : GSO F} (h : Sim s t) {i j : ℕ} (hi : i < s.nKnownRows) (hj : j ≤ i) :
    t.gramVal i j = s.gramVal i j := by
  unfold GSO.gramVal; rw [if_pos h.ig', if_pos h.ig, h.g_eq hi hj]

/-- `addRow`: both objects add `x` times row `j` to row `i` -/
theorem Sim.addRow {s t : GSO F} (h : Sim s t) {i j : ℕ} (hj : j < s.nSourceRows)
    (x : ℤ) {b' u' v' g' : Mat ℤ} {g2 : Mat ℤ}
    (hwf : WF { s with b := b', u := u', uInvT := v', g := g' })
    (hb : ∀ k c, b' k c = if k = i ∧ c < s.nKnownCols then s.b i c + x * s.b j c else s.b k c)
    (hg : ∀ a < t.d, ∀ b < t.d, symGet g2 a b =
      symGet t.g a b + (if a = i then x * symGet t.g j b else 0)
        + (if b = i then x * symGet t.g a j else 0)
        + (if a = i ∧ b = i then x * x * symGet t.g j j else 0)) :
    Sim { s with b := b', u := u', uInvT := v', g := g' } { t with u := u', uInvT := v', g := g2 } := by
  have hs := h.wf
  have hjd : j < s.d := lt_of_lt_of_le hj (hs.src_le.trans hs.known_le)
  have hb' : ∀ k c, c < s.nCols → b' k c = s.b k c + if k = i then x * s.b j c else 0 := by
    intro k c hc
    rw [hb]
    by_cases h : c < s.nKnownCols
    · by_cases hk : k = i
      · subst hk; simp [h]
      · simp [hk]
    · have := hs.zeroSrc j hj c hc (by omega)
      simp [h, this]
  refine ⟨hwf, h.ig, h.ig', h.d, h.withU, h.withUinv, h.forceLong, h.colsLocked, h.nKnownRows, h.nSourceRows,
    rfl, rfl, h.mu, h.r, h.valid, ?_⟩
  intro p hp q hq
  dsimp only at hp hq ⊢
  rw [hg p (by rw [h.d]; exact hp) q (by rw [h.d]; exact hq), h.gram p hp q hq, h.gram j hjd q hq,
    h.gram p hp j hjd, h.gram j hjd j hjd]
  unfold ip
  dsimp only
  rw [ip_add s.nCols s.b b' i j x hb' p q]

theorem Sim.rowAdd {s t : GSO F} (h : Sim s t) {i j : ℕ} (hi : i < s.nKnownRows) (hj : j < s.nSourceRows)
    (hij : i ≠ j) : Sim (s.rowAdd i j) (Gram.rowAdd t i j) := by
  have hwf := (rowAdd_good h.wf hi hj hij).wf
  have e : Gram.rowAdd t i j = { t with
      u := (s.rowAdd i j).u, uInvT := (s.rowAdd i j).uInvT, g := (Gram.rowAdd t i j).g } := by
    unfold Gram.rowAdd GSO.rowAdd; rw [h.withU, h.withUinv, h.u, h.uInvT, h.d]
  rw [e]
  refine h.addRow (i := i) hj 1 hwf ?_ ?_
  · intro k c; rw [setAt_mat, vecAdd_apply]; grind
  · intro a ha b hb
    rw [← gramRow t.d i j hij 1 0 (t.g i i + (symGet t.g i j * 2 + t.g j j)) (fun v => v) t.g
      (by intro v; ring) (by ring) a b ha hb]
    unfold Gram.rowAdd gramAddLoop
    dsimp only
    congr 2
    funext k g
    by_cases h : k = i <;> simp [h]

theorem Sim.rowSub {s t : GSO F} (h : Sim s t) {i j : ℕ} (hi : i < s.nKnownRows) (hj : j < s.nSourceRows)
    (hij : i ≠ j) : Sim (s.rowSub i j) (Gram.rowSub t i j) := by
  have hwf := (rowSub_good h.wf hi hj hij).wf
  have e : Gram.rowSub t i j = { t with
      u := (s.rowSub i j).u, uInvT := (s.rowSub i j).uInvT, g := (Gram.rowSub t i j).g } := by
    unfold Gram.rowSub GSO.rowSub; rw [h.withU, h.withUinv, h.u, h.uInvT, h.d]
  rw [e]
  refine h.addRow (i := i) hj (-1) hwf ?_ ?_
  · intro k c; rw [setAt_mat, vecSub_apply]; grind
  · intro a ha b hb
    rw [← gramRow t.d i j hij (-1) 0 (t.g i i + (t.g j j - symGet t.g i j * 2)) (fun v => -v) t.g
      (by intro v; ring) (by ring) a b ha hb]
    unfold Gram.rowSub gramSubLoop
    dsimp only
    congr 2
    funext k g
    by_cases h : k = i <;> simp [h, sub_eq_add_neg]

theorem Sim.rowAddmulSi {s t : GSO F} (h : Sim s t) {i j : ℕ} (hi : i < s.nKnownRows)
    (hj : j < s.nSourceRows) (hij : i ≠ j) (x : ℤ) : Sim (s.rowAddmulSi i j x) (Gram.rowAddmulSi t i j x) := by
  have hwf := (rowAddmulSi_good h.wf hi hj hij x).wf
  have e : Gram.rowAddmulSi t i j x = { t with
      u := (s.rowAddmulSi i j x).u, uInvT := (s.rowAddmulSi i j x).uInvT, g := (Gram.rowAddmulSi t i j x).g } := by
    unfold Gram.rowAddmulSi GSO.rowAddmulSi; rw [h.withU, h.withUinv, h.u, h.uInvT, h.d]
  rw [e]
  refine h.addRow (i := i) hj x hwf ?_ ?_
  · intro k c; rw [setAt_mat, vecAddmulSi_apply]; grind
  · intro a ha b hb
    rw [← gramRow t.d i j hij x 0
      (t.g i i + symGet t.g i j * x * 2 + t.g j j * x * x) (fun v => v * x)
      t.g (by intro v; ring) (by ring) a b ha hb]
    unfold Gram.rowAddmulSi gramAddmulLoop
    simp only [set_set, Mat.set_apply, hij.symm, and_self, if_true, if_false]

theorem Sim.rowAddmul2exp {s t : GSO F} (h : Sim s t) {i j : ℕ} (hi : i < s.nKnownRows)
    (hj : j < s.nSourceRows) (hij : i ≠ j) (x : ℤ) (e : ℕ) :
    Sim (s.rowAddmul2exp i j x e) (Gram.rowAddmul2exp t i j x e) := by
  have hwf := (rowAddmul2exp_good h.wf hi hj hij x e).wf
  have e' : Gram.rowAddmul2exp t i j x e = { t with
      u := (s.rowAddmul2exp i j x e).u, uInvT := (s.rowAddmul2exp i j x e).uInvT,
      g := (Gram.rowAddmul2exp t i j x e).g } := by
    unfold Gram.rowAddmul2exp GSO.rowAddmul2exp; rw [h.withU, h.withUinv, h.u, h.uInvT, h.d]
  rw [e']
  refine h.addRow (i := i) hj (x * 2 ^ e) hwf ?_ ?_
  · intro k c; rw [setAt_mat, vecAddmul2exp_apply]; grind
  · intro a ha b hb
    rw [← gramRow t.d i j hij (x * 2 ^ e) 0
      (t.g i i + symGet t.g i j * x * 2 ^ (e + 1) + t.g j j * x * x * 2 ^ (2 * e))
      (fun v => v * x * 2 ^ e)
      t.g (by intro v; ring) (by ring) a b ha hb]
    unfold Gram.rowAddmul2exp gramAddmul2expLoop
    simp only [set_set, Mat.set_apply, hij.symm, and_self, if_true, if_false]

theorem Sim.rowAddmulWe {s t : GSO F} (h : Sim s t) {i j : ℕ} (hi : i < s.nKnownRows)
    (hj : j < s.nSourceRows) (hij : i ≠ j) (x : F) : Sim (s.rowAddmulWe i j x) (Gram.rowAddmulWe t i j x) := by
  unfold GSO.rowAddmulWe Gram.rowAddmulWe
  dsimp only
  rw [h.forceLong]
  split_ifs
  · exact h.rowAdd hi hj hij
  · exact h.rowSub hi hj hij
  · exact h.rowAddmulSi hi hj hij _
  · exact h
  · exact h.rowAddmul2exp hi hj hij _ _
  · exact h.rowAddmul2exp hi hj hij _ _

theorem Sim.rowSwap {s t : GSO F} (h : Sim s t) {i j : ℕ} (hij : i < j) (hj : j < s.nSourceRows)
    (hinv : s.withUinv = false) : Sim (s.rowSwap i j) (Gram.rowSwap t i j) := by
  have hd : j < s.d := lt_of_lt_of_le hj (h.wf.src_le.trans h.wf.known_le)
  have hlt : ∀ m k, j < m → k < m → swapP i j k < m := by intro m k h1 h2; unfold swapP; grind
  refine ⟨(rowSwap_good h.wf hij hj hinv).wf, h.ig, h.ig', h.d, h.withU, h.withUinv, h.forceLong, h.colsLocked,
    h.nKnownRows, h.nSourceRows, ?_, h.uInvT, h.mu, h.r, h.valid, ?_⟩
  · unfold Gram.rowSwap GSO.rowSwap; dsimp only; rw [h.withU, h.u]
  · intro p hp q hq
    change p < s.d at hp
    change q < s.d at hq
    have hgg : (Gram.rowSwap t i j).g = gramSwap t.g i j s.d := by unfold Gram.rowSwap; rw [h.d]
    rw [hgg, symGet_of_lower (g := t.g) (g' := gramSwap t.g i j s.d) (σ := swapP i j)
        (fun p q hp hq => gramSwap_lower t.g hij hd hp hq) hp hq,
        h.gram _ (hlt _ _ hd hp) _ (hlt _ _ hd hq)]
    unfold ip
    change _ = ∑ c ∈ Finset.range s.nCols, swapAt s.b i j p c * swapAt s.b i j q c
    rw [swapAt_eq]

theorem Sim.invalidateGsoRow {s t : GSO F} (h : Sim s t) (i n : ℕ) :
    Sim (s.invalidateGsoRow i n) (t.invalidateGsoRow i n) :=
  ⟨((invalidateGsoRow_fo s i n).good h.wf).wf, h.ig, h.ig', h.d, h.withU, h.withUinv, h.forceLong, h.colsLocked,
    h.nKnownRows, h.nSourceRows, h.u, h.uInvT, h.mu, h.r,
    by unfold GSO.invalidateGsoRow; dsimp only; rw [h.valid], h.gram⟩

theorem Sim.forUp {s t : GSO F} (h : Sim s t) (a b : ℕ) (f f' : ℕ → GSO F → GSO F)
    (hf : ∀ i s t, a ≤ i → i < b → Sim s t → Sim (f i s) (f' i t)) : Sim (forUp a b f s) (forUp a b f' t) := by
  rcases Nat.le_total a b with hab | hab
  · obtain ⟨n, rfl⟩ := Nat.exists_eq_add_of_le hab
    clear hab
    induction n with
    | zero => rw [Nat.add_zero, forUp_empty le_rfl, forUp_empty le_rfl]; exact h
    | succ n ih =>
      rw [← Nat.add_assoc, forUp_succ_right (by omega), forUp_succ_right (by omega)]
      exact hf _ _ _ (by omega) (by omega) (ih (fun i s t h1 h2 => hf i s t h1 (by omega)))
  · rw [forUp_empty hab, forUp_empty hab]; exact h

theorem Sim.invalidateFrom {s t : GSO F} (h : Sim s t) (i n : ℕ) :
    Sim (s.invalidateFrom i n) (t.invalidateFrom i n) := by
  unfold GSO.invalidateFrom
  rw [h.nKnownRows]
  exact h.forUp _ _ _ _ (fun i s t _ _ h => h.invalidateGsoRow i n)

theorem Sim.rowOpEnd {s t : GSO F} (h : Sim s t) (a e : ℕ) : Sim (s.rowOpEnd a e) (t.rowOpEnd a e) := by
  unfold GSO.rowOpEnd
  dsimp only
  have h1 : Sim (Fplll.forUp a e (fun i s => s.rowOpEndBody i) s) (Fplll.forUp a e (fun i s => s.rowOpEndBody i) t) := by
    refine h.forUp _ _ _ _ ?_
    intro i s t _ _ h
    unfold GSO.rowOpEndBody
    rw [if_pos h.ig, if_pos h.ig']
    exact h.invalidateGsoRow i 0
  rw [h1.nKnownRows]
  exact h1.forUp _ _ _ _ (fun i s t _ _ h => h.invalidateGsoRow i a)

theorem Sim.setR {s t : GSO F} (h : Sim s t) (i j : ℕ) (f : F) : Sim (s.setR i j f) (t.setR i j f) :=
  ⟨((setR_fo s i j f).good h.wf).wf, h.ig, h.ig', h.d, h.withU, h.withUinv, h.forceLong, h.colsLocked,
    h.nKnownRows, h.nSourceRows, h.u, h.uInvT, h.mu, by unfold GSO.setR; dsimp only; rw [h.r],
    by unfold GSO.setR; dsimp only; rw [h.valid], h.gram⟩

theorem Sim.discoverRow {s t : GSO F} (h : Sim s t) (hk : s.nKnownRows < s.d) :
    Sim s.discoverRow (Gram.discoverRow t) :=
  ⟨(discoverRow_good h.wf hk).wf, h.ig, h.ig', h.d, h.withU, h.withUinv, h.forceLong, h.colsLocked,
    by unfold GSO.discoverRow Gram.discoverRow; dsimp only; rw [h.nKnownRows],
    by unfold GSO.discoverRow Gram.discoverRow; dsimp only; rw [h.nKnownRows, h.colsLocked, h.nSourceRows],
    h.u, h.uInvT, h.mu, h.r,
    by unfold GSO.discoverRow Gram.discoverRow; dsimp only; rw [h.nKnownRows, h.valid], h.gram⟩

theorem Sim.moveRowUp {s t : GSO F} (h : Sim s t) (hsrc : s.nSourceRows = s.nKnownRows) {o n : ℕ} (hno : n < o)
    (ho : o < s.nKnownRows) : Sim (s.moveRowUp o n) (Gram.moveRowUp t o n) := by
  have hd : o < s.d := lt_of_lt_of_le ho h.wf.known_le
  have hle := hno.le
  refine ⟨(moveRowUp_good h.wf hsrc hno ho).wf, h.ig, h.ig', h.d, h.withU, h.withUinv, h.forceLong,
    h.colsLocked, h.nKnownRows, h.nSourceRows, ?_, ?_, ?_, ?_, ?_, ?_⟩
  · unfold Gram.moveRowUp GSO.moveRowUp; dsimp only; rw [h.withU, h.u]
  · unfold Gram.moveRowUp GSO.moveRowUp; dsimp only; rw [h.withU, h.withUinv, h.uInvT]
  · unfold Gram.moveRowUp GSO.moveRowUp; dsimp only; rw [h.mu]
  · unfold Gram.moveRowUp GSO.moveRowUp; dsimp only; rw [h.r]
  · unfold Gram.moveRowUp GSO.moveRowUp; dsimp only; rw [(h.invalidateFrom n n).valid]
  · intro p hp q hq
    change p < s.d at hp
    change q < s.d at hq
    have hgg : (Gram.moveRowUp t o n).g = Mat.rotateGramRight t.g n o s.d := by
      unfold Gram.moveRowUp; rw [h.d]
    rw [hgg, symGet_of_lower (g := t.g) (g' := Mat.rotateGramRight t.g n o s.d)
        (σ := rotR n o) (fun i j hi hj => rotateGramRight_lower t.g hle hd hi hj) hp hq,
        h.gram _ ((rotR_lt hd hle).2 hp) _ ((rotR_lt hd hle).2 hq)]
    unfold ip
    change _ = ∑ c ∈ Finset.range s.nCols, rotateRightBySwap s.b n o p c * rotateRightBySwap s.b n o q c
    rw [rotateRight_eq _ hle]

/-- moving a row down, but not past the known rows -/
theorem Sim.moveRowDown {s t : GSO F} (h : Sim s t) (hsrc : s.nSourceRows = s.nKnownRows) {o n : ℕ} (hno : o < n)
    (hn : n < s.nKnownRows) :
    Sim ((s.moveRowDown o n).moveRowForget o n) (Gram.moveRowDown t o n) := by
  have hd : n < s.d := lt_of_lt_of_le hn h.wf.known_le
  have hle := hno.le
  have hwf := (moveRowDown_good h.wf hsrc hno hd).wf
  have e1 : (s.moveRowDown o n).moveRowForget o n = s.moveRowDown o n := by
    unfold moveRowForget; exact if_neg (show ¬ s.nKnownRows ≤ n by omega)
  have e2 : Gram.moveRowDown t o n = { t with
      gsoValidCols := rotateLeftBySwap (t.invalidateFrom o o).gsoValidCols o n
      mu := rotateLeftBySwap t.mu o n
      r := rotateLeftBySwap t.r o n
      u := if t.withU then rotateLeftBySwap t.u o n else t.u
      uInvT := if t.withU && t.withUinv then rotateLeftBySwap t.uInvT o n else t.uInvT
      g := Mat.rotateGramLeft t.g o n s.d } := by
    unfold Gram.moveRowDown
    rw [if_neg (show ¬ (t.nKnownRows ≤ n ∧ o < t.nKnownRows) by rw [h.nKnownRows]; omega)]
    rw [if_pos (show o + 1 < t.nKnownRows by rw [h.nKnownRows]; omega), h.nKnownRows, h.d,
      Nat.min_eq_left (by omega)]
  rw [e1] at hwf ⊢
  rw [e2]
  refine ⟨hwf, h.ig, h.ig', h.d, h.withU, h.withUinv, h.forceLong,
    h.colsLocked, h.nKnownRows, h.nSourceRows, ?_, ?_, ?_, ?_, ?_, ?_⟩
  · unfold GSO.moveRowDown; dsimp only; rw [h.withU, h.u]
  · unfold GSO.moveRowDown; dsimp only; rw [h.withU, h.withUinv, h.uInvT]
  · unfold GSO.moveRowDown; dsimp only; rw [h.mu]
  · unfold GSO.moveRowDown; dsimp only; rw [h.r]
  · unfold GSO.moveRowDown; dsimp only; rw [(h.invalidateFrom o o).valid]
  · intro p hp q hq
    change p < s.d at hp
    change q < s.d at hq
    dsimp only
    rw [symGet_of_lower (g := t.g) (g' := Mat.rotateGramLeft t.g o n s.d)
        (σ := rotL o n) (fun i j hi hj => rotateGramLeft_lower t.g hle hd hi hj) hp hq,
        h.gram _ ((rotL_lt hd hle).2 hp) _ ((rotL_lt hd hle).2 hq)]
    unfold ip
    change _ = ∑ c ∈ Finset.range s.nCols, rotateLeftBySwap s.b o n p c * rotateLeftBySwap s.b o n q c
    rw [rotateLeft_eq _ hle]

theorem Sim.moveRow {s t : GSO F} (h : Sim s t) (hsrc : s.nSourceRows = s.nKnownRows) {o n : ℕ}
    (h1 : n < o → o < s.nKnownRows) (h2 : o < n → n < s.nKnownRows) : Sim (s.moveRow o n) (Gram.moveRow t o n) := by
  unfold GSO.moveRow Gram.moveRow
  split_ifs with a b
  · exact h.moveRowUp hsrc a (h1 a)
  · exact h.moveRowDown hsrc b (h2 b)
  · exact h

theorem cacheGram_int {s : GSO F} (h : s.intGram = true) (i j : ℕ) : s.cacheGram i j = s := by
  unfold cacheGram
  rw [if_neg (by simp [h])]

theorem Sim.updateGsoLoop (i n j : ℕ) {s t : GSO F} (h : Sim s t) (hi : i < s.nKnownRows) (hj : n = 0 ∨ j + n ≤ i + 1) :
    (updateGsoLoop i n j t).1 = (updateGsoLoop i n j s).1 ∧
    Sim (updateGsoLoop i n j s).2 (updateGsoLoop i n j t).2 := by
  induction n generalizing j s t with
  | zero =>
    refine ⟨rfl, ?_⟩
    exact ⟨((updateGsoLoop_fo i 0 j s).good h.wf).wf, h.ig, h.ig', h.d, h.withU, h.withUinv, h.forceLong,
      h.colsLocked, h.nKnownRows, h.nSourceRows, h.u, h.uInvT, h.mu, h.r,
      by unfold GSO.updateGsoLoop; dsimp only; rw [h.valid], h.gram⟩
  | succ n ih =>
    have hj' : j + (n + 1) ≤ i + 1 := by omega
    have es : s.cacheGram i j = s := cacheGram_int h.ig i j
    have et : t.cacheGram i j = t := cacheGram_int h.ig' i j
    rw [GSO.updateGsoLoop, GSO.updateGsoLoop]
    dsimp only
    have hm := h.mu
    have hr := h.r
    rw [es, et, h.gramVal hi (by omega)]
    simp only [hm, hr]
    have aux : ∀ (r mu : Mat F), Sim { s with r := r, mu := mu } { t with r := r, mu := mu } := by
      intro r mu
      have fo : FloatOnly s { s with r := r, mu := mu } := by constructor <;> rfl
      exact ⟨(fo.good h.wf).wf, h.ig, h.ig', h.d, h.withU, h.withUinv, h.forceLong,
        h.colsLocked, h.nKnownRows, h.nSourceRows, h.u, h.uInvT, rfl, rfl, h.valid, h.gram⟩
    have aux1 : ∀ (r : Mat F), Sim { s with r := r } { t with r := r, mu := s.mu } := by
      intro r
      have fo : FloatOnly s { s with r := r } := by constructor <;> rfl
      exact ⟨(fo.good h.wf).wf, h.ig, h.ig', h.d, h.withU, h.withUinv, h.forceLong,
        h.colsLocked, h.nKnownRows, h.nSourceRows, h.u, h.uInvT, rfl, rfl, h.valid, h.gram⟩
    split_ifs
    · exact ih (j + 1) (aux _ _) hi (by omega)
    · exact ⟨rfl, aux _ _⟩
    · exact ih (j + 1) (aux1 _) hi (by omega)

theorem Sim.updateGsoRow {s t : GSO F} (h : Sim s t) {i l : ℕ} (hid : i < s.d) (hi : i ≤ s.nKnownRows)
    (hl : l ≤ i + 1) :
    (Gram.updateGsoRow t i l).1 = (s.updateGsoRow i l).1 ∧
    Sim (s.updateGsoRow i l).2 (Gram.updateGsoRow t i l).2 := by
  unfold GSO.updateGsoRow Gram.updateGsoRow
  dsimp only
  rw [h.nKnownRows]
  split_ifs with hk
  · have h' := h.discoverRow (by omega)
    rw [h'.valid]
    exact h'.updateGsoLoop i _ _ (by change i < s.nKnownRows + 1; omega) (by omega)
  · rw [h.valid]
    exact h.updateGsoLoop i _ _ (by omega) (by omega)

theorem Sim.unlocked {s t : GSO F} (h : Sim s t) : s.nSourceRows = s.nKnownRows :=
  h.wf.unlocked (h.wf.lockGram h.ig)

end GSO

end Fplll

import Verif.Model.BKZSvp
import Verif.Proofs.BKZ
import Verif.Proofs.LLL
import Verif.Proofs.Fresh

/-!
# Block reduction on the GSO object: each step is a sequence of unimodular row operations
-/

set_option linter.unusedSectionVars false

namespace Fplll
namespace BKZ

open FloatOps GSO LLL Spec

variable {F : Type} [FloatOps F]

/-- all rows are known (after `discover_all_rows`) -/
structure Full (s : GSO F) : Prop where
  wf : WF s
  known : s.nKnownRows = s.d
  source : s.nSourceRows = s.d

/-- unimodular operations that keep all rows known -/
structure Keep (s s' : GSO F) : Prop where
  good : Good s s'
  full : Full s'

theorem Keep.refl {s : GSO F} (h : Full s) : Keep s s := ⟨.refl h.wf, h⟩

theorem Keep.trans {s t v : GSO F} (h1 : Keep s t) (h2 : Keep t v) : Keep s v := ⟨h1.good.trans h2.good, h2.full⟩

theorem Keep.of_dims {s s' : GSO F} (h : Full s) (g : Good s s') (hk : s'.nKnownRows = s.nKnownRows)
    (hs : s'.nSourceRows = s.nSourceRows) : Keep s s' :=
  ⟨g, g.wf, by rw [hk, h.known, g.cfg.d], by rw [hs, h.source, g.cfg.d]⟩

theorem Keep.of_fo {s s' : GSO F} (h : Full s) (fo : FloatOnly s s') : Keep s s' :=
  .of_dims h (fo.good h.wf) fo.nKnownRows fo.nSourceRows

theorem Keep.of_sameDims {s s' : GSO F} (h : Full s) (g : Good s s') (hd : SameDims s s') : Keep s s' :=
  .of_dims h g hd.known hd.source

/-! ## LLL -/

theorem updateGsoRow_keep {s : GSO F} (h : Full s) {i : ℕ} (hi : i < s.d) (l : ℕ) : Keep s (s.updateGsoRow i l).2 := by
  refine .of_dims h (updateGsoRow_good h.wf hi l) ?_ ?_
  · rw [updateGsoRow_known, if_neg (by rw [h.known]; omega)]
  · rw [updateGsoRow_source, if_neg (by rw [h.known]; omega)]

theorem rowAddmulWe_keep {s : GSO F} (h : Full s) {i j : ℕ} (hi : i < s.d) (hj : j < s.d) (hij : i ≠ j) (x : F) :
    Keep s (s.rowAddmulWe i j x) :=
  .of_sameDims h (rowAddmulWe_good h.wf (by rw [h.known]; exact hi) (by rw [h.source]; exact hj) hij x) (rowAddmulWe_dims _ _ _ _)

theorem rowAdd_keep {s : GSO F} (h : Full s) {i j : ℕ} (hi : i < s.d) (hj : j < s.d) (hij : i ≠ j) : Keep s (s.rowAdd i j) :=
  .of_dims h (rowAdd_good h.wf (by rw [h.known]; exact hi) (by rw [h.source]; exact hj) hij) rfl rfl

theorem rowSub_keep {s : GSO F} (h : Full s) {i j : ℕ} (hi : i < s.d) (hj : j < s.d) (hij : i ≠ j) : Keep s (s.rowSub i j) :=
  .of_dims h (rowSub_good h.wf (by rw [h.known]; exact hi) (by rw [h.source]; exact hj) hij) rfl rfl

theorem lockCols_keep {s : GSO F} (h : Full s) (hG : s.intGram = false) : Keep s s.lockCols :=
  .of_dims h (lockCols_good h.wf hG) rfl rfl

theorem unlockCols_keep {s : GSO F} (h : Full s) : Keep s s.unlockCols :=
  .of_dims h (unlockCols_good h.wf) (by change s.nSourceRows = _; rw [h.source, h.known]) rfl

theorem symmetrizeG_keep {s : GSO F} (h : Full s) : Keep s s.symmetrizeG := .of_dims h (symmetrizeG_good h.wf) rfl rfl

theorem rowOpEnd_keep {s : GSO F} (h : Full s) (a e : ℕ) : Keep s (s.rowOpEnd a e) := .of_fo h (rowOpEnd_fo s a e)

theorem moveRow_source (s : GSO F) (o n : ℕ) (h : n < s.nKnownRows) : (s.moveRow o n).nSourceRows = s.nSourceRows := by
  unfold moveRow
  split_ifs
  · rfl
  · unfold moveRowForget
    rw [if_neg (by change ¬ s.nKnownRows ≤ n; omega)]; rfl
  · rfl

theorem moveRow_keep {s : GSO F} (h : Full s) {o n : ℕ} (ho : o < s.d) (hn : n < s.d) : Keep s (s.moveRow o n) := by
  refine .of_dims h (moveRow_good' h.wf (by rw [h.source, h.known]) (fun _ => by rw [h.known]; exact ho) (fun _ => hn)) ?_ ?_
  · rw [moveRow_known, if_neg]; rw [h.known]; omega
  · exact moveRow_source s o n (by rw [h.known]; exact hn)

theorem babaiPass_keep {s : GSO F} (h : Full s) {kappa start stop : ℕ} (hk : kappa < s.d) (hle : stop ≤ kappa) :
    Keep s (babaiPass s kappa start stop) := by
  obtain ⟨g, dm⟩ := babaiPass_good (start := start) h.wf (kappa := kappa) (stop := stop) (by rw [h.known]; exact hk) (by rw [h.source]; omega) hle
  exact .of_sameDims h g dm

theorem babai_keep (c : LLLCfg F) (fuel : ℕ) {s : GSO F} (h : Full s) {kappa stop : ℕ} (start : ℕ) (hk : kappa < s.d)
    (hle : stop ≤ kappa) : Keep s (babai c fuel s kappa stop start).2 := by
  unfold babai
  generalize 0 = iter
  generalize longMax = e
  induction fuel generalizing iter e s with
  | zero => exact .refl h
  | succ fuel ih =>
    have k1 := updateGsoRow_keep h hk stop
    have hd : (s.updateGsoRow kappa stop).2.d = s.d := k1.good.cfg.d
    have k2 := babaiPass_keep (start := start) k1.full (kappa := kappa) (stop := stop) (by rw [hd]; exact hk) hle
    have k3 := k1.trans k2
    have next := fun it e' => k3.trans (ih k2.full (by rw [k3.good.cfg.d]; exact hk) it e')
    rw [babaiLoop]
    dsimp only
    split_ifs
    · exact k1
    · exact k1
    · exact k1
    · exact next _ _
    · exact next _ _

theorem earlyLoop_keep (c : LLLCfg F) (fuel start srs n i : ℕ) (s : GSO F) (h : Full s) (hd : i + n ≤ s.d) (hi : start ≤ i) :
    Keep s (earlyLoop c fuel start srs n i s).2 := by
  induction n generalizing i s with
  | zero => exact .refl h
  | succ n ih =>
    have k1 := babai_keep c fuel h srs (kappa := i) (stop := start) (by omega) hi
    rw [earlyLoop]
    split_ifs
    · exact k1.trans (ih (i + 1) _ k1.full (by rw [k1.good.cfg.d]; omega) (by omega))
    · exact k1

theorem earlyReduction_keep (c : LLLCfg F) (fuel : ℕ) {s : GSO F} (h : Full s) {start : ℕ} (srs : ℕ) (hG : s.intGram = false)
    (hd : start ≤ s.d) : Keep s (earlyReduction c fuel s start srs).2 := by
  have k0 := lockCols_keep h hG
  have k1 := k0.trans (earlyLoop_keep c fuel start srs (s.d - start) start s.lockCols k0.full (by rw [k0.good.cfg.d]; omega) le_rfl)
  unfold earlyReduction
  dsimp only
  split_ifs
  · exact k1.trans (unlockCols_keep k1.full)
  · exact k1

theorem zeroLoop_keep (kmin kend n zeros : ℕ) (s : GSO F) (h : Full s) (hd : kend ≤ s.d) (hn : kmin + (zeros + n) = kend) :
    Keep s (zeroLoop kmin kend n zeros s).2 ∧ (zeroLoop kmin kend n zeros s).1 ≤ zeros + n := by
  induction n generalizing zeros s with
  | zero => exact ⟨.refl h, by simp [zeroLoop]⟩
  | succ n ih =>
    rw [zeroLoop]
    split_ifs
    · have k1 := moveRow_keep h (o := kmin) (n := kend - 1 - zeros) (by omega) (by omega)
      obtain ⟨k2, k3⟩ := ih (zeros + 1) _ k1.full (by rw [k1.good.cfg.d]; exact hd) (by omega)
      exact ⟨k1.trans k2, by omega⟩
    · exact ⟨.refl h, by omega⟩

theorem lovaszStep_keep (c : LLLCfg F) {kmin kend : ℕ} {st : LLLState F} (h : Full st.s) (hkd : kend ≤ st.s.d) (h1 : 1 ≤ st.kappa)
    (hlt : st.kappa < kend - st.zeros) : Keep st.s (lovaszStep c kmin kend st).s ∧ 1 ≤ (lovaszStep c kmin kend st).kappa := by
  unfold lovaszStep
  dsimp only
  have k1 := Keep.of_fo h (cacheGram_fo st.s st.kappa st.kappa)
  generalize st.s.cacheGram st.kappa st.kappa = s at *
  have hd : s.d = st.s.d := k1.good.cfg.d
  have hins := insertIdx_le c s (lovaszTests s st.kappa) kmin (st.kappa - 1)
  generalize insertIdx c s (lovaszTests s st.kappa) kmin (st.kappa - 1) = k at *
  split_ifs
  · have k2 := moveRow_keep k1.full (o := st.kappa) (n := k) (by omega) (by omega)
    exact ⟨k1.trans (k2.trans (.of_fo k2.full (setR_fo _ _ _ _))), by dsimp only; omega⟩
  · exact ⟨k1.trans (moveRow_keep k1.full (by omega) (by omega)), h1⟩
  · exact ⟨k1.trans (.of_fo k1.full (setR_fo _ _ _ _)), by dsimp only; omega⟩

theorem discoverStep_keep (c : LLLCfg F) (fuel srs : ℕ) {st : LLLState F} (h : Full st.s) (hlt : st.kappa ≤ st.s.d) :
    Keep st.s (discoverStep c fuel srs st).2.s ∧ (discoverStep c fuel srs st).2.kappa = st.kappa ∧
      (discoverStep c fuel srs st).2.zeros = st.zeros := by
  unfold discoverStep
  dsimp only
  split_ifs with h1 h2 h3
  · simp only [Bool.and_eq_true, Bool.not_eq_eq_eq_not, Bool.not_true, decide_eq_true_eq] at h2
    exact ⟨earlyReduction_keep c fuel h srs h2.1.1.2 hlt, rfl, rfl⟩
  · simp only [Bool.and_eq_true, Bool.not_eq_eq_eq_not, Bool.not_true, decide_eq_true_eq] at h2
    exact ⟨earlyReduction_keep c fuel h srs h2.1.1.2 hlt, rfl, rfl⟩
  · exact ⟨.refl h, rfl, rfl⟩
  · exact ⟨.refl h, rfl, rfl⟩

theorem mainLoop_keep (c : LLLCfg F) (fuel kmin srs : ℕ) {kend : ℕ} (n : ℕ) (st : LLLState F) (h : Full st.s) (hkd : kend ≤ st.s.d)
    (h1 : 1 ≤ st.kappa) : Keep st.s (LLL.mainLoop c fuel kmin kend srs n st).2.s := by
  induction n generalizing st with
  | zero => exact .refl h
  | succ n ih =>
    rw [LLL.mainLoop]
    dsimp only
    by_cases hlt : st.kappa < kend - st.zeros
    · rw [if_pos hlt]
      obtain ⟨k1, e1, e2⟩ := discoverStep_keep c fuel srs h (by omega)
      have hd1 := k1.good.cfg.d
      generalize discoverStep c fuel srs st = p at *
      have k2 := k1.trans (babai_keep c fuel k1.full srs (kappa := p.2.kappa) (stop := p.2.kappa) (by omega) le_rfl)
      have hd2 := k2.good.cfg.d
      generalize babai c fuel p.2.s p.2.kappa p.2.kappa srs = q at *
      obtain ⟨k3, e3⟩ := lovaszStep_keep c (kmin := kmin) (kend := kend) (st := { p.2 with s := q.2 }) k2.full (by dsimp only; omega) (by dsimp only; omega)
        (by dsimp only; omega)
      split_ifs
      · exact k1
      · exact k2
      · exact k2.trans (k3.trans (ih _ k3.full (by rw [k3.good.cfg.d]; change kend ≤ q.2.d; omega) e3))
    · rw [if_neg hlt]; exact .refl h

theorem startStep_keep (c : LLLCfg F) (fuel : ℕ) {s : GSO F} (h : Full s) {k : ℕ} (srs : ℕ) (hk : k < s.d) :
    Keep s (startStep c fuel s k srs).2 := by
  unfold startStep
  have k1 : Keep s (if 0 < k then babai c fuel s k k srs else (.success, s)).2 := by
    split_ifs
    · exact babai_keep c fuel h srs hk le_rfl
    · exact .refl h
  generalize (if 0 < k then babai c fuel s k k srs else (.success, s)) = p at k1
  unfold startTail
  dsimp only
  have hd := k1.good.cfg.d
  have k2 := k1.trans (updateGsoRow_keep k1.full (i := k) (by omega) (k + 1))
  split_ifs
  · exact k1
  · exact k2
  · exact k2

theorem lll_keep (c : LLLCfg F) (fuel maxIter last : ℕ) {s : GSO F} (h : Full s) {kmin kstart kend : ℕ} (srs : ℕ) (h1 : kmin ≤ kstart)
    (h2 : kstart < kend) (h3 : kend ≤ s.d) : Keep s (LLL.lll c fuel maxIter last s kmin kstart kend srs).2.s := by
  unfold LLL.lll
  dsimp only
  obtain ⟨z1, z2⟩ := zeroLoop_keep kmin kend (kend - kmin) 0 s h h3 (by omega)
  generalize zeroLoop kmin kend (kend - kmin) 0 s = z at *
  have hd := z1.good.cfg.d
  have k1 : Keep s (if z.1 < kend - kmin then startStep c fuel z.2 kstart srs else (.success, z.2)).2 := by
    split_ifs
    · exact z1.trans (startStep_keep c fuel z1.full srs (by omega))
    · exact z1
  generalize (if z.1 < kend - kmin then startStep c fuel z.2 kstart srs else (.success, z.2)) = p at k1
  have hd1 := k1.good.cfg.d
  unfold lllTail
  split_ifs
  · exact k1
  · have k2 := k1.trans (mainLoop_keep c fuel kmin srs (kend := kend) maxIter
      { s := p.2, kappa := kstart + 1, kappaMax := 0, zeros := z.1, nSwaps := 0, lastEarlyRed := last } k1.full (by dsimp only; omega)
      (by dsimp only; omega))
    dsimp only
    generalize LLL.mainLoop c fuel kmin kend srs maxIter _ = q at *
    unfold lllFinish
    split_ifs
    · exact k2
    · exact k2.trans (symmetrizeG_keep k2.full)
    · exact k2
    · exact k2.trans (symmetrizeG_keep k2.full)
    · exact k2

theorem sizeReductionLoop_keep (c : LLLCfg F) (fuel srs n k : ℕ) (s : GSO F) (h : Full s) (hd : k + n ≤ s.d) :
    Keep s (sizeReductionLoop c fuel srs n k s).2 := by
  induction n generalizing k s with
  | zero => exact .refl h
  | succ n ih =>
    have k1 := startStep_keep c fuel h (k := k) srs (by omega)
    rw [sizeReductionLoop]
    split_ifs
    · exact k1.trans (ih (k + 1) _ k1.full (by rw [k1.good.cfg.d]; omega))
    · exact k1

/-! ## Changes that the transform does not follow -/

/-- `b` is multiplied by a unimodular matrix -/
def UniB (s s' : GSO F) : Prop :=
  ∃ T T' : Matrix (Fin s.d) (Fin s.d) ℤ, T * T' = 1 ∧ T' * T = 1 ∧ toM s.d s.nCols s'.b = T * toM s.d s.nCols s.b

theorem uniB_of_uni {s s' : GSO F} (h : Uni s s') : UniB s s' := by
  obtain ⟨T, T', h1, h2, h3, _⟩ := h
  exact ⟨T, T', h1, h2, h3⟩

theorem UniB.trans {s t v : GSO F} (hc : SameCfg s t) (h1 : UniB s t) (h2 : UniB t v) : UniB s v := by
  obtain ⟨d, nCols, intGram, withU, withUinv, forceLong, _, _, _, _, _, b, u, w, _, _, _, _, _, _⟩ := t
  obtain ⟨h_d, h_n, _, h_u, h_v, _⟩ := hc
  dsimp at h_d h_n h_u h_v
  subst h_d h_n h_u h_v
  obtain ⟨T1, T1', a1, a2, a3⟩ := h1
  obtain ⟨T2, T2', c1, c2, c3⟩ := h2
  dsimp at a3 c3 T2 T2' c1 c2
  refine ⟨T2 * T1, T1' * T2', ?_, ?_, ?_⟩
  · rw [Matrix.mul_assoc, ← Matrix.mul_assoc T1, a1, Matrix.one_mul, c1]
  · rw [Matrix.mul_assoc, ← Matrix.mul_assoc T2', c2, Matrix.one_mul, a2]
  · rw [c3, a3, Matrix.mul_assoc]

/-- unimodular operations that keep all rows known; the transforms follow unless `bad` -/
structure Keeps (bad : Bool) (s s' : GSO F) : Prop where
  full : Full s'
  cfg : SameCfg s s'
  uniB : UniB s s'
  uni : bad = false → Uni s s'

theorem Keep.keeps {s s' : GSO F} (h : Keep s s') (bad : Bool) : Keeps bad s s' :=
  ⟨h.full, h.good.cfg, uniB_of_uni h.good.uni, fun _ => h.good.uni⟩

theorem Keeps.trans {b1 b2 : Bool} {s t v : GSO F} (h1 : Keeps b1 s t) (h2 : Keeps b2 t v) : Keeps (b1 || b2) s v :=
  ⟨h2.full, h1.cfg.trans h2.cfg, h1.uniB.trans h1.cfg h2.uniB, fun h => by
    rw [Bool.or_eq_false_iff] at h
    exact (h1.uni h.1).trans h1.cfg (h2.uni h.2)⟩

theorem Keeps.weaken {b1 b2 : Bool} {s t : GSO F} (h : Keeps b1 s t) (hb : b2 = false → b1 = false) : Keeps b2 s t :=
  ⟨h.full, h.cfg, h.uniB, fun h2 => h.uni (hb h2)⟩

theorem Keeps.trans' {b : Bool} {s t v : GSO F} (h1 : Keeps b s t) (h2 : Keeps b t v) : Keeps b s v :=
  (h1.trans h2).weaken (by simp)

theorem Keeps.then {b : Bool} {s t v : GSO F} (h1 : Keeps b s t) (h2 : Keep t v) : Keeps b s v := h1.trans' (h2.keeps b)

theorem rowSwap_keeps {s : GSO F} (h : Full s) {i j : ℕ} (hij : i < j) (hj : j < s.d) : Keeps s.withUinv s (s.rowSwap i j) := by
  by_cases hi : s.withUinv = false
  · exact (Keep.of_dims h (rowSwap_good h.wf hij (by rw [h.source]; exact hj) hi) rfl rfl).keeps _
  · have h1 : Full ({ s with withUinv := false } : GSO F) :=
      ⟨⟨h.wf.src_le, h.wf.known_le, h.wf.unlocked, h.wf.cols_pos, h.wf.cols_le, h.wf.init_le, h.wf.zeroSrc, h.wf.zeroNew, h.wf.lockGram,
        h.wf.gram⟩, h.known, h.source⟩
    have g := rowSwap_good (s := { s with withUinv := false }) h1.wf hij (by rw [h1.source]; exact hj) rfl
    refine ⟨⟨⟨g.wf.src_le, g.wf.known_le, g.wf.unlocked, g.wf.cols_pos, g.wf.cols_le, g.wf.init_le, g.wf.zeroSrc, g.wf.zeroNew, g.wf.lockGram,
        g.wf.gram⟩, h.known, h.source⟩, ⟨rfl, rfl, rfl, rfl, rfl, rfl⟩, (by obtain ⟨T, T', a1, a2, a3, _⟩ := g.uni; exact ⟨T, T', a1, a2, a3⟩), fun hb => absurd hb hi⟩

theorem negateRow_b' (s : GSO F) (i k c : ℕ) :
    (s.negateRowOfB i).b k c = if k = i ∧ c < s.nCols then -(s.b k c) else s.b k c := by
  have := forUp_inv (P := fun m (w : ℕ → ℤ) => ∀ c, w c = if c < m then -(s.b i c) else s.b i c)
    (fun j row => setAt row j (-(row j))) (Nat.zero_le s.nCols) (s.b i) (by intro c; simp)
    (by intro m w _ _ hw c; unfold setAt; rw [hw, hw]; grind)
  unfold negateRowOfB
  dsimp only
  rw [setAt_mat]
  split_ifs with h1 h2 h2
  · rw [this]; grind
  · rw [this]; grind
  · exact absurd h2.1 h1
  · rfl

theorem negateRow_gram {s : GSO F} (hs : WF s) (i : ℕ) (hG : s.intGram = true) (p : ℕ) (hp : p < s.nKnownRows) (q : ℕ)
    (hq : q < s.nKnownRows) : symGet (s.negateRowOfB i).g p q = (s.negateRowOfB i).ip p q := by
  have hknown := hs.known_le
  have key : ∀ p < s.nKnownRows, ∀ q ≤ p, symGet (s.negateRowOfB i).g p q =
      (if p = i then -1 else 1) * (if q = i then -1 else 1) * symGet s.g p q := by
    intro p hp q hqp
    rw [symGet_of_le _ hqp, symGet_of_le _ hqp]
    have := forUp_inv (P := fun m (w : Mat ℤ) => ∀ a b, b ≤ a → w a b =
        if (a = i ∧ b < i ∧ b < m) ∨ (b = i ∧ i < a ∧ a < m) then -(s.g a b) else s.g a b)
      (fun j (g : Mat ℤ) => if j < i then Mat.set g i j (-(g i j))
        else if i < j then Mat.set g j i (-(g j i)) else g) (Nat.zero_le s.d) s.g
      (by intro a b _; simp)
      (by
        intro m w _ hm hw a b hab
        have e1 := hw i m
        have e2 := hw m i
        have e3 := hw a b hab
        rcases lt_trichotomy m i with h | h | h
        · rw [if_pos h, Mat.set_apply]; grind
        · subst h; simp only [lt_irrefl, if_false]; grind
        · rw [if_neg (by omega), if_pos h, Mat.set_apply]; grind)
    have e : (s.negateRowOfB i).g = forUp 0 s.d (fun j (g : Mat ℤ) =>
        if j < i then Mat.set g i j (-(g i j))
        else if i < j then Mat.set g j i (-(g j i)) else g) s.g := by
      unfold negateRowOfB; dsimp only; rw [if_pos hG]
    rw [e, this p q hqp]
    have : p < s.d := by omega
    grind
  have hb' : ∀ k c, c < s.nCols → (s.negateRowOfB i).b k c = (if k = i then -1 else 1) * s.b k c := by
    intro k c hc
    rw [negateRow_b']; split_ifs <;> grind
  have hsum : (s.negateRowOfB i).ip p q = (if p = i then -1 else 1) * (if q = i then -1 else 1) * s.ip p q := by
    unfold GSO.ip
    rw [Finset.mul_sum]
    refine Finset.sum_congr rfl ?_
    intro c hc
    change c ∈ Finset.range s.nCols at hc
    rw [Finset.mem_range] at hc
    rw [hb' p c hc, hb' q c hc]; ring
  rw [hsum, ← hs.gram hG p hp q hq]
  by_cases hpq : q ≤ p
  · exact key p hp q hpq
  · rw [symGet_comm, key q hq p (by omega), symGet_comm]; ring

theorem negateRow_keeps {s : GSO F} (h : Full s) (i : ℕ) : Keeps true s (s.negateRowOfB i) := by
  refine ⟨⟨⟨h.wf.src_le, h.wf.known_le, h.wf.unlocked, h.wf.cols_pos, h.wf.cols_le, h.wf.init_le, ?_, ?_, h.wf.lockGram, ?_⟩, h.known, h.source⟩,
    ⟨rfl, rfl, rfl, rfl, rfl, rfl⟩, ?_, nofun⟩
  · intro k hk c hc h1
    rw [negateRow_b', h.wf.zeroSrc k hk c hc h1]; simp
  · intro k hk1 hk2 c hc h1 h2
    rw [negateRow_b', h.wf.zeroNew k hk1 hk2 c hc h1 h2]; simp
  · intro hG p hp q hq
    exact negateRow_gram h.wf i hG p hp q hq
  · let D : Matrix (Fin s.d) (Fin s.d) ℤ := Matrix.diagonal (fun k => if (k : ℕ) = i then -1 else 1)
    have hD : D * D = 1 := by
      simp only [D, Matrix.diagonal_mul_diagonal]
      rw [← Matrix.diagonal_one]
      congr 1; funext k; split_ifs <;> simp
    refine ⟨D, D, hD, hD, ?_⟩
    ext k c
    simp only [D, Matrix.diagonal_mul, toM, negateRow_b', c.2, and_true]
    split_ifs <;> simp

/-! ## Generic insertion -/

/-- outcome of the gcd computation -/
def GAll (P : GState F → Prop) (m : Out (GState F) Unit) : Prop := m.All P (fun _ => False)

theorem GAll.bind {P : GState F → Prop} {m : Out (GState F) Unit} {f : Unit → GState F → Out (GState F) Unit} (hm : GAll P m)
    (hf : ∀ g, P g → GAll P (f () g)) : GAll P (m.bind f) := Out.All.bind hm fun _ s hs => hf s hs

theorem negateLoop_keeps {s : GSO F} (h : Full s) (x : ℕ → F) (kappa d : ℕ) :
    Keeps (decide (∃ i < d, lt (x i) (ofInt 0) = true)) s (negateLoop kappa d ⟨x, s⟩).s := by
  have key := forUp_inv (P := fun n (g : GState F) => (∀ i, n ≤ i → g.x i = x i) ∧
      Keeps (decide (∃ i < n, lt (x i) (ofInt 0) = true)) s g.s)
    (fun i g => if lt (g.x i) (ofInt 0) then ⟨setAt g.x i (neg (g.x i)), g.s.negateRowOfB (kappa + i)⟩ else g) (Nat.zero_le d)
    ⟨x, s⟩ ⟨fun _ _ => rfl, (Keep.refl h).keeps _⟩ (by
      rintro i g _ _ ⟨h1, h2⟩
      have e : g.x i = x i := h1 i le_rfl
      split_ifs with hlt
      · refine ⟨fun j hj => ?_, (h2.trans (negateRow_keeps h2.full (kappa + i))).weaken fun hf => ?_⟩
        · dsimp only [setAt]
          rw [if_neg (by omega)]; exact h1 j (by omega)
        · rw [decide_eq_false_iff_not] at hf
          exact absurd ⟨i, by omega, e ▸ hlt⟩ hf
      · refine ⟨fun j hj => h1 j (by omega), h2.weaken fun hf => ?_⟩
        rw [decide_eq_false_iff_not] at hf ⊢
        rintro ⟨j, hj, hj2⟩
        exact hf ⟨j, by omega, hj2⟩)
  exact key.2

section generic
variable {s0 : GSO F} {bad : Bool}

/-- invariant of the gcd computation -/
def GI (bad : Bool) (s0 : GSO F) (g : GState F) : Prop := Keeps bad s0 g.s

theorem swapPair_inv (hb : bad = false → s0.withUinv = false) {kappa k off : ℕ} (hoff : 1 ≤ off) (hk : off ≤ k) (hd : kappa + k < s0.d)
    {g : GState F} (h : GI bad s0 g) : GI bad s0 (swapPair kappa k off g) := by
  have h' : Keeps bad s0 g.s := h
  have hd' := h'.cfg.d
  refine (h'.trans (rowSwap_keeps h'.full (i := kappa + k - off) (j := kappa + k) (by omega) (by omega))).weaken fun h1 => ?_
  rw [h1, h'.cfg.withUinv, hb h1]; rfl

theorem subPair_inv {kappa k off : ℕ} (dual : Bool) (hoff : 1 ≤ off) (hk : off ≤ k) (hd : kappa + k < s0.d)
    {g : GState F} (h : GI bad s0 g) : GI bad s0 (subPair kappa k off dual g) := by
  have h' : Keeps bad s0 g.s := h
  have hd' := h'.cfg.d
  unfold subPair GI
  dsimp only
  split_ifs
  · exact h'.then (rowSub_keep h'.full (by omega) (by omega) (by omega))
  · exact h'.then (rowAdd_keep h'.full (by omega) (by omega) (by omega))

theorem euclid_inv (hb : bad = false → s0.withUinv = false) {kappa k off : ℕ} (dual : Bool) (hoff : 1 ≤ off) (hk : off ≤ k)
    (hd : kappa + k < s0.d) (n : ℕ) (g : GState F) (h : GI bad s0 g) : GAll (GI bad s0) (euclid kappa k off dual n g) := by
  induction n generalizing g with
  | zero => exact h
  | succ n ih =>
    rw [euclid]
    split_ifs
    · exact h
    · exact ih _ (subPair_inv dual hoff hk hd h)
    · exact ih _ (swapPair_inv hb hoff hk hd h)

theorem pairStep_inv (hb : bad = false → s0.withUinv = false) {kappa k off : ℕ} (fuel : ℕ) (dual : Bool) (hoff : 1 ≤ off) (hk : off ≤ k)
    (hd : kappa + k < s0.d) (g : GState F) (h : GI bad s0 g) : GAll (GI bad s0) (pairStep fuel kappa k off dual g) := by
  unfold pairStep
  split_ifs
  · exact h
  · exact euclid_inv hb dual hoff hk hd _ _ (swapPair_inv hb hoff hk hd h)
  · exact euclid_inv hb dual hoff hk hd _ _ h

theorem pairLoop_inv (hb : bad = false → s0.withUinv = false) {kappa off : ℕ} (fuel : ℕ) (dual : Bool) (hoff : 1 ≤ off) (n k : ℕ)
    (hd : kappa + k < s0.d) (g : GState F) (h : GI bad s0 g) : GAll (GI bad s0) (pairLoop fuel kappa off dual n k g) := by
  induction n generalizing k g with
  | zero => exact h
  | succ n ih =>
    rw [pairLoop]
    by_cases hk : off ≤ k
    · rw [if_pos hk]
      refine (pairStep_inv hb fuel dual hoff hk hd g h).bind fun g h => ?_
      split_ifs
      · exact ih _ (by omega) _ h
      · exact h
    · rw [if_neg hk]; exact h

theorem levelLoop_inv (hb : bad = false → s0.withUinv = false) {kappa d : ℕ} (fuel : ℕ) (dual : Bool) (n off : ℕ) (hoff : 1 ≤ off)
    (hd : kappa + d ≤ s0.d) (g : GState F) (h : GI bad s0 g) : GAll (GI bad s0) (levelLoop fuel kappa d dual n off g) := by
  induction n generalizing off g with
  | zero => exact h
  | succ n ih =>
    rw [levelLoop]
    split_ifs
    · exact (pairLoop_inv hb fuel dual hoff d (d - 1) (by omega) g h).bind fun g h => ih _ (by omega) _ h
    · exact h

theorem insertGeneric_inv (hs : Full s0) {kappa d : ℕ} (fuel : ℕ) (x : ℕ → F) (dual : Bool) (h1 : 1 ≤ d) (hd : kappa + d ≤ s0.d)
    (hb : bad = false → s0.withUinv = false ∧ ¬ ∃ i < d, lt (x i) (ofInt 0) = true) :
    GAll (GI bad s0) (insertGeneric fuel kappa d x dual s0) := by
  unfold insertGeneric
  refine (levelLoop_inv (fun h => (hb h).1) fuel dual d 1 le_rfl hd _
    ((negateLoop_keeps hs x kappa d).weaken fun h => by rw [decide_eq_false_iff_not]; exact (hb h).2)).bind fun g h => ?_
  have h' : Keeps bad s0 g.s := h
  have hd' := h'.cfg.d
  have k1 := rowOpEnd_keep h'.full kappa (kappa + d)
  have hd1 := k1.good.cfg.d
  dsimp only
  split_ifs
  · exact h'.then k1
  · exact h'.then (k1.trans (moveRow_keep k1.full (by omega) (by omega)))

end generic

/-! ## Insertion with a unit coordinate -/

theorem insertUnit_keep {s : GSO F} (h : Full s) (x : ℕ → F) {kappa d iv : ℕ} (dual : Bool) (hiv : iv < d) (hd : kappa + d ≤ s.d) :
    Keep s (insertUnit x kappa d iv dual s) := by
  unfold insertUnit
  dsimp only
  generalize (if dual = true then (getSiExp (x iv)).1 * -1 else (getSiExp (x iv)).1) = sol
  have k1 : Keep s (insertLoop x kappa d iv dual sol s) := by
    unfold insertLoop
    refine forUp_inv' (fun t => Keep s t) _ 0 d s (.refl h) fun i t _ hi ht => ?_
    have hd' := ht.good.cfg.d
    split_ifs with h1 h2
    · exact ht.trans (rowAddmulWe_keep ht.full (by omega) (by omega) (by omega) _)
    · exact ht.trans (rowAddmulWe_keep ht.full (by omega) (by omega) (by omega) _)
    · exact ht
  generalize insertLoop x kappa d iv dual sol s = t at k1
  have k2 : Keep s (if dual = true then t.rowOpEnd kappa (kappa + d) else t.rowOpEnd (kappa + iv) (kappa + iv + 1)) := by
    split_ifs
    · exact k1.trans (rowOpEnd_keep k1.full _ _)
    · exact k1.trans (rowOpEnd_keep k1.full _ _)
  generalize (if dual = true then t.rowOpEnd kappa (kappa + d) else t.rowOpEnd (kappa + iv) (kappa + iv + 1)) = v at k2
  have hd' := k2.good.cfg.d
  exact k2.trans (moveRow_keep k2.full (by omega) (by split_ifs <;> omega))

/-- what `scan` computes -/
theorem scan_spec (x : ℕ → F) (d : ℕ) :
    (scan x d).1 = ((List.range d).filter fun i => !isZero (x i)).length ∧
    (∀ iv, (scan x d).2 = some iv → iv < d ∧ isZero (x iv) = false ∧ isUnit (x iv) = true) ∧
    ((scan x d).2 = none → ∀ i < d, isZero (x i) = false → isUnit (x i) = false) := by
  unfold scan
  have key := forDown_inv (P := fun n (p : ℕ × Option ℕ) =>
      p.1 + ((List.range n).filter fun i => !isZero (x i)).length = ((List.range d).filter fun i => !isZero (x i)).length ∧
      (∀ iv, p.2 = some iv → iv < d ∧ isZero (x iv) = false ∧ isUnit (x iv) = true) ∧
      (p.2 = none → ∀ i < d, n ≤ i → isZero (x i) = false → isUnit (x i) = false))
    (fun i (p : ℕ × Option ℕ) => if isZero (x i) then p
      else (p.1 + 1, if p.2 = none ∧ isUnit (x i) = true then some i else p.2)) (Nat.zero_le d) (0, none)
    ⟨by simp, nofun, fun _ i h1 h2 => by omega⟩ (by
      rintro i ⟨p1, p2⟩ _ hi ⟨h1, h2, h3⟩
      rw [List.range_succ, List.filter_append, List.length_append] at h1
      dsimp only at h1 h2 h3 ⊢
      by_cases hz : isZero (x i) = true
      · rw [if_pos hz]
        refine ⟨by simpa [hz] using h1, h2, fun hn j hj hij hzj => ?_⟩
        rcases Nat.eq_or_lt_of_le hij with rfl | hlt
        · rw [hz] at hzj; cases hzj
        · exact h3 hn j hj hlt hzj
      · rw [if_neg hz]
        have hz' : isZero (x i) = false := by simpa using hz
        refine ⟨by simp [hz'] at h1 ⊢; omega, fun iv hv => ?_, fun hn j hj hij hzj => ?_⟩
        · dsimp only at hv
          split_ifs at hv with hc
          · cases hv; exact ⟨hi, hz', hc.2⟩
          · exact h2 iv hv
        · dsimp only at hn
          split_ifs at hn with hc
          rcases Nat.eq_or_lt_of_le hij with rfl | hlt
          · by_contra hu; exact hc ⟨hn, by simpa using hu⟩
          · exact h3 hn j hj hlt hzj)
  exact ⟨by simpa using key.1, key.2.1, fun hn i hi => key.2.2 hn i hi (Nat.zero_le i)⟩

/-! ## The state of a BKZ object -/

/-- everything BKZ preserves, relative to the object `s0` it started with -/
def Inv (s0 : GSO F) (w : W F) : Prop := Keeps w.bad s0 w.s

theorem Inv.keep {s0 : GSO F} {w : W F} (h : Inv s0 w) {s' : GSO F} (k : Keep w.s s') {t l : ℕ} : Inv s0 ⟨s', t, l, w.bad⟩ :=
  Keeps.then h k

theorem Inv.d {s0 : GSO F} {w : W F} (h : Inv s0 w) : w.s.d = s0.d := h.cfg.d

theorem Inv.tick {s0 : GSO F} {w : W F} (h : Inv s0 w) : Inv s0 w.tick := h

section svp
variable {s0 : GSO F} {Q : W F → Prop} (c : SvpCfg F) (o : Orc F)

theorem lllOp_all {w : W F} (h : Inv s0 w) {lo start hi : ℤ} (h0 : 0 ≤ lo) (h1 : lo ≤ start) (h2 : start < hi) (h3 : hi ≤ s0.d) :
    (lllOp c o lo start hi w).All (Inv s0) Q := by
  unfold lllOp
  rw [if_pos ⟨h0, h1, h2, by rw [h.d]; exact h3⟩]
  exact h.keep (lll_keep _ _ _ _ h.full 0 (by omega) (by omega) (by rw [h.d]; omega))

theorem sizeRedOp_all {w : W F} (h : Inv s0 w) {lo hi : ℤ} (start : ℤ) (h0 : 0 ≤ lo) (h1 : lo ≤ hi) (h3 : hi ≤ s0.d) :
    (sizeRedOp c lo hi start w).All (Inv s0) Q := by
  unfold sizeRedOp
  rw [if_pos ⟨h0, h1, by rw [h.d]; exact h3⟩]
  exact h.keep (sizeReductionLoop_keep _ _ _ _ _ _ h.full (by rw [h.d]; omega))

/-- like `Out.All`, with a condition on the result -/
def Out.AllR {σ α : Type} (P : σ → Prop) (Q : σ → Prop) (R : α → Prop) : Out σ α → Prop
  | .ok a s => P s ∧ R a
  | .thrown s => P s
  | .stuck s => P s
  | .ub s => Q s

theorem Out.AllR.bind {σ α β : Type} {P Q : σ → Prop} {R : α → Prop} {m : Out σ α} {f : α → σ → Out σ β} (hm : m.AllR P Q R)
    (hf : ∀ a s, R a → P s → (f a s).All P Q) : (m.bind f).All P Q := by
  cases m with
  | ok a s => exact hf a s hm.2 hm.1
  | thrown s => exact hm
  | stuck s => exact hm
  | ub s => exact hm

theorem drawOther_all {w : W F} (h : Inv s0 w) (lo : ℕ) {m : ℕ} (hm : 1 ≤ m) (a n : ℕ) :
    (drawOther o lo m a n w).AllR (Inv s0) Q (fun b => lo ≤ b ∧ b < lo + m) := by
  induction n generalizing w with
  | zero => exact h
  | succ n ih =>
    rw [drawOther]
    split_ifs
    · exact ih (w := w.tick) h
    · have := Nat.mod_lt (o.rnd w.t) hm
      exact ⟨h, by omega, by omega⟩

theorem permuteLoop_all {lo m : ℕ} (hm : 1 ≤ m) (hd : lo + m ≤ s0.d) (n : ℕ) {w : W F} (h : Inv s0 w) :
    (permuteLoop c o lo m n w).All (Inv s0) Q := by
  induction n generalizing w with
  | zero => exact h
  | succ n ih =>
    rw [permuteLoop]
    have ha := Nat.mod_lt (o.rnd w.t) hm
    generalize o.rnd w.t % m = a at ha
    refine (drawOther_all o (w := w.tick) h lo hm (a + lo) _).bind fun b w hb hw => ih (hw.keep (moveRow_keep hw.full ?_ ?_))
    · rw [hw.d]; omega
    · rw [hw.d]; omega

theorem mixLoop_inv (density : ℕ) {lo hi : ℕ} (hd : hi ≤ s0.d) {w : W F} (h : Inv s0 w) : Inv s0 (mixLoop o density lo hi w) := by
  unfold mixLoop
  refine forUp_inv' (Inv s0) _ _ _ _ h fun a w _ ha hw => ?_
  refine forUp_inv' (Inv s0) _ _ _ _ hw fun _ w _ _ hw => ?_
  unfold mixStep
  have hm := Nat.mod_lt (o.rnd w.t) (show 0 < hi - (a + 1) - 1 by omega)
  generalize o.rnd w.t % (hi - (a + 1) - 1) = b at hm
  dsimp only
  have hd' := hw.d
  split_ifs
  · exact hw.keep (rowAdd_keep hw.full (by omega) (by omega) (by omega))
  · exact hw.keep (rowSub_keep hw.full (by omega) (by omega) (by omega))

theorem rerandomize_all {lo hi : ℕ} (hd : hi ≤ s0.d) {w : W F} (h : Inv s0 w) : (rerandomize c o lo hi w).All (Inv s0) Q := by
  unfold rerandomize
  by_cases h2 : hi - lo < 2
  · rw [if_pos h2]; exact h
  rw [if_neg h2]
  refine (permuteLoop_all c o (by omega) (by omega) _ h).bind fun _ w hw => ?_
  have hw' := mixLoop_inv o c.density (lo := lo) hd hw
  exact hw'.keep (rowOpEnd_keep hw'.full _ _)

/-- the only non-zero coordinate of a vector is not `±1` -/
def LoneNonUnit (x : ℕ → F) (d : ℕ) : Prop :=
  ∃ i < d, isZero (x i) = false ∧ isUnit (x i) = false ∧ ∀ j < d, j ≠ i → isZero (x j) = true

theorem loneNonUnit_of_scan {x : ℕ → F} {d : ℕ} (h1 : (scan x d).1 = 1) (h2 : (scan x d).2 = none) : LoneNonUnit x d := by
  obtain ⟨e1, _, e3⟩ := scan_spec x d
  rw [h1] at e1
  obtain ⟨i, hi⟩ := List.length_eq_one_iff.1 e1.symm
  have hm : ∀ j, (j < d ∧ isZero (x j) = false) ↔ j = i := by
    intro j
    have : j ∈ (List.range d).filter (fun i => !isZero (x i)) ↔ j ∈ [i] := by rw [hi]
    simpa using this
  obtain ⟨hid, hz⟩ := (hm i).2 rfl
  refine ⟨i, hid, hz, e3 h2 i hid hz, fun j hj hji => ?_⟩
  by_contra hh
  exact hji ((hm j).1 ⟨hj, by simpa using hh⟩)

theorem postprocess_all {kappa d : ℕ} (x : ℕ → F) (dual : Bool) (h1 : 1 ≤ d) (hd : kappa + d ≤ s0.d) {w : W F} (h : Inv s0 w)
    (hQ : LoneNonUnit x d → Q w) : (postprocess c kappa d x dual w).All (Inv s0) Q := by
  unfold postprocess
  obtain ⟨_, e2, _⟩ := scan_spec x d
  have e4 := loneNonUnit_of_scan (x := x) (d := d)
  have hd' := h.d
  dsimp only
  generalize hp : (scan x d).2 = p2 at *
  by_cases hn : (scan x d).1 = 1
  · rw [if_pos hn]
    cases p2 with
    | none => exact hQ (e4 hn rfl)
    | some iv =>
      obtain ⟨hiv, _⟩ := e2 iv rfl
      exact h.keep (moveRow_keep h.full (by omega) (by split_ifs <;> omega))
  · rw [if_neg hn]
    cases p2 with
    | some iv =>
      obtain ⟨hiv, _⟩ := e2 iv rfl
      exact h.keep (insertUnit_keep h.full x dual hiv (by omega))
    | none =>
      have g := insertGeneric_inv (bad := w.s.withUinv || decide (∃ i < d, lt (x i) (ofInt 0) = true)) h.full (kappa := kappa) (d := d) c.inner x dual h1
        (by omega) (fun hb => by rw [Bool.or_eq_false_iff, decide_eq_false_iff_not] at hb; exact hb)
      have h' : Keeps w.bad s0 w.s := h
      dsimp only
      rw [Bool.or_assoc]
      generalize (w.s.withUinv || decide (∃ i < d, lt (x i) (ofInt 0) = true)) = b at g
      generalize insertGeneric c.inner kappa d x dual w.s = m at g
      cases m with
      | ok a g' => exact h'.trans g
      | thrown g' => exact h'.trans g
      | stuck g' => exact h'.trans g
      | ub g' => exact False.elim g

variable {tour : ℤ → ℤ → ℤ → W F → Out (W F) Bool}

theorem preprocLoop_all {lo hi : ℤ} {l : List ℤ} (ht : ∀ b ∈ l, ∀ w, Inv s0 w → (tour b lo hi w).All (Inv s0) Q) {w : W F} (h : Inv s0 w) :
    (preprocLoop tour lo hi l w).All (Inv s0) Q := by
  induction l generalizing w with
  | nil => exact h
  | cons b l ih =>
    rw [preprocLoop]
    exact (ht b (List.mem_cons_self ..) w h).bind fun _ w hw => ih (fun b hb => ht b (List.mem_cons_of_mem _ hb)) hw

theorem preprocess_all {bounded : Bool} {kappa bs : ℤ} (h0 : 0 ≤ kappa) (h1 : 1 ≤ bs) (hd : kappa + bs ≤ s0.d)
    (ht : ∀ b ∈ o.preproc bs, ∀ w, Inv s0 w → (tour b kappa (kappa + bs) w).All (Inv s0) Q) {w : W F} (h : Inv s0 w) :
    (preprocess c o bounded tour kappa bs w).All (Inv s0) Q := by
  unfold preprocess
  refine (lllOp_all c o h (by split_ifs <;> omega) le_rfl (by split_ifs <;> omega) hd).bind fun r w hw => ?_
  by_cases hr : r.1 = false
  · rw [if_pos hr]; exact hw
  · rw [if_neg hr]; exact preprocLoop_all ht hw

theorem svpLoop_all {bounded : Bool} {kappa bs : ℤ} (dual : Bool) (h0 : 0 ≤ kappa) (h1 : 1 ≤ bs) (hd : kappa + bs ≤ s0.d)
    (ht : ∀ b ∈ o.preproc bs, ∀ w, Inv s0 w → (tour b kappa (kappa + bs) w).All (Inv s0) Q)
    (hQ : ∀ w x, Inv s0 w → o.enum w.t kappa bs dual w.s = some x → LoneNonUnit x bs.toNat → Q w.tick) (n it : ℕ) (rerand : Bool)
    {w : W F} (h : Inv s0 w) :
    (svpLoop c o bounded tour kappa bs dual n it rerand w).All (Inv s0) Q := by
  induction n generalizing it rerand w with
  | zero => exact h
  | succ n ih =>
    rw [svpLoop]
    by_cases hm : o.more w.t it = false
    · rw [if_pos hm]; exact h
    rw [if_neg hm]
    refine Out.All.bind (α := Unit) ?_ fun _ w hw => (preprocess_all c o h0 h1 hd ht hw).bind fun _ w hw => ?_
    · split_ifs
      · exact rerandomize_all c o (by omega) (w := w.tick) h
      · exact h
    · cases he : o.enum w.t kappa bs dual w.s with
      | none => exact ih _ true (w := w.tick) hw
      | some x =>
        exact (postprocess_all c x dual (by omega) (by omega) (w := w.tick) hw (fun hl => hQ w x hw he hl)).bind fun _ w hw => ih _ false hw

theorem svpReduction_all {bounded : Bool} {kappa bs : ℤ} (dual : Bool) (h0 : 0 ≤ kappa) (h1 : 1 ≤ bs) (hd : kappa + bs ≤ s0.d)
    (ht : ∀ b ∈ o.preproc bs, ∀ w, Inv s0 w → (tour b kappa (kappa + bs) w).All (Inv s0) Q)
    (hQ : ∀ w x, Inv s0 w → o.enum w.t kappa bs dual w.s = some x → LoneNonUnit x bs.toNat → Q w.tick)
    {w : W F} (h : Inv s0 w) :
    (svpReduction c o bounded tour kappa bs dual w).All (Inv s0) Q := by
  unfold svpReduction
  rw [if_pos ⟨h0, h1, by rw [h.d]; exact hd⟩]
  have hf : (if dual = true then kappa + bs - 1 else kappa) + 1 ≤ s0.d ∧ 0 ≤ (if dual = true then kappa + bs - 1 else kappa) + 1 := by
    split_ifs <;> omega
  generalize (if dual = true then kappa + bs - 1 else kappa) + 1 = f at hf
  refine (sizeRedOp_all c h 0 le_rfl hf.2 hf.1).bind fun r w hw => ?_
  split_ifs
  · exact hw
  refine (svpLoop_all c o dual h0 h1 hd ht hQ _ _ _ hw).bind fun _ w hw => (sizeRedOp_all c hw 0 le_rfl hf.2 hf.1).bind fun r w hw => ?_
  split_ifs
  · exact hw
  · exact hw

theorem svpOps_inv {n : ℤ} (hn : 1 ≤ n) (hd : n ≤ s0.d) (hpre : ∀ bs, ∀ b ∈ o.preproc bs, 1 ≤ b)
    (hQ : ∀ w x kappa bs dual, Inv s0 w → o.enum w.t kappa bs dual w.s = some x → LoneNonUnit x bs.toNat → Q w.tick) (depth : ℕ) (bounded : Bool) :
    OpsInv n (svpOps c o depth bounded) (Inv s0) Q := by
  have hs : ∀ w, Inv s0 w → Inv s0 { w with s := if w.s.intGram = true then w.s.symmetrizeG else w.s } := by
    intro w hw
    split_ifs
    · exact hw.keep (symmetrizeG_keep hw.full)
    · exact hw
  induction depth generalizing bounded with
  | zero =>
    exact ⟨fun _ _ _ _ _ _ _ h => h, fun w h => lllOp_all c o h le_rfl le_rfl (by omega) hd,
      fun k w h1 h2 h => sizeRedOp_all c h _ (by omega) (by omega) (by omega), hs, fun _ h => h⟩
  | succ depth ih =>
    refine ⟨fun kappa bs dual w h0 h1 h2 h => ?_, fun w h => lllOp_all c o h le_rfl le_rfl (by omega) hd,
      fun k w h1 h2 h => sizeRedOp_all c h _ (by omega) (by omega) (by omega), hs, fun _ h => h⟩
    exact svpReduction_all c o dual h0 h1 (by omega)
      (fun b hb w hw => tour_all (ih false) (hpre bs b hb) h0 (by omega) h2 hw) (fun w x hw he hl => hQ w x _ _ _ hw he hl) h

end svp

/-! ## A whole run -/

theorem discoverAllRows_good {s : GSO F} (hs : WF s) (hl : s.colsLocked = false) :
    Good s s.discoverAllRows ∧ s.discoverAllRows.nKnownRows = s.d ∧ s.discoverAllRows.colsLocked = false := by
  unfold discoverAllRows
  have key := forUp_inv (P := fun n (t : GSO F) => Good s t ∧ t.nKnownRows = n ∧ t.colsLocked = false)
    (fun _ (t : GSO F) => t.discoverRow) hs.known_le s ⟨.refl hs, rfl, hl⟩ (by
      rintro n t _ hn ⟨g, hk, hlk⟩
      exact ⟨g.trans (discoverRow_good g.wf (by rw [hk, g.cfg.d]; exact hn)), by rw [← hk]; rfl, hlk⟩)
  exact key

theorem updateGsoFrom_keep (n i : ℕ) {s : GSO F} (h : Full s) (hd : i + n ≤ s.d) : Keep s (updateGsoFrom n i s).2 := by
  induction n generalizing i s with
  | zero => exact .refl h
  | succ n ih =>
    rw [updateGsoFrom]
    have k := updateGsoRow_keep h (i := i) (by omega) (i + 1)
    split_ifs
    · exact k.trans (ih (i + 1) k.full (by rw [k.good.cfg.d]; omega))
    · exact k

theorem prepare_keep (sld : Bool) {s : GSO F} (hs : WF s) (hl : s.colsLocked = false) : Good s (prepare sld s) ∧ Full (prepare sld s) := by
  obtain ⟨g, hk, hlk⟩ := discoverAllRows_good hs hl
  have hf : Full s.discoverAllRows := ⟨g.wf, by rw [hk, g.cfg.d], by rw [g.wf.unlocked hlk, hk, g.cfg.d]⟩
  unfold prepare
  split_ifs
  · have k := updateGsoFrom_keep s.discoverAllRows.d 0 hf (by omega)
    exact ⟨g.trans k.good, k.full⟩
  · exact ⟨g, hf⟩

theorem slopeUpdate_keep {n : ℕ} {s : GSO F} (h : Full s) (hn : n ≤ s.d) : Keep s (slopeUpdate n s) := by
  unfold slopeUpdate
  refine forUp_inv' (fun t => Keep s t) _ 0 n s (.refl h) fun i t _ hi ht => ht.trans (updateGsoRow_keep ht.full ?_ _)
  rw [ht.good.cfg.d]; omega

theorem numRows_le (s : GSO F) (n : ℕ) : numRows s n ≤ n := by
  induction n with
  | zero => exact le_rfl
  | succ n ih => rw [numRows]; split_ifs <;> omega

theorem numRows_spec (s : GSO F) (n : ℕ) (i : ℕ) (hi : i < n) (h : numRows s n ≤ i) : ∀ c < s.nCols, s.b i c = 0 := by
  induction n with
  | zero => omega
  | succ n ih =>
    rw [numRows] at h
    split_ifs at h with hz
    · rcases Nat.lt_or_ge i n with hlt | hge
      · exact ih hlt h
      · obtain rfl : i = n := by omega
        unfold rowIsZero at hz
        exact of_decide_eq_true hz
    · omega

theorem runBKZ_all {D : Type} [LinearOrder D] [OrderTop D] {Q : W F → Prop} (c : SvpCfg F) (o : Orc F) (cfg : Cfg D)
    (timeUp : ℕ → W F → Bool) (slope : ℕ → W F → D) (depth inner fuel : ℕ) (w : W F) (hs : WF w.s) (hl : w.s.colsLocked = false)
    (hn : 1 ≤ numRows w.s w.s.d) (hsd : cfg.sd = true → cfg.blockSize ≤ numRows w.s w.s.d) (hpre : ∀ bs, ∀ b ∈ o.preproc bs, 1 ≤ b)
    (hQ : ∀ (w : W F) x kappa bs dual, o.enum w.t kappa bs dual w.s = some x → LoneNonUnit x bs.toNat → Q w.tick) :
    (runBKZ c o cfg timeUp slope depth inner fuel w).All
      (fun w' => SameCfg w.s w'.s ∧ WF w'.s ∧ UniB w.s w'.s ∧ (w.bad = false → w'.bad = false → Uni w.s w'.s)) Q := by
  unfold runBKZ
  dsimp only
  obtain ⟨g, hf⟩ := prepare_keep cfg.sld hs hl
  have hnle := numRows_le w.s w.s.d
  generalize numRows w.s w.s.d = n at *
  have hops : OpsInv (n : ℤ) (svpOps c o depth cfg.bounded) (Inv w.s) Q :=
    svpOps_inv c o (by omega) (by omega) hpre (fun w x kappa bs dual _ => hQ w x kappa bs dual) depth cfg.bounded
  have h0 : Inv w.s { w with s := prepare cfg.sld w.s } := ⟨hf, g.cfg, uniB_of_uni g.uni, fun _ => g.uni⟩
  have hfin : ∀ w', Inv w.s w' → SameCfg w.s w'.s ∧ WF w'.s ∧ UniB w.s w'.s ∧ (w.bad = false → w'.bad = false → Uni w.s w'.s) :=
    fun w' h => ⟨h.cfg, h.full.wf, h.uniB, fun _ hb => h.uni hb⟩
  have hrefl : SameCfg w.s w.s ∧ WF w.s ∧ UniB w.s w.s ∧ (w.bad = false → w.bad = false → Uni w.s w.s) :=
    ⟨.refl _, hs, uniB_of_uni (.of_eq rfl rfl rfl), fun _ _ => .of_eq rfl rfl rfl⟩
  have key := bkz_all' hops (by omega) (c := cfg) (fun h => by have := hsd h; omega)
    (e := ⟨timeUp, fun i w => (slope i w, { w with s := slopeUpdate n w.s })⟩)
    (fun i w' hw' => hw'.keep (slopeUpdate_keep hw'.full (by rw [hw'.d]; exact hnle)))
    (prep := fun w => { w with s := prepare cfg.sld w.s }) inner fuel h0 hrefl hfin
  exact key

end BKZ
end Fplll

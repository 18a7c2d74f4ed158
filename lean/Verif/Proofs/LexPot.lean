import Verif.Proofs.CleanAll
import Verif.Proofs.LLLCount
import Mathlib.Data.DFinsupp.WellFounded

/-!
# A potential for BKZ

In exact arithmetic the sequence of the determinants of the leading rows, in lexicographic order, never becomes larger: size reduction keeps it, LLL makes no
determinant larger, and the insertion of a short vector into the block that starts at row `k` keeps the first `k` of them and makes the next one smaller.
-/

open Finset

namespace Fplll
namespace Spec

/-- the Gram determinants after row `i` is moved up to position `k` -/
theorem gramDet_insert {d n k i : ℕ} {b b' : ℕ → ℕ → ℤ} {δ : ℚ} (hi : i < d)
    (hind : Indep d n (toQ b)) (hpre : ∀ j, j ≤ k ∨ i + 1 ≤ j → PreEq n j b b')
    (hlt : ∀ j < k, b' j = b j) (hk : b' k = b i) (hsh : ∀ j, k < j → j ≤ i → b' j = b (j - 1))
    (htest : ∀ j, k ≤ j → j < i → projSq n (toQ b) i j ≤ δ * normStar n (toQ b) j) (m : ℕ) (hm : m < d) :
    ((gramDet n b' (m + 1) : ℤ) : ℚ) ≤ (if k ≤ m ∧ m < i then δ else 1) * ((gramDet n b (m + 1) : ℤ) : ℚ) := by
  have hpos : ∀ m ≤ d, (0 : ℚ) < ((gramDet n b m : ℤ) : ℚ) := fun m hm => by exact_mod_cast gramDet_pos hind hm
  by_cases h : k ≤ m ∧ m < i
  · rw [if_pos h]
    let c : ℕ → ℕ → ℤ := fun l => if l = m then b i else b l
    have hc : PreEq n (m + 1) b' c := by
      refine preEq_of_rows ?_ ?_
      · intro j hj
        by_cases hjm : j = m
        · have : c j = b' k := by simp only [c]; rw [if_pos hjm, hk]
          rw [this]; exact InPre.row (by omega)
        · have : c j = b j := by simp only [c]; rw [if_neg hjm]
          rw [this]
          by_cases hjk : j < k
          · rw [← hlt j hjk]; exact InPre.row (by omega)
          · have e := hsh (j + 1) (by omega) (by omega)
            rw [Nat.add_sub_cancel] at e
            rw [← e]; exact InPre.row (by omega)
      · intro j hj
        by_cases hjk : j < k
        · have : b' j = c j := by simp only [c]; rw [if_neg (by omega), hlt j hjk]
          rw [this]; exact InPre.row (by omega)
        · by_cases hje : j = k
          · have : b' j = c m := by simp only [c, if_true]; rw [hje, hk]
            rw [this]; exact InPre.row (by omega)
          · have : b' j = c (j - 1) := by simp only [c]; rw [if_neg (by omega), hsh j (by omega) (by omega)]
            rw [this]; exact InPre.row (by omega)
    have e := gramDet_last (n := n) (m := m) (i := i) (b := b) (b' := c) (fun l hl _ _ => by simp only [c]; rw [if_neg (by omega)])
      (fun _ _ => by simp only [c]; rw [if_pos trivial])
    rw [← gramDet_pre hc, e]
    have e2 : ((gramDet n b (m + 1) : ℤ) : ℚ) = ((gramDet n b m : ℤ) : ℚ) * normStar n (toQ b) m := by
      rw [gramDet_eq, gramDet_eq, prod_range_succ]; rfl
    rw [e2]
    have := mul_le_mul_of_nonneg_left (htest m h.1 h.2) (hpos m (by omega)).le
    linarith
  · rw [if_neg h, one_mul, gramDet_pre (hpre (m + 1) (by omega))]

theorem gramDet_succ (n : ℕ) (b : ℕ → ℕ → ℤ) (m : ℕ) :
    ((gramDet n b (m + 1) : ℤ) : ℚ) = ((gramDet n b m : ℤ) : ℚ) * normStar n (toQ b) m := by
  rw [gramDet_eq, gramDet_eq, prod_range_succ]; rfl

theorem gramDet_nonneg (n : ℕ) (b : ℕ → ℕ → ℤ) (m : ℕ) : 0 ≤ gramDet n b m := by
  have : (0 : ℚ) ≤ ((gramDet n b m : ℤ) : ℚ) := by
    rw [gramDet_eq]
    exact prod_nonneg fun j _ => normStar_nonneg _ _ _
  exact_mod_cast this

/-- the determinants of the first `1, …, E` rows, in lexicographic order -/
def lexPot (E n : ℕ) (b : ℕ → ℕ → ℤ) : Lex (Fin E → ℕ) := toLex fun i => (gramDet n b (i + 1)).toNat

theorem lexPot_congr {E n : ℕ} {b b' : ℕ → ℕ → ℤ} (h : ∀ j ≤ E, gramDet n b' j = gramDet n b j) : lexPot E n b' = lexPot E n b := by
  unfold lexPot
  congr 1
  funext i
  rw [h _ (by omega)]

theorem lexPot_le {E n : ℕ} {b b' : ℕ → ℕ → ℤ} (h : ∀ j ≤ E, gramDet n b' j ≤ gramDet n b j) : lexPot E n b' ≤ lexPot E n b :=
  Pi.toLex_monotone fun i => Int.toNat_le_toNat (h _ (by omega))

theorem lexPot_lt {E n : ℕ} {b b' : ℕ → ℕ → ℤ} (h : ∀ j ≤ E, gramDet n b' j ≤ gramDet n b j) {m : ℕ} (hm : m < E)
    (hlt : gramDet n b' (m + 1) < gramDet n b (m + 1)) : lexPot E n b' < lexPot E n b := by
  refine Pi.toLex_strictMono (Pi.lt_def.2 ⟨fun i => Int.toNat_le_toNat (h _ (by omega)), ⟨m, hm⟩, ?_⟩)
  have := gramDet_nonneg n b' (m + 1)
  dsimp only
  omega

theorem lexPot_lt_at {E n k : ℕ} {b b' : ℕ → ℕ → ℤ} (hk : k < E) (h : ∀ j ≤ k, gramDet n b' j = gramDet n b j)
    (hlt : gramDet n b' (k + 1) < gramDet n b (k + 1)) : lexPot E n b' < lexPot E n b := by
  refine ⟨⟨k, hk⟩, fun j hj => ?_, ?_⟩
  · have hj : (j : ℕ) < k := hj
    change (gramDet n b' (j + 1)).toNat = (gramDet n b (j + 1)).toNat
    rw [h _ (by omega)]
  · change (gramDet n b' (k + 1)).toNat < (gramDet n b (k + 1)).toNat
    have := gramDet_nonneg n b' (k + 1)
    omega

end Spec

namespace BKZ

open FloatOps GSO LLL Spec

/-- no determinant of leading rows becomes larger; one becomes smaller if `sw` -/
structure Dn (e n : ℕ) (b b' : ℕ → ℕ → ℤ) (sw : Prop) : Prop where
  le : ∀ j ≤ e, gramDet n b' j ≤ gramDet n b j
  lt : sw → ∃ m < e, gramDet n b' (m + 1) < gramDet n b (m + 1)

theorem Dn.refl (e n : ℕ) (b : ℕ → ℕ → ℤ) {sw : Prop} (h : ¬ sw) : Dn e n b b sw := ⟨fun _ _ => le_rfl, fun hh => absurd hh h⟩

theorem Dn.of_eq {e n : ℕ} {b b' : ℕ → ℕ → ℤ} {sw : Prop} (h : ∀ j ≤ e, gramDet n b' j = gramDet n b j) (hs : ¬ sw) : Dn e n b b' sw :=
  ⟨fun j hj => (h j hj).le, fun hh => absurd hh hs⟩

theorem Dn.trans {e n : ℕ} {b b' b'' : ℕ → ℕ → ℤ} {p q r : Prop} (h1 : Dn e n b b' p) (h2 : Dn e n b' b'' q) (hr : r → p ∨ q) : Dn e n b b'' r := by
  refine ⟨fun j hj => (h2.le j hj).trans (h1.le j hj), fun hh => ?_⟩
  rcases hr hh with h | h
  · obtain ⟨m, hm, hlt⟩ := h1.lt h
    exact ⟨m, hm, lt_of_le_of_lt (h2.le _ (by omega)) hlt⟩
  · obtain ⟨m, hm, hlt⟩ := h2.lt h
    exact ⟨m, hm, lt_of_lt_of_le hlt (h1.le _ (by omega))⟩

theorem Dn.mono {e E n : ℕ} {b b' : ℕ → ℕ → ℤ} {sw : Prop} (h : Dn e n b b' sw) (hE : e ≤ E) (hp : ∀ j, e ≤ j → PreEq n j b b') : Dn E n b b' sw := by
  refine ⟨fun j hj => ?_, fun hh => ?_⟩
  · rcases Nat.le_total j e with hl | hl
    · exact h.le j hl
    · exact (gramDet_pre (hp j hl)).le
  · obtain ⟨m, hm, hlt⟩ := h.lt hh
    exact ⟨m, by omega, hlt⟩

theorem lovaszStep_dn (c : LLLCfg Exact) {η thr δ : ℚ} (hcfg : PCfg c η thr δ) (hδ : δ < 1) {a e : ℕ} {s0 : GSO Exact} {st : LLLState Exact}
    (he : e ≤ s0.d) (hind : Indep e s0.nCols (toQ s0.b)) (h : PInv a 0 e s0 st) (hlt : st.kappa < e)
    (hv : st.kappa ≤ st.s.gsoValidCols st.kappa) (hsr : ∀ j < st.kappa, |muS st.s.nCols st.s.bq st.kappa j| ≤ η) :
    st.nSwaps ≤ (lovaszStep c a e st).nSwaps ∧ Dn e s0.nCols st.s.b (lovaszStep c a e st).s.b (st.nSwaps < (lovaszStep c a e st).nSwaps) := by
  have hd0 : st.s.d = s0.d := h.mv.d
  have hind := h.mv.indep hind
  have hlo := h.lo
  rw [← h.mv.cols]
  unfold lovaszStep
  dsimp only
  have hwf := h.mv.st.full.wf
  have hf := h.mv.st.fresh
  have hkn := h.mv.st.full.known
  have hsn := h.mv.st.full.source
  have hk : st.kappa < st.s.nKnownRows := by rw [hkn]; omega
  have hg := gram_exact hwf hf hk (le_refl st.kappa) (by omega)
  have hf1 := cacheGram_fresh hwf hf hk (le_refl st.kappa) (by omega)
  have hk1 : st.kappa < (st.s.cacheGram st.kappa st.kappa).nKnownRows := hk
  have hv1 : st.kappa ≤ (st.s.cacheGram st.kappa st.kappa).gsoValidCols st.kappa := hv
  have hsr1 : ∀ j < st.kappa, |muS (st.s.cacheGram st.kappa st.kappa).nCols
    (toQ (st.s.cacheGram st.kappa st.kappa).b) st.kappa j| ≤ η := hsr
  have hh1 : ∀ k < st.kappa, k + 1 ≤ (st.s.cacheGram st.kappa st.kappa).gsoValidCols k := h.valid
  have hind1 : Indep e (st.s.cacheGram st.kappa st.kappa).nCols (toQ (st.s.cacheGram st.kappa st.kappa).b) := hind
  have hg1 : (st.s.cacheGram st.kappa st.kappa).gramVal st.kappa st.kappa =
      some (dotQ (st.s.cacheGram st.kappa st.kappa).nCols (toQ (st.s.cacheGram st.kappa st.kappa).b st.kappa)
        (toQ (st.s.cacheGram st.kappa st.kappa).b st.kappa)) := by
    rw [hg]; congr 1; exact ip_dotQ st.s st.kappa st.kappa
  have hb : st.s.b = (st.s.cacheGram st.kappa st.kappa).b := rfl
  have hn : st.s.nCols = (st.s.cacheGram st.kappa st.kappa).nCols := rfl
  rw [hb, hn]
  clear hg hf hk hd0 hv hsr hwf hkn hsn hind hb hn
  generalize st.s.cacheGram st.kappa st.kappa = s at *
  have hmu : ∀ j < st.kappa, s.mu st.kappa j = some (muS s.nCols (toQ s.b) st.kappa j) := fun j hj =>
    ((hf1.valid st.kappa hk1 (by simp) j (by omega) (by omega)).2 hj).1
  have hr : ∀ j < st.kappa, s.r st.kappa j = some (rS s.nCols (toQ s.b) st.kappa j) := fun j hj =>
    (hf1.valid st.kappa hk1 (by simp) j (by omega) (by omega)).1
  have hrd : ∀ k < st.kappa, s.r k k = some (normStar s.nCols (toQ s.b) k) := by
    intro k hk
    have := hh1 k hk
    rw [(hf1.valid k (by omega) (by simp) k (by omega) (by omega)).1]
    exact congrArg some (rS_self _ _ _)
  have hlov := lovaszTests_exact hg1 hmu hr
  have hins := insertIdx_stop c hcfg.thrE hlov hrd a (st.kappa - 1) (by omega) (by omega)
  have hall := insertIdx_all c hcfg.thrE hlov hrd a (st.kappa - 1) (by omega)
  dsimp only at hins
  generalize insertIdx c s (lovaszTests s st.kappa) a (st.kappa - 1) = k at *
  obtain ⟨hk2, hk3, -⟩ := hins
  have hti : testIdx c st.kappa ≤ st.kappa := by unfold testIdx; split_ifs <;> omega
  rw [hrd (st.kappa - 1) (by omega), hcfg.thrE, hlov _ hti, hlov k (by omega), hlov st.kappa le_rfl]
  have e1 : (gt (mul (some (normStar s.nCols (toQ s.b) (st.kappa - 1))) (some thr))
      (some (projSq s.nCols (toQ s.b) st.kappa (testIdx c st.kappa))) : Bool) =
      decide (projSq s.nCols (toQ s.b) st.kappa (testIdx c st.kappa) < normStar s.nCols (toQ s.b) (st.kappa - 1) * thr) := rfl
  have e2 : (gt (some (projSq s.nCols (toQ s.b) st.kappa k)) (ofInt 0) : Bool) =
      decide (((0 : ℤ) : ℚ) < projSq s.nCols (toQ s.b) st.kappa k) := rfl
  have hpos : ∀ j ≤ st.kappa, 0 < projSq s.nCols (toQ s.b) st.kappa j := by
    intro j hj
    have h1 := distSq_anti (n := s.nCols) (B := toQ s.b) hj (toQ s.b st.kappa)
    rw [distSq_row, distSq_projSq] at h1
    exact lt_of_lt_of_le (hind1.pos _ hlt) h1
  rw [e1, e2]
  by_cases hA : projSq s.nCols (toQ s.b) st.kappa (testIdx c st.kappa) < normStar s.nCols (toQ s.b) (st.kappa - 1) * thr
  · rw [if_pos (by simpa using hA), if_pos (by simpa using hpos k (by omega))]
    have hko : k < st.kappa := by omega
    have htest : ∀ j, k ≤ j → j < st.kappa → projSq s.nCols (toQ s.b) st.kappa (testIdx c (j + 1)) ≤ normStar s.nCols (toQ s.b) j * thr := by
      intro j hj1 hj2
      by_cases hc : j < st.kappa - 1
      · exact hall j hj1 hc
      · have : j = st.kappa - 1 := by omega
        subst this
        rw [show st.kappa - 1 + 1 = st.kappa by omega]
        exact hA.le
    have htest2 : ∀ j, k ≤ j → j < st.kappa → projSq s.nCols (toQ s.b) st.kappa j ≤ δ * normStar s.nCols (toQ s.b) j := by
      intro j hj1 hj2
      have h := htest j hj1 hj2
      have hp := hcfg.prot
      have hr := hind1.pos j (by omega)
      unfold testIdx at h
      split_ifs at h hp
      · rw [projSq_succ']
        have : muS s.nCols (toQ s.b) st.kappa j ^ 2 ≤ η ^ 2 := by
          rw [← sq_abs]; exact pow_le_pow_left₀ (abs_nonneg _) (hsr1 j hj2) 2
        nlinarith
      · rw [Nat.add_sub_cancel] at h
        nlinarith
    have sb := moveRow_sameBlock s s.nCols (k := k) (d := st.kappa + 1 - k) (o := st.kappa) (n := k) (by omega) (by omega)
    have hpre : ∀ j, j ≤ k ∨ st.kappa + 1 ≤ j → PreEq s.nCols j s.b (s.moveRow st.kappa k).b := fun j hj => sb.preEq (by omega)
    have hb : ∀ j, (s.moveRow st.kappa k).b j =
        if k < j ∧ j ≤ st.kappa then s.b (j - 1) else if j = k then s.b st.kappa else s.b j := fun j => by
      unfold moveRow; rw [if_pos hko]; exact rotateRightBySwap_apply s.b k st.kappa j hko.le
    have hs : ((s.moveRow st.kappa k).setR k k (some (projSq s.nCols (toQ s.b) st.kappa k))).b = (s.moveRow st.kappa k).b := rfl
    have gi := gramDet_insert hlt hind1 hpre (fun j hj => by rw [hb, if_neg (by omega), if_neg (by omega)]) (by rw [hb, if_neg (by omega), if_pos rfl])
      (fun j hj1 hj2 => by rw [hb, if_pos (by omega)]) htest2
    have hgp : ∀ m ≤ e, (0 : ℚ) < ((gramDet s.nCols s.b m : ℤ) : ℚ) := fun m hm => by exact_mod_cast gramDet_pos hind1 hm
    dsimp only
    rw [hs]
    refine ⟨Nat.le_succ _, fun j hj => ?_, fun _ => ⟨k, by omega, ?_⟩⟩
    · cases j with
      | zero => exact (gramDet_pre (hpre 0 (by omega))).le
      | succ m =>
        have h1 := gi m (by omega)
        have h2 := hgp (m + 1) hj
        have : ((gramDet s.nCols (s.moveRow st.kappa k).b (m + 1) : ℤ) : ℚ) ≤ ((gramDet s.nCols s.b (m + 1) : ℤ) : ℚ) := by
          split_ifs at h1
          · nlinarith
          · linarith
        exact_mod_cast this
    · have h1 := gi k (by omega)
      have h2 := hgp (k + 1) (by omega)
      rw [if_pos ⟨le_rfl, hko⟩] at h1
      have : ((gramDet s.nCols (s.moveRow st.kappa k).b (k + 1) : ℤ) : ℚ) < ((gramDet s.nCols s.b (k + 1) : ℤ) : ℚ) := by nlinarith
      exact_mod_cast this
  · rw [if_neg (by simpa using hA)]
    exact ⟨le_rfl, .refl _ _ _ (lt_irrefl _)⟩

theorem discoverStep_nSwaps (c : LLLCfg Exact) (fuel srs : ℕ) (st : LLLState Exact) : (discoverStep c fuel srs st).2.nSwaps = st.nSwaps := by
  unfold discoverStep
  dsimp only
  split_ifs <;> rfl

theorem discoverStep_gd (c : LLLCfg Exact) (fuel srs : ℕ) {s0 : GSO Exact} {a e : ℕ} {st : LLLState Exact} (he : e ≤ s0.d) (h : PInv a 0 e s0 st) (j : ℕ) :
    PreEq s0.nCols j st.s.b (discoverStep c fuel srs st).2.s.b := by
  have hd := h.mv.d
  have hhi := h.hi
  rw [← h.mv.cols]
  unfold discoverStep
  dsimp only
  by_cases h1 : st.kappaMax < st.kappa
  swap
  · rw [if_neg h1]; exact .refl _ _ _
  rw [if_pos h1]
  by_cases h2 : (c.earlyRedFlag && !st.s.intGram && isPowerOf2 st.kappa && decide (st.lastEarlyRed < st.kappa)) = true
  swap
  · rw [if_neg h2]; exact .refl _ _ _
  rw [if_pos h2]
  simp only [Bool.and_eq_true, Bool.not_eq_eq_eq_not, Bool.not_true, decide_eq_true_eq] at h2
  have lw := earlyReduction_low c fuel h.mv.st.full srs h2.1.1.2 (start := st.kappa) (by omega)
  split_ifs <;> exact lw.low.preEq j

theorem mainLoop_dn (c : LLLCfg Exact) {η thr δ : ℚ} (hcfg : PCfg c η thr δ) (hδ : δ < 1) (fuel : ℕ) {a e : ℕ} {s0 : GSO Exact}
    (he : e ≤ s0.d) (hind : Indep e s0.nCols (toQ s0.b)) (n : ℕ) (st : LLLState Exact) (h : PInv a 0 e s0 st)
    (hok : (LLL.mainLoop c fuel a e 0 n st).1 = .success) :
    st.nSwaps ≤ (LLL.mainLoop c fuel a e 0 n st).2.nSwaps ∧
    Dn e s0.nCols st.s.b (LLL.mainLoop c fuel a e 0 n st).2.s.b (st.nSwaps < (LLL.mainLoop c fuel a e 0 n st).2.nSwaps) := by
  induction n generalizing st with
  | zero => exact ⟨le_rfl, .refl _ _ _ (lt_irrefl _)⟩
  | succ n ih =>
    rw [LLL.mainLoop] at hok ⊢
    by_cases h1 : st.kappa < e - st.zeros
    swap
    · rw [if_neg h1]; exact ⟨le_rfl, .refl _ _ _ (lt_irrefl _)⟩
    rw [if_pos h1] at hok ⊢
    have hz := h.zeros
    have ds := discoverStep_pref c hcfg fuel 0 he h
    have dg := discoverStep_gd c fuel 0 he h
    have dsw := discoverStep_nSwaps c fuel 0 st
    dsimp only at hok ⊢
    generalize discoverStep c fuel 0 st = Q at *
    by_cases h2 : Q.1 = .success
    swap
    · rw [if_pos h2] at hok; exact absurd hok h2
    rw [if_neg (by simpa using h2)] at hok ⊢
    obtain ⟨b1, b2⟩ := ds h2
    have hd := b1.mv.d
    have bp := babai_pref c hcfg.eta fuel 0 b1.mv.st (kappa := Q.2.kappa) (stop := Q.2.kappa) e 0 (by omega) le_rfl b1.valid
    by_cases h3 : (babai c fuel Q.2.s Q.2.kappa Q.2.kappa 0).1 = .success
    swap
    · rw [if_pos h3] at hok; exact absurd hok h3
    rw [if_neg (by simpa using h3)] at hok ⊢
    obtain ⟨mv, x⟩ := bp h3
    generalize (babai c fuel Q.2.s Q.2.kappa Q.2.kappa 0).2 = t at *
    have inv : PInv a 0 e s0 { Q.2 with s := t } := ⟨b1.mv.trans (mv.mono (Nat.zero_le _) (Nat.zero_le _)), b1.zeros, b1.lo, b1.hi, fun k hk => by
      dsimp only at hk ⊢; rw [x.valid k hk]; exact b1.valid k hk⟩
    have hsr : ∀ j < Q.2.kappa, |muS t.nCols t.bq Q.2.kappa j| ≤ η := fun j hj => by
      have := x.reduced j (by omega) hj
      rw [mv.cols]; exact this
    have hlt : Q.2.kappa < e := by omega
    have ls := lovaszStep_pref c hcfg he hind (fun m _ hm => by omega) inv hlt x.validK hsr
    obtain ⟨l1, l2⟩ := lovaszStep_dn c hcfg hδ he hind inv hlt x.validK hsr
    obtain ⟨i1, i2⟩ := ih _ ls hok
    dsimp only at l1 l2
    generalize lovaszStep c a e { Q.2 with s := t } = v at *
    have d0 : Dn e s0.nCols st.s.b t.b False := .of_eq (fun j hj => by
      rw [← gramDet_pre (dg j)]
      have := gramDet_pre (mv.pre j (.inl hj))
      rwa [b1.mv.cols] at this) id
    have d1 := (d0.trans l2 (r := Q.2.nSwaps < v.nSwaps) (fun h => .inr h)).trans i2
      (r := st.nSwaps < (LLL.mainLoop c fuel a e 0 n v).2.nSwaps) (fun h => by omega)
    exact ⟨by omega, d1⟩

/-- a successful run of LLL on rows `a, …, e - 1` makes no determinant larger, and one smaller if it swaps rows -/
theorem lll_dn (c : LLLCfg Exact) {η thr δ : ℚ} (hcfg : PCfg c η thr δ) (hδ : δ < 1) (fuel maxIter last : ℕ) {a e : ℕ} {s : GSO Exact} (h : St s)
    (hae : a < e) (he : e ≤ s.d) (hind : Indep e s.nCols (toQ s.b))
    (hv : ∀ k < a, k + 1 ≤ s.gsoValidCols k) (hok : (LLL.lll c fuel maxIter last s a a e 0).1 = .success) :
    Dn e s.nCols s.b (LLL.lll c fuel maxIter last s a a e 0).2.s.b (0 < (LLL.lll c fuel maxIter last s a a e 0).2.nSwaps) := by
  unfold LLL.lll at hok ⊢
  rw [zeroLoop_nonzero (row0_nonzero (by omega) hind)] at hok ⊢
  dsimp only at hok ⊢
  rw [if_pos (by omega)] at hok ⊢
  have ss := startStep_pref c hcfg.eta fuel 0 h (k := a) e 0 (by omega) hv
  generalize startStep c fuel s a 0 = p at *
  unfold lllTail at hok ⊢
  by_cases hp : p.1 = .success
  swap
  · rw [if_pos hp] at hok; exact absurd hok hp
  rw [if_neg (by simpa using hp)] at hok ⊢
  obtain ⟨m, v, -, -⟩ := ss hp
  have ml := mainLoop_dn c hcfg hδ fuel he hind maxIter
    { s := p.2, kappa := a + 1, kappaMax := 0, zeros := 0, nSwaps := 0, lastEarlyRed := last }
    ⟨m.mono (Nat.zero_le _) (Nat.zero_le _), rfl, le_rfl, hae, v⟩
  dsimp only at hok ⊢
  generalize LLL.mainLoop c fuel a e 0 maxIter _ = q at *
  unfold lllFinish at hok ⊢
  by_cases hq : q.1 = .success
  swap
  · rw [if_pos hq] at hok; exact absurd hok hq
  rw [if_neg (by simpa using hq)]
  obtain ⟨-, i2⟩ := ml hq
  dsimp only at i2 ⊢
  have d0 : Dn e s.nCols s.b p.2.b False := .of_eq (fun j hj => gramDet_pre (m.pre j (.inl hj))) id
  have := d0.trans i2 (r := 0 < q.2.nSwaps) .inr
  split_ifs <;> exact this

end BKZ
end Fplll

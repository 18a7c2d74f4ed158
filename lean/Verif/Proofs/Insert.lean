import Verif.Proofs.BKZSvp
import Verif.Spec.Block
import Verif.Proofs.LLLExact
import Mathlib.Tactic.LinearCombination
import Mathlib.Tactic.IntervalCases

/-!
# Insertion of an enumerated vector into a block (exact coefficients)
-/

set_option linter.unusedSectionVars false

namespace Fplll
namespace BKZ

open FloatOps GSO LLL Spec

variable {F : Type} [FloatOps F]

/-! ## The rows of the basis after one operation -/

theorem rowAdd_b {s : GSO F} (h : Full s) {i j : ℕ} (hj : j < s.d) (r c : ℕ) (hc : c < s.nCols) :
    (s.rowAdd i j).b r c = if r = i then s.b i c + 1 * s.b j c else s.b r c := by
  have hz : s.nKnownCols ≤ c → s.b j c = 0 := fun h1 => h.wf.zeroSrc j (by rw [h.source]; exact hj) c hc h1
  change setAt s.b i _ r c = _
  rw [setAt_mat, vecAdd_apply]
  grind

theorem rowSub_b {s : GSO F} (h : Full s) {i j : ℕ} (hj : j < s.d) (r c : ℕ) (hc : c < s.nCols) :
    (s.rowSub i j).b r c = if r = i then s.b i c + (-1) * s.b j c else s.b r c := by
  have hz : s.nKnownCols ≤ c → s.b j c = 0 := fun h1 => h.wf.zeroSrc j (by rw [h.source]; exact hj) c hc h1
  change setAt s.b i _ r c = _
  rw [setAt_mat, vecSub_apply]
  grind

theorem rowSwap_b (s : GSO F) (i j r : ℕ) : (s.rowSwap i j).b r = s.b (swapP i j r) := by
  have : (s.rowSwap i j).b = fun k => s.b (swapP i j k) := swapAt_eq _ _ _
  rw [this]

theorem moveRow_b (s : GSO F) (o n r : ℕ) :
    (s.moveRow o n).b r = s.b (if n < o then rotR n o r else if o < n then rotL o n r else r) := by
  unfold moveRow
  split_ifs with h1 h2
  · have : (s.moveRowUp o n).b = fun k => s.b (rotR n o k) := rotateRight_eq _ h1.le
    rw [this]
  · have : (s.moveRowDown o n).b = fun k => s.b (rotL o n k) := rotateLeft_eq _ h2.le
    have e : ((s.moveRowDown o n).moveRowForget o n).b = (s.moveRowDown o n).b := by
      unfold moveRowForget; dsimp only; split_ifs <;> rfl
    rw [e, this]
  · rfl

theorem moveRow_sameBlock (s : GSO F) (N : ℕ) {k d o n : ℕ} (ho : k ≤ o ∧ o < k + d) (hn : k ≤ n ∧ n < k + d) :
    SameBlock N k d s.b (s.moveRow o n).b := by
  refine SameBlock.perm (fun r => if n < o then rotR n o r else if o < n then rotL o n r else r)
    (fun r => if n < o then rotL n o r else if o < n then rotR o n r else r) ?_ ?_ ?_ ?_ (moveRow_b s o n)
  · intro i hi; unfold rotR rotL; split_ifs <;> omega
  · intro i hi; unfold rotR rotL; split_ifs <;> omega
  · intro i hi; unfold rotR rotL; split_ifs <;> omega
  · intro i hi; unfold rotR rotL; split_ifs <;> omega

/-! ## One step of the gcd computation -/

/-- `z` are the coefficients of `g` -/
def Rep (d : ℕ) (z : ℕ → ℤ) (g : GState Exact) : Prop := ∀ i < d, g.x i = some (z i : ℚ)

/-- what each step keeps: the vector (primal) or the functional (dual) given by the coefficients, the lattice of the block, the rows
outside it, and each common divisor of the coefficients -/
structure Rel (k d : ℕ) (dual : Bool) (z : ℕ → ℤ) (s : GSO Exact) (z' : ℕ → ℤ) (s' : GSO Exact) : Prop where
  full : Full s'
  dim : s'.d = s.d
  cols : s'.nCols = s.nCols
  block : SameBlock s.nCols k d s.b s'.b
  primal : dual = false → blockComb s.nCols k d s'.b z' = blockComb s.nCols k d s.b z
  dualv : dual = true → ∀ w : Fin s.nCols → ℚ, (∀ i < d, pairing s.nCols w s.b (k + i) = z i) → ∀ i < d, pairing s.nCols w s'.b (k + i) = z' i
  dvd : ∀ m : ℤ, (∀ i < d, m ∣ z' i) → ∀ i < d, m ∣ z i

theorem Rel.refl {k d : ℕ} {dual : Bool} {z : ℕ → ℤ} {s : GSO Exact} (h : Full s) : Rel k d dual z s z s :=
  ⟨h, rfl, rfl, .refl _ _ _ _, fun _ => rfl, fun _ _ h => h, fun _ h => h⟩

theorem Rel.trans {k d : ℕ} {dual : Bool} {z z' z'' : ℕ → ℤ} {s s' s'' : GSO Exact} (h1 : Rel k d dual z s z' s')
    (h2 : Rel k d dual z' s' z'' s'') : Rel k d dual z s z'' s'' := by
  obtain ⟨f1, a1, c1, b1, p1, d1, v1⟩ := h1
  obtain ⟨f2, a2, c2, b2, p2, d2, v2⟩ := h2
  rw [c1] at b2 p2 d2
  exact ⟨f2, a2.trans a1, c2.trans c1, b1.trans b2, fun h => (p2 h).trans (p1 h), fun h w hw => d2 h w (d1 h w hw),
    fun m hm => v1 m (v2 m hm)⟩

section steps
variable {kappa d k off : ℕ} {dual : Bool} {z : ℕ → ℤ} {g : GState Exact}

/-- the coefficients after a swap -/
def zSwap (k off : ℕ) (z : ℕ → ℤ) : ℕ → ℤ := fun i => z (swapP k (k - off) i)

/-- the coefficients after a subtraction -/
def zSub (k off : ℕ) (z : ℕ → ℤ) : ℕ → ℤ := fun i => if i = k then z k - z (k - off) else z i

theorem sum_swap (d a b : ℕ) (ha : a < d) (hb : b < d) (f : ℕ → ℤ) : ∑ i ∈ Finset.range d, f (swapP a b i) = ∑ i ∈ Finset.range d, f i := by
  refine Finset.sum_nbij' (swapP a b) (swapP a b) ?_ ?_ ?_ ?_ ?_
  · intro i hi; rw [Finset.mem_range] at *; unfold swapP; split_ifs <;> omega
  · intro i hi; rw [Finset.mem_range] at *; unfold swapP; split_ifs <;> omega
  · intro i _; unfold swapP; grind
  · intro i _; unfold swapP; grind
  · intro i _; rfl

theorem swapPair_rel (hs : Full g.s) (hoff : 1 ≤ off) (hk : off ≤ k) (hkd : k < d) (hd : kappa + d ≤ g.s.d) (hr : Rep d z g) :
    Rep d (zSwap k off z) (swapPair kappa k off g) ∧ Rel kappa d dual z g.s (zSwap k off z) (swapPair kappa k off g).s := by
  have hb : ∀ r, (swapPair kappa k off g).s.b r = g.s.b (swapP (kappa + k - off) (kappa + k) r) := rowSwap_b _ _ _
  have hsw : ∀ i, swapP (kappa + k - off) (kappa + k) (kappa + i) = kappa + swapP k (k - off) i := by
    intro i; unfold swapP; split_ifs <;> omega
  have hlt : ∀ i < d, swapP k (k - off) i < d := by intro i hi; unfold swapP; split_ifs <;> omega
  have hinv : ∀ i, swapP k (k - off) (swapP k (k - off) i) = i := by intro i; unfold swapP; grind
  refine ⟨fun i hi => ?_, (rowSwap_keeps hs (by omega) (by omega)).full, rfl, rfl, ?_, fun _ => ?_, fun _ w hw i hi => ?_, fun m hm i hi => ?_⟩
  · change swapAt g.x k (k - off) i = _
    rw [swapAt_eq]
    exact hr _ (hlt i hi)
  · refine SameBlock.perm (swapP (kappa + k - off) (kappa + k)) (swapP (kappa + k - off) (kappa + k)) ?_ ?_ ?_ ?_ hb
    · intro i hi; rw [hsw]; have := hlt i hi; omega
    · intro i hi; rw [hsw]; have := hlt i hi; omega
    · intro i hi; rw [hsw, hsw, hinv]
    · intro r hr; unfold swapP; split_ifs <;> omega
  · funext c
    unfold blockComb
    rw [← sum_swap d k (k - off) (by omega) (by omega) fun i => z i * g.s.b (kappa + i) c]
    refine Finset.sum_congr rfl fun i hi => ?_
    rw [hb, hsw]; rfl
  · unfold pairing
    rw [hb, hsw]
    exact hw _ (hlt i hi)
  · have := hm (swapP k (k - off) i) (hlt i hi)
    unfold zSwap at this
    rwa [hinv] at this

theorem comb_add (n : ℕ) {b b' : ℕ → ℕ → ℤ} {z z' : ℕ → ℤ} {p q : ℕ} (hp : p < d) (hq : q < d) (hpq : p ≠ q)
    (hb : ∀ r, ∀ c < n, b' r c = if r = kappa + q then b (kappa + q) c + 1 * b (kappa + p) c else b r c)
    (hz : ∀ i, z' i = if i = p then z p - z q else z i) : blockComb n kappa d b' z' = blockComb n kappa d b z := by
  funext c
  unfold blockComb
  have e : ∀ i ∈ Finset.range d, z' i * b' (kappa + i) c =
      z i * b (kappa + i) c + ((if i = p then -(z q * b (kappa + p) c) else 0) + (if i = q then z q * b (kappa + p) c else 0)) := by
    intro i _
    rw [hb _ _ c.2, hz]
    by_cases h1 : i = p
    · subst h1
      rw [if_pos rfl, if_neg (by omega), if_pos rfl, if_neg hpq]; ring
    · by_cases h2 : i = q
      · subst h2
        rw [if_neg h1, if_pos rfl, if_neg h1, if_pos rfl]; ring
      · rw [if_neg h1, if_neg (by omega), if_neg h1, if_neg h2]; ring
  rw [Finset.sum_congr rfl e, Finset.sum_add_distrib, Finset.sum_add_distrib, Finset.sum_ite_eq', Finset.sum_ite_eq',
    if_pos (Finset.mem_range.2 hp), if_pos (Finset.mem_range.2 hq)]
  ring

theorem pairing_add (n : ℕ) (w : Fin n → ℚ) {b b' : ℕ → ℕ → ℤ} {x : ℤ} {p q : ℕ}
    (hb : ∀ r, ∀ c < n, b' r c = if r = p then b p c + x * b q c else b r c) (r : ℕ) :
    pairing n w b' r = if r = p then pairing n w b p + x * pairing n w b q else pairing n w b r := by
  unfold pairing
  by_cases h : r = p
  · rw [if_pos h, Finset.mul_sum, ← Finset.sum_add_distrib]
    refine Finset.sum_congr rfl fun c _ => ?_
    rw [hb _ _ c.2, if_pos h]; push_cast; ring
  · rw [if_neg h]
    refine Finset.sum_congr rfl fun c _ => ?_
    rw [hb _ _ c.2, if_neg h]

theorem subPair_rel (hs : Full g.s) (hoff : 1 ≤ off) (hk : off ≤ k) (hkd : k < d) (hd : kappa + d ≤ g.s.d) (hr : Rep d z g) :
    Rep d (zSub k off z) (subPair kappa k off dual g) ∧ Rel kappa d dual z g.s (zSub k off z) (subPair kappa k off dual g).s := by
  have e1 : kappa + k - off = kappa + (k - off) := by omega
  have hdvd : ∀ m : ℤ, (∀ i < d, m ∣ zSub k off z i) → ∀ i < d, m ∣ z i := by
    intro m hm i hi
    have h1 := hm i hi
    have h2 := hm (k - off) (by omega)
    unfold zSub at h1 h2
    rw [if_neg (by omega)] at h2
    split_ifs at h1 with hik
    · subst hik; have := dvd_add h1 h2; rwa [sub_add_cancel] at this
    · exact h1
  refine ⟨fun i hi => ?_, ?_⟩
  · change setAt g.x k (sub (g.x k) (g.x (k - off))) i = _
    unfold setAt zSub
    split_ifs with h
    · rw [hr k hkd, hr (k - off) (by omega)]
      change some ((z k : ℚ) - (z (k - off) : ℚ)) = _
      push_cast; rfl
    · exact hr i hi
  · cases dual with
    | true =>
      have hb : ∀ r, ∀ c < g.s.nCols, (g.s.rowSub (kappa + k) (kappa + (k - off))).b r c =
          if r = kappa + k then g.s.b (kappa + k) c + (-1) * g.s.b (kappa + (k - off)) c else g.s.b r c :=
        fun r c hc => rowSub_b hs (by omega) r c hc
      have e : (subPair kappa k off true g).s = g.s.rowSub (kappa + k) (kappa + (k - off)) := by
        unfold subPair; rw [e1]; rfl
      rw [e]
      refine ⟨(rowSub_keep hs (by omega) (by omega) (by omega)).full, rfl, rfl, .add (-1) hkd (by omega) (by omega) hb, nofun, fun _ w hw i hi => ?_, hdvd⟩
      rw [pairing_add g.s.nCols w hb]
      unfold zSub
      by_cases hik : i = k
      · rw [if_pos (by omega), if_pos hik, hw k hkd, hw (k - off) (by omega)]; push_cast; ring
      · rw [if_neg (by omega), if_neg hik, hw i hi]
    | false =>
      have hb : ∀ r, ∀ c < g.s.nCols, (g.s.rowAdd (kappa + (k - off)) (kappa + k)).b r c =
          if r = kappa + (k - off) then g.s.b (kappa + (k - off)) c + 1 * g.s.b (kappa + k) c else g.s.b r c :=
        fun r c hc => rowAdd_b hs (by omega) r c hc
      have e : (subPair kappa k off false g).s = g.s.rowAdd (kappa + (k - off)) (kappa + k) := by
        unfold subPair; rw [e1]; rfl
      rw [e]
      exact ⟨(rowAdd_keep hs (by omega) (by omega) (by omega)).full, rfl, rfl, .add 1 (by omega) hkd (by omega) hb,
        fun _ => comb_add g.s.nCols hkd (by omega) (by omega) hb fun i => rfl, nofun, hdvd⟩

end steps

/-! ## Making the coefficients non-negative -/

section negate
variable {kappa d : ℕ} {dual : Bool} {z : ℕ → ℤ} {g : GState Exact}

theorem pairing_neg (n : ℕ) (w : Fin n → ℚ) {b b' : ℕ → ℕ → ℤ} {p : ℕ}
    (hb : ∀ r, ∀ c < n, b' r c = if r = p then -b r c else b r c) (r : ℕ) :
    pairing n w b' r = if r = p then -pairing n w b r else pairing n w b r := by
  unfold pairing
  by_cases h : r = p
  · rw [if_pos h, ← Finset.sum_neg_distrib]
    refine Finset.sum_congr rfl fun c _ => ?_
    rw [hb _ _ c.2, if_pos h]; push_cast; ring
  · rw [if_neg h]
    refine Finset.sum_congr rfl fun c _ => ?_
    rw [hb _ _ c.2, if_neg h]

/-- the coefficients after negating one -/
def zNeg (i : ℕ) (z : ℕ → ℤ) : ℕ → ℤ := fun j => if j = i then -z j else z j

theorem negate_rel (hs : Full g.s) {i : ℕ} (hi : i < d) (hr : Rep d z g) :
    Rep d (zNeg i z) ⟨setAt g.x i (FloatOps.neg (g.x i)), g.s.negateRowOfB (kappa + i)⟩ ∧
    Rel kappa d dual z g.s (zNeg i z) (g.s.negateRowOfB (kappa + i)) := by
  have hb : ∀ r, ∀ c < g.s.nCols, (g.s.negateRowOfB (kappa + i)).b r c = if r = kappa + i then -g.s.b r c else g.s.b r c := by
    intro r c hc
    rw [negateRow_b']; grind
  refine ⟨fun j hj => ?_, (negateRow_keeps hs _).full, rfl, rfl, .neg hi hb, fun _ => ?_, fun _ w hw j hj => ?_, fun m hm j hj => ?_⟩
  · change setAt g.x i _ j = _
    unfold setAt zNeg
    split_ifs with h
    · rw [hr i hi, h]
      change some (-(z i : ℚ)) = _
      push_cast; rfl
    · exact hr j hj
  · funext c
    unfold blockComb zNeg
    refine Finset.sum_congr rfl fun j _ => ?_
    rw [hb _ _ c.2]
    by_cases h : j = i
    · rw [if_pos h, if_pos (by omega)]; ring
    · rw [if_neg h, if_neg (by omega)]
  · rw [pairing_neg _ w hb, hw j hj]
    unfold zNeg
    by_cases h : j = i
    · rw [if_pos h, if_pos (by omega)]; push_cast; rfl
    · rw [if_neg h, if_neg (by omega)]
  · have := hm j hj
    unfold zNeg at this
    split_ifs at this
    · exact (dvd_neg.1 this)
    · exact this

theorem lt_iff {x : Exact} {a : ℤ} (h : x = some (a : ℚ)) : lt x (ofInt 0) = true ↔ a < 0 := by
  subst h
  change decide ((a : ℚ) < ((0 : ℤ) : ℚ)) = true ↔ _
  rw [decide_eq_true_iff]
  exact_mod_cast Iff.rfl

theorem negateLoop_rel (hs : Full g.s) (hr : Rep d z g) :
    Rep d (fun i => |z i|) (negateLoop kappa d g) ∧ Rel kappa d dual z g.s (fun i => |z i|) (negateLoop kappa d g).s := by
  unfold negateLoop
  have key := forUp_inv (P := fun n (g' : GState Exact) =>
      Rep d (fun i => if i < n then |z i| else z i) g' ∧ Rel kappa d dual z g.s (fun i => if i < n then |z i| else z i) g'.s)
    (fun i (g : GState Exact) => if lt (g.x i) (ofInt 0) then ⟨setAt g.x i (FloatOps.neg (g.x i)), g.s.negateRowOfB (kappa + i)⟩ else g)
    (Nat.zero_le d) g (by simpa using ⟨hr, Rel.refl hs⟩) (by
      rintro i g' _ hi ⟨h1, h2⟩
      have e := h1 i hi
      dsimp only at e
      rw [if_neg (lt_irrefl i)] at e
      have hl := lt_iff e
      have ez : ∀ a : ℕ → ℤ, (∀ j, a j = if j < i + 1 then |z j| else z j) → (fun j => if j < i + 1 then |z j| else z j) = a :=
        fun a ha => funext fun j => (ha j).symm
      split_ifs with hlt
      · have hz := hl.1 hlt
        rw [ez (zNeg i fun j => if j < i then |z j| else z j) (by
          intro j; unfold zNeg; dsimp only
          by_cases h : j = i
          · subst h; rw [if_pos rfl, if_neg (lt_irrefl j), if_pos (by omega), abs_of_neg hz]
          · rw [if_neg h]; by_cases h' : j < i
            · rw [if_pos h', if_pos (by omega)]
            · rw [if_neg h', if_neg (by omega)])]
        obtain ⟨r1, r2⟩ := negate_rel (kappa := kappa) (dual := dual) h2.full hi h1
        exact ⟨r1, h2.trans r2⟩
      · have hz : 0 ≤ z i := by by_contra hc; exact hlt (hl.2 (by omega))
        rw [ez (fun j => if j < i then |z j| else z j) (by
          intro j
          by_cases h : j = i
          · subst h; rw [if_neg (lt_irrefl j), if_pos (by omega), abs_of_nonneg hz]
          · by_cases h' : j < i
            · rw [if_pos h', if_pos (by omega)]
            · rw [if_neg h', if_neg (by omega)])]
        exact ⟨h1, h2⟩)
  have e : (fun i => |z i|) = fun i => if i < d then |z i| else |z i| := by funext i; split_ifs <;> rfl
  obtain ⟨k1, k2⟩ := key
  refine ⟨fun i hi => ?_, ⟨k2.full, k2.dim, k2.cols, k2.block, fun h => ?_, fun h w hw i hi => ?_, fun m hm => k2.dvd m fun i hi => ?_⟩⟩
  · have := k1 i hi; dsimp only at this; rwa [if_pos hi] at this
  · rw [← k2.primal h]
    funext c
    unfold blockComb
    refine Finset.sum_congr rfl fun i hi => ?_
    dsimp only; rw [if_pos (Finset.mem_range.1 hi)]
  · have := k2.dualv h w hw i hi; rwa [if_pos hi] at this
  · rw [if_pos hi]; exact hm i hi

end negate

/-! ## The gcd tree -/

section tree
variable {kappa d : ℕ} {dual : Bool}

/-- what the steps of the tree keep, with the sum of the coefficients as measure -/
structure Tree (kappa d : ℕ) (dual : Bool) (z : ℕ → ℤ) (g : GState Exact) (z' : ℕ → ℤ) (g' : GState Exact) : Prop where
  rep : Rep d z' g'
  rel : Rel kappa d dual z g.s z' g'.s
  nonneg : ∀ i < d, 0 ≤ z' i
  sum : ∑ i ∈ Finset.range d, z' i ≤ ∑ i ∈ Finset.range d, z i

theorem Tree.trans {z z' z'' : ℕ → ℤ} {g g' g'' : GState Exact} (h1 : Tree kappa d dual z g z' g') (h2 : Tree kappa d dual z' g' z'' g'') :
    Tree kappa d dual z g z'' g'' := ⟨h2.rep, h1.rel.trans h2.rel, h2.nonneg, h2.sum.trans h1.sum⟩

theorem isZero_iff {x : Exact} {a : ℤ} (h : x = some (a : ℚ)) : isZero x = true ↔ a = 0 := by
  subst h
  change decide ((a : ℚ) = 0) = true ↔ _
  rw [decide_eq_true_iff]
  exact_mod_cast Iff.rfl

theorem gt_iff {x y : Exact} {a b : ℤ} (hx : x = some (a : ℚ)) (hy : y = some (b : ℚ)) : gt x y = true ↔ b < a := by
  subst hx hy
  change decide ((b : ℚ) < (a : ℚ)) = true ↔ _
  rw [decide_eq_true_iff]
  exact_mod_cast Iff.rfl

theorem sum_sub {k off : ℕ} (hkd : k < d) (z : ℕ → ℤ) : ∑ i ∈ Finset.range d, zSub k off z i = ∑ i ∈ Finset.range d, z i - z (k - off) := by
  have e : ∀ i ∈ Finset.range d, zSub k off z i = z i - if i = k then z (k - off) else 0 := by
    intro i _; unfold zSub
    by_cases h : i = k
    · rw [if_pos h, if_pos h, h]
    · rw [if_neg h, if_neg h, sub_zero]
  rw [Finset.sum_congr rfl e, Finset.sum_sub_distrib, Finset.sum_ite_eq', if_pos (Finset.mem_range.2 hkd)]

theorem swap_tree {k off : ℕ} {z : ℕ → ℤ} {g : GState Exact} (hs : Full g.s) (hoff : 1 ≤ off) (hk : off ≤ k) (hkd : k < d)
    (hd : kappa + d ≤ g.s.d) (hr : Rep d z g) (hz : ∀ i < d, 0 ≤ z i) :
    Tree kappa d dual z g (zSwap k off z) (swapPair kappa k off g) := by
  obtain ⟨r1, r2⟩ := swapPair_rel (dual := dual) hs hoff hk hkd hd hr
  refine ⟨r1, r2, fun i hi => hz _ ?_, le_of_eq (sum_swap d k (k - off) hkd (by omega) z)⟩
  unfold swapP; split_ifs <;> omega

/-- the pair ends with the gcd in place `k` and zero in place `k - off` -/
theorem euclid_tree {k off : ℕ} (hoff : 1 ≤ off) (hk : off ≤ k) (hkd : k < d) : ∀ (n : ℕ) (z : ℕ → ℤ) (g : GState Exact), Full g.s →
    kappa + d ≤ g.s.d → Rep d z g → (∀ i < d, 0 ≤ z i) →
    2 * (∑ i ∈ Finset.range d, z i) + (if z k < z (k - off) then 1 else 0) < n →
    ∃ z' g', euclid kappa k off dual n g = .ok () g' ∧ Tree kappa d dual z g z' g' ∧ z' (k - off) = 0 ∧
      ∀ i, i ≠ k → i ≠ k - off → z' i = z i
  | 0, z, g, _, _, _, hz, h => by
    have : 0 ≤ ∑ i ∈ Finset.range d, z i := Finset.sum_nonneg fun i hi => hz i (Finset.mem_range.1 hi)
    split_ifs at h <;> omega
  | n + 1, z, g, hs, hd, hr, hz, h => by
    have ho : k - off < d := by omega
    have hzo := isZero_iff (hr _ ho)
    have hgt := gt_iff (hr _ ho) (hr _ hkd)
    have zk := hz k hkd
    have zo := hz _ ho
    unfold euclid
    by_cases h0 : z (k - off) = 0
    · rw [if_pos (hzo.2 h0)]
      exact ⟨z, g, rfl, ⟨hr, .refl hs, hz, le_rfl⟩, h0, fun _ _ _ => rfl⟩
    · rw [if_neg (fun hc => h0 (hzo.1 hc))]
      by_cases hlt : z k < z (k - off)
      · rw [if_neg (by rw [hgt.2 hlt]; nofun)]
        rw [if_pos hlt] at h
        have t := swap_tree (dual := dual) hs hoff hk hkd hd hr hz
        have e1 : zSwap k off z k = z (k - off) := by unfold zSwap swapP; rw [if_pos rfl]
        have e2 : zSwap k off z (k - off) = z k := by unfold zSwap swapP; rw [if_neg (by omega), if_pos rfl]
        obtain ⟨z', g', a1, a2, a3, a4⟩ := euclid_tree hoff hk hkd n (zSwap k off z) (swapPair kappa k off g) t.rel.full
          (by rw [t.rel.dim]; exact hd) t.rep t.nonneg (by have := t.sum; rw [e1, e2, if_neg (by omega)]; omega)
        refine ⟨z', g', a1, t.trans a2, a3, fun i h1 h2 => ?_⟩
        rw [a4 i h1 h2]; unfold zSwap swapP; rw [if_neg h1, if_neg h2]
      · rw [if_pos (by cases hc : gt (g.x (k - off)) (g.x k) <;> simp_all)]
        rw [if_neg hlt] at h
        obtain ⟨r1, r2⟩ := subPair_rel (dual := dual) hs hoff hk hkd hd hr
        have hsum := sum_sub (off := off) hkd z
        have hnn : ∀ i < d, 0 ≤ zSub k off z i := by
          intro i hi; unfold zSub
          split_ifs
          · omega
          · exact hz i hi
        obtain ⟨z', g', a1, a2, a3, a4⟩ := euclid_tree hoff hk hkd n (zSub k off z) (subPair kappa k off dual g) r2.full
          (by rw [r2.dim]; exact hd) r1 hnn (by rw [hsum]; split_ifs <;> omega)
        refine ⟨z', g', a1, Tree.trans ⟨r1, r2, hnn, by omega⟩ a2, a3, fun i h1 h2 => ?_⟩
        rw [a4 i h1 h2]; unfold zSub; rw [if_neg h1]

theorem pairStep_tree {fuel k off : ℕ} (hoff : 1 ≤ off) (hk : off ≤ k) (hkd : k < d) {z : ℕ → ℤ} {g : GState Exact} (hs : Full g.s)
    (hd : kappa + d ≤ g.s.d) (hr : Rep d z g) (hz : ∀ i < d, 0 ≤ z i) (hf : 2 * (∑ i ∈ Finset.range d, z i) + 1 < fuel) :
    ∃ z' g', pairStep fuel kappa k off dual g = .ok () g' ∧ Tree kappa d dual z g z' g' ∧ z' (k - off) = 0 ∧
      ∀ i, i ≠ k → i ≠ k - off → z' i = z i := by
  unfold pairStep
  have ho : k - off < d := by omega
  by_cases h0 : isZero (g.x k) = true ∧ isZero (g.x (k - off)) = true
  · rw [if_pos h0]
    exact ⟨z, g, rfl, ⟨hr, .refl hs, hz, le_rfl⟩, (isZero_iff (hr _ ho)).1 h0.2, fun _ _ _ => rfl⟩
  · rw [if_neg h0]
    split_ifs with hlt
    · have t := swap_tree (dual := dual) hs hoff hk hkd hd hr hz
      obtain ⟨z', g', a1, a2, a3, a4⟩ := euclid_tree hoff hk hkd fuel (zSwap k off z) (swapPair kappa k off g) t.rel.full
        (by rw [t.rel.dim]; exact hd) t.rep t.nonneg (by have := t.sum; split_ifs <;> omega)
      refine ⟨z', g', a1, t.trans a2, a3, fun i h1 h2 => ?_⟩
      rw [a4 i h1 h2]; unfold zSwap swapP; rw [if_neg h1, if_neg h2]
    · exact euclid_tree hoff hk hkd fuel z g hs hd hr hz (by split_ifs <;> omega)

theorem near_multiple {off a b : ℕ} (h : off ∣ a - b) (h1 : b ≤ a) (h2 : a < b + 2 * off) : b = a ∨ b + off = a := by
  obtain ⟨q, hq⟩ := h
  have : q < 2 := by
    by_contra hc
    have : off * 2 ≤ off * q := Nat.mul_le_mul_left _ (by omega)
    omega
  interval_cases q <;> omega

theorem pairLoop_tree {fuel off : ℕ} (hoff : 1 ≤ off) : ∀ (n k : ℕ) (z : ℕ → ℤ) (g : GState Exact), k < n → k < d → 2 * off ∣ d - 1 - k →
    Full g.s → kappa + d ≤ g.s.d → Rep d z g → (∀ i < d, 0 ≤ z i) → 2 * (∑ i ∈ Finset.range d, z i) + 1 < fuel →
    (∀ i < d, z i ≠ 0 → off ∣ d - 1 - i ∧ (k < i → 2 * off ∣ d - 1 - i)) →
    ∃ z' g', pairLoop fuel kappa off dual n k g = .ok () g' ∧ Tree kappa d dual z g z' g' ∧ ∀ i < d, z' i ≠ 0 → 2 * off ∣ d - 1 - i
  | 0, k, _, _, h, _, _, _, _, _, _, _, _ => by omega
  | n + 1, k, z, g, hn, hkd, hdk, hs, hd, hr, hz, hf, hp => by
    have hoffk : off ∣ d - 1 - k := dvd_trans ⟨2, by ring⟩ hdk
    have hmul : ∀ i < d, i ≤ k → off ∣ d - 1 - i → off ∣ k - i := by
      intro i hi hik h
      have := Nat.dvd_sub h hoffk
      rwa [show d - 1 - i - (d - 1 - k) = k - i by omega] at this
    unfold pairLoop
    by_cases hk : off ≤ k
    · rw [if_pos hk]
      obtain ⟨z1, g1, a1, a2, a3, a4⟩ := pairStep_tree (dual := dual) hoff hk hkd hs hd hr hz hf
      rw [a1]
      change ∃ z' g', (if 2 * off ≤ k then pairLoop fuel kappa off dual n (k - 2 * off) g1 else .ok () g1) = .ok () g' ∧ _
      have hp1 : ∀ i < d, z1 i ≠ 0 → off ∣ d - 1 - i ∧ (k ≤ i + 2 * off - 1 → 2 * off ∣ d - 1 - i) := by
        intro i hi hne
        by_cases hik : i = k
        · subst hik; exact ⟨hoffk, fun _ => hdk⟩
        · by_cases hio : i = k - off
          · subst hio; exact absurd a3 hne
          · rw [a4 i hik hio] at hne
            obtain ⟨p1, p2⟩ := hp i hi hne
            refine ⟨p1, fun hle => ?_⟩
            by_cases hki : k < i
            · exact p2 hki
            · rcases near_multiple (hmul i hi (by omega) p1) (by omega) (by omega) with h | h <;> omega
      by_cases hk2 : 2 * off ≤ k
      · rw [if_pos hk2]
        obtain ⟨z', g', b1, b2, b3⟩ := pairLoop_tree (fuel := fuel) hoff n (k - 2 * off) z1 g1 (by omega) (by omega)
          (by rw [show d - 1 - (k - 2 * off) = d - 1 - k + 2 * off by omega]; exact dvd_add hdk dvd_rfl) a2.rel.full
          (by rw [a2.rel.dim]; exact hd) a2.rep a2.nonneg (by have := a2.sum; omega)
          (fun i hi hne => ⟨(hp1 i hi hne).1, fun hlt => (hp1 i hi hne).2 (by omega)⟩)
        exact ⟨z', g', b1, a2.trans b2, b3⟩
      · rw [if_neg hk2]
        exact ⟨z1, g1, rfl, a2, fun i hi hne => (hp1 i hi hne).2 (by omega)⟩
    · rw [if_neg hk]
      refine ⟨z, g, rfl, ⟨hr, .refl hs, hz, le_rfl⟩, fun i hi hne => ?_⟩
      obtain ⟨p1, p2⟩ := hp i hi hne
      by_cases hki : k < i
      · exact p2 hki
      · rcases near_multiple (hmul i hi (by omega) p1) (by omega) (by omega) with h | h
        · rw [h]; exact hdk
        · omega

theorem levelLoop_tree {fuel : ℕ} : ∀ (n off : ℕ) (z : ℕ → ℤ) (g : GState Exact), 1 ≤ off → 1 ≤ d → d ≤ off * 2 ^ n →
    Full g.s → kappa + d ≤ g.s.d → Rep d z g → (∀ i < d, 0 ≤ z i) → 2 * (∑ i ∈ Finset.range d, z i) + 1 < fuel →
    (∀ i < d, z i ≠ 0 → off ∣ d - 1 - i) →
    ∃ z' g', levelLoop fuel kappa d dual n off g = .ok () g' ∧ Tree kappa d dual z g z' g' ∧ ∀ i < d, z' i ≠ 0 → i = d - 1
  | 0, off, z, g, hoff, h1, hn, hs, hd, hr, hz, hf, hp => by
    refine ⟨z, g, rfl, ⟨hr, .refl hs, hz, le_rfl⟩, fun i hi hne => ?_⟩
    have := Nat.eq_zero_of_dvd_of_lt (hp i hi hne) (by rw [pow_zero, mul_one] at hn; omega)
    omega
  | n + 1, off, z, g, hoff, h1, hn, hs, hd, hr, hz, hf, hp => by
    unfold levelLoop
    by_cases ho : off < d
    · rw [if_pos ho]
      obtain ⟨z1, g1, a1, a2, a3⟩ := pairLoop_tree (kappa := kappa) (dual := dual) hoff d (d - 1) z g (by omega) (by omega)
        (by rw [Nat.sub_self]; exact dvd_zero _) hs hd hr hz hf (fun i hi hne => ⟨hp i hi hne, fun h => by omega⟩)
      rw [a1]
      obtain ⟨z', g', b1, b2, b3⟩ := levelLoop_tree (fuel := fuel) n (off * 2) z1 g1 (by omega) h1 (by rw [mul_assoc, ← pow_succ']; exact hn) a2.rel.full
        (by rw [a2.rel.dim]; exact hd) a2.rep a2.nonneg (by have := a2.sum; omega) (fun i hi hne => by rw [mul_comm]; exact a3 i hi hne)
      exact ⟨z', g', b1, a2.trans b2, b3⟩
    · rw [if_neg ho]
      refine ⟨z, g, rfl, ⟨hr, .refl hs, hz, le_rfl⟩, fun i hi hne => ?_⟩
      have := Nat.eq_zero_of_dvd_of_lt (hp i hi hne) (by omega)
      omega

end tree

/-! ## Insertion -/

section insert
variable {kappa d : ℕ}

theorem Inserted.of_blockEq {n k d : ℕ} {dual : Bool} {z : ℕ → ℤ} {b b1 b2 : ℕ → ℕ → ℤ} (h : Inserted n k d dual z b b1) (e : b2 = b1) :
    Inserted n k d dual z b b2 := e ▸ h

theorem moveRow_top (s : GSO Exact) {o n : ℕ} (h : n ≤ o) : (s.moveRow o n).b n = s.b o := by
  rw [moveRow_b]; unfold rotR rotL; congr 1; split_ifs <;> omega

theorem moveRow_last (s : GSO Exact) {o n : ℕ} (h : o ≤ n) (r : ℕ) :
    (s.moveRow o n).b r = s.b (if r < o then r else if r < n then r + 1 else if r = n then o else r) := by
  rw [moveRow_b]; unfold rotR rotL; congr 1; split_ifs <;> omega

theorem comb_single {n k d : ℕ} (hd : 1 ≤ d) {b : ℕ → ℕ → ℤ} {z : ℕ → ℤ} {j : ℕ} (hj : j < d) (h : ∀ i < d, i ≠ j → z i = 0) :
    blockComb n k d b z = z j • rowV n b (k + j) := by
  funext c
  unfold blockComb
  rw [Finset.sum_eq_single j]
  · rfl
  · intro i hi hne; rw [h i (Finset.mem_range.1 hi) hne, zero_mul]
  · intro hc; exact absurd (Finset.mem_range.2 hj) hc

theorem insertGeneric_inserted {fuel : ℕ} {x : ℕ → Exact} {z : ℕ → ℤ} {dual : Bool} {s : GSO Exact} (hs : Full s) (h1 : 1 ≤ d)
    (hd : kappa + d ≤ s.d) (hx : ∀ i < d, x i = some (z i : ℚ)) (hgcd : ∀ m : ℤ, (∀ i < d, m ∣ z i) → IsUnit m)
    (hf : 2 * (∑ i ∈ Finset.range d, |z i|) + 1 < fuel) :
    ∃ g, insertGeneric fuel kappa d x dual s = .ok () g ∧ Inserted s.nCols kappa d dual z s.b g.s.b := by
  have hr : Rep d z ⟨x, s⟩ := hx
  obtain ⟨n1, n2⟩ := negateLoop_rel (kappa := kappa) (dual := dual) (g := ⟨x, s⟩) hs hr
  obtain ⟨z', g', a1, a2, a3⟩ := levelLoop_tree (kappa := kappa) (dual := dual) (fuel := fuel) d 1 _ _ le_rfl h1
    (by rw [one_mul]; exact Nat.lt_two_pow_self.le) n2.full (by rw [n2.dim]; exact hd) n1 (fun i _ => abs_nonneg _) hf
    (fun i _ _ => one_dvd _)
  have R := n2.trans a2.rel
  dsimp only at R
  have hz0 : ∀ i < d, i ≠ d - 1 → z' i = 0 := fun i hi hne => by
    by_contra hc; exact hne (a3 i hi hc)
  have hu : IsUnit (z' (d - 1)) := by
    refine hgcd _ (R.dvd _ fun i hi => ?_)
    by_cases h : i = d - 1
    · rw [h]
    · rw [hz0 i hi h]; exact dvd_zero _
  have hone : z' (d - 1) = 1 := by
    rcases Int.isUnit_iff.1 hu with h | h
    · exact h
    · have := a2.nonneg (d - 1) (by omega); omega
  unfold insertGeneric
  rw [a1]
  have hb : (g'.s.rowOpEnd kappa (kappa + d)).b = g'.s.b := (rowOpEnd_fo _ _ _).b
  refine ⟨_, rfl, ?_⟩
  cases dual with
  | true =>
    refine Inserted.of_blockEq (b1 := g'.s.b) ⟨R.block, nofun, fun _ w hw => ⟨fun i hi => ?_, .inl ?_⟩⟩ hb
    · rw [R.dualv rfl w hw i (by omega), hz0 i (by omega) (by omega)]; rfl
    · rw [show kappa + d - 1 = kappa + (d - 1) by omega, R.dualv rfl w hw (d - 1) (by omega), hone]; rfl
  | false =>
    have hsb : SameBlock s.nCols kappa d g'.s.b ((g'.s.rowOpEnd kappa (kappa + d)).moveRow (kappa + d - 1) kappa).b := by
      have := moveRow_sameBlock (g'.s.rowOpEnd kappa (kappa + d)) s.nCols (k := kappa) (d := d) (o := kappa + d - 1) (n := kappa)
        (by omega) (by omega)
      rwa [hb] at this
    refine ⟨R.block.trans hsb, fun _ => .inl ?_, nofun⟩
    rw [← R.primal rfl, comb_single h1 (j := d - 1) (by omega) hz0, hone, one_smul]
    change rowV s.nCols ((g'.s.rowOpEnd kappa (kappa + d)).moveRow (kappa + d - 1) kappa).b kappa = _
    unfold rowV
    rw [moveRow_top _ (by omega), hb, show kappa + d - 1 = kappa + (d - 1) by omega]

theorem getSiExp_int {x : Exact} {a : ℤ} (h : x = some (a : ℚ)) : getSiExp x = (a, 0) := by
  subst h
  change ((⌊(a : ℚ)⌋, 0) : ℤ × ℕ) = _
  rw [Int.floor_intCast]

theorem isUnit_iff {x : Exact} {a : ℤ} (h : x = some (a : ℚ)) : isUnit x = true ↔ a = 1 ∨ a = -1 := by
  unfold isUnit
  rw [getSiExp_int h]
  simp

/-- the primal loop: `row iv` becomes `b_iv + sol ∑_{i ≠ iv} z_i b_i` -/
theorem insertLoop_primal {x : ℕ → Exact} {z : ℕ → ℤ} {s : GSO Exact} (hs : Full s) (hd : kappa + d ≤ s.d)
    (hx : ∀ i < d, x i = some (z i : ℚ)) {iv : ℕ} (hiv : iv < d) (sol : ℤ) :
    Full (insertLoop x kappa d iv false sol s) ∧ (insertLoop x kappa d iv false sol s).d = s.d ∧
    (insertLoop x kappa d iv false sol s).nCols = s.nCols ∧ SameBlock s.nCols kappa d s.b (insertLoop x kappa d iv false sol s).b ∧
    ∀ r, ∀ c < s.nCols, (insertLoop x kappa d iv false sol s).b r c =
      if r = kappa + iv then s.b (kappa + iv) c + sol * ∑ i ∈ Finset.range d, (if i = iv then 0 else z i * s.b (kappa + i) c) else s.b r c := by
  unfold insertLoop
  refine forUp_inv (P := fun m (t : GSO Exact) => Full t ∧ t.d = s.d ∧ t.nCols = s.nCols ∧ SameBlock s.nCols kappa d s.b t.b ∧
    ∀ r, ∀ c < s.nCols, t.b r c =
      if r = kappa + iv then s.b (kappa + iv) c + sol * ∑ i ∈ Finset.range m, (if i = iv then 0 else z i * s.b (kappa + i) c) else s.b r c)
    _ (Nat.zero_le d) s ⟨hs, rfl, rfl, .refl _ _ _ _, fun r c _ => by
      rw [Finset.range_zero, Finset.sum_empty, mul_zero, add_zero]; split_ifs with h
      · rw [h]
      · rfl⟩ ?_
  rintro i t _ hi ⟨t1, t2, t3, t4, t5⟩
  by_cases hc : isZero (x i) = false ∧ i ≠ iv
  · rw [if_pos hc, if_neg (by nofun)]
    have e : (mul (ofInt sol) (x i) : Exact) = some ((sol * z i : ℤ) : ℚ) := by
      rw [hx i hi]
      change some ((sol : ℚ) * (z i : ℚ)) = _
      push_cast; rfl
    rw [e]
    have hb := fun r c hc => rowAddmulWe_b t1.wf (i := kappa + iv) (j := kappa + i) (by rw [t1.source, t2]; omega) (sol * z i) r c hc
    have k := rowAddmulWe_keep t1 (i := kappa + iv) (j := kappa + i) (by omega) (by omega) (by have := hc.2; omega) (some ((sol * z i : ℤ) : ℚ))
    refine ⟨k.full, k.good.cfg.d.trans t2, k.good.cfg.nCols.trans t3, t4.trans (.add (sol * z i) hiv hi (Ne.symm hc.2) (by rw [← t3]; exact hb)), fun r c hcc => ?_⟩
    rw [hb r c (by rw [t3]; exact hcc), Finset.sum_range_succ, if_neg hc.2]
    by_cases h : r = kappa + iv
    · rw [if_pos h, if_pos h, t5 _ c hcc, if_pos rfl, t5 (kappa + i) c hcc, if_neg (by have := hc.2; omega)]; ring
    · rw [if_neg h, if_neg h, t5 r c hcc, if_neg h]
  · rw [if_neg hc]
    refine ⟨t1, t2, t3, t4, fun r c hcc => ?_⟩
    rw [t5 r c hcc, Finset.sum_range_succ]
    have : (if i = iv then 0 else z i * s.b (kappa + i) c) = 0 := by
      split_ifs with h
      · rfl
      · have : isZero (x i) = true := by
          by_contra hh; exact hc ⟨by simpa using hh, h⟩
        rw [(isZero_iff (hx i hi)).1 this, zero_mul]
    rw [this, add_zero]

/-- the dual loop: row `i ≠ iv` becomes `b_i + sol z_i b_iv` -/
theorem insertLoop_dual {x : ℕ → Exact} {z : ℕ → ℤ} {s : GSO Exact} (hs : Full s) (hd : kappa + d ≤ s.d)
    (hx : ∀ i < d, x i = some (z i : ℚ)) {iv : ℕ} (hiv : iv < d) (sol : ℤ) :
    Full (insertLoop x kappa d iv true sol s) ∧ (insertLoop x kappa d iv true sol s).d = s.d ∧
    (insertLoop x kappa d iv true sol s).nCols = s.nCols ∧ SameBlock s.nCols kappa d s.b (insertLoop x kappa d iv true sol s).b ∧
    ∀ i < d, ∀ c < s.nCols, (insertLoop x kappa d iv true sol s).b (kappa + i) c =
      if i ≠ iv then s.b (kappa + i) c + sol * z i * s.b (kappa + iv) c else s.b (kappa + i) c := by
  unfold insertLoop
  have key := forUp_inv (P := fun m (t : GSO Exact) => Full t ∧ t.d = s.d ∧ t.nCols = s.nCols ∧ SameBlock s.nCols kappa d s.b t.b ∧
    ∀ i < d, ∀ c < s.nCols, t.b (kappa + i) c =
      if i < m ∧ i ≠ iv then s.b (kappa + i) c + sol * z i * s.b (kappa + iv) c else s.b (kappa + i) c)
    (fun i (s : GSO Exact) =>
    if isZero (x i) = false ∧ i ≠ iv then
      if true = true then s.rowAddmulWe (kappa + i) (kappa + iv) (mul (ofInt sol) (x i))
      else s.rowAddmulWe (kappa + iv) (kappa + i) (mul (ofInt sol) (x i))
    else s) (Nat.zero_le d) s ⟨hs, rfl, rfl, .refl _ _ _ _, fun r _ c _ => by rw [if_neg (by omega)]⟩ (by
    rintro i t _ hi ⟨t1, t2, t3, t4, t5⟩
    by_cases hc : isZero (x i) = false ∧ i ≠ iv
    · rw [if_pos hc, if_pos rfl]
      have e : (mul (ofInt sol) (x i) : Exact) = some ((sol * z i : ℤ) : ℚ) := by
        rw [hx i hi]
        change some ((sol : ℚ) * (z i : ℚ)) = _
        push_cast; rfl
      rw [e]
      have hb := fun r c hc => rowAddmulWe_b t1.wf (i := kappa + i) (j := kappa + iv) (by rw [t1.source, t2]; omega) (sol * z i) r c hc
      have k := rowAddmulWe_keep t1 (i := kappa + i) (j := kappa + iv) (by omega) (by omega) (by have := hc.2; omega) (some ((sol * z i : ℤ) : ℚ))
      refine ⟨k.full, k.good.cfg.d.trans t2, k.good.cfg.nCols.trans t3, t4.trans (.add (sol * z i) hi hiv hc.2 (by rw [← t3]; exact hb)), fun r hr c hcc => ?_⟩
      rw [hb _ c (by rw [t3]; exact hcc)]
      by_cases h : r = i
      · subst h
        rw [if_pos rfl, t5 _ hi c hcc, if_neg (by omega), t5 _ hiv c hcc, if_neg (by omega), if_pos ⟨by omega, hc.2⟩]
      · rw [if_neg (by omega), t5 _ hr c hcc]
        by_cases h' : r < i ∧ r ≠ iv
        · rw [if_pos h', if_pos ⟨by omega, h'.2⟩]
        · rw [if_neg h', if_neg (by omega)]
    · rw [if_neg hc]
      refine ⟨t1, t2, t3, t4, fun r hr c hcc => ?_⟩
      rw [t5 _ hr c hcc]
      by_cases h : r = i
      · subst h
        rw [if_neg (by omega)]
        by_cases h' : r = iv
        · rw [if_neg (by omega)]
        · have : isZero (x r) = true := by
            by_contra hh; exact hc ⟨by simpa using hh, h'⟩
          rw [(isZero_iff (hx r hr)).1 this, if_pos ⟨by omega, h'⟩]; ring
      · by_cases h' : r < i ∧ r ≠ iv
        · rw [if_pos h', if_pos ⟨by omega, h'.2⟩]
        · rw [if_neg h', if_neg (by omega)])
  obtain ⟨k1, k2, k3, k4, k5⟩ := key
  refine ⟨k1, k2, k3, k4, fun i hi c hc => ?_⟩
  rw [k5 i hi c hc]
  by_cases h : i = iv
  · rw [if_neg (by omega), if_neg (by omega)]
  · rw [if_pos ⟨hi, h⟩, if_pos h]

/-- moving a row that carries the dual vector to the end -/
theorem dual_move {N : ℕ} {s : GSO Exact} {iv : ℕ} (hiv : iv < d) {w : Fin N → ℚ} {e : ℚ}
    (h0 : ∀ i < d, i ≠ iv → pairing N w s.b (kappa + i) = 0) (he : pairing N w s.b (kappa + iv) = e) :
    (∀ i < d - 1, pairing N w (s.moveRow (kappa + iv) (kappa + d - 1)).b (kappa + i) = 0) ∧
    pairing N w (s.moveRow (kappa + iv) (kappa + d - 1)).b (kappa + d - 1) = e := by
  have hm := moveRow_last s (o := kappa + iv) (n := kappa + d - 1) (by omega)
  have hp : ∀ r, pairing N w (s.moveRow (kappa + iv) (kappa + d - 1)).b r =
      pairing N w s.b (if r < kappa + iv then r else if r < kappa + d - 1 then r + 1 else if r = kappa + d - 1 then kappa + iv else r) := by
    intro r; unfold pairing; rw [hm]
  constructor
  · intro i hi
    rw [hp]
    split_ifs with h1 h2
    · exact h0 i (by omega) (by omega)
    · exact h0 (i + 1) (by omega) (by omega)
    · omega
    · omega
  · rw [hp, if_neg (by omega), if_neg (by omega), if_pos rfl, he]

theorem insertUnit_inserted {x : ℕ → Exact} {z : ℕ → ℤ} {dual : Bool} {s : GSO Exact} (hs : Full s)
    (hd : kappa + d ≤ s.d) (hx : ∀ i < d, x i = some (z i : ℚ)) {iv : ℕ} (hiv : iv < d) (hu : z iv = 1 ∨ z iv = -1) :
    Inserted s.nCols kappa d dual z s.b (insertUnit x kappa d iv dual s).b := by
  have hsol : (getSiExp (x iv)).1 = z iv := by rw [getSiExp_int (hx iv hiv)]
  have hsq : z iv * z iv = 1 := by rcases hu with h | h <;> rw [h] <;> rfl
  unfold insertUnit
  rw [hsol]
  cases dual with
  | false =>
    obtain ⟨k1, k2, k3, k4, k5⟩ := insertLoop_primal hs hd hx hiv (z iv)
    simp only [if_neg (show ¬ (false = true) by nofun)]
    generalize insertLoop x kappa d iv false (z iv) s = t at *
    have hb : (t.rowOpEnd (kappa + iv) (kappa + iv + 1)).b = t.b := (rowOpEnd_fo _ _ _).b
    refine ⟨?_, fun _ => ?_, nofun⟩
    · have := moveRow_sameBlock (t.rowOpEnd (kappa + iv) (kappa + iv + 1)) s.nCols (k := kappa) (d := d) (o := kappa + iv) (n := kappa)
        (by omega) (by omega)
      rw [hb] at this
      exact k4.trans this
    · have e : blockComb s.nCols kappa d s.b z = z iv • rowV s.nCols ((t.rowOpEnd (kappa + iv) (kappa + iv + 1)).moveRow (kappa + iv) kappa).b kappa := by
        funext c
        unfold blockComb rowV
        rw [moveRow_top _ (by omega), hb]
        change _ = z iv * t.b (kappa + iv) c
        rw [k5 _ _ c.2, if_pos rfl, mul_add, ← mul_assoc, hsq, one_mul]
        have e1 : ∀ i ∈ Finset.range d, z i * s.b (kappa + i) c =
            (if i = iv then z iv * s.b (kappa + iv) c else 0) + (if i = iv then 0 else z i * s.b (kappa + i) c) := by
          intro i _; by_cases h : i = iv
          · rw [if_pos h, if_pos h, h, add_zero]
          · rw [if_neg h, if_neg h, zero_add]
        rw [Finset.sum_congr rfl e1, Finset.sum_add_distrib, Finset.sum_ite_eq', if_pos (Finset.mem_range.2 hiv)]
      rcases hu with h | h
      · left; rw [e, h, one_smul]
      · right; rw [e, h, neg_smul, one_smul, neg_neg]
  | true =>
    obtain ⟨k1, k2, k3, k4, k5⟩ := insertLoop_dual hs hd hx hiv (z iv * -1)
    simp only [if_true]
    generalize insertLoop x kappa d iv true (z iv * -1) s = t at *
    have hb : (t.rowOpEnd kappa (kappa + d)).b = t.b := (rowOpEnd_fo _ _ _).b
    refine ⟨?_, nofun, fun _ w hw => ?_⟩
    · have := moveRow_sameBlock (t.rowOpEnd kappa (kappa + d)) s.nCols (k := kappa) (d := d) (o := kappa + iv) (n := kappa + d - 1)
        (by omega) (by omega)
      rw [hb] at this
      exact k4.trans this
    · have hpi : ∀ i < d, pairing s.nCols w t.b (kappa + i) = if i ≠ iv then (0 : ℚ) else z iv := by
        intro i hi
        by_cases h : i = iv
        · subst h
          rw [if_neg (by omega), ← hw i hi]
          unfold pairing
          refine Finset.sum_congr rfl fun c _ => ?_
          rw [k5 i hi c c.2, if_neg (by omega)]
        · rw [if_pos h]
          have e : pairing s.nCols w t.b (kappa + i) =
              pairing s.nCols w s.b (kappa + i) + ((z iv * -1 * z i : ℤ) : ℚ) * pairing s.nCols w s.b (kappa + iv) := by
            unfold pairing
            rw [Finset.mul_sum, ← Finset.sum_add_distrib]
            refine Finset.sum_congr rfl fun c _ => ?_
            rw [k5 i hi c c.2, if_pos h]; push_cast; ring
          rw [e, hw i hi, hw iv hiv]
          have : ((z iv : ℤ) : ℚ) * z iv = 1 := by exact_mod_cast hsq
          push_cast
          linear_combination (-(z i : ℚ)) * this
      obtain ⟨m1, m2⟩ := dual_move (kappa := kappa) (s := t.rowOpEnd kappa (kappa + d)) hiv (w := w) (e := z iv)
        (fun i hi hne => by rw [hb, hpi i hi, if_pos hne]) (by rw [hb, hpi iv hiv, if_neg (by omega)])
      refine ⟨m1, ?_⟩
      rcases hu with h | h
      · left; rw [m2, h]; rfl
      · right; rw [m2, h]; push_cast; rfl

theorem moveOnly_inserted {z : ℕ → ℤ} (dual : Bool) {s : GSO Exact} {iv : ℕ} (hiv : iv < d)
    (hu : z iv = 1 ∨ z iv = -1) (h0 : ∀ i < d, i ≠ iv → z i = 0) :
    Inserted s.nCols kappa d dual z s.b (s.moveRow (kappa + iv) (if dual = true then kappa + d - 1 else kappa)).b := by
  cases dual with
  | false =>
    rw [if_neg (by nofun)]
    refine ⟨moveRow_sameBlock s _ (by omega) (by omega), fun _ => ?_, nofun⟩
    rw [comb_single (by omega) hiv h0]
    have e : rowV s.nCols (s.moveRow (kappa + iv) kappa).b kappa = rowV s.nCols s.b (kappa + iv) := by
      unfold rowV; rw [moveRow_top _ (by omega)]
    rcases hu with h | h
    · left; rw [e, h, one_smul]
    · right; rw [e, h, neg_smul, one_smul, neg_neg]
  | true =>
    rw [if_pos rfl]
    refine ⟨moveRow_sameBlock s _ (by omega) (by omega), nofun, fun _ w hw => ?_⟩
    obtain ⟨m1, m2⟩ := dual_move (kappa := kappa) (s := s) hiv (w := w) (e := z iv)
      (fun i hi hne => by rw [hw i hi, h0 i hi hne]; rfl) (hw iv hiv)
    refine ⟨m1, ?_⟩
    rcases hu with h | h
    · left; rw [m2, h]; rfl
    · right; rw [m2, h]; push_cast; rfl

theorem postprocess_inserted (c : SvpCfg Exact) {x : ℕ → Exact} {z : ℕ → ℤ} (dual : Bool) {w : W Exact} (hs : Full w.s)
    (hd : kappa + d ≤ w.s.d) (hx : ∀ i < d, x i = some (z i : ℚ)) (hgcd : ∀ m : ℤ, (∀ i < d, m ∣ z i) → IsUnit m)
    (hf : 2 * (∑ i ∈ Finset.range d, |z i|) + 1 < c.inner) :
    ∃ w', postprocess c kappa d x dual w = .ok () w' ∧ Inserted w.s.nCols kappa d dual z w.s.b w'.s.b := by
  have h1 : 1 ≤ d := by
    by_contra hc
    have := hgcd 2 (fun i hi => by omega)
    rw [Int.isUnit_iff] at this; omega
  obtain ⟨e1, e2, e3⟩ := scan_spec x d
  unfold postprocess
  dsimp only
  cases hp : (scan x d).2 with
  | none =>
    by_cases hn : (scan x d).1 = 1
    · exfalso
      obtain ⟨i, hi, q1, q2, q3⟩ := loneNonUnit_of_scan hn hp
      have hu := hgcd (z i) (fun j hj => by
        by_cases h : j = i
        · rw [h]
        · rw [(isZero_iff (hx j hj)).1 (q3 j hj h)]; exact dvd_zero _)
      rw [Int.isUnit_iff] at hu
      have := (isUnit_iff (hx i hi)).2 hu
      rw [q2] at this; cases this
    · rw [if_neg hn]
      obtain ⟨g, g1, g2⟩ := insertGeneric_inserted (fuel := c.inner) (dual := dual) hs h1 hd hx hgcd hf
      rw [g1]
      exact ⟨_, rfl, g2⟩
  | some iv =>
    obtain ⟨hiv, hnz, hun⟩ := e2 iv hp
    have hu := (isUnit_iff (hx iv hiv)).1 hun
    by_cases hn : (scan x d).1 = 1
    · rw [if_pos hn]
      refine ⟨_, rfl, moveOnly_inserted dual hiv hu fun i hi hne => ?_⟩
      rw [hn] at e1
      obtain ⟨a, ha⟩ := List.length_eq_one_iff.1 e1.symm
      have hm : ∀ j, (j < d ∧ isZero (x j) = false) ↔ j = a := by
        intro j
        have : j ∈ (List.range d).filter (fun i => !isZero (x i)) ↔ j ∈ [a] := by rw [ha]
        simpa using this
      have hia := (hm iv).1 ⟨hiv, hnz⟩
      by_contra hcon
      have : isZero (x i) = false := by
        cases hz : isZero (x i)
        · rfl
        · exact absurd ((isZero_iff (hx i hi)).1 hz) hcon
      have := (hm i).1 ⟨hi, this⟩
      omega
    · rw [if_neg hn]
      exact ⟨_, rfl, insertUnit_inserted hs hd hx hiv hu⟩

end insert

end BKZ
end Fplll

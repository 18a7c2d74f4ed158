import Verif.Proofs.EnumNode

/-!
# The recursive enumeration walks the whole tree
-/

open Finset

namespace Fplll
namespace Enum

variable {σ : Type}

/-! ## Descending -/

theorem refresh_spec {c : Cfg} {k b : ℕ} {s : St σ} {v : ℕ → ℤ} (hb : b < c.K) (hkb : k ≤ b)
    (hy : ∀ j, k < j → j < c.K → yv c s j = yS c v j)
    (hr : ∀ j, b < j → j ≤ c.K → s.cps k j = psum c v k j) :
    (∀ i j, i ≠ k → refresh c s k b i j = s.cps i j) ∧
      ∀ j, k < j → j ≤ c.K → refresh c s k b k j = psum c v k j := by
  unfold refresh
  have := forDown_inv (fun n (cps : ℕ → ℕ → ℚ) => (∀ i j, i ≠ k → cps i j = s.cps i j) ∧
      ∀ j, n ≤ j → j ≤ c.K → cps k j = psum c v k j)
    (fun j (cps : ℕ → ℕ → ℚ) => setAt2 cps k j (c.fl (cps k (j + 1) - c.fl (yv c s j * c.mt k j))))
    (a := k + 1) (b := b + 1) (by omega) s.cps
    ⟨fun _ _ _ => rfl, fun j hj hj' => hr j (by omega) hj'⟩ ?_
  · exact ⟨this.1, fun j hj hj' => this.2 j hj hj'⟩
  · intro n cps h1 h2 ⟨h3, h4⟩
    constructor
    · intro i j hi
      simp only [setAt2, hi, false_and, if_false]
      exact h3 i j hi
    · intro j hj hj'
      simp only [setAt2, true_and]
      split_ifs with hjn
      · subst hjn
        rw [h4 (j + 1) (by omega) (by omega), hy j (by omega) (by omega), ← psum_succ c v k j (by omega)]
      · exact h4 j (by omega) hj'

/-- What is true after descending from an accepted node of level `k + 1`. -/
structure Descended (c : Cfg) (p0 : ℚ) (k : ℕ) (s t : St σ) : Prop where
  lvl : Lvl c p0 k t
  x : ∀ j, k < j → t.x j = s.x j
  dx : ∀ j, k < j → t.dx j = s.dx j
  ddx : ∀ j, k < j → t.ddx j = s.ddx j
  center : ∀ j, k < j → t.center j = s.center j
  partdist : ∀ j, k < j → t.partdist j = s.partdist j
  alpha : ∀ j, k + 1 < j → t.alpha j = s.alpha j
  cps : ∀ i j, k < i → t.cps i j = s.cps i j
  row : ∀ j, k < j → j ≤ c.K → t.cps k j = psum c s.x k j
  beg : ∀ j, k + 1 < j → t.cpsBegin j = s.cpsBegin j
  begk : t.cpsBegin (k + 1) = k + 1
  xk : t.x k = roundto (t.center k)
  dxk : t.dx k = startDir (t.center k) (t.x k)
  ddxk : t.ddx k = startDir (t.center k) (t.x k)

theorem descend_spec {c : Cfg} {E : EvalOps σ} {p0 : ℚ} {k : ℕ} {s s1 : St σ} {S : List Event}
    (hl : Lvl c p0 (k + 1) s) (h : NodeDone c E (k + 1) s s1 S) :
    Descended c p0 k s (descend c s1 k (newdist c s (k + 1))) := by
  have hK := hl.kK
  have hal : ∀ j, k < j → j < c.K → s1.alpha j = al c s.x j := by
    intro j hj hjK
    rw [h.alpha, setAt]
    split_ifs with hjk
    · subst hjk; exact (newdist_eq hl).1
    · exact hl.alpha j (by omega) hjK
  have hbeg := hl.beg (k + 1) (by omega) le_rfl
  have hb1 : s1.cpsBegin = s.cpsBegin := h.cpsBegin
  have href := refresh_spec (c := c) (k := k) (b := s.cpsBegin (k + 1)) (s := s1) (v := s.x) hbeg.2 (by omega)
    (fun j hj hjK => by
      unfold yv yS
      rw [hal j hj hjK, h.x])
    (fun j hj hjK => by
      rw [h.cps]
      exact hl.rows k (by omega) j hjK (fun l h1 h2 => by
        have : l = k + 1 := by omega
        subst this; exact hj))
  have hctr : refresh c s1 k (s.cpsBegin (k + 1)) k (k + 1) = cen c s.x k := by
    rw [href.2 (k + 1) (by omega) (by omega), cen_eq]
  have hxx : ∀ j, k < j → (descend c s1 k (newdist c s (k + 1))).x j = s.x j := by
    intro j hj
    simp only [descend, startLevel, setAt, h.x]
    rw [if_neg (by omega)]
  have hbegt : ∀ l, (descend c s1 k (newdist c s (k + 1))).cpsBegin l =
      if l = k + 1 then k + 1 else if l = k then max (s.cpsBegin k) (s.cpsBegin (k + 1)) else s.cpsBegin l := by
    intro l
    simp only [descend, startLevel, hb1]
    by_cases h1 : s.cpsBegin (k + 1) > s.cpsBegin k
    · simp only [if_pos h1, setAt]
      rw [max_eq_right h1.le]
    · simp only [if_neg h1, setAt]
      rw [max_eq_left (by omega)]
      split_ifs with h2 h3
      · rfl
      · rw [h3]
      · rfl
  have hcpst : ∀ i j, (descend c s1 k (newdist c s (k + 1))).cps i j = refresh c s1 k (s.cpsBegin (k + 1)) i j := by
    intro i j
    simp only [descend, startLevel, hb1]
  constructor
  · constructor
    · omega
    · intro j hj hjK
      have : (descend c s1 k (newdist c s (k + 1))).alpha j = s1.alpha j := rfl
      rw [this, hal j hj hjK]
      exact al_congr c _ _ j (fun l hl' _ => (hxx l (by omega)).symm) hjK
    · have : (descend c s1 k (newdist c s (k + 1))).partdist k = newdist c s (k + 1) := by
        simp [descend, startLevel, setAt]
      rw [this, (newdist_eq hl).2]
      exact pd_congr c p0 _ _ _ (fun j hj _ => (hxx j (by omega)).symm)
    · have : (descend c s1 k (newdist c s (k + 1))).center k = refresh c s1 k (s.cpsBegin (k + 1)) k (k + 1) := by
        simp [descend, startLevel, setAt, hb1]
      rw [this, hctr]
      exact cen_congr c _ _ k (fun j hj _ => (hxx j hj).symm)
    · intro i hi j hjK hbl
      rw [hcpst, href.1 i j (by omega), h.cps]
      have hk := hbl k hi le_rfl
      rw [hbegt, if_neg (by omega), if_pos rfl] at hk
      rw [hl.rows i (by omega) j hjK]
      · exact psum_congr c _ _ i j (fun l hl' _ => (hxx l (by omega)).symm)
      · intro l hil hlk
        rcases Nat.lt_or_ge l k with h1 | h1
        · have := hbl l hil h1.le
          rw [hbegt, if_neg (by omega), if_neg (by omega)] at this
          exact this
        · rcases Nat.lt_or_ge k l with h2 | h2
          · have : l = k + 1 := by omega
            subst this; omega
          · have : l = k := by omega
            subst this; omega
    · intro l h1 h2
      rw [hbegt, if_neg (by omega)]
      split_ifs with h3
      · subst h3
        have := hl.beg l h1 (by omega)
        omega
      · exact hl.beg l h1 (by omega)
    · change s1.bounds = setBounds c s1.maxdist
      rw [h.bounds, h.maxdist, hl.bnd]
  · exact hxx
  · intro j hj
    simp only [descend, startLevel, setAt, h.dx]
    rw [if_neg (by omega)]
  · intro j hj
    simp only [descend, startLevel, setAt, h.ddx]
    rw [if_neg (by omega)]
  · intro j hj
    simp only [descend, startLevel, setAt, h.center]
    rw [if_neg (by omega)]
  · intro j hj
    simp only [descend, startLevel, setAt, h.partdist]
    rw [if_neg (by omega)]
  · intro j hj
    have : (descend c s1 k (newdist c s (k + 1))).alpha j = s1.alpha j := rfl
    rw [this, h.alpha, setAt, if_neg (by omega)]
  · intro i j hi
    rw [hcpst, href.1 i j (by omega), h.cps]
  · intro j hj hjK
    rw [hcpst, href.2 j hj hjK]
  · intro j hj
    rw [hbegt, if_neg (by omega), if_neg (by omega)]
  · rw [hbegt, if_pos rfl]
  · simp [descend, startLevel, setAt]
  · simp [descend, startLevel, setAt]
  · simp [descend, startLevel, setAt]

/-- the cheaper update for later siblings does the same as the general one -/
theorem descendNext_eq (c : Cfg) (s : St σ) (k : ℕ) (nd : ℚ) (h : s.cpsBegin (k + 1) = k + 1) :
    descendNext c s k nd = descend c s k nd := by
  have hr : refresh c s k (k + 1) = setAt2 s.cps k (k + 1)
      (c.fl (s.cps k (k + 1 + 1) - c.fl (yv c s (k + 1) * c.mt k (k + 1)))) := by
    unfold refresh
    rw [forDown, if_pos le_rfl, forDown_empty le_rfl]
  have hb : setAt (if k + 1 > s.cpsBegin k then setAt s.cpsBegin k (k + 1) else s.cpsBegin) (k + 1) (k + 1) =
      if k + 1 > s.cpsBegin k then setAt s.cpsBegin k (k + 1) else s.cpsBegin := by
    funext l
    simp only [setAt]
    by_cases hl : l = k + 1
    · rw [if_pos hl]
      subst hl
      by_cases h1 : k + 1 > s.cpsBegin k
      · simp only [if_pos h1, setAt]
        rw [if_neg (by omega), h]
      · simp only [if_neg h1]; rw [h]
    · rw [if_neg hl]
  unfold descendNext descend
  simp only [h, hr, hb]

/-- Coming back to level `k + 1` after the walk below one of its nodes. -/
theorem return_lvl {c : Cfg} {p0 : ℚ} {k : ℕ} {s t s2 : St σ} (hl : Lvl c p0 (k + 1) s)
    (hd : Descended c p0 k s t) (hf : Frame k t s2) (hl2 : Lvl c p0 k s2) :
    Lvl c p0 (k + 1) s2 ∧ Frame (k + 1) s s2 ∧ s2.x (k + 1) = s.x (k + 1) ∧ s2.dx (k + 1) = s.dx (k + 1) ∧
      s2.ddx (k + 1) = s.ddx (k + 1) ∧ s2.cpsBegin (k + 1) = k + 1 := by
  have hx : ∀ j, k < j → s2.x j = s.x j := fun j hj => (hf.x j hj).trans (hd.x j hj)
  have hb : s2.cpsBegin (k + 1) = k + 1 := by rw [hf.beg _ (by omega), hd.begk]
  have hK := hl.kK
  refine ⟨?_, ?_, hx _ (by omega), (hf.dx _ (by omega)).trans (hd.dx _ (by omega)),
    (hf.ddx _ (by omega)).trans (hd.ddx _ (by omega)), hb⟩
  · constructor
    · exact hK
    · intro j hj hjK
      exact hl2.alpha j (by omega) hjK
    · rw [hf.partdist _ (by omega), hd.partdist _ (by omega), hl.pdist]
      exact pd_congr c p0 _ _ _ (fun j hj _ => (hx j (by omega)).symm)
    · rw [hf.center _ (by omega), hd.center _ (by omega), hl.ctr]
      exact cen_congr c _ _ _ (fun j hj _ => (hx j (by omega)).symm)
    · intro i hi j hjK hbl
      rcases Nat.lt_or_ge i k with hik | hik
      · exact hl2.rows i hik j hjK (fun l h1 h2 => hbl l h1 (by omega))
      · have : i = k := by omega
        subst this
        have hj := hbl (i + 1) (by omega) le_rfl
        rw [hf.cps i j le_rfl, hd.row j (by omega) hjK]
        exact psum_congr c _ _ i j (fun l hl' _ => (hx l (by omega)).symm)
    · intro l h1 h2
      rcases Nat.lt_or_ge k l with h3 | h3
      · have : l = k + 1 := by omega
        subst this
        omega
      · exact hl2.beg l h1 h3
    · exact hl2.bnd
  · constructor
    · intro j hj; exact hx j (by omega)
    · intro j hj; exact (hf.dx j (by omega)).trans (hd.dx j (by omega))
    · intro j hj; exact (hf.ddx j (by omega)).trans (hd.ddx j (by omega))
    · intro j hj; exact (hf.center j (by omega)).trans (hd.center j (by omega))
    · intro j hj; exact (hf.partdist j (by omega)).trans (hd.partdist j (by omega))
    · intro j hj; exact (hf.alpha j (by omega)).trans (hd.alpha j (by omega))
    · intro i j hi; exact (hf.cps i j (by omega)).trans (hd.cps i j (by omega))
    · intro j hj; exact (hf.beg j (by omega)).trans (hd.beg j (by omega))

/-! ## The sequence of siblings -/

/-- the `n`-th value of a coordinate -/
def seq (Z : Bool) (x0 sd : ℤ) (n : ℕ) : ℤ := if Z then x0 + n else x0 + zz sd n

/-- a proper start of a sequence of siblings around `ctr` -/
structure SeqOK (Z : Bool) (x0 sd : ℤ) (ctr : ℚ) : Prop where
  zero : Z = true → ctr = 0 ∧ 0 ≤ x0
  dir : Z = false → sd = 1 ∨ sd = -1
  close : Z = false → |ctr - x0| ≤ 1 / 2
  sign : Z = false → 0 ≤ (sd : ℚ) * (ctr - x0)

theorem SeqOK.inj {Z : Bool} {x0 sd : ℤ} {ctr : ℚ} (h : SeqOK Z x0 sd ctr) {m n : ℕ}
    (he : seq Z x0 sd m = seq Z x0 sd n) : m = n := by
  unfold seq at he
  cases Z with
  | true => simpa using he
  | false =>
    simp only [Bool.false_eq_true, if_false] at he
    exact zz_inj (h.dir rfl) (by omega)

theorem SeqOK.dist_mono {Z : Bool} {x0 sd : ℤ} {ctr : ℚ} (h : SeqOK Z x0 sd ctr) {m n : ℕ} (hmn : m ≤ n) :
    |(seq Z x0 sd m : ℚ) - ctr| ≤ |(seq Z x0 sd n : ℚ) - ctr| := by
  unfold seq
  cases Z with
  | true =>
    obtain ⟨h1, h2⟩ := h.zero rfl
    simp only [if_true, h1, sub_zero]
    have h3 : (0 : ℚ) ≤ x0 := by exact_mod_cast h2
    have h4 : (m : ℚ) ≤ n := by exact_mod_cast hmn
    have h5 : (0 : ℚ) ≤ m := by positivity
    push_cast
    rw [abs_of_nonneg (by linarith), abs_of_nonneg (by linarith)]
    linarith
  | false =>
    simp only [Bool.false_eq_true, if_false]
    have := zz_dist_mono (h.dir rfl) (h.close rfl) (h.sign rfl) hmn
    push_cast
    rw [show (x0 : ℚ) + zz sd m - ctr = zz sd m - (ctr - x0) by ring,
      show (x0 : ℚ) + zz sd n - ctr = zz sd n - (ctr - x0) by ring]
    exact this

theorem SeqOK.dist_ge {Z : Bool} {x0 sd : ℤ} {ctr : ℚ} (h : SeqOK Z x0 sd ctr) (n : ℕ) :
    (n : ℚ) / 2 ≤ |(seq Z x0 sd n : ℚ) - ctr| := by
  unfold seq
  cases Z with
  | true =>
    obtain ⟨h1, h2⟩ := h.zero rfl
    simp only [if_true, h1, sub_zero]
    have h3 : (0 : ℚ) ≤ x0 := by exact_mod_cast h2
    have h5 : (0 : ℚ) ≤ n := by positivity
    push_cast
    rw [abs_of_nonneg (by linarith)]
    linarith
  | false =>
    simp only [Bool.false_eq_true, if_false]
    have := zz_dist_ge (h.dir rfl) (h.close rfl) (h.sign rfl) n
    push_cast
    rw [show (x0 : ℚ) + zz sd n - ctr = zz sd n - (ctr - x0) by ring]
    exact this

theorem SeqOK.surj {Z : Bool} {x0 sd : ℤ} {ctr : ℚ} (h : SeqOK Z x0 sd ctr) (z : ℤ) :
    (∃ n, 0 ≤ n ∧ z = seq Z x0 sd n) ↔ (Z = true → x0 ≤ z) := by
  unfold seq
  cases Z with
  | true =>
    simp only [if_true, forall_const]
    constructor
    · rintro ⟨n, -, rfl⟩; omega
    · intro hz
      exact ⟨(z - x0).toNat, by omega, by omega⟩
  | false =>
    simp only [Bool.false_eq_true, if_false, false_imp_iff, iff_true]
    obtain ⟨n, hn⟩ := zz_surj (h.dir rfl) (z - x0)
    exact ⟨n, by omega, by omega⟩

theorem sq_le_of_abs {a b : ℚ} (h : |a| ≤ |b|) : a * a ≤ b * b := by
  have := sq_le_sq.2 h
  nlinarith

/-! ## One level -/

/-- Invariant of the sibling loop of level `k` at the `n`-th value. -/
structure SibInv (c : Cfg) (p0 : ℚ) (I : σ → ℚ → Prop) (k : ℕ) (Z : Bool) (x0 sd : ℤ) (n : ℕ) (s : St σ) : Prop where
  lvl : Lvl c p0 k s
  inv : I s.ev s.maxdist
  xk : s.x k = seq Z x0 sd n
  dxk : Z = false → s.dx k = zdx sd n ∧ s.ddx k = zddx sd n
  z : Z = true ↔ c.svp = true ∧ s.partdist k = 0
  ok : SeqOK Z x0 sd (s.center k)
  sub : ∀ l, l < c.K → s.subsoldists l ≤ c.rdiag l

/-- what follows the bookkeeping of an accepted node -/
def post (c : Cfg) (E : EvalOps σ) (s1 : St σ) (nd : ℚ) : ℕ → St σ
  | 0 => leaf c E s1 nd
  | k + 1 => descend c s1 k nd

theorem first_eq (c : Cfg) (E : EvalOps σ) (s : St σ) (k : ℕ) :
    first c E s k = post c E (subsolTest c E (enter c s k) k (newdist c s k)) (newdist c s k) k := by
  cases k <;> rfl

theorem next_eq (c : Cfg) (E : EvalOps σ) (s : St σ) (k : ℕ) (h : 1 ≤ k → s.cpsBegin k = k) :
    next c E s k = post c E (enter c s k) (newdist c s k) k := by
  cases k with
  | zero => rfl
  | succ k =>
    change descendNext c (enter c s (k + 1)) k (newdist c s (k + 1)) = _
    rw [descendNext_eq c (enter c s (k + 1)) k _ (h (by omega))]
    rfl

/-- a sufficient iteration budget for level `k` -/
def Enough (c : Cfg) (b : ℕ → ℚ) (fuel : ℕ) : Prop :=
  ∀ k, k < c.K → b k < ((fuel : ℚ) / 8) * ((fuel : ℚ) / 8) * c.rdiag k

theorem Enough.mono {c : Cfg} {b b' : ℕ → ℚ} {fuel : ℕ} (h : Enough c b fuel) (hb : ∀ k, k < c.K → b' k ≤ b k) :
    Enough c b' fuel := fun k hk => (hb k hk).trans_lt (h k hk)

/-! ## The iterative walk -/

/-- the iterative loop gets from one configuration to the other -/
def Reach (c : Cfg) (E : EvalOps σ) (s : St σ) (k : ℕ) (s' : St σ) (k' : ℕ) : Prop :=
  ∃ n, ∀ m, iterate c E (n + m) s k = iterate c E m s' k'

theorem Reach.refl (c : Cfg) (E : EvalOps σ) (s : St σ) (k : ℕ) : Reach c E s k s k :=
  ⟨0, fun m => by rw [Nat.zero_add]⟩

theorem Reach.trans {c : Cfg} {E : EvalOps σ} {s t u : St σ} {i j k : ℕ} (h : Reach c E s i t j)
    (g : Reach c E t j u k) : Reach c E s i u k := by
  obtain ⟨a, ha⟩ := h
  obtain ⟨b, hb⟩ := g
  exact ⟨a + b, fun m => by rw [Nat.add_assoc, ha, hb]⟩

theorem Reach.step {c : Cfg} {E : EvalOps σ} {s s' : St σ} {k k' : ℕ} (h : loopStep c E s k = (s', some k')) :
    Reach c E s k s' k' :=
  ⟨1, fun m => by rw [Nat.add_comm, iterate, h]⟩

/-- inside the tree, `next_pos_up` chooses the next sibling like the recursive code -/
theorem nextPosUp_eq (c : Cfg) (s : St σ) (k : ℕ) (hk : k < c.K) : nextPosUp c s k = some (sibling c s k) := by
  unfold nextPosUp sibling
  by_cases h1 : s.partdist k = 0
  · by_cases h2 : c.svp = true
    · simp [h1, h2, not_le.2 hk]
    · simp [h1, h2, not_le.2 hk]
  · simp [h1]

/-- going up after a failed test -/
theorem Reach.up {c : Cfg} {E : EvalOps σ} {s : St σ} {k : ℕ} (hk : k + 1 < c.K)
    (h : ¬ newdist c s k ≤ s.bounds k) : Reach c E s k (sibling c s (k + 1)) (k + 1) := by
  apply Reach.step
  unfold loopStep
  rw [if_neg h, nextPosUp_eq c s (k + 1) hk]

/-- outcome of a recursive call for level `m` -/
def RecOut (c : Cfg) (E : EvalOps σ) (p0 : ℚ) (I : σ → ℚ → Prop) (fuel m : ℕ) (Z : Bool) (x0 : ℤ) (t : St σ) : Prop :=
  ∃ t' L, recursive c E fuel (m + 1) t = some t' ∧ Frame m t t' ∧ Lvl c p0 m t' ∧
    Walked c E p0 I m (fun z => Z = true → x0 ≤ z) t t' L ∧ Reach c E t m t' m ∧ ¬ newdist c t' m ≤ t'.bounds m

/-- the walk below (and including) one accepted node, given the recursive call for the level below -/
theorem visit_ok {c : Cfg} {E : EvalOps σ} {p0 : ℚ} {I : σ → ℚ → Prop} (hT : TreeOK c p0) (hE : EvalOK c E I)
    {fuel k : ℕ} {Z : Bool} {x0 sd : ℤ} {n : ℕ} {s s1 : St σ} {S : List Event}
    (hi : SibInv c p0 I k Z x0 sd n s) (hacc : newdist c s k ≤ s.bounds k) (hN : NodeDone c E k s s1 S)
    (hs1 : s1 = subsolTest c E (enter c s k) k (newdist c s k)) (hF : Enough c s.bounds fuel)
    (ih : ∀ m, k = m + 1 → ∀ (Z' : Bool) (x0' sd' : ℤ) (t : St σ), SibInv c p0 I m Z' x0' sd' 0 t →
      Enough c t.bounds fuel → RecOut c E p0 I fuel m Z' x0' t) :
    ∃ s2 L, recursive c E fuel k (post c E s1 (newdist c s k) k) = some s2 ∧ Frame k s s2 ∧ Lvl c p0 k s2 ∧
      s2.x k = s.x k ∧ s2.dx k = s.dx k ∧ s2.ddx k = s.ddx k ∧ (1 ≤ k → s2.cpsBegin k = k) ∧
      Walked c E p0 I k (fun z => z = s.x k) s s2 L ∧ Reach c E s k (sibling c s2 k) k := by
  cases k with
  | zero =>
    obtain ⟨L, hL, hb⟩ := leaf_walked hT hE hi.inv hi.lvl hacc hN
    have hfld : ∀ t : St σ, (leaf c E s1 (newdist c s 0)) = t → t.x = s.x ∧ t.dx = s.dx ∧ t.ddx = s.ddx ∧
        t.center = s.center ∧ t.partdist = s.partdist ∧ t.alpha = setAt s.alpha 0 (alphak c s 0) ∧ t.cps = s.cps ∧
        t.cpsBegin = s.cpsBegin := by
      intro t ht
      subst ht
      unfold leaf
      split_ifs
      · exact ⟨hN.x, hN.dx, hN.ddx, hN.center, hN.partdist, hN.alpha, hN.cps, hN.cpsBegin⟩
      · exact ⟨hN.x, hN.dx, hN.ddx, hN.center, hN.partdist, hN.alpha, hN.cps, hN.cpsBegin⟩
    obtain ⟨f1, f2, f3, f4, f5, f6, f7, f8⟩ := hfld _ rfl
    refine ⟨leaf c E s1 (newdist c s 0), L, rfl, ?_, ?_, by rw [f1], by rw [f2], by rw [f3], by omega, hL, ?_⟩
    rotate_right
    · apply Reach.step
      unfold loopStep
      rw [if_pos hacc]
      simp only [← hs1]
      rw [nextPosUp_eq c _ 0 hi.lvl.kK]
    · constructor
      · intro j _; rw [f1]
      · intro j _; rw [f2]
      · intro j _; rw [f3]
      · intro j _; rw [f4]
      · intro j _; rw [f5]
      · intro j hj; rw [f6, setAt, if_neg (by omega)]
      · intro i j _; rw [f7]
      · intro j _; rw [f8]
    · constructor
      · exact hi.lvl.kK
      · intro j hj hjK
        rw [f6, setAt, if_neg (by omega), f1]
        exact hi.lvl.alpha j hj hjK
      · rw [f5, f1]; exact hi.lvl.pdist
      · rw [f4, f1]; exact hi.lvl.ctr
      · intro i hi'; omega
      · intro l h1 h2; omega
      · exact hb
  | succ k =>
    have hd := descend_spec hi.lvl hN
    set t := descend c s1 k (newdist c s (k + 1)) with ht
    have te : t.events = s1.events ∧ t.ev = s1.ev ∧ t.maxdist = s1.maxdist ∧ t.bounds = s1.bounds ∧
        t.nodes = s1.nodes ∧ t.subsoldists = s1.subsoldists := by
      rw [ht]; exact ⟨rfl, rfl, rfl, rfl, rfl, rfl⟩
    obtain ⟨e1, e2, e3, e4, e5, e7⟩ := te
    have hpd : pd c p0 t.x (k + 1) = pd c p0 s.x (k + 1) := pd_congr _ _ _ _ _ (fun j hj _ => hd.x j (by omega))
    -- the child starts a proper sequence
    have hchild : SibInv c p0 I k (decide (c.svp = true ∧ t.partdist k = 0)) (t.x k) (startDir (t.center k) (t.x k)) 0 t := by
      constructor
      · exact hd.lvl
      · rw [e2, e3]; exact hN.inv hE hi.inv
      · unfold seq
        split_ifs
        · simp
        · rw [zz_zero, add_zero]
      · intro _
        rw [zdx_zero, zddx_zero]
        exact ⟨hd.dxk, hd.ddxk⟩
      · rw [decide_eq_true_iff]
      · constructor
        · intro hz
          rw [decide_eq_true_iff] at hz
          have h0 : t.center k = 0 := by
            rw [hd.lvl.ctr]
            have hp : pd c p0 t.x (k + 1) = 0 := by rw [← hd.lvl.pdist]; exact hz.2
            have hzp := hT.zero_prefix hz.1 t.x (k + 1) hp
            rw [cen_eq]
            refine psum_zero hT.rnd t.x k _ ((hT.svp0 hz.1).2 k hd.lvl.kK) ?_
            intro i h3 h4
            obtain ⟨h1, h2⟩ := hzp i h3 h4
            unfold yS al
            rw [h1, h2]
            simp [hT.rnd.zero]
          refine ⟨h0, ?_⟩
          rw [hd.xk, h0, roundto_zero]
        · intro _; exact startDir_or _ _
        · intro _
          rw [hd.xk, abs_sub_comm]; exact roundto_spec _
        · intro _; exact startDir_sign _ _
      · intro l hl
        rw [e7]; exact (hN.subLe l).trans (hi.sub l hl)
    obtain ⟨s2, L, hrec, hfr, hlv, hw, hre, hfail⟩ := ih k rfl _ _ _ t hchild (hF.mono (fun j _ => by rw [e4, hN.bounds]))
    obtain ⟨r1, r2, r3, r4, r5, r6⟩ := return_lvl hi.lvl hd hfr hlv
    refine ⟨s2, .node (k + 1) s.x (newdist c s (k + 1)) :: S ++ L, hrec, r2, r1, r3, r4, r5, fun _ => r6, ?_, ?_⟩
    rotate_right
    · refine Reach.trans (Reach.step ?_) (hre.trans (Reach.up hi.lvl.kK hfail))
      unfold loopStep
      rw [if_pos hacc]
      simp only [← hs1]
      rfl
    refine visit_walked hi.lvl hacc hN e1 e2 e3 e4 e5 (fun j hj => by rw [hd.x j hj, hN.x]) e7 (hw.congrP ?_)
    intro z
    rw [decide_eq_true_iff, hd.lvl.pdist, hpd]
    constructor
    · intro h1 h2 h3
      have := h1 ⟨h2, h3⟩
      have hz : (decide (c.svp = true ∧ t.partdist k = 0)) = true := by
        rw [decide_eq_true_iff, hd.lvl.pdist, hpd]; exact ⟨h2, h3⟩
      have := (hchild.ok.zero hz).2
      omega
    · rintro h1 ⟨h2, h3⟩
      have hz : (decide (c.svp = true ∧ t.partdist k = 0)) = true := by
        rw [decide_eq_true_iff, hd.lvl.pdist, hpd]; exact ⟨h2, h3⟩
      have h0 := (hchild.ok.zero hz).1
      rw [hd.xk, h0, roundto_zero]
      exact h1 h2 h3

theorem nd_seq {c : Cfg} {p0 : ℚ} {k : ℕ} {s : St σ} (hl : Lvl c p0 k s) (v : ℕ → ℤ)
    (ha : ∀ j, k < j → v j = s.x j) :
    pd c p0 v k = c.fl (s.partdist k + c.fl (c.fl (c.fl ((v k : ℚ) - s.center k) *
      c.fl ((v k : ℚ) - s.center k)) * c.rdiag k)) := by
  rw [pd_succ c p0 v k hl.kK, hl.pdist, al, hl.ctr, cen_congr c v s.x k (fun j hj _ => ha j hj),
    pd_congr c p0 v s.x (k + 1) (fun j hj _ => ha j (by omega))]

/-- The state after moving on to the next sibling. -/
theorem sibling_inv {c : Cfg} {p0 : ℚ} {I : σ → ℚ → Prop} {k : ℕ} {Z : Bool} {x0 sd : ℤ} {n : ℕ}
    {s s2 : St σ} (hi : SibInv c p0 I k Z x0 sd n s) (hf : Frame k s s2) (hl : Lvl c p0 k s2)
    (hI : I s2.ev s2.maxdist) (hx : s2.x k = s.x k) (hdx : s2.dx k = s.dx k) (hddx : s2.ddx k = s.ddx k)
    (hsub : ∀ l, s2.subsoldists l ≤ s.subsoldists l) :
    SibInv c p0 I k Z x0 sd (n + 1) (sibling c s2 k) ∧ Frame k s2 (sibling c s2 k) ∧
      (sibling c s2 k).events = s2.events ∧ (sibling c s2 k).ev = s2.ev ∧ (sibling c s2 k).maxdist = s2.maxdist ∧
      (sibling c s2 k).bounds = s2.bounds ∧ (sibling c s2 k).nodes = s2.nodes ∧
      (sibling c s2 k).subsoldists = s2.subsoldists ∧ (sibling c s2 k).cpsBegin = s2.cpsBegin := by
  have hpart := hf.partdist k le_rfl
  have hctr := hf.center k le_rfl
  have hlv : ∀ t : St σ, (∀ j, j ≠ k → t.x j = s2.x j) → t.alpha = s2.alpha → t.partdist = s2.partdist →
      t.center = s2.center → t.cps = s2.cps → t.cpsBegin = s2.cpsBegin → t.bounds = s2.bounds →
      t.maxdist = s2.maxdist → Lvl c p0 k t := by
    intro t h1 h2 h3 h4 h5 h6 h7 h8
    constructor
    · exact hl.kK
    · intro j hj hjK
      rw [h2, hl.alpha j hj hjK]
      exact al_congr c _ _ j (fun l hl' _ => (h1 l (by omega)).symm) hjK
    · rw [h3, hl.pdist]; exact pd_congr c p0 _ _ _ (fun j hj _ => (h1 j (by omega)).symm)
    · rw [h4, hl.ctr]; exact cen_congr c _ _ _ (fun j hj _ => (h1 j (by omega)).symm)
    · intro i hi' j hjK hb
      rw [h6] at hb
      rw [h5, hl.rows i hi' j hjK hb]
      have h9 := hb k hi' le_rfl
      have h10 := (hl.beg k (by omega) le_rfl).1
      exact psum_congr c _ _ i j (fun l hl' _ => (h1 l (by omega)).symm)
    · rw [h6]; exact hl.beg
    · rw [h7, h8]; exact hl.bnd
  unfold sibling
  by_cases hz : Z = true
  · have hz' := hi.z.1 hz
    rw [if_neg (by rw [hpart, hz'.2, hz'.1]; simp)]
    refine ⟨⟨hlv _ (fun j hj => by simp [incr, setAt, hj]) rfl rfl rfl rfl rfl rfl rfl, hI, ?_, ?_, ?_, ?_, ?_⟩,
      ⟨?_, fun _ _ => rfl, fun _ _ => rfl, fun _ _ => rfl, fun _ _ => rfl, fun _ _ => rfl, fun _ _ _ => rfl,
        fun _ _ => rfl⟩, rfl, rfl, rfl, rfl, rfl, rfl, rfl⟩
    · simp only [incr, setAt, if_true, hx, hi.xk, seq, hz]
      push_cast; ring
    · intro h; rw [hz] at h; cases h
    · change Z = true ↔ c.svp = true ∧ s2.partdist k = 0
      rw [hpart]; exact hi.z
    · change SeqOK Z x0 sd (s2.center k)
      rw [hctr]; exact hi.ok
    · intro l hl'; exact (hsub l).trans (hi.sub l hl')
    · intro j hj
      simp only [incr, setAt]; rw [if_neg (by omega)]
  · have hz0 : Z = false := by simpa using hz
    have hz' : c.svp = false ∨ s2.partdist k ≠ 0 := by
      rw [hpart]
      by_contra hcon
      push Not at hcon
      exact hz (hi.z.2 ⟨by simpa using hcon.1, hcon.2⟩)
    rw [if_pos hz']
    obtain ⟨hd1, hd2⟩ := hi.dxk hz0
    refine ⟨⟨hlv _ (fun j hj => by simp [zigzag, setAt, hj]) rfl rfl rfl rfl rfl rfl rfl, hI, ?_, ?_, ?_, ?_, ?_⟩,
      ⟨?_, ?_, ?_, fun _ _ => rfl, fun _ _ => rfl, fun _ _ => rfl, fun _ _ _ => rfl,
        fun _ _ => rfl⟩, rfl, rfl, rfl, rfl, rfl, rfl, rfl⟩
    · simp only [zigzag, setAt, if_true, hx, hi.xk, hdx, hd1, seq, hz0, zz_succ]
      simp; ring
    · intro _
      simp only [zigzag, setAt, if_true, hdx, hddx, hd1, hd2, zdx_succ, zddx_succ, and_self]
    · change Z = true ↔ c.svp = true ∧ s2.partdist k = 0
      rw [hpart]; exact hi.z
    · change SeqOK Z x0 sd (s2.center k)
      rw [hctr]; exact hi.ok
    · intro l hl'; exact (hsub l).trans (hi.sub l hl')
    · intro j hj
      simp only [zigzag, setAt]; rw [if_neg (by omega)]
    · intro j hj
      simp only [zigzag, setAt]; rw [if_neg (by omega)]
    · intro j hj
      simp only [zigzag, setAt]; rw [if_neg (by omega)]

theorem SibInv.newdist {c : Cfg} {p0 : ℚ} {I : σ → ℚ → Prop} {k : ℕ} {Z : Bool} {x0 sd : ℤ} {n : ℕ} {s : St σ}
    (hi : SibInv c p0 I k Z x0 sd n s) :
    newdist c s k = c.fl (s.partdist k + c.fl (c.fl (c.fl ((seq Z x0 sd n : ℚ) - s.center k) *
      c.fl ((seq Z x0 sd n : ℚ) - s.center k)) * c.rdiag k)) := by
  unfold Enum.newdist alphak
  rw [hi.xk]

/-- no sub-solution can be missed at a later sibling -/
theorem later_sibling_sub {c : Cfg} {p0 : ℚ} {I : σ → ℚ → Prop} (hT : TreeOK c p0) {k : ℕ} {Z : Bool} {x0 sd : ℤ}
    {n : ℕ} {s s3 : St σ} (hi : SibInv c p0 I k Z x0 sd n s) (hi3 : SibInv c p0 I k Z x0 sd (n + 1) s3)
    (hf : Frame k s s3)
    (hsub : newdist c s k ≠ 0 → s3.subsoldists k ≤ newdist c s k) :
    s3.subsoldists k ≤ newdist c s3 k := by
  have hr := hT.rpos k hi.lvl.kK
  have hctr := hf.center k le_rfl
  have hpart := hf.partdist k le_rfl
  have hmono := dist_mono hT.rnd (p := s.partdist k) hr.le (hi.ok.dist_mono (Nat.le_succ n))
  have h3 := hi3.newdist
  have h1 := hi.newdist
  rw [hctr, hpart] at h3
  by_cases h0 : newdist c s k = 0
  · have hp : 0 ≤ s.partdist k := by rw [hi.lvl.pdist]; exact hT.pd_nonneg _ _
    have hq := hT.incr_nonneg (c.fl ((seq Z x0 sd n : ℚ) - s.center k)) hi.lvl.kK
    rw [h0, eq_comm, hT.rnd.eq_zero] at h1
    have hp0 : s.partdist k = 0 := by linarith
    have hq0 : c.fl (c.fl (c.fl ((seq Z x0 sd n : ℚ) - s.center k) *
        c.fl ((seq Z x0 sd n : ℚ) - s.center k)) * c.rdiag k) = 0 := by linarith
    have hc : s.center k = seq Z x0 sd n := by
      rw [hT.rnd.eq_zero, mul_eq_zero, hT.rnd.eq_zero, mul_self_eq_zero, hT.rnd.eq_zero] at hq0
      rcases hq0 with h | h
      · linarith
      · linarith
    have hne : seq Z x0 sd (n + 1) ≠ seq Z x0 sd n := fun he => by
      have := hi.ok.inj he; omega
    have h1le : |(1 : ℚ)| ≤ |(seq Z x0 sd (n + 1) : ℚ) - s.center k| := by
      rw [hc, abs_one]
      have h2 : seq Z x0 sd (n + 1) - seq Z x0 sd n ≠ 0 := sub_ne_zero.2 hne
      have := Int.one_le_abs h2
      exact_mod_cast this
    have h5 := dist_mono hT.rnd (p := 0) hr.le h1le
    rw [hT.rnd.one, one_mul, hT.rnd.one, one_mul, hT.rrep k hi.lvl.kK, zero_add, hT.rrep k hi.lvl.kK] at h5
    rw [h3, hp0]
    exact (hi3.sub k hi.lvl.kK).trans h5
  · have := hsub h0
    rw [h3]; rw [h1] at this
    exact this.trans hmono

/-- The sibling loop from the `n`-th value on. -/
theorem loop_ok {c : Cfg} {E : EvalOps σ} {p0 : ℚ} {I : σ → ℚ → Prop} (hT : TreeOK c p0) (hE : EvalOK c E I)
    {fuel k : ℕ} {Z : Bool} {x0 sd : ℤ}
    (ih : ∀ m, k = m + 1 → ∀ (Z' : Bool) (x0' sd' : ℤ) (t : St σ), SibInv c p0 I m Z' x0' sd' 0 t →
      Enough c t.bounds fuel → RecOut c E p0 I fuel m Z' x0' t)
    (f : ℕ) : ∀ (n : ℕ) (s s1 : St σ) (S : List Event), SibInv c p0 I k Z x0 sd n s →
      newdist c s k ≤ s.bounds k → NodeDone c E k s s1 S →
      s1 = subsolTest c E (enter c s k) k (newdist c s k) → Enough c s.bounds fuel → fuel ≤ n + f →
      ∃ s' L, sibLoop c E (recursive c E fuel k) k f (post c E s1 (newdist c s k) k) = some s' ∧
        Frame k s s' ∧ Lvl c p0 k s' ∧
        Walked c E p0 I k (fun z => ∃ n', n ≤ n' ∧ z = seq Z x0 sd n') s s' L ∧ Reach c E s k s' k ∧
        ¬ newdist c s' k ≤ s'.bounds k := by
  induction f with
  | zero =>
    intro n s s1 S hi hacc hN _ hF hn
    exfalso
    have hr := hT.rpos k hi.lvl.kK
    have h1 := hi.newdist
    have h2 := hi.ok.dist_ge n
    have h3 : (fuel : ℚ) / 2 ≤ (n : ℚ) / 2 := by
      have : (fuel : ℚ) ≤ n := by exact_mod_cast hn
      linarith
    have h4 : (0 : ℚ) ≤ (fuel : ℚ) / 2 := by positivity
    have h7 := hF k hi.lvl.kK
    have h8 : 0 ≤ s.partdist k := by rw [hi.lvl.pdist]; exact hT.pd_nonneg _ _
    have h9 := dist_grow hT.rnd hr.le h8 h4 (h3.trans h2)
    rw [← h1, show (fuel : ℚ) / 2 / 4 = fuel / 8 by ring] at h9
    linarith
  | succ f ihf =>
    intro n s s1 S hi hacc hN hs1 hF hn
    obtain ⟨s2, L, v1, v2, v3, v4, v5, v6, v7, v8, v9⟩ := visit_ok hT hE hi hacc hN hs1 hF ih
    obtain ⟨i3, f3, e1, e2, e3, e4, e5, e6, e7⟩ := sibling_inv hi v2 v3 v8.inv v4 v5 v6 v8.subLe
    have hfr : Frame k s (sibling c s2 k) := v2.trans f3
    have hK := hi.lvl.kK
    rw [sibLoop, v1]
    simp only
    have hw' : Walked c E p0 I k (fun z => z = s.x k) s (sibling c s2 k) L :=
      v8.congr rfl rfl rfl rfl rfl (fun _ _ => rfl) rfl e1 e2 e3 e4 e5 e6
    have hP : ∀ z, (z = s.x k ∨ ∃ n', n + 1 ≤ n' ∧ z = seq Z x0 sd n') ↔ ∃ n', n ≤ n' ∧ z = seq Z x0 sd n' := by
      intro z
      constructor
      · rintro (h | ⟨n', h1, h2⟩)
        · exact ⟨n, le_rfl, by rw [h, hi.xk]⟩
        · exact ⟨n', by omega, h2⟩
      · rintro ⟨n', h1, h2⟩
        rcases Nat.lt_or_ge n n' with h3 | h3
        · exact .inr ⟨n', h3, h2⟩
        · have : n' = n := by omega
          subst this
          exact .inl (by rw [h2, hi.xk])
    have hdis : ∀ z, z = s.x k → ¬ ∃ n', n + 1 ≤ n' ∧ z = seq Z x0 sd n' := by
      rintro z rfl ⟨n', h1, h2⟩
      rw [hi.xk] at h2
      have := hi.ok.inj h2
      omega
    have hord : ∀ v w : ℕ → ℤ, (∀ j, k < j → v j = s.x j) → (∀ j, k < j → w j = s.x j) → v k = s.x k →
        (∃ n', n + 1 ≤ n' ∧ w k = seq Z x0 sd n') → pd c p0 v k ≤ pd c p0 w k := by
      rintro v w hv hw h1 ⟨n', h2, h3⟩
      rw [nd_seq hi.lvl v hv, nd_seq hi.lvl w hw, h1, h3, hi.xk]
      exact dist_mono hT.rnd (hT.rpos k hK).le (hi.ok.dist_mono (show n ≤ n' by omega))
    split_ifs with hacc3
    · have hNext : c.findsubsols = true → newdist c (sibling c s2 k) k ≠ 0 →
          (sibling c s2 k).subsoldists k ≤ newdist c (sibling c s2 k) k := by
        intro hfs _
        refine later_sibling_sub hT hi i3 hfr ?_
        intro hne
        rw [e6]
        have hbd : ∀ j, k ≤ j → j ≤ k → pd c p0 s.x j ≤ s2.bounds j := by
          intro j hj hj'
          have : j = k := by omega
          subst this
          rw [← (newdist_eq hi.lvl).2]
          refine le_trans ?_ (le_trans hacc3 (le_of_eq (congrFun e4 j)))
          rw [hi.newdist, i3.newdist, hfr.center j le_rfl, hfr.partdist j le_rfl]
          exact dist_mono hT.rnd (hT.rpos j hK).le (hi.ok.dist_mono (Nat.le_succ n))
        obtain ⟨w, hw, -⟩ := v8.comp s.x k le_rfl (fun _ _ => rfl) rfl (fun j h1 h2 => by omega) hbd
        have h9 := v8.subNode hfs k w _ hw (by rw [← (newdist_eq hi.lvl).2]; exact hne)
        rwa [(newdist_eq hi.lvl).2]
      have hN3 := enter_done c E (sibling c s2 k) k hNext
      rw [next_eq c E _ k (fun h1 => by rw [e7]; exact v7 h1)]
      obtain ⟨s', M, m1, m2, m3, m4, m5, m6⟩ := ihf (n + 1) (sibling c s2 k) _ _ i3 hacc3 hN3
        (subsolTest_skip c E (sibling c s2 k) k hNext).symm (hF.mono (fun j hj => by rw [e4]; exact v8.anti j hj)) (by omega)
      refine ⟨s', L ++ M, m1, hfr.trans m2, m3, ?_, v9.trans m5, m6⟩
      exact (hw'.append hK m4 hfr.x hdis hord).congrP hP
    · refine ⟨sibling c s2 k, L ++ [], rfl, hfr, i3.lvl, ?_, v9, hacc3⟩
      refine (hw'.append (Q := fun z => ∃ n', n + 1 ≤ n' ∧ z = seq Z x0 sd n') hK (Walked.nil i3.inv ?_) hfr.x hdis hord).congrP hP
      rintro v ha ⟨n', h1, h2⟩ hle
      apply hacc3
      refine le_trans ?_ hle
      rw [nd_seq i3.lvl v ha, i3.newdist, h2]
      exact dist_mono hT.rnd (hT.rpos k hK).le (i3.ok.dist_mono h1)

/-- `enumerate_recursive` started at a fresh level walks exactly the tree below it. -/
theorem recursive_ok {c : Cfg} {E : EvalOps σ} {p0 : ℚ} {I : σ → ℚ → Prop} (hT : TreeOK c p0) (hE : EvalOK c E I)
    {fuel : ℕ} (k : ℕ) : ∀ (Z : Bool) (x0 sd : ℤ) (s : St σ), SibInv c p0 I k Z x0 sd 0 s →
      Enough c s.bounds fuel → RecOut c E p0 I fuel k Z x0 s := by
  induction k with
  | zero =>
    intro Z x0 sd s hi hF
    unfold RecOut
    rw [recursive]
    split_ifs with hacc
    · obtain ⟨S, hN⟩ := subsolTest_done c E s 0
      rw [first_eq]
      obtain ⟨s', L, h1, h2, h3, h4, h5, h6⟩ := loop_ok hT hE (fun m hm => by omega) fuel 0 s _ S hi hacc hN rfl hF (by omega)
      exact ⟨s', L, h1, h2, h3, h4.congrP hi.ok.surj, h5, h6⟩
    · refine ⟨s, [], rfl, Frame.refl _ _, hi.lvl, Walked.nil hi.inv ?_, Reach.refl _ _ _ _, hacc⟩
      intro v ha hP hle
      obtain ⟨n, -, hn⟩ := (hi.ok.surj _).2 hP
      apply hacc
      refine le_trans ?_ hle
      rw [nd_seq hi.lvl v ha, hi.newdist, hn]
      exact dist_mono hT.rnd (hT.rpos 0 hi.lvl.kK).le (hi.ok.dist_mono (Nat.zero_le n))
  | succ k ih =>
    intro Z x0 sd s hi hF
    unfold RecOut
    rw [recursive]
    split_ifs with hacc
    · obtain ⟨S, hN⟩ := subsolTest_done c E s (k + 1)
      rw [first_eq]
      obtain ⟨s', L, h1, h2, h3, h4, h5, h6⟩ := loop_ok hT hE (fun m hm => by
        have : m = k := by omega
        subst this
        exact ih) fuel 0 s _ S hi hacc hN rfl hF (by omega)
      exact ⟨s', L, h1, h2, h3, h4.congrP hi.ok.surj, h5, h6⟩
    · refine ⟨s, [], rfl, Frame.refl _ _, hi.lvl, Walked.nil hi.inv ?_, Reach.refl _ _ _ _, hacc⟩
      intro v ha hP hle
      obtain ⟨n, -, hn⟩ := (hi.ok.surj _).2 hP
      apply hacc
      refine le_trans ?_ hle
      rw [nd_seq hi.lvl v ha, hi.newdist, hn]
      exact dist_mono hT.rnd (hT.rpos (k + 1) hi.lvl.kK).le (hi.ok.dist_mono (Nat.zero_le n))

end Enum
end Fplll

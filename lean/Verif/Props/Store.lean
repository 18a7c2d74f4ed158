import Verif.Model.Store

/-!
# C36: transpose and resize
-/

namespace Fplll
namespace MStore

variable {α : Type}

/-! ## What the operations should do -/

/-- arguments in range -/
def Valid (r c : ℕ) : Op α → Prop
  | .resize _ _ _ => True
  | .transpose _ => True
  | .write i j _ => i < r ∧ j < c
  | .swapRows i j => i < r ∧ j < r

/-- dimensions after an operation -/
def dims (r c : ℕ) : Op α → ℕ × ℕ
  | .resize _ rows cols => (rows, cols)
  | .transpose _ => (c, r)
  | _ => (r, c)

/-- all arguments of a history are in range -/
def ValidHist : ℕ → ℕ → List (Op α) → Prop
  | _, _, [] => True
  | r, c, o :: l => Valid r c o ∧ ValidHist (dims r c o).1 (dims r c o).2 l

/-- `Effect r c E o E'`: what operation `o` has to do to the entries `E` of an `r × c` matrix -/
def Effect (r c : ℕ) (E : ℕ → ℕ → α) : Op α → (ℕ → ℕ → α) → Prop
  | .resize _ rows cols, E' => ∀ i j, i < r → i < rows → j < c → j < cols → E' i j = E i j
  | .transpose _, E' => ∀ i j, i < r → j < c → E' j i = E i j
  | .write i j x, E' => E' i j = x ∧ ∀ a b, a < r → b < c → (a, b) ≠ (i, j) → E' a b = E a b
  | .swapRows i j, E' => ∀ a b, a < r → b < c → E' a b = E (if a = i then j else if a = j then i else a) b

/-- effects of a history -/
inductive Effects : ℕ → ℕ → (ℕ → ℕ → α) → List (Op α) → (ℕ → ℕ → α) → Prop
  | nil (r c : ℕ) (E : ℕ → ℕ → α) : Effects r c E [] E
  | cons (r c : ℕ) (E E' E'' : ℕ → ℕ → α) (o : Op α) (l : List (Op α)) : Effect r c E o E' →
      Effects (dims r c o).1 (dims r c o).2 E' l E'' → Effects r c E (o :: l) E''

/-! ## Invariant -/

/-- all entries of the matrix exist -/
def Inv (m : MStore α) : Prop := m.r ≤ m.len ∧ ∀ i < m.r, m.c ≤ m.size i

theorem forOpt_inv {σ : Type} (P : ℕ → σ → Prop) (f : ℕ → σ → Option σ) {a b : ℕ} (hab : a ≤ b) (s : σ) (h0 : P a s)
    (hs : ∀ i s, a ≤ i → i < b → P i s → ∃ s', f i s = some s' ∧ P (i + 1) s') :
    ∃ s', forOpt a b f (some s) = some s' ∧ P b s' := by
  have := forUp_inv (fun i (t : Option σ) => ∃ s', t = some s' ∧ P i s') (fun i s => s.bind (f i)) hab (some s)
    ⟨s, rfl, h0⟩ (fun i t h1 h2 h3 => by
      obtain ⟨s', rfl, hp⟩ := h3
      obtain ⟨s'', e, hp'⟩ := hs i s' h1 h2 hp
      exact ⟨s'', e, hp'⟩)
  exact this

theorem forOpt_empty {σ : Type} (f : ℕ → σ → Option σ) {a b : ℕ} (hab : b ≤ a) (s : Option σ) :
    forOpt a b f s = s := forUp_empty hab _ _

/-- a loop that resizes the rows `a, …, b-1` -/
theorem resizeRows (junk : ℕ → ℕ → α) (a b n : ℕ) (m : MStore α) (hb : b ≤ m.len) :
    ∃ m', forOpt a b (fun i m => resizeRow junk i n m) (some m) = some m' ∧ m'.len = m.len ∧ m'.r = m.r ∧ m'.c = m.c ∧
      (∀ k, m'.size k = if a ≤ k ∧ k < b then n else m.size k) ∧
      ∀ k j, (a ≤ k ∧ k < b → j < m.size k) → m'.ent k j = m.ent k j := by
  by_cases hab : a ≤ b
  · obtain ⟨m', e, h⟩ := forOpt_inv (fun i (m' : MStore α) => m'.len = m.len ∧ m'.r = m.r ∧ m'.c = m.c ∧
        (∀ k, m'.size k = if a ≤ k ∧ k < i then n else m.size k) ∧
        ∀ k j, (a ≤ k ∧ k < i → j < m.size k) → m'.ent k j = m.ent k j)
      (fun i m => resizeRow junk i n m) hab m
      ⟨rfl, rfl, rfl, fun k => by rw [if_neg (by omega)], fun _ _ _ => rfl⟩ (by
        intro i s h1 h2 ⟨e1, e2, e3, e4, e5⟩
        refine ⟨{ s with size := fun k => if k = i then n else s.size k,
                         ent := fun k j => if k = i ∧ s.size i ≤ j then junk k j else s.ent k j },
          ?_, e1, e2, e3, ?_, ?_⟩
        · unfold resizeRow
          rw [if_pos (by omega)]
        · intro k
          dsimp only
          by_cases hk : k = i
          · rw [if_pos hk, if_pos (by omega)]
          · rw [if_neg hk, e4]
            by_cases hk2 : a ≤ k ∧ k < i
            · rw [if_pos hk2, if_pos (by omega)]
            · rw [if_neg hk2, if_neg (by omega)]
        · intro k j hj
          dsimp only
          rw [if_neg, e5 k j (fun h => hj (by omega))]
          rintro ⟨rfl, h⟩
          rw [e4, if_neg (by omega)] at h
          have := hj (by omega)
          omega)
    exact ⟨m', e, h⟩
  · exact ⟨m, forOpt_empty _ (by omega) _, rfl, rfl, rfl, fun k => by rw [if_neg (by omega)], fun _ _ _ => rfl⟩

theorem resize_spec (junk : ℕ → ℕ → α) (rows cols : ℕ) {m : MStore α} (h : Inv m) :
    ∃ m', m.resize junk rows cols = some m' ∧ m'.r = rows ∧ m'.c = cols ∧ rows ≤ m'.len ∧ m.len ≤ m'.len ∧
      (m.len < m'.len → m.len < rows) ∧
      (∀ k, m'.size k = if m.r ≤ k ∧ k < rows then cols else if k < min m.r rows ∧ cols ≠ m.c then cols
        else if k < m.len then m.size k else if m.len < rows then 0 else m.size k) ∧
      ∀ i j, i < m.r → i < rows → j < m.c → m'.ent i j = m.ent i j := by
  obtain ⟨hr, hc⟩ := h
  set m1 := if m.len < rows then growStore (max (m.len * 2) rows) m else m with hm1
  have g1 : rows ≤ m1.len ∧ m.len ≤ m1.len ∧ (m.len < m1.len → m.len < rows) ∧ m1.r = m.r ∧ m1.c = m.c ∧
      (∀ k, m1.size k = if k < m.len then m.size k else if m.len < rows then 0 else m.size k) ∧ m1.ent = m.ent := by
    rw [hm1]
    split_ifs with h
    · refine ⟨by simp [growStore], by simp only [growStore]; omega, fun _ => h, rfl, rfl, fun k => ?_, rfl⟩
      simp [growStore]
    · exact ⟨by omega, le_rfl, fun h => absurd h (by omega), rfl, rfl, fun k => by split_ifs <;> rfl, rfl⟩
  obtain ⟨a1, a2, a3, a4, a5, a6, a7⟩ := g1
  obtain ⟨m2, b0, b1, b2, b3, b4, b5⟩ := resizeRows junk m.r rows cols m1 a1
  have g3 : ∃ m3, (if cols ≠ m.c then forOpt 0 (min m.r rows) (fun i m => resizeRow junk i cols m) (some m2) else some m2)
      = some m3 ∧ m3.len = m2.len ∧ (∀ k, m3.size k = if k < min m.r rows ∧ cols ≠ m.c then cols else m2.size k) ∧
      ∀ k j, (k < min m.r rows → j < m2.size k) → m3.ent k j = m2.ent k j := by
    split_ifs with h
    · obtain ⟨m3, c0, c1, c2, c3, c4, c5⟩ := resizeRows junk 0 (min m.r rows) cols m2 (by omega)
      refine ⟨m3, c0, c1, fun k => ?_, fun k j hj => c5 k j (fun h => hj h.2)⟩
      rw [c4]
      by_cases hk : k < min m.r rows
      · rw [if_pos ⟨Nat.zero_le _, hk⟩, if_pos ⟨hk, h⟩]
      · rw [if_neg (by omega), if_neg (by tauto)]
    · exact ⟨m2, rfl, rfl, fun k => by rw [if_neg (by tauto)], fun _ _ _ => rfl⟩
  obtain ⟨m3, c0, c1, c2, c3⟩ := g3
  refine ⟨{ m3 with r := rows, c := cols }, ?_, rfl, rfl, ?_, ?_, ?_, ?_, ?_⟩
  · unfold resize
    rw [← hm1]
    dsimp only
    rw [b0, c0]
    rfl
  · dsimp only; omega
  · dsimp only; omega
  · dsimp only; intro h; exact a3 (by omega)
  · intro k
    dsimp only
    rw [c2, b4, a6]
    by_cases h1 : m.r ≤ k ∧ k < rows
    · rw [if_pos h1, if_neg (by omega), if_pos h1]
    · rw [if_neg h1, if_neg h1]
  · intro i j h1 h2 h3
    dsimp only
    have hs : m2.size i = m.size i := by
      rw [b4, if_neg (by omega), a6, if_pos (by omega)]
    rw [c3 i j (fun _ => by rw [hs]; have := hc i h1; omega), b5 i j (by omega), a7]

/-- the first loop of `transpose` -/
theorem extendRows (junk : ℕ → ℕ → α) (b n : ℕ) (m : MStore α) (hb : b ≤ m.len) :
    ∃ m', forOpt 0 b (fun i m => extendRow junk i n m) (some m) = some m' ∧ m'.len = m.len ∧
      (∀ k, m'.size k = if k < b then max (m.size k) n else m.size k) ∧
      ∀ k j, j < m.size k → m'.ent k j = m.ent k j := by
  obtain ⟨m', e, h⟩ := forOpt_inv (fun i (m' : MStore α) => m'.len = m.len ∧
      (∀ k, m'.size k = if k < i then max (m.size k) n else m.size k) ∧
      ∀ k j, j < m.size k → m'.ent k j = m.ent k j)
    (fun i m => extendRow junk i n m) (Nat.zero_le b) m
    ⟨rfl, fun k => by rw [if_neg (by omega)], fun _ _ _ => rfl⟩ (by
      intro i s h1 h2 ⟨e1, e2, e3⟩
      have hi : s.size i = m.size i := by rw [e2, if_neg (by omega)]
      have hgoal : ∀ s' : MStore α, s'.len = s.len → (∀ k, s'.size k = if k = i then max (m.size k) n else s.size k) →
          (∀ k j, j < m.size k → s'.ent k j = s.ent k j) → s'.len = m.len ∧
          (∀ k, s'.size k = if k < i + 1 then max (m.size k) n else m.size k) ∧
          ∀ k j, j < m.size k → s'.ent k j = m.ent k j := by
        intro s' f1 f2 f3
        refine ⟨by omega, fun k => ?_, fun k j hj => by rw [f3 k j hj, e3 k j hj]⟩
        rw [f2]
        by_cases hk : k = i
        · rw [if_pos hk, if_pos (by omega)]
        · rw [if_neg hk, e2]
          by_cases hk2 : k < i
          · rw [if_pos hk2, if_pos (by omega)]
          · rw [if_neg hk2, if_neg (by omega)]
      by_cases hlt : s.size i < n
      · refine ⟨{ s with size := fun k => if k = i then n else s.size k,
                         ent := fun k j => if k = i ∧ s.size i ≤ j then junk k j else s.ent k j }, ?_,
          hgoal _ rfl ?_ ?_⟩
        · unfold extendRow resizeRow
          rw [if_pos (by omega), if_pos hlt, if_pos (by omega)]
        · intro k
          dsimp only
          by_cases hk : k = i
          · rw [if_pos hk, if_pos hk, hk]; omega
          · rw [if_neg hk, if_neg hk]
        · intro k j hj
          dsimp only
          rw [if_neg]
          rintro ⟨rfl, hh⟩
          omega
      · refine ⟨s, ?_, hgoal _ rfl ?_ (fun _ _ _ => rfl)⟩
        · unfold extendRow
          rw [if_pos (by omega), if_neg hlt]
        · intro k
          by_cases hk : k = i
          · rw [if_pos hk, hk]; omega
          · rw [if_neg hk])
  exact ⟨m', e, h⟩

/-- the inner loop of `transpose` -/
theorem swapLoop (i M : ℕ) (m : MStore α) (hi : i < M) (hM : M ≤ m.len) (h1 : M ≤ m.size i)
    (h2 : ∀ j, i < j → j < M → i < m.size j) :
    ∃ m', forOpt (i + 1) M (fun j m' => swapEnt i j j i m') (some m) = some m' ∧ m'.len = m.len ∧ m'.size = m.size ∧
      (∀ a b, a < M → b < M → m'.ent a b = if (a = i ∧ i < b) ∨ (b = i ∧ i < a) then m.ent b a else m.ent a b) := by
  obtain ⟨m', e, h⟩ := forOpt_inv (fun k (m' : MStore α) => m'.len = m.len ∧ m'.size = m.size ∧
      (∀ a b, a < M → b < M → m'.ent a b = if (a = i ∧ i < b ∧ b < k) ∨ (b = i ∧ i < a ∧ a < k) then m.ent b a else m.ent a b))
    (fun j m' => swapEnt i j j i m') (by omega : i + 1 ≤ M) m
    ⟨rfl, rfl, fun a b _ _ => by rw [if_neg (by omega)]⟩ (by
      intro k s g1 g2 ⟨e1, e2, e3⟩
      refine ⟨{ s with ent := fun a b => if a = i ∧ b = k then s.ent k i else if a = k ∧ b = i then s.ent i k else s.ent a b },
        ?_, e1, e2, ?_⟩
      · unfold swapEnt
        rw [if_pos]
        rw [e1, e2]
        have := h2 k (by omega) g2
        refine ⟨⟨by omega, by omega⟩, by omega, by omega⟩
      · intro a b ha hb
        dsimp only
        by_cases c1 : a = i ∧ b = k
        · rw [if_pos c1, if_pos (by omega), e3 k i (by omega) (by omega), if_neg (by omega), c1.1, c1.2]
        · rw [if_neg c1]
          by_cases c2 : a = k ∧ b = i
          · rw [if_pos c2, if_pos (by omega), e3 i k (by omega) (by omega), if_neg (by omega), c2.1, c2.2]
          · rw [if_neg c2, e3 a b ha hb]
            by_cases c3 : (a = i ∧ i < b ∧ b < k) ∨ (b = i ∧ i < a ∧ a < k)
            · rw [if_pos c3, if_pos (by omega)]
            · rw [if_neg c3, if_neg (by omega)])
  refine ⟨m', e, h.1, h.2.1, fun a b ha hb => ?_⟩
  rw [h.2.2 a b ha hb]
  by_cases c3 : (a = i ∧ i < b) ∨ (b = i ∧ i < a)
  · rw [if_pos (by omega), if_pos c3]
  · rw [if_neg (by omega), if_neg c3]

theorem transpose_spec (junk : ℕ → ℕ → α) {m : MStore α} (h : Inv m) :
    ∃ m', m.transpose junk = some m' ∧ m'.r = m.c ∧ m'.c = m.r ∧ m.c ≤ m'.len ∧ m'.len = max m.len m.c ∧
      (∀ k, m'.size k = if k < m.r ∧ m.r < m.c then m.r else
        if k < m.c then max (if k < m.len then m.size k else 0) m.r else if k < m.len ∨ m.c ≤ m.len then m.size k else 0) ∧
      ∀ i j, i < m.r → j < m.c → m'.ent j i = m.ent i j := by
  obtain ⟨hr, hc⟩ := h
  set m1 := if m.len < m.c then growStore m.c m else m with hm1
  have g1 : m1.len = max m.len m.c ∧
      (∀ k, m1.size k = if k < m.len ∨ m.c ≤ m.len then m.size k else 0) ∧ m1.ent = m.ent := by
    rw [hm1]
    split_ifs with h
    · refine ⟨by simp [growStore]; omega, fun k => ?_, rfl⟩
      simp only [growStore]
      by_cases hk : k < m.len
      · rw [if_pos hk, if_pos (by omega)]
      · rw [if_neg hk, if_neg (by omega)]
    · exact ⟨by omega, fun k => by rw [if_pos (by omega)], rfl⟩
  obtain ⟨a1, a2, a3⟩ := g1
  obtain ⟨m2, b0, b1, b2, b3⟩ := extendRows junk m.c m.r m1 (by omega)
  have hsz0 : ∀ k < m.r, m1.size k = m.size k := fun k hk => by rw [a2, if_pos (by omega)]
  have hsz : ∀ k, k < m.r → k < m.c → max m.r m.c ≤ m2.size k := by
    intro k h1 h2
    rw [b2, if_pos h2, hsz0 k h1]
    have := hc k h1
    omega
  obtain ⟨m3, c0, c1, c2, c3⟩ := forOpt_inv (fun i (s : MStore α) => s.len = m2.len ∧
      (∀ k, s.size k = if k < i ∧ m.r < m.c then m.r else m2.size k) ∧
      ∀ a b, a < max m.r m.c → b < max m.r m.c → s.ent a b = if min a b < i then m2.ent b a else m2.ent a b)
    (fun i m' => (forOpt (i + 1) (max m.r m.c) (fun j m' => swapEnt i j j i m') (some m')).bind
      (fun m' => if m.r < m.c then resizeRow junk i m.r m' else some m')) (Nat.zero_le (min m.r m.c)) m2
    ⟨rfl, fun k => by rw [if_neg (by omega)], fun a b _ _ => by rw [if_neg (by omega)]⟩ (by
      intro i s g1 g2 ⟨e1, e2, e3⟩
      have hsi : s.size i = m2.size i := by rw [e2, if_neg (by omega)]
      have hM : max m.r m.c ≤ s.size i := by rw [hsi]; exact hsz i (by omega) (by omega)
      obtain ⟨s1, d0, d1, d2, d3⟩ := swapLoop i (max m.r m.c) s (by omega) (by omega) hM (by
        intro j h1 h2
        rw [e2, if_neg (by omega), b2]
        by_cases hj : j < m.c
        · rw [if_pos hj]; omega
        · rw [if_neg hj, hsz0 j (by omega)]
          have := hc j (by omega)
          omega)
      have hent : ∀ a b, a < max m.r m.c → b < max m.r m.c →
          s1.ent a b = if min a b < i + 1 then m2.ent b a else m2.ent a b := by
        intro a b ha hb
        rw [d3 a b ha hb, e3 a b ha hb, e3 b a hb ha, min_comm b a]
        by_cases h1 : (a = i ∧ i < b) ∨ (b = i ∧ i < a)
        · rw [if_pos h1, if_neg (by omega), if_pos (by omega)]
        · rw [if_neg h1]
          by_cases h2 : min a b < i
          · rw [if_pos h2, if_pos (by omega)]
          · rw [if_neg h2]
            by_cases h3 : min a b < i + 1
            · have : a = b := by omega
              rw [if_pos h3, this]
            · rw [if_neg h3]
      rw [d0]
      dsimp only [Option.bind]
      by_cases hlt : m.r < m.c
      · rw [if_pos hlt]
        refine ⟨{ s1 with size := fun k => if k = i then m.r else s1.size k,
                          ent := fun k j => if k = i ∧ s1.size i ≤ j then junk k j else s1.ent k j }, ?_, ?_, ?_, ?_⟩
        · unfold resizeRow
          rw [if_pos (by omega)]
        · dsimp only; omega
        · intro k
          dsimp only
          by_cases hk : k = i
          · rw [if_pos hk, if_pos (by omega)]
          · rw [if_neg hk, d2, e2]
            by_cases hk2 : k < i
            · rw [if_pos (by omega), if_pos (by omega)]
            · rw [if_neg (by omega), if_neg (by omega)]
        · intro a b ha hb
          dsimp only
          rw [if_neg, hent a b ha hb]
          rintro ⟨rfl, hh⟩
          rw [d2] at hh
          omega
      · rw [if_neg hlt]
        refine ⟨s1, rfl, by omega, fun k => ?_, hent⟩
        rw [d2, e2, if_neg (by omega), if_neg (by omega)])
  refine ⟨{ m3 with r := m.c, c := m.r }, ?_, rfl, rfl, ?_, ?_, ?_, ?_⟩
  · unfold transpose
    rw [← hm1]
    dsimp only
    rw [b0, c0]
    rfl
  · dsimp only; omega
  · dsimp only; omega
  · intro k
    dsimp only
    rw [c2]
    by_cases h1 : k < m.r ∧ m.r < m.c
    · rw [if_pos (by omega), if_pos h1]
    · rw [if_neg (by omega), if_neg h1, b2, a2]
      by_cases h2 : k < m.c
      · rw [if_pos h2, if_pos h2]
        by_cases h3 : k < m.len
        · rw [if_pos (.inl h3), if_pos h3]
        · rw [if_neg (by omega), if_neg h3]
      · rw [if_neg h2, if_neg h2]
  · intro i j h1 h2
    dsimp only
    rw [c3 j i (by omega) (by omega), if_pos (by omega), b3 i j, a3]
    rw [hsz0 i h1]
    have := hc i h1
    omega

/-- one operation: no access out of range, the documented effect, and the invariant -/
theorem step_spec {m : MStore α} (h : Inv m) (o : Op α) (hv : Valid m.r m.c o) :
    ∃ m', m.step o = some m' ∧ Inv m' ∧ (m'.r, m'.c) = dims m.r m.c o ∧ Effect m.r m.c m.ent o m'.ent := by
  cases o with
  | resize junk rows cols =>
    obtain ⟨m', e, h1, h2, h3, h4, h4', h5, h6⟩ := resize_spec junk rows cols h
    refine ⟨m', e, ⟨by omega, ?_⟩, by simp [dims, h1, h2], fun i j g1 g2 g3 _ => h6 i j g1 g2 g3⟩
    intro i hi
    rw [h1] at hi
    rw [h2, h5]
    by_cases k1 : m.r ≤ i ∧ i < rows
    · rw [if_pos k1]
    · rw [if_neg k1]
      by_cases k2 : i < min m.r rows ∧ cols ≠ m.c
      · rw [if_pos k2]
      · have := h.1
        have := h.2 i (by omega)
        rw [if_neg k2, if_pos (by omega)]
        omega
  | transpose junk =>
    obtain ⟨m', e, h1, h2, h3, h4, h5, h6⟩ := transpose_spec junk h
    refine ⟨m', e, ⟨by omega, ?_⟩, by simp [dims, h1, h2], fun i j g1 g2 => h6 i j g1 g2⟩
    intro i hi
    rw [h1] at hi
    rw [h2, h5]
    by_cases k1 : i < m.r ∧ m.r < m.c
    · rw [if_pos k1]
    · rw [if_neg k1, if_pos hi]
      omega
  | write i j x =>
    obtain ⟨h1, h2⟩ := h
    obtain ⟨v1, v2⟩ := hv
    have := h2 i v1
    have hs : m.step (.write i j x) = some { m with ent := fun a b => if a = i ∧ b = j then x else m.ent a b } :=
      if_pos ⟨by omega, by omega⟩
    refine ⟨_, hs, ⟨h1, h2⟩, rfl, ?_, ?_⟩
    · simp
    · intro a b _ _ hne
      simp only [ne_eq, Prod.mk.injEq] at hne
      simp [hne]
  | swapRows i j =>
    obtain ⟨h1, h2⟩ := h
    obtain ⟨v1, v2⟩ := hv
    have hs : m.step (.swapRows i j) = some { m with
        size := fun k => if k = i then m.size j else if k = j then m.size i else m.size k
        ent := fun k => if k = i then m.ent j else if k = j then m.ent i else m.ent k } :=
      if_pos ⟨by omega, by omega⟩
    refine ⟨_, hs, ⟨h1, ?_⟩, rfl, ?_⟩
    · intro k hk
      dsimp only at hk ⊢
      split_ifs
      · exact h2 j v2
      · exact h2 i v1
      · exact h2 k hk
    · intro a b _ _
      dsimp only
      split_ifs <;> rfl

theorem run_spec (l : List (Op α)) : ∀ m : MStore α, Inv m → ValidHist m.r m.c l →
    ∃ m', m.run l = some m' ∧ Inv m' ∧ Effects m.r m.c m.ent l m'.ent := by
  induction l with
  | nil => intro m h _; exact ⟨m, rfl, h, .nil _ _ _⟩
  | cons o l ih =>
    intro m h ⟨v1, v2⟩
    obtain ⟨m1, e1, i1, d1, f1⟩ := step_spec h o v1
    have hd : (dims m.r m.c o).1 = m1.r ∧ (dims m.r m.c o).2 = m1.c := by rw [← d1]; exact ⟨rfl, rfl⟩
    rw [hd.1, hd.2] at v2
    obtain ⟨m2, e2, i2, f2⟩ := ih m1 i1 v2
    refine ⟨m2, ?_, i2, .cons _ _ _ m1.ent _ _ _ f1 (by rw [hd.1, hd.2]; exact f2)⟩
    unfold run
    rw [e1]
    exact e2

/-- **C36.**  After any history of size changes, transpositions, writes and row swaps on a new matrix, with arguments in
range: no operation touches memory outside of a vector, and every operation has its documented effect on the
entries (`resize` keeps the common part, `transpose` is the mathematical transpose), whatever stale rows the
store holds. -/
theorem C36_transpose_resize (junk : ℕ → ℕ → α) (l : List (Op α)) (h : ValidHist 0 0 l) :
    ∃ m', (empty junk).run l = some m' ∧ m'.r ≤ m'.len ∧ (∀ i < m'.r, m'.c ≤ m'.rowSize i) ∧
      Effects 0 0 junk l m'.ent := by
  obtain ⟨m', e, i, f⟩ := run_spec l (empty junk) ⟨le_rfl, fun i hi => absurd hi (by simp [empty])⟩ h
  exact ⟨m', e, i.1, i.2, f⟩

/-- **C36**, transposing twice restores every entry, in every state reachable by a history. -/
theorem C36_transpose_twice (junk : ℕ → ℕ → α) (l : List (Op α)) (h : ValidHist 0 0 l) (j1 j2 : ℕ → ℕ → α)
    {m m' : MStore α} (hm : (empty junk).run l = some m) (hm' : m.run [.transpose j1, .transpose j2] = some m') :
    m'.r = m.r ∧ m'.c = m.c ∧ ∀ i < m.r, ∀ j < m.c, m'.ent i j = m.ent i j := by
  obtain ⟨m0, e, i0, -⟩ := run_spec l (empty junk) ⟨le_rfl, fun i hi => absurd hi (by simp [empty])⟩ h
  rw [hm] at e
  obtain rfl : m = m0 := by simpa using e
  obtain ⟨m1, e1, i1, d1, f1⟩ := step_spec i0 (.transpose j1) trivial
  obtain ⟨m2, e2, i2, d2, f2⟩ := step_spec i1 (.transpose j2) trivial
  simp only [run, e1, e2, Option.bind_some, Option.some.injEq] at hm'
  subst hm'
  simp only [dims, Prod.mk.injEq] at d1 d2
  refine ⟨by omega, by omega, fun i hi j hj => ?_⟩
  have a := f2 j i (by omega) (by omega)
  have b := f1 i j hi hj
  rw [a, b]

/-! ## Sizes of the row vectors -/

/-- **C36 fails for the size of a row**: `MatrixRow::size()` is documented as the number of columns (matrix.h:41), but
after shrinking a 3×3 matrix to one row and transposing, rows 1 and 2 of the 3×1 matrix still have 3 elements: the
stale ones.  Row 1 has only zero entries, yet `is_zero()` returns false. -/
theorem C36_row_size_fails : ∃ l : List (Op ℤ), ValidHist 0 0 l ∧ ∃ m, (empty fun _ _ => 0).run l = some m ∧
    m.r = 3 ∧ m.c = 1 ∧ m.rowSize 1 = 3 ∧ m.rowSize 1 ≠ m.c ∧ (∀ j < m.c, m.ent 1 j = 0) ∧ m.rowIsZero 1 = false := by
  refine ⟨[.resize (fun _ _ => 0) 3 3, .write 1 2 5, .resize (fun _ _ => 0) 1 3, .transpose fun _ _ => 0],
    ⟨trivial, ⟨by decide, by decide⟩, trivial, trivial, trivial⟩, _, rfl, rfl, rfl, ?_, ?_, ?_, ?_⟩ <;> decide +kernel

/-- operations that never shrink the matrix -/
def Grows (r c : ℕ) : Op α → Prop
  | .resize _ rows cols => r ≤ rows ∧ c ≤ cols
  | _ => True

/-- a history that never shrinks the matrix -/
def GrowHist : ℕ → ℕ → List (Op α) → Prop
  | _, _, [] => True
  | r, c, o :: l => Grows r c o ∧ GrowHist (dims r c o).1 (dims r c o).2 l

/-- row vectors have exactly `c` elements, stale ones at most `min r c` -/
def Exact (m : MStore α) : Prop := (∀ i < m.r, m.size i = m.c) ∧ ∀ i, m.r ≤ i → i < m.len → m.size i ≤ min m.r m.c

theorem step_exact {m m' : MStore α} (h : Inv m) (hx : Exact m) (o : Op α) (hv : Valid m.r m.c o) (hg : Grows m.r m.c o)
    (e : m.step o = some m') : Exact m' := by
  obtain ⟨x1, x2⟩ := hx
  obtain ⟨hr, hc⟩ := h
  cases o with
  | resize junk rows cols =>
    obtain ⟨m1, e', h1, h2, h3, h4, h4', h5, h6⟩ := resize_spec junk rows cols ⟨hr, hc⟩
    obtain rfl : m1 = m' := by
      have : m.step (.resize junk rows cols) = some m1 := e'
      rw [e] at this; simpa using this.symm
    obtain ⟨g1, g2⟩ := hg
    refine ⟨fun i hi => ?_, fun i h7 h8 => ?_⟩
    · rw [h1] at hi
      rw [h5, h2]
      by_cases k1 : m.r ≤ i ∧ i < rows
      · rw [if_pos k1]
      · rw [if_neg k1]
        by_cases k2 : i < min m.r rows ∧ cols ≠ m.c
        · rw [if_pos k2]
        · have := x1 i (by omega)
          rw [if_neg k2, if_pos (by omega)]
          omega
    · rw [h1] at h7
      rw [h5, h1, h2, if_neg (by omega), if_neg (by omega)]
      by_cases k1 : i < m.len
      · have := x2 i (by omega) k1
        rw [if_pos k1]; omega
      · rw [if_neg k1]
        by_cases k2 : m.len < rows
        · rw [if_pos k2]; omega
        · have := h4' (by omega)
          exfalso
          omega
  | transpose junk =>
    obtain ⟨m1, e', h1, h2, h3, h4, h5, h6⟩ := transpose_spec junk ⟨hr, hc⟩
    obtain rfl : m1 = m' := by
      have : m.step (.transpose junk) = some m1 := e'
      rw [e] at this; simpa using this.symm
    refine ⟨fun i hi => ?_, fun i h7 h8 => ?_⟩
    · rw [h1] at hi
      rw [h5, h2]
      by_cases k1 : i < m.r ∧ m.r < m.c
      · rw [if_pos k1]
      · rw [if_neg k1, if_pos hi]
        by_cases k2 : i < m.len
        · rw [if_pos k2]
          by_cases k3 : i < m.r
          · have := x1 i k3; omega
          · have := x2 i (by omega) k2; omega
        · rw [if_neg k2]; omega
    · rw [h1] at h7
      rw [h5, h1, h2, if_neg (by omega), if_neg (by omega)]
      by_cases k2 : i < m.len ∨ m.c ≤ m.len
      · rw [if_pos k2]
        have : i < m.len := by omega
        by_cases k3 : i < m.r
        · have := x1 i k3; omega
        · have := x2 i (by omega) this; omega
      · rw [if_neg k2]; omega
  | write i j x =>
    simp only [step, write] at e
    split_ifs at e
    simp only [Option.some.injEq] at e
    subst e
    exact ⟨x1, x2⟩
  | swapRows i j =>
    obtain ⟨v1, v2⟩ := hv
    simp only [step, swapRows] at e
    split_ifs at e
    simp only [Option.some.injEq] at e
    subst e
    refine ⟨fun k hk => ?_, fun k h7 h8 => ?_⟩
    · dsimp only at hk ⊢
      split_ifs
      · exact x1 j v2
      · exact x1 i v1
      · exact x1 k hk
    · dsimp only at h7 h8 ⊢
      rw [if_neg (by omega), if_neg (by omega)]
      exact x2 k h7 h8

/-- **C36**, sizes of rows, for histories that never shrink the matrix (`_partial`; missing: histories with shrinking,
where it is false, see `C36_row_size_fails`). -/
theorem C36_row_size_partial (junk : ℕ → ℕ → α) (l : List (Op α)) (h : ValidHist 0 0 l) (hg : GrowHist 0 0 l) :
    ∃ m', (empty junk).run l = some m' ∧ ∀ i < m'.r, m'.rowSize i = m'.c := by
  have key : ∀ (l : List (Op α)) (m : MStore α), Inv m → Exact m → ValidHist m.r m.c l → GrowHist m.r m.c l →
      ∃ m', m.run l = some m' ∧ Exact m' := by
    intro l
    induction l with
    | nil => intro m _ hx _ _; exact ⟨m, rfl, hx⟩
    | cons o l ih =>
      intro m hi hx ⟨v1, v2⟩ ⟨w1, w2⟩
      obtain ⟨m1, e1, i1, d1, f1⟩ := step_spec hi o v1
      have hd : (dims m.r m.c o).1 = m1.r ∧ (dims m.r m.c o).2 = m1.c := by rw [← d1]; exact ⟨rfl, rfl⟩
      rw [hd.1, hd.2] at v2 w2
      obtain ⟨m2, e2, x2⟩ := ih m1 i1 (step_exact hi hx o v1 w1 e1) v2 w2
      refine ⟨m2, ?_, x2⟩
      unfold run
      rw [e1]
      exact e2
  obtain ⟨m', e, x⟩ := key l (empty junk) ⟨le_rfl, fun i hi => absurd hi (by simp [empty])⟩
    ⟨fun i hi => absurd hi (by simp [empty]), fun i _ hi => absurd hi (by simp [empty])⟩ h hg
  exact ⟨m', e, x.1⟩

/-- a history with all operations, including shrinking -/
example : ValidHist 0 0 ([.resize (fun _ _ => 7) 2 3, .write 1 2 5, .transpose fun _ _ => 9, .swapRows 0 2,
    .resize (fun _ _ => 8) 1 4, .transpose fun _ _ => 1] : List (Op ℤ)) := by
  refine ⟨trivial, ⟨by decide, by decide⟩, trivial, ⟨by decide, by decide⟩, trivial, trivial, trivial⟩
example : (((empty (α := ℤ) fun _ _ => 7).run [.resize (fun _ _ => 7) 2 3, .write 1 2 5, .transpose fun _ _ => 9]).map
    fun m => (m.r, m.c, m.ent 2 1)) = some (3, 2, 5) := by decide +kernel

end MStore
end Fplll

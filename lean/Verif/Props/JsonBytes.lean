import Verif.Spec.Utf8
import Verif.Model.JsonBytes
import Verif.Props.JsonRead

/-!
# The JSON reader on bytes

C101: the reader on bytes is the reader of C100 on the characters that the bytes encode in UTF-8, as far as they do; what is not UTF-8 is never accepted.
-/

namespace Fplll
namespace JsonRead

open Json

/-! ## UTF-8 -/

theorem ofNat_toNat {n : ℕ} (h : n < 0xd800) : (Char.ofNat n).toNat = n := toNat_valid (.inl h)

theorem ofNat_toNat' {n : ℕ} (h : 0xdfff < n) (h2 : n < 0x110000) : (Char.ofNat n).toNat = n := toNat_valid (.inr ⟨h, h2⟩)

theorem char_valid (c : Char) : c.toNat < 0xd800 ∨ 0xdfff < c.toNat ∧ c.toNat < 0x110000 := c.valid

theorem toNat_inj {a b : Char} (h : a.toNat = b.toNat) : a = b := by
  rw [← Char.ofNat_toNat a, h, Char.ofNat_toNat]

theorem ofNat_eq {n : ℕ} {b : Char} (h : n = b.toNat) : Char.ofNat n = b := by rw [h, Char.ofNat_toNat]

theorem utf8_ascii {c : Char} (h : c.toNat < 128) : utf8 c = [c] := by
  unfold utf8
  dsimp only
  rw [if_pos h, List.map_cons, Char.ofNat_toNat, List.map_nil]

theorem enc_cons (c : Char) (l : List Char) : enc (c :: l) = utf8 c ++ enc l := rfl

theorem enc_append (a b : List Char) : enc (a ++ b) = enc a ++ enc b := List.flatMap_append

theorem or_C0 : ∀ x < 32, 0xC0 ||| x = 192 + x := by decide
theorem or_E0 : ∀ x < 16, 0xE0 ||| x = 224 + x := by decide
theorem or_F0 : ∀ x < 8, 0xF0 ||| x = 240 + x := by decide
theorem or_80 : ∀ x < 64, 0x80 ||| x = 128 + x := by decide

theorem emit_eq (c : Char) : emit c = utf8 c := by
  have hv := char_valid c
  have h63 : ∀ n : ℕ, n &&& 0x3F = n % 64 := fun n => Nat.and_two_pow_sub_one_eq_mod n 6
  have hs : ∀ n k : ℕ, n >>> k = n / 2 ^ k := fun n k => Nat.shiftRight_eq_div_pow n k
  unfold emit utf8
  dsimp only
  generalize c.toNat = p at *
  simp only [h63, hs]
  norm_num
  by_cases h1 : p < 128
  · simp [h1]
  by_cases h2 : p < 2048
  · rw [if_neg h1, if_pos (by omega), if_neg h1, if_pos h2, or_C0 _ (by omega), or_80 _ (by omega)]
    rfl
  by_cases h3 : p < 65536
  · rw [if_neg h1, if_neg (by omega), if_pos (by omega), if_neg h1, if_neg h2, if_pos h3, or_E0 _ (by omega), or_80 _ (by omega), or_80 _ (by omega)]
    rfl
  · rw [if_neg h1, if_neg (by omega), if_neg (by omega), if_neg h1, if_neg h2, if_neg h3, or_F0 _ (by omega), or_80 _ (by omega), or_80 _ (by omega), or_80 _ (by omega)]
    rfl

/-- encoding: the bytes of a character pass the test -/
theorem utf8_ranges {c : Char} (h : 128 ≤ c.toNat) : ∃ b t rs, utf8 c = b :: t ∧ 128 ≤ b.toNat ∧ ranges b = some rs ∧ ∀ x, nextBytes rs (t ++ x) = some (t, x) := by
  have hv := char_valid c
  unfold utf8
  dsimp only
  generalize c.toNat = p at *
  have hb : ∀ n : ℕ, n < 0xd800 → (Char.ofNat n).toNat = n := fun n => ofNat_toNat
  rw [if_neg (by omega)]
  by_cases h2 : p < 2048
  · rw [if_pos h2]
    refine ⟨_, _, [(0x80, 0xBF)], rfl, by rw [hb _ (by omega)]; omega, ?_, fun x => ?_⟩
    · unfold ranges
      dsimp only
      rw [hb _ (by omega), if_neg (by omega), if_pos (by omega)]
    · simp only [List.map_cons, List.map_nil, List.cons_append, List.nil_append, nextBytes]
      rw [hb _ (by omega), if_pos (by omega)]
      rfl
  rw [if_neg h2]
  by_cases h3 : p < 65536
  · rw [if_pos h3]
    by_cases e0 : p / 4096 = 0
    · refine ⟨_, _, [(0xA0, 0xBF), (0x80, 0xBF)], rfl, by rw [hb _ (by omega)]; omega, ?_, fun x => ?_⟩
      · unfold ranges
        dsimp only
        rw [hb _ (by omega), if_neg (by omega), if_neg (by omega), if_pos (by omega)]
      · simp only [List.map_cons, List.map_nil, List.cons_append, List.nil_append, nextBytes]
        rw [hb _ (by omega), hb _ (by omega), if_pos (by omega), if_pos (by omega)]
        rfl
    by_cases ed : p / 4096 = 13
    · refine ⟨_, _, [(0x80, 0x9F), (0x80, 0xBF)], rfl, by rw [hb _ (by omega)]; omega, ?_, fun x => ?_⟩
      · unfold ranges
        dsimp only
        rw [hb _ (by omega), if_neg (by omega), if_neg (by omega), if_neg (by omega), if_pos (by omega)]
      · simp only [List.map_cons, List.map_nil, List.cons_append, List.nil_append, nextBytes]
        rw [hb _ (by omega), hb _ (by omega), if_pos (by omega), if_pos (by omega)]
        rfl
    · refine ⟨_, _, [(0x80, 0xBF), (0x80, 0xBF)], rfl, by rw [hb _ (by omega)]; omega, ?_, fun x => ?_⟩
      · unfold ranges
        dsimp only
        rw [hb _ (by omega), if_neg (by omega), if_neg (by omega), if_neg (by omega), if_neg (by omega), if_pos (by omega)]
      · simp only [List.map_cons, List.map_nil, List.cons_append, List.nil_append, nextBytes]
        rw [hb _ (by omega), hb _ (by omega), if_pos (by omega), if_pos (by omega)]
        rfl
  rw [if_neg h3]
  by_cases f0 : p / 262144 = 0
  · refine ⟨_, _, [(0x90, 0xBF), (0x80, 0xBF), (0x80, 0xBF)], rfl, by rw [hb _ (by omega)]; omega, ?_, fun x => ?_⟩
    · unfold ranges
      dsimp only
      rw [hb _ (by omega), if_neg (by omega), if_neg (by omega), if_neg (by omega), if_neg (by omega), if_neg (by omega), if_pos (by omega)]
    · simp only [List.map_cons, List.map_nil, List.cons_append, List.nil_append, nextBytes]
      rw [hb _ (by omega), hb _ (by omega), hb _ (by omega), if_pos (by omega), if_pos (by omega), if_pos (by omega)]
      rfl
  by_cases f4 : p / 262144 = 4
  · refine ⟨_, _, [(0x80, 0x8F), (0x80, 0xBF), (0x80, 0xBF)], rfl, by rw [hb _ (by omega)]; omega, ?_, fun x => ?_⟩
    · unfold ranges
      dsimp only
      rw [hb _ (by omega), if_neg (by omega), if_neg (by omega), if_neg (by omega), if_neg (by omega), if_neg (by omega), if_neg (by omega), if_neg (by omega), if_pos (by omega)]
    · simp only [List.map_cons, List.map_nil, List.cons_append, List.nil_append, nextBytes]
      rw [hb _ (by omega), hb _ (by omega), hb _ (by omega), if_pos (by omega), if_pos (by omega), if_pos (by omega)]
      rfl
  · refine ⟨_, _, [(0x80, 0xBF), (0x80, 0xBF), (0x80, 0xBF)], rfl, by rw [hb _ (by omega)]; omega, ?_, fun x => ?_⟩
    · unfold ranges
      dsimp only
      rw [hb _ (by omega), if_neg (by omega), if_neg (by omega), if_neg (by omega), if_neg (by omega), if_neg (by omega), if_neg (by omega), if_pos (by omega)]
    · simp only [List.map_cons, List.map_nil, List.cons_append, List.nil_append, nextBytes]
      rw [hb _ (by omega), hb _ (by omega), hb _ (by omega), if_pos (by omega), if_pos (by omega), if_pos (by omega)]
      rfl

theorem next_cons {a b : ℕ} {rs : List (ℕ × ℕ)} {r t x : List Char} (h : nextBytes ((a, b) :: rs) r = some (t, x)) : ∃ c r' t', r = c :: r' ∧ t = c :: t' ∧ a ≤ c.toNat ∧ c.toNat ≤ b ∧ nextBytes rs r' = some (t', x) := by
  cases r with
  | nil => cases h
  | cons c r =>
    rw [nextBytes] at h
    split_ifs at h with hc
    cases hn : nextBytes rs r with
    | none => rw [hn] at h; cases h
    | some q =>
      rw [hn] at h
      cases h
      exact ⟨c, r, q.1, rfl, rfl, hc.1, hc.2, hn⟩

theorem next_nil {r t x : List Char} (h : nextBytes [] r = some (t, x)) : t = [] ∧ r = x := by
  cases h
  exact ⟨rfl, rfl⟩

theorem utf8_2 {a b : Char} (ha : 0xC2 ≤ a.toNat ∧ a.toNat ≤ 0xDF) (hb : 0x80 ≤ b.toNat ∧ b.toNat ≤ 0xBF) : ∃ c, utf8 c = [a, b] := by
  refine ⟨Char.ofNat ((a.toNat - 192) * 64 + (b.toNat - 128)), ?_⟩
  unfold utf8
  dsimp only
  rw [ofNat_toNat (by omega), if_neg (by omega), if_pos (by omega)]
  simp only [List.map_cons, List.map_nil]
  rw [ofNat_eq (b := a) (by omega), ofNat_eq (b := b) (by omega)]

theorem utf8_3 {a b d : Char} (ha : 0xE0 ≤ a.toNat ∧ a.toNat ≤ 0xEF) (hb : 0x80 ≤ b.toNat ∧ b.toNat ≤ 0xBF) (hd : 0x80 ≤ d.toNat ∧ d.toNat ≤ 0xBF) (h0 : a.toNat = 0xE0 → 0xA0 ≤ b.toNat) (h1 : a.toNat = 0xED → b.toNat ≤ 0x9F) : ∃ c, utf8 c = [a, b, d] := by
  refine ⟨Char.ofNat ((a.toNat - 224) * 4096 + (b.toNat - 128) * 64 + (d.toNat - 128)), ?_⟩
  have hn : (Char.ofNat ((a.toNat - 224) * 4096 + (b.toNat - 128) * 64 + (d.toNat - 128))).toNat = (a.toNat - 224) * 4096 + (b.toNat - 128) * 64 + (d.toNat - 128) := by
    by_cases h : (a.toNat - 224) * 4096 + (b.toNat - 128) * 64 + (d.toNat - 128) < 0xd800
    · exact ofNat_toNat h
    · exact ofNat_toNat' (by omega) (by omega)
  unfold utf8
  dsimp only
  rw [hn, if_neg (by omega), if_neg (by omega), if_pos (by omega)]
  simp only [List.map_cons, List.map_nil]
  rw [ofNat_eq (b := a) (by omega), ofNat_eq (b := b) (by omega), ofNat_eq (b := d) (by omega)]

theorem utf8_4 {a b d e : Char} (ha : 0xF0 ≤ a.toNat ∧ a.toNat ≤ 0xF4) (hb : 0x80 ≤ b.toNat ∧ b.toNat ≤ 0xBF) (hd : 0x80 ≤ d.toNat ∧ d.toNat ≤ 0xBF) (he : 0x80 ≤ e.toNat ∧ e.toNat ≤ 0xBF) (h0 : a.toNat = 0xF0 → 0x90 ≤ b.toNat) (h1 : a.toNat = 0xF4 → b.toNat ≤ 0x8F) : ∃ c, utf8 c = [a, b, d, e] := by
  refine ⟨Char.ofNat ((a.toNat - 240) * 262144 + (b.toNat - 128) * 4096 + (d.toNat - 128) * 64 + (e.toNat - 128)), ?_⟩
  unfold utf8
  dsimp only
  rw [ofNat_toNat' (by omega) (by omega), if_neg (by omega), if_neg (by omega), if_neg (by omega)]
  simp only [List.map_cons, List.map_nil]
  rw [ofNat_eq (b := a) (by omega), ofNat_eq (b := b) (by omega), ofNat_eq (b := d) (by omega), ofNat_eq (b := e) (by omega)]

/-- decoding: bytes that pass the test are the bytes of a character -/
theorem ranges_utf8 {b : Char} {rs : List (ℕ × ℕ)} {r t x : List Char} (h : ranges b = some rs) (hn : nextBytes rs r = some (t, x)) : ∃ c, utf8 c = b :: t ∧ r = t ++ x := by
  unfold ranges at h
  dsimp only at h
  by_cases c1 : b.toNat ≤ 0x7F
  · rw [if_pos c1] at h
    cases h
    obtain ⟨rfl, rfl⟩ := next_nil hn
    exact ⟨b, utf8_ascii (by omega), rfl⟩
  rw [if_neg c1] at h
  by_cases c2 : 0xC2 ≤ b.toNat ∧ b.toNat ≤ 0xDF
  · rw [if_pos c2] at h
    cases h
    obtain ⟨d, r, t, rfl, rfl, h1, h2, hn⟩ := next_cons hn
    obtain ⟨rfl, rfl⟩ := next_nil hn
    obtain ⟨c, hc⟩ := utf8_2 c2 ⟨h1, h2⟩
    exact ⟨c, hc, rfl⟩
  rw [if_neg c2] at h
  by_cases c3 : 0xE0 ≤ b.toNat ∧ b.toNat ≤ 0xEF
  · have : ∃ lo hi, rs = [(lo, hi), (0x80, 0xBF)] ∧ 0x80 ≤ lo ∧ hi ≤ 0xBF ∧ (b.toNat = 0xE0 → 0xA0 ≤ lo) ∧ (b.toNat = 0xED → hi ≤ 0x9F) := by
      by_cases e0 : b.toNat = 0xE0
      · rw [if_pos e0] at h
        cases h
        exact ⟨_, _, rfl, by omega, by omega, by omega, by omega⟩
      rw [if_neg e0] at h
      by_cases e1 : b.toNat = 0xED
      · rw [if_pos e1] at h
        cases h
        exact ⟨_, _, rfl, by omega, by omega, by omega, by omega⟩
      rw [if_neg e1, if_pos (by omega)] at h
      cases h
      exact ⟨_, _, rfl, by omega, by omega, by omega, by omega⟩
    obtain ⟨lo, hi, rfl, l1, l2, l3, l4⟩ := this
    obtain ⟨d, r, t, rfl, rfl, h1, h2, hn⟩ := next_cons hn
    obtain ⟨e, r, t, rfl, rfl, h3, h4, hn⟩ := next_cons hn
    obtain ⟨rfl, rfl⟩ := next_nil hn
    obtain ⟨c, hc⟩ := utf8_3 (a := b) (b := d) (d := e) c3 (by omega) (by omega) (by omega) (by omega)
    exact ⟨c, hc, rfl⟩
  rw [if_neg (by omega), if_neg (by omega), if_neg (by omega)] at h
  have : (0xF0 ≤ b.toNat ∧ b.toNat ≤ 0xF4) ∧ ∃ lo hi, rs = [(lo, hi), (0x80, 0xBF), (0x80, 0xBF)] ∧ 0x80 ≤ lo ∧ hi ≤ 0xBF ∧ (b.toNat = 0xF0 → 0x90 ≤ lo) ∧ (b.toNat = 0xF4 → hi ≤ 0x8F) := by
    by_cases e0 : b.toNat = 0xF0
    · rw [if_pos e0] at h
      cases h
      exact ⟨by omega, _, _, rfl, by omega, by omega, by omega, by omega⟩
    rw [if_neg e0] at h
    by_cases e1 : 0xF1 ≤ b.toNat ∧ b.toNat ≤ 0xF3
    · rw [if_pos e1] at h
      cases h
      exact ⟨by omega, _, _, rfl, by omega, by omega, by omega, by omega⟩
    rw [if_neg e1] at h
    by_cases e2 : b.toNat = 0xF4
    · rw [if_pos e2] at h
      cases h
      exact ⟨by omega, _, _, rfl, by omega, by omega, by omega, by omega⟩
    rw [if_neg e2] at h
    cases h
  obtain ⟨hb, lo, hi, rfl, l1, l2, l3, l4⟩ := this
  obtain ⟨d, r, t, rfl, rfl, h1, h2, hn⟩ := next_cons hn
  obtain ⟨e, r, t, rfl, rfl, h3, h4, hn⟩ := next_cons hn
  obtain ⟨f, r, t, rfl, rfl, h5, h6, hn⟩ := next_cons hn
  obtain ⟨rfl, rfl⟩ := next_nil hn
  obtain ⟨c, hc⟩ := utf8_4 (a := b) (b := d) (d := e) (e := f) hb (by omega) (by omega) (by omega) (by omega) (by omega)
  exact ⟨c, hc, rfl⟩

theorem utf8_ne (c : Char) : utf8 c ≠ [] := by
  by_cases h : c.toNat < 128
  · rw [utf8_ascii h]; simp
  · obtain ⟨b, t, rs, h, -⟩ := utf8_ranges (c := c) (by omega)
    rw [h]; simp

/-- every list of bytes is UTF-8 up to some place -/
theorem decompose (b : List Char) : ∃ l r, Bad r ∧ b = enc l ++ r := by
  by_cases h : Bad b
  · exact ⟨[], b, h, rfl⟩
  · unfold Bad at h
    push Not at h
    obtain ⟨c, x, rfl⟩ := h
    have : x.length < (utf8 c ++ x).length := by
      rw [List.length_append]
      have := List.length_pos_iff.2 (utf8_ne c)
      omega
    obtain ⟨l, r, h1, h2⟩ := decompose x
    exact ⟨c :: l, r, h1, by rw [enc_cons, List.append_assoc, ← h2]⟩
termination_by b.length

/-- what the bytes of a text begin with -/
theorem view (l r : List Char) (hr : Bad r) :
    (l = [] ∧ r = []) ∨ (l = [] ∧ ∃ b r', r = b :: r' ∧ 128 ≤ b.toNat) ∨
    (∃ c l', l = c :: l' ∧ c.toNat < 128 ∧ enc l ++ r = c :: (enc l' ++ r)) ∨
    (∃ c l' b r', l = c :: l' ∧ 128 ≤ c.toNat ∧ 128 ≤ b.toNat ∧ enc l ++ r = b :: r') := by
  cases l with
  | nil =>
    cases r with
    | nil => exact .inl ⟨rfl, rfl⟩
    | cons b r =>
      refine .inr (.inl ⟨rfl, b, r, rfl, ?_⟩)
      by_contra h
      exact hr b r (by rw [utf8_ascii (by omega)]; rfl)
  | cons c l =>
    by_cases h : c.toNat < 128
    · exact .inr (.inr (.inl ⟨c, l, rfl, h, by rw [enc_cons, utf8_ascii h]; rfl⟩))
    · obtain ⟨b, t, rs, h1, h2, -⟩ := utf8_ranges (c := c) (by omega)
      exact .inr (.inr (.inr ⟨c, l, b, t ++ enc l ++ r, rfl, by omega, h2, by rw [enc_cons, h1]; simp⟩))

/-! ## The lexer -/

/-- the bytes of what is left -/
def wr (r : List Char) (l : List Char) : List Char := enc l ++ r

theorem high_ne {b c : Char} (hb : 128 ≤ b.toNat) (hc : c.toNat < 128) : b ≠ c := by
  rintro rfl
  omega

theorem high_digit {b : Char} (hb : 128 ≤ b.toNat) : isDigit b = false := by
  unfold isDigit
  rw [decide_eq_false_iff_not]
  omega

theorem high_hex {b : Char} (hb : 128 ≤ b.toNat) : hexVal b = none := by
  unfold hexVal
  rw [if_neg (by omega), if_neg (by omega), if_neg (by omega)]

theorem high_step {b : Char} (hb : 128 ≤ b.toNat) (s : NSt) : s.step b = none := by
  have hd := high_digit hb
  have hn : ∀ c : Char, c.toNat < 128 → b ≠ c := fun c hc => high_ne hb hc
  cases s <;> simp [NSt.step, hd, hn '0' (by decide), hn '.' (by decide), hn 'e' (by decide), hn 'E' (by decide), hn '+' (by decide), hn '-' (by decide)]

theorem high_simple {b : Char} (hb : 128 ≤ b.toNat) : simpleEsc b = none := by
  have hn : ∀ c : Char, c.toNat < 128 → b ≠ c := fun c hc => high_ne hb hc
  unfold simpleEsc
  split
  all_goals first
    | rfl
    | (exfalso; revert hb; decide)

theorem high_skip {b : Char} (x : List Char) (hb : 128 ≤ b.toNat) : skipBlank (b :: x) = b :: x := by
  rw [skipBlank, if_neg]
  rintro (h | h | h | h) <;> exact high_ne hb (by decide) h

theorem skip_wr {r : List Char} (hr : Bad r) (l : List Char) : skipBlank (wr r l) = wr r (skipBlank l) := by
  have high : ∀ b x, 128 ≤ b.toNat → skipBlank (b :: x) = b :: x := fun b x hb => high_skip x hb
  induction l with
  | nil =>
    cases r with
    | nil => rfl
    | cons b r =>
      rcases view [] (b :: r) hr with h | ⟨-, b', r', h1, h2⟩ | ⟨_, _, h, _⟩ | ⟨_, _, _, _, h, _⟩
      · cases h.2
      · cases h1
        exact high _ _ h2
      · cases h
      · cases h
  | cons c l ih =>
    rcases view (c :: l) r hr with h | h | ⟨c', l', h, h1, h2⟩ | ⟨c', l', b, r', h, h1, h2, h3⟩
    · cases h.1
    · cases h.1
    · cases h
      show skipBlank (enc (c :: l) ++ r) = _
      rw [h2, skipBlank, skipBlank]
      split_ifs with hc
      · exact ih
      · exact h2.symm
    · cases h
      show skipBlank (enc (c :: l) ++ r) = _
      rw [h3, high _ _ h2, high _ _ h1, ← h3]
      rfl

theorem literal_wr {r : List Char} (hr : Bad r) : ∀ (w l : List Char), (∀ c ∈ w, c.toNat < 128) → scanLiteral w (wr r l) = (scanLiteral w l).map (wr r)
  | [], l, _ => rfl
  | a :: w, l, hw => by
    rcases view l r hr with ⟨rfl, rfl⟩ | ⟨rfl, b, r', rfl, h⟩ | ⟨c, l', rfl, h1, h2⟩ | ⟨c, l', b, r', rfl, h1, h2, h3⟩
    · rfl
    · show scanLiteral (a :: w) (b :: r') = none
      rw [scanLiteral, if_neg (high_ne h (hw a List.mem_cons_self))]
    · show scanLiteral (a :: w) (enc (c :: l') ++ r) = _
      rw [h2, scanLiteral, scanLiteral]
      split_ifs
      · exact literal_wr hr w l' fun c hc => hw c (List.mem_cons_of_mem _ hc)
      · rfl
    · show scanLiteral (a :: w) (enc (c :: l') ++ r) = _
      rw [h3, scanLiteral, scanLiteral, if_neg (high_ne h2 (hw a List.mem_cons_self)), if_neg (high_ne h1 (hw a List.mem_cons_self))]
      rfl

/-- a result with what is left encoded -/
def wr2 {α : Type} (r : List Char) (p : α × List Char) : α × List Char := (p.1, wr r p.2)

theorem num_wr {r : List Char} (hr : Bad r) : ∀ (l : List Char) (s : NSt), scanNum s (wr r l) = (scanNum s l).map (wr2 r)
  | l, s => by
    rcases view l r hr with ⟨rfl, rfl⟩ | ⟨rfl, b, r', rfl, h⟩ | ⟨c, l', rfl, h1, h2⟩ | ⟨c, l', b, r', rfl, h1, h2, h3⟩
    · show scanNum s [] = _
      rw [scanNum]
      split_ifs <;> rfl
    · show scanNum s (b :: r') = _
      have e : scanNum s (b :: r') = if s.fin then some ([], b :: r') else none := by rw [scanNum, high_step h]
      rw [e, scanNum]
      split_ifs <;> rfl
    · show scanNum s (enc (c :: l') ++ r) = _
      rw [h2, scanNum, scanNum]
      cases hs : s.step c with
      | none =>
        dsimp only
        split_ifs
        · show some ([], c :: (enc l' ++ r)) = some ([], enc (c :: l') ++ r)
          rw [h2]
        · rfl
      | some s' =>
        dsimp only
        have := num_wr hr l' s'
        unfold wr at this
        rw [this]
        cases scanNum s' l' <;> rfl
    · show scanNum s (enc (c :: l') ++ r) = _
      rw [h3, scanNum, scanNum, high_step h2, high_step h1]
      dsimp only
      split_ifs
      · show some ([], b :: r') = some ([], enc (c :: l') ++ r)
        rw [h3]
      · rfl
termination_by l => l.length

theorem cp1 {a : Char} (x : List Char) (h : hexVal a = none) : codepoint (a :: x) = none := by
  match x with
  | [] | [_] | [_, _] => rfl
  | _ :: _ :: _ :: r => simp [codepoint, h]

theorem cp2 {a b : Char} (x : List Char) (h : hexVal b = none) : codepoint (a :: b :: x) = none := by
  match x with
  | [] | [_] => rfl
  | _ :: _ :: r => simp [codepoint, h]

theorem cp3 {a b c : Char} (x : List Char) (h : hexVal c = none) : codepoint (a :: b :: c :: x) = none := by
  match x with
  | [] => rfl
  | _ :: r => simp [codepoint, h]

theorem cp4 {a b c d : Char} (x : List Char) (h : hexVal d = none) : codepoint (a :: b :: c :: d :: x) = none := by
  simp [codepoint, h]

theorem codepoint_wr {r : List Char} (hr : Bad r) (l : List Char) : codepoint (wr r l) = (codepoint l).map (wr2 r) := by
  rcases view l r hr with ⟨rfl, rfl⟩ | ⟨rfl, b, r', rfl, h⟩ | ⟨a, l, rfl, h1, h2⟩ | ⟨c, l, b, r', rfl, h1, h2, h3⟩
  · rfl
  · exact cp1 _ (high_hex h)
  swap
  · show codepoint (enc (c :: l) ++ r) = _
    rw [h3, cp1 _ (high_hex h2), cp1 _ (high_hex h1)]; rfl
  show codepoint (enc (a :: l) ++ r) = _
  rw [h2]
  clear h2
  rcases view l r hr with ⟨rfl, rfl⟩ | ⟨rfl, b, r', rfl, h⟩ | ⟨b, l, rfl, h1, h2⟩ | ⟨c, l, b, r', rfl, h1, h2, h3⟩
  · rfl
  · exact cp2 _ (high_hex h)
  swap
  · rw [h3, cp2 _ (high_hex h2), cp2 _ (high_hex h1)]; rfl
  rw [h2]
  clear h2
  rcases view l r hr with ⟨rfl, rfl⟩ | ⟨rfl, b, r', rfl, h⟩ | ⟨c, l, rfl, h1, h2⟩ | ⟨c, l, b, r', rfl, h1, h2, h3⟩
  · rfl
  · exact cp3 _ (high_hex h)
  swap
  · rw [h3, cp3 _ (high_hex h2), cp3 _ (high_hex h1)]; rfl
  rw [h2]
  clear h2
  rcases view l r hr with ⟨rfl, rfl⟩ | ⟨rfl, b, r', rfl, h⟩ | ⟨d, l, rfl, h1, h2⟩ | ⟨c, l, b, r', rfl, h1, h2, h3⟩
  · rfl
  · exact cp4 _ (high_hex h)
  swap
  · rw [h3, cp4 _ (high_hex h2), cp4 _ (high_hex h1)]; rfl
  rw [h2, codepoint, codepoint]
  cases hexVal a <;> cases hexVal b <;> cases hexVal c <;> cases hexVal d <;> rfl

/-- what must follow the first half of a surrogate pair -/
def half (p : ℕ) (r : List Char) : Option (Char × List Char) :=
  match r with
  | a :: b :: r =>
    if a = '\\' ∧ b = 'u' then
      match codepoint r with
      | none => none
      | some (q, r) => if 0xDC00 ≤ q ∧ q ≤ 0xDFFF then some (Char.ofNat (p * 1024 + q - 0x35FDC00), r) else none
    else none
  | _ => none

theorem half1 (p : ℕ) {a : Char} (x : List Char) (h : a ≠ '\\') : half p (a :: x) = none := by
  cases x with
  | nil => rfl
  | cons b x => rw [half, if_neg (by tauto)]

theorem half_wr {r : List Char} (hr : Bad r) (p : ℕ) (l : List Char) : half p (wr r l) = (half p l).map (wr2 r) := by
  rcases view l r hr with ⟨rfl, rfl⟩ | ⟨rfl, b, r', rfl, h⟩ | ⟨a, l, rfl, h1, h2⟩ | ⟨c, l, b, r', rfl, h1, h2, h3⟩
  · rfl
  · exact half1 p _ (high_ne h (by decide))
  swap
  · show half p (enc (c :: l) ++ r) = _
    rw [h3, half1 p _ (high_ne h2 (by decide)), half1 p _ (high_ne h1 (by decide))]; rfl
  show half p (enc (a :: l) ++ r) = _
  rw [h2]
  clear h2
  rcases view l r hr with ⟨rfl, rfl⟩ | ⟨rfl, b, r', rfl, h⟩ | ⟨b, l, rfl, h1, h2⟩ | ⟨c, l, b, r', rfl, h1, h2, h3⟩
  · rfl
  · show half p (a :: b :: r') = none
    rw [half, if_neg]
    exact fun hh => high_ne h (by decide) hh.2
  swap
  · rw [h3, half, half, if_neg, if_neg]
    · rfl
    · exact fun hh => high_ne h1 (by decide) hh.2
    · exact fun hh => high_ne h2 (by decide) hh.2
  rw [h2, half, half]
  split_ifs
  · have := codepoint_wr hr l
    unfold wr at this
    rw [this]
    cases codepoint l with
    | none => rfl
    | some q =>
      obtain ⟨q, x⟩ := q
      show (if 0xDC00 ≤ q ∧ q ≤ 0xDFFF then some (Char.ofNat (p * 1024 + q - 0x35FDC00), wr r x) else none) = Option.map (wr2 r) (if 0xDC00 ≤ q ∧ q ≤ 0xDFFF then some (Char.ofNat (p * 1024 + q - 0x35FDC00), x) else none)
      by_cases h : 0xDC00 ≤ q ∧ q ≤ 0xDFFF
      · rw [if_pos h, if_pos h]
        simp only [Option.map_some, wr2]
      · rw [if_neg h, if_neg h]
        rfl
  · rfl

theorem uni_half (l : List Char) : uniEsc l = (codepoint l).bind fun p => if 0xD800 ≤ p.1 ∧ p.1 ≤ 0xDBFF then half p.1 p.2 else if 0xDC00 ≤ p.1 ∧ p.1 ≤ 0xDFFF then none else some (Char.ofNat p.1, p.2) := by
  unfold uniEsc half
  cases codepoint l <;> rfl

theorem uni_wr {r : List Char} (hr : Bad r) (l : List Char) : uniEsc (wr r l) = (uniEsc l).map (wr2 r) := by
  rw [uni_half, uni_half, codepoint_wr hr]
  cases codepoint l with
  | none => rfl
  | some p =>
    obtain ⟨p, x⟩ := p
    show (if 0xD800 ≤ p ∧ p ≤ 0xDBFF then half p (wr r x) else if 0xDC00 ≤ p ∧ p ≤ 0xDFFF then none else some (Char.ofNat p, wr r x)) = Option.map (wr2 r) (if 0xD800 ≤ p ∧ p ≤ 0xDBFF then half p x else if 0xDC00 ≤ p ∧ p ≤ 0xDFFF then none else some (Char.ofNat p, x))
    by_cases h : 0xD800 ≤ p ∧ p ≤ 0xDBFF
    · rw [if_pos h, if_pos h]
      exact half_wr hr p x
    rw [if_neg h, if_neg h]
    by_cases h : 0xDC00 ≤ p ∧ p ≤ 0xDFFF
    · rw [if_pos h, if_pos h]
      rfl
    · rw [if_neg h, if_neg h]
      rfl

theorem escape_wr {r : List Char} (hr : Bad r) (l : List Char) : escape (wr r l) = (escape l).map (wr2 r) := by
  rcases view l r hr with ⟨rfl, rfl⟩ | ⟨rfl, b, r', rfl, h⟩ | ⟨a, l, rfl, h1, h2⟩ | ⟨c, l, b, r', rfl, h1, h2, h3⟩
  · rfl
  · show escape (b :: r') = none
    rw [escape, if_neg (high_ne h (by decide)), high_simple h]
    rfl
  · show escape (enc (a :: l) ++ r) = _
    rw [h2, escape, escape]
    split_ifs
    · exact uni_wr hr l
    · cases simpleEsc a <;> rfl
  · show escape (enc (c :: l) ++ r) = _
    rw [h3, escape, escape, if_neg (high_ne h1 (by decide)), high_simple h1, if_neg (high_ne h2 (by decide)), high_simple h2]
    rfl

theorem escape_length {l : List Char} {p : Char × List Char} (h : escape l = some p) : p.2.length < l.length := by
  have cp : ∀ {l : List Char} {p : ℕ × List Char}, codepoint l = some p → p.2.length < l.length := by
    intro l p h
    match l with
    | [] | [_] | [_, _] | [_, _, _] => cases h
    | a :: b :: c :: d :: r =>
      rw [codepoint] at h
      cases ha : hexVal a <;> cases hb : hexVal b <;> cases hc : hexVal c <;> cases hd : hexVal d <;> rw [ha, hb, hc, hd] at h <;> cases h
      simp only [List.length_cons]
      omega
  cases l with
  | nil => cases h
  | cons d l =>
    rw [escape] at h
    split_ifs at h with hd
    · rw [uni_half] at h
      cases hc : codepoint l with
      | none => rw [hc] at h; cases h
      | some q =>
        rw [hc, Option.bind_some] at h
        have h1 := cp hc
        split_ifs at h with h2 h3
        · obtain ⟨q, x⟩ := q
          match x, h with
          | a :: b :: x, h =>
            rw [half] at h
            split_ifs at h with h4
            cases hc2 : codepoint x with
            | none => rw [hc2] at h; cases h
            | some q2 =>
              rw [hc2] at h
              obtain ⟨q2, y⟩ := q2
              have h5 := cp hc2
              dsimp only at h h5
              split_ifs at h with h6
              rw [Option.some.injEq] at h
              rw [← h]
              simp only [List.length_cons] at h1 ⊢
              omega
        · rw [Option.some.injEq] at h
          rw [← h]
          simp only [List.length_cons]
          omega
    · cases hs : simpleEsc d with
      | none => rw [hs] at h; cases h
      | some c =>
        rw [hs] at h
        cases h
        simp

/-- a string with contents and what is left encoded -/
def wrS (r : List Char) (p : List Char × List Char) : List Char × List Char := (enc p.1, wr r p.2)

theorem string_wr {r : List Char} (hr : Bad r) (l : List Char) {n m : ℕ} (hn : l.length < n) (hm : (wr r l).length < m) : scanStringB m (wr r l) = (scanString n l).map (wrS r) := by
  induction n generalizing l m with
  | zero => omega
  | succ n string_wr =>
  obtain ⟨m, rfl⟩ : ∃ k, m = k + 1 := ⟨m - 1, by omega⟩
  rcases view l r hr with ⟨rfl, rfl⟩ | ⟨rfl, b, r', rfl, h⟩ | ⟨c, l', rfl, h1, h2⟩ | ⟨c, l', b, r', rfl, h1, h2, h3⟩
  · rfl
  · show scanStringB (m + 1) (b :: r') = none
    rw [scanStringB, if_neg (high_ne h (by decide)), if_neg (high_ne h (by decide)), if_neg (by omega)]
    cases hrs : ranges b with
    | none => rfl
    | some rs =>
      rw [Option.bind_some]
      cases hnb : nextBytes rs r' with
      | none => rfl
      | some q =>
        exfalso
        obtain ⟨c, h3, h4⟩ := ranges_utf8 hrs (show nextBytes rs r' = some (q.1, q.2) from hnb)
        exact hr c q.2 (by rw [h3, h4]; rfl)
  · have hm' : (wr r l').length < m := by
      unfold wr at hm ⊢
      rw [h2] at hm
      simpa using hm
    have hn' : l'.length < n := by simpa using hn
    show scanStringB (m + 1) (enc (c :: l') ++ r) = _
    rw [h2, scanStringB, scanString]
    by_cases q1 : c = '"'
    · rw [if_pos q1, if_pos q1]
      rfl
    rw [if_neg q1, if_neg q1]
    by_cases q2 : c = '\\'
    · rw [if_pos q2, if_pos q2]
      have he := escape_wr hr l'
      unfold wr at he
      rw [he]
      cases hes : escape l' with
      | none => rfl
      | some p =>
        have hl := escape_length hes
        have hl2 : (wr r p.2).length < (wr r l').length := by
          have := escape_length (l := wr r l') (p := wr2 r p) (by unfold wr; rw [he, hes]; rfl)
          exact this
        have := string_wr p.2 (m := m) (by omega) (by omega)
        show (scanStringB m (wr r p.2)).map _ = Option.map (wrS r) ((scanString n p.2).map _)
        rw [this]
        cases scanString n p.2 with
        | none => rfl
        | some q =>
          show some (emit p.1 ++ enc q.1, wr r q.2) = some (enc (p.1 :: q.1), wr r q.2)
          rw [emit_eq, enc_cons]
    rw [if_neg q2, if_neg q2]
    by_cases q3 : c.toNat < 0x20
    · rw [if_pos q3, if_pos q3]
      rfl
    rw [if_neg q3, if_neg q3]
    have hrg : ranges c = some [] := by
      unfold ranges
      dsimp only
      rw [if_pos (by omega)]
    rw [hrg]
    have := string_wr l' hn' hm'
    show (scanStringB m (wr r l')).map _ = Option.map (wrS r) ((scanString n l').map _)
    rw [this]
    cases scanString n l' with
    | none => rfl
    | some q =>
      show some (c :: ([] ++ enc q.1), wr r q.2) = some (enc (c :: q.1), wr r q.2)
      rw [enc_cons, utf8_ascii h1]
      rfl
  · obtain ⟨b', t, rs, k1, k2, k3, k4⟩ := utf8_ranges h1
    have hw : enc (c :: l') ++ r = b' :: (t ++ wr r l') := by
      rw [enc_cons, k1]
      unfold wr
      simp
    have hm' : (wr r l').length < m := by
      unfold wr at hm
      rw [hw] at hm
      simp only [List.length_cons, List.length_append] at hm
      omega
    have hn' : l'.length < n := by simpa using hn
    show scanStringB (m + 1) (enc (c :: l') ++ r) = _
    rw [hw, scanStringB, if_neg (high_ne k2 (by decide)), if_neg (high_ne k2 (by decide)), if_neg (by omega), k3, Option.bind_some, k4, Option.bind_some,
      scanString, if_neg (high_ne h1 (by decide)), if_neg (high_ne h1 (by decide)), if_neg (by omega), string_wr l' hn' hm']
    cases scanString n l' with
    | none => rfl
    | some q =>
      show some (b' :: (t ++ enc q.1), wr r q.2) = some (enc (c :: q.1), wr r q.2)
      rw [enc_cons, k1]
      rfl

/-- tokens with the strings encoded -/
def encT : Tok → Tok
  | .str s => .str (enc s)
  | t => t

/-- tokens that no value and no structure begins with -/
def Dead (t : Tok) : Prop := t = .err ∨ t = .eof

theorem high_tok {b : Char} (x : List Char) (hb : 128 ≤ b.toNat) : Dead (scanTok (b :: x)).1 := by
  have hn : ∀ c : Char, c.toNat < 128 → b ≠ c := fun c hc => high_ne hb hc
  rw [scanTok]
  rw [if_neg (hn _ (by decide)), if_neg (hn _ (by decide)), if_neg (hn _ (by decide)), if_neg (hn _ (by decide)), if_neg (hn _ (by decide)), if_neg (hn _ (by decide)), if_neg (hn _ (by decide)), if_neg (hn _ (by decide)), if_neg (hn _ (by decide)), if_neg (hn _ (by decide)), if_neg, if_neg (hn _ (by decide))]
  · exact .inl rfl
  · rw [high_digit hb]
    rintro (h | h)
    · exact hn _ (by decide) h
    · cases h

theorem tok_wr {r : List Char} (hr : Bad r) (l : List Char) : (Dead (scanTok l).1 ∧ Dead (scanTokB (wr r l)).1) ∨ scanTokB (wr r l) = (encT (scanTok l).1, wr r (scanTok l).2) := by
  have high : ∀ b x, 128 ≤ b.toNat → Dead (scanTok (b :: x)).1 := fun b x hb => high_tok x hb
  have highB : ∀ b x, 128 ≤ b.toNat → Dead (scanTokB (b :: x)).1 := by
    intro b x hb
    rw [scanTokB, if_neg (high_ne hb (by decide))]
    exact high b x hb
  rcases view l r hr with ⟨rfl, rfl⟩ | ⟨rfl, b, r', rfl, h⟩ | ⟨c, l', rfl, h1, h2⟩ | ⟨c, l', b, r', rfl, h1, h2, h3⟩
  · exact .inl ⟨.inr rfl, .inr rfl⟩
  · exact .inl ⟨.inr rfl, highB b r' h⟩
  swap
  · refine .inl ⟨high c l' h1, ?_⟩
    unfold wr
    rw [h3]
    exact highB b r' h2
  unfold wr
  rw [h2, scanTokB]
  by_cases q : c = '"'
  · subst q
    rw [if_pos rfl]
    have e : scanTok ('"' :: l') = match scanString (l'.length + 1) l' with | some (s, r) => (.str s, r) | none => (.err, []) := rfl
    have hs := string_wr hr l' (n := l'.length + 1) (m := (wr r l').length + 1) (by omega) (by omega)
    unfold wr at hs
    rw [e, hs]
    cases scanString (l'.length + 1) l' with
    | none => exact .inl ⟨.inl rfl, .inl rfl⟩
    | some p => exact .inr rfl
  rw [if_neg q, scanTok, scanTok]
  have lit : ∀ (w : List Char) (tk : Tok), encT tk = tk → (∀ c ∈ w, c.toNat < 128) →
      (Dead (match scanLiteral w l' with | some r => (tk, r) | none => (.err, [])).1 ∧ Dead (match scanLiteral w (enc l' ++ r) with | some r => (tk, r) | none => (.err, [])).1) ∨
      (match scanLiteral w (enc l' ++ r) with | some r => (tk, r) | none => (.err, [])) = (encT (match scanLiteral w l' with | some r => (tk, r) | none => (.err, [])).1, enc (match scanLiteral w l' with | some r => (tk, r) | none => (.err, [])).2 ++ r) := by
    intro w tk ht hw
    have := literal_wr hr w l' hw
    unfold wr at this
    rw [this]
    cases scanLiteral w l' with
    | none => exact .inl ⟨.inl rfl, .inl rfl⟩
    | some p =>
      right
      show (tk, enc p ++ r) = (encT tk, enc p ++ r)
      rw [ht]
  by_cases q1 : c = '['
  · rw [if_pos q1, if_pos q1]; exact .inr rfl
  rw [if_neg q1, if_neg q1]
  by_cases q1 : c = ']'
  · rw [if_pos q1, if_pos q1]; exact .inr rfl
  rw [if_neg q1, if_neg q1]
  by_cases q1 : c = '{'
  · rw [if_pos q1, if_pos q1]; exact .inr rfl
  rw [if_neg q1, if_neg q1]
  by_cases q1 : c = '}'
  · rw [if_pos q1, if_pos q1]; exact .inr rfl
  rw [if_neg q1, if_neg q1]
  by_cases q1 : c = ':'
  · rw [if_pos q1, if_pos q1]; exact .inr rfl
  rw [if_neg q1, if_neg q1]
  by_cases q1 : c = ','
  · rw [if_pos q1, if_pos q1]; exact .inr rfl
  rw [if_neg q1, if_neg q1]
  by_cases q1 : c = 't'
  · rw [if_pos q1, if_pos q1]; exact lit _ _ rfl (by decide)
  rw [if_neg q1, if_neg q1]
  by_cases q1 : c = 'f'
  · rw [if_pos q1, if_pos q1]; exact lit _ _ rfl (by decide)
  rw [if_neg q1, if_neg q1]
  by_cases q1 : c = 'n'
  · rw [if_pos q1, if_pos q1]; exact lit _ _ rfl (by decide)
  rw [if_neg q1, if_neg q1, if_neg q, if_neg q]
  by_cases q1 : c = '-' ∨ isDigit c = true
  · rw [if_pos q1, if_pos q1]
    have := num_wr hr l' (if c = '-' then .minus else if c = '0' then .zero else .any1)
    unfold wr at this
    unfold scanNumber
    rw [this]
    cases scanNum (if c = '-' then .minus else if c = '0' then .zero else .any1) l' with
    | none => exact .inl ⟨.inl rfl, .inl rfl⟩
    | some p => exact .inr rfl
  rw [if_neg q1, if_neg q1]
  left
  split_ifs
  · exact ⟨.inr rfl, .inr rfl⟩
  · exact ⟨.inl rfl, .inl rfl⟩

/-- **the scanner on bytes** -/
theorem scan_wr {r : List Char} (hr : Bad r) (l : List Char) : (Dead (scan l).1 ∧ Dead (scanB (wr r l)).1) ∨ scanB (wr r l) = (encT (scan l).1, wr r (scan l).2) := by
  unfold scanB scan
  rw [skip_wr hr]
  exact tok_wr hr _

/-! ## The parser -/

theorem encVs_append (a b : List JVal) : encVs (a ++ b) = encVs a ++ encVs b := by
  induction a with
  | nil => rw [List.nil_append, encVs, List.nil_append]
  | cons v a ih => rw [List.cons_append, encVs, ih, encVs, List.cons_append]

theorem encMs_append (a b : List (List Char × JVal)) : encMs (a ++ b) = encMs a ++ encMs b := by
  induction a with
  | nil => rw [List.nil_append, encMs, List.nil_append]
  | cons v a ih => rw [List.cons_append, encMs, ih, encMs, List.cons_append]

/-- frames with the strings encoded -/
def encF : Frame → Frame
  | .arr vs => .arr (encVs vs)
  | .obj ms k => .obj (encMs ms) (enc k)

/-- the states that correspond -/
inductive Sim (r : List Char) : PSt → PSt → Prop
  | value (st : List Frame) (t : Tok) (l : List Char) : Sim r ⟨st, .value t, l⟩ ⟨st.map encF, .value (encT t), wr r l⟩
  | done (st : List Frame) (v : JVal) (l : List Char) : Sim r ⟨st, .done v, l⟩ ⟨st.map encF, .done (encV v), wr r l⟩
  | dead (st st' : List Frame) (t t' : Tok) (l l' : List Char) : Dead t → Dead t' → Sim r ⟨st, .value t, l⟩ ⟨st', .value t', l'⟩

/-- the outcomes of a round that correspond -/
inductive SimN (r : List Char) : Next → Next → Prop
  | go {s s' : PSt} : Sim r s s' → SimN r (.go s) (.go s')
  | ok (v : JVal) (l : List Char) : SimN r (.ok v l) (.ok (encV v) (wr r l))
  | throw : SimN r .throw .throw

theorem step_W (fin : List Char → Bool) (s : PSt) : stepW scan fin s = step fin s := rfl

theorem encT_iff (t k : Tok) (hk : ∀ s, k ≠ .str s) : encT t = k ↔ t = k := by
  cases t <;> simp only [encT]
  constructor
  · rintro rfl
    exact absurd rfl (hk _)
  · rintro rfl
    exact absurd rfl (hk _)

theorem dead_ne {t k : Tok} (h : Dead t) (hk : ¬ Dead k) : t ≠ k := by
  rintro rfl
  exact hk h

theorem value_sim {r : List Char} (hr : Bad r) (st : List Frame) (l : List Char) : Sim r ⟨st, .value (scan l).1, (scan l).2⟩ ⟨st.map encF, .value (scanB (wr r l)).1, (scanB (wr r l)).2⟩ := by
  rcases scan_wr hr l with ⟨h1, h2⟩ | h
  · exact .dead _ _ _ _ _ _ h1 h2
  · rw [h]
    exact .value _ _ _

theorem member_dead (sc : List Char → Tok × List Char) (st : List Frame) (ms : List (List Char × JVal)) (t : Tok × List Char) (h : Dead t.1) : memberW sc st ms t = .throw := by
  obtain ⟨t, x⟩ := t
  rcases h with h | h <;> cases h <;> rfl

theorem member_sim {r : List Char} (hr : Bad r) (st : List Frame) (ms : List (List Char × JVal)) (l : List Char) : SimN r (memberW scan st ms (scan l)) (memberW scanB (st.map encF) (encMs ms) (scanB (wr r l))) := by
  rcases scan_wr hr l with ⟨h1, h2⟩ | h
  · rw [member_dead _ _ _ _ h1, member_dead _ _ _ _ h2]
    exact .throw
  rw [h]
  obtain ⟨t, x⟩ := scan l
  cases t with
  | str k =>
    dsimp only [encT, memberW]
    rcases scan_wr hr x with ⟨h1, h2⟩ | h
    · rw [if_neg (dead_ne h1 (by simp [Dead])), if_neg (dead_ne h2 (by simp [Dead]))]
      exact .throw
    rw [h]
    dsimp only
    rw [if_congr (encT_iff _ .colon (by simp)) rfl rfl]
    split_ifs
    · exact .go (value_sim hr (.obj ms k :: st) _)
    · exact .throw
  | _ => exact .throw

theorem step_sim {r : List Char} (hr : Bad r) {s s' : PSt} (h : Sim r s s') : SimN r (step fin s) (stepW scanB fin s') := by
  rw [← step_W]
  cases h with
  | dead st st' t t' l l' h1 h2 =>
    rcases h1 with rfl | rfl <;> rcases h2 with rfl | rfl <;> exact .throw
  | value st t l =>
    cases t with
    | beginObj =>
      dsimp only [stepW, encT]
      rcases scan_wr hr l with ⟨h1, h2⟩ | h
      · rw [if_neg (dead_ne h1 (by simp [Dead])), if_neg (dead_ne h2 (by simp [Dead]))]
        exact member_sim hr st [] l
      · have hm := member_sim hr st [] l
        rw [encMs] at hm
        rw [h] at hm ⊢
        dsimp only
        rw [if_congr (encT_iff _ .endObj (by simp)) rfl rfl]
        split_ifs
        · exact .go (.done st (.obj []) _)
        · exact hm
    | beginArr =>
      dsimp only [stepW, encT]
      rcases scan_wr hr l with ⟨h1, h2⟩ | h
      · rw [if_neg (dead_ne h1 (by simp [Dead])), if_neg (dead_ne h2 (by simp [Dead]))]
        exact .go (value_sim hr (.arr [] :: st) l)
      · have hm := value_sim hr (.arr [] :: st) l
        rw [h] at hm ⊢
        dsimp only
        rw [if_congr (encT_iff _ .endArr (by simp)) rfl rfl]
        split_ifs
        · exact .go (.done st (.arr []) _)
        · exact .go hm
    | num t =>
      dsimp only [stepW, encT]
      split_ifs
      · exact .go (.done st (.num t) _)
      · exact .throw
    | str t => exact .go (.done st (.str t) _)
    | litTrue => exact .go (.done st (.bool true) _)
    | litFalse => exact .go (.done st (.bool false) _)
    | litNull => exact .go (.done st .null _)
    | _ => exact .throw
  | done st v l =>
    cases st with
    | nil => exact .ok v l
    | cons f st =>
      cases f with
      | arr vs =>
        show SimN r _ (stepW scanB fin ⟨.arr (encVs vs) :: st.map encF, .done (encV v), wr r l⟩)
        dsimp only [stepW]
        rcases scan_wr hr l with ⟨h1, h2⟩ | h
        · rw [if_neg (dead_ne h1 (by simp [Dead])), if_neg (dead_ne h2 (by simp [Dead])), if_neg (dead_ne h1 (by simp [Dead])), if_neg (dead_ne h2 (by simp [Dead]))]
          exact .throw
        · have e : encVs vs ++ [encV v] = encVs (vs ++ [v]) := by rw [encVs_append, encVs, encVs]
          rw [h, e]
          dsimp only
          rw [if_congr (encT_iff _ .comma (by simp)) rfl rfl, if_congr (encT_iff _ .endArr (by simp)) rfl rfl]
          split_ifs
          · exact .go (value_sim hr (.arr (vs ++ [v]) :: st) _)
          · exact .go (.done st (.arr (vs ++ [v])) _)
          · exact .throw
      | obj ms k =>
        show SimN r _ (stepW scanB fin ⟨.obj (encMs ms) (enc k) :: st.map encF, .done (encV v), wr r l⟩)
        dsimp only [stepW]
        rcases scan_wr hr l with ⟨h1, h2⟩ | h
        · rw [if_neg (dead_ne h1 (by simp [Dead])), if_neg (dead_ne h2 (by simp [Dead])), if_neg (dead_ne h1 (by simp [Dead])), if_neg (dead_ne h2 (by simp [Dead]))]
          exact .throw
        · have e : encMs ms ++ [(enc k, encV v)] = encMs (ms ++ [(k, v)]) := by rw [encMs_append, encMs, encMs]
          rw [h, e]
          dsimp only
          rw [if_congr (encT_iff _ .comma (by simp)) rfl rfl, if_congr (encT_iff _ .endObj (by simp)) rfl rfl]
          split_ifs
          · exact member_sim hr st (ms ++ [(k, v)]) _
          · exact .go (.done st (.obj (ms ++ [(k, v)])) _)
          · exact .throw

/-- an outcome with the strings and what is left encoded -/
def encO (r : List Char) : Out → Out
  | .ok v l => .ok (encV v) (wr r l)
  | o => o

theorem run_sim {r : List Char} (hr : Bad r) : ∀ (n : ℕ) {s s' : PSt}, Sim r s s' → runW scanB fin n s' = encO r (run fin n s)
  | 0, _, _, _ => rfl
  | n + 1, s, s', h => by
    rw [runW, run]
    have := step_sim (fin := fin) hr h
    revert this
    generalize step fin s = a
    generalize stepW scanB fin s' = b
    intro this
    cases this with
    | go h => exact run_sim hr n h
    | ok v l => rfl
    | throw => rfl

theorem utf8_bom : utf8 '\ufeff' = [Char.ofNat 0xEF, Char.ofNat 0xBB, Char.ofNat 0xBF] := by rfl

theorem bom_inj {c a : Char} {t : List Char} (h : utf8 c = a :: t) (ha : a.toNat = 0xEF) : ∃ x y, t = [x, y] ∧ (x.toNat = 0xBB → y.toNat = 0xBF → c = '\ufeff') := by
  have hv := char_valid c
  have hf : ('\ufeff' : Char).toNat = 0xFEFF := rfl
  unfold utf8 at h
  dsimp only at h
  by_cases h1 : c.toNat < 128
  · rw [if_pos h1, List.map_cons, List.cons.injEq] at h
    rw [← h.1, ofNat_toNat (by omega)] at ha
    omega
  rw [if_neg h1] at h
  by_cases h2 : c.toNat < 0x800
  · rw [if_pos h2, List.map_cons, List.cons.injEq] at h
    rw [← h.1, ofNat_toNat (by omega)] at ha
    omega
  rw [if_neg h2] at h
  by_cases h3 : c.toNat < 0x10000
  · rw [if_pos h3, List.map_cons, List.cons.injEq] at h
    rw [← h.1, ofNat_toNat (by omega)] at ha
    refine ⟨_, _, h.2.symm, fun k1 k2 => toNat_inj ?_⟩
    rw [ofNat_toNat (by omega)] at k1 k2
    omega
  · rw [if_neg h3, List.map_cons, List.cons.injEq] at h
    rw [← h.1, ofNat_toNat (by omega)] at ha
    omega

theorem bom_wr {r : List Char} (hr : Bad r) (l : List Char) : bomB (wr r l) = some (wr r (skipBom l)) ∨ (bomB (wr r l) = none ∧ Dead (scan (skipBom l)).1) := by
  rcases view l r hr with ⟨rfl, rfl⟩ | ⟨rfl, b, r', rfl, h⟩ | ⟨c, l', rfl, h1, h2⟩ | ⟨c, l', -, -, rfl, h1, -, -⟩
  · exact .inl rfl
  · by_cases hb : b.toNat = 0xEF
    · right
      refine ⟨?_, .inr rfl⟩
      show bomB (b :: r') = none
      rw [bomB, if_pos hb]
      match r' with
      | [] | [_] => rfl
      | x :: y :: z =>
        show (if x.toNat = 0xBB ∧ y.toNat = 0xBF then some z else none) = none
        rw [if_neg]
        rintro ⟨h3, h4⟩
        refine hr '\ufeff' z ?_
        rw [utf8_bom, ofNat_eq hb.symm, ofNat_eq h3.symm, ofNat_eq h4.symm]
        rfl
    · left
      show bomB (b :: r') = some (b :: r')
      rw [bomB, if_neg hb]
  · left
    unfold wr
    have hc : c ≠ '\ufeff' := by
      rintro rfl
      exact absurd h1 (by decide)
    rw [h2, bomB, if_neg (by omega), skipBom, if_neg hc, h2]
  · by_cases hc : c = '\ufeff'
    · left
      subst hc
      rw [skipBom, if_pos rfl]
      unfold wr
      rw [enc_cons, utf8_bom]
      show (if (Char.ofNat 0xEF).toNat = 0xEF then (if (Char.ofNat 0xBB).toNat = 0xBB ∧ (Char.ofNat 0xBF).toNat = 0xBF then some (enc l' ++ r) else none) else some ([Char.ofNat 0xEF, Char.ofNat 0xBB, Char.ofNat 0xBF] ++ enc l' ++ r)) = _
      rw [if_pos (ofNat_toNat (by omega)), if_pos ⟨ofNat_toNat (by omega), ofNat_toNat (by omega)⟩]
    · rw [skipBom, if_neg hc]
      obtain ⟨b, t, rs, k1, k2, -⟩ := utf8_ranges h1
      have hw : wr r (c :: l') = b :: (t ++ wr r l') := by
        unfold wr
        rw [enc_cons, k1]
        simp
      by_cases hb : b.toNat = 0xEF
      · right
        constructor
        · rw [hw, bomB, if_pos hb]
          obtain ⟨x, y, rfl, h3⟩ := bom_inj k1 hb
          show (if x.toNat = 0xBB ∧ y.toNat = 0xBF then some _ else none) = none
          rw [if_neg]
          rintro ⟨h4, h5⟩
          exact hc (h3 h4 h5)
        · unfold scan
          rw [high_skip _ h1]
          exact high_tok _ h1
      · left
        rw [hw, bomB, if_neg hb]

/-! ## C101 -/

/-- **C101 (bytes and characters).** On the bytes of a text, followed by bytes that are not UTF-8, the reader does what the reader of characters does on the text: the value has the bytes of the same strings, what is left are the bytes of the same rest. -/
theorem C101_bytes {r : List Char} (hr : Bad r) (l : List Char) {fuel : ℕ} (hf : 0 < fuel) : parseB fin fuel (enc l ++ r) = encO r (parse fin fuel l) := by
  show parseB fin fuel (wr r l) = _
  unfold parseB
  rcases bom_wr hr l with h | ⟨h1, h2⟩
  · rw [h]
    exact run_sim hr fuel (value_sim hr [] (skipBom l))
  · rw [h1]
    obtain ⟨n, rfl⟩ : ∃ k, fuel = k + 1 := ⟨fuel - 1, by omega⟩
    unfold parse
    dsimp only
    generalize scan (skipBom l) = t at h2
    obtain ⟨t, x⟩ := t
    rcases h2 with h | h <;> cases h <;> rfl

theorem utf8_length (c : Char) : 1 ≤ (utf8 c).length := List.length_pos_iff.2 (utf8_ne c)

theorem enc_length (l : List Char) : l.length ≤ (enc l).length := by
  induction l with
  | nil => exact le_rfl
  | cons c l ih =>
    rw [enc_cons, List.length_append, List.length_cons]
    have := utf8_length c
    omega

theorem bad_nil : Bad [] := by
  intro c x h
  have := utf8_ne c
  rw [eq_comm, List.append_eq_nil_iff] at h
  exact this h.1

/-- **C101 (documents).** A file with the UTF-8 encoding of a JSON text, with or without byte order mark, is accepted; the value has the encoded strings. -/
theorem C101_accepts {l : List Char} {v : JVal} (h : Doc v l) (hn : NoOverflow fin v) {m : List Char} (hm : Mark m) {fuel : ℕ} (hf : 2 * (enc (m ++ l)).length < fuel) : ∃ r, Blank r ∧ parseB fin fuel (enc (m ++ l)) = .ok (encV v) (enc r) := by
  have hle := enc_length (m ++ l)
  obtain ⟨r, h1, h2⟩ := C100_accepts h hn hm (fuel := fuel) (by omega)
  refine ⟨r, h1, ?_⟩
  have := C101_bytes (fin := fin) bad_nil (m ++ l) (fuel := fuel) (by omega)
  rw [List.append_nil, h2] at this
  rw [this]
  show Out.ok (encV v) (enc r ++ []) = _
  rw [List.append_nil]

/-- **C101 (nothing else).** When a value is returned, the bytes read are the UTF-8 encoding of a JSON text with this value. -/
theorem C101_only {fuel : ℕ} {b r : List Char} {u : JVal} (h : parseB fin fuel b = .ok u r) : ∃ v m w t, u = encV v ∧ Mark m ∧ Blank w ∧ Val v t ∧ NoOverflow fin v ∧ b = enc (m ++ w ++ t) ++ r := by
  obtain ⟨l, q, hq, rfl⟩ := decompose b
  cases fuel with
  | zero =>
    unfold parseB at h
    cases hb : bomB (enc l ++ q) <;> rw [hb] at h <;> cases h
  | succ n =>
    rw [C101_bytes hq l (Nat.succ_pos n)] at h
    cases hp : parse fin (n + 1) l with
    | ok v x =>
      rw [hp] at h
      cases h
      obtain ⟨m, w, t, h1, h2, h3, h4, rfl⟩ := C100_only hp
      refine ⟨v, m, w, t, rfl, h1, h2, h3, h4, ?_⟩
      rw [enc_append (m ++ w ++ t), List.append_assoc]
      rfl
    | throw => rw [hp] at h; cases h
    | outOfFuel => rw [hp] at h; cases h

/-- **C101 (termination).** -/
theorem C101_terminates (b : List Char) {fuel : ℕ} (hf : 2 * b.length < fuel) : parseB fin fuel b ≠ .outOfFuel := by
  obtain ⟨l, q, hq, rfl⟩ := decompose b
  rw [C101_bytes hq l (by omega)]
  have h1 := enc_length l
  rw [List.length_append] at hf
  have h2 := C100_terminates (fin := fin) l (fuel := fuel) (by omega)
  cases hp : parse fin fuel l with
  | ok v x => simp [encO]
  | throw => simp [encO]
  | outOfFuel => exact absurd hp h2

/-- **C101 (errors).** A file that does not begin with the encoding of a JSON value is rejected with an exception, whatever its bytes. -/
theorem C101_rejects {b : List Char} (h : ¬ ∃ v m w t r, Mark m ∧ Blank w ∧ Val v t ∧ NoOverflow fin v ∧ b = enc (m ++ w ++ t) ++ r) {fuel : ℕ} (hf : 2 * b.length < fuel) : parseB fin fuel b = .throw := by
  cases hp : parseB fin fuel b with
  | ok u r =>
    obtain ⟨v, m, w, t, -, h1⟩ := C101_only hp
    exact absurd ⟨v, m, w, t, r, h1⟩ h
  | throw => rfl
  | outOfFuel => exact absurd hp (C101_terminates b hf)

/-! ## Strategies -/

theorem enc_ascii {k : List Char} (h : ∀ c ∈ k, c.toNat < 128) : enc k = k := by
  induction k with
  | nil => rfl
  | cons c k ih => rw [enc_cons, utf8_ascii (h c List.mem_cons_self), ih fun d hd => h d (List.mem_cons_of_mem _ hd)]; rfl

/-- only the ASCII text itself has its bytes -/
theorem enc_eq_ascii : ∀ {k x : List Char}, (∀ c ∈ k, c.toNat < 128) → enc x = k → x = k
  | [], [], _, _ => rfl
  | [], c :: x, _, h => by
    rw [enc_cons, List.append_eq_nil_iff] at h
    exact absurd h.1 (utf8_ne c)
  | d :: k, [], _, h => by cases h
  | d :: k, c :: x, hk, h => by
    rw [enc_cons] at h
    by_cases hc : c.toNat < 128
    · rw [utf8_ascii hc, List.singleton_append, List.cons.injEq] at h
      rw [h.1, enc_eq_ascii (fun e he => hk e (List.mem_cons_of_mem _ he)) h.2]
    · obtain ⟨b, t, rs, h1, h2, -⟩ := utf8_ranges (c := c) (by omega)
      rw [h1, List.cons_append, List.cons.injEq] at h
      have := hk d List.mem_cons_self
      rw [← h.1] at this
      omega

theorem keys_enc (ms : List (List Char × JVal)) : (encMs ms).map Prod.fst = (ms.map Prod.fst).map enc := by
  induction ms with
  | nil => rw [encMs]; rfl
  | cons a ms ih =>
    obtain ⟨k, v⟩ := a
    rw [encMs, List.map_cons, ih]
    rfl

theorem not_key {k : List Char} (hk : ∀ c ∈ k, c.toNat < 128) {ms : List (List Char × JVal)} (h : k ∉ ms.map Prod.fst) : k ∉ (encMs ms).map Prod.fst := by
  rw [keys_enc]
  intro hh
  obtain ⟨x, h1, h2⟩ := List.mem_map.1 hh
  rw [enc_eq_ascii hk h2] at h1
  exact h h1

theorem last_enc {k : List Char} (hk : ∀ c ∈ k, c.toNat < 128) {v : JVal} {ms : List (List Char × JVal)} (h : Last k v ms) : Last k (encV v) (encMs ms) := by
  obtain ⟨a, b, rfl, hb⟩ := h
  refine ⟨encMs a, encMs b, ?_, not_key hk hb⟩
  rw [encMs_append, encMs, enc_ascii hk]

variable {cv : Conv}

theorem pre_enc {n : ℕ} {v : JVal} (h : PreOf cv n v) : PreOf cv n (encV v) := by
  cases h with
  | num t => rw [encV]; exact .num t
  | obj ms t h =>
    rw [encV]
    refine .obj _ t ?_
    have := last_enc (by decide) h
    rwa [encV] at this

theorem real_enc {x : ℚ} {v : JVal} (h : RealOf cv x v) : RealOf cv x (encV v) := by
  obtain ⟨t, rfl, rfl⟩ := h
  rw [encV]
  exact ⟨t, rfl, rfl⟩

theorem all_enc {α : Type} {P : α → JVal → Prop} (hP : ∀ a v, P a v → P a (encV v)) {as : List α} {vs : List JVal} (h : List.Forall₂ P as vs) : List.Forall₂ P as (encVs vs) := by
  induction h with
  | nil => rw [encVs]; exact .nil
  | cons h1 _ ih => rw [encVs]; exact .cons (hP _ _ h1) ih

theorem prun_enc {p : Strat.PruningParams} {v : JVal} (h : PrunOf cv p v) : PrunOf cv p (encV v) := by
  obtain ⟨a, cs, b, rest, rfl, h1, h2, h3⟩ := h
  rw [encV, encVs, encVs, encVs, encV]
  exact ⟨_, _, _, _, rfl, real_enc h1, all_enc (fun a v h => real_enc h) h2, real_enc h3⟩

theorem opt_enc {α : Type} {P : α → JVal → Prop} (hP : ∀ a v, P a v → P a (encV v)) {k : List Char} (hk : ∀ c ∈ k, c.toNat < 128) {l : Option (List α)} {ms : List (List Char × JVal)} (h : OptOf P k l ms) : OptOf P k l (encMs ms) := by
  rcases h with ⟨rfl, h⟩ | ⟨xs, vs, rfl, h1, h2⟩
  · exact .inl ⟨rfl, not_key hk h⟩
  · have := last_enc hk h1
    rw [encV] at this
    exact .inr ⟨xs, encVs vs, rfl, this, all_enc hP h2⟩

theorem entry_enc {e : Strat.Entry} {v : JVal} (h : EntryOf cv e v) : EntryOf cv e (encV v) := by
  obtain ⟨ms, t, rfl, h1, h2, h3, h4⟩ := h
  have := last_enc (by decide) h1
  rw [encV] at this
  rw [encV]
  exact ⟨_, t, rfl, this, h2, opt_enc (fun a v h => pre_enc h) (by decide) h3, opt_enc (fun a v h => prun_enc h) (by decide) h4⟩

/-- **C101 (strategies).** C100's `C100_load` for the bytes of the file. -/
theorem C101_load {l : List Char} {vs : List JVal} (h : Doc (.arr vs) l) (hn : NoOverflow fin (.arr vs)) {es : List Strat.Entry} (he : List.Forall₂ (EntryOf cv) es vs) {m : List Char} (hm : Mark m) {fuel : ℕ} (hf : 2 * (enc (m ++ l)).length < fuel) :
    ∃ S, loadB cv fin fuel (enc (m ++ l)) = .ok S ∧ S.length = Strat.fileSize es ∧
      (∀ i e, Strat.lastFor es i = some e → ∃ s, S[i]? = some s ∧ s.blockSize = i ∧ s.preprocessing = e.preprocessing.getD [] ∧ s.pruning = if e.pruning.getD [] = [] then [Strat.PruningParams.default] else e.pruning.getD []) ∧
      (∀ i < Strat.fileSize es, Strat.lastFor es i = none → S[i]? = some ⟨0, [Strat.PruningParams.default], []⟩) ∧
      ∀ s ∈ S, s.pruning ≠ [] := by
  obtain ⟨r, -, h1⟩ := C101_accepts h hn hm hf
  refine ⟨Strat.loadStrategies es, ?_, Strat.C26_load es⟩
  unfold loadB
  rw [h1, encV]
  show (mapR (entry cv) (encVs vs)).bind _ = _
  rw [mapR_val (fun a b h => entry_ok h) (all_enc (fun a v h => entry_enc h) he)]
  rfl

/-- bytes with the given values -/
def bytes (l : List ℕ) : List Char := l.map Char.ofNat

/-- a string with two bytes for one character and an escape that becomes three bytes -/
example : (match parseB (fun _ => true) 200 (bytes [34, 0xC3, 0xA9] ++ "\\u20ac\"".toList) with
    | .ok (.str s) r => decide (s = enc "é€".toList ∧ s = bytes [0xC3, 0xA9, 0xE2, 0x82, 0xAC] ∧ r = [])
    | _ => false) = true := by decide +kernel

/-- bytes that are not UTF-8: too long, a surrogate, beyond U+10FFFF, cut off -/
example : (match parseB (fun _ => true) 200 (bytes [34, 0xC0, 0x80, 34]), parseB (fun _ => true) 200 (bytes [34, 0xED, 0xA0, 0x80, 34]), parseB (fun _ => true) 200 (bytes [34, 0xF4, 0x90, 0x80, 0x80, 34]), parseB (fun _ => true) 200 (bytes [34, 0xE2, 0x82, 34]) with
    | .throw, .throw, .throw, .throw => true
    | _, _, _, _ => false) = true := by decide +kernel

/-- such bytes exist after a text -/
example : Bad (bytes [0xC0, 0x80]) := by
  intro c x h
  by_cases hc : c.toNat < 128
  · rw [utf8_ascii hc, List.singleton_append] at h
    have : Char.ofNat 0xC0 = c := (List.cons.inj h).1
    rw [← this] at hc
    exact absurd hc (by decide)
  · obtain ⟨b, t, rs, h1, -, h2, -⟩ := utf8_ranges (c := c) (by omega)
    rw [h1, List.cons_append] at h
    have : Char.ofNat 0xC0 = b := (List.cons.inj h).1
    rw [← this, show ranges (Char.ofNat 0xC0) = none by decide] at h2
    cases h2

end JsonRead
end Fplll

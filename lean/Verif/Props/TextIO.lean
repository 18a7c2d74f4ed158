import Verif.Model.TextIO
import Verif.Spec.TextIO
import Mathlib.Tactic.IntervalCases

/-!
# C35: printing and reading are inverse
-/

namespace Fplll
namespace TextIO

open Spec

theorem isWs_iff {c : Char} : isWs c = true ↔ Ws c := by
  simp [isWs, Ws, or_assoc]

theorem digit_char {k : ℕ} (h : k < 10) :
    isDig tenDigits[k] = true ∧ isWs tenDigits[k] = false ∧ digVal tenDigits[k] = k ∧ digChar k = tenDigits[k] ∧
      tenDigits[k] ≠ '-' := by
  revert h
  revert k
  decide

theorem isDig_iff {c : Char} : isDig c = true ↔ c ∈ tenDigits := by
  constructor
  · intro h
    simp only [isDig, Bool.and_eq_true, decide_eq_true_eq] at h
    obtain ⟨h1, h2⟩ := h
    have h1' : '0'.toNat ≤ c.toNat := h1
    have h2' : c.toNat ≤ '9'.toNat := h2
    have e : c = Char.ofNat c.toNat := (Char.ofNat_toNat c).symm
    rw [e]
    have : '0'.toNat = 48 := rfl
    have : '9'.toNat = 57 := rfl
    generalize c.toNat = k at *
    have : 48 ≤ k := by omega
    have : k ≤ 57 := by omega
    interval_cases k <;> decide
  · intro h
    simp [tenDigits] at h
    rcases h with h | h | h | h | h | h | h | h | h | h <;> subst h <;> decide

theorem dropWs {w : List Char} (hw : ∀ c ∈ w, Ws c) (l : List Char) :
    (w ++ l).dropWhile isWs = l.dropWhile isWs := by
  induction w with
  | nil => rfl
  | cons c w ih =>
    rw [List.cons_append, List.dropWhile_cons_of_pos (isWs_iff.2 (hw c (by simp))), ih (fun c h => hw c (by simp [h]))]

theorem readChar_eq {w : List Char} (hw : ∀ c ∈ w, Ws c) {c : Char} (hc : isWs c = false) (l : List Char) :
    readChar ⟨w ++ c :: l, true⟩ = (some c, ⟨l, true⟩) := by
  simp [readChar, dropWs hw, List.dropWhile_cons_of_neg, hc]

theorem dec_dig {n : ℕ} {ds : List Char} (h : Dec n ds) :
    (∀ c ∈ ds, isDig c = true) ∧ ds ≠ [] ∧ digitsVal ds = n := by
  induction h with
  | one k h => exact ⟨by simpa using (digit_char h).1, by simp, by simp [digitsVal, (digit_char h).2.2.1]⟩
  | snoc n k ds h _ ih =>
    obtain ⟨i1, i2, i3⟩ := ih
    refine ⟨?_, by simp, ?_⟩
    · intro c hc
      rw [List.mem_append] at hc
      rcases hc with hc | hc
      · exact i1 c hc
      · rw [List.mem_singleton] at hc; rw [hc]; exact (digit_char h).1
    · unfold digitsVal at i3 ⊢
      rw [List.foldl_append, i3]
      simp [(digit_char h).2.2.1]

theorem readDigits_eq {ds : List Char} (hd : ∀ c ∈ ds, isDig c = true) (acc : List Char) {c : Char}
    (hc : isDig c = false) (l : List Char) : readDigits acc (ds ++ c :: l) = some (acc ++ ds, c :: l) := by
  induction ds generalizing acc with
  | nil => simp [readDigits, hc]
  | cons d ds ih =>
    rw [List.cons_append, readDigits, if_pos (hd d (by simp)), ih (fun c h => hd c (by simp [h]))]
    simp

theorem isDig_notWs {c : Char} (h : isDig c = true) : isWs c = false := by
  have := isDig_iff.1 h
  simp [tenDigits] at this
  rcases this with h | h | h | h | h | h | h | h | h | h <;> subst h <;> decide

theorem isDig_ne {c : Char} (h : isDig c = true) : c ≠ '-' ∧ c ≠ ']' := by
  have := isDig_iff.1 h
  simp [tenDigits] at this
  rcases this with h | h | h | h | h | h | h | h | h | h <;> subst h <;> decide

/-- reading one integer -/
theorem readInt_eq {w t : List Char} (hw : ∀ c ∈ w, Ws c) {z : ℤ} (ht : IntTok z t) {c : Char} (hc : isDig c = false)
    (l : List Char) : readInt ⟨w ++ t ++ c :: l, true⟩ = (some z, ⟨c :: l, true⟩) := by
  cases ht with
  | pos n ds hd =>
    obtain ⟨h1, h2, h3⟩ := dec_dig hd
    obtain ⟨d, ds, rfl⟩ := List.exists_cons_of_ne_nil h2
    have hd1 := h1 d (by simp)
    unfold readInt
    rw [List.append_assoc, List.cons_append, readChar_eq hw (isDig_notWs hd1)]
    dsimp only
    rw [if_neg (isDig_ne hd1).1, if_pos hd1, readDigits_eq (fun c h => h1 c (by simp [h])) _ hc]
    simp [h3]
  | neg n ds hd =>
    obtain ⟨h1, h2, h3⟩ := dec_dig hd
    obtain ⟨d, ds, rfl⟩ := List.exists_cons_of_ne_nil h2
    have hd1 := h1 d (by simp)
    unfold readInt
    rw [List.append_assoc, List.cons_append, readChar_eq hw (by decide)]
    dsimp only
    rw [if_pos rfl, List.cons_append]
    have := readChar_eq (w := []) (by simp) (isDig_notWs hd1) (ds ++ c :: l)
    rw [List.nil_append] at this
    rw [this]
    dsimp only
    rw [if_pos hd1, readDigits_eq (fun c h => h1 c (by simp [h])) _ hc]
    simp [h3]

theorem rowBody_head {v : List ℤ} {b : List Char} (h : RowBody v b) : ∃ c l, b = c :: l := by
  cases h with
  | nil w hw => cases w <;> simp
  | cons w t body z zs hw ht hn hb =>
    cases w with
    | cons c w => simp
    | nil =>
      cases ht with
      | pos n ds hd =>
        obtain ⟨d, ds, rfl⟩ := List.exists_cons_of_ne_nil (dec_dig hd).2.1
        simp
      | neg n ds hd => simp

theorem rowBody_len {v : List ℤ} {b : List Char} (h : RowBody v b) : v.length < b.length := by
  induction h with
  | nil w hw => simp
  | cons w t body z zs hw ht hn hb ih =>
    have : t ≠ [] := by
      cases ht with
      | pos n ds hd => exact (dec_dig hd).2.1
      | neg n ds hd => simp
    have := List.length_pos_of_ne_nil this
    simp only [List.length_append, List.length_cons]
    omega

/-- reading the entries of a vector -/
theorem readLoop_row {v : List ℤ} {b : List Char} (h : RowBody v b) (k : ℕ) (hk : v.length < k) (acc : List ℤ)
    (tail : List Char) : readLoop readInt k acc ⟨b ++ tail, true⟩ = (acc ++ v, ⟨tail, true⟩) := by
  induction h generalizing k acc with
  | nil w hw =>
    obtain ⟨k, rfl⟩ : ∃ k', k = k' + 1 := ⟨k - 1, by simp at hk; omega⟩
    rw [readLoop, List.append_assoc, List.singleton_append, readChar_eq hw (by decide)]
    simp
  | cons w t body z zs hw ht hn hb ih =>
    obtain ⟨k, rfl⟩ : ∃ k', k = k' + 1 := ⟨k - 1, by simp at hk; omega⟩
    obtain ⟨c0, l0, hbody⟩ := rowBody_head hb
    have hc0 : isDig c0 = false := by
      have := hn c0 (by simp [hbody])
      rw [← isDig_iff] at this
      simpa using this
    -- the first character of the number
    obtain ⟨d, t', rfl, hd1, hd2⟩ : ∃ d t', t = d :: t' ∧ isWs d = false ∧ d ≠ ']' := by
      cases ht with
      | pos n ds hd =>
        obtain ⟨h1, h2, h3⟩ := dec_dig hd
        obtain ⟨d, ds, rfl⟩ := List.exists_cons_of_ne_nil h2
        exact ⟨d, ds, rfl, isDig_notWs (h1 d (by simp)), (isDig_ne (h1 d (by simp))).2⟩
      | neg n ds hd => exact ⟨'-', ds, rfl, by decide, by decide⟩
    have e : w ++ d :: t' ++ body ++ tail = w ++ d :: (t' ++ body ++ tail) := by simp
    rw [readLoop, e, readChar_eq hw hd1]
    dsimp only
    rw [if_neg hd2]
    have e2 : putback d ⟨t' ++ body ++ tail, true⟩ = ⟨[] ++ d :: t' ++ c0 :: (l0 ++ tail), true⟩ := by
      simp [putback, hbody]
    rw [e2, readInt_eq (by simp) ht hc0]
    dsimp only
    rw [if_pos rfl]
    have := ih k (by simp at hk; omega) (acc ++ [z])
    rw [hbody, List.cons_append] at this
    rw [this]
    simp

theorem readVect_eq {v : List ℤ} {w b : List Char} (hw : ∀ c ∈ w, Ws c) (hb : RowBody v b) (tail : List Char) :
    readVect readInt ⟨w ++ '[' :: b ++ tail, true⟩ = (v, ⟨tail, true⟩) := by
  unfold readVect
  rw [List.append_assoc, List.cons_append, readChar_eq hw (by decide)]
  dsimp only
  rw [if_pos rfl, readLoop_row hb _ (by have := rowBody_len hb; simp; omega)]
  simp

theorem matBody_len {v : List (List ℤ)} {b : List Char} (h : MatBody v b) : v.length < b.length := by
  induction h with
  | nil w hw => simp
  | cons w t body z zs hw ht hb ih =>
    simp only [List.length_append, List.length_cons]
    omega

theorem readLoop_mat {v : List (List ℤ)} {b : List Char} (h : MatBody v b) (k : ℕ) (hk : v.length < k)
    (acc : List (List ℤ)) (tail : List Char) : readLoop readRow k acc ⟨b ++ tail, true⟩ = (acc ++ v, ⟨tail, true⟩) := by
  induction h generalizing k acc with
  | nil w hw =>
    obtain ⟨k, rfl⟩ : ∃ k', k = k' + 1 := ⟨k - 1, by simp at hk; omega⟩
    rw [readLoop, List.append_assoc, List.singleton_append, readChar_eq hw (by decide)]
    simp
  | cons w t body z zs hw ht hb ih =>
    obtain ⟨k, rfl⟩ : ∃ k', k = k' + 1 := ⟨k - 1, by simp at hk; omega⟩
    have e : w ++ '[' :: t ++ body ++ tail = w ++ '[' :: (t ++ body ++ tail) := by simp
    rw [readLoop, e, readChar_eq hw (by decide)]
    dsimp only
    rw [if_neg (by decide)]
    have e2 : putback '[' ⟨t ++ body ++ tail, true⟩ = ⟨[] ++ '[' :: t ++ (body ++ tail), true⟩ := by
      simp [putback]
    have e3 : readRow ⟨[] ++ '[' :: t ++ (body ++ tail), true⟩ = (some z, ⟨body ++ tail, true⟩) := by
      unfold readRow
      rw [readVect_eq (by simp) ht]
      simp
    rw [e2, e3]
    dsimp only
    rw [if_pos rfl, ih k (by simp at hk; omega) (acc ++ [z])]
    simp

theorem readMatrix_eq {v : List (List ℤ)} {t : List Char} (h : MatTok v t) (tail : List Char) :
    readMatrix ⟨t ++ tail, true⟩ = (some (v.map (padRow (maxLen v)), maxLen v), ⟨tail, true⟩) := by
  obtain ⟨w, b, hw, hb, rfl⟩ := h
  unfold readMatrix
  rw [List.append_assoc, List.cons_append, readChar_eq hw (by decide)]
  dsimp only
  rw [if_pos rfl, readLoop_mat hb _ (by have := matBody_len hb; simp; omega)]
  simp

theorem maxLen_spec (rows : List (List ℤ)) :
    (∀ l ∈ rows, l.length ≤ maxLen rows) ∧ (rows ≠ [] → ∃ l ∈ rows, l.length = maxLen rows) ∧ (rows = [] → maxLen rows = 0) := by
  have key : ∀ (rows : List (List ℤ)) (a : ℕ), a ≤ rows.foldl (fun c l => max c l.length) a ∧
      (∀ l ∈ rows, l.length ≤ rows.foldl (fun c l => max c l.length) a) ∧
      (rows.foldl (fun c l => max c l.length) a = a ∨ ∃ l ∈ rows, l.length = rows.foldl (fun c l => max c l.length) a) := by
    intro rows
    induction rows with
    | nil => intro a; simp
    | cons r rows ih =>
      intro a
      obtain ⟨h1, h2, h3⟩ := ih (max a r.length)
      rw [List.foldl_cons]
      refine ⟨by omega, ?_, ?_⟩
      · intro l hl
        rw [List.mem_cons] at hl
        rcases hl with rfl | hl
        · omega
        · exact h2 l hl
      · rcases h3 with h3 | ⟨l, hl, h3⟩
        · rcases le_total a r.length with hr | hr
          · right; exact ⟨r, by simp, by omega⟩
          · left; omega
        · right; exact ⟨l, by simp [hl], h3⟩
  obtain ⟨h1, h2, h3⟩ := key rows 0
  refine ⟨h2, ?_, ?_⟩
  · intro hne
    rcases h3 with h3 | h3
    · obtain ⟨r, rows, rfl⟩ := List.exists_cons_of_ne_nil hne
      refine ⟨r, by simp, ?_⟩
      have := h2 r (by simp)
      unfold maxLen
      omega
    · exact h3
  · rintro rfl; rfl

/-! ## Printing -/

theorem natText_dec (n : ℕ) : Dec n (natText n) := by
  induction n using Nat.strong_induction_on with
  | _ n ih =>
    rw [natText]
    split_ifs with h
    · rw [(digit_char h).2.2.2.1]; exact .one n h
    · have h10 : n % 10 < 10 := Nat.mod_lt _ (by norm_num)
      have := Dec.snoc (n / 10) (n % 10) (natText (n / 10)) h10 (ih _ (by omega))
      rw [(digit_char h10).2.2.2.1]
      rwa [Nat.div_add_mod] at this

theorem intText_tok (z : ℤ) : IntTok z (intText z) := by
  unfold intText
  split_ifs with h
  · have := IntTok.neg z.natAbs _ (natText_dec z.natAbs)
    rwa [show -((z.natAbs : ℕ) : ℤ) = z by omega] at this
  · have := IntTok.pos z.natAbs _ (natText_dec z.natAbs)
    rwa [show ((z.natAbs : ℕ) : ℤ) = z by omega] at this

/-- the printed entries of a row, after an optional blank -/
theorem sepBy_row (v : List ℤ) (w e : List Char) (hw : ∀ c ∈ w, Ws c) (he : e = [']'] ∨ e = [' ', ']']) :
    RowBody v (w ++ sepBy ' ' (v.map intText) ++ e) := by
  have hend : RowBody [] e := by
    rcases he with rfl | rfl
    · exact .nil [] (by simp)
    · exact .nil [' '] (by simp [Ws])
  have hnd : NoDigit e := by
    rcases he with rfl | rfl <;> intro c hc <;> simp at hc <;> subst hc <;> decide
  induction v generalizing w with
  | nil =>
    rcases he with rfl | rfl
    · simpa [sepBy] using RowBody.nil w hw
    · have := RowBody.nil (w ++ [' ']) (by
        intro c hc
        rw [List.mem_append] at hc
        rcases hc with hc | hc
        · exact hw c hc
        · rw [List.mem_singleton] at hc; subst hc; simp [Ws])
      simpa [sepBy] using this
  | cons z v ih =>
    cases v with
    | nil => simpa [sepBy] using RowBody.cons w (intText z) e z [] hw (intText_tok z) hnd hend
    | cons y v =>
      have := ih [' '] (by simp [Ws])
      have h2 := RowBody.cons w (intText z) _ z (y :: v) hw (intText_tok z) (by
        intro c hc
        simp at hc
        subst hc; decide) this
      simpa [sepBy] using h2

theorem rowText_eq (regular : Bool) (v : List ℤ) : ∃ b, RowBody v b ∧ rowText regular v = '[' :: b := by
  unfold rowText
  refine ⟨_, sepBy_row v [] (if regular ∧ v ≠ [] then [' ', ']'] else [']']) (by simp) ?_, by simp⟩
  split_ifs
  · exact .inr rfl
  · exact .inl rfl

theorem sepBy_mat (regular : Bool) (v : List (List ℤ)) (w e : List Char) (hw : ∀ c ∈ w, Ws c)
    (he : e = [']'] ∨ e = ['\n', ']']) : MatBody v (w ++ sepBy '\n' (v.map (rowText regular)) ++ e) := by
  have hend : MatBody [] e := by
    rcases he with rfl | rfl
    · exact .nil [] (by simp)
    · exact .nil ['\n'] (by simp [Ws])
  induction v generalizing w with
  | nil =>
    rcases he with rfl | rfl
    · simpa [sepBy] using MatBody.nil w hw
    · have := MatBody.nil (w ++ ['\n']) (by
        intro c hc
        rw [List.mem_append] at hc
        rcases hc with hc | hc
        · exact hw c hc
        · rw [List.mem_singleton] at hc; subst hc; simp [Ws])
      simpa [sepBy] using this
  | cons z v ih =>
    obtain ⟨b, hb, hz⟩ := rowText_eq regular z
    cases v with
    | nil => simpa [sepBy, hz] using MatBody.cons w b e z [] hw hb hend
    | cons y v =>
      have h2 := MatBody.cons w b _ z (y :: v) hw hb (ih ['\n'] (by simp [Ws]))
      simpa [sepBy, hz] using h2

theorem matrixText_tok (regular : Bool) (rows : List (List ℤ)) : MatTok rows (matrixText regular rows) := by
  unfold matrixText
  refine ⟨[], _, by simp, sepBy_mat regular rows [] (if regular ∧ rows ≠ [] then ['\n', ']'] else [']']) (by simp) ?_, by simp⟩
  split_ifs
  · exact .inr rfl
  · exact .inl rfl

/-- **C35**, reading: every text of the grammar – any white space, any number of leading zeros, rows of different
lengths – is read as the rows it denotes, padded with zeros to the length of the longest row, and the stream is left
right behind the closing bracket. -/
theorem C35_read {rows : List (List ℤ)} {t : List Char} (h : MatTok rows t) (tail : List Char) :
    ∃ c, readMatrix ⟨t ++ tail, true⟩ =
        (some (rows.map (fun l => l ++ List.replicate (c - l.length) 0), c), ⟨tail, true⟩) ∧
      (∀ l ∈ rows, l.length ≤ c) ∧ (rows ≠ [] → ∃ l ∈ rows, l.length = c) ∧ (rows = [] → c = 0) :=
  ⟨maxLen rows, readMatrix_eq h tail, maxLen_spec rows⟩

/-- **C35**, round trip: what `Matrix::print` writes for a matrix with `c` columns, in either print mode, is read back
as the same matrix.  (A matrix without rows comes back with 0 columns.) -/
theorem C35_round_trip (regular : Bool) (rows : List (List ℤ)) (c : ℕ) (hc : ∀ l ∈ rows, l.length = c)
    (tail : List Char) :
    readMatrix ⟨matrixText regular rows ++ tail, true⟩ = (some (rows, if rows = [] then 0 else c), ⟨tail, true⟩) := by
  obtain ⟨c', h1, h2, h3, h4⟩ := C35_read (matrixText_tok regular rows) tail
  have e : c' = if rows = [] then 0 else c := by
    split_ifs with h
    · exact h4 h
    · obtain ⟨l, hl, e⟩ := h3 h
      rw [← e, hc l hl]
  rw [h1, e]
  have : rows.map (fun l => l ++ List.replicate ((if rows = [] then 0 else c) - l.length) 0) = rows := by
    conv_rhs => rw [← List.map_id rows]
    apply List.map_congr_left
    intro l hl
    rw [if_neg (List.ne_nil_of_mem hl), hc l hl]
    simp
  rw [this]

/-- **C35** for vectors: reading a text of the grammar, and in particular what `operator<<` wrote. -/
theorem C35_vector {v : List ℤ} {t : List Char} (h : VectTok v t) (tail : List Char) :
    readVect readInt ⟨t ++ tail, true⟩ = (v, ⟨tail, true⟩) := by
  obtain ⟨w, b, hw, hb, rfl⟩ := h
  exact readVect_eq hw hb tail

theorem C35_vector_round_trip (v : List ℤ) (tail : List Char) :
    readVect readInt ⟨vectText v ++ tail, true⟩ = (v, ⟨tail, true⟩) :=
  C35_vector ⟨[], _, by simp, sepBy_row v [] [']'] (by simp) (.inl rfl), by simp [vectText]⟩ tail

/-- **C35** for single integers followed by some other character -/
theorem C35_integer (z : ℤ) (c : Char) (hc : c ∉ tenDigits) (tail : List Char) :
    readInt ⟨intText z ++ c :: tail, true⟩ = (some z, ⟨c :: tail, true⟩) := by
  have := readInt_eq (w := []) (by simp) (intText_tok z) (c := c)
    (by rw [← isDig_iff] at hc; simpa using hc) tail
  simpa using this

/-- **C35 fails for an integer at the very end of the stream**: `is.get(c)` sets `failbit` together with `eofbit`, so
`is.fail()` (line 271) returns before the value is stored; the branch for `eof` after it is unreachable. -/
theorem C35_integer_at_end_fails (z : ℤ) : (readInt ⟨intText z, true⟩).1 = none ∧ (readInt ⟨intText z, true⟩).2.ok = false := by
  have hend : ∀ (ds acc : List Char), (∀ c ∈ ds, isDig c = true) → readDigits acc ds = none := by
    intro ds
    induction ds with
    | nil => intro acc _; rfl
    | cons d ds ih =>
      intro acc h
      rw [readDigits, if_pos (h d (by simp))]
      exact ih _ (fun c hc => h c (by simp [hc]))
  obtain ⟨h1, h2, -⟩ := dec_dig (natText_dec z.natAbs)
  obtain ⟨d, ds, e⟩ := List.exists_cons_of_ne_nil h2
  have hd1 := h1 d (by simp [e])
  have hr : readChar ⟨d :: ds, true⟩ = (some d, ⟨ds, true⟩) := by
    simpa using readChar_eq (w := []) (by simp) (isDig_notWs hd1) ds
  have hds := hend ds [d] (fun c hc => h1 c (by simp [e, hc]))
  unfold intText
  rw [e]
  split_ifs
  · have hm : readChar ⟨'-' :: d :: ds, true⟩ = (some '-', ⟨d :: ds, true⟩) := by
      simpa using readChar_eq (w := []) (by simp) (by decide : isWs '-' = false) (d :: ds)
    unfold readInt
    rw [hm]
    dsimp only
    rw [if_pos rfl, hr]
    dsimp only
    rw [if_pos hd1, hds]
    simp
  · unfold readInt
    rw [hr]
    dsimp only
    rw [if_neg (isDig_ne hd1).1, if_pos hd1, hds]
    simp

/-- `[[1 -20][7]] x`: ragged rows are padded -/
example : readMatrix ⟨"[[1 -20]\n[7]] x".toList, true⟩ = (some ([[1, -20], [7, 0]], 2), ⟨" x".toList, true⟩) := by
  decide +kernel
example : matrixText true [[1, -20], [7, 0]] = "[[1 -20 ]\n[7 0 ]\n]".toList := by decide +kernel
example : MatTok [[1, -20], [7]] "[[1 -20]\n[7]]".toList := by
  have := matrixText_tok false [[1, -20], [7]]
  rwa [show matrixText false [[1, -20], [7]] = "[[1 -20]\n[7]]".toList by decide +kernel] at this

end TextIO
end Fplll

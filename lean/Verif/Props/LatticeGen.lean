import Verif.Model.LatticeGen
import Verif.Props.Gen

/-!
# C87: `latticegen` prints what README.md documents
-/

open Finset

namespace Fplll
namespace LatticeGen

open Gen Spec

/-! ## Specification: README.md, section `latticegen` -/

/-- entries of bit-length at most `b` -/
def Bits (b : ℕ) (x : ℤ) : Prop := 0 ≤ x ∧ x < 2 ^ b

/-- `r d b`: `d × (d+1)`; the `i`-th vector starts with a random integer of bit-length at most `b` and the rest is the `i`-th unit vector -/
def DocR (d b : ℕ) (r c : ℤ) (m : Mat ℤ) : Prop :=
  r = d ∧ c = d + 1 ∧ ∀ i < d, Bits b (m i 0) ∧ ∀ j < d, m i (j + 1) = if i = j then 1 else 0

/-- `s d b b2`: `d × d`; the first vector starts with a random integer of bit-length at most `b2`, followed by `d - 1` integers of bit-length at most `b`; the `i`-th vector for `i > 1` is the `i`-th unit vector times `2^b` -/
def DocS (d b b2 : ℕ) (r c : ℤ) (m : Mat ℤ) : Prop :=
  r = d ∧ c = d ∧ Bits b2 (m 0 0) ∧ (∀ j, 1 ≤ j → j < d → Bits b (m 0 j)) ∧ ∀ i, 1 ≤ i → i < d → ∀ j < d, m i j = if i = j then 2 ^ b else 0

/-- `u d b`: `d × d` with entries of bit-length at most `b` -/
def DocU (d b : ℕ) (r c : ℤ) (m : Mat ℤ) : Prop := r = d ∧ c = d ∧ ∀ i < d, ∀ j < d, Bits b (m i j)

/-- the first row of `A` is `h`, and every other row is the one before, shifted, with the last entry put in the first place -/
def Rot (d : ℕ) (h : ℕ → ℤ) (A : ℕ → ℕ → ℤ) : Prop :=
  (∀ j < d, A 0 j = h j) ∧ ∀ i, i + 1 < d → A (i + 1) 0 = A i (d - 1) ∧ ∀ j, j + 1 < d → A (i + 1) (j + 1) = A i j

/-- `n d b c`: `[[I, Rot(h)], [0, qI]]` with `h` modulo `q` -/
def DocN (d q : ℕ) (h : ℕ → ℤ) (r c : ℤ) (m : Mat ℤ) : Prop :=
  r = 2 * d ∧ c = 2 * d ∧ (∀ i < d, 0 ≤ h i ∧ h i < q) ∧ (∀ i < d, ∀ j < d, m i j = if i = j then 1 else 0) ∧ (∀ i < d, ∀ j < d, m (d + i) j = 0) ∧
  (∀ i < d, ∀ j < d, m (d + i) (d + j) = if i = j then (q : ℤ) else 0) ∧ Rot d h fun i j => m i (d + j)

/-- `N d b c`: `[[qI, 0], [Rot(h), I]]` with `h` modulo `q` -/
def DocN2 (d q : ℕ) (h : ℕ → ℤ) (r c : ℤ) (m : Mat ℤ) : Prop :=
  r = 2 * d ∧ c = 2 * d ∧ (∀ i < d, 0 ≤ h i ∧ h i < q) ∧ (∀ i < d, ∀ j < d, m i j = if i = j then (q : ℤ) else 0) ∧ (∀ i < d, ∀ j < d, m i (d + j) = 0) ∧
  (∀ i < d, ∀ j < d, m (d + i) (d + j) = if i = j then 1 else 0) ∧ Rot d h fun i j => m (d + i) j

/-- `q d k b c`: `[[I, H], [0, qI]]` where `H` has `d - k` rows and `k` columns and is reduced modulo `q` -/
def DocQ (d k q : ℕ) (r c : ℤ) (m : Mat ℤ) : Prop :=
  r = d ∧ c = d ∧ (∀ i < d - k, ∀ j < d - k, m i j = if i = j then 1 else 0) ∧ (∀ i < d - k, ∀ j < k, 0 ≤ m i (d - k + j) ∧ m i (d - k + j) < q) ∧
  ∀ i < k, ∀ j < d, m (d - k + i) j = if d - k + i = j then (q : ℤ) else 0

/-- the `q` of the methods `n`, `N`, `q`: of bit-length `b`, or the given number, or the next prime -/
def DocModulus (E : Env) (c : Char) (s : String) (q : ℕ) : Prop :=
  (c = 'b' ∧ 2 ^ ((E.atoi s).toNat - 1) ≤ q ∧ q < 2 ^ (E.atoi s).toNat) ∨ (c = 'q' ∧ E.setStr s = some (q : ℤ)) ∨
  (c = 'p' ∧ ∃ q0, 2 ^ ((E.atoi s).toNat - 1) ≤ q0 ∧ q0 < 2 ^ (E.atoi s).toNat ∧ q = E.nextPrime q0)

/-- lower triangular with the diagonal `D`; below the diagonal at most half of the diagonal entry of the column -/
def DocTri (d : ℕ) (D : ℕ → ℤ) (r c : ℤ) (m : Mat ℤ) : Prop :=
  r = d ∧ c = d ∧ ∀ i < d, m i i = D i ∧ (∀ j < i, 2 * |m i j| ≤ D j) ∧ ∀ j, i < j → j < d → m i j = 0

/-- `t d f`: the diagonal is `2^((d-i+1)^f)`, with `i` counted from 1 (`f` an integer here) -/
def DocT (d f : ℕ) : ℤ → ℤ → Mat ℤ → Prop := DocTri d fun i => 2 ^ ((d - i) ^ f)

/-- the option `-randseed` in front, or nothing -/
def Seeded (pre : List String) : Prop := pre = [] ∨ ∃ s, pre = ["-randseed", s]

/-! ## Proofs -/

variable {E : Env} {pre : List String} {g sd : String} {d : ℕ}

theorem main_eq (hp : Seeded pre) (hg : head g ≠ some '-') (a : List String) : main E (pre ++ g :: a) = method E (g :: a) := by
  have h : ∀ s : String, head s = some '-' → g ≠ s := fun s hs he => hg (by rw [he, hs])
  rcases hp with rfl | ⟨s, rfl⟩
  · rw [List.nil_append]
    unfold main
    dsimp only
    rw [if_neg (h "--help" (by decide)), if_neg (h "--version" (by decide)), if_neg (h "-randseed" (by decide))]
  · rfl

/-- **C87**, method `r` -/
theorem C87_r (hp : Seeded pre) (hg : head g = some 'r') (hd : 1 ≤ d) (hsd : E.atoi sd = d) {s : String} {b : ℕ} (hs : E.atoi s = b) (rest : List String) :
    ∃ r c m, main E (pre ++ g :: sd :: s :: rest) = .ok r c m ∧ DocR d b r c m ∧ Indep d (d + 1) (toQ m) := by
  obtain ⟨m, h1, h2, h3, h4⟩ := C39_intrel d b E.rnd fresh
  refine ⟨d, d + 1, m, ?_, ⟨rfl, rfl, fun i hi => ⟨h2 i hi, h3 i hi⟩⟩, h4⟩
  rw [main_eq hp (by rw [hg]; decide)]
  unfold method
  dsimp only
  rw [hg, hsd]
  simp only [if_true, hs]
  unfold genR
  rw [if_neg (by omega), if_neg (by omega), Int.toNat_natCast, Int.toNat_natCast, h1]
  rfl

/-- **C87**, method `u` -/
theorem C87_u (hp : Seeded pre) (hg : head g = some 'u') (hd : 1 ≤ d) (hsd : E.atoi sd = d) {s : String} {b : ℕ} (hs : E.atoi s = b) (rest : List String) :
    ∃ r c m, main E (pre ++ g :: sd :: s :: rest) = .ok r c m ∧ DocU d b r c m := by
  obtain ⟨m, h1, h2⟩ := C39_uniform d b E.rnd fresh
  refine ⟨d, d, m, ?_, ⟨rfl, rfl, h2⟩⟩
  rw [main_eq hp (by rw [hg]; decide)]
  unfold method
  dsimp only
  rw [hg, hsd]
  simp only [reduceCtorEq, Option.some.injEq, Char.reduceEq, if_false, if_true, hs]
  unfold genU
  rw [if_neg (by omega), if_neg (by omega), Int.toNat_natCast, Int.toNat_natCast, h1]
  rfl

/-- **C87**, method `s`, what is printed instead (`_partial`): a matrix with `d + 1` rows and columns, and the first entry is `2^b2`. -/
theorem C87_s_partial (hp : Seeded pre) (hg : head g = some 's') (hsd : E.atoi sd = d) {s s2 : String} {b b2 : ℕ} (hs : E.atoi s = b) (hs2 : E.atoi s2 = b2) (rest : List String) :
    ∃ r c m, main E (pre ++ g :: sd :: s :: s2 :: rest) = .ok r c m ∧ DocS (d + 1) b (b2 + 1) r c m ∧ m 0 0 = 2 ^ b2 ∧ Indep (d + 1) (d + 1) (toQ m) := by
  obtain ⟨m, h1, h2, h3, h4, h5⟩ := C39_simdioph_partial (d + 1) b b2 (by omega) E.rnd fresh fun _ _ _ => rfl
  refine ⟨d + 1, d + 1, m, ?_, ⟨by push_cast; rfl, by push_cast; rfl, ⟨by rw [h2]; positivity, by rw [h2]; exact pow_lt_pow_right₀ (by norm_num) (by omega)⟩, h3, h4⟩, h2, h5⟩
  rw [main_eq hp (by rw [hg]; decide)]
  unfold method
  dsimp only
  rw [hg, hsd]
  simp only [reduceCtorEq, Option.some.injEq, Char.reduceEq, if_false, if_true, hs, hs2]
  unfold genS
  rw [if_neg (by omega), if_neg (by omega), show ((d : ℤ) + 1).toNat = d + 1 by omega, Int.toNat_natCast, Int.toNat_natCast, h1]
  rfl

/-- **C87 fails** for method `s`: for no parameters is the matrix the documented one. -/
theorem C87_s_violated (hp : Seeded pre) (hg : head g = some 's') (hsd : E.atoi sd = d) {s s2 : String} {b b2 : ℕ} (hs : E.atoi s = b) (hs2 : E.atoi s2 = b2) (rest : List String) {r c : ℤ} {m : Mat ℤ}
    (h : main E (pre ++ g :: sd :: s :: s2 :: rest) = .ok r c m) : ¬ DocS d b b2 r c m ∧ ¬ Bits b2 (m 0 0) := by
  obtain ⟨r', c', m', h1, h2, h3, -⟩ := C87_s_partial hp hg hsd hs hs2 rest
  rw [h1] at h
  injection h with e1 e2 e3
  subst e1 e2 e3
  refine ⟨fun hd => ?_, fun hb => ?_⟩
  · have := hd.1
    have := h2.1
    push_cast at this
    omega
  · have := hb.2
    rw [h3] at this
    exact lt_irrefl _ this

theorem genQ_range (E : Env) {b : ℤ} (hb : 0 < b) : 2 ^ (b.toNat - 1) ≤ genQ E b ∧ genQ E b < 2 ^ b.toNat := by
  unfold genQ
  have h1 : E.rndQ % 2 ^ (b.toNat - 1) < 2 ^ (b.toNat - 1) := Nat.mod_lt _ (by positivity)
  have h2 : 2 ^ b.toNat = 2 * 2 ^ (b.toNat - 1) := by rw [← pow_succ']; congr 1; omega
  omega

/-- a valid modulus in the arguments -/
def ValidModulus (E : Env) (prime : Bool) (c : Char) (s : String) : Prop :=
  (c = 'b' ∧ 0 < E.atoi s) ∨ (c = 'q' ∧ ∃ q : ℤ, E.setStr s = some q ∧ 0 < q) ∨ (c = 'p' ∧ prime = true ∧ 0 < E.atoi s)

theorem readQ_eq {prime : Bool} {c : Char} {s : String} (hn : ∀ q, q < E.nextPrime q) (h : ValidModulus E prime c s) : ∃ q, readQ E prime (some c) s = some q ∧ 0 < q ∧ DocModulus E c s q := by
  unfold readQ DocModulus
  rcases h with ⟨rfl, h⟩ | ⟨rfl, q, h1, h2⟩ | ⟨rfl, hp, h⟩
  · have hg := genQ_range E h
    refine ⟨genQ E (E.atoi s), ?_, lt_of_lt_of_le (by positivity) hg.1, .inl ⟨rfl, hg⟩⟩
    rw [if_pos rfl, if_neg (by omega)]
  · refine ⟨q.toNat, ?_, by omega, .inr (.inl ⟨rfl, by rw [h1]; congr 1; omega⟩)⟩
    simp only [Option.some.injEq, Char.reduceEq, if_false, if_true, h1]
    rw [if_neg (by omega)]
  · have hg := genQ_range E h
    refine ⟨E.nextPrime (genQ E (E.atoi s)), ?_, lt_of_le_of_lt (Nat.zero_le _) (hn _), .inr (.inr ⟨rfl, _, hg.1, hg.2, rfl⟩)⟩
    simp only [Option.some.injEq, Char.reduceEq, if_false, hp, and_self, if_true]
    rw [if_neg (by omega)]

theorem readQ_none {prime : Bool} {c : Option Char} {s : String} (h : ∀ ch, c = some ch → ¬ ValidModulus E prime ch s) : readQ E prime c s = none := by
  unfold readQ
  by_cases h1 : c = some 'b'
  · rw [if_pos h1]
    by_cases h2 : E.atoi s ≤ 0
    · rw [if_pos h2]
    · exact absurd (.inl ⟨rfl, by omega⟩) (h _ h1)
  rw [if_neg h1]
  by_cases h2 : c = some 'q'
  · rw [if_pos h2]
    cases hs : E.setStr s with
    | none => rfl
    | some q =>
      dsimp only
      by_cases h3 : q ≤ 0
      · rw [if_pos h3]
      · exact absurd (.inr (.inl ⟨rfl, q, hs, by omega⟩)) (h _ h2)
  rw [if_neg h2]
  by_cases h3 : c = some 'p' ∧ prime = true
  · rw [if_pos h3]
    by_cases h4 : E.atoi s ≤ 0
    · rw [if_pos h4]
    · exact absurd (.inr (.inr ⟨rfl, h3.2, by omega⟩)) (h _ h3.1)
  · rw [if_neg h3]

/-- **C87**: without a valid modulus the methods `n` and `N` end with an error message -/
theorem C87_n_rejects (hp : Seeded pre) (hg : head g = some 'n' ∨ head g = some 'N') {s sc : String} (hs : ∀ ch, head sc = some ch → ¬ ValidModulus E false ch s) (rest : List String) :
    main E (pre ++ g :: sd :: s :: sc :: rest) = .fatal := by
  rw [main_eq hp (by rcases hg with hg | hg <;> rw [hg] <;> decide)]
  unfold method
  dsimp only
  rw [readQ_none hs, if_pos hg]
  rcases hg with hg | hg <;> rw [hg] <;> simp

/-- **C87**: without a valid modulus the method `q` ends with an error message -/
theorem C87_q_rejects (hp : Seeded pre) (hg : head g = some 'q') {sk s sc : String} (hs : ∀ ch, head sc = some ch → ¬ ValidModulus E true ch s) (rest : List String) :
    main E (pre ++ g :: sd :: sk :: s :: sc :: rest) = .fatal := by
  rw [main_eq hp (by rw [hg]; decide)]
  unfold method
  dsimp only
  rw [readQ_none hs, hg]
  simp

/-- the number of parameters of a method after the dimension, README.md:193-208; `none`: no such method -/
def arity : Option Char → Option ℕ
  | some 'r' => some 1
  | some 's' => some 2
  | some 'u' => some 1
  | some 'n' => some 2
  | some 'N' => some 2
  | some 'q' => some 3
  | some 't' => some 1
  | some 'T' => some 0
  | _ => none

/-- **C87**: without a dimension, with too few parameters or with an unknown method there is an error message -/
theorem C87_missing (hp : Seeded pre) (hg : head g ≠ some '-') (a : List String) (h : ∀ sd a', a = sd :: a' → ∀ k, arity (head g) = some k → a'.length < k) : main E (pre ++ g :: a) = .fatal := by
  rw [main_eq hp hg]
  cases a with
  | nil => rfl
  | cons sd a =>
    have h := h sd a rfl
    unfold method
    dsimp only
    generalize hc : head g = c at *
    by_cases h1 : c = some 'r'
    · subst h1
      match a with
      | [] => rfl
      | _ :: l => exact absurd (h 1 rfl) (by simp)
    by_cases h2 : c = some 's'
    · subst h2
      match a with
      | [] => rfl
      | [_] => rfl
      | _ :: _ :: l => exact absurd (h 2 rfl) (by simp)
    by_cases h3 : c = some 'u'
    · subst h3
      match a with
      | [] => rfl
      | _ :: l => exact absurd (h 1 rfl) (by simp)
    by_cases h4 : c = some 'n'
    · subst h4
      match a with
      | [] => rfl
      | [_] => rfl
      | _ :: _ :: l => exact absurd (h 2 rfl) (by simp)
    by_cases h5 : c = some 'N'
    · subst h5
      match a with
      | [] => rfl
      | [_] => rfl
      | _ :: _ :: l => exact absurd (h 2 rfl) (by simp)
    by_cases h6 : c = some 'q'
    · subst h6
      match a with
      | [] => rfl
      | [_] => rfl
      | [_, _] => rfl
      | _ :: _ :: _ :: l => exact absurd (h 3 rfl) (by simp)
    by_cases h7 : c = some 't'
    · subst h7
      match a with
      | [] => rfl
      | _ :: l => exact absurd (h 1 rfl) (by simp)
    by_cases h8 : c = some 'T'
    · subst h8
      exact absurd (h 0 rfl) (Nat.not_lt_zero _)
    rw [if_neg h1, if_neg h2, if_neg h3, if_neg (by tauto), if_neg h6, if_neg h7, if_neg h8]

example : main E ["q", "4", "2", "5"] = .fatal := C87_missing (pre := []) (.inl rfl) (by decide) _ (by
  intro sd a' h k hk
  injection h with _ h
  subst h
  have : k = 3 := by
    have e : head "q" = some 'q' := by decide
    rw [e] at hk
    exact (Option.some.inj hk).symm
  subst this
  decide)

theorem rot_of_mod {h : ℕ → ℤ} {A : ℕ → ℕ → ℤ} (hA : ∀ i < d, ∀ j < d, A i j = h ((j + (d - i)) % d)) : Rot d h A := by
  constructor
  · intro j hj
    rw [hA 0 (by omega) j hj, Nat.sub_zero, Nat.add_mod_right, Nat.mod_eq_of_lt hj]
  · intro i hi
    constructor
    · rw [hA (i + 1) hi 0 (by omega), hA i (by omega) (d - 1) (by omega)]
      congr 1
      rw [Nat.mod_eq_of_lt (show 0 + (d - (i + 1)) < d by omega), show d - 1 + (d - i) = d - (i + 1) + d by omega, Nat.add_mod_right, Nat.mod_eq_of_lt (by omega)]
      omega
    · intro j hj
      rw [hA (i + 1) hi (j + 1) hj, hA i (by omega) j (by omega)]
      congr 2
      omega

/-- **C87**, method `n` (`_partial`: `h` is not uniform, the sum of its coefficients is a multiple of `q`) -/
theorem C87_n_partial (hn : ∀ q, q < E.nextPrime q) (hp : Seeded pre) (hg : head g = some 'n') (hd : 1 ≤ d) (hsd : E.atoi sd = d) {s sc : String} {ch : Char} (hc : head sc = some ch) (hs : ValidModulus E false ch s) (rest : List String) :
    ∃ r c m q h, main E (pre ++ g :: sd :: s :: sc :: rest) = .ok r c m ∧ DocModulus E ch s q ∧ DocN d q h r c m ∧ (q : ℤ) ∣ ∑ i ∈ range d, h i ∧ Indep (2 * d) (2 * d) (toQ m) := by
  obtain ⟨q, q1, q2, q3⟩ := readQ_eq hn hs
  obtain ⟨m, h, h1, ⟨h2, h2'⟩, h3, h4, h5, h6⟩ := C39_ntrulike d q hd q2 E.rnd fresh
  refine ⟨2 * d, 2 * d, m, q, h, ?_, q3, ⟨rfl, rfl, h4, h2, fun i hi j hj => ?_, fun i hi j hj => ?_, rot_of_mod h3⟩, h5, h6⟩
  · rw [main_eq hp (by rw [hg]; decide)]
    unfold method
    dsimp only
    rw [hg, hsd]
    simp only [Option.some.injEq, Char.reduceEq, if_false, true_or, if_true, hc, q1, decide_false]
    unfold genN
    rw [if_neg (by omega), if_neg (by omega), Int.toNat_natCast]
    simp only [Bool.false_eq_true, if_false, h1]
    rfl
  · rw [h2' (d + i) (by omega) (by omega) j (by omega), if_neg (by omega)]
  · rw [h2' (d + i) (by omega) (by omega) (d + j) (by omega)]
    simp

/-- **C87 fails** for method `n`: the polynomial `h` is documented to be uniform modulo `q`; but no random numbers give a polynomial whose coefficients do not add up to a multiple of `q`. -/
theorem C87_n_violated (hn : ∀ q, q < E.nextPrime q) (hp : Seeded pre) (hg : head g = some 'n') (hd : 1 ≤ d) (hsd : E.atoi sd = d) {s sc : String} {ch : Char} (hc : head sc = some ch) (hs : ValidModulus E false ch s) (rest : List String) :
    ∃ q, DocModulus E ch s q ∧ ∀ h : ℕ → ℤ, ¬ (q : ℤ) ∣ ∑ i ∈ range d, h i → ∀ r c m, main E (pre ++ g :: sd :: s :: sc :: rest) = .ok r c m → ¬ DocN d q h r c m := by
  obtain ⟨r', c', m', q, h', h1, h2, h3, h4, -⟩ := C87_n_partial hn hp hg hd hsd hc hs rest
  refine ⟨q, h2, fun h hh r c m he hdoc => hh ?_⟩
  rw [h1] at he
  injection he with e1 e2 e3
  subst e1 e2 e3
  have e : ∀ i ∈ range d, h i = h' i := fun i hi => by
    rw [← hdoc.2.2.2.2.2.2.1 i (mem_range.1 hi)]
    exact h3.2.2.2.2.2.2.1 i (mem_range.1 hi)
  rw [sum_congr rfl e]
  exact h4

/-- **C87**, method `N` (`_partial` as `n`) -/
theorem C87_N_partial (hn : ∀ q, q < E.nextPrime q) (hp : Seeded pre) (hg : head g = some 'N') (hd : 1 ≤ d) (hsd : E.atoi sd = d) {s sc : String} {ch : Char} (hc : head sc = some ch) (hs : ValidModulus E false ch s) (rest : List String) :
    ∃ r c m q h, main E (pre ++ g :: sd :: s :: sc :: rest) = .ok r c m ∧ DocModulus E ch s q ∧ DocN2 d q h r c m ∧ (q : ℤ) ∣ ∑ i ∈ range d, h i ∧ Indep (2 * d) (2 * d) (toQ m) := by
  obtain ⟨q, q1, q2, q3⟩ := readQ_eq hn hs
  obtain ⟨m, h, h1, h2, h3, h4, h5, h6, h7⟩ := C39_ntrulike2 d q hd q2 E.rnd fresh
  have hlt : ∀ k, k % d < d := fun k => Nat.mod_lt _ (by omega)
  have hrev : ∀ k < d, (d - (d - k) % d) % d = k := fun k hk => by
    rcases Nat.eq_zero_or_pos k with rfl | h0
    · rw [Nat.sub_zero, Nat.mod_self, Nat.sub_zero, Nat.mod_self]
    · rw [Nat.mod_eq_of_lt (show d - k < d by omega), show d - (d - k) = k by omega, Nat.mod_eq_of_lt hk]
  refine ⟨2 * d, 2 * d, m, q, fun k => h ((d - k) % d), ?_, q3, ⟨rfl, rfl, fun i _ => h5 _ (hlt _), fun i hi j hj => h2 i hi j (by omega), fun i hi j hj => ?_, h3, rot_of_mod fun i hi j hj => ?_⟩, ?_, h7⟩
  · rw [main_eq hp (by rw [hg]; decide)]
    unfold method
    dsimp only
    rw [hg, hsd]
    simp only [Option.some.injEq, Char.reduceEq, if_false, or_true, if_true, hc, q1, decide_true]
    unfold genN
    rw [if_neg (by omega), if_neg (by omega), Int.toNat_natCast]
    simp only [if_true, h1]
    rfl
  · rw [h2 i hi (d + j) (by omega), if_neg (by omega)]
  · rw [h4 i hi j hj]
    congr 1
    rcases Nat.lt_or_ge j i with hji | hji
    · rw [Nat.mod_eq_of_lt (show j + (d - i) < d by omega), show i + (d - j) = i - j + d by omega, Nat.add_mod_right, show d - (j + (d - i)) = i - j by omega]
    · rw [show j + (d - i) = j - i + d by omega, Nat.add_mod_right, Nat.mod_eq_of_lt (show j - i < d by omega), show i + (d - j) = d - (j - i) by omega]
  · have e : ∑ k ∈ range d, h ((d - k) % d) = ∑ k ∈ range d, h k := by
      refine sum_bij' (fun k _ => (d - k) % d) (fun k _ => (d - k) % d) (fun k _ => mem_range.2 (hlt _)) (fun k _ => mem_range.2 (hlt _)) (fun k hk => hrev k (mem_range.1 hk)) (fun k hk => hrev k (mem_range.1 hk)) fun k _ => rfl
    rw [e]
    exact h6

/-- **C87**, method `q` -/
theorem C87_q (hn : ∀ q, q < E.nextPrime q) (hp : Seeded pre) (hg : head g = some 'q') {k : ℕ} (hk : k ≤ d) (hsd : E.atoi sd = d) {sk s sc : String} (hsk : E.atoi sk = k) {ch : Char} (hc : head sc = some ch) (hs : ValidModulus E true ch s) (rest : List String) :
    ∃ r c m q, main E (pre ++ g :: sd :: sk :: s :: sc :: rest) = .ok r c m ∧ DocModulus E ch s q ∧ DocQ d k q r c m ∧ Indep d d (toQ m) := by
  obtain ⟨q, q1, q2, q3⟩ := readQ_eq hn hs
  obtain ⟨m, h1, ⟨h2, h2'⟩, h3, h4, -⟩ := C39_qary d k q hk q2 E.rnd fresh
  refine ⟨d, d, m, q, ?_, q3, ⟨rfl, rfl, h2, fun i hi j hj => h3 i hi _ (by omega) (by omega), fun i hi j hj => h2' _ (by omega) (by omega) j hj⟩, h4⟩
  rw [main_eq hp (by rw [hg]; decide)]
  unfold method
  dsimp only
  rw [hg, hsd]
  simp only [Option.some.injEq, Char.reduceEq, if_false, or_self, if_true, hc, q1]
  unfold genQary
  rw [hsk, if_neg (by omega), if_neg (by omega), Int.toNat_natCast, Int.toNat_natCast, h1]
  rfl

/-- **C87**, method `T` -/
theorem C87_T (hp : Seeded pre) (hg : head g = some 'T') (hsd : E.atoi sd = d) (hw : ∀ i < d, 1 ≤ E.input i) (rest : List String) :
    ∃ r c m, main E (pre ++ g :: sd :: rest) = .ok r c m ∧ DocTri d E.input r c m ∧ Indep d d (toQ m) := by
  obtain ⟨m, h1, h2, h3, h4, h5⟩ := C39_trg2 d E.input hw E.rnd E.sgn fresh
  refine ⟨d, d, m, ?_, ⟨rfl, rfl, fun i hi => ⟨h2 i hi, fun j hj => by rw [← h2 j (by omega)]; exact h4 i hi j hj, fun j hj hjd => h3 i hi j hjd hj⟩⟩, h5⟩
  rw [main_eq hp (by rw [hg]; decide)]
  unfold method
  dsimp only
  rw [hg, hsd]
  simp only [Option.some.injEq, Char.reduceEq, if_false, or_self, if_true]
  unfold genT2
  rw [if_neg (by omega), Int.toNat_natCast, h1, if_neg]
  · rfl
  · rw [List.any_eq_true]
    rintro ⟨i, hi, h⟩
    have := hw i (List.mem_range.1 hi)
    simp at h
    omega

/-- **C87**, method `t`, what is printed instead (`_partial`): the diagonal is random up to `2^(2d-i+1)^f` (counted from 1) instead of `2^(d-i+1)^f` -/
theorem C87_t_partial (hp : Seeded pre) (hg : head g = some 't') (hd : 1 ≤ d) (hsd : E.atoi sd = d) {s : String} (hs : ∀ i < d, 1 ≤ E.powBits s d i) (rest : List String) :
    ∃ r c m, main E (pre ++ g :: sd :: s :: rest) = .ok r c m ∧ DocTri d (fun i => m i i) r c m ∧ (∀ i < d, 2 ≤ m i i ∧ m i i ≤ 2 ^ E.powBits s d i) ∧ Indep d d (toQ m) := by
  obtain ⟨m, h1, h2, h3, h4, h5⟩ := C39_trg d (E.powBits s d) hs E.rnd E.sgn fresh
  refine ⟨d, d, m, ?_, ⟨rfl, rfl, fun i hi => ⟨rfl, fun j hj => (h4 i hi j hj).le, fun j hj hjd => h3 i hi j hjd hj⟩⟩, h2, h5⟩
  rw [main_eq hp (by rw [hg]; decide)]
  unfold method
  dsimp only
  rw [hg, hsd]
  simp only [Option.some.injEq, Char.reduceEq, if_false, or_self, if_true]
  unfold genT
  rw [if_neg (by omega), Int.toNat_natCast, h1]
  rfl

/-- **C87**: whatever the arguments, with a dimension of at least 1 and `k ≥ 0` (the first argument of the method; only `q` needs it) nothing is accessed outside of an array (`_partial`: dimension and `k` are not checked, see `C87_safe_violated`). -/
theorem C87_safe_partial (hp : Seeded pre) (hg : head g ≠ some '-') (hd : 1 ≤ E.atoi sd) (a : List String) (ha : ∀ sk ∈ a.head?, 0 ≤ E.atoi sk) : main E (pre ++ g :: sd :: a) ≠ .ub := by
  rw [main_eq hp hg]
  have hfin : ∀ r c x bad, bad ≠ Out.ub → fin r c x bad ≠ Out.ub := by
    intro r c x bad hb
    unfold fin
    split
    · exact Out.noConfusion
    · exact hb
  unfold method
  dsimp only
  split_ifs
  · split
    · unfold genR
      split_ifs
      exacts [Out.noConfusion, Out.noConfusion, hfin _ _ _ _ Out.noConfusion]
    · exact Out.noConfusion
  · split
    · unfold genS
      rename_i s s2 _
      rw [if_neg (by omega)]
      split_ifs with hb
      · exact Out.noConfusion
      · obtain ⟨m, h1, -⟩ := C39_simdioph_partial (E.atoi sd + 1).toNat (E.atoi s).toNat (E.atoi s2).toNat (by omega) E.rnd fresh fun _ _ _ => rfl
        rw [h1]
        exact Out.noConfusion
    · exact Out.noConfusion
  · split
    · unfold genU
      split_ifs
      exacts [Out.noConfusion, Out.noConfusion, hfin _ _ _ _ Out.noConfusion]
    · exact Out.noConfusion
  · split
    · split
      · exact Out.noConfusion
      · unfold genN
        rw [if_neg (by omega), if_neg (by omega)]
        exact hfin _ _ _ _ Out.noConfusion
    · exact Out.noConfusion
  · split
    · split
      · exact Out.noConfusion
      · unfold genQary
        split_ifs with h1 h2
        · exact Out.noConfusion
        · exact absurd h2 (not_lt.2 (ha _ rfl))
        · exact absurd h2 (not_lt.2 (ha _ rfl))
        · exact hfin _ _ _ _ Out.noConfusion
    · exact Out.noConfusion
  · split
    · unfold genT
      split_ifs
      exacts [Out.noConfusion, hfin _ _ _ _ Out.noConfusion]
    · exact Out.noConfusion
  · unfold genT2
    split_ifs
    exacts [Out.noConfusion, Out.noConfusion, hfin _ _ _ _ Out.noConfusion]
  · exact Out.noConfusion

/-! ## Concrete cases -/

/-- an environment for the examples: the arguments that occur are decimal numbers, all random numbers are `x` -/
def exEnv (x : ℕ) : Env where
  atoi s := ((["-1", "0", "1", "2", "3", "4", "5"].idxOf s : ℕ) : ℤ) - 1
  setStr s := some (((["-1", "0", "1", "2", "3", "4", "5"].idxOf s : ℕ) : ℤ) - 1)
  powBits _ d i := 2 * d - i
  nextPrime q := q + 1
  input i := i + 1
  rnd _ _ := x
  rndQ := x
  sgn _ _ := false

/-- **C87 fails**: `latticegen q 3 -1 5 q`, `latticegen s -1 1 1`, `latticegen n 0 5 q` and `latticegen N 0 5 q` write outside of the matrix or of `h`. -/
theorem C87_safe_violated : main (exEnv 0) ["q", "3", "-1", "5", "q"] = .ub ∧ main (exEnv 0) ["s", "-1", "1", "1"] = .ub ∧ main (exEnv 0) ["n", "0", "5", "q"] = .ub ∧ main (exEnv 0) ["N", "0", "5", "q"] = .ub := by
  refine ⟨rfl, rfl, rfl, rfl⟩

/-- **C87 fails** for method `t`: `latticegen t 2 1` prints a matrix that starts with 2 or 16 for some random numbers; the documentation says 4. -/
theorem C87_t_violated : (∃ r c m, main (exEnv 0) ["t", "2", "1"] = .ok r c m ∧ m 0 0 = 2 ∧ ¬ DocT 2 1 r c m) ∧ ∃ r c m, main (exEnv 14) ["t", "2", "1"] = .ok r c m ∧ m 0 0 = 16 ∧ ¬ DocT 2 1 r c m := by
  refine ⟨⟨_, _, _, rfl, by decide +kernel, fun h => ?_⟩, ⟨_, _, _, rfl, by decide +kernel, fun h => ?_⟩⟩
  · have := (h.2.2 0 (by norm_num)).1
    revert this
    decide +kernel
  · have := (h.2.2 0 (by norm_num)).1
    revert this
    decide +kernel

/-- nothing is printed for a negative dimension, and that is no error -/
example : main (exEnv 0) ["r", "-1", "3"] = .ok (-1) 0 fresh := rfl

/-- the hypotheses of the theorems hold for `latticegen -randseed 3 METHOD ...` -/
example : ∃ r c m, main (exEnv 7) (["-randseed", "3"] ++ ["r", "4", "5"]) = .ok r c m ∧ DocR 4 5 r c m ∧ Indep 4 5 (toQ m) :=
  C87_r (.inr ⟨"3", rfl⟩) (by decide) (by norm_num) (by decide) (by decide) []

/-- `latticegen n 4 0 q`, `latticegen n 4 5 p` -/
example : main (exEnv 7) ["n", "4", "0", "q"] = .fatal := C87_n_rejects (.inl rfl) (.inl (by decide)) (fun ch h hv => by
  have e : head "q" = some 'q' := by decide
  rw [e, Option.some.injEq] at h
  subst h
  rcases hv with ⟨h, -⟩ | ⟨-, q, h, h'⟩ | ⟨h, -⟩
  · exact absurd h (by decide)
  · have e2 : (exEnv 7).setStr "0" = some 0 := by decide
    rw [e2, Option.some.injEq] at h
    omega
  · exact absurd h (by decide)) []
example : main (exEnv 7) ["n", "4", "5", "p"] = .fatal := C87_n_rejects (.inl rfl) (.inl (by decide)) (fun ch h hv => by
  have e : head "p" = some 'p' := by decide
  rw [e, Option.some.injEq] at h
  subst h
  rcases hv with ⟨h, -⟩ | ⟨h, -⟩ | ⟨-, h, -⟩ <;> exact absurd h (by decide)) []

example : ∃ r c m, main (exEnv 7) ["u", "4", "5"] = .ok r c m ∧ DocU 4 5 r c m := C87_u (.inl rfl) (by decide) (by norm_num) (by decide) (by decide) []

example : ∃ r c m, main (exEnv 7) ["s", "4", "5", "3"] = .ok r c m ∧ DocS 5 5 4 r c m ∧ m 0 0 = 2 ^ 3 ∧ Indep 5 5 (toQ m) :=
  C87_s_partial (.inl rfl) (by decide) (d := 4) (by decide) (by decide) (by decide) []

example : ∃ q, DocModulus (exEnv 7) 'q' "5" q ∧ ∀ h : ℕ → ℤ, ¬ (q : ℤ) ∣ ∑ i ∈ range 4, h i → ∀ r c m, main (exEnv 7) ["n", "4", "5", "q"] = .ok r c m → ¬ DocN 4 q h r c m :=
  C87_n_violated (fun q => Nat.lt_succ_self q) (.inl rfl) (by decide) (by norm_num) (by decide) (by decide) (.inr (.inl ⟨rfl, 5, by decide, by norm_num⟩)) []

example : ∃ r c m q h, main (exEnv 7) ["N", "4", "5", "b"] = .ok r c m ∧ DocModulus (exEnv 7) 'b' "5" q ∧ DocN2 4 q h r c m ∧ (q : ℤ) ∣ ∑ i ∈ range 4, h i ∧ Indep 8 8 (toQ m) :=
  C87_N_partial (fun q => Nat.lt_succ_self q) (.inl rfl) (by decide) (d := 4) (by norm_num) (by decide) (by decide) (.inl ⟨rfl, by decide⟩) []

example : ∃ r c m q, main (exEnv 7) ["q", "4", "2", "5", "p"] = .ok r c m ∧ DocModulus (exEnv 7) 'p' "5" q ∧ DocQ 4 2 q r c m ∧ Indep 4 4 (toQ m) :=
  C87_q (fun q => Nat.lt_succ_self q) (.inl rfl) (by decide) (by norm_num) (by decide) (by decide) (by decide) (.inr (.inr ⟨rfl, rfl, by decide⟩)) []

example : ∃ r c m, main (exEnv 7) ["T", "4"] = .ok r c m ∧ DocTri 4 (exEnv 7).input r c m ∧ Indep 4 4 (toQ m) :=
  C87_T (.inl rfl) (by decide) (by decide) (fun i _ => by show (1 : ℤ) ≤ (i : ℤ) + 1; omega) []

example : ∃ r c m, main (exEnv 7) ["t", "4", "1"] = .ok r c m ∧ DocTri 4 (fun i => m i i) r c m ∧ (∀ i < 4, 2 ≤ m i i ∧ m i i ≤ 2 ^ (8 - i)) ∧ Indep 4 4 (toQ m) :=
  C87_t_partial (.inl rfl) (by decide) (by norm_num) (by decide) (fun i hi => by show 1 ≤ 2 * 4 - i; omega) []

example : main (exEnv 7) ["q", "4", "5", "nonsense"] ≠ .ub := C87_safe_partial (.inl rfl) (by decide) (by decide) _ (by simp [exEnv])

end LatticeGen
end Fplll

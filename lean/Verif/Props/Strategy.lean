import Verif.Model.Strategy
import Mathlib.Tactic.Linarith
import Mathlib.Tactic.NormNum
import Mathlib.Tactic.SplitIfs
import Mathlib.Tactic.FieldSimp
import Mathlib.Tactic.Ring
import Mathlib.Data.List.Induction
import Mathlib.Algebra.Order.Field.Basic

/-!
# Strategies: selection of pruning parameters, loading, linear pruning (C26, C51)
-/

namespace Fplll
namespace Strat

/-! ## C26: selection -/

section sel
variable {P D : Type} [LinearOrder D] (dist : P → D)

/-- the loop keeps the first of the closest elements, if any beats the start value -/
theorem closestLoop_spec (l : List P) (d0 : D) (p0 : P) :
    (closestLoop dist l (d0, p0) = (d0, p0) ∧ ∀ q ∈ l, d0 ≤ dist q) ∨
    ∃ i, ∃ hi : i < l.length, closestLoop dist l (d0, p0) = (dist l[i], l[i]) ∧ dist l[i] < d0 ∧
      (∀ q ∈ l, dist l[i] ≤ dist q) ∧ ∀ j, ∀ hj : j < i, dist l[i] < dist (l[j]'(hj.trans hi)) := by
  induction l generalizing d0 p0 with
  | nil => exact Or.inl ⟨rfl, fun q hq => absurd hq List.not_mem_nil⟩
  | cons p l ih =>
    rw [closestLoop]
    dsimp only
    by_cases h : dist p < d0
    · rw [if_pos h]
      rcases ih (dist p) p with ⟨h1, h2⟩ | ⟨i, hi, h1, h2, h3, h4⟩
      · refine Or.inr ⟨0, Nat.succ_pos _, h1, h, fun q hq => ?_, fun j hj => absurd hj (Nat.not_lt_zero j)⟩
        rcases List.mem_cons.1 hq with rfl | hq
        · exact le_rfl
        · exact h2 q hq
      · refine Or.inr ⟨i + 1, Nat.succ_lt_succ hi, h1, h2.trans h, fun q hq => ?_, fun j hj => ?_⟩
        · rcases List.mem_cons.1 hq with rfl | hq
          · exact h2.le
          · exact h3 q hq
        · cases j with
          | zero => exact h2
          | succ j => exact h4 j (Nat.succ_lt_succ_iff.1 hj)
    · rw [if_neg h]
      rcases ih d0 p0 with ⟨h1, h2⟩ | ⟨i, hi, h1, h2, h3, h4⟩
      · refine Or.inl ⟨h1, fun q hq => ?_⟩
        rcases List.mem_cons.1 hq with rfl | hq
        · exact not_lt.1 h
        · exact h2 q hq
      · refine Or.inr ⟨i + 1, Nat.succ_lt_succ hi, h1, h2, fun q hq => ?_, fun j hj => ?_⟩
        · rcases List.mem_cons.1 hq with rfl | hq
          · exact h2.le.trans (not_lt.1 h)
          · exact h3 q hq
        · cases j with
          | zero => exact h2.trans_le (not_lt.1 h)
          | succ j => exact h4 j (Nat.succ_lt_succ_iff.1 hj)

/-- **C26, selection.** When some parameter set is nearer than `2^80`, `get_pruning` returns the earliest one of the nearest sets:
it is at some index `i`, no set is nearer and all earlier ones are farther.  Holds for the distances as computed, with every
rounding. *Missing:* ratios that are `2^80` or more away from every set, see `C26_far_violated`. -/
theorem C26_get_pruning_partial (far : D) (l : List P) (hnear : ∃ q ∈ l, dist q < far) :
    ∃ i, ∃ hi : i < l.length, getPruning dist far l = some l[i] ∧ (∀ q ∈ l, dist l[i] ≤ dist q) ∧
      ∀ j, ∀ hj : j < i, dist l[i] < dist (l[j]'(hj.trans hi)) := by
  obtain ⟨q, hq, hqf⟩ := hnear
  cases l with
  | nil => exact absurd hq List.not_mem_nil
  | cons p l =>
    rcases closestLoop_spec dist (p :: l) far p with ⟨-, h2⟩ | ⟨i, hi, h1, h2, h3, h4⟩
    · exact absurd (h2 q hq) (not_le.2 hqf)
    · exact ⟨i, hi, by rw [getPruning, h1], h3, h4⟩

/-- **C26, in all cases** the result is one of the sets of the strategy. -/
theorem C26_get_pruning_mem (far : D) (l : List P) (hl : l ≠ []) : ∃ p ∈ l, getPruning dist far l = some p := by
  cases l with
  | nil => exact absurd rfl hl
  | cons p l =>
    rcases closestLoop_spec dist (p :: l) far p with ⟨h1, -⟩ | ⟨i, hi, h1, -⟩
    · exact ⟨p, List.mem_cons_self, by rw [getPruning, h1]⟩
    · exact ⟨_, List.getElem_mem hi, by rw [getPruning, h1]⟩

end sel

/-- distance of a parameter set to the ratio `radius / gh`, in exact arithmetic -/
def ghDist (radius gh : ℚ) (p : PruningParams) : ℚ := |p.ghFactor - radius / gh|

/-- **C26 violated** for a ratio farther than `2^80` from all sets: the first set is returned although the second is nearer. -/
theorem C26_far_violated :
    getPruning (ghDist (2 ^ 82) 1) (2 ^ 80) [⟨1, [], 1⟩, ⟨2, [], 1 / 2⟩] = some ⟨1, [], 1⟩ ∧
      ghDist (2 ^ 82) 1 ⟨2, [], 1 / 2⟩ < ghDist (2 ^ 82) 1 ⟨1, [], 1⟩ := by
  decide +kernel

/-- **C26**: an empty strategy has no valid answer (`*begin()` of an empty vector is read) -/
theorem C26_empty_ub {P D : Type} [LinearOrder D] (dist : P → D) (far : D) : getPruning dist far [] = none := rfl

/-- three sets, ratio 1.2: the set for 1.1 is chosen (also nearest: 1.3, which comes later) -/
example : getPruning (ghDist 6 5) (2 ^ 80) [⟨1, [], 1⟩, ⟨11 / 10, [1], 1 / 2⟩, ⟨13 / 10, [], 1 / 4⟩] = some ⟨11 / 10, [1], 1 / 2⟩ := by
  decide +kernel

/-! ## C26: loading -/

theorem place_length (v : List Strategy) (e : Entry) : (place v e).length = max v.length (e.blockSize + 1) := by
  unfold place
  rw [List.length_set, List.length_append, List.length_replicate]
  omega

theorem place_get (v : List Strategy) (e : Entry) (i : ℕ) :
    (place v e)[i]? = if i = e.blockSize then some e.toStrategy else
      if i < v.length then v[i]? else if i < e.blockSize then some Strategy.default else none := by
  unfold place
  rw [List.getElem?_set]
  by_cases h : e.blockSize = i
  · rw [if_pos h, if_pos h.symm, if_pos (by rw [List.length_append, List.length_replicate]; omega)]
  · rw [if_neg h, if_neg (Ne.symm h), List.getElem?_append, List.getElem?_replicate]
    split_ifs <;> first | rfl | omega

/-- the last entry for block size `i` -/
def lastFor (l : List Entry) (i : ℕ) : Option Entry := (l.filter fun e => e.blockSize == i).getLast?

/-- one more than the largest block size, `0` for an empty file -/
def fileSize (l : List Entry) : ℕ := l.foldr (fun e m => max (e.blockSize + 1) m) 0

theorem fileSize_append (l : List Entry) (e : Entry) : fileSize (l ++ [e]) = max (fileSize l) (e.blockSize + 1) := by
  unfold fileSize
  induction l with
  | nil => simp
  | cons a l ih => rw [List.cons_append, List.foldr_cons, List.foldr_cons, ih, max_assoc]

theorem foldl_place (l : List Entry) : (l.foldl place []).length = fileSize l ∧
    ∀ i, i < fileSize l → (l.foldl place [])[i]? = some (((lastFor l i).map Entry.toStrategy).getD Strategy.default) := by
  induction l using List.reverseRecOn with
  | nil => exact ⟨rfl, fun i hi => absurd hi (Nat.not_lt_zero i)⟩
  | append_singleton l e ih =>
    rw [List.foldl_append, List.foldl_cons, List.foldl_nil, place_length, fileSize_append, ih.1]
    refine ⟨rfl, fun i hi => ?_⟩
    rw [place_get, ih.1]
    unfold lastFor
    rw [List.filter_append]
    by_cases h : i = e.blockSize
    · subst h
      simp
    · rw [if_neg h]
      have h' : ¬ e.blockSize = i := fun hh => h hh.symm
      have : List.filter (fun e => e.blockSize == i) [e] = [] := by simp [h']
      rw [this, List.append_nil]
      by_cases hl : i < fileSize l
      · rw [if_pos hl, ih.2 i hl]; rfl
      · rw [if_neg hl, if_pos (by omega)]
        have hnone : List.filter (fun e => e.blockSize == i) l = [] := by
          rw [List.filter_eq_nil_iff]
          intro a ha hai
          apply hl
          rw [beq_iff_eq] at hai
          rw [← hai]
          clear ih hi this hl
          unfold fileSize
          induction l with
          | nil => exact absurd ha List.not_mem_nil
          | cons b l ihl =>
            rw [List.foldr_cons]
            rcases List.mem_cons.1 ha with rfl | ha
            · exact lt_max_of_lt_left (Nat.lt_succ_self _)
            · exact lt_max_of_lt_right (ihl ha)
        rw [hnone]; rfl

/-- **C26, loading.** The vector is just long enough for the largest block size of the file; at each index `i` that occurs as a block
size stands the strategy of the last entry for it, and its `block_size` is `i`.  Every strategy of the vector has a parameter set. -/
theorem C26_load (l : List Entry) :
    (loadStrategies l).length = fileSize l ∧
    (∀ i e, lastFor l i = some e → ∃ s, (loadStrategies l)[i]? = some s ∧ s.blockSize = i ∧
      s.preprocessing = e.preprocessing.getD [] ∧
      s.pruning = if e.pruning.getD [] = [] then [PruningParams.default] else e.pruning.getD []) ∧
    (∀ i < fileSize l, lastFor l i = none → (loadStrategies l)[i]? = some ⟨0, [PruningParams.default], []⟩) ∧
    (∀ s ∈ loadStrategies l, s.pruning ≠ []) := by
  obtain ⟨h1, h2⟩ := foldl_place l
  have hbs : ∀ i e, lastFor l i = some e → e ∈ l ∧ e.blockSize = i := by
    intro i e he
    have := List.mem_of_getLast? he
    rw [List.mem_filter, beq_iff_eq] at this
    exact this
  have hlt : ∀ e ∈ l, e.blockSize < fileSize l := by
    clear h1 h2 hbs
    intro e he
    unfold fileSize
    induction l with
    | nil => exact absurd he List.not_mem_nil
    | cons b l ihl =>
      rw [List.foldr_cons]
      rcases List.mem_cons.1 he with rfl | he
      · exact lt_max_of_lt_left (Nat.lt_succ_self _)
      · exact lt_max_of_lt_right (ihl he)
  refine ⟨by rw [loadStrategies, List.length_map, h1], fun i e he => ?_, fun i hi he => ?_, fun s hs => ?_⟩
  · obtain ⟨hm, hb⟩ := hbs i e he
    have hi : i < fileSize l := hb ▸ hlt e hm
    refine ⟨mkSound e.toStrategy, ?_, ?_, ?_, ?_⟩
    · rw [loadStrategies, List.getElem?_map, h2 i hi, he]; rfl
    · unfold mkSound; split_ifs <;> exact hb
    · unfold mkSound; split_ifs <;> rfl
    · unfold mkSound
      by_cases h0 : e.pruning.getD [] = []
      · rw [if_pos (show e.toStrategy.pruning.length = 0 by rw [Entry.toStrategy, h0]; rfl), if_pos h0]
        change e.pruning.getD [] ++ _ = _
        rw [h0]; rfl
      · rw [if_neg (show ¬ e.toStrategy.pruning.length = 0 from fun h => h0 (List.length_eq_zero_iff.1 h)), if_neg h0]
        rfl
  · rw [loadStrategies, List.getElem?_map, h2 i hi, he]; rfl
  · rw [loadStrategies, List.mem_map] at hs
    obtain ⟨a, -, rfl⟩ := hs
    unfold mkSound
    split_ifs with h
    · intro hh
      exact List.append_ne_nil_of_right_ne_nil _ (by simp) hh
    · intro hh; rw [hh] at h; exact h rfl

/-- consequently a lookup in a loaded file always succeeds -/
theorem C26_load_get_pruning (l : List Entry) (s : Strategy) (hs : s ∈ loadStrategies l) (radius gh : ℚ) :
    ∃ p ∈ s.pruning, getPruning (ghDist radius gh) (2 ^ 80) s.pruning = some p :=
  C26_get_pruning_mem _ _ _ ((C26_load l).2.2.2 s hs)

/-- **C26, parameters without strategies.** `BKZParam` fills in one strategy without pruning for each block size up to its own. -/
theorem C26_param_default (blockSize i : ℕ) (hi : i ≤ blockSize) :
    (paramStrategies blockSize [])[i]? = some ⟨i, [PruningParams.default], []⟩ := by
  rw [paramStrategies, List.isEmpty_nil, if_pos rfl, List.getElem?_map, List.getElem?_range (by omega)]
  rfl

/-- a file with a gap and two entries for one block size -/
example : loadStrategies [⟨2, none, none⟩, ⟨1, some [], some [⟨1, [1], 1⟩]⟩, ⟨2, some [1], none⟩] =
    [⟨0, [⟨1, [], 1⟩], []⟩, ⟨1, [⟨1, [1], 1⟩], []⟩, ⟨2, [⟨1, [], 1⟩], [1]⟩] := by decide +kernel

/-! ## C51: linear pruning -/

theorem startDescent_spec (bs level : ℤ) (hbs : 1 ≤ bs) :
    1 ≤ startDescent bs level ∧ startDescent bs level ≤ bs ∧ (1 ≤ bs - level → 0 ≤ level → startDescent bs level = bs - level) := by
  unfold startDescent
  dsimp only
  split_ifs <;> refine ⟨?_, ?_, ?_⟩ <;> omega

theorem storeLoop_spec (f : ℕ → ℤ) (g : ℕ → ℚ) (n : ℕ) (v : List ℚ) (a : ℕ) (hf : ∀ k < n, f k = a + k) (hn : a + n ≤ v.length) :
    ∃ w, storeLoop f g n v = some w ∧ w.length = v.length ∧
      ∀ i : ℕ, w[i]? = if a ≤ i ∧ i < a + n then some (g (i - a)) else v[i]? := by
  induction n with
  | zero =>
    refine ⟨v, rfl, rfl, fun i => ?_⟩
    rw [if_neg (by omega)]
  | succ n ih =>
    obtain ⟨w, h1, h2, h3⟩ := ih (fun k hk => hf k (by omega)) (by omega)
    have hfn := hf n (Nat.lt_succ_self n)
    refine ⟨w.set (a + n) (g n), ?_, by rw [List.length_set, h2], fun i => ?_⟩
    · rw [storeLoop, h1, Option.bind_some, store, if_pos (by omega), hfn]
      rfl
    · rw [List.getElem?_set, h2, h3]
      by_cases h : a + n = i
      · rw [if_pos h, if_pos (by omega), if_pos (by omega), ← h, Nat.add_sub_cancel_left]
      · rw [if_neg h]
        by_cases h' : a ≤ i ∧ i < a + n
        · rw [if_pos h', if_pos (by omega)]
        · rw [if_neg h', if_neg (by omega)]

/-- **C51.** For every block size `≥ 1` and every level, `LinearPruningParams` writes inside its vector and returns
`block_size` coefficients: `1` up to the start of the descent, then falling with slope `-1/block_size`. -/
theorem C51_linear (bs : ℕ) (level : ℤ) (hbs : 1 ≤ bs) :
    ∃ w sd, linearPruning bs level = some w ∧ w.length = bs ∧ 1 ≤ sd ∧ sd ≤ bs ∧
      (0 ≤ level → level < bs → (sd : ℤ) = bs - level) ∧
      (∀ i < sd, w[i]? = some 1) ∧ ∀ i, sd ≤ i → i < bs → w[i]? = some (((bs : ℚ) - (i - sd) - 1) / bs) := by
  obtain ⟨h1, h2, h3⟩ := startDescent_spec bs level (by omega)
  obtain ⟨sd, hsd⟩ : ∃ sd : ℕ, startDescent bs level = sd := ⟨(startDescent bs level).toNat, by omega⟩
  rw [hsd] at h1 h2 h3
  obtain ⟨v, hv1, hv2, hv3⟩ := storeLoop_spec (fun k => k) (fun _ => 1) sd (List.replicate bs 0) 0 (fun k _ => by push_cast; ring)
    (by rw [List.length_replicate]; omega)
  rw [List.length_replicate] at hv2
  obtain ⟨w, hw1, hw2, hw3⟩ := storeLoop_spec (fun k => (sd : ℤ) + k) (fun k => (((bs : ℤ) - k - 1 : ℤ) : ℚ) / (bs : ℤ))
    (((bs : ℤ) - sd).toNat) v sd (fun k _ => rfl) (by omega)
  refine ⟨w, sd, ?_, by rw [hw2, hv2], by omega, by omega, fun ha hb => h3 (by omega) ha, fun i hi => ?_, fun i hi1 hi2 => ?_⟩
  · unfold linearPruning
    dsimp only
    rw [hsd, Int.toNat_natCast, Int.toNat_natCast, hv1, Option.bind_some]
    exact hw1
  · rw [hw3, if_neg (by omega), hv3, if_pos (by omega)]
  · rw [hw3, if_pos (by omega)]
    congr 2
    · push_cast [Nat.cast_sub hi1]; ring

/-- **C51, validity.** The coefficients are positive, at most 1, start with 1 and do not increase. -/
theorem C51_linear_valid (bs : ℕ) (level : ℤ) (hbs : 1 ≤ bs) :
    ∃ w, linearPruning bs level = some w ∧ w.length = bs ∧ w[0]? = some 1 ∧ (∀ x ∈ w, 0 < x ∧ x ≤ 1) ∧
      ∀ (i j : ℕ) (x y : ℚ), i ≤ j → w[i]? = some x → w[j]? = some y → y ≤ x := by
  obtain ⟨w, sd, hw, hlen, hs1, hs2, -, hlo, hhi⟩ := C51_linear bs level hbs
  have hb : (0 : ℚ) < bs := by exact_mod_cast hbs
  have hval : ∀ (i : ℕ) (x : ℚ), w[i]? = some x → i < bs ∧ x = if i < sd then 1 else ((bs : ℚ) - (i - sd) - 1) / bs := by
    intro i x hx
    have hi : i < bs := by
      rw [← hlen]; by_contra h; rw [List.getElem?_eq_none (not_lt.1 h)] at hx; cases hx
    refine ⟨hi, ?_⟩
    split_ifs with h
    · rw [hlo i h] at hx; exact (Option.some.inj hx).symm
    · rw [hhi i (not_lt.1 h) hi] at hx; exact (Option.some.inj hx).symm
  refine ⟨w, hw, hlen, hlo 0 (by omega), fun x hx => ?_, fun i j x y hij hx hy => ?_⟩
  · obtain ⟨i, hi⟩ := List.getElem?_of_mem hx
    obtain ⟨h1, rfl⟩ := hval i x hi
    split_ifs with h
    · exact ⟨one_pos, le_rfl⟩
    · have a1 : (sd : ℚ) ≤ i := by exact_mod_cast not_lt.1 h
      have a2 : (i : ℚ) + 1 ≤ bs := by exact_mod_cast h1
      have a3 : (1 : ℚ) ≤ sd := by exact_mod_cast hs1
      refine ⟨div_pos (by linarith) hb, (div_le_one hb).2 (by linarith)⟩
  · obtain ⟨h1, rfl⟩ := hval i x hx
    obtain ⟨h2, rfl⟩ := hval j y hy
    split_ifs with ha hb' hb'
    · exact le_rfl
    · omega
    · have a1 : (sd : ℚ) ≤ j := by exact_mod_cast not_lt.1 ha
      exact (div_le_one hb).2 (by linarith)
    · have a1 : (i : ℚ) ≤ j := by exact_mod_cast hij
      exact div_le_div_of_nonneg_right (by linarith) hb.le

/-- **C51 violated** for block size 0: `coefficients[0]` of an empty vector is written -/
theorem C51_zero_violated (level : ℤ) : linearPruning 0 level = none := by
  have : startDescent 0 level = 1 := by unfold startDescent; dsimp only; split_ifs <;> omega
  unfold linearPruning
  dsimp only
  rw [this]
  rfl

example : linearPruning 4 2 = some [1, 1, 3 / 4, 1 / 2] := by decide +kernel

end Strat
end Fplll

import Verif.Proofs.Double
import Verif.Props.Evaluator

/-!
# C67: the enumeration in the arithmetic of the machine

`Input.fl` is the rounding of the type `enumf`.  C11–C16, C42, C43 and C49 hold for every rounding that meets `Rnd`;
here it is shown that rounding to 53 bits meets it, what the result then is, and that it need not be a shortest vector.
-/

namespace Fplll
namespace Enum

/-- **C67** rounding to the nearest number of 53 bits, ties to even, is one of the roundings of C11–C16 -/
theorem C67_double : Rnd r53 where
  mono := r53_mono
  neg := r53_neg
  idem := r53_idem
  one := r53_fl53 ⟨1, 0, by norm_num, by norm_num⟩
  rel t := (r53_rel t).trans (by
    have h : (2 : ℚ) ^ (-53 : ℤ) ≤ 1 / 2 := by norm_num
    calc (2 : ℚ) ^ (-53 : ℤ) * |t| ≤ 1 / 2 * |t| := mul_le_mul_of_nonneg_right h (abs_nonneg t)
      _ = |t| / 2 := by ring)

/-- **C67** it is the rounding of the machine when nothing underflows -/
theorem C67_double_machine {q : ℚ} (h : q = 0 ∨ (2 : ℚ) ^ (-1022 : ℤ) ≤ |q|) : rn q = r53 q := rn_eq_r53 h

/-- **C67** it gives a number of 53 bits that is nearest to the exact result -/
theorem C67_double_nearest (q : ℚ) : Nearest q (r53 q) := r53_nearest q

/-- **C67**: with underflow it is not: `2^-1080` is rounded to 0, so a vector that is not zero can get the
length 0 (and is then not reported). -/
theorem C67_underflow : ¬ Rnd rn := fun h => by
  have h1 : rn (2 ^ (-1080 : ℤ)) = 0 := by decide +kernel
  have h2 := (h.eq_zero).1 h1
  exact absurd h2 (two_zpow_pos _).ne'

/-- the same problem in exact arithmetic -/
def Input.exactly (p : Input) : Input := { p with fl := id }

/-- **C67** what an enumeration without pruning in rounded arithmetic returns: if the rounded squared length of every
candidate differs from the exact one by at most `η`, the vector kept by the evaluator is at most `2η` longer
(squared) than any candidate that is within the radius by `η`; and there is one if there is such a candidate. -/
theorem C67_nearly_shortest {p : Input} (h : p.OK) (hp : p.pruning = none) (hmd : 0 ≤ p.maxdist) {η : ℚ} (hη0 : 0 ≤ η)
    (hη : ∀ v, p.Agrees v → p.dist v 0 ≤ p.maxdist ∨ p.exactly.dist v 0 ≤ p.maxdist →
      |p.dist v 0 - p.exactly.dist v 0| ≤ η) {fuel : ℕ} {s' : St EvSt}
    (run : enumerate p (fastEval 1 .best) fuel EvSt.new = some s') :
    (∀ a ∈ s'.ev.sols, p.Agrees a.2 ∧ (p.Symm → ∃ j, j < p.d ∧ a.2 j ≠ 0)) ∧
    ∀ v, p.Agrees v → p.exactly.dist v 0 + η ≤ p.maxdist → (p.Symm → ∃ j, j < p.d ∧ v j ≠ 0) →
      ∃ a, s'.ev.sols = [a] ∧ p.exactly.dist a.2 0 ≤ p.exactly.dist v 0 + 2 * η := by
  obtain ⟨h1, h2, h3⟩ := C15_enumerate_finds_N_shortest (N := 1) le_rfl h hp hmd run
  refine ⟨fun a ha => ⟨(h2 a ha).1, fun hs => ?_⟩, fun v hv hle hne => ?_⟩
  · by_contra hc
    push Not at hc
    have := dist_zero_of_zero h.rnd hs.1 hc 0
    rw [← (h2 a ha).2.1] at this
    exact absurd this ((h2 a ha).2.2.2 hs).ne'
  · have hex : p.exactly.dist v 0 ≤ p.maxdist := by linarith
    have hdv := abs_le.1 (hη v hv (.inr hex))
    have hr : p.dist v 0 ≤ p.maxdist := by linarith
    have key : ∃ a ∈ s'.ev.sols, a.1 ≤ p.dist v 0 := by
      rcases h3 v hv hr hne with (⟨a, ha, e, -⟩ | ⟨hs, a, ha, e, -⟩) | ⟨hl, ha⟩
      · exact ⟨a, ha, e.le⟩
      · exact ⟨a, ha, by rw [e, dist_neg h.rnd hs.1]⟩
      · obtain ⟨a, ha'⟩ := List.length_eq_one_iff.1 hl
        exact ⟨a, by rw [ha']; simp, ha a (by rw [ha']; simp)⟩
    obtain ⟨a, ha, hle'⟩ := key
    have hone : s'.ev.sols = [a] := by
      obtain ⟨b, hb⟩ := List.length_eq_one_iff.1 (le_antisymm h1 (List.length_pos_of_mem ha))
      rw [hb] at ha ⊢
      rw [List.mem_singleton.1 ha]
    obtain ⟨g1, g2, g3, -⟩ := h2 a ha
    have hda := abs_le.1 (hη a.2 g1 (.inl (g2 ▸ g3)))
    exact ⟨a, hone, by linarith⟩

/-- The basis `(2^27, 0), (1, 2^27)` with the radius `2^54` of its first vector, in double arithmetic. -/
def longer : Input where
  fl := r53
  d := 2
  mu _ _ := 1 / 2 ^ 27
  r _ := 2 ^ 54
  maxdist := 2 ^ 54
  target := none
  subtree := []
  pruning := none
  dual := false
  subtreeReset := false
  findsubsols := false

theorem longer_ok : longer.OK where
  rnd := C67_double
  mrep := by
    change r53 ((2 : ℚ) ^ 54) = 2 ^ 54
    exact r53_fl53 ⟨1, 54, by norm_num, by norm_num⟩
  rpos _ _ := show (0 : ℚ) < 2 ^ 54 by norm_num
  sublen := by decide
  dualOK h := by cases h
  prune k _ := by simp [setBounds, Input.full, longer]

/-- the Gram–Schmidt data of that basis -/
theorem longer_basis : longer.exactly.FromBasis 2 0
    (fun i c => if i = 0 then (if c = 0 then 2 ^ 27 else 0) else if c = 0 then 1 else 2 ^ 27) (fun _ => 0) where
  exact := rfl
  mu i j h1 h2 := by
    have hi : i = 1 := by simp only [Input.exactly, longer] at h2; omega
    have hj : j = 0 := by omega
    subst hi hj
    decide +kernel
  r i h := by
    have hi : i = 0 ∨ i = 1 := by simp only [Input.exactly, longer] at h; omega
    rcases hi with rfl | rfl <;> decide +kernel
  target i h := by
    have hi : i = 0 ∨ i = 1 := by simp only [Input.exactly, longer] at h; omega
    rcases hi with rfl | rfl <;> decide +kernel

/-- **C67**: `2η` cannot be left out.  In double arithmetic the enumeration of this basis returns its second vector,
whose squared length is `2^54 + 1`, although the first, of squared length `2^54`, was offered to the evaluator. -/
theorem C67_not_shortest : ∃ s' a w, enumerate longer (fastEval 1 .best) 10 EvSt.new = some s' ∧ s'.ev.sols = [a] ∧
    (a.2 0, a.2 1) = (0, 1) ∧ longer.exactly.dist a.2 0 = 2 ^ 54 + 1 ∧
    w ∈ solsOf s'.events ∧ (w.1 0, w.1 1) = (1, 0) ∧ longer.exactly.dist w.1 0 = 2 ^ 54 := by
  have h : (enumerate longer (fastEval 1 .best) 10 EvSt.new).map
      (fun s => decide (s.ev.sols.map (fun a => ((a.2 0, a.2 1), longer.exactly.dist a.2 0)) = [((0, 1), 2 ^ 54 + 1)] ∧
        (solsOf s.events).map (fun a => ((a.1 0, a.1 1), longer.exactly.dist a.1 0)) =
          [((1, 0), 2 ^ 54), ((0, 1), 2 ^ 54 + 1)])) = some true := by
    decide +kernel
  obtain ⟨s', hs, h1⟩ := Option.map_eq_some_iff.1 h
  obtain ⟨h2, h3⟩ := of_decide_eq_true h1
  obtain ⟨a, ha, h4⟩ := List.map_eq_singleton_iff.1 h2
  cases hL : solsOf s'.events with
  | nil => rw [hL] at h3; simp at h3
  | cons w L =>
    rw [hL, List.map_cons, List.cons.injEq] at h3
    have h5 := Prod.ext_iff.1 h4
    have h6 := Prod.ext_iff.1 h3.1
    exact ⟨s', a, w, hs, ha, h5.1, h5.2, by rw [hL]; simp, h6.1, h6.2⟩

/-- a lattice of dimension one whose squared length is not a `double` -/
def third : Input := { longer with d := 1, mu := fun _ _ => 0, r := fun _ => 1 / 3, maxdist := 1 / 2 }

theorem third_dist (v : ℕ → ℤ) : third.dist v 0 = r53 (0 + r53 (r53 (r53 (v 0 - r53 0) * r53 (v 0 - r53 0)) * r53 (1 / 3))) := by
  have h : al third.full v 0 = r53 (v 0 - r53 0) := by
    rw [al, cen, forDown_empty (show third.full.K ≤ 0 + 1 from le_rfl)]
    rfl
  unfold Input.dist
  rw [show (if third.subtreeReset then third.K else third.d) = 1 from rfl, forDown_bot Nat.zero_lt_one,
    forDown_empty le_rfl, h]
  rfl

theorem third_exact (v : ℕ → ℤ) : third.exactly.dist v 0 = v 0 * v 0 * (1 / 3) := by
  have h : al third.exactly.full v 0 = v 0 - 0 := by
    rw [al, cen, forDown_empty (show third.exactly.full.K ≤ 0 + 1 from le_rfl)]
    rfl
  unfold Input.dist
  rw [show (if third.exactly.subtreeReset then third.exactly.K else third.exactly.d) = 1 from rfl,
    forDown_bot Nat.zero_lt_one, forDown_empty le_rfl, h, sub_zero]
  exact zero_add _

/-- the hypotheses of `C67_nearly_shortest` are met, with `η = 2^-50` -/
example (v : ℕ → ℤ) (hv : third.dist v 0 ≤ third.maxdist ∨ third.exactly.dist v 0 ≤ third.maxdist) :
    |third.dist v 0 - third.exactly.dist v 0| ≤ 1 / 2 ^ 50 := by
  rw [third_dist, third_exact, show third.maxdist = 1 / 2 from rfl, r53_zero, sub_zero, zero_add] at *
  by_cases h : |v 0| ≤ 1
  · have h : v 0 = -1 ∨ v 0 = 0 ∨ v 0 = 1 := by rw [abs_le] at h; omega
    rcases h with h | h | h <;> rw [h] <;> decide +kernel
  · exfalso
    push Not at h
    have h2 : (2 : ℚ) ≤ |(v 0 : ℚ)| := by exact_mod_cast h
    rcases hv with hv | hv
    · have f : ∀ t : ℚ, Fl53 t → ∀ s, t ≤ s → t ≤ r53 s := fun t ht s hs => by
        rw [← r53_fl53 ht]; exact r53_mono hs
      have g1 := f 2 ⟨2, 0, by norm_num, by norm_num⟩ _ h2
      have g2 : (4 : ℚ) ≤ r53 (v 0) * r53 (v 0) := by
        rw [← abs_mul_abs_self, C67_double.abs]
        nlinarith
      have g3 := f 4 ⟨4, 0, by norm_num, by norm_num⟩ _ g2
      have g4 := f (1 / 4) ⟨1, -2, by norm_num, by norm_num⟩ (1 / 3) (by norm_num)
      have g5 := f 1 ⟨1, 0, by norm_num, by norm_num⟩ _
        (show (1 : ℚ) ≤ r53 (r53 (v 0) * r53 (v 0)) * r53 (1 / 3) by nlinarith)
      have g6 := f 1 ⟨1, 0, by norm_num, by norm_num⟩ _ g5
      linarith
    · rw [← abs_mul_abs_self] at hv
      nlinarith

theorem third_ok : third.OK where
  rnd := C67_double
  mrep := by
    change r53 (1 / 2) = 1 / 2
    exact r53_fl53 ⟨1, -1, by norm_num, by norm_num⟩
  rpos _ _ := show (0 : ℚ) < 1 / 3 by norm_num
  sublen := by decide
  dualOK h := by cases h
  prune k _ := by simp [setBounds, Input.full, third, longer]

example : third.OK ∧ third.pruning = none ∧ 0 ≤ third.maxdist ∧ (third.dist (fun _ => 1) 0 ≠ third.exactly.dist (fun _ => 1) 0) :=
  ⟨third_ok, rfl, by decide +kernel, by decide +kernel⟩

end Enum
end Fplll

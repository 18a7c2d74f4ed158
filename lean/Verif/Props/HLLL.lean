import Verif.Proofs.HLLL
import Verif.Props.Wrapper

/-!
# C29 (HLLL keeps the lattice), any floats
-/

namespace Fplll
namespace HL

open Spec HInt Wrapper Gen

variable {F : Type} [HFloat F]

omit [HFloat F] in
theorem trel_of_good {d n : ℕ} {fast : Bool} {t : Triple} {junk : Mat F} {k : ℕ} {h : HL F}
    (hg : Good 0 k (HH.mk0 d n fast t.u.isSome t.v.isSome fast t.b (t.u.getD fun _ _ => 0) (t.v.getD fun _ _ => 0)
      junk).ints h.m.ints) : TRel d n t (out t h) := by
  obtain ⟨b, u, v⟩ := t
  obtain ⟨-, -, -, -, -, T, T', a1, a2, a3, a4, a5⟩ := hg
  refine ⟨by unfold out; simp, by unfold out; simp, T, T', a1, a2, a3, ?_, ?_⟩
  · intro u1 u' hu hu'
    dsimp only at hu
    subst hu
    cases hu'
    exact a4 rfl
  · intro u1 v1 v' hu hv hv'
    dsimp only at hu hv
    subst hu hv
    cases hv'
    exact a5 rfl rfl

theorem zf_trel (srFuel fuel : ℕ) (fast : Bool) (delta eta theta : F) {d n : ℕ} (t : Triple) (junk : Mat F) :
    match zf srFuel fuel fast delta eta theta d n t junk with
    | .done _ h => TRel d n t (out t h)
    | .outOfFuel h => TRel d n t (out t h)
    | _ => True := by
  unfold zf
  dsimp only
  by_cases hd : d = 0 ∨ n = 0
  · rw [if_pos hd]
    dsimp only
    refine TRel.of_corner (fun _ _ _ _ => rfl) ?_ ?_
    · unfold out HH.mk0; cases t.u <;> rfl
    · unfold out HH.mk0; cases t.v <;> rfl
  · rw [if_neg hd]
    have h := hlll_good srFuel fuel ⟨delta, eta, theta, HH.mk0 d n fast t.u.isSome t.v.isSome fast t.b
      (t.u.getD fun _ _ => 0) (t.v.getD fun _ _ => 0) junk, junk 0, junk 0⟩ (junk 0) (fun _ => 0)
      (mk0_wf d n fast _ _ fast t.b _ _ junk (by omega))
    generalize hlll (F := F) srFuel fuel _ _ _ = r at *
    cases r with
    | next st => trivial
    | ub => trivial
    | done s h' => obtain ⟨k, hk⟩ := h; exact trel_of_good hk
    | outOfFuel h' => obtain ⟨k, hk⟩ := h; exact trel_of_good hk

/-- **C29 (partial).**  Whatever the floating-point numbers do: when HLLL returns, with any status, the basis generates
the input lattice; if `u` is given it is unimodular and maps the input basis to the output basis, and if `u_inv` is
given too it is the inverse of `u`.  Missing: for a basis with a single row HLLL does not return properly
(`C29_one_row_violated`). -/
theorem C29_lattice_partial (srFuel fuel : ℕ) (fast : Bool) (delta eta theta : F) {d n : ℕ} (b : Mat ℤ)
    (u v : Option (Mat ℤ)) (junk : Mat F) (s : RedStatus) (h : HL F)
    (hr : zf srFuel fuel fast delta eta theta d n ⟨b, identityIf u, (identityIf v).map transposeMat⟩ junk = .done s h) :
    let t := out ⟨b, identityIf u, (identityIf v).map transposeMat⟩ h
    Reduced d n b t.b t.u (t.v.map transposeMat) := by
  have := zf_trel srFuel fuel fast delta eta theta (d := d) (n := n)
    ⟨b, identityIf u, (identityIf v).map transposeMat⟩ junk
  rw [hr] at this
  exact this.reduced

/-- **C29 (partial, interrupted).**  The same holds at every point of the main loop, however long it runs. -/
theorem C29_interrupted_partial (srFuel fuel : ℕ) (fast : Bool) (delta eta theta : F) {d n : ℕ} (b : Mat ℤ)
    (u v : Option (Mat ℤ)) (junk : Mat F) (h : HL F)
    (hr : zf srFuel fuel fast delta eta theta d n ⟨b, identityIf u, (identityIf v).map transposeMat⟩ junk =
      .outOfFuel h) :
    let t := out ⟨b, identityIf u, (identityIf v).map transposeMat⟩ h
    Reduced d n b t.b t.u (t.v.map transposeMat) := by
  have := zf_trel srFuel fuel fast delta eta theta (d := d) (n := n)
    ⟨b, identityIf u, (identityIf v).map transposeMat⟩ junk
  rw [hr] at this
  exact this.reduced

/-- **C29 is violated for one row.**  For every basis with exactly one row, HLLL accesses a row that does not exist. -/
theorem C29_one_row_violated (srFuel fuel : ℕ) (fast : Bool) (delta eta theta : F) {n : ℕ} (hn : 1 ≤ n) (t : Triple)
    (junk : Mat F) : zf srFuel fuel fast delta eta theta 1 n t junk = .ub := by
  unfold zf
  dsimp only
  rw [if_neg (by omega)]
  rfl

/-- With more than one row and at most as many rows as columns, HLLL never accesses a row or column that does not
exist. -/
theorem C29_no_ub (srFuel fuel : ℕ) (fast : Bool) (delta eta theta : F) {d n : ℕ} (hd : 2 ≤ d) (hn : d ≤ n) (t : Triple)
    (junk : Mat F) : zf srFuel fuel fast delta eta theta d n t junk ≠ .ub := by
  unfold zf
  dsimp only
  rw [if_neg (by omega)]
  have hw := mk0_wf d n fast t.u.isSome t.v.isSome fast t.b (t.u.getD fun _ _ => 0) (t.v.getD fun _ _ => 0) junk
    (by omega)
  generalize hm : HH.mk0 d n fast t.u.isSome t.v.isSome fast t.b (t.u.getD fun _ _ => 0) (t.v.getD fun _ _ => 0) junk = m
    at *
  have hmd : m.d = d := by rw [← hm]; rfl
  have hmn : m.n = n := by rw [← hm]; rfl
  unfold hlll
  rw [if_neg (by rw [hmd]; omega)]
  -- the loop keeps `k` below `d`
  have key : ∀ fuel (st : St F), Good 0 (st.kMax + 1) m.ints st.h.m.ints → 1 ≤ st.k → st.k ≤ st.kMax → st.kMax < m.d →
      loop srFuel fuel st ≠ .ub := by
    intro fuel
    induction fuel with
    | zero => intro st _ _ _ _ h; cases h
    | succ fuel ih =>
      intro st h1 h2 h3 h4
      have hg := step_good srFuel st h1 h2 h3 h4
      rw [loop]
      cases hs : step srFuel st with
      | next st' => rw [hs] at hg; exact ih st' hg.1 hg.2.1 hg.2.2.1 hg.2.2.2
      | done a b => simp
      | outOfFuel a => simp
      | ub =>
        exfalso
        unfold step at hs
        cases hsr : sizeReduction srFuel st.h.m st.k st.k 0 with
        | none => rw [hsr] at hs; cases hs
        | some m2 =>
          have hd1 : st.h.m.d = m.d := h1.uni.d
          have hsg := sizeReduction_good st.k 0 le_rfl (m := st.kMax + 1) (by omega) srFuel st.h.m h1.wf (by omega) m2 hsr
          have hn2 : m2.n = n := (hsg.uni.n.trans h1.uni.n).trans hmn
          rw [hsr] at hs
          dsimp only at hs
          split_ifs at hs
          · unfold advance at hs
            dsimp only at hs
            rw [if_neg (by rw [hn2]; omega)] at hs
            split_ifs at hs
          · unfold swapBack at hs
            dsimp only at hs
            split_ifs at hs
  have h0 := HH.refreshRBf_good m hw (i := 0) (m' := 1) (by omega) (.inr ⟨rfl, rfl⟩)
  have h1 : Good 0 1 m.ints ((m.refreshRBf 0).updateRLast 0).ints := by rw [HH.updateRLast_ints]; exact h0
  have hd1 : ((m.refreshRBf 0).updateRLast 0).d = m.d := h1.uni.d
  have h2 := h1.trans (HH.refreshRBf_good _ h1.wf (i := 1) (m' := 2) (by omega) (.inr ⟨rfl, rfl⟩))
  exact key fuel (start _ _ _) h2 le_rfl le_rfl (by change 1 < m.d; omega)

end HL

namespace Wrapper

open Spec Gen HL

/-- the runs are runs of the modelled HLLL that return -/
def HlllRuns (d n : ℕ) (run : Runner) : Prop :=
  ∀ t call last inp, ∃ (F : Type) (_ : HFloat F) (srFuel fuel : ℕ) (fast : Bool) (delta eta theta : F) (junk : Mat F)
    (h : HL F), zf srFuel fuel fast delta eta theta d n inp junk = .done (run t call last inp).status h ∧
      (run t call last inp).out = out inp h

theorem HlllRuns.good {d n : ℕ} {run : Runner} (h : HlllRuns d n run) : GoodRun d n run := by
  intro t call last inp
  obtain ⟨F, hF, srFuel, fuel, fast, delta, eta, theta, junk, h', h1, h2⟩ := h t call last inp
  have := zf_trel srFuel fuel fast delta eta theta (d := d) (n := n) inp junk
  rw [h1] at this
  rw [h2]
  exact this

/-- **C29 for the public function.**  Every call of `hlll_reduction` that returns, with any method, type and precision, and
all retries of the wrapper, leaves a basis of the same lattice and exact transforms. -/
theorem C29_hlll_reduction_partial {c : Cfg} {run : Runner} (hruns : HlllRuns c.d c.n run) (fuel : ℕ) (a : Args)
    (m : Triple) (junk : Mat ℤ) (s : RedStatus) (m' : Triple) (h : hlllReduction c run fuel a m junk = .done (s, m')) :
    Reduced c.d c.n m.b m'.b m'.u m'.v := by
  have hr := hruns.good
  unfold hlllReduction hlllReductionZ at h
  cases hch : hlllChoice c.bld c.goodPrec a with
  | abort => rw [hch] at h; cases h
  | wrapper =>
    rw [hch] at h
    dsimp only at h
    cases hw : hlllReductionWrapper c run fuel ⟨m.b, identityIf m.u, (identityIf m.v).map transposeMat⟩ junk with
    | none => rw [hw] at h; cases h
    | some q =>
      rw [hw] at h
      cases h
      unfold hlllReductionWrapper at hw
      rw [Option.map_eq_some_iff] at hw
      obtain ⟨r, hr1, rfl⟩ := hw
      refine (TRel.trans (t1 := ⟨m.b, identityIf m.u, (identityIf m.v).map transposeMat⟩) ?_
        (zerosFirst_trel _)).reduced
      by_cases hd : c.d = 0 ∨ c.n = 0
      · unfold hlll at hr1; rw [if_pos hd] at hr1; cases hr1; exact TRel.refl _ _ _
      rw [hlll_eq (by omega) (by omega), Option.map_eq_some_iff] at hr1
      obtain ⟨st1, hb, rfl⟩ := hr1
      have hi := hlllBefore_inv (c := c) (run := run)
        (P := fun st => TRel c.d c.n ⟨m.b, identityIf m.u, (identityIf m.v).map transposeMat⟩ st.m)
        (fun call st h => h.trans (hr _ _ _ _)) fuel (mk c _ junk) (TRel.refl _ _ _) st1 hb
      obtain ⟨call, h5, -⟩ := lastHlll_eq (c := c) (run := run) st1
      dsimp only
      rw [h5]
      exact hi.trans (hr _ _ _ _)
  | single ft p =>
    rw [hch] at h
    dsimp only at h
    cases h
    refine (TRel.trans (t1 := ⟨m.b, identityIf m.u, (identityIf m.v).map transposeMat⟩) ?_
      (zerosFirst_trel _)).reduced
    unfold lllReductionZf
    by_cases hd : c.d = 0 ∨ c.n = 0
    · rw [if_pos hd]; exact TRel.refl _ _ _
    · rw [if_neg hd]; exact hr _ _ _ _

end Wrapper

/-! ## Non-vacuity: a concrete run with inexact square roots -/

namespace HL

/-- rational numbers with square roots rounded to 20 bits -/
@[reducible] def ratFloat : HFloat ℚ where
  ofInt z := z
  getFExp z := (z / 4, 2)
  zero := 0
  one := 1
  negOne := -1
  tenth := 1 / 10
  add := (· + ·)
  sub := (· - ·)
  mul := (· * ·)
  div := (· / ·)
  addmul a b c := a + b * c
  neg := (- ·)
  abs q := |q|
  sqrt q := (Nat.sqrt ⌊q * 2 ^ 40⌋.toNat : ℚ) / 2 ^ 20
  mul2si q e := q * 2 ^ e
  fcmp a b := if a < b then -1 else if b < a then 1 else 0
  sgn a := if a < 0 then -1 else if 0 < a then 1 else 0
  rndWe q e := (⌊q * 2 ^ e + 1 / 2⌋ : ℚ) / 2 ^ e
  siExpWe q e := (⌊q * 2 ^ e⌋, 0)
  zExpWe q e := (⌊q * 2 ^ e⌋, 0)

/-- the basis (7, 0), (4, 1) -/
def exB : Mat ℤ := fun i j => if i = 0 then (if j = 0 then 7 else 0) else if j = 0 then 4 else 1

/-- what is left after a run -/
def shown : Res ℚ → Option (Wrapper.RedStatus × List ℤ × List ℤ × List ℤ)
  | .done s h =>
    let l := fun (m : Mat ℤ) => [m 0 0, m 0 1, m 1 0, m 1 1]
    some (s, l h.m.b, l h.m.u, l h.m.uInvT)
  | _ => none

def exRun (fast : Bool) : Res ℚ :=
  letI := ratFloat
  zf 10 20 fast (99 / 100) (51 / 100) (1 / 1000) 2 2
    ⟨exB, Wrapper.identityIf (some fun _ _ => 0), (Wrapper.identityIf (some fun _ _ => 0)).map Wrapper.transposeMat⟩
    fun _ _ => 0

example : shown (exRun false) = some (.success, [1, 2, -3, 1], [-1, 2, -1, 1], [1, 1, -2, -1]) := by decide +kernel

example : shown (exRun true) = some (.success, [1, 2, -3, 1], [-1, 2, -1, 1], [1, 1, -2, -1]) := by decide +kernel

/-- floats that carry no information -/
@[reducible] def unitFloat : HFloat Unit where
  ofInt _ := ()
  getFExp _ := ((), 0)
  zero := ()
  one := ()
  negOne := ()
  tenth := ()
  add _ _ := ()
  sub _ _ := ()
  mul _ _ := ()
  div _ _ := ()
  addmul _ _ _ := ()
  neg _ := ()
  abs _ := ()
  sqrt _ := ()
  mul2si _ _ := ()
  fcmp _ _ := 0
  sgn _ := 0
  rndWe _ _ := ()
  siExpWe _ _ := (0, 0)
  zExpWe _ _ := (0, 0)

/-- the hypothesis of `C29_hlll_reduction_partial` can be met -/
example : Wrapper.HlllRuns 2 2 fun _ _ _ inp => ⟨.success, 0, 0, inp⟩ := by
  rintro t call last ⟨b, u, v⟩
  refine ⟨Unit, unitFloat, 1, 1, false, (), (), (), fun _ _ => (), ?_⟩
  cases u <;> cases v <;> exact ⟨_, rfl, rfl⟩

end HL
end Fplll

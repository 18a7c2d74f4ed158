import Verif.Proofs.ErrBound

/-!
# The error bound grows with the distance
-/

open Finset

namespace Fplll
namespace ErrB

open Enum

variable {A : Arith} {ρ : ℚ}

/-- the operations are monotone -/
structure ArithMono (A : Arith) : Prop where
  rn : Monotone A.rn
  rd : Monotone A.rd
  ru : Monotone A.ru
  sq : Monotone A.sqrtU

/-- `0 ≤ a ≤ b` -/
def Up (a b : ℚ) : Prop := 0 ≤ a ∧ a ≤ b

theorem Up.add {a b c d : ℚ} (h : Up a b) (h' : Up c d) : Up (a + c) (b + d) := ⟨add_nonneg h.1 h'.1, add_le_add h.2 h'.2⟩

theorem Up.mul {a b c d : ℚ} (h : Up a b) (h' : Up c d) : Up (a * c) (b * d) :=
  ⟨mul_nonneg h.1 h'.1, mul_le_mul h.2 h'.2 h'.1 (h.1.trans h.2)⟩

theorem Up.refl {a : ℚ} (h : 0 ≤ a) : Up a a := ⟨h, le_rfl⟩

theorem Up.div {a b c : ℚ} (h : Up a b) (hc : 0 ≤ c) : Up (a / c) (b / c) :=
  ⟨div_nonneg h.1 hc, div_le_div_of_nonneg_right h.2 hc⟩

theorem Up.ru (hA : ArithOK A ρ) (hM : ArithMono A) {a b : ℚ} (h : Up a b) : Up (A.ru a) (A.ru b) :=
  ⟨hA.nonneg h.1, hM.ru h.2⟩

theorem Up.rn (hA : ArithOK A ρ) (hM : ArithMono A) {a b : ℚ} (h : Up a b) : Up (A.rn a) (A.rn b) :=
  ⟨hA.rn0 h.1, hM.rn h.2⟩

theorem Up.sq (hA : ArithOK A ρ) (hM : ArithMono A) {a b : ℚ} (h : Up a b) : Up (A.sqrtU a) (A.sqrtU b) :=
  ⟨hA.sq0 _, hM.sq h.2⟩

theorem Up.floor (hA : ArithOK A ρ) (hM : ArithMono A) {a b : ℚ} (h : Up a b) :
    Up ((⌊A.rd a⌋ : ℤ) : ℚ) ((⌊A.rd b⌋ : ℤ) : ℚ) := by
  have h1 := hA.rdInt 0 a (by norm_num) (by simpa using h.1)
  have h2 : (0 : ℤ) ≤ ⌊A.rd a⌋ := Int.floor_nonneg.2 (by simpa using h1)
  exact ⟨by exact_mod_cast h2, by exact_mod_cast Int.floor_le_floor (hM.rd h.2)⟩

theorem Up.hu : Up hu hu := Up.refl hu_nonneg

theorem Up.K (hA : ArithOK A ρ) : Up (bigK A) (bigK A) := Up.refl hA.K0

structure CUp (w w' : CAcc) : Prop where
  hc : Up w.c w'.c
  hct : Up w.ct w'.ct
  hdc : Up w.dc w'.dc

theorem cBody_up (hA : ArithOK A ρ) (hM : ArithMono A) {q : Dat} {X X' : ℕ → ℚ} {i j : ℕ} (hdm : 0 ≤ q.dm i)
    (hX : Up (X j) (X' j)) {w w' : CAcc} (h : CUp w w') : CUp (cBody A q X i j w) (cBody A q X' i j w') := by
  have hu := Up.hu
  have K := Up.K hA
  have dm := Up.refl hdm
  have hmx : Up (A.ru (|q.getD (q.mu j i)| * X j)) (A.ru (|q.getD (q.mu j i)| * X' j)) :=
    ((Up.refl (abs_nonneg _)).mul hX).ru hA hM
  have hct1 := (h.hct.add ((((hmx.mul K).ru hA hM)).mul K)).ru hA hM
  refine ⟨?_, ?_, ?_⟩
  · exact (h.hc.add ((Up.refl (hA.nonneg (add_nonneg (abs_nonneg _) hdm))).mul hX)).ru hA hM
  · exact (hct1.mul K).ru hA hM
  · exact (((((h.hdc.add (dm.mul hX)).rn hA hM).add (hmx.mul hu)).ru hA hM).add (hct1.mul hu)).ru hA hM

theorem cLoop_up (hA : ArithOK A ρ) (hM : ArithMono A) {q : Dat} {X X' : ℕ → ℚ} {i : ℕ}
    (hdm : i + 1 < q.d → 0 ≤ q.dm i) (hX : ∀ j, i < j → j < q.d → Up (X j) (X' j)) :
    CUp (cLoop A q X i) (cLoop A q X' i) := by
  have h0 : CUp (⟨0, 0, 0⟩ : CAcc) ⟨0, 0, 0⟩ := ⟨Up.refl le_rfl, Up.refl le_rfl, Up.refl le_rfl⟩
  have key : ∀ k m, m + k = q.d → i + 1 ≤ m →
      CUp (forDown m q.d (fun j w => cBody A q X i j w) ⟨0, 0, 0⟩) (forDown m q.d (fun j w => cBody A q X' i j w) ⟨0, 0, 0⟩) := by
    intro k
    induction k with
    | zero =>
      intro m hm _
      rw [forDown_empty (by omega), forDown_empty (by omega)]
      exact h0
    | succ k ih =>
      intro m hm him
      have hmd : m < q.d := by omega
      rw [forDown_bot (f := fun j w => cBody A q X i j w) hmd, forDown_bot (f := fun j w => cBody A q X' i j w) hmd]
      exact cBody_up hA hM (hdm (by omega)) (hX m (by omega) (by omega)) (ih (m + 1) (by omega) (by omega))
  by_cases hi : i + 1 ≤ q.d
  · exact key (q.d - (i + 1)) (i + 1) (by omega) le_rfl
  · rw [cLoop, cLoop, forDown_empty (by omega), forDown_empty (by omega)]
    exact h0

structure YUp (y y' : YAcc) : Prop where
  hyt : Up y.yt y'.yt
  hdy : Up y.dy y'.dy
  hx : Up y.x y'.x
  ht : Up y.t y'.t

theorem yExact_up (hA : ArithOK A ρ) (hM : ArithMono A) {q : Dat} {i : ℕ} {md md' : ℚ} (hmd : Up md md') {w w' : CAcc}
    (hw : CUp w w') {y' : YAcc} (h : yExact A q md' i w' = some y') : ∃ y, yExact A q md i w = some y ∧ YUp y y' := by
  rw [yExact] at h
  by_cases hm : A.rd (q.r i - q.dr i) ≤ 0
  · rw [if_pos hm] at h; cases h
  rw [if_neg hm] at h
  cases h
  have hm' := (not_le.1 hm).le
  have hu := Up.hu
  have K := Up.K hA
  refine ⟨_, by rw [yExact, if_neg hm], ?_⟩
  have y := ((hmd.div hm').ru hA hM).sq hA hM
  have dy := (((y.mul hu).ru hA hM).add (hw.hdc.mul K)).ru hA hM
  exact ⟨(y.add dy).ru hA hM, dy, (y.add hw.hc).floor hA hM, y⟩

theorem yComp_up (hA : ArithOK A ρ) (hM : ArithMono A) {q : Dat} {i : ℕ} (hr : 0 ≤ q.getD (q.r i)) {md md' : ℚ} (hmd : Up md md')
    {w w' : CAcc} (hw : CUp w w') : YUp (yComp A q md i w) (yComp A q md' i w') := by
  have hu := Up.hu
  have K := Up.K hA
  have y := ((((((hmd.mul K).ru hA hM).div hr).ru hA hM).mul K).ru hA hM).sq hA hM
  exact ⟨y, (((y.mul hu).ru hA hM).add hw.hdc).ru hA hM, (hw.hct.add (y.mul K)).floor hA hM, y⟩

theorem dry2_up (hA : ArithOK A ρ) (hM : ArithMono A) {q : Dat} {i : ℕ} (hr : 0 ≤ q.getD (q.r i)) (hr0 : 0 ≤ q.r i)
    (hdr : 0 ≤ q.dr i) {y y' : YAcc} (h : YUp y y') : Up (dry2 A q i y) (dry2 A q i y') := by
  have hu := Up.hu
  have K := Up.K hA
  have two : Up (2 : ℚ) 2 := Up.refl (by norm_num)
  have a := ((((h.hdy.mul h.ht).rn hA hM).mul two).add (h.hdy.mul h.hdy)).ru hA hM
  have y2 := (h.hyt.mul h.hyt).ru hA hM
  have a' := (a.add (y2.mul hu)).ru hA hM
  have y2' := (y2.mul K).ru hA hM
  have maxR := Up.refl (hA.nonneg (add_nonneg hr0 hdr))
  have ry := ((Up.refl hr).mul y2').ru hA hM
  exact ((((maxR.mul a').ru hA hM).add (y2'.mul (Up.refl hdr))).ru hA hM |>.add (ry.mul hu)).ru hA hM

theorem deStep_up (hA : ArithOK A ρ) (hM : ArithMono A) {md md' de de' x x' : ℚ} (hmd : Up md md') (hde : Up de de')
    (hx : Up x x') : Up (deStep A md de x) (deStep A md' de' x') := by
  have hu := Up.hu
  have K := Up.K hA
  exact (((((hde.add hx).ru hA hM).mul K).ru hA hM).add (hmd.mul hu)).ru hA hM

/-- `maxX` and `maxDE` grow with `max_dist`; if they can be computed for one value, then for every smaller one -/
theorem maxErrorSt_up (hA : ArithOK A ρ) (hM : ArithMono A) {q : Dat} {fl : ℚ → ℚ} {mu : ℕ → ℕ → ℚ} {r : ℕ → ℚ} (hfl : Rnd fl)
    (hq : DatOK q fl mu r) {md md' : ℚ} (hmd : Up md md') {exact : Bool} {s' : (ℕ → ℚ) × ℚ}
    (h : maxErrorSt A q md' exact = some s') :
    ∃ s, maxErrorSt A q md exact = some s ∧ (∀ j, j < q.d → Up (s.1 j) (s'.1 j)) ∧ Up s.2 s'.2 := by
  have key : ∀ k m, m + k = q.d → ∀ s',
      forDown m q.d (fun i s => s.bind (level A q md' exact i)) (some (fun _ => 0, 0)) = some s' →
      ∃ s, forDown m q.d (fun i s => s.bind (level A q md exact i)) (some (fun _ => 0, 0)) = some s ∧
        (∀ j, m ≤ j → j < q.d → Up (s.1 j) (s'.1 j)) ∧ Up s.2 s'.2 := by
    intro k
    induction k with
    | zero =>
      intro m hm s' hs
      rw [forDown_empty (by omega)] at hs
      rw [forDown_empty (by omega)]
      cases hs
      exact ⟨_, rfl, fun j h1 h2 => by omega, Up.refl le_rfl⟩
    | succ k ih =>
      intro m hm s'' hs
      rw [forDown_bot (by omega)] at hs
      rw [forDown_bot (by omega)]
      obtain ⟨s', h1, h2⟩ := Option.bind_eq_some_iff.1 hs
      obtain ⟨s, g1, g2, g3⟩ := ih (m + 1) (by omega) s' h1
      rw [g1, Option.bind_some]
      have hmq : m < q.d := by omega
      have hr0 := (hq.qpos m hmq).le
      have hr : 0 ≤ q.getD (q.r m) := by rw [hq.getD]; exact hfl.nonneg hr0
      have hdr : 0 ≤ q.dr m := (abs_nonneg _).trans (hq.hr m hmq)
      have hw := cLoop_up hA hM (q := q) (X := s.1) (X' := s'.1) (i := m)
        (fun hd => (abs_nonneg _).trans (hq.hmu m (m + 1) (by omega) hd)) (fun j k1 k2 => g2 j (by omega) k2)
      have hlev : ∃ y y', YUp y y' ∧ level A q md exact m s = some (Enum.setAt s.1 m y.x, deStep A md s.2 (dry2 A q m y)) ∧
          s'' = (Enum.setAt s'.1 m y'.x, deStep A md' s'.2 (dry2 A q m y')) := by
        rw [level] at h2 ⊢
        cases exact with
        | true =>
          simp only [if_true] at h2 ⊢
          cases hy : yExact A q md' m (cLoop A q s'.1 m) with
          | none => rw [hy] at h2; cases h2
          | some y' =>
            obtain ⟨y, k1, k2⟩ := yExact_up hA hM hmd hw hy
            rw [hy] at h2
            refine ⟨y, y', k2, by rw [k1], ?_⟩
            cases h2
            rfl
        | false =>
          simp only [Bool.false_eq_true, if_false] at h2 ⊢
          refine ⟨_, _, yComp_up hA hM hr hmd hw, rfl, ?_⟩
          cases h2
          rfl
      obtain ⟨y, y', hY, hl, rfl⟩ := hlev
      refine ⟨_, hl, ?_, deStep_up hA hM hmd g3 (dry2_up hA hM hr hr0 hdr hY)⟩
      intro j k1 k2
      change Up (Enum.setAt s.1 m y.x j) (Enum.setAt s'.1 m y'.x j)
      rw [Enum.setAt, Enum.setAt]
      by_cases hj : j = m
      · rw [if_pos hj, if_pos hj]; exact hY.hx
      · rw [if_neg hj, if_neg hj]; exact g2 j (by omega) k2
  obtain ⟨s, h1, h2, h3⟩ := key q.d 0 (by omega) s' h
  exact ⟨s, h1, fun j hj => h2 j (Nat.zero_le j) hj, h3⟩

end ErrB
end Fplll

import Verif.Model.BKZTop
import Verif.Props.BKZSvp
import Verif.Props.HKZ
import Verif.Props.Wrapper

/-!
# C79: `bkz_reduction` and `hkz_reduction` as a whole
-/

namespace Fplll
namespace BkzTop

open Spec GSO LLL Wrapper
open Gen hiding toQ

/-! ## Unimodular changes -/

/-- `b' = T b` for a unimodular `T`; if `bad` is false the change is tracked in `u` (and `u_inv_t`) too -/
def BRel (d n : ℕ) (bad : Bool) (t t' : Triple) : Prop :=
  t'.u.isSome = t.u.isSome ∧
  (∃ T T' : Matrix (Fin d) (Fin d) ℤ, T * T' = 1 ∧ T' * T = 1 ∧ toM d n t'.b = T * toM d n t.b) ∧ (bad = false → TRel d n t t')

theorem BRel.of {d n : ℕ} {bad : Bool} {t t' : Triple} (h : TRel d n t t') : BRel d n bad t t' :=
  ⟨h.1, by obtain ⟨-, -, T, T', a, b, c, -⟩ := h; exact ⟨T, T', a, b, c⟩, fun _ => h⟩

theorem BRel.after {d n : ℕ} {bad : Bool} {t1 t2 t3 : Triple} (h : TRel d n t1 t2) (h' : BRel d n bad t2 t3) : BRel d n bad t1 t3 := by
  obtain ⟨a0, ⟨T, T', a1, a2, a3⟩, a4⟩ := h'
  refine ⟨a0.trans h.1, ?_, fun hb => h.trans (a4 hb)⟩
  obtain ⟨-, -, S, S', b1, b2, b3, -⟩ := h
  refine ⟨T * S, S' * T', ?_, ?_, ?_⟩
  · calc T * S * (S' * T') = T * (S * S') * T' := by simp only [Matrix.mul_assoc]
      _ = 1 := by rw [b1, Matrix.mul_one, a1]
  · calc S' * T' * (T * S) = S' * (T' * T) * S := by simp only [Matrix.mul_assoc]
      _ = 1 := by rw [a2, Matrix.mul_one, b2]
  · rw [a3, b3, Matrix.mul_assoc]

theorem BRel.before {d n : ℕ} {bad : Bool} {t1 t2 t3 : Triple} (h : BRel d n bad t1 t2) (h' : TRel d n t2 t3) : BRel d n bad t1 t3 := by
  obtain ⟨a0, ⟨T, T', a1, a2, a3⟩, a4⟩ := h
  refine ⟨h'.1.trans a0, ?_, fun hb => (a4 hb).trans h'⟩
  obtain ⟨-, -, S, S', b1, b2, b3, -⟩ := h'
  refine ⟨S * T, T' * S', ?_, ?_, ?_⟩
  · calc S * T * (T' * S') = S * (T * T') * S' := by simp only [Matrix.mul_assoc]
      _ = 1 := by rw [a1, Matrix.mul_one, b1]
  · calc T' * S' * (S * T) = T' * (S' * S) * T := by simp only [Matrix.mul_assoc]
      _ = 1 := by rw [b2, Matrix.mul_one, a2]
  · rw [b3, a3, Matrix.mul_assoc]

theorem rotateAll_trel {d n : ℕ} (t : Triple) {i : ℕ} (hle : i ≤ d) : TRel d n t (rotateAll d i t) := by
  by_cases h : 0 < i ∧ i < d
  swap
  · have : rotateAll d i t = t := by unfold rotateAll; rw [if_neg h]
    rw [this]; exact TRel.refl d n t
  obtain ⟨r1, r2, r3⟩ := rotateAll_spec d i hle t
  have hd : 0 < d := by omega
  have : NeZero d := ⟨by omega⟩
  have hs : ∀ m m' : Mat ℤ, segment m' 0 d = (segment m 0 d).rotate i → ∀ k < d, m' k = m ((k + i) % d) :=
    fun m m' g k hk => segment_rotate_apply hd g k hk
  have hT : ∀ σ : Equiv.Perm (Fin d), (1 : Matrix (Fin d) (Fin d) ℤ).submatrix σ id *
      ((1 : Matrix (Fin d) (Fin d) ℤ).submatrix σ id).transpose = 1 := by
    intro σ
    ext a b
    rw [Matrix.mul_apply]
    simp [Matrix.one_apply, Matrix.transpose_apply]
  have hT' : ∀ σ : Equiv.Perm (Fin d), ((1 : Matrix (Fin d) (Fin d) ℤ).submatrix σ id).transpose *
      (1 : Matrix (Fin d) (Fin d) ℤ).submatrix σ id = 1 := fun σ => mul_eq_one_comm.1 (hT σ)
  refine ⟨?_, ?_, _, _, hT (Equiv.addRight (⟨i, h.2⟩ : Fin d)), hT' _, ?_, ?_, ?_⟩
  · unfold rotateAll; rw [if_pos h]; simp
  · unfold rotateAll; rw [if_pos h]; simp
  · exact toM_rotate h.2 (hs _ _ r1)
  · intro u u' g g'
    rw [g, g'] at r2
    exact toM_rotate h.2 (hs u u' (by simpa using r2))
  · intro u v v' _ g g'
    rw [g, g'] at r3
    rw [Matrix.transpose_transpose]
    exact toM_rotate h.2 (hs v v' (by simpa using r3))

theorem zerosLast_trel {d n : ℕ} (t : Triple) : TRel d n t (zerosLast d n t) := by
  have := (firstNonzero_spec n t.b d 0).2.1
  exact rotateAll_trel t (by omega)

/-! ## Conversions -/

/-- equal on the corners that matter -/
def Same (d n : ℕ) (t t' : Triple) : Prop :=
  (∀ i < d, ∀ j < n, t'.b i j = t.b i j) ∧
  (∀ u u', t.u = some u → t'.u = some u' → ∀ i < d, ∀ j < d, u' i j = u i j) ∧ t'.u.isSome = t.u.isSome ∧
  (∀ v v', t.v = some v → t'.v = some v' → ∀ i < d, ∀ j < d, v' i j = v i j) ∧ t'.v.isSome = t.v.isSome

theorem Same.trel {d n : ℕ} {t t' : Triple} (h : Same d n t t') : TRel d n t t' := by
  obtain ⟨h1, h2, h3, h4, h5⟩ := h
  refine ⟨h3, h5, 1, 1, by simp, by simp, ?_, ?_, ?_⟩
  · rw [Matrix.one_mul]; ext i j; exact h1 i i.2 j j.2
  · intro u u' g g'; rw [Matrix.one_mul]; ext i j; exact h2 u u' g g' i i.2 j j.2
  · intro u v v' _ g g'; rw [Matrix.transpose_one, Matrix.one_mul]; ext i j; exact h4 v v' g g' i i.2 j j.2

theorem convs_same {d n buffer : ℕ} (hb : buffer ≤ 62) {getSi : ℤ → ℤ} (hg : ∀ z : ℤ, -2 ^ 63 ≤ z → z < 2 ^ 63 → getSi z = z) (junk : Mat ℤ)
    (m : Triple)
    (h : ((convert d n buffer m.b getSi junk).1 && (m.u.map fun u => convert d d buffer u getSi junk).all (·.1) &&
      (m.v.map fun u => convert d d buffer u getSi junk).all (·.1)) = true) :
    Same d n m ⟨(convert d n buffer m.b getSi junk).2, (m.u.map fun u => convert d d buffer u getSi junk).map (·.2),
      (m.v.map fun u => convert d d buffer u getSi junk).map (·.2)⟩ := by
  rw [Bool.and_eq_true, Bool.and_eq_true] at h
  obtain ⟨⟨h1, h2⟩, h3⟩ := h
  have key : ∀ r c A, (convert r c buffer A getSi junk).1 = true → ∀ i < r, ∀ j < c, (convert r c buffer A getSi junk).2 i j = A i j :=
    fun r c A h i hi j hj => ((C37_convert r c buffer hb A getSi hg junk).2 h i hi j hj).1
  refine ⟨key d n m.b h1, ?_, by simp, ?_, by simp⟩
  · intro u u' g g' i hi j hj
    rw [g] at h2 g'
    simp only [Option.map_some, Option.all_some, Option.some.injEq] at h2 g'
    rw [← g']
    exact key d d u h2 i hi j hj
  · intro u u' g g' i hi j hj
    rw [g] at h3 g'
    simp only [Option.map_some, Option.all_some, Option.some.injEq] at h3 g'
    rw [← g']
    exact key d d u h3 i hi j hj

/-! ## Runs of `bkz()` -/

/-- inputs for which `bkz()` stays in range: not all rows are zero, and for SD-BKZ the rows are independent and at least as many as the
block size -/
def Adm (d n : ℕ) (sd : Bool) (bs : ℤ) (b : Mat ℤ) : Prop :=
  toM d n b ≠ 0 ∧ (sd = true → bs ≤ d ∧ ∀ x : Fin d → ℤ, Matrix.vecMul x (toM d n b) = 0 → x = 0)

theorem Adm.of_uni {d n : ℕ} {sd : Bool} {bs : ℤ} {b b' : Mat ℤ} (h : Adm d n sd bs b) {T T' : Matrix (Fin d) (Fin d) ℤ} (h1 : T * T' = 1)
    (h2 : T' * T = 1) (h3 : toM d n b' = T * toM d n b) : Adm d n sd bs b' := by
  refine ⟨fun h0 => h.1 ?_, fun hs => ⟨(h.2 hs).1, fun x hx => ?_⟩⟩
  · rw [h0] at h3
    calc toM d n b = T' * T * toM d n b := by rw [h2, Matrix.one_mul]
      _ = 0 := by rw [Matrix.mul_assoc, ← h3, Matrix.mul_zero]
  · rw [h3, ← Matrix.vecMul_vecMul] at hx
    have := (h.2 hs).2 _ hx
    calc x = Matrix.vecMul (Matrix.vecMul x T) T' := by rw [Matrix.vecMul_vecMul, h1, Matrix.vecMul_one]
      _ = 0 := by rw [this, Matrix.zero_vecMul]

/-- a run of `bkz()` changes the matrices by a unimodular matrix -/
def GoodBRun (d n : ℕ) (sd : Bool) (bs : ℤ) (brun : BRunner) : Prop := ∀ long ft p inp, Adm d n sd bs inp.b →
  match brun long ft p inp with
  | .ok _ _ bad m => BRel d n bad inp m
  | .thrown bad m => BRel d n bad inp m
  | .ub => True
  | .stuck bad m => BRel d n bad inp m

theorem bkzRun_good {D : Type} [LinearOrder D] [OrderTop D] (bw : BWorld D) {d n : ℕ} (hn : 1 ≤ n) (delta : ℚ) (cfg : BKZ.Cfg D)
    (hpre : ∀ long ft p inp bs, ∀ q ∈ (bw.orc long ft p inp).preproc bs, 1 ≤ q) :
    GoodBRun d n cfg.sd cfg.blockSize (bkzRun bw d n delta cfg) := by
  intro long ft p inp hadm
  unfold bkzRun
  dsimp only
  let := bw.w.ops ft p
  generalize (⟨LLL.mkCfg (bw.w.conv ft p (lllDelta delta)) (bw.w.conv ft p lllEta) false false, bw.babai, bw.inner, bw.density⟩ :
    BKZ.SvpCfg (bw.w.F ft p)) = c
  obtain ⟨hwf, hb, hu, hv, hdd, hc, hg, hwu, hwi, hk, hl⟩ :=
    mk0_wf d n false inp.u.isSome inp.v.isSome false inp.b (inp.u.getD fun _ _ => 0)
      (inp.v.getD fun _ _ => 0) (bw.w.junkZ 0) (bw.w.junkF 0 ft p) hn
  generalize mk0 d n false inp.u.isSome inp.v.isSome false inp.b
    (inp.u.getD fun _ _ => 0) (inp.v.getD fun _ _ => 0) (bw.w.junkZ 0) (bw.w.junkF 0 ft p) = s at *
  have hz : ∀ i, BKZ.numRows s s.d ≤ i → i < d → ∀ k < n, inp.b i k = 0 := by
    intro i h1 h2 k hk
    have := BKZ.numRows_spec s s.d i (by omega) h1 k (by omega)
    rwa [hb] at this
  have hnum : 1 ≤ BKZ.numRows s s.d := by
    by_contra hcon
    refine hadm.1 ?_
    ext i k
    exact hz i (by omega) i.2 k k.2
  have hsd : cfg.sd = true → cfg.blockSize ≤ BKZ.numRows s s.d := by
    intro h
    obtain ⟨h1, h2⟩ := hadm.2 h
    by_contra hcon
    have hlt : BKZ.numRows s s.d < d := by omega
    have := h2 (Pi.single ⟨d - 1, by omega⟩ 1) (by
      rw [Matrix.single_one_vecMul]
      ext k
      exact hz (d - 1) (by omega) (by omega) k k.2)
    have := congrFun this ⟨d - 1, by omega⟩
    simp at this
  have key := BKZ.runBKZ_all (Q := fun _ => True) c (bw.orc long ft p inp) cfg (bw.timeUp ft p) (bw.slope ft p) bw.depth bw.tries bw.tours
    ⟨s, 0, 0, false⟩ hwf hl hnum hsd (hpre long ft p inp) fun _ _ _ _ _ _ _ => trivial
  have fin : ∀ w' : BKZ.W (bw.w.F ft p), (SameCfg s w'.s ∧ WF w'.s ∧ BKZ.UniB s w'.s ∧ (false = false → w'.bad = false → Uni s w'.s)) →
      BRel d n w'.bad inp (outT inp w'.s) := by
    intro w' ⟨_, _, hB, hU⟩
    subst hdd hc
    refine ⟨by simp [outT], ?_, fun hbad => ?_⟩
    · obtain ⟨T, T', a1, a2, a3⟩ := hB
      exact ⟨T, T', a1, a2, by rw [hb] at a3; exact a3⟩
    · obtain ⟨T, T', a1, a2, a3, a4, a5⟩ := hU rfl hbad
      refine ⟨by simp [outT], by simp [outT], T, T', a1, a2, ?_, ?_, ?_⟩
      · rw [hb] at a3; exact a3
      · intro u u' g g'
        rw [g] at hwu hu
        simp only [outT, g, Option.map_some, Option.some.injEq] at g'
        rw [← g', a4 hwu, hu]
        rfl
      · intro u v v' gu g g'
        rw [gu] at hwu
        rw [g] at hwi hv
        simp only [outT, g, Option.map_some, Option.some.injEq] at g'
        rw [← g', a5 hwu hwi, hv]
        rfl
  cases hr : BKZ.runBKZ c (bw.orc long ft p inp) cfg (bw.timeUp ft p) (bw.slope ft p) bw.depth bw.tries bw.tours ⟨s, 0, 0, false⟩ with
  | ok r w' => rw [hr] at key; exact fin w' key
  | thrown w' => rw [hr] at key; exact fin w' key
  | ub w' => trivial
  | stuck w' => rw [hr] at key; exact fin w' key

/-! ## The whole function -/

variable {c : Cfg} {run : Runner} {brun : BRunner} {sd : Bool} {bs : ℤ}

theorem bkzReductionF_rel {d n : ℕ} (hb : GoodBRun d n sd bs brun) {getSi : ℤ → ℤ} (hg : ∀ x : ℤ, -2 ^ 63 ≤ x → x < 2 ^ 63 → getSi x = x)
    (junk : Mat ℤ) (ft : FT) (prec : ℤ) (m : Triple) (hadm : Adm d n sd bs m.b) :
    match bkzReductionF d n getSi brun junk ft prec m with
    | .ok _ _ bad lost r => lost = false → BRel d n bad m r
    | .thrown bad r => BRel d n bad m r
    | .ub => True
    | .stuck bad r => BRel d n bad m r := by
  unfold bkzReductionF
  by_cases h0 : d = 0 ∨ n = 0
  · rw [if_pos h0]; exact fun _ => .of (TRel.refl _ _ _)
  rw [if_neg h0]
  by_cases hl : (toLong d n getSi junk m).1 = true
  · rw [if_pos hl]
    have hs : Same d n m (toLong d n getSi junk m).2 := convs_same (by norm_num) hg junk m hl
    have ht := hs.trel
    obtain ⟨-, -, T, T', a1, a2, a3, -⟩ := id ht
    have hr := hb true ft prec (toLong d n getSi junk m).2 (hadm.of_uni a1 a2 a3)
    cases hx : brun true ft prec (toLong d n getSi junk m).2 with
    | ok st k bad r =>
      rw [hx] at hr
      intro hlost
      have hf : (fromLong d n junk r).1 = true := by simpa using hlost
      exact (BRel.after ht hr).before (convs_same (by norm_num) (fun _ _ _ => rfl) junk r hf).trel
    | thrown bad r => exact .of (TRel.refl _ _ _)
    | ub => trivial
    | stuck bad r => exact .of (TRel.refl _ _ _)
  · rw [if_neg hl]
    have hr := hb false ft prec m hadm
    cases hx : brun false ft prec m with
    | ok st k bad r => rw [hx] at hr; exact fun _ => hr
    | thrown bad r => rw [hx] at hr; exact hr
    | ub => trivial
    | stuck bad r => rw [hx] at hr; exact hr

/-- what the caller relies on: the same lattice, and if `u` is given the new basis is `u` times the old one -/
def Kept (d n : ℕ) (b : Mat ℤ) (m : Triple) (bad : Bool) : Prop :=
  lattice (toM d n m.b) = lattice (toM d n b) ∧
  (bad = false → ∀ u, m.u = some u → toM d n m.b = toM d d u * toM d n b ∧ Unimodular (toM d d u))

theorem BRel.kept {d n : ℕ} {bad : Bool} {b : Mat ℤ} {u : Option (Mat ℤ)} {t : Triple} (h : BRel d n bad ⟨b, identityIf u, none⟩ t) :
    Kept d n b t bad := by
  obtain ⟨-, ⟨T, T', a1, a2, a3⟩, a4⟩ := h
  exact ⟨by rw [a3]; exact lattice_mul ⟨T', a1, a2⟩ _, fun hb u' hu => (TRel.reduced (v := none) (a4 hb)).2.1 u' hu⟩

theorem firstStep_trel (hr : GoodRun c.d c.n run) (hg : ∀ x : ℤ, -2 ^ 63 ≤ x → x < 2 ^ 63 → c.getSi x = x) (wfuel : ℕ) (noLll : Bool) (junk : Mat ℤ)
    (m : Triple) {q : Bool × RedStatus × Triple} (h : firstStep c run wfuel noLll junk m = some q) : TRel c.d c.n m q.2.2 := by
  unfold firstStep at h
  by_cases hl : noLll = true
  · rw [if_pos hl] at h; cases h; exact zerosLast_trel _
  · rw [if_neg hl, Option.map_eq_some_iff] at h
    obtain ⟨r, hr1, rfl⟩ := h
    exact lll_inv hr hg wfuel junk r hr1

/-- **C79 (lattice and transform).**  Every call of `bkz_reduction` that returns - with any status, floating-point type, behaviour of
LLL, enumeration, random numbers and clock - or is left by an exception, or is observed while it runs for ever: `b` is a basis of the
input lattice; if `u` is given, `b` is `u` times the input basis and `u` is unimodular, unless a generic insertion negated a row (`bad`,
see C22).  For machine integers the results must survive the conversion back (`lost`, see `C79_lost_violated`). -/
theorem C79_lattice_partial (hr : GoodRun c.d c.n run) (hb : GoodBRun c.d c.n sd bs brun)
    (hg : ∀ x : ℤ, -2 ^ 63 ≤ x → x < 2 ^ 63 → c.getSi x = x) (wfuel : ℕ) (a : Args) (mprec : ℤ) (junk b : Mat ℤ) (u : Option (Mat ℤ))
    (hadm : Adm c.d c.n sd bs b) :
    match bkzReduction c run brun wfuel a mprec junk b u with
    | .ret _ bad lost m _ => lost = false → Kept c.d c.n b m bad ∧ m.u.isSome = u.isSome
    | .throws bad m _ => Kept c.d c.n b m bad ∧ m.u.isSome = u.isSome
    | .stuck bad m => Kept c.d c.n b m bad ∧ m.u.isSome = u.isSome
    | _ => True := by
  have hid : (identityIf u).isSome = u.isSome := by simp [identityIf]
  have fin : ∀ {bad : Bool} {m : Triple}, BRel c.d c.n bad ⟨b, identityIf u, none⟩ m → Kept c.d c.n b m bad ∧ m.u.isSome = u.isSome :=
    fun h => ⟨h.kept, h.1.trans hid⟩
  unfold bkzReduction
  by_cases hp : a.ft.getD .double = .mpfr ∧ a.prec = 0
  · rw [if_pos hp]; trivial
  rw [if_neg hp]
  cases hx : firstStep { c with delta := lllDelta a.delta, eta := lllEta } run wfuel a.noLll junk ⟨b, identityIf u, none⟩ with
  | none => trivial
  | some q =>
    have ht : TRel c.d c.n ⟨b, identityIf u, none⟩ q.2.2 := firstStep_trel (c := { c with delta := lllDelta a.delta, eta := lllEta }) hr hg wfuel a.noLll junk _ hx
    obtain ⟨ok, st, m⟩ := q
    cases ok with
    | false => exact fun _ => fin (.of ht)
    | true =>
      dsimp only
      unfold secondStep
      dsimp only
      by_cases hav : available c.bld (a.ft.getD .double) = false
      · rw [if_pos hav]; trivial
      rw [if_neg hav]
      obtain ⟨-, -, T, T', a1, a2, a3, -⟩ := id ht
      have hf := bkzReductionF_rel hb hg junk (a.ft.getD .double) (if a.ft.getD .double = .mpfr then a.prec else 0) m (hadm.of_uni a1 a2 a3)
      cases hy : bkzReductionF c.d c.n c.getSi brun junk (a.ft.getD .double) (if a.ft.getD .double = .mpfr then a.prec else 0) m with
      | ok st k bad lost r =>
        rw [hy] at hf
        exact fun hlost => fin ((BRel.after ht (hf hlost)).before (zerosFirst_trel _))
      | thrown bad r => rw [hy] at hf; exact fin (BRel.after ht hf)
      | ub => trivial
      | stuck bad r => rw [hy] at hf; exact fin (BRel.after ht hf)

/-! ## Empty bases, precision, status -/

/-- **C79 (empty basis).**  Success, and nothing is changed. -/
theorem C79_empty (hd : c.d = 0 ∨ c.n = 0) (wfuel : ℕ) (a : Args) (mprec : ℤ) (junk b : Mat ℤ) (u : Option (Mat ℤ))
    (hp : ¬ (a.ft.getD .double = .mpfr ∧ a.prec = 0)) (hav : available c.bld (a.ft.getD .double) = true) :
    ∃ m, bkzReduction c run brun wfuel a mprec junk b u = .ret .success false false m mprec ∧ m.b = b ∧ m.u = identityIf u := by
  have hrot : ∀ (i : ℕ) (t : Triple), (i = 0 ∨ c.d ≤ i) → rotateAll c.d i t = t := by
    intro i t hi; unfold rotateAll; rw [if_neg (by omega)]
  have hzero : c.d ≠ 0 → ∀ v : ℕ → ℤ, rowZero c.n v = true := by
    intro h v; rw [rowZero_iff]; intro j hj; omega
  have hl : ∀ t : Triple, zerosLast c.d c.n t = t := by
    intro t
    refine hrot _ t ?_
    obtain ⟨-, h2, -, h4⟩ := firstNonzero_spec c.n t.b c.d 0
    by_cases h0 : c.d = 0
    · exact .inr (by omega)
    · right
      by_contra hlt
      have := h4 (by omega)
      rw [hzero h0] at this
      cases this
  have hf : ∀ t : Triple, zerosFirst c.d c.n t = t := by
    intro t
    refine hrot _ t ?_
    obtain ⟨h1, -, h3⟩ := lastNonzero_spec c.n t.b c.d
    by_cases h0 : c.d = 0
    · exact .inr (by omega)
    · left
      by_contra hne
      have := h3 (by omega)
      rw [hzero h0] at this
      cases this
  unfold bkzReduction
  rw [if_neg hp]
  unfold firstStep
  by_cases hno : a.noLll = true
  · rw [if_pos hno]
    dsimp only
    unfold secondStep
    dsimp only
    rw [if_neg (by rw [hav]; decide)]
    unfold bkzReductionF
    rw [if_pos hd]
    dsimp only
    rw [hf, hl]
    exact ⟨_, rfl, rfl, rfl⟩
  · rw [if_neg hno]
    unfold Wrapper.lll
    rw [if_pos hd]
    exact ⟨_, rfl, rfl, rfl⟩

/-- **C79 (precision).**  A call that returns leaves the default precision of `mpfr` numbers as it was. -/
theorem C79_prec_partial (wfuel : ℕ) (a : Args) (mprec : ℤ) (junk b : Mat ℤ) (u : Option (Mat ℤ)) {st : RedStatus} {bad lost : Bool} {m : Triple}
    {mp : ℤ} (h : bkzReduction c run brun wfuel a mprec junk b u = .ret st bad lost m mp) : mp = mprec := by
  unfold bkzReduction at h
  split_ifs at h
  cases hx : firstStep { c with delta := lllDelta a.delta, eta := lllEta } run wfuel a.noLll junk ⟨b, identityIf u, none⟩ with
  | none => rw [hx] at h; cases h
  | some q =>
    rw [hx] at h
    obtain ⟨ok, st1, m1⟩ := q
    cases ok with
    | false => cases h; rfl
    | true =>
      dsimp only at h
      unfold secondStep at h
      dsimp only at h
      have hav : ¬ available c.bld (a.ft.getD .double) = false := by intro h0; rw [if_pos h0] at h; cases h
      rw [if_neg hav] at h
      generalize bkzReductionF c.d c.n c.getSi brun junk (a.ft.getD .double) (if a.ft.getD .double = .mpfr then a.prec else 0) m1 = x at h
      cases x <;> cases h
      rfl

/-- **C79 (precision), violated.**  `bkz_reduction` restores the precision only when `bkz()` returns (bkz.cpp:906-908): after an
exception every later `mpfr` number has the precision of the failed call. -/
theorem C79_prec_violated (wfuel : ℕ) (a : Args) (mprec : ℤ) (junk b : Mat ℤ) (u : Option (Mat ℤ)) (hft : a.ft = some .mpfr) {bad : Bool} {m : Triple}
    {mp : ℤ} (h : bkzReduction c run brun wfuel a mprec junk b u = .throws bad m mp) : mp = a.prec := by
  unfold bkzReduction at h
  split_ifs at h
  cases hx : firstStep { c with delta := lllDelta a.delta, eta := lllEta } run wfuel a.noLll junk ⟨b, identityIf u, none⟩ with
  | none => rw [hx] at h; cases h
  | some q =>
    rw [hx] at h
    obtain ⟨ok, st1, m1⟩ := q
    cases ok with
    | false => cases h
    | true =>
      dsimp only at h
      unfold secondStep at h
      dsimp only at h
      have hav : ¬ available c.bld (a.ft.getD .double) = false := by intro h0; rw [if_pos h0] at h; cases h
      rw [if_neg hav] at h
      generalize bkzReductionF c.d c.n c.getSi brun junk (a.ft.getD .double) (if a.ft.getD .double = .mpfr then a.prec else 0) m1 = x at h
      have hm : a.ft.getD .double = .mpfr := by rw [hft]; rfl
      cases x <;> cases h
      rw [if_pos hm]

theorem lll_false (hd : c.d ≠ 0) (hn : c.n ≠ 0) (fuel : ℕ) (st : St) {st' : St} (h : lll c run fuel st = some (false, st')) : st'.status ≠ .success := by
  rw [lll_eq hd hn, Option.map_eq_some_iff] at h
  obtain ⟨st1, -, h⟩ := h
  obtain ⟨call, st2, h1, -⟩ := lastLll_eq (c := c) (run := run) (setUseLong c (provLong c st) st1)
  rw [h1] at h
  obtain ⟨e, -, -, h3, -, -, -, -, -, -, h4, -⟩ := callLll_log (run := run) call st2
  rw [Prod.mk.injEq] at h
  obtain ⟨g1, g2⟩ := h
  rw [← g2, (setUseLong_log _ _).2.1, h3]
  intro hs
  rw [h4 hs] at g1
  simp at g1

/-- **C79 (status).**  `RED_SUCCESS` for a non-empty basis means that the first LLL succeeded (or was not asked for) and that `bkz()`
ended with success; the limits of `bkz()` are reported; every other status is that of LLL, and then `bkz()` was not run. -/
theorem C79_status (hd : c.d ≠ 0) (hn : c.n ≠ 0) (wfuel : ℕ) (a : Args) (mprec : ℤ) (junk b : Mat ℤ) (u : Option (Mat ℤ)) {st : RedStatus}
    {bad lost : Bool} {m : Triple} {mp : ℤ} (h : bkzReduction c run brun wfuel a mprec junk b u = .ret st bad lost m mp) :
    (∃ st' m1, firstStep { c with delta := lllDelta a.delta, eta := lllEta } run wfuel a.noLll junk ⟨b, identityIf u, none⟩ = some (true, st', m1) ∧
      ∃ bst k r, bkzReductionF c.d c.n c.getSi brun junk (a.ft.getD .double) (if a.ft.getD .double = .mpfr then a.prec else 0) m1 =
        .ok bst k bad lost r ∧
        ((st = .success ↔ bst = .success) ∧ (st = .bkzLoopsLimit ↔ bst = .loopsLimit) ∧ (st = .bkzTimeLimit ↔ bst = .timeLimit)) ∧ m = zerosFirst c.d c.n r) ∨
    (st ≠ .success ∧ firstStep { c with delta := lllDelta a.delta, eta := lllEta } run wfuel a.noLll junk ⟨b, identityIf u, none⟩ = some (false, st, m)) := by
  unfold bkzReduction at h
  split_ifs at h
  cases hx : firstStep { c with delta := lllDelta a.delta, eta := lllEta } run wfuel a.noLll junk ⟨b, identityIf u, none⟩ with
  | none => rw [hx] at h; cases h
  | some q =>
    rw [hx] at h
    obtain ⟨ok, st1, m1⟩ := q
    cases ok with
    | false =>
      cases h
      refine .inr ⟨?_, rfl⟩
      unfold firstStep at hx
      split_ifs at hx
      · cases hx
      · rw [Option.map_eq_some_iff] at hx
        obtain ⟨r, hr1, hr2⟩ := hx
        obtain ⟨ok, r⟩ := r
        cases hr2
        exact lll_false (c := { c with delta := lllDelta a.delta, eta := lllEta }) hd hn wfuel _ hr1
    | true =>
      dsimp only at h
      unfold secondStep at h
      dsimp only at h
      have hav : ¬ available c.bld (a.ft.getD .double) = false := by intro h0; rw [if_pos h0] at h; cases h
      rw [if_neg hav] at h
      refine .inl ⟨st1, m1, rfl, ?_⟩
      generalize bkzReductionF c.d c.n c.getSi brun junk (a.ft.getD .double) (if a.ft.getD .double = .mpfr then a.prec else 0) m1 = x at h ⊢
      cases x with
      | ok bst k bad lost r => cases h; exact ⟨_, _, _, rfl, by cases bst <;> simp [redStatus], rfl⟩
      | thrown bad r => cases h
      | ub => cases h
      | stuck bad r => cases h

/-! ## HKZ reduction -/

theorem TRel.preEq {d n : ℕ} {t t' : Triple} (h : TRel d n t t') : PreEq n d t.b t'.b := by
  obtain ⟨-, -, T, T', a1, a2, a3, -⟩ := h
  intro v
  rw [InPre.mem_lattice, InPre.mem_lattice, a3, lattice_mul ⟨T', a1, a2⟩]

theorem hkz_congr {n e : ℕ} {b b' : Mat ℤ} (h : ∀ i < e, ∀ k < n, b i k = b' i k) {η : ℚ} (hb : HkzReduced n e b η) : HkzReduced n e b' η := by
  have hq : ∀ i < e, ∀ k < n, toQ b i k = toQ b' i k := fun i hi k hk => by unfold toQ; rw [h i hi k hk]
  have hM : toM e n b = toM e n b' := by ext i k; exact h i i.2 k k.2
  refine ⟨fun i hi j hj => ?_, fun k hk v hv hp => ?_⟩
  · rw [← muS_congr (B := toQ b) (i := i) (fun k hk c hc => hq k (by omega) c hc) (fun c hc => hq i hi c hc)]
    exact hb.1 i hi j hj
  · have hd : distSq n (toQ b) k (vecQ v) = distSq n (toQ b') k (vecQ v) := distSq_congr (fun j hj c hc => hq j (by omega) c hc) fun _ _ => rfl
    rw [← hd] at hp ⊢
    rw [← normStar_congr (B := toQ b) fun j hj c hc => hq j (by omega) c hc]
    refine hb.2 k hk v ?_ hp
    rw [InPre.mem_lattice] at hv ⊢
    rwa [hM]

theorem mainLoop_pos {D σ : Type} [LinearOrder D] (o : BKZ.Ops σ) (cfg : BKZ.Cfg D) (e : BKZ.Env D σ) (numRows : ℤ) (inner : ℕ)
    (h1 : cfg.maxLoops = none) (h2 : cfg.maxTime = false) (h3 : cfg.autoAbort = false) (h4 : cfg.sd = false) (fuel i : ℕ)
    (a : BKZ.AutoAbort D) (s s' : σ) (r : BKZ.Status × ℕ) (h : BKZ.mainLoop o cfg e numRows inner fuel i a s = .ok r s') : i + 1 ≤ r.2 := by
  have hau : BKZ.autoOn cfg = false := by unfold BKZ.autoOn; rw [h3, h4]; rfl
  induction fuel generalizing i a s with
  | zero => cases h
  | succ fuel ih =>
    rw [BKZ.mainLoop, h1, h2, hau] at h
    dsimp only at h
    rw [if_neg (by simp), if_neg (by simp), if_neg (by simp)] at h
    rw [if_neg (by decide), if_neg (by decide)] at h
    cases ht : BKZ.oneTour o cfg numRows inner s with
    | ok clean s1 =>
      rw [ht] at h
      dsimp only [BKZ.Out.bind] at h
      split_ifs at h
      · cases h; exact le_rfl
      · have := ih _ _ _ h; omega
    | thrown s1 => rw [ht] at h; cases h
    | ub s1 => rw [ht] at h; cases h
    | stuck s1 => rw [ht] at h; cases h

/-- exact arithmetic in every type -/
def exactB {D : Type} (jz : ℕ → Mat ℤ) (jf : ℕ → Mat Exact) (orc : Bool → Triple → BKZ.Orc Exact) (timeUp : ℕ → BKZ.W Exact → Bool)
    (slope : ℕ → BKZ.W Exact → D) (babai inner density depth tries tours : ℕ) : BWorld D where
  w := { F := fun _ _ => Exact, ops := fun _ _ => inferInstanceAs (FloatOps Exact), conv := fun _ _ q => some q, maxIter := fun _ _ => 0
         junkZ := jz, junkF := fun t _ _ => jf t, earlyRed := false, siegel := false }
  orc long _ _ inp := orc long inp
  timeUp _ _ := timeUp
  slope _ _ := slope
  babai := babai
  inner := inner
  density := density
  depth := depth
  tries := tries
  tours := tours

section
variable {D : Type} [LinearOrder D] [OrderTop D]

theorem bkzRun_ok {bw : BWorld D} {d n : ℕ} {delta : ℚ} {cfg : BKZ.Cfg D} {long : Bool} {ft : FT} {p : ℤ} {inp : Triple} {st : BKZ.Status} {k : ℕ}
    {bad : Bool} {r : Triple} (h : bkzRun bw d n delta cfg long ft p inp = .ok st k bad r) :
    letI := bw.w.ops ft p
    ∃ w', BKZ.runBKZ ⟨LLL.mkCfg (bw.w.conv ft p (lllDelta delta)) (bw.w.conv ft p lllEta) false false, bw.babai, bw.inner, bw.density⟩
      (bw.orc long ft p inp) cfg (bw.timeUp ft p) (bw.slope ft p) bw.depth bw.tries bw.tours
      ⟨GSO.mk0 d n false inp.u.isSome inp.v.isSome false inp.b (inp.u.getD fun _ _ => 0) (inp.v.getD fun _ _ => 0) (bw.w.junkZ 0)
        (bw.w.junkF 0 ft p), 0, 0, false⟩ = .ok (st, k) w' ∧ r = outT inp w'.s := by
  let := bw.w.ops ft p
  unfold bkzRun at h
  dsimp only at h ⊢
  generalize BKZ.runBKZ (F := bw.w.F ft p) ⟨LLL.mkCfg (bw.w.conv ft p (lllDelta delta)) (bw.w.conv ft p lllEta) false false, bw.babai, bw.inner, bw.density⟩
      (bw.orc long ft p inp) cfg (bw.timeUp ft p) (bw.slope ft p) bw.depth bw.tries bw.tours
      ⟨GSO.mk0 d n false inp.u.isSome inp.v.isSome false inp.b (inp.u.getD fun _ _ => 0) (inp.v.getD fun _ _ => 0) (bw.w.junkZ 0)
        (bw.w.junkF 0 ft p), 0, 0, false⟩ = x at h ⊢
  cases x with
  | ok q w' => cases h; exact ⟨w', rfl, rfl⟩
  | thrown w' => cases h
  | ub w' => cases h
  | stuck w' => cases h

theorem bkzRun_hkz {d n : ℕ} (hd : 2 ≤ d) (hn : 1 ≤ n) {jz : ℕ → Mat ℤ} {jf : ℕ → Mat Exact} {orc : Bool → Triple → BKZ.Orc Exact}
    {timeUp : ℕ → BKZ.W Exact → Bool} {slope : ℕ → BKZ.W Exact → D} {babai inner density depth tries tours : ℕ} {cfg : BKZ.Cfg D}
    (hrun : ∀ long inp, HkzRun (99 / 100) (51 / 100) 1 ⟨mkCfg (some (99 / 100)) (some (51 / 100)) false false, babai, inner, density⟩ (orc long inp) cfg d)
    (hdef : ∀ long inp, HkzDefault (99 / 100) (51 / 100) ⟨mkCfg (some (99 / 100)) (some (51 / 100)) false false, babai, inner, density⟩ (orc long inp) cfg)
    (h1 : cfg.maxLoops = none) (h2 : cfg.maxTime = false) {long : Bool} {ft : FT} {p : ℤ} {inp : Triple} (hind : Indep d n (toQ inp.b))
    {st : BKZ.Status} {k : ℕ} {bad : Bool} {r : Triple}
    (h : bkzRun (exactB jz jf orc timeUp slope babai inner density depth tries tours) d n 1 cfg long ft p inp = .ok st k bad r) :
    (∀ x, InPre n d r.b x ↔ InPre n d inp.b x) ∧ HkzReduced n d r.b (51 / 100) := by
  have hδ : lllDelta 1 = 99 / 100 := by unfold lllDelta; rw [if_neg (by norm_num)]
  obtain ⟨w', hx, rfl⟩ := bkzRun_ok h
  dsimp only [exactB] at hx
  rw [hδ] at hx
  unfold lllEta at hx
  have hR := hrun long inp
  have hm : 1 ≤ k := by
    have hx' := hx
    unfold BKZ.runBKZ at hx'
    dsimp only at hx'
    unfold BKZ.bkz at hx'
    rw [hR.sd, hR.sld] at hx'
    rw [if_neg (by simp), if_neg (by have := hR.bs; omega), if_neg (by simp)] at hx'
    dsimp only [BKZ.Out.bind] at hx'
    split at hx'
    · rename_i q s hy
      cases hx'
      have := mainLoop_pos _ _ _ _ _ h1 h2 hR.noAbort hR.sd _ _ _ _ _ _ hy
      omega
    · cases hx'
    · cases hx'
    · cases hx'
  exact C57_hkz (d := d) (n := n) hn _ _ _ _ inp.b _ _ _ _ (by omega) le_rfl (fun i h1 h2 => by omega) hind (by norm_num) le_rfl hR
    (hdef long inp) timeUp slope depth tries tours _ w' rfl hm hx

/-- **C79 (HKZ).**  `hkz_reduction` in exact arithmetic (the LLL before it may do what it likes) on `d ≥ 2` independent rows: a call that
returns `RED_SUCCESS` leaves a Hermite-Korkine-Zolotarev reduced basis of the same lattice. -/
theorem C79_hkz (hr : GoodRun c.d c.n run) (hg : ∀ x : ℤ, -2 ^ 63 ≤ x → x < 2 ^ 63 → c.getSi x = x) (hd : 2 ≤ c.d) (hn : 1 ≤ c.n)
    {jz : ℕ → Mat ℤ} {jf : ℕ → Mat Exact} {orc : Bool → Triple → BKZ.Orc Exact}
    {timeUp : ℕ → BKZ.W Exact → Bool} {slope : ℕ → BKZ.W Exact → D} {babai inner density depth tries tours : ℕ} {cfg : BKZ.Cfg D}
    (hrun : ∀ long inp, HkzRun (99 / 100) (51 / 100) 1 ⟨mkCfg (some (99 / 100)) (some (51 / 100)) false false, babai, inner, density⟩ (orc long inp) cfg c.d)
    (hdef : ∀ long inp, HkzDefault (99 / 100) (51 / 100) ⟨mkCfg (some (99 / 100)) (some (51 / 100)) false false, babai, inner, density⟩ (orc long inp) cfg)
    (h1 : cfg.maxLoops = none) (h2 : cfg.maxTime = false) (wfuel : ℕ) (ft : Option FT) (prec mprec : ℤ) (junk b : Mat ℤ)
    (hind : Indep c.d c.n (toQ b)) {bad : Bool} {m : Triple} {mp : ℤ}
    (h : hkzReduction c run (bkzRun (exactB jz jf orc timeUp slope babai inner density depth tries tours) c.d c.n 1 cfg) wfuel ft prec mprec junk b =
      .ret .success bad false m mp) :
    (∀ x, InPre c.n c.d m.b x ↔ InPre c.n c.d b x) ∧ HkzReduced c.n c.d m.b (51 / 100) := by
  unfold hkzReduction at h
  rcases C79_status (by omega) (by omega) _ _ _ _ _ _ h with ⟨st', m1, e1, bst, k, r, e2, -, rfl⟩ | ⟨hne, -⟩
  swap
  · exact absurd rfl hne
  have ht : TRel c.d c.n ⟨b, identityIf none, none⟩ m1 :=
    firstStep_trel (c := { c with delta := lllDelta 1, eta := lllEta }) hr hg wfuel false junk _ e1
  have hind1 : Indep c.d c.n (toQ m1.b) := (TRel.preEq ht).indep hind
  have key : (∀ x, InPre c.n c.d r.b x ↔ InPre c.n c.d m1.b x) ∧ HkzReduced c.n c.d r.b (51 / 100) := by
    unfold bkzReductionF at e2
    rw [if_neg (by omega)] at e2
    by_cases hl : (toLong c.d c.n c.getSi junk m1).1 = true
    · rw [if_pos hl] at e2
      have hs : Same c.d c.n m1 (toLong c.d c.n c.getSi junk m1).2 := convs_same (by norm_num) hg junk m1 hl
      revert e2
      generalize hx : bkzRun (exactB jz jf orc timeUp slope babai inner density depth tries tours) c.d c.n 1 cfg _ _ _ _ = x
      cases x with
      | ok st k bad r1 =>
        intro e2
        injection e2 with f1 f2 f3 f4 f5
        have hf : (fromLong c.d c.n junk r1).1 = true := by simpa using f4
        have hs2 : Same c.d c.n r1 (fromLong c.d c.n junk r1).2 := convs_same (by norm_num) (fun _ _ _ => rfl) junk r1 hf
        rw [f5] at hs2
        have hi2 := (TRel.preEq hs.trel).indep hind1
        obtain ⟨a1, a2⟩ := bkzRun_hkz hd hn hrun hdef h1 h2 hi2 hx
        refine ⟨fun x => ?_, hkz_congr (fun i hi k hk => (hs2.1 i hi k hk).symm) a2⟩
        rw [← (TRel.preEq hs2.trel) x, a1 x, ← (TRel.preEq hs.trel) x]
      | thrown bad r1 => intro e2; cases e2
      | ub => intro e2; cases e2
      | stuck bad r1 => intro e2; cases e2
    · rw [if_neg hl] at e2
      revert e2
      generalize hx : bkzRun (exactB jz jf orc timeUp slope babai inner density depth tries tours) c.d c.n 1 cfg _ _ _ _ = x
      cases x with
      | ok st k bad r1 => intro e2; cases e2; exact bkzRun_hkz hd hn hrun hdef h1 h2 hind1 hx
      | thrown bad r1 => intro e2; cases e2
      | ub => intro e2; cases e2
      | stuck bad r1 => intro e2; cases e2
  have hindr : Indep c.d c.n (toQ r.b) := PreEq.indep (fun x => (key.1 x).symm) hind1
  have hzf : zerosFirst c.d c.n r = r := by
    unfold zerosFirst rotateAll
    rw [if_neg]
    intro hlt
    obtain ⟨-, h5, -⟩ := lastNonzero_spec c.n r.b c.d
    have hz := (rowZero_iff _ _).1 (h5 _ le_rfl hlt.2)
    have hp := hindr.pos _ hlt.2
    have := hindr (fun i => if i = lastNonzero c.n r.b c.d then 1 else 0) (by
      intro k hk
      unfold lc
      refine Finset.sum_eq_zero fun i hi => ?_
      dsimp only
      split_ifs with hi'
      · subst hi'; unfold toQ; rw [hz k hk]; simp
      · simp) _ hlt.2
    simp at this
  rw [hzf]
  exact ⟨fun x => (key.1 x).trans ((TRel.preEq ht) x).symm, key.2⟩

end

/-! ## Concrete calls -/

/-- `fplll`'s enumeration, no strategies, radius factor 1, exact arithmetic; block size `bs`, no limits -/
noncomputable def exB (bs : ℤ) : BRunner :=
  bkzRun (exactB (fun _ _ _ => 7) (fun _ _ _ => none) (fun _ _ => enumOrc 1 200) (fun _ _ => false) (fun _ _ => ⊤) 20 20 1 2 20 20) 3 3 1
    (⟨bs, false, false, none, false, false, false, id, 5⟩ : BKZ.Cfg (WithTop ℕ))

def exCfg3 : Cfg := { exCfg 60 false with d := 3, n := 3 }

def seen : TOut → Option (RedStatus × List Bool × List ℤ × Option (List ℤ))
  | .ret st bad lost m _ =>
    let l := fun (m : Mat ℤ) => [m 0 0, m 0 1, m 0 2, m 1 0, m 1 1, m 1 2, m 2 0, m 2 1, m 2 2]
    some (st, [bad, lost], l m.b, m.u.map l)
  | _ => none

theorem seen_some {o : TOut} {st : RedStatus} {bad lost : Bool} {l : List ℤ} {u : Option (List ℤ)} (h : seen o = some (st, [bad, lost], l, u)) :
    ∃ m mp, o = .ret st bad lost m mp ∧ [m.b 0 0, m.b 0 1, m.b 0 2, m.b 1 0, m.b 1 1, m.b 1 2, m.b 2 0, m.b 2 1, m.b 2 2] = l ∧
      m.u.map (fun m => [m 0 0, m 0 1, m 0 2, m 1 0, m 1 1, m 1 2, m 2 0, m 2 1, m 2 2]) = u := by
  cases o with
  | ret st' bad' lost' m mp =>
    simp only [seen, Option.some.injEq, Prod.mk.injEq, List.cons.injEq, and_true] at h
    obtain ⟨rfl, ⟨rfl, rfl⟩, h4, h5⟩ := h
    exact ⟨m, mp, rfl, h4, h5⟩
  | _ => cases h

/-- the rows `(1, 0, 0), (2³¹, 1, 0), (0, 3·2³⁰, 1)` -/
def lostB : Mat ℤ := fun i j =>
  match i, j with
  | 0, 0 => 1
  | 1, 0 => 2 ^ 31
  | 1, 1 => 1
  | 2, 1 => 3 * 2 ^ 30
  | 2, 2 => 1
  | _, _ => 0

noncomputable def lostCall : TOut :=
  bkzReduction exCfg3 (lllRun exWorld 3 3) (exB 2) 100 ⟨1, true, none, 0⟩ 53 (fun _ _ => 0) lostB (some fun _ _ => 0)

theorem lostCall_seen : seen lostCall =
    some (.success, [false, true], [0, 1, 0, 0, 0, 1, 1, 0, 0], some [-2 ^ 31, 1, 0, 0, 0, 0, 0, 0, 0]) := by
  decide +kernel

/-- **C79 fails if `u` grows.**  `bkz_reduction` decides by the sizes of `b` and `u` (the identity) to work with machine integers, and
does not look at the results of the conversions back (bkz.cpp:833-835).  With `BKZ_NO_LLL` the basis `(1, 0, 0), (2³¹, 1, 0),
(0, 3·2³⁰, 1)`, whose entries are below `2³²`, is reduced to the unit vectors; the second row of the transform is `(3·2⁶¹, -3·2³⁰, 1)`, which
fits in a `long`, but `convert` stops at entries above `2⁶²`.  The call returns `RED_SUCCESS` and a singular `u`. -/
theorem C79_lost_violated : ∃ m u mp, lostCall = .ret .success false true m mp ∧ m.u = some u ∧
    toM 3 3 m.b ≠ toM 3 3 u * toM 3 3 lostB ∧ ¬ Unimodular (toM 3 3 u) := by
  obtain ⟨m, mp, h1, h2, h3⟩ := seen_some lostCall_seen
  obtain ⟨u, hu, hl⟩ := Option.map_eq_some_iff.1 h3
  simp only [List.cons.injEq, and_true] at h2 hl
  have hz : ∀ j : Fin 3, toM 3 3 u 1 j = 0 := by
    intro j
    fin_cases j <;> simp [toM, hl]
  refine ⟨m, u, mp, h1, hu, fun he => ?_, ?_⟩
  · have h22 := congrFun (congrFun he 1) 2
    rw [Matrix.mul_apply] at h22
    simp only [hz, zero_mul, Finset.sum_const_zero] at h22
    simp [toM, h2] at h22
  · rintro ⟨T, ha, -⟩
    have h22 := congrFun (congrFun ha 1) 1
    rw [Matrix.mul_apply] at h22
    simp [hz] at h22

theorem exB_good (bs : ℤ) : GoodBRun 3 3 false bs (exB bs) := by
  have h := bkzRun_good (exactB (fun _ _ _ => 7) (fun _ _ _ => none) (fun _ _ => enumOrc 1 200) (fun _ _ => false) (fun _ _ => ⊤) 20 20 1 2 20 20)
    (d := 3) (n := 3) (by norm_num) 1 (⟨bs, false, false, none, false, false, false, id, 5⟩ : BKZ.Cfg (WithTop ℕ))
    (fun _ _ _ _ _ q hq => by simp [exactB, enumOrc] at hq)
  exact h

theorem exRun_good : GoodRun 3 3 (lllRun exWorld 3 3) := fun t call last inp => lllRun_trel exWorld (by norm_num) (by norm_num) t call last inp

/-- `C79_lattice_partial` applies to a call with LLL and `u` -/
example : seen (bkzReduction exCfg3 (lllRun exWorld 3 3) (exB 2) 100 ⟨1, false, none, 0⟩ 53 (fun _ _ => 0) lostB (some fun _ _ => 0)) =
    some (.success, [false, false], [0, 1, 0, 0, 0, 1, 1, 0, 0], some [-2 ^ 31, 1, 0, 3 * 2 ^ 61, -3 * 2 ^ 30, 1, 1, 0, 0]) := by decide +kernel

example : Adm 3 3 false 2 lostB ∧ GoodRun exCfg3.d exCfg3.n (lllRun exWorld 3 3) ∧ GoodBRun exCfg3.d exCfg3.n false 2 (exB 2) :=
  ⟨⟨fun h => absurd (congrFun (congrFun h 0) 0) (by decide), fun h => by cases h⟩, exRun_good, exB_good 2⟩

/-- `C79_hkz` applies to a call on `(100, 0, 0), (40, 200, 0), (-30, 101, 141)` -/
example : ∃ m mp, hkzReduction exCfg3 (lllRun exWorld 3 3) (exB 3) 100 none 0 53 (fun _ _ => 0) lastB = .ret .success false false m mp ∧
    [m.b 0 0, m.b 0 1, m.b 0 2, m.b 1 0, m.b 1 1, m.b 1 2, m.b 2 0, m.b 2 1, m.b 2 2] = [100, 0, 0, -30, 99, -141, -30, 101, 141] ∧
    HkzReduced 3 3 m.b (51 / 100) := by
  have h : seen (hkzReduction exCfg3 (lllRun exWorld 3 3) (exB 3) 100 none 0 53 (fun _ _ => 0) lastB) =
      some (.success, [false, false], [100, 0, 0, -30, 99, -141, -30, 101, 141], none) := by decide +kernel
  obtain ⟨m, mp, h1, h2, -⟩ := seen_some h
  refine ⟨m, mp, h1, h2, (C79_hkz (c := exCfg3) exRun_good (fun _ _ _ => rfl) (by decide) (by decide) (fun _ _ => ?_) (fun _ _ => ?_) rfl rfl
    100 none 0 53 (fun _ _ => 0) lastB last_indep h1).2⟩
  · exact ⟨⟨_, _, rfl⟩, by norm_num, by norm_num, enumOrc_runs (by norm_num) 200, fun _ => rfl, fun _ => rfl, rfl, rfl, rfl, by simp [exCfg3]⟩
  · exact ⟨rfl, fun t it h => by simp [enumOrc]; omega, rfl, tame_default⟩

end BkzTop
end Fplll

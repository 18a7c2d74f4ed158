import Verif.Props.LLLRoundOk
import Verif.Props.SiegelRound
import Verif.Props.Wrapper

/-!
# C85: `lll_reduction` succeeds

The public function `lll_reduction` with the method `LM_WRAPPER` (the default) or `LM_PROVED`.  The wrapper tries fast and heuristic runs first, about whose arithmetic nothing is assumed.  Its last run is a proved one in a type of at least `good_prec` bits, so that
C84 applies to it, whatever basis of the lattice the other runs left.
-/

namespace Fplll
namespace Wrapper

open Spec Gen GSO LLL ErrB

/-- numbers, their operations and the conversion from `double` -/
structure Num where
  F : Type
  ops : FloatOps F
  conv : ℚ → F

/-- the numbers of a type with a precision -/
def World.num (w : World) (ft : FT) (p : ℤ) : Num := ⟨w.F ft p, w.ops ft p, w.conv ft p⟩

/-- numbers that are rounded with `fl` after every operation -/
def Num.rounded (fl : ℚ → ℚ) : Num := ⟨Rd fl, inferInstance, fun q => Rd.of (fl q)⟩

/-- a run of LLL in the given numbers, cf. `lllRun` -/
def runIn (N : Num) (junkF : Mat N.F) (jz : Mat ℤ) (siegel early : Bool) (maxIter d n : ℕ) (call : Call) (last : ℤ) (inp : Triple) : LLLStatus × LLLState N.F :=
  letI := N.ops
  LLL.lll (LLL.mkCfg (N.conv call.delta) (N.conv call.eta) siegel early) (2 ^ 62) maxIter last.toNat
    (GSO.mk0 d n (decide (call.meth = .proved)) inp.u.isSome inp.v.isSome call.forceLong inp.b (inp.u.getD fun _ _ => 0) (inp.v.getD fun _ _ => 0) jz junkF) 0 0 d 0

theorem lllRun_runIn (w : World) (d n t : ℕ) (call : Call) (last : ℤ) (inp : Triple) :
    (lllRun w d n t call last inp).status = memberStatus .success (runIn (w.num call.ft call.prec) (w.junkF t call.ft call.prec) (w.junkZ t) w.siegel w.earlyRed (w.maxIter t inp) d n call last inp).1 ∧
    (lllRun w d n t call last inp).out.b = (runIn (w.num call.ft call.prec) (w.junkF t call.ft call.prec) (w.junkZ t) w.siegel w.earlyRed (w.maxIter t inp) d n call last inp).2.s.b := ⟨rfl, rfl⟩

/-- What is assumed about the world: every type of at least `good` bits represents `δ` and `η` and computes with relative errors of at most `2^-good` (overflow and underflow do not occur), and `lll` limits the number of iterations as in lll.cpp:69-70.
The other types may do anything. -/
structure Accurate0 (w : World) (c : Cfg) : Prop where
  num : ∀ ft p, c.goodPrec ≤ (fixedPrec c.bld ft).getD p →
    ∃ fl, Chol.RelErr (1 / 2 ^ c.goodPrec.toNat) fl ∧ fl c.delta = c.delta ∧ fl c.eta = c.eta ∧ w.num ft p = Num.rounded fl
  iter : ∀ t inp k, maxIterOf c.d (maxExp c.d c.n inp.b) (c.delta : ℝ) = some k → w.maxIter t inp = k.toNat

/-- the same, without `LLL_SIEGEL` -/
structure Accurate (w : World) (c : Cfg) : Prop extends Accurate0 w c where
  siegel : w.siegel = false

/-- What is assumed about the parameters: `good_prec` is the result of `l2_min_prec(d, δ, η, ε)`, computed with directed rounding and with logarithms that bound the true ones (`Wrapper` passes `LLL_DEF_EPSILON`, 0.01); `η - 1/2` is computed exactly as `1/2 ≤ η ≤ 1`. -/
structure Params (c : Cfg) (ε : ℚ) : Prop where
  dpos : 1 ≤ c.d
  npos : 1 ≤ c.n
  cols : c.n ≤ 2 ^ 14
  eta : 1 / 2 ≤ c.eta
  delta : c.delta < 1
  eps : ε ≤ 1 / 16
  prec : ∃ (A : Arith) (logU logD : ℚ → ℚ) (rho : ℚ), LogOK A logU logD ∧ A.rn (c.eta - 1 / 2) ≤ c.eta - 1 / 2 ∧ computeMinPrec A logU logD true c.d c.delta c.eta ε = .ok rho c.goodPrec
  getSi : ∀ x : ℤ, -2 ^ 63 ≤ x → x < 2 ^ 63 → c.getSi x = x

/-- the bit lengths stay below the range of `long`: `longMax` is `2^63 - 1`, so this only excludes integers that do not fit into memory -/
def Fits (c : Cfg) (b : Mat ℤ) : Prop := (maxExp c.d c.n b : ℤ) + c.goodPrec.toNat + c.n ≤ longMax

variable {w : World} {c : Cfg} {ε : ℚ}

/-- one proved run of sufficient precision -/
theorem run_ok (hw : Accurate0 w c) (hc : Params c ε) {call : Call} (h1 : call.meth = .proved) (h2 : call.delta = c.delta) (h3 : call.eta = c.eta) (h4 : call.forceLong = false) (h5 : c.goodPrec ≤ call.bits c.bld)
    {inp : Triple} (hind : Indep c.d c.n (basisQ inp.b)) (hfit : Fits c inp.b) (t : ℕ) (last : ℤ) :
    (lllRun w c.d c.n t call last inp).status = .success ∧
    RedBy w.siegel c.n c.d (basisQ (lllRun w c.d c.n t call last inp).out.b) (c.delta - (1 - c.delta) / 64) (c.eta + ε / 64) := by
  obtain ⟨fl, f1, f2, f3, f4⟩ := hw.num call.ft call.prec h5
  obtain ⟨A, logU, logD, rho, p1, p2, p3⟩ := hc.prec
  obtain ⟨r1, r2⟩ := lllRun_runIn w c.d c.n t call last inp
  rw [r1, r2]
  clear r1 r2
  generalize w.junkF t call.ft call.prec = jf
  change Mat (w.num call.ft call.prec).F at jf
  generalize w.num call.ft call.prec = N at *
  subst f4
  obtain ⟨k, k1, k2⟩ : ∃ k, maxIterOf c.d (maxExp c.d c.n inp.b) (c.delta : ℝ) = some k ∧
      (LLL.lll (LLL.mkCfg (Rd.of c.delta) (Rd.of c.eta) w.siegel w.earlyRed) (2 ^ 62) k.toNat last.toNat
        (GSO.mk0 c.d c.n true inp.u.isSome inp.v.isSome false inp.b (inp.u.getD fun _ _ => 0) (inp.v.getD fun _ _ => 0) (w.junkZ t) (jf : Mat (Rd fl))) 0 0 c.d 0).1 = .success ∧
      RedBy w.siegel c.n c.d (basisQ (LLL.lll (LLL.mkCfg (Rd.of c.delta) (Rd.of c.eta) w.siegel w.earlyRed) (2 ^ 62) k.toNat last.toNat
        (GSO.mk0 c.d c.n true inp.u.isSome inp.v.isSome false inp.b (inp.u.getD fun _ _ => 0) (inp.v.getD fun _ _ => 0) (w.junkZ t) (jf : Mat (Rd fl))) 0 0 c.d 0).2.s.b) (c.delta - (1 - c.delta) / 64) (c.eta + ε / 64) := by
    have hx : ((maxExp c.d c.n inp.b + c.goodPrec.toNat + c.n : ℕ) : ℤ) ≤ longMax := by unfold Fits at hfit; push_cast; exact hfit
    unfold RedBy
    cases w.siegel with
    | false =>
      obtain ⟨k, k1, k2, -, k3⟩ := C84_l2 f1 p1 hc.eta hc.delta hc.eps p2 p3 (Int.self_le_toNat _) hc.npos hc.cols hc.dpos hind hx
        inp.u.isSome inp.v.isSome w.earlyRed (inp.u.getD fun _ _ => 0) (inp.v.getD fun _ _ => 0) (w.junkZ t) jf (2 ^ 62) last.toNat le_rfl
      exact ⟨k, k1, k2, k3.1, k3.2⟩
    | true =>
      obtain ⟨k, k1, k2, -, k3, k4⟩ := C92_mkCfg f1 p1 hc.eta hc.delta hc.eps p2 p3 (Int.self_le_toNat _) hc.npos hc.cols hc.dpos hind hx
        inp.u.isSome inp.v.isSome w.earlyRed (inp.u.getD fun _ _ => 0) (inp.v.getD fun _ _ => 0) (w.junkZ t) jf (2 ^ 62) last.toNat le_rfl
      exact ⟨k, k1, k2, k3, k4⟩
  rw [hw.iter t inp k k1]
  unfold runIn
  rw [h1, h2, h3, h4]
  have e1 : (Num.rounded fl).conv c.delta = (Rd.of c.delta : Rd fl) := congrArg Rd.of f2
  have e2 : (Num.rounded fl).conv c.eta = (Rd.of c.eta : Rd fl) := congrArg Rd.of f3
  rw [e1, e2]
  refine ⟨?_, k2.2⟩
  have := k2.1
  show memberStatus .success _ = _
  refine Eq.trans (congrArg (memberStatus .success) this) rfl

theorem redBy_congr {sg : Bool} {n d : ℕ} {B B' : ℕ → ℕ → ℚ} {δ η : ℚ} (h : RedBy sg n d B δ η) (he : ∀ i < d, ∀ j < n, B i j = B' i j) : RedBy sg n d B' δ η := by
  have hm : ∀ i < d, ∀ j < i, muS n B i j = muS n B' i j := fun i hi j hj => muS_congr (fun k hk => he k (by omega)) (he i hi)
  have hn : ∀ i < d, normStar n B i = normStar n B' i := fun i hi => normStar_congr fun k hk => he k (by omega)
  obtain ⟨h1, h2⟩ := h
  refine ⟨fun i hi j hj => ?_, ?_⟩
  · rw [← hm i hi j hj]; exact h1 i hi j hj
  · cases sg with
    | false =>
      intro i hi
      rw [← hn i (by omega), ← hn (i + 1) hi, ← hm (i + 1) hi i (by omega)]; exact h2 i hi
    | true =>
      intro i hi
      rw [← hn i (by omega), ← hn (i + 1) hi]; exact h2 i hi

/-- without zero rows nothing is moved -/
theorem zerosFirst_of_indep {d n : ℕ} {t : Triple} (hd : 1 ≤ d) (hind : Indep d n (basisQ t.b)) : zerosFirst d n t = t := by
  obtain ⟨l1, l2, -⟩ := lastNonzero_spec n t.b d
  have : lastNonzero n t.b d = d := by
    by_contra hne
    have hz := (rowZero_iff _ _).1 (l2 (d - 1) (by omega) (by omega))
    have hp := hind (fun i => if i = d - 1 then 1 else 0) (fun j hj => by
      unfold lc
      simp only [ite_mul, one_mul, zero_mul, Finset.sum_ite_eq', Finset.mem_range]
      rw [if_pos (by omega)]
      unfold basisQ
      rw [hz j hj]; rfl) (d - 1) (by omega)
    simp at hp
  unfold zerosFirst rotateAll
  rw [this, if_neg (by omega)]

theorem TRel.lattice_eq {d n : ℕ} {t t' : Triple} (h : TRel d n t t') : lattice (toM d n t'.b) = lattice (toM d n t.b) := by
  obtain ⟨-, -, T, T', h3, h4, h5, -⟩ := h
  rw [h5]
  exact lattice_mul ⟨T', h3, h4⟩ _

/-- **C92 (the wrapper).**  Whatever the fast and heuristic runs do, `lll_reduction_wrapper` succeeds on linearly independent vectors and leaves a reduced basis, with or without `LLL_SIEGEL`. -/
theorem C92_wrapper (hw : Accurate0 w c) (hc : Params c ε) {m : Triple} (hind : Indep c.d c.n (basisQ m.b)) (junk : Mat ℤ) (fuel : ℕ) (hf : c.goodPrec.toNat + 2 ≤ fuel)
    (hfit : ∀ r, lll c (lllRun w c.d c.n) fuel (mk c m junk) = some r → ∀ e ∈ r.2.log, Fits c e.inp.b) :
    ∃ m', lllReductionWrapper c (lllRun w c.d c.n) fuel m junk = some (.success, m') ∧ TRel c.d c.n m m' ∧
      RedBy w.siegel c.n c.d (basisQ m'.b) (c.delta - (1 - c.delta) / 64) (c.eta + ε / 64) := by
  have hd := hc.dpos
  have hn := hc.npos
  have hr : GoodRun c.d c.n (lllRun w c.d c.n) := fun t call last inp => lllRun_trel w hd hn t call last inp
  obtain ⟨q, hq⟩ := C27_stops (c := c) (run := lllRun w c.d c.n) fuel m junk hf
  unfold lllReductionWrapper at hq ⊢
  rw [Option.map_eq_some_iff] at hq
  obtain ⟨r, h1, -⟩ := hq
  have hT := lll_inv hr hc.getSi fuel junk r h1
  obtain ⟨e, es, l1, l2, l3, l4, l5, l6, l7, -, -, -, -, l8, t, last, l9⟩ := C27_last_run (by omega) (by omega) fuel m junk r h1
  have hi1 : Indep c.d c.n (basisQ r.2.m.b) := Indep.of_lattice hind hT.lattice_eq
  have hcorner : toM c.d c.n r.2.m.b = toM c.d c.n e.res.out.b := by
    ext i j; exact l7 i i.2 j j.2
  have hi2 : Indep c.d c.n (basisQ e.inp.b) := by
    refine Indep.of_lattice hi1 ?_
    rw [hcorner, l9]
    exact (hr t e.call last e.inp).lattice_eq.symm
  obtain ⟨k1, k2⟩ := run_ok hw hc l3 l4 l5 l8 l6 hi2 (hfit r h1 e (by rw [l1]; exact List.mem_cons_self)) t last
  rw [← l9] at k1 k2
  rw [h1]
  refine ⟨r.2.m, ?_, hT, redBy_congr k2 fun i hi j hj => ?_⟩
  · show some (r.2.status, zerosFirst c.d c.n r.2.m) = _
    rw [zerosFirst_of_indep hd hi1, l2, k1]
  · unfold basisQ; rw [l7 i hi j hj]

/-- **C85 (the wrapper).**  Whatever the fast and heuristic runs do, `lll_reduction_wrapper` succeeds on linearly independent vectors and leaves a reduced basis. -/
theorem C85_wrapper (hw : Accurate w c) (hc : Params c ε) {m : Triple} (hind : Indep c.d c.n (basisQ m.b)) (junk : Mat ℤ) (fuel : ℕ) (hf : c.goodPrec.toNat + 2 ≤ fuel)
    (hfit : ∀ r, lll c (lllRun w c.d c.n) fuel (mk c m junk) = some r → ∀ e ∈ r.2.log, Fits c e.inp.b) :
    ∃ m', lllReductionWrapper c (lllRun w c.d c.n) fuel m junk = some (.success, m') ∧ TRel c.d c.n m m' ∧
      LLLReduced c.n c.d (basisQ m'.b) (c.delta - (1 - c.delta) / 64) (c.eta + ε / 64) := by
  obtain ⟨m', k1, k2, k3, k4⟩ := C92_wrapper hw.toAccurate0 hc hind junk fuel hf hfit
  rw [hw.siegel] at k4
  exact ⟨m', k1, k2, k3, k4⟩

/-- the choices to which the guarantee applies: the wrapper, or one run of the proved method with at least `good_prec` bits -/
def Guaranteed (c : Cfg) (a : Args) : Prop :=
  lllChoice c.bld c.goodPrec a = .wrapper ∨ a.meth = .proved ∧ ∃ ft p, lllChoice c.bld c.goodPrec a = .single ft p ∧ c.goodPrec ≤ p

/-- **C92 (end to end).**  C85 with or without `LLL_SIEGEL`: with the flag the basis returned is size-reduced and satisfies Siegel's condition with `δ' - η'²`, for the same `δ'` and `η'`. -/
theorem C92_lll_reduction (hw : Accurate0 w c) (hc : Params c ε) {m : Triple} (hind : Indep c.d c.n (basisQ m.b)) {a : Args} (ha : Guaranteed c a) (hm : Fits c m.b) (junk : Mat ℤ) (fuel : ℕ) (hf : c.goodPrec.toNat + 2 ≤ fuel)
    (hfit : a.meth = .wrapper → ∀ r, lll c (lllRun w c.d c.n) fuel (mk c ⟨m.b, identityIf m.u, (identityIf m.v).map transposeMat⟩ junk) = some r → ∀ e ∈ r.2.log, Fits c e.inp.b) :
    ∃ m', lllReduction c (lllRun w c.d c.n) fuel a m junk = .done (.success, m') ∧ Reduced c.d c.n m.b m'.b m'.u m'.v ∧
      RedBy w.siegel c.n c.d (basisQ m'.b) (c.delta - (1 - c.delta) / 64) (c.eta + ε / 64) := by
  have hd := hc.dpos
  have hn := hc.npos
  have main : ∃ m', lllReductionZ c (lllRun w c.d c.n) fuel a ⟨m.b, identityIf m.u, (identityIf m.v).map transposeMat⟩ junk = .done (.success, m') ∧
      RedBy w.siegel c.n c.d (basisQ m'.b) (c.delta - (1 - c.delta) / 64) (c.eta + ε / 64) := by
    unfold lllReductionZ
    rcases ha with ha | ⟨ha, ft, p, hch, hp⟩
    · have hmeth : a.meth = .wrapper := by
        by_contra hne
        unfold lllChoice select at ha
        rw [if_neg hne] at ha
        dsimp only at ha
        repeat' split at ha
        all_goals cases ha
      obtain ⟨m', k1, -, k3⟩ := C92_wrapper (m := ⟨m.b, identityIf m.u, (identityIf m.v).map transposeMat⟩) hw hc hind junk fuel hf (hfit hmeth)
      rw [ha]
      dsimp only
      rw [k1]
      exact ⟨m', rfl, k3⟩
    · rw [hch]
      dsimp only
      unfold lllReductionZf
      rw [if_neg (by omega)]
      have hbits : c.goodPrec ≤ Call.bits c.bld ⟨a.zt, ft, a.meth, if ft = .mpfr then p else 0, c.delta, c.eta, decide (a.meth = .fast)⟩ := by
        obtain ⟨-, -, -, q4, -⟩ := C48_as_requested c.bld c.goodPrec a ft p (.inl hch)
        unfold Call.bits
        dsimp only
        cases hfp : fixedPrec c.bld ft with
        | none =>
          have : ft = .mpfr := by cases ft <;> first | rfl | cases hfp
          rw [if_pos this]; exact hp
        | some v => rw [← q4 v hfp]; exact hp
      obtain ⟨k1, k2⟩ := run_ok (inp := ⟨m.b, identityIf m.u, (identityIf m.v).map transposeMat⟩) (call := ⟨a.zt, ft, a.meth, if ft = .mpfr then p else 0, c.delta, c.eta, decide (a.meth = .fast)⟩) hw hc ha rfl rfl (by rw [ha]; rfl) hbits hind hm 0 0
      have hl := (lllRun_trel w hd hn 0 ⟨a.zt, ft, a.meth, if ft = .mpfr then p else 0, c.delta, c.eta, decide (a.meth = .fast)⟩ 0 ⟨m.b, identityIf m.u, (identityIf m.v).map transposeMat⟩).lattice_eq
      dsimp only
      rw [k1, zerosFirst_of_indep hd (Indep.of_lattice hind hl)]
      exact ⟨_, rfl, k2⟩
  obtain ⟨m', h1, h2⟩ := main
  have h3 : lllReduction c (lllRun w c.d c.n) fuel a m junk = .done (.success, ⟨m'.b, m'.u, m'.v.map transposeMat⟩) := by
    unfold lllReduction
    rw [h1]
  exact ⟨_, h3, C53_lll_reduction w hd hn hc.getSi fuel a m junk _ _ h3, h2⟩

/-- **C85.**  A call of `lll_reduction` with linearly independent rows, for the wrapper or the proved method with a precision of at least `good_prec`, returns `RED_SUCCESS`, and the rows are then a basis of the same lattice that is exactly
`(δ - (1-δ)/64, η + ε/64)`-LLL-reduced; `u` and `u_inv`, if requested, are the transformation and its inverse.  Nothing is assumed about the arithmetic of the types with less than `good_prec` bits, that is about the results of the fast and heuristic runs, except that they do not
produce integers which do not fit into memory (`hfit`, only needed for the wrapper). -/
theorem C85_lll_reduction (hw : Accurate w c) (hc : Params c ε) {m : Triple} (hind : Indep c.d c.n (basisQ m.b)) {a : Args} (ha : Guaranteed c a) (hm : Fits c m.b) (junk : Mat ℤ) (fuel : ℕ) (hf : c.goodPrec.toNat + 2 ≤ fuel)
    (hfit : a.meth = .wrapper → ∀ r, lll c (lllRun w c.d c.n) fuel (mk c ⟨m.b, identityIf m.u, (identityIf m.v).map transposeMat⟩ junk) = some r → ∀ e ∈ r.2.log, Fits c e.inp.b) :
    ∃ m', lllReduction c (lllRun w c.d c.n) fuel a m junk = .done (.success, m') ∧ Reduced c.d c.n m.b m'.b m'.u m'.v ∧
      LLLReduced c.n c.d (basisQ m'.b) (c.delta - (1 - c.delta) / 64) (c.eta + ε / 64) := by
  obtain ⟨m', k1, k2, k3, k4⟩ := C92_lll_reduction hw.toAccurate0 hc hind ha hm junk fuel hf hfit
  rw [hw.siegel] at k4
  exact ⟨m', k1, k2, k3, k4⟩

/-- **C85 (the default).**  With the default floating-point type and precision the guarantee applies to the wrapper and to the proved method (without `LLL_EARLY_RED`). -/
theorem C85_default (a : Args) (hft : a.ft = none) (hp : a.prec = 0) (h : (a.meth = .wrapper ∧ a.zt = .mpz) ∨ (a.meth = .proved ∧ a.earlyRed = false)) : Guaranteed c a := by
  rcases h with ⟨h1, h2⟩ | ⟨h1, h2⟩
  · left
    unfold lllChoice
    rw [if_pos h1, if_pos ⟨h2, hft, hp⟩]
  · right
    obtain ⟨ft, p, k1, -, -, k4⟩ := C48_default c.bld c.goodPrec a hft hp (by rw [h1]; decide) (by rw [h2]; simp)
    exact ⟨h1, ft, p, k1, k4 h1⟩

/-! ## Example: a world where `double`, `long double` and `dpe_t` only have NaNs -/

/-- numbers that are all NaN -/
@[instance_reducible] def nanOps : FloatOps Unit where
  ofInt := fun _ => ()
  nan := ()
  add := fun _ _ => ()
  sub := fun _ _ => ()
  mul := fun _ _ => ()
  div := fun _ _ => ()
  neg := fun _ => ()
  abs := fun _ => ()
  rnd := fun _ => ()
  gt := fun _ _ => false
  isFinite := fun _ => false
  isNan := fun _ => true
  isZero := fun _ => false
  exponent := fun _ => 0
  getSiExp := fun _ => (0, 0)
  getZExp := fun _ => (0, 0)

section
variable {F : Type} [FloatOps F]

theorem babai_frozen (hgt : ∀ x y : F, FloatOps.gt x y = false) (c : LLLCfg F) (fuel : ℕ) (s : GSO F) (kappa stop start : ℕ) : (babai c fuel s kappa stop start).2.b = s.b := by
  unfold babai
  cases fuel with
  | zero => rfl
  | succ fuel =>
    unfold babaiLoop
    dsimp only
    have hl : loopNeeded c (s.updateGsoRow kappa stop).2 kappa start stop = false := by
      unfold loopNeeded
      generalize (s.updateGsoRow kappa stop).2 = s'
      induction stop with
      | zero => rfl
      | succ n ih =>
        unfold forDown
        dsimp only
        rw [hgt, Bool.or_false]
        split_ifs
        · exact ih
        · rfl
    rw [hl]
    split_ifs <;> first | exact updateGsoRow_b _ _ _ | simp_all

theorem lll_frozen (hgt : ∀ x y : F, FloatOps.gt x y = false) (c : LLLCfg F) (hc : c.earlyRedFlag = false) (fuel K last : ℕ) (s : GSO F) (d : ℕ) (h0 : rowIsZero s 0 = false) : (LLL.lll c fuel K last s 0 0 d 0).2.s.b = s.b := by
  have hz : ∀ n, zeroLoop 0 d n 0 s = (0, s) := by
    intro n
    cases n with
    | zero => rfl
    | succ n => unfold zeroLoop; rw [h0]; rfl
  have hm : ∀ n (st : LLLState F), (mainLoop c fuel 0 d 0 n st).2.s.b = st.s.b := by
    intro n
    induction n with
    | zero => intro st; rfl
    | succ n ih =>
      intro st
      unfold mainLoop
      have hd1 : (discoverStep c fuel 0 st).2.s = st.s := by
        unfold discoverStep
        rw [hc]
        split_ifs <;> first | rfl | simp_all
      dsimp only
      split_ifs with h1 h2 h3
      · rw [hd1]
      · dsimp only; rw [babai_frozen hgt, hd1]
      · rw [ih]
        unfold lovaszStep
        dsimp only
        rw [hgt, if_neg (by decide)]
        show (babai c fuel (discoverStep c fuel 0 st).2.s _ _ 0).2.b = _
        rw [babai_frozen hgt, hd1]
      · rfl
  have hs : ∀ p : LLLStatus × GSO F, p.2.b = s.b → ∀ st : LLLState F, (lllTail c fuel K 0 d 0 st p).2.s.b = s.b := by
    intro p hp st
    unfold lllTail
    split_ifs
    · exact hp
    · unfold lllFinish
      split_ifs <;> exact (hm K { st with s := p.2 }).trans hp
  unfold LLL.lll
  rw [hz]
  dsimp only
  refine hs _ ?_ _
  split_ifs
  · unfold startStep startTail
    dsimp only
    split_ifs <;> first | exact updateGsoRow_b _ _ _ | simp_all
  · rfl
end

theorem runIn_frozen (N : Num) (hgt : ∀ x y, N.ops.gt x y = false) (jf : Mat N.F) (jz : Mat ℤ) (siegel : Bool) {early : Bool} (he : early = false) (K d n : ℕ) (call : Call) (last : ℤ) (inp : Triple) (hn : 1 ≤ n) (h0 : inp.b 0 0 ≠ 0) :
    (runIn N jf jz siegel early K d n call last inp).2.s.b = inp.b := by
  subst he
  let := N.ops
  unfold runIn
  obtain ⟨-, hb, -, -, -, hc, -⟩ := mk0_wf d n (decide (call.meth = .proved)) inp.u.isSome inp.v.isSome call.forceLong inp.b (inp.u.getD fun _ _ => 0) (inp.v.getD fun _ _ => 0) jz jf hn
  generalize mk0 d n (decide (call.meth = .proved)) inp.u.isSome inp.v.isSome call.forceLong inp.b (inp.u.getD fun _ _ => 0) (inp.v.getD fun _ _ => 0) jz jf = s at *
  generalize (2 ^ 62 : ℕ) = fuel
  refine (lll_frozen hgt _ rfl fuel K last.toNat s d ?_).trans hb
  refine decide_eq_false fun h => h0 ?_
  rw [← hb]
  exact h 0 (by omega)

theorem lllRun_frozen (w : World) (he : w.earlyRed = false) (d n t : ℕ) (call : Call) (hgt : ∀ x y, (w.ops call.ft call.prec).gt x y = false) (last : ℤ) (inp : Triple) (hn : 1 ≤ n) (h0 : inp.b 0 0 ≠ 0) :
    (lllRun w d n t call last inp).out.b = inp.b :=
  (lllRun_runIn w d n t call last inp).2.trans (runIn_frozen (w.num call.ft call.prec) hgt _ _ _ he _ d n call last inp hn h0)

/-- 48 linearly independent vectors -/
def triB : Mat ℤ := fun i j => if i = j then 5 else if j < i then (i + 2 * j) % 7 - 3 else 0

noncomputable def nanWorldS (sg : Bool) : World where
  F := fun ft _ => match ft with
    | .double => Unit
    | .longDouble => Unit
    | .dpe => Unit
    | _ => Rd id
  ops := fun ft _ => match ft with
    | .double => nanOps
    | .longDouble => nanOps
    | .dpe => nanOps
    | .dd => inferInstanceAs (FloatOps (Rd id))
    | .qd => inferInstanceAs (FloatOps (Rd id))
    | .mpfr => inferInstanceAs (FloatOps (Rd id))
  conv := fun ft _ q => match ft with
    | .double => ()
    | .longDouble => ()
    | .dpe => ()
    | .dd => Rd.of q
    | .qd => Rd.of q
    | .mpfr => Rd.of q
  maxIter := fun _ inp => ((maxIterOf 48 (maxExp 48 48 inp.b) (((99 / 100 : ℚ)) : ℝ)).getD 0).toNat
  junkZ := fun _ _ _ => 7
  junkF := fun _ ft _ _ _ => match ft with
    | .double => ()
    | .longDouble => ()
    | .dpe => ()
    | .dd => Rd.of 3
    | .qd => Rd.of 3
    | .mpfr => Rd.of 3
  earlyRed := false
  siegel := sg

noncomputable abbrev nanWorld : World := nanWorldS false

def triCfg (good : ℤ) : Cfg :=
  { bld := ⟨true, true, true, true, 64⟩, d := 48, n := 48, slack := 6, delta := 99 / 100, eta := 51 / 100, goodPrec := good
    little := fun _ _ => false, getSi := id }

/-- `l2_min_prec` without rounding, with coarse logarithms -/
theorem tri_params : ∃ good, 64 < good ∧ good < 5000 ∧ Params (triCfg good) (1 / 100) := by
  let A : Arith := ⟨id, id, id, id⟩
  let logU : ℚ → ℚ := fun t => ⌈Real.log t⌉
  let logD : ℚ → ℚ := fun t => ⌊Real.log t * 2⌋ / 2
  have h2 : logD 2 = 1 / 2 := by
    have : ⌊Real.log ((2 : ℚ) : ℝ) * 2⌋ = 1 := by
      rw [Int.floor_eq_iff]
      have := Real.log_two_gt_d9
      have := Real.log_two_lt_d9
      push_cast
      constructor <;> linarith
    show ((⌊Real.log ((2 : ℚ) : ℝ) * 2⌋ : ℤ) : ℚ) / 2 = 1 / 2
    rw [this]; norm_num
  have hA : LogOK A logU logD := by
    refine ⟨fun _ => le_rfl, fun _ => le_rfl, fun t _ => ?_, fun t _ => ?_, by rw [h2]; norm_num⟩
    · show Real.log t ≤ ((⌈Real.log t⌉ : ℚ) : ℝ)
      push_cast
      exact Int.le_ceil _
    · show (((⌊Real.log t * 2⌋ : ℚ) / 2 : ℚ) : ℝ) ≤ Real.log t
      push_cast
      have := Int.floor_le (Real.log t * 2)
      linarith
  have he : epsUsed A true (99 / 100) (51 / 100) (1 / 100) = 1 / 100 := by
    unfold epsUsed
    show (if (1 - 99 / 100 : ℚ) < (if (51 / 100 - 1 / 2 : ℚ) < 1 / 100 then 51 / 100 - 1 / 2 else 1 / 100) then _ else _) = _
    norm_num
    exact fun h => absurd h (lt_irrefl _)
  have hden : rhoDen A (99 / 100) (51 / 100) = 7299 / 10000 := by
    show (99 / 100 - 51 / 100 * (51 / 100) : ℚ) = _
    norm_num
  have hrho : rhoOf A (99 / 100) (51 / 100) (1 / 100) = 22901 / 7299 := by
    show (((51 / 100 + 1) * (51 / 100 + 1) + 1 / 100) / rhoDen A (99 / 100) (51 / 100) : ℚ) = _
    rw [hden]; norm_num
  have hc : computeMinPrec A logU logD true 48 (99 / 100) (51 / 100) (1 / 100) = .ok (22901 / 7299) ⌈fMinPrec A logU logD true 48 (1 / 100) (22901 / 7299)⌉ := by
    unfold computeMinPrec
    dsimp only
    rw [he, hden, hrho, if_neg (by norm_num), if_neg (by norm_num)]
  have hf : fMinPrec A logU logD true 48 (1 / 100) (22901 / 7299) = (2 * logU 48 - logD (1 / 100) + 48 * logU (22901 / 7299)) / logD 2 + 10 := rfl
  have l1 : logU 48 ≤ 5 := by
    have : ⌈Real.log ((48 : ℚ) : ℝ)⌉ ≤ 5 := by
      rw [Int.ceil_le]
      push_cast
      refine (Real.log_le_log (by norm_num) (show (48 : ℝ) ≤ 2 ^ 6 by norm_num)).trans ?_
      rw [Real.log_pow]
      have := Real.log_two_lt_d9
      push_cast
      linarith
    show ((⌈Real.log ((48 : ℚ) : ℝ)⌉ : ℤ) : ℚ) ≤ 5
    exact_mod_cast this
  have l2 : logU (22901 / 7299) ≤ 3 := by
    have : ⌈Real.log ((22901 / 7299 : ℚ) : ℝ)⌉ ≤ 3 := by
      rw [Int.ceil_le]
      have := Real.log_le_sub_one_of_pos (x := ((22901 / 7299 : ℚ) : ℝ)) (by norm_num)
      push_cast at this ⊢
      linarith
    show ((⌈Real.log ((22901 / 7299 : ℚ) : ℝ)⌉ : ℤ) : ℚ) ≤ 3
    exact_mod_cast this
  have l3 : -99 ≤ logD (1 / 100) := by
    have : -198 ≤ ⌊Real.log ((1 / 100 : ℚ) : ℝ) * 2⌋ := by
      rw [Int.le_floor]
      have := Real.one_sub_inv_le_log_of_pos (x := ((1 / 100 : ℚ) : ℝ)) (by norm_num)
      push_cast at this ⊢
      norm_num at this ⊢
      linarith
    have h' : (-198 : ℚ) ≤ ((⌊Real.log ((1 / 100 : ℚ) : ℝ) * 2⌋ : ℤ) : ℚ) := by exact_mod_cast this
    show -99 ≤ ((⌊Real.log ((1 / 100 : ℚ) : ℝ) * 2⌋ : ℤ) : ℚ) / 2
    linarith
  refine ⟨⌈fMinPrec A logU logD true 48 (1 / 100) (22901 / 7299)⌉, ?_, ?_, ⟨by decide, by decide, by decide, by norm_num [triCfg], by norm_num [triCfg], by norm_num, ?_, fun _ _ _ => rfl⟩⟩
  · by_contra hle
    have e := enoughL2_of_minPrec hA (by norm_num) (by norm_num) (by norm_num) hc (P := 64) (by push_cast; omega)
    have := e.prec
    rw [he] at this
    norm_num at this
  · have : ⌈fMinPrec A logU logD true 48 (1 / 100) (22901 / 7299)⌉ ≤ 4999 := by
      rw [Int.ceil_le, hf, h2]
      push_cast
      linarith
    omega
  · exact ⟨A, logU, logD, _, hA, le_rfl, hc⟩

theorem tri_accurate0 {sg : Bool} {good : ℤ} (h : 64 < good) : Accurate0 (nanWorldS sg) (triCfg good) where
  num := by
    intro ft p hp
    have hid : Chol.RelErr (1 / 2 ^ (triCfg good).goodPrec.toNat) id := fun x => by
      rw [id, sub_self, abs_zero]; positivity
    have h1 : ∀ q : ℤ, q ≤ 64 → ¬ (triCfg good).goodPrec ≤ q := fun q hq h' => by
      have : good ≤ q := h'
      omega
    cases ft with
    | double => exact absurd hp (h1 _ (show (53 : ℤ) ≤ 64 by norm_num))
    | longDouble => exact absurd hp (h1 _ (le_refl (64 : ℤ)))
    | dpe => exact absurd hp (h1 _ (show (53 : ℤ) ≤ 64 by norm_num))
    | dd => exact ⟨id, hid, rfl, rfl, rfl⟩
    | qd => exact ⟨id, hid, rfl, rfl, rfl⟩
    | mpfr => exact ⟨id, hid, rfl, rfl, rfl⟩
  iter := by
    intro t inp k hk
    have hk' : maxIterOf 48 (maxExp 48 48 inp.b) (((99 / 100 : ℚ)) : ℝ) = some k := hk
    show ((maxIterOf 48 (maxExp 48 48 inp.b) (((99 / 100 : ℚ)) : ℝ)).getD 0).toNat = _
    rw [hk']; rfl

theorem tri_accurate {good : ℤ} (h : 64 < good) : Accurate nanWorld (triCfg good) := { tri_accurate0 h with siegel := rfl }

theorem triB_indep : Indep 48 48 (basisQ triB) := by
  refine tri_indep (m' := triB) (fun i _ => by unfold triB; rw [if_pos rfl]; decide) fun i _ j _ hij => ?_
  unfold triB
  rw [if_neg (by omega), if_neg (by omega)]

theorem maxExp_le {d n K : ℕ} {b : Mat ℤ} (h : ∀ i < d, ∀ j < n, |b i j| < 2 ^ K) : maxExp d n b ≤ K := by
  unfold maxExp
  refine forUp_inv' (fun e => e ≤ K) _ _ _ _ (Nat.zero_le _) fun i e _ hi he => forUp_inv' (fun e => e ≤ K) _ _ _ _ he fun j e _ hj he => ?_
  refine max_le he (Nat.size_le.2 ?_)
  have := h i hi j hj
  zify
  exact this

theorem triB_small (i j : ℕ) : |triB i j| < 2 ^ 3 := by
  unfold triB
  rw [abs_lt]
  split_ifs <;> constructor <;> omega

/-- no run of the wrapper sees a long integer -/
theorem tri_fits {sg : Bool} {good : ℤ} (h : good < 5000) (junk : Mat ℤ) (fuel : ℕ) (r : Bool × St)
    (hr : lll (triCfg good) (lllRun (nanWorldS sg) 48 48) fuel (mk (triCfg good) ⟨triB, none, none⟩ junk) = some r) : ∀ e ∈ r.2.log, Fits (triCfg good) e.inp.b := by
  have key : ∀ b : Mat ℤ, (∀ i < 48, ∀ j < 48, b i j = triB i j) → Fits (triCfg good) b := by
    intro b hb
    have h1 : maxExp 48 48 b ≤ 3 := maxExp_le fun i hi j hj => by rw [hb i hi j hj]; exact triB_small i j
    unfold Fits
    show (maxExp 48 48 b : ℤ) + good.toNat + 48 ≤ longMax
    unfold longMax
    omega
  have hme : maxExp 48 48 triB ≤ 3 := maxExp_le fun i _ j _ => triB_small i j
  have hheur : heurLong (triCfg good) (mk (triCfg good) ⟨triB, none, none⟩ junk) = true := by
    show (true && decide (((maxExp 48 48 triB : ℕ) : ℤ) + 6 < longDigits - 2) && true && true) = true
    have : ((maxExp 48 48 triB : ℕ) : ℤ) + 6 < longDigits - 2 := by unfold longDigits; omega
    rw [decide_eq_true this]; rfl
  rw [lll_eq (by show (48 : ℕ) ≠ 0; decide) (by show (48 : ℕ) ≠ 0; decide), Option.map_eq_some_iff] at hr
  obtain ⟨st1, h1, rfl⟩ := hr
  unfold before at h1
  rw [if_pos hheur] at h1
  cases h1
  have hst : setUseLong (triCfg good) true (mk (triCfg good) ⟨triB, none, none⟩ junk) =
      { mk (triCfg good) ⟨triB, none, none⟩ junk with bLong := copyMat (triCfg good) id triB junk, useLong := true } := rfl
  have hb0 : ∀ i < 48, ∀ j < 48, (setUseLong (triCfg good) true (mk (triCfg good) ⟨triB, none, none⟩ junk)).bLong i j = triB i j := by
    intro i hi j hj
    rw [hst]
    dsimp only
    rw [copyMat_apply, if_pos ⟨hi, hj⟩]
    rfl
  have hl0 : (setUseLong (triCfg good) true (mk (triCfg good) ⟨triB, none, none⟩ junk)).useLong = true ∧ (setUseLong (triCfg good) true (mk (triCfg good) ⟨triB, none, none⟩ junk)).log = [] := by
    rw [hst]
    exact ⟨rfl, rfl⟩
  clear hst
  generalize setUseLong (triCfg good) true (mk (triCfg good) ⟨triB, none, none⟩ junk) = st0 at *
  unfold heuristicLll
  obtain ⟨e, e1, e2, e3, e4, e5, e6, e7, e8, -⟩ := callLll_log (run := lllRun (nanWorldS sg) 48 48) ⟨.long, .double, .heuristic, 0, (triCfg good).delta, (triCfg good).eta, decide ((0 : ℤ) = 0)⟩ st0
  generalize (callLll (lllRun (nanWorldS sg) 48 48) ⟨.long, .double, .heuristic, 0, (triCfg good).delta, (triCfg good).eta, decide ((0 : ℤ) = 0)⟩ st0).2 = st1 at *
  rw [if_pos rfl] at e4 e7
  have hout : e.res.out.b = st0.bLong := by
    rw [e5, e4]
    rw [lllRun_frozen _ rfl _ _ _ _ (fun _ _ => rfl) _ _ (by norm_num)]
    dsimp only
    rw [hb0 0 (by norm_num) 0 (by norm_num)]
    decide
  have hprov : provLong (triCfg good) (mk (triCfg good) ⟨triB, none, none⟩ junk) = true := by
    show (true && decide (2 * (((maxExp 48 48 triB : ℕ) : ℤ) + 6) < longDigits - 2) && true && true) = true
    have : 2 * (((maxExp 48 48 triB : ℕ) : ℤ) + 6) < longDigits - 2 := by unfold longDigits; omega
    rw [decide_eq_true this]; rfl
  rw [hprov]
  have hu1 : st1.useLong = true := e8.trans hl0.1
  obtain ⟨s1, -, -, -⟩ := setUseLong_log (c := triCfg good) true st1
  have s2 : (setUseLong (triCfg good) true st1).bLong = st1.bLong ∧ (setUseLong (triCfg good) true st1).useLong = true := by
    unfold setUseLong
    rw [hu1]
    exact ⟨rfl, rfl⟩
  generalize setUseLong (triCfg good) true st1 = st2 at *
  obtain ⟨call, st', l1, -, -, -, -, l6, ⟨me, rfl⟩, -⟩ := lastLll_eq (c := triCfg good) (run := lllRun (nanWorldS sg) 48 48) st2
  rw [s2.2, if_pos rfl] at l6
  rw [l1]
  obtain ⟨f, f1, -, -, f4, -⟩ := callLll_log (run := lllRun (nanWorldS sg) 48 48) call { st2 with maxExponent := me }
  rw [if_pos l6] at f4
  dsimp only
  rw [(setUseLong_log (c := triCfg good) false _).1, f1]
  dsimp only
  rw [s1, e1, hl0.2]
  intro x hx
  simp only [List.mem_cons, List.not_mem_nil, or_false] at hx
  rcases hx with rfl | rfl
  · refine key _ fun i hi j hj => ?_
    rw [f4]
    dsimp only
    rw [s2.1, e7, hout]
    exact hb0 i hi j hj
  · refine key _ fun i hi j hj => ?_
    rw [e4]
    exact hb0 i hi j hj

/-- with NaNs in place of all `double` numbers, the wrapper still reduces the 48 vectors -/
example : ∃ good m', lllReduction (triCfg good) (lllRun nanWorld 48 48) 5002 ⟨.wrapper, .mpz, none, 0, false⟩ ⟨triB, none, none⟩ (fun _ _ => 9) = .done (.success, m') ∧
    LLLReduced 48 48 (basisQ m'.b) (99 / 100 - (1 - 99 / 100) / 64) (51 / 100 + 1 / 100 / 64) := by
  obtain ⟨good, h1, h2, hp⟩ := tri_params
  have hm : Fits (triCfg good) triB := by
    unfold Fits
    have h1 : maxExp 48 48 triB ≤ 3 := maxExp_le fun i _ j _ => triB_small i j
    show (maxExp 48 48 triB : ℤ) + good.toNat + 48 ≤ longMax
    unfold longMax
    omega
  obtain ⟨m', a1, -, a3⟩ := C85_lll_reduction (m := ⟨triB, none, none⟩) (tri_accurate h1) hp triB_indep (C85_default ⟨.wrapper, .mpz, none, 0, false⟩ rfl rfl (.inl ⟨rfl, rfl⟩)) hm (fun _ _ => 9) 5002
    (by show good.toNat + 2 ≤ 5002; omega) fun _ r hr => tri_fits h2 _ _ r hr
  exact ⟨good, m', a1, a3⟩

/-- and with `LLL_SIEGEL` it brings them into the weaker form -/
example : ∃ good m', lllReduction (triCfg good) (lllRun (nanWorldS true) 48 48) 5002 ⟨.wrapper, .mpz, none, 0, false⟩ ⟨triB, none, none⟩ (fun _ _ => 9) = .done (.success, m') ∧
    SizeReduced 48 48 (basisQ m'.b) (51 / 100 + 1 / 100 / 64) ∧ Siegel 48 48 (basisQ m'.b) (99 / 100 - (1 - 99 / 100) / 64 - (51 / 100 + 1 / 100 / 64) ^ 2) := by
  obtain ⟨good, h1, h2, hp⟩ := tri_params
  have hm : Fits (triCfg good) triB := by
    unfold Fits
    have h1 : maxExp 48 48 triB ≤ 3 := maxExp_le fun i _ j _ => triB_small i j
    show (maxExp 48 48 triB : ℤ) + good.toNat + 48 ≤ longMax
    unfold longMax
    omega
  obtain ⟨m', a1, -, a3⟩ := C92_lll_reduction (m := ⟨triB, none, none⟩) (tri_accurate0 (sg := true) h1) hp triB_indep (C85_default ⟨.wrapper, .mpz, none, 0, false⟩ rfl rfl (.inl ⟨rfl, rfl⟩)) hm (fun _ _ => 9) 5002
    (by show good.toNat + 2 ≤ 5002; omega) fun _ r hr => tri_fits h2 _ _ r hr
  exact ⟨good, m', a1, a3⟩

end Wrapper
end Fplll

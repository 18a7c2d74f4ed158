import Verif.Proofs.Wrapper

/-!
# C27 (LLL wrapper), C28 (HLLL wrapper), C48 (selection of types), C53 (public `lll_reduction`)
-/

namespace Fplll
namespace Wrapper

open Spec Gen GSO

variable {c : Cfg} {run : Runner}

/-! ## C27 -/

theorem before_long (fuel : ℕ) (m : Triple) (junk : Mat ℤ) (st1 : St) (h : before c run fuel (mk c m junk) = some st1)
    (hu : st1.useLong = true) : c.bld.zlong = true := by
  unfold before at h
  by_cases hl : heurLong c (mk c m junk) = true
  · unfold heurLong at hl
    simp only [Bool.and_eq_true] at hl
    exact hl.1.1.1
  · rw [if_neg hl] at h
    have : Stable run fun st => st.useLong = false := by
      intro call st _ hp
      obtain ⟨e, -, -, -, -, -, -, -, e8, -⟩ := callLll_log (run := run) call st
      exact e8.trans hp
    rw [largeLll_stable this fuel _ rfl st1 h] at hu
    cases hu

/-- **C27 (the wrapper stops).**  For every sequence of outcomes of the individual runs the wrapper ends; the number of
recursive calls in its loops is at most `good_prec + 2`. -/
theorem C27_stops (fuel : ℕ) (m : Triple) (junk : Mat ℤ) (hf : c.goodPrec.toNat + 2 ≤ fuel) :
    ∃ r, lllReductionWrapper c run fuel m junk = some r := by
  unfold lllReductionWrapper
  by_cases hd : c.d = 0 ∨ c.n = 0
  · unfold lll; rw [if_pos hd]; exact ⟨_, rfl⟩
  · obtain ⟨r, hr⟩ := before_some (run := run) fuel (mk c m junk) hf
    rw [lll_eq (by omega) (by omega), hr]
    exact ⟨_, rfl⟩

/-- **C27 (status).**  For every sequence of outcomes of the individual runs: the status of the wrapper is that of the
last run; this run used the method `proved` with the requested `delta` and `eta` in a floating-point type of at least
`good_prec` bits (and `dd_real` only if the squares of the entries fit in its exponent range), and the basis
left behind is the one this run produced. -/
theorem C27_last_run (hd : c.d ≠ 0) (hn : c.n ≠ 0) (fuel : ℕ) (m : Triple) (junk : Mat ℤ) (r : Bool × St)
    (h : lll c run fuel (mk c m junk) = some r) :
    ∃ e es, r.2.log = e :: es ∧ r.2.status = e.res.status ∧
      e.call.meth = .proved ∧ e.call.delta = c.delta ∧ e.call.eta = c.eta ∧ c.goodPrec ≤ e.call.bits c.bld ∧
      (∀ i < c.d, ∀ j < c.n, r.2.m.b i j = e.res.out.b i j) ∧
      (e.call.zt = .mpz → r.2.m = e.res.out) ∧
      (e.call.ft = .dd → e.call.zt = .mpz → ∀ i < c.d, ∀ j < c.n, |e.inp.b i j| ^ 2 < 2 ^ 1000) ∧
      (e.res.status = .success → r.1 = true) ∧
      (r.1 = true → e.res.status = .success ∨
        ((e.res.status = .gsoFailure ∨ e.res.status = .babaiFailure) ∧ e.res.finalKappa = 0)) ∧
      e.call.forceLong = false ∧ ∃ t last, e.res = run t e.call last e.inp := by
  rw [lll_eq hd hn, Option.map_eq_some_iff] at h
  obtain ⟨st1, h1, rfl⟩ := h
  have hz := before_long fuel m junk st1 h1
  have hz2 : (setUseLong c (provLong c (mk c m junk)) st1).useLong = true → c.bld.zlong = true := by
    intro hu
    by_contra hcon
    have : setUseLong c (provLong c (mk c m junk)) st1 = st1 := by unfold setUseLong; rw [if_neg hcon]
    rw [this] at hu
    exact hcon (hz hu)
  generalize setUseLong c (provLong c (mk c m junk)) st1 = st2 at *
  obtain ⟨call, st', l1, l2, l3, l4, l5, l6, ⟨me, rfl⟩, l8, l9, l10, l11, l12⟩ := lastLll_eq (c := c) (run := run) st2
  rw [l1]
  obtain ⟨e, e1, e2, e3, e4, e5, e6, e7, e8, e9, e10, e11⟩ := callLll_log (run := run) call { st2 with maxExponent := me }
  generalize callLll run call { st2 with maxExponent := me } = q at *
  obtain ⟨s1, s2, s3, s4⟩ := setUseLong_log (c := c) false q.2
  refine ⟨e, _, s1.trans e1, s2.trans e3, by rw [e2]; exact l2, by rw [e2]; exact l3, by rw [e2]; exact l4,
    by rw [e2]; exact l5, ?_, ?_, ?_, fun h => by simpa using e10 h, fun h => e11 (by simpa using h), by rw [e2]; exact l12, _, _, by rw [e2]; exact e5⟩
  · intro i hi j hj
    by_cases hu : st2.useLong = true
    · rw [if_pos hu] at l6
      have hq : q.2.useLong = true := e8.trans hu
      unfold setUseLong
      rw [if_pos (hz2 hu), if_neg (by rw [hq]; decide), if_pos (by rw [hq]; decide)]
      dsimp only
      rw [copyMat_apply, if_pos ⟨hi, hj⟩, e7, if_pos l6]
      rfl
    · rw [if_neg hu] at l6
      have hq : q.2.useLong = false := by rw [e8]; simpa using hu
      have : (setUseLong c false q.2).m = q.2.m := by
        unfold setUseLong
        split_ifs with a1 a2 a3 <;> first | rfl | (rw [hq] at a3; simp at a3)
      rw [this, e6, if_neg (by rw [l6]; decide)]
  · intro hm
    rw [e2] at hm
    by_cases hu : st2.useLong = true
    · rw [if_pos hu, hm] at l6; cases l6
    · have hq : q.2.useLong = false := by rw [e8]; simpa using hu
      have : (setUseLong c false q.2).m = q.2.m := by
        unfold setUseLong
        split_ifs with a1 a2 a3 <;> first | rfl | (rw [hq] at a3; simp at a3)
      rw [this, e6, if_neg (by rw [hm]; decide)]
  · intro hdd hm i hi j hj
    rw [e2] at hdd hm
    rcases l9 hdd with hu | hlt
    · rw [if_pos hu, hm] at l6; cases l6
    · rw [e4, if_neg (by rw [hm]; decide)]
      dsimp only
      have hb := maxExp_bound c.d c.n st2.m.b i j hi hj
      have h2 : |st2.m.b i j| ^ 2 < (2 ^ maxExp c.d c.n st2.m.b) ^ 2 :=
        pow_lt_pow_left₀ hb (abs_nonneg _) (by norm_num)
      rw [← pow_mul] at h2
      refine lt_of_lt_of_le h2 (pow_le_pow_right₀ (by norm_num) ?_)
      unfold maxExpDouble at hlt
      omega

/-- **C27 (what the caller sees).**  `lll_reduction_wrapper` returns `RED_SUCCESS` on a non-empty basis only if its last
run, proved and of sufficient precision, reported success. -/
theorem C27_success (hd : c.d ≠ 0) (hn : c.n ≠ 0) (fuel : ℕ) (m : Triple) (junk : Mat ℤ) (s : RedStatus) (m' : Triple)
    (h : lllReductionWrapper c run fuel m junk = some (s, m')) :
    ∃ r e es, lll c run fuel (mk c m junk) = some r ∧ r.2.log = e :: es ∧ e.res.status = s ∧ m' = zerosFirst c.d c.n r.2.m ∧
      e.call.meth = .proved ∧ e.call.delta = c.delta ∧ e.call.eta = c.eta ∧ c.goodPrec ≤ e.call.bits c.bld ∧
      (∀ i < c.d, ∀ j < c.n, r.2.m.b i j = e.res.out.b i j) := by
  unfold lllReductionWrapper at h
  rw [Option.map_eq_some_iff] at h
  obtain ⟨r, h1, h2⟩ := h
  cases h2
  obtain ⟨e, es, l1, l2, l3, l4, l5, l6, l7, -⟩ := C27_last_run hd hn fuel m junk r h1
  exact ⟨r, e, es, h1, l1, l2.symm, rfl, l3, l4, l5, l6, l7⟩

/-- **C27 (order of the precisions, partial).**  The runs are: fast runs, then runs of the heuristic loop, then runs of
the proved loop, then the last one.  Within each group the working precision strictly increases, and it does not
drop from the second to the third group (for the proved loop: unless it falls back to `dpe_t`, see
`C27_precision_violated`).  A new run of these loops happens only after a failure.
Missing with respect to the full claim: strictness across the groups, which does not hold. -/
theorem C27_precision_partial (hd : c.d ≠ 0) (hn : c.n ≠ 0) (fuel : ℕ) (m : Triple) (junk : Mat ℤ) (r : Bool × St)
    (h : lll c run fuel (mk c m junk) = some r) (hld : dblDigits < c.bld.ldBits) (hld' : c.bld.ldBits < precDD) :
    ∃ A B C last, r.2.log.reverse = A ++ B ++ C ++ [last] ∧ last.call.meth = .proved ∧
      (∀ e ∈ (A ++ B ++ C).dropLast, e.res.status ≠ .success) ∧
      (∀ e ∈ A ++ B ++ C, e.call.delta = c.delta ∧ e.call.eta = c.eta) ∧
      (∀ e ∈ A, e.call.meth = .fast ∨ (A = [e] ∧ B = [] ∧ C = [])) ∧ (∀ e ∈ B, e.call.meth = .heuristic) ∧
      (∀ e ∈ C, e.call.meth = .proved) ∧
      (A.Pairwise fun a b => a.call.bits c.bld < b.call.bits c.bld) ∧
      (B.Pairwise fun a b => a.call.bits c.bld < b.call.bits c.bld) ∧
      (¬(c.bld.qd = true ∧ c.bld.dpe = true ∧ maxExpDouble < ((maxExp c.d c.n m.b : ℤ) + c.slack) * 2) →
        (C.Pairwise fun a b => a.call.bits c.bld < b.call.bits c.bld) ∧
        ∀ b ∈ B, ∀ e ∈ C, b.call.bits c.bld ≤ e.call.bits c.bld) := by
  obtain ⟨e, es, l1, -, l3, -⟩ := C27_last_run hd hn fuel m junk r h
  rw [lll_eq hd hn, Option.map_eq_some_iff] at h
  obtain ⟨st1, h1, rfl⟩ := h
  have hlog : es = st1.log := by
    rw [(setUseLong_log false _).1] at l1
    obtain ⟨call, st', k1, -, -, -, -, -, ⟨me, rfl⟩, -⟩ :=
      lastLll_eq (c := c) (run := run) (setUseLong c (provLong c (mk c m junk)) st1)
    obtain ⟨e', e1, -⟩ := callLll_log (run := run) call
      { (setUseLong c (provLong c (mk c m junk)) st1) with maxExponent := me }
    rw [k1, e1, List.cons.injEq] at l1
    rw [← l1.2]
    exact (setUseLong_log _ _).1
  dsimp only
  rw [l1, List.reverse_cons, hlog]
  unfold before at h1
  by_cases hl : heurLong c (mk c m junk) = true
  · rw [if_pos hl] at h1
    cases h1
    obtain ⟨e', e1, e2, -⟩ := callLll_log (run := run) ⟨.long, .double, .heuristic, 0, c.delta, c.eta, true⟩
      (setUseLong c true (mk c m junk))
    refine ⟨[e'], [], [], e, ?_, l3, by simp, ?_, ?_, by simp, by simp, List.pairwise_singleton _ _, List.Pairwise.nil,
      fun _ => ⟨List.Pairwise.nil, by simp⟩⟩
    · have : (heuristicLll c run .long .double 0 (setUseLong c true (mk c m junk))).2.log = e' :: [] := by
        rw [show heuristicLll c run .long .double 0 (setUseLong c true (mk c m junk)) =
          callLll run ⟨.long, .double, .heuristic, 0, c.delta, c.eta, true⟩ (setUseLong c true (mk c m junk)) from rfl,
          e1, (setUseLong_log _ _).1]
        rfl
      rw [this]; rfl
    · intro x hx
      simp only [List.append_nil, List.mem_singleton] at hx
      rw [hx, e2]
      exact ⟨rfl, rfl⟩
    · intro x hx
      rw [List.mem_singleton] at hx
      exact .inr ⟨by rw [hx], rfl, rfl⟩
  · rw [if_neg hl] at h1
    obtain ⟨k, A, B, C, p1, p2, p3, p4, p5, p6, p7, p8⟩ := largeLll_phase fuel (mk c m junk) st1 rfl h1
    refine ⟨A, B, C, e, ?_, l3, p1.fails, ?_, fun e he => .inl (p3 e he).1, fun e he => (p4 e he).1,
      fun e he => (p5 e he).1, p6 hld hld', p7, p8⟩
    · rw [p1.log]; simp [mk]
    · intro x hx
      rw [List.mem_append, List.mem_append] at hx
      rcases hx with (hx | hx) | hx
      · exact (p3 x hx).2
      · exact (p4 x hx).2
      · exact (p5 x hx).2

/-- a build with everything compiled in, x86 `long double` -/
def exBld : Build := ⟨true, true, true, true, 64⟩

/-- a wrapper object for a `1 × 1` basis that needs 300 bits -/
def exCfg (good : ℤ) (lit : Bool) : Cfg :=
  { bld := exBld, d := 1, n := 1, slack := 0, delta := 99 / 100, eta := 51 / 100, goodPrec := good
    little := fun _ _ => lit, getSi := id }

/-- every run fails -/
def failRun : Runner := fun _ _ _ m => ⟨.babaiFailure, 1, 0, m⟩

/-- the one entry is `2^600`, transforms are tracked -/
def exM : Triple := ⟨fun _ _ => 2 ^ 600, some fun _ _ => 1, none⟩

/-- all runs in order -/
def calls (r : Option (Bool × St)) : List (FT × Meth × ℤ) :=
  match r with
  | none => []
  | some r => r.2.log.reverse.map fun e => (e.call.ft, e.call.meth, e.call.prec)

theorem exM_maxExp : maxExp 1 1 exM.b = 601 := by
  unfold maxExp
  rw [forUp_succ_right le_rfl, forUp_empty le_rfl, forUp_succ_right le_rfl, forUp_empty le_rfl]
  have : (exM.b 0 0).natAbs = 2 ^ 600 := by
    have : exM.b 0 0 = (2 : ℤ) ^ 600 := rfl
    rw [this, Int.natAbs_pow]; rfl
  rw [this, Nat.size_pow]
  rfl

theorem exM_mk (good : ℤ) (lit : Bool) : mk (exCfg good lit) exM (fun _ _ => 0) =
    { m := exM, bLong := fun _ _ => 0, useLong := false, status := .success, lastEarly := 0, maxExponent := 601, log := [] } := by
  unfold mk
  rw [show (exCfg good lit).d = 1 from rfl, show (exCfg good lit).n = 1 from rfl, exM_maxExp]
  rfl

/-- **C27 (order of the precisions) is violated.**  With `dpe_t` and `dd_real` compiled in, entries of 600 bits and
`good_prec = 300`: after failures in `dd_real` (106 bits) the proved loop starts again with `dpe_t` (53 bits), and its
second round, meant for 106 bits, is the very same run once more. -/
theorem C27_precision_violated :
    calls (lll (exCfg 300 true) failRun 400 (mk (exCfg 300 true) exM fun _ _ => 0)) =
      [(.double, .fast, 0), (.longDouble, .fast, 0), (.dd, .fast, 0), (.dpe, .proved, 0), (.dpe, .proved, 0),
       (.mpfr, .proved, 212), (.mpfr, .proved, 300), (.mpfr, .proved, 300)] := by
  rw [exM_mk]
  decide +kernel

/-- non-vacuity of C27: a run where the heuristic loop is used and everything fails until 200 bits, and the wrapper
reports the success of the last run -/
def lateRun : Runner := fun _ call _ m =>
  if call.ft = .mpfr ∧ 200 ≤ call.prec then ⟨.success, 0, 0, m⟩ else ⟨.gsoFailure, 2, 0, m⟩

example : calls (lll (exCfg 200 false) lateRun 300 (mk (exCfg 200 false) exM fun _ _ => 0)) =
    [(.double, .fast, 0), (.longDouble, .fast, 0), (.dd, .fast, 0), (.mpfr, .heuristic, 106), (.mpfr, .heuristic, 200),
     (.mpfr, .proved, 200)] := by
  rw [exM_mk]
  decide +kernel

example : ((lllReductionWrapper (exCfg 200 false) lateRun 300 exM fun _ _ => 0).map (·.1)) = some .success ∧
    ((lllReductionWrapper (exCfg 200 false) failRun 300 exM fun _ _ => 0).map (·.1)) = some .babaiFailure := by
  unfold lllReductionWrapper
  rw [exM_mk]
  decide +kernel

/-- **C27 (empty basis).**  `Wrapper::lll` returns `RED_SUCCESS` there, which converts to `false`. -/
theorem C27_empty_returns_false (hd : c.d = 0 ∨ c.n = 0) (fuel : ℕ) (m : Triple) (junk : Mat ℤ) :
    ∃ r, lll c run fuel (mk c m junk) = some r ∧ r.1 = false ∧ r.2.status = .success := by
  unfold lll; rw [if_pos hd]; exact ⟨_, rfl, rfl, rfl⟩

/-! ## C53: `lll_reduction` -/

/-- what a caller of a reduction function with transforms relies on: `b' = u' b` with `u'` unimodular, and `u' u_inv' = 1` -/
def Reduced (d n : ℕ) (b b' : ℕ → ℕ → ℤ) (u' v' : Option (ℕ → ℕ → ℤ)) : Prop :=
  lattice (toM d n b') = lattice (toM d n b) ∧
  (∀ u, u' = some u → toM d n b' = toM d d u * toM d n b ∧ Unimodular (toM d d u)) ∧
  (∀ u v, u' = some u → v' = some v → toM d d u * toM d d v = 1)

theorem TRel.reduced {d n : ℕ} {b : Mat ℤ} {u v : Option (Mat ℤ)} {t : Triple}
    (h : TRel d n ⟨b, identityIf u, (identityIf v).map transposeMat⟩ t) :
    Reduced d n b t.b t.u (t.v.map transposeMat) := by
  obtain ⟨h1, h2, T, T', h3, h4, h5, h6, h7⟩ := h
  have hid : toM d d (fun i j => if i = j then 1 else 0) = (1 : Matrix (Fin d) (Fin d) ℤ) := by
    ext i j; simp [toM, Matrix.one_apply, Fin.ext_iff]
  have hid' : toM d d (transposeMat fun i j => if i = j then 1 else 0) = (1 : Matrix (Fin d) (Fin d) ℤ) := by
    ext i j; simp [toM, transposeMat, Matrix.one_apply, Fin.ext_iff, eq_comm]
  dsimp only at h1 h2 h5 h6 h7
  refine ⟨by rw [h5]; exact lattice_mul ⟨T', h3, h4⟩ _, ?_, ?_⟩
  · intro u1 hu1
    cases u with
    | none => rw [hu1] at h1; simp [identityIf] at h1
    | some u0 =>
      have := h6 _ u1 rfl hu1
      rw [hid, Matrix.mul_one] at this
      rw [this]
      exact ⟨h5, T', h3, h4⟩
  · intro u1 v1 hu1 hv1
    cases u with
    | none => rw [hu1] at h1; simp [identityIf] at h1
    | some u0 =>
      rw [Option.map_eq_some_iff] at hv1
      obtain ⟨v2, hv2, rfl⟩ := hv1
      cases v with
      | none => rw [hv2] at h2; simp [identityIf] at h2
      | some v0 =>
        have e1 := h6 _ u1 rfl hu1
        have e2 := h7 _ _ v2 rfl rfl hv2
        rw [hid, Matrix.mul_one] at e1
        rw [hid', Matrix.mul_one] at e2
        have e3 : toM d d (transposeMat v2) = (toM d d v2).transpose := rfl
        rw [e1, e3, e2, Matrix.transpose_transpose, h3]

/-- **C53.**  Every call of `lll_reduction` that returns, with any method, types, precision, any floating-point behaviour
and any status, leaves a basis of the same lattice; if `u` is given (not empty) the new basis is `u` times the old
one and `u` is unimodular, and if `u_inv` is given too it is the inverse of `u`.  This includes the identity
initialisation, the transpositions, all retries of the wrapper with their changes of the integer type, and the final move of
the zero rows. -/
theorem C53_lll_reduction (w : World) (hd : 1 ≤ c.d) (hn : 1 ≤ c.n)
    (hg : ∀ x : ℤ, -2 ^ 63 ≤ x → x < 2 ^ 63 → c.getSi x = x) (fuel : ℕ) (a : Args) (m : Triple) (junk : Mat ℤ)
    (s : RedStatus) (m' : Triple) (h : lllReduction c (lllRun w c.d c.n) fuel a m junk = .done (s, m')) :
    Reduced c.d c.n m.b m'.b m'.u m'.v := by
  have hr : GoodRun c.d c.n (lllRun w c.d c.n) := fun t call last inp => lllRun_trel w hd hn t call last inp
  unfold lllReduction lllReductionZ at h
  cases hch : lllChoice c.bld c.goodPrec a with
  | abort => rw [hch] at h; cases h
  | wrapper =>
    rw [hch] at h
    dsimp only at h
    cases hw : lllReductionWrapper c (lllRun w c.d c.n) fuel
        ⟨m.b, identityIf m.u, (identityIf m.v).map transposeMat⟩ junk with
    | none => rw [hw] at h; cases h
    | some q =>
      rw [hw] at h
      cases h
      unfold lllReductionWrapper at hw
      rw [Option.map_eq_some_iff] at hw
      obtain ⟨r, hr1, rfl⟩ := hw
      exact ((lll_inv hr hg fuel junk r hr1).trans (zerosFirst_trel _)).reduced
  | single ft p =>
    rw [hch] at h
    dsimp only at h
    cases h
    unfold lllReductionZf
    rw [if_neg (by omega)]
    exact ((hr _ _ _ _).trans (zerosFirst_trel _)).reduced

/-- **C53 (stops).**  Every call of `lll_reduction` aborts or returns. -/
theorem C53_stops (fuel : ℕ) (a : Args) (m : Triple) (junk : Mat ℤ) (hf : c.goodPrec.toNat + 2 ≤ fuel) :
    lllReduction c run fuel a m junk = .abort ∨ ∃ r, lllReduction c run fuel a m junk = .done r := by
  unfold lllReduction lllReductionZ
  cases lllChoice c.bld c.goodPrec a with
  | abort => exact .inl rfl
  | wrapper =>
    obtain ⟨r, hr⟩ := C27_stops (c := c) (run := run) fuel ⟨m.b, identityIf m.u, (identityIf m.v).map transposeMat⟩ junk hf
    dsimp only
    rw [hr]
    exact .inr ⟨_, rfl⟩
  | single ft p => exact .inr ⟨_, rfl⟩

/-! Non-vacuity of C53: exact arithmetic in every type, a 2 × 2 basis, both transforms requested. -/

/-- a world with exact arithmetic in every type -/
def exWorld : World where
  F := fun _ _ => Exact
  ops := fun _ _ => inferInstanceAs (FloatOps Exact)
  conv := fun _ _ q => some q
  maxIter := fun _ _ => 20
  junkZ := fun _ _ _ => 7
  junkF := fun _ _ _ _ _ => none
  earlyRed := false
  siegel := false

def exCfg2 : Cfg := { exCfg 60 false with d := 2, n := 2 }

/-- the basis (2, 0), (3, 1) -/
def exIn : Triple :=
  ⟨fun i j => if i = 0 then (if j = 0 then 2 else 0) else if j = 0 then 3 else 1, some fun _ _ => 0, some fun _ _ => 0⟩

def shown : Outcome (RedStatus × Triple) → Option (RedStatus × List ℤ × Option (List ℤ) × Option (List ℤ))
  | .done (s, t) =>
    let l := fun (m : Mat ℤ) => [m 0 0, m 0 1, m 1 0, m 1 1]
    some (s, l t.b, t.u.map l, t.v.map l)
  | _ => none

example : shown (lllReduction exCfg2 (lllRun exWorld 2 2) 100 ⟨.proved, .mpz, none, 0, false⟩ exIn fun _ _ => 0) =
    some (.success, [-1, 1, 1, 1], some [-2, 1, -1, 1], some [-1, 1, -1, 2]) := by decide +kernel

/-! ## C48: selection of the floating-point type -/

theorem select_prec_none {bld : Build} {good : ℤ} {a : Args} (hp : a.prec ≠ 0) (hft : a.ft = none) :
    select bld good a = if a.meth = .fast then .abort else .single .mpfr a.prec := by
  unfold select
  simp [hp, hft, available, fixedPrec]

theorem select_prec_mpfr {bld : Build} {good : ℤ} {a : Args} (hp : a.prec ≠ 0) (hft : a.ft = some .mpfr) :
    select bld good a = if a.meth = .fast then .abort else .single .mpfr a.prec := by
  unfold select
  simp [hp, hft, available, fixedPrec]

theorem select_prec_other {bld : Build} {good : ℤ} {a : Args} (hp : a.prec ≠ 0) (r : FT) (hft : a.ft = some r)
    (hr : r ≠ .mpfr) : select bld good a = .abort := by
  unfold select
  simp [hp, hft, hr]

theorem select_default {bld : Build} {good : ℤ} {a : Args} (hp : a.prec = 0) (hft : a.ft = none) (sel : ℤ)
    (hs : sel = if a.meth = .proved then good else dblDigits) : select bld good a =
    .single (defaultFt bld a.meth sel) ((fixedPrec bld (defaultFt bld a.meth sel)).getD sel) := by
  subst hs
  unfold select
  simp [hp, hft]

theorem select_some {bld : Build} {good : ℤ} {a : Args} (hp : a.prec = 0) (r : FT) (hft : a.ft = some r) (sel : ℤ)
    (hs : sel = if a.meth = .proved then good else dblDigits) : select bld good a =
    if (a.meth = .fast ∧ ¬(r = .double ∨ r = .longDouble ∨ r = .dd ∨ r = .qd)) ∨ available bld r = false then .abort
    else .single r ((fixedPrec bld r).getD sel) := by
  subst hs
  unfold select
  cases r <;> by_cases hm : a.meth = .fast <;> simp [hp, hft, hm, available]

theorem defaultFt_available (bld : Build) (meth : Meth) (sel : ℤ) : available bld (defaultFt bld meth sel) = true := by
  unfold defaultFt
  split_ifs with h1 h2 h3 h4
  · rfl
  · exact h2.1
  · exact h3.1
  · exact h4.1
  · rfl

/-- **C48.**  A single run of LLL or HLLL never uses another type than the requested one, nor another precision. -/
theorem C48_as_requested (bld : Build) (good : ℤ) (a : Args) (ft : FT) (p : ℤ)
    (h : lllChoice bld good a = .single ft p ∨ hlllChoice bld good a = .single ft p) :
    (∀ r, a.ft = some r → ft = r) ∧ (a.prec ≠ 0 → ft = .mpfr ∧ p = a.prec) ∧ available bld ft = true ∧
    (∀ q, fixedPrec bld ft = some q → p = q) ∧
    (ft = .mpfr → a.prec = 0 → p = if a.meth = .proved then good else dblDigits) ∧
    (a.meth = .fast → ft = .double ∨ ft = .longDouble ∨ ft = .dd ∨ ft = .qd) := by
  have hs : select bld good a = .single ft p := by
    unfold lllChoice hlllChoice at h
    rcases h with h | h <;> split_ifs at h <;> exact h
  have hmp : ∀ f : a.prec ≠ 0, (if a.meth = .fast then Choice.abort else .single .mpfr a.prec) = .single ft p →
      ft = .mpfr ∧ p = a.prec ∧ a.meth ≠ .fast := by
    intro _ h; split_ifs at h with h0; cases h; exact ⟨rfl, rfl, h0⟩
  by_cases hp : a.prec = 0
  · cases hft : a.ft with
    | none =>
      rw [select_default hp hft _ rfl] at hs
      generalize hsel : (if a.meth = .proved then good else dblDigits) = sel at *
      cases hs
      refine ⟨nofun, fun h => absurd hp h, defaultFt_available _ _ _, ?_, ?_, ?_⟩
      · intro q hq; rw [hq]; rfl
      · intro hm _; rw [hm]; rfl
      · intro hm; unfold defaultFt; rw [if_pos hm]; exact .inl rfl
    | some r =>
      rw [select_some hp r hft _ rfl] at hs
      generalize hsel : (if a.meth = .proved then good else dblDigits) = sel at *
      split_ifs at hs with g
      cases hs
      push Not at g
      refine ⟨fun q hq => Option.some.inj hq, fun h => absurd hp h, by simpa using g.2, ?_, ?_, ?_⟩
      · intro q hq; rw [hq]; rfl
      · intro hm _; rw [hm]; rfl
      · intro hm; exact g.1 hm
  · have hr : ft = .mpfr ∧ p = a.prec ∧ a.meth ≠ .fast ∧ (a.ft = none ∨ a.ft = some .mpfr) := by
      cases hft : a.ft with
      | none =>
        rw [select_prec_none hp hft] at hs
        obtain ⟨h1, h2, h3⟩ := hmp hp hs
        exact ⟨h1, h2, h3, .inl rfl⟩
      | some r =>
        by_cases hr : r = .mpfr
        · subst hr
          rw [select_prec_mpfr hp hft] at hs
          obtain ⟨h1, h2, h3⟩ := hmp hp hs
          exact ⟨h1, h2, h3, .inr rfl⟩
        · rw [select_prec_other hp r hft hr] at hs; cases hs
    obtain ⟨rfl, h2, h3, h4⟩ := hr
    refine ⟨?_, fun _ => ⟨rfl, h2⟩, rfl, nofun, fun _ h => absurd h hp, fun h => absurd h h3⟩
    intro r hr
    rcases h4 with h4 | h4 <;> rw [h4] at hr <;> cases hr
    rfl

/-- **C48 (default type).**  Without a requested type and precision: `fast` runs in `double`, `heuristic` in a type of at least
53 bits, `proved` in a type of at least `good_prec` bits. -/
theorem C48_default (bld : Build) (good : ℤ) (a : Args) (hft : a.ft = none) (hp : a.prec = 0) (hw : a.meth ≠ .wrapper)
    (he : ¬(a.meth = .proved ∧ a.earlyRed = true)) :
    ∃ ft p, lllChoice bld good a = .single ft p ∧ (a.meth = .fast → ft = .double ∧ p = 53) ∧
      (a.meth = .heuristic → 53 ≤ p) ∧ (a.meth = .proved → good ≤ p) := by
  unfold lllChoice
  rw [if_neg hw, if_neg he, select_default hp hft _ rfl]
  have key : ∀ sel : ℤ, a.meth ≠ .fast →
      sel ≤ (fixedPrec bld (defaultFt bld a.meth sel)).getD sel := by
    intro sel hm
    unfold defaultFt
    rw [if_neg hm]
    split_ifs with h1 h2 h3
    · exact h1.2
    · exact h2.2
    · exact h3.2
    · exact le_rfl
  refine ⟨_, _, rfl, ?_, ?_, ?_⟩
  · intro h; rw [h]; exact ⟨rfl, rfl⟩
  · intro h
    have := key dblDigits (by rw [h]; decide)
    rw [if_neg (by rw [h]; decide)]
    exact this
  · intro h
    have := key good (by rw [h]; decide)
    rw [if_pos h]
    exact this

/-- **C48 (aborts).**  `lll_reduction` aborts exactly for: the wrapper with a type, a precision or other integers than
`mpz_t`; the proved method with early reduction; a precision together with a type other than `mpfr`; the fast
method with a type other than `double`, `long double`, `dd`, `qd` (or with a precision); a type that is not compiled in. -/
theorem C48_abort_iff (bld : Build) (good : ℤ) (a : Args) :
    lllChoice bld good a = .abort ↔
      (a.meth = .wrapper ∧ (a.zt ≠ .mpz ∨ a.ft ≠ none ∨ a.prec ≠ 0)) ∨
      (a.meth = .proved ∧ a.earlyRed = true) ∨
      (a.meth ≠ .wrapper ∧ a.prec ≠ 0 ∧ ∃ r, a.ft = some r ∧ r ≠ .mpfr) ∨
      (a.meth = .fast ∧ (a.prec ≠ 0 ∨ a.ft = some .dpe ∨ a.ft = some .mpfr)) ∨
      (a.meth ≠ .wrapper ∧ ∃ r, a.ft = some r ∧ available bld r = false) := by
  unfold lllChoice
  by_cases hw : a.meth = .wrapper
  · rw [if_pos hw]
    by_cases h : a.zt = .mpz ∧ a.ft = none ∧ a.prec = 0
    · rw [if_pos h]; simp [hw, h.1, h.2.1, h.2.2]
    · rw [if_neg h]
      refine ⟨fun _ => .inl ⟨hw, by tauto⟩, fun _ => rfl⟩
  rw [if_neg hw]
  by_cases he : a.meth = .proved ∧ a.earlyRed = true
  · rw [if_pos he]; exact ⟨fun _ => .inr (.inl he), fun _ => rfl⟩
  rw [if_neg he]
  by_cases hp : a.prec = 0
  · cases hft : a.ft with
    | none =>
      rw [select_default hp hft _ rfl]
      simp [hw, he, hp]
    | some r =>
      rw [select_some hp r hft _ rfl]
      generalize (if a.meth = .proved then good else dblDigits) = sel
      have h2 : ((if (a.meth = .fast ∧ ¬(r = .double ∨ r = .longDouble ∨ r = .dd ∨ r = .qd)) ∨ available bld r = false
          then Choice.abort else .single r ((fixedPrec bld r).getD sel)) = .abort) ↔
          ((a.meth = .fast ∧ (r = .dpe ∨ r = .mpfr)) ∨ available bld r = false) := by
        have : (a.meth = .fast ∧ ¬(r = .double ∨ r = .longDouble ∨ r = .dd ∨ r = .qd)) ↔
          (a.meth = .fast ∧ (r = .dpe ∨ r = .mpfr)) := by cases r <;> simp
        rw [← this]
        split_ifs with g
        · exact ⟨fun _ => g, fun _ => rfl⟩
        · exact ⟨nofun, fun h => absurd h g⟩
      rw [h2]
      simp only [hw, false_and, he, hp, ne_eq, not_true_eq_false, and_false, false_or, Option.some.injEq, not_false_eq_true,
        true_and, exists_eq_left']
  · cases hft : a.ft with
    | none =>
      rw [select_prec_none hp hft]
      by_cases hm : a.meth = .fast <;> simp [hm, hp, he, hw]
    | some r =>
      by_cases hr : r = .mpfr
      · subst hr
        rw [select_prec_mpfr hp hft]
        by_cases hm : a.meth = .fast <;> simp [hm, hp, he, hw, available]
      · rw [select_prec_other hp r hft hr]
        exact ⟨fun _ => .inr (.inr (.inl ⟨hw, hp, r, rfl, hr⟩)), fun _ => rfl⟩

/-- **C48 (the run).**  The selected type and precision are the ones of the run, with the requested method, `delta` and
`eta`. -/
theorem C48_run (fuel : ℕ) (a : Args) (m : Triple) (junk : Mat ℤ) (ft : FT) (p : ℤ) (hd : c.d ≠ 0) (hn : c.n ≠ 0)
    (h : lllChoice c.bld c.goodPrec a = .single ft p) :
    ∃ call : Call, call.ft = ft ∧ call.bits c.bld = p ∧ call.meth = a.meth ∧ call.zt = a.zt ∧ call.delta = c.delta ∧
      call.eta = c.eta ∧
      lllReductionZ c run fuel a m junk = .done ((run 0 call 0 m).status, zerosFirst c.d c.n (run 0 call 0 m).out) := by
  unfold lllReductionZ
  rw [h]
  dsimp only
  unfold lllReductionZf
  rw [if_neg (by omega)]
  refine ⟨_, rfl, ?_, rfl, rfl, rfl, rfl, rfl⟩
  unfold Call.bits
  dsimp only
  have := (C48_as_requested c.bld c.goodPrec a ft p (.inl h)).2.2.2.1
  cases hf : fixedPrec c.bld ft with
  | none => cases ft <;> simp_all [fixedPrec]
  | some q => simpa using (this q hf).symm

example : lllChoice exBld 80 ⟨.proved, .mpz, none, 0, false⟩ = .single .dd 106 ∧
    lllChoice exBld 80 ⟨.proved, .mpz, some .double, 0, false⟩ = .single .double 53 ∧
    lllChoice exBld 80 ⟨.heuristic, .mpz, none, 100, false⟩ = .single .mpfr 100 ∧
    lllChoice exBld 80 ⟨.fast, .mpz, none, 100, false⟩ = .abort ∧
    lllChoice exBld 80 ⟨.wrapper, .mpz, none, 0, true⟩ = .wrapper := by decide

/-! ## C28: the HLLL wrapper -/

theorem hlllProvedLoop_inv {P : St → Prop} (hP : ∀ call st, P st → P (callHlll run call st).2) (fuel : ℕ) (p : ℤ) (st : St)
    (h : P st) (r : ℤ × St) (hr : hlllProvedLoop c run fuel p st = some r) : P r.2 := by
  induction fuel generalizing p st with
  | zero => cases hr
  | succ fuel ih =>
    rw [hlllProvedLoop] at hr
    have h1 : P (provedHlll c run .mpfr p st).2 := hP _ _ h
    generalize provedHlll c run .mpfr p st = q at *
    split_ifs at hr
    · cases hr; exact h1
    · exact ih _ _ h1 hr
    · cases hr; exact h1

theorem hlllProvedLoop_some (fuel : ℕ) (p : ℤ) (st : St) (hp : p < c.goodPrec → 1 ≤ p)
    (hf : (c.goodPrec - p).toNat + 1 ≤ fuel) : ∃ r, hlllProvedLoop c run fuel p st = some r := by
  induction fuel generalizing p st with
  | zero => omega
  | succ fuel ih =>
    rw [hlllProvedLoop]
    split_ifs with h1 h2
    · exact ⟨_, rfl⟩
    · have := increasePrec_gt h2 (hp h2)
      exact ih _ _ (fun _ => by have := hp h2; omega) (by omega)
    · exact ⟨_, rfl⟩

/-- the runs of `hlll` before the last one -/
def hlllBefore (c : Cfg) (run : Runner) (fuel : ℕ) (st : St) : Option St :=
  let q := fastHlll c run .double st
  let r := if c.bld.longDouble ∧ q.1 = false then (fastHlll c run .longDouble q.2, c.bld.ldBits) else (q, dblDigits)
  let r := if c.bld.qd ∧ r.1.1 = false then (fastHlll c run .dd r.1.2, precDD) else r
  if r.1.1 = false then (hlllProvedLoop c run fuel r.2 r.1.2).map (·.2) else some r.1.2

theorem hlll_eq (hd : c.d ≠ 0) (hn : c.n ≠ 0) (fuel : ℕ) (st : St) :
    hlll c run fuel st = (hlllBefore c run fuel st).map fun st1 => (!(lastHlll c run st1).1, (lastHlll c run st1).2) := by
  unfold hlll
  rw [if_neg (by omega)]
  rfl

theorem hlllBefore_inv {P : St → Prop} (hP : ∀ call st, P st → P (callHlll run call st).2) (fuel : ℕ) (st : St) (h : P st)
    (st1 : St) (hr : hlllBefore c run fuel st = some st1) : P st1 := by
  unfold hlllBefore at hr
  dsimp only at hr
  have h1 : P (fastHlll c run .double st).2 := hP _ _ h
  generalize fastHlll c run .double st = q at *
  have h2 : P (if c.bld.longDouble = true ∧ q.1 = false then (fastHlll c run .longDouble q.2, c.bld.ldBits)
      else (q, dblDigits)).1.2 := by
    by_cases hc : c.bld.longDouble = true ∧ q.1 = false
    · rw [if_pos hc]; exact hP _ _ h1
    · rw [if_neg hc]; exact h1
  generalize (if c.bld.longDouble = true ∧ q.1 = false then (fastHlll c run .longDouble q.2, c.bld.ldBits)
      else (q, dblDigits)) = q2 at *
  have h3 : P (if c.bld.qd = true ∧ q2.1.1 = false then (fastHlll c run .dd q2.1.2, precDD) else q2).1.2 := by
    by_cases hc : c.bld.qd = true ∧ q2.1.1 = false
    · rw [if_pos hc]; exact hP _ _ h2
    · rw [if_neg hc]; exact h2
  generalize (if c.bld.qd = true ∧ q2.1.1 = false then (fastHlll c run .dd q2.1.2, precDD) else q2) = q3 at *
  by_cases h0 : q3.1.1 = false
  · rw [if_pos h0, Option.map_eq_some_iff] at hr
    obtain ⟨r, hr', rfl⟩ := hr
    exact hlllProvedLoop_inv hP fuel _ _ h3 r hr'
  · rw [if_neg h0] at hr; cases hr; exact h3

theorem lastHlll_eq (st : St) : ∃ call : Call, lastHlll c run st = callHlll run call st ∧ call.meth = .proved ∧
    call.delta = c.delta ∧ call.eta = c.eta ∧ c.goodPrec ≤ call.bits c.bld := by
  unfold lastHlll provedHlll
  split_ifs with h1 h2
  · exact ⟨_, rfl, rfl, rfl, rfl, h1.2⟩
  · exact ⟨_, rfl, rfl, rfl, rfl, h2.2.2⟩
  · exact ⟨_, rfl, rfl, rfl, rfl, le_rfl⟩

/-- **C28 is violated: the HLLL wrapper always reports success.**  Whatever the individual runs do, even if all of them
fail, `hlll_reduction_wrapper` returns `RED_SUCCESS`: the result of the runs is stored in a local variable that shadows
the member `status`. -/
theorem C28_always_success (fuel : ℕ) (m : Triple) (junk : Mat ℤ) (s : RedStatus) (m' : Triple)
    (h : hlllReductionWrapper c run fuel m junk = some (s, m')) : s = .success := by
  unfold hlllReductionWrapper at h
  rw [Option.map_eq_some_iff] at h
  obtain ⟨r, h1, h2⟩ := h
  cases h2
  by_cases hd : c.d = 0 ∨ c.n = 0
  · unfold hlll at h1; rw [if_pos hd] at h1; cases h1; rfl
  rw [hlll_eq (by omega) (by omega), Option.map_eq_some_iff] at h1
  obtain ⟨st1, h3, rfl⟩ := h1
  have h4 := hlllBefore_inv (P := fun st => st.status = .success) (fun _ _ h => h) fuel (mk c m junk) rfl st1 h3
  obtain ⟨call, h5, -⟩ := lastHlll_eq (c := c) (run := run) st1
  dsimp only
  rw [h5]
  exact h4

/-- **C28 is violated**, concretely: every run fails and the status is `RED_SUCCESS`. -/
theorem C28_violated : (∀ t call last m, (failRun t call last m).status ≠ .success) ∧
    ((hlllReductionWrapper (exCfg 200 false) failRun 300 exM fun _ _ => 0).map (·.1)) = some .success := by
  refine ⟨fun _ _ _ _ => nofun, ?_⟩
  unfold hlllReductionWrapper
  rw [exM_mk]
  decide +kernel

/-- **C28 (partial).**  What does hold: the HLLL wrapper stops, its last run uses the method `proved` with the requested
parameters in at least `good_prec` bits, the basis left behind is the one of that run, and it generates the same
lattice if every run keeps the lattice.  The value returned by `Wrapper::hlll` is the negation of the success of the
last run.  Missing: the outcome of that run does not reach the caller. -/
theorem C28_last_run_partial (hd : c.d ≠ 0) (hn : c.n ≠ 0) (fuel : ℕ) (m : Triple) (junk : Mat ℤ)
    (hf : c.goodPrec.toNat + 1 ≤ fuel) (hld : 1 ≤ c.bld.ldBits) :
    ∃ r e es, hlll c run fuel (mk c m junk) = some r ∧ r.2.log = e :: es ∧ e.call.meth = .proved ∧
      e.call.delta = c.delta ∧ e.call.eta = c.eta ∧ c.goodPrec ≤ e.call.bits c.bld ∧ r.2.m = e.res.out ∧
      (r.1 = true ↔ e.res.status ≠ .success) ∧
      (GoodRun c.d c.n run → TRel c.d c.n m (zerosFirst c.d c.n r.2.m)) := by
  rw [hlll_eq hd hn]
  obtain ⟨st1, hb⟩ : ∃ st1, hlllBefore c run fuel (mk c m junk) = some st1 := by
    unfold hlllBefore
    dsimp only
    generalize fastHlll c run .double (mk c m junk) = q at *
    have h2 : 1 ≤ (if c.bld.longDouble = true ∧ q.1 = false then (fastHlll c run .longDouble q.2, c.bld.ldBits)
        else (q, dblDigits)).2 := by
      split_ifs
      · exact hld
      · unfold dblDigits; norm_num
    generalize (if c.bld.longDouble = true ∧ q.1 = false then (fastHlll c run .longDouble q.2, c.bld.ldBits)
        else (q, dblDigits)) = q2 at *
    have h3 : 1 ≤ (if c.bld.qd = true ∧ q2.1.1 = false then (fastHlll c run .dd q2.1.2, precDD) else q2).2 := by
      split_ifs
      · unfold precDD; norm_num
      · exact h2
    generalize (if c.bld.qd = true ∧ q2.1.1 = false then (fastHlll c run .dd q2.1.2, precDD) else q2) = q3 at *
    by_cases h0 : q3.1.1 = false
    · rw [if_pos h0]
      obtain ⟨r, hr⟩ := hlllProvedLoop_some (c := c) (run := run) fuel q3.2 q3.1.2 (fun _ => h3) (by omega)
      exact ⟨r.2, by rw [hr]; rfl⟩
    · rw [if_neg h0]; exact ⟨_, rfl⟩
  rw [hb]
  obtain ⟨call, h5, h6, h7, h8, h9⟩ := lastHlll_eq (c := c) (run := run) st1
  rw [Option.map_some, h5]
  refine ⟨_, ⟨call, st1.m, run st1.log.length call st1.lastEarly st1.m⟩, st1.log, rfl, ?_, h6, h7, h8, h9, ?_, ?_, ?_⟩
  · rfl
  · rfl
  · unfold callHlll; simp
  · intro hr
    refine TRel.trans ?_ (zerosFirst_trel _)
    have hi := hlllBefore_inv (c := c) (run := run) (P := fun st => TRel c.d c.n m st.m)
      (fun call st h => h.trans (hr _ _ _ _)) fuel (mk c m junk) (TRel.refl _ _ _) st1 hb
    exact hi.trans (hr _ _ _ _)

end Wrapper
end Fplll

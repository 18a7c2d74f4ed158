import Verif.Model.Wrapper
import Verif.Proofs.LLL
import Verif.Props.Gen
import Verif.Props.RowOps
import Mathlib.Tactic.Linarith

/-!
# Lemmas on the LLL and HLLL drivers
-/

namespace Fplll
namespace Wrapper

open Spec Gen GSO

/-! ## Unimodular changes of the three matrices -/

/-- `t'` arises from `t` by a unimodular change of the rows, tracked in `u` and (when both are present) `u_inv_t` -/
def TRel (d n : ℕ) (t t' : Triple) : Prop :=
  t'.u.isSome = t.u.isSome ∧ t'.v.isSome = t.v.isSome ∧
  ∃ T T' : Matrix (Fin d) (Fin d) ℤ, T * T' = 1 ∧ T' * T = 1 ∧ toM d n t'.b = T * toM d n t.b ∧
    (∀ u u', t.u = some u → t'.u = some u' → toM d d u' = T * toM d d u) ∧
    (∀ u v v', t.u = some u → t.v = some v → t'.v = some v' → toM d d v' = T'.transpose * toM d d v)

theorem TRel.refl (d n : ℕ) (t : Triple) : TRel d n t t := by
  refine ⟨rfl, rfl, 1, 1, by simp, by simp, by simp, ?_, ?_⟩
  · intro u u' h h'; rw [h] at h'; cases h'; simp
  · intro u v v' _ h h'; rw [h] at h'; cases h'; simp

theorem TRel.trans {d n : ℕ} {t1 t2 t3 : Triple} (h : TRel d n t1 t2) (h' : TRel d n t2 t3) : TRel d n t1 t3 := by
  obtain ⟨a1, a2, T, S, a3, a4, a5, a6, a7⟩ := h
  obtain ⟨b1, b2, T', S', b3, b4, b5, b6, b7⟩ := h'
  refine ⟨b1.trans a1, b2.trans a2, T' * T, S * S', ?_, ?_, ?_, ?_, ?_⟩
  · calc T' * T * (S * S') = T' * (T * S) * S' := by simp only [Matrix.mul_assoc]
      _ = 1 := by rw [a3, Matrix.mul_one, b3]
  · calc S * S' * (T' * T) = S * (S' * T') * T := by simp only [Matrix.mul_assoc]
      _ = 1 := by rw [b4, Matrix.mul_one, a4]
  · rw [b5, a5, Matrix.mul_assoc]
  · intro u u' h h'
    cases hu : t2.u with
    | none => rw [hu, h] at a1; simp at a1
    | some u2 => rw [b6 u2 u' hu h', a6 u u2 h hu, Matrix.mul_assoc]
  · intro u v v' h hv h'
    cases hu : t2.u with
    | none => rw [hu, h] at a1; simp at a1
    | some u2 =>
      cases hv2 : t2.v with
      | none => rw [hv2, hv] at a2; simp at a2
      | some v2 => rw [b7 u2 v2 v' hu hv2 h', a7 u v v2 h hv hv2, Matrix.transpose_mul, Matrix.mul_assoc]

/-- only the `d × n` corner of `b` matters -/
theorem TRel.of_corner {d n : ℕ} {t t' : Triple} (h : ∀ i < d, ∀ j < n, t'.b i j = t.b i j) (hu : t'.u = t.u)
    (hv : t'.v = t.v) : TRel d n t t' := by
  refine ⟨by rw [hu], by rw [hv], 1, 1, by simp, by simp, ?_, ?_, ?_⟩
  · rw [Matrix.one_mul]; ext i j; exact h i i.2 j j.2
  · intro u u' g g'; rw [hu, g] at g'; cases g'; simp
  · intro u v v' _ g g'; rw [hv, g] at g'; cases g'; simp

theorem segment_rotate_apply {α : Type} {d i : ℕ} (hd : 0 < d) {m m' : ℕ → α}
    (h : segment m' 0 d = (segment m 0 d).rotate i) (k : ℕ) (hk : k < d) : m' k = m ((k + i) % d) := by
  have hl : (segment m 0 d).length = d := by rw [segment_length]; omega
  have hl' : (segment m' 0 d).length = d := by rw [segment_length]; omega
  have h1 := segment_getElem m' 0 d k (by omega)
  have h2 : ((segment m 0 d).rotate i)[k]'(by rw [List.length_rotate]; omega) = m ((k + i) % d) := by
    rw [List.getElem_rotate, segment_getElem]
    rw [hl, zero_add]
  rw [zero_add] at h1
  rw [← h1, ← h2]
  congr 1

theorem toM_rotate {d n i : ℕ} [NeZero d] {m m' : Mat ℤ} (hi : i < d) (h : ∀ k < d, m' k = m ((k + i) % d)) :
    toM d n m' = ((1 : Matrix (Fin d) (Fin d) ℤ).submatrix (Equiv.addRight (⟨i, hi⟩ : Fin d)) id) * toM d n m := by
  ext k j
  rw [Matrix.mul_apply]
  simp only [Matrix.submatrix_apply, id, Matrix.one_apply, ite_mul, one_mul, zero_mul, Finset.sum_ite_eq,
    Finset.mem_univ, if_true]
  show m' k j = m ((k + (⟨i, hi⟩ : Fin d) : Fin d) : ℕ) j
  rw [h k k.2, Fin.val_add]

theorem zerosFirst_trel {d n : ℕ} (t : Triple) : TRel d n t (zerosFirst d n t) := by
  unfold zerosFirst
  have hle := (lastNonzero_spec n t.b d).1
  generalize lastNonzero n t.b d = i at *
  by_cases h : 0 < i ∧ i < d
  swap
  · have : rotateAll d i t = t := by unfold rotateAll; rw [if_neg h]
    rw [this]; exact TRel.refl d n t
  obtain ⟨r1, r2, r3⟩ := rotateAll_spec d i hle t
  have hd : 0 < d := by omega
  have : NeZero d := ⟨by omega⟩
  have hs : ∀ m m' : Mat ℤ, segment m' 0 d = (segment m 0 d).rotate i → ∀ k < d, m' k = m ((k + i) % d) :=
    fun m m' g k hk => segment_rotate_apply hd g k hk
  have hT : ∀ σ : Equiv.Perm (Fin d), (1 : Matrix (Fin d) (Fin d) ℤ).submatrix σ id *
      ((1 : Matrix (Fin d) (Fin d) ℤ).submatrix σ id).transpose = 1 := by
    intro σ
    ext a b
    rw [Matrix.mul_apply]
    simp [Matrix.one_apply, Matrix.transpose_apply]
  have hT' : ∀ σ : Equiv.Perm (Fin d), ((1 : Matrix (Fin d) (Fin d) ℤ).submatrix σ id).transpose *
      (1 : Matrix (Fin d) (Fin d) ℤ).submatrix σ id = 1 := fun σ => mul_eq_one_comm.1 (hT σ)
  refine ⟨?_, ?_, _, _, hT (Equiv.addRight (⟨i, h.2⟩ : Fin d)), hT' _, ?_, ?_, ?_⟩
  · unfold rotateAll; rw [if_pos h]; simp
  · unfold rotateAll; rw [if_pos h]; simp
  · exact toM_rotate h.2 (hs _ _ r1)
  · intro u u' g g'
    rw [g, g'] at r2
    exact toM_rotate h.2 (hs u u' (by simpa using r2))
  · intro u v v' _ g g'
    rw [g, g'] at r3
    rw [Matrix.transpose_transpose]
    exact toM_rotate h.2 (hs v v' (by simpa using r3))

/-- a run of the modelled LLL is a tracked unimodular change, whatever the floats -/
theorem lllRun_trel (w : World) {d n : ℕ} (hd : 1 ≤ d) (hn : 1 ≤ n) (t : ℕ) (call : Call) (last : ℤ) (inp : Triple) :
    TRel d n inp (lllRun w d n t call last inp).out := by
  unfold lllRun
  dsimp only
  let := w.ops call.ft call.prec
  generalize LLL.mkCfg (w.conv call.ft call.prec call.delta) (w.conv call.ft call.prec call.eta) w.siegel w.earlyRed = cfg
  obtain ⟨hwf, hb, hu, hv, hdd, hc, hg, hwu, hwi, hk, hl⟩ :=
    mk0_wf d n (decide (call.meth = .proved)) inp.u.isSome inp.v.isSome call.forceLong inp.b (inp.u.getD fun _ _ => 0)
      (inp.v.getD fun _ _ => 0) (w.junkZ t) (w.junkF t call.ft call.prec) hn
  generalize mk0 d n (decide (call.meth = .proved)) inp.u.isSome inp.v.isSome call.forceLong inp.b
    (inp.u.getD fun _ _ => 0) (inp.v.getD fun _ _ => 0) (w.junkZ t) (w.junkF t call.ft call.prec) = s at *
  have g := LLL.lll_good cfg (2 ^ 62) (w.maxIter t inp) last.toNat 0 (kmin := 0) (kstart := 0) (kend := d)
    ⟨hwf, hl, le_rfl, by omega, by omega, .inl rfl⟩
  generalize LLL.lll cfg (2 ^ 62) (w.maxIter t inp) last.toNat s 0 0 d 0 = q at *
  obtain ⟨T, T', a1, a2, a3, a4, a5⟩ := g.uni
  subst hdd hc
  refine ⟨by simp, by simp, T, T', a1, a2, ?_, ?_, ?_⟩
  · dsimp only; rw [a3, hb]
  · intro u u' g g'
    rw [g] at g' hwu hu
    cases g'
    rw [a4 hwu, hu]
    rfl
  · intro u v v' gu g g'
    rw [gu] at hwu
    rw [g] at g' hwi hv
    cases g'
    rw [a5 hwu hwi, hv]
    rfl

/-! ## Control flow -/

/-- number of mantissa bits of a run -/
def Call.bits (bld : Build) (e : Call) : ℤ := (fixedPrec bld e.ft).getD e.prec

variable {c : Cfg} {run : Runner}

theorem callLll_log (call : Call) (st : St) : ∃ e : Entry, (callLll run call st).2.log = e :: st.log ∧ e.call = call ∧
    (callLll run call st).2.status = e.res.status ∧
    e.inp = (if call.zt = .long then ⟨st.bLong, none, none⟩ else st.m) ∧
    e.res = run st.log.length call st.lastEarly e.inp ∧
    (callLll run call st).2.m = (if call.zt = .long then st.m else e.res.out) ∧
    (callLll run call st).2.bLong = (if call.zt = .long then e.res.out.b else st.bLong) ∧
    (callLll run call st).2.useLong = st.useLong ∧ (callLll run call st).2.maxExponent = st.maxExponent ∧
    ((e.res.status = .success → (callLll run call st).1 = 0) ∧
     ((callLll run call st).1 = 0 → e.res.status = .success ∨
      ((e.res.status = .gsoFailure ∨ e.res.status = .babaiFailure) ∧ e.res.finalKappa = 0))) := by
  refine ⟨_, rfl, rfl, rfl, rfl, rfl, rfl, rfl, rfl, rfl, ?_, ?_⟩
  · intro h; unfold callLll; dsimp only at h ⊢; rw [if_pos h]
  · intro h
    unfold callLll at h
    dsimp only at h ⊢
    generalize run st.log.length call st.lastEarly
      (if call.zt = ZT.long then { b := st.bLong, u := none, v := none } else st.m) = r at h ⊢
    split_ifs at h with h1 h2
    · exact .inl h1
    · exact .inr ⟨h2, h⟩

/-- what the loops keep, for any property of the state that every run on `mpz_t` keeps -/
def Stable (run : Runner) (P : St → Prop) : Prop := ∀ call st, call.zt = .mpz → P st → P (callLll run call st).2

theorem provedOnce_stable {P : St → Prop} (hP : Stable run P) (p : ℤ) (st : St) (h : P st) :
    P (provedOnce c run p st).2 := by
  unfold provedOnce provedLll
  split_ifs <;> exact hP _ _ rfl h

theorem heuristicOnce_stable {P : St → Prop} (hP : Stable run P) (p : ℤ) (st : St) (h : P st) :
    P (heuristicOnce c run p st).2 := by
  unfold heuristicOnce heuristicLll
  split_ifs <;> exact hP _ _ rfl h

theorem provedLoop_stable {P : St → Prop} (hP : Stable run P) (fuel : ℕ) (p : ℤ) (st : St) (h : P st) (r : ℤ × St)
    (hr : provedLoop c run fuel p st = some r) : P r.2 := by
  induction fuel generalizing p st with
  | zero => cases hr
  | succ fuel ih =>
    rw [provedLoop] at hr
    have h1 := provedOnce_stable (c := c) hP p st h
    generalize provedOnce c run p st = q at *
    split_ifs at hr
    · cases hr; exact h1
    · exact ih _ _ h1 hr
    · cases hr; exact h1

theorem heuristicLoop_stable {P : St → Prop} (hP : Stable run P) (fuel : ℕ) (p : ℤ) (st : St) (h : P st) (r : ℤ × St)
    (hr : heuristicLoop c run fuel p st = some r) : P r.2 := by
  induction fuel generalizing p st with
  | zero => cases hr
  | succ fuel ih =>
    rw [heuristicLoop] at hr
    have h1 := heuristicOnce_stable (c := c) hP p st h
    generalize heuristicOnce c run p st = q at *
    split_ifs at hr
    · cases hr; exact h1
    · exact ih _ _ h1 hr
    · exact provedLoop_stable hP fuel p _ h1 r hr

theorem largeLll_stable {P : St → Prop} (hP : Stable run P) (fuel : ℕ) (st : St) (h : P st) (r : St)
    (hr : largeLll c run fuel st = some r) : P r := by
  unfold largeLll at hr
  dsimp only at hr
  have h1 : P (fastLll c run .double st).2 := hP _ _ rfl h
  generalize fastLll c run .double st = q at *
  have h2 : P (if c.bld.longDouble = true ∧ q.1 ≠ 0 then fastLll c run .longDouble q.2 else q).2 := by
    by_cases hc : c.bld.longDouble = true ∧ q.1 ≠ 0
    · rw [if_pos hc]; exact hP _ _ rfl h1
    · rw [if_neg hc]; exact h1
  generalize (if c.bld.longDouble = true ∧ q.1 ≠ 0 then fastLll c run .longDouble q.2 else q) = q2 at *
  have h3 : P (if c.bld.qd = true ∧ q2.1 ≠ 0 then fastLll c run .dd q2.2 else q2).2 := by
    by_cases hc : c.bld.qd = true ∧ q2.1 ≠ 0
    · rw [if_pos hc]; exact hP _ _ rfl h2
    · rw [if_neg hc]; exact h2
  generalize (if c.bld.qd = true ∧ q2.1 ≠ 0 then fastLll c run .dd q2.2 else q2) = q3 at *
  generalize (if c.bld.qd = true then precDD else if c.bld.longDouble = true then c.bld.ldBits else dblDigits) = lp at *
  by_cases h0 : q3.1 ≠ 0
  · rw [if_pos h0] at hr
    by_cases hl : c.little q3.1 lp = true
    · rw [if_pos hl, Option.map_eq_some_iff] at hr
      obtain ⟨r', hr', rfl⟩ := hr
      exact provedLoop_stable hP fuel _ _ h3 r' hr'
    · rw [if_neg hl, Option.map_eq_some_iff] at hr
      obtain ⟨r', hr', rfl⟩ := hr
      exact heuristicLoop_stable hP fuel _ _ h3 r' hr'
  · rw [if_neg h0] at hr; cases hr; exact h3

/-! ### The loops stop -/

theorem increasePrec_gt {p : ℤ} (h : p < c.goodPrec) (h1 : 1 ≤ p) : p < increasePrec c p := by
  unfold increasePrec; omega

theorem increasePrec_le (p : ℤ) : increasePrec c p ≤ c.goodPrec := by unfold increasePrec; omega

theorem provedLoop_some (fuel : ℕ) (p : ℤ) (st : St) (hp : p < c.goodPrec → 1 ≤ p)
    (hf : (c.goodPrec - p).toNat + 1 ≤ fuel) : ∃ r, provedLoop c run fuel p st = some r := by
  induction fuel generalizing p st with
  | zero => omega
  | succ fuel ih =>
    rw [provedLoop]
    split_ifs with h1 h2
    · exact ⟨_, rfl⟩
    · have := increasePrec_gt h2 (hp h2)
      exact ih _ _ (fun _ => by have := hp h2; omega) (by omega)
    · exact ⟨_, rfl⟩

theorem heuristicLoop_some (fuel : ℕ) (p : ℤ) (st : St) (hp : p < c.goodPrec → 1 ≤ p)
    (hf : (c.goodPrec - p).toNat + 2 ≤ fuel) : ∃ r, heuristicLoop c run fuel p st = some r := by
  induction fuel generalizing p st with
  | zero => omega
  | succ fuel ih =>
    rw [heuristicLoop]
    split_ifs with h1 h2
    · exact ⟨_, rfl⟩
    · have := increasePrec_gt h2.1 (hp h2.1)
      exact ih _ _ (fun _ => by have := hp h2.1; omega) (by omega)
    · exact provedLoop_some _ _ _ hp (by omega)

theorem largeLll_some (fuel : ℕ) (st : St) (hf : c.goodPrec.toNat + 2 ≤ fuel) : ∃ r, largeLll c run fuel st = some r := by
  unfold largeLll
  dsimp only
  generalize (if c.bld.longDouble = true ∧ (fastLll c run .double st).1 ≠ 0 then
    fastLll c run .longDouble (fastLll c run .double st).2 else fastLll c run .double st) = q2
  generalize (if c.bld.qd = true ∧ q2.1 ≠ 0 then fastLll c run .dd q2.2 else q2) = q3
  generalize (if c.bld.qd = true then precDD else if c.bld.longDouble = true then c.bld.ldBits else dblDigits) = lp
  by_cases h0 : q3.1 ≠ 0
  · rw [if_pos h0]
    by_cases hl : c.little q3.1 lp = true
    · rw [if_pos hl]
      obtain ⟨r, hr⟩ := provedLoop_some (c := c) (run := run) fuel dblDigits q3.2 (fun _ => by unfold dblDigits; omega)
        (by unfold dblDigits; omega)
      exact ⟨r.2, by rw [hr]; rfl⟩
    · rw [if_neg hl]
      obtain ⟨r, hr⟩ := heuristicLoop_some (c := c) (run := run) fuel (increasePrec c dblDigits) q3.2
        (fun h => by unfold increasePrec dblDigits at *; omega) (by unfold increasePrec dblDigits at *; omega)
      exact ⟨r.2, by rw [hr]; rfl⟩
  · rw [if_neg h0]; exact ⟨_, rfl⟩

/-! ### The last run -/

theorem lastLll_eq (st : St) : ∃ (call : Call) (st' : St), lastLll c run st = callLll run call st' ∧
    call.meth = .proved ∧ call.delta = c.delta ∧ call.eta = c.eta ∧ c.goodPrec ≤ call.bits c.bld ∧
    (call.zt = if st.useLong then .long else .mpz) ∧ (∃ e, st' = { st with maxExponent := e }) ∧
    (call.ft = .double → st.useLong = true) ∧
    (call.ft = .dd → st.useLong = true ∨ (maxExp c.d c.n st.m.b + c.slack : ℤ) * 2 < maxExpDouble) ∧
    call.ft ≠ .qd ∧ call.ft ≠ .longDouble ∧ call.forceLong = false := by
  unfold lastLll provedLll
  by_cases hu : st.useLong = true
  · rw [if_pos hu]
    split_ifs with h1 h2
    · exact ⟨_, st, rfl, rfl, rfl, rfl, h1, rfl, ⟨_, rfl⟩, fun _ => hu, fun h => (by cases h), by simp, by simp, rfl⟩
    · exact ⟨_, st, rfl, rfl, rfl, rfl, h2.2, rfl, ⟨_, rfl⟩, fun h => (by cases h), fun h => .inl hu, by simp, by simp, rfl⟩
    · exact ⟨_, st, rfl, rfl, rfl, rfl, le_rfl, rfl, ⟨_, rfl⟩, fun h => (by cases h), fun h => .inl hu, by simp, by simp, rfl⟩
  · rw [if_neg hu]
    dsimp only
    split_ifs with h0 h1 h2 h3
    · exact ⟨_, st, rfl, rfl, rfl, rfl, h1, rfl, ⟨_, rfl⟩, fun h => (by cases h), fun h => (by cases h), by simp, by simp, rfl⟩
    · exact ⟨_, _, rfl, rfl, rfl, rfl, h2.2, rfl, ⟨_, rfl⟩, fun h => (by cases h), fun _ => .inr h3, by simp, by simp, rfl⟩
    · exact ⟨_, _, rfl, rfl, rfl, rfl, le_rfl, rfl, ⟨_, rfl⟩, fun h => (by cases h), fun h => (by cases h),
        by simp, by simp, rfl⟩
    · exact ⟨_, st, rfl, rfl, rfl, rfl, le_rfl, rfl, ⟨_, rfl⟩, fun h => (by cases h), fun h => (by cases h),
        by simp, by simp, rfl⟩
    · exact ⟨_, st, rfl, rfl, rfl, rfl, le_rfl, rfl, ⟨_, rfl⟩, fun h => (by cases h), fun h => (by cases h),
        by simp, by simp, rfl⟩

/-! ### Copies between `mpz_t` and `long` -/

theorem copyMat_apply (f : ℤ → ℤ) (src dst : Mat ℤ) (i j : ℕ) :
    copyMat c f src dst i j = if i < c.d ∧ j < c.n then f (src i j) else dst i j := by
  unfold copyMat
  have inner : ∀ (i : ℕ) (m : Mat ℤ) (n a b : ℕ),
      forUp 0 n (fun j (m : Mat ℤ) => m.set i j (f (src i j))) m a b = if a = i ∧ b < n then f (src a b) else m a b := by
    intro i m n a b
    induction n with
    | zero => rw [forUp_empty le_rfl, if_neg (by omega)]
    | succ n ih =>
      rw [forUp_succ_right (Nat.zero_le _), Mat.set_apply, ih]
      by_cases h : a = i ∧ b = n
      · rw [if_pos h, if_pos (by omega), h.1, h.2]
      · rw [if_neg h]
        by_cases h' : a = i ∧ b < n
        · rw [if_pos h', if_pos (by omega)]
        · rw [if_neg h', if_neg (by omega)]
  generalize c.d = d
  induction d with
  | zero => rw [forUp_empty le_rfl, if_neg (by omega)]
  | succ d ih =>
    rw [forUp_succ_right (Nat.zero_le _), inner, ih]
    by_cases h : i = d ∧ j < c.n
    · rw [if_pos h, if_pos (by omega)]
    · rw [if_neg h]
      by_cases h' : i < d ∧ j < c.n
      · rw [if_pos h', if_pos (by omega)]
      · rw [if_neg h', if_neg (by omega)]

theorem maxExp_bound (d n : ℕ) (b : Mat ℤ) (i j : ℕ) (hi : i < d) (hj : j < n) :
    |b i j| < 2 ^ maxExp d n b := by
  have mono : ∀ (i n e : ℕ), e ≤ forUp 0 n (fun j e => max e (Nat.size (b i j).natAbs)) e ∧
      ∀ j < n, Nat.size (b i j).natAbs ≤ forUp 0 n (fun j e => max e (Nat.size (b i j).natAbs)) e := by
    intro i n e
    induction n with
    | zero => rw [forUp_empty le_rfl]; exact ⟨le_rfl, fun j h => by omega⟩
    | succ n ih =>
      rw [forUp_succ_right (Nat.zero_le _)]
      refine ⟨le_trans ih.1 (le_max_left _ _), fun j hj => ?_⟩
      by_cases h : j = n
      · rw [h]; exact le_max_right _ _
      · exact le_trans (ih.2 j (by omega)) (le_max_left _ _)
  have all : ∀ d, ∀ i < d, ∀ j < n, Nat.size (b i j).natAbs ≤ maxExp d n b := by
    intro d
    induction d with
    | zero => intro i h; omega
    | succ d ih =>
      intro i hi j hj
      unfold maxExp at *
      rw [forUp_succ_right (Nat.zero_le _)]
      by_cases h : i = d
      · rw [h]; exact (mono d n _).2 j hj
      · exact le_trans (ih i (by omega) j hj) (mono d n _).1
  have h := all d i hi j hj
  rw [Nat.size_le] at h
  rw [Int.abs_eq_natAbs]
  exact_mod_cast h

/-! ### The whole call -/

/-- the two flags of `Wrapper::lll` -/
def heurLong (c : Cfg) (st : St) : Bool :=
  c.bld.zlong && decide (st.maxExponent < longDigits - 2) && st.m.u.isNone && st.m.v.isNone

/-- the two flags of `Wrapper::lll` -/
def provLong (c : Cfg) (st : St) : Bool :=
  c.bld.zlong && decide (2 * st.maxExponent < longDigits - 2) && st.m.u.isNone && st.m.v.isNone

/-- the runs before the last one -/
def before (c : Cfg) (run : Runner) (fuel : ℕ) (st : St) : Option St :=
  if heurLong c st then some (heuristicLll c run .long .double 0 (setUseLong c true st)).2 else largeLll c run fuel st

theorem lll_eq (hd : c.d ≠ 0) (hn : c.n ≠ 0) (fuel : ℕ) (st : St) :
    lll c run fuel st = (before c run fuel st).map fun st1 =>
      (decide ((lastLll c run (setUseLong c (provLong c st) st1)).1 = 0),
        setUseLong c false (lastLll c run (setUseLong c (provLong c st) st1)).2) := by
  unfold lll
  rw [if_neg (by omega)]
  rfl

theorem before_some (fuel : ℕ) (st : St) (hf : c.goodPrec.toNat + 2 ≤ fuel) : ∃ r, before c run fuel st = some r := by
  unfold before
  by_cases h : heurLong c st = true
  · rw [if_pos h]; exact ⟨_, rfl⟩
  · rw [if_neg h]; exact largeLll_some fuel st hf

theorem heur_of_prov {st : St} (h : provLong c st = true) : heurLong c st = true := by
  unfold provLong at h
  unfold heurLong
  simp only [Bool.and_eq_true, decide_eq_true_eq] at h ⊢
  refine ⟨⟨⟨h.1.1.1, ?_⟩, h.1.2⟩, h.2⟩
  have := h.1.1.2
  unfold longDigits at *
  omega

theorem setUseLong_log (v : Bool) (st : St) : (setUseLong c v st).log = st.log ∧ (setUseLong c v st).status = st.status ∧
    (setUseLong c v st).m.u = st.m.u ∧ (setUseLong c v st).m.v = st.m.v := by
  unfold setUseLong; split_ifs <;> exact ⟨rfl, rfl, rfl, rfl⟩

/-- the matrices as the caller would see them after copying back -/
def cur (st : St) : Triple := if st.useLong then ⟨st.bLong, none, none⟩ else st.m

/-- every run changes its matrices by a tracked unimodular transformation -/
def GoodRun (d n : ℕ) (run : Runner) : Prop := ∀ t call last inp, TRel d n inp (run t call last inp).out

/-- what holds between the runs -/
structure Inv (c : Cfg) (m0 : Triple) (st : St) : Prop where
  rel : TRel c.d c.n m0 (cur st)
  long : st.useLong = true → c.bld.zlong = true ∧ st.m.u = none ∧ st.m.v = none

theorem callLll_inv {m0 : Triple} (hr : GoodRun c.d c.n run) (call : Call) {st : St} (h : Inv c m0 st)
    (hz : call.zt = if st.useLong then .long else .mpz) :
    Inv c m0 (callLll run call st).2 ∧ (callLll run call st).2.useLong = st.useLong := by
  obtain ⟨e, -, -, -, e4, e5, e6, e7, e8, -⟩ := callLll_log (run := run) call st
  have hrel := hr st.log.length call st.lastEarly e.inp
  rw [← e5] at hrel
  refine ⟨⟨h.rel.trans ?_, ?_⟩, e8⟩
  · by_cases hu : st.useLong = true
    · rw [if_pos hu] at hz
      rw [if_pos hz] at e4 e7
      have c1 : cur st = e.inp := by unfold cur; rw [if_pos hu, e4]
      have c2 : cur (callLll run call st).2 = e.res.out := by
        unfold cur
        rw [e8, if_pos hu, e7]
        obtain ⟨x1, x2, -⟩ := hrel
        rw [e4] at x1 x2
        have y1 : e.res.out.u = none := by simpa using x1
        have y2 : e.res.out.v = none := by simpa using x2
        generalize e.res.out = o at y1 y2 ⊢
        cases o
        simp_all
      rw [c1, c2]; exact hrel
    · rw [if_neg hu] at hz
      rw [if_neg (by rw [hz]; decide)] at e4 e6
      have c1 : cur st = e.inp := by unfold cur; rw [if_neg hu, e4]
      have c2 : cur (callLll run call st).2 = e.res.out := by unfold cur; rw [e8, if_neg hu, e6]
      rw [c1, c2]; exact hrel
  · intro hu
    rw [e8] at hu
    rw [if_pos hu] at hz
    rw [e6, if_pos hz]
    exact h.long hu

theorem setUseLong_false_inv {m0 : Triple} {st : St} (h : Inv c m0 st) :
    Inv c m0 (setUseLong c false st) ∧ (setUseLong c false st).useLong = false := by
  by_cases hu : st.useLong = true
  · obtain ⟨z1, z2, z3⟩ := h.long hu
    have : setUseLong c false st =
        { st with m := { st.m with b := copyMat c id st.bLong st.m.b }, useLong := false } := by
      unfold setUseLong; rw [if_pos z1, if_neg (by rw [hu]; decide), if_pos (by rw [hu]; decide)]
    rw [this]
    refine ⟨⟨h.rel.trans ?_, fun h => by cases h⟩, rfl⟩
    unfold cur
    rw [if_pos hu, if_neg Bool.false_ne_true]
    refine TRel.of_corner (fun i hi j hj => ?_) z2 z3
    dsimp only
    rw [copyMat_apply, if_pos ⟨hi, hj⟩]
    rfl
  · have hf : st.useLong = false := by simpa using hu
    unfold setUseLong
    by_cases hz : c.bld.zlong = true
    · rw [if_pos hz, if_neg (by rw [hf]; decide), if_neg (by rw [hf]; decide)]
      refine ⟨⟨?_, fun h => by cases h⟩, rfl⟩
      have := h.rel
      unfold cur at *
      rw [if_neg hu] at this
      rwa [if_neg Bool.false_ne_true]
    · rw [if_neg hz]; exact ⟨h, hf⟩

theorem setUseLong_true_inv {m0 : Triple} {st : St} (h : Inv c m0 st) (hz : c.bld.zlong = true)
    (hg : ∀ x : ℤ, -2 ^ 63 ≤ x → x < 2 ^ 63 → c.getSi x = x) (hn : st.m.u = none) (hn' : st.m.v = none)
    (hb : st.useLong = false → ∀ i < c.d, ∀ j < c.n, |st.m.b i j| < 2 ^ 63) :
    Inv c m0 (setUseLong c true st) ∧ (setUseLong c true st).useLong = true := by
  by_cases hu : st.useLong = true
  · have : setUseLong c true st = st := by
      unfold setUseLong
      rw [if_pos hz, if_neg (by rw [hu]; decide), if_neg (by rw [hu]; decide)]
      cases st; simp_all
    rw [this]; exact ⟨h, hu⟩
  · have hf : st.useLong = false := by simpa using hu
    have : setUseLong c true st = { st with bLong := copyMat c c.getSi st.m.b st.bLong, useLong := true } := by
      unfold setUseLong; rw [if_pos hz, if_pos (by rw [hf]; decide)]
    rw [this]
    refine ⟨⟨h.rel.trans ?_, fun _ => ⟨hz, hn, hn'⟩⟩, rfl⟩
    unfold cur
    rw [if_neg hu, if_pos rfl]
    refine TRel.of_corner (fun i hi j hj => ?_) hn.symm hn'.symm
    dsimp only
    have hbb := abs_lt.1 (hb hf i hi j hj)
    rw [copyMat_apply, if_pos ⟨hi, hj⟩, hg _ (by omega) (by omega)]

theorem lastLll_inv {m0 : Triple} (hr : GoodRun c.d c.n run) {st : St} (h : Inv c m0 st) :
    Inv c m0 (lastLll c run st).2 := by
  obtain ⟨call, st', h1, -, -, -, -, h6, ⟨e, rfl⟩, -⟩ := lastLll_eq (c := c) (run := run) st
  rw [h1]
  exact (callLll_inv hr call (st := { st with maxExponent := e }) ⟨h.rel, h.long⟩ h6).1

theorem before_inv {m0 : Triple} (hr : GoodRun c.d c.n run)
    (hg : ∀ x : ℤ, -2 ^ 63 ≤ x → x < 2 ^ 63 → c.getSi x = x) (fuel : ℕ) (junk : Mat ℤ) (st1 : St)
    (h : before c run fuel (mk c m0 junk) = some st1) :
    Inv c m0 st1 ∧ st1.useLong = heurLong c (mk c m0 junk) := by
  have h0 : Inv c m0 (mk c m0 junk) := ⟨TRel.refl _ _ _, fun h => by cases h⟩
  unfold before at h
  by_cases hl : heurLong c (mk c m0 junk) = true
  · rw [if_pos hl] at h
    cases h
    have hl' := hl
    unfold heurLong at hl'
    simp only [Bool.and_eq_true, decide_eq_true_eq, Option.isNone_iff_eq_none] at hl'
    obtain ⟨⟨⟨l1, l2⟩, l3⟩, l4⟩ := hl'
    obtain ⟨i1, i2⟩ := setUseLong_true_inv h0 l1 hg l3 l4 (fun _ i hi j hj => by
      refine lt_of_lt_of_le (maxExp_bound c.d c.n m0.b i j hi hj) (pow_le_pow_right₀ (by norm_num) ?_)
      have : ((maxExp c.d c.n m0.b : ℤ) + c.slack) < longDigits - 2 := l2
      unfold longDigits at this
      omega)
    obtain ⟨i3, i4⟩ := callLll_inv hr ⟨.long, .double, .heuristic, 0, c.delta, c.eta, true⟩ i1 (by rw [i2]; rfl)
    exact ⟨i3, by rw [hl]; exact i4.trans i2⟩
  · rw [if_neg hl] at h
    have : Stable run fun st => Inv c m0 st ∧ st.useLong = false := by
      intro call st hz hp
      obtain ⟨i1, i2⟩ := callLll_inv hr call hp.1 (by rw [hp.2, hz]; rfl)
      exact ⟨i1, i2.trans hp.2⟩
    obtain ⟨i1, i2⟩ := largeLll_stable this fuel _ ⟨h0, rfl⟩ st1 h
    exact ⟨i1, by rw [i2]; simpa using hl⟩

theorem lll_inv {m0 : Triple} (hr : GoodRun c.d c.n run)
    (hg : ∀ x : ℤ, -2 ^ 63 ≤ x → x < 2 ^ 63 → c.getSi x = x) (fuel : ℕ) (junk : Mat ℤ) (r : Bool × St)
    (h : lll c run fuel (mk c m0 junk) = some r) : TRel c.d c.n m0 r.2.m := by
  by_cases hd : c.d = 0 ∨ c.n = 0
  · unfold lll at h
    rw [if_pos hd] at h
    cases h
    exact TRel.refl _ _ _
  rw [lll_eq (by omega) (by omega), Option.map_eq_some_iff] at h
  obtain ⟨st1, h1, rfl⟩ := h
  obtain ⟨i1, i2⟩ := before_inv hr hg fuel junk st1 h1
  have i3 : Inv c m0 (setUseLong c (provLong c (mk c m0 junk)) st1) := by
    by_cases hp : provLong c (mk c m0 junk) = true
    · have hh := heur_of_prov hp
      rw [hh] at i2
      rw [hp]
      obtain ⟨z1, z2, z3⟩ := i1.long i2
      exact (setUseLong_true_inv i1 z1 hg z2 z3 (fun h => by rw [i2] at h; cases h)).1
    · rw [show provLong c (mk c m0 junk) = false by simpa using hp]
      exact (setUseLong_false_inv i1).1
  have i4 := setUseLong_false_inv (lastLll_inv hr i3)
  have := i4.1.rel
  unfold cur at this
  rwa [i4.2, if_neg (by decide)] at this

/-! ### The sequence of precisions -/

/-- working precision of the run of `proved_loop(p)` when `max_exponent = me` -/
def provedBits (c : Cfg) (me p : ℤ) : ℤ :=
  if (if c.bld.qd then precDD else dblDigits) < p then p
  else if maxExpDouble < me * 2 then (if c.bld.dpe then dblDigits else p)
  else if c.bld.qd ∧ dblDigits < p then precDD
  else dblDigits

/-- working precision of the run of `heuristic_loop(p)` -/
def heuristicBits (c : Cfg) (p : ℤ) : ℤ := if dblDigits < p then p else if c.bld.dpe then dblDigits else p

theorem provedOnce_call (p : ℤ) (st : St) : ∃ call, provedOnce c run p st = callLll run call st ∧ call.zt = .mpz ∧
    call.meth = .proved ∧ call.delta = c.delta ∧ call.eta = c.eta ∧ call.bits c.bld = provedBits c st.maxExponent p := by
  unfold provedOnce provedLll provedBits
  generalize (if c.bld.qd = true then precDD else dblDigits) = x
  split_ifs <;> exact ⟨_, rfl, rfl, rfl, rfl, rfl, rfl⟩

theorem heuristicOnce_call (p : ℤ) (st : St) : ∃ call, heuristicOnce c run p st = callLll run call st ∧ call.zt = .mpz ∧
    call.meth = .heuristic ∧ call.delta = c.delta ∧ call.eta = c.eta ∧ call.bits c.bld = heuristicBits c p := by
  unfold heuristicOnce heuristicLll heuristicBits
  split_ifs <;> exact ⟨_, rfl, rfl, rfl, rfl, rfl, rfl⟩

/-- the precisions that occur in the loops -/
def Reach (c : Cfg) (p : ℤ) : Prop := p = dblDigits ∨ precDD ≤ p ∨ c.goodPrec ≤ p

theorem Reach.next {p : ℤ} (h : Reach c p) (h' : p < c.goodPrec ∨ p = dblDigits) : Reach c (increasePrec c p) := by
  unfold Reach increasePrec dblDigits precDD at *; omega

/-- the case where `proved_loop` does not lower the precision again: it goes back to `dpe_t` for large numbers if both
`dpe_t` and `dd_real` are compiled in -/
def NoFallback (c : Cfg) (me : ℤ) : Prop := ¬(c.bld.qd = true ∧ c.bld.dpe = true ∧ maxExpDouble < me * 2)

theorem provedBits_lt {me p : ℤ} (hK : NoFallback c me) (hr : Reach c p) (h : p < c.goodPrec) :
    provedBits c me p < provedBits c me (increasePrec c p) := by
  unfold NoFallback at hK
  unfold Reach at hr
  unfold provedBits increasePrec
  unfold dblDigits precDD maxExpDouble at *
  cases hq : c.bld.qd <;> cases hdp : c.bld.dpe <;> simp only [hq, hdp, if_true, if_false, Bool.false_eq_true,
    false_and, true_and, and_true, and_false] at hK ⊢ <;> split_ifs <;> omega

theorem heuristicBits_lt {p : ℤ} (hr : Reach c p) (h : p < c.goodPrec) :
    heuristicBits c p < heuristicBits c (increasePrec c p) := by
  unfold Reach at hr
  unfold heuristicBits increasePrec
  unfold dblDigits precDD at *
  split_ifs <;> omega

theorem heuristicBits_le {me p : ℤ} (hK : NoFallback c me) : heuristicBits c p ≤ provedBits c me p := by
  unfold NoFallback at hK
  unfold provedBits heuristicBits
  unfold dblDigits precDD maxExpDouble at *
  cases hq : c.bld.qd <;> cases hdp : c.bld.dpe <;> simp only [hq, hdp, if_true, if_false, Bool.false_eq_true,
    false_and, true_and, and_true, and_false] at hK ⊢ <;> split_ifs <;> omega

/-- the runs `N` (in order) lead from `st` to `st'`; all but the last failed, and the last failed if `k ≠ 0` -/
structure Phase (st st' : St) (k : ℤ) (N : List Entry) : Prop where
  log : st'.log = N.reverse ++ st.log
  exps : st'.maxExponent = st.maxExponent
  fails : ∀ e ∈ N.dropLast, e.res.status ≠ .success
  all : k ≠ 0 → ∀ e ∈ N, e.res.status ≠ .success

theorem Phase.cons {st st1 st' : St} {k1 k : ℤ} {N1 N : List Entry} (h1 : Phase st st1 k1 N1) (hk : k1 ≠ 0)
    (h : Phase st1 st' k N) : Phase st st' k (N1 ++ N) := by
  refine ⟨by rw [h.log, h1.log]; simp, h.exps.trans h1.exps, fun e he => ?_, fun hk2 e he => ?_⟩
  · by_cases hN : N = []
    · rw [hN, List.append_nil] at he; exact h1.all hk e (List.mem_of_mem_dropLast he)
    · rw [List.dropLast_append_of_ne_nil hN, List.mem_append] at he
      exact he.elim (h1.all hk e) (h.fails e)
  · exact (List.mem_append.1 he).elim (h1.all hk e) (h.all hk2 e)

theorem Phase.nil (st : St) (k : ℤ) : Phase st st k [] := ⟨rfl, rfl, fun _ h => (by cases h), fun _ _ h => (by cases h)⟩

theorem callLll_phase (call : Call) (st : St) : ∃ e : Entry, e.call = call ∧
    Phase st (callLll run call st).2 (callLll run call st).1 [e] := by
  obtain ⟨e, e1, e2, -, -, -, -, -, -, e9, e10, -⟩ := callLll_log (run := run) call st
  refine ⟨e, e2, by rw [e1]; rfl, e9, fun x hx => (by cases hx), fun hk x hx => ?_⟩
  rw [List.mem_singleton] at hx
  rw [hx]
  exact fun h => hk (e10 h)

theorem provedLoop_phase {me : ℤ} (fuel : ℕ) (p : ℤ) (st : St) (r : ℤ × St) (hme : st.maxExponent = me)
    (hr : provedLoop c run fuel p st = some r) : ∃ N, Phase st r.2 r.1 N ∧ N ≠ [] ∧
      (∀ e ∈ N, e.call.meth = .proved ∧ e.call.delta = c.delta ∧ e.call.eta = c.eta) ∧
      (NoFallback c me → Reach c p → (N.Pairwise fun a b => a.call.bits c.bld < b.call.bits c.bld) ∧
        ∀ e ∈ N, provedBits c me p ≤ e.call.bits c.bld) := by
  induction fuel generalizing p st with
  | zero => cases hr
  | succ fuel ih =>
    rw [provedLoop] at hr
    obtain ⟨call, hc, -, c2, c3, c4, c5⟩ := provedOnce_call (c := c) (run := run) p st
    rw [hc, ] at hr
    obtain ⟨e, he, ph⟩ := callLll_phase (run := run) call st
    have hone : ∀ x ∈ [e], x.call.meth = .proved ∧ x.call.delta = c.delta ∧ x.call.eta = c.eta := by
      intro x hx; rw [List.mem_singleton] at hx; rw [hx, he]; exact ⟨c2, c3, c4⟩
    have hbits : e.call.bits c.bld = provedBits c me p := by rw [he, c5, hme]
    have hone' : ([e].Pairwise fun a b => a.call.bits c.bld < b.call.bits c.bld) ∧
        ∀ x ∈ [e], provedBits c me p ≤ x.call.bits c.bld :=
      ⟨List.pairwise_singleton _ _, fun x hx => by rw [List.mem_singleton] at hx; rw [hx, hbits]⟩
    generalize callLll run call st = q at *
    split_ifs at hr with h1 h2
    · cases hr
      rw [h1] at ph
      exact ⟨[e], ph, by simp, hone, fun _ _ => hone'⟩
    · obtain ⟨N, i1, i2, i3, i4⟩ := ih _ _ (by rw [ph.exps, hme]) hr
      refine ⟨[e] ++ N, ph.cons h1 i1, by simp, fun x hx => (List.mem_append.1 hx).elim (hone x) (i3 x), ?_⟩
      intro hK hR
      obtain ⟨j1, j2⟩ := i4 hK (hR.next (.inl h2))
      have hlt := provedBits_lt hK hR h2
      refine ⟨?_, ?_⟩
      · rw [List.singleton_append, List.pairwise_cons]
        refine ⟨fun x hx => ?_, j1⟩
        rw [hbits]; exact lt_of_lt_of_le hlt (j2 x hx)
      · intro x hx
        rcases List.mem_append.1 hx with hx | hx
        · exact hone'.2 x hx
        · exact le_trans hlt.le (j2 x hx)
    · cases hr
      exact ⟨[e], ⟨ph.log, ph.exps, ph.fails, fun _ => ph.all h1⟩, by simp, hone, fun _ _ => hone'⟩

theorem heuristicLoop_phase {me : ℤ} (fuel : ℕ) (p : ℤ) (st : St) (r : ℤ × St) (hme : st.maxExponent = me)
    (hr : heuristicLoop c run fuel p st = some r) : ∃ B C, Phase st r.2 r.1 (B ++ C) ∧ B ≠ [] ∧
      (∀ e ∈ B, e.call.meth = .heuristic ∧ e.call.delta = c.delta ∧ e.call.eta = c.eta) ∧
      (∀ e ∈ C, e.call.meth = .proved ∧ e.call.delta = c.delta ∧ e.call.eta = c.eta) ∧
      (Reach c p → (B.Pairwise fun a b => a.call.bits c.bld < b.call.bits c.bld) ∧
        ∀ e ∈ B, heuristicBits c p ≤ e.call.bits c.bld) ∧
      (NoFallback c me → Reach c p → (C.Pairwise fun a b => a.call.bits c.bld < b.call.bits c.bld) ∧
        ∀ b ∈ B, ∀ e ∈ C, b.call.bits c.bld ≤ e.call.bits c.bld) := by
  induction fuel generalizing p st with
  | zero => cases hr
  | succ fuel ih =>
    rw [heuristicLoop] at hr
    obtain ⟨call, hc, -, c2, c3, c4, c5⟩ := heuristicOnce_call (c := c) (run := run) p st
    rw [hc] at hr
    obtain ⟨e, he, ph⟩ := callLll_phase (run := run) call st
    have hone : ∀ x ∈ [e], x.call.meth = .heuristic ∧ x.call.delta = c.delta ∧ x.call.eta = c.eta := by
      intro x hx; rw [List.mem_singleton] at hx; rw [hx, he]; exact ⟨c2, c3, c4⟩
    have hbits : e.call.bits c.bld = heuristicBits c p := by rw [he, c5]
    have hone' : ([e].Pairwise fun a b => a.call.bits c.bld < b.call.bits c.bld) ∧
        ∀ x ∈ [e], heuristicBits c p ≤ x.call.bits c.bld :=
      ⟨List.pairwise_singleton _ _, fun x hx => by rw [List.mem_singleton] at hx; rw [hx, hbits]⟩
    generalize callLll run call st = q at *
    split_ifs at hr with h1 h2
    · cases hr
      rw [h1] at ph
      exact ⟨[e], [], by simpa using ph, by simp, hone, fun x hx => (by cases hx), fun _ => hone',
        fun _ _ => ⟨List.Pairwise.nil, fun _ _ x hx => (by cases hx)⟩⟩
    · obtain ⟨B, C, i1, i2, i3, i4, i5, i6⟩ := ih _ _ (by rw [ph.exps, hme]) hr
      refine ⟨[e] ++ B, C, ?_, by simp, fun x hx => (List.mem_append.1 hx).elim (hone x) (i3 x), i4, ?_, ?_⟩
      · rw [List.append_assoc]; exact ph.cons h1 i1
      · intro hR
        obtain ⟨j1, j2⟩ := i5 (hR.next (.inl h2.1))
        have hlt := heuristicBits_lt hR h2.1
        refine ⟨?_, ?_⟩
        · rw [List.singleton_append, List.pairwise_cons]
          refine ⟨fun x hx => ?_, j1⟩
          rw [hbits]; exact lt_of_lt_of_le hlt (j2 x hx)
        · intro x hx
          rcases List.mem_append.1 hx with hx | hx
          · exact hone'.2 x hx
          · exact le_trans hlt.le (j2 x hx)
      · intro hK hR
        obtain ⟨j1, j2⟩ := i6 hK (hR.next (.inl h2.1))
        refine ⟨j1, fun b hb x hx => ?_⟩
        rcases List.mem_append.1 hb with hb | hb
        · rw [List.mem_singleton] at hb
          obtain ⟨b', hb'⟩ := List.exists_mem_of_ne_nil B i2
          have h3 := (i5 (hR.next (.inl h2.1))).2 b' hb'
          have hlt := heuristicBits_lt hR h2.1
          rw [hb, hbits]
          exact le_trans hlt.le (le_trans h3 (j2 b' hb' x hx))
        · exact j2 b hb x hx
    · obtain ⟨N, i1, i2, i3, i4⟩ := provedLoop_phase (me := me) fuel p q.2 r (by rw [ph.exps, hme]) hr
      refine ⟨[e], N, ph.cons h1 i1, by simp, hone, i3, fun _ => hone', fun hK hR => ⟨(i4 hK hR).1, ?_⟩⟩
      intro b hb x hx
      rw [List.mem_singleton] at hb
      rw [hb, hbits]
      exact le_trans (heuristicBits_le hK) ((i4 hK hR).2 x hx)

theorem largeLll_phase {me : ℤ} (fuel : ℕ) (st : St) (st' : St) (hme : st.maxExponent = me)
    (hr : largeLll c run fuel st = some st') : ∃ k A B C, Phase st st' k (A ++ B ++ C) ∧ A ≠ [] ∧
      (∀ e ∈ A, e.call.meth = .fast ∧ e.call.delta = c.delta ∧ e.call.eta = c.eta) ∧
      (∀ e ∈ B, e.call.meth = .heuristic ∧ e.call.delta = c.delta ∧ e.call.eta = c.eta) ∧
      (∀ e ∈ C, e.call.meth = .proved ∧ e.call.delta = c.delta ∧ e.call.eta = c.eta) ∧
      (dblDigits < c.bld.ldBits → c.bld.ldBits < precDD → A.Pairwise fun a b => a.call.bits c.bld < b.call.bits c.bld) ∧
      (B.Pairwise fun a b => a.call.bits c.bld < b.call.bits c.bld) ∧
      (NoFallback c me → (C.Pairwise fun a b => a.call.bits c.bld < b.call.bits c.bld) ∧
        ∀ b ∈ B, ∀ e ∈ C, b.call.bits c.bld ≤ e.call.bits c.bld) := by
  unfold largeLll at hr
  dsimp only at hr
  obtain ⟨e1, he1, p1⟩ := callLll_phase (run := run) ⟨.mpz, .double, .fast, 0, c.delta, c.eta, true⟩ st
  have fd : fastLll c run .double st = callLll run ⟨.mpz, .double, .fast, 0, c.delta, c.eta, true⟩ st := rfl
  rw [fd] at hr
  generalize callLll run ⟨.mpz, .double, .fast, 0, c.delta, c.eta, true⟩ st = q at *
  have fld : fastLll c run .longDouble q.2 = callLll run ⟨.mpz, .longDouble, .fast, 0, c.delta, c.eta, true⟩ q.2 := rfl
  obtain ⟨A2, p2, hA2, hA2'⟩ : ∃ A2, Phase st
      (if c.bld.longDouble = true ∧ q.1 ≠ 0 then fastLll c run .longDouble q.2 else q).2
      (if c.bld.longDouble = true ∧ q.1 ≠ 0 then fastLll c run .longDouble q.2 else q).1 ([e1] ++ A2) ∧
      (∀ e ∈ A2, e.call = ⟨.mpz, .longDouble, .fast, 0, c.delta, c.eta, true⟩) ∧ A2.length ≤ 1 := by
    by_cases hc : c.bld.longDouble = true ∧ q.1 ≠ 0
    · rw [if_pos hc, fld]
      obtain ⟨e2, he2, p2⟩ := callLll_phase (run := run) ⟨.mpz, .longDouble, .fast, 0, c.delta, c.eta, true⟩ q.2
      exact ⟨[e2], p1.cons hc.2 p2, fun e he => by rw [List.mem_singleton] at he; rw [he, he2], by simp⟩
    · rw [if_neg hc]; exact ⟨[], by simpa using p1, fun e he => (by cases he), by simp⟩
  generalize (if c.bld.longDouble = true ∧ q.1 ≠ 0 then fastLll c run .longDouble q.2 else q) = q2 at *
  have fdd : fastLll c run .dd q2.2 = callLll run ⟨.mpz, .dd, .fast, 0, c.delta, c.eta, true⟩ q2.2 := rfl
  obtain ⟨A3, p3, hA3, hA3'⟩ : ∃ A3, Phase st
      (if c.bld.qd = true ∧ q2.1 ≠ 0 then fastLll c run .dd q2.2 else q2).2
      (if c.bld.qd = true ∧ q2.1 ≠ 0 then fastLll c run .dd q2.2 else q2).1 ([e1] ++ A2 ++ A3) ∧
      (∀ e ∈ A3, e.call = ⟨.mpz, .dd, .fast, 0, c.delta, c.eta, true⟩) ∧ A3.length ≤ 1 := by
    by_cases hc : c.bld.qd = true ∧ q2.1 ≠ 0
    · rw [if_pos hc, fdd]
      obtain ⟨e2, he2, p3⟩ := callLll_phase (run := run) ⟨.mpz, .dd, .fast, 0, c.delta, c.eta, true⟩ q2.2
      exact ⟨[e2], p2.cons hc.2 p3, fun e he => by rw [List.mem_singleton] at he; rw [he, he2], by simp⟩
    · rw [if_neg hc]; exact ⟨[], by simpa using p2, fun e he => (by cases he), by simp⟩
  generalize (if c.bld.qd = true ∧ q2.1 ≠ 0 then fastLll c run .dd q2.2 else q2) = q3 at *
  have hA : ∀ e ∈ [e1] ++ A2 ++ A3, e.call.meth = .fast ∧ e.call.delta = c.delta ∧ e.call.eta = c.eta := by
    intro e he
    rw [List.mem_append, List.mem_append, List.mem_singleton] at he
    rcases he with (he | he) | he
    · rw [he, he1]; exact ⟨rfl, rfl, rfl⟩
    · rw [hA2 e he]; exact ⟨rfl, rfl, rfl⟩
    · rw [hA3 e he]; exact ⟨rfl, rfl, rfl⟩
  have hAp : dblDigits < c.bld.ldBits → c.bld.ldBits < precDD →
      ([e1] ++ A2 ++ A3).Pairwise fun a b => a.call.bits c.bld < b.call.bits c.bld := by
    intro g1 g2
    have single : ∀ L : List Entry, L.length ≤ 1 → L.Pairwise fun a b => a.call.bits c.bld < b.call.bits c.bld := by
      intro L hL
      rcases L with _ | ⟨x, _ | ⟨y, L⟩⟩
      · exact List.Pairwise.nil
      · exact List.pairwise_singleton _ _
      · simp at hL
    rw [List.append_assoc, List.singleton_append, List.pairwise_cons, List.pairwise_append]
    refine ⟨fun x hx => ?_, single A2 hA2', single A3 hA3', fun a ha b hb => ?_⟩
    · rw [he1]
      rcases List.mem_append.1 hx with hx | hx
      · rw [hA2 x hx]; exact g1
      · rw [hA3 x hx]; exact lt_trans g1 g2
    · rw [hA2 a ha, hA3 b hb]; exact g2
  generalize (if c.bld.qd = true then precDD else if c.bld.longDouble = true then c.bld.ldBits else dblDigits) = lp at *
  by_cases h0 : q3.1 ≠ 0
  · rw [if_pos h0] at hr
    by_cases hl : c.little q3.1 lp = true
    · rw [if_pos hl, Option.map_eq_some_iff] at hr
      obtain ⟨r, hr', rfl⟩ := hr
      obtain ⟨N, i1, -, i3, i4⟩ := provedLoop_phase (me := me) fuel _ _ r (by rw [p3.exps, hme]) hr'
      refine ⟨r.1, [e1] ++ A2 ++ A3, [], N, ?_, by simp, hA, fun e he => (by cases he), i3, hAp, List.Pairwise.nil,
        fun hK => ⟨(i4 hK (.inl rfl)).1, fun b hb => (by cases hb)⟩⟩
      rw [List.append_nil]
      exact p3.cons h0 i1
    · rw [if_neg hl, Option.map_eq_some_iff] at hr
      obtain ⟨r, hr', rfl⟩ := hr
      obtain ⟨B, C, i1, -, i3, i4, i5, i6⟩ := heuristicLoop_phase (me := me) fuel _ _ r (by rw [p3.exps, hme]) hr'
      have hR : Reach c (increasePrec c dblDigits) := Reach.next (.inl rfl) (.inr rfl)
      refine ⟨r.1, [e1] ++ A2 ++ A3, B, C, ?_, by simp, hA, i3, i4, hAp, (i5 hR).1, fun hK => i6 hK hR⟩
      rw [List.append_assoc]
      exact p3.cons h0 i1
  · rw [if_neg h0] at hr
    cases hr
    exact ⟨q3.1, [e1] ++ A2 ++ A3, [], [], by simpa using p3, by simp, hA, fun e he => (by cases he),
      fun e he => (by cases he), hAp, List.Pairwise.nil, fun _ => ⟨List.Pairwise.nil, fun b hb => (by cases hb)⟩⟩

end Wrapper
end Fplll

import Verif.Proofs.Dpe
import Mathlib.Tactic.NormNum.Pow

/-!
# C63, C64: comparison and arithmetic of `dpe_t`

`val` is the number a `dpe_t` stands for, `Norm` says that it is normalized, `Fl53` are the numbers with a significand of 53
bits, `Nearest q r` says that `r` is one of those nearest to `q`.  All theorems hold for both versions of `dpe_normalize`.
-/

namespace Fplll
namespace Dpe

/-! ### C63: comparison -/

theorem sign_val (x : Dpe) : (x.val < 0 ↔ x.d < 0) ∧ (0 < x.val ↔ 0 < x.d) := by
  have hp := two_zpow_pos x.exp
  rw [val]
  constructor
  · constructor
    · intro h; by_contra h'; have := mul_nonneg (not_lt.1 h') hp.le; linarith
    · intro h; exact mul_neg_of_neg_of_pos h hp
  · constructor
    · intro h; by_contra h'; have := mul_nonpos_of_nonpos_of_nonneg (not_lt.1 h') hp.le; linarith
    · intro h; exact mul_pos h hp

/-- a larger exponent means a larger absolute value -/
theorem abs_val_lt {x y : Dpe} (hx : MantOk x.d) (hy : MantOk y.d) (h : y.exp < x.exp) : |y.val| < |x.val| := by
  rw [val, val, abs_mul, abs_mul, abs_of_pos (two_zpow_pos _), abs_of_pos (two_zpow_pos _)]
  have h1 := (mantOk_bounds hx).1
  have h2 := (mantOk_bounds hy).2
  calc |y.d| * 2 ^ y.exp < 1 * 2 ^ y.exp := mul_lt_mul_of_pos_right h2 (two_zpow_pos _)
    _ ≤ 1 * 2 ^ (x.exp - 1) := mul_le_mul_of_nonneg_left (two_zpow_le (by omega)) (by norm_num)
    _ = 1 / 2 * 2 ^ x.exp := by rw [show x.exp - 1 = -1 + x.exp by ring, two_zpow_add]; norm_num
    _ ≤ _ := mul_le_mul_of_nonneg_right h1 (two_zpow_pos _).le

/-- **C63**: `dpe_cmp` orders normalized numbers as the numbers they stand for. -/
theorem C63_cmp_partial {x y : Dpe} (hx : Norm x) (hy : Norm y) :
    (cmp x y < 0 ↔ x.val < y.val) ∧ (cmp x y = 0 ↔ x.val = y.val) ∧ (0 < cmp x y ↔ y.val < x.val) := by
  suffices H : (x.val < y.val ∧ cmp x y < 0) ∨ (x.val = y.val ∧ cmp x y = 0) ∨ (y.val < x.val ∧ 0 < cmp x y) by
    rcases H with ⟨h1, h2⟩ | ⟨h1, h2⟩ | ⟨h1, h2⟩
    · exact ⟨⟨fun _ => h1, fun _ => h2⟩, ⟨fun h => by omega, fun h => absurd h h1.ne⟩,
        ⟨fun h => by omega, fun h => absurd h h1.not_gt⟩⟩
    · exact ⟨⟨fun h => by omega, fun h => absurd h1 h.ne⟩, ⟨fun _ => h1, fun _ => h2⟩,
        ⟨fun h => by omega, fun h => absurd h1.symm h.ne⟩⟩
    · exact ⟨⟨fun h => by omega, fun h => absurd h h1.not_gt⟩, ⟨fun h => by omega, fun h => absurd h.symm h1.ne⟩,
        ⟨fun _ => h1, fun _ => h2⟩⟩
  have sx := sign_val x
  have sy := sign_val y
  rcases hx.2 with ⟨x0, xe⟩ | hxm
  · have vx : x.val = 0 := by rw [val, x0, zero_mul]
    have sgx : sign x = 0 := by rw [sign, x0]; simp
    rcases hy.2 with ⟨y0, ye⟩ | hym
    · have vy : y.val = 0 := by rw [val, y0, zero_mul]
      right; left
      refine ⟨by rw [vx, vy], ?_⟩
      simp [cmp, sign, x0, y0, xe, ye]
    · rcases lt_or_gt_of_ne (mantOk_ne hym) with hn | hp
      · right; right
        refine ⟨by rw [vx]; exact sy.1.2 hn, ?_⟩
        have : sign y = -1 := by rw [sign, if_pos hn]
        simp [cmp, sgx, this]
      · left
        refine ⟨by rw [vx]; exact sy.2.2 hp, ?_⟩
        have : sign y = 1 := by rw [sign, if_neg hp.not_gt, if_pos hp]
        simp [cmp, sgx, this]
  · rcases lt_or_gt_of_ne (mantOk_ne hxm) with xn | xp
    · have sgx : sign x = -1 := by rw [sign, if_pos xn]
      have vx : x.val < 0 := sx.1.2 xn
      by_cases yn : y.d < 0
      · have sgy : sign y = -1 := by rw [sign, if_pos yn]
        have vy : y.val < 0 := sy.1.2 yn
        have hym : MantOk y.d := hy.2.resolve_left fun h => by rw [h.1] at yn; exact lt_irrefl _ yn
        rcases lt_trichotomy x.exp y.exp with he | he | he
        · right; right
          have := abs_val_lt hym hxm he
          rw [abs_of_neg vx, abs_of_neg vy] at this
          refine ⟨by linarith, ?_⟩
          simp [cmp, sgx, sgy, he.not_gt, he]
        · have hp := two_zpow_pos y.exp
          rcases lt_trichotomy x.d y.d with hd | hd | hd
          · left
            refine ⟨by rw [val, val, he]; exact mul_lt_mul_of_pos_right hd hp, ?_⟩
            simp [cmp, sgx, sgy, he, hd]
          · right; left
            refine ⟨by rw [val, val, he, hd], ?_⟩
            simp [cmp, sgx, sgy, he, hd]
          · right; right
            refine ⟨by rw [val, val, he]; exact mul_lt_mul_of_pos_right hd hp, ?_⟩
            simp [cmp, sgx, sgy, he, hd, hd.not_gt]
        · left
          have := abs_val_lt hxm hym he
          rw [abs_of_neg vx, abs_of_neg vy] at this
          refine ⟨by linarith, ?_⟩
          simp [cmp, sgx, sgy, he]
      · left
        have vy : 0 ≤ y.val := by
          by_contra h; exact yn (sy.1.1 (not_le.1 h))
        refine ⟨by linarith, ?_⟩
        have : sign y = 0 ∨ sign y = 1 := by
          rw [sign, if_neg yn]; split_ifs <;> simp
        rcases this with h | h <;> simp [cmp, sgx, h]
    · have sgx : sign x = 1 := by rw [sign, if_neg xp.not_gt, if_pos xp]
      have vx : 0 < x.val := sx.2.2 xp
      by_cases yp : 0 < y.d
      · have sgy : sign y = 1 := by rw [sign, if_neg yp.not_gt, if_pos yp]
        have vy : 0 < y.val := sy.2.2 yp
        have hym : MantOk y.d := hy.2.resolve_left fun h => by rw [h.1] at yp; exact lt_irrefl _ yp
        rcases lt_trichotomy x.exp y.exp with he | he | he
        · left
          have := abs_val_lt hym hxm he
          rw [abs_of_pos vx, abs_of_pos vy] at this
          refine ⟨by linarith, ?_⟩
          simp [cmp, sgx, sgy, he.not_gt, he]
        · have hp := two_zpow_pos y.exp
          rcases lt_trichotomy x.d y.d with hd | hd | hd
          · left
            refine ⟨by rw [val, val, he]; exact mul_lt_mul_of_pos_right hd hp, ?_⟩
            simp [cmp, sgx, sgy, he, hd]
          · right; left
            refine ⟨by rw [val, val, he, hd], ?_⟩
            simp [cmp, sgx, sgy, he, hd]
          · right; right
            refine ⟨by rw [val, val, he]; exact mul_lt_mul_of_pos_right hd hp, ?_⟩
            simp [cmp, sgx, sgy, he, hd, hd.not_gt]
        · right; right
          have := abs_val_lt hxm hym he
          rw [abs_of_pos vx, abs_of_pos vy] at this
          refine ⟨by linarith, ?_⟩
          simp [cmp, sgx, sgy, he]
      · right; right
        have vy : y.val ≤ 0 := by
          by_contra h; exact yp (sy.2.1 (not_le.1 h))
        refine ⟨by linarith, ?_⟩
        have : sign y = 0 ∨ sign y = -1 := by
          rw [sign]; split_ifs <;> simp
        rcases this with h | h <;> simp [cmp, sgx, h]

/-- the number three -/
def three : Dpe := ⟨3 / 4, 2⟩
/-- the number minus one fifth, rounded -/
def mFifth : Dpe := ⟨-7205759403792794 / 2 ^ 53, -2⟩

theorem norm_three : Norm three :=
  ⟨by norm_num [ExpOk, three], Or.inr ⟨3 * 2 ^ 51, by norm_num [three], by norm_num, by norm_num⟩⟩
theorem norm_mFifth : Norm mFifth :=
  ⟨by norm_num [ExpOk, mFifth], Or.inr ⟨-7205759403792794, by norm_num [mFifth], by norm_num, by norm_num⟩⟩

/-- the hypotheses of `C63_cmp_partial` can be met -/
example : Norm three ∧ Norm mFifth ∧ 0 < cmp three mFifth := ⟨norm_three, norm_mFifth, by decide +kernel⟩

/-- **C63 fails** for the zero that `dpe_set_z` makes: it is not normalized, compares less than zero, and `sgn` says that it
is negative.  The same holds for the zero that `dpe_sqrt` makes of zero. -/
theorem C63_zero_violated (le : Bool) :
    (setZ 0).val = 0 ∧ ¬ Norm (setZ 0) ∧ cmp (setZ 0) ⟨0, expMin⟩ = -1 ∧ sgn le (setZ 0) = .ok (-1) ∧
    ∃ s, sqrt ⟨0, expMin⟩ = .ok s ∧ s.val = 0 ∧ ¬ Norm s ∧ cmp s ⟨0, expMin⟩ = -1 ∧ sgn le s = .ok (-1) := by
  have nn : ∀ e : ℤ, e ≠ -2 ^ 31 → ¬ Norm ⟨0, e⟩ := by
    intro e he h
    rcases h.2 with ⟨_, h1⟩ | h1
    · exact he h1
    · exact mantOk_ne h1 rfl
  refine ⟨by simp [setZ, val], nn 0 (by norm_num), by decide +kernel, ?_, ⟨0, -2 ^ 30⟩, by decide +kernel, by simp [val], nn _ (by norm_num),
    by decide +kernel, ?_⟩
  · cases le <;> rfl
  · cases le <;> rfl

/-- **C63 fails** after `mul_2si` of zero: the product is less than zero when the exponent grows, and the `int` exponent
overflows when it shrinks. -/
theorem C63_mul_2si_zero_violated (le : Bool) {e : ℤ} (h1 : 0 < e) (h2 : e < 2 ^ 31) :
    (∃ r, mul2si ⟨0, expMin⟩ e = .ok r ∧ r.val = 0 ∧ sgn le r = .ok (-1)) ∧
    mul2si ⟨0, expMin⟩ (-e) = .error .overflow := by
  have w1 : wrap32 e = e := by rw [wrap32]; omega
  have w2 : wrap32 (-e) = -e := by rw [wrap32]; omega
  constructor
  · refine ⟨⟨0, expMin + e⟩, ?_, by simp [val], ?_⟩
    · rw [mul2si, w1]
      dsimp only
      rw [chk_of (by rw [expMin]; omega) (by rw [expMin]; omega)]; rfl
    · have : cmp ⟨0, expMin + e⟩ ⟨0, expMin⟩ = -1 := by
        simp [cmp, sign, h1]
      rw [sgn, cmpD, setD, normalize, if_pos rfl]
      show Except.ok _ = _
      rw [this]
  · rw [mul2si, w2]
    dsimp only
    rw [chk, if_neg (by rw [expMin]; omega)]; rfl

/-! ### C64: arithmetic -/

/-- specification: the relative error of `r` as an approximation of `q` is at most half a unit of the last place of `r` -/
def RelErr (q r : ℚ) : Prop := |q - r| ≤ 2 ^ (-53 : ℤ) * |r|

/-- **C64** (`dpe_add`): the sum of normalized numbers is normalized, its relative error is at most `2^-53`, and it is a
nearest 53-bit number except in the corner case. -/
theorem C64_add_partial {le : Bool} {y z x : Dpe} (hy : Norm y) (hz : Norm z) (h : add le y z = .ok x) :
    Norm x ∧ RelErr (y.val + z.val) x.val ∧ (¬ Corner y z → ¬ Corner z y → Nearest (y.val + z.val) x.val) := by
  rcases add_cases h with ⟨hf, rfl⟩ | ⟨hf, rfl⟩ | ⟨k, hk, he, hn⟩ | ⟨k, hk, he, hn⟩
  · exact ⟨hy, far_err hy hz hf, fun c _ => far_nearest hy hz hf c⟩
  · refine ⟨hz, ?_, fun _ c => ?_⟩
    · rw [add_comm]; exact far_err hz hy hf
    · rw [add_comm]; exact far_nearest hz hy hf c
  · rw [scale_eq hz hk] at hn
    obtain ⟨h1, h2, h3⟩ := round_ok (sum_size hy hz hk) hn
    have e : (y.d + z.d / 2 ^ k) * 2 ^ y.exp = y.val + z.val := by
      rw [val, val, add_mul, he, two_zpow_add, zpow_natCast]
      have : (2 : ℚ) ^ k ≠ 0 := by positivity
      field_simp
    rw [e] at h2 h3
    exact ⟨h1, h3, fun _ _ => h2⟩
  · rw [scale_eq hy hk] at hn
    obtain ⟨h1, h2, h3⟩ := round_ok (sum_size hz hy hk) hn
    have e : (z.d + y.d / 2 ^ k) * 2 ^ z.exp = y.val + z.val := by
      rw [val, val, add_mul, he, two_zpow_add, zpow_natCast]
      have : (2 : ℚ) ^ k ≠ 0 := by positivity
      field_simp
      ring
    rw [e] at h2 h3
    exact ⟨h1, h3, fun _ _ => h2⟩

/-- `dpe_add` can only fail by overflow of the exponent: not for exponents between `-2^30` and `2^30`, nor for zero -/
theorem C64_add_total {le : Bool} {y z : Dpe} (hy : Norm y) (hz : Norm z) (h1 : y.d = 0 ∨ -2 ^ 30 ≤ y.exp) (h2 : y.exp < 2 ^ 30)
    (h3 : z.d = 0 ∨ -2 ^ 30 ≤ z.exp) (h4 : z.exp < 2 ^ 30) : ∃ x, add le y z = .ok x := by
  have ry := hy.1
  have rz := hz.1
  rw [ExpOk] at ry rz
  rw [add, chk_of (by omega) (by omega)]
  simp only [bind, Except.bind]
  by_cases c1 : z.exp + 53 < y.exp
  · rw [if_pos c1]; exact ⟨_, rfl⟩
  · rw [if_neg c1, chk_of (by omega) (by omega)]
    simp only []
    by_cases c2 : y.exp + 53 < z.exp
    · rw [if_pos c2]; exact ⟨_, rfl⟩
    · rw [if_neg c2, chk_of (by omega) (by omega)]
      simp only []
      -- the exponent of a sum of shifted mantissas is between -106 and 1
      have key : ∀ {a b : Dpe}, Norm a → Norm b → (a.d = 0 ∨ -2 ^ 30 ≤ a.exp) → (b.d = 0 ∨ -2 ^ 30 ≤ b.exp) → a.exp < 2 ^ 30 → ∀ k : ℕ, k ≤ 53 →
          a.exp = b.exp + k → ∃ x, normalize le ⟨rn (a.d + b.d / 2 ^ k), a.exp⟩ = .ok x := by
        intro a b ha hb la lb ua k hk he
        have hs := sum_size ha hb hk
        by_cases h0 : a.d + b.d / 2 ^ k = 0
        · rw [h0, rn_zero]; exact ⟨_, by rw [normalize, if_pos rfl]⟩
        · have hge : -2 ^ 30 ≤ a.exp := by
            rcases la with h | h
            · rcases lb with h' | h'
              · rw [h, h'] at h0; simp at h0
              · omega
            · exact h
          have hs' := hs.resolve_left h0
          have hup : |a.d + b.d / 2 ^ k| < 2 := by
            have hb' : ∀ {c : Dpe}, Norm c → |c.d| < 1 := by
              intro c hc
              rcases hc.2 with ⟨h, _⟩ | h
              · rw [h]; norm_num
              · exact (mantOk_bounds h).2
            have h1 := abs_add_le a.d (b.d / 2 ^ k)
            have h2 : |b.d / 2 ^ k| ≤ |b.d| := by
              rw [abs_div]; exact div_le_self (abs_nonneg _) (by rw [abs_of_pos (by positivity)]; exact one_le_pow₀ (by norm_num))
            linarith [hb' ha, hb' hb]
          have hrn := rn_ge hs'
          have hrn0 : rn (a.d + b.d / 2 ^ k) ≠ 0 := by
            intro h'; rw [h', abs_zero] at hrn; exact absurd (two_zpow_pos _) (not_lt.2 hrn)
          have hrnu : |rn (a.d + b.d / 2 ^ k)| ≤ 4 := by
            have := rn_err hs'
            have h5 : |rn (a.d + b.d / 2 ^ k)| ≤ |a.d + b.d / 2 ^ k - rn (a.d + b.d / 2 ^ k)| + |a.d + b.d / 2 ^ k| := by
              have := abs_sub_le (rn (a.d + b.d / 2 ^ k)) (a.d + b.d / 2 ^ k) 0
              rwa [sub_zero, sub_zero, abs_sub_comm] at this
            have h6 : (2 : ℚ) ^ (-53 : ℤ) ≤ 1 / 2 := by norm_num
            have h7 := mul_le_mul_of_nonneg_right h6 (abs_nonneg (rn (a.d + b.d / 2 ^ k)))
            linarith
          obtain ⟨l1, l2⟩ := log_bounds hrn0
          have g1 : Int.log 2 |rn (a.d + b.d / 2 ^ k)| ≤ 2 := by
            by_contra hg
            have : (2 : ℚ) ^ (3 : ℤ) ≤ 2 ^ Int.log 2 |rn (a.d + b.d / 2 ^ k)| := two_zpow_le (by omega)
            norm_num at this; linarith
          have g2 : -1023 < Int.log 2 |rn (a.d + b.d / 2 ^ k)| := by
            have := lt_of_two_zpow_lt (lt_of_le_of_lt hrn l2); omega
          refine normalize_total (Or.inr hrn) (fun _ => ?_) (fun _ => ?_) <;> rw [frexpE] <;> dsimp only <;> omega
      by_cases c3 : 0 ≤ y.exp - z.exp
      · rw [if_pos c3]
        have hk : -(y.exp - z.exp) = -((y.exp - z.exp).toNat : ℤ) := by omega
        rw [hk, scale_eq hz (by omega)]
        exact key hy hz h1 h3 h2 _ (by omega) (by omega)
      · rw [if_neg c3]
        have hk : y.exp - z.exp = -((z.exp - y.exp).toNat : ℤ) := by omega
        rw [hk, scale_eq hy (by omega)]
        exact key hz hy h3 h1 h4 _ (by omega) (by omega)

theorem norm_neg {x : Dpe} (h : Norm x) : Norm (neg x) := by
  refine ⟨h.1, ?_⟩
  rcases h.2 with ⟨h0, h1⟩ | ⟨n, h1, h2, h3⟩
  · exact Or.inl ⟨by rw [neg]; simp [h0], h1⟩
  · exact Or.inr ⟨-n, by rw [neg]; simp [h1, neg_div], by rwa [abs_neg], by rwa [abs_neg]⟩

theorem val_neg (x : Dpe) : (neg x).val = -x.val := by rw [neg, val, val]; ring

/-- **C64** (`dpe_sub`): the same as adding the negative -/
theorem C64_sub_eq {le : Bool} {y z : Dpe} (hy : Norm y) (hz : Norm z) : sub le y z = add le y (neg z) := by
  have hnz : scale z.d = fun s => scale z.d s := rfl
  have ry := hy.1
  have rz := hz.1
  rw [ExpOk] at ry rz
  rw [sub, add]
  have he : (neg z).exp = z.exp := rfl
  rw [he]
  cases h1 : chk (z.exp + 53) with
  | error e => rfl
  | ok t =>
    obtain ⟨rfl, -, -⟩ := chk_ok.1 h1
    simp only [bind, Except.bind]
    by_cases c1 : z.exp + 53 < y.exp
    · rw [if_pos c1, if_pos c1]
    · rw [if_neg c1, if_neg c1]
      cases h2 : chk (y.exp + 53) with
      | error e => rfl
      | ok t =>
        obtain ⟨rfl, -, -⟩ := chk_ok.1 h2
        simp only []
        by_cases c2 : y.exp + 53 < z.exp
        · rw [if_pos c2, if_pos c2]
        · rw [if_neg c2, if_neg c2]
          cases h3 : chk (y.exp - z.exp) with
          | error e => rfl
          | ok t =>
            obtain ⟨rfl, -, -⟩ := chk_ok.1 h3
            simp only []
            by_cases c3 : 0 ≤ y.exp - z.exp
            · rw [if_pos c3, if_pos c3]
              have hk : -(y.exp - z.exp) = -((y.exp - z.exp).toNat : ℤ) := by omega
              rw [hk, scale_eq hz (by omega), scale_eq (norm_neg hz) (by omega)]
              congr 3
              rw [neg]; ring
            · rw [if_neg c3, if_neg c3]
              congr 3
              rw [neg]; ring

/-- **C64** (`dpe_sub`) -/
theorem C64_sub_partial {le : Bool} {y z x : Dpe} (hy : Norm y) (hz : Norm z) (h : sub le y z = .ok x) :
    Norm x ∧ RelErr (y.val - z.val) x.val ∧
    (¬ Corner y (neg z) → ¬ Corner (neg z) y → Nearest (y.val - z.val) x.val) := by
  rw [C64_sub_eq hy hz] at h
  have := C64_add_partial hy (norm_neg hz) h
  rwa [val_neg, ← sub_eq_add_neg] at this

/-- **C64** (`dpe_mul`): correctly rounded -/
theorem C64_mul {le : Bool} {y z x : Dpe} (hy : Norm y) (hz : Norm z) (h : mul le y z = .ok x) :
    Norm x ∧ Nearest (y.val * z.val) x.val ∧ RelErr (y.val * z.val) x.val := by
  rw [mul] at h
  cases h1 : chk (y.exp + z.exp) with
  | error e => rw [h1] at h; cases h
  | ok t =>
    obtain ⟨rfl, -, -⟩ := chk_ok.1 h1
    rw [h1] at h
    simp only [bind, Except.bind] at h
    have hq : y.d * z.d = 0 ∨ (2 : ℚ) ^ (-1022 : ℤ) ≤ |y.d * z.d| := by
      rcases hy.2 with ⟨h0, _⟩ | hym
      · left; rw [h0, zero_mul]
      · rcases hz.2 with ⟨h0, _⟩ | hzm
        · left; rw [h0, mul_zero]
        · right
          have a := (mantOk_bounds hym).1
          have b := (mantOk_bounds hzm).1
          refine small_le (k := -2) (by norm_num) ?_
          rw [abs_mul]
          calc (2 : ℚ) ^ (-2 : ℤ) = 1 / 2 * (1 / 2) := by norm_num
            _ ≤ _ := mul_le_mul a b (by norm_num) (abs_nonneg _)
    obtain ⟨a, b, c⟩ := round_ok hq h
    have e : y.d * z.d * 2 ^ (y.exp + z.exp) = y.val * z.val := by rw [val, val, two_zpow_add]; ring
    rw [e] at b c
    exact ⟨a, b, c⟩

/-- **C64** (`dpe_div`): correctly rounded; with a zero divisor there is no finite result -/
theorem C64_div {le : Bool} {y z x : Dpe} (hy : Norm y) (hz : Norm z) (h : div le y z = .ok x) :
    z.val ≠ 0 ∧ Norm x ∧ Nearest (y.val / z.val) x.val ∧ RelErr (y.val / z.val) x.val := by
  rw [div] at h
  cases h1 : chk (y.exp - z.exp) with
  | error e => rw [h1] at h; cases h
  | ok t =>
    obtain ⟨rfl, -, -⟩ := chk_ok.1 h1
    rw [h1] at h
    simp only [bind, Except.bind] at h
    by_cases hz0 : z.d = 0
    · rw [if_pos hz0] at h; cases h
    · rw [if_neg hz0] at h
      have hzm : MantOk z.d := hz.2.resolve_left fun h' => hz0 h'.1
      have hq : y.d / z.d = 0 ∨ (2 : ℚ) ^ (-1022 : ℤ) ≤ |y.d / z.d| := by
        rcases hy.2 with ⟨h0, _⟩ | hym
        · left; rw [h0, zero_div]
        · right
          have a := (mantOk_bounds hym).1
          have b := (mantOk_bounds hzm).2
          refine small_le (k := -1) (by norm_num) ?_
          rw [abs_div, le_div_iff₀ (abs_pos.2 hz0)]
          have : (2 : ℚ) ^ (-1 : ℤ) = 1 / 2 := by norm_num
          rw [this]
          linarith
      obtain ⟨a, b, c⟩ := round_ok hq h
      have e : y.d / z.d * 2 ^ (y.exp - z.exp) = y.val / z.val := by
        rw [val, val, sub_eq_add_neg, two_zpow_add, zpow_neg]
        have := (two_zpow_pos z.exp).ne'
        field_simp
      rw [e] at b c
      refine ⟨?_, a, b, c⟩
      rw [val]; exact mul_ne_zero hz0 (two_zpow_pos _).ne'

/-- the corner case for all operands: `dpe_add` returns the larger operand, which is not nearest -/
theorem C64_add_corner_violated {le : Bool} {y z : Dpe} (hy : Norm y) (hz : Norm z) (hc : Corner y z) :
    add le y z = .ok y ∧ ¬ Nearest (y.val + z.val) y.val := by
  have ry := hy.1
  have rz := hz.1
  rw [ExpOk] at ry rz
  obtain ⟨he, h1, h2, h3⟩ := hc
  have hzb : |z.d| < 1 := by
    rcases hz.2 with ⟨h0, _⟩ | h1
    · rw [h0]; norm_num
    · exact (mantOk_bounds h1).2
  refine ⟨?_, corner_not_nearest ⟨he, h1, h2, h3⟩ hzb⟩
  rw [add, chk_of (by omega) (by omega)]
  simp only [bind, Except.bind]
  rw [if_pos (by omega)]

/-- one, and a number just above `-2^-54`: an instance of the corner case -/
example : Norm ⟨1 / 2, 1⟩ ∧ Norm ⟨-3 / 4, -53⟩ ∧ Corner ⟨1 / 2, 1⟩ ⟨-3 / 4, -53⟩ :=
  ⟨⟨by norm_num [ExpOk], Or.inr ⟨2 ^ 52, by norm_num, by norm_num, by norm_num⟩⟩,
   ⟨by norm_num [ExpOk], Or.inr ⟨-3 * 2 ^ 51, by norm_num, by norm_num, by norm_num⟩⟩,
   by norm_num, by norm_num, by norm_num, by norm_num⟩

/-- instances of the hypotheses of the theorems above -/
example : ∃ a b c d, add true three mFifth = .ok a ∧ sub false three mFifth = .ok b ∧ mul true three mFifth = .ok c ∧
    div false three mFifth = .ok d := by
  have key : ∀ r : Except DpeErr Dpe, r.isOk = true → ∃ x, r = .ok x := by
    intro r h
    cases r with
    | error e => cases h
    | ok x => exact ⟨x, rfl⟩
  obtain ⟨a, ha⟩ := key _ (by decide +kernel : (add true three mFifth).isOk = true)
  obtain ⟨b, hb⟩ := key _ (by decide +kernel : (sub false three mFifth).isOk = true)
  obtain ⟨c, hc⟩ := key _ (by decide +kernel : (mul true three mFifth).isOk = true)
  obtain ⟨d, hd⟩ := key _ (by decide +kernel : (div false three mFifth).isOk = true)
  exact ⟨a, b, c, d, ha, hb, hc, hd⟩

/-- **C64 fails** with the zero that `dpe_set_z` makes: subtracting any number below `2^-54` from it gives zero.  In
`update_gso_row` (gso_interface.cpp:145-150) the Gram coefficient is such a number when the Gram matrix is kept in integers. -/
theorem C64_set_z_zero_violated {le : Bool} {z : Dpe} (hz : Norm z) (h0 : z.d ≠ 0) (he : z.exp < -53) :
    sub le (setZ 0) z = .ok (setZ 0) ∧ ¬ RelErr ((setZ 0).val - z.val) (setZ 0).val := by
  have rz := hz.1
  rw [ExpOk] at rz
  constructor
  · rw [sub, chk_of (by omega) (by omega)]
    simp only [bind, Except.bind]
    rw [if_pos (by show z.exp + 53 < 0; omega)]
  · have : (setZ 0).val = 0 := by simp [setZ, val]
    rw [this, RelErr, zero_sub, sub_zero, abs_zero, mul_zero, abs_neg, not_le, abs_pos, val]
    exact mul_ne_zero h0 (two_zpow_pos _).ne'

/-- **C64 fails**: the product of zero and a normalized number below 1/2 overflows the exponent, which is undefined
behaviour in C++, and so does the quotient of zero and a number from 1 on -/
theorem C64_zero_overflow_violated {le : Bool} {z : Dpe} (hz : Norm z) :
    (z.exp < 0 → mul le ⟨0, expMin⟩ z = .error .overflow) ∧ (0 < z.exp → div le ⟨0, expMin⟩ z = .error .overflow) := by
  have rz := hz.1
  rw [ExpOk] at rz
  constructor
  · intro h
    rw [mul, chk, if_neg (by dsimp only; rw [expMin]; omega)]; rfl
  · intro h
    rw [div, chk, if_neg (by dsimp only; rw [expMin]; omega)]; rfl

/-- **C64 fails** for subnormal doubles on x86: `dpe_set_d` reads the exponent bits of a subnormal number as if the number
were normal, so the result has absolute value at least `2^-1023` whatever the number -/
theorem C64_set_d_subnormal_violated {y : ℚ} (h0 : y ≠ 0) (h : |y| < 2 ^ (-1023 : ℤ)) :
    ∃ x, setD true y = .ok x ∧ |y| < |x.val| := by
  have hs : |y| < 2 ^ (-1022 : ℤ) := h.trans (two_zpow_lt (by norm_num))
  refine ⟨_, by rw [setD, normalize, if_neg (by exact h0), if_pos rfl, expField, if_pos hs, chk_of (by norm_num) (by norm_num)]; rfl, ?_⟩
  rw [val]
  dsimp only
  rw [fracBits, if_pos hs]
  have hσ : ∀ t : ℚ, |(if y < 0 then -1 else 1) * t| = |t| := by
    intro t; split_ifs <;> simp
  have h1 : (0 : ℚ) ≤ |y| * 2 ^ (1074 : ℤ) := mul_nonneg (abs_nonneg _) (two_zpow_pos _).le
  generalize |y| * 2 ^ (1074 : ℤ) = t at h1
  have hT : (2 : ℚ) ^ (-1 : ℤ) ≤ |(2 ^ 52 + t) / 2 ^ 53| := by
    rw [abs_of_nonneg (by positivity), le_div_iff₀ (by norm_num)]
    have : (2 : ℚ) ^ (-1 : ℤ) * 2 ^ 53 = 2 ^ 52 := by norm_num
    rw [this]; linarith
  rw [abs_mul (_ * _) _, hσ, abs_of_pos (two_zpow_pos (0 + (0 - 1022)))]
  calc |y| < 2 ^ (-1023 : ℤ) := h
    _ = 2 ^ (-1 : ℤ) * 2 ^ (0 + (0 - 1022 : ℤ)) := by rw [← two_zpow_add]; norm_num
    _ ≤ _ := mul_le_mul_of_nonneg_right hT (two_zpow_pos _).le

end Dpe
end Fplll

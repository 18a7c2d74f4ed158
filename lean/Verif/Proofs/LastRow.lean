import Verif.Proofs.HkzExact

/-!
# The last row of an HKZ-reduced basis

`hkz` ends with `size_reduction(max_row - 1, max_row, max_row - 2)`, which only looks at one coefficient of the last row.  For parameters close to
the default ones this suffices: the last block has two rows, and after LLL its shortest vector is one of `b₀`, `b₁`, `b₁ ± b₀`.
-/

namespace Fplll
namespace BKZ

open FloatOps GSO LLL Spec

/-- the coefficient of `w` on `b*_j` is at most `η`; the first `j + 1` rows only matter through their lattices -/
def MuLe (η : ℚ) (n : ℕ) (B : ℕ → ℕ → ℚ) (j : ℕ) (w : ℕ → ℚ) : Prop :=
  distSq n B j w - distSq n B (j + 1) w ≤ η ^ 2 * normStar n B j

theorem distSq_succ (n : ℕ) (B : ℕ → ℕ → ℚ) (j : ℕ) (w : ℕ → ℚ) :
    distSq n B j w = distSq n B (j + 1) w + dotQ n w (bstar n B j) ^ 2 / normStar n B j := by
  unfold distSq spanSq
  rw [Finset.sum_Ico_succ_top (Nat.zero_le j)]
  ring

theorem muLe_iff {η : ℚ} {n : ℕ} {B : ℕ → ℕ → ℚ} {i j : ℕ} (h0 : 0 ≤ η) (hp : 0 < normStar n B j) :
    MuLe η n B j (B i) ↔ |muS n B i j| ≤ η := by
  unfold MuLe
  have e : distSq n B j (B i) - distSq n B (j + 1) (B i) = muS n B i j ^ 2 * normStar n B j := by
    rw [distSq_succ]
    have : dotQ n (B i) (bstar n B j) = muS n B i j * normStar n B j := by
      unfold muS; change _ = _ / normStar n B j * _; rw [div_mul_cancel₀ _ hp.ne']
    rw [this]
    field_simp
    ring
  rw [e, mul_le_mul_iff_left₀ hp, sq_le_sq, abs_of_nonneg h0]

theorem MuLe.congr {η : ℚ} {n j : ℕ} {b b' : ℕ → ℕ → ℤ} {w : ℕ → ℚ} (h : MuLe η n (toQ b) j w) (h1 : PreEq n j b b') (h2 : PreEq n (j + 1) b b') :
    MuLe η n (toQ b') j w := by
  unfold MuLe at h ⊢
  rwa [← distSq_pre h1, ← distSq_pre h2, ← normStar_pre h1 h2]

/-- squared length of the projection of a combination of two consecutive rows -/
theorem distSq_two {n : ℕ} {B : ℕ → ℕ → ℚ} {p : ℕ} (hp : 0 < normStar n B p) (y0 y1 : ℚ) {w : ℕ → ℚ} (hw : ∀ c < n, w c = y0 * B p c + y1 * B (p + 1) c) :
    distSq n B p w = y1 ^ 2 * normStar n B (p + 1) + (y0 + y1 * muS n B (p + 1) p) ^ 2 * normStar n B p := by
  rw [distSq_succ]
  have e1 : distSq n B (p + 1) w = y1 ^ 2 * normStar n B (p + 1) := by
    rw [← distSq_row]
    refine distSq_scale (a := fun i => if i = p then y0 else 0) y1 fun c hc => ?_
    unfold lc
    rw [hw c hc]
    simp
    ring
  have hb : ∀ i, dotQ n (B i) (bstar n B p) = muS n B i p * normStar n B p := fun i => by
    unfold muS; change _ = _ / normStar n B p * _; rw [div_mul_cancel₀ _ hp.ne']
  have e2 : dotQ n w (bstar n B p) = (y0 + y1 * muS n B (p + 1) p) * normStar n B p := by
    rw [dotQ_congr hw (fun _ _ => rfl), dotQ_add_left n (fun c => y0 * B p c) (B (p + 1)), hb]
    have := dotQ_add_left n (fun _ => 0) (B p) (bstar n B p) y0
    rw [hb, muS_self hp.ne'] at this
    simp only [zero_add] at this
    rw [this]
    unfold dotQ; simp; ring
  rw [e1, e2]
  field_simp

/-- the parameters for which the last coefficient stays small; `0.99` and `0.51` are such -/
structure Tame (η thr : ℚ) : Prop where
  lt1 : η < 1
  half : 1 / 2 ≤ η
  a : 1 ≤ 2 * η * thr
  b : 1 - 2 * η + 2 * η ^ 2 ≤ η * thr
  c : 1 / 4 < thr - η ^ 2

/-- a shortest vector of a two-dimensional lattice whose basis is LLL-reduced -/
theorem two_rows {η thr μ r0 r1 : ℚ} (ht : Tame η thr) (h0 : 0 < r0) (h1 : 0 < r1) (hm : |μ| ≤ η) (hl : thr * r0 ≤ r1 + μ ^ 2 * r0) {z0 z1 : ℤ}
    (hz : z0 ≠ 0 ∨ z1 ≠ 0)
    (hmin : ∀ y0 y1 : ℤ, y0 ≠ 0 ∨ y1 ≠ 0 → (z1 : ℚ) ^ 2 * r1 + (z0 + z1 * μ) ^ 2 * r0 ≤ (y1 : ℚ) ^ 2 * r1 + (y0 + y1 * μ) ^ 2 * r0) :
    (z1 = 0 ∧ (z0 = 1 ∨ z0 = -1)) ∨
    ((z1 = 1 ∨ z1 = -1) ∧ |z1 * z0 + μ| * r0 ≤ η * ((z1 * z0 + μ) ^ 2 * r0 + r1)) := by
  have hle := hmin 1 0 (.inl one_ne_zero)
  push_cast at hle
  have hmu2 : μ ^ 2 ≤ η ^ 2 := by rw [← sq_abs]; exact pow_le_pow_left₀ (abs_nonneg _) hm 2
  have hr1 : (thr - η ^ 2) * r0 ≤ r1 := by nlinarith
  by_cases hz1 : z1 = 0
  · left
    refine ⟨hz1, ?_⟩
    subst hz1
    have hz0 : z0 ≠ 0 := by rcases hz with h | h; exacts [h, absurd rfl h]
    have : (z0 : ℚ) ^ 2 ≤ 1 := by
      push_cast at hle
      by_contra hc
      push Not at hc
      nlinarith
    have : z0 ^ 2 ≤ 1 := by exact_mod_cast this
    have := abs_le_of_sq_le_sq' (this.trans (by norm_num : (1 : ℤ) ≤ 1 ^ 2)) (by norm_num)
    omega
  right
  have hz1' : z1 = 1 ∨ z1 = -1 := by
    by_contra hc
    have : 2 ≤ |z1| := by
      rcases abs_cases z1 with ⟨h, h'⟩ | ⟨h, h'⟩ <;> rw [h] <;> omega
    have h4 : (4 : ℤ) ≤ z1 ^ 2 := by rw [← sq_abs]; nlinarith
    have h4 : (4 : ℚ) ≤ (z1 : ℚ) ^ 2 := by exact_mod_cast h4
    have := ht.c
    have : 4 * r1 ≤ (z1 : ℚ) ^ 2 * r1 := mul_le_mul_of_nonneg_right h4 h1.le
    have : 0 ≤ ((z0 : ℚ) + z1 * μ) ^ 2 * r0 := mul_nonneg (sq_nonneg _) h0.le
    nlinarith
  refine ⟨hz1', ?_⟩
  have hsq : (z1 : ℚ) ^ 2 = 1 := by rcases hz1' with h | h <;> rw [h] <;> norm_num
  have hsqz : z1 ^ 2 = 1 := by rcases hz1' with h | h <;> rw [h] <;> norm_num
  -- `t` is the coefficient of the inserted vector
  have key : ∀ m : ℤ, |(z1 : ℚ) * z0 + μ| ≤ |(m : ℚ) + μ| := by
    intro m
    have := hmin (z1 * m) z1 (.inr hz1)
    push_cast at this
    have e : ∀ x : ℚ, (z1 * x + z1 * μ) ^ 2 = (x + μ) ^ 2 := fun x => by
      calc _ = (z1 : ℚ) ^ 2 * (x + μ) ^ 2 := by ring
        _ = _ := by rw [hsq, one_mul]
    rw [e, show (z0 : ℚ) + z1 * μ = z1 * (z1 * z0) + z1 * μ by rw [← mul_assoc, ← pow_two, hsq, one_mul], e] at this
    have : ((z1 : ℚ) * z0 + μ) ^ 2 ≤ ((m : ℚ) + μ) ^ 2 := by nlinarith
    exact sq_le_sq.1 this
  have hint : ∃ a : ℤ, a = z1 * z0 ∧ (a : ℚ) = z1 * z0 := ⟨z1 * z0, rfl, by push_cast; ring⟩
  obtain ⟨a, -, ha⟩ := hint
  rw [← ha] at key ⊢
  have k0 := key 0
  have k1 := key 1
  have km := key (-1)
  push_cast at k0 k1 km
  rw [zero_add] at k0
  obtain ⟨l1, l2⟩ := abs_le.1 hm
  have q1 := ht.a
  have q2 := ht.b
  have q3 := ht.lt1
  have q4 := ht.half
  have ha3 : a = 0 ∨ a = 1 ∨ a = -1 := by
    have h3 : |(a : ℚ)| < 2 := by
      have := abs_sub_abs_le_abs_sub (a : ℚ) (-μ)
      rw [sub_neg_eq_add, abs_neg] at this
      linarith
    have : |a| < 2 := by exact_mod_cast h3
    rw [abs_lt] at this
    omega
  have goal : ∀ T : ℚ, |(a : ℚ) + μ| = T → T ≤ η * (T ^ 2 + (thr - μ ^ 2)) → |(a : ℚ) + μ| * r0 ≤ η * (((a : ℚ) + μ) ^ 2 * r0 + r1) := by
    intro T hT h
    rw [← sq_abs ((a : ℚ) + μ), hT]
    have h2 : T * r0 ≤ η * (T ^ 2 + (thr - μ ^ 2)) * r0 := mul_le_mul_of_nonneg_right h h0.le
    have h3 : η * (thr * r0) ≤ η * (r1 + μ ^ 2 * r0) := mul_le_mul_of_nonneg_left hl (by linarith)
    nlinarith
  rcases ha3 with h | h | h
  · subst h
    push_cast at k1 km ⊢
    simp only [zero_add] at k1 km ⊢
    have hhalf : |μ| ≤ 1 / 2 := by
      rcases abs_cases μ with ⟨h, h'⟩ | ⟨h, h'⟩
      · rw [h] at km ⊢
        rw [abs_of_nonpos (by linarith)] at km; linarith
      · rw [h] at k1 ⊢
        rw [abs_of_nonneg (by linarith)] at k1; linarith
    have := goal |μ| (by rw [Int.cast_zero, zero_add]) (by rw [sq_abs]; linarith)
    simpa using this
  · subst h
    push_cast at k0 ⊢
    have hneg : μ ≤ -1 / 2 := by
      rw [abs_of_nonneg (by linarith)] at k0
      rcases abs_cases μ with ⟨h, h'⟩ | ⟨h, h'⟩ <;> rw [h] at k0 <;> linarith
    have := goal (1 + μ) (by push_cast; exact abs_of_nonneg (by linarith)) (by nlinarith)
    simpa using this
  · subst h
    push_cast at k0 ⊢
    have hpos : 1 / 2 ≤ μ := by
      rw [abs_of_nonpos (by linarith)] at k0
      rcases abs_cases μ with ⟨h, h'⟩ | ⟨h, h'⟩ <;> rw [h] at k0 <;> linarith
    have := goal (1 - μ) (by push_cast; rw [abs_of_nonpos (by linarith)]; ring) (by nlinarith)
    simpa using this

/-- the same two rows in another order: the last row is the old first one -/
theorem mu_swapped {n p : ℕ} {b b' : ℕ → ℕ → ℤ} {a : ℤ} (hpre : PreEq n p b b') (hp : 0 < normStar n (toQ b) p) (hp' : 0 < normStar n (toQ b') p)
    (h1 : ∀ c < n, b' p c = b (p + 1) c + a * b p c) (h2 : ∀ c < n, b' (p + 1) c = b p c) :
    normStar n (toQ b') p = normStar n (toQ b) (p + 1) + (a + muS n (toQ b) (p + 1) p) ^ 2 * normStar n (toQ b) p ∧
    muS n (toQ b') (p + 1) p * normStar n (toQ b') p = (a + muS n (toQ b) (p + 1) p) * normStar n (toQ b) p := by
  have f := @distSq_two n (toQ b) p hp
  have g := @distSq_two n (toQ b') p hp'
  have e1 : ∀ c < n, toQ b' p c = (a : ℚ) * toQ b p c + 1 * toQ b (p + 1) c := fun c hc => by
    unfold toQ; rw [h1 c hc]; push_cast; ring
  have e2 : ∀ c < n, toQ b' (p + 1) c = 1 * toQ b p c + 0 * toQ b (p + 1) c := fun c hc => by
    unfold toQ; rw [h2 c hc]; ring
  have f1 := f (a : ℚ) 1 e1
  have f2 := f 1 0 e2
  have f3 := f ((a : ℚ) + 1) 1 (w := fun c => toQ b' p c + toQ b' (p + 1) c) (fun c hc => by rw [e1 c hc, e2 c hc]; ring)
  have g1 := g 1 0 (w := toQ b' p) (fun c _ => by ring)
  have g2 := g 0 1 (w := toQ b' (p + 1)) (fun c _ => by ring)
  have g3 := g 1 1 (w := fun c => toQ b' p c + toQ b' (p + 1) c) (fun c _ => by ring)
  rw [← distSq_pre hpre] at g1 g2 g3
  rw [f1] at g1
  rw [f2] at g2
  rw [f3] at g3
  have A : normStar n (toQ b') p = normStar n (toQ b) (p + 1) + (a + muS n (toQ b) (p + 1) p) ^ 2 * normStar n (toQ b) p := by linarith
  refine ⟨A, ?_⟩
  nlinarith

variable (c : SvpCfg Exact) (o : Orc Exact) {η thr δ rad : ℚ}

/-- after the insertion into a block of two rows, `w.s` being LLL-reduced: all coefficients of the last row are small -/
theorem postprocess_two (ht : Tame η thr) {k : ℕ} {x : ℕ → Exact} {z : ℕ → ℤ} {w w' : W Exact} (hs : St w.s) (hd : k + 2 ≤ w.s.d)
    (hind : Indep (k + 2) w.s.nCols (toQ w.s.b)) (hx : ∀ i < 2, x i = some (z i : ℚ)) (hz : z 0 ≠ 0 ∨ z 1 ≠ 0)
    (hsr : ∀ i < k + 2, ∀ j < i, |muS w.s.nCols (toQ w.s.b) i j| ≤ η)
    (hl : thr * normStar w.s.nCols (toQ w.s.b) k ≤ normStar w.s.nCols (toQ w.s.b) (k + 1) + muS w.s.nCols (toQ w.s.b) (k + 1) k ^ 2 * normStar w.s.nCols (toQ w.s.b) k)
    (hmin : ∀ y : ℕ → ℤ, y 0 ≠ 0 ∨ y 1 ≠ 0 →
      (z 1 : ℚ) ^ 2 * normStar w.s.nCols (toQ w.s.b) (k + 1) + (z 0 + z 1 * muS w.s.nCols (toQ w.s.b) (k + 1) k) ^ 2 * normStar w.s.nCols (toQ w.s.b) k ≤
      (y 1 : ℚ) ^ 2 * normStar w.s.nCols (toQ w.s.b) (k + 1) + (y 0 + y 1 * muS w.s.nCols (toQ w.s.b) (k + 1) k) ^ 2 * normStar w.s.nCols (toQ w.s.b) k)
    (hmv : Mv k (k + 2) w.s w'.s) (hok : postprocess c k 2 x false w = .ok () w') :
    ∀ j ≤ k, MuLe η w.s.nCols (toQ w'.s.b) j (toQ w'.s.b (k + 1)) := by
  have p0 := hind.pos k (by omega)
  have p1 := hind.pos (k + 1) (by omega)
  have hη : 0 ≤ η := by linarith [ht.half]
  have T := two_rows ht p0 p1 (hsr (k + 1) (by omega) k (by omega)) hl hz
    (fun y0 y1 hy => by simpa using hmin (fun i => if i = 0 then y0 else y1) (by simpa using hy))
  have hm0 : ∀ i < k + 2, ∀ j < i, MuLe η w.s.nCols (toQ w.s.b) j (toQ w.s.b i) := fun i hi j hj =>
    (muLe_iff hη (hind.pos j (by omega))).2 (hsr i hi j hj)
  rcases T with ⟨h1, h0⟩ | ⟨h1, hT⟩
  · -- nothing changes
    have hb : w'.s.b = w.s.b := by
      have hscan : scan x 2 = (1, some 0) := by
        have e0 : isZero (x 0) = false := by
          rw [← Bool.not_eq_true, isZero_iff (hx 0 (by norm_num))]; omega
        have e1 : isZero (x 1) = true := (isZero_iff (hx 1 (by norm_num))).2 h1
        have u0 : isUnit (x 0) = true := (isUnit_iff (hx 0 (by norm_num))).2 h0
        simp [scan, forDown, e0, e1, u0]
      unfold postprocess at hok
      rw [hscan] at hok
      simp only [if_true, Bool.false_eq_true, if_false, Out.ok.injEq, true_and, Nat.add_zero] at hok
      rw [← hok]
      dsimp only
      funext r
      rw [moveRow_last _ le_rfl]
      congr 1
      split_ifs <;> omega
    rw [hb]
    exact fun j hj => hm0 (k + 1) (by omega) j (by omega)
  · -- the rows
    have R : (∀ c < w.s.nCols, w'.s.b k c = w.s.b (k + 1) c + z 1 * z 0 * w.s.b k c) ∧ ∀ c < w.s.nCols, w'.s.b (k + 1) c = w.s.b k c := by
      have e1 : isZero (x 1) = false := by
        rw [← Bool.not_eq_true, isZero_iff (hx 1 (by norm_num))]; omega
      have u1 : isUnit (x 1) = true := (isUnit_iff (hx 1 (by norm_num))).2 h1
      have mvA : ∀ t : GSO Exact, (t.moveRow (k + 1) k).b k = t.b (k + 1) := fun t => moveRow_top t (by omega)
      have mvB : ∀ t : GSO Exact, (t.moveRow (k + 1) k).b (k + 1) = t.b k := fun t => by
        rw [moveRow_b]; unfold rotR rotL; congr 1; split_ifs <;> omega
      by_cases hz0 : z 0 = 0
      · have e0 : isZero (x 0) = true := (isZero_iff (hx 0 (by norm_num))).2 hz0
        have hscan : scan x 2 = (1, some 1) := by simp [scan, forDown, e0, e1, u1]
        unfold postprocess at hok
        rw [hscan] at hok
        simp only [if_true, Bool.false_eq_true, if_false, Out.ok.injEq, true_and] at hok
        rw [← hok]
        dsimp only
        rw [mvA, mvB, hz0]
        exact ⟨fun c _ => by ring, fun c _ => rfl⟩
      · have e0 : isZero (x 0) = false := by
          rw [← Bool.not_eq_true, isZero_iff (hx 0 (by norm_num))]; exact hz0
        have hscan : scan x 2 = (2, some 1) := by simp [scan, forDown, e0, e1, u1]
        unfold postprocess at hok
        rw [hscan] at hok
        simp only [show ¬ (2 : ℕ) = 1 by norm_num, if_false, Out.ok.injEq, true_and] at hok
        rw [← hok]
        dsimp only
        obtain ⟨-, -, -, -, i5⟩ := insertLoop_primal (kappa := k) hs.full hd hx (show 1 < 2 by norm_num) (z 1)
        have hsol : (getSiExp (x 1)).1 = z 1 := by rw [getSiExp_int (hx 1 (by norm_num))]
        unfold insertUnit
        simp only [Bool.false_eq_true, if_false]
        rw [mvA, mvB, (rowOpEnd_fo _ _ _).b, hsol]
        refine ⟨fun c hc => ?_, fun c hc => ?_⟩
        · rw [i5 _ c hc, if_pos rfl, Finset.sum_range_succ, Finset.sum_range_one]
          simp
          ring
        · rw [i5 _ c hc, if_neg (by omega)]
    have hpre := hmv.pre k (.inl le_rfl)
    have hp' : 0 < normStar w.s.nCols (toQ w'.s.b) k := by
      have := (hmv.indep hind).pos k (by omega)
      rwa [hmv.cols] at this
    obtain ⟨n1, n2⟩ := mu_swapped (a := z 1 * z 0) hpre p0 hp' (fun c hc => by rw [R.1 c hc]) R.2
    have hw : ∀ c < w.s.nCols, toQ w'.s.b (k + 1) c = toQ w.s.b k c := fun c hc => by unfold toQ; rw [R.2 c hc]
    intro j hj
    rcases Nat.lt_or_ge j k with hlt | hge
    · have h := (hm0 k (by omega) j hlt).congr (hmv.pre j (.inl (by omega))) (hmv.pre (j + 1) (.inl (by omega)))
      unfold MuLe at h ⊢
      rwa [distSq_congr (fun _ _ _ _ => rfl) hw, distSq_congr (k := j + 1) (fun _ _ _ _ => rfl) hw]
    · obtain rfl : j = k := by omega
      rw [muLe_iff hη hp']
      push_cast at n1 n2
      have habs : |muS w.s.nCols (toQ w'.s.b) (j + 1) j| * normStar w.s.nCols (toQ w'.s.b) j =
          |(z 1 : ℚ) * z 0 + muS w.s.nCols (toQ w.s.b) (j + 1) j| * normStar w.s.nCols (toQ w.s.b) j := by
        rw [← abs_of_pos hp', ← abs_mul, n2, abs_mul, abs_of_pos p0]
      have : |muS w.s.nCols (toQ w'.s.b) (j + 1) j| * normStar w.s.nCols (toQ w'.s.b) j ≤ η * normStar w.s.nCols (toQ w'.s.b) j := by
        rw [habs, n1]; linarith
      exact le_of_mul_le_mul_right this hp'

/-- LLL before the enumeration: the rows it works on are LLL-reduced -/
theorem preprocess_reduced (hc : PCfg c.lll η thr δ) (hX : XCfg c.lll η thr) (hsg : c.lll.siegel = false) {bs : ℤ} (hpre : o.preproc bs = [])
    (tour : ℤ → ℤ → ℤ → W Exact → Out (W Exact) Bool) {k : ℕ} {w w' : W Exact} (hs : St w.s) (hbs : 1 ≤ bs) (hd : k + bs.toNat ≤ w.s.d)
    (hind : Indep (k + bs.toNat) w.s.nCols (toQ w.s.b)) (hv : ∀ i < k, i + 1 ≤ w.s.gsoValidCols i) (h : preprocess c o false tour k bs w = .ok () w') :
    LLLReduced w'.s.nCols (k + bs.toNat) (toQ w'.s.b) thr η := by
  have hmv := (preprocess_pref c o hc hpre false tour (P := 0) hs hbs hd hind (fun m _ hm => by omega) hv h).1
  have hi' := hmv.indep hind
  unfold preprocess at h
  obtain ⟨r, w1, h1, h2⟩ := Out.bind_ok h
  rw [hpre] at h2
  simp only [Bool.false_eq_true, if_false] at h1
  unfold lllOp at h1
  split_ifs at h1 with hr
  simp only [Out.ok.injEq] at h1
  split_ifs at h2 with h3
  simp only [preprocLoop, Out.ok.injEq, true_and] at h2
  have hok := congrArg Prod.fst h1.1
  dsimp only at hok
  rw [Bool.not_eq_false] at h3
  rw [h3, decide_eq_true_eq] at hok
  have e : ((k : ℤ) + bs).toNat = k + bs.toNat := by omega
  rw [e] at hok h1
  simp only [Int.toNat_zero] at hok h1
  have x := (lll_exact c.lll hX c.fuel (o.maxIter w.t) w.last hs.full.wf hs.fresh hs.unlocked (e := k + bs.toNat) (by omega) hd).1 hok
  have hw' : w'.s = (lll c.lll c.fuel (o.maxIter w.t) w.last w.s 0 0 (k + bs.toNat) 0).2.s := by rw [← h2, ← h1.2]
  rw [hw'] at hi' ⊢
  clear hw' h1 hok
  generalize (lll c.lll c.fuel (o.maxIter w.t) w.last w.s 0 0 (k + bs.toNat) 0).2 = q at *
  have hz : q.zeros = 0 := by
    by_contra hne
    have hzr := x.zero (k + bs.toNat - 1) (by omega) (by omega)
    have hp := hi'.pos (k + bs.toNat - 1) (by omega)
    rw [← distSq_row] at hp
    have h2 := hp.trans_le (distSq_anti (Nat.zero_le _) _)
    unfold distSq spanSq at h2
    rw [dotQ_zero_right _ (fun c hc => by unfold toQ; rw [hzr c hc]; simp)] at h2
    simp at h2
  rw [hz, Nat.sub_zero] at x
  refine ⟨x.sr, fun i hi => ?_⟩
  have := x.cond i hi
  unfold CondS at this
  rw [hsg] at this
  simp only [Bool.false_eq_true, if_false] at this
  rw [projSq_succ', projSq_self] at this
  exact this

/-- `svp_reduction` of a block of two rows -/
theorem svpReduction_two (ht : Tame η thr) (hc : PCfg c.lll η thr δ) (hX : XCfg c.lll η thr) (hsg : c.lll.siegel = false) (htr : Truthful rad o) {k : ℕ}
    (hpre : o.preproc 2 = []) (hmore : ∀ t, o.more t 0 = true) (honce : ∀ t it, 1 ≤ it → o.more t it = false)
    (tour : ℤ → ℤ → ℤ → W Exact → Out (W Exact) Bool) {clean : Bool} {w w' : W Exact} (hs : St w.s) (hind : Indep (k + 2) w.s.nCols (toQ w.s.b))
    (hprot : Prot δ 0 k (k + 2) w.s) (h : svpReduction c o false tour k 2 false w = .ok clean w') :
    ∀ j ≤ k, |muS w'.s.nCols (toQ w'.s.b) (k + 1) j| ≤ η := by
  unfold svpReduction at h
  simp only [Bool.false_eq_true, if_false] at h
  by_cases hr : 0 ≤ (k : ℤ) ∧ 1 ≤ (2 : ℤ) ∧ (k : ℤ) + 2 ≤ w.s.d
  swap
  · rw [if_neg hr] at h; exact absurd h (by simp)
  rw [if_pos hr] at h
  have e : ((k : ℤ) + 1).toNat = k + 1 := by omega
  obtain ⟨r1, w1, h1, h⟩ := Out.bind_ok h
  split_ifs at h with hr1
  rw [Bool.not_eq_false] at hr1
  rw [hr1] at h1
  obtain ⟨m1, v1, -, -⟩ := sizeRedOp_pref c hc.eta hs h1 (k + 1) (k + 2)
  rw [e] at v1
  have m1k := m1.mono (P' := k) (E' := k + 2) (by omega) le_rfl
  have hη : 0 ≤ η := hc.eta0
  obtain ⟨_, w2, h2, h⟩ := Out.bind_ok h
  have K : Mv k (k + 2) w1.s w2.s ∧ ∀ j ≤ k, MuLe η w1.s.nCols (toQ w2.s.b) j (toQ w2.s.b (k + 1)) := by
    have hi1 := m1.indep hind
    have hd1 : k + 2 ≤ w1.s.d := by rw [m1.d]; omega
    have hp1 := hprot.mv m1k
    have hv1 : ∀ i < k, i + 1 ≤ w1.s.gsoValidCols i := fun i hi => v1 i (by omega)
    cases hn : c.inner with
    | zero => rw [hn] at h2; simp [svpLoop] at h2
    | succ n =>
      rw [hn, svpLoop, if_neg (by rw [hmore]; simp)] at h2
      simp only [Bool.false_eq_true, if_false] at h2
      obtain ⟨_, u1, g1, h2⟩ := Out.bind_ok h2
      simp only [Out.ok.injEq, true_and] at g1
      obtain ⟨_, u2, g2, h2⟩ := Out.bind_ok h2
      have su : u1.s = w1.s := by rw [← g1]; rfl
      have hl := preprocess_reduced c o hc hX hsg hpre tour (k := k) (w := u1) (by rw [su]; exact m1.st) (by norm_num) (by rw [su]; exact hd1)
        (by rw [su]; exact hi1) (by rw [su]; exact hv1) g2
      obtain ⟨m2, v2⟩ := preprocess_pref c o hc hpre false tour (P := k) (w := u1) (k := k) (by rw [su]; exact m1.st) (by norm_num) (by rw [su]; exact hd1)
        (by rw [su]; exact hi1) (by rw [su]; simpa using hp1) (by rw [su]; exact hv1) g2
      rw [su] at m2
      have e2 : (2 : ℤ).toNat = 2 := rfl
      rw [e2] at hl m2 v2
      have hi2 := m2.indep hi1
      have tail : ∀ (n : ℕ) (re : Bool) (u v : W Exact), svpLoop c o false tour k 2 false n 1 re u = .ok () v → v.s = u.s := by
        intro n re u v hv
        cases n with
        | zero => simp [svpLoop] at hv
        | succ n =>
          rw [svpLoop, if_pos (honce _ _ le_rfl)] at hv
          simp only [Out.ok.injEq, true_and] at hv
          rw [← hv]; rfl
      have hsol := htr u2.t k 2 u2.s m2.st (by norm_num) (by rw [m2.d]; exact hd1) hi2 v2
      have hml : ∀ i < k + 2, ∀ j < i, MuLe η u2.s.nCols (toQ u2.s.b) j (toQ u2.s.b i) := fun i hi j hj =>
        (muLe_iff hη (hi2.pos j (by omega))).2 (hl.1 i hi j hj)
      cases hx : o.enum u2.t k 2 false u2.s with
      | none =>
        rw [hx] at h2
        rw [tail _ _ _ _ h2]
        refine ⟨m2, fun j hj => ?_⟩
        have := hml (k + 1) (by omega) j (by omega)
        rwa [m2.cols] at this
      | some x =>
        rw [Nat.cast_ofNat, hx] at hsol
        rw [hx] at h2
        obtain ⟨_, u3, g3, h2⟩ := Out.bind_ok h2
        rw [tail _ _ _ _ h2]
        obtain ⟨z, z1, z2, -, z3⟩ := hsol
        rw [Int.toNat_natCast, e2] at g3
        obtain ⟨m3, -, -⟩ := postprocess_mv c (w := u2.tick) m2.st (by norm_num) (by exact le_of_le_of_eq hd1 m2.d.symm) z1 (primitive_of_min z2 z3) g3
        refine ⟨m2.trans m3, ?_⟩
        have hr0 := hi2.pos k (by omega)
        have hr1 := hi2.pos (k + 1) (by omega)
        have hdist : ∀ y : ℕ → ℤ, distSq u2.s.nCols (toQ u2.s.b) k (vecQ fun c => ∑ i ∈ Finset.range 2, y i * u2.s.b (k + i) c) =
            (y 1 : ℚ) ^ 2 * normStar u2.s.nCols (toQ u2.s.b) (k + 1) +
            (y 0 + y 1 * muS u2.s.nCols (toQ u2.s.b) (k + 1) k) ^ 2 * normStar u2.s.nCols (toQ u2.s.b) k := fun y =>
          distSq_two hr0 _ _ fun c _ => by
            unfold vecQ toQ
            dsimp only
            rw [Finset.sum_range_succ, Finset.sum_range_one, Nat.add_zero]
            push_cast; ring
        have hnz : z 0 ≠ 0 ∨ z 1 ≠ 0 := by
          by_contra hcon
          push Not at hcon
          rw [hdist, hcon.1, hcon.2] at z2
          simp at z2
        have := postprocess_two c ht (w := u2.tick) m2.st (by exact le_of_le_of_eq hd1 m2.d.symm) hi2 z1 hnz hl.1
          (hl.2 k (by omega)) (fun y hy => by
            have hpos : 0 < distSq u2.s.nCols (toQ u2.s.b) k (vecQ fun c => ∑ i ∈ Finset.range 2, y i * u2.s.b (k + i) c) := by
              rw [hdist]
              by_cases hy1 : y 1 = 0
              · have hy0 : y 0 ≠ 0 := by rcases hy with h | h; exacts [h, absurd hy1 h]
                rw [hy1]
                have : (0 : ℚ) < (y 0 : ℚ) ^ 2 := by positivity
                simp only [Int.cast_zero, ne_eq, OfNat.ofNat_ne_zero, not_false_eq_true, zero_pow, zero_mul, zero_add, add_zero]
                exact mul_pos this hr0
              · have : (0 : ℚ) < (y 1 : ℚ) ^ 2 := by positivity
                exact add_pos_of_pos_of_nonneg (mul_pos this hr1) (mul_nonneg (sq_nonneg _) hr0.le)
            have := z3 _ (blockSum_inPre _ k 2 _ y) hpos
            rwa [hdist, hdist] at this) m3 g3
        intro j hj
        have := this j hj
        change MuLe η u2.s.nCols _ _ _ at this
        rwa [m2.cols] at this
  obtain ⟨m2, q2⟩ := K
  obtain ⟨r3, w3, h3, h⟩ := Out.bind_ok h
  split_ifs at h with hr3
  rw [Bool.not_eq_false] at hr3
  rw [hr3] at h3
  obtain ⟨m3, v3, b3, -⟩ := sizeRedOp_pref c hc.eta m2.st h3 (k + 1) (k + 2)
  rw [e] at b3
  simp only [Out.ok.injEq] at h
  rw [← h.2]
  intro j hj
  have hpos := (m3.indep (m2.indep (m1.indep hind))).pos j (by omega)
  rw [← muLe_iff hη hpos]
  have hq := q2 j hj
  have hcol : w1.s.nCols = w3.s.nCols := by rw [m3.cols, m2.cols]
  have hrow : toQ w3.s.b (k + 1) = toQ w2.s.b (k + 1) := by unfold toQ; rw [b3 (k + 1) le_rfl]
  rw [hrow]
  rw [hcol] at hq
  have h1 := m3.pre j (.inl (by omega))
  have h2 := m3.pre (j + 1) (.inl (by omega))
  rw [m2.cols, hcol] at h1 h2
  exact hq.congr h1 h2

/-- size reduction of a row that is size-reduced changes no row -/
theorem babai_noop (c : LLLCfg Exact) {η : ℚ} (hc : c.eta = some η) {fuel : ℕ} (hf : 1 ≤ fuel) (srs : ℕ) {s : GSO Exact}
    (h : St s) {k : ℕ} (hk : k < s.d) (hv : ∀ j < k, j + 1 ≤ s.gsoValidCols j)
    (hsr : ∀ j, srs ≤ j → j < k → |muS s.nCols (toQ s.b) k j| ≤ η) : (babai c fuel s k k srs).2.b = s.b := by
  unfold babai
  obtain ⟨f, rfl⟩ : ∃ f, fuel = f + 1 := ⟨fuel - 1, by omega⟩
  rw [babaiLoop]
  dsimp only
  have hu := updateGsoRow_fresh h.full.wf h.fresh (i := k) (l := k) (by omega) (by rw [h.full.known]; omega) (by omega)
    (.inl (by rw [h.full.source]; omega)) (fun j h1 h2 => hv j (by omega))
  have hr := updateGsoRow_low h.full (i := k) hk k
  have hb := updateGsoRow_b s k k
  have hcol := hr.keep.good.cfg.nCols
  have hd := hr.keep.good.cfg.d
  have hkn := hr.keep.full.known
  obtain ⟨a1, a2, a3, a4, a5⟩ := hu
  generalize s.updateGsoRow k k = q at *
  by_cases hq : q.1 = true
  swap
  · rw [if_pos (by simpa using hq)]; exact hb
  rw [if_neg (by simpa using hq), if_pos]
  · exact hb
  have hmu : ∀ j < k, q.2.mu k j = some (muS s.nCols s.bq k j) := by
    intro j hj
    have := ((a1.valid k (by omega) (by simp) j (by have := a2 hq; omega) (by omega)).2 (by omega)).1
    rwa [hcol, a5] at this
  rw [Bool.not_eq_true', loopNeeded_iff c q.2 hc _ hmu]
  exact hsr

/-- the same for the initial step of LLL -/
theorem startStep_noop (c : LLLCfg Exact) {η : ℚ} (hc : c.eta = some η) {fuel : ℕ} (hf : 1 ≤ fuel) (srs : ℕ) {s : GSO Exact}
    (h : St s) {k : ℕ} (hk : k < s.d) (hv : ∀ j < k, j + 1 ≤ s.gsoValidCols j)
    (hsr : ∀ j, srs ≤ j → j < k → |muS s.nCols (toQ s.b) k j| ≤ η) : (startStep c fuel s k srs).2.b = s.b := by
  unfold startStep
  have k1 : (if 0 < k then babai c fuel s k k srs else (.success, s)).2.b = s.b := by
    split_ifs
    · exact babai_noop c hc hf srs h hk hv hsr
    · rfl
  generalize (if 0 < k then babai c fuel s k k srs else (.success, s)) = p at *
  unfold startTail
  split_ifs
  · exact k1
  · dsimp only
    split_ifs <;> exact (updateGsoRow_b _ _ _).trans k1

/-- the loop of `hkz`: its last call leaves the last row size-reduced -/
theorem hkzLoop_last (ht : Tame η thr) (hc : PCfg c.lll η thr δ) (hX : XCfg c.lll η thr) (hsg : c.lll.siegel = false) (hδ : δ < 1) (hrad : δ ≤ rad)
    (htr : Truthful rad o) (hpre : ∀ bs, o.preproc bs = [])
    (hmore : ∀ t, o.more t 0 = true) (honce : ∀ t it, 1 ≤ it → o.more t it = false) (tour : ℤ → ℤ → ℤ → W Exact → Out (W Exact) Bool) {E : ℕ} (cnt k : ℕ)
    (hk : k + cnt + 1 = E) (hcnt : 1 ≤ cnt) (cl cl' : Bool) {w w' : W Exact} (hs : St w.s) (hind : Indep E w.s.nCols (toQ w.s.b)) (hprot : Prot δ 0 k E w.s)
    (h : loop (fun kappa => svpReduction c o false tour kappa (E - kappa) false) 1 cnt k cl w = .ok cl' w') :
    ∀ j < E - 1, |muS w'.s.nCols (toQ w'.s.b) (E - 1) j| ≤ η := by
  induction cnt generalizing k cl w with
  | zero => omega
  | succ cnt ih =>
    rw [loop] at h
    obtain ⟨c1, w1, h1, h⟩ := Out.bind_ok h
    rcases Nat.eq_zero_or_pos cnt with hz | hz
    · subst hz
      obtain rfl : E = k + 2 := by omega
      rw [loop] at h
      simp only [Out.ok.injEq] at h
      rw [show (((k + 2 : ℕ) : ℤ) - k) = 2 by push_cast; ring] at h1
      have := svpReduction_two c o ht hc hX hsg htr (hpre 2) hmore honce tour hs hind hprot h1
      rw [← h.2]
      intro j hj
      exact this j (by omega)
    have e : (E : ℤ) - k = ((E - k : ℕ) : ℤ) := by omega
    have e' : k + (E - k) = E := by omega
    rw [e] at h1
    have S := svpReduction_pref c o hc hδ hrad htr (k := k) (d := E - k) (by omega) (hpre _) hmore false tour hs
      (by rw [e']; exact hind) (by rw [e']; intro m _ hm; exact hprot m (by omega) hm) h1
    rw [e'] at S
    obtain ⟨m1, v1, p1, q1⟩ := S
    have hp1 : Prot δ 0 (k + 1) E w1.s := by
      intro m a b
      rcases Nat.lt_or_ge m k with hlt | hge
      · exact (hprot.mv m1) m a hlt
      · have : m = k := by omega
        subst this
        exact p1
    exact ih (k + 1) (by omega) hz (cl && c1) m1.st (m1.indep hind) hp1 (by exact_mod_cast h)

/-- `hkz(0, E)`: all rows are size-reduced -/
theorem hkz_last (ht : Tame η thr) (hc : PCfg c.lll η thr δ) (hX : XCfg c.lll η thr) (hsg : c.lll.siegel = false) (hδ : δ < 1) (hrad : δ ≤ rad)
    (htr : Truthful rad o) (hpre : ∀ bs, o.preproc bs = [])
    (hmore : ∀ t, o.more t 0 = true) (honce : ∀ t it, 1 ≤ it → o.more t it = false) (hf : 2 ≤ c.fuel) (depth : ℕ) {E : ℕ} (hE : 1 ≤ E) {cl : Bool} {w w' : W Exact} (hs : St w.s)
    (hd : E ≤ w.s.d) (hind : Indep E w.s.nCols (toQ w.s.b)) (h : hkz (svpOps c o depth false) 0 E w = .ok cl w') :
    ∀ j < E - 1, |muS w.s.nCols (toQ w'.s.b) (E - 1) j| ≤ η := by
  rcases Nat.lt_or_ge 1 E with hE2 | hE2
  swap
  · intro j hj; omega
  unfold hkz at h
  obtain ⟨cl1, w1, h1, h⟩ := Out.bind_ok h
  obtain ⟨ok2, w2, h2, h⟩ := Out.bind_ok h
  simp only [Out.ok.injEq] at h
  have e : ((E : ℤ) - 1 - 0).toNat = E - 1 := by omega
  rw [e] at h1
  have L : Mv 0 E w.s w1.s ∧ (∀ i < E - 1, i + 1 ≤ w1.s.gsoValidCols i) ∧
      ∀ j < E - 1, |muS w1.s.nCols (toQ w1.s.b) (E - 1) j| ≤ η := by
    cases depth with
    | zero =>
      obtain ⟨q, hq⟩ : ∃ q, E - 1 = q + 1 := ⟨E - 2, by omega⟩
      rw [hq, loop] at h1
      simp [svpOps, Out.bind] at h1
    | succ depth =>
      have A := hkzLoop_pref c o hc hδ hrad htr hpre hmore false (tour (svpOps c o depth false)) (E := E) (E - 1) 0 (by omega) true cl1 hs hind
        (fun m _ hm => by omega) (fun i hi => by omega) (fun i hi => by omega) (by exact_mod_cast h1)
      rw [Nat.zero_add] at A
      exact ⟨A.1, A.2.2.1, hkzLoop_last c o ht hc hX hsg hδ hrad htr hpre hmore honce (tour (svpOps c o depth false)) (E - 1) 0 (by omega) (by omega) true cl1 hs hind
        (fun m _ hm => by omega) (by exact_mod_cast h1)⟩
  obtain ⟨m1, v1, q1⟩ := L
  have h2 : sizeRedOp c (E - 1) E (E - 2) w1 = .ok ok2 w2 := by cases depth <;> exact h2
  unfold sizeRedOp at h2
  split_ifs at h2 with hr
  simp only [Out.ok.injEq] at h2
  have e1 : ((E : ℤ) - (E - 1)).toNat = 1 := by omega
  have e2 : ((E : ℤ) - 1).toNat = E - 1 := by omega
  have e3 : ((E : ℤ) - 2).toNat = E - 2 := by omega
  rw [e1, e2, e3] at h2
  have w1d := m1.d
  have hno := startStep_noop c.lll hc.eta (fuel := c.fuel) (by omega) (E - 2) m1.st (k := E - 1) (by omega) v1 (fun j _ hj => q1 j hj)
  have hb : (sizeReductionLoop c.lll c.fuel (E - 2) 1 (E - 1) w1.s).2.b = w1.s.b := by
    rw [sizeReductionLoop]
    split_ifs <;> exact hno
  rw [← h.2, ← h2.2]
  dsimp only
  rw [hb, ← m1.cols]
  exact q1

/-- a run of `bkz()` whose block size is at least the number of rows: the last row -/
theorem runBKZ_last {D : Type} [LinearOrder D] [OrderTop D] (ht : Tame η thr) (hc : PCfg c.lll η thr δ) (hX : XCfg c.lll η thr) (hsg : c.lll.siegel = false)
    (hδ : δ < 1) (hrad : δ ≤ rad) (htr : Truthful rad o) (hpre : ∀ bs, o.preproc bs = []) (hmore : ∀ t, o.more t 0 = true)
    (honce : ∀ t it, 1 ≤ it → o.more t it = false) (hf : 2 ≤ c.fuel) (cfg : Cfg D) (hsd : cfg.sd = false)
    (hsld : cfg.sld = false) (haa : cfg.autoAbort = false) (hbd : cfg.bounded = false) (timeUp : ℕ → W Exact → Bool) (slope : ℕ → W Exact → D) (depth inner fuel : ℕ)
    {w w' : W Exact} {st : Status} {m : ℕ} (hs : WF w.s) (hfr : Fresh w.s 0 0) (hl : w.s.colsLocked = false)
    (hE : 1 ≤ numRows w.s w.s.d) (hbs : (numRows w.s w.s.d : ℤ) ≤ cfg.blockSize) (hind : Indep (numRows w.s w.s.d) w.s.nCols (toQ w.s.b)) (hm : 1 ≤ m)
    (h : runBKZ c o cfg timeUp slope depth inner fuel w = .ok (st, m) w') :
    ∀ j < numRows w.s w.s.d - 1, |muS w.s.nCols (toQ w'.s.b) (numRows w.s w.s.d - 1) j| ≤ η := by
  obtain ⟨cl, v, h1, h2⟩ := runBKZ_one c o cfg hsd hsld haa timeUp slope depth inner fuel hbs hm h
  obtain ⟨p1, p2, p3, p4⟩ := prepare_st hs hfr hl
  rw [hbd] at h1
  have K := hkz_last c o ht hc hX hsg hδ hrad htr hpre hmore honce hf depth hE (w := { w with s := prepare false w.s }) p1
    (by dsimp only; rw [p3]; exact numRows_le w.s w.s.d) (by dsimp only; rw [p2, p4]; exact hind) h1
  dsimp only at K
  rw [p4] at K
  rw [h2]
  exact K

end BKZ
end Fplll

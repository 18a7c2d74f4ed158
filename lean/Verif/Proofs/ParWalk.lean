import Verif.Model.ParEnum
import Verif.Proofs.EnumMain

/-!
# One thread of the parallel enumeration
-/

open Finset

namespace Fplll
namespace Par

open Enum (setAt setAt2 roundto startDir EvalOps TreeOK cen psum pd al seq SeqOK zz zdx zddx Enough)

/-! ## Total correctness of walks -/

/-- a reported vector, the length reported with it, and the bound that came back -/
abbrev Ev := (ℕ → ℤ) × ℚ × ℚ

/-- the bound after the reports `tr` -/
def lastA (A : ℚ) : List Ev → ℚ
  | [] => A
  | e :: tr => lastA e.2.2 tr

theorem lastA_append (A : ℚ) (l m : List Ev) : lastA A (l ++ m) = lastA (lastA A l) m := by
  induction l generalizing A with
  | nil => rfl
  | cons e l ih => exact ih _

/-- whatever bounds come back (as long as they never grow), the walk ends and `Q` holds -/
def wp {α : Type} : ℚ → Walk α → (List Ev → α → Prop) → Prop
  | _, .ret a, Q => Q [] a
  | _, .stuck, _ => False
  | A, .offer x l k, Q => ∀ A', A' ≤ A → wp A' (k A') fun tr a => Q ((x, l, A') :: tr) a

theorem wp_mono {α : Type} {A : ℚ} {w : Walk α} {Q Q' : List Ev → α → Prop} (h : wp A w Q)
    (hQ : ∀ tr a, Q tr a → Q' tr a) : wp A w Q' := by
  induction w generalizing A Q Q' with
  | ret a => exact hQ _ _ h
  | stuck => exact h
  | offer x l k ih =>
    intro A' hA'
    exact ih A' (h A' hA') fun tr a => hQ _ _

theorem wp_bind {α β : Type} {A : ℚ} {w : Walk α} {f : α → Walk β} {Q : List Ev → β → Prop}
    (h : wp A w fun tr a => wp (lastA A tr) (f a) fun tr' b => Q (tr ++ tr') b) : wp A (w.bind f) Q := by
  induction w generalizing A Q with
  | ret a => exact h
  | stuck => exact h
  | offer x l k ih =>
    intro A' hA'
    exact ih A' (h A' hA')

theorem wp_exists {α : Type} {A : ℚ} {w : Walk α} {Q : List Ev → α → Prop} (h : wp A w Q) : ∃ tr a, Q tr a := by
  induction w generalizing A Q with
  | ret a => exact ⟨_, _, h⟩
  | stuck => exact h.elim
  | offer x l k ih =>
    obtain ⟨tr, a, h1⟩ := ih A (h A le_rfl)
    exact ⟨_, _, h1⟩

/-- the bound never grows along a walk -/
theorem wp_last {α : Type} {A : ℚ} {w : Walk α} {Q : List Ev → α → Prop} (h : wp A w Q) :
    wp A w fun tr a => Q tr a ∧ lastA A tr ≤ A := by
  induction w generalizing A Q with
  | ret a => exact ⟨h, le_rfl⟩
  | stuck => exact h
  | offer x l k ih =>
    intro A' hA'
    exact wp_mono (ih A' (h A' hA')) fun tr a h1 => ⟨h1.1, h1.2.trans hA'⟩

/-! ## What has to be reported -/

/-- the same data for the sequential enumeration, used to state lengths and centres (Spec/Enum.lean) -/
def Cfg.e (c : Cfg) : Enum.Cfg where
  K := c.N
  dual := false
  svp := true
  findsubsols := false
  mt := c.mt
  rdiag := c.rdiag
  cpart := fun _ => 0
  pruning := some c.pr
  fl := c.fl

/-- squared length of the projection of `∑ v_j b_j` orthogonally to the first `k` vectors -/
def plen (c : Cfg) (v : ℕ → ℤ) (k : ℕ) : ℚ := pd c.e 0 v k

/-- reported vectors: all those of `P` whose projections (levels `bot, …, hi - 1`) are in the bounds -/
structure Cov (c : Cfg) (bot : ℕ) (leaf : Bool) (hi : ℕ) (P : (ℕ → ℤ) → Prop) (A A' : ℚ) (tr : List Ev) : Prop where
  sound : ∀ e ∈ tr, P e.1 ∧ e.2.1 = plen c e.1 bot ∧ (∀ j, bot ≤ j → j < hi → plen c e.1 j ≤ c.bnd A j) ∧
    (∀ j, bot ≤ j → j < hi → plen c e.1 (j + 1) = 0 → 0 ≤ e.1 j) ∧ (leaf = true → plen c e.1 bot ≠ 0)
  comp : ∀ v, P v → (∀ j, bot ≤ j → j < hi → plen c v j ≤ c.bnd A' j) →
    (∀ j, bot ≤ j → j < hi → plen c v (j + 1) = 0 → 0 ≤ v j) → (leaf = true → plen c v bot ≠ 0) →
    ∃ e ∈ tr, ∀ j, bot ≤ j → j < c.N → e.1 j = v j
  nodup : tr.Pairwise fun e e' => ∃ j, bot ≤ j ∧ j < c.N ∧ e.1 j ≠ e'.1 j

/-- what is needed of the data: a rounding to nearest, squared lengths that are positive `double`s, bounds that are not
negative -/
structure CfgOK (c : Cfg) : Prop where
  rnd : Enum.Rnd c.fl
  rrep : ∀ k, k < c.N → c.fl (c.rdiag k) = c.rdiag k
  rpos : ∀ k, k < c.N → 0 < c.rdiag k
  pnn : ∀ k, k < c.N → 0 ≤ c.pr k

theorem CfgOK.tree {c : Cfg} (h : CfgOK c) : TreeOK c.e 0 :=
  ⟨h.rnd, h.rrep, h.rnd.zero, h.rpos, le_rfl, fun _ => ⟨rfl, fun _ _ => rfl⟩⟩

theorem CfgOK.bnd_mono {c : Cfg} (h : CfgOK c) {A B : ℚ} (hAB : A ≤ B) {k : ℕ} (hk : k < c.N) : c.bnd A k ≤ c.bnd B k :=
  h.rnd.mono (mul_le_mul_of_nonneg_right hAB (h.pnn k hk))

theorem Cov.mono {c : Cfg} (hc : CfgOK c) {bot hi : ℕ} {leaf : Bool} {P : (ℕ → ℤ) → Prop} {A A' B B' : ℚ} {tr : List Ev}
    (h : Cov c bot leaf hi P A A' tr) (hi' : hi ≤ c.N) (hA : A ≤ B) (hA' : B' ≤ A') : Cov c bot leaf hi P B B' tr := by
  refine ⟨fun e he => ?_, fun v hP hb => h.comp v hP fun j h1 h2 => ?_, h.nodup⟩
  · obtain ⟨h1, h2, h3, h4⟩ := h.sound e he
    exact ⟨h1, h2, fun j h5 h6 => (h3 j h5 h6).trans (hc.bnd_mono hA (by omega)), h4⟩
  · exact (hb j h1 h2).trans (hc.bnd_mono hA' (by omega))

/-! ## State of a thread -/

/-- the coordinates from `m` on are fixed and the lower levels down to `bot` are about to be walked (the partial sums of the
levels below `bot - 1` are then not used) -/
structure In (c : Cfg) (bot m : ℕ) (s : Loc) : Prop where
  l : s.l m = pd c.e 0 s.x m
  ctr : ∀ i, m = i + 1 → s.sig i i = cen c.e s.x i
  rows : ∀ i i' j, m = i + 1 → i' < i → bot ≤ i' + 1 → j < c.N → (∀ l, i' ≤ l → l ≤ i → s.r l ≤ j) →
    s.sig i' j = psum c.e s.x i' (j + 1)
  rlt : ∀ l, l < m → s.r l < c.N
  rge : ∀ i, m = i + 1 → i ≤ s.r i

/-- what belongs to the levels from `m` on is unchanged -/
structure Fr (c : Cfg) (m : ℕ) (s s' : Loc) : Prop where
  x : ∀ j, m ≤ j → s'.x j = s.x j
  dx : ∀ j, m ≤ j → s'.dx j = s.dx j
  ddx : ∀ j, m ≤ j → s'.ddx j = s.ddx j
  ctr : ∀ j, m ≤ j → s'.c j = s.c j
  l : ∀ j, m ≤ j → s'.l j = s.l j
  sig : ∀ i j, m ≤ i + 1 → s'.sig i j = s.sig i j
  r : ∀ l, m ≤ l + 1 → s'.r l = s.r l
  col : ∀ i, s'.sig i (c.N - 1) = s.sig i (c.N - 1)

theorem Fr.refl (c : Cfg) (m : ℕ) (s : Loc) : Fr c m s s :=
  ⟨fun _ _ => rfl, fun _ _ => rfl, fun _ _ => rfl, fun _ _ => rfl, fun _ _ => rfl, fun _ _ _ => rfl, fun _ _ => rfl, fun _ => rfl⟩

theorem Fr.trans {c : Cfg} {m n : ℕ} {s t u : Loc} (h : Fr c m s t) (g : Fr c n t u) (hn : n ≤ m) : Fr c m s u :=
  ⟨fun j hj => (g.x j (by omega)).trans (h.x j hj), fun j hj => (g.dx j (by omega)).trans (h.dx j hj),
   fun j hj => (g.ddx j (by omega)).trans (h.ddx j hj), fun j hj => (g.ctr j (by omega)).trans (h.ctr j hj),
   fun j hj => (g.l j (by omega)).trans (h.l j hj), fun i j hj => (g.sig i j (by omega)).trans (h.sig i j hj),
   fun j hj => (g.r j (by omega)).trans (h.r j hj), fun i => (g.col i).trans (h.col i)⟩

/-- what a walk of the levels below `m` does to the state -/
structure Out (c : Cfg) (bot m : ℕ) (s s' : Loc) : Prop where
  fr : Fr c m s s'
  rows : ∀ i i' j, m = i + 1 → i' < i → bot ≤ i' + 1 → i ≤ j → j < c.N → (∀ l, i' ≤ l → l < i → s'.r l ≤ j) →
    s'.sig i' j = psum c.e s'.x i' (j + 1)
  rlt : ∀ l, l < m → s'.r l < c.N

theorem yS_eq (c : Cfg) (v : ℕ → ℤ) (j : ℕ) : Enum.yS c.e v j = v j := by
  simp [Enum.yS, Cfg.e]

theorem psum_step (c : Cfg) (v : ℕ → ℤ) (i j : ℕ) (hj : j < c.N) :
    psum c.e v i j = c.fl (psum c.e v i (j + 1) - c.fl (v j * c.mt i j)) := by
  rw [Enum.psum_succ c.e v i j hj, yS_eq]
  rfl

theorem psum_N (c : Cfg) (v : ℕ → ℤ) (i : ℕ) : psum c.e v i c.N = 0 := Enum.psum_top c.e v i

theorem refreshRow_spec {c : Cfg} {x : ℕ → ℤ} {i b : ℕ} {sig : ℕ → ℕ → ℚ} (hib : i + 1 ≤ b) (hb : b < c.N)
    (hr : sig i b = psum c.e x i (b + 1)) :
    (∀ i' j, i' ≠ i → refreshRow c x (i + 1) b sig i' j = sig i' j) ∧
      (∀ j, b ≤ j → refreshRow c x (i + 1) b sig i j = sig i j) ∧
      ∀ j, i ≤ j → j ≤ b → refreshRow c x (i + 1) b sig i j = psum c.e x i (j + 1) := by
  unfold refreshRow
  have := forDown_inv (fun n (g : ℕ → ℕ → ℚ) => (∀ i' j, i' ≠ i → g i' j = sig i' j) ∧ (∀ j, b ≤ j → g i j = sig i j) ∧
      ∀ j, n ≤ j + 1 → j ≤ b → g i j = psum c.e x i (j + 1))
    (fun j (g : ℕ → ℕ → ℚ) => setAt2 g (i + 1 - 1) (j - 1) (c.fl (g (i + 1 - 1) j - c.fl (x j * c.mt (i + 1 - 1) j))))
    (a := i + 1) (b := b + 1) (by omega) sig ?_ ?_
  · exact ⟨this.1, this.2.1, fun j h1 h2 => this.2.2 j (by omega) h2⟩
  · refine ⟨fun _ _ _ => rfl, fun _ _ => rfl, fun j h1 h2 => ?_⟩
    obtain rfl : j = b := by omega
    exact hr
  · intro n g h1 h2 ⟨h3, h4, h5⟩
    simp only [Nat.add_sub_cancel]
    refine ⟨fun i' j hi => ?_, fun j hj => ?_, fun j hj hj' => ?_⟩
    · simp only [setAt2, hi, false_and, if_false]
      exact h3 i' j hi
    · simp only [setAt2, true_and]
      rw [if_neg (by omega)]
      exact h4 j hj
    · simp only [setAt2, true_and]
      split_ifs with hjn
      · rw [h5 n (by omega) (by omega), show j + 1 = n by omega, psum_step c x i n (by omega)]
      · exact h5 j (by omega) hj'

/-! ## One level -/

/-- invariant of the loop of level `i` at its `t`-th value -/
structure LI (c : Cfg) (bot i : ℕ) (Z : Bool) (x0 sd : ℤ) (t : ℕ) (s : Loc) : Prop where
  child : In c bot i s
  lp : s.l (i + 1) = pd c.e 0 s.x (i + 1)
  cc : s.c i = cen c.e s.x i
  row : ∀ i' j, i = i' + 1 → i ≤ j → j < c.N → s.sig i' j = psum c.e s.x i' (j + 1)
  xk : s.x i = seq Z x0 sd t
  dxk : Z = false → s.dx i = zdx sd t ∧ s.ddx i = zddx sd t
  z : Z = true ↔ s.l (i + 1) = 0
  ok : SeqOK Z x0 sd (s.c i)
  tested : s.l i ≤ c.bnd s.A i
  ri : s.r i < c.N

theorem pd_at {c : Cfg} (hc : CfgOK c) (v : ℕ → ℤ) (i : ℕ) (hi : i < c.N) :
    pd c.e 0 v i = c.fl (pd c.e 0 v (i + 1) +
      c.fl (c.fl (c.fl (cen c.e v i - v i) * c.fl (cen c.e v i - v i)) * c.rdiag i)) := by
  rw [Enum.pd_succ c.e 0 v i hi, al, ← neg_sub (cen c.e v i), show c.e.fl = c.fl from rfl, hc.rnd.neg, neg_mul_neg]
  rfl

/-- further values of a level are further away -/
theorem far {c : Cfg} (hc : CfgOK c) {i : ℕ} (hi : i < c.N) {Z : Bool} {x0 sd : ℤ} {u v : ℕ → ℤ} {t n : ℕ}
    (hok : SeqOK Z x0 sd (cen c.e u i)) (hu : u i = seq Z x0 sd t) (hv : v i = seq Z x0 sd n) (htn : t ≤ n)
    (hj : ∀ j, i < j → j < c.N → v j = u j) : pd c.e 0 u i ≤ pd c.e 0 v i := by
  rw [pd_at hc u i hi, pd_at hc v i hi, Enum.cen_congr c.e v u i hj, Enum.pd_congr c.e 0 v u (i + 1) fun j h1 h2 => hj j h1 h2,
    hu, hv]
  refine Enum.dist_mono hc.rnd (hc.rpos i hi).le ?_
  rw [abs_sub_comm, abs_sub_comm (cen c.e u i)]
  exact hok.dist_mono htn

/-- values far from the centre cannot be in the bounds -/
theorem fuel_contra {c : Cfg} (hc : CfgOK c) {i fuel : ℕ} (hi : i < c.N) {Z : Bool} {x0 sd : ℤ} {u : ℕ → ℤ} {A : ℚ}
    (hok : SeqOK Z x0 sd (cen c.e u i)) (hu : u i = seq Z x0 sd fuel) (hF : Enough c.e (fun k => c.bnd A k) fuel)
    (hb : pd c.e 0 u i ≤ c.bnd A i) : False := by
  have h1 := hok.dist_ge fuel
  have h2 := hF i hi
  have h3 := hc.tree.pd_nonneg u (i + 1)
  have h4 := hc.rpos i hi
  rw [pd_at hc u i hi, hu] at hb
  rw [abs_sub_comm] at h1
  have h6 := Enum.dist_grow hc.rnd h4.le h3 (by positivity) h1
  have h7 : ((fuel : ℚ) / 8) * ((fuel : ℚ) / 8) * c.rdiag i > c.bnd A i := h2
  have h8 : ((fuel : ℚ) / 2 / 4) * ((fuel : ℚ) / 2 / 4) * c.rdiag i = ((fuel : ℚ) / 8) * ((fuel : ℚ) / 8) * c.rdiag i := by ring
  linarith

theorem raise_fields (s : Loc) (i : ℕ) : (raise s i).A = s.A ∧ (raise s i).x = s.x ∧ (raise s i).dx = s.dx ∧
    (raise s i).ddx = s.ddx ∧ (raise s i).c = s.c ∧ (raise s i).l = s.l ∧ (raise s i).sig = s.sig := by
  unfold raise
  split_ifs <;> exact ⟨rfl, rfl, rfl, rfl, rfl, rfl, rfl⟩

theorem raise_r (s : Loc) (i l : ℕ) : (raise s i).r l = if l + 1 = i then max (s.r l) (s.r i) else s.r l := by
  unfold raise
  by_cases h : 1 ≤ i ∧ s.r i > s.r (i - 1)
  · rw [if_pos h]
    simp only [setAt]
    by_cases hl : l + 1 = i
    · rw [if_pos hl, if_pos (by omega), max_eq_right]
      have : i - 1 = l := by omega
      rw [this] at h
      exact h.2.le
    · rw [if_neg hl, if_neg (by omega)]
  · rw [if_neg h]
    by_cases hl : l + 1 = i
    · rw [if_pos hl, max_eq_left]
      have : i - 1 = l := by omega
      rw [this] at h
      omega
    · rw [if_neg hl]

theorem raise_fr (c : Cfg) (s : Loc) (i : ℕ) : Fr c (i + 1) s (raise s i) := by
  obtain ⟨h1, h2, h3, h4, h5, h6, h7⟩ := raise_fields s i
  refine ⟨fun j _ => by rw [h2], fun j _ => by rw [h3], fun j _ => by rw [h4], fun j _ => by rw [h5], fun j _ => by rw [h6],
    fun i j _ => by rw [h7], fun l hl => ?_, fun i => by rw [h7]⟩
  rw [raise_r, if_neg (by omega)]

/-- the level is left at once -/
theorem raise_out {c : Cfg} {s : Loc} {bot i : ℕ} (h : In c bot (i + 1) s) : Out c bot (i + 1) s (raise s i) := by
  obtain ⟨h1, h2, h3, h4, h5, h6, h7⟩ := raise_fields s i
  refine ⟨raise_fr c s i, ?_, ?_⟩
  · intro k i' j hk hi' hbt hj hjN hr
    obtain rfl : i = k := by omega
    rw [h2, h7]
    apply h.rows i i' j rfl hi' hbt hjN
    intro l h8 h9
    rcases Nat.lt_or_ge l i with h10 | h10
    · have := hr l h8 h10
      rw [raise_r] at this
      split_ifs at this
      · exact (le_max_left _ _).trans this
      · exact this
    · obtain rfl : l = i := by omega
      have := hr (l - 1) (by omega) (by omega)
      rw [raise_r, if_pos (by omega)] at this
      exact (le_max_right _ _).trans this
  · intro l hl
    rw [raise_r]
    have h8 := h.rlt l hl
    have h9 := h.rlt i (by omega)
    split_ifs
    · exact max_lt h8 h9
    · exact h8

/-- the values of a level start at the centre -/
theorem seq_start {c : Cfg} (hc : CfgOK c) {i : ℕ} (u : ℕ → ℤ) :
    SeqOK (decide (pd c.e 0 u (i + 1) = 0)) (roundto (cen c.e u i)) (startDir (cen c.e u i) (roundto (cen c.e u i)))
      (cen c.e u i) := by
  refine ⟨fun h => ?_, fun _ => Enum.startDir_or _ _, fun _ => ?_, fun _ => Enum.startDir_sign _ _⟩
  · have h1 := of_decide_eq_true h
    have h2 : cen c.e u i = 0 := by
      rw [Enum.cen_eq]
      refine Enum.psum_zero (c := c.e) hc.rnd u i _ rfl fun l hl1 hl2 => ?_
      rw [yS_eq, (Enum.pd_zero_iff hc.tree rfl u (i + 1)).1 h1 l hl1 hl2]
      simp
    rw [h2, Enum.roundto_zero]
    exact ⟨rfl, le_rfl⟩
  · rw [abs_sub_comm]
    exact Enum.roundto_spec _

/-- the level is entered -/
theorem enter_LI {c : Cfg} (hc : CfgOK c) {s : Loc} {bot i : ℕ} (hbi : bot ≤ i) (hi : i < c.N) (h : In c bot (i + 1) s)
    (ht : firstL c (raise s i) i ≤ c.bnd (raise s i).A i) :
    LI c bot i (decide (s.l (i + 1) = 0)) (roundto (cen c.e s.x i)) (startDir (cen c.e s.x i) (roundto (cen c.e s.x i))) 0
        (enter c (raise s i) i) ∧ Fr c (i + 1) s (enter c (raise s i) i) ∧ (enter c (raise s i) i).A = s.A := by
  obtain ⟨hA, hx, hdx, hddx, hcc, hl, hsig⟩ := raise_fields s i
  have hctr := h.ctr i rfl
  have hxx : ∀ j, i < j → (enter c (raise s i) i).x j = s.x j := by
    intro j hj
    simp only [enter, setAt, hx]
    rw [if_neg (by omega)]
  have hxi : (enter c (raise s i) i).x i = roundto (cen c.e s.x i) := by
    simp only [enter, setAt, hsig, hctr, if_true]
  have hcen : cen c.e (enter c (raise s i) i).x i = cen c.e s.x i := Enum.cen_congr _ _ _ _ fun j h1 _ => hxx j h1
  have hps : ∀ i' j, i < j → psum c.e (enter c (raise s i) i).x i' j = psum c.e s.x i' j := fun i' j h1 =>
    Enum.psum_congr _ _ _ _ _ fun l h2 _ => hxx l (by omega)
  have hci : (enter c (raise s i) i).c i = cen c.e s.x i := by simp only [enter, setAt, hsig, hctr, if_true]
  have hpd1 : pd c.e 0 (enter c (raise s i) i).x (i + 1) = pd c.e 0 s.x (i + 1) :=
    Enum.pd_congr _ _ _ _ _ fun j h1 _ => hxx j h1
  have hli1 : (enter c (raise s i) i).l (i + 1) = pd c.e 0 s.x (i + 1) := by
    simp only [enter, setAt, hl]
    rw [if_neg (by omega), h.l]
  have hli : (enter c (raise s i) i).l i = firstL c (raise s i) i := by simp only [enter, setAt, if_true]
  have hlpd : (enter c (raise s i) i).l i = pd c.e 0 (enter c (raise s i) i).x i := by
    rw [hli, pd_at hc _ i hi, hcen, hpd1, hxi, firstL, hsig, hctr, hl, h.l]
  have hr : ∀ l, (enter c (raise s i) i).r l = (raise s i).r l := fun _ => rfl
  have hri : (raise s i).r i = s.r i := by rw [raise_r, if_neg (by omega)]
  have hsg0 : ∀ i', i ≤ i' → ∀ j, (enter c (raise s i) i).sig i' j = s.sig i' j := by
    intro i' hi' j
    simp only [enter]
    split_ifs with h0
    · rw [hsig]
    · obtain ⟨k, rfl⟩ : ∃ k, i = k + 1 := ⟨i - 1, by omega⟩
      simp only [Nat.add_sub_cancel]
      have hb := h.rlt k (by omega)
      have hb1 := h.rlt (k + 1) (by omega)
      have hg := h.rge (k + 1) rfl
      have hR : (raise s (k + 1)).r k = max (s.r k) (s.r (k + 1)) := by rw [raise_r, if_pos rfl]
      rw [(refreshRow_spec (c := c) (i := k) (b := (raise s (k + 1)).r k) (by omega) (by omega) ?_).1 i' j (by omega), hsig]
      rw [hsig, Enum.psum_congr _ _ s.x _ _ fun l h2 _ => ?_]
      · exact h.rows (k + 1) k _ rfl (by omega) hbi (by omega) fun l h1 h2 => by
          have : l = k ∨ l = k + 1 := by omega
          rcases this with rfl | rfl <;> omega
      · rw [setAt, if_neg (by omega), hx]
  -- the row below
  have hrow : ∀ k, i = k + 1 → (∀ i' j, i' ≠ k → (enter c (raise s i) i).sig i' j = s.sig i' j) ∧
      (∀ j, k ≤ j → j < c.N → (enter c (raise s i) i).sig k j = psum c.e (enter c (raise s i) i).x k (j + 1)) ∧
      (enter c (raise s i) i).sig k (c.N - 1) = s.sig k (c.N - 1) := by
    intro k hk
    subst hk
    have hb := h.rlt k (by omega)
    have hb1 := h.rlt (k + 1) (by omega)
    have hg := h.rge (k + 1) rfl
    have hR : (raise s (k + 1)).r k = max (s.r k) (s.r (k + 1)) := by rw [raise_r, if_pos rfl]
    have hval : ∀ j, (raise s (k + 1)).r k ≤ j → j < c.N →
        s.sig k j = psum c.e (enter c (raise s (k + 1)) (k + 1)).x k (j + 1) := by
      intro j h1 h2
      rw [hps k (j + 1) (by omega)]
      exact h.rows (k + 1) k j rfl (by omega) hbi h2 fun l h3 h4 => by
        have : l = k ∨ l = k + 1 := by omega
        rcases this with rfl | rfl <;> omega
    have hsp := refreshRow_spec (c := c) (x := (enter c (raise s (k + 1)) (k + 1)).x) (i := k) (b := (raise s (k + 1)).r k)
      (sig := s.sig) (by omega) (by omega) (hval _ le_rfl (by omega))
    have he : (enter c (raise s (k + 1)) (k + 1)).sig =
        refreshRow c (enter c (raise s (k + 1)) (k + 1)).x (k + 1) ((raise s (k + 1)).r k) s.sig := by
      simp only [enter, Nat.add_sub_cancel, hsig]
      rw [if_neg (by omega)]
    rw [he]
    refine ⟨hsp.1, fun j h1 h2 => ?_, hsp.2.1 _ (by omega)⟩
    rcases Nat.le_total j ((raise s (k + 1)).r k) with h3 | h3
    · exact hsp.2.2 j h1 h3
    · rw [hsp.2.1 j h3]
      exact hval j h3 h2
  refine ⟨⟨⟨hlpd, ?_, ?_, ?_, ?_⟩, ?_, ?_, ?_, ?_, ?_, ?_, ?_, ?_, ?_⟩, ?_, hA⟩
  · intro k hk
    rw [(hrow k hk).2.1 k le_rfl (by omega), Enum.cen_eq]
  · intro k i' j hk hi' hbt hj hb
    have hRk := hb k (by omega) le_rfl
    rw [hr, raise_r, if_pos hk.symm] at hRk
    have hg := h.rge i rfl
    have h1 : s.r i ≤ j := (le_max_right _ _).trans hRk
    have h2 : s.r k ≤ j := (le_max_left _ _).trans hRk
    rw [(hrow k hk).1 i' j (by omega), hps i' (j + 1) (by omega)]
    refine h.rows i i' j rfl (by omega) hbt hj fun l h3 h4 => ?_
    by_cases hl1 : l = i
    · rw [hl1]; exact h1
    · by_cases hl2 : l = k
      · rw [hl2]; exact h2
      · have := hb l h3 (by omega)
        rw [hr, raise_r, if_neg (by omega)] at this
        exact this
  · intro l hl
    exact (raise_out h).rlt l (by omega)
  · intro k hk
    have hg := h.rge i rfl
    rw [hr, raise_r, if_pos hk.symm]
    have := le_max_right (s.r k) (s.r i)
    omega
  · rw [hli1, hpd1]
  · rw [hci, hcen]
  · intro k j hk h1 h2
    exact (hrow k hk).2.1 j (by omega) h2
  · rw [hxi]
    simp [seq, Enum.zz_zero]
  · intro _
    simp only [enter, setAt, hsig, hctr, if_true, Enum.zdx_zero, Enum.zddx_zero, and_self]
  · rw [hli1, h.l]
    simp
  · rw [hci]
    have := seq_start hc (i := i) s.x
    rw [← h.l] at this
    exact this
  · rw [hli]
    exact ht
  · rw [hr, hri]
    exact h.rlt i (by omega)
  · refine ⟨fun j hj => hxx j hj, ?_, ?_, ?_, ?_, fun i' j hi' => hsg0 i' (by omega) j, ?_, ?_⟩
    · intro j hj; simp only [enter, setAt, hdx]; rw [if_neg (by omega)]
    · intro j hj; simp only [enter, setAt, hddx]; rw [if_neg (by omega)]
    · intro j hj; simp only [enter, setAt, hcc]; rw [if_neg (by omega)]
    · intro j hj; simp only [enter, setAt, hl]; rw [if_neg (by omega)]
    · intro l hl; rw [hr, raise_r, if_neg (by omega)]
    · intro i'
      rcases Nat.lt_or_ge i' i with h1 | h1
      · obtain ⟨k, rfl⟩ : ∃ k, i = k + 1 := ⟨i - 1, by omega⟩
        by_cases h2 : i' = k
        · subst h2; exact (hrow i' rfl).2.2
        · exact (hrow k rfl).1 i' _ h2
      · exact hsg0 i' h1 _

theorem sibling_fields (s : Loc) (i : ℕ) : (sibling s i).A = s.A ∧ (sibling s i).c = s.c ∧ (sibling s i).l = s.l ∧
    (sibling s i).sig = s.sig := ⟨rfl, rfl, rfl, rfl⟩

theorem sibling_r (s : Loc) (i l : ℕ) : (sibling s i).r l = if l + 1 = i then i else s.r l := by
  simp only [sibling]
  by_cases h2 : i = 0
  · rw [if_pos h2, if_neg (by omega)]
  · rw [if_neg h2, setAt]
    by_cases h3 : l + 1 = i
    · rw [if_pos h3, if_pos (by omega)]
    · rw [if_neg h3, if_neg (by omega)]

theorem sibling_other (s : Loc) (i j : ℕ) (hj : j ≠ i) : (sibling s i).x j = s.x j ∧ (sibling s i).dx j = s.dx j ∧
    (sibling s i).ddx j = s.ddx j := by
  simp only [sibling]
  by_cases h1 : s.l (i + 1) = 0
  · simp only [if_pos h1, setAt, if_neg hj, and_self]
  · simp only [if_neg h1, setAt, if_neg hj, and_self]

theorem sibling_seq {s : Loc} {i t : ℕ} {Z : Bool} {x0 sd : ℤ} (hz : Z = true ↔ s.l (i + 1) = 0)
    (hx : s.x i = seq Z x0 sd t) (hd : Z = false → s.dx i = zdx sd t ∧ s.ddx i = zddx sd t) :
    (sibling s i).x i = seq Z x0 sd (t + 1) ∧
      (Z = false → (sibling s i).dx i = zdx sd (t + 1) ∧ (sibling s i).ddx i = zddx sd (t + 1)) := by
  simp only [sibling]
  cases hZ : Z with
  | true =>
    have h1 := hz.1 hZ
    refine ⟨?_, fun h => by simp at h⟩
    simp only [h1, if_true, setAt, hx, hZ, seq]
    push_cast
    ring
  | false =>
    have h1 : s.l (i + 1) ≠ 0 := fun h => by
      have := hz.2 h
      rw [hZ] at this
      simp at this
    obtain ⟨h3, h4⟩ := hd hZ
    rw [hZ] at hx
    simp only [if_neg h1, setAt, if_true, hx, h3, h4, forall_const]
    refine ⟨?_, (Enum.zdx_succ sd t).symm, (Enum.zddx_succ sd t).symm⟩
    simp only [seq, Bool.false_eq_true, if_false, Enum.zz_succ]
    ring

/-- after the walk below one value: the next value -/
theorem sibling_spec {c : Cfg} (hc : CfgOK c) {bot i t : ℕ} (hi : i < c.N) {Z : Bool} {x0 sd : ℤ} {s s1 : Loc}
    (h : LI c bot i Z x0 sd t s) (ho : Out c bot i s s1) :
    Out c bot (i + 1) s (sibling s1 i) ∧ (sibling s1 i).x i = seq Z x0 sd (t + 1) ∧
      nextL c (sibling s1 i) i = pd c.e 0 (sibling s1 i).x i ∧
      (nextL c (sibling s1 i) i ≤ c.bnd (sibling s1 i).A i →
        LI c bot i Z x0 sd (t + 1) (accept c (sibling s1 i) i) ∧ Fr c (i + 1) s (accept c (sibling s1 i) i)) := by
  obtain ⟨fA, fc, fl, fs⟩ := sibling_fields s1 i
  have hz1 : Z = true ↔ s1.l (i + 1) = 0 := by rw [ho.fr.l _ (by omega)]; exact h.z
  obtain ⟨hx1, hd1⟩ := sibling_seq (s := s1) (i := i) (t := t) hz1 (by rw [ho.fr.x i le_rfl, h.xk])
    (fun hZ => by rw [ho.fr.dx i le_rfl, ho.fr.ddx i le_rfl]; exact h.dxk hZ)
  have hxx : ∀ j, i < j → (sibling s1 i).x j = s.x j := fun j hj => by
    rw [(sibling_other s1 i j (by omega)).1, ho.fr.x j (by omega)]
  have hcen : cen c.e (sibling s1 i).x i = cen c.e s.x i := Enum.cen_congr _ _ _ _ fun j h1 _ => hxx j h1
  have hps : ∀ i' j, i < j → psum c.e (sibling s1 i).x i' j = psum c.e s.x i' j := fun i' j h1 =>
    Enum.psum_congr _ _ _ _ _ fun l h2 _ => hxx l (by omega)
  have hps1 : ∀ i' j, i < j → psum c.e (sibling s1 i).x i' j = psum c.e s1.x i' j := fun i' j h1 =>
    Enum.psum_congr _ _ _ _ _ fun l h2 _ => (sibling_other s1 i l (by omega)).1
  have hpd1 : pd c.e 0 (sibling s1 i).x (i + 1) = pd c.e 0 s.x (i + 1) := Enum.pd_congr _ _ _ _ _ fun j h1 _ => hxx j h1
  have hnext : nextL c (sibling s1 i) i = pd c.e 0 (sibling s1 i).x i := by
    rw [pd_at hc _ i hi, hcen, hpd1, nextL, fl, fc, ho.fr.l _ (by omega), ho.fr.ctr i le_rfl, h.lp, h.cc]
  have hrow : ∀ k, i = k + 1 → ∀ j, i ≤ j → j < c.N → (sibling s1 i).sig k j = psum c.e (sibling s1 i).x k (j + 1) := by
    intro k hk j h1 h2
    rw [fs, ho.fr.sig k j (by omega), hps k _ (by omega)]
    exact h.row k j hk h1 h2
  have hrows : ∀ k i' j, i = k + 1 → i' < k → bot ≤ i' + 1 → i ≤ j → j < c.N → (∀ l, i' ≤ l → l < k → s1.r l ≤ j) →
      (sibling s1 i).sig i' j = psum c.e (sibling s1 i).x i' (j + 1) := by
    intro k i' j hk h1 hbt h2 h3 h4
    rw [fs, hps1 i' _ (by omega)]
    exact ho.rows k i' j hk h1 hbt (by omega) h3 h4
  have hrs : ∀ l, l + 1 ≠ i → (sibling s1 i).r l = s1.r l := fun l hl => by rw [sibling_r, if_neg hl]
  have hfr : Fr c (i + 1) s (sibling s1 i) := by
    refine ⟨fun j hj => hxx j hj, fun j hj => ?_, fun j hj => ?_, fun j hj => ?_, fun j hj => ?_, fun i' j hi' => ?_,
      fun l hl => ?_, fun i' => ?_⟩
    · rw [(sibling_other s1 i j (by omega)).2.1, ho.fr.dx j (by omega)]
    · rw [(sibling_other s1 i j (by omega)).2.2, ho.fr.ddx j (by omega)]
    · rw [fc, ho.fr.ctr j (by omega)]
    · rw [fl, ho.fr.l j (by omega)]
    · rw [fs, ho.fr.sig i' j (by omega)]
    · rw [hrs l (by omega), ho.fr.r l (by omega)]
    · rw [fs, ho.fr.col]
  have hrlt : ∀ l, l < i + 1 → (sibling s1 i).r l < c.N := by
    intro l hl
    rw [sibling_r]
    split_ifs
    · exact hi
    · rcases Nat.lt_or_ge l i with h1 | h1
      · exact ho.rlt l h1
      · obtain rfl : l = i := by omega
        rw [ho.fr.r l (by omega)]
        exact h.ri
  refine ⟨⟨hfr, ?_, hrlt⟩, hx1, hnext, fun hle => ?_⟩
  · intro k i' j hk hi' hbt hj hjN hr
    obtain rfl : i = k := by omega
    obtain ⟨p, rfl⟩ : ∃ p, i = p + 1 := ⟨i - 1, by omega⟩
    by_cases hp : i' = p
    · subst hp
      exact hrow i' rfl j hj hjN
    · exact hrows p i' j rfl (by omega) hbt hj hjN fun l h1 h2 => by
        rw [← hrs l (by omega)]
        exact hr l h1 (by omega)
  · -- the accepted value
    have ax : (accept c (sibling s1 i) i).x = (sibling s1 i).x := rfl
    have ar : (accept c (sibling s1 i) i).r = (sibling s1 i).r := rfl
    have al1 : ∀ j, i < j → (accept c (sibling s1 i) i).l j = s.l j := by
      intro j hj
      simp only [accept, setAt]
      rw [if_neg (by omega), fl, ho.fr.l j (by omega)]
    have al0 : (accept c (sibling s1 i) i).l i = nextL c (sibling s1 i) i := by simp only [accept, setAt, if_true]
    have ac : (accept c (sibling s1 i) i).c = (sibling s1 i).c := rfl
    have as0 : ∀ i' j, (i' + 1 ≠ i ∨ j + 1 ≠ i) → (accept c (sibling s1 i) i).sig i' j = (sibling s1 i).sig i' j := by
      intro i' j hij
      simp only [accept]
      split_ifs with h0
      · rfl
      · simp only [setAt2]
        rw [if_neg (by omega)]
    have as1 : ∀ k, i = k + 1 → (accept c (sibling s1 i) i).sig k k =
        c.fl ((sibling s1 i).sig k i - c.fl ((sibling s1 i).x i * c.mt k i)) := by
      intro k hk
      subst hk
      simp only [accept, Nat.add_sub_cancel]
      rw [if_neg (by omega), setAt2, if_pos ⟨rfl, rfl⟩]
    refine ⟨⟨⟨?_, ?_, ?_, ?_, ?_⟩, ?_, ?_, ?_, ?_, ?_, ?_, ?_, ?_, ?_⟩, ?_⟩
    · rw [al0, hnext, ax]
    · intro k hk
      rw [as1 k hk, hrow k hk i le_rfl hi, ax, Enum.cen_eq, ← hk, psum_step c _ k i hi]
    · intro k i' j hk hi' hbt hj hr
      have h1 := hr k (by omega) le_rfl
      rw [ar, sibling_r, if_pos hk.symm] at h1
      rw [as0 i' j (by omega), ax]
      exact hrows k i' j hk hi' hbt h1 hj fun l h2 h3 => by
        rw [← hrs l (by omega)]
        exact hr l h2 (by omega)
    · intro l hl
      exact hrlt l (by omega)
    · intro k hk
      rw [ar, sibling_r, if_pos hk.symm]
      omega
    · rw [al1 _ (by omega), ax, hpd1, h.lp]
    · rw [ac, fc, ho.fr.ctr i le_rfl, ax, hcen, h.cc]
    · intro k j hk h1 h2
      rw [as0 k j (by omega), ax]
      exact hrow k hk j h1 h2
    · exact hx1
    · exact hd1
    · rw [al1 _ (by omega)]
      exact h.z
    · rw [ac, fc, ho.fr.ctr i le_rfl]
      exact h.ok
    · rw [al0]
      exact hle
    · exact hrlt i (by omega)
    · refine ⟨hfr.x, hfr.dx, hfr.ddx, hfr.ctr, fun j hj => al1 j (by omega), fun i' j hi' => ?_, hfr.r, fun i' => ?_⟩
      · rw [as0 i' j (by omega)]
        exact hfr.sig i' j hi'
      · rw [as0 i' _ (by omega)]
        exact hfr.col i'

/-! ## The recursion -/

/-- same coordinates from `m` on -/
def Agree (c : Cfg) (m : ℕ) (u v : ℕ → ℤ) : Prop := ∀ j, m ≤ j → j < c.N → v j = u j

theorem Agree.plen {c : Cfg} {m : ℕ} {u v : ℕ → ℤ} (h : Agree c m u v) {k : ℕ} (hk : m ≤ k) : plen c v k = plen c u k :=
  Enum.pd_congr _ _ _ _ _ fun j h1 h2 => h j (by omega) h2

/-- reports for two disjoint sets of vectors, one after the other -/
theorem Cov.append {c : Cfg} (hc : CfgOK c) {bot hi : ℕ} {leaf : Bool} (hi' : hi ≤ c.N) {P Q R : (ℕ → ℤ) → Prop}
    {A A1 A2 : ℚ} {tr tr' : List Ev} (h : Cov c bot leaf hi P A A1 tr) (g : Cov c bot leaf hi Q A1 A2 tr') (h1 : A1 ≤ A)
    (h2 : A2 ≤ A1) (hR : ∀ v, R v ↔ P v ∨ Q v) (hd : ∀ u v, P u → Q v → ∃ j, bot ≤ j ∧ j < c.N ∧ u j ≠ v j) :
    Cov c bot leaf hi R A A2 (tr ++ tr') := by
  have h' := h.mono hc hi' le_rfl h2
  have g' := g.mono hc hi' h1 le_rfl
  refine ⟨fun e he => ?_, fun v hv hb hcn hl => ?_, ?_⟩
  · rcases List.mem_append.1 he with he | he
    · obtain ⟨h3, h4⟩ := h'.sound e he
      exact ⟨(hR _).2 (Or.inl h3), h4⟩
    · obtain ⟨h3, h4⟩ := g'.sound e he
      exact ⟨(hR _).2 (Or.inr h3), h4⟩
  · rcases (hR v).1 hv with h3 | h3
    · obtain ⟨e, he, h4⟩ := h'.comp v h3 hb hcn hl
      exact ⟨e, List.mem_append_left _ he, h4⟩
    · obtain ⟨e, he, h4⟩ := g'.comp v h3 hb hcn hl
      exact ⟨e, List.mem_append_right _ he, h4⟩
  · rw [List.pairwise_append]
    exact ⟨h.nodup, g.nodup, fun e he e' he' => hd _ _ (h.sound e he).1 (g.sound e' he').1⟩

/-- outcome of a walk of the levels `bot, …, m - 1` -/
def Outcome (c : Cfg) (bot : ℕ) (leaf : Bool) (m : ℕ) (P : (ℕ → ℤ) → Prop) (s : Loc) (tr : List Ev) (s' : Loc) : Prop :=
  Out c bot m s s' ∧ s'.A = lastA s.A tr ∧ s'.A ≤ s.A ∧ Cov c bot leaf m P s.A s'.A tr

/-- the vectors of the sibling loop of level `i` from the `t`-th value on -/
def From (c : Cfg) (i : ℕ) (Z : Bool) (x0 sd : ℤ) (u : ℕ → ℤ) (t : ℕ) (v : ℕ → ℤ) : Prop :=
  Agree c (i + 1) u v ∧ ∃ n, t ≤ n ∧ v i = seq Z x0 sd n

theorem loop_ok {c : Cfg} (hc : CfgOK c) {bot : ℕ} {leaf : Bool} {fuel i : ℕ} (hbi : bot ≤ i) (hi : i < c.N)
    {rec : Loc → Walk Loc}
    (ih : ∀ s, In c bot i s → s.l i ≤ c.bnd s.A i → Enough c.e (fun k => c.bnd s.A k) fuel →
      wp s.A (rec s) (Outcome c bot leaf i (Agree c i s.x) s)) {Z : Bool} {x0 sd : ℤ} :
    ∀ n t s, fuel = t + n → LI c bot i Z x0 sd t s → Enough c.e (fun k => c.bnd s.A k) fuel →
      wp s.A (loop c rec i n s) (Outcome c bot leaf (i + 1) (From c i Z x0 sd s.x t) s) := by
  intro n
  induction n with
  | zero =>
    intro t s ht h hF
    exfalso
    obtain rfl : fuel = t := by omega
    have hok := h.ok
    rw [h.cc] at hok
    exact fuel_contra hc hi hok h.xk hF (by rw [← h.child.l]; exact h.tested)
  | succ n ihn =>
    intro t s ht h hF
    have hokC : SeqOK Z x0 sd (cen c.e s.x i) := by
      have := h.ok
      rwa [h.cc] at this
    apply wp_bind
    refine wp_mono (ih s h.child h.tested hF) ?_
    rintro tr s1 ⟨ho, hA1, hle1, hcov⟩
    obtain ⟨fA, fc, fl, fs⟩ := sibling_fields s1 i
    obtain ⟨ho2, hx2, hnext, hacc⟩ := sibling_spec hc hi h ho
    -- the reports of the first value
    have hcov1 : Cov c bot leaf (i + 1) (Agree c i s.x) s.A s1.A tr := by
      refine ⟨fun e he => ?_, fun v hv hb hcn => hcov.comp v hv (fun j h1 h2 => hb j h1 (by omega))
        fun j h1 h2 => hcn j h1 (by omega), hcov.nodup⟩
      obtain ⟨h1, h2, h3, h4, h5⟩ := hcov.sound e he
      refine ⟨h1, h2, fun j h6 h7 => ?_, fun j h6 h7 h8 => ?_, h5⟩
      · rcases Nat.lt_or_ge j i with h9 | h9
        · exact h3 j h6 h9
        · obtain rfl : j = i := by omega
          rw [h1.plen le_rfl]
          change pd c.e 0 s.x j ≤ _
          rw [← h.child.l]
          exact h.tested
      · rcases Nat.lt_or_ge j i with h9 | h9
        · exact h4 j h6 h9 h8
        · obtain rfl : j = i := by omega
          rw [h1.plen (by omega)] at h8
          have hz : Z = true := h.z.2 (h.lp.trans h8)
          rw [h1 j le_rfl hi, h.xk, seq, if_pos hz]
          have := (hokC.zero hz).2
          omega
    have hsplit : ∀ v, From c i Z x0 sd s.x t v ↔ Agree c i s.x v ∨ From c i Z x0 sd s.x (t + 1) v := by
      intro v
      constructor
      · rintro ⟨h1, k, h2, h3⟩
        rcases Nat.lt_or_ge t k with h4 | h4
        · exact Or.inr ⟨h1, k, h4, h3⟩
        · left
          intro j h5 h6
          rcases Nat.lt_or_ge i j with h7 | h7
          · exact h1 j h7 h6
          · obtain rfl : j = i := by omega
            rw [h3, h.xk]
            congr 1
            omega
      · rintro (h1 | ⟨h1, k, h2, h3⟩)
        · exact ⟨fun j h2 h3 => h1 j (by omega) h3, t, le_rfl, by rw [h1 i le_rfl hi, h.xk]⟩
        · exact ⟨h1, k, by omega, h3⟩
    have hdisj : ∀ u v, Agree c i s.x u → From c i Z x0 sd s.x (t + 1) v → ∃ j, bot ≤ j ∧ j < c.N ∧ u j ≠ v j := by
      rintro u v h1 ⟨_, k, h2, h3⟩
      refine ⟨i, hbi, hi, ?_⟩
      rw [h1 i le_rfl hi, h.xk, h3]
      intro h4
      have := hokC.inj h4
      omega
    change wp (lastA s.A tr) (if nextL c (sibling s1 i) i > c.bnd (sibling s1 i).A i then .ret (sibling s1 i)
      else loop c rec i n (accept c (sibling s1 i) i)) _
    by_cases hst : nextL c (sibling s1 i) i > c.bnd (sibling s1 i).A i
    · rw [if_pos hst]
      change Outcome _ _ _ _ _ _ _ _
      rw [List.append_nil]
      refine ⟨ho2, by rw [fA, hA1], by rw [fA]; exact hle1, ?_⟩
      have hno : Cov c bot leaf (i + 1) (From c i Z x0 sd s.x (t + 1)) s1.A s1.A [] := by
        refine ⟨fun e he => by simp at he, ?_, List.Pairwise.nil⟩
        rintro v ⟨h1, k, h2, h3⟩ hb _ _
        exfalso
        have h4 := hb i hbi (by omega)
        have h5 : ∀ j, i < j → j < c.N → v j = (sibling s1 i).x j := fun j h6 h7 => by
          rw [h1 j h6 h7, ho2.fr.x j h6]
        have h6 : cen c.e (sibling s1 i).x i = cen c.e s.x i :=
          Enum.cen_congr _ _ _ _ fun j h6 _ => ho2.fr.x j h6
        have h7 := far hc hi (u := (sibling s1 i).x) (v := v) (by rw [h6]; exact hokC) hx2 h3 h2 h5
        rw [← hnext] at h7
        rw [fA] at hst
        exact absurd (lt_of_lt_of_le hst (h7.trans h4)) (lt_irrefl _)
      have := Cov.append hc (by omega) hcov1 hno hle1 le_rfl hsplit hdisj
      rwa [List.append_nil] at this
    · rw [if_neg hst]
      obtain ⟨hLI, hfr⟩ := hacc (not_lt.1 hst)
      have hA2 : (accept c (sibling s1 i) i).A = s1.A := rfl
      have hx3 : ∀ v, From c i Z x0 sd (accept c (sibling s1 i) i).x (t + 1) v ↔ From c i Z x0 sd s.x (t + 1) v := by
        intro v
        have : ∀ j, i + 1 ≤ j → (accept c (sibling s1 i) i).x j = s.x j := fun j hj => hfr.x j hj
        constructor
        · rintro ⟨h1, h2⟩
          exact ⟨fun j h3 h4 => by rw [h1 j h3 h4, this j h3], h2⟩
        · rintro ⟨h1, h2⟩
          exact ⟨fun j h3 h4 => by rw [h1 j h3 h4, this j h3], h2⟩
      have := ihn (t + 1) (accept c (sibling s1 i) i) (by omega) hLI
        (hF.mono fun k hk => by
          rw [hA2]
          exact hc.bnd_mono hle1 hk)
      rw [hA2, hA1] at this
      refine wp_mono this ?_
      rintro tr' s3 ⟨ho3, hA3, hle3, hcov3⟩
      rw [hA2] at hA3 hle3 hcov3
      refine ⟨⟨hfr.trans ho3.fr le_rfl, ho3.rows, ho3.rlt⟩, ?_, hle3.trans hle1, ?_⟩
      · rw [hA3, hA1, ← lastA_append]
      · exact Cov.append hc (by omega) hcov1 hcov3 hle1 hle3
          (fun v => (hsplit v).trans (or_congr_right (hx3 v).symm)) fun u v h1 h2 => hdisj u v h1 ((hx3 v).1 h2)

theorem recur_ok {c : Cfg} (hc : CfgOK c) {bot : ℕ} {leaf : Bool} (hlf : leaf = true → bot = 0) {fuel : ℕ} :
    ∀ n s, bot + n ≤ c.N → In c bot (bot + n) s → (n = 0 → s.l bot ≤ c.bnd s.A bot) →
      Enough c.e (fun k => c.bnd s.A k) fuel →
      wp s.A (recur c bot leaf fuel n s) (Outcome c bot leaf (bot + n) (Agree c (bot + n) s.x) s) := by
  intro n
  induction n with
  | zero =>
    intro s hn h ht hF
    simp only [recur, emit]
    have hout : ∀ A, Out c bot (bot + 0) s { s with A := A } := fun A =>
      ⟨⟨fun _ _ => rfl, fun _ _ => rfl, fun _ _ => rfl, fun _ _ => rfl, fun _ _ => rfl, fun _ _ _ => rfl, fun _ _ => rfl,
        fun _ => rfl⟩, fun i i' j h1 h2 h3 => by omega, h.rlt⟩
    have hl : s.l bot = plen c s.x bot := h.l
    by_cases h1 : leaf = true ∧ (s.l 0 > c.bnd s.A 0 ∨ s.l 0 = 0)
    · rw [if_pos h1]
      refine ⟨hout s.A, rfl, le_rfl, fun e he => by simp at he, fun v hv _ _ h2 => ?_, List.Pairwise.nil⟩
      exfalso
      have hb := hlf h1.1
      apply h2 h1.1
      rw [Agree.plen (k := bot) hv le_rfl, ← hl]
      rw [hb] at ht ⊢
      rcases h1.2 with h3 | h3
      · exact absurd (ht rfl) (not_le.2 h3)
      · exact h3
    · rw [if_neg h1]
      intro A' hA'
      refine ⟨hout A', rfl, hA', ?_, fun v hv _ _ _ => ⟨_, List.mem_singleton_self _, fun j h2 h3 => (hv j h2 h3).symm⟩,
        List.pairwise_singleton _ _⟩
      intro e he
      rw [List.mem_singleton] at he
      subst he
      refine ⟨fun _ _ _ => rfl, hl, fun j h2 h3 => by omega, fun j h2 h3 => by omega, fun h2 => ?_⟩
      have hb := hlf h2
      rw [← hl, hb]
      intro h3
      exact h1 ⟨h2, Or.inr h3⟩
  | succ n ih =>
    intro s hn h _ hF
    have hi : bot + n < c.N := by omega
    obtain ⟨rA, rx, _⟩ := raise_fields s (bot + n)
    have hstart := seq_start hc (i := bot + n) s.x
    have hwhole : ∀ v, (plen c v (bot + n + 1) = 0 → 0 ≤ v (bot + n)) → Agree c (bot + n + 1) s.x v →
        From c (bot + n) (decide (s.l (bot + n + 1) = 0)) (roundto (cen c.e s.x (bot + n)))
          (startDir (cen c.e s.x (bot + n)) (roundto (cen c.e s.x (bot + n)))) s.x 0 v := by
      intro v hcn hv
      refine ⟨hv, ?_⟩
      have hl := h.l
      rw [show bot + (n + 1) = bot + n + 1 by omega] at hl
      rw [hl]
      refine (hstart.surj (v (bot + n))).2 fun hz => ?_
      rw [(hstart.zero hz).1, Enum.roundto_zero]
      exact hcn ((hv.plen le_rfl).trans (of_decide_eq_true hz))
    simp only [recur]
    by_cases hst : firstL c (raise s (bot + n)) (bot + n) > c.bnd (raise s (bot + n)).A (bot + n)
    · rw [if_pos hst]
      refine ⟨raise_out h, rA, by rw [rA], fun e he => by simp at he, fun v hv hb hcn _ => ?_, List.Pairwise.nil⟩
      exfalso
      obtain ⟨_, k, _, h1⟩ := hwhole v (hcn (bot + n) (by omega) (by omega)) hv
      have hl := h.l
      have hctr := h.ctr (bot + n) (by omega)
      rw [show bot + (n + 1) = bot + n + 1 by omega] at hl
      rw [hl] at h1
      have hu : ∀ j, bot + n < j → j < c.N → v j = setAt s.x (bot + n) (roundto (cen c.e s.x (bot + n))) j := by
        intro j h2 h3
        rw [setAt, if_neg (by omega)]
        exact hv j (by omega) h3
      have hcen : cen c.e (setAt s.x (bot + n) (roundto (cen c.e s.x (bot + n)))) (bot + n) = cen c.e s.x (bot + n) :=
        Enum.cen_congr _ _ _ _ fun j h2 _ => by rw [setAt, if_neg (by omega)]
      have h2 := far hc hi (u := setAt s.x (bot + n) (roundto (cen c.e s.x (bot + n)))) (v := v) (t := 0) (n := k)
        (by rw [hcen]; exact hstart) (by simp [setAt, seq, Enum.zz_zero]) h1 (by omega) hu
      rw [pd_at hc _ _ hi, hcen, Enum.pd_congr _ _ _ s.x _ fun j h3 _ => by rw [setAt, if_neg (by omega)]] at h2
      obtain ⟨_, _, _, _, _, rl, rs⟩ := raise_fields s (bot + n)
      rw [firstL, rl, rs, hctr, hl, rA] at hst
      have h3 := hb (bot + n) (by omega) (by omega)
      rw [rA] at h3
      have h4 : setAt s.x (bot + n) (roundto (cen c.e s.x (bot + n))) (bot + n) = roundto (cen c.e s.x (bot + n)) := by
        simp [setAt]
      rw [h4] at h2
      exact absurd (lt_of_lt_of_le hst (h2.trans h3)) (lt_irrefl _)
    · rw [if_neg hst]
      obtain ⟨hLI, hfr, hA⟩ := enter_LI hc (Nat.le_add_right bot n) hi h (not_lt.1 hst)
      have := loop_ok hc (fuel := fuel) (Nat.le_add_right bot n) hi (rec := recur c bot leaf fuel n)
        (fun t h1 h2 h3 => ih t (by omega) h1 (fun h4 => by subst h4; exact h2) h3) fuel 0
        (enter c (raise s (bot + n)) (bot + n)) (by omega) hLI (by rw [hA]; exact hF)
      rw [hA] at this
      refine wp_mono this ?_
      rintro tr s3 ⟨ho3, hA3, hle3, hcov3⟩
      rw [hA] at hA3 hle3 hcov3
      have hxe : ∀ j, bot + n + 1 ≤ j → (enter c (raise s (bot + n)) (bot + n)).x j = s.x j := hfr.x
      refine ⟨⟨hfr.trans ho3.fr le_rfl, ho3.rows, ho3.rlt⟩, hA3, hle3, fun e he => ?_, fun v hv hb hcn hl => ?_, hcov3.nodup⟩
      · obtain ⟨h1, h2⟩ := hcov3.sound e he
        exact ⟨fun j h3 h4 => by rw [h1.1 j h3 h4, hxe j h3], h2⟩
      · refine hcov3.comp v ?_ hb hcn hl
        obtain ⟨h1, h2⟩ := hwhole v (hcn (bot + n) (by omega) (by omega)) hv
        exact ⟨fun j h3 h4 => by rw [h1 j h3 h4, hxe j h3], h2⟩

end Par
end Fplll

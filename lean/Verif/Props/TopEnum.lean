import Mathlib.Tactic.Positivity
import Mathlib.Data.Rat.Floor
import Mathlib.Data.Int.Interval
import Verif.Proofs.TopEnum

/-!
# C89: the subtrees of `Enumerator` are a partition of the enumeration tree
-/

open Finset

namespace Fplll
namespace TopEnum

variable {p : Params}

/-- what the code needs: a positive dimension, positive squared norms, a rounding to nearest -/
structure Params.OK (p : Params) : Prop where
  d : 1 ≤ p.d
  r : ∀ i < p.d, 0 < p.r i
  rnd : ∀ c, |(p.rnd c : ℚ) - c| ≤ 1 / 2

/-- specification: squared norm of the vector with coefficients `v` -/
def normSq (p : Params) (v : ℕ → ℤ) : ℚ := ∑ i ∈ range p.d, p.r i * (v i + ∑ j ∈ Ico (i + 1) p.d, v j * p.mu j i) ^ 2

theorem normSq_eq (p : Params) (v : ℕ → ℤ) : pnorm p 0 v = normSq p v := by
  unfold pnorm normSq ctr
  rw [← range_eq_Ico]
  refine sum_congr rfl fun i _ => ?_
  ring

/-! ## Sequences of calls -/

theorem rem_ended {s : St} {j : ℕ} {v : ℕ → ℤ} (h : p.d ≤ s.k) : ¬ Rem p.d s j v := by
  rintro (⟨i, h1, -, h3, -⟩ | ⟨-, h2, -⟩) <;> omega

theorem calls_ended (fuel : ℕ) {s : St} (hi : s.init = false) (h : p.d ≤ s.k) (Rs : List ℚ) : calls p fuel Rs s = some (Rs.map fun _ => none) := by
  induction Rs with
  | nil => rfl
  | cons R Rs ih =>
    unfold calls enumNext
    dsimp only
    simp only [hi, Bool.false_eq_true, if_false, if_pos h, ih]
    rfl

theorem calls_spec (ok : p.OK) {fuel : ℕ} : ∀ (Rs : List ℚ) {s : St} {out : List (Option (List ℤ))}, s.init = false → (Inv p s ∨ p.d ≤ s.k) → calls p fuel Rs s = some out →
    (∀ (t : ℕ) (l : List ℤ), out[t]? = some (some l) → ∃ R, Rs[t]? = some R ∧ Emit p R l) ∧ (∀ (v : ℕ → ℤ) (t : ℕ) (l : List ℤ), out[t]? = some (some l) → Covers p.d l v → Rem p.d s 0 v) ∧
    (∀ (v : ℕ → ℤ) (t t' : ℕ) (l l' : List ℤ), out[t]? = some (some l) → out[t']? = some (some l') → Covers p.d l v → Covers p.d l' v → t = t') ∧
    (none ∈ out → ∀ v : ℕ → ℤ, (∀ R ∈ Rs, pnorm p 0 v ≤ R) → Rem p.d s 0 v → ∃ (t : ℕ) (l : List ℤ), out[t]? = some (some l) ∧ Covers p.d l v) := by
  intro Rs
  induction Rs with
  | nil =>
    intro s out _ _ h
    obtain rfl : [] = out := by simpa [calls] using h
    simp
  | cons R Rs ih =>
    intro s out hi hs h
    rcases Nat.lt_or_ge s.k p.d with hlt | hge
    swap
    · rw [calls_ended fuel hi hge] at h
      obtain rfl := Option.some.inj h
      have hno : ∀ (t : ℕ) (l : List ℤ), ((R :: Rs).map fun _ => (none : Option (List ℤ)))[t]? ≠ some (some l) := by
        intro t l ht
        rw [List.getElem?_map] at ht
        cases h' : (R :: Rs)[t]? <;> rw [h'] at ht <;> simp at ht
      exact ⟨fun t l ht => absurd ht (hno t l), fun v t l ht => absurd ht (hno t l), fun v t t' l l' ht => absurd ht (hno t l), fun _ v _ hv => absurd hv (rem_ended hge)⟩
    have hI : Inv p s := hs.resolve_right (by omega)
    unfold calls at h
    have he : enumNext p R fuel s = loop p R fuel s := by
      unfold enumNext
      simp only [hi, Bool.false_eq_true, if_false]
      rw [if_neg (by omega)]
    rw [he] at h
    cases hl : loop p R fuel s with
    | none => rw [hl] at h; simp at h
    | some q =>
      obtain ⟨s', o⟩ := q
      rw [hl] at h
      dsimp only at h
      obtain ⟨out', h', rfl⟩ := Option.map_eq_some_iff.1 h
      obtain ⟨g0, g⟩ := loop_spec ok.r ok.rnd fuel hI hl
      have hi' : s'.init = false := g0.trans hi
      cases o with
      | none =>
        obtain ⟨g1, g2⟩ := g
        rw [calls_ended fuel hi' g1] at h'
        obtain rfl := Option.some.inj h'
        have hno : ∀ (t : ℕ) (l : List ℤ), (none :: Rs.map fun _ => (none : Option (List ℤ)))[t]? ≠ some (some l) := by
          intro t l ht
          rw [show (none :: Rs.map fun _ => (none : Option (List ℤ))) = (R :: Rs).map fun _ => none from rfl, List.getElem?_map] at ht
          cases h' : (R :: Rs)[t]? <;> rw [h'] at ht <;> simp at ht
        exact ⟨fun t l ht => absurd ht (hno t l), fun v t l ht => absurd ht (hno t l), fun v t t' l l' ht => absurd ht (hno t l),
          fun _ v hv hv' => absurd hv' (g2 v (hv R List.mem_cons_self))⟩
      | some l0 =>
        obtain ⟨g1, g2, g3, g4, g5⟩ := g
        obtain ⟨i1, i2, i3, i4⟩ := ih hi' (.inl g1) h'
        refine ⟨fun t l ht => ?_, fun v t l ht hc => ?_, fun v t t' l l' ht ht' hc hc' => ?_, fun hn v hv hv' => ?_⟩
        · cases t with
          | zero => obtain rfl : l0 = l := by simpa using ht
                    exact ⟨R, rfl, g2⟩
          | succ t => exact i1 t l (by simpa using ht)
        · cases t with
          | zero => obtain rfl : l0 = l := by simpa using ht
                    exact (g4 v hc).1
          | succ t => exact g3 v (i2 v t l (by simpa using ht) hc)
        · cases t with
          | zero =>
            obtain rfl : l0 = l := by simpa using ht
            cases t' with
            | zero => rfl
            | succ t' => exact absurd (i2 v t' l' (by simpa using ht') hc') (g4 v hc).2
          | succ t =>
            cases t' with
            | zero =>
              obtain rfl : l0 = l' := by simpa using ht'
              exact absurd (i2 v t l (by simpa using ht) hc) (g4 v hc').2
            | succ t' => rw [i3 v t t' l l' (by simpa using ht) (by simpa using ht') hc hc']
        · rcases g5 v (hv R List.mem_cons_self) hv' with hc | hr
          · exact ⟨0, l0, rfl, hc⟩
          · obtain ⟨t, l, ht, hc⟩ := i4 (by simpa using hn) v (fun R' hR' => hv R' (List.mem_cons_of_mem _ hR')) hr
            exact ⟨t + 1, l, by simpa using ht, hc⟩

/-- the state after the initialisation -/
def started (p : Params) (R : ℚ) : St := { start with k := initLevel p R (p.d - 1), kmax := initLevel p R (p.d - 1), init := false }

theorem initLevel_le (p : Params) (R : ℚ) (k : ℕ) : initLevel p R k ≤ k := by
  induction k with
  | zero => exact le_rfl
  | succ k ih =>
    unfold initLevel
    split_ifs <;> omega

theorem initLevel_vol (p : Params) (R : ℚ) (k : ℕ) (h : p.kmin < initLevel p R k) : p.vol R (initLevel p R k - 1) ≤ p.maxVolume := by
  induction k with
  | zero => exact absurd h (Nat.not_lt_zero _)
  | succ k ih =>
    unfold initLevel at h ⊢
    split_ifs at h ⊢ with h1 h2
    · exact h2
    · exact ih h
    · exact absurd h h1

theorem started_inv (ok : p.OK) (R : ℚ) : Inv p (started p R) := by
  have h1 := initLevel_le p R (p.d - 1)
  have h2 := ok.d
  exact ⟨le_rfl, by show initLevel p R (p.d - 1) < p.d; omega, fun _ _ _ => rfl, le_rfl, fun _ _ => ⟨rfl, rfl⟩, fun j h1 h2 => absurd (lt_of_le_of_lt h1 h2) (lt_irrefl _),
    fun j h1 h2 => absurd (lt_of_le_of_lt h1 h2) (lt_irrefl _), fun j h1 h2 => absurd (lt_of_le_of_lt h1 h2) (lt_irrefl _)⟩

theorem calls_start (fuel : ℕ) (R : ℚ) (Rs : List ℚ) : calls p fuel (R :: Rs) start = calls p fuel (R :: Rs) (started p R) := rfl

theorem rem_started (ok : p.OK) (R : ℚ) (v : ℕ → ℤ) : Rem p.d (started p R) 0 v ↔
    (∃ i, initLevel p R (p.d - 1) ≤ i ∧ i < p.d ∧ (∀ l, i < l → l < p.d → v l = 0) ∧ 0 < v i) ∨ ∀ l, initLevel p R (p.d - 1) ≤ l → l < p.d → v l = 0 := by
  have h1 := initLevel_le p R (p.d - 1)
  have h2 := ok.d
  constructor
  · rintro (⟨i, h1, -, h3, h4, h5⟩ | ⟨-, -, h3⟩)
    · refine .inl ⟨i, h1, h3, h4, ?_⟩
      unfold Later at h5
      rw [if_neg (show ¬ i < (started p R).kmax from not_lt.2 h1)] at h5
      exact h5
    · exact .inr h3
  · rintro (⟨i, h1, h3, h4, h5⟩ | h3)
    · refine .inl ⟨i, h1, Nat.zero_le _, h3, h4, ?_⟩
      unfold Later
      rw [if_neg (show ¬ i < (started p R).kmax from not_lt.2 h1)]
      exact h5
    · exact .inr ⟨Nat.zero_le _, by show initLevel p R (p.d - 1) < p.d; omega, h3⟩

/-- the sign of the last coefficient that is not zero -/
theorem rem_or_neg (ok : p.OK) (R : ℚ) (v : ℕ → ℤ) : Rem p.d (started p R) 0 v ∨ Rem p.d (started p R) 0 fun i => -v i := by
  rw [rem_started ok, rem_started ok]
  by_cases hz : ∀ l, initLevel p R (p.d - 1) ≤ l → l < p.d → v l = 0
  · exact .inl (.inr hz)
  · push Not at hz
    obtain ⟨l, h1, h2, h3⟩ := hz
    have hex : ∃ m, ∃ i, i = p.d - 1 - m ∧ m ≤ p.d - 1 ∧ v i ≠ 0 := ⟨p.d - 1 - l, l, by omega, by omega, h3⟩
    classical
    obtain ⟨i, hi, hm, hv⟩ := Nat.find_spec hex
    have hmin := fun m => Nat.find_min hex (m := m)
    generalize Nat.find hex = m at *
    have hli : l ≤ i := by
      by_contra hlt
      exact hmin (p.d - 1 - l) (by omega) ⟨l, by omega, by omega, h3⟩
    have hab : ∀ j, i < j → j < p.d → v j = 0 := fun j h4 h5 => by
      by_contra hne
      exact hmin (p.d - 1 - j) (by omega) ⟨j, by omega, by omega, hne⟩
    rcases lt_or_gt_of_ne hv with hneg | hpos
    · exact .inr (.inl ⟨i, by omega, by omega, fun j h4 h5 => by rw [hab j h4 h5, neg_zero], by omega⟩)
    · exact .inl (.inl ⟨i, by omega, by omega, hab, hpos⟩)

theorem rem_both (ok : p.OK) (R : ℚ) {v : ℕ → ℤ} (h : Rem p.d (started p R) 0 v) (h' : Rem p.d (started p R) 0 fun i => -v i) : ∀ l, initLevel p R (p.d - 1) ≤ l → l < p.d → v l = 0 := by
  rw [rem_started ok] at h h'
  rcases h with ⟨i, h1, h2, h3, h4⟩ | h
  · rcases h' with ⟨i', h1', h2', h3', h4'⟩ | h'
    · rcases lt_trichotomy i i' with hlt | rfl | hlt
      · have := h3 i' hlt h2'
        omega
      · omega
      · have := h3' i hlt h2
        omega
    · have := h' i h1 h2
      omega
  · exact h

/-- **C89** every vector within the radius is, up to sign, in one of the subtrees, once `enum_next` has returned `false`.  The radius may change from call to call. -/
theorem C89_complete (ok : p.OK) {fuel : ℕ} {Rs : List ℚ} {out : List (Option (List ℤ))} (h : calls p fuel Rs start = some out) (hn : none ∈ out) {v : ℕ → ℤ} (hv : ∀ R ∈ Rs, normSq p v ≤ R) :
    ∃ (t : ℕ) (l : List ℤ), out[t]? = some (some l) ∧ (Covers p.d l v ∨ Covers p.d l fun i => -v i) := by
  cases Rs with
  | nil =>
    obtain rfl : [] = out := by simpa [calls] using h
    simp at hn
  | cons R Rs =>
    rw [calls_start] at h
    obtain ⟨-, -, -, h4⟩ := calls_spec ok _ rfl (.inl (started_inv ok R)) h
    have hneg : normSq p (fun i => -v i) = normSq p v := by
      unfold normSq
      refine sum_congr rfl fun i _ => ?_
      have : ∑ j ∈ Ico (i + 1) p.d, ((-v j : ℤ) : ℚ) * p.mu j i = -∑ j ∈ Ico (i + 1) p.d, (v j : ℚ) * p.mu j i := by
        rw [← sum_neg_distrib]
        exact sum_congr rfl fun j _ => by push_cast; ring
      rw [this]
      push_cast
      ring
    rcases rem_or_neg ok R v with hr | hr
    · obtain ⟨t, l, h1, h2⟩ := h4 hn v (fun R' hR' => by rw [normSq_eq]; exact hv R' hR') hr
      exact ⟨t, l, h1, .inl h2⟩
    · obtain ⟨t, l, h1, h2⟩ := h4 hn (fun i => -v i) (fun R' hR' => by rw [normSq_eq, hneg]; exact hv R' hR') hr
      exact ⟨t, l, h1, .inr h2⟩

/-- **C89** no vector is in two subtrees, at any time. -/
theorem C89_disjoint (ok : p.OK) {fuel : ℕ} {Rs : List ℚ} {out : List (Option (List ℤ))} (h : calls p fuel Rs start = some out) {v : ℕ → ℤ} {t t' : ℕ} {l l' : List ℤ}
    (ht : out[t]? = some (some l)) (ht' : out[t']? = some (some l')) (hc : Covers p.d l v) (hc' : Covers p.d l' v) : t = t' := by
  cases Rs with
  | nil =>
    obtain rfl : [] = out := by simpa [calls] using h
    simp at ht
  | cons R Rs =>
    rw [calls_start] at h
    exact (calls_spec ok _ rfl (.inl (started_inv ok R)) h).2.2.1 v t t' l l' ht ht' hc hc'

/-- **C89** a vector and its negative are not both visited, unless the estimate for the first subtree is exactly `max_volume` (`_partial`; see `C89_tie_violated`): they are at most in the same subtree, the first one. -/
theorem C89_sign_partial (ok : p.OK) {fuel : ℕ} {R : ℚ} {Rs : List ℚ} {out : List (Option (List ℤ))} (h : calls p fuel (R :: Rs) start = some out)
    (htie : ∀ k, p.vol R k ≠ p.maxVolume) {v : ℕ → ℤ} (hv : normSq p v ≤ R) {t t' : ℕ} {l l' : List ℤ}
    (ht : out[t]? = some (some l)) (ht' : out[t']? = some (some l')) (hc : Covers p.d l v) (hc' : Covers p.d l' fun i => -v i) : t = 0 ∧ t' = 0 := by
  have hS := started_inv ok R
  rw [calls_start] at h
  obtain ⟨-, g2, g3, -⟩ := calls_spec ok _ rfl (.inl hS) h
  have hz := rem_both ok R (g2 v t l ht hc) (g2 _ t' l' ht' hc')
  have hR : 0 ≤ R := le_trans (by rw [← normSq_eq]; exact pnorm_nonneg ok.r) hv
  have hk : (started p R).k < p.d := lt_of_le_of_lt hS.kmax hS.lt
  have hfirst : out[0]? = some (some (subTree p (started p R))) := by
    unfold calls at h
    cases hl : enumNext p R fuel (started p R) with
    | none => rw [hl] at h; simp at h
    | some q =>
      rw [hl] at h
      dsimp only at h
      obtain ⟨out', -, rfl⟩ := Option.map_eq_some_iff.1 h
      have he : enumNext p R fuel (started p R) = loop p R fuel (started p R) := by
        unfold enumNext
        rw [if_neg (show ¬ (started p R).init = true by simp [started])]
        dsimp only
        exact if_neg (not_le.2 hk)
      rw [he] at hl
      cases fuel with
      | zero => simp [loop] at hl
      | succ n =>
        have hnd : newdist p (started p R) = 0 := by
          rw [hS.newdist]
          exact pnorm_zero fun _ _ _ => rfl
        unfold loop at hl
        dsimp only at hl
        rw [hnd, if_pos hR, sub_zero, if_neg] at hl
        · rw [← Option.some.inj hl]
          rfl
        · rintro ⟨h1, h2⟩
          exact htie _ (le_antisymm (initLevel_vol p R _ h1) h2)
  have c1 : Covers p.d (subTree p (started p R)) v := (covers_subTree hk.le).2 hz
  have c2 : Covers p.d (subTree p (started p R)) fun i => -v i := (covers_subTree hk.le).2 fun l h1 h2 => by rw [hz l h1 h2]; rfl
  exact ⟨g3 v t 0 _ _ ht hfirst hc c1, g3 _ t' 0 _ _ ht' hfirst hc' c2⟩

/-- **C89** every subtree that is returned begins within the radius, has a root at level `kmin` at least (unless the dimension is smaller), and is small by the estimate or at that level. -/
theorem C89_subtrees (ok : p.OK) {fuel : ℕ} {Rs : List ℚ} {out : List (Option (List ℤ))} (h : calls p fuel Rs start = some out) {t : ℕ} {l : List ℤ} (ht : out[t]? = some (some l)) :
    ∃ R, Rs[t]? = some R ∧ 1 ≤ l.length ∧ l.length ≤ p.d ∧ ∀ v, Covers p.d l v → pnorm p (p.d - l.length) v ≤ R ∧
      (p.d - l.length ≤ p.kmin ∨ p.vol (R - pnorm p (p.d - l.length) v) (p.d - l.length - 1) < p.maxVolume) := by
  cases Rs with
  | nil =>
    obtain rfl : [] = out := by simpa [calls] using h
    simp at ht
  | cons R Rs =>
    rw [calls_start] at h
    obtain ⟨R', h1, h2⟩ := (calls_spec ok _ rfl (.inl (started_inv ok R)) h).1 t l ht
    exact ⟨R', h1, h2.pos, h2.le, h2.norm⟩

/-! ## Termination -/

theorem box (ok : p.OK) (R : ℚ) : ∃ B : ℤ, ∀ j, j < p.d → ∀ w, pnorm p j w ≤ R → ∀ l, j ≤ l → l < p.d → |w l| ≤ B := by
  have h1 : ∀ m, m ≤ p.d → ∃ B : ℤ, ∀ w, pnorm p (p.d - m) w ≤ R → ∀ l, p.d - m ≤ l → l < p.d → |w l| ≤ B := by
    intro m
    induction m with
    | zero => intro _; exact ⟨0, fun w _ l h1 h2 => by omega⟩
    | succ m ih =>
      intro hm
      obtain ⟨B, hB⟩ := ih (by omega)
      have hk : p.d - (m + 1) < p.d := by omega
      have hk1 : p.d - (m + 1) + 1 = p.d - m := by omega
      generalize p.d - (m + 1) = k at hk hk1 ⊢
      have hrk := ok.r k hk
      refine ⟨max B ⌈∑ l ∈ Ico (k + 1) p.d, (B : ℚ) * |p.mu l k| + (R / p.r k + 1)⌉, fun w hw l h1 h2 => ?_⟩
      have hw1 : pnorm p (p.d - m) w ≤ R := (pnorm_mono ok.r (by omega)).trans hw
      rcases Nat.eq_or_lt_of_le h1 with rfl | hlt
      · refine le_max_of_le_right ?_
        have hc : |ctr p w k| ≤ ∑ l ∈ Ico (k + 1) p.d, (B : ℚ) * |p.mu l k| := by
          unfold ctr
          rw [abs_neg]
          refine (abs_sum_le_sum_abs _ _).trans (sum_le_sum fun l hl => ?_)
          rw [abs_mul]
          have hb := hB w hw1 l (by have := mem_Ico.1 hl; omega) (mem_Ico.1 hl).2
          exact mul_le_mul_of_nonneg_right (by exact_mod_cast hb) (abs_nonneg _)
        have hsq : (ctr p w k - w k) * (ctr p w k - w k) ≤ R / p.r k := by
          rw [le_div_iff₀ hrk, mul_comm]
          have := pnorm_succ (x := w) hk
          have := pnorm_nonneg ok.r (x := w) (k := k + 1)
          linarith
        have ht : |ctr p w k - w k| ≤ R / p.r k + 1 := by
          rw [abs_le]
          constructor <;> nlinarith [mul_self_nonneg (ctr p w k - w k)]
        have hq : |(w k : ℚ)| ≤ ∑ l ∈ Ico (k + 1) p.d, (B : ℚ) * |p.mu l k| + (R / p.r k + 1) := by
          have : |(w k : ℚ)| ≤ |ctr p w k| + |ctr p w k - w k| := by
            have h3 := abs_sub (ctr p w k) (ctr p w k - w k)
            rwa [show ctr p w k - (ctr p w k - w k) = w k by ring] at h3
          linarith
        have := hq.trans (Int.le_ceil _)
        exact_mod_cast this
      · exact le_max_of_le_left (hB w hw1 l (by omega) h2)
  choose! B hB using h1
  refine ⟨∑ m ∈ range (p.d + 1), |B m|, fun j hj w hw l h1 h2 => ?_⟩
  have := hB (p.d - j) (by omega) w (by rw [show p.d - (p.d - j) = j by omega]; exact hw) l (by omega) h2
  refine this.trans ((le_abs_self _).trans ?_)
  exact single_le_sum (f := fun m => |B m|) (fun m _ => abs_nonneg _) (mem_range.2 (by omega))

/-- a function on the levels as a function on `ℕ` -/
def ext (d : ℕ) (w : Fin d → ℤ) (j : ℕ) : ℤ := if h : j < d then w ⟨j, h⟩ else 0

open Classical in
/-- number of nodes in the box that are left -/
noncomputable def left (p : Params) (B : ℤ) (s : St) : ℕ :=
  (((range p.d) ×ˢ Fintype.piFinset fun _ : Fin p.d => Icc (-B) B).filter fun q => Rem p.d s q.1 (ext p.d q.2)).card

theorem left_le {B : ℤ} {s s' : St} (h : ∀ j v, Rem p.d s' j v → Rem p.d s j v) : left p B s' ≤ left p B s := by
  classical
  refine card_le_card fun q hq => ?_
  rw [mem_filter] at hq ⊢
  exact ⟨hq.1, h _ _ hq.2⟩

theorem left_lt {B : ℤ} {s s' : St} (hk : s.k < p.d) (hB : ∀ l, s.k ≤ l → l < p.d → |s.x l| ≤ B) (h : ∀ j v, Rem p.d s' j v → Rem p.d s j v)
    (hn : ∀ w, (∀ l, s.k ≤ l → l < p.d → w l = s.x l) → ¬ Rem p.d s' s.k w) : left p B s' < left p B s := by
  classical
  have h0 : 0 ≤ B := le_trans (abs_nonneg _) (hB s.k le_rfl hk)
  set w : Fin p.d → ℤ := fun i => if s.k ≤ i then s.x i else 0 with hw
  have hwx : ∀ l, s.k ≤ l → l < p.d → ext p.d w l = s.x l := fun l h1 h2 => by
    unfold ext
    rw [dif_pos h2, hw]
    exact if_pos h1
  refine card_lt_card (ssubset_iff_of_subset (fun q hq => ?_) |>.2 ⟨(s.k, w), ?_, ?_⟩)
  · rw [mem_filter] at hq ⊢
    exact ⟨hq.1, h _ _ hq.2⟩
  · rw [mem_filter]
    refine ⟨mem_product.2 ⟨mem_range.2 hk, Fintype.mem_piFinset.2 fun i => ?_⟩, .inr ⟨le_rfl, hk, hwx⟩⟩
    rw [mem_Icc, ← abs_le, hw]
    dsimp only
    split_ifs with hi
    · exact hB i hi i.2
    · rw [abs_zero]; exact h0
  · rw [mem_filter]
    exact fun hq => hn _ hwx hq.2

/-- bound on the number of iterations -/
noncomputable def meas (p : Params) (B : ℤ) (s : St) : ℕ := left p B s * (p.d + 1) + (p.d - s.k)

theorem loop_ends (ok : p.OK) {R : ℚ} {B : ℤ} (hB : ∀ j, j < p.d → ∀ w, pnorm p j w ≤ R → ∀ l, j ≤ l → l < p.d → |w l| ≤ B) (n : ℕ) : ∀ {s : St}, Inv p s → meas p B s < n →
    ∃ s' o, loop p R n s = some (s', o) ∧ (o ≠ none → meas p B s' < meas p B s) := by
  induction n with
  | zero => intro s _ h; omega
  | succ n ih =>
    intro s hi hm
    have hk : s.k < p.d := lt_of_le_of_lt hi.kmax hi.lt
    unfold loop
    dsimp only
    by_cases hnd : newdist p s ≤ R
    · rw [if_pos hnd]
      have hbx := hB s.k hk s.x (by rw [← hi.newdist]; exact hnd)
      by_cases hdn : p.kmin < s.k ∧ p.maxVolume ≤ p.vol (R - newdist p s) (s.k - 1)
      · rw [if_pos hdn]
        obtain ⟨d1, d2, -, d4⟩ := down_spec hi ok.rnd (by omega)
        have hlt := left_lt hk hbx d2 d4
        have hm' : meas p B (down p s (newdist p s)) < meas p B s := by
          unfold meas
          have := Nat.mul_le_mul_right (p.d + 1) (Nat.succ_le_of_lt hlt)
          rw [Nat.succ_mul] at this
          omega
        obtain ⟨s', o, h1, h2⟩ := ih d1 (by omega)
        exact ⟨s', o, h1, fun ho => (h2 ho).trans hm'⟩
      · rw [if_neg hdn]
        refine ⟨_, _, rfl, fun _ => ?_⟩
        obtain ⟨a1, a2, a3, a4⟩ := advance_spec (K := s.k) hi le_rfl (by have := hi.kmax; omega) hk
        have es : ({ s with k := s.k } : St) = s := rfl
        rw [es] at a1 a2 a3 a4
        have hlt := left_lt (B := B) (s' := advance s) hk hbx (fun j v hv => by
          obtain ⟨i, h1, h2, h3, h4, h5⟩ := a3 j v hv
          exact .inl ⟨i, h1, h2, h3, h4, h5⟩) fun w hw => a4 w hw _
        unfold meas
        have := Nat.mul_le_mul_right (p.d + 1) (Nat.succ_le_of_lt hlt)
        rw [Nat.succ_mul] at this
        omega
    · rw [if_neg hnd]
      by_cases hup : s.k + 1 < s.kmax ∨ s.k + 1 < p.d
      · rw [if_pos hup]
        have hk1 : s.k + 1 < p.d := by have := hi.lt; omega
        obtain ⟨a1, a2, a3, -⟩ := advance_spec (K := s.k + 1) hi (Nat.le_succ _) (by have := hi.kmax; omega) hk1
        have hle := left_le (B := B) (s' := advance { s with k := s.k + 1 }) (s := s) fun j v hv => by
          obtain ⟨i, h1, h2, h3, h4, h5⟩ := a3 j v hv
          exact .inl ⟨i, by omega, h2, h3, h4, h5⟩
        have hkk : (advance { s with k := s.k + 1 }).k = s.k + 1 := by
          unfold advance
          split_ifs <;> rfl
        have hm' : meas p B (advance { s with k := s.k + 1 }) < meas p B s := by
          unfold meas
          rw [hkk]
          have := Nat.mul_le_mul_right (p.d + 1) hle
          omega
        obtain ⟨s', o, h1, h2⟩ := ih a1 (by omega)
        exact ⟨s', o, h1, fun ho => (h2 ho).trans hm'⟩
      · rw [if_neg hup]
        exact ⟨_, _, rfl, fun h => absurd rfl h⟩

/-- **C89** with a fixed radius `enum_next` returns `false` after finitely many calls, each of which terminates. -/
theorem C89_terminates (ok : p.OK) (R : ℚ) : ∃ m fuel out, calls p fuel (List.replicate m R) start = some out ∧ none ∈ out := by
  obtain ⟨B, hB⟩ := box ok R
  have key : ∀ f m, ∀ s : St, s.init = false → Inv p s → meas p B s < m → meas p B s < f → ∃ out, calls p f (List.replicate m R) s = some out ∧ none ∈ out := by
    intro f m
    induction m with
    | zero => intro s _ _ h; omega
    | succ m ih =>
      intro s hi hI hm hf
      obtain ⟨s', o, h1, h2⟩ := loop_ends ok hB f hI hf
      obtain ⟨g0, g⟩ := loop_spec ok.r ok.rnd f hI h1
      have he : enumNext p R f s = some (s', o) := by
        unfold enumNext
        simp only [hi, Bool.false_eq_true, if_false]
        rw [if_neg (not_le.2 (lt_of_le_of_lt hI.kmax hI.lt)), h1]
      have hi' : s'.init = false := g0.trans hi
      cases o with
      | none =>
        refine ⟨none :: (List.replicate m R).map fun _ => none, ?_, List.mem_cons_self⟩
        rw [List.replicate_succ]
        unfold calls
        rw [he]
        dsimp only
        rw [calls_ended f hi' g.1]
        rfl
      | some l =>
        have hlt := h2 (by simp)
        obtain ⟨out, h3, h4⟩ := ih s' hi' g.1 (by omega) (by omega)
        refine ⟨some l :: out, ?_, List.mem_cons_of_mem _ h4⟩
        rw [List.replicate_succ]
        unfold calls
        rw [he]
        dsimp only
        rw [h3]
        rfl
  obtain ⟨out, h1, h2⟩ := key _ (meas p B (started p R) + 1) (started p R) rfl (started_inv ok R) (Nat.lt_succ_self _) (Nat.lt_succ_self _)
  refine ⟨meas p B (started p R) + 1, meas p B (started p R) + 1, out, ?_, h2⟩
  rw [List.replicate_succ] at h1 ⊢
  rw [calls_start]
  exact h1

/-! ## Concrete cases -/

/-- two dimensions, `μ = 1/2`; the estimate is the bound; subtrees down to level 0 -/
def exP (maxVolume : ℚ) : Params where
  d := 2
  kmin := 0
  mu _ _ := 1 / 2
  r _ := 1
  vol b _ := b
  maxVolume := maxVolume
  rnd c := ⌊c + 1 / 2⌋

theorem exP_ok (m : ℚ) : (exP m).OK := by
  refine ⟨by show 1 ≤ 2; omega, fun _ _ => one_pos, fun c => ?_⟩
  show |((⌊c + 1 / 2⌋ : ℤ) : ℚ) - c| ≤ 1 / 2
  rw [abs_le]
  constructor
  · linarith [Int.lt_floor_add_one (c + 1 / 2)]
  · linarith [Int.floor_le (c + 1 / 2)]

/-- radius 2 and `max_volume` 1: one subtree per vector up to sign; the four vectors are all there are -/
theorem exP_one : calls (exP 1) 20 [2, 2, 2, 2, 2] start = some [some [0, 0], some [1, 0], some [0, 1], some [-1, 1], none] := by
  decide +kernel

/-- `max_volume` 3: subtrees at level 1 -/
theorem exP_three : calls (exP 3) 20 [2, 2, 2] start = some [some [0], some [1], none] := by
  decide +kernel

/-- the hypotheses of `C89_complete` and of `C89_disjoint` are met -/
example {v : ℕ → ℤ} (hv : normSq (exP 3) v ≤ 2) : ∃ (t : ℕ) (l : List ℤ), [some [0], some [1], none][t]? = some (some l) ∧ (Covers 2 l v ∨ Covers 2 l fun i => -v i) :=
  C89_complete (exP_ok 3) exP_three (by decide) (fun R hR => by simp at hR; rw [hR]; exact hv)

/-- the hypothesis of `C89_sign_partial` about the estimate is met -/
example : ∀ k, (exP 3).vol 2 k ≠ (exP 3).maxVolume := fun _ => by norm_num [exP]

/-- **C89 fails** for the sign when the estimate is exactly `max_volume`: both `(1, 0)` and `(-1, 0)` are returned. -/
theorem C89_tie_violated : calls (exP 2) 20 [2, 2, 2, 2, 2] start = some [some [0, 0], some [1, 0], some [-1, 0], some [1], none] := by
  decide +kernel

end TopEnum
end Fplll

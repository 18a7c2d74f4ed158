import Mathlib.Algebra.BigOperators.Intervals
import Mathlib.Algebra.Order.BigOperators.Group.Finset
import Verif.Base.LoopsDown
import Verif.Model.Enum

/-!
# What the enumeration is supposed to walk through

Centres and squared lengths of partial assignments, defined from the input data alone (no state of the
walk is involved), with every operation rounded by `c.fl`.  In exact arithmetic (`psum_exact`, `pd_exact`) and
for primal enumeration (`dual = false`), `cen v k = t_k - ∑_{j>k} v_j μ_{jk}` and `pd p0 v k` is `p0` plus the
squared length of the projection of `∑ v_j b_j - t` orthogonally to the first `k` vectors of the block.
-/

open Finset

namespace Fplll
namespace Enum

/-- What is needed of a rounding function: monotone, symmetric, idempotent, exact on 1, with a relative error of
at most 1/2.  Rounding to the nearest number with a given number of bits is like this as long as there is no
underflow or overflow (`C67_double`), and so is the identity. -/
structure Rnd (fl : ℚ → ℚ) : Prop where
  mono : Monotone fl
  neg : ∀ t, fl (-t) = -fl t
  idem : ∀ t, fl (fl t) = fl t
  one : fl 1 = 1
  rel : ∀ t, |fl t - t| ≤ |t| / 2

theorem Rnd.id : Rnd id := ⟨monotone_id, fun _ => rfl, fun _ => rfl, rfl, fun t => by
  simp only [_root_.id, sub_self, abs_zero]
  positivity⟩

theorem Rnd.zero {fl : ℚ → ℚ} (h : Rnd fl) : fl 0 = 0 := by
  have := h.rel 0
  simpa using this

theorem Rnd.nonneg {fl : ℚ → ℚ} (h : Rnd fl) {t : ℚ} (ht : 0 ≤ t) : 0 ≤ fl t := by
  rw [← h.zero]; exact h.mono ht

theorem Rnd.half {fl : ℚ → ℚ} (h : Rnd fl) {t : ℚ} (ht : 0 ≤ t) : t / 2 ≤ fl t := by
  have := (abs_le.1 (h.rel t)).1
  rw [abs_of_nonneg ht] at this
  linarith

theorem Rnd.abs {fl : ℚ → ℚ} (h : Rnd fl) (t : ℚ) : |fl t| = fl |t| := by
  rcases le_total 0 t with ht | ht
  · rw [abs_of_nonneg ht, abs_of_nonneg (h.nonneg ht)]
  · rw [abs_of_nonpos ht, h.neg, abs_of_nonpos]
    have := h.nonneg (neg_nonneg.2 ht)
    rw [h.neg] at this
    linarith

theorem Rnd.eq_zero {fl : ℚ → ℚ} (h : Rnd fl) {t : ℚ} : fl t = 0 ↔ t = 0 := by
  constructor
  · intro h0
    have h1 := h.abs t
    rw [h0, abs_zero] at h1
    have h2 := h.half (abs_nonneg t)
    rw [← h1] at h2
    have := abs_nonneg t
    exact abs_eq_zero.1 (by linarith)
  · rintro rfl; exact h.zero

theorem Rnd.pos {fl : ℚ → ℚ} (h : Rnd fl) {t : ℚ} (ht : 0 < t) : 0 < fl t :=
  lt_of_le_of_ne (h.nonneg ht.le) (fun h0 => ht.ne' (h.eq_zero.1 h0.symm))

/-- offsets of the `n` highest coordinates from their centres -/
def alN (c : Cfg) (v : ℕ → ℤ) : ℕ → ℕ → ℚ
  | 0 => fun _ => 0
  | n + 1 => setAt (alN c v n) (c.K - 1 - n) (c.fl (v (c.K - 1 - n) -
      forDown (c.K - 1 - n + 1) c.K
        (fun l a => c.fl (a - c.fl ((if c.dual then alN c v n l else (v l : ℚ)) * c.mt (c.K - 1 - n) l)))
        (c.cpart (c.K - 1 - n))))

/-- centre of coordinate `k` given the higher coordinates of `v` -/
def cen (c : Cfg) (v : ℕ → ℤ) (k : ℕ) : ℚ :=
  forDown (k + 1) c.K
    (fun l a => c.fl (a - c.fl ((if c.dual then alN c v (c.K - 1 - k) l else (v l : ℚ)) * c.mt k l))) (c.cpart k)

/-- offset of coordinate `k` from its centre -/
def al (c : Cfg) (v : ℕ → ℤ) (k : ℕ) : ℚ := c.fl (v k - cen c v k)

/-- the multiplier of `mut[k][j]` -/
def yS (c : Cfg) (v : ℕ → ℤ) (j : ℕ) : ℚ := if c.dual then al c v j else v j

/-- squared length of the part of levels `k, …, K-1`, added to the length `p0` of the fixed levels -/
def pd (c : Cfg) (p0 : ℚ) (v : ℕ → ℤ) (k : ℕ) : ℚ :=
  forDown k c.K (fun j a => c.fl (a + c.fl (c.fl (al c v j * al c v j) * c.rdiag j))) p0

/-- partial sums of the centre -/
def psum (c : Cfg) (v : ℕ → ℤ) (i j : ℕ) : ℚ :=
  forDown j c.K (fun l a => c.fl (a - c.fl (yS c v l * c.mt i l))) (c.cpart i)

theorem alN_eq (c : Cfg) (v : ℕ → ℤ) (n j : ℕ) (hK : n ≤ c.K) (hj : j < c.K) (hn : c.K ≤ j + n) :
    alN c v n j = al c v j := by
  induction n generalizing j with
  | zero => omega
  | succ n ih =>
    rw [alN, setAt]
    by_cases h : j = c.K - 1 - n
    · rw [if_pos h, ← h, al, cen, show c.K - 1 - j = n by omega]
    · rw [if_neg h]
      exact ih j (by omega) hj (by omega)

theorem cen_eq (c : Cfg) (v : ℕ → ℤ) (k : ℕ) : cen c v k = psum c v k (k + 1) := by
  rw [cen, psum]
  apply forDown_congr
  intro l a h1 h2
  rw [alN_eq c v _ l (by omega) h2 (by omega), yS]

theorem psum_succ (c : Cfg) (v : ℕ → ℤ) (i j : ℕ) (hj : j < c.K) :
    psum c v i j = c.fl (psum c v i (j + 1) - c.fl (yS c v j * c.mt i j)) := by
  rw [psum, forDown_bot hj, psum]

theorem psum_top (c : Cfg) (v : ℕ → ℤ) (i : ℕ) : psum c v i c.K = c.cpart i := by
  rw [psum, forDown_empty le_rfl]

theorem pd_succ (c : Cfg) (p0 : ℚ) (v : ℕ → ℤ) (k : ℕ) (hk : k < c.K) :
    pd c p0 v k = c.fl (pd c p0 v (k + 1) + c.fl (c.fl (al c v k * al c v k) * c.rdiag k)) := by
  rw [pd, forDown_bot hk, pd]

theorem pd_top (c : Cfg) (p0 : ℚ) (v : ℕ → ℤ) : pd c p0 v c.K = p0 := by
  rw [pd, forDown_empty le_rfl]

theorem cen_congr (c : Cfg) (v w : ℕ → ℤ) (k : ℕ) (h : ∀ j, k < j → j < c.K → v j = w j) :
    cen c v k = cen c w k := by
  induction hn : c.K - k using Nat.strong_induction_on generalizing k with
  | _ n ih =>
    subst hn
    rw [cen_eq, cen_eq, psum, psum]
    apply forDown_congr
    intro j a h1 h2
    have h3 := ih (c.K - j) (by omega) j (fun l hl hl' => h l (by omega) hl') rfl
    simp only [yS, al, h3, h j (by omega) h2]

theorem al_congr (c : Cfg) (v w : ℕ → ℤ) (k : ℕ) (h : ∀ j, k ≤ j → j < c.K → v j = w j) (hk : k < c.K) :
    al c v k = al c w k := by
  rw [al, al, cen_congr c v w k (fun j hj => h j hj.le), h k le_rfl hk]

theorem yS_congr (c : Cfg) (v w : ℕ → ℤ) (k : ℕ) (h : ∀ j, k ≤ j → j < c.K → v j = w j) (hk : k < c.K) :
    yS c v k = yS c w k := by
  rw [yS, yS, al_congr c v w k h hk, h k le_rfl hk]

theorem psum_congr (c : Cfg) (v w : ℕ → ℤ) (i k : ℕ) (h : ∀ j, k ≤ j → j < c.K → v j = w j) :
    psum c v i k = psum c w i k := by
  rw [psum, psum]
  apply forDown_congr
  intro j a h1 h2
  rw [yS_congr c v w j (fun l hl => h l (by omega)) h2]

theorem pd_congr (c : Cfg) (p0 : ℚ) (v w : ℕ → ℤ) (k : ℕ) (h : ∀ j, k ≤ j → j < c.K → v j = w j) :
    pd c p0 v k = pd c p0 w k := by
  rw [pd, pd]
  apply forDown_congr
  intro j a h1 h2
  rw [al_congr c v w j (fun l hl => h l (by omega)) h2]

/-! ## Exact arithmetic -/

theorem forDown_sub (f : ℕ → ℚ) (a b : ℕ) (s : ℚ) :
    forDown a b (fun l x => x - f l) s = s - ∑ l ∈ Ico a b, f l := by
  induction b generalizing s with
  | zero => simp [forDown]
  | succ b ih =>
    rcases Nat.lt_or_ge b a with h | h
    · rw [forDown_empty (by omega), Finset.Ico_eq_empty (by omega)]; simp
    · rw [forDown, if_pos h, ih _, Finset.sum_Ico_succ_top h]
      ring

theorem psum_exact {c : Cfg} (hc : c.fl = id) (v : ℕ → ℤ) (i j : ℕ) :
    psum c v i j = c.cpart i - ∑ l ∈ Ico j c.K, yS c v l * c.mt i l := by
  rw [psum, hc]
  exact forDown_sub (fun l => yS c v l * c.mt i l) j c.K _

theorem cen_exact {c : Cfg} (hc : c.fl = id) (v : ℕ → ℤ) (k : ℕ) :
    cen c v k = c.cpart k - ∑ l ∈ Ico (k + 1) c.K, yS c v l * c.mt k l := by
  rw [cen_eq, psum_exact hc v k _]

theorem al_exact {c : Cfg} (hc : c.fl = id) (v : ℕ → ℤ) (k : ℕ) : al c v k = v k - cen c v k := by
  rw [al, hc]; rfl

theorem pd_exact {c : Cfg} (hc : c.fl = id) (p0 : ℚ) (v : ℕ → ℤ) (k : ℕ) :
    pd c p0 v k = p0 + ∑ j ∈ Ico k c.K, al c v j * al c v j * c.rdiag j := by
  have := forDown_sub (fun j => -(al c v j * al c v j * c.rdiag j)) k c.K p0
  rw [Finset.sum_neg_distrib, sub_neg_eq_add] at this
  rw [pd, hc, ← this]
  apply forDown_congr
  intro j a _ _
  simp

end Enum
end Fplll

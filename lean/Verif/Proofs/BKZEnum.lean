import Verif.Proofs.SvpExact
import Verif.Proofs.SVP
import Verif.Model.BKZEnum

/-!
# The enumeration of a block gives right answers
-/

namespace Fplll
namespace BKZ

open FloatOps GSO LLL Spec Enum

/-- the answers of `o` are those of the enumeration, when the rows it uses are up to date -/
def Runs (rad : ℚ) (o : Orc Exact) : Prop :=
  ∀ (t k d : ℕ) (s : GSO Exact), St s → 1 ≤ d → k + d ≤ s.d → Indep (k + d) s.nCols (toQ s.b) →
    (∀ i < k + d, i + 1 ≤ s.gsoValidCols i) → ∃ fuel, enumBlock rad s k d fuel = some (o.enum t k d false s)

variable {rad : ℚ} {k d : ℕ} {s : GSO Exact}

theorem block_mu (h : St s) (hd : k + d ≤ s.d) (hv : ∀ i < k + d, i + 1 ≤ s.gsoValidCols i) (i j : ℕ) (hji : j < i) (hi : i < d) :
    (blockInput rad s k d).mu i j = muS s.nCols (toQ s.b) (k + i) (k + j) := by
  have := h.fresh.valid (k + i) (by rw [h.full.known]; omega) (not_dirty_empty _) (k + j) (by have := hv (k + i) (by omega); omega) (by omega)
  change SVP.val (s.mu (k + i) (k + j)) = _
  rw [(this.2 (by omega)).1]
  rfl

theorem block_r (h : St s) (hd : k + d ≤ s.d) (hv : ∀ i < k + d, i + 1 ≤ s.gsoValidCols i) (i : ℕ) (hi : i < d) :
    SVP.val (s.r (k + i) (k + i)) = normStar s.nCols (toQ s.b) (k + i) := by
  have := h.fresh.valid (k + i) (by rw [h.full.known]; omega) (not_dirty_empty _) (k + i) (by have := hv (k + i) (by omega); omega) (by omega)
  rw [this.1, rS_self]
  rfl

theorem block_from (h : St s) (hd : k + d ≤ s.d) (hv : ∀ i < k + d, i + 1 ≤ s.gsoValidCols i) :
    (blockInput rad s k d).FromBasis s.nCols k (toQ s.b) (fun _ => 0) where
  exact := rfl
  mu i j h1 h2 := block_mu h hd hv i j h1 h2
  r i hi := block_r h hd hv i hi
  target i _ := by simp [blockInput, dotQ]

theorem block_ok (h : St s) (hd1 : 1 ≤ d) (hd : k + d ≤ s.d) (hind : Indep (k + d) s.nCols (toQ s.b)) (hv : ∀ i < k + d, i + 1 ≤ s.gsoValidCols i) :
    (blockInput rad s k d).OK where
  rnd := Rnd.id
  mrep := rfl
  rpos i hi := by
    have hi' : i < d := hi
    change 0 < SVP.val (s.r (k + i) (k + i))
    rw [block_r h hd hv i hi']
    exact hind.pos _ (by omega)
  sublen := by simp [blockInput]; omega
  dualOK _ := ⟨rfl, rfl⟩
  prune k _ := by unfold setBounds; rw [show (blockInput rad s _ d).full.pruning = none from rfl]

/-- projected length of a vector of the lattice of the first `e` rows -/
theorem distSq_span {n e : ℕ} {B : ℕ → ℕ → ℚ} (hp : ∀ i < e, 0 < normStar n B i) {k : ℕ} (hk : k ≤ e) (a : ℕ → ℚ) :
    distSq n B k (lc e a B) = spanSq n B k e (lc e a B) := by
  unfold distSq
  rw [← spanSq_full n B e a hp]
  unfold spanSq
  rw [← Finset.sum_Ico_consecutive _ (Nat.zero_le k) hk]
  ring

theorem block_dist (h : St s) (hd : k + d ≤ s.d) (hind : Indep (k + d) s.nCols (toQ s.b)) (hv : ∀ i < k + d, i + 1 ≤ s.gsoValidCols i) (z : ℕ → ℤ) :
    (blockInput rad s k d).dist z 0 = distSq s.nCols (toQ s.b) k (vecQ fun c => ∑ i ∈ Finset.range d, z i * s.b (k + i) c) := by
  rw [C11_distance_primal (block_from h hd hv) rfl rfl (fun i hi => hind.pos _ (by have : i < d := hi; omega)) z 0]
  have e : blockVec d k z (toQ s.b) (fun _ => 0) = lc (k + d) (fun j => if j < k then 0 else (z (j - k) : ℚ)) (toQ s.b) := by
    funext c; unfold blockVec; ring
  have e2 : (vecQ fun c => ∑ i ∈ Finset.range d, z i * s.b (k + i) c) = lc (k + d) (fun j => if j < k then 0 else (z (j - k) : ℚ)) (toQ s.b) := by
    funext c
    unfold vecQ lc
    rw [Finset.sum_range_add]
    rw [Finset.sum_eq_zero (s := Finset.range k) (fun i hi => by dsimp only; rw [if_pos (by have := Finset.mem_range.1 hi; omega), zero_mul]), zero_add]
    push_cast
    refine Finset.sum_congr rfl fun i _ => ?_
    rw [if_neg (by omega), Nat.add_sub_cancel_left]
    rfl
  change spanSq s.nCols (toQ s.b) (k + 0) (k + d) (blockVec d k z (toQ s.b) (fun _ => 0)) = _
  rw [e, e2, distSq_span (fun i hi => hind.pos i hi) (by omega), Nat.add_zero]

/-- the projection of a vector only depends on its coefficients in the block -/
theorem inPre_block {n : ℕ} {b : ℕ → ℕ → ℤ} {v : ℕ → ℤ} (hv : InPre n (k + d) b v) :
    ∃ z : ℕ → ℤ, distSq n (toQ b) k (vecQ v) = distSq n (toQ b) k (vecQ fun c => ∑ i ∈ Finset.range d, z i * b (k + i) c) := by
  obtain ⟨z, hz⟩ := hv
  refine ⟨fun i => z (k + i), ?_⟩
  have := distSq_scale (n := n) (k := k) (B := toQ b) (w := vecQ fun c => ∑ i ∈ Finset.range d, z (k + i) * b (k + i) c) (w' := vecQ v)
    (a := fun i => (z i : ℚ)) 1 (fun c hc => by
      unfold vecQ lc toQ
      rw [hz c hc]
      unfold comb
      rw [Finset.sum_range_add]
      push_cast
      ring)
  rw [this]; ring

theorem block_agrees (v : ℕ → ℤ) : (blockInput rad s k d).Agrees v := by
  intro j h1 h2
  simp [blockInput, Input.K] at h1 h2
  omega

theorem block_symm : (blockInput rad s k d).Symm :=
  ⟨rfl, fun j h1 h2 => by simp [blockInput, Input.K] at h1 h2; omega⟩

/-- one enumeration -/
theorem enumBlock_solves (hrad : 0 ≤ rad) (h : St s) (hd1 : 1 ≤ d) (hd : k + d ≤ s.d) (hind : Indep (k + d) s.nCols (toQ s.b))
    (hv : ∀ i < k + d, i + 1 ≤ s.gsoValidCols i) {fuel : ℕ} {r : Option (ℕ → Exact)} (run : enumBlock rad s k d fuel = some r) :
    Solves s.nCols rad k d s.b r := by
  unfold enumBlock at run
  rw [Option.map_eq_some_iff] at run
  obtain ⟨t, run, hr⟩ := run
  have hok := block_ok (rad := rad) h hd1 hd hind hv
  have r0 := block_r h hd hv 0 (by omega)
  rw [Nat.add_zero] at r0
  have hmdE : (blockInput rad s k d).maxdist = rad * normStar s.nCols (toQ s.b) k := by
    change rad * SVP.val (s.r k k) = _; rw [r0]
  have hmd : 0 ≤ (blockInput rad s k d).maxdist := by rw [hmdE]; exact mul_nonneg hrad (normStar_nonneg _ _ _)
  have hdist := block_dist (rad := rad) h hd hind hv
  obtain ⟨e1, e2, e3⟩ := C15_enumerate_finds_N_shortest le_rfl hok rfl hmd run
  have hag := block_agrees (rad := rad) (s := s) (k := k) (d := d)
  have hsym := block_symm (rad := rad) (s := s) (k := k) (d := d)
  -- a vector with a positive projection has a non-zero coefficient
  have hnz : ∀ z : ℕ → ℤ, 0 < (blockInput rad s k d).dist z 0 → ∃ j, j < (blockInput rad s k d).d ∧ z j ≠ 0 := by
    intro z hp
    by_contra hc
    push Not at hc
    rw [dist_zero_of_zero hok.rnd hsym.1 (fun j hj => hc j hj)] at hp
    exact lt_irrefl _ hp
  cases hs : t.ev.sols.getLast? with
  | none =>
    rw [hs] at hr
    simp only [Option.map_none] at hr
    subst hr
    rw [List.getLast?_eq_none_iff] at hs
    intro v hv' hp
    obtain ⟨z, hz⟩ := inPre_block hv'
    rw [hz, ← hdist] at hp ⊢
    by_contra hle
    push Not at hle
    rw [← hmdE] at hle
    rcases e3 z (hag z) hle (fun _ => hnz z hp) with h1 | ⟨h1, -⟩
    · obtain ⟨q, hq, -⟩ := SVP.stored_dist hok.rnd hsym h1
      rw [hs] at hq; simp at hq
    · rw [hs] at h1; simp at h1
  | some q =>
    rw [hs] at hr
    simp only [Option.map_some] at hr
    subst hr
    have hqm : q ∈ t.ev.sols := List.mem_of_getLast? hs
    obtain ⟨-, q2, q3, q4⟩ := e2 q hqm
    have q4 := q4 hsym
    refine ⟨q.2, fun i _ => rfl, ?_, ?_, fun v hv' hp => ?_⟩
    · rw [← hdist, ← q2]; exact q4
    · rw [← hdist, ← q2, ← hmdE]; exact q3
    · obtain ⟨z, hz⟩ := inPre_block hv'
      rw [hz, ← hdist] at hp
      rw [hz, ← hdist, ← hdist, ← q2]
      rcases le_or_gt ((blockInput rad s k d).dist z 0) (blockInput rad s k d).maxdist with hle | hgt
      · rcases e3 z (hag z) hle (fun _ => hnz z hp) with h1 | ⟨-, h1⟩
        · obtain ⟨q', hq', h2⟩ := SVP.stored_dist hok.rnd hsym h1
          have : q' = q := by
            obtain ⟨L, hL⟩ := List.getLast?_eq_some_iff.1 hs
            rw [hL] at e1 hq'
            have : L = [] := by
              rw [List.length_append, List.length_singleton] at e1
              exact List.eq_nil_of_length_eq_zero (by omega)
            rw [this] at hq'
            simpa using hq'
          rw [← h2, this]
        · exact h1 q hqm
      · exact q3.trans hgt.le

theorem Runs.truthful {o : Orc Exact} (hrad : 0 ≤ rad) (h : Runs rad o) : Truthful rad o := by
  intro t k d s hs hd1 hd hind hv
  obtain ⟨fuel, hf⟩ := h t k d s hs hd1 hd hind hv
  exact enumBlock_solves hrad hs hd1 hd hind hv hf

/-- the enumeration always ends … -/
theorem enumBlock_ends (hrad : 0 ≤ rad) (h : St s) (hd1 : 1 ≤ d) (hd : k + d ≤ s.d) (hind : Indep (k + d) s.nCols (toQ s.b))
    (hv : ∀ i < k + d, i + 1 ≤ s.gsoValidCols i) : ∃ r N, ∀ fuel, N ≤ fuel → enumBlock rad s k d fuel = some r := by
  have hok := block_ok (rad := rad) h hd1 hd hind hv
  have r0 := block_r h hd hv 0 (by omega)
  rw [Nat.add_zero] at r0
  have hmd : 0 ≤ (blockInput rad s k d).maxdist := by
    change 0 ≤ rad * SVP.val (s.r k k); rw [r0]; exact mul_nonneg hrad (normStar_nonneg _ _ _)
  obtain ⟨N, t, ht⟩ := C13_terminates hok (fastEval_ok (pruneOK_none hok rfl) 1 .best) (fastInv_new .best hmd hok.mrep)
  exact ⟨_, N, fun fuel hf => by unfold enumBlock; rw [ht fuel hf]; rfl⟩

/-- … so there is an oracle that answers what the enumeration finds -/
theorem exists_runs (hrad : 0 ≤ rad) (o : Orc Exact) : ∃ o' : Orc Exact, Runs rad o' ∧ o' = { o with enum := o'.enum } := by
  classical
  let f : ℤ → ℤ → GSO Exact → Option (ℕ → Exact) := fun k d s =>
    if h : ∃ r, ∃ fuel, enumBlock rad s k.toNat d.toNat fuel = some r then h.choose else none
  refine ⟨{ o with enum := fun _ k d _ s => f k d s }, ?_, rfl⟩
  intro t k d s hs hd1 hd hind hv
  obtain ⟨r, N, hN⟩ := enumBlock_ends hrad hs hd1 hd hind hv
  have hex : ∃ r, ∃ fuel, enumBlock rad s (k : ℤ).toNat (d : ℤ).toNat fuel = some r := ⟨r, N, by simpa using hN N le_rfl⟩
  obtain ⟨fuel, hf⟩ := hex.choose_spec
  refine ⟨fuel, ?_⟩
  have e : f k d s = hex.choose := dif_pos hex
  change enumBlock rad s k d fuel = some (f k d s)
  rw [e]
  simpa using hf

end BKZ
end Fplll

import Verif.Proofs.CVPReset
import Verif.Props.CVP

/-!
# C73: the proved method of `closest_vector`
-/

open Finset

namespace Fplll
namespace Enum

variable {σ : Type}

/-! ## A larger iteration budget changes nothing -/

theorem recursiveR_mono (c : Cfg) (E : EvalOps σ) (rd : ℕ) {rst rst' : St σ → ℚ → ℕ → Option (St σ)}
    (hr : ∀ s nd m t, rst s nd m = some t → rst' s nd m = some t) {f f' : ℕ} (hf : f ≤ f') :
    ∀ (m : ℕ) (s s' : St σ), recursiveR c E rd rst f m s = some s' → recursiveR c E rd rst' f' m s = some s' := by
  intro m
  induction m with
  | zero => intro s s' h; exact h
  | succ k ih =>
    intro s s' h
    rw [recursiveR] at h ⊢
    split_ifs at h ⊢ with h1 h2
    · exact hr _ _ _ _ h
    · exact sibLoop_mono c E k ih f f' _ _ hf h
    · exact h

theorem loopStepR_mono (c : Cfg) (E : EvalOps σ) (rd : ℕ) {rst rst' : St σ → ℚ → ℕ → Option (St σ)}
    (hr : ∀ s nd m t, rst s nd m = some t → rst' s nd m = some t) {s : St σ} {k : ℕ} {r : St σ × Option ℕ}
    (h : loopStepR c E rd rst s k = some r) : loopStepR c E rd rst' s k = some r := by
  unfold loopStepR at h ⊢
  split_ifs at h ⊢ with h1
  · cases k with
    | zero => exact h
    | succ k =>
      simp only at h ⊢
      split_ifs at h ⊢ with h2
      · cases hh : rst (subsolTest c E (enter c s (k + 1)) (k + 1) (newdist c s (k + 1))) (newdist c s (k + 1)) k with
        | none => rw [hh] at h; cases h
        | some s2 => rw [hr _ _ _ _ hh]; rw [hh] at h; exact h
      · exact h
  · exact h

theorem iterateR_mono (c : Cfg) (E : EvalOps σ) (rd : ℕ) {rst rst' : St σ → ℚ → ℕ → Option (St σ)}
    (hr : ∀ s nd m t, rst s nd m = some t → rst' s nd m = some t) :
    ∀ {f f' : ℕ}, f ≤ f' → ∀ (s : St σ) (k : ℕ) (s' : St σ), iterateR c E rd rst f s k = some s' →
      iterateR c E rd rst' f' s k = some s' := by
  intro f
  induction f with
  | zero => intro f' _ s k s' h; cases h
  | succ f ih =>
    intro f' hf s k s' h
    obtain ⟨g, rfl⟩ : ∃ g, f' = g + 1 := ⟨f' - 1, by omega⟩
    rw [iterateR] at h ⊢
    cases hh : loopStepR c E rd rst s k with
    | none => rw [hh] at h; cases h
    | some r =>
      rw [loopStepR_mono c E rd hr hh]
      rw [hh] at h
      obtain ⟨t, o⟩ := r
      cases o with
      | none => exact h
      | some k' => exact ih (by omega) t k' s' h

theorem resetF_mono {p : Input} {c : Cfg} {E : EvalOps σ} {nested nested' : Input → Option (St EvSt)}
    (hn : ∀ q t, nested q = some t → nested' q = some t) (s : St σ) (nd : ℚ) (m : ℕ) (t : St σ)
    (h : resetF p c E nested s nd m = some t) : resetF p c E nested' s nd m = some t := by
  unfold resetF at h ⊢
  cases hh : nested (resetInput p s m) with
  | none => rw [hh] at h; cases h
  | some u => rw [hn _ _ hh]; rw [hh] at h; exact h

theorem enumReset_mono (recB : Bool) (mi : ℕ → ℕ) {f f' : ℕ} (hf : f ≤ f') : ∀ (n : ℕ) (p : Input) (t : St EvSt),
    enumReset recB mi f n p = some t → enumReset recB mi f' n p = some t := by
  intro n
  induction n with
  | zero => intro p t h; cases h
  | succ n ih =>
    intro p t h
    rw [enumReset] at h ⊢
    split_ifs at h ⊢ with h1 h2
    · exact h
    · exact recursiveR_mono _ _ _ (resetF_mono ih) hf _ _ _ h
    · exact iterateR_mono _ _ _ (resetF_mono ih) hf _ _ _ h

end Enum

namespace SVP

open Enum Spec

/-- the numbers the proved method of `closest_vector` works with -/
theorem cvpP_data {d n : ℕ} (hd : 1 ≤ d) (hn : d ≤ n) (b jz : Mat ℤ) (jf : Mat Exact) (h : Indep d n (basisQ b)) :
    ∃ mu r, (∀ i j, j < i → i < d → mu i j = muS n (basisQ b) i j) ∧
      (∀ i, i < d → r i = normStar n (basisQ b) i) ∧
      ∀ recB t fuel, closestVectorP recB d n b jz jf t fuel =
        match cvpLoop d n b mu r fuel ⟨fun _ => 0, t⟩ with
        | none => .running
        | some s =>
          match enumReset recB (maxIndices d r) fuel d (cvpInput d n b mu r s) with
          | none => .running
          | some t =>
            match t.ev.sols.reverse.head? with
            | none => .done (false, s.coord)
            | some q => .done (true, fun i => if i < d then s.coord i + q.2 i else s.coord i) := by
  have H := basis_data hd hn b jz jf h
  refine ⟨_, _, H.mu, H.r, fun recB t fuel => ?_⟩
  unfold closestVectorP
  rw [if_neg (by simp; omega), if_neg (by simp; omega)]
  rfl

/-- `x` is a closest vector up to `ε` in the squared distance -/
def NearClosest (d n : ℕ) (b : Mat ℤ) (t : ℕ → ℤ) (ε : ℚ) (x : ℕ → ℤ) : Prop :=
  ∀ y : ℕ → ℤ, (sqLen n (fun c => t c - comb d b x c) : ℚ) ≤ sqLen n (fun c => t c - comb d b y c) + ε

theorem nearClosest_zero {d n : ℕ} {b : Mat ℤ} {t x : ℕ → ℤ} : NearClosest d n b t 0 x ↔ IsClosest d n b t x := by
  unfold NearClosest IsClosest
  refine forall_congr' (fun y => ?_)
  rw [add_zero, Int.cast_le]

theorem nearClosest_shift {d n : ℕ} {b : Mat ℤ} {t0 : ℕ → ℤ} {s : CvpSt} {x : ℕ → ℤ} {ε : ℚ}
    (hs : ∀ c < n, s.target c = t0 c - comb d b s.coord c) (h : NearClosest d n b s.target ε x) :
    NearClosest d n b t0 ε (fun i => if i < d then s.coord i + x i else s.coord i) := by
  intro y
  have h1 := h (fun i => y i - s.coord i)
  have e1 : sqLen n (fun c => s.target c - comb d b x c) =
      sqLen n (fun c => t0 c - comb d b (fun i => if i < d then s.coord i + x i else s.coord i) c) := by
    apply sqLen_congr
    intro c hc
    rw [hs c hc]
    have : comb d b (fun i => if i < d then s.coord i + x i else s.coord i) c = comb d b s.coord c + comb d b x c := by
      unfold comb
      rw [← Finset.sum_add_distrib]
      refine Finset.sum_congr rfl (fun i hi => ?_)
      rw [mem_range] at hi
      dsimp only
      rw [if_pos hi]; ring
    rw [this]; ring
  have e2 : sqLen n (fun c => s.target c - comb d b (fun i => y i - s.coord i) c) =
      sqLen n (fun c => t0 c - comb d b y c) := by
    apply sqLen_congr
    intro c hc
    rw [hs c hc]
    have : comb d b (fun i => y i - s.coord i) c = comb d b y c - comb d b s.coord c := by
      unfold comb
      rw [← Finset.sum_sub_distrib]
      exact Finset.sum_congr rfl (fun i _ => by ring)
    rw [this]; ring
  rwa [e1, e2] at h1

/-- the squared distance of a combination from the target, up to a constant -/
theorem cvp_dist {d n : ℕ} {b : Mat ℤ} {mu : ℕ → ℕ → ℚ} {r : ℕ → ℚ}
    (hmu : ∀ i j, j < i → i < d → mu i j = muS n (basisQ b) i j) (hr : ∀ i, i < d → r i = normStar n (basisQ b) i)
    (hp : ∀ i < d, 0 < normStar n (basisQ b) i) (s : CvpSt) :
    ∃ e : ℚ, ∀ v : ℕ → ℤ, (cvpInput d n b mu r s).dist v 0 + e = sqLen n (fun c => s.target c - comb d b v c) := by
  set p := cvpInput d n b mu r s with hpdef
  let T : ℕ → ℚ := fun j => s.target j
  have hfrom : p.FromBasis n 0 (basisQ b) T :=
    { exact := rfl
      mu := fun i j h1 h2 => by rw [zero_add, zero_add]; exact hmu i j h1 h2
      r := fun i h => by rw [zero_add]; exact hr i h
      target := fun i h => by rw [zero_add]; exact gsCoords_spec hmu hr T i h }
  have hbv : ∀ v : ℕ → ℤ, blockVec d 0 v (basisQ b) T = fun c => lc d (fun j => (v j : ℚ)) (basisQ b) c - T c := by
    intro v; funext c; simp [blockVec]
  obtain ⟨e, he⟩ := dist_split hp T
  refine ⟨e, fun v => ?_⟩
  rw [C11_distance_primal hfrom rfl rfl (fun i hi => by rw [zero_add]; exact hp i hi) v 0]
  change spanSq n (basisQ b) 0 (0 + d) (blockVec d 0 v (basisQ b) T) + e = _
  rw [hbv, zero_add, ← he, sqLen_sub_comm, sqLen_cast]
  apply dotQ_congr <;>
  · intro c _
    rw [Int.cast_sub]
    congr 1
    exact (congrFun (comb_cast d b v) c).symm

/-- both builds, with the radius conditions they need -/
theorem cvpP_main {recB : Bool} {d n : ℕ} (hd : 1 ≤ d) (hn : d ≤ n) (b jz : Mat ℤ) (jf : Mat Exact)
    (h : Indep d n (basisQ b))
    (hlarge : 1 / 4 * (∑ i ∈ range d, normStar n (basisQ b) i) + slack recB (normStar n (basisQ b)) d <
      ∑ i ∈ Ico 1 d, normStar n (basisQ b) i) (t : ℕ → ℤ) :
    (∀ fuel, closestVectorP recB d n b jz jf t fuel = .running ∨
      ∃ x, closestVectorP recB d n b jz jf t fuel = .done (true, x) ∧
        NearClosest d n b t (slack recB (normStar n (basisQ b)) d) x) ∧
    (NoTie d n b t → ∃ N, ∀ fuel, N ≤ fuel → ∃ x, closestVectorP recB d n b jz jf t fuel = .done (true, x) ∧
      NearClosest d n b t (slack recB (normStar n (basisQ b)) d) x) := by
  obtain ⟨mu, r, hmu, hr, heq⟩ := cvpP_data hd hn b jz jf h
  simp only [heq]
  have hrpos : ∀ i < d, 0 < r i := fun i hi => by rw [hr i hi]; exact h.pos i hi
  have hin : ∀ s, CvpIn (cvpInput d n b mu r s) := fun s =>
    { fl := rfl, tgt := by simp [cvpInput], prune := rfl, dual := rfl, subs := rfl, rpos := hrpos,
      sublen := by change 0 < d; omega, rs := .inr rfl }
  have hKd : ∀ s, (cvpInput d n b mu r s).K = d := fun s => by simp [Input.K, cvpInput]
  have hmdist : ∀ s, (cvpInput d n b mu r s).maxdist = ∑ i ∈ Ico 1 d, r i := fun s => boundLoop r d hd
  have hs1 : ∑ i ∈ range d, r i = ∑ i ∈ range d, normStar n (basisQ b) i :=
    Finset.sum_congr rfl (fun i hi => hr i (mem_range.1 hi))
  have hs2 : ∑ i ∈ Ico 1 d, r i = ∑ i ∈ Ico 1 d, normStar n (basisQ b) i :=
    Finset.sum_congr rfl (fun i hi => hr i (mem_Ico.1 hi).2)
  have hs3 : slack recB r d = slack recB (normStar n (basisQ b)) d := by
    unfold slack
    rw [Finset.sum_congr rfl (fun i hi => hr i (by have := (mem_Ico.1 hi).2; omega))]
  -- a sufficient budget
  obtain ⟨F, hF⟩ : ∃ F : ℕ, ∀ k, k < d → ∑ i ∈ range d, r i < ((F : ℚ) / 8) * ((F : ℚ) / 8) * r k := by
    obtain ⟨s⟩ : Nonempty CvpSt := ⟨⟨fun _ => 0, t⟩⟩
    obtain ⟨F, hF⟩ := enough_exists (cvpInput d n b mu r s).full (fun _ => ∑ i ∈ range d, r i) (fun k hk => hrpos k hk)
    exact ⟨F, hF⟩
  have total : ∀ fuel, F + steps F d + 1 ≤ fuel → ∀ s, ∃ t, enumReset recB (maxIndices d r) fuel d (cvpInput d n b mu r s) = some t ∧
      Near (cvpInput d n b mu r s) (slack recB r d) t := by
    intro fuel hf s
    have := enumReset_ok (recB := recB) (mi := maxIndices d r) (maxIndices_le d r) hF (fuel := fuel) (by omega) (fun _ => by omega) d
      (cvpInput d n b mu r s) (hin s) rfl rfl (by rw [hKd])
    rw [hKd, hmdist, hs1, hs2, hs3, hs3.symm] at this
    refine this (by rw [hs3]; exact hlarge) ?_
    rw [← hs1, ← hs2]
    refine Finset.sum_le_sum_of_subset_of_nonneg ?_ ?_
    · intro i hi
      rw [mem_Ico] at hi
      rw [mem_range]; omega
    · intro i hi _
      rw [mem_range] at hi
      exact (hrpos i hi).le
  have near : ∀ fuel s, cvpLoop d n b mu r fuel ⟨fun _ => 0, t⟩ = some s → ∀ e,
      enumReset recB (maxIndices d r) fuel d (cvpInput d n b mu r s) = some e →
      ∃ q, e.ev.sols.reverse.head? = some q ∧
        NearClosest d n b t (slack recB (normStar n (basisQ b)) d) (fun i => if i < d then s.coord i + q.2 i else s.coord i) := by
    intro fuel s hs e he
    obtain ⟨e', he', q, hq, -, h3, h4⟩ := total (fuel + (F + steps F d + 1)) (by omega) s
    rw [enumReset_mono recB _ (show fuel ≤ fuel + (F + steps F d + 1) by omega) _ _ _ he] at he'
    cases he'
    refine ⟨q, by rw [hq]; rfl, nearClosest_shift (cvpLoop_inv fuel _ s (by intro c _; simp [comb]) hs) (fun y => ?_)⟩
    obtain ⟨e0, hdist⟩ := cvp_dist hmu hr h.pos s
    rw [← hdist, ← hdist, ← hs3]
    have hag : (cvpInput d n b mu r s).Agrees y := by
      intro j h1 h2
      rw [hKd] at h1
      have : j < d := h2
      omega
    have := h4 y hag
    linarith
  constructor
  · intro fuel
    cases hs : cvpLoop d n b mu r fuel ⟨fun _ => 0, t⟩ with
    | none => exact .inl rfl
    | some s =>
      cases he : enumReset recB (maxIndices d r) fuel d (cvpInput d n b mu r s) with
      | none => left; simp only [he]
      | some e =>
        obtain ⟨q, hq, hc⟩ := near fuel s hs e he
        right
        refine ⟨_, ?_, hc⟩
        simp only [he, hq]
  · intro hnt
    obtain ⟨s, hs⟩ := cvpLoop_stops hmu hr h.pos hnt
    refine ⟨2 + (F + steps F d + 1), fun fuel hf => ?_⟩
    have hs' := cvpLoop_mono (k' := fuel) (by omega) hs
    obtain ⟨e, he, -⟩ := total fuel (by omega) s
    obtain ⟨q, hq, hc⟩ := near fuel s hs' e he
    refine ⟨_, ?_, hc⟩
    simp only [hs', he, hq]

/-- **C73, builds without recursive enumeration**: if `‖b*_0‖² < 3 ∑_{i≥1} ‖b*_i‖²` then every call of `closest_vector`
with the proved method that returns has found a closest vector, and it returns if the coset of the target has no ties. -/
theorem C73_iterative {d n : ℕ} (hd : 1 ≤ d) (hn : d ≤ n) (b jz : Mat ℤ) (jf : Mat Exact) (h : Indep d n (basisQ b))
    (hlarge : normStar n (basisQ b) 0 < 3 * ∑ i ∈ Ico 1 d, normStar n (basisQ b) i) (t : ℕ → ℤ) :
    (∀ fuel, closestVectorP false d n b jz jf t fuel = .running ∨
      ∃ x, closestVectorP false d n b jz jf t fuel = .done (true, x) ∧ IsClosest d n b t x) ∧
    (NoTie d n b t → ∃ N, ∀ fuel, N ≤ fuel → ∃ x, closestVectorP false d n b jz jf t fuel = .done (true, x) ∧
      IsClosest d n b t x) := by
  have hs : slack false (normStar n (basisQ b)) d = 0 := rfl
  have := cvpP_main (recB := false) hd hn b jz jf h (by
    rw [hs, Finset.range_eq_Ico, Finset.sum_eq_sum_Ico_succ_bot (by omega : 0 < d)]
    linarith) t
  simpa only [hs, nearClosest_zero] using this

/-- **C73, the default build** (recursive enumeration), what does hold (`_partial`): if
`‖b*_0‖² ≤ 2 ∑_{i≥1} ‖b*_i‖²` then the squared distance of the returned vector exceeds the smallest one by at most
`(1/4) ∑_{1≤i<d-1} ‖b*_i‖²`.  Missing: the vector need not be closest (`C73_default_fails`). -/
theorem C73_default_partial {d n : ℕ} (hd : 2 ≤ d) (hn : d ≤ n) (b jz : Mat ℤ) (jf : Mat Exact)
    (h : Indep d n (basisQ b))
    (hlarge : normStar n (basisQ b) 0 ≤ 2 * ∑ i ∈ Ico 1 d, normStar n (basisQ b) i) (t : ℕ → ℤ) :
    (∀ fuel, closestVectorP true d n b jz jf t fuel = .running ∨
      ∃ x, closestVectorP true d n b jz jf t fuel = .done (true, x) ∧
        NearClosest d n b t (1 / 4 * ∑ i ∈ Ico 1 (d - 1), normStar n (basisQ b) i) x) ∧
    (NoTie d n b t → ∃ N, ∀ fuel, N ≤ fuel → ∃ x, closestVectorP true d n b jz jf t fuel = .done (true, x) ∧
      NearClosest d n b t (1 / 4 * ∑ i ∈ Ico 1 (d - 1), normStar n (basisQ b) i) x) := by
  refine cvpP_main (recB := true) (by omega) hn b jz jf h ?_ t
  unfold slack
  rw [if_pos rfl, Finset.range_eq_Ico, Finset.sum_eq_sum_Ico_succ_bot (by omega : 0 < d)]
  have h1 : ∑ i ∈ Ico 1 d, normStar n (basisQ b) i =
      ∑ i ∈ Ico 1 (d - 1), normStar n (basisQ b) i + normStar n (basisQ b) (d - 1) := by
    conv_lhs => rw [show d = d - 1 + 1 by omega]
    rw [Finset.sum_Ico_succ_top (by omega)]
  have h2 := h.pos (d - 1) (by omega)
  rw [zero_add]
  linarith

/-- for two vectors the default build is right -/
theorem C73_default_two {n : ℕ} (hn : 2 ≤ n) (b jz : Mat ℤ) (jf : Mat Exact) (h : Indep 2 n (basisQ b))
    (hlarge : normStar n (basisQ b) 0 ≤ 2 * normStar n (basisQ b) 1) (t : ℕ → ℤ) (fuel : ℕ) :
    closestVectorP true 2 n b jz jf t fuel = .running ∨
      ∃ x, closestVectorP true 2 n b jz jf t fuel = .done (true, x) ∧ IsClosest 2 n b t x := by
  have := (C73_default_partial le_rfl hn b jz jf h (by simpa using hlarge) t).1 fuel
  simpa [nearClosest_zero] using this

/-- both radius conditions hold for LLL-reduced bases of at least two vectors with `δ - η² ≥ 1/2` -/
theorem large_of_lll_half {d n : ℕ} {B : ℕ → ℕ → ℚ} {δ η : ℚ} (hd : 2 ≤ d) (hl : LLLReduced n d B δ η)
    (hδ : 1 / 2 ≤ δ - η ^ 2) : normStar n B 0 ≤ 2 * ∑ i ∈ Ico 1 d, normStar n B i := by
  have h1 := hl.2 0 (by omega)
  have h2 := hl.1 1 (by omega) 0 (by omega)
  have h0 := normStar_nonneg n B 0
  have h3 : normStar n B 1 ≤ ∑ i ∈ Ico 1 d, normStar n B i :=
    Finset.single_le_sum (f := fun i => normStar n B i) (fun i _ => normStar_nonneg n B i) (by rw [mem_Ico]; omega)
  rw [zero_add] at h1
  have h4 : muS n B 1 0 ^ 2 ≤ η ^ 2 := by
    rw [abs_le] at h2
    nlinarith
  nlinarith

/-- **C73, builds without recursive enumeration**, LLL-reduced bases of at least two vectors. -/
theorem C73_iterative_lll {d n : ℕ} (hd : 2 ≤ d) (hn : d ≤ n) (b jz : Mat ℤ) (jf : Mat Exact)
    (h : Indep d n (basisQ b)) {δ η : ℚ} (hl : LLLReduced n d (basisQ b) δ η) (hδ : 1 / 2 ≤ δ - η ^ 2) (t : ℕ → ℤ)
    (fuel : ℕ) :
    closestVectorP false d n b jz jf t fuel = .running ∨
      ∃ x, closestVectorP false d n b jz jf t fuel = .done (true, x) ∧ IsClosest d n b t x := by
  refine (C73_iterative (by omega) hn b jz jf h ?_ t).1 fuel
  have h1 := large_of_lll_half hd hl hδ
  have h2 : 0 < ∑ i ∈ Ico 1 d, normStar n (basisQ b) i :=
    Finset.sum_pos (fun i hi => h.pos i (mem_Ico.1 hi).2) ⟨1, by rw [mem_Ico]; omega⟩
  linarith

/-- **C73, the default build** (`_partial`, as above), LLL-reduced bases of at least two vectors. -/
theorem C73_default_lll_partial {d n : ℕ} (hd : 2 ≤ d) (hn : d ≤ n) (b jz : Mat ℤ) (jf : Mat Exact)
    (h : Indep d n (basisQ b)) {δ η : ℚ} (hl : LLLReduced n d (basisQ b) δ η) (hδ : 1 / 2 ≤ δ - η ^ 2) (t : ℕ → ℤ)
    (fuel : ℕ) :
    closestVectorP true d n b jz jf t fuel = .running ∨
      ∃ x, closestVectorP true d n b jz jf t fuel = .done (true, x) ∧
        NearClosest d n b t (1 / 4 * ∑ i ∈ Ico 1 (d - 1), normStar n (basisQ b) i) x :=
  (C73_default_partial hd hn b jz jf h (large_of_lll_half hd hl hδ) t).1 fuel

/-! ## The defect of the default build -/

/-- rows `(100,0,0)`, `(0,100,0)`, `(0,50,100)` -/
def bW : Mat ℤ := fun i j =>
  if i = 0 ∧ j = 0 then 100 else if i = 1 ∧ j = 1 then 100 else if i = 2 ∧ j = 1 then 50 else
    if i = 2 ∧ j = 2 then 100 else 0

/-- target `(0,30,46)` -/
def tW : ℕ → ℤ := fun j => if j = 1 then 30 else if j = 2 then 46 else 0

theorem bW_indep : Indep 3 3 (basisQ bW) := indep_of_pos (by decide +kernel)

theorem bW_lll : LLLReduced 3 3 (basisQ bW) (99 / 100) (51 / 100) := by
  refine ⟨?_, fun i hi => ?_⟩
  · unfold SizeReduced
    decide +kernel
  · have h2 : i < 2 := by omega
    interval_cases i <;> decide +kernel

/-- **C73 fails in the default build.**  For the LLL-reduced basis `(100,0,0), (0,100,0), (0,50,100)` and the target
`(0,30,46)` the proved method returns the coordinates of `(0,50,100)` (squared distance 3316) although 0 is closer
(3016): `reset(newdist, kk)` counts the contribution of level `kk` twice. -/
theorem C73_default_fails : ∃ x, closestVectorP true 3 3 bW (fun _ _ => 0) (fun _ _ => none) tW 20 = .done (true, x) ∧
    ¬ IsClosest 3 3 bW tW x := by
  have h : (match closestVectorP true 3 3 bW (fun _ _ => 0) (fun _ _ => none) tW 20 with
      | .done r => r.1 && decide (r.2 0 = 0 ∧ r.2 1 = 0 ∧ r.2 2 = 1)
      | _ => false) = true := by decide +kernel
  split at h
  · rename_i r he
    simp only [Bool.and_eq_true, decide_eq_true_eq] at h
    obtain ⟨h1, h2, h3, h4⟩ := h
    refine ⟨r.2, ?_, ?_⟩
    · rw [he, ← h1]
    · intro hc
      have := hc (fun _ => 0)
      have e1 : sqLen 3 (fun c => tW c - comb 3 bW r.2 c) = 3316 := by
        simp [sqLen, comb, Finset.sum_range_succ, h2, h3, h4, bW, tW]
      have e2 : sqLen 3 (fun c => tW c - comb 3 bW (fun _ => 0) c) = 3016 := by
        simp [sqLen, comb, Finset.sum_range_succ, bW, tW]
      rw [e1, e2] at this
      omega
  · cases h

/-- The bound of `C73_default_partial` on this instance: 2500 (the loss is 300). -/
example : ∀ fuel, closestVectorP true 3 3 bW (fun _ _ => 0) (fun _ _ => none) tW fuel = .running ∨
    ∃ x, closestVectorP true 3 3 bW (fun _ _ => 0) (fun _ _ => none) tW fuel = .done (true, x) ∧
      NearClosest 3 3 bW tW (1 / 4 * ∑ i ∈ Ico 1 (3 - 1), normStar 3 (basisQ bW) i) x :=
  fun fuel => C73_default_lll_partial (by norm_num) le_rfl _ _ _ bW_indep bW_lll (by norm_num) _ fuel

/-- The fast method and the builds without recursive enumeration find a closest vector of this instance. -/
example (fuel : ℕ) : (closestVectorP false 3 3 bW (fun _ _ => 0) (fun _ _ => none) tW fuel = .running ∨
    ∃ x, closestVectorP false 3 3 bW (fun _ _ => 0) (fun _ _ => none) tW fuel = .done (true, x) ∧ IsClosest 3 3 bW tW x) ∧
    (closestVector 3 3 bW (fun _ _ => 0) (fun _ _ => none) tW fuel = .running ∨
    ∃ x, closestVector 3 3 bW (fun _ _ => 0) (fun _ _ => none) tW fuel = .done (true, x) ∧ IsClosest 3 3 bW tW x) :=
  ⟨C73_iterative_lll (by norm_num) le_rfl _ _ _ bW_indep bW_lll (by norm_num) _ fuel,
    (C20_closest_vector_lll_partial (by norm_num) le_rfl _ _ _ bW_indep bW_lll (by norm_num) _).1 fuel⟩

/-- Both return on it. -/
example : (match closestVectorP false 3 3 bW (fun _ _ => 0) (fun _ _ => none) tW 100 with
      | .done r => r.1
      | _ => false) = true := by decide +kernel

/-- `C73_default_two` applies to `(4,0), (1,5)`. -/
example (t : ℕ → ℤ) (fuel : ℕ) :
    let b : Mat ℤ := fun i j => if i = 0 then (if j = 0 then 4 else 0) else if j = 0 then 1 else 5
    closestVectorP true 2 2 b (fun _ _ => 0) (fun _ _ => none) t fuel = .running ∨
      ∃ x, closestVectorP true 2 2 b (fun _ _ => 0) (fun _ _ => none) t fuel = .done (true, x) ∧ IsClosest 2 2 b t x :=
  C73_default_two le_rfl _ _ _ (indep_of_pos (by decide +kernel)) (by decide +kernel) t fuel

end SVP
end Fplll

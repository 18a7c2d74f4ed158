import Verif.Props.SVP

/-!
# C20, C41, C46, C50: closest vectors, Babai rounding, coordinate conversions
-/

open Finset

namespace Fplll

open Spec
open Enum (blockVec roundto roundto_spec)

/-! ## C46 -/

/-- **C46.**  `vector_matrix_product` computes `∑ x_i m_i` in every column. -/
theorem C46_vector_matrix_product (d n : ℕ) (x : ℕ → ℤ) (m : Mat ℤ) (c : ℕ) (hc : c < n) :
    SVP.vecMat d n x m c = ∑ i ∈ range d, x i * m i c := by
  rw [SVP.vecMat_eq, if_pos hc]
  rfl

/-- `sqnorm_coordinates` (gso.h:258-270) is the squared length of that vector. -/
theorem C46_sqnorm_coordinates (d n : ℕ) (x : ℕ → ℤ) (m : Mat ℤ) :
    SVP.sqZ n (SVP.vecMat d n x m) = ∑ c ∈ range n, (∑ i ∈ range d, x i * m i c) ^ 2 := by
  rw [SVP.sqZ_eq]
  unfold sqLen
  exact Finset.sum_congr rfl (fun c hc => by rw [C46_vector_matrix_product d n x m c (mem_range.1 hc)])

/-! ## C41 -/

/-- **C41.**  `MatGSO::babai` on the rows `start, …, start+dim-1`, with any rounding to a nearest integer: for every
rational target `v` the Gram–Schmidt coefficients of `∑ w_i b_{start+i} - v` along `b*_start, …, b*_{start+dim-1}`
are in `[-1/2, 1/2]`. -/
theorem C41_babai {n : ℕ} {B : ℕ → ℕ → ℚ} {mu : ℕ → ℕ → ℚ} {r : ℕ → ℚ} {start dim : ℕ} {rd : ℚ → ℤ}
    (hrd : ∀ q : ℚ, |(rd q : ℚ) - q| ≤ 1 / 2)
    (hmu : ∀ i j, j < i → i < start + dim → mu i j = muS n B i j)
    (hr : ∀ i, i < start + dim → r i = normStar n B i)
    (hp : ∀ i < dim, 0 < normStar n B (start + i)) (v : ℕ → ℚ) (i : ℕ) (hi : i < dim) :
    |dotQ n (blockVec dim start (matBabai rd n B mu r start dim false v) B v) (bstar n B (start + i)) /
      normStar n B (start + i)| ≤ 1 / 2 := by
  refine babai_close hrd hmu hp v (fromCanonical n B mu r start dim v)
    (fun i hi => fromCanonical_spec hmu hr v i hi) _ (fun i hi => ?_) i hi
  unfold matBabai
  simp only [hi, if_true, Bool.false_eq_true, if_false]
  obtain ⟨z, hz⟩ := (babaiRound_spec rd mu start dim (fromCanonical n B mu r start dim v)).1 i hi
  rw [hz, Int.floor_intCast]

/-- **C41** with `gso = true`: the input is the vector of Gram–Schmidt coefficients of the target. -/
theorem C41_babai_gso {n : ℕ} {B : ℕ → ℕ → ℚ} {mu : ℕ → ℕ → ℚ} {r : ℕ → ℚ} {start dim : ℕ} {rd : ℚ → ℤ}
    (hrd : ∀ q : ℚ, |(rd q : ℚ) - q| ≤ 1 / 2)
    (hmu : ∀ i j, j < i → i < start + dim → mu i j = muS n B i j)
    (hp : ∀ i < dim, 0 < normStar n B (start + i)) (T x : ℕ → ℚ)
    (hx : ∀ i < dim, x i = dotQ n T (bstar n B (start + i)) / normStar n B (start + i)) (i : ℕ) (hi : i < dim) :
    |dotQ n (blockVec dim start (matBabai rd n B mu r start dim true x) B T) (bstar n B (start + i)) /
      normStar n B (start + i)| ≤ 1 / 2 := by
  refine babai_close hrd hmu hp T x hx _ (fun i hi => ?_) i hi
  unfold matBabai
  simp only [hi, if_true]
  obtain ⟨z, hz⟩ := (babaiRound_spec rd mu start dim x).1 i hi
  rw [hz, Int.floor_intCast]

/-- Non-vacuity of C41: rounding half away from zero on the last two rows of a basis of three rows. -/
example (v : ℕ → ℚ) (i : ℕ) (hi : i < 2) :
    let B : ℕ → ℕ → ℚ := fun i j => if i = j then 2 else if j < i then 1 else 0
    |dotQ 3 (blockVec 2 1 (matBabai roundto 3 B (muS 3 B) (normStar 3 B) 1 2 false v) B v) (bstar 3 B (1 + i)) /
      normStar 3 B (1 + i)| ≤ 1 / 2 :=
  C41_babai roundto_spec (fun _ _ _ _ => rfl) (fun _ _ => rfl) (by decide +kernel) v i hi

/-! ## C50 -/

/-- **C50**, `from_canonical` inverts `to_canonical` on the block: for every vector of Gram–Schmidt coefficients. -/
theorem C50_from_to_canonical {d n : ℕ} {B : ℕ → ℕ → ℚ} {mu : ℕ → ℕ → ℚ} {r : ℕ → ℚ} {start dim : ℕ}
    (hds : start + dim ≤ d) (hmu : ∀ i j, j < i → i < d → mu i j = muS n B i j)
    (hr : ∀ i, i < d → r i = normStar n B i) (hp : ∀ i < dim, 0 < normStar n B (start + i)) (v : ℕ → ℚ) (i : ℕ)
    (hi : i < dim) :
    fromCanonical n B mu r start dim (toCanonical d n B mu dim start v) i = v i := by
  rw [fromCanonical_spec (fun i j h1 h2 => hmu i j h1 (by omega)) (fun i h => hr i (by omega)) _ i hi]
  obtain ⟨x, hx1, hx2⟩ := toCanonical_coeff (n := n) (B := B) (sz := dim) (start := start) v hmu
  rw [show min dim (d - start) = dim by omega] at hx1 hx2
  have h1 : dotQ n (toCanonical d n B mu dim start v) (bstar n B (start + i)) =
      dotQ n (lc (start + dim) (fun j => if j < start then 0 else x (j - start)) B) (bstar n B (start + i)) := by
    apply dotQ_congr _ (fun _ _ => rfl)
    intro c hc
    rw [hx2 c hc]
    unfold lc
    rw [Finset.range_eq_Ico, Finset.range_eq_Ico, ← Finset.sum_Ico_consecutive _ (Nat.zero_le start) (by omega : start ≤ start + dim)]
    rw [Finset.sum_eq_zero (s := Ico 0 start), zero_add]
    · rw [show Ico start (start + dim) = Ico (0 + start) (dim + start) by rw [zero_add, add_comm], ← Finset.sum_Ico_add]
      exact Finset.sum_congr rfl (fun j _ => by dsimp only; rw [if_neg (by omega), Nat.add_sub_cancel_left])
    · intro j hj
      rw [mem_Ico] at hj
      dsimp only
      rw [if_pos hj.2, zero_mul]
  rw [h1, dotQ_lc_bstar n B _ _ _ (by omega), mul_div_assoc, div_self (hp i hi).ne', mul_one, if_neg (by omega),
    show start + i - start = i by omega, ← hx1 i hi]
  congr 1
  rw [show start + i + 1 = (i + 1) + start by omega, show start + dim = dim + start by omega, ← Finset.sum_Ico_add]
  apply Finset.sum_congr rfl
  intro l hl
  rw [if_neg (by omega), show start + l - start = l by omega]

/-- a combination of rows in terms of the Gram–Schmidt vectors -/
theorem lc_bstar_eq (n : ℕ) (B : ℕ → ℕ → ℚ) (d : ℕ) (a : ℕ → ℚ) (c : ℕ) :
    lc d a B c = ∑ k ∈ range d, (a k + ∑ j ∈ Ico (k + 1) d, a j * muS n B j k) * bstar n B k c := by
  induction d with
  | zero => simp [lc]
  | succ d ih =>
    have h1 : lc (d + 1) a B c = lc d a B c + a d * B d c := by
      unfold lc; rw [Finset.sum_range_succ]
    have h2 : B d c = bstar n B d c + ∑ j ∈ range d, muS n B d j * bstar n B j c := by
      rw [bstar_eq]; ring
    rw [h1, ih, h2, Finset.sum_range_succ, Finset.Ico_self, Finset.sum_empty, add_zero, mul_add, Finset.mul_sum]
    rw [show ∀ p q r : ℚ, p + (q + r) = (p + r) + q by intros; ring, ← Finset.sum_add_distrib]
    congr 1
    apply Finset.sum_congr rfl
    intro k hk
    rw [mem_range] at hk
    rw [Finset.sum_Ico_succ_top (by omega)]
    ring

/-- **C50**, `start = 0`: `to_canonical` returns `∑ v_i b*_i`. -/
theorem C50_to_canonical {d n : ℕ} {B : ℕ → ℕ → ℚ} {mu : ℕ → ℕ → ℚ} {dim : ℕ} (hds : dim ≤ d)
    (hmu : ∀ i j, j < i → i < d → mu i j = muS n B i j) (v : ℕ → ℚ) (c : ℕ) (hc : c < n) :
    toCanonical d n B mu dim 0 v c = ∑ i ∈ range dim, v i * bstar n B i c := by
  obtain ⟨x, hx1, hx2⟩ := toCanonical_coeff (n := n) (B := B) (sz := dim) (start := 0) v hmu
  rw [show min dim (d - 0) = dim by omega] at hx1 hx2
  rw [hx2 c hc]
  have : ∑ i ∈ range dim, x i * B (0 + i) c = lc dim x B c := by
    unfold lc; exact Finset.sum_congr rfl (fun i _ => by rw [zero_add])
  rw [this, lc_bstar_eq n B dim x]
  apply Finset.sum_congr rfl
  intro i hi
  rw [mem_range] at hi
  rw [← hx1 i hi]
  simp only [zero_add]

/-- **C50 fails** for `start > 0`: the documentation (gso.h:191-197) promises `w = v⋅B*` for the sub-basis starting at
`start`; the result has components along the Gram–Schmidt vectors before `start`.  Rows `(1,0)`, `(1,1)`, `start = 1`,
`v = (1)`: the result is `(1,1)`, not `b*_1 = (0,1)`. -/
theorem C50_to_canonical_start_fails :
    ∃ (B : ℕ → ℕ → ℚ) (v : ℕ → ℚ), ∃ c < 2,
      toCanonical 2 2 B (muS 2 B) 1 1 v c ≠ ∑ i ∈ range 1, v i * bstar 2 B (1 + i) c :=
  ⟨fun i j => if i = 0 then (if j = 0 then 1 else 0) else 1, fun _ => 1, 0, by norm_num, by decide +kernel⟩

/-! ## C20 -/

namespace SVP

/-- the numbers `closest_vector` works with -/
theorem cvp_data {d n : ℕ} (hd : 1 ≤ d) (hn : d ≤ n) (b jz : Mat ℤ) (jf : Mat Exact) (h : Indep d n (basisQ b)) :
    ∃ mu r, (∀ i j, j < i → i < d → mu i j = muS n (basisQ b) i j) ∧
      (∀ i, i < d → r i = normStar n (basisQ b) i) ∧
      ∀ t fuel, closestVector d n b jz jf t fuel =
        match cvpLoop d n b mu r fuel ⟨fun _ => 0, t⟩ with
        | none => .running
        | some s =>
          match Enum.enumerate (cvpInput d n b mu r s) (Enum.fastEval 1 .best) fuel Enum.EvSt.new with
          | none => .running
          | some t =>
            match t.ev.sols.reverse.head? with
            | none => .done (false, s.coord)
            | some q => .done (true, fun i => if i < d then s.coord i + q.2 i else s.coord i) := by
  have H := basis_data hd hn b jz jf h
  refine ⟨_, _, H.mu, H.r, fun t fuel => ?_⟩
  unfold closestVector
  rw [if_neg (by simp; omega), if_neg (by simp; omega)]
  rfl

/-- no vector of the coset `t + L` has a Gram–Schmidt coefficient exactly half way between two integers -/
def NoTie (d n : ℕ) (b : Mat ℤ) (t : ℕ → ℤ) : Prop :=
  ∀ y : ℕ → ℤ, ∀ i < d, |dotQ n (fun c => ((t c - comb d b y c : ℤ) : ℚ)) (bstar n (basisQ b) i) /
    normStar n (basisQ b) i| ≠ 1 / 2

theorem roundto_small {q : ℚ} (h : |q| < 1 / 2) : roundto q = 0 := by
  rw [abs_lt] at h
  unfold roundto
  split_ifs with h0
  · rw [Int.floor_eq_iff]; constructor <;> push_cast <;> linarith
  · rw [Int.ceil_eq_iff]; constructor <;> push_cast <;> linarith

theorem babaiSmall_of {d : ℕ} {w : ℕ → ℚ} (h : ∀ i < d, w i = 0) : babaiSmall d w = true :=
  forUp_inv (P := fun _ ok => ok = true) (fun i ok => ok && decide (-1 ≤ w i ∧ w i ≤ 1)) (Nat.zero_le d) true rfl
    (by intro i s _ hi hs; rw [hs, h i hi]; norm_num)

/-- without ties the loop that reduces the target stops after at most two rounds -/
theorem cvpLoop_stops {d n : ℕ} {b : Mat ℤ} {mu : ℕ → ℕ → ℚ} {r : ℕ → ℚ}
    (hmu : ∀ i j, j < i → i < d → mu i j = muS n (basisQ b) i j) (hr : ∀ i, i < d → r i = normStar n (basisQ b) i)
    (hp : ∀ i < d, 0 < normStar n (basisQ b) i) {t : ℕ → ℤ} (ht : NoTie d n b t) :
    ∃ s, cvpLoop d n b mu r 2 ⟨fun _ => 0, t⟩ = some s := by
  simp only [cvpLoop]
  split_ifs with h1 h2
  · exact ⟨_, rfl⟩
  · exact ⟨_, rfl⟩
  · exfalso
    apply h2
    set w := babai d n (fun i j => (b i j : ℚ)) mu r (fun j => (t j : ℚ)) with hw
    set s := cvpShift d n b w ⟨fun _ => 0, t⟩ with hs
    obtain ⟨c1, c2, -⟩ := cvpShift_spec d n b w ⟨fun _ => 0, t⟩
    rw [← hs] at c1 c2
    have hzw : ∀ i < d, ((⌊w i⌋ : ℤ) : ℚ) = w i := by
      intro i hi
      obtain ⟨z, hz⟩ := (babaiRound_spec roundto mu 0 d (gsCoords d n (fun i j => (b i j : ℚ)) mu r (fun j => (t j : ℚ)))).1 i hi
      rw [hw]
      unfold babai
      rw [hz, Int.floor_intCast]
    -- coefficients of the new target
    have hco : ∀ i < d, |gsCoords d n (basisQ b) mu r (fun j => s.target j) i| < 1 / 2 := by
      intro i hi
      rw [gsCoords_spec hmu hr _ i hi]
      have hcl := babai_close (n := n) (B := basisQ b) (mu := mu) (start := 0) (dim := d) roundto_spec
        (by simpa using hmu) (by simpa using hp) (fun j => (t j : ℚ)) (gsCoords d n (basisQ b) mu r (fun j => (t j : ℚ)))
        (fun i hi => by simpa using gsCoords_spec hmu hr _ i hi) (fun i => ⌊w i⌋) hzw i hi
      have hnt := ht (fun i => ⌊w i⌋) i hi
      rw [zero_add] at hcl
      have e1 : dotQ n (fun j => (s.target j : ℚ)) (bstar n (basisQ b) i) =
          dotQ n (fun c => ((t c - comb d b (fun i => ⌊w i⌋) c : ℤ) : ℚ)) (bstar n (basisQ b) i) :=
        dotQ_congr (fun c hc => by rw [c2 c hc]; rfl) (fun _ _ => rfl)
      have e2 : dotQ n (blockVec d 0 (fun i => ⌊w i⌋) (basisQ b) (fun j => (t j : ℚ))) (bstar n (basisQ b) i) =
          -dotQ n (fun j => (s.target j : ℚ)) (bstar n (basisQ b) i) := by
        unfold dotQ
        rw [← Finset.sum_neg_distrib]
        refine Finset.sum_congr rfl (fun c hc => ?_)
        rw [mem_range] at hc
        dsimp only
        rw [c2 c hc]
        have : blockVec d 0 (fun i => ⌊w i⌋) (basisQ b) (fun j => (t j : ℚ)) c = (∑ i ∈ range d, ((⌊w i⌋ : ℤ) : ℚ) * b i c) - t c := by
          simp [blockVec, lc, basisQ]
        rw [this]
        push_cast
        ring
      rw [e2, neg_div, abs_neg] at hcl
      rw [← e1] at hnt
      exact lt_of_le_of_ne hcl hnt
    -- hence every coordinate of the second round is zero
    have hz : ∀ k ≤ d, ∀ i, d - k ≤ i → i < d →
        babaiRound roundto mu 0 d (gsCoords d n (basisQ b) mu r (fun j => s.target j)) i = 0 := by
      intro k
      induction k with
      | zero => intro _ i h1 h2; omega
      | succ k ih =>
        intro hk i h1 h2
        rw [(babaiRound_spec roundto mu 0 d _).2 i h2]
        rw [Finset.sum_eq_zero, sub_zero, roundto_small (hco i h2)]
        · simp
        · intro j hj
          rw [mem_Ico] at hj
          rw [ih (by omega) j (by omega) hj.2, zero_mul]
    exact babaiSmall_of (fun i hi => hz d le_rfl i (by omega) hi)

/-- **C20**, what does hold (`_partial`): if `‖b*_0‖² ≤ 3 ∑_{i≥1} ‖b*_i‖²` then, for every target, a call of
`closest_vector` that returns has found a closest vector, and it does return if the coset of the target has no
ties.  Missing: targets with ties, for which the call may run forever (`C20_closest_vector_diverges`) and bases whose
first Gram–Schmidt vector is long, in particular a single vector (`C20_closest_vector_dim_one_fails`). -/
theorem C20_closest_vector_partial {d n : ℕ} (hd : 1 ≤ d) (hn : d ≤ n) (b jz : Mat ℤ) (jf : Mat Exact)
    (h : Indep d n (basisQ b))
    (hlarge : normStar n (basisQ b) 0 ≤ 3 * ∑ i ∈ Ico 1 d, normStar n (basisQ b) i) (t : ℕ → ℤ) :
    (∀ fuel, closestVector d n b jz jf t fuel = .running ∨
      ∃ x, closestVector d n b jz jf t fuel = .done (true, x) ∧ IsClosest d n b t x) ∧
    (NoTie d n b t → ∃ N, ∀ fuel, N ≤ fuel → ∃ x, closestVector d n b jz jf t fuel = .done (true, x) ∧
      IsClosest d n b t x) := by
  obtain ⟨mu, r, hmu, hr, heq⟩ := cvp_data hd hn b jz jf h
  simp only [heq]
  have key : ∀ fuel s, cvpLoop d n b mu r fuel ⟨fun _ => 0, t⟩ = some s → ∀ e,
      Enum.enumerate (cvpInput d n b mu r s) (Enum.fastEval 1 .best) fuel Enum.EvSt.new = some e →
      ∃ q, e.ev.sols.reverse.head? = some q ∧
        IsClosest d n b t (fun i => if i < d then s.coord i + q.2 i else s.coord i) := by
    intro fuel s hs e he
    obtain ⟨q, hq, hc⟩ := (cvp_core hd hmu hr h.pos hlarge s).2 fuel e he
    exact ⟨q, hq, isClosest_shift (cvpLoop_inv fuel _ s (by intro c _; simp [comb]) hs) hc⟩
  constructor
  · intro fuel
    cases hs : cvpLoop d n b mu r fuel ⟨fun _ => 0, t⟩ with
    | none => exact .inl rfl
    | some s =>
      cases he : Enum.enumerate (cvpInput d n b mu r s) (Enum.fastEval 1 .best) fuel Enum.EvSt.new with
      | none => left; simp only [he]
      | some e =>
        obtain ⟨q, hq, hc⟩ := key fuel s hs e he
        right
        refine ⟨_, ?_, hc⟩
        simp only [he, hq]
  · intro hnt
    obtain ⟨s, hs⟩ := cvpLoop_stops hmu hr h.pos hnt
    obtain ⟨N, hN⟩ := (cvp_core hd hmu hr h.pos hlarge s).1
    refine ⟨max 2 N, fun fuel hf => ?_⟩
    have hs' := cvpLoop_mono (k' := fuel) (by omega) hs
    obtain ⟨e, he⟩ := hN fuel (by omega)
    obtain ⟨q, hq, hc⟩ := key fuel s hs' e he
    refine ⟨_, ?_, hc⟩
    simp only [hs', he, hq]

/-- the radius is large enough for LLL-reduced bases of at least two vectors -/
theorem large_of_lll {d n : ℕ} {B : ℕ → ℕ → ℚ} {δ η : ℚ} (hd : 2 ≤ d) (hl : LLLReduced n d B δ η)
    (hδ : 1 / 3 ≤ δ - η ^ 2) : normStar n B 0 ≤ 3 * ∑ i ∈ Ico 1 d, normStar n B i := by
  have h1 := hl.2 0 (by omega)
  have h2 := hl.1 1 (by omega) 0 (by omega)
  have h0 := normStar_nonneg n B 0
  have h3 : normStar n B 1 ≤ ∑ i ∈ Ico 1 d, normStar n B i :=
    Finset.single_le_sum (f := fun i => normStar n B i) (fun i _ => normStar_nonneg n B i) (by rw [mem_Ico]; omega)
  rw [zero_add] at h1
  have h4 : muS n B 1 0 ^ 2 ≤ η ^ 2 := by
    rw [abs_le] at h2
    nlinarith
  nlinarith

/-- **C20** for LLL-reduced bases of at least two vectors with `δ - η² ≥ 1/3` (the defaults are 0.99 and 0.51). -/
theorem C20_closest_vector_lll_partial {d n : ℕ} (hd : 2 ≤ d) (hn : d ≤ n) (b jz : Mat ℤ) (jf : Mat Exact)
    (h : Indep d n (basisQ b)) {δ η : ℚ} (hl : LLLReduced n d (basisQ b) δ η) (hδ : 1 / 3 ≤ δ - η ^ 2) (t : ℕ → ℤ) :
    (∀ fuel, closestVector d n b jz jf t fuel = .running ∨
      ∃ x, closestVector d n b jz jf t fuel = .done (true, x) ∧ IsClosest d n b t x) ∧
    (NoTie d n b t → ∃ N, ∀ fuel, N ≤ fuel → ∃ x, closestVector d n b jz jf t fuel = .done (true, x) ∧
      IsClosest d n b t x) :=
  C20_closest_vector_partial (by omega) hn b jz jf h (large_of_lll hd hl hδ) t

/-- **C20 fails in dimension one**: lattice `2ℤ`, target 1: the search radius is 0 (an empty sum) and the call
reports failure. -/
theorem C20_closest_vector_dim_one_fails :
    ∃ (b : Mat ℤ) (t : ℕ → ℤ), Indep 1 1 (basisQ b) ∧ LLLReduced 1 1 (basisQ b) (99 / 100) (51 / 100) ∧ ∃ x,
      closestVector 1 1 b (fun _ _ => 0) (fun _ _ => none) t 10 = .done (false, x) := by
  refine ⟨fun _ _ => 2, fun _ => 1, indep_of_pos (by decide +kernel),
    ⟨fun i hi j hj => by omega, fun i hi => by omega⟩, ?_⟩
  have h : (match closestVector 1 1 (fun _ _ => 2) (fun _ _ => 0) (fun _ _ => none) (fun _ => 1) 10 with
      | .done r => !r.1
      | _ => false) = true := by decide +kernel
  split at h
  · rename_i r he
    refine ⟨r.2, ?_⟩
    rw [he]
    have : r.1 = false := by simpa using h
    rw [← this]
  · cases h

/-- the basis and target of the non-terminating call -/
def loopBasis : Mat ℤ := fun i j =>
  if i = 0 then (if j = 0 then 2 else 0) else if i = 1 then (if j = 0 then 1 else if j = 1 then 2 else 0)
  else if i = 2 then (if j = 0 then 1 else if j = 2 then 2 else 0) else 0
/-- see `loopBasis` -/
def loopTarget : ℕ → ℤ := fun j => if j = 0 then -1 else if j = 1 then 1 else if j = 2 then 1 else 0

/-- **C20 fails: `closest_vector` may not terminate.**  Basis `(2,0,0), (1,2,0), (1,0,2)` (LLL-reduced), target
`(-1,1,1)`: all numbers are exactly representable; Babai rounding gives `(-2,1,1)`, the target becomes `(1,-1,-1)`,
rounding gives `(2,-1,-1)`, and so on for ever, because half-integers are rounded away from zero. -/
theorem C20_closest_vector_diverges :
    Indep 3 3 (basisQ loopBasis) ∧ LLLReduced 3 3 (basisQ loopBasis) (99 / 100) (51 / 100) ∧
    ∀ fuel, closestVector 3 3 loopBasis (fun _ _ => 0) (fun _ _ => none) loopTarget fuel = .running := by
  refine ⟨indep_of_pos (by decide +kernel), ⟨?_, ?_⟩, ?_⟩
  · unfold SizeReduced; decide +kernel
  · intro i hi
    have : i = 0 ∨ i = 1 := by omega
    rcases this with rfl | rfl <;> decide +kernel
  · intro fuel
    unfold closestVector
    rw [if_neg (by norm_num), if_neg (by norm_num)]
    dsimp only
    generalize hg : ((GSO.mk0 3 3 true false false false loopBasis (fun _ _ => 0) (fun _ _ => 0) (fun _ _ => 0)
      (fun _ _ => none) : GSO Exact).updateGso).2 = g
    have key : ∀ k (s : CvpSt), (s.target = loopTarget ∨ s.target = fun j => -loopTarget j) →
        cvpLoop 3 3 loopBasis (fun i j => val (g.mu i j)) (fun i => val (g.r i i)) k s = none := by
      intro k
      induction k with
      | zero => intro s _; rfl
      | succ k ih =>
        intro s hs
        simp only [cvpLoop]
        obtain ⟨-, c2, c3⟩ := cvpShift_spec 3 3 loopBasis (babai 3 3 (fun i j => (loopBasis i j : ℚ))
          (fun i j => val (g.mu i j)) (fun i => val (g.r i i)) (fun j => s.target j)) s
        rcases hs with hs | hs
        · rw [if_neg, ih]
          · right
            funext c
            by_cases hc : c < 3
            · rw [c2 c hc, hs, ← hg]
              interval_cases c <;> decide +kernel
            · rw [c3 c (by omega), hs]
              simp [loopTarget]; grind
          · rw [hs, ← hg]; decide +kernel
        · rw [if_neg, ih]
          · left
            funext c
            by_cases hc : c < 3
            · rw [c2 c hc, hs, ← hg]
              interval_cases c <;> decide +kernel
            · rw [c3 c (by omega), hs]
              simp [loopTarget]; grind
          · rw [hs, ← hg]; decide +kernel
    rw [key fuel _ (.inl rfl)]

/-- Non-vacuity of the positive theorem: `(5,0), (2,5)` and the target `(3,1)` (no ties). -/
example : ∃ N, ∀ fuel, N ≤ fuel → ∃ x,
    closestVector 2 2 demoBasis (fun _ _ => 9) (fun _ _ => none) (fun j => if j = 0 then 3 else 1) fuel = .done (true, x) ∧
      IsClosest 2 2 demoBasis (fun j => if j = 0 then 3 else 1) x := by
  refine (C20_closest_vector_lll_partial (δ := 99 / 100) (η := 51 / 100) le_rfl le_rfl demoBasis _ _ demoBasis_indep ⟨?_, ?_⟩
    (by norm_num) _).2 ?_
  · unfold SizeReduced; decide +kernel
  · intro i hi
    have : i = 0 := by omega
    subst this; decide +kernel
  · intro y i hi
    have e0 : bstar 2 (basisQ demoBasis) 0 0 = 5 ∧ bstar 2 (basisQ demoBasis) 0 1 = 0 ∧
        bstar 2 (basisQ demoBasis) 1 0 = 0 ∧ bstar 2 (basisQ demoBasis) 1 1 = 5 ∧
        normStar 2 (basisQ demoBasis) 0 = 25 ∧ normStar 2 (basisQ demoBasis) 1 = 25 := by decide +kernel
    obtain ⟨a1, a2, a3, a4, a5, a6⟩ := e0
    have key : ∀ z : ℤ, |((z : ℤ) : ℚ) * 5 / 25| ≠ 1 / 2 := by
      intro z hz
      rw [abs_eq (by norm_num)] at hz
      rcases hz with hz | hz
      · have : (2 * z : ℚ) = 5 := by linarith
        have : 2 * z = 5 := by exact_mod_cast this
        omega
      · have : (2 * z : ℚ) = -5 := by linarith
        have : 2 * z = -5 := by exact_mod_cast this
        omega
    interval_cases i
    · have := key (3 - comb 2 demoBasis y 0)
      simpa [dotQ, Finset.sum_range_succ, a1, a2, a5] using this
    · have := key (1 - comb 2 demoBasis y 1)
      simpa [dotQ, Finset.sum_range_succ, a3, a4, a6] using this

end SVP
end Fplll

import Verif.Model.CvpCmd
import Verif.Props.CVPReset
import Verif.Props.SvpCmd

/-!
# C90: `fplll -a cvp` end to end
-/

open Finset

namespace Fplll
namespace Cli

open Wrapper Spec Gen

variable {c : Cfg} {run : Runner}

/-- specification: `v` is a vector of the lattice generated by the rows of `b`, and no vector of the lattice is closer to `t` by more than `ε` (squared distances) -/
def IsClosestVector (d n : ℕ) (b : ℕ → ℕ → ℤ) (t : Fin n → ℤ) (ε : ℚ) (v : Fin n → ℤ) : Prop :=
  v ∈ lattice (toM d n b) ∧ ∀ w ∈ lattice (toM d n b), ((∑ i, (t i - v i) ^ 2 : ℤ) : ℚ) ≤ ((∑ i, (t i - w i) ^ 2 : ℤ) : ℚ) + ε

theorem isClosest_vector {d n : ℕ} {b : ℕ → ℕ → ℤ} {t x : ℕ → ℤ} {ε : ℚ} (h : SVP.NearClosest d n b t ε x) : IsClosestVector d n b (fun i => t i) ε fun i => comb d b x i := by
  refine ⟨(mem_lattice_iff d n b _).2 ⟨x, fun _ => rfl⟩, fun w hw => ?_⟩
  obtain ⟨y, hy⟩ := (mem_lattice_iff d n b w).1 hw
  have := h y
  unfold sqLen at this
  rw [← Fin.sum_univ_eq_sum_range (fun c => (t c - comb d b x c) ^ 2), ← Fin.sum_univ_eq_sum_range (fun c => (t c - comb d b y c) ^ 2)] at this
  refine this.trans (le_of_eq ?_)
  congr 2
  exact Finset.sum_congr rfl fun c _ => by rw [hy]

theorem lllReduced_mono {n d : ℕ} {B : ℕ → ℕ → ℚ} {δ η δ' η' : ℚ} (h : LLLReduced n d B δ η) (hδ : δ' ≤ δ) (hη : η ≤ η') : LLLReduced n d B δ' η' := by
  refine ⟨fun i hi j hj => (h.1 i hi j hj).trans hη, fun i hi => le_trans ?_ (h.2 i hi)⟩
  have := normStar_nonneg n B i
  exact mul_le_mul_of_nonneg_right (by linarith) this

/-- without a target the action `cvp` does what `svp` does -/
theorem svpcvpCmd_nil (recB : Bool) (err : ℚ → ℚ) (lllFuel fuel : ℕ) (noLll : Bool) (format : List Char) (b junk jz : Mat ℤ) (jf : Mat Exact) :
    svpcvpCmd c run recB err lllFuel fuel noLll format b [] junk jz jf = svpCmd c run err lllFuel fuel noLll format b junk jz jf := by
  unfold svpcvpCmd svpCmd
  dsimp only [List.isEmpty_nil]
  simp only [if_true]
  generalize (if noLll = true then Run.ok b
    else match lllReduction c run lllFuel ⟨.wrapper, .mpz, none, 0, false⟩ ⟨b, none, none⟩ junk with
      | .abort => .abort
      | .outOfFuel => .outOfFuel
      | .done (s, m) => if s = .success then .ok m.b else .failed) = red
  cases red with
  | ok b' =>
    dsimp only
    cases SVP.svpBasis c.d c.n b' jz jf err (SVP.shortestArgs .proved false false) fuel with
    | done res => cases h : res.success <;> simp [h]
    | abort => rfl
    | ub => rfl
    | running => rfl
  | _ => rfl

theorem svpcvpCmd_lll (recB : Bool) (err : ℚ → ℚ) (lllFuel fuel : ℕ) {b junk : Mat ℤ} {m' : Triple} (h : lllReduction c run lllFuel ⟨.wrapper, .mpz, none, 0, false⟩ ⟨b, none, none⟩ junk = .done (.success, m'))
    (hd : 1 ≤ c.d) (hn : c.d ≤ c.n) {t : List ℤ} (ht : c.n ≤ t.length) (jz : Mat ℤ) (jf : Mat Exact) :
    svpcvpCmd c run recB err lllFuel fuel false ['s'] b t junk jz jf = match SVP.closestVectorP recB c.d c.n m'.b jz jf (targetOf c.n t) fuel with
      | .done (true, x) => .ok ⟨none, some ((List.range c.n).map (comb c.d m'.b x))⟩
      | .done (false, _) => .failed
      | .abort => .abort
      | .ub => .ub
      | .running => .outOfFuel := by
  have hne : t.isEmpty = false := by
    cases t with
    | nil => simp at ht; omega
    | cons a t => rfl
  unfold svpcvpCmd closestVectorL
  simp only [Bool.false_eq_true, if_false, h, if_true, hne]
  rw [if_neg (by omega), if_neg (by omega), if_neg (by omega)]
  cases SVP.closestVectorP recB c.d c.n m'.b jz jf (targetOf c.n t) fuel with
  | done q =>
    obtain ⟨s, x⟩ := q
    cases s
    · rfl
    · simp [svpFinish, vecMatChecked_eq]
  | abort => rfl
  | ub => rfl
  | running => rfl

/-- how far from closest the result may be: the default build (recursive enumeration) loses up to a quarter of the `‖b*_i‖²` in the middle (C73) -/
def cvpSlack (recB : Bool) (d n : ℕ) (B : ℕ → ℕ → ℚ) : ℚ := if recB then 1 / 4 * ∑ i ∈ Ico 1 (d - 1), normStar n B i else 0

/-- **C90** (`_partial`: the default build only up to a slack, see `C90_default_violated`; with a tie the search may not terminate; `closest_vector` in exact arithmetic).  `fplll -a cvp` on at least two linearly independent rows and a target with as many entries as the rows, with the
rounding of the program in the LLL reduction (assumptions as in C85): the reduction succeeds, and what is printed, if the program ends, is a vector of the lattice of the *input* that is closest to the target - exactly closest in builds without recursive enumeration.  The program ends unless one of the
Babai coefficients of the target is exactly halfway between integers. -/
theorem C90_cvp_partial {w : World} {ε : ℚ} (hw : Accurate w c) (hc : Params c ε) (hd : 2 ≤ c.d) (hn : c.d ≤ c.n) (hδ : 9895 / 10000 ≤ c.delta) (hη : c.eta ≤ 51001 / 100000)
    {b : Mat ℤ} (hind : Indep c.d c.n (basisQ b)) (hm : Fits c b) (junk jz : Mat ℤ) (jf : Mat Exact) (recB : Bool) (err : ℚ → ℚ) (lllFuel : ℕ) (hf : c.goodPrec.toNat + 2 ≤ lllFuel)
    (hfit : ∀ r, lll c (lllRun w c.d c.n) lllFuel (mk c ⟨b, none, none⟩ junk) = some r → ∀ e ∈ r.2.log, Fits c e.inp.b) {t : List ℤ} (ht : t.length = c.n) :
    ∃ b' : Mat ℤ, lattice (toM c.d c.n b') = lattice (toM c.d c.n b) ∧ LLLReduced c.n c.d (basisQ b') (989 / 1000) (511 / 1000) ∧
      (∀ fuel, svpcvpCmd c (lllRun w c.d c.n) recB err lllFuel fuel false ['s'] b t junk jz jf = .outOfFuel ∨
        ∃ v, svpcvpCmd c (lllRun w c.d c.n) recB err lllFuel fuel false ['s'] b t junk jz jf = .ok ⟨none, some v⟩ ∧ v.length = c.n ∧
          IsClosestVector c.d c.n b (fun i => t.getD i 0) (cvpSlack recB c.d c.n (basisQ b')) fun i => v.getD i 0) ∧
      (SVP.NoTie c.d c.n b' (targetOf c.n t) → ∃ N, ∀ fuel, N ≤ fuel →
        ∃ v, svpcvpCmd c (lllRun w c.d c.n) recB err lllFuel fuel false ['s'] b t junk jz jf = .ok ⟨none, some v⟩ ∧ v.length = c.n ∧
          IsClosestVector c.d c.n b (fun i => t.getD i 0) (cvpSlack recB c.d c.n (basisQ b')) fun i => v.getD i 0) := by
  obtain ⟨m', h1, h2, h3⟩ := C85_lll_reduction (m := ⟨b, none, none⟩) hw hc hind (C85_default ⟨.wrapper, .mpz, none, 0, false⟩ rfl rfl (.inl ⟨rfl, rfl⟩)) hm junk lllFuel hf fun _ => hfit
  have hind' : Indep c.d c.n (basisQ m'.b) := Spec.Indep.of_lattice hind h2.1
  have hε : 0 ≤ ε := hc.eps_nonneg
  have hε1 := hc.eps
  have hd1 := hc.delta
  have he1 := hc.eta
  have h3' : LLLReduced c.n c.d (basisQ m'.b) (989 / 1000) (511 / 1000) := lllReduced_mono h3 (by linarith) (by linarith)
  have hlarge := SVP.large_of_lll_half hd h3' (by norm_num)
  have hpos : 0 < ∑ i ∈ Ico 1 c.d, normStar c.n (basisQ m'.b) i := sum_pos (fun i hi => hind'.pos i (mem_Ico.1 hi).2) ⟨1, by rw [mem_Ico]; omega⟩
  have main : (∀ fuel, SVP.closestVectorP recB c.d c.n m'.b jz jf (targetOf c.n t) fuel = .running ∨
      ∃ x, SVP.closestVectorP recB c.d c.n m'.b jz jf (targetOf c.n t) fuel = .done (true, x) ∧ SVP.NearClosest c.d c.n m'.b (targetOf c.n t) (cvpSlack recB c.d c.n (basisQ m'.b)) x) ∧
      (SVP.NoTie c.d c.n m'.b (targetOf c.n t) → ∃ N, ∀ fuel, N ≤ fuel → ∃ x, SVP.closestVectorP recB c.d c.n m'.b jz jf (targetOf c.n t) fuel = .done (true, x) ∧
        SVP.NearClosest c.d c.n m'.b (targetOf c.n t) (cvpSlack recB c.d c.n (basisQ m'.b)) x) := by
    cases recB
    · have := SVP.C73_iterative (by omega) hn m'.b jz jf hind' (by linarith) (targetOf c.n t)
      simpa only [cvpSlack, Bool.false_eq_true, if_false, SVP.nearClosest_zero] using this
    · exact SVP.C73_default_partial hd hn m'.b jz jf hind' hlarge (targetOf c.n t)
  have good : ∀ {fuel x}, SVP.closestVectorP recB c.d c.n m'.b jz jf (targetOf c.n t) fuel = .done (true, x) → SVP.NearClosest c.d c.n m'.b (targetOf c.n t) (cvpSlack recB c.d c.n (basisQ m'.b)) x →
      ∃ v, svpcvpCmd c (lllRun w c.d c.n) recB err lllFuel fuel false ['s'] b t junk jz jf = .ok ⟨none, some v⟩ ∧ v.length = c.n ∧
          IsClosestVector c.d c.n b (fun i => t.getD i 0) (cvpSlack recB c.d c.n (basisQ m'.b)) fun i => v.getD i 0 := by
    intro fuel x k1 k2
    refine ⟨(List.range c.n).map (comb c.d m'.b x), ?_, by simp, ?_⟩
    · rw [svpcvpCmd_lll recB err lllFuel fuel h1 (by omega) hn ht.ge, k1]
    · have := isClosest_vector k2
      unfold IsClosestVector at this ⊢
      rw [h2.1] at this
      have e1 : ∀ i : Fin c.n, targetOf c.n t i = t.getD i 0 := fun i => if_pos i.2
      have e2 : ∀ i : Fin c.n, ((List.range c.n).map (comb c.d m'.b x)).getD i 0 = comb c.d m'.b x i := fun i => by simp
      simpa only [e1, e2] using this
  refine ⟨m'.b, h2.1, h3', fun fuel => ?_, fun hnt => ?_⟩
  · rcases main.1 fuel with h | ⟨x, k1, k2⟩
    · left
      rw [svpcvpCmd_lll recB err lllFuel fuel h1 (by omega) hn ht.ge, h]
    · exact .inr (good k1 k2)
  · obtain ⟨N, hN⟩ := main.2 hnt
    refine ⟨N, fun fuel hfuel => ?_⟩
    obtain ⟨x, k1, k2⟩ := hN fuel hfuel
    exact good k1 k2

/-- **C90, violated** for a target that is too short: after a successful reduction the entries behind the end of the target are read. -/
theorem C90_short_violated (recB : Bool) (err : ℚ → ℚ) (lllFuel fuel : ℕ) (format : List Char) (hd : 1 ≤ c.d) (hn : c.d ≤ c.n) (b junk jz : Mat ℤ) (jf : Mat Exact) {t : List ℤ} (ht0 : t ≠ []) (ht : t.length < c.n) :
    svpcvpCmd c run recB err lllFuel fuel true format b t junk jz jf = .ub := by
  have hne : t.isEmpty = false := by
    cases t with
    | nil => exact absurd rfl ht0
    | cons a t => rfl
  unfold svpcvpCmd closestVectorL
  simp only [if_true, hne, Bool.false_eq_true, if_false]
  rw [if_neg (by omega), if_neg (by omega), if_pos ht]

/-- **C90, violated** for a target that is too long: the entries behind the first `n` are ignored without a message. -/
theorem C90_long_violated (recB : Bool) (err : ℚ → ℚ) (lllFuel fuel : ℕ) (noLll : Bool) (format : List Char) (hn : 1 ≤ c.n) (b junk jz : Mat ℤ) (jf : Mat Exact) {t : List ℤ} (ht : t.length = c.n) (s : List ℤ) :
    svpcvpCmd c run recB err lllFuel fuel noLll format b (t ++ s) junk jz jf = svpcvpCmd c run recB err lllFuel fuel noLll format b t junk jz jf := by
  have hne : t.isEmpty = false := by
    cases t with
    | nil => simp at ht; omega
    | cons a t => rfl
  have hne' : (t ++ s).isEmpty = false := by
    cases t with
    | nil => simp at ht; omega
    | cons a t => rfl
  have key : ∀ b' : Mat ℤ, closestVectorL recB c.d c.n b' jz jf (t ++ s) fuel = closestVectorL recB c.d c.n b' jz jf t fuel := by
    intro b'
    unfold closestVectorL
    by_cases h1 : 0 < c.d ∧ 0 < c.n
    · by_cases h2 : c.d ≤ c.n
      · rw [if_neg (not_not.2 h1), if_neg (not_not.2 h1), if_neg (not_not.2 h2), if_neg (not_not.2 h2), if_neg (by rw [List.length_append]; omega), if_neg (by omega)]
        congr 1
        funext j
        unfold targetOf
        split_ifs with hj
        · rw [List.getD_eq_getElem?_getD, List.getD_eq_getElem?_getD, List.getElem?_append_left (by omega)]
        · rfl
      · rw [if_neg (not_not.2 h1), if_neg (not_not.2 h1), if_pos h2, if_pos h2]
    · rw [if_pos h1, if_pos h1]
  unfold svpcvpCmd
  simp only [hne, hne', Bool.false_eq_true, if_false, key]

/-- **C90, violated** for an empty target: `fplll -a cvp` reads the input `[[2 0][0 3]][]` without complaint and prints a shortest non-zero vector of the lattice: it does the action `svp`. -/
theorem C90_empty_violated (recB : Bool) (err : ℚ → ℚ) (lllFuel fuel : ℕ) (noLll : Bool) (format : List Char) (b junk jz : Mat ℤ) (jf : Mat Exact) :
    svpcvpCmd c run recB err lllFuel fuel noLll format b [] junk jz jf = svpCmd c run err lllFuel fuel noLll format b junk jz jf :=
  svpcvpCmd_nil recB err lllFuel fuel noLll format b junk jz jf

/-- **C90, violated** in the default build: for the LLL-reduced basis `(100,0,0), (0,100,0), (0,50,100)` and the target `(0,30,46)`, `fplll -a cvp -nolll` prints `(0,50,100)` although `0` is closer. -/
theorem C90_default_violated (hd : c.d = 3) (hn : c.n = 3) (err : ℚ → ℚ) (lllFuel : ℕ) (junk : Mat ℤ) :
    svpcvpCmd c run true err lllFuel 20 true ['s'] SVP.bW [0, 30, 46] junk (fun _ _ => 0) (fun _ _ => none) = .ok ⟨none, some [0, 50, 100]⟩ ∧
      ¬ IsClosestVector 3 3 SVP.bW (fun i => [0, 30, 46].getD i 0) 0 fun i => [0, 50, 100].getD i 0 := by
  constructor
  · have ht : targetOf 3 [0, 30, 46] = SVP.tW := by
      funext j
      unfold targetOf SVP.tW
      rcases j with _ | _ | _ | j <;> simp
    have h : (match SVP.closestVectorP true 3 3 SVP.bW (fun _ _ => 0) (fun _ _ => none) SVP.tW 20 with
      | .done r => r.1 && decide (r.2 0 = 0 ∧ r.2 1 = 0 ∧ r.2 2 = 1)
      | _ => false) = true := by decide +kernel
    unfold svpcvpCmd closestVectorL
    simp only [if_true, hd, hn, List.isEmpty_cons, Bool.false_eq_true, if_false, ht]
    rw [if_neg (by omega), if_neg (by omega), if_neg (by decide)]
    split at h
    · rename_i r he
      simp only [Bool.and_eq_true, decide_eq_true_eq] at h
      obtain ⟨h1, h2, h3, h4⟩ := h
      obtain ⟨s, x⟩ := r
      dsimp only at h1 h2 h3 h4
      subst h1
      rw [he]
      simp [svpFinish, vecMatChecked_eq, List.range_succ, comb, Finset.sum_range_succ, h2, h3, h4, SVP.bW]
    · cases h
  · rintro ⟨-, h⟩
    have := h 0 ((mem_lattice_iff 3 3 SVP.bW 0).2 ⟨fun _ => 0, fun i => by simp [comb]⟩)
    norm_num [Fin.sum_univ_succ] at this

/-- **C90, violated** in dimension one: the search radius is the empty sum; for the lattice `2ℤ` and the target 1 nothing is printed. -/
theorem C90_dim_one_violated (hd : c.d = 1) (hn : c.n = 1) (recB : Bool) (err : ℚ → ℚ) (lllFuel : ℕ) (junk : Mat ℤ) :
    svpcvpCmd c run recB err lllFuel 10 true ['s'] (fun _ _ => 2) [1] junk (fun _ _ => 0) (fun _ _ => none) = .failed := by
  have ht : targetOf 1 [1] = fun j => if j = 0 then 1 else 0 := by
    funext j
    unfold targetOf
    rcases j with _ | j <;> simp
  have h : (match SVP.closestVectorP recB 1 1 (fun _ _ => 2) (fun _ _ => 0) (fun _ _ => none) (fun j => if j = 0 then 1 else 0) 10 with
      | .done r => !r.1
      | _ => false) = true := by cases recB <;> decide +kernel
  unfold svpcvpCmd closestVectorL
  simp only [if_true, hd, hn, List.isEmpty_cons, Bool.false_eq_true, if_false, ht]
  rw [if_neg (by omega), if_neg (by omega), if_neg (by decide)]
  split at h
  · rename_i r he
    obtain ⟨s, x⟩ := r
    have h1 : s = false := by simpa using h
    subst h1
    rw [he]
  · cases h

/-- **C90, violated** for the format `c`, which README.md gives as the default one that prints the closest vector: the program never prints anything (the coordinates would be printed, but the transformation is not computed, as in C54). -/
theorem C90_coord_violated (hd : 1 ≤ c.d) (recB : Bool) (err : ℚ → ℚ) (lllFuel fuel : ℕ) (format : List Char) (hc : 'c' ∈ format) (b junk jz : Mat ℤ) (jf : Mat Exact) (t : List ℤ) (out : SvpOut) :
    svpcvpCmd c run recB err lllFuel fuel false format b t junk jz jf ≠ .ok out := by
  intro h
  unfold svpcvpCmd at h
  dsimp only at h
  generalize (if false = true then Run.ok b
    else match lllReduction c run lllFuel ⟨.wrapper, .mpz, none, 0, false⟩ ⟨b, none, none⟩ junk with
      | .abort => .abort
      | .outOfFuel => .outOfFuel
      | .done (s, m) => if s = .success then .ok m.b else .failed) = red at h
  cases red with
  | ok b' =>
    dsimp only at h
    split at h
    · have hne : c.d ≠ 0 := by omega
      simp [svpFinish, hc, vecMatChecked, hne] at h
    all_goals cases h
  | _ => cases h

/-- the hypotheses of `C90_cvp_partial` are met by the 48 vectors `triB`, with any target, although all `double` numbers in the LLL reduction are NaN -/
example {t : List ℤ} (ht : t.length = 48) : ∃ good, ∀ recB, ∃ b' : Mat ℤ, lattice (toM 48 48 b') = lattice (toM 48 48 triB) ∧
    ∀ fuel, svpcvpCmd (triCfg good) (lllRun nanWorld 48 48) recB (fun _ => 0) 5002 fuel false ['s'] triB t (fun _ _ => 9) (fun _ _ => 8) (fun _ _ => none) = .outOfFuel ∨
      ∃ v, svpcvpCmd (triCfg good) (lllRun nanWorld 48 48) recB (fun _ => 0) 5002 fuel false ['s'] triB t (fun _ _ => 9) (fun _ _ => 8) (fun _ _ => none) = .ok ⟨none, some v⟩ ∧ v.length = 48 ∧
        IsClosestVector 48 48 triB (fun i => t.getD i 0) (cvpSlack recB 48 48 (basisQ b')) fun i => v.getD i 0 := by
  obtain ⟨good, h1, h2, hp⟩ := tri_params
  have hm : Fits (triCfg good) triB := by
    unfold Fits
    have h1 : maxExp 48 48 triB ≤ 3 := maxExp_le fun i _ j _ => triB_small i j
    show (maxExp 48 48 triB : ℤ) + good.toNat + 48 ≤ LLL.longMax
    unfold LLL.longMax
    omega
  refine ⟨good, fun recB => ?_⟩
  obtain ⟨b', k1, -, k3, -⟩ := C90_cvp_partial (tri_accurate h1) hp (by show 2 ≤ 48; decide) le_rfl (by norm_num [triCfg]) (by norm_num [triCfg]) triB_indep hm (fun _ _ => 9) (fun _ _ => 8) (fun _ _ => none) recB (fun _ => 0) 5002 (by show good.toNat + 2 ≤ 5002; omega) (fun r hr => tri_fits h2 _ _ r hr) ht
  exact ⟨b', k1, k3⟩

end Cli
end Fplll

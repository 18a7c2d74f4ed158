import Verif.Model.SvpCmd
import Verif.Props.SVPApriori
import Verif.Props.WrapperOk
import Verif.Props.Cli

/-!
# C86: `shortest_vector` and `fplll -a svp` with all the rounding
-/

open Finset

namespace Fplll
namespace SVP

open Enum Spec GSO ErrB

theorem provedR_congr (A : Arith) (fl up : ℚ → ℚ) (D : ℕ) (mu : ℕ → ℕ → ℚ) (r : ℕ → ℚ) (dat : ℕ → Dat) (sqRow : ℕ → ℤ)
    {sq sq' : ℕ → (ℕ → ℤ) → ℤ} (h : sq (lastUseful r (D - 1)) = sq' (lastUseful r (D - 1))) (fuel : ℕ) :
    provedR A fl up D mu r dat sqRow sq fuel = provedR A fl up D mu r dat sqRow sq' fuel := by
  unfold provedR
  dsimp only
  rw [h]

/-- **C86.**  `shortest_vector` with the proved method, for every basis of at most 52 vectors that is LLL-reduced with parameters close to (0.99, 0.51): it terminates, neither aborts nor fails, and returns the coordinates of a shortest vector of the lattice. -/
theorem C86_shortestVectorR {logU logD : ℚ → ℚ} (hA : LogOK (mpfr 53) logU logD) {D n : ℕ} (hD0 : 1 ≤ D) (hD : D ≤ 52) (hn : D ≤ n) {b : Mat ℤ} (hind : Indep D n (basisQ b))
    {δ η : ℚ} (hlll : LLLReduced n D (basisQ b) δ η) (hδ : 989 / 1000 ≤ δ) (hδ1 : δ ≤ 1) (hη : 1 / 2 ≤ η) (hη1 : η ≤ 511 / 1000) (jz : Mat ℤ) (jf : ∀ P, Mat (Rd (rp rhe P))) :
    ∃ N, ∀ fuel, N ≤ fuel → ∃ x, shortestVectorR logU logD D n b jz jf fuel = .done (some x) ∧ IsShortest D n b x := by
  obtain ⟨rho, p, hp⟩ := minPrec_example logU logD hD0
  obtain ⟨N, hN⟩ := C86_shortest_vector hA hD0 hD (hD0.trans hn) hind hlll hδ hδ1 hη hη1 hp (P := (max 53 (p + 10)).toNat) (by omega) false false false
    (fun _ _ => 0) (fun _ _ => 0) jz (jf _) rfl
  refine ⟨N, fun fuel hf => ?_⟩
  obtain ⟨x, h1, h2⟩ := hN fuel hf
  refine ⟨x, ?_, h2⟩
  unfold shortestVectorR
  rw [if_neg (by omega), if_neg (by omega), hp]
  dsimp only
  rw [← h1]
  generalize (updateGso (mk0 D n true false false false b (fun _ _ => 0) (fun _ _ => 0) jz (jf (max 53 (p + 10)).toNat))).2 = g
  have e1 : (fun i => dotZ n (b i) (b i)) = fun i => sqLen n (b i) := by
    funext i
    rw [dotZ_eq]
    exact sum_congr rfl fun c _ => (sq _).symm
  rw [e1]
  refine provedR_congr _ _ _ _ _ _ _ _ ?_ _
  funext x
  obtain ⟨-, l2, -⟩ := lastUseful_spec (rOf g) (D - 1)
  rw [sqZ_eq]
  apply sqLen_congr
  intro c hc
  rw [vecMat_eq, if_pos hc, comb_trunc (by omega)]

end SVP

namespace Wrapper

open ErrB

theorem Params.eps_nonneg {c : Cfg} {ε : ℚ} (hc : Params c ε) : 0 ≤ ε := by
  obtain ⟨A, logU, logD, rho, -, -, h⟩ := hc.prec
  by_contra hneg
  unfold computeMinPrec at h
  dsimp only at h
  split_ifs at h with h1 h2
  apply h2
  right; left
  unfold epsUsed
  rw [if_pos rfl]
  dsimp only
  split_ifs <;> linarith

end Wrapper

namespace Cli

open Wrapper Spec Gen ErrB

/-- **C86.**  `fplll -a svp` on linearly independent rows, at most 52, with the default output and every rounding of the program: a shortest non-zero vector of the lattice of the input is printed.  The assumptions on the LLL reduction are those of C85; nothing is assumed of
`double`, `long double` and `dpe_t` in it if they have too few bits for the dimension. -/
theorem C86_svp_cmd {w : World} {c : Cfg} {ε : ℚ} {logU logD : ℚ → ℚ} (hA : LogOK (mpfr 53) logU logD) (hw : Accurate w c) (hc : Params c ε) (hD : c.d ≤ 52) (hn : c.d ≤ c.n) (hδ : 9895 / 10000 ≤ c.delta) (hη : c.eta ≤ 51001 / 100000)
    {b : Mat ℤ} (hind : Indep c.d c.n (basisQ b)) (hm : Fits c b) (junk jz : Mat ℤ) (jf : ∀ P, Mat (Rd (rp rhe P))) (lllFuel : ℕ) (hf : c.goodPrec.toNat + 2 ≤ lllFuel)
    (hfit : ∀ r, lll c (lllRun w c.d c.n) lllFuel (mk c ⟨b, none, none⟩ junk) = some r → ∀ e ∈ r.2.log, Fits c e.inp.b) :
    ∃ N, ∀ fuel, N ≤ fuel → ∃ v, svpCmdR c (lllRun w c.d c.n) logU logD lllFuel fuel false ['s'] b junk jz jf = .ok ⟨none, some v⟩ ∧ v.length = c.n ∧ IsShortestVector c.d c.n b fun i => v.getD i 0 := by
  obtain ⟨m', h1, h2, h3⟩ := C85_lll_reduction (m := ⟨b, none, none⟩) hw hc hind (C85_default ⟨.wrapper, .mpz, none, 0, false⟩ rfl rfl (.inl ⟨rfl, rfl⟩)) hm junk lllFuel hf fun _ => hfit
  have hind' : Indep c.d c.n (basisQ m'.b) := Spec.Indep.of_lattice hind h2.1
  have hε : 0 ≤ ε := hc.eps_nonneg
  have hε1 := hc.eps
  have hd1 := hc.delta
  have he1 := hc.eta
  obtain ⟨N, hN⟩ := SVP.C86_shortestVectorR hA hc.dpos hD hn hind' h3 (by linarith) (by linarith) (by linarith) (by linarith) jz jf
  refine ⟨N, fun fuel hfuel => ?_⟩
  obtain ⟨x, k1, k2⟩ := hN fuel hfuel
  refine ⟨(List.range c.n).map (comb c.d m'.b x), ?_, by simp, ?_⟩
  · unfold svpCmdR
    simp only [h1, Bool.false_eq_true, if_false, if_true, k1]
    unfold svpFinish
    simp [vecMatChecked_eq]
  · have := isShortest_vector k2
    unfold IsShortestVector at this ⊢
    rw [h2.1] at this
    convert this using 2
    · funext i
      simp
    · simp
    · simp

/-- `-a svp` prints a shortest vector of the lattice of the 48 vectors `triB`, although all `double` numbers in the LLL reduction are NaN -/
example : ∃ logU logD good N, ∀ fuel, N ≤ fuel → ∃ v, svpCmdR (triCfg good) (lllRun nanWorld 48 48) logU logD 5002 fuel false ['s'] triB (fun _ _ => 9) (fun _ _ => 8) (fun _ _ _ => Rd.of 7) = .ok ⟨none, some v⟩ ∧
    v.length = 48 ∧ IsShortestVector 48 48 triB fun i => v.getD i 0 := by
  obtain ⟨logU, logD, hA⟩ := logOK_example
  obtain ⟨good, h1, h2, hp⟩ := tri_params
  have hm : Fits (triCfg good) triB := by
    unfold Fits
    have h1 : maxExp 48 48 triB ≤ 3 := maxExp_le fun i _ j _ => triB_small i j
    show (maxExp 48 48 triB : ℤ) + good.toNat + 48 ≤ LLL.longMax
    unfold LLL.longMax
    omega
  exact ⟨logU, logD, good, C86_svp_cmd hA (tri_accurate h1) hp (by show (48 : ℕ) ≤ 52; decide) le_rfl (by norm_num [triCfg]) (by norm_num [triCfg]) triB_indep hm _ _ _ 5002 (by show good.toNat + 2 ≤ 5002; omega) fun r hr => tri_fits h2 _ _ r hr⟩

end Cli
end Fplll

import Verif.Model.Cli
import Verif.Model.SVPRound
import Verif.Model.MinPrec
import Verif.Props.GsoErr

/-!
# Model of `shortest_vector` and of the action `svp` with all the rounding

Unlike `SVP.svpBasis` and `Cli.svpCmd`, nothing is computed exactly here that is not an integer in the code.
-/

namespace Fplll
namespace SVP

open Enum Spec GSO ErrB

/-- `shortest_vector(b, sol_coord, SVPM_PROVED, SVP_DEFAULT)`, svpcvp.cpp:84-241, for a `D × n` matrix (see `provedR` for simplifications).  `logU`, `logD`: `mpfr_log` in `gso_min_prec`, see `computeMinPrec`;
`jz`, `jf`: the contents of the new matrices of the GSO object.  The range of the exponents is not modelled. -/
def shortestVectorR (logU logD : ℚ → ℚ) (D n : ℕ) (b jz : Mat ℤ) (jf : ∀ P, Mat (Rd (rp rhe P))) (fuel : ℕ) : Outcome (Option (ℕ → ℤ)) :=
  if ¬ (0 < D ∧ 0 < n) then .abort
  else if ¬ D ≤ n then .abort
  else
    match computeMinPrec (mpfr 53) logU logD false D (r53 (99 / 100)) (r53 (51 / 100)) (r53 (3 / 100)) with
    | .abort => .abort
    | .ub => .ub
    | .ok rho p =>
      let P := (max 53 (p + 10)).toNat
      let g := ((mk0 D n true false false false b (fun _ _ => 0) (fun _ _ => 0) jz (jf P) : GSO (Rd (rp rhe P))).updateGso).2
      provedR (mpfr P) r53 toDoubleUp D (muOf g) (rOf g) (fun d => initDelta (mpfr P) P rho d (muOf g) (rOf g) r53)
        (fun i => dotZ n (b i) (b i)) (fun d x => sqZ n (vecMat D n (fun i => if i < d then x i else 0) b)) fuel

end SVP

namespace Cli

open Wrapper Spec

/-- `svpcvp` for the action `svp` and integers `mpz_t`, main.cpp:242-319, up to the printing; as `svpCmd`, with `shortestVectorR` for `shortest_vector` -/
def svpCmdR (c : Cfg) (run : Runner) (logU logD : ℚ → ℚ) (lllFuel fuel : ℕ) (noLll : Bool) (format : List Char) (b junk jz : Mat ℤ) (jf : ∀ P, Mat (Rd (rp rhe P))) : Run SvpOut :=
  let red : Run (Mat ℤ) :=
    if noLll then .ok b
    else
      match lllReduction c run lllFuel ⟨.wrapper, .mpz, none, 0, false⟩ ⟨b, none, none⟩ junk with
      | .abort => .abort
      | .outOfFuel => .outOfFuel
      | .done (s, m) => if s = .success then .ok m.b else .failed
  match red with
  | .abort => .abort
  | .ub => .ub
  | .outOfFuel => .outOfFuel
  | .failed => .failed
  | .ok b' =>
    match SVP.shortestVectorR logU logD c.d c.n b' jz jf fuel with
    | .done (some x) => svpFinish c.d c.n noLll (decide ('c' ∈ format)) (decide ('s' ∈ format)) b' x
    | .done none => .failed
    | .abort => .abort
    | .ub => .ub
    | .running => .outOfFuel

end Cli
end Fplll

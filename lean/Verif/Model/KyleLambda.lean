import Verif.Basic.Lstsq
import Verif.Basic.Np

/-! Models of `src/frds/measures/_kyle_lambda.py` and `src/frds/measures/_z_score.py`. -/
namespace Frds.Model
noncomputable section
open Frds Classical

/-- `_kyle_lambda.py` lines 4-22, `kyle_lambda`, on finite data. `L` is
`np.linalg.lstsq(., ., rcond=None)[0]`, which raises `LinAlgError` if the numbers of rows differ.
Simplification: NaN / inf entries (on which LAPACK's behaviour is unspecified) are excluded. -/
def kyleLambda (L : LstsqFn) (returns signedDollarVolume : List ℝ) : Except PyErr ℝ :=
  let rows : List (Fin 1 → ℝ) := signedDollarVolume.map fun v _ => v      -- line 20
  if rows.length ≠ returns.length then .error .linAlgError
  else
    let a := L 1 rows returns                                             -- line 21
    .ok (a 0 * 1000000)                                                   -- line 22

/-- `_z_score.py` lines 4-15, `z_score`. -/
def zScore (roa capitalRatio : XR) (pastRoas : List XR) : XR :=
  (roa + capitalRatio) / Np.std pastRoas                                  -- line 15

end
end Frds.Model

import Verif.Basic.Np

/-! Model of `src/frds/measures/_marginal_expected_shortfall.py` (1-D arrays). -/
namespace Frds.Model
noncomputable section
open Frds Classical

/-- an instance of `MarginalExpectedShortfall` -/
structure Mes where
  firm : List XR
  market : List XR

/-- `_marginal_expected_shortfall.py` lines 7-16, `__init__`. -/
def Mes.new (firm market : List XR) : Except PyErr Mes :=
  if firm.length ≠ market.length then .error .assertionError            -- line 14
  else .ok ⟨firm, market⟩

/-- `_marginal_expected_shortfall.py` lines 18-30, `estimate`.
`np.argwhere` (line 29) lists the indices where the comparison holds; indexing `firm_returns`
with that `(m, 1)` array and averaging (line 30) averages the firm returns of these days. -/
def Mes.estimate (m : Mes) (q : XR) : Except PyErr XR :=
  match q with
  | .fin q' =>
    if ¬ (0 ≤ q' ∧ q' ≤ 1) then .error .assertionError                  -- line 27
    else do
      let low ← Np.percentile m.market (q' * 100)                       -- line 28
      let worst := (List.zip m.firm m.market).filter fun p => p.2 < low -- line 29
      return Np.mean (worst.map Prod.fst)                               -- line 30
  | _ => .error .assertionError                                         -- line 27: inf, nan

end
end Frds.Model

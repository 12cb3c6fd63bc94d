import Verif.Model.Srisk
import Verif.Model.LrmesObj

/-! `SRISK.estimate` together with the LRMES objects it creates: `_srisk.py` lines 80-90 with `_long_run_mes.py` and the models
behind it (Model/LrmesObj). -/
namespace Frds.Model.SriskRun
noncomputable section
open Frds Frds.Model Frds.Model.LrmesObj

/-- what the code relies on: which compiled extensions are installed, the optimisers of the univariate and of the
correlation estimation, the generator (`seed`, `S`, `h`, number of observations to draw from) and the contents of the memory that
`np.empty_like` returns for the four arrays of a new object (any function of the series) -/
structure Machine where
  cppA : Bool
  cppM : Bool
  optu : Optimizer (XR × GjrVar)
  opt : Optimizer (XR × XR)
  draw : ℕ → ℕ → ℕ → ℕ → List (List ℕ)
  mem : List XR → List XR → (List XR × List XR) × (List XR × List XR)

/-- `LongRunMarginalExpectedShortfall(firm, market).estimate(h, S, C, seed)`: `_srisk.py` lines 81-83 and 88-90 -/
def lrmesFn (E : Machine) : LrmesFn := fun firm market h S C seed =>
  match LrmesObj.new firm market (E.mem firm market).1.1 (E.mem firm market).1.2 (E.mem firm market).2.1
      (E.mem firm market).2.2 with
  | .error e => .error e
  | .ok o => outcome (estimate E.cppA E.cppM E.optu E.opt ⟨C, E.draw seed S h⟩) o

end
end Frds.Model.SriskRun

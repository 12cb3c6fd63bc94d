import Verif.Model.Rounded

/-! The log-likelihood of the univariate volatility models and the objective of their estimation in rounded arithmetic. -/
namespace Frds.Model.Rounded
noncomputable section
open Frds Frds.Model Classical

variable (M : Machine)

local infixl:65 " +ᵣ " => Rounding.add (Machine.R M)
local infixl:65 " -ᵣ " => Rounding.sub (Machine.R M)
local infixl:70 " *ᵣ " => Rounding.mul (Machine.R M)
local infixl:70 " /ᵣ " => Rounding.div (Machine.R M)

/-- `_garch.py` line 170: `np.log(2 * np.pi)`; `np.pi` is the rounded number -/
def log2pi : XR := M.log (2 *ᵣ M.R.round (.fin Real.pi))

/-- `_garch.py` line 170, one observation (`resids**2.0` is computed as a product) -/
def likTerm (r s : XR) : XR := .fin (-(1 / 2)) *ᵣ (log2pi M +ᵣ M.log s +ᵣ r *ᵣ r /ᵣ s)

/-- `_garch.py` lines 158-171, `loglikelihood` (equal-length arrays) -/
def loglik (i : ℕ) (resids sigma2 : List XR) : XR := M.sum i (List.zipWith (likTerm M) resids sigma2)

/-- `_garch.py` lines 148-152: the residuals -/
def modelResids (zeroMean : Bool) (returns : List XR) (mu : XR) : List XR :=
  if zeroMean then returns else returns.map fun x => x -ᵣ mu

/-- `_garch.py` lines 130-156, `loglikelihood_model` of `GARCHModel` -/
def garchObjective (cpp zeroMean : Bool) (returns : List XR) (mu : XR) (p : GarchVar) (backcast : XR)
    (bounds : List (XR × XR)) : Except PyErr XR := do
  let resids := modelResids M zeroMean returns mu
  let s2 ← garchVariance M cpp p resids backcast bounds
  return -loglik M 0 resids s2

/-- `_garch.py` lines 130-156, `loglikelihood_model` of `GJRGARCHModel` -/
def gjrObjective (cpp zeroMean : Bool) (returns : List XR) (mu : XR) (p : GjrVar) (backcast : XR)
    (bounds : List (XR × XR)) : Except PyErr XR := do
  let resids := modelResids M zeroMean returns mu
  let s2 ← gjrVariance M cpp p resids backcast bounds
  return -loglik M 0 resids s2

end
end Frds.Model.Rounded

import Verif.Model.RoundedCorr

/-! Starting values and the fit of the dynamic-correlation model in rounded arithmetic. -/
namespace Frds.Model.Rounded
noncomputable section
open Frds Frds.Model Classical

variable (M : Machine)

local infixl:65 " +ᵣ " => Rounding.add (Machine.R M)
local infixl:65 " -ᵣ " => Rounding.sub (Machine.R M)
local infixl:70 " *ᵣ " => Rounding.mul (Machine.R M)
local infixl:70 " /ᵣ " => Rounding.div (Machine.R M)

/-- `np.linspace(start, stop, 10)[k]`: `k * ((stop - start) / 9) + start`, the last entry is `stop` itself -/
def linspaceAt (start stop : ℝ) (k : ℕ) : XR :=
  if k = 9 then M.R.rd stop
  else .fin (k : ℝ) *ᵣ ((M.R.rd stop -ᵣ M.R.rd start) /ᵣ .fin 9) +ᵣ M.R.rd start

/-- `_mgarch.py` lines 307-308 and 311: `itertools.product` of the two grids -/
def dccGrid : List (XR × XR) :=
  (List.range 10).flatMap fun k => (List.range 10).map fun j => (linspaceAt M (1 / 100) (1 / 2) k, linspaceAt M (6 / 10) (95 / 100) j)

/-- `_mgarch.py` lines 301-317, `starting_values`, for any objective (`max_ll` stays `-inf`) -/
def dccStart (obj : XR × XR → Except PyErr XR) : Except PyErr (XR × XR) :=
  (dccGrid M).foldlM (fun best p =>
    if 1 ≤ p.1 +ᵣ p.2 then .ok best                                          -- 312-313
    else do
      let v ← obj p                                                          -- 314
      return if .ninf < -v then p else best) (M.R.rd (1 / 100), M.R.rd (8 / 10))   -- 310, 315-316

/-- `_mgarch.py` lines 319-406, `loglikelihood_model` on the univariate models as they are estimated (`f1`, `f2`): the long-run matrix of the
Python kernel is `np.corrcoef` of the standardised residuals -/
def dccLoglik (pw : ℕ → XR) (i : ℕ) (cpp zeroMean1 zeroMean2 : Bool) (returns1 returns2 : List XR) (f1 f2 : FittedUni) (p : XR × XR) :
    Except PyErr XR := do
  let z1 ← uniStd M pw i cpp zeroMean1 returns1 f1
  let z2 ← uniStd M pw i cpp zeroMean2 returns2 f2
  dccFitObjective M pw i cpp zeroMean1 zeroMean2 (npCov M i z1 z2) p.1 p.2 returns1 returns2 f1 f2

/-- `_mgarch.py` lines 260-298, `GARCHModel_DCC.fit` after the two univariate models have been estimated: the stored `a`, `b` and log-likelihood
(`none`: no success). The optimiser gets the bounds and the constraint as exact functions; it is any function of them. -/
def dccFit (pw : ℕ → XR) (i : ℕ) (cpp zeroMean1 zeroMean2 : Bool) (returns1 returns2 : List XR) (f1 f2 : FittedUni) (opt : Optimizer (XR × XR)) :
    Except PyErr (Option ((XR × XR) × XR)) := do
  let x0 ← dccStart M (dccLoglik M pw i cpp zeroMean1 zeroMean2 returns1 returns2 f1 f2)        -- 260
  let run := opt dccFeas (objValue (dccLoglik M pw i cpp zeroMean1 zeroMean2 returns1 returns2 f1 f2)) x0   -- 283-292
  return if run.success then some (run.x, -run.f) else none                  -- 293-298

end
end Frds.Model.Rounded

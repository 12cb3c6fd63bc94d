import Verif.Model.RoundedDccFit

/-! The correlation step of the asymmetric dynamic-correlation model in rounded arithmetic: `GJRGARCHModel_DCC` (`_mgarch.py` lines 409-474)
inherits every method of `GARCHModel_DCC` and holds two `GJRGARCHModel`. -/
namespace Frds.Model.Rounded
noncomputable section
open Frds Frds.Model Classical

variable (M : Machine)

/-- what a fitted `GJRGARCHModel` holds that the DCC objective reads (`_garch.py` lines 97-101 and 148-154, inherited): the mean at which
`resids` was stored, the candidate of the last evaluation of its objective, which left `sigma2`, and the reported log-likelihood -/
structure FittedGjr where
  mu : XR
  lastMu : XR
  last : GjrVar
  ll : XR

/-- `_mgarch.py` lines 329-336 on such a model: its standardised residuals (`sigma2` from `_garch.py` lines 408-437) -/
def uniStdGjr (pw : ℕ → XR) (i : ℕ) (cpp zeroMean : Bool) (returns : List XR) (f : FittedGjr) : Except PyErr (List XR) := do
  let b ← varianceBounds M pw i (prepResids M zeroMean i returns)
  let s2 ← gjrVariance M cpp f.last (modelResids M zeroMean returns f.lastMu) (backcast M pw i (prepResids M zeroMean i returns)) b
  return stdResid M (modelResids M false returns f.mu) s2

/-- `_mgarch.py` lines 319-354 (inherited), `loglikelihood_model`, from the returns; `cov` is what `np.cov` computes inside `np.corrcoef`
(Python kernel only) -/
def gjrDccFitObjective (pw : ℕ → XR) (i : ℕ) (cpp zeroMean1 zeroMean2 : Bool) (cov : QMat) (a b : XR) (returns1 returns2 : List XR)
    (f1 f2 : FittedGjr) : Except PyErr XR := do
  let z1 ← uniStdGjr M pw i cpp zeroMean1 returns1 f1
  let z2 ← uniStdGjr M pw i cpp zeroMean2 returns2 f2
  return dccObjective M i f1.ll f2.ll (List.zip z1 z2) (dccKernel M cpp cov a b (List.zip z1 z2))

/-- the same with the covariances computed from the standardised residuals (`_mgarch.py` lines 319-406, inherited) -/
def gjrDccLoglik (pw : ℕ → XR) (i : ℕ) (cpp zeroMean1 zeroMean2 : Bool) (returns1 returns2 : List XR) (f1 f2 : FittedGjr) (p : XR × XR) :
    Except PyErr XR := do
  let z1 ← uniStdGjr M pw i cpp zeroMean1 returns1 f1
  let z2 ← uniStdGjr M pw i cpp zeroMean2 returns2 f2
  gjrDccFitObjective M pw i cpp zeroMean1 zeroMean2 (npCov M i z1 z2) p.1 p.2 returns1 returns2 f1 f2

/-- `_mgarch.py` lines 260-298 through line 474, `GJRGARCHModel_DCC.fit` after the two univariate models have been estimated: the stored `a`,
`b` and log-likelihood (`none`: no success). The optimiser gets the bounds and the constraint as exact functions; it is any function of them. -/
def gjrDccFit (pw : ℕ → XR) (i : ℕ) (cpp zeroMean1 zeroMean2 : Bool) (returns1 returns2 : List XR) (f1 f2 : FittedGjr) (opt : Optimizer (XR × XR)) :
    Except PyErr (Option ((XR × XR) × XR)) := do
  let x0 ← dccStart M (gjrDccLoglik M pw i cpp zeroMean1 zeroMean2 returns1 returns2 f1 f2)        -- 260
  let run := opt dccFeas (objValue (gjrDccLoglik M pw i cpp zeroMean1 zeroMean2 returns1 returns2 f1 f2)) x0   -- 283-292
  return if run.success then some (run.x, -run.f) else none                  -- 293-298

end
end Frds.Model.Rounded

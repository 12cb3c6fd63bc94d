import Verif.Model.RoundedLik
import Verif.Model.RoundedCcc
import Verif.Model.RoundedDcc

/-! The preparation of a volatility model in rounded arithmetic: backcast, variance bounds, and the objective of the fit with them. -/
namespace Frds.Model.Rounded
noncomputable section
open Frds Frds.Model Classical

variable (M : Machine)

local infixl:65 " +ᵣ " => Rounding.add (Machine.R M)
local infixl:65 " -ᵣ " => Rounding.sub (Machine.R M)
local infixl:70 " *ᵣ " => Rounding.mul (Machine.R M)
local infixl:70 " /ᵣ " => Rounding.div (Machine.R M)

/-- `ndarray.var()`, the variance with divisor `n` (the sums are `i` and `i + 1`); used in `_garch.py` line 263 -/
def npVar (i : ℕ) (x : List XR) : XR :=
  mean M (i + 1) (x.map fun v => (v -ᵣ mean M i x) *ᵣ (v -ᵣ mean M i x))

/-- `_garch.py` lines 257 and 306: `0.94 ** np.arange(tau)`, given the machine's powers `pw` of 0.94 -/
def decayWeights (pw : ℕ → XR) (tau : ℕ) : List XR := (List.range tau).map pw

/-- `_garch.py` lines 294-310, `backcast` (the weights are added by Python's `sum`) -/
def backcast (pw : ℕ → XR) (i : ℕ) (resids : List XR) : XR :=
  let tau := min 75 resids.length                                            -- 304
  let w := decayWeights pw tau                                               -- 306
  let w := w.map fun x => x /ᵣ M.R.foldSum w                                 -- 307
  M.sum i (List.zipWith (fun r v => (r *ᵣ r) *ᵣ v) (resids.take tau) w)      -- 309

/-- `_garch.py` lines 236-270, `variance_bounds` (`np.dot` of line 259 as a sum of rounded products) -/
def varianceBounds (pw : ℕ → XR) (i : ℕ) (resids : List XR) : Except PyErr (List (XR × XR)) :=
  let tau := min 75 resids.length                                            -- 254
  let weights := decayWeights pw tau                                         -- 257
  let weights := weights.map fun x => x /ᵣ M.sum i weights                   -- 258
  let initial := M.sum (i + 1) (List.zipWith (fun w s => w *ᵣ s) weights ((resids.take tau).map fun r => r *ᵣ r))  -- 259
  let lo := npVar M (i + 2) resids /ᵣ .fin 100000000                         -- 263
  let hi := .fin 10000000 *ᵣ (1 +ᵣ npMaxList (resids.map fun r => r *ᵣ r))   -- 264
  boundRows M resids initial lo hi                                           -- 261, 266-268

/-- `_garch.py` lines 111-114: the residuals that `preparation` uses -/
def prepResids (zeroMean : Bool) (i : ℕ) (returns : List XR) : List XR := modelResids M zeroMean returns (mean M i returns)

/-- the objective that `GARCHModel.fit` minimises (`_garch.py` lines 86-94): backcast and bounds of `preparation` (lines 104-128), then
`loglikelihood_model` (lines 130-156) -/
def garchFitObjective (pw : ℕ → XR) (i : ℕ) (cpp zeroMean : Bool) (returns : List XR) (mu : XR) (p : GarchVar) : Except PyErr XR := do
  let b ← varianceBounds M pw i (prepResids M zeroMean i returns)
  garchObjective M cpp zeroMean returns mu p (backcast M pw i (prepResids M zeroMean i returns)) b

/-- the same for `GJRGARCHModel` (`_garch.py` lines 386-395) -/
def gjrFitObjective (pw : ℕ → XR) (i : ℕ) (cpp zeroMean : Bool) (returns : List XR) (mu : XR) (p : GjrVar) : Except PyErr XR := do
  let b ← varianceBounds M pw i (prepResids M zeroMean i returns)
  gjrObjective M cpp zeroMean returns mu p (backcast M pw i (prepResids M zeroMean i returns)) b

/-- `_mgarch.py` lines 123-156, `GARCHModel_CCC.loglikelihood_model`: backcasts and bounds are computed from the residuals of the
candidate -/
def cccFitObjective (pw : ℕ → XR) (i : ℕ) (cpp : Bool) (returns1 returns2 : List XR) (p : CccVec) : Except PyErr XR := do
  let b1 ← varianceBounds M pw i (modelResids M false returns1 p.mu1)
  let b2 ← varianceBounds M pw i (modelResids M false returns2 p.mu2)
  cccObjective M cpp i returns1 returns2 p (backcast M pw i (modelResids M false returns1 p.mu1))
    (backcast M pw i (modelResids M false returns2 p.mu2)) b1 b2

/-- what a fitted univariate model holds that the DCC objective reads: the mean at which `resids` was stored (`_garch.py` lines 97-101),
the candidate of the last evaluation of its objective, which left `sigma2` (lines 148-154), and the reported log-likelihood -/
structure FittedUni where
  mu : XR
  lastMu : XR
  last : GarchVar
  ll : XR

/-- `_mgarch.py` lines 329-336: the standardised residuals of a fitted univariate model -/
def uniStd (pw : ℕ → XR) (i : ℕ) (cpp zeroMean : Bool) (returns : List XR) (f : FittedUni) : Except PyErr (List XR) := do
  let b ← varianceBounds M pw i (prepResids M zeroMean i returns)
  let s2 ← garchVariance M cpp f.last (modelResids M zeroMean returns f.lastMu) (backcast M pw i (prepResids M zeroMean i returns)) b
  return stdResid M (modelResids M false returns f.mu) s2

/-- `_mgarch.py` lines 319-354, `GARCHModel_DCC.loglikelihood_model`, from the returns; `cov` is what `np.cov` computes inside
`np.corrcoef` (Python kernel only) -/
def dccFitObjective (pw : ℕ → XR) (i : ℕ) (cpp zeroMean1 zeroMean2 : Bool) (cov : QMat) (a b : XR) (returns1 returns2 : List XR)
    (f1 f2 : FittedUni) : Except PyErr XR := do
  let z1 ← uniStd M pw i cpp zeroMean1 returns1 f1
  let z2 ← uniStd M pw i cpp zeroMean2 returns2 f2
  return dccObjective M i f1.ll f2.ll (List.zip z1 z2) (dccKernel M cpp cov a b (List.zip z1 z2))

end
end Frds.Model.Rounded

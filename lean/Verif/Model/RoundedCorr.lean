import Verif.Model.RoundedStart

/-! `np.corrcoef` of two series and the fit of the constant-correlation model in rounded arithmetic. -/
namespace Frds.Model.Rounded
noncomputable section
open Frds Frds.Model Classical

variable (M : Machine)

local infixl:65 " -ᵣ " => Rounding.sub (Machine.R M)
local infixl:70 " *ᵣ " => Rounding.mul (Machine.R M)
local infixl:70 " /ᵣ " => Rounding.div (Machine.R M)

/-- one entry of `np.cov`: the products of the centred values are summed in some order, the sum is multiplied by the reciprocal of `n - 1` -/
def covEntry (i : ℕ) (dx dy : List XR) : XR :=
  M.sum i (List.zipWith (fun u v => u *ᵣ v) dx dy) *ᵣ (1 /ᵣ M.R.round (.fin ((dx.length : ℝ) - 1)))

/-- values minus their computed mean -/
def centred (i : ℕ) (x : List XR) : List XR := x.map fun v => v -ᵣ mean M i x

/-- `np.cov` of two series of one length (at least two observations; with fewer NumPy warns and divides by zero) -/
def npCov (i : ℕ) (x y : List XR) : QMat :=
  ⟨covEntry M (i + 2) (centred M i x) (centred M i x), covEntry M (i + 3) (centred M (i + 1) y) (centred M (i + 1) y),
   covEntry M (i + 4) (centred M i x) (centred M (i + 1) y)⟩

/-- the entry of `np.corrcoef` off the diagonal, in the row of `x` -/
def npCorr (i : ℕ) (x y : List XR) : XR := (corrcoef M (npCov M i x y)).q12

/-- `_mgarch.py` lines 66-120, `GARCHModel_CCC.fit` after the two univariate models have been estimated: `f1`, `f2` are what they hold, `v1`, `v2`
their estimated variance parameters. The optimiser gets the bounds as exact numbers; it is any function of them. -/
def cccFit (pw : ℕ → XR) (i : ℕ) (cpp : Bool) (returns1 returns2 : List XR) (f1 f2 : FittedUni) (v1 v2 : GarchVar) (opt : Optimizer CccVec) :
    Except PyErr (Option (CccVec × XR)) := do
  let z1 ← uniStd M pw i cpp false returns1 f1                              -- 68
  let z2 ← uniStd M pw i cpp false returns2 f2                              -- 69
  if z1.length ≠ z2.length then .error .valueError                          -- 70
  else
    let run := opt cccFeas (objValue (cccFitObjective M pw i cpp returns1 returns2)) ⟨f1.mu, v1, f2.mu, v2, npCorr M i z2 z1⟩  -- 70-117
    return if run.success then some (run.x, -run.f) else none               -- 118-121

end
end Frds.Model.Rounded

import Verif.Model.RoundedPrep

/-! Starting values and the fits of the univariate models in rounded arithmetic. -/
namespace Frds.Model.Rounded
noncomputable section
open Frds Frds.Model Classical

variable (M : Machine)

local infixl:65 " +ᵣ " => Rounding.add (Machine.R M)
local infixl:65 " -ᵣ " => Rounding.sub (Machine.R M)
local infixl:70 " *ᵣ " => Rounding.mul (Machine.R M)
local infixl:70 " /ᵣ " => Rounding.div (Machine.R M)

/-- `_garch.py` lines 212 and 475: the literals are the nearest numbers of the format -/
def persistenceGrid : List XR := [1 / 2, 7 / 10, 9 / 10, 98 / 100].map M.R.rd

/-- `_garch.py` lines 214 and 477 -/
def alphaGrid : List XR := [1 / 100, 1 / 20, 1 / 10, 1 / 5].map M.R.rd

/-- `_garch.py` lines 220-227 -/
def garchCands (var : XR) : List GarchVar :=
  (alphaGrid M).flatMap fun a => (persistenceGrid M).map fun p => ⟨var *ᵣ (1 -ᵣ p), a, p -ᵣ a⟩

/-- `_garch.py` lines 486-493 -/
def gjrCands (var : XR) : List GjrVar :=
  (alphaGrid M).flatMap fun a => (alphaGrid M).flatMap fun g => (persistenceGrid M).map fun p =>
    ⟨var *ᵣ (1 -ᵣ p), a, g, p -ᵣ a -ᵣ g /ᵣ 2⟩

/-- `_garch.py` lines 218-234 and 484-498: `max_likelihood` stays `-inf` -/
def gridSearch {P : Type} (cands : List P) (path : P → Except PyErr (List XR)) (resids : List XR) : Except PyErr (Option P) :=
  cands.foldlM (fun best p => do
    let s2 ← path p
    return if .ninf < -(loglik M 0 resids s2) then some p else best) none

/-- `_garch.py` lines 201-234, called from `preparation` -/
def garchStart (pw : ℕ → XR) (i : ℕ) (cpp zeroMean : Bool) (returns : List XR) : Except PyErr (Option GarchVar) := do
  let resids := prepResids M zeroMean i returns
  let b ← varianceBounds M pw i resids
  gridSearch M (garchCands M (npVar M i returns)) (fun p => garchVariance M cpp p resids (backcast M pw i resids) b) resids

/-- `_garch.py` lines 463-498 -/
def gjrStart (pw : ℕ → XR) (i : ℕ) (cpp zeroMean : Bool) (returns : List XR) : Except PyErr (Option GjrVar) := do
  let resids := prepResids M zeroMean i returns
  let b ← varianceBounds M pw i resids
  gridSearch M (gjrCands M (npVar M i returns)) (fun p => gjrVariance M cpp p resids (backcast M pw i resids) b) resids

/-- what the optimiser is given as objective (an exception of the objective would propagate; NaN here) -/
def objValue {P : Type} (obj : P → Except PyErr XR) (p : P) : XR :=
  match obj p with
  | .ok v => v
  | .error _ => .nan

/-- `fit` of a fresh object (`_garch.py` lines 51-102, 356-406): preparation, optimisation, the stored parameters (`none`: no success).
An empty list of starting values has the wrong length for `minimize`, which raises `ValueError`. -/
def fitWith {V : Type} (start : Except PyErr (Option V)) (obj : XR × V → Except PyErr XR) (feas : Bool → Feas (XR × V))
    (zeroMean : Bool) (mean0 : XR) (opt : Optimizer (XR × V)) : Except PyErr (Option (XR × V × XR)) := do
  match ← start with
  | none => .error .valueError
  | some v0 =>
    let run := opt (feas zeroMean) (objValue obj) (if zeroMean then 0 else mean0, v0)                    -- 87-94
    return if run.success then some (if zeroMean then 0 else run.x.1, run.x.2, -run.f) else none       -- 95-102

/-- `GARCHModel.fit` -/
def garchFit (pw : ℕ → XR) (i : ℕ) (cpp zeroMean : Bool) (returns : List XR) (opt : Optimizer (XR × GarchVar)) :
    Except PyErr (Option (XR × GarchVar × XR)) :=
  fitWith (garchStart M pw i cpp zeroMean returns) (fun p => garchFitObjective M pw i cpp zeroMean returns p.1 p.2) garchFeas zeroMean
    (mean M i returns) opt

/-- `GJRGARCHModel.fit` -/
def gjrFit (pw : ℕ → XR) (i : ℕ) (cpp zeroMean : Bool) (returns : List XR) (opt : Optimizer (XR × GjrVar)) :
    Except PyErr (Option (XR × GjrVar × XR)) :=
  fitWith (gjrStart M pw i cpp zeroMean returns) (fun p => gjrFitObjective M pw i cpp zeroMean returns p.1 p.2) gjrFeas zeroMean
    (mean M i returns) opt

end
end Frds.Model.Rounded

import Verif.Model.Crash
import Verif.Model.DccAny

/-! Model of `src/frds/measures/_long_run_mes.py` as an object with a history: the constructor (lines 15-37) and `estimate`
(lines 39-134) with its effects on the two univariate models and the correlation model, interruptible at any attribute write.
The object is the `GJRGARCHModel_DCC` of line 37; `firm_model` and `market_model` are its two univariate models. -/
namespace Frds.Model.LrmesObj
noncomputable section
open Frds Frds.Model Frds.Model.Crash Frds.Model.Crash.Run Classical

/-- `np.log(1 + x)`, then `*= 100` (lines 28-34) -/
def pctLog (x : XR) : XR := XR.log (1 + x) * 100

/-- the constructor, lines 15-37, on one-dimensional arrays. The contents of the memory that `np.empty_like` returns for `resids`
and `sigma2` of the two models are arguments. -/
def new (firm market resids1 sigma1 resids2 sigma2 : List XR) : Except PyErr (DccObj GjrVar) :=
  if firm.length ≠ market.length then .error .assertionError                -- 30
  else .ok { model1 := newModel (firm.map pctLog) resids1 sigma1            -- 35
             model2 := newModel (market.map pctLog) resids2 sigma2 }        -- 36

/-- `parameters` of a univariate model, NaN before a successful estimation (`_garch.py` lines 347-354) -/
def parsOf (m : GarchObj GjrVar) : GjrParams :=
  match m.params with
  | none => ⟨.nan, .nan, .nan, .nan, .nan⟩
  | some (mu, v, _) => ⟨mu, v.omega, v.alpha, v.gamma, v.beta⟩

/-- the attributes `estimate` reads, and the conditional correlations -/
def view (o : DccObj GjrVar) (rho : List XR) : DccFit where
  success := o.success
  firmVar := o.model1.sigma2
  firmResid := o.model1.resids
  mktVar := o.model2.sigma2
  mktResid := o.model2.resids
  rho := rho
  a := o.params.a
  b := o.params.b
  pi := parsOf o.model1
  pm := parsOf o.model2

/-- lines 66-134. `early` holds the arrays read in lines 59-62, before `conditional_correlations` re-estimates the univariate
models; the starting values of the simulations and the parameters are read afterwards, in lines 93-128: `late`. -/
def simulate (cpp : Bool) (early late : DccFit) (C : XR) (idx : List (List ℕ)) : Except PyErr PyFloat :=
  if idx = [] then .ok ⟨0, false⟩                                           -- S = 0
  else do
    let zi := stdResid early.firmResid early.firmVar                        -- 68
    let zm := stdResid early.mktResid early.mktVar                          -- 67
    let x ← simArgsOf late C                                                -- 93-128
    return lrmesResult cpp (accumulate cpp { x with q00 := npCorr zi zi, q11 := npCorr zm zm, q10 := npCorr zm zi }   -- 85
      (idx.map (pathOf early)))                                             -- 76-81

/-- the arguments of a call: `C`, and what the generator seeded with `random_seed` draws for `S` and `h`, given the number of
observations (lines 51, 76-79). A call with `random_seed=None` is not modelled. -/
structure Call where
  C : XR
  draw : ℕ → List (List ℕ)

/-- lines 39-134, `estimate`. `cppA`, `cppM`: whether the compiled extensions of the algorithms and of the measures are
installed; `optu`, `opt`: `scipy.optimize.minimize` in the univariate fits and in the correlation fit. -/
def estimate (cppA cppM : Bool) (optu : Optimizer (XR × GjrVar)) (opt : Optimizer (XR × XR)) (c : Call) :
    Run (DccObj GjrVar) PyFloat := do
  let _ ← dccFitRun cppA (uFitGjrRun cppA optu) opt                         -- 54
  let o ← get
  if ¬ o.success then lift (.error .runtimeError)                           -- 55-56
  else
    refitRun (uFitGjrRun cppA optu)                                         -- 65
    let o' ← get
    let rho ← lift (dccKernel cppA o.params.a o.params.b (stdResid o'.model1.resids o'.model1.sigma2)
      (stdResid o'.model2.resids o'.model2.sigma2))                         -- 64-65
    lift (simulate cppM (view o rho) (view o' rho) c.C (c.draw (xiSeries (view o rho)).length))

/-- the value or the exception of a call -/
def outcome {S A : Type} (m : Run S A) (s : S) : Except PyErr A := (m s).2

/-- the object after a call that returns or raises -/
def afterCall {S A : Type} (m : Run S A) (s : S) : S := final s (m s).1

/-- the objects that result from `o` by calls of `estimate` that each run to their end, by returning or by raising -/
inductive Calls (est : Call → Run (DccObj GjrVar) PyFloat) (o : DccObj GjrVar) : DccObj GjrVar → Prop
  | new : Calls est o o
  | call {x : DccObj GjrVar} (c : Call) (h : Calls est o x) : Calls est o (afterCall (est c) x)

/-- the objects that result from `o` by calls of `estimate`, each of which may also be interrupted at any point -/
inductive Interrupted (est : Call → Run (DccObj GjrVar) PyFloat) (o : DccObj GjrVar) : DccObj GjrVar → Prop
  | new : Interrupted est o o
  | call {x y : DccObj GjrVar} (c : Call) (h : Interrupted est o x) (hy : y ∈ crashStates (est c) x) : Interrupted est o y

end
end Frds.Model.LrmesObj

import Verif.Model.LrmesObj

/-! Model of a program in which several correlation models are built on the same univariate models
(`src/frds/algorithms/_mgarch.py` lines 217-247 and 435-465: `returns1` and `returns2` may be `GARCHModel` objects, of which the
correlation model keeps a reference; "Estimated GARCHModel can be used to save computation time"). -/
namespace Frds.Model.Shared
noncomputable section
open Frds Frds.Model Frds.Model.Crash Frds.Model.Crash.Run Frds.Model.LrmesObj Classical

/-- The objects of the program: univariate models, and the attributes `estimation_success` and `parameters` of the correlation
models. The univariate models that a correlation model refers to never change: they are an argument `wire` of the operations. -/
structure World (V ι κ : Type) where
  model : ι → GarchObj V
  success : κ → Bool
  params : κ → DccPars V

variable {V ι κ : Type}

/-- a correlation model with the univariate models it refers to -/
def pull (wire : κ → ι × ι) (k : κ) (w : World V ι κ) : DccObj V where
  model1 := w.model (wire k).1
  model2 := w.model (wire k).2
  success := w.success k
  params := w.params k

/-- the effect on all objects when a correlation model and the univariate models it refers to change to `o`. Simplification: the two
references of a correlation model are to different objects. -/
def push (wire : κ → ι × ι) (k : κ) (w : World V ι κ) (o : DccObj V) : World V ι κ where
  model := fun i => if i = (wire k).1 then o.model1 else if i = (wire k).2 then o.model2 else w.model i
  success := fun k' => if k' = k then o.success else w.success k'
  params := fun k' => if k' = k then o.params else w.params k'

/-- the effect on all objects when a univariate model changes -/
def pushModel (i : ι) (w : World V ι κ) (m : GarchObj V) : World V ι κ :=
  { w with model := fun j => if j = i then m else w.model j }

/-- the public methods a program may call -/
inductive Op (ι κ : Type)
  /-- `fit` of a univariate model -/
  | fit (i : ι)
  /-- `fit` of a correlation model (`_mgarch.py` lines 249-299, 467-473) -/
  | dcc (k : κ)
  /-- `starting_values` (lines 301-317) -/
  | start (k : κ)
  /-- `loglikelihood_model` (lines 319-354) -/
  | loglik (k : κ) (p : XR × XR)
  /-- `conditional_correlations` (lines 356-406) -/
  | corr (k : κ) (a b : XR)

/-- `_mgarch.py` lines 356-406, `conditional_correlations`, as a sequence of writes -/
def condCorrRun (cpp : Bool) (fitU : Run (GarchObj V) Unit) (a b : XR) : Run (DccObj V) (List XR) := do
  refitRun fitU                                                             -- 367-368
  let o ← get
  lift (dccKernel cpp a b (stdResid o.model1.resids o.model1.sigma2)
    (stdResid o.model2.resids o.model2.sigma2))                             -- 369-406

/-- one call; its value is dropped -/
def opRun (cpp : Bool) (fitU : Run (GarchObj V) Unit) (opt : Optimizer (XR × XR)) (wire : κ → ι × ι) :
    Op ι κ → Run (World V ι κ) Unit
  | .fit i => on (fun w => w.model i) (pushModel i) fitU
  | .dcc k => andThen (on (pull wire k) (push wire k) (dccFitRun cpp fitU opt)) fun _ => ret ()
  | .start k => andThen (on (pull wire k) (push wire k) (dccStartRun cpp fitU)) fun _ => ret ()
  | .loglik k p => andThen (on (pull wire k) (push wire k) (dccEvalRun cpp fitU p)) fun _ => ret ()
  | .corr k a b => andThen (on (pull wire k) (push wire k) (condCorrRun cpp fitU a b)) fun _ => ret ()

/-- the worlds that result from `w0` by calls that each run to their end, by returning or by raising -/
inductive Calls (op : Op ι κ → Run (World V ι κ) Unit) (w0 : World V ι κ) : World V ι κ → Prop
  | start : Calls op w0 w0
  | call {w : World V ι κ} (c : Op ι κ) (h : Calls op w0 w) : Calls op w0 (afterCall (op c) w)

/-- the worlds that result from `w0` by calls each of which may also be interrupted at any point -/
inductive Interrupted (op : Op ι κ → Run (World V ι κ) Unit) (w0 : World V ι κ) : World V ι κ → Prop
  | start : Interrupted op w0 w0
  | call {w w' : World V ι κ} (c : Op ι κ) (h : Interrupted op w0 w) (hw : w' ∈ crashStates (op c) w) : Interrupted op w0 w'

end
end Frds.Model.Shared

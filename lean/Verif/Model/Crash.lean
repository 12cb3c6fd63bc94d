import Verif.Model.Mgarch
import Verif.Model.Pin

/-! The estimation methods as sequences of attribute writes (`src/frds/algorithms/_garch.py` lines 51-156 and 356-406,
`src/frds/algorithms/_mgarch.py` lines 57-121, 249-354 and 356-406, `src/frds/measures/_probability_of_informed_trading.py`
lines 49-103), so that a call may raise, or be interrupted (`KeyboardInterrupt`, a signal handler, memory exhaustion inside
NumPy or SciPy), at any point. -/
namespace Frds.Model.Crash
noncomputable section
open Frds Frds.Model Classical

/-- A method call on an object of type `S`: the states of the object after each attribute write, in order, and the outcome.
Simplification: an attribute write is atomic, which it is in CPython. -/
def Run (S A : Type) : Type := S → List S × Except PyErr A

/-- the last state -/
def final {S : Type} (s : S) (l : List S) : S := (s :: l).getLast (by simp)

namespace Run
variable {S T A B P : Type}

def ret (a : A) : Run S A := fun _ => ([], .ok a)

def andThen (m : Run S A) (k : A → Run S B) : Run S B := fun s =>
  match (m s).2 with
  | .error e => ((m s).1, .error e)
  | .ok a => ((m s).1 ++ (k a (final s (m s).1)).1, (k a (final s (m s).1)).2)

instance : Monad (Run S) where
  pure := ret
  bind := andThen

/-- read the object -/
def get : Run S S := fun s => ([], .ok s)

/-- write an attribute -/
def write (f : S → S) : Run S Unit := fun s => ([f s], .ok ())

/-- a computation that does not touch the object -/
def lift (x : Except PyErr A) : Run S A := fun _ => ([], x)

/-- a method of a component of the object -/
def on (proj : S → T) (put : S → T → S) (m : Run T A) : Run S A := fun s =>
  ((m (proj s)).1.map (put s), (m (proj s)).2)

/-- a loop -/
def each (f : P → Run S Unit) : List P → Run S Unit
  | [] => ret ()
  | p :: ps => andThen (f p) fun _ => each f ps

/-- a loop with a value carried along -/
def fold (f : A → P → Run S A) : A → List P → Run S A
  | a, [] => ret a
  | a, p :: ps => andThen (f a p) fun a' => fold f a' ps

/-- the states in which an interrupted call may leave the object -/
def crashStates (m : Run S A) (s : S) : List S := s :: (m s).1

/-- a call that runs to its end: the object and the result, or the exception -/
def exec (m : Run S A) (s : S) : Except PyErr (S × A) :=
  match (m s).2 with
  | .ok a => .ok (final s (m s).1, a)
  | .error e => .error e

/-- the object after a call that runs to its end -/
def after (m : Run S A) (s : S) : Except PyErr S :=
  match (m s).2 with
  | .ok _ => .ok (final s (m s).1)
  | .error e => .error e

end Run
open Run

/-! ### univariate models -/

/-- `_garch.py` lines 130-156: one evaluation of the objective -/
def evalAt {V : Type} (var : V → List XR → XR → List (XR × XR) → Except PyErr (List XR)) (bc : XR) (vb : List (XR × XR))
    (p : XR × V) : Run (GarchObj V) Unit := do
  let o ← get
  let q ← lift (modelPath var o bc vb p)
  write fun o => { o with sigma2 := q.2 }                                   -- 151, 154

/-- `_garch.py` lines 94-100 and 394-404: the order of the writes after a successful optimisation -/
def storeResult {V : Type} (run : OptRun (XR × V)) : Run (GarchObj V) Unit :=
  if run.success then do
    write fun o => { o with success := true }                               -- 95, 395
    write fun o => { o with params := some (if o.zeroMean then 0 else run.x.1, run.x.2, -run.f) }   -- 96-99, 396-403
    write fun o => { o with resids := demean o.returns (if o.zeroMean then 0 else run.x.1) }        -- 100, 404
  else ret ()

/-- `_garch.py` lines 60-100 and 362-404 -/
def fitCoreRun {V : Type} (cpp : Bool) (var : V → List XR → XR → List (XR × XR) → Except PyErr (List XR))
    (start : List XR → List XR → XR → List (XR × XR) → Except PyErr (Option V))
    (feas : Bool → Feas (XR × V)) (opt : Optimizer (XR × V)) : Run (GarchObj V) Unit := do
  let o ← get
  let bc := backcast (prepResids o)
  write fun o => { o with backcast := bc }                                  -- 115
  let vb ← lift (varianceBounds cpp (prepResids o))
  write fun o => { o with bounds := some vb }                               -- 119
  let v0 ← lift (start o.returns (prepResids o) bc vb)                      -- 122
  match v0 with
  | none => lift (.error .valueError)
  | some v0 =>
    let run := opt (feas o.zeroMean) (objective var o bc vb) (if o.zeroMean then 0 else Np.mean o.returns, v0)   -- 87-94
    andThen (each (evalAt var bc vb) run.trace) fun _ => storeResult run

/-- `GARCHModel.fit` (lines 51-102) -/
def garchFitRun (cpp : Bool) (opt : Optimizer (XR × GarchVar)) :
    Run (GarchObj GarchVar) (Option (Option (XR × GarchVar × XR))) := do
  let o ← get
  if o.success then return none                                             -- 58-59
  else
    fitCoreRun cpp (garchVariance cpp) (garchStart cpp) garchFeas opt
    let o ← get
    return some o.params                                                    -- 102

/-- `GJRGARCHModel.fit` (lines 356-406) -/
def gjrFitRun (cpp : Bool) (opt : Optimizer (XR × GjrVar)) :
    Run (GarchObj GjrVar) (Option (Option (XR × GjrVar × XR))) := do
  fitCoreRun cpp (gjrVariance cpp) (fun ret res _ _ => gjrStart cpp ret res) gjrFeas opt
  let o ← get
  return some o.params

/-- a univariate fit as called by the multivariate models -/
def uFitRun (cpp : Bool) (opt : Optimizer (XR × GarchVar)) : Run (GarchObj GarchVar) Unit := do
  let _ ← garchFitRun cpp opt
  return ()

/-- the same for GJR -/
def uFitGjrRun (cpp : Bool) (opt : Optimizer (XR × GjrVar)) : Run (GarchObj GjrVar) Unit := do
  let _ ← gjrFitRun cpp opt
  return ()

/-! ### constant conditional correlation -/

/-- `self.model1.fit()` -/
def cccFit1 (fitU : Run (GarchObj GarchVar) Unit) : Run CccObj Unit :=
  on CccObj.model1 (fun o m => { o with model1 := m }) fitU

/-- `self.model2.fit()` -/
def cccFit2 (fitU : Run (GarchObj GarchVar) Unit) : Run CccObj Unit :=
  on CccObj.model2 (fun o m => { o with model2 := m }) fitU

/-- `_mgarch.py` lines 57-121, `GARCHModel_CCC.fit`; the objective (123-156) writes no attribute -/
def cccFitRun (cpp : Bool) (fitU : Run (GarchObj GarchVar) Unit) (opt : Optimizer CccVec) :
    Run CccObj (Option (CccVec × XR)) := do
  let o ← get
  if o.success then return o.params                                         -- 63-64
  else
    cccFit1 fitU                                                            -- 66
    cccFit2 fitU                                                            -- 67
    let o ← get
    let z1 := stdResid o.model1.resids o.model1.sigma2                      -- 68
    let z2 := stdResid o.model2.resids o.model2.sigma2                      -- 69
    if z1.length ≠ z2.length then lift (.error .valueError)                 -- 70
    else
      let rho := npCorr z2 z1
      let p1 := (dropLl o.model1.params).getD (.nan, nanVar)                -- 71
      let p2 := (dropLl o.model2.params).getD (.nan, nanVar)                -- 72
      let run ← lift (runOpt opt cccFeas (fun p => cccObjective cpp o.model1.returns o.model2.returns p
        o.model1.backcast o.model2.backcast (o.model1.bounds.getD []) (o.model2.bounds.getD []))
        ⟨p1.1, p1.2, p2.1, p2.2, rho⟩)                                      -- 107-117
      if run.success then
        write fun o => { o with success := true }                           -- 119
        write fun o => { o with params := some (run.x, -run.f) }            -- 120
        let o ← get
        return o.params                                                     -- 121
      else
        let o ← get
        return o.params

/-! ### dynamic conditional correlation -/

variable {V : Type}

/-- `self.model1.fit()`, then `self.model2.fit()` (lines 258-259, 367-368) -/
def refitRun (fitU : Run (GarchObj V) Unit) : Run (DccObj V) Unit := do
  on DccObj.model1 (fun o m => { o with model1 := m }) fitU
  on DccObj.model2 (fun o m => { o with model2 := m }) fitU

/-- `_mgarch.py` lines 319-354, `loglikelihood_model`: its only writes are those of the univariate fits in
`conditional_correlations` -/
def dccEvalRun (cpp : Bool) (fitU : Run (GarchObj V) Unit) (p : XR × XR) : Run (DccObj V) XR := do
  let o ← get
  refitRun fitU
  lift ((dccObjective cpp fitU.after o p).map Prod.snd)

/-- `_mgarch.py` lines 301-317, `starting_values` -/
def dccStartRun (cpp : Bool) (fitU : Run (GarchObj V) Unit) : Run (DccObj V) (ℝ × ℝ) :=
  fold (fun (best : ℝ × ℝ) (p : ℝ × ℝ) =>
    if 1 ≤ p.1 + p.2 then ret best
    else do
      let v ← dccEvalRun cpp fitU (.fin p.1, .fin p.2)
      return (if .ninf < -v then p else best)) (1 / 100, 8 / 10) dccGrid

/-- `_mgarch.py` lines 249-299, `GARCHModel_DCC.fit` -/
def dccFitRun (cpp : Bool) (fitU : Run (GarchObj V) Unit) (opt : Optimizer (XR × XR)) : Run (DccObj V) (DccPars V) := do
  let o ← get
  if o.success then return o.params                                         -- 255-256
  else
    refitRun fitU                                                           -- 258-259
    let st ← dccStartRun cpp fitU                                           -- 260
    write fun o => { o with params := { p1 := dropLl o.model1.params, p2 := dropLl o.model2.params } }   -- 261-263
    let o ← get
    let run := opt dccFeas (fun p => match dccObjective cpp fitU.after o p with
      | .ok r => r.2
      | .error _ => .nan) (.fin st.1, .fin st.2)                            -- 282-291
    each (fun p => do
      let _ ← dccEvalRun cpp fitU p
      return ()) run.trace
    if run.success then
      write fun o => { o with success := true }                             -- 294
      write fun o => { o with params := { o.params with a := run.x.1 } }    -- 296
      write fun o => { o with params := { o.params with b := run.x.2 } }    -- 297
      write fun o => { o with params := { o.params with ll := -run.f } }    -- 298
      let o ← get
      return o.params
    else
      let o ← get
      return o.params                                                       -- 299

/-! ### probability of informed trading -/

/-- `_probability_of_informed_trading.py` lines 95-101: the writes for one optimiser result -/
def pinAcceptRun (method : String) (r : OptRes) : Run PinObj Unit := do
  let o ← get
  if r.success then
    if o.params.loglikelihood.isNan ∨ (-r.f < .pinf ∧ o.params.loglikelihood < -r.f) then
      write fun o => { o with params := { x := r.x, loglikelihood := -r.f } }                  -- 98
      write fun o => { o with params := { o.params with pin := calculatePin o.params.x } }     -- 99
      write fun o => { o with params := { o.params with method := method } }                   -- 100
      write fun o => { o with success := true }                                                -- 101
    else ret ()
  else ret ()

/-- lines 49-103, `estimate` -/
def pinEstimateRun (mini : PinMinimizer) (method : String) : Run PinObj PinParams := do
  if method ≠ "EHO2010" ∧ method ≠ "LK2011" then lift (.error .valueError)  -- 61-62
  else
    let o ← get
    write fun o => { o with params := {} }                                  -- 75
    let func := if method = "EHO2010" then eho2010 o.B o.S else lk2011 o.B o.S
    each (fun s => pinAcceptRun method (mini pinBounds func s)) (pinStarts o.B o.S)   -- 88-102
    let o ← get
    return o.params                                                         -- 103

end
end Frds.Model.Crash

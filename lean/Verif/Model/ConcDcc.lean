import Verif.Model.Conc
import Verif.Model.Shared

/-! Several threads, each calling `fit` of its own correlation model, where the correlation models refer to common univariate
models (`src/frds/algorithms/_mgarch.py` lines 217-406 and 435-473; `_garch.py` lines 51-102). No method takes a lock. -/
namespace Frds.Model.Conc
noncomputable section
open Frds Frds.Model Frds.Model.Shared Classical
open Prog

variable {V ι κ A : Type}

/-- a method of a univariate model, called in a program with several objects -/
def onModel (i : ι) : Prog (GarchObj V) A → Prog (World V ι κ) A
  | .done r => .done r
  | .read k => .read fun w => onModel i (k (w.model i))
  | .write f k => .write (fun w => pushModel i w (f (w.model i))) (onModel i k)

/-- `_mgarch.py` lines 356-406, `conditional_correlations`: both univariate models are fitted, then residuals and variances are
read one after another (370-377 and 379-382) -/
def condCorrProg (cpp : Bool) (fitU : Prog (GarchObj V) A) (wire : κ → ι × ι) (k : κ) (a b : XR) :
    Prog (World V ι κ) (List XR) := do
  let _ ← onModel (wire k).1 fitU                                           -- 367
  let _ ← onModel (wire k).2 fitU                                           -- 368
  let w1 ← get
  let w2 ← get
  let w3 ← get
  let w4 ← get
  lift (dccKernel cpp a b (stdResid (w1.model (wire k).1).resids (w3.model (wire k).1).sigma2)
    (stdResid (w2.model (wire k).2).resids (w4.model (wire k).2).sigma2))

/-- `_mgarch.py` lines 344-354: the value of the objective, from the standardised residuals, the log-likelihood of the variance
part and the correlations -/
def dccValue (z1 z2 : List XR) (l1 : XR) (rho : List XR) : Except PyErr XR :=
  let rho := rho.map fun x => Np.clip x (.fin (-(99 / 100))) (.fin (99 / 100))   -- 344
  if ¬ (z1.length = z2.length ∧ z1.length = rho.length) then
    -- one-element arrays are broadcast in lines 346-351
    let n := max z1.length (max z2.length rho.length)
    if (stretch n z1).length = n ∧ (stretch n z2).length = n ∧ (stretch n rho).length = n then
      .ok (-(l1 + (List.zipWith (fun (z : XR × XR) x => dccTerm z.1 z.2 x)
        (List.zip (stretch n z1) (stretch n z2)) (stretch n rho)).sum))
    else .error .valueError
  else .ok (-(l1 + (List.zipWith (fun (z : XR × XR) x => dccTerm z.1 z.2 x) (List.zip z1 z2) rho).sum))   -- 346-353

/-- `_mgarch.py` lines 319-354, `loglikelihood_model`: six separate reads, then the correlations -/
def dccEvalProg (cpp : Bool) (fitU : Prog (GarchObj V) A) (wire : κ → ι × ι) (k : κ) (p : XR × XR) :
    Prog (World V ι κ) XR := do
  let w1 ← get                                                              -- 329
  let w2 ← get                                                              -- 330
  let w3 ← get                                                              -- 331
  let w4 ← get                                                              -- 332
  let w5 ← get                                                              -- 339
  let w6 ← get                                                              -- 339
  let rho ← condCorrProg cpp fitU wire k p.1 p.2                            -- 342
  lift (dccValue (stdResid (w1.model (wire k).1).resids (w3.model (wire k).1).sigma2)
    (stdResid (w2.model (wire k).2).resids (w4.model (wire k).2).sigma2)
    (llOf (w5.model (wire k).1) + llOf (w6.model (wire k).2)) rho)

/-- `_mgarch.py` lines 311-317: the loop of `starting_values` -/
def dccGridProg (cpp : Bool) (fitU : Prog (GarchObj V) A) (wire : κ → ι × ι) (k : κ) :
    ℝ × ℝ → List (ℝ × ℝ) → Prog (World V ι κ) (ℝ × ℝ)
  | best, [] => .done (.ok best)
  | best, p :: ps =>
    if 1 ≤ p.1 + p.2 then dccGridProg cpp fitU wire k best ps               -- 312-313
    else bind' (dccEvalProg cpp fitU wire k (.fin p.1, .fin p.2)) fun v =>  -- 314
      dccGridProg cpp fitU wire k (if .ninf < -v then p else best) ps       -- 315-316

/-- `minimize` on `self.loglikelihood_model` (lines 282-291) -/
def dccOptProg (cpp : Bool) (fitU : Prog (GarchObj V) A) (wire : κ → ι × ι) (k : κ) :
    Opt (XR × XR) → Prog (World V ι κ) (Bool × (XR × XR) × XR)
  | .done s x f => .done (.ok (s, x, f))
  | .ask p c => bind' (dccEvalProg cpp fitU wire k p) fun v => dccOptProg cpp fitU wire k (c v)

/-- `self.estimation_success = …` -/
def setSuccess (k : κ) (w : World V ι κ) : World V ι κ :=
  { w with success := fun k' => if k' = k then true else w.success k' }

/-- `self.parameters = …`, `self.parameters.a = …` -/
def setParams (k : κ) (f : DccPars V → DccPars V) (w : World V ι κ) : World V ι κ :=
  { w with params := fun k' => if k' = k then f (w.params k) else w.params k' }

/-- `_mgarch.py` lines 292-297: one attribute after another -/
def dccStoreProg (k : κ) (r : Bool × (XR × XR) × XR) : Prog (World V ι κ) Unit :=
  if r.1 then do
    put (setSuccess k)                                                      -- 293
    put (setParams k fun q => { q with a := r.2.1.1 })                      -- 295
    put (setParams k fun q => { q with b := r.2.1.2 })                      -- 296
    put (setParams k fun q => { q with ll := -r.2.2 })                      -- 297
  else return ()

/-- `_mgarch.py` lines 249-299 and 467-473, `fit`. Simplification: the returned object `self.parameters` is its value at that
time. -/
def dccFitProg (cpp : Bool) (fitU : Prog (GarchObj V) A) (st : Strategy (XR × XR)) (wire : κ → ι × ι) (k : κ) :
    Prog (World V ι κ) (DccPars V) := do
  let w ← get
  if w.success k then                                                       -- 255
    let w ← get
    return w.params k                                                       -- 256
  else
    let _ ← onModel (wire k).1 fitU                                         -- 258
    let _ ← onModel (wire k).2 fitU                                         -- 259
    let x0 ← dccGridProg cpp fitU wire k (1 / 100, 8 / 10) dccGrid          -- 260
    let w1 ← get                                                            -- 261
    let w2 ← get                                                            -- 262
    put (setParams k fun _ =>
      { p1 := dropLl (w1.model (wire k).1).params, p2 := dropLl (w2.model (wire k).2).params })   -- 263
    let r ← dccOptProg cpp fitU wire k (st dccFeas (.fin x0.1, .fin x0.2))  -- 282-291
    dccStoreProg k r                                                        -- 292-297
    let w ← get
    return w.params k                                                       -- 298

end
end Frds.Model.Conc

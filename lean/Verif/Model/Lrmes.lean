import Verif.Basic.Np

/-! Model of `src/frds/measures/_long_run_mes.py` and of the C++ kernel
`src/frds/measures/lrmes.hpp`. -/
namespace Frds.Model
noncomputable section
open Frds Classical

/-- A Python float result: its value and whether it is a NumPy scalar (`np.float64`, which has
methods such as `clip`) or a built-in `float`. -/
structure PyFloat where
  val : XR
  isNumpy : Bool

/-- GJR-GARCH parameters (`_garch.py`, dataclass `Parameters`). -/
structure GjrParams where
  mu : XR
  omega : XR
  alpha : XR
  gamma : XR
  beta : XR

/-- Arguments of `simulation` besides the innovations (`_long_run_mes.py` lines 136-148;
`self.firm_model.parameters`, `self.market_model.parameters` are `pi`, `pm`). -/
structure SimArgs where
  C : XR
  firmVar : XR
  mktVar : XR
  firmResid : XR
  mktResid : XR
  a : XR
  b : XR
  rho : XR
  /-- `Q_bar[0,0]`, `Q_bar[1,1]`, `Q_bar[1,0]` -/
  q00 : XR
  q11 : XR
  q10 : XR
  pi : GjrParams
  pm : GjrParams

/-- local variables carried around the loop of lines 193-232 -/
structure SimState where
  residI : XR
  residM : XR
  varI : XR
  varM : XR
  innovI : XR
  innovM : XR
  qi : XR
  qm : XR
  qim : XR

/-- `_long_run_mes.py` lines 170, 183-191. -/
def simInit (x : SimArgs) : SimState where
  residI := x.firmResid
  residM := x.mktResid
  varI := x.firmVar
  varM := x.mktVar
  innovI := x.firmResid / XR.sqrt x.firmVar
  innovM := x.mktResid / XR.sqrt x.mktVar
  qi := 1
  qm := 1
  qim := x.rho

/-- `_long_run_mes.py` lines 197-201: one-step variance forecast. -/
def simVar (p : GjrParams) (resid var : XR) : XR :=
  (p.omega + p.alpha * XR.sq resid + p.beta * var)
    + (if resid < 0 then p.gamma * XR.sq resid else 0)

/-- `_long_run_mes.py` lines 197-232: one iteration; returns the new state and
`(firm_return[h], mkt_return[h])`. The pair `z` is `(innovation[h,0], innovation[h,1])`. -/
def simStep (x : SimArgs) (s : SimState) (z : XR × XR) : SimState × (XR × XR) :=
  let varI := simVar x.pi s.residI s.varI                                       -- 197-198
  let varM := simVar x.pm s.residM s.varM                                       -- 200-201
  let qi := (1 - x.a - x.b) * x.q00 + x.a * XR.sq s.innovI + x.b * s.qi         -- 204
  let qm := (1 - x.a - x.b) * x.q11 + x.a * XR.sq s.innovM + x.b * s.qm         -- 205
  let qim := (1 - x.a - x.b) * x.q10 + x.a * s.innovI * s.innovM + x.b * s.qim  -- 206
  let rho := qim / XR.sqrt (qi * qm)                                            -- 207
  let epsM := XR.sqrt varM * z.2                                                -- 215
  let epsI := XR.sqrt varI * (rho * z.2 + XR.sqrt (1 - XR.sq rho) * z.1)        -- 220-222
  (⟨epsI, epsM, varI, varM, epsI / XR.sqrt varI, z.2, qi, qm, qim⟩,             -- 227-232
    (x.pi.mu + epsI, x.pm.mu + epsM))                                           -- 224-225

/-- the loop of line 193: list of `(firm_return[h], mkt_return[h])` -/
def simLoop (x : SimArgs) : SimState → List (XR × XR) → List (XR × XR)
  | _, [] => []
  | s, z :: zs => (simStep x s z).2 :: simLoop x (simStep x s z).1 zs

/-- `_long_run_mes.py` lines 136-248, `simulation`. -/
def simulation (x : SimArgs) (inv : List (XR × XR)) : XR × Bool :=
  let rets := simLoop x (simInit x) inv
  let mkt := (rets.map fun r => r.2 / 100).sum                                  -- 235, 240
  let firm := (rets.map fun r => r.1 / 100).sum                                 -- 236, 246
  if XR.exp mkt - 1 < x.C then (XR.exp firm - 1, true)                          -- 246-248
  else (0, false)                                                               -- 243

/-! ### the C++ kernel -/

/-- `lrmes.hpp` lines 44-54. -/
def cppVar (p : GjrParams) (resid var : XR) : XR :=
  let v := p.omega + p.alpha * XR.sq resid + p.beta * var
  if resid < 0 then v + p.gamma * XR.sq resid else v

/-- `lrmes.hpp` lines 42-79: loop with the vectors `firm_return`, `mkt_return` filled in. -/
def cppLoop (x : SimArgs) : SimState → List (XR × XR) → List XR × List XR
  | _, [] => ([], [])
  | s, z :: zs =>
    let varI := cppVar x.pi s.residI s.varI
    let varM := cppVar x.pm s.residM s.varM
    let qi := (1 - x.a - x.b) * x.q00 + x.a * s.innovI * s.innovI + x.b * s.qi
    let qm := (1 - x.a - x.b) * x.q11 + x.a * s.innovM * s.innovM + x.b * s.qm
    let qim := (1 - x.a - x.b) * x.q10 + x.a * s.innovI * s.innovM + x.b * s.qim
    let rho := qim / XR.sqrt (qi * qm)
    let epsM := XR.sqrt varM * z.2
    let epsI := XR.sqrt varI * (rho * z.2 + XR.sqrt (1 - XR.sq rho) * z.1)
    let rest := cppLoop x ⟨epsI, epsM, varI, varM, epsI / XR.sqrt varI, z.2, qi, qm, qim⟩ zs
    ((x.pi.mu + epsI) :: rest.1, (x.pm.mu + epsM) :: rest.2)

/-- `lrmes.hpp` lines 9-108, `simulation`. Accumulation loops (90-93, 101-104) are left folds. -/
def cppSimulation (x : SimArgs) (inv : List (XR × XR)) : XR × Bool :=
  let r := cppLoop x
    ⟨x.firmResid, x.mktResid, x.firmVar, x.mktVar, x.firmResid / XR.sqrt x.firmVar,
      x.mktResid / XR.sqrt x.mktVar, 1, 1, x.rho⟩ inv
  let mktReturn := r.2.map (· / 100)                                            -- 82-84
  let firmReturn := r.1.map (· / 100)                                           -- 85-87
  let mktSum := mktReturn.foldl (· + ·) 0                                       -- 90-93
  if ¬ (XR.exp mktSum - 1 < x.C) then (0, false)                                -- 94-98
  else (XR.exp (firmReturn.foldl (· + ·) 0) - 1, true)                          -- 101-107

/-! ### estimate -/

/-- `np.cov` entry (ddof = 1) of two series -/
def npCov (x y : List XR) : XR :=
  (List.zipWith (fun u v => (u - Np.mean x) * (v - Np.mean y)) x y).sum
    / .fin ((x.length : ℝ) - 1)

/-- entry of `np.corrcoef`: covariance divided by both standard deviations, clipped to [-1,1] -/
def npCorr (x y : List XR) : XR :=
  Np.clip (npCov x y / XR.sqrt (npCov x x) / XR.sqrt (npCov y y)) (.fin (-1)) (.fin 1)

/-- State of the fitted GJR-GARCH-DCC model as read by `estimate` (lines 54-65). -/
structure DccFit where
  success : Bool
  firmVar : List XR
  firmResid : List XR
  mktVar : List XR
  mktResid : List XR
  rho : List XR
  a : XR
  b : XR
  pi : GjrParams
  pm : GjrParams

/-- `_long_run_mes.py` lines 67-68: standardised residuals -/
def stdResid (resid var : List XR) : List XR := List.zipWith (fun r v => r / XR.sqrt v) resid var

/-- line 70: one orthogonalised innovation -/
def orthInnov (zi rho zm : XR) : XR := (zi - rho * zm) / XR.sqrt (1 - XR.sq rho)

/-- line 70: `xi_i` -/
def xiSeries (f : DccFit) : List XR :=
  List.zipWith (fun (p : XR × XR) rho => orthInnov p.1 rho p.2)
    (List.zip (stdResid f.firmResid f.firmVar) (stdResid f.mktResid f.mktVar)) f.rho

/-- lines 76-81: the innovations of one simulated path, for the indices drawn by `rng.choice` -/
def pathOf (f : DccFit) (idx : List ℕ) : List (XR × XR) :=
  idx.map fun i => ((xiSeries f).getD i .nan, (stdResid f.mktResid f.mktVar).getD i .nan)

/-- arguments passed to `simulation` in lines 94-128 (`[-1]` on an empty array: `IndexError`) -/
def simArgsOf (f : DccFit) (C : XR) : Except PyErr SimArgs :=
  match f.firmVar.getLast?, f.mktVar.getLast?, f.firmResid.getLast?, f.mktResid.getLast?,
      f.rho.getLast? with
  | some fv, some mv, some fr, some mr, some rho =>
    let zi := stdResid f.firmResid f.firmVar
    let zm := stdResid f.mktResid f.mktVar
    .ok ⟨C, fv, mv, fr, mr, f.a, f.b, rho, npCorr zi zi, npCorr zm zm, npCorr zm zi, f.pi, f.pm⟩
  | _, _, _, _, _ => .error .indexError

/-- lines 87-134: accumulate over the simulated paths. `cpp` is `USE_CPP_EXTENSION`. -/
def accumulate (cpp : Bool) (x : SimArgs) (paths : List (List (XR × XR))) : XR × ℕ :=
  paths.foldl (fun acc p =>
    let r := if cpp then cppSimulation x p else simulation x p                  -- 93-128
    (acc.1 + r.1, acc.2 + (if r.2 then 1 else 0))) (0, 0)                       -- 129-130

/-- lines 132-134; NumPy scalar iff the Python kernel produced the firm returns. -/
def lrmesResult (cpp : Bool) (acc : XR × ℕ) : PyFloat :=
  if acc.2 = 0 then ⟨0, false⟩
  else ⟨-acc.1 / .fin acc.2, !cpp⟩

/-- `_long_run_mes.py` lines 39-134, `estimate`, given the fitted model `f` and the index draws
`idx` of the random generator (`S` lists of length `h` of indices below the sample size). -/
def lrmesEstimate (cpp : Bool) (f : DccFit) (C : XR) (idx : List (List ℕ)) :
    Except PyErr PyFloat :=
  if ¬ f.success then .error .runtimeError                                      -- 55-56
  else if idx = [] then .ok ⟨0, false⟩                                          -- S = 0
  else do
    let x ← simArgsOf f C
    return lrmesResult cpp (accumulate cpp x (idx.map (pathOf f)))

end
end Frds.Model

import Verif.Basic.Gauss

/-! Model of `src/frds/measures/_contingent_claim_analysis.py`. The first five arguments are built-in
floats, the solver's answer is an `ndarray` (NumPy division semantics). `math.exp` overflow
(`OverflowError`) is in Model/CcaOverflow; here reals are unbounded. -/
namespace Frds.Model
noncomputable section
open Frds Classical

/-- `math.log`: `ValueError` on zero and negative values -/
def mathLog : XR → Except PyErr XR
  | .fin x => if 0 < x then .ok (.fin (Real.log x)) else .error .valueError
  | .ninf => .error .valueError
  | .pinf => .ok .pinf
  | .nan => .ok .nan

/-- `math.sqrt`: `ValueError` on negative values -/
def mathSqrt : XR → Except PyErr XR
  | .fin x => if x < 0 then .error .valueError else .ok (.fin (Real.sqrt x))
  | .ninf => .error .valueError
  | .pinf => .ok .pinf
  | .nan => .ok .nan

/-- the inputs of `estimate`, lines 15-20 -/
structure CcaIn where
  equity : XR
  volatility : XR
  rf : XR
  barrier : XR
  maturity : XR
  cds : XR

/-- lines 36-46, `cca_func`: the two equations at `(init_e, init_vol)` -/
def ccaFunc (i : CcaIn) (x : XR × XR) : Except PyErr (XR × XR) := do
  let lg ← mathLog (XR.sq x.1 / i.barrier)                                          -- 38
  let st ← mathSqrt i.maturity                                                      -- 39
  let d1 := (lg + (i.rf + XR.sq (XR.sq x.2) / 2) * i.maturity) / (XR.sq x.2 * st)   -- 38-40
  let d2 := d1 - XR.sq x.2 * st                                                     -- 41
  let eqty := i.equity - XR.sq x.1 * XR.ncdf d1
    + i.barrier * XR.exp (-i.rf * i.maturity) * XR.ncdf d2                          -- 43
  let sigm := i.equity * i.volatility - XR.sq x.1 * XR.sq x.2 * XR.ncdf d1          -- 44
  return (eqty, sigm)                                                               -- 46

/-- `scipy.optimize.fsolve`: any procedure that from the equations and a start returns a point or raises -/
abbrev Solver := (XR × XR → Except PyErr (XR × XR)) → XR × XR → Except PyErr (XR × XR)

/-- lines 64-96, after the solver -/
def ccaTail (i : CcaIn) (x : XR × XR) : Except PyErr (XR × XR) := do
  let x0 := XR.sq x.1                                                               -- 64
  let x1 := XR.sq x.2
  let lg ← mathLog (x0 / i.barrier)                                                 -- 68
  let st ← mathSqrt i.maturity                                                      -- 70
  let d1 := (lg + (i.rf + XR.sq x1 / 2) * i.maturity) / (x1 * st)                   -- 67-70
  let d2 := d1 - x1 * st                                                            -- 71
  let put := i.barrier * XR.exp (-i.rf * i.maturity) * XR.ncdf (-d2) - x0 * XR.ncdf (-d1)   -- 74-76
  let debt := i.barrier * XR.exp (-i.rf * i.maturity) - put                         -- 80
  let cdsPut := (1 - XR.exp (-(i.cds / 10000) * (i.barrier / debt - 1) * i.maturity))
    * i.barrier * XR.exp (-i.rf * i.maturity)                                       -- 83-94
  return (put, put - cdsPut)                                                        -- 96

/-- lines 14-96, `ContingentClaimAnalysis.estimate` -/
def ccaEstimate (solve : Solver) (i : CcaIn) : Except PyErr (XR × XR) := do
  let x ← solve (ccaFunc i) (i.equity, i.volatility)                                -- 50-60
  ccaTail i x

end
end Frds.Model

import Verif.Model.Cca

/-! `src/frds/measures/_contingent_claim_analysis.py` with `math.exp` as it is: it raises `OverflowError` when the result
would not be representable. `L` is the largest argument it accepts (about 709.78 for doubles). -/
namespace Frds.Model
noncomputable section
open Frds Classical

/-- `math.exp`: `OverflowError` for finite arguments above `L`; infinities and NaN pass -/
def mathExp (L : ℝ) : XR → Except PyErr XR
  | .fin x => if L < x then .error .overflowError else .ok (.fin (Real.exp x))
  | .ninf => .ok (.fin 0)
  | .pinf => .ok .pinf
  | .nan => .ok .nan

/-- lines 36-46, `cca_func` -/
def ccaFuncL (L : ℝ) (i : CcaIn) (x : XR × XR) : Except PyErr (XR × XR) := do
  let lg ← mathLog (XR.sq x.1 / i.barrier)                                          -- 38
  let st ← mathSqrt i.maturity                                                      -- 39
  let d1 := (lg + (i.rf + XR.sq (XR.sq x.2) / 2) * i.maturity) / (XR.sq x.2 * st)   -- 38-40
  let d2 := d1 - XR.sq x.2 * st                                                     -- 41
  let ex ← mathExp L (-i.rf * i.maturity)                                           -- 43
  let eqty := i.equity - XR.sq x.1 * XR.ncdf d1 + i.barrier * ex * XR.ncdf d2       -- 43
  let sigm := i.equity * i.volatility - XR.sq x.1 * XR.sq x.2 * XR.ncdf d1          -- 44
  return (eqty, sigm)                                                               -- 46

/-- lines 64-96, after the solver -/
def ccaTailL (L : ℝ) (i : CcaIn) (x : XR × XR) : Except PyErr (XR × XR) := do
  let x0 := XR.sq x.1                                                               -- 64
  let x1 := XR.sq x.2
  let lg ← mathLog (x0 / i.barrier)                                                 -- 68
  let st ← mathSqrt i.maturity                                                      -- 70
  let d1 := (lg + (i.rf + XR.sq x1 / 2) * i.maturity) / (x1 * st)                   -- 67-70
  let d2 := d1 - x1 * st                                                            -- 71
  let ex ← mathExp L (-i.rf * i.maturity)                                           -- 74-75
  let put := i.barrier * ex * XR.ncdf (-d2) - x0 * XR.ncdf (-d1)                    -- 74-76
  let ex' ← mathExp L (-i.rf * i.maturity)                                          -- 80
  let debt := i.barrier * ex' - put                                                 -- 80
  let sp ← mathExp L (-(i.cds / 10000) * (i.barrier / debt - 1) * i.maturity)       -- 86-90
  let ex'' ← mathExp L (-i.rf * i.maturity)                                         -- 93
  let cdsPut := (1 - sp) * i.barrier * ex''                                         -- 83-94
  return (put, put - cdsPut)                                                        -- 96

/-- lines 14-96, `ContingentClaimAnalysis.estimate` -/
def ccaEstimateL (L : ℝ) (solve : Solver) (i : CcaIn) : Except PyErr (XR × XR) := do
  let x ← solve (ccaFuncL L i) (i.equity, i.volatility)                             -- 50-60
  ccaTailL L i x

end
end Frds.Model

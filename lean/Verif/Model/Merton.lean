import Verif.Model.OptionPrice

/-! Model of the scalar functions of `src/frds/measures/modified_merton/`: `loan_payoff.py`,
`find_face_value_indiv.py`, `merton_solution.py`, on `float64` scalars (the array versions apply them
element by element). The last two are modelled as if their import of `blsprice` succeeded; see
`Model/ImportGraph.lean` for the import itself. -/
namespace Frds.Model
noncomputable section
open Frds Classical

/-- `loan_payoff.py` lines 5-30 -/
def loanPayoff (F f ival rho sig T : XR) : XR :=
  let EA := XR.exp (f + ival + 0.5 * (1 - rho) * T * XR.sq sig)      -- 24
  let s := sig * XR.sqrt T * XR.sqrt (1 - rho)                       -- 25
  let a := (XR.log F - f - ival) / s                                 -- 26
  EA * (1 - XR.ncdf (s - a)) + XR.ncdf (-a) * F                      -- 28

/-- `find_face_value_indiv.py` lines 5-35 -/
def findFaceValueIndiv (mu F ival sig T r d : XR) : XR :=
  let P := (blsprice (XR.exp ival) F r T sig d).2                    -- 26
  let L := F * XR.exp (-r * T) - P                                   -- 28
  let newmu := (1 / T) * XR.log (F / L)                              -- 30
  mu - newmu                                                         -- 32

/-- `merton_solution.py` lines 9-59 -/
def mertonSolution (x : XR × XR) (E D r d T sigE : XR) : XR × XR :=
  let esig : XR := if x.2 < 0 then 9999999 else 0                    -- 35-37
  let sig : XR := if x.2 < 0 then 0 else x.2
  let eA : XR := if x.1 < 0 then 9999999 else 0                      -- 38-39
  let A : XR := if x.1 < 0 then 0 else x.1
  let C := (blsprice A D r T sig d).1                                -- 41
  let PVd := A * (1 - XR.exp (-d * T))                               -- 44
  let C' := C + PVd                                                  -- 45
  let d1 := (XR.log A - XR.log D + (r - d + XR.sq sig / 2) * T) / (sig * XR.sqrt T)             -- 47
  let v := (XR.exp (-d * T) * XR.ncdf d1 + (1 - XR.exp (-d * T))) * (A / E) * sig               -- 48
  let penalty := esig * XR.sq sig + eA * XR.sq A                     -- 54
  (E - C' + penalty, sigE - v + penalty)                             -- 55

end
end Frds.Model

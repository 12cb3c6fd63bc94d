import Verif.Model.Matlab
import Verif.Model.Simulation

/-! Model of the Matlab script `matlab/ModMertonSimulation.m`, lines 13-252 (with `comp = 1`): the summary table and
the quantities behind it. Not modelled: the alternative models (1)-(3) (lines 148-203; they use natural-neighbour
interpolation, the Python version a cubic one), the saved files, the figures and the number format of the table. A
complex volatility, a negative value in a logarithm (which is complex then) and a missing number are reported as `none`.
Real constants are exact. -/
namespace Frds.Model.Matlab
noncomputable section
open Frds Frds.Model Classical

/-- `a:step:b` -/
def colon (a step b : ℝ) : List ℝ := (List.range (⌊(b - a) / step⌋ + 1).toNat).map fun i : ℕ => a + i * step

/-- line 13: `fs` -/
def simFs : List ℝ := (colon (-0.8) 0.05 0.8).map fun x => x / (0.2 * Real.sqrt 0.5 * Real.sqrt 10)

/-- line 24: `D = bookD*exp(r*H)*mean(exp(r*([1:T])'))` -/
def simDebt : ℝ :=
  0.63 * Real.exp (0.01 * 5) * (((colon 1 1 10).map fun t => Real.exp (0.01 * t)).sum / (colon 1 1 10).length)

/-- lines 18-28, 34, 40: `param` for `j = 3` -/
def simParams : CohortParam :=
  { r := 0.01, T := 10, bookF := 0.6 + 3 * 0.02, H := 5, D := simDebt, rho := 0.5, ltv := 0.66, sig := 0.2, d := 0.005,
    y := 0.002, g := some 0.5 }

/-- `[M, j] = min(v)`: position (1-based) of the first of the smallest entries, ignoring NaN; the first entry when
all are NaN -/
def minIndex (v : List XR) : Option ℕ :=
  if v = [] then none
  else if ∀ x ∈ v, x.isNan then some 1
  else some (v.findIdx (fun x => ¬ x.isNan ∧ ∀ u ∈ v, ¬ u < x) + 1)

/-- `max(v)` of a column -/
def maxAll : List XR → Option XR
  | [] => none
  | a :: l => some (l.foldl max a)

/-- `(log(A)-log(D)+(r-y-s^2/2)*H)/(s*sqrt(H))`, lines 113, 211 -/
def distance (A D r y s H : XR) : XR := (XR.log A - XR.log D + (r - y - XR.sq s / 2) * H) / (s * XR.sqrt H)

/-- body of the loop of lines 107-122 -/
def fit (fsolve : FSolve2) (E sigE D r y H g : XR) : Option MertonFit :=
  let initb := (E + D * XR.exp (-r * H), sigE / 2)                           -- 109
  let bout := fsolve (fun b => mertonSolution b E D r y H sigE) initb        -- 110
  let A := bout.1                                                            -- 111
  let s := max bout.2 0.0001                                                 -- 112
  if 0 ≤ A then
    let dd := distance A D r y s H                                           -- 113
    let P := (blsprice A D r H s y).2                                        -- 116
    some { dd := dd, def_ := XR.ncdf (-dd), GG := g * P,
           sp := (1 / H) * XR.log ((D * XR.exp (-r * H)) / ((D * XR.exp (-r * H)) - P)), A := A, s := s }
  else none

/-- what the script leaves behind: `j0`, `mface`, the vector of Merton probabilities from the implied asset value
and volatility (lines 208-213), and the three columns of `SimSummary.tex` -/
structure Summary where
  j0 : ℕ
  mface : XR
  xmertdef : List XR
  const : TableColumn
  up : TableColumn
  down : TableColumn

/-- one column of the matrix `A` of lines 238-245 (the row of -9999, printed blank, is left out); `i` is 1-based -/
def summaryColumn (K i : ℕ) (o : CohortOut) (fits : List MertonFit) : Option TableColumn :=
  if 1 ≤ i ∧ i ≤ K ∧ 0 ≤ o.Bt (i - 1) then do
    let k := i - 1
    let f ← fits[k]?
    let mktCR := o.Et k / (o.Et k + o.Bt k)                                  -- 124
    let sp := (1 / .fin 5) * XR.log ((.fin simDebt * XR.exp (-.fin 0.01 * .fin 5)) / o.Bt k)       -- 125
    return { mFt := o.mFt k, Lt := o.Lt k, mktCR := mktCR, mdef := o.mdef k, sp := sp * 100, mertdef := f.def_,
             mertsp := f.sp * 100 }
  else none

/-- the script; `w` stands for the shocks drawn in `ModMertonComputation.m` -/
def simulation (fsolve : FSolve) (fsolve2 : FSolve2) (w : Shocks) (Nsim2 : ℕ) : Option Summary := do
  let o ← multi fsolve simFs simParams 10 Nsim2 w                            -- 42
  let K := simFs.length
  let ks := List.range' 1 K
  let j0 ← minIndex (ks.map fun k => XR.abs (o.re.mFt (k - 1) - XR.exp (.fin 0.01 * .fin 10 / 2)))   -- 68
  let top ← maxAll ((List.range Nsim2).map fun i => o.re.face i (j0 - 1))    -- 70
  let mface := top * XR.exp (-.fin 0.01 * ((.fin 10 - .fin 5) / 2))
  let fits ← ks.mapM fun k =>                                                -- 107-122
    if o.sigEtIm (k - 1) = 0 then
      fit fsolve2 (o.re.Et (k - 1)) (o.re.sigEt (k - 1)) (.fin simDebt) (.fin 0.01) (.fin 0.002) (.fin 5) (.fin 0.5)
    else none
  let xmertdef ← ks.mapM fun k =>                                            -- 208-213
    if o.sigLtIm (k - 1) = 0 ∧ 0 ≤ o.re.Lt (k - 1) then
      some (XR.ncdf (-distance (o.re.Lt (k - 1)) (.fin simDebt) (.fin 0.01) (.fin 0.002) (o.re.sigLt (k - 1)) (.fin 5)))
    else none
  let jup := j0 + 8                                                          -- 220
  let jdn := j0 - 8                                                          -- 221
  let c ← summaryColumn K j0 o.re fits                                       -- 238-245
  let u ← summaryColumn K jup o.re fits
  let d ← summaryColumn K jdn o.re fits
  return { j0 := j0, mface := mface, xmertdef := xmertdef, const := c, up := u, down := d }

end
end Frds.Model.Matlab

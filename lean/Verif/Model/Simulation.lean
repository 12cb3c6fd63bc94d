import Verif.Model.Lookup

/-! Model of `src/frds/measures/modified_merton/mod_merton_simulation.py`, function `simulate` (lines 21-391), as if
its imports succeeded (see `Model/ImportGraph.lean`). `fsolve` (one and two unknowns), `griddata` and the simulated
shocks are parameters. Real constants are exact; the lengths of the three `arange` grids agree with the `float64`
ones. Plots are not modelled: what they draw is in the result. Formatting of the table to two decimals is not
modelled. -/
namespace Frds.Model
noncomputable section
open Frds Classical

/-- `scipy.optimize.fsolve(fun, x0)` in two unknowns -/
abbrev FSolve2 := (XR × XR → XR × XR) → XR × XR → XR × XR

/-- `scipy.interpolate.griddata(points, values, xi, method="cubic")` in the plane -/
abbrev GridData := List (XR × XR) → List XR → List (XR × XR) → Except PyErr (List XR)

/-- `np.arange(a, b, step)` -/
def npArange (a b step : ℝ) : List ℝ := (List.range ⌈(b - a) / step⌉.toNat).map fun i : ℕ => a + i * step

/-- `np.mean(np.exp(r * np.arange(1, T+1)))` for `T = 10` (lines 72, 159) -/
def meanGrowth (r : ℝ) : ℝ := ((npArange 1 11 1).map fun t => Real.exp (r * t)).sum / 10

/-- line 60: `fs` -/
def simStates : List ℝ := (npArange (-0.8) 0.85 0.05).map (· / (0.2 * Real.sqrt 0.5 * Real.sqrt 10))

/-- line 154: `sfs` -/
def simStatesAlt : List ℝ := (npArange (-2.6) 0.85 0.05).map (· / (0.2 * Real.sqrt 0.5 * Real.sqrt 10))

/-- line 72: face value of the bank's debt -/
def simD : ℝ := 0.63 * Real.exp (0.01 * 5) * meanGrowth 0.01

/-- lines 66-82: `param` -/
def simParam : CohortParam :=
  { r := 0.01, T := 10, bookF := 0.6 + 3 * 0.02, H := 5, D := simD, rho := 0.5, ltv := 0.66, sig := 0.2, d := 0.005,
    y := 0.002, g := some 0.5 }

/-- `np.argmin`: the first NaN if there is one, otherwise the first minimum -/
def npArgmin (l : List XR) : Except PyErr ℕ :=
  if l = [] then .error .valueError
  else .ok (if ∃ v ∈ l, v.isNan then l.findIdx fun v => v.isNan
    else l.findIdx fun v => ∀ u ∈ l, ¬ u < v)

/-- `np.max` of a 1-D array -/
def npAmax : List XR → Except PyErr XR
  | [] => .error .valueError
  | a :: l => .ok (l.foldl XR.npMax a)

/-- what the loop of lines 125-141 stores for one state -/
structure MertonFit where
  dd : XR
  def_ : XR
  GG : XR
  sp : XR
  A : XR
  s : XR

/-- distance to default, lines 133-135 and 253-255 -/
def distToDefault (A D r y s H : XR) : XR :=
  (XR.log A - XR.log D + (r - y - XR.sq s / 2) * H) / (s * XR.sqrt H)

/-- body of the loop of lines 125-141 -/
def mertonFit (solve2 : FSolve2) (E sigE D r y H g : XR) : MertonFit :=
  let initb := (E + D * XR.exp (-r * H), sigE / 2)                           -- 126
  let bout := solve2 (fun b => mertonSolution b E D r y H sigE) initb        -- 128
  let A := bout.1                                                            -- 130
  let s := XR.pyMax bout.2 0.0001                                            -- 131
  let dd := distToDefault A D r y s H                                        -- 133-135
  let P := (blsprice A D r H s y).2                                          -- 137
  let DR := D * XR.exp (-r * H)
  { dd := dd, def_ := XR.ncdf (-dd), GG := g * P, sp := (1 / H) * XR.log (DR / (DR - P)), A := A, s := s }

/-- `np.meshgrid(sfs, sig, r, np.arange(0.4, 1.45, 0.01), indexing="ij")`, lines 161-163, 192-194, 222-224 -/
def simGrid (f : ℕ → ℕ → ℝ) : Arr4 :=
  ⟨simStatesAlt.length, 1, 1, (npArange 0.4 1.45 0.01).length, fun s _ _ q => f s q⟩

/-- `x.squeeze().ravel()` of a table of shape `(G, 1, 1, Q)` -/
def ravel2 (G Q : ℕ) (x : ℕ → ℕ → ℕ → ℕ → XR) : List XR :=
  (List.range (G * Q)).map fun i => x (i / Q) 0 0 (i % Q)

/-- alternative models (1)-(3): a lookup table and two interpolations (lines 161-181, 192-213, 222-243) -/
def altModel (look : ShockGen → LookupArgs → Arr4 → Arr4 → Arr4 → Arr4 → ℕ → ℕ → Except PyErr Tables)
    (gen : ShockGen) (gd : GridData) (T rho sig : ℝ) (Nsim : ℕ) (xi : List (XR × XR)) :
    Except PyErr (List XR × List XR) := do
  let t ← look gen { d := 0.005, y := 0.002, T := T, H := 5, bookD := 0.63 * meanGrowth 0.01, rho := rho, ltv := 0.66 }
    (simGrid fun s _ => simStatesAlt.getD s 0) (simGrid fun _ _ => 0.01)
    (simGrid fun _ q => (npArange 0.4 1.45 0.01).getD q 0) (simGrid fun _ _ => sig) 10 Nsim
  let G := simStatesAlt.length
  let Q := (npArange 0.4 1.45 0.01).length
  let pts := (ravel2 G Q t.xEt).zip (ravel2 G Q t.xsigEt)
  let ymdef ← gd pts (ravel2 G Q t.xmdef) xi
  let yFt ← gd pts (ravel2 G Q t.xFt) xi
  return (ymdef, yFt)

/-- one column of Table 1 (lines 287-295) -/
structure TableColumn where
  mFt : XR
  Lt : XR
  mktCR : XR
  mdef : XR
  sp : XR
  mertdef : XR
  mertsp : XR

/-- what `simulate` computes: the table it prints and the arrays it plots -/
structure SimResult where
  out : CohortOut
  j0 : ℕ
  mface : XR
  fit : ℕ → MertonFit
  mktCR : ℕ → XR
  sp : ℕ → XR
  alt1 : List XR × List XR
  alt2 : List XR × List XR
  alt3 : List XR × List XR
  xmertdef : ℕ → XR
  noShock : TableColumn
  up : TableColumn
  down : TableColumn

/-- `a[i]` for all seven rows of a column of the table; the vectors have `K` entries -/
def tableColumn (K : ℕ) (i : ℤ) (o : CohortOut) (fit : ℕ → MertonFit) (mktCR sp : ℕ → XR) : Except PyErr TableColumn := do
  let c ← pyCol K i
  return { mFt := o.mFt c, Lt := o.Lt c, mktCR := mktCR c, mdef := o.mdef c, sp := sp c * 100, mertdef := (fit c).def_,
           mertsp := (fit c).sp * 100 }

/-- `simulate(Nsim)` -/
def simulate (solve : FSolve) (solve2 : FSolve2) (gen : ShockGen) (gd : GridData) (Nsim : ℕ) : Except PyErr SimResult := do
  let o ← multiCohort solve simStates simParam 10 Nsim (gen 1 Nsim (3 * 10))  -- 84
  let K := simStates.length                                                  -- 96
  let r : XR := .fin 0.01
  let y : XR := .fin 0.002
  let H : XR := .fin 5
  let D : XR := .fin simD
  let tmp := (List.range K).map fun k => XR.abs (o.mFt k - XR.exp (r * .fin 10 / 2))   -- 90
  let j0 ← npArgmin tmp                                                      -- 91
  let top ← npAmax ((List.range Nsim).map fun i => o.face i j0)              -- 94
  let mface := top * XR.exp (-r * ((.fin 10 - H) / 2))
  let fit := fun k => mertonFit solve2 (o.Et k) (o.sigEt k) D r y H (.fin 0.5)          -- 125-141
  let mktCR := fun k => o.Et k / (o.Et k + o.Bt k)                           -- 145
  let sp := fun k => (1 / H) * XR.log ((D * XR.exp (-r * H)) / o.Bt k)       -- 146
  let xi := (List.range K).map fun k => (o.Et k, o.sigEt k)
  let alt1 ← altModel (multiLookup solve) gen gd 10 0.99 (0.2 * Real.sqrt 0.5) Nsim xi  -- 152-181
  let alt2 ← altModel (singleLookup solve) gen gd 5 0.5 0.2 Nsim xi          -- 188-213
  let alt3 ← altModel (singleLookup solve) gen gd 5 0.99 (0.2 * Real.sqrt 0.5) Nsim xi  -- 218-243
  let xmertdef := fun k => XR.ncdf (-distToDefault (o.Lt k) D r y (o.sigLt k) H)        -- 250-256
  let noShock ← tableColumn K (j0 : ℤ) o fit mktCR sp                        -- 279-298
  let up ← tableColumn K ((j0 : ℤ) + 8) o fit mktCR sp                       -- 261
  let down ← tableColumn K ((j0 : ℤ) - 8) o fit mktCR sp                     -- 262
  return { out := o, j0 := j0, mface := mface, fit := fit, mktCR := mktCR, sp := sp, alt1 := alt1, alt2 := alt2,
           alt3 := alt3, xmertdef := xmertdef, noShock := noShock, up := up, down := down }

end
end Frds.Model

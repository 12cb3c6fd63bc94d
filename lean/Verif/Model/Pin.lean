import Verif.Basic.Np
import Verif.Model.Srisk

/-! Model of `src/frds/measures/_probability_of_informed_trading.py`. -/
namespace Frds.Model
noncomputable section
open Frds Classical

/-- all multi-indices of an array of the given shape, in C order -/
def indices : List ℕ → List (List ℕ)
  | [] => [[]]
  | n :: t => (List.range n).flatMap fun i => (indices t).map (i :: ·)

/-- all entries of an array in C order -/
def Nd.flat (x : Nd) : List XR := (indices x.shape).map x.at_

/-- parameter vector `(alpha, delta, eB, eS, mu)` -/
structure PinVec where
  alpha : XR
  delta : XR
  eB : XR
  eS : XR
  mu : XR

/-- lines 14-23, dataclass `Parameters` with its defaults -/
structure PinParams where
  x : PinVec := ⟨.nan, .nan, .nan, .nan, .nan⟩
  loglikelihood : XR := .nan
  pin : XR := .nan
  method : String := ""

/-- lines 25-31, `calculate_pin` (NumPy scalar division) -/
def calculatePin (p : PinVec) : XR := p.alpha * p.mu / (p.alpha * p.mu + p.eB + p.eS)

/-- the object: data (flattened), success flag and parameters -/
structure PinObj where
  B : List XR
  S : List XR
  success : Bool
  params : PinParams

/-- an arbitrary Python argument -/
inductive PyArg where
  | nd (x : Nd)
  | other

/-- lines 33-47, constructor; `len` of a zero-dimensional array raises `TypeError` -/
def pinCtor (B S : PyArg) : Except PyErr PinObj :=
  match B, S with
  | .nd b, .nd s =>
    if b.shape ≠ s.shape then .error .assertionError                               -- 42
    else if b.shape = [] then .error .typeError                                    -- 45
    else .ok ⟨b.flat, s.flat, false, {}⟩                                           -- 43-47
  | _, _ => .error .assertionError                                                 -- 40-41

/-- line 113: the grid -/
def pinGrid : List XR := [0.1, 0.3, 0.5, 0.7, 0.9]

/-- lines 115-121: one grid point -/
def pinStart (B S : List XR) (alpha delta gamma : XR) : Option PinVec :=
  let bBar := Np.mean B                                                            -- 115
  let eB := gamma * bBar                                                           -- 116
  let mu := (bBar - eB) / (alpha * (1 - delta))                                    -- 117
  let eS := Np.mean S - alpha * delta * mu                                         -- 118
  if eS < 0 then none else some ⟨alpha, delta, eB, eS, mu⟩                         -- 119-121

/-- lines 105-121, `init_params_grid_search`: `product(grid, grid, grid)` in order -/
def pinStarts (B S : List XR) : List PinVec :=
  pinGrid.flatMap fun alpha => pinGrid.flatMap fun delta =>
    pinGrid.filterMap fun gamma => pinStart B S alpha delta gamma

/-- lines 123-145, `loglikelihood_EHO2010` (returns minus the log-likelihood) -/
def eho2010 (B S : List XR) (p : PinVec) : XR :=
  let xs := p.eS / (p.mu + p.eS)                                                   -- 133
  let xb := p.eB / (p.mu + p.eB)                                                   -- 134
  let day1 := fun b s : XR =>
    let M := XR.npMin b s + XR.npMax b s / 2                                       -- 137
    (-p.eB) - p.eS + M * (XR.log xb + XR.log xs) + b * XR.log (p.mu + p.eB)
      + s * XR.log (p.mu + p.eS)                                                   -- 139-140
  let day2 := fun b s : XR =>
    let M := XR.npMin b s + XR.npMax b s / 2
    XR.log (p.alpha * (1 - p.delta) * XR.exp (-p.mu) * XR.rpow xs (s - M) * XR.rpow xb (-M)
      + p.alpha * p.delta * XR.exp (-p.mu) * XR.rpow xb (b - M) * XR.rpow xs (-M)
      + (1 - p.alpha) * XR.rpow xs (s - M) * XR.rpow xb (b - M))                   -- 141-143
  (-((List.zipWith day1 B S).sum + (List.zipWith day2 B S).sum))                     -- 139-145

/-- lines 147-169, `loglikelihood_LK2011` -/
def lk2011 (B S : List XR) (p : PinVec) : XR :=
  let e1 := fun _b s : XR => -p.mu - s * XR.log (1 + p.mu / p.eS)                  -- 159
  let e2 := fun b _s : XR => -p.mu - b * XR.log (1 + p.mu / p.eB)                  -- 160
  let e3 := fun b s : XR => -b * XR.log (1 + p.mu / p.eB) - s * XR.log (1 + p.mu / p.eS)  -- 161
  let emax := fun b s : XR => XR.npMax (XR.npMax (e1 b s) (e2 b s)) (e3 b s)       -- 162
  let day1 := fun b s : XR =>
    -p.eB - p.eS + b * XR.log (p.mu + p.eB) + s * XR.log (p.mu + p.eS) + emax b s  -- 164
  let day2 := fun b s : XR =>
    XR.log (p.alpha * (1 - p.delta) * XR.exp (e1 b s - emax b s)
      + p.alpha * p.delta * XR.exp (e2 b s - emax b s)
      + (1 - p.alpha) * XR.exp (e3 b s - emax b s))                                -- 165-167
  (-((List.zipWith day1 B S).sum + (List.zipWith day2 B S).sum))

/-- result of `scipy.optimize.minimize` -/
structure OptRes where
  success : Bool
  x : PinVec
  f : XR

/-- the external optimiser: any function of bounds, objective and start -/
abbrev PinMinimizer := List (XR × XR) → (PinVec → XR) → PinVec → OptRes

/-- lines 95-102: one optimiser result -/
def pinAccept (method : String) (o : PinObj) (r : OptRes) : PinObj :=
  if r.success then                                                                -- 95
    let ll := o.params.loglikelihood                                               -- 96
    if ll.isNan ∨ (-r.f < .pinf ∧ ll < -r.f) then                                  -- 97
      { o with
        params := { x := r.x, loglikelihood := -r.f, pin := calculatePin r.x, method := method }
        success := true }                                                          -- 98-101
    else o
  else o

/-- lines 66-72 -/
def pinBounds : List (XR × XR) := [(0, 1), (0, 1), (0, .pinf), (0, .pinf), (0, .pinf)]

/-- lines 49-103, `estimate`: new object and returned parameters -/
def pinEstimate (mini : PinMinimizer) (o : PinObj) (method : String) : Except PyErr (PinObj × PinParams) :=
  if method ≠ "EHO2010" ∧ method ≠ "LK2011" then .error .valueError                -- 61-62
  else
    let o1 := { o with params := {} }                                              -- 75
    let func := if method = "EHO2010" then eho2010 o.B o.S else lk2011 o.B o.S     -- 76-79
    let o2 := (pinStarts o.B o.S).foldl (fun o s => pinAccept method o (mini pinBounds func s)) o1   -- 88-102
    .ok (o2, o2.params)                                                            -- 103

end
end Frds.Model

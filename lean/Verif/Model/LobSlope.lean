import Verif.Basic.Np

/-! Model of `src/frds/measures/lob_slope.py`. -/
namespace Frds.Model
noncomputable section
open Frds Classical

/-- A NumPy array argument of one or two dimensions. A 2-D array of shape `(n, k)` is
`d2 k rows` with `n = rows.length`; `wf` says every row has `k` entries.
Higher dimensions are not modelled (there `n, k = x.shape` raises `ValueError`). -/
inductive Arr where
  | d1 (v : List XR)
  | d2 (k : ℕ) (rows : List (List XR))

/-- representation invariant of a 2-D array -/
def Arr.wf : Arr → Prop
  | .d1 _ => True
  | .d2 k rows => ∀ r ∈ rows, r.length = k

/-- `x.shape` -/
def Arr.shape : Arr → List ℕ
  | .d1 v => [v.length]
  | .d2 k rows => [rows.length, k]

/-- `np.sum(x, axis=1)`; on a 1-D array NumPy raises `AxisError`, a subclass of `ValueError`
(and of `IndexError`), modelled as `valueError`. -/
def sumAxis1 : Arr → Except PyErr (List XR)
  | .d1 _ => .error .valueError
  | .d2 _ rows => .ok (rows.map List.sum)

/-- `x[:, j]`: `IndexError` if column `j` does not exist or `x` is 1-D. -/
def column (x : Arr) (j : ℕ) : Except PyErr (List XR) :=
  match x with
  | .d1 _ => .error .indexError
  | .d2 k rows => if j < k then .ok (rows.map fun r => r.getD j .nan) else .error .indexError

/-- `lob_slope.py` lines 4-21: the three functions that only raise. -/
def nS2006Slope : Except PyErr XR := .error .notImplementedError
def gN2019Slope : Except PyErr XR := .error .notImplementedError
def hS2001LogQuoteSlope : Except PyErr XR := .error .notImplementedError

/-- The assertions of lines 54-57 and 93-96. -/
def slopeChecks (size mid : Arr) : Except PyErr Unit :=
  match size with
  | .d1 _ => .error .assertionError                                  -- line 54
  | .d2 k rows =>
    if ¬ 1 < k then .error .assertionError                           -- line 56
    else match mid with
      | .d1 m => if rows.length = m.length then .ok () else .error .assertionError  -- line 57
      | .d2 _ _ => .error .assertionError

/-- 1-D contents (the price argument of the slope functions is taken to be 1-D). -/
def Arr.vec : Arr → List XR
  | .d1 v => v
  | .d2 _ _ => []

/-- `lob_slope.py` lines 24-60, `DGGW_ask_slope` (price argument 1-D). -/
def askSlope (size : Arr) (price : List XR) (mid : Arr) : Except PyErr XR := do
  slopeChecks size mid
  let depth ← sumAxis1 size
  let dist ← Np.bcast (· - ·) price mid.vec
  let slope ← Np.bcast (· / ·) depth dist                            -- line 59
  return Np.nanmean slope                                            -- line 60

/-- `lob_slope.py` lines 63-99, `DGGW_bid_slope` (price argument 1-D). -/
def bidSlope (size : Arr) (price : List XR) (mid : Arr) : Except PyErr XR := do
  slopeChecks size mid
  let depth ← sumAxis1 size
  let dist ← Np.bcast (· - ·) price mid.vec
  let slope ← Np.bcast (· / ·) depth (dist.map XR.abs)               -- line 98
  return Np.nanmean slope                                            -- line 99

/-- `lob_slope.py` lines 102-120, `DGGW_bid_side_slope_difference`. -/
def bidSideSlopeDifference (size price : Arr) : Except PyErr XR :=
  match size with
  | .d1 _ => .error .assertionError                                  -- line 114
  | .d2 k rows =>
    if ¬ 1 < k then .error .assertionError                           -- line 116
    else do
      -- line 118
      let s4 ← column (.d2 k rows) 4
      let s2 ← column (.d2 k rows) 2
      let num ← Np.bcast (· - ·) s4 s2
      let p4 ← column price 4
      let p2 ← column price 2
      let den ← Np.bcast (· - ·) p4 p2
      let slopeH ← Np.bcast (· / ·) num (den.map XR.abs)
      -- line 119
      let s0 ← column (.d2 k rows) 0
      let num' ← Np.bcast (· - ·) s2 s0
      let p0 ← column price 0
      let den' ← Np.bcast (· - ·) p2 p0
      let slopeL ← Np.bcast (· / ·) num' (den'.map XR.abs)
      let d ← Np.bcast (· - ·) slopeH slopeL
      return Np.nanmean d                                            -- line 120

/-- `lob_slope.py` lines 123-135, `DGGW_ask_side_slope_difference`. -/
def askSideSlopeDifference (size price : Arr) : Except PyErr XR :=
  bidSideSlopeDifference size price

/-- `lob_slope.py` lines 138-171, `DGGW_scaled_depth_difference`. -/
def scaledDepthDifference (bid ask : Arr) : Except PyErr XR :=
  if bid.shape ≠ ask.shape then .error .assertionError               -- line 167
  else do
    let bd ← sumAxis1 bid
    let ad ← sumAxis1 ask
    let num ← Np.bcast (· - ·) ad bd
    let den ← Np.bcast (· + ·) ad bd
    let sdd ← Np.bcast (· / ·) (num.map fun x => 2 * x) den          -- line 170
    return Np.nanmean sdd                                            -- line 171

end
end Frds.Model

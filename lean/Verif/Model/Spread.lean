import Verif.Basic.Np

/-! Model of `src/frds/measures/spread.py` and `src/frds/measures/price_impact.py`
for one-dimensional arrays. -/
namespace Frds.Model
noncomputable section
open Frds Classical

/-- The `trade_direction` argument: the code distinguishes only "is an
`np.ndarray`" from everything else (`spread.py` line 53). -/
inductive TradeDir where
  | none
  | list (d : List XR)
  | array (d : List XR)

/-- `spread.py` lines 4-24, `quoted_spread`. -/
def quotedSpread (bid ask : List XR) (pct : Bool) : Except PyErr XR :=
  if bid.length ≠ ask.length then .error .assertionError   -- line 18
  else if pct then
    let midpt := List.zipWith (fun b a => (b + a) / 2) bid ask            -- line 20
    let spread := List.zipWith (· / ·) (List.zipWith (fun a b => a - b) ask bid) midpt  -- line 21
    .ok (Np.mean spread * 100)                                            -- line 22
  else
    .ok (Np.mean (List.zipWith (fun a b => XR.log a - XR.log b) ask bid)) -- line 24

/-- `spread.py` lines 66-69 = 114-117 = `price_impact.py` lines 45-48: dollar volume
weights, unweighted NaN-mean if all dollar volumes are zero. -/
def dollarWeighted (spread volume price : List XR) : Except PyErr XR := do
  let dv ← Np.bcast (· * ·) volume price
  if Np.all (fun v => XR.feq v 0) dv then .ok (Np.nanmean spread)
  else Np.average spread dv

/-- `spread.py` lines 27-69, `effective_spread`. -/
def effectiveSpread (price midpoint volume : List XR) (dir : TradeDir) (pct : Bool) :
    Except PyErr XR :=
  if ¬ (price.length = midpoint.length ∧ midpoint.length = volume.length) then
    .error .assertionError                                                -- line 52
  else
    match dir with
    | .array d =>
      if price.length ≠ d.length then .error .assertionError              -- line 61
      else if pct then
        -- line 63: 2 * trade_direction * (price - midpoint) / midpoint * 100
        let pm := List.zipWith (· - ·) price midpoint
        let num := List.zipWith (fun s x => 2 * s * x) d pm
        dollarWeighted (List.zipWith (fun x m => x / m * 100) num midpoint) volume price
      else
        -- line 65
        let pm := List.zipWith (fun p m => XR.log p - XR.log m) price midpoint
        dollarWeighted (List.zipWith (fun s x => 2 * s * x) d pm) volume price
    | _ =>
      if pct then
        -- line 56: 2 * np.absolute(price - midpoint) / midpoint * 100
        let num := List.zipWith (fun p m => 2 * XR.abs (p - m)) price midpoint
        dollarWeighted (List.zipWith (fun x m => x / m * 100) num midpoint) volume price
      else
        -- line 58
        dollarWeighted
          (List.zipWith (fun p m => 2 * XR.abs (XR.log p - XR.log m)) price midpoint) volume price

/-- `spread.py` lines 72-117, `realized_spread`. -/
def realizedSpread (price midpointLater midpoint volume : List XR) (dir : TradeDir) (pct : Bool) :
    Except PyErr XR :=
  if ¬ (price.length = midpointLater.length ∧ midpointLater.length = midpoint.length ∧
      midpoint.length = volume.length) then
    .error .assertionError                                                -- line 100
  else
    match dir with
    | .array d =>
      if price.length ≠ d.length then .error .assertionError              -- line 109
      else if pct then
        -- line 111
        let pm := List.zipWith (· - ·) price midpointLater
        let num := List.zipWith (fun s x => 2 * s * x) d pm
        dollarWeighted (List.zipWith (fun x m => x / m * 100) num midpoint) volume price
      else
        -- line 113
        let pm := List.zipWith (fun p m => XR.log p - XR.log m) price midpointLater
        dollarWeighted (List.zipWith (fun s x => 2 * s * x) d pm) volume price
    | _ =>
      if pct then
        -- line 104
        let num := List.zipWith (fun p m => 2 * XR.abs (p - m)) price midpointLater
        dollarWeighted (List.zipWith (fun x m => x / m * 100) num midpoint) volume price
      else
        -- line 106
        dollarWeighted
          (List.zipWith (fun p m => 2 * XR.abs (XR.log p - XR.log m)) price midpointLater)
          volume price

/-- `price_impact.py` lines 4-48, `simple_price_impact` (the length of `price` is
not checked, line 31). -/
def simplePriceImpact (price midpointLater midpoint volume : List XR) (dir : TradeDir)
    (pct : Bool) : Except PyErr XR :=
  if ¬ (midpointLater.length = midpoint.length ∧ midpoint.length = volume.length) then
    .error .assertionError                                                -- line 31
  else
    match dir with
    | .array d =>
      if midpoint.length ≠ d.length then .error .assertionError           -- line 40
      else if pct then
        -- line 42
        let pm := List.zipWith (· - ·) midpointLater midpoint
        let num := List.zipWith (fun s x => 2 * s * x) d pm
        dollarWeighted (List.zipWith (fun x m => x / m * 100) num midpoint) volume price
      else
        -- line 44
        let pm := List.zipWith (fun p m => XR.log p - XR.log m) midpointLater midpoint
        dollarWeighted (List.zipWith (fun s x => 2 * s * x) d pm) volume price
    | _ =>
      if pct then
        -- line 35
        let num := List.zipWith (fun p m => 2 * XR.abs (p - m)) midpointLater midpoint
        dollarWeighted (List.zipWith (fun x m => x / m * 100) num midpoint) volume price
      else
        -- line 37
        dollarWeighted
          (List.zipWith (fun p m => 2 * XR.abs (XR.log p - XR.log m)) midpointLater midpoint)
          volume price

end
end Frds.Model

import Verif.Basic.IntArr
import Verif.Model.Spread
import Verif.Model.LobSlope
import Verif.Model.Pin
import Verif.Model.Srisk

/-! The array functions of `src/frds/measures/spread.py`, `price_impact.py`, `lob_slope.py`, the PIN
likelihoods and the SRISK formula on arrays with an element type (integers wrap around).
The models in `Model/Spread`, `Model/LobSlope`, `Model/Pin` and `Model/Srisk` are the case of
`float64` arrays. One-dimensional arguments only (two-dimensional book sizes and prices). -/
namespace Frds.Model
noncomputable section
open Frds Frds.Np Classical

/-- `trade_direction`: an `ndarray` or anything else (`spread.py` line 53) -/
inductive TDir where
  | other
  | array (d : TArr)

/-- `spread.py` lines 4-24, `quoted_spread`. -/
def quotedSpreadT (bid ask : TArr) (pct : Bool) : Except PyErr XR :=
  if bid.length ≠ ask.length then .error .assertionError                  -- line 18
  else if pct then do
    let s ← bid.add ask
    let midpt := s.cast.map (· / 2)                                       -- line 20
    let d ← ask.sub bid
    let spread ← bcast (· / ·) d.cast midpt                               -- line 21
    .ok (mean spread * 100)                                               -- line 22
  else
    .ok (mean (List.zipWith (fun a b => XR.log a - XR.log b) ask.cast bid.cast))   -- line 24

/-- `spread.py` lines 66-69 = 114-117 = `price_impact.py` lines 45-48. -/
def dollarWeightedT (spread : List XR) (volume price : TArr) : Except PyErr XR := do
  let dv ← volume.mul price
  if Np.all (fun v => XR.feq v 0) dv.cast then .ok (nanmean spread)
  else average spread dv.cast

/-- the four spread formulas (`spread.py` lines 53-65, 101-113, `price_impact.py` lines 32-44):
distance of `x` from `y`, in per cent of `base` or in logarithms, with or without direction -/
def gapT (x y base : TArr) (dir : TDir) (pct : Bool) : Except PyErr (List XR) :=
  match dir with
  | .other =>
    if pct then do
      let d ← x.sub y
      bcast (fun a m => a / m * 100) d.abs.twice.cast base.cast           -- 2 * np.absolute(x - y) / base * 100
    else do
      bcast (fun a b => 2 * XR.abs (XR.log a - XR.log b)) x.cast y.cast
  | .array s =>
    if pct then do
      let d ← x.sub y
      let n ← s.twice.mul d                                               -- 2 * trade_direction * (x - y)
      bcast (fun a m => a / m * 100) n.cast base.cast
    else do
      let l ← bcast (fun a b => XR.log a - XR.log b) x.cast y.cast
      let n ← s.twice.mul (.flt l)
      .ok n.cast

/-- shape check of the direction (`spread.py` lines 61, 109, `price_impact.py` line 40) -/
def dirChecked (n : ℕ) (dir : TDir) (r : Except PyErr XR) : Except PyErr XR :=
  match dir with
  | .other => r
  | .array s => if n ≠ s.length then .error .assertionError else r

/-- `spread.py` lines 27-69, `effective_spread`. -/
def effectiveSpreadT (price midpoint volume : TArr) (dir : TDir) (pct : Bool) : Except PyErr XR :=
  if ¬ (price.length = midpoint.length ∧ midpoint.length = volume.length) then
    .error .assertionError                                                -- line 52
  else dirChecked price.length dir do
    dollarWeightedT (← gapT price midpoint midpoint dir pct) volume price

/-- `spread.py` lines 72-117, `realized_spread`. -/
def realizedSpreadT (price later midpoint volume : TArr) (dir : TDir) (pct : Bool) : Except PyErr XR :=
  if ¬ (price.length = later.length ∧ later.length = midpoint.length ∧
      midpoint.length = volume.length) then
    .error .assertionError                                                -- line 100
  else dirChecked price.length dir do
    dollarWeightedT (← gapT price later midpoint dir pct) volume price

/-- `price_impact.py` lines 4-48, `simple_price_impact`. -/
def simplePriceImpactT (price later midpoint volume : TArr) (dir : TDir) (pct : Bool) :
    Except PyErr XR :=
  if ¬ (later.length = midpoint.length ∧ midpoint.length = volume.length) then
    .error .assertionError                                                -- line 31
  else dirChecked midpoint.length dir do
    dollarWeightedT (← gapT later midpoint midpoint dir pct) volume price

/-- assertions of `lob_slope.py` lines 54-57 and 93-96 for a 2-D size array -/
def slopeChecksT (size : TMat) (mid : TArr) : Except PyErr Unit :=
  if ¬ 1 < size.shape.2 then .error .assertionError
  else if size.shape.1 = mid.length then .ok () else .error .assertionError

/-- `lob_slope.py` lines 24-60, `DGGW_ask_slope`. -/
def askSlopeT (size : TMat) (price mid : TArr) : Except PyErr XR := do
  slopeChecksT size mid
  let dist ← price.sub mid
  let slope ← bcast (· / ·) size.sumAxis1.cast dist.cast                  -- line 59
  return nanmean slope                                                    -- line 60

/-- `lob_slope.py` lines 63-99, `DGGW_bid_slope`. -/
def bidSlopeT (size : TMat) (price mid : TArr) : Except PyErr XR := do
  slopeChecksT size mid
  let dist ← price.sub mid
  let slope ← bcast (· / ·) size.sumAxis1.cast dist.abs.cast              -- line 98
  return nanmean slope                                                    -- line 99

/-- `lob_slope.py` lines 102-120, `DGGW_bid_side_slope_difference` (2-D arguments). -/
def slopeDifferenceT (size price : TMat) : Except PyErr XR :=
  if ¬ 1 < size.shape.2 then .error .assertionError                       -- line 116
  else do
    -- line 118
    let s4 ← size.column 4
    let s2 ← size.column 2
    let num ← s4.sub s2
    let p4 ← price.column 4
    let p2 ← price.column 2
    let den ← p4.sub p2
    let slopeH ← bcast (· / ·) num.cast den.abs.cast
    -- line 119
    let s0 ← size.column 0
    let num' ← s2.sub s0
    let p0 ← price.column 0
    let den' ← p2.sub p0
    let slopeL ← bcast (· / ·) num'.cast den'.abs.cast
    let d ← bcast (· - ·) slopeH slopeL
    return nanmean d                                                      -- line 120

/-- `lob_slope.py` lines 138-171, `DGGW_scaled_depth_difference` (2-D arguments). -/
def scaledDepthDifferenceT (bid ask : TMat) : Except PyErr XR :=
  if bid.shape ≠ ask.shape then .error .assertionError                    -- line 167
  else do
    let bd := bid.sumAxis1                                                -- line 168
    let ad := ask.sumAxis1                                                -- line 169
    let num ← ad.sub bd
    let den ← ad.add bd
    let sdd ← bcast (· / ·) num.twice.cast den.cast                       -- line 170
    return nanmean sdd                                                    -- line 171

/-- `_probability_of_informed_trading.py` lines 147-169, `loglikelihood_LK2011`: the only integer
operation is `-B` (line 161); everything else involves a float. -/
def lk2011T (B S : TArr) (p : PinVec) : XR :=
  let e1 := fun s : XR => -p.mu - s * XR.log (1 + p.mu / p.eS)                     -- 159
  let e2 := fun b : XR => -p.mu - b * XR.log (1 + p.mu / p.eB)                     -- 160
  let e3 := fun nb s : XR => nb * XR.log (1 + p.mu / p.eB) - s * XR.log (1 + p.mu / p.eS)   -- 161
  let days := List.zip (List.zip B.cast B.neg.cast) S.cast
  let emax := fun d : (XR × XR) × XR => XR.npMax (XR.npMax (e1 d.2) (e2 d.1.1)) (e3 d.1.2 d.2)  -- 162
  (-((days.map fun d =>
      -p.eB - p.eS + d.1.1 * XR.log (p.mu + p.eB) + d.2 * XR.log (p.mu + p.eS) + emax d).sum     -- 164
    + (days.map fun d => XR.log (p.alpha * (1 - p.delta) * XR.exp (e1 d.2 - emax d)
      + p.alpha * p.delta * XR.exp (e2 d.1.1 - emax d)
      + (1 - p.alpha) * XR.exp (e3 d.1.2 d.2 - emax d))).sum))                     -- 165-169

/-- lines 123-145, `loglikelihood_EHO2010`: `np.minimum` and `np.maximum` act on the typed arrays
(line 137), everything else involves a float -/
def eho2010T (B S : TArr) (p : PinVec) : Except PyErr XR := do
  let xs := p.eS / (p.mu + p.eS)                                                   -- 133
  let xb := p.eB / (p.mu + p.eB)                                                   -- 134
  let mn ← arith min XR.npMin B S
  let mx ← arith max XR.npMax B S
  let M ← bcast (fun a b => a + b / 2) mn.cast mx.cast                             -- 137
  let days := List.zip (List.zip B.cast S.cast) M
  .ok (-((days.map fun d =>
      (-p.eB) - p.eS + d.2 * (XR.log xb + XR.log xs) + d.1.1 * XR.log (p.mu + p.eB)
        + d.1.2 * XR.log (p.mu + p.eS)).sum
    + (days.map fun d =>
      XR.log (p.alpha * (1 - p.delta) * XR.exp (-p.mu) * XR.rpow xs (d.1.2 - d.2) * XR.rpow xb (-d.2)
        + p.alpha * p.delta * XR.exp (-p.mu) * XR.rpow xb (d.1.1 - d.2) * XR.rpow xs (-d.2)
        + (1 - p.alpha) * XR.rpow xs (d.1.2 - d.2) * XR.rpow xb (d.1.1 - d.2))).sum))   -- 139-145

/-- `_srisk.py` lines 92-93 on arrays `W`, `D` of equal length: the only integer operation is
`D + W` -/
def sriskArrayT (k : XR) (W D : TArr) (lrmes : List XR) : Except PyErr (List XR) := do
  let s ← D.add W
  let lvg ← bcast (· / ·) s.cast W.cast                                            -- 92
  let t ← bcast (fun x l => k * x + (1 - k) * l - 1) lvg lrmes
  bcast (· * ·) W.cast t                                                           -- 93

end
end Frds.Model

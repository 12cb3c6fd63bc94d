import Verif.Basic.Machine
import Verif.Model.Spread
import Verif.Model.LobSlope
import Verif.Model.KyleLambda
import Verif.Model.Srisk
import Verif.Model.Pin
import Verif.Model.Garch

/-! The formulas of frds in rounded arithmetic: every `+ - * /` and `sqrt` is followed by rounding, sums are taken in
some order, `exp` and `log` are those of the machine. Squares are products. Not modelled: signed zeros, fused
multiply-add, extended precision of intermediate results. -/
namespace Frds.Model.Rounded
noncomputable section
open Frds Frds.Model Classical

variable (M : Machine)

local infixl:65 " +ᵣ " => Rounding.add (Machine.R M)
local infixl:65 " -ᵣ " => Rounding.sub (Machine.R M)
local infixl:70 " *ᵣ " => Rounding.mul (Machine.R M)
local infixl:70 " /ᵣ " => Rounding.div (Machine.R M)
local prefix:max "√" => Rounding.sqrt (Machine.R M)

/-! ### NumPy reductions -/

/-- `np.mean`, `np.average` without weights: sum divided by the count (converted to float) -/
def mean (i : ℕ) (x : List XR) : XR := M.sum i x /ᵣ M.R.round (.fin x.length)

/-- `np.nanmean`: NaN entries are replaced by zero and not counted -/
def nanmean (i : ℕ) (x : List XR) : XR :=
  M.sum i (x.map fun v => if v = .nan then 0 else v) /ᵣ M.R.round (.fin (x.filter fun v => v ≠ .nan).length)

/-- `np.average` with weights of the same length -/
def average (i : ℕ) (x w : List XR) : Except PyErr XR :=
  if x.length ≠ w.length then .error .typeError
  else if XR.feq (M.sum i w) 0 then .error .zeroDivisionError
  else .ok (M.sum (i + 1) (List.zipWith (fun a b => a *ᵣ b) x w) /ᵣ M.sum i w)

/-- `np.std` -/
def std (i : ℕ) (x : List XR) : XR :=
  √(mean M (i + 1) (x.map fun v => (v -ᵣ mean M i x) *ᵣ (v -ᵣ mean M i x)))

/-! ### measures -/

/-- `_probability_of_informed_trading.py` lines 25-31, `calculate_pin` -/
def pin (p : PinVec) : XR := p.alpha *ᵣ p.mu /ᵣ (p.alpha *ᵣ p.mu +ᵣ p.eB +ᵣ p.eS)

/-- `_z_score.py` line 15 -/
def zScore (roa capitalRatio : XR) (pastRoas : List XR) : XR := (roa +ᵣ capitalRatio) /ᵣ std M 0 pastRoas

/-- `spread.py` line 20: the midpoint -/
def midpoint (b a : XR) : XR := (b +ᵣ a) /ᵣ 2

/-- `spread.py` lines 20-21: one relative spread -/
def relSpread (b a : XR) : XR := (a -ᵣ b) /ᵣ midpoint M b a

/-- `spread.py` lines 4-24, `quoted_spread` -/
def quotedSpread (bid ask : List XR) (pct : Bool) : Except PyErr XR :=
  if bid.length ≠ ask.length then .error .assertionError                          -- 18
  else if pct then .ok (mean M 0 (List.zipWith (relSpread M) bid ask) *ᵣ 100)      -- 20-22
  else .ok (mean M 0 (List.zipWith (fun a b => M.log a -ᵣ M.log b) ask bid))       -- 24

/-- `spread.py` lines 66-69, 114-117, `price_impact.py` lines 45-48 -/
def dollarWeighted (spread volume price : List XR) : Except PyErr XR := do
  let dv ← Np.bcast (fun v p => v *ᵣ p) volume price
  if Np.all (fun v => XR.feq v 0) dv then .ok (nanmean M 0 spread)
  else average M 1 spread dv

/-- one entry of `spread.py` lines 56, 104 and `price_impact.py` line 35: `2 * np.absolute(x - y) / m * 100` -/
def absPct (x y m : XR) : XR := 2 *ᵣ XR.abs (x -ᵣ y) /ᵣ m *ᵣ 100

/-- one entry of `spread.py` lines 58, 106 and `price_impact.py` line 37 -/
def absLog (x y : XR) : XR := 2 *ᵣ XR.abs (M.log x -ᵣ M.log y)

/-- one entry of `spread.py` lines 63, 111 and `price_impact.py` line 42 -/
def dirPct (d x y m : XR) : XR := 2 *ᵣ d *ᵣ (x -ᵣ y) /ᵣ m *ᵣ 100

/-- one entry of `spread.py` lines 65, 113 and `price_impact.py` line 44 -/
def dirLog (d x y : XR) : XR := 2 *ᵣ d *ᵣ (M.log x -ᵣ M.log y)

/-- the spreads of all trades: `x` against `y`, relative to `m` -/
def tradeSpreads (x y m : List XR) (dir : TradeDir) (pct : Bool) : List XR :=
  match dir with
  | .array d =>
    if pct then
      List.zipWith (fun (p : (XR × XR) × XR) m => dirPct M p.1.1 p.1.2 p.2 m) (List.zip (List.zip d x) y) m
    else List.zipWith (fun (p : XR × XR) y => dirLog M p.1 p.2 y) (List.zip d x) y
  | _ =>
    if pct then List.zipWith (fun (p : XR × XR) m => absPct M p.1 p.2 m) (List.zip x y) m
    else List.zipWith (absLog M) x y

/-- length of a direction array -/
def dirOk (dir : TradeDir) (n : ℕ) : Prop :=
  match dir with
  | .array d => n = d.length
  | _ => True

/-- `spread.py` lines 27-69, `effective_spread` -/
def effectiveSpread (price midpoint volume : List XR) (dir : TradeDir) (pct : Bool) : Except PyErr XR :=
  if ¬ (price.length = midpoint.length ∧ midpoint.length = volume.length) then .error .assertionError   -- 52
  else if ¬ dirOk dir price.length then .error .assertionError                                          -- 61
  else dollarWeighted M (tradeSpreads M price midpoint midpoint dir pct) volume price

/-- `spread.py` lines 72-117, `realized_spread` -/
def realizedSpread (price later midpoint volume : List XR) (dir : TradeDir) (pct : Bool) : Except PyErr XR :=
  if ¬ (price.length = later.length ∧ later.length = midpoint.length ∧ midpoint.length = volume.length) then
    .error .assertionError                                                                              -- 100
  else if ¬ dirOk dir price.length then .error .assertionError                                          -- 109
  else dollarWeighted M (tradeSpreads M price later midpoint dir pct) volume price

/-- `price_impact.py` lines 4-48, `simple_price_impact` -/
def simplePriceImpact (price later midpoint volume : List XR) (dir : TradeDir) (pct : Bool) : Except PyErr XR :=
  if ¬ (later.length = midpoint.length ∧ midpoint.length = volume.length) then .error .assertionError   -- 31
  else if ¬ dirOk dir midpoint.length then .error .assertionError                                       -- 40
  else dollarWeighted M (tradeSpreads M later midpoint midpoint dir pct) volume price

/-- `np.sum(x, axis=1)`; every row may be summed in its own order -/
def sumAxis1 (i : ℕ) : Arr → Except PyErr (List XR)
  | .d1 _ => .error .valueError
  | .d2 _ rows => .ok (rows.mapIdx fun j row => M.sum (i + 2 * j) row)

/-- `lob_slope.py` line 170: one entry -/
def depthDiff (bd ad : XR) : XR := 2 *ᵣ (ad -ᵣ bd) /ᵣ (ad +ᵣ bd)

/-- `lob_slope.py` lines 138-171, `DGGW_scaled_depth_difference` -/
def scaledDepthDifference (bid ask : Arr) : Except PyErr XR :=
  if bid.shape ≠ ask.shape then .error .assertionError               -- 167
  else do
    let bd ← sumAxis1 M 1 bid                                        -- 168
    let ad ← sumAxis1 M 2 ask                                        -- 169
    return nanmean M 0 (List.zipWith (depthDiff M) bd ad)            -- 170-171

/-- `lob_slope.py` lines 63-99, `DGGW_bid_slope` (price argument 1-D) -/
def bidSlope (size : Arr) (price : List XR) (mid : Arr) : Except PyErr XR := do
  slopeChecks size mid
  let depth ← sumAxis1 M 1 size
  let dist ← Np.bcast (fun p m => p -ᵣ m) price mid.vec
  let slope ← Np.bcast (fun d x => d /ᵣ x) depth (dist.map XR.abs)
  return nanmean M 0 slope

/-! ### SRISK -/

/-- `_srisk.py` lines 92-93 -/
def srisk (k W D l : XR) : XR := W *ᵣ (k *ᵣ ((D +ᵣ W) /ᵣ W) +ᵣ (1 -ᵣ k) *ᵣ l -ᵣ 1)

/-- `_srisk.py` line 97 -/
def aggregate (s : List XR) : XR := M.sum 0 (s.map fun x => XR.npMax x 0)

/-! ### GARCH -/

/-- `_garch.py` lines 329-335 / `garch.hpp` lines 7-19: one step -/
def ewmaLoop (lam : XR) : XR → List XR → List XR
  | _, [] => []
  | v, r :: t => (lam *ᵣ v +ᵣ (1 -ᵣ lam) *ᵣ (r *ᵣ r)) :: ewmaLoop lam (lam *ᵣ v +ᵣ (1 -ᵣ lam) *ᵣ (r *ᵣ r)) t

/-- `_garch.py` lines 312-335, `ewma` -/
def ewma (resids : List XR) (initial lam : XR) : Except PyErr (List XR) :=
  if resids = [] then .error .indexError
  else .ok (initial :: ewmaLoop M lam initial resids.dropLast)

/-- `_garch.py` line 268: the bounds around one clipped variance -/
def boundRow (v : XR) : XR × XR := (v /ᵣ .fin 1000000, v *ᵣ .fin 1000000)

/-- `_garch.py` lines 261-268: the rows of the bounds, given the initial variance and the global bounds -/
def boundRows (resids : List XR) (initial lo hi : XR) : Except PyErr (List (XR × XR)) := do
  let vb ← ewma M resids initial (M.R.rd (94 / 100))                               -- 261
  return (vb.map fun v => Np.clip v lo hi).map (boundRow M)                        -- 266-268

/-- `_garch.py` lines 272-292, `bounds_check`, Python path -/
def boundsCheckPy (sigma2 : XR) (b : XR × XR) : XR :=
  let s := XR.pyMax b.1 sigma2
  if b.2 < s then
    if ¬ s.isInf then b.2 +ᵣ M.log (s /ᵣ b.2) else b.2 +ᵣ 1000
  else s

/-- `garch.hpp` lines 21-31, `bounds_check` -/
def boundsCheckCpp (sigma2 : XR) (b : XR × XR) : XR :=
  let s := if sigma2 < b.1 then b.1 else sigma2
  if b.2 < s then
    if ¬ s.isInf then b.2 +ᵣ M.log (s /ᵣ b.2) else b.2 +ᵣ 1000
  else s

/-- dispatch, `_garch.py` lines 281-282 -/
def boundsCheck (cpp : Bool) : XR → XR × XR → XR := if cpp then boundsCheckCpp M else boundsCheckPy M

/-- `_garch.py` line 197 -/
def garchNext (p : GarchVar) (r s : XR) : XR := p.omega +ᵣ p.alpha *ᵣ (r *ᵣ r) +ᵣ p.beta *ᵣ s

/-- `_garch.py` lines 173-199, `GARCHModel.compute_variance` -/
def garchVariance (cpp : Bool) (p : GarchVar) (resids : List XR) (backcast : XR) (bounds : List (XR × XR)) :
    Except PyErr (List XR) :=
  variancePath (garchNext M p) (boundsCheck M cpp) (p.omega +ᵣ (p.alpha +ᵣ p.beta) *ᵣ backcast) resids bounds

/-- `_garch.py` lines 432-433 (the addition of zero in the `else` branch is carried out) -/
def gjrNext (p : GjrVar) (r s : XR) : XR :=
  (p.omega +ᵣ p.alpha *ᵣ (r *ᵣ r) +ᵣ p.beta *ᵣ s) +ᵣ (if r < 0 then p.gamma *ᵣ (r *ᵣ r) else 0)

/-- `garch.hpp` lines 61-65: nothing is added to the variance after a return that is not negative -/
def gjrNextCpp (p : GjrVar) (r s : XR) : XR :=
  let v := p.omega +ᵣ p.alpha *ᵣ (r *ᵣ r) +ᵣ p.beta *ᵣ s
  if r < 0 then v +ᵣ p.gamma *ᵣ (r *ᵣ r) else v

/-- `_garch.py` lines 408-436, `GJRGARCHModel.compute_variance` / `garch.hpp` lines 50-69 -/
def gjrVariance (cpp : Bool) (p : GjrVar) (resids : List XR) (backcast : XR) (bounds : List (XR × XR)) :
    Except PyErr (List XR) :=
  variancePath (if cpp then gjrNextCpp M p else gjrNext M p) (boundsCheck M cpp) (p.omega +ᵣ (p.alpha +ᵣ p.gamma /ᵣ 2 +ᵣ p.beta) *ᵣ backcast) resids bounds

/-! ### LRMES -/

/-- `_long_run_mes.py` lines 170, 183-191 -/
def simInit (x : SimArgs) : SimState where
  residI := x.firmResid
  residM := x.mktResid
  varI := x.firmVar
  varM := x.mktVar
  innovI := x.firmResid /ᵣ √x.firmVar
  innovM := x.mktResid /ᵣ √x.mktVar
  qi := 1
  qm := 1
  qim := x.rho

/-- `_long_run_mes.py` lines 197-201 (the addition of zero in the `else` branch is carried out) -/
def simVarPy (p : GjrParams) (resid var : XR) : XR :=
  (p.omega +ᵣ p.alpha *ᵣ (resid *ᵣ resid) +ᵣ p.beta *ᵣ var) +ᵣ (if resid < 0 then p.gamma *ᵣ (resid *ᵣ resid) else 0)

/-- `lrmes.hpp` lines 44-54 -/
def simVarCpp (p : GjrParams) (resid var : XR) : XR :=
  let v := p.omega +ᵣ p.alpha *ᵣ (resid *ᵣ resid) +ᵣ p.beta *ᵣ var
  if resid < 0 then v +ᵣ p.gamma *ᵣ (resid *ᵣ resid) else v

/-- the variance forecast of one period -/
def simVar (cpp : Bool) (p : GjrParams) (resid var : XR) : XR :=
  if cpp then simVarCpp M p resid var else simVarPy M p resid var

/-- `_long_run_mes.py` lines 197-232 / `lrmes.hpp` lines 44-79: one iteration. `a * innov**2` is `a * (innov * innov)` in
Python and `a * innov * innov` is `(a * innov) * innov` in C++. -/
def simStep (cpp : Bool) (x : SimArgs) (s : SimState) (z : XR × XR) : SimState × (XR × XR) :=
  let varI := simVar M cpp x.pi s.residI s.varI
  let varM := simVar M cpp x.pm s.residM s.varM
  let qi := (1 -ᵣ x.a -ᵣ x.b) *ᵣ x.q00 +ᵣ
    (if cpp then x.a *ᵣ s.innovI *ᵣ s.innovI else x.a *ᵣ (s.innovI *ᵣ s.innovI)) +ᵣ x.b *ᵣ s.qi
  let qm := (1 -ᵣ x.a -ᵣ x.b) *ᵣ x.q11 +ᵣ
    (if cpp then x.a *ᵣ s.innovM *ᵣ s.innovM else x.a *ᵣ (s.innovM *ᵣ s.innovM)) +ᵣ x.b *ᵣ s.qm
  let qim := (1 -ᵣ x.a -ᵣ x.b) *ᵣ x.q10 +ᵣ x.a *ᵣ s.innovI *ᵣ s.innovM +ᵣ x.b *ᵣ s.qim
  let rho := qim /ᵣ √(qi *ᵣ qm)
  let epsM := √varM *ᵣ z.2
  let epsI := √varI *ᵣ (rho *ᵣ z.2 +ᵣ √(1 -ᵣ rho *ᵣ rho) *ᵣ z.1)
  (⟨epsI, epsM, varI, varM, epsI /ᵣ √varI, z.2, qi, qm, qim⟩, (x.pi.mu +ᵣ epsI, x.pm.mu +ᵣ epsM))

/-- the loop of line 193 -/
def simLoop (cpp : Bool) (x : SimArgs) : SimState → List (XR × XR) → List (XR × XR)
  | _, [] => []
  | s, z :: zs => (simStep M cpp x s z).2 :: simLoop cpp x (simStep M cpp x s z).1 zs

/-- `np.sum` in Python, a loop from zero in C++ (`lrmes.hpp` lines 90-93, 101-104) -/
def simSum (cpp : Bool) (i : ℕ) (l : List XR) : XR := if cpp then M.R.foldSum l else M.sum i l

/-- `_long_run_mes.py` lines 136-248, `simulation` / `lrmes.hpp` lines 9-108; `i` tags the sums of this call -/
def simulation (cpp : Bool) (i : ℕ) (x : SimArgs) (inv : List (XR × XR)) : XR × Bool :=
  let rets := simLoop M cpp x (simInit M x) inv
  let mkt := simSum M cpp (2 * i) (rets.map fun r => r.2 /ᵣ 100)                   -- 235, 240
  let firm := simSum M cpp (2 * i + 1) (rets.map fun r => r.1 /ᵣ 100)              -- 236, 246
  if M.exp mkt -ᵣ 1 < x.C then (M.exp firm -ᵣ 1, true)                              -- 246-248
  else (0, false)                                                                 -- 243

/-- lines 87-130: accumulation over the simulated paths, from the `i`-th on -/
def accumulate (cpp : Bool) (x : SimArgs) : ℕ → XR × ℕ → List (List (XR × XR)) → XR × ℕ
  | _, acc, [] => acc
  | i, acc, p :: t =>
    accumulate cpp x (i + 1)
      (acc.1 +ᵣ (simulation M cpp i x p).1, acc.2 + (if (simulation M cpp i x p).2 then 1 else 0)) t

/-- lines 132-134 -/
def lrmesResult (acc : XR × ℕ) : XR := if acc.2 = 0 then 0 else -acc.1 /ᵣ M.R.round (.fin acc.2)

/-- lines 85-134 of `estimate`, given the arguments and innovations of the simulations -/
def lrmes (cpp : Bool) (x : SimArgs) (paths : List (List (XR × XR))) : XR :=
  lrmesResult M (accumulate M cpp x 0 (0, 0) paths)

end
end Frds.Model.Rounded

import Verif.Basic.Np
import Verif.Model.Lrmes

/-! Model of `src/frds/algorithms/_garch.py` and of the C++ kernels in
`src/frds/algorithms/utils/garch.hpp`. -/
namespace Frds.Model
noncomputable section
open Frds Classical

/-! ### static helpers -/

/-- `_garch.py` lines 158-171, `loglikelihood` (equal-length arrays). -/
def loglik (resids sigma2 : List XR) : XR :=
  (List.zipWith (fun r s =>
    .fin (-(1 / 2)) * (XR.log (.fin (2 * Real.pi)) + XR.log s + XR.sq r / s)) resids sigma2).sum

/-- `_garch.py` lines 272-292, `bounds_check`, Python path. `max(lower, sigma2)` returns `lower`
unless `sigma2 > lower`. -/
def boundsCheckPy (sigma2 : XR) (b : XR × XR) : XR :=
  let s := XR.pyMax b.1 sigma2                                            -- 285
  if b.2 < s then                                                         -- 286
    if ¬ s.isInf then b.2 + XR.log (s / b.2)                              -- 287-288
    else b.2 + 1000                                                       -- 290
  else s                                                                  -- 291

/-- `garch.hpp` lines 21-31, `bounds_check`. -/
def boundsCheckCpp (sigma2 : XR) (b : XR × XR) : XR :=
  let s := if sigma2 < b.1 then b.1 else sigma2                           -- 22
  if b.2 < s then
    if ¬ s.isInf then b.2 + XR.log (s / b.2) else b.2 + 1000              -- 23-28
  else s

/-- lines 281-282: dispatch -/
def boundsCheck (cpp : Bool) : XR → XR × XR → XR := if cpp then boundsCheckCpp else boundsCheckPy

/-- loop of `_garch.py` lines 195-198 / 431-435: `next r s` is the recursion, the list pairs
`resids[t-1]` with `var_bounds[t]` for `t = 1, 2, ...`. -/
def varLoop (next : XR → XR → XR) (chk : XR → XR × XR → XR) : XR → List (XR × (XR × XR)) → List XR
  | _, [] => []
  | s, (r, b) :: t => chk (next r s) b :: varLoop next chk (chk (next r s) b) t

/-- a variance path: first value `s0`, then the loop. `IndexError` on an empty array
(`sigma2[0]`) or when a bound row is missing (`var_bounds[t]`). The C++ kernel has undefined
behaviour in those two cases; modelled as the same error. -/
def variancePath (next : XR → XR → XR) (chk : XR → XR × XR → XR) (s0 : XR)
    (resids : List XR) (bounds : List (XR × XR)) : Except PyErr (List XR) :=
  if resids = [] then .error .indexError
  else if 2 ≤ resids.length ∧ bounds.length < resids.length then .error .indexError
  else .ok (s0 :: varLoop next chk s0 (List.zip resids.dropLast bounds.tail))

/-- GARCH parameters `[omega, alpha, beta]` -/
structure GarchVar where
  omega : XR
  alpha : XR
  beta : XR

/-- `_garch.py` lines 192-199 / `garch.hpp` lines 33-48, recursion -/
def garchNext (p : GarchVar) (r s : XR) : XR := p.omega + p.alpha * XR.sq r + p.beta * s

/-- `_garch.py` lines 173-199, `GARCHModel.compute_variance` -/
def garchVariance (cpp : Bool) (p : GarchVar) (resids : List XR) (backcast : XR)
    (bounds : List (XR × XR)) : Except PyErr (List XR) :=
  variancePath (garchNext p) (boundsCheck cpp) (p.omega + (p.alpha + p.beta) * backcast) resids bounds

/-- GJR parameters `[omega, alpha, gamma, beta]` -/
structure GjrVar where
  omega : XR
  alpha : XR
  gamma : XR
  beta : XR

/-- `_garch.py` lines 432-433 -/
def gjrNextPy (p : GjrVar) (r s : XR) : XR :=
  (p.omega + p.alpha * XR.sq r + p.beta * s) + (if r < 0 then p.gamma * XR.sq r else 0)

/-- `garch.hpp` lines 61-65 -/
def gjrNextCpp (p : GjrVar) (r s : XR) : XR :=
  let v := p.omega + p.alpha * XR.sq r + p.beta * s
  if r < 0 then v + p.gamma * XR.sq r else v

/-- `_garch.py` lines 408-436, `GJRGARCHModel.compute_variance` -/
def gjrVariance (cpp : Bool) (p : GjrVar) (resids : List XR) (backcast : XR)
    (bounds : List (XR × XR)) : Except PyErr (List XR) :=
  variancePath (if cpp then gjrNextCpp p else gjrNextPy p) (boundsCheck cpp)
    (p.omega + (p.alpha + p.gamma / 2 + p.beta) * backcast) resids bounds

/-- `_garch.py` lines 438-461, `forecast_variance` (no bounds; returns `sigma2[1:]`). -/
def forecastVariance (p : GjrVar) (resids : List XR) (initial : XR) : Except PyErr (List XR) :=
  if resids = [] then .error .indexError
  else .ok (varLoop (gjrNextPy p) (fun s _ => s) initial (resids.dropLast.map fun r => (r, (0, 0))))

/-- `_garch.py` lines 329-335, `ewma`, Python path, from `variance[t-1]` on -/
def ewmaLoopPy (lam : XR) : XR → List XR → List XR
  | _, [] => []
  | v, r2 :: t => (lam * v + (1 - lam) * r2) :: ewmaLoopPy lam (lam * v + (1 - lam) * r2) t

/-- `garch.hpp` lines 7-19 -/
def ewmaLoopCpp (lam : XR) : XR → List XR → List XR
  | _, [] => []
  | v, r :: t => (lam * v + (1 - lam) * (r * r)) :: ewmaLoopCpp lam (lam * v + (1 - lam) * (r * r)) t

/-- `_garch.py` lines 312-335, `ewma` -/
def ewma (cpp : Bool) (resids : List XR) (initial lam : XR) : Except PyErr (List XR) :=
  if resids = [] then .error .indexError
  else .ok (initial :: if cpp then ewmaLoopCpp lam initial resids.dropLast
    else ewmaLoopPy lam initial (resids.map XR.sq).dropLast)

/-- `0.94 ** np.arange(tau)` -/
def decayWeights (tau : ℕ) : List XR := (List.range tau).map fun i => .fin ((94 / 100 : ℝ) ^ i)

/-- `_garch.py` lines 294-310, `backcast` -/
def backcast (resids : List XR) : XR :=
  let tau := min 75 resids.length                                          -- 304
  let w := decayWeights tau                                                -- 306
  let w := w.map fun x => x / w.sum                                        -- 307
  (List.zipWith (fun r v => XR.sq r * v) (resids.take tau) w).sum          -- 309

/-- `x.max()` on a non-empty array: NaN propagates -/
def npMaxList : List XR → XR
  | [] => .nan
  | x :: t => t.foldl XR.npMax x

/-- `_garch.py` lines 236-270, `variance_bounds` -/
def varianceBounds (cpp : Bool) (resids : List XR) : Except PyErr (List (XR × XR)) := do
  let tau := min 75 resids.length                                          -- 254
  let weights := decayWeights tau                                          -- 257
  let weights := weights.map fun x => x / weights.sum                      -- 258
  let initial := (List.zipWith (· * ·) weights ((resids.take tau).map XR.sq)).sum   -- 259
  let vb ← ewma cpp resids initial (.fin (94 / 100))                       -- 261
  let lo := Np.var resids / .fin 100000000                                 -- 263
  let hi := .fin 10000000 * (1 + npMaxList (resids.map XR.sq))             -- 264
  let vb := vb.map fun v => Np.clip v lo hi                                -- 266
  return vb.map fun v => (v / .fin 1000000, v * .fin 1000000)              -- 268

/-! ### starting values -/

/-- lines 212, 475 / 214, 477 -/
def persistenceGrid : List XR := [.fin (1/2), .fin (7/10), .fin (9/10), .fin (98/100)]
def alphaGrid : List XR := [.fin (1/100), .fin (1/20), .fin (1/10), .fin (1/5)]

/-- grid search of lines 220-234 and 486-498: `max_likelihood` is never updated, so each candidate
with `-ll > -inf` replaces the previous one. `var` is a variance-path function. -/
def gridSearch {P : Type} (cands : List P) (path : P → Except PyErr (List XR)) (resids : List XR) :
    Except PyErr (Option P) :=
  cands.foldlM (fun best p => do
    let s2 ← path p
    return if .ninf < -(loglik resids s2) then some p else best) none

/-- GARCH candidates, lines 220-227 (`itertools.product(alpha_grid, persistence_grid)`) -/
def garchCands (var : XR) : List GarchVar :=
  alphaGrid.flatMap fun a => persistenceGrid.map fun p => ⟨var * (1 - p), a, p - a⟩

/-- lines 201-234, `GARCHModel.starting_values` (`none`: the empty list) -/
def garchStart (cpp : Bool) (returns resids : List XR) (bc : XR) (vb : List (XR × XR)) :
    Except PyErr (Option GarchVar) :=
  gridSearch (garchCands (Np.var returns)) (fun p => garchVariance cpp p resids bc vb) resids

/-- GJR candidates, lines 486-493 -/
def gjrCands (var : XR) : List GjrVar :=
  alphaGrid.flatMap fun a => alphaGrid.flatMap fun g => persistenceGrid.map fun p =>
    ⟨var * (1 - p), a, g, p - a - g / 2⟩

/-- lines 463-498, `GJRGARCHModel.starting_values` (recomputes bounds and backcast) -/
def gjrStart (cpp : Bool) (returns resids : List XR) : Except PyErr (Option GjrVar) := do
  let vb ← varianceBounds cpp resids
  gridSearch (gjrCands (Np.var returns)) (fun p => gjrVariance cpp p resids (backcast resids) vb) resids

/-! ### fit -/

/-- What `scipy.optimize.minimize` does: the points at which it evaluates the objective, in order,
and its result. It may depend on the objective and the start in any way. -/
structure OptRun (P : Type) where
  trace : List P
  success : Bool
  x : P
  f : XR

/-- what is passed to `minimize` besides objective and start: `bounds` (for the coordinates of the parameter
vector, in order) and the constraint functions of type `ineq` (required to be non-negative) -/
structure Feas (P : Type) where
  coords : P → List XR
  bounds : List (XR × XR)
  ineq : List (P → XR)

/-- the point satisfies the bounds and constraints -/
def Feas.holds {P : Type} (c : Feas P) (p : P) : Prop :=
  (∀ q ∈ List.zip (c.coords p) c.bounds, q.2.1 ≤ q.1 ∧ q.1 ≤ q.2.2) ∧ ∀ g ∈ c.ineq, 0 ≤ g p

abbrev Optimizer (P : Type) := Feas P → (P → XR) → P → OptRun P

/-- the estimation object (attributes set in lines 40-49); `P` = `(mu, variance parameters)` -/
structure GarchObj (V : Type) where
  returns : List XR
  zeroMean : Bool
  success : Bool := false
  /-- `None` = the all-NaN default `Parameters()` -/
  params : Option (XR × V × XR) := none
  resids : List XR
  sigma2 : List XR
  backcast : XR := .nan
  bounds : Option (List (XR × XR)) := none

/-- lines 111-114, 149-153: residuals at mean `mu` -/
def demean (returns : List XR) (mu : XR) : List XR := returns.map (· - mu)

/-- residuals used in `preparation` (lines 111-114) -/
def prepResids {V} (o : GarchObj V) : List XR :=
  if o.zeroMean then o.returns else demean o.returns (Np.mean o.returns)

/-- lines 130-156, `loglikelihood_model`: residuals and variance path at a parameter vector; the
path is stored in `self.sigma2`, the value is minus the log-likelihood. A parameter vector is a
pair `(mu, v)`; `mu` is ignored for a zero-mean model. -/
def modelPath {V} (var : V → List XR → XR → List (XR × XR) → Except PyErr (List XR)) (o : GarchObj V)
    (bc : XR) (vb : List (XR × XR)) (p : XR × V) : Except PyErr (List XR × List XR) := do
  let resids := if o.zeroMean then o.returns else demean o.returns p.1
  let s2 ← var p.2 resids bc vb
  return (resids, s2)

/-- value of the objective (errors cannot occur inside `fit`, see `fitCore`; NaN there) -/
def objective {V} (var : V → List XR → XR → List (XR × XR) → Except PyErr (List XR)) (o : GarchObj V)
    (bc : XR) (vb : List (XR × XR)) (p : XR × V) : XR :=
  match modelPath var o bc vb p with
  | .ok (r, s2) => -loglik r s2
  | .error _ => .nan

/-- `1e-6` -/
def micro : XR := .fin (1 / 10 ^ 6)

/-- lines 64-79: bounds and stationarity constraint; the first bound is dropped for zero-mean models, whose
parameter vector has no `mu` -/
def garchFeas (zeroMean : Bool) : Feas (XR × GarchVar) where
  coords p := (if zeroMean then [] else [p.1]) ++ [p.2.omega, p.2.alpha, p.2.beta]
  bounds := (if zeroMean then List.drop 1 else id)
    [(.ninf, .pinf), (micro, .pinf), (0, 1), (0, 1)]
  ineq := [fun p => 1 - (p.2.alpha + p.2.beta)]

/-- lines 364-378 -/
def gjrFeas (zeroMean : Bool) : Feas (XR × GjrVar) where
  coords p := (if zeroMean then [] else [p.1]) ++ [p.2.omega, p.2.alpha, p.2.gamma, p.2.beta]
  bounds := (if zeroMean then List.drop 1 else id)
    [(.ninf, .pinf), (micro, .pinf), (micro, 1), (micro, 1), (micro, 1)]
  ineq := [fun p => 1 - (p.2.alpha + p.2.beta + p.2.gamma / 2)]

/-- body shared by `GARCHModel.fit` (lines 59-102) and `GJRGARCHModel.fit` (lines 362-406):
preparation (104-128), optimisation, storing of the result. `start` is `starting_values`. If the
grid search yields no candidate the start vector has the wrong length and `minimize` raises
`ValueError`. -/
def fitCore {V} (cpp : Bool) (var : V → List XR → XR → List (XR × XR) → Except PyErr (List XR))
    (start : List XR → List XR → XR → List (XR × XR) → Except PyErr (Option V))
    (feas : Bool → Feas (XR × V)) (opt : Optimizer (XR × V)) (o : GarchObj V) : Except PyErr (GarchObj V) := do
  let resids := prepResids o                                               -- 111-114
  let bc := backcast resids                                                -- 115
  let vb ← varianceBounds cpp resids                                       -- 119
  let v0 ← start o.returns resids bc vb                                    -- 122
  match v0 with
  | none => .error .valueError
  | some v0 =>
    let run := opt (feas o.zeroMean) (objective var o bc vb)
      (if o.zeroMean then 0 else Np.mean o.returns, v0)                    -- 87-94
    -- every evaluation overwrites `self.sigma2` (151, 154)
    let sigma2 := match run.trace.getLast? with
      | some p => match modelPath var o bc vb p with
        | .ok (_, s2) => s2
        | .error _ => o.sigma2
      | none => o.sigma2
    let o := { o with backcast := bc, bounds := some vb, sigma2 := sigma2 }
    if run.success then                                                    -- 95
      let mu := if o.zeroMean then 0 else run.x.1                          -- 97-100
      .ok { o with success := true, params := some (mu, run.x.2, -run.f),
                   resids := demean o.returns mu }                         -- 96-101
    else .ok o

/-- `GARCHModel.fit` (lines 51-102): the new object and the returned value (`none` = Python `None`,
`some params` = `self.parameters`) -/
def garchFit (cpp : Bool) (opt : Optimizer (XR × GarchVar)) (o : GarchObj GarchVar) :
    Except PyErr (GarchObj GarchVar × Option (Option (XR × GarchVar × XR))) :=
  if o.success then .ok (o, none)                                          -- 58-59
  else do
    let o' ← fitCore cpp (garchVariance cpp) (garchStart cpp) garchFeas opt o
    return (o', some o'.params)                                            -- 102

/-- `GJRGARCHModel.fit` (lines 356-406) -/
def gjrFit (cpp : Bool) (opt : Optimizer (XR × GjrVar)) (o : GarchObj GjrVar) :
    Except PyErr (GarchObj GjrVar × Option (Option (XR × GjrVar × XR))) := do
  let o' ← fitCore cpp (gjrVariance cpp) (fun ret res _ _ => gjrStart cpp ret res) gjrFeas opt o
  return (o', some o'.params)

end
end Frds.Model

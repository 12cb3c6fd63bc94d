import Verif.Model.Garch

/-! Model of `src/frds/algorithms/_mgarch.py` and of `src/frds/algorithms/utils/mgarch.hpp`. -/
namespace Frds.Model
noncomputable section
open Frds Classical

/-! ### constant conditional correlation -/

/-- one term of `_mgarch.py` lines 181-188 -/
def cccTerm (r1 s1 r2 s2 rho : XR) : XR :=
  let z1 := r1 / XR.sqrt s1                                                 -- 181
  let z2 := r2 / XR.sqrt s2                                                 -- 182
  .fin (-(1 / 2)) * (2 * XR.log (.fin (2 * Real.pi))                        -- 184-185
    + XR.log (s1 * s2 * (1 - XR.sq rho))                                    -- 186
    + (XR.sq z1 + XR.sq z2 - 2 * rho * z1 * z2) / (1 - XR.sq rho))          -- 187

/-- `_mgarch.py` lines 158-190, `GARCHModel_CCC.loglikelihood` (equal-length arrays) -/
def cccLoglik (r1 s1 r2 s2 : List XR) (rho : XR) : XR :=
  (List.zipWith (fun (x y : XR × XR) => cccTerm x.1 x.2 y.1 y.2 rho)
    (List.zip r1 s1) (List.zip r2 s2)).sum                                  -- 189

/-- parameter vector of the CCC model, `_mgarch.py` lines 29-39 and 144 -/
structure CccVec where
  mu1 : XR
  v1 : GarchVar
  mu2 : XR
  v2 : GarchVar
  rho : XR

/-- NumPy's broadcasting of a one-element array next to arrays of length `n` -/
def stretch (n : ℕ) (x : List XR) : List XR :=
  match x with
  | [a] => List.replicate n a
  | _ => x

/-- `_mgarch.py` lines 123-156, `GARCHModel_CCC.loglikelihood_model`. The last four arguments are
overwritten in lines 149-152 before any use. Arrays of different lengths: a one-element series is broadcast
in lines 184-188, all others raise `ValueError` (neither is empty there: lines 151-152 raise before). -/
def cccObjective (cpp : Bool) (returns1 returns2 : List XR) (p : CccVec)
    (backcast1 backcast2 : XR) (bounds1 bounds2 : List (XR × XR)) : Except PyErr XR := do
  let _ := (backcast1, backcast2, bounds1, bounds2)
  let resids1 := demean returns1 p.mu1                                      -- 145
  let resids2 := demean returns2 p.mu2                                      -- 146
  let backcast1 := backcast resids1                                         -- 149
  let backcast2 := backcast resids2                                         -- 150
  let bounds1 ← varianceBounds cpp resids1                                  -- 151
  let bounds2 ← varianceBounds cpp resids2                                  -- 152
  let s1 ← garchVariance cpp p.v1 resids1 backcast1 bounds1                 -- 153
  let s2 ← garchVariance cpp p.v2 resids2 backcast2 bounds2                 -- 154
  if resids1.length ≠ resids2.length then
    if resids1.length = 1 ∨ resids2.length = 1 then
      return -(cccLoglik (stretch resids2.length resids1) (stretch resids2.length s1)
        (stretch resids1.length resids2) (stretch resids1.length s2) p.rho)
    else .error .valueError
  else return -(cccLoglik resids1 s1 resids2 s2 p.rho)                      -- 155-156

/-- the CCC estimation object, `_mgarch.py` lines 41-55 -/
structure CccObj where
  model1 : GarchObj GarchVar
  model2 : GarchObj GarchVar
  success : Bool := false
  /-- `none` = the all-NaN default `Parameters()`; else the vector and the log-likelihood -/
  params : Option (CccVec × XR) := none

/-- a univariate parameter set as read by `asdict(...).values()[:-1]` (NaN if not estimated) -/
def nanVar : GarchVar := ⟨.nan, .nan, .nan⟩

/-- `list(asdict(m.parameters).values())[:-1]`, lines 71-72, 261-262 -/
def dropLl {V : Type} (p : Option (XR × V × XR)) : Option (XR × V) := p.map fun q => (q.1, q.2.1)

/-- univariate fit of the GARCH type, as used by the multivariate models (return value dropped) -/
def uFit (cpp : Bool) (opt : Optimizer (XR × GarchVar)) (o : GarchObj GarchVar) :
    Except PyErr (GarchObj GarchVar) := do
  let r ← garchFit cpp opt o
  return r.1

/-- univariate fit of the GJR type -/
def uFitGjr (cpp : Bool) (opt : Optimizer (XR × GjrVar)) (o : GarchObj GjrVar) :
    Except PyErr (GarchObj GjrVar) := do
  let r ← gjrFit cpp opt o
  return r.1

/-- Run the optimiser on an objective that may raise: an exception at an evaluated point propagates
out of `minimize`. -/
def runOpt {P : Type} (opt : Optimizer P) (c : Feas P) (f : P → Except PyErr XR) (x0 : P) :
    Except PyErr (OptRun P) := do
  let run := opt c (fun p => match f p with | .ok v => v | .error _ => .nan) x0
  run.trace.forM fun p => do let _ ← f p
  return run

/-- `_mgarch.py` lines 76-99: bounds and constraints -/
def cccFeas : Feas CccVec where
  coords p := [p.mu1, p.v1.omega, p.v1.alpha, p.v1.beta, p.mu2, p.v2.omega, p.v2.alpha, p.v2.beta, p.rho]
  bounds := [(.ninf, .pinf), (micro, .pinf), (0, 1), (0, 1), (.ninf, .pinf), (micro, .pinf), (0, 1), (0, 1),
    (.fin (-(99 / 100)), .fin (99 / 100))]
  ineq := [fun p => 1 - (p.v1.alpha + p.v1.beta), fun p => 1 - (p.v2.alpha + p.v2.beta)]

/-- `_mgarch.py` lines 57-121, `GARCHModel_CCC.fit` -/
def cccFit (cpp : Bool) (fitU : GarchObj GarchVar → Except PyErr (GarchObj GarchVar))
    (opt : Optimizer CccVec) (o : CccObj) : Except PyErr (CccObj × Option (CccVec × XR)) :=
  if o.success then .ok (o, o.params)                                       -- 63-64
  else do
    let m1 ← fitU o.model1                                                  -- 66
    let m2 ← fitU o.model2                                                  -- 67
    let z1 := stdResid m1.resids m1.sigma2                                  -- 68
    let z2 := stdResid m2.resids m2.sigma2                                  -- 69
    if z1.length ≠ z2.length then .error .valueError                        -- 70
    else
      let rho := npCorr z2 z1                                               -- 70
      let p1 := (dropLl m1.params).getD (.nan, nanVar)                      -- 71
      let p2 := (dropLl m2.params).getD (.nan, nanVar)                      -- 72
      let run ← runOpt opt cccFeas (fun p => cccObjective cpp m1.returns m2.returns p m1.backcast m2.backcast
        (m1.bounds.getD []) (m2.bounds.getD [])) ⟨p1.1, p1.2, p2.1, p2.2, rho⟩  -- 73, 107-117
      let o := { o with model1 := m1, model2 := m2 }
      if run.success then                                                   -- 118
        let q := some (run.x, -run.f)                                       -- 120
        .ok ({ o with success := true, params := q }, q)                    -- 119-121
      else .ok (o, o.params)

/-! ### dynamic conditional correlation -/

/-- `(q11, q22, q12)` -/
structure QMat where
  q11 : XR
  q22 : XR
  q12 : XR

/-- `_mgarch.py` lines 386-387 (`np.corrcoef`) / `mgarch.hpp` lines 29-39 (uncentred moments) -/
def dccQbar (cpp : Bool) (z1 z2 : List XR) : QMat :=
  if cpp then
    ⟨(z1.map fun z => z * z).sum / .fin z1.length, (z2.map fun z => z * z).sum / .fin z1.length,
      (List.zipWith (· * ·) z1 z2).sum / .fin z1.length⟩
  else ⟨npCorr z1 z1, npCorr z2 z2, npCorr z1 z2⟩

/-- `_mgarch.py` lines 397 and 404 / `mgarch.hpp` lines 48 and 58 -/
def QMat.rho (q : QMat) : XR := q.q12 / XR.sqrt (q.q11 * q.q22)

/-- `_mgarch.py` lines 401-403 / `mgarch.hpp` lines 52-57 -/
def QMat.next (a b : XR) (qbar q : QMat) (z : XR × XR) : QMat :=
  ⟨(1 - a - b) * qbar.q11 + a * XR.sq z.1 + b * q.q11,
   (1 - a - b) * qbar.q22 + a * XR.sq z.2 + b * q.q22,
   (1 - a - b) * qbar.q12 + a * z.1 * z.2 + b * q.q12⟩

/-- loop of `_mgarch.py` lines 400-404 / `mgarch.hpp` lines 51-59: `rho[1], rho[2], ...` -/
def dccLoop (a b : XR) (qbar : QMat) : QMat → List (XR × XR) → List XR
  | _, [] => []
  | q, z :: t => (QMat.next a b qbar q z).rho :: dccLoop a b qbar (QMat.next a b qbar q z) t

/-- `_mgarch.py` lines 384-406 / `mgarch.hpp` lines 10-61 on standardised residuals. Different
lengths: `np.corrcoef` raises `ValueError`; the C++ kernel reads as many values as the first series
has (out-of-bounds read, modelled as `IndexError`, if the second is shorter). Empty series:
`q11[0]` raises `IndexError` (out-of-bounds write in C++, modelled as the same error). -/
def dccKernel (cpp : Bool) (a b : XR) (z1 z2 : List XR) : Except PyErr (List XR) :=
  if cpp = false ∧ z1.length ≠ z2.length then .error .valueError
  else if z2.length < z1.length then .error .indexError
  else if z1 = [] then .error .indexError
  else
    let z2 := z2.take z1.length
    let q := dccQbar cpp z1 z2
    .ok (q.rho :: dccLoop a b q q (List.zip z1 z2).dropLast)

/-- parameters of a DCC model, `_mgarch.py` lines 203-215 (`none` = NaN entries) -/
structure DccPars (V : Type) where
  p1 : Option (XR × V) := none
  p2 : Option (XR × V) := none
  a : XR := .nan
  b : XR := .nan
  ll : XR := .nan

/-- the DCC estimation object, `_mgarch.py` lines 217-247 / 441-465 -/
structure DccObj (V : Type) where
  model1 : GarchObj V
  model2 : GarchObj V
  success : Bool := false
  params : DccPars V := {}

/-- lines 367-368: re-fit both univariate models -/
def refit {V : Type} (fitU : GarchObj V → Except PyErr (GarchObj V)) (o : DccObj V) :
    Except PyErr (DccObj V) := do
  let m1 ← fitU o.model1
  let m2 ← fitU o.model2
  return { o with model1 := m1, model2 := m2 }

/-- `_mgarch.py` lines 356-406, `conditional_correlations` -/
def condCorr {V : Type} (cpp : Bool) (fitU : GarchObj V → Except PyErr (GarchObj V)) (o : DccObj V)
    (a b : XR) : Except PyErr (DccObj V × List XR) := do
  let o ← refit fitU o
  let rho ← dccKernel cpp a b (stdResid o.model1.resids o.model1.sigma2)
    (stdResid o.model2.resids o.model2.sigma2)
  return (o, rho)

/-- one term of lines 346-350 -/
def dccTerm (z1 z2 rho : XR) : XR :=
  .fin (-(1 / 2)) * (-(XR.sq z1 + XR.sq z2) + XR.log (1 - XR.sq rho)
    + (XR.sq z1 + XR.sq z2 - 2 * rho * z1 * z2) / (1 - XR.sq rho))

/-- `parameters.loglikelihood` of a univariate model (NaN before estimation) -/
def llOf {V : Type} (m : GarchObj V) : XR := (m.params.map fun q => q.2.2).getD .nan

/-- `_mgarch.py` lines 319-354, `GARCHModel_DCC.loglikelihood_model`: residuals, variances and
log-likelihoods are read (329-339) before `conditional_correlations` re-fits the models (342). -/
def dccObjective {V : Type} (cpp : Bool) (fitU : GarchObj V → Except PyErr (GarchObj V)) (o : DccObj V)
    (p : XR × XR) : Except PyErr (DccObj V × XR) := do
  let z1 := stdResid o.model1.resids o.model1.sigma2                        -- 335
  let z2 := stdResid o.model2.resids o.model2.sigma2                        -- 336
  let l1 := llOf o.model1 + llOf o.model2                                   -- 339
  let r ← condCorr cpp fitU o p.1 p.2                                       -- 342
  let rho := r.2.map fun x => Np.clip x (.fin (-(99 / 100))) (.fin (99 / 100))   -- 344
  if ¬ (z1.length = z2.length ∧ z1.length = rho.length) then
    -- one-element arrays are broadcast in lines 346-351 (C++ kernel only: NumPy's `corrcoef` has raised)
    let n := max z1.length (max z2.length rho.length)
    if (stretch n z1).length = n ∧ (stretch n z2).length = n ∧ (stretch n rho).length = n then
      let l2 := (List.zipWith (fun (z : XR × XR) x => dccTerm z.1 z.2 x)
        (List.zip (stretch n z1) (stretch n z2)) (stretch n rho)).sum
      return (r.1, -(l1 + l2))
    else .error .valueError
  else
    let l2 := (List.zipWith (fun (z : XR × XR) x => dccTerm z.1 z.2 x) (List.zip z1 z2) rho).sum
    return (r.1, -(l1 + l2))                                                -- 353

/-- `np.linspace(0.01, 0.5, 10)` and `np.linspace(0.6, 0.95, 10)`, lines 307-308 -/
def aGrid : List ℝ := (List.range 10).map fun i : ℕ => (1 / 100 + i * (49 / 100 / 9) : ℝ)
def bGrid : List ℝ := (List.range 10).map fun i : ℕ => (6 / 10 + i * (35 / 100 / 9) : ℝ)

/-- `itertools.product(a_grid, b_grid)`, line 311 -/
def dccGrid : List (ℝ × ℝ) := aGrid.flatMap fun a => bGrid.map fun b => (a, b)

/-- `_mgarch.py` lines 301-317, `starting_values` (`max_ll` is never updated) -/
def dccStart {V : Type} (cpp : Bool) (fitU : GarchObj V → Except PyErr (GarchObj V)) (o : DccObj V) :
    Except PyErr (DccObj V × (ℝ × ℝ)) :=
  dccGrid.foldlM (fun (st : DccObj V × (ℝ × ℝ)) p =>
    if 1 ≤ p.1 + p.2 then .ok st                                            -- 312-313
    else do
      let r ← dccObjective cpp fitU st.1 (.fin p.1, .fin p.2)
      let ll := -r.2                                                        -- 314
      return (r.1, if .ninf < ll then p else st.2)) (o, (1 / 100, 8 / 10))  -- 309-316

/-- `_mgarch.py` lines 266-274: bounds and constraint -/
def dccFeas : Feas (XR × XR) where
  coords p := [p.1, p.2]
  bounds := [(0, 1), (0, 1)]
  ineq := [fun p => 1 - (p.1 + p.2)]

/-- `_mgarch.py` lines 249-299, `GARCHModel_DCC.fit` (and 467-473). Evaluating the objective may
re-fit the univariate models; the trace is replayed for that effect. -/
def dccFit {V : Type} (cpp : Bool) (fitU : GarchObj V → Except PyErr (GarchObj V))
    (opt : Optimizer (XR × XR)) (o : DccObj V) : Except PyErr (DccObj V × DccPars V) :=
  if o.success then .ok (o, o.params)                                       -- 255-256
  else do
    let o ← refit fitU o                                                    -- 257-259
    let st ← dccStart cpp fitU o                                            -- 260
    let o := { st.1 with params :=
      { p1 := dropLl st.1.model1.params, p2 := dropLl st.1.model2.params } }   -- 261-263
    let run := opt dccFeas (fun p => match dccObjective cpp fitU o p with
      | .ok r => r.2
      | .error _ => .nan) (.fin st.2.1, .fin st.2.2)                        -- 282-291
    let o ← run.trace.foldlM (fun (o : DccObj V) p => do
      let r ← dccObjective cpp fitU o p
      return r.1) o
    if run.success then                                                     -- 292
      let q := { o.params with a := run.x.1, b := run.x.2, ll := -run.f }   -- 294-297
      .ok ({ o with success := true, params := q }, q)
    else .ok (o, o.params)                                                  -- 298

end
end Frds.Model

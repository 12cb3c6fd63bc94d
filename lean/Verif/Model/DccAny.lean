import Verif.Model.Mgarch

/-! Model of the constructors and of the parameter labels of `GARCHModel_DCC` and `GJRGARCHModel_DCC`
(`src/frds/algorithms/_mgarch.py` lines 191-299, 408-473) for arguments of any kind: arrays, univariate models of
either class, anything else. -/
namespace Frds.Model
noncomputable section
open Frds Classical

/-- a univariate estimation object with its class: `GARCHModel`, or its subclass `GJRGARCHModel`
(`_garch.py` lines 14-49, 338-354) -/
inductive UModel where
  | garch (o : GarchObj GarchVar)
  | gjr (o : GarchObj GjrVar)

/-- attribute `resids` -/
def UModel.resids : UModel → List XR
  | .garch o => o.resids
  | .gjr o => o.resids

/-- attribute `sigma2` -/
def UModel.sigma2 : UModel → List XR
  | .garch o => o.sigma2
  | .gjr o => o.sigma2

/-- `parameters.loglikelihood` -/
def UModel.ll : UModel → XR
  | .garch o => llOf o
  | .gjr o => llOf o

/-- `list(asdict(m.parameters).values())[:-1]`, `_mgarch.py` lines 261-262: the values in the order of the fields
of the dataclass, `_garch.py` lines 24-30 (mu, omega, alpha, beta) and 347-354 (mu, omega, alpha, gamma, beta),
without the log-likelihood; all NaN before a successful estimation -/
def UModel.values : UModel → List XR
  | .garch o => match o.params with
    | none => [.nan, .nan, .nan, .nan]
    | some (mu, v, _) => [mu, v.omega, v.alpha, v.beta]
  | .gjr o => match o.params with
    | none => [.nan, .nan, .nan, .nan, .nan]
    | some (mu, v, _) => [mu, v.omega, v.alpha, v.gamma, v.beta]

/-- `m.fit()`, dispatched on the class (`_garch.py` lines 51-102, 356-406) -/
def UModel.fit (cpp : Bool) (opt : Optimizer (XR × GarchVar)) (optj : Optimizer (XR × GjrVar)) :
    UModel → Except PyErr UModel
  | .garch o => (uFit cpp opt o).map .garch
  | .gjr o => (uFitGjr cpp optj o).map .gjr

/-- the two classes of `_mgarch.py` -/
inductive DccClass where
  | plain
  | gjr
deriving DecidableEq

/-- the fields of `Parameters`, in order: `_mgarch.py` lines 203-215 and 419-433 -/
def DccClass.fields : DccClass → List String
  | .plain => ["mu1", "omega1", "alpha1", "beta1", "mu2", "omega2", "alpha2", "beta2", "a", "b", "loglikelihood"]
  | .gjr => ["mu1", "omega1", "alpha1", "gamma1", "beta1", "mu2", "omega2", "alpha2", "gamma2", "beta2", "a", "b",
      "loglikelihood"]

/-- `Parameters(*values)`: positional arguments fill the fields in order, the rest keeps the default NaN; too
many arguments: `TypeError` -/
def DccClass.make (c : DccClass) (values : List XR) : Except PyErr (List XR) :=
  if c.fields.length < values.length then .error .typeError
  else .ok (values ++ List.replicate (c.fields.length - values.length) .nan)

/-- reading the attribute `name` of a parameter object (`none`: there is no such attribute) -/
def DccClass.get (c : DccClass) (p : List XR) (name : String) : Option XR := p[c.fields.idxOf name]?

/-- assigning the attribute `name` (one of the fields) -/
def DccClass.put (c : DccClass) (p : List XR) (name : String) (v : XR) : List XR := p.set (c.fields.idxOf name) v

/-- what may be passed for `returns1`, `returns2`. An array comes with the contents of the memory that
`np.empty_like` will return for `resids` and `sigma2`. -/
inductive DccArg where
  | array (returns resids0 sigma0 : List XR)
  | model (m : UModel)
  | other

/-- the multivariate object; `none`: the attribute was never assigned -/
structure DccAny where
  model1 : Option UModel
  model2 : Option UModel
  success : Bool := false
  params : List XR

/-- a new univariate model, `_garch.py` lines 40-49 -/
def newModel {V : Type} (returns resids0 sigma0 : List XR) : GarchObj V :=
  { returns := returns, zeroMean := false, resids := resids0, sigma2 := sigma0 }

/-- the attribute `model1` / `model2` assigned by the constructor: `_mgarch.py` lines 234-245 (a `GJRGARCHModel`
is an instance of `GARCHModel`) and 452-463. No `else` branch: other arguments assign nothing. -/
def DccClass.accept : DccClass → DccArg → Option UModel
  | .plain, .array r x y => some (.garch (newModel r x y))                  -- 234-239
  | .plain, .model m => some m                                              -- 240-245
  | .gjr, .array r x y => some (.gjr (newModel r x y))                      -- 452-457
  | .gjr, .model (.gjr m) => some (.gjr m)                                  -- 458-463
  | .gjr, .model (.garch _) => none
  | _, .other => none

/-- the constructors, `_mgarch.py` lines 217-247 and 435-465 -/
def DccClass.new (c : DccClass) (returns1 returns2 : DccArg) : DccAny where
  model1 := c.accept returns1
  model2 := c.accept returns2
  success := false                                                          -- 246, 464
  params := List.replicate c.fields.length .nan                             -- 247, 465

/-- `conditional_correlations`, `_mgarch.py` lines 356-406 -/
def anyCorr (cpp : Bool) (fitU : UModel → Except PyErr UModel) (o : DccAny) (a b : XR) :
    Except PyErr (DccAny × List XR) :=
  match o.model1 with
  | none => .error .attributeError                                          -- 367
  | some m1 => do
    let m1 ← fitU m1                                                        -- 367
    match o.model2 with
    | none => .error .attributeError                                        -- 368
    | some m2 =>
      let m2 ← fitU m2                                                      -- 368
      let rho ← dccKernel cpp a b (stdResid m1.resids m1.sigma2) (stdResid m2.resids m2.sigma2)
      return ({ o with model1 := some m1, model2 := some m2 }, rho)

/-- `loglikelihood_model`, `_mgarch.py` lines 319-354 -/
def anyObjective (cpp : Bool) (fitU : UModel → Except PyErr UModel) (o : DccAny) (p : XR × XR) :
    Except PyErr (DccAny × XR) :=
  match o.model1, o.model2 with
  | some m1, some m2 => do
    let z1 := stdResid m1.resids m1.sigma2                                  -- 335
    let z2 := stdResid m2.resids m2.sigma2                                  -- 336
    let l1 := m1.ll + m2.ll                                                 -- 339
    let r ← anyCorr cpp fitU o p.1 p.2                                      -- 342
    let rho := r.2.map fun x => Np.clip x (.fin (-(99 / 100))) (.fin (99 / 100))   -- 344
    if ¬ (z1.length = z2.length ∧ z1.length = rho.length) then
      let n := max z1.length (max z2.length rho.length)   -- broadcasting, as in `dccObjective`
      if (stretch n z1).length = n ∧ (stretch n z2).length = n ∧ (stretch n rho).length = n then
        let l2 := (List.zipWith (fun (z : XR × XR) x => dccTerm z.1 z.2 x)
          (List.zip (stretch n z1) (stretch n z2)) (stretch n rho)).sum
        return (r.1, -(l1 + l2))
      else .error .valueError
    else
      let l2 := (List.zipWith (fun (z : XR × XR) x => dccTerm z.1 z.2 x) (List.zip z1 z2) rho).sum
      return (r.1, -(l1 + l2))                                              -- 353
  | _, _ => .error .attributeError                                          -- 329-330

/-- `starting_values`, `_mgarch.py` lines 301-317 -/
def anyStart (cpp : Bool) (fitU : UModel → Except PyErr UModel) (o : DccAny) :
    Except PyErr (DccAny × (ℝ × ℝ)) :=
  dccGrid.foldlM (fun (st : DccAny × (ℝ × ℝ)) p =>
    if 1 ≤ p.1 + p.2 then .ok st                                            -- 312-313
    else do
      let r ← anyObjective cpp fitU st.1 (.fin p.1, .fin p.2)
      let ll := -r.2                                                        -- 314
      return (r.1, if .ninf < ll then p else st.2)) (o, (1 / 100, 8 / 10))  -- 309-316

/-- lines 261-263: the parameter object after the univariate step -/
def anyLabels (c : DccClass) (o : DccAny) : Except PyErr DccAny :=
  match o.model1, o.model2 with
  | some m1, some m2 => do
    let p ← c.make (m1.values ++ m2.values)
    return { o with params := p }
  | _, _ => .error .attributeError

/-- `fit`, `_mgarch.py` lines 249-299 (inherited through lines 467-473) -/
def anyFit (c : DccClass) (cpp : Bool) (fitU : UModel → Except PyErr UModel) (opt : Optimizer (XR × XR))
    (o : DccAny) : Except PyErr (DccAny × List XR) :=
  if o.success then .ok (o, o.params)                                       -- 255-256
  else
    match o.model1, o.model2 with                                           -- 257
    | some m1, some m2 => do
      let m1 ← fitU m1                                                      -- 258
      let m2 ← fitU m2                                                      -- 259
      let st ← anyStart cpp fitU { o with model1 := some m1, model2 := some m2 }   -- 260
      let o ← anyLabels c st.1                                              -- 261-263
      let run := opt dccFeas (fun p => match anyObjective cpp fitU o p with
        | .ok r => r.2
        | .error _ => .nan) (.fin st.2.1, .fin st.2.2)                      -- 282-291
      let o ← run.trace.foldlM (fun (o : DccAny) p => do
        let r ← anyObjective cpp fitU o p
        return r.1) o
      if run.success then                                                   -- 292
        let q := c.put (c.put (c.put o.params "a" run.x.1) "b" run.x.2) "loglikelihood" (-run.f)   -- 294-297
        .ok ({ o with success := true, params := q }, q)
      else .ok (o, o.params)                                                -- 298
    | _, _ => .error .attributeError

end
end Frds.Model

import Verif.Model.Garch
import Verif.Model.Pin
import Verif.Model.Absorption

/-! Several threads calling estimation methods of one shared object: `src/frds/algorithms/_garch.py` lines 51-156, 201-234 and
356-406, `src/frds/measures/_absorption_ratio.py` lines 17-51, `src/frds/measures/_probability_of_informed_trading.py` lines
49-103. No method takes a lock. -/
namespace Frds.Model.Conc
noncomputable section
open Frds Frds.Model Classical

/-- A method call by one thread: reads of the shared object, attribute writes, and the outcome. Between two such actions any
other thread may act. Simplification: a read sees all attributes at one instant and an attribute write is atomic, which it is
in CPython (a statement reading two attributes is split into two reads where an attribute can be written by another thread). -/
inductive Prog (S A : Type) : Type where
  | done (r : Except PyErr A)
  | read (k : S → Prog S A)
  | write (f : S → S) (k : Prog S A)

namespace Prog
variable {S A B : Type}

def bind' : Prog S A → (A → Prog S B) → Prog S B
  | done (.ok a), f => f a
  | done (.error e), _ => done (.error e)
  | read k, f => read fun s => bind' (k s) f
  | write g k, f => write g (bind' k f)

instance : Monad (Prog S) where
  pure a := done (.ok a)
  bind := bind'

/-- read the object -/
def get : Prog S S := read fun s => done (.ok s)

/-- write an attribute -/
def put (f : S → S) : Prog S Unit := write f (done (.ok ()))

/-- a computation that does not touch the object -/
def lift (x : Except PyErr A) : Prog S A := done x

/-- one action -/
def step : Prog S A → S → S × Prog S A
  | done r, s => (s, done r)
  | read k, s => (s, k s)
  | write f k, s => (f s, k)

/-- the call with no other thread acting: the object afterwards and the outcome -/
def run : Prog S A → S → S × Except PyErr A
  | done r, s => (s, r)
  | read k, s => run (k s) s
  | write f k, s => run k (f s)

end Prog
open Prog

/-- the shared object and what the threads (any number of them) still have to do -/
structure Sys (ι S A : Type) where
  shared : S
  thread : ι → Prog S A

namespace Sys
variable {ι S A : Type}

/-- thread `i` acts once -/
def tick (c : Sys ι S A) (i : ι) : Sys ι S A :=
  ⟨((c.thread i).step c.shared).1, Function.update c.thread i ((c.thread i).step c.shared).2⟩

/-- the threads act in the order given by a schedule -/
def exec (c : Sys ι S A) (sched : List ι) : Sys ι S A := sched.foldl tick c

/-- the outcome of thread `i` -/
def result (c : Sys ι S A) (i : ι) : Option (Except PyErr A) :=
  match c.thread i with
  | .done r => some r
  | _ => none

end Sys

/-! ### optimisers that may be interleaved with other threads -/

/-- `scipy.optimize.minimize`: it asks for values of the objective, one after another, and then reports a result -/
inductive Opt (P : Type) : Type where
  | done (success : Bool) (x : P) (f : XR)
  | ask (p : P) (k : XR → Opt P)

/-- the optimiser with a fixed objective -/
def Opt.run {P : Type} : Opt P → (P → XR) → OptRun P
  | .done s x f, _ => ⟨[], s, x, f⟩
  | .ask p k, g => { (k (g p)).run g with trace := p :: ((k (g p)).run g).trace }

/-- an optimiser, given bounds, constraints and start -/
abbrev Strategy (P : Type) := Feas P → P → Opt P

/-- the optimiser as a function of the objective -/
def Strategy.optimizer {P : Type} (st : Strategy P) : Optimizer P := fun feas g x0 => (st feas x0).run g

/-! ### univariate models -/

variable {V : Type}

/-- `_garch.py` lines 130-156, `loglikelihood_model`: the variances are stored in `self.sigma2` (150, 153) and read back from
there (156) -/
def evalProg (var : V → List XR → XR → List (XR × XR) → Except PyErr (List XR)) (bc : XR) (vb : List (XR × XR))
    (p : XR × V) : Prog (GarchObj V) XR := do
  let o ← get                                                               -- 149, 152
  let q ← lift (modelPath var o bc vb p)
  put fun o => { o with sigma2 := q.2 }                                     -- 150, 153
  let o ← get
  return -loglik q.1 o.sigma2                                               -- 156

/-- `minimize` on `self.loglikelihood_model` -/
def optProg (var : V → List XR → XR → List (XR × XR) → Except PyErr (List XR)) (bc : XR) (vb : List (XR × XR)) :
    Opt (XR × V) → Prog (GarchObj V) (Bool × (XR × V) × XR)
  | .done s x f => return (s, x, f)
  | .ask p k => bind' (evalProg var bc vb p) fun v => optProg var bc vb (k v)

/-- `self.var_bounds`; indexing `None` raises `TypeError` -/
def boundsOf (o : GarchObj V) : Except PyErr (List (XR × XR)) :=
  match o.bounds with
  | some vb => .ok vb
  | none => .error .typeError

/-- `_garch.py` lines 220-234: the grid search reads `self.backcast_value` and `self.var_bounds` for every candidate -/
def gridProg (cpp : Bool) (resids : List XR) : Option GarchVar → List GarchVar → Prog (GarchObj GarchVar) (Option GarchVar)
  | best, [] => return best
  | best, p :: ps => do
    let o1 ← get
    let o2 ← get
    let vb ← lift (boundsOf o2)
    let s2 ← lift (garchVariance cpp p resids o1.backcast vb)               -- 229-231
    bind' (return if .ninf < -(loglik resids s2) then some p else best) fun best => gridProg cpp resids best ps   -- 232-233

/-- `_garch.py` lines 201-234, `GARCHModel.starting_values` -/
def garchStartProg (cpp : Bool) (resids : List XR) : Prog (GarchObj GarchVar) (Option GarchVar) := do
  let o ← get
  gridProg cpp resids none (garchCands (Np.var o.returns))

/-- `_garch.py` lines 463-498, `GJRGARCHModel.starting_values`, which recomputes bounds and backcast -/
def gjrStartProg (cpp : Bool) (resids : List XR) : Prog (GarchObj GjrVar) (Option GjrVar) := do
  let o ← get
  lift (gjrStart cpp o.returns resids)

/-- `self.parameters.mu` -/
def muOf (o : GarchObj V) : XR :=
  match o.params with
  | some p => p.1
  | none => .nan

/-- `_garch.py` lines 94-100 and 394-404; line 100 reads `self.parameters` back -/
def storeProg (r : Bool × (XR × V) × XR) : Prog (GarchObj V) Unit :=
  if r.1 then do
    put fun o => { o with success := true }                                 -- 95, 395
    put fun o => { o with params := some (if o.zeroMean then 0 else r.2.1.1, r.2.1.2, -r.2.2) }   -- 96-99, 396-403
    let o ← get
    put fun o' => { o' with resids := demean o.returns (muOf o) }           -- 100, 404
  else return ()

/-- `_garch.py` lines 104-128, `preparation`: the starting values, `none` for those of an empty grid search -/
def prepProg (cpp : Bool) (start : List XR → Prog (GarchObj V) (Option V)) : Prog (GarchObj V) (Option (XR × V)) := do
  let o ← get
  put fun o' => { o' with backcast := backcast (prepResids o) }             -- 115
  let vb ← lift (varianceBounds cpp (prepResids o))
  put fun o' => { o' with bounds := some vb }                               -- 119
  let v0 ← start (prepResids o)                                             -- 122
  let o ← get
  return v0.map fun v0 => (if o.zeroMean then 0 else Np.mean o.returns, v0) -- 124-128

/-- `_garch.py` lines 61-93 and 362-393: the arguments of `minimize` (backcast, variance bounds, and the optimiser at its
start); a start vector of the wrong length makes `minimize` raise `ValueError` -/
def argsProg (cpp : Bool) (start : List XR → Prog (GarchObj V) (Option V)) (feas : Bool → Feas (XR × V))
    (st : Strategy (XR × V)) : Prog (GarchObj V) (XR × List (XR × XR) × Opt (XR × V)) := do
  let x0 ← prepProg cpp start                                               -- 61, 362
  let o ← get                                                               -- 70: `self.zero_mean`
  let o1 ← get                                                              -- 89: `self.backcast_value`
  let o2 ← get                                                              -- 89: `self.var_bounds`
  match x0 with
  | none => lift (.error .valueError)
  | some x0 =>
    let vb ← lift (boundsOf o2)
    return (o1.backcast, vb, st (feas o.zeroMean) x0)

/-- `_garch.py` lines 61-100 and 362-404 -/
def fitProg (cpp : Bool) (var : V → List XR → XR → List (XR × XR) → Except PyErr (List XR))
    (start : List XR → Prog (GarchObj V) (Option V)) (feas : Bool → Feas (XR × V)) (st : Strategy (XR × V)) :
    Prog (GarchObj V) Unit := do
  let a ← argsProg cpp start feas st
  let r ← optProg var a.1 a.2.1 a.2.2                                       -- 86-93
  storeProg r

/-- `GARCHModel.fit` (lines 51-102) -/
def garchFitProg (cpp : Bool) (st : Strategy (XR × GarchVar)) :
    Prog (GarchObj GarchVar) (Option (Option (XR × GarchVar × XR))) := do
  let o ← get
  if o.success then return none                                             -- 58-59
  else
    fitProg cpp (garchVariance cpp) (garchStartProg cpp) garchFeas st
    let o ← get
    return some o.params                                                    -- 102

/-- `GJRGARCHModel.fit` (lines 356-406) -/
def gjrFitProg (cpp : Bool) (st : Strategy (XR × GjrVar)) :
    Prog (GarchObj GjrVar) (Option (Option (XR × GjrVar × XR))) := do
  fitProg cpp (gjrVariance cpp) (gjrStartProg cpp) gjrFeas st
  let o ← get
  return some o.params

/-! ### absorption ratio -/

/-- `_absorption_ratio.py` lines 33-41: a `cached_property` looks for the cached value, computes one otherwise and stores it -/
def covProg : Prog ArObj Cov := do
  let o ← get
  match o.cov with
  | some c => return c
  | none =>
    let o ← get                                                             -- `self.asset_returns`
    put fun o' => { o' with cov := some (npCovMat o.returns) }
    return npCovMat o.returns

/-- `_absorption_ratio.py` lines 43-51 -/
def eigProg (eig : EigRoutine) : Prog ArObj (List ℝ) := do
  let o ← get
  match o.eig with
  | some e => return e
  | none =>
    let c ← covProg
    let e ← lift (npEigvals eig c)
    put fun o' => { o' with eig := some e }
    return e

/-- `_absorption_ratio.py` lines 17-31, `estimate` -/
def arProg (eig : EigRoutine) (f : XR) : Prog ArObj XR := do
  let o ← get                                                               -- 27
  let e ← eigProg eig
  let num ← lift (decimalInt (f * .fin (o.returns.n : ℝ)))                  -- 30
  let c ← covProg
  let eigSorted := e.mergeSort (fun a b => decide (a ≤ b))                  -- 28
  return .fin (pySliceFrom eigSorted ((eigSorted.length : ℤ) - num)).sum / npTrace c   -- 31

end
end Frds.Model.Conc

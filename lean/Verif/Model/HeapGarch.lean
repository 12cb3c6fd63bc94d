import Verif.Model.HeapArr
import Verif.Model.Garch

/-! `src/frds/algorithms/_garch.py` with arrays as references into memory: what is shared with the caller, what is newly
allocated, what is assigned in place. Temporaries of a single NumPy expression are not given a buffer. With the compiled extension
the arrays are dense (`Model/GarchMem.lean` treats other strides) and the kernels return a new array. The two columns of
`var_bounds` are two arrays here. -/
namespace Frds.Model
noncomputable section
open Frds Classical

namespace HeapGarch
open Op

/-- `_garch.py` lines 312-335, `ewma` -/
def ewmaH (cpp : Bool) (resids : Ref) (initial lam : XR) : Op Ref :=
  if cpp then do
    let x ← contents resids
    let l ← lift (ewma true x initial lam)
    alloc l                                                                 -- 326
  else do
    let variance ← empty resids.idx.length                                  -- 328
    setItem variance 0 initial                                              -- 329
    let x ← contents resids
    let squared ← alloc (x.map XR.sq)                                       -- 331
    each (fun t => do                                                       -- 333-334
      let v ← getItem variance (t - 1)
      let r2 ← getItem squared (t - 1)
      setItem variance t (lam * v + (1 - lam) * r2)) (List.range' 1 (resids.idx.length - 1))
    ret variance

/-- lines 236-270, `variance_bounds`: the two columns -/
def varianceBoundsH (cpp : Bool) (resids : Ref) : Op (Ref × Ref) := do
  let tau := min 75 resids.idx.length                                       -- 254
  let weights ← alloc (decayWeights tau)                                    -- 257
  let w ← contents weights
  inPlace weights (· / w.sum)                                               -- 258, `weights /= weights.sum()`
  let w ← contents weights
  let x ← contents resids
  let vb ← ewmaH cpp resids (List.zipWith (· * ·) w ((x.take tau).map XR.sq)).sum (.fin (94 / 100))   -- 259-261
  let v ← contents vb
  let x ← contents resids
  let lo := Np.var x / .fin 100000000                                       -- 263
  let hi := .fin 10000000 * (1 + npMaxList (x.map XR.sq))                   -- 264
  let lower ← alloc ((v.map fun v => Np.clip v lo hi).map (· / .fin 1000000))    -- 266-270
  let upper ← alloc ((v.map fun v => Np.clip v lo hi).map (· * .fin 1000000))
  ret (lower, upper)

/-- the assignments to `sigma2[t]` in one iteration: the first value from `resids[t-1]` and `sigma2[t-1]`, then what
`sigma2[t] += ...` adds -/
structure Step where
  first : XR → XR → XR
  more : XR → Option XR

/-- `sigma2[t] += d`, line 434 (GJR only) -/
def Step.add (step : Step) (sigma2 : Ref) (t : ℕ) (r : XR) : Op Unit :=
  match step.more r with
  | none => ret ()
  | some d => do
    let v ← getItem sigma2 t
    setItem sigma2 t (v + d)

/-- lines 192-199 and 427-436, the loops of the two `compute_variance`; `next`: the recursion of the compiled kernel -/
def varianceH (cpp : Bool) (step : Step) (next : XR → XR → XR) (s0 : XR) (resids : Ref) (vb : Ref × Ref) : Op Ref :=
  if cpp then do
    let x ← contents resids
    let lo ← contents vb.1
    let hi ← contents vb.2
    let l ← lift (variancePath next (boundsCheck true) s0 x (List.zip lo hi))
    alloc l                                                                 -- 192, 427
  else do
    let sigma2 ← alloc (List.replicate resids.idx.length 0)                 -- 194, 430
    setItem sigma2 0 s0                                                     -- 195, 431
    each (fun t => do                                                       -- 196, 432
      let r ← getItem resids (t - 1)
      let s ← getItem sigma2 (t - 1)
      setItem sigma2 t (step.first r s)                                     -- 197, 433
      step.add sigma2 t r                                                   -- 434
      let v ← getItem sigma2 t
      let lo ← getItem vb.1 t
      let hi ← getItem vb.2 t
      setItem sigma2 t (boundsCheck false v (lo, hi))) (List.range' 1 (resids.idx.length - 1))   -- 198, 435
    ret sigma2

/-- lines 173-199 -/
def garchVarianceH (cpp : Bool) (p : GarchVar) (resids : Ref) (bc : XR) (vb : Ref × Ref) : Op Ref :=
  varianceH cpp ⟨garchNext p, fun _ => none⟩ (garchNext p) (p.omega + (p.alpha + p.beta) * bc) resids vb

/-- lines 408-436 -/
def gjrVarianceH (cpp : Bool) (p : GjrVar) (resids : Ref) (bc : XR) (vb : Ref × Ref) : Op Ref :=
  varianceH cpp ⟨fun r s => p.omega + p.alpha * XR.sq r + p.beta * s, fun r => some (if r < 0 then p.gamma * XR.sq r else 0)⟩
    (gjrNextCpp p) (p.omega + (p.alpha + p.gamma / 2 + p.beta) * bc) resids vb

/-- lines 438-461, `forecast_variance`; `sigma2[1:]` is a view of the new array -/
def forecastH (p : GjrVar) (resids : Ref) (initial : XR) : Op Ref := do
  let sigma2 ← alloc (List.replicate resids.idx.length 0)                   -- 456
  setItem sigma2 0 initial                                                  -- 457
  each (fun t => do                                                         -- 458
    let r ← getItem resids (t - 1)
    let s ← getItem sigma2 (t - 1)
    setItem sigma2 t (p.omega + p.alpha * XR.sq r + p.beta * s)             -- 459
    let v ← getItem sigma2 t
    setItem sigma2 t (v + if r < 0 then p.gamma * XR.sq r else 0)) (List.range' 1 (resids.idx.length - 1))   -- 460
  ret ⟨sigma2.buf, sigma2.idx.tail⟩                                         -- 461

/-- lines 220-234, 486-498: the grid search -/
def gridH {P : Type} (path : P → Op Ref) (resids : Ref) : Option P → List P → Op (Option P)
  | best, [] => ret best
  | best, p :: t => do
    let s ← path p
    let x ← contents resids
    let s2 ← contents s
    gridH path resids (if .ninf < -(loglik x s2) then some p else best) t

/-- lines 201-234, `GARCHModel.starting_values` -/
def garchStartH (cpp : Bool) (returns resids : Ref) (bc : XR) (vb : Ref × Ref) : Op (Option GarchVar) := do
  let x ← contents returns
  gridH (fun p => garchVarianceH cpp p resids bc vb) resids none (garchCands (Np.var x))

/-- lines 463-498, `GJRGARCHModel.starting_values` -/
def gjrStartH (cpp : Bool) (returns resids : Ref) (_ : XR) (_ : Ref × Ref) : Op (Option GjrVar) := do
  let x ← contents returns
  let vb ← varianceBoundsH cpp resids
  let r ← contents resids
  gridH (fun p => gjrVarianceH cpp p resids (backcast r) vb) resids none (gjrCands (Np.var x))

/-- the estimation object: `returns`, `resids`, `sigma2`, `var_bounds` are references -/
structure HGarch (V : Type) where
  returns : Ref
  zeroMean : Bool
  success : Bool := false
  params : Option (XR × V × XR) := none
  resids : Ref
  sigma2 : Ref
  backcast : XR := .nan
  bounds : Option (Ref × Ref) := none

/-- lines 32-49, the constructor -/
def newH {V : Type} (arg : ArrayArg) (zeroMean : Bool) : Op (HGarch V) := do
  let returns ← asarray arg                                                 -- 40
  let resids ← empty returns.idx.length                                     -- 44
  let sigma2 ← empty returns.idx.length                                     -- 45
  ret { returns := returns, zeroMean := zeroMean, resids := resids, sigma2 := sigma2 }

/-- the values of the attributes in the current memory -/
def view {V : Type} (H : Heap) (o : HGarch V) : GarchObj V where
  returns := H.read o.returns
  zeroMean := o.zeroMean
  success := o.success
  params := o.params
  resids := H.read o.resids
  sigma2 := H.read o.sigma2
  backcast := o.backcast
  bounds := o.bounds.map fun b => List.zip (H.read b.1) (H.read b.2)

/-- residuals at the mean `mu`: lines 111-114, 149-153. For a zero-mean model they are the array `returns` itself. -/
def residsH {V : Type} (o : HGarch V) (mu : XR) : Op Ref :=
  if o.zeroMean then ret o.returns
  else do
    let x ← contents o.returns
    alloc (demean x mu)

/-- lines 130-156, `loglikelihood_model`: the new array assigned to `self.sigma2`, and the value -/
def objectiveH {V : Type} (var : V → Ref → XR → Ref × Ref → Op Ref) (o : HGarch V) (bc : XR) (vb : Ref × Ref) (p : XR × V) :
    Op (Ref × XR) := do
  let resids ← residsH o p.1
  let s ← var p.2 resids bc vb
  let x ← contents resids
  let s2 ← contents s
  ret (s, -loglik x s2)

/-- the evaluations of the optimiser, in order -/
def evalsH {V : Type} (var : V → Ref → XR → Ref × Ref → Op Ref) (bc : XR) (vb : Ref × Ref) : HGarch V → List (XR × V) → Op (HGarch V)
  | o, [] => ret o
  | o, p :: t => do
    let r ← objectiveH var o bc vb p
    evalsH var bc vb { o with sigma2 := r.1 } t

/-- the current memory, to speak about what the optimiser sees -/
def heap : Op Heap := fun H => (H, .ok H)

/-- lines 59-102, 362-406. The optimiser is given the values of the objective; its evaluations are then performed in order. -/
def fitCoreH {V : Type} (cpp : Bool) (var : V → Ref → XR → Ref × Ref → Op Ref)
    (start : Ref → Ref → XR → Ref × Ref → Op (Option V)) (feas : Bool → Feas (XR × V)) (opt : Optimizer (XR × V)) (o : HGarch V) :
    Op (HGarch V) := do
  let x ← contents o.returns
  let resids ← residsH o (Np.mean x)                                        -- 111-114
  let r ← contents resids
  let bc := Model.backcast r                                                -- 115
  let vb ← varianceBoundsH cpp resids                                       -- 119
  let v0 ← start o.returns resids bc vb                                     -- 122
  match v0 with
  | none => lift (.error .valueError)
  | some v0 =>
    let o' : HGarch V := { o with backcast := bc, bounds := some vb }
    let H ← heap
    let run := opt (feas o.zeroMean) (fun p => match (objectiveH var o' bc vb p H).2 with
        | .ok r => r.2
        | .error _ => .nan)
      (if o.zeroMean then 0 else Np.mean x, v0)                             -- 87-94
    let o' ← evalsH var bc vb o' run.trace
    if run.success then do                                                  -- 95
      let mu := if o.zeroMean then 0 else run.x.1
      let x ← contents o.returns
      let resids ← alloc (demean x mu)                                      -- 101
      ret { o' with success := true, params := some (mu, run.x.2, -run.f), resids := resids }
    else ret o'

/-- `GARCHModel.fit` -/
def garchFitH (cpp : Bool) (opt : Optimizer (XR × GarchVar)) (o : HGarch GarchVar) :
    Op (HGarch GarchVar × Option (Option (XR × GarchVar × XR))) :=
  if o.success then ret (o, none)                                           -- 58-59
  else do
    let o' ← fitCoreH cpp (garchVarianceH cpp) (garchStartH cpp) garchFeas opt o
    ret (o', some o'.params)

/-- `GJRGARCHModel.fit` -/
def gjrFitH (cpp : Bool) (opt : Optimizer (XR × GjrVar)) (o : HGarch GjrVar) :
    Op (HGarch GjrVar × Option (Option (XR × GjrVar × XR))) := do
  let o' ← fitCoreH cpp (gjrVarianceH cpp) (gjrStartH cpp) gjrFeas opt o
  ret (o', some o'.params)

/-- `src/frds/measures/_long_run_mes.py` lines 28-36, the constructor: the two univariate models. `1 + x` is a temporary. -/
def lrmesNewH (firm market : ArrayArg) : Op (HGarch GjrVar × HGarch GjrVar) := do
  let a ← asarray firm
  let x ← contents a
  let f ← alloc (x.map fun x => XR.log (1 + x))                             -- 28
  let a ← asarray market
  let x ← contents a
  let m ← alloc (x.map fun x => XR.log (1 + x))                             -- 29
  if f.idx.length ≠ m.idx.length then lift (.error .assertionError)         -- 30
  else do
    inPlace f (· * 100)                                                     -- 33
    inPlace m (· * 100)                                                     -- 34
    let o1 ← newH (.float64 f) false                                        -- 35
    let o2 ← newH (.float64 m) false                                        -- 36
    ret (o1, o2)

/-! ### programs that use several models and write to arrays -/

/-- the memory and the models created so far -/
structure World (V : Type) where
  heap : Heap
  models : List (HGarch V)

/-- a statement of the user's program. Any allocated array may be written to, also one obtained from an attribute of a model. -/
inductive Event where
  | create (l : List XR)
  | write (b i : ℕ) (v : XR)
  | model (arg : ArrayArg) (zeroMean : Bool)
  | fit (k : ℕ)

/-- an argument is an array that exists -/
def ArgOk (H : Heap) : ArrayArg → Prop
  | .float64 r => r.buf < H.next
  | .other _ => True

/-- the effect of a statement, `fit` being a method of all models. A fit that raises may have assigned `backcast_value` and
`var_bounds` before. -/
inductive Does {V R : Type} (fit : HGarch V → Op (HGarch V × R)) : World V → Event → World V → Prop
  | create (w : World V) (l : List XR) : Does fit w (.create l) ⟨(alloc l w.heap).1, w.models⟩
  | write (w : World V) (b i : ℕ) (v : XR) (h : b < w.heap.next) : Does fit w (.write b i v) ⟨w.heap.write b i v, w.models⟩
  | model (w : World V) (arg : ArrayArg) (zm : Bool) (H' : Heap) (o : HGarch V) (ha : ArgOk w.heap arg)
      (h : newH arg zm w.heap = (H', .ok o)) : Does fit w (.model arg zm) ⟨H', w.models ++ [o]⟩
  | fit (w : World V) (k : ℕ) (o o' : HGarch V) (H' : Heap) (r : R) (ho : w.models[k]? = some o)
      (h : fit o w.heap = (H', .ok (o', r))) : Does fit w (.fit k) ⟨H', w.models.set k o'⟩
  | raise (w : World V) (k : ℕ) (o : HGarch V) (H' : Heap) (e : PyErr) (bc : XR) (b : Option (Ref × Ref)) (ho : w.models[k]? = some o)
      (h : fit o w.heap = (H', .error e)) (hb : ∀ x, b = some x → x.1.buf < H'.next ∧ x.2.buf < H'.next) :
      Does fit w (.fit k) ⟨H', w.models.set k { o with backcast := bc, bounds := b }⟩

/-- a run of a program -/
inductive Runs {V R : Type} (fit : HGarch V → Op (HGarch V × R)) : World V → List Event → World V → Prop
  | nil (w : World V) : Runs fit w [] w
  | cons {w w' w'' : World V} {e : Event} {es : List Event} (h : Does fit w e w') (t : Runs fit w' es w'') : Runs fit w (e :: es) w''

end HeapGarch
end
end Frds.Model

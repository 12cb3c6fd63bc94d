import Verif.Model.Garch

/-! Memory-level model of the C extension used by `_garch.py`: `src/frds/algorithms/utils/utils_module.cpp` and
`src/frds/algorithms/utils/garch.hpp`. The wrappers take `PyArray_DATA` and index it as a dense block of doubles;
the strides of the array are not looked at. Where the C code would read or write outside its arrays (no
observation, too few bound rows) the outcome is `IndexError`, as in `Model/Garch.lean`. Reference counting and
memory exhaustion are modelled in `Model/CApi.lean`. -/
namespace Frds.Model
noncomputable section
open Frds Classical

/-- a one-dimensional float64 NumPy array: a memory (whatever lies outside the array included), the position of its
first element, the distance between elements, and the number of elements -/
structure Strided where
  mem : ℤ → XR
  off : ℤ
  stride : ℤ
  len : ℕ

/-- element `t`, as NumPy indexing sees it -/
def Strided.get (v : Strided) (t : ℕ) : XR := v.mem (v.off + v.stride * t)

/-- all elements, as NumPy operations see them -/
def Strided.toList (v : Strided) : List XR := (List.range v.len).map v.get

/-- `((double *)PyArray_DATA(v))[i]` -/
def Strided.data (v : Strided) (i : ℕ) : XR := v.mem (v.off + i)

/-- a two-dimensional array with two columns -/
structure Strided2 where
  mem : ℤ → XR
  off : ℤ
  stride0 : ℤ
  stride1 : ℤ
  rows : ℕ

def Strided2.row (b : Strided2) (t : ℕ) : XR × XR :=
  (b.mem (b.off + b.stride0 * t), b.mem (b.off + b.stride0 * t + b.stride1))

def Strided2.toList (b : Strided2) : List (XR × XR) := (List.range b.rows).map b.row

def Strided2.data (b : Strided2) (i : ℕ) : XR := b.mem (b.off + i)

/-- the result of an element-wise NumPy operation: a new dense array, surrounded by arbitrary memory -/
def fresh (junk : ℤ → XR) (l : List XR) : Strided where
  mem i := if 0 ≤ i then l.getD i.toNat (junk i) else junk i
  off := 0
  stride := 1
  len := l.length

/-- `np.vstack((a, b)).T` of equally long `a` and `b` (`_garch.py` line 268): a transposed view -/
def vstackT (junk : ℤ → XR) (a b : List XR) : Strided2 where
  mem i := if 0 ≤ i then (a ++ b).getD i.toNat (junk i) else junk i
  off := 0
  stride0 := 1
  stride1 := a.length
  rows := a.length

/-- `np.ascontiguousarray` (`_garch.py` line 270): a row-major copy -/
def ascontiguous (junk : ℤ → XR) (b : Strided2) : Strided2 where
  mem i := if 0 ≤ i then (b.toList.flatMap fun q => [q.1, q.2]).getD i.toNat (junk i) else junk i
  off := 0
  stride0 := 2
  stride1 := 1
  rows := b.rows

/-- `garch.hpp` lines 7-19, `ewma`: the loop from `t` on, `n` steps -/
def cEwma (lam : XR) (resids : ℕ → XR) : ℕ → ℕ → XR → List XR
  | 0, _, _ => []
  | n + 1, t, v =>
    let v' := lam * v + (1 - lam) * (resids (t - 1) * resids (t - 1))
    v' :: cEwma lam resids n (t + 1) v'

/-- `utils_module.cpp` lines 17-41 -/
def extEwma (resids : Strided) (initial lam : XR) : Except PyErr (List XR) :=
  if resids.len = 0 then .error .indexError
  else .ok (initial :: cEwma lam resids.data (resids.len - 1) 1 initial)

/-- `garch.hpp` lines 41-46 and 60-68: the loop from `t` on, `n` steps -/
def cVariance (next : XR → XR → XR) (resids bounds : ℕ → XR) : ℕ → ℕ → XR → List XR
  | 0, _, _ => []
  | n + 1, t, s =>
    let s' := boundsCheckCpp (next (resids (t - 1)) s) (bounds (t * 2), bounds (t * 2 + 1))
    s' :: cVariance next resids bounds n (t + 1) s'

/-- `utils_module.cpp` lines 65-109 and 112-156 -/
def extVariance (next : XR → XR → XR) (s0 : XR) (resids : Strided) (bounds : Strided2) : Except PyErr (List XR) :=
  if resids.len = 0 then .error .indexError
  else if 2 ≤ resids.len ∧ bounds.rows < resids.len then .error .indexError
  else .ok (s0 :: cVariance next resids.data bounds.data (resids.len - 1) 1 s0)

/-- `ext.compute_garch_variance` -/
def extGarchVariance (p : GarchVar) (resids : Strided) (bc : XR) (bounds : Strided2) : Except PyErr (List XR) :=
  extVariance (garchNext p) (p.omega + (p.alpha + p.beta) * bc) resids bounds

/-- `ext.compute_gjrgarch_variance` -/
def extGjrVariance (p : GjrVar) (resids : Strided) (bc : XR) (bounds : Strided2) : Except PyErr (List XR) :=
  extVariance (gjrNextCpp p) (p.omega + (p.alpha + p.gamma / 2 + p.beta) * bc) resids bounds

/-- `_garch.py` lines 236-270, `variance_bounds`, with the extension -/
def varianceBoundsMem (junk : ℤ → XR) (resids : Strided) : Except PyErr Strided2 := do
  let l := resids.toList
  let tau := min 75 l.length                                               -- 254
  let weights := decayWeights tau                                          -- 257
  let weights := weights.map fun x => x / weights.sum                      -- 258
  let initial := (List.zipWith (· * ·) weights ((l.take tau).map XR.sq)).sum   -- 259
  let vb ← extEwma resids initial (.fin (94 / 100))                        -- 261
  let lo := Np.var l / .fin 100000000                                      -- 263
  let hi := .fin 10000000 * (1 + npMaxList (l.map XR.sq))                  -- 264
  let vb := vb.map fun v => Np.clip v lo hi                                -- 266
  return ascontiguous junk
    (vstackT junk (vb.map fun v => v / .fin 1000000) (vb.map fun v => v * .fin 1000000))   -- 268-270

/-- lines 111-114 -/
def prepResidsMem (junk : ℤ → XR) (zeroMean : Bool) (returns : Strided) : Strided :=
  if zeroMean then returns else fresh junk (returns.toList.map (· - Np.mean returns.toList))

/-- lines 149-154 -/
def modelPathMem {V} (junk : ℤ → XR) (var : V → Strided → XR → Strided2 → Except PyErr (List XR)) (zeroMean : Bool)
    (returns : Strided) (bc : XR) (vb : Strided2) (p : XR × V) : Except PyErr (List XR × List XR) := do
  let resids := if zeroMean then returns else fresh junk (returns.toList.map (· - p.1))
  let s2 ← var p.2 resids bc vb
  return (resids.toList, s2)

/-- lines 130-156, `loglikelihood_model`, with the extension -/
def objectiveMem {V} (junk : ℤ → XR) (var : V → Strided → XR → Strided2 → Except PyErr (List XR)) (zeroMean : Bool)
    (returns : Strided) (bc : XR) (vb : Strided2) (p : XR × V) : XR :=
  match modelPathMem junk var zeroMean returns bc vb p with
  | .ok (r, s2) => -loglik r s2
  | .error _ => .nan

/-- lines 201-234, `GARCHModel.starting_values` -/
def garchStartMem (returns resids : Strided) (bc : XR) (vb : Strided2) : Except PyErr (Option GarchVar) :=
  gridSearch (garchCands (Np.var returns.toList)) (fun p => extGarchVariance p resids bc vb) resids.toList

/-- lines 463-498, `GJRGARCHModel.starting_values` -/
def gjrStartMem (junk : ℤ → XR) (returns resids : Strided) : Except PyErr (Option GjrVar) := do
  let vb ← varianceBoundsMem junk resids
  gridSearch (gjrCands (Np.var returns.toList)) (fun p => extGjrVariance p resids (backcast resids.toList) vb)
    resids.toList

/-- `fit` of a new model (lines 59-102 and 362-406) with the extension; `o` holds the attributes other than the
returns. Compare `fitCore`. -/
def fitMem {V} (junk : ℤ → XR) (var : V → Strided → XR → Strided2 → Except PyErr (List XR))
    (start : Strided → Strided → XR → Strided2 → Except PyErr (Option V))
    (feas : Bool → Feas (XR × V)) (opt : Optimizer (XR × V)) (returns : Strided) (o : GarchObj V) :
    Except PyErr (GarchObj V) := do
  let resids := prepResidsMem junk o.zeroMean returns                      -- 111-114
  let bc := backcast resids.toList                                         -- 115
  let vb ← varianceBoundsMem junk resids                                   -- 119
  let v0 ← start returns resids bc vb                                      -- 122
  match v0 with
  | none => .error .valueError
  | some v0 =>
    let run := opt (feas o.zeroMean) (objectiveMem junk var o.zeroMean returns bc vb)
      (if o.zeroMean then 0 else Np.mean returns.toList, v0)               -- 87-94
    let sigma2 := match run.trace.getLast? with
      | some p => match modelPathMem junk var o.zeroMean returns bc vb p with
        | .ok (_, s2) => s2
        | .error _ => o.sigma2
      | none => o.sigma2
    let o := { o with backcast := bc, bounds := some vb.toList, sigma2 := sigma2 }
    if run.success then
      let mu := if o.zeroMean then 0 else run.x.1
      .ok { o with success := true, params := some (mu, run.x.2, -run.f), resids := demean returns.toList mu }
    else .ok o

end
end Frds.Model

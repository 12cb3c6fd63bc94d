import Verif.Model.OptionPrice

/-! `blsprice` called with built-in numbers, NumPy scalars and arrays of any number of dimensions in any combination. -/
namespace Frds.Np
noncomputable section
open Frds Classical

/-- a `float64` array of any number of dimensions. Axes are counted from the last one, as broadcasting does: `dims` lists
the dimensions from the last axis to the first, `val` maps an index (position on the k-th axis from the end) to the entry.
A NumPy scalar is an array without axes. (NumPy, not frds code.) -/
structure NdArr where
  dims : List ℕ
  val : (ℕ → ℕ) → XR

/-- dimension on the k-th axis from the end; axes the array does not have count as 1 -/
def dim (d : List ℕ) (k : ℕ) : ℕ := d.getD k 1

/-- broadcasting of two shapes -/
def bcDims : List ℕ → List ℕ → Option (List ℕ)
  | [], y => some y
  | x, [] => some x
  | a :: x, b :: y =>
    match (if a = b then some a else if a = 1 then some b else if b = 1 then some a else none), bcDims x y with
    | some c, some z => some (c :: z)
    | _, _ => none

/-- the entry read at position `i` of a larger shape: axes of dimension 1 are repeated -/
def NdArr.at (a : NdArr) (i : ℕ → ℕ) : XR := a.val fun k => if dim a.dims k = 1 then 0 else i k

/-- element-wise operation with broadcasting -/
def NdArr.op2 (f : XR → XR → XR) (a b : NdArr) : Except PyErr NdArr :=
  match bcDims a.dims b.dims with
  | some d => .ok ⟨d, fun i => f (a.at i) (b.at i)⟩
  | none => .error .valueError

/-- element-wise function -/
def NdArr.op1 (f : XR → XR) (a : NdArr) : NdArr := ⟨a.dims, fun i => f (a.val i)⟩

/-- an argument of a Python function: a built-in number or something of NumPy -/
inductive PyArg where
  | py (x : XR)
  | np (a : NdArr)

/-- `np.asarray` -/
def PyArg.arr : PyArg → NdArr
  | .py x => ⟨[], fun _ => x⟩
  | .np a => a

/-- an operator applied to two arguments: built-in numbers give a built-in number -/
def PyArg.op2 (f : XR → XR → XR) : PyArg → PyArg → Except PyErr PyArg
  | .py x, .py y => .ok (.py (f x y))
  | a, b => (a.arr.op2 f b.arr).map .np

/-- `/`: built-in numbers do not divide by zero -/
def PyArg.div : PyArg → PyArg → Except PyErr PyArg
  | .py x, .py y => if y = 0 then .error .zeroDivisionError else .ok (.py (x / y))
  | a, b => (a.arr.op2 (· / ·) b.arr).map .np

/-- a unary operator (`-x`, `x**2`) -/
def PyArg.op1 (f : XR → XR) : PyArg → PyArg
  | .py x => .py (f x)
  | .np a => .np (a.op1 f)

/-- a NumPy or SciPy function of one argument (`np.log`, `norm.cdf`): the result is NumPy's -/
def PyArg.fn (f : XR → XR) (a : PyArg) : PyArg := .np (a.arr.op1 f)

end
end Frds.Np

namespace Frds.Model
noncomputable section
open Frds Frds.Np

/-- `src/frds/measures/_option_price.py` lines 23-27 for any arguments. (`float64` arrays only; the built-in floats are
finite numbers or infinities without overflow.) -/
def blspriceAny (S K r T sigma q : PyArg) : Except PyErr (PyArg × PyArg) := do
  let sK ← PyArg.div S K                                                       -- 23
  let rq ← PyArg.op2 (· - ·) r q
  let half ← PyArg.div (PyArg.op1 XR.sq sigma) (.py 2)
  let s1 ← PyArg.op2 (· + ·) rq half
  let s2 ← PyArg.op2 (· * ·) s1 T
  let n ← PyArg.op2 (· + ·) (PyArg.fn XR.log sK) s2
  let v ← PyArg.op2 (· * ·) sigma (PyArg.fn XR.sqrt T)
  let d1 ← PyArg.div n v
  let v' ← PyArg.op2 (· * ·) sigma (PyArg.fn XR.sqrt T)                         -- 24
  let d2 ← PyArg.op2 (· - ·) d1 v'
  let qT ← PyArg.op2 (· * ·) (PyArg.op1 (- ·) q) T                              -- 25
  let c1 ← PyArg.op2 (· * ·) S (PyArg.fn XR.exp qT)
  let c2 ← PyArg.op2 (· * ·) c1 (PyArg.fn XR.ncdf d1)
  let rT ← PyArg.op2 (· * ·) (PyArg.op1 (- ·) r) T
  let c3 ← PyArg.op2 (· * ·) K (PyArg.fn XR.exp rT)
  let c4 ← PyArg.op2 (· * ·) c3 (PyArg.fn XR.ncdf d2)
  let call ← PyArg.op2 (· - ·) c2 c4
  let rT' ← PyArg.op2 (· * ·) (PyArg.op1 (- ·) r) T                             -- 26
  let p1 ← PyArg.op2 (· * ·) K (PyArg.fn XR.exp rT')
  let p2 ← PyArg.op2 (· * ·) p1 (PyArg.fn XR.ncdf (PyArg.op1 (- ·) d2))
  let qT' ← PyArg.op2 (· * ·) (PyArg.op1 (- ·) q) T
  let p3 ← PyArg.op2 (· * ·) S (PyArg.fn XR.exp qT')
  let p4 ← PyArg.op2 (· * ·) p3 (PyArg.fn XR.ncdf (PyArg.op1 (- ·) d1))
  let put ← PyArg.op2 (· - ·) p2 p4
  pure (call, put)                                                             -- 27

end
end Frds.Model

import Verif.Basic.Np

/-! NumPy arrays as references into a store: several names for one array, views, in-place assignment. Used for
`src/frds/algorithms/_garch.py` and `src/frds/measures/_long_run_mes.py`, whose constructors keep the caller's array
(`np.asarray` of a float64 array returns it unchanged) and whose methods fill arrays element by element. -/
namespace Frds.Model
noncomputable section
open Frds Classical

/-- memory: numbered buffers of doubles; those from `next` on are not allocated yet (and hold arbitrary values) -/
structure Heap where
  cells : ℕ → ℕ → XR
  next : ℕ

/-- a one-dimensional float64 array: a buffer and the positions of its elements (a view may skip, reverse or repeat positions) -/
structure Ref where
  buf : ℕ
  idx : List ℕ

/-- all elements -/
def Heap.read (H : Heap) (r : Ref) : List XR := r.idx.map (H.cells r.buf)

/-- the memory with one cell overwritten -/
def Heap.write (H : Heap) (b i : ℕ) (v : XR) : Heap :=
  { H with cells := fun b' i' => if b' = b ∧ i' = i then v else H.cells b' i' }

/-- NumPy code: it changes the memory, and returns or raises -/
def Op (α : Type) : Type := Heap → Heap × Except PyErr α

namespace Op

def ret {α : Type} (a : α) : Op α := fun H => (H, .ok a)
def andThen {α β : Type} (m : Op α) (k : α → Op β) : Op β := fun H =>
  match m H with
  | (H', .ok a) => k a H'
  | (H', .error e) => (H', .error e)

instance : Monad Op where
  pure := ret
  bind := andThen

/-- raise, or return the value of, a computation that does not touch memory -/
def lift {α : Type} (e : Except PyErr α) : Op α := fun H => (H, e)

/-- the elements of an array, as an operand of a NumPy expression -/
def contents (r : Ref) : Op (List XR) := fun H => (H, .ok (H.read r))

/-- a NumPy operation that returns a new array with these elements. The cells behind the last element keep whatever they held. -/
def alloc (l : List XR) : Op Ref := fun H =>
  ({ cells := fun b i => if b = H.next ∧ i < l.length then l.getD i .nan else H.cells b i, next := H.next + 1 },
    .ok ⟨H.next, List.range l.length⟩)

/-- `np.empty(n)`: a new array that holds what the memory held -/
def empty (n : ℕ) : Op Ref := fun H => ({ H with next := H.next + 1 }, .ok ⟨H.next, List.range n⟩)

/-- `r[t]` -/
def getItem (r : Ref) (t : ℕ) : Op XR := fun H =>
  match r.idx[t]? with
  | none => (H, .error .indexError)
  | some i => (H, .ok (H.cells r.buf i))

/-- `r[t] = v` -/
def setItem (r : Ref) (t : ℕ) (v : XR) : Op Unit := fun H =>
  match r.idx[t]? with
  | none => (H, .error .indexError)
  | some i => (H.write r.buf i v, .ok ())

/-- `for x in l: body(x)` -/
def each {α : Type} (body : α → Op Unit) : List α → Op Unit
  | [] => ret ()
  | x :: t => andThen (body x) fun _ => each body t

/-- `r *= k`, `r /= k`: every element in place (only used on dense arrays) -/
def inPlace (r : Ref) (f : XR → XR) : Op Unit :=
  each (fun t => andThen (getItem r t) fun v => setItem r t (f v)) (List.range r.idx.length)

end Op

/-- what may be passed for a return series: a float64 array, or anything else `np.asarray` has to convert (a list, an array of
another type) -/
inductive ArrayArg where
  | float64 (r : Ref)
  | other (l : List XR)

/-- `np.asarray(x, dtype=np.float64)`: a float64 array is returned as it is, anything else is copied -/
def asarray : ArrayArg → Op Ref
  | .float64 r => Op.ret r
  | .other l => Op.alloc l

end
end Frds.Model

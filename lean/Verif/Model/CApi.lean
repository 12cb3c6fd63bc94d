import Mathlib.Data.List.Basic

/-! Reference counting in the three C extension modules: `src/frds/algorithms/utils/utils_module.cpp`,
`src/frds/measures/measures_module.cpp` and `src/frds/algorithms/isolation_forest/iforest_module.cpp`.

A heap is the list of all objects ever allocated, each with its reference count and the references it holds (which
are released when it is freed). A wrapper is a program in a state monad over the heap; `none` is undefined behaviour
(releasing an object that is already gone, using a null pointer). Everything that is decided outside the wrapper
(whether the arguments parse, whether memory is left, what the iterator yields, whether an array can be used as it
is) is a field of the call and arbitrary. The numerical work between these calls does not touch reference counts and
is modelled elsewhere (`Model/GarchMem`, `Model/MgarchMem`, `Model/IForest`). Small integers and `None` are ordinary
objects of which somebody else holds a reference. Garbage collection of cycles plays no role. -/
namespace Frds.Model.CApi

/-- a pointer to an object: its position in the heap -/
abbrev Ref := ℕ

/-- an object: reference count (0 = freed) and the references it holds -/
structure Obj where
  count : ℕ
  owns : List Ref := []

/-- all objects ever allocated -/
abbrev Heap := List Obj

/-- reference count of `r` (0 if never allocated) -/
def count (h : Heap) (r : Ref) : ℕ := (h[r]?.map Obj.count).getD 0

/-- references held by `r` -/
def owns (h : Heap) (r : Ref) : List Ref := (h[r]?.map Obj.owns).getD []

/-- sum of all reference counts -/
def total (h : Heap) : ℕ := (h.map Obj.count).sum

/-- set the count of `r` -/
def setCount (h : Heap) (r : Ref) (n : ℕ) : Heap := h.modify r fun o => { o with count := n }

/-- release the references in the list; a count that reaches zero frees the object, which releases what it holds.
Every step lowers the sum of all counts by one, so `total` steps suffice. -/
def release : ℕ → List Ref → Heap → Option Heap
  | _, [], h => some h
  | 0, _ :: _, _ => none
  | k + 1, r :: l, h =>
    match count h r with
    | 0 => none
    | 1 => release k (owns h r ++ l) (setCount h r 0)
    | n + 2 => release k l (setCount h r (n + 1))

/-- a program: a new heap and a value, or undefined behaviour -/
abbrev M (α : Type) := StateT Heap Option α

/-- `Py_DECREF` -/
def decref (r : Ref) : M Unit := fun h => (release (total h) [r] h).map fun h' => ((), h')

/-- `Py_INCREF`, undefined for an object that is gone -/
def incref (r : Ref) : M Unit := fun h => if count h r = 0 then none else some ((), setCount h r (count h r + 1))

/-- a new object with one reference, holding the given references (which it takes over) -/
def alloc (owned : List Ref) : M Ref := fun h => some (h.length, h ++ [⟨1, owned⟩])

/-- a null pointer is used -/
def undefined {α : Type} : M α := fun _ => none

/-- `Py_XDECREF` -/
def xdecref : Option Ref → M Unit
  | none => pure ()
  | some r => decref r

/-- `PyArray_SimpleNew`, `PyFloat_FromDouble`: a new object, or NULL if memory is exhausted -/
def simpleNew (memory : Bool) : M (Option Ref) :=
  if memory then do
    let r ← alloc []
    return some r
  else return none

/-- what an iterator yields: an object that exists (an element of a list or tuple), or a new one (a number taken from
a NumPy array, a generator) -/
inductive Item where
  | existing (r : Ref)
  | fresh

/-- `PyIter_Next`: a new reference to the next item -/
def iterNext : Item → M Ref
  | .existing r => do
    incref r
    return r
  | .fresh => alloc []

/-- `PyObject_GetIter`: an iterator that keeps its iterable alive, or NULL if the object is not iterable -/
def getIter (iterable : Bool) (params : Ref) : M (Option Ref) :=
  if iterable then do
    incref params
    let r ← alloc [params]
    return some r
  else return none

/-- `while ((item = PyIter_Next(iter))) { params.push_back(PyFloat_AsDouble(item)); Py_DECREF(item); }` -/
def drain : List Item → M Unit
  | [] => pure ()
  | i :: l => do
    let r ← iterNext i
    decref r
    drain l

/-- `utils_module.cpp` lines 17-41, `ewma_wrapper`. The arguments are borrowed. -/
def ewmaWrapper (parses memory : Bool) : M (Option Ref) :=
  if ¬ parses then return none
  else do
    let variance ← simpleNew memory
    match variance with
    | none => return none
    | some v => return some v

/-- `utils_module.cpp` lines 44-62, `bounds_check_wrapper` -/
def boundsCheckWrapper (parses memory : Bool) : M (Option Ref) :=
  if ¬ parses then return none
  else simpleNew memory

/-- the arguments of one call of a variance kernel -/
structure VarianceCall where
  /-- does `PyArg_ParseTuple` accept the arguments? -/
  parses : Bool
  /-- are the arrays 1-D and 2-D? -/
  dims : Bool
  params : Ref
  iterable : Bool
  items : List Item
  memory : Bool

/-- `utils_module.cpp` lines 65-109 and 112-156, `compute_garch_variance_wrapper` and
`compute_gjrgarch_variance_wrapper` -/
def varianceWrapper (c : VarianceCall) : M (Option Ref) :=
  if ¬ c.parses then return none
  else if ¬ c.dims then return none
  else do
    let iter ← getIter c.iterable c.params
    match iter with
    | none => undefined                              -- PyIter_Next(NULL)
    | some it => do
      drain c.items
      decref it
      let sigma2 ← simpleNew c.memory
      match sigma2 with
      | none => return none
      | some s => return some s

/-- `utils_module.cpp` lines 158-181, `dcc_conditional_correlations_wrapper`: the new array is not tested -/
def dccWrapper (parses memory : Bool) : M (Option Ref) :=
  if ¬ parses then return none
  else do
    let rho ← simpleNew memory
    match rho with
    | none => undefined                              -- PyArray_DATA(NULL)
    | some r => return some r

/-- `measures_module.cpp` lines 22-45, `lrmes_simulation_wrapper`; `Py_BuildValue("db", ...)` makes a float and takes a
reference to the small integer `event` (0 or 1), both handed over to a new tuple -/
def simulationWrapper (parses : Bool) (event : Ref) : M (Option Ref) :=
  if ¬ parses then return none
  else do
    let x ← alloc []
    incref event
    let t ← alloc [x, event]
    return some t

/-- how `PyArray_FROM_OTF` gets an array of the wanted type from its argument: it fails, the object is such an array
already, or a new array is made (`keeps`: the new array remembers the original for writing back) -/
inductive Convert where
  | fails
  | asIs
  | copy (keeps : Bool)

/-- `PyArray_FROM_OTF` -/
def fromOtf (o : Ref) : Convert → M (Option Ref)
  | .fails => return none
  | .asIs => do
    incref o
    return some o
  | .copy false => do
    let r ← alloc []
    return some r
  | .copy true => do
    incref o
    let r ← alloc [o]
    return some r

/-- `for (i < nObs) PyArray_SETITEM(outArr, ..., PyFloat_FromDouble(score))`: a new float for every row, which
`PyArray_SETITEM` reads and does not take over -/
def storeScores : ℕ → M Unit
  | 0 => pure ()
  | n + 1 => do
    let _ ← alloc []
    storeScores n

/-- the arguments of one call of `ext.iforest` -/
structure ForestCall where
  parses : Bool
  num : Ref
  numArr : Convert
  char : Ref
  charArr : Convert
  out : Ref
  outArr : Convert
  /-- number of rows -/
  nObs : ℕ
  /-- the object `None` -/
  none_ : Ref

/-- `iforest_module.cpp` lines 14-64, `iforest_wrapper` -/
def iforestWrapper (c : ForestCall) : M (Option Ref) :=
  if ¬ c.parses then return none
  else do
    let num ← fromOtf c.num c.numArr
    match num with
    | none => return none
    | some num => do
      let char ← fromOtf c.char c.charArr
      match char with
      | none => return none
      | some char => do
        let out ← fromOtf c.out c.outArr
        match out with
        | none => do
          xdecref (some num)
          xdecref (some char)
          xdecref none
          return none
        | some out => do
          storeScores c.nObs
          decref num
          decref char
          decref out
          incref c.none_
          return some c.none_

/-- the caller gets the result and drops it at some later time (assignment to a new variable, end of a function) -/
def callAndDrop (f : M (Option Ref)) : M Bool := do
  let r ← f
  match r with
  | none => return false
  | some r => do
    decref r
    return true

end Frds.Model.CApi

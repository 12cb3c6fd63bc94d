import Verif.Model.IForest

/-! Model of `src/frds/algorithms/isolation_forest/__init__.py` (the Python function `anomaly_scores`) and of
the argument handling in `iforest_module.cpp`.

Simplifications. A `DataFrame` is an index and a list of labelled columns of one of three kinds: numeric dtype
(a subtype of `np.number`; complex, timedelta and nullable extension types are left out), `object` dtype, any
other dtype (bool, datetime, category, ...), which `select_dtypes` never selects. A cell of an object column is
represented by the code points of the text NumPy makes of it (`str(x)`). `drop(columns=...)` raises `KeyError`
when a label does not exist (pandas >= 1.3 also for repeated column labels). Calls with
undefined behaviour in the extension (`tree_size < 1`, negative `forest_size`, no usable column) are given no
outcome. -/
namespace Frds.Model.IForest
noncomputable section
open Frds Classical

/-- contents of a column, by kind of dtype -/
inductive Cells where
  | number (xs : List XR)
  | object (xs : List (List ℕ))
  | other (n : ℕ)

structure Column where
  label : String
  cells : Cells

/-- the argument `data` (line 11) -/
structure Frame (I : Type) where
  index : List I
  cols : List Column

/-- the returned frame (line 43): one column -/
structure ScoreFrame (I : Type) where
  index : List I
  column : String
  scores : List XR

/-- line 32: `data.drop(columns=exclude_cols)` -/
def Frame.drop {I : Type} (f : Frame I) (labels : List String) : Except PyErr (Frame I) :=
  if ∀ l ∈ labels, ∃ c ∈ f.cols, c.label = l then
    .ok { f with cols := f.cols.filter fun c => c.label ∉ labels }
  else .error .keyError

/-- line 37: `select_dtypes(include=[np.number])`, column by column -/
def Frame.numbers {I : Type} (f : Frame I) : List (List XR) :=
  f.cols.filterMap fun c => match c.cells with
    | .number xs => some xs
    | _ => none

/-- line 35: `select_dtypes(include=[object])`, column by column -/
def Frame.objects {I : Type} (f : Frame I) : List (List (List ℕ)) :=
  f.cols.filterMap fun c => match c.cells with
    | .object xs => some xs
    | _ => none

/-- item size NumPy chooses for `dtype=np.string_`: the longest text, at least one byte -/
def itemSize (cells : List (List ℕ)) : ℕ := (cells.map List.length).foldr max 1

/-- a fixed-width cell: the text followed by NUL bytes -/
def padTo (w : ℕ) (c : List ℕ) : List ℕ := c ++ List.replicate (w - c.length) 0

/-- lines 35-38 together with `iforest_module.cpp` lines 22-27 and the constructor
(`IsolationForest.cpp` lines 83-102): the two transposed C-contiguous arrays. Text outside ASCII cannot be encoded
(`UnicodeEncodeError`, a `ValueError`). `rest` is whatever the memory holds after the character array. -/
def Frame.toData {I : Type} (f : Frame I) (rest : List ℕ) : Except PyErr Data :=
  if ∃ c ∈ f.objects.flatten, ∃ x ∈ c, 128 ≤ x then .error .valueError
  else .ok {
    nNum := f.numbers.length
    nChar := f.objects.length
    nObs := f.index.length
    num := fun a o => (f.numbers.getD a []).getD o .nan
    width := itemSize f.objects.flatten
    bytes := (f.objects.flatten.map (padTo (itemSize f.objects.flatten))).flatten ++ rest }

/-- the environment of a call -/
structure Env where
  /-- NumPy 2 or later, where the name `np.string_` used in line 35 no longer exists -/
  numpy2 : Bool
  /-- `std::thread::hardware_concurrency()` -/
  workers : ℕ
  /-- memory after the character array -/
  rest : List ℕ

/-- `PyArg_ParseTuple` with format `i` (`iforest_module.cpp` lines 18-20) -/
def fitsInt (x : ℤ) : Prop := -2 ^ 31 ≤ x ∧ x < 2 ^ 31

/-- lines 31-42 up to the start of the extension -/
def prepare {I : Type} (env : Env) (f : Frame I) (excludeCols : Option (List String))
    (forestSize treeSize seed : ℤ) : Except PyErr Data := do
  let g ← f.drop (excludeCols.getD [])                                     -- 31-32
  if env.numpy2 then throw .attributeError                                 -- 35
  let d ← g.toData env.rest                                                -- 35-37
  if ¬ (fitsInt forestSize ∧ fitsInt treeSize ∧ fitsInt seed) then throw .overflowError   -- 42
  return d

/-- `anomaly_scores(data, forest_size, tree_size, exclude_cols, random_seed, name)` (lines 9-44): which outcomes
are possible -/
def AnomalyScores {I G : Type} (env : Env) (rng : Rng G) (f : Frame I) (forestSize treeSize : ℤ)
    (excludeCols : Option (List String)) (seed : ℤ) (name : String) : Except PyErr (ScoreFrame I) → Prop
  | .error e => prepare env f excludeCols forestSize treeSize seed = .error e
  | .ok r => ∃ d out, prepare env f excludeCols forestSize treeSize seed = .ok d ∧ 0 ≤ forestSize ∧ 1 ≤ treeSize ∧
      1 ≤ d.nNum + d.nChar ∧
      IsOutput d rng forestSize.toNat treeSize.toNat (seedOf seed) env.workers out ∧
      r = { index := f.index, column := name, scores := out }

end
end Frds.Model.IForest

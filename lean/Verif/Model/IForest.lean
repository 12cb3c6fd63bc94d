import Verif.Basic.XR
import Mathlib.Analysis.SpecialFunctions.Log.Base

/-! Model of `src/frds/algorithms/isolation_forest/IsolationForest.cpp` (and `.hpp`).

Integers are unbounded; `treeSize = 0`, no attribute at all, and `workers = 0` (undefined behaviour in
C++: cast of minus infinity, an empty distribution range, division by zero) are excluded by hypotheses of
the theorems. Memory reclamation and exceptions of the C++ runtime are not modelled. -/
namespace Frds.Model.IForest
noncomputable section
open Frds Classical

/-- The arrays handed to the constructor (`IsolationForest.cpp` lines 83-102; `iforest_module.cpp` lines
22-27). Numeric data are addressed by `(attribute, observation)`. Character data are a C-contiguous block
of cells of `width` bytes; `bytes` is the memory from the start of that block on, including whatever
follows the block. -/
structure Data where
  nNum : ℕ
  nChar : ℕ
  nObs : ℕ
  num : ℕ → ℕ → XR
  width : ℕ
  bytes : List ℕ

/-- C string at `PyArray_GETPTR2(char_data, a, o)`: bytes up to the first NUL (lines 57-58, 61-62, 131-132) -/
def Data.cstr (d : Data) (a o : ℕ) : List ℕ :=
  (d.bytes.drop ((a * d.nObs + o) * d.width)).takeWhile (· ≠ 0)

/-- lines 63-72 and 133-143: shorter strings first, equal lengths by `strcmp` -/
def strLess (x y : List ℕ) : Bool :=
  if x.length < y.length then true
  else if y.length < x.length then false
  else decide (x < y)

/-- lines 38-51: numeric split during training; the first argument is the split value -/
def trainLess (val obsVal : XR) : Bool :=
  if val.isNan then (if obsVal.isNan then true else false)
  else (if obsVal.isNan ∨ obsVal < val then true else false)

/-- `IsolationForest.hpp` lines 17-37 (`Node`): an external node holds the number of observations; an internal
one a numeric or a character split -/
inductive Tree where
  | leaf (nObs : ℕ)
  | numNode (attr : ℕ) (val : XR) (nObs : ℕ) (l r : Tree)
  | chrNode (attr : ℕ) (val : List ℕ) (nObs : ℕ) (l r : Tree)

/-- The external random number facility: `std::mt19937_64` (seeding), `std::uniform_int_distribution(0, n-1)`
and `std::sample` from `0..n-1` (selection sampling keeps the order of a forward range). Only the documented
contracts are assumed. -/
structure Rng (G : Type) where
  seed : ℕ → G
  unif : G → ℕ → ℕ × G
  unif_lt : ∀ g n, 0 < n → (unif g n).1 < n
  sample : G → ℕ → ℕ → List ℕ × G
  sample_sub : ∀ g n k, (sample g n k).1.Sublist (List.range n)
  sample_len : ∀ g n k, (sample g n k).1.length = min k n

/-- lines 12-81, `growTree`. The generator is passed by value: both children get the same copy. -/
def growTree {G : Type} (d : Data) (rng : Rng G) (maxHeight : ℕ) (height : ℕ) (sample : List ℕ) (g : G) :
    Tree :=
  if h : sample.length ≤ 1 ∨ maxHeight ≤ height then .leaf sample.length           -- 16-19
  else
    let attr := rng.unif g (d.nNum + d.nChar)                                      -- 21
    let pick := rng.unif attr.2 sample.length                                      -- 26, 32, 58
    let ob := sample.getD pick.1 0
    if attr.1 < d.nNum then                                                        -- 28
      let val := d.num attr.1 ob                                                   -- 31-32
      let lobs := sample.filter fun i => trainLess val (d.num attr.1 i)            -- 33-51
      let robs := sample.filter fun i => !trainLess val (d.num attr.1 i)
      .numNode attr.1 val sample.length
        (growTree d rng maxHeight (height + 1) lobs pick.2)                        -- 79
        (growTree d rng maxHeight (height + 1) robs pick.2)                        -- 80
    else
      let val := d.cstr (attr.1 - d.nNum) ob                                       -- 57-58
      let lobs := sample.filter fun i => strLess (d.cstr (attr.1 - d.nNum) i) val  -- 60-73
      let robs := sample.filter fun i => !strLess (d.cstr (attr.1 - d.nNum) i) val
      .chrNode attr.1 val sample.length
        (growTree d rng maxHeight (height + 1) lobs pick.2)
        (growTree d rng maxHeight (height + 1) robs pick.2)
termination_by maxHeight - height
decreasing_by all_goals omega

/-- line 91: `ceil(log2((double)treeSize))` -/
def maxTreeHeight (treeSize : ℕ) : ℕ := ⌈Real.logb 2 treeSize⌉₊

/-- lines 8-10 -/
def eulerGamma : ℝ := 0.57721566490153286

/-- lines 104-107, `averagePathLength` -/
def averagePathLength (n : ℕ) : XR :=
  2 * (XR.log (.fin n - 1) + .fin eulerGamma) - 2 * (.fin n - 1) / .fin n

/-- lines 116-146, `pathLength` -/
def pathLength (d : Data) (ob : ℕ) : Tree → ℕ → XR
  | .leaf n, length => if n ≤ 1 then .fin length else .fin length + averagePathLength n   -- 119-122
  | .numNode attr val _ l r, length =>                                                   -- 123-130
    if d.num attr ob < val then pathLength d ob l (length + 1) else pathLength d ob r (length + 1)
  | .chrNode attr val _ l r, length =>                                                   -- 131-144
    if strLess (d.cstr (attr - d.nNum) ob) val then pathLength d ob l (length + 1)
    else pathLength d ob r (length + 1)

/-- C `pow(2, x)` -/
def pow2 : XR → XR
  | .fin x => .fin (2 ^ x)
  | .pinf => .pinf
  | .ninf => 0
  | .nan => .nan

/-- lines 109-114, `anomalyScore` -/
def anomalyScore (d : Data) (treeSize forestSize : ℕ) (trees : List Tree) (ob : ℕ) : XR :=
  let avg := (trees.map fun t => pathLength d ob t 0).sum / .fin forestSize
  pow2 (-avg / averagePathLength treeSize)

/-! ### growing the forest -/

/-- conversion of the `int` argument (`iforest_module.cpp` line 17) to `size_t` (constructor, line 87) -/
def seedOf (s : ℤ) : ℕ := (s % 2 ^ 64).toNat

/-- lines 156-158; `randomSeed` is unsigned -/
def randomOffset (nObs randomSeed : ℕ) : ℕ :=
  nObs % (if 0 < randomSeed then randomSeed else 1 - randomSeed)

/-- the loop of lines 159-172 in one thread from a given state of the generator. `sample` is declared before
the loop (line 154) and `std::sample` appends to it; it is never cleared. -/
def workerLoop {G : Type} (d : Data) (rng : Rng G) (treeSize : ℕ) : ℕ → List ℕ → G → List Tree
  | 0, _, _ => []
  | jobs + 1, sample, g =>
    let s := rng.sample g d.nObs treeSize                                          -- 165-166
    let sample := sample ++ s.1
    growTree d rng (maxTreeHeight treeSize) 0 sample s.2                           -- 167-168
      :: workerLoop d rng treeSize jobs sample s.2

/-- lines 148-174: the trees grown by one thread, in its own order. The generator is a `static thread_local`
variable: it is seeded once per thread, in the first iteration, with `thread_id * jobs + offset`. -/
def workerTrees {G : Type} (d : Data) (rng : Rng G) (treeSize randomSeed threadId jobs : ℕ) : List Tree :=
  workerLoop d rng treeSize jobs [] (rng.seed (threadId * jobs + randomOffset d.nObs randomSeed))

/-- lines 176-189: number of trees assigned to thread `i` -/
def jobsOf (forestSize workers i : ℕ) : ℕ :=
  if i = 0 then forestSize - forestSize / workers * (workers - 1) else forestSize / workers

/-- all threads of `grow()`, lines 176-195 -/
def threadTrees {G : Type} (d : Data) (rng : Rng G) (treeSize forestSize randomSeed workers : ℕ) :
    List (List Tree) :=
  (List.range workers).map fun i => workerTrees d rng treeSize randomSeed i (jobsOf forestSize workers i)

/-- One atomic `push_back` under the lock (lines 169-171): some thread that still has a tree to append
appends it. State: what each thread still has to append, and the shared vector. -/
inductive PushStep {T : Type} : List (List T) × List T → List (List T) × List T → Prop where
  | push (before after : List (List T)) (t : T) (rest : List T) (out : List T) :
      PushStep (before ++ (t :: rest) :: after, out) (before ++ rest :: after, out ++ [t])

/-- every interleaving of the threads -/
inductive PushRun {T : Type} : List (List T) × List T → List (List T) × List T → Prop where
  | refl (s) : PushRun s s
  | step {s s' s''} : PushStep s s' → PushRun s' s'' → PushRun s s''

/-- `grow()` returns after joining all threads (lines 191-193): every thread is done -/
def Grown {G : Type} (d : Data) (rng : Rng G) (treeSize forestSize randomSeed workers : ℕ)
    (trees : List Tree) : Prop :=
  ∃ done, (∀ l ∈ done, l = []) ∧
    PushRun (threadTrees d rng treeSize forestSize randomSeed workers, []) (done, trees)

/-! ### scoring -/

/-- lines 208-225: the observations scored by thread `i`: start and number -/
def scoreRange (nObs workers i : ℕ) : ℕ × ℕ :=
  let jobs := nObs / workers
  if i < workers - 1 then (i * jobs, jobs)
  else
    let remain := nObs - jobs * i
    (nObs - remain, remain)

/-- indices written by thread `i`, in order (line 200) -/
def scoreJobs (nObs workers i : ℕ) : List ℕ :=
  List.range' (scoreRange nObs workers i).1 (scoreRange nObs workers i).2

/-- one write `anomalyScores[i] = anomalyScore(i)` by some thread; the list records the indices written -/
inductive ScoreStep {S : Type} (f : ℕ → S) :
    List (List ℕ) × List S → List (List ℕ) × List S → Prop where
  | write (before after : List (List ℕ)) (i : ℕ) (rest : List ℕ) (out : List S) :
      ScoreStep f (before ++ (i :: rest) :: after, out) (before ++ rest :: after, out.set i (f i))

inductive ScoreRun {S : Type} (f : ℕ → S) :
    List (List ℕ) × List S → List (List ℕ) × List S → Prop where
  | refl (s) : ScoreRun f s s
  | step {s s' s''} : ScoreStep f s s' → ScoreRun f s' s'' → ScoreRun f s s''

/-- lines 208-231 (and `resize` in line 98): a possible content of `anomalyScores` after all threads joined -/
def Scored {S : Type} (f : ℕ → S) (init : S) (nObs workers : ℕ) (scores : List S) : Prop :=
  ∃ done, (∀ l ∈ done, l = []) ∧
    ScoreRun f ((List.range workers).map (scoreJobs nObs workers), List.replicate nObs init) (done, scores)

/-- `iforest_module.cpp` lines 46-56: the values written to the output array -/
def IsOutput {G : Type} (d : Data) (rng : Rng G) (forestSize treeSize randomSeed workers : ℕ)
    (out : List XR) : Prop :=
  ∃ trees, Grown d rng treeSize forestSize randomSeed workers trees ∧
    Scored (anomalyScore d treeSize forestSize trees) 0 d.nObs workers out

end
end Frds.Model.IForest

import Verif.Model.IForest

/-! The C++ isolation forest with its actual integer types: `size_t` (64 bits), `unsigned int` (32 bits) for the numbers
of threads and of trees per thread, and a signed `int` (32 bits) for the number of observations stored in a node.
(`Model/IForest` has unbounded integers.) -/
namespace Frds.Model.IForestInt
noncomputable section
open Frds Frds.Model.IForest Classical

/-- conversion of a `size_t` to `int` (two's complement): `growTree` passes `nObs` (a `size_t`) to the `int nObs` of `Node`,
`IsolationForest.cpp` lines 17, 54, 76 and `IsolationForest.hpp` lines 23, 26 -/
def toInt (n : ℕ) : ℤ := ((n : ℤ) + 2 ^ 31) % 2 ^ 32 - 2 ^ 31

/-- lines 116-146, `pathLength`: the stored `int` is compared with 1 and, if larger, converted back to `size_t`. (The
number in the tree is the unbounded one; it is only read here, so converting it when it is read instead of when it is
stored makes no difference.) -/
def pathLength (d : Data) (ob : ℕ) : Tree → ℕ → XR
  | .leaf n, length =>                                                                   -- 119-122
    if toInt n ≤ 1 then .fin length else .fin length + averagePathLength (toInt n).toNat
  | .numNode attr val _ l r, length =>                                                   -- 123-130
    if d.num attr ob < val then pathLength d ob l (length + 1) else pathLength d ob r (length + 1)
  | .chrNode attr val _ l r, length =>                                                   -- 131-144
    if strLess (d.cstr (attr - d.nNum) ob) val then pathLength d ob l (length + 1)
    else pathLength d ob r (length + 1)

/-- lines 109-114, `anomalyScore` -/
def anomalyScore (d : Data) (treeSize forestSize : ℕ) (trees : List Tree) (ob : ℕ) : XR :=
  let avg := (trees.map fun t => pathLength d ob t 0).sum / .fin forestSize
  pow2 (-avg / averagePathLength treeSize)

/-- lines 148-174: `jobs` is converted to `unsigned int` when the thread is started; the loop runs from `thread_id * jobs`
to `thread_id * jobs + jobs`, both computed in `unsigned int`; the generator's seed `i + random_offset` is a `size_t`. -/
def workerTrees {G : Type} (d : Data) (rng : Rng G) (treeSize randomSeed threadId jobs : ℕ) : List Tree :=
  let j := jobs % 2 ^ 32
  let lo := threadId * j % 2 ^ 32
  let hi := (threadId * j + j) % 2 ^ 32
  workerLoop d rng treeSize (hi - lo) [] (rng.seed ((lo + randomOffset d.nObs randomSeed) % 2 ^ 64))

/-- all threads of `grow()`, lines 176-195 (`jobsOf` is computed in `size_t`; nothing in it exceeds `forestSize`) -/
def threadTrees {G : Type} (d : Data) (rng : Rng G) (treeSize forestSize randomSeed workers : ℕ) :
    List (List Tree) :=
  (List.range workers).map fun i => workerTrees d rng treeSize randomSeed i (jobsOf forestSize workers i)

/-- `grow()` under some schedule -/
def Grown {G : Type} (d : Data) (rng : Rng G) (treeSize forestSize randomSeed workers : ℕ)
    (trees : List Tree) : Prop :=
  ∃ done, (∀ l ∈ done, l = []) ∧
    PushRun (threadTrees d rng treeSize forestSize randomSeed workers, []) (done, trees)

/-- `iforest_module.cpp` lines 46-56: the values written to the output array -/
def IsOutput {G : Type} (d : Data) (rng : Rng G) (forestSize treeSize randomSeed workers : ℕ)
    (out : List XR) : Prop :=
  ∃ trees, Grown d rng treeSize forestSize randomSeed workers trees ∧
    Scored (anomalyScore d treeSize forestSize trees) 0 d.nObs workers out

end
end Frds.Model.IForestInt

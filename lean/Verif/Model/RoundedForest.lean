import Verif.Basic.Machine
import Verif.Model.IForest

/-! Scoring of the isolation forest (`src/frds/algorithms/isolation_forest/IsolationForest.cpp`) in rounded arithmetic:
every `+ - * /` is followed by rounding; `log` is the machine's, `pow2` stands for `pow(2, ·)`. Conversions from
integers to `double` round. The trees themselves are grown without arithmetic (`Model/IForest`; the generator of the
split values is arbitrary there); `ceil(log2(treeSize))` is taken as exact. -/
namespace Frds.Model.RoundedForest
noncomputable section
open Frds Frds.Model.IForest Classical

variable (M : Machine) (pow2 : XR → XR)

local infixl:65 " +ᵣ " => Rounding.add (Machine.R M)
local infixl:65 " -ᵣ " => Rounding.sub (Machine.R M)
local infixl:70 " *ᵣ " => Rounding.mul (Machine.R M)
local infixl:70 " /ᵣ " => Rounding.div (Machine.R M)

/-- lines 104-107, `averagePathLength`; the constant of lines 8-10 is rounded by the compiler -/
def averagePathLength (n : ℕ) : XR :=
  2 *ᵣ (M.log (M.R.round (.fin n) -ᵣ 1) +ᵣ M.R.round (.fin eulerGamma))
    -ᵣ (2 *ᵣ (M.R.round (.fin n) -ᵣ 1) /ᵣ M.R.round (.fin n))

/-- lines 116-146, `pathLength` -/
def pathLength (d : Data) (ob : ℕ) : Tree → ℕ → XR
  | .leaf n, length =>                                                                   -- 119-122
    if n ≤ 1 then M.R.round (.fin length) else M.R.round (.fin length) +ᵣ averagePathLength M n
  | .numNode attr val _ l r, length =>                                                   -- 123-130
    if d.num attr ob < val then pathLength d ob l (length + 1) else pathLength d ob r (length + 1)
  | .chrNode attr val _ l r, length =>                                                   -- 131-144
    if strLess (d.cstr (attr - d.nNum) ob) val then pathLength d ob l (length + 1)
    else pathLength d ob r (length + 1)

/-- lines 109-114, `anomalyScore`: path lengths are added in the order of the vector of trees -/
def anomalyScore (d : Data) (treeSize forestSize : ℕ) (trees : List Tree) (ob : ℕ) : XR :=
  let avg := M.R.foldSum (trees.map fun t => pathLength M d ob t 0) /ᵣ M.R.round (.fin forestSize)
  pow2 (-avg /ᵣ averagePathLength M treeSize)

/-- `iforest_module.cpp` lines 46-56: the values written to the output array by some schedule of the threads -/
def IsOutput {G : Type} (d : Data) (rng : Rng G) (forestSize treeSize randomSeed workers : ℕ)
    (out : List XR) : Prop :=
  ∃ trees, Grown d rng treeSize forestSize randomSeed workers trees ∧
    Scored (anomalyScore M pow2 d treeSize forestSize trees) 0 d.nObs workers out

end
end Frds.Model.RoundedForest

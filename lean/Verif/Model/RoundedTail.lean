import Verif.Model.Rounded
import Verif.Model.Dip
import Verif.Model.Mes

/-! `src/frds/measures/_marginal_expected_shortfall.py` and `src/frds/measures/_distress_insurance_premium.py` in rounded
arithmetic. -/
namespace Frds.Model.Rounded
noncomputable section
open Frds Frds.Model Classical

variable (M : Machine)

local infixl:65 " +ᵣ " => Rounding.add (Machine.R M)
local infixl:65 " -ᵣ " => Rounding.sub (Machine.R M)
local infixl:70 " *ᵣ " => Rounding.mul (Machine.R M)
local infixl:70 " /ᵣ " => Rounding.div (Machine.R M)

/-! ### marginal expected shortfall -/

/-- NumPy's `_lerp(a, b, t)` -/
def lerp (a b t : XR) : XR :=
  if t < .fin (1 / 2) then a +ᵣ (b -ᵣ a) *ᵣ t else b -ᵣ (b -ᵣ a) *ᵣ (1 -ᵣ t)

/-- the position of a quantile among `n` order statistics: `np.percentile` divides its argument by 100 and multiplies by `n - 1` -/
def position (n : ℕ) (q : XR) : XR := M.R.round (.fin ((n : ℝ) - 1)) *ᵣ (q /ᵣ 100)

/-- NumPy's `floor` of a position, as an index -/
def index : XR → ℕ
  | .fin v => Int.toNat ⌊v⌋
  | _ => 0

/-- `np.percentile(x, q)` with the linear method: `IndexError` for an empty array, NaN if the array contains NaN. From the last
index on NumPy takes the last element for both neighbours (the weight is then irrelevant for finite data). -/
def percentile (x : List XR) (q : XR) : Except PyErr XR :=
  if x = [] then .error .indexError
  else if XR.nan ∈ x then .ok .nan
  else
    let s := Np.sort x
    let v := position M x.length q
    let i := index v
    let j := min (i + 1) (x.length - 1)
    .ok (lerp M (s.getD i .nan) (s.getD j .nan) (v -ᵣ .fin i))

/-- `_marginal_expected_shortfall.py` lines 18-30, `estimate` -/
def mes (m : Mes) (q : XR) : Except PyErr XR :=
  if 0 ≤ q ∧ q ≤ 1 then do                                              -- line 27
    let low ← percentile M m.market (q *ᵣ 100)                          -- line 28
    let worst := (List.zip m.firm m.market).filter fun p => p.2 < low   -- line 29
    return mean M 0 (worst.map Prod.fst)                                -- line 30
  else .error .assertionError

/-! ### distress insurance premium

The numbers of banks in default per scenario (lines 39-51) and the loss draws (line 61) are inputs. -/

/-- what the generator delivers: the number of banks in default in each scenario, and for row `i` the draws (row, draw, simulation) -/
structure DipData where
  n : ℕ
  counts : List ℕ
  tri : ℕ → ℕ → ℕ → XR
  nSim : ℕ

/-- lines 55-56: the relative frequency of `i` joint defaults -/
def dipJoint (D : DipData) (i : ℕ) : XR := M.R.round (.fin (D.counts.count i)) /ᵣ M.R.round (.fin D.counts.length)

/-- line 61: `np.sum` of the `i + 1` draws of simulation `j` -/
def dipSum (D : DipData) (i j : ℕ) : XR := M.sum 0 ((List.range (i + 1)).map fun r => D.tri i r j)

/-- lines 58-62: iteration `i` overwrites rows `i, i+1, ...`; `junk` is the content of `np.empty` -/
def dipRows (D : DipData) (junk : ℕ → ℕ → XR) : ℕ → ℕ → XR :=
  (List.range D.n).foldl (fun m i => fun r j => if i ≤ r then dipSum M D i j else m r j) junk

/-- `math.ceil`, line 75 -/
def pyCeil : XR → Except PyErr ℤ
  | .nan => .error .valueError
  | .pinf => .error .overflowError
  | .ninf => .error .overflowError
  | .fin x => .ok ⌈x⌉

/-- `a[idx] += v`, with Python's negative indices -/
def addAt (l : List XR) (idx : ℤ) (v : XR) : Except PyErr (List XR) :=
  let k := if idx < 0 then idx + l.length else idx
  if 0 ≤ k ∧ k < l.length then .ok (l.modify k.toNat (· +ᵣ v)) else .error .indexError

/-- lines 66-76: the loop over the simulated losses -/
def dipFill (D : DipData) (loss : ℕ → ℕ → XR) : Except PyErr (List XR) :=
  (loopPairs D.n D.nSim).foldlM (fun acc ij => do
    let idx ← pyCeil (loss ij.1 ij.2 *ᵣ 100)                            -- 67, 75
    addAt M acc idx (dipJoint M D (ij.1 + 1)))                          -- 76
    (List.replicate (D.n * 100) 0)

/-- line 80: the threshold in whole percent -/
def dipPct (thr : XR) : Except PyErr ℤ := pyInt (thr *ᵣ 100)

/-- `np.dot` -/
def dot (x y : List XR) : Except PyErr XR :=
  if x.length = y.length then .ok (M.sum 2 (List.zipWith (fun a b => a *ᵣ b) x y)) else .error .valueError

/-- lines 52-90 of `estimate` -/
def dip (D : DipData) (junk : ℕ → ℕ → XR) (thr : XR) : Except PyErr XR := do
  let raw ← dipFill M D (dipRows M D junk)                              -- 58-76
  let prob := raw.map (· /ᵣ M.R.round (.fin D.nSim))                    -- 79
  let pct ← dipPct M thr                                                -- 80
  let tail := pySliceFrom prob (pct * D.n)
  let great := M.sum 1 tail                                             -- 83
  let d ← dot M ((npRange (pct * D.n) (100 * D.n)).map M.R.round) tail  -- 85-88
  let expLosses := d /ᵣ (100 *ᵣ great)                                  -- 88
  return expLosses *ᵣ great                                             -- 90

end
end Frds.Model.Rounded

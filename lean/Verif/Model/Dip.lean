import Verif.Basic.Gauss
import Verif.Model.Absorption

/-! Model of `src/frds/measures/_distress_insurance_premium.py`.

The seeded generator is a function of the seed and the sizes requested from it; Cholesky is a
parameter. Shapes: `correlations` is `n × n` with `n = len(default_prob)` (a mismatch, which NumPy
reports as `ValueError`, is not modelled), simulation counts are natural numbers. -/
namespace Frds.Model
noncomputable section
open Frds Classical

/-- what `RandomState(seed)` delivers to `estimate`, in the order of lines 49 and 61: standard normal
numbers (scenario, column) and, for row `i`, `i + 1` triangular numbers per simulation
(row, draw, simulation) -/
structure DipDraws where
  normal : ℕ → ℕ → ℝ
  tri : ℕ → ℕ → ℕ → ℝ

/-- the generator: seed, number of banks, `n_simulated_returns`, `n_simulations` -/
abbrev DipRng := ℕ → ℕ → ℕ → ℕ → DipDraws

/-- `triangular(0.1, 0.55, 1)` returns numbers between its end points -/
def DipDraws.Ok (d : DipDraws) : Prop := ∀ i r j, 1 / 10 ≤ d.tri i r j ∧ d.tri i r j ≤ 1

/-- `np.linalg.cholesky`: the lower factor or `LinAlgError` -/
abbrev CholRoutine := (n : ℕ) → (ℕ → ℕ → XR) → Except PyErr (ℕ → ℕ → ℝ)

/-- the quantile function of the standard normal distribution on `(0,1)` -/
def invCdf (p : ℝ) : ℝ := if h : ∃ x, Φ x = p then h.choose else 0

/-- `NormalDist().inv_cdf(p)`, line 44: `StatisticsError` (a `ValueError`) unless `0 < p < 1`; NaN
passes the comparison and yields NaN -/
def dipThreshold : XR → Except PyErr XR
  | .nan => .ok .nan
  | .pinf => .error .valueError
  | .ninf => .error .valueError
  | .fin p => if p ≤ 0 ∨ 1 ≤ p then .error .valueError else .ok (.fin (invCdf p))

/-- lines 10-18: the two attributes -/
structure DipIn where
  p : List XR
  corr : ℕ → ℕ → XR

/-- lines 48-49: entry `(s, b)` of `z = normals · Rᵀ`, `R` the lower factor -/
def dipZ (d : DipDraws) (L : ℕ → ℕ → ℝ) (n s b : ℕ) : ℝ := ∑ k ∈ Finset.range n, d.normal s k * L b k

/-- line 51: number of columns with `z < threshold` in scenario `s` -/
def defaultCount (d : DipDraws) (L : ℕ → ℕ → ℝ) (thr : List XR) (s : ℕ) : ℕ :=
  ((List.range thr.length).filter fun b => decide (XR.fin (dipZ d L thr.length s b) < thr.getD b .nan)).length

/-- lines 55-56: `bincount(...)[i] / n_simulated_returns` -/
def jointDefaults (d : DipDraws) (L : ℕ → ℕ → ℝ) (thr : List XR) (nRet i : ℕ) : XR :=
  .fin ((((List.range nRet).map (defaultCount d L thr)).count i : ℕ) : ℝ) / .fin (nRet : ℝ)

/-- line 61: sum of the `i + 1` draws of simulation `j` -/
def lgdSum (d : DipDraws) (i j : ℕ) : ℝ := ∑ r ∈ Finset.range (i + 1), d.tri i r j

/-- lines 58-62: iteration `i` overwrites rows `i, i+1, ...` of the array; `junk` is the content of
`np.empty` -/
def lgdRows (d : DipDraws) (n : ℕ) (junk : ℕ → ℕ → ℝ) : ℕ → ℕ → ℝ :=
  (List.range n).foldl (fun M i => fun r j => if i ≤ r then lgdSum d i j else M r j) junk

/-- `a[idx] += v` on a list, with Python's negative indices -/
def addAt (l : List XR) (idx : ℤ) (v : XR) : Except PyErr (List XR) :=
  let k := if idx < 0 then idx + l.length else idx
  if 0 ≤ k ∧ k < l.length then .ok (l.modify k.toNat (· + v)) else .error .indexError

/-- the index pairs in the order of the two loops of lines 71-72 -/
def loopPairs (n nSim : ℕ) : List (ℕ × ℕ) :=
  (List.range n).flatMap fun i => (List.range nSim).map fun j => (i, j)

/-- lines 68-76 -/
def fillLosses (n nSim : ℕ) (dist : ℕ → XR) (loss : ℕ → ℕ → ℝ) : Except PyErr (List XR) :=
  (loopPairs n nSim).foldlM (fun acc ij => addAt acc ⌈loss ij.1 ij.2 * 100⌉ (dist (ij.1 + 1)))
    (List.replicate (n * 100) 0)

/-- Python's `int(float)` -/
def pyInt : XR → Except PyErr ℤ
  | .nan => .error .valueError
  | .pinf => .error .overflowError
  | .ninf => .error .overflowError
  | .fin x => .ok (if 0 ≤ x then ⌊x⌋ else ⌈x⌉)

/-- `np.dot` of two vectors -/
def npDot (x y : List XR) : Except PyErr XR :=
  if x.length = y.length then .ok (List.zipWith (· * ·) x y).sum else .error .valueError

/-- `np.array(range(a, b))` as floats -/
def npRange (a b : ℤ) : List XR := (List.range (b - a).toNat).map fun k : ℕ => .fin ((a + (k : ℤ) : ℤ) : ℝ)

/-- `estimate`, lines 20-90 -/
def dipEstimate (chol : CholRoutine) (rng : DipRng) (junk : ℕ → ℕ → ℝ) (x : DipIn) (thr : XR)
    (seed nRet nSim : ℕ) : Except PyErr XR := do
  let n := x.p.length                                                   -- 40
  let d := rng seed n nRet nSim                                         -- 39, 49, 61
  let thresholds ← x.p.mapM dipThreshold                                -- 43-47
  let L ← chol n x.corr                                                 -- 48
  let dist := jointDefaults d L thresholds nRet                         -- 49-56
  let lgd := lgdRows d n junk                                           -- 58-62
  let raw ← fillLosses n nSim dist lgd                                  -- 67-76
  let prob := raw.map (· / .fin (nSim : ℝ))                             -- 79
  let pct ← pyInt (thr * 100)                                           -- 80
  let tail := pySliceFrom prob (pct * n)
  let great := tail.sum                                                 -- 83
  let dot ← npDot (npRange (pct * n) (100 * n)) tail                    -- 85-88
  let expLosses := dot / (100 * great)
  return expLosses * great                                              -- 90

end
end Frds.Model

import Verif.Basic.Np
import Mathlib.LinearAlgebra.Matrix.Charpoly.Basic
import Mathlib.LinearAlgebra.Matrix.Symmetric
import Mathlib.Algebra.Polynomial.Roots

/-! Model of `src/frds/measures/_absorption_ratio.py`.

`np.cov` and `np.linalg.eigvals` are library calls: the first is written out, the second is a
parameter `eig` constrained by `EigContract` (roots of the characteristic polynomial with
multiplicity, in any order). Real arithmetic: the eigenvalues of a symmetric matrix are real. -/
namespace Frds.Model
noncomputable section
open Frds Classical

/-- the attribute `asset_returns` (line 15): an `(n, T)` array. Arrays that are not
two-dimensional (unpacking error on line 27) are not modelled. -/
structure Returns where
  n : ℕ
  T : ℕ
  at_ : Fin n → Fin T → XR

/-- the value of `asset_covariance`: an `n × n` array. For `n = 1` NumPy squeezes it to a 0-d array. -/
structure Cov where
  n : ℕ
  at_ : Fin n → Fin n → XR

/-- mean of row `i` as computed in `np.cov` (NaN when there is no column) -/
def rowMean (x : Returns) (i : Fin x.n) : XR := Np.mean (List.ofFn (x.at_ i))

/-- `np.cov(x)` (line 41): `X Xᵀ / (T - 1)` for the demeaned `X`; NumPy multiplies by `1/fact` with
`fact = max(T - 1, 0)` -/
def npCovMat (x : Returns) : Cov where
  n := x.n
  at_ i j := (List.ofFn fun t => (x.at_ i t - rowMean x i) * (x.at_ j t - rowMean x j)).sum
    * (1 / .fin ((x.T - 1 : ℕ) : ℝ))

/-- all entries finite: the real matrix -/
def Cov.toReal? (c : Cov) : Option (Matrix (Fin c.n) (Fin c.n) ℝ) :=
  if h : ∃ M : Matrix (Fin c.n) (Fin c.n) ℝ, ∀ i j, c.at_ i j = .fin (M i j) then some h.choose else none

/-- the eigenvalue routine behind `np.linalg.eigvals` on a finite square array -/
abbrev EigRoutine := (n : ℕ) → Matrix (Fin n) (Fin n) ℝ → List ℝ

/-- what the proofs use about LAPACK's routine: for a symmetric matrix it returns the roots of the
characteristic polynomial with multiplicity, in some order -/
def EigContract (eig : EigRoutine) : Prop :=
  ∀ (n : ℕ) (M : Matrix (Fin n) (Fin n) ℝ), M.IsSymm → (eig n M : Multiset ℝ) = M.charpoly.roots

/-- `np.linalg.eigvals` (line 51): `LinAlgError` for a 0-d array and for NaN or infinite entries -/
def npEigvals (eig : EigRoutine) (c : Cov) : Except PyErr (List ℝ) :=
  if c.n = 1 then .error .linAlgError
  else match c.toReal? with
    | some M => .ok (eig c.n M)
    | none => .error .linAlgError

/-- `np.trace` -/
def npTrace (c : Cov) : XR := (List.ofFn fun i => c.at_ i i).sum

/-- `Decimal(x).to_integral_value(rounding=ROUND_HALF_UP)`: halves go away from zero -/
def roundHalfUp (x : ℝ) : ℤ := if 0 ≤ x then ⌊x + 1 / 2⌋ else -⌊-x + 1 / 2⌋

/-- `int(Decimal(x).to_integral_value(...))`, line 30 -/
def decimalInt : XR → Except PyErr ℤ
  | .nan => .error .valueError
  | .pinf => .error .overflowError
  | .ninf => .error .overflowError
  | .fin x => .ok (roundHalfUp x)

/-- Python's `l[s:]` -/
def pySliceFrom {α} (l : List α) (s : ℤ) : List α :=
  l.drop (if s < 0 then max (s + l.length) 0 else s).toNat

/-- an `AbsorptionRatio` object: its attribute and the two `cached_property` slots -/
structure ArObj where
  returns : Returns
  cov : Option Cov := none
  eig : Option (List ℝ) := none

/-- `__init__`, lines 9-15 -/
def ArObj.new (r : Returns) : ArObj := { returns := r }

/-- reading `asset_covariance`, lines 33-41 -/
def ArObj.readCov (o : ArObj) : ArObj × Cov :=
  match o.cov with
  | some c => (o, c)
  | none => ({ o with cov := some (npCovMat o.returns) }, npCovMat o.returns)

/-- reading `eigvals`, lines 43-51. A failing call caches nothing, but the covariance stays cached -/
def ArObj.readEig (eig : EigRoutine) (o : ArObj) : ArObj × Except PyErr (List ℝ) :=
  match o.eig with
  | some e => (o, .ok e)
  | none =>
    let (o', c) := o.readCov
    match npEigvals eig c with
    | .ok e => ({ o' with eig := some e }, .ok e)
    | .error x => (o', .error x)

/-- `estimate(fraction_eigenvectors)`, lines 17-31 -/
def ArObj.estimate (eig : EigRoutine) (o : ArObj) (f : XR) : ArObj × Except PyErr XR :=
  let nAssets := o.returns.n                                            -- 27
  match o.readEig eig with
  | (o1, .error x) => (o1, .error x)
  | (o1, .ok e) =>
    let eigSorted := e.mergeSort (fun a b => decide (a ≤ b))            -- 28
    match decimalInt (f * .fin (nAssets : ℝ)) with                      -- 30
    | .error x => (o1, .error x)
    | .ok num =>
      let s := (pySliceFrom eigSorted ((eigSorted.length : ℤ) - num)).sum
      let (o2, c) := o1.readCov
      (o2, .ok (.fin s / npTrace c))                                    -- 31

/-- what a client can do with the object -/
inductive ArOp where
  | estimate (f : XR)
  | readCov
  | readEig
  | setReturns (r : Returns)

/-- what the client sees -/
inductive ArOut where
  | value (v : Except PyErr XR)
  | cov (c : Cov)
  | eig (e : Except PyErr (List ℝ))
  | unit

/-- one client action -/
def ArObj.step (eig : EigRoutine) (o : ArObj) : ArOp → ArObj × ArOut
  | .estimate f => ((o.estimate eig f).1, .value (o.estimate eig f).2)
  | .readCov => (o.readCov.1, .cov o.readCov.2)
  | .readEig => ((o.readEig eig).1, .eig (o.readEig eig).2)
  | .setReturns r => ({ o with returns := r }, .unit)

/-- a client session -/
def ArObj.run (eig : EigRoutine) (o : ArObj) : List ArOp → List ArOut
  | [] => []
  | op :: ops => (o.step eig op).2 :: ArObj.run eig (o.step eig op).1 ops

end
end Frds.Model

import Verif.Model.Absorption

/-! Specification vocabulary for the absorption ratio: textbook sample covariance, "sum of the `k`
largest", and the history-independent answers. -/
namespace Frds.Spec
noncomputable section
open Frds Model Classical

variable {n T : ℕ}

/-- average of asset `i` over the days -/
def assetMean (x : Fin n → Fin T → ℝ) (i : Fin n) : ℝ := (∑ t, x i t) / T

/-- unbiased sample covariance matrix -/
def covMatrix (x : Fin n → Fin T → ℝ) : Matrix (Fin n) (Fin n) ℝ :=
  Matrix.of fun i j => (∑ t, (x i t - assetMean x i) * (x j t - assetMean x j)) / ((T : ℝ) - 1)

/-- total variance: the sum over assets of the sample variances -/
def totalVar (x : Fin n → Fin T → ℝ) : ℝ := ∑ i, (∑ t, (x i t - assetMean x i) ^ 2) / ((T : ℝ) - 1)

/-- the eigenvalues of the sample covariance matrix, with multiplicity -/
def covEigs (x : Fin n → Fin T → ℝ) : Multiset ℝ := (covMatrix x).charpoly.roots

/-- `v` is the sum of the `k` largest members of `s` (counted with multiplicity) -/
def IsTopSum (s : Multiset ℝ) (k : ℕ) (v : ℝ) : Prop :=
  ∃ top rest : Multiset ℝ, top + rest = s ∧ Multiset.card top = k ∧
    (∀ a ∈ top, ∀ b ∈ rest, b ≤ a) ∧ top.sum = v

/-- a finite real array as the `asset_returns` argument -/
def retOf (x : Fin n → Fin T → ℝ) : Returns where
  n := n
  T := T
  at_ i t := .fin (x i t)

/-- what a freshly made object answers -/
def arFresh (eig : EigRoutine) (r : Returns) (f : XR) : Except PyErr XR :=
  ((ArObj.new r).estimate eig f).2

/-- the absorption ratio of the returns `base`, except that the number of eigenvalues summed is
computed from the asset count of `cur` -/
def arMixed (eig : EigRoutine) (base : Returns) (nCur : ℕ) (f : XR) : Except PyErr XR := do
  let e ← npEigvals eig (npCovMat base)
  let k ← decimalInt (f * .fin (nCur : ℝ))
  let sorted := e.mergeSort (fun a b => decide (a ≤ b))
  return .fin (pySliceFrom sorted ((sorted.length : ℤ) - k)).sum / npTrace (npCovMat base)

/-- answers of a session in which the covariance in use is frozen at the returns present when the
object was first read, `base`, while the asset count is that of the current returns -/
def arAnswers (eig : EigRoutine) : (base : Option Returns) → (cur : Returns) → List ArOp → List ArOut
  | _, _, [] => []
  | base, _, .setReturns r :: ops => .unit :: arAnswers eig base r ops
  | base, cur, .estimate f :: ops =>
      .value (arMixed eig (base.getD cur) cur.n f) :: arAnswers eig (some (base.getD cur)) cur ops
  | base, cur, .readCov :: ops =>
      .cov (npCovMat (base.getD cur)) :: arAnswers eig (some (base.getD cur)) cur ops
  | base, cur, .readEig :: ops =>
      .eig (npEigvals eig (npCovMat (base.getD cur))) :: arAnswers eig (some (base.getD cur)) cur ops

end
end Frds.Spec

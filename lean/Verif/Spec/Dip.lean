import Verif.Model.Dip

/-! Specification vocabulary for the distress insurance premium. -/
namespace Frds.Spec
noncomputable section
open Frds Model Classical

/-- one simulation outcome: default probabilities, factor loadings, draws and sizes -/
structure DipSim where
  p : List ℝ
  L : ℕ → ℕ → ℝ
  d : DipDraws
  nRet : ℕ
  nSim : ℕ

namespace DipSim
variable (S : DipSim)

/-- number of banks -/
def n : ℕ := S.p.length

/-- bank `b` defaults in scenario `s`: its correlated normal number lies in the lower tail of
probability `p b` -/
def Defaults (s b : ℕ) : Prop := Φ (∑ k ∈ Finset.range S.n, S.d.normal s k * S.L b k) < S.p.getD b 0

/-- number of banks in default in scenario `s` -/
def defaults (s : ℕ) : ℕ := ((Finset.range S.n).filter fun b => S.Defaults s b).card

/-- relative frequency of exactly `q` joint defaults -/
def freq (q : ℕ) : ℝ := ((Finset.range S.nRet).filter fun s => S.defaults s = q).card / S.nRet

/-- simulated loss (in units of one bank's liabilities) when `i` banks default, simulation `j` -/
def loss (i j : ℕ) : ℝ := ∑ r ∈ Finset.range i, S.d.tri (i - 1) r j

/-- probability of the grid slot `k` (a loss in `((k-1)/100, k/100]`) -/
def slotProb (k : ℤ) : ℝ :=
  1 / S.nSim * ∑ i ∈ Finset.Icc 1 S.n,
    S.freq i * ((Finset.range S.nSim).filter fun j => ⌈100 * S.loss i j⌉ = k).card

/-- probability of the slots from `a` on -/
def tailProb (a : ℕ) : ℝ := ∑ k ∈ Finset.Ico a (100 * S.n), S.slotProb k

/-- expected loss carried by the slots from `a` on -/
def tailLoss (a : ℕ) : ℝ := ∑ k ∈ Finset.Ico a (100 * S.n), (k : ℝ) / 100 * S.slotProb k

/-- every simulated loss fits the grid: the largest ones stay below its top slot -/
def Fits : Prop := ∀ j < S.nSim, 100 * S.loss S.n j ≤ 100 * S.n - 1

/-- admissible inputs and draws -/
structure Valid : Prop where
  prob : ∀ q ∈ S.p, 0 < q ∧ q < 1
  draws : S.d.Ok
  ret : 0 < S.nRet
  sim : 0 < S.nSim

/-- the call returns `v` on this outcome: `estimate` run with these inputs and any generator and
Cholesky routine that deliver these draws and this factor -/
def Run (chol : CholRoutine) (rng : DipRng) (corr : ℕ → ℕ → XR) (seed : ℕ) : Prop :=
  chol S.n corr = .ok S.L ∧ rng seed S.n S.nRet S.nSim = S.d

/-- the arguments -/
def input (corr : ℕ → ℕ → XR) : DipIn := ⟨S.p.map .fin, corr⟩

end DipSim
end
end Frds.Spec

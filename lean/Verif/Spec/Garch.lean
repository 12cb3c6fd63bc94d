import Mathlib.Probability.Distributions.Gaussian.Real
import Verif.Spec.Lrmes

/-! Specification of the univariate GARCH / GJR-GARCH estimators over real numbers. -/
namespace Frds.Spec
noncomputable section
open Classical

/-- density of the normal distribution with mean zero and variance `v` at `x` -/
def normalPdf (v x : ℝ) : ℝ := ProbabilityTheory.gaussianPDFReal 0 (Real.toNNReal v) x

/-- `out` is a recursion: the first value is `first`, value `t+1` is `step r_t out_t b_(t+1)`. -/
def IsRecursion {α β γ : Type} (step : α → γ → β → γ) (first : γ) (resids : List α) (bounds : List β)
    (out : List γ) : Prop :=
  out.length = resids.length ∧ out[0]? = some first ∧
  ∀ t r s b, t + 1 < resids.length → resids[t]? = some r → out[t]? = some s →
    bounds[t + 1]? = some b → out[t + 1]? = some (step r s b)

/-- Value at time `t` of the linear recursion `s_(t+1) = news_t + beta s_t` -/
def linearPath (beta s0 : ℝ) (news : ℕ → ℝ) (t : ℕ) : ℝ :=
  beta ^ t * s0 + ∑ i ∈ Finset.range t, beta ^ (t - 1 - i) * news i

/-- pull `x` into `[lo, ∞)`, then replace an excess over `hi` by its logarithm -/
def clampLog (lo hi x : ℝ) : ℝ :=
  if x < lo then lo else if x ≤ hi then x else hi + Real.log (x / hi)

/-- one GJR step: news at residual `r` -/
def gjrNews (omega alpha gamma r : ℝ) : ℝ := omega + alpha * r ^ 2 + if r < 0 then gamma * r ^ 2 else 0

/-- exponentially weighted average (decay 0.94) of the squares of the first 75 values -/
def ewAvg (l : List ℝ) : ℝ :=
  (∑ i ∈ Finset.range (min 75 l.length), (94 / 100 : ℝ) ^ i * (l.getD i 0) ^ 2) /
    ∑ i ∈ Finset.range (min 75 l.length), (94 / 100 : ℝ) ^ i

/-- residuals from which an estimation starts: the returns, demeaned unless the model has zero mean -/
def prep (zeroMean : Bool) (l : List ℝ) : List ℝ :=
  if zeroMean then l else l.map fun x => x - mean l id

end
end Frds.Spec

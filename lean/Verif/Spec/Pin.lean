import Mathlib.Analysis.SpecialFunctions.Pow.Real
import Mathlib.Analysis.SpecialFunctions.Log.Basic

/-! The Easley et al. (2002) sequential-trade model. -/
namespace Frds.Spec
noncomputable section

/-- Poisson probability of `n` arrivals at rate `r` -/
def poisson (r : ℝ) (n : ℕ) : ℝ := Real.exp (-r) * r ^ n / (n.factorial : ℝ)

/-- structural parameters: probability of an information event, probability that it is bad news,
arrival rates of uninformed buyers and sellers and of informed traders -/
structure Eho where
  alpha : ℝ
  delta : ℝ
  eB : ℝ
  eS : ℝ
  mu : ℝ

/-- optimiser bounds, with positive uninformed rates -/
def Eho.Admissible (p : Eho) : Prop :=
  0 ≤ p.alpha ∧ p.alpha ≤ 1 ∧ 0 ≤ p.delta ∧ p.delta ≤ 1 ∧ 0 < p.eB ∧ 0 < p.eS ∧ 0 ≤ p.mu

/-- probability of observing `b` buys and `s` sells on a day: good news (informed traders buy), bad
news (informed traders sell), no news -/
def Eho.dayProb (p : Eho) (b s : ℕ) : ℝ :=
  p.alpha * (1 - p.delta) * (poisson (p.mu + p.eB) b * poisson p.eS s)
  + p.alpha * p.delta * (poisson p.eB b * poisson (p.mu + p.eS) s)
  + (1 - p.alpha) * (poisson p.eB b * poisson p.eS s)

end
end Frds.Spec

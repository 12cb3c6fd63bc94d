import Verif.Basic.Gauss

/-! Independent specification: risk-neutral valuation. -/
namespace Frds.Spec
noncomputable section
open Frds MeasureTheory

/-- Price at maturity of an asset with spot `S`, rate `r`, yield `q`,
volatility `σ`, driven by the standard normal draw `z`. -/
def terminalPrice (S r T σ q z : ℝ) : ℝ :=
  S * Real.exp ((r - q - σ ^ 2 / 2) * T + σ * Real.sqrt T * z)

/-- Discounted expected payoff of a European call. -/
def callValue (S K r T σ q : ℝ) : ℝ :=
  Real.exp (-r * T) * ∫ z, max (terminalPrice S r T σ q z - K) 0 ∂stdNormal

/-- Discounted expected payoff of a European put. -/
def putValue (S K r T σ q : ℝ) : ℝ :=
  Real.exp (-r * T) * ∫ z, max (K - terminalPrice S r T σ q z) 0 ∂stdNormal

end
end Frds.Spec

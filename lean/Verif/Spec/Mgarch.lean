import Verif.Spec.Garch

/-! Specification of the bivariate CCC / DCC models over real numbers. -/
namespace Frds.Spec
noncomputable section
open Classical

/-- density at `(x, y)` of the centred bivariate normal distribution with covariance matrix
`[[v1, c], [c, v2]]` -/
def bivPdf (v1 v2 c x y : ℝ) : ℝ :=
  Real.exp (-(v2 * x ^ 2 - 2 * c * x * y + v1 * y ^ 2) / (2 * (v1 * v2 - c ^ 2)))
    / (2 * Real.pi * Real.sqrt (v1 * v2 - c ^ 2))

/-- residuals and variances of two assets on one day -/
structure BivDay where
  r1 : ℝ
  s1 : ℝ
  r2 : ℝ
  s2 : ℝ

/-- positive variances -/
def BivDay.Ok (d : BivDay) : Prop := 0 < d.s1 ∧ 0 < d.s2

/-- standardised residuals -/
def BivDay.z1 (d : BivDay) : ℝ := d.r1 / Real.sqrt d.s1
def BivDay.z2 (d : BivDay) : ℝ := d.r2 / Real.sqrt d.s2

/-- density of one day when the correlation is `rho` -/
def BivDay.pdf (d : BivDay) (rho : ℝ) : ℝ :=
  bivPdf d.s1 d.s2 (rho * Real.sqrt (d.s1 * d.s2)) d.r1 d.r2

/-- the DCC matrices: `Q_0 = Q̄`, `Q_(t+1) = (1-a-b) Q̄ + a z_t z_tᵀ + b Q_t` -/
def dccQ (a b : ℝ) (qbar : Sym2) (z : ℕ → ℝ × ℝ) : ℕ → Sym2
  | 0 => qbar
  | t + 1 => dccNext a b qbar (dccQ a b qbar z t) (z t).1 (z t).2

/-- correlation matrix of two series -/
def corrMat {α : Type} (l : List α) (f g : α → ℝ) : Sym2 := ⟨1, 1, sampleCorr l f g⟩

/-- matrix of (uncentred) second moments of two series -/
def momentMat {α : Type} (l : List α) (f g : α → ℝ) : Sym2 :=
  ⟨mean l fun d => f d ^ 2, mean l fun d => g d ^ 2, mean l fun d => f d * g d⟩

/-- clip to `[-0.99, 0.99]` -/
def clip99 (x : ℝ) : ℝ := max (-(99 / 100)) (min x (99 / 100))

end
end Frds.Spec

import Mathlib.Analysis.SpecialFunctions.Log.Basic
import Mathlib.Analysis.SpecialFunctions.Sqrt
import Verif.Spec.Spread

/-! Textbook GJR-GARCH-DCC simulation over real numbers. -/
namespace Frds.Spec
noncomputable section
open Classical

/-- GJR-GARCH(1,1) parameters -/
structure Gjr where
  mu : ℝ
  omega : ℝ
  alpha : ℝ
  gamma : ℝ
  beta : ℝ

/-- variance forecast: the leverage term applies after a negative residual -/
def Gjr.next (p : Gjr) (resid var : ℝ) : ℝ :=
  p.omega + (p.alpha + if resid < 0 then p.gamma else 0) * resid ^ 2 + p.beta * var

/-- positive intercept, non-negative coefficients (the leverage coefficient may be negative
as long as `alpha + gamma ≥ 0`) -/
def Gjr.Admissible (p : Gjr) : Prop :=
  0 < p.omega ∧ 0 ≤ p.alpha ∧ 0 ≤ p.alpha + p.gamma ∧ 0 ≤ p.beta

/-- a symmetric 2x2 matrix `[[x, z],[z, y]]` -/
structure Sym2 where
  x : ℝ
  y : ℝ
  z : ℝ

/-- positive diagonal, non-negative determinant -/
def Sym2.Psd (q : Sym2) : Prop := 0 < q.x ∧ 0 < q.y ∧ q.z ^ 2 ≤ q.x * q.y

/-- `[[a²,ab],[ab,b²]]` -/
def Sym2.outer (a b : ℝ) : Sym2 := ⟨a ^ 2, b ^ 2, a * b⟩

/-- the implied correlation -/
def Sym2.corr (q : Sym2) : ℝ := q.z / Real.sqrt (q.x * q.y)

/-- DCC recursion `Q' = (1-a-b) Q̄ + a z zᵀ + b Q` -/
def dccNext (a b : ℝ) (qbar q : Sym2) (zi zm : ℝ) : Sym2 :=
  ⟨(1 - a - b) * qbar.x + a * (Sym2.outer zi zm).x + b * q.x,
   (1 - a - b) * qbar.y + a * (Sym2.outer zi zm).y + b * q.y,
   (1 - a - b) * qbar.z + a * (Sym2.outer zi zm).z + b * q.z⟩

/-- model of one firm and the market -/
structure DccModel where
  firm : Gjr
  mkt : Gjr
  a : ℝ
  b : ℝ
  qbar : Sym2

/-- what is known at the end of a day -/
structure DccState where
  residI : ℝ
  residM : ℝ
  varI : ℝ
  varM : ℝ
  zI : ℝ
  zM : ℝ
  q : Sym2

/-- One simulated day with shocks `(ξ, z_m)`: next state and (firm, market) percentage log return. -/
def DccModel.day (m : DccModel) (s : DccState) (ξ zm : ℝ) : DccState × ℝ × ℝ :=
  let vI := m.firm.next s.residI s.varI
  let vM := m.mkt.next s.residM s.varM
  let q := dccNext m.a m.b m.qbar s.q s.zI s.zM
  let zi := q.corr * zm + Real.sqrt (1 - q.corr ^ 2) * ξ
  (⟨Real.sqrt vI * zi, Real.sqrt vM * zm, vI, vM, zi, zm, q⟩,
    m.firm.mu + Real.sqrt vI * zi, m.mkt.mu + Real.sqrt vM * zm)

/-- returns of all days of a path -/
def DccModel.path (m : DccModel) : DccState → List (ℝ × ℝ) → List (ℝ × ℝ)
  | _, [] => []
  | s, (ξ, zm) :: t => (m.day s ξ zm).2 :: m.path (m.day s ξ zm).1 t

/-- total simple return of a list of percentage log returns -/
def totalReturn (l : List ℝ) : ℝ := Real.exp ((l.map (· / 100)).sum) - 1

/-- firm and market return over the horizon -/
def DccModel.firmReturn (m : DccModel) (s : DccState) (p : List (ℝ × ℝ)) : ℝ :=
  totalReturn ((m.path s p).map Prod.fst)
def DccModel.mktReturn (m : DccModel) (s : DccState) (p : List (ℝ × ℝ)) : ℝ :=
  totalReturn ((m.path s p).map Prod.snd)

/-- LRMES: minus the average firm return over the paths on which the market return is below `C`;
zero if there is no such path. -/
def DccModel.lrmes (m : DccModel) (s : DccState) (C : ℝ) (paths : List (List (ℝ × ℝ))) : ℝ :=
  let sys := paths.filter fun p => m.mktReturn s p < C
  if sys = [] then 0 else -mean sys (m.firmReturn s)

/-- admissible DCC weights -/
def DccWeights (a b : ℝ) : Prop := 0 ≤ a ∧ 0 ≤ b ∧ a + b ≤ 1 ∧ a < 1

/-- invariant of the simulation -/
def DccState.Ok (s : DccState) : Prop := 0 < s.varI ∧ 0 < s.varM ∧ s.q.Psd

/-- admissible model -/
def DccModel.Ok (m : DccModel) : Prop :=
  m.firm.Admissible ∧ m.mkt.Admissible ∧ DccWeights m.a m.b ∧ m.qbar.Psd

/-- starting state as the code builds it: unit `q` diagonal, `q_im = rho`, residuals standardised by
their volatility -/
def DccState.Start (s : DccState) : Prop :=
  s.q.x = 1 ∧ s.q.y = 1 ∧ s.zI = s.residI / Real.sqrt s.varI ∧ s.zM = s.residM / Real.sqrt s.varM

/-- one in-sample day of the fitted model -/
structure FitDay where
  varI : ℝ
  residI : ℝ
  varM : ℝ
  residM : ℝ
  rho : ℝ

/-- standardised residuals, firm and market, and the orthogonalised firm shock -/
def FitDay.zi (d : FitDay) : ℝ := d.residI / Real.sqrt d.varI
def FitDay.zm (d : FitDay) : ℝ := d.residM / Real.sqrt d.varM
def FitDay.xi (d : FitDay) : ℝ := (d.zi - d.rho * d.zm) / Real.sqrt (1 - d.rho ^ 2)

def FitDay.Ok (d : FitDay) : Prop := 0 < d.varI ∧ 0 < d.varM ∧ d.rho ^ 2 < 1

/-- sample covariance (n-1 in the denominator) -/
def sampleCov {α} (l : List α) (f g : α → ℝ) : ℝ :=
  (l.map fun d => (f d - mean l f) * (g d - mean l g)).sum / ((l.length : ℝ) - 1)

/-- sample correlation -/
def sampleCorr {α} (l : List α) (f g : α → ℝ) : ℝ :=
  sampleCov l f g / (Real.sqrt (sampleCov l f f) * Real.sqrt (sampleCov l g g))

/-- fitted model as finite data -/
structure Fitted where
  sample : List FitDay
  firm : Gjr
  mkt : Gjr
  a : ℝ
  b : ℝ

/-- usable fit: positive variances, correlations inside (-1,1), admissible parameters and
standardised residuals that are not constant -/
def Fitted.Ok (f : Fitted) : Prop :=
  (∀ d ∈ f.sample, FitDay.Ok d) ∧ f.firm.Admissible ∧ f.mkt.Admissible ∧ DccWeights f.a f.b ∧
  0 < sampleCov f.sample FitDay.zi FitDay.zi ∧ 0 < sampleCov f.sample FitDay.zm FitDay.zm

/-- the DCC model with `Q̄` the correlation matrix of the standardised residuals -/
def Fitted.model (f : Fitted) : DccModel :=
  ⟨f.firm, f.mkt, f.a, f.b, ⟨1, 1, sampleCorr f.sample FitDay.zi FitDay.zm⟩⟩

/-- state at the end of the last in-sample day -/
def FitDay.state (d : FitDay) : DccState :=
  ⟨d.residI, d.residM, d.varI, d.varM, d.zi, d.zm, ⟨1, 1, d.rho⟩⟩

/-- the shocks drawn for one path: days chosen by index from the sample -/
def Fitted.shocks (f : Fitted) (idx : List ℕ) : List (ℝ × ℝ) :=
  idx.filterMap fun i => f.sample[i]?.map fun d => (d.xi, d.zm)

end
end Frds.Spec

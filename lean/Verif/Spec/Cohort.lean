import Verif.Spec.FftSmooth
import Verif.Model.Cohort

/-! Specification of the cohort computations, on real numbers. -/
namespace Frds.Spec
noncomputable section
open Classical Frds.Model

/-- position of observation `q` when `M` observations are ordered by `k`, ties by position -/
def rank (k : ℕ → ℝ) (M q : ℕ) : ℕ :=
  ((Finset.range M).filter fun q' => k q' < k q ∨ (k q' = k q ∧ q' < q)).card

/-- average payoff of the `w` observations whose rank is next to that of `q` -/
def localMean (k payoff : ℕ → ℝ) (M w q : ℕ) : ℝ :=
  (∑ q' ∈ (Finset.range M).filter
    (fun q' => rank k M q < rank k M q' + w / 2 ∧ rank k M q' ≤ rank k M q + w / 2), payoff q') / w

/-- parameters for which the model is meaningful -/
structure ValidParam (p : CohortParam) : Prop where
  bookF : 0 < p.bookF
  ltv : 0 < p.ltv
  sig : 0 < p.sig
  T : 0 < p.T
  rho0 : 0 ≤ p.rho
  rho1 : p.rho < 1

/-- log asset value of a borrower at origination -/
def ival (p : CohortParam) : ℝ := Real.log p.bookF - Real.log p.ltv

/-- factor volatility -/
def sigf (p : CohortParam) : ℝ := Real.sqrt p.rho * p.sig

/-- change of the log factor between steps `a` and `b` in simulation `i` -/
def logFactor (p : CohortParam) (N : ℕ) (w : Shocks) (i a b : ℕ) : ℝ :=
  ∑ c ∈ Finset.Ico a b, ((p.r - p.d - p.sig ^ 2 / 2) * (p.T / N) + sigf p * Real.sqrt (p.T / N) * w.at_ i c)

/-- expected repayment of a loan of face `F` when the borrower's log asset value has conditional mean `x` -/
def expRepay (p : CohortParam) (F x : ℝ) : ℝ :=
  ∫ z, min (Real.exp (x + p.sig * Real.sqrt p.T * Real.sqrt (1 - p.rho) * z)) F ∂stdNormal

/-- the solver returns `mu` when asked for the promised yield, started one percent above the risk-free rate -/
def YieldFound (solve : FSolve) (p : CohortParam) (mu : ℝ) : Prop :=
  solve (fun m => findFaceValueIndiv m (.fin p.bookF * XR.exp (m * .fin p.T)) (.fin (ival p)) (.fin p.sig)
    (.fin p.T) (.fin p.r) (.fin p.d)) (.fin p.r + 0.01) = .fin mu

/-- bump used for the numerical derivative: none, up, down -/
def bump (szfs s : ℕ) : ℝ := if s < szfs then 0 else if s < 2 * szfs then 1 else -1

/-- the state-of-the-economy entry of column `s` -/
def fsAt (fs : List ℝ) (s : ℕ) : ℝ := (fs ++ fs ++ fs).getD s 0

/-- value rounded to nine decimals -/
def round9 (x : ℝ) : ℝ := (rint (x * 10 ^ 9) : ℝ) / 10 ^ 9

/-- The conditional expectation used by the code. The `m n` observations (simulation `i`, column `s` is
observation `i + m s`) are ordered by their key rounded to nine decimals, ties by position; the payoffs in
that order are smoothed with a window of a twentieth of the observations; the value for an observation is
the smoothed payoff at its rank. -/
def condMean (m n : ℕ) (key pay : ℕ → ℕ → ℝ) (i s : ℕ) : ℝ :=
  smoothed
    (fun t => ∑ q ∈ (Finset.range (m * n)).filter (fun q => rank (fun q => round9 (key (q % m) (q / m))) (m * n) q = t),
      pay (q % m) (q / m))
    (m * n) (m * n / 20) (rank (fun q => round9 (key (q % m) (q / m))) (m * n) (i + m * s))

/-- log asset value shift of column `s` (single cohort) -/
def singleShock (fs : List ℝ) (p : CohortParam) (s : ℕ) : ℝ :=
  fsAt fs s * sigf p * Real.sqrt p.T + sigf p / 10 * bump fs.length s

/-- aggregate borrower asset value at `t+H` (single cohort) -/
def singleKey (fs : List ℝ) (p : CohortParam) (N HN : ℕ) (w : Shocks) (i s : ℕ) : ℝ :=
  Real.exp (logFactor p N w i 0 HN + singleShock fs p s + ival p) * Real.exp ((1 - p.rho) * p.H * p.sig ^ 2 / 2)

/-- expected repayment at loan maturity given the factor (single cohort) -/
def singlePay (fs : List ℝ) (p : CohortParam) (N : ℕ) (w : Shocks) (mu : ℝ) (i s : ℕ) : ℝ :=
  expRepay p (p.bookF * Real.exp (mu * p.T)) (logFactor p N w i 0 N + singleShock fs p s + ival p)

/-- value of the loan portfolio at `t+H` (single cohort) -/
def singleLoan (fs : List ℝ) (p : CohortParam) (N HN Nsim2 : ℕ) (w : Shocks) (mu : ℝ) (i s : ℕ) : ℝ :=
  condMean Nsim2 (3 * fs.length) (singleKey fs p N HN w) (singlePay fs p N w mu) i s * Real.exp (-p.r * (p.T - p.H))

/-- inputs the single-cohort computation accepts -/
structure SingleInput (fs : List ℝ) (p : CohortParam) (N HN Nsim2 : ℕ) (w : Shocks) : Prop where
  valid : ValidParam p
  steps : 0 < N
  horizon : p.H * ((N : ℝ) / p.T) = HN
  horizon_le : HN ≤ w.cols
  rows : w.rows = Nsim2
  cols : N ≤ w.cols
  sims : 0 < Nsim2
  states : fs ≠ []
  even : Nsim2 * (3 * fs.length) % 2 = 0
  window : Nsim2 * (3 * fs.length) / 20 % 2 = 0

/-- deterministic part of the log asset value of cohort `j` from origination to `t` -/
def cohortDrift (p : CohortParam) (N j : ℕ) : ℝ :=
  (p.r - p.d - (1 - p.rho) * p.sig ^ 2 / 2) * p.T * (((N : ℝ) - j) / N)

/-- effect of the state `fs` (and of the bump) on cohort `j` -/
def cohortShock (fs : List ℝ) (p : CohortParam) (N j s : ℕ) : ℝ :=
  fsAt fs s * sigf p * Real.sqrt p.T * (((N : ℝ) - j) / N) + sigf p / 10 * bump fs.length s

/-- correction from the mean log to the log mean asset value after a fraction `x` of the loan's life -/
def jensen (p : CohortParam) (x : ℝ) : ℝ := Real.exp ((1 - p.rho) * (p.T * x) * p.sig ^ 2 / 2)

/-- expected repayment of the first loan of cohort `j` -/
def firstPay (fs : List ℝ) (p : CohortParam) (N : ℕ) (w : Shocks) (mu : ℝ) (i j s : ℕ) : ℝ :=
  expRepay p (p.bookF * Real.exp (mu * p.T))
    (cohortDrift p N j + logFactor p N w i N (N + j) + cohortShock fs p N j s + ival p)

/-- scale of the loan outstanding at `t+H`: the rolled-over loan lends the repayment of the first one -/
def loanScale (fs : List ℝ) (p : CohortParam) (N HN : ℕ) (w : Shocks) (mu : ℝ) (i j s : ℕ) : ℝ :=
  if j < HN then firstPay fs p N w mu i j s / p.bookF else 1

/-- borrower asset value at `t+H` per unit of scale -/
def cohortKey (fs : List ℝ) (p : CohortParam) (N HN : ℕ) (w : Shocks) (i j s : ℕ) : ℝ :=
  if j < HN then Real.exp (logFactor p N w i (N + j) (N + HN) + ival p) * jensen p (((HN : ℝ) - j) / N)
  else Real.exp (cohortDrift p N j + logFactor p N w i N (N + HN) + cohortShock fs p N j s + ival p)
    * jensen p (if j = HN then 0 else ((N : ℝ) + HN - j) / N)

/-- expected repayment, per unit of scale, of the loan outstanding at `t+H` -/
def cohortPay (fs : List ℝ) (p : CohortParam) (N HN : ℕ) (w : Shocks) (mu : ℝ) (i j s : ℕ) : ℝ :=
  if j < HN then expRepay p (p.bookF * Real.exp (mu * p.T)) (logFactor p N w i (N + j) (2 * N + j) + ival p)
  else firstPay fs p N w mu i j s

/-- steps from `t+H` to the maturity of the loan of cohort `j` -/
def stepsLeft (N HN j : ℕ) : ℝ := if j < HN then (j : ℝ) - HN + N else (j : ℝ) - HN

/-- value of the loan portfolio at `t+H` (several cohorts) -/
def multiLoan (fs : List ℝ) (p : CohortParam) (N HN Nsim2 : ℕ) (w : Shocks) (mu : ℝ) (i s : ℕ) : ℝ :=
  (∑ j ∈ Finset.range N, condMean Nsim2 (3 * fs.length) (fun i s => cohortKey fs p N HN w i j s)
    (fun i s => cohortPay fs p N HN w mu i j s) i s * loanScale fs p N HN w mu i j s
    * Real.exp (-p.r * stepsLeft N HN j * (p.T / N))) / N

/-- inputs the multi-cohort computation accepts -/
structure MultiInput (fs : List ℝ) (p : CohortParam) (N HN Nsim2 : ℕ) (w : Shocks) : Prop where
  valid : ValidParam p
  horizon : p.H * ((N : ℝ) / p.T) = HN
  horizon_lt : HN < N
  rows : w.rows = Nsim2
  cols : 3 * N ≤ w.cols + 1
  sims : 0 < Nsim2
  states : fs ≠ []
  even : Nsim2 * (3 * fs.length) % 2 = 0
  window : Nsim2 * (3 * fs.length) / 20 % 2 = 0

/-- the debt and equity of the bank, state by state and on average, as functions of the value `L` of its
loans at the debt maturity -/
structure BalanceSheet (p : CohortParam) (n szfs : ℕ) (L : ℕ → ℕ → ℝ) (out : CohortOut) : Prop where
  LH : ∀ i < n, ∀ s < szfs, out.LH i s = .fin (L i s)
  BH : ∀ i < n, ∀ s < szfs, out.BH i s = .fin (min p.D (L i s * Real.exp (-p.y * p.H)))
  EH : ∀ i < n, ∀ s < szfs, out.EH i s = .fin (L i s - min p.D (L i s * Real.exp (-p.y * p.H)))
  dflt : ∀ i < n, ∀ s < szfs, out.dflt i s = .fin (if L i s * Real.exp (-p.y * p.H) ≤ p.D then 1 else 0)
  Lt : ∀ s < szfs, out.Lt s = .fin (Real.exp (-p.r * p.H) * ((∑ i ∈ Finset.range n, L i s) / n))
  Bt : ∀ s < szfs, out.Bt s = .fin (Real.exp (-p.r * p.H)
    * ((∑ i ∈ Finset.range n, min p.D (L i s * Real.exp (-p.y * p.H))) / n))
  Et : ∀ s < szfs, out.Et s = .fin (Real.exp (-p.r * p.H)
    * ((∑ i ∈ Finset.range n, (L i s - min p.D (L i s * Real.exp (-p.y * p.H)))) / n))
  Gt : ∀ s < szfs, out.Gt s = .fin (Real.exp (-p.r * p.H)
    * ((∑ i ∈ Finset.range n, p.g.getD 0 * max (p.D - L i s * Real.exp (-p.y * p.H)) 0) / n))
  mdef : ∀ s < szfs, out.mdef s = .fin
    ((((Finset.range n).filter fun i => L i s * Real.exp (-p.y * p.H) ≤ p.D).card : ℝ) / n)
  sigLt : ∀ s < szfs, 0 < ∑ i ∈ Finset.range n, L i (szfs + s) → 0 < ∑ i ∈ Finset.range n, L i (2 * szfs + s) →
    out.sigLt s = .fin (5 * Real.log ((∑ i ∈ Finset.range n, L i (szfs + s))
      / (∑ i ∈ Finset.range n, L i (2 * szfs + s))))
  sigEt : ∀ s < szfs,
    0 < ∑ i ∈ Finset.range n, (L i (szfs + s) - min p.D (L i (szfs + s) * Real.exp (-p.y * p.H))) →
    0 < ∑ i ∈ Finset.range n, (L i (2 * szfs + s) - min p.D (L i (2 * szfs + s) * Real.exp (-p.y * p.H))) →
    out.sigEt s = .fin (5 * Real.log
      ((∑ i ∈ Finset.range n, (L i (szfs + s) - min p.D (L i (szfs + s) * Real.exp (-p.y * p.H))))
      / (∑ i ∈ Finset.range n, (L i (2 * szfs + s) - min p.D (L i (2 * szfs + s) * Real.exp (-p.y * p.H))))))

end
end Frds.Spec

import Verif.Model.Lrmes
import Verif.Model.Mgarch

/-! What an LRMES calculation uses of an estimated DCC object with two GJR-GARCH models. -/
namespace Frds.Spec
noncomputable section
open Frds Frds.Model

/-- the parameters of a univariate model: the estimates, or NaN before a successful estimation -/
def ParamsOf (m : GarchObj GjrVar) (g : GjrParams) : Prop :=
  (∀ mu v l, m.params = some (mu, v, l) →
      g.mu = mu ∧ g.omega = v.omega ∧ g.alpha = v.alpha ∧ g.gamma = v.gamma ∧ g.beta = v.beta)
    ∧ (m.params = none → g.mu = .nan ∧ g.omega = .nan ∧ g.alpha = .nan ∧ g.gamma = .nan ∧ g.beta = .nan)

/-- `f` consists of the firm's (first) and the market's (second) conditional variances, residuals and parameters, of the
parameters of the correlation model, and of the correlations `rho` -/
structure Reads (o : DccObj GjrVar) (rho : List XR) (f : DccFit) : Prop where
  success : f.success = o.success
  firmVar : f.firmVar = o.model1.sigma2
  firmResid : f.firmResid = o.model1.resids
  firmParams : ParamsOf o.model1 f.pi
  mktVar : f.mktVar = o.model2.sigma2
  mktResid : f.mktResid = o.model2.resids
  mktParams : ParamsOf o.model2 f.pm
  a : f.a = o.params.a
  b : f.b = o.params.b
  rho : f.rho = rho

end
end Frds.Spec

import Verif.Model.Rounded
import Verif.Model.Mgarch

/-! The conditional correlations of the DCC models and their likelihood in rounded arithmetic. -/
namespace Frds.Model.Rounded
noncomputable section
open Frds Frds.Model Classical

variable (M : Machine)

local infixl:65 " +ᵣ " => Rounding.add (Machine.R M)
local infixl:65 " -ᵣ " => Rounding.sub (Machine.R M)
local infixl:70 " *ᵣ " => Rounding.mul (Machine.R M)
local infixl:70 " /ᵣ " => Rounding.div (Machine.R M)

/-- `_mgarch.py` lines 335-336 / `mgarch.hpp` lines 21-26: standardised residuals -/
def stdResid (resids sigma2 : List XR) : List XR := List.zipWith (fun r s => r /ᵣ M.R.sqrt s) resids sigma2

/-- `np.corrcoef` after the covariance matrix has been computed: rows, then columns, are divided by the standard
deviations and the result is clipped to [-1, 1]. `cov` is the computed covariance matrix: `np.cov` uses a matrix product
whose order of summation depends on the library, so it is a parameter. -/
def corrcoef (cov : QMat) : QMat :=
  ⟨Np.clip (cov.q11 /ᵣ M.R.sqrt cov.q11 /ᵣ M.R.sqrt cov.q11) (.fin (-1)) (.fin 1),
   Np.clip (cov.q22 /ᵣ M.R.sqrt cov.q22 /ᵣ M.R.sqrt cov.q22) (.fin (-1)) (.fin 1),
   Np.clip (cov.q12 /ᵣ M.R.sqrt cov.q11 /ᵣ M.R.sqrt cov.q22) (.fin (-1)) (.fin 1)⟩

/-- `mgarch.hpp` lines 29-39: mean of squares and cross products, summed from left to right -/
def rawMoments (z : List (XR × XR)) : QMat :=
  ⟨M.R.foldSum (z.map fun p => p.1 *ᵣ p.1) /ᵣ M.R.round (.fin z.length),
   M.R.foldSum (z.map fun p => p.2 *ᵣ p.2) /ᵣ M.R.round (.fin z.length),
   M.R.foldSum (z.map fun p => p.1 *ᵣ p.2) /ᵣ M.R.round (.fin z.length)⟩

/-- `_mgarch.py` lines 386-387 / `mgarch.hpp` lines 29-39 -/
def dccQbar (cpp : Bool) (cov : QMat) (z : List (XR × XR)) : QMat := if cpp then rawMoments M z else corrcoef M cov

/-- `_mgarch.py` lines 397 and 404 / `mgarch.hpp` lines 48 and 58 -/
def dccRho (q : QMat) : XR := q.q12 /ᵣ M.R.sqrt (q.q11 *ᵣ q.q22)

/-- `_mgarch.py` lines 401-403 / `mgarch.hpp` lines 52-57 (`** 2` and `std::pow(., 2)` are the rounded product;
`a * z1 * z2` is evaluated from left to right) -/
def dccNext (a b : XR) (qbar q : QMat) (z : XR × XR) : QMat :=
  ⟨(1 -ᵣ a -ᵣ b) *ᵣ qbar.q11 +ᵣ a *ᵣ (z.1 *ᵣ z.1) +ᵣ b *ᵣ q.q11,
   (1 -ᵣ a -ᵣ b) *ᵣ qbar.q22 +ᵣ a *ᵣ (z.2 *ᵣ z.2) +ᵣ b *ᵣ q.q22,
   (1 -ᵣ a -ᵣ b) *ᵣ qbar.q12 +ᵣ a *ᵣ z.1 *ᵣ z.2 +ᵣ b *ᵣ q.q12⟩

/-- loop of `_mgarch.py` lines 400-404 / `mgarch.hpp` lines 51-59 -/
def dccLoop (a b : XR) (qbar : QMat) : QMat → List (XR × XR) → List XR
  | _, [] => []
  | q, z :: t => dccRho M (dccNext M a b qbar q z) :: dccLoop a b qbar (dccNext M a b qbar q z) t

/-- `_mgarch.py` lines 384-406 / `mgarch.hpp` lines 10-61 on pairs of standardised residuals (series of one length,
not empty) -/
def dccKernel (cpp : Bool) (cov : QMat) (a b : XR) (z : List (XR × XR)) : List XR :=
  dccRho M (dccQbar M cpp cov z) :: dccLoop M a b (dccQbar M cpp cov z) (dccQbar M cpp cov z) z.dropLast

/-- `_long_run_mes.py` line 70: the firm's shock orthogonal to the market, `rho` unclipped -/
def orthShock (zi zm rho : XR) : XR := (zi -ᵣ rho *ᵣ zm) /ᵣ M.R.sqrt (1 -ᵣ rho *ᵣ rho)

/-- one term of `_mgarch.py` lines 346-350 -/
def dccTerm (z1 z2 rho : XR) : XR :=
  .fin (-(1 / 2)) *ᵣ (-(z1 *ᵣ z1 +ᵣ z2 *ᵣ z2) +ᵣ M.log (1 -ᵣ rho *ᵣ rho)
    +ᵣ (z1 *ᵣ z1 +ᵣ z2 *ᵣ z2 -ᵣ 2 *ᵣ rho *ᵣ z1 *ᵣ z2) /ᵣ (1 -ᵣ rho *ᵣ rho))

/-- `_mgarch.py` lines 338-353: the objective, given the two log-likelihoods and the conditional correlations -/
def dccObjective (i : ℕ) (l1 l2 : XR) (z : List (XR × XR)) (rho : List XR) : XR :=
  -(l1 +ᵣ l2 +ᵣ M.sum i (List.zipWith (fun (p : XR × XR) x =>
    dccTerm M p.1 p.2 (Np.clip x (M.R.round (.fin (-(99 / 100)))) (M.R.round (.fin (99 / 100))))) z rho))

end
end Frds.Model.Rounded

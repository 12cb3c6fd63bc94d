import Verif.Model.RoundedLik
import Verif.Model.RoundedDcc

/-! The likelihood of the CCC model in rounded arithmetic. -/
namespace Frds.Model.Rounded
noncomputable section
open Frds Frds.Model Classical

variable (M : Machine)

local infixl:65 " +ᵣ " => Rounding.add (Machine.R M)
local infixl:65 " -ᵣ " => Rounding.sub (Machine.R M)
local infixl:70 " *ᵣ " => Rounding.mul (Machine.R M)
local infixl:70 " /ᵣ " => Rounding.div (Machine.R M)

/-- `_mgarch.py` lines 181-188, one observation (`** 2` is the rounded product) -/
def cccTerm (r1 s1 r2 s2 rho : XR) : XR :=
  .fin (-(1 / 2)) *ᵣ (2 *ᵣ log2pi M
    +ᵣ M.log (s1 *ᵣ s2 *ᵣ (1 -ᵣ rho *ᵣ rho))
    +ᵣ ((r1 /ᵣ M.R.sqrt s1) *ᵣ (r1 /ᵣ M.R.sqrt s1) +ᵣ (r2 /ᵣ M.R.sqrt s2) *ᵣ (r2 /ᵣ M.R.sqrt s2)
      -ᵣ 2 *ᵣ rho *ᵣ (r1 /ᵣ M.R.sqrt s1) *ᵣ (r2 /ᵣ M.R.sqrt s2)) /ᵣ (1 -ᵣ rho *ᵣ rho))

/-- `_mgarch.py` lines 158-190, `GARCHModel_CCC.loglikelihood` (equal-length arrays) -/
def cccLoglik (i : ℕ) (r1 s1 r2 s2 : List XR) (rho : XR) : XR :=
  M.sum i (List.zipWith (fun (x y : XR × XR) => cccTerm M x.1 x.2 y.1 y.2 rho) (List.zip r1 s1) (List.zip r2 s2))

/-- `_mgarch.py` lines 145-156, `GARCHModel_CCC.loglikelihood_model` given the backcasts and variance bounds of lines 149-152 (which
NumPy computes in an order of its own); series of one length -/
def cccObjective (cpp : Bool) (i : ℕ) (returns1 returns2 : List XR) (p : CccVec) (backcast1 backcast2 : XR)
    (bounds1 bounds2 : List (XR × XR)) : Except PyErr XR := do
  let resids1 := modelResids M false returns1 p.mu1
  let resids2 := modelResids M false returns2 p.mu2
  let s1 ← garchVariance M cpp p.v1 resids1 backcast1 bounds1
  let s2 ← garchVariance M cpp p.v2 resids2 backcast2 bounds2
  return -cccLoglik M i resids1 s1 resids2 s2 p.rho

end
end Frds.Model.Rounded

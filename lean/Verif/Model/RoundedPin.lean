import Verif.Model.Rounded

/-! The two likelihoods of the PIN model in rounded arithmetic. -/
namespace Frds.Model.Rounded
noncomputable section
open Frds Frds.Model Classical

variable (M : Machine)

local infixl:65 " +ᵣ " => Rounding.add (Machine.R M)
local infixl:65 " -ᵣ " => Rounding.sub (Machine.R M)
local infixl:70 " *ᵣ " => Rounding.mul (Machine.R M)
local infixl:70 " /ᵣ " => Rounding.div (Machine.R M)

/-- `_probability_of_informed_trading.py` line 159 -/
def lkE1 (_b s : XR) (p : PinVec) : XR := -p.mu -ᵣ s *ᵣ M.log (1 +ᵣ p.mu /ᵣ p.eS)

/-- line 160 -/
def lkE2 (b _s : XR) (p : PinVec) : XR := -p.mu -ᵣ b *ᵣ M.log (1 +ᵣ p.mu /ᵣ p.eB)

/-- line 161 -/
def lkE3 (b s : XR) (p : PinVec) : XR :=
  (-b) *ᵣ M.log (1 +ᵣ p.mu /ᵣ p.eB) -ᵣ s *ᵣ M.log (1 +ᵣ p.mu /ᵣ p.eS)

/-- line 162 -/
def lkMax (b s : XR) (p : PinVec) : XR := XR.npMax (XR.npMax (lkE1 M b s p) (lkE2 M b s p)) (lkE3 M b s p)

/-- line 164, one day -/
def lkDay1 (p : PinVec) (b s : XR) : XR :=
  -p.eB -ᵣ p.eS +ᵣ b *ᵣ M.log (p.mu +ᵣ p.eB) +ᵣ s *ᵣ M.log (p.mu +ᵣ p.eS) +ᵣ lkMax M b s p

/-- lines 165-167, the argument of the logarithm of one day -/
def lkMix (p : PinVec) (b s : XR) : XR :=
  p.alpha *ᵣ (1 -ᵣ p.delta) *ᵣ M.exp (lkE1 M b s p -ᵣ lkMax M b s p)
    +ᵣ p.alpha *ᵣ p.delta *ᵣ M.exp (lkE2 M b s p -ᵣ lkMax M b s p)
    +ᵣ (1 -ᵣ p.alpha) *ᵣ M.exp (lkE3 M b s p -ᵣ lkMax M b s p)

/-- lines 147-169, `loglikelihood_LK2011` -/
def lk2011 (B S : List XR) (p : PinVec) : XR :=
  -(M.sum 0 (List.zipWith (lkDay1 M p) B S) +ᵣ M.sum 1 (List.zipWith (fun b s => M.log (lkMix M p b s)) B S))

variable (pow : XR → XR → XR)

/-- line 137 -/
def ehoM (b s : XR) : XR := XR.npMin b s +ᵣ XR.npMax b s /ᵣ 2

/-- lines 139-140, one day -/
def ehoDay1 (p : PinVec) (b s : XR) : XR :=
  -p.eB -ᵣ p.eS +ᵣ ehoM M b s *ᵣ (M.log (p.eB /ᵣ (p.mu +ᵣ p.eB)) +ᵣ M.log (p.eS /ᵣ (p.mu +ᵣ p.eS)))
    +ᵣ b *ᵣ M.log (p.mu +ᵣ p.eB) +ᵣ s *ᵣ M.log (p.mu +ᵣ p.eS)

/-- lines 141-143, the argument of the logarithm of one day; `pow` is the power function of the machine -/
def ehoMix (p : PinVec) (b s : XR) : XR :=
  let xs := p.eS /ᵣ (p.mu +ᵣ p.eS)                                                 -- 133
  let xb := p.eB /ᵣ (p.mu +ᵣ p.eB)                                                 -- 134
  let m := ehoM M b s                                                              -- 137
  p.alpha *ᵣ (1 -ᵣ p.delta) *ᵣ M.exp (-p.mu) *ᵣ pow xs (s -ᵣ m) *ᵣ pow xb (-m)
    +ᵣ p.alpha *ᵣ p.delta *ᵣ M.exp (-p.mu) *ᵣ pow xb (b -ᵣ m) *ᵣ pow xs (-m)
    +ᵣ (1 -ᵣ p.alpha) *ᵣ pow xs (s -ᵣ m) *ᵣ pow xb (b -ᵣ m)

/-- lines 123-145, `loglikelihood_EHO2010` -/
def eho2010 (B S : List XR) (p : PinVec) : XR :=
  -(M.sum 0 (List.zipWith (ehoDay1 M p) B S) +ᵣ M.sum 1 (List.zipWith (fun b s => M.log (ehoMix M pow p b s)) B S))

end
end Frds.Model.Rounded

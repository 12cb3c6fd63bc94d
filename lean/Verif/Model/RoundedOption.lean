import Verif.Basic.Machine

/-! `blsprice` in rounded arithmetic. `cdf` is the normal distribution function of SciPy (`norm.cdf`, not modelled inside:
the theorems say which of its properties they need). -/
namespace Frds.Model.Rounded
noncomputable section
open Frds Classical

variable (M : Machine) (cdf : XR → XR)

local infixl:65 " +ᵣ " => Rounding.add (Machine.R M)
local infixl:65 " -ᵣ " => Rounding.sub (Machine.R M)
local infixl:70 " *ᵣ " => Rounding.mul (Machine.R M)
local infixl:70 " /ᵣ " => Rounding.div (Machine.R M)
local prefix:max "√" => Rounding.sqrt (Machine.R M)

/-- `_option_price.py` line 24: the subtracted `sigma * np.sqrt(T)` -/
def blsVol (T sigma : XR) : XR := sigma *ᵣ √T

/-- `_option_price.py` line 23 (`sigma**2` is computed as a product) -/
def blsD1 (S K r T sigma q : XR) : XR :=
  (M.log (S /ᵣ K) +ᵣ (r -ᵣ q +ᵣ sigma *ᵣ sigma /ᵣ 2) *ᵣ T) /ᵣ blsVol M T sigma

/-- `_option_price.py` line 24 -/
def blsD2 (S K r T sigma q : XR) : XR := blsD1 M S K r T sigma q -ᵣ blsVol M T sigma

/-- `_option_price.py` lines 25-26: `S * np.exp(-q * T)` and `K * np.exp(-r * T)` -/
def discounted (x rate T : XR) : XR := x *ᵣ M.exp (-rate *ᵣ T)

/-- `_option_price.py` line 25 -/
def blsCall (S K r T sigma q : XR) : XR :=
  discounted M S q T *ᵣ cdf (blsD1 M S K r T sigma q) -ᵣ discounted M K r T *ᵣ cdf (blsD2 M S K r T sigma q)

/-- `_option_price.py` line 26 -/
def blsPut (S K r T sigma q : XR) : XR :=
  discounted M K r T *ᵣ cdf (-blsD2 M S K r T sigma q) -ᵣ discounted M S q T *ᵣ cdf (-blsD1 M S K r T sigma q)

/-- `_option_price.py` lines 6-27, `blsprice` -/
def blsprice (S K r T sigma q : XR) : XR × XR := (blsCall M cdf S K r T sigma q, blsPut M cdf S K r T sigma q)

end
end Frds.Model.Rounded

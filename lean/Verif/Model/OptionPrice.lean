import Verif.Basic.Gauss

namespace Frds.Model
noncomputable section
open Frds

/-- `src/frds/measures/_option_price.py` lines 6-27, `blsprice`.
Arguments are `float64` scalars (NumPy division semantics: `S / K` with `K = 0`
gives an infinity; built-in floats would raise `ZeroDivisionError` there). -/
def blsprice (S K r T sigma q : XR) : XR × XR :=
  -- line 23
  let d1 := (XR.log (S / K) + (r - q + XR.sq sigma / 2) * T) / (sigma * XR.sqrt T)
  -- line 24
  let d2 := d1 - sigma * XR.sqrt T
  -- line 25
  let call := S * XR.exp (-q * T) * XR.ncdf d1 - K * XR.exp (-r * T) * XR.ncdf d2
  -- line 26
  let put := K * XR.exp (-r * T) * XR.ncdf (-d2) - S * XR.exp (-q * T) * XR.ncdf (-d1)
  -- line 27
  (call, put)

end
end Frds.Model

import Verif.Model.Rounded
import Verif.Model.Absorption

/-! `src/frds/measures/_absorption_ratio.py` in rounded arithmetic. The eigenvalues and the trace are what the library calls
deliver. -/
namespace Frds.Model.Rounded
noncomputable section
open Frds Frds.Model Classical

variable (M : Machine)

local infixl:70 " *ᵣ " => Rounding.mul (Machine.R M)
local infixl:70 " /ᵣ " => Rounding.div (Machine.R M)

/-- line 30: the number of eigenvalues; `Decimal(x)` is exact, so only the product is rounded -/
def arCount (f : XR) (n : ℕ) : Except PyErr ℤ := decimalInt (f *ᵣ M.R.round (.fin n))

/-- lines 27-31, `estimate`; the builtin `sum` adds from left to right, starting at zero -/
def absorption (n : ℕ) (eigs : List ℝ) (trace f : XR) : Except PyErr XR := do
  let s := eigs.mergeSort (fun a b => decide (a ≤ b))                              -- 28
  let k ← arCount M f n                                                            -- 30
  return M.R.foldSum ((pySliceFrom s ((s.length : ℤ) - k)).map XR.fin) /ᵣ trace     -- 31

end
end Frds.Model.Rounded

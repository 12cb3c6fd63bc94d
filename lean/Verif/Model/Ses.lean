import Verif.Basic.Lstsq
import Verif.Basic.Np

/-! Model of `src/frds/measures/_systemic_expected_shortfall.py` (1-D arrays of finite floats). -/
namespace Frds.Model
noncomputable section
open Frds Classical

/-- an instance of `SystemicExpectedShortfall` -/
structure Ses where
  mes : List ℝ
  lvg : List ℝ
  ses : List ℝ
  mesFirm : ℝ
  lvgFirm : ℝ

/-- `_systemic_expected_shortfall.py` lines 7-31, `__init__`. -/
def Ses.new (mes lvg ses : List ℝ) (mesFirm lvgFirm : ℝ) : Except PyErr Ses :=
  if mes.length ≠ lvg.length then .error .assertionError          -- line 24
  else if mes.length ≠ ses.length then .error .assertionError     -- line 25
  else .ok ⟨mes, lvg, ses, mesFirm, lvgFirm⟩

/-- `_systemic_expected_shortfall.py` lines 51-58, `_bflv2012`.
`L` is `np.linalg.lstsq(., ., rcond=None)[0]`; line 57 divides NumPy floats (no exception). -/
def Ses.bflv2012 (L : LstsqFn) (s : Ses) : XR :=
  let data : List (Fin 3 → ℝ) := List.zipWith (fun m l => ![1, m, l]) s.mes s.lvg   -- line 54
  let betas := L 3 data s.ses                                                        -- line 55
  let b := betas 1                                                                   -- line 56
  let c := betas 2
  (.fin b * .fin s.mesFirm + .fin c * .fin s.lvgFirm) / (.fin b + .fin c)            -- line 57

/-- `_systemic_expected_shortfall.py` lines 33-49, `estimate`. -/
def Ses.estimate (L : LstsqFn) (s : Ses) (version : String) : Except PyErr XR :=
  if ¬ (version = "BFLV2012" ∨ version = "APPR2017") then .error .assertionError     -- line 42
  else if version = "BFLV2012" then .ok (s.bflv2012 L)                               -- line 46
  else .error .notImplementedError                                                   -- line 49

end
end Frds.Model

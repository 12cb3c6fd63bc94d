import Mathlib.Analysis.SpecialFunctions.Log.Basic
import Mathlib.Data.List.Sort

/-! Quantiles by linear interpolation. -/
namespace Frds.Spec
noncomputable section

/-- one trading day -/
structure Day where
  firm : ℝ
  market : ℝ

/-- `q`-quantile of the *sorted* list `s` with linear interpolation between order statistics:
position `q * (n - 1)`. -/
def quantile (s : List ℝ) (q : ℝ) : ℝ :=
  let h := q * ((s.length : ℝ) - 1)
  let i := ⌊h⌋₊
  let a := s.getD i 0
  let b := s.getD (i + 1) a
  a + (h - i) * (b - a)

end
end Frds.Spec

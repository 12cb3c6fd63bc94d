import Mathlib.Data.Real.Basic
import Mathlib.Algebra.BigOperators.Intervals
import Mathlib.Order.Interval.Finset.Nat

/-! Specification of the smoother, independent of Fourier transforms. -/
namespace Frds.Spec
noncomputable section

/-- average of the `w` consecutive observations `x_{t-w/2+1}, …, x_{t+w/2}` -/
def windowMean (x : ℕ → ℝ) (w t : ℕ) : ℝ := (∑ i ∈ Finset.Ioc (t - w / 2) (t + w / 2), x i) / w

/-- the smoothed value at position `t` of `n` observations: a window average in the interior, straight
lines through the first two and through the last two averages at the edges -/
def smoothed (x : ℕ → ℝ) (n w t : ℕ) : ℝ :=
  let m := windowMean x w
  let a := w / 2
  let b := n - w / 2 - 1
  if t < a then m a - ((a : ℝ) - t) * (m (a + 1) - m a)
  else if t ≤ b then m t
  else m b + ((t : ℝ) - b) * (m b - m (b - 1))

end
end Frds.Spec

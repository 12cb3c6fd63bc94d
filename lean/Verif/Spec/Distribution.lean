import Verif.Basic.Machine

/-! What is asked of a computed distribution function. -/
namespace Frds.Spec
noncomputable section
open Frds

/-- a computed distribution function: values between 0 and 1, the two tails add up to 1 with an error of at most `δ`, and larger
arguments do not give smaller values -/
structure DistFn (cdf : XR → XR) (δ : ℝ) : Prop where
  range : ∀ d, d ≠ .nan → ∃ a, cdf d = .fin a ∧ 0 ≤ a ∧ a ≤ 1
  tails : ∀ d a b, cdf d = .fin a → cdf (-d) = .fin b → |a + b - 1| ≤ δ
  mono : ∀ d e, d ≤ e → cdf d ≤ cdf e

/-- a mathematical library: logarithms of numbers between 2^-1000 and 2^1000 are finite; exponentials of numbers up to 100 in size are finite and
between 2^-200 and 2^200 (exactly: between 3.7e-44 and 2.7e43) -/
structure LibFns (M : Machine) : Prop where
  log : ∀ x, 2 ^ (-1000 : ℤ) ≤ x → x ≤ 2 ^ (1000 : ℤ) → ∃ y, M.log (.fin x) = .fin y
  exp : ∀ x, |x| ≤ 100 → ∃ y, M.exp (.fin x) = .fin y ∧ 2 ^ (-200 : ℤ) ≤ y ∧ y ≤ 2 ^ (200 : ℤ)

end
end Frds.Spec

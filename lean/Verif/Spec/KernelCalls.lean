import Mathlib.Data.Real.Archimedean

/-! Specification helpers for the direct calls of the static variance methods. -/
namespace Frds.Spec
noncomputable section
open Classical

/-- the integer obtained by dropping the fractional part -/
def towardZero (x : ℝ) : ℤ := if 0 ≤ x then ⌊x⌋ else ⌈x⌉

/-- It is the integer on the side of zero, less than one away. -/
theorem towardZero_spec (x : ℝ) : |(towardZero x : ℝ)| ≤ |x| ∧ |x - towardZero x| < 1 ∧ 0 ≤ x * towardZero x := by
  unfold towardZero
  split_ifs with h
  · have h1 := Int.floor_le x
    have h2 := Int.lt_floor_add_one x
    have h3 : (0 : ℝ) ≤ ⌊x⌋ := by exact_mod_cast Int.floor_nonneg.mpr h
    rw [abs_of_nonneg h, abs_of_nonneg h3, abs_of_nonneg (by linarith)]
    exact ⟨h1, by linarith, mul_nonneg h h3⟩
  · push Not at h
    have h1 := Int.le_ceil x
    have h2 := Int.ceil_lt_add_one x
    have h3 : ((⌈x⌉ : ℤ) : ℝ) ≤ 0 := by exact_mod_cast Int.ceil_nonpos.mpr h.le
    rw [abs_of_neg h, abs_of_nonpos h3, abs_of_nonpos (by linarith)]
    exact ⟨by linarith, by linarith, mul_nonneg_of_nonpos_of_nonpos h.le h3⟩

end
end Frds.Spec

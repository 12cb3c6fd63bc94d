import Verif.Model.Cohort

/-! What it means for the Python translation and the Matlab reference to agree. -/
namespace Frds.Spec
noncomputable section
open Classical Frds.Model

/-- the same results, at every simulation `i < n` and state `s < szfs`, except for the two volatilities -/
structure SameResults (n szfs : ℕ) (a b : CohortOut) : Prop where
  Lt : ∀ s < szfs, a.Lt s = b.Lt s
  Bt : ∀ s < szfs, a.Bt s = b.Bt s
  Et : ∀ s < szfs, a.Et s = b.Et s
  LH : ∀ i < n, ∀ s < szfs, a.LH i s = b.LH i s
  BH : ∀ i < n, ∀ s < szfs, a.BH i s = b.BH i s
  EH : ∀ i < n, ∀ s < szfs, a.EH i s = b.EH i s
  mFt : ∀ s < szfs, a.mFt s = b.mFt s
  dflt : ∀ i < n, ∀ s < szfs, a.dflt i s = b.dflt i s
  mdef : ∀ s < szfs, a.mdef s = b.mdef s
  face : ∀ i < n, ∀ s < szfs, a.face i s = b.face i s
  FH : ∀ i < n, ∀ s < szfs, a.FH i s = b.FH i s
  Gt : ∀ s < szfs, a.Gt s = b.Gt s
  mu : a.mu = b.mu
  F : a.F = b.F

/-- How a volatility compares, when the values after the upward and the downward step have the signs of `u`
and `d`: equal and real unless one of them is negative; then Python returns NaN and Matlab a number (with an
imaginary part when exactly one is negative). -/
structure SameVol (u d : ℝ) (py re : XR) (im : ℝ) : Prop where
  real : 0 ≤ u → 0 ≤ d → py = re ∧ im = 0
  nan : u < 0 ∨ d < 0 → py = .nan
  value : u ≠ 0 → d ≠ 0 → re = .fin (5 * Real.log (|u| / |d|))
  im_up : u < 0 → 0 ≤ d → im = 5 * Real.pi
  im_down : 0 ≤ u → d < 0 → im = -(5 * Real.pi)
  im_both : u < 0 → d < 0 → im = 0

/-- no two different keys are closer than `10⁻⁹` -/
def KeysApart (n szfs3 : ℕ) (key : ℕ → ℕ → ℝ) : Prop :=
  ∀ i < n, ∀ s < szfs3, ∀ i' < n, ∀ s' < szfs3, key i s < key i' s' → key i s + 1 / 10 ^ 9 < key i' s'

/-- no key is half-way between two neighbouring nine-digit decimals -/
def NoTies (n szfs3 : ℕ) (key : ℕ → ℕ → ℝ) : Prop :=
  ∀ i < n, ∀ s < szfs3, ∀ m : ℤ, key i s * 10 ^ 9 ≠ m + 1 / 2

end
end Frds.Spec

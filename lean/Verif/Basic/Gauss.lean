import Mathlib.Probability.Distributions.Gaussian.Real
import Mathlib.Probability.CDF
import Mathlib.MeasureTheory.Integral.IntervalIntegral.FundThmCalculus
import Mathlib.Analysis.Calculus.Deriv.MeanValue
import Mathlib.MeasureTheory.Measure.Haar.NormedSpace
import Verif.Basic.XR

/-!
# The standard normal distribution function

`Φ` is `scipy.stats.norm.cdf`: the distribution function of the standard
Gaussian measure of Mathlib.  (SciPy's numerical error is not modelled.)
-/

namespace Frds

noncomputable section
open MeasureTheory ProbabilityTheory Set Filter Topology

/-- The law of a standard normal variable. -/
abbrev stdNormal : Measure ℝ := gaussianReal 0 1

/-- Standard normal distribution function, `P(Z ≤ x)`. -/
def Φ (x : ℝ) : ℝ := (stdNormal).real (Iic x)

/-- Standard normal density. -/
def φ (x : ℝ) : ℝ := gaussianPDFReal 0 1 x

/-- `scipy.stats.norm.cdf` on `XR`. -/
def XR.ncdf : XR → XR
  | .nan => .nan
  | .ninf => .fin 0
  | .pinf => .fin 1
  | .fin r => .fin (Φ r)

@[simp] theorem XR.ncdf_fin (r : ℝ) : XR.ncdf (.fin r) = .fin (Φ r) := rfl
@[simp] theorem XR.ncdf_nan : XR.ncdf .nan = .nan := rfl
@[simp] theorem XR.ncdf_pinf : XR.ncdf .pinf = .fin 1 := rfl
@[simp] theorem XR.ncdf_ninf : XR.ncdf .ninf = .fin 0 := rfl

theorem φ_eq (x : ℝ) : φ x = (Real.sqrt (2 * Real.pi))⁻¹ * Real.exp (-x ^ 2 / 2) := by
  simp [φ, gaussianPDFReal]

theorem φ_pos (x : ℝ) : 0 < φ x := gaussianPDFReal_pos 0 1 x one_ne_zero

theorem φ_continuous : Continuous φ := by
  have : φ = fun x => (Real.sqrt (2 * Real.pi))⁻¹ * Real.exp (-x ^ 2 / 2) := by
    funext x; exact φ_eq x
  rw [this]; fun_prop

theorem φ_integrable : Integrable φ := integrable_gaussianPDFReal 0 1

theorem φ_neg (x : ℝ) : φ (-x) = φ x := by simp [φ_eq]

theorem stdNormal_real (s : Set ℝ) :
    stdNormal.real s = ∫ x in s, φ x := by
  rw [Measure.real, gaussianReal_apply_eq_integral 0 one_ne_zero,
    ENNReal.toReal_ofReal]
  · rfl
  · exact integral_nonneg fun x => gaussianPDFReal_nonneg 0 1 x

theorem Φ_eq_integral (x : ℝ) : Φ x = ∫ t in Iic x, φ t := stdNormal_real _

theorem Φ_Ioi (x : ℝ) : ∫ t in Ioi x, φ t = 1 - Φ x := by
  have h := prob_compl_eq_one_sub (μ := stdNormal) (measurableSet_Iic (a := x))
  rw [← stdNormal_real, Φ, ← compl_Iic, measureReal_compl measurableSet_Iic]
  simp

theorem Φ_neg (x : ℝ) : Φ (-x) = 1 - Φ x := by
  rw [← Φ_Ioi, Φ_eq_integral]
  have := integral_comp_neg_Iic (-x) φ
  simp only [φ_neg, neg_neg] at this
  exact this

theorem Φ_add_neg (x : ℝ) : Φ x + Φ (-x) = 1 := by rw [Φ_neg]; ring

theorem Φ_zero : Φ 0 = 1 / 2 := by
  have := Φ_add_neg 0
  rw [neg_zero] at this; linarith

theorem Φ_hasDerivAt (x : ℝ) : HasDerivAt Φ (φ x) x := by
  have h : ∀ y, Φ y = Φ 0 + ∫ t in (0:ℝ)..y, φ t := by
    intro y
    have := intervalIntegral.integral_Iic_sub_Iic (μ := volume) (f := φ) (a := 0) (b := y)
      φ_integrable.integrableOn φ_integrable.integrableOn
    rw [Φ_eq_integral, Φ_eq_integral, ← this]; ring
  have h2 : Φ = fun y => Φ 0 + ∫ t in (0:ℝ)..y, φ t := funext h
  rw [h2]
  have h3 := intervalIntegral.integral_hasDerivAt_right (a := 0) (b := x) (f := φ)
    (φ_continuous.intervalIntegrable _ _)
    (φ_continuous.stronglyMeasurableAtFilter _ _) φ_continuous.continuousAt
  exact h3.const_add _

theorem Φ_continuous : Continuous Φ :=
  continuous_iff_continuousAt.mpr fun x => (Φ_hasDerivAt x).continuousAt

theorem Φ_strictMono : StrictMono Φ :=
  strictMono_of_deriv_pos fun x => by rw [(Φ_hasDerivAt x).deriv]; exact φ_pos x

theorem Φ_nonneg (x : ℝ) : 0 ≤ Φ x := measureReal_nonneg

theorem Φ_le_one (x : ℝ) : Φ x ≤ 1 := by
  have := Φ_nonneg (-x); rw [Φ_neg] at this; linarith

theorem Φ_pos (x : ℝ) : 0 < Φ x :=
  lt_of_le_of_lt (Φ_nonneg (x - 1)) (Φ_strictMono (by linarith))

theorem Φ_lt_one (x : ℝ) : Φ x < 1 := by
  have := Φ_pos (-x); rw [Φ_neg] at this; linarith

theorem Φ_eq_cdf (x : ℝ) : Φ x = cdf stdNormal x := by rw [cdf_eq_real]; rfl

theorem Φ_tendsto_atTop : Tendsto Φ atTop (𝓝 1) := by
  have : Φ = fun x => cdf stdNormal x := funext Φ_eq_cdf
  rw [this]; exact tendsto_cdf_atTop _

theorem Φ_tendsto_atBot : Tendsto Φ atBot (𝓝 0) := by
  have : Φ = fun x => cdf stdNormal x := funext Φ_eq_cdf
  rw [this]; exact tendsto_cdf_atBot _

/-- Completing the square. -/
theorem exp_mul_φ (s z : ℝ) : Real.exp (s * z - s ^ 2 / 2) * φ z = φ (z - s) := by
  rw [φ_eq, φ_eq, ← mul_assoc, mul_comm (Real.exp _), mul_assoc, ← Real.exp_add]
  congr 2; ring

theorem integral_φ_sub_Ioi (s c : ℝ) : ∫ z in Ioi c, φ (z - s) = Φ (s - c) := by
  have h := (measurePreserving_sub_right volume s).setIntegral_preimage_emb
    (MeasurableEquiv.subRight s).measurableEmbedding φ (Ioi (c - s))
  have hp : (fun x => x - s) ⁻¹' Ioi (c - s) = Ioi c := by
    ext x; simp
  rw [hp] at h
  rw [h, Φ_Ioi, ← Φ_neg]; congr 1; ring

theorem integral_φ_sub_Iic (s c : ℝ) : ∫ z in Iic c, φ (z - s) = Φ (c - s) := by
  have h := (measurePreserving_sub_right volume s).setIntegral_preimage_emb
    (MeasurableEquiv.subRight s).measurableEmbedding φ (Iic (c - s))
  have hp : (fun x => x - s) ⁻¹' Iic (c - s) = Iic c := by
    ext x; simp
  rw [hp] at h
  rw [h, Φ_eq_integral]

theorem integrable_φ_sub (s : ℝ) : Integrable fun z => φ (z - s) :=
  φ_integrable.comp_sub_right s

theorem stdNormal_integral (f : ℝ → ℝ) : ∫ z, f z ∂stdNormal = ∫ z, φ z * f z := by
  rw [integral_gaussianReal_eq_integral_smul one_ne_zero]; rfl

/-- `E[(A e^{sZ - s²/2} - B)⁺] = A Φ(d₁) - B Φ(d₂)`. -/
theorem call_expectation {A B s : ℝ} (hA : 0 < A) (hB : 0 < B) (hs : 0 < s) :
    ∫ z, max (A * Real.exp (s * z - s ^ 2 / 2) - B) 0 ∂stdNormal
      = A * Φ (Real.log (A / B) / s + s / 2) - B * Φ (Real.log (A / B) / s - s / 2) := by
  set d2 := Real.log (A / B) / s - s / 2 with hd2
  have hd1 : Real.log (A / B) / s + s / 2 = d2 + s := by rw [hd2]; ring
  rw [stdNormal_integral, hd1]
  have key : ∀ z, A * Real.exp (s * z - s ^ 2 / 2) - B = B * (Real.exp (s * (z + d2)) - 1) := by
    intro z
    have : s * (z + d2) = (s * z - s ^ 2 / 2) + Real.log (A / B) := by
      rw [hd2]; field_simp; ring
    rw [this, Real.exp_add, Real.exp_log (by positivity)]
    field_simp
  have hind : (fun z => φ z * max (A * Real.exp (s * z - s ^ 2 / 2) - B) 0)
      = (Ioi (-d2)).indicator (fun z => A * φ (z - s) - B * φ z) := by
    funext z
    by_cases hz : z ∈ Ioi (-d2)
    · rw [indicator_of_mem hz]
      have : 0 ≤ A * Real.exp (s * z - s ^ 2 / 2) - B := by
        rw [key]
        have h1 : 1 ≤ Real.exp (s * (z + d2)) := by
          apply Real.one_le_exp
          have : 0 < z + d2 := by rw [mem_Ioi] at hz; linarith
          positivity
        exact mul_nonneg hB.le (by linarith)
      rw [max_eq_left this, ← exp_mul_φ]; ring
    · rw [indicator_of_notMem hz]
      have : A * Real.exp (s * z - s ^ 2 / 2) - B ≤ 0 := by
        rw [key]
        have h1 : Real.exp (s * (z + d2)) ≤ 1 := by
          apply Real.exp_le_one_iff.mpr
          have : z + d2 ≤ 0 := by rw [mem_Ioi, not_lt] at hz; linarith
          nlinarith
        nlinarith
      rw [max_eq_right this, mul_zero]
  rw [hind, integral_indicator measurableSet_Ioi, integral_sub, integral_const_mul,
    integral_const_mul, integral_φ_sub_Ioi, Φ_Ioi, ← Φ_neg]
  · congr 3 <;> ring
  · exact ((integrable_φ_sub s).const_mul A).integrableOn
  · exact (φ_integrable.const_mul B).integrableOn

/-- `E[(B - A e^{sZ - s²/2})⁺] = B Φ(-d₂) - A Φ(-d₁)`. -/
theorem put_expectation {A B s : ℝ} (hA : 0 < A) (hB : 0 < B) (hs : 0 < s) :
    ∫ z, max (B - A * Real.exp (s * z - s ^ 2 / 2)) 0 ∂stdNormal
      = B * Φ (-(Real.log (A / B) / s - s / 2)) - A * Φ (-(Real.log (A / B) / s + s / 2)) := by
  set d2 := Real.log (A / B) / s - s / 2 with hd2
  have hd1 : Real.log (A / B) / s + s / 2 = d2 + s := by rw [hd2]; ring
  rw [stdNormal_integral, hd1]
  have key : ∀ z, A * Real.exp (s * z - s ^ 2 / 2) - B = B * (Real.exp (s * (z + d2)) - 1) := by
    intro z
    have : s * (z + d2) = (s * z - s ^ 2 / 2) + Real.log (A / B) := by
      rw [hd2]; field_simp; ring
    rw [this, Real.exp_add, Real.exp_log (by positivity)]
    field_simp
  have hind : (fun z => φ z * max (B - A * Real.exp (s * z - s ^ 2 / 2)) 0)
      = (Iic (-d2)).indicator (fun z => B * φ z - A * φ (z - s)) := by
    funext z
    by_cases hz : z ∈ Iic (-d2)
    · rw [indicator_of_mem hz]
      have : 0 ≤ B - A * Real.exp (s * z - s ^ 2 / 2) := by
        have h1 : Real.exp (s * (z + d2)) ≤ 1 := by
          apply Real.exp_le_one_iff.mpr
          have : z + d2 ≤ 0 := by rw [mem_Iic] at hz; linarith
          nlinarith
        have := key z
        nlinarith
      rw [max_eq_left this, ← exp_mul_φ]; ring
    · rw [indicator_of_notMem hz]
      have : B - A * Real.exp (s * z - s ^ 2 / 2) ≤ 0 := by
        have h1 : 1 ≤ Real.exp (s * (z + d2)) := by
          apply Real.one_le_exp
          have : 0 < z + d2 := by rw [mem_Iic, not_le] at hz; linarith
          positivity
        have := key z
        nlinarith
      rw [max_eq_right this, mul_zero]
  rw [hind, integral_indicator measurableSet_Iic, integral_sub, integral_const_mul,
    integral_const_mul, integral_φ_sub_Iic, ← Φ_eq_integral]
  · congr 3; ring
  · exact (φ_integrable.const_mul B).integrableOn
  · exact ((integrable_φ_sub s).const_mul A).integrableOn

end
end Frds

import Verif.Model.OptionPrice
import Verif.Spec.OptionPrice

/-! Real-valued Black formula `bs A B s`: call on discounted forward `A`, strike
`B`, total volatility `s`. -/
namespace Frds
noncomputable section
open MeasureTheory Set

/-- Black call. -/
def bs (A B s : ℝ) : ℝ :=
  A * Φ (Real.log (A / B) / s + s / 2) - B * Φ (Real.log (A / B) / s - s / 2)

theorem log_div_swap {A B : ℝ} (hA : 0 < A) (hB : 0 < B) :
    Real.log (B / A) = - Real.log (A / B) := by
  rw [Real.log_div hB.ne' hA.ne', Real.log_div hA.ne' hB.ne']; ring

/-- the put is the call with the legs swapped -/
theorem bs_swap {A B : ℝ} (s : ℝ) (hA : 0 < A) (hB : 0 < B) :
    bs B A s = B * Φ (-(Real.log (A / B) / s - s / 2)) - A * Φ (-(Real.log (A / B) / s + s / 2)) := by
  unfold bs
  rw [log_div_swap hA hB]
  congr 3 <;> ring

theorem bs_parity {A B : ℝ} (s : ℝ) (hA : 0 < A) (hB : 0 < B) :
    bs A B s - bs B A s = A - B := by
  rw [bs_swap s hA hB, bs, Φ_neg, Φ_neg]; ring

theorem bs_expectation {A B s : ℝ} (hA : 0 < A) (hB : 0 < B) (hs : 0 < s) :
    ∫ z, max (A * Real.exp (s * z - s ^ 2 / 2) - B) 0 ∂stdNormal = bs A B s :=
  call_expectation hA hB hs

theorem bs_expectation_put {A B s : ℝ} (hA : 0 < A) (hB : 0 < B) (hs : 0 < s) :
    ∫ z, max (B - A * Real.exp (s * z - s ^ 2 / 2)) 0 ∂stdNormal = bs B A s := by
  rw [bs_swap s hA hB]; exact put_expectation hA hB hs

theorem φ_d1_d2 {A B s : ℝ} (hA : 0 < A) (hB : 0 < B) (hs : s ≠ 0) :
    A * φ (Real.log (A / B) / s + s / 2) = B * φ (Real.log (A / B) / s - s / 2) := by
  set L := Real.log (A / B)
  have h : -(L / s + s / 2) ^ 2 / 2 = -L + -(L / s - s / 2) ^ 2 / 2 := by
    field_simp; ring
  rw [φ_eq, φ_eq, h, Real.exp_add, Real.exp_neg, Real.exp_log (by positivity)]
  field_simp

/-- vega -/
theorem bs_hasDerivAt_s {A B s : ℝ} (hA : 0 < A) (hB : 0 < B) (hs : s ≠ 0) :
    HasDerivAt (fun v => bs A B v) (A * φ (Real.log (A / B) / s + s / 2)) s := by
  set L := Real.log (A / B) with hL
  have hinv : HasDerivAt (fun v : ℝ => L / v) (-L / s ^ 2) s := by
    have := (hasDerivAt_inv hs).const_mul L
    exact this.congr_deriv (by field_simp)
  have h2 : HasDerivAt (fun v : ℝ => v / 2) (1 / 2) s := (hasDerivAt_id s).div_const 2
  have e1 := ((Φ_hasDerivAt (L / s + s / 2)).comp s (hinv.add h2)).const_mul A
  have e2 := ((Φ_hasDerivAt (L / s - s / 2)).comp s (hinv.sub h2)).const_mul B
  have e := e1.sub e2
  have hφ := φ_d1_d2 hA hB hs
  rw [← hL] at hφ
  refine e.congr_deriv ?_
  have : A * (φ (L / s + s / 2) * (-L / s ^ 2 + 1 / 2)) - B * (φ (L / s - s / 2) * (-L / s ^ 2 - 1 / 2))
      = (A * φ (L / s + s / 2)) * (-L / s ^ 2 + 1 / 2) - (B * φ (L / s - s / 2)) * (-L / s ^ 2 - 1 / 2) := by
    ring
  rw [this, ← hφ]; ring

theorem bs_strictMonoOn_s {A B : ℝ} (hA : 0 < A) (hB : 0 < B) :
    StrictMonoOn (fun v => bs A B v) (Ioi 0) := by
  apply strictMonoOn_of_deriv_pos (convex_Ioi 0)
  · intro s hs
    exact (bs_hasDerivAt_s hA hB (ne_of_gt hs)).continuousAt.continuousWithinAt
  · intro s hs
    rw [interior_Ioi] at hs
    rw [(bs_hasDerivAt_s hA hB (ne_of_gt hs)).deriv]
    exact mul_pos hA (φ_pos _)

/-- delta -/
theorem bs_hasDerivAt_A {A B s : ℝ} (hA : 0 < A) (hB : 0 < B) (hs : s ≠ 0) :
    HasDerivAt (fun a => bs a B s) (Φ (Real.log (A / B) / s + s / 2)) A := by
  set L := Real.log (A / B) with hL
  have hlog : HasDerivAt (fun a : ℝ => Real.log (a / B)) (1 / A) A := by
    have h := ((hasDerivAt_id A).div_const B).log (by simp; exact ⟨hA.ne', hB.ne'⟩)
    exact h.congr_deriv (by simp only [id]; field_simp)
  have hd := hlog.div_const s
  have e1 := (hasDerivAt_id A).mul ((Φ_hasDerivAt (L / s + s / 2)).comp A (hd.add_const (s / 2)))
  have e2 := ((Φ_hasDerivAt (L / s - s / 2)).comp A (hd.sub_const (s / 2))).const_mul B
  have e := e1.sub e2
  have hφ := φ_d1_d2 hA hB hs
  rw [← hL] at hφ
  refine e.congr_deriv ?_
  simp only [id, Function.comp, one_mul]
  rw [← hL]
  have : B * (φ (L / s - s / 2) * (1 / A / s)) = (B * φ (L / s - s / 2)) * (1 / A / s) := by ring
  rw [this, ← hφ]; ring

theorem bs_strictMonoOn_A {B s : ℝ} (hB : 0 < B) (hs : s ≠ 0) :
    StrictMonoOn (fun a => bs a B s) (Ioi 0) := by
  apply strictMonoOn_of_deriv_pos (convex_Ioi 0)
  · intro a ha
    exact (bs_hasDerivAt_A ha hB hs).continuousAt.continuousWithinAt
  · intro a ha
    rw [interior_Ioi] at ha
    rw [(bs_hasDerivAt_A ha hB hs).deriv]
    exact Φ_pos _

theorem bs_sub_strictAntiOn_A {B s : ℝ} (hB : 0 < B) (hs : s ≠ 0) :
    StrictAntiOn (fun a => bs a B s - a) (Ioi 0) := by
  have hd : ∀ a ∈ Ioi (0:ℝ), HasDerivAt (fun a => bs a B s - a)
      (Φ (Real.log (a / B) / s + s / 2) - 1) a := fun a ha =>
    (bs_hasDerivAt_A ha hB hs).sub (hasDerivAt_id a)
  apply strictAntiOn_of_deriv_neg (convex_Ioi 0)
  · intro a ha
    exact (hd a ha).continuousAt.continuousWithinAt
  · intro a ha
    rw [interior_Ioi] at ha
    rw [(hd a ha).deriv]
    have := Φ_lt_one (Real.log (a / B) / s + s / 2)
    linarith

theorem bs_strictAntiOn_B {A s : ℝ} (hA : 0 < A) (hs : s ≠ 0) :
    StrictAntiOn (fun b => bs A b s) (Ioi 0) := by
  intro b hb b' hb' hlt
  have h := bs_sub_strictAntiOn_A hA hs hb hb' hlt
  have p1 := bs_parity s hA hb
  have p2 := bs_parity s hA hb'
  simp only at h ⊢
  linarith

theorem bs_nonneg {A B s : ℝ} (hA : 0 < A) (hB : 0 < B) (hs : 0 < s) : 0 ≤ bs A B s := by
  rw [← bs_expectation hA hB hs]
  exact integral_nonneg fun z => le_max_right _ _

theorem bs_pos {A B s : ℝ} (hA : 0 < A) (hB : 0 < B) (hs : 0 < s) : 0 < bs A B s :=
  lt_of_le_of_lt (bs_nonneg (half_pos hA) hB hs)
    (bs_strictMonoOn_A hB hs.ne' (half_pos hA) hA (half_lt_self hA))

theorem bs_lt {A B s : ℝ} (hA : 0 < A) (hB : 0 < B) : bs A B s < A := by
  unfold bs
  have h1 := Φ_lt_one (Real.log (A / B) / s + s / 2)
  have h2 := Φ_pos (Real.log (A / B) / s - s / 2)
  nlinarith [mul_pos hB h2]

theorem bs_gt {A B s : ℝ} (hA : 0 < A) (hB : 0 < B) (hs : 0 < s) : A - B < bs A B s := by
  have := bs_parity s hA hB
  have := bs_pos hB hA hs
  linarith

theorem bs_homog {A B c : ℝ} (s : ℝ) (hc : 0 < c) :
    bs (c * A) (c * B) s = c * bs A B s := by
  unfold bs
  rw [mul_div_mul_left _ _ hc.ne']; ring

/-- Reduction of the model to the Black formula on admissible inputs. -/
theorem blsprice_eq {S K r T σ q : ℝ} (hS : 0 < S) (hK : 0 < K) (hT : 0 < T) (hσ : 0 < σ) :
    Model.blsprice (.fin S) (.fin K) (.fin r) (.fin T) (.fin σ) (.fin q)
      = (.fin (bs (S * Real.exp (-q * T)) (K * Real.exp (-r * T)) (σ * Real.sqrt T)),
         .fin (bs (K * Real.exp (-r * T)) (S * Real.exp (-q * T)) (σ * Real.sqrt T))) := by
  have hs : 0 < σ * Real.sqrt T := mul_pos hσ (Real.sqrt_pos.mpr hT)
  have hA : 0 < S * Real.exp (-q * T) := by positivity
  have hB : 0 < K * Real.exp (-r * T) := by positivity
  have hlog : Real.log ((S * Real.exp (-q * T)) / (K * Real.exp (-r * T)))
      = Real.log (S / K) + (r - q) * T := by
    rw [Real.log_div hA.ne' hB.ne', Real.log_mul hS.ne' (Real.exp_ne_zero _),
      Real.log_mul hK.ne' (Real.exp_ne_zero _), Real.log_exp, Real.log_exp,
      Real.log_div hS.ne' hK.ne']; ring
  have hsq : Real.sqrt T * Real.sqrt T = T := Real.mul_self_sqrt hT.le
  have hd1 : (Real.log (S / K) + (r - q + σ ^ 2 / 2) * T) / (σ * Real.sqrt T)
      = Real.log ((S * Real.exp (-q * T)) / (K * Real.exp (-r * T))) / (σ * Real.sqrt T)
        + σ * Real.sqrt T / 2 := by
    rw [hlog]
    rw [eq_comm, div_add' _ _ _ hs.ne', div_left_inj' hs.ne']
    linear_combination (σ ^ 2 / 2) * hsq
  have hx : Model.blsprice (.fin S) (.fin K) (.fin r) (.fin T) (.fin σ) (.fin q)
      = (let d1 := (Real.log (S / K) + (r - q + σ ^ 2 / 2) * T) / (σ * Real.sqrt T)
         let d2 := d1 - σ * Real.sqrt T
         (XR.fin (S * Real.exp (-q * T) * Φ d1 - K * Real.exp (-r * T) * Φ d2),
          XR.fin (K * Real.exp (-r * T) * Φ (-d2) - S * Real.exp (-q * T) * Φ (-d1)))) := by
    simp only [Model.blsprice]
    rw [XR.fin_div _ hK.ne', XR.fin_log (div_pos hS hK), XR.fin_sqrt hT.le, XR.fin_sq,
      XR.ofNat_def, XR.fin_div _ (by norm_num : (OfNat.ofNat 2 : ℝ) ≠ 0)]
    simp only [XR.fin_sub, XR.fin_add, XR.fin_mul, XR.fin_neg, XR.fin_exp]
    rw [XR.fin_div _ hs.ne']
    simp only [XR.fin_sub, XR.fin_mul, XR.fin_neg, XR.ncdf_fin]
  rw [hx]
  simp only [hd1]
  rw [bs_swap _ hA hB, bs]
  have h2 : ∀ x v : ℝ, x + v / 2 - v = x - v / 2 := by intros; ring
  simp only [h2]

end
end Frds

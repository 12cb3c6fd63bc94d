import Verif.Props.CcaSolution
import Verif.Model.CcaOverflow

/-! C199: the contingent claim analysis at an approximate root. C200: overflow of `math.exp`. -/
set_option linter.unusedSimpArgs false

namespace Frds.Props
noncomputable section
open Frds Frds.Model Classical

/-- C199. Whatever non-zero finite point the solver returns, with residuals `e₁`, `e₂` of the two equations there: the
market value of debt behind the CDS leg is asset value minus equity plus `e₁`, a positive amount below the asset value and
below the discounted barrier; the put is what is missing from the discounted barrier; so an inaccurate solver moves the put
by exactly the residual of the balance-sheet equation, and the residual of the volatility equation does not matter. -/
theorem C199_accounting (solve : Solver) (E vol r D T c a b e₁ e₂ : ℝ) (hD : 0 < D) (hT : 0 < T) (ha : a ≠ 0) (hb : b ≠ 0)
    (hx : solve (ccaFunc (ccaIn E vol r D T c)) (.fin E, .fin vol) = .ok (.fin a, .fin b))
    (hres : ccaFunc (ccaIn E vol r D T c) (.fin a, .fin b) = .ok (.fin e₁, .fin e₂)) :
    0 < a ^ 2 - E + e₁ ∧ a ^ 2 - E + e₁ < a ^ 2 ∧ a ^ 2 - E + e₁ < D * Real.exp (-r * T) ∧
    ccaEstimate solve (ccaIn E vol r D T c) = .ok (.fin (D * Real.exp (-r * T) - (a ^ 2 - E + e₁)),
      .fin (D * Real.exp (-r * T) - (a ^ 2 - E + e₁)
        - (1 - Real.exp (-(c / 10000) * (D / (a ^ 2 - E + e₁) - 1) * T)) * D * Real.exp (-r * T))) := by
  have hA : 0 < a ^ 2 := by positivity
  have hs : 0 < b ^ 2 * Real.sqrt T := mul_pos (by positivity) (Real.sqrt_pos.mpr hT)
  have hB : 0 < D * Real.exp (-r * T) := by positivity
  rw [ccaFunc_fin hD hT ha hb] at hres
  injection hres with hres
  rw [Prod.mk.injEq, XR.fin_inj, XR.fin_inj] at hres
  have h1 := hres.1
  have hpar := bs_parity (b ^ 2 * Real.sqrt T) hA hB
  have hp := bs_pos hB hA hs
  have hp' := bs_pos hA hB hs
  have hlt := bs_lt (s := b ^ 2 * Real.sqrt T) hA hB
  have hput : bs (D * Real.exp (-r * T)) (a ^ 2) (b ^ 2 * Real.sqrt T) = D * Real.exp (-r * T) - (a ^ 2 - E + e₁) := by
    linarith
  refine ⟨by linarith, by linarith, by linarith, ?_⟩
  rw [cca_ok (i := ccaIn E vol r D T c) hx, ccaTail_fin hD hT ha hb, hput, sub_sub_cancel]

namespace CcaResidual

theorem mathExp_le {L x : ℝ} (h : x ≤ L) : mathExp L (.fin x) = .ok (.fin (Real.exp x)) := by
  show (if L < x then _ else _) = _
  rw [if_neg (not_lt.mpr h)]

theorem mathExp_gt {L x : ℝ} (h : L < x) : mathExp L (.fin x) = .error .overflowError := by
  show (if L < x then _ else _) = _
  rw [if_pos h]

/-- while the discount factor is representable the equations are the ones without overflow -/
theorem func_eq {L E vol r D T c : ℝ} (h : -r * T ≤ L) :
    ccaFuncL L (ccaIn E vol r D T c) = ccaFunc (ccaIn E vol r D T c) := by
  funext x
  have he := mathExp_le h
  unfold ccaFuncL ccaFunc
  simp only [ccaIn, XR.fin_neg, XR.fin_mul, he, XR.fin_exp, bind, Except.bind, pure, Except.pure]

/-- the result when the discount factor is representable -/
theorem tail_eq {L E vol r D T c a b : ℝ} (hD : 0 < D) (hT : 0 < T) (ha : a ≠ 0) (hb : b ≠ 0) (h : -r * T ≤ L) :
    ccaTailL L (ccaIn E vol r D T c) (.fin a, .fin b) =
      if L < -(c / 10000) * (D / (D * Real.exp (-r * T)
          - bs (D * Real.exp (-r * T)) (a ^ 2) (b ^ 2 * Real.sqrt T)) - 1) * T then .error .overflowError
      else ccaTail (ccaIn E vol r D T c) (.fin a, .fin b) := by
  have hA : 0 < a ^ 2 := by positivity
  have hs : 0 < b ^ 2 := by positivity
  have hs' : 0 < b ^ 2 * Real.sqrt T := mul_pos hs (Real.sqrt_pos.mpr hT)
  have hB : 0 < D * Real.exp (-r * T) := by positivity
  have hdebt : D * Real.exp (-r * T) - bs (D * Real.exp (-r * T)) (a ^ 2) (b ^ 2 * Real.sqrt T) ≠ 0 := by
    have := bs_lt (s := b ^ 2 * Real.sqrt T) hB hA; linarith
  have e := cca_put (r := r) hA hs hD hT
  have hd1 : (Real.log (a ^ 2 / D) + (r + (b ^ 2) ^ 2 / 2) * T) / (b ^ 2 * Real.sqrt T)
      = ccaD1 (a ^ 2) (b ^ 2) r D T := rfl
  have he := mathExp_le h
  unfold ccaTailL ccaTail ccaIn
  simp only [XR.fin_sq, XR.fin_div _ hD.ne', mathLog, mathSqrt, if_pos (div_pos hA hD), if_neg hT.not_gt,
    bind, Except.bind, pure, Except.pure, XR.ofNat_def, XR.fin_div _ (by norm_num : (OfNat.ofNat 2 : ℝ) ≠ 0),
    XR.fin_add, XR.fin_mul, XR.fin_neg, XR.fin_exp, XR.fin_div _ hs'.ne', XR.fin_sub, XR.ncdf_fin, hd1, he, e,
    XR.one_def, XR.fin_div _ hdebt, XR.fin_div _ (by norm_num : (OfNat.ofNat 10000 : ℝ) ≠ 0)]
  split_ifs with hc
  · rw [mathExp_gt hc]
  · rw [mathExp_le (not_lt.mp hc)]
    simp only [XR.fin_sub, XR.fin_mul]

end CcaResidual
open CcaResidual

/-- C200. With a non-negative rate and CDS spread `math.exp` never overflows, whatever non-zero finite point the solver
returns and however small the largest argument accepted by `math.exp` (it accepts zero): the method computes what C07-C09,
C198 and C199 say. -/
theorem C200_no_overflow (L : ℝ) (hL : 0 ≤ L) (solve : Solver) (E vol r D T c a b : ℝ) (hD : 0 < D) (hT : 0 < T)
    (hr : 0 ≤ r) (hc : 0 ≤ c) (ha : a ≠ 0) (hb : b ≠ 0)
    (hx : solve (ccaFunc (ccaIn E vol r D T c)) (.fin E, .fin vol) = .ok (.fin a, .fin b)) :
    ccaEstimateL L solve (ccaIn E vol r D T c) = ccaEstimate solve (ccaIn E vol r D T c) := by
  have hA : 0 < a ^ 2 := by positivity
  have hs : 0 < b ^ 2 * Real.sqrt T := mul_pos (by positivity) (Real.sqrt_pos.mpr hT)
  have hB : 0 < D * Real.exp (-r * T) := by positivity
  have hrT : -r * T ≤ 0 := by nlinarith
  unfold ccaEstimateL ccaEstimate
  rw [func_eq (le_trans hrT hL)]
  have hx' : solve (ccaFunc (ccaIn E vol r D T c)) ((ccaIn E vol r D T c).equity, (ccaIn E vol r D T c).volatility)
      = .ok (.fin a, .fin b) := hx
  rw [hx']
  show ccaTailL L (ccaIn E vol r D T c) (.fin a, .fin b) = ccaTail (ccaIn E vol r D T c) (.fin a, .fin b)
  rw [tail_eq hD hT ha hb (le_trans hrT hL), if_neg]
  rw [not_lt]
  refine le_trans ?_ hL
  have hp := bs_pos hB hA hs
  have hlt := bs_lt (s := b ^ 2 * Real.sqrt T) hB hA
  generalize bs (D * Real.exp (-r * T)) (a ^ 2) (b ^ 2 * Real.sqrt T) = put at hp hlt
  have he : Real.exp (-r * T) ≤ 1 := by rw [Real.exp_le_one_iff]; exact hrT
  have hle : D * Real.exp (-r * T) ≤ D := by nlinarith
  have h1 : 1 ≤ D / (D * Real.exp (-r * T) - put) := by rw [le_div_iff₀ (by linarith)]; linarith
  have : 0 ≤ c / 10000 * (D / (D * Real.exp (-r * T) - put) - 1) * T := by
    have : 0 ≤ D / (D * Real.exp (-r * T) - put) - 1 := by linarith
    positivity
  linarith

/-- C200. In general the method raises `OverflowError` exactly when the discount factor overflows, or the exponent of the
CDS leg does (a negative spread and little debt); otherwise it computes what the model without overflow says. Here `e₁` is the
residual of the first equation at the point the solver returned, so that `a² - E + e₁` is the market value of debt (C199). -/
theorem C200_overflow (L : ℝ) (solve : Solver) (E vol r D T c a b e₁ e₂ : ℝ) (hD : 0 < D) (hT : 0 < T) (ha : a ≠ 0)
    (hb : b ≠ 0) (hx : solve (ccaFuncL L (ccaIn E vol r D T c)) (.fin E, .fin vol) = .ok (.fin a, .fin b))
    (hres : ccaFunc (ccaIn E vol r D T c) (.fin a, .fin b) = .ok (.fin e₁, .fin e₂)) :
    ((L < -r * T ∨ L < -(c / 10000) * (D / (a ^ 2 - E + e₁) - 1) * T) →
      ccaEstimateL L solve (ccaIn E vol r D T c) = .error .overflowError) ∧
    (-r * T ≤ L → -(c / 10000) * (D / (a ^ 2 - E + e₁) - 1) * T ≤ L →
      ccaEstimateL L solve (ccaIn E vol r D T c) = ccaEstimate solve (ccaIn E vol r D T c)) := by
  have hA : 0 < a ^ 2 := by positivity
  have hs : 0 < b ^ 2 * Real.sqrt T := mul_pos (by positivity) (Real.sqrt_pos.mpr hT)
  have hB : 0 < D * Real.exp (-r * T) := by positivity
  rw [ccaFunc_fin hD hT ha hb] at hres
  injection hres with hres
  rw [Prod.mk.injEq, XR.fin_inj, XR.fin_inj] at hres
  have hpar := bs_parity (b ^ 2 * Real.sqrt T) hA hB
  have hdebt : D * Real.exp (-r * T) - bs (D * Real.exp (-r * T)) (a ^ 2) (b ^ 2 * Real.sqrt T) = a ^ 2 - E + e₁ := by
    linarith [hres.1]
  have hE : ccaEstimateL L solve (ccaIn E vol r D T c) = ccaTailL L (ccaIn E vol r D T c) (.fin a, .fin b) := by
    have hx' : solve (ccaFuncL L (ccaIn E vol r D T c)) ((ccaIn E vol r D T c).equity, (ccaIn E vol r D T c).volatility)
        = .ok (.fin a, .fin b) := hx
    unfold ccaEstimateL
    rw [hx']
    rfl
  rw [hE]
  constructor
  · intro h
    by_cases hr : L < -r * T
    · unfold ccaTailL
      have hr' := mathExp_gt hr
      simp only [ccaIn, XR.fin_sq, XR.fin_div _ hD.ne', mathLog, mathSqrt, if_pos (div_pos hA hD), if_neg hT.not_gt,
        bind, Except.bind, XR.fin_neg, XR.fin_mul, hr']
    · rw [tail_eq hD hT ha hb (not_lt.mp hr), hdebt, if_pos (h.resolve_left hr)]
  · intro hr hc
    rw [func_eq hr] at hx
    rw [tail_eq hD hT ha hb hr, hdebt, if_neg (not_lt.mpr hc), cca_ok (i := ccaIn E vol r D T c) hx]

/-- C200. When the discount factor overflows every evaluation of the equations at a non-zero point raises `OverflowError`,
so a solver that evaluates them anywhere fails. -/
theorem C200_equations (L E vol r D T c a : ℝ) (y : XR) (hD : 0 < D) (hT : 0 < T) (ha : a ≠ 0) (h : L < -r * T) :
    ccaFuncL L (ccaIn E vol r D T c) (.fin a, y) = .error .overflowError := by
  have hA : 0 < a ^ 2 := by positivity
  have hr' := mathExp_gt h
  unfold ccaFuncL
  simp only [ccaIn, XR.fin_sq, XR.fin_div _ hD.ne', mathLog, mathSqrt, if_pos (div_pos hA hD), if_neg hT.not_gt,
    bind, Except.bind, XR.fin_neg, XR.fin_mul, hr']

/-! ### Concrete cases of the theorems above -/

/-- A solver that stops at a point which is no root. -/
example : ∃ e₁ e₂ : ℝ, ccaFunc (ccaIn 1 2 (1 / 20) 3 2 100) (.fin 2, .fin 1) = .ok (.fin e₁, .fin e₂) ∧
    0 < 2 ^ 2 - 1 + e₁ ∧ 2 ^ 2 - 1 + e₁ < 3 * Real.exp (-(1 / 20) * 2) := by
  have h := ccaFunc_fin (E := 1) (vol := 2) (r := 1 / 20) (D := 3) (T := 2) (c := 100) (a := 2) (b := 1) (by norm_num)
    (by norm_num) (by norm_num) (by norm_num)
  have h' := C199_accounting (fun _ _ => .ok (.fin 2, .fin 1)) 1 2 (1 / 20) 3 2 100 2 1 _ _ (by norm_num) (by norm_num)
    (by norm_num) (by norm_num) rfl h
  exact ⟨_, _, h, h'.1, h'.2.2.1⟩
example (L : ℝ) (hL : 0 ≤ L) := C200_no_overflow L hL (fun _ _ => .ok (.fin 2, .fin (-1))) 1 2 (1 / 20) 3 2 100 2 (-1)
  (by norm_num) (by norm_num) (by norm_num) (by norm_num) (by norm_num) (by norm_num) rfl
/-- A rate of minus 400 over two years. -/
example : ccaEstimateL 709 (fun _ _ => .ok (.fin 2, .fin 1)) (ccaIn 1 2 (-400) 3 2 100) = .error .overflowError := by
  have h := ccaFunc_fin (E := 1) (vol := 2) (r := -400) (D := 3) (T := 2) (c := 100) (a := 2) (b := 1) (by norm_num)
    (by norm_num) (by norm_num) (by norm_num)
  exact (C200_overflow 709 _ 1 2 (-400) 3 2 100 2 1 _ _ (by norm_num) (by norm_num) (by norm_num) (by norm_num) rfl
    h).1 (.inl (by norm_num))
example := C200_equations 709 1 2 (-400) 3 2 100 2 (.fin 1) (by norm_num) (by norm_num) (by norm_num) (by norm_num)

end
end Frds.Props

import Verif.Props.CcaSolution
import Verif.Props.Simulation

/-! C201: the equations of the standard Merton model in the simulation have exactly one solution. -/
set_option linter.unusedSimpArgs false

namespace Frds.Props
noncomputable section
open Frds Frds.Model Classical

namespace MertonUnique

/-- at admissible points the objective vanishes exactly at solutions of the two equations in ex-dividend terms -/
theorem root_system {A sig E D r d T sigE : ℝ} (hA : 0 < A) (hs : 0 < sig) (hE : 0 < E) (hD : 0 < D) (hT : 0 < T) :
    mertonSolution (.fin A, .fin sig) (.fin E) (.fin D) (.fin r) (.fin d) (.fin T) (.fin sigE) = (.fin 0, .fin 0) ↔
    ∃ u, Mills.eqn ((1 - Real.exp (-d * T)) / Real.exp (-d * T)) (E / (D * Real.exp (-r * T))) (sigE * Real.sqrt T) u = 0 ∧
      sig * Real.sqrt T = Mills.vol (E / (D * Real.exp (-r * T))) (sigE * Real.sqrt T) u ∧
      A * Real.exp (-d * T) = D * Real.exp (-r * T)
        * Real.exp (u * (sig * Real.sqrt T) + (sig * Real.sqrt T) ^ 2 / 2) := by
  have hT' : 0 < Real.sqrt T := Real.sqrt_pos.mpr hT
  have hv : 0 < sig * Real.sqrt T := mul_pos hs hT'
  have hp : 0 < Real.exp (-d * T) := Real.exp_pos _
  have hB : 0 < D * Real.exp (-r * T) := by positivity
  have hsq : Real.sqrt T * Real.sqrt T = T := Real.mul_self_sqrt hT.le
  rw [C90_root_iff hA hs hE hD hT, ← Mills.system_iff hE hB (mul_pos hA hp) hv]
  have hcall : bs (A * Real.exp (-d * T)) (D * Real.exp (-r * T)) (sig * Real.sqrt T)
      = Spec.callValue A D r T sig d := by
    have h2 := congrArg Prod.fst (C02_risk_neutral (r := r) (q := d) hA hD hT hs)
    rw [blsprice_eq hA hD hT hs] at h2
    exact XR.fin_inj.1 h2
  have hd1 : (Real.log (A / D) + (r - d + sig ^ 2 / 2) * T) / (sig * Real.sqrt T)
      = Real.log (A * Real.exp (-d * T) / (D * Real.exp (-r * T))) / (sig * Real.sqrt T) + sig * Real.sqrt T / 2 := by
    rw [Real.log_div hA.ne' hD.ne', Real.log_div (by positivity) (by positivity), Real.log_mul hA.ne' hp.ne',
      Real.log_mul hD.ne' (Real.exp_ne_zero _), Real.log_exp, Real.log_exp, eq_comm, div_add' _ _ _ hv.ne',
      div_left_inj' hv.ne']
    linear_combination (sig ^ 2 / 2) * hsq
  rw [← hcall, hd1]
  unfold bs
  generalize Φ (Real.log (A * Real.exp (-d * T) / (D * Real.exp (-r * T))) / (sig * Real.sqrt T)
    + sig * Real.sqrt T / 2) = P
  generalize Φ (Real.log (A * Real.exp (-d * T) / (D * Real.exp (-r * T))) / (sig * Real.sqrt T)
    - sig * Real.sqrt T / 2) = Q
  generalize Real.exp (-d * T) = p at *
  generalize D * Real.exp (-r * T) = B at *
  have e : A * p * (P + (1 - p) / p) = A * (p * P + (1 - p)) := by field_simp
  refine and_congr ?_ ?_
  · rw [e]
    constructor <;> intro h <;> linarith
  · rw [mul_right_comm (A * p), e]
    constructor
    · intro h
      linear_combination (-Real.sqrt T) * h
    · intro h
      apply mul_right_cancel₀ hT'.ne'
      linear_combination -h

/-- no root has a non-positive component -/
theorem root_pos {A sig E D r d T sigE : ℝ} (hE : 0 < E) (hD : 0 < D) (hT : 0 < T) (hs : 0 < sigE)
    (h : mertonSolution (.fin A, .fin sig) (.fin E) (.fin D) (.fin r) (.fin d) (.fin T) (.fin sigE) = (.fin 0, .fin 0)) :
    0 < A ∧ 0 < sig := by
  have hsig : 0 < sig := by
    by_contra hn
    rw [C90_no_penalty, max_eq_right (not_lt.mp hn)] at h
    have h2 := congrArg Prod.snd h
    unfold mertonPlain at h2
    simp only at h2
    generalize (_ * (XR.fin (max A 0) / XR.fin E) : XR) = y at h2
    by_cases hy : CcaSolution.Bad y
    · exact CcaSolution.Bad.sub (CcaSolution.Bad.mul (.inl hy)) _ _ h2
    · unfold CcaSolution.Bad at hy
      push Not at hy
      obtain ⟨a, rfl⟩ := hy
      rw [XR.fin_mul, XR.fin_sub, XR.fin_inj] at h2
      linarith
  refine ⟨?_, hsig⟩
  by_contra hn
  rw [C112_flat_below_zero (not_lt.mp hn) hsig hE hD hT, Prod.mk.injEq, XR.fin_inj] at h
  linarith [h.1]

end MertonUnique
open MertonUnique

/-- C201. For a positive equity value, equity volatility, debt and horizon, a dividend yield that is not negative and any
rate, `merton_solution` vanishes at exactly one point of the plane; both of its components are positive. -/
theorem C201_solution (E D r d T sigE : ℝ) (hE : 0 < E) (hD : 0 < D) (hd : 0 ≤ d) (hT : 0 < T) (hs : 0 < sigE) :
    ∃ A s : ℝ, 0 < A ∧ 0 < s ∧ ∀ A' s' : ℝ,
      mertonSolution (.fin A', .fin s') (.fin E) (.fin D) (.fin r) (.fin d) (.fin T) (.fin sigE) = (.fin 0, .fin 0) ↔
      A' = A ∧ s' = s := by
  have hT' : 0 < Real.sqrt T := Real.sqrt_pos.mpr hT
  have hp : 0 < Real.exp (-d * T) := Real.exp_pos _
  have hp1 : Real.exp (-d * T) ≤ 1 := by
    rw [Real.exp_le_one_iff]
    have := mul_nonneg hd hT.le
    linarith
  have hk : 0 ≤ (1 - Real.exp (-d * T)) / Real.exp (-d * T) := div_nonneg (by linarith) hp.le
  have hB : 0 < D * Real.exp (-r * T) := by positivity
  have he : 0 < E / (D * Real.exp (-r * T)) := div_pos hE hB
  have hw : 0 < sigE * Real.sqrt T := mul_pos hs hT'
  obtain ⟨u, hu⟩ := Mills.eqn_exists hk he hw
  have hv := Mills.vol_pos he hw u
  refine ⟨D * Real.exp (-r * T) * Real.exp (u * Mills.vol (E / (D * Real.exp (-r * T))) (sigE * Real.sqrt T) u
      + Mills.vol (E / (D * Real.exp (-r * T))) (sigE * Real.sqrt T) u ^ 2 / 2) / Real.exp (-d * T),
    Mills.vol (E / (D * Real.exp (-r * T))) (sigE * Real.sqrt T) u / Real.sqrt T, by positivity, by positivity, ?_⟩
  intro A' s'
  constructor
  · intro h
    obtain ⟨hA, hsp⟩ := root_pos hE hD hT hs h
    obtain ⟨u', hu', hv', hA'⟩ := (root_system hA hsp hE hD hT).mp h
    have e := Mills.eqn_unique hk he hw hu' hu
    subst e
    rw [← hv']
    refine ⟨?_, by field_simp⟩
    rw [← hA']
    field_simp
  · rintro ⟨rfl, rfl⟩
    rw [root_system (by positivity) (by positivity) hE hD hT]
    refine ⟨u, hu, by field_simp, ?_⟩
    rw [div_mul_cancel₀ _ hp.ne', div_mul_cancel₀ _ hT'.ne']

/-- C201. The standard Merton columns of the simulation do not depend on the root finder: two root finders that find a root
(with finite components) report the same asset value, volatility, default probability, spread and guarantee. -/
theorem C201_fit (solve2 solve2' : FSolve2) (E D r y H g sigE A s A' s' : ℝ) (hE : 0 < E) (hD : 0 < D) (hy : 0 ≤ y)
    (hH : 0 < H) (hs : 0 < sigE)
    (h : solve2 (fun b => mertonSolution b (.fin E) (.fin D) (.fin r) (.fin y) (.fin H) (.fin sigE))
      (.fin E + .fin D * XR.exp (-.fin r * .fin H), .fin sigE / 2) = (.fin A, .fin s))
    (h' : solve2' (fun b => mertonSolution b (.fin E) (.fin D) (.fin r) (.fin y) (.fin H) (.fin sigE))
      (.fin E + .fin D * XR.exp (-.fin r * .fin H), .fin sigE / 2) = (.fin A', .fin s'))
    (hr : mertonSolution (.fin A, .fin s) (.fin E) (.fin D) (.fin r) (.fin y) (.fin H) (.fin sigE) = (.fin 0, .fin 0))
    (hr' : mertonSolution (.fin A', .fin s') (.fin E) (.fin D) (.fin r) (.fin y) (.fin H) (.fin sigE) = (.fin 0, .fin 0)) :
    mertonFit solve2 (.fin E) (.fin sigE) (.fin D) (.fin r) (.fin y) (.fin H) (.fin g) =
      mertonFit solve2' (.fin E) (.fin sigE) (.fin D) (.fin r) (.fin y) (.fin H) (.fin g) := by
  obtain ⟨A0, s0, -, -, hall⟩ := C201_solution E D r y H sigE hE hD hy hH hs
  obtain ⟨rfl, rfl⟩ := (hall _ _).mp hr
  obtain ⟨rfl, rfl⟩ := (hall _ _).mp hr'
  unfold mertonFit
  simp only [h, h']

/-! ### Concrete cases of the theorems above -/

/-- The numbers in the test at the end of `merton_solution.py`. -/
example := C201_solution 0.011939293102641 0.7 0.01 0.002 5 0.669189689682770 (by norm_num) (by norm_num) (by norm_num)
  (by norm_num) (by norm_num)
/-- Two root finders, one of which ignores its starting point. -/
example : ∃ A s : ℝ, 0 < A ∧ 0 < s ∧
    mertonFit (fun _ _ => (.fin A, .fin s)) (.fin 0.1) (.fin 0.6) (.fin 0.7) (.fin 0.01) (.fin 0.002) (.fin 5) (.fin 0.5) =
    mertonFit (fun f x0 => if f x0 = (.fin 0, .fin 0) then x0 else (.fin A, .fin s)) (.fin 0.1) (.fin 0.6) (.fin 0.7)
      (.fin 0.01) (.fin 0.002) (.fin 5) (.fin 0.5) := by
  obtain ⟨A, s, hA, hs, hall⟩ := C201_solution 0.1 0.7 0.01 0.002 5 0.6 (by norm_num) (by norm_num) (by norm_num)
    (by norm_num) (by norm_num)
  have hx0 : (XR.fin 0.1 + .fin 0.7 * XR.exp (-.fin 0.01 * .fin 5), XR.fin 0.6 / 2)
      = (.fin (0.1 + 0.7 * Real.exp (-0.01 * 5)), .fin (0.6 / 2)) := by
    simp only [XR.fin_neg, XR.fin_mul, XR.fin_exp, XR.fin_add, XR.ofNat_def]
    rw [XR.fin_div _ (by norm_num)]
  refine ⟨A, s, hA, hs, ?_⟩
  by_cases h : mertonSolution (XR.fin 0.1 + .fin 0.7 * XR.exp (-.fin 0.01 * .fin 5), XR.fin 0.6 / 2) (.fin 0.1) (.fin 0.7)
      (.fin 0.01) (.fin 0.002) (.fin 5) (.fin 0.6) = (.fin 0, .fin 0)
  · refine C201_fit _ _ 0.1 0.7 0.01 0.002 5 0.5 0.6 A s _ _ (by norm_num) (by norm_num) (by norm_num) (by norm_num)
      (by norm_num) rfl ((if_pos h).trans hx0) ((hall _ _).mpr ⟨rfl, rfl⟩) (hx0 ▸ h)
  · refine C201_fit _ _ 0.1 0.7 0.01 0.002 5 0.5 0.6 A s A s (by norm_num) (by norm_num) (by norm_num) (by norm_num)
      (by norm_num) rfl (if_neg h) ((hall _ _).mpr ⟨rfl, rfl⟩) ((hall _ _).mpr ⟨rfl, rfl⟩)

end
end Frds.Props

import Verif.Model.Merton
import Verif.Lemmas.BlackScholes
import Verif.Props.OptionPrice

/-! Properties C88-C90, C110-C112: scalar functions of the modified Merton model. -/
set_option linter.unusedSimpArgs false
namespace Frds.Props
noncomputable section
open Frds Frds.Model Classical MeasureTheory Set Filter Topology

/-! ### C88 -/

/-- total idiosyncratic log-volatility -/
def idioVol (rho sig T : ℝ) : ℝ := sig * Real.sqrt T * Real.sqrt (1 - rho)

theorem idioVol_pos {rho sig T : ℝ} (hr : rho < 1) (hs : 0 < sig) (hT : 0 < T) : 0 < idioVol rho sig T := by
  unfold idioVol
  have h1 := Real.sqrt_pos.2 hT
  have h2 := Real.sqrt_pos.2 (by linarith : 0 < 1 - rho)
  positivity

theorem idioVol_sq {rho sig T : ℝ} (hr : rho < 1) (hT : 0 < T) :
    idioVol rho sig T ^ 2 = (1 - rho) * T * sig ^ 2 := by
  unfold idioVol
  rw [mul_pow, mul_pow, Real.sq_sqrt hT.le, Real.sq_sqrt (by linarith)]; ring

/-- the model in closed form: asset mean minus the Black call -/
theorem loanPayoff_eq {F f ival rho sig T : ℝ} (hF : 0 < F) (hr : rho < 1) (hs : 0 < sig) (hT : 0 < T) :
    loanPayoff (.fin F) (.fin f) (.fin ival) (.fin rho) (.fin sig) (.fin T)
      = .fin (Real.exp (f + ival + idioVol rho sig T ^ 2 / 2)
          - bs (Real.exp (f + ival + idioVol rho sig T ^ 2 / 2)) F (idioVol rho sig T)) := by
  have hv := idioVol_pos hr hs hT
  have hsq := idioVol_sq (sig := sig) hr hT
  have h5 : (0.5 : XR) = .fin (1 / 2) := by rw [XR.ofSci_def]; norm_num
  unfold loanPayoff
  simp only [XR.one_def, h5, XR.fin_sub, XR.fin_mul, XR.fin_sq, XR.fin_add, XR.fin_exp]
  rw [XR.fin_sqrt hT.le, XR.fin_sqrt (by linarith : 0 ≤ 1 - rho), XR.fin_log hF]
  simp only [XR.fin_sub, XR.fin_mul]
  rw [show sig * Real.sqrt T * Real.sqrt (1 - rho) = idioVol rho sig T from rfl, XR.fin_div _ hv.ne']
  simp only [XR.fin_sub, XR.fin_mul, XR.fin_neg, XR.fin_add, XR.ncdf_fin]
  have e : f + ival + 1 / 2 * (1 - rho) * T * sig ^ 2 = f + ival + idioVol rho sig T ^ 2 / 2 := by
    rw [hsq]; ring
  rw [e, bs, Real.log_div (Real.exp_ne_zero _) hF.ne', Real.log_exp]
  set s := idioVol rho sig T
  have e1 : (f + ival + s ^ 2 / 2 - Real.log F) / s + s / 2 = s - (Real.log F - f - ival) / s := by
    field_simp; ring
  have e2 : (f + ival + s ^ 2 / 2 - Real.log F) / s - s / 2 = -((Real.log F - f - ival) / s) := by
    field_simp; ring
  rw [e1, e2]
  congr 1; ring

theorem integrable_put (A B s : ℝ) (hA : 0 < A) :
    Integrable (fun z => max (B - A * Real.exp (s * z - s ^ 2 / 2)) 0) stdNormal := by
  refine Integrable.mono' (integrable_const (max B 0)) ?_ (Eventually.of_forall fun z => ?_)
  · exact ((continuous_const.sub (continuous_const.mul (Real.continuous_exp.comp
      ((continuous_const.mul continuous_id).sub continuous_const)))).max continuous_const).aestronglyMeasurable
  · rw [Real.norm_eq_abs, abs_of_nonneg (le_max_right _ _)]
    exact max_le_max (by have := mul_pos hA (Real.exp_pos (s * z - s ^ 2 / 2)); linarith) le_rfl

/-- C88: `loan_payoff` is the expected repayment `E[min(A, F)]` when the borrower's asset value is
lognormal, `A = exp(f + ival + s Z)` with `Z` standard normal and `s = sig·√T·√(1-rho)`. -/
theorem C88_expected_repayment {F f ival rho sig T : ℝ} (hF : 0 < F) (hr : rho < 1) (hs : 0 < sig) (hT : 0 < T) :
    loanPayoff (.fin F) (.fin f) (.fin ival) (.fin rho) (.fin sig) (.fin T)
      = .fin (∫ z, min (Real.exp (f + ival + sig * Real.sqrt T * Real.sqrt (1 - rho) * z)) F ∂stdNormal) := by
  rw [loanPayoff_eq hF hr hs hT]
  have hv := idioVol_pos hr hs hT
  set s := idioVol rho sig T with hsd
  set A := Real.exp (f + ival + s ^ 2 / 2) with hA
  have hApos : 0 < A := Real.exp_pos _
  congr 1
  have hmin : (fun z => min (Real.exp (f + ival + sig * Real.sqrt T * Real.sqrt (1 - rho) * z)) F)
      = fun z => F - max (F - A * Real.exp (s * z - s ^ 2 / 2)) 0 := by
    funext z
    have : A * Real.exp (s * z - s ^ 2 / 2) = Real.exp (f + ival + s * z) := by
      rw [hA, ← Real.exp_add]; congr 1; ring
    rw [this, show sig * Real.sqrt T * Real.sqrt (1 - rho) = s from rfl]
    rcases le_total (Real.exp (f + ival + s * z)) F with h | h
    · rw [min_eq_left h, max_eq_left (by linarith)]; ring
    · rw [min_eq_right h, max_eq_right (by linarith)]; ring
  rw [hmin, integral_sub (integrable_const _) (integrable_put A F s hApos), bs_expectation_put hApos hF hv,
    integral_const]
  have hp := bs_parity s hApos hF
  simp only [probReal_univ, smul_eq_mul, one_mul]
  linarith

/-- C88: the payoff is positive, below the face value and below the expected asset value. -/
theorem C88_bounds {F f ival rho sig T : ℝ} (hF : 0 < F) (hr : rho < 1) (hs : 0 < sig) (hT : 0 < T) :
    ∃ v : ℝ, loanPayoff (.fin F) (.fin f) (.fin ival) (.fin rho) (.fin sig) (.fin T) = .fin v
      ∧ 0 < v ∧ v < F ∧ v < Real.exp (f + ival + (1 - rho) * T * sig ^ 2 / 2) := by
  refine ⟨_, loanPayoff_eq hF hr hs hT, ?_, ?_, ?_⟩
  · have := bs_lt (s := idioVol rho sig T) (Real.exp_pos (f + ival + idioVol rho sig T ^ 2 / 2)) hF
    linarith
  · have := bs_gt (Real.exp_pos (f + ival + idioVol rho sig T ^ 2 / 2)) hF (idioVol_pos hr hs hT)
    linarith
  · have := bs_pos (Real.exp_pos (f + ival + idioVol rho sig T ^ 2 / 2)) hF (idioVol_pos hr hs hT)
    rw [← idioVol_sq hr hT]
    linarith

/-- C88: the payoff is strictly increasing in the face value and in the factor. -/
theorem C88_monotone {F F' f f' ival rho sig T : ℝ} (hF : 0 < F) (hFF : F < F') (hff : f < f') (hr : rho < 1)
    (hs : 0 < sig) (hT : 0 < T) :
    ∃ v w u : ℝ, loanPayoff (.fin F) (.fin f) (.fin ival) (.fin rho) (.fin sig) (.fin T) = .fin v
      ∧ loanPayoff (.fin F') (.fin f) (.fin ival) (.fin rho) (.fin sig) (.fin T) = .fin w
      ∧ loanPayoff (.fin F) (.fin f') (.fin ival) (.fin rho) (.fin sig) (.fin T) = .fin u
      ∧ v < w ∧ v < u := by
  have hv := idioVol_pos hr hs hT
  refine ⟨_, _, _, loanPayoff_eq hF hr hs hT, loanPayoff_eq (hF.trans hFF) hr hs hT, loanPayoff_eq hF hr hs hT, ?_, ?_⟩
  · have := bs_strictAntiOn_B (Real.exp_pos (f + ival + idioVol rho sig T ^ 2 / 2)) hv.ne' hF (hF.trans hFF) hFF
    simp only at this
    linarith
  · have := bs_sub_strictAntiOn_A hF hv.ne' (Real.exp_pos (f + ival + idioVol rho sig T ^ 2 / 2))
      (Real.exp_pos (f' + ival + idioVol rho sig T ^ 2 / 2)) (Real.exp_lt_exp.2 (by linarith))
    simp only at this
    linarith

example := C88_bounds (F := 1) (f := 0) (ival := 0.4) (rho := 0.5) (sig := 0.2) (T := 10)
  (by norm_num) (by norm_num) (by norm_num) (by norm_num)
example := C88_monotone (F := 1) (F' := 2) (f := 0) (f' := 1) (ival := 0.4) (rho := 0.5) (sig := 0.2) (T := 10)
  (by norm_num) (by norm_num) (by norm_num) (by norm_num) (by norm_num) (by norm_num)

/-- C110: without idiosyncratic risk (`rho = 1`) the payoff is exactly `min(asset, face)`, except at
equality, where the computation divides zero by zero and returns NaN. -/
theorem C110_perfect_correlation {F f ival sig T : ℝ} (hF : 0 < F) (hT : 0 ≤ T) :
    loanPayoff (.fin F) (.fin f) (.fin ival) (.fin 1) (.fin sig) (.fin T)
      = if Real.exp (f + ival) = F then .nan else .fin (min (Real.exp (f + ival)) F) := by
  have h5 : (0.5 : XR) = .fin (1 / 2) := by rw [XR.ofSci_def]; norm_num
  unfold loanPayoff
  simp only [XR.one_def, h5, XR.fin_sub, XR.fin_mul, XR.fin_sq, XR.fin_add, XR.fin_exp]
  rw [XR.fin_sqrt hT, XR.fin_sqrt (by simp : (0 : ℝ) ≤ 1 - 1), XR.fin_log hF]
  simp only [sub_self, Real.sqrt_zero, mul_zero, zero_mul, add_zero, XR.fin_sub, XR.fin_mul]
  rw [XR.fin_div_zero]
  rcases lt_trichotomy (Real.exp (f + ival)) F with h | h | h
  · have : f + ival < Real.log F := (Real.lt_log_iff_exp_lt hF).2 h
    rw [XR.infSign_pos (by linarith), if_neg h.ne, min_eq_left h.le, show XR.fin 0 - XR.pinf = .ninf from rfl,
      show -XR.pinf = .ninf from rfl]
    simp
  · have : Real.log F = f + ival := by rw [← h, Real.log_exp]
    rw [this, if_pos h, show f + ival - f - ival = 0 by ring, XR.infSign_zero]
    simp
  · have : Real.log F < f + ival := (Real.log_lt_iff_lt_exp hF).2 h
    rw [XR.infSign_neg (by linarith), if_neg h.ne', min_eq_right h.le, show XR.fin 0 - XR.ninf = .pinf from rfl,
      show -XR.ninf = .pinf from rfl]
    simp

/-! ### C89 -/

/-- value of a loan of face `F` as computed: discounted face minus the put -/
def loanVal (F ival sig T r d : ℝ) : ℝ :=
  F * Real.exp (-r * T) - bs (F * Real.exp (-r * T)) (Real.exp ival * Real.exp (-d * T)) (sig * Real.sqrt T)

theorem loanVal_pos {F ival sig T r d : ℝ} (hF : 0 < F) : 0 < loanVal F ival sig T r d := by
  have := bs_lt (s := sig * Real.sqrt T) (by positivity : 0 < F * Real.exp (-r * T))
    (by positivity : 0 < Real.exp ival * Real.exp (-d * T))
  unfold loanVal; linarith

theorem findFace_eq {mu F ival sig T r d : ℝ} (hF : 0 < F) (hs : 0 < sig) (hT : 0 < T) :
    findFaceValueIndiv (.fin mu) (.fin F) (.fin ival) (.fin sig) (.fin T) (.fin r) (.fin d)
      = .fin (mu - 1 / T * Real.log (F / loanVal F ival sig T r d)) := by
  have hL := loanVal_pos (ival := ival) (sig := sig) (T := T) (r := r) (d := d) hF
  unfold findFaceValueIndiv
  simp only [XR.fin_exp]
  rw [blsprice_eq (Real.exp_pos _) hF hT hs]
  simp only [XR.fin_neg, XR.fin_mul, XR.fin_exp, XR.fin_sub]
  rw [show F * Real.exp (-r * T) - bs (F * Real.exp (-r * T)) (Real.exp ival * Real.exp (-d * T)) (sig * Real.sqrt T)
    = loanVal F ival sig T r d from rfl, XR.fin_div _ hL.ne', XR.fin_log (div_pos hF hL), XR.one_def,
    XR.fin_div _ hT.ne']
  rfl

/-- C89: the objective is zero exactly when `mu` is the yield at which the face value discounts to the
risk-neutral value of the loan: `F e^{-mu T} = F e^{-rT} - put`. -/
theorem C89_root_iff {mu F ival sig T r d : ℝ} (hF : 0 < F) (hs : 0 < sig) (hT : 0 < T) :
    findFaceValueIndiv (.fin mu) (.fin F) (.fin ival) (.fin sig) (.fin T) (.fin r) (.fin d) = .fin 0
      ↔ F * Real.exp (-mu * T) = F * Real.exp (-r * T) - Spec.putValue (Real.exp ival) F r T sig d := by
  have hput : Spec.putValue (Real.exp ival) F r T sig d
      = bs (F * Real.exp (-r * T)) (Real.exp ival * Real.exp (-d * T)) (sig * Real.sqrt T) := by
    have h2 := congrArg Prod.snd (C02_risk_neutral (r := r) (q := d) (Real.exp_pos ival) hF hT hs)
    rw [blsprice_eq (Real.exp_pos _) hF hT hs] at h2
    exact (XR.fin_inj.1 h2).symm
  have hL := loanVal_pos (ival := ival) (sig := sig) (T := T) (r := r) (d := d) hF
  rw [findFace_eq hF hs hT, XR.fin_inj, hput]
  show _ ↔ F * Real.exp (-mu * T) = loanVal F ival sig T r d
  rw [sub_eq_zero, Real.log_div hF.ne' hL.ne']
  constructor
  · intro h
    have : -mu * T = Real.log (loanVal F ival sig T r d) - Real.log F := by
      rw [h]; field_simp; ring
    rw [this, Real.exp_sub, Real.exp_log hL, Real.exp_log hF]; field_simp
  · intro h
    rw [← h, Real.log_mul hF.ne' (Real.exp_ne_zero _), Real.log_exp]; field_simp; ring

/-- C89: the implied yield always exceeds the risk-free rate. -/
theorem C89_yield_above_riskfree {mu F ival sig T r d : ℝ} (hF : 0 < F) (hs : 0 < sig) (hT : 0 < T)
    (h : findFaceValueIndiv (.fin mu) (.fin F) (.fin ival) (.fin sig) (.fin T) (.fin r) (.fin d) = .fin 0) :
    r < mu := by
  rw [findFace_eq hF hs hT, XR.fin_inj, sub_eq_zero] at h
  have hv : 0 < sig * Real.sqrt T := mul_pos hs (Real.sqrt_pos.2 hT)
  have hL := loanVal_pos (ival := ival) (sig := sig) (T := T) (r := r) (d := d) hF
  have hlt : loanVal F ival sig T r d < F * Real.exp (-r * T) := by
    have := bs_pos (by positivity : 0 < F * Real.exp (-r * T))
      (by positivity : 0 < Real.exp ival * Real.exp (-d * T)) hv
    unfold loanVal; linarith
  have hlog := Real.log_lt_log hL hlt
  rw [Real.log_mul hF.ne' (Real.exp_ne_zero _), Real.log_exp] at hlog
  rw [h, Real.log_div hF.ne' hL.ne', one_div, ← div_eq_inv_mul, lt_div_iff₀ hT]
  linarith

/-- C111: the promised yield that `mod_merton_computation` solves for. With face `bookF·e^{mu T}` the
objective vanishes for at most one `mu`; it vanishes for some `mu` exactly when the cash lent is below
the present value of the collateral net of depreciation, `bookF < e^{ival - dT}` (that is
`ltv < e^{-dT}`). -/
theorem C111_promised_yield {bookF ival sig T r d : ℝ} (hB : 0 < bookF) (hs : 0 < sig) (hT : 0 < T) :
    ((∃ mu : ℝ, findFaceValueIndiv (.fin mu) (.fin (bookF * Real.exp (mu * T))) (.fin ival) (.fin sig) (.fin T)
        (.fin r) (.fin d) = .fin 0) ↔ bookF < Real.exp (ival - d * T)) ∧
    ∀ mu mu' : ℝ,
      findFaceValueIndiv (.fin mu) (.fin (bookF * Real.exp (mu * T))) (.fin ival) (.fin sig) (.fin T)
        (.fin r) (.fin d) = .fin 0 →
      findFaceValueIndiv (.fin mu') (.fin (bookF * Real.exp (mu' * T))) (.fin ival) (.fin sig) (.fin T)
        (.fin r) (.fin d) = .fin 0 → mu = mu' := by
  have hv : 0 < sig * Real.sqrt T := mul_pos hs (Real.sqrt_pos.2 hT)
  set A : ℝ := Real.exp ival * Real.exp (-d * T) with hA
  have hApos : 0 < A := by positivity
  have hAe : A = Real.exp (ival - d * T) := by rw [hA, ← Real.exp_add]; congr 1; ring
  -- the value of the loan is the collateral minus the borrower's call
  have hval : ∀ F : ℝ, 0 < F → loanVal F ival sig T r d = A - bs A (F * Real.exp (-r * T)) (sig * Real.sqrt T) := by
    intro F hF
    have := bs_parity (sig * Real.sqrt T) hApos (by positivity : 0 < F * Real.exp (-r * T))
    unfold loanVal
    linarith
  have hroot : ∀ mu : ℝ, findFaceValueIndiv (.fin mu) (.fin (bookF * Real.exp (mu * T))) (.fin ival) (.fin sig)
      (.fin T) (.fin r) (.fin d) = .fin 0 ↔
      A - bs A (bookF * Real.exp (mu * T) * Real.exp (-r * T)) (sig * Real.sqrt T) = bookF := by
    intro mu
    have hF : 0 < bookF * Real.exp (mu * T) := by positivity
    have hL := loanVal_pos (ival := ival) (sig := sig) (T := T) (r := r) (d := d) hF
    rw [findFace_eq hF hs hT, XR.fin_inj, ← hval _ hF, sub_eq_zero, Real.log_div hF.ne' hL.ne',
      Real.log_mul hB.ne' (Real.exp_ne_zero _), Real.log_exp]
    constructor
    · intro h
      have : Real.log (loanVal (bookF * Real.exp (mu * T)) ival sig T r d) = Real.log bookF := by
        have h' : mu * T = Real.log bookF + mu * T - Real.log (loanVal (bookF * Real.exp (mu * T)) ival sig T r d) := by
          nth_rewrite 1 [h]; field_simp
        linarith
      exact Real.log_injOn_pos hL hB this
    · intro h
      rw [h]; field_simp; ring
  have hanti := bs_strictAntiOn_B hApos hv.ne'
  refine ⟨⟨?_, ?_⟩, ?_⟩
  · rintro ⟨mu, h⟩
    rw [hroot] at h
    have := bs_pos hApos (by positivity : 0 < bookF * Real.exp (mu * T) * Real.exp (-r * T)) hv
    rw [← hAe]; linarith
  · intro h
    rw [← hAe] at h
    -- intermediate value theorem in `mu`
    let g : ℝ → ℝ := fun mu => A - bs A (bookF * Real.exp (mu * T) * Real.exp (-r * T)) (sig * Real.sqrt T)
    have hcont : Continuous g := by
      apply continuous_const.sub
      unfold bs
      have hb : Continuous fun mu : ℝ => bookF * Real.exp (mu * T) * Real.exp (-r * T) := by fun_prop
      have hl : Continuous fun mu : ℝ => Real.log (A / (bookF * Real.exp (mu * T) * Real.exp (-r * T))) := by
        apply Continuous.log
        · exact continuous_const.div hb (fun mu => by positivity)
        · intro mu; positivity
      exact (continuous_const.mul (Φ_continuous.comp ((hl.div_const _).add continuous_const))).sub
        (hb.mul (Φ_continuous.comp ((hl.div_const _).sub continuous_const)))
    have hlow : ∃ mu, g mu ≤ bookF := by
      refine ⟨r, ?_⟩
      have := bs_gt hApos (by positivity : 0 < bookF * Real.exp (r * T) * Real.exp (-r * T)) hv
      show A - bs A (bookF * Real.exp (r * T) * Real.exp (-r * T)) _ ≤ bookF
      have e : bookF * Real.exp (r * T) * Real.exp (-r * T) = bookF := by
        rw [mul_assoc, ← Real.exp_add]; simp
      rw [e] at this ⊢
      linarith
    have hhigh : ∃ mu, bookF ≤ g mu := by
      have ht : Tendsto (fun mu : ℝ => Real.log (A / (bookF * Real.exp (mu * T) * Real.exp (-r * T)))
          / (sig * Real.sqrt T) + sig * Real.sqrt T / 2) atTop atBot := by
        have e : (fun mu : ℝ => Real.log (A / (bookF * Real.exp (mu * T) * Real.exp (-r * T)))
            / (sig * Real.sqrt T) + sig * Real.sqrt T / 2)
          = fun mu => (-(T / (sig * Real.sqrt T))) * mu
            + ((Real.log A - Real.log bookF + r * T) / (sig * Real.sqrt T) + sig * Real.sqrt T / 2) := by
          funext mu
          rw [Real.log_div hApos.ne' (by positivity),
            Real.log_mul (x := bookF * Real.exp (mu * T)) (by positivity) (Real.exp_ne_zero _),
            Real.log_mul (x := bookF) hB.ne' (Real.exp_ne_zero _), Real.log_exp, Real.log_exp]
          field_simp; ring
        rw [e]
        apply tendsto_atBot_add_const_right
        exact (tendsto_id).const_mul_atTop_of_neg (neg_lt_zero.2 (div_pos hT hv))
      have h2 := Φ_tendsto_atBot.comp ht
      have h3 : ∀ᶠ mu in atTop, Φ (Real.log (A / (bookF * Real.exp (mu * T) * Real.exp (-r * T)))
          / (sig * Real.sqrt T) + sig * Real.sqrt T / 2) < (A - bookF) / A :=
        h2.eventually_lt_const (div_pos (by linarith) hApos)
      obtain ⟨mu, hmu⟩ := h3.exists
      refine ⟨mu, ?_⟩
      rw [lt_div_iff₀ hApos] at hmu
      show bookF ≤ A - bs A _ _
      unfold bs
      have := mul_pos (by positivity : 0 < bookF * Real.exp (mu * T) * Real.exp (-r * T))
        (Φ_pos (Real.log (A / (bookF * Real.exp (mu * T) * Real.exp (-r * T))) / (sig * Real.sqrt T)
          - sig * Real.sqrt T / 2))
      linarith
    obtain ⟨mu, hmu⟩ := mem_range_of_exists_le_of_exists_ge hcont hlow hhigh
    exact ⟨mu, (hroot mu).2 hmu⟩
  · intro mu mu' h h'
    rw [hroot] at h h'
    have hb : bs A (bookF * Real.exp (mu * T) * Real.exp (-r * T)) (sig * Real.sqrt T)
        = bs A (bookF * Real.exp (mu' * T) * Real.exp (-r * T)) (sig * Real.sqrt T) := by linarith
    have := hanti.injOn (Set.mem_Ioi.2 (by positivity)) (Set.mem_Ioi.2 (by positivity)) hb
    have h1 : Real.exp (mu * T) = Real.exp (mu' * T) := by
      have e1 := mul_right_cancel₀ (Real.exp_ne_zero _) this
      exact mul_left_cancel₀ hB.ne' e1
    have h2 := Real.exp_injective h1
    exact mul_right_cancel₀ hT.ne' h2

example : (0.66 : ℝ) < Real.exp (0 - 0.005 * 10) := by
  have : (1 : ℝ) + (0 - 0.005 * 10) ≤ Real.exp (0 - 0.005 * 10) := by
    have := Real.add_one_le_exp (0 - 0.005 * 10 : ℝ); linarith
  linarith

/-! ### C90 -/

/-- the objective without any penalty term -/
def mertonPlain (A sig E D r d T sigE : XR) : XR × XR :=
  (E - ((blsprice A D r T sig d).1 + A * (1 - XR.exp (-d * T))),
   sigE - (XR.exp (-d * T) * XR.ncdf ((XR.log A - XR.log D + (r - d + XR.sq sig / 2) * T) / (sig * XR.sqrt T))
      + (1 - XR.exp (-d * T))) * (A / E) * sig)

/-- C90: the penalty never acts. For all real `A`, `sig` the objective equals the un-penalised one at
the clamped point `(max A 0, max sig 0)`. -/
theorem C90_no_penalty (A sig : ℝ) (E D r d T sigE : XR) :
    mertonSolution (.fin A, .fin sig) E D r d T sigE
      = mertonPlain (.fin (max A 0)) (.fin (max sig 0)) E D r d T sigE := by
  have hc : ∀ y : ℝ, (if XR.fin y < 0 then (0 : XR) else .fin y) = .fin (max y 0) := by
    intro y
    rw [XR.zero_def, XR.fin_lt]
    split_ifs with h
    · rw [max_eq_right h.le]
    · rw [max_eq_left (not_lt.1 h)]
  have hp : ∀ y : ℝ, (if XR.fin y < 0 then (9999999 : XR) else 0) * XR.sq (.fin (max y 0)) = .fin 0 := by
    intro y
    rw [XR.zero_def, XR.fin_lt, XR.fin_sq]
    split_ifs with h
    · rw [max_eq_right h.le, XR.ofNat_def, XR.fin_mul]; simp
    · rw [XR.fin_mul, zero_mul]
  have h0 : ∀ y : XR, y + (XR.fin 0 + XR.fin 0) = y := by
    intro y; rw [XR.fin_add, add_zero]; exact add_zero y
  unfold mertonSolution mertonPlain
  simp only [hc, hp, h0]

/-- C90: at admissible points the objective vanishes exactly at solutions of the two Merton equations:
equity is the call plus the present value of payouts, and equity volatility is asset volatility times
the leverage-adjusted delta. -/
theorem C90_root_iff {A sig E D r d T sigE : ℝ} (hA : 0 < A) (hs : 0 < sig) (hE : 0 < E) (hD : 0 < D) (hT : 0 < T) :
    mertonSolution (.fin A, .fin sig) (.fin E) (.fin D) (.fin r) (.fin d) (.fin T) (.fin sigE) = (.fin 0, .fin 0)
      ↔ E = Spec.callValue A D r T sig d + A * (1 - Real.exp (-d * T))
        ∧ sigE * E = (Real.exp (-d * T)
            * Φ ((Real.log (A / D) + (r - d + sig ^ 2 / 2) * T) / (sig * Real.sqrt T))
            + (1 - Real.exp (-d * T))) * A * sig := by
  have hv : 0 < sig * Real.sqrt T := mul_pos hs (Real.sqrt_pos.2 hT)
  have hcall : bs (A * Real.exp (-d * T)) (D * Real.exp (-r * T)) (sig * Real.sqrt T)
      = Spec.callValue A D r T sig d := by
    have h2 := congrArg Prod.fst (C02_risk_neutral (r := r) (q := d) hA hD hT hs)
    rw [blsprice_eq hA hD hT hs] at h2
    exact XR.fin_inj.1 h2
  rw [C90_no_penalty, max_eq_left hA.le, max_eq_left hs.le]
  unfold mertonPlain
  rw [blsprice_eq hA hD hT hs, hcall, XR.fin_log hA, XR.fin_log hD, XR.fin_sq, XR.ofNat_def,
    XR.fin_div _ (by norm_num : (OfNat.ofNat 2 : ℝ) ≠ 0), XR.fin_sqrt hT.le, XR.one_def, XR.fin_div _ hE.ne']
  simp only [XR.fin_sub, XR.fin_add, XR.fin_mul, XR.fin_neg, XR.fin_exp]
  rw [XR.fin_div _ hv.ne', XR.ncdf_fin]
  simp only [XR.fin_sub, XR.fin_add, XR.fin_mul, Prod.mk.injEq, XR.fin_inj]
  rw [Real.log_div hA.ne' hD.ne', sub_eq_zero, sub_eq_zero]
  refine and_congr Iff.rfl ?_
  have e : ∀ X : ℝ, sigE = X * (A / E) * sig ↔ sigE * E = X * A * sig := by
    intro X
    rw [show X * (A / E) * sig = X * A * sig / E by ring, eq_div_iff hE.ne']
  exact e _

/-- C112: for every non-positive asset value the objective is the constant `(E, sigE)`: the search gets
no slope there, because the penalty meant to provide it is multiplied by the clamped zero. -/
theorem C112_flat_below_zero {A sig E D r d T sigE : ℝ} (hA : A ≤ 0) (hs : 0 < sig) (hE : 0 < E) (hD : 0 < D)
    (hT : 0 < T) :
    mertonSolution (.fin A, .fin sig) (.fin E) (.fin D) (.fin r) (.fin d) (.fin T) (.fin sigE)
      = (.fin E, .fin sigE) := by
  have hv : 0 < sig * Real.sqrt T := mul_pos hs (Real.sqrt_pos.2 hT)
  rw [C90_no_penalty, max_eq_right hA, max_eq_left hs.le]
  unfold mertonPlain
  rw [C06_S_zero hD hT hs, XR.log_zero, XR.fin_log hD, XR.fin_sq, XR.ofNat_def,
    XR.fin_div _ (by norm_num : (OfNat.ofNat 2 : ℝ) ≠ 0), XR.fin_sqrt hT.le, XR.one_def, XR.fin_div _ hE.ne']
  simp only [XR.fin_sub, XR.fin_add, XR.fin_mul, XR.fin_neg, XR.fin_exp]
  have h1 : XR.ninf - XR.fin (Real.log D) = .ninf := rfl
  have h2 : XR.ninf / XR.fin (sig * Real.sqrt T) = XR.ninf := by
    show XR.div _ _ = _
    simp [XR.div, not_lt.mpr hv.le]
  rw [h1, XR.ninf_add_fin, h2, XR.ncdf_ninf]
  simp only [XR.fin_sub, XR.fin_add, XR.fin_mul]
  simp

example := C112_flat_below_zero (A := -1) (sig := 0.2) (E := 0.1) (D := 0.7) (r := 0.01) (d := 0.002) (T := 5)
  (sigE := 0.6) (by norm_num) (by norm_num) (by norm_num) (by norm_num) (by norm_num)

/-! ### Concrete cases of the theorems above -/

example := C88_expected_repayment (F := 0.8) (f := 0.1) (ival := 0) (rho := 0.5) (sig := 0.2) (T := 10) (by norm_num) (by norm_num)
  (by norm_num) (by norm_num)
/-- Fully correlated borrowers: the collateral is worth `1`, the face value is `2`. -/
example : loanPayoff (.fin 2) (.fin 0) (.fin 0) (.fin 1) (.fin 0.2) (.fin 10) = .fin 1 := by
  rw [C110_perfect_correlation (by norm_num) (by norm_num)]
  norm_num
example := C89_root_iff (mu := 0.03) (F := 0.8) (ival := 0) (sig := 0.2) (T := 10) (r := 0.01) (d := 0.005) (by norm_num)
  (by norm_num) (by norm_num)
/-- A loan of `0.66` against collateral worth `1`: a promised yield exists, and it is above the riskless rate. -/
example : ∃ mu : ℝ, findFaceValueIndiv (.fin mu) (.fin (0.66 * Real.exp (mu * 10))) (.fin 0) (.fin 0.2) (.fin 10) (.fin 0.01)
    (.fin 0.005) = .fin 0 ∧ 0.01 < mu := by
  obtain ⟨mu, h⟩ := (C111_promised_yield (bookF := 0.66) (ival := 0) (sig := 0.2) (T := 10) (r := 0.01) (d := 0.005)
    (by norm_num) (by norm_num) (by norm_num)).1.2 (by
      have := Real.add_one_le_exp ((0 : ℝ) - 0.005 * 10)
      linarith)
  exact ⟨mu, h, C89_yield_above_riskfree (by positivity) (by norm_num) (by norm_num) h⟩

end
end Frds.Props

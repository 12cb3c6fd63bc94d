import Verif.Lemmas.BlackScholes

/-! Properties C01-C06: `blsprice`. -/
namespace Frds.Props
noncomputable section
open Frds Frds.Model

/-- C01. Put-call parity. -/
theorem C01_put_call_parity {S K r T σ q : ℝ} (hS : 0 < S) (hK : 0 < K) (hT : 0 < T)
    (hσ : 0 < σ) :
    ∃ call put : ℝ, blsprice (.fin S) (.fin K) (.fin r) (.fin T) (.fin σ) (.fin q)
        = (.fin call, .fin put) ∧
      call - put = S * Real.exp (-q * T) - K * Real.exp (-r * T) :=
  ⟨_, _, blsprice_eq hS hK hT hσ, bs_parity _ (by positivity) (by positivity)⟩

example : ∃ call put : ℝ, blsprice (.fin 100) (.fin 95) (.fin 0.1) (.fin 0.25) (.fin 0.5) (.fin 0)
        = (.fin call, .fin put) ∧
      call - put = 100 * Real.exp (-0 * 0.25) - 95 * Real.exp (-0.1 * 0.25) :=
  C01_put_call_parity (by norm_num) (by norm_num) (by norm_num) (by norm_num)

/-- C02. Both prices are the discounted risk-neutral expected payoffs. -/
theorem C02_risk_neutral {S K r T σ q : ℝ} (hS : 0 < S) (hK : 0 < K) (hT : 0 < T)
    (hσ : 0 < σ) :
    blsprice (.fin S) (.fin K) (.fin r) (.fin T) (.fin σ) (.fin q)
      = (.fin (Spec.callValue S K r T σ q), .fin (Spec.putValue S K r T σ q)) := by
  have hs : 0 < σ * Real.sqrt T := mul_pos hσ (Real.sqrt_pos.mpr hT)
  have hsq : Real.sqrt T ^ 2 = T := Real.sq_sqrt hT.le
  have key : ∀ z, Spec.terminalPrice S r T σ q z
      = (S * Real.exp ((r - q) * T)) *
        Real.exp (σ * Real.sqrt T * z - (σ * Real.sqrt T) ^ 2 / 2) := by
    intro z
    rw [Spec.terminalPrice, mul_assoc S, ← Real.exp_add, mul_pow, hsq]
    congr 2; ring
  have hhom : S * Real.exp (-q * T) = Real.exp (-r * T) * (S * Real.exp ((r - q) * T)) := by
    rw [mul_left_comm, ← Real.exp_add]; congr 2; ring
  rw [blsprice_eq hS hK hT hσ, Spec.callValue, Spec.putValue]
  simp only [key]
  rw [bs_expectation (by positivity) hK hs, bs_expectation_put (by positivity) hK hs,
    ← bs_homog _ (Real.exp_pos _), ← bs_homog _ (Real.exp_pos _), hhom,
    mul_comm K]

example : (blsprice (.fin 100) (.fin 95) (.fin 0.1) (.fin 0.25) (.fin 0.5) (.fin 0)).1
    = .fin (Spec.callValue 100 95 0.1 0.25 0.5 0) := by
  rw [C02_risk_neutral (by norm_num) (by norm_num) (by norm_num) (by norm_num)]

/-- C03. No-arbitrage bounds. -/
theorem C03_bounds {S K r T σ q : ℝ} (hS : 0 < S) (hK : 0 < K) (hT : 0 < T) (hσ : 0 < σ) :
    ∃ call put : ℝ, blsprice (.fin S) (.fin K) (.fin r) (.fin T) (.fin σ) (.fin q)
        = (.fin call, .fin put) ∧
      max 0 (S * Real.exp (-q * T) - K * Real.exp (-r * T)) < call ∧
      call < S * Real.exp (-q * T) ∧
      max 0 (K * Real.exp (-r * T) - S * Real.exp (-q * T)) < put ∧
      put < K * Real.exp (-r * T) := by
  have hs : 0 < σ * Real.sqrt T := mul_pos hσ (Real.sqrt_pos.mpr hT)
  have hA : 0 < S * Real.exp (-q * T) := by positivity
  have hB : 0 < K * Real.exp (-r * T) := by positivity
  exact ⟨_, _, blsprice_eq hS hK hT hσ, max_lt (bs_pos hA hB hs) (bs_gt hA hB hs),
    bs_lt hA hB, max_lt (bs_pos hB hA hs) (bs_gt hB hA hs), bs_lt hB hA⟩

example : ∃ call put : ℝ, blsprice (.fin 100) (.fin 95) (.fin 0.1) (.fin 0.25) (.fin 0.5) (.fin 0)
        = (.fin call, .fin put) ∧ 0 < call ∧ 0 < put := by
  obtain ⟨c, p, h, h1, _, h3, _⟩ := C03_bounds (S := 100) (K := 95) (r := 0.1) (T := 0.25)
    (σ := 0.5) (q := 0) (by norm_num) (by norm_num) (by norm_num) (by norm_num)
  exact ⟨c, p, h, lt_of_le_of_lt (le_max_left _ _) h1, lt_of_le_of_lt (le_max_left _ _) h3⟩

/-- C04. Both prices strictly increase with volatility. -/
theorem C04_vega_pos {S K r T σ₁ σ₂ q : ℝ} (hS : 0 < S) (hK : 0 < K) (hT : 0 < T)
    (h1 : 0 < σ₁) (h12 : σ₁ < σ₂) :
    (blsprice (.fin S) (.fin K) (.fin r) (.fin T) (.fin σ₁) (.fin q)).1
      < (blsprice (.fin S) (.fin K) (.fin r) (.fin T) (.fin σ₂) (.fin q)).1 ∧
    (blsprice (.fin S) (.fin K) (.fin r) (.fin T) (.fin σ₁) (.fin q)).2
      < (blsprice (.fin S) (.fin K) (.fin r) (.fin T) (.fin σ₂) (.fin q)).2 := by
  have hsT := Real.sqrt_pos.mpr hT
  have hA : 0 < S * Real.exp (-q * T) := by positivity
  have hB : 0 < K * Real.exp (-r * T) := by positivity
  rw [blsprice_eq hS hK hT h1, blsprice_eq hS hK hT (h1.trans h12)]
  have m1 : σ₁ * Real.sqrt T ∈ Set.Ioi (0:ℝ) := mul_pos h1 hsT
  have m2 : σ₂ * Real.sqrt T ∈ Set.Ioi (0:ℝ) := mul_pos (h1.trans h12) hsT
  have hlt : σ₁ * Real.sqrt T < σ₂ * Real.sqrt T := mul_lt_mul_of_pos_right h12 hsT
  exact ⟨bs_strictMonoOn_s hA hB m1 m2 hlt, bs_strictMonoOn_s hB hA m1 m2 hlt⟩

example : (blsprice (.fin 100) (.fin 95) (.fin 0.1) (.fin 0.25) (.fin 0.2) (.fin 0)).1
      < (blsprice (.fin 100) (.fin 95) (.fin 0.1) (.fin 0.25) (.fin 0.5) (.fin 0)).1 :=
  (C04_vega_pos (by norm_num) (by norm_num) (by norm_num) (by norm_num) (by norm_num)).1

/-- C05a. Call strictly increases in spot, put strictly decreases. -/
theorem C05_spot {S S' K r T σ q : ℝ} (hS : 0 < S) (hSS : S < S') (hK : 0 < K) (hT : 0 < T)
    (hσ : 0 < σ) :
    (blsprice (.fin S) (.fin K) (.fin r) (.fin T) (.fin σ) (.fin q)).1
      < (blsprice (.fin S') (.fin K) (.fin r) (.fin T) (.fin σ) (.fin q)).1 ∧
    (blsprice (.fin S') (.fin K) (.fin r) (.fin T) (.fin σ) (.fin q)).2
      < (blsprice (.fin S) (.fin K) (.fin r) (.fin T) (.fin σ) (.fin q)).2 := by
  have hS' := hS.trans hSS
  have hs : 0 < σ * Real.sqrt T := mul_pos hσ (Real.sqrt_pos.mpr hT)
  have hA : 0 < S * Real.exp (-q * T) := by positivity
  have hA' : 0 < S' * Real.exp (-q * T) := by positivity
  have hB : 0 < K * Real.exp (-r * T) := by positivity
  have hlt : S * Real.exp (-q * T) < S' * Real.exp (-q * T) :=
    mul_lt_mul_of_pos_right hSS (Real.exp_pos _)
  rw [blsprice_eq hS hK hT hσ, blsprice_eq hS' hK hT hσ]
  exact ⟨bs_strictMonoOn_A hB hs.ne' hA hA' hlt, bs_strictAntiOn_B hB hs.ne' hA hA' hlt⟩

/-- C05b. Call strictly decreases in strike, put strictly increases. -/
theorem C05_strike {S K K' r T σ q : ℝ} (hS : 0 < S) (hK : 0 < K) (hKK : K < K') (hT : 0 < T)
    (hσ : 0 < σ) :
    (blsprice (.fin S) (.fin K') (.fin r) (.fin T) (.fin σ) (.fin q)).1
      < (blsprice (.fin S) (.fin K) (.fin r) (.fin T) (.fin σ) (.fin q)).1 ∧
    (blsprice (.fin S) (.fin K) (.fin r) (.fin T) (.fin σ) (.fin q)).2
      < (blsprice (.fin S) (.fin K') (.fin r) (.fin T) (.fin σ) (.fin q)).2 := by
  have hK' := hK.trans hKK
  have hs : 0 < σ * Real.sqrt T := mul_pos hσ (Real.sqrt_pos.mpr hT)
  have hA : 0 < S * Real.exp (-q * T) := by positivity
  have hB : 0 < K * Real.exp (-r * T) := by positivity
  have hB' : 0 < K' * Real.exp (-r * T) := by positivity
  have hlt : K * Real.exp (-r * T) < K' * Real.exp (-r * T) :=
    mul_lt_mul_of_pos_right hKK (Real.exp_pos _)
  rw [blsprice_eq hS hK hT hσ, blsprice_eq hS hK' hT hσ]
  exact ⟨bs_strictAntiOn_B hA hs.ne' hB hB' hlt, bs_strictMonoOn_A hA hs.ne' hB hB' hlt⟩

/-- C05c. Scaling spot and strike by `c` scales both prices by `c`. -/
theorem C05_homogeneous {S K r T σ q c : ℝ} (hS : 0 < S) (hK : 0 < K) (hT : 0 < T)
    (hσ : 0 < σ) (hc : 0 < c) :
    blsprice (.fin (c * S)) (.fin (c * K)) (.fin r) (.fin T) (.fin σ) (.fin q)
      = (.fin c * (blsprice (.fin S) (.fin K) (.fin r) (.fin T) (.fin σ) (.fin q)).1,
         .fin c * (blsprice (.fin S) (.fin K) (.fin r) (.fin T) (.fin σ) (.fin q)).2) := by
  rw [blsprice_eq (by positivity) (by positivity) hT hσ, blsprice_eq hS hK hT hσ]
  simp only [XR.fin_mul]
  rw [mul_assoc c, mul_assoc c, bs_homog _ hc, bs_homog _ hc]

/-- C05d. Swapping (spot, yield) with (strike, rate) swaps call and put. -/
theorem C05_symmetry {S K r T σ q : ℝ} (hS : 0 < S) (hK : 0 < K) (hT : 0 < T) (hσ : 0 < σ) :
    blsprice (.fin K) (.fin S) (.fin q) (.fin T) (.fin σ) (.fin r)
      = ((blsprice (.fin S) (.fin K) (.fin r) (.fin T) (.fin σ) (.fin q)).2,
         (blsprice (.fin S) (.fin K) (.fin r) (.fin T) (.fin σ) (.fin q)).1) := by
  rw [blsprice_eq hS hK hT hσ, blsprice_eq hK hS hT hσ]

example : (blsprice (.fin 95) (.fin 100) (.fin 0) (.fin 0.25) (.fin 0.5) (.fin 0.1)).1
    = (blsprice (.fin 100) (.fin 95) (.fin 0.1) (.fin 0.25) (.fin 0.5) (.fin 0)).2 := by
  rw [C05_symmetry (S := 100) (K := 95) (by norm_num) (by norm_num) (by norm_num) (by norm_num)]

/-- helper: the model when the total volatility `σ √T` is zero -/
theorem blsprice_zero_vol {S K r T σ q : ℝ} (hS : 0 < S) (hK : 0 < K) (hT : 0 ≤ T)
    (h0 : σ * Real.sqrt T = 0) (hσT : σ ^ 2 * T = 0) :
    blsprice (.fin S) (.fin K) (.fin r) (.fin T) (.fin σ) (.fin q)
      = if K * Real.exp (-r * T) < S * Real.exp (-q * T) then
          (.fin (S * Real.exp (-q * T) - K * Real.exp (-r * T)), .fin 0)
        else if S * Real.exp (-q * T) < K * Real.exp (-r * T) then
          (.fin 0, .fin (K * Real.exp (-r * T) - S * Real.exp (-q * T)))
        else (.nan, .nan) := by
  have hA : 0 < S * Real.exp (-q * T) := by positivity
  have hB : 0 < K * Real.exp (-r * T) := by positivity
  set x := Real.log (S / K) + (r - q + σ ^ 2 / 2) * T with hx
  have hlog : x = Real.log (S * Real.exp (-q * T)) - Real.log (K * Real.exp (-r * T)) := by
    rw [hx, Real.log_mul hS.ne' (Real.exp_ne_zero _),
      Real.log_mul hK.ne' (Real.exp_ne_zero _), Real.log_exp, Real.log_exp,
      Real.log_div hS.ne' hK.ne']
    linear_combination (1 / 2) * hσT
  have hm : blsprice (.fin S) (.fin K) (.fin r) (.fin T) (.fin σ) (.fin q)
      = (.fin (S * Real.exp (-q * T)) * XR.ncdf (XR.infSign x)
          - .fin (K * Real.exp (-r * T)) * XR.ncdf (XR.infSign x - .fin 0),
         .fin (K * Real.exp (-r * T)) * XR.ncdf (-(XR.infSign x - .fin 0))
          - .fin (S * Real.exp (-q * T)) * XR.ncdf (-(XR.infSign x))) := by
    simp only [blsprice]
    rw [XR.fin_div _ hK.ne', XR.fin_log (div_pos hS hK), XR.fin_sqrt hT, XR.fin_sq,
      XR.ofNat_def, XR.fin_div _ (by norm_num : (OfNat.ofNat 2 : ℝ) ≠ 0)]
    simp only [XR.fin_sub, XR.fin_add, XR.fin_mul, XR.fin_neg, XR.fin_exp]
    rw [h0, XR.fin_div_zero]
  rw [hm]
  split_ifs with h1 h2
  · have : 0 < x := by rw [hlog]; have := Real.log_lt_log hB h1; linarith
    rw [XR.infSign_pos this]
    simp
  · have : x < 0 := by rw [hlog]; have := Real.log_lt_log hA h2; linarith
    rw [XR.infSign_neg this]
    simp
  · have : x = 0 := by
      rw [hlog, le_antisymm (not_lt.mp h1) (not_lt.mp h2)]; ring
    rw [this]; simp

/-- C06a. Zero volatility: discounted intrinsic value of the forward, NaN exactly at
the money forward. -/
theorem C06_sigma_zero {S K r T q : ℝ} (hS : 0 < S) (hK : 0 < K) (hT : 0 ≤ T) :
    (S * Real.exp (-q * T) ≠ K * Real.exp (-r * T) →
      blsprice (.fin S) (.fin K) (.fin r) (.fin T) (.fin 0) (.fin q)
        = (.fin (max 0 (S * Real.exp (-q * T) - K * Real.exp (-r * T))),
           .fin (max 0 (K * Real.exp (-r * T) - S * Real.exp (-q * T))))) ∧
    (S * Real.exp (-q * T) = K * Real.exp (-r * T) →
      blsprice (.fin S) (.fin K) (.fin r) (.fin T) (.fin 0) (.fin q) = (.nan, .nan)) := by
  rw [blsprice_zero_vol hS hK hT (by ring) (by ring)]
  constructor
  · intro hne
    rcases lt_or_gt_of_ne hne with h | h
    · rw [if_neg (not_lt.mpr h.le), if_pos h, max_eq_left (by linarith), max_eq_right (by linarith)]
    · rw [if_pos h, max_eq_right (by linarith), max_eq_left (by linarith)]
  · intro he
    rw [if_neg (by rw [he]; exact lt_irrefl _), if_neg (by rw [he]; exact lt_irrefl _)]

/-- C06b. Zero maturity: intrinsic value, NaN exactly at the money. -/
theorem C06_T_zero {S K r σ q : ℝ} (hS : 0 < S) (hK : 0 < K) :
    (S ≠ K → blsprice (.fin S) (.fin K) (.fin r) (.fin 0) (.fin σ) (.fin q)
        = (.fin (max 0 (S - K)), .fin (max 0 (K - S)))) ∧
    (S = K → blsprice (.fin S) (.fin K) (.fin r) (.fin 0) (.fin σ) (.fin q) = (.nan, .nan)) := by
  rw [blsprice_zero_vol hS hK le_rfl (by simp) (by simp)]
  simp only [mul_zero, Real.exp_zero, mul_one]
  constructor
  · intro hne
    rcases lt_or_gt_of_ne hne with h | h
    · rw [if_neg (not_lt.mpr h.le), if_pos h, max_eq_left (by linarith), max_eq_right (by linarith)]
    · rw [if_pos h, max_eq_right (by linarith), max_eq_left (by linarith)]
  · intro he
    rw [if_neg (by rw [he]; exact lt_irrefl _), if_neg (by rw [he]; exact lt_irrefl _)]

/-- C06c. Worthless underlying: call is worth 0 and put the discounted strike. -/
theorem C06_S_zero {K r T σ q : ℝ} (hK : 0 < K) (hT : 0 < T) (hσ : 0 < σ) :
    blsprice (.fin 0) (.fin K) (.fin r) (.fin T) (.fin σ) (.fin q)
        = (.fin 0, .fin (K * Real.exp (-r * T))) := by
  have hs : 0 < σ * Real.sqrt T := mul_pos hσ (Real.sqrt_pos.mpr hT)
  simp only [blsprice]
  rw [XR.fin_div _ hK.ne', zero_div, XR.log_zero, XR.fin_sqrt hT.le, XR.fin_sq,
      XR.ofNat_def, XR.fin_div _ (by norm_num : (OfNat.ofNat 2 : ℝ) ≠ 0)]
  simp only [XR.fin_sub, XR.fin_add, XR.fin_mul, XR.fin_neg, XR.fin_exp, XR.ninf_add_fin]
  have h : XR.ninf / XR.fin (σ * Real.sqrt T) = XR.ninf := by
    show XR.div _ _ = _
    simp [XR.div, not_lt.mpr hs.le]
  rw [h]; simp

example : blsprice (.fin 100) (.fin 90) (.fin 0.05) (.fin 0) (.fin 0.2) (.fin 0)
    = (.fin 10, .fin 0) := by
  rw [(C06_T_zero (by norm_num) (by norm_num)).1 (by norm_num)]; norm_num

/-! ### Concrete cases of the theorems above -/

example := C05_spot (S := 100) (S' := 110) (K := 95) (r := 0.1) (T := 0.25) (σ := 0.5) (q := 0) (by norm_num) (by norm_num)
  (by norm_num) (by norm_num) (by norm_num)
example := C05_strike (S := 100) (K := 95) (K' := 105) (r := 0.1) (T := 0.25) (σ := 0.5) (q := 0) (by norm_num) (by norm_num)
  (by norm_num) (by norm_num) (by norm_num)
example := C05_homogeneous (S := 100) (K := 95) (r := 0.1) (T := 0.25) (σ := 0.5) (q := 0) (c := 3) (by norm_num)
  (by norm_num) (by norm_num) (by norm_num) (by norm_num)
/-- No volatility and no interest: the call is worth its intrinsic value. -/
example : blsprice (.fin 100) (.fin 90) (.fin 0) (.fin 1) (.fin 0) (.fin 0) = (.fin 10, .fin 0) := by
  rw [(C06_sigma_zero (by norm_num) (by norm_num) (by norm_num)).1 (by norm_num)]; norm_num
/-- At the money without volatility the price is NaN. -/
example : blsprice (.fin 100) (.fin 100) (.fin 0) (.fin 1) (.fin 0) (.fin 0) = (.nan, .nan) :=
  (C06_sigma_zero (by norm_num) (by norm_num) (by norm_num)).2 (by norm_num)
example := C06_S_zero (K := 95) (r := 0.1) (T := 0.25) (σ := 0.5) (q := 0) (by norm_num) (by norm_num) (by norm_num)

end
end Frds.Props

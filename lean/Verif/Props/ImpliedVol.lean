import Verif.Lemmas.BlackScholes
import Verif.Props.OptionPrice
import Mathlib.Analysis.Convex.Deriv

/-! C203: every price inside the no-arbitrage bounds has exactly one implied volatility.
C204: no butterfly and no calendar arbitrage. -/
namespace Frds.Props
noncomputable section
open Frds Frds.Model Filter Topology Set

/-- the price of an option on a very volatile asset approaches the discounted asset price -/
theorem ImpliedVol.bs_top {A B : ℝ} : Tendsto (fun s => bs A B s) atTop (𝓝 A) := by
  have h1 : Tendsto (fun s : ℝ => Real.log (A / B) / s) atTop (𝓝 0) := tendsto_const_nhds.div_atTop tendsto_id
  have h2 : Tendsto (fun s : ℝ => s / 2) atTop atTop := tendsto_id.atTop_div_const (by norm_num)
  have d1 : Tendsto (fun s : ℝ => Real.log (A / B) / s + s / 2) atTop atTop := h1.add_atTop h2
  have d2 : Tendsto (fun s : ℝ => Real.log (A / B) / s - s / 2) atTop atBot := by
    simpa [sub_eq_add_neg] using h1.add_atBot (tendsto_neg_atTop_atBot.comp h2)
  have := ((Φ_tendsto_atTop.comp d1).const_mul A).sub ((Φ_tendsto_atBot.comp d2).const_mul B)
  simpa [bs] using this

/-- the price of an option on an asset that hardly moves approaches its intrinsic value -/
theorem ImpliedVol.bs_zero {A B : ℝ} (hA : 0 < A) (hB : 0 < B) :
    Tendsto (fun s => bs A B s) (𝓝[>] 0) (𝓝 (max 0 (A - B))) := by
  have h2 : Tendsto (fun s : ℝ => s / 2) (𝓝[>] 0) (𝓝 0) := by
    have : Tendsto (fun s : ℝ => s / 2) (𝓝 0) (𝓝 (0 / 2)) := (continuous_id.div_const 2).tendsto 0
    rw [zero_div] at this
    exact this.mono_left nhdsWithin_le_nhds
  have hinv : Tendsto (fun s : ℝ => s⁻¹) (𝓝[>] 0) atTop := tendsto_inv_nhdsGT_zero
  rcases lt_trichotomy A B with h | h | h
  · have hL : Real.log (A / B) < 0 := Real.log_neg (by positivity) ((div_lt_one hB).mpr h)
    have h1 : Tendsto (fun s : ℝ => Real.log (A / B) / s) (𝓝[>] 0) atBot := by
      simpa [div_eq_mul_inv] using hinv.const_mul_atTop_of_neg hL
    have d1 : Tendsto (fun s : ℝ => Real.log (A / B) / s + s / 2) (𝓝[>] 0) atBot := h1.atBot_add h2
    have d2 : Tendsto (fun s : ℝ => Real.log (A / B) / s - s / 2) (𝓝[>] 0) atBot := by
      simpa [sub_eq_add_neg] using h1.atBot_add h2.neg
    have := ((Φ_tendsto_atBot.comp d1).const_mul A).sub ((Φ_tendsto_atBot.comp d2).const_mul B)
    rw [max_eq_left (by linarith)]
    simpa [bs] using this
  · subst h
    have c1 : Tendsto (fun s : ℝ => Φ (s / 2)) (𝓝[>] 0) (𝓝 (Φ 0)) := (Φ_continuous.tendsto 0).comp h2
    have c2 : Tendsto (fun s : ℝ => Φ (-(s / 2))) (𝓝[>] 0) (𝓝 (Φ 0)) := by
      have := h2.neg
      rw [neg_zero] at this
      exact (Φ_continuous.tendsto 0).comp this
    have := (c1.const_mul A).sub (c2.const_mul A)
    rw [sub_self] at this
    rw [sub_self, max_self]
    simpa [bs, div_self hA.ne'] using this
  · have hL : 0 < Real.log (A / B) := Real.log_pos ((one_lt_div hB).mpr h)
    have h1 : Tendsto (fun s : ℝ => Real.log (A / B) / s) (𝓝[>] 0) atTop := by
      simpa [div_eq_mul_inv] using hinv.const_mul_atTop hL
    have d1 : Tendsto (fun s : ℝ => Real.log (A / B) / s + s / 2) (𝓝[>] 0) atTop := h1.atTop_add h2
    have d2 : Tendsto (fun s : ℝ => Real.log (A / B) / s - s / 2) (𝓝[>] 0) atTop := by
      simpa [sub_eq_add_neg] using h1.atTop_add h2.neg
    have := ((Φ_tendsto_atTop.comp d1).const_mul A).sub ((Φ_tendsto_atTop.comp d2).const_mul B)
    rw [max_eq_right (by linarith)]
    simpa [bs] using this

/-- every value between the bounds is taken, once -/
theorem ImpliedVol.exists_unique {A B c : ℝ} (hA : 0 < A) (hB : 0 < B) (h1 : max 0 (A - B) < c) (h2 : c < A) :
    ∃ s, 0 < s ∧ bs A B s = c ∧ ∀ t, 0 < t → bs A B t = c → t = s := by
  have e1 : ∀ᶠ s in 𝓝[>] (0 : ℝ), bs A B s < c := (ImpliedVol.bs_zero hA hB).eventually (gt_mem_nhds h1)
  have e2 : ∀ᶠ s in atTop, c < bs A B s := ImpliedVol.bs_top.eventually (lt_mem_nhds h2)
  obtain ⟨a, ha, ha0⟩ := (e1.and self_mem_nhdsWithin).exists
  obtain ⟨b, hb, hab⟩ := (e2.and (eventually_ge_atTop a)).exists
  have ha0 : 0 < a := ha0
  have hc : ContinuousOn (fun s => bs A B s) (Icc a b) := fun s hs =>
    (bs_hasDerivAt_s hA hB (ne_of_gt (lt_of_lt_of_le ha0 hs.1))).continuousAt.continuousWithinAt
  obtain ⟨s, hs, hsc⟩ := intermediate_value_Icc hab hc ⟨ha.le, hb.le⟩
  have hs0 : 0 < s := lt_of_lt_of_le ha0 hs.1
  exact ⟨s, hs0, hsc, fun t ht htc => (bs_strictMonoOn_s hA hB).injOn ht hs0 (htc.trans hsc.symm)⟩

/-- C203. A call price is matched by a positive volatility exactly if it lies strictly between the intrinsic value and the discounted
spot price, and then by exactly one. -/
theorem C203_call (S K r T q c : ℝ) (hS : 0 < S) (hK : 0 < K) (hT : 0 < T) :
    (max 0 (S * Real.exp (-q * T) - K * Real.exp (-r * T)) < c ∧ c < S * Real.exp (-q * T)) ↔
      ∃! σ : ℝ, 0 < σ ∧ (blsprice (.fin S) (.fin K) (.fin r) (.fin T) (.fin σ) (.fin q)).1 = .fin c := by
  have hsT := Real.sqrt_pos.mpr hT
  constructor
  · rintro ⟨h1, h2⟩
    obtain ⟨s, hs, hsc, hu⟩ := ImpliedVol.exists_unique (by positivity) (by positivity) h1 h2
    refine ⟨s / Real.sqrt T, ⟨by positivity, ?_⟩, ?_⟩
    · rw [blsprice_eq hS hK hT (by positivity), div_mul_cancel₀ _ hsT.ne', hsc]
    · rintro t ⟨ht, htc⟩
      rw [blsprice_eq hS hK hT ht] at htc
      rw [eq_div_iff hsT.ne']
      exact hu _ (by positivity) (XR.fin_inj.mp htc)
  · rintro ⟨σ, ⟨h0, h⟩, -⟩
    obtain ⟨call, put, hb, h1, h2, -, -⟩ := C03_bounds (r := r) (q := q) hS hK hT h0
    rw [hb] at h
    rw [← XR.fin_inj.mp h]
    exact ⟨h1, h2⟩

/-- C203. A put price is matched by a positive volatility exactly if it lies strictly between the intrinsic value and the discounted
strike, and then by exactly one. -/
theorem C203_put (S K r T q p : ℝ) (hS : 0 < S) (hK : 0 < K) (hT : 0 < T) :
    (max 0 (K * Real.exp (-r * T) - S * Real.exp (-q * T)) < p ∧ p < K * Real.exp (-r * T)) ↔
      ∃! σ : ℝ, 0 < σ ∧ (blsprice (.fin S) (.fin K) (.fin r) (.fin T) (.fin σ) (.fin q)).2 = .fin p := by
  have hsT := Real.sqrt_pos.mpr hT
  constructor
  · rintro ⟨h1, h2⟩
    obtain ⟨s, hs, hsc, hu⟩ := ImpliedVol.exists_unique (by positivity) (by positivity) h1 h2
    refine ⟨s / Real.sqrt T, ⟨by positivity, ?_⟩, ?_⟩
    · rw [blsprice_eq hS hK hT (by positivity), div_mul_cancel₀ _ hsT.ne', hsc]
    · rintro t ⟨ht, htc⟩
      rw [blsprice_eq hS hK hT ht] at htc
      rw [eq_div_iff hsT.ne']
      exact hu _ (by positivity) (XR.fin_inj.mp htc)
  · rintro ⟨σ, ⟨h0, h⟩, -⟩
    obtain ⟨call, put, hb, -, -, h1, h2⟩ := C03_bounds (r := r) (q := q) hS hK hT h0
    rw [hb] at h
    rw [← XR.fin_inj.mp h]
    exact ⟨h1, h2⟩

/-- C203. A call and a put price (for positive volatilities) have the same implied volatility exactly if they satisfy put-call
parity. -/
theorem C203_same (S K r T q c p σ τ : ℝ) (hS : 0 < S) (hK : 0 < K) (hT : 0 < T) (hσ : 0 < σ) (hτ : 0 < τ)
    (hc : (blsprice (.fin S) (.fin K) (.fin r) (.fin T) (.fin σ) (.fin q)).1 = .fin c)
    (hp : (blsprice (.fin S) (.fin K) (.fin r) (.fin T) (.fin τ) (.fin q)).2 = .fin p) :
    σ = τ ↔ c - p = S * Real.exp (-q * T) - K * Real.exp (-r * T) := by
  obtain ⟨c', p', h', par⟩ := C01_put_call_parity (r := r) (q := q) hS hK hT hτ
  obtain ⟨c'', p'', h'', -⟩ := C01_put_call_parity (r := r) (q := q) hS hK hT hσ
  rw [h'] at hp
  rw [h''] at hc
  have hp := XR.fin_inj.mp hp
  have hc := XR.fin_inj.mp hc
  constructor
  · rintro rfl
    rw [h''] at h'
    simp only [Prod.mk.injEq, XR.fin_inj] at h'
    linarith [h'.1, h'.2]
  · intro h
    by_contra hne
    have key : ∀ σ τ : ℝ, ∀ c c' p p' : ℝ, 0 < σ → σ < τ → blsprice (.fin S) (.fin K) (.fin r) (.fin T) (.fin σ) (.fin q) = (.fin c, .fin p) →
        blsprice (.fin S) (.fin K) (.fin r) (.fin T) (.fin τ) (.fin q) = (.fin c', .fin p') → c < c' := by
      intro σ τ c c' p p' h0 hlt e e'
      have := (C04_vega_pos (r := r) (q := q) hS hK hT h0 hlt).1
      rw [e, e'] at this
      exact XR.fin_lt.mp this
    rcases lt_or_gt_of_ne hne with hlt | hlt
    · have := key _ _ _ _ _ _ hσ hlt h'' h'
      linarith
    · have := key _ _ _ _ _ _ hτ hlt h' h''
      linarith

/-- a call at 10 on an asset at 100 struck at 100, one year, no rates: an implied volatility exists -/
example : ∃! σ : ℝ, 0 < σ ∧ (blsprice (.fin 100) (.fin 100) (.fin 0) (.fin 1) (.fin σ) (.fin 0)).1 = .fin 10 :=
  (C203_call 100 100 0 1 0 10 (by norm_num) (by norm_num) (by norm_num)).mp (by norm_num)

/-- a put at 0 or below has none -/
example : ¬ ∃! σ : ℝ, 0 < σ ∧ (blsprice (.fin 100) (.fin 100) (.fin 0) (.fin 1) (.fin σ) (.fin 0)).2 = .fin 0 := by
  rw [← C203_put 100 100 0 1 0 0 (by norm_num) (by norm_num) (by norm_num)]
  norm_num

/-- the Black formula is strictly convex in the asset value -/
theorem ImpliedVol.bs_convex_A {B s : ℝ} (hB : 0 < B) (hs : 0 < s) : StrictConvexOn ℝ (Ioi 0) (fun a => bs a B s) := by
  apply StrictMonoOn.strictConvexOn_of_deriv (convex_Ioi 0)
  · intro a ha
    exact (bs_hasDerivAt_A ha hB hs.ne').continuousAt.continuousWithinAt
  · rw [interior_Ioi]
    intro a ha a' ha' hlt
    rw [(bs_hasDerivAt_A ha hB hs.ne').deriv, (bs_hasDerivAt_A ha' hB hs.ne').deriv]
    apply Φ_strictMono
    have : Real.log (a / B) < Real.log (a' / B) :=
      Real.log_lt_log (div_pos ha hB) (div_lt_div_of_pos_right hlt hB)
    have := div_lt_div_of_pos_right this hs
    linarith

/-- and in the strike -/
theorem ImpliedVol.bs_convex_B {A s : ℝ} (hA : 0 < A) (hs : 0 < s) : StrictConvexOn ℝ (Ioi 0) (fun b => bs A b s) := by
  refine ⟨convex_Ioi 0, ?_⟩
  intro b hb b' hb' hne x y hx hy hxy
  have h := (ImpliedVol.bs_convex_A hA hs).2 hb hb' hne hx hy hxy
  have hm : 0 < x * b + y * b' := by
    have : 0 < b := hb
    have : 0 < b' := hb'
    positivity
  have p1 := bs_parity s hA hb
  have p2 := bs_parity s hA hb'
  have p3 := bs_parity s hA hm
  simp only [smul_eq_mul] at h ⊢
  have e : A = x * A + y * A := by rw [← add_mul, hxy, one_mul]
  have : x * (bs A b s - bs b A s) + y * (bs A b' s - bs b' A s) = x * (A - b) + y * (A - b') := by rw [p1, p2]
  linarith

/-- C204. No butterfly arbitrage: both prices are strictly convex in the strike. -/
theorem C204_strike_convex (S K K' r T σ q w : ℝ) (hS : 0 < S) (hK : 0 < K) (hK' : 0 < K') (hne : K ≠ K') (hT : 0 < T) (hσ : 0 < σ)
    (hw : 0 < w) (hw1 : w < 1) :
    ∃ c c' m p p' n : ℝ,
      blsprice (.fin S) (.fin K) (.fin r) (.fin T) (.fin σ) (.fin q) = (.fin c, .fin p) ∧
      blsprice (.fin S) (.fin K') (.fin r) (.fin T) (.fin σ) (.fin q) = (.fin c', .fin p') ∧
      blsprice (.fin S) (.fin (w * K + (1 - w) * K')) (.fin r) (.fin T) (.fin σ) (.fin q) = (.fin m, .fin n) ∧
      m < w * c + (1 - w) * c' ∧ n < w * p + (1 - w) * p' := by
  have hs : 0 < σ * Real.sqrt T := mul_pos hσ (Real.sqrt_pos.mpr hT)
  have hw' : 0 < 1 - w := by linarith
  have eq : 0 < Real.exp (-q * T) := Real.exp_pos _
  have er : 0 < Real.exp (-r * T) := Real.exp_pos _
  refine ⟨_, _, _, _, _, _, blsprice_eq hS hK hT hσ, blsprice_eq hS hK' hT hσ, blsprice_eq hS (by positivity) hT hσ, ?_⟩
  have hne' : K * Real.exp (-r * T) ≠ K' * Real.exp (-r * T) := fun h => hne (mul_right_cancel₀ er.ne' h)
  have e : (w * K + (1 - w) * K') * Real.exp (-r * T) = w * (K * Real.exp (-r * T)) + (1 - w) * (K' * Real.exp (-r * T)) := by ring
  rw [e]
  exact ⟨(ImpliedVol.bs_convex_B (mul_pos hS eq) hs).2 (mul_pos hK er) (mul_pos hK' er) hne' hw hw' (by ring),
    (ImpliedVol.bs_convex_A (mul_pos hS eq) hs).2 (mul_pos hK er) (mul_pos hK' er) hne' hw hw' (by ring)⟩

/-- C204. Both prices are strictly convex in the spot price. -/
theorem C204_spot_convex (S S' K r T σ q w : ℝ) (hS : 0 < S) (hS' : 0 < S') (hne : S ≠ S') (hK : 0 < K) (hT : 0 < T) (hσ : 0 < σ)
    (hw : 0 < w) (hw1 : w < 1) :
    ∃ c c' m p p' n : ℝ,
      blsprice (.fin S) (.fin K) (.fin r) (.fin T) (.fin σ) (.fin q) = (.fin c, .fin p) ∧
      blsprice (.fin S') (.fin K) (.fin r) (.fin T) (.fin σ) (.fin q) = (.fin c', .fin p') ∧
      blsprice (.fin (w * S + (1 - w) * S')) (.fin K) (.fin r) (.fin T) (.fin σ) (.fin q) = (.fin m, .fin n) ∧
      m < w * c + (1 - w) * c' ∧ n < w * p + (1 - w) * p' := by
  have hs : 0 < σ * Real.sqrt T := mul_pos hσ (Real.sqrt_pos.mpr hT)
  have hw' : 0 < 1 - w := by linarith
  have eq : 0 < Real.exp (-q * T) := Real.exp_pos _
  have er : 0 < Real.exp (-r * T) := Real.exp_pos _
  refine ⟨_, _, _, _, _, _, blsprice_eq hS hK hT hσ, blsprice_eq hS' hK hT hσ, blsprice_eq (by positivity) hK hT hσ, ?_⟩
  have hne' : S * Real.exp (-q * T) ≠ S' * Real.exp (-q * T) := fun h => hne (mul_right_cancel₀ eq.ne' h)
  have e : (w * S + (1 - w) * S') * Real.exp (-q * T) = w * (S * Real.exp (-q * T)) + (1 - w) * (S' * Real.exp (-q * T)) := by ring
  rw [e]
  exact ⟨(ImpliedVol.bs_convex_A (mul_pos hK er) hs).2 (mul_pos hS eq) (mul_pos hS' eq) hne' hw hw' (by ring),
    (ImpliedVol.bs_convex_B (mul_pos hK er) hs).2 (mul_pos hS eq) (mul_pos hS' eq) hne' hw hw' (by ring)⟩

/-- C204. Vertical spreads: between two strikes the call falls, and the put rises, by less than the discounted difference of the
strikes. -/
theorem C204_vertical (S K K' r T σ q : ℝ) (hS : 0 < S) (hK : 0 < K) (hKK : K < K') (hT : 0 < T) (hσ : 0 < σ) :
    ∃ c c' p p' : ℝ, blsprice (.fin S) (.fin K) (.fin r) (.fin T) (.fin σ) (.fin q) = (.fin c, .fin p) ∧
      blsprice (.fin S) (.fin K') (.fin r) (.fin T) (.fin σ) (.fin q) = (.fin c', .fin p') ∧
      0 < c - c' ∧ c - c' < (K' - K) * Real.exp (-r * T) ∧ 0 < p' - p ∧ p' - p < (K' - K) * Real.exp (-r * T) := by
  have hs : 0 < σ * Real.sqrt T := mul_pos hσ (Real.sqrt_pos.mpr hT)
  have eq : 0 < Real.exp (-q * T) := Real.exp_pos _
  have er : 0 < Real.exp (-r * T) := Real.exp_pos _
  have hA := mul_pos hS eq
  have hB := mul_pos hK er
  have hB' := mul_pos (hK.trans hKK) er
  have hlt : K * Real.exp (-r * T) < K' * Real.exp (-r * T) := mul_lt_mul_of_pos_right hKK er
  refine ⟨_, _, _, _, blsprice_eq hS hK hT hσ, blsprice_eq hS (hK.trans hKK) hT hσ, ?_⟩
  have m1 := bs_strictAntiOn_B hA hs.ne' hB hB' hlt
  have m2 := bs_strictMonoOn_A hA hs.ne' hB hB' hlt
  have p1 := bs_parity (σ * Real.sqrt T) hA hB
  have p2 := bs_parity (σ * Real.sqrt T) hA hB'
  simp only at m1 m2
  exact ⟨by linarith, by linarith, by linarith, by linarith⟩

/-- C204. No calendar arbitrage: without a yield and with a nonnegative rate, calls with a later expiry are worth more; without a rate
and with a nonnegative yield, puts are. -/
theorem C204_calendar (S K r T T' σ q : ℝ) (hS : 0 < S) (hK : 0 < K) (hT : 0 < T) (hTT : T < T') (hσ : 0 < σ) :
    ∃ c c' p p' : ℝ, blsprice (.fin S) (.fin K) (.fin r) (.fin T) (.fin σ) (.fin q) = (.fin c, .fin p) ∧
      blsprice (.fin S) (.fin K) (.fin r) (.fin T') (.fin σ) (.fin q) = (.fin c', .fin p') ∧
      (q = 0 → 0 ≤ r → c < c') ∧ (r = 0 → 0 ≤ q → p < p') := by
  have hT' := hT.trans hTT
  have hs : 0 < σ * Real.sqrt T := mul_pos hσ (Real.sqrt_pos.mpr hT)
  have hs' : 0 < σ * Real.sqrt T' := mul_pos hσ (Real.sqrt_pos.mpr hT')
  have hlt : σ * Real.sqrt T < σ * Real.sqrt T' := mul_lt_mul_of_pos_left (Real.sqrt_lt_sqrt hT.le hTT) hσ
  have key : ∀ (A x ρ : ℝ), 0 < A → 0 < x → 0 ≤ ρ →
      bs A (x * Real.exp (-ρ * T)) (σ * Real.sqrt T) < bs A (x * Real.exp (-ρ * T')) (σ * Real.sqrt T') := by
    intro A x ρ hA hx hρ
    have hB : 0 < x * Real.exp (-ρ * T) := by positivity
    have hB' : 0 < x * Real.exp (-ρ * T') := by positivity
    refine lt_of_lt_of_le (bs_strictMonoOn_s hA hB hs hs' hlt) ?_
    apply (bs_strictAntiOn_B hA hs'.ne').antitoneOn hB' hB
    apply mul_le_mul_of_nonneg_left _ hx.le
    apply Real.exp_le_exp.mpr
    nlinarith
  refine ⟨_, _, _, _, blsprice_eq hS hK hT hσ, blsprice_eq hS hK hT' hσ, ?_, ?_⟩
  · rintro rfl hr
    have := key S K r hS hK hr
    simpa using this
  · rintro rfl hq
    have := key K S q hK hS hq
    simpa using this

/-- strikes 90 and 110 around 100 -/
example : ∃ c c' p p' : ℝ, blsprice (.fin 100) (.fin 90) (.fin 0.1) (.fin 1) (.fin 0.5) (.fin 0) = (.fin c, .fin p) ∧
    blsprice (.fin 100) (.fin 110) (.fin 0.1) (.fin 1) (.fin 0.5) (.fin 0) = (.fin c', .fin p') ∧
    0 < c - c' ∧ c - c' < (110 - 90) * Real.exp (-0.1 * 1) ∧ 0 < p' - p ∧ p' - p < (110 - 90) * Real.exp (-0.1 * 1) :=
  C204_vertical 100 90 110 0.1 1 0.5 0 (by norm_num) (by norm_num) (by norm_num) (by norm_num) (by norm_num)

/-- a call for two years is worth more than one for a year -/
example : ∃ c c' : ℝ, (blsprice (.fin 100) (.fin 90) (.fin 0.1) (.fin 1) (.fin 0.5) (.fin 0)).1 = .fin c ∧
    (blsprice (.fin 100) (.fin 90) (.fin 0.1) (.fin 2) (.fin 0.5) (.fin 0)).1 = .fin c' ∧ c < c' := by
  obtain ⟨c, c', p, p', h, h', hc, -⟩ := C204_calendar 100 90 0.1 1 2 0.5 0 (by norm_num) (by norm_num) (by norm_num) (by norm_num)
    (by norm_num)
  exact ⟨c, c', by rw [h], by rw [h'], hc rfl (by norm_num)⟩

/-- strikes 90, 100 and 110 -/
example : ∃ c m c' : ℝ, (blsprice (.fin 100) (.fin 90) (.fin 0.1) (.fin 1) (.fin 0.5) (.fin 0)).1 = .fin c ∧
    (blsprice (.fin 100) (.fin 110) (.fin 0.1) (.fin 1) (.fin 0.5) (.fin 0)).1 = .fin c' ∧
    (blsprice (.fin 100) (.fin 100) (.fin 0.1) (.fin 1) (.fin 0.5) (.fin 0)).1 = .fin m ∧ m < 1 / 2 * c + (1 - 1 / 2) * c' := by
  obtain ⟨c, c', m, p, p', n, h1, h2, h3, h4, -⟩ := C204_strike_convex 100 90 110 0.1 1 0.5 0 (1 / 2) (by norm_num)
    (by norm_num) (by norm_num) (by norm_num) (by norm_num) (by norm_num) (by norm_num) (by norm_num)
  refine ⟨c, m, c', by rw [h1], by rw [h2], ?_, h4⟩
  rw [show (100 : ℝ) = 1 / 2 * 90 + (1 - 1 / 2) * 110 by norm_num] at *
  norm_num at h3 ⊢
  rw [h3]

/-- spot prices 80, 95 and 120 -/
example : ∃ c c' m p p' n : ℝ,
    blsprice (.fin 80) (.fin 100) (.fin 0.1) (.fin 1) (.fin 0.5) (.fin 0) = (.fin c, .fin p) ∧
    blsprice (.fin 120) (.fin 100) (.fin 0.1) (.fin 1) (.fin 0.5) (.fin 0) = (.fin c', .fin p') ∧
    blsprice (.fin (5 / 8 * 80 + (1 - 5 / 8) * 120)) (.fin 100) (.fin 0.1) (.fin 1) (.fin 0.5) (.fin 0) = (.fin m, .fin n) ∧
    m < 5 / 8 * c + (1 - 5 / 8) * c' ∧ n < 5 / 8 * p + (1 - 5 / 8) * p' :=
  C204_spot_convex 80 120 100 0.1 1 0.5 0 (5 / 8) (by norm_num) (by norm_num) (by norm_num) (by norm_num) (by norm_num)
    (by norm_num) (by norm_num) (by norm_num)

end
end Frds.Props

import Verif.Lemmas.BlackScholes
import Mathlib.Analysis.SpecialFunctions.ExpDeriv
import Mathlib.Analysis.Calculus.MeanValue
import Mathlib.Topology.Order.IntermediateValue

/-! The variance of a normal variable truncated from above is positive, and the Merton equations have exactly one
solution (used by C198). -/
namespace Frds
noncomputable section
open Filter Topology Set

namespace Mills

theorem φ_deriv (x : ℝ) : HasDerivAt φ (-x * φ x) x := by
  have h : HasDerivAt (fun x : ℝ => (Real.sqrt (2 * Real.pi))⁻¹ * Real.exp (-x ^ 2 / 2))
      ((Real.sqrt (2 * Real.pi))⁻¹ * (Real.exp (-x ^ 2 / 2) * (-(2 * x ^ 1 * 1) / 2))) x := by
    refine HasDerivAt.const_mul _ (HasDerivAt.exp (HasDerivAt.div_const ?_ 2))
    exact ((hasDerivAt_id x).pow 2).neg
  have e : φ = fun x : ℝ => (Real.sqrt (2 * Real.pi))⁻¹ * Real.exp (-x ^ 2 / 2) := funext φ_eq
  rw [e]
  convert h using 1
  ring

/-- a function with positive derivative and limit zero on the left is positive -/
theorem pos_of_deriv {f f' : ℝ → ℝ} (hd : ∀ x, HasDerivAt f (f' x) x) (hp : ∀ x, 0 < f' x)
    (hl : Tendsto f atBot (𝓝 0)) (x : ℝ) : 0 < f x := by
  have hm : StrictMono f := strictMono_of_hasDerivAt_pos hd hp
  have h1 : 0 ≤ f (x - 1) := by
    exact le_of_tendsto hl ((eventually_le_atBot (x - 1)).mono fun y hy => hm.monotone hy)
  exact lt_of_le_of_lt h1 (hm (by linarith))

/-- powers times the density vanish at minus infinity -/
theorem pow_φ (n : ℕ) : Tendsto (fun x : ℝ => x ^ n * φ x) atBot (𝓝 0) := by
  have h := (Real.tendsto_pow_mul_exp_neg_atTop_nhds_zero n).comp tendsto_neg_atBot_atTop
  have hc : (0 : ℝ) ≤ (Real.sqrt (2 * Real.pi))⁻¹ := by positivity
  have h' := h.const_mul (Real.sqrt (2 * Real.pi))⁻¹
  rw [mul_zero] at h'
  refine squeeze_zero_norm' ?_ h'
  filter_upwards [eventually_le_atBot (-2 : ℝ)] with x hx
  simp only [Function.comp_apply, Real.norm_eq_abs, abs_mul, abs_pow, abs_of_pos (φ_pos x), neg_neg]
  rw [φ_eq, abs_of_neg (by linarith : x < 0)]
  have he : Real.exp (-x ^ 2 / 2) ≤ Real.exp x := Real.exp_le_exp.mpr (by nlinarith)
  have : (0 : ℝ) ≤ (-x) ^ n := pow_nonneg (by linarith) n
  calc (-x) ^ n * ((Real.sqrt (2 * Real.pi))⁻¹ * Real.exp (-x ^ 2 / 2))
      = (Real.sqrt (2 * Real.pi))⁻¹ * ((-x) ^ n * Real.exp (-x ^ 2 / 2)) := by ring
    _ ≤ (Real.sqrt (2 * Real.pi))⁻¹ * ((-x) ^ n * Real.exp x) := by gcongr

theorem φ_zero : Tendsto φ atBot (𝓝 0) := by simpa using pow_φ 0

/-- the tail lies below the density left of -1 -/
theorem tail_le {x : ℝ} (hx : x ≤ -1) : Φ x ≤ φ x := by
  have hd : ∀ y, HasDerivAt (fun y => φ y - Φ y) (-y * φ y - φ y) y := fun y => (φ_deriv y).sub (Φ_hasDerivAt y)
  have hm : MonotoneOn (fun y => φ y - Φ y) (Iic (-1)) := by
    refine monotoneOn_of_deriv_nonneg (convex_Iic _) (fun y _ => (hd y).continuousAt.continuousWithinAt)
      (fun y _ => (hd y).differentiableAt.differentiableWithinAt) ?_
    intro y hy
    rw [interior_Iic] at hy
    rw [(hd y).deriv]
    have := φ_pos y
    have hy' : y < -1 := hy
    nlinarith
  have hl : Tendsto (fun y => φ y - Φ y) atBot (𝓝 0) := by simpa using φ_zero.sub Φ_tendsto_atBot
  have h := le_of_tendsto hl ((eventually_le_atBot x).mono fun y hy =>
    hm (show y ≤ -1 from le_trans hy hx) (show x ≤ -1 from hx) hy)
  simp only at h
  linarith

theorem pow_Φ (n : ℕ) : Tendsto (fun x : ℝ => x ^ n * Φ x) atBot (𝓝 0) := by
  refine squeeze_zero_norm' ?_ ((pow_φ n).norm.trans (by simp))
  filter_upwards [eventually_le_atBot (-1 : ℝ)] with x hx
  rw [norm_mul, norm_mul]
  refine mul_le_mul_of_nonneg_left ?_ (norm_nonneg _)
  rw [Real.norm_of_nonneg (Φ_nonneg x), Real.norm_of_nonneg (φ_pos x).le]
  exact tail_le hx

theorem first (x : ℝ) : 0 < x * Φ x + φ x := by
  refine pos_of_deriv (f := fun x => x * Φ x + φ x) (f' := Φ) (fun y => ?_) Φ_pos ?_ x
  · have h := ((hasDerivAt_id y).mul (Φ_hasDerivAt y)).add (φ_deriv y)
    exact HasDerivAt.congr_deriv h (by simp)
  · simpa using (pow_Φ 1).add φ_zero

theorem second (x : ℝ) : 0 < (1 + x ^ 2) * Φ x + x * φ x := by
  refine pos_of_deriv (f := fun x => (1 + x ^ 2) * Φ x + x * φ x) (f' := fun x => 2 * (x * Φ x + φ x)) (fun y => ?_)
    (fun y => by have := first y; linarith) ?_ x
  · have h := ((((hasDerivAt_id y).pow 2).const_add 1).mul (Φ_hasDerivAt y)).add ((hasDerivAt_id y).mul (φ_deriv y))
    exact HasDerivAt.congr_deriv h (by simp; ring)
  · have h := ((pow_Φ 0).add (pow_Φ 2)).add (pow_φ 1)
    simp only [add_zero] at h
    refine h.congr fun y => ?_
    ring

/-- the variance of a truncated normal variable is positive -/
theorem variance (x : ℝ) : 0 < Φ x ^ 2 - x * φ x * Φ x - φ x ^ 2 := by
  refine pos_of_deriv (f := fun x => Φ x ^ 2 - x * φ x * Φ x - φ x ^ 2)
    (f' := fun x => φ x * ((1 + x ^ 2) * Φ x + x * φ x)) (fun y => ?_) (fun y => mul_pos (φ_pos y) (second y)) ?_ x
  · have h := (((Φ_hasDerivAt y).pow 2).sub (((hasDerivAt_id y).mul (φ_deriv y)).mul (Φ_hasDerivAt y))).sub
      ((φ_deriv y).pow 2)
    exact HasDerivAt.congr_deriv h (by simp; ring)
  · have h := ((Φ_tendsto_atBot.pow 2).sub ((pow_φ 1).mul Φ_tendsto_atBot)).sub (φ_zero.pow 2)
    simp only [ne_eq, OfNat.ofNat_ne_zero, not_false_eq_true, zero_pow, mul_zero, sub_zero, pow_one] at h
    exact h

/-- and remains so when the probability is increased -/
theorem variance_add (x : ℝ) {k : ℝ} (hk : 0 ≤ k) : 0 < (Φ x + k) ^ 2 - x * φ x * (Φ x + k) - φ x ^ 2 := by
  have h := variance x
  have hlin : 0 < 2 * Φ x - x * φ x := by
    rcases le_total x 0 with hx | hx
    · have := mul_nonneg (neg_nonneg.mpr hx) (φ_pos x).le
      linarith [Φ_pos x]
    · have hd : ∀ y, HasDerivAt (fun y => 2 * Φ y - y * φ y) (φ y * (1 + y ^ 2)) y := fun y => by
        have h := ((Φ_hasDerivAt y).const_mul 2).sub ((hasDerivAt_id y).mul (φ_deriv y))
        exact HasDerivAt.congr_deriv h (by simp; ring)
      have hm : StrictMono fun y => 2 * Φ y - y * φ y :=
        strictMono_of_hasDerivAt_pos hd fun y => mul_pos (φ_pos y) (by positivity)
      have h0 := hm.monotone hx
      simp only [Φ_zero] at h0
      linarith
  nlinarith [mul_nonneg hk hlin.le, sq_nonneg k]

/-- a differentiable function whose derivative is positive at every zero has at most one -/
theorem zero_unique {f f' : ℝ → ℝ} (hd : ∀ x, HasDerivAt f (f' x) x) (hz : ∀ x, f x = 0 → 0 < f' x) {x y : ℝ}
    (hx : f x = 0) (hy : f y = 0) : x = y := by
  suffices key : ∀ x y, x < y → f x = 0 → f y = 0 → False by
    rcases lt_trichotomy x y with h | h | h
    · exact (key x y h hx hy).elim
    · exact h
    · exact (key y x h hy hx).elim
  clear hx hy x y
  intro x y hxy hx hy
  have hc : Continuous f := continuous_iff_continuousAt.mpr fun z => (hd z).continuousAt
  have near : ∀ z, f z = 0 → ∃ ε > 0, ∀ t, t ≠ z → |t - z| < ε → 0 < f t / (t - z) := by
    intro z h0
    have h := (hasDerivAt_iff_tendsto_slope.mp (hd z)).eventually (lt_mem_nhds (hz z h0))
    rw [eventually_nhdsWithin_iff, Metric.eventually_nhds_iff] at h
    obtain ⟨ε, hε, h⟩ := h
    refine ⟨ε, hε, fun t ht hd => ?_⟩
    have := h (y := t) (by rwa [Real.dist_eq]) ht
    rwa [slope_def_field, h0, sub_zero] at this
  obtain ⟨ε, hε, hr⟩ := near x hx
  obtain ⟨δ, hδ, hl⟩ := near y hy
  obtain ⟨a, hxa, hay, hax⟩ : ∃ a, x < a ∧ a < y ∧ a - x < ε :=
    ⟨x + min ε (y - x) / 2, by have := lt_min hε (sub_pos.mpr hxy); linarith,
      by have := min_le_right ε (y - x); linarith [sub_pos.mpr hxy],
      by have := min_le_left ε (y - x); linarith⟩
  obtain ⟨b, hab, hby, hyb⟩ : ∃ b, a < b ∧ b < y ∧ y - b < δ :=
    ⟨y - min δ (y - a) / 2, by have := min_le_right δ (y - a); linarith [sub_pos.mpr hay],
      by have := lt_min hδ (sub_pos.mpr hay); linarith,
      by have := min_le_left δ (y - a); linarith⟩
  have fa : 0 < f a := by
    have h := hr a hxa.ne' (by rw [abs_of_pos] <;> linarith)
    rw [div_pos_iff] at h
    rcases h with h | h
    · exact h.1
    · linarith [h.2]
  have fb : f b < 0 := by
    have h := hl b hby.ne (by rw [abs_of_neg] <;> linarith)
    rw [div_pos_iff] at h
    rcases h with h | h
    · linarith [h.2]
    · exact h.1
  -- the first point in `[a, b]` where the function is not positive
  have hcomp : IsCompact (Icc a b ∩ {t | f t ≤ 0}) :=
    isCompact_Icc.inter_right (isClosed_le hc continuous_const)
  obtain ⟨c, ⟨⟨hac, hcb⟩, hc0⟩, hmin⟩ := hcomp.exists_isLeast ⟨b, ⟨hab.le, le_rfl⟩, fb.le⟩
  have hac' : a < c := lt_of_le_of_ne hac fun e => by
    have : f c ≤ 0 := hc0
    rw [← e] at this; linarith
  have before : ∀ t, a ≤ t → t < c → 0 < f t := by
    intro t hat htc
    by_contra hn
    exact absurd (hmin ⟨⟨hat, by linarith⟩, not_lt.mp hn⟩) (not_le.mpr htc)
  have hfc : f c = 0 := by
    refine le_antisymm hc0 ?_
    have : Tendsto f (𝓝[<] c) (𝓝 (f c)) := (hc.tendsto c).mono_left nhdsWithin_le_nhds
    refine ge_of_tendsto this ?_
    filter_upwards [Ioo_mem_nhdsLT hac'] with t ht
    exact (before t ht.1.le ht.2).le
  obtain ⟨η, hη, hl⟩ := near c hfc
  obtain ⟨t, hat, htc, htη⟩ : ∃ t, a ≤ t ∧ t < c ∧ c - t < η :=
    ⟨c - min η (c - a) / 2, by have := min_le_right η (c - a); linarith [sub_pos.mpr hac'],
      by have := lt_min hη (sub_pos.mpr hac'); linarith,
      by have := min_le_left η (c - a); linarith⟩
  have h := hl t htc.ne (by rw [abs_of_neg] <;> linarith)
  rw [div_pos_iff] at h
  have := before t hat htc
  rcases h with h | h <;> linarith [h.1, h.2]

/-- the total asset volatility implied by the second Merton equation at `d₂ = u` -/
def vol (e w u : ℝ) : ℝ := e * w / (e + Φ u)

/-- the remaining Merton equation in `d₂ = u`; `k` is the value of payouts relative to the ex-dividend value -/
def eqn (k e w u : ℝ) : ℝ := (Φ (u + vol e w u) + k) * Real.exp (u * vol e w u + vol e w u ^ 2 / 2) - e - Φ u

theorem vol_pos {e w : ℝ} (he : 0 < e) (hw : 0 < w) (u : ℝ) : 0 < vol e w u :=
  div_pos (mul_pos he hw) (add_pos he (Φ_pos u))

theorem vol_deriv {e w : ℝ} (he : 0 < e) (u : ℝ) :
    HasDerivAt (vol e w) (-(vol e w u * φ u / (e + Φ u))) u := by
  have hne : e + Φ u ≠ 0 := (add_pos he (Φ_pos u)).ne'
  have h := (hasDerivAt_const u (e * w)).div ((Φ_hasDerivAt u).const_add e) hne
  refine HasDerivAt.congr_deriv h ?_
  unfold vol
  field_simp
  ring

theorem eqn_deriv {k e w : ℝ} (he : 0 < e) (u : ℝ) :
    HasDerivAt (eqn k e w)
      (φ (u + vol e w u) * (1 - vol e w u * φ u / (e + Φ u)) * Real.exp (u * vol e w u + vol e w u ^ 2 / 2)
        + (Φ (u + vol e w u) + k) * (Real.exp (u * vol e w u + vol e w u ^ 2 / 2)
          * (vol e w u - (u + vol e w u) * (vol e w u * φ u / (e + Φ u)))) - φ u) u := by
  have hv := vol_deriv (w := w) he u
  have h1 := (Φ_hasDerivAt (u + vol e w u)).comp u ((hasDerivAt_id u).add hv)
  have h2 := (((hasDerivAt_id u).mul hv).add ((hv.pow 2).div_const 2)).exp
  have h := (((h1.add_const k).mul h2).sub_const e).sub (Φ_hasDerivAt u)
  refine HasDerivAt.congr_deriv h ?_
  simp
  ring

theorem shift (u v : ℝ) : φ (u + v) * Real.exp (u * v + v ^ 2 / 2) = φ u := by
  have h := exp_mul_φ v (u + v)
  rw [show u + v - v = u by ring, show v * (u + v) - v ^ 2 / 2 = u * v + v ^ 2 / 2 by ring] at h
  rw [← h]; ring

theorem eqn_zero {k e w : ℝ} (hk0 : 0 ≤ k) (he : 0 < e) (hw : 0 < w) (u : ℝ) (h0 : eqn k e w u = 0) :
    0 < φ (u + vol e w u) * (1 - vol e w u * φ u / (e + Φ u)) * Real.exp (u * vol e w u + vol e w u ^ 2 / 2)
        + (Φ (u + vol e w u) + k) * (Real.exp (u * vol e w u + vol e w u ^ 2 / 2)
          * (vol e w u - (u + vol e w u) * (vol e w u * φ u / (e + Φ u)))) - φ u := by
  have hv := vol_pos he hw u
  have hc : 0 < e + Φ u := add_pos he (Φ_pos u)
  unfold eqn at h0
  generalize vol e w u = v at *
  have hs := shift u v
  have hX : 0 < Real.exp (u * v + v ^ 2 / 2) := Real.exp_pos _
  have hvar := variance_add (u + v) hk0
  have hq : 0 < Φ (u + v) + k := add_pos_of_pos_of_nonneg (Φ_pos _) hk0
  generalize hXd : Real.exp (u * v + v ^ 2 / 2) = X at *
  generalize φ (u + v) = p at *
  generalize Φ (u + v) + k = q at *
  generalize u + v = d at *
  have hcq : e + Φ u = q * X := by linarith
  rw [hcq] at hc ⊢
  rw [← hs]
  have hk : v * (p * X) / (q * X) = v * p / q := by field_simp
  rw [hk]
  have : p * (1 - v * p / q) * X + q * (X * (v - d * (v * p / q))) - p * X
      = X * v * ((q ^ 2 - d * p * q - p ^ 2) / q) := by
    field_simp
    ring
  rw [this]
  positivity

theorem eqn_unique {k e w : ℝ} (hk : 0 ≤ k) (he : 0 < e) (hw : 0 < w) {x y : ℝ} (hx : eqn k e w x = 0) (hy : eqn k e w y = 0) : x = y :=
  zero_unique (fun u => eqn_deriv he u) (fun u h => eqn_zero hk he hw u h) hx hy

theorem eqn_exists {k e w : ℝ} (hk0 : 0 ≤ k) (he : 0 < e) (hw : 0 < w) : ∃ u, eqn k e w u = 0 := by
  have hc : Continuous (eqn k e w) := continuous_iff_continuousAt.mpr fun u => (eqn_deriv he u).continuousAt
  have hv0 : ∀ u, e * w / (e + 1) ≤ vol e w u := by
    intro u
    unfold vol
    have := Φ_le_one u
    have := Φ_pos u
    gcongr
  have hv1 : ∀ u, vol e w u ≤ w := by
    intro u
    unfold vol
    have := Φ_pos u
    rw [div_le_iff₀ (by linarith)]
    nlinarith
  -- a point where the left side is too small
  obtain ⟨a, ha⟩ : ∃ a, eqn k e w a < 0 := by
    let m := e * w / (e + 1)
    have hm : 0 < m := by positivity
    let a := min 0 ((Real.log (e / (1 + k)) - w ^ 2 / 2) / m)
    refine ⟨a, ?_⟩
    have ha0 : a ≤ 0 := min_le_left _ _
    have ha1 : a * m ≤ Real.log (e / (1 + k)) - w ^ 2 / 2 := by
      have := min_le_right 0 ((Real.log (e / (1 + k)) - w ^ 2 / 2) / m)
      rwa [le_div_iff₀ hm] at this
    have hva := hv0 a
    have hvb := hv1 a
    have hvp := vol_pos he hw a
    have hle : a * vol e w a + vol e w a ^ 2 / 2 ≤ Real.log (e / (1 + k)) := by
      have h1 : a * vol e w a ≤ a * m := mul_le_mul_of_nonpos_left hva ha0
      have h2 : vol e w a ^ 2 ≤ w ^ 2 := by gcongr
      linarith
    have hX : Real.exp (a * vol e w a + vol e w a ^ 2 / 2) ≤ e / (1 + k) := by
      calc _ ≤ Real.exp (Real.log (e / (1 + k))) := Real.exp_le_exp.mpr hle
        _ = e / (1 + k) := Real.exp_log (by positivity)
    have h1 := Φ_lt_one (a + vol e w a)
    have h0 := Φ_pos (a + vol e w a)
    have hX0 : 0 < Real.exp (a * vol e w a + vol e w a ^ 2 / 2) := Real.exp_pos _
    have := Φ_pos a
    have hlt : (Φ (a + vol e w a) + k) * Real.exp (a * vol e w a + vol e w a ^ 2 / 2) < e := by
      calc _ < (1 + k) * Real.exp (a * vol e w a + vol e w a ^ 2 / 2) := by
            refine mul_lt_mul_of_pos_right ?_ hX0
            linarith
        _ ≤ (1 + k) * (e / (1 + k)) := mul_le_mul_of_nonneg_left hX (by linarith)
        _ = e := by field_simp
    unfold eqn
    linarith
  -- a point where it is too large
  obtain ⟨b, hb⟩ : ∃ b, 0 < eqn k e w b := by
    let m := e * w / (e + 1)
    have hm : 0 < m := by positivity
    let b := 2 * (e + 1) / m
    have hb0 : 0 < b := by positivity
    refine ⟨b, ?_⟩
    have hvp := vol_pos he hw b
    have hbm : b * m = 2 * (e + 1) := by simp only [b]; field_simp
    have hbv : 2 * (e + 1) ≤ b * vol e w b := by rw [← hbm]; exact mul_le_mul_of_nonneg_left (hv0 b) hb0.le
    have hX : 2 * (e + 1) + 1 ≤ Real.exp (b * vol e w b + vol e w b ^ 2 / 2) := by
      have := Real.add_one_le_exp (b * vol e w b + vol e w b ^ 2 / 2)
      have : 0 ≤ vol e w b ^ 2 := sq_nonneg _
      linarith
    have hhalf : 1 / 2 ≤ Φ (b + vol e w b) := by
      rw [← Φ_zero]; exact Φ_strictMono.monotone (by linarith)
    have h1 := Φ_le_one b
    have hge : 1 / 2 * (2 * (e + 1) + 1)
        ≤ (Φ (b + vol e w b) + k) * Real.exp (b * vol e w b + vol e w b ^ 2 / 2) := by
      refine mul_le_mul (by linarith) hX (by positivity) (by linarith)
    unfold eqn
    linarith
  obtain ⟨u, hu⟩ := mem_range_of_exists_le_of_exists_ge hc ⟨a, ha.le⟩ ⟨b, hb.le⟩
  exact ⟨u, hu⟩

/-- the two Merton equations in `d₂` and total volatility -/
theorem system_iff {k E B w A v : ℝ} (hE : 0 < E) (hB : 0 < B) (hA : 0 < A) (hv : 0 < v) :
    (A * (Φ (Real.log (A / B) / v + v / 2) + k) - B * Φ (Real.log (A / B) / v - v / 2) = E ∧
      A * v * (Φ (Real.log (A / B) / v + v / 2) + k) = E * w) ↔
    ∃ u, eqn k (E / B) w u = 0 ∧ v = vol (E / B) w u ∧ A = B * Real.exp (u * v + v ^ 2 / 2) := by
  have he : 0 < E / B := div_pos hE hB
  constructor
  · rintro ⟨h1, h2⟩
    generalize hu : Real.log (A / B) / v - v / 2 = u at h1
    have hd : Real.log (A / B) / v + v / 2 = u + v := by rw [← hu]; ring
    rw [hd] at h1 h2
    have hlog : Real.log (A / B) = u * v + v ^ 2 / 2 := by
      rw [← hu]; field_simp; ring
    have hAe : A = B * Real.exp (u * v + v ^ 2 / 2) := by
      rw [← hlog, Real.exp_log (div_pos hA hB)]; field_simp
    have hAP : A * (Φ (u + v) + k) = E + B * Φ u := by linarith
    have hve : v * (E + B * Φ u) = E * w := by rw [← hAP]; linarith
    have hpos : 0 < E + B * Φ u := add_pos hE (mul_pos hB (Φ_pos u))
    have hvol : v = vol (E / B) w u := by
      unfold vol
      have : E / B + Φ u = (E + B * Φ u) / B := by field_simp
      rw [this, eq_div_iff (by positivity)]
      field_simp
      linarith
    refine ⟨u, ?_, hvol, hAe⟩
    unfold eqn
    rw [← hvol]
    have hx : Real.exp (u * v + v ^ 2 / 2) = A / B := by rw [hAe]; field_simp
    rw [hx]
    have : (Φ (u + v) + k) * (A / B) = (E + B * Φ u) / B := by rw [← hAP]; ring
    rw [this]
    field_simp
    ring
  · rintro ⟨u, h0, hvol, hAe⟩
    have hlog : Real.log (A / B) = u * v + v ^ 2 / 2 := by
      rw [hAe, mul_div_assoc, mul_div_cancel₀ _ hB.ne', Real.log_exp]
    have hd1 : Real.log (A / B) / v + v / 2 = u + v := by rw [hlog]; field_simp; ring
    have hd2 : Real.log (A / B) / v - v / 2 = u := by rw [hlog]; field_simp; ring
    unfold eqn at h0
    rw [← hvol] at h0
    have hx : Real.exp (u * v + v ^ 2 / 2) = A / B := by rw [hAe]; field_simp
    rw [hx] at h0
    have hAP : A * (Φ (u + v) + k) = E + B * Φ u := by
      have : (Φ (u + v) + k) * (A / B) = E / B + Φ u := by linarith
      field_simp at this
      linarith
    refine ⟨?_, ?_⟩
    · rw [hd1, hd2]; linarith
    · rw [hd1, mul_right_comm, hAP]
      unfold vol at hvol
      have hpos : 0 < E + B * Φ u := add_pos hE (mul_pos hB (Φ_pos u))
      have : E / B + Φ u = (E + B * Φ u) / B := by field_simp
      rw [this] at hvol
      rw [hvol]
      field_simp

end Mills
end
end Frds

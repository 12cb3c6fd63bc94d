import Verif.Model.Cca
import Verif.Lemmas.BlackScholes

/-! Properties C07-C09: contingent claim analysis. -/
set_option linter.unusedSimpArgs false

namespace Frds.Props
noncomputable section
open Frds Frds.Model Classical

/-- finite inputs -/
def ccaIn (E vol r D T c : ℝ) : CcaIn := ⟨.fin E, .fin vol, .fin r, .fin D, .fin T, .fin c⟩

/-- the first distance, as computed -/
def ccaD1 (A s r D T : ℝ) : ℝ := (Real.log (A / D) + (r + s ^ 2 / 2) * T) / (s * Real.sqrt T)

theorem ccaD1_eq {A s r D T : ℝ} (hA : 0 < A) (hs : 0 < s) (hD : 0 < D) (hT : 0 < T) :
    ccaD1 A s r D T = Real.log (A / (D * Real.exp (-r * T))) / (s * Real.sqrt T) + s * Real.sqrt T / 2 := by
  have hs' : 0 < s * Real.sqrt T := mul_pos hs (Real.sqrt_pos.mpr hT)
  have hsq : Real.sqrt T * Real.sqrt T = T := Real.mul_self_sqrt hT.le
  rw [ccaD1, Real.log_div hA.ne' hD.ne', Real.log_div hA.ne' (by positivity : D * Real.exp (-r * T) ≠ 0),
    Real.log_mul hD.ne' (Real.exp_ne_zero _), Real.log_exp, eq_comm, div_add' _ _ _ hs'.ne', div_left_inj' hs'.ne']
  linear_combination (s ^ 2 / 2) * hsq

/-- the put leg as computed is the Black put -/
theorem cca_put {A s r D T : ℝ} (hA : 0 < A) (hs : 0 < s) (hD : 0 < D) (hT : 0 < T) :
    D * Real.exp (-r * T) * Φ (-(ccaD1 A s r D T - s * Real.sqrt T)) - A * Φ (-ccaD1 A s r D T)
      = bs (D * Real.exp (-r * T)) A (s * Real.sqrt T) := by
  rw [ccaD1_eq hA hs hD hT, bs_swap _ hA (by positivity)]
  congr 4
  ring

theorem cca_call {A s r D T : ℝ} (hA : 0 < A) (hs : 0 < s) (hD : 0 < D) (hT : 0 < T) :
    A * Φ (ccaD1 A s r D T) - D * Real.exp (-r * T) * Φ (ccaD1 A s r D T - s * Real.sqrt T)
      = bs A (D * Real.exp (-r * T)) (s * Real.sqrt T) := by
  rw [ccaD1_eq hA hs hD hT, bs]
  congr 3
  ring

theorem sq_sq_fin (b : ℝ) : XR.sq (XR.sq (.fin b)) = .fin ((b ^ 2) ^ 2) := by simp

/-- the equations at a finite point with non-zero components -/
theorem ccaFunc_fin {E vol r D T c a b : ℝ} (hD : 0 < D) (hT : 0 < T) (ha : a ≠ 0) (hb : b ≠ 0) :
    ccaFunc (ccaIn E vol r D T c) (.fin a, .fin b)
      = .ok (.fin (E - bs (a ^ 2) (D * Real.exp (-r * T)) (b ^ 2 * Real.sqrt T)),
          .fin (E * vol - a ^ 2 * b ^ 2 * Φ (ccaD1 (a ^ 2) (b ^ 2) r D T))) := by
  have hA : 0 < a ^ 2 := by positivity
  have hs : 0 < b ^ 2 := by positivity
  have hs' : 0 < b ^ 2 * Real.sqrt T := mul_pos hs (Real.sqrt_pos.mpr hT)
  have e := cca_call (r := r) hA hs hD hT
  unfold ccaFunc ccaIn
  simp only [XR.fin_sq, XR.fin_div _ hD.ne', mathLog, mathSqrt, if_pos (div_pos hA hD), if_neg hT.not_gt,
    bind, Except.bind, pure, Except.pure, XR.ofNat_def, XR.fin_div _ (by norm_num : (OfNat.ofNat 2 : ℝ) ≠ 0),
    XR.fin_add, XR.fin_mul, XR.fin_neg, XR.fin_exp, XR.fin_div _ hs'.ne', XR.fin_sub, XR.ncdf_fin]
  rw [← e]
  unfold ccaD1
  congr 3
  ring

/-- the result for a finite solver answer with non-zero components -/
theorem ccaTail_fin {E vol r D T c a b : ℝ} (hD : 0 < D) (hT : 0 < T) (ha : a ≠ 0) (hb : b ≠ 0) :
    ccaTail (ccaIn E vol r D T c) (.fin a, .fin b)
      = .ok (.fin (bs (D * Real.exp (-r * T)) (a ^ 2) (b ^ 2 * Real.sqrt T)),
          .fin (bs (D * Real.exp (-r * T)) (a ^ 2) (b ^ 2 * Real.sqrt T)
            - (1 - Real.exp (-(c / 10000) * (D / (D * Real.exp (-r * T)
                - bs (D * Real.exp (-r * T)) (a ^ 2) (b ^ 2 * Real.sqrt T)) - 1) * T))
              * D * Real.exp (-r * T))) := by
  have hA : 0 < a ^ 2 := by positivity
  have hs : 0 < b ^ 2 := by positivity
  have hs' : 0 < b ^ 2 * Real.sqrt T := mul_pos hs (Real.sqrt_pos.mpr hT)
  have hB : 0 < D * Real.exp (-r * T) := by positivity
  have hdebt : D * Real.exp (-r * T) - bs (D * Real.exp (-r * T)) (a ^ 2) (b ^ 2 * Real.sqrt T) ≠ 0 := by
    have := bs_lt (s := b ^ 2 * Real.sqrt T) hB hA; linarith
  have e := cca_put (r := r) hA hs hD hT
  have hd1 : (Real.log (a ^ 2 / D) + (r + (b ^ 2) ^ 2 / 2) * T) / (b ^ 2 * Real.sqrt T)
      = ccaD1 (a ^ 2) (b ^ 2) r D T := rfl
  unfold ccaTail ccaIn
  simp only [XR.fin_sq, XR.fin_div _ hD.ne', mathLog, mathSqrt, if_pos (div_pos hA hD), if_neg hT.not_gt,
    bind, Except.bind, pure, Except.pure, XR.ofNat_def, XR.fin_div _ (by norm_num : (OfNat.ofNat 2 : ℝ) ≠ 0),
    XR.fin_add, XR.fin_mul, XR.fin_neg, XR.fin_exp, XR.fin_div _ hs'.ne', XR.fin_sub, XR.ncdf_fin, hd1, e,
    XR.one_def, XR.fin_div _ hdebt, XR.fin_div _ (by norm_num : (OfNat.ofNat 10000 : ℝ) ≠ 0)]

theorem cca_ok {solve : Solver} {i : CcaIn} {x : XR × XR}
    (h : solve (ccaFunc i) (i.equity, i.volatility) = .ok x) : ccaEstimate solve i = ccaTail i x := by
  unfold ccaEstimate
  rw [h]; rfl

theorem callValue_eq {S K r T σ : ℝ} (hS : 0 < S) (hK : 0 < K) (hT : 0 < T) (hσ : 0 < σ) :
    Spec.callValue S K r T σ 0 = bs S (K * Real.exp (-r * T)) (σ * Real.sqrt T) ∧
    Spec.putValue S K r T σ 0 = bs (K * Real.exp (-r * T)) S (σ * Real.sqrt T) := by
  have hs : 0 < σ * Real.sqrt T := mul_pos hσ (Real.sqrt_pos.mpr hT)
  have hsq : Real.sqrt T ^ 2 = T := Real.sq_sqrt hT.le
  have key : ∀ z, Spec.terminalPrice S r T σ 0 z
      = (S * Real.exp (r * T)) *
        Real.exp (σ * Real.sqrt T * z - (σ * Real.sqrt T) ^ 2 / 2) := by
    intro z
    rw [Spec.terminalPrice, mul_assoc S, ← Real.exp_add, mul_pow, hsq]
    congr 2; ring
  have hhom : Real.exp (-r * T) * (S * Real.exp (r * T)) = S := by
    rw [mul_left_comm, ← Real.exp_add]; simp
  rw [Spec.callValue, Spec.putValue]
  simp only [key]
  rw [bs_expectation (by positivity) hK hs, bs_expectation_put (by positivity) hK hs,
    ← bs_homog _ (Real.exp_pos _), ← bs_homog _ (Real.exp_pos _), hhom, mul_comm K]
  exact ⟨rfl, rfl⟩

/-! ### C07 -/

/-- C07. If the solver returns an exact root `(a, b)` of its equations, then with asset value `A = a²` and asset
volatility `s = b²`: equity is the value of a call on the assets struck at the barrier, `equity · volatility` is
`delta · A · s`, the returned put is the put on the assets, and the market value of debt used for the CDS leg is
`A - equity`. -/
theorem C07_exact_root (solve : Solver) (E vol r D T c a b : ℝ) (hD : 0 < D) (hT : 0 < T) (ha : a ≠ 0) (hb : b ≠ 0)
    (hx : solve (ccaFunc (ccaIn E vol r D T c)) (.fin E, .fin vol) = .ok (.fin a, .fin b))
    (hroot : ccaFunc (ccaIn E vol r D T c) (.fin a, .fin b) = .ok (0, 0)) :
    E = Spec.callValue (a ^ 2) D r T (b ^ 2) 0 ∧
    E * vol = Φ (ccaD1 (a ^ 2) (b ^ 2) r D T) * (a ^ 2) * (b ^ 2) ∧
    E < a ^ 2 ∧
    ccaEstimate solve (ccaIn E vol r D T c) = .ok (.fin (Spec.putValue (a ^ 2) D r T (b ^ 2) 0),
      .fin (Spec.putValue (a ^ 2) D r T (b ^ 2) 0
        - (1 - Real.exp (-(c / 10000) * (D / (a ^ 2 - E) - 1) * T)) * D * Real.exp (-r * T))) := by
  have hA : 0 < a ^ 2 := by positivity
  have hs : 0 < b ^ 2 := by positivity
  have hB : 0 < D * Real.exp (-r * T) := by positivity
  rw [ccaFunc_fin hD hT ha hb] at hroot
  injection hroot with hroot
  rw [Prod.mk.injEq, XR.zero_def, XR.fin_inj, XR.fin_inj] at hroot
  obtain ⟨h1, h2⟩ := hroot
  have hE : E = bs (a ^ 2) (D * Real.exp (-r * T)) (b ^ 2 * Real.sqrt T) := by linarith
  have hpar := bs_parity (b ^ 2 * Real.sqrt T) hA hB
  have hv := callValue_eq (r := r) hA hD hT hs
  refine ⟨by rw [hv.1]; exact hE, by linarith, by rw [hE]; exact bs_lt hA hB, ?_⟩
  rw [cca_ok (i := ccaIn E vol r D T c) hx, ccaTail_fin hD hT ha hb, hv.2]
  have hdebt : D * Real.exp (-r * T) - bs (D * Real.exp (-r * T)) (a ^ 2) (b ^ 2 * Real.sqrt T) = a ^ 2 - E := by
    rw [hE]; linarith
  rw [hdebt]

/-! ### C08 -/

/-- C08. For any solver answer with non-zero finite components the put lies strictly between zero and the
discounted barrier. -/
theorem C08_put_bounds (solve : Solver) (E vol r D T c a b : ℝ) (hD : 0 < D) (hT : 0 < T) (ha : a ≠ 0) (hb : b ≠ 0)
    (hx : solve (ccaFunc (ccaIn E vol r D T c)) (.fin E, .fin vol) = .ok (.fin a, .fin b)) :
    ∃ put second : ℝ, ccaEstimate solve (ccaIn E vol r D T c) = .ok (.fin put, .fin second) ∧
      0 < put ∧ put < D * Real.exp (-r * T) ∧ put = Spec.putValue (a ^ 2) D r T (b ^ 2) 0 := by
  have hA : 0 < a ^ 2 := by positivity
  have hs : 0 < b ^ 2 := by positivity
  have hs' : 0 < b ^ 2 * Real.sqrt T := mul_pos hs (Real.sqrt_pos.mpr hT)
  have hB : 0 < D * Real.exp (-r * T) := by positivity
  refine ⟨_, _, (cca_ok (i := ccaIn E vol r D T c) hx).trans (ccaTail_fin hD hT ha hb), bs_pos hB hA hs',
    bs_lt hB hA, (callValue_eq (r := r) hA hD hT hs).2.symm⟩

theorem cds_bounds {B put D T c : ℝ} (hput : 0 < put) (hlt : put < B) (hBD : B ≤ D) (hT : 0 < T) (hc : 0 ≤ c) :
    0 ≤ 1 - Real.exp (-(c / 10000) * (D / (B - put) - 1) * T) ∧
    1 - Real.exp (-(c / 10000) * (D / (B - put) - 1) * T) < 1 := by
  have hd : 0 < B - put := by linarith
  have h1 : 1 < D / (B - put) := by rw [lt_div_iff₀ hd]; linarith
  have h2 : -(c / 10000) * (D / (B - put) - 1) * T ≤ 0 := by
    have : 0 ≤ c / 10000 * (D / (B - put) - 1) * T := by
      have : 0 ≤ D / (B - put) - 1 := by linarith
      positivity
    linarith
  have h3 := Real.exp_le_one_iff.mpr h2
  have h4 := Real.exp_pos (-(c / 10000) * (D / (B - put) - 1) * T)
  constructor <;> linarith

/-- C08. With a non-negative spread and rate the CDS put lies in `[0, D e^{-rT})`: the second result is at most
the first and exceeds `first - D e^{-rT}`; with a zero spread they coincide. -/
theorem C08_cds_bounds (solve : Solver) (E vol r D T c a b : ℝ) (hD : 0 < D) (hT : 0 < T) (ha : a ≠ 0) (hb : b ≠ 0)
    (hr : 0 ≤ r) (hc : 0 ≤ c)
    (hx : solve (ccaFunc (ccaIn E vol r D T c)) (.fin E, .fin vol) = .ok (.fin a, .fin b)) :
    ∃ put second : ℝ, ccaEstimate solve (ccaIn E vol r D T c) = .ok (.fin put, .fin second) ∧
      second ≤ put ∧ put - D * Real.exp (-r * T) < second ∧ (c = 0 → second = put) ∧
      (0 < c → second < put) := by
  have hA : 0 < a ^ 2 := by positivity
  have hs : 0 < b ^ 2 := by positivity
  have hs' : 0 < b ^ 2 * Real.sqrt T := mul_pos hs (Real.sqrt_pos.mpr hT)
  have hB : 0 < D * Real.exp (-r * T) := by positivity
  have hBD : D * Real.exp (-r * T) ≤ D := by
    have : Real.exp (-r * T) ≤ 1 := Real.exp_le_one_iff.mpr (by nlinarith [mul_nonneg hr hT.le])
    nlinarith
  have hp := bs_pos hB hA hs'
  have hl := bs_lt (s := b ^ 2 * Real.sqrt T) hB hA
  have hq := cds_bounds hp hl hBD hT hc
  refine ⟨_, _, (cca_ok (i := ccaIn E vol r D T c) hx).trans (ccaTail_fin hD hT ha hb), ?_, ?_, ?_, ?_⟩
  · rw [mul_assoc]
    have := mul_nonneg hq.1 hB.le
    linarith
  · rw [mul_assoc]
    have := mul_lt_mul_of_pos_right hq.2 hB
    linarith
  · rintro rfl
    simp
  · intro hc'
    have hd : 0 < D * Real.exp (-r * T) - bs (D * Real.exp (-r * T)) (a ^ 2) (b ^ 2 * Real.sqrt T) := by linarith
    have h1 : 1 < D / (D * Real.exp (-r * T) - bs (D * Real.exp (-r * T)) (a ^ 2) (b ^ 2 * Real.sqrt T)) := by
      rw [lt_div_iff₀ hd]; linarith
    have h2 : Real.exp (-(c / 10000) * (D / (D * Real.exp (-r * T)
        - bs (D * Real.exp (-r * T)) (a ^ 2) (b ^ 2 * Real.sqrt T)) - 1) * T) < 1 := by
      rw [Real.exp_lt_one_iff]
      have : 0 < c / 10000 * (D / (D * Real.exp (-r * T)
        - bs (D * Real.exp (-r * T)) (a ^ 2) (b ^ 2 * Real.sqrt T)) - 1) * T := by
        have : 0 < D / (D * Real.exp (-r * T)
          - bs (D * Real.exp (-r * T)) (a ^ 2) (b ^ 2 * Real.sqrt T)) - 1 := by linarith
        positivity
      linarith
    rw [mul_assoc]
    have := mul_pos (sub_pos.mpr h2) hB
    linarith

/-- C08. A larger CDS spread means a smaller contribution, for the same solver answer (which does not depend on
the spread) and a non-negative rate. -/
theorem C08_spread (solve : Solver) (E vol r D T c c' a b : ℝ) (hD : 0 < D) (hT : 0 < T) (ha : a ≠ 0) (hb : b ≠ 0)
    (hr : 0 ≤ r) (hc : c < c')
    (hx : solve (ccaFunc (ccaIn E vol r D T c)) (.fin E, .fin vol) = .ok (.fin a, .fin b)) :
    ∃ put second second' : ℝ, ccaEstimate solve (ccaIn E vol r D T c) = .ok (.fin put, .fin second) ∧
      ccaEstimate solve (ccaIn E vol r D T c') = .ok (.fin put, .fin second') ∧ second' < second := by
  have hA : 0 < a ^ 2 := by positivity
  have hs : 0 < b ^ 2 := by positivity
  have hs' : 0 < b ^ 2 * Real.sqrt T := mul_pos hs (Real.sqrt_pos.mpr hT)
  have hB : 0 < D * Real.exp (-r * T) := by positivity
  have hBD : D * Real.exp (-r * T) ≤ D := by
    have : Real.exp (-r * T) ≤ 1 := Real.exp_le_one_iff.mpr (by nlinarith [mul_nonneg hr hT.le])
    nlinarith
  have hp := bs_pos hB hA hs'
  have hl := bs_lt (s := b ^ 2 * Real.sqrt T) hB hA
  have hx' : solve (ccaFunc (ccaIn E vol r D T c')) (.fin E, .fin vol) = .ok (.fin a, .fin b) := hx
  refine ⟨_, _, _, (cca_ok (i := ccaIn E vol r D T c) hx).trans (ccaTail_fin hD hT ha hb),
    (cca_ok (i := ccaIn E vol r D T c') hx').trans (ccaTail_fin hD hT ha hb), ?_⟩
  have hd : 0 < D * Real.exp (-r * T) - bs (D * Real.exp (-r * T)) (a ^ 2) (b ^ 2 * Real.sqrt T) := by linarith
  have h1 : 1 < D / (D * Real.exp (-r * T) - bs (D * Real.exp (-r * T)) (a ^ 2) (b ^ 2 * Real.sqrt T)) := by
    rw [lt_div_iff₀ hd]; linarith
  have hk : 0 < (D / (D * Real.exp (-r * T)
      - bs (D * Real.exp (-r * T)) (a ^ 2) (b ^ 2 * Real.sqrt T)) - 1) * T := mul_pos (by linarith) hT
  have he : Real.exp (-(c' / 10000) * (D / (D * Real.exp (-r * T)
      - bs (D * Real.exp (-r * T)) (a ^ 2) (b ^ 2 * Real.sqrt T)) - 1) * T)
      < Real.exp (-(c / 10000) * (D / (D * Real.exp (-r * T)
      - bs (D * Real.exp (-r * T)) (a ^ 2) (b ^ 2 * Real.sqrt T)) - 1) * T) := by
    apply Real.exp_lt_exp.mpr
    have : c / 10000 < c' / 10000 := by linarith
    have := mul_lt_mul_of_pos_right this hk
    linarith
  have := mul_lt_mul_of_pos_right he hB
  linarith

/-! ### C09 -/

theorem sq_neg (x : XR) : XR.sq (-x) = XR.sq x := by
  cases x
  · rfl
  · rfl
  · rfl
  · simp [XR.sq]

/-- C09. Only the squares of the solver's answer matter: the signs of its components are irrelevant, for all
inputs, finite or not. -/
theorem C09_signs (solve solve' : Solver) (i : CcaIn) (x y : XR)
    (h : solve (ccaFunc i) (i.equity, i.volatility) = .ok (x, y))
    (h' : solve' (ccaFunc i) (i.equity, i.volatility) = .ok (-x, y) ∨
      solve' (ccaFunc i) (i.equity, i.volatility) = .ok (x, -y) ∨
      solve' (ccaFunc i) (i.equity, i.volatility) = .ok (-x, -y)) :
    ccaEstimate solve i = ccaEstimate solve' i := by
  rw [cca_ok h]
  rcases h' with h' | h' | h' <;> rw [cca_ok h'] <;> simp only [ccaTail, sq_neg]

/-- C09. The equations the solver sees are symmetric in the signs as well. -/
theorem C09_equations_even (i : CcaIn) (x y : XR) :
    ccaFunc i (-x, y) = ccaFunc i (x, y) ∧ ccaFunc i (x, -y) = ccaFunc i (x, y) := by
  simp only [ccaFunc, sq_neg, and_self]

/-- C09. A zero asset value raises `ValueError`, as does an exception in the solver reach the caller. -/
theorem C09_zero_asset (solve : Solver) (E vol r D T c : ℝ) (hD : 0 < D) (y : XR)
    (h : solve (ccaFunc (ccaIn E vol r D T c)) (.fin E, .fin vol) = .ok (0, y)) :
    ccaEstimate solve (ccaIn E vol r D T c) = .error .valueError := by
  rw [cca_ok (i := ccaIn E vol r D T c) h]
  unfold ccaTail ccaIn
  simp only [XR.zero_def, XR.fin_sq, XR.fin_div _ hD.ne', mathLog]
  norm_num
  rfl

/-- C09. Exceptions of the solver (or of the equations evaluated by it) reach the caller. -/
theorem C09_solver_error (solve : Solver) (i : CcaIn) (e : PyErr)
    (h : solve (ccaFunc i) (i.equity, i.volatility) = .error e) : ccaEstimate solve i = .error e := by
  unfold ccaEstimate; rw [h]; rfl

/-- C09. A zero asset volatility makes the put worth its discounted intrinsic value, except at the money where the
result is NaN. -/
theorem C09_zero_volatility (solve : Solver) (E vol r D T c a : ℝ) (hD : 0 < D) (hT : 0 < T) (ha : a ≠ 0)
    (h : solve (ccaFunc (ccaIn E vol r D T c)) (.fin E, .fin vol) = .ok (.fin a, 0)) :
    (a ^ 2 ≠ D * Real.exp (-r * T) → ∃ second,
      ccaEstimate solve (ccaIn E vol r D T c) = .ok (.fin (max (D * Real.exp (-r * T) - a ^ 2) 0), second)) ∧
    (a ^ 2 = D * Real.exp (-r * T) → ccaEstimate solve (ccaIn E vol r D T c) = .ok (.nan, .nan)) := by
  have hA : 0 < a ^ 2 := by positivity
  have hB : 0 < D * Real.exp (-r * T) := by positivity
  have hlog : Real.log (a ^ 2 / D) + r * T = Real.log (a ^ 2) - Real.log (D * Real.exp (-r * T)) := by
    rw [Real.log_div hA.ne' hD.ne', Real.log_mul hD.ne' (Real.exp_ne_zero _), Real.log_exp]; ring
  have hnum : (Real.log (a ^ 2 / D) + (r + ((0 : ℝ) ^ 2) ^ 2 / 2) * T)
      = Real.log (a ^ 2) - Real.log (D * Real.exp (-r * T)) := by rw [← hlog]; ring
  have hnum' : (Real.log (a ^ 2 / D) + (r + ((0 : ℝ) ^ 2) ^ 2 / OfNat.ofNat 2) * T)
      = Real.log (a ^ 2) - Real.log (D * Real.exp (-r * T)) := hnum
  have key : ccaTail (ccaIn E vol r D T c) (.fin a, 0) = (do
      let d1 := XR.infSign (Real.log (a ^ 2) - Real.log (D * Real.exp (-r * T)))
      let put := .fin (D * Real.exp (-r * T)) * XR.ncdf (-(d1 - .fin 0)) - .fin (a ^ 2) * XR.ncdf (-d1)
      let debt := .fin (D * Real.exp (-r * T)) - put
      let cdsPut := (1 - XR.exp (-(.fin c / 10000) * (.fin D / debt - 1) * .fin T))
        * .fin D * XR.exp (-.fin r * .fin T)
      return (put, put - cdsPut) : Except PyErr (XR × XR)) := by
    unfold ccaTail ccaIn
    simp only [XR.zero_def, XR.fin_sq, XR.fin_div _ hD.ne', mathLog, mathSqrt, if_pos (div_pos hA hD),
      if_neg hT.not_gt, bind, Except.bind, pure, Except.pure, XR.ofNat_def,
      XR.fin_div _ (by norm_num : (OfNat.ofNat 2 : ℝ) ≠ 0), XR.fin_add, XR.fin_mul, XR.fin_neg, XR.fin_exp,
      hnum']
    have hz : (0 : ℝ) ^ 2 * Real.sqrt T = 0 := by ring
    rw [hz, XR.fin_div_zero]
  rw [cca_ok (i := ccaIn E vol r D T c) h, key]
  simp only [bind, Except.bind, pure, Except.pure]
  constructor
  · intro hne
    rcases lt_or_gt_of_ne hne with hlt | hgt
    · have : Real.log (a ^ 2) - Real.log (D * Real.exp (-r * T)) < 0 := by
        have := Real.log_lt_log hA hlt; linarith
      rw [XR.infSign_neg this]
      simp only [XR.ninf_sub_fin, XR.neg_ninf, XR.ncdf_pinf, XR.fin_mul, mul_one, XR.fin_sub]
      rw [max_eq_left (by linarith)]
      exact ⟨_, rfl⟩
    · have : 0 < Real.log (a ^ 2) - Real.log (D * Real.exp (-r * T)) := by
        have := Real.log_lt_log hB hgt; linarith
      rw [XR.infSign_pos this]
      simp only [XR.pinf_sub_fin, XR.neg_pinf, XR.ncdf_ninf, XR.fin_mul, mul_zero, XR.fin_sub, sub_self]
      rw [max_eq_right (by linarith)]
      exact ⟨_, rfl⟩
  · intro heq
    rw [heq, sub_self, XR.infSign_zero]
    simp

/-! ### hypotheses are satisfiable -/

/-- inputs for which `(2, 1)` is an exact root: asset value 4, asset volatility 1 -/
def demoE : ℝ := bs 4 (3 * Real.exp (-(1 / 20) * 2)) (1 * Real.sqrt 2)
def demoVol : ℝ := 4 * 1 * Φ (ccaD1 4 1 (1 / 20) 3 2) / demoE

theorem demo_root : ccaFunc (ccaIn demoE demoVol (1 / 20) 3 2 100) (.fin 2, .fin 1) = .ok (0, 0) := by
  rw [ccaFunc_fin (by norm_num) (by norm_num) (by norm_num) (by norm_num)]
  have hpos : 0 < demoE := bs_pos (by norm_num) (by positivity) (by positivity)
  have e1 : (2 : ℝ) ^ 2 = 4 := by norm_num
  have e2 : (1 : ℝ) ^ 2 = 1 := by norm_num
  rw [e1, e2]
  have h1 : demoE - bs 4 (3 * Real.exp (-(1 / 20) * 2)) (1 * Real.sqrt 2) = 0 := sub_self _
  have h2 : demoE * demoVol - 4 * 1 * Φ (ccaD1 4 1 (1 / 20) 3 2) = 0 := by
    unfold demoVol; field_simp; ring
  rw [h1, h2]
  rfl

/-- a solver that always answers the same point -/
example : ∃ solve : Solver, solve (ccaFunc (ccaIn 1 1 0 1 1 1)) (.fin 1, .fin 1) = .ok (.fin 2, .fin 1) :=
  ⟨fun _ _ => .ok (.fin 2, .fin 1), rfl⟩

/-! ### Concrete cases of the theorems above -/

/-- a solver that returns the root of the case above -/
example := C07_exact_root (fun _ _ => .ok (.fin 2, .fin 1)) demoE demoVol (1 / 20) 3 2 100 2 1 (by norm_num) (by norm_num)
  (by norm_num) (by norm_num) rfl demo_root
example := C08_put_bounds (fun _ _ => .ok (.fin 2, .fin 1)) 1 2 (1 / 20) 3 2 100 2 1 (by norm_num) (by norm_num)
  (by norm_num) (by norm_num) rfl
example := C08_cds_bounds (fun _ _ => .ok (.fin 2, .fin (-1))) 1 2 (1 / 20) 3 2 100 2 (-1) (by norm_num) (by norm_num)
  (by norm_num) (by norm_num) (by norm_num) (by norm_num) rfl
example := C08_spread (fun _ _ => .ok (.fin 2, .fin 1)) 1 2 (1 / 20) 3 2 100 150 2 1 (by norm_num) (by norm_num)
  (by norm_num) (by norm_num) (by norm_num) (by norm_num) rfl
example := C09_signs (fun _ _ => .ok (.fin 2, .fin 1)) (fun _ _ => .ok (.fin (-2), .fin 1)) (ccaIn 1 2 0 3 4 5) (.fin 2) (.fin 1) rfl
  (Or.inl (by rw [XR.fin_neg]))
example := C09_zero_asset (fun _ _ => .ok (0, .fin 1)) 1 2 (1 / 20) 3 2 100 (by norm_num) _ rfl
example := C09_solver_error (fun _ _ => .error .runtimeError) (ccaIn 1 2 0 3 4 5) _ rfl
example := C09_zero_volatility (fun _ _ => .ok (.fin 2, 0)) 1 2 (1 / 20) 3 2 100 2 (by norm_num) (by norm_num) (by norm_num) rfl

end
end Frds.Props

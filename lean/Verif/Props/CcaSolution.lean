import Verif.Props.Cca
import Verif.Lemmas.Mills

/-! C198: the equations of the contingent claim analysis have exactly one solution. -/
set_option linter.unusedSimpArgs false

namespace Frds.Props
noncomputable section
open Frds Frds.Model Classical

namespace CcaSolution

/-- the two equations of the method in `d₂` and total volatility -/
theorem merton_iff {E B w A v : ℝ} (hE : 0 < E) (hB : 0 < B) (hA : 0 < A) (hv : 0 < v) :
    (bs A B v = E ∧ A * v * Φ (Real.log (A / B) / v + v / 2) = E * w) ↔
    ∃ u, Mills.eqn 0 (E / B) w u = 0 ∧ v = Mills.vol (E / B) w u ∧ A = B * Real.exp (u * v + v ^ 2 / 2) := by
  have h := Mills.system_iff (k := 0) (w := w) hE hB hA hv
  simp only [add_zero] at h
  exact h

/-- not a finite number -/
def Bad (x : XR) : Prop := ∀ a, x ≠ .fin a

theorem infSign_zero_or (r : ℝ) : Bad (XR.infSign r) := by
  intro a
  unfold XR.infSign
  split_ifs <;> simp

theorem Bad.mul {x y : XR} (h : Bad x ∨ Bad y) : Bad (x * y) := by
  cases x with
  | fin a =>
    cases y with
    | fin b => exact (h.elim (fun h => h a rfl) (fun h => h b rfl)).elim
    | nan => intro r; simp [HMul.hMul, Mul.mul, XR.mul]
    | pinf => exact infSign_zero_or _
    | ninf => exact infSign_zero_or _
  | nan => intro r; simp [HMul.hMul, Mul.mul, XR.mul]
  | pinf =>
    cases y with
    | fin b => exact infSign_zero_or _
    | _ => intro r; simp [HMul.hMul, Mul.mul, XR.mul]
  | ninf =>
    cases y with
    | fin b => exact infSign_zero_or _
    | _ => intro r; simp [HMul.hMul, Mul.mul, XR.mul]

theorem Bad.sub {y : XR} (h : Bad y) (e r : ℝ) : XR.fin e - y ≠ .fin r := by
  cases y with
  | fin b => exact (h b rfl).elim
  | _ => simp [HSub.hSub, Sub.sub, XR.add, XR.neg]

theorem Bad.sq {x : XR} (h : Bad x) : Bad (XR.sq x) := Bad.mul (.inl h)

/-- a root of the equations has finite components other than zero, if equity times volatility is not zero -/
theorem root_fin {E vol r D T c : ℝ} (hEv : E * vol ≠ 0) (hD : 0 < D) (hT : 0 < T) {x : XR × XR}
    (h : ccaFunc (ccaIn E vol r D T c) x = .ok (0, 0)) : ∃ a b : ℝ, a ≠ 0 ∧ b ≠ 0 ∧ x = (.fin a, .fin b) := by
  obtain ⟨x, y⟩ := x
  unfold ccaFunc at h
  simp only [bind, Except.bind, pure, Except.pure] at h
  cases hl : mathLog (XR.sq x / (ccaIn E vol r D T c).barrier) with
  | error e => rw [hl] at h; cases h
  | ok lg =>
    rw [hl] at h
    simp only [ccaIn, mathSqrt, if_neg hT.not_gt] at h
    injection h with h
    rw [Prod.mk.injEq] at h
    obtain ⟨-, h2⟩ := h
    generalize XR.ncdf _ = z at h2
    rw [XR.fin_mul, XR.zero_def] at h2
    by_cases hx : Bad x
    · exact (Bad.sub (Bad.mul (.inl (Bad.mul (.inl hx.sq)))) _ _ h2).elim
    by_cases hy : Bad y
    · exact (Bad.sub (Bad.mul (.inl (Bad.mul (.inr hy.sq)))) _ _ h2).elim
    by_cases hz : Bad z
    · exact (Bad.sub (Bad.mul (.inr hz)) _ _ h2).elim
    unfold Bad at hx hy hz
    push Not at hx hy hz
    obtain ⟨a, rfl⟩ := hx
    obtain ⟨b, rfl⟩ := hy
    obtain ⟨q, rfl⟩ := hz
    refine ⟨a, b, ?_, ?_, rfl⟩
    · rintro rfl
      simp only [ccaIn, XR.fin_sq, XR.fin_div _ hD.ne', mathLog] at hl
      norm_num at hl
      cases hl
    · rintro rfl
      rw [XR.fin_sq, XR.fin_sq, XR.fin_mul, XR.fin_mul, XR.fin_sub, XR.fin_inj] at h2
      apply hEv
      linarith

/-- the equations at a finite point with non-zero components -/
theorem root_iff {E vol r D T c a b : ℝ} (hD : 0 < D) (hT : 0 < T) (ha : a ≠ 0) (hb : b ≠ 0) :
    ccaFunc (ccaIn E vol r D T c) (.fin a, .fin b) = .ok (0, 0) ↔
    bs (a ^ 2) (D * Real.exp (-r * T)) (b ^ 2 * Real.sqrt T) = E ∧
    a ^ 2 * (b ^ 2 * Real.sqrt T) * Φ (Real.log (a ^ 2 / (D * Real.exp (-r * T))) / (b ^ 2 * Real.sqrt T)
      + b ^ 2 * Real.sqrt T / 2) = E * (vol * Real.sqrt T) := by
  have hT' : 0 < Real.sqrt T := Real.sqrt_pos.mpr hT
  rw [ccaFunc_fin hD hT ha hb, ← ccaD1_eq (by positivity) (by positivity) hD hT]
  constructor
  · intro h
    injection h with h
    rw [Prod.mk.injEq, XR.zero_def, XR.fin_inj, XR.fin_inj] at h
    refine ⟨by linarith [h.1], ?_⟩
    have := h.2
    linear_combination (-Real.sqrt T) * this
  · rintro ⟨h1, h2⟩
    have h3 : E * vol = a ^ 2 * b ^ 2 * Φ (ccaD1 (a ^ 2) (b ^ 2) r D T) := by
      apply mul_right_cancel₀ hT'.ne'
      linear_combination -h2
    rw [h1, h3, sub_self, sub_self]
    rfl

end CcaSolution
open CcaSolution

/-- C198. For a positive equity value, volatility, barrier and maturity and any rate, the two equations handed to the solver
have exactly one solution up to the signs of its components (which the method squares away): there are `a, b > 0` such that
the equations vanish at a point if and only if it is one of `(±a, ±b)`; `a²` is then an asset value and `b²` an asset
volatility for which equity is a call on the assets struck at the barrier. -/
theorem C198_solution (E vol r D T c : ℝ) (hE : 0 < E) (hv : 0 < vol) (hD : 0 < D) (hT : 0 < T) :
    ∃ a b : ℝ, 0 < a ∧ 0 < b ∧ E = Spec.callValue (a ^ 2) D r T (b ^ 2) 0 ∧
    ∀ x : XR × XR, ccaFunc (ccaIn E vol r D T c) x = .ok (0, 0) ↔
      (x.1 = .fin a ∨ x.1 = .fin (-a)) ∧ (x.2 = .fin b ∨ x.2 = .fin (-b)) := by
  have hT' : 0 < Real.sqrt T := Real.sqrt_pos.mpr hT
  have hB : 0 < D * Real.exp (-r * T) := by positivity
  have he : 0 < E / (D * Real.exp (-r * T)) := div_pos hE hB
  have hw : 0 < vol * Real.sqrt T := mul_pos hv hT'
  generalize hBd : D * Real.exp (-r * T) = B at *
  obtain ⟨u, hu⟩ := Mills.eqn_exists le_rfl he hw
  generalize hvd : Mills.vol (E / B) (vol * Real.sqrt T) u = v
  have hvp : 0 < v := by rw [← hvd]; exact Mills.vol_pos he hw u
  generalize hAd : B * Real.exp (u * v + v ^ 2 / 2) = A
  have hA : 0 < A := by rw [← hAd]; positivity
  have hs : 0 < v / Real.sqrt T := div_pos hvp hT'
  have ha2 : Real.sqrt A ^ 2 = A := Real.sq_sqrt hA.le
  have hb2 : Real.sqrt (v / Real.sqrt T) ^ 2 = v / Real.sqrt T := Real.sq_sqrt hs.le
  have hbT : v / Real.sqrt T * Real.sqrt T = v := by field_simp
  have hsol : bs A B v = E ∧ A * v * Φ (Real.log (A / B) / v + v / 2) = E * (vol * Real.sqrt T) :=
    (merton_iff hE hB hA hvp).mpr ⟨u, hu, hvd.symm, hAd.symm⟩
  refine ⟨Real.sqrt A, Real.sqrt (v / Real.sqrt T), Real.sqrt_pos.mpr hA, Real.sqrt_pos.mpr hs, ?_, ?_⟩
  · rw [ha2, hb2, (callValue_eq (r := r) hA hD hT hs).1, hBd, hbT, hsol.1]
  · intro x
    constructor
    · intro h
      obtain ⟨a, b, ha, hb, rfl⟩ := root_fin (mul_pos hE hv).ne' hD hT h
      rw [root_iff hD hT ha hb, hBd] at h
      obtain ⟨u', hu', hv', hA'⟩ := (merton_iff hE hB (by positivity) (by positivity)).mp h
      have e := Mills.eqn_unique le_rfl he hw hu' hu
      subst e
      rw [hvd] at hv'
      rw [hv', hAd] at hA'
      have hb' : b ^ 2 = v / Real.sqrt T := by rw [← hv']; field_simp
      have h1 : a ^ 2 = Real.sqrt A ^ 2 := by rw [ha2, hA']
      have h2 : b ^ 2 = Real.sqrt (v / Real.sqrt T) ^ 2 := by rw [hb2, hb']
      rw [sq_eq_sq_iff_eq_or_eq_neg] at h1 h2
      simpa using And.intro h1 h2
    · obtain ⟨x, y⟩ := x
      rintro ⟨h1, h2⟩
      have key : ∀ a b : ℝ, a ^ 2 = A → b ^ 2 = v / Real.sqrt T →
          ccaFunc (ccaIn E vol r D T c) (.fin a, .fin b) = .ok (0, 0) := by
        intro a b ha hb
        rw [root_iff hD hT (by rintro rfl; norm_num at ha; linarith) (by rintro rfl; norm_num at hb; linarith),
          ha, hb, hBd, hbT]
        exact hsol
      simp only at h1 h2
      rcases h1 with rfl | rfl <;> rcases h2 with rfl | rfl <;> exact key _ _ (by simpa using ha2) (by simpa using hb2)

/-- C198. The estimate does not depend on the solver or on its starting point: any two solvers that find a root of the
equations give the same put price and the same contribution. -/
theorem C198_determined (solve solve' : Solver) (E vol r D T c : ℝ) (hE : 0 < E) (hv : 0 < vol) (hD : 0 < D) (hT : 0 < T)
    (x x' : XR × XR)
    (h : solve (ccaFunc (ccaIn E vol r D T c)) (.fin E, .fin vol) = .ok x)
    (h' : solve' (ccaFunc (ccaIn E vol r D T c)) (.fin E, .fin vol) = .ok x')
    (hx : ccaFunc (ccaIn E vol r D T c) x = .ok (0, 0)) (hx' : ccaFunc (ccaIn E vol r D T c) x' = .ok (0, 0)) :
    ccaEstimate solve (ccaIn E vol r D T c) = ccaEstimate solve' (ccaIn E vol r D T c) := by
  obtain ⟨a, b, ha, hb, -, hall⟩ := C198_solution E vol r D T c hE hv hD hT
  obtain ⟨x, y⟩ := x
  obtain ⟨x', y'⟩ := x'
  rw [hall] at hx hx'
  rw [cca_ok (i := ccaIn E vol r D T c) h, cca_ok (i := ccaIn E vol r D T c) h']
  have key : ∀ p q : ℝ, p ^ 2 = a ^ 2 → q ^ 2 = b ^ 2 → ccaTail (ccaIn E vol r D T c) (.fin p, .fin q)
      = ccaTail (ccaIn E vol r D T c) (.fin a, .fin b) := by
    intro p q hp hq
    unfold ccaTail
    simp only [XR.fin_sq, hp, hq]
  simp only at hx hx'
  obtain ⟨h1, h2⟩ := hx
  obtain ⟨h3, h4⟩ := hx'
  have e1 : ccaTail (ccaIn E vol r D T c) (x, y) = ccaTail (ccaIn E vol r D T c) (.fin a, .fin b) := by
    rcases h1 with rfl | rfl <;> rcases h2 with rfl | rfl <;> exact key _ _ (by ring) (by ring)
  have e2 : ccaTail (ccaIn E vol r D T c) (x', y') = ccaTail (ccaIn E vol r D T c) (.fin a, .fin b) := by
    rcases h3 with rfl | rfl <;> rcases h4 with rfl | rfl <;> exact key _ _ (by ring) (by ring)
  rw [e1, e2]

/-- C198. Conversely a solution with components other than zero exists only for positive equity and volatility. -/
theorem C198_only_positive (E vol r D T c a b : ℝ) (hD : 0 < D) (hT : 0 < T) (ha : a ≠ 0) (hb : b ≠ 0)
    (h : ccaFunc (ccaIn E vol r D T c) (.fin a, .fin b) = .ok (0, 0)) : 0 < E ∧ 0 < vol := by
  have hT' : 0 < Real.sqrt T := Real.sqrt_pos.mpr hT
  rw [root_iff hD hT ha hb] at h
  obtain ⟨h1, h2⟩ := h
  have hE : 0 < E := by rw [← h1]; exact bs_pos (by positivity) (by positivity) (by positivity)
  refine ⟨hE, ?_⟩
  have hpos : 0 < E * (vol * Real.sqrt T) := by
    rw [← h2]
    exact mul_pos (by positivity) (Φ_pos _)
  by_contra hn
  have : E * (vol * Real.sqrt T) ≤ 0 :=
    mul_nonpos_of_nonneg_of_nonpos hE.le (mul_nonpos_of_nonpos_of_nonneg (not_lt.mp hn) hT'.le)
  linarith

/-! ### Concrete cases of the theorems above -/

/-- Equity 1, volatility 40 per cent, a rate of minus one per cent. -/
example := C198_solution 1 (2 / 5) (-1 / 100) 3 2 100 (by norm_num) (by norm_num) (by norm_num) (by norm_num)
/-- Two solvers that find roots with different signs. -/
example : ∃ (solve solve' : Solver), ccaEstimate solve (ccaIn 1 (2 / 5) (1 / 100) 3 2 100) =
    ccaEstimate solve' (ccaIn 1 (2 / 5) (1 / 100) 3 2 100) ∧
    solve (ccaFunc (ccaIn 1 (2 / 5) (1 / 100) 3 2 100)) (.fin 1, .fin (2 / 5)) ≠
      solve' (ccaFunc (ccaIn 1 (2 / 5) (1 / 100) 3 2 100)) (.fin 1, .fin (2 / 5)) := by
  obtain ⟨a, b, ha, hb, -, hall⟩ := C198_solution 1 (2 / 5) (1 / 100) 3 2 100 (by norm_num) (by norm_num) (by norm_num)
    (by norm_num)
  refine ⟨fun _ _ => .ok (.fin a, .fin b), fun _ _ => .ok (.fin (-a), .fin b),
    C198_determined _ _ 1 (2 / 5) (1 / 100) 3 2 100 (by norm_num) (by norm_num) (by norm_num) (by norm_num) _ _ rfl rfl
      ((hall _).mpr (by simp)) ((hall _).mpr (by simp)), ?_⟩
  intro h
  injection h with h
  rw [Prod.mk.injEq, XR.fin_inj] at h
  linarith [h.1]
example := C198_only_positive demoE demoVol (1 / 20) 3 2 100 2 1 (by norm_num) (by norm_num) (by norm_num) (by norm_num)
  demo_root

end
end Frds.Props

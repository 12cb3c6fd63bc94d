import Verif.Lemmas.RoundedDcc
import Verif.Props.RoundedError

/-! Conditional correlations in floating point: within rounding error of the interval [-1, 1], but not inside it. -/
namespace Frds.Props
noncomputable section
open Frds Frds.Model Classical
namespace RoundedDcc

theorem dbl {x y p : ℝ} (hx : 0 ≤ x) (hp : 1 / 2 ≤ p) (h : x * p ≤ y) : x ≤ 2 * y := by
  have := mul_le_mul_of_nonneg_left hp hx
  linarith

theorem sq_bound {z Z B : ℝ} (hz : |z| ≤ Z) (h : Z ^ 2 ≤ B) : z ^ 2 ≤ B := by
  rw [← sq_abs]
  exact (pow_le_pow_left₀ (abs_nonneg z) hz 2).trans h

theorem weight {a b c B x y w : ℝ} (ha : 0 ≤ a) (hb : 0 ≤ b) (hc : 0 ≤ c) (habc : a + b + c ≤ 2) (hB : 0 ≤ B) (hx : x ≤ 2 * B)
    (hy : y ≤ 2 * B) (hw : w ≤ 2 * B) : c * x + a * y + b * w ≤ 4 * B := by
  have i1 := mul_le_mul_of_nonneg_left hx hc
  have i2 := mul_le_mul_of_nonneg_left hy ha
  have i3 := mul_le_mul_of_nonneg_left hw hb
  have i4 := mul_le_mul_of_nonneg_right habc hB
  linarith

theorem weight' {a b c B x y v w : ℝ} (ha : 0 ≤ a) (hb : 0 ≤ b) (hc : 0 ≤ c) (habc : a + b + c ≤ 2) (hB : 0 ≤ B) (hx : x ≤ 2 * B)
    (hy : y ≤ B) (hv : v ≤ B) (hw : w ≤ 4 * B) : c * x + a * y + a * v + b * w ≤ 8 * B := by
  have i1 := mul_le_mul_of_nonneg_left hx hc
  have i2 := mul_le_mul_of_nonneg_left hy ha
  have i5 := mul_le_mul_of_nonneg_left hv ha
  have i3 := mul_le_mul_of_nonneg_left hw hb
  have i4 := mul_le_mul_of_nonneg_right habc hB
  have := mul_nonneg ha hB
  have := mul_nonneg hc hB
  linarith

/-- the computed ratio -/
theorem rho_bound (M : Machine) {u tiny huge : ℝ} (A : Accurate M.R u tiny huge) (hu : 16 * u ≤ 1) {lo B q11 q22 q12 : ℝ} {k : ℕ}
    (hk : 2 * ((k + 3 : ℕ) * u) ≤ 1) (ht : 2 * tiny ≤ 1) (lo0 : 0 < lo) (hlo : 2 * tiny ≤ lo) (hlo2 : 2 * tiny ≤ lo ^ 2) (hB : 1 ≤ B)
    (hmax : 8 * B ^ 2 ≤ huge) (l1 : lo ≤ q11) (l2 : lo ≤ q22) (b1 : q11 ≤ 2 * B) (b2 : q22 ≤ 2 * B)
    (h12 : |q12| * (1 - u) ^ k ≤ Real.sqrt (q11 * q22)) :
    ∃ r, Model.Rounded.dccRho M ⟨.fin q11, .fin q22, .fin q12⟩ = .fin r ∧ M.R.rd r = .fin r ∧ |r| * (1 - u) ^ (k + 3) ≤ 1 := by
  have hu0 := A.u_nonneg
  have hu1 : u < 1 := by linarith
  have v0 : 0 < 1 - u := by linarith
  have p11 : 0 < q11 := by linarith
  have p22 : 0 < q22 := by linarith
  have hP : 0 < q11 * q22 := by positivity
  have hPlo : lo ^ 2 ≤ q11 * q22 := by nlinarith
  have hPhi : q11 * q22 ≤ 4 * B ^ 2 := by nlinarith
  have hBB : B ≤ B ^ 2 := by nlinarith
  obtain ⟨P, hP1, -, cP⟩ := A.step (k := 0) hu1 (by norm_num) (Close.refl hP.le) (Or.inr ⟨by linarith, by linarith⟩)
  have hs0 : 0 < Real.sqrt (q11 * q22) := Real.sqrt_pos.mpr hP
  have hslo : lo ≤ Real.sqrt (q11 * q22) := Real.le_sqrt_of_sq_le hPlo
  have hshi : Real.sqrt (q11 * q22) ≤ 2 * B := by
    rw [Real.sqrt_le_left (by linarith)]; nlinarith
  have cS : Close u 1 (Real.sqrt (q11 * q22)) (Real.sqrt P) :=
    Close.sqrt hu1 (cP.mono hu0 hu1 (by norm_num))
  obtain ⟨D, hD1, -, cD⟩ := A.step (k := 1) hu1 (by norm_num; linarith) cS (Or.inr ⟨by linarith, by linarith⟩)
  have hPpos : 0 < P := by
    have := cP.2.1
    have : 0 < q11 * q22 * (1 - u) ^ (0 + 1) := by positivity
    linarith
  have hD0 : 0 < D := by
    have := cD.2.1
    have : 0 < Real.sqrt (q11 * q22) * (1 - u) ^ (1 + 1) := by positivity
    linarith
  have hDs := cD.2.1
  norm_num at hDs
  have hx : |q12 / D| * (1 - u) ^ (k + 2) ≤ 1 := by
    rw [abs_div, abs_of_pos hD0, div_mul_eq_mul_div, div_le_one hD0]
    calc |q12| * (1 - u) ^ (k + 2) = |q12| * (1 - u) ^ k * (1 - u) ^ 2 := by ring
      _ ≤ Real.sqrt (q11 * q22) * (1 - u) ^ 2 := mul_le_mul_of_nonneg_right h12 (by positivity)
      _ ≤ D := hDs
  have hp : 1 / 2 ≤ (1 - u) ^ (k + 2) := by
    refine A.pow_half ?_ hu1
    push_cast at hk ⊢
    nlinarith
  have hx2 : |q12 / D| ≤ 2 := by
    by_contra h
    push Not at h
    have : 2 * (1 / 2) < |q12 / D| * (1 - u) ^ (k + 2) := mul_lt_mul h hp (by norm_num) (abs_nonneg _)
    linarith
  obtain ⟨r, hr⟩ := A.fin (q12 / D) (by nlinarith)
  refine ⟨r, ?_, M.R.idem _ _ hr, ?_⟩
  · unfold Model.Rounded.dccRho Rounding.div Rounding.sqrt Rounding.mul
    simp only [XR.fin_mul, Rounding.round_fin]
    rw [hP1, XR.fin_sqrt hPpos.le, Rounding.round_fin, hD1, XR.fin_div _ hD0.ne', Rounding.round_fin]
    exact hr
  · have he := A.err _ _ hr
    have h1 : |r| ≤ |r - q12 / D| + |q12 / D| := by
      have := abs_add_le (r - q12 / D) (q12 / D)
      simpa using this
    have z0 : (0 : ℝ) ≤ (1 - u) ^ (k + 2) := by linarith
    have z1 : (1 - u) ^ (k + 3) ≤ 1 := pow_le_one₀ v0.le (by linarith)
    rcases le_total tiny |q12 / D| with h | h
    · rw [max_eq_left h] at he
      have h2 : |r| ≤ (1 + u) * |q12 / D| := by linarith
      calc |r| * (1 - u) ^ (k + 3) ≤ (1 + u) * |q12 / D| * (1 - u) ^ (k + 3) := mul_le_mul_of_nonneg_right h2 (by positivity)
        _ = (1 - u ^ 2) * (|q12 / D| * (1 - u) ^ (k + 2)) := by ring
        _ ≤ 1 * 1 := mul_le_mul (by nlinarith [sq_nonneg u]) hx (by positivity) (by norm_num)
        _ = 1 := by norm_num
    · rw [max_eq_right h] at he
      have h2 : |r| ≤ 1 := by nlinarith [A.tiny_nonneg]
      exact (mul_le_mul h2 z1 (by positivity) (by norm_num)).trans (by norm_num)

set_option maxHeartbeats 1000000 in
/-- one step of the recursion -/
theorem next_bound (M : Machine) {u tiny huge : ℝ} (A : Accurate M.R u tiny huge) (hu : 16 * u ≤ 1)
    {a b c m B Z : ℝ} (ha : 0 ≤ a) (hb : 0 ≤ b) (hc : 0 < c) (hsum : (a + b + c) * (1 - u) ^ 3 ≤ 1)
    (hcd : M.R.sub (M.R.sub 1 (.fin a)) (.fin b) = .fin c) (ht : 2 * tiny ≤ 1) (hm : 0 < m) (hZ : 1 ≤ Z) (hZB : Z ^ 2 ≤ B)
    (hcm : 32 * (Z * tiny) ≤ c * m) (hmax : 64 * B ^ 2 ≤ huge) {b11 b22 b12 q11 q22 q12 z1 z2 : ℝ} {k0 k t : ℕ} (hkk : k0 ≤ k)
    (hk : 2 * (k * u) ≤ 1) (htu : 2 * ((8 * t : ℕ) * u) ≤ 1) (m1 : m ≤ b11) (m2 : m ≤ b22) (B1 : b11 ≤ B) (B2 : b22 ≤ B)
    (hb12 : |b12| * (1 - u) ^ k0 ≤ Real.sqrt (b11 * b22)) (p1 : 0 ≤ q11) (p2 : 0 ≤ q22) (c1 : q11 * (1 - u) ^ (8 * t) ≤ B)
    (c2 : q22 * (1 - u) ^ (8 * t) ≤ B) (hq12 : |q12| * (1 - u) ^ k ≤ Real.sqrt (q11 * q22)) (hz1 : |z1| ≤ Z) (hz2 : |z2| ≤ Z) :
    ∃ r11 r22 r12, Model.Rounded.dccNext M (.fin a) (.fin b) ⟨.fin b11, .fin b22, .fin b12⟩ ⟨.fin q11, .fin q22, .fin q12⟩ (.fin z1, .fin z2) =
        ⟨.fin r11, .fin r22, .fin r12⟩ ∧ c * m / 2 ≤ r11 ∧ c * m / 2 ≤ r22 ∧
      r11 * (1 - u) ^ (8 * (t + 1)) ≤ B ∧ r22 * (1 - u) ^ (8 * (t + 1)) ≤ B ∧ |r12| * (1 - u) ^ (k + 10) ≤ Real.sqrt (r11 * r22) := by
  have hu0 := A.u_nonneg
  have hu1 : u < 1 := by linarith
  have v0 : 0 < 1 - u := by linarith
  have ht0 := A.tiny_nonneg
  have hB1 : 1 ≤ B := by nlinarith
  have hBB : B ≤ B ^ 2 := by nlinarith
  have hZB' : Z ≤ B := by nlinarith
  have habc : a + b + c ≤ 2 := by
    have h3 : (1 - 1 / 16 : ℝ) ^ 3 ≤ (1 - u) ^ 3 := pow_le_pow_left₀ (by norm_num) (by linarith) 3
    norm_num at h3
    nlinarith
  have ha1 : a ≤ 1 := by
    by_contra h
    push Not at h
    obtain ⟨d, hd⟩ : ∃ d, M.R.sub 1 (.fin a) = .fin d := by
      have e : M.R.sub 1 (.fin a) = M.R.rd (1 - a) := by
        unfold Rounding.sub; rw [XR.one_def, XR.fin_sub]; rfl
      rw [e]
      exact A.fin _ (by rw [abs_le]; constructor <;> nlinarith)
    have hd0 : d ≤ 0 := by
      have e : M.R.sub 1 (.fin a) = M.R.rd (1 - a) := by
        unfold Rounding.sub; rw [XR.one_def, XR.fin_sub]; rfl
      have := M.R.mono (1 - a) 0 (by linarith)
      rw [← e, hd, Rounding.rd_zero] at this
      exact XR.fin_le.mp this
    rw [hd] at hcd
    have e2 : M.R.sub (.fin d) (.fin b) = M.R.rd (d - b) := by
      unfold Rounding.sub; rw [XR.fin_sub]; rfl
    have := M.R.mono (d - b) 0 (by linarith)
    rw [← e2, hcd, Rounding.rd_zero] at this
    have := XR.fin_le.mp this
    linarith
  have q8 : 1 / 2 ≤ (1 - u) ^ (8 * t) := A.pow_half htu hu1
  have qk : 1 / 2 ≤ (1 - u) ^ k := A.pow_half hk hu1
  have qk0 : (1 - u) ^ k ≤ (1 - u) ^ k0 := pow_le_pow_of_le_one v0.le (by linarith) hkk
  have u11 : q11 ≤ 2 * B := dbl p1 q8 c1
  have u22 : q22 ≤ 2 * B := dbl p2 q8 c2
  have pb1 : 0 ≤ b11 := by linarith
  have pb2 : 0 ≤ b22 := by linarith
  have hb12' : |b12| * (1 - u) ^ k ≤ Real.sqrt (b11 * b22) := (mul_le_mul_of_nonneg_left qk0 (abs_nonneg _)).trans hb12
  have sb : Real.sqrt (b11 * b22) ≤ B := by
    rw [Real.sqrt_le_left (by linarith)]
    calc b11 * b22 ≤ B * B := mul_le_mul B1 B2 pb2 (by linarith)
      _ = B ^ 2 := by ring
  have sq : Real.sqrt (q11 * q22) ≤ 2 * B := by
    rw [Real.sqrt_le_left (by linarith)]
    calc q11 * q22 ≤ (2 * B) * (2 * B) := mul_le_mul u11 u22 p2 (by linarith)
      _ = (2 * B) ^ 2 := by ring
  have ab12 : |b12| ≤ 2 * B := dbl (abs_nonneg _) qk (hb12'.trans sb)
  have aq12 : |q12| ≤ 4 * B := (dbl (abs_nonneg _) qk (hq12.trans sq)).trans (by linarith)
  have hzz1 : z1 ^ 2 ≤ B := sq_bound hz1 hZB
  have hzz2 : z2 ^ 2 ≤ B := sq_bound hz2 hZB
  have hz12 : |z1| * |z2| ≤ B := (mul_le_mul hz1 hz2 (abs_nonneg _) (by linarith)).trans (by rw [← pow_two]; exact hZB)
  have hZt : tiny ≤ Z * tiny := le_mul_of_one_le_left ht0 hZ
  have hZt' : Z * tiny ≤ B / 2 := by
    have := mul_le_mul hZB' (show tiny ≤ 1 / 2 by linarith) ht0 (by linarith)
    linarith
  have cb1 : c * m ≤ c * b11 := mul_le_mul_of_nonneg_left m1 hc.le
  have cb2 : c * m ≤ c * b22 := mul_le_mul_of_nonneg_left m2 hc.le
  have S1 : c * b11 + a * z1 ^ 2 + b * q11 ≤ 4 * B :=
    weight ha hb hc.le habc (by linarith) (by linarith) (by linarith) u11
  have S2 : c * b22 + a * z2 ^ 2 + b * q22 ≤ 4 * B :=
    weight ha hb hc.le habc (by linarith) (by linarith) (by linarith) u22
  obtain ⟨r11, e11, -, k11⟩ := DccStep.diag A hu ha ha1 hb hc.le pb1 p1 (by linarith) (by linarith) (by linarith) (z := z1)
  obtain ⟨r22, e22, -, k22⟩ := DccStep.diag A hu ha ha1 hb hc.le pb2 p2 (by linarith) (by linarith) (by linarith) (z := z2)
  have x1 : 0 ≤ a * z1 ^ 2 := by positivity
  have x2 : 0 ≤ a * z2 ^ 2 := by positivity
  have y1 : 0 ≤ b * q11 := by positivity
  have y2 : 0 ≤ b * q22 := by positivity
  have cm0 : 0 < c * m := by positivity
  set X1 := c * b11 + a * z1 ^ 2 + b * q11 with hX1
  set X2 := c * b22 + a * z2 ^ 2 + b * q22 with hX2
  have X10 : c * m ≤ X1 := by rw [hX1]; linarith
  have X20 : c * m ≤ X2 := by rw [hX2]; linarith
  have hT : c * m ≤ Real.sqrt (X1 * X2) := by
    apply Real.le_sqrt_of_sq_le
    rw [pow_two]
    exact mul_le_mul X10 X20 cm0.le (by linarith)
  have hS : (c * |b12| + a * (|z1| * |z2|) + b * |q12|) * (1 - u) ^ k ≤ Real.sqrt (X1 * X2) := by
    have hz : |z1| * |z2| * (1 - u) ^ k ≤ Real.sqrt (z1 ^ 2 * z2 ^ 2) := by
      rw [Real.sqrt_mul (sq_nonneg _), Real.sqrt_sq_eq_abs, Real.sqrt_sq_eq_abs]
      exact mul_le_of_le_one_right (by positivity) (pow_le_one₀ v0.le (by linarith))
    have := DccStep.cs ha hb hc.le pb1 (sq_nonneg z1) p1 pb2 (sq_nonneg z2) p2 hb12' hz hq12
    calc _ = c * (|b12| * (1 - u) ^ k) + a * (|z1| * |z2| * (1 - u) ^ k) + b * (|q12| * (1 - u) ^ k) := by ring
      _ ≤ _ := this
  have hoff : 2 * (c * |b12| + a * (|z1| * |z2|) + a * |z1| + b * |q12|) + 8 * (Z * tiny) ≤ huge := by
    have := weight' ha hb hc.le habc (by linarith) ab12 hz12 (hz1.trans hZB') aq12
    linarith
  obtain ⟨r12, e12, -, k12⟩ := DccStep.off A hu ha hb hc.le hZ hz2 (hcm.trans hT) hS hoff
  have up8 : ∀ {X r : ℝ}, Close u 5 X r → X * (1 - u) ^ (8 * t) ≤ (a + b + c) * B → r * (1 - u) ^ (8 * (t + 1)) ≤ B := by
    intro X r h hX
    have h8 : (0 : ℝ) ≤ (1 - u) ^ (8 * t) := by linarith
    have h3 : (0 : ℝ) ≤ (1 - u) ^ 3 := by positivity
    calc r * (1 - u) ^ (8 * (t + 1)) = r * (1 - u) ^ 5 * (1 - u) ^ (8 * t) * (1 - u) ^ 3 := by ring
      _ ≤ X * (1 - u) ^ (8 * t) * (1 - u) ^ 3 :=
        mul_le_mul_of_nonneg_right (mul_le_mul_of_nonneg_right h.2.2 h8) h3
      _ ≤ (a + b + c) * B * (1 - u) ^ 3 := mul_le_mul_of_nonneg_right hX h3
      _ = (a + b + c) * (1 - u) ^ 3 * B := by ring
      _ ≤ 1 * B := mul_le_mul_of_nonneg_right hsum (by linarith)
      _ = B := one_mul B
  have hone : ∀ {x : ℝ}, x ≤ B → 0 ≤ x → x * (1 - u) ^ (8 * t) ≤ B := fun {x} h h0 =>
    (mul_le_of_le_one_right h0 (pow_le_one₀ v0.le (by linarith))).trans h
  have h5 : (1 / 2 : ℝ) ≤ (1 - u) ^ 5 := by
    have : (1 - 1 / 16 : ℝ) ^ 5 ≤ (1 - u) ^ 5 := pow_le_pow_left₀ (by norm_num) (by linarith) 5
    norm_num at this
    linarith
  have l11 : c * m / 2 ≤ r11 := by
    have := mul_le_mul X10 h5 (by norm_num) (by linarith)
    linarith [k11.2.1]
  have l22 : c * m / 2 ≤ r22 := by
    have := mul_le_mul X20 h5 (by norm_num) (by linarith)
    linarith [k22.2.1]
  refine ⟨r11, r22, r12, ?_, l11, l22, up8 k11 ?_, up8 k22 ?_, ?_⟩
  · unfold Model.Rounded.dccNext
    simp only [hcd]
    rw [e11, e22, e12]
  · have i1 := mul_le_mul_of_nonneg_left (hone B1 pb1) hc.le
    have i2 := mul_le_mul_of_nonneg_left (hone hzz1 (sq_nonneg _)) ha
    have i3 := mul_le_mul_of_nonneg_left c1 hb
    rw [hX1]
    calc _ = c * (b11 * (1 - u) ^ (8 * t)) + a * (z1 ^ 2 * (1 - u) ^ (8 * t)) + b * (q11 * (1 - u) ^ (8 * t)) := by ring
      _ ≤ c * B + a * B + b * B := by linarith
      _ = _ := by ring
  · have i1 := mul_le_mul_of_nonneg_left (hone B2 pb2) hc.le
    have i2 := mul_le_mul_of_nonneg_left (hone hzz2 (sq_nonneg _)) ha
    have i3 := mul_le_mul_of_nonneg_left c2 hb
    rw [hX2]
    calc _ = c * (b22 * (1 - u) ^ (8 * t)) + a * (z2 ^ 2 * (1 - u) ^ (8 * t)) + b * (q22 * (1 - u) ^ (8 * t)) := by ring
      _ ≤ c * B + a * B + b * B := by linarith
      _ = _ := by ring
  · have hs : Real.sqrt (X1 * X2) * (1 - u) ^ 5 ≤ Real.sqrt (r11 * r22) := by
      apply Real.le_sqrt_of_sq_le
      rw [mul_pow, Real.sq_sqrt (mul_nonneg (by linarith) (by linarith))]
      calc X1 * X2 * ((1 - u) ^ 5) ^ 2 = (X1 * (1 - u) ^ 5) * (X2 * (1 - u) ^ 5) := by ring
        _ ≤ r11 * r22 := mul_le_mul k11.2.1 k22.2.1 (by
            have : 0 ≤ X2 := by linarith
            positivity) (by linarith)
    calc |r12| * (1 - u) ^ (k + 10) = |r12| * (1 - u) ^ (k + 5) * (1 - u) ^ 5 := by ring
      _ ≤ Real.sqrt (X1 * X2) * (1 - u) ^ 5 := mul_le_mul_of_nonneg_right k12 (by positivity)
      _ ≤ _ := hs

/-- the loop -/
theorem loop_bound (M : Machine) {u tiny huge : ℝ} (A : Accurate M.R u tiny huge) (hu : 16 * u ≤ 1)
    {a b c m B Z : ℝ} (ha : 0 ≤ a) (hb : 0 ≤ b) (hc : 0 < c) (hsum : (a + b + c) * (1 - u) ^ 3 ≤ 1)
    (hcd : M.R.sub (M.R.sub 1 (.fin a)) (.fin b) = .fin c) (ht : 2 * tiny ≤ 1) (hm : 0 < m) (hZ : 1 ≤ Z) (hZB : Z ^ 2 ≤ B)
    (hcm : 32 * (Z * tiny) ≤ c * m) (hcm2 : 8 * tiny ≤ (c * m) ^ 2) (hmax : 64 * B ^ 2 ≤ huge) {b11 b22 b12 : ℝ} {k0 : ℕ}
    (m1 : m ≤ b11) (m2 : m ≤ b22) (B1 : b11 ≤ B) (B2 : b22 ≤ B) (hb12 : |b12| * (1 - u) ^ k0 ≤ Real.sqrt (b11 * b22)) :
    ∀ (z : List (ℝ × ℝ)) (q11 q22 q12 : ℝ) (k t : ℕ), (∀ p ∈ z, |p.1| ≤ Z ∧ |p.2| ≤ Z) → k0 ≤ k → 0 ≤ q11 → 0 ≤ q22 →
      q11 * (1 - u) ^ (8 * t) ≤ B → q22 * (1 - u) ^ (8 * t) ≤ B → |q12| * (1 - u) ^ k ≤ Real.sqrt (q11 * q22) →
      2 * ((k + 10 * z.length + 3 : ℕ) * u) ≤ 1 → 2 * ((8 * (t + z.length) : ℕ) * u) ≤ 1 →
      ∃ rho : List ℝ, Model.Rounded.dccLoop M (.fin a) (.fin b) ⟨.fin b11, .fin b22, .fin b12⟩ ⟨.fin q11, .fin q22, .fin q12⟩
          (z.map fun p => (.fin p.1, .fin p.2)) = rho.map .fin ∧ rho.length = z.length ∧
        ∀ r ∈ rho, |r| * (1 - u) ^ (k + 10 * z.length + 3) ≤ 1 := by
  have hu0 := A.u_nonneg
  have hu1 : u < 1 := by linarith
  have v0 : 0 < 1 - u := by linarith
  have ht0 := A.tiny_nonneg
  have hB1 : 1 ≤ B := by nlinarith
  have cm0 : 0 < c * m := by positivity
  have hZt : tiny ≤ Z * tiny := le_mul_of_one_le_left ht0 hZ
  intro z
  induction z with
  | nil => intro q11 q22 q12 k t _ _ _ _ _ _ _ _ _; exact ⟨[], rfl, rfl, by simp⟩
  | cons p z ih =>
    intro q11 q22 q12 k t hz hk0 p1 p2 c1 c2 h12 hk8 ht8
    have cast : ∀ {i j : ℕ}, i ≤ j → 2 * ((j : ℕ) * u) ≤ 1 → 2 * ((i : ℕ) * u) ≤ 1 := by
      intro i j hij h
      have : (i : ℝ) * u ≤ j * u := mul_le_mul_of_nonneg_right (by exact_mod_cast hij) hu0
      linarith
    rw [List.length_cons] at hk8 ht8
    obtain ⟨hz1, hz2⟩ := hz p (by simp)
    obtain ⟨r11, r22, r12, e, l1, l2, u1, u2, o12⟩ := next_bound M A hu ha hb hc hsum hcd ht hm hZ hZB hcm hmax hk0
      (cast (by omega) hk8) (cast (by omega) ht8) m1 m2 B1 B2 hb12 p1 p2 c1 c2 h12 hz1 hz2
    have h8 : 1 / 2 ≤ (1 - u) ^ (8 * (t + 1)) := A.pow_half (cast (by omega) ht8) hu1
    have d1 : r11 ≤ 2 * B := dbl (by linarith) h8 u1
    have d2 : r22 ≤ 2 * B := dbl (by linarith) h8 u2
    have hlo2 : 2 * tiny ≤ (c * m / 2) ^ 2 := by
      rw [div_pow]; linarith
    obtain ⟨r, er, -, br⟩ := rho_bound M A hu (k := k + 10) (cast (by omega) hk8) ht (lo := c * m / 2) (by linarith) (by linarith)
      hlo2 hB1 (by nlinarith) l1 l2 d1 d2 o12
    obtain ⟨rho, e1, e2, e3⟩ := ih r11 r22 r12 (k + 10) (t + 1) (fun x hx => hz x (by simp [hx])) (by omega) (by linarith)
      (by linarith) u1 u2 o12 (cast (by omega) hk8) (cast (by omega) ht8)
    refine ⟨r :: rho, ?_, by simp [e2], ?_⟩
    · rw [List.map_cons]
      unfold Model.Rounded.dccLoop
      rw [e, er, e1, List.map_cons]
    · intro x hx
      rw [List.length_cons]
      rcases List.mem_cons.mp hx with rfl | hx
      · refine le_trans (mul_le_mul_of_nonneg_left (pow_le_pow_of_le_one v0.le (by linarith) ?_) (abs_nonneg _)) br
        omega
      · have := e3 x hx
        rw [show k + 10 * (z.length + 1) + 3 = k + 10 + 10 * z.length + 3 by omega]
        exact this

/-- the weight of the long-run correlation: computed from `a` and `b` -/
theorem weight_sum (M : Machine) {u tiny huge : ℝ} (A : Accurate M.R u tiny huge) (hu : 16 * u ≤ 1) (hhuge : 2 ≤ huge)
    {a b c : ℝ} (ha : 0 ≤ a) (hb : 0 ≤ b) (hab : a + b ≤ 1) (ra : M.R.Rep (.fin a)) (rb : M.R.Rep (.fin b))
    (hcd : M.R.sub (M.R.sub 1 (.fin a)) (.fin b) = .fin c) : 0 ≤ c ∧ (a + b + c) * (1 - u) ^ 3 ≤ 1 := by
  have hu0 := A.u_nonneg
  have hu1 : u < 1 := by linarith
  have e : M.R.sub 1 (.fin a) = M.R.rd (1 - a) := by
    unfold Rounding.sub; rw [XR.one_def, XR.fin_sub]; rfl
  obtain ⟨d, hd⟩ := A.fin (1 - a) (by rw [abs_le]; constructor <;> linarith)
  have hrep : ∀ {x : ℝ}, M.R.Rep (.fin x) → M.R.rd x = .fin x := fun h => h
  have hneg : ∀ {x : ℝ}, M.R.Rep (.fin x) → M.R.rd (-x) = .fin (-x) := fun h => Rounding.neg_rep h
  have e1 := A.err_add 1 (-a) d (hrep Rounding.rep_one) (hneg ra) (by rw [← sub_eq_add_neg]; exact hd)
  rw [← sub_eq_add_neg, abs_of_nonneg (show 0 ≤ 1 - a by linarith)] at e1
  have hdb : b ≤ d := by
    have := M.R.mono b (1 - a) (by linarith)
    rw [hrep rb, hd] at this
    exact XR.fin_le.mp this
  rw [e, hd] at hcd
  have e2 : M.R.rd (d - b) = .fin c := by
    rw [← hcd]; unfold Rounding.sub; rw [XR.fin_sub]; rfl
  have e3 := A.err_add d (-b) c (M.R.idem _ _ hd) (hneg rb) (by rw [← sub_eq_add_neg]; exact e2)
  rw [← sub_eq_add_neg, abs_of_nonneg (show 0 ≤ d - b by linarith)] at e3
  have hc0 : 0 ≤ c := by
    have := M.R.mono 0 (d - b) (by linarith)
    rw [Rounding.rd_zero, e2] at this
    exact XR.fin_le.mp this
  refine ⟨hc0, ?_⟩
  have hd1 : d ≤ (1 + u) * (1 - a) := by linarith [(abs_le.mp e1).2]
  have hc1 : c ≤ (1 + u) * (d - b) := by linarith [(abs_le.mp e3).2]
  have hs : a + b + c ≤ (1 + u) ^ 2 := by
    have h1 := mul_le_mul_of_nonneg_left hd1 (show 0 ≤ 1 + u by linarith)
    have h2 : 0 ≤ u * b := by positivity
    have h3 : 0 ≤ (2 * u + u ^ 2) * a := by positivity
    nlinarith
  have h3 : (0 : ℝ) ≤ (1 - u) ^ 3 := pow_nonneg (by linarith) 3
  calc (a + b + c) * (1 - u) ^ 3 ≤ (1 + u) ^ 2 * (1 - u) ^ 3 := mul_le_mul_of_nonneg_right hs h3
    _ = (1 - u ^ 2) ^ 2 * (1 - u) := by ring
    _ ≤ 1 * 1 := mul_le_mul (pow_le_one₀ (by nlinarith) (by nlinarith [sq_nonneg u])) (by linarith) (by linarith) (by norm_num)
    _ = 1 := by norm_num

/-- the kernel, from any long-run matrix that is a correlation matrix up to `k0` rounding errors -/
theorem kernel_bound (M : Machine) {u tiny huge : ℝ} (A : Accurate M.R u tiny huge) (hu : 16 * u ≤ 1)
    {a b c m B Z : ℝ} (ha : 0 ≤ a) (hb : 0 ≤ b) (hab : a + b ≤ 1) (ra : M.R.Rep (.fin a)) (rb : M.R.Rep (.fin b)) (hc : 0 < c)
    (hcd : M.R.sub (M.R.sub 1 (.fin a)) (.fin b) = .fin c) (ht : 2 * tiny ≤ 1) (hm : 0 < m) (hZ : 1 ≤ Z) (hZB : Z ^ 2 ≤ B)
    (hcm : 32 * (Z * tiny) ≤ c * m) (hcm2 : 8 * tiny ≤ (c * m) ^ 2) (hmax : 64 * B ^ 2 ≤ huge) {b11 b22 b12 : ℝ} {k0 : ℕ}
    (m1 : m ≤ b11) (m2 : m ≤ b22) (B1 : b11 ≤ B) (B2 : b22 ≤ B) (hb12 : |b12| * (1 - u) ^ k0 ≤ Real.sqrt (b11 * b22))
    (cpp : Bool) (cov : QMat) (z : List (ℝ × ℝ)) (hz : ∀ p ∈ z, |p.1| ≤ Z ∧ |p.2| ≤ Z) (hne : z ≠ [])
    (hq : Model.Rounded.dccQbar M cpp cov (z.map fun p => (.fin p.1, .fin p.2)) = ⟨.fin b11, .fin b22, .fin b12⟩)
    (hN : 2 * ((k0 + 10 * z.length : ℕ) * u) ≤ 1) :
    ∃ rho : List ℝ, Model.Rounded.dccKernel M cpp cov (.fin a) (.fin b) (z.map fun p => (.fin p.1, .fin p.2)) = rho.map .fin ∧
      rho.length = z.length ∧ ∀ r ∈ rho, |r| * (1 - u) ^ (k0 + 10 * z.length) ≤ 1 := by
  have hu0 := A.u_nonneg
  have hu1 : u < 1 := by linarith
  have v0 : 0 < 1 - u := by linarith
  have ht0 := A.tiny_nonneg
  have hB1 : 1 ≤ B := by nlinarith
  have hl : 1 ≤ z.length := List.length_pos_iff.mpr hne
  have hhuge : 2 ≤ huge := by nlinarith
  obtain ⟨-, hsum⟩ := weight_sum M A hu hhuge ha hb hab ra rb hcd
  have cast : ∀ {i j : ℕ}, i ≤ j → 2 * ((j : ℕ) * u) ≤ 1 → 2 * ((i : ℕ) * u) ≤ 1 := by
    intro i j hij h
    have : (i : ℝ) * u ≤ j * u := mul_le_mul_of_nonneg_right (by exact_mod_cast hij) hu0
    linarith
  have cm0 : 0 < c * m := by positivity
  have hc2 : c ≤ 2 := by
    have h3 : (1 - 1 / 16 : ℝ) ^ 3 ≤ (1 - u) ^ 3 := pow_le_pow_left₀ (by norm_num) (by linarith) 3
    norm_num at h3
    nlinarith
  have hlo : c * m / 2 ≤ m := by nlinarith
  have hZt : tiny ≤ Z * tiny := le_mul_of_one_le_left ht0 hZ
  have hlo2 : 2 * tiny ≤ (c * m / 2) ^ 2 := by
    rw [div_pow]; linarith
  obtain ⟨r0, er, -, br⟩ := rho_bound M A hu (k := k0) (cast (by omega) hN) ht (lo := c * m / 2) (by linarith) (by linarith)
    hlo2 hB1 (by nlinarith) (hlo.trans m1) (hlo.trans m2) (by linarith) (by linarith) hb12
  have hdl : (z.dropLast).length = z.length - 1 := List.length_dropLast
  obtain ⟨rho, e1, e2, e3⟩ := loop_bound M A hu ha hb hc hsum hcd ht hm hZ hZB hcm hcm2 hmax m1 m2 B1 B2 hb12 z.dropLast b11 b22 b12 k0 0
    (fun p hp => hz p (List.dropLast_subset _ hp)) le_rfl (by linarith) (by linarith) (by simpa using B1) (by simpa using B2) hb12
    (cast (by omega) hN) (cast (by omega) hN)
  refine ⟨r0 :: rho, ?_, by simp only [List.length_cons]; omega, ?_⟩
  · unfold Model.Rounded.dccKernel
    rw [hq, er, ← List.map_dropLast, e1, List.map_cons]
  · intro x hx
    rcases List.mem_cons.mp hx with rfl | hx
    · exact le_trans (mul_le_mul_of_nonneg_left (pow_le_pow_of_le_one v0.le (by linarith) (by omega)) (abs_nonneg _)) br
    · exact le_trans (mul_le_mul_of_nonneg_left (pow_le_pow_of_le_one v0.le (by linarith) (by omega)) (abs_nonneg _)) (e3 x hx)

/-! ### the long-run matrix in Python -/

/-- a value divided by its computed root twice is one up to four rounding errors -/
theorem normalise (M : Machine) {u tiny huge : ℝ} (A : Accurate M.R u tiny huge) (hu : 16 * u ≤ 1) (ht : 2 * tiny ≤ 1) (hh : 2 ≤ huge)
    {x : ℝ} (hx : 0 < x) (hr : InRange tiny huge (Real.sqrt x)) :
    ∃ s y, M.R.sqrt (.fin x) = .fin s ∧ 0 < s ∧ M.R.div (M.R.div (.fin x) (.fin s)) (.fin s) = .fin y ∧ Close u 4 1 y := by
  have hu0 := A.u_nonneg
  have hu1 : u < 1 := by linarith
  have v0 : 0 < 1 - u := by linarith
  have hs0 : 0 < Real.sqrt x := Real.sqrt_pos.mpr hx
  obtain ⟨s, e1, -, cs⟩ := A.step (k := 0) hu1 (by norm_num) (Close.refl hs0.le) hr
  have sp : 0 < s := by
    have := cs.2.1
    have : 0 < Real.sqrt x * (1 - u) ^ (0 + 1) := by positivity
    linarith
  have hxs : x / Real.sqrt x = Real.sqrt x := by
    rw [div_eq_iff hs0.ne', Real.mul_self_sqrt hx.le]
  obtain ⟨w, e2, -, cw⟩ := A.div hu1 (by norm_num; linarith) (Close.refl (u := u) hx.le) cs hs0 (by rw [hxs]; exact hr)
  rw [hxs] at cw
  obtain ⟨y, e3, -, cy⟩ := A.div hu1 (by norm_num; linarith) cw cs hs0 (by
    rw [div_self hs0.ne']; exact Or.inr ⟨ht, by linarith⟩)
  rw [div_self hs0.ne'] at cy
  refine ⟨s, y, ?_, sp, ?_, cy.mono hu0 hu1 (by norm_num)⟩
  · unfold Rounding.sqrt
    rw [XR.fin_sqrt hx.le]; exact e1
  · rw [e2, e3]

theorem clip_one (x : XR) (h : x ≠ .nan) : ∃ y : ℝ, Np.clip x (.fin (-1)) (.fin 1) = .fin y ∧ |y| ≤ 1 ∧
    ∀ r, x = .fin r → 0 ≤ r → y = min r 1 := by
  rcases x with _ | _ | _ | r
  · exact absurd rfl h
  · refine ⟨-1, ?_, by norm_num, by intro r hr; cases hr⟩
    have : Np.clip XR.ninf (.fin (-1)) (.fin 1) = Np.clip (.fin (-1)) (.fin (-1)) (.fin 1) := by
      unfold Np.clip XR.npMax
      rw [if_neg (by simp), if_pos (by trivial), if_neg (by simp), if_neg (by simp)]
    rw [this, Np.clip_fin]
    norm_num
  · refine ⟨1, ?_, by norm_num, by intro r hr; cases hr⟩
    have h1 : XR.npMax XR.pinf (.fin (-1)) = XR.pinf := by
      unfold XR.npMax
      rw [if_neg (by simp), if_neg (by intro h; exact h)]
    unfold Np.clip
    rw [h1]
    unfold XR.npMin
    rw [if_neg (by simp), if_pos (by trivial)]
  · refine ⟨min (max r (-1)) 1, Np.clip_fin _ _ _, ?_, ?_⟩
    · rw [abs_le]
      exact ⟨le_min (le_max_right _ _) (by norm_num), min_le_right _ _⟩
    · intro r' hr' h0
      cases hr'
      rw [max_eq_left (by linarith)]

theorem start_py (M : Machine) {u tiny huge : ℝ} (A : Accurate M.R u tiny huge) (hu : 16 * u ≤ 1) (ht : 2 * tiny ≤ 1) (hh : 2 ≤ huge)
    {c11 c22 c12 : ℝ} (h1 : 0 < c11) (h2 : 0 < c22) (r1 : InRange tiny huge (Real.sqrt c11)) (r2 : InRange tiny huge (Real.sqrt c22)) :
    ∃ b11 b22 b12, Model.Rounded.corrcoef M ⟨.fin c11, .fin c22, .fin c12⟩ = ⟨.fin b11, .fin b22, .fin b12⟩ ∧
      1 / 2 ≤ b11 ∧ b11 ≤ 1 ∧ 1 / 2 ≤ b22 ∧ b22 ≤ 1 ∧ |b12| * (1 - u) ^ 4 ≤ Real.sqrt (b11 * b22) := by
  have hu0 := A.u_nonneg
  have v0 : 0 < 1 - u := by linarith
  have h4 : (1 / 2 : ℝ) ≤ (1 - u) ^ 4 := by
    have : (1 - 1 / 16 : ℝ) ^ 4 ≤ (1 - u) ^ 4 := pow_le_pow_left₀ (by norm_num) (by linarith) 4
    norm_num at this
    linarith
  have h41 : (1 - u) ^ 4 ≤ 1 := pow_le_one₀ v0.le (by linarith)
  obtain ⟨s1, y1, e1, p1, f1, k1⟩ := normalise M A hu ht hh h1 r1
  obtain ⟨s2, y2, e2, p2, f2, k2⟩ := normalise M A hu ht hh h2 r2
  have g1 := k1.2.1
  have g2 := k2.2.1
  rw [one_mul] at g1 g2
  have hn : M.R.div (M.R.div (.fin c12) (.fin s1)) (.fin s2) ≠ .nan := by
    unfold Rounding.div
    rw [XR.fin_div _ p1.ne', Rounding.round_fin]
    intro h
    rw [Rounding.round_eq_nan] at h
    have hne := Rounding.rd_ne_nan (R := M.R) (c12 / s1)
    rcases hx : M.R.rd (c12 / s1) with _ | _ | _ | x
    · exact hne hx
    · rw [hx] at h
      have : XR.ninf / XR.fin s2 = (if s2 < 0 then XR.pinf else XR.ninf) := rfl
      rw [this, if_neg (by linarith)] at h
      cases h
    · rw [hx] at h
      have : XR.pinf / XR.fin s2 = (if s2 < 0 then XR.ninf else XR.pinf) := rfl
      rw [this, if_neg (by linarith)] at h
      cases h
    · rw [hx, XR.fin_div _ p2.ne'] at h
      cases h
  obtain ⟨w1, a1, -, q1⟩ := clip_one (.fin y1) (by simp)
  obtain ⟨w2, a2, -, q2⟩ := clip_one (.fin y2) (by simp)
  obtain ⟨w3, a3, l3, -⟩ := clip_one _ hn
  have q1 := q1 y1 rfl (by linarith)
  have q2 := q2 y2 rfl (by linarith)
  have m1 : (1 - u) ^ 4 ≤ w1 := by rw [q1]; exact le_min g1 h41
  have m2 : (1 - u) ^ 4 ≤ w2 := by rw [q2]; exact le_min g2 h41
  refine ⟨w1, w2, w3, ?_, h4.trans m1, by rw [q1]; exact min_le_right _ _, h4.trans m2, by rw [q2]; exact min_le_right _ _, ?_⟩
  · unfold Model.Rounded.corrcoef
    simp only [e1, e2, f1, f2, a1, a2, a3]
  · have : (1 - u) ^ 4 ≤ Real.sqrt (w1 * w2) := by
      apply Real.le_sqrt_of_sq_le
      rw [pow_two]
      exact mul_le_mul m1 m2 (by positivity) (by linarith)
    exact (mul_le_of_le_one_left (by positivity) l3).trans this

/-! ### the long-run matrix in C++ -/

theorem sum_bound {z : List (ℝ × ℝ)} {f : ℝ × ℝ → ℝ} {B : ℝ} (h : ∀ p ∈ z, f p ≤ B) : (z.map f).sum ≤ z.length * B := by
  induction z with
  | nil => simp
  | cons p z ih =>
    rw [List.map_cons, List.sum_cons, List.length_cons]
    have := ih (fun x hx => h x (by simp [hx]))
    have := h p (by simp)
    push_cast
    linarith

/-- Cauchy-Schwarz for lists -/
theorem cs_list (z : List (ℝ × ℝ)) :
    (z.map fun p => |p.1 * p.2|).sum ≤ Real.sqrt ((z.map fun p => p.1 ^ 2).sum * (z.map fun p => p.2 ^ 2).sum) := by
  have hn : ∀ f : ℝ × ℝ → ℝ, (∀ p, 0 ≤ f p) → ∀ z : List (ℝ × ℝ), 0 ≤ (z.map f).sum := fun f hf z =>
    List.sum_nonneg (by intro v hv; obtain ⟨x, -, rfl⟩ := List.mem_map.mp hv; exact hf x)
  induction z with
  | nil => simp
  | cons p z ih =>
    simp only [List.map_cons, List.sum_cons]
    have h1 := hn (fun p => p.1 ^ 2) (fun p => sq_nonneg _) z
    have h2 := hn (fun p => p.2 ^ 2) (fun p => sq_nonneg _) z
    have := DccStep.cs (a := 1) (b := 0) (c := 1) (x1 := p.1 ^ 2) (y1 := p.2 ^ 2) (x3 := 0) (y3 := 0) (w3 := 0) zero_le_one le_rfl zero_le_one
      (sq_nonneg _) h1 le_rfl (sq_nonneg _) h2 le_rfl (w1 := |p.1 * p.2|) (by
        rw [Real.sqrt_mul (sq_nonneg _), Real.sqrt_sq_eq_abs, Real.sqrt_sq_eq_abs, abs_mul]) ih (by simp)
    simpa using this

/-- sum of rounded products: magnitude -/
theorem products (M : Machine) {u tiny huge : ℝ} (A : Accurate M.R u tiny huge) {B : ℝ} (hB : B ≤ huge)
    (f : ℝ × ℝ → ℝ) (z : List (ℝ × ℝ)) (hf : ∀ p ∈ z, |f p| ≤ B) :
    ∃ g : ℝ × ℝ → ℝ, (z.map fun p => M.R.rd (f p)) = z.map (fun p => XR.fin (g p)) ∧ ∀ p ∈ z, M.R.rd (f p) = .fin (g p) := by
  refine ⟨fun p => Accurate.re (M.R.rd (f p)), ?_, ?_⟩
  · apply List.map_congr_left
    intro p hp
    obtain ⟨s, hs⟩ := A.fin (f p) ((hf p hp).trans hB)
    show M.R.rd (f p) = XR.fin (Accurate.re (M.R.rd (f p)))
    rw [hs]; rfl
  · intro p hp
    obtain ⟨s, hs⟩ := A.fin (f p) ((hf p hp).trans hB)
    show M.R.rd (f p) = XR.fin (Accurate.re (M.R.rd (f p)))
    rw [hs]; rfl

/-- mean of squares -/
theorem moment (M : Machine) {u tiny huge : ℝ} (A : Accurate M.R u tiny huge) (hu : 16 * u ≤ 1) {m B : ℝ} (hB1 : 1 ≤ B)
    (z : List (ℝ × ℝ)) (f : ℝ × ℝ → ℝ) (hne : z ≠ []) (hp : z.length ≤ 2 ^ M.R.prec) (hf : ∀ p ∈ z, (f p) ^ 2 ≤ B)
    (hn : 2 * ((z.length + 2 : ℕ) * u) ≤ 1) (hmax : 8 * (z.length * B) ≤ huge) (ht : tiny ≤ 1) (hm : 4 * tiny ≤ m)
    (hlow : z.length * m ≤ (z.map fun p => (f p) ^ 2).sum) :
    ∃ q, M.R.div (M.R.foldSum (z.map fun p => M.R.mul (.fin (f p)) (.fin (f p)))) (M.R.round (.fin z.length)) = .fin q ∧
      Close u (z.length + 2) ((z.map fun p => (f p) ^ 2).sum / z.length) q := by
  have hu0 := A.u_nonneg
  have hu1 : u < 1 := by linarith
  have v0 : 0 < 1 - u := by linarith
  have ht0 := A.tiny_nonneg
  have hl : (1 : ℝ) ≤ z.length := by exact_mod_cast List.length_pos_iff.mpr hne
  have hBh : B ≤ huge := by nlinarith
  set D := (z.map fun p => (f p) ^ 2).sum with hD
  have hDB : D ≤ z.length * B := sum_bound hf
  have htD : z.length * tiny ≤ D / 4 := by nlinarith
  obtain ⟨g, eg, hg⟩ := products M A hBh (fun p => f p * f p) z (fun p hp => by
    rw [abs_of_nonneg (mul_self_nonneg _), ← pow_two]; exact hf p hp)
  have emap : (z.map fun p => M.R.mul (.fin (f p)) (.fin (f p))) = z.map (fun p => XR.fin (g p)) := by
    rw [← eg]
    apply List.map_congr_left
    intro p _
    show M.R.round _ = _
    rw [XR.fin_mul]; rfl
  have hlo : (1 - u) * D - z.length * (u * tiny) ≤ (z.map g).sum ∧ (z.map g).sum ≤ (1 + u) * D + z.length * (u * tiny) := by
    rw [hD]
    clear hlow hDB htD hmax hn hp hl hne emap eg hf hD D
    induction z with
    | nil => simp
    | cons p z ih =>
      obtain ⟨i1, i2⟩ := ih (fun x hx => hg x (by simp [hx]))
      obtain ⟨-, n1, n2⟩ := DccStep.near A (hg p (by simp)) (mul_self_nonneg _)
      simp only [List.map_cons, List.sum_cons, List.length_cons]
      push_cast
      constructor <;> nlinarith
  have hnn : ∀ p ∈ z, 0 ≤ g p := fun p hp => (DccStep.near A (hg p hp) (mul_self_nonneg _)).1
  have hclose : Close u 2 D (z.map g).sum := by
    have hD0 : 0 ≤ D := by nlinarith
    refine ⟨hD0, ?_, ?_⟩
    · refine le_trans ?_ hlo.1
      have e : D * (1 - u) ^ 2 = (1 - u) * D - u * ((1 - u) * D) := by ring
      rw [e]
      have : z.length * tiny ≤ (1 - u) * D := by nlinarith
      have := mul_le_mul_of_nonneg_left this hu0
      linarith
    · have h2 : (0 : ℝ) ≤ (1 - u) ^ 2 := sq_nonneg _
      have h21 : (1 - u) ^ 2 ≤ 1 := pow_le_one₀ v0.le (by linarith)
      have htu : 0 ≤ z.length * (u * tiny) := by positivity
      calc (z.map g).sum * (1 - u) ^ 2 ≤ ((1 + u) * D + z.length * (u * tiny)) * (1 - u) ^ 2 := mul_le_mul_of_nonneg_right hlo.2 h2
        _ = (1 - u ^ 2) * ((1 - u) * D) + z.length * (u * tiny) * (1 - u) ^ 2 := by ring
        _ ≤ 1 * ((1 - u) * D) + z.length * (u * tiny) * 1 :=
          add_le_add (mul_le_mul_of_nonneg_right (by nlinarith [sq_nonneg u]) (by positivity)) (mul_le_mul_of_nonneg_left h21 htu)
        _ ≤ D := by
          have := mul_le_mul_of_nonneg_left htD hu0
          nlinarith
  have hsum2 : (z.map g).sum ≤ 2 * D := by
    have hD0 : 0 ≤ D := hclose.1
    have := mul_le_mul_of_nonneg_left htD hu0
    nlinarith [hlo.2]
  have hre : ((z.map fun p => XR.fin (g p)).map Accurate.re) = z.map g := by
    rw [List.map_map]; rfl
  obtain ⟨t, et, -, ct⟩ := A.sum hu1 (Rounding.foldSum_ok (R := M.R) (z.map fun p => XR.fin (g p)))
    (by
      intro x hx
      obtain ⟨p, hp', rfl⟩ := List.mem_map.mp hx
      exact ⟨g p, rfl, hnn p hp', M.R.idem _ _ (hg p hp')⟩)
    (by rw [List.length_map]; push_cast at hn; nlinarith)
    (by rw [hre]; linarith)
  rw [hre, List.length_map] at ct
  have c1 : Close u (z.length + 1) D t := by
    have := hclose.trans hu1 ct
    have e : 2 + (z.length - 1) = z.length + 1 := by
      have := List.length_pos_iff.mpr hne
      omega
    rwa [e] at this
  have eT : M.R.round (.fin z.length) = .fin z.length := Rounding.rep_nat hp
  have lT : (0 : ℝ) < z.length := by linarith
  obtain ⟨q, eq, -, cq⟩ := A.div hu1 (by
      push_cast at hn ⊢
      nlinarith) c1 (Close.refl (u := u) lT.le) lT (Or.inr ⟨by
        rw [le_div_iff₀ lT, mul_assoc, mul_comm tiny]
        have := hclose.1
        linarith only [htD, this], by
        rw [mul_div_assoc', div_le_iff₀ lT]
        have : (1 : ℝ) * huge ≤ z.length * huge := mul_le_mul_of_nonneg_right hl (by linarith)
        linarith⟩)
  exact ⟨q, by rw [emap, et, eT, eq], cq⟩

/-- mean of cross products -/
theorem cross (M : Machine) {u tiny huge : ℝ} (A : Accurate M.R u tiny huge) (hu : 16 * u ≤ 1) {m B W : ℝ} (hB1 : 1 ≤ B)
    (z : List (ℝ × ℝ)) (hne : z ≠ []) (hp : z.length ≤ 2 ^ M.R.prec) (hf : ∀ p ∈ z, |p.1 * p.2| ≤ B)
    (hn : 2 * ((z.length + 2 : ℕ) * u) ≤ 1) (hmax : 8 * (z.length * B) ≤ huge) (ht : tiny ≤ 1) (hm : 4 * tiny ≤ m)
    (hlow : z.length * m ≤ W) (hW : (z.map fun p => |p.1 * p.2|).sum ≤ W) :
    ∃ q, M.R.div (M.R.foldSum (z.map fun p => M.R.mul (.fin p.1) (.fin p.2))) (M.R.round (.fin z.length)) = .fin q ∧
      |q| * (1 - u) ^ (z.length + 2) ≤ W / z.length := by
  have hu0 := A.u_nonneg
  have hu1 : u < 1 := by linarith
  have v0 : 0 < 1 - u := by linarith
  have ht0 := A.tiny_nonneg
  have hl : (1 : ℝ) ≤ z.length := by exact_mod_cast List.length_pos_iff.mpr hne
  have hBh : B ≤ huge := by nlinarith
  set D := (z.map fun p => |p.1 * p.2|).sum with hD
  have hDB : D ≤ z.length * B := sum_bound hf
  have hD0 : 0 ≤ D := List.sum_nonneg (by intro v hv; obtain ⟨x, -, rfl⟩ := List.mem_map.mp hv; exact abs_nonneg _)
  have htW : z.length * tiny ≤ W / 4 := by nlinarith
  obtain ⟨g, eg, hg⟩ := products M A hBh (fun p => p.1 * p.2) z hf
  have emap : (z.map fun p => M.R.mul (.fin p.1) (.fin p.2)) = z.map (fun p => XR.fin (g p)) := by
    rw [← eg]
    apply List.map_congr_left
    intro p _
    show M.R.round _ = _
    rw [XR.fin_mul]; rfl
  have hlo : (z.map fun p => |g p|).sum ≤ (1 + u) * D + z.length * (u * tiny) := by
    rw [hD]
    clear hlow hDB htW hmax hn hp hl hne emap eg hf hD0 hW hD D
    induction z with
    | nil => simp
    | cons p z ih =>
      have i2 := ih (fun x hx => hg x (by simp [hx]))
      have n2 := DccStep.up A (hg p (by simp))
      simp only [List.map_cons, List.sum_cons, List.length_cons]
      push_cast
      nlinarith
  have htu := mul_le_mul_of_nonneg_left htW hu0
  have hW0 : 0 ≤ W := hD0.trans hW
  have hsum2 : (z.map fun p => |g p|).sum * (1 - u) ^ 2 ≤ W := by
    have h2 : (0 : ℝ) ≤ (1 - u) ^ 2 := sq_nonneg _
    have h21 : (1 - u) ^ 2 ≤ 1 := pow_le_one₀ v0.le (by linarith)
    have htu' : 0 ≤ z.length * (u * tiny) := by positivity
    calc (z.map fun p => |g p|).sum * (1 - u) ^ 2 ≤ ((1 + u) * W + z.length * (u * tiny)) * (1 - u) ^ 2 :=
          mul_le_mul_of_nonneg_right (hlo.trans (by
            have := mul_le_mul_of_nonneg_left hW (show 0 ≤ 1 + u by linarith)
            linarith)) h2
      _ = (1 - u ^ 2) * ((1 - u) * W) + z.length * (u * tiny) * (1 - u) ^ 2 := by ring
      _ ≤ 1 * ((1 - u) * W) + z.length * (u * tiny) * 1 :=
        add_le_add (mul_le_mul_of_nonneg_right (by nlinarith [sq_nonneg u]) (by positivity)) (mul_le_mul_of_nonneg_left h21 htu')
      _ ≤ W := by nlinarith
  have hre : ((z.map fun p => XR.fin (g p)).map fun v => |Accurate.re v|) = z.map fun p => |g p| := by
    rw [List.map_map]; rfl
  have hbig : (z.map fun p => |g p|).sum ≤ 2 * (z.length * B) + z.length := by
    have h1 : u * D ≤ D := by nlinarith
    have h2 : z.length * (u * tiny) ≤ z.length * 1 := mul_le_mul_of_nonneg_left (by nlinarith) (by linarith)
    linarith
  have hLB : (z.length : ℝ) ≤ z.length * B := by nlinarith
  obtain ⟨t, et, -, ct⟩ := A.sum_signed hu1 (Rounding.foldSum_ok (R := M.R) (z.map fun p => XR.fin (g p)))
    (by
      intro x hx
      obtain ⟨p, hp', rfl⟩ := List.mem_map.mp hx
      exact ⟨g p, rfl, M.R.idem _ _ (hg p hp')⟩)
    (by rw [List.length_map]; push_cast at hn; nlinarith)
    (by rw [hre]; linarith)
  have bt := ct.bound hu1
  rw [hre, List.length_map] at bt
  have bt' : |t| * (1 - u) ^ (z.length + 1) ≤ W := by
    have e : z.length + 1 = (z.length - 1) + 2 := by
      have := List.length_pos_iff.mpr hne
      omega
    rw [e, pow_add, ← mul_assoc]
    exact (mul_le_mul_of_nonneg_right bt (sq_nonneg _)).trans hsum2
  have eT : M.R.round (.fin z.length) = .fin z.length := Rounding.rep_nat hp
  have lT : (0 : ℝ) < z.length := by linarith
  have hpow : 1 / 2 ≤ (1 - u) ^ (z.length - 1) := by
    refine A.pow_half ?_ hu1
    have : ((z.length - 1 : ℕ) : ℝ) ≤ ((z.length + 2 : ℕ) : ℝ) := by exact_mod_cast (by omega : z.length - 1 ≤ z.length + 2)
    nlinarith
  have htb : |t| ≤ 2 * (2 * (z.length * B) + z.length) := dbl (abs_nonneg _) hpow (bt.trans hbig)
  have hdt : |t / z.length| ≤ |t| := by
    rw [abs_div, abs_of_pos lT]; exact div_le_self (abs_nonneg _) hl
  obtain ⟨q, eq⟩ := A.fin (t / z.length) (by linarith)
  refine ⟨q, ?_, ?_⟩
  · rw [emap, et, eT]
    unfold Rounding.div
    rw [XR.fin_div _ lT.ne', Rounding.round_fin, eq]
  · have he := A.err _ _ eq
    have h1 : |q| ≤ |q - t / z.length| + |t / z.length| := by
      have := abs_add_le (q - t / z.length) (t / z.length)
      simpa using this
    have z1 : (1 - u) ^ (z.length + 2) ≤ 1 := pow_le_one₀ v0.le (by linarith)
    rcases le_total tiny |t / z.length| with h | h
    · rw [max_eq_left h] at he
      have h2 : |q| ≤ (1 + u) * |t / z.length| := by linarith
      calc |q| * (1 - u) ^ (z.length + 2) ≤ (1 + u) * |t / z.length| * (1 - u) ^ (z.length + 2) :=
            mul_le_mul_of_nonneg_right h2 (by positivity)
        _ = (1 - u ^ 2) * (|t| * (1 - u) ^ (z.length + 1) / z.length) := by
            rw [abs_div, abs_of_pos lT]; ring
        _ ≤ 1 * (W / z.length) := mul_le_mul (by nlinarith [sq_nonneg u]) (div_le_div_of_nonneg_right bt' lT.le) (by positivity) (by norm_num)
        _ = W / z.length := one_mul _
    · rw [max_eq_right h] at he
      have hut : u * tiny ≤ tiny := by nlinarith
      have h2 : |q| ≤ 2 * tiny := by linarith
      have h3 : 2 * tiny ≤ W / z.length := by
        rw [le_div_iff₀ lT]; linarith
      exact (mul_le_of_le_one_right (abs_nonneg _) z1).trans (h2.trans h3)

/-- the C++ start -/
theorem start_cpp (M : Machine) {u tiny huge : ℝ} (A : Accurate M.R u tiny huge) (hu : 16 * u ≤ 1) {m Z : ℝ} (hZ : 1 ≤ Z)
    (z : List (ℝ × ℝ)) (hz : ∀ p ∈ z, |p.1| ≤ Z ∧ |p.2| ≤ Z) (hne : z ≠ []) (hp : z.length ≤ 2 ^ M.R.prec)
    (hn : 2 * ((z.length + 2 : ℕ) * u) ≤ 1) (hmax : 8 * (z.length * Z ^ 2) ≤ huge) (ht : tiny ≤ 1) (hm : 4 * tiny ≤ m)
    (l1 : z.length * m ≤ (z.map fun p => p.1 ^ 2).sum) (l2 : z.length * m ≤ (z.map fun p => p.2 ^ 2).sum) (hm0 : 0 < m) :
    ∃ b11 b22 b12, Model.Rounded.rawMoments M (z.map fun p => (.fin p.1, .fin p.2)) = ⟨.fin b11, .fin b22, .fin b12⟩ ∧
      m / 2 ≤ b11 ∧ b11 ≤ 2 * Z ^ 2 ∧ m / 2 ≤ b22 ∧ b22 ≤ 2 * Z ^ 2 ∧
      |b12| * (1 - u) ^ (2 * z.length + 4) ≤ Real.sqrt (b11 * b22) := by
  have hu0 := A.u_nonneg
  have hu1 : u < 1 := by linarith
  have v0 : 0 < 1 - u := by linarith
  have hl : (1 : ℝ) ≤ z.length := by exact_mod_cast List.length_pos_iff.mpr hne
  have lT : (0 : ℝ) < z.length := by linarith
  have hZ2 : 1 ≤ Z ^ 2 := by nlinarith
  obtain ⟨q1, e1, k1⟩ := moment M A hu hZ2 z (fun p => p.1) hne hp (fun p hp => sq_bound (hz p hp).1 le_rfl) hn hmax ht hm l1
  obtain ⟨q2, e2, k2⟩ := moment M A hu hZ2 z (fun p => p.2) hne hp (fun p hp => sq_bound (hz p hp).2 le_rfl) hn hmax ht hm l2
  set D1 := (z.map fun p => p.1 ^ 2).sum with hD1
  set D2 := (z.map fun p => p.2 ^ 2).sum with hD2
  have hm1 : m ≤ D1 / z.length := by rw [le_div_iff₀ lT]; linarith
  have hm2 : m ≤ D2 / z.length := by rw [le_div_iff₀ lT]; linarith
  have hTm : 0 ≤ z.length * m := by positivity
  have hW : z.length * m ≤ Real.sqrt (D1 * D2) := by
    apply Real.le_sqrt_of_sq_le
    rw [pow_two]
    exact mul_le_mul l1 l2 hTm (hTm.trans l1)
  obtain ⟨q3, e3, k3⟩ := cross M A hu hZ2 z hne hp (fun p hp => by
    rw [abs_mul, pow_two]
    exact mul_le_mul (hz p hp).1 (hz p hp).2 (abs_nonneg _) (by linarith)) hn hmax ht hm hW (cs_list z)
  have hpow : 1 / 2 ≤ (1 - u) ^ (z.length + 2) := A.pow_half hn hu1
  have low : ∀ {D q : ℝ}, m ≤ D / z.length → Close u (z.length + 2) (D / z.length) q → m / 2 ≤ q := by
    intro D q h k
    have := mul_le_mul h hpow (by norm_num) (by linarith)
    linarith [k.2.1]
  have high : ∀ {f : ℝ × ℝ → ℝ} {q : ℝ}, (∀ p ∈ z, f p ≤ Z ^ 2) → Close u (z.length + 2) ((z.map f).sum / z.length) q → q ≤ 2 * Z ^ 2 := by
    intro f q h k
    refine dbl (k.nonneg hu1.le) hpow (k.2.2.trans ?_)
    rw [div_le_iff₀ lT, mul_comm]
    exact sum_bound h
  have b1 := low hm1 k1
  have b2 := low hm2 k2
  refine ⟨q1, q2, q3, ?_, b1, high (fun p hp => sq_bound (hz p hp).1 le_rfl) k1, b2,
    high (fun p hp => sq_bound (hz p hp).2 le_rfl) k2, ?_⟩
  · unfold Model.Rounded.rawMoments
    simp only [List.map_map, List.length_map, Function.comp_def]
    rw [e1, e2, e3]
  · have hs : Real.sqrt (D1 * D2) / z.length * (1 - u) ^ (z.length + 2) ≤ Real.sqrt (q1 * q2) := by
      apply Real.le_sqrt_of_sq_le
      rw [mul_pow, div_pow, Real.sq_sqrt (mul_nonneg (hTm.trans l1) (hTm.trans l2))]
      calc D1 * D2 / z.length ^ 2 * ((1 - u) ^ (z.length + 2)) ^ 2
          = (D1 / z.length * (1 - u) ^ (z.length + 2)) * (D2 / z.length * (1 - u) ^ (z.length + 2)) := by
            field_simp
        _ ≤ q1 * q2 := mul_le_mul k1.2.1 k2.2.1 (mul_nonneg (by linarith) (by linarith)) (by linarith)
    calc |q3| * (1 - u) ^ (2 * z.length + 4) = |q3| * (1 - u) ^ (z.length + 2) * (1 - u) ^ (z.length + 2) := by ring
      _ ≤ Real.sqrt (D1 * D2) / z.length * (1 - u) ^ (z.length + 2) := mul_le_mul_of_nonneg_right k3 (by linarith)
      _ ≤ _ := hs

end RoundedDcc
end
end Frds.Props

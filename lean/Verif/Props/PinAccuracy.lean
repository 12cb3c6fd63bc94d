import Verif.Props.PinFloat
import Verif.Lemmas.RoundErrorLog

/-! C210: accuracy of Lin and Ke's likelihood in floating point. -/
set_option linter.unusedSimpArgs false
namespace Frds.Props
noncomputable section
open Frds Frds.Model Frds.Spec Classical

namespace PinAcc

/-- the machine's logarithm, on numbers of the format in the normal range, is correct to one rounding error -/
def LogOk (M : Machine) (u tiny huge : ℝ) : Prop :=
  ∀ x : ℝ, tiny ≤ x → x ≤ huge → 0 < x → M.R.Rep (.fin x) →
    ∃ z, M.log (.fin x) = .fin z ∧ M.R.Rep (.fin z) ∧ |z - Real.log x| ≤ u * max |Real.log x| tiny

/-- the machine's exponential, on the negative half-line, is correct to one rounding error -/
def ExpOk (M : Machine) (u tiny : ℝ) : Prop :=
  ∀ x : ℝ, x ≤ 0 → ∃ z, M.exp (.fin x) = .fin z ∧ M.R.Rep (.fin z) ∧ 0 ≤ z ∧ |z - Real.exp x| ≤ u * max (Real.exp x) tiny

variable {M : Machine} {u tiny huge : ℝ} {k : ℕ}

/-- the logarithm of a computed number -/
theorem log_apx (A : Accurate M.R u tiny huge) (hu1 : u < 1) (ht1 : tiny ≤ 1) (hlog : LogOk M u tiny huge) {X x : ℝ}
    (hX : 0 < X) (hc : Close u k X x) (rx : M.R.rd x = .fin x) (h1 : tiny ≤ x) (h2 : x ≤ huge) :
    ∃ z, M.log (.fin x) = .fin z ∧ M.R.rd z = .fin z ∧ Apx u (k + 1) (Real.log X) (|Real.log X| + 1) z := by
  have hx : 0 < x := lt_of_lt_of_le (mul_pos hX (Apx.pow_pos (k := k) hu1)) hc.2.1
  obtain ⟨z, e, r, d⟩ := hlog x h1 h2 hx rx
  exact ⟨z, e, r, (Apx.log_close hu1 A.u_nonneg hc hX).next A.u_nonneg hu1 d (by have := abs_nonneg (Real.log X); linarith)⟩

/-- a count times a computed number -/
theorem count_mul (A : Accurate M.R u tiny huge) (hu1 : u < 1) (hk : 2 * ((k : ℝ) * u) ≤ 1) (ht1 : tiny ≤ 1) {x B z : ℝ}
    (h : Apx u k x B z) (hB1 : 1 ≤ B) (n : ℕ) (hB : 2 * (n * B) ≤ huge) :
    ∃ s, M.R.mul (.fin n) (.fin z) = .fin s ∧ M.R.rd s = .fin s ∧ Apx u (k + 1) (n * x) (n * B) s := by
  unfold Rounding.mul
  rw [XR.fin_mul, Rounding.round_fin]
  have hn : Apx u 0 (n : ℝ) n n := by simpa using Apx.refl (u := u) (x := (n : ℝ))
  have := hn.mul A.u_nonneg hu1 h
  rw [zero_add] at this
  refine A.round0 hu1 hk this ?_ hB
  rcases Nat.eq_zero_or_pos n with rfl | hn
  · left; simp
  · right
    have : (1 : ℝ) ≤ n := by exact_mod_cast hn
    nlinarith

/-- exact exponents of a day, magnitudes -/
theorem exps (A : Accurate M.R u tiny huge) (hu1 : u < 1) (hk : 2 * ((14 : ℝ) * u) ≤ 1) (ht1 : tiny ≤ 1)
    {L1 L2 l1 l2 mu : ℝ} (h1 : Apx u 3 L1 (L1 + 1) l1) (h2 : Apx u 3 L2 (L2 + 1) l2) (hL1 : 0 ≤ L1) (hL2 : 0 ≤ L2)
    (hmu : 0 ≤ mu) (rmu : M.R.rd mu = .fin mu) (b s : ℕ) {T : ℝ} (hT : T = mu + b * (L2 + 1) + s * (L1 + 1)) (hmax : 4 * T ≤ huge) :
    ∃ e1 e2 e3 : ℝ, M.R.sub (-.fin mu) (M.R.mul (.fin s) (.fin l1)) = .fin e1 ∧
      M.R.sub (-.fin mu) (M.R.mul (.fin b) (.fin l2)) = .fin e2 ∧
      M.R.sub (M.R.mul (-.fin b) (.fin l2)) (M.R.mul (.fin s) (.fin l1)) = .fin e3 ∧
      M.R.rd e1 = .fin e1 ∧ M.R.rd e2 = .fin e2 ∧ M.R.rd e3 = .fin e3 ∧
      Apx u 5 (-mu - s * L1) T e1 ∧ Apx u 5 (-mu - b * L2) T e2 ∧ Apx u 5 (-b * L2 - s * L1) T e3 := by
  have hu := A.u_nonneg
  have b0 : (0 : ℝ) ≤ b := Nat.cast_nonneg b
  have s0 : (0 : ℝ) ≤ s := Nat.cast_nonneg s
  have p1 : 0 ≤ b * (L2 + 1) := by positivity
  have p2 : 0 ≤ s * (L1 + 1) := by positivity
  obtain ⟨q1, g1, r1, c1⟩ := count_mul A hu1 (by push_cast; linarith) ht1 h1 (by linarith) s (by linarith)
  obtain ⟨q2, g2, r2, c2⟩ := count_mul A hu1 (by push_cast; linarith) ht1 h2 (by linarith) b (by linarith)
  have g3 : M.R.mul (-.fin b) (.fin l2) = .fin (-q2) := by
    unfold Rounding.mul at g2 ⊢
    rw [XR.fin_neg, XR.fin_mul, Rounding.round_fin, neg_mul, M.R.neg]
    rw [XR.fin_mul, Rounding.round_fin] at g2
    rw [g2]; rfl
  have rm : M.R.rd (-mu) = .fin (-mu) := by rw [M.R.neg, rmu]; rfl
  have rq : M.R.rd (-q2) = .fin (-q2) := by rw [M.R.neg, r2]; rfl
  have am : Apx u 4 (-mu) mu (-mu) := by
    have := (Apx.refl (u := u) (x := mu)).neg.mono hu hu1 (l := 4) (by norm_num)
    rwa [abs_of_nonneg hmu] at this
  rw [g1, g2, g3]
  unfold Rounding.sub
  simp only [XR.fin_neg, XR.fin_sub, Rounding.round_fin]
  obtain ⟨e1, f1, k1, a1⟩ := A.round_sub hu1 (by push_cast; linarith) rm r1 (am.sub c1 hu1) (by linarith)
  obtain ⟨e2, f2, k2, a2⟩ := A.round_sub hu1 (by push_cast; linarith) rm r2 (am.sub c2 hu1) (by linarith)
  obtain ⟨e3, f3, k3, a3⟩ := A.round_sub hu1 (by push_cast; linarith) rq r1 (c2.neg.sub c1 hu1) (by linarith)
  refine ⟨e1, e2, e3, f1, f2, f3, k1, k2, k3, a1.mono_mag hu hu1 (by linarith), a2.mono_mag hu hu1 (by linarith), ?_⟩
  rw [show -(b : ℝ) * L2 - s * L1 = -(b * L2) - s * L1 by ring]
  exact a3.mono_mag hu hu1 (by linarith)

/-- the logarithm of a number with a small relative error -/
theorem rel_log {u x Y : ℝ} (hu : 0 ≤ u) (hk : 300 * u ≤ 1) (hY0 : 0 < Y) (h : Apx u 6 Y (2 * Y) x) :
    Y / 2 ≤ x ∧ x ≤ 2 * Y ∧ 0 < x ∧ |Real.log x - Real.log Y| ≤ 13 * u := by
  have cx' := h.error (by push_cast; linarith) (by linarith)
  push_cast at cx'
  have hrel : |x - Y| ≤ (12.4 * u) * Y := by
    refine cx'.trans ?_
    have hd : 0 < 1 - (6 : ℝ) * u := by linarith
    have : (6 : ℝ) * u / (1 - 6 * u) ≤ 6.2 * u := by
      rw [div_le_iff₀ hd]
      nlinarith
    nlinarith
  obtain ⟨b1, b2⟩ := abs_le.mp hrel
  have hxlo : Y * (1 - 12.4 * u) ≤ x := by linarith
  have hxhi : x ≤ Y * (1 + 12.4 * u) := by linarith
  have hx0 : 0 < x := lt_of_lt_of_le (mul_pos hY0 (by linarith)) hxlo
  refine ⟨by nlinarith, by nlinarith, hx0, ?_⟩
  have hq : Real.log x - Real.log Y = Real.log (x / Y) := (Real.log_div hx0.ne' hY0.ne').symm
  rw [hq]
  have q1 : 1 - 12.4 * u ≤ x / Y := by rw [le_div_iff₀ hY0]; linarith
  have q2 : x / Y ≤ 1 + 12.4 * u := by rw [div_le_iff₀ hY0]; linarith
  have q0 : 0 < x / Y := div_pos hx0 hY0
  generalize x / Y = q at *
  clear cx' hrel b1 b2 hxlo hxhi hq h
  rw [abs_le]
  constructor
  · have h1 := Real.one_sub_inv_le_log_of_pos q0
    have h2 : q⁻¹ ≤ 1 + 13 * u := by
      rw [inv_le_comm₀ q0 (by linarith)]
      refine le_trans ?_ q1
      rw [inv_le_iff_one_le_mul₀ (by linarith)]
      nlinarith [mul_nonneg hu (show 0 ≤ 1 - 300 * u by linarith)]
    linarith
  · have := Real.log_le_sub_one_of_pos q0
    linarith

/-- a mixture of three states: relative error with underflow -/
theorem mix (A : Accurate M.R u tiny huge) (hu1 : u < 1) (hk : 300 * u ≤ 1) (hexp : ExpOk M u tiny) (hh : 4 ≤ huge)
    {alpha delta w : ℝ} (ha : 0 ≤ alpha ∧ alpha ≤ 1) (hd : 0 ≤ delta ∧ delta ≤ 1) (ra : M.R.rd alpha = .fin alpha)
    (rd : M.R.rd delta = .fin delta) (hw0 : 0 < w) (hw : 6 * tiny ≤ w) (hw1 : w ≤ alpha * (1 - delta)) (hw2 : w ≤ alpha * delta) (hw3 : w ≤ 1 - alpha)
    {v1 v2 v3 : ℝ} (n1 : v1 ≤ 0) (n2 : v2 ≤ 0) (n3 : v3 ≤ 0) (hone : v1 = 0 ∨ v2 = 0 ∨ v3 = 0) :
    ∃ x : ℝ, M.R.add (M.R.add (M.R.mul (M.R.mul (.fin alpha) (M.R.sub 1 (.fin delta))) (M.exp (.fin v1)))
        (M.R.mul (M.R.mul (.fin alpha) (.fin delta)) (M.exp (.fin v2)))) (M.R.mul (M.R.sub 1 (.fin alpha)) (M.exp (.fin v3))) = .fin x ∧
      M.R.rd x = .fin x ∧ tiny ≤ x ∧ x ≤ 4 ∧ 0 < x ∧
      |Real.log x - Real.log (alpha * (1 - delta) * Real.exp v1 + alpha * delta * Real.exp v2 + (1 - alpha) * Real.exp v3)| ≤ 13 * u := by
  have hu := A.u_nonneg
  have ht0 := A.tiny_nonneg
  have r1 : M.R.rd 1 = .fin 1 := Rounding.rep_one
  -- weights
  have o : ∀ {y : ℝ}, 0 ≤ y ∧ y ≤ 1 → M.R.rd y = .fin y → ∃ t, M.R.sub 1 (.fin y) = .fin t ∧ M.R.rd t = .fin t ∧ Close u 1 (1 - y) t := by
    intro y hy ry
    obtain ⟨t, e, r, c⟩ := A.step_sub hu1 r1 ry hy.2 (by linarith)
    exact ⟨t, by unfold Rounding.sub; rw [XR.one_def, XR.fin_sub, Rounding.round_fin]; exact e, r, c⟩
  obtain ⟨d', ed, rd', cd⟩ := o hd rd
  obtain ⟨w3, ew3, rw3, cw3⟩ := o ha ra
  have ca : Close u 0 alpha alpha := Close.refl ha.1
  have cdl : Close u 0 delta delta := Close.refl hd.1
  have p1 : alpha * (1 - delta) ≤ 1 := by nlinarith
  have p2 : alpha * delta ≤ 1 := by nlinarith
  obtain ⟨w1, ew1, rw1, cw1⟩ := A.mul hu1 (by push_cast; linarith) ca cd (Or.inr ⟨by linarith, by linarith⟩)
  obtain ⟨w2, ew2, rw2, cw2⟩ := A.mul hu1 (by push_cast; linarith) ca cdl (Or.inr ⟨by linarith, by linarith⟩)
  rw [ed, ew1, ew2, ew3]
  have cw2 := cw2.mono hu hu1 (l := 2) (by norm_num)
  have cw3 := cw3.mono hu hu1 (l := 2) (by norm_num)
  -- terms
  have term : ∀ {W w' v : ℝ}, Close u 2 W w' → W ≤ 1 → 0 ≤ W → v ≤ 0 → ∃ t, M.R.mul (.fin w') (M.exp (.fin v)) = .fin t ∧ M.R.rd t = .fin t ∧
      Apx u 4 (W * Real.exp v) (W * Real.exp v + 2 * tiny) t := by
    intro W w' v hc hW hW0 hv
    obtain ⟨z, e, r, z0, d⟩ := hexp v hv
    have ev0 := Real.exp_pos v
    have ev1 : Real.exp v ≤ 1 := Real.exp_le_one_iff.mpr hv
    have a1 : Apx u 1 (Real.exp v) (Real.exp v + tiny) z := by
      refine Apx.of_abs hu hu1 (e := u * max (Real.exp v) tiny) (by rw [abs_of_pos ev0]; linarith) d ?_
      rw [Nat.cast_one, one_mul]
      exact mul_le_mul_of_nonneg_left (max_le (by linarith) (by linarith)) hu
    have a2 := (Apx.of_close hu hu1 hc).mul hu hu1 a1
    have a3 := a2.mono_mag hu hu1 (B' := W * Real.exp v + 2 * tiny) (by nlinarith)
    have tt : tiny ≤ W * Real.exp v + 2 * tiny := by have := mul_nonneg hW0 ev0.le; linarith
    obtain ⟨t, e', r', c'⟩ := A.round hu1 (by push_cast; linarith) a3 tt (by nlinarith)
    refine ⟨t, ?_, r', c'⟩
    rw [e]
    unfold Rounding.mul
    rw [XR.fin_mul, Rounding.round_fin]
    exact e'
  obtain ⟨t1, et1, rt1, ct1⟩ := term cw1 p1 (by linarith) n1
  obtain ⟨t2, et2, rt2, ct2⟩ := term cw2 p2 (by linarith) n2
  obtain ⟨t3, et3, rt3, ct3⟩ := term cw3 (by linarith) (by linarith) n3
  rw [et1, et2, et3]
  have E1 := Real.exp_pos v1
  have E2 := Real.exp_pos v2
  have E3 := Real.exp_pos v3
  have u1 : Real.exp v1 ≤ 1 := Real.exp_le_one_iff.mpr n1
  have u2 : Real.exp v2 ≤ 1 := Real.exp_le_one_iff.mpr n2
  have u3 : Real.exp v3 ≤ 1 := Real.exp_le_one_iff.mpr n3
  have hwY : w ≤ alpha * (1 - delta) * Real.exp v1 + alpha * delta * Real.exp v2 + (1 - alpha) * Real.exp v3 := by
    have m1 := mul_nonneg (show 0 ≤ alpha * (1 - delta) by linarith) E1.le
    have m2 := mul_nonneg (show 0 ≤ alpha * delta by linarith) E2.le
    have m3 := mul_nonneg (show 0 ≤ 1 - alpha by linarith) E3.le
    rcases hone with h | h | h
    · rw [h, Real.exp_zero] at m1 ⊢; linarith
    · rw [h, Real.exp_zero] at m2 ⊢; linarith
    · rw [h, Real.exp_zero] at m3 ⊢; linarith
  have hY1 : alpha * (1 - delta) * Real.exp v1 + alpha * delta * Real.exp v2 + (1 - alpha) * Real.exp v3 ≤ 1 := by
    have m1 := mul_le_mul_of_nonneg_left u1 (show 0 ≤ alpha * (1 - delta) by linarith)
    have m2 := mul_le_mul_of_nonneg_left u2 (show 0 ≤ alpha * delta by linarith)
    have m3 := mul_le_mul_of_nonneg_left u3 (show 0 ≤ 1 - alpha by linarith)
    nlinarith
  have y1 := mul_nonneg (show 0 ≤ alpha * (1 - delta) by linarith) E1.le
  have y2 := mul_nonneg (show 0 ≤ alpha * delta by linarith) E2.le
  have y3 := mul_nonneg (show 0 ≤ 1 - alpha by linarith) E3.le
  have ht6 : 6 * tiny ≤ 1 := by linarith
  unfold Rounding.add
  rw [XR.fin_add, Rounding.round_fin]
  obtain ⟨s, es, rs, cs⟩ := A.round_add hu1 (by push_cast; linarith) rt1 rt2 (ct1.add ct2 hu1) (by linarith)
  rw [es, XR.fin_add, Rounding.round_fin]
  obtain ⟨x, ex, rx, cx⟩ := A.round_add hu1 (by push_cast; linarith) rs rt3 (cs.add (ct3.mono hu hu1 (l := 5) (by norm_num)) hu1) (by linarith)
  refine ⟨x, ex, rx, ?_⟩
  generalize alpha * (1 - delta) * Real.exp v1 = Y1 at *
  generalize alpha * delta * Real.exp v2 = Y2 at *
  generalize (1 - alpha) * Real.exp v3 = Y3 at *
  have cx' := cx.mono_mag hu hu1 (B' := 2 * (Y1 + Y2 + Y3)) (by linarith only [hwY, hw, y1, y2, y3])
  clear cx cs ct1 ct2 ct3 cw1 cw2 cw3 cd ca cdl
  generalize Y1 + Y2 + Y3 = Y at *
  obtain ⟨a1, a2, a3, a4⟩ := rel_log hu hk (by linarith only [hwY, hw0]) cx'
  exact ⟨by linarith only [a1, hwY, hw, ht0], by linarith only [a2, hY1], a3, a4⟩

/-- the logarithm of the density of a day, split as the code does, for any shift `m` of the exponents -/
theorem split {p : Eho} (h : p.Admissible) (b s m : ℝ) :
    Real.log (mixture p b s) =
      (-p.eB - p.eS + b * Real.log (p.mu + p.eB) + s * Real.log (p.mu + p.eS) + m) +
      Real.log (p.alpha * (1 - p.delta) * Real.exp (-p.mu - s * Real.log (1 + p.mu / p.eS) - m)
        + p.alpha * p.delta * Real.exp (-p.mu - b * Real.log (1 + p.mu / p.eB) - m)
        + (1 - p.alpha) * Real.exp (-b * Real.log (1 + p.mu / p.eB) - s * Real.log (1 + p.mu / p.eS) - m)) := by
  obtain ⟨_, _, _, _, hB, hS, hm⟩ := id h
  have hMB : 0 < p.mu + p.eB := by linarith
  have hMS : 0 < p.mu + p.eS := by linarith
  symm
  apply add_log_exp (mix_pos h (Real.exp_pos _) (Real.exp_pos _) (Real.exp_pos _))
  have f1 : Real.log (1 + p.mu / p.eB) = Real.log (p.mu + p.eB) - Real.log p.eB := by
    rw [← Real.log_div hMB.ne' hB.ne']; congr 1; field_simp; ring
  have f2 : Real.log (1 + p.mu / p.eS) = Real.log (p.mu + p.eS) - Real.log p.eS := by
    rw [← Real.log_div hMS.ne' hS.ne']; congr 1; field_simp; ring
  simp only [mixture, Real.rpow_def_of_pos hB, Real.rpow_def_of_pos hS, Real.rpow_def_of_pos hMB, Real.rpow_def_of_pos hMS, f1, f2]
  generalize Real.log p.eB = LB
  generalize Real.log p.eS = LS
  generalize Real.log (p.mu + p.eB) = LMB
  generalize Real.log (p.mu + p.eS) = LMS
  rw [mul_add, mul_add]
  congr 1
  · congr 1 <;>
    · rw [← Real.exp_add, ← Real.exp_add,
        show ∀ E w a : ℝ, E * (w * a) = w * (E * a) by intros; ring, ← Real.exp_add]
      congr 2; ring
  · rw [← Real.exp_add, ← Real.exp_add,
        show ∀ E w a : ℝ, E * (w * a) = w * (E * a) by intros; ring, ← Real.exp_add]
    congr 2; ring

/-- magnitude of the terms of a day with `b` buys and `s` sells; `w` is the least weight of the mixture -/
def magnitude (p : Eho) (w : ℝ) (b s : ℕ) : ℝ :=
  p.eB + p.eS + b * (|Real.log (p.mu + p.eB)| + 1) + s * (|Real.log (p.mu + p.eS)| + 1)
    + 3 * (p.mu + b * (Real.log (1 + p.mu / p.eB) + 1) + s * (Real.log (1 + p.mu / p.eS) + 1)) + |Real.log w| + 1

theorem six_thirteen {u : ℝ} (hu : 0 ≤ u) (hk : 300 * u ≤ 1) : (6 : ℝ) * u / (1 - 6 * u) ≤ 13 * u := by
  rw [div_le_iff₀ (by linarith)]
  nlinarith

set_option maxHeartbeats 1000000 in
/-- one day -/
theorem day (A : Accurate M.R u tiny huge) (hk : 300 * u ≤ 1) (hexp : ExpOk M u tiny) (hlog : LogOk M u tiny huge)
    {p : Eho} (h : p.Admissible) (rep : M.R.rd p.alpha = .fin p.alpha ∧ M.R.rd p.delta = .fin p.delta ∧ M.R.rd p.eB = .fin p.eB ∧
      M.R.rd p.eS = .fin p.eS ∧ M.R.rd p.mu = .fin p.mu) {w : ℝ} (hw0 : 0 < w) (hw : 6 * tiny ≤ w)
    (hw1 : w ≤ p.alpha * (1 - p.delta)) (hw2 : w ≤ p.alpha * p.delta) (hw3 : w ≤ 1 - p.alpha)
    (heB : 2 * tiny ≤ p.eB) (heS : 2 * tiny ≤ p.eS)
    (hrB : InRange tiny huge (p.mu / p.eB) ∧ 2 * (1 + p.mu / p.eB) ≤ huge)
    (hrS : InRange tiny huge (p.mu / p.eS) ∧ 2 * (1 + p.mu / p.eS) ≤ huge)
    (b s : ℕ) (hmax : 4 * magnitude p w b s ≤ huge) :
    ∃ a c : ℝ, Model.Rounded.lkDay1 M (ofEho p) (.fin b) (.fin s) = .fin a ∧ M.R.rd a = .fin a ∧
      M.log (Model.Rounded.lkMix M (ofEho p) (.fin b) (.fin s)) = .fin c ∧ M.R.rd c = .fin c ∧
      ∃ x1 x2 B1 B2 : ℝ, x1 + x2 = Real.log (mixture p b s) ∧ B1 + B2 = magnitude p w b s ∧ Apx u 6 x1 B1 a ∧ Apx u 14 x2 B2 c := by
  obtain ⟨ha0, ha1, hd0, hd1, hB, hS, hm⟩ := id h
  obtain ⟨ra, rd, rB, rS, rm⟩ := rep
  have hu := A.u_nonneg
  have hu1 : u < 1 := by linarith
  have ht0 := A.tiny_nonneg
  have hMB : 0 < p.mu + p.eB := by linarith
  have hMS : 0 < p.mu + p.eS := by linarith
  have h1S : 0 ≤ p.mu / p.eS := by positivity
  have h1B : 0 ≤ p.mu / p.eB := by positivity
  have b0 : (0 : ℝ) ≤ b := Nat.cast_nonneg b
  have s0 : (0 : ℝ) ≤ s := Nat.cast_nonneg s
  have hL1 : 0 ≤ Real.log (1 + p.mu / p.eS) := Real.log_nonneg (by linarith)
  have hL2 : 0 ≤ Real.log (1 + p.mu / p.eB) := Real.log_nonneg (by linarith)
  have ht1 : tiny ≤ 1 := by
    have : w ≤ 1 := by linarith
    linarith
  -- logarithms
  have one : M.R.rd 1 = .fin 1 := Rounding.rep_one
  have lg1 : ∀ {e : ℝ}, 0 < e → InRange tiny huge (p.mu / e) ∧ 2 * (1 + p.mu / e) ≤ huge →
      ∃ l, M.log (M.R.add 1 (M.R.div (.fin p.mu) (.fin e))) = .fin l ∧
        Apx u 3 (Real.log (1 + p.mu / e)) (Real.log (1 + p.mu / e) + 1) l := by
    intro e he hr
    have q0 : 0 ≤ p.mu / e := by positivity
    obtain ⟨q, eq, rq, cq⟩ := A.div hu1 (by push_cast; linarith) (Close.refl hm) (Close.refl he.le) he hr.1
    obtain ⟨t, et, rt, ct⟩ := A.add hu1 (by push_cast; linarith) ((Close.refl (u := u) (zero_le_one (α := ℝ))).mono hu hu1 (l := 1) (by norm_num))
      cq one rq hr.2
    have t1 : 1 ≤ t := by
      have : M.R.rd 1 ≤ M.R.rd (1 + q) := M.R.mono _ _ (by have := cq.nonneg hu1.le; linarith)
      unfold Rounding.add at et
      rw [XR.fin_add, Rounding.round_fin] at et
      rw [one, et] at this
      exact XR.fin_le.mp this
    have th : t ≤ huge := by
      have h2 := ct.2.2
      have h3 := A.pow_half (k := 1 + 1) (by push_cast; linarith) hu1
      nlinarith
    obtain ⟨l, el, -, al⟩ := log_apx A hu1 ht1 hlog (by linarith) ct rt (by linarith) th
    refine ⟨l, ?_, ?_⟩
    · rw [eq, XR.one_def, et]; exact el
    · rw [abs_of_nonneg (Real.log_nonneg (by linarith))] at al
      exact al
  have lg2 : ∀ {e : ℝ}, 0 < e → 2 * tiny ≤ e → M.R.rd e = .fin e → 2 * (p.mu + e) ≤ huge →
      ∃ l, M.log (M.R.add (.fin p.mu) (.fin e)) = .fin l ∧
        Apx u 2 (Real.log (p.mu + e)) (|Real.log (p.mu + e)| + 1) l := by
    intro e he het re hr
    obtain ⟨t, et, rt, ct⟩ := A.add hu1 (by push_cast; linarith) (Close.refl hm) (Close.refl he.le) rm re hr
    have h3 := A.pow_half (k := 0 + 1) (by push_cast; linarith) hu1
    have h4 := mul_le_mul_of_nonneg_left h3 (show 0 ≤ p.mu + e by linarith)
    have h5 := mul_le_mul_of_nonneg_left h3 (ct.nonneg hu1.le)
    obtain ⟨l, el, -, al⟩ := log_apx A hu1 ht1 hlog (by linarith) ct rt (by have := h4.trans ct.2.1; linarith) (by have := h5.trans ct.2.2; linarith)
    exact ⟨l, by rw [et]; exact el, al⟩
  obtain ⟨T, hT⟩ : ∃ T, T = p.mu + b * (Real.log (1 + p.mu / p.eB) + 1) + s * (Real.log (1 + p.mu / p.eS) + 1) := ⟨_, rfl⟩
  have hmag : magnitude p w b s = p.eB + p.eS + b * (|Real.log (p.mu + p.eB)| + 1) + s * (|Real.log (p.mu + p.eS)| + 1)
      + 3 * T + |Real.log w| + 1 := by rw [hT]; rfl
  have g1 : 0 ≤ b * (|Real.log (p.mu + p.eB)| + 1) := by positivity
  have g2 : 0 ≤ s * (|Real.log (p.mu + p.eS)| + 1) := by positivity
  have g3 : p.mu ≤ T := by
    have : 0 ≤ b * (Real.log (1 + p.mu / p.eB) + 1) := by positivity
    have : 0 ≤ s * (Real.log (1 + p.mu / p.eS) + 1) := by positivity
    linarith
  have g4 := abs_nonneg (Real.log w)
  rw [hmag] at hmax
  obtain ⟨l1, el1, a1⟩ := lg1 hS hrS
  obtain ⟨l2, el2, a2⟩ := lg1 hB hrB
  obtain ⟨m1, em1, am1⟩ := lg2 hB heB rB (by linarith)
  obtain ⟨m2, em2, am2⟩ := lg2 hS heS rS (by linarith)
  obtain ⟨e1, e2, e3, ee1, ee2, ee3, r1, r2, r3, c1, c2, c3⟩ :=
    exps A hu1 (by linarith) ht1 a1 a2 hL1 hL2 hm rm b s hT (by linarith)
  have E1 : Model.Rounded.lkE1 M (.fin b) (.fin s) (ofEho p) = .fin e1 := by
    unfold Model.Rounded.lkE1 ofEho; rw [el1]; exact ee1
  have E2 : Model.Rounded.lkE2 M (.fin b) (.fin s) (ofEho p) = .fin e2 := by
    unfold Model.Rounded.lkE2 ofEho; rw [el2]; exact ee2
  have E3 : Model.Rounded.lkE3 M (.fin b) (.fin s) (ofEho p) = .fin e3 := by
    unfold Model.Rounded.lkE3 ofEho; rw [el1, el2]; exact ee3
  have EM : Model.Rounded.lkMax M (.fin b) (.fin s) (ofEho p) = .fin (max (max e1 e2) e3) := by
    unfold Model.Rounded.lkMax; rw [E1, E2, E3, XR.npMax_fin, XR.npMax_fin]
  have cm := (c1.max hu1 c2).max hu1 c3
  set x1 := -p.mu - s * Real.log (1 + p.mu / p.eS) with hx1
  set x2 := -p.mu - b * Real.log (1 + p.mu / p.eB) with hx2
  set x3 := -(b : ℝ) * Real.log (1 + p.mu / p.eB) - s * Real.log (1 + p.mu / p.eS) with hx3
  have l1 : e1 ≤ max (max e1 e2) e3 := (le_max_left _ _).trans (le_max_left _ _)
  have l2 : e2 ≤ max (max e1 e2) e3 := (le_max_right _ _).trans (le_max_left _ _)
  have l3 : e3 ≤ max (max e1 e2) e3 := le_max_right _ _
  have k1 : x1 ≤ max (max x1 x2) x3 := (le_max_left _ _).trans (le_max_left _ _)
  have k2 : x2 ≤ max (max x1 x2) x3 := (le_max_right _ _).trans (le_max_left _ _)
  have k3 : x3 ≤ max (max x1 x2) x3 := le_max_right _ _
  have cho : ∀ y1 y2 y3 : ℝ, max (max y1 y2) y3 = y1 ∨ max (max y1 y2) y3 = y2 ∨ max (max y1 y2) y3 = y3 := by
    intro y1 y2 y3
    rcases max_choice (max y1 y2) y3 with h | h
    · rcases max_choice y1 y2 with h' | h'
      · exact Or.inl (h.trans h')
      · exact Or.inr (Or.inl (h.trans h'))
    · exact Or.inr (Or.inr h)
  have hce := cho e1 e2 e3
  have hcx := cho x1 x2 x3
  have rM : M.R.rd (max (max e1 e2) e3) = .fin (max (max e1 e2) e3) := by
    rcases hce with h | h | h <;> rw [h] <;> assumption
  have spl := split h b s (max (max x1 x2) x3)
  rw [← hx1, ← hx2, ← hx3] at spl
  generalize max (max e1 e2) e3 = em at *
  generalize max (max x1 x2) x3 = xm at *
  -- shifted exponents
  have sh : ∀ {e x : ℝ}, Apx u 5 x T e → e ≤ em → M.R.rd e = .fin e →
      ∃ v, M.R.sub (.fin e) (.fin em) = .fin v ∧ v ≤ 0 ∧ Apx u 6 (x - xm) (2 * T) v ∧ (e = em → v = 0) := by
    intro e x hc hle re
    obtain ⟨v, ev, rv, av⟩ := A.round_sub hu1 (by push_cast; linarith) re rM (hc.sub cm hu1) (by linarith)
    refine ⟨v, by unfold Rounding.sub; rw [XR.fin_sub, Rounding.round_fin]; exact ev, ?_, by rw [two_mul]; exact av, ?_⟩
    · have := M.R.mono (e - em) 0 (by linarith)
      rw [ev, Rounding.rd_zero] at this
      exact XR.fin_le.mp this
    · intro he
      rw [he, sub_self, Rounding.rd_zero] at ev
      exact (XR.fin_inj.mp ev).symm
  obtain ⟨v1, ev1, n1, av1, z1⟩ := sh c1 l1 r1
  obtain ⟨v2, ev2, n2, av2, z2⟩ := sh c2 l2 r2
  obtain ⟨v3, ev3, n3, av3, z3⟩ := sh c3 l3 r3
  obtain ⟨X, eX, rX, X1, X2, X0, aX⟩ := mix A hu1 hk hexp (by linarith) ⟨ha0, ha1⟩ ⟨hd0, hd1⟩ ra rd hw0 hw hw1 hw2 hw3 n1 n2 n3 (by
    rcases hce with h | h | h
    · exact Or.inl (z1 h.symm)
    · exact Or.inr (Or.inl (z2 h.symm))
    · exact Or.inr (Or.inr (z3 h.symm)))
  have EX : Model.Rounded.lkMix M (ofEho p) (.fin b) (.fin s) = .fin X := by
    unfold Model.Rounded.lkMix
    rw [E1, E2, E3, EM, ev1, ev2, ev3]
    exact eX
  -- the logarithm of the mixture
  have T0 : 0 ≤ T := hm.trans g3
  have hP := Apx.pow_pos (u := u) (k := 6) hu1
  have shift := log_mix_shift (w1 := p.alpha * (1 - p.delta)) (w2 := p.alpha * p.delta) (w3 := 1 - p.alpha)
    (x1 := x1 - xm) (x2 := x2 - xm) (x3 := x3 - xm) (y1 := v1) (y2 := v2) (y3 := v3) (E := 13 * u * (2 * T)) (by linarith)
    (by linarith) (by linarith) (by linarith)
    (by
      have := av1.error (by push_cast; linarith) hu1
      refine this.trans (mul_le_mul_of_nonneg_right ?_ (by linarith))
      push_cast
      exact six_thirteen hu hk)
    (by
      have := av2.error (by push_cast; linarith) hu1
      refine this.trans (mul_le_mul_of_nonneg_right ?_ (by linarith))
      push_cast
      exact six_thirteen hu hk)
    (by
      have := av3.error (by push_cast; linarith) hu1
      refine this.trans (mul_le_mul_of_nonneg_right ?_ (by linarith))
      push_cast
      exact six_thirteen hu hk)
  have wY : w ≤ p.alpha * (1 - p.delta) * Real.exp (x1 - xm) + p.alpha * p.delta * Real.exp (x2 - xm) + (1 - p.alpha) * Real.exp (x3 - xm) ∧
      p.alpha * (1 - p.delta) * Real.exp (x1 - xm) + p.alpha * p.delta * Real.exp (x2 - xm) + (1 - p.alpha) * Real.exp (x3 - xm) ≤ 1 := by
    have q1 : 0 ≤ p.alpha * (1 - p.delta) := by linarith
    have q2 : 0 ≤ p.alpha * p.delta := by linarith
    have q3 : 0 ≤ 1 - p.alpha := by linarith
    have m1 := mul_nonneg q1 (Real.exp_pos (x1 - xm)).le
    have m2 := mul_nonneg q2 (Real.exp_pos (x2 - xm)).le
    have m3 := mul_nonneg q3 (Real.exp_pos (x3 - xm)).le
    have i1 := mul_le_mul_of_nonneg_left (Real.exp_le_one_iff.mpr (show x1 - xm ≤ 0 by linarith)) q1
    have i2 := mul_le_mul_of_nonneg_left (Real.exp_le_one_iff.mpr (show x2 - xm ≤ 0 by linarith)) q2
    have i3 := mul_le_mul_of_nonneg_left (Real.exp_le_one_iff.mpr (show x3 - xm ≤ 0 by linarith)) q3
    refine ⟨?_, by linarith only [i1, i2, i3]⟩
    rcases hcx with h | h | h
    · rw [show x1 - xm = 0 by linarith, Real.exp_zero]; linarith
    · rw [show x2 - xm = 0 by linarith, Real.exp_zero]; linarith
    · rw [show x3 - xm = 0 by linarith, Real.exp_zero]; linarith
  obtain ⟨wY, wY1⟩ := wY
  generalize p.alpha * (1 - p.delta) * Real.exp (x1 - xm) + p.alpha * p.delta * Real.exp (x2 - xm) + (1 - p.alpha) * Real.exp (x3 - xm) = Y at *
  generalize p.alpha * (1 - p.delta) * Real.exp v1 + p.alpha * p.delta * Real.exp v2 + (1 - p.alpha) * Real.exp v3 = Z at *
  have hlY : |Real.log Y| ≤ |Real.log w| := by
    have i1 := Real.log_le_log hw0 wY
    have i2 := Real.log_nonpos (by linarith) wY1
    rw [abs_of_nonpos i2, abs_of_nonpos (by linarith)]
    linarith
  have aLX : Apx u 13 (Real.log Y) (|Real.log w| + 2 * T + 1) (Real.log X) := by
    refine Apx.of_abs hu hu1 (e := 13 * u + 13 * u * (2 * T)) (by linarith) ?_ ?_
    · have := abs_add_le (Real.log X - Real.log Z) (Real.log Z - Real.log Y)
      rw [sub_add_sub_cancel] at this
      linarith
    · push_cast
      nlinarith [mul_nonneg hu g4]
  obtain ⟨c, ec, rc, dc⟩ := hlog X X1 (by linarith) X0 rX
  have ac := aLX.next hu hu1 dc (by linarith)
  -- the first part
  have nB : M.R.rd (-p.eB) = .fin (-p.eB) := by rw [M.R.neg, rB]; rfl
  have aB : Apx u 0 (-p.eB) p.eB (-p.eB) := by simpa [abs_of_pos hB] using (Apx.refl (u := u) (x := -p.eB))
  have aS : Apx u 0 p.eS p.eS p.eS := by simpa [abs_of_pos hS] using (Apx.refl (u := u) (x := p.eS))
  obtain ⟨f1, ef1, rf1, af1⟩ := A.round_sub hu1 (by push_cast; linarith) nB rS (aB.sub aS hu1) (by linarith)
  obtain ⟨q1, eq1, rq1, aq1⟩ := count_mul A hu1 (by push_cast; linarith) ht1 am1 (by have := abs_nonneg (Real.log (p.mu + p.eB)); linarith) b (by linarith)
  obtain ⟨q2, eq2, rq2, aq2⟩ := count_mul A hu1 (by push_cast; linarith) ht1 am2 (by have := abs_nonneg (Real.log (p.mu + p.eS)); linarith) s (by linarith)
  obtain ⟨f2, ef2, rf2, af2⟩ := A.round_add hu1 (by push_cast; linarith) rf1 rq1 ((af1.mono hu hu1 (l := 3) (by norm_num)).add aq1 hu1) (by linarith)
  obtain ⟨f3, ef3, rf3, af3⟩ := A.round_add hu1 (by push_cast; linarith) rf2 rq2 (af2.add (aq2.mono hu hu1 (l := 4) (by norm_num)) hu1) (by linarith)
  obtain ⟨f4, ef4, rf4, af4⟩ := A.round_add hu1 (by push_cast; linarith) rf3 rM (af3.add cm hu1) (by linarith)
  refine ⟨f4, c, ?_, rf4, by rw [EX]; exact ec, rc, _, _, _, _, ?_, ?_, af4, ac⟩
  · unfold Model.Rounded.lkDay1
    rw [EM]
    unfold ofEho
    rw [em1, em2, eq1, eq2]
    unfold Rounding.sub Rounding.add
    simp only [XR.fin_neg, XR.fin_sub, XR.fin_add, Rounding.round_fin, ef1, ef2, ef3, ef4]
  · rw [spl]
  · rw [hmag]; ring

end PinAcc

open PinAcc

/-- C210. Accuracy of Lin and Ke's likelihood in floating point: for any number of days and any admissible parameters given as
numbers of the format, with no weight of the mixture below `w > 0` and logarithms and exponentials of the machine correct to one
rounding error `u`, the computed objective of `n` days is finite and differs from minus the logarithm of the likelihood
(up to the constant `Σ log (B! S!)` of the model) by at most `n + 14` rounding errors relative to the magnitude of the terms. -/
theorem C210_accuracy (M : Machine) {u tiny huge : ℝ} (A : Accurate M.R u tiny huge) (hexp : PinAcc.ExpOk M u tiny)
    (hlog : PinAcc.LogOk M u tiny huge) (p : Eho) (h : p.Admissible)
    (rep : M.R.Rep (.fin p.alpha) ∧ M.R.Rep (.fin p.delta) ∧ M.R.Rep (.fin p.eB) ∧ M.R.Rep (.fin p.eS) ∧ M.R.Rep (.fin p.mu))
    (w : ℝ) (hw0 : 0 < w) (hw : 6 * tiny ≤ w) (hwts : w ≤ p.alpha * (1 - p.delta) ∧ w ≤ p.alpha * p.delta ∧ w ≤ 1 - p.alpha)
    (heB : 2 * tiny ≤ p.eB) (heS : 2 * tiny ≤ p.eS)
    (hrB : InRange tiny huge (p.mu / p.eB) ∧ 2 * (1 + p.mu / p.eB) ≤ huge)
    (hrS : InRange tiny huge (p.mu / p.eS) ∧ 2 * (1 + p.mu / p.eS) ≤ huge)
    (days : List (ℕ × ℕ)) (hne : days ≠ []) (hu : 300 * u ≤ 1) (hn : 2 * (((days.length : ℝ) + 14) * u) ≤ 1)
    (hmax : 4 * (days.map fun d => PinAcc.magnitude p w d.1 d.2).sum ≤ huge) :
    ∃ v : ℝ, Model.Rounded.lk2011 M (days.map fun d => .fin (d.1 : ℝ)) (days.map fun d => .fin (d.2 : ℝ)) (ofEho p) = .fin v ∧
      |v - -(Real.log (days.map fun d => p.dayProb d.1 d.2).prod
          + (days.map fun d => Real.log ((d.1.factorial : ℝ) * (d.2.factorial : ℝ))).sum)| ≤
        (days.length + 14) * u / (1 - (days.length + 14) * u) * (days.map fun d => PinAcc.magnitude p w d.1 d.2).sum := by
  have hu0 := A.u_nonneg
  have hu1 : u < 1 := by linarith
  have hn1 : 1 ≤ days.length := List.length_pos_iff.mpr hne
  have hpos : ∀ d : ℕ × ℕ, 0 ≤ magnitude p w d.1 d.2 := by
    intro d
    obtain ⟨_, _, _, _, hB, hS, hm⟩ := id h
    have h1 : 0 ≤ Real.log (1 + p.mu / p.eS) := Real.log_nonneg (by have : 0 ≤ p.mu / p.eS := by positivity
                                                                    linarith)
    have h2 : 0 ≤ Real.log (1 + p.mu / p.eB) := Real.log_nonneg (by have : 0 ≤ p.mu / p.eB := by positivity
                                                                    linarith)
    unfold magnitude
    positivity
  have hday : ∀ d ∈ days, ∃ a c : ℝ, Model.Rounded.lkDay1 M (ofEho p) (.fin d.1) (.fin d.2) = .fin a ∧ M.R.rd a = .fin a ∧
      M.log (Model.Rounded.lkMix M (ofEho p) (.fin d.1) (.fin d.2)) = .fin c ∧ M.R.rd c = .fin c ∧
      ∃ x1 x2 B1 B2 : ℝ, x1 + x2 = Real.log (mixture p d.1 d.2) ∧ B1 + B2 = magnitude p w d.1 d.2 ∧ Apx u 6 x1 B1 a ∧ Apx u 14 x2 B2 c := by
    intro d hd
    refine day A hu hexp hlog h rep hw0 hw hwts.1 hwts.2.1 hwts.2.2 heB heS hrB hrS d.1 d.2 (le_trans ?_ hmax)
    have : magnitude p w d.1 d.2 ≤ (days.map fun d => magnitude p w d.1 d.2).sum :=
      List.single_le_sum (by
        intro x hx
        obtain ⟨e, -, rfl⟩ := List.mem_map.mp hx
        exact hpos e) _ (List.mem_map.mpr ⟨d, hd, rfl⟩)
    linarith
  choose! a c h1 h2 h3 h4 x1 x2 B1 B2 h5 h6 h7 h8 using hday
  have z : ∀ f : XR → XR → XR, List.zipWith f (days.map fun d => .fin (d.1 : ℝ)) (days.map fun d => .fin (d.2 : ℝ)) =
      days.map fun d => f (.fin d.1) (.fin d.2) := by
    intro f
    rw [List.zipWith_map_left, List.zipWith_map_right, List.zipWith_self]
  have sB : (days.map B1).sum + (days.map B2).sum = (days.map fun d => magnitude p w d.1 d.2).sum := by
    rw [← List.sum_map_add]
    exact congrArg List.sum (List.map_congr_left fun d hd => h6 d hd)
  have sx : (days.map x1).sum + (days.map x2).sum = (days.map fun d => Real.log (mixture p d.1 d.2)).sum := by
    rw [← List.sum_map_add]
    exact congrArg List.sum (List.map_congr_left fun d hd => h5 d hd)
  have p1 : 0 ≤ (days.map B1).sum := List.sum_nonneg fun x hx => by
    obtain ⟨d, hd, rfl⟩ := List.mem_map.mp hx
    exact (h7 d hd).mag_nonneg
  have p2 : 0 ≤ (days.map B2).sum := List.sum_nonneg fun x hx => by
    obtain ⟨d, hd, rfl⟩ := List.mem_map.mp hx
    exact (h8 d hd).mag_nonneg
  have nn : (0 : ℝ) ≤ days.length * u := by positivity
  obtain ⟨s, es, rs, as⟩ := A.sum_apx hu1 (k := 6) (M.sum_ok 0 (days.map fun d => Model.Rounded.lkDay1 M (ofEho p) (.fin d.1) (.fin d.2)))
    (days.map fun d => (x1 d, B1 d)) (by
      rw [List.forall₂_map_left_iff, List.forall₂_map_right_iff, List.forall₂_same]
      exact fun d hd => ⟨a d, h1 d hd, h2 d hd, h7 d hd⟩) (by rw [List.length_map]; push_cast; linarith)
    (by rw [List.map_map]; show 4 * (days.map B1).sum ≤ huge; linarith)
  obtain ⟨t, et, rt, at'⟩ := A.sum_apx hu1 (k := 14) (M.sum_ok 1 (days.map fun d => M.log (Model.Rounded.lkMix M (ofEho p) (.fin d.1) (.fin d.2))))
    (days.map fun d => (x2 d, B2 d)) (by
      rw [List.forall₂_map_left_iff, List.forall₂_map_right_iff, List.forall₂_same]
      exact fun d hd => ⟨c d, h3 d hd, h4 d hd, h8 d hd⟩) (by rw [List.length_map]; push_cast; linarith)
    (by rw [List.map_map]; show 4 * (days.map B2).sum ≤ huge; linarith)
  rw [List.map_map, List.map_map, List.length_map] at as at'
  have as' : Apx u (days.length + 13) (days.map x1).sum (days.map B1).sum s := as.mono hu0 hu1 (by omega)
  have at'' : Apx u (days.length + 13) (days.map x2).sum (days.map B2).sum t := at'.mono hu0 hu1 (by omega)
  obtain ⟨v, ev, rv, av⟩ := A.round_add hu1 (by push_cast; linarith) rs rt (as'.add at'' hu1) (by linarith)
  rw [sB, sx] at av
  refine ⟨-v, ?_, ?_⟩
  · unfold Model.Rounded.lk2011
    rw [z, z, es, et]
    unfold Rounding.add
    rw [XR.fin_add, Rounding.round_fin, ev, XR.fin_neg]
  · have hex : (days.map fun d => Real.log (mixture p d.1 d.2)).sum = Real.log (days.map fun d => p.dayProb d.1 d.2).prod
          + (days.map fun d => Real.log ((d.1.factorial : ℝ) * (d.2.factorial : ℝ))).sum := by
      have e1 := (C45_likelihood h days).2.2
      have e2 := lk2011_eq h (days.map fun d => ((d.1 : ℝ), (d.2 : ℝ)))
      have f1 : col (days.map fun d => ((d.1 : ℝ), (d.2 : ℝ))) Prod.fst = days.map fun d => XR.fin (d.1 : ℝ) := by
        simp [col, List.map_map, Function.comp_def]
      have f2 : col (days.map fun d => ((d.1 : ℝ), (d.2 : ℝ))) Prod.snd = days.map fun d => XR.fin (d.2 : ℝ) := by
        simp [col, List.map_map, Function.comp_def]
      rw [f1, f2, e1, XR.fin_inj, neg_inj, List.map_map] at e2
      exact e2.symm
    rw [← hex]
    have := av.error (by push_cast; linarith) hu1
    rw [show -v - -(days.map fun d => Real.log (mixture p d.1 d.2)).sum = -(v - (days.map fun d => Real.log (mixture p d.1 d.2)).sum) by ring,
      abs_neg]
    have e : ((days.length + 13 + 1 : ℕ) : ℝ) = days.length + 14 := by push_cast; ring
    rw [e] at this
    exact this

/-- C210 in binary64: at most 2^20 days, rates between 2^-400 and 2^400 (no informed traders at all is allowed), weights of the
mixture at least 2^-1000. The error is at most `n + 15` units in the last place (2^-53) of the magnitude of the terms. -/
theorem C210_binary64 (M : Machine) (hM : M.R = binary64.rounding) (hexp : PinAcc.ExpOk M (2 ^ (-53 : ℤ)) (2 ^ (-1022 : ℤ)))
    (hlog : PinAcc.LogOk M (2 ^ (-53 : ℤ)) (2 ^ (-1022 : ℤ)) (2 ^ (1023 : ℤ))) (p : Eho) (h : p.Admissible)
    (rep : M.R.Rep (.fin p.alpha) ∧ M.R.Rep (.fin p.delta) ∧ M.R.Rep (.fin p.eB) ∧ M.R.Rep (.fin p.eS) ∧ M.R.Rep (.fin p.mu))
    (w : ℝ) (hw : 2 ^ (-1000 : ℤ) ≤ w) (hwts : w ≤ p.alpha * (1 - p.delta) ∧ w ≤ p.alpha * p.delta ∧ w ≤ 1 - p.alpha)
    (heB : 2 ^ (-400 : ℤ) ≤ p.eB ∧ p.eB ≤ 2 ^ (400 : ℤ)) (heS : 2 ^ (-400 : ℤ) ≤ p.eS ∧ p.eS ≤ 2 ^ (400 : ℤ))
    (hmu : p.mu = 0 ∨ (2 ^ (-400 : ℤ) ≤ p.mu ∧ p.mu ≤ 2 ^ (400 : ℤ)))
    (days : List (ℕ × ℕ)) (hne : days ≠ []) (hn : days.length ≤ 2 ^ 20)
    (hmax : (days.map fun d => PinAcc.magnitude p w d.1 d.2).sum ≤ 2 ^ (1000 : ℤ)) :
    ∃ v : ℝ, Model.Rounded.lk2011 M (days.map fun d => .fin (d.1 : ℝ)) (days.map fun d => .fin (d.2 : ℝ)) (ofEho p) = .fin v ∧
      |v - -(Real.log (days.map fun d => p.dayProb d.1 d.2).prod
          + (days.map fun d => Real.log ((d.1.factorial : ℝ) * (d.2.factorial : ℝ))).sum)| ≤
        (days.length + 15) * 2 ^ (-53 : ℤ) * (days.map fun d => PinAcc.magnitude p w d.1 d.2).sum := by
  have A := Format.accurate binary64
  rw [← hM] at A
  have A' : Accurate M.R (2 ^ (-53 : ℤ)) (2 ^ (-1022 : ℤ)) (2 ^ (1023 : ℤ)) := A
  clear A
  have z : ∀ a b : ℤ, (2 : ℝ) ^ a * 2 ^ b = 2 ^ (a + b) := fun a b => (zpow_add₀ (by norm_num) a b).symm
  have le : ∀ {a b : ℤ}, a ≤ b → (2 : ℝ) ^ a ≤ 2 ^ b := fun hab => zpow_le_zpow_right₀ (by norm_num) hab
  have e2 : (2 : ℝ) = 2 ^ (1 : ℤ) := by norm_num
  have e4 : (4 : ℝ) = 2 ^ (2 : ℤ) := by norm_num
  have e8 : (8 : ℝ) = 2 ^ (3 : ℤ) := by norm_num
  have p0 : ∀ a : ℤ, (0 : ℝ) < 2 ^ a := fun a => by positivity
  have k1 : 2 * (2 : ℝ) ^ (-1022 : ℤ) ≤ 2 ^ (-800 : ℤ) := by
    nth_rw 1 [e2]; rw [z]; exact le (by norm_num)
  have k2 : 8 * (2 : ℝ) ^ (-1022 : ℤ) ≤ 2 ^ (-1000 : ℤ) := by
    nth_rw 1 [e8]; rw [z]; exact le (by norm_num)
  have k3 : (4 : ℝ) * 2 ^ (1000 : ℤ) ≤ 2 ^ (1023 : ℤ) := by
    nth_rw 1 [e4]; rw [z]; exact le (by norm_num)
  have k4 : (4 : ℝ) * 2 ^ (800 : ℤ) ≤ 2 ^ (1023 : ℤ) := by
    nth_rw 1 [e4]; rw [z]; exact le (by norm_num)
  have k5 : (2 : ℝ) ^ (-800 : ℤ) ≤ 2 ^ (-400 : ℤ) := le (by norm_num)
  have k6 : (1 : ℝ) ≤ 2 ^ (800 : ℤ) := one_le_zpow₀ (by norm_num) (by norm_num)
  have k7 : (2 : ℝ) ^ (-400 : ℤ) * 2 ^ (-400 : ℤ) = 2 ^ (-800 : ℤ) := by rw [z]; norm_num
  have k8 : (2 : ℝ) ^ (400 : ℤ) * 2 ^ (400 : ℤ) = 2 ^ (800 : ℤ) := by rw [z]; norm_num
  have k9 : (2 : ℝ) ^ (-400 : ℤ) * 2 ^ (400 : ℤ) = 1 := by rw [z]; norm_num
  have q1 := p0 (-1022)
  have q2 := p0 (-1000)
  have q3 := p0 (-400)
  have q4 := p0 400
  have q5 := p0 (-800)
  have hm0 := h.2.2.2.2.2.2
  generalize (2 : ℝ) ^ (-1022 : ℤ) = tiny at *
  generalize (2 : ℝ) ^ (1023 : ℤ) = huge at *
  generalize (2 : ℝ) ^ (-1000 : ℤ) = wmin at *
  generalize (2 : ℝ) ^ (1000 : ℤ) = mmax at *
  generalize (2 : ℝ) ^ (-400 : ℤ) = lo at *
  generalize (2 : ℝ) ^ (400 : ℤ) = hi at *
  generalize (2 : ℝ) ^ (800 : ℤ) = hi2 at *
  generalize (2 : ℝ) ^ (-800 : ℤ) = lo2 at *
  have rat : ∀ e : ℝ, lo ≤ e ∧ e ≤ hi → InRange tiny huge (p.mu / e) ∧ 2 * (1 + p.mu / e) ≤ huge := by
    intro e ⟨h1, h2⟩
    have e0 : 0 < e := lt_of_lt_of_le q3 h1
    have up : p.mu / e ≤ hi2 := by
      rw [div_le_iff₀ e0]
      have hm : p.mu ≤ hi := by rcases hmu with h | h <;> linarith
      calc p.mu ≤ hi := hm
        _ = hi2 * lo := by rw [← k8, mul_assoc, mul_comm hi lo, k9, mul_one]
        _ ≤ hi2 * e := mul_le_mul_of_nonneg_left h1 (by linarith)
    refine ⟨?_, by linarith⟩
    rcases hmu with hm | hm
    · left; rw [hm, zero_div]
    · right
      refine ⟨k1.trans ?_, by linarith⟩
      rw [le_div_iff₀ e0]
      calc lo2 * e ≤ lo2 * hi := mul_le_mul_of_nonneg_left h2 q5.le
        _ = lo := by rw [← k7, mul_assoc, k9, mul_one]
        _ ≤ p.mu := hm.1
  have hnr : (days.length : ℝ) ≤ 2 ^ 20 := by exact_mod_cast hn
  obtain ⟨v, ev, hv⟩ := C210_accuracy M A' hexp hlog p h rep w (lt_of_lt_of_le q2 hw) (by linarith only [k2, hw, q1]) hwts
    (by linarith only [k1, k5, heB.1]) (by linarith only [k1, k5, heS.1]) (rat _ heB) (rat _ heS) days hne
    (by norm_num) (by
      refine (mul_le_mul_of_nonneg_left (mul_le_mul_of_nonneg_right (add_le_add_left hnr 14) (by positivity)) (by norm_num)).trans ?_
      norm_num) (by linarith only [k3, hmax])
  refine ⟨v, ev, hv.trans ?_⟩
  have hS : 0 ≤ (days.map fun d => PinAcc.magnitude p w d.1 d.2).sum := by
    by_contra hneg
    have h0 := (abs_nonneg _).trans hv
    have hfac : 0 < ((days.length : ℝ) + 14) * 2 ^ (-53 : ℤ) / (1 - ((days.length : ℝ) + 14) * 2 ^ (-53 : ℤ)) := by
      apply div_pos (by positivity)
      have := mul_le_mul_of_nonneg_right (add_le_add_left hnr 14) (show (0 : ℝ) ≤ 2 ^ (-53 : ℤ) by positivity)
      have : (((2 : ℝ) ^ 20 + 14) * 2 ^ (-53 : ℤ)) < 1 := by norm_num
      linarith
    have := mul_neg_of_pos_of_neg hfac (not_le.mp hneg)
    linarith
  refine mul_le_mul_of_nonneg_right ?_ hS
  have n0 : (0 : ℝ) ≤ days.length := Nat.cast_nonneg _
  generalize (days.length : ℝ) = n at *
  have hu : (2 : ℝ) ^ (-53 : ℤ) = 1 / 9007199254740992 := by norm_num
  rw [hu]
  norm_num at hnr
  rw [div_le_iff₀ (by linarith)]
  nlinarith

namespace PinAcc

theorem ieee_expOk : ExpOk Machine.ieee (2 ^ (-53 : ℤ)) (2 ^ (-1022 : ℤ)) := by
  intro x hx
  have A : Accurate binary64.rounding (2 ^ (-53 : ℤ)) (2 ^ (-1022 : ℤ)) (2 ^ (1023 : ℤ)) := Format.accurate binary64
  have h0 := Real.exp_pos x
  obtain ⟨z, hz⟩ := A.fin (Real.exp x) (by
    rw [abs_of_pos h0]
    exact (Real.exp_le_one_iff.mpr hx).trans (one_le_zpow₀ (by norm_num) (by norm_num)))
  have hd := A.err _ _ hz
  rw [abs_of_pos h0] at hd
  refine ⟨z, ?_, binary64.rounding.idem _ _ hz, ?_, hd⟩
  · show binary64.rounding.round (XR.exp (.fin x)) = _
    rw [XR.fin_exp, Rounding.round_fin]
    exact hz
  · have := Rounding.rd_nonneg (R := binary64.rounding) h0.le
    rw [hz] at this
    exact XR.nonneg_fin.mp this

theorem ieee_logOk : LogOk Machine.ieee (2 ^ (-53 : ℤ)) (2 ^ (-1022 : ℤ)) (2 ^ (1023 : ℤ)) := by
  intro x h1 h2 h0 _
  have A : Accurate binary64.rounding (2 ^ (-53 : ℤ)) (2 ^ (-1022 : ℤ)) (2 ^ (1023 : ℤ)) := Format.accurate binary64
  have l1 := Real.log_le_log (by positivity) h1
  have l2 := Real.log_le_log h0 h2
  rw [Real.log_zpow] at l1 l2
  have hl2 : Real.log 2 ≤ 1 := by have := Real.log_two_lt_d9; linarith
  have hl0 : 0 ≤ Real.log 2 := Real.log_nonneg (by norm_num)
  push_cast at l1 l2
  have big : (1023 : ℝ) ≤ 2 ^ (1023 : ℤ) := by
    have : (2 : ℝ) ^ (10 : ℤ) ≤ 2 ^ (1023 : ℤ) := zpow_le_zpow_right₀ (by norm_num) (by norm_num)
    refine le_trans ?_ this
    norm_num
  obtain ⟨z, hz⟩ := A.fin (Real.log x) ((abs_le.mpr ⟨by linarith only [l1, hl2, hl0], by linarith only [l2, hl2, hl0]⟩ : |Real.log x| ≤ 1023).trans big)
  refine ⟨z, ?_, binary64.rounding.idem _ _ hz, A.err _ _ hz⟩
  show binary64.rounding.round (XR.log (.fin x)) = _
  rw [XR.fin_log h0, Rounding.round_fin]
  exact hz

end PinAcc

/-- the hypotheses are met by the machine with correctly rounded logarithm and exponential -/
example : ∃ v : ℝ, Model.Rounded.lk2011 Machine.ieee ([(3, 4), (7, 0)].map fun d : ℕ × ℕ => .fin (d.1 : ℝ))
      ([(3, 4), (7, 0)].map fun d : ℕ × ℕ => .fin (d.2 : ℝ)) (ofEho ⟨1 / 2, 1 / 2, 10, 10, 20⟩) = .fin v := by
  have n1 := PinFloat.ieee_nat 10 (by norm_num)
  have n2 := PinFloat.ieee_nat 20 (by norm_num)
  push_cast at n1 n2
  have l30 : |Real.log (20 + 10)| ≤ 30 := by
    have h1 : 0 ≤ Real.log (20 + 10) := Real.log_nonneg (by norm_num)
    have h2 := Real.log_le_sub_one_of_pos (show (0 : ℝ) < 20 + 10 by norm_num)
    rw [abs_of_nonneg h1]
    linarith
  have l3 : Real.log (1 + 20 / 10) ≤ 2 := by
    have h2 := Real.log_le_sub_one_of_pos (show (0 : ℝ) < 1 + 20 / 10 by norm_num)
    linarith
  have l4 : |Real.log (1 / 4)| ≤ 4 := by
    have h1 := Real.log_nonpos (show (0 : ℝ) ≤ 1 / 4 by norm_num) (by norm_num)
    have h2 := Real.one_sub_inv_le_log_of_pos (show (0 : ℝ) < 1 / 4 by norm_num)
    rw [abs_of_nonpos h1]
    norm_num at h2 ⊢
    linarith
  have lo : (2 : ℝ) ^ (-400 : ℤ) ≤ 1 := zpow_le_one_of_nonpos₀ (by norm_num) (by norm_num)
  have lo' : (2 : ℝ) ^ (-1000 : ℤ) ≤ 2 ^ (-2 : ℤ) := zpow_le_zpow_right₀ (by norm_num) (by norm_num)
  have hi : (2 : ℝ) ^ (10 : ℤ) ≤ 2 ^ (400 : ℤ) := zpow_le_zpow_right₀ (by norm_num) (by norm_num)
  have hi' : (2 : ℝ) ^ (20 : ℤ) ≤ 2 ^ (1000 : ℤ) := zpow_le_zpow_right₀ (by norm_num) (by norm_num)
  rw [show (2 : ℝ) ^ (-2 : ℤ) = 1 / 4 by norm_num] at lo'
  rw [show (2 : ℝ) ^ (10 : ℤ) = 1024 by norm_num] at hi
  rw [show (2 : ℝ) ^ (20 : ℤ) = 1048576 by norm_num] at hi'
  obtain ⟨v, hv, -⟩ := C210_binary64 Machine.ieee rfl PinAcc.ieee_expOk PinAcc.ieee_logOk ⟨1 / 2, 1 / 2, 10, 10, 20⟩
    (by norm_num [Eho.Admissible]) ⟨Rounded.ieee_half, Rounded.ieee_half, n1, n1, n2⟩ (1 / 4) lo' (by norm_num)
    ⟨lo.trans (by norm_num), le_trans (by norm_num) hi⟩ ⟨lo.trans (by norm_num), le_trans (by norm_num) hi⟩
    (Or.inr ⟨lo.trans (by norm_num), le_trans (by norm_num) hi⟩) [(3, 4), (7, 0)] (by simp) (by norm_num)
    (by
      refine le_trans ?_ hi'
      generalize (2 : ℝ) ^ (-400 : ℤ) = x1 at *
      generalize (2 : ℝ) ^ (-1000 : ℤ) = x2 at *
      generalize (2 : ℝ) ^ (400 : ℤ) = x3 at *
      generalize (2 : ℝ) ^ (1000 : ℤ) = x4 at *
      simp only [List.map_cons, List.map_nil, List.sum_cons, List.sum_nil, PinAcc.magnitude]
      generalize |Real.log ((20 : ℝ) + 10)| = y1 at *
      generalize Real.log ((1 : ℝ) + 20 / 10) = y2 at *
      generalize |Real.log ((1 : ℝ) / 4)| = y3 at *
      push_cast
      linarith only [l30, l3, l4])
  exact ⟨v, hv⟩

end
end Frds.Props

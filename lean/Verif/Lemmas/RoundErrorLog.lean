import Verif.Lemmas.RoundError
import Mathlib.Analysis.SpecialFunctions.Log.Basic

/-! Errors of logarithms, exponentials and maxima of rounded values. -/
namespace Frds
noncomputable section
open Classical

namespace Apx
variable {u tiny : ℝ} {k l : ℕ} {x y z x' y' B B' : ℝ}

/-- one more rounding error, with underflow covered by the magnitude -/
theorem next (hu : 0 ≤ u) (hu1 : u < 1) (h : Apx u k x B y) (he : |z - y| ≤ u * max |y| tiny) (ht : tiny ≤ B) :
    Apx u (k + 1) x B z := by
  have hP := Apx.pow_pos (u := u) (k := k) hu1
  have hP1 := Apx.pow_le (k := k) hu hu1
  have hb := h.bound hu1
  have hB0 := h.mag_nonneg
  refine ⟨h.1, ?_⟩
  have h2 := h.2
  rw [pow_succ]
  generalize (1 - u) ^ k = P at *
  have hm : max |y| tiny * P ≤ B := by
    rcases max_cases |y| tiny with ⟨e, _⟩ | ⟨e, _⟩
    · rw [e]; exact hb
    · rw [e]
      rcases le_total 0 tiny with h0 | h0
      · nlinarith
      · nlinarith
  have h1 : |z - x| ≤ |z - y| + |y - x| := by
    have := abs_add_le (z - y) (y - x)
    simpa using this
  have m1 := mul_le_mul_of_nonneg_right he hP.le
  have m2 := mul_le_mul_of_nonneg_right h1 hP.le
  have m4 : u * max |y| tiny * P ≤ u * B := by
    rw [mul_assoc]; exact mul_le_mul_of_nonneg_left hm hu
  have m3 : |z - x| * P ≤ u * B + (1 - P) * B := by linarith
  have m5 := mul_le_mul_of_nonneg_right m3 (show 0 ≤ 1 - u by linarith)
  nlinarith [mul_nonneg (mul_nonneg hu hu) hB0, mul_nonneg hu hB0]

/-- the logarithm of a number close to another -/
theorem log_close (hu1 : u < 1) (hu : 0 ≤ u) (h : Close u k x y) (hx : 0 < x) :
    Apx u k (Real.log x) (|Real.log x| + 1) (Real.log y) := by
  have hP := Apx.pow_pos (u := u) (k := k) hu1
  have hP1 := Apx.pow_le (k := k) hu hu1
  obtain ⟨-, h1, h2⟩ := h
  refine ⟨by linarith, ?_⟩
  generalize (1 - u) ^ k = P at *
  have hy : 0 < y := lt_of_lt_of_le (mul_pos hx hP) h1
  have l1 : Real.log x + Real.log P ≤ Real.log y := by
    rw [← Real.log_mul hx.ne' hP.ne']
    exact Real.log_le_log (mul_pos hx hP) h1
  have l2 : Real.log y + Real.log P ≤ Real.log x := by
    rw [← Real.log_mul hy.ne' hP.ne']
    exact Real.log_le_log (mul_pos hy hP) h2
  have l3 : (1 - 1 / P) ≤ Real.log P := by
    have := Real.one_sub_inv_le_log_of_pos hP
    rwa [← one_div] at this
  have l4 : |Real.log y - Real.log x| ≤ 1 / P - 1 := abs_le.mpr ⟨by linarith, by linarith⟩
  have l5 := mul_le_mul_of_nonneg_right l4 hP.le
  rw [sub_mul, one_div_mul_cancel hP.ne', one_mul] at l5
  have := abs_nonneg (Real.log x)
  nlinarith

theorem max (hu1 : u < 1) (h : Apx u k x B y) (h' : Apx u k x' B y') : Apx u k (max x x') B (max y y') := by
  have hP := Apx.pow_pos (u := u) (k := k) hu1
  refine ⟨?_, ?_⟩
  · rcases max_choice x x' with e | e <;> rw [e]
    · exact h.1
    · exact h'.1
  · have := abs_max_sub_max_le_max y y' x x'
    refine (mul_le_mul_of_nonneg_right this hP.le).trans ?_
    rcases max_choice |y - x| |y' - x'| with e | e <;> rw [e]
    · exact h.2
    · exact h'.2

/-- an absolute error -/
theorem of_abs (hu : 0 ≤ u) (hu1 : u < 1) {e : ℝ} (hx : |x| ≤ B) (h : |y - x| ≤ e) (he : e ≤ k * u * B) : Apx u k x B y := by
  have hP := Apx.pow_pos (u := u) (k := k) hu1
  have hP1 := Apx.pow_le (k := k) hu hu1
  refine ⟨hx, ?_⟩
  -- `k u (1-u)^k ≤ 1 - (1-u)^k`
  have key : (k : ℝ) * u * (1 - u) ^ k ≤ 1 - (1 - u) ^ k := by
    clear h he hx hP hP1
    induction k with
    | zero => simp
    | succ n ih =>
      have hP := Apx.pow_pos (u := u) (k := n) hu1
      have hP1 := Apx.pow_le (k := n) hu hu1
      rw [pow_succ]
      push_cast
      generalize (1 - u) ^ n = P at *
      have a : (n : ℝ) * u * P * (1 - u) ≤ (1 - P) * (1 - u) := mul_le_mul_of_nonneg_right ih (by linarith)
      have b : u * P * (1 - u) ≤ u := by
        have : P * (1 - u) ≤ 1 := by nlinarith
        nlinarith
      nlinarith
  have hB : 0 ≤ B := (abs_nonneg x).trans hx
  have h1 := mul_le_mul_of_nonneg_right (h.trans he) hP.le
  have h2 := mul_le_mul_of_nonneg_right key hB
  linarith

end Apx

namespace Accurate
variable {R : Rounding} {u tiny huge : ℝ} {k l : ℕ} {x y x' y' z B B' : ℝ}

/-- rounding a result whose magnitude is zero or at least `tiny` -/
theorem round0 (A : Accurate R u tiny huge) (hu1 : u < 1) (hk : 2 * ((k : ℝ) * u) ≤ 1) (h : Apx u k x B z)
    (ht : B = 0 ∨ tiny ≤ B) (hB : 2 * B ≤ huge) : ∃ s, R.rd z = .fin s ∧ R.rd s = .fin s ∧ Apx u (k + 1) x B s := by
  rcases ht with h0 | ht
  · have hP := Apx.pow_pos (u := u) (k := k) hu1
    subst h0
    have hx : x = 0 := abs_nonpos_iff.mp h.1
    have hz : z = 0 := by
      have := h.2
      rw [mul_zero, hx, sub_zero] at this
      have := abs_nonneg z
      have : |z| = 0 := by nlinarith
      exact abs_eq_zero.mp this
    subst hx hz
    exact ⟨0, Rounding.rd_zero, Rounding.rd_zero, by simp, by simp⟩
  · exact A.round hu1 hk h ht hB

end Accurate

/-- shifting the exponents of a mixture -/
theorem log_mix_shift {w1 w2 w3 x1 x2 x3 y1 y2 y3 E : ℝ} (h1 : 0 ≤ w1) (h2 : 0 ≤ w2) (h3 : 0 ≤ w3) (hw : 0 < w1 + w2 + w3)
    (d1 : |y1 - x1| ≤ E) (d2 : |y2 - x2| ≤ E) (d3 : |y3 - x3| ≤ E) :
    |Real.log (w1 * Real.exp y1 + w2 * Real.exp y2 + w3 * Real.exp y3)
      - Real.log (w1 * Real.exp x1 + w2 * Real.exp x2 + w3 * Real.exp x3)| ≤ E := by
  have pos : ∀ a b c : ℝ, 0 < w1 * Real.exp a + w2 * Real.exp b + w3 * Real.exp c := by
    intro a b c
    have ha := Real.exp_pos a
    have hb := Real.exp_pos b
    have hc := Real.exp_pos c
    have i1 := mul_nonneg h1 ha.le
    have i2 := mul_nonneg h2 hb.le
    have i3 := mul_nonneg h3 hc.le
    rcases h1.lt_or_eq with g | g
    · have := mul_pos g ha; linarith
    rcases h2.lt_or_eq with g' | g'
    · have := mul_pos g' hb; linarith
    have : 0 < w3 := by linarith
    have := mul_pos this hc
    linarith
  have half : ∀ {a1 a2 a3 b1 b2 b3 : ℝ}, a1 ≤ b1 + E → a2 ≤ b2 + E → a3 ≤ b3 + E →
      Real.log (w1 * Real.exp a1 + w2 * Real.exp a2 + w3 * Real.exp a3)
        ≤ E + Real.log (w1 * Real.exp b1 + w2 * Real.exp b2 + w3 * Real.exp b3) := by
    intro a1 a2 a3 b1 b2 b3 k1 k2 k3
    have e : E + Real.log (w1 * Real.exp b1 + w2 * Real.exp b2 + w3 * Real.exp b3)
        = Real.log (Real.exp E * (w1 * Real.exp b1 + w2 * Real.exp b2 + w3 * Real.exp b3)) := by
      rw [Real.log_mul (Real.exp_pos E).ne' (pos _ _ _).ne', Real.log_exp]
    rw [e]
    apply Real.log_le_log (pos _ _ _)
    have g : ∀ {a b : ℝ}, a ≤ b + E → Real.exp a ≤ Real.exp E * Real.exp b := by
      intro a b h
      rw [← Real.exp_add]
      exact Real.exp_le_exp.mpr (by linarith)
    have m1 := mul_le_mul_of_nonneg_left (g k1) h1
    have m2 := mul_le_mul_of_nonneg_left (g k2) h2
    have m3 := mul_le_mul_of_nonneg_left (g k3) h3
    linarith
  rw [abs_le] at d1 d2 d3 ⊢
  have a := half (a1 := y1) (a2 := y2) (a3 := y3) (b1 := x1) (b2 := x2) (b3 := x3) (by linarith) (by linarith) (by linarith)
  have b := half (a1 := x1) (a2 := x2) (a3 := x3) (b1 := y1) (b2 := y2) (b3 := y3) (by linarith) (by linarith) (by linarith)
  exact ⟨by linarith, by linarith⟩

end
end Frds

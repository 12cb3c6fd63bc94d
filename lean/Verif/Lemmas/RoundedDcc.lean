import Verif.Model.RoundedDcc
import Verif.Lemmas.RoundError
import Mathlib.Tactic.Positivity
import Mathlib.Tactic.Linarith
import Mathlib.Tactic.NormNum

/-! Error analysis of one step of the DCC recursion. -/
namespace Frds
noncomputable section
open Classical
namespace DccStep

variable {R : Rounding} {u tiny huge : ℝ}

theorem up (A : Accurate R u tiny huge) {x s : ℝ} (h : R.rd x = .fin s) : |s| ≤ (1 + u) * |x| + u * tiny := by
  have h1 := A.err _ _ h
  have h2 : max |x| tiny ≤ |x| + tiny := max_le (by linarith [A.tiny_nonneg]) (by linarith [abs_nonneg x])
  have h3 := mul_le_mul_of_nonneg_left h2 A.u_nonneg
  have h4 : |s| ≤ |s - x| + |x| := by
    have := abs_add_le (s - x) x
    simpa using this
  nlinarith

theorem near (A : Accurate R u tiny huge) {x s : ℝ} (h : R.rd x = .fin s) (hx : 0 ≤ x) :
    0 ≤ s ∧ (1 - u) * x - u * tiny ≤ s ∧ s ≤ (1 + u) * x + u * tiny := by
  have h1 := A.err _ _ h
  rw [abs_of_nonneg hx] at h1
  have h2 : max x tiny ≤ x + tiny := max_le (by linarith [A.tiny_nonneg]) (by linarith)
  have h3 := mul_le_mul_of_nonneg_left h2 A.u_nonneg
  obtain ⟨h4, h5⟩ := abs_le.mp h1
  have h6 : (.fin 0 : XR) ≤ R.rd x := Rounding.rd_nonneg hx
  rw [h] at h6
  exact ⟨XR.fin_le.mp h6, by nlinarith, by nlinarith⟩

theorem nearAdd (A : Accurate R u tiny huge) {x y s : ℝ} (rx : R.rd x = .fin x) (ry : R.rd y = .fin y)
    (h : R.rd (x + y) = .fin s) (hxy : 0 ≤ x + y) : (1 - u) * (x + y) ≤ s ∧ s ≤ (1 + u) * (x + y) := by
  have h1 := A.err_add _ _ _ rx ry h
  rw [abs_of_nonneg hxy] at h1
  obtain ⟨h4, h5⟩ := abs_le.mp h1
  exact ⟨by nlinarith, by nlinarith⟩

theorem upAdd (A : Accurate R u tiny huge) {x y s : ℝ} (rx : R.rd x = .fin x) (ry : R.rd y = .fin y)
    (h : R.rd (x + y) = .fin s) : |s| ≤ (1 + u) * (|x| + |y|) := by
  have h1 := A.err_add _ _ _ rx ry h
  have h2 := abs_add_le x y
  have h4 : |s| ≤ |s - (x + y)| + |x + y| := by
    have := abs_add_le (s - (x + y)) (x + y)
    simpa using this
  have := mul_le_mul_of_nonneg_left h2 A.u_nonneg
  nlinarith

set_option maxHeartbeats 1000000 in
/-- a diagonal entry: five rounding errors -/
theorem diag (A : Accurate R u tiny huge) (hu : 16 * u ≤ 1) {a b c qb q z : ℝ} (ha : 0 ≤ a) (ha1 : a ≤ 1) (hb : 0 ≤ b)
    (hc : 0 ≤ c) (hqb : 0 ≤ qb) (hq : 0 ≤ q) (hS : 8 * tiny ≤ c * qb) (hz : z ^ 2 ≤ huge)
    (hmax : 2 * (c * qb + a * z ^ 2 + b * q) + 8 * tiny ≤ huge) :
    ∃ s, R.add (R.add (R.mul (.fin c) (.fin qb)) (R.mul (.fin a) (R.mul (.fin z) (.fin z)))) (R.mul (.fin b) (.fin q)) = .fin s ∧
      R.rd s = .fin s ∧ Close u 5 (c * qb + a * z ^ 2 + b * q) s := by
  have hu0 := A.u_nonneg
  have ht0 := A.tiny_nonneg
  have hut : u * tiny ≤ tiny / 16 := by nlinarith
  have hut0 : 0 ≤ u * tiny := by positivity
  have x1 : 0 ≤ c * qb := by positivity
  have x2 : 0 ≤ a * z ^ 2 := by positivity
  have x3 : 0 ≤ b * q := by positivity
  obtain ⟨p1, h1⟩ := A.fin (c * qb) (by rw [abs_of_nonneg x1]; linarith)
  obtain ⟨p2, h2⟩ := A.fin (z * z) (by rw [abs_of_nonneg (mul_self_nonneg z)]; nlinarith)
  obtain ⟨p4, h4⟩ := A.fin (b * q) (by rw [abs_of_nonneg x3]; linarith)
  obtain ⟨n10, n11, n12⟩ := near A h1 x1
  obtain ⟨n20, n21, n22⟩ := near A h2 (mul_self_nonneg z)
  obtain ⟨n40, n41, n42⟩ := near A h4 x3
  have y1 : (1 - u) * (a * z ^ 2) - u * tiny ≤ a * p2 := by
    have := mul_le_mul_of_nonneg_left n21 ha
    nlinarith
  have y2 : a * p2 ≤ (1 + u) * (a * z ^ 2) + u * tiny := by
    have := mul_le_mul_of_nonneg_left n22 ha
    nlinarith
  have x4 : 0 ≤ a * p2 := by positivity
  have hua : u * (a * z ^ 2) ≤ a * z ^ 2 / 16 := by nlinarith
  obtain ⟨p3, h3⟩ := A.fin (a * p2) (by rw [abs_of_nonneg x4]; nlinarith)
  obtain ⟨n30, n31, n32⟩ := near A h3 x4
  have w1 : (1 - u) ^ 2 * (a * z ^ 2) - 2 * (u * tiny) ≤ p3 := by
    have := mul_le_mul_of_nonneg_left y1 (show 0 ≤ 1 - u by linarith)
    nlinarith
  have w2 : p3 ≤ (1 + u) ^ 2 * (a * z ^ 2) + 3 * (u * tiny) := by
    have := mul_le_mul_of_nonneg_left y2 (show 0 ≤ 1 + u by linarith)
    nlinarith
  have r1 := R.idem _ _ h1
  have r3 := R.idem _ _ h3
  have r4 := R.idem _ _ h4
  have bu2 : (1 + u) ^ 2 ≤ 9 / 8 + 1 / 100 := by nlinarith
  have w2' : p3 ≤ (9 / 8 + 1 / 100) * (a * z ^ 2) + 3 * (u * tiny) := by
    have := mul_le_mul_of_nonneg_right bu2 x2
    linarith
  have u17 : 1 + u ≤ 17 / 16 := by linarith
  have n12' : p1 ≤ 17 / 16 * (c * qb) + u * tiny := n12.trans (by have := mul_le_mul_of_nonneg_right u17 x1; linarith)
  have n42' : p4 ≤ 17 / 16 * (b * q) + u * tiny := n42.trans (by have := mul_le_mul_of_nonneg_right u17 x3; linarith)
  obtain ⟨s1, g1⟩ := A.fin (p1 + p3) (by rw [abs_of_nonneg (by linarith)]; linarith)
  obtain ⟨m11, m12⟩ := nearAdd A r1 r3 g1 (by linarith)
  have s10 : 0 ≤ s1 := le_trans (mul_nonneg (by linarith) (by linarith)) m11
  have m12' : s1 ≤ 17 / 16 * (p1 + p3) := m12.trans (mul_le_mul_of_nonneg_right u17 (by linarith))
  have rs1 := R.idem _ _ g1
  obtain ⟨s2, g2⟩ := A.fin (s1 + p4) (by rw [abs_of_nonneg (by linarith)]; linarith)
  obtain ⟨m21, m22⟩ := nearAdd A rs1 r4 g2 (by linarith)
  refine ⟨s2, ?_, R.idem _ _ g2, by linarith, ?_, ?_⟩
  · unfold Rounding.add Rounding.mul
    rw [XR.fin_mul, XR.fin_mul, XR.fin_mul, Rounding.round_fin, Rounding.round_fin, Rounding.round_fin, h1, h2, h4, XR.fin_mul,
      Rounding.round_fin, h3, XR.fin_add, Rounding.round_fin, g1, XR.fin_add, Rounding.round_fin, g2]
  · -- lower bound
    have v0 : 0 ≤ 1 - u := by linarith
    have v1 : 1 - u ≤ 1 := by linarith
    set e := u * tiny with he
    set v := 1 - u with hv
    have k1 : v * (c * qb) - e + (v ^ 2 * (a * z ^ 2) - 2 * e) ≤ p1 + p3 := by linarith
    have k2 := mul_le_mul_of_nonneg_left k1 v0
    have k3 : v * (v * (c * qb) - e + (v ^ 2 * (a * z ^ 2) - 2 * e)) + (v * (b * q) - e) ≤ s1 + p4 := by linarith
    have k4 := mul_le_mul_of_nonneg_left k3 v0
    have v2 : v ^ 2 ≤ 1 := pow_le_one₀ v0 v1
    have v4 : v ^ 4 ≤ v ^ 3 := pow_le_pow_of_le_one v0 v1 (by norm_num)
    have v4' : v ^ 4 ≤ v ^ 2 := pow_le_pow_of_le_one v0 v1 (by norm_num)
    have j1 := mul_le_mul_of_nonneg_right v4 x1
    have j2 := mul_le_mul_of_nonneg_right v4' x3
    have j3 := mul_le_mul_of_nonneg_right v2 hut0
    have j4 := mul_le_mul_of_nonneg_right v1 hut0
    have hs : v ^ 4 * (c * qb + a * z ^ 2 + b * q) - 4 * e ≤ s2 := by
      refine le_trans ?_ (k4.trans m21)
      have ex : v * (v * (v * (c * qb) - e + (v ^ 2 * (a * z ^ 2) - 2 * e)) + (v * (b * q) - e)) =
          v ^ 3 * (c * qb) + v ^ 4 * (a * z ^ 2) + v ^ 2 * (b * q) - 3 * (v ^ 2 * e) - v * e := by ring
      rw [ex, mul_add, mul_add]
      linarith only [j1, j2, j3, j4]
    refine le_trans ?_ hs
    have e5 : (c * qb + a * z ^ 2 + b * q) * v ^ 5 = v ^ 4 * (c * qb + a * z ^ 2 + b * q) - u * (v ^ 4 * (c * qb + a * z ^ 2 + b * q)) := by
      rw [hv]; ring
    rw [e5]
    have hv4 : 1 / 2 ≤ v ^ 4 := by
      have : (1 - 1 / 16 : ℝ) ^ 4 ≤ v ^ 4 := pow_le_pow_left₀ (by norm_num) (by rw [hv]; linarith) 4
      norm_num at this
      linarith
    have : 4 * tiny ≤ v ^ 4 * (c * qb + a * z ^ 2 + b * q) := by
      have := mul_le_mul_of_nonneg_right hv4 (show 0 ≤ c * qb + a * z ^ 2 + b * q by linarith)
      linarith
    have := mul_le_mul_of_nonneg_left this hu0
    rw [he]
    linarith
  · -- upper bound
    have k1 : p1 + p3 ≤ (1 + u) * (c * qb) + u * tiny + ((1 + u) ^ 2 * (a * z ^ 2) + 3 * (u * tiny)) := by linarith
    have v0 : 0 ≤ 1 + u := by linarith
    have v1 : 1 ≤ 1 + u := by linarith
    have v2 : 1 + u ≤ 17 / 16 := by linarith
    set e := u * tiny with he
    set v := 1 + u with hv
    have k2 := mul_le_mul_of_nonneg_left k1 v0
    have k3 : s1 + p4 ≤ v * (v * (c * qb) + e + (v ^ 2 * (a * z ^ 2) + 3 * e)) + (v * (b * q) + e) := by linarith
    have k4 := mul_le_mul_of_nonneg_left k3 v0
    have w1 : v ^ 3 ≤ v ^ 4 := pow_le_pow_right₀ v1 (by norm_num)
    have w2 : v ^ 2 ≤ v ^ 4 := pow_le_pow_right₀ v1 (by norm_num)
    have w3 : v ^ 2 ≤ 9 / 8 + 1 / 100 := bu2
    have j1 := mul_le_mul_of_nonneg_right w1 x1
    have j2 := mul_le_mul_of_nonneg_right w2 x3
    have j3 := mul_le_mul_of_nonneg_right w3 hut0
    have j4 := mul_le_mul_of_nonneg_right v2 hut0
    have hs : s2 ≤ v ^ 4 * (c * qb + a * z ^ 2 + b * q) + 6 * e := by
      refine (m22.trans k4).trans ?_
      have ex : v * (v * (v * (c * qb) + e + (v ^ 2 * (a * z ^ 2) + 3 * e)) + (v * (b * q) + e)) =
          v ^ 3 * (c * qb) + v ^ 4 * (a * z ^ 2) + v ^ 2 * (b * q) + 4 * (v ^ 2 * e) + v * e := by ring
      rw [ex, mul_add, mul_add]
      linarith only [j1, j2, j3, j4, hut0]
    have hS0 : 0 ≤ c * qb + a * z ^ 2 + b * q := by linarith
    set S := c * qb + a * z ^ 2 + b * q with hSd
    have i0 : 0 ≤ (1 - u) ^ 5 := pow_nonneg (by linarith) 5
    have i1 : (1 - u) ^ 5 ≤ 1 := pow_le_one₀ (by linarith) (by linarith)
    have i2 : (1 - u) ^ 5 * v ^ 4 ≤ 1 - u := by
      have e1 : (1 - u) ^ 5 * v ^ 4 = (1 - u) * (1 - u ^ 2) ^ 4 := by rw [hv]; ring
      rw [e1]
      have : (1 - u ^ 2) ^ 4 ≤ 1 := pow_le_one₀ (by nlinarith) (by nlinarith [sq_nonneg u])
      have := mul_le_mul_of_nonneg_left this (show 0 ≤ 1 - u by linarith)
      linarith
    calc s2 * (1 - u) ^ 5 ≤ (v ^ 4 * S + 6 * e) * (1 - u) ^ 5 := mul_le_mul_of_nonneg_right hs i0
      _ = (1 - u) ^ 5 * v ^ 4 * S + 6 * e * (1 - u) ^ 5 := by ring
      _ ≤ (1 - u) * S + 6 * e * 1 := by
        apply add_le_add (mul_le_mul_of_nonneg_right i2 hS0) (mul_le_mul_of_nonneg_left i1 (by positivity))
      _ ≤ S := by
        have : 6 * tiny ≤ S := by rw [hSd]; linarith
        have := mul_le_mul_of_nonneg_left this hu0
        rw [he]
        nlinarith

set_option maxHeartbeats 1000000 in
/-- the off-diagonal entry stays within the geometric mean `T` of the exact diagonal entries -/
theorem off (A : Accurate R u tiny huge) (hu : 16 * u ≤ 1) {a b c qb q z1 z2 Z T : ℝ} {k : ℕ} (ha : 0 ≤ a) (hb : 0 ≤ b)
    (hc : 0 ≤ c) (hZ : 1 ≤ Z) (hz2 : |z2| ≤ Z) (hT : 32 * (Z * tiny) ≤ T)
    (hS : (c * |qb| + a * (|z1| * |z2|) + b * |q|) * (1 - u) ^ k ≤ T)
    (hmax : 2 * (c * |qb| + a * (|z1| * |z2|) + a * |z1| + b * |q|) + 8 * (Z * tiny) ≤ huge) :
    ∃ s, R.add (R.add (R.mul (.fin c) (.fin qb)) (R.mul (R.mul (.fin a) (.fin z1)) (.fin z2))) (R.mul (.fin b) (.fin q)) = .fin s ∧
      R.rd s = .fin s ∧ |s| * (1 - u) ^ (k + 5) ≤ T := by
  have hu0 := A.u_nonneg
  have ht0 := A.tiny_nonneg
  have hZt : tiny ≤ Z * tiny := by nlinarith
  have hut0 : 0 ≤ u * tiny := by positivity
  have hut : u * tiny ≤ tiny / 16 := by nlinarith
  have hutZ : u * (Z * tiny) ≤ Z * tiny / 16 := by nlinarith
  have huZ : u * tiny ≤ u * (Z * tiny) := mul_le_mul_of_nonneg_left hZt hu0
  have x1 : 0 ≤ c * |qb| := by positivity
  have x2 : 0 ≤ a * (|z1| * |z2|) := by positivity
  have x3 : 0 ≤ b * |q| := by positivity
  have x5 : 0 ≤ a * |z1| := by positivity
  have a1 : |c * qb| = c * |qb| := by rw [abs_mul, abs_of_nonneg hc]
  have a2 : |a * z1| = a * |z1| := by rw [abs_mul, abs_of_nonneg ha]
  have a4 : |b * q| = b * |q| := by rw [abs_mul, abs_of_nonneg hb]
  obtain ⟨p1, h1⟩ := A.fin (c * qb) (by rw [a1]; linarith)
  obtain ⟨p2, h2⟩ := A.fin (a * z1) (by rw [a2]; linarith)
  obtain ⟨p4, h4⟩ := A.fin (b * q) (by rw [a4]; linarith)
  have n1 := up A h1
  have n2 := up A h2
  have n4 := up A h4
  rw [a1] at n1
  rw [a2] at n2
  rw [a4] at n4
  have y2 : |p2 * z2| ≤ (1 + u) * (a * (|z1| * |z2|)) + u * (Z * tiny) := by
    rw [abs_mul]
    have i1 := mul_le_mul_of_nonneg_right n2 (abs_nonneg z2)
    have i2 := mul_le_mul_of_nonneg_left hz2 hut0
    nlinarith
  have hua : u * (a * (|z1| * |z2|)) ≤ a * (|z1| * |z2|) / 16 := by nlinarith
  obtain ⟨p3, h3⟩ := A.fin (p2 * z2) (by linarith)
  have n3 := up A h3
  have w3 : |p3| ≤ (1 + u) ^ 2 * (a * (|z1| * |z2|)) + 3 * (u * (Z * tiny)) := by
    have i1 := mul_le_mul_of_nonneg_left y2 (show 0 ≤ 1 + u by linarith)
    have i3 : u * (u * (Z * tiny)) ≤ u * (Z * tiny) := by nlinarith
    nlinarith
  have bu2 : (1 + u) ^ 2 ≤ 9 / 8 + 1 / 100 := by nlinarith
  have w3' : |p3| ≤ (9 / 8 + 1 / 100) * (a * (|z1| * |z2|)) + 3 * (u * (Z * tiny)) := by
    have := mul_le_mul_of_nonneg_right bu2 x2
    linarith
  have u17 : 1 + u ≤ 17 / 16 := by linarith
  have n1' : |p1| ≤ 17 / 16 * (c * |qb|) + u * tiny := n1.trans (by have := mul_le_mul_of_nonneg_right u17 x1; linarith)
  have n4' : |p4| ≤ 17 / 16 * (b * |q|) + u * tiny := n4.trans (by have := mul_le_mul_of_nonneg_right u17 x3; linarith)
  have r1 := R.idem _ _ h1
  have r3 := R.idem _ _ h3
  have r4 := R.idem _ _ h4
  obtain ⟨s1, g1⟩ := A.fin (p1 + p3) (by have := abs_add_le p1 p3; linarith)
  have m1 := upAdd A r1 r3 g1
  have rs1 := R.idem _ _ g1
  have m1' : |s1| ≤ 17 / 16 * (|p1| + |p3|) := m1.trans (mul_le_mul_of_nonneg_right u17 (by positivity))
  obtain ⟨s2, g2⟩ := A.fin (s1 + p4) (by have := abs_add_le s1 p4; linarith)
  have m2 := upAdd A rs1 r4 g2
  refine ⟨s2, ?_, R.idem _ _ g2, ?_⟩
  · unfold Rounding.add Rounding.mul
    rw [XR.fin_mul, XR.fin_mul, XR.fin_mul, Rounding.round_fin, Rounding.round_fin, Rounding.round_fin, h1, h2, h4, XR.fin_mul,
      Rounding.round_fin, h3, XR.fin_add, Rounding.round_fin, g1, XR.fin_add, Rounding.round_fin, g2]
  · have v0 : 0 ≤ 1 + u := by linarith
    have v1 : 1 ≤ 1 + u := by linarith
    have v2 : 1 + u ≤ 17 / 16 := by linarith
    have e0 : 0 ≤ u * (Z * tiny) := by positivity
    set e := u * (Z * tiny) with he
    set v := 1 + u with hv
    have k1 : |p1| + |p3| ≤ v * (c * |qb|) + e + (v ^ 2 * (a * (|z1| * |z2|)) + 3 * e) := by linarith
    have k2 := mul_le_mul_of_nonneg_left k1 v0
    have k3 : |s1| + |p4| ≤ v * (v * (c * |qb|) + e + (v ^ 2 * (a * (|z1| * |z2|)) + 3 * e)) + (v * (b * |q|) + e) := by linarith
    have k4 := mul_le_mul_of_nonneg_left k3 v0
    have w1 : v ^ 3 ≤ v ^ 4 := pow_le_pow_right₀ v1 (by norm_num)
    have w2 : v ^ 2 ≤ v ^ 4 := pow_le_pow_right₀ v1 (by norm_num)
    have j1 := mul_le_mul_of_nonneg_right w1 x1
    have j2 := mul_le_mul_of_nonneg_right w2 x3
    have j3 := mul_le_mul_of_nonneg_right bu2 e0
    have j4 := mul_le_mul_of_nonneg_right v2 e0
    have hs : |s2| ≤ v ^ 4 * (c * |qb| + a * (|z1| * |z2|) + b * |q|) + 6 * e := by
      refine (m2.trans k4).trans ?_
      have ex : v * (v * (v * (c * |qb|) + e + (v ^ 2 * (a * (|z1| * |z2|)) + 3 * e)) + (v * (b * |q|) + e)) =
          v ^ 3 * (c * |qb|) + v ^ 4 * (a * (|z1| * |z2|)) + v ^ 2 * (b * |q|) + 4 * (v ^ 2 * e) + v * e := by ring
      rw [ex, mul_add, mul_add]
      linarith only [j1, j2, j3, j4, e0]
    set S := c * |qb| + a * (|z1| * |z2|) + b * |q| with hSd
    have hS0 : 0 ≤ S := by rw [hSd]; linarith
    have hT0 : 0 ≤ T := le_trans (by positivity) hT
    have i0 : 0 ≤ (1 - u) ^ 5 := pow_nonneg (by linarith) 5
    have i1 : (1 - u) ^ 5 ≤ 1 := pow_le_one₀ (by linarith) (by linarith)
    have l0 : 0 ≤ (1 - u) ^ k := pow_nonneg (by linarith) k
    have l1 : (1 - u) ^ k ≤ 1 := pow_le_one₀ (by linarith) (by linarith)
    have i2 : (1 - u) ^ 5 * v ^ 4 ≤ 1 - u := by
      have e1 : (1 - u) ^ 5 * v ^ 4 = (1 - u) * (1 - u ^ 2) ^ 4 := by rw [hv]; ring
      rw [e1]
      have : (1 - u ^ 2) ^ 4 ≤ 1 := pow_le_one₀ (by nlinarith) (by nlinarith [sq_nonneg u])
      have := mul_le_mul_of_nonneg_left this (show 0 ≤ 1 - u by linarith)
      linarith
    calc |s2| * (1 - u) ^ (k + 5) ≤ (v ^ 4 * S + 6 * e) * (1 - u) ^ (k + 5) :=
          mul_le_mul_of_nonneg_right hs (pow_nonneg (by linarith) _)
      _ = (1 - u) ^ 5 * v ^ 4 * (S * (1 - u) ^ k) + 6 * e * ((1 - u) ^ k * (1 - u) ^ 5) := by ring
      _ ≤ (1 - u) * T + 6 * e * 1 := by
        apply add_le_add
        · exact mul_le_mul i2 hS (by positivity) (by linarith)
        · exact mul_le_mul_of_nonneg_left (mul_le_one₀ l1 i0 i1) (by positivity)
      _ ≤ T := by
        have : 6 * (Z * tiny) ≤ T := by
          have : 0 ≤ Z * tiny := by positivity
          linarith
        have := mul_le_mul_of_nonneg_left this hu0
        rw [he]
        nlinarith

/-- Cauchy-Schwarz for three weighted terms -/
theorem cs {a b c x1 y1 w1 x2 y2 w2 x3 y3 w3 : ℝ} (ha : 0 ≤ a) (hb : 0 ≤ b) (hc : 0 ≤ c) (hx1 : 0 ≤ x1) (hx2 : 0 ≤ x2)
    (hx3 : 0 ≤ x3) (hy1 : 0 ≤ y1) (hy2 : 0 ≤ y2) (hy3 : 0 ≤ y3) (h1 : w1 ≤ Real.sqrt (x1 * y1)) (h2 : w2 ≤ Real.sqrt (x2 * y2))
    (h3 : w3 ≤ Real.sqrt (x3 * y3)) :
    c * w1 + a * w2 + b * w3 ≤ Real.sqrt ((c * x1 + a * x2 + b * x3) * (c * y1 + a * y2 + b * y3)) := by
  have key : ∀ {t x y : ℝ}, 0 ≤ t → 0 ≤ x → 0 ≤ y → t * Real.sqrt (x * y) = Real.sqrt (t * x) * Real.sqrt (t * y) := by
    intro t x y ht hx hy
    rw [← Real.sqrt_mul (by positivity) (t * y), show t * x * (t * y) = t ^ 2 * (x * y) by ring, Real.sqrt_mul (by positivity) (x * y),
      Real.sqrt_sq ht]
  have b1 := mul_le_mul_of_nonneg_left h1 hc
  have b2 := mul_le_mul_of_nonneg_left h2 ha
  have b3 := mul_le_mul_of_nonneg_left h3 hb
  rw [key hc hx1 hy1] at b1
  rw [key ha hx2 hy2] at b2
  rw [key hb hx3 hy3] at b3
  have s1 := Real.sq_sqrt (show 0 ≤ c * x1 by positivity)
  have s2 := Real.sq_sqrt (show 0 ≤ a * x2 by positivity)
  have s3 := Real.sq_sqrt (show 0 ≤ b * x3 by positivity)
  have t1 := Real.sq_sqrt (show 0 ≤ c * y1 by positivity)
  have t2 := Real.sq_sqrt (show 0 ≤ a * y2 by positivity)
  have t3 := Real.sq_sqrt (show 0 ≤ b * y3 by positivity)
  have poly : ∀ p1 p2 p3 r1 r2 r3 : ℝ, (p1 * r1 + p2 * r2 + p3 * r3) ^ 2 ≤
      (p1 ^ 2 + p2 ^ 2 + p3 ^ 2) * (r1 ^ 2 + r2 ^ 2 + r3 ^ 2) := by
    intro p1 p2 p3 r1 r2 r3
    nlinarith [sq_nonneg (p1 * r2 - p2 * r1), sq_nonneg (p1 * r3 - p3 * r1), sq_nonneg (p2 * r3 - p3 * r2)]
  have := poly (Real.sqrt (c * x1)) (Real.sqrt (a * x2)) (Real.sqrt (b * x3)) (Real.sqrt (c * y1)) (Real.sqrt (a * y2)) (Real.sqrt (b * y3))
  rw [s1, s2, s3, t1, t2, t3] at this
  exact (add_le_add (add_le_add b1 b2) b3).trans (Real.le_sqrt_of_sq_le this)

end DccStep
end
end Frds

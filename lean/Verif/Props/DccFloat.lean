import Verif.Props.RoundedDcc
import Verif.Props.RoundedDip
import Mathlib.Analysis.Complex.ExponentialBounds

/-! Conditional correlations of the DCC models in binary64: within rounding error of [-1, 1], but not inside it, and what a
correlation above one does to the LRMES innovations. -/
namespace Frds.Props
noncomputable section
open Frds Frds.Model Classical

namespace RoundedDcc

/-- `(1 - u)^-N` is at most `1 + 2 N u` -/
theorem unpow {u r : ℝ} {N : ℕ} (hu0 : 0 ≤ u) (hu1 : u ≤ 1) (hN : 2 * (N * u) ≤ 1) (hr : 0 ≤ r) (h : r * (1 - u) ^ N ≤ 1) :
    r ≤ 1 + 2 * (N * u) := by
  have hb : 1 - N * u ≤ (1 - u) ^ N := by
    have := one_add_mul_le_pow (show (-2 : ℝ) ≤ -u by linarith) N
    have e : 1 + (N : ℝ) * -u = 1 - N * u := by ring
    rw [e, ← sub_eq_add_neg] at this
    exact this
  have h0 : 0 ≤ (N : ℝ) * u := by positivity
  have h1 : r * (1 - N * u) ≤ 1 := (mul_le_mul_of_nonneg_left hb hr).trans h
  generalize (N : ℝ) * u = x at *
  nlinarith

/-- numbers of binary64 -/
def d (m s : ℕ) : XR := .fin ((m : ℝ) / 2 ^ s)

def sqrtCert (a t m s : ℕ) : Bool :=
  decide (1 ≤ m) && decide (s ≤ 1000) && decide (2 ^ 104 * 2 ^ t ≤ a * 2 ^ (2 * s)) && decide (a * 2 ^ (2 * s) < 2 ^ 106 * 2 ^ t) &&
    decide ((2 * m - 1) ^ 2 * 2 ^ t < 4 * a * 2 ^ (2 * s)) && decide (4 * a * 2 ^ (2 * s) < (2 * m + 1) ^ 2 * 2 ^ t)

variable {M : Machine} (hM : M.R = binary64.rounding)
include hM

theorem rd_d {a b m s : ℕ} (h : RoundedDip.cert a b m s = true) : M.R.rd ((a : ℝ) / b) = d m s := by
  rw [hM]; exact RoundedDip.rd_cert h

theorem mul_d {m1 s1 m2 s2 m s : ℕ} (h : RoundedDip.cert (m1 * m2) (2 ^ (s1 + s2)) m s = true) : M.R.mul (d m1 s1) (d m2 s2) = d m s := by
  rw [← rd_d hM h]
  unfold Rounding.mul d
  rw [XR.fin_mul, Rounding.round_fin]
  congr 1
  push_cast
  rw [div_mul_div_comm, pow_add]

theorem add_d {m1 s1 m2 s2 m s : ℕ} (h : RoundedDip.cert (m1 * 2 ^ s2 + m2 * 2 ^ s1) (2 ^ (s1 + s2)) m s = true) :
    M.R.add (d m1 s1) (d m2 s2) = d m s := by
  rw [← rd_d hM h]
  unfold Rounding.add d
  rw [XR.fin_add, Rounding.round_fin]
  congr 1
  push_cast
  rw [pow_add]
  field_simp

theorem sub_d {m1 s1 m2 s2 m s : ℕ} (hle : m2 * 2 ^ s1 ≤ m1 * 2 ^ s2)
    (h : RoundedDip.cert (m1 * 2 ^ s2 - m2 * 2 ^ s1) (2 ^ (s1 + s2)) m s = true) : M.R.sub (d m1 s1) (d m2 s2) = d m s := by
  rw [← rd_d hM h]
  unfold Rounding.sub d
  rw [XR.fin_sub, Rounding.round_fin]
  congr 1
  rw [Nat.cast_sub hle]
  push_cast
  rw [pow_add]
  field_simp

theorem div_d {m1 s1 m2 s2 m s : ℕ} (h2 : 0 < m2) (h : RoundedDip.cert (m1 * 2 ^ s2) (m2 * 2 ^ s1) m s = true) :
    M.R.div (d m1 s1) (d m2 s2) = d m s := by
  rw [← rd_d hM h]
  have h2' : (0 : ℝ) < m2 := by exact_mod_cast h2
  unfold Rounding.div d
  rw [XR.fin_div _ (by positivity), Rounding.round_fin]
  congr 1
  push_cast
  field_simp

theorem sqrt_d {a t m s : ℕ} (h : sqrtCert a t m s = true) : M.R.sqrt (d a t) = d m s := by
  simp only [sqrtCert, Bool.and_eq_true, decide_eq_true_eq] at h
  obtain ⟨⟨⟨⟨⟨h1, h2⟩, h3⟩, h4⟩, h5⟩, h6⟩ := h
  have ht : (0 : ℝ) < 2 ^ t := by positivity
  have hs : (0 : ℝ) < 2 ^ s := by positivity
  have hm : (1 : ℝ) ≤ m := by exact_mod_cast h1
  have hz : (2 : ℝ) ^ (-(s : ℤ)) = 1 / 2 ^ s := by rw [zpow_neg, zpow_natCast, one_div]
  have h3' : (2 : ℝ) ^ 104 * 2 ^ t ≤ a * 2 ^ (2 * s) := by exact_mod_cast h3
  have h4' : (a : ℝ) * 2 ^ (2 * s) < 2 ^ 106 * 2 ^ t := by exact_mod_cast h4
  have h5' : (2 * (m : ℝ) - 1) ^ 2 * 2 ^ t < 4 * a * 2 ^ (2 * s) := by
    have : (((2 * m - 1 : ℕ) : ℝ)) ^ 2 * 2 ^ t < 4 * a * 2 ^ (2 * s) := by exact_mod_cast h5
    rw [Nat.cast_sub (by omega)] at this
    push_cast at this
    exact this
  have h6' : 4 * (a : ℝ) * 2 ^ (2 * s) < (2 * m + 1) ^ 2 * 2 ^ t := by exact_mod_cast h6
  set x : ℝ := (a : ℝ) / 2 ^ t with hx
  have hx0 : 0 ≤ x := by positivity
  have hxs : x * (2 ^ s) ^ 2 = a * 2 ^ (2 * s) / 2 ^ t := by rw [hx, ← pow_mul, mul_comm s 2]; ring
  have hy : Real.sqrt x * 2 ^ s = Real.sqrt (a * 2 ^ (2 * s) / 2 ^ t) := by
    rw [← hxs, Real.sqrt_mul hx0, Real.sqrt_sq hs.le]
  have e := rd64_eq (x := Real.sqrt x) (m : ℤ) (-(s : ℤ)) (by omega) (by omega)
    (by
      rw [hz, mul_one_div, div_le_iff₀ hs, hy]
      apply Real.le_sqrt_of_sq_le
      rw [le_div_iff₀ ht]
      norm_num at h3' ⊢
      exact h3')
    (by
      rw [hz, mul_one_div, lt_div_iff₀ hs, hy, Real.sqrt_lt' (by norm_num), div_lt_iff₀ ht]
      norm_num at h4' ⊢
      exact h4')
    (by
      left
      rw [hz, div_div_eq_mul_div, div_one, hy, Int.cast_natCast, abs_lt]
      constructor
      · rw [lt_sub_iff_add_lt]
        apply Real.lt_sqrt_of_sq_lt
        rw [lt_div_iff₀ ht]
        linarith
      · rw [sub_lt_iff_lt_add, Real.sqrt_lt' (by linarith), div_lt_iff₀ ht]
        linarith)
  rw [hz, Int.cast_natCast, mul_one_div] at e
  unfold Rounding.sqrt d
  rw [XR.fin_sqrt hx0, Rounding.round_fin, hM]
  exact e

omit hM in
theorem d_clip : Np.clip (d 4503599627370496 52) (.fin (-1)) (.fin 1) = d 4503599627370496 52 := by
  unfold d
  rw [Np.clip_fin]
  norm_num

omit hM in
theorem one_d : (1 : XR) = d 4503599627370496 52 := by
  unfold d; rw [XR.one_def]; norm_num

end RoundedDcc
open RoundedDcc

namespace RoundedDcc

/-- limits of binary64 used below -/
theorem env (M : Machine) (hM : M.R = binary64.rounding) : ∃ tiny huge : ℝ, Accurate M.R (2 ^ (-53 : ℤ)) tiny huge ∧
    tiny * 2 ^ 250 ≤ 1 ∧ 2 ^ 250 ≤ huge := by
  obtain ⟨tiny, huge, A, h1, h2, -⟩ := Rounded.acc64 hM
  refine ⟨tiny, huge, A, ?_, ?_⟩
  · have : (2 : ℝ) ^ 250 ≤ 2 ^ (1000 : ℤ) := by
      rw [← zpow_natCast]; exact zpow_le_zpow_right₀ (by norm_num) (by norm_num)
    have := mul_le_mul_of_nonneg_left this A.tiny_nonneg
    have h3 : (2 : ℝ) ^ (-20 : ℤ) ≤ 1 := by norm_num
    have h4 := mul_nonneg A.tiny_nonneg (show (0 : ℝ) ≤ 2 ^ (1000 : ℤ) by positivity)
    generalize (2 : ℝ) ^ (1000 : ℤ) = w at *
    linarith
  · refine le_trans ?_ h2
    have : (2 : ℝ) ^ 250 ≤ 2 ^ (1000 : ℤ) := by
      rw [← zpow_natCast]; exact zpow_le_zpow_right₀ (by norm_num) (by norm_num)
    refine this.trans (le_mul_of_one_le_left (by positivity) (by norm_num))

theorem tinyTimes {tiny : ℝ} (h : tiny * 2 ^ 250 ≤ 1) (h0 : 0 ≤ tiny) (k : ℕ) (hk : k ≤ 250) : tiny * 2 ^ k ≤ 1 :=
  (mul_le_mul_of_nonneg_left (pow_le_pow_right₀ (by norm_num) hk) h0).trans h

theorem tinyLe {tiny : ℝ} (h : tiny * 2 ^ 250 ≤ 1) {k : ℕ} (hk : k ≤ 250) (h0 : 0 ≤ tiny) : tiny ≤ 1 / 2 ^ k := by
  rw [le_div_iff₀ (by positivity)]; exact tinyTimes h h0 k hk

theorem hugeGe {huge x : ℝ} (h : 2 ^ 250 ≤ huge) {k : ℕ} (hk : k ≤ 250) (hx : x ≤ 2 ^ k) : x ≤ huge :=
  hx.trans ((pow_le_pow_right₀ (by norm_num) hk).trans h)

end RoundedDcc

/-- C206, Python. Weights `a, b ≥ 0` with `a + b ≤ 1` and computed `1 - a - b` not below `2^-60`; standardised residuals of
magnitude at most `2^60`; the variances computed by `np.cov` between `2^-210` and `2^246`. Every conditional correlation
computed in binary64 is a finite number that exceeds one in magnitude by at most `(20 T + 8) 2^-53`. -/
theorem C206_python (M : Machine) (hM : M.R = binary64.rounding) {a b c : ℝ} (ha : 0 ≤ a) (hb : 0 ≤ b) (hab : a + b ≤ 1)
    (ra : M.R.Rep (.fin a)) (rb : M.R.Rep (.fin b)) (hcd : M.R.sub (M.R.sub 1 (.fin a)) (.fin b) = .fin c) (hc : 1 / 2 ^ 60 ≤ c)
    {c11 c22 c12 : ℝ} (l1 : 1 / 2 ^ 210 ≤ c11) (u1 : c11 ≤ 2 ^ 246) (l2 : 1 / 2 ^ 210 ≤ c22) (u2 : c22 ≤ 2 ^ 246)
    (z : List (ℝ × ℝ)) (hne : z ≠ []) (hlen : z.length ≤ 2 ^ 40) (hz : ∀ p ∈ z, |p.1| ≤ 2 ^ 60 ∧ |p.2| ≤ 2 ^ 60) :
    ∃ rho : List ℝ, Model.Rounded.dccKernel M false ⟨.fin c11, .fin c22, .fin c12⟩ (.fin a) (.fin b)
        (z.map fun p => (.fin p.1, .fin p.2)) = rho.map .fin ∧ rho.length = z.length ∧
      ∀ r ∈ rho, |r| ≤ 1 + (20 * z.length + 8) / 2 ^ 53 := by
  obtain ⟨tiny, huge, A, ht, hh⟩ := env M hM
  have ht0 := A.tiny_nonneg
  have hcp : 0 < c := lt_of_lt_of_le (by positivity) hc
  have e53 : (2 : ℝ) ^ (-53 : ℤ) = 1 / 2 ^ 53 := by norm_num
  have hl' : (z.length : ℝ) ≤ 2 ^ 40 := by exact_mod_cast hlen
  have rt : ∀ {x : ℝ}, 1 / 2 ^ 210 ≤ x → x ≤ 2 ^ 246 → InRange tiny huge (Real.sqrt x) := by
    intro x h1 h2
    right
    constructor
    · refine le_trans (b := 1 / 2 ^ 105) ?_ (Real.le_sqrt_of_sq_le (by norm_num at h1 ⊢; exact h1))
      have := tinyLe ht (k := 120) (by norm_num) ht0
      norm_num at this ⊢
      linarith
    · have : Real.sqrt x ≤ 2 ^ 123 := (Real.sqrt_le_left (by positivity)).mpr (by norm_num at h2 ⊢; exact h2)
      refine hugeGe hh (k := 124) (by norm_num) ?_
      rw [pow_succ]; linarith
  have ht2 : 2 * tiny ≤ 1 := by
    have := tinyLe ht (k := 1) (by norm_num) ht0
    norm_num at this
    linarith
  have hu16 : 16 * (2 : ℝ) ^ (-53 : ℤ) ≤ 1 := by norm_num
  obtain ⟨b11, b22, b12, eq, k1, k2, k3, k4, k5⟩ := start_py M A hu16 ht2 (hugeGe hh (k := 1) (by norm_num) (by norm_num))
    (c12 := c12) (lt_of_lt_of_le (by positivity) l1) (lt_of_lt_of_le (by positivity) l2) (rt l1 u1) (rt l2 u2)
  have hN : 2 * (((4 + 10 * z.length : ℕ) : ℝ) * (2 : ℝ) ^ (-53 : ℤ)) ≤ 1 := by
    rw [e53]; push_cast; linarith
  have htl := tinyLe ht (k := 250) (by norm_num) ht0
  have hcm : 1 / 2 ^ 61 ≤ c * (1 / 2) := by
    rw [pow_succ]; rw [div_mul_eq_div_div]; linarith
  obtain ⟨rho, e1, e2, e3⟩ := kernel_bound M A hu16 ha hb hab ra rb hcp hcd ht2 (m := 1 / 2) (by norm_num) (Z := 2 ^ 60)
    (B := 2 ^ 120) (one_le_pow₀ (by norm_num)) (by rw [← pow_mul])
    (le_trans (b := 1 / 2 ^ 61) (by
      have := mul_le_mul_of_nonneg_left htl (show (0 : ℝ) ≤ 2 ^ 60 by positivity)
      norm_num at this ⊢
      linarith) hcm)
    (le_trans (b := (1 / 2 ^ 61) ^ 2) (by norm_num at htl ⊢; linarith) (pow_le_pow_left₀ (by positivity) hcm 2))
    (hugeGe hh (k := 246) (by norm_num) (by norm_num)) k1 k3 (k2.trans (one_le_pow₀ (by norm_num))) (k4.trans (one_le_pow₀ (by norm_num)))
    k5 false ⟨.fin c11, .fin c22, .fin c12⟩ z hz hne eq hN
  refine ⟨rho, e1, e2, fun r hr => (unpow A.u_nonneg (by norm_num) hN (abs_nonneg _) (e3 r hr)).trans (le_of_eq ?_)⟩
  rw [e53]; push_cast; ring

/-- C206, C++. As above, with the long-run matrix computed from the residuals: mean squares of both series at least `2^-60`.
The excess over one is at most `(24 T + 8) 2^-53`. -/
theorem C206_cpp (M : Machine) (hM : M.R = binary64.rounding) {a b c : ℝ} (ha : 0 ≤ a) (hb : 0 ≤ b) (hab : a + b ≤ 1)
    (ra : M.R.Rep (.fin a)) (rb : M.R.Rep (.fin b)) (hcd : M.R.sub (M.R.sub 1 (.fin a)) (.fin b) = .fin c) (hc : 1 / 2 ^ 60 ≤ c)
    (cov : QMat) (z : List (ℝ × ℝ)) (hne : z ≠ []) (hlen : z.length ≤ 2 ^ 40) (hz : ∀ p ∈ z, |p.1| ≤ 2 ^ 60 ∧ |p.2| ≤ 2 ^ 60)
    (l1 : (z.length : ℝ) * (1 / 2 ^ 60) ≤ (z.map fun p => p.1 ^ 2).sum) (l2 : (z.length : ℝ) * (1 / 2 ^ 60) ≤ (z.map fun p => p.2 ^ 2).sum) :
    ∃ rho : List ℝ, Model.Rounded.dccKernel M true cov (.fin a) (.fin b) (z.map fun p => (.fin p.1, .fin p.2)) = rho.map .fin ∧
      rho.length = z.length ∧ ∀ r ∈ rho, |r| ≤ 1 + (24 * z.length + 8) / 2 ^ 53 := by
  obtain ⟨tiny, huge, A, ht, hh⟩ := env M hM
  have ht0 := A.tiny_nonneg
  have hcp : 0 < c := lt_of_lt_of_le (by positivity) hc
  have e53 : (2 : ℝ) ^ (-53 : ℤ) = 1 / 2 ^ 53 := by norm_num
  have hl' : (z.length : ℝ) ≤ 2 ^ 40 := by exact_mod_cast hlen
  have ht2 : 2 * tiny ≤ 1 := by
    have := tinyLe ht (k := 1) (by norm_num) ht0
    norm_num at this
    linarith
  have hu16 : 16 * (2 : ℝ) ^ (-53 : ℤ) ≤ 1 := by norm_num
  have htl := tinyLe ht (k := 250) (by norm_num) ht0
  obtain ⟨b11, b22, b12, eq, k1, k2, k3, k4, k5⟩ := start_cpp M A hu16 (m := 1 / 2 ^ 60) (Z := 2 ^ 60) (one_le_pow₀ (by norm_num)) z hz hne
    (by
      rw [hM]
      exact hlen.trans (pow_le_pow_right₀ (by norm_num) (by show 40 ≤ 53; norm_num)))
    (by rw [e53]; push_cast; linarith)
    (hugeGe hh (k := 163) (by norm_num) (by
      have := mul_le_mul_of_nonneg_right hl' (show (0 : ℝ) ≤ (2 ^ 60) ^ 2 by positivity)
      norm_num at this ⊢
      linarith))
    (by linarith) (by norm_num at htl ⊢; linarith) l1 l2 (by positivity)
  have hN : 2 * (((2 * z.length + 4 + 10 * z.length : ℕ) : ℝ) * (2 : ℝ) ^ (-53 : ℤ)) ≤ 1 := by
    rw [e53]; push_cast; linarith
  have hcm : 1 / 2 ^ 121 ≤ c * (1 / 2 ^ 60 / 2) := by
    have := mul_le_mul_of_nonneg_right hc (show (0 : ℝ) ≤ 1 / 2 ^ 60 / 2 by positivity)
    norm_num at this ⊢
    linarith
  obtain ⟨rho, e1, e2, e3⟩ := kernel_bound M A hu16 ha hb hab ra rb hcp hcd ht2 (m := 1 / 2 ^ 60 / 2) (by positivity) (Z := 2 ^ 60)
    (B := 2 ^ 121) (one_le_pow₀ (by norm_num)) (by norm_num)
    (le_trans (b := 1 / 2 ^ 121) (by
      have := mul_le_mul_of_nonneg_left htl (show (0 : ℝ) ≤ 2 ^ 60 by positivity)
      norm_num at this ⊢
      linarith) hcm)
    (le_trans (b := (1 / 2 ^ 121) ^ 2) (by norm_num at htl ⊢; linarith) (pow_le_pow_left₀ (by positivity) hcm 2))
    (hugeGe hh (k := 248) (by norm_num) (by norm_num)) k1 k3 (k2.trans (by norm_num)) (k4.trans (by norm_num))
    k5 true cov z hz hne eq hN
  refine ⟨rho, e1, e2, fun r hr => (unpow A.u_nonneg (by norm_num) hN (abs_nonneg _) (e3 r hr)).trans (le_of_eq ?_)⟩
  rw [e53]; push_cast; ring

/-- C206. The bound is not one. With `a = 5/64`, `b = 7/8` and two identical series `z, -z, 0` where `z = 2 + 3/2^26`, the second
conditional correlation computed in binary64 is `1 + 2^-52`, in both kernels. (`s` is the rounded `z²`; the covariance matrix of
these data has all entries `(s + s + 0) / 2 = s`, in any order of summation.) -/
theorem C206_exceeds (M : Machine) (hM : M.R = binary64.rounding) (cpp : Bool) (s : XR)
    (hs : s = M.R.mul (.fin (2 + 3 / 2 ^ 26)) (.fin (2 + 3 / 2 ^ 26))) :
    (Model.Rounded.dccKernel M cpp ⟨s, s, s⟩ (.fin (5 / 64)) (.fin (7 / 8))
      [(.fin (2 + 3 / 2 ^ 26), .fin (2 + 3 / 2 ^ 26)), (.fin (-(2 + 3 / 2 ^ 26)), .fin (-(2 + 3 / 2 ^ 26))), (.fin 0, .fin 0)])[1]? =
      some (.fin (1 + 1 / 2 ^ 52)) := by
  have ez : XR.fin (2 + 3 / 2 ^ 26) = d 4503599728033792 51 := by unfold d; norm_num
  have ea : XR.fin (5 / 64) = d 5629499534213120 56 := by unfold d; norm_num
  have eb : XR.fin (7 / 8) = d 7881299347898368 53 := by unfold d; norm_num
  have er : XR.fin (1 + 1 / 2 ^ 52) = d 4503599627370497 52 := by unfold d; norm_num
  have e3 : XR.fin 3 = d 6755399441055744 51 := by unfold d; norm_num
  have hzz : M.R.mul (d 4503599728033792 51) (d 4503599728033792 51) = d 4503599828697090 50 := mul_d hM (by decide)
  have hnn : M.R.mul (.fin (-(2 + 3 / 2 ^ 26))) (.fin (-(2 + 3 / 2 ^ 26))) = d 4503599828697090 50 := by
    rw [← hzz, ← ez]
    unfold Rounding.mul
    rw [XR.fin_mul, XR.fin_mul, neg_mul_neg]
  have hc : M.R.sub (M.R.sub 1 (.fin (5 / 64))) (.fin (7 / 8)) = d 6755399441055744 57 := by
    rw [one_d, ea, eb, sub_d hM (m := 8303511812964352) (s := 53) (by decide) (by decide)]
    exact sub_d hM (by decide) (by decide)
  have haz : M.R.mul (M.R.mul (d 5629499534213120 56) (d 4503599728033792 51)) (d 4503599728033792 51) = d 5629499785871363 54 := by
    rw [mul_d hM (m := 5629499660042240) (s := 55) (by decide)]
    exact mul_d hM (by decide)
  have haz2 : M.R.mul (d 5629499534213120 56) (d 4503599828697090 50) = d 5629499785871362 54 := mul_d hM (by decide)
  rw [ez, hzz] at hs
  cases cpp
  · have hq : Model.Rounded.dccQbar M false ⟨s, s, s⟩ [(.fin (2 + 3 / 2 ^ 26), .fin (2 + 3 / 2 ^ 26)),
        (.fin (-(2 + 3 / 2 ^ 26)), .fin (-(2 + 3 / 2 ^ 26))), (.fin 0, .fin 0)] =
        ⟨d 4503599627370496 52, d 4503599627370496 52, d 4503599627370496 52⟩ := by
      simp only [Model.Rounded.dccQbar, Bool.false_eq_true, if_false, Model.Rounded.corrcoef, hs]
      rw [sqrt_d hM (m := 4503599728033792) (s := 51) (by decide), div_d hM (m := 4503599728033792) (s := 51) (by decide) (by decide),
        div_d hM (m := 4503599627370496) (s := 52) (by decide) (by decide), d_clip]
    unfold Model.Rounded.dccKernel
    rw [hq]
    simp only [List.dropLast, Model.Rounded.dccLoop, Model.Rounded.dccNext, List.getElem?_cons_succ, List.getElem?_cons_zero]
    rw [hc, ez, ea, eb, hzz, haz, haz2,
      show M.R.mul (d 6755399441055744 57) (d 4503599627370496 52) = d 6755399441055744 57 from mul_d hM (by decide),
      show M.R.mul (d 7881299347898368 53) (d 4503599627370496 52) = d 7881299347898368 53 from mul_d hM (by decide),
      show M.R.add (d 6755399441055744 57) (d 5629499785871362 54) = d 6473924716003330 54 from add_d hM (by decide),
      show M.R.add (d 6755399441055744 57) (d 5629499785871363 54) = d 6473924716003331 54 from add_d hM (by decide),
      show M.R.add (d 6473924716003330 54) (d 7881299347898368 53) = d 5559130852950016 52 from add_d hM (by decide),
      show M.R.add (d 6473924716003331 54) (d 7881299347898368 53) = d 5559130852950017 52 from add_d hM (by decide)]
    unfold Model.Rounded.dccRho
    simp only []
    rw [mul_d hM (m := 6862052224270337) (s := 52) (by decide), sqrt_d hM (m := 5559130852950016) (s := 52) (by decide),
      div_d hM (m := 4503599627370497) (s := 52) (by decide) (by decide), er]
  · have hz0 : M.R.mul (.fin 0) (.fin 0) = .fin 0 := by
      unfold Rounding.mul; rw [XR.fin_mul, mul_zero, Rounding.round_fin, Rounding.rd_zero]
    have h0 : ∀ m s : ℕ, M.R.rd ((m : ℝ) / 2 ^ s) = d m s → M.R.add (.fin 0) (d m s) = d m s ∧ M.R.add (d m s) (.fin 0) = d m s := by
      intro m s h
      unfold Rounding.add
      constructor
      · rw [show XR.fin 0 + d m s = .fin (0 + (m : ℝ) / 2 ^ s) from rfl, zero_add, Rounding.round_fin, h]
      · rw [show d m s + XR.fin 0 = .fin ((m : ℝ) / 2 ^ s + 0) from rfl, add_zero, Rounding.round_fin, h]
    have r1 := (h0 4503599828697090 50 (by
      have := rd_d hM (a := 4503599828697090) (b := 2 ^ 50) (m := 4503599828697090) (s := 50) (by decide)
      rw [← this]; congr 1; norm_num)).1
    have r2 := (h0 4503599828697090 49 (by
      have := rd_d hM (a := 4503599828697090) (b := 2 ^ 49) (m := 4503599828697090) (s := 49) (by decide)
      rw [← this]; congr 1; norm_num)).2
    have r3 : M.R.add (d 4503599828697090 50) (d 4503599828697090 50) = d 4503599828697090 49 := add_d hM (by decide)
    have hT : M.R.round (.fin ((3 : ℕ) : ℝ)) = d 6755399441055744 51 := by
      rw [← e3]
      have : M.R.Rep (.fin ((3 : ℕ) : ℝ)) := Rounding.rep_nat (by rw [hM]; show 3 ≤ 2 ^ 53; norm_num)
      rw [show M.R.round (.fin ((3 : ℕ) : ℝ)) = .fin ((3 : ℕ) : ℝ) from this]
      norm_num
    have hq : Model.Rounded.dccQbar M true ⟨s, s, s⟩ [(.fin (2 + 3 / 2 ^ 26), .fin (2 + 3 / 2 ^ 26)),
        (.fin (-(2 + 3 / 2 ^ 26)), .fin (-(2 + 3 / 2 ^ 26))), (.fin 0, .fin 0)] =
        ⟨d 6004799771596120 51, d 6004799771596120 51, d 6004799771596120 51⟩ := by
      simp only [Model.Rounded.dccQbar, if_true, Model.Rounded.rawMoments, List.map_cons, List.map_nil, List.length_cons, List.length_nil,
        Rounding.foldSum, List.foldl_cons, List.foldl_nil, hnn, hz0, zero_add, Nat.reduceAdd]
      rw [ez, hzz, r1, r3, r2, hT, div_d hM (m := 6004799771596120) (s := 51) (by decide) (by decide)]
    unfold Model.Rounded.dccKernel
    rw [hq]
    simp only [List.dropLast, Model.Rounded.dccLoop, Model.Rounded.dccNext, List.getElem?_cons_succ, List.getElem?_cons_zero]
    rw [hc, ez, ea, eb, hzz, haz, haz2,
      show M.R.mul (d 6755399441055744 57) (d 6004799771596120 51) = d 4503599828697090 55 from mul_d hM (by decide),
      show M.R.mul (d 7881299347898368 53) (d 6004799771596120 51) = d 5254199800146605 51 from mul_d hM (by decide),
      show M.R.add (d 4503599828697090 55) (d 5629499785871362 54) = d 7881299700219907 54 from add_d hM (by decide),
      show M.R.add (d 4503599828697090 55) (d 5629499785871363 54) = d 7881299700219908 54 from add_d hM (by decide),
      show M.R.add (d 7881299700219907 54) (d 5254199800146605 51) = d 6239362262674093 51 from add_d hM (by decide),
      show M.R.add (d 7881299700219908 54) (d 5254199800146605 51) = d 6239362262674094 51 from add_d hM (by decide)]
    unfold Model.Rounded.dccRho
    simp only []
    rw [mul_d hM (m := 8644116854501855) (s := 50) (by decide), sqrt_d hM (m := 6239362262674093) (s := 51) (by decide),
      div_d hM (m := 4503599627370497) (s := 52) (by decide) (by decide), er]

/-- C206. What happens then: for a representable correlation above one in magnitude, the firm's innovation that LRMES computes is NaN,
whatever the two standardised residuals. -/
theorem C206_nan (M : Machine) {u tiny huge : ℝ} (A : Accurate M.R u tiny huge) (hu : u < 1) (zi zm : XR) (r : ℝ)
    (hr : M.R.Rep (.fin r)) (h : 1 < |r|) : Model.Rounded.orthShock M zi zm (.fin r) = .nan := by
  have hu0 := A.u_nonneg
  have hneg : ∀ {x : ℝ}, M.R.Rep (.fin x) → M.R.rd (-x) = .fin (-x) := fun h => Rounding.neg_rep h
  have hd : XR.sqrt (M.R.sub 1 (M.R.mul (.fin r) (.fin r))) = .nan := by
    have e : M.R.mul (.fin r) (.fin r) = M.R.rd (r * r) := by unfold Rounding.mul; rw [XR.fin_mul]; rfl
    have hrr : |r| ≤ r * r := by rw [← abs_mul_abs_self]; nlinarith
    have hlow : XR.fin |r| ≤ M.R.rd (r * r) := by
      have := M.R.mono |r| (r * r) hrr
      have ha : M.R.rd |r| = .fin |r| := by
        rcases abs_choice r with h | h <;> rw [h]
        · exact hr
        · exact hneg hr
      rwa [ha] at this
    rw [e]
    rcases hx : M.R.rd (r * r) with _ | _ | _ | x
    · exact absurd hx (Rounding.rd_ne_nan _)
    · rw [hx] at hlow; exact False.elim hlow
    · rw [XR.one_def]
      show XR.sqrt (M.R.round XR.ninf) = .nan
      rfl
    · rw [hx] at hlow
      have hxr := XR.fin_le.mp hlow
      unfold Rounding.sub
      rw [XR.one_def, XR.fin_sub, Rounding.round_fin]
      rcases hy : M.R.rd (1 - x) with _ | _ | _ | y
      · exact absurd hy (Rounding.rd_ne_nan _)
      · rfl
      · have := M.R.mono (1 - x) 0 (by linarith)
        rw [hy, Rounding.rd_zero] at this
        exact False.elim this
      · have := A.err_add 1 (-x) y Rounding.rep_one (hneg (M.R.idem _ _ hx)) (by rw [← sub_eq_add_neg]; exact hy)
        rw [← sub_eq_add_neg, abs_of_neg (show 1 - x < 0 by linarith)] at this
        have hy0 : y < 0 := by
          have := (abs_le.mp this).2
          nlinarith
        show (if _ then _ else _) = _
        rw [if_pos hy0]
  have hs : M.R.sqrt (M.R.sub 1 (M.R.mul (.fin r) (.fin r))) = .nan := by
    unfold Rounding.sqrt
    rw [hd]; rfl
  unfold Model.Rounded.orthShock
  rw [hs]
  have hn : ∀ x : XR, x / XR.nan = .nan := by intro x; cases x <;> rfl
  unfold Rounding.div
  rw [hn]; rfl

namespace RoundedDcc

theorem rd_bnd {R : Rounding} {u tiny huge : ℝ} (A : Accurate R u tiny huge) (hu : 16 * u ≤ 1) (ht : tiny ≤ 1) {x K : ℝ} (hx : |x| ≤ K)
    (hK : 1 ≤ K) (hh : K ≤ huge) : ∃ y, R.rd x = .fin y ∧ |y| ≤ 2 * K := by
  obtain ⟨y, hy⟩ := A.fin x (hx.trans hh)
  have he := A.err x y hy
  have hm : max |x| tiny ≤ K := max_le hx (ht.trans hK)
  have hu0 := A.u_nonneg
  have h1 : u * max |x| tiny ≤ u * K := mul_le_mul_of_nonneg_left hm hu0
  have h2 : u * K ≤ K := by nlinarith
  have h3 : |y| ≤ |y - x| + |x| := by
    have := abs_add_le (y - x) x
    simpa using this
  exact ⟨y, hy, by linarith⟩

/-- the clipped correlation: `1 - rho ** 2` is computed between 1/100 and 1 -/
theorem den (M : Machine) {u tiny huge : ℝ} (A : Accurate M.R u tiny huge) (hu : 1024 * u ≤ 1) (ht : 2 * tiny ≤ 1) (hh : 2 ≤ huge) {p r : ℝ}
    (hp : M.R.rd (99 / 100) = .fin p) (hr : |r| ≤ p) :
    ∃ w, M.R.sub 1 (M.R.mul (.fin r) (.fin r)) = .fin w ∧ 1 / 100 ≤ w ∧ w ≤ 1 ∧ |r| ≤ 1 := by
  have hu0 := A.u_nonneg
  have ep := A.err _ _ hp
  rw [abs_of_pos (by norm_num : (0 : ℝ) < 99 / 100), max_eq_left (by linarith)] at ep
  have hp1 : p ≤ 991 / 1000 := by linarith [(abs_le.mp ep).2]
  have hp0 : 0 ≤ p := (abs_nonneg r).trans hr
  have hrr : r * r ≤ (991 / 1000) ^ 2 := by
    rw [← abs_mul_abs_self, ← pow_two]
    exact pow_le_pow_left₀ (abs_nonneg _) (hr.trans hp1) 2
  have hrr0 : 0 ≤ r * r := mul_self_nonneg r
  obtain ⟨s, hs⟩ := A.fin (r * r) (by rw [abs_of_nonneg hrr0]; norm_num at hrr; linarith)
  have es := A.err _ _ hs
  rw [abs_of_nonneg hrr0] at es
  have hs0 : 0 ≤ s := by
    have := M.R.mono 0 (r * r) hrr0
    rw [Rounding.rd_zero, hs] at this
    exact XR.fin_le.mp this
  have hs1 : s ≤ 984 / 1000 := by
    have h1 := (abs_le.mp es).2
    have h2 : u * max (r * r) tiny ≤ u * 1 := mul_le_mul_of_nonneg_left (max_le (by norm_num at hrr; linarith) (by linarith)) hu0
    norm_num at hrr
    linarith
  obtain ⟨w, hw⟩ := A.fin (1 - s) (by rw [abs_of_nonneg (by linarith)]; linarith)
  have ew := A.err_add 1 (-s) w Rounding.rep_one (show M.R.rd (-s) = .fin (-s) from Rounding.neg_rep (show M.R.Rep (.fin s) from M.R.idem _ _ hs)) (by rw [← sub_eq_add_neg]; exact hw)
  rw [← sub_eq_add_neg, abs_of_nonneg (show 0 ≤ 1 - s by linarith)] at ew
  refine ⟨w, ?_, ?_, ?_, by linarith⟩
  · unfold Rounding.sub Rounding.mul
    rw [XR.fin_mul, Rounding.round_fin, hs, XR.one_def, XR.fin_sub, Rounding.round_fin, hw]
  · have := (abs_le.mp ew).1
    nlinarith
  · have := M.R.mono (1 - s) 1 (by linarith)
    rw [hw, show M.R.rd 1 = .fin 1 from Rounding.rep_one] at this
    exact XR.fin_le.mp this

theorem term_bnd (M : Machine) {u tiny huge : ℝ} (A : Accurate M.R u tiny huge) (hu : 1024 * u ≤ 1) (ht : 2 * tiny ≤ 1) {Z : ℝ} (hZ : 1 ≤ Z)
    (hmax : 20000 * Z ^ 2 ≤ huge) (hlog : ∀ w : ℝ, 1 / 100 ≤ w → w ≤ 1 → ∃ l, M.log (.fin w) = .fin l ∧ |l| ≤ 5) {p r z1 z2 : ℝ}
    (hp : M.R.rd (99 / 100) = .fin p) (hr : |r| ≤ p) (h1 : |z1| ≤ Z) (h2 : |z2| ≤ Z) :
    ∃ v, Model.Rounded.dccTerm M (.fin z1) (.fin z2) (.fin r) = .fin v ∧ M.R.Rep (.fin v) ∧ |v| ≤ 20000 * Z ^ 2 := by
  have hu0 := A.u_nonneg
  have ht1 : tiny ≤ 1 := by linarith
  have hu16 : 16 * u ≤ 1 := by linarith
  have hZ2 : 1 ≤ Z ^ 2 := by nlinarith
  set Q := Z ^ 2 with hQ
  have hZQ : Z ≤ Q := by nlinarith
  obtain ⟨w, ew, lw, uw, hr1⟩ := den M A hu ht (by linarith) hp hr
  obtain ⟨l, el, bl⟩ := hlog w lw uw
  have sqb : ∀ {x : ℝ}, |x| ≤ Z → |x * x| ≤ Q := by
    intro x hx
    rw [abs_mul, hQ, pow_two]
    exact mul_le_mul hx hx (abs_nonneg _) (by linarith)
  have hmul : ∀ {x y K : ℝ}, |x * y| ≤ K → 1 ≤ K → K ≤ huge → ∃ v, M.R.mul (.fin x) (.fin y) = .fin v ∧ |v| ≤ 2 * K := by
    intro x y K h a b
    obtain ⟨v, e, f⟩ := rd_bnd A hu16 ht1 h a b
    exact ⟨v, by unfold Rounding.mul; rw [XR.fin_mul, Rounding.round_fin, e], f⟩
  have hadd : ∀ {x y K : ℝ}, |x + y| ≤ K → 1 ≤ K → K ≤ huge → ∃ v, M.R.add (.fin x) (.fin y) = .fin v ∧ |v| ≤ 2 * K := by
    intro x y K h a b
    obtain ⟨v, e, f⟩ := rd_bnd A hu16 ht1 h a b
    exact ⟨v, by unfold Rounding.add; rw [XR.fin_add, Rounding.round_fin, e], f⟩
  have hsub : ∀ {x y K : ℝ}, |x - y| ≤ K → 1 ≤ K → K ≤ huge → ∃ v, M.R.sub (.fin x) (.fin y) = .fin v ∧ |v| ≤ 2 * K := by
    intro x y K h a b
    obtain ⟨v, e, f⟩ := rd_bnd A hu16 ht1 h a b
    exact ⟨v, by unfold Rounding.sub; rw [XR.fin_sub, Rounding.round_fin, e], f⟩
  have tri : ∀ {x y a b : ℝ}, |x| ≤ a → |y| ≤ b → |x + y| ≤ a + b := fun ha hb => (abs_add_le _ _).trans (add_le_add ha hb)
  have tri' : ∀ {x y a b : ℝ}, |x| ≤ a → |y| ≤ b → |x - y| ≤ a + b := fun ha hb => (abs_sub _ _).trans (add_le_add ha hb)
  obtain ⟨s1, e1, b1⟩ := hmul (sqb h1) hZ2 (by linarith)
  obtain ⟨s2, e2, b2⟩ := hmul (sqb h2) hZ2 (by linarith)
  obtain ⟨s, es, bs⟩ := hadd (tri b1 b2) (by linarith) (by linarith)
  obtain ⟨t1, f1, c1⟩ := hmul (x := 2) (y := r) (K := 2) (by rw [abs_mul, abs_two]; linarith) (by norm_num) (by linarith)
  obtain ⟨t2, f2, c2⟩ := hmul (x := t1) (y := z1) (K := 4 * Q) (by
    rw [abs_mul]
    have := mul_le_mul c1 h1 (abs_nonneg _) (by norm_num)
    linarith) (by linarith) (by linarith)
  obtain ⟨t3, f3, c3⟩ := hmul (x := t1) (y := z1) (K := 4 * Z) (by
    rw [abs_mul]
    have := mul_le_mul c1 h1 (abs_nonneg _) (by norm_num)
    linarith) (by linarith) (by linarith)
  have t23 : t2 = t3 := by
    have := f2.symm.trans f3
    cases this; rfl
  subst t23
  obtain ⟨t4, f4, c4⟩ := hmul (x := t2) (y := z2) (K := 8 * Q) (by
    rw [abs_mul]
    have := mul_le_mul c3 h2 (abs_nonneg _) (by linarith)
    rw [hQ, pow_two]
    linarith) (by linarith) (by linarith)
  obtain ⟨n, en, bn⟩ := hsub (tri' bs c4) (by linarith) (by linarith)
  have hw0 : 0 < w := by linarith
  have hq : |n / w| ≤ 4800 * Q := by
    rw [abs_div, abs_of_pos hw0, div_le_iff₀ hw0]
    nlinarith
  obtain ⟨q, eq, bq⟩ := rd_bnd A hu16 ht1 hq (by linarith) (by linarith)
  have edq : M.R.div (.fin n) (.fin w) = .fin q := by
    unfold Rounding.div; rw [XR.fin_div _ hw0.ne', Rounding.round_fin, eq]
  obtain ⟨y1, g1, d1⟩ := hadd (x := -s) (y := l) (K := 8 * Q + 5) (tri (by rw [abs_neg]; linarith) bl) (by linarith) (by linarith)
  obtain ⟨y2, g2, d2⟩ := hadd (x := y1) (y := q) (K := 9630 * Q) ((tri d1 bq).trans (by linarith)) (by linarith) (by linarith)
  obtain ⟨v, hv, dv⟩ := rd_bnd A hu16 ht1 (x := -(1 / 2) * y2) (K := 9630 * Q) (by
    rw [abs_mul, abs_neg, abs_of_pos (by norm_num : (0 : ℝ) < 1 / 2)]
    linarith) (by linarith) (by linarith)
  refine ⟨v, ?_, M.R.idem _ _ hv, by linarith⟩
  unfold Model.Rounded.dccTerm
  rw [ew, e1, e2, es, el, XR.fin_neg, g1, show (2 : XR) = .fin 2 from rfl, f1, f2, f4, en, edq, g2]
  unfold Rounding.mul
  rw [XR.fin_mul, Rounding.round_fin, hv]

end RoundedDcc

/-- C207. The objective of the DCC fit is a finite number. Whatever the kernel returned, as long as it is not NaN (infinities
included), once it is clipped: if the standardised residuals are at most `Z` in magnitude and `log` of a number between 1/100 and 1
is computed within [-5, 5], the objective is finite and not NaN. -/
theorem C207_objective (M : Machine) {u tiny huge : ℝ} (A : Accurate M.R u tiny huge) (hu : 1024 * u ≤ 1) (ht : 2 * tiny ≤ 1)
    {Z L : ℝ} (hZ : 1 ≤ Z) (hlog : ∀ w : ℝ, 1 / 100 ≤ w → w ≤ 1 → ∃ l, M.log (.fin w) = .fin l ∧ |l| ≤ 5)
    (i : ℕ) (l1 l2 : ℝ) (hl : |l1| ≤ L ∧ |l2| ≤ L) (hL : 1 ≤ L) (z : List (ℝ × ℝ)) (rho : List XR) (hlen : rho.length = z.length)
    (hn : 2 * (z.length * u) ≤ 1) (hmax : 8 * L + 40000 * (z.length + 1) * Z ^ 2 ≤ huge)
    (hz : ∀ p ∈ z, |p.1| ≤ Z ∧ |p.2| ≤ Z) (hrho : ∀ r ∈ rho, r ≠ .nan) :
    ∃ v : ℝ, Model.Rounded.dccObjective M i (.fin l1) (.fin l2) (z.map fun p => (.fin p.1, .fin p.2)) rho = .fin v := by
  have hu0 := A.u_nonneg
  have hu1 : u < 1 := by linarith
  have hZ2 : 1 ≤ Z ^ 2 := by nlinarith
  have hnZ : 0 ≤ (z.length : ℝ) * Z ^ 2 := by positivity
  have hmax1 : 20000 * Z ^ 2 ≤ huge := by nlinarith
  obtain ⟨p, hp⟩ := A.fin (99 / 100) (by rw [abs_of_pos (by norm_num)]; linarith)
  have ep := A.err _ _ hp
  rw [abs_of_pos (by norm_num : (0 : ℝ) < 99 / 100), max_eq_left (by linarith)] at ep
  have hp0 : 0 ≤ p := by linarith [(abs_le.mp ep).1]
  have hpn : M.R.rd (-(99 / 100)) = .fin (-p) := by rw [M.R.neg, hp]; rfl
  have hclip : ∀ x : XR, x ≠ .nan → ∃ r : ℝ, Np.clip x (M.R.round (.fin (-(99 / 100)))) (M.R.round (.fin (99 / 100))) = .fin r ∧ |r| ≤ p := by
    intro x hx
    rw [Rounding.round_fin, Rounding.round_fin, hp, hpn]
    rcases x with _ | _ | _ | r
    · exact absurd rfl hx
    · refine ⟨-p, ?_, by rw [abs_neg, abs_of_nonneg hp0]⟩
      have h1 : XR.npMax XR.ninf (.fin (-p)) = .fin (-p) := by
        unfold XR.npMax
        rw [if_neg (by simp), if_pos (by trivial)]
      unfold Np.clip
      rw [h1, XR.npMin_fin]
      congr 1
      exact min_eq_left (by linarith)
    · refine ⟨p, ?_, by rw [abs_of_nonneg hp0]⟩
      have h1 : XR.npMax XR.pinf (.fin (-p)) = .pinf := by
        unfold XR.npMax
        rw [if_neg (by simp), if_neg (by intro h; exact h)]
      unfold Np.clip
      rw [h1]
      unfold XR.npMin
      rw [if_neg (by simp), if_pos (by trivial)]
    · refine ⟨min (max r (-p)) p, Np.clip_fin _ _ _, ?_⟩
      rw [abs_le]
      exact ⟨le_min (le_max_right _ _) (by linarith), min_le_right _ _⟩
  have hterms : ∃ v : List ℝ, List.zipWith (fun (q : XR × XR) x => Model.Rounded.dccTerm M q.1 q.2
      (Np.clip x (M.R.round (.fin (-(99 / 100)))) (M.R.round (.fin (99 / 100))))) (z.map fun p => (.fin p.1, .fin p.2)) rho = v.map .fin ∧
      v.length = z.length ∧ (∀ x ∈ v, M.R.Rep (.fin x)) ∧ (v.map fun x => |x|).sum ≤ z.length * (20000 * Z ^ 2) := by
    clear hn hmax hnZ
    induction z generalizing rho with
    | nil => exact ⟨[], by simp, rfl, by simp, by simp⟩
    | cons q z ih =>
      rcases rho with _ | ⟨x, rho⟩
      · simp at hlen
      obtain ⟨v, e, f, g, k⟩ := ih rho (by simpa using hlen) (fun p hp => hz p (by simp [hp])) (fun r hr => hrho r (by simp [hr]))
      obtain ⟨r, er, br⟩ := hclip x (hrho x (by simp))
      obtain ⟨w, ew, rw', bw⟩ := term_bnd M A hu ht hZ hmax1 hlog hp br (hz q (by simp)).1 (hz q (by simp)).2
      refine ⟨w :: v, ?_, by simp [f], ?_, ?_⟩
      · simp only [List.map_cons, List.zipWith_cons_cons]
        rw [er, ew]
        exact congrArg _ e
      · intro y hy
        rcases List.mem_cons.mp hy with rfl | hy
        · exact rw'
        · exact g y hy
      · simp only [List.map_cons, List.sum_cons, List.length_cons]
        push_cast
        linarith
  obtain ⟨v, ev, lv, rv, bv⟩ := hterms
  have hre : ((v.map XR.fin).map fun x => |Accurate.re x|) = v.map fun x => |x| := by rw [List.map_map]; rfl
  obtain ⟨t, et, -, ct⟩ := A.sum_signed hu1 (M.sum_ok i (v.map .fin))
    (by
      intro x hx
      obtain ⟨y, hy, rfl⟩ := List.mem_map.mp hx
      exact ⟨y, rfl, rv y hy⟩)
    (by rw [List.length_map, lv]; linarith)
    (by rw [hre]; nlinarith)
  have bt := ct.bound hu1
  rw [hre, List.length_map, lv] at bt
  have hpow : 1 / 2 ≤ (1 - u) ^ (z.length - 1) := by
    refine A.pow_half ?_ hu1
    have : ((z.length - 1 : ℕ) : ℝ) ≤ (z.length : ℝ) := by exact_mod_cast Nat.sub_le _ _
    nlinarith
  have htb : |t| ≤ 2 * (z.length * (20000 * Z ^ 2)) := dbl (abs_nonneg _) hpow (bt.trans bv)
  obtain ⟨s, es, bs⟩ := rd_bnd A (by linarith) (by linarith) (x := l1 + l2) (K := 2 * L)
    ((abs_add_le _ _).trans (by linarith [hl.1, hl.2])) (by linarith) (by nlinarith)
  obtain ⟨y, ey⟩ := A.fin (s + t) ((abs_add_le _ _).trans (by nlinarith))
  refine ⟨-y, ?_⟩
  unfold Model.Rounded.dccObjective
  rw [ev, et]
  unfold Rounding.add
  rw [XR.fin_add, Rounding.round_fin, es, XR.fin_add, Rounding.round_fin, ey, XR.fin_neg]

/-- one standardised residual -/
theorem RoundedDcc.std_one (M : Machine) (hM : M.R = binary64.rounding) {r s : ℝ} (hr : |r| ≤ 2 ^ 38) (h1 : 1 / 2 ^ 40 ≤ s) (h2 : s ≤ 2 ^ 200) :
    ∃ z : ℝ, M.R.div (.fin r) (M.R.sqrt (.fin s)) = .fin z ∧ |z| ≤ 2 ^ 60 := by
  obtain ⟨tiny, huge, A, ht, hh⟩ := env M hM
  have hs : 0 < s := lt_of_lt_of_le (by positivity) h1
  have ht' := tinyLe (k := 60) ht (by norm_num) A.tiny_nonneg
  have q1 : 1 / 2 ^ 20 ≤ Real.sqrt s := Real.le_sqrt_of_sq_le (by norm_num at h1 ⊢; exact h1)
  have q2 : Real.sqrt s ≤ 2 ^ 100 := (Real.sqrt_le_left (by positivity)).mpr (by norm_num at h2 ⊢; exact h2)
  obtain ⟨w, hw⟩ := A.fin (Real.sqrt s) (by
    rw [abs_of_nonneg (Real.sqrt_nonneg _)]; exact hugeGe hh (k := 100) (by norm_num) q2)
  have ew := A.err _ _ hw
  rw [abs_of_nonneg (Real.sqrt_nonneg _), max_eq_left (le_trans (by norm_num at ht' ⊢; linarith) q1)] at ew
  have hw1 : 1 / 2 ^ 21 ≤ w := by
    have := (abs_le.mp ew).1
    have h3 : (2 : ℝ) ^ (-53 : ℤ) * Real.sqrt s ≤ 1 / 2 * Real.sqrt s := mul_le_mul_of_nonneg_right (by norm_num) (Real.sqrt_nonneg _)
    norm_num at q1 this h3 ⊢
    linarith
  have hw0 : 0 < w := lt_of_lt_of_le (by positivity) hw1
  have hq : |r / w| ≤ 2 ^ 59 := by
    rw [abs_div, abs_of_pos hw0, div_le_iff₀ hw0]
    have := mul_le_mul_of_nonneg_left hw1 (show (0 : ℝ) ≤ 2 ^ 59 by positivity)
    norm_num at this hr ⊢
    linarith
  obtain ⟨z, hz, bz⟩ := rd_bnd A (by norm_num) (by norm_num at ht'; linarith) hq (one_le_pow₀ (by norm_num)) (hugeGe hh (k := 59) (by norm_num) le_rfl)
  refine ⟨z, ?_, by norm_num at bz ⊢; linarith⟩
  have e : M.R.sqrt (.fin s) = .fin w := by
    unfold Rounding.sqrt; rw [XR.fin_sqrt hs.le, Rounding.round_fin, hw]
  rw [e]
  unfold Rounding.div
  rw [XR.fin_div _ hw0.ne', Rounding.round_fin, hz]

/-- C207 for bounded standardised residuals in binary64: at every candidate weights `a, b ≥ 0` with `a + b ≤ 1` and computed `1 - a - b` at
least `2^-60`, the kernel completes and the objective is a finite number. -/
theorem C207_candidates (M : Machine) (hM : M.R = binary64.rounding)
    (hlog : ∀ w : ℝ, 1 / 100 ≤ w → w ≤ 1 → ∃ l, M.log (.fin w) = .fin l ∧ |l| ≤ 5)
    (z : List (ℝ × ℝ)) (zne : z ≠ []) (zl : z.length ≤ 2 ^ 40) (e3 : ∀ p ∈ z, |p.1| ≤ 2 ^ 60 ∧ |p.2| ≤ 2 ^ 60)
    (cpp : Bool) (c11 c22 c12 a b c : ℝ) (ha : 0 ≤ a) (hb : 0 ≤ b) (hab : a + b ≤ 1) (ra : M.R.Rep (.fin a)) (rb : M.R.Rep (.fin b))
    (hcd : M.R.sub (M.R.sub 1 (.fin a)) (.fin b) = .fin c) (hc : 1 / 2 ^ 60 ≤ c)
    (hpy : cpp = false → (1 / 2 ^ 210 ≤ c11 ∧ c11 ≤ 2 ^ 246) ∧ (1 / 2 ^ 210 ≤ c22 ∧ c22 ≤ 2 ^ 246))
    (hcpp : cpp = true → (z.length : ℝ) * (1 / 2 ^ 60) ≤ (z.map fun p => p.1 ^ 2).sum ∧ (z.length : ℝ) * (1 / 2 ^ 60) ≤ (z.map fun p => p.2 ^ 2).sum)
    (i : ℕ) (l1 l2 : ℝ) (b1 : |l1| ≤ 2 ^ 180) (b2 : |l2| ≤ 2 ^ 180) :
    ∃ v : ℝ, Model.Rounded.dccObjective M i (.fin l1) (.fin l2) (z.map fun p => (.fin p.1, .fin p.2))
      (Model.Rounded.dccKernel M cpp ⟨.fin c11, .fin c22, .fin c12⟩ (.fin a) (.fin b) (z.map fun p => (.fin p.1, .fin p.2))) = .fin v := by
  obtain ⟨rho, f1, f2⟩ : ∃ rho : List ℝ, Model.Rounded.dccKernel M cpp ⟨.fin c11, .fin c22, .fin c12⟩ (.fin a) (.fin b)
      (z.map fun p => (.fin p.1, .fin p.2)) = rho.map .fin ∧ rho.length = z.length := by
    cases cpp
    · obtain ⟨⟨p1, p2⟩, p3, p4⟩ := hpy rfl
      obtain ⟨rho, f1, f2, -⟩ := C206_python M hM ha hb hab ra rb hcd hc (c12 := c12) p1 p2 p3 p4 z zne zl e3
      exact ⟨rho, f1, f2⟩
    · obtain ⟨p1, p2⟩ := hcpp rfl
      obtain ⟨rho, f1, f2, -⟩ := C206_cpp M hM ha hb hab ra rb hcd hc ⟨.fin c11, .fin c22, .fin c12⟩ z zne zl e3 p1 p2
      exact ⟨rho, f1, f2⟩
  rw [f1]
  obtain ⟨tiny, huge, A, ht, hh⟩ := env M hM
  have ht' := tinyLe (k := 60) ht (by norm_num) A.tiny_nonneg
  have zl' : (z.length : ℝ) ≤ 2 ^ 40 := by exact_mod_cast zl
  refine C207_objective M A (by norm_num) (by norm_num at ht'; linarith) (Z := 2 ^ 60) (L := 2 ^ 180) (one_le_pow₀ (by norm_num)) hlog i l1 l2
    ⟨b1, b2⟩ (one_le_pow₀ (by norm_num)) z _ (by rw [List.length_map, f2]) ?_ ?_ e3 ?_
  · rw [show (2 : ℝ) ^ (-53 : ℤ) = 1 / 2 ^ 53 by norm_num]
    linarith only [zl']
  · refine hugeGe hh (k := 200) (by norm_num) ?_
    have := mul_le_mul_of_nonneg_right zl' (show (0 : ℝ) ≤ (2 ^ 60) ^ 2 by positivity)
    norm_num at this ⊢
    linarith
  · intro r hr
    obtain ⟨y, -, rfl⟩ := List.mem_map.mp hr
    simp

/-- C207, from residuals and variances. Residuals of magnitude at most `2^38` and variances between `2^-40` and `2^200` (as the
univariate models return them) give finite standardised residuals; with them, either kernel and the objective that uses its
correlations: for every candidate weights `a, b ≥ 0` with `a + b ≤ 1` and computed `1 - a - b` at least `2^-60`, the objective
is a finite number. -/
theorem C207_model (M : Machine) (hM : M.R = binary64.rounding)
    (hlog : ∀ w : ℝ, 1 / 100 ≤ w → w ≤ 1 → ∃ l, M.log (.fin w) = .fin l ∧ |l| ≤ 5)
    (x : List ((ℝ × ℝ) × (ℝ × ℝ))) (hne : x ≠ []) (hlen : x.length ≤ 2 ^ 40)
    (hx : ∀ e ∈ x, (|e.1.1| ≤ 2 ^ 38 ∧ 1 / 2 ^ 40 ≤ e.1.2 ∧ e.1.2 ≤ 2 ^ 200) ∧ (|e.2.1| ≤ 2 ^ 38 ∧ 1 / 2 ^ 40 ≤ e.2.2 ∧ e.2.2 ≤ 2 ^ 200)) :
    ∃ z : List (ℝ × ℝ), List.zip
        (Model.Rounded.stdResid M (x.map fun e => .fin e.1.1) (x.map fun e => .fin e.1.2))
        (Model.Rounded.stdResid M (x.map fun e => .fin e.2.1) (x.map fun e => .fin e.2.2)) = z.map (fun p => (.fin p.1, .fin p.2)) ∧
      z.length = x.length ∧
      ∀ (cpp : Bool) (c11 c22 c12 a b c : ℝ), 0 ≤ a → 0 ≤ b → a + b ≤ 1 → M.R.Rep (.fin a) → M.R.Rep (.fin b) →
        M.R.sub (M.R.sub 1 (.fin a)) (.fin b) = .fin c → 1 / 2 ^ 60 ≤ c →
        (cpp = false → (1 / 2 ^ 210 ≤ c11 ∧ c11 ≤ 2 ^ 246) ∧ (1 / 2 ^ 210 ≤ c22 ∧ c22 ≤ 2 ^ 246)) →
        (cpp = true → (z.length : ℝ) * (1 / 2 ^ 60) ≤ (z.map fun p => p.1 ^ 2).sum ∧ (z.length : ℝ) * (1 / 2 ^ 60) ≤ (z.map fun p => p.2 ^ 2).sum) →
        ∀ (i : ℕ) (l1 l2 : ℝ), |l1| ≤ 2 ^ 180 → |l2| ≤ 2 ^ 180 →
          ∃ v : ℝ, Model.Rounded.dccObjective M i (.fin l1) (.fin l2) (z.map fun p => (.fin p.1, .fin p.2))
            (Model.Rounded.dccKernel M cpp ⟨.fin c11, .fin c22, .fin c12⟩ (.fin a) (.fin b) (z.map fun p => (.fin p.1, .fin p.2))) = .fin v := by
  have hz : ∃ z : List (ℝ × ℝ), List.zip
      (Model.Rounded.stdResid M (x.map fun e => .fin e.1.1) (x.map fun e => .fin e.1.2))
      (Model.Rounded.stdResid M (x.map fun e => .fin e.2.1) (x.map fun e => .fin e.2.2)) = z.map (fun p => (.fin p.1, .fin p.2)) ∧
      z.length = x.length ∧ ∀ p ∈ z, |p.1| ≤ 2 ^ 60 ∧ |p.2| ≤ 2 ^ 60 := by
    clear hne hlen
    induction x with
    | nil => exact ⟨[], rfl, rfl, by simp⟩
    | cons e x ih =>
      obtain ⟨z, k1, k2, k3⟩ := ih (fun y hy => hx y (by simp [hy]))
      obtain ⟨⟨a1, a2, a3⟩, b1, b2, b3⟩ := hx e (by simp)
      obtain ⟨y1, f1, g1⟩ := RoundedDcc.std_one M hM a1 a2 a3
      obtain ⟨y2, f2, g2⟩ := RoundedDcc.std_one M hM b1 b2 b3
      refine ⟨(y1, y2) :: z, ?_, by simp [k2], ?_⟩
      · simp only [Model.Rounded.stdResid, List.map_cons, List.zipWith_cons_cons, List.zip_cons_cons, f1, f2] at k1 ⊢
        rw [k1]
      · intro p hp
        rcases List.mem_cons.mp hp with rfl | hp
        · exact ⟨g1, g2⟩
        · exact k3 p hp
  obtain ⟨z, e1, e2, e3⟩ := hz
  refine ⟨z, e1, e2, ?_⟩
  intro cpp c11 c22 c12 a b c ha hb hab ra rb hcd hc hpy hcpp i l1 l2 b1 b2
  have zne : z ≠ [] := by
    intro h
    rw [h] at e2
    exact hne (List.length_eq_zero_iff.mp e2.symm)
  exact C207_candidates M hM hlog z zne (by omega) e3 cpp c11 c22 c12 a b c ha hb hab ra rb hcd hc hpy hcpp i l1 l2 b1 b2

/-! ### without rounding these are the kernels of the exact model -/

theorem RoundedDcc.exact_ops (x y : XR) : Machine.exact.R.add x y = x + y ∧ Machine.exact.R.sub x y = x - y ∧ Machine.exact.R.mul x y = x * y ∧
    Machine.exact.R.div x y = x / y :=
  ⟨Machine.exact_round _, Machine.exact_round _, Machine.exact_round _, Machine.exact_round _⟩

theorem RoundedDcc.exact_sqrt (x : XR) : Machine.exact.R.sqrt x = XR.sqrt x := Machine.exact_round _

theorem RoundedDcc.exact_loop (a b : XR) (qbar : QMat) (z : List (XR × XR)) (q : QMat) :
    Model.Rounded.dccLoop Machine.exact a b qbar q z = Model.dccLoop a b qbar q z := by
  have hsq : ∀ x : XR, XR.sq x = x * x := fun x => rfl
  induction z generalizing q with
  | nil => rfl
  | cons p z ih =>
    have e : Model.Rounded.dccNext Machine.exact a b qbar q p = QMat.next a b qbar q p := by
      unfold Model.Rounded.dccNext QMat.next
      simp only [exact_ops, hsq]
    simp only [Model.Rounded.dccLoop, Model.dccLoop, e, ih]
    congr 1
    simp only [Model.Rounded.dccRho, QMat.rho, exact_ops, exact_sqrt]

/-- C206. The rounded kernel without rounding is the kernel of the exact model: the C++ one on every pair of series of one length, the
Python one whenever its long-run correlations are those of the series. -/
theorem C206_exact (cpp : Bool) (cov : QMat) (a b : XR) (z1 z2 : List XR) (hlen : z1.length = z2.length) (hne : z1 ≠ [])
    (hcov : cpp = false → Model.Rounded.corrcoef Machine.exact cov = Model.dccQbar false z1 z2) :
    Model.dccKernel cpp a b z1 z2 = .ok (Model.Rounded.dccKernel Machine.exact cpp cov a b (List.zip z1 z2)) := by
  have hl : (List.zip z1 z2).length = z1.length := by rw [List.length_zip, hlen, min_self]
  have hq : Model.Rounded.dccQbar Machine.exact cpp cov (List.zip z1 z2) = Model.dccQbar cpp z1 z2 := by
    cases cpp
    · simp only [Model.Rounded.dccQbar, Bool.false_eq_true, if_false]
      exact hcov rfl
    · have hm1 : (List.zip z1 z2).map (fun p => p.1 * p.1) = z1.map fun z => z * z := by
        have := congrArg (List.map fun z : XR => z * z) (List.map_fst_zip (l₁ := z1) (l₂ := z2) (by omega))
        rw [← this, List.map_map]; rfl
      have hm2 : (List.zip z1 z2).map (fun p => p.2 * p.2) = z2.map fun z => z * z := by
        have := congrArg (List.map fun z : XR => z * z) (List.map_snd_zip (l₁ := z1) (l₂ := z2) (by omega))
        rw [← this, List.map_map]; rfl
      have hm3 : (List.zip z1 z2).map (fun p => p.1 * p.2) = List.zipWith (· * ·) z1 z2 := by
        rw [List.zip, List.map_zipWith]
      have hf : ∀ l : List XR, Machine.exact.R.foldSum l = l.sum := by
        have key : ∀ (l : List XR) (x : XR), l.foldl Machine.exact.R.add x = x + l.sum := by
          intro l
          induction l with
          | nil => intro x; simp
          | cons y l ih =>
            intro x
            rw [List.foldl_cons, ih, (RoundedDcc.exact_ops x y).1, List.sum_cons, add_assoc]
        intro l
        unfold Rounding.foldSum
        rw [key, ← XR.zero_def, zero_add]
      have hr : ∀ x, Machine.exact.R.round x = x := Machine.exact_round
      simp only [Model.Rounded.dccQbar, Model.dccQbar, if_true, Model.Rounded.rawMoments, RoundedDcc.exact_ops, hm1, hm2, hm3, hl, hf, hr]
  unfold Model.dccKernel Model.Rounded.dccKernel
  rw [if_neg (by simp [hlen]), if_neg (by omega), if_neg hne, hq, RoundedDcc.exact_loop]
  simp only [hlen, List.take_length, Model.Rounded.dccRho, QMat.rho, RoundedDcc.exact_ops, RoundedDcc.exact_sqrt]

/-! ### the hypotheses are met by concrete data on IEEE arithmetic -/

namespace RoundedDcc

def demoZ : List (ℝ × ℝ) := [(2, 1), (-2, -1), (0, 1 / 2)]

theorem demoZ_le : ∀ p ∈ demoZ, |p.1| ≤ 2 ^ 60 ∧ |p.2| ≤ 2 ^ 60 := by
  intro p hp
  simp only [demoZ, List.mem_cons, List.not_mem_nil, or_false] at hp
  rcases hp with rfl | rfl | rfl <;> norm_num [abs_of_pos, abs_of_neg]

theorem demo_a : Machine.ieee.R.Rep (.fin (5 / 64)) := by
  have := rd_d (M := Machine.ieee) rfl (a := 5) (b := 64) (m := 5629499534213120) (s := 56) (by decide)
  show Machine.ieee.R.rd (5 / 64) = .fin (5 / 64)
  push_cast at this
  rw [this]; unfold d; norm_num

theorem demo_b : Machine.ieee.R.Rep (.fin (7 / 8)) := by
  have := rd_d (M := Machine.ieee) rfl (a := 7) (b := 8) (m := 7881299347898368) (s := 53) (by decide)
  show Machine.ieee.R.rd (7 / 8) = .fin (7 / 8)
  push_cast at this
  rw [this]; unfold d; norm_num

theorem demo_c : Machine.ieee.R.sub (Machine.ieee.R.sub 1 (.fin (5 / 64))) (.fin (7 / 8)) = .fin (3 / 64) := by
  have ea : XR.fin (5 / 64) = d 5629499534213120 56 := by unfold d; norm_num
  have eb : XR.fin (7 / 8) = d 7881299347898368 53 := by unfold d; norm_num
  have ec : XR.fin (3 / 64) = d 6755399441055744 57 := by unfold d; norm_num
  rw [one_d, ea, eb, ec, sub_d (M := Machine.ieee) rfl (m := 8303511812964352) (s := 53) (by decide) (by decide)]
  exact sub_d (M := Machine.ieee) rfl (by decide) (by decide)

end RoundedDcc

example : ∃ rho : List ℝ, Model.Rounded.dccKernel Machine.ieee false ⟨.fin 4, .fin 1, .fin 2⟩ (.fin (5 / 64)) (.fin (7 / 8))
    (demoZ.map fun p => (.fin p.1, .fin p.2)) = rho.map .fin ∧ rho.length = demoZ.length ∧
    ∀ r ∈ rho, |r| ≤ 1 + (20 * demoZ.length + 8) / 2 ^ 53 :=
  C206_python Machine.ieee rfl (by norm_num) (by norm_num) (by norm_num) demo_a demo_b demo_c (by norm_num) (by norm_num) (by norm_num)
    (by norm_num) (by norm_num) demoZ (by simp [demoZ]) (by simp [demoZ]) demoZ_le

example (cov : QMat) : ∃ rho : List ℝ, Model.Rounded.dccKernel Machine.ieee true cov (.fin (5 / 64)) (.fin (7 / 8))
    (demoZ.map fun p => (.fin p.1, .fin p.2)) = rho.map .fin ∧ rho.length = demoZ.length ∧
    ∀ r ∈ rho, |r| ≤ 1 + (24 * demoZ.length + 8) / 2 ^ 53 :=
  C206_cpp Machine.ieee rfl (by norm_num) (by norm_num) (by norm_num) demo_a demo_b demo_c (by norm_num) cov demoZ (by simp [demoZ])
    (by simp [demoZ]) demoZ_le (by norm_num [demoZ]) (by norm_num [demoZ])

/-- the correlation of `C206_exceeds` makes the LRMES innovation NaN -/
example (zi zm : XR) : Model.Rounded.orthShock Machine.ieee zi zm (.fin (1 + 1 / 2 ^ 52)) = .nan := by
  obtain ⟨tiny, huge, A, -, -⟩ := env Machine.ieee rfl
  refine C206_nan Machine.ieee A (by norm_num) zi zm _ ?_ (by rw [abs_of_pos (by norm_num)]; norm_num)
  have := rd_d (M := Machine.ieee) rfl (a := 4503599627370497) (b := 2 ^ 52) (m := 4503599627370497) (s := 52) (by decide)
  show Machine.ieee.R.rd _ = .fin _
  unfold d at this
  norm_num at this ⊢
  exact this

theorem RoundedDcc.ieee_log5 (w : ℝ) (h1 : 1 / 100 ≤ w) (h2 : w ≤ 1) : ∃ l, Machine.ieee.log (.fin w) = .fin l ∧ |l| ≤ 5 := by
  have hw : 0 < w := by linarith
  have lo : -5 ≤ Real.log w := by
    rw [Real.le_log_iff_exp_le hw, Real.exp_neg]
    refine le_trans ?_ h1
    rw [one_div]
    apply inv_anti₀ (by norm_num)
    have h := Real.exp_one_gt_d9
    have e : Real.exp 5 = Real.exp 1 ^ 5 := by rw [← Real.exp_nat_mul]; norm_num
    rw [e]
    have : (2.7 : ℝ) ^ 5 ≤ Real.exp 1 ^ 5 := pow_le_pow_left₀ (by norm_num) (by linarith) 5
    norm_num at this ⊢
    linarith
  have hi : Real.log w ≤ 5 := (Real.log_nonpos hw.le h2).trans (by norm_num)
  have e : Machine.ieee.log (.fin w) = Machine.ieee.R.rd (Real.log w) := by
    show Machine.ieee.R.round (XR.log (.fin w)) = _
    rw [XR.fin_log hw, Rounding.round_fin]
  have h5 : Machine.ieee.R.rd 5 = .fin 5 := by
    have := Machine.ieee.R.nat 5 (by show 5 ≤ 2 ^ 53; norm_num)
    push_cast at this
    exact this
  have h5n : Machine.ieee.R.rd (-5) = .fin (-5) := by rw [Machine.ieee.R.neg, h5]; rfl
  have a := Machine.ieee.R.mono _ _ lo
  have b := Machine.ieee.R.mono _ _ hi
  rw [h5n] at a
  rw [h5] at b
  rw [e]
  rcases hx : Machine.ieee.R.rd (Real.log w) with _ | _ | _ | l
  · exact absurd hx (Rounding.rd_ne_nan _)
  · rw [hx] at a; exact False.elim a
  · rw [hx] at b; exact False.elim b
  · rw [hx] at a b
    exact ⟨l, rfl, abs_le.mpr ⟨XR.fin_le.mp a, XR.fin_le.mp b⟩⟩

/-- the kernel returned a correlation above one and an infinite one: the objective is finite -/
example : ∃ v : ℝ, Model.Rounded.dccObjective Machine.ieee 0 (.fin (-10)) (.fin (-20)) (demoZ.map fun p => (.fin p.1, .fin p.2))
    [.fin 1, .fin (1 + 1 / 2 ^ 52), .pinf] = .fin v := by
  obtain ⟨tiny, huge, A, ht, hh⟩ := env Machine.ieee rfl
  have h3 : demoZ.length = 3 := rfl
  have hh' := hugeGe (x := 2 ^ 30) hh (k := 30) (by norm_num) le_rfl
  have ht' := tinyLe (k := 1) ht (by norm_num) A.tiny_nonneg
  refine C207_objective Machine.ieee A (by norm_num) (by norm_num at ht'; linarith) (Z := 2) (L := 20) (by norm_num) ieee_log5 0 (-10) (-20)
    ⟨by rw [abs_neg, abs_of_pos (by norm_num)]; norm_num, by rw [abs_neg, abs_of_pos (by norm_num)]⟩ (by norm_num) demoZ _ rfl ?_ ?_ ?_ ?_
  · rw [h3]; norm_num
  · rw [h3]; norm_num at hh' ⊢; linarith
  · intro p hp
    simp only [demoZ, List.mem_cons, List.not_mem_nil, or_false] at hp
    rcases hp with rfl | rfl | rfl <;> norm_num [abs_of_pos, abs_of_neg]
  · intro r hr
    simp only [List.mem_cons, List.not_mem_nil, or_false] at hr
    rcases hr with rfl | rfl | rfl <;> simp

example : ∃ z : List (ℝ × ℝ), z.length = 2 ∧ List.zip
    (Model.Rounded.stdResid Machine.ieee [.fin 1, .fin (-2)] [.fin 1, .fin 4])
    (Model.Rounded.stdResid Machine.ieee [.fin 3, .fin 1] [.fin 2, .fin 2]) = z.map (fun p => (.fin p.1, .fin p.2)) := by
  obtain ⟨z, h1, h2, -⟩ := C207_model Machine.ieee rfl ieee_log5 [((1, 1), (3, 2)), ((-2, 4), (1, 2))] (by simp) (by simp) (by
    intro e he
    simp only [List.mem_cons, List.not_mem_nil, or_false] at he
    rcases he with rfl | rfl <;> norm_num [abs_of_pos, abs_of_neg])
  exact ⟨z, h2, h1⟩

end
end Frds.Props

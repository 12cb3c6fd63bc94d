import Verif.Basic.Machine

/-! Accuracy of rounded arithmetic: the size of a rounding error, and relative errors of expressions and sums. -/
namespace Frds
noncomputable section
open Classical

/-- accuracy of a rounding: results up to `huge` do not overflow; the error is at most `u` times the result (times `tiny`
for results below `tiny`); sums of two numbers of the format do not suffer from underflow.
binary64: `u = 2 ^ -53`, `tiny = 2 ^ -1022`, `huge = 2 ^ 1023` -/
structure Accurate (R : Rounding) (u tiny huge : ℝ) : Prop where
  u_nonneg : 0 ≤ u
  tiny_nonneg : 0 ≤ tiny
  fin : ∀ r, |r| ≤ huge → ∃ s, R.rd r = .fin s
  err : ∀ r s, R.rd r = .fin s → |s - r| ≤ u * max |r| tiny
  err_add : ∀ a b s, R.rd a = .fin a → R.rd b = .fin b → R.rd (a + b) = .fin s → |s - (a + b)| ≤ u * |a + b|

theorem Accurate.exact (huge : ℝ) : Accurate Rounding.exact 0 0 huge where
  u_nonneg := le_rfl
  tiny_nonneg := le_rfl
  fin r _ := ⟨r, rfl⟩
  err r s h := by
    have : r = s := by simpa [Rounding.exact] using h
    simp [this]
  err_add a b s _ _ h := by
    have : a + b = s := by simpa [Rounding.exact] using h
    simp [this]

namespace Format
variable {F : Format}

theorem val_err {r : ℝ} (hr : 0 ≤ r) : |F.val r - r| ≤ 2 ^ (-(F.p : ℤ)) * max r (2 ^ F.emin) := by
  rcases hr.eq_or_lt with rfl | hr
  · rw [val_zero]; simp
  have hu := ulp_pos (F := F) r
  have h1 := nearestEven_err (r / F.ulp r)
  have h2 : |F.val r - r| ≤ F.ulp r / 2 := by
    have e : F.val r - r = -((r / F.ulp r - nearestEven (r / F.ulp r)) * F.ulp r) := by
      unfold val; field_simp; ring
    rw [e, abs_neg, abs_mul, abs_of_pos hu]
    nlinarith
  refine h2.trans ?_
  have h3 : F.ulp r / 2 = 2 ^ (-(F.p : ℤ)) * 2 ^ F.expo r := by
    unfold ulp
    rw [← zpow_add₀ (by norm_num), show -(F.p : ℤ) + F.expo r = F.expo r - (F.p - 1) - 1 by ring, zpow_sub_one₀ (by norm_num)]
    rfl
  rw [h3]
  apply mul_le_mul_of_nonneg_left _ (by positivity)
  unfold expo
  rcases le_total (Int.log 2 r) F.emin with h | h
  · rw [max_eq_right h]; exact le_max_right _ _
  · rw [max_eq_left h]; exact (pow_log_le hr).trans (le_max_left _ _)

theorem rd_err {r s : ℝ} (h : F.rd r = .fin s) : |s - r| ≤ 2 ^ (-(F.p : ℤ)) * max |r| (2 ^ F.emin) := by
  rcases le_or_gt 0 r with hr | hr
  · rw [← rd_fin_val hr h, abs_of_nonneg hr]
    exact val_err hr
  · have h' : F.rd (-r) = .fin (-s) := by rw [rd_neg, h]; simp
    have h1 := val_err (F := F) (r := -r) (by linarith)
    rw [rd_fin_val (by linarith) h', ← abs_neg, show -(-s - -r) = s - r by ring, ← abs_of_neg hr] at h1
    exact h1

/-- numbers of the format are integer multiples of the smallest positive one -/
theorem rep_int {a : ℝ} (h : F.rd a = .fin a) : ∃ K : ℤ, a = K * 2 ^ F.e0 := by
  rcases le_or_gt 0 a with ha | ha
  · obtain ⟨K, hK⟩ := rep_mul ha h
    exact ⟨K, by rw [hK]; simp⟩
  · have h' : F.rd (-a) = .fin (-a) := by rw [rd_neg, h]; simp
    obtain ⟨K, hK⟩ := rep_mul (by linarith) h'
    exact ⟨-K, by push_cast; linarith⟩

theorem rd_exact_small {K : ℤ} {s : ℝ} (hK : K.natAbs ≤ 2 ^ F.p) (h : F.rd (K * 2 ^ F.e0) = .fin s) : s = K * 2 ^ F.e0 := by
  have key : ∀ (m : ℕ) (s : ℝ), m ≤ 2 ^ F.p → F.rd (m * 2 ^ F.e0) = .fin s → s = m * 2 ^ F.e0 := by
    intro m s hm hs
    rw [← rd_fin_val (by positivity) hs, val_exact m F.e0 hm (by unfold e0; omega)]
  rcases Int.natAbs_eq K with e | e
  · rw [e] at h ⊢
    exact key _ _ hK (by simpa using h)
  · rw [e] at h ⊢
    have h' : F.rd ((K.natAbs : ℝ) * 2 ^ F.e0) = .fin (-s) := by
      have := rd_neg (F := F) (((-(K.natAbs : ℤ) : ℤ) : ℝ) * 2 ^ F.e0)
      rw [h] at this
      simpa using this
    have := key _ _ hK h'
    rw [Int.cast_neg, Int.cast_natCast]
    linarith

theorem rd_err_add {a b s : ℝ} (ha : F.rd a = .fin a) (hb : F.rd b = .fin b) (h : F.rd (a + b) = .fin s) :
    |s - (a + b)| ≤ 2 ^ (-(F.p : ℤ)) * |a + b| := by
  rcases le_or_gt (2 ^ F.emin) |a + b| with hbig | hsmall
  · have := rd_err h
    rwa [max_eq_left hbig] at this
  · obtain ⟨A, hA⟩ := rep_int ha
    obtain ⟨B, hB⟩ := rep_int hb
    have e : a + b = ((A + B : ℤ) : ℝ) * 2 ^ F.e0 := by rw [hA, hB]; push_cast; ring
    have hK : (A + B).natAbs ≤ 2 ^ F.p := by
      rw [e, abs_mul, abs_of_pos (show (0 : ℝ) < 2 ^ F.e0 by positivity)] at hsmall
      have h1 : |((A + B : ℤ) : ℝ)| < 2 ^ F.p := by
        by_contra hc
        push Not at hc
        have h2 : (2 : ℝ) ^ F.emin ≤ 2 ^ F.p * 2 ^ F.e0 := by
          rw [← zpow_natCast, ← zpow_add₀ (by norm_num)]
          apply zpow_le_zpow_right₀ (by norm_num)
          unfold e0; omega
        have h3 : (2 : ℝ) ^ F.p * 2 ^ F.e0 ≤ |((A + B : ℤ) : ℝ)| * 2 ^ F.e0 :=
          mul_le_mul_of_nonneg_right hc (by positivity)
        linarith
      have h4 : (((A + B).natAbs : ℕ) : ℝ) = |((A + B : ℤ) : ℝ)| := by
        rw [Nat.cast_natAbs]; push_cast; rfl
      rw [← h4] at h1
      exact_mod_cast h1.le
    rw [e] at h
    rw [e, rd_exact_small hK h, sub_self, abs_zero]
    positivity

theorem rd_fin {r : ℝ} (h : |r| ≤ 2 ^ F.emax) : ∃ s, F.rd r = .fin s := by
  have hx : F.rd (2 ^ F.emax) = .fin (2 ^ F.emax) := by
    rw [rd_of_nonneg (by positivity)]
    unfold posRd
    have := val_exact (F := F) 1 F.emax Nat.one_le_two_pow (by have := F.hp; have := F.hmin; have := F.hmax; omega)
    rw [Nat.cast_one, one_mul] at this
    rw [this, if_neg]
    rw [not_le]
    exact zpow_lt_zpow_right₀ (by norm_num) (by omega)
  obtain ⟨h1, h2⟩ := abs_le.mp h
  have h3 := rd_mono (F := F) h2
  have h4 := rd_mono (F := F) h1
  rw [rd_neg, hx] at h4
  rw [hx] at h3
  cases e : F.rd r with
  | fin s => exact ⟨s, rfl⟩
  | nan => rw [e] at h3; exact False.elim h3
  | pinf => rw [e] at h3; exact False.elim h3
  | ninf => rw [e] at h4; exact False.elim h4

/-- accuracy of binary formats -/
theorem accurate (F : Format) : Accurate F.rounding (2 ^ (-(F.p : ℤ))) (2 ^ F.emin) (2 ^ F.emax) where
  u_nonneg := by positivity
  tiny_nonneg := by positivity
  fin _ := rd_fin
  err _ _ := rd_err
  err_add _ _ _ := rd_err_add

end Format

/-! ### relative errors -/

/-- `y` agrees with `x` up to `k` relative errors of size `u`, each of them possibly in the denominator; `y` and `x` are
not negative -/
def Close (u : ℝ) (k : ℕ) (x y : ℝ) : Prop := 0 ≤ x ∧ x * (1 - u) ^ k ≤ y ∧ y * (1 - u) ^ k ≤ x

namespace Close
variable {u : ℝ} {k l : ℕ} {x y x' y' : ℝ}

theorem refl (hx : 0 ≤ x) : Close u 0 x x := ⟨hx, by simp, by simp⟩

theorem nonneg (hu1 : u ≤ 1) (h : Close u k x y) : 0 ≤ y :=
  le_trans (mul_nonneg h.1 (pow_nonneg (by linarith) k)) h.2.1

theorem mono (hu : 0 ≤ u) (hu1 : u < 1) (h : Close u k x y) (hkl : k ≤ l) : Close u l x y := by
  have hp : (1 - u) ^ l ≤ (1 - u) ^ k := pow_le_pow_of_le_one (by linarith) (by linarith) hkl
  have hy := h.nonneg hu1.le
  exact ⟨h.1, (mul_le_mul_of_nonneg_left hp h.1).trans h.2.1, (mul_le_mul_of_nonneg_left hp hy).trans h.2.2⟩

theorem trans (hu1 : u < 1) {z : ℝ} (h : Close u k x y) (h' : Close u l y z) : Close u (k + l) x z := by
  have hl : 0 ≤ (1 - u) ^ l := pow_nonneg (by linarith) l
  have hk : 0 ≤ (1 - u) ^ k := pow_nonneg (by linarith) k
  refine ⟨h.1, ?_, ?_⟩
  · rw [pow_add, ← mul_assoc]
    exact (mul_le_mul_of_nonneg_right h.2.1 hl).trans h'.2.1
  · rw [pow_add, mul_comm ((1 - u) ^ k), ← mul_assoc]
    exact (mul_le_mul_of_nonneg_right h'.2.2 hk).trans h.2.2

theorem mul (hu1 : u < 1) (h : Close u k x y) (h' : Close u l x' y') : Close u (k + l) (x * x') (y * y') := by
  have hl : 0 ≤ (1 - u) ^ l := pow_nonneg (by linarith) l
  have hk : 0 ≤ (1 - u) ^ k := pow_nonneg (by linarith) k
  have hy := h.nonneg hu1.le
  have hy' := h'.nonneg hu1.le
  refine ⟨mul_nonneg h.1 h'.1, ?_, ?_⟩
  · calc x * x' * (1 - u) ^ (k + l) = (x * (1 - u) ^ k) * (x' * (1 - u) ^ l) := by rw [pow_add]; ring
      _ ≤ y * y' := mul_le_mul h.2.1 h'.2.1 (mul_nonneg h'.1 hl) hy
  · calc y * y' * (1 - u) ^ (k + l) = (y * (1 - u) ^ k) * (y' * (1 - u) ^ l) := by rw [pow_add]; ring
      _ ≤ x * x' := mul_le_mul h.2.2 h'.2.2 (mul_nonneg hy' hl) h.1

theorem inv (hu1 : u < 1) (h : Close u k x y) : Close u k x⁻¹ y⁻¹ := by
  have hk : 0 < (1 - u) ^ k := pow_pos (by linarith) k
  have hy := h.nonneg hu1.le
  refine ⟨inv_nonneg.mpr h.1, ?_, ?_⟩
  · rcases hy.eq_or_lt with hy0 | hy0
    · have : x = 0 := by
        have := h.2.1
        rw [← hy0] at this
        nlinarith [h.1]
      rw [← hy0, this]; simp
    · have hx : 0 < x := by have := h.2.2; nlinarith
      rw [inv_mul_le_iff₀ hx, ← div_eq_mul_inv, le_div_iff₀ hy0, mul_comm]
      exact h.2.2
  · rcases h.1.eq_or_lt with hx0 | hx0
    · have : y = 0 := by
        have := h.2.2
        rw [← hx0] at this
        nlinarith
      rw [← hx0, this]; simp
    · have hy0 : 0 < y := by have := h.2.1; nlinarith
      rw [inv_mul_le_iff₀ hy0, ← div_eq_mul_inv, le_div_iff₀ hx0, mul_comm]
      exact h.2.1

theorem div (hu1 : u < 1) (h : Close u k x y) (h' : Close u l x' y') : Close u (k + l) (x / x') (y / y') := by
  rw [div_eq_mul_inv, div_eq_mul_inv]
  exact h.mul hu1 (h'.inv hu1)

theorem add (h : Close u k x y) (h' : Close u k x' y') : Close u k (x + x') (y + y') :=
  ⟨add_nonneg h.1 h'.1, by rw [add_mul]; exact add_le_add h.2.1 h'.2.1, by rw [add_mul]; exact add_le_add h.2.2 h'.2.2⟩

theorem sqrt (hu1 : u < 1) (h : Close u (2 * k) x y) : Close u k (Real.sqrt x) (Real.sqrt y) := by
  have hk : 0 ≤ (1 - u) ^ k := pow_nonneg (by linarith) k
  have hy := h.nonneg hu1.le
  have e : (1 - u) ^ k = Real.sqrt ((1 - u) ^ (2 * k)) := by
    rw [mul_comm, pow_mul, Real.sqrt_sq hk]
  refine ⟨Real.sqrt_nonneg x, ?_, ?_⟩
  · rw [e, ← Real.sqrt_mul h.1]
    exact Real.sqrt_le_sqrt h.2.1
  · rw [e, ← Real.sqrt_mul hy]
    exact Real.sqrt_le_sqrt h.2.2

/-- one rounding -/
theorem of_err (hu : 0 ≤ u) (hu1 : u < 1) (hx : 0 ≤ x) (h : |y - x| ≤ u * x) : Close u 1 x y := by
  obtain ⟨h1, h2⟩ := abs_le.mp h
  refine ⟨hx, by rw [pow_one]; linarith, ?_⟩
  rw [pow_one]
  nlinarith [mul_nonneg hu hx, mul_nonneg (mul_nonneg hu hu) hx]

/-- Higham's constant -/
theorem error (hu : 0 ≤ u) (hk : (k : ℝ) * u < 1) (hu1 : u < 1) (h : Close u k x y) :
    |y - x| ≤ k * u / (1 - k * u) * x := by
  have hb : 1 - (k : ℝ) * u ≤ (1 - u) ^ k := by
    have := one_add_mul_le_pow (a := -u) (by linarith) k
    simpa [sub_eq_add_neg] using this
  have hx := h.1
  have hy := h.nonneg hu1.le
  have hd : 0 < 1 - (k : ℝ) * u := by linarith
  have hku : 0 ≤ (k : ℝ) * u := by positivity
  rw [abs_le, div_mul_eq_mul_div]
  constructor
  · have h1 : x * (1 - k * u) ≤ y := (mul_le_mul_of_nonneg_left hb hx).trans h.2.1
    have h2 : k * u * x ≤ k * u * x / (1 - k * u) := by
      rw [le_div_iff₀ hd]
      have : 0 ≤ k * u * x := by positivity
      nlinarith
    linarith
  · have h1 : y * (1 - k * u) ≤ x := (mul_le_mul_of_nonneg_left hb hy).trans h.2.2
    rw [le_div_iff₀ hd]
    linarith

end Close

end
end Frds

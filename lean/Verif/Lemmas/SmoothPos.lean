import Verif.Lemmas.CohortVal

/-! Bounds on the smoother: the linear extrapolation at the edges leaves the range of the data by at most half its
width. -/
set_option linter.unusedSimpArgs false
namespace Frds
noncomputable section
open Frds.Spec Frds.Model Classical

theorem windowMean_bounds {x : ℕ → ℝ} {a n t : ℕ} {lo hi : ℝ} (ha : 0 < a) (h : ∀ t < n, lo ≤ x t ∧ x t ≤ hi)
    (h1 : a ≤ t) (h2 : t + a < n) : lo ≤ windowMean x (2 * a) t ∧ windowMean x (2 * a) t ≤ hi := by
  unfold windowMean
  rw [Nat.mul_div_cancel_left a (by norm_num)]
  have hw : (0 : ℝ) < (2 * a : ℕ) := by exact_mod_cast (by omega : 0 < 2 * a)
  have hc : (Finset.Ioc (t - a) (t + a)).card = 2 * a := by rw [Nat.card_Ioc]; omega
  have hm : ∀ i ∈ Finset.Ioc (t - a) (t + a), i < n := fun i hi => by have := (Finset.mem_Ioc.1 hi).2; omega
  rw [le_div_iff₀ hw, div_le_iff₀ hw]
  constructor
  · have := Finset.card_nsmul_le_sum (Finset.Ioc (t - a) (t + a)) x lo fun i hi => (h i (hm i hi)).1
    rw [hc, nsmul_eq_mul] at this; linarith
  · have := Finset.sum_le_card_nsmul (Finset.Ioc (t - a) (t + a)) x hi fun i hi => (h i (hm i hi)).2
    rw [hc, nsmul_eq_mul] at this; linarith

theorem windowMean_step {x : ℕ → ℝ} {a n t : ℕ} {lo hi : ℝ} (ha : 0 < a) (h : ∀ t < n, lo ≤ x t ∧ x t ≤ hi)
    (h1 : a ≤ t) (h2 : t + 1 + a < n) :
    (a : ℝ) * |windowMean x (2 * a) (t + 1) - windowMean x (2 * a) t| ≤ (hi - lo) / 2 := by
  unfold windowMean
  rw [Nat.mul_div_cancel_left a (by norm_num)]
  have e1 : ∑ i ∈ Finset.Ioc (t - a) (t + 1 + a), x i = (∑ i ∈ Finset.Ioc (t - a) (t + a), x i) + x (t + 1 + a) := by
    rw [show t + 1 + a = t + a + 1 by omega, Finset.sum_Ioc_succ_top (by omega)]
  have e2 : ∑ i ∈ Finset.Ioc (t - a) (t + 1 + a), x i = x (t - a + 1) + ∑ i ∈ Finset.Ioc (t + 1 - a) (t + 1 + a), x i := by
    rw [← Finset.sum_Ioc_consecutive x (show t - a ≤ t - a + 1 by omega) (show t - a + 1 ≤ t + 1 + a by omega),
      show t + 1 - a = t - a + 1 by omega]
    simp
  have ha' : (0 : ℝ) < a := by exact_mod_cast ha
  rw [← sub_div, show (∑ i ∈ Finset.Ioc (t + 1 - a) (t + 1 + a), x i) - ∑ i ∈ Finset.Ioc (t - a) (t + a), x i
    = x (t + 1 + a) - x (t - a + 1) by linarith, abs_div, Nat.cast_mul, Nat.cast_ofNat, abs_of_pos (by positivity : (0:ℝ) < 2 * a)]
  rw [show (a : ℝ) * (|x (t + 1 + a) - x (t - a + 1)| / (2 * a)) = |x (t + 1 + a) - x (t - a + 1)| / 2 by field_simp]
  have b1 := h (t + 1 + a) h2
  have b2 := h (t - a + 1) (by omega)
  have : |x (t + 1 + a) - x (t - a + 1)| ≤ hi - lo := abs_le.2 ⟨by linarith, by linarith⟩
  linarith

theorem smoothed_bound {x : ℕ → ℝ} {a n t : ℕ} {lo hi : ℝ} (ha : 0 < a) (h : ∀ t < n, lo ≤ x t ∧ x t ≤ hi)
    (hn : 2 * a + 2 ≤ n) (ht : t < n) : lo - (hi - lo) / 2 ≤ smoothed x n (2 * a) t := by
  have hw : 0 ≤ hi - lo := by have := h 0 (by omega); linarith
  unfold smoothed
  simp only [Nat.mul_div_cancel_left a (show 0 < 2 by norm_num)]
  have ha' : (0 : ℝ) < a := by exact_mod_cast ha
  split_ifs with c1 c2
  · have b := (windowMean_bounds ha h le_rfl (by omega : a + a < n)).1
    have s := windowMean_step ha h le_rfl (by omega : a + 1 + a < n)
    have hta : ((a : ℝ) - t) ≤ a := by have := Nat.cast_nonneg (α := ℝ) t; linarith
    have hta0 : (0 : ℝ) ≤ (a : ℝ) - t := by have : (t : ℝ) ≤ a := by exact_mod_cast c1.le
                                            linarith
    set d := windowMean x (2 * a) (a + 1) - windowMean x (2 * a) a
    have : ((a : ℝ) - t) * d ≤ a * |d| :=
      (mul_le_mul_of_nonneg_left (le_abs_self d) hta0).trans (mul_le_mul_of_nonneg_right hta (abs_nonneg d))
    linarith
  · have := (windowMean_bounds ha h (by omega : a ≤ t) (by omega : t + a < n)).1
    linarith
  · obtain ⟨c, hc⟩ : ∃ c, n - a - 1 = c + 1 := ⟨n - a - 2, by omega⟩
    have b := (windowMean_bounds ha h (by omega : a ≤ n - a - 1) (by omega : n - a - 1 + a < n)).1
    have s := windowMean_step ha h (by omega : a ≤ c) (by omega : c + 1 + a < n)
    rw [hc] at b ⊢
    rw [Nat.add_sub_cancel]
    have h1 : ((t : ℝ) - ((c + 1 : ℕ) : ℝ)) ≤ a := by
      have : (t : ℝ) ≤ ((c + 1 : ℕ) : ℝ) + a := by exact_mod_cast (by omega : t ≤ c + 1 + a)
      linarith
    have h0 : (0 : ℝ) ≤ (t : ℝ) - ((c + 1 : ℕ) : ℝ) := by
      have : ((c + 1 : ℕ) : ℝ) ≤ t := by exact_mod_cast (by omega : c + 1 ≤ t)
      linarith
    set d := windowMean x (2 * a) (c + 1) - windowMean x (2 * a) c
    have : -(((t : ℝ) - ((c + 1 : ℕ) : ℝ)) * d) ≤ a * |d| := by
      rw [← mul_neg]
      exact (mul_le_mul_of_nonneg_left (neg_le_abs d) h0).trans (mul_le_mul_of_nonneg_right h1 (abs_nonneg d))
    linarith

/-- the conditional expectation leaves the range of the payoffs by at most half its width -/
theorem condMean_bound {m n : ℕ} (h40 : 40 ≤ m * n) (hev : m * n % 2 = 0) (hev2 : m * n / 20 % 2 = 0)
    (key : ℕ → ℕ → ℝ) {pay : ℕ → ℕ → ℝ} {lo hi : ℝ} (h : ∀ i < m, ∀ s < n, lo ≤ pay i s ∧ pay i s ≤ hi)
    {i s : ℕ} (hi' : i < m) (hs : s < n) : lo - (hi - lo) / 2 ≤ condMean m n key pay i s := by
  have hq : i + m * s < m * n := by
    have : m * s + m ≤ m * n := by rw [← Nat.mul_succ]; exact Nat.mul_le_mul_left _ hs
    omega
  rw [← condMean_eq (by omega) hev2 hev key pay hq]
  obtain ⟨a, ha⟩ : ∃ a, m * n / 20 = 2 * a := ⟨m * n / 20 / 2, by omega⟩
  rw [ha]
  refine smoothed_bound (by omega) (fun t ht => ?_) (by omega) ?_
  · set k := (flatF m n fun i s => XR.fin (key i s)).map Model.round9
    have hkl : k.length = m * n := by simp [k, flatF]
    have hta : t < (argsortStable k).length := by rw [argsort_length, hkl]; exact ht
    have hlt : (argsortStable k)[t] < m * n := by
      have := argsort_lt k (List.getElem_mem hta); omega
    rw [List.getD_eq_getElem (argsortStable _) _ hta, List.getD_eq_getElem _ _ (by simpa using hlt)]
    simp only [List.getElem_map, List.getElem_range]
    have hm : 0 < m := by omega
    exact h _ (Nat.mod_lt _ hm) _ (Nat.div_lt_of_lt_mul hlt)
  · set k := (flatF m n fun i s => XR.fin (key i s)).map Model.round9
    have hkl : k.length = m * n := by simp [k, flatF]
    have := rankOf_lt k (q := i + m * s) (by omega)
    omega

end
end Frds

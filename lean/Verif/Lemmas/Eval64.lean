import Verif.Basic.Float

/-! Evaluation of binary rounding on concrete numbers. -/
namespace Frds
noncomputable section
open Classical

/-- rounding to the nearest integer, ties to even, by its characterisation -/
theorem nearestEven_eq {x : ℝ} {n : ℤ} (h : |x - n| < 1 / 2 ∨ (|x - n| = 1 / 2 ∧ Even n)) : nearestEven x = n := by
  have hl := Int.floor_le x
  have hu := Int.lt_floor_add_one x
  have hle : |x - n| ≤ 1 / 2 := by rcases h with h | h
                                   · exact h.le
                                   · exact h.1.le
  obtain ⟨h1, h2⟩ := abs_le.mp hle
  have hf : ⌊x⌋ = n ∨ ⌊x⌋ = n - 1 := by
    have a : (⌊x⌋ : ℝ) < n + 1 := by linarith
    have b : (n : ℝ) < ⌊x⌋ + 2 := by linarith
    have a' : ⌊x⌋ < n + 1 := by exact_mod_cast a
    have b' : n < ⌊x⌋ + 2 := by exact_mod_cast b
    omega
  unfold nearestEven
  rcases hf with hf | hf
  · rw [hf] at hl hu ⊢
    rcases h with h | ⟨h, he⟩
    · rw [if_pos (lt_of_le_of_lt (le_abs_self _) h)]
    · rw [abs_of_nonneg (by linarith)] at h
      rw [if_neg (by linarith), if_neg (by linarith), if_pos he]
  · rw [hf] at hl hu ⊢
    push_cast at hl hu ⊢
    rcases h with h | ⟨h, he⟩
    · obtain ⟨h3, h4⟩ := abs_lt.mp h
      rw [if_neg (by linarith), if_pos (by linarith)]
      ring
    · rw [abs_of_neg (by linarith)] at h
      rw [if_neg (by linarith), if_neg (by linarith), if_neg]
      · ring
      · rw [Int.even_sub_one]
        exact not_not.mpr he

/-- a positive number in the binade of `m * 2 ^ q` rounds to it if it is nearer than half a unit, or half a unit away and
`m` is even -/
theorem rd64_eq {x : ℝ} (m : ℤ) (q : ℤ) (hq : -1022 ≤ q + 52) (hq2 : q + 53 ≤ 1023) (h1 : 2 ^ 52 * (2 : ℝ) ^ q ≤ x)
    (h2 : x < 2 ^ 53 * (2 : ℝ) ^ q) (h : |x / 2 ^ q - m| < 1 / 2 ∨ (|x / 2 ^ q - m| = 1 / 2 ∧ Even m)) :
    binary64.rd x = .fin (m * 2 ^ q) := by
  have hp : (0 : ℝ) < 2 ^ q := by positivity
  have hx : 0 < x := lt_of_lt_of_le (by positivity) h1
  have hlog : Int.log 2 x = q + 52 := by
    apply le_antisymm
    · have : x < (2 : ℝ) ^ (q + 53) := by
        rw [zpow_add₀ (by norm_num), mul_comm]
        exact_mod_cast h2
      have := (Int.lt_zpow_iff_log_lt (b := 2) (by norm_num) hx (x := q + 53)).mp (by exact_mod_cast this)
      omega
    · have : (2 : ℝ) ^ (q + 52) ≤ x := by
        rw [zpow_add₀ (by norm_num), mul_comm]
        exact_mod_cast h1
      exact (Int.zpow_le_iff_le_log (b := 2) (by norm_num) hx).mp (by exact_mod_cast this)
  have hulp : binary64.ulp x = 2 ^ q := by
    unfold Format.ulp Format.expo
    rw [hlog]
    congr 1
    simp only [binary64]
    omega
  have hval : binary64.val x = m * 2 ^ q := by
    unfold Format.val
    rw [hulp, nearestEven_eq h]
  have hm : (m : ℝ) ≤ 2 ^ 53 + 1 := by
    have hle : |x / 2 ^ q - m| ≤ 1 / 2 := by rcases h with h | h
                                             · exact h.le
                                             · exact h.1.le
    have : x / 2 ^ q < 2 ^ 53 := by rw [div_lt_iff₀ hp]; exact h2
    have := (abs_le.mp hle).1
    linarith
  rw [Format.rd_of_nonneg hx.le]
  unfold Format.posRd
  rw [hval, if_neg]
  rw [not_le]
  have e : (2 : ℝ) ^ (binary64.emax + 1) = 2 ^ (1024 : ℤ) := by simp only [binary64]; norm_num
  rw [e]
  calc (m : ℝ) * 2 ^ q ≤ (2 ^ 53 + 1) * 2 ^ q := mul_le_mul_of_nonneg_right hm hp.le
    _ < 2 ^ 54 * 2 ^ q := mul_lt_mul_of_pos_right (by norm_num) hp
    _ = 2 ^ (q + 54) := by rw [zpow_add₀ (by norm_num), mul_comm]; norm_cast
    _ ≤ 2 ^ (1024 : ℤ) := zpow_le_zpow_right₀ (by norm_num) (by omega)

end
end Frds

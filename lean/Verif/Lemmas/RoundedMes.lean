import Verif.Model.RoundedTail
import Verif.Lemmas.RoundError
import Verif.Lemmas.Eval64
import Verif.Lemmas.Mes

/-! Lemmas for the marginal expected shortfall in rounded arithmetic. -/
set_option linter.unusedSimpArgs false
namespace Frds.RoundedMes
noncomputable section
open Frds Frds.Model Classical

/-- rounding stays within bounds that are numbers of the format -/
theorem rd_between {R : Rounding} {lo hi x : ℝ} (hlo : R.rd lo = .fin lo) (hhi : R.rd hi = .fin hi) (h1 : lo ≤ x) (h2 : x ≤ hi) :
    ∃ y, R.rd x = .fin y ∧ lo ≤ y ∧ y ≤ hi ∧ R.rd y = .fin y := by
  have a := R.mono lo x h1
  have b := R.mono x hi h2
  rw [hlo] at a
  rw [hhi] at b
  rcases h : R.rd x with _ | _ | _ | y
  · rw [h] at a; exact absurd a (XR.not_le_nan _)
  · rw [h] at a; exact False.elim a
  · rw [h] at b; exact False.elim b
  · rw [h] at a b
    exact ⟨y, rfl, XR.fin_le.mp a, XR.fin_le.mp b, R.idem x y h⟩

theorem half64 : binary64.rounding.rd (1 / 2) = .fin (1 / 2) := by
  have h := rd64_eq (x := 1 / 2) (2 ^ 52) (-53) (by norm_num) (by norm_num) (by norm_num) (by norm_num) (by left; norm_num)
  norm_num at h ⊢
  exact h

/-- the rounded product of the rounded difference with a weight up to one half does not exceed the difference -/
theorem part_le {a b w : ℝ} (ha : binary64.rounding.rd a = .fin a) (hb : binary64.rounding.rd b = .fin b) (hab : a ≤ b)
    (h0 : 0 ≤ w) (h1 : w ≤ 1 / 2) (hbig : b - a ≤ 2 ^ (1001 : ℤ)) :
    ∃ p, binary64.rounding.mul (binary64.rounding.sub (.fin b) (.fin a)) (.fin w) = .fin p ∧ 0 ≤ p ∧ p ≤ b - a ∧
      binary64.rounding.rd p = .fin p ∧ (w = 0 → p = 0) := by
  have A := Format.accurate binary64
  have hn : binary64.rounding.rd (-a) = .fin (-a) := by rw [Rounding.neg, ha]; simp
  have hle : (2 : ℝ) ^ (1001 : ℤ) ≤ 2 ^ (binary64.emax) := zpow_le_zpow_right₀ (by norm_num) (by simp [binary64])
  obtain ⟨d, hd⟩ := A.fin (b - a) (by rw [abs_of_nonneg (by linarith)]; exact hbig.trans hle)
  have herr := A.err_add b (-a) d hb hn (by rw [← sub_eq_add_neg]; exact hd)
  rw [← sub_eq_add_neg, abs_of_nonneg (show 0 ≤ b - a by linarith)] at herr
  have hdr := binary64.rounding.idem _ _ hd
  have hu : (2 : ℝ) ^ (-(binary64.p : ℤ)) = 1 / 2 ^ 53 := by norm_num [binary64]
  rw [hu] at herr A
  obtain ⟨e1, e2⟩ := abs_le.mp herr
  have hd0 : 0 ≤ d := by
    have : (0 : ℝ) ≤ b - a := by linarith
    nlinarith
  obtain ⟨p, hp, hp0, hpd, hpr⟩ := rd_between (R := binary64.rounding) (lo := 0) (hi := d) (x := d * w) Rounding.rd_zero hdr
    (by positivity) (by nlinarith)
  refine ⟨p, ?_, hp0, ?_, hpr, ?_⟩
  · unfold Rounding.mul Rounding.sub
    rw [XR.fin_sub, Rounding.round_fin, hd, XR.fin_mul, Rounding.round_fin, hp]
  · rcases le_or_gt d (b - a) with h | h
    · exact hpd.trans h
    · have htiny : (2 : ℝ) ^ binary64.emin ≤ b - a := by
        by_contra hlt
        rw [not_le] at hlt
        obtain ⟨K1, hK1⟩ := Format.rep_int (F := binary64) hdr
        obtain ⟨K2, hK2⟩ := Format.rep_int (F := binary64) ha
        obtain ⟨K3, hK3⟩ := Format.rep_int (F := binary64) hb
        have he0 : (0 : ℝ) < 2 ^ binary64.e0 := by positivity
        have hcmp : (1 : ℝ) / 2 ^ 53 * 2 ^ binary64.emin < 2 ^ binary64.e0 := by
          have : (1 : ℝ) / 2 ^ 53 = 2 ^ (-53 : ℤ) := by norm_num
          rw [this, ← zpow_add₀ (by norm_num)]
          exact zpow_lt_zpow_right₀ (by norm_num) (by simp [binary64, Format.e0])
        have h1' : 0 < (K1 - (K3 - K2) : ℤ) := by
          have : (0 : ℝ) < ((K1 - (K3 - K2) : ℤ) : ℝ) * 2 ^ binary64.e0 := by
            push_cast
            rw [sub_mul, sub_mul, ← hK1, ← hK2, ← hK3]
            linarith
          have := (mul_pos_iff_of_pos_right he0).mp this
          exact_mod_cast this
        have h2' : (1 : ℝ) * 2 ^ binary64.e0 ≤ ((K1 - (K3 - K2) : ℤ) : ℝ) * 2 ^ binary64.e0 := by
          apply mul_le_mul_of_nonneg_right _ he0.le
          exact_mod_cast h1'
        push_cast at h2'
        rw [sub_mul, sub_mul, ← hK1, ← hK2, ← hK3] at h2'
        have h3' : (1 : ℝ) / 2 ^ 53 * (b - a) ≤ 1 / 2 ^ 53 * 2 ^ binary64.emin :=
          mul_le_mul_of_nonneg_left hlt.le (by positivity)
        linarith
      have hpe := A.err (d * w) p hp
      rw [abs_of_nonneg (show 0 ≤ d * w by positivity)] at hpe
      have hpe' := (abs_le.mp hpe).2
      have hdw : d * w ≤ d / 2 := by nlinarith
      have hm : max (d * w) (2 ^ binary64.emin) ≤ d := max_le (by linarith) (htiny.trans h.le)
      have hm' : (1 : ℝ) / 2 ^ 53 * max (d * w) (2 ^ binary64.emin) ≤ 1 / 2 ^ 53 * d := mul_le_mul_of_nonneg_left hm (by positivity)
      have hk : p ≤ (1 / 2 + 1 / 2 ^ 53) * d := by linarith
      have hk2 : d ≤ (1 + 1 / 2 ^ 53) * (b - a) := by linarith
      have hk3 : (1 / 2 + 1 / 2 ^ 53 : ℝ) * d ≤ (1 / 2 + 1 / 2 ^ 53) * ((1 + 1 / 2 ^ 53) * (b - a)) :=
        mul_le_mul_of_nonneg_left hk2 (by positivity)
      have hba : 0 ≤ b - a := by linarith
      have hk4 : (1 / 2 + 1 / 2 ^ 53 : ℝ) * ((1 + 1 / 2 ^ 53) * (b - a)) ≤ b - a := by
        rw [← mul_assoc]
        exact mul_le_of_le_one_left hba (by norm_num)
      linarith
  · intro hw
    rw [hw, mul_zero, Rounding.rd_zero] at hp
    simpa using hp.symm

/-- NumPy's interpolation between two numbers stays between them -/
theorem lerp_between (M : Machine) (hM : M.R = binary64.rounding) {a b t : ℝ} (ha : M.R.rd a = .fin a) (hb : M.R.rd b = .fin b)
    (hab : a ≤ b) (h0 : 0 ≤ t) (h1 : t ≤ 1) (hbig : b - a ≤ 2 ^ (1001 : ℤ)) :
    ∃ r, Rounded.lerp M (.fin a) (.fin b) (.fin t) = .fin r ∧ a ≤ r ∧ r ≤ b ∧ (t = 0 → r = a) := by
  rw [hM] at ha hb
  unfold Rounded.lerp
  rw [hM]
  by_cases ht : t < 1 / 2
  · rw [if_pos (XR.fin_lt.mpr ht)]
    obtain ⟨p, hp, p0, p1, pr, pz⟩ := part_le ha hb hab h0 ht.le hbig
    rw [hp]
    obtain ⟨y, hy, y1, y2, _⟩ := rd_between (R := binary64.rounding) (lo := a) (hi := b) (x := a + p) ha hb (by linarith)
      (by linarith)
    refine ⟨y, ?_, y1, y2, fun hz => ?_⟩
    · unfold Rounding.add
      rw [XR.fin_add, Rounding.round_fin, hy]
    · rw [pz hz, add_zero, ha] at hy
      simpa using hy.symm
  · rw [if_neg (by rw [XR.fin_lt]; exact ht)]
    rw [not_lt] at ht
    obtain ⟨w, hw, w0, w1, wr⟩ := rd_between (R := binary64.rounding) (lo := 0) (hi := 1 / 2) (x := 1 - t) Rounding.rd_zero half64
      (by linarith) (by linarith)
    obtain ⟨p, hp, p0, p1, pr, pz⟩ := part_le ha hb hab w0 w1 hbig
    have e : binary64.rounding.sub 1 (.fin t) = .fin w := by
      unfold Rounding.sub
      rw [XR.one_def, XR.fin_sub, Rounding.round_fin, hw]
    rw [e, hp]
    obtain ⟨y, hy, y1, y2, _⟩ := rd_between (R := binary64.rounding) (lo := a) (hi := b) (x := b - p) ha hb (by linarith)
      (by linarith)
    refine ⟨y, ?_, y1, y2, fun hz => ?_⟩
    · unfold Rounding.sub
      rw [XR.fin_sub, Rounding.round_fin, hy]
    · rw [hz] at ht; norm_num at ht

/-- the position of the quantile lies between zero and the last index -/
theorem position_range (M : Machine) (hM : M.R = binary64.rounding) {n : ℕ} (hn : 0 < n) (hn2 : n ≤ 2 ^ 53) {q : ℝ} (h0 : 0 ≤ q)
    (h1 : q ≤ 1) : ∃ v, Rounded.position M n (M.R.mul (.fin q) 100) = .fin v ∧ 0 ≤ v ∧ v ≤ (n : ℝ) - 1 := by
  have hnat : ∀ k : ℕ, k ≤ 2 ^ 53 → M.R.rd k = .fin k := fun k hk => M.R.nat k (by rw [hM]; exact hk)
  have e100 : M.R.rd 100 = .fin 100 := by simpa using hnat 100 (by norm_num)
  have e1 : M.R.rd 1 = .fin 1 := by simpa using hnat 1 (by norm_num)
  have en : M.R.rd ((n : ℝ) - 1) = .fin ((n : ℝ) - 1) := by
    have := hnat (n - 1) (by omega)
    rwa [Nat.cast_sub hn, Nat.cast_one] at this
  have hn1 : (0 : ℝ) ≤ (n : ℝ) - 1 := by
    have : (1 : ℝ) ≤ n := by exact_mod_cast hn
    linarith
  obtain ⟨x, hx, x0, x1, _⟩ := rd_between (R := M.R) (lo := 0) (hi := 100) (x := q * 100) Rounding.rd_zero e100 (by linarith)
    (by linarith)
  obtain ⟨y, hy, y0, y1, _⟩ := rd_between (R := M.R) (lo := 0) (hi := 1) (x := x / 100) Rounding.rd_zero e1 (by positivity)
    (by linarith)
  obtain ⟨v, hv, v0, v1, _⟩ := rd_between (R := M.R) (lo := 0) (hi := (n : ℝ) - 1) (x := ((n : ℝ) - 1) * y) Rounding.rd_zero en
    (by positivity) (by nlinarith)
  refine ⟨v, ?_, v0, v1⟩
  unfold Rounded.position Rounding.div Rounding.mul
  rw [Rounding.round_fin, en, XR.ofNat_def, XR.fin_mul, Rounding.round_fin, show (OfNat.ofNat 100 : ℝ) = 100 from rfl, hx,
    XR.fin_div _ (by norm_num), Rounding.round_fin, hy, XR.fin_mul, Rounding.round_fin, hv]

theorem sorted_getD {s : List ℝ} (hs : s.SortedLE) {i j : ℕ} (hij : i ≤ j) (hj : j < s.length) (d : ℝ) :
    s.getD i d ≤ s.getD j d := by
  have hm : Monotone s.get := List.sortedLE_iff_monotone_get.mp hs
  have := hm (show (⟨i, by omega⟩ : Fin s.length) ≤ ⟨j, hj⟩ from hij)
  rw [List.getD_eq_getElem?_getD, List.getD_eq_getElem?_getD, List.getElem?_eq_getElem (by omega), List.getElem?_eq_getElem hj]
  simpa using this

/-- fewer than `j + 1` elements of a sorted list lie strictly below a bound that is at most its element `j` -/
theorem count_lt {s : List ℝ} (hs : s.SortedLE) {j : ℕ} (hj : j < s.length) {x : ℝ} (hx : x ≤ s.getD j 0) :
    s.countP (fun y => decide (y < x)) ≤ j := by
  have e : s = s.take j ++ s.drop j := (List.take_append_drop j s).symm
  have h0 : (s.drop j).countP (fun y => decide (y < x)) = 0 := by
    rw [List.countP_eq_zero]
    intro y hy
    obtain ⟨k, hk, rfl⟩ := List.mem_iff_getElem.mp hy
    rw [List.getElem_drop]
    have := sorted_getD hs (show j ≤ j + k by omega) (by rw [List.length_drop] at hk; omega) 0
    rw [List.getD_eq_getElem?_getD (i := j + k), List.getElem?_eq_getElem (by rw [List.length_drop] at hk; omega)] at this
    simp only [Option.getD_some] at this
    rw [decide_eq_true_eq, not_lt]
    linarith
  rw [e, List.countP_append, h0, add_zero]
  exact List.countP_le_length.trans (by simp)

/-- in a sorted list of different numbers at least `j` lie strictly below a bound that is at least its element `j` -/
theorem le_count_lt {s : List ℝ} (hs : s.SortedLE) (hnd : s.Nodup) {j : ℕ} (hj : j < s.length) {x : ℝ} (hx : s.getD j 0 ≤ x) :
    j ≤ s.countP (fun y => decide (y < x)) := by
  have e : s = s.take j ++ s.drop j := (List.take_append_drop j s).symm
  have h0 : (s.take j).countP (fun y => decide (y < x)) = j := by
    rw [List.countP_eq_length.mpr, List.length_take]
    · omega
    intro y hy
    obtain ⟨k, hk, rfl⟩ := List.mem_iff_getElem.mp hy
    rw [List.getElem_take]
    rw [List.length_take] at hk
    have hm : Monotone s.get := List.sortedLE_iff_monotone_get.mp hs
    have hle := hm (show (⟨k, by omega⟩ : Fin s.length) ≤ ⟨j, hj⟩ from by simp; omega)
    have hne : s[k] ≠ s[j] := fun h => by
      have := (List.Nodup.getElem_inj_iff hnd).mp h
      omega
    rw [List.getD_eq_getElem?_getD, List.getElem?_eq_getElem hj] at hx
    simp only [Option.getD_some] at hx
    simp only [List.get_eq_getElem] at hle
    rw [decide_eq_true_eq]
    exact lt_of_lt_of_le (lt_of_le_of_ne hle hne) hx
  conv_rhs => rw [e]
  rw [List.countP_append, h0]
  omega

end
end Frds.RoundedMes

import Verif.Lemmas.RoundedMes
import Verif.Props.RoundedDip
import Verif.Props.Mes

/-! C196: the marginal expected shortfall in floating point. -/
set_option linter.unusedSimpArgs false
namespace Frds.Props
noncomputable section
open Frds Frds.Model Frds.Spec Frds.RoundedMes Classical

/-- the call averages over the days below the interpolated threshold -/
theorem RoundedMes.mes_thr (M : Machine) (l : List Day) (hne : l ≠ []) (s : List ℝ) (hs : s.SortedLE) (hp : s.Perm (l.map Day.market))
    (q : ℝ) (h0 : 0 ≤ q) (h1 : q ≤ 1) (v thr : ℝ) (hv : Model.Rounded.position M l.length (M.R.mul (.fin q) 100) = .fin v)
    (hi : ⌊v⌋₊ < s.length)
    (hthr : Model.Rounded.lerp M (.fin (s.getD ⌊v⌋₊ 0)) (.fin (s.getD (min (⌊v⌋₊ + 1) (l.length - 1)) 0))
      (M.R.sub (.fin v) (.fin (⌊v⌋₊ : ℝ))) = .fin thr) :
    Model.Rounded.mes M ⟨col l Day.firm, col l Day.market⟩ (.fin q)
      = .ok (Model.Rounded.mean M 0 (col (l.filter fun d => d.market < thr) Day.firm)) := by
  have hpos : 0 < l.length := List.length_pos_iff.mpr hne
  have hlen : s.length = l.length := by rw [hp.length_eq, List.length_map]
  have hjs : min (⌊v⌋₊ + 1) (l.length - 1) < s.length := by omega
  have hpc : Model.Rounded.percentile M (col l Day.market) (M.R.mul (.fin q) 100) = .ok (.fin thr) := by
    have hcol : col l Day.market = (l.map Day.market).map XR.fin := by rw [List.map_map]; rfl
    unfold Model.Rounded.percentile
    rw [hcol, if_neg (by simpa using hne), if_neg (by simp), sort_fin hs hp]
    simp only [List.length_map, hv]
    have hidx : Model.Rounded.index (.fin v) = ⌊v⌋₊ := Int.floor_toNat v
    rw [hidx, getD_map_fin hi 0, getD_map_fin hjs 0, hthr]
  unfold Model.Rounded.mes
  rw [if_pos ⟨XR.fin_le.mpr h0, XR.fin_le.mpr h1⟩]
  simp only [hpc, bind, Except.bind, pure, Except.pure]
  congr 2
  rw [List.zip, col, col, zipWith_maps, col, List.filter_map, List.map_map]
  rfl

/-- C196. In binary64, for market returns that are numbers of the format (up to 2^1000 in size): the computed position `v` of the
quantile among the sorted market returns `s` lies between 0 and `n - 1`, the computed threshold lies between the order statistics
around it, and the call averages the firm's returns over the days on which the market is strictly below the threshold. These are at
most `⌈v⌉` days, and include every day strictly below order statistic `⌊v⌋`. -/
theorem C196_days (M : Machine) (hM : M.R = binary64.rounding) (l : List Day) (hne : l ≠ []) (hn : l.length ≤ 2 ^ 53)
    (hm : ∀ d ∈ l, M.R.Rep (.fin d.market) ∧ |d.market| ≤ 2 ^ (1000 : ℤ)) (s : List ℝ) (hs : s.SortedLE)
    (hp : s.Perm (l.map Day.market)) (q : ℝ) (h0 : 0 ≤ q) (h1 : q ≤ 1) :
    ∃ v thr : ℝ, Model.Rounded.position M l.length (M.R.mul (.fin q) 100) = .fin v ∧ 0 ≤ v ∧ v ≤ (l.length : ℝ) - 1 ∧
      s.getD ⌊v⌋₊ 0 ≤ thr ∧ thr ≤ s.getD ⌈v⌉₊ 0 ∧
      Model.Rounded.mes M ⟨col l Day.firm, col l Day.market⟩ (.fin q)
        = .ok (Model.Rounded.mean M 0 (col (l.filter fun d => d.market < thr) Day.firm)) ∧
      (l.filter fun d => d.market < thr).length ≤ ⌈v⌉₊ ∧
      ∀ d ∈ l, d.market < s.getD ⌊v⌋₊ 0 → d ∈ l.filter fun d => d.market < thr := by
  have hpos : 0 < l.length := List.length_pos_iff.mpr hne
  have hlen : s.length = l.length := by rw [hp.length_eq, List.length_map]
  obtain ⟨v, hv, v0, v1⟩ := position_range M hM hpos hn h0 h1
  have hi : ⌊v⌋₊ < s.length := by rw [hlen, Nat.floor_lt v0]; linarith
  have hc : ⌈v⌉₊ < s.length := by
    have : ⌈v⌉₊ ≤ l.length - 1 := by rw [Nat.ceil_le, Nat.cast_sub hpos]; simpa using v1
    omega
  set j := min (⌊v⌋₊ + 1) (l.length - 1) with hj
  have hjs : j < s.length := by omega
  have hmem : ∀ k, k < s.length → M.R.rd (s.getD k 0) = .fin (s.getD k 0) ∧ |s.getD k 0| ≤ 2 ^ (1000 : ℤ) := by
    intro k hk
    have h : s.getD k 0 ∈ s := by
      rw [List.getD_eq_getElem?_getD, List.getElem?_eq_getElem hk]
      exact List.getElem_mem hk
    obtain ⟨d, hd, e⟩ := List.mem_map.mp (hp.subset h)
    rw [← e]
    exact hm d hd
  have hij : ⌊v⌋₊ ≤ j := by omega
  have hfl := Nat.floor_le v0
  have hfu := Nat.lt_floor_add_one v
  obtain ⟨t, ht, t0, t1, _⟩ := rd_between (R := M.R) (lo := 0) (hi := 1) (x := v - ⌊v⌋₊) Rounding.rd_zero Rounding.rep_one
    (by linarith) (by linarith)
  obtain ⟨thr, hthr, a1, a2, a3⟩ := lerp_between M hM (hmem _ hi).1 (hmem _ hjs).1 (sorted_getD hs hij hjs 0) t0 t1 (by
    have b1 := abs_le.mp (hmem _ hi).2
    have b2 := abs_le.mp (hmem _ hjs).2
    have e : (2 : ℝ) ^ (1001 : ℤ) = 2 * 2 ^ (1000 : ℤ) := by
      rw [show (1001 : ℤ) = 1 + 1000 by norm_num, zpow_add₀ (by norm_num), zpow_one]
    rw [e]
    linarith)
  have hcase : thr ≤ s.getD ⌈v⌉₊ 0 := by
    rcases eq_or_lt_of_le hfl with e | e
    · have hz : t = 0 := by
        rw [show v - (⌊v⌋₊ : ℝ) = 0 by linarith, Rounding.rd_zero] at ht
        simpa using ht.symm
      rw [a3 hz]
      exact sorted_getD hs (Nat.floor_le_ceil v) hc 0
    · have hce : ⌈v⌉₊ = ⌊v⌋₊ + 1 := by
        apply le_antisymm (Nat.ceil_le_floor_add_one v)
        rw [Nat.add_one_le_iff, Nat.lt_ceil]
        exact e
      have : j = ⌈v⌉₊ := by omega
      rw [this] at a2
      exact a2
  refine ⟨v, thr, hv, v0, v1, a1, hcase, ?_, ?_, ?_⟩
  · refine RoundedMes.mes_thr M l hne s hs hp q h0 h1 v thr hv hi ?_
    have e : M.R.sub (.fin v) (.fin (⌊v⌋₊ : ℝ)) = .fin t := by
      unfold Rounding.sub
      rw [XR.fin_sub, Rounding.round_fin, ht]
    rw [e, ← hj]
    exact hthr
  · have hcnt := count_lt hs hc hcase
    rw [hp.countP_eq, List.countP_map] at hcnt
    rw [← List.countP_eq_length_filter]
    exact hcnt
  · intro d hd hlt
    rw [List.mem_filter, decide_eq_true_eq]
    exact ⟨hd, lt_of_lt_of_le hlt a1⟩

/-- C196. Accuracy of the average: with the firm's returns on `m` selected days (numbers of the format, at most 2^900 in size, one of them at
least 2^-900 in size) the computed average differs from the exact one by at most `(m + 1) 2^-53` times the average absolute return;
without any day it is NaN. -/
theorem C196_average (M : Machine) (hM : M.R = binary64.rounding) (w : List ℝ) (hn : w.length ≤ 2 ^ 20)
    (hw : ∀ x ∈ w, M.R.Rep (.fin x) ∧ |x| ≤ 2 ^ (900 : ℤ)) :
    (w = [] → Model.Rounded.mean M 0 (w.map .fin) = .nan) ∧
    ((∃ x ∈ w, (2 : ℝ) ^ (-900 : ℤ) ≤ |x|) → ∃ r : ℝ, Model.Rounded.mean M 0 (w.map .fin) = .fin r ∧
      |r - w.sum / w.length| ≤ (w.length + 1) * 2 ^ (-53 : ℤ) * ((w.map fun x => |x|).sum / w.length)) := by
  constructor
  · rintro rfl
    have h := Accurate.isSum_nil (M.sum_ok 0 [])
    unfold Model.Rounded.mean
    simp only [List.map_nil, List.length_nil, Nat.cast_zero]
    rw [h, Rounding.round_fin, Rounding.rd_zero]
    unfold Rounding.div
    rw [XR.fin_div_zero, XR.infSign_zero]
    rfl
  · rintro ⟨x, hx, hx1⟩
    obtain ⟨tiny, huge, A, h1, h2, h3⟩ := Rounded.acc64 hM
    have hu1 : (2 : ℝ) ^ (-53 : ℤ) < 1 := by norm_num
    have hne : w ≠ [] := by rintro rfl; simp at hx
    have hpos : 0 < w.length := List.length_pos_iff.mpr hne
    have hn0 : (0 : ℝ) < w.length := by exact_mod_cast hpos
    have hn' : (w.length : ℝ) ≤ 2 ^ 20 := by exact_mod_cast hn
    set B := (w.map fun x => |x|).sum with hB
    have hBx : |x| ≤ B := by
      apply List.single_le_sum _ _ (List.mem_map.mpr ⟨x, hx, rfl⟩)
      intro y hy
      obtain ⟨z, _, rfl⟩ := List.mem_map.mp hy
      exact abs_nonneg z
    have hBu : B ≤ w.length * 2 ^ (900 : ℤ) := by
      have := List.sum_le_card_nsmul (w.map fun x => |x|) (2 ^ (900 : ℤ)) (by
        intro y hy
        obtain ⟨z, hz, rfl⟩ := List.mem_map.mp hy
        exact (hw z hz).2)
      simpa using this
    have hbig : (2 : ℝ) ^ (900 : ℤ) * 2 ≤ 2 ^ (1000 : ℤ) := by
      calc (2 : ℝ) ^ (900 : ℤ) * 2 = 2 ^ (901 : ℤ) := by
            rw [show (901 : ℤ) = 900 + 1 by norm_num, zpow_add₀ (by norm_num), zpow_one]
        _ ≤ _ := zpow_le_zpow_right₀ (by norm_num) (by norm_num)
    have hhuge : 2 * B ≤ huge := by
      have : (2 : ℝ) ^ (20 : ℤ) = 2 ^ 20 := by norm_num
      rw [this] at h2
      calc 2 * B ≤ 2 * (w.length * 2 ^ (900 : ℤ)) := by linarith
        _ = w.length * (2 ^ (900 : ℤ) * 2) := by ring
        _ ≤ 2 ^ 20 * 2 ^ (1000 : ℤ) := mul_le_mul hn' hbig (by positivity) (by positivity)
        _ ≤ huge := h2
    have htiny : tiny ≤ B / w.length := by
      have e1 : (2 : ℝ) ^ (-950 : ℤ) ≤ 2 ^ (-900 : ℤ) := zpow_le_zpow_right₀ (by norm_num) (by norm_num)
      have e2 : (2 : ℝ) ^ 20 ≤ 2 * 2 ^ (53 : ℤ) := by norm_num
      rw [le_div_iff₀ hn0]
      have ht := A.tiny_nonneg
      calc tiny * w.length ≤ tiny * 2 ^ 20 := mul_le_mul_of_nonneg_left hn' ht
        _ ≤ tiny * (2 * 2 ^ (53 : ℤ)) := mul_le_mul_of_nonneg_left e2 ht
        _ = 2 * tiny * 2 ^ (53 : ℤ) := by ring
        _ ≤ B := h3.trans (e1.trans (hx1.trans hBx))
    have hk : ∀ k : ℕ, k ≤ 2 ^ 20 → 2 * ((k : ℝ) * 2 ^ (-53 : ℤ)) ≤ 1 := by
      intro k hk
      have h : (k : ℝ) ≤ 2 ^ 20 := by exact_mod_cast hk
      have h' := mul_le_mul_of_nonneg_right h (show (0 : ℝ) ≤ 2 ^ (-53 : ℤ) by positivity)
      have h'' : (2 : ℝ) * (2 ^ 20 * 2 ^ (-53 : ℤ)) ≤ 1 := by norm_num
      exact (mul_le_mul_of_nonneg_left h' (by norm_num)).trans h''
    have hre : ((w.map XR.fin).map Accurate.re) = w := by rw [List.map_map]; exact List.map_id _
    have hre' : ((w.map XR.fin).map fun v => |Accurate.re v|) = w.map fun x => |x| := by rw [List.map_map]; rfl
    obtain ⟨t, ht, htr, hta⟩ := A.sum_signed hu1 (M.sum_ok 0 (w.map XR.fin))
      (by
        intro v hv
        obtain ⟨r, hr, rfl⟩ := List.mem_map.mp hv
        exact ⟨r, rfl, (hw r hr).1⟩)
      (by rw [List.length_map]; exact hk _ hn) (by rw [hre']; exact hhuge)
    rw [hre, hre', ← hB, List.length_map] at hta
    obtain ⟨r, hr, hrr, hra⟩ := A.round hu1 (hk _ (by omega)) (hta.div_const hn0) htiny (by
      have : B / w.length ≤ B := div_le_self (le_trans (abs_nonneg x) hBx) (by exact_mod_cast hpos)
      exact (mul_le_mul_of_nonneg_left this (by norm_num)).trans hhuge)
    refine ⟨r, ?_, ?_⟩
    · unfold Model.Rounded.mean
      rw [ht, List.length_map, Rounding.round_fin, M.R.nat w.length (by rw [hM]; exact hn.trans (by norm_num [binary64, Format.rounding]))]
      unfold Rounding.div
      rw [XR.fin_div _ hn0.ne', Rounding.round_fin, hr]
    · rw [Nat.sub_add_cancel hpos] at hra
      refine (hra.error (by have := hk _ hn; linarith) hu1).trans ?_
      apply mul_le_mul_of_nonneg_right
      · have := hk _ hn
        have hd : 0 < 1 - (w.length : ℝ) * 2 ^ (-53 : ℤ) := by linarith
        rw [div_le_iff₀ hd]
        generalize (w.length : ℝ) = n at *
        norm_num at hn' ⊢
        nlinarith
      · exact div_nonneg (le_trans (abs_nonneg x) hBx) hn0.le

/-- C196. The computed position: relative error at most `4 * 2^-53` against `q (n - 1)`. -/
theorem C196_position (M : Machine) (hM : M.R = binary64.rounding) (n : ℕ) (hn : 2 ≤ n) (hn2 : n ≤ 2 ^ 53) (q : ℝ)
    (h0 : (2 : ℝ) ^ (-900 : ℤ) ≤ q) (h1 : q ≤ 1) :
    ∃ v : ℝ, Model.Rounded.position M n (M.R.mul (.fin q) 100) = .fin v ∧
      |v - q * ((n : ℝ) - 1)| ≤ 4 * 2 ^ (-53 : ℤ) * (q * ((n : ℝ) - 1)) := by
  obtain ⟨tiny, huge, A, a1, a2, a3⟩ := Rounded.acc64 hM
  have hu1 : (2 : ℝ) ^ (-53 : ℤ) < 1 := by norm_num
  have hq0 : (0 : ℝ) < q := lt_of_lt_of_le (by positivity) h0
  have hnr : (2 : ℝ) ≤ n := by exact_mod_cast hn
  have hnr2 : (n : ℝ) ≤ 2 ^ 53 := by exact_mod_cast hn2
  have ht := A.tiny_nonneg
  have hnat := M.R.nat (n - 1) (by rw [hM]; exact le_trans (by omega) hn2)
  have hsmall : 2 * tiny ≤ q := by
    have e1 : (2 : ℝ) ^ (-950 : ℤ) ≤ 2 ^ (-900 : ℤ) := zpow_le_zpow_right₀ (by norm_num) (by norm_num)
    have e2 : (1 : ℝ) ≤ 2 ^ (53 : ℤ) := by norm_num
    calc 2 * tiny = 2 * tiny * 1 := by ring
      _ ≤ 2 * tiny * 2 ^ (53 : ℤ) := mul_le_mul_of_nonneg_left e2 (by linarith)
      _ ≤ q := a3.trans (e1.trans h0)
  have hlarge : (2 : ℝ) ^ 60 ≤ huge := by
    have : (2 : ℝ) ^ 60 ≤ 2 ^ (20 : ℤ) * 2 ^ (1000 : ℤ) := by
      rw [← zpow_add₀ (by norm_num), ← zpow_natCast]
      exact zpow_le_zpow_right₀ (by norm_num) (by norm_num)
    exact this.trans a2
  norm_num at hlarge
  norm_num at hnr2
  have hnr3 : (n : ℝ) ≤ 9007199254740992 := by exact_mod_cast hnr2
  clear a1 a2 a3 h0 hnr2 hn2
  obtain ⟨x, hx, _, cx⟩ := A.mul (k := 0) (l := 0) hu1 (by norm_num) (Close.refl hq0.le) (Close.refl (show (0 : ℝ) ≤ 100 by norm_num))
    (Or.inr ⟨by linarith, by linarith⟩)
  obtain ⟨y, hy, _, cy⟩ := A.div (l := 0) hu1 (by norm_num) cx (Close.refl (show (0 : ℝ) ≤ 100 by norm_num)) (by norm_num)
    (by rw [mul_div_assoc, div_self (by norm_num), mul_one]; exact Or.inr ⟨by linarith, by linarith⟩)
  rw [mul_div_assoc, div_self (by norm_num), mul_one] at cy
  obtain ⟨v, hv, _, cv⟩ := A.mul (k := 0) hu1 (by norm_num) (Close.refl (show (0 : ℝ) ≤ (n : ℝ) - 1 by linarith)) cy
    (Or.inr ⟨by nlinarith, by nlinarith⟩)
  rw [mul_comm ((n : ℝ) - 1)] at cv
  refine ⟨v, ?_, ?_⟩
  · have en : M.R.rd ((n : ℝ) - 1) = .fin ((n : ℝ) - 1) := by
      rwa [Nat.cast_sub (by omega), Nat.cast_one] at hnat
    unfold Model.Rounded.position
    rw [Rounding.round_fin, en, show (100 : XR) = .fin 100 from rfl, hx, hy, hv]
  · refine (cv.error A.u_nonneg (by norm_num) hu1).trans ?_
    apply mul_le_mul_of_nonneg_right _ (by nlinarith)
    norm_num

namespace RoundedMes

/-- the double nearest to 0.05 -/
theorem q5 : binary64.rounding.rd (1 / 20) = .fin (3602879701896397 / 2 ^ 56) := by
  have := RoundedDip.rd_cert (a := 1) (b := 20) (m := 7205759403792794) (s := 57) (by decide)
  norm_num at this ⊢
  exact this

theorem pos5 (M : Machine) (hM : M.R = binary64.rounding) (n : ℕ) (hn : 1 ≤ n) (hn2 : n ≤ 2 ^ 53) :
    Model.Rounded.position M n (M.R.mul (M.R.rd (1 / 20)) 100)
      = M.R.rd (((n : ℝ) - 1) * (3602879701896397 / 2 ^ 56)) := by
  have h1 : M.R.mul (M.R.rd (1 / 20)) 100 = .fin 5 := by
    have := RoundedDip.rd_cert (a := 360287970189639700) (b := 2 ^ 56) (m := 5629499534213120) (s := 50) (by decide)
    rw [hM, q5]
    unfold Rounding.mul
    rw [XR.ofNat_def, XR.fin_mul, Rounding.round_fin]
    norm_num at this ⊢
    exact this
  have h2 : M.R.div (.fin 5) 100 = .fin (3602879701896397 / 2 ^ 56) := by
    unfold Rounding.div
    rw [XR.ofNat_def, show (OfNat.ofNat 100 : ℝ) = 100 from rfl, XR.fin_div _ (by norm_num), Rounding.round_fin,
      show (5 / 100 : ℝ) = 1 / 20 by norm_num, hM, q5]
  have en : M.R.rd ((n : ℝ) - 1) = .fin ((n : ℝ) - 1) := by
    have := M.R.nat (n - 1) (by rw [hM]; exact le_trans (by omega) hn2)
    rwa [Nat.cast_sub (by omega), Nat.cast_one] at this
  unfold Model.Rounded.position
  rw [h1, h2, Rounding.round_fin, en]
  rfl

/-- a whole number times `1 + 2^-54` rounds to the whole number -/
theorem rd_nudge (k : ℕ) (hk : k ≤ 2 ^ 50) : binary64.rounding.rd ((k : ℝ) * (1 + 1 / 2 ^ 54)) = .fin k := by
  rcases Nat.eq_zero_or_pos k with rfl | hpos
  · simpa using Rounding.rd_zero
  set e := Nat.log 2 k with he
  have hl : 2 ^ e ≤ k := Nat.pow_log_le_self 2 hpos.ne'
  have hu : k < 2 ^ (e + 1) := Nat.lt_pow_succ_log_self (by norm_num) k
  have he50 : e ≤ 50 := by
    by_contra h
    have : 2 ^ 51 ≤ 2 ^ e := Nat.pow_le_pow_right (by norm_num) (by omega)
    have : (2 : ℕ) ^ 50 < 2 ^ 51 := by norm_num
    omega
  obtain ⟨f, hf⟩ : ∃ f, e + f = 52 := ⟨52 - e, by omega⟩
  have hlr : (2 : ℝ) ^ e ≤ k := by exact_mod_cast hl
  have hur : (k : ℝ) + 1 ≤ 2 ^ (e + 1) := by exact_mod_cast hu
  have hz : (2 : ℝ) ^ (-(f : ℤ)) = 1 / 2 ^ f := by rw [zpow_neg, zpow_natCast, one_div]
  have hfp : (0 : ℝ) < 2 ^ f := by positivity
  have hep : (1 : ℝ) ≤ 2 ^ e := one_le_pow₀ (by norm_num)
  have hef : (2 : ℝ) ^ e * 2 ^ f = 2 ^ 52 := by rw [← pow_add, hf]
  have hkr : (k : ℝ) ≤ 2 ^ 50 := by exact_mod_cast hk
  have hk0 : (0 : ℝ) < k := by exact_mod_cast hpos
  have hsmall : (k : ℝ) * (1 / 2 ^ 54) ≤ 1 / 16 := by
    have := mul_le_mul_of_nonneg_right hkr (show (0 : ℝ) ≤ 1 / 2 ^ 54 by positivity)
    refine this.trans (by norm_num)
  have h := rd64_eq (x := (k : ℝ) * (1 + 1 / 2 ^ 54)) ((k * 2 ^ f : ℕ) : ℤ) (-(f : ℤ)) (by omega) (by omega)
    (by
      rw [hz, ← hef, mul_assoc, mul_one_div, div_self hfp.ne', mul_one]
      nlinarith)
    (by
      have : (2 : ℝ) ^ 53 = 2 * (2 ^ e * 2 ^ f) := by rw [hef]; norm_num
      rw [hz, this, mul_assoc, mul_assoc, mul_one_div, div_self hfp.ne', mul_one]
      rw [pow_succ] at hur
      nlinarith)
    (by
      left
      rw [hz, div_div_eq_mul_div, div_one]
      push_cast
      have e1 : (k : ℝ) * (1 + 1 / 2 ^ 54) * 2 ^ f - k * 2 ^ f = k * 2 ^ f * (1 / 2 ^ 54) := by ring
      rw [e1, abs_of_nonneg (by positivity)]
      have : (k : ℝ) * 2 ^ f < 2 ^ 53 := by
        calc (k : ℝ) * 2 ^ f < 2 ^ (e + 1) * 2 ^ f := mul_lt_mul_of_pos_right (by linarith) hfp
          _ = 2 ^ 53 := by rw [pow_succ, mul_right_comm, hef]; norm_num
      calc (k : ℝ) * 2 ^ f * (1 / 2 ^ 54) < 2 ^ 53 * (1 / 2 ^ 54) := mul_lt_mul_of_pos_right this (by positivity)
        _ = 1 / 2 := by norm_num)
  refine Eq.trans h ?_
  rw [hz]
  push_cast
  rw [mul_assoc, mul_one_div, div_self hfp.ne', mul_one]

/-- the position at the default of 5%: the whole number `(n - 1) / 20` if it is one, and otherwise strictly between the two
neighbouring whole numbers -/
theorem pos5_cases (M : Machine) (hM : M.R = binary64.rounding) (n : ℕ) (hn : 1 ≤ n) (hn2 : n ≤ 2 ^ 40) :
    ∃ v : ℝ, Model.Rounded.position M n (M.R.mul (M.R.rd (1 / 20)) 100) = .fin v ∧ 0 ≤ v ∧
      ⌊v⌋₊ = (n - 1) / 20 ∧ ⌈v⌉₊ = (n + 18) / 20 := by
  have hbig : (2 : ℕ) ^ 40 ≤ 2 ^ 53 := by norm_num
  rw [pos5 M hM n hn (hn2.trans hbig), hM]
  set k := (n - 1) / 20 with hk
  obtain ⟨r, hr⟩ : ∃ r, n = 20 * k + r + 1 := ⟨(n - 1) % 20, by omega⟩
  have hr20 : r < 20 := by omega
  have hkn : k ≤ 2 ^ 40 := by omega
  have hkr : (k : ℝ) ≤ 2 ^ 40 := by exact_mod_cast hkn
  have hk0 : (0 : ℝ) ≤ k := by positivity
  have ex : ((n : ℝ) - 1) * (3602879701896397 / 2 ^ 56) = (k + r / 20) * (1 + 1 / 2 ^ 54) := by
    rw [hr]; push_cast; ring
  rw [ex]
  rcases Nat.eq_zero_or_pos r with h0 | hrpos
  · refine ⟨k, ?_, by positivity, Nat.floor_natCast k, ?_⟩
    · rw [h0, Nat.cast_zero, zero_div, add_zero]
      exact rd_nudge k (hkn.trans (by norm_num))
    · rw [Nat.ceil_natCast]
      omega
  · have hr1 : (1 : ℝ) ≤ r := by exact_mod_cast hrpos
    have hr2 : (r : ℝ) ≤ 19 := by exact_mod_cast (by omega : r ≤ 19)
    norm_num at hkn
    have hkr' : (k : ℝ) ≤ 1099511627776 := by exact_mod_cast hkn
    have A := Format.accurate binary64
    have hu : (2 : ℝ) ^ (-(binary64.p : ℤ)) = 1 / 2 ^ 53 := by norm_num [binary64]
    rw [hu] at A
    have hx0 : (1 : ℝ) / 20 ≤ (k + r / 20) * (1 + 1 / 2 ^ 54) := by norm_num; nlinarith
    have hx1 : ((k : ℝ) + r / 20) * (1 + 1 / 2 ^ 54) ≤ k + r / 20 + 1 / 100 := by norm_num; nlinarith
    set x : ℝ := (k + r / 20) * (1 + 1 / 2 ^ 54) with hx
    have hge : (k : ℝ) + r / 20 ≤ x := by rw [hx]; norm_num; nlinarith
    have hxle : x ≤ 2 ^ (41 : ℤ) := by norm_num; nlinarith
    have hem : (2 : ℝ) ^ (41 : ℤ) ≤ 2 ^ binary64.emax := zpow_le_zpow_right₀ (by norm_num) (by simp [binary64])
    obtain ⟨v, hv⟩ := A.fin x (by rw [abs_of_nonneg (by linarith)]; exact hxle.trans hem)
    have herr := A.err x v hv
    rw [abs_of_nonneg (show 0 ≤ x by linarith)] at herr
    have hmn : (2 : ℝ) ^ binary64.emin ≤ 1 := by
      rw [← zpow_zero (2 : ℝ)]
      exact zpow_le_zpow_right₀ (by norm_num) (by simp [binary64])
    have hmx : max x (2 ^ binary64.emin) ≤ 2 ^ (41 : ℤ) := max_le hxle (hmn.trans (by norm_num))
    have hb : |v - x| ≤ 1 / 100 := by
      refine herr.trans ((mul_le_mul_of_nonneg_left hmx (by positivity)).trans (by norm_num))
    obtain ⟨b1, b2⟩ := abs_le.mp hb
    have v0 : (k : ℝ) < v := by linarith
    have v1 : v < k + 1 := by linarith
    refine ⟨v, hv, by linarith, ?_, ?_⟩
    · rw [Nat.floor_eq_iff (by linarith)]
      exact ⟨v0.le, v1⟩
    · rw [Nat.ceil_eq_iff (by omega)]
      have e : (n + 18) / 20 = k + 1 := by omega
      rw [e]
      push_cast
      constructor
      · simpa using v0
      · linarith

end RoundedMes

/-- C196. The default of 5%. For up to 2^40 days the call averages over the days below a threshold between the order statistics
`(n - 1) / 20` rounded down and rounded up; these are at most `(n - 1) / 20` days rounded up, and if the market returns are
all different at least `(n - 1) / 20` days rounded down, as with the exact quantile. -/
theorem C196_default (M : Machine) (hM : M.R = binary64.rounding) (l : List Day) (hne : l ≠ []) (hn : l.length ≤ 2 ^ 40)
    (hm : ∀ d ∈ l, M.R.Rep (.fin d.market) ∧ |d.market| ≤ 2 ^ (1000 : ℤ)) (s : List ℝ) (hs : s.SortedLE)
    (hp : s.Perm (l.map Day.market)) :
    ∃ thr : ℝ, s.getD ((l.length - 1) / 20) 0 ≤ thr ∧ thr ≤ s.getD ((l.length + 18) / 20) 0 ∧
      Model.Rounded.mes M ⟨col l Day.firm, col l Day.market⟩ (M.R.rd (1 / 20))
        = .ok (Model.Rounded.mean M 0 (col (l.filter fun d => d.market < thr) Day.firm)) ∧
      (l.filter fun d => d.market < thr).length ≤ (l.length + 18) / 20 ∧
      ((l.map Day.market).Nodup → (l.length - 1) / 20 ≤ (l.filter fun d => d.market < thr).length) := by
  have hq : M.R.rd (1 / 20) = .fin (3602879701896397 / 2 ^ 56) := by rw [hM]; exact RoundedMes.q5
  have hbig : (2 : ℕ) ^ 40 ≤ 2 ^ 53 := by norm_num
  have hpos : 0 < l.length := List.length_pos_iff.mpr hne
  obtain ⟨v, thr, hv, _, _, t1, t2, hmes, hlen, _⟩ := C196_days M hM l hne (hn.trans hbig) hm s hs hp (3602879701896397 / 2 ^ 56)
    (by norm_num) (by norm_num)
  obtain ⟨v', hv', _, hf, hc⟩ := RoundedMes.pos5_cases M hM l.length hpos hn
  rw [hq, hv, XR.fin_inj] at hv'
  subst hv'
  rw [hf] at t1
  rw [hc] at t2 hlen
  refine ⟨thr, t1, t2, by rw [hq]; exact hmes, hlen, fun hnd => ?_⟩
  have hnd' : s.Nodup := hp.nodup_iff.mpr hnd
  have hsl : s.length = l.length := by rw [hp.length_eq, List.length_map]
  have hk : (l.length - 1) / 20 < s.length := by omega
  have hcnt := RoundedMes.le_count_lt hs hnd' hk t1
  rw [hp.countP_eq, List.countP_map] at hcnt
  rw [← List.countP_eq_length_filter]
  exact hcnt

namespace RoundedMes

/-- 101 days: the market returns are the whole numbers from -7 to 93, in increasing order -/
def ramp (f : ℕ → ℝ) : List Day := (List.range 101).map fun i => ⟨f i, (i : ℝ) - 7⟩

theorem ramp_len (f : ℕ → ℝ) : (ramp f).length = 101 := by simp [ramp]

theorem ramp_ne (f : ℕ → ℝ) : ramp f ≠ [] := by
  intro h
  have := ramp_len f
  rw [h] at this
  simp at this

theorem ramp_market (f : ℕ → ℝ) : (ramp f).map Day.market = (List.range 101).map fun i : ℕ => (i : ℝ) - 7 := by
  rw [ramp, List.map_map]; rfl

theorem ramp_sorted (f : ℕ → ℝ) : ((ramp f).map Day.market).SortedLE := by
  rw [ramp_market, List.sortedLE_iff_pairwise, List.pairwise_map]
  refine List.pairwise_lt_range.imp fun h => ?_
  have : (_ : ℝ) < _ := Nat.cast_lt.mpr h
  linarith

theorem ramp_getD (f : ℕ → ℝ) (k : ℕ) (hk : k < 101) : ((ramp f).map Day.market).getD k 0 = (k : ℝ) - 7 := by
  rw [ramp_market, List.getD_eq_getElem?_getD, List.getElem?_map, List.getElem?_range hk]
  rfl

/-- the days below a threshold are the first `m` -/
theorem ramp_filter (f : ℕ → ℝ) (x : ℝ) (m : ℕ) (hm : m ≤ 101) (h : ∀ i : ℕ, (i : ℝ) - 7 < x ↔ i < m) :
    (ramp f).filter (fun d => d.market < x) = (List.range m).map fun i => ⟨f i, (i : ℝ) - 7⟩ := by
  rw [ramp, List.filter_map]
  congr 1
  have e : ((fun d : Day => decide (d.market < x)) ∘ fun i : ℕ => (⟨f i, (i : ℝ) - 7⟩ : Day)) = fun i => decide (i < m) := by
    funext i
    simp only [Function.comp, h]
  rw [e]
  obtain ⟨r, hr⟩ := Nat.exists_eq_add_of_le hm
  rw [hr, List.range_add, List.filter_append, List.filter_eq_self.mpr, List.filter_eq_nil_iff.mpr, List.append_nil]
  · intro a ha
    obtain ⟨b, _, rfl⟩ := List.mem_map.mp ha
    simp
  · intro a ha
    simpa using ha

theorem pos7 (M : Machine) (hM : M.R = binary64.rounding) :
    M.R.rd (7 / 100) = .fin (1261007895663739 / 2 ^ 54) ∧
    Model.Rounded.position M 101 (M.R.mul (.fin (1261007895663739 / 2 ^ 54)) 100) = .fin (7 + 1 / 2 ^ 50) := by
  have c1 := RoundedDip.rd_cert (a := 7) (b := 100) (m := 5044031582654956) (s := 56) (by decide)
  have c2 := RoundedDip.rd_cert (a := 126100789566373900) (b := 2 ^ 54) (m := 7881299347898369) (s := 50) (by decide)
  have c3 := RoundedDip.rd_cert (a := 7881299347898369) (b := 100 * 2 ^ 50) (m := 5044031582654956) (s := 56) (by decide)
  have n1 := M.R.nat 100 (by rw [hM]; norm_num [binary64, Format.rounding])
  constructor
  · rw [hM]
    norm_num at c1 ⊢
    exact c1
  · unfold Model.Rounded.position Rounding.mul Rounding.div
    rw [XR.ofNat_def, show (OfNat.ofNat 100 : ℝ) = 100 from rfl, Rounding.round_fin,
      show ((101 : ℕ) : ℝ) - 1 = ((100 : ℕ) : ℝ) by norm_num, n1, XR.fin_mul, Rounding.round_fin]
    rw [hM]
    have e2 : binary64.rounding.rd (1261007895663739 / 2 ^ 54 * 100) = .fin (7881299347898369 / 2 ^ 50) := by
      norm_num at c2 ⊢; exact c2
    have e3 : binary64.rounding.rd (7881299347898369 / 2 ^ 50 / 100) = .fin (1261007895663739 / 2 ^ 54) := by
      norm_num at c3 ⊢; exact c3
    rw [e2, XR.fin_div _ (by norm_num), Rounding.round_fin, e3, XR.fin_mul, Rounding.round_fin,
      show ((100 : ℕ) : ℝ) * (1261007895663739 / 2 ^ 54) = 1261007895663739 / 2 ^ 54 * 100 by push_cast; ring, e2]
    norm_num

end RoundedMes

/-- C196. Rounding can add a day: on 101 days with different market returns, at `q = 0.07` the exact 7% quantile is order statistic
7 and seven days lie below it, but the computed position is `7 + 2^-50`, and the call averages over eight days. -/
theorem C196_extra (M : Machine) (hM : M.R = binary64.rounding) (f : ℕ → ℝ) :
    Model.Rounded.mes M ⟨col (RoundedMes.ramp f) Day.firm, col (RoundedMes.ramp f) Day.market⟩ (M.R.rd (7 / 100))
      = .ok (Model.Rounded.mean M 0 ((List.range 8).map fun i => .fin (f i))) ∧
    mesOf (RoundedMes.ramp f) (7 / 100) = .ok (Np.mean ((List.range 7).map fun i => .fin (f i))) := by
  open RoundedMes in
  constructor
  · obtain ⟨hq, hv⟩ := pos7 M hM
    have hfl : ⌊(7 + 1 / 2 ^ 50 : ℝ)⌋₊ = 7 := by
      rw [Nat.floor_eq_iff (by positivity)]
      norm_num
    rw [hq, RoundedMes.mes_thr M (ramp f) (ramp_ne f) _ (ramp_sorted f) (List.Perm.refl _) (1261007895663739 / 2 ^ 54)
      (by norm_num) (by norm_num) (7 + 1 / 2 ^ 50) (1 / 2 ^ 50) (by rw [ramp_len]; exact hv)
      (by rw [hfl, List.length_map, ramp_len]; norm_num) ?_]
    · rw [ramp_filter f (1 / 2 ^ 50) 8 (by norm_num), col, List.map_map]
      · rfl
      · intro i
        constructor
        · intro h
          by_contra h'
          have : (8 : ℝ) ≤ i := by exact_mod_cast not_lt.mp h'
          norm_num at h
          linarith
        · intro h
          have : (i : ℝ) ≤ 7 := by exact_mod_cast Nat.lt_succ_iff.mp h
          have h2 : (0 : ℝ) < 1 / 2 ^ 50 := by positivity
          linarith
    · rw [hfl, ramp_len, ramp_getD f _ (by norm_num), show min (7 + 1) (101 - 1) = 8 from rfl, ramp_getD f _ (by norm_num)]
      have c : M.R.rd (1 / 2 ^ 50) = .fin (1 / 2 ^ 50) := by
        have := RoundedDip.rd_cert (a := 1) (b := 2 ^ 50) (m := 2 ^ 52) (s := 102) (by decide)
        rw [hM]
        norm_num at this ⊢
        exact this
      unfold Model.Rounded.lerp Rounding.add Rounding.sub Rounding.mul
      rw [XR.fin_sub, Rounding.round_fin, show (7 + 1 / 2 ^ 50 - ((7 : ℕ) : ℝ)) = 1 / 2 ^ 50 by norm_num, c,
        if_pos (XR.fin_lt.mpr (by norm_num)), XR.fin_sub, Rounding.round_fin,
        show (((8 : ℕ) : ℝ) - 7 - (((7 : ℕ) : ℝ) - 7)) = 1 by norm_num, show M.R.rd 1 = .fin 1 from Rounding.rep_one, XR.fin_mul, Rounding.round_fin, one_mul, c,
        XR.fin_add, Rounding.round_fin, show (((7 : ℕ) : ℝ) - 7 + 1 / 2 ^ 50) = 1 / 2 ^ 50 by norm_num, c]
  · have h := (C24_days (ramp_ne f) (ramp_sorted f) (List.Perm.refl _) (q := 7 / 100) (by norm_num) (by norm_num)).2
    have hq : quantile ((ramp f).map Day.market) (7 / 100) = 0 := by
      unfold quantile
      rw [List.length_map, ramp_len]
      have hfl : ⌊(7 / 100 : ℝ) * (((101 : ℕ) : ℝ) - 1)⌋₊ = 7 := by
        rw [show (7 / 100 : ℝ) * (((101 : ℕ) : ℝ) - 1) = ((7 : ℕ) : ℝ) by norm_num, Nat.floor_natCast]
      simp only [hfl]
      rw [ramp_getD f _ (by norm_num)]
      norm_num
    rw [h, hq, ramp_filter f 0 7 (by norm_num), col, List.map_map]
    · rfl
    · intro i
      constructor
      · intro h
        have : (i : ℝ) < 7 := by linarith
        exact_mod_cast this
      · intro h
        have : (i : ℝ) < 7 := by exact_mod_cast h
        linarith

/-- `C196_days` and `C196_default` apply to the 101 days: the market returns are whole numbers -/
example (M : Machine) (hM : M.R = binary64.rounding) (f : ℕ → ℝ) :
    ∃ thr : ℝ, Model.Rounded.mes M ⟨col (RoundedMes.ramp f) Day.firm, col (RoundedMes.ramp f) Day.market⟩ (M.R.rd (1 / 20))
        = .ok (Model.Rounded.mean M 0 (col ((RoundedMes.ramp f).filter fun d => d.market < thr) Day.firm)) ∧
      ((RoundedMes.ramp f).filter fun d => d.market < thr).length = 5 := by
  open RoundedMes in
  have hm : ∀ d ∈ ramp f, M.R.Rep (.fin d.market) ∧ |d.market| ≤ 2 ^ (1000 : ℤ) := by
    intro d hd
    obtain ⟨i, hi, rfl⟩ := List.mem_map.mp hd
    have hi' : i < 101 := List.mem_range.mp hi
    constructor
    · rcases le_or_gt 7 i with h | h
      · have := M.R.nat (i - 7) (by rw [hM]; show _ ≤ 2 ^ 53; omega)
        rw [Nat.cast_sub h] at this
        exact this
      · have := M.R.nat (7 - i) (by rw [hM]; show _ ≤ 2 ^ 53; omega)
        rw [Nat.cast_sub h.le] at this
        show M.R.rd _ = _
        rw [show (i : ℝ) - 7 = -(((7 : ℕ) : ℝ) - i) by push_cast; ring, Rounding.neg, this]
        simp
    · have h1 : (i : ℝ) ≤ 101 := by exact_mod_cast hi'.le
      have h0 : (0 : ℝ) ≤ i := by positivity
      have h2 : (2 : ℝ) ^ (7 : ℤ) ≤ 2 ^ (1000 : ℤ) := zpow_le_zpow_right₀ (by norm_num) (by norm_num)
      refine le_trans (abs_le.mpr ⟨?_, ?_⟩) h2 <;> norm_num <;> linarith
  obtain ⟨thr, _, _, h, h1, h2⟩ := C196_default M hM (ramp f) (ramp_ne f) (by rw [ramp_len]; norm_num) hm _ (ramp_sorted f)
    (List.Perm.refl _)
  refine ⟨thr, h, ?_⟩
  have hnd : ((ramp f).map Day.market).Nodup := by
    rw [ramp_market]
    refine List.Nodup.map (fun a b hab => ?_) List.nodup_range
    have : (a : ℝ) = b := by simpa using hab
    exact_mod_cast this
  have := h2 hnd
  rw [ramp_len] at this h1
  omega

/-- `C196_average` on two returns -/
example : ∃ r : ℝ, Model.Rounded.mean Machine.ieee 0 ([-1, 2].map .fin) = .fin r ∧
    |r - 1 / 2| ≤ 3 * 2 ^ (-53 : ℤ) * (3 / 2) := by
  have h1 := RoundedDip.nat_rep (n := 1) (by norm_num)
  have h2 := RoundedDip.nat_rep (n := 2) (by norm_num)
  have hb : (2 : ℝ) ^ (1 : ℤ) ≤ 2 ^ (900 : ℤ) := zpow_le_zpow_right₀ (by norm_num) (by norm_num)
  have hs : (2 : ℝ) ^ (-900 : ℤ) ≤ 2 ^ (0 : ℤ) := zpow_le_zpow_right₀ (by norm_num) (by norm_num)
  rw [zpow_one] at hb
  rw [zpow_zero] at hs
  obtain ⟨r, h, h'⟩ := (C196_average Machine.ieee rfl [-1, 2] (by norm_num) (by
    intro x hx
    simp only [List.mem_cons, List.not_mem_nil, or_false] at hx
    rcases hx with rfl | rfl
    · refine ⟨?_, by rw [abs_neg, abs_one]; exact le_trans (by norm_num) hb⟩
      show Machine.ieee.R.rd (-1) = _
      rw [Rounding.neg, show Machine.ieee.R.rd 1 = .fin 1 by simpa using h1]
      simp
    · exact ⟨(show Machine.ieee.R.rd 2 = _ by simpa using h2), by rw [abs_two]; exact hb⟩)).2 ⟨-1, by simp, by rw [abs_neg, abs_one]; exact hs⟩
  refine ⟨r, h, ?_⟩
  norm_num at h' ⊢
  exact h'

end
end Frds.Props

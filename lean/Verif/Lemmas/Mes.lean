import Verif.Model.Mes
import Verif.Spec.Mes
import Verif.Lemmas.Spread

namespace Frds
noncomputable section
open Frds.Model Frds.Spec Classical

theorem sort_fin {l s : List ℝ} (hs : s.SortedLE) (hp : s.Perm l) :
    Np.sort (l.map XR.fin) = s.map XR.fin := by
  have h1 : (l.mergeSort fun a b => decide (a ≤ b)).map XR.fin = Np.sort (l.map XR.fin) := by
    rw [Np.sort]
    apply List.map_mergeSort
    intro a _ b _
    simp [Np.leB]
  rw [← h1]
  congr 1
  have h2 : (l.mergeSort fun a b => decide (a ≤ b)).SortedLE := by
    rw [List.sortedLE_iff_pairwise]
    have := List.pairwise_mergeSort (le := fun a b : ℝ => decide (a ≤ b))
      (by intro a b c; simpa using le_trans) (by intro a b; simpa using le_total a b) l
    simpa using this
  exact List.Perm.eq_of_sortedLE h2 hs ((List.mergeSort_perm l _).trans hp.symm)

theorem sort_exists (l : List ℝ) : ∃ s : List ℝ, s.SortedLE ∧ s.Perm l := by
  refine ⟨l.mergeSort fun a b => decide (a ≤ b), ?_, List.mergeSort_perm l _⟩
  rw [List.sortedLE_iff_pairwise]
  have := List.pairwise_mergeSort (le := fun a b : ℝ => decide (a ≤ b))
    (by intro a b c; simpa using le_trans) (by intro a b; simpa using le_total a b) l
  simpa using this

theorem lerp_fin (a b t : ℝ) : Np.lerp (.fin a) (.fin b) t = .fin (a + t * (b - a)) := by
  unfold Np.lerp
  split_ifs <;> simp <;> ring

theorem getD_map_fin {s : List ℝ} {i : ℕ} (h : i < s.length) (d : ℝ) :
    (s.map XR.fin).getD i .nan = .fin (s.getD i d) := by
  simp [List.getD_eq_getElem?_getD, h]

theorem percentile_fin {l s : List ℝ} (hne : l ≠ []) (hs : s.SortedLE) (hp : s.Perm l) {q : ℝ}
    (h0 : 0 ≤ q) (h1 : q ≤ 1) :
    Np.percentile (l.map XR.fin) (q * 100) = .ok (.fin (quantile s q)) := by
  have hlen : s.length = l.length := hp.length_eq
  have hpos : 0 < l.length := List.length_pos_iff.mpr hne
  have hn1 : (0:ℝ) ≤ (l.length : ℝ) - 1 := by
    have : (1:ℝ) ≤ l.length := by exact_mod_cast hpos
    linarith
  unfold Np.percentile
  rw [if_neg (by simpa using hne), if_neg (by simp)]
  simp only [List.length_map]
  rw [show q * 100 / 100 * ((l.length:ℝ) - 1) = q * ((l.length:ℝ) - 1) by ring]
  rw [sort_fin hs hp]
  simp only [quantile, hlen]
  set h := q * ((l.length:ℝ) - 1) with hh
  have hh0 : 0 ≤ h := mul_nonneg h0 hn1
  have hh1 : h ≤ (l.length:ℝ) - 1 := by
    calc h ≤ 1 * ((l.length:ℝ) - 1) := mul_le_mul_of_nonneg_right h1 hn1
      _ = _ := one_mul _
  have hfl : (Int.toNat ⌊h⌋) = ⌊h⌋₊ := Int.floor_toNat h
  have hfl2 : ((⌊h⌋ : ℤ) : ℝ) = (⌊h⌋₊ : ℝ) := by
    rw [← natCast_floor_eq_intCast_floor hh0]
  rw [hfl, hfl2]
  have hi : ⌊h⌋₊ < s.length := by
    rw [hlen, Nat.floor_lt hh0]
    linarith
  rw [getD_map_fin hi 0]
  by_cases hj : ⌊h⌋₊ + 1 < l.length
  · rw [show min (⌊h⌋₊ + 1) (l.length - 1) = ⌊h⌋₊ + 1 by omega,
      getD_map_fin (by omega) (s.getD ⌊h⌋₊ 0), lerp_fin]
  · have he : ⌊h⌋₊ = l.length - 1 := by omega
    have hmin : min (⌊h⌋₊ + 1) (l.length - 1) = ⌊h⌋₊ := by omega
    rw [hmin, getD_map_fin hi 0, lerp_fin]
    have : s.getD (⌊h⌋₊ + 1) (s.getD ⌊h⌋₊ 0) = s.getD ⌊h⌋₊ 0 := by
      rw [List.getD_eq_getElem?_getD, List.getElem?_eq_none (by omega)]; rfl
    rw [this]

/-- days with a market return strictly below the quantile -/
def worstDays (l : List Day) (s : List ℝ) (q : ℝ) : List Day :=
  l.filter fun d => d.market < quantile s q

theorem estimate_fin {l : List Day} {s : List ℝ} (hne : l ≠ []) (hs : s.SortedLE)
    (hp : s.Perm (l.map Day.market)) {q : ℝ} (h0 : 0 ≤ q) (h1 : q ≤ 1) :
    Mes.estimate ⟨col l Day.firm, col l Day.market⟩ (.fin q)
      = .ok (Np.mean (col (worstDays l s q) Day.firm)) := by
  have hm : col l Day.market = (l.map Day.market).map XR.fin := by rw [List.map_map]; rfl
  unfold Mes.estimate
  simp only [h0, h1, and_self, not_true_eq_false, if_false]
  rw [hm, percentile_fin (by simpa using hne) hs hp h0 h1, ← hm]
  simp only [bind, Except.bind, pure, Except.pure]
  congr 2
  rw [List.zip, zipWith_maps, worstDays, col, List.filter_map, List.map_map]
  rfl

theorem quantile_affine {s : List ℝ} (hne : s ≠ []) {q : ℝ} (h0 : 0 ≤ q) (h1 : q ≤ 1) (a b : ℝ) :
    quantile (s.map fun x => a * x + b) q = a * quantile s q + b := by
  have hpos : 0 < s.length := List.length_pos_iff.mpr hne
  have hn1 : (0:ℝ) ≤ (s.length : ℝ) - 1 := by
    have : (1:ℝ) ≤ s.length := by exact_mod_cast hpos
    linarith
  simp only [quantile, List.length_map]
  set h := q * ((s.length:ℝ) - 1) with hh
  have hh1 : h ≤ (s.length:ℝ) - 1 := by
    calc h ≤ 1 * ((s.length:ℝ) - 1) := mul_le_mul_of_nonneg_right h1 hn1
      _ = _ := one_mul _
  have hi : ⌊h⌋₊ < s.length := by
    rw [Nat.floor_lt (mul_nonneg h0 hn1)]; linarith
  have e1 : (s.map fun x => a * x + b).getD ⌊h⌋₊ 0 = a * s.getD ⌊h⌋₊ 0 + b := by
    simp [List.getD_eq_getElem?_getD, hi]
  have e2 : (s.map fun x => a * x + b).getD (⌊h⌋₊ + 1) (a * s.getD ⌊h⌋₊ 0 + b)
      = a * s.getD (⌊h⌋₊ + 1) (s.getD ⌊h⌋₊ 0) + b := by
    simp only [List.getD_eq_getElem?_getD, List.getElem?_map]
    cases s[⌊h⌋₊ + 1]? <;> simp
  rw [e1, e2]; ring

/-- the quantile lies between the neighbouring order statistics -/
theorem quantile_le {s : List ℝ} (hne : s ≠ []) (hs : s.SortedLE) {q : ℝ} (h0 : 0 ≤ q) (h1 : q ≤ 1) :
    ∃ h : ⌈q * ((s.length : ℝ) - 1)⌉₊ < s.length,
      quantile s q ≤ s[⌈q * ((s.length : ℝ) - 1)⌉₊] := by
  have hpos : 0 < s.length := List.length_pos_iff.mpr hne
  have hn1 : (0:ℝ) ≤ (s.length : ℝ) - 1 := by
    have : (1:ℝ) ≤ s.length := by exact_mod_cast hpos
    linarith
  simp only [quantile]
  set h := q * ((s.length:ℝ) - 1) with hh
  have hh0 : 0 ≤ h := mul_nonneg h0 hn1
  have hh1 : h ≤ (s.length:ℝ) - 1 := by
    calc h ≤ 1 * ((s.length:ℝ) - 1) := mul_le_mul_of_nonneg_right h1 hn1
      _ = _ := one_mul _
  have hi : ⌊h⌋₊ < s.length := by
    rw [Nat.floor_lt hh0]; linarith
  have hc : ⌈h⌉₊ < s.length := by
    have : ⌈h⌉₊ ≤ s.length - 1 := by
      rw [Nat.ceil_le, Nat.cast_sub hpos]; simpa using hh1
    omega
  refine ⟨hc, ?_⟩
  have ea : s.getD ⌊h⌋₊ 0 = s[⌊h⌋₊] := by simp [List.getD_eq_getElem?_getD, hi]
  have hfl : (⌊h⌋₊:ℝ) ≤ h := Nat.floor_le hh0
  have hmono : ∀ {i j : ℕ} (hij : i ≤ j) (hj : j < s.length), s[i] ≤ s[j] := by
    intro i j hij hj
    have hm : Monotone s.get := List.sortedLE_iff_monotone_get.mp hs
    exact hm (show (⟨i, by omega⟩ : Fin s.length) ≤ ⟨j, hj⟩ from hij)
  rcases eq_or_lt_of_le hfl with e | e
  · have hcf : ⌈h⌉₊ = ⌊h⌋₊ := by
      conv_lhs => rw [← e]
      exact Nat.ceil_natCast _
    have h00 : h - (⌊h⌋₊:ℝ) = 0 := by linarith
    have : s[⌈h⌉₊] = s[⌊h⌋₊] := by congr 1
    rw [ea, h00, this]; simp
  · have hcf : ⌈h⌉₊ = ⌊h⌋₊ + 1 := by
      apply le_antisymm
      · exact Nat.ceil_le_floor_add_one h
      · rw [Nat.succ_le_iff, Nat.lt_ceil]; exact e
    have hj : ⌊h⌋₊ + 1 < s.length := by omega
    have eb : s.getD (⌊h⌋₊ + 1) (s[⌊h⌋₊]) = s[⌊h⌋₊ + 1] := by
      simp [List.getD_eq_getElem?_getD, hj]
    rw [ea, eb]
    have hlt : h < ⌊h⌋₊ + 1 := Nat.lt_floor_add_one h
    have hm := hmono (Nat.le_succ ⌊h⌋₊) hj
    have : s[⌈h⌉₊] = s[⌊h⌋₊ + 1] := by congr 1
    rw [this]
    nlinarith

/-- at most `⌈q (n-1)⌉` values lie strictly below the quantile -/
theorem countP_lt_quantile {s : List ℝ} (hne : s ≠ []) (hs : s.SortedLE) {q : ℝ} (h0 : 0 ≤ q)
    (h1 : q ≤ 1) :
    s.countP (fun x => decide (x < quantile s q)) ≤ ⌈q * ((s.length : ℝ) - 1)⌉₊ := by
  obtain ⟨hk, hQ⟩ := quantile_le hne hs h0 h1
  set k := ⌈q * ((s.length : ℝ) - 1)⌉₊
  rw [← List.take_append_drop k s, List.countP_append]
  rw [List.take_append_drop]
  have hd : (s.drop k).countP (fun x => decide (x < quantile s q)) = 0 := by
    rw [List.countP_eq_zero]
    intro x hx
    obtain ⟨i, hi, rfl⟩ := List.mem_iff_getElem.mp hx
    rw [List.getElem_drop]
    have hlen : k + i < s.length := by
      rw [List.length_drop] at hi; omega
    have hm : Monotone s.get := List.sortedLE_iff_monotone_get.mp hs
    have := hm (show (⟨k, hk⟩ : Fin s.length) ≤ ⟨k + i, hlen⟩ from Nat.le_add_right _ _)
    simp only [List.get_eq_getElem] at this
    simpa using hQ.trans this
  rw [hd, add_zero]
  exact (List.countP_le_length).trans (by simp)

end
end Frds

import Verif.Model.FftSmooth
import Verif.Spec.FftSmooth
import Mathlib.RingTheory.RootsOfUnity.Complex
import Mathlib.Data.List.GetD

/-! The convolution theorem for the sums `npFft`, `npIfft`. -/
set_option linter.unusedSimpArgs false
namespace Frds.Model
noncomputable section
open Frds Classical Finset

@[simp] theorem npFft_length (a : List ℂ) : (npFft a).length = a.length := by simp [npFft]
@[simp] theorem npIfft_length (a : List ℂ) : (npIfft a).length = a.length := by simp [npIfft]

/-- orthogonality of the characters -/
theorem char_sum {M : ℕ} (hM : 0 < M) (e : ℤ) :
    ∑ k ∈ range M, Complex.exp (2 * Real.pi * Complex.I * (k : ℂ) * (e : ℂ) / (M : ℂ))
      = if (M : ℤ) ∣ e then (M : ℂ) else 0 := by
  have hM' : (M : ℂ) ≠ 0 := by exact_mod_cast hM.ne'
  have hz := Complex.isPrimitiveRoot_exp M hM.ne'
  set z := Complex.exp (2 * Real.pi * Complex.I / M) with hzd
  have hterm : ∀ k : ℕ, Complex.exp (2 * Real.pi * Complex.I * (k : ℂ) * (e : ℂ) / (M : ℂ)) = (z ^ e) ^ k := by
    intro k
    rw [hzd, ← Complex.exp_int_mul, ← Complex.exp_nat_mul]
    congr 1; ring
  simp only [hterm]
  have hpow : (z ^ e) ^ M = 1 := by
    rw [← zpow_natCast, ← zpow_mul, mul_comm, zpow_mul, zpow_natCast, hz.pow_eq_one, one_zpow]
  split_ifs with h
  · have : z ^ e = 1 := (hz.zpow_eq_one_iff_dvd e).2 h
    rw [this]; simp
  · have hne : z ^ e ≠ 1 := fun h' => h ((hz.zpow_eq_one_iff_dvd e).1 h')
    have := mul_neg_geom_sum (z ^ e) M
    rw [hpow, sub_self] at this
    rcases mul_eq_zero.1 this with h0 | h0
    · exact absurd (sub_eq_zero.1 h0).symm hne
    · exact h0

theorem getD_fft (a : List ℂ) {k : ℕ} (hk : k < a.length) :
    (npFft a).getD k 0 = ∑ j ∈ range a.length,
      a.getD j 0 * Complex.exp (-(2 * Real.pi * Complex.I * (j : ℂ) * (k : ℂ)) / (a.length : ℂ)) := by
  simp [npFft, List.getD_eq_getElem?_getD, List.getElem?_map, List.getElem?_range hk]

/-- circular convolution -/
theorem ifft_mul {a b : List ℂ} {M : ℕ} (ha : a.length = M) (hb : b.length = M) {t : ℕ} (ht : t < M) :
    (npIfft (List.zipWith (· * ·) (npFft a) (npFft b))).getD t 0
      = ∑ j ∈ range M, ∑ l ∈ range M, if (M : ℤ) ∣ ((t : ℤ) - j - l) then a.getD j 0 * b.getD l 0 else 0 := by
  have hM : 0 < M := by omega
  have hM' : (M : ℂ) ≠ 0 := by exact_mod_cast hM.ne'
  have hlen : (List.zipWith (· * ·) (npFft a) (npFft b)).length = M := by simp [ha, hb]
  have hz : ∀ k, k < M → (List.zipWith (· * ·) (npFft a) (npFft b)).getD k 0
      = (npFft a).getD k 0 * (npFft b).getD k 0 := by
    intro k hk
    have h1 : k < (npFft a).length := by simpa [ha] using hk
    have h2 : k < (npFft b).length := by simpa [hb] using hk
    rw [List.getD_eq_getElem _ _ (by rw [hlen]; exact hk), List.getD_eq_getElem _ _ h1,
      List.getD_eq_getElem _ _ h2, List.getElem_zipWith]
  have e1 : (npIfft (List.zipWith (· * ·) (npFft a) (npFft b))).getD t 0
      = 1 / (M : ℂ) * ∑ k ∈ range M, (List.zipWith (· * ·) (npFft a) (npFft b)).getD k 0
        * Complex.exp ((2 * Real.pi * Complex.I * (k : ℂ) * (t : ℂ)) / (M : ℂ)) := by
    rw [npIfft, hlen]
    simp [List.getD_eq_getElem?_getD, List.getElem?_map, List.getElem?_range ht]
  rw [e1]
  have e2 : ∀ k ∈ range M, (List.zipWith (· * ·) (npFft a) (npFft b)).getD k 0
        * Complex.exp ((2 * Real.pi * Complex.I * (k : ℂ) * (t : ℂ)) / (M : ℂ))
      = ∑ j ∈ range M, ∑ l ∈ range M, a.getD j 0 * b.getD l 0
          * Complex.exp (2 * Real.pi * Complex.I * (k : ℂ) * (((t : ℤ) - j - l : ℤ) : ℂ) / (M : ℂ)) := by
    intro k hk
    have hk' := Finset.mem_range.1 hk
    rw [hz k hk', getD_fft a (by rw [ha]; exact hk'), getD_fft b (by rw [hb]; exact hk'), ha, hb,
      Finset.sum_mul_sum, Finset.sum_mul]
    refine Finset.sum_congr rfl fun j _ => ?_
    rw [Finset.sum_mul]
    refine Finset.sum_congr rfl fun l _ => ?_
    have : Complex.exp (2 * Real.pi * Complex.I * (k : ℂ) * (((t : ℤ) - j - l : ℤ) : ℂ) / (M : ℂ))
        = Complex.exp (-(2 * Real.pi * Complex.I * (j : ℂ) * (k : ℂ)) / (M : ℂ))
          * Complex.exp (-(2 * Real.pi * Complex.I * (l : ℂ) * (k : ℂ)) / (M : ℂ))
          * Complex.exp ((2 * Real.pi * Complex.I * (k : ℂ) * (t : ℂ)) / (M : ℂ)) := by
      rw [← Complex.exp_add, ← Complex.exp_add]
      congr 1; push_cast; ring
    rw [this]; ring
  rw [Finset.sum_congr rfl e2, Finset.sum_comm, Finset.mul_sum]
  refine Finset.sum_congr rfl fun j _ => ?_
  rw [Finset.sum_comm, Finset.mul_sum]
  refine Finset.sum_congr rfl fun l _ => ?_
  rw [← Finset.mul_sum, char_sum hM]
  split_ifs
  · field_simp
  · simp

/-- the smoothing kernel -/
def kern (n w : ℕ) : List ℝ :=
  List.replicate (n - w / 2) 0 ++ List.replicate w (1 / (w : ℝ)) ++ List.replicate (n - w / 2) 0

theorem kern_length {n w : ℕ} (hw : w % 2 = 0) (h : w / 2 ≤ n) : (kern n w).length = 2 * n := by
  simp [kern]; omega

theorem kern_getD {n w l : ℕ} :
    (kern n w).getD l 0 = if n - w / 2 ≤ l ∧ l < n - w / 2 + w then 1 / (w : ℝ) else 0 := by
  unfold kern
  rw [List.getD_eq_getElem?_getD, List.append_assoc, List.getElem?_append]
  simp only [List.length_replicate]
  split_ifs with h1 h2 h2
  · omega
  · simp [List.getElem?_replicate, h1]
  · rw [List.getElem?_append_left (by simp; omega), List.getElem?_replicate, if_pos (by omega)]; rfl
  · rw [List.getElem?_append_right (by simp; omega)]
    simp only [List.length_replicate, List.getElem?_replicate]
    split_ifs <;> simp

theorem getD_map_zero {α β : Type*} (f : α → β) (l : List α) (i : ℕ) (d : α) :
    (l.map f).getD i (f d) = f (l.getD i d) := by
  simp [List.getD_eq_getElem?_getD, List.getElem?_map]

/-- the transform product is the circular convolution with the box kernel: before position `n`, the sum
over the `w` neighbours (missing ones count as zero) divided by `w` -/
theorem fftProduct_getD {v : List ℝ} {n w t : ℕ} (hv : v.length = n) (hw : w % 2 = 0) (h : w / 2 ≤ n) (ht : t < n) :
    (fftProduct (List.replicate n 0 ++ v) (kern n w)).getD t 0
      = (∑ i ∈ (range n).filter (fun i => t < i + w / 2 ∧ i ≤ t + w / 2), v.getD i 0) * (1 / (w : ℝ)) := by
  have hlx : ((List.replicate n (0 : ℝ) ++ v).map fun y : ℝ => (y : ℂ)).length = 2 * n := by simp [hv]; omega
  have hlk : ((kern n w).map fun y : ℝ => (y : ℂ)).length = 2 * n := by simp [kern_length hw h]
  have hx : ∀ i, ((List.replicate n (0 : ℝ) ++ v).map fun y : ℝ => (y : ℂ)).getD i 0
      = (((List.replicate n (0 : ℝ) ++ v).getD i 0 : ℝ) : ℂ) := by
    intro i
    exact getD_map_zero (fun y : ℝ => (y : ℂ)) _ i 0
  have hk : ∀ i, ((kern n w).map fun y : ℝ => (y : ℂ)).getD i 0 = (((kern n w).getD i 0 : ℝ) : ℂ) := by
    intro i
    exact getD_map_zero (fun y : ℝ => (y : ℂ)) _ i 0
  have e0 : (fftProduct (List.replicate n 0 ++ v) (kern n w)).getD t 0
      = ((npIfft (List.zipWith (· * ·) (npFft ((List.replicate n (0 : ℝ) ++ v).map fun y : ℝ => (y : ℂ)))
          (npFft ((kern n w).map fun y : ℝ => (y : ℂ))))).getD t 0).re :=
    getD_map_zero Complex.re _ t 0
  rw [e0, ifft_mul hlx hlk (by omega)]
  have e1 : (∑ j ∈ range (2 * n), ∑ l ∈ range (2 * n), if ((2 * n : ℕ) : ℤ) ∣ ((t : ℤ) - j - l) then
        ((List.replicate n (0 : ℝ) ++ v).map fun y : ℝ => (y : ℂ)).getD j 0
          * ((kern n w).map fun y : ℝ => (y : ℂ)).getD l 0 else 0)
      = ((∑ j ∈ range (2 * n), ∑ l ∈ range (2 * n), if ((2 * n : ℕ) : ℤ) ∣ ((t : ℤ) - j - l) then
        (List.replicate n (0 : ℝ) ++ v).getD j 0 * (kern n w).getD l 0 else 0 : ℝ) : ℂ) := by
    push_cast
    refine Finset.sum_congr rfl fun j _ => Finset.sum_congr rfl fun l _ => ?_
    rw [hx, hk]; split_ifs <;> push_cast <;> rfl
  rw [e1, Complex.ofReal_re, two_mul n, Finset.sum_range_add]
  -- the padding contributes nothing
  have e2 : ∑ j ∈ range n, ∑ l ∈ range (n + n), (if ((n + n : ℕ) : ℤ) ∣ ((t : ℤ) - j - l) then
        (List.replicate n (0 : ℝ) ++ v).getD j 0 * (kern n w).getD l 0 else 0) = 0 := by
    refine Finset.sum_eq_zero fun j hj => Finset.sum_eq_zero fun l _ => ?_
    have : (List.replicate n (0 : ℝ) ++ v).getD j 0 = 0 := by
      rw [List.getD_eq_getElem?_getD, List.getElem?_append_left (by simpa using hj)]
      simp [List.getElem?_replicate]
      split_ifs <;> simp
    rw [this]; simp
  rw [e2, zero_add, Finset.sum_mul, Finset.sum_filter]
  refine Finset.sum_congr rfl fun i hi => ?_
  have hi' := Finset.mem_range.1 hi
  have e3 : (List.replicate n (0 : ℝ) ++ v).getD (n + i) 0 = v.getD i 0 := by
    rw [List.getD_eq_getElem?_getD, List.getElem?_append_right (by simp), List.getD_eq_getElem?_getD]
    simp
  rw [e3, Finset.sum_eq_single (t + n - i)]
  · rw [if_pos (by
      have : (t : ℤ) - (n + i : ℕ) - (t + n - i : ℕ) = -((n + n : ℕ) : ℤ) := by omega
      rw [this]; exact (dvd_refl _).neg_right), kern_getD]
    by_cases hc : t < i + w / 2 ∧ i ≤ t + w / 2
    · rw [if_pos hc, if_pos (by omega)]
    · rw [if_neg hc, if_neg (by omega), mul_zero]
  · intro l hl hne
    have hl' := Finset.mem_range.1 hl
    rw [if_neg]
    rintro ⟨c, hc⟩
    have hc1 : c < 0 := by
      by_contra hcc
      have : (0 : ℤ) ≤ ((n + n : ℕ) : ℤ) * c := mul_nonneg (by positivity) (by omega)
      omega
    have hc2 : -2 < c := by
      by_contra hcc
      have : ((n + n : ℕ) : ℤ) * c ≤ ((n + n : ℕ) : ℤ) * (-2) := mul_le_mul_of_nonneg_left (by omega) (by positivity)
      omega
    have : c = -1 := by omega
    subst this
    omega
  · intro hl
    simp only [Finset.mem_range] at hl
    omega

theorem fftProduct_length {v : List ℝ} {n w : ℕ} (hv : v.length = n) (hw : w % 2 = 0) (h : w / 2 ≤ n) :
    (fftProduct (List.replicate n 0 ++ v) (kern n w)).length = 2 * n := by
  simp [fftProduct, kern_length hw h, hv]; omega

/-- interior: the mean of a full window -/
theorem fftProduct_interior {v : List ℝ} {n w t : ℕ} (hv : v.length = n) (hw : w % 2 = 0)
    (h1 : w / 2 ≤ t) (h2 : t + w / 2 < n) :
    (fftProduct (List.replicate n 0 ++ v) (kern n w)).getD t 0 = Spec.windowMean (fun i => v.getD i 0) w t := by
  rw [fftProduct_getD hv hw (by omega) (by omega), Spec.windowMean, mul_one_div]
  congr 1
  refine Finset.sum_congr ?_ fun _ _ => rfl
  ext i
  simp only [Finset.mem_filter, Finset.mem_range, Finset.mem_Ioc]
  omega

theorem map_fin_injective : Function.Injective (List.map XR.fin) :=
  List.map_injective_iff.2 fun _ _ h => XR.fin_inj.1 h

theorem npIndex_fin {v : List ℝ} {i : ℕ} (h : i < v.length) :
    npIndex (v.map XR.fin) (i : ℤ) = .ok (.fin (v.getD i 0)) := by
  unfold npIndex
  simp only
  have hn : ¬ ((i : ℤ) < 0) := by omega
  rw [if_neg hn, if_pos (by simp; omega)]
  simp only [Int.toNat_natCast]
  rw [show (0 : XR) = .fin 0 from rfl, getD_map_zero XR.fin]

/-- `fftsmooth` in closed form -/
theorem fftsmooth_eq {v : List ℝ} {w : ℕ} (hn : v.length % 2 = 0) (hw : w % 2 = 0) (hw2 : w + 2 ≤ v.length) :
    fftsmooth (v.map XR.fin) w
      = .ok ((List.range v.length).map fun t => XR.fin (Spec.smoothed (fun i => v.getD i 0) v.length w t)) := by
  have hch : ∃ u : List ℝ, v.map XR.fin = u.map XR.fin := ⟨v, rfl⟩
  have hcv : hch.choose = v := (map_fin_injective hch.choose_spec).symm
  set n := v.length with hnd
  have hlen := fftProduct_length hnd.symm hw (by omega : w / 2 ≤ n)
  have hz1 : npZeros (n : ℤ) = .ok (List.replicate n 0) := by simp [npZeros]
  have hz2 : npZeros ((n : ℤ) - (w / 2 : ℕ)) = .ok (List.replicate (n - w / 2) 0) := by
    rw [npZeros, if_neg (by omega)]
    congr 2; omega
  unfold fftsmooth
  simp only [List.length_map, ← hnd, hn, hw, ne_eq, not_true_eq_false, if_false, bind, Except.bind, pure, Except.pure,
    hz1, hz2, if_neg (by omega : ¬ n = 0), dif_pos hch, hcv]
  have hk : List.replicate (n - w / 2) 0 ++ List.replicate w (1 / (w : ℝ)) ++ List.replicate (n - w / 2) 0
    = kern n w := rfl
  rw [hk]
  set xk := fftProduct (List.replicate n 0 ++ v) (kern n w) with hxk
  rw [npIndex_fin (by omega), show ((w / 2 : ℕ) : ℤ) + 1 = ((w / 2 + 1 : ℕ) : ℤ) by push_cast; ring,
    show (n : ℤ) - ((w / 2 : ℕ) : ℤ) - 1 = ((n - w / 2 - 1 : ℕ) : ℤ) by omega,
    show (n : ℤ) - ((w / 2 : ℕ) : ℤ) - 2 = ((n - w / 2 - 2 : ℕ) : ℤ) by omega]
  simp only
  rw [npIndex_fin (by omega)]
  simp only
  rw [npIndex_fin (by omega)]
  simp only
  rw [npIndex_fin (by omega)]
  simp only [XR.fin_sub, XR.fin_mul, XR.fin_add, Except.ok.injEq]
  rw [fftProduct_interior hnd.symm hw (by omega) (by omega), fftProduct_interior hnd.symm hw (by omega) (by omega),
    fftProduct_interior hnd.symm hw (by omega) (by omega), fftProduct_interior hnd.symm hw (by omega) (by omega)]
  apply List.ext_getElem?
  intro t
  have hmid : ∀ s, w / 2 ≤ s → s + w / 2 < n → (xk.map XR.fin)[s]? = some (.fin (Spec.windowMean (fun i => v.getD i 0) w s)) := by
    intro s h1 h2
    have h3 := fftProduct_interior hnd.symm hw h1 h2
    rw [← hxk] at h3
    rw [List.getElem?_map, List.getElem?_eq_getElem (by omega)]
    rw [List.getD_eq_getElem _ _ (by omega)] at h3
    rw [Option.map_some, h3]
  rw [List.append_assoc]
  by_cases c1 : t < w / 2
  · rw [List.getElem?_append_left (by simpa using c1), List.getElem?_map, List.getElem?_reverse (by simpa using c1)]
    simp only [List.length_map, List.length_range, List.getElem?_map]
    rw [List.getElem?_range (by omega), List.getElem?_range (by omega)]
    simp only [Option.map_some, Spec.smoothed, c1, if_true]
    congr 3
    rw [show w / 2 - 1 - t = w / 2 - (1 + t) by omega, Nat.cast_sub (by omega)]
    push_cast; ring
  · rw [List.getElem?_append_right (by simpa using c1)]
    simp only [List.length_map, List.length_reverse, List.length_range]
    by_cases c2 : t + w / 2 < n
    · rw [List.getElem?_append_left (by simp [hlen]; omega), List.getElem?_drop, List.getElem?_take_of_lt (by omega),
        hmid _ (by omega) (by omega), List.getElem?_map, List.getElem?_range (by omega)]
      simp only [Option.map_some, Spec.smoothed, c1, if_false]
      rw [if_pos (by omega), show w / 2 + (t - w / 2) = t by omega]
    · rw [List.getElem?_append_right (by simp [hlen]; omega)]
      simp only [List.length_drop, List.length_take, List.length_map, hlen]
      by_cases c3 : t < n
      · rw [List.getElem?_map, List.getElem?_map, List.getElem?_range (by omega), List.getElem?_range c3]
        simp only [Option.map_some, Spec.smoothed, c1, if_false]
        rw [if_neg (by omega), show n - w / 2 - 1 - 1 = n - w / 2 - 2 by omega]
        congr 4
        have e1 : ((n - w / 2 - 1 : ℕ) : ℝ) = (n : ℝ) - ((w / 2 : ℕ) : ℝ) - 1 := by
          rw [show n - w / 2 - 1 = n - (w / 2 + 1) by omega, Nat.cast_sub (by omega)]; push_cast; ring
        have e2 : ((n - w / 2 : ℕ) : ℝ) = (n : ℝ) - ((w / 2 : ℕ) : ℝ) := Nat.cast_sub (by omega)
        rw [show t - w / 2 - (min (n - w / 2) (2 * n) - w / 2) = t - (n - w / 2) by omega, Nat.cast_sub (by omega),
          e1, e2]
        ring
      · rw [List.getElem?_eq_none (by simp; omega), List.getElem?_eq_none (by simp; omega)]

end
end Frds.Model

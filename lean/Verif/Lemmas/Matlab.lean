import Verif.Model.Matlab
import Verif.Lemmas.CohortVal
import Verif.Spec.Matlab
import Mathlib.Tactic.Rify
import Mathlib.Tactic.Qify

/-! Lemmas on the Matlab reference code. -/
set_option linter.unusedSimpArgs false
namespace Frds.Model.Matlab
noncomputable section
open Frds Frds.Model Frds.Spec Classical

theorem sum_Icc_one (n : ℕ) (g : ℕ → ℂ) : ∑ j ∈ Finset.Icc 1 n, g j = ∑ j ∈ Finset.range n, g (j + 1) := by
  rw [Finset.range_eq_Ico, Finset.sum_Ico_add' g 0 n 1]
  rfl

theorem root_pow (n e : ℕ) : root n ^ e = Complex.exp (-(2 * Real.pi * Complex.I * (e : ℂ)) / (n : ℂ)) := by
  rw [root, ← Complex.exp_nat_mul]; congr 1; ring

theorem fft_eq (x : List ℂ) : fft x = npFft x := by
  unfold fft npFft
  rw [List.range'_eq_map_range, List.map_map]
  refine List.map_congr_left fun k _ => ?_
  simp only [Function.comp, sum_Icc_one, root_pow, Nat.add_sub_cancel, Nat.add_sub_cancel_left]
  refine Finset.sum_congr rfl fun j _ => ?_
  push_cast; congr 3; ring

theorem ifft_eq (x : List ℂ) : ifft x = npIfft x := by
  unfold ifft npIfft
  rw [List.range'_eq_map_range, List.map_map]
  refine List.map_congr_left fun k _ => ?_
  simp only [Function.comp, sum_Icc_one, root_pow, Nat.add_sub_cancel, Nat.add_sub_cancel_left]
  congr 1
  refine Finset.sum_congr rfl fun j _ => ?_
  rw [← Complex.exp_neg]
  push_cast; congr 2; ring

/-- the product of the transforms of real vectors transforms back to a real vector -/
theorem ifft_real {a b : List ℝ} (h : a.length = b.length) :
    npIfft (List.zipWith (· * ·) (npFft (a.map fun v : ℝ => (v : ℂ))) (npFft (b.map fun v : ℝ => (v : ℂ))))
      = (fftProduct a b).map fun v : ℝ => (v : ℂ) := by
  have hg : ∀ (l : List ℝ) (i : ℕ), (l.map fun y : ℝ => (y : ℂ)).getD i 0 = ((l.getD i 0 : ℝ) : ℂ) :=
    fun l i => getD_map_zero (fun y : ℝ => (y : ℂ)) l i 0
  unfold fftProduct
  rw [List.map_map]
  conv_lhs => rw [← List.map_id (npIfft _)]
  refine List.map_congr_left fun c hc => ?_
  obtain ⟨t, ht, rfl⟩ := List.getElem_of_mem hc
  have ht' : t < a.length := by simpa [h] using ht
  have := ifft_mul (a := a.map fun v : ℝ => (v : ℂ)) (b := b.map fun v : ℝ => (v : ℂ)) (M := a.length) (by simp)
    (by simp [h]) ht'
  rw [List.getD_eq_getElem _ _ ht] at this
  rw [this]
  simp only [id, Function.comp]
  have e : (∑ j ∈ Finset.range a.length, ∑ l ∈ Finset.range a.length,
      if (a.length : ℤ) ∣ ((t : ℤ) - j - l) then (a.map fun v : ℝ => (v : ℂ)).getD j 0
        * (b.map fun v : ℝ => (v : ℂ)).getD l 0 else 0)
      = ((∑ j ∈ Finset.range a.length, ∑ l ∈ Finset.range a.length,
        if (a.length : ℤ) ∣ ((t : ℤ) - j - l) then a.getD j 0 * b.getD l 0 else 0 : ℝ) : ℂ) := by
    push_cast
    refine Finset.sum_congr rfl fun j _ => Finset.sum_congr rfl fun l _ => ?_
    rw [hg, hg]; split_ifs <;> push_cast <;> rfl
  rw [e, Complex.ofReal_re]

/-- the list both versions return, from the real vector `xk` -/
def smoothList (xk : List ℝ) (n k : ℕ) : List ℝ :=
  ((List.range k).map fun i : ℕ => xk.getD k 0 - ((k : ℝ) - i) * (xk.getD (k + 1) 0 - xk.getD k 0))
    ++ (xk.take (n - k)).drop k
    ++ (List.range k).map fun i : ℕ => xk.getD (n - k - 1) 0
      + ((i : ℝ) + 1) * (xk.getD (n - k - 1) 0 - xk.getD (n - k - 2) 0)

theorem index_nat {a : List ℝ} {i : ℕ} (h1 : 1 ≤ i) (h2 : i ≤ a.length) {q : ℚ} (hq : q = i) :
    index (a.map fun v : ℝ => (v : ℂ)) q = some ((a.getD (i - 1) 0 : ℝ) : ℂ) := by
  subst hq
  have hl : i - 1 < (a.map fun v : ℝ => (v : ℂ)).length := by simp; omega
  unfold index
  rw [if_pos ⟨by simp, by exact_mod_cast h1, by simpa using h2⟩]
  rw [show (i : ℚ).num.toNat - 1 = i - 1 by simp, List.getElem?_eq_getElem hl, List.getElem_map,
    List.getD_eq_getElem _ _ (by simpa using hl)]

theorem column_nat {m : ℕ} (v : ℝ) {q : ℚ} (hq : q = m) : column q v = some (List.replicate m v) := by
  subst hq; simp [column]

theorem smooth_ok {v : List ℝ} {k : ℕ} (hk : k + 2 ≤ v.length) {w : ℚ} (hw : w = 2 * k) :
    smooth v w = some ((smoothList (fftProduct (List.replicate v.length 0 ++ v) (kern v.length (2 * k)))
      v.length k).map fun c : ℝ => (c : ℂ)) := by
  set n := v.length with hn
  have hw2 : w / 2 = (k : ℕ) := by rw [hw]; ring
  have hnk : (n : ℚ) - w / 2 = ((n - k : ℕ) : ℚ) := by rw [hw2, Nat.cast_sub (by omega)]
  have hwn : w = ((2 * k : ℕ) : ℚ) := by rw [hw]; push_cast; ring
  have hkern : List.replicate (n - k) (0 : ℝ) ++ (List.replicate (2 * k) (1 : ℝ)).map (· / (w : ℝ))
      ++ List.replicate (n - k) 0 = kern n (2 * k) := by
    unfold kern
    rw [show 2 * k / 2 = k by omega, List.map_replicate, hw]; push_cast; rfl
  have hkl : (kern n (2 * k)).length = 2 * n := kern_length (by omega) (by omega)
  have hlen := fftProduct_length hn.symm (w := 2 * k) (by omega) (by omega)
  unfold smooth
  simp only [← hn, column_nat 0 (rfl : (n : ℚ) = (n : ℕ)), column_nat 0 hnk, column_nat 1 hwn, Option.map_some, bind,
    Option.bind, hkern, hkl, List.length_append, List.length_replicate, List.length_map, pure]
  rw [if_neg (by omega), fft_eq, fft_eq, ifft_eq, ifft_real (by simp [hkl, ← hn]; omega)]
  set xk := fftProduct (List.replicate n 0 ++ v) (kern n (2 * k)) with hxk
  rw [index_nat (i := k + 2) (by omega) (by omega) (by rw [hw2]; push_cast; ring)]
  simp only
  rw [index_nat (i := k + 1) (by omega) (by omega) (by rw [hw2]; push_cast; ring)]
  simp only
  rw [index_nat (i := n - k) (by omega) (by omega) hnk]
  simp only
  rw [index_nat (i := n - k - 1) (by omega) (by omega) (by rw [hnk, Nat.cast_sub (show 1 ≤ n - k by omega)]; push_cast; ring)]
  have hnk' : (n : ℚ) - (k : ℕ) = ((n - k : ℕ) : ℚ) := by rw [← hnk, hw2]
  simp only [hw2, hnk']
  simp only [Rat.num_natCast, Int.toNat_natCast, smoothList, List.map_append, List.map_map, List.map_take, List.map_drop,
    Nat.add_sub_cancel, Option.some.injEq, List.range'_eq_map_range]
  rw [show k + 2 - 1 = k + 1 by omega, show n - k - 1 - 1 = n - k - 2 by omega]
  congr 1
  · congr 1
    refine List.map_congr_left fun i _ => ?_
    simp only [Function.comp]; push_cast; ring
  · refine List.map_congr_left fun i _ => ?_
    simp only [Function.comp]; push_cast; ring

theorem smooth_some {v : List ℝ} {w : ℚ} (h : (smooth v w).isSome) : ∃ k : ℕ, w = 2 * k ∧ k + 2 ≤ v.length := by
  unfold smooth at h
  simp only [bind, Option.bind, pure, column] at h
  set n := v.length
  by_cases h1 : ((n : ℚ) - w / 2).den = 1
  swap
  · simp only [Rat.den_natCast, if_true, Option.map_some, if_neg h1] at h
    simp at h
  by_cases h2 : w.den = 1
  swap
  · simp only [Rat.den_natCast, if_true, Option.map_some, if_pos h1, if_neg h2] at h
    simp at h
  simp only [h1, h2, if_true, Option.map_some, Rat.den_natCast] at h
  obtain ⟨z, hz⟩ : ∃ z : ℤ, (n : ℚ) - w / 2 = z := ⟨_, (Rat.coe_int_num_of_den_eq_one h1).symm⟩
  have hw : w = ((2 * (n - z) : ℤ) : ℚ) := by push_cast; linarith
  split_ifs at h with h3
  · simp at h
  rw [not_not] at h3
  have hlen := h3
  have hnz : ((n : ℚ) - w / 2).num = z := by rw [hz]; simp
  have hwz : w.num = 2 * ((n : ℤ) - z) := by rw [hw]; exact Rat.num_intCast _
  simp only [hnz, hwz, List.length_append, List.length_map, List.length_replicate, Rat.num_natCast,
    Int.toNat_natCast] at hlen
  have hn' : n = v.length := rfl
  -- the last index used
  have hidx : 1 ≤ (n : ℚ) - w / 2 - 1 := by
    by_contra hc
    have hnone : ∀ a : List ℂ, index a ((n : ℚ) - w / 2 - 1) = none := by
      intro a; rw [index, if_neg (fun hh => hc hh.2.1)]
    simp only [hnone] at h
    revert h
    cases index _ (w / 2 + 2) <;> cases index _ (w / 2 + 1) <;> cases index _ ((n : ℚ) - w / 2) <;> simp
  rw [hz] at hidx
  have hz2 : 2 ≤ z := by
    have : (1 : ℚ) ≤ ((z - 1 : ℤ) : ℚ) := by push_cast; exact hidx
    have : 1 ≤ z - 1 := by exact_mod_cast this
    omega
  refine ⟨((n : ℤ) - z).toNat, ?_, by omega⟩
  rw [hw]
  have : ((((n : ℤ) - z).toNat : ℕ) : ℤ) = (n : ℤ) - z := Int.toNat_of_nonneg (by omega)
  have : ((((n : ℤ) - z).toNat : ℕ) : ℚ) = (n : ℚ) - z := by exact_mod_cast this
  rw [this]; push_cast; ring

/-- the Python version, in terms of the same list -/
theorem py_smooth {v : List ℝ} {k : ℕ} (hn : v.length % 2 = 0) (hk : k + 2 ≤ v.length) :
    Model.fftsmooth (v.map XR.fin) (2 * k) = .ok ((smoothList
      (fftProduct (List.replicate v.length 0 ++ v) (kern v.length (2 * k))) v.length k).map XR.fin) := by
  have hch : ∃ u : List ℝ, v.map XR.fin = u.map XR.fin := ⟨v, rfl⟩
  have hcv : hch.choose = v := (map_fin_injective hch.choose_spec).symm
  set n := v.length with hnd
  have h2 : 2 * k / 2 = k := by omega
  have hlen := fftProduct_length hnd.symm (w := 2 * k) (by omega) (by omega)
  have hz1 : npZeros (n : ℤ) = .ok (List.replicate n 0) := by simp [npZeros]
  have hz2 : npZeros ((n : ℤ) - (k : ℕ)) = .ok (List.replicate (n - k) 0) := by
    rw [npZeros, if_neg (by omega)]
    congr 2; omega
  unfold Model.fftsmooth
  simp only [List.length_map, ← hnd, hn, h2, show 2 * k % 2 = 0 by omega, ne_eq, not_true_eq_false, if_false, bind,
    Except.bind, pure, Except.pure, hz1, hz2, if_neg (by omega : ¬ n = 0), dif_pos hch, hcv]
  have hk' : List.replicate (n - k) 0 ++ List.replicate (2 * k) (1 / ((2 * k : ℕ) : ℝ)) ++ List.replicate (n - k) 0
      = kern n (2 * k) := by unfold kern; rw [h2]
  rw [hk']
  set xk := fftProduct (List.replicate n 0 ++ v) (kern n (2 * k)) with hxk
  rw [npIndex_fin (by omega), show ((k : ℕ) : ℤ) + 1 = ((k + 1 : ℕ) : ℤ) by push_cast; ring,
    show (n : ℤ) - ((k : ℕ) : ℤ) - 1 = ((n - k - 1 : ℕ) : ℤ) by omega,
    show (n : ℤ) - ((k : ℕ) : ℤ) - 2 = ((n - k - 2 : ℕ) : ℤ) by omega]
  simp only
  rw [npIndex_fin (by omega)]
  simp only
  rw [npIndex_fin (by omega)]
  simp only
  rw [npIndex_fin (by omega)]
  simp only [XR.fin_sub, XR.fin_mul, XR.fin_add, Except.ok.injEq, smoothList, List.map_append, List.map_map,
    List.map_take, List.map_drop]
  congr 1
  congr 1
  apply List.ext_getElem (by simp)
  intro i h1 h2
  simp only [List.length_map, List.length_reverse, List.length_range] at h1 h2
  simp only [List.getElem_map, List.getElem_reverse, List.getElem_range, List.length_map, List.length_range,
    Function.comp, XR.fin_inj]
  rw [show k - 1 - i = k - (1 + i) by omega, Nat.cast_sub (by omega)]
  push_cast; ring

/-! ### Sorting -/

theorem argsort_congr {key key' : List XR} (hl : key.length = key'.length)
    (h : ∀ i < key.length, ∀ j < key.length, lexKey key i < lexKey key j ↔ lexKey key' i < lexKey key' j) :
    argsortStable key = argsortStable key' := by
  have hp : (argsortStable key).Perm (argsortStable key') := by
    refine (argsort_perm key).trans ?_
    rw [hl]; exact (argsort_perm key').symm
  have hs' : (argsortStable key').Pairwise fun i j => lexKey key i < lexKey key j := by
    refine (argsort_sorted key').imp_of_mem fun {i j} hi hj hij => ?_
    exact (h i (by rw [hl]; exact argsort_lt key' hi) j (by rw [hl]; exact argsort_lt key' hj)).2 hij
  refine hp.eq_of_pairwise (fun i j _ _ h1 h2 => ?_) (argsort_sorted key) hs'
  exact absurd (h1.trans h2) (lt_irrefl _)

theorem argsort_fin_congr {k k' : List ℝ} (hl : k.length = k'.length)
    (h : ∀ i < k.length, ∀ j < k.length, k.getD i 0 < k.getD j 0 ↔ k'.getD i 0 < k'.getD j 0) :
    argsortStable (k.map XR.fin) = argsortStable (k'.map XR.fin) := by
  refine argsort_congr (by simpa using hl) fun i hi j hj => ?_
  have hi : i < k.length := by simpa using hi
  have hj : j < k.length := by simpa using hj
  rw [lexKey_lt_fin hj hi, lexKey_lt_fin (by omega) (by omega), h i hi j hj]
  have h1 := h i hi j hj
  have h2 := h j hj i hi
  have : k.getD i 0 = k.getD j 0 ↔ k'.getD i 0 = k'.getD j 0 := by
    constructor
    · intro e
      exact le_antisymm (not_lt.1 fun hh => absurd (h2.2 hh) (by rw [e]; exact lt_irrefl _))
        (not_lt.1 fun hh => absurd (h1.2 hh) (by rw [e]; exact lt_irrefl _))
    · intro e
      exact le_antisymm (not_lt.1 fun hh => absurd (h2.1 hh) (by rw [e]; exact lt_irrefl _))
        (not_lt.1 fun hh => absurd (h1.1 hh) (by rw [e]; exact lt_irrefl _))
  rw [this]

theorem mapM_some_map {α β : Type*} (f : α → Option β) (g : α → β) (l : List α)
    (h : ∀ a ∈ l, f a = some (g a)) : l.mapM f = some (l.map g) := by
  induction l with
  | nil => rfl
  | cons a l ih =>
    rw [List.mapM_cons, h a (by simp), ih fun b hb => h b (by simp [hb])]
    rfl

theorem fftsmooth_fin (v : List ℝ) (w : ℚ) :
    fftsmooth (v.map XR.fin) w = (smooth v w).map fun l => l.map fun c => XR.fin c.re := by
  have hch : ∃ u : List ℝ, v.map XR.fin = u.map XR.fin := ⟨v, rfl⟩
  have hcv : hch.choose = v := (map_fin_injective hch.choose_spec).symm
  rw [fftsmooth, dif_pos hch, hcv]

/-- Python and Matlab smooth alike -/
theorem smooth_same {v : List ℝ} {k : ℕ} (hn : v.length % 2 = 0) (hk : k + 2 ≤ v.length) {w : ℚ} (hw : w = 2 * k) :
    ∃ l : List ℝ, Model.fftsmooth (v.map XR.fin) (2 * k) = .ok (l.map XR.fin) ∧ fftsmooth (v.map XR.fin) w = some (l.map XR.fin) := by
  refine ⟨_, py_smooth hn hk, ?_⟩
  rw [fftsmooth_fin, smooth_ok hk hw, Option.map_some, List.map_map]
  rfl

theorem smoothList_length {xk : List ℝ} {n k : ℕ} (h : xk.length = 2 * n) (hk : k + 2 ≤ n) :
    (smoothList xk n k).length = Max.max n (2 * k) := by
  simp only [smoothList, List.length_append, List.length_map, List.length_range, List.length_drop, List.length_take, h]
  omega

theorem condExp_same {key key' : List XR} {v : List ℝ} {k : ℕ} (hl : key.length = v.length)
    (hl' : key'.length = v.length)
    (hind : argsortStable key' = argsortStable (key.map Model.round9)) (hn : v.length % 2 = 0)
    (hk : 2 * k + 2 ≤ v.length) {win : ℚ} (hw : win = 2 * k) :
    ∃ l, Model.condExp key (v.map XR.fin) (2 * k) = .ok l ∧ condExp key' (v.map XR.fin) win = some l := by
  have hp := condExp_eq (win := 2 * k) hl hn (by omega) hk
  refine ⟨_, hp, ?_⟩
  -- the sorted payoffs
  have hkl : (key.map Model.round9).length = v.length := by simpa using hl
  set ind := argsortStable (key.map Model.round9) with hi
  have hil : ind.length = v.length := by rw [hi, argsort_length, hkl]
  have hs : (ind.map fun q => (v.map XR.fin).getD q .nan) = (ind.map fun q => v.getD q 0).map XR.fin := by
    rw [List.map_map]
    refine List.map_congr_left fun q hq => ?_
    have hq' : q < v.length := hkl ▸ argsort_lt _ hq
    rw [List.getD_eq_getElem _ _ (by simpa using hq'), List.getElem_map]
    simp only [Function.comp]
    rw [List.getD_eq_getElem _ _ hq']
  obtain ⟨l, h1, h2⟩ := smooth_same (v := ind.map fun q => v.getD q 0) (k := k) (by simpa [hil] using hn)
    (by simp only [List.length_map, hil]; omega) hw
  have hll : l.length = v.length := by
    have e := h1.symm.trans (py_smooth (v := ind.map fun q => v.getD q 0) (k := k) (by simpa [hil] using hn)
      (by simp only [List.length_map, hil]; omega))
    have e' := congrArg List.length (Except.ok.inj e)
    rw [List.length_map, List.length_map, smoothList_length (fftProduct_length rfl (by omega)
      (by simp only [List.length_map, hil]; omega)) (by simp only [List.length_map, hil]; omega)] at e'
    rw [e', List.length_map, hil]; omega
  unfold Model.condExp at hp
  simp only [bind, Except.bind, ← hi] at hp
  rw [hs, h1] at hp
  simp only at hp
  unfold condExp
  simp only [bind, Option.bind, hind]
  rw [hs, h2]
  simp only
  have hq : ∀ q ∈ scatterInv ind, q < v.length := by
    intro q hq
    rw [hi, scatterInv_argsort, hkl] at hq
    obtain ⟨t, ht, rfl⟩ := List.mem_map.1 hq
    have := rankOf_lt (key.map Model.round9) (q := t) (by rw [hkl]; exact List.mem_range.1 ht)
    rwa [hkl] at this
  rw [mapM_ok_map _ (fun q => XR.fin (l.getD q 0)) _ fun q hqq => npIndex_fin (by rw [hll]; exact hq q hqq)] at hp
  rw [← Except.ok.inj hp]
  refine mapM_some_map _ _ _ fun q hqq => ?_
  have := hq q hqq
  rw [List.getElem?_map, List.getElem?_eq_getElem (by omega), List.getD_eq_getElem _ _ (by omega)]
  rfl

/-! ### Rounding -/

theorem rint_near (x : ℝ) : |(rint x : ℝ) - x| ≤ 1 / 2 := by
  have h0 := Int.floor_add_fract x
  have h1 := Int.fract_nonneg x
  have h2 := Int.fract_lt_one x
  unfold rint
  rw [abs_le]
  split_ifs <;> push_cast <;> constructor <;> linarith

/-- numbers more than `10⁻⁹` apart keep their order when rounded -/
theorem round9_lt {x y : ℝ} (h : x + 1 / 10 ^ 9 < y) : Spec.round9 x < Spec.round9 y := by
  unfold Spec.round9
  refine div_lt_div_of_pos_right ?_ (by positivity)
  have h1 := abs_le.1 (rint_near (x * 10 ^ 9))
  have h2 := abs_le.1 (rint_near (y * 10 ^ 9))
  have h3 : x * 10 ^ 9 + 1 < y * 10 ^ 9 := by
    have := mul_lt_mul_of_pos_right h (show (0 : ℝ) < 10 ^ 9 by positivity)
    rw [add_mul] at this
    norm_num at this ⊢
    linarith
  generalize x * 10 ^ 9 = a at *
  generalize y * 10 ^ 9 = b at *
  linarith [h1.2, h2.1]

theorem rint_of_near {x : ℝ} {z : ℤ} (h : |(z : ℝ) - x| < 1 / 2) : rint x = z := by
  have h0 := Int.floor_add_fract x
  have h1 := Int.fract_nonneg x
  have h2 := Int.fract_lt_one x
  obtain ⟨a, b⟩ := abs_lt.1 h
  have c1 : (⌊x⌋ : ℝ) - 1 < z := by linarith
  have c2 : (z : ℝ) < ⌊x⌋ + 2 := by linarith
  have c1' : ⌊x⌋ - 1 < z := by exact_mod_cast c1
  have c2' : z < ⌊x⌋ + 2 := by exact_mod_cast c2
  have hz : z = ⌊x⌋ ∨ z = ⌊x⌋ + 1 := by omega
  unfold rint
  rcases hz with hz | hz
  · rw [if_pos]
    · exact hz.symm
    · have : (z : ℝ) = ⌊x⌋ := by exact_mod_cast hz
      linarith
  · have : (z : ℝ) = ⌊x⌋ + 1 := by exact_mod_cast hz
    rw [if_neg (by linarith), if_pos (by linarith), hz]

/-- away from half-way points the two roundings agree -/
theorem round9_same {x : ℝ} (h : ∀ m : ℤ, x * 10 ^ 9 ≠ m + 1 / 2) : round9 (.fin x) = Model.round9 (.fin x) := by
  have key : rint (x * 10 ^ 9) = if 0 ≤ x then ⌊x * 10 ^ 9 + 1 / 2⌋ else -⌊-x * 10 ^ 9 + 1 / 2⌋ := by
    refine rint_of_near ?_
    split_ifs with hx
    · have a := Int.floor_le (x * 10 ^ 9 + 1 / 2)
      have b := Int.lt_floor_add_one (x * 10 ^ 9 + 1 / 2)
      have c : (⌊x * 10 ^ 9 + 1 / 2⌋ : ℝ) ≠ x * 10 ^ 9 + 1 / 2 := by
        intro e
        refine h (⌊x * 10 ^ 9 + 1 / 2⌋ - 1) ?_
        push_cast; linarith
      have c' := lt_of_le_of_ne a c
      rw [abs_lt]; constructor <;> linarith
    · have a := Int.floor_le (-x * 10 ^ 9 + 1 / 2)
      have b := Int.lt_floor_add_one (-x * 10 ^ 9 + 1 / 2)
      have c : (⌊-x * 10 ^ 9 + 1 / 2⌋ : ℝ) ≠ -x * 10 ^ 9 + 1 / 2 := by
        intro e
        refine h (-⌊-x * 10 ^ 9 + 1 / 2⌋) ?_
        push_cast; linarith
      have c' := lt_of_le_of_ne a c
      push_cast
      rw [abs_lt]; constructor <;> linarith
  simp only [round9, Model.round9, key, XR.fin_inj]
  split_ifs <;> push_cast <;> rfl

/-! ### The end of the two computations -/

theorem min_fin (a b : ℝ) : min (.fin a) (.fin b) = XR.npMin (.fin a) (.fin b) := by
  rw [XR.npMin_fin]
  simp only [min, XR.isNan, reduceCtorEq, if_false, XR.fin_le]
  split_ifs with h
  · rw [min_eq_left h]
  · rw [min_eq_right (not_le.1 h).le]

theorem max_fin (a b : ℝ) : max (.fin a) (.fin b) = XR.npMax (.fin a) (.fin b) := by
  rw [XR.npMax_fin]
  simp only [max, XR.isNan, reduceCtorEq, if_false, XR.fin_le]
  split_ifs with h
  · rw [max_eq_left h]
  · rw [max_eq_right (not_le.1 h).le]

theorem vol_same {c u d : ℝ} (hc : 0 < c) :
    SameVol u d ((10 / 2) * (XR.log (.fin (c * u)) - XR.log (.fin (c * d))))
      ((10 / 2) * ((clog (.fin (c * u))).1 - (clog (.fin (c * d))).1))
      (10 / 2 * ((clog (.fin (c * u))).2 - (clog (.fin (c * d))).2)) := by
  have h5 : (10 / 2 : XR) = .fin 5 := by
    rw [XR.ofNat_def, XR.ofNat_def, XR.fin_div _ (by norm_num : (OfNat.ofNat 2 : ℝ) ≠ 0)]; norm_num
  have hneg : ∀ {x : ℝ}, x < 0 → c * x < 0 := fun h => mul_neg_of_pos_of_neg hc h
  have hnn : ∀ {x : ℝ}, 0 ≤ x → ¬ c * x < 0 := fun h => not_lt.2 (mul_nonneg hc.le h)
  have hlogneg : ∀ {x : ℝ}, x < 0 → XR.log (.fin x) = .nan := by
    intro x hx
    simp [XR.log, hx, not_lt.2 hx.le, hx.ne]
  have hre : ∀ {x : ℝ}, x ≠ 0 → (clog (.fin (c * x))).1 = .fin (Real.log (c * |x|)) := by
    intro x hx
    rcases lt_or_gt_of_ne hx with h | h
    · simp only [clog, if_pos (hneg h)]
      rw [abs_of_neg h]; congr 2; ring
    · simp only [clog, if_neg (hnn h.le)]
      rw [XR.fin_log (mul_pos hc h), abs_of_pos h]
  rw [h5]
  constructor
  · intro hu hd
    simp only [clog, if_neg (hnn hu), if_neg (hnn hd)]
    simp
  · rintro (h | h)
    · rw [hlogneg (hneg h)]; cases XR.log (.fin (c * d)) <;> rfl
    · rw [hlogneg (hneg h)]; cases XR.log (.fin (c * u)) <;> rfl
  · intro hu hd
    rw [hre hu, hre hd, XR.fin_sub, XR.fin_mul, ← Real.log_div (by positivity) (by positivity),
      mul_div_mul_left _ _ hc.ne']
  · intro hu hd
    simp only [clog, if_pos (hneg hu), if_neg (hnn hd)]; ring
  · intro hu hd
    simp only [clog, if_neg (hnn hu), if_pos (hneg hd)]; ring
  · intro hu hd
    simp only [clog, if_pos (hneg hu), if_pos (hneg hd)]; ring

theorem vol_same' {c u d : ℝ} {U D U' D' : XR} (hc : 0 < c) (hU : U = .fin (c * u)) (hD : D = .fin (c * d))
    (hU' : U' = .fin (c * u)) (hD' : D' = .fin (c * d)) :
    SameVol u d ((10 / 2) * (XR.log U - XR.log D)) ((10 / 2) * ((clog U').1 - (clog D').1))
      (10 / 2 * ((clog U').2 - (clog D').2)) := by
  subst hU hD hU' hD'
  exact vol_same hc

theorem mean_rows (n : ℕ) (a : ℕ → ℕ → XR) (s : ℕ) :
    mean ((List.range n).map fun i => a i s) = meanRows n a s := rfl

/-- one result of the end of a computation: equal columns have equal means -/
theorem meanRows_congr {n : ℕ} {a b : ℕ → ℕ → XR} {s : ℕ} (h : ∀ i < n, a i s = b i s) :
    meanRows n a s = meanRows n b s := by
  unfold meanRows
  congr 1
  exact List.map_congr_left fun i hi => h i (List.mem_range.1 hi)

theorem tail_same {p : CohortParam} {n szfs : ℕ} (hn : 2 ≤ n) {LH face FH Ft : ℕ → ℕ → XR} {mu F : XR}
    {L : ℕ → ℕ → ℝ} (h : ∀ i < n, ∀ s < 3 * szfs, LH i s = .fin (L i s)) :
    ∃ o, tail p n szfs LH face FH Ft mu F = some o
      ∧ SameResults n szfs (bankTail p n szfs LH face FH Ft mu F) o.re
      ∧ (∀ s < szfs, SameVol (∑ i ∈ Finset.range n, L i (szfs + s)) (∑ i ∈ Finset.range n, L i (2 * szfs + s))
          ((bankTail p n szfs LH face FH Ft mu F).sigLt s) (o.re.sigLt s) (o.sigLtIm s))
      ∧ ∀ s < szfs, SameVol
          (∑ i ∈ Finset.range n, (L i (szfs + s) - Min.min p.D (L i (szfs + s) * Real.exp (-p.y * p.H))))
          (∑ i ∈ Finset.range n, (L i (2 * szfs + s) - Min.min p.D (L i (2 * szfs + s) * Real.exp (-p.y * p.H))))
          ((bankTail p n szfs LH face FH Ft mu F).sigEt s) (o.re.sigEt s) (o.sigEtIm s) := by
  have hey : XR.exp (-XR.fin p.y * .fin p.H) = .fin (Real.exp (-p.y * p.H)) := rfl
  have hB : ∀ i < n, ∀ s < 3 * szfs, min (.fin p.D) (LH i s * XR.exp (-.fin p.y * .fin p.H))
      = XR.npMin (.fin p.D) (LH i s * XR.exp (-.fin p.y * .fin p.H)) := by
    intro i hi s hs
    rw [h i hi s hs, hey, XR.fin_mul, min_fin]
  have hG : ∀ i < n, ∀ s < 3 * szfs, max (.fin p.D - LH i s * XR.exp (-.fin p.y * .fin p.H)) 0
      = XR.npMax (.fin p.D - LH i s * XR.exp (-.fin p.y * .fin p.H)) 0 := by
    intro i hi s hs
    rw [h i hi s hs, hey, XR.fin_mul, XR.fin_sub, XR.zero_def, max_fin]
  have hE : ∀ s < 3 * szfs, meanRows n (fun i s => LH i s - min (.fin p.D) (LH i s * XR.exp (-.fin p.y * .fin p.H))) s
      = meanRows n (fun i s => LH i s - XR.npMin (.fin p.D) (LH i s * XR.exp (-.fin p.y * .fin p.H))) s :=
    fun s hs => meanRows_congr fun i hi => by rw [hB i hi s hs]
  have hn0 : 0 < n := by omega
  have hn' : (0 : ℝ) < n := by exact_mod_cast hn0
  have hc : 0 < Real.exp (-p.r * p.H) / n := div_pos (Real.exp_pos _) hn'
  have hLv : ∀ s < 3 * szfs, meanRows n LH s * XR.exp (-.fin p.r * .fin p.H)
      = .fin (Real.exp (-p.r * p.H) / n * ∑ i ∈ Finset.range n, L i s) := by
    intro s hs
    rw [meanRows_fin hn0 fun i hi => h i hi s hs]
    simp only [XR.fin_neg, XR.fin_mul, XR.fin_exp, XR.fin_inj]; ring
  have hEv : ∀ s < 3 * szfs,
      meanRows n (fun i s => LH i s - XR.npMin (.fin p.D) (LH i s * XR.exp (-.fin p.y * .fin p.H))) s
        * XR.exp (-.fin p.r * .fin p.H)
      = .fin (Real.exp (-p.r * p.H) / n
        * ∑ i ∈ Finset.range n, (L i s - Min.min p.D (L i s * Real.exp (-p.y * p.H)))) := by
    intro s hs
    rw [meanRows_fin (g := fun i s => L i s - Min.min p.D (L i s * Real.exp (-p.y * p.H))) hn0 fun i hi => by
      rw [h i hi s hs, hey, XR.fin_mul, XR.npMin_fin, XR.fin_sub]]
    simp only [XR.fin_neg, XR.fin_mul, XR.fin_exp, XR.fin_inj]; ring
  unfold tail
  simp only [if_neg (show ¬ n < 2 by omega)]
  refine ⟨_, rfl, ?_, ?_, ?_⟩
  · constructor
    case Lt => exact fun s hs => rfl
    case LH => exact fun i hi s hs => rfl
    case mFt => exact fun s hs => rfl
    case face => exact fun i hi s hs => rfl
    case FH => exact fun i hi s hs => rfl
    case mu => rfl
    case F => rfl
    case Bt =>
      intro s hs
      exact congrArg (· * _) (meanRows_congr (b := fun i s => min (.fin p.D) (LH i s * XR.exp (-.fin p.y * .fin p.H)))
        fun i hi => (hB i hi s (by omega)).symm)
    case Et =>
      intro s hs
      exact congrArg (· * _) (hE s (by omega)).symm
    case BH => intro i hi s hs; exact (hB i hi s (by omega)).symm
    case EH => intro i hi s hs; exact congrArg (LH i s - ·) (hB i hi s (by omega)).symm
    case dflt =>
      intro i hi s hs
      exact congrArg (fun v => if LH i s * XR.exp (-.fin p.y * .fin p.H) - v > 0 then (0 : XR) else 1)
        (hB i hi s (by omega)).symm
    case mdef =>
      intro s hs
      exact meanRows_congr (s := s) (a := fun i s => if LH i s * XR.exp (-.fin p.y * .fin p.H)
          - XR.npMin (.fin p.D) (LH i s * XR.exp (-.fin p.y * .fin p.H)) > 0 then (0 : XR) else 1)
        (b := fun i s => if LH i s * XR.exp (-.fin p.y * .fin p.H)
          - min (.fin p.D) (LH i s * XR.exp (-.fin p.y * .fin p.H)) > 0 then (0 : XR) else 1) fun i hi => congrArg
        (fun v => if LH i s * XR.exp (-.fin p.y * .fin p.H) - v > 0 then (0 : XR) else 1)
        (hB i hi s (by omega)).symm
    case Gt =>
      intro s hs
      exact congrArg (· * _) (meanRows_congr
        (b := fun i s => .fin (p.g.getD 0) * max (.fin p.D - LH i s * XR.exp (-.fin p.y * .fin p.H)) 0)
        fun i hi => congrArg (.fin (p.g.getD 0) * ·) (hG i hi s (by omega)).symm)
  · intro s hs
    exact vol_same' hc (hLv (szfs + s) (by omega)) (hLv (2 * szfs + s) (by omega)) (hLv (szfs + s) (by omega))
      (hLv (2 * szfs + s) (by omega))
  · intro s hs
    have e1 := hEv (szfs + s) (by omega)
    have e2 := hEv (2 * szfs + s) (by omega)
    have f1 := e1
    have f2 := e2
    rw [← hE (szfs + s) (by omega)] at f1
    rw [← hE (2 * szfs + s) (by omega)] at f2
    exact vol_same' hc e1 e2 f1 f2

/-- `tail_same` for arguments that agree where they are used -/
theorem tail_same2 {p : CohortParam} {n szfs : ℕ} (hn : 2 ≤ n) {LH face FH Ft LH' face' FH' Ft' : ℕ → ℕ → XR} {mu F : XR}
    {L fa fh ft : ℕ → ℕ → ℝ} (h : ∀ i < n, ∀ s < 3 * szfs, LH i s = .fin (L i s))
    (h' : ∀ i < n, ∀ s < 3 * szfs, LH' i s = .fin (L i s))
    (ha : ∀ i < n, ∀ s < szfs, face i s = .fin (fa i s)) (ha' : ∀ i < n, ∀ s < szfs, face' i s = .fin (fa i s))
    (hb : ∀ i < n, ∀ s < szfs, FH i s = .fin (fh i s)) (hb' : ∀ i < n, ∀ s < szfs, FH' i s = .fin (fh i s))
    (hc : ∀ i < n, ∀ s < szfs, Ft i s = .fin (ft i s)) (hc' : ∀ i < n, ∀ s < szfs, Ft' i s = .fin (ft i s)) :
    ∃ o, tail p n szfs LH' face' FH' Ft' mu F = some o
      ∧ SameResults n szfs (bankTail p n szfs LH face FH Ft mu F) o.re
      ∧ (∀ s < szfs, SameVol (∑ i ∈ Finset.range n, L i (szfs + s)) (∑ i ∈ Finset.range n, L i (2 * szfs + s))
          ((bankTail p n szfs LH face FH Ft mu F).sigLt s) (o.re.sigLt s) (o.sigLtIm s))
      ∧ ∀ s < szfs, SameVol
          (∑ i ∈ Finset.range n, (L i (szfs + s) - Min.min p.D (L i (szfs + s) * Real.exp (-p.y * p.H))))
          (∑ i ∈ Finset.range n, (L i (2 * szfs + s) - Min.min p.D (L i (2 * szfs + s) * Real.exp (-p.y * p.H))))
          ((bankTail p n szfs LH face FH Ft mu F).sigEt s) (o.re.sigEt s) (o.sigEtIm s) := by
  obtain ⟨o, h1, h2, h3, h4⟩ := tail_same (p := p) (face := face') (FH := FH') (Ft := Ft') (mu := mu) (F := F) hn h'
  have hE : ∀ (g : XR → XR), ∀ s < 3 * szfs, meanRows n (fun i s => g (LH i s)) s = meanRows n (fun i s => g (LH' i s)) s :=
    fun g s hs => meanRows_congr fun i hi => by rw [h i hi s hs, h' i hi s hs]
  have hp : ∀ (g : XR → XR), ∀ i < n, ∀ s < 3 * szfs, g (LH i s) = g (LH' i s) :=
    fun g i hi s hs => by rw [h i hi s hs, h' i hi s hs]
  have e1 : ∀ s < szfs, (bankTail p n szfs LH face FH Ft mu F).sigLt s
      = (bankTail p n szfs LH' face' FH' Ft' mu F).sigLt s := by
    intro s hs
    have a1 := hE id (szfs + s) (by omega)
    have a2 := hE id (2 * szfs + s) (by omega)
    simp only [id] at a1 a2
    simp only [bankTail]
    rw [a1, a2]
  have e2 : ∀ s < szfs, (bankTail p n szfs LH face FH Ft mu F).sigEt s
      = (bankTail p n szfs LH' face' FH' Ft' mu F).sigEt s := by
    intro s hs
    have a1 := hE (fun x => x - XR.npMin (.fin p.D) (x * XR.exp (-.fin p.y * .fin p.H))) (szfs + s) (by omega)
    have a2 := hE (fun x => x - XR.npMin (.fin p.D) (x * XR.exp (-.fin p.y * .fin p.H))) (2 * szfs + s) (by omega)
    simp only [bankTail]
    rw [a1, a2]
  refine ⟨o, h1, ?_, fun s hs => e1 s hs ▸ h3 s hs, fun s hs => e2 s hs ▸ h4 s hs⟩
  constructor
  case mu => exact h2.mu
  case F => exact h2.F
  case Lt => exact fun s hs => (congrArg (· * _) (hE id s (by omega))).trans (h2.Lt s hs)
  case Bt =>
    exact fun s hs => (congrArg (· * _) (hE (fun x => XR.npMin (.fin p.D) (x * XR.exp (-.fin p.y * .fin p.H))) s
      (by omega))).trans (h2.Bt s hs)
  case Et =>
    exact fun s hs => (congrArg (· * _) (hE (fun x => x - XR.npMin (.fin p.D) (x * XR.exp (-.fin p.y * .fin p.H))) s
      (by omega))).trans (h2.Et s hs)
  case Gt =>
    exact fun s hs => (congrArg (· * _) (hE (fun x => .fin (p.g.getD 0)
      * XR.npMax (.fin p.D - x * XR.exp (-.fin p.y * .fin p.H)) 0) s (by omega))).trans (h2.Gt s hs)
  case mdef =>
    exact fun s hs => (hE (fun x => if x * XR.exp (-.fin p.y * .fin p.H)
      - XR.npMin (.fin p.D) (x * XR.exp (-.fin p.y * .fin p.H)) > 0 then (0 : XR) else 1) s (by omega)).trans (h2.mdef s hs)
  case LH => exact fun i hi s hs => (hp id i hi s (by omega)).trans (h2.LH i hi s hs)
  case BH =>
    exact fun i hi s hs => (hp (fun x => XR.npMin (.fin p.D) (x * XR.exp (-.fin p.y * .fin p.H))) i hi s
      (by omega)).trans (h2.BH i hi s hs)
  case EH =>
    exact fun i hi s hs => (hp (fun x => x - XR.npMin (.fin p.D) (x * XR.exp (-.fin p.y * .fin p.H))) i hi s
      (by omega)).trans (h2.EH i hi s hs)
  case dflt =>
    exact fun i hi s hs => (hp (fun x => if x * XR.exp (-.fin p.y * .fin p.H)
      - XR.npMin (.fin p.D) (x * XR.exp (-.fin p.y * .fin p.H)) > 0 then (0 : XR) else 1) i hi s
      (by omega)).trans (h2.dflt i hi s hs)
  case mFt => exact fun s hs => (meanRows_congr fun i hi => by rw [hc i hi s hs, hc' i hi s hs]).trans (h2.mFt s hs)
  case face => exact fun i hi s hs => ((ha i hi s hs).trans (ha' i hi s hs).symm).trans (h2.face i hi s hs)
  case FH => exact fun i hi s hs => ((hb i hi s hs).trans (hb' i hi s hs).symm).trans (h2.FH i hi s hs)

theorem down_nat {a b : ℕ} {x y : ℝ} (hx : x = a) (hy : y = b) (h : b ≤ a + 1) :
    down x y = (List.range (a + 1 - b)).map fun k : ℕ => (a : ℝ) - k := by
  unfold down
  have : ⌊x - y⌋ = (a : ℤ) - b := by
    rw [hx, hy, Int.floor_eq_iff]; push_cast; constructor <;> linarith
  rw [this, hx]
  congr 2; omega

theorem mean_fin {N : ℕ} (hN : 0 < N) {g : ℕ → XR} {a : ℕ → ℝ} (h : ∀ j < N, g (j + 1) = .fin (a j)) :
    mean ((List.range' 1 N).map g) = .fin ((∑ j ∈ Finset.range N, a j) / N) := by
  have e : (List.range' 1 N).map g = (List.range N).map fun j => XR.fin (a j) := by
    rw [List.range'_eq_map_range, List.map_map]
    exact List.map_congr_left fun j hj => by
      simp only [Function.comp]; rw [add_comm]; exact h j (List.mem_range.1 hj)
  have hN' : (N : ℝ) ≠ 0 := by positivity
  rw [mean, e, XR.sum_fin, List.length_map, List.length_range, XR.fin_div _ hN']
  rfl

end
end Frds.Model.Matlab

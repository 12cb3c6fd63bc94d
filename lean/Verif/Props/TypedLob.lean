import Mathlib.Tactic.IntervalCases
import Verif.Props.TypedPin
import Verif.Props.LobSlope

set_option linter.unusedSimpArgs false

/-! C141, C142: order-book measures of integer-typed arrays. -/
namespace Frds.Props
noncomputable section
open Frds Frds.Np Frds.Model Frds.Spec Classical

variable {α : Type*}

/-- total size of one side as a column, in the type `np.sum` uses -/
def depthCol (t : IntTy) (f : α → List ℤ) : Col α := .int t.sumTy fun q => (f q).sum

theorem sumAxis1_arr (l : List α) (t : IntTy) (k : ℕ) (f : α → List ℤ) (h : (depthCol t f).Fits l) :
    (TMat.int t k (l.map f)).sumAxis1 = (depthCol t f).arr l := by
  simp only [TMat.sumAxis1, depthCol, Col.arr, List.map_map]
  congr 1
  apply List.map_congr_left
  intro q hq
  exact IntTy.wrap_of_fits h.1 (h.2 q hq)

theorem cast_sum (v : List ℤ) : (v.map fun z : ℤ => XR.fin (z : ℝ)).sum = .fin ((v.sum : ℤ) : ℝ) := by
  rw [XR.sum_fin, Int.cast_list_sum]

/-- C141 (no overflow): sizes of any integer types. If the depths, their difference, its double and
their sum are representable in the types NumPy gives them, the scaled depth difference is that of
the same sizes as floats. -/
theorem C141_exact (l : List α) (k : ℕ) (tb ta : IntTy) (b a : α → List ℤ)
    (hb : (depthCol tb b).Fits l) (ha : (depthCol ta a).Fits l)
    (hd : ((depthCol ta a).minus (depthCol tb b)).Fits l)
    (hd2 : ((depthCol ta a).minus (depthCol tb b)).double.Fits l)
    (hs : ((depthCol ta a).plus (depthCol tb b)).Fits l) :
    scaledDepthDifferenceT (.int tb k (l.map b)) (.int ta k (l.map a))
      = scaledDepthDifference (.d2 k (l.map fun q => (b q).map fun z : ℤ => .fin (z : ℝ)))
          (.d2 k (l.map fun q => (a q).map fun z : ℤ => .fin (z : ℝ))) := by
  rw [sdd_rows]
  simp only [scaledDepthDifferenceT, TMat.shape, List.length_map, ne_eq, not_true_eq_false, if_false, bind,
    Except.bind, sumAxis1_arr l tb k b hb, sumAxis1_arr l ta k a ha, sub_arr l _ _ hd, add_arr l _ _ hs,
    twice_arr l _ hd2, arr_cast]
  simp only [Col.floats, bcast_maps, double_val, minus_val, plus_val, pure, Except.pure]
  congr 2
  apply List.map_congr_left
  intro q _
  simp only [depthCol, Col.val, cast_sum]

/-- C141 (signed sizes): signed types of at most 64 bits and depths below `2^61` never overflow. -/
theorem C141_signed (l : List α) (k : ℕ) {wb wa : ℕ} (hwb : wb ≤ 64) (hwa : wa ≤ 64) (b a : α → List ℤ)
    (h : ∀ q ∈ l, |(b q).sum| < 2 ^ 61 ∧ |(a q).sum| < 2 ^ 61) :
    scaledDepthDifferenceT (.int ⟨true, wb⟩ k (l.map b)) (.int ⟨true, wa⟩ k (l.map a))
      = scaledDepthDifference (.d2 k (l.map fun q => (b q).map fun z : ℤ => .fin (z : ℝ)))
          (.d2 k (l.map fun q => (a q).map fun z : ℤ => .fin (z : ℝ))) := by
  have tb : (⟨true, wb⟩ : IntTy).sumTy = ⟨true, 64⟩ := by simp [IntTy.sumTy, hwb]
  have ta : (⟨true, wa⟩ : IntTy).sumTy = ⟨true, 64⟩ := by simp [IntTy.sumTy, hwa]
  have f64 : ∀ z : ℤ, |z| < 2 ^ 63 → (⟨true, 64⟩ : IntTy).Fits z := fun z hz => fits_signed hz
  apply C141_exact <;>
    simp only [depthCol, tb, ta, Col.minus, Col.plus, Col.op, promote_self, Col.double, Col.map, Col.Fits] <;>
    refine ⟨by norm_num, fun q hq => f64 _ ?_⟩ <;> obtain ⟨h1, h2⟩ := h q hq <;>
    rw [abs_lt] at * <;> constructor <;> omega

/-- scaled depth difference of one quote as computed from unsigned sizes: right when the ask side is
at least as deep, too large by `2^64 / depth` otherwise -/
def depthDiffU (b a : ℤ) : Option ℝ :=
  if a + b = 0 then none
  else some (2 * ((a : ℝ) - b) / ((a : ℝ) + b) + if a < b then 2 ^ 64 / ((a : ℝ) + b) else 0)

/-- C141 (unsigned sizes, at most 64 bits, total depth below `2^63`): the mean of `depthDiffU` over
the quotes with some depth. -/
theorem C141_unsigned (l : List α) (k : ℕ) {wb wa : ℕ} (hwb : wb ≤ 64) (hwa : wa ≤ 64) (b a : α → List ℤ)
    (h : ∀ q ∈ l, 0 ≤ (b q).sum ∧ 0 ≤ (a q).sum ∧ (b q).sum + (a q).sum < 2 ^ 63) :
    scaledDepthDifferenceT (.int ⟨false, wb⟩ k (l.map b)) (.int ⟨false, wa⟩ k (l.map a))
      = .ok (ofOpt (definedMean (l.map fun q => depthDiffU (b q).sum (a q).sum))) := by
  have tb : (⟨false, wb⟩ : IntTy).sumTy = ⟨false, 64⟩ := by simp [IntTy.sumTy, hwb]
  have ta : (⟨false, wa⟩ : IntTy).sumTy = ⟨false, 64⟩ := by simp [IntTy.sumTy, hwa]
  have f64 : ∀ z : ℤ, 0 ≤ z → z < 2 ^ 64 → (⟨false, 64⟩ : IntTy).Fits z := fun z h1 h2 => by
    simp only [IntTy.Fits, IntTy.lo, IntTy.hi, Bool.false_eq_true, if_false]; omega
  have hb : (depthCol ⟨false, wb⟩ b).Fits l := by
    simp only [depthCol, tb, Col.Fits]
    refine ⟨by norm_num, fun q hq => f64 _ ?_ ?_⟩ <;> obtain ⟨h1, h2, h3⟩ := h q hq <;> omega
  have ha : (depthCol ⟨false, wa⟩ a).Fits l := by
    simp only [depthCol, ta, Col.Fits]
    refine ⟨by norm_num, fun q hq => f64 _ ?_ ?_⟩ <;> obtain ⟨h1, h2, h3⟩ := h q hq <;> omega
  have eb : depthCol ⟨false, wb⟩ b = uCol 64 fun q => (b q).sum := by simp only [depthCol, tb]
  have ea : depthCol ⟨false, wa⟩ a = uCol 64 fun q => (a q).sum := by simp only [depthCol, ta]
  have hs : ((depthCol ⟨false, wa⟩ a).plus (depthCol ⟨false, wb⟩ b)).Fits l := by
    rw [ea, eb]
    simp only [Col.plus, Col.op, promote_self, Col.Fits]
    refine ⟨by norm_num, fun q hq => f64 _ ?_ ?_⟩ <;> obtain ⟨h1, h2, h3⟩ := h q hq <;> omega
  have hsub := sub_unsigned l (w := 64) (fun q => (a q).sum) (fun q => (b q).sum) (fun q hq => by
    obtain ⟨h1, h2, h3⟩ := h q hq
    exact ⟨h2, by omega, h1, by omega⟩)
  have htw : ((uCol 64 fun q => if (a q).sum < (b q).sum then 2 ^ 64 - ((b q).sum - (a q).sum)
        else (a q).sum - (b q).sum).arr l).twice
      = (uCol 64 fun q => if (a q).sum < (b q).sum then 2 ^ 64 - 2 * ((b q).sum - (a q).sum)
        else 2 * ((a q).sum - (b q).sum)).arr l := by
    simp only [Col.arr, TArr.twice, List.map_map]
    congr 1
    apply List.map_congr_left
    intro q hq
    obtain ⟨h1, h2, h3⟩ := h q hq
    simp only [Function.comp]
    split_ifs with hlt
    · simp only [IntTy.wrap, Bool.false_eq_true, if_false]
      rw [show 2 * (2 ^ 64 - ((b q).sum - (a q).sum)) = (2 ^ 64 - 2 * ((b q).sum - (a q).sum)) + 2 ^ 64 * 1 by ring,
        Int.add_mul_emod_self_left]
      exact Int.emod_eq_of_lt (by omega) (by omega)
    · exact wrap_unsigned_of (by omega) (by omega)
  simp only [scaledDepthDifferenceT, TMat.shape, List.length_map, ne_eq, not_true_eq_false, if_false, bind,
    Except.bind, sumAxis1_arr l _ k b hb, sumAxis1_arr l _ k a ha, add_arr l _ _ hs]
  rw [ea, eb, hsub]
  simp only [htw, arr_cast]
  simp only [Col.floats, bcast_maps, plus_val, pure, Except.pure]
  rw [← nanmean_ofOpt, List.map_map]
  congr 2
  apply List.map_congr_left
  intro q hq
  obtain ⟨h1, h2, h3⟩ := h q hq
  simp only [Function.comp, depthDiffU, Col.val, XR.fin_add]
  by_cases h0 : (a q).sum + (b q).sum = 0
  · have a0 : (a q).sum = 0 := by omega
    have b0 : (b q).sum = 0 := by omega
    simp [a0, b0, XR.fin_div_zero]
  · rw [if_neg h0]
    have hne : (((a q).sum : ℤ) : ℝ) + (((b q).sum : ℤ) : ℝ) ≠ 0 := by exact_mod_cast h0
    rw [XR.fin_div _ hne, ofOpt_some]
    congr 1
    split_ifs
    · push_cast; field_simp; ring
    · push_cast; ring

/-- C141: hence unsigned sizes never give a negative scaled depth difference, while floats do when
the bid side is deeper; and the two agree exactly when no quote has a deeper bid side. -/
theorem C141_unsigned_iff (l : List α) (k : ℕ) {wb wa : ℕ} (hwb : wb ≤ 64) (hwa : wa ≤ 64) (b a : α → List ℤ)
    (hnn : ∀ q ∈ l, (∀ z ∈ b q, 0 ≤ z) ∧ ∀ z ∈ a q, 0 ≤ z)
    (h : ∀ q ∈ l, (b q).sum + (a q).sum < 2 ^ 63)
    {x : XR} (hx : scaledDepthDifferenceT (.int ⟨false, wb⟩ k (l.map b)) (.int ⟨false, wa⟩ k (l.map a)) = .ok x) :
    (∀ r : ℝ, x = .fin r → 0 ≤ r) ∧
    (scaledDepthDifference (.d2 k (l.map fun q => (b q).map fun z : ℤ => .fin (z : ℝ)))
        (.d2 k (l.map fun q => (a q).map fun z : ℤ => .fin (z : ℝ))) = .ok x
      ↔ ∀ q ∈ l, (b q).sum ≤ (a q).sum) := by
  have hsum : ∀ q ∈ l, 0 ≤ (b q).sum ∧ 0 ≤ (a q).sum := fun q hq =>
    ⟨List.sum_nonneg (hnn q hq).1, List.sum_nonneg (hnn q hq).2⟩
  have hU := C141_unsigned l k hwb hwa b a (fun q hq => ⟨(hsum q hq).1, (hsum q hq).2, h q hq⟩)
  rw [hx] at hU
  have hxU : x = ofOpt (definedMean (l.map fun q => depthDiffU (b q).sum (a q).sum)) := by
    simpa using hU
  -- the float result
  have hF : scaledDepthDifference (.d2 k (l.map fun q => (b q).map fun z : ℤ => .fin (z : ℝ)))
        (.d2 k (l.map fun q => (a q).map fun z : ℤ => .fin (z : ℝ)))
      = .ok (ofOpt (definedMean (l.map fun q => if (a q).sum + (b q).sum = 0 then none
          else some (2 * (((a q).sum : ℝ) - ((b q).sum : ℝ)) / (((a q).sum : ℝ) + ((b q).sum : ℝ)))))) := by
    rw [sdd_rows, ← nanmean_ofOpt, List.map_map]
    congr 2
    apply List.map_congr_left
    intro q hq
    obtain ⟨h1, h2⟩ := hsum q hq
    simp only [Function.comp, cast_sum, XR.ofNat_def, XR.fin_sub, XR.fin_mul, XR.fin_add]
    by_cases h0 : (a q).sum + (b q).sum = 0
    · have a0 : (a q).sum = 0 := by omega
      have b0 : (b q).sum = 0 := by omega
      simp [a0, b0, XR.fin_div_zero]
    · have hne : (((a q).sum : ℤ) : ℝ) + (((b q).sum : ℤ) : ℝ) ≠ 0 := by exact_mod_cast h0
      rw [if_neg h0, XR.fin_div _ hne, ofOpt_some]
  constructor
  · intro r hr
    rw [hxU] at hr
    cases hm : definedMean (l.map fun q => depthDiffU (b q).sum (a q).sum) with
    | none => rw [hm] at hr; cases hr
    | some m =>
      rw [hm] at hr
      have hmr : m = r := by simpa using hr
      subst hmr
      unfold definedMean at hm
      split_ifs at hm with h0
      simp only [Option.some.injEq] at hm
      rw [← hm]
      refine div_nonneg (List.sum_nonneg ?_) (by positivity)
      intro y hy
      rw [List.reduceOption_mem_iff] at hy
      obtain ⟨q, hq, hqy⟩ := List.mem_map.mp hy
      obtain ⟨h1, h2⟩ := hsum q hq
      have h3 := h q hq
      unfold depthDiffU at hqy
      split_ifs at hqy with g1 g2
      · simp only [Option.some.injEq] at hqy
        have e1 : (0 : ℝ) ≤ (b q).sum := by exact_mod_cast h1
        have e2 : (0 : ℝ) ≤ (a q).sum := by exact_mod_cast h2
        have e3 : (((b q).sum : ℤ) : ℝ) + (a q).sum < 2 ^ 63 := by exact_mod_cast h3
        rw [← hqy, ← add_div]
        exact div_nonneg (by linarith) (by linarith)
      · simp only [Option.some.injEq] at hqy
        have e1 : (0 : ℝ) ≤ (b q).sum := by exact_mod_cast h1
        have e2 : (0 : ℝ) ≤ (a q).sum := by exact_mod_cast h2
        have e3 : (((b q).sum : ℤ) : ℝ) ≤ (a q).sum := by exact_mod_cast not_lt.mp g2
        rw [← hqy, add_zero]
        exact div_nonneg (by linarith) (by linarith)
  · rw [hF, hxU]
    constructor
    · intro heq
      by_contra hcon
      push Not at hcon
      obtain ⟨q0, hq0, hlt⟩ := hcon
      have heq' := Except.ok.inj heq
      -- reduce to sums over the quotes with depth
      set l' := l.filter fun q => decide ((a q).sum + (b q).sum ≠ 0) with hl'
      have red : ∀ f : α → ℝ, (l.map fun q => if (a q).sum + (b q).sum = 0 then none else some (f q)).reduceOption
          = l'.map f := by
        intro f
        rw [hl']
        clear hx hU hxU hF hl' l' heq heq' hq0 h hnn hsum
        induction l with
        | nil => rfl
        | cons q t ih =>
          by_cases h0 : (a q).sum + (b q).sum = 0
          · simp [h0, ih, List.reduceOption_cons_of_none]
          · simp [h0, ih, List.reduceOption_cons_of_some]
      have hq0' : q0 ∈ l' := by
        rw [hl']; simp only [List.mem_filter, decide_eq_true_eq]
        exact ⟨hq0, by have := hsum q0 hq0; omega⟩
      have hne : l' ≠ [] := List.ne_nil_of_mem hq0'
      have hlen : (0 : ℝ) < l'.length := by
        have := List.length_pos_iff.mpr hne; exact_mod_cast this
      simp only [definedMean, depthDiffU, red, List.map_eq_nil_iff, hne, if_false, ofOpt_some, XR.fin_inj,
        List.length_map] at heq'
      rw [div_left_inj' hlen.ne', sum_map_add', left_eq_add] at heq'
      rw [sum_eq_zero_iff' (by
        intro q hq
        have hql : q ∈ l := List.mem_of_mem_filter hq
        obtain ⟨h1, h2⟩ := hsum q hql
        have e1 : (0 : ℝ) ≤ (b q).sum := by exact_mod_cast h1
        have e2 : (0 : ℝ) ≤ (a q).sum := by exact_mod_cast h2
        split_ifs
        · positivity
        · exact le_rfl)] at heq'
      have := heq' q0 hq0'
      rw [if_pos hlt, div_eq_zero_iff] at this
      obtain ⟨h1, h2⟩ := hsum q0 hq0
      have e2 : (0 : ℝ) ≤ (a q0).sum := by exact_mod_cast h2
      have e4 : (((a q0).sum : ℤ) : ℝ) < (b q0).sum := by exact_mod_cast hlt
      rcases this with h5 | h5
      · norm_num at h5
      · linarith
    · intro hall
      congr 3
      apply List.map_congr_left
      intro q hq
      unfold depthDiffU
      split_ifs with g1 g2
      · rfl
      · exact absurd (hall q hq) (by omega)
      · rw [add_zero]

/-- two quotes in `uint32`, the second with the deeper bid side -/
example : ∀ q ∈ [(([5, 6] : List ℤ), ([7, 8] : List ℤ)), ([9, 9], [1, 2])],
    ((∀ z ∈ q.1, 0 ≤ z) ∧ ∀ z ∈ q.2, 0 ≤ z) ∧ q.1.sum + q.2.sum < 2 ^ 63 := by
  intro q hq; simp at hq; rcases hq with rfl | rfl <;> simp

/-! ### C142: slopes and slope differences -/

/-- one side of the book with integer sizes and prices in ticks at five levels -/
structure IBook5 where
  size : Fin 5 → ℤ
  price : Fin 5 → ℤ

/-- difference computed in an unsigned `w`-bit type -/
def usub (w : ℕ) (x y : ℤ) : ℝ := (x : ℝ) - y + if x < y then 2 ^ w else 0

/-- C142 (slope difference, unsigned sizes and prices): each difference that should be negative is
too large by the size of its type; the absolute value does not repair this. -/
theorem C142_slope_difference {l : List IBook5} (hne : l ≠ []) {ws wp : ℕ}
    (h : ∀ q ∈ l, ∀ i, 0 ≤ q.size i ∧ q.size i < 2 ^ ws ∧ 0 ≤ q.price i ∧ q.price i < 2 ^ wp)
    (hd : ∀ q ∈ l, q.price 4 ≠ q.price 2 ∧ q.price 2 ≠ q.price 0) :
    slopeDifferenceT (.int ⟨false, ws⟩ 5 (l.map fun q => List.ofFn q.size))
        (.int ⟨false, wp⟩ 5 (l.map fun q => List.ofFn q.price))
      = .ok (.fin (mean l fun q =>
          usub ws (q.size 4) (q.size 2) / usub wp (q.price 4) (q.price 2)
            - usub ws (q.size 2) (q.size 0) / usub wp (q.price 2) (q.price 0))) := by
  have hcol : ∀ (w j : ℕ) (hj : j < 5) (f : IBook5 → Fin 5 → ℤ),
      TMat.column (.int ⟨false, w⟩ 5 (l.map fun q => List.ofFn (f q))) j
        = .ok ((uCol w fun q => f q ⟨j, hj⟩).arr l) := by
    intro w j hj f
    simp only [TMat.column, if_pos hj, List.map_map, Col.arr]
    congr 2
    apply List.map_congr_left
    intro q _
    simp [List.getD, hj]
    interval_cases j <;> rfl
  have hval : ∀ (w : ℕ) (x y : IBook5 → ℤ),
      (uCol w fun q => if x q < y q then 2 ^ w - (y q - x q) else x q - y q).val
        = fun q => XR.fin (usub w (x q) (y q)) := by
    intro w x y
    funext q
    simp only [Col.val, usub]
    congr 1
    split_ifs <;> push_cast <;> ring
  have hsub : ∀ (w : ℕ) (x y : IBook5 → ℤ), (∀ q ∈ l, 0 ≤ x q ∧ x q < 2 ^ w ∧ 0 ≤ y q ∧ y q < 2 ^ w) →
      ((uCol w x).arr l).sub ((uCol w y).arr l)
        = .ok ((uCol w fun q => if x q < y q then 2 ^ w - (y q - x q) else x q - y q).arr l) := fun w x y hxy =>
    sub_unsigned l x y hxy
  have habs : ∀ (w : ℕ) (x y : IBook5 → ℤ), (∀ q ∈ l, 0 ≤ x q ∧ x q < 2 ^ w ∧ 0 ≤ y q ∧ y q < 2 ^ w) →
      ((uCol w fun q => if x q < y q then 2 ^ w - (y q - x q) else x q - y q).arr l).abs
        = (uCol w fun q => if x q < y q then 2 ^ w - (y q - x q) else x q - y q).arr l := by
    intro w x y hxy
    simp only [Col.arr, TArr.abs, List.map_map]
    congr 1
    apply List.map_congr_left
    intro q hq
    obtain ⟨h1, h2, h3, h4⟩ := hxy q hq
    have g : 0 ≤ (if x q < y q then 2 ^ w - (y q - x q) else x q - y q) ∧
        (if x q < y q then 2 ^ w - (y q - x q) else x q - y q) < 2 ^ w := by split_ifs <;> omega
    simp only [Function.comp]
    rw [abs_of_nonneg g.1, wrap_unsigned_of g.1 g.2]
  have hS : ∀ i j, ∀ q ∈ l, 0 ≤ q.size i ∧ q.size i < 2 ^ ws ∧ 0 ≤ q.size j ∧ q.size j < 2 ^ ws :=
    fun i j q hq => ⟨(h q hq i).1, (h q hq i).2.1, (h q hq j).1, (h q hq j).2.1⟩
  have hP : ∀ i j, ∀ q ∈ l, 0 ≤ q.price i ∧ q.price i < 2 ^ wp ∧ 0 ≤ q.price j ∧ q.price j < 2 ^ wp :=
    fun i j q hq => ⟨(h q hq i).2.2.1, (h q hq i).2.2.2, (h q hq j).2.2.1, (h q hq j).2.2.2⟩
  unfold slopeDifferenceT
  rw [if_neg (by simp [TMat.shape])]
  simp only [bind, Except.bind, hcol ws 4 (by norm_num), hcol ws 2 (by norm_num), hcol ws 0 (by norm_num),
    hcol wp 4 (by norm_num), hcol wp 2 (by norm_num), hcol wp 0 (by norm_num)]
  simp only [hsub ws _ _ (hS _ _), hsub wp _ _ (hP _ _), habs wp _ _ (hP _ _), arr_cast, Col.floats, hval,
    bcast_maps, pure, Except.pure]
  rw [← mean_col hne, ← nanmean_col]
  congr 2
  apply List.map_congr_left
  intro q hq
  have hu : ∀ i j, q.price i ≠ q.price j → usub wp (q.price i) (q.price j) ≠ 0 := by
    intro i j hij h0
    unfold usub at h0
    obtain ⟨h1, h2, h3, h4⟩ := hP i j q hq
    split_ifs at h0 with hlt
    · have : (q.price i - q.price j + 2 ^ wp : ℤ) = 0 := by exact_mod_cast h0
      omega
    · have : (q.price i - q.price j : ℤ) = 0 := by
        have : (((q.price i - q.price j : ℤ)) : ℝ) = 0 := by push_cast; linarith
        exact_mod_cast this
      omega
  rw [show (⟨4, by norm_num⟩ : Fin 5) = 4 from rfl, show (⟨2, by norm_num⟩ : Fin 5) = 2 from rfl,
    show (⟨0, by norm_num⟩ : Fin 5) = 0 from rfl,
    XR.fin_div _ (hu 4 2 (hd q hq).1), XR.fin_div _ (hu 2 0 (hd q hq).2), XR.fin_sub]

/-- a bid side in `uint32`: prices fall and sizes vary -/
example : ∀ q ∈ [(⟨![5, 6, 4, 7, 2], ![100, 99, 98, 97, 96]⟩ : IBook5)],
    (∀ i, 0 ≤ q.size i ∧ q.size i < 2 ^ 32 ∧ 0 ≤ q.price i ∧ q.price i < 2 ^ 32) ∧
    q.price 4 ≠ q.price 2 ∧ q.price 2 ≠ q.price 0 := by
  intro q hq
  rw [List.mem_singleton] at hq; subst hq
  refine ⟨fun i => ?_, by decide, by decide⟩
  fin_cases i <;> norm_num

/-- C142 (bid and ask slope, unsigned prices and midpoints of width `w`, depth without overflow):
quotes whose last level is above the midpoint are right; below it, the distance is taken to be
`2^w - (mid - price)`, so every proper bid-side quote is wrong. -/
theorem C142_slopes {l : List α} (hne : l ≠ []) {k : ℕ} (hk : 1 < k) (t : IntTy) (sz : α → List ℤ) {w : ℕ} (price mid : α → ℤ)
    (hsz : (depthCol t sz).Fits l)
    (h : ∀ q ∈ l, 0 ≤ price q ∧ price q < 2 ^ w ∧ 0 ≤ mid q ∧ mid q < 2 ^ w ∧ price q ≠ mid q) :
    askSlopeT (.int t k (l.map sz)) (.int ⟨false, w⟩ (l.map price)) (.int ⟨false, w⟩ (l.map mid))
      = .ok (.fin (mean l fun q => ((sz q).sum : ℝ) / usub w (price q) (mid q))) ∧
    bidSlopeT (.int t k (l.map sz)) (.int ⟨false, w⟩ (l.map price)) (.int ⟨false, w⟩ (l.map mid))
      = .ok (.fin (mean l fun q => ((sz q).sum : ℝ) / usub w (price q) (mid q))) := by
  have hchk : slopeChecksT (.int t k (l.map sz)) (.int ⟨false, w⟩ (l.map mid)) = .ok () := by
    simp [slopeChecksT, TMat.shape, TArr.length, hk]
  have hsub : TArr.sub (.int ⟨false, w⟩ (l.map price)) (.int ⟨false, w⟩ (l.map mid))
      = .ok ((uCol w fun q => if price q < mid q then 2 ^ w - (mid q - price q) else price q - mid q).arr l) :=
    sub_unsigned l price mid fun q hq => by
      obtain ⟨h1, h2, h3, h4, _⟩ := h q hq; exact ⟨h1, h2, h3, h4⟩
  have habs : ((uCol w fun q => if price q < mid q then 2 ^ w - (mid q - price q) else price q - mid q).arr l).abs
      = (uCol w fun q => if price q < mid q then 2 ^ w - (mid q - price q) else price q - mid q).arr l := by
    simp only [Col.arr, TArr.abs, List.map_map]
    congr 1
    apply List.map_congr_left
    intro q hq
    obtain ⟨h1, h2, h3, h4, _⟩ := h q hq
    have g : 0 ≤ (if price q < mid q then 2 ^ w - (mid q - price q) else price q - mid q) ∧
        (if price q < mid q then 2 ^ w - (mid q - price q) else price q - mid q) < 2 ^ w := by split_ifs <;> omega
    simp only [Function.comp]
    rw [abs_of_nonneg g.1, wrap_unsigned_of g.1 g.2]
  have hval : (uCol w fun q => if price q < mid q then 2 ^ w - (mid q - price q) else price q - mid q).val
        = fun q => XR.fin (usub w (price q) (mid q)) := by
    funext q
    simp only [Col.val, usub]
    congr 1
    split_ifs <;> push_cast <;> ring
  have hu : ∀ q ∈ l, usub w (price q) (mid q) ≠ 0 := by
    intro q hq h0
    unfold usub at h0
    obtain ⟨h1, h2, h3, h4, h5⟩ := h q hq
    split_ifs at h0 with hlt
    · have : (price q - mid q + 2 ^ w : ℤ) = 0 := by exact_mod_cast h0
      omega
    · have : (price q - mid q : ℤ) = 0 := by
        have : (((price q - mid q : ℤ)) : ℝ) = 0 := by push_cast; linarith
        exact_mod_cast this
      omega
  have fin : (l.map fun q => (depthCol t sz).val q / XR.fin (usub w (price q) (mid q)))
      = l.map fun q => XR.fin (((sz q).sum : ℝ) / usub w (price q) (mid q)) := by
    apply List.map_congr_left
    intro q hq
    simp only [depthCol, Col.val]
    rw [XR.fin_div _ (hu q hq)]
  constructor
  · simp only [askSlopeT, bind, Except.bind, hchk, hsub, sumAxis1_arr l t k sz hsz, arr_cast, Col.floats, hval,
      bcast_maps, pure, Except.pure, fin]
    congr 1
    exact (nanmean_col l _).trans (mean_col hne _)
  · simp only [bidSlopeT, bind, Except.bind, hchk, hsub, habs, sumAxis1_arr l t k sz hsz, arr_cast, Col.floats, hval,
      bcast_maps, pure, Except.pure, fin]
    congr 1
    exact (nanmean_col l _).trans (mean_col hne _)

/-- a `uint16` case -/
example : (depthCol ⟨false, 16⟩ (fun _ : Unit => [3, 4])).Fits [()] ∧
    ∀ q ∈ [()], (0:ℤ) ≤ (fun _ : Unit => (95:ℤ)) q ∧ (95:ℤ) < 2 ^ 16 ∧ (0:ℤ) ≤ 100 ∧ (100:ℤ) < 2 ^ 16 ∧ (95:ℤ) ≠ 100 := by
  refine ⟨⟨by decide, fun q _ => ?_⟩, fun q _ => by norm_num⟩
  norm_num [IntTy.Fits, IntTy.lo, IntTy.hi, IntTy.sumTy]

/-- C142 (no overflow): sizes of any integer type, price and midpoint columns of any types. If the
depths, the differences and (bid side) their absolute values are representable in the types NumPy
gives them, the slopes are those of the same numbers as floats. -/
theorem C142_exact (l : List α) (k : ℕ) (t : IntTy) (sz : α → List ℤ) (price mid : Col α)
    (hsz : (depthCol t sz).Fits l) (hd : (price.minus mid).Fits l) :
    askSlopeT (.int t k (l.map sz)) (price.arr l) (mid.arr l)
      = askSlope (.d2 k (l.map fun q => (sz q).map fun z : ℤ => .fin (z : ℝ))) (price.floats l)
          (.d1 (mid.floats l)) ∧
    ((price.minus mid).abs.Fits l →
      bidSlopeT (.int t k (l.map sz)) (price.arr l) (mid.arr l)
        = bidSlope (.d2 k (l.map fun q => (sz q).map fun z : ℤ => .fin (z : ℝ))) (price.floats l)
            (.d1 (mid.floats l))) := by
  have hdep : ((l.map fun q => (sz q).map fun z : ℤ => XR.fin (z : ℝ)).map List.sum)
      = (depthCol t sz).floats l := by
    simp only [List.map_map, Col.floats]
    apply List.map_congr_left
    intro q _
    simp only [Function.comp, depthCol, Col.val, cast_sum]
  constructor
  · simp only [askSlopeT, askSlope, slopeChecksT, slopeChecks, TMat.shape, List.length_map, arr_length,
      floats_length, sumAxis1, Arr.vec]
    by_cases hk : 1 < k
    · simp only [hk, not_true_eq_false, if_false, if_true, bind, Except.bind, sub_arr l _ _ hd,
        sumAxis1_arr l t k sz hsz, arr_cast, pure, Except.pure, hdep]
      simp only [Col.floats, bcast_maps, minus_val]
    · simp only [hk, not_false_eq_true, if_true, bind, Except.bind]
  · intro ha
    simp only [bidSlopeT, bidSlope, slopeChecksT, slopeChecks, TMat.shape, List.length_map, arr_length,
      floats_length, sumAxis1, Arr.vec]
    by_cases hk : 1 < k
    · simp only [hk, not_true_eq_false, if_false, if_true, bind, Except.bind, sub_arr l _ _ hd,
        sumAxis1_arr l t k sz hsz, abs_arr l _ ha, arr_cast, pure, Except.pure, hdep]
      simp only [Col.floats, bcast_maps, minus_val, abs_val, List.map_map, Function.comp_def]
    · simp only [hk, not_false_eq_true, if_true, bind, Except.bind]

/-- `int32` ticks and sizes -/
example : (depthCol ⟨true, 32⟩ (fun _ : Unit => [3, 4])).Fits [()] ∧
    ((sCol 32 fun _ : Unit => 95).minus (sCol 32 fun _ : Unit => 100)).Fits [()] ∧
    ((sCol 32 fun _ : Unit => 95).minus (sCol 32 fun _ : Unit => 100)).abs.Fits [()] := by
  refine ⟨⟨by decide, fun q _ => ?_⟩, ?_, ?_⟩
  · norm_num [IntTy.Fits, IntTy.lo, IntTy.hi, IntTy.sumTy]
  · simp only [Col.minus, Col.op, promote_self, Col.Fits]
    exact ⟨by norm_num, fun q _ => by norm_num [IntTy.Fits, IntTy.lo, IntTy.hi]⟩
  · simp only [Col.minus, Col.op, promote_self, Col.Fits, Col.abs, Col.map]
    exact ⟨by norm_num, fun q _ => by norm_num [IntTy.Fits, IntTy.lo, IntTy.hi]⟩

/-- C142 (slope difference, signed sizes and prices): with all numbers below half of the type's range
the slope difference is that of the same numbers as floats. -/
theorem C142_signed (l : List IBook5) {ws wp : ℕ} (hws : 2 ≤ ws) (hwp : 2 ≤ wp)
    (h : ∀ q ∈ l, ∀ i, |q.size i| < 2 ^ (ws - 2) ∧ |q.price i| < 2 ^ (wp - 2)) :
    slopeDifferenceT (.int ⟨true, ws⟩ 5 (l.map fun q => List.ofFn q.size))
        (.int ⟨true, wp⟩ 5 (l.map fun q => List.ofFn q.price))
      = bidSideSlopeDifference (.d2 5 (l.map fun q => List.ofFn fun i => .fin (q.size i : ℝ)))
          (.d2 5 (l.map fun q => List.ofFn fun i => .fin (q.price i : ℝ))) := by
  have hcol : ∀ (w j : ℕ) (hj : j < 5) (f : IBook5 → Fin 5 → ℤ),
      TMat.column (.int ⟨true, w⟩ 5 (l.map fun q => List.ofFn (f q))) j
        = .ok ((sCol w fun q => f q ⟨j, hj⟩).arr l) := by
    intro w j hj f
    simp only [TMat.column, if_pos hj, List.map_map, Col.arr]
    congr 2
    apply List.map_congr_left
    intro q _
    simp [List.getD, hj]
    interval_cases j <;> rfl
  have hcolF : ∀ (w j : ℕ) (hj : j < 5) (f : IBook5 → Fin 5 → ℤ),
      column (.d2 5 (l.map fun q => List.ofFn fun i => XR.fin (f q i : ℝ))) j
        = .ok ((sCol w fun q => f q ⟨j, hj⟩).floats l) := by
    intro w j hj f
    simp only [column, if_pos hj, List.map_map, Col.floats, Col.val]
    congr 1
    apply List.map_congr_left
    intro q _
    simp [List.getD, hj]
    interval_cases j <;> rfl
  have dbl : ∀ w : ℕ, 2 ≤ w → (2 : ℤ) ^ (w - 1) = 2 * 2 ^ (w - 2) := by
    intro w hw
    rw [show w - 1 = (w - 2) + 1 by omega, pow_succ]; ring
  have hfit : ∀ (w : ℕ) (_ : 2 ≤ w) (x y : IBook5 → ℤ),
      (∀ q ∈ l, |x q| < 2 ^ (w - 2) ∧ |y q| < 2 ^ (w - 2)) →
      ((sCol w x).minus (sCol w y)).Fits l ∧ ((sCol w x).minus (sCol w y)).abs.Fits l := by
    intro w hw x y hxy
    simp only [Col.minus, Col.op, promote_self, Col.Fits, Col.abs, Col.map]
    refine ⟨⟨by omega, fun q hq => fits_signed ?_⟩, ⟨by omega, fun q hq => fits_signed ?_⟩⟩ <;>
      obtain ⟨h1, h2⟩ := hxy q hq <;> rw [dbl w hw]
    · rw [abs_lt] at *; constructor <;> omega
    · rw [abs_abs, abs_lt]; rw [abs_lt] at h1 h2; constructor <;> omega
  have hS : ∀ i j, ∀ q ∈ l, |q.size i| < 2 ^ (ws - 2) ∧ |q.size j| < 2 ^ (ws - 2) :=
    fun i j q hq => ⟨(h q hq i).1, (h q hq j).1⟩
  have hP : ∀ i j, ∀ q ∈ l, |q.price i| < 2 ^ (wp - 2) ∧ |q.price j| < 2 ^ (wp - 2) :=
    fun i j q hq => ⟨(h q hq i).2, (h q hq j).2⟩
  unfold slopeDifferenceT bidSideSlopeDifference
  rw [if_neg (by simp [TMat.shape])]
  simp only [show ((1 : ℕ) < 5) = True by norm_num, not_true_eq_false, if_false]
  simp only [bind, Except.bind, hcol ws 4 (by norm_num), hcol ws 2 (by norm_num), hcol ws 0 (by norm_num),
    hcol wp 4 (by norm_num), hcol wp 2 (by norm_num), hcol wp 0 (by norm_num),
    hcolF ws 4 (by norm_num) IBook5.size, hcolF ws 2 (by norm_num) IBook5.size,
    hcolF ws 0 (by norm_num) IBook5.size, hcolF wp 4 (by norm_num) IBook5.price,
    hcolF wp 2 (by norm_num) IBook5.price, hcolF wp 0 (by norm_num) IBook5.price]
  simp only [sub_arr l _ _ (hfit ws hws _ _ (hS _ _)).1, sub_arr l _ _ (hfit wp hwp _ _ (hP _ _)).1,
    abs_arr l _ (hfit wp hwp _ _ (hP _ _)).2, arr_cast, pure, Except.pure]
  simp only [Col.floats, bcast_maps, minus_val, abs_val, List.map_map, Function.comp_def]

example : ∀ q ∈ [(⟨![5, 6, 4, 7, 2], ![100, 99, 98, 97, 96]⟩ : IBook5)],
    ∀ i, |q.size i| < 2 ^ (16 - 2) ∧ |q.price i| < 2 ^ (16 - 2) := by
  intro q hq i
  rw [List.mem_singleton] at hq; subst hq
  fin_cases i <;> norm_num

end
end Frds.Props

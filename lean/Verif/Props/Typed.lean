import Verif.Model.Typed
import Verif.Spec.Typed
import Verif.Props.Spread

set_option linter.unusedSimpArgs false

/-! C138-C140: bid-ask spreads of integer-typed arrays. -/
namespace Frds.Props
noncomputable section
open Frds Frds.Np Frds.Model Frds.Spec Classical

variable {α : Type*}

@[simp] theorem arr_length (l : List α) (c : Col α) : (c.arr l).length = l.length := by
  cases c <;> simp [Col.arr, TArr.length]

@[simp] theorem arr_cast (l : List α) (c : Col α) : (c.arr l).cast = c.floats l := by
  cases c <;> simp [Col.arr, TArr.cast, Col.floats, Col.val]

@[simp] theorem floats_length (l : List α) (c : Col α) : (c.floats l).length = l.length := by
  simp [Col.floats]

theorem bc_maps {β γ δ} (f : β → γ → δ) (g : α → β) (h : α → γ) (l : List α) :
    bc f (l.map g) (l.map h) = .ok (l.map fun t => f (g t) (h t)) := by
  unfold bc
  rw [if_pos (by simp), zipWith_maps]

theorem bcast_maps (f : XR → XR → XR) (g h : α → XR) (l : List α) :
    bcast f (l.map g) (l.map h) = .ok (l.map fun t => f (g t) (h t)) := by
  rw [← bc_eq_bcast, bc_maps]

/-- an operation whose exact results fit is exact -/
theorem arith_arr (f : ℤ → ℤ → ℤ) (g : XR → XR → XR) (l : List α) (c d : Col α)
    (h : (Col.op f g c d).Fits l) : arith f g (c.arr l) (d.arr l) = .ok ((Col.op f g c d).arr l) := by
  cases c with
  | flt u => cases d <;> simp [arith, Col.op, Col.arr, TArr.cast, bc_maps, Except.map, Col.val]
  | int s u =>
    cases d with
    | flt v => simp [arith, Col.op, Col.arr, TArr.cast, bc_maps, Except.map, Col.val]
    | int t v =>
      simp only [arith, Col.op, Col.arr] at h ⊢
      cases hp : s.promote t with
      | none => simp [Col.arr, TArr.cast, bc_maps, Except.map, Col.val]
      | some p =>
        rw [hp] at h
        simp only [bc_maps, Except.map, Col.arr]
        congr 2
        apply List.map_congr_left
        intro x hx
        exact IntTy.wrap_of_fits h.1 (h.2 x hx)

theorem op_val (f : ℤ → ℤ → ℤ) (g : XR → XR → XR)
    (hfg : ∀ a b : ℤ, g (.fin a) (.fin b) = .fin ((f a b : ℤ) : ℝ)) (c d : Col α) (x : α) :
    (Col.op f g c d).val x = g (c.val x) (d.val x) := by
  cases c with
  | flt u => cases d <;> simp [Col.op, Col.val]
  | int s u =>
    cases d with
    | flt v => simp [Col.op, Col.val]
    | int t v =>
      simp only [Col.op]
      cases hp : s.promote t with
      | none => simp [Col.val]
      | some p => simp [Col.val, hfg]

@[simp] theorem plus_val (c d : Col α) (x : α) : (c.plus d).val x = c.val x + d.val x :=
  op_val _ _ (by intro a b; simp) c d x
@[simp] theorem minus_val (c d : Col α) (x : α) : (c.minus d).val x = c.val x - d.val x :=
  op_val _ _ (by intro a b; simp) c d x
@[simp] theorem times_val (c d : Col α) (x : α) : (c.times d).val x = c.val x * d.val x :=
  op_val _ _ (by intro a b; simp) c d x
@[simp] theorem double_val (c : Col α) (x : α) : c.double.val x = 2 * c.val x := by
  cases c <;> simp [Col.double, Col.map, Col.val, XR.ofNat_def]
@[simp] theorem abs_val (c : Col α) (x : α) : c.abs.val x = XR.abs (c.val x) := by
  cases c <;> simp [Col.abs, Col.map, Col.val, XR.fin_abs]
@[simp] theorem neg_val (c : Col α) (x : α) : c.neg.val x = -(c.val x) := by
  cases c <;> simp [Col.neg, Col.map, Col.val, XR.fin_neg]

theorem plus_val' (c d : Col α) : (c.plus d).val = fun x => c.val x + d.val x := funext (plus_val c d)
theorem minus_val' (c d : Col α) : (c.minus d).val = fun x => c.val x - d.val x := funext (minus_val c d)
theorem times_val' (c d : Col α) : (c.times d).val = fun x => c.val x * d.val x := funext (times_val c d)

theorem add_arr (l : List α) (c d : Col α) (h : (c.plus d).Fits l) :
    (c.arr l).add (d.arr l) = .ok ((c.plus d).arr l) := arith_arr _ _ l c d h
theorem sub_arr (l : List α) (c d : Col α) (h : (c.minus d).Fits l) :
    (c.arr l).sub (d.arr l) = .ok ((c.minus d).arr l) := arith_arr _ _ l c d h
theorem mul_arr (l : List α) (c d : Col α) (h : (c.times d).Fits l) :
    (c.arr l).mul (d.arr l) = .ok ((c.times d).arr l) := arith_arr _ _ l c d h

theorem twice_arr (l : List α) (c : Col α) (h : c.double.Fits l) :
    (c.arr l).twice = c.double.arr l := by
  cases c with
  | flt u => simp [Col.arr, TArr.twice, Col.double, Col.map]
  | int t u =>
    simp only [Col.arr, TArr.twice, Col.double, Col.map, List.map_map]
    congr 1
    apply List.map_congr_left
    intro x hx
    exact IntTy.wrap_of_fits h.1 (h.2 x hx)

theorem abs_arr (l : List α) (c : Col α) (h : c.abs.Fits l) :
    (c.arr l).abs = c.abs.arr l := by
  cases c with
  | flt u => simp [Col.arr, TArr.abs, Col.abs, Col.map]
  | int t u =>
    simp only [Col.arr, TArr.abs, Col.abs, Col.map, List.map_map]
    congr 1
    apply List.map_congr_left
    intro x hx
    exact IntTy.wrap_of_fits h.1 (h.2 x hx)

theorem neg_arr (l : List α) (c : Col α) (h : c.neg.Fits l) :
    (c.arr l).neg = c.neg.arr l := by
  cases c with
  | flt u => simp [Col.arr, TArr.neg, Col.neg, Col.map]
  | int t u =>
    simp only [Col.arr, TArr.neg, Col.neg, Col.map, List.map_map]
    congr 1
    apply List.map_congr_left
    intro x hx
    exact IntTy.wrap_of_fits h.1 (h.2 x hx)

/-! ### C138: no overflow, no difference -/

/-- C138 (quoted spread): if no sum `bid + ask` and no difference `ask - bid` overflows the type
NumPy gives it, the spread of integer-typed quotes is the spread of the same numbers as floats. -/
theorem C138_quoted (l : List α) (bid ask : Col α) (pct : Bool)
    (h1 : (bid.plus ask).Fits l) (h2 : (ask.minus bid).Fits l) :
    quotedSpreadT (bid.arr l) (ask.arr l) pct = quotedSpread (bid.floats l) (ask.floats l) pct := by
  simp only [quotedSpreadT, quotedSpread, arr_length, floats_length, ne_eq, not_true_eq_false, if_false]
  cases pct
  · simp
  · simp only [if_true, bind, Except.bind, add_arr l bid ask h1, sub_arr l ask bid h2, arr_cast]
    simp only [Col.floats, List.map_map, bcast_maps, zipWith_maps]
    congr 3
    apply List.map_congr_left
    intro x _
    simp

/-- the float model's direction argument -/
def dirF (l : List α) : Dir α → TradeDir
  | none => .none
  | some d => .array (d.floats l)
/-- the typed model's direction argument -/
def dirT (l : List α) : Dir α → TDir
  | none => .other
  | some d => .array (d.arr l)

theorem gapT_fits (l : List α) (x y b : Col α) (dir : Dir α) (pct : Bool)
    (h : GapFits l x y dir) :
    gapT (x.arr l) (y.arr l) (b.arr l) (dirT l dir) pct = .ok (l.map fun t =>
      match dir, pct with
      | none, true => 2 * XR.abs (x.val t - y.val t) / b.val t * 100
      | none, false => 2 * XR.abs (XR.log (x.val t) - XR.log (y.val t))
      | some d, true => 2 * d.val t * (x.val t - y.val t) / b.val t * 100
      | some d, false => 2 * d.val t * (XR.log (x.val t) - XR.log (y.val t))) := by
  cases dir with
  | none =>
    obtain ⟨h1, h2, h3⟩ := h
    cases pct
    · simp only [dirT, gapT, Bool.false_eq_true, if_false, arr_cast, Col.floats, bcast_maps]
    · simp only [dirT, gapT, if_true, bind, Except.bind, sub_arr l x y h1, abs_arr l _ h2,
        twice_arr l _ h3, arr_cast, Col.floats, bcast_maps, double_val, abs_val, minus_val]
  | some d =>
    obtain ⟨h1, h2, h3⟩ := h
    cases pct
    · simp only [dirT, gapT, Bool.false_eq_true, if_false, bind, Except.bind, arr_cast, Col.floats,
        bcast_maps, twice_arr l _ h2]
      have e : TArr.flt (l.map fun t => XR.log (x.val t) - XR.log (y.val t))
          = (Col.flt fun t => XR.log (x.val t) - XR.log (y.val t)).arr l := rfl
      rw [e, mul_arr l _ _ (by cases d <;> simp [Col.times, Col.op, Col.double, Col.map, Col.Fits])]
      simp only [arr_cast, Col.floats, times_val', double_val]
      rfl
    · simp only [dirT, gapT, if_true, bind, Except.bind, sub_arr l x y h1, twice_arr l _ h2,
        mul_arr l _ _ h3, arr_cast, Col.floats, bcast_maps, times_val, double_val, minus_val]

theorem dollarWeightedT_fits (l : List α) (s : List XR) (v p : Col α) (h : (v.times p).Fits l) :
    dollarWeightedT s (v.arr l) (p.arr l) = dollarWeighted s (v.floats l) (p.floats l) := by
  simp only [dollarWeightedT, dollarWeighted, bind, Except.bind, mul_arr l v p h, arr_cast]
  simp only [Col.floats, bcast_maps, times_val']

/-- C138 (effective spread, realized spread, price impact): if the differences, twice the
differences (times the direction, if given) and the dollar volumes do not overflow the types NumPy
gives them, integer-typed columns - each of its own type, or floats - give exactly the result of the
same numbers stored as floats. -/
theorem C138_spreads (l : List α) (price later mid vol : Col α) (dir : Dir α) (pct : Bool)
    (hv : (vol.times price).Fits l) :
    (GapFits l price mid dir →
      effectiveSpreadT (price.arr l) (mid.arr l) (vol.arr l) (dirT l dir) pct
        = effectiveSpread (price.floats l) (mid.floats l) (vol.floats l) (dirF l dir) pct) ∧
    (GapFits l price later dir →
      realizedSpreadT (price.arr l) (later.arr l) (mid.arr l) (vol.arr l) (dirT l dir) pct
        = realizedSpread (price.floats l) (later.floats l) (mid.floats l) (vol.floats l)
            (dirF l dir) pct) ∧
    (GapFits l later mid dir →
      simplePriceImpactT (price.arr l) (later.arr l) (mid.arr l) (vol.arr l) (dirT l dir) pct
        = simplePriceImpact (price.floats l) (later.floats l) (mid.floats l) (vol.floats l)
            (dirF l dir) pct) := by
  refine ⟨fun hg => ?_, fun hg => ?_, fun hg => ?_⟩
  · simp only [effectiveSpreadT, effectiveSpread, arr_length, floats_length, and_self,
      not_true_eq_false, if_false, bind, Except.bind, gapT_fits l _ _ _ _ _ hg, dollarWeightedT_fits l _ _ _ hv]
    cases dir <;> cases pct <;>
      simp [dirChecked, dirT, dirF, Col.floats, zipWith_maps]
  · simp only [realizedSpreadT, realizedSpread, arr_length, floats_length, and_self,
      not_true_eq_false, if_false, bind, Except.bind, gapT_fits l _ _ _ _ _ hg, dollarWeightedT_fits l _ _ _ hv]
    cases dir <;> cases pct <;>
      simp [dirChecked, dirT, dirF, Col.floats, zipWith_maps]
  · simp only [simplePriceImpactT, simplePriceImpact, arr_length, floats_length, and_self,
      not_true_eq_false, if_false, bind, Except.bind, gapT_fits l _ _ _ _ _ hg, dollarWeightedT_fits l _ _ _ hv]
    cases dir <;> cases pct <;>
      simp [dirChecked, dirT, dirF, Col.floats, zipWith_maps]

/-! #### signed integers of moderate size -/

/-- the column of a signed `w`-bit type -/
abbrev sCol (w : ℕ) (f : α → ℤ) : Col α := .int ⟨true, w⟩ f
/-- the column of an unsigned `w`-bit type -/
abbrev uCol (w : ℕ) (f : α → ℤ) : Col α := .int ⟨false, w⟩ f

theorem promote_self (t : IntTy) : t.promote t = some t := by
  simp [IntTy.promote]

theorem fits_signed {w : ℕ} {z : ℤ} (h : |z| < 2 ^ (w - 1)) : (⟨true, w⟩ : IntTy).Fits z := by
  simp only [IntTy.Fits, IntTy.lo, IntTy.hi, if_true]
  have := abs_lt.mp h
  omega

theorem pow_w {w : ℕ} (hw : 4 ≤ w) : (2 : ℤ) ^ (w - 1) = 8 * 2 ^ (w - 4) := by
  obtain ⟨v, rfl⟩ : ∃ v, w = v + 4 := ⟨w - 4, by omega⟩
  simp only [Nat.add_sub_cancel, show v + 4 - 1 = v + 3 by omega]
  ring

/-- C138 (shapes): for arrays of any element types the functions raise `AssertionError` exactly as for
floats, i.e. when the lengths they check differ; the length of a direction array is checked too. -/
theorem C138_shapes (price later mid vol d bid ask : TArr) (dir : TDir) (pct : Bool) :
    (bid.length ≠ ask.length → quotedSpreadT bid ask pct = .error .assertionError) ∧
    (¬ (price.length = mid.length ∧ mid.length = vol.length) →
      effectiveSpreadT price mid vol dir pct = .error .assertionError) ∧
    (¬ (price.length = later.length ∧ later.length = mid.length ∧ mid.length = vol.length) →
      realizedSpreadT price later mid vol dir pct = .error .assertionError) ∧
    (¬ (later.length = mid.length ∧ mid.length = vol.length) →
      simplePriceImpactT price later mid vol dir pct = .error .assertionError) ∧
    (d.length ≠ price.length → effectiveSpreadT price mid vol (.array d) pct = .error .assertionError ∧
      realizedSpreadT price later mid vol (.array d) pct = .error .assertionError) ∧
    (d.length ≠ mid.length → simplePriceImpactT price later mid vol (.array d) pct = .error .assertionError) := by
  refine ⟨fun h => ?_, fun h => ?_, fun h => ?_, fun h => ?_, fun h => ⟨?_, ?_⟩, fun h => ?_⟩
  · simp [quotedSpreadT, h]
  · simp only [effectiveSpreadT, if_pos h]
  · simp only [realizedSpreadT, if_pos h]
  · simp only [simplePriceImpactT, if_pos h]
  · simp only [effectiveSpreadT, dirChecked, if_pos h.symm, ite_self]
  · simp only [realizedSpreadT, dirChecked, if_pos h.symm, ite_self]
  · simp only [simplePriceImpactT, dirChecked, if_pos h.symm, ite_self]

/-- three prices, two directions -/
example : (TArr.int ⟨true, 8⟩ [1, -1]).length ≠ (TArr.int ⟨true, 32⟩ [100, 101, 99]).length := by
  simp [TArr.length]

/-- C138 (signed integers): `w`-bit signed columns with prices at most `2^(w-4)` in absolute value,
directions at most 1 and dollar volumes below `2^(w-1)` give the floats' results: quoted,
effective, realized spread and price impact, percentage or log, with or without directions. -/
theorem C138_signed (l : List α) {w : ℕ} (hw : 4 ≤ w) (bid ask price later mid vol dir : α → ℤ)
    (h : ∀ t ∈ l, |bid t| ≤ 2 ^ (w - 4) ∧ |ask t| ≤ 2 ^ (w - 4) ∧ |price t| ≤ 2 ^ (w - 4) ∧
      |later t| ≤ 2 ^ (w - 4) ∧ |mid t| ≤ 2 ^ (w - 4) ∧ |dir t| ≤ 1 ∧
      |vol t * price t| < 2 ^ (w - 1)) (signed pct : Bool) :
    quotedSpreadT ((sCol w bid).arr l) ((sCol w ask).arr l) pct
      = quotedSpread (l.map fun t => .fin (bid t)) (l.map fun t => .fin (ask t)) pct ∧
    effectiveSpreadT ((sCol w price).arr l) ((sCol w mid).arr l) ((sCol w vol).arr l)
        (if signed then .array ((sCol w dir).arr l) else .other) pct
      = effectiveSpread (l.map fun t => .fin (price t)) (l.map fun t => .fin (mid t))
        (l.map fun t => .fin (vol t)) (if signed then .array (l.map fun t => .fin (dir t)) else .none) pct ∧
    realizedSpreadT ((sCol w price).arr l) ((sCol w later).arr l) ((sCol w mid).arr l) ((sCol w vol).arr l)
        (if signed then .array ((sCol w dir).arr l) else .other) pct
      = realizedSpread (l.map fun t => .fin (price t)) (l.map fun t => .fin (later t))
        (l.map fun t => .fin (mid t)) (l.map fun t => .fin (vol t))
        (if signed then .array (l.map fun t => .fin (dir t)) else .none) pct ∧
    simplePriceImpactT ((sCol w price).arr l) ((sCol w later).arr l) ((sCol w mid).arr l)
        ((sCol w vol).arr l) (if signed then .array ((sCol w dir).arr l) else .other) pct
      = simplePriceImpact (l.map fun t => .fin (price t)) (l.map fun t => .fin (later t))
        (l.map fun t => .fin (mid t)) (l.map fun t => .fin (vol t))
        (if signed then .array (l.map fun t => .fin (dir t)) else .none) pct := by
  have hp := pow_w hw
  have hq : (1 : ℤ) ≤ 2 ^ (w - 4) := one_le_pow₀ (by norm_num)
  have hw1 : 1 ≤ w := by omega
  have gap : ∀ x y : α → ℤ, (∀ t ∈ l, |x t| ≤ 2 ^ (w - 4) ∧ |y t| ≤ 2 ^ (w - 4) ∧ |dir t| ≤ 1) →
      GapFits l (sCol w x) (sCol w y) (if signed then some (sCol w dir) else none) := by
    intro x y hxy
    have hd : ∀ t ∈ l, |x t - y t| ≤ 2 * 2 ^ (w - 4) := by
      intro t ht
      obtain ⟨h1, h2, _⟩ := hxy t ht
      have := abs_sub (x t) (y t)
      omega
    cases signed
    · simp only [Bool.false_eq_true, if_false, GapFits, Col.minus, Col.op, promote_self, Col.Fits, Col.abs,
        Col.map, Col.double]
      refine ⟨⟨hw1, fun t ht => fits_signed ?_⟩, ⟨hw1, fun t ht => fits_signed ?_⟩,
        ⟨hw1, fun t ht => fits_signed ?_⟩⟩ <;> have := hd t ht
      · omega
      · rw [abs_abs]; omega
      · rw [abs_mul, abs_abs, abs_of_nonneg (by norm_num : (0:ℤ) ≤ 2)]; omega
    · simp only [if_true, GapFits, Col.minus, Col.times, Col.op, promote_self, Col.Fits, Col.abs,
        Col.map, Col.double]
      refine ⟨⟨hw1, fun t ht => fits_signed ?_⟩, ⟨hw1, fun t ht => fits_signed ?_⟩,
        ⟨hw1, fun t ht => fits_signed ?_⟩⟩ <;> have := hd t ht <;> have h3 := (hxy t ht).2.2
      · omega
      · rw [abs_mul, abs_of_nonneg (by norm_num : (0:ℤ) ≤ 2)]; omega
      · rw [abs_mul, abs_mul, abs_of_nonneg (by norm_num : (0:ℤ) ≤ 2)]
        have : |dir t| * |x t - y t| ≤ 1 * (2 * 2 ^ (w - 4)) :=
          mul_le_mul h3 this (abs_nonneg _) (by norm_num)
        rw [mul_assoc]; omega
  have hv : ((sCol w vol).times (sCol w price)).Fits l := by
    simp only [Col.times, Col.op, promote_self, Col.Fits]
    exact ⟨hw1, fun t ht => fits_signed (h t ht).2.2.2.2.2.2⟩
  have e1 : dirT l (if signed then some (sCol w dir) else none)
      = (if signed then TDir.array ((sCol w dir).arr l) else .other) := by cases signed <;> rfl
  have e2 : dirF l (if signed then some (sCol w dir) else none)
      = (if signed then TradeDir.array (l.map fun t => .fin (dir t)) else .none) := by cases signed <;> rfl
  refine ⟨?_, ?_, ?_, ?_⟩
  · refine C138_quoted l (sCol w bid) (sCol w ask) pct ?_ ?_ <;>
      simp only [Col.plus, Col.minus, Col.op, promote_self, Col.Fits] <;>
      refine ⟨hw1, fun t ht => fits_signed ?_⟩ <;> obtain ⟨h1, h2, _⟩ := h t ht
    · have := abs_add_le (bid t) (ask t); omega
    · have := abs_sub (ask t) (bid t); omega
  · have := (C138_spreads l (sCol w price) (sCol w later) (sCol w mid) (sCol w vol)
      (if signed then some (sCol w dir) else none) pct hv).1 (gap _ _ fun t ht => by
        obtain ⟨h1, h2, h3, h4, h5, h6, h7⟩ := h t ht; exact ⟨h3, h5, h6⟩)
    rw [e1, e2] at this; exact this
  · have := (C138_spreads l (sCol w price) (sCol w later) (sCol w mid) (sCol w vol)
      (if signed then some (sCol w dir) else none) pct hv).2.1 (gap _ _ fun t ht => by
        obtain ⟨h1, h2, h3, h4, h5, h6, h7⟩ := h t ht; exact ⟨h3, h4, h6⟩)
    rw [e1, e2] at this; exact this
  · have := (C138_spreads l (sCol w price) (sCol w later) (sCol w mid) (sCol w vol)
      (if signed then some (sCol w dir) else none) pct hv).2.2 (gap _ _ fun t ht => by
        obtain ⟨h1, h2, h3, h4, h5, h6, h7⟩ := h t ht; exact ⟨h4, h5, h6⟩)
    rw [e1, e2] at this; exact this

/-- a 32-bit case of the hypotheses -/
example : ∀ t ∈ [(0 : ℤ), 1], |99 + t| ≤ 2 ^ (32 - 4) ∧ |101 + t| ≤ 2 ^ (32 - 4) ∧ |100 + t| ≤ 2 ^ (32 - 4) ∧
    |102 + t| ≤ 2 ^ (32 - 4) ∧ |100 + t| ≤ 2 ^ (32 - 4) ∧ |1 - 2 * t| ≤ 1 ∧
    |(1000 + t) * (100 + t)| < 2 ^ (32 - 1) := by
  intro t ht; simp at ht; rcases ht with rfl | rfl <;> norm_num

/-! ### C139: unsigned prices -/

theorem wrap_unsigned_sub {w : ℕ} {a b : ℤ} (ha : 0 ≤ a) (ha' : a < 2 ^ w) (hb : 0 ≤ b) (hb' : b < 2 ^ w) :
    (⟨false, w⟩ : IntTy).wrap (a - b) = if a < b then 2 ^ w - (b - a) else a - b := by
  simp only [IntTy.wrap, Bool.false_eq_true, if_false]
  split_ifs with h
  · rw [show a - b = (2 ^ w - (b - a)) + 2 ^ w * (-1) by ring, Int.add_mul_emod_self_left]
    exact Int.emod_eq_of_lt (by omega) (by omega)
  · exact Int.emod_eq_of_lt (by omega) (by omega)

theorem wrap_unsigned_of {w : ℕ} {a : ℤ} (ha : 0 ≤ a) (ha' : a < 2 ^ w) :
    (⟨false, w⟩ : IntTy).wrap a = a := by
  simp only [IntTy.wrap, Bool.false_eq_true, if_false]
  exact Int.emod_eq_of_lt ha ha'

theorem sub_unsigned (l : List α) {w : ℕ} (x y : α → ℤ)
    (h : ∀ t ∈ l, 0 ≤ x t ∧ x t < 2 ^ w ∧ 0 ≤ y t ∧ y t < 2 ^ w) :
    ((uCol w x).arr l).sub ((uCol w y).arr l)
      = .ok ((uCol w fun t => if x t < y t then 2 ^ w - (y t - x t) else x t - y t).arr l) := by
  simp only [TArr.sub, arith, Col.arr, promote_self, bc_maps, Except.map]
  congr 2
  apply List.map_congr_left
  intro t ht
  obtain ⟨h1, h2, h3, h4⟩ := h t ht
  exact wrap_unsigned_sub h1 h2 h3 h4

/-- C139 (quoted spread): quotes stored as unsigned `w`-bit integers whose sums fit. Every crossed
quote (bid above ask) contributes its midpoint-relative spread **plus** `2^w / midpoint`; the others
contribute correctly. -/
theorem C139_quoted {l : List α} (hne : l ≠ []) {w : ℕ} (bid ask : α → ℤ)
    (h : ∀ t ∈ l, 0 < bid t ∧ 0 < ask t ∧ bid t + ask t < 2 ^ w) :
    quotedSpreadT ((uCol w bid).arr l) ((uCol w ask).arr l) true
      = .ok (.fin (100 * mean l fun t =>
          ((ask t : ℝ) - bid t) / (((bid t : ℝ) + ask t) / 2)
          + if ask t < bid t then 2 ^ w / (((bid t : ℝ) + ask t) / 2) else 0)) := by
  have hadd : ((uCol w bid).arr l).add ((uCol w ask).arr l)
      = .ok ((uCol w fun t => bid t + ask t).arr l) := by
    simp only [TArr.add, arith, Col.arr, promote_self, bc_maps, Except.map]
    congr 2
    apply List.map_congr_left
    intro t ht
    obtain ⟨h1, h2, h3⟩ := h t ht
    exact wrap_unsigned_of (by omega) h3
  have hsub := sub_unsigned l (w := w) ask bid (fun t ht => by
    obtain ⟨h1, h2, h3⟩ := h t ht
    exact ⟨by omega, by omega, by omega, by omega⟩)
  simp only [quotedSpreadT, arr_length, ne_eq, not_true_eq_false, if_false, if_true, bind, Except.bind,
    hadd, hsub, arr_cast, Col.floats, List.map_map, bcast_maps]
  have e : (l.map fun t => (uCol w fun t => if ask t < bid t then 2 ^ w - (bid t - ask t) else ask t - bid t).val t
        / ((fun x => x / 2) ∘ (uCol w fun t => bid t + ask t).val) t)
      = col l fun t => ((ask t : ℝ) - bid t) / (((bid t : ℝ) + ask t) / 2)
          + if ask t < bid t then 2 ^ w / (((bid t : ℝ) + ask t) / 2) else 0 := by
    apply map_congr_fin
    intro t ht
    obtain ⟨h1, h2, h3⟩ := h t ht
    have hb : (0 : ℝ) < bid t := by exact_mod_cast h1
    have ha : (0 : ℝ) < ask t := by exact_mod_cast h2
    simp only [Function.comp, Col.val, XR.ofNat_def]
    rw [XR.fin_div _ (by norm_num), XR.fin_div _ (by push_cast; positivity)]
    congr 1
    push_cast
    split_ifs
    · push_cast; field_simp; ring
    · push_cast; ring
  rw [e, mean_col hne, XR.ofNat_def, XR.fin_mul, mul_comm]

/-- C139 (quoted spread): hence a quoted spread of unsigned quotes is never negative, and it agrees
with the one of the same numbers as floats exactly when no quote is crossed. -/
theorem C139_quoted_iff {l : List α} (hne : l ≠ []) {w : ℕ} (bid ask : α → ℤ)
    (h : ∀ t ∈ l, 0 < bid t ∧ 0 < ask t ∧ bid t + ask t < 2 ^ w) :
    (∃ x : ℝ, quotedSpreadT ((uCol w bid).arr l) ((uCol w ask).arr l) true = .ok (.fin x) ∧ 0 ≤ x) ∧
    (quotedSpreadT ((uCol w bid).arr l) ((uCol w ask).arr l) true
        = quotedSpread (l.map fun t => .fin (bid t)) (l.map fun t => .fin (ask t)) true
      ↔ ∀ t ∈ l, bid t ≤ ask t) := by
  have hl : (0:ℝ) < l.length := by
    have := List.length_pos_iff.mpr hne; positivity
  have hc : ∀ t ∈ l, (0 : ℝ) < bid t ∧ (0 : ℝ) < ask t ∧ ((bid t : ℝ) + ask t) < 2 ^ w := fun t ht => by
    obtain ⟨h1, h2, h3⟩ := h t ht
    exact ⟨by exact_mod_cast h1, by exact_mod_cast h2, by exact_mod_cast h3⟩
  have hT := C139_quoted hne bid ask h
  refine ⟨⟨_, hT, mul_nonneg (by norm_num) (div_nonneg (sum_map_nonneg' ?_) hl.le)⟩, ?_⟩
  · intro t ht
    obtain ⟨h1, h2, h3⟩ := hc t ht
    split_ifs with hlt
    · have hlt' : (ask t : ℝ) < bid t := by exact_mod_cast hlt
      rw [← add_div]
      exact div_nonneg (by linarith) (by linarith)
    · have hlt' : (bid t : ℝ) ≤ ask t := by exact_mod_cast not_lt.mp hlt
      rw [add_zero]
      exact div_nonneg (by linarith) (by linarith)
  · have hF := C47_quoted_pct (l := l.map fun t => (⟨bid t, ask t⟩ : Quote)) (by simpa using hne) (by
      intro q hq
      obtain ⟨t, ht, rfl⟩ := List.mem_map.mp hq
      obtain ⟨h1, h2, _⟩ := hc t ht
      simp only; linarith)
    simp only [col, List.map_map, Function.comp_def, Spec.mean, List.length_map] at hF
    rw [hT, hF]
    simp only [Except.ok.injEq, XR.fin_inj, Spec.mean, sum_map_add']
    rw [add_div, mul_add, add_eq_left, mul_eq_zero, or_iff_right (by norm_num), div_eq_zero_iff, or_iff_left hl.ne',
      sum_eq_zero_iff' (by
        intro t ht
        obtain ⟨h1, h2, _⟩ := hc t ht
        split_ifs
        · exact div_nonneg (by positivity) (by linarith)
        · exact le_rfl)]
    refine forall₂_congr fun t ht => ?_
    obtain ⟨h1, h2, _⟩ := hc t ht
    constructor
    · intro h0
      by_contra hlt
      rw [if_pos (by omega)] at h0
      have : (0 : ℝ) < 2 ^ w / (((bid t : ℝ) + ask t) / 2) := div_pos (by positivity) (by linarith)
      linarith
    · intro hle; rw [if_neg (by omega)]

/-- one normal and one crossed quote in `uint16` -/
example : ∀ t ∈ [((99 : ℤ), (101 : ℤ)), (103, 102)], 0 < t.1 ∧ 0 < t.2 ∧ t.1 + t.2 < 2 ^ 16 := by
  intro t ht; simp at ht; rcases ht with rfl | rfl <;> norm_num

/-- a trade whose fields are integers (prices in ticks) -/
structure ITrade where
  price : ℤ
  mid : ℤ
  later : ℤ
  vol : ℤ
  dir : ℤ

/-- the same trade over the reals -/
def ITrade.toTrade (t : ITrade) : Trade := ⟨t.price, t.mid, t.later, t.vol, t.dir⟩

/-- twice the distance, in per cent of `base`, as computed from unsigned `w`-bit prices `x`, `y` -/
def wrappedGap (w : ℕ) (base x y : ℝ) : ℝ :=
  if x < y then (2 ^ w - 2 * (y - x)) / base * 100 else 2 * (x - y) / base * 100

theorem gapT_unsigned (l : List α) {w : ℕ} (x y : α → ℤ) (b : α → ℤ)
    (h : ∀ t ∈ l, 0 ≤ x t ∧ 0 ≤ y t ∧ x t < 2 ^ w ∧ y t < 2 ^ w ∧ 2 * |x t - y t| < 2 ^ w ∧ b t ≠ 0) :
    gapT ((uCol w x).arr l) ((uCol w y).arr l) ((uCol w b).arr l) .other true
      = .ok (col l fun t => wrappedGap w (b t) (x t) (y t)) := by
  have hsub := sub_unsigned l (w := w) x y (fun t ht => by
    obtain ⟨h1, h2, h3, h4, _⟩ := h t ht; exact ⟨h1, h3, h2, h4⟩)
  have hb : ∀ t ∈ l, 0 ≤ (if x t < y t then 2 ^ w - (y t - x t) else x t - y t) ∧
      (if x t < y t then 2 ^ w - (y t - x t) else x t - y t) < 2 ^ w := by
    intro t ht
    obtain ⟨h1, h2, h3, h4, h5, _⟩ := h t ht
    split_ifs <;> omega
  simp only [gapT, if_true, bind, Except.bind, hsub]
  have e : ((uCol w fun t => if x t < y t then 2 ^ w - (y t - x t) else x t - y t).arr l).abs.twice
      = (uCol w fun t => if x t < y t then 2 ^ w - 2 * (y t - x t) else 2 * (x t - y t)).arr l := by
    simp only [Col.arr, TArr.abs, TArr.twice, List.map_map]
    congr 1
    apply List.map_congr_left
    intro t ht
    obtain ⟨h1, h2, h3, h4, h5, _⟩ := h t ht
    obtain ⟨g1, g2⟩ := hb t ht
    simp only [Function.comp]
    rw [abs_of_nonneg g1, wrap_unsigned_of g1 g2]
    have := abs_lt.mp (show |x t - y t| < 2 ^ w by omega)
    split_ifs with hlt
    · rw [abs_of_nonpos (by omega)] at h5
      simp only [IntTy.wrap, Bool.false_eq_true, if_false]
      rw [show 2 * (2 ^ w - (y t - x t)) = (2 ^ w - 2 * (y t - x t)) + 2 ^ w * 1 by ring,
        Int.add_mul_emod_self_left]
      exact Int.emod_eq_of_lt (by omega) (by omega)
    · rw [abs_of_nonneg (by omega)] at h5
      exact wrap_unsigned_of (by omega) (by omega)
  rw [e]
  simp only [arr_cast, Col.floats, bcast_maps]
  congr 1
  apply map_congr_fin
  intro t ht
  have hbt : (b t : ℝ) ≠ 0 := by exact_mod_cast (h t ht).2.2.2.2.2
  simp only [Col.val, XR.ofNat_def]
  rw [XR.fin_div _ hbt, XR.fin_mul]
  congr 1
  unfold wrappedGap
  by_cases hlt : x t < y t
  · rw [if_pos hlt, if_pos (by exact_mod_cast hlt)]; push_cast; ring
  · rw [if_neg hlt, if_neg (by exact_mod_cast hlt)]; push_cast; ring

/-- the conditions under which only the sign of the differences is a problem: unsigned `w`-bit
prices in range, differences below `2^(w-1)` -/
def UnsignedTrades (w : ℕ) (l : List ITrade) : Prop :=
  ∀ t ∈ l, 0 < t.price ∧ 0 < t.mid ∧ 0 < t.later ∧ t.price < 2 ^ w ∧ t.mid < 2 ^ w ∧ t.later < 2 ^ w ∧
    2 * |t.price - t.mid| < 2 ^ w ∧ 2 * |t.price - t.later| < 2 ^ w ∧ 2 * |t.later - t.mid| < 2 ^ w

/-- C139 (effective spread, realized spread, price impact in per cent, no directions): with prices
stored as unsigned `w`-bit integers (volumes as floats), a trade below the reference price counts
with `(2^w - 2 (reference - price)) / midpoint` instead of `2 (reference - price) / midpoint`;
trades at or above it count correctly. -/
theorem C139_spreads {l : List ITrade} (hne : l ≠ []) {w : ℕ} (h : UnsignedTrades w l)
    (hw : Weighable (l.map ITrade.toTrade)) :
    effectiveSpreadT ((uCol w ITrade.price).arr l) ((uCol w ITrade.mid).arr l)
        (.flt (l.map fun t => .fin t.vol)) .other true
      = .ok (.fin (volMean (l.map ITrade.toTrade) fun t => wrappedGap w t.mid t.price t.mid)) ∧
    realizedSpreadT ((uCol w ITrade.price).arr l) ((uCol w ITrade.later).arr l)
        ((uCol w ITrade.mid).arr l) (.flt (l.map fun t => .fin t.vol)) .other true
      = .ok (.fin (volMean (l.map ITrade.toTrade) fun t => wrappedGap w t.mid t.price t.later)) ∧
    simplePriceImpactT ((uCol w ITrade.price).arr l) ((uCol w ITrade.later).arr l)
        ((uCol w ITrade.mid).arr l) (.flt (l.map fun t => .fin t.vol)) .other true
      = .ok (.fin (volMean (l.map ITrade.toTrade) fun t => wrappedGap w t.mid t.later t.mid)) := by
  have hv : ∀ f : Trade → ℝ, dollarWeightedT (col l fun t => f t.toTrade) (.flt (l.map fun t => .fin t.vol))
      ((uCol w ITrade.price).arr l) = .ok (.fin (volMean (l.map ITrade.toTrade) f)) := by
    intro f
    have e1 : dollarWeightedT (col l fun t => f t.toTrade) (.flt (l.map fun t => .fin t.vol))
      ((uCol w ITrade.price).arr l) = _ :=
      dollarWeightedT_fits l _ (.flt fun t => .fin t.vol) (uCol w ITrade.price) (by
        simp [Col.times, Col.op, Col.Fits])
    have e2 := dollarWeighted_col (l := l.map ITrade.toTrade) (by simpa using hne) f hw
    simp only [col, List.map_map] at e2
    rw [e1, ← e2]
    rfl
  have lens : (TArr.flt (l.map fun t => XR.fin t.vol)).length = l.length := by simp [TArr.length]
  refine ⟨?_, ?_, ?_⟩
  · simp only [effectiveSpreadT, arr_length, lens, and_self, not_true_eq_false, if_false, dirChecked, bind,
      Except.bind]
    rw [gapT_unsigned l _ _ _ (fun t ht => by
      obtain ⟨h1, h2, h3, h4, h5, h6, h7, h8, h9⟩ := h t ht
      exact ⟨h1.le, h2.le, h4, h5, h7, h2.ne'⟩)]
    exact hv fun t => wrappedGap w t.mid t.price t.mid
  · simp only [realizedSpreadT, arr_length, lens, and_self, not_true_eq_false, if_false, dirChecked, bind,
      Except.bind]
    rw [gapT_unsigned l _ _ _ (fun t ht => by
      obtain ⟨h1, h2, h3, h4, h5, h6, h7, h8, h9⟩ := h t ht
      exact ⟨h1.le, h3.le, h4, h6, h8, h2.ne'⟩)]
    exact hv fun t => wrappedGap w t.mid t.price t.later
  · simp only [simplePriceImpactT, arr_length, lens, and_self, not_true_eq_false, if_false, dirChecked, bind,
      Except.bind]
    rw [gapT_unsigned l _ _ _ (fun t ht => by
      obtain ⟨h1, h2, h3, h4, h5, h6, h7, h8, h9⟩ := h t ht
      exact ⟨h3.le, h2.le, h6, h5, h9, h2.ne'⟩)]
    exact hv fun t => wrappedGap w t.mid t.later t.mid

/-- C139: the wrapped and the true value of a trade: equal at or above the reference; below it they
differ by `(2^w - 4 (reference - price)) / midpoint`, so they coincide only at distance `2^w / 4`. -/
theorem C139_wrapped (w : ℕ) {d base x y : ℝ} (hb : 0 < base) :
    (y ≤ x → wrappedGap w base x y = gap true false d base x y) ∧
    (x < y → wrappedGap w base x y
      = gap true false d base x y + (2 ^ w - 4 * (y - x)) / base * 100) := by
  rw [gap_unsigned_pct hb]
  unfold wrappedGap
  constructor
  · intro h; rw [if_neg (by linarith), abs_of_nonneg (by linarith)]
  · intro h; rw [if_pos h, abs_of_neg (by linarith)]; ring

/-- a buy above and a sell below the midpoint, `uint32` ticks -/
example : UnsignedTrades 32 [⟨101, 100, 102, 10, 1⟩, ⟨99, 100, 99, 5, -1⟩] ∧
    Weighable (([⟨101, 100, 102, 10, 1⟩, ⟨99, 100, 99, 5, -1⟩] : List ITrade).map ITrade.toTrade) := by
  constructor
  · intro t ht; simp at ht; rcases ht with rfl | rfl <;> norm_num
  · right; simp [ITrade.toTrade, Trade.dollar]; norm_num

/-! ### C140: integer dollar volumes -/

/-- C140: with integer volumes and prices (midpoints and directions as floats) the weights are the
dollar volumes **modulo the range of the product type** `p`: the simple mean if all of these are
zero, `ZeroDivisionError` if they sum to zero otherwise, else the mean weighted with them. -/
theorem C140_weights {l : List ITrade} (hne : l ≠ []) (tv tp p : IntTy) (hp : tv.promote tp = some p)
    (hpos : PosTrades (l.map ITrade.toTrade)) (signed pct : Bool) :
    effectiveSpreadT (.int tp (l.map ITrade.price)) (.flt (l.map fun t => .fin t.mid))
        (.int tv (l.map ITrade.vol))
        (if signed then .array (.flt (l.map fun t => .fin t.dir)) else .other) pct
      = if ∀ t ∈ l, p.wrap (t.vol * t.price) = 0 then
          .ok (.fin (mean l fun t => t.toTrade.eff pct signed))
        else if (l.map fun t => p.wrap (t.vol * t.price)).sum = 0 then .error .zeroDivisionError
        else .ok (.fin (wmean l (fun t => (p.wrap (t.vol * t.price) : ℝ)) fun t => t.toTrade.eff pct signed)) := by
  have hpos' : ∀ t ∈ l, (0 : ℝ) < t.price ∧ (0 : ℝ) < t.mid ∧ (0 : ℝ) < t.later := fun t ht =>
    hpos t.toTrade (List.mem_map.mpr ⟨t, ht, rfl⟩)
  have hg := gapT_fits l (.int tp ITrade.price) (.flt fun t => .fin t.mid) (.flt fun t => .fin t.mid)
    (if signed then some (.flt fun t => .fin t.dir) else none) pct (by
      cases signed <;> simp [GapFits, Col.minus, Col.op, Col.Fits, Col.abs, Col.map, Col.double, Col.times])
  have e1 : dirT l (if signed then some (.flt fun t : ITrade => .fin t.dir) else none)
      = (if signed then TDir.array (.flt (l.map fun t => .fin t.dir)) else .other) := by cases signed <;> rfl
  rw [e1] at hg
  have hg' : gapT (.int tp (l.map ITrade.price)) (.flt (l.map fun t => .fin t.mid))
      (.flt (l.map fun t => .fin t.mid)) (if signed then TDir.array (.flt (l.map fun t => .fin t.dir)) else .other)
      pct = .ok (col l fun t => t.toTrade.eff pct signed) := by
    refine hg.trans ?_
    congr 1
    apply map_congr_fin
    intro t ht
    obtain ⟨h1, h2, h3⟩ := hpos' t ht
    cases signed <;> cases pct <;>
      simp only [Col.val, XR.fin_log h1, XR.fin_log h2, XR.ofNat_def, XR.fin_sub, XR.fin_abs, XR.fin_mul,
        XR.fin_div _ h2.ne', Trade.eff, ITrade.toTrade, gap_unsigned_pct h2, Bool.false_eq_true, if_false, if_true] <;>
      simp [gap] <;> ring
  have hd : dollarWeightedT (col l fun t => t.toTrade.eff pct signed) (.int tv (l.map ITrade.vol))
      (.int tp (l.map ITrade.price))
      = if ∀ t ∈ l, p.wrap (t.vol * t.price) = 0 then
          .ok (.fin (mean l fun t => t.toTrade.eff pct signed))
        else if (l.map fun t => p.wrap (t.vol * t.price)).sum = 0 then .error .zeroDivisionError
        else .ok (.fin (wmean l (fun t => (p.wrap (t.vol * t.price) : ℝ)) fun t => t.toTrade.eff pct signed)) := by
    have hm : TArr.mul (.int tv (l.map ITrade.vol)) (.int tp (l.map ITrade.price))
        = .ok (.int p (l.map fun t => p.wrap (t.vol * t.price))) := by
      simp only [TArr.mul, arith, hp, bc_maps, Except.map]
    simp only [dollarWeightedT, bind, Except.bind, hm, TArr.cast, List.map_map]
    have hall : Np.all (fun v => XR.feq v 0)
        (l.map ((fun z : ℤ => XR.fin (z : ℝ)) ∘ fun t => p.wrap (t.vol * t.price)))
        ↔ ∀ t ∈ l, p.wrap (t.vol * t.price) = 0 := by
      simp [Np.all, XR.zero_def]
    have hc : (l.map ((fun z : ℤ => XR.fin (z : ℝ)) ∘ fun t => p.wrap (t.vol * t.price)))
        = col l fun t => (p.wrap (t.vol * t.price) : ℝ) := rfl
    by_cases h0 : ∀ t ∈ l, p.wrap (t.vol * t.price) = 0
    · rw [if_pos (hall.mpr h0), if_pos h0, nanmean_col, mean_col hne]
    · rw [if_neg (fun h' => h0 (hall.mp h')), if_neg h0, hc]
      have hs : ((l.map fun t => p.wrap (t.vol * t.price)).sum : ℤ) = 0
          ↔ (l.map fun t => (p.wrap (t.vol * t.price) : ℝ)).sum = 0 := by
        rw [← Int.cast_inj (α := ℝ), Int.cast_list_sum, List.map_map]; simp [Function.comp_def]
      by_cases hz : (l.map fun t => p.wrap (t.vol * t.price)).sum = 0
      · rw [if_pos hz]
        simp only [average, List.length_map, ne_eq, not_true_eq_false, if_false, sum_col]
        rw [if_pos (by simpa using hs.mp hz)]
      · rw [if_neg hz, average_col _ _ _ (fun h' => hz (hs.mpr h'))]
  have lens : (TArr.int tp (l.map ITrade.price)).length = l.length ∧
      (TArr.flt (l.map fun t : ITrade => XR.fin t.mid)).length = l.length ∧
      (TArr.int tv (l.map ITrade.vol)).length = l.length ∧
      (TArr.flt (l.map fun t : ITrade => XR.fin t.dir)).length = l.length := by simp [TArr.length]
  rw [← hd]
  simp only [effectiveSpreadT, lens, and_self, not_true_eq_false, if_false, bind, Except.bind, hg']
  cases signed <;> simp [dirChecked, lens]

/-- C140 (consequence): in every signed width there are trades, all with a non-negative absolute
effective spread and positive representable volumes and prices, whose reported volume-weighted
effective spread is negative. -/
theorem C140_negative (w : ℕ) (hw : 3 ≤ w) :
    ∃ l : List ITrade, (∀ t ∈ l, 0 < t.price ∧ 0 < t.mid ∧ 0 < t.vol ∧
        (⟨true, w⟩ : IntTy).Fits t.price ∧ (⟨true, w⟩ : IntTy).Fits t.vol ∧
        0 ≤ t.toTrade.eff true false) ∧
      ∃ x : ℝ, x < 0 ∧ effectiveSpreadT (.int ⟨true, w⟩ (l.map ITrade.price))
        (.flt (l.map fun t => .fin t.mid)) (.int ⟨true, w⟩ (l.map ITrade.vol)) .other true = .ok (.fin x) := by
  obtain ⟨v, rfl⟩ : ∃ v, w = v + 3 := ⟨w - 3, by omega⟩
  have hq : (1 : ℤ) ≤ 2 ^ v := one_le_pow₀ (by norm_num)
  set q : ℤ := 2 ^ v with hqd
  have e2 : (2 : ℤ) ^ (v + 3 - 1) = 4 * q := by
    rw [show v + 3 - 1 = v + 2 by omega, hqd]; ring
  have e3 : (2 : ℤ) ^ (v + 3) = 8 * q := by rw [hqd]; ring
  have fits : ∀ z : ℤ, |z| < 4 * q → (⟨true, v + 3⟩ : IntTy).Fits z := fun z hz =>
    fits_signed (by rw [e2]; exact hz)
  let a : ITrade := ⟨2 * q, 1, 1, 2, 1⟩
  let b : ITrade := ⟨4 * q - 1, 4 * q - 1, 1, 1, 1⟩
  have hnn : ∀ t : ITrade, 0 < t.mid → 0 ≤ t.toTrade.eff true false := by
    intro t ht
    have : (0 : ℝ) < t.mid := by exact_mod_cast ht
    rw [Trade.eff, gap_unsigned_pct (by exact this)]
    have h2 := abs_nonneg (t.toTrade.price - t.toTrade.mid)
    have h3 : (0 : ℝ) < t.toTrade.mid := this
    positivity
  have habs : ∀ z : ℤ, 0 ≤ z → z < 4 * q → |z| < 4 * q := fun z h1 h2 => by rw [abs_of_nonneg h1]; exact h2
  refine ⟨[a, b, b], ?_, ?_⟩
  · intro t ht
    simp only [List.mem_cons, List.not_mem_nil, or_false] at ht
    rcases ht with rfl | rfl | rfl
    · exact ⟨by simp only [a]; omega, by simp [a], by simp [a], fits _ (habs _ (by simp only [a]; omega) (by simp only [a]; omega)),
        fits _ (habs _ (by simp [a]) (by simp only [a]; omega)), hnn _ (by simp [a])⟩
    · exact ⟨by simp only [b]; omega, by simp only [b]; omega, by simp [b], fits _ (habs _ (by simp only [b]; omega) (by simp only [b]; omega)),
        fits _ (habs _ (by simp [b]) (by simp only [b]; omega)), hnn _ (by simp only [b]; omega)⟩
    · exact ⟨by simp only [b]; omega, by simp only [b]; omega, by simp [b], fits _ (habs _ (by simp only [b]; omega) (by simp only [b]; omega)),
        fits _ (habs _ (by simp [b]) (by simp only [b]; omega)), hnn _ (by simp only [b]; omega)⟩
  · have hqr : (1 : ℝ) ≤ (q : ℝ) := by exact_mod_cast hq
    have wa : (⟨true, v + 3⟩ : IntTy).wrap (a.vol * a.price) = -(4 * q) := by
      simp only [IntTy.wrap, if_true, a]
      have : (((2 ^ (v + 3) : ℕ) : ℤ)) = 8 * q := by push_cast; exact e3
      rw [show (2 : ℤ) * (2 * q) = -(4 * q) + (2 ^ (v + 3) : ℕ) by rw [this]; ring, Int.add_bmod_right]
      apply Int.bmod_eq_of_le <;> rw [this] <;> omega
    have wb : (⟨true, v + 3⟩ : IntTy).wrap (b.vol * b.price) = 4 * q - 1 := by
      simp only [b, one_mul]
      exact IntTy.wrap_of_fits (by simp) (fits _ (habs _ (by omega) (by omega)))
    have hpos : PosTrades ([a, b, b].map ITrade.toTrade) := by
      intro t ht
      simp only [List.map_cons, List.map_nil, List.mem_cons, List.not_mem_nil, or_false] at ht
      rcases ht with rfl | rfl | rfl <;> simp only [ITrade.toTrade, a, b] <;> push_cast <;>
        refine ⟨by linarith, by linarith, by norm_num⟩
    have key := C140_weights (l := [a, b, b]) (by simp) ⟨true, v + 3⟩ ⟨true, v + 3⟩ ⟨true, v + 3⟩
      (promote_self _) hpos false true
    rw [if_neg (show ¬ ((false : Bool) = true) by simp), if_neg (by
        intro h0
        have := h0 a (by simp)
        rw [wa] at this; omega),
      if_neg (by simp only [List.map_cons, List.map_nil, wa, wb, List.sum_cons, List.sum_nil]; omega)] at key
    refine ⟨_, ?_, key⟩
    simp only [wmean, List.map_cons, List.map_nil, wa, wb, List.sum_cons, List.sum_nil]
    have eb : b.toTrade.eff true false = 0 := by
      rw [Trade.eff, gap_unsigned_pct (by simp only [ITrade.toTrade, b]; push_cast; linarith)]
      simp [ITrade.toTrade, b]
    have ea : 0 < a.toTrade.eff true false := by
      rw [Trade.eff, gap_unsigned_pct (by simp [ITrade.toTrade, a])]
      simp only [ITrade.toTrade, a]
      push_cast
      have : 0 < |2 * (q : ℝ) - 1| := abs_pos.mpr (by linarith)
      positivity
    rw [eb]
    push_cast
    apply div_neg_of_neg_of_pos
    · nlinarith
    · linarith

end
end Frds.Props

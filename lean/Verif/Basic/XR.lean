import Mathlib.Analysis.SpecialFunctions.Log.Basic
import Mathlib.Analysis.SpecialFunctions.Pow.Real
import Mathlib.Analysis.SpecialFunctions.Sqrt

/-!
# `XR`: the value domain of the numerical model

`XR` has the special values of IEEE-754 (`nan`, `-inf`, `+inf`) but its finite
values are exact real numbers.  So: NaN propagation, division by zero, `log 0`,
comparisons with NaN ... are modelled as NumPy performs them on `float64`
scalars/arrays (a `RuntimeWarning` is not an observable effect here), while
rounding, overflow to infinity, underflow and signed zeros are *not* modelled.
A zero divisor is the positive zero.
-/

namespace Frds

/-- Model of a `float64` value: NaN, the infinities, or an exact real. -/
inductive XR where
  | nan
  | ninf
  | pinf
  | fin (r : ℝ)

/-- Python exceptions, as values. -/
inductive PyErr where
  | assertionError
  | valueError
  | indexError
  | typeError
  | zeroDivisionError
  | attributeError
  | notImplementedError
  | runtimeError
  | linAlgError
  | moduleNotFoundError
  | overflowError
  | keyError
  deriving DecidableEq, Repr

namespace XR

noncomputable section
open Classical

/-- The infinity with the sign of `r`; NaN if `r = 0`. -/
def infSign (r : ℝ) : XR := if 0 < r then pinf else if r < 0 then ninf else nan

/-- IEEE negation. -/
def neg : XR → XR
  | nan => nan
  | ninf => pinf
  | pinf => ninf
  | fin r => fin (-r)

/-- IEEE addition (exact on finite values). -/
def add : XR → XR → XR
  | nan, _ => nan
  | _, nan => nan
  | fin a, fin b => fin (a + b)
  | fin _, pinf => pinf
  | fin _, ninf => ninf
  | pinf, fin _ => pinf
  | ninf, fin _ => ninf
  | pinf, pinf => pinf
  | ninf, ninf => ninf
  | pinf, ninf => nan
  | ninf, pinf => nan

/-- IEEE multiplication (exact on finite values; `0 * inf = nan`). -/
def mul : XR → XR → XR
  | nan, _ => nan
  | _, nan => nan
  | fin a, fin b => fin (a * b)
  | fin a, pinf => infSign a
  | fin a, ninf => infSign (-a)
  | pinf, fin a => infSign a
  | ninf, fin a => infSign (-a)
  | pinf, pinf => pinf
  | ninf, ninf => pinf
  | pinf, ninf => ninf
  | ninf, pinf => ninf

/-- NumPy division: `x/0 = ±inf` by the sign of `x`, `0/0 = nan`. -/
def div : XR → XR → XR
  | nan, _ => nan
  | _, nan => nan
  | fin a, fin b => if b = 0 then infSign a else fin (a / b)
  | fin _, pinf => fin 0
  | fin _, ninf => fin 0
  | pinf, fin b => if b < 0 then ninf else pinf
  | ninf, fin b => if b < 0 then pinf else ninf
  | pinf, pinf => nan
  | ninf, ninf => nan
  | pinf, ninf => nan
  | ninf, pinf => nan

instance : Neg XR := ⟨neg⟩
instance : Add XR := ⟨add⟩
instance : Sub XR := ⟨fun a b => add a (neg b)⟩
instance : Mul XR := ⟨mul⟩
instance : Div XR := ⟨div⟩
instance : Zero XR := ⟨fin 0⟩
instance : One XR := ⟨fin 1⟩
instance (n : ℕ) [n.AtLeastTwo] : OfNat XR n := ⟨fin (OfNat.ofNat n)⟩
instance : OfScientific XR := ⟨fun m s e => fin (OfScientific.ofScientific m s e)⟩
instance : Inhabited XR := ⟨nan⟩
instance : Coe ℝ XR := ⟨fin⟩

/-- `np.absolute`. -/
def abs : XR → XR
  | nan => nan
  | ninf => pinf
  | pinf => pinf
  | fin r => fin |r|

/-- `np.log`: `log 0 = -inf`, NaN on negative values. -/
def log : XR → XR
  | nan => nan
  | ninf => nan
  | pinf => pinf
  | fin r => if 0 < r then fin (Real.log r) else if r = 0 then ninf else nan

/-- `np.exp` (no overflow). -/
def exp : XR → XR
  | nan => nan
  | ninf => fin 0
  | pinf => pinf
  | fin r => fin (Real.exp r)

/-- `np.sqrt`: NaN on negative values. -/
def sqrt : XR → XR
  | nan => nan
  | ninf => nan
  | pinf => pinf
  | fin r => if r < 0 then nan else fin (Real.sqrt r)

/-- `x ** 2`. -/
def sq (x : XR) : XR := x * x

/-- `x ** y` for a float base and float exponent.  Only the finite cases with
non-negative base are modelled exactly; anything else is NaN (simplification:
the code under study only raises positive ratios to finite powers). -/
def rpow : XR → XR → XR
  | fin a, fin b =>
      if 0 < a then fin (a ^ b)
      else if a = 0 then (if b = 0 then fin 1 else if 0 < b then fin 0 else pinf)
      else nan
  | _, _ => nan

/-- `x < y` as NumPy evaluates it: false if either side is NaN. -/
def lt : XR → XR → Prop
  | fin a, fin b => a < b
  | ninf, fin _ => True
  | ninf, pinf => True
  | fin _, pinf => True
  | _, _ => False

/-- `x <= y` as NumPy evaluates it. -/
def le : XR → XR → Prop
  | fin a, fin b => a ≤ b
  | ninf, fin _ => True
  | ninf, pinf => True
  | fin _, pinf => True
  | ninf, ninf => True
  | pinf, pinf => True
  | _, _ => False

instance : LT XR := ⟨lt⟩
instance : LE XR := ⟨le⟩

/-- `x == y` as NumPy evaluates it: NaN is different from everything. -/
def feq (x y : XR) : Prop := x = y ∧ x ≠ nan

/-- `np.isnan`. -/
def isNan (x : XR) : Prop := x = nan
/-- `np.isinf`. -/
def isInf (x : XR) : Prop := x = pinf ∨ x = ninf
/-- finite value -/
def isFin (x : XR) : Prop := ∃ r, x = fin r

/-- `np.maximum`: propagates NaN. -/
def npMax (x y : XR) : XR :=
  if x = nan ∨ y = nan then nan else if x < y then y else x
/-- `np.minimum`: propagates NaN. -/
def npMin (x y : XR) : XR :=
  if x = nan ∨ y = nan then nan else if y < x then y else x
/-- Python's built-in `max(x, y)`: returns `y` iff `y > x`. -/
def pyMax (x y : XR) : XR := if x < y then y else x

/-! ### Simplification lemmas on finite values -/

theorem zero_def : (0 : XR) = fin 0 := rfl
theorem one_def : (1 : XR) = fin 1 := rfl
theorem ofNat_def (n : ℕ) [n.AtLeastTwo] :
    (OfNat.ofNat n : XR) = fin (OfNat.ofNat n) := rfl
theorem ofSci_def (m : ℕ) (s : Bool) (e : ℕ) :
    (OfScientific.ofScientific m s e : XR) = fin (OfScientific.ofScientific m s e) := rfl

@[simp] theorem fin_inj {a b : ℝ} : fin a = fin b ↔ a = b := by
  constructor
  · intro h; cases h; rfl
  · intro h; rw [h]
@[simp] theorem fin_ne_nan (a : ℝ) : fin a ≠ nan := by intro h; cases h
@[simp] theorem nan_ne_fin (a : ℝ) : nan ≠ fin a := by intro h; cases h
@[simp] theorem pinf_ne_nan : pinf ≠ nan := by intro h; cases h
@[simp] theorem ninf_ne_nan : ninf ≠ nan := by intro h; cases h
@[simp] theorem fin_ne_pinf (a : ℝ) : fin a ≠ pinf := by intro h; cases h
@[simp] theorem fin_ne_ninf (a : ℝ) : fin a ≠ ninf := by intro h; cases h

@[simp] theorem fin_add (a b : ℝ) : fin a + fin b = fin (a + b) := rfl
@[simp] theorem fin_sub (a b : ℝ) : fin a - fin b = fin (a - b) := by
  show add (fin a) (neg (fin b)) = _
  simp [add, neg, sub_eq_add_neg]
@[simp] theorem fin_neg (a : ℝ) : -fin a = fin (-a) := rfl
@[simp] theorem fin_mul (a b : ℝ) : fin a * fin b = fin (a * b) := rfl
theorem fin_div' (a b : ℝ) :
    fin a / fin b = if b = 0 then infSign a else fin (a / b) := rfl
theorem fin_div {b : ℝ} (a : ℝ) (hb : b ≠ 0) : fin a / fin b = fin (a / b) := by
  rw [fin_div', if_neg hb]
theorem fin_div_zero (a : ℝ) : fin a / fin 0 = infSign a := by
  rw [fin_div', if_pos rfl]
@[simp] theorem fin_abs (a : ℝ) : XR.abs (fin a) = fin |a| := rfl
@[simp] theorem fin_exp (a : ℝ) : XR.exp (fin a) = fin (Real.exp a) := rfl
theorem fin_log {a : ℝ} (h : 0 < a) : XR.log (fin a) = fin (Real.log a) := by
  simp [XR.log, h]
theorem log_zero : XR.log (fin 0) = ninf := by simp [XR.log]
theorem log_neg {a : ℝ} (h : a < 0) : XR.log (fin a) = nan := by
  simp [XR.log, not_lt.mpr h.le, h.ne]
theorem fin_sqrt {a : ℝ} (h : 0 ≤ a) : XR.sqrt (fin a) = fin (Real.sqrt a) := by
  simp [XR.sqrt, not_lt.mpr h]
theorem sqrt_neg {a : ℝ} (h : a < 0) : XR.sqrt (fin a) = nan := by
  simp [XR.sqrt, h]
@[simp] theorem fin_sq (a : ℝ) : XR.sq (fin a) = fin (a ^ 2) := by
  simp [XR.sq, pow_two]
theorem fin_rpow {a : ℝ} (b : ℝ) (h : 0 < a) : XR.rpow (fin a) (fin b) = fin (a ^ b) := by
  simp [XR.rpow, h]
@[simp] theorem fin_lt {a b : ℝ} : (fin a < fin b) ↔ a < b := Iff.rfl
@[simp] theorem fin_le {a b : ℝ} : (fin a ≤ fin b) ↔ a ≤ b := Iff.rfl
@[simp] theorem fin_lt_pinf (a : ℝ) : fin a < pinf := trivial
@[simp] theorem ninf_lt_fin (a : ℝ) : ninf < fin a := trivial
@[simp] theorem ninf_lt_pinf : ninf < pinf := trivial
@[simp] theorem not_pinf_lt (x : XR) : ¬ pinf < x := by cases x <;> exact id
@[simp] theorem not_nan_lt (x : XR) : ¬ nan < x := by cases x <;> exact id
@[simp] theorem not_lt_nan (x : XR) : ¬ x < nan := by cases x <;> exact id
@[simp] theorem not_lt_ninf (x : XR) : ¬ x < ninf := by cases x <;> exact id
@[simp] theorem not_nan_le (x : XR) : ¬ nan ≤ x := by cases x <;> exact id
@[simp] theorem not_le_nan (x : XR) : ¬ x ≤ nan := by cases x <;> exact id
@[simp] theorem feq_fin {a b : ℝ} : feq (fin a) (fin b) ↔ a = b := by simp [feq]
@[simp] theorem isNan_fin (a : ℝ) : ¬ isNan (fin a) := by simp [isNan]
@[simp] theorem isNan_nan : isNan nan := rfl
@[simp] theorem isInf_fin (a : ℝ) : ¬ isInf (fin a) := by simp [isInf]

theorem infSign_pos {a : ℝ} (h : 0 < a) : infSign a = pinf := by simp [infSign, h]
theorem infSign_neg {a : ℝ} (h : a < 0) : infSign a = ninf := by
  simp [infSign, h, not_lt.mpr h.le]
@[simp] theorem infSign_zero : infSign 0 = nan := by simp [infSign]

@[simp] theorem nan_add (x : XR) : nan + x = nan := by cases x <;> rfl
@[simp] theorem add_nan (x : XR) : x + nan = nan := by cases x <;> rfl
@[simp] theorem nan_sub (x : XR) : nan - x = nan := by cases x <;> rfl
@[simp] theorem sub_nan (x : XR) : x - nan = nan := by cases x <;> rfl
@[simp] theorem nan_mul (x : XR) : nan * x = nan := by cases x <;> rfl
@[simp] theorem mul_nan (x : XR) : x * nan = nan := by cases x <;> rfl
@[simp] theorem nan_div (x : XR) : nan / x = nan := by cases x <;> rfl
@[simp] theorem div_nan (x : XR) : x / nan = nan := by cases x <;> rfl
@[simp] theorem neg_nan : -nan = nan := rfl
@[simp] theorem neg_pinf : -pinf = ninf := rfl
@[simp] theorem neg_ninf : -ninf = pinf := rfl
@[simp] theorem fin_add_pinf (a : ℝ) : fin a + pinf = pinf := rfl
@[simp] theorem fin_add_ninf (a : ℝ) : fin a + ninf = ninf := rfl
@[simp] theorem pinf_add_fin (a : ℝ) : pinf + fin a = pinf := rfl
@[simp] theorem ninf_add_fin (a : ℝ) : ninf + fin a = ninf := rfl
@[simp] theorem pinf_sub_fin (a : ℝ) : pinf - fin a = pinf := rfl
@[simp] theorem ninf_sub_fin (a : ℝ) : ninf - fin a = ninf := rfl
@[simp] theorem pinf_add_pinf : pinf + pinf = pinf := rfl
@[simp] theorem pinf_add_ninf : pinf + ninf = nan := rfl
@[simp] theorem ninf_add_pinf : ninf + pinf = nan := rfl
@[simp] theorem ninf_add_ninf : ninf + ninf = ninf := rfl
@[simp] theorem exp_nan : XR.exp nan = nan := rfl
@[simp] theorem log_nan : XR.log nan = nan := rfl
@[simp] theorem sqrt_nan : XR.sqrt nan = nan := rfl
@[simp] theorem abs_nan : XR.abs nan = nan := rfl

theorem sub_def (a b : XR) : a - b = a + -b := rfl

protected theorem add_comm (a b : XR) : a + b = b + a := by
  cases a <;> cases b <;> first | rfl | (simp [add_comm])

protected theorem add_assoc (a b c : XR) : a + b + c = a + (b + c) := by
  cases a <;> cases b <;> cases c <;> first | rfl | (simp [add_assoc])

protected theorem zero_add (a : XR) : 0 + a = a := by
  cases a <;> first | rfl | (simp [zero_def])

protected theorem add_zero (a : XR) : a + 0 = a := by
  rw [XR.add_comm]; exact XR.zero_add a

/-- Addition of `XR` values is a commutative monoid, so a sum does not depend on
the order of summation (pairwise or sequential). -/
instance : AddCommMonoid XR where
  add := (· + ·)
  zero := 0
  add_assoc := XR.add_assoc
  zero_add := XR.zero_add
  add_zero := XR.add_zero
  add_comm := XR.add_comm
  nsmul := nsmulRec

theorem sum_map_fin (l : List ℝ) : (l.map fin).sum = fin l.sum := by
  induction l with
  | nil => rfl
  | cons a t ih => simp [ih]

theorem sum_fin {ι} (l : List ι) (f : ι → ℝ) :
    (l.map fun i => fin (f i)).sum = fin (l.map f).sum := by
  rw [← sum_map_fin, List.map_map]; rfl

theorem npMax_fin (a b : ℝ) : npMax (fin a) (fin b) = fin (max a b) := by
  simp only [npMax, fin_ne_nan, or_self, if_false, fin_lt]
  split_ifs with h
  · rw [max_eq_right h.le]
  · rw [max_eq_left (not_lt.mp h)]

theorem npMin_fin (a b : ℝ) : npMin (fin a) (fin b) = fin (min a b) := by
  simp only [npMin, fin_ne_nan, or_self, if_false, fin_lt]
  split_ifs with h
  · rw [min_eq_right h.le]
  · rw [min_eq_left (not_lt.mp h)]

theorem pyMax_fin (a b : ℝ) : pyMax (fin a) (fin b) = fin (max a b) := by
  simp only [pyMax, fin_lt]
  split_ifs with h
  · rw [max_eq_right h.le]
  · rw [max_eq_left (not_lt.mp h)]

end
end XR
end Frds

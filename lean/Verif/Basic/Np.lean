import Verif.Basic.XR
import Mathlib.Data.List.Sort
import Mathlib.Algebra.BigOperators.Group.List.Basic
import Mathlib.Algebra.Order.BigOperators.Group.List
import Mathlib.Algebra.Order.Floor.Ring

/-!
# NumPy / Python primitives on lists of `XR`

One-dimensional arrays are lists.  These definitions are the trusted model of the
library calls used by frds (they are not frds code).
-/

namespace Frds.Np
noncomputable section
open Frds Classical

/-- `np.sum(x)` / `x.sum()`. -/
def sum (x : List XR) : XR := x.sum

/-- `np.mean(x)`, `np.average(x)` without weights: NaN on an empty array. -/
def mean (x : List XR) : XR := x.sum / .fin (x.length : ℝ)

/-- `np.nanmean(x)`: mean of the non-NaN entries; NaN if there is none. -/
def nanmean (x : List XR) : XR := mean (x.filter fun v => ¬ v.isNan)

/-- `np.average(x, weights=w)` for arrays of equal shape:
`ZeroDivisionError` if the weights sum to zero. -/
def average (x w : List XR) : Except PyErr XR :=
  if x.length ≠ w.length then .error .typeError
  else if XR.feq w.sum (.fin 0) then .error .zeroDivisionError
  else .ok ((List.zipWith (· * ·) x w).sum / w.sum)

/-- `np.var(x)` (population variance, `ddof=0`). -/
def var (x : List XR) : XR := mean (x.map fun v => XR.sq (v - mean x))

/-- `np.std(x)` (population standard deviation). -/
def std (x : List XR) : XR := XR.sqrt (var x)

/-- element-wise binary operation with NumPy broadcasting of 1-D arrays:
equal lengths, or one side of length one; `ValueError` otherwise. -/
def bcast (f : XR → XR → XR) (x y : List XR) : Except PyErr (List XR) :=
  if x.length = y.length then .ok (List.zipWith f x y)
  else match x, y with
    | [a], ys => .ok (ys.map (f a))
    | xs, [b] => .ok (xs.map (f · b))
    | _, _ => .error .valueError

/-- Python's `all(...)` over the elements of a boolean array. -/
def all (p : XR → Prop) (x : List XR) : Prop := ∀ v ∈ x, p v

/-- `np.sort` of a NaN-free array: NumPy puts NaN last, which is irrelevant for the
callers (they treat NaN separately). -/
def leB (a b : XR) : Bool := decide (a ≤ b)
def sort (x : List XR) : List XR := x.mergeSort leB

/-- Linear interpolation as in NumPy's `_lerp`. -/
def lerp (a b : XR) (t : ℝ) : XR :=
  if t < 1 / 2 then a + (b - a) * .fin t else b - (b - a) * .fin (1 - t)

/-- `np.percentile(x, q)` (default linear method), `0 ≤ q ≤ 100`:
NaN if `x` contains NaN, `IndexError` for an empty array. -/
def percentile (x : List XR) (q : ℝ) : Except PyErr XR :=
  if x = [] then .error .indexError
  else if XR.nan ∈ x then .ok .nan
  else
    let s := sort x
    let v : ℝ := q / 100 * ((x.length : ℝ) - 1)
    let i := Int.toNat ⌊v⌋
    let j := min (i + 1) (x.length - 1)
    .ok (lerp (s.getD i .nan) (s.getD j .nan) (v - ⌊v⌋))

/-- `np.clip(x, lo, hi)` = `minimum(maximum(x, lo), hi)`. -/
def clip (x lo hi : XR) : XR := XR.npMin (XR.npMax x lo) hi

/-! ### lemmas -/

theorem mean_fin {l : List ℝ} (h : l ≠ []) :
    mean (l.map XR.fin) = .fin (l.sum / l.length) := by
  have hl : (l.length : ℝ) ≠ 0 := by
    have := List.length_pos_iff.mpr h
    positivity
  rw [mean, XR.sum_map_fin, List.length_map, XR.fin_div _ hl]

@[simp] theorem mean_nil : mean [] = .nan := by
  simp [mean, XR.zero_def, XR.fin_div_zero]

theorem nanmean_fin (l : List ℝ) : nanmean (l.map XR.fin) = mean (l.map XR.fin) := by
  rw [nanmean, List.filter_eq_self.mpr]
  intro a ha
  obtain ⟨r, _, rfl⟩ := List.mem_map.mp ha
  simp

theorem zipWith_fin (f : XR → XR → XR) (g : ℝ → ℝ → ℝ)
    (h : ∀ a b, f (.fin a) (.fin b) = .fin (g a b)) (x y : List ℝ) :
    List.zipWith f (x.map XR.fin) (y.map XR.fin) = (List.zipWith g x y).map XR.fin := by
  induction x generalizing y with
  | nil => simp
  | cons a t ih =>
    cases y with
    | nil => simp
    | cons b u => simp [h, ih]

theorem average_fin {x w : List ℝ} (hl : x.length = w.length) (hw : w.sum ≠ 0) :
    average (x.map XR.fin) (w.map XR.fin)
      = .ok (.fin ((List.zipWith (· * ·) x w).sum / w.sum)) := by
  simp only [average, List.length_map, hl, ne_eq, not_true_eq_false, if_false]
  rw [XR.sum_map_fin, if_neg (by simpa using hw),
    zipWith_fin (· * ·) (· * ·) (fun a b => rfl), XR.sum_map_fin, XR.fin_div _ hw]

theorem clip_fin (x lo hi : ℝ) : clip (.fin x) (.fin lo) (.fin hi) = .fin (min (max x lo) hi) := by
  rw [clip, XR.npMax_fin, XR.npMin_fin]

end
end Frds.Np

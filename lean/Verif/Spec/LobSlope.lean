import Mathlib.Analysis.SpecialFunctions.Log.Basic
import Mathlib.Data.List.ReduceOption

/-! Limit-order-book quantities, one record per quote; `none` = missing value (NaN). -/
namespace Frds.Spec
noncomputable section
open Classical

/-- mean of the values that are present; missing if none is present -/
def definedMean (l : List (Option ℝ)) : Option ℝ :=
  if l.reduceOption = [] then none else some (l.reduceOption.sum / l.reduceOption.length)

/-- sum of a list of possibly missing values: missing as soon as one is missing -/
def total : List (Option ℝ) → Option ℝ
  | [] => some 0
  | x :: t => do return (← x) + (← total t)

/-- One side of the book at one quote: sizes per level, price of the last level, midpoint. -/
structure LobSide where
  sizes : List (Option ℝ)
  price : Option ℝ
  mid : Option ℝ

/-- total depth per unit of signed distance of the last level from the midpoint; undefined when a value is missing
or when the distance is zero -/
def LobSide.askSlope (q : LobSide) : Option ℝ := do
  let p ← q.price
  let m ← q.mid
  let d ← total q.sizes
  if p = m then none else some (d / (p - m))

/-- the same with absolute distance -/
def LobSide.bidSlope (q : LobSide) : Option ℝ := do
  let p ← q.price
  let m ← q.mid
  let d ← total q.sizes
  if p = m then none else some (d / |p - m|)

/-- positive or negative depth at zero distance (the slope is infinite) -/
def LobSide.Degenerate (q : LobSide) : Prop :=
  ∃ p d : ℝ, q.price = some p ∧ q.mid = some p ∧ total q.sizes = some d ∧ d ≠ 0

/-- scaled depth difference of one quote; undefined when both sides are empty or a value is missing -/
def depthDiff (bid ask : List (Option ℝ)) : Option ℝ := do
  let b ← total bid
  let a ← total ask
  if a + b = 0 then none else some (2 * (a - b) / (a + b))

end
end Frds.Spec

import Mathlib.Analysis.SpecialFunctions.Log.Basic

/-! Textbook definitions over real numbers, one record per trade / quote. -/
namespace Frds.Spec
noncomputable section
open Classical

structure Quote where
  bid : ℝ
  ask : ℝ

structure Trade where
  price : ℝ
  mid : ℝ
  /-- midpoint some time after the trade -/
  later : ℝ
  vol : ℝ
  /-- trade direction -/
  dir : ℝ

/-- arithmetic mean of `f` over a list -/
def mean {α : Type*} (l : List α) (f : α → ℝ) : ℝ := (l.map f).sum / l.length

/-- mean of `f` weighted with `w` -/
def wmean {α : Type*} (l : List α) (w f : α → ℝ) : ℝ :=
  (l.map fun t => w t * f t).sum / (l.map w).sum

/-- dollar volume of a trade -/
def Trade.dollar (t : Trade) : ℝ := t.vol * t.price

/-- dollar-volume-weighted mean, simple mean when nothing traded -/
def volMean (l : List Trade) (f : Trade → ℝ) : ℝ :=
  if ∀ t ∈ l, t.dollar = 0 then mean l f else wmean l Trade.dollar f

/-- dollar volumes usable as weights: all zero, or non-zero sum -/
def Weighable (l : List Trade) : Prop :=
  (∀ t ∈ l, t.dollar = 0) ∨ (l.map Trade.dollar).sum ≠ 0

/-- which variant: percentage or log, signed or absolute -/
def gap (pct signed : Bool) (d base x y : ℝ) : ℝ :=
  (if signed then d * (if pct then (x - y) / base else Real.log x - Real.log y)
   else |if pct then (x - y) / base else Real.log x - Real.log y|)
  * (if pct then 200 else 2)

/-- effective spread of one trade: twice the distance of price from midpoint -/
def Trade.eff (pct signed : Bool) (t : Trade) : ℝ := gap pct signed t.dir t.mid t.price t.mid
/-- realized spread of one trade: price against the later midpoint -/
def Trade.real (pct signed : Bool) (t : Trade) : ℝ := gap pct signed t.dir t.mid t.price t.later
/-- price impact of one trade: later midpoint against midpoint -/
def Trade.impact (pct signed : Bool) (t : Trade) : ℝ := gap pct signed t.dir t.mid t.later t.mid

end
end Frds.Spec

import Verif.Basic.IntArr

/-! Tables whose columns are stored as floats or as integers of some type, and the exact (unwrapped)
value of an arithmetic expression over such columns together with the type NumPy stores it in. -/
namespace Frds.Spec
noncomputable section
open Frds Frds.Np Classical

/-- a column over records of type `α`: integer-typed or floating point -/
inductive Col (α : Type*) where
  | int (t : IntTy) (f : α → ℤ)
  | flt (f : α → XR)

variable {α : Type*}

/-- the number in a record -/
def Col.val : Col α → α → XR
  | .int _ f => fun x => .fin (f x : ℝ)
  | .flt f => f

/-- the column as a NumPy array -/
def Col.arr (l : List α) : Col α → TArr
  | .int t f => .int t (l.map f)
  | .flt f => .flt (l.map f)

/-- the column as an array of floats -/
def Col.floats (l : List α) (c : Col α) : List XR := l.map c.val

/-- exact result of an operation on two columns, in NumPy's result type -/
def Col.op (f : ℤ → ℤ → ℤ) (g : XR → XR → XR) (c d : Col α) : Col α :=
  match c, d with
  | .int s u, .int t v =>
    match s.promote t with
    | some p => .int p fun x => f (u x) (v x)
    | none => .flt fun x => g (c.val x) (d.val x)
  | _, _ => .flt fun x => g (c.val x) (d.val x)

def Col.plus (c d : Col α) : Col α := Col.op (· + ·) (· + ·) c d
def Col.minus (c d : Col α) : Col α := Col.op (· - ·) (· - ·) c d
def Col.times (c d : Col α) : Col α := Col.op (· * ·) (· * ·) c d

/-- exact result of an operation on one column, same type -/
def Col.map (f : ℤ → ℤ) (g : XR → XR) : Col α → Col α
  | .int t u => .int t fun x => f (u x)
  | .flt u => .flt fun x => g (u x)

def Col.double (c : Col α) : Col α := c.map (2 * ·) (2 * ·)
def Col.abs (c : Col α) : Col α := c.map (fun z => |z|) XR.abs
def Col.neg (c : Col α) : Col α := c.map (fun z => -z) (fun x => -x)

/-- every entry is representable in the column's type (always true of a float column) -/
def Col.Fits (l : List α) : Col α → Prop
  | .int t f => 1 ≤ t.width ∧ ∀ x ∈ l, t.Fits (f x)
  | .flt _ => True

/-- a direction column, if there is one -/
abbrev Dir (α : Type*) := Option (Col α)

/-- no intermediate result of the spread formula `2 |x - y|` or `2 d (x - y)` overflows -/
def GapFits (l : List α) (x y : Col α) : Dir α → Prop
  | none => (x.minus y).Fits l ∧ (x.minus y).abs.Fits l ∧ (x.minus y).abs.double.Fits l
  | some d => (x.minus y).Fits l ∧ d.double.Fits l ∧ (d.double.times (x.minus y)).Fits l

end
end Frds.Spec

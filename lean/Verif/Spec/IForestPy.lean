import Verif.Model.IForestPy

/-! Specification vocabulary for `anomaly_scores`. -/
namespace Frds.Spec.IForest
noncomputable section
open Frds Frds.Model.IForest Classical

/-- every column has one cell per index entry -/
def WellFormed {I : Type} (f : Frame I) : Prop :=
  ∀ c ∈ f.cols, match c.cells with
    | .number xs => xs.length = f.index.length
    | .object xs => xs.length = f.index.length
    | .other n => n = f.index.length

/-- the numeric columns that are not excluded, in order -/
def usedNumbers {I : Type} (f : Frame I) (excl : List String) : List (List XR) :=
  f.cols.filterMap fun c => match c.cells with
    | .number xs => if c.label ∈ excl then none else some xs
    | _ => none

/-- the object columns that are not excluded, in order -/
def usedTexts {I : Type} (f : Frame I) (excl : List String) : List (List (List ℕ)) :=
  f.cols.filterMap fun c => match c.cells with
    | .object xs => if c.label ∈ excl then none else some xs
    | _ => none

/-- every excluded label exists -/
def LabelsExist {I : Type} (f : Frame I) (excl : List String) : Prop :=
  ∀ l ∈ excl, ∃ c ∈ f.cols, c.label = l

/-- all texts of the used object columns are ASCII -/
def AsciiTexts {I : Type} (f : Frame I) (excl : List String) : Prop :=
  ∀ col ∈ usedTexts f excl, ∀ t ∈ col, ∀ x ∈ t, x < 128

/-- a transformation of values that keeps the order and what is missing -/
structure OrderKeeping (φ : XR → XR) : Prop where
  lt_iff : ∀ x y, φ x < φ y ↔ x < y
  nan_iff : ∀ x, φ x = .nan ↔ x = .nan

end
end Frds.Spec.IForest

import Verif.Model.IForest

/-! Specification vocabulary for isolation trees. -/
namespace Frds.Spec.IForest
noncomputable section
open Frds Frds.Model.IForest Classical

/-- training rule for a numeric split: missing values go left; other values go left iff they are smaller
than a non-missing split value -/
def trainLeft (split x : XR) : Prop := x = .nan ∨ (split ≠ .nan ∧ x < split)

/-- scoring rule for a numeric split: a value goes left iff it is smaller (never true with a missing value) -/
def scoreLeft (split x : XR) : Prop := x < split

/-- rule for a character split: shorter strings left, equal lengths in lexicographic order -/
def charLeft (split x : List ℕ) : Prop := x.length < split.length ∨ (x.length = split.length ∧ x < split)

/-- the turns (`true` = left) taken by observation `o` from the root to a leaf, given the rule for numeric
splits -/
def route (d : Data) (rule : XR → XR → Prop) (o : ℕ) : Tree → List Bool
  | .leaf _ => []
  | .numNode a v _ l r =>
    if rule v (d.num a o) then true :: route d rule o l else false :: route d rule o r
  | .chrNode a v _ l r =>
    if charLeft v (d.cstr (a - d.nNum) o) then true :: route d rule o l else false :: route d rule o r

/-- number stored in the leaf reached by a sequence of turns, if they lead to a leaf -/
def leafAt : Tree → List Bool → Option ℕ
  | .leaf n, [] => some n
  | .leaf _, _ :: _ => none
  | .numNode _ _ _ _ _, [] => none
  | .chrNode _ _ _ _ _, [] => none
  | .numNode _ _ _ l r, b :: p => if b then leafAt l p else leafAt r p
  | .chrNode _ _ _ l r, b :: p => if b then leafAt l p else leafAt r p

/-- number of observations stored in the root of a tree -/
def size : Tree → ℕ
  | .leaf n => n
  | .numNode _ _ n _ _ => n
  | .chrNode _ _ n _ _ => n

/-- at every internal node the sizes of the two children add up -/
def SizesAdd : Tree → Prop
  | .leaf _ => True
  | .numNode _ _ n l r => n = size l + size r ∧ SizesAdd l ∧ SizesAdd r
  | .chrNode _ _ n l r => n = size l + size r ∧ SizesAdd l ∧ SizesAdd r

/-- length of the longest path to a leaf -/
def height : Tree → ℕ
  | .leaf _ => 0
  | .numNode _ _ _ l r => max (height l) (height r) + 1
  | .chrNode _ _ _ l r => max (height l) (height r) + 1

/-- split attribute of the root -/
def rootAttr : Tree → Option ℕ
  | .leaf _ => none
  | .numNode a _ _ _ _ => some a
  | .chrNode a _ _ _ _ => some a

/-- at every node whose two children are both internal, the children split on the same attribute -/
def SiblingsAgree : Tree → Prop
  | .leaf _ => True
  | .numNode _ _ _ l r => (∀ a b, rootAttr l = some a → rootAttr r = some b → a = b) ∧
      SiblingsAgree l ∧ SiblingsAgree r
  | .chrNode _ _ _ l r => (∀ a b, rootAttr l = some a → rootAttr r = some b → a = b) ∧
      SiblingsAgree l ∧ SiblingsAgree r

/-- numeric attributes met by observation `o` on its training route -/
def metAttrs (d : Data) (o : ℕ) : Tree → List ℕ
  | .leaf _ => []
  | .numNode a v _ l r => a :: if trainLeft v (d.num a o) then metAttrs d o l else metAttrs d o r
  | .chrNode a v _ l r => if charLeft v (d.cstr (a - d.nNum) o) then metAttrs d o l else metAttrs d o r

/-- average length of an unsuccessful search in a binary search tree of `n` nodes (for `n ≥ 2`) -/
def avgPath (n : ℕ) : ℝ := 2 * (Real.log (n - 1) + 0.57721566490153286) - 2 * (n - 1) / n

/-- contribution of a leaf: its depth, plus the average path length of a tree of its size if that is at
least two -/
def pathValue (depth size : ℕ) : ℝ := depth + if size ≤ 1 then 0 else avgPath size

end
end Frds.Spec.IForest

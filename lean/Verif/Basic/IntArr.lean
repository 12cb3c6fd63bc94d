import Verif.Basic.Np

/-!
# NumPy arrays with an element type

The other modules take array entries to be numbers of the extended real line, i.e. `float64`
arrays. Here an array has an element type, `float64` or a signed or unsigned integer of some
width, and integer arithmetic wraps around silently, as NumPy's does.  These definitions are the
trusted model of NumPy's integer arithmetic (they are not frds code).
-/

namespace Frds.Np
noncomputable section
open Frds Classical

/-- `int8 … int64`, `uint8 … uint64` -/
structure IntTy where
  signed : Bool
  width : ℕ
  deriving DecidableEq

/-- value stored when the exact result `z` is written to an element of the type: two's complement -/
def IntTy.wrap (t : IntTy) (z : ℤ) : ℤ :=
  if t.signed then Int.bmod z (2 ^ t.width) else z % 2 ^ t.width

/-- smallest and largest representable numbers -/
def IntTy.lo (t : IntTy) : ℤ := if t.signed then -2 ^ (t.width - 1) else 0
def IntTy.hi (t : IntTy) : ℤ := if t.signed then 2 ^ (t.width - 1) - 1 else 2 ^ t.width - 1

/-- `z` is representable -/
def IntTy.Fits (t : IntTy) (z : ℤ) : Prop := t.lo ≤ z ∧ z ≤ t.hi

/-- `np.result_type` of two integer types; `none` is `float64` (signed with `uint64`) -/
def IntTy.promote (a b : IntTy) : Option IntTy :=
  if a.signed = b.signed then some ⟨a.signed, max a.width b.width⟩
  else
    let s := if a.signed then a.width else b.width
    let u := if a.signed then b.width else a.width
    if u < s then some ⟨true, s⟩
    else if u < 64 then some ⟨true, 2 * u⟩
    else none

/-- type in which `np.sum` accumulates: at least the platform's 64-bit integer -/
def IntTy.sumTy (t : IntTy) : IntTy := ⟨t.signed, max t.width 64⟩

/-- a one-dimensional array -/
inductive TArr where
  | int (t : IntTy) (v : List ℤ)
  | flt (v : List XR)

/-- the entries as numbers (`x.astype(float)`; rounding is not modelled) -/
def TArr.cast : TArr → List XR
  | .int _ v => v.map fun z : ℤ => .fin (z : ℝ)
  | .flt v => v

/-- `len(x)` -/
def TArr.length : TArr → ℕ
  | .int _ v => v.length
  | .flt v => v.length

/-- broadcasting of two one-dimensional arrays (as `Np.bcast`, for any element types) -/
def bc {α β γ} (f : α → β → γ) (x : List α) (y : List β) : Except PyErr (List γ) :=
  if x.length = y.length then .ok (List.zipWith f x y)
  else match x, y with
    | [a], ys => .ok (ys.map (f a))
    | xs, [b] => .ok (xs.map (f · b))
    | _, _ => .error .valueError

/-- element-wise `+`, `-`, `*`: integer arithmetic in the promoted type, otherwise floats -/
def arith (f : ℤ → ℤ → ℤ) (g : XR → XR → XR) (x y : TArr) : Except PyErr TArr :=
  match x, y with
  | .int s u, .int t v =>
    match s.promote t with
    | some p => (bc (fun a b => p.wrap (f a b)) u v).map (TArr.int p)
    | none => (bc g x.cast y.cast).map TArr.flt
  | _, _ => (bc g x.cast y.cast).map TArr.flt

def TArr.add : TArr → TArr → Except PyErr TArr := arith (· + ·) (· + ·)
def TArr.sub : TArr → TArr → Except PyErr TArr := arith (· - ·) (· - ·)
def TArr.mul : TArr → TArr → Except PyErr TArr := arith (· * ·) (· * ·)

/-- `2 * x`: a Python integer does not change the element type -/
def TArr.twice : TArr → TArr
  | .int t v => .int t (v.map fun a => t.wrap (2 * a))
  | .flt v => .flt (v.map (2 * ·))

/-- `np.absolute(x)` -/
def TArr.abs : TArr → TArr
  | .int t v => .int t (v.map fun a => t.wrap |a|)
  | .flt v => .flt (v.map XR.abs)

/-- `-x` -/
def TArr.neg : TArr → TArr
  | .int t v => .int t (v.map fun a => t.wrap (-a))
  | .flt v => .flt (v.map fun a => -a)

/-- a two-dimensional array with `k` columns -/
inductive TMat where
  | int (t : IntTy) (k : ℕ) (rows : List (List ℤ))
  | flt (k : ℕ) (rows : List (List XR))

def TMat.shape : TMat → ℕ × ℕ
  | .int _ k rows => (rows.length, k)
  | .flt k rows => (rows.length, k)

/-- the entries as numbers -/
def TMat.cast : TMat → List (List XR)
  | .int _ _ rows => rows.map fun r => r.map fun z : ℤ => .fin (z : ℝ)
  | .flt _ rows => rows

/-- `np.sum(x, axis=1)` -/
def TMat.sumAxis1 : TMat → TArr
  | .int t _ rows => .int t.sumTy (rows.map fun r => t.sumTy.wrap r.sum)
  | .flt _ rows => .flt (rows.map List.sum)

/-- `x[:, j]` -/
def TMat.column (x : TMat) (j : ℕ) : Except PyErr TArr :=
  match x with
  | .int t k rows => if j < k then .ok (.int t (rows.map fun r => r.getD j 0)) else .error .indexError
  | .flt k rows => if j < k then .ok (.flt (rows.map fun r => r.getD j .nan)) else .error .indexError

/-! ### lemmas -/

theorem IntTy.wrap_of_fits {t : IntTy} (hw : 1 ≤ t.width) {z : ℤ} (h : t.Fits z) : t.wrap z = z := by
  obtain ⟨s, w⟩ := t
  obtain ⟨w, rfl⟩ : ∃ v, w = v + 1 := ⟨w - 1, by simp only at hw; omega⟩
  obtain ⟨h1, h2⟩ := h
  have h0 : (0 : ℤ) < 2 ^ w := by positivity
  have e : (2 : ℤ) ^ (w + 1) = 2 * 2 ^ w := by ring
  cases s
  · simp only [IntTy.lo, IntTy.hi, IntTy.wrap, Bool.false_eq_true, if_false] at h1 h2 ⊢
    exact Int.emod_eq_of_lt h1 (by omega)
  · simp only [IntTy.lo, IntTy.hi, IntTy.wrap, if_true, Nat.add_sub_cancel] at h1 h2 ⊢
    apply Int.bmod_eq_of_le <;> push_cast <;> rw [e] <;> omega

theorem bc_cast {α β} (f : α → β → XR) (g : XR → XR → XR) (p : α → XR) (q : β → XR)
    (x : List α) (y : List β) (h : ∀ ps, bc Prod.mk x y = .ok ps → ∀ ab ∈ ps, f ab.1 ab.2 = g (p ab.1) (q ab.2)) :
    bc f x y = bc g (x.map p) (y.map q) := by
  unfold bc at *
  by_cases hl : x.length = y.length
  · simp only [hl, if_true, List.length_map] at h ⊢
    have h' := h _ rfl
    clear h
    congr 1
    induction x generalizing y with
    | nil => simp
    | cons a t ih =>
      cases y with
      | nil => simp
      | cons b u =>
        simp only [List.zipWith_cons_cons, List.map_cons]
        rw [h' (a, b) (by simp), ih u (by simpa using hl) (fun ab hab => h' ab (by simp [hab]))]
  · simp only [hl, if_false, List.length_map] at h ⊢
    match x, y, h with
    | [a], ys, h =>
      have h' := h _ rfl
      have : ys.map (f a) = (ys.map q).map (g (p a)) := by
        rw [List.map_map]
        apply List.map_congr_left
        intro b hb
        exact h' (a, b) (by simp; exact hb)
      simp only [List.map_cons, List.map_nil, this]
    | [], [b], h => simp
    | a :: a' :: t, [b], h =>
      have h' := h _ rfl
      have : (a :: a' :: t).map (f · b) = ((a :: a' :: t).map p).map (g · (q b)) := by
        rw [List.map_map]
        apply List.map_congr_left
        intro c hc
        exact h' (c, b) (by simp at hc ⊢; exact hc)
      simp only [List.map_cons, List.map_nil] at this ⊢
      rw [this]
    | [], [], h => simp at hl
    | [], b :: b' :: u, h => simp
    | a :: a' :: t, [], h => simp
    | a :: a' :: t, b :: b' :: u, h => simp

theorem bc_eq_bcast (g : XR → XR → XR) (x y : List XR) : bc g x y = Np.bcast g x y := by
  unfold bc Np.bcast
  split_ifs
  · rfl
  · match x, y with
    | [a], [] => rfl
    | [a], b :: u => rfl
    | [], [b] => rfl
    | a :: a' :: t, [b] => rfl
    | [], [] => rfl
    | [], b :: b' :: u => rfl
    | a :: a' :: t, [] => rfl
    | a :: a' :: t, b :: b' :: u => rfl

end
end Frds.Np

import Verif.Model.BlsArr
import Verif.Props.OptionPrice

/-! C187: `blsprice` on arrays, NumPy scalars and built-in numbers. -/
namespace Frds.Spec
noncomputable section
open Frds Frds.Np

/-- shapes (listed from the last axis) that can be combined: on every axis, two dimensions are equal or one of them is 1 -/
def ShapesFit (l : List (List ℕ)) : Prop :=
  ∀ a ∈ l, ∀ b ∈ l, ∀ k, a.getD k 1 = b.getD k 1 ∨ a.getD k 1 = 1 ∨ b.getD k 1 = 1

/-- the combined shape: as many axes as the longest, and on every axis the dimension that is not 1 if there is one -/
def Combined (l : List (List ℕ)) (out : List ℕ) : Prop :=
  (∀ a ∈ l, a.length ≤ out.length) ∧ (out = [] ∨ ∃ a ∈ l, a.length = out.length) ∧
  ∀ k, (∀ a ∈ l, a.getD k 1 = 1 ∨ a.getD k 1 = out.getD k 1) ∧
    (out.getD k 1 = 1 ∨ ∃ a ∈ l, a.getD k 1 = out.getD k 1)

end
end Frds.Spec

namespace Frds.Props
noncomputable section
open Frds Frds.Np Frds.Spec Frds.Model Classical
set_option linter.unusedSimpArgs false

namespace BlsArr

theorem bcDims_nil (x : List ℕ) : bcDims x [] = some x := by cases x <;> rfl

theorem bc_some : ∀ {a b d : List ℕ}, bcDims a b = some d →
    (d.length = max a.length b.length) ∧
    ∀ k, (dim a k = 1 ∨ dim a k = dim d k) ∧ (dim b k = 1 ∨ dim b k = dim d k) ∧
      (dim d k = dim a k ∨ dim d k = dim b k)
  | [], y, d, h => by
    rw [bcDims] at h; cases h
    exact ⟨by simp, fun k => ⟨Or.inl (by simp [dim]), Or.inr rfl, Or.inr rfl⟩⟩
  | a :: x, [], d, h => by
    rw [bcDims_nil] at h; cases h
    exact ⟨by simp, fun k => ⟨Or.inr rfl, Or.inl (by simp [dim]), Or.inl rfl⟩⟩
  | a :: x, b :: y, d, h => by
    rw [bcDims] at h
    cases hz : bcDims x y with
    | none => rw [hz] at h; split at h <;> simp_all
    | some z =>
      rw [hz] at h
      obtain ⟨hl, hk⟩ := bc_some hz
      have key : ∃ c, d = c :: z ∧ (a = 1 ∨ a = c) ∧ (b = 1 ∨ b = c) ∧ (c = a ∨ c = b) := by
        by_cases h1 : a = b
        · subst h1; simp at h; exact ⟨a, h.symm, Or.inr rfl, Or.inr rfl, Or.inl rfl⟩
        · by_cases h2 : a = 1
          · rw [if_neg h1, if_pos h2] at h; simp at h; exact ⟨b, h.symm, Or.inl h2, Or.inr rfl, Or.inr rfl⟩
          · by_cases h3 : b = 1
            · rw [if_neg h1, if_neg h2, if_pos h3] at h; simp at h
              exact ⟨a, h.symm, Or.inr rfl, Or.inl h3, Or.inl rfl⟩
            · rw [if_neg h1, if_neg h2, if_neg h3] at h; simp at h
      obtain ⟨c, rfl, h1, h2, h3⟩ := key
      refine ⟨by simp [hl], fun k => ?_⟩
      cases k with
      | zero => simpa [dim] using ⟨h1, h2, h3⟩
      | succ k => simpa [dim] using hk k

theorem bc_none : ∀ {a b : List ℕ}, bcDims a b = none →
    ∃ k, dim a k ≠ 1 ∧ dim b k ≠ 1 ∧ dim a k ≠ dim b k
  | [], y, h => by rw [bcDims] at h; cases h
  | a :: x, [], h => by rw [bcDims_nil] at h; cases h
  | a :: x, b :: y, h => by
    rw [bcDims] at h
    cases hz : bcDims x y with
    | none =>
      obtain ⟨k, hk⟩ := bc_none hz
      exact ⟨k + 1, by simpa [dim] using hk⟩
    | some z =>
      rw [hz] at h
      refine ⟨0, ?_⟩
      simp only [dim, List.getD_cons_zero]
      by_cases h1 : a = b
      · subst h1; simp at h
      · by_cases h2 : a = 1
        · rw [if_neg h1, if_pos h2] at h; simp at h
        · by_cases h3 : b = 1
          · rw [if_neg h1, if_neg h2, if_pos h3] at h; simp at h
          · exact ⟨h2, h3, h1⟩

theorem at_op2 {f : XR → XR → XR} {a b c : NdArr} (h : a.op2 f b = .ok c) (i : ℕ → ℕ) :
    c.at i = f (a.at i) (b.at i) := by
  unfold NdArr.op2 at h
  split at h
  · rename_i d hd
    cases h
    obtain ⟨_, hk⟩ := bc_some hd
    simp only [NdArr.at]
    have e : ∀ x : List ℕ, (∀ k, dim x k = 1 ∨ dim x k = dim d k) →
        (fun k => if dim x k = 1 then 0 else if dim d k = 1 then 0 else i k) = fun k => if dim x k = 1 then 0 else i k := by
      intro x hx
      funext k
      by_cases h1 : dim x k = 1
      · simp [h1]
      · have := (hx k).resolve_left h1
        rw [if_neg h1, if_neg h1, if_neg (by rw [← this]; exact h1)]
    rw [e _ fun k => (hk k).1, e _ fun k => (hk k).2.1]
  · cases h

/-- result `R` is the element-wise function `f` of arguments of the shapes `l` -/
def Rep (l : List (List ℕ)) (f : (ℕ → ℕ) → XR) (R : Except PyErr PyArg) : Prop :=
  (ShapesFit l ∧ ∃ X, R = .ok X ∧ Combined l X.arr.dims ∧ ∀ i, X.arr.at i = f i) ∨
  (¬ ShapesFit l ∧ R = .error .valueError)

theorem fit_left {l m : List (List ℕ)} (h : ShapesFit (l ++ m)) : ShapesFit l :=
  fun a ha b hb => h a (List.mem_append_left _ ha) b (List.mem_append_left _ hb)
theorem fit_right {l m : List (List ℕ)} (h : ShapesFit (l ++ m)) : ShapesFit m :=
  fun a ha b hb => h a (List.mem_append_right _ ha) b (List.mem_append_right _ hb)

theorem fit_append {l m : List (List ℕ)} {x y : List ℕ} (hl : ShapesFit l) (hm : ShapesFit m)
    (cl : Combined l x) (cm : Combined m y) : ShapesFit (l ++ m) ↔ ∃ d, bcDims x y = some d := by
  constructor
  · intro h
    cases hb : bcDims x y with
    | some d => exact ⟨d, rfl⟩
    | none =>
      exfalso
      obtain ⟨k, h1, h2, h3⟩ := bc_none hb
      obtain ⟨a, ha, ea⟩ := ((cl.2.2 k).2).resolve_left h1
      obtain ⟨b, hb, eb⟩ := ((cm.2.2 k).2).resolve_left h2
      have := h a (List.mem_append_left _ ha) b (List.mem_append_right _ hb) k
      rw [ea, eb] at this
      simp only [dim] at h1 h2 h3
      tauto
  · rintro ⟨d, hd⟩
    obtain ⟨_, hk⟩ := bc_some hd
    have main : ∀ a ∈ l, ∀ b ∈ m, ∀ k, a.getD k 1 = b.getD k 1 ∨ a.getD k 1 = 1 ∨ b.getD k 1 = 1 := by
      intro a ha b hb k
      have h1 := (cl.2.2 k).1 a ha
      have h2 := (cm.2.2 k).1 b hb
      have h3 := hk k
      simp only [dim] at h3
      rcases h1 with h1 | h1
      · exact Or.inr (Or.inl h1)
      rcases h2 with h2 | h2
      · exact Or.inr (Or.inr h2)
      rw [h1, h2]
      rcases h3.1 with h | h
      · exact Or.inr (Or.inl h)
      rcases h3.2.1 with h' | h'
      · exact Or.inr (Or.inr h')
      exact Or.inl (h.trans h'.symm)
    intro a ha b hb k
    rcases List.mem_append.mp ha with ha | ha <;> rcases List.mem_append.mp hb with hb | hb
    · exact hl a ha b hb k
    · exact main a ha b hb k
    · rcases main b hb a ha k with h | h | h
      · exact Or.inl h.symm
      · exact Or.inr (Or.inr h)
      · exact Or.inr (Or.inl h)
    · exact hm a ha b hb k

theorem combined_append {l m : List (List ℕ)} {x y d : List ℕ} (cl : Combined l x) (cm : Combined m y)
    (hd : bcDims x y = some d) : Combined (l ++ m) d := by
  obtain ⟨hlen, hk⟩ := bc_some hd
  refine ⟨?_, ?_, ?_⟩
  · intro a ha
    rcases List.mem_append.mp ha with ha | ha
    · have := cl.1 a ha; omega
    · have := cm.1 a ha; omega
  · rcases le_total y.length x.length with h | h
    · rcases cl.2.1 with h0 | ⟨a, ha, ea⟩
      · left; rw [h0] at h hlen; apply List.eq_nil_of_length_eq_zero; simp at h hlen; rw [hlen, h]; rfl
      · exact Or.inr ⟨a, List.mem_append_left _ ha, by omega⟩
    · rcases cm.2.1 with h0 | ⟨a, ha, ea⟩
      · left; rw [h0] at h hlen; apply List.eq_nil_of_length_eq_zero; simp at h hlen; rw [hlen, h]; rfl
      · exact Or.inr ⟨a, List.mem_append_right _ ha, by omega⟩
  · intro k
    have h3 := hk k
    simp only [dim] at h3
    refine ⟨?_, ?_⟩
    · intro a ha
      rcases List.mem_append.mp ha with ha | ha
      · rcases (cl.2.2 k).1 a ha with h | h
        · exact Or.inl h
        · rw [h]; exact h3.1
      · rcases (cm.2.2 k).1 a ha with h | h
        · exact Or.inl h
        · rw [h]; exact h3.2.1
    · rcases h3.2.2 with h | h
      · rw [h]
        rcases (cl.2.2 k).2 with h' | ⟨a, ha, e⟩
        · exact Or.inl h'
        · exact Or.inr ⟨a, List.mem_append_left _ ha, e⟩
      · rw [h]
        rcases (cm.2.2 k).2 with h' | ⟨a, ha, e⟩
        · exact Or.inl h'
        · exact Or.inr ⟨a, List.mem_append_right _ ha, e⟩

/-- the operation of NumPy agrees with the operator also on built-in numbers -/
theorem op2_any (f : XR → XR → XR) (x y : PyArg) :
    (∃ Z, PyArg.op2 f x y = .ok Z ∧ x.arr.op2 f y.arr = .ok Z.arr) ∨
      (PyArg.op2 f x y = .error .valueError ∧ x.arr.op2 f y.arr = .error .valueError) := by
  have gen : ∀ a b : NdArr, (∃ Z, (a.op2 f b).map PyArg.np = .ok Z ∧ a.op2 f b = .ok Z.arr) ∨
      ((a.op2 f b).map PyArg.np = .error .valueError ∧ a.op2 f b = .error .valueError) := by
    intro a b
    unfold NdArr.op2
    cases bcDims a.dims b.dims with
    | none => exact Or.inr ⟨rfl, rfl⟩
    | some d => exact Or.inl ⟨_, rfl, rfl⟩
  cases x with
  | py x =>
    cases y with
    | py y => exact Or.inl ⟨_, rfl, rfl⟩
    | np b => exact gen ⟨[], fun _ => x⟩ b
  | np a => exact gen a y.arr

theorem rep_op2' {l m : List (List ℕ)} {f g : (ℕ → ℕ) → XR} {op : XR → XR → XR} {R : PyArg → PyArg → Except PyErr PyArg}
    {A B : Except PyErr PyArg} (hA : Rep l f A) (hB : Rep m g B)
    (hR : ∀ x y, A = .ok x → B = .ok y → (∃ Z, R x y = .ok Z ∧ x.arr.op2 op y.arr = .ok Z.arr) ∨
      (R x y = .error .valueError ∧ x.arr.op2 op y.arr = .error .valueError)) :
    Rep (l ++ m) (fun i => op (f i) (g i)) (A >>= fun x => B >>= fun y => R x y) := by
  rcases hA with ⟨fl, X, rfl, cl, vl⟩ | ⟨fl, rfl⟩
  · rcases hB with ⟨fm, Y, rfl, cm, vm⟩ | ⟨fm, rfl⟩
    · have hiff := fit_append fl fm cl cm
      simp only [bind, Except.bind]
      rcases hR X Y rfl rfl with ⟨Z, h1, h2⟩ | ⟨h1, h2⟩
      · rw [h1]
        have hv := at_op2 h2
        unfold NdArr.op2 at h2
        cases hb : bcDims X.arr.dims Y.arr.dims with
        | none => rw [hb] at h2; cases h2
        | some d =>
          rw [hb] at h2
          left
          refine ⟨hiff.mpr ⟨d, hb⟩, Z, rfl, ?_, fun i => by rw [hv i, vl, vm]⟩
          have : Z.arr.dims = d := by
            have := (Except.ok.inj h2).symm
            rw [this]
          rw [this]; exact combined_append cl cm hb
      · rw [h1]
        unfold NdArr.op2 at h2
        cases hb : bcDims X.arr.dims Y.arr.dims with
        | none =>
          right
          refine ⟨?_, rfl⟩
          rw [hiff, hb]; simp
        | some d => rw [hb] at h2; cases h2
    · exact Or.inr ⟨fun h => fm (fit_right h), rfl⟩
  · exact Or.inr ⟨fun h => fl (fit_left h), rfl⟩

theorem rep_op2 {l m : List (List ℕ)} {f g : (ℕ → ℕ) → XR} {op : XR → XR → XR}
    {A B : Except PyErr PyArg} (hA : Rep l f A) (hB : Rep m g B) :
    Rep (l ++ m) (fun i => op (f i) (g i)) (A >>= fun x => B >>= fun y => PyArg.op2 op x y) :=
  rep_op2' hA hB fun x y _ _ => op2_any op x y

theorem div_any {x y : PyArg} (h : ∀ a b, x = .py a → y = .py b → b ≠ 0) :
    (∃ Z, PyArg.div x y = .ok Z ∧ x.arr.op2 (· / ·) y.arr = .ok Z.arr) ∨
      (PyArg.div x y = .error .valueError ∧ x.arr.op2 (· / ·) y.arr = .error .valueError) := by
  have e : PyArg.div x y = PyArg.op2 (· / ·) x y := by
    cases x with
    | py a => cases y with
      | py b => simp only [PyArg.div, PyArg.op2, if_neg (h a b rfl rfl)]
      | np b => rfl
    | np a => rfl
  rw [e]; exact op2_any _ x y

theorem rep_arg (a : PyArg) : Rep [a.arr.dims] a.arr.at (.ok a) := by
  left
  refine ⟨?_, a, rfl, ⟨by simp, Or.inr ⟨_, List.mem_singleton.mpr rfl, rfl⟩, fun k => ?_⟩, fun i => rfl⟩
  · intro x hx y hy k
    rw [List.mem_singleton.mp hx, List.mem_singleton.mp hy]; exact Or.inl rfl
  · exact ⟨fun x hx => by rw [List.mem_singleton.mp hx]; exact Or.inr rfl,
      Or.inr ⟨_, List.mem_singleton.mpr rfl, rfl⟩⟩

theorem rep_map {l : List (List ℕ)} {f : (ℕ → ℕ) → XR} {A : Except PyErr PyArg} {g : XR → XR} {u : PyArg → PyArg}
    (hu : ∀ X, (u X).arr = X.arr.op1 g) (h : Rep l f A) : Rep l (fun i => g (f i)) (A.map u) := by
  rcases h with ⟨fl, X, rfl, cl, vl⟩ | ⟨fl, rfl⟩
  · left
    refine ⟨fl, u X, rfl, by rw [hu]; exact cl, fun i => ?_⟩
    show _ = g (f i)
    rw [hu, ← vl i]; rfl
  · exact Or.inr ⟨fl, rfl⟩

theorem op1_arr (g : XR → XR) (X : PyArg) : (PyArg.op1 g X).arr = X.arr.op1 g := by cases X <;> rfl
theorem fn_arr (g : XR → XR) (X : PyArg) : (PyArg.fn g X).arr = X.arr.op1 g := rfl

theorem rep_mem {l m : List (List ℕ)} {f : (ℕ → ℕ) → XR} {A : Except PyErr PyArg} (h : ∀ a, a ∈ l ↔ a ∈ m)
    (hr : Rep l f A) : Rep m f A := by
  have hf : ShapesFit l ↔ ShapesFit m := by simp only [ShapesFit, h]
  have hc : ∀ d, Combined l d ↔ Combined m d := by intro d; simp only [Combined, h]
  unfold Rep at *
  rw [← hf]
  simpa only [← hc] using hr

theorem rep2 {l m : List (List ℕ)} {f g : (ℕ → ℕ) → XR} {op : XR → XR → XR} {X Y : PyArg}
    (hA : Rep l f (.ok X)) (hB : Rep m g (.ok Y)) : Rep (l ++ m) (fun i => op (f i) (g i)) (PyArg.op2 op X Y) :=
  rep_op2 hA hB

theorem repd {l m : List (List ℕ)} {f g : (ℕ → ℕ) → XR} {X Y : PyArg}
    (hA : Rep l f (.ok X)) (hB : Rep m g (.ok Y)) (h : ∀ a b, X = .py a → Y = .py b → b ≠ 0) :
    Rep (l ++ m) (fun i => f i / g i) (PyArg.div X Y) :=
  rep_op2' (A := .ok X) (B := .ok Y) (R := PyArg.div) (op := (· / ·)) hA hB
    fun x y hx hy => by cases hx; cases hy; exact div_any h

theorem rep_drop {l : List (List ℕ)} {f : (ℕ → ℕ) → XR} {A : Except PyErr PyArg} (h : Rep (l ++ [[]]) f A) :
    Rep l f A := by
  have hf : ShapesFit (l ++ [[]]) ↔ ShapesFit l := by
    constructor
    · exact fit_left
    · intro h a ha b hb k
      rcases List.mem_append.mp ha with ha | ha
      · rcases List.mem_append.mp hb with hb | hb
        · exact h a ha b hb k
        · rw [List.mem_singleton.mp hb]; exact Or.inr (Or.inr (by simp))
      · rw [List.mem_singleton.mp ha]; exact Or.inr (Or.inl (by simp))
  rcases h with ⟨fl, X, rfl, cl, vl⟩ | ⟨fl, rfl⟩
  · refine Or.inl ⟨hf.mp fl, X, rfl, ⟨fun a ha => cl.1 a (List.mem_append_left _ ha), ?_, fun k => ⟨fun a ha =>
      (cl.2.2 k).1 a (List.mem_append_left _ ha), ?_⟩⟩, vl⟩
    · rcases cl.2.1 with h | ⟨a, ha, e⟩
      · exact Or.inl h
      · rcases List.mem_append.mp ha with ha | ha
        · exact Or.inr ⟨a, ha, e⟩
        · rw [List.mem_singleton.mp ha] at e
          exact Or.inl (List.eq_nil_of_length_eq_zero e.symm)
    · rcases (cl.2.2 k).2 with h | ⟨a, ha, e⟩
      · exact Or.inl h
      · rcases List.mem_append.mp ha with ha | ha
        · exact Or.inr ⟨a, ha, e⟩
        · rw [List.mem_singleton.mp ha] at e
          exact Or.inl (by rw [← e]; simp)
  · exact Or.inr ⟨fun h => fl (hf.mpr h), rfl⟩

theorem repc {l : List (List ℕ)} {f : (ℕ → ℕ) → XR} {X : PyArg} {c : XR} (hc : c ≠ 0) (h : Rep l f (.ok X)) :
    Rep l (fun i => f i / c) (PyArg.div X (.py c)) :=
  rep_drop (repd h (rep_arg (.py c)) fun a b _ hb => by cases hb; exact hc)

theorem rep1 {l : List (List ℕ)} {f : (ℕ → ℕ) → XR} {X : PyArg} (g : XR → XR) (h : Rep l f (.ok X)) :
    Rep l (fun i => g (f i)) (.ok (PyArg.op1 g X)) := rep_map (u := PyArg.op1 g) (op1_arr g) h

theorem repf {l : List (List ℕ)} {f : (ℕ → ℕ) → XR} {X : PyArg} (g : XR → XR) (h : Rep l f (.ok X)) :
    Rep l (fun i => g (f i)) (.ok (PyArg.fn g X)) := rep_map (u := PyArg.fn g) (fn_arr g) h

theorem op2_np {f : XR → XR → XR} {X Z : PyArg} {b : NdArr} (h : PyArg.op2 f X (.np b) = .ok Z) : ∃ c, Z = .np c := by
  have e : PyArg.op2 f X (.np b) = (X.arr.op2 f b).map .np := by cases X <;> rfl
  rw [e] at h
  cases hc : X.arr.op2 f b with
  | error x => rw [hc] at h; cases h
  | ok c => rw [hc] at h; exact ⟨c, (Except.ok.inj h).symm⟩

/-- one assignment of the function body -/
theorem step {L l : List (List ℕ)} {β : Type} (P : Except PyErr β → Prop) (herr : ¬ ShapesFit L → P (.error .valueError))
    {f : (ℕ → ℕ) → XR} {A : Except PyErr PyArg} {k : PyArg → Except PyErr β} (h : Rep l f A) (hsub : ∀ a ∈ l, a ∈ L)
    (hok : ∀ X, A = .ok X → Rep l f (.ok X) → P (k X)) : P (A >>= k) := by
  have h' := h
  rcases h with ⟨fl, X, rfl, _⟩ | ⟨fl, rfl⟩
  · exact hok X rfl h'
  · exact herr fun hL => fl fun a ha b hb => hL a (hsub a ha) b (hsub b hb)

end BlsArr

open BlsArr

set_option maxHeartbeats 4000000 in
/-- C187. `blsprice` accepts built-in numbers, NumPy scalars and arrays of any shapes in any combination. Unless `S` and
`K` are both built-in numbers and `K` is 0, the call succeeds exactly if the six shapes can be combined (and otherwise
raises a `ValueError`); both results then have the combined shape, and their entries are the scalar prices of the
corresponding entries of the arguments. -/
theorem C187_arrays (S K r T sigma q : PyArg) (hK : ∀ a b, S = .py a → K = .py b → b ≠ 0) :
    (ShapesFit [S.arr.dims, K.arr.dims, r.arr.dims, T.arr.dims, sigma.arr.dims, q.arr.dims] →
      ∃ call put : NdArr, blspriceAny S K r T sigma q = .ok (.np call, .np put) ∧
        Combined [S.arr.dims, K.arr.dims, r.arr.dims, T.arr.dims, sigma.arr.dims, q.arr.dims] call.dims ∧
        Combined [S.arr.dims, K.arr.dims, r.arr.dims, T.arr.dims, sigma.arr.dims, q.arr.dims] put.dims ∧
        ∀ i, (call.at i, put.at i) = blsprice (S.arr.at i) (K.arr.at i) (r.arr.at i) (T.arr.at i) (sigma.arr.at i)
          (q.arr.at i)) ∧
    (¬ ShapesFit [S.arr.dims, K.arr.dims, r.arr.dims, T.arr.dims, sigma.arr.dims, q.arr.dims] →
      blspriceAny S K r T sigma q = .error .valueError) := by
  generalize hL : [S.arr.dims, K.arr.dims, r.arr.dims, T.arr.dims, sigma.arr.dims, q.arr.dims] = L
  have mS : S.arr.dims ∈ L := by rw [← hL]; simp
  have mK : K.arr.dims ∈ L := by rw [← hL]; simp
  have mr : r.arr.dims ∈ L := by rw [← hL]; simp
  have mT : T.arr.dims ∈ L := by rw [← hL]; simp
  have ms : sigma.arr.dims ∈ L := by rw [← hL]; simp
  have mq : q.arr.dims ∈ L := by rw [← hL]; simp
  suffices key : (ShapesFit L ∧ ∃ c p : NdArr, blspriceAny S K r T sigma q = .ok (.np c, .np p) ∧ Combined L c.dims ∧
      Combined L p.dims ∧ ∀ i, (c.at i, p.at i) = blsprice (S.arr.at i) (K.arr.at i) (r.arr.at i) (T.arr.at i)
        (sigma.arr.at i) (q.arr.at i)) ∨ (¬ ShapesFit L ∧ blspriceAny S K r T sigma q = .error .valueError) by
    rcases key with ⟨h1, h2⟩ | ⟨h1, h2⟩
    · exact ⟨fun _ => h2, fun h => absurd h1 h⟩
    · exact ⟨fun h => absurd h h1, fun _ => h2⟩
  have rS := rep_arg S
  have rK := rep_arg K
  have rr := rep_arg r
  have rT := rep_arg T
  have rs := rep_arg sigma
  have rq := rep_arg q
  obtain ⟨P, hP⟩ : ∃ P : Except PyErr (PyArg × PyArg) → Prop, ∀ R, P R ↔ ((ShapesFit L ∧ ∃ c p : NdArr,
      R = .ok (.np c, .np p) ∧ Combined L c.dims ∧ Combined L p.dims ∧ ∀ i, (c.at i, p.at i) = blsprice (S.arr.at i)
        (K.arr.at i) (r.arr.at i) (T.arr.at i) (sigma.arr.at i) (q.arr.at i)) ∨ (¬ ShapesFit L ∧ R = .error .valueError)) :=
    ⟨_, fun _ => Iff.rfl⟩
  rw [← hP]
  have herr : ¬ ShapesFit L → P (.error .valueError) := fun h => (hP _).mpr (Or.inr ⟨h, rfl⟩)
  have hsub : ∀ {l : List (List ℕ)}, (∀ a ∈ l, a ∈ [S.arr.dims, K.arr.dims, r.arr.dims, T.arr.dims, sigma.arr.dims,
      q.arr.dims]) → ∀ a ∈ l, a ∈ L := by rw [hL]; exact fun h => h
  have two : (2 : XR) ≠ 0 := by rw [XR.ofNat_def, XR.zero_def]; simp
  unfold blspriceAny
  refine step P herr (repd rS rK hK) (hsub (by simp)) fun sK _ rsK => ?_
  refine step P herr (rep2 rr rq) (hsub (by simp)) fun xrq _ rrq => ?_
  refine step P herr (repc two (rep1 XR.sq rs)) (hsub (by simp)) fun half _ rhalf => ?_
  refine step P herr (rep2 rrq rhalf) (hsub (by simp)) fun s1 _ rs1 => ?_
  refine step P herr (rep2 rs1 rT) (hsub (by simp)) fun s2 _ rs2 => ?_
  refine step P herr (rep2 (repf XR.log rsK) rs2) (hsub (by simp)) fun n _ rn => ?_
  refine step P herr (rep2 rs (repf XR.sqrt rT)) (hsub (by simp)) fun v hv rv => ?_
  obtain ⟨v0, rfl⟩ := op2_np hv
  refine step P herr (repd rn rv (fun a b _ hb => by cases hb)) (hsub (by simp)) fun d1 _ rd1 => ?_
  refine step P herr (rep2 rs (repf XR.sqrt rT)) (hsub (by simp)) fun v' _ rv' => ?_
  refine step P herr (rep2 rd1 rv') (hsub (by simp)) fun d2 _ rd2 => ?_
  refine step P herr (rep2 (rep1 (- ·) rq) rT) (hsub (by simp)) fun qT _ rqT => ?_
  refine step P herr (rep2 rS (repf XR.exp rqT)) (hsub (by simp)) fun c1 _ rc1 => ?_
  refine step P herr (rep2 rc1 (repf XR.ncdf rd1)) (hsub (by simp)) fun c2 _ rc2 => ?_
  refine step P herr (rep2 (rep1 (- ·) rr) rT) (hsub (by simp)) fun xrT _ rrT => ?_
  refine step P herr (rep2 rK (repf XR.exp rrT)) (hsub (by simp)) fun c3 _ rc3 => ?_
  refine step P herr (rep2 rc3 (repf XR.ncdf rd2)) (hsub (by simp)) fun c4 hc4 rc4 => ?_
  obtain ⟨c40, rfl⟩ := op2_np hc4
  refine step P herr (rep2 rc2 rc4) (hsub (by simp)) fun call hcall rcall => ?_
  obtain ⟨c, rfl⟩ := op2_np hcall
  refine step P herr (rep2 (rep1 (- ·) rr) rT) (hsub (by simp)) fun xrT' _ rrT' => ?_
  refine step P herr (rep2 rK (repf XR.exp rrT')) (hsub (by simp)) fun p1 _ rp1 => ?_
  refine step P herr (rep2 rp1 (repf XR.ncdf (rep1 (- ·) rd2))) (hsub (by simp)) fun p2 _ rp2 => ?_
  refine step P herr (rep2 (rep1 (- ·) rq) rT) (hsub (by simp)) fun qT' _ rqT' => ?_
  refine step P herr (rep2 rS (repf XR.exp rqT')) (hsub (by simp)) fun p3 _ rp3 => ?_
  refine step P herr (rep2 rp3 (repf XR.ncdf (rep1 (- ·) rd1))) (hsub (by simp)) fun p4 hp4 rp4 => ?_
  obtain ⟨p40, rfl⟩ := op2_np hp4
  refine step P herr (rep2 rp2 rp4) (hsub (by simp)) fun put hput rput => ?_
  obtain ⟨p, rfl⟩ := op2_np hput
  rw [hP]
  have e1 := rep_mem (m := L) (fun a => by rw [← hL]; simp; tauto) rcall
  have e2 := rep_mem (m := L) (fun a => by rw [← hL]; simp; tauto) rput
  rcases e1 with ⟨f1, X, hX, c1', v1⟩ | ⟨_, h⟩
  · rcases e2 with ⟨_, Y, hY, c2', v2⟩ | ⟨_, h⟩
    · cases hX; cases hY
      refine Or.inl ⟨f1, c, p, rfl, c1', c2', fun i => ?_⟩
      have w1 := v1 i
      have w2 := v2 i
      simp only [PyArg.arr] at w1 w2
      rw [w1, w2]
      rfl
    · cases h
  · cases h

/-- a 2 x 3 array of spot prices, three strikes, a column of two volatilities and scalars -/
theorem BlsArr.shapes_demo : ShapesFit [[3, 2], [3], [], [], [1, 2], []] ∧ Combined [[3, 2], [3], [], [], [1, 2], []] [3, 2] ∧
    ¬ ShapesFit [[3, 2], [4], [], [], [], []] := by
  have key : ∀ k, ([3, 2] : List ℕ).getD k 1 = (if k = 0 then 3 else if k = 1 then 2 else 1) ∧
      ([3] : List ℕ).getD k 1 = (if k = 0 then 3 else 1) ∧ ([1, 2] : List ℕ).getD k 1 = (if k = 1 then 2 else 1) ∧
      ([] : List ℕ).getD k 1 = 1 := by
    intro k
    rcases k with _ | _ | k <;> simp
  refine ⟨?_, ⟨by simp, Or.inr ⟨[3, 2], by simp, rfl⟩, fun k => ?_⟩, fun h => ?_⟩
  · intro a ha b hb k
    simp only [List.mem_cons, List.not_mem_nil, or_false] at ha hb
    obtain ⟨h1, h2, h3, h4⟩ := key k
    rcases k with _ | _ | k <;> simp at h1 h2 h3 h4 <;>
      rcases ha with rfl | rfl | rfl | rfl | rfl | rfl <;> rcases hb with rfl | rfl | rfl | rfl | rfl | rfl <;> simp
  · refine ⟨fun a ha => ?_, Or.inr ⟨[3, 2], by simp, rfl⟩⟩
    simp only [List.mem_cons, List.not_mem_nil, or_false] at ha
    rcases k with _ | _ | k <;> rcases ha with rfl | rfl | rfl | rfl | rfl | rfl <;> simp
  · have := h [3, 2] (by simp) [4] (by simp) 0
    simp at this

/-- C187. With built-in numbers for both spot and strike, a strike of 0 raises a `ZeroDivisionError`, whatever the other
arguments are; as a NumPy scalar it does not: the call is then worth the discounted spot and the put nothing. -/
theorem C187_zero_strike (r T sigma q : PyArg) (s : XR) (x rate t vol y : ℝ) (hx : 0 < x) (ht : 0 < t) (hv : 0 < vol) :
    blspriceAny (.py s) (.py 0) r T sigma q = .error .zeroDivisionError ∧
    ∃ call put : NdArr, blspriceAny (.py (.fin x)) (.np ⟨[], fun _ => 0⟩) (.py (.fin rate)) (.py (.fin t)) (.py (.fin vol))
        (.py (.fin y)) = .ok (.np call, .np put) ∧ call.dims = [] ∧ put.dims = [] ∧
      ∀ i, call.at i = .fin (x * Real.exp (-y * t)) ∧ put.at i = 0 := by
  refine ⟨by simp [blspriceAny, PyArg.div, bind, Except.bind], ?_⟩
  have fit : ShapesFit [[], [], [], [], [], []] := by
    intro a ha b hb k
    simp at ha hb
    subst ha; subst hb; simp
  obtain ⟨c, p, h, hc, hp, hv'⟩ := (C187_arrays (.py (.fin x)) (.np ⟨[], fun _ => 0⟩) (.py (.fin rate)) (.py (.fin t))
    (.py (.fin vol)) (.py (.fin y)) (by intro a b _ hb; cases hb)).1 fit
  have nil : ∀ d : List ℕ, Combined [[], [], [], [], [], []] d → d = [] := by
    intro d hd
    rcases hd.2.1 with h | ⟨a, ha, e⟩
    · exact h
    · simp at ha; subst ha; exact List.eq_nil_of_length_eq_zero e.symm
  refine ⟨c, p, h, nil _ hc, nil _ hp, fun i => ?_⟩
  have hi := hv' i
  simp only [PyArg.arr, NdArr.at] at hi
  have hsq : 0 < vol * Real.sqrt t := mul_pos hv (Real.sqrt_pos.mpr ht)
  have e : blsprice (.fin x) 0 (.fin rate) (.fin t) (.fin vol) (.fin y) = (.fin (x * Real.exp (-y * t)), 0) := by
    have e0 : (.fin x : XR) / .fin 0 = .pinf := by
      rw [XR.fin_div_zero, XR.infSign_pos hx]
    have hs : XR.sqrt (.fin t) = .fin (Real.sqrt t) := XR.fin_sqrt ht.le
    have e1 : XR.log (.pinf) = .pinf := rfl
    have e2 : (.fin vol : XR) * .fin (Real.sqrt t) = .fin (vol * Real.sqrt t) := XR.fin_mul _ _
    have e3 : ∀ z : ℝ, (.pinf : XR) + .fin z = .pinf := fun z => rfl
    have e4 : (.pinf : XR) / .fin (vol * Real.sqrt t) = .pinf := by
      show XR.div .pinf (.fin (vol * Real.sqrt t)) = .pinf
      rw [XR.div, if_neg (not_lt.mpr hsq.le)]
    have e5 : ∀ z : ℝ, (.pinf : XR) - .fin z = .pinf := fun z => rfl
    have two : (2 : XR) = .fin 2 := XR.ofNat_def 2
    unfold blsprice
    simp only [XR.zero_def, e0, e1, hs, e2, two, XR.fin_sub, XR.fin_sq, XR.fin_div _ (two_ne_zero (α := ℝ)), XR.fin_add, XR.fin_mul, e3,
      e4, e5, XR.fin_neg, XR.fin_exp]
    have n1 : XR.ncdf .pinf = .fin 1 := rfl
    have n2 : XR.ncdf (-.pinf) = .fin 0 := rfl
    rw [n1, n2]
    simp
  rw [e] at hi
  exact ⟨congrArg Prod.fst hi, congrArg Prod.snd hi⟩

/-! ### Concrete cases of the theorems above -/

/-- A 2-by-3 array of spots, a row of strikes, numbers for the rest and a column of volatilities. -/
example : ∃ call put : NdArr, blspriceAny (.np ⟨[3, 2], fun _ => .fin 100⟩) (.np ⟨[3], fun _ => .fin 95⟩) (.py (.fin 0.1))
      (.py (.fin 0.25)) (.np ⟨[1, 2], fun _ => .fin 0.5⟩) (.py 0) = .ok (.np call, .np put) ∧
    Combined [[3, 2], [3], [], [], [1, 2], []] call.dims :=
  let ⟨c, p, h1, h2, _⟩ := (C187_arrays (.np ⟨[3, 2], fun _ => .fin 100⟩) (.np ⟨[3], fun _ => .fin 95⟩) (.py (.fin 0.1))
    (.py (.fin 0.25)) (.np ⟨[1, 2], fun _ => .fin 0.5⟩) (.py 0) (by intro a b h; cases h)).1 BlsArr.shapes_demo.1
  ⟨c, p, h1, h2⟩
/-- Four strikes do not fit three spots. -/
example : blspriceAny (.np ⟨[3, 2], fun _ => .fin 100⟩) (.np ⟨[4], fun _ => .fin 95⟩) (.py (.fin 0.1))
      (.py (.fin 0.25)) (.py (.fin 0.5)) (.py 0) = .error .valueError :=
  (C187_arrays (.np ⟨[3, 2], fun _ => .fin 100⟩) (.np ⟨[4], fun _ => .fin 95⟩) (.py (.fin 0.1))
    (.py (.fin 0.25)) (.py (.fin 0.5)) (.py 0) (by intro a b h; cases h)).2 BlsArr.shapes_demo.2.2
example := C187_zero_strike (.py 0) (.py 0) (.py 0) (.py 0) (.fin 100) 100 0.1 0.25 0.5 0 (by norm_num) (by norm_num) (by norm_num)

end
end Frds.Props

import Verif.Lemmas.HeapGarch
import Verif.Props.DccTotal
import Verif.Props.LrmesObj

/-! C182, C183: arrays shared between the caller and GARCH models. -/
namespace Frds.Props
noncomputable section
open Frds Frds.Model Frds.Model.Op Frds.Model.HeapGarch Frds.Spec Classical
set_option linter.unusedSimpArgs false

namespace HeapG

/-- what the user's own assignments make of the contents of one buffer; calls of the library are ignored -/
def userOnly (b : ℕ) (f : ℕ → XR) : List Event → ℕ → XR
  | [] => f
  | .write b' i v :: es => userOnly b (if b' = b then fun j => if j = i then v else f j else f) es
  | _ :: es => userOnly b f es

theorem garch_tot (cpp : Bool) : ∀ (p : GarchVar) (resids : List XR) (bc : XR) (vb : List (XR × XR)), resids ≠ [] →
    resids.length ≤ vb.length → ∃ s2, garchVariance cpp p resids bc vb = .ok s2 :=
  fun _ _ _ _ h1 h2 => ⟨_, variancePath_ok h1 fun _ => h2⟩

theorem gjr_tot (cpp : Bool) : ∀ (p : GjrVar) (resids : List XR) (bc : XR) (vb : List (XR × XR)), resids ≠ [] →
    resids.length ≤ vb.length → ∃ s2, gjrVariance cpp p resids bc vb = .ok s2 :=
  fun _ _ _ _ h1 h2 => ⟨_, variancePath_ok h1 fun _ => h2⟩

/-- what a fit method does in memory, compared with a fit method on values -/
def FitOk {V R : Type} (fit : HGarch V → Op (HGarch V × R)) (fitL : GarchObj V → Except PyErr (GarchObj V × R)) : Prop :=
  ∀ o H, Frds.HeapGarch.Valid o H → Refines H.next (fit o) H (fitL (view H o)) (fun a b H' => Frds.HeapGarch.Left H.next o a.1 b.1 H' ∧ a.2 = b.2)

theorem garchFitOk (cpp : Bool) (opt : Optimizer (XR × GarchVar)) : FitOk (garchFitH cpp opt) (garchFit cpp opt) := by
  intro o H h
  unfold garchFitH garchFit
  show Refines H.next _ H (if o.success = true then _ else _) _
  by_cases hs : o.success = true
  · rw [if_pos hs, if_pos hs]
    exact Refines.ret ⟨⟨rfl, h, rfl, rfl, .inl rfl, .inl rfl, id⟩, rfl⟩
  · rw [if_neg hs, if_neg hs]
    refine Refines.bind (Frds.HeapGarch.fitCoreH_refines cpp (Frds.HeapGarch.garchVarOk cpp) (Frds.HeapGarch.garchStartOk cpp) (garch_tot cpp) _ opt o H h) (le_refl _) ?_
    intro a b H' _ hl _
    refine Refines.ret ⟨hl, ?_⟩
    show some a.params = some b.params
    rw [← hl.view]; rfl

theorem gjrFitOk (cpp : Bool) (opt : Optimizer (XR × GjrVar)) : FitOk (gjrFitH cpp opt) (gjrFit cpp opt) := by
  intro o H h
  unfold gjrFitH gjrFit
  refine Refines.bind (Frds.HeapGarch.fitCoreH_refines cpp (Frds.HeapGarch.gjrVarOk cpp) (Frds.HeapGarch.gjrStartOk cpp) (gjr_tot cpp) _ opt o H h) (le_refl _) ?_
  intro a b H' _ hl _
  refine Refines.ret ⟨hl, ?_⟩
  show some a.params = some b.params
  rw [← hl.view]; rfl

theorem asarray_keeps (arg : ArrayArg) (H : Heap) (ha : ArgOk H arg) :
    ∃ H' r, asarray arg H = (H', .ok r) ∧ Frds.Keeps H.next H H' ∧ r.buf < H'.next := by
  cases arg with
  | float64 r => exact ⟨H, r, rfl, .refl _ _, ha⟩
  | other l =>
    obtain ⟨H', a1, a2, a3, _⟩ := Frds.HeapGarch.alloc_eq l H
    exact ⟨H', _, a1, a2, by show H.next < _; omega⟩

theorem newH_ok {V : Type} (arg : ArrayArg) (zm : Bool) (H : Heap) (ha : ArgOk H arg) :
    ∃ H' o, newH (V := V) arg zm H = (H', .ok o) ∧ Frds.Keeps H.next H H' ∧ Frds.HeapGarch.Valid o H' ∧ asarray arg H = ((asarray arg H).1, .ok o.returns) ∧
      o.zeroMean = zm ∧ o.success = false ∧ o.params = none ∧ H.next ≤ o.resids.buf ∧ H.next ≤ o.sigma2.buf ∧ o.resids.buf ≠ o.sigma2.buf ∧
      o.returns.buf ≠ o.resids.buf ∧ o.returns.buf ≠ o.sigma2.buf ∧ H'.read o.returns = (asarray arg H).1.read o.returns ∧
      o.backcast = .nan ∧ o.bounds = none := by
  obtain ⟨H1, r, h1, h2, h3⟩ := asarray_keeps arg H ha
  refine ⟨{ H1 with next := H1.next + 1 + 1 }, _, by unfold newH; simp only [bind, andThen, h1]; rfl, ?_, ?_, ?_, rfl, rfl, rfl, h2.next, ?_, ?_, ?_, ?_, ?_, ?_⟩
  · exact ⟨by have := h2.next; show H.next ≤ H1.next + 1 + 1; omega, h2.cells⟩
  · refine ⟨by show r.buf < H1.next + 1 + 1; omega, by show H1.next < H1.next + 1 + 1; omega, by show H1.next + 1 < H1.next + 1 + 1; omega, ?_⟩
    intro b hb; cases hb
  · rw [h1]
  · have := h2.next; show H.next ≤ H1.next + 1; omega
  · show H1.next ≠ H1.next + 1; omega
  · show r.buf ≠ H1.next; omega
  · show r.buf ≠ H1.next + 1; omega
  · rw [h1]; rfl
  · exact ⟨rfl, rfl⟩

theorem does_spec {V R : Type} {fit : HGarch V → Op (HGarch V × R)} {fitL : GarchObj V → Except PyErr (GarchObj V × R)} (hf : FitOk fit fitL)
    {w w' : World V} {e : Event} (h : Does fit w e w') (hv : ∀ o ∈ w.models, Frds.HeapGarch.Valid o w.heap) :
    (∀ o ∈ w'.models, Frds.HeapGarch.Valid o w'.heap) ∧ w.heap.next ≤ w'.heap.next ∧
    (∀ b < w.heap.next, w'.heap.cells b = userOnly b (w.heap.cells b) [e]) := by
  have keep : ∀ {H' : Heap} {n : ℕ}, Frds.Keeps w.heap.next w.heap H' → ∀ o ∈ w.models, Frds.HeapGarch.Valid o H' := by
    intro H' n k o ho
    have := hv o ho
    exact ⟨lt_of_lt_of_le this.ret k.next, lt_of_lt_of_le this.res k.next, lt_of_lt_of_le this.sig k.next,
      fun b hb => ⟨lt_of_lt_of_le (this.bnd b hb).1 k.next, lt_of_lt_of_le (this.bnd b hb).2 k.next⟩⟩
  cases h with
  | create l =>
    obtain ⟨H', a1, a2, a3, _⟩ := Frds.HeapGarch.alloc_eq l w.heap
    rw [a1]
    exact ⟨keep (n := 0) a2, a2.next, fun b hb => a2.cells b hb⟩
  | write b i v hb =>
    refine ⟨fun o ho => ⟨(hv o ho).ret, (hv o ho).res, (hv o ho).sig, (hv o ho).bnd⟩, le_refl _, ?_⟩
    intro c hc
    show (fun j => if c = b ∧ j = i then v else w.heap.cells c j) = (if b = c then fun j => if j = i then v else w.heap.cells c j else w.heap.cells c)
    by_cases hbc : b = c
    · subst hbc; simp
    · rw [if_neg hbc]; funext j; rw [if_neg (by tauto)]
  | model arg zm H' o ha h =>
    obtain ⟨H1, o1, g1, g2, g3, -⟩ := newH_ok (V := V) arg zm w.heap ha
    rw [g1] at h
    cases h
    refine ⟨?_, g2.next, fun b hb => g2.cells b hb⟩
    intro x hx
    rcases List.mem_append.mp hx with hx | hx
    · exact keep (n := 0) g2 x hx
    · rw [List.mem_singleton.mp hx]; exact g3
  | fit k o o' H' r ho h =>
    have := hf o w.heap (hv o (List.mem_of_getElem? ho))
    unfold Refines at this
    rw [h] at this
    obtain ⟨k1, k2⟩ := this
    refine ⟨?_, k1.next, fun b hb => k1.cells b hb⟩
    intro x hx
    rcases List.mem_or_eq_of_mem_set hx with hx | hx
    · exact keep (n := 0) k1 x hx
    · subst hx
      cases hl : fitL (view w.heap o) with
      | error e => rw [hl] at k2; exact k2.elim
      | ok q => rw [hl] at k2; exact k2.1.valid
  | raise k o H' e bc b ho h hb =>
    have hvo := hv o (List.mem_of_getElem? ho)
    have := hf o w.heap hvo
    unfold Refines at this
    rw [h] at this
    obtain ⟨k1, k2⟩ := this
    refine ⟨?_, k1.next, fun b hb => k1.cells b hb⟩
    intro x hx
    rcases List.mem_or_eq_of_mem_set hx with hx | hx
    · exact keep (n := 0) k1 x hx
    · subst hx
      exact ⟨lt_of_lt_of_le hvo.ret k1.next, lt_of_lt_of_le hvo.res k1.next, lt_of_lt_of_le hvo.sig k1.next, hb⟩

theorem userOnly_cons (b : ℕ) (f : ℕ → XR) (e : Event) (es : List Event) : userOnly b f (e :: es) = userOnly b (userOnly b f [e]) es := by
  cases e <;> rfl

theorem runs_spec {V R : Type} {fit : HGarch V → Op (HGarch V × R)} {fitL : GarchObj V → Except PyErr (GarchObj V × R)} (hf : FitOk fit fitL)
    {w w' : World V} {es : List Event} (h : Runs fit w es w') (hv : ∀ o ∈ w.models, Frds.HeapGarch.Valid o w.heap) :
    (∀ o ∈ w'.models, Frds.HeapGarch.Valid o w'.heap) ∧ w.heap.next ≤ w'.heap.next ∧
    (∀ b < w.heap.next, w'.heap.cells b = userOnly b (w.heap.cells b) es) := by
  induction h with
  | nil w => exact ⟨hv, le_refl _, fun _ _ => rfl⟩
  | cons h t ih =>
    obtain ⟨a1, a2, a3⟩ := does_spec hf h hv
    obtain ⟨b1, b2, b3⟩ := ih a1
    refine ⟨b1, a2.trans b2, fun b hb => ?_⟩
    rw [b3 b (lt_of_lt_of_le hb a2), userOnly_cons, a3 b hb]

/-- the values of an argument -/
def argValue (H : Heap) : ArrayArg → List XR
  | .float64 r => H.read r
  | .other l => l

theorem asarray_value (arg : ArrayArg) (H : Heap) (ha : ArgOk H arg) :
    ∃ H' r, asarray arg H = (H', .ok r) ∧ Frds.Keeps H.next H H' ∧ r.buf < H'.next ∧ H'.read r = argValue H arg := by
  cases arg with
  | float64 r => exact ⟨H, r, rfl, .refl _ _, ha, rfl⟩
  | other l =>
    obtain ⟨H', a1, a2, a3, a4⟩ := Frds.HeapGarch.alloc_eq l H
    exact ⟨H', _, a1, a2, by show H.next < _; omega, a4⟩

theorem argValue_keeps {H H' : Heap} (k : Frds.Keeps H.next H H') (arg : ArrayArg) (ha : ArgOk H arg) : argValue H' arg = argValue H arg := by
  cases arg with
  | float64 r => exact k.read ha
  | other l => rfl

theorem argOk_keeps {H H' : Heap} (k : Frds.Keeps H.next H H') (arg : ArrayArg) (ha : ArgOk H arg) : ArgOk H' arg := by
  cases arg with
  | float64 r => exact lt_of_lt_of_le (show r.buf < H.next from ha) k.next
  | other l => trivial

/-- the buffer that holds a model's `returns` is not one of its `resids` or `sigma2`, and these are two -/
def Apart {V : Type} (o : HGarch V) : Prop :=
  o.resids.buf ≠ o.returns.buf ∧ o.sigma2.buf ≠ o.returns.buf ∧ o.resids.buf ≠ o.sigma2.buf

theorem left_apart {V : Type} {n : ℕ} {o o' : HGarch V} {oL : GarchObj V} {H' : Heap} (h : Frds.HeapGarch.Left n o o' oL H')
    (hr : o.returns.buf < n) (ha : Apart o) : Apart o' := by
  refine ⟨?_, ?_, h.apart ha.2.2⟩
  · rw [h.returns]
    rcases h.resids with e | e
    · rw [e]; exact ha.1
    · omega
  · rw [h.returns]
    rcases h.sigma2 with e | e
    · rw [e]; exact ha.2.1
    · omega

/-- models all of whose arrays are known: no model at the start -/
theorem runs_apart {V R : Type} {fit : HGarch V → Op (HGarch V × R)} {fitL : GarchObj V → Except PyErr (GarchObj V × R)} (hf : FitOk fit fitL)
    {w w' : World V} {es : List Event} (h : Runs fit w es w') (hv : ∀ o ∈ w.models, Frds.HeapGarch.Valid o w.heap)
    (ha : ∀ o ∈ w.models, Apart o) : ∀ o ∈ w'.models, Apart o := by
  induction h with
  | nil w => exact ha
  | @cons w w1 w2 e0 es0 h t ih =>
    refine ih (does_spec hf h hv).1 ?_
    cases h with
    | create l => exact ha
    | write b i v hb => exact ha
    | model arg zm H' o hao h =>
      obtain ⟨H1, o1, g1, g2, g3, g4, g5, g6, g7, g8, g9, g10, g11, g12, g13, g14, g15⟩ := newH_ok (V := V) arg zm _ hao
      rw [g1] at h
      cases h
      intro x hx
      rcases List.mem_append.mp hx with hx | hx
      · exact ha x hx
      · rw [List.mem_singleton.mp hx]; exact ⟨g11.symm, g12.symm, g10⟩
    | fit k o o' H' r ho h =>
      have hvo := hv o (List.mem_of_getElem? ho)
      have := hf o w.heap hvo
      unfold Refines at this
      rw [h] at this
      intro x hx
      rcases List.mem_or_eq_of_mem_set hx with hx | hx
      · exact ha x hx
      · subst hx
        cases hl : fitL (view w.heap o) with
        | error e => rw [hl] at this; exact this.2.elim
        | ok q => rw [hl] at this; exact left_apart this.2.1 hvo.ret (ha o (List.mem_of_getElem? ho))
    | raise k o H' e bc b ho h hb =>
      intro x hx
      rcases List.mem_or_eq_of_mem_set hx with hx | hx
      · exact ha x hx
      · subst hx; exact ha o (List.mem_of_getElem? ho)

/-- `returns` is assigned only by the constructor -/
theorem runs_returns {V R : Type} {fit : HGarch V → Op (HGarch V × R)} {fitL : GarchObj V → Except PyErr (GarchObj V × R)} (hf : FitOk fit fitL)
    {w w' : World V} {es : List Event} (h : Runs fit w es w') (hv : ∀ o ∈ w.models, Frds.HeapGarch.Valid o w.heap) (k : ℕ) (o : HGarch V)
    (ho : w.models[k]? = some o) : ∃ o', w'.models[k]? = some o' ∧ o'.returns = o.returns ∧ o'.zeroMean = o.zeroMean := by
  have set_get : ∀ (l : List (HGarch V)) (j : ℕ) (a a' : HGarch V), l[j]? = some a → a'.returns = a.returns → a'.zeroMean = a.zeroMean →
      ∀ o, l[k]? = some o → ∃ o', (l.set j a')[k]? = some o' ∧ o'.returns = o.returns ∧ o'.zeroMean = o.zeroMean := by
    intro l j a a' hj h1 h2 o hk
    by_cases e : j = k
    · subst e
      rw [hj] at hk
      cases hk
      refine ⟨a', ?_, h1, h2⟩
      rw [List.getElem?_set_self (by exact (List.getElem?_eq_some_iff.mp hj).1)]
    · exact ⟨o, by rw [List.getElem?_set_ne e]; exact hk, rfl, rfl⟩
  induction h generalizing o with
  | nil w => exact ⟨o, ho, rfl, rfl⟩
  | @cons w w1 w2 e0 es0 h t ih =>
    have hd := (does_spec hf h hv).1
    suffices H : ∃ o', w1.models[k]? = some o' ∧ o'.returns = o.returns ∧ o'.zeroMean = o.zeroMean by
      obtain ⟨o1, h1, h2, h3⟩ := H
      obtain ⟨o2, g1, g2, g3⟩ := ih hd o1 h1
      exact ⟨o2, g1, g2.trans h2, g3.trans h3⟩
    cases h with
    | create l => exact ⟨o, ho, rfl, rfl⟩
    | write b i v hb => exact ⟨o, ho, rfl, rfl⟩
    | model arg zm H' o1 hao h => exact ⟨o, by
        rw [List.getElem?_append_left (List.getElem?_eq_some_iff.mp ho).1]; exact ho, rfl, rfl⟩
    | fit j o1 o' H' r ho1 h =>
      have hvo := hv o1 (List.mem_of_getElem? ho1)
      have := hf o1 w.heap hvo
      unfold Refines at this
      rw [h] at this
      cases hl : fitL (view w.heap o1) with
      | error e => rw [hl] at this; exact this.2.elim
      | ok q =>
        rw [hl] at this
        exact set_get _ j o1 _ ho1 this.2.1.returns this.2.1.zeroMean o ho
    | raise j o1 H' e bc b ho1 h hb => exact set_get _ j o1 { o1 with backcast := bc, bounds := b } ho1 rfl rfl o ho

/-- nothing that existed before a call is written to -/
def Untouched (H H' : Heap) : Prop := ∀ b < H.next, ∀ i, H'.cells b i = H.cells b i

theorem untouched {n : ℕ} {H H' : Heap} (k : Frds.Keeps H.next H H') : Untouched H H' := fun b hb i => by rw [k.cells b hb]

/-- the value or exception of an operation that returns a new array -/
def newArray (H : Heap) (m : Heap × Except PyErr Ref) : Except PyErr (List XR) :=
  match m.2 with
  | .ok r => if H.next ≤ r.buf then .ok (m.1.read r) else .error .runtimeError
  | .error e => .error e

theorem newArray_of {m : Op Ref} {H : Heap} {e : Except PyErr (List XR)}
    (h : Refines H.next m H e (fun a l H' => H'.read a = l ∧ H.next ≤ a.buf ∧ a.buf < H'.next)) : newArray H (m H) = e := by
  obtain ⟨-, h⟩ := h
  unfold newArray
  cases hm : (m H).2 with
  | error x =>
    rw [hm] at h
    cases e with
    | ok b => exact h.elim
    | error y => exact congrArg _ h
  | ok a =>
    rw [hm] at h
    cases e with
    | error y => exact h.elim
    | ok b => show (if _ then _ else _) = _; rw [if_pos h.2.1, h.1]

theorem fresh_weaken {m : Op Ref} {H : Heap} {e : Except PyErr (List XR)} (h : Refines H.next m H e (Refines.Fresh H.next)) :
    Refines H.next m H e (fun a l H' => H'.read a = l ∧ H.next ≤ a.buf ∧ a.buf < H'.next) :=
  h.post fun _ _ _ _ f => ⟨f.1, f.2.1, f.2.2.1⟩

end HeapG

open HeapG

/-- C182: the static methods `ewma`, `compute_variance` (both classes) and `forecast_variance`, with or without the compiled extension,
write to no array that existed before the call - also when they raise - and return a new array with the values of the list model. -/
theorem C182_static_methods (cpp : Bool) (H : Heap) (resids : Ref) (hr : resids.buf < H.next) :
    (∀ initial lam, Untouched H (ewmaH cpp resids initial lam H).1 ∧
      newArray H (ewmaH cpp resids initial lam H) = ewma cpp (H.read resids) initial lam) ∧
    (∀ (p : GjrVar) initial, Untouched H (forecastH p resids initial H).1 ∧
      newArray H (forecastH p resids initial H) = forecastVariance p (H.read resids) initial) ∧
    (∀ (lo hi : Ref) bc, lo.buf < H.next → hi.buf < H.next → lo.idx.length = resids.idx.length → hi.idx.length = resids.idx.length →
      (∀ p : GarchVar, Untouched H (garchVarianceH cpp p resids bc (lo, hi) H).1 ∧
        newArray H (garchVarianceH cpp p resids bc (lo, hi) H) = garchVariance cpp p (H.read resids) bc (List.zip (H.read lo) (H.read hi))) ∧
      (∀ p : GjrVar, Untouched H (gjrVarianceH cpp p resids bc (lo, hi) H).1 ∧
        newArray H (gjrVarianceH cpp p resids bc (lo, hi) H) = gjrVariance cpp p (H.read resids) bc (List.zip (H.read lo) (H.read hi)))) := by
  refine ⟨fun i l => ?_, fun p i => ?_, fun lo hi bc h1 h2 h3 h4 => ⟨fun p => ?_, fun p => ?_⟩⟩
  · have := Frds.HeapGarch.ewmaH_refines cpp resids i l H hr
    exact ⟨untouched (n := 0) this.1, newArray_of (fresh_weaken this)⟩
  · have := Frds.HeapGarch.forecastH_refines p resids i H hr
    exact ⟨untouched (n := 0) this.1, newArray_of this⟩
  · have := Frds.HeapGarch.garchVarOk cpp p resids bc (lo, hi) H hr h1 h2 h3 h4
    exact ⟨untouched (n := 0) this.1, newArray_of (fresh_weaken this)⟩
  · have := Frds.HeapGarch.gjrVarOk cpp p resids bc (lo, hi) H hr h1 h2 h3 h4
    exact ⟨untouched (n := 0) this.1, newArray_of (fresh_weaken this)⟩

/-- C182: `variance_bounds` divides its weights in place, but these are its own: no array that existed is written to, and the two
columns are new. -/
theorem C182_variance_bounds (cpp : Bool) (H : Heap) (resids : Ref) (hr : resids.buf < H.next) :
    Untouched H (varianceBoundsH cpp resids H).1 ∧
    match (varianceBoundsH cpp resids H).2, varianceBounds cpp (H.read resids) with
    | .ok b, .ok l => List.zip ((varianceBoundsH cpp resids H).1.read b.1) ((varianceBoundsH cpp resids H).1.read b.2) = l ∧
        H.next ≤ b.1.buf ∧ H.next ≤ b.2.buf
    | .error x, .error y => x = y
    | _, _ => False := by
  have := Frds.HeapGarch.boundsH_refines cpp resids H hr
  refine ⟨untouched (n := 0) this.1, ?_⟩
  obtain ⟨-, h⟩ := this
  revert h
  cases (varianceBoundsH cpp resids H).2 <;> cases varianceBounds cpp (H.read resids) <;> intro h <;> first | exact h | exact ⟨h.1, h.2.1, h.2.2.1⟩

/-- C182: whatever a program does with GARCH models - constructing them on shared arrays, views and lists, fitting them successfully,
unsuccessfully or with an exception, writing to its arrays in between - the contents of every array existing at some moment are later what
the program's own assignments made of them. This holds for the caller's arrays as for arrays obtained from attributes of models. -/
theorem C182_garch_history (cpp : Bool) (opt : Optimizer (XR × GarchVar)) (w0 w w' : World GarchVar) (es es' : List Event)
    (h0 : w0.models = []) (h : Runs (garchFitH cpp opt) w0 es w) (h' : Runs (garchFitH cpp opt) w es' w') :
    ∀ b < w.heap.next, ∀ i, w'.heap.cells b i = userOnly b (w.heap.cells b) es' i := by
  intro b hb i
  have := (runs_spec (garchFitOk cpp opt) h (by rw [h0]; simp)).1
  rw [(runs_spec (garchFitOk cpp opt) h' this).2.2 b hb]

/-- C182 for GJR-GARCH models -/
theorem C182_gjr_history (cpp : Bool) (opt : Optimizer (XR × GjrVar)) (w0 w w' : World GjrVar) (es es' : List Event)
    (h0 : w0.models = []) (h : Runs (gjrFitH cpp opt) w0 es w) (h' : Runs (gjrFitH cpp opt) w es' w') :
    ∀ b < w.heap.next, ∀ i, w'.heap.cells b i = userOnly b (w.heap.cells b) es' i := by
  intro b hb i
  have := (runs_spec (gjrFitOk cpp opt) h (by rw [h0]; simp)).1
  rw [(runs_spec (gjrFitOk cpp opt) h' this).2.2 b hb]

/-- C182: `resids` and `sigma2` of a model are never the caller's return array, nor each other, at any point of a program - also for
zero-mean models, whose residuals are computed in the return array itself during the estimation. -/
theorem C182_attributes_are_new (cpp : Bool) (optg : Optimizer (XR × GarchVar)) (optj : Optimizer (XR × GjrVar)) :
    (∀ (w0 w : World GarchVar) (es : List Event), w0.models = [] → Runs (garchFitH cpp optg) w0 es w →
      ∀ o ∈ w.models, o.resids.buf ≠ o.returns.buf ∧ o.sigma2.buf ≠ o.returns.buf ∧ o.resids.buf ≠ o.sigma2.buf) ∧
    (∀ (w0 w : World GjrVar) (es : List Event), w0.models = [] → Runs (gjrFitH cpp optj) w0 es w →
      ∀ o ∈ w.models, o.resids.buf ≠ o.returns.buf ∧ o.sigma2.buf ≠ o.returns.buf ∧ o.resids.buf ≠ o.sigma2.buf) := by
  constructor
  · intro w0 w es h0 h
    exact runs_apart (garchFitOk cpp optg) h (by rw [h0]; simp) (by rw [h0]; simp)
  · intro w0 w es h0 h
    exact runs_apart (gjrFitOk cpp optj) h (by rw [h0]; simp) (by rw [h0]; simp)

namespace HeapG

theorem fit_other {V R : Type} {fit : HGarch V → Op (HGarch V × R)} {fitL : GarchObj V → Except PyErr (GarchObj V × R)} (hf : FitOk fit fitL)
    {w0 w w' : World V} {es : List Event} (h0 : w0.models = []) (h : Runs fit w0 es w) {k j : ℕ} (hk : Does fit w (.fit k) w') (hj : j ≠ k) :
    w'.models[j]? = w.models[j]? ∧ ∀ o, w.models[j]? = some o → view w'.heap o = view w.heap o := by
  have hv := (runs_spec hf h (by rw [h0]; simp)).1
  have hc := (does_spec hf hk hv).2.2
  refine ⟨?_, ?_⟩
  · cases hk with
    | fit k o o' H' r ho h => exact List.getElem?_set_ne (Ne.symm hj)
    | raise k o H' e bc b ho h hb => exact List.getElem?_set_ne (Ne.symm hj)
  · intro o ho
    have v := hv o (List.mem_of_getElem? ho)
    have rd : ∀ r : Ref, r.buf < w.heap.next → w'.heap.read r = w.heap.read r := by
      intro r hr
      unfold Heap.read
      rw [hc r.buf hr]; rfl
    unfold view
    rw [rd _ v.ret, rd _ v.res, rd _ v.sig]
    congr 1
    cases hb : o.bounds with
    | none => rfl
    | some b => simp only [Option.map_some, rd _ (v.bnd b hb).1, rd _ (v.bnd b hb).2]

/-- a fit in memory and a fit on values agree: both raise the same exception, or the attributes and the returned value are the same -/
def SameFit {V R : Type} (m : Heap × Except PyErr (HGarch V × R)) (e : Except PyErr (GarchObj V × R)) : Prop :=
  match m.2, e with
  | .ok (o', r), .ok (o'', r') => view m.1 o' = o'' ∧ r = r'
  | .error x, .error y => x = y
  | _, _ => False

theorem sameFit_of {V R : Type} {fit : HGarch V → Op (HGarch V × R)} {fitL : GarchObj V → Except PyErr (GarchObj V × R)} (hf : FitOk fit fitL)
    {w0 w : World V} {es : List Event} (h0 : w0.models = []) (h : Runs fit w0 es w) {o : HGarch V} (ho : o ∈ w.models) :
    SameFit (fit o w.heap) (fitL (view w.heap o)) := by
  have hv := (runs_spec hf h (by rw [h0]; simp)).1 o ho
  obtain ⟨-, this⟩ := hf o w.heap hv
  unfold SameFit
  revert this
  cases (fit o w.heap).2 <;> cases fitL (view w.heap o) <;> intro this <;> first | exact this | exact ⟨this.1.view, this.2⟩

end HeapG

/-- C182: two models may share one return array. Fitting one of them changes neither the attributes of the other nor the values in its
arrays. -/
theorem C182_models_do_not_interfere (cpp : Bool) (optg : Optimizer (XR × GarchVar)) (optj : Optimizer (XR × GjrVar)) (j k : ℕ) (hjk : j ≠ k) :
    (∀ (w0 w w' : World GarchVar) (es : List Event), w0.models = [] → Runs (garchFitH cpp optg) w0 es w →
      Does (garchFitH cpp optg) w (.fit k) w' →
      w'.models[j]? = w.models[j]? ∧ ∀ o, w.models[j]? = some o → view w'.heap o = view w.heap o) ∧
    (∀ (w0 w w' : World GjrVar) (es : List Event), w0.models = [] → Runs (gjrFitH cpp optj) w0 es w →
      Does (gjrFitH cpp optj) w (.fit k) w' →
      w'.models[j]? = w.models[j]? ∧ ∀ o, w.models[j]? = some o → view w'.heap o = view w.heap o) :=
  ⟨fun _ _ _ _ h0 h hk => fit_other (garchFitOk cpp optg) h0 h hk hjk, fun _ _ _ _ h0 h hk => fit_other (gjrFitOk cpp optj) h0 h hk hjk⟩

/-- C183: at every point of a program a fit does what the estimation on values does with the attributes and the contents of the return
array at that moment. -/
theorem C183_fit_uses_current_contents (cpp : Bool) (optg : Optimizer (XR × GarchVar)) (optj : Optimizer (XR × GjrVar)) :
    (∀ (w0 w : World GarchVar) (es : List Event), w0.models = [] → Runs (garchFitH cpp optg) w0 es w → ∀ o ∈ w.models,
      SameFit (garchFitH cpp optg o w.heap) (garchFit cpp optg (view w.heap o))) ∧
    (∀ (w0 w : World GjrVar) (es : List Event), w0.models = [] → Runs (gjrFitH cpp optj) w0 es w → ∀ o ∈ w.models,
      SameFit (gjrFitH cpp optj o w.heap) (gjrFit cpp optj (view w.heap o))) :=
  ⟨fun _ _ _ h0 h _ ho => sameFit_of (garchFitOk cpp optg) h0 h ho, fun _ _ _ h0 h _ ho => sameFit_of (gjrFitOk cpp optj) h0 h ho⟩

namespace HeapG

theorem shared {V R : Type} {fit : HGarch V → Op (HGarch V × R)} {fitL : GarchObj V → Except PyErr (GarchObj V × R)} (hf : FitOk fit fitL)
    {w0 w w1 w2 : World V} {es es' : List Event} (h0 : w0.models = []) (h : Runs fit w0 es w) {r : Ref} {zm : Bool}
    (hm : Does fit w (.model (.float64 r) zm) w1) (h' : Runs fit w1 es' w2) :
    ∃ o, w2.models[w.models.length]? = some o ∧ o.returns = r ∧ o.zeroMean = zm ∧
      (view w2.heap o).returns = r.idx.map (userOnly r.buf (w.heap.cells r.buf) es') := by
  have hv := (runs_spec hf h (by rw [h0]; simp)).1
  have hd := does_spec hf hm hv
  have hr := runs_spec hf h' hd.1
  cases hm with
  | model arg zm H' o ha g =>
    have ha' : r.buf < w.heap.next := ha
    obtain ⟨H1, o1, g1, g2, g3, g4, g5, -⟩ := newH_ok (V := V) (.float64 r) zm w.heap ha
    rw [g1] at g
    cases g
    obtain ⟨o', e1, e2, e3⟩ := runs_returns hf h' hd.1 w.models.length o (by simp)
    have er : o.returns = r := by
      have : (Except.ok r : Except PyErr Ref) = .ok o.returns := congrArg Prod.snd g4
      cases this; rfl
    refine ⟨o', e1, e2.trans er, e3.trans g5, ?_⟩
    show w2.heap.read o'.returns = _
    rw [e2.trans er]
    unfold Heap.read
    rw [hr.2.2 r.buf (lt_of_lt_of_le ha' hd.2.1), hd.2.2 r.buf ha']
    rfl

theorem copied {V R : Type} {fit : HGarch V → Op (HGarch V × R)} {fitL : GarchObj V → Except PyErr (GarchObj V × R)} (hf : FitOk fit fitL)
    {w0 w w1 w2 : World V} {es es' : List Event} (h0 : w0.models = []) (h : Runs fit w0 es w) {l : List XR} {zm : Bool}
    (hm : Does fit w (.model (.other l) zm) w1) (h' : Runs fit w1 es' w2) (hw : ∀ b i v, Event.write b i v ∈ es' → b < w.heap.next) :
    ∃ o, w2.models[w.models.length]? = some o ∧ o.zeroMean = zm ∧ (view w2.heap o).returns = l := by
  have hv := (runs_spec hf h (by rw [h0]; simp)).1
  have hd := does_spec hf hm hv
  have hr := runs_spec hf h' hd.1
  cases hm with
  | model arg zm H' o ha g =>
    obtain ⟨H1, o1, g1, g2, g3, g4, g5, g6, g7, g8, g9, g10, g11, g12, g13, g14, g15⟩ := newH_ok (V := V) (.other l) zm w.heap ha
    rw [g1] at g
    cases g
    obtain ⟨o', e1, e2, e3⟩ := runs_returns hf h' hd.1 w.models.length o (by simp)
    obtain ⟨Ha, a1, a2, a3, a4⟩ := Frds.HeapGarch.alloc_eq l w.heap
    have ha1 : asarray (.other l) w.heap = (Ha, .ok ⟨w.heap.next, List.range l.length⟩) := a1
    rw [ha1] at g4 g13
    have er : o.returns = ⟨w.heap.next, List.range l.length⟩ := by
      have := congrArg Prod.snd g4
      injection this with this
      exact this.symm
    have hno : ∀ (f : ℕ → XR) (es : List Event), (∀ b i v, Event.write b i v ∈ es → b < w.heap.next) → userOnly w.heap.next f es = f := by
      intro f es hes
      induction es generalizing f with
      | nil => rfl
      | cons e t ih =>
        have ht : ∀ b i v, Event.write b i v ∈ t → b < w.heap.next := fun b i v hm => hes b i v (List.mem_cons_of_mem _ hm)
        cases e with
        | write b i v =>
          have := hes b i v (by simp)
          show userOnly w.heap.next (if b = w.heap.next then _ else f) t = f
          rw [if_neg (by omega)]
          exact ih f ht
        | create l => exact ih f ht
        | model a z => exact ih f ht
        | fit k => exact ih f ht
    refine ⟨o', e1, e3.trans g5, ?_⟩
    show w2.heap.read o'.returns = _
    rw [e2]
    have : w2.heap.read o.returns = H'.read o.returns := by
      unfold Heap.read
      rw [hr.2.2 _ g3.ret]
      have hb : o.returns.buf = w.heap.next := by rw [er]
      rw [hb, hno _ _ hw]
    rw [this, g13, er]
    exact a4

end HeapG

/-- C183: a model constructed from a float64 array keeps that array: at every later point its data are what the program's assignments
made of the array. A model constructed from anything else has the values of the moment of construction, unless the program writes to
arrays created since (such as `model.returns` itself). -/
theorem C183_float64_is_shared (cpp : Bool) (opt : Optimizer (XR × GjrVar)) (w0 w w1 w2 : World GjrVar) (es es' : List Event) (zm : Bool)
    (h0 : w0.models = []) (h : Runs (gjrFitH cpp opt) w0 es w) :
    (∀ r : Ref, Does (gjrFitH cpp opt) w (.model (.float64 r) zm) w1 → Runs (gjrFitH cpp opt) w1 es' w2 →
      ∃ o, w2.models[w.models.length]? = some o ∧ o.returns = r ∧ o.zeroMean = zm ∧
        (view w2.heap o).returns = r.idx.map (userOnly r.buf (w.heap.cells r.buf) es')) ∧
    (∀ l : List XR, Does (gjrFitH cpp opt) w (.model (.other l) zm) w1 → Runs (gjrFitH cpp opt) w1 es' w2 →
      (∀ b i v, Event.write b i v ∈ es' → b < w.heap.next) →
      ∃ o, w2.models[w.models.length]? = some o ∧ o.zeroMean = zm ∧ (view w2.heap o).returns = l) :=
  ⟨fun _ hm h' => shared (gjrFitOk cpp opt) h0 h hm h', fun _ hm h' hw => copied (gjrFitOk cpp opt) h0 h hm h' hw⟩

/-- C183 for GARCH models -/
theorem C183_float64_is_shared_garch (cpp : Bool) (opt : Optimizer (XR × GarchVar)) (w0 w w1 w2 : World GarchVar) (es es' : List Event)
    (zm : Bool) (h0 : w0.models = []) (h : Runs (garchFitH cpp opt) w0 es w) :
    (∀ r : Ref, Does (garchFitH cpp opt) w (.model (.float64 r) zm) w1 → Runs (garchFitH cpp opt) w1 es' w2 →
      ∃ o, w2.models[w.models.length]? = some o ∧ o.returns = r ∧ o.zeroMean = zm ∧
        (view w2.heap o).returns = r.idx.map (userOnly r.buf (w.heap.cells r.buf) es')) ∧
    (∀ l : List XR, Does (garchFitH cpp opt) w (.model (.other l) zm) w1 → Runs (garchFitH cpp opt) w1 es' w2 →
      (∀ b i v, Event.write b i v ∈ es' → b < w.heap.next) →
      ∃ o, w2.models[w.models.length]? = some o ∧ o.zeroMean = zm ∧ (view w2.heap o).returns = l) :=
  ⟨fun _ hm h' => shared (garchFitOk cpp opt) h0 h hm h', fun _ hm h' hw => copied (garchFitOk cpp opt) h0 h hm h' hw⟩

/-- C183: once a GARCH model has been estimated successfully, overwriting its data goes unnoticed: parameters and likelihood stay those of
the old data through any further program, and `fit()` returns `None`. -/
theorem C183_garch_keeps_estimate (cpp : Bool) (opt : Optimizer (XR × GarchVar)) (w w' : World GarchVar) (es : List Event) (k : ℕ)
    (o : HGarch GarchVar) (ho : w.models[k]? = some o) (hs : o.success = true) (h : Runs (garchFitH cpp opt) w es w') :
    w'.models[k]? = some o ∧ garchFitH cpp opt o w'.heap = (w'.heap, .ok (o, none)) := by
  have hret : ∀ H : Heap, garchFitH cpp opt o H = (H, .ok (o, none)) := by
    intro H; unfold garchFitH; rw [if_pos hs]; rfl
  refine ⟨?_, hret _⟩
  induction h with
  | nil w => exact ho
  | @cons w w1 w2 e0 es0 h t ih =>
    refine ih ?_
    cases h with
    | create l => exact ho
    | write b i v hb => exact ho
    | model arg zm H' o1 hao h => rw [List.getElem?_append_left (List.getElem?_eq_some_iff.mp ho).1]; exact ho
    | fit j o1 o' H' r ho1 h =>
      by_cases e : j = k
      · subst e
        rw [ho] at ho1
        cases ho1
        rw [hret] at h
        cases h
        rw [List.getElem?_set_self (List.getElem?_eq_some_iff.mp ho).1]
      · rw [List.getElem?_set_ne e]; exact ho
    | raise j o1 H' e bc b ho1 h hb =>
      by_cases e : j = k
      · subst e
        rw [ho] at ho1
        cases ho1
        rw [hret] at h
        cases h
      · rw [List.getElem?_set_ne e]; exact ho

namespace HeapG

/-- an estimation depends on the object only through its data -/
theorem fitCore_same {V : Type} {cpp : Bool} {var : V → List XR → XR → List (XR × XR) → Except PyErr (List XR)}
    {start : List XR → List XR → XR → List (XR × XR) → Except PyErr (Option V)} {feas : Bool → Feas (XR × V)} {opt : Optimizer (XR × V)}
    {o o2 : GarchObj V} (hr : o.returns = o2.returns) (hz : o.zeroMean = o2.zeroMean) :
    (∀ e, fitCore cpp var start feas opt o = .error e → fitCore cpp var start feas opt o2 = .error e) ∧
    ∀ o', fitCore cpp var start feas opt o = .ok o' → ∃ o2', fitCore cpp var start feas opt o2 = .ok o2' ∧
      (o2.success = false → o2'.success = true → o'.success = true ∧ o'.params = o2'.params ∧ o'.resids = o2'.resids) := by
  have hp : prepResids o = prepResids o2 := by unfold prepResids; rw [hr, hz]
  have ho : ∀ bc vb, objective var o bc vb = objective var o2 bc vb := by
    intro bc vb
    funext p
    unfold objective modelPath
    rw [hr, hz]
  unfold fitCore
  simp only [bind, Except.bind, pure, Except.pure]
  rw [hp, hr, hz]
  cases varianceBounds cpp (prepResids o2) with
  | error e => exact ⟨fun _ h => h, fun _ h => (by cases h)⟩
  | ok vb =>
    simp only
    cases start o2.returns (prepResids o2) (backcast (prepResids o2)) vb with
    | error e => exact ⟨fun _ h => h, fun _ h => (by cases h)⟩
    | ok v0 =>
      simp only
      cases v0 with
      | none => exact ⟨fun _ h => h, fun _ h => (by cases h)⟩
      | some v0 =>
        simp only
        rw [ho]
        by_cases hs : (opt (feas o2.zeroMean) (objective var o2 (backcast (prepResids o2)) vb)
            (if o2.zeroMean = true then 0 else Np.mean o2.returns, v0)).success = true
        · rw [if_pos hs, if_pos hs]
          refine ⟨fun _ h => (by cases h), fun o' h => ⟨_, rfl, fun _ _ => ?_⟩⟩
          cases h
          exact ⟨rfl, rfl, rfl⟩
        · rw [if_neg hs, if_neg hs]
          refine ⟨fun _ h => (by cases h), fun o' h => ⟨_, rfl, fun h1 h2 => ?_⟩⟩
          rw [h1] at h2; cases h2

end HeapG

/-- C183: a GJR-GARCH model that is fitted again after its data were overwritten finds what a new model of the overwritten data finds: at
any point of a program, two GJR models whose arrays hold the same values - one possibly estimated before on other values, one new - get
the same parameters and residuals whenever the estimation of the new one succeeds; and if the estimation of one raises, so does that of
the other. -/
theorem C183_gjr_refit_sees_new_data (cpp : Bool) (opt : Optimizer (XR × GjrVar)) (w0 w : World GjrVar) (es : List Event)
    (h0 : w0.models = []) (h : Runs (gjrFitH cpp opt) w0 es w) (o o2 : HGarch GjrVar) (ho : o ∈ w.models) (ho2 : o2 ∈ w.models)
    (hval : w.heap.read o.returns = w.heap.read o2.returns) (hz : o.zeroMean = o2.zeroMean) (hnew : o2.success = false) :
    (∀ H2 o2' r2, gjrFitH cpp opt o2 w.heap = (H2, .ok (o2', r2)) → o2'.success = true →
      ∃ H1 o' r, gjrFitH cpp opt o w.heap = (H1, .ok (o', r)) ∧ o'.success = true ∧ o'.params = o2'.params ∧ r = r2 ∧
        H1.read o'.resids = H2.read o2'.resids) ∧
    (∀ H2 e, gjrFitH cpp opt o2 w.heap = (H2, .error e) → ∃ H1, gjrFitH cpp opt o w.heap = (H1, .error e)) := by
  have f1 := sameFit_of (gjrFitOk cpp opt) h0 h ho
  have f2 := sameFit_of (gjrFitOk cpp opt) h0 h ho2
  have same := fitCore_same (cpp := cpp) (var := gjrVariance cpp) (start := fun ret res _ _ => gjrStart cpp ret res) (feas := gjrFeas) (opt := opt)
    (o := view w.heap o) (o2 := view w.heap o2) hval hz
  have same' := fitCore_same (cpp := cpp) (var := gjrVariance cpp) (start := fun ret res _ _ => gjrStart cpp ret res) (feas := gjrFeas) (opt := opt)
    (o := view w.heap o2) (o2 := view w.heap o) hval.symm hz.symm
  unfold gjrFit at f1 f2
  simp only [bind, Except.bind, pure, Except.pure] at f1 f2
  constructor
  · intro H2 o2' r2 g2 hsuc
    rw [g2] at f2
    cases c2 : fitCore cpp (gjrVariance cpp) (fun ret res _ _ => gjrStart cpp ret res) gjrFeas opt (view w.heap o2) with
    | error e => rw [c2] at f2; exact f2.elim
    | ok q2 =>
      rw [c2] at f2
      obtain ⟨e1, e2⟩ := f2
      cases c1 : fitCore cpp (gjrVariance cpp) (fun ret res _ _ => gjrStart cpp ret res) gjrFeas opt (view w.heap o) with
      | error e => rw [same.1 e c1] at c2; cases c2
      | ok q1 =>
        rw [c1] at f1
        obtain ⟨q2', c2', hh⟩ := same.2 q1 c1
        rw [c2] at c2'
        cases c2'
        obtain ⟨s1, s2, s3⟩ := hh hnew (by rw [← e1]; exact hsuc)
        rcases g1 : gjrFitH cpp opt o w.heap with ⟨H1, x | ⟨o', r⟩⟩
        · rw [g1] at f1; exact f1.elim
        · rw [g1] at f1
          obtain ⟨d1, d2⟩ := f1
          refine ⟨H1, o', r, rfl, ?_, ?_, ?_, ?_⟩
          · have : (view H1 o').success = q1.success := by rw [d1]
            exact this.trans s1
          · have a : (view H1 o').params = q1.params := by rw [d1]
            have b : (view H2 o2').params = q2.params := by rw [e1]
            exact a.trans (s2.trans b.symm)
          · rw [d2, e2, s2]
          · have a : (view H1 o').resids = q1.resids := by rw [d1]
            have b : (view H2 o2').resids = q2.resids := by rw [e1]
            exact a.trans (s3.trans b.symm)
  · intro H2 e g2
    rw [g2] at f2
    cases c2 : fitCore cpp (gjrVariance cpp) (fun ret res _ _ => gjrStart cpp ret res) gjrFeas opt (view w.heap o2) with
    | ok q2 => rw [c2] at f2; exact f2.elim
    | error e' =>
      rw [c2] at f2
      have : e = e' := f2
      subst this
      have c1 := same'.1 e c2
      rw [c1] at f1
      rcases g1 : gjrFitH cpp opt o w.heap with ⟨H1, x | q⟩
      · rw [g1] at f1
        have : x = e := f1
        subst this
        exact ⟨H1, rfl⟩
      · rw [g1] at f1; exact f1.elim

/-- C183: the LRMES constructor takes a snapshot: it writes to no array of the caller (its in-place scaling works on arrays it has
created), raises `AssertionError` exactly when the lengths differ, builds the two models of the model on values, and later writes to any
array that existed before leave both models as they are. -/
theorem C183_lrmes_takes_snapshot (H : Heap) (firm market : ArrayArg) (hf : ArgOk H firm) (hm : ArgOk H market) :
    Untouched H (lrmesNewH firm market H).1 ∧
    match (lrmesNewH firm market H).2 with
    | .error e => e = .assertionError ∧ (argValue H firm).length ≠ (argValue H market).length
    | .ok (o1, o2) =>
        LrmesObj.new (argValue H firm) (argValue H market) ((lrmesNewH firm market H).1.read o1.resids) ((lrmesNewH firm market H).1.read o1.sigma2)
          ((lrmesNewH firm market H).1.read o2.resids) ((lrmesNewH firm market H).1.read o2.sigma2)
          = .ok { model1 := view (lrmesNewH firm market H).1 o1, model2 := view (lrmesNewH firm market H).1 o2 } ∧
        ∀ b i v, b < H.next → view ((lrmesNewH firm market H).1.write b i v) o1 = view (lrmesNewH firm market H).1 o1 ∧
          view ((lrmesNewH firm market H).1.write b i v) o2 = view (lrmesNewH firm market H).1 o2 := by
  obtain ⟨Ha, ra, a1, a2, a3, a4⟩ := asarray_value firm H hf
  obtain ⟨Hb, b1, b2, b3, b4⟩ := Frds.HeapGarch.alloc_eq ((argValue H firm).map fun x => XR.log (1 + x)) Ha
  have kb : Frds.Keeps H.next H Hb := a2.trans b2 a2.next
  obtain ⟨Hc, rc, c1, c2, c3, c4⟩ := asarray_value market Hb (argOk_keeps kb _ hm)
  rw [argValue_keeps kb _ hm] at c4
  obtain ⟨Hd, d1, d2, d3, d4⟩ := Frds.HeapGarch.alloc_eq ((argValue H market).map fun x => XR.log (1 + x)) Hc
  have kc : Frds.Keeps H.next H Hc := kb.trans c2 kb.next
  have kd : Frds.Keeps H.next H Hd := kc.trans d2 kc.next
  set f : Ref := ⟨Ha.next, List.range ((argValue H firm).map fun x => XR.log (1 + x)).length⟩ with hfd
  set m : Ref := ⟨Hc.next, List.range ((argValue H market).map fun x => XR.log (1 + x)).length⟩ with hmd
  have fl : f.idx.length = (argValue H firm).length := by simp [hfd]
  have ml : m.idx.length = (argValue H market).length := by simp [hmd]
  have start : lrmesNewH firm market H = (if f.idx.length ≠ m.idx.length then Op.lift (.error .assertionError) else
      andThen (inPlace f (· * 100)) fun _ => andThen (inPlace m (· * 100)) fun _ => andThen (newH (.float64 f) false) fun o1 =>
      andThen (newH (.float64 m) false) fun o2 => Op.ret (o1, o2)) Hd := by
    unfold lrmesNewH
    simp only [Frds.HeapGarch.bind_def]
    have step : ∀ {α β : Type} {m : Op α} {k : α → Op β} {G G' : Heap} {a : α}, m G = (G', .ok a) → andThen m k G = k a G' := by
      intro α β m k G G' a hm; unfold andThen; rw [hm]
    rw [step a1, step (show Op.contents ra Ha = (Ha, .ok (argValue H firm)) from by rw [← a4]; rfl), step b1, step c1,
      step (show Op.contents rc Hc = (Hc, .ok (argValue H market)) from by rw [← c4]; rfl), step d1]
  by_cases hl : (argValue H firm).length = (argValue H market).length
  · have hfm : f.buf < m.buf := by
      show Ha.next < Hc.next
      have := c2.next; omega
    obtain ⟨He, e1, e2, e3⟩ := inPlace_dense (s := f) (T := ((argValue H firm).map fun x => XR.log (1 + x)).length) rfl (· * 100) Hd
    obtain ⟨Hf, f1, f2, f3⟩ := inPlace_dense (s := m) (T := ((argValue H market).map fun x => XR.log (1 + x)).length) rfl (· * 100) He
    have nf : H.next ≤ f.buf := a2.next
    have nm : H.next ≤ m.buf := kc.next
    have ke : Frds.Keeps H.next H He := kd.trans (e2.keeps nf) (le_refl _)
    have kf : Frds.Keeps H.next H Hf := ke.trans (f2.keeps nm) (le_refl _)
    have hf_lt : f.buf < Hf.next := by rw [f2.1, e2.1]; show Ha.next < _; have := c2.next; omega
    have hm_lt : m.buf < Hf.next := by rw [f2.1, e2.1]; show Hc.next < _; omega
    obtain ⟨Hg, o1, g1, g2, g3, g4, g5, g6, g7, g8, g9, g10, g11, g12, g13, g14, g15⟩ := newH_ok (V := GjrVar) (.float64 f) false Hf hf_lt
    have hm_lt' : m.buf < Hg.next := lt_of_lt_of_le hm_lt g2.next
    obtain ⟨Hh, o2, i1, i2, i3, i4, i5, i6, i7, i8, i9, i10, i11, i12, i13, i14, i15⟩ := newH_ok (V := GjrVar) (.float64 m) false Hg hm_lt'
    have hfin : lrmesNewH firm market H = (Hh, .ok (o1, o2)) := by
      rw [start, if_neg (by rw [fl, ml]; simpa using hl)]
      unfold andThen
      rw [e1]; simp only
      rw [f1]; simp only
      rw [g1]; simp only
      rw [i1]; rfl
    have kg : Frds.Keeps H.next H Hg := kf.trans g2 kf.next
    have kh : Frds.Keeps H.next H Hh := kg.trans i2 kg.next
    have r1 : o1.returns = f := by
      have := congrArg Prod.snd g4
      injection this with this; exact this.symm
    have r2 : o2.returns = m := by
      have := congrArg Prod.snd i4
      injection this with this; exact this.symm
    rw [hfin]
    refine ⟨untouched (n := 0) kh, ?_, ?_⟩
    · have hd_f : Hd.read f = (argValue H firm).map fun x => XR.log (1 + x) := by
        rw [d2.read (show f.buf < Hc.next from hfm), c2.read (show f.buf < Hb.next by show Ha.next < _; omega), b4]
      have he_m : He.read m = (argValue H market).map fun x => XR.log (1 + x) := by
        rw [← d4]
        unfold Heap.read
        rw [e2.2 m.buf (by omega)]
      have q1 : Hh.read o1.returns = (argValue H firm).map LrmesObj.pctLog := by
        rw [r1, i2.read (show f.buf < Hg.next from lt_of_lt_of_le hf_lt g2.next), g2.read hf_lt]
        have : Hf.read f = He.read f := by
          unfold Heap.read
          rw [f2.2 f.buf (by omega)]
        rw [this, e3, hd_f, List.map_map]
        rfl
      have q2 : Hh.read o2.returns = (argValue H market).map LrmesObj.pctLog := by
        rw [r2, i2.read hm_lt', g2.read hm_lt, f3, he_m, List.map_map]
        rfl
      unfold LrmesObj.new view newModel
      rw [if_neg (by simpa using hl), q1, q2, g5, g6, g7, g14, g15, i5, i6, i7, i14, i15]
      rfl
    · intro b i v hb
      have wr : ∀ r : Ref, H.next ≤ r.buf → (Hh.write b i v).read r = Hh.read r := by
        intro r hr
        unfold Heap.read
        rw [(Only.write Hh b i v).2 r.buf (by omega)]
      have vw : ∀ o : HGarch GjrVar, H.next ≤ o.returns.buf → H.next ≤ o.resids.buf → H.next ≤ o.sigma2.buf → o.bounds = none →
          view (Hh.write b i v) o = view Hh o := by
        intro o a1 a2 a3 a4
        unfold view
        rw [wr _ a1, wr _ a2, wr _ a3, a4]
        rfl
      exact ⟨vw o1 (by rw [r1]; exact nf) (kf.next.trans g8) (kf.next.trans g9) g15,
        vw o2 (by rw [r2]; exact nm) (kg.next.trans i8) (kg.next.trans i9) i15⟩
  · rw [start, if_pos (by rw [fl, ml]; exact hl)]
    exact ⟨untouched (n := 0) kd, rfl, hl⟩

/-! ### a program that meets the hypotheses -/

namespace HeapG

/-- an optimiser that evaluates its starting point once and reports success -/
def atStart : Optimizer (XR × GjrVar) := fun _ f x => ⟨[x], true, x, f x⟩

/-- memory with one array `[1, -1]` -/
def heap1 : Heap := ⟨fun _ i => if i = 0 then .fin 1 else .fin (-1), 1⟩

theorem demo (cpp : Bool) : ∃ (w1 w2 w3 : World GjrVar) (o o2 : HGarch GjrVar),
    Does (gjrFitH cpp atStart) ⟨heap1, []⟩ (.model (.float64 ⟨0, [0, 1]⟩) true) w1 ∧
    Runs (gjrFitH cpp atStart) w1 [.fit 0, .write 0 0 (.fin 3)] w2 ∧
    Does (gjrFitH cpp atStart) w2 (.model (.float64 ⟨0, [0, 1]⟩) true) w3 ∧
    w3.models = [o, o2] ∧ o.success = true ∧ o2.success = false ∧ o.zeroMean = o2.zeroMean ∧
    w3.heap.read o.returns = [.fin 3, .fin (-1)] ∧ w3.heap.read o2.returns = [.fin 3, .fin (-1)] ∧
    ∃ H' o' r, gjrFitH cpp atStart o2 w3.heap = (H', .ok (o', r)) ∧ o'.success = true := by
  have tot : ∀ (o : HGarch GjrVar) (H : Heap), Frds.HeapGarch.Valid o H → o.zeroMean = true → ∀ l : List ℝ, H.read o.returns = l.map XR.fin →
      (∃ r ∈ l, r ≠ 0) → ∃ H' o' r, gjrFitH cpp atStart o H = (H', .ok (o', r)) ∧ o'.success = true ∧ o'.returns = o.returns ∧
        o'.zeroMean = o.zeroMean := by
    intro o H hv hz l hl hr
    obtain ⟨oL, rL, hL⟩ := gjrFit_total cpp atStart (view H o) l hl (by
      show ∃ r ∈ prep o.zeroMean l, r ≠ 0
      rw [hz]; exact hr)
    obtain ⟨-, h⟩ := gjrFitOk cpp atStart o H hv
    have hsuc : oL.success = true := by
      obtain ⟨-, bc, vb, x0, run, he, -⟩ := C71_gjr_fit cpp atStart _ _ _ hL
      exact (he.success (by rw [he.run_eq]; rfl)).1
    rw [hL] at h
    rcases hg : gjrFitH cpp atStart o H with ⟨H', x | ⟨o', r⟩⟩
    · rw [hg] at h; exact h.elim
    · rw [hg] at h
      refine ⟨H', o', r, rfl, ?_, h.1.returns, h.1.zeroMean⟩
      have : (view H' o').success = oL.success := by rw [h.1.view]
      exact this.trans hsuc
  obtain ⟨H1, o1, a1, a2, a3, a4, a5, a6, a7, -⟩ := newH_ok (V := GjrVar) (.float64 ⟨0, [0, 1]⟩) true heap1 (by show 0 < 1; omega)
  have er : o1.returns = ⟨0, [0, 1]⟩ := by
    have := congrArg Prod.snd a4
    injection this with this; exact this.symm
  have m1 : Does (gjrFitH cpp atStart) ⟨heap1, []⟩ (.model (.float64 ⟨0, [0, 1]⟩) true) ⟨H1, [o1]⟩ :=
    .model _ _ _ _ _ (by show 0 < 1; omega) a1
  have rd1 : H1.read o1.returns = [1, -1].map XR.fin := by
    rw [er]
    unfold Heap.read
    rw [a2.cells 0 (by show 0 < 1; omega)]
    simp [heap1]
  obtain ⟨H2, o1', r1, b1, b2, b3, b4⟩ := tot o1 H1 a3 a5 [1, -1] rd1 ⟨1, by simp, by norm_num⟩
  have f1 : Does (gjrFitH cpp atStart) ⟨H1, [o1]⟩ (.fit 0) ⟨H2, [o1']⟩ := .fit ⟨H1, [o1]⟩ 0 o1 o1' H2 r1 rfl b1
  have v1 : ∀ o ∈ (⟨H1, [o1]⟩ : World GjrVar).models, Frds.HeapGarch.Valid o H1 := by
    intro o ho
    rw [List.mem_singleton.mp ho]; exact a3
  have s1 := does_spec (gjrFitOk cpp atStart) f1 v1
  have n2 : 0 < H2.next := lt_of_lt_of_le (lt_of_lt_of_le (by show 0 < 1; omega) a2.next) s1.2.1
  have w2 : Does (gjrFitH cpp atStart) ⟨H2, [o1']⟩ (.write 0 0 (.fin 3)) ⟨H2.write 0 0 (.fin 3), [o1']⟩ := .write ⟨H2, [o1']⟩ 0 0 _ n2
  have run : Runs (gjrFitH cpp atStart) ⟨H1, [o1]⟩ [.fit 0, .write 0 0 (.fin 3)] ⟨H2.write 0 0 (.fin 3), [o1']⟩ := .cons f1 (.cons w2 (.nil _))
  obtain ⟨H3, o2, c1, c2, c3, c4, c5, c6, c7, -⟩ := newH_ok (V := GjrVar) (.float64 ⟨0, [0, 1]⟩) true (H2.write 0 0 (.fin 3)) n2
  have er2 : o2.returns = ⟨0, [0, 1]⟩ := by
    have := congrArg Prod.snd c4
    injection this with this; exact this.symm
  have m2 : Does (gjrFitH cpp atStart) ⟨H2.write 0 0 (.fin 3), [o1']⟩ (.model (.float64 ⟨0, [0, 1]⟩) true) ⟨H3, [o1'] ++ [o2]⟩ :=
    .model _ _ _ _ _ n2 c1
  have rd3 : H3.read ⟨0, [0, 1]⟩ = [.fin 3, .fin (-1)] := by
    unfold Heap.read
    rw [c2.cells 0 n2]
    have h0 := s1.2.2 0 (lt_of_lt_of_le (by show 0 < 1; omega) a2.next)
    have h1 : H1.cells 0 = heap1.cells 0 := a2.cells 0 (by show 0 < 1; omega)
    have h2 : H2.cells 0 = heap1.cells 0 := by rw [← h1]; exact h0
    simp only [List.map_cons, List.map_nil, write_same, write_other H2 0 0 1 (.fin 3) (by omega), h2]
    simp [heap1]
  have e1 : o1'.returns = ⟨0, [0, 1]⟩ := b3.trans er
  obtain ⟨H4, o2', r2, d1, d2, -, -⟩ := tot o2 H3 c3 c5 [3, -1] (by rw [er2, rd3]; simp) ⟨3, by simp, by norm_num⟩
  exact ⟨_, _, _, o1', o2, m1, run, m2, rfl, b2, c6, by rw [b4, a5, c5], by rw [e1]; exact rd3, by rw [er2]; exact rd3, H4, o2', r2, d1, d2⟩

end HeapG

/-- the hypotheses of C182 and C183 are met by a program that fits a model, overwrites its data, and constructs a second model on the
same array: the refit of the first then has the parameters the second gets -/
example (cpp : Bool) : ∃ (w : World GjrVar) (es : List Event) (o o2 : HGarch GjrVar), Runs (gjrFitH cpp atStart) ⟨heap1, []⟩ es w ∧
    w.models = [o, o2] ∧ o.success = true ∧ o2.success = false ∧ w.heap.read o.returns = [.fin 3, .fin (-1)] ∧
    w.heap.read ⟨0, [0, 1]⟩ = [.fin 3, .fin (-1)] ∧
    ∃ H1 o' r H2 o2', gjrFitH cpp atStart o w.heap = (H1, .ok (o', some r)) ∧ gjrFitH cpp atStart o2 w.heap = (H2, .ok (o2', some r)) := by
  obtain ⟨w1, w2, w3, o, o2, h1, h2, h3, h4, h5, h6, h7, h8, h9, H2, o2', r2, h10, h11⟩ := demo cpp
  have run2 : ∀ {w1 w2 : World GjrVar} {es : List Event}, Runs (gjrFitH cpp atStart) w1 es w2 → ∀ {e w3}, Does (gjrFitH cpp atStart) w2 e w3 →
      Runs (gjrFitH cpp atStart) w1 (es ++ [e]) w3 := by
    intro w1 w2 es h
    induction h with
    | nil w => intro e w3 h; exact .cons h (.nil _)
    | cons h t ih => intro e w3 h'; exact .cons h (ih h')
  have run := run2 (.cons h1 h2) h3
  obtain ⟨H1, o', r, g1, g2, g3, g4, g5⟩ := (C183_gjr_refit_sees_new_data cpp atStart ⟨heap1, []⟩ w3 _ rfl run o o2 (by rw [h4]; simp)
    (by rw [h4]; simp) (by rw [h8, h9]) h7 h6).1 H2 o2' r2 h10 h11
  have hf := (C183_fit_uses_current_contents cpp (fun _ f x => ⟨[], true, x, f x⟩) atStart).2 ⟨heap1, []⟩ w3 _ rfl run o (by rw [h4]; simp)
  obtain ⟨p, hp⟩ : ∃ p, r = some p := by
    rw [g1] at hf
    unfold SameFit at hf
    cases hg : gjrFit cpp atStart (view w3.heap o) with
    | error e => rw [hg] at hf; exact hf.elim
    | ok q =>
      rw [hg] at hf
      have := (C71_gjr_fit cpp atStart _ q.1 q.2 hg).1
      exact ⟨_, hf.2.trans this⟩
  refine ⟨w3, _, o, o2, run, h4, h5, h6, h8, ?_, H1, o', p, H2, o2', ?_, ?_⟩
  · have := (C183_float64_is_shared cpp atStart ⟨heap1, []⟩ ⟨heap1, []⟩ w1 w3 [] _ true rfl (.nil _)).1 ⟨0, [0, 1]⟩ h1 (run2 h2 h3)
    obtain ⟨ox, k1, k2, -⟩ := this
    rw [h4] at k1
    cases k1
    rw [← k2]; exact h8
  · rw [g1, hp]
  · rw [h10, ← g4, hp]

/-- arguments of different lengths, and of the same length, for the LRMES constructor -/
example : ArgOk heap1 (.float64 ⟨0, [0, 1]⟩) ∧ (lrmesNewH (.float64 ⟨0, [0, 1]⟩) (.other [.fin 1]) heap1).2 = .error .assertionError := by
  refine ⟨by show 0 < 1; omega, ?_⟩
  have h := C183_lrmes_takes_snapshot heap1 (.float64 ⟨0, [0, 1]⟩) (.other [.fin 1]) (by show 0 < 1; omega) trivial
  cases hc : (lrmesNewH (.float64 ⟨0, [0, 1]⟩) (.other [.fin 1]) heap1).2 with
  | error e => rw [hc] at h; rw [h.2.1]
  | ok q =>
    rw [hc] at h
    have := h.2.1
    unfold LrmesObj.new at this
    rw [if_pos (by simp [argValue, Heap.read])] at this
    cases this

/-- an estimated GARCH model whose array is overwritten and which is then "fitted" again -/
example (cpp : Bool) (opt : Optimizer (XR × GarchVar)) : ∃ o : HGarch GarchVar, o.params = some (0, ⟨.fin 1, .fin 0, .fin 0⟩, 0) ∧
    Runs (garchFitH cpp opt) ⟨heap1, [o]⟩ [.write 0 0 (.fin 3), .fit 0] ⟨heap1.write 0 0 (.fin 3), [o]⟩ :=
  ⟨{ returns := ⟨0, [0, 1]⟩, zeroMean := true, success := true, params := some (0, ⟨.fin 1, .fin 0, .fin 0⟩, 0), resids := ⟨0, []⟩,
     sigma2 := ⟨0, []⟩ }, rfl,
   .cons (.write _ 0 0 _ (by show 0 < 1; omega)) (.cons (.fit _ 0 _ _ _ _ rfl rfl) (.nil _))⟩

/-- a strided view of the caller's array as residuals: `ewma` returns a new array with two elements -/
example : ∃ r, (ewmaH false ⟨0, [0, 4]⟩ (.fin 5) (.fin (1 / 2)) heap1).2 = .ok r ∧ r.buf = 1 ∧
    newArray heap1 (ewmaH false ⟨0, [0, 4]⟩ (.fin 5) (.fin (1 / 2)) heap1) = .ok [.fin 5, .fin 3] := by
  have h := ((C182_static_methods false heap1 ⟨0, [0, 4]⟩ (by show 0 < 1; omega)).1 (.fin 5) (.fin (1 / 2))).2
  refine ⟨⟨1, [0, 1]⟩, rfl, rfl, ?_⟩
  rw [h]
  unfold ewma
  rw [if_neg (by simp [Heap.read])]
  simp [Heap.read, heap1, ewmaLoopPy, XR.one_def, XR.sq]
  norm_num

end
end Frds.Props

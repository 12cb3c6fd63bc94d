import Verif.Model.CApi
import Mathlib.Data.List.GetD
import Mathlib.Algebra.Order.BigOperators.Group.List
import Mathlib.Tactic.Ring
import Mathlib.Tactic.Linarith

set_option linter.unusedSimpArgs false

/-! C168, C169: what the calls of the compiled kernels leave behind in memory. -/
namespace Frds.Props
open Frds.Model.CApi
namespace CApi

/-! ### heaps -/

theorem count_append_left {h e : Heap} {r : Ref} (hr : r < h.length) : count (h ++ e) r = count h r := by
  simp [count, List.getElem?_append_left hr]

theorem owns_append_left {h e : Heap} {r : Ref} (hr : r < h.length) : owns (h ++ e) r = owns h r := by
  simp [owns, List.getElem?_append_left hr]

theorem count_append_self {h e : Heap} {o : Obj} : count (h ++ o :: e) h.length = o.count := by
  simp [count]

theorem owns_append_self {h e : Heap} {o : Obj} : owns (h ++ o :: e) h.length = o.owns := by
  simp [owns]

theorem lt_of_count {h : Heap} {r : Ref} (hc : count h r ≠ 0) : r < h.length := by
  by_contra hr
  exact hc (by simp [count, List.getElem?_eq_none (not_lt.mp hr)])

theorem setCount_append_left {h e : Heap} {r : Ref} {n : ℕ} (hr : r < h.length) :
    setCount (h ++ e) r n = setCount h r n ++ e := by
  unfold setCount
  apply List.ext_getElem?
  intro i
  rw [List.getElem?_modify]
  by_cases hi : i < h.length
  · rw [List.getElem?_append_left hi, List.getElem?_append_left (by simpa using hi), List.getElem?_modify]
  · push Not at hi
    rw [List.getElem?_append_right hi, List.getElem?_append_right (by simpa using hi)]
    have : r ≠ i := ne_of_lt (lt_of_lt_of_le hr hi)
    simp [this]

theorem setCount_append_self {h e : Heap} {o : Obj} {n : ℕ} :
    setCount (h ++ o :: e) h.length n = h ++ { o with count := n } :: e := by
  unfold setCount
  apply List.ext_getElem?
  intro i
  rw [List.getElem?_modify]
  by_cases hi : i < h.length
  · rw [List.getElem?_append_left hi, List.getElem?_append_left hi]
    have : h.length ≠ i := by omega
    simp [this]
  · push Not at hi
    rw [List.getElem?_append_right hi, List.getElem?_append_right hi]
    by_cases h0 : h.length = i
    · simp [h0]
    · obtain ⟨k, hk⟩ : ∃ k, i - h.length = k + 1 := ⟨i - h.length - 1, by omega⟩
      simp [hk, h0]

theorem setCount_same {h : Heap} {r : Ref} : setCount h r (count h r) = h := by
  unfold setCount
  apply List.ext_getElem?
  intro i
  rw [List.getElem?_modify]
  by_cases hi : r = i
  · subst hi
    simp only [if_true, count]
    cases h[r]? with
    | none => rfl
    | some o => cases o; rfl
  · simp [hi]

theorem setCount_twice {h : Heap} {r : Ref} {m n : ℕ} : setCount (setCount h r m) r n = setCount h r n := by
  unfold setCount
  apply List.ext_getElem?
  intro i
  rw [List.getElem?_modify, List.getElem?_modify, List.getElem?_modify]
  by_cases hi : r = i
  · simp only [hi, if_true]
    cases h[i]? <;> rfl
  · simp [hi]

theorem length_setCount {h : Heap} {r : Ref} {n : ℕ} : (setCount h r n).length = h.length := by
  simp [setCount]

theorem count_setCount {h : Heap} {r s : Ref} {n : ℕ} (hr : r < h.length) :
    count (setCount h r n) s = if s = r then n else count h s := by
  unfold setCount count
  rw [List.getElem?_modify]
  by_cases hs : r = s
  · subst hs
    simp [List.getElem?_eq_getElem hr]
  · simp [hs, Ne.symm hs]

theorem owns_setCount {h : Heap} {r s : Ref} {n : ℕ} : owns (setCount h r n) s = owns h s := by
  unfold setCount owns
  rw [List.getElem?_modify]
  by_cases hs : r = s
  · subst hs; cases h[r]? <;> simp
  · simp [hs]

theorem count_le_total {h : Heap} {r : Ref} : count h r ≤ total h := by
  by_cases hr : r < h.length
  · have : h[r].count ∈ h.map Obj.count := List.mem_map.mpr ⟨_, List.getElem_mem hr, rfl⟩
    have h2 : count h r = h[r].count := by simp [count, List.getElem?_eq_getElem hr]
    rw [h2]
    exact List.single_le_sum (by simp) _ this
  · simp [count, List.getElem?_eq_none (not_lt.mp hr)]

theorem total_append {h e : Heap} : total (h ++ e) = total h + total e := by simp [total]

/-! ### the primitives -/

theorem decref_keep {h : Heap} {r : Ref} {n : ℕ} (hc : count h r = n + 2) :
    decref r h = some ((), setCount h r (n + 1)) := by
  unfold decref
  have : 0 < total h := lt_of_lt_of_le (by omega) (count_le_total (h := h) (r := r))
  obtain ⟨k, hk⟩ := Nat.exists_eq_succ_of_ne_zero this.ne'
  rw [hk]
  simp [release, hc]

theorem decref_free {h : Heap} {r : Ref} (hc : count h r = 1) (ho : owns h r = []) :
    decref r h = some ((), setCount h r 0) := by
  unfold decref
  have : 0 < total h := lt_of_lt_of_le (by omega) (count_le_total (h := h) (r := r))
  obtain ⟨k, hk⟩ := Nat.exists_eq_succ_of_ne_zero this.ne'
  rw [hk]
  simp [release, hc, ho]

/-- a freed object holding one reference, to an object that lives on -/
theorem decref_free1 {h : Heap} {r s : Ref} {n : ℕ} (hc : count h r = 1) (ho : owns h r = [s]) (hs : count h s = n + 2) :
    decref r h = some ((), setCount (setCount h r 0) s (n + 1)) := by
  have hrs : s ≠ r := by rintro rfl; omega
  have hr : r < h.length := lt_of_count (by omega)
  have h3 : 2 ≤ total h := le_trans (by omega) (count_le_total (h := h) (r := s))
  unfold decref
  obtain ⟨k, hk⟩ : ∃ k, total h = k + 2 := ⟨total h - 2, by omega⟩
  rw [hk]
  have : count (setCount h r 0) s = n + 2 := by rw [count_setCount hr, if_neg hrs, hs]
  simp [release, hc, ho, this]

theorem incref_ok {h : Heap} {r : Ref} (hc : count h r ≠ 0) :
    incref r h = some ((), setCount h r (count h r + 1)) := by
  simp [incref, hc]

/-- a borrowed reference taken and given back leaves the heap as it was -/
theorem inc_dec {h : Heap} {r : Ref} (hc : count h r ≠ 0) :
    decref r (setCount h r (count h r + 1)) = some ((), h) := by
  have hr := lt_of_count hc
  obtain ⟨n, hn⟩ := Nat.exists_eq_succ_of_ne_zero hc
  rw [decref_keep (n := n) (by rw [count_setCount hr, if_pos rfl, hn]), setCount_twice, ← Nat.succ_eq_add_one, ← hn,
    setCount_same]

/-- objects that have been freed -/
def Dead (e : Heap) : Prop := ∀ o ∈ e, o.count = 0

/-- the state of an item before the iteration: an existing item is alive -/
def ItemOk (h : Heap) : Item → Prop
  | .existing r => count h r ≠ 0
  | .fresh => True

theorem drain_ok (items : List Item) : ∀ (h : Heap) (e : Heap), Dead e → (∀ i ∈ items, ItemOk h i) →
    ∀ p o, ∃ d, Dead d ∧ drain items (setCount h p (count h p + 1) ++ o :: e) =
      some ((), setCount h p (count h p + 1) ++ o :: d) := by
  induction items with
  | nil => intro h e he _ p o; exact ⟨e, he, rfl⟩
  | cons i l ih =>
    intro h e he hi p o
    have hl := fun j hj => hi j (List.mem_cons_of_mem _ hj)
    have hi0 := hi i List.mem_cons_self
    cases i with
    | existing r =>
      obtain ⟨d, hd, hr⟩ := ih h e he hl p o
      refine ⟨d, hd, ?_⟩
      have hc : count (setCount h p (count h p + 1) ++ o :: e) r ≠ 0 := by
        have hr := lt_of_count hi0
        rw [count_append_left (by rw [length_setCount]; exact hr)]
        by_cases hp : p < h.length
        · rw [count_setCount hp]
          split_ifs
          · omega
          · exact hi0
        · have : setCount h p (count h p + 1) = h := by
            apply List.ext_getElem?
            intro i
            unfold setCount
            rw [List.getElem?_modify]
            by_cases hpi : p = i
            · subst hpi; simp [List.getElem?_eq_none (not_lt.mp hp)]
            · simp [hpi]
          rw [this]; exact hi0
      simp only [drain, iterNext, bind, StateT.bind, pure, StateT.pure, incref_ok hc, Option.bind, inc_dec hc]
      exact hr
    | fresh =>
      obtain ⟨d, hd, hr⟩ := ih h (e ++ [⟨0, []⟩]) (by
        intro x hx
        rcases List.mem_append.mp hx with hx | hx
        · exact he x hx
        · rw [List.mem_singleton.mp hx]) hl p o
      refine ⟨d, hd, ?_⟩
      set g := setCount h p (count h p + 1) ++ o :: e with hg
      have hf : decref g.length (g ++ [⟨1, []⟩]) = some ((), g ++ [⟨0, []⟩]) := by
        rw [decref_free (by rw [count_append_self]) (by rw [owns_append_self]), setCount_append_self]
      simp only [drain, iterNext, bind, StateT.bind, pure, StateT.pure, alloc, Option.bind]
      rw [hf]
      have : g ++ [⟨0, []⟩] = setCount h p (count h p + 1) ++ o :: (e ++ [⟨0, []⟩]) := by rw [hg]; simp
      simp only [this]
      exact hr

end CApi
open CApi

/-- the calls of the numerical kernels -/
inductive KernelCall where
  | ewma (parses memory : Bool)
  | boundsCheck (parses memory : Bool)
  | variance (c : VarianceCall)
  | dcc (parses memory : Bool)
  | simulation (parses : Bool) (event : Ref)

/-- the program of a call -/
def KernelCall.run : KernelCall → M (Option Ref)
  | .ewma p m => ewmaWrapper p m
  | .boundsCheck p m => boundsCheckWrapper p m
  | .variance c => varianceWrapper c
  | .dcc p m => dccWrapper p m
  | .simulation p e => simulationWrapper p e

/-- the objects the caller passes are alive -/
def KernelCall.ArgsAlive (h : Heap) : KernelCall → Prop
  | .variance c => count h c.params ≠ 0 ∧ ∀ r, Item.existing r ∈ c.items → count h r ≠ 0
  | .simulation _ e => count h e ≠ 0
  | _ => True

/-- calls that use a null pointer: the parameters of a variance kernel are not iterable; no memory for the result of
the DCC kernel -/
def KernelCall.UsesNull : KernelCall → Prop
  | .variance c => c.parses = true ∧ c.dims = true ∧ c.iterable = false
  | .dcc p m => p = true ∧ m = false
  | _ => False

/-- the heap afterwards is the heap before, and all objects created in between are gone -/
def NothingLeft (h h' : Heap) : Prop := ∃ d : Heap, h' = h ++ d ∧ ∀ o ∈ d, o.count = 0

namespace CApi

theorem drop_new {h e : Heap} : decref h.length (h ++ ⟨1, []⟩ :: e) = some ((), h ++ ⟨0, []⟩ :: e) := by
  rw [decref_free (by rw [count_append_self]) (by rw [owns_append_self]), setCount_append_self]

theorem simpleNew_drop {h : Heap} {m : Bool} :
    ∃ b h', callAndDrop (simpleNew m) h = some (b, h') ∧ NothingLeft h h' := by
  cases m with
  | false => exact ⟨false, h, rfl, [], by simp, by simp⟩
  | true =>
    refine ⟨true, h ++ [⟨0, []⟩], ?_, [⟨0, []⟩], rfl, by simp⟩
    simp only [callAndDrop, simpleNew, bind, StateT.bind, pure, StateT.pure, alloc, Option.bind, if_true, drop_new]

end CApi

/-- C168. A call of a compiled numerical kernel whose result is dropped leaves memory exactly as it was, on the success
path and on all error paths: no object survives and no reference count has changed; never is an object released that
is gone. (Calls that use a null pointer excepted, C168_null.) -/
theorem C168_balanced (c : KernelCall) (h : Heap) (ha : c.ArgsAlive h) (hn : ¬ c.UsesNull) :
    ∃ b h', callAndDrop c.run h = some (b, h') ∧ NothingLeft h h' := by
  have none_ok : ∀ f : M (Option Ref), f h = some (none, h) →
      ∃ b h', callAndDrop f h = some (b, h') ∧ NothingLeft h h' := by
    intro f hf
    exact ⟨false, h, by simp [callAndDrop, bind, StateT.bind, hf, pure, StateT.pure], [], by simp, by simp⟩
  cases c with
  | ewma p m =>
    cases p with
    | false => exact none_ok _ rfl
    | true =>
      obtain ⟨b, h', e, r⟩ := simpleNew_drop (h := h) (m := m)
      refine ⟨b, h', ?_, r⟩
      rw [← e]
      cases m <;> rfl
  | boundsCheck p m =>
    cases p with
    | false => exact none_ok _ rfl
    | true =>
      obtain ⟨b, h', e, r⟩ := simpleNew_drop (h := h) (m := m)
      exact ⟨b, h', e, r⟩
  | dcc p m =>
    cases p with
    | false => exact none_ok _ rfl
    | true =>
      obtain ⟨b, h', e, r⟩ := simpleNew_drop (h := h) (m := m)
      refine ⟨b, h', ?_, r⟩
      rw [← e]
      cases m with
      | false => exact absurd ⟨rfl, rfl⟩ hn
      | true => rfl
  | simulation p ev =>
    cases p with
    | false => exact none_ok _ rfl
    | true =>
      have hev : count h ev ≠ 0 := ha
      have hlt := lt_of_count hev
      obtain ⟨n, hc⟩ := Nat.exists_eq_succ_of_ne_zero hev
      refine ⟨true, h ++ [⟨0, []⟩, ⟨0, [h.length, ev]⟩], ?_, _, rfl, by simp⟩
      have h1 : count (h ++ [⟨1, []⟩]) ev ≠ 0 := by rw [count_append_left hlt]; exact hev
      have h2 : setCount (h ++ [⟨1, []⟩]) ev (count (h ++ [⟨1, []⟩]) ev + 1) = setCount h ev (n + 2) ++ [⟨1, []⟩] := by
        rw [setCount_append_left hlt, count_append_left hlt, hc]
      simp only [callAndDrop, KernelCall.run, simulationWrapper, bind, StateT.bind, pure, StateT.pure, alloc, Option.bind,
        not_true_eq_false, if_false, incref_ok h1, h2]
      have hlen : (setCount h ev (n + 2) ++ [(⟨1, []⟩ : Obj)]).length = h.length + 1 := by simp [length_setCount]
      rw [hlen]
      set g := setCount h ev (n + 2) with hg
      have hgl : g.length = h.length := length_setCount
      have hge : count g ev = n + 2 := by rw [hg, count_setCount hlt, if_pos rfl]
      have htot : total (g ++ [(⟨1, []⟩ : Obj)] ++ [⟨1, [h.length, ev]⟩]) = total g + 2 := by
        simp [total, List.map_append, List.sum_append]
      have htg : 2 ≤ total g := le_trans (by omega) (count_le_total (h := g) (r := ev))
      obtain ⟨k, hk⟩ : ∃ k, total g + 2 = k + 3 := ⟨total g - 1, by omega⟩
      unfold decref
      rw [htot, hk]
      have c1 : count (g ++ [(⟨1, []⟩ : Obj)] ++ [⟨1, [h.length, ev]⟩]) (h.length + 1) = 1 := by
        rw [← hgl, show g.length + 1 = (g ++ [(⟨1, []⟩ : Obj)]).length by simp, count_append_self]
      have o1 : owns (g ++ [(⟨1, []⟩ : Obj)] ++ [⟨1, [h.length, ev]⟩]) (h.length + 1) = [h.length, ev] := by
        rw [← hgl, show g.length + 1 = (g ++ [(⟨1, []⟩ : Obj)]).length by simp, owns_append_self]
      have s1 : setCount (g ++ [(⟨1, []⟩ : Obj)] ++ [⟨1, [h.length, ev]⟩]) (h.length + 1) 0
          = g ++ ⟨1, []⟩ :: [⟨0, [h.length, ev]⟩] := by
        rw [← hgl, show g.length + 1 = (g ++ [(⟨1, []⟩ : Obj)]).length by simp, setCount_append_self]
        simp
      have c2 : count (g ++ ⟨1, []⟩ :: [⟨0, [h.length, ev]⟩]) h.length = 1 := by rw [← hgl, count_append_self]
      have o2 : owns (g ++ ⟨1, []⟩ :: [⟨0, [h.length, ev]⟩]) h.length = [] := by
        rw [← hgl, owns_append_self]
      have s2 : setCount (g ++ ⟨1, []⟩ :: [⟨0, [h.length, ev]⟩]) h.length 0
          = g ++ ⟨0, []⟩ :: [⟨0, [h.length, ev]⟩] := by
        conv_lhs => rw [← hgl]
        rw [setCount_append_self, hgl]
      have c3 : count (g ++ ⟨0, []⟩ :: [⟨0, [h.length, ev]⟩]) ev = n + 2 := by
        rw [count_append_left (by rw [hgl]; exact hlt), hge]
      have s3 : setCount (g ++ ⟨0, []⟩ :: [⟨0, [h.length, ev]⟩]) ev (n + 1) = h ++ ⟨0, []⟩ :: [⟨0, [h.length, ev]⟩] := by
        rw [setCount_append_left (by rw [hgl]; exact hlt), hg, setCount_twice, ← Nat.succ_eq_add_one, ← hc, setCount_same]
      simp only [release, c1, o1, s1, List.cons_append, List.nil_append, c2, o2, s2, c3, s3, Option.map_some]
  | variance c =>
    cases hp : c.parses with
    | false => exact none_ok _ (by simp [KernelCall.run, varianceWrapper, hp, pure, StateT.pure])
    | true =>
      cases hd : c.dims with
      | false => exact none_ok _ (by simp [KernelCall.run, varianceWrapper, hp, hd, pure, StateT.pure])
      | true =>
        cases hi : c.iterable with
        | false => exact absurd ⟨hp, hd, hi⟩ hn
        | true =>
          obtain ⟨hpar, hit⟩ : count h c.params ≠ 0 ∧ ∀ r, Item.existing r ∈ c.items → count h r ≠ 0 := ha
          have hlt := lt_of_count hpar
          obtain ⟨n, hc⟩ := Nat.exists_eq_succ_of_ne_zero hpar
          obtain ⟨d, hdead, hdr⟩ := drain_ok c.items h [] (by simp [Dead]) (by
            intro i hi
            cases i with
            | existing r => exact hit r hi
            | fresh => trivial) c.params ⟨1, [c.params]⟩
          set g := setCount h c.params (count h c.params + 1) with hg
          have hgl : g.length = h.length := length_setCount
          have hge : count g c.params = n + 2 := by rw [hg, count_setCount hlt, if_pos rfl, hc]
          have hdec : decref g.length (g ++ ⟨1, [c.params]⟩ :: d) = some ((), h ++ ⟨0, [c.params]⟩ :: d) := by
            rw [decref_free1 (s := c.params) (n := n) (by rw [count_append_self]) (by rw [owns_append_self])
              (by rw [count_append_left (by rw [hgl]; exact hlt), hge]), setCount_append_self,
              setCount_append_left (by rw [hgl]; exact hlt), hg, setCount_twice, ← Nat.succ_eq_add_one, ← hc,
              setCount_same]
          obtain ⟨b, h', e, e', rfl, hde⟩ := simpleNew_drop (h := h ++ ⟨0, [c.params]⟩ :: d) (m := c.memory)
          refine ⟨b, h ++ ⟨0, [c.params]⟩ :: d ++ e', ?_, (⟨0, [c.params]⟩ :: d) ++ e', by simp, ?_⟩
          · rw [← e]
            simp only [callAndDrop, KernelCall.run, varianceWrapper, hp, hd, hi, getIter, bind, StateT.bind, pure,
              StateT.pure, not_true_eq_false, if_false, if_true, incref_ok hpar, Option.bind, alloc, ← hg]
            rw [hdr]
            simp only
            rw [hdec]
            cases c.memory <;> rfl
          · intro o ho
            rcases List.mem_append.mp ho with ho | ho
            · rcases List.mem_cons.mp ho with rfl | ho
              · rfl
              · exact hdead o ho
            · exact hde o ho

/-- C168. The only calls with undefined behaviour: a variance kernel with parameters that are not iterable, and the DCC
kernel when no memory is left. -/
theorem C168_null (c : KernelCall) (h : Heap) (ha : c.ArgsAlive h) :
    callAndDrop c.run h = none ↔ c.UsesNull := by
  constructor
  · intro hx
    by_contra hn
    obtain ⟨b, h', e, _⟩ := C168_balanced c h ha hn
    rw [hx] at e; cases e
  · intro hn
    cases c with
    | variance c =>
      obtain ⟨hp, hd, hi⟩ := hn
      simp [callAndDrop, KernelCall.run, varianceWrapper, hp, hd, hi, getIter, bind, StateT.bind, pure, StateT.pure,
        undefined]
    | dcc p m =>
      obtain ⟨rfl, rfl⟩ := hn
      rfl
    | ewma _ _ => exact absurd hn (by simp [KernelCall.UsesNull])
    | boundsCheck _ _ => exact absurd hn (by simp [KernelCall.UsesNull])
    | simulation _ _ => exact absurd hn (by simp [KernelCall.UsesNull])

/-- run a history of calls, each result dropped -/
def runKernels : List KernelCall → M Unit
  | [] => pure ()
  | c :: l => do
    let _ ← callAndDrop c.run
    runKernels l

/-- C168. However many estimations are run, memory is what it was before them. -/
theorem C168_history (l : List KernelCall) (h : Heap) (ha : ∀ c ∈ l, c.ArgsAlive h) (hn : ∀ c ∈ l, ¬ c.UsesNull) :
    ∃ h', runKernels l h = some ((), h') ∧ NothingLeft h h' := by
  have alive_mono : ∀ (c : KernelCall) (h d : Heap), c.ArgsAlive h → c.ArgsAlive (h ++ d) := by
    intro c h d hc
    have key : ∀ r, count h r ≠ 0 → count (h ++ d) r ≠ 0 := fun r hr => by
      rw [count_append_left (lt_of_count hr)]; exact hr
    cases c with
    | variance c => exact ⟨key _ hc.1, fun r hr => key _ (hc.2 r hr)⟩
    | simulation p e => exact key _ hc
    | _ => trivial
  induction l generalizing h with
  | nil => exact ⟨h, rfl, [], by simp, by simp⟩
  | cons c l ih =>
    obtain ⟨b, h1, e1, d, rfl, hd⟩ := C168_balanced c h (ha c List.mem_cons_self) (hn c List.mem_cons_self)
    obtain ⟨h2, e2, d2, rfl, hd2⟩ := ih (h ++ d)
      (fun c' hc' => alive_mono c' h d (ha c' (List.mem_cons_of_mem _ hc'))) (fun c' hc' => hn c' (List.mem_cons_of_mem _ hc'))
    refine ⟨h ++ d ++ d2, ?_, d ++ d2, by simp, fun o ho => (List.mem_append.mp ho).elim (hd o) (hd2 o)⟩
    simp only [runKernels, bind, StateT.bind, e1, Option.bind]
    exact e2

/-! ### C169: the isolation forest -/

/-- number of objects alive -/
def alive (h : Heap) : ℕ := (h.filter fun o => o.count ≠ 0).length

namespace CApi

theorem storeScores_ok (n : ℕ) : ∀ h : Heap, storeScores n h = some ((), h ++ List.replicate n ⟨1, []⟩) := by
  induction n with
  | zero => intro h; simp [storeScores, pure, StateT.pure]
  | succ n ih =>
    intro h
    simp only [storeScores, bind, StateT.bind, alloc, Option.bind]
    rw [ih]
    simp [List.replicate_succ]

/-- the heap with additional references -/
def bump (h : Heap) (f : Ref → ℕ) : Heap := h.mapIdx fun i o => { o with count := o.count + f i }

/-- one more reference to `o` -/
def inc (f : Ref → ℕ) (o : Ref) : Ref → ℕ := fun r => if r = o then f r + 1 else f r

theorem inc_comm (f : Ref → ℕ) (a b : Ref) : inc (inc f a) b = inc (inc f b) a := by
  funext r
  simp only [inc]
  split_ifs <;> omega

theorem length_bump {h : Heap} {f : Ref → ℕ} : (bump h f).length = h.length := by simp [bump]

theorem count_bump {h : Heap} {f : Ref → ℕ} {r : Ref} (hr : r < h.length) : count (bump h f) r = count h r + f r := by
  simp [count, bump, List.getElem?_eq_getElem hr]

theorem bump_zero {h : Heap} : bump h (fun _ => 0) = h := by
  unfold bump
  apply List.ext_getElem (by simp)
  intro i h1 h2
  simp

theorem setCount_bump {h : Heap} {f : Ref → ℕ} {o : Ref} :
    setCount (bump h f) o (count (bump h f) o + 1) = bump h (inc f o) := by
  apply List.ext_getElem?
  intro i
  unfold setCount
  rw [List.getElem?_modify]
  by_cases hi : i < h.length
  · simp only [bump, List.getElem?_mapIdx, List.getElem?_eq_getElem hi, Option.map_some, inc, count]
    by_cases ho : o = i
    · subst ho
      simp [List.getElem?_eq_getElem hi]; omega
    · simp [ho, Ne.symm ho]
  · simp [bump, List.getElem?_eq_none (not_lt.mp hi)]

theorem setCount_unbump {h : Heap} {f : Ref → ℕ} {o : Ref} (ho : o < h.length) :
    setCount (bump h (inc f o)) o (count h o + f o) = bump h f := by
  rw [← setCount_bump, setCount_twice, ← count_bump ho, setCount_same]

/-- the objects a conversion creates, with the given count -/
def made (o : Ref) (c : Convert) (n : ℕ) : Heap :=
  match c with
  | .fails => []
  | .asIs => []
  | .copy false => [⟨n, []⟩]
  | .copy true => [⟨n, [o]⟩]

/-- the references to existing objects a conversion takes -/
def taken (o : Ref) (c : Convert) (f : Ref → ℕ) : Ref → ℕ :=
  match c with
  | .fails => f
  | .asIs => inc f o
  | .copy false => f
  | .copy true => inc f o

/-- the resulting pointer when `k` objects exist -/
def ptr (o : Ref) (c : Convert) (k : ℕ) : Ref :=
  match c with
  | .fails => o
  | .asIs => o
  | .copy _ => k

theorem taken_comm (a b : Ref) (c d : Convert) (f : Ref → ℕ) : taken a c (taken b d f) = taken b d (taken a c f) := by
  rcases c with _ | _ | (_ | _) <;> rcases d with _ | _ | (_ | _) <;> simp [taken, inc_comm]

theorem fromOtf_ok {h : Heap} {f : Ref → ℕ} {e : Heap} {o : Ref} {c : Convert} (ho : count h o ≠ 0) (hc : c ≠ .fails) :
    fromOtf o c (bump h f ++ e) =
      some (some (ptr o c (h.length + e.length)), bump h (taken o c f) ++ (e ++ made o c 1)) := by
  have hlt := lt_of_count ho
  have hb : o < (bump h f).length := by rw [length_bump]; exact hlt
  have hne : count (bump h f ++ e) o ≠ 0 := by rw [count_append_left hb, count_bump hlt]; omega
  have hset : setCount (bump h f ++ e) o (count (bump h f ++ e) o + 1) = bump h (inc f o) ++ e := by
    rw [setCount_append_left hb, count_append_left hb, setCount_bump]
  rcases c with _ | _ | (_ | _)
  · exact absurd rfl hc
  · simp only [fromOtf, bind, StateT.bind, pure, StateT.pure, incref_ok hne, hset, Option.bind, ptr, taken, made,
      List.append_nil]
  · simp only [fromOtf, bind, StateT.bind, pure, StateT.pure, alloc, Option.bind, ptr, taken, made, List.length_append,
      length_bump, List.append_assoc]
  · simp only [fromOtf, bind, StateT.bind, pure, StateT.pure, incref_ok hne, hset, alloc, Option.bind, ptr, taken, made,
      List.length_append, length_bump, List.append_assoc]

theorem decref_ok {h : Heap} {f : Ref → ℕ} {pre post : Heap} {o : Ref} {c : Convert} (ho : count h o ≠ 0)
    (hc : c ≠ .fails) :
    decref (ptr o c (h.length + pre.length)) (bump h (taken o c f) ++ (pre ++ made o c 1 ++ post)) =
      some ((), bump h f ++ (pre ++ made o c 0 ++ post)) := by
  have hlt := lt_of_count ho
  obtain ⟨n, hn⟩ := Nat.exists_eq_succ_of_ne_zero ho
  have hb : ∀ g, o < (bump h g).length := fun g => by rw [length_bump]; exact hlt
  have hci : count (bump h (inc f o)) o = (n + f o) + 2 := by
    rw [count_bump hlt, hn]; simp [inc]; omega
  have hun : setCount (bump h (inc f o)) o (n + f o + 1) = bump h f := by
    rw [← setCount_unbump hlt (f := f), hn]; congr 1; omega
  rcases c with _ | _ | (_ | _)
  · exact absurd rfl hc
  · simp only [ptr, taken, made, List.append_nil]
    rw [decref_keep (by rw [count_append_left (hb _), hci]), setCount_append_left (hb _), hun]
  · simp only [ptr, taken, made]
    have hlen : h.length + pre.length = (bump h f ++ pre).length := by simp [length_bump]
    have hre : ∀ x : Obj, bump h f ++ (pre ++ [x] ++ post) = (bump h f ++ pre) ++ x :: post := by intro x; simp
    rw [hlen, hre, hre, decref_free (by rw [count_append_self]) (by rw [owns_append_self]), setCount_append_self]
  · simp only [ptr, taken, made]
    have hlen : h.length + pre.length = (bump h (inc f o) ++ pre).length := by simp [length_bump]
    have hre : ∀ g (x : Obj), bump h g ++ (pre ++ [x] ++ post) = (bump h g ++ pre) ++ x :: post := by intro g x; simp
    have hs : ∀ x : Obj, count (bump h (inc f o) ++ (pre ++ [x] ++ post)) o = (n + f o) + 2 := by
      intro x; rw [count_append_left (hb _), hci]
    have h0 : setCount (bump h (inc f o) ++ (pre ++ [(⟨1, [o]⟩ : Obj)] ++ post)) (bump h (inc f o) ++ pre).length 0 =
        bump h (inc f o) ++ (pre ++ [⟨0, [o]⟩] ++ post) := by
      rw [hre, setCount_append_self, hre]
    rw [hlen, decref_free1 (s := o) (n := n + f o) (by rw [hre, count_append_self]) (by rw [hre, owns_append_self]) (hs _),
      h0, setCount_append_left (hb _), hun]

end CApi

/-- the objects passed to `ext.iforest` are alive -/
def ForestAlive (h : Heap) (c : ForestCall) : Prop :=
  count h c.num ≠ 0 ∧ count h c.char ≠ 0 ∧ count h c.out ≠ 0 ∧ count h c.none_ ≠ 0

/-- the call reaches the end -/
def ForestSucceeds (c : ForestCall) : Prop :=
  c.parses = true ∧ c.numArr ≠ .fails ∧ c.charArr ≠ .fails ∧ c.outArr ≠ .fails

namespace CApi

theorem alive_append (h e : Heap) : alive (h ++ e) = alive h + alive e := by simp [alive]

theorem alive_made (o : Ref) (c : Convert) : alive (made o c 0) = 0 := by
  rcases c with _ | _ | (_ | _) <;> simp [alive, made]

theorem alive_replicate (n : ℕ) : alive (List.replicate n (⟨1, []⟩ : Obj)) = n := by
  unfold alive
  rw [List.filter_eq_self.mpr]
  · simp
  · intro a ha
    rw [List.eq_of_mem_replicate ha]
    simp

theorem made_dead {o : Ref} {c : Convert} : ∀ x ∈ made o c 0, x.count = 0 := by
  rcases c with _ | _ | (_ | _) <;> simp [made]

theorem run_bind {α β : Type} {f : M α} {g : α → M β} {h h' : Heap} {a : α} (e : f h = some (a, h')) :
    (f >>= g) h = g a h' := by
  simp only [bind, StateT.bind, Option.bind, e]

theorem drop_none {f : M (Option Ref)} {h h' : Heap} (e : f h = some (none, h')) :
    callAndDrop f h = some (false, h') := by
  unfold callAndDrop
  rw [run_bind e]; rfl

theorem drop_some {f : M (Option Ref)} {h h1 h2 : Heap} {r : Ref} (e : f h = some (some r, h1))
    (d : decref r h1 = some ((), h2)) : callAndDrop f h = some (true, h2) := by
  unfold callAndDrop
  rw [run_bind e]
  show (decref r >>= _) h1 = _
  rw [run_bind d]; rfl

/-- the calls a successful run makes -/
theorem iforest_steps {c : ForestCall} {h h1 h2 h3 h4 h5 h6 h7 h8 : Heap} {n t o : Ref} (hp : c.parses = true)
    (e1 : fromOtf c.num c.numArr h = some (some n, h1)) (e2 : fromOtf c.char c.charArr h1 = some (some t, h2))
    (e3 : fromOtf c.out c.outArr h2 = some (some o, h3)) (e4 : storeScores c.nObs h3 = some ((), h4))
    (e5 : decref n h4 = some ((), h5)) (e6 : decref t h5 = some ((), h6)) (e7 : decref o h6 = some ((), h7))
    (e8 : incref c.none_ h7 = some ((), h8)) : iforestWrapper c h = some (some c.none_, h8) := by
  unfold iforestWrapper
  rw [if_neg (by simp [hp]), run_bind e1]
  show (fromOtf c.char c.charArr >>= _) h1 = _
  rw [run_bind e2]
  show (fromOtf c.out c.outArr >>= _) h2 = _
  rw [run_bind e3]
  show (storeScores c.nObs >>= _) h3 = _
  rw [run_bind e4, run_bind e5, run_bind e6, run_bind e7, run_bind e8]; rfl

/-- the calls of a run that fails at the text array -/
theorem iforest_steps_char {c : ForestCall} {h h1 h2 : Heap} {n : Ref} (hp : c.parses = true)
    (e1 : fromOtf c.num c.numArr h = some (some n, h1)) (e2 : fromOtf c.char c.charArr h1 = some (none, h2)) :
    iforestWrapper c h = some (none, h2) := by
  unfold iforestWrapper
  rw [if_neg (by simp [hp]), run_bind e1]
  show (fromOtf c.char c.charArr >>= _) h1 = _
  rw [run_bind e2]; rfl

/-- the calls of a run that fails at the output array -/
theorem iforest_steps_out {c : ForestCall} {h h1 h2 h3 h4 h5 : Heap} {n t : Ref} (hp : c.parses = true)
    (e1 : fromOtf c.num c.numArr h = some (some n, h1)) (e2 : fromOtf c.char c.charArr h1 = some (some t, h2))
    (e3 : fromOtf c.out c.outArr h2 = some (none, h3)) (e5 : decref n h3 = some ((), h4))
    (e6 : decref t h4 = some ((), h5)) : iforestWrapper c h = some (none, h5) := by
  unfold iforestWrapper
  rw [if_neg (by simp [hp]), run_bind e1]
  show (fromOtf c.char c.charArr >>= _) h1 = _
  rw [run_bind e2]
  show (fromOtf c.out c.outArr >>= _) h2 = _
  rw [run_bind e3]
  show (decref n >>= _) h3 = _
  rw [run_bind e5]
  show (decref t >>= _) h4 = _
  rw [run_bind e6]; rfl

theorem length_made (o : Ref) (c : Convert) (m n : ℕ) : (made o c m).length = (made o c n).length := by
  rcases c with _ | _ | (_ | _) <;> rfl

/-- the final heap of a successful call -/
theorem iforest_heap (c : ForestCall) (h : Heap) (ha : ForestAlive h c) (hs : ForestSucceeds c) :
    callAndDrop (iforestWrapper c) h = some (true,
      h ++ (made c.num c.numArr 0 ++ made c.char c.charArr 0 ++ made c.out c.outArr 0 ++
        List.replicate c.nObs ⟨1, []⟩)) := by
  obtain ⟨a1, a2, a3, a4⟩ := ha
  obtain ⟨hp, s1, s2, s3⟩ := hs
  have hb : h = bump h (fun _ => 0) ++ [] := by rw [bump_zero]; simp
  have e1 := fromOtf_ok (f := fun _ => 0) (e := []) a1 s1
  rw [← hb] at e1
  have e2 := fromOtf_ok (f := taken c.num c.numArr fun _ => 0) (e := [] ++ made c.num c.numArr 1) a2 s2
  have e3 := fromOtf_ok (f := taken c.char c.charArr (taken c.num c.numArr fun _ => 0))
    (e := [] ++ made c.num c.numArr 1 ++ made c.char c.charArr 1) a3 s3
  have e4 := storeScores_ok c.nObs (bump h (taken c.out c.outArr (taken c.char c.charArr (taken c.num c.numArr fun _ => 0)))
    ++ ([] ++ made c.num c.numArr 1 ++ made c.char c.charArr 1 ++ made c.out c.outArr 1))
  have e5 := decref_ok (pre := []) (f := taken c.char c.charArr (taken c.out c.outArr fun _ => 0))
    (post := made c.char c.charArr 1 ++ made c.out c.outArr 1 ++ List.replicate c.nObs ⟨1, []⟩) a1 s1
  have e6 := decref_ok (pre := made c.num c.numArr 0) (f := taken c.out c.outArr fun _ => 0)
    (post := made c.out c.outArr 1 ++ List.replicate c.nObs ⟨1, []⟩) a2 s2
  have e7 := decref_ok (pre := made c.num c.numArr 0 ++ made c.char c.charArr 0) (f := fun _ => 0)
    (post := List.replicate c.nObs ⟨1, []⟩) a3 s3
  rw [show taken c.out c.outArr (taken c.char c.charArr (taken c.num c.numArr fun _ => 0))
      = taken c.num c.numArr (taken c.char c.charArr (taken c.out c.outArr fun _ => 0)) by
    rw [taken_comm c.char, taken_comm c.out, taken_comm c.out]] at e3 e4
  rw [length_made c.num c.numArr 0 1] at e6
  rw [List.length_append, length_made c.num c.numArr 0 1, length_made c.char c.charArr 0 1] at e7
  rw [bump_zero] at e7
  simp only [List.nil_append, List.append_assoc, List.length_append] at e1 e2 e3 e4 e5 e6 e7
  have hne : count (h ++ (made c.num c.numArr 0 ++ (made c.char c.charArr 0 ++ (made c.out c.outArr 0 ++
      List.replicate c.nObs ⟨1, []⟩)))) c.none_ ≠ 0 := by
    rw [count_append_left (lt_of_count a4)]; exact a4
  have e8 := incref_ok hne
  refine drop_some (iforest_steps hp e1 e2 e3 e4 e5 e6 e7 e8) ?_
  rw [inc_dec hne]; simp

end CApi

/-- C169. Every successful call of the isolation forest extension leaves one float object per row behind: after the
result is dropped, all objects that existed before have the reference counts they had before, exactly `nObs` additional
objects are alive, and nothing refers to them, so that nobody can release them. -/
theorem C169_leak (c : ForestCall) (h : Heap) (ha : ForestAlive h c) (hs : ForestSucceeds c)
    (hwf : ∀ o ∈ h, ∀ r ∈ o.owns, r < h.length) :
    ∃ h', callAndDrop (iforestWrapper c) h = some (true, h') ∧ alive h' = alive h + c.nObs ∧
      (∃ e, h' = h ++ e) ∧ ∀ o ∈ h', o.count ≠ 0 → ∀ r ∈ o.owns, r < h.length := by
  refine ⟨_, iforest_heap c h ha hs, ?_, ⟨_, rfl⟩, ?_⟩
  · simp only [alive_append, alive_made, alive_replicate]; omega
  · intro o ho h0 r hr
    simp only [List.mem_append] at ho
    rcases ho with ho | ((ho | ho) | ho) | ho
    · exact hwf o ho r hr
    · exact absurd (made_dead o ho) h0
    · exact absurd (made_dead o ho) h0
    · exact absurd (made_dead o ho) h0
    · rw [List.eq_of_mem_replicate ho] at hr; simp at hr

/-- a history of calls of the isolation forest -/
def runForests : List ForestCall → M Unit
  | [] => pure ()
  | c :: l => do
    let _ ← callAndDrop (iforestWrapper c)
    runForests l

/-- C169. Memory grows without bound: after any history of successful calls as many additional objects are alive as
rows were scored in total. -/
theorem C169_history (l : List ForestCall) (h : Heap) (ha : ∀ c ∈ l, ForestAlive h c) (hs : ∀ c ∈ l, ForestSucceeds c) :
    ∃ h', runForests l h = some ((), h') ∧ alive h' = alive h + (l.map ForestCall.nObs).sum ∧
      ∀ r < h.length, count h' r = count h r := by
  induction l generalizing h with
  | nil => exact ⟨h, rfl, by simp, fun _ _ => rfl⟩
  | cons c l ih =>
    have e1 := iforest_heap c h (ha c List.mem_cons_self) (hs c List.mem_cons_self)
    set e := made c.num c.numArr 0 ++ made c.char c.charArr 0 ++ made c.out c.outArr 0 ++
      List.replicate c.nObs (⟨1, []⟩ : Obj) with he
    have key : ∀ r, count h r ≠ 0 → count (h ++ e) r ≠ 0 := fun r hr => by
      rw [count_append_left (lt_of_count hr)]; exact hr
    obtain ⟨h', e2, h3, h4⟩ := ih (h ++ e) (fun c' hc' => by
      obtain ⟨p1, p2, p3, p4⟩ := ha c' (List.mem_cons_of_mem _ hc')
      exact ⟨key _ p1, key _ p2, key _ p3, key _ p4⟩) (fun c' hc' => hs c' (List.mem_cons_of_mem _ hc'))
    refine ⟨h', ?_, ?_, ?_⟩
    · simp only [runForests, bind, StateT.bind, e1, Option.bind]
      exact e2
    · rw [h3, List.map_cons, List.sum_cons, alive_append, he]
      simp only [alive_append, alive_made, alive_replicate]; omega
    · intro r hr
      rw [h4 r (by rw [List.length_append]; omega), count_append_left hr]

/-- C169. A call that fails because the text array cannot be converted keeps a reference to the numeric array forever
(to its copy, if it had to be converted); a call that fails later or earlier leaves nothing behind. -/
theorem C169_failures (c : ForestCall) (h : Heap) (ha : ForestAlive h c) :
    (c.parses = true → c.numArr ≠ .fails → c.charArr = .fails →
      ∃ h', callAndDrop (iforestWrapper c) h = some (false, h') ∧
        (c.numArr = .asIs → count h' c.num = count h c.num + 1 ∧ alive h' = alive h) ∧
        (c.numArr ≠ .asIs → alive h' = alive h + 1)) ∧
    (c.parses = false ∨ c.numArr = .fails ∨ (c.charArr ≠ .fails ∧ c.outArr = .fails) →
      ∃ h', callAndDrop (iforestWrapper c) h = some (false, h') ∧ NothingLeft h h') := by
  obtain ⟨a1, a2, a3, a4⟩ := ha
  have hb : h = bump h (fun _ => 0) ++ [] := by rw [bump_zero]; simp
  have alive_bump : ∀ o, count h o ≠ 0 → alive (bump h (inc (fun _ => 0) o)) = alive h := by
    intro o ho
    unfold alive bump
    have : ∀ (g : Heap) (k : ℕ), (∀ i, i + k = o → count g i ≠ 0) →
        ((g.mapIdx fun i (x : Obj) => ({ x with count := x.count + inc (fun _ => 0) o (i + k) } : Obj)).filter
          fun x => x.count ≠ 0).length = (g.filter fun x => x.count ≠ 0).length := by
      intro g
      induction g with
      | nil => intro k _; simp
      | cons x g ih =>
        intro k hk
        have ih' := ih (k + 1) (fun i hi => by
          have := hk (i + 1) (by rw [← hi, Nat.add_assoc, Nat.add_comm 1 k])
          simpa [count] using this)
        simp only [List.mapIdx_cons, List.filter_cons, Nat.zero_add]
        have e1 : (fun i (x : Obj) => ({ x with count := x.count + inc (fun _ => 0) o (i + 1 + k) } : Obj))
            = fun i (x : Obj) => ({ x with count := x.count + inc (fun _ => 0) o (i + (k + 1)) } : Obj) := by
          funext i x; rw [Nat.add_assoc i 1 k, Nat.add_comm 1 k]
        by_cases hko : k = o
        · have hx : x.count ≠ 0 := by simpa [count] using hk 0 (by rw [Nat.zero_add]; exact hko)
          rw [if_pos (by simp [hx]), if_pos (by simp [hx]), List.length_cons, List.length_cons, e1, ih']
        · have : inc (fun _ => 0) o k = 0 := by simp [inc, hko]
          rw [this]
          by_cases hx : x.count = 0
          · rw [if_neg (by simp [hx]), if_neg (by simp [hx]), e1, ih']
          · rw [if_pos (by simp [hx]), if_pos (by simp [hx]), List.length_cons, List.length_cons, e1, ih']
    simpa using this h 0 (fun i hi => by rw [← Nat.add_zero i, hi]; exact ho)
  constructor
  · intro hp s1 hc
    have e : callAndDrop (iforestWrapper c) h =
        some (false, bump h (taken c.num c.numArr fun _ => 0) ++ made c.num c.numArr 1) := by
      have e1 := fromOtf_ok (f := fun _ => 0) (e := []) a1 s1
      rw [← hb] at e1
      simp only [List.nil_append] at e1
      exact drop_none (iforest_steps_char hp e1 (by rw [hc]; rfl))
    refine ⟨_, e, ?_, ?_⟩
    · intro hx
      rw [hx]
      simp only [taken, made, List.append_nil]
      have hlt := lt_of_count a1
      refine ⟨by rw [count_bump hlt]; simp [inc], alive_bump _ a1⟩
    · intro hx
      rcases hn : c.numArr with _ | _ | (_ | _)
      · exact absurd hn s1
      · exact absurd hn hx
      · simp [taken, made, bump_zero, alive]
      · simp only [taken, made, alive_append, alive_bump _ a1]
        simp [alive]
  · intro hcase
    rcases hp : c.parses with _ | _
    · exact ⟨h, by simp [callAndDrop, iforestWrapper, hp, bind, StateT.bind, pure, StateT.pure], [], by simp, by simp⟩
    · by_cases s1 : c.numArr = .fails
      · exact ⟨h, by simp [callAndDrop, iforestWrapper, hp, s1, fromOtf, bind, StateT.bind, pure, StateT.pure], [],
          by simp, by simp⟩
      · obtain ⟨s2, s3⟩ : c.charArr ≠ .fails ∧ c.outArr = .fails := by
          rcases hcase with h1 | h1 | h1
          · rw [hp] at h1; cases h1
          · exact absurd h1 s1
          · exact h1
        refine ⟨h ++ (made c.num c.numArr 0 ++ made c.char c.charArr 0), ?_, _, rfl, ?_⟩
        · have e1 := fromOtf_ok (f := fun _ => 0) (e := []) a1 s1
          rw [← hb] at e1
          have e2 := fromOtf_ok (f := taken c.num c.numArr fun _ => 0) (e := [] ++ made c.num c.numArr 1) a2 s2
          have e5 := decref_ok (pre := []) (f := taken c.char c.charArr fun _ => 0) (post := made c.char c.charArr 1) a1 s1
          have e6 := decref_ok (pre := made c.num c.numArr 0) (f := fun _ => 0) (post := []) a2 s2
          rw [taken_comm c.char] at e2
          rw [length_made c.num c.numArr 0 1, bump_zero] at e6
          simp only [List.nil_append, List.append_nil, List.append_assoc, List.length_append] at e1 e2 e5 e6
          exact drop_none (iforest_steps_out hp e1 e2 (by rw [s3]; rfl) e5 e6)
        · intro o ho
          rcases List.mem_append.mp ho with ho | ho
          · exact made_dead o ho
          · exact made_dead o ho

/-- a call of a variance kernel with a list of three numbers, one of them the float another one is, and an LRMES
simulation -/
example : ∃ h', runKernels [.variance ⟨true, true, 0, true, [.existing 1, .existing 2, .existing 1], true⟩,
    .simulation true 3, .variance ⟨true, true, 0, true, [.fresh, .fresh], true⟩, .ewma true true]
      ([⟨1, [1, 2, 1]⟩, ⟨2, []⟩, ⟨1, []⟩, ⟨5, []⟩] : Heap) = some ((), h') ∧
    NothingLeft [⟨1, [1, 2, 1]⟩, ⟨2, []⟩, ⟨1, []⟩, ⟨5, []⟩] h' := by
  refine C168_history _ _ ?_ ?_ <;>
    simp [KernelCall.ArgsAlive, KernelCall.UsesNull, count]

/-- two calls with 3 and 4 rows leave seven objects behind -/
example : ∃ h', runForests [⟨true, 0, .asIs, 1, .asIs, 2, .asIs, 3, 3⟩, ⟨true, 0, .copy false, 1, .asIs, 2, .copy true, 4, 3⟩]
      ([⟨1, []⟩, ⟨1, []⟩, ⟨1, []⟩, ⟨9, []⟩] : Heap) = some ((), h') ∧ alive h' = 11 := by
  obtain ⟨h', e, ha, _⟩ := C169_history [⟨true, 0, .asIs, 1, .asIs, 2, .asIs, 3, 3⟩,
    ⟨true, 0, .copy false, 1, .asIs, 2, .copy true, 4, 3⟩] [⟨1, []⟩, ⟨1, []⟩, ⟨1, []⟩, ⟨9, []⟩]
    (by simp [ForestAlive, count]) (by simp [ForestSucceeds])
  exact ⟨h', e, by rw [ha]; simp [alive]⟩

/-! ### Concrete cases of the theorems above -/

/-- A variance kernel called with two existing objects and a fresh one leaves nothing behind. -/
example := C168_balanced (.variance ⟨true, true, 0, true, [.existing 1, .fresh], true⟩) [⟨1, [1]⟩, ⟨2, []⟩]
  (by simp [KernelCall.ArgsAlive, count]) (by simp [KernelCall.UsesNull])
/-- Parameters that are not iterable crash the interpreter; iterable ones do not. -/
example : callAndDrop (KernelCall.run (.variance ⟨true, true, 0, false, [], true⟩)) [⟨1, [1]⟩, ⟨2, []⟩] = none ∧
    callAndDrop (KernelCall.run (.variance ⟨true, true, 0, true, [], true⟩)) [⟨1, [1]⟩, ⟨2, []⟩] ≠ none := by
  rw [C168_null _ _ (by simp [KernelCall.ArgsAlive, count]), Ne, C168_null _ _ (by simp [KernelCall.ArgsAlive, count])]
  simp [KernelCall.UsesNull]
/-- A forest over seven rows leaks seven objects. -/
example : ∃ h', callAndDrop (iforestWrapper ⟨true, 0, .asIs, 1, .asIs, 2, .asIs, 7, 3⟩)
    [⟨1, []⟩, ⟨1, []⟩, ⟨1, []⟩, ⟨9, []⟩] = some (true, h') ∧ alive h' = 4 + 7 :=
  let ⟨h', h1, h2, _⟩ := C169_leak ⟨true, 0, .asIs, 1, .asIs, 2, .asIs, 7, 3⟩ [⟨1, []⟩, ⟨1, []⟩, ⟨1, []⟩, ⟨9, []⟩]
    (by simp [ForestAlive, count]) (by simp [ForestSucceeds]) (by simp)
  ⟨h', h1, h2⟩
/-- The second array cannot be converted: the first one is never released. -/
example : ∃ h', callAndDrop (iforestWrapper ⟨true, 0, .asIs, 1, .fails, 2, .asIs, 7, 3⟩)
    [⟨1, []⟩, ⟨1, []⟩, ⟨1, []⟩, ⟨9, []⟩] = some (false, h') ∧ count h' 0 = 2 :=
  let ⟨h', h1, h2, _⟩ := (C169_failures ⟨true, 0, .asIs, 1, .fails, 2, .asIs, 7, 3⟩ [⟨1, []⟩, ⟨1, []⟩, ⟨1, []⟩, ⟨9, []⟩]
    (by simp [ForestAlive, count])).1 rfl (by simp) rfl
  ⟨h', h1, (h2 rfl).1⟩

end Frds.Props

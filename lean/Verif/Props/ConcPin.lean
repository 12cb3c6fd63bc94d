import Verif.Lemmas.Conc
import Verif.Model.ConcPin

/-! C176: concurrent estimations of PIN. -/
namespace Frds.Props
noncomputable section
open Frds Frds.Model Frds.Model.Conc Classical
set_option linter.unusedSimpArgs false
set_option linter.unusedVariables false

namespace ConcPin
variable {ι : Type}

/-- the two estimation methods -/
def Supported (m : String) : Prop := m = "EHO2010" ∨ m = "LK2011"

/-- the objective of a method -/
def objectiveOf (m : String) (B S : List XR) : PinVec → XR := if m = "EHO2010" then eho2010 B S else lk2011 B S

/-- the optimiser of one of the threads reports success with `x` and `f` for one of the starting values -/
def Found (mini : ι → PinMinimizer) (method : ι → String) (B S : List XR) (x : PinVec) (f : XR) : Prop :=
  ∃ i, Supported (method i) ∧ ∃ s ∈ pinStarts B S, ∃ r, r = mini i pinBounds (objectiveOf (method i) B S) s ∧
    r.success = true ∧ r.x = x ∧ r.f = f

/-- what a `Parameters` object made by one of the calls contains: all-NaN estimates, or a point found by one thread with its
log-likelihood; the `pin` not yet computed or that of this point; no method yet or that of some thread -/
structure Made (mini : ι → PinMinimizer) (method : ι → String) (B S : List XR) (p : PinParams) : Prop where
  estimates : p.x = ⟨.nan, .nan, .nan, .nan, .nan⟩ ∧ p.loglikelihood = .nan ∨
    ∃ f, Found mini method B S p.x f ∧ p.loglikelihood = -f
  pin : p.pin = .nan ∨ p.pin = calculatePin p.x
  method : p.method = "" ∨ ∃ i, Supported (method i) ∧ p.method = method i

/-- what always holds -/
structure PInv (mini : ι → PinMinimizer) (method : ι → String) (h0 h : PinHeap) : Prop where
  B : h.B = h0.B
  S : h.S = h0.S
  old : ∀ r, r < h0.objs.length → h.objs[r]? = h0.objs[r]?
  length : h0.objs.length ≤ h.objs.length
  made : ∀ r p, h0.objs.length ≤ r → h.objs[r]? = some p → Made mini method h0.B h0.S p
  cur : h.cur = h0.cur ∨ h0.objs.length ≤ h.cur ∧ h.cur < h.objs.length
  success : h.success = h0.success ∨ h.success = true ∧ ∃ x f, Found mini method h0.B h0.S x f

/-- the current object was made by one of the calls -/
def New (h0 h : PinHeap) : Prop := h0.objs.length ≤ h.cur ∧ h.cur < h.objs.length

def PG (mini : ι → PinMinimizer) (method : ι → String) (h0 h h' : PinHeap) : Prop :=
  PInv mini method h0 h → PInv mini method h0 h' ∧ (New h0 h → New h0 h') ∧ h.objs.length ≤ h'.objs.length ∧
    ∀ (r : ℕ) (p : PinParams), h.objs[r]? = some p →
      ∃ p' : PinParams, h'.objs[r]? = some p' ∧ p'.x = p.x ∧ p'.loglikelihood = p.loglikelihood

variable {mini : ι → PinMinimizer} {method : ι → String} {h0 : PinHeap}

theorem PG_refl (h : PinHeap) : PG mini method h0 h h := fun hi => ⟨hi, id, le_refl _, fun r p hp => ⟨p, hp, rfl, rfl⟩⟩

theorem PG_trans (a b c : PinHeap) (h : PG mini method h0 a b) (h' : PG mini method h0 b c) : PG mini method h0 a c := by
  intro hi
  obtain ⟨h1, h2, h3, h4⟩ := h hi
  obtain ⟨k1, k2, k3, k4⟩ := h' h1
  refine ⟨k1, fun h => k2 (h2 h), le_trans h3 k3, fun r p hp => ?_⟩
  obtain ⟨p', hp', e1, e2⟩ := h4 r p hp
  obtain ⟨p'', hp'', e3, e4⟩ := k4 r p' hp'
  exact ⟨p'', hp'', by rw [e3, e1], by rw [e4, e2]⟩

theorem self_inv : PInv mini method h0 h0 :=
  ⟨rfl, rfl, fun _ _ => rfl, le_refl _, fun r p hr hp => (by
    rw [List.getElem?_eq_none hr] at hp; cases hp), .inl rfl, .inl rfl⟩

/-- assigning a new object -/
theorem assign_ok {p : PinParams} (hp : Made mini method h0.B h0.S p) {h : PinHeap} (hi : PInv mini method h0 h) :
    PG mini method h0 h (PinHeap.assign p h) ∧ PInv mini method h0 (PinHeap.assign p h) ∧ New h0 (PinHeap.assign p h) := by
  have hn : New h0 (PinHeap.assign p h) := ⟨hi.length, by simp [PinHeap.assign]⟩
  have hinv : PInv mini method h0 (PinHeap.assign p h) := by
    refine ⟨hi.B, hi.S, fun r hr => ?_, ?_, fun r q hr hq => ?_, .inr hn, hi.success⟩
    · rw [← hi.old r hr]
      exact List.getElem?_append_left (lt_of_lt_of_le hr hi.length)
    · simp only [PinHeap.assign, List.length_append]; have := hi.length; omega
    · simp only [PinHeap.assign] at hq
      by_cases hl : r < h.objs.length
      · rw [List.getElem?_append_left hl] at hq
        exact hi.made r q hr hq
      · rw [List.getElem?_append_right (by omega)] at hq
        cases hd : r - h.objs.length with
        | zero => rw [hd] at hq; simp at hq; exact hq ▸ hp
        | succ n => rw [hd] at hq; simp at hq
  refine ⟨fun _ => ⟨hinv, fun _ => hn, by simp [PinHeap.assign], fun r q hq => ⟨q, ?_, rfl, rfl⟩⟩, hinv, hn⟩
  have hl : r < h.objs.length := by
    by_contra hl
    rw [List.getElem?_eq_none (by omega)] at hq
    cases hq
  show (h.objs ++ [p])[r]? = some q
  rw [List.getElem?_append_left hl, hq]

/-- writing an attribute of an object made by one of the calls -/
theorem modify_ok {r0 : ℕ} (hr0 : h0.objs.length ≤ r0) {f : PinParams → PinParams} {h : PinHeap} (hi : PInv mini method h0 h)
    (hx : ∀ p, (f p).x = p.x ∧ (f p).loglikelihood = p.loglikelihood)
    (hf : ∀ p, h.objs[r0]? = some p → Made mini method h0.B h0.S p → Made mini method h0.B h0.S (f p)) :
    PG mini method h0 h (PinHeap.modify r0 f h) ∧ PInv mini method h0 (PinHeap.modify r0 f h) := by
  have hinv : PInv mini method h0 (PinHeap.modify r0 f h) := by
    refine ⟨hi.B, hi.S, fun r hr => ?_, ?_, fun r q hr hq => ?_, ?_, hi.success⟩
    · rw [← hi.old r hr]
      simp only [PinHeap.modify, List.getElem?_modify]
      have hne : r0 ≠ r := by omega
      cases h.objs[r]? <;> simp [hne]
    · simp only [PinHeap.modify, List.length_modify]; exact hi.length
    · simp only [PinHeap.modify, List.getElem?_modify] at hq
      cases hp : h.objs[r]? with
      | none => rw [hp] at hq; cases hq
      | some p =>
        rw [hp] at hq
        by_cases he : r0 = r
        · subst he
          simp at hq
          exact hq ▸ hf p hp (hi.made _ p hr hp)
        · simp [he] at hq
          exact hq ▸ hi.made _ p hr hp
    · simp only [PinHeap.modify, List.length_modify]; exact hi.cur
  refine ⟨fun _ => ⟨hinv, ?_, by simp [PinHeap.modify], fun r q hq => ?_⟩, hinv⟩
  · unfold New PinHeap.modify; simp
  · by_cases he : r0 = r
    · subst he
      refine ⟨f q, ?_, (hx q).1, (hx q).2⟩
      simp [PinHeap.modify, List.getElem?_modify, hq]
    · exact ⟨q, by simp [PinHeap.modify, List.getElem?_modify, hq, he], rfl, rfl⟩

theorem ok_accept (i : ι) (hs : Supported (method i)) {s : PinVec} (hm : s ∈ pinStarts h0.B h0.S) {r : OptRes}
    (hr : r = mini i pinBounds (objectiveOf (method i) h0.B h0.S) s) {h : PinHeap} (hi : PInv mini method h0 h)
    (hn : New h0 h) :
    Ok (PG mini method h0) (fun a h' => a = .ok () ∧ PInv mini method h0 h' ∧ New h0 h') (acceptProg (method i) r) h := by
  unfold acceptProg
  by_cases hsu : r.success = true
  · rw [if_pos hsu]
    have hfound : Found mini method h0.B h0.S r.x r.f := ⟨i, hs, s, hm, r, hr, hsu, rfl, rfl⟩
    simp only [Prog.bind_eq]
    refine Ok.bind PG_refl (Ok.get ?_)
    intro s1 h1 s2 h2
    obtain ⟨i1, n1, -⟩ := h1 hi
    have n1 := n1 hn
    obtain ⟨i2, n2, -⟩ := h2 i1
    have n2 := n2 n1
    simp only
    by_cases hc : (s1.obj s1.cur).loglikelihood.isNan ∨ (-r.f < .pinf ∧ (s1.obj s1.cur).loglikelihood < -r.f)
    · rw [if_pos hc]
      refine Ok.bind PG_refl (Ok.put ?_)
      intro s3 h3
      have i3 := (h3 i2).1
      obtain ⟨g4, i4, n4⟩ := assign_ok (p := { x := r.x, loglikelihood := -r.f })
        ⟨.inr ⟨r.f, hfound, rfl⟩, .inl rfl, .inl rfl⟩ i3
      refine ⟨g4, ?_⟩
      intro s4 h4
      obtain ⟨i5, n5, -⟩ := h4 i4
      have n5 := n5 n4
      simp only
      refine Ok.bind PG_refl (Ok.get ?_)
      intro s5 h5 s6 h6
      obtain ⟨i6, n6, -⟩ := h5 i5
      have n6 := n6 n5
      obtain ⟨i7, n7, -, p7⟩ := h6 i6
      have n7 := n7 n6
      simp only
      refine Ok.bind PG_refl (Ok.put ?_)
      intro s7 h7
      obtain ⟨i8, n8, -, p8⟩ := h7 i7
      have n8 := n8 n7
      obtain ⟨g9, i9⟩ := modify_ok (r0 := s5.cur) n6.1
        (f := fun p => { p with pin := calculatePin (s5.obj s5.cur).x }) i8
        (fun p => ⟨rfl, rfl⟩) (fun p hp hmade => ⟨hmade.estimates, .inr (by
          have e5 : s5.objs[s5.cur]? = some (s5.obj s5.cur) := by
            unfold PinHeap.obj
            rw [List.getD_eq_getElem?_getD, List.getElem?_eq_getElem n6.2]
            rfl
          obtain ⟨p', hp', e1, -⟩ := p7 _ _ e5
          obtain ⟨p'', hp'', e2, -⟩ := p8 _ _ hp'
          rw [hp] at hp''
          injection hp'' with hp''
          subst hp''
          show calculatePin (s5.obj s5.cur).x = calculatePin p.x
          rw [e2, e1]), hmade.method⟩)
      refine ⟨g9, ?_⟩
      have n9 := (g9 i8).2.1 n8
      intro s8 h8
      obtain ⟨i10, n10, -⟩ := h8 i9
      have n10 := n10 n9
      simp only
      refine Ok.bind PG_refl (Ok.get ?_)
      intro s9 h9 s10 h10
      obtain ⟨i11, n11, -⟩ := h9 i10
      have n11 := n11 n10
      obtain ⟨i12, n12, -⟩ := h10 i11
      have n12 := n12 n11
      simp only
      refine Ok.bind PG_refl (Ok.put ?_)
      intro s11 h11
      obtain ⟨i13, n13, -⟩ := h11 i12
      have n13 := n13 n12
      obtain ⟨g14, i14⟩ := modify_ok (r0 := s9.cur) n11.1 (f := fun p => { p with method := method i }) i13
        (fun p => ⟨rfl, rfl⟩) (fun p _ hmade => ⟨hmade.estimates, hmade.pin, .inr ⟨i, hs, rfl⟩⟩)
      refine ⟨g14, ?_⟩
      have n14 := (g14 i13).2.1 n13
      intro s12 h12
      obtain ⟨i15, n15, -⟩ := h12 i14
      have n15 := n15 n14
      simp only
      refine Ok.put ?_
      intro s13 h13
      obtain ⟨i16, n16, -⟩ := h13 i15
      have n16 := n16 n15
      have i17 : PInv mini method h0 { s13 with success := true } :=
        ⟨i16.B, i16.S, i16.old, i16.length, i16.made, i16.cur, .inr ⟨rfl, _, _, hfound⟩⟩
      refine ⟨fun _ => ⟨i17, id, le_refl _, fun r p hp => ⟨p, hp, rfl, rfl⟩⟩, ?_⟩
      intro s14 h14
      obtain ⟨i18, n18, -⟩ := h14 i17
      exact ⟨rfl, i18, n18 n16⟩
    · rw [if_neg hc]
      intro s3 h3
      obtain ⟨i3, n3, -⟩ := h3 i2
      exact ⟨rfl, i3, n3 n2⟩
  · rw [if_neg hsu]
    intro s3 h3
    obtain ⟨i3, n3, -⟩ := h3 hi
    exact ⟨rfl, i3, n3 hn⟩

theorem ok_starts (i : ι) (hs : Supported (method i)) (l : List PinVec) (hl : ∀ s ∈ l, s ∈ pinStarts h0.B h0.S)
    {h : PinHeap} (hi : PInv mini method h0 h) (hn : New h0 h) :
    Ok (PG mini method h0) (fun a h' => a = .ok () ∧ PInv mini method h0 h' ∧ New h0 h')
      (startsProg (method i) (mini i pinBounds (objectiveOf (method i) h0.B h0.S)) l) h := by
  induction l generalizing h with
  | nil =>
    intro s1 h1
    obtain ⟨i1, n1, -⟩ := h1 hi
    exact ⟨rfl, i1, n1 hn⟩
  | cons s l ih =>
    rw [startsProg]
    refine Ok.bind PG_refl ((ok_accept i hs (hl s (by simp)) rfl hi hn).weaken ?_)
    rintro r s1 ⟨rfl, i1, n1⟩
    exact ih (fun s hs => hl s (by simp [hs])) i1 n1

theorem ok_pin (i : ι) : Ok (PG mini method h0)
    (fun a h => (Supported (method i) → ∃ r, a = .ok r ∧ h0.objs.length ≤ r ∧ r < h.objs.length) ∧
      (¬ Supported (method i) → a = .error .valueError)) (pinProg (mini i) (method i)) h0 := by
  unfold pinProg
  by_cases hs : Supported (method i)
  · rw [if_neg (by unfold Supported at hs; tauto)]
    simp only [Prog.bind_eq]
    refine Ok.bind PG_refl (Ok.put ?_)
    intro s1 h1
    have i1 := (h1 self_inv).1
    obtain ⟨g2, i2, n2⟩ := assign_ok (p := {}) ⟨.inl ⟨rfl, rfl⟩, .inl rfl, .inl rfl⟩ i1
    refine ⟨g2, ?_⟩
    intro s2 h2
    obtain ⟨i3, n3, -⟩ := h2 i2
    have n3 := n3 n2
    simp only
    refine Ok.bind PG_refl (Ok.get ?_)
    intro s3 h3 s4 h4
    obtain ⟨i4, n4, -⟩ := h3 i3
    have n4 := n4 n3
    obtain ⟨i5, n5, -⟩ := h4 i4
    have n5 := n5 n4
    simp only
    rw [i4.B, i4.S]
    refine Ok.bind PG_refl ((ok_starts i hs _ (fun s hs => hs) i5 n5).weaken ?_)
    rintro r s5 ⟨rfl, i6, n6⟩
    simp only
    refine Ok.bind PG_refl (Ok.get ?_)
    intro s6 h6 s7 h7
    obtain ⟨i7, n7, -⟩ := h6 i6
    have n7 := n7 n6
    obtain ⟨i8, n8, l8, -⟩ := h7 i7
    simp only
    intro s8 h8
    obtain ⟨i9, n9, l9, -⟩ := h8 i8
    exact ⟨fun _ => ⟨_, rfl, n7.1, by have := n7.2; omega⟩, fun h => absurd hs h⟩
  · rw [if_pos (by unfold Supported at hs; tauto)]
    intro s1 h1
    exact ⟨fun h => absurd h hs, fun _ => rfl⟩

end ConcPin
open ConcPin

/-- C176. Any number of threads call `estimate`, each with its own method and optimiser, on one object. Under every schedule:
the data are untouched; `Parameters` objects that existed before the calls are not modified; every `Parameters` object made by
the calls contains all-NaN estimates or a point and log-likelihood found by one of the threads; the success flag is raised only
if some thread found something; a thread with a supported method never raises and returns an object made by one of these calls;
a thread with an unsupported method raises `ValueError`. -/
theorem C176_states {ι : Type} (mini : ι → PinMinimizer) (method : ι → String) (h : PinHeap) (sched : List ι)
    (c : Sys ι PinHeap ℕ) (hc : c = (Sys.mk h fun i => pinProg (mini i) (method i)).exec sched) :
    c.shared.B = h.B ∧ c.shared.S = h.S ∧
    (∀ r, r < h.objs.length → c.shared.obj r = h.obj r) ∧
    (∀ r, h.objs.length ≤ r → r < c.shared.objs.length → Made mini method h.B h.S (c.shared.obj r)) ∧
    (c.shared.success = h.success ∨ c.shared.success = true ∧ ∃ x f, Found mini method h.B h.S x f) ∧
    (∀ i, Supported (method i) → ∀ a, c.result i = some a →
      ∃ r, a = .ok r ∧ h.objs.length ≤ r ∧ r < c.shared.objs.length) ∧
    ∀ i, ¬ Supported (method i) → ∀ a, c.result i = some a → a = .error .valueError := by
  subst hc
  have hok : ∀ i, Ok (PG mini method h) (fun a h' => (Supported (method i) → ∃ r, a = .ok r ∧ h.objs.length ≤ r ∧
      r < h'.objs.length) ∧ (¬ Supported (method i) → a = .error .valueError))
      ((Sys.mk h fun i => pinProg (mini i) (method i)).thread i) h := fun i => ok_pin i
  have hG := ((Ok.sound PG_refl PG_trans (c := Sys.mk h fun i => pinProg (mini i) (method i)) hok sched).1 self_inv).1
  have hres := fun i r => Ok.result PG_refl PG_trans (c := Sys.mk h fun i => pinProg (mini i) (method i)) hok sched
    (i := i) (r := r)
  refine ⟨hG.B, hG.S, fun r hr => ?_, fun r hr hr' => ?_, hG.success, fun i hs a ha => (hres i a ha).1 hs,
    fun i hs a ha => (hres i a ha).2 hs⟩
  · unfold PinHeap.obj
    rw [List.getD_eq_getElem?_getD, List.getD_eq_getElem?_getD, hG.old r hr]
  · refine hG.made r _ hr ?_
    unfold PinHeap.obj
    rw [List.getD_eq_getElem?_getD, List.getElem?_eq_getElem hr']
    rfl

/-- C176. A thread that is scheduled again and again finishes. -/
theorem C176_finishes {ι : Type} (mini : ι → PinMinimizer) (method : ι → String) (h : PinHeap) (σ : ℕ → ι) (i : ι)
    (hi : ∀ n, ∃ m, n ≤ m ∧ σ m = i) :
    ∃ n, (((Sys.mk h fun i => pinProg (mini i) (method i)).exec (Sys.upTo σ n)).result i).isSome :=
  Sys.terminates _ σ i hi

end
end Frds.Props

import Verif.Props.ConcPin

/-! C176: `estimate` of PIN alone, and what concurrent calls can do wrong. -/
namespace Frds.Props
noncomputable section
open Frds Frds.Model Frds.Model.Conc Frds.Props.ConcPin Classical
set_option linter.unusedSimpArgs false
set_option linter.unusedVariables false

namespace ConcPin
variable {ι : Type}

theorem obj_assign (p : PinParams) (h : PinHeap) : (PinHeap.assign p h).obj h.objs.length = p := by
  simp [PinHeap.assign, PinHeap.obj, List.getD_eq_getElem?_getD]

theorem obj_assign_lt (p : PinParams) (h : PinHeap) {r : ℕ} (hr : r < h.objs.length) : (PinHeap.assign p h).obj r = h.obj r := by
  simp [PinHeap.assign, PinHeap.obj, List.getD_eq_getElem?_getD, List.getElem?_append_left hr]

theorem obj_modify {h : PinHeap} {r : ℕ} (hr : r < h.objs.length) (f : PinParams → PinParams) :
    (PinHeap.modify r f h).obj r = f (h.obj r) := by
  simp [PinHeap.modify, PinHeap.obj, List.getD_eq_getElem?_getD, List.getElem?_modify, List.getElem?_eq_getElem hr]

theorem obj_modify_ne {h : PinHeap} {r r' : ℕ} (hr : r ≠ r') (f : PinParams → PinParams) :
    (PinHeap.modify r f h).obj r' = h.obj r' := by
  simp only [PinHeap.modify, PinHeap.obj, List.getD_eq_getElem?_getD, List.getElem?_modify]
  cases h.objs[r']? <;> simp [hr]

/-- `later h h'`: objects that existed are unchanged -/
def Later (h h' : PinHeap) : Prop := h.objs.length ≤ h'.objs.length ∧ ∀ r, r < h.objs.length → h'.obj r = h.obj r

theorem Later.refl (h : PinHeap) : Later h h := ⟨le_refl _, fun _ _ => rfl⟩

theorem Later.trans {a b c : PinHeap} (h : Later a b) (h' : Later b c) : Later a c :=
  ⟨le_trans h.1 h'.1, fun r hr => by rw [h'.2 r (lt_of_lt_of_le hr h.1), h.2 r hr]⟩

/-- the acceptance rule -/
def Accepts (ll f : XR) : Prop := ll.isNan ∨ (-f < .pinf ∧ ll < -f)

/-- lines 99-100 -/
def storeNew (r : OptRes) : Prog PinHeap Unit := do
  Prog.put (PinHeap.assign { x := r.x, loglikelihood := -r.f })
  let h ← Prog.get
  Prog.put (PinHeap.modify h.cur fun p => { p with pin := calculatePin (h.obj h.cur).x })

/-- lines 101-102 -/
def label (method : String) : Prog PinHeap Unit := do
  let h ← Prog.get
  Prog.put (PinHeap.modify h.cur fun p => { p with method := method })
  Prog.put fun h => { h with success := true }

/-- the new object before its method is written -/
def unlabelled (r : OptRes) : PinParams := { x := r.x, loglikelihood := -r.f, pin := calculatePin r.x }

theorem accept_eq (method : String) {r : OptRes} (hr : r.success = true) :
    acceptProg method r = Prog.bind' Prog.get fun h => if Accepts (h.obj h.cur).loglikelihood r.f then
      Prog.bind' (storeNew r) fun _ => label method else Prog.done (.ok ()) := by
  unfold acceptProg Accepts storeNew label
  rw [if_pos hr]
  simp only [Prog.bind_eq, Prog.bind_assoc', Prog.pure_eq]

theorem modify_last (l : List PinParams) (p : PinParams) (f : PinParams → PinParams) :
    (l ++ [p]).modify l.length f = l ++ [f p] := by
  induction l with
  | nil => rfl
  | cons a l ih => simp [ih]

theorem run_storeNew (r : OptRes) (h : PinHeap) : (storeNew r).run h =
    (PinHeap.assign (unlabelled r) h, .ok ()) := by
  unfold storeNew
  simp only [Prog.bind_eq, Prog.run_bind, Prog.run_get, Prog.run_put]
  have hc : (PinHeap.assign { x := r.x, loglikelihood := -r.f } h).cur = h.objs.length := rfl
  rw [hc, obj_assign]
  have : PinHeap.modify h.objs.length (fun p => { p with pin := calculatePin r.x })
      (PinHeap.assign { x := r.x, loglikelihood := -r.f } h) = PinHeap.assign (unlabelled r) h := by
    simp [PinHeap.modify, PinHeap.assign, unlabelled, modify_last]
  rw [this]

theorem run_label (m : String) (h : PinHeap) : (label m).run h =
    ({ PinHeap.modify h.cur (fun p => { p with method := m }) h with success := true }, .ok ()) := rfl

/-- one start alone -/
theorem run_accept (m : String) (r : OptRes) (h : PinHeap) : ∃ h', (acceptProg m r).run h = (h', .ok ()) ∧
    h'.view = pinAccept m h.view r ∧ Later h h' := by
  by_cases hs : r.success = true
  · rw [accept_eq m hs]
    simp only [Prog.run_bind, Prog.run_get]
    by_cases hc : Accepts (h.obj h.cur).loglikelihood r.f
    · rw [if_pos hc]
      simp only [Prog.run_bind, run_storeNew, run_label]
      have hl : h.objs.length < (PinHeap.assign (unlabelled r) h).objs.length := by simp [PinHeap.assign]
      refine ⟨_, rfl, ?_, ?_, ?_⟩
      · unfold pinAccept PinHeap.view
        rw [if_pos hs]
        simp only
        rw [if_pos (by exact hc)]
        show PinObj.mk h.B h.S true ((PinHeap.modify h.objs.length _ (PinHeap.assign (unlabelled r) h)).obj h.objs.length) = _
        rw [obj_modify hl, obj_assign]
        rfl
      · simp [PinHeap.modify, PinHeap.assign]
      · intro r' hr'
        show (PinHeap.modify h.objs.length _ (PinHeap.assign (unlabelled r) h)).obj r' = _
        rw [obj_modify_ne (by omega), obj_assign_lt _ _ hr']
    · rw [if_neg hc]
      refine ⟨h, rfl, ?_, Later.refl h⟩
      unfold pinAccept
      rw [if_pos hs]
      simp only
      rw [if_neg (by exact hc)]
  · refine ⟨h, ?_, ?_, Later.refl h⟩
    · unfold acceptProg; rw [if_neg hs]; rfl
    · unfold pinAccept; rw [if_neg hs]

theorem run_starts (m : String) (g : PinVec → OptRes) (l : List PinVec) (h : PinHeap) :
    ∃ h', (startsProg m g l).run h = (h', .ok ()) ∧
      h'.view = l.foldl (fun o s => pinAccept m o (g s)) h.view ∧ Later h h' := by
  induction l generalizing h with
  | nil => exact ⟨h, rfl, rfl, Later.refl h⟩
  | cons s l ih =>
    obtain ⟨h1, e1, v1, l1⟩ := run_accept m (g s) h
    obtain ⟨h2, e2, v2, l2⟩ := ih h1
    refine ⟨h2, ?_, ?_, l1.trans l2⟩
    · rw [startsProg, Prog.run_bind, e1]; exact e2
    · rw [v2, v1]; rfl

/-- starts that are all rejected -/
theorem run_starts_none (m : String) (g : PinVec → OptRes) (l : List PinVec) (h : PinHeap)
    (hl : ∀ s ∈ l, (g s).success = true → ¬ Accepts (h.obj h.cur).loglikelihood (g s).f) :
    (startsProg m g l).run h = (h, .ok ()) := by
  induction l with
  | nil => rfl
  | cons s l ih =>
    rw [startsProg, Prog.run_bind]
    have : (acceptProg m (g s)).run h = (h, .ok ()) := by
      by_cases hs : (g s).success = true
      · rw [accept_eq m hs]
        simp only [Prog.run_bind, Prog.run_get]
        rw [if_neg (hl s (by simp) hs)]
        rfl
      · unfold acceptProg; rw [if_neg hs]; rfl
    rw [this]
    exact ih fun s hs => hl s (by simp [hs])

/-- all of `estimate` but the last line -/
def bodyProg (mini : PinMinimizer) (method : String) : Prog PinHeap Unit := do
  Prog.put (PinHeap.assign {})
  let h ← Prog.get
  startsProg method (mini pinBounds (objectiveOf method h.B h.S)) (pinStarts h.B h.S)

/-- `return self.parameters` -/
def returnProg : Unit → Prog PinHeap ℕ := fun _ => do
  let h ← Prog.get
  return h.cur

theorem pin_eq (mini : PinMinimizer) {m : String} (hm : Supported m) :
    pinProg mini m = Prog.bind' (bodyProg mini m) returnProg := by
  unfold pinProg bodyProg returnProg objectiveOf
  rw [if_neg (by unfold Supported at hm; tauto)]
  simp only [Prog.bind_eq, Prog.bind_assoc', Prog.pure_eq]

theorem run_body (mini : PinMinimizer) {m : String} (hm : Supported m) (h : PinHeap) :
    ∃ h', (bodyProg mini m).run h = (h', .ok ()) ∧ pinEstimate mini h.view m = .ok (h'.view, h'.obj h'.cur) ∧ Later h h' := by
  obtain ⟨h', e, v, l⟩ := run_starts m (mini pinBounds (objectiveOf m h.B h.S)) (pinStarts h.B h.S) (PinHeap.assign {} h)
  refine ⟨h', e, ?_, Later.trans ⟨by simp [PinHeap.assign], fun r hr => obj_assign_lt _ _ hr⟩ l⟩
  unfold pinEstimate
  rw [if_neg (by unfold Supported at hm; tauto)]
  have hv : (PinHeap.assign {} h).view = { h.view with params := {} } := by
    unfold PinHeap.view
    show PinObj.mk h.B h.S h.success ((PinHeap.assign {} h).obj h.objs.length) = _
    rw [obj_assign]
  rw [hv] at v
  have hp : h'.obj h'.cur = h'.view.params := rfl
  rw [hp, v]
  rfl

theorem lost (mini : ι → PinMinimizer) (method : ι → String) (h : PinHeap) {i j : ι} (hij : i ≠ j)
    (hi : Supported (method i)) (hj : Supported (method j)) :
    ∃ sched : List ι, ∃ c, c = (Sys.mk h fun i => pinProg (mini i) (method i)).exec sched ∧ ∃ r, c.result i = some (.ok r) ∧
      c.shared.obj r = {} ∧ ∃ o p, pinEstimate (mini i) h.view (method i) = .ok (o, p) ∧ c.shared.success = o.success := by
  obtain ⟨h', e, v, -⟩ := run_body (mini i) hi h
  have r1 := Sys.Reaches.prefix (c := Sys.mk h fun i => pinProg (mini i) (method i)) i (pin_eq (mini i) hi) e
  generalize hc1 : (Sys.mk h' (Function.update (fun i => pinProg (mini i) (method i)) i (returnProg ()))) = c1 at r1
  have s1 : c1.shared = h' := by rw [← hc1]
  have t1 : c1.thread i = returnProg () := by rw [← hc1]; simp
  have tj : c1.thread j = Prog.bind' (Prog.put (PinHeap.assign {})) fun _ =>
      Prog.bind' (Prog.bind' Prog.get fun h => startsProg (method j) (mini j pinBounds (objectiveOf (method j) h.B h.S))
        (pinStarts h.B h.S)) returnProg := by
    rw [← hc1]
    simp only
    rw [Function.update_of_ne hij.symm, pin_eq (mini j) hj]
    rfl
  have r2 := Sys.Reaches.prefix j tj (Prog.run_put _ _)
  generalize hc2 : (Sys.mk (PinHeap.assign {} c1.shared) (Function.update c1.thread j _)) = c2 at r2
  have s2 : c2.shared = PinHeap.assign {} h' := by rw [← hc2, s1]
  have t2 : c2.thread i = returnProg () := by
    rw [← hc2]
    simp only
    rw [Function.update_of_ne hij, t1]
  have r3 := Sys.Reaches.alone c2 i (s' := c2.shared) (r := .ok c2.shared.cur) (by rw [t2]; rfl)
  obtain ⟨sched, hsched⟩ := r1.trans (r2.trans r3)
  refine ⟨sched, _, rfl, c2.shared.cur, ?_, ?_, _, _, v, ?_⟩
  · exact Sys.result_done (by rw [hsched]; simp)
  · rw [hsched, s2]; exact obj_assign _ _
  · rw [hsched, s2]; rfl

/-- a thread runs alone until it has stored the parameters of its first start but not yet labelled them -/
theorem to_label {mini : PinMinimizer} {m : String} (hm : Supported m) {c : Sys ι PinHeap ℕ} (i : ι)
    (ht : c.thread i = pinProg mini m) {s : PinVec} {l : List PinVec} (hl : pinStarts c.shared.B c.shared.S = s :: l)
    {g : PinVec → OptRes} (hg : g = mini pinBounds (objectiveOf m c.shared.B c.shared.S)) (hs : (g s).success = true) :
    Sys.Reaches c ⟨PinHeap.assign (unlabelled (g s)) (PinHeap.assign {} c.shared), Function.update c.thread i
      (Prog.bind' (label m) fun _ => Prog.bind' (startsProg m g l) returnProg)⟩ := by
  have h1 : c.thread i = Prog.bind' (Prog.bind' (Prog.put (PinHeap.assign {})) fun _ => Prog.get) fun h =>
      Prog.bind' (startsProg m (mini pinBounds (objectiveOf m h.B h.S)) (pinStarts h.B h.S)) returnProg := by
    rw [ht, pin_eq mini hm]
    rfl
  have r1 := Sys.Reaches.prefix i h1 (s' := PinHeap.assign {} c.shared) (b := PinHeap.assign {} c.shared) rfl
  refine r1.trans ?_
  have e1 : startsProg m (mini pinBounds (objectiveOf m (PinHeap.assign {} c.shared).B (PinHeap.assign {} c.shared).S))
      (pinStarts (PinHeap.assign {} c.shared).B (PinHeap.assign {} c.shared).S) = startsProg m g (s :: l) := by
    rw [hg, ← hl]; rfl
  rw [e1, startsProg, accept_eq m hs]
  generalize hc1 : (Sys.mk (PinHeap.assign {} c.shared) (Function.update c.thread i _)) = c1
  have s1 : c1.shared = PinHeap.assign {} c.shared := by rw [← hc1]
  have u1 := congrArg Sys.thread hc1
  simp only at u1
  have t1 : c1.thread i = Prog.bind' Prog.get fun h => Prog.bind' (if Accepts (h.obj h.cur).loglikelihood (g s).f then
      Prog.bind' (storeNew (g s)) fun _ => label m else Prog.done (.ok ())) fun _ =>
        Prog.bind' (startsProg m g l) returnProg := by
    rw [← u1, Function.update_self]
    simp only [Prog.bind_assoc']
  have r2 := Sys.Reaches.prefix i t1 (Prog.run_get _)
  refine r2.trans ?_
  have hacc : Accepts (c1.shared.obj c1.shared.cur).loglikelihood (g s).f := by
    rw [s1]
    left
    show ((PinHeap.assign {} c.shared).obj c.shared.objs.length).loglikelihood.isNan
    rw [obj_assign]
    simp
  rw [if_pos hacc, ← u1, Function.update_idem, s1]
  generalize hc2 : (Sys.mk (PinHeap.assign {} c.shared) (Function.update c.thread i _)) = c2
  have s2 : c2.shared = PinHeap.assign {} c.shared := by rw [← hc2]
  have u2 := congrArg Sys.thread hc2
  simp only at u2
  have t2 : c2.thread i = Prog.bind' (storeNew (g s)) fun _ => Prog.bind' (label m) fun _ =>
        Prog.bind' (startsProg m g l) returnProg := by
    rw [← u2, Function.update_self]
    simp only [Prog.bind_assoc']
  have r3 := Sys.Reaches.prefix i t2 (run_storeNew _ _)
  rw [← u2, Function.update_idem, s2] at r3
  exact r3

theorem mislabelled (mini : ι → PinMinimizer) (method : ι → String) (h : PinHeap) {i j : ι} (hij : i ≠ j)
    (hi : Supported (method i)) (hj : Supported (method j)) {s : PinVec} {l : List PinVec} (hl : pinStarts h.B h.S = s :: l)
    {gi gj : PinVec → OptRes} (hgi : gi = mini i pinBounds (objectiveOf (method i) h.B h.S))
    (hgj : gj = mini j pinBounds (objectiveOf (method j) h.B h.S)) (hsi : (gi s).success = true) (hsj : (gj s).success = true)
    (hni : ∀ t ∈ l, (gi t).success = true → ¬ Accepts (-(gi s).f) (gi t).f)
    (hnj : ∀ t ∈ l, (gj t).success = true → ¬ Accepts (-(gi s).f) (gj t).f) :
    ∃ sched : List ι, ∃ c, c = (Sys.mk h fun i => pinProg (mini i) (method i)).exec sched ∧ ∃ r,
      c.result i = some (.ok r) ∧ c.result j = some (.ok r) ∧ c.shared.cur = r ∧ c.shared.obj r =
        { x := (gi s).x, loglikelihood := -(gi s).f, pin := calculatePin (gi s).x, method := method j } := by
  have r1 := to_label hj (c := Sys.mk h fun i => pinProg (mini i) (method i)) j rfl hl hgj hsj
  generalize hc1 : (Sys.mk (PinHeap.assign (unlabelled (gj s)) (PinHeap.assign {} h)) (Function.update _ j _)) = c1 at r1
  have s1 := congrArg Sys.shared hc1
  have u1 := congrArg Sys.thread hc1
  simp only at s1 u1
  have r2 := to_label hi (c := c1) i (by rw [← u1, Function.update_of_ne hij]) (by rw [← s1]; exact hl)
    (g := gi) (by rw [← s1]; exact hgi) hsi
  generalize hc2 : (Sys.mk (PinHeap.assign (unlabelled (gi s)) (PinHeap.assign {} c1.shared)) (Function.update _ i _)) = c2 at r2
  have s2 := congrArg Sys.shared hc2
  have u2 := congrArg Sys.thread hc2
  simp only at s2 u2
  have r3 := Sys.Reaches.prefix i (c := c2) (by rw [← u2, Function.update_self]) (run_label _ _)
  rw [← s2] at r3
  generalize hh : PinHeap.assign {} c1.shared = h2 at r3 s2
  have ecur : (PinHeap.assign (unlabelled (gi s)) h2).cur = h2.objs.length := rfl
  rw [ecur] at r3
  generalize hc3 : (Sys.mk _ (Function.update c2.thread i _)) = c3 at r3
  have s3 := congrArg Sys.shared hc3
  have u3 := congrArg Sys.thread hc3
  simp only at s3 u3
  have hlen : h2.objs.length < (PinHeap.assign (unlabelled (gi s)) h2).objs.length := by simp [PinHeap.assign]
  have hlen3 : h2.objs.length < c3.shared.objs.length := by rw [← s3]; simp [PinHeap.modify, PinHeap.assign]
  have cur3 : c3.shared.cur = h2.objs.length := by rw [← s3]; rfl
  have obj3 : c3.shared.obj h2.objs.length = { unlabelled (gi s) with method := method i } := by
    rw [← s3]
    show (PinHeap.modify h2.objs.length _ (PinHeap.assign (unlabelled (gi s)) h2)).obj h2.objs.length = _
    rw [obj_modify hlen, obj_assign]
  -- the second thread labels the object of the first
  have tj : c3.thread j = Prog.bind' (label (method j)) fun _ => Prog.bind' (startsProg (method j) gj l) returnProg := by
    rw [← u3, Function.update_of_ne hij.symm, ← u2, Function.update_of_ne hij.symm, ← u1, Function.update_self]
  generalize hh4 : { PinHeap.modify c3.shared.cur (fun p => { p with method := method j }) c3.shared with success := true } = h4
  have cur4 : h4.cur = h2.objs.length := by rw [← hh4]; exact cur3
  have obj4 : h4.obj h2.objs.length = { unlabelled (gi s) with method := method j } := by
    rw [← hh4]
    show (PinHeap.modify c3.shared.cur _ c3.shared).obj h2.objs.length = _
    rw [cur3, obj_modify hlen3, obj3]
  have r4 := Sys.Reaches.alone c3 j (s' := h4) (r := .ok h2.objs.length) (by
    rw [tj, Prog.run_bind, run_label, hh4]
    simp only
    rw [Prog.run_bind, run_starts_none _ _ _ _ (by rw [cur4, obj4]; exact hnj)]
    show (h4, Except.ok h4.cur) = _
    rw [cur4])
  generalize hc4 : (Sys.mk h4 (Function.update c3.thread j _)) = c4 at r4
  have s4 := congrArg Sys.shared hc4
  have u4 := congrArg Sys.thread hc4
  simp only at s4 u4
  have ti : c4.thread i = Prog.bind' (startsProg (method i) gi l) returnProg := by
    rw [← u4, Function.update_of_ne hij, ← u3, Function.update_self]
  have r5 := Sys.Reaches.alone c4 i (s' := h4) (r := .ok h2.objs.length) (by
    rw [ti, ← s4, Prog.run_bind, run_starts_none _ _ _ _ (by rw [cur4, obj4]; exact hni)]
    show (h4, Except.ok h4.cur) = _
    rw [cur4])
  obtain ⟨sched, hs⟩ := r1.trans (r2.trans (r3.trans (r4.trans r5)))
  refine ⟨sched, _, rfl, h2.objs.length, ?_, ?_, ?_, ?_⟩
  · exact Sys.result_done (by rw [hs]; simp only; rw [Function.update_self])
  · exact Sys.result_done (by rw [hs]; simp only; rw [Function.update_of_ne hij.symm, ← u4, Function.update_self])
  · rw [hs, cur4]
  · rw [hs, obj4]; rfl

end ConcPin

/-- C176. With a single thread a call of `estimate` is the sequential one: it raises the same exception, or returns a reference to
the object's parameters with the same contents, and leaves the same flag and data; objects returned earlier are unchanged. -/
theorem C176_alone (mini : PinMinimizer) (method : String) (h : PinHeap) :
    (∀ e, pinEstimate mini h.view method = .error e → (pinProg mini method).run h = (h, .error e)) ∧
    ∀ o p, pinEstimate mini h.view method = .ok (o, p) → ∃ h' r, (pinProg mini method).run h = (h', .ok r) ∧
      h'.view = o ∧ h'.obj r = p ∧ ∀ r', r' < h.objs.length → h'.obj r' = h.obj r' := by
  by_cases hm : Supported method
  · obtain ⟨h', e, v, l⟩ := run_body mini hm h
    refine ⟨fun x hx => (by rw [v] at hx; cases hx), fun o p hp => ?_⟩
    rw [v] at hp
    simp only [Except.ok.injEq, Prod.mk.injEq] at hp
    refine ⟨h', h'.cur, ?_, hp.1, hp.2, l.2⟩
    rw [pin_eq mini hm, Prog.run_bind, e]
    rfl
  · have hm' : method ≠ "EHO2010" ∧ method ≠ "LK2011" := by unfold Supported at hm; tauto
    unfold pinEstimate pinProg
    rw [if_pos hm', if_pos hm']
    refine ⟨fun e he => ?_, fun o p hp => by cases hp⟩
    injection he with he
    subst he
    rfl

/-- C176. An estimate can be lost: whatever the data and whatever the two optimisers find, there is a schedule of two threads in
which the first returns an all-NaN `Parameters` object although the object is marked successful whenever the first
thread's call alone would have been. -/
theorem C176_lost (mini : Bool → PinMinimizer) (method : Bool → String) (h : PinHeap) (hm : ∀ i, Supported (method i)) :
    ∃ sched : List Bool, ∃ c, c = (Sys.mk h fun i => pinProg (mini i) (method i)).exec sched ∧
      ∃ r, c.result true = some (.ok r) ∧ c.shared.obj r = {} ∧
      ∃ o p, pinEstimate (mini true) h.view (method true) = .ok (o, p) ∧ c.shared.success = o.success :=
  ConcPin.lost mini method h (i := true) (j := false) (by simp) (hm _) (hm _)

/-- C176. An estimate can carry the wrong method: whatever the data and whatever the two optimisers find at the first start, if no
later start improves on what the first thread found there, there is a schedule of two threads after which both have returned
the same object, holding the first thread's estimates under the second thread's method. -/
theorem C176_mislabelled (mini : Bool → PinMinimizer) (method : Bool → String) (h : PinHeap) (hm : ∀ i, Supported (method i))
    (s : PinVec) (l : List PinVec) (hl : pinStarts h.B h.S = s :: l) (g : Bool → PinVec → OptRes)
    (hg : ∀ i, g i = mini i pinBounds (objectiveOf (method i) h.B h.S)) (hs : ∀ i, (g i s).success = true)
    (hn : ∀ i, ∀ t ∈ l, (g i t).success = true → ¬ Accepts (-(g true s).f) (g i t).f) :
    ∃ sched : List Bool, ∃ c, c = (Sys.mk h fun i => pinProg (mini i) (method i)).exec sched ∧ ∃ r,
      c.result true = some (.ok r) ∧ c.result false = some (.ok r) ∧ c.shared.cur = r ∧ c.shared.obj r =
        { x := (g true s).x, loglikelihood := -(g true s).f, pin := calculatePin (g true s).x, method := method false } :=
  ConcPin.mislabelled mini method h (i := true) (j := false) (by simp) (hm _) (hm _) hl (hg _) (hg _) (hs _) (hs _) (hn _) (hn _)

/-- one day with one buy and one sell -/
def ConcPin.oneTrade : PinHeap := ⟨[1], [1], false, [{}], 0⟩

theorem ConcPin.oneTrade_starts : ∃ s l, pinStarts oneTrade.B oneTrade.S = s :: l := by
  have h : pinStart [1] [1] 0.1 0.1 0.1 ∈ (pinStarts [1] [1]).map some := by
    have e : pinStart [1] [1] 0.1 0.1 0.1 = some ⟨.fin 0.1, .fin 0.1, .fin 0.1, .fin 0.9, .fin 10⟩ := by
      have m1 : Np.mean [(1 : XR)] = .fin 1 := by
        unfold Np.mean
        simp [XR.one_def, XR.zero_def]
        rw [XR.fin_div _ (by norm_num)]
        norm_num
      unfold pinStart
      rw [m1]
      have d1 : (0.1 : XR) = .fin 0.1 := rfl
      simp only [d1, XR.one_def, XR.fin_mul, XR.fin_sub]
      rw [XR.fin_div _ (by norm_num)]
      simp only [XR.fin_mul, XR.fin_sub, XR.zero_def, XR.fin_lt]
      rw [if_neg (by norm_num)]
      norm_num
    rw [e]
    rw [List.mem_map]
    refine ⟨_, ?_, rfl⟩
    unfold pinStarts
    rw [List.mem_flatMap]
    refine ⟨0.1, by simp [pinGrid], ?_⟩
    rw [List.mem_flatMap]
    refine ⟨0.1, by simp [pinGrid], ?_⟩
    rw [List.mem_filterMap]
    exact ⟨0.1, by simp [pinGrid], e⟩
  cases hp : pinStarts oneTrade.B oneTrade.S with
  | nil =>
    have hp' : pinStarts [1] [1] = [] := hp
    rw [hp'] at h
    simp at h
  | cons s l => exact ⟨s, l, rfl⟩

/-- two optimisers that each report their own point with the log-likelihood -1: the hypotheses hold, and the estimates of the
EHO2010 call end up labelled LK2011 -/
example (x y : PinVec) : ∃ sched : List Bool, ∃ c, c = (Sys.mk oneTrade fun i : Bool => pinProg
      (fun _ _ _ => ⟨true, if i then x else y, 1⟩) (if i then "EHO2010" else "LK2011")).exec sched ∧
    ∃ r, c.result true = some (.ok r) ∧ (c.shared.obj r).x = x ∧ (c.shared.obj r).method = "LK2011" := by
  obtain ⟨s, l, hl⟩ := ConcPin.oneTrade_starts
  obtain ⟨sched, c, hc, r, h1, h2, h3, h4⟩ := C176_mislabelled (fun i _ _ _ => ⟨true, if i then x else y, 1⟩)
    (fun i => if i then "EHO2010" else "LK2011") oneTrade (fun i => by cases i <;> simp [Supported]) s l hl _ (fun i => rfl)
    (fun i => rfl) (fun i t _ _ => by simp [Accepts, XR.one_def])
  exact ⟨sched, c, hc, r, h1, by rw [h4]; simp, by rw [h4]; simp⟩

/-- `C176_lost` for these calls: the call alone succeeds, so the object is marked successful -/
example (x y : PinVec) : ∃ sched : List Bool, ∃ c, c = (Sys.mk oneTrade fun i : Bool => pinProg
      (fun _ _ _ => ⟨true, if i then x else y, 1⟩) (if i then "EHO2010" else "LK2011")).exec sched ∧
    ∃ r, c.result true = some (.ok r) ∧ c.shared.obj r = {} ∧ c.shared.success = true := by
  obtain ⟨sched, c, hc, r, h1, h2, o, p, h3, h4⟩ := C176_lost (fun i _ _ _ => ⟨true, if i then x else y, 1⟩)
    (fun i => if i then "EHO2010" else "LK2011") oneTrade (fun i => by cases i <;> simp [Supported])
  refine ⟨sched, c, hc, r, h1, h2, ?_⟩
  rw [h4]
  obtain ⟨s, l, hl⟩ := ConcPin.oneTrade_starts
  have hl' : pinStarts oneTrade.view.B oneTrade.view.S = s :: l := hl
  unfold pinEstimate at h3
  rw [if_neg (by simp)] at h3
  simp only [hl', Except.ok.injEq, Prod.mk.injEq] at h3
  rw [← h3.1]
  have keep : ∀ (l : List PinVec) (o : PinObj), o.success = true → (l.foldl (fun o _ => pinAccept (if true = true then
      "EHO2010" else "LK2011") o ⟨true, if true = true then x else y, 1⟩) o).success = true := by
    intro l
    induction l with
    | nil => exact fun o ho => ho
    | cons t l ih =>
      intro o ho
      rw [List.foldl_cons]
      refine ih _ ?_
      unfold pinAccept
      simp only
      split_ifs <;> simp [ho]
  rw [List.foldl_cons]
  refine keep l _ ?_
  unfold pinAccept
  simp

end
end Frds.Props

import Verif.Lemmas.Conc
import Verif.Model.Warn

/-! C178: the process-wide warning filters. -/
namespace Frds.Props
noncomputable section
open Frds Frds.Model Frds.Model.Conc Classical
set_option linter.unusedSimpArgs false
set_option linter.unusedVariables false

namespace Warn
variable {ι A B : Type}

/-- code that does not change the filters (it may look at them) -/
inductive Quiet {A : Type} : Prog WState A → Prop
  | done (r) : Quiet (.done r)
  | read (k) : (∀ s, Quiet (k s)) → Quiet (.read k)

/-- code after which the same list object is in force, and no list object that existed has changed -/
def Restores (p : Prog WState A) : Prop := ∀ s s' r, s.cur < s.lists.length → p.run s = (s', r) →
  s'.cur = s.cur ∧ s.lists.length ≤ s'.lists.length ∧ ∀ q, q < s.lists.length → s'.list q = s.list q

theorem Quiet.run {p : Prog WState A} (h : Quiet p) (s : WState) : (p.run s).1 = s := by
  induction h with
  | done r => rfl
  | read k _ ih => exact ih s

theorem Quiet.restores {p : Prog WState A} (h : Quiet p) : Restores p := by
  intro s s' r _ hr
  have := h.run s
  rw [hr] at this
  simp only at this
  subst this
  exact ⟨rfl, le_refl _, fun _ _ => rfl⟩

theorem Restores.bind {p : Prog WState A} {k : A → Prog WState B} (h : Restores p) (hk : ∀ a, Restores (k a)) :
    Restores (Prog.bind' p k) := by
  intro s s' r hs hr
  rw [Prog.run_bind] at hr
  rcases hp : p.run s with ⟨s1, r1⟩
  rw [hp] at hr
  obtain ⟨h1, h2, h3⟩ := h s s1 r1 hs hp
  cases r1 with
  | error e =>
    simp only [Prod.mk.injEq] at hr
    obtain ⟨rfl, -⟩ := hr
    exact ⟨h1, h2, h3⟩
  | ok a =>
    obtain ⟨k1, k2, k3⟩ := hk a s1 s' r (by omega) hr
    exact ⟨by rw [k1, h1], by omega, fun q hq => by rw [k3 q (by omega), h3 q hq]⟩

theorem run_finally (m : Prog WState A) (f : WState → WState) (s : WState) :
    (finally' m (Prog.put f)).run s = (f (m.run s).1, (m.run s).2) := by
  induction m generalizing s with
  | done r => rfl
  | read k ih => exact ih s s
  | write g k ih => exact ih (g s)

theorem list_change {s : WState} {r : ℕ} (hr : r < s.lists.length) (f : List WFilter → List WFilter) :
    (WState.change r f s).list r = f (s.list r) := by
  simp [WState.change, WState.list, List.getD_eq_getElem?_getD, List.getElem?_modify, List.getElem?_eq_getElem hr]

theorem list_change_ne {s : WState} {r r' : ℕ} (hr : r ≠ r') (f : List WFilter → List WFilter) :
    (WState.change r f s).list r' = s.list r' := by
  simp only [WState.change, WState.list, List.getD_eq_getElem?_getD, List.getElem?_modify]
  cases s.lists[r']? <;> simp [hr]

theorem list_install (l : List WFilter) (s : WState) : (WState.install l s).list s.lists.length = l := by
  simp [WState.install, WState.list, List.getD_eq_getElem?_getD]

theorem list_install_lt (l : List WFilter) {s : WState} {r : ℕ} (hr : r < s.lists.length) :
    (WState.install l s).list r = s.list r := by
  simp [WState.install, WState.list, List.getD_eq_getElem?_getD, List.getElem?_append_left hr]

theorem modify_last (l : List (List WFilter)) (p : List WFilter) (f : List WFilter → List WFilter) :
    (l ++ [p]).modify l.length f = l ++ [f p] := by
  induction l with
  | nil => rfl
  | cons a l ih => simp [ih]

theorem change_install (l : List WFilter) (s : WState) (f : List WFilter → List WFilter) :
    WState.change s.lists.length f (WState.install l s) = WState.install (f l) s := by
  simp [WState.change, WState.install, modify_last]

/-- `filterwarnings` on a list just installed -/
theorem run_filter_install (item : WFilter) (l : List WFilter) (s : WState) :
    (filterWarnings item).run (WState.install l s) = (WState.install (item :: l.erase item) s, .ok ()) := by
  unfold filterWarnings
  simp only [Prog.bind_eq, Prog.run_bind, Prog.run_get, Prog.run_put]
  have c1 : ∀ l, (WState.install l s).cur = s.lists.length := fun _ => rfl
  rw [c1, change_install, c1, change_install]

theorem run_filter (item : WFilter) (s : WState) (hs : s.cur < s.lists.length) :
    ∃ s', (filterWarnings item).run s = (s', .ok ()) ∧ s'.cur = s.cur ∧ s'.lists.length = s.lists.length ∧
      s'.filters = item :: s.filters.erase item := by
  refine ⟨_, rfl, rfl, by simp [WState.change], ?_⟩
  show (WState.change s.cur _ (WState.change s.cur _ s)).list s.cur = _
  rw [list_change (by simpa [WState.change] using hs), list_change hs]
  rfl

/-- a guarded block alone: its body runs under the extended list, then the old list object is in force again -/
theorem run_guarded (item : WFilter) (body : Prog WState A) (s : WState) : (guarded item body).run s =
    ({ (body.run (WState.install (item :: s.filters.erase item) s)).1 with cur := s.cur },
      (body.run (WState.install (item :: s.filters.erase item) s)).2) := by
  unfold guarded
  simp only [Prog.bind_eq, Prog.run_bind, Prog.run_get, Prog.run_put]
  rw [run_finally, Prog.run_bind]
  have : (filterWarnings item).run (WState.install (s.list s.cur) s) =
      (WState.install (item :: s.filters.erase item) s, .ok ()) := run_filter_install _ _ _
  rw [this]

theorem Restores.guarded {body : Prog WState A} (h : Restores body) (item : WFilter) : Restores (guarded item body) := by
  intro s s' r hs hr
  rw [run_guarded] at hr
  rcases hb : body.run (WState.install (item :: s.filters.erase item) s) with ⟨s1, r1⟩
  rw [hb] at hr
  simp only [Prod.mk.injEq] at hr
  obtain ⟨rfl, rfl⟩ := hr
  obtain ⟨h1, h2, h3⟩ := h _ s1 r1 (by simp [WState.install]) hb
  have hl : (WState.install (item :: s.filters.erase item) s).lists.length = s.lists.length + 1 := by simp [WState.install]
  refine ⟨rfl, by show _ ≤ s1.lists.length; omega, fun q hq => ?_⟩
  show s1.list q = _
  rw [h3 q (by omega), list_install_lt _ hq]

end Warn
open Warn

/-- C178. Alone, an estimation (univariate, multivariate, PIN) leaves the warning filters as they were, whether it returns or
raises: the same list object is in force and neither it nor any other list that existed has changed. -/
theorem C178_restored {A : Type} (prep prep1 prep2 : Prog WState Unit) (opt1 opt2 : Prog WState Unit)
    (opt : Prog WState A) (hp : Quiet prep) (hp1 : Quiet prep1) (hp2 : Quiet prep2) (h1 : Quiet opt1) (h2 : Quiet opt2)
    (ho : Quiet opt) (s : WState) (hs : s.cur < s.lists.length) (p : Prog WState A)
    (hpr : p = uniWarn prep opt ∨ p = pinWarn prep opt ∨
      p = multiWarn (uniWarn prep1 opt1) (uniWarn prep2 opt2) prep opt) (s' : WState) (r : Except PyErr A)
    (hr : p.run s = (s', r)) :
    s'.filters = s.filters ∧ s'.cur = s.cur ∧ ∀ q, q < s.lists.length → s'.list q = s.list q := by
  have hR : Restores p := by
    have g : ∀ (item) {B : Type} (prep : Prog WState Unit) (b : Prog WState B), Quiet prep → Quiet b →
        Restores (Prog.bind' prep fun _ => guarded item b) :=
      fun item {B} prep b hp hb => hp.restores.bind fun _ => hb.restores.guarded item
    rcases hpr with rfl | rfl | rfl
    · exact g _ _ _ hp ho
    · exact g _ _ _ hp ho
    · exact (g _ _ _ hp1 h1).bind fun _ => (g _ _ _ hp2 h2).bind fun _ => hp.restores.bind fun _ => ho.restores.guarded _
  obtain ⟨k1, k2, k3⟩ := hR s s' r hs hr
  exact ⟨by unfold WState.filters; rw [k1, k3 _ hs], k1, k3⟩

/-- C178. Alone, the optimisation in an estimation runs under the user's filters with the estimator's own filter in front, and its
outcome is that of the call: a warning that this filter covers is ignored whatever the user's filters say (even "error"), and
nothing else is decided differently. -/
theorem C178_during {A : Type} (M : WMatch) (item : WFilter) (body : Prog WState A) (s : WState) :
    ∃ s', s'.filters = item :: s.filters.erase item ∧ ((guarded item body).run s).2 = (body.run s').2 ∧
      (∀ w, item.hits M w → actionFor M s'.filters w = item.action) ∧
      ∀ w, ¬ item.hits M w → actionFor M s'.filters w = actionFor M s.filters w := by
  refine ⟨WState.install (item :: s.filters.erase item) s, list_install _ _, by rw [run_guarded], ?_, ?_⟩
  · intro w hw
    have : (WState.install (item :: s.filters.erase item) s).filters = item :: s.filters.erase item := list_install _ _
    rw [this]
    simp [actionFor, hw]
  · intro w hw
    have : (WState.install (item :: s.filters.erase item) s).filters = item :: s.filters.erase item := list_install _ _
    rw [this]
    have key : ∀ l : List WFilter, (l.erase item).find? (fun f => f.hits M w) = l.find? (fun f => f.hits M w) := by
      intro l
      induction l with
      | nil => rfl
      | cons a l ih =>
        by_cases ha : a = item
        · subst ha
          simp [hw]
        · rw [List.erase_cons_tail (by simpa using ha)]
          simp only [List.find?_cons, ih]
    unfold actionFor
    rw [List.find?_cons_of_neg (by simpa using hw), key]

/-- during a PIN estimation a division by zero in the likelihood is ignored although the user has asked for exceptions -/
example (M : WMatch) (hsub : ∀ c, M.sub c c) {A : Type} (body : Prog WState A) :
    ∃ s', ((guarded runtimeItem body).run ⟨[[⟨"error", none, "RuntimeWarning", none, 0⟩]], 0⟩).2 = (body.run s').2 ∧
      actionFor M s'.filters ⟨"divide by zero encountered in log", "RuntimeWarning", "frds", 139⟩ = "ignore" := by
  obtain ⟨s', -, h2, h3, -⟩ := C178_during M runtimeItem body ⟨[[⟨"error", none, "RuntimeWarning", none, 0⟩]], 0⟩
  exact ⟨s', h2, h3 _ ⟨fun p hp => (by cases hp), hsub _, fun p hp => (by cases hp), .inl rfl⟩⟩

/-- an estimation whose optimiser raises -/
example (s : WState) (hs : s.cur < s.lists.length) (s' : WState) (r : Except PyErr Unit)
    (hr : (uniWarn (.done (.ok ())) (.done (.error .valueError))).run s = (s', r)) :
    s'.filters = s.filters :=
  (C178_restored _ _ _ _ _ _ (.done _) (.done (.ok ())) (.done (.ok ())) (.done (.ok ())) (.done (.ok ())) (.done _) s hs _ (.inl rfl) s' r hr).1

/-! #### concurrent calls -/

namespace Warn
variable {ι A : Type}

/-- the two filters the estimators use -/
def Own (f : WFilter) : Prop := f = boundsItem ∨ f = runtimeItem

/-- the filters that are not the estimators' own -/
def others (l : List WFilter) : List WFilter := l.filter fun f => ¬ Own f

/-- a univariate fit, a PIN estimation, or a multivariate fit, with arbitrary numerical work -/
def Method (p : Prog WState A) : Prop := ∃ prep opt, Quiet prep ∧ Quiet opt ∧
  (p = uniWarn prep opt ∨ p = pinWarn prep opt ∨ ∃ prep1 opt1 prep2 opt2, Quiet prep1 ∧ Quiet opt1 ∧ Quiet prep2 ∧ Quiet opt2 ∧
    p = multiWarn (uniWarn prep1 opt1) (uniWarn prep2 opt2) prep opt)

theorem others_cons {f : WFilter} (h : Own f) (l : List WFilter) : others (f :: l) = others l := by
  unfold others; rw [List.filter_cons_of_neg (by simpa using h)]

theorem others_erase {f : WFilter} (h : Own f) (l : List WFilter) : others (l.erase f) = others l := by
  induction l with
  | nil => rfl
  | cons a l ih =>
    by_cases ha : a = f
    · subst ha; rw [List.erase_cons_head, others_cons h]
    · rw [List.erase_cons_tail (by simpa using ha)]
      unfold others at ih ⊢
      simp only [List.filter_cons, ih]

/-- what always holds -/
structure WInv (s0 s : WState) : Prop where
  cur : s.cur = s0.cur ∨ s0.lists.length ≤ s.cur
  lt : s.cur < s.lists.length
  le : s0.lists.length ≤ s.lists.length
  kept : ∀ q, q < s0.lists.length → q ≠ s0.cur → s.list q = s0.list q
  others : ∀ q, q < s.lists.length → (q = s0.cur ∨ s0.lists.length ≤ q) → Warn.others (s.list q) = Warn.others s0.filters

def WG (s0 s s' : WState) : Prop := WInv s0 s → WInv s0 s' ∧ s.lists.length ≤ s'.lists.length

theorem WG_refl {s0 : WState} (s : WState) : WG s0 s s := fun h => ⟨h, le_refl _⟩
theorem WG_trans {s0 : WState} (a b c : WState) (h : WG s0 a b) (h' : WG s0 b c) : WG s0 a c :=
  fun hi => ⟨(h' (h hi).1).1, le_trans (h hi).2 (h' (h hi).1).2⟩

/-- code that keeps the invariant, whatever the other threads do -/
def Fine (s0 : WState) (p : Prog WState A) : Prop := ∀ s, WInv s0 s → Ok (WG s0) (fun _ s' => WInv s0 s') p s

theorem Quiet.fine {s0 : WState} {p : Prog WState A} (h : Quiet p) : Fine s0 p := by
  induction h with
  | done r => exact fun s hs s' hg => (hg hs).1
  | read k _ ih => exact fun s hs s' hg => ih s' s' (hg hs).1

theorem Fine.bind {B : Type} {s0 : WState} {p : Prog WState A} {k : A → Prog WState B} (h : Fine s0 p) (hk : ∀ a, Fine s0 (k a)) :
    Fine s0 (Prog.bind' p k) := by
  intro s hs
  refine Ok.bind WG_refl ((h s hs).weaken ?_)
  intro r s' hr
  cases r with
  | ok a => exact hk a s' hr
  | error e => exact hr

theorem Fine.finally' {s0 : WState} {p : Prog WState A} {k : Prog WState Unit} (h : Fine s0 p) (hk : Fine s0 k) :
    Fine s0 (finally' p k) := by
  suffices key : ∀ s, Ok (WG s0) (fun _ s' => WInv s0 s') p s → WInv s0 s →
      Ok (WG s0) (fun _ s' => WInv s0 s') (Conc.finally' p k) s from fun s hs => key s (h s hs) hs
  clear h
  induction p with
  | done r =>
    intro s _ hs
    refine Ok.bind WG_refl ((hk s hs).weaken ?_)
    intro a s1 h1
    cases a with
    | ok u => exact fun s2 h2 => (h2 h1).1
    | error e => exact h1
  | read f ih => exact fun s hs hi s' hg => ih s' s' (hs s' hg) (hg hi).1
  | write f m ih => exact fun s hs hi s' hg => ⟨(hs s' hg).1, ih _ (hs s' hg).2 ((hs s' hg).1 (hg hi).1).1⟩

/-- changing in place a list that may be changed -/
theorem change_fine {s0 s : WState} (h : WInv s0 s) {r : ℕ} (hr : r = s0.cur ∨ s0.lists.length ≤ r)
    {f : List WFilter → List WFilter} (hf : ∀ l, others (f l) = others l) : WInv s0 (WState.change r f s) := by
  have hl : (WState.change r f s).lists.length = s.lists.length := by simp [WState.change]
  refine ⟨h.cur, by rw [hl]; exact h.lt, by rw [hl]; exact h.le, fun q hq hq' => ?_, fun q hq hq' => ?_⟩
  · rw [list_change_ne (by rintro rfl; rcases hr with hr | hr
                           · exact hq' hr
                           · omega), h.kept q hq hq']
  · rw [hl] at hq
    by_cases he : r = q
    · subst he
      rw [list_change hq, hf, h.others _ hq hq']
    · rw [list_change_ne he, h.others _ hq hq']

theorem filter_fine (s0 : WState) {item : WFilter} (hi : Own item) : Fine s0 (filterWarnings item) := by
  intro s hs
  unfold filterWarnings
  simp only [Prog.bind_eq]
  refine Ok.bind WG_refl (Ok.get ?_)
  intro s1 h1 s2 h2
  have i1 := (h1 hs).1
  have i2 := (h2 i1).1
  simp only
  refine Ok.bind WG_refl (Ok.put ?_)
  intro s3 h3
  have i3 := (h3 i2).1
  have i4 := change_fine i3 i1.cur (f := fun l => l.erase item) (others_erase hi)
  refine ⟨fun _ => ⟨i4, by simp [WState.change]⟩, ?_⟩
  intro s4 h4
  have i5 := (h4 i4).1
  simp only
  refine Ok.bind WG_refl (Ok.get ?_)
  intro s5 h5 s6 h6
  have i6 := (h5 i5).1
  have i7 := (h6 i6).1
  simp only
  refine Ok.put ?_
  intro s7 h7
  have i8 := (h7 i7).1
  have i9 := change_fine i8 i6.cur (f := fun l => item :: l) (others_cons hi)
  exact ⟨fun _ => ⟨i9, by simp [WState.change]⟩, fun s8 h8 => (h8 i9).1⟩

theorem Fine.guarded {s0 : WState} {item : WFilter} (hi : Own item) {body : Prog WState A} (h : Quiet body) :
    Fine s0 (guarded item body) := by
  intro s hs
  unfold Conc.guarded
  simp only [Prog.bind_eq]
  refine Ok.bind WG_refl (Ok.get ?_)
  intro s1 h1 s2 h2
  have i1 := (h1 hs).1
  obtain ⟨i2, l2⟩ := h2 i1
  simp only
  refine Ok.bind WG_refl (Ok.get ?_)
  intro s3 h3 s4 h4
  obtain ⟨i3, l3⟩ := h3 i2
  obtain ⟨i4, l4⟩ := h4 i3
  have e3 : others (s3.list s1.cur) = others s0.filters := by
    have := i1.lt
    exact i3.others _ (by omega) i1.cur
  simp only
  refine Ok.bind WG_refl (Ok.put ?_)
  intro s5 h5
  obtain ⟨i5, l5⟩ := h5 i4
  have i6 : WInv s0 (WState.install (s3.list s1.cur) s5) := by
    have hl : (WState.install (s3.list s1.cur) s5).lists.length = s5.lists.length + 1 := by simp [WState.install]
    refine ⟨.inr i5.le, by rw [hl]; exact Nat.lt_succ_self _, by have := i5.le; omega, fun q hq hq' => ?_, fun q hq hq' => ?_⟩
    · rw [list_install_lt _ (by have := i5.le; omega), i5.kept q hq hq']
    · by_cases hlt : q < s5.lists.length
      · rw [list_install_lt _ hlt, i5.others q hlt hq']
      · have : q = s5.lists.length := by omega
        rw [this, list_install, e3]
  refine ⟨fun _ => ⟨i6, by simp [WState.install]⟩, ?_⟩
  intro s6 h6
  obtain ⟨i7, l7⟩ := h6 i6
  simp only
  -- restoring: the saved list object exists in all later states
  have hlen : s1.lists.length ≤ s6.lists.length := by
    have : (WState.install (s3.list s1.cur) s5).lists.length = s5.lists.length + 1 := by simp [WState.install]
    omega
  have hlt1 := i1.lt
  suffices key : ∀ (p : Prog WState A) (s : WState), Ok (WG s0) (fun _ s' => WInv s0 s') p s → WInv s0 s →
      s1.lists.length ≤ s.lists.length → Ok (WG s0) (fun _ s' => WInv s0 s')
        (Conc.finally' p (Prog.put fun s => { s with cur := s1.cur })) s from
    key _ s6 ((filter_fine s0 hi).bind (fun _ => h.fine) s6 i7) i7 hlen
  intro p
  induction p with
  | done r =>
    intro s _ hs hl
    refine Ok.bind WG_refl (Ok.put ?_)
    intro s' hg
    obtain ⟨j1, j2⟩ := hg hs
    have j3 : WInv s0 { s' with cur := s1.cur } :=
      ⟨i1.cur, by show s1.cur < s'.lists.length; omega, j1.le, j1.kept, j1.others⟩
    exact ⟨fun _ => ⟨j3, le_refl _⟩, fun s2 h2 s3 h3 => (h3 (h2 j3).1).1⟩
  | read f ih => exact fun s hs hi hl s' hg => ih s' s' (hs s' hg) (hg hi).1 (le_trans hl (hg hi).2)
  | write f m ih =>
    exact fun s hs hi hl s' hg => ⟨(hs s' hg).1, ih _ (hs s' hg).2 ((hs s' hg).1 (hg hi).1).1
      (le_trans hl (le_trans (hg hi).2 ((hs s' hg).1 (hg hi).1).2))⟩

theorem Method.fine {s0 : WState} {p : Prog WState A} (h : Method p) : Fine s0 p := by
  obtain ⟨prep, opt, hp, ho, h⟩ := h
  have hb : Own boundsItem := .inl rfl
  rcases h with rfl | rfl | ⟨prep1, opt1, prep2, opt2, h1, h2, h3, h4, rfl⟩
  · exact hp.fine.bind fun _ => Fine.guarded hb ho
  · exact hp.fine.bind fun _ => Fine.guarded (.inr rfl) ho
  · exact (h1.fine.bind fun _ => Fine.guarded hb h2).bind fun _ => (h3.fine.bind fun _ => Fine.guarded hb h4).bind fun _ =>
      hp.fine.bind fun _ => Fine.guarded hb ho

theorem find_others (M : WMatch) (w : Conc.Warn) (hw : ∀ f, Own f → ¬ f.hits M w) (l : List WFilter) :
    l.find? (fun f => f.hits M w) = (others l).find? (fun f => f.hits M w) := by
  induction l with
  | nil => rfl
  | cons a l ih =>
    by_cases ha : Own a
    · rw [others_cons ha, List.find?_cons_of_neg (by simpa using hw a ha), ih]
    · unfold others at ih ⊢
      rw [List.filter_cons_of_pos (by simpa using ha)]
      simp only [List.find?_cons, ih]

/-- entering a guarded block -/
def enterAdd (item : WFilter) : Prog WState ℕ := do
  let s ← Prog.get
  let saved := s.cur
  let s ← Prog.get
  Prog.put (WState.install (s.list saved))
  filterWarnings item
  return saved

theorem guarded_eq (item : WFilter) (body : Prog WState A) : guarded item body =
    Prog.bind' (enterAdd item) fun saved => Conc.finally' body (Prog.put fun s => { s with cur := saved }) := rfl

theorem run_enterAdd (item : WFilter) (s : WState) :
    (enterAdd item).run s = (WState.install (item :: s.filters.erase item) s, .ok s.cur) := by
  unfold enterAdd
  simp only [Prog.bind_eq, Prog.run_bind, Prog.run_get, Prog.run_put]
  have : (filterWarnings item).run (WState.install (s.list s.cur) s) =
      (WState.install (item :: s.filters.erase item) s, .ok ()) := run_filter_install _ _ _
  rw [this]
  rfl

theorem left_behind (a b : WFilter) (s : WState) (hs : s.cur < s.lists.length) (thr : ι → Prog WState A) {i j : ι} (hij : i ≠ j)
    {prepA prepB : Prog WState Unit} {bodyA bodyB : Prog WState A} (hi : thr i = Prog.bind' prepA fun _ => guarded a bodyA)
    (hj : thr j = Prog.bind' prepB fun _ => guarded b bodyB) (hpa : Quiet prepA) (hpb : Quiet prepB) (hba : Quiet bodyA)
    (hbb : Quiet bodyB) (oka : (prepA.run s).2 = .ok ()) (okb : (prepB.run s).2 = .ok ()) :
    ∃ sched : List ι, ∃ c, c = (Sys.mk s thr).exec sched ∧ (c.result i).isSome ∧ (c.result j).isSome ∧
      c.shared.filters = a :: s.filters.erase a := by
  have ra : prepA.run s = (s, .ok ()) := Prod.ext (hpa.run s) oka
  have rb : prepB.run s = (s, .ok ()) := Prod.ext (hpb.run s) okb
  -- both threads prepare
  have r1 := Sys.Reaches.prefix (c := Sys.mk s thr) j hj rb
  generalize hc1 : (Sys.mk s (Function.update _ j _)) = c1 at r1
  have s1 := congrArg Sys.shared hc1
  have u1 := congrArg Sys.thread hc1
  simp only at s1 u1
  have r2 := Sys.Reaches.prefix (c := c1) i (by rw [← u1, Function.update_of_ne hij, hi]) (by rw [← s1]; exact ra)
  generalize hc2 : (Sys.mk s (Function.update _ i _)) = c2 at r2
  have s2 := congrArg Sys.shared hc2
  have u2 := congrArg Sys.thread hc2
  simp only at s2 u2
  -- the first enters
  have r3 := Sys.Reaches.prefix (c := c2) i (by rw [← u2, Function.update_self, guarded_eq])
    (by rw [← s2]; exact run_enterAdd a s)
  generalize hc3 : (Sys.mk _ (Function.update c2.thread i _)) = c3 at r3
  have s3 := congrArg Sys.shared hc3
  have u3 := congrArg Sys.thread hc3
  simp only at s3 u3
  -- the second enters
  have r4 := Sys.Reaches.prefix (c := c3) j
    (by rw [← u3, Function.update_of_ne hij.symm, ← u2, Function.update_of_ne hij.symm, ← u1, Function.update_self, guarded_eq])
    (run_enterAdd b c3.shared)
  generalize hc4 : (Sys.mk _ (Function.update c3.thread j _)) = c4 at r4
  have s4 := congrArg Sys.shared hc4
  have u4 := congrArg Sys.thread hc4
  simp only at s4 u4
  -- the first leaves
  have q4 := hba.run c4.shared
  have r5 := Sys.Reaches.alone c4 i (s' := { c4.shared with cur := s.cur }) (r := (bodyA.run c4.shared).2) (by
    rw [← u4, Function.update_of_ne hij, ← u3, Function.update_self]
    show (Conc.finally' bodyA (Prog.put fun t => { t with cur := s.cur })).run c4.shared = _
    rw [run_finally, q4])
  generalize hc5 : (Sys.mk _ (Function.update c4.thread i _)) = c5 at r5
  have s5 := congrArg Sys.shared hc5
  have u5 := congrArg Sys.thread hc5
  simp only at s5 u5
  -- the second leaves
  have q5 := hbb.run c5.shared
  have r6 := Sys.Reaches.alone c5 j (s' := { c5.shared with cur := c3.shared.cur }) (r := (bodyB.run c5.shared).2) (by
    rw [← u5, Function.update_of_ne hij.symm, ← u4, Function.update_self]
    show (Conc.finally' bodyB (Prog.put fun t => { t with cur := c3.shared.cur })).run c5.shared = _
    rw [run_finally, q5])
  obtain ⟨sched, hsch⟩ := r1.trans (r2.trans (r3.trans (r4.trans (r5.trans r6))))
  refine ⟨sched, _, rfl, ?_, ?_, ?_⟩
  · rw [Sys.result_done (r := (bodyA.run c4.shared).2) (by
      rw [hsch]; simp only; rw [Function.update_of_ne hij, ← u5, Function.update_self])]
    rfl
  · rw [Sys.result_done (r := (bodyB.run c5.shared).2) (by rw [hsch]; simp only; rw [Function.update_self])]
    rfl
  · rw [hsch]
    show WState.list { c5.shared with cur := c3.shared.cur } c3.shared.cur = _
    have e : WState.list { c5.shared with cur := c3.shared.cur } c3.shared.cur = c4.shared.list c3.shared.cur := by
      rw [← s5]; rfl
    have ecur : c3.shared.cur = s.lists.length := by rw [← s3]; rfl
    rw [e, ← s4, list_install_lt _ (by rw [ecur, ← s3]; simp [WState.install]), ecur, ← s3, list_install]

end Warn

/-- C178. Any number of threads run estimations (of one object or of different ones). Under every schedule, at every moment, the
user's filters are all in force in the user's order, up to the estimators' own two; so every warning that these two do
not cover is treated as before the calls. Filter lists saved elsewhere are untouched. -/
theorem C178_concurrent {ι A : Type} (thr : ι → Prog WState A) (h : ∀ i, Method (thr i)) (s : WState)
    (hs : s.cur < s.lists.length) (sched : List ι) (c : Sys ι WState A) (hc : c = (Sys.mk s thr).exec sched) :
    others c.shared.filters = others s.filters ∧
    (∀ (M : WMatch) (w : Conc.Warn), ¬ boundsItem.hits M w → ¬ runtimeItem.hits M w →
      actionFor M c.shared.filters w = actionFor M s.filters w) ∧
    ∀ q, q < s.lists.length → q ≠ s.cur → c.shared.list q = s.list q := by
  subst hc
  have hself : WInv s s := ⟨.inl rfl, hs, le_refl _, fun _ _ _ => rfl, fun q hq h => by
    rcases h with rfl | h
    · rfl
    · omega⟩
  have hok : ∀ i, Ok (WG s) (fun _ s' => WInv s s') ((Sys.mk s thr).thread i) (Sys.mk s thr).shared :=
    fun i => (h i).fine s hself
  have hG := ((Ok.sound WG_refl WG_trans hok sched).1 hself).1
  have ho : others ((Sys.mk s thr).exec sched).shared.filters = others s.filters := hG.others _ hG.lt hG.cur
  refine ⟨ho, fun M w h1 h2 => ?_, hG.kept⟩
  have hw : ∀ f, Own f → ¬ f.hits M w := by rintro f (rfl | rfl) <;> assumption
  unfold actionFor
  rw [find_others M w hw, ho, ← find_others M w hw]

/-- C178. Overlapping estimations can leave a filter behind: for any two calls with their own filters `a` and `b` that get past their
preparation, there is a schedule after which both have finished and `a` is in front of the user's filters, for good. -/
theorem C178_left_behind {A : Type} (a b : WFilter) (s : WState) (hs : s.cur < s.lists.length)
    (prep : Bool → Prog WState Unit) (body : Bool → Prog WState A) (hp : ∀ i, Quiet (prep i)) (hb : ∀ i, Quiet (body i))
    (ok : ∀ i, ((prep i).run s).2 = .ok ()) :
    ∃ sched : List Bool, ∃ c, c = (Sys.mk s fun i : Bool =>
        Prog.bind' (prep i) fun _ => guarded (if i then a else b) (body i)).exec sched ∧
      (∀ i, (c.result i).isSome) ∧ c.shared.filters = a :: s.filters.erase a := by
  obtain ⟨sched, c, hc, h1, h2, h3⟩ := Warn.left_behind a b s hs (fun i : Bool =>
    Prog.bind' (prep i) fun _ => guarded (if i then a else b) (body i)) (i := true) (j := false) (by simp) rfl rfl
    (hp _) (hp _) (hb _) (hb _) (ok _) (ok _)
  exact ⟨sched, c, hc, fun i => by cases i <;> assumption, h3⟩

/-- a PIN estimation overlapping with a fit: afterwards every `RuntimeWarning` of the process is ignored, although the user has
asked for exceptions -/
example (M : WMatch) (hsub : ∀ c, M.sub c c) (text mod : String) (n : ℕ) :
    ∃ sched : List Bool, ∃ c, c = (Sys.mk ⟨[[⟨"error", none, "RuntimeWarning", none, 0⟩]], 0⟩ fun i : Bool =>
        if i then pinWarn (.done (.ok ())) (.done (.ok ())) else uniWarn (.done (.ok ())) (.done (.ok ()))).exec sched ∧
      (∀ i, (c.result i).isSome) ∧ actionFor M c.shared.filters ⟨text, "RuntimeWarning", mod, n⟩ = "ignore" := by
  obtain ⟨sched, c, hc, h1, h2⟩ := C178_left_behind (A := Unit) runtimeItem boundsItem
    ⟨[[⟨"error", none, "RuntimeWarning", none, 0⟩]], 0⟩ (by simp) (fun _ => .done (.ok ())) (fun _ => .done (.ok ()))
    (fun _ => .done _) (fun _ => .done _) (fun _ => rfl)
  refine ⟨sched, c, ?_, h1, ?_⟩
  · rw [hc]
    congr 2
    funext i
    cases i <;> rfl
  · rw [h2]
    have : runtimeItem.hits M ⟨text, "RuntimeWarning", mod, n⟩ :=
      ⟨fun p hp => (by cases hp), hsub _, fun p hp => (by cases hp), .inl rfl⟩
    simp only [actionFor]
    rw [List.find?_cons_of_pos (by simpa using this)]
    rfl

/-- and these two calls are methods to which `C178_concurrent` applies -/
example : ∀ i : Bool, Method (A := Unit) (if i then pinWarn (.done (.ok ())) (.done (.ok ())) else
    uniWarn (.done (.ok ())) (.done (.ok ()))) := by
  intro i
  cases i
  · exact ⟨_, _, .done _, .done _, .inl rfl⟩
  · exact ⟨_, _, .done _, .done _, .inr (.inl rfl)⟩

/-! #### the simulation -/

/-- C179. `simulate` changes the process's warning filters for good. Alone: if it returns, or raises after line 143, then afterwards
every warning is treated as "default", whatever filters the user had installed before; if its loop raises, every
`RuntimeWarning` is ignored afterwards and the others are treated as before; if it raises before, nothing has changed. -/
theorem C179_simulate {A B C : Type} (M : WMatch) (hsub : ∀ c, M.sub c c) (hw : ∀ c, M.sub c "Warning")
    (before : Prog WState A) (loop : A → Prog WState B) (after : A → B → Prog WState C) (h1 : Quiet before)
    (h2 : ∀ a, Quiet (loop a)) (h3 : ∀ a b, Quiet (after a b)) (s : WState) (hs : s.cur < s.lists.length)
    (s' : WState) (r : Except PyErr C) (hr : (simWarn before loop after).run s = (s', r)) :
    (∀ e, (before.run s).2 = .error e → s'.filters = s.filters ∧ r = .error e) ∧
    ∀ a, (before.run s).2 = .ok a → ∃ t, t.filters = runtimeItem :: s.filters.erase runtimeItem ∧
      (∀ e, ((loop a).run t).2 = .error e → r = .error e ∧
        (∀ w, w.category = "RuntimeWarning" → actionFor M s'.filters w = "ignore") ∧
        ∀ w, ¬ M.sub w.category "RuntimeWarning" → actionFor M s'.filters w = actionFor M s.filters w) ∧
      ∀ b, ((loop a).run t).2 = .ok b → ∃ t', t'.filters = s'.filters ∧ r = ((after a b).run t').2 ∧
        ∀ w, actionFor M s'.filters w = "default" := by
  unfold simWarn at hr
  simp only [Prog.bind_eq, Prog.run_bind] at hr
  have q1 := h1.run s
  cases hb : (before.run s).2 with
  | error e =>
    rw [hb, q1] at hr
    simp only [Prod.mk.injEq] at hr
    obtain ⟨rfl, rfl⟩ := hr
    exact ⟨fun e' he => ⟨rfl, by injection he with he; rw [he]⟩, fun a ha => (by cases ha)⟩
  | ok a =>
    rw [hb, q1] at hr
    refine ⟨fun e he => (by cases he), ?_⟩
    rintro a' ha'
    injection ha' with ha'
    subst ha'
    obtain ⟨t, ht, tc, tl, tf⟩ := run_filter runtimeItem s hs
    simp only [ht] at hr
    have q2 := (h2 a).run t
    refine ⟨t, tf, ?_, ?_⟩
    · intro e he
      rw [he, q2] at hr
      simp only [Prod.mk.injEq] at hr
      obtain ⟨rfl, rfl⟩ := hr
      refine ⟨rfl, fun w hwc => ?_, fun w hwc => ?_⟩
      · rw [tf]
        have : runtimeItem.hits M w :=
          ⟨fun p hp => (by cases hp), (by rw [hwc]; exact hsub _), fun p hp => (by cases hp), .inl rfl⟩
        simp only [actionFor]
        rw [List.find?_cons_of_pos (by simpa using this)]
        rfl
      · obtain ⟨t2, k1, -, -, k4⟩ := C178_during M runtimeItem (Prog.done (.ok ())) s
        have := k4 w fun hh => hwc hh.2.1
        rw [tf, ← k1, this]
    · intro b hb'
      rw [hb', q2] at hr
      obtain ⟨t2, ht2, tc2, tl2, tf2⟩ := run_filter defaultItem t (by omega)
      simp only [ht2] at hr
      have q3 := (h3 a b).run t2
      have e1 : s' = t2 := by rw [← q3, hr]
      refine ⟨t2, by rw [e1], by rw [hr], fun w => ?_⟩
      rw [e1, tf2]
      have : defaultItem.hits M w := ⟨fun p hp => (by cases hp), hw _, fun p hp => (by cases hp), .inl rfl⟩
      simp only [actionFor]
      rw [List.find?_cons_of_pos (by simpa using this)]
      rfl

/-- a user who turned warnings into exceptions: after the simulation they are only printed -/
example (M : WMatch) (hsub : ∀ c, M.sub c c) (hw : ∀ c, M.sub c "Warning") (w : Conc.Warn) (s' : WState) (r : Except PyErr Unit)
    (hr : (simWarn (A := Unit) (B := Unit) (.done (.ok ())) (fun _ => .done (.ok ())) (fun _ _ => .done (.ok ()))).run
      ⟨[[⟨"error", none, "Warning", none, 0⟩]], 0⟩ = (s', r)) : actionFor M s'.filters w = "default" := by
  obtain ⟨t, -, -, h⟩ := (C179_simulate M hsub hw _ _ _ (.done _) (fun _ => .done _) (fun _ _ => .done _) _ (by simp) s' r hr).2 () rfl
  obtain ⟨-, -, -, h⟩ := h () rfl
  exact h w

end
end Frds.Props

import Verif.Lemmas.Crash
import Verif.Props.MgarchEst

/-! C173, C174: interrupted estimations. -/
namespace Frds.Props
noncomputable section
open Frds Frds.Model Frds.Model.Crash Frds.Model.Crash.Run Classical
set_option linter.unusedSimpArgs false
set_option linter.unusedVariables false

namespace Crash

/-- the optimiser evaluates the objective at least once -/
def Evaluates {P : Type} (opt : Optimizer P) : Prop := ∀ c f x0, (opt c f x0).trace ≠ []

/-- the variance recursion fails only for its shapes -/
theorem garchVariance_shape {cpp : Bool} {v v' : GarchVar} {r r' : List XR} {bc bc' : XR} {vb : List (XR × XR)} {s : List XR}
    (h : garchVariance cpp v r bc vb = .ok s) (hl : r'.length = r.length) : ∃ s', garchVariance cpp v' r' bc' vb = .ok s' := by
  unfold garchVariance variancePath at h ⊢
  have hn : r = [] ↔ r' = [] := by rw [← List.length_eq_zero_iff, ← hl, List.length_eq_zero_iff]
  by_cases h1 : r = []
  · rw [if_pos h1] at h; cases h
  rw [if_neg h1] at h
  rw [if_neg (fun h => h1 (hn.mpr h)), hl]
  by_cases h2 : 2 ≤ r.length ∧ vb.length < r.length
  · rw [if_pos h2] at h; cases h
  rw [if_neg h2]
  exact ⟨_, rfl⟩

theorem gjrVariance_shape {cpp : Bool} {v v' : GjrVar} {r r' : List XR} {bc bc' : XR} {vb : List (XR × XR)} {s : List XR}
    (h : gjrVariance cpp v r bc vb = .ok s) (hl : r'.length = r.length) : ∃ s', gjrVariance cpp v' r' bc' vb = .ok s' := by
  unfold gjrVariance variancePath at h ⊢
  have hn : r = [] ↔ r' = [] := by rw [← List.length_eq_zero_iff, ← hl, List.length_eq_zero_iff]
  by_cases h1 : r = []
  · rw [if_pos h1] at h; cases h
  rw [if_neg h1] at h
  rw [if_neg (fun h => h1 (hn.mpr h)), hl]
  by_cases h2 : 2 ≤ r.length ∧ vb.length < r.length
  · rw [if_pos h2] at h; cases h
  rw [if_neg h2]
  exact ⟨_, rfl⟩

theorem gridSearch_some {P : Type} {cands : List P} {path : P → Except PyErr (List XR)} {resids : List XR} {v : P}
    (h : gridSearch cands path resids = .ok (some v)) : ∃ p s, path p = .ok s := by
  unfold gridSearch at h
  cases cands with
  | nil => simp [List.foldlM_nil, pure, Except.pure] at h
  | cons p l =>
    rw [List.foldlM_cons] at h
    cases hp : path p with
    | error e => simp [hp, bind, Except.bind] at h
    | ok s => exact ⟨p, s, hp⟩

/-- after a successful choice of starting values no evaluation of the objective fails -/
def Total {V : Type} (cpp : Bool) (var : V → List XR → XR → List (XR × XR) → Except PyErr (List XR))
    (start : List XR → List XR → XR → List (XR × XR) → Except PyErr (Option V)) : Prop :=
  ∀ (o : GarchObj V) vb v0, varianceBounds cpp (prepResids o) = .ok vb →
    start o.returns (prepResids o) (backcast (prepResids o)) vb = .ok (some v0) →
    ∀ p, ∃ q, modelPath var o (backcast (prepResids o)) vb p = .ok q

theorem prepResids_length {V : Type} (o : GarchObj V) : (prepResids o).length = o.returns.length := by
  unfold prepResids demean
  split_ifs <;> simp

theorem total_garch (cpp : Bool) : Total cpp (garchVariance cpp) (garchStart cpp) := by
  intro o vb v0 hb hs p
  obtain ⟨c, s, hc⟩ := gridSearch_some hs
  unfold modelPath
  obtain ⟨s', hs'⟩ := garchVariance_shape (v' := p.2) (bc' := backcast (prepResids o))
    (r' := if o.zeroMean then o.returns else demean o.returns p.1) hc
    (by rw [prepResids_length]; unfold demean; split_ifs <;> simp)
  simp only [bind, Except.bind, pure, Except.pure, hs']
  exact ⟨_, rfl⟩

theorem total_gjr (cpp : Bool) : Total cpp (gjrVariance cpp) (fun ret res _ _ => gjrStart cpp ret res) := by
  intro o vb v0 hb hs p
  simp only [gjrStart, hb, bind, Except.bind] at hs
  obtain ⟨c, s, hc⟩ := gridSearch_some hs
  unfold modelPath
  obtain ⟨s', hs'⟩ := gjrVariance_shape (v' := p.2) (bc' := backcast (prepResids o))
    (r' := if o.zeroMean then o.returns else demean o.returns p.1) hc
    (by rw [prepResids_length]; unfold demean; split_ifs <;> simp)
  simp only [bind, Except.bind, pure, Except.pure, hs']
  exact ⟨_, rfl⟩

variable {V : Type} {cpp : Bool} {var : V → List XR → XR → List (XR × XR) → Except PyErr (List XR)}
  {start : List XR → List XR → XR → List (XR × XR) → Except PyErr (Option V)}
  {feas : Bool → Feas (XR × V)} {opt : Optimizer (XR × V)}

/-- the path at the last evaluated point -/
def lastPath (var : V → List XR → XR → List (XR × XR) → Except PyErr (List XR)) (o : GarchObj V) (bc : XR)
    (vb : List (XR × XR)) (trace : List (XR × V)) : List XR :=
  match trace.getLast? with
  | some p => match modelPath var o bc vb p with
    | .ok (_, s2) => s2
    | .error _ => o.sigma2
  | none => o.sigma2

theorem modelPath_congr {o o' : GarchObj V} (h1 : o'.returns = o.returns) (h2 : o'.zeroMean = o.zeroMean) (bc : XR)
    (vb : List (XR × XR)) : modelPath var o' bc vb = modelPath var o bc vb := by
  funext p; unfold modelPath; rw [h1, h2]

theorem exec_evals (o : GarchObj V) (bc : XR) (vb : List (XR × XR)) (hok : ∀ p, ∃ q, modelPath var o bc vb p = .ok q)
    (trace : List (XR × V)) :
    exec (each (evalAt var bc vb) trace) o = .ok ({ o with sigma2 := lastPath var o bc vb trace }, ()) := by
  rw [exec_each]
  induction trace generalizing o with
  | nil => rfl
  | cons p l ih =>
    obtain ⟨q, hq⟩ := hok p
    have e1 : after (evalAt var bc vb p) o = .ok { o with sigma2 := q.2 } := by
      rw [after_exec]
      simp only [evalAt, bind_eq, exec_andThen, exec_get, exec_lift, exec_write, hq, Except.bind, Except.map]
    rw [List.foldlM_cons]
    simp only [bind, Except.bind, e1]
    rw [ih { o with sigma2 := q.2 } (fun p => hok p)]
    congr 2
    congr 1
    unfold lastPath
    rw [modelPath_congr (o := o) (o' := { o with sigma2 := q.2 }) rfl rfl]
    cases l with
    | nil => simp [hq]
    | cons p' l' =>
      have : (p :: p' :: l').getLast? = (p' :: l').getLast? := by simp [List.getLast?_cons_cons]
      rw [this]
      cases hl : (p' :: l').getLast? with
      | none => simp at hl
      | some w =>
        obtain ⟨q', hq'⟩ := hok w
        simp only [hq']

theorem exec_fitCore (ht : Total cpp var start) (o : GarchObj V) :
    exec (fitCoreRun cpp var start feas opt) o = (fitCore cpp var start feas opt o).map fun q => (q, ()) := by
  unfold fitCoreRun fitCore
  simp only [bind_eq, exec_andThen, exec_get, exec_lift, exec_write, bind, Except.bind, Except.map]
  cases hb : varianceBounds cpp (prepResids o) with
  | error e => rfl
  | ok vb =>
    simp only
    cases hs : start o.returns (prepResids o) (backcast (prepResids o)) vb with
    | error e => rfl
    | ok v0 =>
      cases v0 with
      | none => rfl
      | some v0 =>
        simp only [exec_andThen]
        have hok := ht o vb v0 hb hs
        rw [exec_evals { o with backcast := backcast (prepResids o), bounds := some vb } _ _ (fun p => hok p)]
        simp only [Except.bind, storeResult]
        generalize opt (feas o.zeroMean) (objective var o (backcast (prepResids o)) vb)
          (if o.zeroMean = true then 0 else Np.mean o.returns, v0) = run
        have e : lastPath var { o with backcast := backcast (prepResids o), bounds := some vb } (backcast (prepResids o)) vb run.trace
            = lastPath var o (backcast (prepResids o)) vb run.trace := by
          unfold lastPath
          rw [modelPath_congr (o := o) (o' := { o with backcast := backcast (prepResids o), bounds := some vb }) rfl rfl]
        rw [e]
        by_cases hsu : run.success = true
        · simp only [if_pos hsu, bind_eq, exec_andThen, exec_write, Except.bind]
          rfl
        · simp only [if_neg hsu, exec_ret]
          rfl

/-- the object as far as it is neither estimated nor being estimated -/
def Same (o x : GarchObj V) : Prop :=
  x.returns = o.returns ∧ x.zeroMean = o.zeroMean ∧ x.success = o.success ∧ x.params = o.params ∧ x.resids = o.resids

theorem crash_evals {o x : GarchObj V} {bc : XR} {vb : List (XR × XR)} {trace : List (XR × V)}
    (hx : x ∈ crashStates (each (evalAt var bc vb) trace) o) : ∃ s2, x = { o with sigma2 := s2 } := by
  induction trace generalizing o with
  | nil => simp only [each, crash_ret, List.mem_singleton] at hx; exact ⟨o.sigma2, hx⟩
  | cons p l ih =>
    rw [each, mem_andThen] at hx
    have key : ∀ y, y ∈ crashStates (evalAt var bc vb p) o → ∃ s2, y = { o with sigma2 := s2 } := by
      intro y hy
      simp only [evalAt, bind_eq, mem_andThen, crash_get, crash_lift, crash_write, exec_get, exec_lift, List.mem_singleton,
        List.mem_cons, List.not_mem_nil, or_false] at hy
      rcases hy with rfl | ⟨a, t, h1, hy⟩
      · exact ⟨_, rfl⟩
      injection h1 with h1; injection h1 with h1 h2; subst h1 h2
      rcases hy with rfl | ⟨q, t, h3, hy⟩
      · exact ⟨_, rfl⟩
      have ht : t = o := by
        cases hm : modelPath var o bc vb p with
        | error e => rw [hm] at h3; cases h3
        | ok w => rw [hm] at h3; injection h3 with h3; injection h3 with h3 _; exact h3.symm
      subst ht
      rcases hy with rfl | rfl <;> exact ⟨_, rfl⟩
    rcases hx with hx | ⟨a, t, h1, hx⟩
    · exact key x hx
    · obtain ⟨s2, rfl⟩ := key t (exec_mem h1)
      obtain ⟨s3, h3⟩ := ih hx
      exact ⟨s3, h3⟩

theorem crash_fitCore (ht : Total cpp var start) {o x : GarchObj V} (hx : x ∈ crashStates (fitCoreRun cpp var start feas opt) o) :
    Same o x ∨ ∃ o', fitCore cpp var start feas opt o = .ok o' ∧ o'.success = true ∧
      (x = { o' with params := o.params, resids := o.resids } ∨ x = { o' with resids := o.resids } ∨ x = o') := by
  have hex := exec_fitCore (feas := feas) (opt := opt) ht o
  unfold fitCoreRun at hx hex
  simp only [bind_eq, mem_andThen, crash_get, crash_lift, crash_write, exec_get, exec_lift, exec_write, List.mem_singleton,
    List.mem_cons, List.not_mem_nil, or_false] at hx
  simp only [bind_eq, exec_andThen, exec_get, exec_lift, exec_write, Except.bind] at hex
  rcases hx with rfl | ⟨a, t, h1, hx⟩
  · exact .inl ⟨rfl, rfl, rfl, rfl, rfl⟩
  injection h1 with h1; injection h1 with h1 h2; subst h1 h2
  rcases hx with (rfl | rfl) | ⟨a, t, h1, hx⟩
  · exact .inl ⟨rfl, rfl, rfl, rfl, rfl⟩
  · exact .inl ⟨rfl, rfl, rfl, rfl, rfl⟩
  injection h1 with h1; injection h1 with h1 h2; subst h1
  cases hb : varianceBounds cpp (prepResids o) with
  | error e =>
    rw [hb] at hx
    simp only [Except.map, reduceCtorEq, false_and, exists_false, or_false] at hx
    subst hx
    exact .inl ⟨rfl, rfl, rfl, rfl, rfl⟩
  | ok vb =>
    rw [hb] at hx hex
    simp only [Except.map, Except.ok.injEq, Prod.mk.injEq] at hx hex
    rcases hx with rfl | ⟨a, t, ⟨rfl, rfl⟩, hx⟩
    · exact .inl ⟨rfl, rfl, rfl, rfl, rfl⟩
    rcases hx with (rfl | rfl) | ⟨a, t, ⟨rfl, -⟩, hx⟩
    · exact .inl ⟨rfl, rfl, rfl, rfl, rfl⟩
    · exact .inl ⟨rfl, rfl, rfl, rfl, rfl⟩
    cases hs : start o.returns (prepResids o) (backcast (prepResids o)) vb with
    | error e =>
      rw [hs] at hx
      simp only [reduceCtorEq, false_and, exists_false, or_false] at hx
      subst hx
      exact .inl ⟨rfl, rfl, rfl, rfl, rfl⟩
    | ok v0 =>
      rw [hs] at hx hex
      simp only [Except.ok.injEq, Prod.mk.injEq] at hx hex
      rcases hx with rfl | ⟨a, t, ⟨rfl, rfl⟩, hx⟩
      · exact .inl ⟨rfl, rfl, rfl, rfl, rfl⟩
      cases v0 with
      | none =>
        simp only [crash_lift, List.mem_singleton] at hx
        subst hx
        exact .inl ⟨rfl, rfl, rfl, rfl, rfl⟩
      | some v0 =>
        simp only [mem_andThen] at hx
        simp only [exec_andThen] at hex
        have hok := ht o vb v0 hb hs
        rw [exec_evals { o with backcast := backcast (prepResids o), bounds := some vb } _ _ (fun p => hok p)] at hx hex
        generalize opt (feas o.zeroMean) (objective var o (backcast (prepResids o)) vb)
          (if o.zeroMean = true then 0 else Np.mean o.returns, v0) = run at hx hex
        rcases hx with hx | ⟨a, t, h1, hx⟩
        · obtain ⟨s2, rfl⟩ := crash_evals hx
          exact .inl ⟨rfl, rfl, rfl, rfl, rfl⟩
        injection h1 with h1; injection h1 with h1 h2
        simp only [Except.bind] at hex
        rw [h1] at hex
        have ht : t.returns = o.returns ∧ t.zeroMean = o.zeroMean ∧ t.success = o.success ∧ t.params = o.params ∧
            t.resids = o.resids := by subst h1; exact ⟨rfl, rfl, rfl, rfl, rfl⟩
        clear h1 hok
        unfold storeResult at hx hex
        by_cases hsu : run.success = true
        · simp only [if_pos hsu, bind_eq, exec_andThen, exec_write, Except.bind] at hex
          simp only [if_pos hsu, bind_eq, mem_andThen, crash_write, exec_write, List.mem_cons, List.not_mem_nil, or_false] at hx
          have hF : fitCore cpp var start feas opt o = .ok { t with
              success := true
              params := some (if t.zeroMean then 0 else run.x.1, run.x.2, -run.f)
              resids := demean t.returns (if t.zeroMean then 0 else run.x.1) } := by
            cases hf : fitCore cpp var start feas opt o with
            | error e => rw [hf] at hex; cases hex
            | ok w => rw [hf] at hex; injection hex with hex; injection hex with hex _; rw [← hex]
          have main : Same o t := ht
          rcases hx with (rfl | rfl) | ⟨a, u, h1, hx⟩
          · exact .inl main
          · refine .inr ⟨_, hF, rfl, .inl ?_⟩
            rw [← ht.2.2.2.1, ← ht.2.2.2.2]
          injection h1 with h1; injection h1 with h1 _; subst h1
          rcases hx with (rfl | rfl) | ⟨a, u, h1, hx⟩
          · refine .inr ⟨_, hF, rfl, .inl ?_⟩
            rw [← ht.2.2.2.1, ← ht.2.2.2.2]
          · refine .inr ⟨_, hF, rfl, .inr (.inl ?_)⟩
            rw [← ht.2.2.2.2]
          injection h1 with h1; injection h1 with h1 _; subst h1
          rcases hx with rfl | rfl
          · refine .inr ⟨_, hF, rfl, .inr (.inl ?_)⟩
            rw [← ht.2.2.2.2]
          · exact .inr ⟨_, hF, rfl, .inr (.inr rfl)⟩
        · simp only [if_neg hsu, crash_ret, List.mem_singleton] at hx
          subst hx
          exact .inl ht

theorem fitCore_cases (hev : Evaluates opt) (ht : Total cpp var start) {o x : GarchObj V} (h1 : x.returns = o.returns)
    (h2 : x.zeroMean = o.zeroMean) :
    (∃ o', fitCore cpp var start feas opt o = .ok o' ∧ fitCore cpp var start feas opt x = .ok o') ∨
    (∃ e, fitCore cpp var start feas opt o = .error e ∧ fitCore cpp var start feas opt x = .error e) ∨
    ∃ bc b s2, fitCore cpp var start feas opt o = .ok { o with backcast := bc, bounds := b, sigma2 := s2 } ∧
      fitCore cpp var start feas opt x = .ok { x with backcast := bc, bounds := b, sigma2 := s2 } := by
  have hp : prepResids x = prepResids o := by unfold prepResids; rw [h1, h2]
  have hm : ∀ bc vb, modelPath var x bc vb = modelPath var o bc vb := fun bc vb => modelPath_congr h1 h2 bc vb
  unfold fitCore
  simp only [bind, Except.bind, hp]
  cases hb : varianceBounds cpp (prepResids o) with
  | error e => exact .inr (.inl ⟨e, rfl, rfl⟩)
  | ok vb =>
    simp only [h1]
    cases hs : start o.returns (prepResids o) (backcast (prepResids o)) vb with
    | error e => exact .inr (.inl ⟨e, rfl, rfl⟩)
    | ok v0 =>
      cases v0 with
      | none => exact .inr (.inl ⟨_, rfl, rfl⟩)
      | some v0 =>
        have hobj : objective var x (backcast (prepResids o)) vb = objective var o (backcast (prepResids o)) vb := by
          funext p; unfold objective; rw [hm]
        simp only [hobj, h2, hm]
        have hne := hev (feas o.zeroMean) (objective var o (backcast (prepResids o)) vb)
          (if o.zeroMean = true then 0 else Np.mean o.returns, v0)
        have hok := ht o vb v0 hb hs
        generalize opt (feas o.zeroMean) (objective var o (backcast (prepResids o)) vb)
          (if o.zeroMean = true then 0 else Np.mean o.returns, v0) = run at hne ⊢
        cases hl : run.trace.getLast? with
        | none => rw [List.getLast?_eq_none_iff] at hl; exact absurd hl hne
        | some p =>
          obtain ⟨q, hq⟩ := hok p
          simp only [hq]
          by_cases hsu : run.success = true
          · refine .inl ⟨_, if_pos hsu, ?_⟩
            rw [if_pos hsu]
          · refine .inr (.inr ⟨_, _, _, if_neg hsu, if_neg hsu⟩)

theorem fitCore_same (hev : Evaluates opt) (ht : Total cpp var start) {o x : GarchObj V} (h : Same o x) :
    fitCore cpp var start feas opt x = fitCore cpp var start feas opt o := by
  obtain ⟨h1, h2, h3, h4, h5⟩ := h
  rcases fitCore_cases (feas := feas) hev ht h1 h2 with ⟨o', e1, e2⟩ | ⟨e, e1, e2⟩ | ⟨bc, b, s2, e1, e2⟩
  · rw [e1, e2]
  · rw [e1, e2]
  · rw [e1, e2]
    cases x; cases o; simp_all

theorem fitCore_heal (hev : Evaluates opt) (ht : Total cpp var start) {o x o' : GarchObj V} (h1 : x.returns = o.returns)
    (h2 : x.zeroMean = o.zeroMean) (hs : o.success = false) (hf : fitCore cpp var start feas opt o = .ok o')
    (hs' : o'.success = true) : fitCore cpp var start feas opt x = .ok o' := by
  rcases fitCore_cases (feas := feas) hev ht h1 h2 with ⟨q, e1, e2⟩ | ⟨e, e1, e2⟩ | ⟨bc, b, s2, e1, e2⟩
  · rw [e2, ← e1, hf]
  · rw [hf] at e1; cases e1
  · rw [hf] at e1
    injection e1 with e1
    subst e1
    simp only [hs] at hs'
    cases hs'

theorem fitCore_data {o o' : GarchObj V} (hf : fitCore cpp var start feas opt o = .ok o') :
    o'.returns = o.returns ∧ o'.zeroMean = o.zeroMean := by
  obtain ⟨bc, vb, x0, run, he, _⟩ := fitCore_estimated hf
  exact he.data

/-- the same optimiser, any crash state: the second attempt is the first -/
theorem fitCore_retry (hev : Evaluates opt) (ht : Total cpp var start) {o x : GarchObj V}
    (hx : x ∈ crashStates (fitCoreRun cpp var start feas opt) o) :
    fitCore cpp var start feas opt x = fitCore cpp var start feas opt o := by
  rcases crash_fitCore ht hx with h | ⟨o', hf, hs', hx⟩
  · exact fitCore_same hev ht h
  · have hd := fitCore_data hf
    have hd' : x.returns = o.returns ∧ x.zeroMean = o.zeroMean := by
      rcases hx with rfl | rfl | rfl <;> exact hd
    rcases fitCore_cases (feas := feas) hev ht hd'.1 hd'.2 with ⟨q, e1, e2⟩ | ⟨e, e1, e2⟩ | ⟨bc, b, s2, e1, e2⟩
    · rw [e1, e2]
    · rw [e1, e2]
    · refine fitCore_same hev ht ?_
      rw [hf] at e1
      injection e1 with e1
      subst e1
      rcases hx with rfl | rfl | rfl <;> exact ⟨rfl, rfl, rfl, rfl, rfl⟩

theorem torn_mem (ht : Total cpp var start) {o o' : GarchObj V} (hf : fitCore cpp var start feas opt o = .ok o')
    (hs : o.success = false) (hs' : o'.success = true) :
    { o' with params := o.params, resids := o.resids } ∈ crashStates (fitCoreRun cpp var start feas opt) o ∧
    { o' with resids := o.resids } ∈ crashStates (fitCoreRun cpp var start feas opt) o := by
  have hex := exec_fitCore (feas := feas) (opt := opt) ht o
  unfold fitCoreRun at hex ⊢
  simp only [bind_eq, exec_andThen, exec_get, exec_lift, exec_write, Except.bind] at hex
  cases hb : varianceBounds cpp (prepResids o) with
  | error e => rw [hb, hf] at hex; cases hex
  | ok vb =>
    rw [hb] at hex
    simp only [Except.map] at hex
    cases hst : start o.returns (prepResids o) (backcast (prepResids o)) vb with
    | error e => rw [hst, hf] at hex; cases hex
    | ok v0 =>
      rw [hst] at hex
      simp only at hex
      cases v0 with
      | none => rw [hf] at hex; cases hex
      | some v0 =>
        have hok := ht o vb v0 hb hst
        have hev := exec_evals { o with backcast := backcast (prepResids o), bounds := some vb } _ _ (fun p => hok p)
        simp only [exec_andThen] at hex
        rw [hev] at hex
        simp only [Except.bind] at hex
        have hev' := hev (opt (feas o.zeroMean) (objective var o (backcast (prepResids o)) vb)
          (if o.zeroMean = true then 0 else Np.mean o.returns, v0)).trace
        -- the states after line 119 and the evaluations
        suffices H : ∀ t x, (t = { { o with backcast := backcast (prepResids o), bounds := some vb } with
            sigma2 := lastPath var { o with backcast := backcast (prepResids o), bounds := some vb } (backcast (prepResids o)) vb
              (opt (feas o.zeroMean) (objective var o (backcast (prepResids o)) vb)
              (if o.zeroMean = true then 0 else Np.mean o.returns, v0)).trace }) →
            x ∈ crashStates (storeResult (opt (feas o.zeroMean) (objective var o (backcast (prepResids o)) vb)
              (if o.zeroMean = true then 0 else Np.mean o.returns, v0))) t →
            x ∈ crashStates (fitCoreRun cpp var start feas opt) o by
          unfold fitCoreRun at H
          generalize opt (feas o.zeroMean) (objective var o (backcast (prepResids o)) vb)
            (if o.zeroMean = true then 0 else Np.mean o.returns, v0) = run at H hex
          by_cases hsu : run.success = true
          · simp only [storeResult, if_pos hsu, bind_eq, exec_andThen, exec_write, Except.bind, hf, Except.ok.injEq, Prod.mk.injEq,
              and_true] at hex
            subst hex
            constructor
            · refine H _ _ rfl ?_
              simp only [storeResult, if_pos hsu, bind_eq, mem_andThen, crash_write, exec_write, List.mem_cons, List.not_mem_nil,
                or_false]
              exact .inl (.inr trivial)
            · refine H _ _ rfl ?_
              simp only [storeResult, if_pos hsu, bind_eq, mem_andThen, crash_write, exec_write, List.mem_cons, List.not_mem_nil,
                or_false]
              exact .inr ⟨(), _, rfl, .inl (.inr rfl)⟩
          · simp only [storeResult, if_neg hsu, exec_ret, hf, Except.ok.injEq, Prod.mk.injEq, and_true] at hex
            subst hex
            simp only [hs] at hs'
            cases hs'
        rintro t x rfl hx
        unfold fitCoreRun
        simp only [bind_eq]
        refine mem_andThen.mpr (.inr ⟨_, _, exec_get o, ?_⟩)
        refine mem_andThen.mpr (.inr ⟨_, _, exec_write _ _, ?_⟩)
        refine mem_andThen.mpr (.inr ⟨vb, { o with backcast := backcast (prepResids o) }, by rw [exec_lift, hb]; rfl, ?_⟩)
        refine mem_andThen.mpr (.inr ⟨_, _, exec_write _ _, ?_⟩)
        refine mem_andThen.mpr (.inr ⟨some v0, { o with backcast := backcast (prepResids o), bounds := some vb },
          by rw [exec_lift, hst]; rfl, ?_⟩)
        exact mem_andThen.mpr (.inr ⟨(), _, hev', hx⟩)

theorem garch_crash {opt : Optimizer (XR × GarchVar)} {o x : GarchObj GarchVar} (hs : o.success = false) :
    x ∈ crashStates (garchFitRun cpp opt) o ↔
      x ∈ crashStates (fitCoreRun cpp (garchVariance cpp) (garchStart cpp) garchFeas opt) o := by
  unfold garchFitRun
  simp only [bind_eq, pure_eq, mem_andThen, crash_get, exec_get, List.mem_singleton]
  constructor
  · rintro (rfl | ⟨a, t, h, hx⟩)
    · exact self_mem _ _
    · injection h with h; injection h with h1 h2
      subst h1 h2
      rw [if_neg (by simp [hs])] at hx
      simp only [mem_andThen, crash_get, exec_get, crash_ret, List.mem_singleton] at hx
      rcases hx with hx | ⟨a, t, h, hx⟩
      · exact hx
      · have ht := exec_mem h
        rcases hx with rfl | ⟨b, u, h', rfl⟩
        · exact ht
        · injection h' with h'; injection h' with h1 h2; subst h1; exact ht
  · intro hx
    refine .inr ⟨o, o, rfl, ?_⟩
    rw [if_neg (by simp [hs])]
    exact mem_andThen.mpr (.inl hx)

theorem garch_crash_done {opt : Optimizer (XR × GarchVar)} {o x : GarchObj GarchVar} (hs : o.success = true) :
    x ∈ crashStates (garchFitRun cpp opt) o ↔ x = o := by
  unfold garchFitRun
  simp only [bind_eq, pure_eq, mem_andThen, crash_get, exec_get, List.mem_singleton]
  constructor
  · rintro (rfl | ⟨a, t, h, hx⟩)
    · rfl
    · injection h with h; injection h with h1 h2
      subst h1 h2
      rw [if_pos hs] at hx
      simpa [crash_ret] using hx
  · rintro rfl; exact .inl rfl

theorem gjr_crash {opt : Optimizer (XR × GjrVar)} {o x : GarchObj GjrVar} :
    x ∈ crashStates (gjrFitRun cpp opt) o ↔
      x ∈ crashStates (fitCoreRun cpp (gjrVariance cpp) (fun ret res _ _ => gjrStart cpp ret res) gjrFeas opt) o := by
  unfold gjrFitRun
  simp only [bind_eq, pure_eq, mem_andThen, crash_get, exec_get, crash_ret, List.mem_singleton]
  constructor
  · rintro (hx | ⟨a, t, h, hx⟩)
    · exact hx
    · have ht := exec_mem h
      rcases hx with rfl | ⟨b, u, h', rfl⟩
      · exact ht
      · injection h' with h'; injection h' with h1 h2; subst h1; exact ht
  · intro hx; exact .inl hx

end Crash
open Crash

/-- C173. A call that is not interrupted is the call of the other properties (`GARCHModel.fit`, `GJRGARCHModel.fit`). -/
theorem C173_univariate_complete (cpp : Bool) (opt : Optimizer (XR × GarchVar)) (optj : Optimizer (XR × GjrVar))
    (o : GarchObj GarchVar) (j : GarchObj GjrVar) :
    exec (garchFitRun cpp opt) o = garchFit cpp opt o ∧ exec (gjrFitRun cpp optj) j = gjrFit cpp optj j := by
  constructor
  · unfold garchFitRun garchFit
    simp only [bind_eq, pure_eq, exec_andThen, exec_get, Except.bind]
    by_cases hs : o.success = true
    · rw [if_pos hs, if_pos hs, exec_ret]
    · rw [if_neg hs, if_neg hs]
      rw [exec_andThen, exec_fitCore (total_garch cpp)]
      simp only [bind, Except.bind]
      cases fitCore cpp (garchVariance cpp) (garchStart cpp) garchFeas opt o <;> rfl
  · unfold gjrFitRun gjrFit
    simp only [bind_eq, pure_eq, exec_andThen, exec_get, Except.bind]
    rw [exec_fitCore (total_gjr cpp)]
    simp only [bind, Except.bind]
    cases fitCore cpp (gjrVariance cpp) (fun ret res _ _ => gjrStart cpp ret res) gjrFeas optj j <;> rfl

/-- C173. Wherever a `GARCHModel.fit` is interrupted: either the object is as before, up to the backcast, the variance bounds
and the last variance path, and a new `fit` behaves as if there had been no first attempt; or the interrupted call had already
set `estimation_success`, and then the parameters, or the residuals, may still be the old ones. -/
theorem C173_garch (cpp : Bool) (opt : Optimizer (XR × GarchVar)) (o x : GarchObj GarchVar) (hs : o.success = false)
    (hx : x ∈ crashStates (garchFitRun cpp opt) o) :
    (x.success = false ∧ x.params = o.params ∧ x.resids = o.resids ∧
      ∀ opt', Evaluates opt' → garchFit cpp opt' x = garchFit cpp opt' o) ∨
    (x.success = true ∧ ∃ o' r, garchFit cpp opt o = .ok (o', r) ∧ o'.success = true ∧
      (x = { o' with params := o.params, resids := o.resids } ∨ x = { o' with resids := o.resids } ∨ x = o')) := by
  rw [garch_crash hs] at hx
  rcases crash_fitCore (total_garch cpp) hx with h | ⟨o', hf, hs', hx⟩
  · refine .inl ⟨h.2.2.1.trans hs, h.2.2.2.1, h.2.2.2.2, fun opt' hev => ?_⟩
    unfold garchFit
    rw [h.2.2.1, fitCore_same hev (total_garch cpp) h]
    simp [hs]
  · refine .inr ⟨?_, o', some o'.params, ?_, hs', hx⟩
    · rcases hx with rfl | rfl | rfl <;> exact hs'
    · unfold garchFit
      rw [if_neg (by simp [hs]), hf]
      rfl

/-- C173. The two bad outcomes do occur: whenever an estimation succeeds there are a point at which an interruption leaves
`estimation_success` set with the NaN parameters the object had before, and one with the old residuals; no later call of `fit`
repairs the object. -/
theorem C173_garch_torn (cpp : Bool) (opt : Optimizer (XR × GarchVar)) (o o' : GarchObj GarchVar)
    (r : Option (Option (XR × GarchVar × XR))) (hs : o.success = false) (h : garchFit cpp opt o = .ok (o', r))
    (hs' : o'.success = true) :
    (∃ x ∈ crashStates (garchFitRun cpp opt) o, x.success = true ∧ x.params = o.params ∧ x.resids = o.resids ∧
      ∀ opt', garchFit cpp opt' x = .ok (x, none)) ∧
    ∃ x ∈ crashStates (garchFitRun cpp opt) o, x.success = true ∧ x.params = o'.params ∧ x.resids = o.resids ∧
      ∀ opt', garchFit cpp opt' x = .ok (x, none) := by
  have hf : fitCore cpp (garchVariance cpp) (garchStart cpp) garchFeas opt o = .ok o' := by
    unfold garchFit at h
    rw [if_neg (by simp [hs])] at h
    cases hc : fitCore cpp (garchVariance cpp) (garchStart cpp) garchFeas opt o with
    | error e => rw [hc] at h; cases h
    | ok w => rw [hc] at h; injection h with h; injection h with h _; rw [h]
  obtain ⟨t1, t2⟩ := torn_mem (total_garch cpp) hf hs hs'
  refine ⟨⟨_, (garch_crash hs).mpr t1, hs', rfl, rfl, fun opt' => ?_⟩, _, (garch_crash hs).mpr t2, hs', rfl, rfl, fun opt' => ?_⟩ <;>
  · unfold garchFit
    rw [if_pos hs']

/-- C173. `GJRGARCHModel.fit` does not look at the flag: after an interruption anywhere a new successful estimation leaves the
object, and returns, what it would have on the untouched object. -/
theorem C173_gjr (cpp : Bool) (opt : Optimizer (XR × GjrVar)) (o x : GarchObj GjrVar) (hs : o.success = false)
    (hx : x ∈ crashStates (gjrFitRun cpp opt) o) :
    (∀ opt', Evaluates opt' → ∀ o' r, gjrFit cpp opt' o = .ok (o', r) → o'.success = true → gjrFit cpp opt' x = .ok (o', r)) ∧
    (Evaluates opt → gjrFit cpp opt x = gjrFit cpp opt o) ∧
    ((x.success = false ∧ x.params = o.params ∧ x.resids = o.resids) ∨
      (x.success = true ∧ ∃ o' r, gjrFit cpp opt o = .ok (o', r) ∧ o'.success = true ∧
        (x = { o' with params := o.params, resids := o.resids } ∨ x = { o' with resids := o.resids } ∨ x = o'))) := by
  rw [gjr_crash] at hx
  have hdata : x.returns = o.returns ∧ x.zeroMean = o.zeroMean := by
    rcases crash_fitCore (total_gjr cpp) hx with h | ⟨o', hf, hs', hx⟩
    · exact ⟨h.1, h.2.1⟩
    · have := fitCore_data hf
      rcases hx with rfl | rfl | rfl <;> exact this
  refine ⟨fun opt' hev o' r h hs' => ?_, fun hev => ?_, ?_⟩
  · unfold gjrFit at h ⊢
    cases hc : fitCore cpp (gjrVariance cpp) (fun ret res _ _ => gjrStart cpp ret res) gjrFeas opt' o with
    | error e => rw [hc] at h; cases h
    | ok w =>
      rw [hc] at h
      have hw : w = o' := by injection h with h; injection h with h _
      subst hw
      rw [fitCore_heal hev (total_gjr cpp) hdata.1 hdata.2 hs hc hs']
      exact h
  · unfold gjrFit
    rw [fitCore_retry hev (total_gjr cpp) hx]
  · rcases crash_fitCore (total_gjr cpp) hx with h | ⟨o', hf, hs', hx⟩
    · exact .inl ⟨h.2.2.1.trans hs, h.2.2.2.1, h.2.2.2.2⟩
    · refine .inr ⟨?_, o', some o'.params, ?_, hs', hx⟩
      · rcases hx with rfl | rfl | rfl <;> exact hs'
      · unfold gjrFit
        rw [hf]
        rfl

/-- a `GARCHModel` after any sequence of `fit` calls, each completed, failed or interrupted anywhere, by any optimisers;
`resids0` are the uninitialised residuals of the constructor -/
inductive CrashHistory (cpp : Bool) (returns resids0 : List XR) : GarchObj GarchVar → Prop
  | fresh (o : GarchObj GarchVar) : o.returns = returns → o.success = false → o.params = none → o.resids = resids0 →
      CrashHistory cpp returns resids0 o
  | call (o x : GarchObj GarchVar) (opt : Optimizer (XR × GarchVar)) : CrashHistory cpp returns resids0 o →
      x ∈ crashStates (garchFitRun cpp opt) o → CrashHistory cpp returns resids0 x

/-- C173. After any such history: as long as `estimation_success` is not set, the parameters are the NaN default; once it is set
they are the default or those of one successful estimation, and no later call changes anything. -/
theorem C173_history (cpp : Bool) (returns resids0 : List XR) (x : GarchObj GarchVar) (h : CrashHistory cpp returns resids0 x) :
    x.returns = returns ∧
    (x.success = false → x.params = none ∧ x.resids = resids0) ∧
    (x.success = true → ∃ o opt o' r, CrashHistory cpp returns resids0 o ∧ garchFit cpp opt o = .ok (o', r) ∧ o'.success = true ∧
      x.sigma2 = o'.sigma2 ∧ (x.params = none ∨ x.params = o'.params) ∧ (x.resids = resids0 ∨ x.resids = o'.resids)) ∧
    (x.success = true → ∀ opt y, y ∈ crashStates (garchFitRun cpp opt) x → y = x) := by
  have key : ∀ x, CrashHistory cpp returns resids0 x → x.returns = returns ∧
      (x.success = false → x.params = none ∧ x.resids = resids0) ∧
      (x.success = true → ∃ o opt o' r, CrashHistory cpp returns resids0 o ∧ garchFit cpp opt o = .ok (o', r) ∧ o'.success = true ∧
        x.sigma2 = o'.sigma2 ∧ (x.params = none ∨ x.params = o'.params) ∧ (x.resids = resids0 ∨ x.resids = o'.resids)) := by
    intro x h
    induction h with
    | fresh o h1 h2 h3 h4 => exact ⟨h1, fun _ => ⟨h3, h4⟩, fun h => by rw [h2] at h; cases h⟩
    | call o x opt ho hx ih =>
      obtain ⟨i1, i2, i3⟩ := ih
      cases hs : o.success with
      | true =>
        rw [garch_crash_done hs] at hx
        subst hx
        exact ⟨i1, i2, i3⟩
      | false =>
        have hc := hx
        rw [garch_crash hs] at hc
        rcases crash_fitCore (total_garch cpp) hc with hsame | ⟨o', hf, hs', hx'⟩
        · refine ⟨hsame.1.trans i1, fun _ => ?_, fun h => ?_⟩
          · rw [hsame.2.2.2.1, hsame.2.2.2.2]; exact i2 hs
          · rw [hsame.2.2.1, hs] at h; cases h
        · have hd := fitCore_data hf
          have hg : garchFit cpp opt o = .ok (o', some o'.params) := by
            unfold garchFit
            rw [if_neg (by simp [hs]), hf]
            rfl
          obtain ⟨j1, j2⟩ := i2 hs
          refine ⟨?_, fun h => ?_, fun _ => ⟨o, opt, o', _, ho, hg, hs', ?_⟩⟩
          · rcases hx' with rfl | rfl | rfl <;> exact hd.1.trans i1
          · rcases hx' with rfl | rfl | rfl <;> (simp only [hs'] at h; cases h)
          · rcases hx' with rfl | rfl | rfl
            · exact ⟨rfl, .inl j1, .inl j2⟩
            · exact ⟨rfl, .inr rfl, .inl j2⟩
            · exact ⟨rfl, .inr rfl, .inr rfl⟩
  obtain ⟨k1, k2, k3⟩ := key x h
  exact ⟨k1, k2, k3, fun hs opt y hy => (garch_crash_done hs).mp hy⟩

namespace Crash

/-- an optimiser that evaluates its start and returns it -/
def stay {P : Type} : Optimizer P := fun _ f x0 => ⟨[x0], true, x0, f x0⟩

theorem stay_evaluates {P : Type} : Evaluates (stay : Optimizer P) := fun c f x0 => by simp [stay]

/-- three returns -/
def threeDays : GarchObj GarchVar := { returns := [(2 : ℝ), -1, -1].map XR.fin, zeroMean := false, resids := [], sigma2 := [] }

theorem threeDays_fit (cpp : Bool) : ∃ o' r, garchFit cpp stay threeDays = .ok (o', r) ∧ o'.success = true := by
  obtain ⟨o', ret, hf⟩ := garchFit_total cpp stay threeDays [2, -1, -1] rfl rfl
    (by show ∃ r ∈ Spec.prep false [(2 : ℝ), -1, -1], r ≠ 0
        rw [prep_demo]; exact ⟨2, by simp, by norm_num⟩)
  obtain ⟨hret, bc, vb, x0, run, he, _⟩ := (C71_garch_fit cpp stay threeDays o' ret hf).2 rfl
  have hrun : run = stay (garchFeas threeDays.zeroMean) (objective (garchVariance cpp) threeDays bc vb) x0 := he.run_eq
  exact ⟨o', ret, hf, (he.success (by rw [hrun]; rfl)).1⟩

end Crash

-- the three returns 2, -1, -1: an interrupted `fit` can leave `estimation_success` set with NaN parameters, for good
example (cpp : Bool) : ∃ x ∈ crashStates (garchFitRun cpp stay) threeDays, x.success = true ∧ x.params = none ∧
    ∀ opt', garchFit cpp opt' x = .ok (x, none) := by
  obtain ⟨o', r, h, hs⟩ := threeDays_fit cpp
  obtain ⟨⟨x, h1, h2, h3, h4, h5⟩, _⟩ := C173_garch_torn cpp stay threeDays o' r rfl h hs
  exact ⟨x, h1, h2, h3, h5⟩

/-! ### Concrete cases of the theorems above -/

/-- A crash after the first write of a fit, in a history of two calls. -/
example (cpp : Bool) (x : GarchObj GarchVar) (hx : x ∈ crashStates (garchFitRun cpp stay) threeDays) :=
  And.intro (C173_garch cpp stay threeDays x rfl hx)
    (C173_history cpp threeDays.returns [] x (.call threeDays x stay (.fresh threeDays rfl rfl rfl rfl) hx))
example (cpp : Bool) := fun (x : GarchObj GjrVar) => C173_gjr cpp stay
  { returns := [(2 : ℝ), -1, -1].map XR.fin, zeroMean := false, resids := [], sigma2 := [] } x rfl

end
end Frds.Props

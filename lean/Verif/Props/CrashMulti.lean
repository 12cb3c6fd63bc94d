import Verif.Props.Crash

/-! C173: interrupted estimations of the multivariate models. -/
namespace Frds.Props
noncomputable section
open Frds Frds.Model Frds.Model.Crash Frds.Model.Crash.Run Frds.Props.Crash Classical
set_option linter.unusedSimpArgs false
set_option linter.unusedVariables false

namespace Crash

theorem ok_pair {S A : Type} {s t : S} {a b : A} (h : (Except.ok (s, a) : Except PyErr (S × A)) = .ok (t, b)) : s = t ∧ a = b := by
  injection h with h; injection h with h1 h2; exact ⟨h1, h2⟩

theorem lift_ok {S A : Type} {x : Except PyErr A} {s t : S} {a : A}
    (h : (x.map fun a => (s, a)) = .ok (t, a)) : s = t ∧ x = .ok a := by
  cases x with
  | error e => cases h
  | ok b => injection h with h; injection h with h1 h2; exact ⟨h1, by rw [h2]⟩

theorem Triple_exec {S A : Type} {P : S → Prop} {m : Run S A} {Q : A → S → Prop} {C : S → Prop} (h : Triple P m Q C) {s t : S}
    {a : A} (hs : P s) (he : exec m s = .ok (t, a)) : Q a t := by
  unfold exec at he
  cases hm : (m s).2 with
  | error e => rw [hm] at he; cases he
  | ok b =>
    rw [hm] at he
    obtain ⟨rfl, rfl⟩ := ok_pair he
    exact (h s hs).2 _ hm

theorem uFit_after (cpp : Bool) (opt : Optimizer (XR × GarchVar)) : (uFitRun cpp opt).after = uFit cpp opt := by
  funext o
  rw [after_exec]
  simp only [uFitRun, bind_eq, pure_eq, exec_andThen, exec_ret, (C173_univariate_complete cpp opt (fun _ _ x0 => ⟨[], false, x0, .nan⟩) o
    ⟨[], false, false, none, [], [], .nan, none⟩).1, uFit, bind, Except.bind, pure, Except.pure]
  cases garchFit cpp opt o <;> rfl

theorem uFitGjr_after (cpp : Bool) (opt : Optimizer (XR × GjrVar)) : (uFitGjrRun cpp opt).after = uFitGjr cpp opt := by
  funext o
  rw [after_exec]
  simp only [uFitGjrRun, bind_eq, pure_eq, exec_andThen, exec_ret, (C173_univariate_complete cpp (fun _ _ x0 => ⟨[], false, x0, .nan⟩) opt
    ⟨[], false, false, none, [], [], .nan, none⟩ o).2, uFitGjr, bind, Except.bind, pure, Except.pure]
  cases gjrFit cpp opt o <;> rfl

theorem uFit_crash {cpp : Bool} {opt : Optimizer (XR × GarchVar)} {o x : GarchObj GarchVar} :
    x ∈ crashStates (uFitRun cpp opt) o ↔ x ∈ crashStates (garchFitRun cpp opt) o := by
  simp only [uFitRun, bind_eq, pure_eq, mem_andThen, crash_ret, List.mem_singleton]
  constructor
  · rintro (h | ⟨a, t, h, rfl⟩)
    · exact h
    · exact exec_mem h
  · exact .inl

theorem uFitGjr_crash {cpp : Bool} {opt : Optimizer (XR × GjrVar)} {o x : GarchObj GjrVar} :
    x ∈ crashStates (uFitGjrRun cpp opt) o ↔ x ∈ crashStates (gjrFitRun cpp opt) o := by
  simp only [uFitGjrRun, bind_eq, pure_eq, mem_andThen, crash_ret, List.mem_singleton]
  constructor
  · rintro (h | ⟨a, t, h, rfl⟩)
    · exact h
    · exact exec_mem h
  · exact .inl

/-- a second attempt at a univariate model of a multivariate one -/
theorem uFit_retry {cpp : Bool} {opt : Optimizer (XR × GarchVar)} (hev : Evaluates opt) {o x : GarchObj GarchVar}
    (hx : x ∈ crashStates (uFitRun cpp opt) o) (hw : x.success = true → uFit cpp opt o = .ok x) : uFit cpp opt x = uFit cpp opt o := by
  rw [uFit_crash] at hx
  cases hs : o.success with
  | true => rw [garch_crash_done hs] at hx; rw [hx]
  | false =>
    rcases C173_garch cpp opt o x hs hx with ⟨h1, h2, h3, h4⟩ | ⟨h1, _⟩
    · unfold uFit; rw [h4 opt hev]
    · rw [hw h1]; exact (C79_refit_stable cpp opt (fun _ _ x0 => ⟨[], false, x0, .nan⟩) o x
        ⟨[], false, false, none, [], [], .nan, none⟩ ⟨[], false, false, none, [], [], .nan, none⟩).1 (hw h1)

theorem uFitGjr_retry {cpp : Bool} {opt : Optimizer (XR × GjrVar)} (hev : Evaluates opt) {o x : GarchObj GjrVar}
    (hx : x ∈ crashStates (uFitGjrRun cpp opt) o) : uFitGjr cpp opt x = uFitGjr cpp opt o := by
  rw [uFitGjr_crash, gjr_crash] at hx
  unfold uFitGjr gjrFit
  rw [fitCore_retry hev (total_gjr cpp) hx]

/-! ### constant conditional correlation -/

theorem exec_cccFit1 (fitU : Run (GarchObj GarchVar) Unit) (o : CccObj) :
    exec (cccFit1 fitU) o = (fitU.after o.model1).map fun m => ({ o with model1 := m }, ()) := by
  rw [cccFit1, exec_on (by intro s; rfl), exec_unit]
  cases fitU.after o.model1 <;> rfl

theorem exec_cccFit2 (fitU : Run (GarchObj GarchVar) Unit) (o : CccObj) :
    exec (cccFit2 fitU) o = (fitU.after o.model2).map fun m => ({ o with model2 := m }, ()) := by
  rw [cccFit2, exec_on (by intro s; rfl), exec_unit]
  cases fitU.after o.model2 <;> rfl

theorem exec_ccc (cpp : Bool) (fitU : Run (GarchObj GarchVar) Unit) (opt : Optimizer CccVec) (o : CccObj) :
    exec (cccFitRun cpp fitU opt) o = cccFit cpp fitU.after opt o := by
  unfold cccFitRun cccFit
  simp only [bind_eq, pure_eq, exec_andThen, exec_get, Except.bind]
  by_cases hs : o.success = true
  · rw [if_pos hs, if_pos hs, exec_ret]
  · rw [if_neg hs, if_neg hs]
    simp only [exec_andThen, exec_cccFit1, bind, Except.bind]
    cases h1 : fitU.after o.model1 with
    | error e => rfl
    | ok m1 =>
      simp only [Except.map, exec_cccFit2]
      cases h2 : fitU.after o.model2 with
      | error e => rfl
      | ok m2 =>
        simp only [Except.map, exec_get]
        by_cases hl : (stdResid m1.resids m1.sigma2).length ≠ (stdResid m2.resids m2.sigma2).length
        · rw [if_pos hl, if_pos hl]; rfl
        · rw [if_neg hl, if_neg hl]
          simp only [exec_andThen, exec_lift]
          generalize runOpt opt cccFeas _ _ = R
          cases R with
          | error e => rfl
          | ok run =>
            simp only [Except.map, Except.bind]
            by_cases hsu : run.success = true
            · simp only [if_pos hsu, exec_andThen, exec_write, exec_get, exec_ret, Except.bind]
            · simp only [if_neg hsu, exec_andThen, exec_write, exec_get, exec_ret, Except.bind]

theorem crash_ccc {cpp : Bool} {fitU : Run (GarchObj GarchVar) Unit} {opt : Optimizer CccVec} {o x : CccObj} (hs : o.success = false)
    (hx : x ∈ crashStates (cccFitRun cpp fitU opt) o) :
    (∃ m ∈ crashStates fitU o.model1, x = { o with model1 := m }) ∨
    (∃ m1, fitU.after o.model1 = .ok m1 ∧ ∃ m ∈ crashStates fitU o.model2, x = { o with model1 := m1, model2 := m }) ∨
    ∃ o' r, cccFit cpp fitU.after opt o = .ok (o', r) ∧ o'.success = true ∧ (x = { o' with params := o.params } ∨ x = o') := by
  have hex := exec_ccc cpp fitU opt o
  unfold cccFitRun at hx hex
  simp only [bind_eq, pure_eq, exec_andThen, exec_get, Except.bind] at hex
  rw [if_neg (by simp [hs])] at hex
  rw [bind_eq, mem_andThen] at hx
  rcases hx with hx | ⟨a, t, h, hx⟩
  · simp only [crash_get, List.mem_singleton] at hx
    exact .inl ⟨o.model1, self_mem _ _, hx⟩
  rw [exec_get] at h
  obtain ⟨rfl, rfl⟩ := ok_pair h
  rw [if_neg (by simp [hs])] at hx
  simp only [bind_eq, pure_eq] at hx
  rw [mem_andThen] at hx
  rcases hx with hx | ⟨a, t, h, hx⟩
  · obtain ⟨m, hm, rfl⟩ := (mem_on (by intro s; rfl)).mp hx
    exact .inl ⟨m, hm, rfl⟩
  rw [exec_cccFit1] at h
  cases h1 : fitU.after o.model1 with
  | error e => rw [h1] at h; cases h
  | ok m1 =>
    rw [h1] at h
    obtain ⟨rfl, -⟩ := ok_pair h
    simp only [exec_andThen, exec_cccFit1, h1, Except.map, Except.bind] at hex
    rw [mem_andThen] at hx
    rcases hx with hx | ⟨a, t, h, hx⟩
    · obtain ⟨m, hm, rfl⟩ := (mem_on (by intro s; rfl)).mp hx
      exact .inr (.inl ⟨m1, rfl, m, hm, rfl⟩)
    rw [exec_cccFit2] at h
    simp only at h
    cases h2 : fitU.after o.model2 with
    | error e => rw [h2] at h; cases h
    | ok m2 =>
      rw [h2] at h
      obtain ⟨rfl, -⟩ := ok_pair h
      have hm2 : m2 ∈ crashStates fitU o.model2 := by
        refine exec_mem (a := ()) ?_
        rw [exec_unit, h2]; rfl
      have hmid : ∀ y : CccObj, y = { o with model1 := m1, model2 := m2 } → _ ∨ _ := fun y hy =>
        (.inr (.inl ⟨m1, rfl, m2, hm2, hy⟩) :
          (∃ m ∈ crashStates fitU o.model1, y = { o with model1 := m }) ∨
          (∃ m1', Except.ok m1 = Except.ok (ε := PyErr) m1' ∧ ∃ m ∈ crashStates fitU o.model2, y = { o with model1 := m1', model2 := m }) ∨
          ∃ o' r, cccFit cpp fitU.after opt o = .ok (o', r) ∧ o'.success = true ∧ (y = { o' with params := o.params } ∨ y = o'))
      simp only [exec_cccFit2, h2, Except.map, exec_get] at hex
      rw [mem_andThen] at hx
      rcases hx with hx | ⟨a, t, h, hx⟩
      · simp only [crash_get, List.mem_singleton] at hx
        exact hmid x hx
      rw [exec_get] at h
      obtain ⟨rfl, rfl⟩ := ok_pair h
      by_cases hl : (stdResid m1.resids m1.sigma2).length ≠ (stdResid m2.resids m2.sigma2).length
      · rw [if_pos hl] at hx
        simp only [crash_lift, List.mem_singleton] at hx
        exact hmid x hx
      · rw [if_neg hl] at hx hex
        simp only [exec_andThen, exec_lift] at hex
        rw [mem_andThen] at hx
        rcases hx with hx | ⟨run, t, h, hx⟩
        · simp only [crash_lift, List.mem_singleton] at hx
          exact hmid x hx
        rw [exec_lift] at h
        obtain ⟨rfl, hR⟩ := lift_ok h
        rw [hR] at hex
        simp only [Except.map, Except.bind] at hex
        by_cases hsu : run.success = true
        · simp only [if_pos hsu, mem_andThen, crash_write, crash_get, crash_ret, exec_write, exec_get, List.mem_cons,
            List.not_mem_nil, or_false] at hx
          simp only [if_pos hsu, exec_andThen, exec_write, exec_get, exec_ret, Except.bind] at hex
          rcases hx with (rfl | rfl) | ⟨a, t, h, hx⟩
          · exact hmid _ rfl
          · exact .inr (.inr ⟨_, _, hex.symm, rfl, .inl rfl⟩)
          obtain ⟨rfl, -⟩ := ok_pair h
          rcases hx with (rfl | rfl) | ⟨a, t, h, hx⟩
          · exact .inr (.inr ⟨_, _, hex.symm, rfl, .inl rfl⟩)
          · exact .inr (.inr ⟨_, _, hex.symm, rfl, .inr rfl⟩)
          obtain ⟨rfl, -⟩ := ok_pair h
          rcases hx with rfl | ⟨a, t, h, hx⟩
          · exact .inr (.inr ⟨_, _, hex.symm, rfl, .inr rfl⟩)
          obtain ⟨rfl, -⟩ := ok_pair h
          subst hx
          exact .inr (.inr ⟨_, _, hex.symm, rfl, .inr rfl⟩)
        · simp only [if_neg hsu, mem_andThen, crash_write, crash_get, crash_ret, exec_write, exec_get, List.mem_cons,
            List.not_mem_nil, or_false] at hx
          rcases hx with rfl | ⟨a, t, h, hx⟩
          · exact hmid _ rfl
          obtain ⟨rfl, -⟩ := ok_pair h
          exact hmid _ hx

end Crash
open Crash

/-- C173. An uninterrupted `GARCHModel_CCC.fit` is the `fit` of the other properties. -/
theorem C173_ccc_complete (cpp : Bool) (opt1 : Optimizer (XR × GarchVar)) (opt : Optimizer CccVec) (o : CccObj) :
    exec (cccFitRun cpp (uFitRun cpp opt1) opt) o = cccFit cpp (uFit cpp opt1) opt o := by
  rw [exec_ccc, uFit_after]

/-- C173. Wherever a `GARCHModel_CCC.fit` is interrupted: if `estimation_success` is not set, the parameters are as before, and
unless a univariate model was caught between its flag and its last write, a new `fit` gives what the first would have given; if
it is set, the parameters are those of the completed `fit` or still the old ones, and every later `fit` returns just these. -/
theorem C173_ccc (cpp : Bool) (opt1 : Optimizer (XR × GarchVar)) (hev : Evaluates opt1) (opt : Optimizer CccVec) (o x : CccObj)
    (hs : o.success = false) (hx : x ∈ crashStates (cccFitRun cpp (uFitRun cpp opt1) opt) o) :
    (x.success = false → x.params = o.params ∧
      ((x.model1.success = true → uFit cpp opt1 o.model1 = .ok x.model1) →
       (x.model2.success = true → uFit cpp opt1 o.model2 = .ok x.model2) →
        cccFit cpp (uFit cpp opt1) opt x = cccFit cpp (uFit cpp opt1) opt o)) ∧
    (x.success = true → (∃ o' r, cccFit cpp (uFit cpp opt1) opt o = .ok (o', r) ∧ o'.success = true ∧
        (x = { o' with params := o.params } ∨ x = o')) ∧
      ∀ fitU opt', cccFit cpp fitU opt' x = .ok (x, x.params)) := by
  have hcong : ∀ y : CccObj, y.success = false → y.params = o.params → uFit cpp opt1 y.model1 = uFit cpp opt1 o.model1 →
      uFit cpp opt1 y.model2 = uFit cpp opt1 o.model2 →
      cccFit cpp (uFit cpp opt1) opt y = cccFit cpp (uFit cpp opt1) opt o := by
    intro y h0 h1 h2 h3
    unfold cccFit
    rw [if_neg (by simp [h0]), if_neg (by simp [hs]), h2, h3]
    rcases y with ⟨y1, y2, ys, yp⟩
    rcases o with ⟨o1, o2, os, op⟩
    simp only at h0 h1 hs ⊢
    subst h0 h1 hs
    rfl
  refine ⟨fun h0 => ?_, fun h1 => ⟨?_, fun fitU opt' => by unfold cccFit; rw [if_pos h1]⟩⟩
  · rcases crash_ccc hs hx with ⟨m, hm, rfl⟩ | ⟨m1, h1, m, hm, rfl⟩ | ⟨o', r, _, hs', rfl | rfl⟩
    · exact ⟨rfl, fun w1 _ => hcong _ h0 rfl (uFit_retry hev hm w1) rfl⟩
    · refine ⟨rfl, fun w1 w2 => hcong _ h0 rfl ?_ (uFit_retry hev hm w2)⟩
      rw [uFit_after] at h1
      exact uFit_retry hev (by
        refine exec_mem (a := ()) ?_
        rw [exec_unit, uFit_after, h1]; rfl) (fun _ => h1)
    · rw [hs'] at h0; cases h0
    · rw [hs'] at h0; cases h0
  · rcases crash_ccc hs hx with ⟨m, hm, rfl⟩ | ⟨m1, h1', m, hm, rfl⟩ | ⟨o', r, hf, hs', hx'⟩
    · rw [hs] at h1; cases h1
    · rw [hs] at h1; cases h1
    · rw [uFit_after] at hf
      exact ⟨o', r, hf, hs', hx'⟩

-- the object itself is a crash state, so there are crash states for every object
example (cpp : Bool) (opt : Optimizer CccVec) : Evaluates (stay : Optimizer (XR × GarchVar)) ∧
    (⟨threeDays, threeDays, false, none⟩ : CccObj) ∈ crashStates (cccFitRun cpp (uFitRun cpp stay) opt) ⟨threeDays, threeDays, false, none⟩ :=
  ⟨stay_evaluates, self_mem _ _⟩

end
end Frds.Props

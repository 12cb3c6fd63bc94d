import Verif.Props.CrashMulti

/-! C173: interrupted estimations of the dynamic conditional correlation models. -/
namespace Frds.Props
noncomputable section
open Frds Frds.Model Frds.Model.Crash Frds.Model.Crash.Run Frds.Props.Crash Classical
set_option linter.unusedSimpArgs false
set_option linter.unusedVariables false

namespace Crash
variable {V : Type} {cpp : Bool} {fitU : Run (GarchObj V) Unit}

theorem exec_dccFit1 (fitU : Run (GarchObj V) Unit) (o : DccObj V) :
    exec (on DccObj.model1 (fun o m => { o with model1 := m }) fitU) o
      = (fitU.after o.model1).map fun m => ({ o with model1 := m }, ()) := by
  rw [exec_on (by intro s; rfl), exec_unit]
  cases fitU.after o.model1 <;> rfl

theorem exec_dccFit2 (fitU : Run (GarchObj V) Unit) (o : DccObj V) :
    exec (on DccObj.model2 (fun o m => { o with model2 := m }) fitU) o
      = (fitU.after o.model2).map fun m => ({ o with model2 := m }, ()) := by
  rw [exec_on (by intro s; rfl), exec_unit]
  cases fitU.after o.model2 <;> rfl

theorem exec_refit (fitU : Run (GarchObj V) Unit) (o : DccObj V) :
    exec (refitRun fitU) o = (refit fitU.after o).map fun q => (q, ()) := by
  unfold refitRun refit
  rw [bind_eq, exec_andThen, exec_dccFit1]
  simp only [bind, Except.bind, pure, Except.pure]
  cases h1 : fitU.after o.model1 with
  | error e => rfl
  | ok m1 =>
    simp only [Except.map]
    rw [exec_dccFit2]
    cases h2 : fitU.after o.model2 <;> rfl

/-- evaluating the objective refits the models, and does nothing else to the object -/
theorem dccObjective_refit {f : GarchObj V → Except PyErr (GarchObj V)} {o : DccObj V} {p : XR × XR} {r : DccObj V × XR}
    (h : dccObjective cpp f o p = .ok r) : refit f o = .ok r.1 := by
  unfold dccObjective condCorr at h
  simp only [bind, Except.bind, pure, Except.pure] at h
  cases hr : refit f o with
  | error e => rw [hr] at h; cases h
  | ok o1 =>
    rw [hr] at h
    simp only at h
    cases hk : dccKernel cpp p.1 p.2 (stdResid o1.model1.resids o1.model1.sigma2) (stdResid o1.model2.resids o1.model2.sigma2) with
    | error e => rw [hk] at h; cases h
    | ok rho =>
      rw [hk] at h
      simp only at h
      split_ifs at h
      all_goals first
        | (injection h with h; subst h; rfl)
        | cases h

theorem dccObjective_refit_error {f : GarchObj V → Except PyErr (GarchObj V)} {o : DccObj V} {p : XR × XR} {e : PyErr}
    (hr : refit f o = .error e) : dccObjective cpp f o p = .error e := by
  unfold dccObjective condCorr
  simp only [bind, Except.bind, pure, Except.pure, hr]

theorem exec_dccEval (fitU : Run (GarchObj V) Unit) (p : XR × XR) (o : DccObj V) :
    exec (dccEvalRun cpp fitU p) o = dccObjective cpp fitU.after o p := by
  unfold dccEvalRun
  simp only [bind_eq, exec_andThen, exec_get, exec_refit, Except.bind]
  cases hr : refit fitU.after o with
  | error e => rw [dccObjective_refit_error hr]; rfl
  | ok o1 =>
    simp only [Except.map, exec_lift]
    cases hd : dccObjective cpp fitU.after o p with
    | error e => rfl
    | ok r =>
      have := dccObjective_refit hd
      rw [hr] at this
      injection this with this
      subst this
      rfl

theorem exec_dccStart (fitU : Run (GarchObj V) Unit) (o : DccObj V) :
    exec (dccStartRun cpp fitU) o = dccStart cpp fitU.after o := by
  unfold dccStartRun dccStart
  rw [exec_fold]
  congr 1
  funext q p
  by_cases hp : 1 ≤ p.1 + p.2
  · rw [if_pos hp, if_pos hp]; rfl
  · rw [if_neg hp, if_neg hp]
    simp only [bind_eq, pure_eq, exec_andThen, exec_dccEval, exec_ret]
    rfl

theorem exec_dccEvals (fitU : Run (GarchObj V) Unit) (l : List (XR × XR)) (o : DccObj V) :
    exec (each (fun p => (do
      let _ ← dccEvalRun cpp fitU p
      return () : Run (DccObj V) Unit)) l) o
    = (l.foldlM (fun (o : DccObj V) p => (dccObjective cpp fitU.after o p).map Prod.fst) o).map fun q => (q, ()) := by
  rw [exec_each]
  congr 2
  funext o p
  rw [after_exec]
  simp only [bind_eq, pure_eq, exec_andThen, exec_dccEval, exec_ret]
  cases dccObjective cpp fitU.after o p <;> rfl

theorem exec_dcc (cpp : Bool) (fitU : Run (GarchObj V) Unit) (opt : Optimizer (XR × XR)) (o : DccObj V) :
    exec (dccFitRun cpp fitU opt) o = dccFit cpp fitU.after opt o := by
  unfold dccFitRun dccFit
  simp only [bind_eq, pure_eq, exec_andThen, exec_get, Except.bind]
  by_cases hs : o.success = true
  · rw [if_pos hs, if_pos hs]; rfl
  · rw [if_neg hs, if_neg hs]
    simp only [exec_andThen, exec_refit, bind, Except.bind]
    cases hr : refit fitU.after o with
    | error e => rfl
    | ok o1 =>
      simp only [Except.map, exec_dccStart]
      cases hst : dccStart cpp fitU.after o1 with
      | error e => rfl
      | ok st =>
        simp only [exec_write, exec_get]
        have e1 := fun l o => exec_dccEvals (cpp := cpp) fitU l o
        simp only [bind_eq, pure_eq] at e1
        rw [e1]
        have e2 : (fun (o : DccObj V) (p : XR × XR) => (dccObjective cpp fitU.after o p).map Prod.fst)
            = fun (o : DccObj V) (p : XR × XR) => (do
              let r ← dccObjective cpp fitU.after o p
              return r.1 : Except PyErr (DccObj V)) := by
          funext o p; cases dccObjective cpp fitU.after o p <;> rfl
        rw [e2]
        simp only [bind, Except.bind, pure, Except.pure]
        generalize opt dccFeas _ _ = run
        generalize List.foldlM (m := Except PyErr) _ _ run.trace = R
        cases R with
        | error e => rfl
        | ok o2 =>
          simp only [Except.map]
          by_cases hsu : run.success = true
          · simp only [if_pos hsu, exec_andThen, exec_write, exec_get, exec_ret, Except.bind]
          · simp only [if_neg hsu, exec_andThen, exec_write, exec_get, exec_ret, Except.bind]

/-! ### crash states -/

/-- both univariate models are estimated: a further fit leaves them as they are -/
def Settled (fitU : Run (GarchObj V) Unit) (o : DccObj V) : Prop :=
  fitU.after o.model1 = .ok o.model1 ∧ fitU.after o.model2 = .ok o.model2

/-- `o`, or `o` with one univariate model in the middle of a fit -/
def Near (fitU : Run (GarchObj V) Unit) (o x : DccObj V) : Prop :=
  (∃ m ∈ crashStates fitU o.model1, x = { o with model1 := m }) ∨ ∃ m ∈ crashStates fitU o.model2, x = { o with model2 := m }

theorem near_self (o : DccObj V) : Near fitU o o := .inl ⟨_, self_mem _ _, rfl⟩

theorem crash_refit {o x : DccObj V} (hx : x ∈ crashStates (refitRun fitU) o) :
    (∃ m ∈ crashStates fitU o.model1, x = { o with model1 := m }) ∨
    ∃ m1, fitU.after o.model1 = .ok m1 ∧ ∃ m ∈ crashStates fitU o.model2, x = { o with model1 := m1, model2 := m } := by
  unfold refitRun at hx
  rw [bind_eq, mem_andThen] at hx
  rcases hx with hx | ⟨a, t, h, hx⟩
  · exact .inl ((mem_on (by intro s; rfl)).mp hx)
  · rw [exec_dccFit1] at h
    cases h1 : fitU.after o.model1 with
    | error e => rw [h1] at h; cases h
    | ok m1 =>
      rw [h1] at h
      obtain ⟨rfl, -⟩ := ok_pair h
      obtain ⟨m, hm, rfl⟩ := (mem_on (by intro s; rfl)).mp hx
      exact .inr ⟨m1, rfl, m, hm, rfl⟩

theorem refit_settled {o : DccObj V} (ho : Settled fitU o) : refit fitU.after o = .ok o := by
  unfold refit
  simp only [bind, Except.bind, pure, Except.pure, ho.1, ho.2]

theorem near_refit {o x : DccObj V} (ho : Settled fitU o) (hx : x ∈ crashStates (refitRun fitU) o) : Near fitU o x := by
  rcases crash_refit hx with h | ⟨m1, h1, m, hm, rfl⟩
  · exact .inl h
  · rw [ho.1] at h1; injection h1 with h1; subst h1
    exact .inr ⟨m, hm, rfl⟩

theorem triple_eval {o : DccObj V} (ho : Settled fitU o) (p : XR × XR) :
    Triple (· = o) (dccEvalRun cpp fitU p) (fun _ s => s = o) (Near fitU o) := by
  rintro s rfl
  constructor
  · intro x hx
    unfold dccEvalRun at hx
    simp only [bind_eq, mem_andThen, crash_get, exec_get, crash_lift, List.mem_singleton] at hx
    rcases hx with rfl | ⟨a, t, h, hx⟩
    · exact near_self _
    obtain ⟨rfl, rfl⟩ := ok_pair h
    rcases hx with hx | ⟨a, t, h, rfl⟩
    · exact near_refit ho hx
    · rw [exec_refit, refit_settled ho] at h
      obtain ⟨rfl, -⟩ := ok_pair h
      exact near_self _
  · intro a ha
    have he : exec (dccEvalRun cpp fitU p) s = .ok (final s (dccEvalRun cpp fitU p s).1, a) := by unfold exec; rw [ha]
    rw [exec_dccEval] at he
    have := dccObjective_refit he
    rw [refit_settled ho] at this
    injection this with this
    exact this.symm

theorem triple_start {o : DccObj V} (ho : Settled fitU o) :
    Triple (· = o) (dccStartRun cpp fitU) (fun _ s => s = o) (Near fitU o) := by
  refine Triple.fold _ (by rintro s rfl; exact near_self _) (fun a p _ => ?_) _
  by_cases hp : 1 ≤ p.1 + p.2
  · rw [if_pos hp]
    exact (Triple.ret (by rintro s rfl; exact near_self _) a).weaken (fun _ h => h) (fun _ _ h => h.2) (fun _ h => h)
  · rw [if_neg hp]
    exact (triple_eval ho _).bind fun v => (Triple.ret (by rintro s rfl; exact near_self _) _).weaken (fun _ h => h)
      (fun _ _ h => h.2) (fun _ h => h)

theorem triple_evals {o : DccObj V} (ho : Settled fitU o) (l : List (XR × XR)) :
    Triple (· = o) (each (fun p => andThen (dccEvalRun cpp fitU p) fun _ => ret ()) l) (fun _ s => s = o) (Near fitU o) := by
  refine Triple.each _ (by rintro s rfl; exact near_self _) fun p _ => ?_
  exact (triple_eval ho _).andThen fun v => (Triple.ret (by rintro s rfl; exact near_self _) _).weaken (fun _ h => h)
      (fun _ _ h => h.2) (fun _ h => h)

/-- where an interrupted `GARCHModel_DCC.fit` may leave the object: in the fit of the first or of the second univariate model;
between two writes of its own, or in a repeated fit of a univariate model; with the parameters written only in part -/
inductive DccAt (cpp : Bool) (fitU : Run (GarchObj V) Unit) (opt : Optimizer (XR × XR)) (o x : DccObj V) : Prop
  | first (m : GarchObj V) (hm : m ∈ crashStates fitU o.model1) (hx : x = { o with model1 := m })
  | second (m1 m : GarchObj V) (h1 : fitU.after o.model1 = .ok m1) (hm : m ∈ crashStates fitU o.model2)
      (hx : x = { o with model1 := m1, model2 := m })
  | search (m1 m2 : GarchObj V) (q : DccObj V) (h1 : fitU.after o.model1 = .ok m1) (h2 : fitU.after o.model2 = .ok m2)
      (hq : q = { o with model1 := m1, model2 := m2 } ∨
        q = { o with model1 := m1, model2 := m2, params := { p1 := dropLl m1.params, p2 := dropLl m2.params } })
      (hx : Near fitU q x)
  | torn (o' : DccObj V) (r : DccPars V) (h : dccFit cpp fitU.after opt o = .ok (o', r)) (hs : o'.success = true)
      (hx : x = { o' with params := { o'.params with a := .nan, b := .nan, ll := .nan } } ∨
       x = { o' with params := { o'.params with b := .nan, ll := .nan } } ∨
       x = { o' with params := { o'.params with ll := .nan } } ∨ x = o')

theorem crash_dcc {opt : Optimizer (XR × XR)} {o x : DccObj V} (hst : ∀ m m', fitU.after m = .ok m' → fitU.after m' = .ok m')
    (hs : o.success = false) (hx : x ∈ crashStates (dccFitRun cpp fitU opt) o) : DccAt cpp fitU opt o x := by
  have hex := exec_dcc cpp fitU opt o
  unfold dccFitRun at hx hex
  simp only [bind_eq, pure_eq, exec_andThen, exec_get, Except.bind] at hex
  rw [if_neg (by simp [hs])] at hex
  rw [bind_eq, mem_andThen] at hx
  rcases hx with hx | ⟨a, t, h, hx⟩
  · simp only [crash_get, List.mem_singleton] at hx
    exact .first o.model1 (self_mem _ _) hx
  rw [exec_get] at h
  obtain ⟨rfl, rfl⟩ := ok_pair h
  rw [if_neg (by simp [hs])] at hx
  simp only [bind_eq, pure_eq] at hx
  rw [mem_andThen] at hx
  rcases hx with hx | ⟨a, t, h, hx⟩
  · rcases crash_refit hx with ⟨m, hm, h⟩ | ⟨m1, h1, m, hm, h⟩
    · exact .first m hm h
    · exact .second m1 m h1 hm h
  have hm : ∃ m1 m2, fitU.after o.model1 = .ok m1 ∧ fitU.after o.model2 = .ok m2 ∧ t = { o with model1 := m1, model2 := m2 } := by
    rw [exec_refit] at h
    unfold refit at h
    simp only [bind, Except.bind, pure, Except.pure] at h
    cases h1 : fitU.after o.model1 with
    | error e => rw [h1] at h; cases h
    | ok m1 =>
      rw [h1] at h
      cases h2 : fitU.after o.model2 with
      | error e => rw [h2] at h; cases h
      | ok m2 =>
        rw [h2] at h
        obtain ⟨rfl, -⟩ := ok_pair h
        exact ⟨_, _, rfl, rfl, rfl⟩
  obtain ⟨m1, m2, h1, h2, rfl⟩ := hm
  simp only [exec_andThen] at hex
  rw [h] at hex
  simp only [Except.bind] at hex
  have hset : Settled fitU { o with model1 := m1, model2 := m2 } := ⟨hst _ _ h1, hst _ _ h2⟩
  have hmid : ∀ q y, (q = { o with model1 := m1, model2 := m2 } ∨
        q = { o with model1 := m1, model2 := m2, params := { p1 := dropLl m1.params, p2 := dropLl m2.params } }) →
      Near fitU q y → DccAt cpp fitU opt o y := fun q y hq hy => .search m1 m2 q h1 h2 hq hy
  rw [mem_andThen] at hx
  rcases hx with hx | ⟨st, t, h, hx⟩
  · exact hmid _ _ (.inl rfl) ((triple_start hset _ rfl).1 _ hx)
  have ht := Triple_exec (triple_start (cpp := cpp) hset) rfl h
  subst ht
  rw [h] at hex
  simp only [exec_write, exec_get] at hex
  rw [mem_andThen] at hx
  rcases hx with hx | ⟨a, t, h, hx⟩
  · simp only [crash_write, List.mem_cons, List.not_mem_nil, or_false] at hx
    rcases hx with rfl | rfl
    · exact hmid _ _ (.inl rfl) (near_self _)
    · exact hmid _ _ (.inr rfl) (near_self _)
  rw [exec_write] at h
  obtain ⟨rfl, -⟩ := ok_pair h
  simp only at hx
  rw [mem_andThen] at hx
  rcases hx with hx | ⟨a, t, h, hx⟩
  · simp only [crash_get, List.mem_singleton] at hx
    subst hx
    exact hmid _ _ (.inr rfl) (near_self _)
  rw [exec_get] at h
  obtain ⟨rfl, rfl⟩ := ok_pair h
  have hset' : Settled fitU { o with model1 := m1, model2 := m2, params := { p1 := dropLl m1.params, p2 := dropLl m2.params } } :=
    hset
  generalize opt dccFeas _ _ = run at hx hex
  rw [mem_andThen] at hx
  rcases hx with hx | ⟨a, t, h, hx⟩
  · exact hmid _ _ (.inr rfl) ((triple_evals hset' _ _ rfl).1 _ hx)
  have ht := Triple_exec (triple_evals (cpp := cpp) hset' _) rfl h
  subst ht
  rw [h] at hex
  simp only at hex
  by_cases hsu : run.success = true
  · simp only [if_pos hsu, mem_andThen, crash_write, crash_get, crash_ret, exec_write, exec_get, List.mem_cons,
      List.not_mem_nil, or_false] at hx
    simp only [if_pos hsu, exec_andThen, exec_write, exec_get, exec_ret, Except.bind] at hex
    have last := fun y hy => DccAt.torn (x := y) _ _ hex.symm rfl hy
    rcases hx with (rfl | rfl) | ⟨a, t, h, hx⟩
    · exact hmid _ _ (.inr rfl) (near_self _)
    · exact last _ (.inl rfl)
    obtain ⟨rfl, -⟩ := ok_pair h
    rcases hx with (rfl | rfl) | ⟨a, t, h, hx⟩
    · exact last _ (.inl rfl)
    · exact last _ (.inr (.inl rfl))
    obtain ⟨rfl, -⟩ := ok_pair h
    rcases hx with (rfl | rfl) | ⟨a, t, h, hx⟩
    · exact last _ (.inr (.inl rfl))
    · exact last _ (.inr (.inr (.inl rfl)))
    obtain ⟨rfl, -⟩ := ok_pair h
    rcases hx with (rfl | rfl) | ⟨a, t, h, hx⟩
    · exact last _ (.inr (.inr (.inl rfl)))
    · exact last _ (.inr (.inr (.inr rfl)))
    obtain ⟨rfl, -⟩ := ok_pair h
    rcases hx with rfl | ⟨a, t, h, hx⟩
    · exact last _ (.inr (.inr (.inr rfl)))
    obtain ⟨rfl, -⟩ := ok_pair h
    exact last _ (.inr (.inr (.inr hx)))
  · simp only [if_neg hsu, mem_andThen, crash_write, crash_get, crash_ret, exec_write, exec_get, List.mem_cons,
      List.not_mem_nil, or_false] at hx
    rcases hx with rfl | ⟨a, t, h, hx⟩
    · exact hmid _ _ (.inr rfl) (near_self _)
    obtain ⟨rfl, -⟩ := ok_pair h
    subst hx
    exact hmid _ _ (.inr rfl) (near_self _)

/-! ### a second attempt -/

theorem refit_params (f : GarchObj V → Except PyErr (GarchObj V)) (o : DccObj V) (P : DccPars V) :
    refit f { o with params := P } = (refit f o).map fun q => { q with params := P } := by
  unfold refit
  simp only [bind, Except.bind, pure, Except.pure]
  cases f o.model1 with
  | error e => rfl
  | ok m1 => cases f o.model2 <;> rfl

theorem dccObjective_params (f : GarchObj V → Except PyErr (GarchObj V)) (o : DccObj V) (P : DccPars V) (p : XR × XR) :
    dccObjective cpp f { o with params := P } p = (dccObjective cpp f o p).map fun q => ({ q.1 with params := P }, q.2) := by
  unfold dccObjective condCorr
  simp only [bind, Except.bind, pure, Except.pure, refit_params]
  cases refit f o with
  | error e => rfl
  | ok o1 =>
    simp only [Except.map]
    cases dccKernel cpp p.1 p.2 (stdResid o1.model1.resids o1.model1.sigma2) (stdResid o1.model2.resids o1.model2.sigma2) with
    | error e => rfl
    | ok rho =>
      simp only
      split_ifs <;> rfl

theorem dccStart_params (f : GarchObj V → Except PyErr (GarchObj V)) (o : DccObj V) (P : DccPars V) :
    dccStart cpp f { o with params := P } = (dccStart cpp f o).map fun q => ({ q.1 with params := P }, q.2) := by
  unfold dccStart
  generalize ((1 / 100, 8 / 10) : ℝ × ℝ) = b
  induction dccGrid generalizing o b with
  | nil => rfl
  | cons p l ih =>
    rw [List.foldlM_cons, List.foldlM_cons]
    by_cases hp : 1 ≤ p.1 + p.2
    · simp only [if_pos hp, bind, Except.bind] at ih ⊢
      exact ih o b
    · simp only [if_neg hp, bind, Except.bind, pure, Except.pure, dccObjective_params] at ih ⊢
      cases dccObjective cpp f o (.fin p.1, .fin p.2) with
      | error e => rfl
      | ok r => exact ih r.1 _

/-- what `fit` makes of the object depends on the univariate models only -/
theorem dccFit_congr (f : GarchObj V → Except PyErr (GarchObj V)) (opt : Optimizer (XR × XR)) {o x : DccObj V}
    (hs : o.success = false) (hx : x.success = false) (h1 : f x.model1 = f o.model1) (h2 : f x.model2 = f o.model2) :
    dccFit cpp f opt x = dccFit cpp f opt o := by
  have hr : refit f x = (refit f o).map fun q => { q with params := x.params } := by
    unfold refit
    simp only [bind, Except.bind, pure, Except.pure, h1, h2]
    cases f o.model1 with
    | error e => rfl
    | ok m1 =>
      cases f o.model2 with
      | error e => rfl
      | ok m2 => simp only [Except.map, hs, hx]
  unfold dccFit
  rw [if_neg (by simp [hx]), if_neg (by simp [hs])]
  simp only [bind, Except.bind, hr]
  cases refit f o with
  | error e => rfl
  | ok o1 =>
    simp only [Except.map, dccStart_params]
    cases dccStart cpp f o1 <;> rfl

/-- a crash state, seen from a univariate model: it was not yet fitted, or in the middle of a fit, or of a repeated fit -/
def Passed (fitU : Run (GarchObj V) Unit) (m x : GarchObj V) : Prop :=
  x ∈ crashStates fitU m ∨ ∃ m', fitU.after m = .ok m' ∧ x ∈ crashStates fitU m'

theorem passed_done {m m' : GarchObj V} (h : fitU.after m = .ok m') : Passed fitU m m' :=
  .inr ⟨m', h, self_mem _ _⟩

theorem dccAt_passed {opt : Optimizer (XR × XR)} {o x : DccObj V} (h : DccAt cpp fitU opt o x) (hx : x.success = false) :
    Passed fitU o.model1 x.model1 ∧ Passed fitU o.model2 x.model2 := by
  cases h with
  | first m hm h => subst h; exact ⟨.inl hm, .inl (self_mem _ _)⟩
  | second m1 m h1 hm h => subst h; exact ⟨passed_done h1, .inl hm⟩
  | search m1 m2 q h1 h2 hq h =>
    rcases hq with rfl | rfl <;> rcases h with ⟨m, hm, rfl⟩ | ⟨m, hm, rfl⟩
    · exact ⟨.inr ⟨m1, h1, hm⟩, passed_done h2⟩
    · exact ⟨passed_done h1, .inr ⟨m2, h2, hm⟩⟩
    · exact ⟨.inr ⟨m1, h1, hm⟩, passed_done h2⟩
    · exact ⟨passed_done h1, .inr ⟨m2, h2, hm⟩⟩
  | torn o' r h hs hx' =>
    exfalso
    rcases hx' with rfl | rfl | rfl | rfl <;> simp_all

theorem dccAt_torn {opt : Optimizer (XR × XR)} {o x : DccObj V} (h : DccAt cpp fitU opt o x) (hs : o.success = false)
    (hx : x.success = true) : ∃ o' r, dccFit cpp fitU.after opt o = .ok (o', r) ∧ o'.success = true ∧
      (x = { o' with params := { o'.params with a := .nan, b := .nan, ll := .nan } } ∨
       x = { o' with params := { o'.params with b := .nan, ll := .nan } } ∨
       x = { o' with params := { o'.params with ll := .nan } } ∨ x = o') := by
  cases h with
  | first m hm h => subst h; simp_all
  | second m1 m h1 hm h => subst h; simp_all
  | search m1 m2 q h1 h2 hq h =>
    rcases hq with rfl | rfl <;> rcases h with ⟨m, hm, rfl⟩ | ⟨m, hm, rfl⟩ <;> simp_all
  | torn o' r h hs hx' => exact ⟨o', r, h, hs, hx'⟩

theorem dccAt_params {opt : Optimizer (XR × XR)} {o x : DccObj V} (h : DccAt cpp fitU opt o x) (hx : x.success = false) :
    x.params = o.params ∨ (x.params.a = .nan ∧ x.params.b = .nan ∧ x.params.ll = .nan) := by
  cases h with
  | first m hm h => subst h; exact .inl rfl
  | second m1 m h1 hm h => subst h; exact .inl rfl
  | search m1 m2 q h1 h2 hq h =>
    rcases hq with rfl | rfl <;> rcases h with ⟨m, hm, rfl⟩ | ⟨m, hm, rfl⟩
    · exact .inl rfl
    · exact .inl rfl
    · exact .inr ⟨rfl, rfl, rfl⟩
    · exact .inr ⟨rfl, rfl, rfl⟩
  | torn o' r h hs hx' =>
    exfalso
    rcases hx' with rfl | rfl | rfl | rfl <;> simp_all

theorem uFit_passed {cpp : Bool} {opt : Optimizer (XR × GarchVar)} (hev : Evaluates opt) {o x : GarchObj GarchVar}
    (hx : Passed (uFitRun cpp opt) o x) (hw : x.success = true → uFit cpp opt o = .ok x) : uFit cpp opt x = uFit cpp opt o := by
  rcases hx with hx | ⟨m', h, hx⟩
  · exact uFit_retry hev hx hw
  · rw [uFit_after] at h
    have hst := (C79_refit_stable cpp opt (fun _ _ x0 => ⟨[], false, x0, .nan⟩) o m'
        ⟨[], false, false, none, [], [], .nan, none⟩ ⟨[], false, false, none, [], [], .nan, none⟩).1 h
    rw [uFit_retry hev hx (fun hs => by rw [hst, ← hw hs, h]), hst, h]

theorem uFitGjr_passed {cpp : Bool} {opt : Optimizer (XR × GjrVar)} (hev : Evaluates opt) {o x : GarchObj GjrVar}
    (hx : Passed (uFitGjrRun cpp opt) o x) : uFitGjr cpp opt x = uFitGjr cpp opt o := by
  rcases hx with hx | ⟨m', h, hx⟩
  · exact uFitGjr_retry hev hx
  · rw [uFitGjr_after] at h
    rw [uFitGjr_retry hev hx, h]
    exact (C79_refit_stable cpp (fun _ _ x0 => ⟨[], false, x0, .nan⟩) opt
        ⟨[], false, false, none, [], [], .nan, none⟩ ⟨[], false, false, none, [], [], .nan, none⟩ o m').2 h

theorem uFit_settles (cpp : Bool) (opt : Optimizer (XR × GarchVar)) (m m' : GarchObj GarchVar)
    (h : (uFitRun cpp opt).after m = .ok m') : (uFitRun cpp opt).after m' = .ok m' := by
  rw [uFit_after] at h ⊢
  exact (C79_refit_stable cpp opt (fun _ _ x0 => ⟨[], false, x0, .nan⟩) m m'
        ⟨[], false, false, none, [], [], .nan, none⟩ ⟨[], false, false, none, [], [], .nan, none⟩).1 h

theorem uFitGjr_settles (cpp : Bool) (opt : Optimizer (XR × GjrVar)) (m m' : GarchObj GjrVar)
    (h : (uFitGjrRun cpp opt).after m = .ok m') : (uFitGjrRun cpp opt).after m' = .ok m' := by
  rw [uFitGjr_after] at h ⊢
  exact (C79_refit_stable cpp (fun _ _ x0 => ⟨[], false, x0, .nan⟩) opt
        ⟨[], false, false, none, [], [], .nan, none⟩ ⟨[], false, false, none, [], [], .nan, none⟩ m m').2 h

end Crash
open Crash

/-- C173. Uninterrupted `GARCHModel_DCC.fit` and `GJRGARCHModel_DCC.fit` are those of the other properties. -/
theorem C173_dcc_complete (cpp : Bool) (opt1 : Optimizer (XR × GarchVar)) (optj : Optimizer (XR × GjrVar))
    (opt : Optimizer (XR × XR)) (o : DccObj GarchVar) (j : DccObj GjrVar) :
    exec (dccFitRun cpp (uFitRun cpp opt1) opt) o = dccFit cpp (uFit cpp opt1) opt o ∧
    exec (dccFitRun cpp (uFitGjrRun cpp optj) opt) j = dccFit cpp (uFitGjr cpp optj) opt j := by
  rw [exec_dcc, exec_dcc, uFit_after, uFitGjr_after]
  exact ⟨rfl, rfl⟩

/-- C173. Wherever a `GARCHModel_DCC.fit` is interrupted: if `estimation_success` is not set, `a`, `b` and the log-likelihood
are as before or NaN, and unless a univariate model was caught between its flag and its last write, a new `fit` gives what the
first would have given; if it is set, each of `a`, `b` and the log-likelihood is the final one or NaN, and every later `fit`
returns just these. -/
theorem C173_dcc (cpp : Bool) (opt1 : Optimizer (XR × GarchVar)) (hev : Evaluates opt1) (opt : Optimizer (XR × XR))
    (o x : DccObj GarchVar) (hs : o.success = false) (hx : x ∈ crashStates (dccFitRun cpp (uFitRun cpp opt1) opt) o) :
    (x.success = false →
      (x.params = o.params ∨ (x.params.a = .nan ∧ x.params.b = .nan ∧ x.params.ll = .nan)) ∧
      ((x.model1.success = true → uFit cpp opt1 o.model1 = .ok x.model1) →
       (x.model2.success = true → uFit cpp opt1 o.model2 = .ok x.model2) →
        dccFit cpp (uFit cpp opt1) opt x = dccFit cpp (uFit cpp opt1) opt o)) ∧
    (x.success = true → (∃ o' r, dccFit cpp (uFit cpp opt1) opt o = .ok (o', r) ∧ o'.success = true ∧
        (x = { o' with params := { o'.params with a := .nan, b := .nan, ll := .nan } } ∨
         x = { o' with params := { o'.params with b := .nan, ll := .nan } } ∨
         x = { o' with params := { o'.params with ll := .nan } } ∨ x = o')) ∧
      ∀ fitU opt', dccFit cpp fitU opt' x = .ok (x, x.params)) := by
  have h := crash_dcc (uFit_settles cpp opt1) hs hx
  refine ⟨fun h0 => ⟨dccAt_params h h0, fun w1 w2 => ?_⟩, fun h1 => ⟨?_, fun fitU opt' => by unfold dccFit; rw [if_pos h1]⟩⟩
  · obtain ⟨p1, p2⟩ := dccAt_passed h h0
    exact dccFit_congr _ _ hs h0 (uFit_passed hev p1 w1) (uFit_passed hev p2 w2)
  · have := dccAt_torn h hs h1
    rwa [uFit_after] at this

/-- C173. `GJRGARCHModel_DCC.fit`: the same, and since the univariate models are estimated afresh every time, a new `fit` after
an interruption always gives what the first would have given, unless `estimation_success` was set already. -/
theorem C173_gjr_dcc (cpp : Bool) (opt1 : Optimizer (XR × GjrVar)) (hev : Evaluates opt1) (opt : Optimizer (XR × XR))
    (o x : DccObj GjrVar) (hs : o.success = false) (hx : x ∈ crashStates (dccFitRun cpp (uFitGjrRun cpp opt1) opt) o) :
    (x.success = false →
      (x.params = o.params ∨ (x.params.a = .nan ∧ x.params.b = .nan ∧ x.params.ll = .nan)) ∧
      dccFit cpp (uFitGjr cpp opt1) opt x = dccFit cpp (uFitGjr cpp opt1) opt o) ∧
    (x.success = true → (∃ o' r, dccFit cpp (uFitGjr cpp opt1) opt o = .ok (o', r) ∧ o'.success = true ∧
        (x = { o' with params := { o'.params with a := .nan, b := .nan, ll := .nan } } ∨
         x = { o' with params := { o'.params with b := .nan, ll := .nan } } ∨
         x = { o' with params := { o'.params with ll := .nan } } ∨ x = o')) ∧
      ∀ fitU opt', dccFit cpp fitU opt' x = .ok (x, x.params)) := by
  have h := crash_dcc (uFitGjr_settles cpp opt1) hs hx
  refine ⟨fun h0 => ⟨dccAt_params h h0, ?_⟩, fun h1 => ⟨?_, fun fitU opt' => by unfold dccFit; rw [if_pos h1]⟩⟩
  · obtain ⟨p1, p2⟩ := dccAt_passed h h0
    exact dccFit_congr _ _ hs h0 (uFitGjr_passed hev p1) (uFitGjr_passed hev p2)
  · have := dccAt_torn h hs h1
    rwa [uFitGjr_after] at this

namespace Crash

theorem nan_objective {f : GarchObj V → Except PyErr (GarchObj V)} {o : DccObj V} (h : o.model1.params = none) (p : XR × XR) :
    (∃ e, dccObjective cpp f o p = .error e) ∨ ∃ q, dccObjective cpp f o p = .ok (q, .nan) := by
  have hl : llOf o.model1 = .nan := by unfold llOf; rw [h]; rfl
  have hn : ∀ a b : XR, -((XR.nan + a) + b) = XR.nan := fun a b => by cases a <;> cases b <;> rfl
  unfold dccObjective
  simp only [bind, Except.bind, pure, Except.pure, hl]
  cases condCorr cpp f o p.1 p.2 with
  | error e => exact .inl ⟨e, rfl⟩
  | ok r =>
    simp only [hn]
    split_ifs
    all_goals first
      | exact .inl ⟨_, rfl⟩
      | exact .inr ⟨_, rfl⟩

theorem fold_inv {S P : Type} {f : S → P → Except PyErr S} (I : S → Prop) (hf : ∀ s p t, f s p = .ok t → I s → I t) (l : List P)
    {s t : S} (h : l.foldlM f s = .ok t) (hs : I s) : I t := by
  induction l generalizing s with
  | nil => injection h with h; subst h; exact hs
  | cons p l ih =>
    rw [List.foldlM_cons] at h
    cases h1 : f s p with
    | error e => rw [h1] at h; cases h
    | ok u => rw [h1] at h; exact ih h (hf _ _ _ h1 hs)

end Crash

/-- C173. A univariate model caught between its flag and its parameters is never repaired: every later `fit` of a DCC model on
it leaves its parameters NaN, and hands the optimiser the start (0.01, 0.8) and an objective that is NaN everywhere. If the
optimiser then reports success, so does `fit`, with `a` and `b` that do not depend on the returns of either series. -/
theorem C173_dcc_torn_model (cpp : Bool) (opt1 : Optimizer (XR × GarchVar)) (opt : Optimizer (XR × XR)) (x o' : DccObj GarchVar)
    (r : DccPars GarchVar) (hs : x.success = false) (h1 : x.model1.success = true) (h2 : x.model1.params = none)
    (hf : dccFit cpp (uFit cpp opt1) opt x = .ok (o', r)) :
    o'.model1 = x.model1 ∧ r.p1 = none ∧
    (o'.success = true → (opt dccFeas (fun _ => .nan) (.fin (1 / 100), .fin (8 / 10))).success = true ∧
      (r.a, r.b) = (opt dccFeas (fun _ => .nan) (.fin (1 / 100), .fin (8 / 10))).x) := by
  have hu : uFit cpp opt1 x.model1 = .ok x.model1 := by
    unfold uFit garchFit; rw [if_pos h1]; rfl
  have hkeep : ∀ o q : DccObj GarchVar, refit (uFit cpp opt1) o = .ok q → o.model1 = x.model1 →
      q.model1 = x.model1 ∧ q.params = o.params ∧ q.success = o.success := by
    intro o q hr hm
    unfold refit at hr
    simp only [bind, Except.bind, pure, Except.pure, hm, hu] at hr
    cases h3 : uFit cpp opt1 o.model2 with
    | error e => rw [h3] at hr; cases hr
    | ok m2 => rw [h3] at hr; injection hr with hr; subst hr; exact ⟨rfl, rfl, rfl⟩
  obtain ⟨o3, st, o4, hr, hst, run, hrun, htr, hr', h⟩ := dccFit_cases (by simp [hs]) hf
  have h3 := hkeep _ _ hr rfl
  have hst' : st.1.model1 = x.model1 ∧ st.1.success = false ∧ st.2 = ((1 / 100, 8 / 10) : ℝ × ℝ) := by
    refine fold_inv (fun q : DccObj GarchVar × (ℝ × ℝ) => q.1.model1 = x.model1 ∧ q.1.success = false ∧
      q.2 = ((1 / 100, 8 / 10) : ℝ × ℝ)) ?_ _ hst ⟨h3.1, h3.2.2.trans hs, rfl⟩
    intro s p t ht hI
    by_cases hp : 1 ≤ p.1 + p.2
    · rw [if_pos hp] at ht; injection ht with ht; subst ht; exact hI
    · rw [if_neg hp] at ht
      simp only [bind, Except.bind, pure, Except.pure] at ht
      rcases nan_objective (cpp := cpp) (f := uFit cpp opt1) (o := s.1) (by rw [hI.1]; exact h2) (.fin p.1, .fin p.2)
        with ⟨e, he⟩ | ⟨q, he⟩
      · rw [he] at ht; cases ht
      · rw [he] at ht
        simp only at ht
        injection ht with ht
        have hk := hkeep _ _ (dccObjective_refit he) hI.1
        subst ht
        refine ⟨hk.1, hk.2.2.trans hI.2.1, ?_⟩
        have : ¬ (XR.ninf < -XR.nan) := fun h => h
        rw [if_neg this]
        exact hI.2.2
  have h4 : o4.model1 = x.model1 ∧ o4.success = false ∧ o4.params.p1 = none := by
    refine fold_inv (fun q : DccObj GarchVar => q.model1 = x.model1 ∧ q.success = false ∧ q.params.p1 = none) ?_ _ htr ?_
    · intro s p t ht hI
      simp only [bind, Except.bind, pure, Except.pure] at ht
      cases hd : dccObjective cpp (uFit cpp opt1) s p with
      | error e => rw [hd] at ht; cases ht
      | ok q =>
        rw [hd] at ht
        injection ht with ht
        have hk := hkeep _ _ (dccObjective_refit hd) hI.1
        subst ht
        exact ⟨hk.1, hk.2.2.trans hI.2.1, by rw [hk.2.1]; exact hI.2.2⟩
    · refine ⟨hst'.1, hst'.2.1, ?_⟩
      show dropLl st.1.model1.params = none
      rw [hst'.1, h2]; rfl
  replace hrun : run = opt dccFeas (fun _ => .nan) (.fin (1 / 100), .fin (8 / 10)) := by
    refine hrun.trans ?_
    rw [hst'.2.2]
    refine congrArg (fun g => opt dccFeas g (.fin (1 / 100), .fin (8 / 10))) (funext fun p => ?_)
    have hn := nan_objective (cpp := cpp) (f := uFit cpp opt1) (o := { st.1 with params :=
      { p1 := dropLl st.1.model1.params, p2 := dropLl st.1.model2.params } }) (by
        show st.1.model1.params = none
        rw [hst'.1]; exact h2) p
    simp only at hn ⊢
    rcases hn with ⟨e, he⟩ | ⟨q, he⟩
    · rw [he]
    · rw [he]
  rw [← hrun]
  rcases h with ⟨ha, rfl⟩ | ⟨ha, rfl⟩
  · exact ⟨h4.1, by rw [hr']; exact h4.2.2, fun _ => ⟨ha, by rw [hr']⟩⟩
  · exact ⟨h4.1, by rw [hr']; exact h4.2.2, fun h => by rw [h4.2.1] at h; cases h⟩

/-- C173. Such a univariate model does result from an interruption, of `GARCHModel_CCC.fit` and of `GARCHModel_DCC.fit`, whenever the
estimation of the first series succeeds. -/
theorem C173_torn_model_reached (cpp : Bool) (opt1 : Optimizer (XR × GarchVar)) (opt : Optimizer (XR × XR)) (optc : Optimizer CccVec)
    (o : DccObj GarchVar) (c : CccObj) (m1 m' : GarchObj GarchVar) (r : Option (Option (XR × GarchVar × XR)))
    (ho : o.success = false ∧ o.model1 = m1) (hc : c.success = false ∧ c.model1 = m1)
    (hm : m1.success = false ∧ m1.params = none) (hf : garchFit cpp opt1 m1 = .ok (m', r)) (hs : m'.success = true) :
    (∃ x ∈ crashStates (dccFitRun cpp (uFitRun cpp opt1) opt) o,
      x.success = false ∧ x.model1.success = true ∧ x.model1.params = none) ∧
    (∃ x ∈ crashStates (cccFitRun cpp (uFitRun cpp opt1) optc) c,
      x.success = false ∧ x.model1.success = true ∧ x.model1.params = none) := by
  obtain ⟨⟨m, t1, t2, t3, t4, t5⟩, _⟩ := C173_garch_torn cpp opt1 m1 m' r hm.1 hf hs
  rw [← uFit_crash] at t1
  constructor
  · refine ⟨{ o with model1 := m }, ?_, ho.1, t2, t3.trans hm.2⟩
    unfold dccFitRun
    rw [bind_eq, mem_andThen]
    refine .inr ⟨o, o, rfl, ?_⟩
    rw [if_neg (by simp [ho.1]), bind_eq, mem_andThen]
    refine .inl ?_
    unfold refitRun
    rw [bind_eq, mem_andThen]
    refine .inl ((mem_on (by intro s; rfl)).mpr ⟨m, ?_, rfl⟩)
    rw [ho.2]; exact t1
  · refine ⟨{ c with model1 := m }, ?_, hc.1, t2, t3.trans hm.2⟩
    unfold cccFitRun
    rw [bind_eq, mem_andThen]
    refine .inr ⟨c, c, rfl, ?_⟩
    rw [if_neg (by simp [hc.1]), bind_eq, mem_andThen]
    refine .inl ((mem_on (by intro s; rfl)).mpr ⟨m, ?_, rfl⟩)
    rw [hc.2]; exact t1

-- two series of the three returns 2, -1, -1
example (cpp : Bool) (opt : Optimizer (XR × XR)) : ∃ x ∈ crashStates (dccFitRun cpp (uFitRun cpp stay) opt) ⟨threeDays, threeDays, false, {}⟩,
    x.success = false ∧ x.model1.success = true ∧ x.model1.params = none := by
  obtain ⟨o', r, h, hs⟩ := threeDays_fit cpp
  exact (C173_torn_model_reached cpp stay opt stay ⟨threeDays, threeDays, false, {}⟩ ⟨threeDays, threeDays, false, none⟩ threeDays o' r
    ⟨rfl, rfl⟩ ⟨rfl, rfl⟩ ⟨rfl, rfl⟩ h hs).1

end
end Frds.Props

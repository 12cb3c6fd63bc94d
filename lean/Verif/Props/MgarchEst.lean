import Verif.Props.MgarchFit

/-! Properties C79-C80: estimation of the bivariate models. -/
set_option linter.unusedSimpArgs false

namespace Frds.Props
noncomputable section
open Frds Frds.Model Frds.Spec Classical

/-! ### C79 -/

/-- C79. CCC: `fit` returns `self.parameters`; on a model already estimated it changes nothing and does not
depend on the optimiser or the univariate estimators; a failed `fit` keeps the parameters. -/
theorem C79_ccc (cpp : Bool) (fitU : GarchObj GarchVar → Except PyErr (GarchObj GarchVar))
    (opt : Optimizer CccVec) (o : CccObj) :
    (o.success = true → cccFit cpp fitU opt o = .ok (o, o.params)) ∧
    ∀ o' r, cccFit cpp fitU opt o = .ok (o', r) → r = o'.params ∧
      (o'.success = false → o.success = false ∧ o'.params = o.params) := by
  refine ⟨fun h => by rw [cccFit, if_pos h], fun o' r h => ?_⟩
  unfold cccFit at h
  by_cases hs : o.success = true
  · rw [if_pos hs] at h
    injection h with h
    rw [Prod.mk.injEq] at h
    obtain ⟨rfl, rfl⟩ := h
    exact ⟨rfl, fun hf => absurd (hs.symm.trans hf) (by simp)⟩
  · rw [if_neg hs] at h
    simp only [bind, Except.bind] at h
    cases h1 : fitU o.model1 with
    | error e => rw [h1] at h; simp at h
    | ok m1 =>
      rw [h1] at h
      simp only at h
      cases h2 : fitU o.model2 with
      | error e => rw [h2] at h; simp at h
      | ok m2 =>
        rw [h2] at h
        simp only at h
        by_cases hl : (stdResid m1.resids m1.sigma2).length ≠ (stdResid m2.resids m2.sigma2).length
        · rw [if_pos hl] at h; simp at h
        · rw [if_neg hl] at h
          split at h
          · simp at h
          · rename_i run hrun
            by_cases hsu : run.success = true
            · rw [if_pos hsu] at h
              injection h with h
              rw [Prod.mk.injEq] at h
              obtain ⟨rfl, rfl⟩ := h
              exact ⟨rfl, fun hf => absurd hf (by simp)⟩
            · rw [if_neg hsu] at h
              injection h with h
              rw [Prod.mk.injEq] at h
              obtain ⟨rfl, rfl⟩ := h
              exact ⟨rfl, fun _ => ⟨by simpa using hs, rfl⟩⟩

theorem refit_keeps {V : Type} {fitU : GarchObj V → Except PyErr (GarchObj V)} {o o' : DccObj V}
    (h : refit fitU o = .ok o') : o'.success = o.success ∧ o'.params = o.params := by
  unfold refit at h
  simp only [bind, Except.bind, pure, Except.pure] at h
  cases h1 : fitU o.model1 with
  | error e => rw [h1] at h; simp at h
  | ok m1 =>
    rw [h1] at h
    simp only at h
    cases h2 : fitU o.model2 with
    | error e => rw [h2] at h; simp at h
    | ok m2 =>
      rw [h2] at h
      injection h with h
      subst h
      exact ⟨rfl, rfl⟩

theorem condCorr_refit {V : Type} {cpp : Bool} {fitU : GarchObj V → Except PyErr (GarchObj V)}
    {o o' : DccObj V} {a b : XR} {r : List XR} (h : condCorr cpp fitU o a b = .ok (o', r)) :
    refit fitU o = .ok o' := by
  unfold condCorr at h
  simp only [bind, Except.bind, pure, Except.pure] at h
  cases h1 : refit fitU o with
  | error e => rw [h1] at h; simp at h
  | ok m =>
    rw [h1] at h
    simp only at h
    split at h
    · simp at h
    · injection h with h
      rw [Prod.mk.injEq] at h
      rw [h.1]

theorem dccObjective_refit {V : Type} {cpp : Bool} {fitU : GarchObj V → Except PyErr (GarchObj V)}
    {o o' : DccObj V} {p : XR × XR} {v : XR} (h : dccObjective cpp fitU o p = .ok (o', v)) :
    refit fitU o = .ok o' := by
  unfold dccObjective at h
  simp only [bind, Except.bind, pure, Except.pure] at h
  cases hc : condCorr cpp fitU o p.1 p.2 with
  | error e => rw [hc] at h; simp at h
  | ok r =>
    rw [hc] at h
    simp only at h
    split_ifs at h
    all_goals
      injection h with h
      rw [Prod.mk.injEq] at h
      rw [← h.1]
      exact condCorr_refit (r := r.2) hc

/-- keeps the estimation flag and the parameters -/
def Keeps {V : Type} (o o' : DccObj V) : Prop := o'.success = o.success ∧ o'.params = o.params

theorem dccStart_keeps {V : Type} {cpp : Bool} {fitU : GarchObj V → Except PyErr (GarchObj V)}
    {o : DccObj V} {r : DccObj V × (ℝ × ℝ)} (h : dccStart cpp fitU o = .ok r) : Keeps o r.1 := by
  refine foldlM_inv (P := fun st => Keeps o st.1) ?_ ⟨rfl, rfl⟩ h
  intro st hst p _ st' hs
  simp only at hs
  by_cases hf : 1 ≤ p.1 + p.2
  · rw [if_pos hf] at hs
    injection hs with hs
    rwa [← hs]
  · rw [if_neg hf] at hs
    simp only [bind, Except.bind, pure, Except.pure] at hs
    cases hd : dccObjective cpp fitU st.1 (.fin p.1, .fin p.2) with
    | error e => rw [hd] at hs; simp at hs
    | ok q =>
      rw [hd] at hs
      injection hs with hs
      rw [← hs]
      have := refit_keeps (dccObjective_refit (v := q.2) hd)
      exact ⟨this.1.trans hst.1, this.2.trans hst.2⟩

theorem trace_keeps {V : Type} {cpp : Bool} {fitU : GarchObj V → Except PyErr (GarchObj V)}
    {o o' : DccObj V} {l : List (XR × XR)}
    (h : l.foldlM (fun (o : DccObj V) p => do
      let r ← dccObjective cpp fitU o p
      return r.1) o = .ok o') : Keeps o o' := by
  refine foldlM_inv (P := fun st => Keeps o st) ?_ ⟨rfl, rfl⟩ h
  intro st hst p _ st' hs
  simp only [bind, Except.bind, pure, Except.pure] at hs
  cases hd : dccObjective cpp fitU st p with
  | error e => rw [hd] at hs; simp at hs
  | ok q =>
    rw [hd] at hs
    injection hs with hs
    rw [← hs]
    have := refit_keeps (dccObjective_refit (v := q.2) hd)
    exact ⟨this.1.trans hst.1, this.2.trans hst.2⟩

/-- decomposition of a DCC `fit` on a model not yet estimated -/
theorem dccFit_cases {V : Type} {cpp : Bool} {fitU : GarchObj V → Except PyErr (GarchObj V)}
    {opt : Optimizer (XR × XR)} {o o' : DccObj V} {r : DccPars V} (hs : ¬ o.success = true)
    (h : dccFit cpp fitU opt o = .ok (o', r)) :
    ∃ o1 st o2, refit fitU o = .ok o1 ∧ dccStart cpp fitU o1 = .ok st ∧
      ∃ run : OptRun (XR × XR), run = opt dccFeas (fun p => match dccObjective cpp fitU { st.1 with params :=
          { p1 := dropLl st.1.model1.params, p2 := dropLl st.1.model2.params } } p with
        | .ok r => r.2
        | .error _ => .nan) (.fin st.2.1, .fin st.2.2) ∧
      (run.trace.foldlM (fun (o : DccObj V) p => do
        let r ← dccObjective cpp fitU o p
        return r.1) { st.1 with params :=
          { p1 := dropLl st.1.model1.params, p2 := dropLl st.1.model2.params } } = .ok o2) ∧
      r = o'.params ∧
      ((run.success = true ∧ o' = { o2 with success := true, params :=
          { o2.params with a := run.x.1, b := run.x.2, ll := -run.f } }) ∨
       (run.success = false ∧ o' = o2)) := by
  unfold dccFit at h
  rw [if_neg hs] at h
  simp only [bind, Except.bind] at h
  cases h1 : refit fitU o with
  | error e => rw [h1] at h; simp at h
  | ok o1 =>
    rw [h1] at h
    simp only at h
    cases h2 : dccStart cpp fitU o1 with
    | error e => rw [h2] at h; simp at h
    | ok st =>
      rw [h2] at h
      simp only at h
      split at h
      · simp at h
      · rename_i o2 h3
        refine ⟨o1, st, o2, rfl, h2, _, rfl, h3, ?_⟩
        split at h
        · rename_i hsu
          injection h with h
          rw [Prod.mk.injEq] at h
          obtain ⟨rfl, rfl⟩ := h
          exact ⟨rfl, Or.inl ⟨hsu, rfl⟩⟩
        · rename_i hsu
          injection h with h
          rw [Prod.mk.injEq] at h
          obtain ⟨rfl, rfl⟩ := h
          refine ⟨rfl, Or.inr ⟨?_, rfl⟩⟩
          rw [Bool.not_eq_true] at hsu
          exact hsu

/-- what a user can do with a DCC object: `fit`, `conditional_correlations`, `loglikelihood_model`,
`starting_values`, each time with any optimiser and univariate estimator -/
inductive DccReach {V : Type} : DccObj V → DccObj V → Prop
  | refl (o) : DccReach o o
  | fit {o o1 o2 : DccObj V} {r} (cpp fitU opt) : DccReach o o1 → dccFit cpp fitU opt o1 = .ok (o2, r) →
      DccReach o o2
  | corr {o o1 o2 : DccObj V} {r} (cpp fitU a b) : DccReach o o1 →
      condCorr cpp fitU o1 a b = .ok (o2, r) → DccReach o o2
  | eval {o o1 o2 : DccObj V} {v} (cpp fitU p) : DccReach o o1 →
      dccObjective cpp fitU o1 p = .ok (o2, v) → DccReach o o2
  | start {o o1 o2 : DccObj V} {p} (cpp fitU) : DccReach o o1 →
      dccStart cpp fitU o1 = .ok (o2, p) → DccReach o o2

/-- C79. DCC: on a model already estimated, `fit` returns the stored parameters and changes nothing,
whatever the optimiser and the univariate estimators; `fit` always returns `self.parameters`. -/
theorem C79_dcc {V : Type} (cpp : Bool) (fitU : GarchObj V → Except PyErr (GarchObj V))
    (opt : Optimizer (XR × XR)) (o : DccObj V) :
    (o.success = true → dccFit cpp fitU opt o = .ok (o, o.params)) ∧
    ∀ o' r, dccFit cpp fitU opt o = .ok (o', r) → r = o'.params := by
  refine ⟨fun h => by rw [dccFit, if_pos h], fun o' r h => ?_⟩
  by_cases hs : o.success = true
  · rw [dccFit, if_pos hs] at h
    injection h with h
    rw [Prod.mk.injEq] at h
    rw [← h.1, ← h.2]
  · obtain ⟨_, _, _, _, _, _, _, _, h, _⟩ := dccFit_cases hs h
    exact h

/-- C79. In every history of calls starting from a new object: as long as the estimation has not
succeeded, `a`, `b` and the log-likelihood are NaN. -/
theorem C79_dcc_failed {V : Type} (o o' : DccObj V)
    (hn : o.params.a = .nan ∧ o.params.b = .nan ∧ o.params.ll = .nan) (h : DccReach o o')
    (hf : o'.success = false) : o'.params.a = .nan ∧ o'.params.b = .nan ∧ o'.params.ll = .nan := by
  induction h with
  | refl => exact hn
  | @fit o1 o2 r cpp fitU opt _ hfit ih =>
    by_cases h1 : o1.success = true
    · rw [dccFit, if_pos h1] at hfit
      injection hfit with hfit
      rw [Prod.mk.injEq] at hfit
      rw [← hfit.1, h1] at hf
      exact absurd hf (by simp)
    · obtain ⟨o3, st, o4, _, _, run, _, htr, _, h⟩ := dccFit_cases h1 hfit
      rcases h with ⟨_, rfl⟩ | ⟨_, rfl⟩
      · exact absurd hf (by simp)
      · rw [(trace_keeps htr).2]
        exact ⟨rfl, rfl, rfl⟩
  | @corr o1 o2 r cpp fitU a b _ hc ih =>
    have := refit_keeps (condCorr_refit hc)
    rw [this.2]; exact ih (this.1 ▸ hf)
  | @eval o1 o2 v cpp fitU p _ hc ih =>
    have := refit_keeps (dccObjective_refit hc)
    rw [this.2]; exact ih (this.1 ▸ hf)
  | @start o1 o2 p cpp fitU _ hc ih =>
    have := dccStart_keeps hc
    simp only [Keeps] at this
    rw [this.2]; exact ih (this.1 ▸ hf)

/-- C79. In every history of calls after a success the estimation stays successful and the parameters
never change. -/
theorem C79_dcc_stable {V : Type} (o o' : DccObj V) (hs : o.success = true) (h : DccReach o o') :
    o'.success = true ∧ o'.params = o.params := by
  induction h with
  | refl => exact ⟨hs, rfl⟩
  | @fit o1 o2 r cpp fitU opt _ hfit ih =>
    rw [dccFit, if_pos ih.1] at hfit
    injection hfit with hfit
    rw [Prod.mk.injEq] at hfit
    rw [← hfit.1]; exact ih
  | @corr o1 o2 r cpp fitU a b _ hc ih =>
    have := refit_keeps (condCorr_refit hc)
    rw [this.1, this.2]; exact ih
  | @eval o1 o2 v cpp fitU p _ hc ih =>
    have := refit_keeps (dccObjective_refit hc)
    rw [this.1, this.2]; exact ih
  | @start o1 o2 p cpp fitU _ hc ih =>
    have := dccStart_keeps hc
    simp only [Keeps] at this
    rw [this.1, this.2]; exact ih

/-- the result of `fitCore` depends on the returns and the mean option, apart from stored leftovers -/
theorem fitCore_idem {V : Type} {cpp : Bool}
    {var : V → List XR → XR → List (XR × XR) → Except PyErr (List XR)}
    {start : List XR → List XR → XR → List (XR × XR) → Except PyErr (Option V)}
    {feas : Bool → Feas (XR × V)} {opt : Optimizer (XR × V)} {o o' : GarchObj V} (h : fitCore cpp var start feas opt o = .ok o') :
    fitCore cpp var start feas opt o' = .ok o' := by
  unfold fitCore at h
  simp only [bind, Except.bind] at h
  cases h1 : varianceBounds cpp (prepResids o) with
  | error e => rw [h1] at h; simp at h
  | ok vb =>
    rw [h1] at h
    simp only at h
    cases h2 : start o.returns (prepResids o) (backcast (prepResids o)) vb with
    | error e => rw [h2] at h; simp at h
    | ok v0 =>
      rw [h2] at h
      cases v0 with
      | none => simp at h
      | some v0 =>
        simp only at h
        have hobj : ∀ q : GarchObj V, q.returns = o.returns → q.zeroMean = o.zeroMean →
            modelPath var q (backcast (prepResids o)) vb = modelPath var o (backcast (prepResids o)) vb := by
          intro q hr hz; funext p; unfold modelPath; rw [hr, hz]
        have hprep : ∀ q : GarchObj V, q.returns = o.returns → q.zeroMean = o.zeroMean →
            prepResids q = prepResids o := by
          intro q hr hz; unfold prepResids; rw [hr, hz]
        have hr' : o'.returns = o.returns ∧ o'.zeroMean = o.zeroMean := by
          split_ifs at h <;> (injection h with h; subst h; exact ⟨rfl, rfl⟩)
        have hobj' : objective var o' (backcast (prepResids o)) vb
            = objective var o (backcast (prepResids o)) vb := by
          funext p; unfold objective; rw [hobj o' hr'.1 hr'.2]
        unfold fitCore
        simp only [bind, Except.bind]
        rw [hprep o' hr'.1 hr'.2, h1]
        simp only
        rw [hr'.1, h2]
        simp only
        rw [hobj', hr'.2, hobj o' hr'.1 hr'.2]
        generalize opt (feas o.zeroMean) (objective var o (backcast (prepResids o)) vb)
          (if o.zeroMean = true then 0 else Np.mean o.returns, v0) = run at h ⊢
        by_cases hsu : run.success = true
        · rw [if_pos hsu] at h ⊢
          injection h with h
          subst h
          simp only
          congr 2
          cases ht : run.trace.getLast? with
          | none => rfl
          | some p =>
            simp only
            cases hm : modelPath var o (backcast (prepResids o)) vb p with
            | error e => rfl
            | ok q => rfl
        · rw [if_neg hsu] at h ⊢
          injection h with h
          subst h
          simp only
          congr 2
          cases ht : run.trace.getLast? with
          | none => rfl
          | some p =>
            simp only
            cases hm : modelPath var o (backcast (prepResids o)) vb p with
            | error e => rfl
            | ok q => rfl

/-- C79. Re-estimating a univariate model with the same deterministic optimiser changes nothing, for
GARCH (which returns early after a success) and for GJR-GARCH (which does not). -/
theorem C79_refit_stable (cpp : Bool) (opt : Optimizer (XR × GarchVar)) (optj : Optimizer (XR × GjrVar))
    (o o' : GarchObj GarchVar) (j j' : GarchObj GjrVar) :
    (uFit cpp opt o = .ok o' → uFit cpp opt o' = .ok o') ∧
    (uFitGjr cpp optj j = .ok j' → uFitGjr cpp optj j' = .ok j') := by
  constructor
  · intro h
    unfold uFit garchFit at h ⊢
    simp only [bind, Except.bind, pure, Except.pure] at h ⊢
    by_cases hs : o.success = true
    · rw [if_pos hs] at h
      injection h with h
      simp only at h
      subst h
      rw [if_pos hs]
    · rw [if_neg hs] at h
      cases hf : fitCore cpp (garchVariance cpp) (garchStart cpp) garchFeas opt o with
      | error e => rw [hf] at h; simp at h
      | ok q =>
        rw [hf] at h
        injection h with h
        simp only at h
        subst h
        by_cases hs' : q.success = true
        · rw [if_pos hs']
        · rw [if_neg hs', fitCore_idem hf]
  · intro h
    unfold uFitGjr gjrFit at h ⊢
    simp only [bind, Except.bind, pure, Except.pure] at h ⊢
    cases hf : fitCore cpp (gjrVariance cpp) (fun ret res _ _ => gjrStart cpp ret res) gjrFeas optj j with
    | error e => rw [hf] at h; simp at h
    | ok q =>
      rw [hf] at h
      injection h with h
      simp only at h
      subst h
      rw [fitCore_idem hf]

theorem refit_idem {V : Type} {fitU : GarchObj V → Except PyErr (GarchObj V)}
    (hid : ∀ m m', fitU m = .ok m' → fitU m' = .ok m') {o o' : DccObj V} (h : refit fitU o = .ok o') :
    refit fitU o' = .ok o' := by
  unfold refit at h
  simp only [bind, Except.bind, pure, Except.pure] at h
  cases h1 : fitU o.model1 with
  | error e => rw [h1] at h; simp at h
  | ok m1 =>
    rw [h1] at h
    simp only at h
    cases h2 : fitU o.model2 with
    | error e => rw [h2] at h; simp at h
    | ok m2 =>
      rw [h2] at h
      injection h with h
      subst h
      simp only [refit, bind, Except.bind, pure, Except.pure, hid _ _ h1, hid _ _ h2]

/-- C79. A successful DCC `fit` with a truthful optimiser (it reports the objective at the point it
returns) stores parameters whose log-likelihood is minus the objective, re-evaluated on the estimated
object, at the stored `a` and `b`; the univariate entries are those of the univariate models. -/
theorem C79_dcc_reported {V : Type} (cpp : Bool) (fitU : GarchObj V → Except PyErr (GarchObj V))
    (hid : ∀ m m', fitU m = .ok m' → fitU m' = .ok m') (opt : Optimizer (XR × XR))
    (hopt : ∀ c f x0, (opt c f x0).f = f (opt c f x0).x) (o o' : DccObj V) (r : DccPars V)
    (hs : o.success = false) (h : dccFit cpp fitU opt o = .ok (o', r)) (hs' : o'.success = true) :
    r.p1 = dropLl o'.model1.params ∧ r.p2 = dropLl o'.model2.params ∧
    (∀ v o'', dccObjective cpp fitU o' (r.a, r.b) = .ok (o'', v) → o'' = o' ∧ r.ll = -v) := by
  obtain ⟨o1, st, o2, h1, h2, run, hrun, htr, hr, hcase⟩ := dccFit_cases (by simp [hs]) h
  have hst1 := refit_idem hid h1
  -- all later re-fits leave the object unchanged
  have hstart : st.1 = o1 := by
    refine foldlM_inv (P := fun s : DccObj V × (ℝ × ℝ) => s.1 = o1) ?_ rfl h2
    intro s hso p _ s' hstep
    simp only at hstep
    by_cases hf : 1 ≤ p.1 + p.2
    · rw [if_pos hf] at hstep
      injection hstep with hstep
      rwa [← hstep]
    · rw [if_neg hf] at hstep
      simp only [bind, Except.bind, pure, Except.pure] at hstep
      cases hd : dccObjective cpp fitU s.1 (.fin p.1, .fin p.2) with
      | error e => rw [hd] at hstep; simp at hstep
      | ok q =>
        rw [hd] at hstep
        injection hstep with hstep
        rw [← hstep]
        have hq := dccObjective_refit (v := q.2) hd
        rw [hso, hst1] at hq
        injection hq with hq
        exact hq.symm
  set oP : DccObj V := { st.1 with params :=
    { p1 := dropLl st.1.model1.params, p2 := dropLl st.1.model2.params } } with hoP
  have hrefit_models : ∀ (x y : DccObj V), x.model1 = y.model1 → x.model2 = y.model2 →
      refit fitU y = .ok y → refit fitU x = .ok x := by
    intro x y e1 e2 hy
    unfold refit at hy ⊢
    rw [e1, e2]
    simp only [bind, Except.bind, pure, Except.pure] at hy ⊢
    cases f1 : fitU y.model1 with
    | error e => rw [f1] at hy; simp at hy
    | ok m1 =>
      rw [f1] at hy
      simp only at hy
      cases f2 : fitU y.model2 with
      | error e => rw [f2] at hy; simp at hy
      | ok m2 =>
        rw [f2] at hy
        injection hy with hy
        simp only
        have a1 := congrArg DccObj.model1 hy
        have a2 := congrArg DccObj.model2 hy
        simp only at a1 a2
        rw [a1, a2, ← e1, ← e2]
  have hP : refit fitU oP = .ok oP := hrefit_models oP o1 (by rw [hoP, hstart]) (by rw [hoP, hstart]) hst1
  have h2P : o2 = oP := by
    refine foldlM_inv (P := fun s : DccObj V => s = oP) ?_ rfl htr
    intro s hso p _ s' hstep
    simp only [bind, Except.bind, pure, Except.pure] at hstep
    cases hd : dccObjective cpp fitU s p with
    | error e => rw [hd] at hstep; simp at hstep
    | ok q =>
      rw [hd] at hstep
      injection hstep with hstep
      rw [← hstep]
      have hq := dccObjective_refit (v := q.2) hd
      rw [hso, hP] at hq
      injection hq with hq
      exact hq.symm
  rcases hcase with ⟨hsu, ho'⟩ | ⟨_, ho'⟩
  · have m1 : o'.model1 = oP.model1 := by rw [ho', h2P]
    have m2 : o'.model2 = oP.model2 := by rw [ho', h2P]
    have hp : r = { oP.params with a := run.x.1, b := run.x.2, ll := -run.f } := by rw [hr, ho', h2P]
    have hO' := hrefit_models o' oP m1 m2 hP
    refine ⟨by rw [hp, m1], by rw [hp, m2], fun v o'' hv => ?_⟩
    have e := dccObjective_refit hv
    rw [hO'] at e
    injection e with e
    refine ⟨e.symm, ?_⟩
    subst e
    rw [hp]
    simp only
    have hf := hopt dccFeas (fun p => match dccObjective cpp fitU oP p with
        | .ok r => r.2
        | .error _ => .nan) (.fin st.2.1, .fin st.2.2)
    rw [← hrun] at hf
    rw [hf]
    -- the objective depends on the univariate models only
    have hab : (r.a, r.b) = run.x := by rw [hp]
    rw [hab] at hv
    have hval : ∃ w, dccObjective cpp fitU oP run.x = .ok (w, v) := by
      unfold dccObjective condCorr at hv ⊢
      rw [hP]
      rw [hO'] at hv
      simp only [bind, Except.bind, pure, Except.pure, m1, m2] at hv ⊢
      cases hk : dccKernel cpp run.x.1 run.x.2 (stdResid oP.model1.resids oP.model1.sigma2)
          (stdResid oP.model2.resids oP.model2.sigma2) with
      | error e => rw [hk] at hv; simp at hv
      | ok rho =>
        rw [hk] at hv
        simp only at hv ⊢
        by_cases hl : (stdResid oP.model1.resids oP.model1.sigma2).length
              = (stdResid oP.model2.resids oP.model2.sigma2).length ∧
            (stdResid oP.model1.resids oP.model1.sigma2).length
              = (List.map (fun x => Np.clip x (XR.fin (-(99 / 100))) (XR.fin (99 / 100))) rho).length
        · rw [if_neg (not_not.mpr hl)] at hv ⊢
          injection hv with hv
          rw [Prod.mk.injEq] at hv
          exact ⟨oP, by rw [hv.2]⟩
        · rw [if_pos hl] at hv ⊢
          split at hv
          · rename_i hs
            rw [if_pos hs]
            injection hv with hv
            rw [Prod.mk.injEq] at hv
            exact ⟨oP, by rw [hv.2]⟩
          · cases hv
    obtain ⟨w, hw⟩ := hval
    rw [hw]
  · rw [ho', h2P, hoP] at hs'
    simp only at hs'
    have := dccStart_keeps h2
    rw [this.1, (refit_keeps h1).1, hs] at hs'
    exact absurd hs' (by simp)

end
end Frds.Props

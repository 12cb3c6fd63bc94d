import Verif.Props.Feasible

/-! Property C127: DCC estimation is a two-step procedure on the two series given. -/
set_option linter.unusedSimpArgs false

namespace Frds.Props
noncomputable section
open Frds Frds.Model Frds.Spec Classical

theorem refit_models {V : Type} {fitU : GarchObj V → Except PyErr (GarchObj V)} {o o' : DccObj V}
    (h : refit fitU o = .ok o') : fitU o.model1 = .ok o'.model1 ∧ fitU o.model2 = .ok o'.model2 := by
  unfold refit at h
  simp only [bind, Except.bind, pure, Except.pure] at h
  cases h1 : fitU o.model1 with
  | error e => rw [h1] at h; simp at h
  | ok m1 =>
    rw [h1] at h
    simp only at h
    cases h2 : fitU o.model2 with
    | error e => rw [h2] at h; simp at h
    | ok m2 =>
      rw [h2] at h
      injection h with h
      subst h
      exact ⟨rfl, rfl⟩

/-- C127. `conditional_correlations(a, b)` first estimates both univariate models, each on its own series, keeps
them, and returns the correlations computed from their standardised residuals. -/
theorem C127_correlations {V : Type} (cpp : Bool) (fitU : GarchObj V → Except PyErr (GarchObj V)) (o o' : DccObj V)
    (a b : XR) (rho : List XR) (h : condCorr cpp fitU o a b = .ok (o', rho)) :
    fitU o.model1 = .ok o'.model1 ∧ fitU o.model2 = .ok o'.model2 ∧
    o'.success = o.success ∧ o'.params = o.params ∧
    dccKernel cpp a b (stdResid o'.model1.resids o'.model1.sigma2) (stdResid o'.model2.resids o'.model2.sigma2)
      = .ok rho := by
  have hr := condCorr_refit h
  refine ⟨(refit_models hr).1, (refit_models hr).2, (refit_keeps hr).1, (refit_keeps hr).2, ?_⟩
  unfold condCorr at h
  simp only [bind, Except.bind, pure, Except.pure] at h
  rw [hr] at h
  simp only at h
  split at h
  · simp at h
  · rename_i v hv
    injection h with h
    rw [Prod.mk.injEq] at h
    rw [hv, h.2]

/-- C127. If re-estimating an estimated univariate model changes nothing, a DCC `fit` estimates each univariate
model on its own series and keeps it; the correlation parameters are the outcome of one optimisation over
`(a, b)` with the univariate models fixed, started on the grid; the univariate entries of the stored
parameters are those of the univariate models. -/
theorem C127_two_step {V : Type} (cpp : Bool) (fitU : GarchObj V → Except PyErr (GarchObj V))
    (hid : ∀ m m', fitU m = .ok m' → fitU m' = .ok m') (opt : Optimizer (XR × XR)) (o o' : DccObj V) (r : DccPars V)
    (hs : o.success = false) (h : dccFit cpp fitU opt o = .ok (o', r)) :
    fitU o.model1 = .ok o'.model1 ∧ fitU o.model2 = .ok o'.model2 ∧
    o'.params.p1 = dropLl o'.model1.params ∧ o'.params.p2 = dropLl o'.model2.params ∧
    ∃ (a0 b0 : ℝ) (f : XR × XR → XR),
      (a0, b0) ∈ (1 / 100, 8 / 10) :: dccGrid ∧ a0 + b0 < 1 ∧
      (∀ p w v, dccObjective cpp fitU o' p = .ok (w, v) → f p = v) ∧
      ((opt dccFeas f (.fin a0, .fin b0)).success = true →
        o'.success = true ∧ r.a = (opt dccFeas f (.fin a0, .fin b0)).x.1 ∧
        r.b = (opt dccFeas f (.fin a0, .fin b0)).x.2 ∧ r.ll = -(opt dccFeas f (.fin a0, .fin b0)).f) ∧
      ((opt dccFeas f (.fin a0, .fin b0)).success = false →
        o'.success = false ∧ r.a = .nan ∧ r.b = .nan ∧ r.ll = .nan) := by
  obtain ⟨o1, st, o2, h1, h2, run, hrun, htr, hr, hcase⟩ := dccFit_cases (by simp [hs]) h
  have hst1 := refit_idem hid h1
  have hstart : st.1 = o1 ∧ st.2 ∈ (1 / 100, 8 / 10) :: dccGrid ∧ st.2.1 + st.2.2 < 1 := by
    refine foldlM_inv (P := fun s : DccObj V × (ℝ × ℝ) =>
      s.1 = o1 ∧ s.2 ∈ (1 / 100, 8 / 10) :: dccGrid ∧ s.2.1 + s.2.2 < 1) ?_ ⟨rfl, by simp, by norm_num⟩ h2
    intro s hso p hp s' hstep
    simp only at hstep
    by_cases hf : 1 ≤ p.1 + p.2
    · rw [if_pos hf] at hstep
      injection hstep with hstep
      rwa [← hstep]
    · rw [if_neg hf] at hstep
      simp only [bind, Except.bind, pure, Except.pure] at hstep
      cases hd : dccObjective cpp fitU s.1 (.fin p.1, .fin p.2) with
      | error e => rw [hd] at hstep; simp at hstep
      | ok q =>
        rw [hd] at hstep
        injection hstep with hstep
        rw [← hstep]
        have hq := dccObjective_refit (v := q.2) hd
        rw [hso.1, hst1] at hq
        injection hq with hq
        refine ⟨hq.symm, ?_⟩
        simp only
        split_ifs
        · exact ⟨List.mem_cons_of_mem _ hp, not_le.mp hf⟩
        · exact hso.2
  have hmodels : ∀ (x y : DccObj V), x.model1 = y.model1 → x.model2 = y.model2 →
      refit fitU y = .ok y → refit fitU x = .ok x := by
    intro x y e1 e2 hy
    have := refit_models hy
    rw [← e1, ← e2] at this
    simp only [refit, bind, Except.bind, pure, Except.pure, this.1, this.2]
  set oP : DccObj V := { st.1 with params :=
    { p1 := dropLl st.1.model1.params, p2 := dropLl st.1.model2.params } } with hoP
  have hP : refit fitU oP = .ok oP := hmodels oP o1 (by rw [hoP, hstart.1]) (by rw [hoP, hstart.1]) hst1
  have h2P : o2 = oP := by
    refine foldlM_inv (P := fun s : DccObj V => s = oP) ?_ rfl htr
    intro s hso p _ s' hstep
    simp only [bind, Except.bind, pure, Except.pure] at hstep
    cases hd : dccObjective cpp fitU s p with
    | error e => rw [hd] at hstep; simp at hstep
    | ok q =>
      rw [hd] at hstep
      injection hstep with hstep
      rw [← hstep]
      have hq := dccObjective_refit (v := q.2) hd
      rw [hso, hP] at hq
      injection hq with hq
      exact hq.symm
  have hm : o'.model1 = oP.model1 ∧ o'.model2 = oP.model2 ∧ o'.params.p1 = oP.params.p1 ∧
      o'.params.p2 = oP.params.p2 := by
    rcases hcase with ⟨_, ho'⟩ | ⟨_, ho'⟩ <;> rw [ho', h2P] <;> exact ⟨rfl, rfl, rfl, rfl⟩
  have hm1 := refit_models h1
  have hsP : oP.success = false := by
    have e : oP.success = st.1.success := rfl
    rw [e, hstart.1, (refit_keeps h1).1, hs]
  obtain ⟨f, hrunf, hf⟩ : ∃ f : XR × XR → XR, run = opt dccFeas f (.fin st.2.1, .fin st.2.2) ∧
      ∀ p w v, dccObjective cpp fitU oP p = .ok (w, v) → f p = v := by
    refine ⟨_, hrun, ?_⟩
    intro p w v e
    simp only [e]
  refine ⟨?_, ?_, ?_, ?_, st.2.1, st.2.2, f, hstart.2.1, hstart.2.2, ?_, ?_, ?_⟩
  · rw [hm1.1, hm.1, hoP, hstart.1]
  · rw [hm1.2, hm.2.1, hoP, hstart.1]
  · rw [hm.2.2.1, hm.1]
  · rw [hm.2.2.2, hm.2.1]
  · intro p w v hv
    have hO' := hmodels o' oP hm.1 hm.2.1 hP
    have hval : ∃ w, dccObjective cpp fitU oP p = .ok (w, v) := by
      unfold dccObjective condCorr at hv ⊢
      rw [hP]
      rw [hO'] at hv
      simp only [bind, Except.bind, pure, Except.pure, hm.1, hm.2.1] at hv ⊢
      cases hk : dccKernel cpp p.1 p.2 (stdResid oP.model1.resids oP.model1.sigma2)
          (stdResid oP.model2.resids oP.model2.sigma2) with
      | error e => rw [hk] at hv; simp at hv
      | ok rho =>
        rw [hk] at hv
        simp only at hv ⊢
        by_cases hl : (stdResid oP.model1.resids oP.model1.sigma2).length
              = (stdResid oP.model2.resids oP.model2.sigma2).length ∧
            (stdResid oP.model1.resids oP.model1.sigma2).length
              = (List.map (fun x => Np.clip x (XR.fin (-(99 / 100))) (XR.fin (99 / 100))) rho).length
        · rw [if_neg (not_not.mpr hl)] at hv ⊢
          injection hv with hv
          rw [Prod.mk.injEq] at hv
          exact ⟨oP, by rw [hv.2]⟩
        · rw [if_pos hl] at hv ⊢
          split at hv
          · rename_i hs
            rw [if_pos hs]
            injection hv with hv
            rw [Prod.mk.injEq] at hv
            exact ⟨oP, by rw [hv.2]⟩
          · cases hv
    obtain ⟨w', e⟩ := hval
    exact hf p w' v e
  · intro hsu
    rw [← hrunf] at hsu ⊢
    rcases hcase with ⟨_, ho'⟩ | ⟨hf', _⟩
    · rw [hr, ho']; exact ⟨rfl, rfl, rfl, rfl⟩
    · exact absurd (hsu.symm.trans hf') (by simp)
  · intro hsu
    rw [← hrunf] at hsu
    rcases hcase with ⟨hf', _⟩ | ⟨_, ho'⟩
    · exact absurd (hf'.symm.trans hsu) (by simp)
    · rw [hr, ho', h2P]; exact ⟨hsP, rfl, rfl, rfl⟩

/-- the estimators of the library satisfy the hypothesis on re-estimation (C79), and an estimation succeeds -/
example (cpp : Bool) :
    (∀ (opt : Optimizer (XR × GarchVar)) m m', uFit cpp opt m = .ok m' → uFit cpp opt m' = .ok m') ∧
    (∀ (opt : Optimizer (XR × GjrVar)) m m', uFitGjr cpp opt m = .ok m' → uFitGjr cpp opt m' = .ok m') ∧
    ∃ (o' : DccObj GarchVar) (r : DccPars GarchVar), (demoObj 0).success = false ∧
    dccFit cpp (uFit cpp (stayOpt _)) (stayOpt _) (demoObj 0) = .ok (o', r) ∧ o'.success = true := by
  refine ⟨fun opt m m' => (C79_refit_stable cpp opt (stayOpt _) m m'
      ⟨[], false, false, none, [], [], .nan, none⟩ ⟨[], false, false, none, [], [], .nan, none⟩).1,
    fun opt m m' => (C79_refit_stable cpp (stayOpt _) opt (demoObj 0).model1 (demoObj 0).model1 m m').2, ?_⟩
  obtain ⟨o', r, h, hs, _⟩ := demo_fit cpp
  exact ⟨o', r, rfl, h, hs⟩

end
end Frds.Props

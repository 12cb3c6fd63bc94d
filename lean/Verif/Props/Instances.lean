import Verif.Props.Feasible
import Verif.Props.DccTwoStep
import Verif.Props.DccTotal
import Verif.Props.LrmesSilent

/-! Concrete cases of theorems whose hypotheses are met by objects built in other files (C79, C124, C125, C127, C188). -/
set_option linter.unusedSimpArgs false

namespace Frds.Props
noncomputable section
open Frds Frds.Model Frds.Spec Frds.Props.LrmesSilent Frds.Model.LrmesObj Frds.Props.Crash Classical

/-- C79. An estimation of the demo object that succeeds: what it reports, and that later calls leave it alone. -/
example (cpp : Bool) : ∃ (o' : DccObj GarchVar) (r : DccPars GarchVar),
    dccFit cpp (uFit cpp (stayOpt _)) (stayOpt _) (demoObj 0) = .ok (o', r) ∧
    r.p1 = dropLl o'.model1.params ∧ r.a = .fin (1 / 100 + 7 * (49 / 100 / 9)) ∧
    ∀ o'', DccReach o' o'' → o''.success = true ∧ o''.params = o'.params := by
  obtain ⟨o', r, h, hs, ha, _⟩ := demo_fit cpp
  obtain ⟨h1, _, _⟩ := C79_dcc_reported cpp _
    (fun m m' => (C79_refit_stable cpp (stayOpt _) (stayOpt _) m m'
      ⟨[], false, false, none, [], [], .nan, none⟩ ⟨[], false, false, none, [], [], .nan, none⟩).1)
    (stayOpt _) (fun _ _ _ => rfl) _ o' r rfl h hs
  exact ⟨o', r, h, h1, ha, fun o'' hr => C79_dcc_stable o' o'' hs hr⟩

/-- C127. The correlations of that model. -/
example (cpp : Bool) (a b : XR) : ∃ (o' : DccObj GarchVar) (rho : List XR),
    condCorr cpp (uFit cpp (stayOpt _)) (demoObj 0) a b = .ok (o', rho) ∧
    dccKernel cpp a b (stdResid o'.model1.resids o'.model1.sigma2) (stdResid o'.model2.resids o'.model2.sigma2)
      = .ok rho := by
  have hk := demo_refit cpp (stayOpt _) 0
  obtain ⟨rho, hr, _⟩ := dccKernel_total cpp a b
    (z1 := stdResid (demoObj 0).model1.resids (demoObj 0).model1.sigma2)
    (z2 := stdResid (demoObj 0).model2.resids (demoObj 0).model2.sigma2)
    (by simp [demoObj, stdResid, demoDays]) (by simp [demoObj, stdResid])
  have h : condCorr cpp (uFit cpp (stayOpt _)) (demoObj 0) a b = .ok (demoObj 0, rho) := by
    unfold condCorr
    simp only [bind, Except.bind, pure, Except.pure, hk, hr]
  exact ⟨_, rho, h, (C127_correlations cpp _ _ _ a b rho h).2.2.2.2⟩

/-- a feasible pair of correlation parameters -/
theorem Instances.pair_holds : dccFeas.holds (.fin (1 / 10), .fin (8 / 10)) := by
  constructor
  · simp only [dccFeas, List.zip_cons_cons, List.zip_nil_right, List.forall_mem_cons, XR.zero_def, XR.one_def, micro,
      XR.fin_le]
    norm_num
  · intro g hg
    simp only [dccFeas, List.mem_cons, List.not_mem_nil, or_false] at hg
    rcases hg with rfl
    simp only [XR.zero_def, XR.one_def, XR.fin_add, XR.fin_sub, XR.fin_le]
    norm_num

/-- C188, C125. Three days of returns, a univariate search that gives up and a correlation search that succeeds: the whole
model is estimated, with admissible correlation parameters. -/
example (cppA cppM : Bool) : ∃ (o o' : DccObj GjrVar) (r : DccPars GjrVar), DccHistory GjrVar cppA o' ∧
    dccFit cppA (uFitGjr cppA giveUp) (fixedOpt (.fin (1 / 10), .fin (8 / 10))) o = .ok (o', r) ∧ o'.success = true ∧
    DccAdm r.a r.b ∧ DccAdm o'.params.a o'.params.b ∧
    ∃ v, outcome (estimate cppA cppM giveUp (fixedOpt (.fin (1 / 10), .fin (8 / 10)))
      ⟨.fin (-1 / 10), fun _ => [[0, 1], [2, 2]]⟩) o = .ok v ∧ (v.val = 0 ∨ v.val = .nan) := by
  obtain ⟨m, hm⟩ := LrmesRun.usable_fits cppA giveUp LrmesRun.demo_usable [0, 0, 0] [0, 0, 0] rfl rfl
  obtain ⟨o, o', r, hn, hd, _, h⟩ := C188_firm cppA cppM giveUp (fixedOpt (.fin (1 / 10), .fin (8 / 10))) _ _
    [0, 0, 0] [0, 0, 0] [0, 0, 0] [0, 0, 0] 3 rfl rfl
    LrmesRun.demo_usable LrmesRun.demo_usable rfl rfl rfl rfl ⟨.fin (-1 / 10), fun _ => [[0, 1], [2, 2]]⟩
    (by simp) m hm (gives_up hm)
  have hn' := hn
  unfold LrmesObj.new at hn'
  rw [if_neg (by simp)] at hn'
  injection hn' with e
  have hs : o.success = false := by rw [← e]
  have hh : DccHistory GjrVar cppA o' := by
    refine .fit o o' _ _ r ?_ (fixedOpt_honours _) hd
    rw [← e]
    exact .fresh _ _
  obtain ⟨_, _, _, _, _, run, hr, _, _, hc⟩ := dccFit_cases (by simp [hs]) hd
  have hsu : run.success = true := by
    rw [hr]
    exact decide_eq_true Instances.pair_holds
  have hs' : o'.success = true := by
    rcases hc with ⟨_, e'⟩ | ⟨hf, _⟩
    · rw [e']
    · rw [hsu] at hf; cases hf
  refine ⟨o, o', r, hh, hd, hs', C125_dcc cppA _ _ (fixedOpt_honours _) o o' r hs hd hs', ?_, h hs'⟩
  rcases C125_dcc_history cppA o' hh with h1 | h1
  · rw [hs'] at h1; cases h1.1
  · exact h1.2

/-- C124, C125. The CCC model estimated in `Props/Feasible.lean`, as a history of one call; where its search starts. -/
example (cpp : Bool) : ∃ (o o' : CccObj) (p : CccVec) (ll : XR) (x0 : CccVec), CccHistory cpp o ∧ CccHistory cpp o' ∧
    o'.params = some (p, ll) ∧ CccAdm p ∧
    (∀ m v l, o'.model1.params = some (m, v, l) → x0.mu1 = m ∧ x0.v1 = v) := by
  obtain ⟨o, o', ll, v, hs, h, hs', hv, hh, ht, ho⟩ := Feasible.ccc_demo cpp
  obtain ⟨_, _, x0, f, h1, _⟩ := C124_start cpp _ _ o o' _ hs h
  obtain ⟨p, l, hp, ha⟩ := C125_ccc cpp _ _ hh o o' _ hs h hs'
  have hr := C79_ccc cpp (uFit cpp (fixedOpt (0, goodVar))) (fixedOpt goodCcc) o
  obtain ⟨hr, _⟩ := hr.2 o' _ h
  exact ⟨o, o', p, l, x0, ho, .fit o o' _ _ _ ho hh h, hr ▸ hp, ha, h1⟩

/-- a feasible GJR parameter set -/
def goodGjr : GjrVar := ⟨.fin 1, .fin (1 / 10), .fin (1 / 10), .fin (7 / 10)⟩

theorem Instances.gjr_holds : (gjrFeas false).holds (0, goodGjr) := by
  constructor
  · simp only [gjrFeas, goodGjr, Bool.false_eq_true, if_false, id, List.cons_append, List.nil_append,
      List.zip_cons_cons, List.zip_nil_right, List.forall_mem_cons, XR.zero_def, XR.one_def, micro, XR.fin_le]
    refine ⟨⟨trivial, trivial⟩, ⟨by norm_num, trivial⟩, by norm_num, by norm_num, by norm_num, by simp⟩
  · intro g hg
    simp only [gjrFeas, List.mem_cons, List.not_mem_nil, or_false] at hg
    rcases hg with rfl
    simp only [goodGjr, XR.zero_def, XR.one_def, XR.ofNat_def, XR.fin_add, XR.fin_sub, XR.fin_le]
    rw [XR.fin_div _ (by norm_num)]
    simp only [XR.fin_add, XR.fin_sub, XR.fin_le]
    norm_num

/-- C125. A GJR model estimated once from new by an honest search. -/
example (cpp : Bool) : ∃ (o : GarchObj GjrVar) (v : GjrVar), HonestHistory (gjrFit cpp) o ∧ o.success = true ∧
    (∃ ll, o.params = some (0, v, ll)) ∧ GjrAdm v := by
  let o : GarchObj GjrVar := { returns := [2, -1, -1].map XR.fin, zeroMean := false, resids := [], sigma2 := [] }
  obtain ⟨o', ret, hf⟩ := gjrFit_total cpp (fixedOpt (0, goodGjr)) o [2, -1, -1] rfl
    (by show ∃ r ∈ prep false [(2 : ℝ), -1, -1], r ≠ 0
        rw [prep_demo]; exact ⟨2, by simp, by norm_num⟩)
  obtain ⟨_, bc, vb, x0, run, he, _⟩ := C71_gjr_fit cpp _ o o' ret hf
  have hrun := he.run_eq
  have hsu : run.success = true := by
    rw [hrun]
    exact decide_eq_true Instances.gjr_holds
  obtain ⟨h1, h2, _⟩ := he.success hsu
  have hh : HonestHistory (gjrFit cpp) o' := .step o o' _ ret (fixedOpt_honours _) (.fresh o rfl rfl) hf
  have hp : o'.params = some (0, goodGjr, -run.f) := by rw [h2, hrun]; rfl
  exact ⟨o', goodGjr, hh, h1, ⟨_, hp⟩, C125_gjr cpp o' hh _ _ _ hp⟩

/-- C79. A correlation search that gives up leaves NaN in `a`, `b` and the log-likelihood. -/
example (cppA : Bool) : ∃ (o o' : DccObj GjrVar), DccReach o o' ∧ o'.success = false ∧ o'.params.a = .nan ∧
    o'.params.b = .nan ∧ o'.params.ll = .nan := by
  obtain ⟨m, hm⟩ := LrmesRun.usable_fits cppA giveUp LrmesRun.demo_usable [0, 0, 0] [0, 0, 0] rfl rfl
  obtain ⟨o, o', r, hn, hd, _⟩ := C188_firm cppA true giveUp giveUp _ _
    [0, 0, 0] [0, 0, 0] [0, 0, 0] [0, 0, 0] 3 rfl rfl
    LrmesRun.demo_usable LrmesRun.demo_usable rfl rfl rfl rfl ⟨.fin (-1 / 10), fun _ => [[0, 1], [2, 2]]⟩
    (by simp) m hm (gives_up hm)
  unfold LrmesObj.new at hn
  rw [if_neg (by simp)] at hn
  injection hn with e
  have hs : o.success = false := by rw [← e]
  have hr : DccReach o o' := .fit cppA _ _ (.refl o) hd
  have hs' : o'.success = false := by
    obtain ⟨o1, st, o2, e1, e2, run, hr, hfold, _, hc⟩ := dccFit_cases (by simp [hs]) hd
    rcases hc with ⟨hf, _⟩ | ⟨_, e'⟩
    · rw [hr] at hf; cases hf
    · obtain ⟨-, -, -, -, a0, b0, f, -, -, -, -, hfail⟩ := C127_two_step cppA (uFitGjr cppA giveUp)
        (LrmesObj.gjr_idem cppA giveUp) giveUp o o' r hs hd
      exact (hfail rfl).1
  exact ⟨o, o', hr, hs', C79_dcc_failed o o' ⟨by rw [← e], by rw [← e], by rw [← e]⟩ hr hs'⟩

end
end Frds.Props

import Verif.Props.DccTwoStep
import Verif.Model.DccAny

/-! Property C145: what the DCC classes accept, and what the fields of their parameters contain. -/
set_option linter.unusedSimpArgs false

namespace Frds.Props
noncomputable section
open Frds Frds.Model Frds.Spec Classical

/-! ### the univariate models stay fixed during the second step -/

theorem anyCorr_models {cpp : Bool} {fitU : UModel → Except PyErr UModel} {o o' : DccAny} {m1 m2 : UModel} {a b : XR}
    {rho : List XR} (h1 : o.model1 = some m1) (h2 : o.model2 = some m2)
    (h : anyCorr cpp fitU o a b = .ok (o', rho)) :
    ∃ n1 n2, fitU m1 = .ok n1 ∧ fitU m2 = .ok n2 ∧ o' = { o with model1 := some n1, model2 := some n2 } := by
  unfold anyCorr at h
  simp only [h1, h2, bind, Except.bind, pure, Except.pure] at h
  cases e1 : fitU m1 with
  | error e => rw [e1] at h; simp at h
  | ok n1 =>
    rw [e1] at h
    simp only at h
    cases e2 : fitU m2 with
    | error e => rw [e2] at h; simp at h
    | ok n2 =>
      rw [e2] at h
      simp only at h
      split at h
      · simp at h
      · injection h with h
        rw [Prod.mk.injEq] at h
        exact ⟨n1, n2, rfl, rfl, h.1.symm⟩

theorem anyObjective_models {cpp : Bool} {fitU : UModel → Except PyErr UModel} {o o' : DccAny} {m1 m2 : UModel}
    {p : XR × XR} {v : XR} (h1 : o.model1 = some m1) (h2 : o.model2 = some m2)
    (h : anyObjective cpp fitU o p = .ok (o', v)) :
    ∃ n1 n2, fitU m1 = .ok n1 ∧ fitU m2 = .ok n2 ∧ o' = { o with model1 := some n1, model2 := some n2 } := by
  unfold anyObjective at h
  simp only [h1, h2, bind, Except.bind, pure, Except.pure] at h
  cases hc : anyCorr cpp fitU o p.1 p.2 with
  | error e => rw [hc] at h; simp at h
  | ok r =>
    rw [hc] at h
    simp only at h
    split_ifs at h
    all_goals
      injection h with h
      rw [Prod.mk.injEq] at h
      rw [← h.1]
      exact anyCorr_models (rho := r.2) h1 h2 hc

/-- an evaluation of the objective on estimated models leaves the object as it is -/
theorem anyObjective_same {cpp : Bool} {fitU : UModel → Except PyErr UModel} {o o' : DccAny} {m1 m2 : UModel}
    {p : XR × XR} {v : XR} (h1 : o.model1 = some m1) (h2 : o.model2 = some m2)
    (f1 : fitU m1 = .ok m1) (f2 : fitU m2 = .ok m2) (h : anyObjective cpp fitU o p = .ok (o', v)) : o' = o := by
  obtain ⟨n1, n2, e1, e2, e⟩ := anyObjective_models h1 h2 h
  rw [f1] at e1
  rw [f2] at e2
  injection e1 with e1
  injection e2 with e2
  rw [e, ← e1, ← e2, ← h1, ← h2]

theorem anyStart_same {cpp : Bool} {fitU : UModel → Except PyErr UModel} {o : DccAny} {m1 m2 : UModel}
    {st : DccAny × (ℝ × ℝ)} (h1 : o.model1 = some m1) (h2 : o.model2 = some m2)
    (f1 : fitU m1 = .ok m1) (f2 : fitU m2 = .ok m2) (h : anyStart cpp fitU o = .ok st) : st.1 = o := by
  refine foldlM_inv (P := fun s : DccAny × (ℝ × ℝ) => s.1 = o) ?_ rfl h
  intro s hs p _ s' hstep
  simp only at hstep
  by_cases hf : 1 ≤ p.1 + p.2
  · rw [if_pos hf] at hstep
    injection hstep with hstep
    rwa [← hstep]
  · rw [if_neg hf] at hstep
    simp only [bind, Except.bind, pure, Except.pure] at hstep
    cases hd : anyObjective cpp fitU s.1 (.fin p.1, .fin p.2) with
    | error e => rw [hd] at hstep; simp at hstep
    | ok q =>
      rw [hd] at hstep
      injection hstep with hstep
      rw [← hstep]
      rw [hs] at hd
      exact anyObjective_same (v := q.2) h1 h2 f1 f2 hd

/-- what a call of `fit` on a new object does -/
theorem anyFit_cases {c : DccClass} {cpp : Bool} {fitU : UModel → Except PyErr UModel}
    (hid : ∀ m m', fitU m = .ok m' → fitU m' = .ok m') {opt : Optimizer (XR × XR)} {o o' : DccAny} {r : List XR}
    {m1 m2 : UModel} (h1 : o.model1 = some m1) (h2 : o.model2 = some m2) (hs : o.success = false)
    (h : anyFit c cpp fitU opt o = .ok (o', r)) :
    ∃ n1 n2 p, fitU m1 = .ok n1 ∧ fitU m2 = .ok n2 ∧ c.make (n1.values ++ n2.values) = .ok p ∧
      o'.model1 = some n1 ∧ o'.model2 = some n2 ∧ o'.params = r ∧
      ∃ (f : XR × XR → XR) (x0 : XR × XR),
      (∀ q w v, anyObjective cpp fitU o' q = .ok (w, v) → f q = v) ∧
      (((opt dccFeas f x0).success = true ∧ o'.success = true ∧
        r = c.put (c.put (c.put p "a" (opt dccFeas f x0).x.1) "b" (opt dccFeas f x0).x.2) "loglikelihood"
          (-(opt dccFeas f x0).f)) ∨
       ((opt dccFeas f x0).success = false ∧ o'.success = false ∧ r = p)) := by
  unfold anyFit at h
  rw [if_neg (by simp [hs])] at h
  simp only [h1, h2, bind, Except.bind, pure, Except.pure] at h
  cases e1 : fitU m1 with
  | error e => rw [e1] at h; simp at h
  | ok n1 =>
  rw [e1] at h
  simp only at h
  cases e2 : fitU m2 with
  | error e => rw [e2] at h; simp at h
  | ok n2 =>
  rw [e2] at h
  simp only at h
  cases e3 : anyStart cpp fitU { o with model1 := some n1, model2 := some n2 } with
  | error e => rw [e3] at h; simp at h
  | ok st =>
  rw [e3] at h
  simp only at h
  have f1 := hid _ _ e1
  have f2 := hid _ _ e2
  have est := anyStart_same (m1 := n1) (m2 := n2) rfl rfl f1 f2 e3
  simp only [est, anyLabels, bind, Except.bind, pure, Except.pure] at h
  cases e4 : c.make (n1.values ++ n2.values) with
  | error e => rw [e4] at h; simp at h
  | ok p =>
  rw [e4] at h
  simp only at h
  split at h
  · simp at h
  · rename_i o2 htr
    have ho2 : o2 = { model1 := some n1, model2 := some n2, success := o.success, params := p } := by
      refine foldlM_inv (P := fun s : DccAny =>
        s = { model1 := some n1, model2 := some n2, success := o.success, params := p }) ?_ rfl htr
      intro s hso q _ s' hstep
      cases hd : anyObjective cpp fitU s q with
      | error e => rw [hd] at hstep; simp at hstep
      | ok w =>
        rw [hd] at hstep
        injection hstep with hstep
        rw [← hstep, anyObjective_same (v := w.2) (by rw [hso]) (by rw [hso]) f1 f2 hd]
        exact hso
    subst ho2
    simp only at h
    refine ⟨n1, n2, p, rfl, rfl, e4, ?_⟩
    have hval : ∀ (su : Bool) (ps : List XR) q w v,
        anyObjective cpp fitU { model1 := some n1, model2 := some n2, success := su, params := ps } q = .ok (w, v) →
        (match anyObjective cpp fitU
          { model1 := some n1, model2 := some n2, success := o.success, params := p } q with
        | .ok r => r.2
        | .error _ => .nan) = v := by
      intro su ps q w v hq
      have : ∃ w', anyObjective cpp fitU
          { model1 := some n1, model2 := some n2, success := o.success, params := p } q = .ok (w', v) := by
        simp only [anyObjective, anyCorr, f1, f2, bind, Except.bind, pure, Except.pure] at hq ⊢
        cases hk : dccKernel cpp q.1 q.2 (stdResid n1.resids n1.sigma2) (stdResid n2.resids n2.sigma2) with
        | error e => rw [hk] at hq; simp at hq
        | ok rho =>
          rw [hk] at hq
          simp only at hq ⊢
          by_cases hl : (stdResid n1.resids n1.sigma2).length = (stdResid n2.resids n2.sigma2).length ∧
              (stdResid n1.resids n1.sigma2).length
                = (List.map (fun x => Np.clip x (XR.fin (-(99 / 100))) (XR.fin (99 / 100))) rho).length
          · rw [if_neg (not_not.mpr hl)] at hq ⊢
            injection hq with hq
            rw [Prod.mk.injEq] at hq
            exact ⟨_, by rw [hq.2]⟩
          · rw [if_pos hl] at hq ⊢
            split at hq
            · rename_i hs
              rw [if_pos hs]
              injection hq with hq
              rw [Prod.mk.injEq] at hq
              exact ⟨_, by rw [hq.2]⟩
            · cases hq
      obtain ⟨w', e⟩ := this
      simp only [e]
    split_ifs at h with hrun
    · injection h with h
      rw [Prod.mk.injEq] at h
      rw [← h.1, ← h.2]
      exact ⟨rfl, rfl, rfl, _, _, hval _ _, Or.inl ⟨hrun, rfl, rfl⟩⟩
    · injection h with h
      rw [Prod.mk.injEq] at h
      rw [← h.1, ← h.2]
      exact ⟨rfl, rfl, rfl, _, _, hval _ _, Or.inr ⟨eq_false_of_ne_true hrun, hs, rfl⟩⟩

theorem ufit_idem (cpp : Bool) (opt : Optimizer (XR × GarchVar)) (optj : Optimizer (XR × GjrVar)) (m m' : UModel)
    (h : m.fit cpp opt optj = .ok m') : m'.fit cpp opt optj = .ok m' := by
  cases m with
  | garch o =>
    simp only [UModel.fit, Except.map] at h
    cases e : uFit cpp opt o with
    | error e' => rw [e] at h; simp at h
    | ok o' =>
      rw [e] at h
      injection h with h
      subst h
      have := (C79_refit_stable cpp opt optj o o' ⟨[], false, false, none, [], [], .nan, none⟩
        ⟨[], false, false, none, [], [], .nan, none⟩).1 e
      simp only [UModel.fit, Except.map, this]
  | gjr o =>
    simp only [UModel.fit, Except.map] at h
    cases e : uFitGjr cpp optj o with
    | error e' => rw [e] at h; simp at h
    | ok o' =>
      rw [e] at h
      injection h with h
      subst h
      have := (C79_refit_stable cpp opt optj ⟨[], false, false, none, [], [], .nan, none⟩
        ⟨[], false, false, none, [], [], .nan, none⟩ o o').2 e
      simp only [UModel.fit, Except.map, this]

/-! ### specification -/

/-- the argument stands for a `GARCHModel`: a return array, or a `GARCHModel` object (used as it is) -/
inductive GivesGarch : DccArg → GarchObj GarchVar → Prop
  | array (r x y : List XR) :
      GivesGarch (.array r x y) { returns := r, zeroMean := false, resids := x, sigma2 := y }
  | model (m : GarchObj GarchVar) : GivesGarch (.model (.garch m)) m

/-- the argument stands for a `GJRGARCHModel` -/
inductive GivesGjr : DccArg → GarchObj GjrVar → Prop
  | array (r x y : List XR) :
      GivesGjr (.array r x y) { returns := r, zeroMean := false, resids := x, sigma2 := y }
  | model (m : GarchObj GjrVar) : GivesGjr (.model (.gjr m)) m

/-- an estimate of a univariate model, NaN if it was not estimated -/
def est {V : Type} (m : GarchObj V) (f : XR × V → XR) : XR :=
  match m.params with
  | none => .nan
  | some (mu, v, _) => f (mu, v)

/-- the parameter object has exactly these attributes among the listed ones -/
def Reads (c : DccClass) (r : List XR) (l : List (String × XR)) : Prop := ∀ q ∈ l, c.get r q.1 = some q.2

/-- the correlation parameters: those of one optimisation over `(a, b)` if it succeeded, else the given
fallback values -/
def SecondStep (c : DccClass) (cpp : Bool) (fitU : UModel → Except PyErr UModel) (opt : Optimizer (XR × XR))
    (o' : DccAny) (r : List XR) (fallback : XR × XR) : Prop :=
  ∃ (f : XR × XR → XR) (x0 : XR × XR), (∀ q w v, anyObjective cpp fitU o' q = .ok (w, v) → f q = v) ∧
    o'.success = (opt dccFeas f x0).success ∧
    (o'.success = true → Reads c r [("a", (opt dccFeas f x0).x.1), ("b", (opt dccFeas f x0).x.2),
      ("loglikelihood", -(opt dccFeas f x0).f)]) ∧
    (o'.success = false → Reads c r [("a", fallback.1), ("b", fallback.2), ("loglikelihood", .nan)])

theorem values_garch (m : GarchObj GarchVar) : (UModel.garch m).values =
    [est m fun q => q.1, est m fun q => q.2.omega, est m fun q => q.2.alpha, est m fun q => q.2.beta] := by
  obtain ⟨_, _, _, ps, _, _, _, _⟩ := m
  cases ps <;> rfl

theorem values_gjr (m : GarchObj GjrVar) : (UModel.gjr m).values =
    [est m fun q => q.1, est m fun q => q.2.omega, est m fun q => q.2.alpha, est m fun q => q.2.gamma,
      est m fun q => q.2.beta] := by
  obtain ⟨_, _, _, ps, _, _, _, _⟩ := m
  cases ps <;> rfl

theorem ufit_garch {cpp : Bool} {opt : Optimizer (XR × GarchVar)} {optj : Optimizer (XR × GjrVar)}
    {m : GarchObj GarchVar} {n : UModel} (h : (UModel.garch m).fit cpp opt optj = .ok n) :
    ∃ n', n = .garch n' ∧ uFit cpp opt m = .ok n' := by
  simp only [UModel.fit, Except.map] at h
  cases e : uFit cpp opt m with
  | error e' => rw [e] at h; simp at h
  | ok o' =>
    rw [e] at h
    injection h with h
    exact ⟨o', h.symm, rfl⟩

theorem ufit_gjr {cpp : Bool} {opt : Optimizer (XR × GarchVar)} {optj : Optimizer (XR × GjrVar)}
    {m : GarchObj GjrVar} {n : UModel} (h : (UModel.gjr m).fit cpp opt optj = .ok n) :
    ∃ n', n = .gjr n' ∧ uFitGjr cpp optj m = .ok n' := by
  simp only [UModel.fit, Except.map] at h
  cases e : uFitGjr cpp optj m with
  | error e' => rw [e] at h; simp at h
  | ok o' =>
    rw [e] at h
    injection h with h
    exact ⟨o', h.symm, rfl⟩

theorem make_plain8 (x1 x2 x3 x4 x5 x6 x7 x8 : XR) : DccClass.plain.make [x1, x2, x3, x4, x5, x6, x7, x8] =
    .ok [x1, x2, x3, x4, x5, x6, x7, x8, .nan, .nan, .nan] := rfl

theorem make_plain9 (x1 x2 x3 x4 x5 x6 x7 x8 x9 : XR) : DccClass.plain.make [x1, x2, x3, x4, x5, x6, x7, x8, x9] =
    .ok [x1, x2, x3, x4, x5, x6, x7, x8, x9, .nan, .nan] := rfl

theorem make_plain10 (x1 x2 x3 x4 x5 x6 x7 x8 x9 x10 : XR) :
    DccClass.plain.make [x1, x2, x3, x4, x5, x6, x7, x8, x9, x10] =
    .ok [x1, x2, x3, x4, x5, x6, x7, x8, x9, x10, .nan] := rfl

theorem make_gjr10 (x1 x2 x3 x4 x5 x6 x7 x8 x9 x10 : XR) :
    DccClass.gjr.make [x1, x2, x3, x4, x5, x6, x7, x8, x9, x10] =
    .ok [x1, x2, x3, x4, x5, x6, x7, x8, x9, x10, .nan, .nan, .nan] := rfl

/-- C145. `GARCHModel_DCC` on two return arrays or `GARCHModel` objects (in any combination): each univariate model
is estimated on its own, and after `fit` every parameter of the univariate models is found under its own name. -/
theorem C145_labels (cpp : Bool) (optu : Optimizer (XR × GarchVar)) (optj : Optimizer (XR × GjrVar))
    (opt : Optimizer (XR × XR)) (x y : DccArg) (m1 m2 : GarchObj GarchVar) (hx : GivesGarch x m1)
    (hy : GivesGarch y m2) (o' : DccAny) (r : List XR)
    (h : anyFit .plain cpp (UModel.fit cpp optu optj) opt (DccClass.new .plain x y) = .ok (o', r)) :
    ∃ n1 n2, uFit cpp optu m1 = .ok n1 ∧ uFit cpp optu m2 = .ok n2 ∧
    o'.model1 = some (.garch n1) ∧ o'.model2 = some (.garch n2) ∧ o'.params = r ∧
    Reads .plain r [("mu1", est n1 fun q => q.1), ("omega1", est n1 fun q => q.2.omega),
      ("alpha1", est n1 fun q => q.2.alpha), ("beta1", est n1 fun q => q.2.beta),
      ("mu2", est n2 fun q => q.1), ("omega2", est n2 fun q => q.2.omega),
      ("alpha2", est n2 fun q => q.2.alpha), ("beta2", est n2 fun q => q.2.beta)] ∧
    SecondStep .plain cpp (UModel.fit cpp optu optj) opt o' r (.nan, .nan) := by
  have h1 : (DccClass.new .plain x y).model1 = some (.garch m1) := by cases hx <;> rfl
  have h2 : (DccClass.new .plain x y).model2 = some (.garch m2) := by cases hy <;> rfl
  obtain ⟨u1, u2, p, e1, e2, e3, e4, e5, e6, f, x0, hf, hc⟩ := anyFit_cases (ufit_idem cpp optu optj) h1 h2 rfl h
  obtain ⟨n1, rfl, g1⟩ := ufit_garch e1
  obtain ⟨n2, rfl, g2⟩ := ufit_garch e2
  rw [values_garch, values_garch] at e3
  simp only [List.cons_append, List.nil_append, make_plain8] at e3
  injection e3 with e3
  refine ⟨n1, n2, g1, g2, e4, e5, e6, ?_, f, x0, hf, ?_, ?_, ?_⟩
  · rcases hc with ⟨_, _, rfl⟩ | ⟨_, _, rfl⟩ <;> subst e3 <;> intro q hq <;>
      fin_cases hq <;> rfl
  · rcases hc with ⟨s1, s2, _⟩ | ⟨s1, s2, _⟩ <;> rw [s1, s2]
  · intro hs
    rcases hc with ⟨_, _, rfl⟩ | ⟨_, s2, _⟩
    · subst e3; intro q hq; fin_cases hq <;> rfl
    · rw [hs] at s2; exact absurd s2 (by simp)
  · intro hs
    rcases hc with ⟨_, s2, _⟩ | ⟨_, _, rfl⟩
    · rw [hs] at s2; exact absurd s2 (by simp)
    · subst e3; intro q hq; fin_cases hq <;> rfl

/-- C145. `GJRGARCHModel_DCC` on two return arrays or `GJRGARCHModel` objects: the same, with the two asymmetry
parameters. -/
theorem C145_labels_gjr (cpp : Bool) (optu : Optimizer (XR × GarchVar)) (optj : Optimizer (XR × GjrVar))
    (opt : Optimizer (XR × XR)) (x y : DccArg) (m1 m2 : GarchObj GjrVar) (hx : GivesGjr x m1)
    (hy : GivesGjr y m2) (o' : DccAny) (r : List XR)
    (h : anyFit .gjr cpp (UModel.fit cpp optu optj) opt
      (DccClass.new .gjr x y) = .ok (o', r)) :
    ∃ n1 n2, uFitGjr cpp optj m1 = .ok n1 ∧ uFitGjr cpp optj m2 = .ok n2 ∧
    o'.model1 = some (.gjr n1) ∧ o'.model2 = some (.gjr n2) ∧ o'.params = r ∧
    Reads .gjr r [
      ("mu1", est n1 fun q => q.1),
      ("omega1", est n1 fun q => q.2.omega),
      ("alpha1", est n1 fun q => q.2.alpha),
      ("gamma1", est n1 fun q => q.2.gamma),
      ("beta1", est n1 fun q => q.2.beta),
      ("mu2", est n2 fun q => q.1),
      ("omega2", est n2 fun q => q.2.omega),
      ("alpha2", est n2 fun q => q.2.alpha),
      ("gamma2", est n2 fun q => q.2.gamma),
      ("beta2", est n2 fun q => q.2.beta)] ∧
    SecondStep .gjr cpp (UModel.fit cpp optu optj) opt o' r (.nan, .nan) := by
  have h1 : (DccClass.new .gjr x y).model1
      = some (.gjr m1) := by cases hx <;> rfl
  have h2 : (DccClass.new .gjr x y).model2
      = some (.gjr m2) := by cases hy <;> rfl
  obtain ⟨u1, u2, p, e1, e2, e3, e4, e5, e6, f, x0, hf, hc⟩ := anyFit_cases (ufit_idem cpp optu optj) h1 h2 rfl h
  obtain ⟨n1, rfl, g1⟩ := ufit_gjr e1
  obtain ⟨n2, rfl, g2⟩ := ufit_gjr e2
  rw [values_gjr, values_gjr] at e3
  simp only [List.cons_append, List.nil_append, make_gjr10] at e3
  injection e3 with e3
  refine ⟨n1, n2, g1, g2, e4, e5, e6, ?_, f, x0, hf, ?_, ?_, ?_⟩
  · rcases hc with ⟨_, _, rfl⟩ | ⟨_, _, rfl⟩ <;> subst e3 <;> intro q hq <;>
      fin_cases hq <;> rfl
  · rcases hc with ⟨s1, s2, _⟩ | ⟨s1, s2, _⟩ <;> rw [s1, s2]
  · intro hs
    rcases hc with ⟨_, _, rfl⟩ | ⟨_, s2, _⟩
    · subst e3; intro q hq; fin_cases hq <;> rfl
    · rw [hs] at s2; exact absurd s2 (by simp)
  · intro hs
    rcases hc with ⟨_, s2, _⟩ | ⟨_, _, rfl⟩
    · rw [hs] at s2; exact absurd s2 (by simp)
    · subst e3; intro q hq; fin_cases hq <;> rfl

/-- C145. `GARCHModel_DCC` on two `GJRGARCHModel` objects (which it accepts): the two models are estimated as they
are, but only `mu1`, `omega1` and `alpha1` keep their meaning: `beta1` holds the asymmetry of the first model, `mu2`
its persistence, and the fields of the second model are shifted by two. If the second step does not succeed, `a`
and `b` are not NaN but hold the asymmetry and persistence of the second model. -/
theorem C145_mislabel (cpp : Bool) (optu : Optimizer (XR × GarchVar)) (optj : Optimizer (XR × GjrVar))
    (opt : Optimizer (XR × XR)) (m1 : GarchObj GjrVar) (m2 : GarchObj GjrVar) (o' : DccAny) (r : List XR)
    (h : anyFit .plain cpp (UModel.fit cpp optu optj) opt
      (DccClass.new .plain (.model (.gjr m1)) (.model (.gjr m2))) = .ok (o', r)) :
    ∃ n1 n2, uFitGjr cpp optj m1 = .ok n1 ∧ uFitGjr cpp optj m2 = .ok n2 ∧
    o'.model1 = some (.gjr n1) ∧ o'.model2 = some (.gjr n2) ∧ o'.params = r ∧
    Reads .plain r [
      ("mu1", est n1 fun q => q.1),
      ("omega1", est n1 fun q => q.2.omega),
      ("alpha1", est n1 fun q => q.2.alpha),
      ("beta1", est n1 fun q => q.2.gamma),
      ("mu2", est n1 fun q => q.2.beta),
      ("omega2", est n2 fun q => q.1),
      ("alpha2", est n2 fun q => q.2.omega),
      ("beta2", est n2 fun q => q.2.alpha)] ∧
    SecondStep .plain cpp (UModel.fit cpp optu optj) opt o' r ((est n2 fun q => q.2.gamma), (est n2 fun q => q.2.beta)) := by
  have h1 : (DccClass.new .plain (.model (.gjr m1)) (.model (.gjr m2))).model1
      = some (.gjr m1) := rfl
  have h2 : (DccClass.new .plain (.model (.gjr m1)) (.model (.gjr m2))).model2
      = some (.gjr m2) := rfl
  obtain ⟨u1, u2, p, e1, e2, e3, e4, e5, e6, f, x0, hf, hc⟩ := anyFit_cases (ufit_idem cpp optu optj) h1 h2 rfl h
  obtain ⟨n1, rfl, g1⟩ := ufit_gjr e1
  obtain ⟨n2, rfl, g2⟩ := ufit_gjr e2
  rw [values_gjr, values_gjr] at e3
  simp only [List.cons_append, List.nil_append, make_plain10] at e3
  injection e3 with e3
  refine ⟨n1, n2, g1, g2, e4, e5, e6, ?_, f, x0, hf, ?_, ?_, ?_⟩
  · rcases hc with ⟨_, _, rfl⟩ | ⟨_, _, rfl⟩ <;> subst e3 <;> intro q hq <;>
      fin_cases hq <;> rfl
  · rcases hc with ⟨s1, s2, _⟩ | ⟨s1, s2, _⟩ <;> rw [s1, s2]
  · intro hs
    rcases hc with ⟨_, _, rfl⟩ | ⟨_, s2, _⟩
    · subst e3; intro q hq; fin_cases hq <;> rfl
    · rw [hs] at s2; exact absurd s2 (by simp)
  · intro hs
    rcases hc with ⟨_, s2, _⟩ | ⟨_, _, rfl⟩
    · rw [hs] at s2; exact absurd s2 (by simp)
    · subst e3; intro q hq; fin_cases hq <;> rfl

/-- C145. `GARCHModel_DCC` on a `GARCHModel` and a `GJRGARCHModel` object: `beta2` holds the asymmetry of the second
model; its persistence is lost, or found in `a` if the second step does not succeed. -/
theorem C145_mislabel_second (cpp : Bool) (optu : Optimizer (XR × GarchVar)) (optj : Optimizer (XR × GjrVar))
    (opt : Optimizer (XR × XR)) (m1 : GarchObj GarchVar) (m2 : GarchObj GjrVar) (o' : DccAny) (r : List XR)
    (h : anyFit .plain cpp (UModel.fit cpp optu optj) opt
      (DccClass.new .plain (.model (.garch m1)) (.model (.gjr m2))) = .ok (o', r)) :
    ∃ n1 n2, uFit cpp optu m1 = .ok n1 ∧ uFitGjr cpp optj m2 = .ok n2 ∧
    o'.model1 = some (.garch n1) ∧ o'.model2 = some (.gjr n2) ∧ o'.params = r ∧
    Reads .plain r [
      ("mu1", est n1 fun q => q.1),
      ("omega1", est n1 fun q => q.2.omega),
      ("alpha1", est n1 fun q => q.2.alpha),
      ("beta1", est n1 fun q => q.2.beta),
      ("mu2", est n2 fun q => q.1),
      ("omega2", est n2 fun q => q.2.omega),
      ("alpha2", est n2 fun q => q.2.alpha),
      ("beta2", est n2 fun q => q.2.gamma)] ∧
    SecondStep .plain cpp (UModel.fit cpp optu optj) opt o' r ((est n2 fun q => q.2.beta), .nan) := by
  have h1 : (DccClass.new .plain (.model (.garch m1)) (.model (.gjr m2))).model1
      = some (.garch m1) := rfl
  have h2 : (DccClass.new .plain (.model (.garch m1)) (.model (.gjr m2))).model2
      = some (.gjr m2) := rfl
  obtain ⟨u1, u2, p, e1, e2, e3, e4, e5, e6, f, x0, hf, hc⟩ := anyFit_cases (ufit_idem cpp optu optj) h1 h2 rfl h
  obtain ⟨n1, rfl, g1⟩ := ufit_garch e1
  obtain ⟨n2, rfl, g2⟩ := ufit_gjr e2
  rw [values_garch, values_gjr] at e3
  simp only [List.cons_append, List.nil_append, make_plain9] at e3
  injection e3 with e3
  refine ⟨n1, n2, g1, g2, e4, e5, e6, ?_, f, x0, hf, ?_, ?_, ?_⟩
  · rcases hc with ⟨_, _, rfl⟩ | ⟨_, _, rfl⟩ <;> subst e3 <;> intro q hq <;>
      fin_cases hq <;> rfl
  · rcases hc with ⟨s1, s2, _⟩ | ⟨s1, s2, _⟩ <;> rw [s1, s2]
  · intro hs
    rcases hc with ⟨_, _, rfl⟩ | ⟨_, s2, _⟩
    · subst e3; intro q hq; fin_cases hq <;> rfl
    · rw [hs] at s2; exact absurd s2 (by simp)
  · intro hs
    rcases hc with ⟨_, s2, _⟩ | ⟨_, _, rfl⟩
    · rw [hs] at s2; exact absurd s2 (by simp)
    · subst e3; intro q hq; fin_cases hq <;> rfl

/-- C145. `GARCHModel_DCC` on a `GJRGARCHModel` and a `GARCHModel` object: `beta1` holds the asymmetry of the first
model, `mu2` its persistence, and the fields of the second model are shifted by one. -/
theorem C145_mislabel_first (cpp : Bool) (optu : Optimizer (XR × GarchVar)) (optj : Optimizer (XR × GjrVar))
    (opt : Optimizer (XR × XR)) (m1 : GarchObj GjrVar) (m2 : GarchObj GarchVar) (o' : DccAny) (r : List XR)
    (h : anyFit .plain cpp (UModel.fit cpp optu optj) opt
      (DccClass.new .plain (.model (.gjr m1)) (.model (.garch m2))) = .ok (o', r)) :
    ∃ n1 n2, uFitGjr cpp optj m1 = .ok n1 ∧ uFit cpp optu m2 = .ok n2 ∧
    o'.model1 = some (.gjr n1) ∧ o'.model2 = some (.garch n2) ∧ o'.params = r ∧
    Reads .plain r [
      ("mu1", est n1 fun q => q.1),
      ("omega1", est n1 fun q => q.2.omega),
      ("alpha1", est n1 fun q => q.2.alpha),
      ("beta1", est n1 fun q => q.2.gamma),
      ("mu2", est n1 fun q => q.2.beta),
      ("omega2", est n2 fun q => q.1),
      ("alpha2", est n2 fun q => q.2.omega),
      ("beta2", est n2 fun q => q.2.alpha)] ∧
    SecondStep .plain cpp (UModel.fit cpp optu optj) opt o' r ((est n2 fun q => q.2.beta), .nan) := by
  have h1 : (DccClass.new .plain (.model (.gjr m1)) (.model (.garch m2))).model1
      = some (.gjr m1) := rfl
  have h2 : (DccClass.new .plain (.model (.gjr m1)) (.model (.garch m2))).model2
      = some (.garch m2) := rfl
  obtain ⟨u1, u2, p, e1, e2, e3, e4, e5, e6, f, x0, hf, hc⟩ := anyFit_cases (ufit_idem cpp optu optj) h1 h2 rfl h
  obtain ⟨n1, rfl, g1⟩ := ufit_gjr e1
  obtain ⟨n2, rfl, g2⟩ := ufit_garch e2
  rw [values_gjr, values_garch] at e3
  simp only [List.cons_append, List.nil_append, make_plain9] at e3
  injection e3 with e3
  refine ⟨n1, n2, g1, g2, e4, e5, e6, ?_, f, x0, hf, ?_, ?_, ?_⟩
  · rcases hc with ⟨_, _, rfl⟩ | ⟨_, _, rfl⟩ <;> subst e3 <;> intro q hq <;>
      fin_cases hq <;> rfl
  · rcases hc with ⟨s1, s2, _⟩ | ⟨s1, s2, _⟩ <;> rw [s1, s2]
  · intro hs
    rcases hc with ⟨_, _, rfl⟩ | ⟨_, s2, _⟩
    · subst e3; intro q hq; fin_cases hq <;> rfl
    · rw [hs] at s2; exact absurd s2 (by simp)
  · intro hs
    rcases hc with ⟨_, s2, _⟩ | ⟨_, _, rfl⟩
    · rw [hs] at s2; exact absurd s2 (by simp)
    · subst e3; intro q hq; fin_cases hq <;> rfl

/-- the documented arguments, and the undocumented ones that work: arrays, and univariate models of the class (or
of a subclass) -/
inductive Acceptable : DccClass → DccArg → Prop
  | array (c : DccClass) (r x y : List XR) : Acceptable c (.array r x y)
  | garch (m : GarchObj GarchVar) : Acceptable .plain (.model (.garch m))
  | gjr (c : DccClass) (m : GarchObj GjrVar) : Acceptable c (.model (.gjr m))

/-- C145. The constructors never complain. If an argument is neither an array nor a univariate model of the right
class (a list, a `DataFrame`, a `GARCHModel` for the GJR class), the error surfaces later: `fit` and the
log-likelihood raise `AttributeError`, and `conditional_correlations` raises as well. -/
theorem C145_rejects (c : DccClass) (cpp : Bool) (fitU : UModel → Except PyErr UModel) (opt : Optimizer (XR × XR))
    (x y : DccArg) (h : ¬ (Acceptable c x ∧ Acceptable c y)) (p : XR × XR) (a b : XR) :
    anyFit c cpp fitU opt (DccClass.new c x y) = .error .attributeError ∧
    anyObjective cpp fitU (DccClass.new c x y) p = .error .attributeError ∧
    (∃ e, anyCorr cpp fitU (DccClass.new c x y) a b = .error e) := by
  have key : ∀ z, c.accept z = none ∨ Acceptable c z := by
    intro z
    rcases z with ⟨r, u, v⟩ | m | _
    · exact Or.inr (.array c r u v)
    · cases m with
      | garch m => cases c with
        | plain => exact Or.inr (.garch m)
        | gjr => exact Or.inl rfl
      | gjr m => exact Or.inr (.gjr c m)
    · exact Or.inl (by cases c <;> rfl)
  have hn : c.accept x = none ∨ c.accept y = none := by
    rcases key x with h1 | h1
    · exact Or.inl h1
    · rcases key y with h2 | h2
      · exact Or.inr h2
      · exact absurd ⟨h1, h2⟩ h
  unfold anyFit anyObjective anyCorr DccClass.new
  simp only [Bool.false_eq_true, if_false]
  rcases hn with h1 | h1
  · rw [h1]; exact ⟨rfl, rfl, _, rfl⟩
  · rw [h1]
    refine ⟨?_, ?_, ?_⟩
    · cases c.accept x <;> rfl
    · cases c.accept x <;> rfl
    · cases c.accept x with
      | none => exact ⟨_, rfl⟩
      | some m =>
        simp only [bind, Except.bind]
        cases fitU m with
        | error e => exact ⟨e, rfl⟩
        | ok n => exact ⟨_, rfl⟩

example : ¬ (Acceptable .gjr (.model (.garch (newModel [] [] []))) ∧ Acceptable .gjr .other) := by
  rintro ⟨h, -⟩; cases h

end
end Frds.Props

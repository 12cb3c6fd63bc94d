import Verif.Props.DccTotal

/-! Property C145 (continued): for two models of one class, the model with constructors and labels computes the same as
the typed model `dccFit` that C74-C79, C124-C127 are about. -/
set_option linter.unusedSimpArgs false

namespace Frds.Props
noncomputable section
open Frds Frds.Model Frds.Spec Classical

theorem foldlM_map {α β γ : Type} (g : β → γ) (f : β → α → Except PyErr β) (f' : γ → α → Except PyErr γ)
    (h : ∀ b x, f' (g b) x = (f b x).map g) (l : List α) (b : β) : l.foldlM f' (g b) = (l.foldlM f b).map g := by
  induction l generalizing b with
  | nil => rfl
  | cons x t ih =>
    rw [List.foldlM_cons, List.foldlM_cons, h]
    cases hx : f b x with
    | error e => rfl
    | ok b' => exact ih b'

/-- a class of univariate models: its objects are wrapped by `wrap`; `vals` lists its parameters -/
structure Embeds {V : Type} (c : DccClass) (fitV : GarchObj V → Except PyErr (GarchObj V))
    (fitU : UModel → Except PyErr UModel) (wrap : GarchObj V → UModel) (vals : Option (XR × V) → List XR) : Prop where
  resids : ∀ m, (wrap m).resids = m.resids
  sigma2 : ∀ m, (wrap m).sigma2 = m.sigma2
  ll : ∀ m, (wrap m).ll = llOf m
  fit : ∀ m, fitU (wrap m) = (fitV m).map wrap
  values : ∀ m, (wrap m).values = vals (dropLl m.params)
  make : ∀ p q, c.make (vals p ++ vals q) = .ok (vals p ++ (vals q ++ [.nan, .nan, .nan]))
  put : ∀ p q a b ll a' b' ll', c.put (c.put (c.put (vals p ++ (vals q ++ [a, b, ll])) "a" a') "b" b') "loglikelihood" ll'
    = vals p ++ (vals q ++ [a', b', ll'])

/-- the parameter fields of a typed parameter object -/
def lay {V : Type} (vals : Option (XR × V) → List XR) (p : DccPars V) : List XR :=
  vals p.p1 ++ (vals p.p2 ++ [p.a, p.b, p.ll])

/-- the typed object as an object of the class -/
def emb {V : Type} (wrap : GarchObj V → UModel) (ps : List XR) (o : DccObj V) : DccAny :=
  ⟨some (wrap o.model1), some (wrap o.model2), o.success, ps⟩

section
variable {V : Type} {c : DccClass} {fitV : GarchObj V → Except PyErr (GarchObj V)} {fitU : UModel → Except PyErr UModel}
  {wrap : GarchObj V → UModel} {vals : Option (XR × V) → List XR}

theorem anyCorr_emb (E : Embeds c fitV fitU wrap vals) (cpp : Bool) (ps : List XR) (o : DccObj V) (a b : XR) :
    anyCorr cpp fitU (emb wrap ps o) a b = (condCorr cpp fitV o a b).map fun q => (emb wrap ps q.1, q.2) := by
  unfold anyCorr condCorr refit emb
  simp only [E.fit, bind, Except.bind, pure, Except.pure]
  cases h1 : fitV o.model1 with
  | error e => rfl
  | ok m1 =>
    simp only [Except.map]
    cases h2 : fitV o.model2 with
    | error e => rfl
    | ok m2 =>
      simp only [E.resids, E.sigma2]
      cases dccKernel cpp a b (stdResid m1.resids m1.sigma2) (stdResid m2.resids m2.sigma2) with
      | error e => rfl
      | ok rho => rfl

theorem anyObjective_emb (E : Embeds c fitV fitU wrap vals) (cpp : Bool) (ps : List XR) (o : DccObj V) (p : XR × XR) :
    anyObjective cpp fitU (emb wrap ps o) p = (dccObjective cpp fitV o p).map fun q => (emb wrap ps q.1, q.2) := by
  have hc := anyCorr_emb E cpp ps o p.1 p.2
  unfold anyObjective dccObjective
  show (do
    let r ← anyCorr cpp fitU (emb wrap ps o) p.1 p.2
    _) = _
  rw [hc]
  simp only [E.resids, E.sigma2, E.ll, bind, Except.bind, pure, Except.pure]
  cases condCorr cpp fitV o p.1 p.2 with
  | error e => rfl
  | ok r =>
    simp only [Except.map]
    split_ifs <;> rfl

theorem anyStart_emb (E : Embeds c fitV fitU wrap vals) (cpp : Bool) (ps : List XR) (o : DccObj V) :
    anyStart cpp fitU (emb wrap ps o) = (dccStart cpp fitV o).map fun q => (emb wrap ps q.1, q.2) := by
  unfold anyStart dccStart
  refine foldlM_map (fun q : DccObj V × (ℝ × ℝ) => (emb wrap ps q.1, q.2)) _ _ ?_ dccGrid (o, (1 / 100, 8 / 10))
  intro s q
  simp only [anyObjective_emb E]
  split_ifs
  · rfl
  · simp only [bind, Except.bind, pure, Except.pure]
    cases dccObjective cpp fitV s.1 (.fin q.1, .fin q.2) with
    | error e => rfl
    | ok r => rfl

theorem anyFit_emb (E : Embeds c fitV fitU wrap vals) (cpp : Bool) (opt : Optimizer (XR × XR)) (o : DccObj V) :
    anyFit c cpp fitU opt (emb wrap (lay vals o.params) o)
      = (dccFit cpp fitV opt o).map fun q => (emb wrap (lay vals q.1.params) q.1, lay vals q.2) := by
  unfold anyFit dccFit
  by_cases hs : o.success = true
  · rw [if_pos hs, if_pos (show (emb wrap (lay vals o.params) o).success = true from hs)]
    rfl
  rw [if_neg hs, if_neg (show ¬ (emb wrap (lay vals o.params) o).success = true from hs)]
  have hst0 := fun m1 m2 => anyStart_emb E cpp (lay vals o.params) { o with model1 := m1, model2 := m2 }
  unfold emb at hst0 ⊢
  simp only [E.fit, refit, bind, Except.bind, pure, Except.pure]
  cases h1 : fitV o.model1 with
  | error e => rfl
  | ok m1 =>
  simp only [Except.map]
  cases h2 : fitV o.model2 with
  | error e => rfl
  | ok m2 =>
  simp only
  have hst := hst0 m1 m2
  simp only at hst ⊢
  rw [hst]
  cases dccStart cpp fitV { o with model1 := m1, model2 := m2 } with
  | error e => rfl
  | ok st =>
  simp only [Except.map, anyLabels, E.values, E.make, bind, Except.bind, pure, Except.pure]
  have hobj := anyObjective_emb E cpp (lay vals { p1 := dropLl st.1.model1.params, p2 := dropLl st.1.model2.params })
  generalize hA : opt dccFeas _ _ = runA
  generalize hB : opt dccFeas _ _ = runB
  have hAB : runA = runB := by
    rw [← hA, ← hB]
    congr 1
    funext p
    have := hobj { st.1 with params := { p1 := dropLl st.1.model1.params, p2 := dropLl st.1.model2.params } } p
    unfold emb lay at this
    simp only at this
    rw [this]
    cases dccObjective cpp fitV _ p <;> rfl
  subst hAB
  clear hA hB
  have htr := foldlM_map (emb wrap (lay vals { p1 := dropLl st.1.model1.params, p2 := dropLl st.1.model2.params }))
    (fun (o : DccObj V) p => do
      let r ← dccObjective cpp fitV o p
      return r.1)
    (fun (o : DccAny) p => do
      let r ← anyObjective cpp fitU o p
      return r.1) (by
      intro s q
      simp only [hobj, bind, Except.bind, pure, Except.pure]
      cases dccObjective cpp fitV s q <;> rfl) runA.trace
    { st.1 with params := { p1 := dropLl st.1.model1.params, p2 := dropLl st.1.model2.params } }
  simp only [bind, Except.bind, pure, Except.pure] at htr
  unfold emb lay at htr
  simp only at htr
  rw [htr]
  have hk := fun o2 h => trace_keeps (cpp := cpp) (fitU := fitV) (l := runA.trace) (o' := o2)
    (o := { st.1 with params := { p1 := dropLl st.1.model1.params, p2 := dropLl st.1.model2.params } }) h
  simp only [bind, Except.bind, pure, Except.pure] at hk
  generalize hz : List.foldlM (m := Except PyErr) (s := DccObj V) _ _ _ = z at hk ⊢
  cases z with
  | error e => rfl
  | ok o2 =>
    have hp := (hk o2 rfl).2
    simp only [Except.map, E.put]
    split_ifs
    · simp only [lay, hp]
    · simp only [lay, hp]

end

/-- the parameter values of a GARCH model, NaN before estimation -/
def gVals : Option (XR × GarchVar) → List XR
  | none => [.nan, .nan, .nan, .nan]
  | some (mu, v) => [mu, v.omega, v.alpha, v.beta]

/-- the parameter values of a GJR-GARCH model -/
def jVals : Option (XR × GjrVar) → List XR
  | none => [.nan, .nan, .nan, .nan, .nan]
  | some (mu, v) => [mu, v.omega, v.alpha, v.gamma, v.beta]

theorem embeds_garch (cpp : Bool) (optu : Optimizer (XR × GarchVar)) (optj : Optimizer (XR × GjrVar)) :
    Embeds .plain (uFit cpp optu) (UModel.fit cpp optu optj) .garch gVals where
  resids _ := rfl
  sigma2 _ := rfl
  ll _ := rfl
  fit _ := rfl
  values m := by
    obtain ⟨_, _, _, ps, _, _, _, _⟩ := m
    cases ps <;> rfl
  make p q := by cases p <;> cases q <;> rfl
  put p q a b ll a' b' ll' := by cases p <;> cases q <;> rfl

theorem embeds_gjr (cpp : Bool) (optu : Optimizer (XR × GarchVar)) (optj : Optimizer (XR × GjrVar)) :
    Embeds .gjr (uFitGjr cpp optj) (UModel.fit cpp optu optj) .gjr jVals where
  resids _ := rfl
  sigma2 _ := rfl
  ll _ := rfl
  fit _ := rfl
  values m := by
    obtain ⟨_, _, _, ps, _, _, _, _⟩ := m
    cases ps <;> rfl
  make p q := by cases p <;> cases q <;> rfl
  put p q a b ll a' b' ll' := by cases p <;> cases q <;> rfl

/-- C145. The typed objects used by the other properties of the DCC models are the ones the constructors build:
`fit` of an object built from two `GARCHModel`s (arrays) is the typed `fit`, field by field, including the errors;
likewise for the GJR class. -/
theorem C145_typed (cpp : Bool) (optu : Optimizer (XR × GarchVar)) (optj : Optimizer (XR × GjrVar))
    (opt : Optimizer (XR × XR)) (x y : DccArg) :
    (∀ m1 m2, GivesGarch x m1 → GivesGarch y m2 →
      anyFit .plain cpp (UModel.fit cpp optu optj) opt (DccClass.new .plain x y) =
        (dccFit cpp (uFit cpp optu) opt { model1 := m1, model2 := m2 }).map fun q =>
          (⟨some (.garch q.1.model1), some (.garch q.1.model2), q.1.success, lay gVals q.1.params⟩, lay gVals q.2)) ∧
    (∀ m1 m2, GivesGjr x m1 → GivesGjr y m2 →
      anyFit .gjr cpp (UModel.fit cpp optu optj) opt (DccClass.new .gjr x y) =
        (dccFit cpp (uFitGjr cpp optj) opt { model1 := m1, model2 := m2 }).map fun q =>
          (⟨some (.gjr q.1.model1), some (.gjr q.1.model2), q.1.success, lay jVals q.1.params⟩, lay jVals q.2)) := by
  constructor
  · intro m1 m2 hx hy
    have h := anyFit_emb (embeds_garch cpp optu optj) cpp opt { model1 := m1, model2 := m2 }
    rw [← show DccClass.new .plain x y
      = emb .garch (lay gVals ({} : DccPars GarchVar)) { model1 := m1, model2 := m2 } by cases hx <;> cases hy <;> rfl] at h
    exact h
  · intro m1 m2 hx hy
    have h := anyFit_emb (embeds_gjr cpp optu optj) cpp opt { model1 := m1, model2 := m2 }
    rw [← show DccClass.new .gjr x y
      = emb .gjr (lay jVals ({} : DccPars GjrVar)) { model1 := m1, model2 := m2 } by cases hx <;> cases hy <;> rfl] at h
    exact h

example : ∃ x y m1 m2, GivesGarch x m1 ∧ GivesGarch y m2 :=
  ⟨_, _, _, _, .array [0, 1] [0, 0] [0, 0], .model (newModel [1, 0] [0, 0] [0, 0])⟩

end
end Frds.Props

import Verif.Props.CrashDcc
import Verif.Props.DccTwoStep
import Verif.Lemmas.LrmesFit
import Verif.Model.LrmesObj
import Verif.Spec.LrmesObj

/-! C180: the long-run marginal expected shortfall of an object with a history: repeated, failed and interrupted calls. -/
namespace Frds.Props
noncomputable section
open Frds Frds.Model Frds.Model.Crash Frds.Model.Crash.Run Frds.Model.LrmesObj Frds.Props.Crash Classical
set_option linter.unusedSimpArgs false
set_option linter.unusedVariables false

namespace LrmesObj
variable {cppA cppM : Bool} {optu : Optimizer (XR × GjrVar)} {opt : Optimizer (XR × XR)}

theorem gjr_idem (cppA : Bool) (optu : Optimizer (XR × GjrVar)) (m m' : GarchObj GjrVar) (h : uFitGjr cppA optu m = .ok m') :
    uFitGjr cppA optu m' = .ok m' :=
  (C79_refit_stable cppA (fun _ _ x0 => ⟨[], false, x0, .nan⟩) optu
    ⟨[], false, false, none, [], [], .nan, none⟩ ⟨[], false, false, none, [], [], .nan, none⟩ m m').2 h

theorem outcome_exec {S A : Type} (m : Run S A) (s : S) : outcome m s = (exec m s).map Prod.snd := by
  unfold outcome exec
  cases (m s).2 <;> rfl

theorem afterCall_mem {S A : Type} (m : Run S A) (s : S) : afterCall m s ∈ crashStates m s := final_mem _ _

theorem afterCall_andThen {S A B : Type} (m : Run S A) (k : A → Run S B) (s : S) :
    afterCall (andThen m k) s = match exec m s with
      | .ok q => afterCall (k q.2) q.1
      | .error _ => afterCall m s := by
  unfold afterCall exec andThen
  cases h : (m s).2 with
  | error e => rfl
  | ok a => simp only; rw [final_append]

/-- what a call does after the correlation model has been estimated -/
def rest (cppA cppM : Bool) (optu : Optimizer (XR × GjrVar)) (c : Call) (o : DccObj GjrVar) : Run (DccObj GjrVar) PyFloat :=
  if ¬ o.success then lift (.error .runtimeError)
  else andThen (refitRun (uFitGjrRun cppA optu)) fun _ => andThen get fun o' =>
    andThen (lift (dccKernel cppA o.params.a o.params.b (stdResid o'.model1.resids o'.model1.sigma2)
      (stdResid o'.model2.resids o'.model2.sigma2))) fun rho =>
    lift (simulate cppM (view o rho) (view o' rho) c.C (c.draw (xiSeries (view o rho)).length))

theorem estimate_eq (c : Call) : estimate cppA cppM optu opt c
    = andThen (dccFitRun cppA (uFitGjrRun cppA optu) opt) fun _ => andThen get fun o => rest cppA cppM optu c o := rfl

/-- the value computed from the object `o` the correlation fit left and the object `o'` after the re-estimation -/
def value (cppA cppM : Bool) (c : Call) (o o' : DccObj GjrVar) : Except PyErr PyFloat :=
  (dccKernel cppA o.params.a o.params.b (stdResid o'.model1.resids o'.model1.sigma2)
      (stdResid o'.model2.resids o'.model2.sigma2)).bind fun rho =>
    simulate cppM (view o rho) (view o' rho) c.C (c.draw (xiSeries (view o rho)).length)

theorem exec_rest (c : Call) (o : DccObj GjrVar) (hs : o.success = true) :
    exec (rest cppA cppM optu c o) o = (refit (uFitGjr cppA optu) o).bind fun o' =>
      (value cppA cppM c o o').map fun v => (o', v) := by
  unfold rest value
  rw [if_neg (by simp [hs]), exec_andThen, exec_refit, uFitGjr_after]
  cases refit (uFitGjr cppA optu) o with
  | error e => rfl
  | ok o' =>
    simp only [Except.map, Except.bind]
    rw [exec_andThen, exec_get]
    simp only [Except.bind]
    rw [exec_andThen, exec_lift]
    cases dccKernel cppA o.params.a o.params.b (stdResid o'.model1.resids o'.model1.sigma2)
      (stdResid o'.model2.resids o'.model2.sigma2) with
    | error e => rfl
    | ok rho =>
      simp only [Except.map, Except.bind, exec_lift]

theorem exec_estimate (c : Call) (x : DccObj GjrVar) :
    exec (estimate cppA cppM optu opt c) x = (dccFit cppA (uFitGjr cppA optu) opt x).bind fun q =>
      exec (rest cppA cppM optu c q.1) q.1 := by
  rw [estimate_eq, exec_andThen, exec_dcc, uFitGjr_after]
  cases dccFit cppA (uFitGjr cppA optu) opt x with
  | error e => rfl
  | ok q => rfl

theorem rest_failed (c : Call) (o : DccObj GjrVar) (hs : o.success = false) :
    rest cppA cppM optu c o = lift (.error .runtimeError) := by
  unfold rest; rw [if_pos (by simp [hs])]

theorem dccFit_done {o : DccObj GjrVar} (hs : o.success = true) (f : GarchObj GjrVar → Except PyErr (GarchObj GjrVar)) :
    dccFit cppA f opt o = .ok (o, o.params) := by unfold dccFit; rw [if_pos hs]

/-- the object after a call that returns or raises -/
theorem afterCall_done (c : Call) {x : DccObj GjrVar} (hs : x.success = true) {m1 m2 : GarchObj GjrVar}
    (h1 : uFitGjr cppA optu x.model1 = .ok m1) (h2 : uFitGjr cppA optu x.model2 = .ok m2) :
    afterCall (estimate cppA cppM optu opt c) x = { x with model1 := m1, model2 := m2 } := by
  have hr : refit (uFitGjr cppA optu) x = .ok { x with model1 := m1, model2 := m2 } := by
    unfold refit; simp only [bind, Except.bind, pure, Except.pure, h1, h2]
  rw [estimate_eq, afterCall_andThen, exec_dcc, uFitGjr_after, dccFit_done hs]
  simp only
  rw [afterCall_andThen, exec_get]
  simp only
  unfold rest
  rw [if_neg (by simp [hs]), afterCall_andThen, exec_refit, uFitGjr_after, hr]
  simp only [Except.map]
  rw [afterCall_andThen, exec_get]
  simp only
  rw [afterCall_andThen, exec_lift]
  cases dccKernel cppA x.params.a x.params.b (stdResid m1.resids m1.sigma2) (stdResid m2.resids m2.sigma2) with
  | error e => rfl
  | ok rho => rfl

/-- where an interrupted call may leave the object -/
theorem crash_estimate {c : Call} {x y : DccObj GjrVar} (hy : y ∈ crashStates (estimate cppA cppM optu opt c) x) :
    y ∈ crashStates (dccFitRun cppA (uFitGjrRun cppA optu) opt) x ∨
    ∃ o r, dccFit cppA (uFitGjr cppA optu) opt x = .ok (o, r) ∧ o.success = true ∧
      y ∈ crashStates (refitRun (uFitGjrRun cppA optu)) o := by
  rw [estimate_eq, mem_andThen] at hy
  rcases hy with hy | ⟨r, o, h, hy⟩
  · exact .inl hy
  have h' := h
  rw [exec_dcc, uFitGjr_after] at h
  rw [mem_andThen, crash_get, List.mem_singleton] at hy
  rcases hy with rfl | ⟨a, t, he, hy⟩
  · exact .inl (exec_mem h')
  rw [exec_get] at he
  obtain ⟨rfl, rfl⟩ := ok_pair he
  cases hs : o.success with
  | false =>
    rw [rest_failed c o hs, crash_lift, List.mem_singleton] at hy
    subst hy
    exact .inl (exec_mem h')
  | true =>
    refine .inr ⟨o, r, h, hs, ?_⟩
    unfold rest at hy
    rw [if_neg (by simp [hs]), mem_andThen] at hy
    rcases hy with hy | ⟨a, t, he, hy⟩
    · exact hy
    have hm := exec_mem he
    rw [mem_andThen, crash_get, List.mem_singleton] at hy
    rcases hy with rfl | ⟨a, t', he, hy⟩
    · exact hm
    rw [exec_get] at he
    obtain ⟨rfl, rfl⟩ := ok_pair he
    rw [mem_andThen, crash_lift, List.mem_singleton] at hy
    rcases hy with rfl | ⟨a, t', he, hy⟩
    · exact hm
    rw [exec_lift] at he
    rw [crash_lift, List.mem_singleton] at hy
    cases hk : dccKernel cppA o.params.a o.params.b (stdResid t.model1.resids t.model1.sigma2)
      (stdResid t.model2.resids t.model2.sigma2) with
    | error e => rw [hk] at he; cases he
    | ok rho =>
      rw [hk] at he
      obtain ⟨rfl, -⟩ := ok_pair he
      rw [hy]; exact hm

/-- not estimated so far, and the univariate estimations will give what they would have given at first -/
def Before (cppA : Bool) (optu : Optimizer (XR × GjrVar)) (o x : DccObj GjrVar) : Prop :=
  x.success = false ∧ uFitGjr cppA optu x.model1 = uFitGjr cppA optu o.model1 ∧
  uFitGjr cppA optu x.model2 = uFitGjr cppA optu o.model2

/-- the parameters are those of a completed estimation, or written in part -/
def Parts (p q : DccPars GjrVar) : Prop :=
  p = { q with a := .nan, b := .nan, ll := .nan } ∨ p = { q with b := .nan, ll := .nan } ∨ p = { q with ll := .nan } ∨ p = q

/-- estimated; the univariate models may be in the middle of a re-estimation -/
def After (cppA : Bool) (optu : Optimizer (XR × GjrVar)) (opt : Optimizer (XR × XR)) (o x : DccObj GjrVar) : Prop :=
  ∃ o' r, dccFit cppA (uFitGjr cppA optu) opt o = .ok (o', r) ∧ o'.success = true ∧ x.success = true ∧
    Parts x.params o'.params ∧ uFitGjr cppA optu x.model1 = .ok o'.model1 ∧ uFitGjr cppA optu x.model2 = .ok o'.model2

theorem settled_of_fit {o o' : DccObj GjrVar} {r : DccPars GjrVar} (hs : o.success = false)
    (h : dccFit cppA (uFitGjr cppA optu) opt o = .ok (o', r)) :
    uFitGjr cppA optu o.model1 = .ok o'.model1 ∧ uFitGjr cppA optu o.model2 = .ok o'.model2 ∧
    uFitGjr cppA optu o'.model1 = .ok o'.model1 ∧ uFitGjr cppA optu o'.model2 = .ok o'.model2 := by
  obtain ⟨h1, h2, -⟩ := C127_two_step cppA (uFitGjr cppA optu) (gjr_idem cppA optu) opt o o' r hs h
  exact ⟨h1, h2, gjr_idem _ _ _ _ h1, gjr_idem _ _ _ _ h2⟩

theorem before_fit {o x : DccObj GjrVar} (hs : o.success = false) (h : Before cppA optu o x) :
    dccFit cppA (uFitGjr cppA optu) opt x = dccFit cppA (uFitGjr cppA optu) opt o :=
  dccFit_congr _ _ hs h.1 h.2.1 h.2.2

theorem before_outcome {o x : DccObj GjrVar} (hs : o.success = false) (h : Before cppA optu o x) (c : Call) :
    outcome (estimate cppA cppM optu opt c) x = outcome (estimate cppA cppM optu opt c) o := by
  rw [outcome_exec, outcome_exec, exec_estimate, exec_estimate, before_fit hs h]

/-- a call interrupted before the estimation -/
theorem before_crash (hev : Evaluates optu) {o x y : DccObj GjrVar} (hs : o.success = false) (h : Before cppA optu o x)
    (hy : y ∈ crashStates (dccFitRun cppA (uFitGjrRun cppA optu) opt) x) :
    Before cppA optu o y ∨ After cppA optu opt o y := by
  have hd := crash_dcc (uFitGjr_settles cppA optu) h.1 hy
  cases hys : y.success with
  | false =>
    obtain ⟨p1, p2⟩ := dccAt_passed hd hys
    exact .inl ⟨hys, (uFitGjr_passed hev p1).trans h.2.1, (uFitGjr_passed hev p2).trans h.2.2⟩
  | true =>
    obtain ⟨o', r, hf, hs', hx⟩ := dccAt_torn hd h.1 hys
    rw [uFitGjr_after, before_fit hs h] at hf
    obtain ⟨h1, h2, h3, h4⟩ := settled_of_fit hs hf
    refine .inr ⟨o', r, hf, hs', hys, ?_⟩
    rcases hx with rfl | rfl | rfl | rfl
    · exact ⟨.inl rfl, h3, h4⟩
    · exact ⟨.inr (.inl rfl), h3, h4⟩
    · exact ⟨.inr (.inr (.inl rfl)), h3, h4⟩
    · exact ⟨.inr (.inr (.inr rfl)), h3, h4⟩

/-- a call interrupted in the re-estimation of the univariate models -/
theorem after_refit (hev : Evaluates optu) {o x y : DccObj GjrVar} (h : After cppA optu opt o x)
    (hy : y ∈ crashStates (refitRun (uFitGjrRun cppA optu)) x) : After cppA optu opt o y := by
  obtain ⟨o', r, hf, hs', hxs, hp, h1, h2⟩ := h
  rcases crash_refit hy with ⟨m, hm, rfl⟩ | ⟨m1, hm1, m, hm, rfl⟩
  · exact ⟨o', r, hf, hs', hxs, hp, (uFitGjr_retry hev hm).trans h1, h2⟩
  · rw [uFitGjr_after, h1] at hm1
    injection hm1 with hm1
    subst hm1
    exact ⟨o', r, hf, hs', hxs, hp, gjr_idem _ _ _ _ h1, (uFitGjr_retry hev hm).trans h2⟩

theorem after_self {o o' : DccObj GjrVar} {r : DccPars GjrVar} (hs : o.success = false)
    (h : dccFit cppA (uFitGjr cppA optu) opt o = .ok (o', r)) (hs' : o'.success = true) : After cppA optu opt o o' := by
  obtain ⟨h1, h2, h3, h4⟩ := settled_of_fit hs h
  exact ⟨o', r, h, hs', hs', .inr (.inr (.inr rfl)), h3, h4⟩

theorem step (hev : Evaluates optu) {o x y : DccObj GjrVar} {c : Call} (hs : o.success = false)
    (h : Before cppA optu o x ∨ After cppA optu opt o x) (hy : y ∈ crashStates (estimate cppA cppM optu opt c) x) :
    Before cppA optu o y ∨ After cppA optu opt o y := by
  rcases h with h | h
  · rcases crash_estimate hy with hy | ⟨o1, r, hf, hs1, hy⟩
    · exact before_crash hev hs h hy
    · rw [before_fit hs h] at hf
      exact .inr (after_refit hev (after_self hs hf hs1) hy)
  · have hxs : x.success = true := by obtain ⟨o', r, hf, hs', hxs, hp, h1, h2⟩ := h; exact hxs
    rcases crash_estimate hy with hy | ⟨o1, r, hf, hs1, hy⟩
    · unfold dccFitRun at hy
      rw [bind_eq, mem_andThen, crash_get, List.mem_singleton] at hy
      rcases hy with rfl | ⟨a, t, he, hy⟩
      · exact .inr h
      · rw [exec_get] at he
        obtain ⟨rfl, rfl⟩ := ok_pair he
        rw [if_pos hxs, pure_eq, crash_ret, List.mem_singleton] at hy
        subst hy
        exact .inr h
    · rw [dccFit_done hxs] at hf
      obtain ⟨rfl, rfl⟩ := ok_pair hf
      exact .inr (after_refit hev h hy)

theorem history (hev : Evaluates optu) {o x : DccObj GjrVar} (hs : o.success = false)
    (h : Interrupted (estimate cppA cppM optu opt) o x) : Before cppA optu o x ∨ After cppA optu opt o x := by
  induction h with
  | new => exact .inl ⟨hs, rfl, rfl⟩
  | call c _ hy ih => exact step hev hs ih hy

/-- the outcome of a call on an estimated object with univariate models `m1`, `m2` after re-estimation -/
theorem outcome_done (c : Call) {x : DccObj GjrVar} (hs : x.success = true) {m1 m2 : GarchObj GjrVar}
    (h1 : uFitGjr cppA optu x.model1 = .ok m1) (h2 : uFitGjr cppA optu x.model2 = .ok m2) :
    outcome (estimate cppA cppM optu opt c) x = value cppA cppM c x { x with model1 := m1, model2 := m2 } := by
  have hr : refit (uFitGjr cppA optu) x = .ok { x with model1 := m1, model2 := m2 } := by
    unfold refit; simp only [bind, Except.bind, pure, Except.pure, h1, h2]
  rw [outcome_exec, exec_estimate, dccFit_done hs]
  simp only [Except.bind]
  rw [exec_rest c x hs, hr]
  simp only [Except.bind]
  cases value cppA cppM c x { x with model1 := m1, model2 := m2 } <;> rfl

theorem outcome_first (c : Call) {o o' : DccObj GjrVar} {r : DccPars GjrVar} (hs : o.success = false)
    (h : dccFit cppA (uFitGjr cppA optu) opt o = .ok (o', r)) (hs' : o'.success = true) :
    outcome (estimate cppA cppM optu opt c) o = value cppA cppM c o' o' := by
  obtain ⟨-, -, h3, h4⟩ := settled_of_fit hs h
  have := outcome_done (cppM := cppM) (opt := opt) c hs' h3 h4
  rw [outcome_exec, exec_estimate] at this ⊢
  rw [dccFit_done hs'] at this
  rw [h]
  exact this

theorem value_pars (c : Call) (x y x' y' : DccObj GjrVar) (h1 : x'.params.a = x.params.a) (h2 : x'.params.b = x.params.b)
    (h3 : x'.model1 = x.model1) (h4 : x'.model2 = x.model2) (h5 : y'.model1 = y.model1) (h6 : y'.model2 = y.model2)
    (h7 : y'.params.a = y.params.a) (h8 : y'.params.b = y.params.b) (h9 : x'.success = x.success) (h10 : y'.success = y.success) :
    value cppA cppM c x' y' = value cppA cppM c x y := by
  unfold value view
  simp only [h1, h2, h3, h4, h5, h6, h7, h8, h9, h10]

/-! ### NaN correlation parameters -/

theorem simLoop_nan (x : SimArgs) (h : x.a = .nan ∨ x.b = .nan) (s : SimState) (inv : List (XR × XR)) :
    ∀ r ∈ simLoop x s inv, r.1 = .nan := by
  induction inv generalizing s with
  | nil => intro r hr; cases hr
  | cons z zs ih =>
    intro r hr
    rw [simLoop, List.mem_cons] at hr
    rcases hr with rfl | hr
    · rcases h with h | h <;> simp [simStep, h]
    · exact ih _ r hr

theorem sum_nan (l : List XR) (h : XR.nan ∈ l) : l.sum = .nan := by
  induction l with
  | nil => cases h
  | cons a t ih =>
    rw [List.sum_cons]
    rcases List.mem_cons.mp h with rfl | h
    · simp
    · rw [ih h]; simp

theorem simulation_nan (x : SimArgs) (h : x.a = .nan ∨ x.b = .nan) (inv : List (XR × XR)) :
    (simulation x inv).1 = .nan ∨ (simulation x inv).1 = 0 := by
  unfold simulation
  simp only
  split_ifs with hc
  · have hl := simLoop_nan x h (simInit x) inv
    cases hr : simLoop x (simInit x) inv with
    | nil =>
      right
      show XR.exp (List.map _ []).sum - 1 = 0
      simp only [List.map_nil, List.sum_nil]
      show XR.exp (.fin 0) - .fin 1 = .fin 0
      rw [XR.fin_exp, XR.fin_sub]; simp
    | cons q t =>
      left
      rw [hr] at hl
      rw [sum_nan]
      · rfl
      · rw [List.map_cons, hl q (by simp)]
        simp
  · exact .inr rfl

theorem accumulate_nan (cpp : Bool) (x : SimArgs) (h : x.a = .nan ∨ x.b = .nan) (paths : List (List (XR × XR))) (s : XR × ℕ)
    (hs : s.1 = .nan ∨ s.1 = 0) : (paths.foldl (fun acc p =>
      let r := if cpp then cppSimulation x p else simulation x p
      (acc.1 + r.1, acc.2 + (if r.2 then 1 else 0))) s).1 = .nan ∨ (paths.foldl (fun acc p =>
      let r := if cpp then cppSimulation x p else simulation x p
      (acc.1 + r.1, acc.2 + (if r.2 then 1 else 0))) s).1 = 0 := by
  induction paths generalizing s with
  | nil => exact hs
  | cons p t ih =>
    rw [List.foldl_cons]
    apply ih
    simp only
    have hr : (if cpp then cppSimulation x p else simulation x p) = simulation x p := by
      cases cpp <;> simp [cppSimulation_eq]
    rw [hr]
    rcases hs with hs | hs
    · left; rw [hs]; simp
    · rcases simulation_nan x h p with h' | h'
      · left; rw [h']; simp
      · right; rw [hs, h']; simp

theorem simulate_nan (cpp : Bool) (early late : DccFit) (h : late.a = .nan ∨ late.b = .nan) (C : XR) (idx : List (List ℕ))
    (v : PyFloat) (hv : simulate cpp early late C idx = .ok v) : v.val = .nan ∨ v.val = 0 := by
  unfold simulate at hv
  split_ifs at hv with hi
  · injection hv with hv; subst hv; exact .inr rfl
  · simp only [bind, Except.bind, pure, Except.pure] at hv
    cases hx : simArgsOf late C with
    | error e => rw [hx] at hv; cases hv
    | ok x =>
      rw [hx] at hv
      injection hv with hv
      have hab : x.a = late.a ∧ x.b = late.b := by
        unfold simArgsOf at hx
        split at hx
        · injection hx with hx; subst hx; exact ⟨rfl, rfl⟩
        · cases hx
      have ha := fun q => accumulate_nan cpp q
      subst hv
      unfold lrmesResult
      split_ifs with h0
      · exact .inr rfl
      · have := accumulate_nan cpp { x with
            q00 := npCorr (stdResid early.firmResid early.firmVar) (stdResid early.firmResid early.firmVar)
            q11 := npCorr (stdResid early.mktResid early.mktVar) (stdResid early.mktResid early.mktVar)
            q10 := npCorr (stdResid early.mktResid early.mktVar) (stdResid early.firmResid early.firmVar) }
            (by rw [hab.1, hab.2]; exact h) (idx.map (pathOf early)) (0, 0) (.inr rfl)
        unfold accumulate at h0 ⊢
        simp only at this h0 ⊢
        rcases this with this | this
        · left; rw [this]; simp
        · right
          rw [this]
          rw [show (-(0 : XR)) = .fin 0 by show -(XR.fin 0) = _; rw [XR.fin_neg]; simp]
          rw [XR.fin_div _ (Nat.cast_ne_zero.mpr h0)]
          simp [XR.zero_def]

theorem simulate_self (cpp : Bool) (f : DccFit) (hs : f.success = true) (C : XR) (idx : List (List ℕ)) :
    simulate cpp f f C idx = lrmesEstimate cpp f C idx := by
  unfold simulate lrmesEstimate
  rw [if_neg (show ¬ ¬ f.success = true by simp [hs])]
  by_cases h : idx = []
  · rw [if_pos h, if_pos h]
  · rw [if_neg h, if_neg h]
    simp only [bind, Except.bind, pure, Except.pure]
    cases hx : simArgsOf f C with
    | error e => rfl
    | ok x =>
      simp only
      have : ({ x with
            q00 := npCorr (stdResid f.firmResid f.firmVar) (stdResid f.firmResid f.firmVar)
            q11 := npCorr (stdResid f.mktResid f.mktVar) (stdResid f.mktResid f.mktVar)
            q10 := npCorr (stdResid f.mktResid f.mktVar) (stdResid f.firmResid f.firmVar) } : SimArgs) = x := by
        unfold simArgsOf at hx
        split at hx
        · injection hx with hx; subst hx; rfl
        · cases hx
      rw [this]

/-- between two evaluations of the objective the stored variances are those of the last evaluated point -/
theorem evals_mem {V : Type} {var : V → List XR → XR → List (XR × XR) → Except PyErr (List XR)} (bc : XR) (vb : List (XR × XR))
    (trace : List (XR × V)) (o : GarchObj V) (hok : ∀ p, ∃ q, modelPath var o bc vb p = .ok q) (p : XR × V) (hp : p ∈ trace)
    (q : List XR × List XR) (hq : modelPath var o bc vb p = .ok q) :
    { o with sigma2 := q.2 } ∈ crashStates (each (evalAt var bc vb) trace) o := by
  induction trace generalizing o with
  | nil => cases hp
  | cons p' t ih =>
    obtain ⟨q', hq'⟩ := hok p'
    have he : exec (evalAt var bc vb p') o = .ok ({ o with sigma2 := q'.2 }, ()) := by
      unfold evalAt
      rw [bind_eq, exec_andThen, exec_get]
      simp only [Except.bind]
      rw [bind_eq, exec_andThen, exec_lift, hq']
      rfl
    rw [each, mem_andThen]
    rcases List.mem_cons.mp hp with rfl | hp
    · left
      rw [hq] at hq'
      injection hq' with hq'
      subst hq'
      exact exec_mem he
    · right
      refine ⟨_, _, he, ?_⟩
      have := ih { o with sigma2 := q'.2 } (fun p => by
        obtain ⟨w, hw⟩ := hok p
        exact ⟨w, by rw [modelPath_congr rfl rfl]; exact hw⟩) hp (by rw [modelPath_congr rfl rfl]; exact hq)
      exact this

theorem fit_mem {V : Type} {cpp : Bool} {var : V → List XR → XR → List (XR × XR) → Except PyErr (List XR)}
    {start : List XR → List XR → XR → List (XR × XR) → Except PyErr (Option V)} {feas : Bool → Feas (XR × V)}
    {opt : Optimizer (XR × V)} (ht : Total cpp var start) (o : GarchObj V) (vb : List (XR × XR)) (v0 : V)
    (hb : varianceBounds cpp (prepResids o) = .ok vb)
    (hst : start o.returns (prepResids o) (backcast (prepResids o)) vb = .ok (some v0)) (p : XR × V)
    (hp : p ∈ (opt (feas o.zeroMean) (objective var o (backcast (prepResids o)) vb)
      (if o.zeroMean then 0 else Np.mean o.returns, v0)).trace) (q : List XR × List XR)
    (hq : modelPath var o (backcast (prepResids o)) vb p = .ok q) :
    { o with backcast := backcast (prepResids o), bounds := some vb, sigma2 := q.2 }
      ∈ crashStates (fitCoreRun cpp var start feas opt) o := by
  have hok := ht o vb v0 hb hst
  unfold fitCoreRun
  simp only [bind_eq]
  refine mem_andThen.mpr (.inr ⟨_, _, exec_get o, ?_⟩)
  refine mem_andThen.mpr (.inr ⟨_, _, exec_write _ _, ?_⟩)
  refine mem_andThen.mpr (.inr ⟨vb, { o with backcast := backcast (prepResids o) }, by rw [exec_lift, hb]; rfl, ?_⟩)
  refine mem_andThen.mpr (.inr ⟨_, _, exec_write _ _, ?_⟩)
  refine mem_andThen.mpr (.inr ⟨some v0, { o with backcast := backcast (prepResids o), bounds := some vb },
    by rw [exec_lift, hst]; rfl, ?_⟩)
  refine mem_andThen.mpr (.inl ?_)
  exact evals_mem _ _ _ { o with backcast := backcast (prepResids o), bounds := some vb } (fun p => by
    obtain ⟨w, hw⟩ := hok p
    exact ⟨w, by rw [modelPath_congr rfl rfl]; exact hw⟩) p hp q (by rw [modelPath_congr rfl rfl]; exact hq)

end LrmesObj
open LrmesObj

theorem params_of (m : GarchObj GjrVar) : Spec.ParamsOf m (parsOf m) := by
  unfold parsOf Spec.ParamsOf
  constructor
  · intro mu v l h; rw [h]; exact ⟨rfl, rfl, rfl, rfl, rfl⟩
  · intro h; rw [h]; exact ⟨rfl, rfl, rfl, rfl, rfl⟩

theorem reads_view (o : DccObj GjrVar) (rho : List XR) : Spec.Reads o rho (view o rho) :=
  ⟨rfl, rfl, rfl, params_of _, rfl, rfl, params_of _, rfl, rfl, rfl⟩

/-- two readings of one object agree -/
theorem reads_unique {o : DccObj GjrVar} {rho : List XR} {f g : DccFit} (hf : Spec.Reads o rho f) (hg : Spec.Reads o rho g) :
    f = g := by
  have key : ∀ (m : GarchObj GjrVar) (p q : GjrParams), Spec.ParamsOf m p → Spec.ParamsOf m q → p = q := by
    intro m p q hp hq
    cases hm : m.params with
    | none =>
      obtain ⟨a1, a2, a3, a4, a5⟩ := hp.2 hm
      obtain ⟨b1, b2, b3, b4, b5⟩ := hq.2 hm
      cases p; cases q; simp_all
    | some x =>
      obtain ⟨mu, v, l⟩ := x
      obtain ⟨a1, a2, a3, a4, a5⟩ := hp.1 _ _ _ hm
      obtain ⟨b1, b2, b3, b4, b5⟩ := hq.1 _ _ _ hm
      cases p; cases q; simp_all
  have e1 := key _ _ _ hf.firmParams hg.firmParams
  have e2 := key _ _ _ hf.mktParams hg.mktParams
  obtain ⟨h1, h2, h3, -, h5, h6, -, h8, h9, h10⟩ := hf
  obtain ⟨g1, g2, g3, -, g5, g6, -, g8, g9, g10⟩ := hg
  cases f; cases g; simp_all

/-- C180. The constructor: series of different lengths are rejected with `AssertionError`; otherwise the firm and market models
are new GJR-GARCH models of the percentage log returns `100 log(1 + r)`. -/
theorem C180_new (firm market resids1 sigma1 resids2 sigma2 : List XR) :
    (firm.length ≠ market.length → LrmesObj.new firm market resids1 sigma1 resids2 sigma2 = .error .assertionError) ∧
    (firm.length = market.length → ∃ o, LrmesObj.new firm market resids1 sigma1 resids2 sigma2 = .ok o ∧
      o.success = false ∧ o.model1.zeroMean = false ∧ o.model2.zeroMean = false ∧
      o.model1.returns.length = firm.length ∧ o.model2.returns.length = firm.length ∧
      (∀ (i : ℕ) (r : ℝ), firm[i]? = some (.fin r) → -1 < r → o.model1.returns[i]? = some (.fin (100 * Real.log (1 + r)))) ∧
      ∀ (i : ℕ) (r : ℝ), market[i]? = some (.fin r) → -1 < r → o.model2.returns[i]? = some (.fin (100 * Real.log (1 + r)))) := by
  have hlog : ∀ r : ℝ, -1 < r → pctLog (.fin r) = .fin (100 * Real.log (1 + r)) := by
    intro r hr
    unfold pctLog
    rw [XR.one_def, XR.fin_add, XR.fin_log (by linarith), XR.ofNat_def, XR.fin_mul, mul_comm]
  constructor
  · intro h; unfold LrmesObj.new; rw [if_pos h]
  · intro h
    refine ⟨_, by unfold LrmesObj.new; rw [if_neg (by simp [h])], rfl, rfl, rfl, ?_, ?_, ?_, ?_⟩
    · simp [newModel]
    · simp [newModel, h]
    · intro i r hi hr
      simp only [newModel, List.getElem?_map, hi, Option.map_some, hlog r hr]
    · intro i r hi hr
      simp only [newModel, List.getElem?_map, hi, Option.map_some, hlog r hr]

/-- C180. The first call on an object estimates the correlation model; if that fails it raises `RuntimeError`; otherwise its value is
the LRMES of C34 for the estimated volatilities, residuals, parameters and the correlations at the estimated `a`, `b`. -/
theorem C180_first (cppA cppM : Bool) (optu : Optimizer (XR × GjrVar)) (opt : Optimizer (XR × XR)) (o : DccObj GjrVar)
    (hs : o.success = false) (c : Call) :
    (∀ e, dccFit cppA (uFitGjr cppA optu) opt o = .error e → outcome (estimate cppA cppM optu opt c) o = .error e) ∧
    ∀ o' r, dccFit cppA (uFitGjr cppA optu) opt o = .ok (o', r) →
      (o'.success = false → outcome (estimate cppA cppM optu opt c) o = .error .runtimeError) ∧
      (o'.success = true →
        (∀ e, condCorr cppA (uFitGjr cppA optu) o' r.a r.b = .error e → outcome (estimate cppA cppM optu opt c) o = .error e) ∧
        ∀ o'' rho, condCorr cppA (uFitGjr cppA optu) o' r.a r.b = .ok (o'', rho) → o'' = o' ∧
          ∃ f, Spec.Reads o' rho f ∧ outcome (estimate cppA cppM optu opt c) o
            = lrmesEstimate cppM f c.C (c.draw (xiSeries f).length)) := by
  constructor
  · intro e he
    rw [outcome_exec, exec_estimate, he]; rfl
  · intro o' r hf
    obtain ⟨o1, st, o2, _, _, run, _, _, hr, _⟩ := dccFit_cases (by simp [hs]) hf
    subst hr
    refine ⟨fun h0 => ?_, fun h1 => ?_⟩
    · rw [outcome_exec, exec_estimate, hf]
      simp only [Except.bind]
      rw [rest_failed c o' h0, exec_lift]; rfl
    · obtain ⟨-, -, h3, h4⟩ := settled_of_fit hs hf
      rw [outcome_first c hs hf h1]
      have hrf : refit (uFitGjr cppA optu) o' = .ok o' := by
        unfold refit; simp only [bind, Except.bind, pure, Except.pure, h3, h4]
      unfold condCorr value
      simp only [bind, Except.bind, pure, Except.pure, hrf]
      cases dccKernel cppA o'.params.a o'.params.b (stdResid o'.model1.resids o'.model1.sigma2)
          (stdResid o'.model2.resids o'.model2.sigma2) with
      | error e => exact ⟨fun e' h => (by injection h with h; rw [h]), fun _ _ h => (by cases h)⟩
      | ok rho =>
        refine ⟨fun e h => (by cases h), fun o'' rho' h => ?_⟩
        obtain ⟨rfl, rfl⟩ := ok_pair h
        exact ⟨rfl, _, reads_view _ _, simulate_self cppM _ h1 _ _⟩

/-- C180. After any number of calls, with any arguments, whether they returned or raised: a call has the outcome it would have had
as the first one. -/
theorem C180_repeat (cppA cppM : Bool) (optu : Optimizer (XR × GjrVar)) (hev : Evaluates optu) (opt : Optimizer (XR × XR))
    (o x : DccObj GjrVar) (hs : o.success = false) (h : Calls (estimate cppA cppM optu opt) o x) (c : Call) :
    outcome (estimate cppA cppM optu opt c) x = outcome (estimate cppA cppM optu opt c) o := by
  have key : Before cppA optu o x ∨ ∃ r, dccFit cppA (uFitGjr cppA optu) opt o = .ok (x, r) ∧ x.success = true := by
    clear c
    induction h with
    | new => exact .inl ⟨hs, rfl, rfl⟩
    | @call x c _ ih =>
      rcases ih with ih | ⟨r, hf, hx⟩
      · cases hf : dccFit cppA (uFitGjr cppA optu) opt o with
        | error e =>
          left
          have hy := afterCall_mem (estimate cppA cppM optu opt c) x
          rcases step hev hs (.inl ih) hy with h | ⟨o', r, hf', _⟩
          · exact h
          · rw [hf] at hf'; cases hf'
        | ok q =>
          obtain ⟨o', r⟩ := q
          have hf' := hf
          rw [← before_fit hs ih] at hf'
          have e : afterCall (estimate cppA cppM optu opt c) x = afterCall (rest cppA cppM optu c o') o' := by
            rw [estimate_eq, afterCall_andThen, exec_dcc, uFitGjr_after, hf']
            simp only
            rw [afterCall_andThen, exec_get]
          obtain ⟨h1, h2, h3, h4⟩ := settled_of_fit hs hf
          cases hs' : o'.success with
          | false =>
            left
            rw [e, rest_failed c o' hs']
            exact ⟨hs', h3.trans h1.symm, h4.trans h2.symm⟩
          | true =>
            right
            have e' := afterCall_done (cppM := cppM) (opt := opt) c hs' h3 h4
            rw [estimate_eq, afterCall_andThen, exec_dcc, uFitGjr_after, dccFit_done hs'] at e'
            simp only at e'
            rw [afterCall_andThen, exec_get] at e'
            simp only at e'
            rw [e, e']
            exact ⟨r, rfl, hs'⟩
      · right
        obtain ⟨h1, h2, h3, h4⟩ := settled_of_fit hs hf
        rw [afterCall_done c hx h3 h4]
        exact ⟨r, hf, hx⟩
  rcases key with h | ⟨r, hf, hx⟩
  · exact before_outcome hs h c
  · obtain ⟨h1, h2, h3, h4⟩ := settled_of_fit hs hf
    rw [outcome_first c hs hf hx, outcome_done c hx h3 h4]

/-- C180. After any history of calls that may also have been interrupted at any point: as long as the correlation model is not marked
as estimated, a call has the outcome it would have had as the first one. Once it is marked, either `b` is NaN, or every call has
that outcome provided one further call ran to its end in between. -/
theorem C180_interrupted (cppA cppM : Bool) (optu : Optimizer (XR × GjrVar)) (hev : Evaluates optu) (opt : Optimizer (XR × XR))
    (o x : DccObj GjrVar) (hs : o.success = false) (h : Interrupted (estimate cppA cppM optu opt) o x) (c : Call) :
    (x.success = false → outcome (estimate cppA cppM optu opt c) x = outcome (estimate cppA cppM optu opt c) o) ∧
    (x.success = true → x.params.b = .nan ∨ ∀ c' : Call,
      outcome (estimate cppA cppM optu opt c) (afterCall (estimate cppA cppM optu opt c') x)
        = outcome (estimate cppA cppM optu opt c) o) := by
  rcases history hev hs h with h | ⟨o', r, hf, hs', hxs, hp, h1, h2⟩
  · exact ⟨fun _ => before_outcome hs h c, fun h' => (by rw [h.1] at h'; cases h')⟩
  · refine ⟨fun h' => (by rw [hxs] at h'; cases h'), fun _ => ?_⟩
    have key : x.params.a = o'.params.a → x.params.b = o'.params.b → ∀ c' : Call,
        outcome (estimate cppA cppM optu opt c) (afterCall (estimate cppA cppM optu opt c') x)
          = outcome (estimate cppA cppM optu opt c) o := by
      intro ha hb c'
      have g1 := gjr_idem _ _ _ _ h1
      have g2 := gjr_idem _ _ _ _ h2
      rw [afterCall_done c' hxs h1 h2, outcome_first c hs hf hs', outcome_done (x := { x with model1 := o'.model1, model2 := o'.model2 }) c hxs g1 g2]
      exact value_pars c _ _ _ _ ha hb rfl rfl rfl rfl ha hb (hxs.trans hs'.symm) (hxs.trans hs'.symm)
    rcases hp with hp | hp | hp | hp
    · left; rw [hp]
    · left; rw [hp]
    · right; exact key (by rw [hp]) (by rw [hp])
    · right; exact key (by rw [hp]) (by rw [hp])

/-- C180. An object whose correlation model is marked as estimated with `a` or `b` NaN (caught between the flag and the parameters)
is never repaired: every later call, whatever its arguments, raises or returns NaN or 0. -/
theorem C180_torn (cppA cppM : Bool) (optu : Optimizer (XR × GjrVar)) (opt : Optimizer (XR × XR)) (x : DccObj GjrVar)
    (hs : x.success = true) (hn : x.params.a = .nan ∨ x.params.b = .nan) (c : Call) :
    (∀ v, outcome (estimate cppA cppM optu opt c) x = .ok v → v.val = .nan ∨ v.val = 0) ∧
    ∀ y ∈ crashStates (estimate cppA cppM optu opt c) x, y.success = true ∧ y.params = x.params := by
  constructor
  · intro v hv
    rw [outcome_exec, exec_estimate, dccFit_done hs] at hv
    simp only [Except.bind] at hv
    rw [exec_rest c x hs] at hv
    cases hr : refit (uFitGjr cppA optu) x with
    | error e => rw [hr] at hv; cases hv
    | ok x' =>
      rw [hr] at hv
      have hk := refit_keeps hr
      simp only [Except.bind, value] at hv
      cases hq : dccKernel cppA x.params.a x.params.b (stdResid x'.model1.resids x'.model1.sigma2)
          (stdResid x'.model2.resids x'.model2.sigma2) with
      | error e => rw [hq] at hv; cases hv
      | ok rho =>
        rw [hq] at hv
        simp only at hv
        cases hw : simulate cppM (view x rho) (view x' rho) c.C (c.draw (xiSeries (view x rho)).length) with
        | error e => rw [hw] at hv; cases hv
        | ok w =>
          rw [hw] at hv
          injection hv with hv
          simp only at hv
          subst hv
          refine simulate_nan cppM _ (view x' rho) ?_ _ _ _ hw
          show x'.params.a = .nan ∨ x'.params.b = .nan
          rw [hk.2]; exact hn
  · intro y hy
    rcases crash_estimate hy with hy | ⟨o1, r, hf, hs1, hy⟩
    · unfold dccFitRun at hy
      rw [bind_eq, mem_andThen, crash_get, List.mem_singleton] at hy
      rcases hy with rfl | ⟨a, t, he, hy⟩
      · exact ⟨hs, rfl⟩
      · rw [exec_get] at he
        obtain ⟨rfl, rfl⟩ := ok_pair he
        rw [if_pos hs, pure_eq, crash_ret, List.mem_singleton] at hy
        subst hy
        exact ⟨hs, rfl⟩
    · rw [dccFit_done hs] at hf
      obtain ⟨rfl, rfl⟩ := ok_pair hf
      rcases crash_refit hy with ⟨m, hm, rfl⟩ | ⟨m1, hm1, m, hm, rfl⟩ <;> exact ⟨hs, rfl⟩

/-- C180. The further call is needed: whenever an estimation succeeds, an interruption of the next call in the re-estimation of the
firm's model leaves the variances of any point `p` the optimiser evaluated, and the call after that computes the sampled
innovations from them, while its simulations start from the right values. -/
theorem C180_stale (cppA cppM : Bool) (optu : Optimizer (XR × GjrVar)) (hev : Evaluates optu) (opt : Optimizer (XR × XR)) (o o' : DccObj GjrVar)
    (r : DccPars GjrVar) (hs : o.success = false) (hz : o.model1.zeroMean = false)
    (hf : dccFit cppA (uFitGjr cppA optu) opt o = .ok (o', r)) (hs' : o'.success = true) (c : Call) :
    ∃ bc vb x0 run, Estimated cppA (gjrVariance cppA) gjrFeas optu o.model1 o'.model1 bc vb x0 run ∧
      ∀ p ∈ run.trace, ∀ s2,
        gjrVariance cppA p.2 (o.model1.returns.map (· - p.1)) bc vb = .ok s2 →
        ∃ y, Interrupted (estimate cppA cppM optu opt) o y ∧ y = { o' with model1 := { o'.model1 with sigma2 := s2 } } ∧
          outcome (estimate cppA cppM optu opt c) y
            = (dccKernel cppA o'.params.a o'.params.b (stdResid o'.model1.resids o'.model1.sigma2)
                (stdResid o'.model2.resids o'.model2.sigma2)).bind fun rho =>
              simulate cppM (view y rho) (view o' rho) c.C (c.draw (xiSeries (view y rho)).length) := by
  obtain ⟨h1, h2, h3, h4⟩ := settled_of_fit hs hf
  have g1 : gjrFit cppA optu o.model1 = .ok (o'.model1, some o'.model1.params) := by
    unfold uFitGjr gjrFit at h1
    unfold gjrFit
    simp only [bind, Except.bind, pure, Except.pure] at h1 ⊢
    cases hc : fitCore cppA (gjrVariance cppA) (fun ret res _ _ => gjrStart cppA ret res) gjrFeas optu o.model1 with
    | error e => rw [hc] at h1; cases h1
    | ok w => rw [hc] at h1; injection h1 with h1; simp only at h1; subst h1; rfl
  obtain ⟨-, bc, vb, x0, run, he, hst⟩ := C71_gjr_fit cppA optu _ _ _ g1
  refine ⟨bc, vb, x0, run, he, ?_⟩
  intro p hp s2 hs2
  have hprep : prepResids o'.model1 = prepResids o.model1 := by
    unfold prepResids; rw [he.data.1, he.data.2]
  have hbc := he.backcast_eq
  subst hbc
  have hobj : objective (gjrVariance cppA) o'.model1 (backcast (prepResids o.model1)) vb
      = objective (gjrVariance cppA) o.model1 (backcast (prepResids o.model1)) vb := by
    funext p
    unfold objective
    rw [modelPath_congr he.data.1 he.data.2]
  have hx0 : x0 = (if o'.model1.zeroMean then 0 else Np.mean o'.model1.returns, x0.2) := by
    rw [he.data.2, hz, he.data.1, ← he.start_mean hz]; rfl
  have hq : modelPath (gjrVariance cppA) o'.model1 (backcast (prepResids o'.model1)) vb p
      = .ok (o.model1.returns.map (· - p.1), s2) := by
    rw [hprep]
    unfold modelPath demean
    simp only [he.data.1, he.data.2, hz, Bool.false_eq_true, if_false, hs2, bind, Except.bind, pure, Except.pure]
  have hm : { o'.model1 with sigma2 := s2 } ∈ crashStates (uFitGjrRun cppA optu) o'.model1 := by
    rw [uFitGjr_crash, gjr_crash]
    have := fit_mem (feas := gjrFeas) (opt := optu) (total_gjr cppA) o'.model1 vb x0.2 (by rw [hprep]; exact he.bounds_eq)
      (by rw [hprep, he.data.1]; exact hst) p (by
        rw [← hx0, hprep, hobj, he.data.2, ← he.run_eq]; exact hp) _ hq
    rw [hprep, ← he.stored.1, ← he.stored.2] at this
    exact this
  have hy : ({ o' with model1 := { o'.model1 with sigma2 := s2 } } : DccObj GjrVar)
      ∈ crashStates (estimate cppA cppM optu opt c) o' := by
    rw [estimate_eq, mem_andThen]
    refine .inr ⟨o'.params, o', by rw [exec_dcc, uFitGjr_after, dccFit_done hs'], ?_⟩
    rw [mem_andThen]
    refine .inr ⟨o', o', rfl, ?_⟩
    unfold rest
    rw [if_neg (by simp [hs']), mem_andThen]
    refine .inl ?_
    unfold refitRun
    rw [bind_eq, mem_andThen]
    exact .inl ((mem_on (by intro s; rfl)).mpr ⟨_, hm, rfl⟩)
  have hfirst : o' ∈ crashStates (estimate cppA cppM optu opt c) o := by
    rw [estimate_eq, mem_andThen]
    refine .inr ⟨r, o', by rw [exec_dcc, uFitGjr_after, hf], ?_⟩
    exact self_mem _ _
  refine ⟨_, .call c (.call c .new hfirst) hy, rfl, ?_⟩
  exact outcome_done (x := { o' with model1 := { o'.model1 with sigma2 := s2 } }) c hs' ((uFitGjr_retry hev hm).trans h3) h4

end
end Frds.Props

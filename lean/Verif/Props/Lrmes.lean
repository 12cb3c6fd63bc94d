import Verif.Lemmas.LrmesFit

set_option linter.unusedSimpArgs false

/-! C34-C39: long-run marginal expected shortfall. -/
namespace Frds.Props
noncomputable section
open Frds Frds.Model Frds.Spec Classical

/-! ### C34 -/

/-- C34 (every input, including infinities and NaNs; either backend): with `sys` the paths whose
market return `exp(Σ r_m/100) - 1` is below `C`, the result is `0.0` if `sys` is empty and otherwise
minus the average over `sys` of the firm return `exp(Σ r_i/100) - 1`. -/
theorem C34_paths (cpp : Bool) (x : SimArgs) (paths : List (List (XR × XR))) :
    let daily := fun p => simLoop x (simInit x) p
    let mktRet := fun p => XR.exp ((daily p).map fun r => r.2 / 100).sum - 1
    let firmRet := fun p => XR.exp ((daily p).map fun r => r.1 / 100).sum - 1
    let sys := paths.filter fun p => mktRet p < x.C
    (lrmesResult cpp (accumulate cpp x paths)).val
      = if sys = [] then 0 else -(sys.map firmRet).sum / .fin sys.length := by
  intro daily mktRet firmRet sys
  have h1 : ∀ p, (simulation x p).2 = decide (mktRet p < x.C) := by
    intro p; simp only [simulation]
    by_cases h : mktRet p < x.C
    · simp only [show (XR.exp ((simLoop x (simInit x) p).map fun r => r.2 / 100).sum - 1 < x.C) from h,
        if_true, h, decide_true]
    · simp only [show ¬(XR.exp ((simLoop x (simInit x) p).map fun r => r.2 / 100).sum - 1 < x.C) from h,
        if_false, h, decide_false]
  have h2 : ∀ p, mktRet p < x.C → (simulation x p).1 = firmRet p := by
    intro p h; simp only [simulation]
    rw [if_pos (show (XR.exp ((simLoop x (simInit x) p).map fun r => r.2 / 100).sum - 1 < x.C) from h)]
  have hs : (paths.filter fun p => (simulation x p).2) = sys := by simp only [h1]; rfl
  rw [lrmesResult_eq]
  simp only [hs]
  split_ifs with he
  · rfl
  · rw [List.map_congr_left (g := firmRet)]
    intro p hp
    exact h2 p (by simpa [sys] using (List.mem_filter.mp hp).2)

/-- C34 (end to end): for a usable fit and index draws within the sample, `estimate` returns the
textbook LRMES of the GJR-GARCH-DCC model started at the end of the sample, with `Q̄` the sample
correlation of the standardised residuals, whichever backend is installed. -/
theorem C34_estimate (cpp : Bool) {f : Fitted} (h : f.Ok) {d : FitDay}
    (hd : f.sample.getLast? = some d) (C : ℝ) (idx : List (List ℕ))
    (hi : ∀ p ∈ idx, ∀ i ∈ p, i < f.sample.length) :
    (lrmesEstimate cpp f.toFit (.fin C) idx).map PyFloat.val
      = .ok (.fin (f.model.lrmes d.state C (idx.map f.shocks))) := by
  unfold lrmesEstimate
  rw [if_neg (by simp [Fitted.toFit])]
  by_cases hne : idx = []
  · subst hne; simp [DccModel.lrmes]; rfl
  rw [if_neg hne, fitted_simArgs h hd]
  simp only [bind, Except.bind, pure, Except.pure, Except.map]
  rw [lrmesResult_eq]
  have hmap : idx.map (pathOf f.toFit)
      = (idx.map f.shocks).map fun p => p.map fun z => (XR.fin z.1, XR.fin z.2) := by
    rw [List.map_map]
    exact List.map_congr_left fun p hp => fitted_pathOf h (hi p hp)
  rw [hmap]
  generalize idx.map f.shocks = ps
  have hsim := simulation_fin (fitted_model_ok h) (fitDay_state_ok (h.1 d (List.mem_of_getLast? hd)))
    (fitDay_state_start d) C
  set e : List (ℝ × ℝ) → List (XR × XR) := fun p => p.map fun z => (.fin z.1, .fin z.2) with he
  set x := ofModel f.model d.state C
  have hs : ((ps.map e).filter fun p => (simulation x p).2)
      = (ps.filter fun p => f.model.mktReturn d.state p < C).map e := by
    rw [List.filter_map]
    congr 1
    apply List.filter_congr
    intro p _
    simp only [Function.comp_def, e, hsim]
    split_ifs with h <;> simp [h]
  dsimp only
  rw [hs]
  unfold DccModel.lrmes
  simp only [List.map_eq_nil_iff, List.length_map, List.map_map]
  set sys := ps.filter fun p => f.model.mktReturn d.state p < C with hsys
  split_ifs with h0
  · rfl
  · have hl : (sys.length : ℝ) ≠ 0 := by simpa using h0
    have : sys.map ((fun p => (simulation x p).1) ∘ e)
        = sys.map fun p => .fin (f.model.firmReturn d.state p) := by
      apply List.map_congr_left
      intro p hp
      have hp' : f.model.mktReturn d.state p < C := by simpa [hsys] using (List.mem_filter.mp hp).2
      simp only [Function.comp_def, e, hsim, if_pos hp']
    rw [this, XR.sum_fin, XR.fin_neg, XR.fin_div _ hl, Spec.mean, neg_div]

/-- C34: if the GJR-GARCH-DCC estimation fails, `estimate` raises `RuntimeError`. -/
theorem C34_failed_fit (cpp : Bool) (f : DccFit) (C : XR) (idx : List (List ℕ)) (h : f.success = false) :
    lrmesEstimate cpp f C idx = .error .runtimeError := by
  simp [lrmesEstimate, h]

/-- a usable fit -/
def demoFit : Fitted :=
  ⟨[⟨1, 1, 1, 1, 1 / 2⟩, ⟨1, -1, 1, 2, 0⟩], ⟨0, 1, 1 / 10, 1 / 10, 1 / 2⟩, ⟨0, 1, 1 / 10, 0, 1 / 2⟩,
    1 / 10, 4 / 5⟩

theorem demoFit_ok : demoFit.Ok := by
  refine ⟨?_, ?_, ?_, ?_, ?_, ?_⟩ <;>
    norm_num [demoFit, FitDay.Ok, Gjr.Admissible, DccWeights, sampleCov, Spec.mean, FitDay.zi, FitDay.zm]

example : ∃ f : Fitted, f.Ok ∧ ∃ d, f.sample.getLast? = some d :=
  ⟨demoFit, demoFit_ok, ⟨1, -1, 1, 2, 0⟩, rfl⟩

/-! ### C35 -/

theorem exp_sub_one_cases (y : XR) :
    XR.exp y - 1 = .nan ∨ XR.exp y - 1 = .pinf ∨ ∃ r, XR.exp y - 1 = .fin r ∧ -1 ≤ r := by
  cases y with
  | nan => left; rfl
  | pinf => right; left; rfl
  | ninf => right; right; exact ⟨0 - 1, rfl, by norm_num⟩
  | fin r => right; right; exact ⟨Real.exp r - 1, by simp [XR.one_def], by linarith [Real.exp_pos r]⟩

theorem sum_ge_neg {l : List XR}
    (h : ∀ y ∈ l, y = .nan ∨ y = .pinf ∨ ∃ r, y = .fin r ∧ -1 ≤ r) :
    l.sum = .nan ∨ l.sum = .pinf ∨ ∃ r, l.sum = .fin r ∧ -(l.length : ℝ) ≤ r := by
  induction l with
  | nil => right; right; exact ⟨0, rfl, by simp⟩
  | cons y t ih =>
    have ih := ih fun z hz => h z (by simp [hz])
    rw [List.sum_cons]
    rcases h y (by simp) with e | e | ⟨r, e, hr⟩ <;> rw [e]
    · left; simp
    · rcases ih with e' | e' | ⟨q, e', hq⟩ <;> rw [e']
      · left; rfl
      · right; left; rfl
      · right; left; rfl
    · rcases ih with e' | e' | ⟨q, e', hq⟩ <;> rw [e']
      · left; rfl
      · right; left; rfl
      · right; right; exact ⟨r + q, rfl, by push_cast [List.length_cons]; linarith⟩

/-- C35: whatever the fitted model, the draws and the backend, a finite result is at most 1. -/
theorem C35_le_one (cpp : Bool) (f : DccFit) (C : XR) (idx : List (List ℕ)) (y : PyFloat) (r : ℝ)
    (h : lrmesEstimate cpp f C idx = .ok y) (hr : y.val = .fin r) : r ≤ 1 := by
  unfold lrmesEstimate at h
  split_ifs at h
  · cases h; cases hr; norm_num
  · cases hx : simArgsOf f C with
    | error e => rw [hx] at h; cases h
    | ok x =>
      rw [hx] at h
      simp only [bind, Except.bind, pure, Except.pure] at h
      cases h
      have := C34_paths cpp x (idx.map (pathOf f))
      rw [hr] at this
      dsimp only at this
      generalize ((idx.map (pathOf f)).filter _) = sys at this
      split_ifs at this with h0
      · cases this; norm_num
      · have hl : (0:ℝ) < sys.length := by
          rw [Nat.cast_pos]; exact List.length_pos_iff.mpr h0
        have hc := sum_ge_neg (l := sys.map fun p => XR.exp ((simLoop x (simInit x) p).map fun r => r.1 / 100).sum - 1)
          (by intro y hy; obtain ⟨p, _, rfl⟩ := List.mem_map.mp hy; exact exp_sub_one_cases _)
        rcases hc with e | e | ⟨q, e, hq⟩ <;> rw [e] at this
        · simp at this
        · exfalso
          have e2 : (-XR.pinf / XR.fin (sys.length : ℝ)) = .ninf := by
            show XR.div (XR.neg .pinf) _ = _
            simp only [XR.neg, XR.div]
            rw [if_neg (not_lt.mpr hl.le)]
          rw [e2] at this
          cases this
        · rw [XR.fin_neg, XR.fin_div _ hl.ne'] at this
          have := XR.fin_inj.mp this
          rw [this, div_le_one hl]
          rw [List.length_map] at hq
          linarith

/-- C35: for a usable fit the LRMES is strictly below 1: a firm never loses its whole value. -/
theorem C35_lt_one (cpp : Bool) {f : Fitted} (h : f.Ok) {d : FitDay}
    (hd : f.sample.getLast? = some d) (C : ℝ) (idx : List (List ℕ))
    (hi : ∀ p ∈ idx, ∀ i ∈ p, i < f.sample.length) :
    ∃ r : ℝ, (lrmesEstimate cpp f.toFit (.fin C) idx).map PyFloat.val = .ok (.fin r) ∧ r < 1 := by
  refine ⟨_, C34_estimate cpp h hd C idx hi, ?_⟩
  unfold DccModel.lrmes
  dsimp only
  generalize (idx.map f.shocks).filter _ = sys
  split_ifs with h0
  · norm_num
  · have hl : (0:ℝ) < sys.length := by
      rw [Nat.cast_pos]; exact List.length_pos_iff.mpr h0
    have : ∀ l : List (List (ℝ × ℝ)), l ≠ [] → -(l.length : ℝ) < (l.map (f.model.firmReturn d.state)).sum := by
      intro l
      induction l with
      | nil => simp
      | cons p t ih =>
        intro _
        have hp : -1 < f.model.firmReturn d.state p := by
          unfold DccModel.firmReturn totalReturn
          linarith [Real.exp_pos ((((f.model.path d.state p).map Prod.fst).map (· / 100)).sum)]
        rw [List.map_cons, List.sum_cons, List.length_cons]
        push_cast
        by_cases ht : t = []
        · subst ht; simp; linarith
        · linarith [ih ht]
    have := this sys h0
    unfold Spec.mean
    rw [← neg_div, div_lt_one hl]
    linarith

/-- C35: dropping every non-systemic path does not change the result. -/
theorem C35_nonsystemic (cpp : Bool) (x : SimArgs) (paths : List (List (XR × XR))) :
    lrmesResult cpp (accumulate cpp x (paths.filter fun p => (simulation x p).2))
      = lrmesResult cpp (accumulate cpp x paths) := by
  rw [lrmesResult_eq, lrmesResult_eq, List.filter_filter]
  simp only [Bool.and_self]

/-- C35: nor does the order in which the paths were simulated. -/
theorem C35_order (cpp : Bool) (x : SimArgs) {paths paths' : List (List (XR × XR))}
    (h : paths.Perm paths') :
    lrmesResult cpp (accumulate cpp x paths) = lrmesResult cpp (accumulate cpp x paths') := by
  rw [lrmesResult_eq, lrmesResult_eq]
  have hf := h.filter fun p => (simulation x p).2
  dsimp only
  have hl := hf.length_eq
  have hm := (hf.map fun p => (simulation x p).1).sum_eq
  rw [hm, hl]
  have hn : ((paths.filter fun p => (simulation x p).2) = [])
      = ((paths'.filter fun p => (simulation x p).2) = []) := by
    rw [← List.length_eq_zero_iff, ← List.length_eq_zero_iff, hl]
  simp only [hn]

/-- C35: at the level of `estimate`: the order in which the random generator delivered the paths does not matter. -/
theorem C35_draw_order (cpp : Bool) (f : DccFit) (C : XR) {idx idx' : List (List ℕ)} (h : idx.Perm idx') :
    lrmesEstimate cpp f C idx = lrmesEstimate cpp f C idx' := by
  unfold lrmesEstimate
  have hn : (idx = []) = (idx' = []) := by
    rw [← List.length_eq_zero_iff, ← List.length_eq_zero_iff, h.length_eq]
  simp only [hn]
  have key : (do let x ← simArgsOf f C; return lrmesResult cpp (accumulate cpp x (idx.map (pathOf f))))
      = (do let x ← simArgsOf f C; return lrmesResult cpp (accumulate cpp x (idx'.map (pathOf f)))) := by
    cases simArgsOf f C with
    | error e => rfl
    | ok x => exact congrArg Except.ok (C35_order cpp x (h.map (pathOf f)))
  rw [key]

/-! ### C36 -/

theorem XR_lt_of_lt_of_le {a b c : XR} (h : a < b) (h' : b ≤ c) : a < c := by
  cases a <;> cases b <;> cases c <;>
    first
    | exact trivial
    | exact (h : False).elim
    | exact (h' : False).elim
    | exact lt_of_lt_of_le (α := ℝ) h h'

/-- C36: a path that is systemic for `C` is systemic for every larger threshold, with the same
firm return. -/
theorem C36_monotone (x : SimArgs) (p : List (XR × XR)) {C C' : XR} (h : C ≤ C')
    (hs : (simulation { x with C := C } p).2 = true) :
    simulation { x with C := C' } p = simulation { x with C := C } p := by
  have hloop : ∀ D : XR, ∀ (q : List (XR × XR)) s, simLoop { x with C := D } s q = simLoop x s q := by
    intro D q
    induction q with
    | nil => intro s; rfl
    | cons z t ih => intro s; simp only [simLoop, ih]; rfl
  have hinit : ∀ D : XR, simInit { x with C := D } = simInit x := fun _ => rfl
  unfold simulation at hs ⊢
  simp only [hloop, hinit] at hs ⊢
  split_ifs at hs with h1
  rw [if_pos h1, if_pos (XR_lt_of_lt_of_le h1 h)]

/-- C36: the set of systemic paths can only grow with the threshold. -/
theorem C36_count (x : SimArgs) (paths : List (List (XR × XR))) {C C' : XR} (h : C ≤ C') :
    (paths.filter fun p => (simulation { x with C := C } p).2).length
      ≤ (paths.filter fun p => (simulation { x with C := C' } p).2).length := by
  rw [← List.countP_eq_length_filter, ← List.countP_eq_length_filter]
  apply List.countP_mono_left
  intro p _ hp
  rw [C36_monotone x p h hp]; exact hp

/-- C36: for `C ≤ -1` no path is systemic and `estimate` returns `0.0` (when it returns). -/
theorem C36_never (cpp : Bool) (f : DccFit) {C : ℝ} (hC : C ≤ -1) (idx : List (List ℕ)) (y : PyFloat)
    (h : lrmesEstimate cpp f (.fin C) idx = .ok y) : y.val = 0 := by
  unfold lrmesEstimate at h
  split_ifs at h
  · cases h; rfl
  · cases hx : simArgsOf f (.fin C) with
    | error e => rw [hx] at h; cases h
    | ok x =>
      rw [hx] at h
      simp only [bind, Except.bind, pure, Except.pure] at h
      cases h
      have hxC : x.C = .fin C := by
        unfold simArgsOf at hx; split at hx <;> cases hx; rfl
      rw [C34_paths]
      dsimp only
      rw [if_pos]
      rw [List.filter_eq_nil_iff]
      intro p _
      rw [decide_eq_true_eq, hxC]
      rcases exp_sub_one_cases ((simLoop x (simInit x) p).map fun r => r.2 / 100).sum with e | e | ⟨r, e, hr⟩
      · rw [e]; intro h; exact h
      · rw [e]; intro h; exact h
      · rw [e, XR.fin_lt]; linarith

example : (demoFit.toFit.success = true) ∧ (-2 : ℝ) ≤ -1 := ⟨rfl, by norm_num⟩

/-! ### C37 -/

/-- state of the simulation before day `k` -/
def stateAt (x : SimArgs) (p : List (XR × XR)) (k : ℕ) : SimState :=
  (p.take k).foldl (fun s z => (simStep x s z).1) (simInit x)

/-- C37: with admissible GJR parameters (`omega > 0`, `alpha ≥ 0`, `alpha+gamma ≥ 0`, `beta ≥ 0`) and
DCC weights (`a, b ≥ 0`, `a+b ≤ 1`, `a < 1`), a positive semi-definite `Q̄`, positive initial
variances and `|rho| ≤ 1`, before every simulated day the variances are positive and the implied
correlation `q_im / √(q_i q_m)` is a real number in [-1,1]; hence no NaN or infinity arises. -/
theorem C37_invariant {m : DccModel} (hm : DccModel.Ok m) {s : DccState} (hs : DccState.Ok s)
    (h : DccState.Start s) (C : ℝ) (p : List (ℝ × ℝ)) (k : ℕ) :
    ∃ vI vM rho : ℝ,
      let st := stateAt (ofModel m s C) (p.map fun z => (.fin z.1, .fin z.2)) k
      st.varI = .fin vI ∧ st.varM = .fin vM ∧ 0 < vI ∧ 0 < vM ∧
      st.qim / XR.sqrt (st.qi * st.qm) = .fin rho ∧ |rho| ≤ 1 := by
  have key : ∀ (q : List (ℝ × ℝ)) (s' : DccState), DccState.Ok s' → ∃ s'', DccState.Ok s'' ∧
      (q.map fun z => (XR.fin z.1, XR.fin z.2)).foldl (fun st z => (simStep (ofModel m s C) st z).1)
        (ofState s') = ofState s'' := by
    intro q
    induction q with
    | nil => intro s' h'; exact ⟨s', h', rfl⟩
    | cons z t ih =>
      intro s' h'
      obtain ⟨s'', h1, h3⟩ := ih (m.day s' z.1 z.2).1 (day_ok hm h' z.1 z.2)
      refine ⟨s'', h1, ?_⟩
      rw [List.map_cons, List.foldl_cons, simStep_fin hm h']
      exact h3
  obtain ⟨s', hs', e⟩ := key (p.take k) s hs
  refine ⟨s'.varI, s'.varM, s'.q.corr, ?_⟩
  dsimp only
  unfold stateAt
  rw [simInit_fin hs h, ← List.map_take, e]
  have hp := mul_pos hs'.2.2.1 hs'.2.2.2.1
  refine ⟨rfl, rfl, hs'.1, hs'.2.1, ?_, ?_⟩
  · simp only [ofState, XR.fin_mul, XR.fin_sqrt hp.le, XR.fin_div _ (Real.sqrt_pos.mpr hp).ne']; rfl
  · exact abs_le_one_iff_mul_self_le_one.mpr (by nlinarith [corr_sq_le hs'.2.2])

/-- C37: consequently every simulated daily return is finite. -/
theorem C37_finite {m : DccModel} (hm : DccModel.Ok m) {s : DccState} (hs : DccState.Ok s)
    (h : DccState.Start s) (C : ℝ) (p : List (ℝ × ℝ)) :
    ∀ r ∈ simLoop (ofModel m s C) (simInit (ofModel m s C)) (p.map fun z => (.fin z.1, .fin z.2)),
      r.1.isFin ∧ r.2.isFin := by
  rw [simInit_fin hs h, simLoop_fin hm s C p s hs]
  intro r hr
  obtain ⟨q, _, rfl⟩ := List.mem_map.mp hr
  exact ⟨⟨_, rfl⟩, ⟨_, rfl⟩⟩

/-- C37: the arguments `estimate` builds from a usable fit meet these conditions. -/
theorem C37_estimate_args {f : Fitted} (h : f.Ok) {d : FitDay} (hd : f.sample.getLast? = some d) (C : ℝ) :
    simArgsOf f.toFit (.fin C) = .ok (ofModel f.model d.state C) ∧ DccModel.Ok f.model ∧
      DccState.Ok d.state ∧ DccState.Start d.state :=
  ⟨fitted_simArgs h hd C, fitted_model_ok h, fitDay_state_ok (h.1 d (List.mem_of_getLast? hd)),
    fitDay_state_start d⟩

example : ∃ m s, DccModel.Ok m ∧ DccState.Ok s ∧ DccState.Start s :=
  ⟨_, _, (C37_estimate_args demoFit_ok (d := ⟨1, -1, 1, 2, 0⟩) rfl 0).2⟩

/-! ### C38 -/

/-- C38: the C++ and the Python simulation agree on every input, including infinities and NaNs. -/
theorem C38_simulation (x : SimArgs) (inv : List (XR × XR)) :
    cppSimulation x inv = simulation x inv := cppSimulation_eq x inv

/-- C38: hence the estimate does not depend on which backend is installed. -/
theorem C38_estimate (f : DccFit) (C : XR) (idx : List (List ℕ)) :
    (lrmesEstimate true f C idx).map PyFloat.val = (lrmesEstimate false f C idx).map PyFloat.val := by
  unfold lrmesEstimate
  split_ifs
  · rfl
  · cases simArgsOf f C with
    | error e => rfl
    | ok x =>
      simp only [bind, Except.bind, pure, Except.pure, Except.map]
      rw [C34_paths, C34_paths]
  · rfl

/-! ### C39 -/

/-- C39: for `|rho| < 1` the orthogonalised shock is finite and reconstructs the standardised
residual exactly. -/
theorem C39_reconstruct (zi rho zm : ℝ) (h : |rho| < 1) :
    ∃ ξ : ℝ, orthInnov (.fin zi) (.fin rho) (.fin zm) = .fin ξ ∧
      zi = rho * zm + Real.sqrt (1 - rho ^ 2) * ξ := by
  have hp : 0 < 1 - rho ^ 2 := by
    have := (sq_lt_one_iff_abs_lt_one rho).mpr h; linarith
  have hq := (Real.sqrt_pos.mpr hp).ne'
  refine ⟨(zi - rho * zm) / Real.sqrt (1 - rho ^ 2), ?_, ?_⟩
  · simp only [orthInnov, XR.fin_mul, XR.fin_sub, XR.fin_sq, XR.one_def, XR.fin_sqrt hp.le,
      XR.fin_div _ hq]
  · field_simp; ring

/-- C39: it is the only such shock. -/
theorem C39_unique (zi rho zm ξ : ℝ) (h : |rho| < 1)
    (e : zi = rho * zm + Real.sqrt (1 - rho ^ 2) * ξ) :
    orthInnov (.fin zi) (.fin rho) (.fin zm) = .fin ξ := by
  obtain ⟨ξ', h1, h2⟩ := C39_reconstruct zi rho zm h
  have hp : 0 < 1 - rho ^ 2 := by
    have := (sq_lt_one_iff_abs_lt_one rho).mpr h; linarith
  have hq := (Real.sqrt_pos.mpr hp).ne'
  rw [h1]; congr 1
  have : Real.sqrt (1 - rho ^ 2) * ξ' = Real.sqrt (1 - rho ^ 2) * ξ := by linarith
  exact mul_left_cancel₀ hq this

/-- C39: at `|rho| = 1` (and beyond) the shock is never finite. -/
theorem C39_degenerate (zi rho zm : ℝ) (h : 1 ≤ |rho|) :
    ¬ (orthInnov (.fin zi) (.fin rho) (.fin zm)).isFin := by
  rintro ⟨r, hr⟩
  have hn : 1 - rho ^ 2 ≤ 0 := by
    have := (one_le_sq_iff_one_le_abs rho).mpr h; linarith
  simp only [orthInnov, XR.fin_mul, XR.fin_sub, XR.fin_sq, XR.one_def] at hr
  rcases eq_or_lt_of_le hn with e | e
  · rw [e, XR.fin_sqrt le_rfl, Real.sqrt_zero, XR.fin_div_zero] at hr
    unfold XR.infSign at hr
    split_ifs at hr
  · have : XR.sqrt (.fin (1 - rho ^ 2)) = .nan := by
      simp [XR.sqrt, e]
    rw [this] at hr
    simp at hr

example : |(1/2 : ℝ)| < 1 ∧ (1:ℝ) ≤ |(-1:ℝ)| := by norm_num [abs_of_pos]

/-! ### Concrete cases of the theorems above -/

example (cpp : Bool) := C34_estimate cpp demoFit_ok (d := ⟨1, -1, 1, 2, 0⟩) rfl (-0.4) [[0, 0], [0]] (by simp [demoFit])
example (cpp : Bool) := C35_lt_one cpp demoFit_ok (d := ⟨1, -1, 1, 2, 0⟩) rfl (-0.4) [[0, 0], [0]] (by simp [demoFit])
/-- The estimate of the sample is at most one; with a threshold of minus two it is zero. -/
example (cpp : Bool) : ∃ y, lrmesEstimate cpp demoFit.toFit (.fin (-2)) [[0, 0], [0]] = .ok y ∧ y.val = 0 := by
  obtain ⟨r, h, _⟩ := C35_lt_one cpp demoFit_ok (d := ⟨1, -1, 1, 2, 0⟩) rfl (-2) [[0, 0], [0]] (by simp [demoFit])
  obtain ⟨y, hy⟩ : ∃ y, lrmesEstimate cpp demoFit.toFit (.fin (-2)) [[0, 0], [0]] = .ok y := by
    cases hc : lrmesEstimate cpp demoFit.toFit (.fin (-2)) [[0, 0], [0]] with
    | ok y => exact ⟨y, rfl⟩
    | error e => rw [hc] at h; cases h
  exact ⟨y, hy, C36_never cpp demoFit.toFit (by norm_num) _ y hy⟩
example (cpp : Bool) (C : XR) := C34_failed_fit cpp { demoFit.toFit with success := false } C [[0, 0], [0]] rfl
example (cpp : Bool) (C : XR) := C35_draw_order cpp demoFit.toFit C (List.Perm.swap [0] [0, 0] [])
example (cpp : Bool) (x : SimArgs) := C35_order cpp x (List.Perm.swap [((1 : XR), (2 : XR))] [(0, 0)] [])
example (x : SimArgs) (paths : List (List (XR × XR))) := C36_count x paths (C := .fin (-0.4)) (C' := .fin (-0.1)) (by simp; norm_num)
example := C39_reconstruct 1 (1 / 2) (-2) (by norm_num [abs_of_pos])
/-- Perfectly correlated shocks have no innovation of their own. -/
example : ¬ (orthInnov (.fin 1) (.fin (-1)) (.fin 3)).isFin := C39_degenerate 1 (-1) 3 (by norm_num)
example := C39_unique (1 / 2 * (-2) + Real.sqrt (1 - (1 / 2) ^ 2) * 7) (1 / 2) (-2) 7 (by norm_num [abs_of_pos]) rfl
example (p : List (ℝ × ℝ)) (k : ℕ) := C37_invariant (C37_estimate_args demoFit_ok (d := ⟨1, -1, 1, 2, 0⟩) rfl 0).2.1
  (C37_estimate_args demoFit_ok (d := ⟨1, -1, 1, 2, 0⟩) rfl 0).2.2.1 (C37_estimate_args demoFit_ok (d := ⟨1, -1, 1, 2, 0⟩) rfl 0).2.2.2
  (-0.4) p k
example (p : List (ℝ × ℝ)) := C37_finite (C37_estimate_args demoFit_ok (d := ⟨1, -1, 1, 2, 0⟩) rfl 0).2.1
  (C37_estimate_args demoFit_ok (d := ⟨1, -1, 1, 2, 0⟩) rfl 0).2.2.1 (C37_estimate_args demoFit_ok (d := ⟨1, -1, 1, 2, 0⟩) rfl 0).2.2.2
  (-0.4) p

end
end Frds.Props

import Verif.Props.CccObj
import Verif.Props.Pin

/-! Properties C124-C126: what the estimators ask of the optimiser and what they report.

`Honours` and `PinHonours` are the documented contract of `scipy.optimize.minimize` with bounds and constraints:
a solution reported as successful satisfies them. (SciPy satisfies constraints up to a tolerance; the theorems
are about the idealised contract.) -/
set_option linter.unusedSimpArgs false

namespace Frds.Props
noncomputable section
open Frds Frds.Model Frds.Spec Classical

/-- successful solutions satisfy the bounds and constraints passed -/
def Honours {P : Type} (opt : Optimizer P) : Prop :=
  ∀ c f x0, (opt c f x0).success = true → c.holds (opt c f x0).x

/-- an XR between two finite numbers is finite -/
theorem fin_of_between {a b : ℝ} {x : XR} (h1 : XR.fin a ≤ x) (h2 : x ≤ XR.fin b) :
    ∃ r : ℝ, x = .fin r ∧ a ≤ r ∧ r ≤ b := by
  cases x with
  | nan => exact absurd h1 (by simp [LE.le, XR.le])
  | ninf => exact absurd h1 (by simp [LE.le, XR.le])
  | pinf => exact absurd h2 (by simp [LE.le, XR.le])
  | fin r => exact ⟨r, rfl, by simpa using h1, by simpa using h2⟩


/-! ### C124 -/

/-- the optimiser reports the value of the objective at the point it returns -/
def Truthful {P : Type} (opt : Optimizer P) : Prop := ∀ c f x0, (opt c f x0).f = f (opt c f x0).x

theorem runOpt_eq {P : Type} {opt : Optimizer P} {c : Feas P} {f : P → Except PyErr XR} {x0 : P} {run : OptRun P}
    (h : runOpt opt c f x0 = .ok run) :
    run = opt c (fun p => match f p with | .ok v => v | .error _ => .nan) x0 := by
  unfold runOpt at h
  simp only [bind, Except.bind, pure, Except.pure] at h
  split at h
  · simp at h
  · injection h with h; exact h.symm

/-- decomposition of a CCC `fit` on a model not yet estimated -/
theorem cccFit_cases {cpp : Bool} {fitU : GarchObj GarchVar → Except PyErr (GarchObj GarchVar)}
    {opt : Optimizer CccVec} {o o' : CccObj} {r : Option (CccVec × XR)} (hs : o.success = false)
    (h : cccFit cpp fitU opt o = .ok (o', r)) :
    ∃ m1 m2, fitU o.model1 = .ok m1 ∧ fitU o.model2 = .ok m2 ∧ o'.model1 = m1 ∧ o'.model2 = m2 ∧
      ∃ x0 : CccVec, ∃ run : OptRun CccVec,
        x0 = ⟨((dropLl m1.params).getD (.nan, nanVar)).1, ((dropLl m1.params).getD (.nan, nanVar)).2,
          ((dropLl m2.params).getD (.nan, nanVar)).1, ((dropLl m2.params).getD (.nan, nanVar)).2,
          npCorr (stdResid m2.resids m2.sigma2) (stdResid m1.resids m1.sigma2)⟩ ∧
        run = opt cccFeas (fun p => match cccObjective cpp m1.returns m2.returns p m1.backcast m2.backcast
          (m1.bounds.getD []) (m2.bounds.getD []) with | .ok v => v | .error _ => .nan) x0 ∧
        r = o'.params ∧
        (run.success = true → o'.success = true ∧ o'.params = some (run.x, -run.f)) ∧
        (run.success = false → o'.success = false ∧ o'.params = o.params) := by
  unfold cccFit at h
  rw [if_neg (by simp [hs])] at h
  simp only [bind, Except.bind] at h
  cases h1 : fitU o.model1 with
  | error e => rw [h1] at h; simp at h
  | ok m1 =>
    rw [h1] at h
    simp only at h
    cases h2 : fitU o.model2 with
    | error e => rw [h2] at h; simp at h
    | ok m2 =>
      rw [h2] at h
      simp only at h
      by_cases hl : (stdResid m1.resids m1.sigma2).length ≠ (stdResid m2.resids m2.sigma2).length
      · rw [if_pos hl] at h; simp at h
      · rw [if_neg hl] at h
        split at h
        · simp at h
        · rename_i run hrun
          have hr := runOpt_eq hrun
          by_cases hsu : run.success = true
          · rw [if_pos hsu] at h
            injection h with h
            rw [Prod.mk.injEq] at h
            obtain ⟨rfl, rfl⟩ := h
            exact ⟨m1, m2, rfl, rfl, rfl, rfl, _, run, rfl, hr, rfl, fun _ => ⟨rfl, rfl⟩,
              fun hf => absurd (hsu.symm.trans hf) (by simp)⟩
          · rw [if_neg hsu] at h
            injection h with h
            rw [Prod.mk.injEq] at h
            obtain ⟨rfl, rfl⟩ := h
            exact ⟨m1, m2, rfl, rfl, rfl, rfl, _, run, rfl, hr, rfl, fun hf => absurd hf hsu,
              fun _ => ⟨hs, rfl⟩⟩

/-- C124. A CCC estimation first estimates the two univariate models and keeps them. The joint optimisation
starts at their estimates and at the sample correlation of their standardised residuals; its objective is
minus the bivariate log-likelihood of the two return series. -/
theorem C124_start (cpp : Bool) (fitU : GarchObj GarchVar → Except PyErr (GarchObj GarchVar))
    (opt : Optimizer CccVec) (o o' : CccObj) (r : Option (CccVec × XR)) (hs : o.success = false)
    (h : cccFit cpp fitU opt o = .ok (o', r)) :
    fitU o.model1 = .ok o'.model1 ∧ fitU o.model2 = .ok o'.model2 ∧
    ∃ (x0 : CccVec) (f : CccVec → XR),
      (∀ m v ll, o'.model1.params = some (m, v, ll) → x0.mu1 = m ∧ x0.v1 = v) ∧
      (∀ m v ll, o'.model2.params = some (m, v, ll) → x0.mu2 = m ∧ x0.v2 = v) ∧
      (∀ z : List (ℝ × ℝ), stdResid o'.model1.resids o'.model1.sigma2 = z.map (fun p => XR.fin p.1) →
        stdResid o'.model2.resids o'.model2.sigma2 = z.map (fun p => XR.fin p.2) →
        0 < sampleCov z Prod.fst Prod.fst → 0 < sampleCov z Prod.snd Prod.snd →
        x0.rho = .fin (sampleCorr z Prod.fst Prod.snd)) ∧
      (∀ p v, cccObjective cpp o'.model1.returns o'.model2.returns p o'.model1.backcast o'.model2.backcast
        (o'.model1.bounds.getD []) (o'.model2.bounds.getD []) = .ok v → f p = v) ∧
      ((opt cccFeas f x0).success = true →
        o'.success = true ∧ r = some ((opt cccFeas f x0).x, -(opt cccFeas f x0).f)) ∧
      ((opt cccFeas f x0).success = false → o'.success = false ∧ r = o.params) := by
  obtain ⟨m1, m2, h1, h2, e1, e2, x0, run, hx0, hrun, hr, hok, hno⟩ := cccFit_cases hs h
  subst e1 e2
  refine ⟨h1, h2, x0, fun p => match cccObjective cpp o'.model1.returns o'.model2.returns p o'.model1.backcast
    o'.model2.backcast (o'.model1.bounds.getD []) (o'.model2.bounds.getD []) with
    | .ok v => v | .error _ => .nan, ?_, ?_, ?_, ?_, ?_, ?_⟩
  · intro m v ll e; rw [hx0, e]; exact ⟨rfl, rfl⟩
  · intro m v ll e; rw [hx0, e]; exact ⟨rfl, rfl⟩
  · intro z e1 e2 c1 c2
    rw [hx0]
    simp only
    rw [e1, e2]
    have := npCorr_col (l := z) (f := Prod.snd) (g := Prod.fst) c2 c1
    simp only [col] at this
    rw [this, sampleCorr_comm]
  · intro p v e
    exact (by rw [e] : (match cccObjective cpp o'.model1.returns o'.model2.returns p o'.model1.backcast
      o'.model2.backcast (o'.model1.bounds.getD []) (o'.model2.bounds.getD []) with
      | .ok v => v | .error _ => .nan) = v)
  · intro hsu
    rw [← hrun] at hsu ⊢
    rw [hr]; exact hok hsu
  · intro hsu
    rw [← hrun] at hsu
    rw [hr]; exact hno hsu

/-- C124. With a truthful optimiser the log-likelihood reported by a successful CCC estimation is the
log-likelihood of the two return series at the reported parameters. -/
theorem C124_reported (cpp : Bool) (fitU : GarchObj GarchVar → Except PyErr (GarchObj GarchVar))
    (opt : Optimizer CccVec) (hopt : Truthful opt) (o o' : CccObj) (p : CccVec) (ll : XR) (hs : o.success = false)
    (h : cccFit cpp fitU opt o = .ok (o', some (p, ll))) (hs' : o'.success = true) (v : XR) (bc1 bc2 : XR)
    (vb1 vb2 : List (XR × XR))
    (hv : cccObjective cpp o'.model1.returns o'.model2.returns p bc1 bc2 vb1 vb2 = .ok v) : ll = -v := by
  obtain ⟨m1, m2, h1, h2, e1, e2, x0, run, hx0, hrun, hr, hok, hno⟩ := cccFit_cases hs h
  subst e1 e2
  cases hsu : run.success with
  | false => rw [(hno hsu).1] at hs'; simp at hs'
  | true =>
    rw [(hok hsu).2, Option.some.injEq, Prod.mk.injEq] at hr
    obtain ⟨rfl, rfl⟩ := hr
    have hf := hopt cccFeas (fun p => match cccObjective cpp o'.model1.returns o'.model2.returns p
      o'.model1.backcast o'.model2.backcast (o'.model1.bounds.getD []) (o'.model2.bounds.getD []) with
      | .ok v => v | .error _ => .nan) x0
    rw [← hrun] at hf
    rw [hf, (C80_ignores cpp _ _ _ _ _ bc1 bc2 _ _ vb1 vb2).trans hv]

/-! ### C71: the reported log-likelihood -/

theorem estimated_reported {V : Type} {cpp : Bool} {var : V → List XR → XR → List (XR × XR) → Except PyErr (List XR)}
    {feas : Bool → Feas (XR × V)} {opt : Optimizer (XR × V)} (hopt : Truthful opt) {o o' : GarchObj V} {bc vb x0 run}
    (h : Estimated cpp var feas opt o o' bc vb x0 run) (hs : run.success = true) :
    ∃ mu v ll, o'.params = some (mu, v, ll) ∧ o'.resids = o'.returns.map (· - mu) ∧
      ∀ s2, var v o'.resids o'.backcast (o'.bounds.getD []) = .ok s2 → ll = loglik o'.resids s2 := by
  obtain ⟨h1, h2, h3⟩ := h.success hs
  refine ⟨_, _, _, h2, by rw [h3, h.data.1], ?_⟩
  intro s2 hv
  rw [h.stored.1, h.stored.2, h3, Option.getD_some] at hv
  have hneg : ∀ x : XR, - -x = x := fun x => by
    rcases x with _ | _ | _ | x
    · rfl
    · rfl
    · rfl
    · rw [XR.fin_neg, XR.fin_neg, neg_neg]
  have hsub : ∀ x : XR, x - 0 = x := fun x => by
    rcases x with _ | _ | _ | x
    · rfl
    · rfl
    · rfl
    · rw [XR.zero_def, XR.fin_sub, sub_zero]
  have hres : (if o.zeroMean then o.returns else demean o.returns run.x.1) =
      o.returns.map (· - if o.zeroMean then 0 else run.x.1) := by
    cases o.zeroMean with
    | true => simp [hsub]
    | false => rfl
  have hf := hopt (feas o.zeroMean) (objective var o bc vb) x0
  rw [← h.run_eq] at hf
  rw [hf, h3]
  unfold objective modelPath
  rw [hres]
  simp only [bind, Except.bind, pure, Except.pure, hv]
  exact hneg _

/-- C71. With a truthful optimiser the log-likelihood a successful `GARCHModel.fit` stores is the Gaussian log-likelihood
(C61) of the stored residuals and the variances at the stored parameters. -/
theorem C71_reported_garch (cpp : Bool) (opt : Optimizer (XR × GarchVar)) (hopt : Truthful opt) (o o' : GarchObj GarchVar)
    (ret : Option (Option (XR × GarchVar × XR))) (hs : o.success = false) (h : garchFit cpp opt o = .ok (o', ret))
    (hs' : o'.success = true) :
    ∃ mu v ll, o'.params = some (mu, v, ll) ∧ o'.resids = o'.returns.map (· - mu) ∧
      ∀ s2, garchVariance cpp v o'.resids o'.backcast (o'.bounds.getD []) = .ok s2 → ll = loglik o'.resids s2 := by
  obtain ⟨-, bc, vb, x0, run, he, -⟩ := (C71_garch_fit cpp opt o o' ret h).2 hs
  cases hr : run.success with
  | true => exact estimated_reported hopt he hr
  | false => rw [(he.failure hr).1, hs] at hs'; cases hs'

/-- C71. The same for `GJRGARCHModel.fit`, when the optimisation succeeded. -/
theorem C71_reported_gjr (cpp : Bool) (opt : Optimizer (XR × GjrVar)) (hopt : Truthful opt) (o o' : GarchObj GjrVar)
    (ret : Option (Option (XR × GjrVar × XR))) (hs : o.success = false) (h : gjrFit cpp opt o = .ok (o', ret))
    (hs' : o'.success = true) :
    ∃ mu v ll, o'.params = some (mu, v, ll) ∧ o'.resids = o'.returns.map (· - mu) ∧
      ∀ s2, gjrVariance cpp v o'.resids o'.backcast (o'.bounds.getD []) = .ok s2 → ll = loglik o'.resids s2 := by
  obtain ⟨-, bc, vb, x0, run, he, -⟩ := C71_gjr_fit cpp opt o o' ret h
  cases hr : run.success with
  | true => exact estimated_reported hopt he hr
  | false => rw [(he.failure hr).1, hs] at hs'; cases hs'

/-! ### C125 -/

/-- admissible GARCH variance parameters: `omega ≥ 1e-6`, `alpha, beta ≥ 0`, `alpha + beta ≤ 1` -/
def GarchAdm (v : GarchVar) : Prop :=
  .fin (1 / 10 ^ 6) ≤ v.omega ∧ ∃ a b : ℝ, v.alpha = .fin a ∧ v.beta = .fin b ∧ 0 ≤ a ∧ 0 ≤ b ∧ a + b ≤ 1

/-- admissible GJR variance parameters: all at least `1e-6`, `alpha + beta + gamma/2 ≤ 1` -/
def GjrAdm (v : GjrVar) : Prop :=
  .fin (1 / 10 ^ 6) ≤ v.omega ∧ ∃ a g b : ℝ, v.alpha = .fin a ∧ v.gamma = .fin g ∧ v.beta = .fin b ∧
    1 / 10 ^ 6 ≤ a ∧ 1 / 10 ^ 6 ≤ g ∧ 1 / 10 ^ 6 ≤ b ∧ g ≤ 1 ∧ a + b + g / 2 ≤ 1

/-- admissible CCC parameters -/
def CccAdm (p : CccVec) : Prop :=
  GarchAdm p.v1 ∧ GarchAdm p.v2 ∧ ∃ r : ℝ, p.rho = .fin r ∧ |r| ≤ 99 / 100

/-- admissible DCC parameters -/
def DccAdm (a b : XR) : Prop := ∃ x y : ℝ, a = .fin x ∧ b = .fin y ∧ 0 ≤ x ∧ 0 ≤ y ∧ x + y ≤ 1

theorem garchAdm_of {w a b : XR} (h1 : micro ≤ w) (h2 : 0 ≤ a ∧ a ≤ 1) (h3 : 0 ≤ b ∧ b ≤ 1) (h4 : 0 ≤ 1 - (a + b)) :
    GarchAdm ⟨w, a, b⟩ := by
  obtain ⟨x, rfl, hx, _⟩ := fin_of_between (a := 0) (b := 1) h2.1 h2.2
  obtain ⟨y, rfl, hy, _⟩ := fin_of_between (a := 0) (b := 1) h3.1 h3.2
  refine ⟨h1, x, y, rfl, rfl, hx, hy, ?_⟩
  simp only [XR.one_def, XR.zero_def, XR.fin_add, XR.fin_sub, XR.fin_le] at h4
  linarith

theorem garchFeas_adm {z : Bool} {p : XR × GarchVar} (h : (garchFeas z).holds p) : GarchAdm p.2 := by
  obtain ⟨hb, hi⟩ := h
  have hj := hi (fun p => 1 - (p.2.alpha + p.2.beta)) (by simp [garchFeas])
  cases z <;> simp only [garchFeas, Bool.false_eq_true, if_false, if_true, id, List.drop, List.cons_append,
    List.nil_append, List.zip_cons_cons, List.zip_nil_right, List.forall_mem_cons, List.zip_nil_left] at hb
  · exact garchAdm_of hb.2.1.1 hb.2.2.1 hb.2.2.2.1 hj
  · exact garchAdm_of hb.1.1 hb.2.1 hb.2.2.1 hj

theorem gjrAdm_of {w a g b : XR} (h1 : micro ≤ w) (h2 : micro ≤ a ∧ a ≤ 1) (h3 : micro ≤ g ∧ g ≤ 1)
    (h4 : micro ≤ b ∧ b ≤ 1) (h5 : 0 ≤ 1 - (a + b + g / 2)) : GjrAdm ⟨w, a, g, b⟩ := by
  obtain ⟨x, rfl, hx, _⟩ := fin_of_between (b := 1) h2.1 h2.2
  obtain ⟨y, rfl, hy, hy'⟩ := fin_of_between (b := 1) h3.1 h3.2
  obtain ⟨t, rfl, ht, _⟩ := fin_of_between (b := 1) h4.1 h4.2
  refine ⟨h1, x, y, t, rfl, rfl, rfl, hx, hy, ht, hy', ?_⟩
  rw [XR.ofNat_def, XR.fin_div _ (by norm_num)] at h5
  simp only [XR.one_def, XR.zero_def, XR.fin_add, XR.fin_sub, XR.fin_le] at h5
  linarith

theorem gjrFeas_adm {z : Bool} {p : XR × GjrVar} (h : (gjrFeas z).holds p) : GjrAdm p.2 := by
  obtain ⟨hb, hi⟩ := h
  have hj := hi (fun p => 1 - (p.2.alpha + p.2.beta + p.2.gamma / 2)) (by simp [gjrFeas])
  cases z <;> simp only [gjrFeas, Bool.false_eq_true, if_false, if_true, id, List.drop, List.cons_append,
    List.nil_append, List.zip_cons_cons, List.zip_nil_right, List.forall_mem_cons, List.zip_nil_left] at hb
  · exact gjrAdm_of hb.2.1.1 hb.2.2.1 hb.2.2.2.1 hb.2.2.2.2.1 hj
  · exact gjrAdm_of hb.1.1 hb.2.1 hb.2.2.1 hb.2.2.2.1 hj

/-- objects reachable from a fresh one by `fit` calls with optimisers that honour bounds and constraints -/
inductive HonestHistory {V : Type} (fit : Optimizer (XR × V) → GarchObj V →
    Except PyErr (GarchObj V × Option (Option (XR × V × XR)))) : GarchObj V → Prop
  | fresh (o : GarchObj V) : o.success = false → o.params = none → HonestHistory fit o
  | step (o o' : GarchObj V) (opt : Optimizer (XR × V)) (ret) : Honours opt → HonestHistory fit o →
      fit opt o = .ok (o', ret) → HonestHistory fit o'

theorem estimated_adm {V : Type} {cpp : Bool}
    {var : V → List XR → XR → List (XR × XR) → Except PyErr (List XR)}
    {feas : Bool → Feas (XR × V)} {opt : Optimizer (XR × V)} {o o' : GarchObj V} {bc vb x0 run} {A : V → Prop}
    (hf : ∀ z p, (feas z).holds p → A p.2) (hopt : Honours opt)
    (hc : ∀ mu v ll, o.params = some (mu, v, ll) → A v)
    (h : Estimated cpp var feas opt o o' bc vb x0 run) : ∀ mu v ll, o'.params = some (mu, v, ll) → A v := by
  intro mu v ll e
  cases hr : run.success with
  | true =>
    obtain ⟨_, h2, _⟩ := h.success hr
    rw [h2, Option.some.injEq, Prod.mk.injEq, Prod.mk.injEq] at e
    rw [← e.2.1]
    refine hf o.zeroMean _ ?_
    rw [h.run_eq] at hr ⊢
    exact hopt _ _ _ hr
  | false => exact hc mu v ll ((h.failure hr).2.1 ▸ e)

/-- C125. After any history of `fit` calls, the reported GARCH(1,1) parameters are admissible. -/
theorem C125_garch (cpp : Bool) (o : GarchObj GarchVar) (h : HonestHistory (garchFit cpp) o) (mu ll : XR)
    (v : GarchVar) (hp : o.params = some (mu, v, ll)) : GarchAdm v := by
  suffices H : ∀ mu v ll, o.params = some (mu, v, ll) → GarchAdm v from H mu v ll hp
  clear hp
  induction h with
  | fresh o h1 h2 => intro mu v ll e; rw [h2] at e; cases e
  | step o o' opt ret hopt _ hf ih =>
    obtain ⟨hs, hn⟩ := C71_garch_fit cpp opt o o' ret hf
    cases hsu : o.success with
    | true => rw [(hs hsu).1]; exact ih
    | false =>
      obtain ⟨_, bc, vb, x0, run, he, _⟩ := hn hsu
      exact estimated_adm (A := GarchAdm) (fun z p hz => garchFeas_adm hz) hopt ih he

/-- C125. After any history of `fit` calls, the reported GJR-GARCH(1,1) parameters are admissible. -/
theorem C125_gjr (cpp : Bool) (o : GarchObj GjrVar) (h : HonestHistory (gjrFit cpp) o) (mu ll : XR)
    (v : GjrVar) (hp : o.params = some (mu, v, ll)) : GjrAdm v := by
  suffices H : ∀ mu v ll, o.params = some (mu, v, ll) → GjrAdm v from H mu v ll hp
  clear hp
  induction h with
  | fresh o h1 h2 => intro mu v ll e; rw [h2] at e; cases e
  | step o o' opt ret hopt _ hf ih =>
    obtain ⟨_, bc, vb, x0, run, he, _⟩ := C71_gjr_fit cpp opt o o' ret hf
    exact estimated_adm (A := GjrAdm) (fun z p hz => gjrFeas_adm hz) hopt ih he

/-- C125. The parameters of a CCC model estimated with an optimiser that honours bounds and constraints are
admissible. -/
theorem C125_ccc (cpp : Bool) (fitU : GarchObj GarchVar → Except PyErr (GarchObj GarchVar))
    (opt : Optimizer CccVec) (hopt : Honours opt) (o o' : CccObj) (r : Option (CccVec × XR))
    (hs : o.success = false) (h : cccFit cpp fitU opt o = .ok (o', r)) (hs' : o'.success = true) :
    ∃ p ll, r = some (p, ll) ∧ CccAdm p := by
  obtain ⟨m1, m2, h1, h2, e1, e2, x0, run, hx0, hrun, hr, hok, hno⟩ := cccFit_cases hs h
  cases hsu : run.success with
  | false => rw [(hno hsu).1] at hs'; simp at hs'
  | true =>
    refine ⟨run.x, -run.f, by rw [hr, (hok hsu).2], ?_⟩
    have hh : cccFeas.holds run.x := by
      rw [hrun] at hsu ⊢; exact hopt _ _ _ hsu
    obtain ⟨hb, hi⟩ := hh
    simp only [cccFeas, List.zip_cons_cons, List.zip_nil_right, List.forall_mem_cons, List.zip_nil_left] at hb hi
    refine ⟨garchAdm_of hb.2.1.1 hb.2.2.1 hb.2.2.2.1 hi.1, garchAdm_of hb.2.2.2.2.2.1.1 hb.2.2.2.2.2.2.1
      hb.2.2.2.2.2.2.2.1 hi.2.1, ?_⟩
    obtain ⟨x, e, hx, hx'⟩ := fin_of_between hb.2.2.2.2.2.2.2.2.1.1 hb.2.2.2.2.2.2.2.2.1.2
    exact ⟨x, e, abs_le.mpr ⟨hx, hx'⟩⟩

/-- C125. The dynamics of a DCC model estimated with an optimiser that honours bounds and constraints are
admissible (either univariate model). -/
theorem C125_dcc {V : Type} (cpp : Bool) (fitU : GarchObj V → Except PyErr (GarchObj V))
    (opt : Optimizer (XR × XR)) (hopt : Honours opt) (o o' : DccObj V) (r : DccPars V)
    (hs : o.success = false) (h : dccFit cpp fitU opt o = .ok (o', r)) (hs' : o'.success = true) :
    DccAdm r.a r.b := by
  obtain ⟨o1, st, o2, h1, h2, run, hrun, htr, hr, hcase⟩ := dccFit_cases (by simp [hs]) h
  rcases hcase with ⟨hsu, ho'⟩ | ⟨hsu, ho'⟩
  · have hh : dccFeas.holds run.x := by
      rw [hrun] at hsu ⊢; exact hopt _ _ _ hsu
    obtain ⟨hb, hi⟩ := hh
    simp only [dccFeas, List.zip_cons_cons, List.zip_nil_right, List.forall_mem_cons, List.zip_nil_left] at hb hi
    obtain ⟨x, e, hx, _⟩ := fin_of_between (a := 0) (b := 1) hb.1.1 hb.1.2
    obtain ⟨y, e', hy, _⟩ := fin_of_between (a := 0) (b := 1) hb.2.1.1 hb.2.1.2
    rw [hr, ho']
    refine ⟨x, y, e, e', hx, hy, ?_⟩
    have h4 := hi.1
    rw [e, e'] at h4
    simp only [XR.one_def, XR.zero_def, XR.fin_add, XR.fin_sub, XR.fin_le] at h4
    linarith
  · have hk := trace_keeps htr
    have hst := dccStart_keeps h2
    have hre := refit_keeps h1
    simp only [Keeps] at hst
    rw [ho', hk.1] at hs'
    simp only at hs'
    rw [hst.1, hre.1, hs] at hs'
    exact absurd hs' (by simp)

/-- CCC objects reachable from a fresh one by `fit` calls, with any univariate estimators and joint optimisers that
honour bounds and constraints -/
inductive CccHistory (cpp : Bool) : CccObj → Prop
  | fresh (m1 m2 : GarchObj GarchVar) : CccHistory cpp { model1 := m1, model2 := m2 }
  | fit (o o' : CccObj) (fitU : GarchObj GarchVar → Except PyErr (GarchObj GarchVar)) (opt : Optimizer CccVec)
      (r : Option (CccVec × XR)) : CccHistory cpp o → Honours opt → cccFit cpp fitU opt o = .ok (o', r) →
      CccHistory cpp o'

/-- C125. After any history of `fit` calls a CCC object either has no estimates (all NaN) and no success flag, or it
has the flag and admissible estimates; the next `fit` returns what the object then holds. -/
theorem C125_ccc_history (cpp : Bool) (o : CccObj) (h : CccHistory cpp o) :
    ((o.success = false ∧ o.params = none) ∨ (o.success = true ∧ ∃ p ll, o.params = some (p, ll) ∧ CccAdm p)) ∧
    ∀ fitU opt o' r, cccFit cpp fitU opt o = .ok (o', r) → r = o'.params := by
  have key : ∀ o fitU opt o' r, cccFit cpp fitU opt o = .ok (o', r) → r = o'.params := by
    intro o fitU opt o' r h
    cases hsu : o.success with
    | true =>
      rw [cccFit, if_pos hsu] at h
      injection h with h; injection h with h1 h2
      rw [← h1, ← h2]
    | false =>
      obtain ⟨_, _, _, _, _, _, _, _, _, _, hr, _⟩ := cccFit_cases hsu h
      exact hr
  refine ⟨?_, key o⟩
  induction h with
  | fresh m1 m2 => exact Or.inl ⟨rfl, rfl⟩
  | fit o o' fitU opt r _ hopt hf ih =>
    cases hsu : o.success with
    | true =>
      rw [cccFit, if_pos hsu] at hf
      injection hf with hf; injection hf with h1 h2
      rw [← h1]; exact ih
    | false =>
      have hr := key o fitU opt o' r hf
      obtain ⟨_, _, _, _, _, _, _, run, _, _, _, hok, hno⟩ := cccFit_cases hsu hf
      cases hrs : run.success with
      | true =>
        have hs' := (hok hrs).1
        obtain ⟨p, ll, e, ha⟩ := C125_ccc cpp fitU opt hopt o o' r hsu hf hs'
        exact Or.inr ⟨hs', p, ll, hr ▸ e, ha⟩
      | false =>
        rcases ih with ⟨_, h2⟩ | ⟨h1, _⟩
        · exact Or.inl ⟨(hno hrs).1, (hno hrs).2.trans h2⟩
        · rw [hsu] at h1; cases h1

/-- DCC objects reachable from a fresh one by calls of `fit` (with optimisers over `(a, b)` that honour bounds and
constraints) and of `conditional_correlations`, with any univariate estimators -/
inductive DccHistory (V : Type) (cpp : Bool) : DccObj V → Prop
  | fresh (m1 m2 : GarchObj V) : DccHistory V cpp { model1 := m1, model2 := m2 }
  | fit (o o' : DccObj V) (fitU : GarchObj V → Except PyErr (GarchObj V)) (opt : Optimizer (XR × XR))
      (r : DccPars V) : DccHistory V cpp o → Honours opt → dccFit cpp fitU opt o = .ok (o', r) → DccHistory V cpp o'
  | corr (o o' : DccObj V) (fitU : GarchObj V → Except PyErr (GarchObj V)) (a b : XR) (rho : List XR) :
      DccHistory V cpp o → condCorr cpp fitU o a b = .ok (o', rho) → DccHistory V cpp o'

/-- C125. After any history of `fit` and `conditional_correlations` calls a DCC object either reports NaN for `a`, `b`
and the log-likelihood and has no success flag, or it has the flag and admissible `a` and `b`. -/
theorem C125_dcc_history {V : Type} (cpp : Bool) (o : DccObj V) (h : DccHistory V cpp o) :
    (o.success = false ∧ o.params.a = .nan ∧ o.params.b = .nan ∧ o.params.ll = .nan) ∨
    (o.success = true ∧ DccAdm o.params.a o.params.b) := by
  induction h with
  | fresh m1 m2 => exact Or.inl ⟨rfl, rfl, rfl, rfl⟩
  | corr o o' fitU a b rho _ hc ih =>
    have hk : o'.success = o.success ∧ o'.params = o.params := by
      unfold condCorr at hc
      simp only [bind, Except.bind, pure, Except.pure] at hc
      cases hre : refit fitU o with
      | error e => rw [hre] at hc; cases hc
      | ok o1 =>
        have := refit_keeps hre
        rw [hre] at hc
        simp only at hc
        split at hc
        · cases hc
        · injection hc with hc; injection hc with h1 h2
          rw [← h1]; exact this
    rw [hk.1, hk.2]; exact ih
  | fit o o' fitU opt r _ hopt hf ih =>
    cases hsu : o.success with
    | true =>
      rw [dccFit, if_pos hsu] at hf
      injection hf with hf; injection hf with h1 h2
      rw [← h1]; exact ih
    | false =>
      have hadm := C125_dcc cpp fitU opt hopt o o' r hsu hf
      obtain ⟨o1, st, o2, h1, h2, run, hrun, htr, hr, hcase⟩ := dccFit_cases (by simp [hsu]) hf
      rcases hcase with ⟨_, ho'⟩ | ⟨_, ho'⟩
      · refine Or.inr ⟨by rw [ho'], ?_⟩
        rw [← hr]; exact hadm (by rw [ho'])
      · have hk := trace_keeps htr
        have hst := dccStart_keeps h2
        have hre := refit_keeps h1
        refine Or.inl ⟨?_, ?_⟩
        · rw [ho', hk.1]; exact (hst.1.trans hre.1).trans hsu
        · rw [ho', hk.2]; exact ⟨rfl, rfl, rfl⟩

/-! ### C126 -/

/-- successful minimisations return a point within the bounds passed -/
def PinHonours (mini : PinMinimizer) : Prop :=
  ∀ b f s, (mini b f s).success = true →
    ∀ q ∈ List.zip [(mini b f s).x.alpha, (mini b f s).x.delta, (mini b f s).x.eB, (mini b f s).x.eS,
      (mini b f s).x.mu] b, q.2.1 ≤ q.1 ∧ q.1 ≤ q.2.2

/-- a non-negative XR is a non-negative number or `+inf` -/
theorem nonneg_cases {x : XR} (h : 0 ≤ x) : x = .pinf ∨ ∃ r : ℝ, x = .fin r ∧ 0 ≤ r := by
  cases x with
  | nan => exact absurd h (by simp [LE.le, XR.le])
  | ninf => exact absurd h (by simp [LE.le, XR.le])
  | pinf => exact Or.inl rfl
  | fin r => exact Or.inr ⟨r, rfl, by simpa [XR.zero_def] using h⟩

/-- C126. With a minimiser that honours the bounds, the parameters returned by `estimate` are the all-NaN
default or lie in their ranges (two probabilities, three non-negative rates), and the reported probability
of informed trading is NaN or in [0, 1]; it is a number whenever the rates are finite and trades are possible
(some rate of uninformed arrival, or an information event, is positive). -/
theorem C126_range (mini : PinMinimizer) (hm : PinHonours mini) (o o' : PinObj) (method : String) (r : PinParams)
    (h : pinEstimate mini o method = .ok (o', r)) :
    r = {} ∨
    ((∃ a : ℝ, r.x.alpha = .fin a ∧ 0 ≤ a ∧ a ≤ 1) ∧ (∃ d : ℝ, r.x.delta = .fin d ∧ 0 ≤ d ∧ d ≤ 1) ∧
      0 ≤ r.x.eB ∧ 0 ≤ r.x.eS ∧ 0 ≤ r.x.mu ∧
      (r.pin = .nan ∨ ∃ q : ℝ, r.pin = .fin q ∧ 0 ≤ q ∧ q ≤ 1) ∧
      ∀ a b s m : ℝ, r.x.alpha = .fin a → r.x.eB = .fin b → r.x.eS = .fin s → r.x.mu = .fin m →
        0 < b + s + a * m → r.pin = .fin (a * m / (a * m + b + s))) := by
  by_cases hno : method ≠ "EHO2010" ∧ method ≠ "LK2011"
  · unfold pinEstimate at h; rw [if_pos hno] at h; cases h
  obtain ⟨o2, r2, e, _, h1, h2⟩ := C41_best mini o method (by tauto)
  rw [e] at h
  cases h
  by_cases hs : successes mini o.B o.S method = []
  · left; exact h1 hs
  · right
    obtain ⟨q, hq, hr, _⟩ := h2 hs
    simp only [successes, List.mem_filter, List.mem_map] at hq
    obtain ⟨⟨s, _, hqs⟩, hsu⟩ := hq
    have hh := hm pinBounds (if method = "EHO2010" then eho2010 o.B o.S else lk2011 o.B o.S) s
    rw [hqs] at hh
    have hb := hh hsu
    simp only [pinBounds, List.zip_cons_cons, List.zip_nil_right, List.forall_mem_cons, List.zip_nil_left] at hb
    obtain ⟨ha, hd, hB, hS, hmu, _⟩ := hb
    obtain ⟨a, ea, ha0, ha1⟩ := fin_of_between (a := 0) (b := 1) ha.1 ha.2
    obtain ⟨d, ed, hd0, hd1⟩ := fin_of_between (a := 0) (b := 1) hd.1 hd.2
    rw [hr]
    refine ⟨⟨a, ea, ha0, ha1⟩, ⟨d, ed, hd0, hd1⟩, hB.1, hS.1, hmu.1, ?_, ?_⟩
    · show calculatePin q.x = _ ∨ ∃ t : ℝ, calculatePin q.x = _ ∧ _
      have hx : ∀ x : PinVec, x.alpha = .fin a → 0 ≤ x.eB → 0 ≤ x.eS → 0 ≤ x.mu →
          (calculatePin x = .nan ∨ ∃ t : ℝ, calculatePin x = .fin t ∧ 0 ≤ t ∧ t ≤ 1) := by
        intro x e1 b0 s0 m0
        rcases x with ⟨xa, xd, xb, xs, xm⟩
        simp only at e1 b0 s0 m0
        subst e1
        have hs1 : ¬ a < 0 := not_lt.mpr ha0
        rcases nonneg_cases b0 with rfl | ⟨b, rfl, b1⟩ <;> rcases nonneg_cases s0 with rfl | ⟨s', rfl, s1⟩ <;>
          rcases nonneg_cases m0 with rfl | ⟨m, rfl, m1⟩
        case inr.inr.inr =>
          have := C40_probability ⟨a, 0, b, s', m⟩ ⟨ha0, b1, s1, m1⟩
          split_ifs at this
          · left; exact this
          · obtain ⟨t, e, t0, t1, _⟩ := this
            right; exact ⟨t, e, t0, t1⟩
        all_goals
          rcases eq_or_lt_of_le ha0 with e0 | e0
          · subst e0
            simp [calculatePin, HMul.hMul, Mul.mul, XR.mul, HAdd.hAdd, Add.add, XR.add, HDiv.hDiv, Div.div, XR.div,
              XR.infSign]
          · simp [calculatePin, HMul.hMul, Mul.mul, XR.mul, HAdd.hAdd, Add.add, XR.add, HDiv.hDiv, Div.div, XR.div,
              XR.infSign, e0, e0.ne', hs1]
      exact hx q.x ea hB.1 hS.1 hmu.1
    · intro a' b s' m e1 e2 e3 e4 hpos
      show calculatePin q.x = _
      simp only at e1 e2 e3 e4
      simp only [calculatePin, e1, e2, e3, e4, XR.fin_mul, XR.fin_add]
      rw [XR.fin_div _ (by linarith : a' * m + b + s' > 0).ne']

/-! ### the hypotheses are met -/

/-- an optimiser that tries a fixed point and reports success if it is feasible -/
def fixedOpt {P : Type} (x : P) : Optimizer P := fun c f _ =>
  { trace := [x], x := x, f := f x, success := decide (c.holds x) }

theorem fixedOpt_honours {P : Type} (x : P) : Honours (fixedOpt x) := by
  intro c f x0 h
  exact decide_eq_true_eq.mp h

theorem fixedOpt_truthful {P : Type} (x : P) : Truthful (fixedOpt x) := fun _ _ _ => rfl

/-- a feasible GARCH parameter set -/
def goodVar : GarchVar := ⟨.fin 1, .fin (1 / 10), .fin (8 / 10)⟩

theorem good_holds : (garchFeas false).holds (0, goodVar) := by
  constructor
  · simp only [garchFeas, goodVar, Bool.false_eq_true, if_false, id, List.cons_append, List.nil_append,
      List.zip_cons_cons, List.zip_nil_right, List.forall_mem_cons, XR.zero_def, XR.one_def, micro, XR.fin_le]
    refine ⟨⟨trivial, trivial⟩, ⟨by norm_num, trivial⟩, by norm_num, by norm_num, by simp⟩
  · intro g hg
    simp only [garchFeas, List.mem_singleton] at hg
    subst hg
    simp only [goodVar, XR.zero_def, XR.one_def, XR.fin_add, XR.fin_sub, XR.fin_le]
    norm_num

/-- a GARCH estimation that succeeds with an honest optimiser -/
theorem Feasible.garch_demo (cpp : Bool) : ∃ o, HonestHistory (garchFit cpp) o ∧ o.success = true ∧
    ∃ ll, o.params = some (0, goodVar, ll) := by
  let o : GarchObj GarchVar := { returns := [2, -1, -1].map XR.fin, zeroMean := false, resids := [], sigma2 := [] }
  obtain ⟨o', ret, hf⟩ := garchFit_total cpp (fixedOpt (0, goodVar)) o [2, -1, -1] rfl rfl
    (by show ∃ r ∈ prep false [(2 : ℝ), -1, -1], r ≠ 0
        rw [prep_demo]; exact ⟨2, by simp, by norm_num⟩)
  obtain ⟨_, bc, vb, x0, run, he, _⟩ := (C71_garch_fit cpp _ o o' ret hf).2 rfl
  have hrun := he.run_eq
  have hsu : run.success = true := by
    rw [hrun]
    exact decide_eq_true good_holds
  obtain ⟨h1, h2, _⟩ := he.success hsu
  refine ⟨o', .step o o' _ ret (fixedOpt_honours _) (.fresh o rfl rfl) hf, h1, -run.f, ?_⟩
  rw [h2, hrun]
  rfl

/-- the log-likelihood reported for three returns -/
example (cpp : Bool) : ∃ o' : GarchObj GarchVar, o'.success = true ∧ ∃ mu v ll, o'.params = some (mu, v, ll) ∧
    ∀ s2, garchVariance cpp v o'.resids o'.backcast (o'.bounds.getD []) = .ok s2 → ll = loglik o'.resids s2 := by
  let o : GarchObj GarchVar := { returns := [2, -1, -1].map XR.fin, zeroMean := false, resids := [], sigma2 := [] }
  obtain ⟨o', ret, hf⟩ := garchFit_total cpp (fixedOpt (0, goodVar)) o [2, -1, -1] rfl rfl
    (by show ∃ r ∈ prep false [(2 : ℝ), -1, -1], r ≠ 0
        rw [prep_demo]; exact ⟨2, by simp, by norm_num⟩)
  obtain ⟨_, bc, vb, x0, run, he, _⟩ := (C71_garch_fit cpp _ o o' ret hf).2 rfl
  have hsu : run.success = true := by
    rw [he.run_eq]
    exact decide_eq_true good_holds
  obtain ⟨mu, v, ll, h1, -, h2⟩ := C71_reported_garch cpp _ (fixedOpt_truthful _) o o' ret rfl hf (he.success hsu).1
  exact ⟨o', (he.success hsu).1, mu, v, ll, h1, h2⟩

/-- a feasible CCC parameter vector -/
def goodCcc : CccVec := ⟨.fin 0, goodVar, .fin 0, goodVar, .fin (1 / 2)⟩

theorem goodCcc_holds : cccFeas.holds goodCcc := by
  constructor
  · simp only [cccFeas, goodCcc, goodVar, List.zip_cons_cons, List.zip_nil_right, List.forall_mem_cons, XR.zero_def,
      XR.one_def, micro, XR.fin_le]
    refine ⟨⟨trivial, trivial⟩, ⟨by norm_num, trivial⟩, by norm_num, by norm_num, ⟨trivial, trivial⟩,
      ⟨by norm_num, trivial⟩, by norm_num, by norm_num, by norm_num, by simp⟩
  · intro g hg
    simp only [cccFeas, List.mem_cons, List.not_mem_nil, or_false] at hg
    rcases hg with rfl | rfl <;>
      simp only [goodCcc, goodVar, XR.zero_def, XR.one_def, XR.fin_add, XR.fin_sub, XR.fin_le] <;> norm_num

/-- a CCC estimation that succeeds with an honest and truthful optimiser; the objective has a value there -/
theorem Feasible.ccc_demo (cpp : Bool) : ∃ (o o' : CccObj) (ll v : XR), o.success = false ∧
    cccFit cpp (uFit cpp (fixedOpt (0, goodVar))) (fixedOpt goodCcc) o = .ok (o', some (goodCcc, ll)) ∧
    o'.success = true ∧ cccObjective cpp o'.model1.returns o'.model2.returns goodCcc 0 0 [] [] = .ok v ∧
    Honours (fixedOpt goodCcc) ∧ Truthful (fixedOpt goodCcc) ∧ CccHistory cpp o := by
  let m1 : GarchObj GarchVar :=
    { returns := [2, -1, -1].map XR.fin, zeroMean := false, resids := [1, -1, 1].map XR.fin,
      sigma2 := [1, 1, 1].map XR.fin, success := true, params := some (0, goodVar, 0) }
  have hval := fun bc1 bc2 vb1 vb2 => C80_value cpp [2, -1, -1] [2, -1, -1] rfl 0 0 1 (1 / 10) (8 / 10) 1 (1 / 10)
    (8 / 10) (1 / 2) (by norm_num) (by norm_num) (by norm_num) (by norm_num) (by norm_num) (by norm_num)
    (by rw [abs_of_pos] <;> norm_num) ⟨2, by simp, by norm_num⟩ ⟨2, by simp, by norm_num⟩ bc1 bc2 vb1 vb2
  have hu : uFit cpp (fixedOpt (0, goodVar)) m1 = .ok m1 := by
    simp [uFit, garchFit, m1, bind, Except.bind, pure, Except.pure]
  obtain ⟨_, _, _, _, _, _, e⟩ := hval m1.backcast m1.backcast (m1.bounds.getD []) (m1.bounds.getD [])
  obtain ⟨_, _, _, _, _, _, e'⟩ := hval 0 0 [] []
  let ll : XR := -(match cccObjective cpp m1.returns m1.returns goodCcc m1.backcast m1.backcast (m1.bounds.getD [])
      (m1.bounds.getD []) with | .ok v => v | .error _ => .nan)
  refine ⟨⟨m1, m1, false, none⟩, ⟨m1, m1, true, some (goodCcc, ll)⟩, ll, _, rfl, ?_, rfl, e', fixedOpt_honours _,
    fixedOpt_truthful _, .fresh m1 m1⟩
  · unfold cccFit
    rw [if_neg (by simp)]
    simp only [bind, Except.bind, pure, Except.pure]
    rw [hu]
    simp only
    rw [if_neg (by simp)]
    have hr : ∀ x0 : CccVec, runOpt (fixedOpt goodCcc) cccFeas (fun p => cccObjective cpp m1.returns m1.returns p
        m1.backcast m1.backcast (m1.bounds.getD []) (m1.bounds.getD [])) x0
        = .ok ⟨[goodCcc], true, goodCcc, match cccObjective cpp m1.returns m1.returns goodCcc m1.backcast m1.backcast
          (m1.bounds.getD []) (m1.bounds.getD []) with | .ok v => v | .error _ => .nan⟩ := by
      intro x0
      unfold runOpt fixedOpt
      rw [decide_eq_true goodCcc_holds]
      have e2 : cccObjective cpp m1.returns m1.returns goodCcc m1.backcast m1.backcast (m1.bounds.getD [])
        (m1.bounds.getD []) = _ := e
      have e3 : ∀ g : CccVec → Except PyErr Unit, [goodCcc].forM g = (g goodCcc >>= fun _ => pure ()) := fun g => rfl
      dsimp only
      rw [e3]
      simp only [bind, Except.bind, pure, Except.pure]
      rw [e2]
    rw [hr]
    rfl

/-- a minimiser within the bounds -/
theorem Feasible.pin_demo : ∃ mini : PinMinimizer, PinHonours mini ∧ ∃ o o' r, pinEstimate mini o "LK2011" = .ok (o', r) ∧
    r.x = ⟨.fin (1 / 2), .fin (1 / 2), .fin 10, .fin 10, .fin 20⟩ := by
  let x : PinVec := ⟨.fin (1 / 2), .fin (1 / 2), .fin 10, .fin 10, .fin 20⟩
  let mini : PinMinimizer := fun b _ _ => ⟨decide (∀ q ∈ List.zip [x.alpha, x.delta, x.eB, x.eS, x.mu] b,
    q.2.1 ≤ q.1 ∧ q.1 ≤ q.2.2), x, 0⟩
  refine ⟨mini, fun b f s h => decide_eq_true_eq.mp h, ⟨[.fin 3], [.fin 4], false, {}⟩, ?_⟩
  obtain ⟨o', r, e, _, _, h2⟩ := C41_best mini ⟨[.fin 3], [.fin 4], false, {}⟩ "LK2011" (Or.inr rfl)
  have hx : (mini pinBounds (fun _ => 0) x).success = true := by
    refine decide_eq_true ?_
    simp only [pinBounds, x, List.zip_cons_cons, List.zip_nil_right, List.forall_mem_cons, XR.zero_def,
      XR.one_def, XR.fin_le]
    refine ⟨by norm_num, by norm_num, ⟨by norm_num, trivial⟩, ⟨by norm_num, trivial⟩, ⟨by norm_num, trivial⟩, by simp⟩
  have hne : successes mini [.fin 3] [.fin 4] "LK2011" ≠ [] := by
    have hm : pinStarts [.fin 3] [.fin 4] ≠ [] := by
      have hk := (C43_skipped (B := [3]) (S := [4]) (by simp) (by simp) (a := 0.1) (d := 0.1) (g := 0.9)
        (by simp [pinGrid, XR.ofSci_def]) (by simp [pinGrid, XR.ofSci_def]) (by simp [pinGrid, XR.ofSci_def])).mpr
        (by norm_num)
      exact List.ne_nil_of_mem hk
    obtain ⟨s, t, hs⟩ := List.exists_cons_of_ne_nil hm
    unfold successes
    rw [hs]
    simp only [List.map_cons]
    rw [List.filter_cons_of_pos]
    · simp
    · exact hx
  obtain ⟨q, hq, hr, _⟩ := h2 hne
  refine ⟨o', r, e, ?_⟩
  rw [hr]
  simp only [successes, List.mem_filter, List.mem_map] at hq
  obtain ⟨⟨s, _, rfl⟩, _⟩ := hq
  rfl

/-! ### Concrete cases of the theorems above -/

example (cpp : Bool) : ∃ o v, HonestHistory (garchFit cpp) o ∧ o.success = true ∧ GarchAdm v :=
  let ⟨o, h, hs, ll, hp⟩ := Feasible.garch_demo cpp
  ⟨o, _, h, hs, C125_garch cpp o h _ ll _ hp⟩
example (cpp : Bool) : ∃ p, CccAdm p :=
  let ⟨o, o', _, _, hs, h, hs', _, hh, _⟩ := Feasible.ccc_demo cpp
  let ⟨p, _, _, hp⟩ := C125_ccc cpp _ _ hh o o' _ hs h hs'
  ⟨p, hp⟩
/-- The reported log-likelihood is minus the objective at the reported point. -/
example (cpp : Bool) : ∃ (o o' : CccObj) (ll v : XR), cccFit cpp (uFit cpp (fixedOpt (0, goodVar))) (fixedOpt goodCcc) o =
      .ok (o', some (goodCcc, ll)) ∧ ll = -v ∧ cccObjective cpp o'.model1.returns o'.model2.returns goodCcc 0 0 [] [] = .ok v :=
  let ⟨o, o', ll, v, hs, h, hs', hv, _, ht, _⟩ := Feasible.ccc_demo cpp
  ⟨o, o', ll, v, h, C124_reported cpp _ _ ht o o' _ ll hs h hs' v 0 0 [] [] hv, hv⟩
example : ∃ (mini : PinMinimizer) (o o' : PinObj) (r : PinParams), pinEstimate mini o "LK2011" = .ok (o', r) ∧
    ∃ a : ℝ, r.x.alpha = .fin a ∧ 0 ≤ a ∧ a ≤ 1 := by
  obtain ⟨mini, hm, o, o', r, h, hx⟩ := Feasible.pin_demo
  refine ⟨mini, o, o', r, h, ?_⟩
  rcases C126_range mini hm o o' _ r h with h1 | h1
  · rw [hx]; exact ⟨1 / 2, rfl, by norm_num, by norm_num⟩
  · exact h1.1

end
end Frds.Props

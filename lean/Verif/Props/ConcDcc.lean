import Verif.Props.ConcGarchRace
import Verif.Props.DccTotal
import Verif.Model.ConcDcc

/-! C192: several threads fitting correlation models that share univariate models. -/
namespace Frds.Props
noncomputable section
open Frds Frds.Model Frds.Model.Conc Frds.Model.Shared Classical
set_option linter.unusedSimpArgs false
set_option linter.unusedVariables false

namespace ConcDcc
open Prog

variable {V ι κ A B τ : Type}

/-! #### programs that keep to one correlation model -/

/-- the two worlds agree on the correlation model `k` -/
def Same (k : κ) (w w' : World V ι κ) : Prop := w.success k = w'.success k ∧ w.params k = w'.params k

/-- the second world differs from the first in the correlation model `k` only -/
def Local (k : κ) (w w' : World V ι κ) : Prop :=
  w'.model = w.model ∧ ∀ k', k' ≠ k → w'.success k' = w.success k' ∧ w'.params k' = w.params k'

/-- as long as the univariate models are `M`, the call depends on and writes nothing but the correlation model `k` -/
def Own (M : ι → GarchObj V) (k : κ) : Prog (World V ι κ) A → Prop
  | .done _ => True
  | .read c => (∀ w w' : World V ι κ, w.model = M → w'.model = M → Same k w w' → c w = c w') ∧ ∀ w : World V ι κ, w.model = M → Own M k (c w)
  | .write f p => (∀ w : World V ι κ, w.model = M → Local k w (f w)) ∧
      (∀ w w' : World V ι κ, w.model = M → w'.model = M → Same k w w' → Same k (f w) (f w')) ∧ Own M k p

section
variable {M : ι → GarchObj V} {k : κ}

theorem Same.refl (w : World V ι κ) : Same k w w := ⟨rfl, rfl⟩

theorem Own.bind {m : Prog (World V ι κ) A} {f : A → Prog (World V ι κ) B} (hm : Own M k m) (hf : ∀ a, Own M k (f a)) :
    Own M k (bind' m f) := by
  induction m with
  | done r => cases r with
    | ok a => exact hf a
    | error e => trivial
  | read c ih => exact ⟨fun w w' h h' hs => by simp only [hm.1 w w' h h' hs], fun w hw => ih w (hm.2 w hw)⟩
  | write g c ih => exact ⟨hm.1, hm.2.1, ih hm.2.2⟩

/-- a call that reads a value depending only on the univariate models and on `k` -/
theorem Own.read {c : World V ι κ → Prog (World V ι κ) B}
    (h1 : ∀ w w' : World V ι κ, w.model = M → w'.model = M → Same k w w' → c w = c w')
    (h2 : ∀ w : World V ι κ, w.model = M → Own M k (c w)) : Own M k (bind' Prog.get c) := ⟨h1, h2⟩

theorem Own.lift (x : Except PyErr A) : Own M k (Prog.lift x : Prog (World V ι κ) A) := trivial

theorem Own.put {f : World V ι κ → World V ι κ} (h1 : ∀ w : World V ι κ, w.model = M → Local k w (f w))
    (h2 : ∀ w w' : World V ι κ, w.model = M → w'.model = M → Same k w w' → Same k (f w) (f w')) : Own M k (Prog.put f) :=
  ⟨h1, h2, trivial⟩

theorem Own.run {p : Prog (World V ι κ) A} (hp : Own M k p) {w w' : World V ι κ} (h : w.model = M) (h' : w'.model = M)
    (hs : Same k w w') : (p.run w).2 = (p.run w').2 ∧ Same k (p.run w).1 (p.run w').1 := by
  induction p generalizing w w' with
  | done r => exact ⟨rfl, hs⟩
  | read c ih =>
    show ((c w).run w).2 = ((c w').run w').2 ∧ Same k ((c w).run w).1 ((c w').run w').1
    rw [← hp.1 w w' h h' hs]
    exact ih w (hp.2 w h) h h' hs
  | write f c ih =>
    exact ih hp.2.2 ((hp.1 w h).1.trans h) ((hp.1 w' h').1.trans h') (hp.2.1 w w' h h' hs)

theorem Own.model {p : Prog (World V ι κ) A} (hp : Own M k p) {w : World V ι κ} (h : w.model = M) : (p.run w).1.model = M := by
  induction p generalizing w with
  | done r => exact h
  | read c ih => exact ih w (hp.2 w h) h
  | write f c ih => exact ih hp.2.2 ((hp.1 w h).1.trans h)

/-- under every schedule each thread gets what it gets alone -/
theorem Own.sound {obj : τ → κ} (hinj : ∀ t t', obj t = obj t' → t = t') {c : Sys τ (World V ι κ) A}
    (hm : c.shared.model = M) (ho : ∀ t, Own M (obj t) (c.thread t)) (sched : List τ) :
    (c.exec sched).shared.model = M ∧ (∀ t, Own M (obj t) ((c.exec sched).thread t)) ∧
    (∀ k, (∀ t, obj t ≠ k) → Same k (c.exec sched).shared c.shared) ∧
    ∀ t, (((c.exec sched).thread t).run (c.exec sched).shared).2 = ((c.thread t).run c.shared).2 ∧
      Same (obj t) (((c.exec sched).thread t).run (c.exec sched).shared).1 ((c.thread t).run c.shared).1 := by
  induction sched generalizing c with
  | nil => exact ⟨hm, ho, fun k _ => Same.refl _, fun t => ⟨rfl, Same.refl _⟩⟩
  | cons j l ih =>
    have key : (c.tick j).shared.model = M ∧ (∀ t, Own M (obj t) ((c.tick j).thread t)) ∧
        (∀ k, (∀ t, obj t ≠ k) → Same k (c.tick j).shared c.shared) ∧
        ∀ t, (((c.tick j).thread t).run (c.tick j).shared).2 = ((c.thread t).run c.shared).2 ∧
          Same (obj t) (((c.tick j).thread t).run (c.tick j).shared).1 ((c.thread t).run c.shared).1 := by
      have hj := ho j
      cases hp : c.thread j with
      | done r => rw [Sys.tick_done hp]; exact ⟨hm, ho, fun k _ => Same.refl _, fun t => ⟨rfl, Same.refl _⟩⟩
      | read d =>
        rw [hp] at hj
        rw [Sys.tick_read hp]
        refine ⟨hm, fun t => ?_, fun k _ => Same.refl _, fun t => ?_⟩
        · by_cases hi : t = j
          · subst hi; simpa using hj.2 _ hm
          · simpa [Function.update_of_ne hi] using ho t
        · by_cases hi : t = j
          · subst hi
            have e : Function.update c.thread t (d c.shared) t = d c.shared := Function.update_self ..
            simp only
            rw [e, hp]
            exact ⟨rfl, Same.refl _⟩
          · simp only [Function.update_of_ne hi]
            exact ⟨trivial, Same.refl _⟩
      | write f d =>
        rw [hp] at hj
        rw [Sys.tick_write hp]
        have hl := hj.1 _ hm
        refine ⟨hl.1.trans hm, fun t => ?_, fun k hk => ?_, fun t => ?_⟩
        · by_cases hi : t = j
          · subst hi; simpa using hj.2.2
          · simpa [Function.update_of_ne hi] using ho t
        · exact hl.2 k (fun h => hk j h.symm)
        · by_cases hi : t = j
          · subst hi
            have e : Function.update c.thread t d t = d := Function.update_self ..
            simp only
            rw [e, hp]
            exact ⟨rfl, Same.refl _⟩
          · simp only [Function.update_of_ne hi]
            exact (ho t).run (hl.1.trans hm) hm (hl.2 _ fun h => hi (hinj _ _ h))
    obtain ⟨k1, k2, k3, k4⟩ := key
    obtain ⟨l1, l2, l3, l4⟩ := ih k1 k2
    refine ⟨l1, l2, fun k hk => ?_, fun t => ?_⟩
    · have a := l3 k hk
      have b := k3 k hk
      exact ⟨a.1.trans b.1, a.2.trans b.2⟩
    · have a := l4 t
      have b := k4 t
      exact ⟨a.1.trans b.1, a.2.1.trans b.2.1, a.2.2.trans b.2.2⟩

/-! #### estimated univariate models -/

/-- a fit of an estimated univariate model returns at once -/
theorem run_onModel (i : ι) (m : Prog (GarchObj V) A) (w : World V ι κ) :
    (onModel i m).run w = (pushModel i w (m.run (w.model i)).1, (m.run (w.model i)).2) := by
  induction m generalizing w with
  | done r =>
    refine Prod.ext ?_ rfl
    show w = pushModel i w (w.model i)
    cases w with
    | mk md sc ps =>
      unfold pushModel
      congr 1
      funext j
      by_cases h : j = i
      · subst h; simp
      · simp [h]
  | read c ih => exact ih _ w
  | write f c ih =>
    show (onModel i c).run (pushModel i w (f (w.model i))) = _
    rw [ih]
    have e : (pushModel i w (f (w.model i))).model i = f (w.model i) := by simp [pushModel]
    rw [e]
    refine Prod.ext ?_ rfl
    unfold pushModel
    simp only
    congr 1
    funext j
    by_cases h : j = i <;> simp [h] <;> rfl

theorem pushModel_self (i : ι) (w : World V ι κ) : pushModel i w (w.model i) = w := by
  cases w with
  | mk md sc ps =>
    unfold pushModel
    congr 1
    funext j
    by_cases h : j = i
    · subst h; simp
    · simp [h]

/-- the fit reads that the model is estimated and returns -/
def Idle (fitU : Prog (GarchObj V) A) (m : GarchObj V) : Prop := ∃ (c : GarchObj V → Prog (GarchObj V) A) (a : A),
  fitU = .read c ∧ c m = .done (.ok a)

theorem Idle.own {fitU : Prog (GarchObj V) A} {i : ι} (h : Idle fitU (M i)) : Own M k (onModel (κ := κ) i fitU) := by
  obtain ⟨c, a, rfl, hc⟩ := h
  refine ⟨fun w w' hw hw' _ => ?_, fun w hw => ?_⟩
  · simp only [hw, hw']
  · simp only [hw, hc]; trivial

theorem Idle.run {fitU : Prog (GarchObj V) A} {i : ι} {w : World V ι κ} (h : Idle fitU (w.model i)) :
    ∃ a, (onModel i fitU).run w = (w, .ok a) := by
  obtain ⟨c, a, rfl, hc⟩ := h
  refine ⟨a, ?_⟩
  rw [run_onModel]
  show (pushModel i w ((c (w.model i)).run (w.model i)).1, ((c (w.model i)).run (w.model i)).2) = _
  rw [hc]
  simp only [Prog.run, pushModel_self]

variable {cpp : Bool} {fitU : Prog (GarchObj V) A} {wire : κ → ι × ι}

theorem own_corr (h1 : Idle fitU (M (wire k).1)) (h2 : Idle fitU (M (wire k).2)) (a b : XR) :
    Own M k (condCorrProg cpp fitU wire k a b) := by
  unfold condCorrProg
  simp only [Prog.bind_eq]
  refine h1.own.bind fun _ => h2.own.bind fun _ => ?_
  refine Own.read (fun w w' hw hw' _ => by simp only [hw, hw']) fun w1 hw1 => ?_
  refine Own.read (fun w w' hw hw' _ => by simp only [hw, hw']) fun w2 hw2 => ?_
  refine Own.read (fun w w' hw hw' _ => by simp only [hw, hw']) fun w3 hw3 => ?_
  refine Own.read (fun w w' hw hw' _ => by simp only [hw, hw']) fun w4 hw4 => ?_
  exact Own.lift _

theorem own_eval (h1 : Idle fitU (M (wire k).1)) (h2 : Idle fitU (M (wire k).2)) (p : XR × XR) :
    Own M k (dccEvalProg cpp fitU wire k p) := by
  unfold dccEvalProg
  simp only [Prog.bind_eq]
  refine Own.read (fun w w' hw hw' _ => by simp only [hw, hw']) fun w1 hw1 => ?_
  refine Own.read (fun w w' hw hw' _ => by simp only [hw, hw']) fun w2 hw2 => ?_
  refine Own.read (fun w w' hw hw' _ => by simp only [hw, hw']) fun w3 hw3 => ?_
  refine Own.read (fun w w' hw hw' _ => by simp only [hw, hw']) fun w4 hw4 => ?_
  refine Own.read (fun w w' hw hw' _ => by simp only [hw, hw']) fun w5 hw5 => ?_
  refine Own.read (fun w w' hw hw' _ => by simp only [hw, hw']) fun w6 hw6 => ?_
  exact (own_corr h1 h2 _ _).bind fun _ => Own.lift _

theorem own_grid (h1 : Idle fitU (M (wire k).1)) (h2 : Idle fitU (M (wire k).2)) (l : List (ℝ × ℝ)) (best : ℝ × ℝ) :
    Own M k (dccGridProg cpp fitU wire k best l) := by
  induction l generalizing best with
  | nil => rw [dccGridProg]; trivial
  | cons p ps ih =>
    rw [dccGridProg]
    by_cases hp : 1 ≤ p.1 + p.2
    · rw [if_pos hp]; exact ih best
    · rw [if_neg hp]
      exact (own_eval h1 h2 _).bind fun v => ih _

theorem own_opt (h1 : Idle fitU (M (wire k).1)) (h2 : Idle fitU (M (wire k).2)) (t : Opt (XR × XR)) :
    Own M k (dccOptProg cpp fitU wire k t) := by
  induction t with
  | done s x f => rw [dccOptProg]; trivial
  | ask p c ih => rw [dccOptProg]; exact (own_eval h1 h2 _).bind fun v => ih v

theorem own_setParams (f : DccPars V → DccPars V) : Own M k (Prog.put (setParams (ι := ι) k f)) := by
  refine Own.put (fun w hw => ⟨rfl, fun k' hk => ⟨rfl, ?_⟩⟩) fun w w' hw hw' hs => ⟨hs.1, ?_⟩
  · simp [setParams, hk]
  · simp [setParams, hs.2]

theorem own_setSuccess : Own M k (Prog.put (setSuccess (V := V) (ι := ι) k)) := by
  refine Own.put (fun w hw => ⟨rfl, fun k' hk => ⟨?_, rfl⟩⟩) fun w w' hw hw' hs => ⟨?_, hs.2⟩
  · simp [setSuccess, hk]
  · simp [setSuccess]

theorem own_store (r : Bool × (XR × XR) × XR) : Own M k (dccStoreProg (V := V) (ι := ι) k r) := by
  unfold dccStoreProg
  by_cases h : r.1 = true
  · rw [if_pos h]
    simp only [Prog.bind_eq]
    exact own_setSuccess.bind fun _ => (own_setParams _).bind fun _ => (own_setParams _).bind fun _ => own_setParams _
  · rw [if_neg h]; trivial

theorem own_fit (h1 : Idle fitU (M (wire k).1)) (h2 : Idle fitU (M (wire k).2)) (st : Strategy (XR × XR)) :
    Own M k (dccFitProg cpp fitU st wire k) := by
  unfold dccFitProg
  simp only [Prog.bind_eq]
  refine Own.read (fun w w' hw hw' hs => by simp only [hs.1]) fun w hw => ?_
  by_cases h : w.success k = true
  · rw [if_pos h]
    exact Own.read (fun w w' hw hw' hs => by simp only [hs.2]) fun w hw => trivial
  · rw [if_neg h]
    refine h1.own.bind fun _ => h2.own.bind fun _ => (own_grid h1 h2 _ _).bind fun x0 => ?_
    refine Own.read (fun w w' hw hw' _ => by simp only [hw, hw']) fun w1 hw1 => ?_
    refine Own.read (fun w w' hw hw' _ => by simp only [hw, hw']) fun w2 hw2 => ?_
    refine (own_setParams _).bind fun _ => (own_opt h1 h2 _).bind fun r => (own_store r).bind fun _ => ?_
    exact Own.read (fun w w' hw hw' hs => by simp only [hs.2]) fun w hw => trivial

/-! #### alone -/

/-- the objective of the correlation model, when nothing is fitted any more -/
def value (cpp : Bool) (m1 m2 : GarchObj V) (p : XR × XR) : Except PyErr XR := do
  let rho ← dccKernel cpp p.1 p.2 (stdResid m1.resids m1.sigma2) (stdResid m2.resids m2.sigma2)
  dccValue (stdResid m1.resids m1.sigma2) (stdResid m2.resids m2.sigma2) (llOf m1 + llOf m2) rho

/-- evaluate the objective at some points -/
def evalAll (cpp : Bool) (m1 m2 : GarchObj V) : List (XR × XR) → Except PyErr Unit
  | [] => .ok ()
  | p :: ps => do
    let _ ← value cpp m1 m2 p
    evalAll cpp m1 m2 ps

theorem run_eval {w : World V ι κ} (h1 : Idle fitU (w.model (wire k).1)) (h2 : Idle fitU (w.model (wire k).2)) (p : XR × XR) :
    (dccEvalProg cpp fitU wire k p).run w = (w, value cpp (w.model (wire k).1) (w.model (wire k).2) p) := by
  obtain ⟨a1, e1⟩ := h1.run
  obtain ⟨a2, e2⟩ := h2.run
  unfold dccEvalProg condCorrProg value
  simp only [Prog.bind_eq, Prog.run_bind, Prog.run_get, Prog.run_lift, e1, e2]
  cases dccKernel cpp p.1 p.2 (stdResid (w.model (wire k).1).resids (w.model (wire k).1).sigma2)
    (stdResid (w.model (wire k).2).resids (w.model (wire k).2).sigma2) with
  | error e => rfl
  | ok rho => simp only [bind, Except.bind]

theorem run_grid {w : World V ι κ} (h1 : Idle fitU (w.model (wire k).1)) (h2 : Idle fitU (w.model (wire k).2))
    (l : List (ℝ × ℝ)) (best : ℝ × ℝ) : (dccGridProg cpp fitU wire k best l).run w =
    (w, l.foldlM (m := Except PyErr) (fun best p => if 1 ≤ p.1 + p.2 then .ok best else do
      let v ← value cpp (w.model (wire k).1) (w.model (wire k).2) (.fin p.1, .fin p.2)
      return if .ninf < -v then p else best) best) := by
  induction l generalizing best with
  | nil => rw [dccGridProg]; rfl
  | cons p ps ih =>
    rw [dccGridProg, List.foldlM_cons]
    by_cases hp : 1 ≤ p.1 + p.2
    · rw [if_pos hp, if_pos hp, ih]; rfl
    · rw [if_neg hp, if_neg hp, Prog.run_bind, run_eval h1 h2]
      cases value cpp (w.model (wire k).1) (w.model (wire k).2) (.fin p.1, .fin p.2) with
      | error e => rfl
      | ok v => simp only [bind, Except.bind, pure, Except.pure]; exact ih _

theorem run_opt {w : World V ι κ} (h1 : Idle fitU (w.model (wire k).1)) (h2 : Idle fitU (w.model (wire k).2))
    (t : Opt (XR × XR)) (g : XR × XR → XR)
    (hg : ∀ p v, value cpp (w.model (wire k).1) (w.model (wire k).2) p = .ok v → g p = v) :
    (dccOptProg cpp fitU wire k t).run w = (w, do
      evalAll cpp (w.model (wire k).1) (w.model (wire k).2) (t.run g).trace
      return ((t.run g).success, (t.run g).x, (t.run g).f)) := by
  induction t with
  | done s x f => rw [dccOptProg]; rfl
  | ask p c ih =>
    rw [dccOptProg, Prog.run_bind, run_eval h1 h2]
    cases hv : value cpp (w.model (wire k).1) (w.model (wire k).2) p with
    | error e =>
      simp only [Opt.run, evalAll, hv, bind, Except.bind]
    | ok v =>
      have := hg p v hv
      simp only [Opt.run, evalAll, hv, bind, Except.bind, pure, Except.pure]
      rw [this, ih v]
      simp only [bind, Except.bind, pure, Except.pure]

/-! #### the sequential model -/

theorem refit_idle {f : GarchObj V → Except PyErr (GarchObj V)} {o : DccObj V} (h1 : f o.model1 = .ok o.model1)
    (h2 : f o.model2 = .ok o.model2) : refit f o = .ok o := by
  unfold refit
  simp only [bind, Except.bind, h1, h2, pure, Except.pure]

theorem objective_idle {f : GarchObj V → Except PyErr (GarchObj V)} {o : DccObj V} (h1 : f o.model1 = .ok o.model1)
    (h2 : f o.model2 = .ok o.model2) (p : XR × XR) : dccObjective cpp f o p = (do
      let v ← value cpp o.model1 o.model2 p
      return (o, v)) := by
  unfold dccObjective condCorr value
  simp only [bind, Except.bind, refit_idle h1 h2, pure, Except.pure]
  cases dccKernel cpp p.1 p.2 (stdResid o.model1.resids o.model1.sigma2) (stdResid o.model2.resids o.model2.sigma2) with
  | error e => rfl
  | ok rho =>
    simp only [dccValue]
    split_ifs <;> rfl

theorem start_idle {f : GarchObj V → Except PyErr (GarchObj V)} {o : DccObj V} (h1 : f o.model1 = .ok o.model1)
    (h2 : f o.model2 = .ok o.model2) (l : List (ℝ × ℝ)) (best : ℝ × ℝ) :
    l.foldlM (m := Except PyErr) (fun (st : DccObj V × (ℝ × ℝ)) p =>
      if 1 ≤ p.1 + p.2 then .ok st else do
        let r ← dccObjective cpp f st.1 (.fin p.1, .fin p.2)
        return (r.1, if .ninf < -r.2 then p else st.2)) (o, best) = (do
      let x ← l.foldlM (m := Except PyErr) (fun best p => if 1 ≤ p.1 + p.2 then .ok best else do
        let v ← value cpp o.model1 o.model2 (.fin p.1, .fin p.2)
        return if .ninf < -v then p else best) best
      return (o, x)) := by
  induction l generalizing best with
  | nil => rfl
  | cons p ps ih =>
    rw [List.foldlM_cons, List.foldlM_cons]
    by_cases hp : 1 ≤ p.1 + p.2
    · rw [if_pos hp, if_pos hp]; exact ih best
    · rw [if_neg hp, if_neg hp, objective_idle h1 h2]
      cases value cpp o.model1 o.model2 (.fin p.1, .fin p.2) with
      | error e => rfl
      | ok v => simp only [bind, Except.bind, pure, Except.pure]; exact ih _

theorem trace_idle {f : GarchObj V → Except PyErr (GarchObj V)} {o : DccObj V} (h1 : f o.model1 = .ok o.model1)
    (h2 : f o.model2 = .ok o.model2) (l : List (XR × XR)) :
    l.foldlM (m := Except PyErr) (fun (o : DccObj V) p => do
      let r ← dccObjective cpp f o p
      return r.1) o = (do
      evalAll cpp o.model1 o.model2 l
      return o) := by
  induction l with
  | nil => rfl
  | cons p ps ih =>
    rw [List.foldlM_cons, evalAll, objective_idle h1 h2]
    cases value cpp o.model1 o.model2 p with
    | error e => rfl
    | ok v => simp only [bind, Except.bind, pure, Except.pure]; exact ih

theorem run_store (r : Bool × (XR × XR) × XR) (w : World V ι κ) : (dccStoreProg k r).run w =
    (if r.1 then setParams k (fun q => { q with a := r.2.1.1, b := r.2.1.2, ll := -r.2.2 }) (setSuccess k w) else w, .ok ()) := by
  unfold dccStoreProg
  by_cases h : r.1 = true
  · rw [if_pos h, if_pos h]
    simp only [Prog.bind_eq, Prog.run_bind, Prog.run_put]
    refine Prod.ext ?_ rfl
    unfold setParams setSuccess
    simp only [if_true]
    congr 1
    funext k'
    by_cases hk : k' = k <;> simp [hk]
  · rw [if_neg h, if_neg h]; rfl

/-- a call of `fit` by itself is the sequential `fit` -/
theorem run_fit {f : GarchObj V → Except PyErr (GarchObj V)} (st : Strategy (XR × XR)) {w : World V ι κ}
    (h1 : Idle fitU (w.model (wire k).1)) (h2 : Idle fitU (w.model (wire k).2))
    (f1 : f (w.model (wire k).1) = .ok (w.model (wire k).1)) (f2 : f (w.model (wire k).2) = .ok (w.model (wire k).2)) :
    (((dccFitProg cpp fitU st wire k).run w).2 = (dccFit cpp f st.optimizer (pull wire k w)).map (·.2)) ∧
    ∀ o r, dccFit cpp f st.optimizer (pull wire k w) = .ok (o, r) →
      pull wire k ((dccFitProg cpp fitU st wire k).run w).1 = o := by
  unfold dccFitProg dccFit
  by_cases hs : w.success k = true
  · simp only [Prog.bind_eq, Prog.run_bind, Prog.run_get, hs, if_true]
    rw [if_pos (show (pull wire k w).success = true from hs)]
    exact ⟨rfl, fun o r h => by injection h with h; injection h with h h'⟩
  · obtain ⟨a1, e1⟩ := h1.run
    obtain ⟨a2, e2⟩ := h2.run
    rw [if_neg (show ¬ (pull wire k w).success = true from hs)]
    have hs' : w.success k = false := by simpa using hs
    simp only [Prog.bind_eq, Prog.run_bind, Prog.run_get, hs', Bool.false_eq_true, if_false, e1, e2, run_grid h1 h2]
    simp only [bind, Except.bind, refit_idle (o := pull wire k w) f1 f2]
    have est := start_idle (cpp := cpp) (o := pull wire k w) f1 f2 dccGrid (1 / 100, 8 / 10)
    unfold dccStart
    simp only [bind, Except.bind] at est ⊢
    rw [est]
    have em : (pull wire k w).model1 = w.model (wire k).1 ∧ (pull wire k w).model2 = w.model (wire k).2 := ⟨rfl, rfl⟩
    simp only [em]
    generalize hx : List.foldlM (m := Except PyErr) _ _ dccGrid = x
    cases x with
    | error e => exact ⟨rfl, fun o r h => by cases h⟩
    | ok x0 =>
      simp only [pure, Except.pure, Prog.run_put]
      generalize hq : ({ p1 := dropLl (w.model (wire k).1).params, p2 := dropLl (w.model (wire k).2).params } : DccPars V) = q
      have g1 : Idle fitU ((setParams k (fun _ => q) w).model (wire k).1) := h1
      have g2 : Idle fitU ((setParams k (fun _ => q) w).model (wire k).2) := h2
      have eo : ({ pull wire k w with params := q } : DccObj V) = pull wire k (setParams k (fun _ => q) w) := by
        unfold pull setParams; simp
      have eo' : (DccObj.mk (pull wire k w).model1 (pull wire k w).model2 (pull wire k w).success q : DccObj V) =
        pull wire k (setParams k (fun _ => q) w) := eo
      have eo2 : (DccObj.mk (pull wire k w).model1 (pull wire k w).model2 (pull wire k w).success
          { p1 := dropLl (pull wire k w).model1.params, p2 := dropLl (pull wire k w).model2.params } : DccObj V) =
          pull wire k (setParams k (fun _ => q) w) := by rw [← eo', ← hq]; rfl
      simp only [eo2]
      have f1' : f (pull wire k (setParams k (fun _ => q) w)).model1 = .ok (pull wire k (setParams k (fun _ => q) w)).model1 := f1
      have f2' : f (pull wire k (setParams k (fun _ => q) w)).model2 = .ok (pull wire k (setParams k (fun _ => q) w)).model2 := f2
      generalize hO : st.optimizer dccFeas _ (XR.fin x0.1, XR.fin x0.2) = R
      obtain ⟨g, hgv, hR⟩ : ∃ g : XR × XR → XR,
          (∀ p v, value cpp (w.model (wire k).1) (w.model (wire k).2) p = .ok v → g p = v) ∧
          (st dccFeas (.fin x0.1, .fin x0.2)).run g = R := by
        refine ⟨_, fun p v hv => ?_, hO⟩
        simp only [objective_idle f1' f2']
        have : value cpp (pull wire k (setParams k (fun _ => q) w)).model1 (pull wire k (setParams k (fun _ => q) w)).model2 p =
          .ok v := hv
        rw [this]
        rfl
      rw [run_opt g1 g2 _ g hgv, hR]
      have ets : ∀ l : List (XR × XR), _ := fun l => trace_idle (cpp := cpp) (o := pull wire k (setParams k (fun _ => q) w)) f1' f2' l
      have em2 : (pull wire k (setParams k (fun _ => q) w)).model1 = (setParams k (fun _ => q) w).model (wire k).1 ∧
        (pull wire k (setParams k (fun _ => q) w)).model2 = (setParams k (fun _ => q) w).model (wire k).2 := ⟨rfl, rfl⟩
      simp only [bind, Except.bind, pure, Except.pure, em2] at ets
      simp only [bind, Except.bind, pure, Except.pure]
      rw [ets]
      have hsk : (setParams k (fun _ => q) w).success k = false := hs'
      generalize setParams k (fun _ => q) w = W at hsk ⊢
      cases evalAll cpp (W.model (wire k).1) (W.model (wire k).2) R.trace with
      | error e => exact ⟨rfl, fun o r h => by cases h⟩
      | ok u =>
        simp only [run_store]
        by_cases hR : R.success = true
        · simp only [hR, if_true]
          refine ⟨?_, ?_⟩
          · simp [Prog.run, Except.map, pull, setParams, setSuccess, Prog.pure_eq]
          · intro o r h
            injection h with h
            injection h with h h'
            rw [← h]
            simp [Prog.run, pull, setParams, setSuccess]
        · simp only [hR, if_false, Bool.false_eq_true]
          refine ⟨rfl, fun o r h => ?_⟩
          injection h with h
          injection h with h h'

/-! #### the univariate class `GARCHModel` -/

theorem idle_garch (cpp : Bool) (stU : Strategy (XR × GarchVar)) {m : GarchObj GarchVar} (h : m.success = true) :
    Idle (garchFitProg cpp stU) m := by
  refine ⟨_, none, rfl, ?_⟩
  show (if m.success = true then _ else _) = _
  rw [if_pos h]
  rfl

theorem uFit_success (cpp : Bool) (opt : Optimizer (XR × GarchVar)) {m : GarchObj GarchVar} (h : m.success = true) :
    uFit cpp opt m = .ok m := by
  unfold uFit garchFit
  rw [if_pos h]
  rfl

end

/-! #### a thread that gets part of the way -/

/-- acting alone, the call gets from one point and state to another -/
inductive Steps {S A : Type} : Prog S A → S → Prog S A → S → Prop
  | refl (p : Prog S A) (s : S) : Steps p s p s
  | read {c : S → Prog S A} {s : S} {p : Prog S A} {s' : S} (h : Steps (c s) s p s') : Steps (.read c) s p s'
  | write {f : S → S} {q : Prog S A} {s : S} {p : Prog S A} {s' : S} (h : Steps q (f s) p s') : Steps (.write f q) s p s'

section
variable {S : Type}

theorem Steps.trans {p q r : Prog S A} {s t u : S} (h : Steps p s q t) (h' : Steps q t r u) : Steps p s r u := by
  induction h with
  | refl => exact h'
  | read _ ih => exact .read (ih h')
  | write _ ih => exact .write (ih h')

theorem Steps.ex {p q : Prog S A} {s t u : S} (h : Steps p s q t) (h' : ∃ r, Steps q t r u) : ∃ r, Steps p s r u := by
  obtain ⟨r, h'⟩ := h'
  exact ⟨r, h.trans h'⟩

theorem Steps.bind {p q : Prog S A} {s t : S} (h : Steps p s q t) (k : A → Prog S B) : Steps (bind' p k) s (bind' q k) t := by
  induction h with
  | refl => exact .refl _ _
  | read _ ih => exact .read ih
  | write _ ih => exact .write ih

theorem Steps.run (p : Prog S A) (s : S) : Steps p s (.done (p.run s).2) (p.run s).1 := by
  induction p generalizing s with
  | done r => exact .refl _ _
  | read c ih => exact .read (ih s s)
  | write f c ih => exact .write (ih (f s))

/-- the first part of a call runs to its end -/
theorem Steps.first {m : Prog S A} {s t : S} {a : A} (h : m.run s = (t, .ok a)) (k : A → Prog S B) :
    Steps (bind' m k) s (k a) t := by
  have := (Steps.run m s).bind k
  rw [h] at this
  exact this

theorem Steps.onModel {p q : Prog (GarchObj V) A} {s t : GarchObj V} (h : Steps p s q t) (i : ι) (w : World V ι κ)
    (hw : w.model i = s) : Steps (Conc.onModel i p) w (Conc.onModel i q) (pushModel i w t) := by
  induction h generalizing w with
  | refl p s => rw [← hw, pushModel_self]; exact .refl _ _
  | read h ih => refine .read ?_; rw [hw]; exact ih w hw
  | @write f q s p s' h ih =>
    refine .write ?_
    have := ih (pushModel i w (f s)) (by simp [pushModel])
    rw [hw]
    have e : pushModel i (pushModel i w (f s)) s' = pushModel i w s' := by
      unfold pushModel
      simp only
      congr 1
      funext j
      by_cases h : j = i <;> simp [h]
    rw [e] at this
    exact this

theorem Steps.reaches {p q : Prog S A} {s t : S} (h : Steps p s q t) (c : Sys τ S A) (j : τ) (hp : c.thread j = p)
    (hs : c.shared = s) : Sys.Reaches c ⟨t, Function.update c.thread j q⟩ := by
  induction h generalizing c with
  | refl p s =>
    refine ⟨[], ?_⟩
    rw [Sys.exec_nil, ← hp, ← hs, Function.update_eq_self]
  | @read d s p s' h ih =>
    obtain ⟨l, hl⟩ := ih (c.tick j) (by rw [Sys.tick_read hp]; simp [hs]) (by rw [Sys.tick_read hp]; exact hs)
    refine ⟨j :: l, ?_⟩
    rw [Sys.exec_cons, hl, Sys.tick_read hp]
    simp
  | @write f q s p s' h ih =>
    obtain ⟨l, hl⟩ := ih (c.tick j) (by rw [Sys.tick_write hp]; simp) (by rw [Sys.tick_write hp, hs])
    refine ⟨j :: l, ?_⟩
    rw [Sys.exec_cons, hl, Sys.tick_write hp]
    simp

end

/-- the state of a univariate model in the middle of the lines that store its estimates -/
def half (o : GarchObj V) (bc : XR) (vb : List (XR × XR)) (s2 : List XR) : GarchObj V :=
  { o with backcast := bc, bounds := some vb, sigma2 := s2, success := true }

/-- a thread scheduled alone gets to the point between the lines `self.estimation_success = True` and `self.parameters = …` -/
theorem to_half {cpp : Bool} {stU : Strategy (XR × GarchVar)} {o o' : GarchObj GarchVar}
    {ret : Option (Option (XR × GarchVar × XR))} (hs : o.success = false)
    (hf : garchFit cpp stU.optimizer o = .ok (o', ret)) (hs' : o'.success = true)
    (hst : ∃ vb v0, ConcGarch.Starts cpp (garchStart cpp) o vb v0) :
    ∃ vb p, Steps (garchFitProg cpp stU) o p (half o (backcast (prepResids o)) vb o'.sigma2) := by
  obtain ⟨vb, v0, hst⟩ := hst
  have hok : ∀ p, ∃ q, modelPath (garchVariance cpp) o (backcast (prepResids o)) vb p = .ok q :=
    Crash.total_garch cpp o vb v0 hst.1 hst.2
  generalize hx0 : ((if o.zeroMean then 0 else Np.mean o.returns, v0) : XR × GarchVar) = x0
  generalize hR : (stU (garchFeas o.zeroMean) x0).run (objective (garchVariance cpp) o (backcast (prepResids o)) vb) = R
  -- the sequential fit
  have hseq : R.success = true ∧
      o'.sigma2 = Crash.lastPath (garchVariance cpp) o (backcast (prepResids o)) vb R.trace := by
    unfold garchFit at hf
    rw [if_neg (by simp [hs])] at hf
    unfold fitCore at hf
    simp only [bind, Except.bind, hst.1, hst.2, hx0] at hf
    have e : stU.optimizer (garchFeas o.zeroMean) (objective (garchVariance cpp) o (backcast (prepResids o)) vb) x0 = R := hR
    rw [e] at hf
    cases hRs : R.success with
    | false =>
      rw [hRs] at hf
      simp only [Bool.false_eq_true, if_false, pure, Except.pure] at hf
      injection hf with hf
      injection hf with hf _
      rw [← hf] at hs'
      simp [hs] at hs'
    | true =>
      rw [hRs] at hf
      simp only [if_true, pure, Except.pure] at hf
      injection hf with hf
      injection hf with hf _
      rw [← hf]
      exact ⟨rfl, rfl⟩
  have ha := run_args (feas := garchFeas) (startRun_garch cpp) stU o (vb := vb) (v0 := v0) hst.1 hst.2
  rw [hx0] at ha
  have hopt := Conc.run_opt (var := garchVariance cpp) (stU (garchFeas o.zeroMean) x0) (o := prepared o vb)
    (bc := backcast (prepResids o)) (vb := vb) hok
  rw [objective_congr (o := o) (o' := prepared o vb) rfl rfl, hR] at hopt
  have hlast : Crash.lastPath (garchVariance cpp) (prepared o vb) (backcast (prepResids o)) vb R.trace = o'.sigma2 :=
    hseq.2.symm
  rw [hlast, hseq.1] at hopt
  refine ⟨vb, ?_⟩
  unfold garchFitProg fitProg
  simp only [Prog.bind_eq, bind_assoc']
  refine Steps.ex (.read (.refl _ _)) ?_
  show ∃ r, Steps (if o.success = true then _ else _) _ r _
  rw [if_neg (by simp [hs])]
  refine Steps.ex (Steps.first ha _) (Steps.ex (Steps.first hopt _) ?_)
  unfold storeProg
  simp only [if_true, Prog.bind_eq, bind_assoc']
  exact ⟨_, .write (.refl _ _)⟩

/-- the objective on two models with as many residuals and variances as returns has a value, NaN if the log-likelihood of one of
the models is not known -/
theorem value_nan (cpp : Bool) {T : ℕ} (hT : 0 < T) {m1 m2 : GarchObj V} (r1 : m1.resids.length = T) (s1 : m1.sigma2.length = T)
    (r2 : m2.resids.length = T) (s2 : m2.sigma2.length = T) (hp : m1.params = none) (p : XR × XR) :
    value cpp m1 m2 p = .ok .nan := by
  have z1 : (stdResid m1.resids m1.sigma2).length = T := by simp [stdResid, r1, s1]
  have z2 : (stdResid m2.resids m2.sigma2).length = T := by simp [stdResid, r2, s2]
  obtain ⟨rho, e, hl⟩ := dccKernel_total cpp p.1 p.2 (z1 := stdResid m1.resids m1.sigma2) (z2 := stdResid m2.resids m2.sigma2)
    (List.ne_nil_of_length_pos (by omega)) (by omega)
  unfold value
  simp only [bind, Except.bind, e]
  unfold dccValue
  simp only
  rw [if_neg (by rw [List.length_map]; omega)]
  have : llOf m1 = .nan := by unfold llOf; rw [hp]; rfl
  rw [this, XR.nan_add, XR.nan_add]
  rfl

end ConcDcc

/-- C192. Any number of threads, each calling `fit` of its own GARCH-DCC object, where the objects may share univariate models,
all of them estimated before: whatever the schedule, every `fit` that has finished has returned what it returns in a program
without the other threads, and has left its object as it is left there; the univariate models and all other correlation objects
are unchanged. -/
theorem C192_estimated {ι κ τ : Type} (cpp : Bool) (stU : τ → Strategy (XR × GarchVar)) (st : τ → Strategy (XR × XR))
    (wire : κ → ι × ι) (obj : τ → κ) (hinj : ∀ t t', obj t = obj t' → t = t') (w : World GarchVar ι κ)
    (hw : ∀ t, (w.model (wire (obj t)).1).success = true ∧ (w.model (wire (obj t)).2).success = true) (sched : List τ)
    (c : Sys τ (World GarchVar ι κ) (DccPars GarchVar))
    (hc : c = (Sys.mk w fun t => dccFitProg cpp (garchFitProg cpp (stU t)) (st t) wire (obj t)).exec sched) :
    c.shared.model = w.model ∧
    (∀ k, (∀ t, obj t ≠ k) → c.shared.success k = w.success k ∧ c.shared.params k = w.params k) ∧
    ∀ t r, c.result t = some r →
      r = (dccFit cpp (uFit cpp (stU t).optimizer) (st t).optimizer (pull wire (obj t) w)).map (·.2) ∧
      ∀ o p, dccFit cpp (uFit cpp (stU t).optimizer) (st t).optimizer (pull wire (obj t) w) = .ok (o, p) →
        pull wire (obj t) c.shared = o := by
  subst hc
  have key := ConcDcc.Own.sound (M := w.model) hinj
    (c := Sys.mk w fun t => dccFitProg cpp (garchFitProg cpp (stU t)) (st t) wire (obj t)) rfl
    (fun t => ConcDcc.own_fit (ConcDcc.idle_garch cpp (stU t) (hw t).1) (ConcDcc.idle_garch cpp (stU t) (hw t).2) (st t)) sched
  obtain ⟨k1, k2, k3, k4⟩ := key
  refine ⟨k1, k3, fun t r hr => ?_⟩
  have hd : (Sys.exec (Sys.mk w fun t => dccFitProg cpp (garchFitProg cpp (stU t)) (st t) wire (obj t)) sched).thread t =
      .done r := by
    unfold Sys.result at hr
    generalize (Sys.exec _ sched).thread t = p at hr
    cases p with
    | done r' => simp only [Option.some.injEq] at hr; rw [hr]
    | read k => cases hr
    | write f k => cases hr
  have h4 := k4 t
  rw [hd] at h4
  simp only [Prog.run] at h4
  have hrun := ConcDcc.run_fit (f := uFit cpp (stU t).optimizer) (cpp := cpp) (k := obj t) (wire := wire) (st t) (w := w)
    (ConcDcc.idle_garch cpp (stU t) (hw t).1) (ConcDcc.idle_garch cpp (stU t) (hw t).2)
    (ConcDcc.uFit_success cpp _ (hw t).1) (ConcDcc.uFit_success cpp _ (hw t).2)
  refine ⟨h4.1.trans hrun.1, fun o p ho => ?_⟩
  rw [← hrun.2 o p ho]
  have hm : ((dccFitProg cpp (garchFitProg cpp (stU t)) (st t) wire (obj t)).run w).1.model = w.model :=
    ConcDcc.Own.model (ConcDcc.own_fit (ConcDcc.idle_garch cpp (stU t) (hw t).1) (ConcDcc.idle_garch cpp (stU t) (hw t).2) (st t)) rfl
  unfold pull
  rw [h4.2.1, h4.2.2, k1, hm]

/-- C192. Every such thread that is scheduled again and again finishes. -/
theorem C192_finishes {ι κ τ : Type} (cpp : Bool) (stU : τ → Strategy (XR × GarchVar)) (st : τ → Strategy (XR × XR))
    (wire : κ → ι × ι) (obj : τ → κ) (w : World GarchVar ι κ) (σ : ℕ → τ) (t : τ) (ht : ∀ n, ∃ m, n ≤ m ∧ σ m = t) :
    ∃ n, (((Sys.mk w fun t => dccFitProg cpp (garchFitProg cpp (stU t)) (st t) wire (obj t)).exec
      ((List.range n).map σ)).result t).isSome :=
  Sys.terminates _ σ t ht

namespace ConcDcc

theorem grid_nan {cpp : Bool} {m1 m2 : GarchObj V} (hv : ∀ p, value cpp m1 m2 p = .ok .nan) (l : List (ℝ × ℝ)) (best : ℝ × ℝ) :
    l.foldlM (m := Except PyErr) (fun best p => if 1 ≤ p.1 + p.2 then .ok best else do
      let v ← value cpp m1 m2 (.fin p.1, .fin p.2)
      return if .ninf < -v then p else best) best = .ok best := by
  induction l generalizing best with
  | nil => rfl
  | cons p ps ih =>
    rw [List.foldlM_cons]
    by_cases hp : 1 ≤ p.1 + p.2
    · rw [if_pos hp]; exact ih best
    · rw [if_neg hp, hv]
      have e : ¬ (XR.ninf < -XR.nan) := fun h => h
      simp only [bind, Except.bind, pure, Except.pure]
      rw [if_neg e]
      exact ih best

theorem evalAll_ok {cpp : Bool} {m1 m2 : GarchObj V} (hv : ∀ p, value cpp m1 m2 p = .ok .nan) (l : List (XR × XR)) :
    evalAll cpp m1 m2 l = .ok () := by
  induction l with
  | nil => rfl
  | cons p ps ih => rw [evalAll, hv]; exact ih

/-- the threads `i` and `j` -/
theorem race {τ ι κ : Type} (cpp : Bool) (stU : τ → Strategy (XR × GarchVar)) (st : τ → Strategy (XR × XR))
    (wire : κ → ι × ι) (obj : τ → κ) {i j : τ} (hij : i ≠ j) (w : World GarchVar ι κ) {T : ℕ} {m a : ι} (hma : a ≠ m)
    (hi : wire (obj i) = (m, a)) (hj : (wire (obj j)).1 = m) (hsi : w.success (obj i) = false) (hsj : w.success (obj j) = false)
    (hm : RegularSeries T (w.model m)) (hms : (w.model m).success = false) (hmp : (w.model m).params = none)
    {o' : GarchObj GarchVar} {ret : Option (Option (XR × GarchVar × XR))}
    (hf : garchFit cpp (stU j).optimizer (w.model m) = .ok (o', ret)) (hs' : o'.success = true)
    (has : (w.model a).success = true) (har : (w.model a).resids.length = T) (hav : (w.model a).sigma2.length = T)
    {R : OptRun (XR × XR)} (hR : R = (st i dccFeas (.fin (1 / 100), .fin (8 / 10))).run fun _ => .nan) :
    ∃ sched c, c = (Sys.mk w fun t => dccFitProg cpp (garchFitProg cpp (stU t)) (st t) wire (obj t)).exec sched ∧
      c.result i = some (.ok ⟨none, dropLl (w.model a).params, if R.success then R.x.1 else .nan,
        if R.success then R.x.2 else .nan, if R.success then -R.f else .nan⟩) ∧
      c.shared.success (obj i) = R.success := by
  obtain ⟨l, hl, hlT, hn⟩ := hm.data
  have hT : 0 < T := by
    obtain ⟨r, hr, _⟩ := hn
    have := List.length_pos_of_mem hr
    rw [prep_len] at this
    omega
  have hs2 : o'.sigma2.length = T := by
    obtain ⟨n, e1, e2⟩ := ufit_regular cpp (stU j).optimizer (fun _ _ x => ⟨[], false, x, .nan⟩) T (.garch (w.model m)) hm
    unfold UModel.fit uFit at e1
    simp only [hf, bind, Except.bind, pure, Except.pure] at e1
    injection e1 with e1
    subst e1
    exact e2.sigma2
  obtain ⟨vb, p, hsteps⟩ := to_half hms hf hs' (ConcGarch.starts_fin cpp (w.model m) l hl hn)
  -- thread `j` stops half-way
  have h1 : ∃ q, Steps (dccFitProg cpp (garchFitProg cpp (stU j)) (st j) wire (obj j)) w q
      (pushModel m w (half (w.model m) (backcast (prepResids (w.model m))) vb o'.sigma2)) := by
    unfold dccFitProg
    simp only [Prog.bind_eq]
    refine Steps.ex (.read (.refl _ _)) ?_
    show ∃ r, Steps (if w.success (obj j) = true then _ else _) _ r _
    rw [if_neg (by simp [hsj]), hj]
    exact ⟨_, (hsteps.onModel m w rfl).bind _⟩
  obtain ⟨q, h1⟩ := h1
  have r1 := h1.reaches (Sys.mk w fun t => dccFitProg cpp (garchFitProg cpp (stU t)) (st t) wire (obj t)) j rfl rfl
  generalize hW : pushModel m w (half (w.model m) (backcast (prepResids (w.model m))) vb o'.sigma2) = W at r1
  have Wm : W.model m = half (w.model m) (backcast (prepResids (w.model m))) vb o'.sigma2 := by rw [← hW]; simp [pushModel]
  have Wa : W.model a = w.model a := by rw [← hW]; simp [pushModel, hma]
  have Ws : W.success (obj i) = false := by rw [← hW]; exact hsi
  have i1 : Idle (garchFitProg cpp (stU i)) (W.model (wire (obj i)).1) := by
    rw [hi, Wm]; exact idle_garch cpp _ rfl
  have i2 : Idle (garchFitProg cpp (stU i)) (W.model (wire (obj i)).2) := by
    rw [hi, Wa]; exact idle_garch cpp _ has
  have hv : ∀ p, value cpp (W.model (wire (obj i)).1) (W.model (wire (obj i)).2) p = .ok .nan := by
    intro p
    rw [hi, Wm, Wa]
    exact value_nan (m1 := half (w.model m) _ vb o'.sigma2) cpp hT hm.resids hs2 har hav hmp p
  -- thread `i` runs
  have hrun : ((dccFitProg cpp (garchFitProg cpp (stU i)) (st i) wire (obj i)).run W).2 =
      .ok ⟨none, dropLl (w.model a).params, if R.success then R.x.1 else .nan, if R.success then R.x.2 else .nan,
        if R.success then -R.f else .nan⟩ ∧
      ((dccFitProg cpp (garchFitProg cpp (stU i)) (st i) wire (obj i)).run W).1.success (obj i) = R.success := by
    obtain ⟨a1, e1⟩ := i1.run
    obtain ⟨a2, e2⟩ := i2.run
    unfold dccFitProg
    simp only [Prog.bind_eq, Prog.run_bind, Prog.run_get, Ws, Bool.false_eq_true, if_false, e1, e2, run_grid i1 i2]
    rw [grid_nan hv]
    simp only [Prog.run_put]
    generalize hq : ({ p1 := dropLl (W.model (wire (obj i)).1).params, p2 := dropLl (W.model (wire (obj i)).2).params } :
      DccPars GarchVar) = P
    have hP : P = ⟨none, dropLl (w.model a).params, .nan, .nan, .nan⟩ := by
      rw [← hq, hi, Wm, Wa]
      show (⟨dropLl (w.model m).params, _, _, _, _⟩ : DccPars GarchVar) = _
      rw [hmp]
      rfl
    have j1 : Idle (garchFitProg cpp (stU i)) ((setParams (obj i) (fun _ => P) W).model (wire (obj i)).1) := i1
    have j2 : Idle (garchFitProg cpp (stU i)) ((setParams (obj i) (fun _ => P) W).model (wire (obj i)).2) := i2
    have hv' : ∀ p, value cpp ((setParams (obj i) (fun _ => P) W).model (wire (obj i)).1)
      ((setParams (obj i) (fun _ => P) W).model (wire (obj i)).2) p = .ok .nan := hv
    rw [run_opt j1 j2 _ (fun _ => .nan) (fun p v h => by rw [hv' p] at h; injection h)]
    rw [evalAll_ok hv']
    simp only [bind, Except.bind, pure, Except.pure, ← hR, run_store]
    by_cases hRs : R.success = true
    · simp [hRs, setParams, setSuccess, Prog.run, hP]
    · simp [hRs, setParams, setSuccess, Prog.run, hP, Ws]
  have e : Function.update (fun t => dccFitProg cpp (garchFitProg cpp (stU t)) (st t) wire (obj t)) j q i =
    dccFitProg cpp (garchFitProg cpp (stU i)) (st i) wire (obj i) := Function.update_of_ne hij _ _
  have r2 := Sys.Reaches.alone (Sys.mk W (Function.update (fun t => dccFitProg cpp (garchFitProg cpp (stU t)) (st t) wire (obj t))
    j q)) i rfl
  obtain ⟨sched, h⟩ := r1.trans r2
  refine ⟨sched, _, h.symm, Sys.result_done ?_, ?_⟩
  · simp only [Function.update_self]
    rw [e, hrun.1]
  · simp only
    rw [e, hrun.2]

end ConcDcc

/-- C192. For univariate models that are not yet estimated this fails: let two threads fit GARCH-DCC objects on a common first
model whose own estimation (by the second thread, alone) succeeds. There is a schedule under which the `fit` of the first thread
returns NaN for all parameters of that model, and for the correlation parameters whatever its optimiser reports when every value
of the objective it is given is NaN; the object is marked as estimated if that optimiser reports success. -/
theorem C192_race {ι κ : Type} (cpp : Bool) (stU : Bool → Strategy (XR × GarchVar)) (st : Bool → Strategy (XR × XR))
    (wire : κ → ι × ι) (obj : Bool → κ) (w : World GarchVar ι κ) (T : ℕ) (m a : ι) (hma : a ≠ m)
    (hi : wire (obj true) = (m, a)) (hj : (wire (obj false)).1 = m) (hs : ∀ b, w.success (obj b) = false)
    (hm : RegularSeries T (w.model m)) (hms : (w.model m).success = false) (hmp : (w.model m).params = none)
    (o' : GarchObj GarchVar) (ret : Option (Option (XR × GarchVar × XR)))
    (hf : garchFit cpp (stU false).optimizer (w.model m) = .ok (o', ret)) (hs' : o'.success = true)
    (has : (w.model a).success = true) (har : (w.model a).resids.length = T) (hav : (w.model a).sigma2.length = T)
    (R : OptRun (XR × XR)) (hR : R = (st true dccFeas (.fin (1 / 100), .fin (8 / 10))).run fun _ => .nan) :
    ∃ (sched : List Bool) (c : Sys Bool (World GarchVar ι κ) (DccPars GarchVar)),
      c = (Sys.mk w fun t => dccFitProg cpp (garchFitProg cpp (stU t)) (st t) wire (obj t)).exec sched ∧
      c.result true = some (.ok ⟨none, dropLl (w.model a).params, if R.success then R.x.1 else .nan,
        if R.success then R.x.2 else .nan, if R.success then -R.f else .nan⟩) ∧
      c.shared.success (obj true) = R.success :=
  ConcDcc.race cpp stU st wire obj (by simp) w hma hi hj (hs true) (hs false) hm hms hmp hf hs' has har hav hR

namespace ConcDcc

/-- evaluate the start, report it as the optimum -/
def stayStrategy {P : Type} : Strategy P := fun _ x0 => .ask x0 fun v => .done true x0 v

/-- the market, not yet estimated, on three days -/
def market : GarchObj GarchVar :=
  { returns := [(2 : ℝ), -1, -1].map XR.fin, zeroMean := false, resids := [0, 0, 0], sigma2 := [0, 0, 0] }

/-- an estimated firm -/
def firm : GarchObj GarchVar :=
  { market with success := true, params := some (0, ⟨1, 0, 0⟩, -4), resids := [.fin 2, -1, -1], sigma2 := [1, 1, 1] }

/-- the market and its firms; one correlation model per firm -/
def twoFirms : World GarchVar ℕ Bool :=
  { model := fun n => if n = 0 then market else firm, success := fun _ => false, params := fun _ => {} }

def twoWires (b : Bool) : ℕ × ℕ := (0, if b then 1 else 2)

theorem market_regular : RegularSeries 3 market :=
  ⟨⟨[2, -1, -1], rfl, rfl, by
    show ∃ r ∈ Spec.prep false [(2 : ℝ), -1, -1], r ≠ 0
    rw [prep_demo]; exact ⟨2, by simp, by norm_num⟩⟩, rfl, rfl⟩

theorem market_fit (cpp : Bool) : ∃ o' r, garchFit cpp stayStrategy.optimizer market = .ok (o', r) ∧ o'.success = true := by
  obtain ⟨l, h1, h2, h3⟩ := market_regular.data
  obtain ⟨o', ret, hf⟩ := garchFit_total cpp stayStrategy.optimizer market l h1 rfl h3
  obtain ⟨hret, bc, vb, x0, run, he, _⟩ := (C71_garch_fit cpp _ market o' ret hf).2 rfl
  exact ⟨o', ret, hf, (he.success (by rw [he.run_eq]; rfl)).1⟩

end ConcDcc

open ConcDcc in
/-- two firms with a common market model that is not yet estimated: one of the calls may return NaN for the market, and the
starting point of the grid search for the correlation parameters -/
example (cpp : Bool) : ∃ sched : List Bool,
    ((Sys.mk twoFirms fun b => dccFitProg cpp (garchFitProg cpp stayStrategy) stayStrategy twoWires b).exec sched).result true =
      some (.ok ⟨none, some (0, ⟨1, 0, 0⟩), .fin (1 / 100), .fin (8 / 10), .nan⟩) := by
  obtain ⟨o', r, h1, h2⟩ := market_fit cpp
  obtain ⟨sched, c, rfl, h, -⟩ := C192_race cpp (fun _ => stayStrategy) (fun _ => stayStrategy) twoWires id twoFirms 3 0 1 (by simp) rfl rfl
    (fun _ => rfl) market_regular rfl rfl o' r h1 h2 rfl rfl rfl _ rfl
  exact ⟨sched, h⟩

open ConcDcc in
/-- the same two firms with an estimated market: any schedule is harmless -/
example (cpp : Bool) (sched : List Bool) (r : Except PyErr (DccPars GarchVar))
    (h : ((Sys.mk { twoFirms with model := fun _ => firm } fun b => dccFitProg cpp (garchFitProg cpp stayStrategy) stayStrategy
      twoWires b).exec sched).result true = some r) :
    r = (dccFit cpp (uFit cpp stayStrategy.optimizer) stayStrategy.optimizer { model1 := firm, model2 := firm }).map (·.2) :=
  ((C192_estimated cpp (fun _ => stayStrategy) (fun _ => stayStrategy) twoWires id (fun _ _ h => h)
    { twoFirms with model := fun _ => firm } (fun _ => ⟨rfl, rfl⟩) sched _ rfl).2.2 true r h).1

/-! ### Concrete cases of the theorems above -/

/-- Two threads taking turns both finish. -/
example (cpp : Bool) := C192_finishes cpp (fun _ => ConcDcc.stayStrategy) (fun _ => ConcDcc.stayStrategy) ConcDcc.twoWires id ConcDcc.twoFirms
  (fun n => n % 2 == 0) true (fun n => ⟨2 * n, by omega, by simp⟩)

end
end Frds.Props

import Verif.Props.LrmesObj
import Verif.Model.Shared

/-! C191: several correlation models on the same univariate models. -/
namespace Frds.Props
noncomputable section
open Frds Frds.Model Frds.Model.Crash Frds.Model.Crash.Run Frds.Model.LrmesObj Frds.Props.Crash Classical
set_option linter.unusedSimpArgs false
set_option linter.unusedVariables false

namespace Shared
open Frds.Props.LrmesObj

/-- `P` holds after every call that starts where it holds, whether the call returns or raises -/
def Ends {S A : Type} (P : S → Prop) (m : Run S A) : Prop := ∀ s, P s → P (afterCall m s)

section
variable {S T A B X : Type} {P : S → Prop}

theorem exec_afterCall {m : Run S A} {s t : S} {a : A} (h : exec m s = .ok (t, a)) : t = afterCall m s := by
  unfold exec at h
  cases hm : (m s).2 with
  | error e => rw [hm] at h; cases h
  | ok b => rw [hm] at h; exact (ok_pair h).1.symm

theorem Ends.andThen {m : Run S A} {k : A → Run S B} (hm : Ends P m) (hk : ∀ a, Ends P (k a)) : Ends P (Run.andThen m k) := by
  intro s hs
  rw [afterCall_andThen]
  cases h : exec m s with
  | error e => exact hm s hs
  | ok q => exact hk _ _ (by rw [exec_afterCall h]; exact hm s hs)

theorem Ends.get : Ends P (Run.get : Run S S) := fun _ h => h
theorem Ends.ret (a : A) : Ends P (Run.ret a : Run S A) := fun _ h => h
theorem Ends.lift (x : Except PyErr A) : Ends P (Run.lift x : Run S A) := fun _ h => h
theorem Ends.write {f : S → S} (h : ∀ s, P s → P (f s)) : Ends P (Run.write f) := fun s hs => h s hs

theorem Ends.each {f : X → Run S Unit} (h : ∀ p, Ends P (f p)) (l : List X) : Ends P (Run.each f l) := by
  induction l with
  | nil => exact Ends.ret _
  | cons p l ih => exact (h p).andThen fun _ => ih

theorem Ends.fold {f : A → X → Run S A} (h : ∀ a p, Ends P (f a p)) (l : List X) (a : A) : Ends P (Run.fold f a l) := by
  induction l generalizing a with
  | nil => exact Ends.ret _
  | cons p l ih => exact (h a p).andThen fun _ => ih _

theorem afterCall_on {proj : S → T} {put : S → T → S} (hput : ∀ s, put s (proj s) = s) (m : Run T A) (s : S) :
    afterCall (on proj put m) s = put s (afterCall m (proj s)) := by
  unfold afterCall final on
  simp only
  have h : ∀ (l : List T) (t : T), (put s t :: l.map (put s)).getLast (by simp) = put s ((t :: l).getLast (by simp)) := by
    intro l
    induction l with
    | nil => intro t; rfl
    | cons a l ih => intro t; simpa using ih a
  have := h (m (proj s)).1 (proj s)
  simp only [hput] at this
  exact this

theorem after_afterCall {m : Run S Unit} {s t : S} (h : m.after s = .ok t) : afterCall m s = t := by
  unfold Run.after at h
  cases hm : (m s).2 with
  | error e => rw [hm] at h; cases h
  | ok a => rw [hm] at h; injection h

end

variable {V ι κ : Type} {cpp : Bool} {fitU : Run (GarchObj V) Unit} {opt : Optimizer (XR × XR)} {wire : κ → ι × ι}

theorem pull_push (k : κ) (hk : (wire k).1 ≠ (wire k).2) (w : Frds.Model.Shared.World V ι κ) (o : DccObj V) :
    Frds.Model.Shared.pull wire k (Frds.Model.Shared.push wire k w o) = o := by
  simp only [Frds.Model.Shared.pull, Frds.Model.Shared.push, if_true, if_neg (Ne.symm hk)]

theorem push_pull (k : κ) (w : Frds.Model.Shared.World V ι κ) :
    Frds.Model.Shared.push wire k w (Frds.Model.Shared.pull wire k w) = w := by
  rcases w with ⟨m, s, p⟩
  simp only [Frds.Model.Shared.pull, Frds.Model.Shared.push, Frds.Model.Shared.World.mk.injEq]
  refine ⟨funext fun i => ?_, funext fun k' => ?_, funext fun k' => ?_⟩
  · by_cases h1 : i = (wire k).1
    · rw [if_pos h1, h1]
    · rw [if_neg h1]
      by_cases h2 : i = (wire k).2
      · rw [if_pos h2, h2]
      · rw [if_neg h2]
  · by_cases h : k' = k
    · rw [if_pos h, h]
    · rw [if_neg h]
  · by_cases h : k' = k
    · rw [if_pos h, h]
    · rw [if_neg h]

theorem pushModel_self (i : ι) (w : Frds.Model.Shared.World V ι κ) : Frds.Model.Shared.pushModel i w (w.model i) = w := by
  rcases w with ⟨m, s, p⟩
  simp only [Frds.Model.Shared.pushModel, Frds.Model.Shared.World.mk.injEq, and_true]
  funext j
  by_cases h : j = i
  · rw [if_pos h, h]
  · rw [if_neg h]

/-! ### one correlation model -/

/-- a property of the two univariate models that univariate fits keep -/
structure Kept (fitU : Run (GarchObj V) Unit) (P : DccObj V → Prop) : Prop where
  m1 : ∀ o, P o → P { o with model1 := afterCall fitU o.model1 }
  m2 : ∀ o, P o → P { o with model2 := afterCall fitU o.model2 }

theorem ends_refit {P : DccObj V → Prop} (hP : Kept fitU P) : Ends P (refitRun fitU) := by
  unfold refitRun
  rw [bind_eq]
  refine Ends.andThen (fun s hs => ?_) fun _ s hs => ?_
  · rw [afterCall_on (by intro s; rfl)]; exact hP.m1 s hs
  · rw [afterCall_on (by intro s; rfl)]; exact hP.m2 s hs

theorem ends_eval {P : DccObj V → Prop} (hP : Kept fitU P) (p : XR × XR) : Ends P (dccEvalRun cpp fitU p) := by
  unfold dccEvalRun
  simp only [bind_eq]
  exact Ends.get.andThen fun _ => (ends_refit hP).andThen fun _ => Ends.lift _

theorem ends_start {P : DccObj V → Prop} (hP : Kept fitU P) : Ends P (dccStartRun cpp fitU) := by
  refine Ends.fold (fun a p => ?_) _ _
  by_cases hp : 1 ≤ p.1 + p.2
  · rw [if_pos hp]; exact Ends.ret _
  · rw [if_neg hp]
    simp only [bind_eq, pure_eq]
    exact (ends_eval hP _).andThen fun _ => Ends.ret _

theorem ends_corr {P : DccObj V → Prop} (hP : Kept fitU P) (a b : XR) : Ends P (Frds.Model.Shared.condCorrRun cpp fitU a b) := by
  unfold Frds.Model.Shared.condCorrRun
  simp only [bind_eq]
  exact (ends_refit hP).andThen fun _ => Ends.get.andThen fun _ => Ends.lift _

theorem ends_dcc {P : DccObj V → Prop} (hP : Kept fitU P) (hs : ∀ o, P o → P { o with success := true })
    (hp : ∀ o p, P o → P { o with params := p }) :
    Ends P (dccFitRun cpp fitU opt) := by
  unfold dccFitRun
  simp only [bind_eq, pure_eq]
  refine Ends.get.andThen fun o => ?_
  by_cases h : o.success = true
  · rw [if_pos h]; exact Ends.ret _
  · rw [if_neg h]
    refine (ends_refit hP).andThen fun _ => (ends_start hP).andThen fun st => ?_
    refine Ends.andThen (Ends.write fun s h => hp _ _ h) fun _ => Ends.get.andThen fun o => ?_
    generalize opt dccFeas _ _ = run
    refine Ends.andThen (Ends.each (fun p => (ends_eval hP p).andThen fun _ => Ends.ret _) _) fun _ => ?_
    by_cases hsu : run.success = true
    · rw [if_pos hsu]
      exact Ends.andThen (Ends.write fun s h => hs _ h) fun _ => Ends.andThen (Ends.write fun s h => hp _ _ h) fun _ =>
        Ends.andThen (Ends.write fun s h => hp _ _ h) fun _ => Ends.andThen (Ends.write fun s h => hp _ _ h) fun _ =>
        Ends.get.andThen fun _ => Ends.ret _
    · rw [if_neg hsu]
      exact Ends.get.andThen fun _ => Ends.ret _

/-- after a correlation fit that returned or raised: the flag is not set, or the fit was completed -/
theorem dcc_flag {o : DccObj V} (hst : ∀ m m', fitU.after m = .ok m' → fitU.after m' = .ok m') (hs : o.success = false) :
    (afterCall (dccFitRun cpp fitU opt) o).success = false ∨
    ∃ r, dccFit cpp fitU.after opt o = .ok (afterCall (dccFitRun cpp fitU opt) o, r) := by
  cases h : exec (dccFitRun cpp fitU opt) o with
  | ok q =>
    right
    refine ⟨q.2, ?_⟩
    rw [← exec_afterCall h, ← exec_dcc, h]
  | error e =>
    left
    cases hf : (afterCall (dccFitRun cpp fitU opt) o).success with
    | false => rfl
    | true =>
      obtain ⟨o', r, h', _⟩ := dccAt_torn (crash_dcc hst hs (afterCall_mem _ _)) hs hf
      rw [← exec_dcc, h] at h'
      cases h'

/-- both models of a correlation model that was estimated successfully are estimated -/
theorem dccFit_settled {o o' : DccObj V} {r : DccPars V} (hst : ∀ m m', fitU.after m = .ok m' → fitU.after m' = .ok m')
    (hs : o.success = false) (h : dccFit cpp fitU.after opt o = .ok (o', r)) : Settled fitU o' := by
  obtain ⟨o1, st, o2, hr, hst', run, hrun, htr, hr', h⟩ := dccFit_cases (by simp [hs]) h
  have h1 : Settled fitU o1 := by
    unfold refit at hr
    simp only [bind, Except.bind, pure, Except.pure] at hr
    cases h1 : fitU.after o.model1 with
    | error e => rw [h1] at hr; cases hr
    | ok m1 =>
      rw [h1] at hr
      cases h2 : fitU.after o.model2 with
      | error e => rw [h2] at hr; cases hr
      | ok m2 =>
        rw [h2] at hr
        injection hr with hr
        subst hr
        exact ⟨hst _ _ h1, hst _ _ h2⟩
  have hev : ∀ (q q' : DccObj V) (p : XR × XR) (v : XR), dccObjective cpp fitU.after q p = .ok (q', v) → Settled fitU q →
      Settled fitU q' := by
    intro q q' p v he hq
    have := dccObjective_refit he
    rw [refit_settled hq] at this
    injection this with this
    rw [← this]; exact hq
  have h2 : Settled fitU st.1 := by
    refine fold_inv (fun q : DccObj V × (ℝ × ℝ) => Settled fitU q.1) ?_ _ hst' h1
    intro s p t ht hI
    by_cases hp : 1 ≤ p.1 + p.2
    · rw [if_pos hp] at ht; injection ht with ht; subst ht; exact hI
    · rw [if_neg hp] at ht
      simp only [bind, Except.bind, pure, Except.pure] at ht
      cases he : dccObjective cpp fitU.after s.1 (.fin p.1, .fin p.2) with
      | error e => rw [he] at ht; cases ht
      | ok q => rw [he] at ht; injection ht with ht; subst ht; exact hev _ _ _ _ he hI
  have h3 : Settled fitU o2 := by
    refine fold_inv (fun q : DccObj V => Settled fitU q) ?_ _ htr h2
    intro s p t ht hI
    simp only [bind, Except.bind, pure, Except.pure] at ht
    cases he : dccObjective cpp fitU.after s p with
    | error e => rw [he] at ht; cases ht
    | ok q => rw [he] at ht; injection ht with ht; subst ht; exact hev _ _ _ _ he hI
  rcases h with ⟨_, rfl⟩ | ⟨_, rfl⟩
  · exact h3
  · exact h3

/-! ### all objects -/

/-- a method of a correlation model, as far as the other objects are concerned -/
structure Method {A : Type} (cpp : Bool) (fitU : Run (GarchObj V) Unit) (opt : Optimizer (XR × XR)) (m : Run (DccObj V) A) : Prop where
  ends : ∀ P : DccObj V → Prop, Kept fitU P → (∀ o, P o → P { o with success := true }) → (∀ o p, P o → P { o with params := p }) →
    Ends P m
  done : ∀ o, o.success = true → (afterCall m o).success = true ∧ (afterCall m o).params = o.params
  flag : ∀ o, o.success = false → (afterCall m o).success = false ∨
    dccFit cpp fitU.after opt o = .ok (afterCall m o, (afterCall m o).params)

theorem method_of {A : Type} {m : Run (DccObj V) A} (h : ∀ P : DccObj V → Prop, Kept fitU P → Ends P m) : Method cpp fitU opt m where
  ends P hP _ _ := h P hP
  done o ho := h (fun q => q.success = true ∧ q.params = o.params) ⟨fun _ h => h, fun _ h => h⟩ o ⟨ho, rfl⟩
  flag o ho := .inl (h (fun q => q.success = false) ⟨fun _ h => h, fun _ h => h⟩ o ho)

theorem method_dcc (hst : ∀ m m', fitU.after m = .ok m' → fitU.after m' = .ok m') : Method cpp fitU opt (dccFitRun cpp fitU opt) where
  ends P hP hs hp := ends_dcc hP hs hp
  done o ho := by
    have h := exec_dcc cpp fitU opt o
    have h' : dccFit cpp fitU.after opt o = .ok (o, o.params) := by unfold dccFit; rw [if_pos ho]
    rw [h'] at h
    rw [← exec_afterCall h]
    exact ⟨ho, rfl⟩
  flag o ho := by
    rcases dcc_flag (cpp := cpp) (opt := opt) hst ho with h | ⟨r, h⟩
    · exact .inl h
    · refine .inr ?_
      obtain ⟨_, _, _, _, _, _, _, _, hr, _⟩ := dccFit_cases (by simp [ho]) h
      rw [h, hr]

/-- the univariate models are as good as those of `w0`, and the correlation models that were estimated are what the first call would
have made of them -/
structure Inv (cpp : Bool) (fitU : Run (GarchObj V) Unit) (opt : Optimizer (XR × XR)) (wire : κ → ι × ι)
    (w0 w : Frds.Model.Shared.World V ι κ) : Prop where
  like : ∀ i, fitU.after (w.model i) = fitU.after (w0.model i)
  fresh : ∀ k, w.success k = false ∨
    dccFit cpp fitU.after opt (Frds.Model.Shared.pull wire k w0) = .ok (Frds.Model.Shared.pull wire k w, w.params k)

theorem inv_method {A : Type} {m : Run (DccObj V) A} (hm : Method cpp fitU opt m)
    (hst : ∀ m m', fitU.after m = .ok m' → fitU.after m' = .ok m')
    (hre : ∀ m, fitU.after (afterCall fitU m) = fitU.after m) (hw : ∀ k, (wire k).1 ≠ (wire k).2)
    {w0 w : Frds.Model.Shared.World V ι κ} (h0 : ∀ k, w0.success k = false) (hi : Inv cpp fitU opt wire w0 w) (k : κ) :
    Inv cpp fitU opt wire w0
      (afterCall (Run.andThen (on (Frds.Model.Shared.pull wire k) (Frds.Model.Shared.push wire k) m) fun _ => ret ()) w) := by
  have he : afterCall (Run.andThen (on (Frds.Model.Shared.pull wire k) (Frds.Model.Shared.push wire k) m) fun _ => ret ()) w
      = Frds.Model.Shared.push wire k w (afterCall m (Frds.Model.Shared.pull wire k w)) := by
    rw [afterCall_andThen, ← afterCall_on (fun s => push_pull k s)]
    cases h : exec (on (Frds.Model.Shared.pull wire k) (Frds.Model.Shared.push wire k) m) w with
    | error e => rfl
    | ok q => exact exec_afterCall h
  rw [he]
  generalize hy : afterCall m (Frds.Model.Shared.pull wire k w) = y
  have hlike : fitU.after y.model1 = fitU.after (w.model (wire k).1) ∧ fitU.after y.model2 = fitU.after (w.model (wire k).2) := by
    rw [← hy]
    exact hm.ends (fun q => fitU.after q.model1 = fitU.after (w.model (wire k).1) ∧ fitU.after q.model2 = fitU.after (w.model (wire k).2))
      ⟨fun o h => ⟨(hre _).trans h.1, h.2⟩, fun o h => ⟨h.1, (hre _).trans h.2⟩⟩ (fun o h => h) (fun o p h => h) _ ⟨rfl, rfl⟩
  have hsame : (fitU.after (w.model (wire k).1) = .ok (w.model (wire k).1) → y.model1 = w.model (wire k).1) ∧
      (fitU.after (w.model (wire k).2) = .ok (w.model (wire k).2) → y.model2 = w.model (wire k).2) := by
    rw [← hy]
    refine hm.ends (fun q => (fitU.after (w.model (wire k).1) = .ok (w.model (wire k).1) → q.model1 = w.model (wire k).1) ∧
      (fitU.after (w.model (wire k).2) = .ok (w.model (wire k).2) → q.model2 = w.model (wire k).2))
      ⟨fun o h => ⟨fun e => ?_, h.2⟩, fun o h => ⟨h.1, fun e => ?_⟩⟩ (fun o h => h) (fun o p h => h) _ ⟨fun _ => rfl, fun _ => rfl⟩
    · show afterCall fitU o.model1 = _
      rw [h.1 e]; exact after_afterCall e
    · show afterCall fitU o.model2 = _
      rw [h.2 e]; exact after_afterCall e
  have hkeep : ∀ i, fitU.after (w.model i) = .ok (w.model i) → (Frds.Model.Shared.push wire k w y).model i = w.model i := by
    intro i e
    simp only [Frds.Model.Shared.push]
    by_cases h1 : i = (wire k).1
    · rw [if_pos h1, h1]; exact hsame.1 (h1 ▸ e)
    · rw [if_neg h1]
      by_cases h2 : i = (wire k).2
      · rw [if_pos h2, h2]; exact hsame.2 (h2 ▸ e)
      · rw [if_neg h2]
  refine ⟨fun i => ?_, fun k' => ?_⟩
  · rw [← hi.like i]
    simp only [Frds.Model.Shared.push]
    by_cases h1 : i = (wire k).1
    · rw [if_pos h1, h1]; exact hlike.1
    · rw [if_neg h1]
      by_cases h2 : i = (wire k).2
      · rw [if_pos h2, h2]; exact hlike.2
      · rw [if_neg h2]
  · have hold : ∀ k'', w.success k'' = true → (Frds.Model.Shared.push wire k w y).success k'' = true →
        (Frds.Model.Shared.push wire k w y).params k'' = w.params k'' →
        dccFit cpp fitU.after opt (Frds.Model.Shared.pull wire k'' w0)
          = .ok (Frds.Model.Shared.pull wire k'' (Frds.Model.Shared.push wire k w y), (Frds.Model.Shared.push wire k w y).params k'') := by
      intro k'' hs hs' hp
      rcases hi.fresh k'' with h | h
      · rw [h] at hs; cases hs
      · have hse := dccFit_settled hst (h0 k'') h
        rw [h, hp]
        congr 2
        simp only [Frds.Model.Shared.pull, DccObj.mk.injEq]
        exact ⟨(hkeep _ hse.1).symm, (hkeep _ hse.2).symm, by rw [hs, hs'], hp.symm⟩
    by_cases hk : k' = k
    · subst hk
      cases hs : w.success k' with
      | true =>
        have hd := hm.done (Frds.Model.Shared.pull wire k' w) hs
        rw [hy] at hd
        refine .inr (hold k' hs ?_ ?_)
        · simp only [Frds.Model.Shared.push, if_true]; exact hd.1
        · simp only [Frds.Model.Shared.push, if_true]; exact hd.2
      | false =>
        rcases hm.flag (Frds.Model.Shared.pull wire k' w) hs with h | h
        · left
          simp only [Frds.Model.Shared.push, if_true]
          rw [← hy]; exact h
        · right
          rw [hy] at h
          rw [pull_push k' (hw k')]
          simp only [Frds.Model.Shared.push, if_true]
          rw [← h]
          exact dccFit_congr _ _ hs (h0 k') (hi.like _).symm (hi.like _).symm
    · cases hs : w.success k' with
      | false =>
        left
        simp only [Frds.Model.Shared.push, if_neg hk]; exact hs
      | true =>
        refine .inr (hold k' hs ?_ ?_)
        · simp only [Frds.Model.Shared.push, if_neg hk]; exact hs
        · simp only [Frds.Model.Shared.push, if_neg hk]

theorem inv_fit (hst : ∀ m m', fitU.after m = .ok m' → fitU.after m' = .ok m')
    (hre : ∀ m, fitU.after (afterCall fitU m) = fitU.after m)
    {w0 w : Frds.Model.Shared.World V ι κ} (h0 : ∀ k, w0.success k = false) (hi : Inv cpp fitU opt wire w0 w) (i : ι) :
    Inv cpp fitU opt wire w0 (afterCall (on (fun w => w.model i) (Frds.Model.Shared.pushModel i) fitU) w) := by
  rw [afterCall_on (fun s => pushModel_self i s)]
  have hkeep : ∀ j, fitU.after (w.model j) = .ok (w.model j) →
      (Frds.Model.Shared.pushModel i w (afterCall fitU (w.model i))).model j = w.model j := by
    intro j e
    simp only [Frds.Model.Shared.pushModel]
    by_cases h : j = i
    · subst h; rw [if_pos rfl]; exact after_afterCall e
    · rw [if_neg h]
  refine ⟨fun j => ?_, fun k => ?_⟩
  · rw [← hi.like j]
    simp only [Frds.Model.Shared.pushModel]
    by_cases h : j = i
    · subst h; rw [if_pos rfl]; exact hre _
    · rw [if_neg h]
  · rcases hi.fresh k with h | h
    · exact .inl h
    · right
      have hse := dccFit_settled hst (h0 k) h
      rw [h]
      congr 2
      simp only [Frds.Model.Shared.pull, DccObj.mk.injEq]
      exact ⟨(hkeep _ hse.1).symm, (hkeep _ hse.2).symm, rfl, rfl⟩

theorem inv_calls (hst : ∀ m m', fitU.after m = .ok m' → fitU.after m' = .ok m')
    (hre : ∀ m, fitU.after (afterCall fitU m) = fitU.after m) (hw : ∀ k, (wire k).1 ≠ (wire k).2)
    {w0 w : Frds.Model.Shared.World V ι κ} (h0 : ∀ k, w0.success k = false)
    (h : Frds.Model.Shared.Calls (Frds.Model.Shared.opRun cpp fitU opt wire) w0 w) : Inv cpp fitU opt wire w0 w := by
  induction h with
  | start => exact ⟨fun _ => rfl, fun k => .inl (h0 k)⟩
  | call c h ih =>
    cases c with
    | fit i => exact inv_fit hst hre h0 ih i
    | dcc k => exact inv_method (method_dcc hst) hst hre hw h0 ih k
    | start k => exact inv_method (method_of fun P hP => ends_start hP) hst hre hw h0 ih k
    | loglik k p => exact inv_method (method_of fun P hP => ends_eval hP p) hst hre hw h0 ih k
    | corr k a b => exact inv_method (method_of fun P hP => ends_corr hP a b) hst hre hw h0 ih k

theorem exec_pull {w0 w : Frds.Model.Shared.World V ι κ} (h0 : ∀ k, w0.success k = false) (hi : Inv cpp fitU opt wire w0 w) (k : κ) :
    dccFit cpp fitU.after opt (Frds.Model.Shared.pull wire k w) = dccFit cpp fitU.after opt (Frds.Model.Shared.pull wire k w0) := by
  rcases hi.fresh k with h | h
  · exact dccFit_congr _ _ (h0 k) h (hi.like _) (hi.like _)
  · cases hs : w.success k with
    | false => exact dccFit_congr _ _ (h0 k) hs (hi.like _) (hi.like _)
    | true =>
      rw [h]
      have : ∀ o : DccObj V, o.success = true → dccFit cpp fitU.after opt o = .ok (o, o.params) := fun o ho => by
        unfold dccFit; rw [if_pos ho]
      exact this (Frds.Model.Shared.pull wire k w) hs

theorem uFit_again {cpp : Bool} {opt : Optimizer (XR × GarchVar)} (hev : Evaluates opt) (m : GarchObj GarchVar) :
    (uFitRun cpp opt).after (afterCall (uFitRun cpp opt) m) = (uFitRun cpp opt).after m := by
  rw [uFit_after]
  refine uFit_retry hev (afterCall_mem _ _) fun hs => ?_
  cases h : uFit cpp opt m with
  | ok m' =>
    rw [← uFit_after] at h
    rw [after_afterCall h]
  | error e =>
    exfalso
    have hx := afterCall_mem (uFitRun cpp opt) m
    rw [uFit_crash] at hx
    cases hm : m.success with
    | true =>
      unfold uFit garchFit at h
      rw [if_pos hm] at h
      cases h
    | false =>
      rcases C173_garch cpp opt m _ hm hx with ⟨h1, _⟩ | ⟨_, h2⟩
      · rw [h1] at hs; cases hs
      · unfold uFit at h
        obtain ⟨o', r, h3, _⟩ := h2
        rw [h3] at h
        cases h

theorem uFitGjr_again {cpp : Bool} {opt : Optimizer (XR × GjrVar)} (hev : Evaluates opt) (m : GarchObj GjrVar) :
    (uFitGjrRun cpp opt).after (afterCall (uFitGjrRun cpp opt) m) = (uFitGjrRun cpp opt).after m := by
  rw [uFitGjr_after]
  exact uFitGjr_retry hev (afterCall_mem _ _)

/-! ### interruptions -/

/-- `P` holds wherever a call that starts where it holds is interrupted, and at its end -/
def All {S A : Type} (P : S → Prop) (m : Run S A) : Prop := ∀ s, P s → ∀ x ∈ crashStates m s, P x

section
variable {S T A B X : Type} {P : S → Prop}

theorem All.andThen {m : Run S A} {k : A → Run S B} (hm : All P m) (hk : ∀ a, All P (k a)) : All P (Run.andThen m k) := by
  intro s hs x hx
  rw [mem_andThen] at hx
  rcases hx with hx | ⟨a, t, h, hx⟩
  · exact hm s hs x hx
  · exact hk a t (hm s hs t (exec_mem h)) x hx

theorem All.get : All P (Run.get : Run S S) := fun s h x hx => by
  rw [crash_get, List.mem_singleton] at hx; rw [hx]; exact h
theorem All.ret (a : A) : All P (Run.ret a : Run S A) := fun s h x hx => by
  rw [crash_ret, List.mem_singleton] at hx; rw [hx]; exact h
theorem All.lift (y : Except PyErr A) : All P (Run.lift y : Run S A) := fun s h x hx => by
  rw [crash_lift, List.mem_singleton] at hx; rw [hx]; exact h
theorem All.write {f : S → S} (h : ∀ s, P s → P (f s)) : All P (Run.write f) := fun s hs x hx => by
  simp only [crash_write, List.mem_cons, List.not_mem_nil, or_false] at hx
  rcases hx with rfl | rfl
  · exact hs
  · exact h _ hs

theorem All.each {f : X → Run S Unit} (h : ∀ p, All P (f p)) (l : List X) : All P (Run.each f l) := by
  induction l with
  | nil => exact All.ret _
  | cons p l ih => exact (h p).andThen fun _ => ih

theorem All.fold {f : A → X → Run S A} (h : ∀ a p, All P (f a p)) (l : List X) (a : A) : All P (Run.fold f a l) := by
  induction l generalizing a with
  | nil => exact All.ret _
  | cons p l ih => exact (h a p).andThen fun _ => ih _

end

/-- a property of the two univariate models that univariate fits keep, also when interrupted -/
structure KeptAll (fitU : Run (GarchObj V) Unit) (P : DccObj V → Prop) : Prop where
  m1 : ∀ o, P o → ∀ m ∈ crashStates fitU o.model1, P { o with model1 := m }
  m2 : ∀ o, P o → ∀ m ∈ crashStates fitU o.model2, P { o with model2 := m }

theorem all_refit {P : DccObj V → Prop} (hP : KeptAll fitU P) : All P (refitRun fitU) := by
  unfold refitRun
  rw [bind_eq]
  refine All.andThen (fun s hs x hx => ?_) fun _ s hs x hx => ?_
  · obtain ⟨m, hm, rfl⟩ := (mem_on (by intro s; rfl)).mp hx
    exact hP.m1 s hs m hm
  · obtain ⟨m, hm, rfl⟩ := (mem_on (by intro s; rfl)).mp hx
    exact hP.m2 s hs m hm

theorem all_eval {P : DccObj V → Prop} (hP : KeptAll fitU P) (p : XR × XR) : All P (dccEvalRun cpp fitU p) := by
  unfold dccEvalRun
  simp only [bind_eq]
  exact All.get.andThen fun _ => (all_refit hP).andThen fun _ => All.lift _

theorem all_start {P : DccObj V → Prop} (hP : KeptAll fitU P) : All P (dccStartRun cpp fitU) := by
  refine All.fold (fun a p => ?_) _ _
  by_cases hp : 1 ≤ p.1 + p.2
  · rw [if_pos hp]; exact All.ret _
  · rw [if_neg hp]
    simp only [bind_eq, pure_eq]
    exact (all_eval hP _).andThen fun _ => All.ret _

theorem all_corr {P : DccObj V → Prop} (hP : KeptAll fitU P) (a b : XR) : All P (Frds.Model.Shared.condCorrRun cpp fitU a b) := by
  unfold Frds.Model.Shared.condCorrRun
  simp only [bind_eq]
  exact (all_refit hP).andThen fun _ => All.get.andThen fun _ => All.lift _

theorem all_dcc {P : DccObj V → Prop} (hP : KeptAll fitU P) (hs : ∀ o, P o → P { o with success := true })
    (hp : ∀ o p, P o → P { o with params := p }) : All P (dccFitRun cpp fitU opt) := by
  unfold dccFitRun
  simp only [bind_eq, pure_eq]
  refine All.get.andThen fun o => ?_
  by_cases h : o.success = true
  · rw [if_pos h]; exact All.ret _
  · rw [if_neg h]
    refine (all_refit hP).andThen fun _ => (all_start hP).andThen fun st => ?_
    refine All.andThen (All.write fun s h => hp _ _ h) fun _ => All.get.andThen fun o => ?_
    generalize opt dccFeas _ _ = run
    refine All.andThen (All.each (fun p => (all_eval hP p).andThen fun _ => All.ret _) _) fun _ => ?_
    by_cases hsu : run.success = true
    · rw [if_pos hsu]
      exact All.andThen (All.write fun s h => hs _ h) fun _ => All.andThen (All.write fun s h => hp _ _ h) fun _ =>
        All.andThen (All.write fun s h => hp _ _ h) fun _ => All.andThen (All.write fun s h => hp _ _ h) fun _ =>
        All.get.andThen fun _ => All.ret _
    · rw [if_neg hsu]
      exact All.get.andThen fun _ => All.ret _

/-- `p` is `q`, or `q` with `a`, `b`, the log-likelihood not written yet -/
def WrittenUpTo (q p : DccPars V) : Prop :=
  p = { q with a := .nan, b := .nan, ll := .nan } ∨ p = { q with b := .nan, ll := .nan } ∨ p = { q with ll := .nan } ∨ p = q

structure MethodAll {A : Type} (cpp : Bool) (fitU : Run (GarchObj V) Unit) (opt : Optimizer (XR × XR)) (m : Run (DccObj V) A) : Prop where
  all : ∀ P : DccObj V → Prop, KeptAll fitU P → (∀ o, P o → P { o with success := true }) → (∀ o p, P o → P { o with params := p }) →
    All P m
  done : ∀ o, o.success = true → ∀ x ∈ crashStates m o, x.success = true ∧ x.params = o.params
  flag : ∀ o, o.success = false → ∀ x ∈ crashStates m o, x.success = false ∨
    ∃ o' r, dccFit cpp fitU.after opt o = .ok (o', r) ∧ o'.success = true ∧ r = o'.params ∧ WrittenUpTo r x.params

theorem methodAll_of {A : Type} {m : Run (DccObj V) A} (h : ∀ P : DccObj V → Prop, KeptAll fitU P → All P m) :
    MethodAll cpp fitU opt m where
  all P hP _ _ := h P hP
  done o ho := h (fun q => q.success = true ∧ q.params = o.params) ⟨fun _ h _ _ => h, fun _ h _ _ => h⟩ o ⟨ho, rfl⟩
  flag o ho x hx := .inl (h (fun q => q.success = false) ⟨fun _ h _ _ => h, fun _ h _ _ => h⟩ o ho x hx)

theorem methodAll_dcc (hst : ∀ m m', fitU.after m = .ok m' → fitU.after m' = .ok m') :
    MethodAll cpp fitU opt (dccFitRun cpp fitU opt) where
  all P hP hs hp := all_dcc hP hs hp
  done o ho x hx := by
    unfold dccFitRun at hx
    simp only [bind_eq, pure_eq, mem_andThen, crash_get, List.mem_singleton] at hx
    rcases hx with rfl | ⟨a, t, h, hx⟩
    · exact ⟨ho, rfl⟩
    rw [exec_get] at h
    obtain ⟨rfl, rfl⟩ := ok_pair h
    rw [if_pos ho, crash_ret, List.mem_singleton] at hx
    rw [hx]; exact ⟨ho, rfl⟩
  flag o ho x hx := by
    cases hs : x.success with
    | false => exact .inl rfl
    | true =>
      obtain ⟨o', r, h, hs', hx⟩ := dccAt_torn (crash_dcc hst ho hx) ho hs
      refine .inr ⟨o', r, h, hs', ?_, ?_⟩
      · obtain ⟨_, _, _, _, _, _, _, _, hr, _⟩ := dccFit_cases (by simp [ho]) h
        exact hr
      · obtain ⟨_, _, _, _, _, _, _, _, hr, _⟩ := dccFit_cases (by simp [ho]) h
        rw [hr]
        rcases hx with rfl | rfl | rfl | rfl
        · exact .inl rfl
        · exact .inr (.inl rfl)
        · exact .inr (.inr (.inl rfl))
        · exact .inr (.inr (.inr rfl))

structure InvAll (cpp : Bool) (fitU : Run (GarchObj V) Unit) (opt : Optimizer (XR × XR)) (wire : κ → ι × ι)
    (w0 w : Frds.Model.Shared.World V ι κ) : Prop where
  like : ∀ i, fitU.after (w.model i) = fitU.after (w0.model i)
  fresh : ∀ k, w.success k = false ∨
    ∃ o' r, dccFit cpp fitU.after opt (Frds.Model.Shared.pull wire k w0) = .ok (o', r) ∧ o'.success = true ∧ r = o'.params ∧
      WrittenUpTo r (w.params k)

theorem invAll_method {A : Type} {m : Run (DccObj V) A} (hm : MethodAll cpp fitU opt m)
    (hre : ∀ m, ∀ x ∈ crashStates fitU m, fitU.after x = fitU.after m)
    {w0 w w' : Frds.Model.Shared.World V ι κ} (h0 : ∀ k, w0.success k = false) (hi : InvAll cpp fitU opt wire w0 w) (k : κ)
    (hw' : w' ∈ crashStates (Run.andThen (on (Frds.Model.Shared.pull wire k) (Frds.Model.Shared.push wire k) m) fun _ => ret ()) w) :
    InvAll cpp fitU opt wire w0 w' := by
  have he : ∃ y ∈ crashStates m (Frds.Model.Shared.pull wire k w), w' = Frds.Model.Shared.push wire k w y := by
    rw [mem_andThen] at hw'
    rcases hw' with h | ⟨a, t, h, h'⟩
    · exact (mem_on (fun s => push_pull k s)).mp h
    · rw [crash_ret, List.mem_singleton] at h'
      rw [h']
      exact (mem_on (fun s => push_pull k s)).mp (exec_mem h)
  obtain ⟨y, hy, rfl⟩ := he
  have hlike : fitU.after y.model1 = fitU.after (w.model (wire k).1) ∧ fitU.after y.model2 = fitU.after (w.model (wire k).2) :=
    hm.all (fun q => fitU.after q.model1 = fitU.after (w.model (wire k).1) ∧ fitU.after q.model2 = fitU.after (w.model (wire k).2))
      ⟨fun o h m hm => ⟨(hre _ _ hm).trans h.1, h.2⟩, fun o h m hm => ⟨h.1, (hre _ _ hm).trans h.2⟩⟩
      (fun o h => h) (fun o p h => h) (Frds.Model.Shared.pull wire k w) ⟨rfl, rfl⟩ y hy
  refine ⟨fun i => ?_, fun k' => ?_⟩
  · rw [← hi.like i]
    simp only [Frds.Model.Shared.push]
    by_cases h1 : i = (wire k).1
    · rw [if_pos h1, h1]; exact hlike.1
    · rw [if_neg h1]
      by_cases h2 : i = (wire k).2
      · rw [if_pos h2, h2]; exact hlike.2
      · rw [if_neg h2]
  · simp only [Frds.Model.Shared.push]
    by_cases hk : k' = k
    · subst hk
      simp only [if_true]
      cases hs : w.success k' with
      | true =>
        have hd := hm.done (Frds.Model.Shared.pull wire k' w) hs y hy
        rw [hd.2]
        rcases hi.fresh k' with h | h
        · rw [h] at hs; cases hs
        · exact .inr h
      | false =>
        rcases hm.flag (Frds.Model.Shared.pull wire k' w) hs y hy with h | h
        · exact .inl h
        · right
          rwa [dccFit_congr (o := Frds.Model.Shared.pull wire k' w0) (x := Frds.Model.Shared.pull wire k' w) _ _ (h0 k') hs
            (hi.like _) (hi.like _)] at h
    · simp only [if_neg hk]
      exact hi.fresh k'

theorem invAll_history (hst : ∀ m m', fitU.after m = .ok m' → fitU.after m' = .ok m')
    (hre : ∀ m, ∀ x ∈ crashStates fitU m, fitU.after x = fitU.after m)
    {w0 w : Frds.Model.Shared.World V ι κ} (h0 : ∀ k, w0.success k = false)
    (h : Frds.Model.Shared.Interrupted (Frds.Model.Shared.opRun cpp fitU opt wire) w0 w) : InvAll cpp fitU opt wire w0 w := by
  induction h with
  | start => exact ⟨fun _ => rfl, fun k => .inl (h0 k)⟩
  | @call w w' c h hw' ih =>
    cases c with
    | fit i =>
      obtain ⟨m, hm, rfl⟩ := (mem_on (fun s => pushModel_self i s)).mp hw'
      refine ⟨fun j => ?_, ih.fresh⟩
      rw [← ih.like j]
      simp only [Frds.Model.Shared.pushModel]
      by_cases h : j = i
      · subst h; rw [if_pos rfl]; exact hre _ _ hm
      · rw [if_neg h]
    | dcc k => exact invAll_method (methodAll_dcc hst) hre h0 ih k hw'
    | start k => exact invAll_method (methodAll_of fun P hP => all_start hP) hre h0 ih k hw'
    | loglik k p => exact invAll_method (methodAll_of fun P hP => all_eval hP p) hre h0 ih k hw'
    | corr k a b => exact invAll_method (methodAll_of fun P hP => all_corr hP a b) hre h0 ih k hw'

end Shared
open Shared

/-- C191. Any number of `GARCHModel_DCC` objects on any number of `GARCHModel` objects, each of which may be shared by several of
them: after any sequence of calls of `fit` of the univariate and of the correlation models, `starting_values`,
`loglikelihood_model` and `conditional_correlations`, in any order, each returning or raising, `fit` of each correlation model
has the outcome it would have had as the very first call: the same parameters, the same attributes of the object and of its two
univariate models, or the same exception. -/
theorem C191_garch {ι κ : Type} (cpp : Bool) (opt1 : Optimizer (XR × GarchVar)) (hev : Evaluates opt1) (opt : Optimizer (XR × XR))
    (wire : κ → ι × ι) (hw : ∀ k, (wire k).1 ≠ (wire k).2) (w0 w : Frds.Model.Shared.World GarchVar ι κ)
    (h0 : ∀ k, w0.success k = false)
    (h : Frds.Model.Shared.Calls (Frds.Model.Shared.opRun cpp (uFitRun cpp opt1) opt wire) w0 w) (k : κ) :
    exec (dccFitRun cpp (uFitRun cpp opt1) opt) (Frds.Model.Shared.pull wire k w)
      = exec (dccFitRun cpp (uFitRun cpp opt1) opt) (Frds.Model.Shared.pull wire k w0) := by
  rw [exec_dcc, exec_dcc]
  exact exec_pull h0 (inv_calls (uFit_settles cpp opt1) (uFit_again hev) hw h0 h) k

/-- C191. The same for `GJRGARCHModel_DCC` objects on `GJRGARCHModel` objects. -/
theorem C191_gjr {ι κ : Type} (cpp : Bool) (opt1 : Optimizer (XR × GjrVar)) (hev : Evaluates opt1) (opt : Optimizer (XR × XR))
    (wire : κ → ι × ι) (hw : ∀ k, (wire k).1 ≠ (wire k).2) (w0 w : Frds.Model.Shared.World GjrVar ι κ)
    (h0 : ∀ k, w0.success k = false)
    (h : Frds.Model.Shared.Calls (Frds.Model.Shared.opRun cpp (uFitGjrRun cpp opt1) opt wire) w0 w) (k : κ) :
    exec (dccFitRun cpp (uFitGjrRun cpp opt1) opt) (Frds.Model.Shared.pull wire k w)
      = exec (dccFitRun cpp (uFitGjrRun cpp opt1) opt) (Frds.Model.Shared.pull wire k w0) := by
  rw [exec_dcc, exec_dcc]
  exact exec_pull h0 (inv_calls (uFitGjr_settles cpp opt1) (uFitGjr_again hev) hw h0 h) k

/-- C191. The univariate models too: after any such sequence, `fit` of each has the effect it would have had as the very first
call, and once that returned it leaves the model as it is. -/
theorem C191_univariate {ι κ : Type} (cpp : Bool) (opt1 : Optimizer (XR × GarchVar)) (hev : Evaluates opt1) (opt : Optimizer (XR × XR))
    (wire : κ → ι × ι) (hw : ∀ k, (wire k).1 ≠ (wire k).2) (w0 w : Frds.Model.Shared.World GarchVar ι κ)
    (h0 : ∀ k, w0.success k = false)
    (h : Frds.Model.Shared.Calls (Frds.Model.Shared.opRun cpp (uFitRun cpp opt1) opt wire) w0 w) (i : ι) :
    uFit cpp opt1 (w.model i) = uFit cpp opt1 (w0.model i) ∧
    ∀ m, uFit cpp opt1 (w0.model i) = .ok m → uFit cpp opt1 m = .ok m := by
  have hi := (inv_calls (uFit_settles cpp opt1) (uFit_again hev) hw h0 h).like i
  rw [uFit_after] at hi
  refine ⟨hi, fun m hm => ?_⟩
  rw [← uFit_after] at hm ⊢
  exact uFit_settles cpp opt1 _ _ hm

/-- C191. With `GJRGARCHModel` objects each call may also be interrupted at any point: a correlation model whose
`estimation_success` is not set has the outcome it would have had as the very first call; one whose flag is set has the
parameters that first call would have given, of which the last, the last two or all three of `a`, `b` and the log-likelihood may
be NaN. -/
theorem C191_gjr_interrupted {ι κ : Type} (cpp : Bool) (opt1 : Optimizer (XR × GjrVar)) (hev : Evaluates opt1)
    (opt : Optimizer (XR × XR)) (wire : κ → ι × ι) (w0 w : Frds.Model.Shared.World GjrVar ι κ)
    (h0 : ∀ k, w0.success k = false)
    (h : Frds.Model.Shared.Interrupted (Frds.Model.Shared.opRun cpp (uFitGjrRun cpp opt1) opt wire) w0 w) (k : κ) :
    (w.success k = false → exec (dccFitRun cpp (uFitGjrRun cpp opt1) opt) (Frds.Model.Shared.pull wire k w)
      = exec (dccFitRun cpp (uFitGjrRun cpp opt1) opt) (Frds.Model.Shared.pull wire k w0)) ∧
    (w.success k = true → ∃ o' r, exec (dccFitRun cpp (uFitGjrRun cpp opt1) opt) (Frds.Model.Shared.pull wire k w0) = .ok (o', r) ∧
      o'.success = true ∧
      (w.params k = { r with a := .nan, b := .nan, ll := .nan } ∨ w.params k = { r with b := .nan, ll := .nan } ∨
        w.params k = { r with ll := .nan } ∨ w.params k = r)) := by
  have hi := invAll_history (uFitGjr_settles cpp opt1) (fun m x hx => by
    rw [uFitGjr_after]; exact uFitGjr_retry hev hx) h0 h
  rw [exec_dcc, exec_dcc]
  refine ⟨fun hs => dccFit_congr _ _ (h0 k) hs (hi.like _) (hi.like _), fun hs => ?_⟩
  rcases hi.fresh k with h | ⟨o', r, h1, h2, _, h3⟩
  · rw [h] at hs; cases hs
  · exact ⟨o', r, h1, h2, h3⟩

-- two correlation models of one market model and two firm models: the first is estimated, then the second
example (cpp : Bool) (w0 : Frds.Model.Shared.World GarchVar (Fin 3) Bool) (h0 : ∀ k, w0.success k = false) :
    Evaluates (stay : Optimizer (XR × GarchVar)) ∧
    (∀ k : Bool, ((fun k : Bool => ((0 : Fin 3), if k then (1 : Fin 3) else 2)) k).1
      ≠ ((fun k : Bool => ((0 : Fin 3), if k then (1 : Fin 3) else 2)) k).2) ∧
    Frds.Model.Shared.Calls (Frds.Model.Shared.opRun cpp (uFitRun cpp stay) stay
        (fun k : Bool => ((0 : Fin 3), if k then (1 : Fin 3) else 2))) w0
      (afterCall (Frds.Model.Shared.opRun cpp (uFitRun cpp stay) stay
        (fun k : Bool => ((0 : Fin 3), if k then (1 : Fin 3) else 2)) (.dcc false))
        (afterCall (Frds.Model.Shared.opRun cpp (uFitRun cpp stay) stay
          (fun k : Bool => ((0 : Fin 3), if k then (1 : Fin 3) else 2)) (.dcc true)) w0)) :=
  ⟨stay_evaluates, by intro k; cases k <;> simp, .call _ (.call _ .start)⟩

end
end Frds.Props

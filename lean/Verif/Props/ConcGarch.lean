import Verif.Lemmas.ConcGarch

/-! C175: concurrent fits of one univariate model. -/
namespace Frds.Props
noncomputable section
open Frds Frds.Model Frds.Model.Conc Frds.Props.Crash Classical
set_option linter.unusedSimpArgs false
set_option linter.unusedVariables false

namespace ConcGarch
variable {ι V : Type}

/-- the fit gets as far as its optimisation, with these variance bounds and starting values -/
def Starts (cpp : Bool) (startSeq : List XR → List XR → XR → List (XR × XR) → Except PyErr (Option V)) (o : GarchObj V)
    (vb : List (XR × XR)) (v0 : V) : Prop :=
  varianceBounds cpp (prepResids o) = .ok vb ∧
    startSeq o.returns (prepResids o) (backcast (prepResids o)) vb = .ok (some v0)

/-- a point the optimiser of one of the threads may ask for -/
def AskedBySome (cpp : Bool) (startSeq : List XR → List XR → XR → List (XR × XR) → Except PyErr (Option V))
    (feas : Bool → Feas (XR × V)) (st : ι → Strategy (XR × V)) (o : GarchObj V) (q : XR × V) : Prop :=
  ∃ i vb v0, Starts cpp startSeq o vb v0 ∧ (st i (feas o.zeroMean) (startPoint o v0)).MayAsk q

/-- a value one of the threads may get for the objective at `p`: minus the log-likelihood of the residuals at `p`, with the
variances computed at a point `q` which some thread asked for -/
def Answer (cpp : Bool) (var : V → List XR → XR → List (XR × XR) → Except PyErr (List XR))
    (startSeq : List XR → List XR → XR → List (XR × XR) → Except PyErr (Option V))
    (feas : Bool → Feas (XR × V)) (st : ι → Strategy (XR × V)) (o : GarchObj V) (p : XR × V) (v : XR) : Prop :=
  ∃ vb q rp sp rq sq, varianceBounds cpp (prepResids o) = .ok vb ∧ AskedBySome cpp startSeq feas st o q ∧
    modelPath var o (backcast (prepResids o)) vb p = .ok (rp, sp) ∧
    modelPath var o (backcast (prepResids o)) vb q = .ok (rq, sq) ∧ v = -loglik rp sq

/-- a result the optimiser of one of the threads may report, having been given such values -/
def Reported (cpp : Bool) (var : V → List XR → XR → List (XR × XR) → Except PyErr (List XR))
    (startSeq : List XR → List XR → XR → List (XR × XR) → Except PyErr (Option V))
    (feas : Bool → Feas (XR × V)) (st : ι → Strategy (XR × V)) (o : GarchObj V) (x : XR × V) (f : XR) : Prop :=
  ∃ i vb v0, Starts cpp startSeq o vb v0 ∧
    (st i (feas o.zeroMean) (startPoint o v0)).MayEnd (Answer cpp var startSeq feas st o) x f

/-- the parameters stored for a reported result -/
def stored (o : GarchObj V) (x : XR × V) (f : XR) : XR × V × XR := (if o.zeroMean then 0 else x.1, x.2, -f)

/-- what holds of the shared object under every schedule -/
structure Sound (cpp : Bool) (var : V → List XR → XR → List (XR × XR) → Except PyErr (List XR))
    (startSeq : List XR → List XR → XR → List (XR × XR) → Except PyErr (Option V))
    (feas : Bool → Feas (XR × V)) (st : ι → Strategy (XR × V)) (o s : GarchObj V) : Prop where
  /-- the data are untouched -/
  returns : s.returns = o.returns
  zeroMean : s.zeroMean = o.zeroMean
  /-- the parameters are the old ones, or those reported by one optimiser -/
  params : s.params = o.params ∨ ∃ x f, Reported cpp var startSeq feas st o x f ∧ s.params = some (stored o x f)
  /-- the variances are the old ones, or those computed at one point -/
  sigma2 : s.sigma2 = o.sigma2 ∨ ∃ vb q r, varianceBounds cpp (prepResids o) = .ok vb ∧ AskedBySome cpp startSeq feas st o q ∧
    modelPath var o (backcast (prepResids o)) vb q = .ok (r, s.sigma2)
  /-- the residuals are the old ones, or those of one reported result -/
  resids : s.resids = o.resids ∨ ∃ x f, Reported cpp var startSeq feas st o x f ∧
    s.resids = demean o.returns (if o.zeroMean then 0 else x.1)
  /-- the success flag is raised only by an optimiser's success -/
  success : s.success = o.success ∨ s.success = true ∧ ∃ x f, Reported cpp var startSeq feas st o x f

theorem ans_iff (cpp : Bool) (var : V → List XR → XR → List (XR × XR) → Except PyErr (List XR))
    (startSeq : List XR → List XR → XR → List (XR × XR) → Except PyErr (Option V))
    (feas : Bool → Feas (XR × V)) (st : ι → Strategy (XR × V)) (o : GarchObj V) (p : XR × V) (v : XR)
    (h : Ans cpp var o (AskedBySome cpp startSeq feas st o) p v) : Answer cpp var startSeq feas st o p v := by
  obtain ⟨vb, r, s2, l, hvb, hp, ⟨vb', q, rq, hvb', hq, hl⟩, rfl⟩ := h
  rw [hvb] at hvb'
  injection hvb' with e
  subst e
  exact ⟨vb, q, r, s2, rq, l, hvb, hq, hp, hl, rfl⟩

theorem MayEnd.weaken {P : Type} {a b : P → XR → Prop} (hab : ∀ p v, a p v → b p v) {t : Opt P} {x : P} {f : XR}
    (h : t.MayEnd a x f) : t.MayEnd b x f := by
  induction h with
  | done x f => exact .done x f
  | ask p k v hv x f _ ih => exact .ask p k v (hab _ _ hv) x f ih

section
variable {cpp : Bool} {var : V → List XR → XR → List (XR × XR) → Except PyErr (List XR)}
  {start : List XR → Prog (GarchObj V) (Option V)}
  {startSeq : List XR → List XR → XR → List (XR × XR) → Except PyErr (Option V)}
  {feas : Bool → Feas (XR × V)} {st : ι → Strategy (XR × V)} {o : GarchObj V}

/-- the invariant instantiated -/
abbrev Inv' (cpp : Bool) (var : V → List XR → XR → List (XR × XR) → Except PyErr (List XR))
    (startSeq : List XR → List XR → XR → List (XR × XR) → Except PyErr (Option V))
    (feas : Bool → Feas (XR × V)) (st : ι → Strategy (XR × V)) (o s : GarchObj V) : Prop :=
  Inv cpp var o (AskedBySome cpp startSeq feas st o) (Reported cpp var startSeq feas st o) s

abbrev G' (cpp : Bool) (var : V → List XR → XR → List (XR × XR) → Except PyErr (List XR))
    (startSeq : List XR → List XR → XR → List (XR × XR) → Except PyErr (Option V))
    (feas : Bool → Feas (XR × V)) (st : ι → Strategy (XR × V)) (o s s' : GarchObj V) : Prop :=
  GG cpp var o (AskedBySome cpp startSeq feas st o) (Reported cpp var startSeq feas st o) s s'

theorem inv_self : Inv' cpp var startSeq feas st o o := ⟨rfl, rfl, .inl rfl, .inl rfl, .inl rfl, .inl rfl⟩

theorem inv_sound {s : GarchObj V} (h : Inv' cpp var startSeq feas st o s) : Sound cpp var startSeq feas st o s := by
  refine ⟨h.returns, h.zeroMean, ?_, ?_, ?_, h.success⟩
  · exact h.params
  · rcases h.sigma2 with h | ⟨vb, q, r, h⟩
    · exact .inl h
    · exact .inr ⟨vb, q, r, h⟩
  · exact h.resids

theorem ok_fit' (hst : StartOk cpp var start startSeq) (ht : Total cpp var startSeq) (i : ι) {s : GarchObj V}
    (hs : Inv' cpp var startSeq feas st o s) :
    Ok (G' cpp var startSeq feas st o) (fun r s => Inv' cpp var startSeq feas st o s ∧
      ∀ e, r = .error e → ∀ opt, fitCore cpp var startSeq feas opt o = .error e) (fitProg cpp var start feas (st i)) s :=
  ok_fit hst ht (st i) (fun vb v0 q h1 h2 h3 => ⟨i, vb, v0, ⟨h1, h2⟩, h3⟩)
    (fun vb v0 x f h1 h2 h3 => ⟨i, vb, v0, ⟨h1, h2⟩, MayEnd.weaken (ans_iff _ _ _ _ _ _) h3⟩) hs

theorem honest_params {s : GarchObj V} (hh : ∀ i c x0, (st i c x0).Honest []) (h : Sound cpp var startSeq feas st o s) :
    s.params = o.params ∨ ∃ vb p q rp sp rq sq, varianceBounds cpp (prepResids o) = .ok vb ∧
      AskedBySome cpp startSeq feas st o q ∧
      modelPath var o (backcast (prepResids o)) vb p = .ok (rp, sp) ∧
      modelPath var o (backcast (prepResids o)) vb q = .ok (rq, sq) ∧
      s.params = some (if o.zeroMean then 0 else p.1, p.2, loglik rp sq) := by
  rcases h.params with h | ⟨x, f, ⟨i, vb, v0, -, he⟩, hp⟩
  · exact .inl h
  · refine .inr ?_
    obtain ⟨vb, q, rp, sp, rq, sq, h1, h2, h3, h4, rfl⟩ := he.honest [] (hh i _ _) (by simp)
    refine ⟨vb, x, q, rp, sp, rq, sq, h1, h2, h3, h4, ?_⟩
    rw [hp]
    unfold stored
    congr 3
    cases loglik rp sq with
    | fin r => rw [XR.fin_neg, XR.fin_neg, neg_neg]
    | _ => rfl

end
end ConcGarch
open ConcGarch

/-- C175. Any number of threads call `fit` on one `GARCHModel` object, each with its own optimiser. Under every schedule the
object stays sound (data untouched; parameters, variances, residuals each the old ones or one thread's). A thread raises only
what `fit` raises on the original object whatever the optimiser; it returns `None` only if the object was, or has been,
estimated; and otherwise it returns the original parameters or those reported by one thread's optimiser. -/
theorem C175_garch {ι : Type} (cpp : Bool) (st : ι → Strategy (XR × GarchVar)) (o : GarchObj GarchVar) (sched : List ι)
    (c : Sys ι (GarchObj GarchVar) (Option (Option (XR × GarchVar × XR))))
    (hc : c = (Sys.mk o fun i => garchFitProg cpp (st i)).exec sched) :
    Sound cpp (garchVariance cpp) (garchStart cpp) garchFeas st o c.shared ∧
    (∀ i e, c.result i = some (.error e) → ∀ opt, garchFit cpp opt { o with success := false } = .error e) ∧
    (∀ i, c.result i = some (.ok none) → o.success = true ∨
      ∃ x f, Reported cpp (garchVariance cpp) (garchStart cpp) garchFeas st o x f) ∧
    ∀ i ps, c.result i = some (.ok (some ps)) → ps = o.params ∨
      ∃ x f, Reported cpp (garchVariance cpp) (garchStart cpp) garchFeas st o x f ∧ ps = some (stored o x f) := by
  subst hc
  have hok : ∀ i, Ok (G' cpp (garchVariance cpp) (garchStart cpp) garchFeas st o)
      (fun r s => (∀ e, r = .error e → ∀ opt, fitCore cpp (garchVariance cpp) (garchStart cpp) garchFeas opt o = .error e) ∧
        (r = .ok none → o.success = true ∨
          ∃ x f, Reported cpp (garchVariance cpp) (garchStart cpp) garchFeas st o x f) ∧
        ∀ ps, r = .ok (some ps) → ps = o.params ∨
          ∃ x f, Reported cpp (garchVariance cpp) (garchStart cpp) garchFeas st o x f ∧ ps = some (stored o x f))
      ((Sys.mk o fun i => garchFitProg cpp (st i)).thread i) o := by
    intro i
    show Ok _ _ (garchFitProg cpp (st i)) o
    unfold garchFitProg
    simp only [Prog.bind_eq]
    refine Ok.bind GG_refl (Ok.get ?_)
    intro s1 h1 s2 h2
    have i1 := (h1 inv_self).1
    have i2 := (h2 i1).1
    simp only
    by_cases hs : s1.success = true
    · rw [if_pos hs]
      intro s3 h3
      refine ⟨fun e he => (by cases he), fun _ => ?_, fun ps he => (by cases he)⟩
      rcases i1.success with h | ⟨-, h⟩
      · exact .inl (h ▸ hs)
      · exact .inr h
    · rw [if_neg hs]
      refine Ok.bind GG_refl ((ok_fit' (startOk_garch cpp _) (total_garch cpp) i i2).weaken ?_)
      rintro r s3 ⟨i3, he⟩
      cases r with
      | error e =>
        refine ⟨fun e' h opt => ?_, fun h => (by cases h), fun ps h => (by cases h)⟩
        injection h with h
        subst h
        exact he _ rfl opt
      | ok u =>
        simp only
        refine Ok.bind GG_refl (Ok.get ?_)
        intro s4 h4 s5 h5
        simp only
        intro s6 h6
        refine ⟨fun e he => (by cases he), fun he => (by cases he), fun ps he => ?_⟩
        injection he with he
        injection he with he
        subst he
        exact (inv_sound (h4 i3).1).params
  have hG := (Ok.sound GG_refl GG_trans (c := Sys.mk o fun i => garchFitProg cpp (st i)) hok sched).1
  have hres := fun i r => Ok.result GG_refl GG_trans (c := Sys.mk o fun i => garchFitProg cpp (st i)) hok sched (i := i) (r := r)
  refine ⟨inv_sound (hG inv_self).1, fun i e h opt => ?_, fun i h => (hres i _ h).2.1 rfl, fun i ps h => (hres i _ h).2.2 ps rfl⟩
  have := (hres i _ h).1 e rfl opt
  unfold garchFit
  rw [if_neg (by simp)]
  unfold fitCore at this ⊢
  simp only [bind, Except.bind] at this ⊢
  have ep : prepResids { o with success := false } = prepResids o := rfl
  rw [ep]
  cases hv : varianceBounds cpp (prepResids o) with
  | error e' => rw [hv] at this; simp only at this ⊢; injection this with this; rw [this]
  | ok vb =>
    rw [hv] at this
    simp only at this ⊢
    cases hq : garchStart cpp o.returns (prepResids o) (backcast (prepResids o)) vb with
    | error e' => rw [hq] at this; simp only at this ⊢; injection this with this; rw [this]
    | ok v0 =>
      rw [hq] at this
      cases v0 with
      | none => simp only at this ⊢; injection this with this; rw [this]
      | some v0 => simp only at this; split_ifs at this

/-- C175. The same for `GJRGARCHModel`, whose `fit` estimates again each time. -/
theorem C175_gjr {ι : Type} (cpp : Bool) (st : ι → Strategy (XR × GjrVar)) (o : GarchObj GjrVar) (sched : List ι)
    (c : Sys ι (GarchObj GjrVar) (Option (Option (XR × GjrVar × XR))))
    (hc : c = (Sys.mk o fun i => gjrFitProg cpp (st i)).exec sched) :
    Sound cpp (gjrVariance cpp) (fun ret res _ _ => gjrStart cpp ret res) gjrFeas st o c.shared ∧
    (∀ i e, c.result i = some (.error e) → ∀ opt, gjrFit cpp opt o = .error e) ∧
    (∀ i, c.result i ≠ some (.ok none)) ∧
    ∀ i ps, c.result i = some (.ok (some ps)) → ps = o.params ∨
      ∃ x f, Reported cpp (gjrVariance cpp) (fun ret res _ _ => gjrStart cpp ret res) gjrFeas st o x f ∧
        ps = some (stored o x f) := by
  subst hc
  have hok : ∀ i, Ok (G' cpp (gjrVariance cpp) (fun ret res _ _ => gjrStart cpp ret res) gjrFeas st o)
      (fun r s => (∀ e, r = .error e → ∀ opt,
          fitCore cpp (gjrVariance cpp) (fun ret res _ _ => gjrStart cpp ret res) gjrFeas opt o = .error e) ∧
        r ≠ .ok none ∧
        ∀ ps, r = .ok (some ps) → ps = o.params ∨
          ∃ x f, Reported cpp (gjrVariance cpp) (fun ret res _ _ => gjrStart cpp ret res) gjrFeas st o x f ∧
            ps = some (stored o x f))
      ((Sys.mk o fun i => gjrFitProg cpp (st i)).thread i) o := by
    intro i
    show Ok _ _ (gjrFitProg cpp (st i)) o
    unfold gjrFitProg
    simp only [Prog.bind_eq]
    refine Ok.bind GG_refl ((ok_fit' (startOk_gjr cpp _) (total_gjr cpp) i inv_self).weaken ?_)
    rintro r s3 ⟨i3, he⟩
    cases r with
    | error e =>
      refine ⟨fun e' h opt => ?_, fun h => (by cases h), fun ps h => (by cases h)⟩
      injection h with h
      subst h
      exact he _ rfl opt
    | ok u =>
      simp only
      refine Ok.bind GG_refl (Ok.get ?_)
      intro s4 h4 s5 h5
      simp only
      intro s6 h6
      refine ⟨fun e he => (by cases he), fun he => (by cases he), fun ps he => ?_⟩
      injection he with he
      injection he with he
      subst he
      exact (inv_sound (h4 i3).1).params
  have hG := (Ok.sound GG_refl GG_trans (c := Sys.mk o fun i => gjrFitProg cpp (st i)) hok sched).1
  have hres := fun i r => Ok.result GG_refl GG_trans (c := Sys.mk o fun i => gjrFitProg cpp (st i)) hok sched (i := i) (r := r)
  refine ⟨inv_sound (hG inv_self).1, fun i e h opt => ?_, fun i h => (hres i _ h).2.1 rfl, fun i ps h => (hres i _ h).2.2 ps rfl⟩
  have := (hres i _ h).1 e rfl opt
  unfold gjrFit
  rw [this]
  rfl

/-- C175. If every optimiser reports, on success, a point it asked for together with the value it was given there, then
whatever the schedule the log-likelihood stored with the parameters is the log-likelihood of the residuals at these
parameters with the variances of some point one of the threads asked for -- not necessarily the same point. -/
theorem C175_loglikelihood {ι : Type} (cpp : Bool) (st : ι → Strategy (XR × GarchVar))
    (hh : ∀ i c x0, (st i c x0).Honest []) (o : GarchObj GarchVar) (sched : List ι)
    (c : Sys ι (GarchObj GarchVar) (Option (Option (XR × GarchVar × XR))))
    (hc : c = (Sys.mk o fun i => garchFitProg cpp (st i)).exec sched) :
    c.shared.params = o.params ∨ ∃ vb p q rp sp rq sq, varianceBounds cpp (prepResids o) = .ok vb ∧
      AskedBySome cpp (garchStart cpp) garchFeas st o q ∧
      modelPath (garchVariance cpp) o (backcast (prepResids o)) vb p = .ok (rp, sp) ∧
      modelPath (garchVariance cpp) o (backcast (prepResids o)) vb q = .ok (rq, sq) ∧
      c.shared.params = some (if o.zeroMean then 0 else p.1, p.2, loglik rp sq) :=
  honest_params hh (C175_garch cpp st o sched c hc).1

/-- C175. If every optimiser reports success only at points satisfying the bounds and constraints, the parameters of the
shared object satisfy them under every schedule, once they are not the original ones. -/
theorem C175_feasible {ι : Type} (cpp : Bool) (st : ι → Strategy (XR × GarchVar)) (o : GarchObj GarchVar)
    (hf : ∀ i x0 x f, (st i (garchFeas o.zeroMean) x0).MayEnd (fun _ _ => True) x f → (garchFeas o.zeroMean).holds x)
    (sched : List ι) (c : Sys ι (GarchObj GarchVar) (Option (Option (XR × GarchVar × XR))))
    (hc : c = (Sys.mk o fun i => garchFitProg cpp (st i)).exec sched) :
    c.shared.params = o.params ∨ ∃ x f, (garchFeas o.zeroMean).holds x ∧
      c.shared.params = some (if o.zeroMean then 0 else x.1, x.2, -f) := by
  rcases (C175_garch cpp st o sched c hc).1.params with h | ⟨x, f, ⟨i, vb, v0, -, he⟩, hp⟩
  · exact .inl h
  · exact .inr ⟨x, f, hf i _ x f (MayEnd.weaken (fun _ _ _ => trivial) he), hp⟩

/-- C175. A thread that is scheduled again and again finishes. -/
theorem C175_finishes {ι : Type} (cpp : Bool) (st : ι → Strategy (XR × GarchVar)) (o : GarchObj GarchVar) (σ : ℕ → ι) (i : ι)
    (hi : ∀ n, ∃ m, n ≤ m ∧ σ m = i) :
    ∃ n, (((Sys.mk o fun i => garchFitProg cpp (st i)).exec (Sys.upTo σ n)).result i).isSome :=
  Sys.terminates _ σ i hi

/-- C175. With a single thread a call of `fit` is the sequential one: it raises the same exception or leaves the same object
and returns the same value. -/
theorem C175_alone (cpp : Bool) (st : Strategy (XR × GarchVar)) (o : GarchObj GarchVar) (stj : Strategy (XR × GjrVar))
    (oj : GarchObj GjrVar) :
    Agrees (garchFit cpp st.optimizer o) ((garchFitProg cpp st).run o) ∧
    Agrees (gjrFit cpp stj.optimizer oj) ((gjrFitProg cpp stj).run oj) := by
  constructor
  · unfold garchFit garchFitProg
    simp only [Prog.bind_eq, Prog.run_bind, Prog.run_get]
    by_cases hs : o.success = true
    · rw [if_pos hs, if_pos hs]; rfl
    · rw [if_neg hs, if_neg hs]
      have h := run_fit (cpp := cpp) (feas := garchFeas) (startRun_garch cpp) (total_garch cpp) st o rfl
      cases hf : fitCore cpp (garchVariance cpp) (garchStart cpp) garchFeas st.optimizer o with
      | error e =>
        rw [hf] at h
        simp only [Agrees, Except.map] at h
        simp only [Prog.run_bind, bind, Except.bind, Agrees, h]
      | ok o' =>
        rw [hf] at h
        simp only [Agrees, Except.map] at h
        simp only [Prog.run_bind, bind, Except.bind, Agrees, h]
        rfl
  · unfold gjrFit gjrFitProg
    have h := run_fit (cpp := cpp) (feas := gjrFeas) (startRun_gjr cpp) (total_gjr cpp) stj oj rfl
    cases hf : fitCore cpp (gjrVariance cpp) (fun ret res _ _ => gjrStart cpp ret res) gjrFeas stj.optimizer oj with
    | error e =>
      rw [hf] at h
      simp only [Agrees, Except.map] at h
      simp only [Prog.bind_eq, Prog.run_bind, bind, Except.bind, Agrees, h]
    | ok o' =>
      rw [hf] at h
      simp only [Agrees, Except.map] at h
      simp only [Prog.bind_eq, Prog.run_bind, bind, Except.bind, Agrees, h]
      rfl

end
end Frds.Props

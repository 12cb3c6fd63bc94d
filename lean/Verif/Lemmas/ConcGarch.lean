import Verif.Lemmas.Conc
import Verif.Props.Crash

/-! Interleaved univariate fits. -/
namespace Frds.Model.Conc
noncomputable section
open Frds Frds.Model Frds.Props.Crash Classical
set_option linter.unusedSimpArgs false
set_option linter.unusedVariables false

variable {P V : Type}

/-- whatever it is answered, the optimiser may at some time ask for the value at `q` -/
inductive Opt.MayAsk : Opt P → P → Prop
  | here (p : P) (k : XR → Opt P) : Opt.MayAsk (.ask p k) p
  | later (p : P) (k : XR → Opt P) (v : XR) (q : P) (h : Opt.MayAsk (k v) q) : Opt.MayAsk (.ask p k) q

/-- if every answer `v` it gets at a point `p` satisfies `ans p v`, the optimiser may report success with `x` and `f` -/
inductive Opt.MayEnd (ans : P → XR → Prop) : Opt P → P → XR → Prop
  | done (x : P) (f : XR) : Opt.MayEnd ans (.done true x f) x f
  | ask (p : P) (k : XR → Opt P) (v : XR) (hv : ans p v) (x : P) (f : XR) (h : Opt.MayEnd ans (k v) x f) :
      Opt.MayEnd ans (.ask p k) x f

/-- a successful result is a point asked for, with the value answered there -/
def Opt.Honest : Opt P → List (P × XR) → Prop
  | .done s x f, h => s = true → (x, f) ∈ h
  | .ask p k, h => ∀ v, Opt.Honest (k v) ((p, v) :: h)

theorem Opt.MayEnd.honest {ans : P → XR → Prop} {t : Opt P} {x : P} {f : XR} (h : Opt.MayEnd ans t x f) :
    ∀ l : List (P × XR), t.Honest l → (∀ q ∈ l, ans q.1 q.2) → ans x f := by
  induction h with
  | done x f => intro l hl hq; exact hq _ (hl rfl)
  | ask p k v hv x f _ ih =>
    intro l hl hq
    refine ih _ (hl v) fun q hq' => ?_
    rcases List.mem_cons.mp hq' with rfl | hq'
    · exact hv
    · exact hq q hq'

/-! #### alone -/

variable {cpp : Bool} {var : V → List XR → XR → List (XR × XR) → Except PyErr (List XR)}

theorem run_eval {o : GarchObj V} {bc : XR} {vb : List (XR × XR)} {p : XR × V} {q : List XR × List XR}
    (h : modelPath var o bc vb p = .ok q) :
    (evalProg var bc vb p).run o = ({ o with sigma2 := q.2 }, .ok (objective var o bc vb p)) := by
  unfold evalProg
  simp only [Prog.bind_eq, Prog.run_bind, Prog.run_get, Prog.run_lift, Prog.run_put, h]
  simp only [Prog.pure_eq, Prog.run_done]
  unfold objective
  rw [h]

theorem objective_congr {o o' : GarchObj V} (h1 : o'.returns = o.returns) (h2 : o'.zeroMean = o.zeroMean) (bc : XR)
    (vb : List (XR × XR)) : objective var o' bc vb = objective var o bc vb := by
  funext p; unfold objective; rw [modelPath_congr h1 h2]

theorem run_opt (t : Opt (XR × V)) {o : GarchObj V} {bc : XR} {vb : List (XR × XR)}
    (hok : ∀ p, ∃ q, modelPath var o bc vb p = .ok q) :
    (optProg var bc vb t).run o = ({ o with sigma2 := lastPath var o bc vb (t.run (objective var o bc vb)).trace },
      .ok ((t.run (objective var o bc vb)).success, (t.run (objective var o bc vb)).x, (t.run (objective var o bc vb)).f)) := by
  induction t generalizing o with
  | done s x f => rfl
  | ask p k ih =>
    obtain ⟨q, hq⟩ := hok p
    have e1 : optProg var bc vb (.ask p k) = Prog.bind' (evalProg var bc vb p) fun v => optProg var bc vb (k v) := by
      rw [optProg]
    rw [e1, Prog.run_bind, run_eval hq]
    simp only
    rw [ih (objective var o bc vb p) (o := { o with sigma2 := q.2 }) (fun p => hok p)]
    rw [objective_congr (o := o) (o' := { o with sigma2 := q.2 }) rfl rfl]
    have e2 : (Opt.ask p k).run (objective var o bc vb) =
        { (k (objective var o bc vb p)).run (objective var o bc vb) with
          trace := p :: ((k (objective var o bc vb p)).run (objective var o bc vb)).trace } := by
      rw [Opt.run]
    rw [e2]
    generalize (k (objective var o bc vb p)).run (objective var o bc vb) = r
    simp only
    congr 2
    unfold lastPath
    rw [modelPath_congr (o := o) (o' := { o with sigma2 := q.2 }) rfl rfl]
    cases hl : r.trace with
    | nil => simp [hq]
    | cons p' l' =>
      have : (p :: p' :: l').getLast? = (p' :: l').getLast? := by simp [List.getLast?_cons_cons]
      rw [this]
      cases hl : (p' :: l').getLast? with
      | none => simp at hl
      | some w =>
        obtain ⟨q', hq'⟩ := hok w
        simp only [hq']

theorem run_store (r : Bool × (XR × V) × XR) (o : GarchObj V) : (storeProg r).run o =
    (if r.1 then { o with success := true, params := some (if o.zeroMean then 0 else r.2.1.1, r.2.1.2, -r.2.2),
                          resids := demean o.returns (if o.zeroMean then 0 else r.2.1.1) } else o, .ok ()) := by
  unfold storeProg
  by_cases h : r.1 = true
  · rw [if_pos h, if_pos h]; rfl
  · rw [if_neg h, if_neg h]; rfl

/-- what is assumed of the starting values: alone they are those of the sequential model -/
def StartRun (cpp : Bool) (start : List XR → Prog (GarchObj V) (Option V))
    (startSeq : List XR → List XR → XR → List (XR × XR) → Except PyErr (Option V)) : Prop :=
  ∀ (o : GarchObj V) vb, varianceBounds cpp (prepResids o) = .ok vb → o.backcast = backcast (prepResids o) →
    o.bounds = some vb → (start (prepResids o)).run o = (o, startSeq o.returns (prepResids o) o.backcast vb)

theorem run_grid (o : GarchObj GarchVar) (vb : List (XR × XR)) (h : o.bounds = some vb) (resids : List XR)
    (cands : List GarchVar) (best : Option GarchVar) : (gridProg cpp resids best cands).run o =
      (o, cands.foldlM (m := Except PyErr) (fun best p => do
        let s2 ← garchVariance cpp p resids o.backcast vb
        return if .ninf < -(loglik resids s2) then some p else best) best) := by
  induction cands generalizing best with
  | nil => rfl
  | cons p ps ih =>
    have hb : boundsOf o = .ok vb := by unfold boundsOf; rw [h]
    rw [gridProg, List.foldlM_cons]
    simp only [Prog.bind_eq, Prog.run_bind, Prog.run_get, Prog.run_lift, hb, bind, Except.bind, pure, Except.pure, Prog.bind']
    cases garchVariance cpp p resids o.backcast vb with
    | error e => rfl
    | ok s2 => exact ih _

theorem startRun_garch (cpp : Bool) : StartRun cpp (garchStartProg cpp) (garchStart cpp) := by
  intro o vb hvb hbc hb
  unfold garchStartProg garchStart gridSearch
  simp only [Prog.bind_eq, Prog.run_bind, Prog.run_get]
  exact run_grid o vb hb _ _ _

theorem startRun_gjr (cpp : Bool) : StartRun cpp (gjrStartProg cpp) (fun ret res _ _ => gjrStart cpp ret res) := by
  intro o vb hvb hbc hb
  rfl

variable {start : List XR → Prog (GarchObj V) (Option V)}
  {startSeq : List XR → List XR → XR → List (XR × XR) → Except PyErr (Option V)}
  {feas : Bool → Feas (XR × V)}

/-- the object after `preparation` -/
def prepared (o : GarchObj V) (vb : List (XR × XR)) : GarchObj V :=
  { o with backcast := backcast (prepResids o), bounds := some vb }

theorem run_prep (hs : StartRun cpp start startSeq) (o : GarchObj V) :
    match varianceBounds cpp (prepResids o) with
    | .error e => ((prepProg cpp start).run o).2 = .error e
    | .ok vb => (prepProg cpp start).run o = (prepared o vb,
        (startSeq o.returns (prepResids o) (backcast (prepResids o)) vb).map
          fun v => v.map fun v0 => (if o.zeroMean then 0 else Np.mean o.returns, v0)) := by
  cases hb : varianceBounds cpp (prepResids o) with
  | error e =>
    simp only
    unfold prepProg
    simp only [Prog.bind_eq, Prog.run_bind, Prog.run_get, Prog.run_lift, Prog.run_put, hb]
  | ok vb =>
    simp only
    have h := hs (prepared o vb) vb hb rfl rfl
    unfold prepProg
    simp only [Prog.bind_eq, Prog.run_bind, Prog.run_get, Prog.run_lift, Prog.run_put, hb]
    have h' : (start (prepResids o)).run (prepared o vb) =
      (prepared o vb, startSeq o.returns (prepResids o) (backcast (prepResids o)) vb) := h
    have e : ({ (({ o with backcast := backcast (prepResids o) } : GarchObj V)) with bounds := some vb } : GarchObj V)
      = prepared o vb := rfl
    rw [e, h']
    cases startSeq o.returns (prepResids o) (backcast (prepResids o)) vb with
    | error e => rfl
    | ok v => rfl

theorem run_args (hs : StartRun cpp start startSeq) (st : Strategy (XR × V)) (o : GarchObj V) {vb : List (XR × XR)} {v0 : V}
    (hb : varianceBounds cpp (prepResids o) = .ok vb)
    (hst : startSeq o.returns (prepResids o) (backcast (prepResids o)) vb = .ok (some v0)) :
    (argsProg cpp start feas st).run o = (prepared o vb, .ok (backcast (prepResids o), vb,
      st (feas o.zeroMean) (if o.zeroMean then 0 else Np.mean o.returns, v0))) := by
  have hp := run_prep hs o
  rw [hb] at hp
  simp only at hp
  unfold argsProg
  simp only [Prog.bind_eq, Prog.run_bind, Prog.run_get, Prog.run_lift, Prog.run_put, hp, hst]
  rfl

/-- the outcome of a call that runs alone is that of the sequential model -/
def Agrees {A : Type} (y : Except PyErr (GarchObj V × A)) (w : GarchObj V × Except PyErr A) : Prop :=
  match y with
  | .error e => w.2 = .error e
  | .ok q => w = (q.1, .ok q.2)

theorem run_fit (hs : StartRun cpp start startSeq) (ht : Total cpp var startSeq) (st : Strategy (XR × V)) (o : GarchObj V)
    {y : Except PyErr (GarchObj V)} (hy : fitCore cpp var startSeq feas st.optimizer o = y) :
    Agrees (y.map fun o' => (o', ())) ((fitProg cpp var start feas st).run o) := by
  have hp := run_prep hs o
  unfold fitProg
  unfold argsProg
  unfold fitCore at hy
  simp only [Prog.bind_eq, Prog.run_bind, Prog.run_get, Prog.run_lift, Prog.run_put, bind, Except.bind] at hy ⊢
  cases hb : varianceBounds cpp (prepResids o) with
  | error e =>
    rw [hb] at hp hy
    simp only at hp hy ⊢
    subst hy
    simp only [Agrees, Except.map]
    rw [hp]
  | ok vb =>
    rw [hb] at hp hy
    simp only at hp hy ⊢
    rw [hp]
    cases hst : startSeq o.returns (prepResids o) (backcast (prepResids o)) vb with
    | error e => rw [hst] at hy; subst hy; rfl
    | ok v0 =>
      cases v0 with
      | none => rw [hst] at hy; subst hy; rfl
      | some v0 =>
        have hok := ht o vb v0 hb hst
        have hbo : boundsOf (prepared o vb) = .ok vb := rfl
        rw [hst] at hy
        simp only [Except.map, Option.map, Prog.run_lift, hbo, Prog.run_bind, Prog.pure_eq, Prog.run_done] at hy ⊢
        have hro := run_opt (var := var) (st (feas o.zeroMean) (if o.zeroMean then 0 else Np.mean o.returns, v0))
          (o := prepared o vb) (bc := backcast (prepResids o)) (vb := vb) (fun p => hok p)
        rw [objective_congr (o := o) (o' := prepared o vb) rfl rfl] at hro
        have e0 : (prepared o vb).zeroMean = o.zeroMean := rfl
        have e1 : (prepared o vb).backcast = backcast (prepResids o) := rfl
        have er : (st (feas o.zeroMean) (if o.zeroMean then 0 else Np.mean o.returns, v0)).run
          (objective var o (backcast (prepResids o)) vb) = st.optimizer (feas o.zeroMean)
            (objective var o (backcast (prepResids o)) vb) (if o.zeroMean then 0 else Np.mean o.returns, v0) := rfl
        rw [er] at hro
        rw [e0, e1, hro]
        simp only [run_store] at hy ⊢
        have e : ∀ tr, lastPath var (prepared o vb) (backcast (prepResids o)) vb tr
            = lastPath var o (backcast (prepResids o)) vb tr := by
          intro tr
          unfold lastPath
          rw [modelPath_congr (o := o) (o' := prepared o vb) rfl rfl]
          rfl
        rw [e]
        generalize st.optimizer (feas o.zeroMean)
            (objective var o (backcast (prepResids o)) vb) (if o.zeroMean then 0 else Np.mean o.returns, v0) = run at hy ⊢
        by_cases hsu : run.success = true
        · rw [if_pos hsu] at hy ⊢; subst hy; rfl
        · rw [if_neg hsu] at hy ⊢; subst hy; rfl

/-! #### interleaved -/

section
variable (cpp var) (o0 : GarchObj V) (Asked : XR × V → Prop) (Res : XR × V → XR → Prop)

/-- a variance path computed at a point some thread may ask for -/
def IsPath (l : List XR) : Prop := ∃ vb q r, varianceBounds cpp (prepResids o0) = .ok vb ∧ Asked q ∧
  modelPath var o0 (backcast (prepResids o0)) vb q = .ok (r, l)

/-- an answer some thread may get at `p`: the log-likelihood of the residuals at `p` with the variances of some point -/
def Ans (p : XR × V) (v : XR) : Prop := ∃ vb r s2 l, varianceBounds cpp (prepResids o0) = .ok vb ∧
  modelPath var o0 (backcast (prepResids o0)) vb p = .ok (r, s2) ∧ IsPath cpp var o0 Asked l ∧ v = -loglik r l

/-- the mean stored for an optimum -/
def muAt (x : XR × V) : XR := if o0.zeroMean then 0 else x.1

/-- parameters stored by some thread -/
def IsRes (ps : Option (XR × V × XR)) : Prop := ∃ x f, Res x f ∧ ps = some (muAt o0 x, x.2, -f)

/-- what always holds of the object -/
structure Inv (s : GarchObj V) : Prop where
  returns : s.returns = o0.returns
  zeroMean : s.zeroMean = o0.zeroMean
  params : s.params = o0.params ∨ IsRes o0 Res s.params
  sigma2 : s.sigma2 = o0.sigma2 ∨ IsPath cpp var o0 Asked s.sigma2
  resids : s.resids = o0.resids ∨ ∃ x f, Res x f ∧ s.resids = demean o0.returns (muAt o0 x)
  success : s.success = o0.success ∨ s.success = true ∧ ∃ x f, Res x f

/-- what the threads do to the object -/
def GG (s s' : GarchObj V) : Prop := Inv cpp var o0 Asked Res s →
  Inv cpp var o0 Asked Res s' ∧ (s.backcast = backcast (prepResids o0) → s'.backcast = backcast (prepResids o0)) ∧
  (∀ vb, varianceBounds cpp (prepResids o0) = .ok vb → s.bounds = some vb → s'.bounds = some vb) ∧
  (IsRes o0 Res s.params → IsRes o0 Res s'.params) ∧
  (IsPath cpp var o0 Asked s.sigma2 → IsPath cpp var o0 Asked s'.sigma2)
end

variable {o0 : GarchObj V} {Asked : XR × V → Prop} {Res : XR × V → XR → Prop}

theorem GG_refl (s : GarchObj V) : GG cpp var o0 Asked Res s s := fun h => ⟨h, id, fun _ _ => id, id, id⟩

theorem GG_trans (a b c : GarchObj V) (h : GG cpp var o0 Asked Res a b) (h' : GG cpp var o0 Asked Res b c) :
    GG cpp var o0 Asked Res a c := by
  intro ha
  obtain ⟨h1, h2, h3, h4, h5⟩ := h ha
  obtain ⟨k1, k2, k3, k4, k5⟩ := h' h1
  exact ⟨k1, fun h => k2 (h2 h), fun vb hv hb => k3 vb hv (h3 vb hv hb), fun h => k4 (h4 h), fun h => k5 (h5 h)⟩

/-- after `preparation` -/
def Ready (cpp : Bool) (var : V → List XR → XR → List (XR × XR) → Except PyErr (List XR)) (o0 : GarchObj V)
    (Asked : XR × V → Prop) (Res : XR × V → XR → Prop) (vb : List (XR × XR)) (s : GarchObj V) : Prop :=
  Inv cpp var o0 Asked Res s ∧ s.backcast = backcast (prepResids o0) ∧ s.bounds = some vb

theorem Ready.mono {vb : List (XR × XR)} (hvb : varianceBounds cpp (prepResids o0) = .ok vb) {s s' : GarchObj V}
    (h : Ready cpp var o0 Asked Res vb s) (hg : GG cpp var o0 Asked Res s s') : Ready cpp var o0 Asked Res vb s' := by
  obtain ⟨k1, k2, k3, -, -⟩ := hg h.1
  exact ⟨k1, k2 h.2.1, k3 vb hvb h.2.2⟩

theorem ok_opt {vb : List (XR × XR)} (hvb : varianceBounds cpp (prepResids o0) = .ok vb)
    (hok : ∀ p, ∃ q, modelPath var o0 (backcast (prepResids o0)) vb p = .ok q) (t : Opt (XR × V))
    (hask : ∀ q, t.MayAsk q → Asked q) (hend : ∀ x f, t.MayEnd (Ans cpp var o0 Asked) x f → Res x f)
    {s : GarchObj V} (hs : Inv cpp var o0 Asked Res s) :
    Ok (GG cpp var o0 Asked Res) (fun r s => Inv cpp var o0 Asked Res s ∧ ∃ q, r = .ok q ∧ (q.1 = true → Res q.2.1 q.2.2))
      (optProg var (backcast (prepResids o0)) vb t) s := by
  induction t generalizing s with
  | done sc x f =>
    intro s' h'
    refine ⟨(h' hs).1, (sc, x, f), rfl, fun h => hend x f ?_⟩
    simp only at h
    subst h
    exact .done x f
  | ask p k ih =>
    rw [optProg]
    refine Ok.bind GG_refl ?_
    unfold evalProg
    simp only [Prog.bind_eq]
    refine Ok.bind GG_refl (Ok.get ?_)
    intro s1 h1 s2 h2
    simp only
    obtain ⟨q, hq⟩ := hok p
    have i1 := (h1 hs).1
    have i2 := (h2 i1).1
    have e1 : modelPath var s1 (backcast (prepResids o0)) vb p = .ok q := by
      rw [modelPath_congr (o := o0) i1.returns i1.zeroMean, hq]
    refine Ok.bind GG_refl (Ok.lift ?_)
    intro s3 h3
    rw [e1]
    simp only
    refine Ok.bind GG_refl (Ok.put ?_)
    intro s4 h4
    have i4 := (h4 (h3 i2).1).1
    have hp : IsPath cpp var o0 Asked q.2 := ⟨vb, p, q.1, hvb, hask p (.here p k), hq⟩
    have i5 : Inv cpp var o0 Asked Res { s4 with sigma2 := q.2 } :=
      ⟨i4.returns, i4.zeroMean, i4.params, .inr hp, i4.resids, i4.success⟩
    refine ⟨fun _ => ⟨i5, id, fun _ _ => id, id, fun _ => hp⟩, ?_⟩
    intro s5 h5
    simp only
    obtain ⟨i6, -, -, -, p6⟩ := h5 i5
    refine Ok.bind GG_refl (Ok.get ?_)
    intro s6 h6 s7 h7
    simp only
    obtain ⟨i7, -, -, -, p7⟩ := h6 i6
    intro s8 h8
    simp only
    have i9 := (h8 (h7 i7).1).1
    have hans : Ans cpp var o0 Asked p (-loglik q.1 s6.sigma2) := ⟨vb, q.1, q.2, s6.sigma2, hvb, hq, p7 (p6 hp), rfl⟩
    exact ih _ (fun q' hq' => hask q' (.later p k _ q' hq')) (fun x f h => hend x f (.ask p k _ hans x f h)) i9

theorem ok_store {s : GarchObj V} (hs : Inv cpp var o0 Asked Res s) (r : Bool × (XR × V) × XR)
    (hr : r.1 = true → Res r.2.1 r.2.2) :
    Ok (GG cpp var o0 Asked Res) (fun a s => Inv cpp var o0 Asked Res s ∧ a = .ok () ∧ (r.1 = true → IsRes o0 Res s.params))
      (storeProg r) s := by
  unfold storeProg
  by_cases h : r.1 = true
  · rw [if_pos h]
    simp only [Prog.bind_eq]
    have hr' := hr h
    refine Ok.bind GG_refl (Ok.put ?_)
    intro s1 h1
    have i1 := (h1 hs).1
    have i2 : Inv cpp var o0 Asked Res { s1 with success := true } :=
      ⟨i1.returns, i1.zeroMean, i1.params, i1.sigma2, i1.resids, .inr ⟨rfl, _, _, hr'⟩⟩
    refine ⟨fun _ => ⟨i2, id, fun _ _ => id, id, id⟩, ?_⟩
    intro s2 h2
    simp only
    refine Ok.bind GG_refl (Ok.put ?_)
    intro s3 h3
    have i3 := (h3 (h2 i2).1).1
    have hres : IsRes o0 Res (some (if s3.zeroMean then 0 else r.2.1.1, r.2.1.2, -r.2.2)) :=
      ⟨r.2.1, r.2.2, hr', by unfold muAt; rw [i3.zeroMean]⟩
    have i4 : Inv cpp var o0 Asked Res
        { s3 with params := some (if s3.zeroMean then 0 else r.2.1.1, r.2.1.2, -r.2.2) } :=
      ⟨i3.returns, i3.zeroMean, .inr hres, i3.sigma2, i3.resids, i3.success⟩
    refine ⟨fun _ => ⟨i4, id, fun _ _ => id, fun _ => hres, id⟩, ?_⟩
    intro s4 h4
    obtain ⟨i5, -, -, r5, -⟩ := h4 i4
    simp only
    refine Ok.bind GG_refl (Ok.get ?_)
    intro s5 h5 s6 h6
    obtain ⟨i6, -, -, r6, -⟩ := h5 i5
    simp only
    obtain ⟨i7, -, -, r7, -⟩ := h6 i6
    have q6 := r6 (r5 hres)
    refine Ok.put ?_
    intro s7 h7
    obtain ⟨i8, -, -, r8, -⟩ := h7 i7
    have q8 := r8 (r7 q6)
    have i9 : Inv cpp var o0 Asked Res { s7 with resids := demean s5.returns (muOf s5) } := by
      refine ⟨i8.returns, i8.zeroMean, i8.params, i8.sigma2, .inr ?_, i8.success⟩
      obtain ⟨x, f, hx, hp⟩ := q6
      refine ⟨x, f, hx, ?_⟩
      show demean s5.returns (muOf s5) = _
      rw [i6.returns]
      unfold muOf
      rw [hp]
    refine ⟨fun _ => ⟨i9, id, fun _ _ => id, id, id⟩, ?_⟩
    intro s8 h8
    obtain ⟨i10, -, -, r10, -⟩ := h8 i9
    exact ⟨i10, rfl, fun _ => r10 q8⟩
  · rw [if_neg h]
    intro s1 h1
    exact ⟨(h1 hs).1, rfl, fun h' => absurd h' h⟩

/-- what is assumed of the starting values: they are those of the sequential model, whatever the others do -/
def StartOk (cpp : Bool) (var : V → List XR → XR → List (XR × XR) → Except PyErr (List XR))
    (start : List XR → Prog (GarchObj V) (Option V))
    (startSeq : List XR → List XR → XR → List (XR × XR) → Except PyErr (Option V)) : Prop :=
  ∀ (o0 : GarchObj V) (Asked : XR × V → Prop) (Res : XR × V → XR → Prop) (vb : List (XR × XR)),
    varianceBounds cpp (prepResids o0) = .ok vb → ∀ s, Ready cpp var o0 Asked Res vb s →
    Ok (GG cpp var o0 Asked Res) (fun r s => Ready cpp var o0 Asked Res vb s ∧
      r = startSeq o0.returns (prepResids o0) (backcast (prepResids o0)) vb) (start (prepResids o0)) s

theorem startOk_gjr (cpp : Bool) (var) : StartOk cpp var (gjrStartProg cpp) (fun ret res _ _ => gjrStart cpp ret res) := by
  intro o0 Asked Res vb hvb s hs
  unfold gjrStartProg
  simp only [Prog.bind_eq]
  refine Ok.bind GG_refl (Ok.get ?_)
  intro s1 h1 s2 h2
  have r1 := hs.mono hvb h1
  have r2 := r1.mono hvb h2
  simp only
  refine Ok.lift ?_
  intro s3 h3
  exact ⟨r2.mono hvb h3, by rw [r1.1.returns]⟩

theorem ok_grid {var} {o0 : GarchObj GarchVar} {Asked : XR × GarchVar → Prop} {Res : XR × GarchVar → XR → Prop}
    {vb : List (XR × XR)} (hvb : varianceBounds cpp (prepResids o0) = .ok vb) (cands : List GarchVar) (best : Option GarchVar)
    {s : GarchObj GarchVar} (hs : Ready cpp var o0 Asked Res vb s) (resids : List XR) :
    Ok (GG cpp var o0 Asked Res) (fun r s => Ready cpp var o0 Asked Res vb s ∧
      r = cands.foldlM (m := Except PyErr) (fun best p => do
        let s2 ← garchVariance cpp p resids (backcast (prepResids o0)) vb
        return if .ninf < -(loglik resids s2) then some p else best) best) (gridProg cpp resids best cands) s := by
  induction cands generalizing best s with
  | nil =>
    intro s1 h1
    exact ⟨hs.mono hvb h1, rfl⟩
  | cons p ps ih =>
    rw [gridProg, List.foldlM_cons]
    simp only [Prog.bind_eq]
    refine Ok.bind GG_refl (Ok.get ?_)
    intro s1 h1 s2 h2
    have r1 := hs.mono hvb h1
    have r2 := r1.mono hvb h2
    simp only
    refine Ok.bind GG_refl (Ok.get ?_)
    intro s3 h3 s4 h4
    have r3 := r2.mono hvb h3
    have r4 := r3.mono hvb h4
    have e3 : boundsOf s3 = .ok vb := by unfold boundsOf; rw [r3.2.2]
    simp only
    refine Ok.bind GG_refl (Ok.lift ?_)
    intro s5 h5
    have r5 := r4.mono hvb h5
    rw [e3]
    simp only
    refine Ok.bind GG_refl (Ok.lift ?_)
    intro s6 h6
    have r6 := r5.mono hvb h6
    rw [r1.2.1]
    simp only [bind, Except.bind, pure, Except.pure]
    cases hv : garchVariance cpp p resids (backcast (prepResids o0)) vb with
    | error e => exact ⟨r6, rfl⟩
    | ok s2' =>
      simp only [Prog.bind']
      exact ih _ r6

theorem startOk_garch (cpp : Bool) (var) : StartOk cpp var (garchStartProg cpp) (garchStart cpp) := by
  intro o0 Asked Res vb hvb s hs
  unfold garchStartProg
  simp only [Prog.bind_eq]
  refine Ok.bind GG_refl (Ok.get ?_)
  intro s1 h1 s2 h2
  have r1 := hs.mono hvb h1
  have r2 := r1.mono hvb h2
  simp only
  rw [r1.1.returns]
  exact ok_grid hvb _ _ r2 _

/-- the starting point of the optimisation -/
def startPoint (o0 : GarchObj V) (v0 : V) : XR × V := (if o0.zeroMean then 0 else Np.mean o0.returns, v0)

theorem ok_fit (hst : StartOk cpp var start startSeq) (ht : Total cpp var startSeq) (st : Strategy (XR × V))
    (hask : ∀ vb v0 q, varianceBounds cpp (prepResids o0) = .ok vb →
      startSeq o0.returns (prepResids o0) (backcast (prepResids o0)) vb = .ok (some v0) →
      (st (feas o0.zeroMean) (startPoint o0 v0)).MayAsk q → Asked q)
    (hend : ∀ vb v0 x f, varianceBounds cpp (prepResids o0) = .ok vb →
      startSeq o0.returns (prepResids o0) (backcast (prepResids o0)) vb = .ok (some v0) →
      (st (feas o0.zeroMean) (startPoint o0 v0)).MayEnd (Ans cpp var o0 Asked) x f → Res x f)
    {s : GarchObj V} (hs : Inv cpp var o0 Asked Res s) :
    Ok (GG cpp var o0 Asked Res) (fun r s => Inv cpp var o0 Asked Res s ∧
      ∀ e, r = .error e → ∀ opt, fitCore cpp var startSeq feas opt o0 = .error e) (fitProg cpp var start feas st) s := by
  unfold fitProg
  simp only [Prog.bind_eq]
  refine Ok.bind GG_refl ?_
  unfold argsProg
  simp only [Prog.bind_eq]
  refine Ok.bind GG_refl ?_
  unfold prepProg
  simp only [Prog.bind_eq]
  refine Ok.bind GG_refl (Ok.get ?_)
  intro s1 h1 s2 h2
  have i1 := (h1 hs).1
  have i2 := (h2 i1).1
  simp only
  have ep : prepResids s1 = prepResids o0 := by unfold prepResids; rw [i1.returns, i1.zeroMean]
  rw [ep]
  refine Ok.bind GG_refl (Ok.put ?_)
  intro s3 h3
  have i3 := (h3 i2).1
  have i4 : Inv cpp var o0 Asked Res { s3 with backcast := backcast (prepResids o0) } :=
    ⟨i3.returns, i3.zeroMean, i3.params, i3.sigma2, i3.resids, i3.success⟩
  refine ⟨fun _ => ⟨i4, fun _ => rfl, fun _ _ => id, id, id⟩, ?_⟩
  intro s4 h4
  simp only
  obtain ⟨i5, b5, -⟩ := h4 i4
  have b5 := b5 rfl
  refine Ok.bind GG_refl (Ok.lift ?_)
  intro s5 h5
  obtain ⟨i6, b6, -⟩ := h5 i5
  have b6 := b6 b5
  cases hvb : varianceBounds cpp (prepResids o0) with
  | error e =>
    refine ⟨i6, fun e' he opt => ?_⟩
    injection he with he
    subst he
    unfold fitCore
    simp only [bind, Except.bind, hvb]
  | ok vb =>
    simp only
    refine Ok.bind GG_refl (Ok.put ?_)
    intro s6 h6
    obtain ⟨i7, b7, -⟩ := h6 i6
    have b7 := b7 b6
    have r7 : Ready cpp var o0 Asked Res vb { s6 with bounds := some vb } :=
      ⟨⟨i7.returns, i7.zeroMean, i7.params, i7.sigma2, i7.resids, i7.success⟩, b7, rfl⟩
    refine ⟨fun _ => ⟨r7.1, fun _ => b7, fun vb' hv' _ => ?_, id, id⟩, ?_⟩
    · rw [hvb] at hv'
      injection hv' with hv'
      rw [← hv']
    intro s7 h7
    have r8 := r7.mono hvb h7
    simp only
    refine Ok.bind GG_refl ((hst o0 Asked Res vb hvb s7 r8).weaken ?_)
    rintro r s8 ⟨r9, rfl⟩
    cases hsq : startSeq o0.returns (prepResids o0) (backcast (prepResids o0)) vb with
    | error e =>
      refine ⟨r9.1, fun e' he opt => ?_⟩
      injection he with he
      subst he
      unfold fitCore
      simp only [bind, Except.bind, hvb, hsq]
    | ok v0 =>
      simp only
      refine Ok.bind GG_refl (Ok.get ?_)
      intro s9 h9 s10 h10
      have r10 := r9.mono hvb h9
      have r11 := r10.mono hvb h10
      simp only
      intro s11 h11
      have r12 := r11.mono hvb h11
      simp only
      refine Ok.bind GG_refl (Ok.get ?_)
      intro s12 h12 s13 h13
      have r13 := r12.mono hvb h12
      have r14 := r13.mono hvb h13
      simp only
      refine Ok.bind GG_refl (Ok.get ?_)
      intro s14 h14 s15 h15
      have r15 := r14.mono hvb h14
      have r16 := r15.mono hvb h15
      simp only
      refine Ok.bind GG_refl (Ok.get ?_)
      intro s16 h16 s17 h17
      have r17 := r16.mono hvb h16
      have r18 := r17.mono hvb h17
      cases v0 with
      | none =>
        simp only [Option.map]
        refine Ok.lift ?_
        intro s18 h18
        refine ⟨(r18.mono hvb h18).1, fun e' he opt => ?_⟩
        injection he with he
        subst he
        unfold fitCore
        simp only [bind, Except.bind, hvb, hsq]
      | some v0 =>
        have e16 : boundsOf s16 = .ok vb := by unfold boundsOf; rw [r17.2.2]
        simp only [Option.map]
        refine Ok.bind GG_refl (Ok.lift ?_)
        intro s18 h18
        have r19 := r18.mono hvb h18
        rw [e16]
        simp only
        intro s19 h19
        have r19 := r19.mono hvb h19
        simp only
        have epoint : ((if s9.zeroMean = true then 0 else Np.mean s9.returns, v0) : XR × V) = startPoint o0 v0 := by
          unfold startPoint; rw [r10.1.zeroMean, r10.1.returns]
        rw [epoint, r13.1.zeroMean, r15.2.1]
        refine Ok.bind GG_refl ((ok_opt hvb (ht o0 vb v0 hvb hsq) _ (fun q hq => hask vb v0 q hvb hsq hq)
          (fun x f h => hend vb v0 x f hvb hsq h) r19.1).weaken ?_)
        rintro r s20 ⟨i20, q, rfl, hq⟩
        simp only
        refine (ok_store i20 q hq).weaken ?_
        rintro r s21 ⟨i21, rfl, _⟩
        exact ⟨i21, fun e he => by cases he⟩

end
end Frds.Model.Conc

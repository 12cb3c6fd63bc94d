import Verif.Props.ConcGarch
import Mathlib.Analysis.Complex.ExponentialBounds

/-! C175: what concurrent fits of one univariate model can do wrong. -/
namespace Frds.Props
noncomputable section
open Frds Frds.Model Frds.Model.Conc Frds.Props.Crash Frds.Props.ConcGarch Classical
set_option linter.unusedSimpArgs false
set_option linter.unusedVariables false

namespace ConcGarch
variable {ι V A : Type} {cpp : Bool} {var : V → List XR → XR → List (XR × XR) → Except PyErr (List XR)}
  {start : List XR → Prog (GarchObj V) (Option V)}
  {startSeq : List XR → List XR → XR → List (XR × XR) → Except PyErr (Option V)}
  {feas : Bool → Feas (XR × V)}

/-- the optimiser that evaluates the objective once, at `p`, and reports success there -/
def once (p : XR × V) : Strategy (XR × V) := fun _ _ => .ask p fun v => .done true p v

theorem once_honest (p : XR × V) (c : Feas (XR × V)) (x0 : XR × V) : (once p c x0).Honest [] := by
  simp [once, Opt.Honest]

/-- from one configuration of the threads to another by actions of thread `i` only -/
def By (i : ι) (c c' : Sys ι (GarchObj V) A) : Prop := ∃ n, c.exec (List.replicate n i) = c'

theorem By.trans {i : ι} {c c' c'' : Sys ι (GarchObj V) A} (h : By i c c') (h' : By i c' c'') : By i c c'' := by
  obtain ⟨n, rfl⟩ := h
  obtain ⟨m, rfl⟩ := h'
  exact ⟨n + m, by rw [List.replicate_add, Sys.exec_append]⟩

theorem By.prefix {B : Type} {m : Prog (GarchObj V) B} {k : B → Prog (GarchObj V) A} {c : Sys ι (GarchObj V) A} {i : ι}
    {s' : GarchObj V} {b : B} (h : c.thread i = Prog.bind' m k) (hr : m.run c.shared = (s', .ok b)) :
    By i c ⟨s', Function.update c.thread i (k b)⟩ := Sys.exec_prefix h hr

theorem By.alone (c : Sys ι (GarchObj V) A) (i : ι) :
    By i c ⟨((c.thread i).run c.shared).1, Function.update c.thread i (.done ((c.thread i).run c.shared).2)⟩ := by
  obtain ⟨n, hn⟩ := Sys.exec_alone c i
  exact ⟨n, hn n (le_refl _)⟩

/-- the first half of `loglikelihood_model`, up to the write -/
def evalWrite (var : V → List XR → XR → List (XR × XR) → Except PyErr (List XR)) (bc : XR) (vb : List (XR × XR))
    (p : XR × V) : Prog (GarchObj V) (List XR × List XR) := do
  let o ← Prog.get
  let q ← Prog.lift (modelPath var o bc vb p)
  Prog.put fun o => { o with sigma2 := q.2 }
  return q

/-- the second half -/
def evalRead (q : List XR × List XR) : Prog (GarchObj V) XR := do
  let o ← Prog.get
  return -loglik q.1 o.sigma2

theorem eval_split (bc : XR) (vb : List (XR × XR)) (p : XR × V) :
    evalProg var bc vb p = Prog.bind' (evalWrite var bc vb p) evalRead := by
  unfold evalProg evalWrite evalRead
  simp only [Prog.bind_eq, Prog.bind_assoc', Prog.pure_eq]
  rfl

theorem run_evalWrite {o : GarchObj V} {bc : XR} {vb : List (XR × XR)} {p : XR × V} {q : List XR × List XR}
    (h : modelPath var o bc vb p = .ok q) : (evalWrite var bc vb p).run o = ({ o with sigma2 := q.2 }, .ok q) := by
  unfold evalWrite
  simp only [Prog.bind_eq, Prog.run_bind, Prog.run_get, Prog.run_lift, Prog.run_put, h]
  rfl

/-- what is left of a fit after the write in its first evaluation -/
def rest (var : V → List XR → XR → List (XR × XR) → Except PyErr (List XR)) (bc : XR) (vb : List (XR × XR))
    (q : List XR × List XR) (k : XR → Opt (XR × V)) (K : Unit → Prog (GarchObj V) A) : Prog (GarchObj V) A :=
  Prog.bind' (evalRead q) fun v => Prog.bind' (optProg var bc vb (k v)) fun r => Prog.bind' (storeProg r) K

theorem By.eval (hs : StartRun cpp start startSeq) {st : Strategy (XR × V)} {K : Unit → Prog (GarchObj V) A}
    {c : Sys ι (GarchObj V) A} {i : ι} (h : c.thread i = Prog.bind' (fitProg cpp var start feas st) K)
    {vb : List (XR × XR)} {v0 : V} (hst : Starts cpp startSeq c.shared vb v0) {p : XR × V} {k : XR → Opt (XR × V)}
    (ha : st (feas c.shared.zeroMean) (startPoint c.shared v0) = .ask p k) {q : List XR × List XR}
    (hq : modelPath var c.shared (backcast (prepResids c.shared)) vb p = .ok q) :
    By i c ⟨{ prepared c.shared vb with sigma2 := q.2 },
      Function.update c.thread i (rest var (backcast (prepResids c.shared)) vb q k K)⟩ := by
  have h0 : c.thread i = Prog.bind' (argsProg cpp start feas st) fun a =>
      Prog.bind' (optProg var a.1 a.2.1 a.2.2) fun r => Prog.bind' (storeProg r) K := by
    rw [h]
    unfold fitProg
    simp only [Prog.bind_eq, Prog.bind_assoc']
  have h1 := By.prefix h0 (run_args (feas := feas) hs st c.shared hst.1 hst.2)
  refine h1.trans ?_
  have h2 : (Function.update c.thread i (Prog.bind' (optProg var (backcast (prepResids c.shared)) vb
      (st (feas c.shared.zeroMean) (if c.shared.zeroMean then 0 else Np.mean c.shared.returns, v0)))
        fun r => Prog.bind' (storeProg r) K)) i = Prog.bind' (evalWrite var (backcast (prepResids c.shared)) vb p)
        fun q => rest var (backcast (prepResids c.shared)) vb q k K := by
    rw [Function.update_self]
    have ha' : st (feas c.shared.zeroMean) (if c.shared.zeroMean then 0 else Np.mean c.shared.returns, v0) = .ask p k := ha
    rw [ha', optProg, eval_split]
    simp only [Prog.bind_assoc']
    rfl
  have h3 := By.prefix (c := ⟨prepared c.shared vb, Function.update c.thread i (Prog.bind' (optProg var
      (backcast (prepResids c.shared)) vb
      (st (feas c.shared.zeroMean) (if c.shared.zeroMean then 0 else Np.mean c.shared.returns, v0)))
        fun r => Prog.bind' (storeProg r) K)⟩) h2 (run_evalWrite (o := prepared c.shared vb) (q := q) hq)
  simpa using h3

/-- the last line of `fit` -/
def lastLine : Unit → Prog (GarchObj V) (Option (Option (XR × V × XR))) := fun _ => do
  let o ← Prog.get
  return some o.params

theorem garch_check {st : Strategy (XR × GarchVar)} {c : Sys ι (GarchObj GarchVar) (Option (Option (XR × GarchVar × XR)))}
    {i : ι} (h : c.thread i = garchFitProg cpp st) (hs : c.shared.success = false) :
    By i c ⟨c.shared, Function.update c.thread i
      (Prog.bind' (fitProg cpp (garchVariance cpp) (garchStartProg cpp) garchFeas st) lastLine)⟩ := by
  have h0 : c.thread i = Prog.bind' Prog.get fun o => if o.success = true then pure none else
      Prog.bind' (fitProg cpp (garchVariance cpp) (garchStartProg cpp) garchFeas st) lastLine := by
    rw [h]; rfl
  have := By.prefix h0 (Prog.run_get _)
  rwa [if_neg (by rw [hs]; simp)] at this

theorem run_rest_once (p : XR × V) (bc : XR) (vb : List (XR × XR)) (q : List XR × List XR) (s : GarchObj V) :
    ((rest var bc vb q (fun v => .done true p v) lastLine).run s).2 =
      .ok (some (some (if s.zeroMean then 0 else p.1, p.2, -(-loglik q.1 s.sigma2)))) := rfl

theorem xr_neg_neg (x : XR) : -(-x) = x := by
  cases x with
  | fin r => rw [XR.fin_neg, XR.fin_neg, neg_neg]
  | _ => rfl

abbrev Res := Option (Option (XR × GarchVar × XR))

theorem crossed (cpp : Bool) (o : GarchObj GarchVar) (hs : o.success = false) (vb : List (XR × XR)) (v0 : GarchVar)
    (hst : Starts cpp (garchStart cpp) o vb v0) (p q : XR × GarchVar) (rp sp rq sq : List XR)
    (hp : modelPath (garchVariance cpp) o (backcast (prepResids o)) vb p = .ok (rp, sp))
    (hq : modelPath (garchVariance cpp) o (backcast (prepResids o)) vb q = .ok (rq, sq))
    (thr : ι → Prog (GarchObj GarchVar) Res) {i j : ι} (hij : i ≠ j) (hi : thr i = garchFitProg cpp (once p))
    (hj : thr j = garchFitProg cpp (once q)) :
    ∃ sched : List ι, ((Sys.mk o thr).exec sched).result i =
        some (.ok (some (some (if o.zeroMean then 0 else p.1, p.2, loglik rp sq)))) := by
  obtain ⟨n1, h1⟩ := garch_check (c := Sys.mk o thr) (i := i) (st := once p) hi hs
  generalize hc1 : (Sys.mk o (Function.update thr i
    (Prog.bind' (fitProg cpp (garchVariance cpp) (garchStartProg cpp) garchFeas (once p)) lastLine))) = c1 at h1
  have s1 : c1.shared = o := by rw [← hc1]
  obtain ⟨n2, h2⟩ := By.eval (var := garchVariance cpp) (c := c1) (i := i) (feas := garchFeas) (st := once p) (K := lastLine) (startRun_garch cpp)
    (by rw [← hc1]; simp) (by rw [s1]; exact hst) (p := p) (k := fun v => .done true p v) rfl
    (q := (rp, sp)) (by rw [s1]; exact hp)
  rw [s1] at h2
  generalize hR : rest (garchVariance cpp) (backcast (prepResids o)) vb (rp, sp) (fun v => .done true p v) lastLine = R at h2
  generalize hc2 : (Sys.mk { prepared o vb with sigma2 := (rp, sp).2 } (Function.update c1.thread i R)) = c2 at h2
  have s2 : c2.shared = { prepared o vb with sigma2 := sp } := by rw [← hc2]
  obtain ⟨n3, h3⟩ := garch_check (c := c2) (i := j) (st := once q)
    (by rw [← hc2]
        show Function.update c1.thread i R j = _
        rw [Function.update_of_ne hij.symm, ← hc1]
        show Function.update thr i _ j = _
        rw [Function.update_of_ne hij.symm, hj]) (by rw [s2]; exact hs)
  generalize hc3 : (Sys.mk c2.shared (Function.update c2.thread j
    (Prog.bind' (fitProg cpp (garchVariance cpp) (garchStartProg cpp) garchFeas (once q)) lastLine))) = c3 at h3
  have s3 : c3.shared = { prepared o vb with sigma2 := sp } := by rw [← hc3]; exact s2
  obtain ⟨n4, h4⟩ := By.eval (var := garchVariance cpp) (c := c3) (i := j) (feas := garchFeas) (st := once q) (K := lastLine) (startRun_garch cpp)
    (by rw [← hc3]; simp) (vb := vb) (v0 := v0) (by rw [s3]; exact hst) (p := q)
    (k := fun v => .done true q v) rfl (q := (rq, sq)) (by rw [s3]; exact hq)
  generalize hc4 : (Sys.mk _ _ : Sys ι (GarchObj GarchVar) Res) = c4 at h4
  obtain ⟨n5, h5⟩ := By.alone c4 i
  refine ⟨List.replicate n1 i ++ (List.replicate n2 i ++ (List.replicate n3 j ++ (List.replicate n4 j ++
    List.replicate n5 i))), ?_⟩
  rw [Sys.exec_append, h1, Sys.exec_append, h2, Sys.exec_append, h3, Sys.exec_append, h4, h5]
  have t4 : c4.thread i = R := by
    rw [← hc4]
    show Function.update c3.thread j _ i = R
    rw [Function.update_of_ne hij, ← hc3]
    show Function.update c2.thread j _ i = R
    rw [Function.update_of_ne hij, ← hc2]
    simp
  have z4 : c4.shared.zeroMean = o.zeroMean ∧ c4.shared.sigma2 = sq := by
    rw [← hc4]
    refine ⟨?_, rfl⟩
    show (prepared c3.shared vb).zeroMean = _
    rw [s3]; rfl
  unfold Sys.result
  simp only [Function.update_self]
  rw [t4, ← hR, run_rest_once, xr_neg_neg, z4.1, z4.2]

/-- `storeProg` up to the reading of `self.parameters.mu` -/
def storeHead (r : Bool × (XR × V) × XR) : Prog (GarchObj V) (GarchObj V) := do
  Prog.put fun o => { o with success := true }
  Prog.put fun o => { o with params := some (if o.zeroMean then 0 else r.2.1.1, r.2.1.2, -r.2.2) }
  Prog.get

theorem store_split (x : XR × V) (f : XR) (K : Unit → Prog (GarchObj V) A) : Prog.bind' (storeProg (true, x, f)) K =
    Prog.bind' (storeHead (true, x, f)) fun o =>
      Prog.bind' (Prog.put fun o' => { o' with resids := demean o.returns (muOf o) }) K := rfl

/-- the object with the result of `once p` stored, except for the residuals -/
def halfStored (o : GarchObj V) (vb : List (XR × XR)) (s2 : List XR) (p : XR × V) (v : XR) : GarchObj V :=
  { prepared o vb with sigma2 := s2, success := true, params := some (if o.zeroMean then 0 else p.1, p.2, -v) }

theorem By.half (hs : StartRun cpp start startSeq) {p : XR × V} {K : Unit → Prog (GarchObj V) A}
    {c : Sys ι (GarchObj V) A} {i : ι} (h : c.thread i = Prog.bind' (fitProg cpp var start feas (once p)) K)
    {vb : List (XR × XR)} {v0 : V} (hst : Starts cpp startSeq c.shared vb v0) {q : List XR × List XR}
    (hq : modelPath var c.shared (backcast (prepResids c.shared)) vb p = .ok q) :
    By i c ⟨halfStored c.shared vb q.2 p (-loglik q.1 q.2), Function.update c.thread i
      (Prog.bind' (Prog.put fun o' => { o' with resids := demean c.shared.returns (if c.shared.zeroMean then 0 else p.1) }) K)⟩ := by
  have h1 := By.eval hs h hst (k := fun v => .done true p v) rfl hq
  refine h1.trans ?_
  have h2 := By.prefix (c := ⟨{ prepared c.shared vb with sigma2 := q.2 }, Function.update c.thread i
    (rest var (backcast (prepResids c.shared)) vb q (fun v => .done true p v) K)⟩) (i := i) (m := evalRead q)
    (k := fun v => Prog.bind' (optProg var (backcast (prepResids c.shared)) vb (.done true p v))
      fun r => Prog.bind' (storeProg r) K) (by simp; rfl) (s' := { prepared c.shared vb with sigma2 := q.2 })
    (b := -loglik q.1 q.2) rfl
  refine h2.trans ?_
  have h3 := By.prefix (c := ⟨{ prepared c.shared vb with sigma2 := q.2 }, Function.update (Function.update c.thread i
    (rest var (backcast (prepResids c.shared)) vb q (fun v => .done true p v) K)) i
      (Prog.bind' (optProg var (backcast (prepResids c.shared)) vb (.done true p (-loglik q.1 q.2)))
        fun r => Prog.bind' (storeProg r) K)⟩) (i := i) (m := storeHead (true, p, -loglik q.1 q.2))
    (k := fun o => Prog.bind' (Prog.put fun o' => { o' with resids := demean o.returns (muOf o) }) K)
    (by simp; rfl) (s' := halfStored c.shared vb q.2 p (-loglik q.1 q.2))
    (b := halfStored c.shared vb q.2 p (-loglik q.1 q.2)) rfl
  simp only [Function.update_idem] at h3 ⊢
  exact h3

theorem torn (cpp : Bool) (o : GarchObj GarchVar) (hs : o.success = false) (vb : List (XR × XR)) (v0 : GarchVar)
    (hst : Starts cpp (garchStart cpp) o vb v0) (p q : XR × GarchVar) (rp sp rq sq : List XR)
    (hp : modelPath (garchVariance cpp) o (backcast (prepResids o)) vb p = .ok (rp, sp))
    (hq : modelPath (garchVariance cpp) o (backcast (prepResids o)) vb q = .ok (rq, sq))
    (thr : ι → Prog (GarchObj GarchVar) Res) {i j : ι} (hij : i ≠ j) (hi : thr i = garchFitProg cpp (once p))
    (hj : thr j = garchFitProg cpp (once q)) :
    ∃ sched : List ι, ∃ c, c = (Sys.mk o thr).exec sched ∧
      c.shared.success = true ∧ c.shared.params = some (if o.zeroMean then 0 else q.1, q.2, loglik rq sq) ∧
      c.shared.resids = demean o.returns (if o.zeroMean then 0 else p.1) ∧
      c.result i = some (.ok (some c.shared.params)) ∧ c.result j = some (.ok (some c.shared.params)) := by
  obtain ⟨n1, h1⟩ := garch_check (c := Sys.mk o thr) (i := j) (st := once q) hj hs
  generalize hB : (Prog.bind' (fitProg cpp (garchVariance cpp) (garchStartProg cpp) garchFeas (once q)) lastLine) = B at h1
  obtain ⟨n2, h2⟩ := garch_check (c := Sys.mk o (Function.update thr j B)) (i := i) (st := once p)
    (by show Function.update thr j B i = _
        rw [Function.update_of_ne hij, hi]) hs
  generalize hc2 : (Sys.mk o (Function.update (Function.update thr j B) i
    (Prog.bind' (fitProg cpp (garchVariance cpp) (garchStartProg cpp) garchFeas (once p)) lastLine))) = c2 at h2
  have s2 : c2.shared = o := by rw [← hc2]
  have t2 : c2.thread j = B := by
    rw [← hc2]
    show Function.update _ i _ j = _
    rw [Function.update_of_ne hij.symm, Function.update_self]
  obtain ⟨n3, h3⟩ := By.half (var := garchVariance cpp) (feas := garchFeas) (c := c2) (i := i) (p := p) (K := lastLine)
    (startRun_garch cpp) (by rw [← hc2]; simp) (by rw [s2]; exact hst) (q := (rp, sp)) (by rw [s2]; exact hp)
  rw [s2] at h3
  generalize hR : (Prog.bind' (Prog.put fun o' : GarchObj GarchVar =>
    { o' with resids := demean o.returns (if o.zeroMean then 0 else p.1) }) lastLine) = R at h3
  generalize hc3 : (Sys.mk _ _ : Sys ι (GarchObj GarchVar) Res) = c3 at h3
  have s3 : c3.shared = halfStored o vb sp p (-loglik rp sp) := by rw [← hc3]
  have t3i : c3.thread i = R := by rw [← hc3]; simp
  have t3j : c3.thread j = B := by
    rw [← hc3]
    show Function.update _ i _ j = _
    rw [Function.update_of_ne hij.symm, t2]
  -- the other thread completes its fit
  obtain ⟨n4, h4⟩ := By.alone c3 j
  have hrun : B.run c3.shared = ({ halfStored o vb sq q (-loglik rq sq) with
      resids := demean o.returns (if o.zeroMean then 0 else q.1) },
      .ok (some (some (if o.zeroMean then 0 else q.1, q.2, loglik rq sq)))) := by
    have hq3 : modelPath (garchVariance cpp) c3.shared (backcast (prepResids c3.shared)) vb q = .ok (rq, sq) := by
      rw [s3]; exact hq
    have ha := run_args (feas := garchFeas) (startRun_garch cpp) (once q) c3.shared (vb := vb) (v0 := v0)
      (by rw [s3]; exact hst.1) (by rw [s3]; exact hst.2)
    rw [← hB]
    unfold fitProg
    simp only [Prog.bind_eq, Prog.run_bind, ha]
    have ho : (optProg (garchVariance cpp) (backcast (prepResids c3.shared)) vb
        (once q (garchFeas c3.shared.zeroMean) (if c3.shared.zeroMean then 0 else Np.mean c3.shared.returns, v0))).run
          (prepared c3.shared vb) = ({ prepared c3.shared vb with sigma2 := sq }, .ok (true, q, -loglik rq sq)) := by
      unfold once
      rw [optProg, Prog.run_bind, run_eval (o := prepared c3.shared vb) (q := (rq, sq)) hq3]
      simp only
      have : objective (garchVariance cpp) (prepared c3.shared vb) (backcast (prepResids c3.shared)) vb q = -loglik rq sq := by
        unfold objective
        rw [modelPath_congr (o := c3.shared) (o' := prepared c3.shared vb) rfl rfl, hq3]
      rw [this]
      rfl
    rw [ho]
    simp only [run_store, if_true]
    rw [s3]
    refine Prod.ext rfl ?_
    show Except.ok (some (some (_, _, -(-loglik rq sq)))) = _
    rw [xr_neg_neg]
    rfl
  rw [t3j, hrun] at h4
  generalize hc4 : (Sys.mk _ _ : Sys ι (GarchObj GarchVar) Res) = c4 at h4
  obtain ⟨n5, h5⟩ := By.alone c4 i
  have s4 : c4.shared = { halfStored o vb sq q (-loglik rq sq) with
      resids := demean o.returns (if o.zeroMean then 0 else q.1) } := by rw [← hc4]
  have t4 : c4.thread i = R := by
    rw [← hc4]
    show Function.update c3.thread j _ i = R
    rw [Function.update_of_ne hij, t3i]
  have t4j : c4.thread j = .done (.ok (some (some (if o.zeroMean then 0 else q.1, q.2, loglik rq sq)))) := by
    rw [← hc4]; simp
  have hrun5 : (c4.thread i).run c4.shared = ({ c4.shared with resids := demean o.returns (if o.zeroMean then 0 else p.1) },
      .ok (some c4.shared.params)) := by rw [t4, ← hR]; rfl
  have hpar : c4.shared.params = some (if o.zeroMean then 0 else q.1, q.2, loglik rq sq) := by
    rw [s4]; unfold halfStored; rw [xr_neg_neg]
  refine ⟨List.replicate n1 j ++ (List.replicate n2 i ++ (List.replicate n3 i ++ (List.replicate n4 j ++
    List.replicate n5 i))), _, rfl, ?_⟩
  rw [Sys.exec_append, h1, Sys.exec_append, h2, Sys.exec_append, h3, Sys.exec_append, h4, h5, hrun5]
  refine ⟨by rw [s4]; rfl, hpar, rfl, ?_, ?_⟩
  · unfold Sys.result
    simp only [Function.update_self]
  · unfold Sys.result
    simp only [Function.update_of_ne hij.symm]
    rw [t4j, hpar]

/-- the fit of a finite series with a nonzero residual reaches its optimisation -/
theorem starts_fin (cpp : Bool) (o : GarchObj GarchVar) (l : List ℝ) (ho : o.returns = l.map XR.fin)
    (hr : ∃ r ∈ Spec.prep o.zeroMean l, r ≠ 0) : ∃ vb v0, Starts cpp (garchStart cpp) o vb v0 := by
  have hne : Spec.prep o.zeroMean l ≠ [] := by obtain ⟨r, h, _⟩ := hr; exact List.ne_nil_of_mem h
  have hl := prep_l_ne hne
  have h2 := (C69_last_grid_point cpp o.zeroMean l hr _ (varianceBounds_fin cpp hne)).1
  rw [← prepResids_fin hl ho, ← ho] at h2
  exact ⟨_, _, by rw [prepResids_fin hl ho, varianceBounds_fin cpp hne], h2⟩

/-- a single return, model without a mean -/
def oneDay : GarchObj GarchVar := { returns := [(1 : ℝ)].map XR.fin, zeroMean := true, resids := [], sigma2 := [] }

theorem oneDay_path (cpp : Bool) (bc : ℝ) (vb : List (XR × XR)) (w : ℝ) :
    modelPath (garchVariance cpp) oneDay (.fin bc) vb (0, ⟨.fin w, 0, 0⟩) = .ok ([.fin 1], [.fin w]) := by
  have e : (0 : XR) = .fin 0 := rfl
  unfold modelPath garchVariance variancePath oneDay
  simp [bind, Except.bind, pure, Except.pure, varLoop, e]

end ConcGarch

/-- C175. The values can be crossed: for every object that is not yet estimated and whose fit reaches its optimisation, and
for all points `p` and `q`, there is a schedule of two threads, the optimiser of the first evaluating the objective only at
`p`, that of the second only at `q`, such that the first thread's `fit` returns the parameters `p` with the log-likelihood of
the residuals at `p` under the variances of `q`. -/
theorem C175_crossed (cpp : Bool) (o : GarchObj GarchVar) (hs : o.success = false) (vb : List (XR × XR)) (v0 : GarchVar)
    (hst : Starts cpp (garchStart cpp) o vb v0) (p q : XR × GarchVar) (rp sp rq sq : List XR)
    (hp : modelPath (garchVariance cpp) o (backcast (prepResids o)) vb p = .ok (rp, sp))
    (hq : modelPath (garchVariance cpp) o (backcast (prepResids o)) vb q = .ok (rq, sq)) :
    ∃ sched : List Bool,
      ((Sys.mk o fun b : Bool => garchFitProg cpp (once (if b then p else q))).exec sched).result true =
        some (.ok (some (some (if o.zeroMean then 0 else p.1, p.2, loglik rp sq)))) :=
  crossed cpp o hs vb v0 hst p q rp sp rq sq hp hq _ (i := true) (j := false) (by simp) rfl rfl

/-- C175. Such a value can be wrong: there are an object and two optimisers, both reporting the value they were given, and a
schedule under which `fit` returns parameters with a log-likelihood that is not the one it returns for the same optimiser when
the other thread is absent. -/
theorem C175_wrong_value (cpp : Bool) : ∃ (o : GarchObj GarchVar) (p q : XR × GarchVar) (sched : List Bool) (ll : XR),
    ((Sys.mk o fun b : Bool => garchFitProg cpp (once (if b then p else q))).exec sched).result true =
      some (.ok (some (some (p.1, p.2, ll)))) ∧
    ∃ o' ll', garchFit cpp (once p).optimizer o = .ok (o', some (some (p.1, p.2, ll'))) ∧ ll ≠ ll' := by
  obtain ⟨vb, v0, hst⟩ := starts_fin cpp oneDay [1] rfl ⟨1, by simp [Spec.prep, oneDay], by norm_num⟩
  have hbc : ∃ bc : ℝ, backcast (prepResids oneDay) = .fin bc :=
    ⟨_, backcast_fin (l := [1]) (by simp)⟩
  obtain ⟨bc, hbc⟩ := hbc
  have hp := oneDay_path cpp bc vb 1
  have hq := oneDay_path cpp bc vb 4
  rw [← hbc] at hp hq
  obtain ⟨sched, h⟩ := C175_crossed cpp oneDay rfl vb v0 hst (0, ⟨.fin 1, 0, 0⟩) (0, ⟨.fin 4, 0, 0⟩) _ _ _ _ hp hq
  refine ⟨oneDay, _, _, sched, _, h, ?_⟩
  have hf : fitCore cpp (garchVariance cpp) (garchStart cpp) garchFeas (once ((0 : XR), (⟨.fin 1, 0, 0⟩ : GarchVar))).optimizer
      oneDay = .ok { prepared oneDay vb with
        sigma2 := [.fin 1], success := true, params := some (0, ⟨.fin 1, 0, 0⟩, loglik [.fin 1] [.fin 1])
        resids := demean oneDay.returns 0 } := by
    unfold fitCore
    simp only [bind, Except.bind, hst.1, hst.2]
    have hobj : objective (garchVariance cpp) oneDay (backcast (prepResids oneDay)) vb (0, ⟨.fin 1, 0, 0⟩) =
        -loglik [.fin 1] [.fin 1] := by unfold objective; rw [hp]
    simp only [Strategy.optimizer, once, Opt.run, hobj, List.getLast?_singleton, hp, if_true, xr_neg_neg]
    rfl
  refine ⟨_, loglik [.fin 1] [.fin 1], by unfold garchFit; rw [if_neg (by simp [oneDay]), hf]; rfl, ?_⟩
  have hpi : (0 : ℝ) < 2 * Real.pi := by positivity
  unfold loglik
  simp only [List.zipWith_cons_cons, List.zipWith_nil_right, List.sum_cons, List.sum_nil]
  rw [XR.fin_log hpi, XR.fin_log (by norm_num), XR.fin_log (by norm_num)]
  simp only [XR.fin_sq]
  rw [XR.fin_div _ (by norm_num), XR.fin_div _ (by norm_num)]
  simp only [XR.zero_def, XR.fin_add, XR.fin_mul, ne_eq, XR.fin_inj]
  have h4 : Real.log 4 = 2 * Real.log 2 := by
    rw [show (4 : ℝ) = 2 ^ 2 by norm_num, Real.log_pow]; norm_num
  have := Real.log_two_gt_d9
  rw [h4, Real.log_one]
  intro hh
  norm_num at hh
  linarith

/-- C175. Parameters and residuals can be torn apart: for every object that is not yet estimated and whose fit reaches its
optimisation, and for all points `p` and `q`, there is a schedule of two such threads after which both have returned, the
object is marked as estimated, its parameters are `q`, but its residuals are those at the mean of `p`. The thread whose
optimiser reported `p` has returned `q`. -/
theorem C175_torn (cpp : Bool) (o : GarchObj GarchVar) (hs : o.success = false) (vb : List (XR × XR)) (v0 : GarchVar)
    (hst : Starts cpp (garchStart cpp) o vb v0) (p q : XR × GarchVar) (rp sp rq sq : List XR)
    (hp : modelPath (garchVariance cpp) o (backcast (prepResids o)) vb p = .ok (rp, sp))
    (hq : modelPath (garchVariance cpp) o (backcast (prepResids o)) vb q = .ok (rq, sq)) :
    ∃ sched : List Bool, ∃ c, c = (Sys.mk o fun b : Bool => garchFitProg cpp (once (if b then p else q))).exec sched ∧
      c.shared.success = true ∧ c.shared.params = some (if o.zeroMean then 0 else q.1, q.2, loglik rq sq) ∧
      c.shared.resids = demean o.returns (if o.zeroMean then 0 else p.1) ∧
      c.result true = some (.ok (some c.shared.params)) ∧ c.result false = some (.ok (some c.shared.params)) :=
  torn cpp o hs vb v0 hst p q rp sp rq sq hp hq _ (i := true) (j := false) (by simp) rfl rfl

/-- the three returns 2, -1, -1 and the means 0 and 1: the hypotheses hold and the residuals differ -/
example (cpp : Bool) : ∃ sched : List Bool, ∃ c, c = (Sys.mk threeDays fun b : Bool => garchFitProg cpp
      (once (if b then ((0 : XR), (⟨1, 0, 0⟩ : GarchVar)) else (1, ⟨1, 0, 0⟩)))).exec sched ∧
    c.shared.success = true ∧ ∃ ll, c.shared.params = some (1, ⟨1, 0, 0⟩, ll) ∧ c.shared.resids ≠ demean threeDays.returns 1 := by
  obtain ⟨vb, v0, hst⟩ := starts_fin cpp threeDays [2, -1, -1] rfl
    (by show ∃ r ∈ Spec.prep false [(2 : ℝ), -1, -1], r ≠ 0
        rw [prep_demo]; exact ⟨2, by simp, by norm_num⟩)
  obtain ⟨⟨rp, sp⟩, hp⟩ := total_garch cpp threeDays vb v0 hst.1 hst.2 (0, ⟨1, 0, 0⟩)
  obtain ⟨⟨rq, sq⟩, hq⟩ := total_garch cpp threeDays vb v0 hst.1 hst.2 (1, ⟨1, 0, 0⟩)
  obtain ⟨sched, c, hc, h1, h2, h3, -⟩ := C175_torn cpp threeDays rfl vb v0 hst _ _ _ _ _ _ hp hq
  refine ⟨sched, c, hc, h1, _, h2, ?_⟩
  rw [h3]
  have e0 : (0 : XR) = .fin 0 := rfl
  have e1 : (1 : XR) = .fin 1 := rfl
  intro h
  have h' := congrArg List.head? h
  simp [threeDays, demean, e0, e1] at h'
  norm_num at h'

/-- and `C175_garch` applies to these threads under every schedule -/
example (cpp : Bool) (sched : List Bool) :
    (((Sys.mk threeDays fun b : Bool => garchFitProg cpp
      (once (if b then ((0 : XR), (⟨1, 0, 0⟩ : GarchVar)) else (1, ⟨1, 0, 0⟩)))).exec sched).shared.returns) = threeDays.returns :=
  (C175_garch cpp (fun b : Bool => once (if b then (0, ⟨1, 0, 0⟩) else (1, ⟨1, 0, 0⟩))) threeDays sched _ rfl).1.returns

/-! ### Concrete cases of the theorems above -/

/-- Two threads that each report the point they asked for: whatever the schedule, the stored log-likelihood comes from
residuals of one asked point and variances of another. -/
example (cpp : Bool) (sched : List Bool) := C175_loglikelihood cpp
  (fun b : Bool => once (if b then ((0 : XR), (⟨1, 0, 0⟩ : GarchVar)) else (1, ⟨1, 0, 0⟩)))
  (fun _ c x0 => once_honest _ c x0) threeDays sched _ rfl
/-- Both threads report points inside the bounds. -/
example (cpp : Bool) (sched : List Bool) := C175_feasible cpp
  (fun b : Bool => once (if b then ((.fin 0 : XR), (⟨.fin 1, .fin 0, .fin 0⟩ : GarchVar)) else (.fin 1, ⟨.fin 1, .fin 0, .fin 0⟩)))
  threeDays (fun b x0 x f h => by
    have hx : x = if b then ((.fin 0 : XR), (⟨.fin 1, .fin 0, .fin 0⟩ : GarchVar)) else (.fin 1, ⟨.fin 1, .fin 0, .fin 0⟩) := by
      simp only [once] at h
      cases h with
      | ask p k v hv x f h => cases h; rfl
    subst hx
    cases b <;> simp [Feas.holds, garchFeas, threeDays, micro, XR.zero_def, XR.one_def] <;> norm_num <;>
      first | exact ⟨trivial, trivial⟩ | exact ⟨⟨trivial, trivial⟩, trivial⟩) sched _ rfl
/-- Two threads taking turns both finish. -/
example (cpp : Bool) := C175_finishes cpp (fun b : Bool => once (if b then ((0 : XR), (⟨1, 0, 0⟩ : GarchVar)) else (1, ⟨1, 0, 0⟩)))
  threeDays (fun n => n % 2 == 0) true (fun n => ⟨2 * n, by omega, by simp⟩)
/-- The same object under the GJR model. -/
example (cpp : Bool) (sched : List Bool) := C175_gjr cpp
  (fun b : Bool => once (if b then ((0 : XR), (⟨1, 0, 0, 0⟩ : GjrVar)) else (1, ⟨1, 0, 0, 0⟩)))
  { returns := [(2 : ℝ), -1, -1].map XR.fin, zeroMean := false, resids := [], sigma2 := [] } sched _ rfl
/-- The crossed log-likelihood on three days of returns. -/
example (cpp : Bool) : ∃ (sched : List Bool) (ll : XR),
    ((Sys.mk threeDays fun b : Bool => garchFitProg cpp (once (if b then ((0 : XR), (⟨1, 0, 0⟩ : GarchVar))
      else (1, ⟨1, 0, 0⟩)))).exec sched).result true = some (.ok (some (some (0, ⟨1, 0, 0⟩, ll)))) := by
  obtain ⟨vb, v0, hst⟩ := starts_fin cpp threeDays [2, -1, -1] rfl
    (by show ∃ r ∈ Spec.prep false [(2 : ℝ), -1, -1], r ≠ 0
        rw [prep_demo]; exact ⟨2, by simp, by norm_num⟩)
  obtain ⟨⟨rp, sp⟩, hp⟩ := total_garch cpp threeDays vb v0 hst.1 hst.2 (0, ⟨1, 0, 0⟩)
  obtain ⟨⟨rq, sq⟩, hq⟩ := total_garch cpp threeDays vb v0 hst.1 hst.2 (1, ⟨1, 0, 0⟩)
  obtain ⟨sched, h⟩ := C175_crossed cpp threeDays rfl vb v0 hst _ _ _ _ _ _ hp hq
  exact ⟨sched, _, h⟩

end
end Frds.Props

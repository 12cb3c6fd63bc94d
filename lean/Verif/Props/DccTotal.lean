import Verif.Props.DccAny

/-! Property C146: DCC estimation completes on regular data whatever the optimisers do. -/
set_option linter.unusedSimpArgs false

namespace Frds.Props
noncomputable section
open Frds Frds.Model Frds.Spec Classical

theorem varLoop_len (next : XR → XR → XR) (chk : XR → XR × XR → XR) (s : XR) (l : List (XR × (XR × XR))) :
    (varLoop next chk s l).length = l.length := by
  induction l generalizing s with
  | nil => rfl
  | cons x t ih => obtain ⟨r, b⟩ := x; simp [varLoop, ih]

theorem variancePath_len {next : XR → XR → XR} {chk : XR → XR × XR → XR} {s0 : XR} {resids : List XR}
    {bounds : List (XR × XR)} {s2 : List XR} (h : variancePath next chk s0 resids bounds = .ok s2)
    (hb : resids.length ≤ bounds.length) : s2.length = resids.length := by
  unfold variancePath at h
  split_ifs at h with h1 h2
  injection h with h
  subst h
  have : 0 < resids.length := List.length_pos_iff.mpr h1
  simp only [List.length_cons, varLoop_len, List.length_zip, List.length_dropLast, List.length_tail]
  omega

theorem dccLoop_len (a b : XR) (qbar q : QMat) (l : List (XR × XR)) : (dccLoop a b qbar q l).length = l.length := by
  induction l generalizing q with
  | nil => rfl
  | cons x t ih => simp [dccLoop, ih]

/-- on two non-empty series of one length the correlations are computed, one per day -/
theorem dccKernel_total (cpp : Bool) (a b : XR) {z1 z2 : List XR} (hne : z1 ≠ []) (hl : z1.length = z2.length) :
    ∃ rho, dccKernel cpp a b z1 z2 = .ok rho ∧ rho.length = z1.length := by
  have hp : 0 < z1.length := List.length_pos_iff.mpr hne
  unfold dccKernel
  rw [if_neg (by simp [hl]), if_neg (by omega), if_neg hne]
  refine ⟨_, rfl, ?_⟩
  simp only [List.length_cons, dccLoop_len, List.length_dropLast, List.length_zip, List.length_take]
  omega

/-- series of different lengths give no correlations of the first length, or an error -/
theorem dccKernel_len {cpp : Bool} {a b : XR} {z1 z2 rho : List XR} (h : dccKernel cpp a b z1 z2 = .ok rho) :
    rho.length = z1.length := by
  unfold dccKernel at h
  split_ifs at h with h1 h2 h3
  injection h with h
  subst h
  have hp : 0 < z1.length := List.length_pos_iff.mpr h3
  simp only [List.length_cons, dccLoop_len, List.length_dropLast, List.length_zip, List.length_take]
  omega

/-! ### regular univariate models -/

/-- `T` finite returns, not all equal (for a zero-mean model: not all zero); the arrays have one entry per day -/
structure RegularSeries {V : Type} (T : ℕ) (o : GarchObj V) : Prop where
  data : ∃ l : List ℝ, o.returns = l.map XR.fin ∧ l.length = T ∧ ∃ r ∈ prep o.zeroMean l, r ≠ 0
  resids : o.resids.length = T
  sigma2 : o.sigma2.length = T

/-- the same for a model of either class -/
def RegularU (T : ℕ) : UModel → Prop
  | .garch o => RegularSeries T o
  | .gjr o => RegularSeries T o

theorem prep_len (zm : Bool) (l : List ℝ) : (prep zm l).length = l.length := by
  unfold prep; cases zm <;> simp

theorem regular_of_estimated {V : Type} {T : ℕ} {cpp : Bool}
    {var : V → List XR → XR → List (XR × XR) → Except PyErr (List XR)}
    (hvar : ∀ p resids bc vb, resids ≠ [] → resids.length ≤ vb.length →
      ∃ s2, var p resids bc vb = .ok s2 ∧ s2.length = resids.length)
    {feas : Bool → Feas (XR × V)} {opt : Optimizer (XR × V)} {o o' : GarchObj V} {bc vb x0 run}
    (hr : RegularSeries T o) (h : Estimated cpp var feas opt o o' bc vb x0 run) : RegularSeries T o' := by
  obtain ⟨⟨l, e, el, hn⟩, h2, h3⟩ := hr
  have hne : prep o.zeroMean l ≠ [] := by obtain ⟨r, h, _⟩ := hn; exact List.ne_nil_of_mem h
  have hl := prep_l_ne hne
  have hvb : vb.length = T := by
    have hb := h.bounds_eq
    rw [prepResids_fin hl e, varianceBounds_fin cpp hne] at hb
    injection hb with hb
    rw [← hb, finRows_length, boundRows_length, prep_len, el]
  refine ⟨⟨l, by rw [h.data.1, e], el, by rw [h.data.2]; exact hn⟩, ?_, ?_⟩
  · cases hs : run.success with
    | true => rw [(h.success hs).2.2]; simp [e, el]
    | false => rw [(h.failure hs).2.2, h2]
  · cases ht : run.trace.getLast? with
    | none => rw [h.sigma2_none (List.getLast?_eq_none_iff.mp ht), h3]
    | some p =>
      obtain ⟨s2, g1, g2⟩ := hvar p.2 (if o.zeroMean then o.returns else o.returns.map (· - p.1)) bc vb
        (by split_ifs <;> simp [e, hl]) (by split_ifs <;> simp [e, el, hvb])
      rw [h.sigma2 p ht s2 g1, g2]
      split_ifs <;> simp [e, el]

theorem gjrFit_total (cpp : Bool) (opt : Optimizer (XR × GjrVar)) (o : GarchObj GjrVar)
    (l : List ℝ) (ho : o.returns = l.map XR.fin)
    (hr : ∃ r ∈ prep o.zeroMean l, r ≠ 0) : ∃ o' ret, gjrFit cpp opt o = .ok (o', ret) := by
  have hne : prep o.zeroMean l ≠ [] := by obtain ⟨r, h, _⟩ := hr; exact List.ne_nil_of_mem h
  have hl := prep_l_ne hne
  have hvb := varianceBounds_fin cpp hne
  have hst := (C69_last_grid_point cpp o.zeroMean l hr _ hvb).2
  unfold gjrFit fitCore
  simp only [bind, Except.bind, pure, Except.pure]
  rw [prepResids_fin hl ho, hvb]
  simp only [ho]
  rw [hst]
  simp only
  cases (opt _ _ _).success <;> exact ⟨_, _, rfl⟩

theorem ufit_regular (cpp : Bool) (optu : Optimizer (XR × GarchVar)) (optj : Optimizer (XR × GjrVar)) (T : ℕ)
    (m : UModel) (h : RegularU T m) : ∃ n, m.fit cpp optu optj = .ok n ∧ RegularU T n := by
  cases m with
  | garch o =>
    have h' : RegularSeries T o := h
    obtain ⟨l, e, el, hn⟩ := h'.data
    cases hs : o.success with
    | true =>
      refine ⟨.garch o, ?_, h⟩
      simp [UModel.fit, uFit, garchFit, hs, Except.map, bind, Except.bind, pure, Except.pure]
    | false =>
      obtain ⟨o', ret, hf⟩ := garchFit_total cpp optu o l e hs hn
      obtain ⟨_, bc, vb, x0, run, he, _⟩ := (C71_garch_fit cpp optu o o' ret hf).2 hs
      refine ⟨.garch o', ?_, ?_⟩
      · simp [UModel.fit, uFit, hf, Except.map, bind, Except.bind, pure, Except.pure]
      · refine regular_of_estimated ?_ h' he
        intro p resids bc vb h1 h2
        exact ⟨_, variancePath_ok h1 fun _ => h2, variancePath_len (variancePath_ok h1 fun _ => h2) h2⟩
  | gjr o =>
    have h' : RegularSeries T o := h
    obtain ⟨l, e, el, hn⟩ := h'.data
    obtain ⟨o', ret, hf⟩ := gjrFit_total cpp optj o l e hn
    obtain ⟨_, bc, vb, x0, run, he, _⟩ := C71_gjr_fit cpp optj o o' ret hf
    refine ⟨.gjr o', ?_, ?_⟩
    · simp [UModel.fit, uFitGjr, hf, Except.map, bind, Except.bind, pure, Except.pure]
    · refine regular_of_estimated ?_ h' he
      intro p resids bc vb h1 h2
      exact ⟨_, variancePath_ok h1 fun _ => h2, variancePath_len (variancePath_ok h1 fun _ => h2) h2⟩

theorem regular_len {T : ℕ} {m : UModel} (h : RegularU T m) :
    (stdResid m.resids m.sigma2).length = T ∧ 0 < T := by
  have key : ∀ {V : Type} (o : GarchObj V), RegularSeries T o → (stdResid o.resids o.sigma2).length = T ∧ 0 < T := by
    intro V o ho
    obtain ⟨l, e, el, r, hr, _⟩ := ho.data
    have h1 : prep o.zeroMean l ≠ [] := List.ne_nil_of_mem hr
    have h2 := List.length_pos_iff.mpr h1
    rw [prep_len, el] at h2
    refine ⟨?_, h2⟩
    simp [stdResid, ho.resids, ho.sigma2]
  cases m with
  | garch o => exact key o h
  | gjr o => exact key o h

theorem foldlM_total {α β : Type} {f : β → α → Except PyErr β} {P : β → Prop} (l : List α) (b : β)
    (hstep : ∀ b, P b → ∀ x, ∃ b', f b x = .ok b' ∧ P b') (hb : P b) : ∃ b', l.foldlM f b = .ok b' ∧ P b' := by
  induction l generalizing b with
  | nil => exact ⟨b, rfl, hb⟩
  | cons x t ih =>
    obtain ⟨b', h1, h2⟩ := hstep b hb x
    obtain ⟨b'', h3, h4⟩ := ih b' h2
    refine ⟨b'', ?_, h4⟩
    rw [List.foldlM_cons, h1]
    exact h3

/-- on estimated regular models the objective is computed -/
theorem anyObjective_total {cpp : Bool} {fitU : UModel → Except PyErr UModel} {o : DccAny} {m1 m2 : UModel} {T : ℕ}
    (h1 : o.model1 = some m1) (h2 : o.model2 = some m2) (r1 : RegularU T m1) (r2 : RegularU T m2)
    (f1 : fitU m1 = .ok m1) (f2 : fitU m2 = .ok m2) (p : XR × XR) :
    ∃ v, anyObjective cpp fitU o p = .ok (o, v) := by
  have l1 := regular_len r1
  have l2 := regular_len r2
  obtain ⟨rho, hk, hl⟩ := dccKernel_total cpp p.1 p.2 (z1 := stdResid m1.resids m1.sigma2)
    (z2 := stdResid m2.resids m2.sigma2) (List.length_pos_iff.mp (by omega)) (by omega)
  have ho : { o with model1 := some m1, model2 := some m2 } = o := by
    obtain ⟨_, _, _, _⟩ := o
    simp only at h1 h2
    simp [h1, h2]
  unfold anyObjective anyCorr
  simp only [h1, h2, bind, Except.bind, pure, Except.pure, f1, f2, hk]
  rw [if_neg (by simp only [List.length_map]; rw [not_not]; omega)]
  exact ⟨_, by rw [ho]⟩

theorem make_total (c : DccClass) (m1 m2 : UModel) : ∃ p, c.make (m1.values ++ m2.values) = .ok p := by
  have hv : ∀ m : UModel, m.values.length ≤ 5 := by
    intro m
    cases m with
    | garch m => rw [values_garch]; simp
    | gjr m => rw [values_gjr]; simp
  have hc : 11 ≤ c.fields.length := by cases c <;> simp [DccClass.fields]
  have := hv m1
  have := hv m2
  refine ⟨_, if_neg ?_⟩
  rw [List.length_append]
  omega

/-- C146. If both arguments stand for regular series of one length `T` (given as arrays or as univariate models,
estimated before or not), `fit` completes, for every behaviour of the three optimisers, keeping both series
regular; then `conditional_correlations(a, b)` returns `T` values for all `a`, `b`. -/
theorem C146_completes (c : DccClass) (cpp : Bool) (optu : Optimizer (XR × GarchVar)) (optj : Optimizer (XR × GjrVar))
    (opt : Optimizer (XR × XR)) (x y : DccArg) (m1 m2 : UModel) (T : ℕ)
    (hx : (DccClass.new c x y).model1 = some m1) (hy : (DccClass.new c x y).model2 = some m2)
    (h1 : RegularU T m1) (h2 : RegularU T m2) :
    ∃ o' r, anyFit c cpp (UModel.fit cpp optu optj) opt (DccClass.new c x y) = .ok (o', r) ∧
      ∀ a b, ∃ rho, anyCorr cpp (UModel.fit cpp optu optj) o' a b = .ok (o', rho) ∧ rho.length = T := by
  obtain ⟨n1, e1, r1⟩ := ufit_regular cpp optu optj T m1 h1
  obtain ⟨n2, e2, r2⟩ := ufit_regular cpp optu optj T m2 h2
  have f1 := ufit_idem cpp optu optj _ _ e1
  have f2 := ufit_idem cpp optu optj _ _ e2
  obtain ⟨p, e3⟩ := make_total c n1 n2
  have hobj : ∀ (su : Bool) (ps : List XR) q, ∃ v,
      anyObjective cpp (UModel.fit cpp optu optj) ⟨some n1, some n2, su, ps⟩ q = .ok (⟨some n1, some n2, su, ps⟩, v) :=
    fun su ps q => anyObjective_total rfl rfl r1 r2 f1 f2 q
  have hcorr : ∀ (su : Bool) (ps : List XR) a b, ∃ rho,
      anyCorr cpp (UModel.fit cpp optu optj) ⟨some n1, some n2, su, ps⟩ a b = .ok (⟨some n1, some n2, su, ps⟩, rho) ∧
      rho.length = T := by
    intro su ps a b
    have l1 := regular_len r1
    have l2 := regular_len r2
    obtain ⟨rho, hk, hl⟩ := dccKernel_total cpp a b (z1 := stdResid n1.resids n1.sigma2)
      (z2 := stdResid n2.resids n2.sigma2) (List.length_pos_iff.mp (by omega)) (by omega)
    refine ⟨rho, ?_, by omega⟩
    unfold anyCorr
    simp only [bind, Except.bind, pure, Except.pure, f1, f2, hk]
  have hstart : ∃ st, anyStart cpp (UModel.fit cpp optu optj)
      ⟨some n1, some n2, (DccClass.new c x y).success, (DccClass.new c x y).params⟩ = .ok st ∧
      st.1 = ⟨some n1, some n2, (DccClass.new c x y).success, (DccClass.new c x y).params⟩ := by
    refine foldlM_total (P := fun s : DccAny × (ℝ × ℝ) =>
      s.1 = ⟨some n1, some n2, (DccClass.new c x y).success, (DccClass.new c x y).params⟩) _ _ ?_ rfl
    intro s hs q
    by_cases hf : 1 ≤ q.1 + q.2
    · exact ⟨s, if_pos hf, hs⟩
    · obtain ⟨v, hv⟩ := hobj (DccClass.new c x y).success (DccClass.new c x y).params (.fin q.1, .fin q.2)
      rw [if_neg hf, hs, hv]
      exact ⟨_, rfl, rfl⟩
  obtain ⟨st, hst, hst1⟩ := hstart
  unfold anyFit
  rw [if_neg (by simp [DccClass.new])]
  simp only [hx, hy, bind, Except.bind, pure, Except.pure, e1, e2, hst]
  simp only [hst1, anyLabels, bind, Except.bind, pure, Except.pure, e3]
  generalize hrun : opt dccFeas _ _ = run
  obtain ⟨o2, ho2, ho2'⟩ := foldlM_total (f := fun (o : DccAny) p => do
      let r ← anyObjective cpp (UModel.fit cpp optu optj) o p
      return r.1)
    (P := fun s : DccAny => s = ⟨some n1, some n2, (DccClass.new c x y).success, p⟩) run.trace _ (by
      intro s hs q
      obtain ⟨v, hv⟩ := hobj (DccClass.new c x y).success p q
      rw [hs, hv]
      exact ⟨_, rfl, rfl⟩) rfl
  simp only [bind, Except.bind, pure, Except.pure] at ho2
  rw [ho2]
  simp only [ho2']
  split_ifs
  · exact ⟨_, _, rfl, hcorr _ _⟩
  · exact ⟨_, _, rfl, hcorr _ _⟩

/-- C146. RegularSeries series of different lengths are rejected by `fit`, for every behaviour of the optimisers: no
result is computed from misaligned days (series of one day, which NumPy would broadcast, excluded). -/
theorem C146_mismatch (c : DccClass) (cpp : Bool) (optu : Optimizer (XR × GarchVar)) (optj : Optimizer (XR × GjrVar))
    (opt : Optimizer (XR × XR)) (x y : DccArg) (m1 m2 : UModel) (T1 T2 : ℕ)
    (hx : (DccClass.new c x y).model1 = some m1) (hy : (DccClass.new c x y).model2 = some m2)
    (h1 : RegularU T1 m1) (h2 : RegularU T2 m2) (hT1 : 2 ≤ T1) (hT2 : 2 ≤ T2) (hT : T1 ≠ T2) :
    ∃ e, anyFit c cpp (UModel.fit cpp optu optj) opt (DccClass.new c x y) = .error e := by
  obtain ⟨n1, e1, r1⟩ := ufit_regular cpp optu optj T1 m1 h1
  obtain ⟨n2, e2, r2⟩ := ufit_regular cpp optu optj T2 m2 h2
  have f1 := ufit_idem cpp optu optj _ _ e1
  have f2 := ufit_idem cpp optu optj _ _ e2
  have l1 := regular_len r1
  have l2 := regular_len r2
  have hobj : ∀ (su : Bool) (ps : List XR) q, ∃ e,
      anyObjective cpp (UModel.fit cpp optu optj) ⟨some n1, some n2, su, ps⟩ q = .error e := by
    intro su ps q
    unfold anyObjective anyCorr
    simp only [bind, Except.bind, pure, Except.pure, f1, f2]
    cases hk : dccKernel cpp q.1 q.2 (stdResid n1.resids n1.sigma2) (stdResid n2.resids n2.sigma2) with
    | error e => exact ⟨e, rfl⟩
    | ok rho =>
      refine ⟨.valueError, ?_⟩
      simp only
      rw [if_pos (fun h => hT (by rw [← l1.1, ← l2.1]; exact h.1)), if_neg]
      have hst : ∀ (n : ℕ) (z : List XR), z.length ≠ 1 → stretch n z = z := by
        intro n z hz
        match z with
        | [] => rfl
        | [a] => simp at hz
        | a :: b :: t => rfl
      rintro ⟨h, h', _⟩
      rw [hst _ _ (by rw [l1.1]; omega)] at h
      rw [hst _ _ (by rw [l2.1]; omega)] at h'
      exact hT (by rw [← l1.1, ← l2.1, h, ← h'])
  obtain ⟨t, ht⟩ : ∃ t, dccGrid = (1 / 100 + ((0 : ℕ) : ℝ) * (49 / 100 / 9),
      6 / 10 + ((0 : ℕ) : ℝ) * (35 / 100 / 9)) :: t := ⟨_, rfl⟩
  have hstart : ∃ e, anyStart cpp (UModel.fit cpp optu optj)
      ⟨some n1, some n2, (DccClass.new c x y).success, (DccClass.new c x y).params⟩ = .error e := by
    unfold anyStart
    rw [ht, List.foldlM_cons]
    rw [if_neg (by norm_num)]
    obtain ⟨e, he⟩ := hobj (DccClass.new c x y).success (DccClass.new c x y).params
      (.fin (1 / 100 + ((0 : ℕ) : ℝ) * (49 / 100 / 9)), .fin (6 / 10 + ((0 : ℕ) : ℝ) * (35 / 100 / 9)))
    refine ⟨e, ?_⟩
    simp only [bind, Except.bind, pure, Except.pure] at he ⊢
    rw [he]
  obtain ⟨e, he⟩ := hstart
  unfold anyFit
  rw [if_neg (by simp [DccClass.new])]
  simp only [hx, hy, bind, Except.bind, pure, Except.pure, e1, e2, he]
  exact ⟨e, rfl⟩

/-- three returns, not all equal -/
theorem demo_regular (V : Type) : RegularSeries 3 (newModel ([(2 : ℝ), -1, -1].map XR.fin) [0, 0, 0] [0, 0, 0] : GarchObj V) :=
  ⟨⟨[2, -1, -1], rfl, rfl, by
    show ∃ r ∈ prep false [(2 : ℝ), -1, -1], r ≠ 0
    rw [prep_demo]; exact ⟨2, by simp, by norm_num⟩⟩, rfl, rfl⟩

theorem demo_regular4 (V : Type) :
    RegularSeries 4 (newModel ([(1 : ℝ), -1, 1, -1].map XR.fin) [0, 0, 0, 0] [0, 0, 0, 0] : GarchObj V) :=
  ⟨⟨[1, -1, 1, -1], rfl, rfl, 1, by
    show 1 ∈ prep false [(1 : ℝ), -1, 1, -1]
    simp [prep, Spec.mean], by norm_num⟩, rfl, rfl⟩

/-- arrays, and an array and a model of the other class, meet the hypotheses of C145 and C146 -/
example (cpp : Bool) (optu : Optimizer (XR × GarchVar)) (optj : Optimizer (XR × GjrVar)) (opt : Optimizer (XR × XR)) :
    (∃ x y m1 m2 o' r, GivesGarch x m1 ∧ GivesGarch y m2 ∧
      anyFit .plain cpp (UModel.fit cpp optu optj) opt (DccClass.new .plain x y) = .ok (o', r)) ∧
    (∃ x y m1 m2 o' r, GivesGjr x m1 ∧ GivesGjr y m2 ∧
      anyFit .gjr cpp (UModel.fit cpp optu optj) opt (DccClass.new .gjr x y) = .ok (o', r)) ∧
    (∃ m1 m2 o' r, anyFit .plain cpp (UModel.fit cpp optu optj) opt
      (DccClass.new .plain (.model (.gjr m1)) (.model (.gjr m2))) = .ok (o', r)) ∧
    (∃ m1 m2 o' r, anyFit .plain cpp (UModel.fit cpp optu optj) opt
      (DccClass.new .plain (.model (.garch m1)) (.model (.gjr m2))) = .ok (o', r)) ∧
    (∃ m1 m2 o' r, anyFit .plain cpp (UModel.fit cpp optu optj) opt
      (DccClass.new .plain (.model (.gjr m1)) (.model (.garch m2))) = .ok (o', r)) := by
  have g : RegularSeries 3 (newModel ([(2 : ℝ), -1, -1].map XR.fin) [0, 0, 0] [0, 0, 0] : GarchObj GarchVar) := demo_regular _
  have j : RegularSeries 3 (newModel ([(2 : ℝ), -1, -1].map XR.fin) [0, 0, 0] [0, 0, 0] : GarchObj GjrVar) := demo_regular _
  refine ⟨?_, ?_, ?_, ?_, ?_⟩
  · obtain ⟨o', r, h, _⟩ := C146_completes .plain cpp optu optj opt
      (.array ([(2 : ℝ), -1, -1].map XR.fin) [0, 0, 0] [0, 0, 0])
      (.array ([(2 : ℝ), -1, -1].map XR.fin) [0, 0, 0] [0, 0, 0]) (.garch _) (.garch _) 3 rfl rfl g g
    exact ⟨_, _, _, _, o', r, .array _ _ _, .array _ _ _, h⟩
  · obtain ⟨o', r, h, _⟩ := C146_completes .gjr cpp optu optj opt
      (.array ([(2 : ℝ), -1, -1].map XR.fin) [0, 0, 0] [0, 0, 0])
      (.array ([(2 : ℝ), -1, -1].map XR.fin) [0, 0, 0] [0, 0, 0]) (.gjr _) (.gjr _) 3 rfl rfl j j
    exact ⟨_, _, _, _, o', r, .array _ _ _, .array _ _ _, h⟩
  · obtain ⟨o', r, h, _⟩ := C146_completes .plain cpp optu optj opt (.model (.gjr _)) (.model (.gjr _)) (.gjr _) (.gjr _)
      3 rfl rfl j j
    exact ⟨_, _, o', r, h⟩
  · obtain ⟨o', r, h, _⟩ := C146_completes .plain cpp optu optj opt (.model (.garch _)) (.model (.gjr _)) (.garch _)
      (.gjr _) 3 rfl rfl g j
    exact ⟨_, _, o', r, h⟩
  · obtain ⟨o', r, h, _⟩ := C146_completes .plain cpp optu optj opt (.model (.gjr _)) (.model (.garch _)) (.gjr _)
      (.garch _) 3 rfl rfl j g
    exact ⟨_, _, o', r, h⟩

example : ∃ x y m1 m2, (DccClass.new .gjr x y).model1 = some m1 ∧ (DccClass.new .gjr x y).model2 = some m2 ∧
    RegularU 3 m1 ∧ RegularU 4 m2 :=
  ⟨.array ([(2 : ℝ), -1, -1].map XR.fin) [0, 0, 0] [0, 0, 0],
    .array ([(1 : ℝ), -1, 1, -1].map XR.fin) [0, 0, 0, 0] [0, 0, 0, 0], .gjr _, .gjr _, rfl, rfl,
    demo_regular _, demo_regular4 _⟩

/-! ### Concrete cases of the theorems above -/

/-- Three days against four. -/
example (cpp : Bool) (optu : Optimizer (XR × GarchVar)) (optj : Optimizer (XR × GjrVar)) (opt : Optimizer (XR × XR)) :=
  C146_mismatch .gjr cpp optu optj opt (.array ([(2 : ℝ), -1, -1].map XR.fin) [0, 0, 0] [0, 0, 0])
    (.array ([(1 : ℝ), -1, 1, -1].map XR.fin) [0, 0, 0, 0] [0, 0, 0, 0]) (.gjr _) (.gjr _) 3 4 rfl rfl
    (demo_regular _) (demo_regular4 _) (by norm_num) (by norm_num) (by norm_num)
/-- The labels of a model of two arrays, and of the four ways to mix up the univariate models. -/
example (cpp : Bool) (optu : Optimizer (XR × GarchVar)) (optj : Optimizer (XR × GjrVar)) (opt : Optimizer (XR × XR)) :
    ∃ o' r n1, o'.params = r ∧ o'.model1 = some (.garch n1) ∧ anyFit .plain cpp (UModel.fit cpp optu optj) opt
      (DccClass.new .plain (.array ([(2 : ℝ), -1, -1].map XR.fin) [0, 0, 0] [0, 0, 0])
        (.array ([(2 : ℝ), -1, -1].map XR.fin) [0, 0, 0] [0, 0, 0])) = .ok (o', r) := by
  have g : RegularSeries 3 (newModel ([(2 : ℝ), -1, -1].map XR.fin) [0, 0, 0] [0, 0, 0] : GarchObj GarchVar) := demo_regular _
  obtain ⟨o', r, h, _⟩ := C146_completes .plain cpp optu optj opt
    (.array ([(2 : ℝ), -1, -1].map XR.fin) [0, 0, 0] [0, 0, 0])
    (.array ([(2 : ℝ), -1, -1].map XR.fin) [0, 0, 0] [0, 0, 0]) (.garch _) (.garch _) 3 rfl rfl g g
  obtain ⟨n1, _, _, _, h1, _, h2, _⟩ := C145_labels cpp optu optj opt _ _ _ _ (.array _ _ _) (.array _ _ _) o' r h
  exact ⟨o', r, n1, h2, h1, h⟩
example (cpp : Bool) (optu : Optimizer (XR × GarchVar)) (optj : Optimizer (XR × GjrVar)) (opt : Optimizer (XR × XR)) :
    ∃ o' r n1, o'.params = r ∧ o'.model1 = some (.gjr n1) ∧ anyFit .gjr cpp (UModel.fit cpp optu optj) opt
      (DccClass.new .gjr (.array ([(2 : ℝ), -1, -1].map XR.fin) [0, 0, 0] [0, 0, 0])
        (.array ([(2 : ℝ), -1, -1].map XR.fin) [0, 0, 0] [0, 0, 0])) = .ok (o', r) := by
  have j : RegularSeries 3 (newModel ([(2 : ℝ), -1, -1].map XR.fin) [0, 0, 0] [0, 0, 0] : GarchObj GjrVar) := demo_regular _
  obtain ⟨o', r, h, _⟩ := C146_completes .gjr cpp optu optj opt
    (.array ([(2 : ℝ), -1, -1].map XR.fin) [0, 0, 0] [0, 0, 0])
    (.array ([(2 : ℝ), -1, -1].map XR.fin) [0, 0, 0] [0, 0, 0]) (.gjr _) (.gjr _) 3 rfl rfl j j
  obtain ⟨n1, _, _, _, h1, _, h2, _⟩ := C145_labels_gjr cpp optu optj opt _ _ _ _ (.array _ _ _) (.array _ _ _) o' r h
  exact ⟨o', r, n1, h2, h1, h⟩
/-- A plain correlation model of two GJR models is fitted, and its "mu2" is the first model's beta. -/
example (cpp : Bool) (optu : Optimizer (XR × GarchVar)) (optj : Optimizer (XR × GjrVar)) (opt : Optimizer (XR × XR)) :
    ∃ (o' : DccAny) (r : List XR) (n1 : GarchObj GjrVar), o'.model1 = some (.gjr n1) ∧
      (∃ l, ("mu2", est n1 fun q => q.2.beta) ∈ l ∧ Reads .plain r l) ∧ o'.params = r := by
  have j : RegularSeries 3 (newModel ([(2 : ℝ), -1, -1].map XR.fin) [0, 0, 0] [0, 0, 0] : GarchObj GjrVar) := demo_regular _
  obtain ⟨o', r, h, _⟩ := C146_completes .plain cpp optu optj opt (.model (.gjr _)) (.model (.gjr _)) (.gjr _) (.gjr _)
    3 rfl rfl j j
  obtain ⟨n1, _, _, _, h1, _, h2, h3, _⟩ := C145_mislabel cpp optu optj opt _ _ o' r h
  refine ⟨o', r, n1, h1, ⟨_, ?_, h3⟩, h2⟩
  simp only [List.mem_cons, true_or, or_true]
example (cpp : Bool) (fitU : UModel → Except PyErr UModel) (opt : Optimizer (XR × XR)) :=
  C145_rejects .gjr cpp fitU opt (.model (.garch (newModel [] [] []))) .other (by rintro ⟨h, -⟩; cases h) (0, 0) 0 0

end
end Frds.Props

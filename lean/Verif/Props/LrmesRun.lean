import Verif.Props.LrmesObj
import Verif.Props.DccTotal
import Verif.Props.DccLink

/-! C181: when `LongRunMarginalExpectedShortfall.estimate` completes and when it raises; C97 for series with NaN or infinities. -/
namespace Frds.Props
noncomputable section
open Frds Frds.Model Frds.Spec Frds.Model.Crash Frds.Model.Crash.Run Frds.Model.LrmesObj Frds.Props.Crash Classical
set_option linter.unusedSimpArgs false
set_option linter.unusedVariables false

namespace LrmesRun

/-! ### non-finite data -/

theorem sum_pinf (l : List XR) (h : XR.pinf ∈ l) : l.sum = .nan ∨ l.sum = .pinf := by
  induction l with
  | nil => cases h
  | cons a t ih =>
    rw [List.sum_cons]
    rcases List.mem_cons.mp h with rfl | h
    · cases t.sum
      · left; rfl
      · left; rfl
      · right; rfl
      · right; rfl
    · rcases ih h with e | e <;> rw [e]
      · left; simp
      · cases a
        · left; rfl
        · left; rfl
        · right; rfl
        · right; rfl

theorem sum_ninf (l : List XR) (h : XR.ninf ∈ l) : l.sum = .nan ∨ l.sum = .ninf := by
  induction l with
  | nil => cases h
  | cons a t ih =>
    rw [List.sum_cons]
    rcases List.mem_cons.mp h with rfl | h
    · cases t.sum
      · left; rfl
      · right; rfl
      · left; rfl
      · right; rfl
    · rcases ih h with e | e <;> rw [e]
      · left; simp
      · cases a
        · left; rfl
        · right; rfl
        · left; rfl
        · right; rfl

theorem pinf_div_pos {r : ℝ} (h : 0 < r) : XR.pinf / XR.fin r = .pinf := by
  show XR.div .pinf (.fin r) = .pinf
  unfold XR.div
  simp [h, le_of_lt h]

theorem ninf_div_pos {r : ℝ} (h : 0 < r) : XR.ninf / XR.fin r = .ninf := by
  show XR.div .ninf (.fin r) = .ninf
  unfold XR.div
  simp [h, le_of_lt h]

/-- the variance of a series with a NaN or an infinity is NaN -/
theorem var_nonfinite (l : List XR) (h : ∃ x ∈ l, ∀ r : ℝ, x ≠ .fin r) : Np.var l = .nan := by
  obtain ⟨x, hx, hn⟩ := h
  have hlen : (0 : ℝ) < (l.length : ℝ) := by
    exact_mod_cast List.length_pos_of_mem hx
  have hmean : Np.mean l = .nan ∨ (Np.mean l = .pinf ∧ XR.pinf ∈ l) ∨ (Np.mean l = .ninf ∧ XR.ninf ∈ l) := by
    unfold Np.mean
    cases x with
    | nan => left; rw [LrmesObj.sum_nan l hx]; simp
    | pinf =>
      rcases sum_pinf l hx with e | e <;> rw [e]
      · left; simp
      · right; left; exact ⟨pinf_div_pos hlen, hx⟩
    | ninf =>
      rcases sum_ninf l hx with e | e <;> rw [e]
      · left; simp
      · right; right; exact ⟨ninf_div_pos hlen, hx⟩
    | fin r => exact absurd rfl (hn r)
  have key : XR.nan ∈ l.map fun v => XR.sq (v - Np.mean l) := by
    rcases hmean with e | ⟨e, hm⟩ | ⟨e, hm⟩
    · exact List.mem_map.mpr ⟨x, hx, by rw [e]; cases x <;> rfl⟩
    · exact List.mem_map.mpr ⟨_, hm, by rw [e]; rfl⟩
    · exact List.mem_map.mpr ⟨_, hm, by rw [e]; rfl⟩
  unfold Np.var
  generalize Np.mean l = m at key
  show (l.map fun v => XR.sq (v - m)).sum / _ = _
  rw [LrmesObj.sum_nan _ key]
  simp

theorem loglik_nan (x : XR) (t s : List XR) : loglik (x :: t) (.nan :: s) = .nan := by
  unfold loglik
  simp [XR.log]

end LrmesRun
open LrmesRun

/-- C97. A series with a NaN or an infinity (`log` of a gross return that is zero or negative, an overflow, a gap) cannot be
estimated: `fit` raises `ValueError`, whatever the optimiser does. -/
theorem C97_nonfinite (cpp : Bool) (opt : Optimizer (XR × GarchVar)) (optj : Optimizer (XR × GjrVar)) (l : List XR)
    (h : ∃ x ∈ l, ∀ r : ℝ, x ≠ .fin r) (zm : Bool) (resids sigma2 : List XR) :
    garchFit cpp opt { returns := l, zeroMean := zm, resids := resids, sigma2 := sigma2 } = .error .valueError ∧
    gjrFit cpp optj { returns := l, zeroMean := zm, resids := resids, sigma2 := sigma2 } = .error .valueError := by
  have hv := var_nonfinite l h
  have hl : l ≠ [] := by obtain ⟨x, hx, -⟩ := h; exact List.ne_nil_of_mem hx
  have key : ∀ p : List XR, p ≠ [] → ∀ vb bc, varianceBounds cpp p = .ok vb → 
      garchStart cpp l p bc vb = .ok none ∧ gjrStart cpp l p = .ok none := by
    intro p hp vb bc hvb
    obtain ⟨vb', hvb', hlen⟩ := bounds_total cpp p hp
    rw [hvb] at hvb'
    injection hvb' with e
    subst e
    constructor
    · rw [garchStart, hv, gridSearch_last, List.find?_eq_none.mpr]
      · intro q hq hu
        rw [decide_eq_true_eq] at hu
        obtain ⟨s2, h1, h2⟩ := hu
        simp only [List.mem_reverse, garchCands, List.mem_flatMap, List.mem_map] at hq
        obtain ⟨a, ha, g, hg, rfl⟩ := hq
        simp only [garchVariance] at h1
        rw [variancePath_ok hp fun _ => by omega] at h1
        injection h1 with h1
        subst h1
        obtain ⟨x, t, rfl⟩ := List.exists_cons_of_ne_nil hp
        simp only [XR.nan_mul, XR.nan_add] at h2
        rw [loglik_nan] at h2
        simp at h2
      · intro q _
        exact ⟨_, variancePath_ok hp fun _ => by omega⟩
    · rw [gjrStart, hvb]
      simp only [bind, Except.bind]
      rw [hv, gridSearch_last, List.find?_eq_none.mpr]
      · intro q hq hu
        rw [decide_eq_true_eq] at hu
        obtain ⟨s2, h1, h2⟩ := hu
        simp only [List.mem_reverse, gjrCands, List.mem_flatMap, List.mem_map] at hq
        obtain ⟨a, ha, g, hg, w, hw, rfl⟩ := hq
        simp only [gjrVariance] at h1
        rw [variancePath_ok hp fun _ => by omega] at h1
        injection h1 with h1
        subst h1
        obtain ⟨x, t, rfl⟩ := List.exists_cons_of_ne_nil hp
        simp only [XR.nan_mul, XR.nan_add] at h2
        rw [loglik_nan] at h2
        simp at h2
      · intro q _
        exact ⟨_, variancePath_ok hp fun _ => by omega⟩
  constructor
  · have hp : prepResids ({ returns := l, zeroMean := zm, resids := resids, sigma2 := sigma2 } : GarchObj GarchVar) ≠ [] := by
      unfold prepResids demean; split_ifs <;> simp [hl]
    obtain ⟨vb, hvb, -⟩ := bounds_total cpp _ hp
    unfold garchFit fitCore
    simp only [bind, Except.bind, pure, Except.pure, Bool.false_eq_true, if_false]
    rw [hvb]
    simp only
    rw [(key _ hp vb _ hvb).1]
  · have hp : prepResids ({ returns := l, zeroMean := zm, resids := resids, sigma2 := sigma2 } : GarchObj GjrVar) ≠ [] := by
      unfold prepResids demean; split_ifs <;> simp [hl]
    obtain ⟨vb, hvb, -⟩ := bounds_total cpp _ hp
    unfold gjrFit fitCore
    simp only [bind, Except.bind, pure, Except.pure, Bool.false_eq_true, if_false]
    rw [hvb]
    simp only
    rw [(key _ hp vb .nan hvb).2]

example : ∃ x ∈ [XR.fin 1, .pinf, .fin 2], ∀ r : ℝ, x ≠ .fin r := ⟨.pinf, by simp, by simp⟩

namespace LrmesRun

theorem pctLog_fin {r : ℝ} (h : -1 < r) : pctLog (.fin r) = .fin (100 * Real.log (1 + r)) := by
  unfold pctLog
  rw [XR.one_def, XR.fin_add, XR.fin_log (by linarith), XR.ofNat_def, XR.fin_mul, mul_comm]

/-- a simple return that is NaN, infinite, or -1 or less has no finite log return -/
theorem pctLog_bad (x : XR) (h : ∀ r : ℝ, x = .fin r → r ≤ -1) (r : ℝ) : pctLog x ≠ .fin r := by
  unfold pctLog
  cases x with
  | nan => simp [XR.log]
  | pinf =>
    rw [XR.one_def, XR.ofNat_def, show XR.fin 1 + XR.pinf = .pinf from rfl, show XR.log .pinf = .pinf from rfl,
      show XR.pinf * XR.fin (OfNat.ofNat 100) = XR.infSign (OfNat.ofNat 100) from rfl, XR.infSign_pos (by norm_num)]
    simp
  | ninf =>
    rw [XR.one_def, XR.ofNat_def, show XR.fin 1 + XR.ninf = .ninf from rfl, show XR.log .ninf = .nan from rfl]
    simp
  | fin q =>
    have hq := h q rfl
    rw [XR.one_def, XR.fin_add, XR.ofNat_def]
    rcases eq_or_lt_of_le hq with rfl | hq
    · rw [show (1 + -1 : ℝ) = 0 by norm_num, show XR.log (.fin 0) = .ninf by simp [XR.log],
        show XR.ninf * XR.fin (OfNat.ofNat 100) = XR.infSign (-(OfNat.ofNat 100)) from rfl, XR.infSign_neg (by norm_num)]
      simp
    · rw [show XR.log (.fin (1 + q)) = .nan by
        show (if 0 < 1 + q then XR.fin (Real.log (1 + q)) else if 1 + q = 0 then .ninf else .nan) = .nan
        rw [if_neg (by linarith), if_neg (by intro h; linarith)]]
      simp

theorem gjr_error {cppA : Bool} {optu : Optimizer (XR × GjrVar)} {m : GarchObj GjrVar} {e : PyErr}
    (h : gjrFit cppA optu m = .error e) : uFitGjr cppA optu m = .error e := by
  unfold uFitGjr; simp only [bind, Except.bind, h]

theorem dcc_error1 {cppA : Bool} {optu : Optimizer (XR × GjrVar)} {opt : Optimizer (XR × XR)} {o : DccObj GjrVar} {e : PyErr}
    (hs : o.success = false) (h : uFitGjr cppA optu o.model1 = .error e) :
    dccFit cppA (uFitGjr cppA optu) opt o = .error e := by
  unfold dccFit refit
  rw [if_neg (by simp [hs])]
  simp only [bind, Except.bind, h]

theorem dcc_error2 {cppA : Bool} {optu : Optimizer (XR × GjrVar)} {opt : Optimizer (XR × XR)} {o : DccObj GjrVar} {e : PyErr}
    (hs : o.success = false) {m : GarchObj GjrVar} (h1 : uFitGjr cppA optu o.model1 = .ok m)
    (h : uFitGjr cppA optu o.model2 = .error e) :
    dccFit cppA (uFitGjr cppA optu) opt o = .error e := by
  unfold dccFit refit
  rw [if_neg (by simp [hs])]
  simp only [bind, Except.bind, h1, h]

/-- simple returns that can be used: real numbers above -1, not all equal -/
def UsableReturns (l : List XR) : Prop :=
  (∀ x ∈ l, ∃ r : ℝ, x = .fin r ∧ -1 < r) ∧ ∃ x ∈ l, ∃ y ∈ l, x ≠ y

theorem prep_nonzero {l : List ℝ} {x y : ℝ} (hx : x ∈ l) (hy : y ∈ l) (h : x ≠ y) : ∃ r ∈ prep false l, r ≠ 0 := by
  by_contra hc
  push Not at hc
  have h1 := hc (x - Spec.mean l id) (by simp only [prep, Bool.false_eq_true, if_false]; exact List.mem_map.mpr ⟨x, hx, rfl⟩)
  have h2 := hc (y - Spec.mean l id) (by simp only [prep, Bool.false_eq_true, if_false]; exact List.mem_map.mpr ⟨y, hy, rfl⟩)
  exact h (by linarith)

theorem regular_new {l : List XR} (h : UsableReturns l) (x y : List XR) (hx : x.length = l.length) (hy : y.length = l.length) :
    RegularSeries l.length (newModel (l.map pctLog) x y : GarchObj GjrVar) := by
  obtain ⟨hf, u, hu, v, hv, huv⟩ := h
  obtain ⟨q, rfl⟩ : ∃ q : List ℝ, l = q.map XR.fin := by
    clear hu hv huv hx hy
    induction l with
    | nil => exact ⟨[], rfl⟩
    | cons a t ih =>
      obtain ⟨q, rfl⟩ := ih fun x hx => hf x (by simp [hx])
      obtain ⟨r, rfl, -⟩ := hf a (by simp)
      exact ⟨r :: q, rfl⟩
  have hq : ∀ r ∈ q, -1 < r := by
    intro r hr
    obtain ⟨r', e, h⟩ := hf (.fin r) (List.mem_map.mpr ⟨r, hr, rfl⟩)
    rw [XR.fin_inj] at e
    rw [e]; exact h
  refine ⟨⟨q.map fun r => 100 * Real.log (1 + r), ?_, by simp, ?_⟩, hx, hy⟩
  · simp only [newModel, List.map_map]
    refine List.map_congr_left fun r hr => ?_
    simp only [Function.comp_apply]
    exact pctLog_fin (hq r hr)
  · obtain ⟨a, ha, rfl⟩ := List.mem_map.mp hu
    obtain ⟨b, hb, rfl⟩ := List.mem_map.mp hv
    refine prep_nonzero (List.mem_map.mpr ⟨a, ha, rfl⟩) (List.mem_map.mpr ⟨b, hb, rfl⟩) ?_
    intro e
    have e' : Real.log (1 + a) = Real.log (1 + b) := by linarith
    have := Real.log_injOn_pos (Set.mem_Ioi.mpr (by linarith [hq a ha] : (0 : ℝ) < 1 + a))
      (Set.mem_Ioi.mpr (by linarith [hq b hb] : (0 : ℝ) < 1 + b)) e'
    exact huv (by rw [XR.fin_inj]; linarith)

theorem unusable_fails (cppA : Bool) (optu : Optimizer (XR × GjrVar)) {l : List XR} (hne : l ≠ []) (h : ¬ UsableReturns l) (x y : List XR) :
    uFitGjr cppA optu (newModel (l.map pctLog) x y) = .error .valueError := by
  apply gjr_error
  by_cases hf : ∀ x ∈ l, ∃ r : ℝ, x = .fin r ∧ -1 < r
  · have hc : ∀ x ∈ l, ∀ y ∈ l, x = y := by
      intro x hx y hy
      by_contra hxy
      exact h ⟨hf, x, hx, y, hy, hxy⟩
    obtain ⟨a, t, rfl⟩ := List.exists_cons_of_ne_nil hne
    obtain ⟨r, rfl, hr⟩ := hf a (by simp)
    have e : (XR.fin r :: t).map pctLog = (List.replicate (t.length + 1) (100 * Real.log (1 + r))).map XR.fin := by
      rw [List.map_replicate, ← pctLog_fin hr]
      refine List.eq_replicate_iff.mpr ⟨by simp, fun b hb => ?_⟩
      obtain ⟨c, hcm, rfl⟩ := List.mem_map.mp hb
      rw [hc c hcm _ (List.mem_cons_self)]
    unfold newModel
    rw [e]
    refine (C97_degenerate cppA (fun _ _ x0 => ⟨[], false, x0, .nan⟩) optu _ (by simp) false ?_ x y).2
    intro q hq
    simp only [prep, Bool.false_eq_true, if_false, List.mem_map] at hq
    obtain ⟨w, hw, rfl⟩ := hq
    have hw' := List.eq_of_mem_replicate hw
    subst hw'
    have hm : Spec.mean (List.replicate (t.length + 1) (100 * Real.log (1 + r))) id = 100 * Real.log (1 + r) := by
      simp [Spec.mean]
      field_simp
    rw [hm, sub_self]
  · push Not at hf
    obtain ⟨u, hu, hb⟩ := hf
    exact (C97_nonfinite cppA (fun _ _ x0 => ⟨[], false, x0, .nan⟩) optu _
      ⟨pctLog u, List.mem_map.mpr ⟨u, hu, rfl⟩, pctLog_bad u hb⟩ false x y).2

theorem usable_fits (cppA : Bool) (optu : Optimizer (XR × GjrVar)) {l : List XR} (h : UsableReturns l) (x y : List XR) (hx : x.length = l.length)
    (hy : y.length = l.length) : ∃ m, uFitGjr cppA optu (newModel (l.map pctLog) x y) = .ok m := by
  obtain ⟨⟨q, e, -, hr⟩, -, -⟩ := regular_new h x y hx hy
  obtain ⟨m, r, hm⟩ := gjrFit_total cppA optu _ q e hr
  exact ⟨m, by unfold uFitGjr; simp only [bind, Except.bind, pure, Except.pure, hm]⟩

theorem simulate_total (cpp : Bool) (f : DccFit) (hs : f.success = true) (C : XR) (idx : List (List ℕ)) (h1 : f.firmVar ≠ [])
    (h2 : f.firmResid ≠ []) (h3 : f.mktVar ≠ []) (h4 : f.mktResid ≠ []) (h5 : f.rho ≠ []) :
    ∃ v, lrmesEstimate cpp f C idx = .ok v := by
  unfold lrmesEstimate
  rw [if_neg (by simp [hs])]
  by_cases hi : idx = []
  · rw [if_pos hi]; exact ⟨_, rfl⟩
  · rw [if_neg hi]
    unfold simArgsOf
    rw [List.getLast?_eq_getLast_of_ne_nil h1, List.getLast?_eq_getLast_of_ne_nil h2, List.getLast?_eq_getLast_of_ne_nil h3,
      List.getLast?_eq_getLast_of_ne_nil h4, List.getLast?_eq_getLast_of_ne_nil h5]
    exact ⟨_, rfl⟩

end LrmesRun
open LrmesRun

/-- C181. On usable series (real returns above -1, not all equal) of one length `T`, whatever the optimisers do: the correlation
estimation completes; `estimate` then raises `RuntimeError` if the optimiser reported failure, and returns a number otherwise, for all
arguments: the LRMES of C34 of the estimated model with `T` conditional correlations, with innovations drawn out of `T`. -/
theorem C181_completes (cppA cppM : Bool) (optu : Optimizer (XR × GjrVar)) (opt : Optimizer (XR × XR))
    (firm market resids1 sigma1 resids2 sigma2 : List XR) (T : ℕ) (hT : firm.length = T) (hT' : market.length = T)
    (hf : UsableReturns firm) (hm : UsableReturns market)
    (h1 : resids1.length = T) (h2 : sigma1.length = T) (h3 : resids2.length = T) (h4 : sigma2.length = T) (c : Call) :
    ∃ o o' r, LrmesObj.new firm market resids1 sigma1 resids2 sigma2 = .ok o ∧
      dccFit cppA (uFitGjr cppA optu) opt o = .ok (o', r) ∧
      (o'.success = false → outcome (estimate cppA cppM optu opt c) o = .error .runtimeError) ∧
      (o'.success = true → ∃ rho v, rho.length = T ∧ condCorr cppA (uFitGjr cppA optu) o' r.a r.b = .ok (o', rho) ∧
        (∃ f, Spec.Reads o' rho f ∧ outcome (estimate cppA cppM optu opt c) o = lrmesEstimate cppM f c.C (c.draw T)) ∧
        outcome (estimate cppA cppM optu opt c) o = .ok v) := by
  subst hT
  have r1 := regular_new hf resids1 sigma1 h1 h2
  have r2 := regular_new hm resids2 sigma2 (by omega) (by omega)
  rw [hT'] at r2
  obtain ⟨any', ps, hfit, hcorr⟩ := C146_completes .gjr cppA (fun _ _ x0 => ⟨[], false, x0, .nan⟩) optu opt
    (.array (firm.map pctLog) resids1 sigma1) (.array (market.map pctLog) resids2 sigma2)
    (.gjr (newModel (firm.map pctLog) resids1 sigma1)) (.gjr (newModel (market.map pctLog) resids2 sigma2)) firm.length rfl rfl r1 r2
  rw [(C145_typed cppA (fun _ _ x0 => ⟨[], false, x0, .nan⟩) optu opt _ _).2 _ _ (.array _ _ _) (.array _ _ _)] at hfit
  set o : DccObj GjrVar := { model1 := newModel (firm.map pctLog) resids1 sigma1,
                             model2 := newModel (market.map pctLog) resids2 sigma2 } with ho
  have hnew : LrmesObj.new firm market resids1 sigma1 resids2 sigma2 = .ok o := by
    unfold LrmesObj.new; rw [if_neg (by simp [hT'])]
  cases hd : dccFit cppA (uFitGjr cppA optu) opt o with
  | error e =>
    change (dccFit cppA (uFitGjr cppA optu) opt o).map _ = _ at hfit
    rw [hd] at hfit; cases hfit
  | ok q =>
    obtain ⟨o', r⟩ := q
    change (dccFit cppA (uFitGjr cppA optu) opt o).map _ = _ at hfit
    rw [hd] at hfit
    obtain ⟨e1, e2⟩ := ok_pair hfit
    refine ⟨o, o', r, hnew, hd, ?_⟩
    obtain ⟨-, hfirst⟩ := C180_first cppA cppM optu opt o rfl c
    obtain ⟨hA, hB⟩ := hfirst o' r hd
    refine ⟨hA, fun hs => ?_⟩
    obtain ⟨rho, hrho, hlen⟩ := hcorr r.a r.b
    rw [← e1] at hrho
    have hE := anyCorr_emb (embeds_gjr cppA (fun _ _ x0 => ⟨[], false, x0, .nan⟩) optu) cppA (lay jVals o'.params) o' r.a r.b
    change anyCorr cppA _ (emb .gjr (lay jVals o'.params) o') r.a r.b = _ at hrho
    rw [hE] at hrho
    cases hcc : condCorr cppA (uFitGjr cppA optu) o' r.a r.b with
    | error e => rw [hcc] at hrho; cases hrho
    | ok w =>
      obtain ⟨o'', rho'⟩ := w
      rw [hcc] at hrho
      obtain ⟨-, e3⟩ := ok_pair hrho
      subst e3
      obtain ⟨rfl, f, hrd, hout⟩ := (hB hs).2 o'' rho' hcc
      obtain rfl := reads_unique hrd (reads_view _ _)
      obtain ⟨f1, f2, -, -⟩ := LrmesObj.settled_of_fit (show o.success = false from rfl) hd
      have g1 : RegularSeries firm.length o''.model1 := by
        obtain ⟨n, e, hr⟩ := ufit_regular cppA (fun _ _ x0 => ⟨[], false, x0, .nan⟩) optu firm.length (.gjr o.model1) r1
        simp only [UModel.fit, f1, Except.map] at e
        injection e with e; subst e; exact hr
      have g2 : RegularSeries firm.length o''.model2 := by
        obtain ⟨n, e, hr⟩ := ufit_regular cppA (fun _ _ x0 => ⟨[], false, x0, .nan⟩) optu firm.length (.gjr o.model2) r2
        simp only [UModel.fit, f2, Except.map] at e
        injection e with e; subst e; exact hr
      have hpos : 0 < firm.length := (regular_len (m := .gjr o''.model1) g1).2
      have hxi : (xiSeries (view o'' rho')).length = firm.length := by
        simp [xiSeries, stdResid, view, g1.resids, g1.sigma2, g2.resids, g2.sigma2, hlen]
      rw [hxi] at hout
      have ne : ∀ l : List XR, l.length = firm.length → l ≠ [] := by
        intro l hl; exact List.length_pos_iff.mp (by omega)
      obtain ⟨v, hv⟩ := simulate_total cppM (view o'' rho') hs c.C (c.draw firm.length) (ne _ g1.sigma2) (ne _ g1.resids)
        (ne _ g2.sigma2) (ne _ g2.resids) (ne _ hlen)
      exact ⟨rho', v, hlen, rfl, ⟨_, hrd, hout⟩, hout.trans hv⟩

/-- C181. Series that cannot be used raise, whatever the optimisers do: series of different lengths in the constructor
(`AssertionError`); empty series in `estimate` (`IndexError`); and a firm or a market series in which some return is NaN, infinite,
or -1 or less, or all returns are equal, in `estimate` (`ValueError`). -/
theorem C181_rejects (cppA cppM : Bool) (optu : Optimizer (XR × GjrVar)) (opt : Optimizer (XR × XR))
    (firm market resids1 sigma1 resids2 sigma2 : List XR) (c : Call) :
    (firm.length ≠ market.length → LrmesObj.new firm market resids1 sigma1 resids2 sigma2 = .error .assertionError) ∧
    (firm = [] → market = [] → ∃ o, LrmesObj.new firm market resids1 sigma1 resids2 sigma2 = .ok o ∧
      outcome (estimate cppA cppM optu opt c) o = .error .indexError) ∧
    (firm ≠ [] → firm.length = market.length → resids1.length = firm.length → sigma1.length = firm.length →
      ((∃ x ∈ firm ++ market, x = .nan ∨ x = .pinf ∨ x = .ninf ∨ ∃ r : ℝ, x = .fin r ∧ r ≤ -1) ∨
        (∀ x ∈ firm, ∀ y ∈ firm, x = y) ∨ (∀ x ∈ market, ∀ y ∈ market, x = y)) →
      ∃ o, LrmesObj.new firm market resids1 sigma1 resids2 sigma2 = .ok o ∧
        outcome (estimate cppA cppM optu opt c) o = .error .valueError) := by
  refine ⟨(C180_new _ _ _ _ _ _).1, ?_, ?_⟩
  · rintro rfl rfl
    refine ⟨_, by unfold LrmesObj.new; rw [if_neg (by simp)], ?_⟩
    refine (C180_first cppA cppM optu opt _ rfl c).1 _ (dcc_error1 rfl (gjr_error ?_))
    exact (C97_empty cppA (fun _ _ x0 => ⟨[], false, x0, .nan⟩) optu false resids1 sigma1).2
  · intro hne hlen hr1 hs1 h
    have hne' : market ≠ [] := by
      rintro rfl; exact hne (List.length_eq_zero_iff.mp hlen)
    have hbad : ¬ UsableReturns firm ∨ ¬ UsableReturns market := by
      rcases h with ⟨x, hx, hb⟩ | h | h
      · have hx' : ∀ l : List XR, x ∈ l → ¬ UsableReturns l := by
          intro l hl hu
          obtain ⟨r, rfl, hr⟩ := hu.1 x hl
          rcases hb with h | h | h | ⟨q, h, hq⟩
          · cases h
          · cases h
          · cases h
          · rw [XR.fin_inj] at h; linarith
        rcases List.mem_append.mp hx with hx | hx
        · exact .inl (hx' _ hx)
        · exact .inr (hx' _ hx)
      · left
        rintro ⟨-, x, hx, y, hy, hxy⟩
        exact hxy (h x hx y hy)
      · right
        rintro ⟨-, x, hx, y, hy, hxy⟩
        exact hxy (h x hx y hy)
    refine ⟨_, by unfold LrmesObj.new; rw [if_neg (by simp [hlen])], ?_⟩
    refine (C180_first cppA cppM optu opt _ rfl c).1 _ ?_
    by_cases hu : UsableReturns firm
    · obtain ⟨m, hm⟩ := usable_fits cppA optu hu resids1 sigma1 hr1 hs1
      exact dcc_error2 rfl hm (unusable_fails cppA optu hne' (hbad.resolve_left (by simp [hu])) _ _)
    · exact dcc_error1 rfl (unusable_fails cppA optu hne hu _ _)

theorem LrmesRun.demo_usable : UsableReturns [.fin 0, .fin (1 / 10), .fin (-1 / 10)] := by
  refine ⟨?_, .fin 0, by simp, .fin (1 / 10), by simp, by rw [Ne, XR.fin_inj]; norm_num⟩
  intro x hx
  simp only [List.mem_cons, List.not_mem_nil, or_false] at hx
  rcases hx with rfl | rfl | rfl
  · exact ⟨_, rfl, by norm_num⟩
  · exact ⟨_, rfl, by norm_num⟩
  · exact ⟨_, rfl, by norm_num⟩

/-- usable series, and each kind of unusable one, exist -/
example : UsableReturns [.fin 0, .fin (1 / 10), .fin (-1 / 10)] ∧
    (∃ x ∈ [XR.fin 0] ++ [XR.fin (-1)], x = .nan ∨ x = .pinf ∨ x = .ninf ∨ ∃ r : ℝ, x = .fin r ∧ r ≤ -1) ∧
    (∀ x ∈ [XR.fin 1, .fin 1], ∀ y ∈ [XR.fin 1, .fin 1], x = y) :=
  ⟨LrmesRun.demo_usable, ⟨.fin (-1), by simp, .inr (.inr (.inr ⟨-1, rfl, le_refl _⟩))⟩, by simp⟩

/-- the hypotheses of the theorems of C180: an estimation that succeeds, with an optimiser that evaluates its objective, from
a new object; and histories of calls and interruptions -/
example (cppA cppM : Bool) (c : Call) : ∃ o o' r, LrmesObj.new [.fin 0, .fin (1 / 10), .fin (-1 / 10)] [.fin 0, .fin (1 / 10), .fin (-1 / 10)]
      [0, 0, 0] [0, 0, 0] [0, 0, 0] [0, 0, 0] = .ok o ∧ o.success = false ∧ o.model1.zeroMean = false ∧ Evaluates (stay : Optimizer (XR × GjrVar)) ∧
    dccFit cppA (uFitGjr cppA stay) stay o = .ok (o', r) ∧ o'.success = true ∧
    Calls (estimate cppA cppM stay stay) o (afterCall (estimate cppA cppM stay stay c) o) ∧
    Interrupted (estimate cppA cppM stay stay) o o := by
  obtain ⟨o, o', r, hn, hd, -⟩ := C181_completes cppA cppM stay stay _ _ [0, 0, 0] [0, 0, 0] [0, 0, 0] [0, 0, 0] 3 rfl rfl
    LrmesRun.demo_usable LrmesRun.demo_usable rfl rfl rfl rfl c
  have hn' := hn
  unfold LrmesObj.new at hn'
  rw [if_neg (by simp)] at hn'
  injection hn' with e
  have hs : o.success = false := by rw [← e]
  obtain ⟨-, -, -, -, a0, b0, f, -, -, -, h, -⟩ := C127_two_step cppA (uFitGjr cppA stay) (LrmesObj.gjr_idem cppA stay) stay o o' r hs hd
  exact ⟨o, o', r, hn, hs, by rw [← e]; rfl, stay_evaluates, hd, (h rfl).1, .call c .new, .new⟩

/-- the hypothesis of C180 about torn parameters: an object with a set flag and `b` NaN -/
example : ∃ x : DccObj GjrVar, x.success = true ∧ (x.params.a = .nan ∨ x.params.b = .nan) :=
  ⟨{ model1 := newModel [0] [0] [0], model2 := newModel [0] [0] [0], success := true }, rfl, .inr rfl⟩

/-! ### Concrete cases of the theorems above -/

/-- A NaN among the returns. -/
example (cpp : Bool) (opt : Optimizer (XR × GarchVar)) (optj : Optimizer (XR × GjrVar)) :=
  C97_nonfinite cpp opt optj [1, .nan, 2] ⟨.nan, by simp, by simp⟩ false [] []
example (cppA cppM : Bool) (optu : Optimizer (XR × GjrVar)) (opt : Optimizer (XR × XR)) (c : Model.LrmesObj.Call) :=
  (C181_rejects cppA cppM optu opt [1, 2] [1] [] [] [] [] c).1 (by simp)

end
end Frds.Props

import Verif.Props.LrmesRun

/-! C188: what LRMES does when the estimation of a volatility model fails. -/
namespace Frds.Props
noncomputable section
open Frds Frds.Model Frds.Spec Frds.Model.Crash Frds.Model.Crash.Run Frds.Model.LrmesObj Frds.Props.Crash Classical
set_option linter.unusedSimpArgs false
set_option linter.unusedVariables false

namespace LrmesSilent

/-- a new model whose estimation failed has no parameters -/
theorem no_params {cppA : Bool} {optu : Optimizer (XR × GjrVar)} {l x y : List XR} {m : GarchObj GjrVar}
    (h : uFitGjr cppA optu (newModel l x y) = .ok m) (hf : m.success = false) : m.params = none := by
  unfold uFitGjr gjrFit at h
  simp only [bind, Except.bind, pure, Except.pure] at h
  cases hc : fitCore cppA (gjrVariance cppA) (fun ret res _ _ => gjrStart cppA ret res) gjrFeas optu
      (newModel l x y) with
  | error e => rw [hc] at h; cases h
  | ok o' =>
    rw [hc] at h
    have e : o' = m := by injection h
    subst e
    unfold fitCore at hc
    simp only [bind, Except.bind] at hc
    split at hc
    · cases hc
    · split at hc
      · cases hc
      · split at hc
        · cases hc
        · have hz : (newModel l x y : GarchObj GjrVar).zeroMean = false := rfl
          simp only [hz, Bool.false_eq_true, if_false] at hc
          split_ifs at hc with hs
          · injection hc with hc; subst hc; simp at hf
          · injection hc with hc; subst hc; rfl

theorem loop_mkt (x : SimArgs) (h : x.pm.mu = .nan) (s : SimState) (inv : List (XR × XR)) :
    ∀ r ∈ simLoop x s inv, r.2 = .nan := by
  induction inv generalizing s with
  | nil => intro r hr; cases hr
  | cons z zs ih =>
    intro r hr
    rw [simLoop, List.mem_cons] at hr
    rcases hr with rfl | hr
    · simp [simStep, h]
    · exact ih _ r hr

theorem loop_firm (x : SimArgs) (h : x.pi.mu = .nan) (s : SimState) (inv : List (XR × XR)) :
    ∀ r ∈ simLoop x s inv, r.1 = .nan := by
  induction inv generalizing s with
  | nil => intro r hr; cases hr
  | cons z zs ih =>
    intro r hr
    rw [simLoop, List.mem_cons] at hr
    rcases hr with rfl | hr
    · simp [simStep, h]
    · exact ih _ r hr

/-- a path of a market model without parameters is never a systemic event -/
theorem sim_mkt (x : SimArgs) (h : x.pm.mu = .nan) {inv : List (XR × XR)} (hi : inv ≠ []) :
    simulation x inv = (0, false) := by
  unfold simulation
  simp only
  obtain ⟨z, zs, rfl⟩ := List.exists_cons_of_ne_nil hi
  have hn : ((simLoop x (simInit x) (z :: zs)).map fun r => r.2 / 100).sum = .nan := by
    apply LrmesObj.sum_nan
    rw [simLoop, List.map_cons, loop_mkt x h (simInit x) (z :: zs) _ (by rw [simLoop]; exact List.mem_cons_self)]
    simp
  rw [hn, if_neg]
  show ¬ ((XR.nan : XR) - 1 < x.C)
  intro h
  have : (XR.nan : XR) - 1 = .nan := rfl
  rw [this] at h
  cases hC : x.C <;> rw [hC] at h <;> exact h

/-- the firm's return on a path of a firm model without parameters -/
theorem sim_firm (x : SimArgs) (h : x.pi.mu = .nan) {inv : List (XR × XR)} (hi : inv ≠ []) :
    simulation x inv = (.nan, true) ∨ simulation x inv = (0, false) := by
  unfold simulation
  simp only
  obtain ⟨z, zs, rfl⟩ := List.exists_cons_of_ne_nil hi
  have hn : ((simLoop x (simInit x) (z :: zs)).map fun r => r.1 / 100).sum = .nan := by
    apply LrmesObj.sum_nan
    rw [simLoop, List.map_cons, loop_firm x h (simInit x) (z :: zs) _ (by rw [simLoop]; exact List.mem_cons_self)]
    simp
  rw [hn]
  split_ifs
  · left; rfl
  · right; rfl

theorem step_eq (cpp : Bool) (x : SimArgs) (p : List (XR × XR)) :
    (if cpp then cppSimulation x p else simulation x p) = simulation x p := by
  cases cpp <;> simp [cppSimulation_eq]

theorem acc_mkt (cpp : Bool) (x : SimArgs) (h : x.pm.mu = .nan) (paths : List (List (XR × XR)))
    (hp : ∀ p ∈ paths, p ≠ []) : accumulate cpp x paths = (0, 0) := by
  unfold accumulate
  induction paths with
  | nil => rfl
  | cons p t ih =>
    rw [List.foldl_cons]
    simp only [step_eq]
    rw [sim_mkt x h (hp p (by simp))]
    have e : ((0 : XR) + 0, 0 + if false = true then 1 else 0) = ((0 : XR), 0) := by simp
    rw [e]
    have := ih fun q hq => hp q (by simp [hq])
    simp only [step_eq] at this
    exact this

theorem acc_firm (cpp : Bool) (x : SimArgs) (h : x.pi.mu = .nan) (paths : List (List (XR × XR)))
    (hp : ∀ p ∈ paths, p ≠ []) : (accumulate cpp x paths).2 = 0 ∨ (accumulate cpp x paths).1 = .nan := by
  suffices key : ∀ (paths : List (List (XR × XR))) (s : XR × ℕ), (∀ p ∈ paths, p ≠ []) → (s.2 = 0 ∨ s.1 = .nan) →
      (paths.foldl (fun acc p =>
        let r := if cpp then cppSimulation x p else simulation x p
        (acc.1 + r.1, acc.2 + (if r.2 then 1 else 0))) s).2 = 0 ∨
      (paths.foldl (fun acc p =>
        let r := if cpp then cppSimulation x p else simulation x p
        (acc.1 + r.1, acc.2 + (if r.2 then 1 else 0))) s).1 = .nan by
    exact key paths (0, 0) hp (.inl rfl)
  intro paths
  induction paths with
  | nil => intro s _ hs; exact hs
  | cons p t ih =>
    intro s hp hs
    rw [List.foldl_cons]
    apply ih _ fun q hq => hp q (by simp [hq])
    simp only [step_eq]
    rcases sim_firm x h (hp p (by simp)) with e | e
    · right; rw [e]; simp
    · rw [e]
      rcases hs with hs | hs
      · left; simp [hs]
      · right; simp [hs]

theorem path_ne (f : DccFit) {idx : List (List ℕ)} (hp : ∀ p ∈ idx, p ≠ []) : ∀ q ∈ idx.map (pathOf f), q ≠ [] := by
  intro q hq
  obtain ⟨p, hp', rfl⟩ := List.mem_map.mp hq
  have := hp p hp'
  simp [pathOf, this]

theorem args_pars {f : DccFit} {C : XR} {x : SimArgs} (h : simArgsOf f C = .ok x) : x.pi = f.pi ∧ x.pm = f.pm := by
  unfold simArgsOf at h
  split at h
  · injection h with h; subst h; exact ⟨rfl, rfl⟩
  · cases h

theorem est_mkt (cpp : Bool) (f : DccFit) (h : f.pm.mu = .nan) (C : XR) (idx : List (List ℕ)) (hp : ∀ p ∈ idx, p ≠ [])
    (v : PyFloat) (hv : lrmesEstimate cpp f C idx = .ok v) : v = ⟨0, false⟩ := by
  unfold lrmesEstimate at hv
  split_ifs at hv with h1 h2
  · injection hv with hv; exact hv.symm
  · simp only [bind, Except.bind, pure, Except.pure] at hv
    cases hx : simArgsOf f C with
    | error e => rw [hx] at hv; cases hv
    | ok x =>
      rw [hx] at hv
      injection hv with hv
      rw [acc_mkt cpp x (by rw [(args_pars hx).2]; exact h) _ (path_ne f hp)] at hv
      exact hv.symm

theorem est_firm (cpp : Bool) (f : DccFit) (h : f.pi.mu = .nan) (C : XR) (idx : List (List ℕ)) (hp : ∀ p ∈ idx, p ≠ [])
    (v : PyFloat) (hv : lrmesEstimate cpp f C idx = .ok v) : v.val = 0 ∨ v.val = .nan := by
  unfold lrmesEstimate at hv
  split_ifs at hv with h1 h2
  · injection hv with hv; left; rw [← hv]
  · simp only [bind, Except.bind, pure, Except.pure] at hv
    cases hx : simArgsOf f C with
    | error e => rw [hx] at hv; cases hv
    | ok x =>
      rw [hx] at hv
      injection hv with hv
      subst hv
      unfold lrmesResult
      split_ifs with h0
      · exact .inl rfl
      · right
        have := (acc_firm cpp x (by rw [(args_pars hx).1]; exact h) _ (path_ne f hp)).resolve_left h0
        simp only [this]
        rfl

end LrmesSilent
open LrmesSilent LrmesRun

/-- C188. If the volatility estimation of the MARKET fails, `estimate` does not say so: it raises `RuntimeError` only if the
correlation estimation is also reported as failed, and returns 0 (no loss at all) otherwise, whatever the data, the
arguments and the draws. -/
theorem C188_market (cppA cppM : Bool) (optu : Optimizer (XR × GjrVar)) (opt : Optimizer (XR × XR))
    (firm market resids1 sigma1 resids2 sigma2 : List XR) (T : ℕ) (hT : firm.length = T) (hT' : market.length = T)
    (hf : UsableReturns firm) (hm : UsableReturns market)
    (h1 : resids1.length = T) (h2 : sigma1.length = T) (h3 : resids2.length = T) (h4 : sigma2.length = T) (c : Call)
    (hd : ∀ p ∈ c.draw T, p ≠ []) (m : GarchObj GjrVar)
    (hfit : uFitGjr cppA optu (newModel (market.map pctLog) resids2 sigma2) = .ok m) (hfail : m.success = false) :
    ∃ o o' r, LrmesObj.new firm market resids1 sigma1 resids2 sigma2 = .ok o ∧
      dccFit cppA (uFitGjr cppA optu) opt o = .ok (o', r) ∧
      outcome (estimate cppA cppM optu opt c) o = if o'.success then .ok ⟨0, false⟩ else .error .runtimeError := by
  obtain ⟨o, o', r, hn, hfit', hA, hB⟩ := C181_completes cppA cppM optu opt firm market resids1 sigma1 resids2 sigma2 T hT
    hT' hf hm h1 h2 h3 h4 c
  refine ⟨o, o', r, hn, hfit', ?_⟩
  have ho : o.success = false ∧ o.model2 = newModel (market.map pctLog) resids2 sigma2 := by
    unfold LrmesObj.new at hn
    rw [if_neg (by simp [hT, hT'])] at hn
    injection hn with hn; subst hn; exact ⟨rfl, rfl⟩
  obtain ⟨-, e2, -, -⟩ := LrmesObj.settled_of_fit ho.1 hfit'
  rw [ho.2, hfit] at e2
  have em : o'.model2.params = none := by
    injection e2 with e2; rw [← e2]; exact no_params hfit hfail
  cases hs : o'.success with
  | false => simpa using hA hs
  | true =>
    obtain ⟨rho, v, -, -, ⟨f, hr, hout⟩, hv⟩ := hB hs
    have := est_mkt cppM f (hr.mktParams.2 em).1 c.C (c.draw T) hd v (by rw [← hout, hv])
    rw [hv, this]; simp

/-- C188. If the volatility estimation of the FIRM fails, `estimate` again raises `RuntimeError` only if the correlation
estimation is also reported as failed; otherwise it returns 0 or NaN, whatever the data, the arguments and the draws. -/
theorem C188_firm (cppA cppM : Bool) (optu : Optimizer (XR × GjrVar)) (opt : Optimizer (XR × XR))
    (firm market resids1 sigma1 resids2 sigma2 : List XR) (T : ℕ) (hT : firm.length = T) (hT' : market.length = T)
    (hf : UsableReturns firm) (hm : UsableReturns market)
    (h1 : resids1.length = T) (h2 : sigma1.length = T) (h3 : resids2.length = T) (h4 : sigma2.length = T) (c : Call)
    (hd : ∀ p ∈ c.draw T, p ≠ []) (m : GarchObj GjrVar)
    (hfit : uFitGjr cppA optu (newModel (firm.map pctLog) resids1 sigma1) = .ok m) (hfail : m.success = false) :
    ∃ o o' r, LrmesObj.new firm market resids1 sigma1 resids2 sigma2 = .ok o ∧
      dccFit cppA (uFitGjr cppA optu) opt o = .ok (o', r) ∧
      (o'.success = false → outcome (estimate cppA cppM optu opt c) o = .error .runtimeError) ∧
      (o'.success = true → ∃ v, outcome (estimate cppA cppM optu opt c) o = .ok v ∧ (v.val = 0 ∨ v.val = .nan)) := by
  obtain ⟨o, o', r, hn, hfit', hA, hB⟩ := C181_completes cppA cppM optu opt firm market resids1 sigma1 resids2 sigma2 T hT
    hT' hf hm h1 h2 h3 h4 c
  refine ⟨o, o', r, hn, hfit', hA, fun hs => ?_⟩
  have ho : o.success = false ∧ o.model1 = newModel (firm.map pctLog) resids1 sigma1 := by
    unfold LrmesObj.new at hn
    rw [if_neg (by simp [hT, hT'])] at hn
    injection hn with hn; subst hn; exact ⟨rfl, rfl⟩
  obtain ⟨e1, -, -, -⟩ := LrmesObj.settled_of_fit ho.1 hfit'
  rw [ho.2, hfit] at e1
  have em : o'.model1.params = none := by
    injection e1 with e1; rw [← e1]; exact no_params hfit hfail
  obtain ⟨rho, v, -, -, ⟨f, hr, hout⟩, hv⟩ := hB hs
  exact ⟨v, hv, est_firm cppM f (hr.firmParams.2 em).1 c.C (c.draw T) hd v (by rw [← hout, hv])⟩

/-- an optimiser that evaluates its starting point and reports failure -/
def giveUp {P : Type} : Optimizer P := fun _ f x0 => ⟨[x0], false, x0, f x0⟩

theorem LrmesSilent.gives_up {cppA : Bool} {l x y : List XR} {m : GarchObj GjrVar}
    (h : uFitGjr cppA giveUp (newModel l x y) = .ok m) : m.success = false := by
  unfold uFitGjr gjrFit at h
  simp only [bind, Except.bind, pure, Except.pure] at h
  cases hc : fitCore cppA (gjrVariance cppA) (fun ret res _ _ => gjrStart cppA ret res) gjrFeas giveUp
      (newModel l x y) with
  | error e => rw [hc] at h; cases h
  | ok o' =>
    rw [hc] at h
    have e : o' = m := by injection h
    subst e
    unfold fitCore at hc
    simp only [bind, Except.bind] at hc
    split at hc
    · cases hc
    · split at hc
      · cases hc
      · split at hc
        · cases hc
        · have hz : (newModel l x y : GarchObj GjrVar).zeroMean = false := rfl
          simp only [hz, Bool.false_eq_true, if_false, giveUp] at hc
          injection hc with hc; subst hc; rfl

/-- both volatility estimations fail, the correlation estimation is reported as successful: the result is 0 -/
example (cppA cppM : Bool) : ∃ o, LrmesObj.new [.fin 0, .fin (1 / 10), .fin (-1 / 10)] [.fin 0, .fin (1 / 10), .fin (-1 / 10)]
      [0, 0, 0] [0, 0, 0] [0, 0, 0] [0, 0, 0] = .ok o ∧
    outcome (estimate cppA cppM giveUp stay ⟨.fin (-1 / 10), fun _ => [[0, 1], [2, 2]]⟩) o = .ok ⟨0, false⟩ := by
  obtain ⟨m, hm⟩ := usable_fits cppA giveUp LrmesRun.demo_usable [0, 0, 0] [0, 0, 0] rfl rfl
  obtain ⟨o, o', r, hn, hd, h⟩ := C188_market cppA cppM giveUp stay _ _ [0, 0, 0] [0, 0, 0] [0, 0, 0] [0, 0, 0] 3 rfl rfl
    LrmesRun.demo_usable LrmesRun.demo_usable rfl rfl rfl rfl ⟨.fin (-1 / 10), fun _ => [[0, 1], [2, 2]]⟩
    (by simp) m hm (gives_up hm)
  have hn' := hn
  unfold LrmesObj.new at hn'
  rw [if_neg (by simp)] at hn'
  injection hn' with e
  have hs : o.success = false := by rw [← e]
  obtain ⟨-, -, -, -, a0, b0, f, -, -, -, hh, -⟩ := C127_two_step cppA (uFitGjr cppA giveUp) (LrmesObj.gjr_idem cppA giveUp)
    stay o o' r hs hd
  rw [(hh rfl).1, if_pos rfl] at h
  exact ⟨o, hn, h⟩

end
end Frds.Props

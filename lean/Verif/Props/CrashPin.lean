import Verif.Props.CrashMulti
import Verif.Props.Pin

/-! C174: an interrupted estimation of the probability of informed trading. -/
namespace Frds.Props
noncomputable section
open Frds Frds.Model Frds.Model.Crash Frds.Model.Crash.Run Frds.Props.Crash Classical
set_option linter.unusedSimpArgs false
set_option linter.unusedVariables false

namespace Crash

/-- line 97: the result replaces the best one so far -/
def Better (o : PinObj) (r : OptRes) : Prop :=
  o.params.loglikelihood.isNan ∨ (-r.f < .pinf ∧ o.params.loglikelihood < -r.f)

theorem exec_accept (method : String) (r : OptRes) (o : PinObj) :
    exec (pinAcceptRun method r) o = .ok (pinAccept method o r, ()) := by
  unfold pinAcceptRun pinAccept
  simp only [bind_eq, exec_andThen, exec_get, Except.bind]
  by_cases h : r.success = true
  · rw [if_pos h, if_pos h]
    by_cases h2 : o.params.loglikelihood.isNan ∨ (-r.f < .pinf ∧ o.params.loglikelihood < -r.f)
    · rw [if_pos h2, if_pos h2]
      simp only [exec_andThen, exec_write, Except.bind]
    · rw [if_neg h2, if_neg h2]; rfl
  · rw [if_neg h, if_neg h]; rfl

theorem crash_accept {method : String} {r : OptRes} {o x : PinObj} (hx : x ∈ crashStates (pinAcceptRun method r) o) :
    x = o ∨ r.success = true ∧ Better o r ∧
      (x = { o with params := { x := r.x, loglikelihood := -r.f } } ∨
       x = { o with params := { x := r.x, loglikelihood := -r.f, pin := calculatePin r.x } } ∨
       x = { o with params := { x := r.x, loglikelihood := -r.f, pin := calculatePin r.x, method := method } } ∨
       x = pinAccept method o r) := by
  unfold pinAcceptRun at hx
  rw [bind_eq, mem_andThen] at hx
  rcases hx with hx | ⟨a, t, h, hx⟩
  · simp only [crash_get, List.mem_singleton] at hx; exact .inl hx
  rw [exec_get] at h
  obtain ⟨rfl, rfl⟩ := ok_pair h
  by_cases h : r.success = true
  · rw [if_pos h] at hx
    by_cases h2 : o.params.loglikelihood.isNan ∨ (-r.f < .pinf ∧ o.params.loglikelihood < -r.f)
    · rw [if_pos h2] at hx
      simp only [bind_eq, mem_andThen, crash_write, exec_write, List.mem_cons, List.not_mem_nil, or_false] at hx
      rcases hx with (rfl | rfl) | ⟨a, t, h', hx⟩
      · exact .inl rfl
      · exact .inr ⟨h, h2, .inl rfl⟩
      obtain ⟨rfl, -⟩ := ok_pair h'
      rcases hx with (rfl | rfl) | ⟨a, t, h', hx⟩
      · exact .inr ⟨h, h2, .inl rfl⟩
      · exact .inr ⟨h, h2, .inr (.inl rfl)⟩
      obtain ⟨rfl, -⟩ := ok_pair h'
      rcases hx with (rfl | rfl) | ⟨a, t, h', hx⟩
      · exact .inr ⟨h, h2, .inr (.inl rfl)⟩
      · exact .inr ⟨h, h2, .inr (.inr (.inl rfl))⟩
      obtain ⟨rfl, -⟩ := ok_pair h'
      rcases hx with rfl | rfl
      · exact .inr ⟨h, h2, .inr (.inr (.inl rfl))⟩
      · refine .inr ⟨h, h2, .inr (.inr (.inr ?_))⟩
        unfold pinAccept
        rw [if_pos h]
        simp only
        rw [if_pos h2]
    · rw [if_neg h2] at hx
      simp only [crash_ret, List.mem_singleton] at hx; exact .inl hx
  · rw [if_neg h] at hx
    simp only [crash_ret, List.mem_singleton] at hx; exact .inl hx

theorem exec_accepts (method : String) (f : PinVec → OptRes) (l : List PinVec) (o : PinObj) :
    exec (each (fun s => pinAcceptRun method (f s)) l) o = .ok (l.foldl (fun o s => pinAccept method o (f s)) o, ()) := by
  induction l generalizing o with
  | nil => rfl
  | cons s l ih =>
    rw [each, exec_andThen, exec_accept]
    simp only [Except.bind]
    rw [ih]; rfl

theorem crash_accepts {method : String} {f : PinVec → OptRes} {l : List PinVec} {o x : PinObj}
    (hx : x ∈ crashStates (each (fun s => pinAcceptRun method (f s)) l) o) :
    (∃ l1 l2, l = l1 ++ l2 ∧ x = l1.foldl (fun o s => pinAccept method o (f s)) o) ∨
    ∃ l1 s l2, l = l1 ++ s :: l2 ∧ (f s).success = true ∧ Better (l1.foldl (fun o s => pinAccept method o (f s)) o) (f s) ∧
      ∃ pin m, (pin = .nan ∧ m = "" ∨ pin = calculatePin (f s).x ∧ (m = "" ∨ m = method)) ∧
      x = { l1.foldl (fun o s => pinAccept method o (f s)) o with
        params := ⟨(f s).x, -(f s).f, pin, m⟩ } := by
  induction l generalizing o with
  | nil =>
    simp only [each, crash_ret, List.mem_singleton] at hx
    exact .inl ⟨[], [], rfl, hx⟩
  | cons s l ih =>
    rw [each, mem_andThen] at hx
    rcases hx with hx | ⟨a, t, h, hx⟩
    · rcases crash_accept hx with rfl | ⟨h1, h2, rfl | rfl | rfl | rfl⟩
      · exact .inl ⟨[], s :: l, rfl, rfl⟩
      · exact .inr ⟨[], s, l, rfl, h1, h2, .nan, "", .inl ⟨rfl, rfl⟩, rfl⟩
      · exact .inr ⟨[], s, l, rfl, h1, h2, _, "", .inr ⟨rfl, .inl rfl⟩, rfl⟩
      · exact .inr ⟨[], s, l, rfl, h1, h2, _, method, .inr ⟨rfl, .inr rfl⟩, rfl⟩
      · exact .inl ⟨[s], l, rfl, rfl⟩
    · rw [exec_accept] at h
      obtain ⟨rfl, -⟩ := ok_pair h
      rcases ih hx with ⟨l1, l2, rfl, h⟩ | ⟨l1, s', l2, rfl, h1, h2, pin, m, hp, h⟩
      · exact .inl ⟨s :: l1, l2, rfl, h⟩
      · exact .inr ⟨s :: l1, s', l2, rfl, h1, h2, pin, m, hp, h⟩

/-- lines 76-79 -/
def pinFunc (o : PinObj) (method : String) : PinVec → XR := if method = "EHO2010" then eho2010 o.B o.S else lk2011 o.B o.S

/-- the object after the results for the first starting values -/
def soFar (mini : PinMinimizer) (method : String) (o : PinObj) (l : List PinVec) : PinObj :=
  l.foldl (fun q s => pinAccept method q (mini pinBounds (pinFunc o method) s)) { o with params := {} }

theorem crash_estimate {mini : PinMinimizer} {method : String} (hm : method = "EHO2010" ∨ method = "LK2011") {o x : PinObj}
    (hx : x ∈ crashStates (pinEstimateRun mini method) o) :
    x = o ∨ (∃ l1 l2, pinStarts o.B o.S = l1 ++ l2 ∧ x = soFar mini method o l1) ∨
    ∃ l1 s l2, pinStarts o.B o.S = l1 ++ s :: l2 ∧ (mini pinBounds (pinFunc o method) s).success = true ∧
      Better (soFar mini method o l1) (mini pinBounds (pinFunc o method) s) ∧
      ∃ pin m, (pin = .nan ∧ m = "" ∨ pin = calculatePin (mini pinBounds (pinFunc o method) s).x ∧ (m = "" ∨ m = method)) ∧
      x = { soFar mini method o l1 with
        params := ⟨(mini pinBounds (pinFunc o method) s).x, -(mini pinBounds (pinFunc o method) s).f, pin, m⟩ } := by
  have hm' : ¬ (method ≠ "EHO2010" ∧ method ≠ "LK2011") := by tauto
  unfold pinEstimateRun at hx
  rw [if_neg hm', bind_eq, mem_andThen] at hx
  rcases hx with hx | ⟨a, t, h, hx⟩
  · simp only [crash_get, List.mem_singleton] at hx; exact .inl hx
  rw [exec_get] at h
  obtain ⟨rfl, rfl⟩ := ok_pair h
  rw [bind_eq, mem_andThen] at hx
  rcases hx with hx | ⟨a, t, h, hx⟩
  · simp only [crash_write, List.mem_cons, List.not_mem_nil, or_false] at hx
    rcases hx with rfl | rfl
    · exact .inl rfl
    · exact .inr (.inl ⟨[], _, rfl, rfl⟩)
  rw [exec_write] at h
  obtain ⟨rfl, -⟩ := ok_pair h
  simp only at hx
  rw [bind_eq, mem_andThen] at hx
  rcases hx with hx | ⟨a, t, h, hx⟩
  · exact .inr (crash_accepts hx)
  rw [exec_accepts] at h
  obtain ⟨rfl, -⟩ := ok_pair h
  simp only [bind_eq, pure_eq, mem_andThen, crash_get, exec_get, crash_ret, List.mem_singleton] at hx
  refine .inr (.inl ⟨pinStarts o.B o.S, [], by simp, ?_⟩)
  rcases hx with rfl | ⟨a, t, h, rfl⟩
  · rfl
  · obtain ⟨rfl, -⟩ := ok_pair h
    rfl

theorem accept_data (method : String) (o : PinObj) (r : OptRes) :
    (pinAccept method o r).B = o.B ∧ (pinAccept method o r).S = o.S ∧
    (o.success = true → (pinAccept method o r).success = true) ∧
    ((pinAccept method o r).success = true → o.success = true ∨ r.success = true) := by
  unfold pinAccept
  by_cases h : r.success = true
  · rw [if_pos h]
    simp only
    split_ifs <;> simp [h]
  · rw [if_neg h]; simp; tauto

theorem soFar_data (mini : PinMinimizer) (method : String) (o : PinObj) (l : List PinVec) :
    (soFar mini method o l).B = o.B ∧ (soFar mini method o l).S = o.S ∧
    (o.success = true → (soFar mini method o l).success = true) ∧
    ((soFar mini method o l).success = true → o.success = true ∨ ∃ s ∈ l, (mini pinBounds (pinFunc o method) s).success = true) := by
  unfold soFar
  generalize pinFunc o method = f
  have : ∀ q : PinObj, (List.foldl (fun q s => pinAccept method q (mini pinBounds f s)) q l).B = q.B ∧
      (List.foldl (fun q s => pinAccept method q (mini pinBounds f s)) q l).S = q.S ∧
      (q.success = true → (List.foldl (fun q s => pinAccept method q (mini pinBounds f s)) q l).success = true) ∧
      ((List.foldl (fun q s => pinAccept method q (mini pinBounds f s)) q l).success = true →
        q.success = true ∨ ∃ s ∈ l, (mini pinBounds f s).success = true) := by
    induction l with
    | nil => intro q; simp
    | cons s l ih =>
      intro q
      have h1 := accept_data method q (mini pinBounds f s)
      have h2 := ih (pinAccept method q (mini pinBounds f s))
      rw [List.foldl_cons]
      refine ⟨h2.1.trans h1.1, h2.2.1.trans h1.2.1, fun h => h2.2.2.1 (h1.2.2.1 h), fun h => ?_⟩
      rcases h2.2.2.2 h with h | ⟨s', hs, h⟩
      · rcases h1.2.2.2 h with h | h
        · exact .inl h
        · exact .inr ⟨s, by simp, h⟩
      · exact .inr ⟨s', by simp [hs], h⟩
  exact this _

end Crash
open Crash

/-- C174. An uninterrupted `estimate` is that of the other properties. -/
theorem C174_complete (mini : PinMinimizer) (method : String) (o : PinObj) :
    exec (pinEstimateRun mini method) o = pinEstimate mini o method := by
  unfold pinEstimateRun pinEstimate
  by_cases hm : method ≠ "EHO2010" ∧ method ≠ "LK2011"
  · rw [if_pos hm, if_pos hm]; rfl
  · rw [if_neg hm, if_neg hm]
    simp only [bind_eq, pure_eq, exec_andThen, exec_get, exec_write, exec_accepts, exec_ret, Except.bind]

/-- C174. Wherever `estimate` is interrupted, the data are untouched, and unless the call had not yet begun its work the reported
parameter vector and log-likelihood are those of the best result so far (all NaN if there is none), with `pin` and `method`
filled in or still empty. The success flag is set if it was set before, and otherwise only if an optimisation succeeded. -/
theorem C174_states (mini : PinMinimizer) (method : String) (hm : method = "EHO2010" ∨ method = "LK2011") (o x : PinObj)
    (hx : x ∈ crashStates (pinEstimateRun mini method) o) :
    x.B = o.B ∧ x.S = o.S ∧ (o.success = true → x.success = true) ∧
    (x.success = true → o.success = true ∨ ∃ s ∈ pinStarts o.B o.S,
      (mini pinBounds (if method = "EHO2010" then eho2010 o.B o.S else lk2011 o.B o.S) s).success = true) ∧
    (x = o ∨ ∃ starts, starts <+: pinStarts o.B o.S ∧ ∃ succ : List OptRes,
      succ = (starts.map (mini pinBounds (if method = "EHO2010" then eho2010 o.B o.S else lk2011 o.B o.S))).filter (fun r => r.success) ∧
      (succ = [] → x = { o with params := {} }) ∧
      (succ ≠ [] → ∃ r ∈ succ, x.params.x = r.x ∧ x.params.loglikelihood = -r.f ∧
        (x.params.pin = .nan ∧ x.params.method = "" ∨
          x.params.pin = calculatePin r.x ∧ (x.params.method = "" ∨ x.params.method = method)) ∧
        (∀ q ∈ succ, -q.f = .nan ∨ -q.f = .pinf ∨ -q.f ≤ -r.f) ∧
        (-r.f = .nan → ∀ q ∈ succ, -q.f = .nan) ∧
        (-r.f = .pinf → ∃ pre post, succ = pre ++ r :: post ∧ ∀ q ∈ pre, -q.f = .nan))) := by
  rcases crash_estimate hm hx with rfl | ⟨l1, l2, hl, rfl⟩ | ⟨l1, s, l2, hl, h1, h2, pin, m, hp, rfl⟩
  · exact ⟨rfl, rfl, id, .inl, .inl rfl⟩
  · have hd := soFar_data mini method o l1
    refine ⟨hd.1, hd.2.1, hd.2.2.1, fun h => (hd.2.2.2 h).imp id fun ⟨s, hs, h⟩ => ⟨s, by rw [hl]; simp [hs], h⟩,
      .inr ⟨l1, ⟨l2, hl.symm⟩, _, rfl, ?_⟩⟩
    have hloop := pin_loop method (l1.map (mini pinBounds (pinFunc o method))) { o with params := {} } rfl
    rw [List.foldl_map] at hloop
    refine ⟨hloop.1, fun h => ?_⟩
    obtain ⟨hs, r, hr, hp, hrest⟩ := hloop.2 h
    refine ⟨r, hr, ?_, ?_, .inr ⟨?_, .inr ?_⟩, hrest⟩
    · exact congrArg PinParams.x hp
    · exact congrArg PinParams.loglikelihood hp
    · exact congrArg PinParams.pin hp
    · exact congrArg PinParams.method hp
  · have hd := soFar_data mini method o l1
    refine ⟨hd.1, hd.2.1, hd.2.2.1, fun _ => .inr ⟨s, by rw [hl]; simp, h1⟩,
      .inr ⟨l1 ++ [s], ⟨l2, by rw [hl]; simp⟩, _, rfl, ?_⟩⟩
    have hloop := pin_loop method ((l1 ++ [s]).map (mini pinBounds (pinFunc o method))) { o with params := {} } rfl
    rw [List.foldl_map] at hloop
    have hne : ((l1 ++ [s]).map (mini pinBounds (pinFunc o method))).filter (fun r => r.success) ≠ [] := by
      simp [h1]
    refine ⟨fun h => absurd h hne, fun h => ?_⟩
    obtain ⟨hs, r, hr, hpr, hrest⟩ := hloop.2 hne
    rw [List.foldl_append, List.foldl_cons, List.foldl_nil] at hpr
    have hacc : (pinAccept method (soFar mini method o l1) (mini pinBounds (pinFunc o method) s)).params
        = ⟨r.x, -r.f, calculatePin r.x, method⟩ := hpr
    unfold pinAccept at hacc
    unfold Better at h2
    rw [if_pos h1] at hacc
    simp only at hacc
    rw [if_pos h2] at hacc
    simp only [PinParams.mk.injEq] at hacc
    refine ⟨r, hr, hacc.1, hacc.2.1, ?_, hrest⟩
    rw [← hacc.2.2.1]; exact hp

/-- C174. The flag set by an earlier estimation survives the interruption of a later one: right after the parameters are reset,
`estimation_success` is still `True` while every parameter is NaN. -/
theorem C174_stale (mini : PinMinimizer) (method : String) (hm : method = "EHO2010" ∨ method = "LK2011") (o : PinObj)
    (hs : o.success = true) : ∃ x ∈ crashStates (pinEstimateRun mini method) o, x.success = true ∧ x.params = {} := by
  have hm' : ¬ (method ≠ "EHO2010" ∧ method ≠ "LK2011") := by tauto
  refine ⟨{ o with params := {} }, ?_, hs, rfl⟩
  unfold pinEstimateRun
  rw [if_neg hm', bind_eq, mem_andThen]
  refine .inr ⟨o, o, rfl, ?_⟩
  rw [bind_eq, mem_andThen]
  exact .inl (by simp [crash_write])

/-- C174. If the first starting point succeeds, there is a moment at which the parameters and their log-likelihood are reported
with a NaN probability of informed trading. -/
theorem C174_torn (mini : PinMinimizer) (method : String) (hm : method = "EHO2010" ∨ method = "LK2011") (o : PinObj) (s : PinVec)
    (l : List PinVec) (hl : pinStarts o.B o.S = s :: l) (r : OptRes)
    (hr : r = mini pinBounds (if method = "EHO2010" then eho2010 o.B o.S else lk2011 o.B o.S) s) (hs : r.success = true) :
    { o with params := ⟨r.x, -r.f, .nan, ""⟩ } ∈ crashStates (pinEstimateRun mini method) o := by
  have hm' : ¬ (method ≠ "EHO2010" ∧ method ≠ "LK2011") := by tauto
  subst hr
  unfold pinEstimateRun
  rw [if_neg hm', bind_eq, mem_andThen]
  refine .inr ⟨o, o, rfl, ?_⟩
  rw [bind_eq, mem_andThen]
  refine .inr ⟨(), { o with params := {} }, rfl, ?_⟩
  simp only
  rw [bind_eq, mem_andThen, hl]
  refine .inl ?_
  rw [each, mem_andThen]
  refine .inl ?_
  unfold pinAcceptRun
  rw [bind_eq, mem_andThen]
  refine .inr ⟨{ o with params := {} }, { o with params := {} }, rfl, ?_⟩
  rw [if_pos hs, if_pos (.inl rfl), bind_eq, mem_andThen]
  exact .inl (by rw [crash_write]; simp)

/-- C174. Estimating again after an interruption gives the parameters an estimation on a fresh object gives, for either method and
any optimiser. -/
theorem C174_retry (mini mini' : PinMinimizer) (method method' : String) (hm : method = "EHO2010" ∨ method = "LK2011")
    (o x : PinObj) (hx : x ∈ crashStates (pinEstimateRun mini method) o) :
    (pinEstimate mini' x method').map Prod.snd = (pinEstimate mini' ⟨o.B, o.S, false, {}⟩ method').map Prod.snd := by
  have h := C174_states mini method hm o x hx
  exact C41_history mini' x ⟨o.B, o.S, false, {}⟩ method' h.1 h.2.1

/-- C174. A call with an unsupported method never touches the object. -/
theorem C174_unsupported (mini : PinMinimizer) (method : String) (hm : method ≠ "EHO2010" ∧ method ≠ "LK2011") (o x : PinObj)
    (hx : x ∈ crashStates (pinEstimateRun mini method) o) : x = o := by
  unfold pinEstimateRun at hx
  rw [if_pos hm] at hx
  simpa [crash_lift] using hx

/-- an optimiser that accepts every start -/
def yesMini : PinMinimizer := fun _ f s => ⟨true, s, f s⟩

-- after a first estimation by `yesMini`, a second one can be interrupted with the flag set and NaN parameters
example : ∃ x ∈ crashStates (pinEstimateRun yesMini "LK2011") ⟨[.fin 1], [.fin 2], true, ⟨⟨0.1, 0.1, 1, 1, 1⟩, .fin 1, 0.05, "LK2011"⟩⟩,
    x.success = true ∧ x.params = {} := C174_stale _ _ (.inr rfl) _ rfl

end
end Frds.Props

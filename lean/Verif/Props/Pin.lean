import Verif.Lemmas.Pin

set_option linter.unusedSimpArgs false

/-! C40-C46: probability of informed trading. -/
namespace Frds.Props
noncomputable section
open Frds Frds.Model Frds.Spec Classical

/-! ### C40 -/

/-- C40: for any optimiser output within the bounds, the reported value is
`alpha mu / (alpha mu + eB + eS)`, a number in [0,1], or NaN exactly when that denominator is 0. -/
theorem C40_probability (p : Eho) (h : 0 ≤ p.alpha ∧ 0 ≤ p.eB ∧ 0 ≤ p.eS ∧ 0 ≤ p.mu) :
    if p.alpha * p.mu = 0 ∧ p.eB = 0 ∧ p.eS = 0 then calculatePin (ofEho p) = .nan
    else ∃ q : ℝ, calculatePin (ofEho p) = .fin q ∧ 0 ≤ q ∧ q ≤ 1 ∧
      q * (p.alpha * p.mu + p.eB + p.eS) = p.alpha * p.mu := by
  obtain ⟨h1, h2, h3, h4⟩ := h
  have ham : 0 ≤ p.alpha * p.mu := mul_nonneg h1 h4
  split_ifs with h0
  · obtain ⟨a, b, c⟩ := h0
    simp only [calculatePin, ofEho, XR.fin_mul, XR.fin_add, a, b, c, add_zero, XR.fin_div_zero]
    simp [XR.infSign]
  · have hd : 0 < p.alpha * p.mu + p.eB + p.eS := by
      rcases lt_or_eq_of_le ham with g | g
      · linarith
      · rcases lt_or_eq_of_le h2 with g2 | g2
        · linarith
        · rcases lt_or_eq_of_le h3 with g3 | g3
          · linarith
          · exact absurd ⟨g.symm, g2.symm, g3.symm⟩ h0
    refine ⟨p.alpha * p.mu / (p.alpha * p.mu + p.eB + p.eS), ?_, div_nonneg ham hd.le, ?_, ?_⟩
    · simp only [calculatePin, ofEho, XR.fin_mul, XR.fin_add, XR.fin_div _ hd.ne']
    · rw [div_le_one hd]; linarith
    · exact div_mul_cancel₀ _ hd.ne'

example : ∃ p : Eho, (0 ≤ p.alpha ∧ 0 ≤ p.eB ∧ 0 ≤ p.eS ∧ 0 ≤ p.mu) ∧
    ¬ (p.alpha * p.mu = 0 ∧ p.eB = 0 ∧ p.eS = 0) :=
  ⟨⟨1 / 2, 1 / 2, 10, 10, 20⟩, by norm_num, by norm_num⟩

/-! ### C41 -/

/-- the successful optimiser runs of one `estimate`, in order -/
def successes (mini : PinMinimizer) (B S : List XR) (method : String) : List OptRes :=
  ((pinStarts B S).map fun s =>
    mini pinBounds (if method = "EHO2010" then eho2010 B S else lk2011 B S) s).filter fun r => r.success

theorem XR_le_trans {a b c : XR} (h : a ≤ b) (h' : b < c) : a ≤ c := by
  cases a <;> cases b <;> cases c <;>
    first
    | exact trivial
    | exact (h : False).elim
    | exact (h' : False).elim
    | exact le_of_lt (lt_of_le_of_lt (α := ℝ) h h')

/-- loop invariant: the current parameters come from a success that beats all others so far -/
theorem pin_loop (method : String) (rs : List OptRes) (o : PinObj) (ho : o.params = {}) :
    let o' := rs.foldl (fun o r => pinAccept method o r) o
    let succ := rs.filter fun r => r.success
    (succ = [] → o' = o) ∧
    (succ ≠ [] → o'.success = true ∧ ∃ r ∈ succ, o'.params = ⟨r.x, -r.f, calculatePin r.x, method⟩ ∧
      (∀ r' ∈ succ, -r'.f = .nan ∨ -r'.f = .pinf ∨ -r'.f ≤ -r.f) ∧
      (-r.f = .nan → ∀ r' ∈ succ, -r'.f = .nan) ∧
      (-r.f = .pinf → ∃ pre post, succ = pre ++ r :: post ∧ ∀ r' ∈ pre, -r'.f = .nan)) := by
  induction rs using List.reverseRecOn with
  | nil => exact ⟨fun _ => rfl, fun h => absurd rfl h⟩
  | append_singleton rs r ih =>
    dsimp only at ih ⊢
    rw [List.foldl_append, List.foldl_cons, List.foldl_nil, List.filter_append]
    set q := rs.foldl (fun o r => pinAccept method o r) o with hq
    set sc := rs.filter fun r => r.success with hsc
    by_cases hr : r.success = true
    · have e1 : [r].filter (fun r => r.success) = [r] := by simp [hr]
      rw [e1]
      refine ⟨fun h => by simp at h, fun _ => ?_⟩
      by_cases hs : sc = []
      · -- first success
        have hq0 := ih.1 hs
        have : pinAccept method q r = { q with
            params := ⟨r.x, -r.f, calculatePin r.x, method⟩, success := true } := by
          unfold pinAccept
          rw [if_pos hr, if_pos (Or.inl (by rw [hq0, ho]; rfl))]
        rw [this, hs]
        refine ⟨rfl, r, by simp, rfl, ?_, ?_, ?_⟩
        · intro r' h'
          simp only [List.nil_append, List.mem_singleton] at h'
          subst h'
          cases hf : -r'.f
          · left; rfl
          · right; right; trivial
          · right; left; rfl
          · right; right; exact le_refl (α := ℝ) _
        · intro hn r' h'
          simp only [List.nil_append, List.mem_singleton] at h'
          subst h'; exact hn
        · intro _; exact ⟨[], [], rfl, by simp⟩
      · obtain ⟨hsucc, r0, hr0, hp, hmax, hnan, hinf⟩ := ih.2 hs
        by_cases hacc : (-r0.f).isNan ∨ (-r.f < .pinf ∧ -r0.f < -r.f)
        · have : pinAccept method q r = { q with
              params := ⟨r.x, -r.f, calculatePin r.x, method⟩, success := true } := by
            unfold pinAccept
            rw [if_pos hr, if_pos (by rw [hp]; exact hacc)]
          rw [this]
          refine ⟨rfl, r, by simp, rfl, ?_, ?_, ?_⟩
          · intro r' h'
            rcases List.mem_append.mp h' with h' | h'
            · rcases hacc with hn | ⟨_, hlt⟩
              · left; exact hnan hn r' h'
              · rcases hmax r' h' with g | g | g
                · exact .inl g
                · exact .inr (.inl g)
                · exact .inr (.inr (XR_le_trans g hlt))
            · simp only [List.mem_singleton] at h'
              subst h'
              cases hf : -r'.f
              · left; rfl
              · right; right; trivial
              · right; left; rfl
              · right; right; exact le_refl (α := ℝ) _
          · intro hn r' h'
            rcases hacc with hn0 | ⟨hlt, _⟩
            · rcases List.mem_append.mp h' with h' | h'
              · exact hnan hn0 r' h'
              · simp only [List.mem_singleton] at h'; subst h'; exact hn
            · rw [hn] at hlt; exact (hlt : False).elim
          · intro hi
            rcases hacc with hn0 | ⟨hlt, _⟩
            · exact ⟨sc, [], rfl, fun r' h' => hnan hn0 r' h'⟩
            · rw [hi] at hlt; exact (hlt : False).elim
        · have : pinAccept method q r = q := by
            unfold pinAccept
            rw [if_pos hr, if_neg (by rw [hp]; exact hacc)]
          rw [this]
          push Not at hacc
          refine ⟨hsucc, r0, by simp [hr0], hp, ?_, ?_, ?_⟩
          · intro r' h'
            rcases List.mem_append.mp h' with h' | h'
            · exact hmax r' h'
            · simp only [List.mem_singleton] at h'
              subst h'
              have h1 := hacc.1
              have h2 := hacc.2
              cases hf : -r'.f with
              | nan => left; rfl
              | pinf => right; left; rfl
              | ninf =>
                right; right
                cases h0 : -r0.f with
                | nan => exact absurd h0 h1
                | _ => trivial
              | fin a =>
                right; right
                rw [hf] at h2
                have h2 := h2 trivial
                cases h0 : -r0.f with
                | nan => exact absurd h0 h1
                | ninf => rw [h0] at h2; exact absurd trivial h2
                | pinf => trivial
                | fin b =>
                  rw [h0, XR.fin_lt, not_lt] at h2
                  exact h2
          · intro hn; exact absurd hn hacc.1
          · intro hi
            obtain ⟨pre, post, e, hpre⟩ := hinf hi
            exact ⟨pre, post ++ [r], by rw [e]; simp, hpre⟩
    · have e1 : [r].filter (fun r => r.success) = [] := by simp [hr]
      have : pinAccept method q r = q := by unfold pinAccept; rw [if_neg hr]
      rw [e1, this, List.append_nil]
      exact ih

/-- C41: after `estimate`, if no start succeeded every field is at its NaN default; otherwise the
reported parameters and log-likelihood are those of one successful start `r` whose log-likelihood is
at least that of every successful start whose log-likelihood is a number below `+inf`; it is NaN only
if all successes are NaN, and `+inf` only if it is the first non-NaN success. The result does not
depend on what earlier calls left behind. -/
theorem C41_best (mini : PinMinimizer) (o : PinObj) (method : String) (hm : method = "EHO2010" ∨ method = "LK2011") :
    ∃ o' r', pinEstimate mini o method = .ok (o', r') ∧ o'.params = r' ∧
    let succ := successes mini o.B o.S method
    (succ = [] → r' = {}) ∧
    (succ ≠ [] → ∃ r ∈ succ, r' = ⟨r.x, -r.f, calculatePin r.x, method⟩ ∧
      (∀ q ∈ succ, -q.f = .nan ∨ -q.f = .pinf ∨ -q.f ≤ -r.f) ∧
      (-r.f = .nan → ∀ q ∈ succ, -q.f = .nan) ∧
      (-r.f = .pinf → ∃ pre post, succ = pre ++ r :: post ∧ ∀ q ∈ pre, -q.f = .nan)) := by
  have hno : ¬ (method ≠ "EHO2010" ∧ method ≠ "LK2011") := by tauto
  set fn := (if method = "EHO2010" then eho2010 o.B o.S else lk2011 o.B o.S) with hfn
  have hloop := pin_loop method ((pinStarts o.B o.S).map (mini pinBounds fn)) { o with params := {} } rfl
  rw [List.foldl_map] at hloop
  refine ⟨_, _, by unfold pinEstimate; rw [if_neg hno], rfl, ?_, ?_⟩
  · intro h
    have := hloop.1 h
    exact congrArg PinObj.params this
  · intro h
    obtain ⟨_, r, hr, hp, hrest⟩ := hloop.2 h
    exact ⟨r, hr, hp, hrest⟩

/-- C40: whatever the optimiser does, the parameters returned by `estimate` are either the
all-NaN default or carry `pin = alpha mu/(alpha mu + eB + eS)` of the reported parameters and the
requested method. -/
theorem C40_reported (mini : PinMinimizer) (o o' : PinObj) (method : String) (r : PinParams)
    (h : pinEstimate mini o method = .ok (o', r)) :
    r = {} ∨ (r.pin = r.x.alpha * r.x.mu / (r.x.alpha * r.x.mu + r.x.eB + r.x.eS) ∧
      r.method = method) := by
  by_cases hno : method ≠ "EHO2010" ∧ method ≠ "LK2011"
  · unfold pinEstimate at h; rw [if_pos hno] at h; cases h
  obtain ⟨o2, r2, e, _, h1, h2⟩ := C41_best mini o method (by tauto)
  rw [e] at h
  cases h
  by_cases hs : successes mini o.B o.S method = []
  · left; exact h1 hs
  · right
    obtain ⟨q, _, hq, _⟩ := h2 hs
    rw [hq]; exact ⟨rfl, rfl⟩

/-- C41: the returned parameters do not depend on the history of the object, only on its data. -/
theorem C41_history (mini : PinMinimizer) (o o' : PinObj) (method : String) (hB : o.B = o'.B) (hS : o.S = o'.S) :
    (pinEstimate mini o method).map Prod.snd = (pinEstimate mini o' method).map Prod.snd := by
  have key : ∀ (l : List PinVec) (fn : PinVec → XR) (a b : PinObj), a.params = b.params →
      (l.foldl (fun o s => pinAccept method o (mini pinBounds fn s)) a).params
        = (l.foldl (fun o s => pinAccept method o (mini pinBounds fn s)) b).params := by
    intro l fn
    induction l with
    | nil => intro a b h; exact h
    | cons s t ih =>
      intro a b h
      apply ih
      show (pinAccept method a (mini pinBounds fn s)).params = (pinAccept method b (mini pinBounds fn s)).params
      unfold pinAccept
      rw [h]
      by_cases h1 : (mini pinBounds fn s).success = true
      · rw [if_pos h1, if_pos h1]
        dsimp only
        split_ifs
        · rfl
        · exact h
      · rw [if_neg h1, if_neg h1]; exact h
  unfold pinEstimate
  by_cases hno : method ≠ "EHO2010" ∧ method ≠ "LK2011"
  · rw [if_pos hno, if_pos hno]
  · rw [if_neg hno, if_neg hno]
    simp only [Except.map, hB, hS]
    congr 1
    exact key _ _ _ _ rfl

example : ("LK2011" = "EHO2010" ∨ "LK2011" = "LK2011") := by simp

/-! ### C42 -/

theorem accept_success (method : String) (o : PinObj) (r : OptRes) (h : o.success = true) :
    (pinAccept method o r).success = true := by
  unfold pinAccept
  by_cases h1 : r.success = true
  · rw [if_pos h1]; dsimp only; split_ifs <;> simp [h]
  · rw [if_neg h1]; exact h

/-- a history of `estimate` calls on one object (failing calls leave it unchanged) -/
def runHistory (o : PinObj) (calls : List (PinMinimizer × String)) : PinObj :=
  calls.foldl (fun o c => match pinEstimate c.1 o c.2 with
    | .ok (o', _) => o'
    | .error _ => o) o

/-- C42: the success flag is never reset, whatever further calls are made. -/
theorem C42_sticky (o : PinObj) (h : o.success = true) (calls : List (PinMinimizer × String)) :
    (runHistory o calls).success = true := by
  unfold runHistory
  induction calls generalizing o with
  | nil => exact h
  | cons c t ih =>
    rw [List.foldl_cons]
    apply ih
    unfold pinEstimate
    split_ifs
    · exact h
    all_goals
      simp only
      have : ∀ (l : List PinVec) (fn : PinVec → XR) (a : PinObj), a.success = true →
          (l.foldl (fun o s => pinAccept c.2 o (c.1 pinBounds fn s)) a).success = true := by
        intro l fn
        induction l with
        | nil => intro a h; exact h
        | cons s t ih => intro a h; exact ih _ (accept_success _ _ _ h)
      exact this _ _ _ h

/-- C42: after a success, a later `estimate` in which every start fails returns all-NaN parameters
with `estimation_success` still `True`. -/
theorem C42_stale_flag (mini : PinMinimizer) (o : PinObj) (method : String)
    (hm : method = "EHO2010" ∨ method = "LK2011") (h : o.success = true)
    (hfail : ∀ c f s, (mini c f s).success = false) :
    ∃ o', pinEstimate mini o method = .ok (o', {}) ∧ o'.success = true := by
  obtain ⟨o', r', e, _, h0, _⟩ := C41_best mini o method hm
  have : successes mini o.B o.S method = [] := by
    unfold successes
    rw [List.filter_eq_nil_iff]
    intro r hr
    obtain ⟨s, _, rfl⟩ := List.mem_map.mp hr
    simp [hfail]
  rw [h0 this] at e
  refine ⟨o', e, ?_⟩
  have := C42_sticky o h [(mini, method)]
  simpa [runHistory, e] using this

/-- C42: in exact terms: after any call the flag is `True` iff it was before or some start of this
call succeeded. -/
theorem C42_flag (mini : PinMinimizer) (o o' : PinObj) (method : String) (r : PinParams)
    (e : pinEstimate mini o method = .ok (o', r)) :
    o'.success = true ↔ (o.success = true ∨ successes mini o.B o.S method ≠ []) := by
  by_cases hno : method ≠ "EHO2010" ∧ method ≠ "LK2011"
  · unfold pinEstimate at e; rw [if_pos hno] at e; cases e
  unfold pinEstimate at e
  rw [if_neg hno] at e
  set fn := (if method = "EHO2010" then eho2010 o.B o.S else lk2011 o.B o.S) with hfn
  have hloop := pin_loop method ((pinStarts o.B o.S).map (mini pinBounds fn)) { o with params := {} } rfl
  rw [List.foldl_map] at hloop
  cases e
  constructor
  · intro h
    by_cases hs : successes mini o.B o.S method = []
    · left; rw [hloop.1 hs] at h; exact h
    · right; exact hs
  · intro h
    by_cases hs : successes mini o.B o.S method = []
    · rw [hloop.1 hs]; rcases h with h | h
      · exact h
      · exact absurd hs h
    · exact (hloop.2 hs).1

/-! ### C43 -/

/-- the grid values -/
theorem mem_grid {x : XR} (h : x ∈ pinGrid) : ∃ r : ℝ, x = .fin r ∧ 0 < r ∧ r < 1 := by
  simp only [pinGrid, List.mem_cons, List.not_mem_nil, or_false, XR.ofSci_def] at h
  rcases h with h | h | h | h | h <;> subst h <;> refine ⟨_, rfl, ?_, ?_⟩ <;> norm_num

/-- what one grid point gives -/
theorem pinStart_fin {B S : List ℝ} (hB : B ≠ []) (hS : S ≠ []) {a d g : ℝ} (ha : 0 < a) (hd : d < 1) :
    pinStart (B.map .fin) (S.map .fin) (.fin a) (.fin d) (.fin g)
      = (let mu := (B.sum / B.length - g * (B.sum / B.length)) / (a * (1 - d))
         let eS := S.sum / S.length - a * d * mu
         if eS < 0 then none
         else some (ofEho ⟨a, d, g * (B.sum / B.length), eS, mu⟩)) := by
  have hne : a * (1 - d) ≠ 0 := (mul_pos ha (by linarith)).ne'
  unfold pinStart
  simp only [Np.mean_fin hB, Np.mean_fin hS, XR.fin_mul, XR.fin_sub, XR.one_def, XR.fin_div _ hne,
    XR.zero_def, XR.fin_lt, ofEho]

/-- C43: for non-negative buys and sells (non-empty), every starting point has `alpha, delta` in
(0,1), non-negative rates, and reproduces the sample means of buys and sells. -/
theorem C43_starts {B S : List ℝ} (hB : B ≠ []) (hS : S ≠ []) (hB0 : ∀ x ∈ B, 0 ≤ x)
    (v : PinVec) (h : v ∈ pinStarts (B.map .fin) (S.map .fin)) :
    ∃ p : Eho, v = ofEho p ∧ 0 < p.alpha ∧ p.alpha < 1 ∧ 0 < p.delta ∧ p.delta < 1 ∧
      0 ≤ p.eB ∧ 0 ≤ p.eS ∧ 0 ≤ p.mu ∧
      p.alpha * (1 - p.delta) * p.mu + p.eB = B.sum / B.length ∧
      p.alpha * p.delta * p.mu + p.eS = S.sum / S.length := by
  simp only [pinStarts, List.mem_flatMap, List.mem_filterMap] at h
  obtain ⟨a, ha, d, hd, g, hg, h⟩ := h
  obtain ⟨a, rfl, ha0, ha1⟩ := mem_grid ha
  obtain ⟨d, rfl, hd0, hd1⟩ := mem_grid hd
  obtain ⟨g, rfl, hg0, hg1⟩ := mem_grid hg
  rw [pinStart_fin hB hS ha0 hd1] at h
  dsimp only at h
  split_ifs at h with hneg
  cases h
  have hbar : 0 ≤ B.sum / B.length := div_nonneg (List.sum_nonneg hB0) (Nat.cast_nonneg _)
  have hd' : 0 < 1 - d := by linarith
  have hpos : 0 < a * (1 - d) := mul_pos ha0 hd'
  refine ⟨_, rfl, ha0, ha1, hd0, hd1, mul_nonneg hg0.le hbar, not_lt.mp hneg, ?_, ?_, ?_⟩
  · apply div_nonneg _ hpos.le
    nlinarith
  · dsimp only
    rw [mul_div_cancel₀ _ hpos.ne']; ring
  · dsimp only; ring

/-- C43: exactly the grid points whose implied `eS` is negative are skipped: `(α,δ,γ)` on the grid
gives the start with `eB = γ B̄`, `mu = (1-γ) B̄ / (α (1-δ))`, `eS = S̄ - α δ mu` iff this `eS ≥ 0`. -/
theorem C43_skipped {B S : List ℝ} (hB : B ≠ []) (hS : S ≠ []) {a d g : ℝ}
    (ha : XR.fin a ∈ pinGrid) (hd : XR.fin d ∈ pinGrid) (hg : XR.fin g ∈ pinGrid) :
    let bBar := B.sum / B.length
    let mu := (1 - g) * bBar / (a * (1 - d))
    let eS := S.sum / S.length - a * d * mu
    (ofEho ⟨a, d, g * bBar, eS, mu⟩ ∈ pinStarts (B.map .fin) (S.map .fin) ↔ 0 ≤ eS) := by
  intro bBar mu eS
  obtain ⟨a', ea, ha0, ha1⟩ := mem_grid ha
  obtain ⟨d', ed, hd0, hd1⟩ := mem_grid hd
  cases ea; cases ed
  have hmu : (B.sum / B.length - g * (B.sum / B.length)) / (a * (1 - d)) = mu := by
    simp only [mu, bBar]; ring
  constructor
  · intro h
    simp only [pinStarts, List.mem_flatMap, List.mem_filterMap] at h
    obtain ⟨a2, ha2, d2, hd2, g2, hg2, h⟩ := h
    obtain ⟨a2, rfl, ha0', _⟩ := mem_grid ha2
    obtain ⟨d2, rfl, _, hd1'⟩ := mem_grid hd2
    obtain ⟨g2, rfl, _, _⟩ := mem_grid hg2
    rw [pinStart_fin hB hS ha0' hd1'] at h
    dsimp only at h
    split_ifs at h with hneg
    simp only [ofEho, Option.some.injEq, PinVec.mk.injEq, XR.fin_inj] at h
    rw [← h.2.2.2.1]
    exact not_lt.mp hneg
  · intro h
    simp only [pinStarts, List.mem_flatMap, List.mem_filterMap]
    refine ⟨_, ha, _, hd, _, hg, ?_⟩
    rw [pinStart_fin hB hS ha0 hd1]
    dsimp only
    rw [hmu, if_neg (not_lt.mpr h)]

/-- C43: at most 125 starts. -/
theorem C43_count (B S : List XR) : (pinStarts B S).length ≤ 125 := by
  have h1 : ∀ a d, (pinGrid.filterMap fun g => pinStart B S a d g).length ≤ 5 := fun a d =>
    (List.length_filterMap_le _ _).trans (by simp [pinGrid])
  have h2 : ∀ (f : XR → List PinVec) (n : ℕ), (∀ x, (f x).length ≤ n) → (pinGrid.flatMap f).length ≤ 5 * n := by
    intro f n h
    simp only [pinGrid, List.flatMap_cons, List.flatMap_nil, List.length_append, List.length_nil]
    have := h 0.1; have := h 0.3; have := h 0.5; have := h 0.7; have := h 0.9
    omega
  exact h2 _ 25 fun a => h2 _ 5 fun d => h1 a d

example : ([1, 2] : List ℝ) ≠ [] ∧ (∀ x ∈ ([1, 2] : List ℝ), 0 ≤ x) ∧ XR.fin 0.1 ∈ pinGrid := by
  refine ⟨by simp, by simp, ?_⟩
  simp [pinGrid, XR.ofSci_def]

/-! ### C44, C45 -/

/-- C44: the two objectives agree on every sample of real counts and all admissible parameters
(`alpha, delta` in [0,1], `eB, eS > 0`, `mu ≥ 0`), and are finite. -/
theorem C44_equal {p : Eho} (h : p.Admissible) (l : List (ℝ × ℝ)) :
    eho2010 (col l Prod.fst) (col l Prod.snd) (ofEho p)
      = lk2011 (col l Prod.fst) (col l Prod.snd) (ofEho p) ∧
    (eho2010 (col l Prod.fst) (col l Prod.snd) (ofEho p)).isFin := by
  rw [eho2010_eq h, lk2011_eq h]; exact ⟨rfl, _, rfl⟩

/-- C45: both objectives are minus the log of the Poisson-mixture likelihood of the sample, up to the
parameter-free constant `Σ log (B! S!)`. -/
theorem C45_likelihood {p : Eho} (h : p.Admissible) (l : List (ℕ × ℕ)) :
    let B := l.map fun d => XR.fin (d.1 : ℝ)
    let S := l.map fun d => XR.fin (d.2 : ℝ)
    let logLik := Real.log (l.map fun d => p.dayProb d.1 d.2).prod
    let const := (l.map fun d => Real.log ((d.1.factorial : ℝ) * (d.2.factorial : ℝ))).sum
    (∀ d ∈ l, 0 < p.dayProb d.1 d.2) ∧
    eho2010 B S (ofEho p) = .fin (-(logLik + const)) ∧ lk2011 B S (ofEho p) = .fin (-(logLik + const)) := by
  intro B S logLik const
  have hfac : ∀ n : ℕ, (0:ℝ) < (n.factorial : ℝ) := fun n => by exact_mod_cast n.factorial_pos
  have hpos : ∀ b s : ℕ, 0 < p.dayProb b s := by
    intro b s
    have := mixture_pos h (b : ℝ) (s : ℝ)
    rw [mixture_poisson] at this
    exact (mul_pos_iff_of_pos_right (mul_pos (hfac b) (hfac s))).mp this
  set r : List (ℝ × ℝ) := l.map fun d => ((d.1 : ℝ), (d.2 : ℝ)) with hr
  have eB : B = col r Prod.fst := by simp [B, col, hr, List.map_map, Function.comp_def]
  have eS : S = col r Prod.snd := by simp [S, col, hr, List.map_map, Function.comp_def]
  have hsum : (r.map fun d => Real.log (mixture p d.1 d.2)).sum = logLik + const := by
    simp only [hr, List.map_map, Function.comp_def, mixture_poisson, logLik, const]
    clear eB eS hr
    induction l with
    | nil => simp
    | cons d t ih =>
      dsimp only at ih
      have hprod : 0 < (t.map fun d => p.dayProb d.1 d.2).prod :=
        List.prod_pos fun x hx => by
          obtain ⟨d, _, rfl⟩ := List.mem_map.mp hx; exact hpos _ _
      simp only [List.map_cons, List.sum_cons, List.prod_cons]
      rw [ih, Real.log_mul (hpos _ _).ne' hprod.ne',
        Real.log_mul (hpos _ _).ne' (mul_pos (hfac _) (hfac _)).ne']
      ring
  rw [eB, eS, eho2010_eq h, lk2011_eq h, hsum]
  exact ⟨fun d _ => hpos _ _, rfl, rfl⟩

/-- C45: hence minimising the objective over any set of admissible parameters is maximising the
likelihood of the sample. -/
theorem C45_mle {p q : Eho} (hp : p.Admissible) (hq : q.Admissible) (l : List (ℕ × ℕ)) :
    let B := l.map fun d => XR.fin (d.1 : ℝ)
    let S := l.map fun d => XR.fin (d.2 : ℝ)
    (eho2010 B S (ofEho p) ≤ eho2010 B S (ofEho q)
      ↔ (l.map fun d => q.dayProb d.1 d.2).prod ≤ (l.map fun d => p.dayProb d.1 d.2).prod) := by
  intro B S
  obtain ⟨p1, p2, _⟩ := C45_likelihood hp l
  obtain ⟨q1, q2, _⟩ := C45_likelihood hq l
  have pos : ∀ {u : Eho}, (∀ d ∈ l, 0 < u.dayProb d.1 d.2) → 0 < (l.map fun d => u.dayProb d.1 d.2).prod :=
    fun hu => List.prod_pos fun x hx => by obtain ⟨d, hd, rfl⟩ := List.mem_map.mp hx; exact hu d hd
  rw [p2, q2, XR.fin_le, neg_le_neg_iff, add_le_add_iff_right, Real.log_le_log_iff (pos q1) (pos p1)]

example : (⟨1 / 2, 1 / 2, 10, 10, 20⟩ : Eho).Admissible := by norm_num [Eho.Admissible]

/-! ### C46 -/

/-- C46: any other method string raises `ValueError`; the object is untouched (no new object). -/
theorem C46_method (mini : PinMinimizer) (o : PinObj) (method : String) :
    pinEstimate mini o method = .error .valueError ↔ (method ≠ "EHO2010" ∧ method ≠ "LK2011") := by
  unfold pinEstimate
  split_ifs with h <;> simp [h]

/-- C46: the constructor accepts exactly two arrays of equal, non-scalar shape, and starts with
default parameters and `estimation_success = False`. -/
theorem C46_ctor (B S : PyArg) :
    (∃ o, pinCtor B S = .ok o) ↔ ∃ b s, B = .nd b ∧ S = .nd s ∧ b.shape = s.shape ∧ b.shape ≠ [] := by
  unfold pinCtor
  constructor
  · rintro ⟨o, h⟩
    split at h
    · rename_i b s
      split_ifs at h with h1 h2
      exact ⟨b, s, rfl, rfl, not_not.mp h1, h2⟩
    · cases h
  · rintro ⟨b, s, rfl, rfl, h1, h2⟩
    rw [h1] at h2
    exact ⟨⟨b.flat, s.flat, false, {}⟩, by simp [h1, h2]⟩

theorem C46_ctor_state (B S : PyArg) (o : PinObj) (h : pinCtor B S = .ok o) :
    o.success = false ∧ o.params = {} := by
  unfold pinCtor at h
  split at h
  · split_ifs at h
    cases h; exact ⟨rfl, rfl⟩
  · cases h

/-- C46: shapes that differ, or arguments that are not arrays, raise `AssertionError`. -/
theorem C46_assert (B S : PyArg) (h : ¬ ∃ b s, B = .nd b ∧ S = .nd s ∧ b.shape = s.shape) :
    pinCtor B S = .error .assertionError := by
  unfold pinCtor
  split
  · rename_i b s
    rw [if_pos]
    intro e; exact h ⟨b, s, rfl, rfl, e⟩
  · rfl

/-! ### Concrete cases of the theorems above -/

/-- Half the days with news, ten uninformed and twenty informed orders. -/
example : calculatePin (ofEho ⟨1 / 2, 1 / 2, 10, 10, 20⟩) = .fin (1 / 3) := by
  have h := C40_probability ⟨1 / 2, 1 / 2, 10, 10, 20⟩ (by norm_num)
  rw [if_neg (by norm_num)] at h
  obtain ⟨q, h1, _, _, h2⟩ := h
  rw [h1]
  congr 1
  norm_num at h2
  linarith
example (mini : PinMinimizer) := C41_best mini ⟨[.fin 3], [.fin 4], false, {}⟩ "LK2011" (Or.inr rfl)
example (mini : PinMinimizer) (p : PinParams) := C41_history mini ⟨[.fin 3], [.fin 4], false, {}⟩ ⟨[.fin 3], [.fin 4], true, p⟩
  "LK2011" rfl rfl
/-- The optimiser fails on a day's counts, after an earlier success: no estimate, yet the success flag stays. -/
example (x : PinVec) := C42_stale_flag (fun _ _ _ => ⟨false, x, 0⟩) ⟨[.fin 3], [.fin 4], true, {}⟩ "LK2011" (Or.inr rfl) rfl
  (fun _ _ _ => rfl)
example := C42_sticky ⟨[.fin 3], [.fin 4], true, {}⟩ rfl
/-- Three buys and four sells: the first grid point is kept exactly if the implied sells are not negative. -/
example := C43_skipped (B := [3]) (S := [4]) (by simp) (by simp) (a := 0.1) (d := 0.1) (g := 0.9)
  (by simp [pinGrid, XR.ofSci_def]) (by simp [pinGrid, XR.ofSci_def]) (by simp [pinGrid, XR.ofSci_def])
example (v : PinVec) (h : v ∈ pinStarts (([3, 5] : List ℝ).map .fin) (([4, 1] : List ℝ).map .fin)) :=
  C43_starts (by simp) (by simp) (by simp) v h
example := C44_equal (p := ⟨1 / 2, 1 / 2, 10, 10, 20⟩) (by norm_num [Eho.Admissible]) [(3, 4), (7, 0)]
example := C45_likelihood (p := ⟨1 / 2, 1 / 2, 10, 10, 20⟩) (by norm_num [Eho.Admissible]) [(3, 4), (7, 0)]
example := C45_mle (p := ⟨1 / 2, 1 / 2, 10, 10, 20⟩) (q := ⟨1 / 4, 1 / 2, 5, 10, 20⟩) (by norm_num [Eho.Admissible])
  (by norm_num [Eho.Admissible]) [(3, 4), (7, 0)]
example (mini : PinMinimizer) (o : PinObj) : pinEstimate mini o "MLE" = .error .valueError :=
  (C46_method mini o "MLE").2 (by decide)

end
end Frds.Props

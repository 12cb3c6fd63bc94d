import Verif.Lemmas.GarchFit

/-! Properties C61-C68, C73: likelihood, variance recursions, bounds, backcast and EWMA of the
univariate GARCH models. -/
set_option linter.unusedSimpArgs false

namespace Frds.Props
noncomputable section
open Frds Frds.Model Frds.Spec Classical

/-! ### C61 -/

/-- C61. The log-likelihood is the log of the product of the normal densities; the records pair a
residual with its variance. -/
theorem C61_normal_likelihood (l : List (ℝ × ℝ)) (h : ∀ d ∈ l, 0 < d.2) :
    loglik (l.map fun d => .fin d.1) (l.map fun d => .fin d.2)
      = .fin (Real.log (l.map fun d => normalPdf d.2 d.1).prod) := by
  rw [loglik_fin l h, log_prod_pdf l h]

example : ∃ l : List (ℝ × ℝ), l.length = 3 ∧ ∀ d ∈ l, 0 < d.2 :=
  ⟨[(1, 2), (-3, 1), (0, 5)], rfl, by simp⟩

/-- C61. A zero variance makes the likelihood NaN. -/
theorem C61_zero_variance (r s : List XR) (x : ℝ) :
    loglik (.fin x :: r) (.fin 0 :: s) = .nan := by
  unfold loglik
  simp only [List.zipWith_cons_cons, List.sum_cons]
  have h2 : XR.log (.fin (2 * Real.pi)) = .fin (Real.log (2 * Real.pi)) := XR.fin_log (by positivity)
  rw [h2, XR.log_zero, XR.fin_add_ninf, XR.fin_sq, XR.fin_div_zero]
  have : XR.ninf + XR.infSign (x ^ 2) = XR.nan := by
    by_cases hx : x = 0
    · subst hx
      rw [zero_pow two_ne_zero, XR.infSign_zero]; rfl
    · have : 0 < x ^ 2 := by positivity
      rw [XR.infSign_pos this]; rfl
  rw [this]
  simp

/-! ### C62 -/

/-- C62. GARCH: any result is the documented recursion (for arbitrary values, NaN included). -/
theorem C62_garch_recursion (cpp : Bool) (omega alpha beta backcast : XR) (resids : List XR)
    (bounds : List (XR × XR)) (out : List XR)
    (h : garchVariance cpp ⟨omega, alpha, beta⟩ resids backcast bounds = .ok out) :
    IsRecursion (fun r s b => boundsCheck cpp (omega + alpha * XR.sq r + beta * s) b)
      (omega + (alpha + beta) * backcast) resids bounds out :=
  variancePath_recursion h

/-- C62. GJR: the same with the leverage term after negative residuals. -/
theorem C62_gjr_recursion (cpp : Bool) (omega alpha gamma beta backcast : XR) (resids : List XR)
    (bounds : List (XR × XR)) (out : List XR)
    (h : gjrVariance cpp ⟨omega, alpha, gamma, beta⟩ resids backcast bounds = .ok out) :
    IsRecursion (fun r s b => boundsCheck cpp
        (omega + alpha * XR.sq r + beta * s + (if r < 0 then gamma * XR.sq r else 0)) b)
      (omega + (alpha + gamma / 2 + beta) * backcast) resids bounds out := by
  have := variancePath_recursion h
  have e : (if cpp then gjrNextCpp ⟨omega, alpha, gamma, beta⟩ else gjrNextPy ⟨omega, alpha, gamma, beta⟩)
      = gjrNextPy ⟨omega, alpha, gamma, beta⟩ := by
    cases cpp
    · rfl
    · simp only [if_true]; funext r s; exact gjrNext_eq _ r s
  rw [e] at this
  exact this

/-- C62. A result exists for every non-empty array with enough bound rows; an empty array raises
`IndexError`. -/
theorem C62_total (cpp : Bool) (p : GarchVar) (q : GjrVar) (backcast : XR) (resids : List XR)
    (bounds : List (XR × XR)) :
    (resids ≠ [] → resids.length ≤ bounds.length →
      (∃ out, garchVariance cpp p resids backcast bounds = .ok out) ∧
      ∃ out, gjrVariance cpp q resids backcast bounds = .ok out) ∧
    garchVariance cpp p [] backcast bounds = .error .indexError ∧
    gjrVariance cpp q [] backcast bounds = .error .indexError :=
  ⟨fun h1 h2 => ⟨⟨_, variancePath_ok h1 fun _ => h2⟩, ⟨_, variancePath_ok h1 fun _ => h2⟩⟩,
    rfl, rfl⟩

/-- C62. Closed form (backcast + ARCH(∞) expansion) when no bound binds. `gamma = 0` is GARCH. -/
theorem C62_closed_form (cpp : Bool) (omega alpha gamma beta backcast : ℝ) (resids : List ℝ)
    (bounds : List (ℝ × ℝ)) (hne : resids ≠ []) (hlen : resids.length ≤ bounds.length)
    (hb : ∀ p ∈ bounds, 0 < p.1 ∧ p.1 ≤ p.2)
    (path : ℕ → ℝ)
    (hpath : ∀ t, path t = beta ^ t * (omega + (alpha + gamma / 2 + beta) * backcast)
      + ∑ i ∈ Finset.range t, beta ^ (t - 1 - i) *
          (omega + alpha * (resids.getD i 0) ^ 2 +
            if resids.getD i 0 < 0 then gamma * (resids.getD i 0) ^ 2 else 0))
    (hin : ∀ t b, t + 1 < resids.length → bounds[t + 1]? = some b →
      b.1 ≤ path (t + 1) ∧ path (t + 1) ≤ b.2) :
    gjrVariance cpp ⟨.fin omega, .fin alpha, .fin gamma, .fin beta⟩ (resids.map XR.fin) (.fin backcast)
        (bounds.map fun p => (.fin p.1, .fin p.2))
      = .ok ((List.range resids.length).map fun t => .fin (path t)) ∧
    (gamma = 0 → garchVariance cpp ⟨.fin omega, .fin alpha, .fin beta⟩ (resids.map XR.fin)
        (.fin backcast) (bounds.map fun p => (.fin p.1, .fin p.2))
      = .ok ((List.range resids.length).map fun t => .fin (path t))) := by
  have hp : path = linearPath beta (omega + (alpha + gamma / 2 + beta) * backcast)
      (fun i => gjrNews omega alpha gamma (resids.getD i 0)) := funext hpath
  subst hp
  constructor
  · have hs0 : (XR.fin omega + (XR.fin alpha + XR.fin gamma / 2 + XR.fin beta) * XR.fin backcast)
        = .fin (omega + (alpha + gamma / 2 + beta) * backcast) := by
      rw [XR.ofNat_def, XR.fin_div _ (by norm_num)]; rfl
    unfold gjrVariance
    rw [hs0]
    exact variancePath_closed cpp (gjrNext_fin cpp omega alpha gamma beta) hne hlen hb hin
  · rintro rfl
    have hs0 : (XR.fin omega + (XR.fin alpha + XR.fin beta) * XR.fin backcast)
        = .fin (omega + (alpha + 0 / 2 + beta) * backcast) := by
      simp
    unfold garchVariance
    rw [hs0]
    exact variancePath_closed cpp (garchNext_fin omega alpha beta) hne hlen hb hin

example : ∃ (resids : List ℝ) (bounds : List (ℝ × ℝ)) (path : ℕ → ℝ),
    resids ≠ [] ∧ resids.length ≤ bounds.length ∧ (∀ p ∈ bounds, 0 < p.1 ∧ p.1 ≤ p.2) ∧
    (∀ t, path t = (1 / 2 : ℝ) ^ t * (1 + (1 / 4 + 0 / 2 + 1 / 2) * 4)
      + ∑ i ∈ Finset.range t, (1 / 2 : ℝ) ^ (t - 1 - i) *
          (1 + 1 / 4 * (resids.getD i 0) ^ 2 +
            if resids.getD i 0 < 0 then 0 * (resids.getD i 0) ^ 2 else 0)) ∧
    (∀ t b, t + 1 < resids.length → bounds[t + 1]? = some b →
      b.1 ≤ path (t + 1) ∧ path (t + 1) ≤ b.2) := by
  refine ⟨[2, -2], [(1, 10), (1, 10)], _, by simp, by simp, by simp, fun t => rfl, ?_⟩
  intro t b ht hb
  obtain rfl : t = 0 := by simp at ht; exact ht
  simp at hb
  subst hb
  norm_num [Finset.sum_range_succ]

/-! ### C63 -/

/-- C63. GJR (and GARCH with `gamma = 0`): all variances are finite and positive, from the second on
at least the lower bound, and above the upper bound only by the log of the relative excess. -/
theorem C63_positive_bounded (cpp : Bool) (omega alpha gamma beta backcast : ℝ) (resids : List ℝ)
    (bounds : List (ℝ × ℝ)) (hne : resids ≠ []) (hlen : resids.length ≤ bounds.length)
    (hb : ∀ p ∈ bounds, 0 < p.1 ∧ p.1 ≤ p.2)
    (ho : 0 < omega) (ha : 0 ≤ alpha) (hg : 0 ≤ alpha + gamma) (hbeta : 0 ≤ beta)
    (hbc : 0 ≤ backcast) :
    ∃ v : List ℝ,
      gjrVariance cpp ⟨.fin omega, .fin alpha, .fin gamma, .fin beta⟩ (resids.map XR.fin)
        (.fin backcast) (bounds.map fun p => (.fin p.1, .fin p.2)) = .ok (v.map XR.fin) ∧
      (gamma = 0 → garchVariance cpp ⟨.fin omega, .fin alpha, .fin beta⟩ (resids.map XR.fin)
        (.fin backcast) (bounds.map fun p => (.fin p.1, .fin p.2)) = .ok (v.map XR.fin)) ∧
      v.length = resids.length ∧ (∀ x ∈ v, 0 < x) ∧
      ∀ t b r s x, bounds[t + 1]? = some b → resids[t]? = some r → v[t]? = some s →
        v[t + 1]? = some x →
        let raw := omega + alpha * r ^ 2 + (if r < 0 then gamma * r ^ 2 else 0) + beta * s
        b.1 ≤ x ∧ (raw ≤ b.2 → x ≤ b.2 ∧ x = max b.1 raw) ∧
        (b.2 < raw → b.2 < x ∧ x = b.2 + Real.log (raw / b.2)) := by
  have hs : 0 < omega + (alpha + gamma / 2 + beta) * backcast := by
    have : 0 ≤ alpha + gamma / 2 + beta := by linarith
    positivity
  obtain ⟨v, hv, hpos, hrec⟩ := variancePath_fin cpp (gjrNext_fin cpp omega alpha gamma beta) hs
    hne hlen hb
  refine ⟨v, ?_, ?_, hrec.1, hpos, ?_⟩
  · have hs0 : (XR.fin omega + (XR.fin alpha + XR.fin gamma / 2 + XR.fin beta) * XR.fin backcast)
        = .fin (omega + (alpha + gamma / 2 + beta) * backcast) := by
      rw [XR.ofNat_def, XR.fin_div _ (by norm_num)]; rfl
    unfold gjrVariance
    rw [hs0]
    exact hv
  · rintro rfl
    have hs0 : (XR.fin omega + (XR.fin alpha + XR.fin beta) * XR.fin backcast)
        = .fin (omega + (alpha + 0 / 2 + beta) * backcast) := by
      simp
    obtain ⟨v', hv', _, hrec'⟩ := variancePath_fin cpp (garchNext_fin omega alpha beta) hs
      hne hlen hb
    have := IsRecursion.unique hlen hrec' hrec
    subst this
    unfold garchVariance
    rw [hs0]
    exact hv'
  · intro t b r s x hbt hr hst hx raw
    have hg := hb b (List.mem_of_getElem? hbt)
    have hlt : t + 1 < resids.length := by
      rw [← hrec.1]; exact (List.getElem?_eq_some_iff.mp hx).1
    have := hrec.2.2 t r s b hlt hr hst hbt
    rw [hx] at this
    simp only [Option.some.injEq] at this
    have hraw : gjrNews omega alpha gamma r + beta * s = raw := by simp only [gjrNews, raw]
    rw [hraw] at this
    subst this
    refine ⟨clampLog_ge hg.1 hg.2 _, fun h => ?_, fun h => ?_⟩
    · unfold clampLog
      by_cases h1 : raw < b.1
      · rw [if_pos h1]; exact ⟨hg.2, (max_eq_left h1.le).symm⟩
      · rw [if_neg h1, if_pos h]; exact ⟨h, (max_eq_right (not_lt.mp h1)).symm⟩
    · have hb2 : 0 < b.2 := lt_of_lt_of_le hg.1 hg.2
      unfold clampLog
      rw [if_neg (not_lt.mpr (hg.2.trans h.le)), if_neg (not_le.mpr h)]
      refine ⟨?_, rfl⟩
      have : 0 < Real.log (raw / b.2) := Real.log_pos (by rw [lt_div_iff₀ hb2]; linarith)
      linarith

example : ∃ (resids : List ℝ) (bounds : List (ℝ × ℝ)), resids ≠ [] ∧
    resids.length ≤ bounds.length ∧ (∀ p ∈ bounds, 0 < p.1 ∧ p.1 ≤ p.2) ∧ (0 : ℝ) < 1 ∧
    (0 : ℝ) ≤ 1 / 10 ∧ (0 : ℝ) ≤ 1 / 10 + (-1 / 20) ∧ (0 : ℝ) ≤ 4 / 5 ∧ (0 : ℝ) ≤ 2 :=
  ⟨[1, -2, 3], [(1, 1), (1, 2), (1 / 2, 3)], by simp, by simp, by simp; norm_num, by norm_num,
    by norm_num, by norm_num, by norm_num, by norm_num⟩

/-! ### C64 -/

/-- C64. `bounds_check` is a function of the value that leaves the interval unchanged, is monotone and
continuous; `-inf` is raised to the lower bound and `+inf` becomes `upper + 1000`. -/
theorem C64_bounds_check (cpp : Bool) (lo hi : ℝ) (h : 0 < lo) (hl : lo ≤ hi) :
    ∃ f : ℝ → ℝ, (∀ x, boundsCheck cpp (.fin x) (.fin lo, .fin hi) = .fin (f x)) ∧
      (∀ x, lo ≤ x → x ≤ hi → f x = x) ∧ (∀ x, x < lo → f x = lo) ∧
      (∀ x, hi < x → f x = hi + Real.log (x / hi)) ∧
      Monotone f ∧ Continuous f ∧
      boundsCheck cpp .ninf (.fin lo, .fin hi) = .fin lo ∧
      boundsCheck cpp .pinf (.fin lo, .fin hi) = .fin (hi + 1000) := by
  refine ⟨clampLog lo hi, boundsCheck_fin cpp h hl, fun x h1 h2 => clampLog_inside h1 h2, ?_, ?_,
    clampLog_mono h hl, clampLog_continuous h hl, ?_, ?_⟩
  · intro x hx; rw [clampLog, if_pos hx]
  · intro x hx; rw [clampLog, if_neg (not_lt.mpr (hl.trans hx.le)), if_neg (not_le.mpr hx)]
  · have : boundsCheckPy .ninf (.fin lo, .fin hi) = .fin lo := by
      simp [boundsCheckPy, XR.pyMax, not_lt.mpr hl]
    unfold boundsCheck
    cases cpp
    · exact this
    · simp only [if_true]; rw [boundsCheck_eq (by simp) (by simp), this]
  · have : boundsCheckPy .pinf (.fin lo, .fin hi) = .fin (hi + 1000) := by
      simp only [boundsCheckPy, XR.pyMax, XR.fin_lt_pinf, if_true]
      rw [if_neg (by simp [XR.isInf])]
      rfl
    unfold boundsCheck
    cases cpp
    · exact this
    · simp only [if_true]; rw [boundsCheck_eq (by simp) (by simp), this]

/-- C64. Monotonicity does not extend to `+inf`: a large finite variance maps above it. -/
theorem C64_inf_not_largest (cpp : Bool) (lo hi : ℝ) (h : 0 < lo) (hl : lo ≤ hi) :
    ∃ x : ℝ, boundsCheck cpp .pinf (.fin lo, .fin hi) < boundsCheck cpp (.fin x) (.fin lo, .fin hi) := by
  have hhi : 0 < hi := lt_of_lt_of_le h hl
  obtain ⟨f, h1, _, _, h4, _, _, _, h8⟩ := C64_bounds_check cpp lo hi h hl
  refine ⟨hi * Real.exp 1001, ?_⟩
  have he : (1 : ℝ) < Real.exp 1001 := Real.one_lt_exp_iff.mpr (by norm_num)
  rw [h8, h1, h4 _ (by nlinarith), mul_div_cancel_left₀ _ hhi.ne', Real.log_exp]
  simp; norm_num

/-- C64. The log adjustment shrinks excessive values when the upper bound is at least one; below one
it can enlarge them. -/
theorem C64_shrinks (cpp : Bool) :
    (∀ lo hi x : ℝ, 0 < lo → lo ≤ hi → 1 ≤ hi → hi < x →
      ∃ y, boundsCheck cpp (.fin x) (.fin lo, .fin hi) = .fin y ∧ hi < y ∧ y < x) ∧
    ∃ lo hi x y : ℝ, 0 < lo ∧ lo ≤ hi ∧ hi < x ∧
      boundsCheck cpp (.fin x) (.fin lo, .fin hi) = .fin y ∧ x < y := by
  constructor
  · intro lo hi x h1 h2 h3 h4
    have hhi : 0 < hi := lt_of_lt_of_le h1 h2
    refine ⟨_, boundsCheck_fin cpp h1 h2 x, ?_⟩
    rw [clampLog, if_neg (not_lt.mpr (h2.trans h4.le)), if_neg (not_le.mpr h4)]
    have hx : 1 < x / hi := by rw [lt_div_iff₀ hhi]; linarith
    have l1 := Real.log_pos hx
    have l2 := Real.log_lt_sub_one_of_pos (by linarith : 0 < x / hi) hx.ne'
    have l3 : x / hi - 1 ≤ x - hi := by
      rw [div_sub_one hhi.ne', div_le_iff₀ hhi]; nlinarith
    constructor <;> linarith
  · refine ⟨1 / 1000, 1 / 1000, 1 / 500, _, by norm_num, by norm_num, by norm_num,
      boundsCheck_fin cpp (by norm_num) (by norm_num) _, ?_⟩
    rw [clampLog, if_neg (by norm_num), if_neg (by norm_num)]
    have : 1 - ((1 / 500 / (1 / 1000) : ℝ))⁻¹ ≤ Real.log (1 / 500 / (1 / 1000)) :=
      Real.one_sub_inv_le_log_of_pos (by norm_num)
    norm_num at this ⊢
    linarith

/-! ### C65 -/

/-- C65. The EWMA kernels agree on all data; the bound checks agree whenever value and lower bound
are not NaN; on a NaN variance Python returns the lower bound, C++ NaN. -/
theorem C65_kernels :
    (∀ resids v lam, ewma true resids v lam = ewma false resids v lam) ∧
    (∀ s lo hi, s ≠ .nan → lo ≠ .nan → boundsCheck true s (lo, hi) = boundsCheck false s (lo, hi)) ∧
    (∀ lo hi : ℝ, lo ≤ hi → boundsCheck false .nan (.fin lo, .fin hi) = .fin lo ∧
      boundsCheck true .nan (.fin lo, .fin hi) = .nan) := by
  refine ⟨ewma_eq, fun s lo hi h1 h2 => ?_, fun lo hi h => ⟨?_, ?_⟩⟩
  · simp only [boundsCheck, if_true, Bool.false_eq_true, if_false]
    exact boundsCheck_eq (b := (lo, hi)) h1 h2
  · simp [boundsCheck, boundsCheckPy, XR.pyMax, not_lt.mpr h]
  · simp [boundsCheck, boundsCheckCpp]

theorem next_nan_of_chk {next : XR → XR → XR} {s : XR} {l : List (XR × (XR × XR))}
    (hb : ∀ p ∈ l, p.2.1 ≠ .nan) (hout : ∀ x ∈ varLoop next (boundsCheck true) s l, x ≠ .nan) :
    varLoop next (boundsCheck true) s l = varLoop next (boundsCheck false) s l := by
  induction l generalizing s with
  | nil => rfl
  | cons p t ih =>
    obtain ⟨r, b⟩ := p
    have hb1 : b.1 ≠ .nan := hb (r, b) (by simp)
    have hx : boundsCheck true (next r s) b ≠ .nan := hout _ (by simp [varLoop])
    have hn : next r s ≠ .nan := by
      intro e
      apply hx
      rw [e]
      simp [boundsCheck, boundsCheckCpp]
    have he : boundsCheck true (next r s) b = boundsCheck false (next r s) b :=
      C65_kernels.2.1 _ b.1 b.2 hn hb1
    simp only [varLoop] at hout ⊢
    rw [← he, ih (fun p hp => hb p (by simp [hp])) fun x hx' => hout x (by simp [hx'])]

/-- C65. Variance paths: if the C++ kernel returns no NaN after the first entry (and the lower bounds
are not NaN) the Python kernel returns the same array. -/
theorem C65_paths (p : GarchVar) (q : GjrVar) (resids : List XR) (backcast : XR)
    (bounds : List (XR × XR)) (hb : ∀ b ∈ bounds, b.1 ≠ .nan) (out : List XR)
    (hout : ∀ x ∈ out.tail, x ≠ .nan) :
    (garchVariance true p resids backcast bounds = .ok out →
      garchVariance false p resids backcast bounds = .ok out) ∧
    (gjrVariance true q resids backcast bounds = .ok out →
      gjrVariance false q resids backcast bounds = .ok out) := by
  have key : ∀ next s0, variancePath next (boundsCheck true) s0 resids bounds = .ok out →
      variancePath next (boundsCheck false) s0 resids bounds = .ok out := by
    intro next s0 h
    unfold variancePath at h ⊢
    by_cases h1 : resids = []
    · rw [if_pos h1] at h; cases h
    rw [if_neg h1] at h ⊢
    by_cases h2 : 2 ≤ resids.length ∧ bounds.length < resids.length
    · rw [if_pos h2] at h; cases h
    rw [if_neg h2] at h ⊢
    injection h with h
    subst h
    rw [next_nan_of_chk]
    · intro p hp
      exact hb _ (List.mem_of_mem_tail (List.of_mem_zip (a := p.1) (b := p.2) hp).2)
    · exact hout
  refine ⟨key _ _, fun h => ?_⟩
  unfold gjrVariance at h ⊢
  simp only [if_true, Bool.false_eq_true, if_false] at h ⊢
  have e : gjrNextCpp q = gjrNextPy q := by funext r s; exact gjrNext_eq q r s
  rw [e] at h
  exact key _ _ h

/-- C65. So on finite data with usable parameters and bounds both implementations agree. -/
theorem C65_finite (omega alpha gamma beta backcast : ℝ) (resids : List ℝ) (bounds : List (ℝ × ℝ))
    (hne : resids ≠ []) (hlen : resids.length ≤ bounds.length)
    (hb : ∀ p ∈ bounds, 0 < p.1 ∧ p.1 ≤ p.2) (hs : 0 < omega + (alpha + gamma / 2 + beta) * backcast) :
    gjrVariance true ⟨.fin omega, .fin alpha, .fin gamma, .fin beta⟩ (resids.map XR.fin)
        (.fin backcast) (bounds.map fun p => (.fin p.1, .fin p.2))
      = gjrVariance false ⟨.fin omega, .fin alpha, .fin gamma, .fin beta⟩ (resids.map XR.fin)
        (.fin backcast) (bounds.map fun p => (.fin p.1, .fin p.2)) := by
  have hs0 : (XR.fin omega + (XR.fin alpha + XR.fin gamma / 2 + XR.fin beta) * XR.fin backcast)
      = .fin (omega + (alpha + gamma / 2 + beta) * backcast) := by
    rw [XR.ofNat_def, XR.fin_div _ (by norm_num)]; rfl
  obtain ⟨v, hv, hpos, hrec⟩ := variancePath_fin true (gjrNext_fin true omega alpha gamma beta) hs
    hne hlen hb
  obtain ⟨v', hv', _, hrec'⟩ := variancePath_fin false (gjrNext_fin false omega alpha gamma beta) hs
    hne hlen hb
  have := IsRecursion.unique hlen hrec hrec'
  subst this
  unfold gjrVariance
  rw [hs0]
  exact hv.trans hv'.symm

example : ∃ (resids : List ℝ) (bounds : List (ℝ × ℝ)), resids ≠ [] ∧
    resids.length ≤ bounds.length ∧ (∀ p ∈ bounds, 0 < p.1 ∧ p.1 ≤ p.2) ∧
    (0 : ℝ) < 1 + (1 / 10 + (1 / 10) / 2 + 4 / 5) * 2 :=
  ⟨[1, -2, 3], [(1, 1), (1, 2), (1 / 2, 3)], by simp, by simp, by simp; norm_num, by norm_num⟩

/-! ### C66 -/

theorem sum_sq_sub (l : List ℝ) (m : ℝ) : (l.map fun x => (x - m) ^ 2).sum
    = (l.map fun x => x ^ 2).sum - 2 * m * (l.map id).sum + l.length * m ^ 2 := by
  induction l with
  | nil => simp
  | cons x t ih =>
    simp only [List.map_cons, List.sum_cons, List.length_cons, Nat.cast_succ, ih, id]; ring

theorem popVar_eq_sub {l : List ℝ} (h : l ≠ []) :
    popVar l = Spec.mean l (fun x => x ^ 2) - (Spec.mean l id) ^ 2 := by
  have hl : (l.length : ℝ) ≠ 0 := by have := List.length_pos_iff.mpr h; positivity
  rw [popVar, Spec.mean, sum_sq_sub]
  unfold Spec.mean
  field_simp
  ring

/-- C66. One row per residual, `upper = 1e12 * lower`; strictly positive and ordered iff some residual
is not zero; within the global bounds; an empty array raises `IndexError`. -/
theorem C66_variance_bounds (cpp : Bool) (resids : List ℝ) (hne : resids ≠ []) :
    ∃ rows : List (ℝ × ℝ),
      varianceBounds cpp (resids.map XR.fin) = .ok (rows.map fun p => (.fin p.1, .fin p.2)) ∧
      rows.length = resids.length ∧ (∀ p ∈ rows, p.2 = 1000000000000 * p.1) ∧
      ((∃ r ∈ resids, r ≠ 0) → ∀ p ∈ rows, 0 < p.1 ∧ p.1 < p.2) ∧
      ((∀ r ∈ resids, r = 0) → ∀ p ∈ rows, p = (0, 0)) ∧
      (∀ M, (∀ r ∈ resids, r ^ 2 ≤ M) → ∀ p ∈ rows, p.1 ≤ M / 1000000) ∧
      (∀ m, (∀ r ∈ resids, m ≤ r ^ 2) → m ≤ 10000000 → ∀ p ∈ rows, m / 1000000 ≤ p.1) := by
  refine ⟨boundRows resids, varianceBounds_fin cpp hne, boundRows_length _, ?_, ?_, ?_, ?_, ?_⟩
  · intro p hp
    obtain ⟨t, _, rfl⟩ := List.mem_map.mp hp
    simp only; ring
  · intro h p hp
    obtain ⟨t, ht, rfl⟩ := List.mem_map.mp hp
    have := boundCentre_pos h (List.mem_range.mp ht)
    simp only
    constructor
    · positivity
    · nlinarith
  · intro h p hp
    obtain ⟨t, ht, rfl⟩ := List.mem_map.mp hp
    simp [boundCentre_zero h hne (List.mem_range.mp ht)]
  · intro M hM p hp
    obtain ⟨t, ht, rfl⟩ := List.mem_map.mp hp
    have ht := List.mem_range.mp ht
    have h1 := (ewmaAt_bounds hne (lo := 0) (hi := M) (fun r hr => ⟨sq_nonneg r, hM r hr⟩)
      (t := t) (by omega)).2
    have h2 : popVar resids ≤ M := by
      have e := popVar_eq_sub hne
      have : Spec.mean resids (fun x => x ^ 2) ≤ M := by
        unfold Spec.mean
        have hl : (0 : ℝ) < resids.length := by have := List.length_pos_iff.mpr hne; positivity
        rw [div_le_iff₀ hl]
        calc (resids.map fun x => x ^ 2).sum ≤ (resids.map fun _ => M).sum := sum_map_le' hM
          _ = M * resids.length := by rw [sum_map_const']; ring
      nlinarith [sq_nonneg (Spec.mean resids id)]
    have h3 := popVar_nonneg resids
    have : boundCentre resids t ≤ M := by
      refine (min_le_left _ _).trans (max_le h1 ?_)
      linarith
    simp only
    linarith
  · intro m hm hm7 p hp
    obtain ⟨t, ht, rfl⟩ := List.mem_map.mp hp
    have ht := List.mem_range.mp ht
    have h1 := (ewmaAt_bounds hne (lo := m) (hi := maxSq resids)
      (fun r hr => ⟨hm r hr, (maxSq_le hne).mp le_rfl r hr⟩) (t := t) (by omega)).1
    have : m ≤ boundCentre resids t := by
      refine le_min (h1.trans (le_max_left _ _)) ?_
      have := maxSq_nonneg resids
      linarith
    simp only
    linarith

/-- C66. Empty input. -/
theorem C66_empty (cpp : Bool) : varianceBounds cpp [] = .error .indexError := rfl

example : ∃ l : List ℝ, l ≠ [] ∧ (∃ r ∈ l, r ≠ 0) ∧ (∀ r ∈ l, (1 : ℝ) ≤ r ^ 2) :=
  ⟨[2, -1, -1], by simp, ⟨2, by simp, by norm_num⟩, by simp⟩

/-! ### C67 -/

/-- C67. `backcast` is the average of the squares of the first 75 residuals with weights proportional
to `0.94^i`; so it lies between any bounds on those squares; empty input gives zero. -/
theorem C67_backcast (resids : List ℝ) :
    backcast [] = 0 ∧
    (resids ≠ [] → ∃ b : ℝ, backcast (resids.map XR.fin) = .fin b ∧ 0 ≤ b ∧
      b = (∑ i ∈ Finset.range (min 75 resids.length), (94 / 100 : ℝ) ^ i * (resids.getD i 0) ^ 2) /
        (∑ i ∈ Finset.range (min 75 resids.length), (94 / 100 : ℝ) ^ i) ∧
      (∀ lo hi, (∀ i < min 75 resids.length, lo ≤ (resids.getD i 0) ^ 2 ∧ (resids.getD i 0) ^ 2 ≤ hi) →
        lo ≤ b ∧ b ≤ hi) ∧
      ∀ c : ℝ, backcast ((resids.map fun r => c * r).map XR.fin) = .fin (c ^ 2 * b)) := by
  refine ⟨rfl, fun h => ⟨_, backcast_fin h, ewAvg_nonneg _, rfl, fun lo hi hb => ewAvg_bounds h hb, ?_⟩⟩
  intro c
  rw [backcast_fin (by simpa using h)]
  congr 1
  unfold ewAvg
  rw [List.length_map, mul_div_assoc', Finset.mul_sum]
  congr 1
  apply Finset.sum_congr rfl
  intro i hi
  have hi := Finset.mem_range.mp hi
  have : (resids.map fun r => c * r).getD i 0 = c * resids.getD i 0 := by
    simp only [List.getD_eq_getElem?_getD, List.getElem?_map]
    cases resids[i]? <;> simp
  rw [this]; ring

/-- C67. No residual after the 75th matters (any values). -/
theorem C67_first_75 (a b c : List XR) (h : 75 ≤ a.length) : backcast (a ++ b) = backcast (a ++ c) := by
  have h1 : ∀ d : List XR, min 75 (a ++ d).length = 75 := by
    intro d; simp; omega
  unfold backcast
  simp only [h1, List.take_append_of_le_length h]

/-! ### C68 -/

/-- C68. Closed form of the EWMA recursion, both implementations. -/
theorem C68_closed_form (cpp : Bool) (resids : List ℝ) (h : resids ≠ []) (v0 lam : ℝ) :
    ewma cpp (resids.map XR.fin) (.fin v0) (.fin lam)
      = .ok ((List.range resids.length).map fun t => .fin (lam ^ t * v0
          + (1 - lam) * ∑ s ∈ Finset.range t, lam ^ (t - 1 - s) * (resids.getD s 0) ^ 2)) := by
  rw [ewma_fin cpp h]
  congr 1
  apply List.map_congr_left
  intro t _
  unfold linearPath
  rw [Finset.mul_sum]
  congr 2
  apply Finset.sum_congr rfl
  intro i _; ring

/-- C68. With `0 ≤ lam ≤ 1` entry `t` stays within any bounds on the initial value and the preceding
squared residuals. -/
theorem C68_bounds (cpp : Bool) (resids : List ℝ) (h : resids ≠ []) (v0 lam : ℝ) (h0 : 0 ≤ lam)
    (h1 : lam ≤ 1) :
    ∃ out : List ℝ, ewma cpp (resids.map XR.fin) (.fin v0) (.fin lam) = .ok (out.map XR.fin) ∧
      out.length = resids.length ∧
      ∀ t x lo hi, out[t]? = some x → lo ≤ v0 → v0 ≤ hi →
        (∀ i < t, lo ≤ (resids.getD i 0) ^ 2 ∧ (resids.getD i 0) ^ 2 ≤ hi) → lo ≤ x ∧ x ≤ hi := by
  refine ⟨(List.range resids.length).map fun t =>
      linearPath lam v0 (fun i => (1 - lam) * (resids.getD i 0) ^ 2) t, ?_, by simp, ?_⟩
  · rw [ewma_fin cpp h, List.map_map]; rfl
  · intro t x lo hi hx hl hh hb
    rw [List.getElem?_map] at hx
    have ht : t < resids.length := by
      by_contra hc
      rw [List.getElem?_eq_none (by simpa using hc)] at hx
      simp at hx
    rw [List.getElem?_range ht] at hx
    simp only [Option.map_some, Option.some.injEq] at hx
    subst hx
    exact linearPath_bounds (x := fun i => (resids.getD i 0) ^ 2) h0 h1 ⟨hl, hh⟩ hb

/-- C68. Empty input raises `IndexError`. -/
theorem C68_empty (cpp : Bool) (v lam : XR) : ewma cpp [] v lam = .error .indexError := rfl

example : ∃ (resids : List ℝ) (lam : ℝ), resids.length = 3 ∧ 0 ≤ lam ∧ lam ≤ 1 :=
  ⟨[1, -2, 0], 94 / 100, rfl, by norm_num, by norm_num⟩

/-! ### C73 -/

/-- C73. `forecast_variance` returns one value less than the residuals, the un-bounded recursion from
`initial_variance`, for all values. -/
theorem C73_recursion (omega alpha gamma beta initial : XR) (resids : List XR) (h : resids ≠ []) :
    ∃ out : List XR, forecastVariance ⟨omega, alpha, gamma, beta⟩ resids initial = .ok out ∧
      out.length + 1 = resids.length ∧
      ∀ t r s, t + 1 < resids.length → resids[t]? = some r → (initial :: out)[t]? = some s →
        (initial :: out)[t + 1]? = some
          (omega + alpha * XR.sq r + beta * s + (if r < 0 then gamma * XR.sq r else 0)) := by
  unfold forecastVariance
  rw [if_neg h]
  refine ⟨_, rfl, ?_, ?_⟩
  · rw [varLoop_length]
    have := List.length_pos_iff.mpr h
    simp; omega
  · intro t r s ht hr hs
    have := varLoop_get (gjrNextPy ⟨omega, alpha, gamma, beta⟩) (fun s _ => s) initial
      (resids.dropLast.map fun r => (r, (0, 0))) t r (0, 0) s
      (by rw [List.getElem?_map, List.getElem?_dropLast, if_pos (by omega), hr]; rfl) hs
    exact this

/-- C73. Positive for admissible parameters. -/
theorem C73_positive (omega alpha gamma beta initial : ℝ) (resids : List ℝ) (h : resids ≠ [])
    (ho : 0 < omega) (ha : 0 ≤ alpha) (hg : 0 ≤ alpha + gamma) (hb : 0 ≤ beta) (hi : 0 ≤ initial) :
    ∃ out : List ℝ,
      forecastVariance ⟨.fin omega, .fin alpha, .fin gamma, .fin beta⟩ (resids.map XR.fin)
        (.fin initial) = .ok (out.map XR.fin) ∧ ∀ x ∈ out, omega ≤ x := by
  unfold forecastVariance
  rw [if_neg (by simpa using h)]
  have step : ∀ s r : ℝ, 0 ≤ s → gjrNextPy ⟨.fin omega, .fin alpha, .fin gamma, .fin beta⟩
      (.fin r) (.fin s) = .fin (gjrNews omega alpha gamma r + beta * s) ∧
      omega ≤ gjrNews omega alpha gamma r + beta * s := by
    intro s r hs
    refine ⟨by simpa using gjrNext_fin false omega alpha gamma beta r s, ?_⟩
    unfold gjrNews
    have h1 : 0 ≤ beta * s := by positivity
    have h2 : 0 ≤ alpha * r ^ 2 := by positivity
    have h3 : 0 ≤ (alpha + gamma) * r ^ 2 := by positivity
    split_ifs <;> nlinarith
  have hall : ∀ x ∈ varLoop (gjrNextPy ⟨.fin omega, .fin alpha, .fin gamma, .fin beta⟩)
      (fun s _ => s) (.fin initial) ((resids.map XR.fin).dropLast.map fun r => (r, (0, 0))),
      ∃ r, x = .fin r ∧ omega ≤ r := by
    have gen : ∀ (l : List ℝ) (s : ℝ), 0 ≤ s →
        ∀ x ∈ varLoop (gjrNextPy ⟨.fin omega, .fin alpha, .fin gamma, .fin beta⟩)
          (fun s _ => s) (.fin s) ((l.map XR.fin).map fun r => (r, (0, 0))),
          ∃ r, x = .fin r ∧ omega ≤ r := by
      intro l
      induction l with
      | nil => intro s _ x hx; simp [varLoop] at hx
      | cons a t ih =>
        intro s hs x hx
        obtain ⟨e1, e2⟩ := step s a hs
        simp only [List.map_cons, varLoop, List.mem_cons] at hx
        rw [e1] at hx
        rcases hx with rfl | hx
        · exact ⟨_, rfl, e2⟩
        · exact ih _ (ho.le.trans e2) x hx
    rw [← List.map_dropLast]
    exact gen _ _ hi
  obtain ⟨v, hv, hp⟩ := exists_fin_list hall
  exact ⟨v, by rw [hv], hp⟩

theorem gjrNextPy_zero (omega alpha beta r s : ℝ) :
    gjrNextPy ⟨.fin omega, .fin alpha, .fin 0, .fin beta⟩ (.fin r) (.fin s)
      = .fin (omega + alpha * r ^ 2 + beta * s) := by
  have := gjrNext_fin false omega alpha 0 beta r s
  simp only [Bool.false_eq_true, if_false] at this
  rw [this, gjrNews]; simp

/-- C73. With `gamma = 0` the forecasts are the GARCH recursion (finite data): starting at `path 0 = initial`, each is
`omega + alpha r² + beta s` of the previous day. -/
theorem C73_gamma_zero (omega alpha beta initial : ℝ) (resids : List ℝ) (h : resids ≠ []) (path : ℕ → ℝ)
    (h0 : path 0 = initial)
    (hp : ∀ t, path (t + 1) = omega + alpha * (resids.getD t 0) ^ 2 + beta * path t) :
    forecastVariance ⟨.fin omega, .fin alpha, .fin 0, .fin beta⟩ (resids.map XR.fin) (.fin initial)
      = .ok ((List.range (resids.length - 1)).map fun t => .fin (path (t + 1))) := by
  obtain ⟨out, ho, hl, hs⟩ := C73_recursion (.fin omega) (.fin alpha) (.fin 0) (.fin beta) (.fin initial) (resids.map XR.fin)
    (by simpa using h)
  rw [List.length_map] at hl
  have key : ∀ t < resids.length, (XR.fin initial :: out)[t]? = some (.fin (path t)) := by
    intro t ht
    induction t with
    | zero => simp [h0]
    | succ t ih =>
      have hr : (resids.map XR.fin)[t]? = some (.fin (resids.getD t 0)) := by
        rw [List.getElem?_map, List.getElem?_eq_getElem (by omega)]
        simp [List.getD, List.getElem?_eq_getElem (show t < resids.length by omega)]
      rw [hs t _ _ (by simpa using ht) hr (ih (by omega))]
      congr 1
      have := gjrNextPy_zero omega alpha beta (resids.getD t 0) (path t)
      rw [hp, ← this]; rfl
  rw [ho]
  congr 1
  refine List.ext_getElem? fun t => ?_
  by_cases ht : t < resids.length - 1
  · have := key (t + 1) (by omega)
    rw [List.getElem?_cons_succ] at this
    rw [this, List.getElem?_map, List.getElem?_range ht]; rfl
  · rw [List.getElem?_eq_none (by omega), List.getElem?_eq_none (by simp; omega)]

/-- C73. Empty input raises `IndexError`. -/
theorem C73_empty (p : GjrVar) (v : XR) : forecastVariance p [] v = .error .indexError := rfl

/-! ### Concrete cases of the theorems above -/

example := C61_normal_likelihood [(1, 2), (-3, 1), (0, 5)] (by simp)
/-- The paths below are those of three residuals, the middle one negative. -/
example (cpp : Bool) : ∃ out, garchVariance cpp ⟨1, 0, 0⟩ [1, -1, 2] 1 [(1, 2), (1, 2), (1, 2)] = .ok out ∧
    IsRecursion (fun r s b => boundsCheck cpp (1 + 0 * XR.sq r + 0 * s) b) (1 + (0 + 0) * 1) [1, -1, 2]
      [(1, 2), (1, 2), (1, 2)] out :=
  let ⟨out, h⟩ := ((C62_total cpp ⟨1, 0, 0⟩ ⟨1, 0, 0, 0⟩ 1 [1, -1, 2] [(1, 2), (1, 2), (1, 2)]).1 (by simp) (by simp)).1
  ⟨out, h, C62_garch_recursion cpp _ _ _ _ _ _ out h⟩
example (cpp : Bool) : ∃ out, gjrVariance cpp ⟨1, 0, 1, 0⟩ [1, -1, 2] 1 [(1, 2), (1, 2), (1, 2)] = .ok out ∧
    IsRecursion (fun r s b => boundsCheck cpp (1 + 0 * XR.sq r + 0 * s + (if r < 0 then 1 * XR.sq r else 0)) b)
      (1 + (0 + 1 / 2 + 0) * 1) [1, -1, 2] [(1, 2), (1, 2), (1, 2)] out :=
  let ⟨out, h⟩ := ((C62_total cpp ⟨1, 0, 0⟩ ⟨1, 0, 1, 0⟩ 1 [1, -1, 2] [(1, 2), (1, 2), (1, 2)]).1 (by simp) (by simp)).2
  ⟨out, h, C62_gjr_recursion cpp _ _ _ _ _ _ _ out h⟩
/-- Two residuals: the variances are `4` and, after the negative residual, `1 + 4 / 4 + 4 / 2 = 4`. -/
example (cpp : Bool) : garchVariance cpp ⟨.fin 1, .fin (1 / 4), .fin (1 / 2)⟩ ([2, -2].map XR.fin) (.fin 4)
    ([((1 : ℝ), (10 : ℝ)), (1, 10)].map fun p => (.fin p.1, .fin p.2)) = .ok [.fin 4, .fin 4] := by
  have h := (C62_closed_form cpp 1 (1 / 4) 0 (1 / 2) 4 [2, -2] [(1, 10), (1, 10)] (by simp) (by simp) (by simp) _
    (fun t => rfl) (by
      intro t b ht hb
      obtain rfl : t = 0 := by simp at ht; exact ht
      simp at hb
      subst hb
      norm_num)).2 rfl
  rw [h]
  simp [List.range_succ]
  norm_num
example (cpp : Bool) := C63_positive_bounded cpp 1 (1 / 10) (-1 / 20) (4 / 5) 2 [1, -2, 3] [(1, 1), (1, 2), (1 / 2, 3)]
  (by simp) (by simp) (by simp; norm_num) (by norm_num) (by norm_num) (by norm_num) (by norm_num) (by norm_num)
example (cpp : Bool) := C64_bounds_check cpp 1 2 (by norm_num) (by norm_num)
example (cpp : Bool) := C64_inf_not_largest cpp 1 2 (by norm_num) (by norm_num)
example (cpp : Bool) := (C64_shrinks cpp).1 1 2 3 (by norm_num) (by norm_num) (by norm_num) (by norm_num)
example := C65_finite 1 (1 / 10) (1 / 10) (4 / 5) 2 [1, -2, 3] [(1, 1), (1, 2), (1 / 2, 3)]
  (by simp) (by simp) (by simp; norm_num) (by norm_num)
/-- The C++ path of three finite residuals has no NaN, so the Python path is the same. -/
example : ∃ out, garchVariance true ⟨.fin 1, .fin (1 / 10), .fin (4 / 5)⟩ ([1, -2, 3].map XR.fin) (.fin 2)
      ([((1 : ℝ), (1 : ℝ)), (1, 2), (1 / 2, 3)].map fun p => (.fin p.1, .fin p.2)) = .ok out ∧
    garchVariance false ⟨.fin 1, .fin (1 / 10), .fin (4 / 5)⟩ ([1, -2, 3].map XR.fin) (.fin 2)
      ([((1 : ℝ), (1 : ℝ)), (1, 2), (1 / 2, 3)].map fun p => (.fin p.1, .fin p.2)) = .ok out := by
  obtain ⟨v, _, h, _⟩ := C63_positive_bounded true 1 (1 / 10) 0 (4 / 5) 2 [1, -2, 3] [(1, 1), (1, 2), (1 / 2, 3)]
    (by simp) (by simp) (by simp; norm_num) (by norm_num) (by norm_num) (by norm_num) (by norm_num) (by norm_num)
  refine ⟨_, h rfl, (C65_paths _ ⟨0, 0, 0, 0⟩ _ _ _ (by simp) (v.map XR.fin) (fun x hx => ?_)).1 (h rfl)⟩
  obtain ⟨y, _, rfl⟩ := List.mem_map.1 (List.mem_of_mem_tail hx)
  simp
example (cpp : Bool) := C66_variance_bounds cpp [2, -1, -1] (by simp)
example := (C67_backcast [2, -1, -1]).2 (by simp)
example := C67_first_75 (List.replicate 75 1) [1, 2] [] (by simp)
/-- Exponential smoothing of three residuals with weight one half. -/
example (cpp : Bool) : ewma cpp ([2, 4, 0].map XR.fin) (.fin 2) (.fin (1 / 2)) = .ok [.fin 2, .fin 3, .fin (19 / 2)] := by
  rw [C68_closed_form cpp [2, 4, 0] (by simp)]
  simp [List.range_succ, Finset.sum_range_succ]
  norm_num
example (cpp : Bool) := C68_bounds cpp [1, -2, 0] (by simp) 1 (94 / 100) (by norm_num) (by norm_num)
example := C73_recursion 1 1 1 1 1 [1, -2, .nan] (by simp)
example := C73_positive 1 (1 / 10) (-1 / 20) (4 / 5) 2 [1, -2, 3] (by simp) (by norm_num) (by norm_num) (by norm_num)
  (by norm_num) (by norm_num)
example := C73_gamma_zero 1 (1 / 4) (1 / 2) 4 [2, -2] (by simp)
  (fun t => Nat.rec 4 (fun t s => 1 + 1 / 4 * (([2, -2] : List ℝ).getD t 0) ^ 2 + 1 / 2 * s) t) rfl (fun t => rfl)

end
end Frds.Props

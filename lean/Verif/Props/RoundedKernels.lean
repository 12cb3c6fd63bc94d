import Verif.Props.RoundedRisk
import Verif.Props.Garch

/-! C193: the Python and C++ GARCH kernels in floating point. -/
namespace Frds.Props
noncomputable section
open Frds Frds.Model Classical Rounding
open Frds.Props.Rounded
set_option linter.unusedSimpArgs false

namespace RoundedKernels

theorem chk_nan (M : Machine) (b : XR × XR) : Model.Rounded.boundsCheck M true .nan b = .nan := by
  simp [Model.Rounded.boundsCheck, Model.Rounded.boundsCheckCpp]

theorem py_nan (M : Machine) {b : XR × XR} (h : b.1 ≤ b.2) : Model.Rounded.boundsCheck M false .nan b = b.1 := by
  have : ¬ b.2 < b.1 := by
    obtain ⟨lo, hi⟩ := b
    cases lo <;> cases hi <;> first
      | exact fun h' => h'.elim
      | exact absurd h id
      | exact fun h' => absurd (XR.fin_lt.mp h') (not_lt.mpr (XR.fin_le.mp h))
  simp [Model.Rounded.boundsCheck, Model.Rounded.boundsCheckPy, XR.pyMax, this]

theorem chk_eq (M : Machine) {s : XR} {b : XR × XR} (h1 : s ≠ .nan) (h2 : b.1 ≠ .nan) :
    Model.Rounded.boundsCheck M true s b = Model.Rounded.boundsCheck M false s b := by
  have h : (if s < b.1 then b.1 else s) = XR.pyMax b.1 s := by
    obtain ⟨lo, hi⟩ := b
    unfold XR.pyMax
    cases s <;> cases lo <;> first
      | exact absurd rfl h1
      | exact absurd rfl h2
      | rfl
      | (simp; done)
      | skip
    rename_i a c
    simp only [XR.fin_lt]
    rcases lt_trichotomy a c with h | h | h
    · rw [if_pos h, if_neg (not_lt.mpr h.le)]
    · subst h; simp
    · rw [if_neg (not_lt.mpr h.le), if_pos h]
  simp only [Model.Rounded.boundsCheck, Bool.false_eq_true, if_true, if_false, Model.Rounded.boundsCheckCpp,
    Model.Rounded.boundsCheckPy, h]

theorem loop_eq (M : Machine) (next : XR → XR → XR) (l : List (XR × (XR × XR))) :
    ∀ s : XR, (∀ p ∈ l, p.2.1 ≠ .nan) → (∀ x ∈ varLoop next (Model.Rounded.boundsCheck M true) s l, x ≠ .nan) →
      varLoop next (Model.Rounded.boundsCheck M true) s l = varLoop next (Model.Rounded.boundsCheck M false) s l := by
  induction l with
  | nil => intro s _ _; rfl
  | cons p t ih =>
    intro s hb hout
    obtain ⟨r, b⟩ := p
    have hx : Model.Rounded.boundsCheck M true (next r s) b ≠ .nan := hout _ (by simp [varLoop])
    have hn : next r s ≠ .nan := fun e => hx (by rw [e, chk_nan])
    have he := chk_eq M hn (hb (r, b) (by simp))
    simp only [varLoop] at hout ⊢
    rw [← he, ih _ (fun p hp => hb p (by simp [hp])) fun x hx' => hout x (by simp [hx'])]

/-- from a NaN on, the loop of the extension returns NaN only -/
theorem loop_nan (M : Machine) (next : XR → XR → XR) (hn : ∀ r, next r .nan = .nan) (l : List (XR × (XR × XR))) :
    ∀ x ∈ varLoop next (Model.Rounded.boundsCheck M true) .nan l, x = .nan := by
  induction l with
  | nil => simp [varLoop]
  | cons p t ih =>
    intro x hx
    simp only [varLoop, hn, chk_nan, List.mem_cons] at hx
    rcases hx with rfl | hx
    · rfl
    · exact ih x hx

/-- the value of the loop at an index, from the state before it -/
theorem loop_at (next : XR → XR → XR) (chk : XR → XR × XR → XR) (l : List (XR × (XR × XR))) :
    ∀ (s : XR) (i : ℕ) (hi : i < (varLoop next chk s l).length) (hi' : i < l.length),
      (varLoop next chk s l)[i] = chk (next l[i].1 ((s :: varLoop next chk s l)[i]'(by simp; omega))) l[i].2 := by
  induction l with
  | nil => intro s i _ hi'; simp at hi'
  | cons p t ih =>
    intro s i hi hi'
    cases i with
    | zero => rfl
    | succ j =>
      have := ih (chk (next p.1 s) p.2) j (by simpa [varLoop] using hi) (by simpa using hi')
      simpa [varLoop] using this

/-- a path of the loop: value `t + 1` is the checked step from value `t` -/
theorem path_at {next : XR → XR → XR} {chk : XR → XR × XR → XR} {s0 : XR} {resids : List XR} {bounds : List (XR × XR)}
    {out : List XR} (h : variancePath next chk s0 resids bounds = .ok out) :
    out.length = resids.length ∧ ∀ t (ht : t + 1 < out.length), ∃ (hr : t < resids.length) (hb : t + 1 < bounds.length),
      out[t + 1] = chk (next resids[t] out[t]) bounds[t + 1] := by
  unfold variancePath at h
  split_ifs at h with h1 h2
  injection h with h
  have hpos : 0 < resids.length := List.length_pos_iff.mpr h1
  rw [not_and_or, not_le, not_lt] at h2
  have hl : (List.zip resids.dropLast bounds.tail).length = resids.length - 1 := by
    rw [List.length_zip, List.length_dropLast, List.length_tail]; omega
  have hlen : out.length = resids.length := by
    subst h
    rw [List.length_cons, varLoop_length, hl]; omega
  refine ⟨hlen, fun t ht => ⟨by omega, by omega, ?_⟩⟩
  subst h
  have hz : t < (List.zip resids.dropLast bounds.tail).length := by rw [hl]; omega
  have := loop_at next chk _ s0 t (by rw [varLoop_length]; exact hz) hz
  simp only [List.getElem_cons_succ]
  rw [this]
  simp [List.getElem_zip, List.getElem_tail, List.getElem_dropLast]

end RoundedKernels
open RoundedKernels

/-- C193: `bounds_check` of both implementations is the same float unless the variance or its lower bound is NaN. On a
NaN variance Python returns the lower bound and the extension NaN. -/
theorem C193_bounds_check (M : Machine) (s lo hi : XR) :
    (s ≠ .nan → lo ≠ .nan → Model.Rounded.boundsCheckCpp M s (lo, hi) = Model.Rounded.boundsCheckPy M s (lo, hi)) ∧
    (lo ≤ hi → Model.Rounded.boundsCheckPy M .nan (lo, hi) = lo) ∧ Model.Rounded.boundsCheckCpp M .nan (lo, hi) = .nan :=
  ⟨fun h1 h2 => by simpa [Model.Rounded.boundsCheck] using chk_eq M (b := (lo, hi)) h1 h2,
    fun h => by simpa [Model.Rounded.boundsCheck] using py_nan M (b := (lo, hi)) h,
    by simpa [Model.Rounded.boundsCheck] using chk_nan M (lo, hi)⟩

/-- C193: if the path the extension computes has no NaN after its first entry, Python computes the same floats. -/
theorem C193_paths (M : Machine) (p : GarchVar) (q : GjrVar) (resids : List XR) (backcast : XR)
    (bounds : List (XR × XR)) (hb : ∀ b ∈ bounds, b.1 ≠ .nan) (out : List XR) (hout : ∀ x ∈ out.tail, x ≠ .nan) :
    (Model.Rounded.garchVariance M true p resids backcast bounds = .ok out →
      Model.Rounded.garchVariance M false p resids backcast bounds = .ok out) ∧
    (Model.Rounded.gjrVariance M true q resids backcast bounds = .ok out →
      Model.Rounded.gjrVariance M false q resids backcast bounds = .ok out) := by
  have key : ∀ (next : XR → XR → XR) (s0 : XR),
      variancePath next (Model.Rounded.boundsCheck M true) s0 resids bounds = .ok out →
      variancePath next (Model.Rounded.boundsCheck M false) s0 resids bounds = .ok out := by
    intro next s0 h
    unfold variancePath at h ⊢
    by_cases h1 : resids = []
    · rw [if_pos h1] at h; cases h
    rw [if_neg h1] at h ⊢
    by_cases h2 : 2 ≤ resids.length ∧ bounds.length < resids.length
    · rw [if_pos h2] at h; cases h
    rw [if_neg h2] at h ⊢
    injection h with h
    subst h
    rw [loop_eq]
    · intro p hp
      exact hb _ (List.mem_of_mem_tail (List.of_mem_zip (a := p.1) (b := p.2) hp).2)
    · exact hout
  refine ⟨key _ _, fun h => ?_⟩
  rw [gjrVariance_eq] at h ⊢
  exact key _ _ h

/-- C193: with positive coefficients, finite residuals and ordered bounds no NaN arises, and both implementations
return the same floats (overflow to infinity included). -/
theorem C193_finite (M : Machine) (hlog : ∀ x, 1 ≤ x → 0 ≤ M.log x) (omega alpha gamma beta : ℝ) (ho : 0 ≤ omega)
    (ha : 0 < alpha) (hg : 0 < gamma) (hbe : 0 < beta) (resids : List ℝ) (hne : resids ≠ []) (backcast : ℝ)
    (hbc : 0 < backcast) (bounds : List (XR × XR)) (hlen : resids.length ≤ bounds.length)
    (hb : ∀ b ∈ bounds, 0 ≤ b.1 ∧ b.1 ≤ b.2 ∧ M.R.Rep b.2) :
    (∃ out, (∀ x ∈ out.tail, x ≠ XR.nan) ∧ ∀ cpp, Model.Rounded.garchVariance M cpp ⟨.fin omega, .fin alpha, .fin beta⟩
      (resids.map .fin) (.fin backcast) bounds = .ok out) ∧
    (∃ out, (∀ x ∈ out.tail, x ≠ XR.nan) ∧ ∀ cpp, Model.Rounded.gjrVariance M cpp
      ⟨.fin omega, .fin alpha, .fin gamma, .fin beta⟩ (resids.map .fin) (.fin backcast) bounds = .ok out) := by
  have total : ∀ (next : XR → XR → XR) (s0 : XR), ∃ out,
      variancePath next (Model.Rounded.boundsCheck M true) s0 (resids.map .fin) bounds = .ok out := by
    intro next s0
    unfold variancePath
    rw [if_neg (by simpa using hne), if_neg (by simp; intro _; omega)]
    exact ⟨_, rfl⟩
  have clean : ∀ out : List XR, out.length = resids.length →
      (∀ t (ht : t + 1 < out.length) (hb : t + 1 < bounds.length), (bounds[t + 1]).1 ≤ out[t + 1]) →
      ∀ x ∈ out.tail, x ≠ XR.nan := by
    intro out hl h x hx
    obtain ⟨i, hi, rfl⟩ := List.mem_iff_getElem.mp hx
    rw [List.length_tail] at hi
    rw [List.getElem_tail]
    exact (XR.ne_nan_of_le (h i (by omega) (by omega))).2
  have nn : ∀ b ∈ bounds, b.1 ≠ XR.nan := fun b hb' => (XR.ne_nan_of_le (hb b hb').1).2
  constructor
  · obtain ⟨out, h⟩ := total (Model.Rounded.garchNext M ⟨.fin omega, .fin alpha, .fin beta⟩)
      (M.R.add (.fin omega) (M.R.mul (M.R.add (.fin alpha) (.fin beta)) (.fin backcast)))
    have h' : Model.Rounded.garchVariance M true ⟨.fin omega, .fin alpha, .fin beta⟩ (resids.map .fin) (.fin backcast)
      bounds = .ok out := h
    obtain ⟨c1, c2⟩ := C152_cpp M hlog omega alpha gamma beta ho ha hg hbe resids backcast hbc bounds hb out (Or.inl h')
    have hc := clean out c1 c2
    refine ⟨out, hc, fun cpp => ?_⟩
    cases cpp
    · exact (C193_paths M _ ⟨0, 0, 0, 0⟩ _ _ _ nn out hc).1 h'
    · exact h'
  · obtain ⟨out, h⟩ := total (Model.Rounded.gjrNext M ⟨.fin omega, .fin alpha, .fin gamma, .fin beta⟩)
      (M.R.add (.fin omega) (M.R.mul (M.R.add (M.R.add (.fin alpha) (M.R.div (.fin gamma) 2)) (.fin beta)) (.fin backcast)))
    have h' : Model.Rounded.gjrVariance M true ⟨.fin omega, .fin alpha, .fin gamma, .fin beta⟩ (resids.map .fin)
      (.fin backcast) bounds = .ok out := by rw [gjrVariance_eq]; exact h
    obtain ⟨c1, c2⟩ := C152_cpp M hlog omega alpha gamma beta ho ha hg hbe resids backcast hbc bounds hb out (Or.inr h')
    have hc := clean out c1 c2
    refine ⟨out, hc, fun cpp => ?_⟩
    cases cpp
    · exact (C193_paths M ⟨0, 0, 0⟩ _ _ _ _ nn out hc).2 h'
    · exact h'

/-- binary64: both implementations of a GJR path return the same floats -/
example : ∃ out, (∀ x ∈ out.tail, x ≠ XR.nan) ∧ ∀ cpp, Model.Rounded.gjrVariance Machine.ieee cpp
    ⟨.fin 1, .fin 1, .fin 1, .fin 1⟩ [.fin 1, .fin (-3), .fin 2] (.fin 1) [(0, .fin 7), (0, .fin 7), (0, .fin 7)] = .ok out := by
  have h7 : Machine.ieee.R.Rep (.fin 7) := by simpa using rep_nat (R := Machine.ieee.R) (n := 7) (by decide)
  refine (C193_finite Machine.ieee ieee_log 1 1 1 1 zero_le_one one_pos one_pos one_pos [1, -3, 2] (by simp) 1 one_pos
    [(0, .fin 7), (0, .fin 7), (0, .fin 7)] (by simp) ?_).2
  intro b hb
  simp only [List.mem_cons, List.not_mem_nil, or_false, or_self] at hb
  subst hb
  exact ⟨XR.fin_le.mpr le_rfl, XR.fin_le.mpr (by norm_num), h7⟩

/-- C193: a NaN residual. The extension's variances are NaN from the next period to the end; Python returns the lower
bound in the next period, and every later value is at least its lower bound (`C152_python`). -/
theorem C193_nan_residual (M : Machine) (p : GarchVar) (q : GjrVar) (resids : List XR) (backcast : XR)
    (bounds : List (XR × XR)) (t : ℕ) (ht : t < resids.length) (hn : resids[t] = .nan) (out : List XR) :
    ((Model.Rounded.garchVariance M true p resids backcast bounds = .ok out ∨
        Model.Rounded.gjrVariance M true q resids backcast bounds = .ok out) →
      ∀ i (hi : i < out.length), t < i → out[i] = .nan) ∧
    ((Model.Rounded.garchVariance M false p resids backcast bounds = .ok out ∨
        Model.Rounded.gjrVariance M false q resids backcast bounds = .ok out) →
      ∀ (h1 : t + 1 < out.length) (h2 : t + 1 < bounds.length), (bounds[t + 1]).1 ≤ (bounds[t + 1]).2 →
        out[t + 1] = (bounds[t + 1]).1) := by
  have addr : ∀ x : XR, M.R.add x .nan = .nan := fun x => by cases x <;> rfl
  have addl : ∀ x : XR, M.R.add .nan x = .nan := fun x => by cases x <;> rfl
  have mulr : ∀ x : XR, M.R.mul x .nan = .nan := fun x => by cases x <;> rfl
  have gn1 : ∀ s : XR, Model.Rounded.garchNext M p .nan s = .nan := fun s => by
    simp only [Model.Rounded.garchNext, mulr, addr, addl]
  have gn2 : ∀ r : XR, Model.Rounded.garchNext M p r .nan = .nan := fun r => by
    simp only [Model.Rounded.garchNext, mulr, addr, addl]
  have jn1 : ∀ s : XR, Model.Rounded.gjrNext M q .nan s = .nan := fun s => by
    simp only [Model.Rounded.gjrNext, mulr, addr, addl]
  have jn2 : ∀ r : XR, Model.Rounded.gjrNext M q r .nan = .nan := fun r => by
    simp only [Model.Rounded.gjrNext, mulr, addr, addl]
  have keyC : ∀ (next : XR → XR → XR) (s0 : XR), (∀ s, next .nan s = .nan) → (∀ r, next r .nan = .nan) →
      variancePath next (Model.Rounded.boundsCheck M true) s0 resids bounds = .ok out →
      ∀ i (hi : i < out.length), t < i → out[i] = .nan := by
    intro next s0 n1 n2 h i
    obtain ⟨_, hs⟩ := path_at h
    induction i with
    | zero => intro _ h0; omega
    | succ j ih =>
      intro hi hj
      obtain ⟨_, _, e⟩ := hs j hi
      rw [e]
      rcases Nat.lt_or_ge t j with hlt | hge
      · rw [ih (by omega) hlt, n2, chk_nan]
      · have : j = t := by omega
        subst this
        rw [hn, n1, chk_nan]
  have keyP : ∀ (next : XR → XR → XR) (s0 : XR), (∀ s, next .nan s = .nan) →
      variancePath next (Model.Rounded.boundsCheck M false) s0 resids bounds = .ok out →
      ∀ (h1 : t + 1 < out.length) (h2 : t + 1 < bounds.length), (bounds[t + 1]).1 ≤ (bounds[t + 1]).2 →
        out[t + 1] = (bounds[t + 1]).1 := by
    intro next s0 n1 h h1 h2 hb
    obtain ⟨_, hs⟩ := path_at h
    obtain ⟨_, _, e⟩ := hs t h1
    rw [e, hn, n1, py_nan M hb]
  constructor
  · rintro (h | h)
    · exact keyC _ _ gn1 gn2 h
    · rw [gjrVariance_eq] at h; exact keyC _ _ jn1 jn2 h
  · rintro (h | h)
    · exact keyP _ _ gn1 h
    · rw [gjrVariance_eq] at h; exact keyP _ _ jn1 h

/-- one NaN residual: the extension returns NaN to the end, Python the lower bound -/
example (M : Machine) : ∃ outC outP : List XR,
    Model.Rounded.garchVariance M true ⟨.fin 1, .fin 1, .fin 1⟩ [.fin 1, .nan, .fin 2, .fin 3] (.fin 1)
      [(.fin 5, .fin 7), (.fin 5, .fin 7), (.fin 5, .fin 7), (.fin 5, .fin 7)] = .ok outC ∧
    Model.Rounded.garchVariance M false ⟨.fin 1, .fin 1, .fin 1⟩ [.fin 1, .nan, .fin 2, .fin 3] (.fin 1)
      [(.fin 5, .fin 7), (.fin 5, .fin 7), (.fin 5, .fin 7), (.fin 5, .fin 7)] = .ok outP ∧
    outC[2]? = some .nan ∧ outC[3]? = some .nan ∧ outP[2]? = some (.fin 5) := by
  have h := C193_nan_residual M ⟨.fin 1, .fin 1, .fin 1⟩ ⟨0, 0, 0, 0⟩ [.fin 1, .nan, .fin 2, .fin 3] (.fin 1)
    [(.fin 5, .fin 7), (.fin 5, .fin 7), (.fin 5, .fin 7), (.fin 5, .fin 7)] 1 (by simp) rfl
  obtain ⟨outC, hC⟩ : ∃ outC, Model.Rounded.garchVariance M true ⟨.fin 1, .fin 1, .fin 1⟩ [.fin 1, .nan, .fin 2, .fin 3]
      (.fin 1) [(.fin 5, .fin 7), (.fin 5, .fin 7), (.fin 5, .fin 7), (.fin 5, .fin 7)] = .ok outC := ⟨_, rfl⟩
  obtain ⟨outP, hP⟩ : ∃ outP, Model.Rounded.garchVariance M false ⟨.fin 1, .fin 1, .fin 1⟩ [.fin 1, .nan, .fin 2, .fin 3]
      (.fin 1) [(.fin 5, .fin 7), (.fin 5, .fin 7), (.fin 5, .fin 7), (.fin 5, .fin 7)] = .ok outP := ⟨_, rfl⟩
  have lC : outC.length = 4 := (path_at hC).1
  have lP : outP.length = 4 := (path_at hP).1
  have a := (h outC).1 (Or.inl hC)
  have b := (h outP).2 (Or.inl hP)
  refine ⟨outC, outP, hC, hP, ?_, ?_, ?_⟩
  · rw [List.getElem?_eq_getElem (by omega), a 2 (by omega) (by omega)]
  · rw [List.getElem?_eq_getElem (by omega), a 3 (by omega) (by omega)]
  · rw [List.getElem?_eq_getElem (by omega), b (by omega) (by simp) (XR.fin_le.mpr (by norm_num))]
    rfl

end
end Frds.Props

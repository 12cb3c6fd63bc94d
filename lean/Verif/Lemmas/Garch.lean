import Verif.Model.Garch
import Verif.Spec.Garch
import Verif.Lemmas.Spread
import Verif.Props.KyleLambda

set_option linter.unusedSimpArgs false

namespace Frds
noncomputable section
open Frds.Model Frds.Spec Classical

/-! ### log-likelihood -/

theorem log_normalPdf {v : ℝ} (hv : 0 < v) (x : ℝ) :
    Real.log (normalPdf v x) = -(1 / 2) * (Real.log (2 * Real.pi) + Real.log v + x ^ 2 / v) := by
  have h2 : 0 < 2 * Real.pi * v := by positivity
  rw [normalPdf, ProbabilityTheory.gaussianPDFReal, Real.coe_toNNReal _ hv.le,
    Real.log_mul (by positivity) (by positivity), Real.log_inv, Real.log_sqrt h2.le, Real.log_exp,
    Real.log_mul (by positivity) hv.ne']
  simp only [sub_zero]
  field_simp
  ring

theorem normalPdf_pos {v : ℝ} (hv : 0 < v) (x : ℝ) : 0 < normalPdf v x := by
  have : 0 < Real.toNNReal v := Real.toNNReal_pos.mpr hv
  exact ProbabilityTheory.gaussianPDFReal_pos _ _ _ this.ne'

theorem loglik_fin (l : List (ℝ × ℝ)) (h : ∀ d ∈ l, 0 < d.2) :
    loglik (l.map fun d => .fin d.1) (l.map fun d => .fin d.2)
      = .fin (l.map fun d => Real.log (normalPdf d.2 d.1)).sum := by
  unfold loglik
  induction l with
  | nil => rfl
  | cons d t ih =>
    have hd := h d (by simp)
    simp only [List.map_cons, List.zipWith_cons_cons, List.sum_cons]
    rw [ih fun x hx => h x (by simp [hx]), XR.fin_log (by positivity), XR.fin_log hd, XR.fin_sq,
      XR.fin_div _ hd.ne', log_normalPdf hd]
    simp

theorem log_prod_pdf (l : List (ℝ × ℝ)) (h : ∀ d ∈ l, 0 < d.2) :
    (l.map fun d => Real.log (normalPdf d.2 d.1)).sum
      = Real.log (l.map fun d => normalPdf d.2 d.1).prod := by
  induction l with
  | nil => simp
  | cons d t ih =>
    have hd := normalPdf_pos (h d (by simp)) d.1
    have ht : 0 < (t.map fun d => normalPdf d.2 d.1).prod := by
      apply List.prod_pos
      intro x hx
      obtain ⟨e, he, rfl⟩ := List.mem_map.mp hx
      exact normalPdf_pos (h e (by simp [he])) _
    simp only [List.map_cons, List.sum_cons, List.prod_cons]
    rw [ih fun x hx => h x (by simp [hx]), Real.log_mul hd.ne' ht.ne']

/-! ### the variance loop -/

theorem varLoop_length (next : XR → XR → XR) (chk : XR → XR × XR → XR) (s : XR)
    (l : List (XR × (XR × XR))) : (varLoop next chk s l).length = l.length := by
  induction l generalizing s with
  | nil => rfl
  | cons p t ih => obtain ⟨r, b⟩ := p; simp [varLoop, ih]

theorem varLoop_get (next : XR → XR → XR) (chk : XR → XR × XR → XR) (s : XR)
    (l : List (XR × (XR × XR))) (t : ℕ) (r : XR) (b : XR × XR) (s' : XR)
    (hl : l[t]? = some (r, b)) (hs : (s :: varLoop next chk s l)[t]? = some s') :
    (s :: varLoop next chk s l)[t + 1]? = some (chk (next r s') b) := by
  induction l generalizing s t with
  | nil => simp at hl
  | cons p u ih =>
    obtain ⟨r0, b0⟩ := p
    cases t with
    | zero =>
      simp at hl hs
      obtain ⟨rfl, rfl⟩ := hl
      subst hs
      simp [varLoop]
    | succ t =>
      have := ih (chk (next r0 s) b0) t (by simpa using hl) (by simpa [varLoop] using hs)
      simpa [varLoop] using this

theorem varLoop_forall {next : XR → XR → XR} {chk : XR → XR × XR → XR} (P : XR → Prop) {s : XR}
    {l : List (XR × (XR × XR))} (hs : P s)
    (hstep : ∀ s r b, P s → (r, b) ∈ l → P (chk (next r s) b)) :
    ∀ x ∈ varLoop next chk s l, P x := by
  induction l generalizing s with
  | nil => simp [varLoop]
  | cons p u ih =>
    obtain ⟨r, b⟩ := p
    have h1 : P (chk (next r s) b) := hstep s r b hs (by simp)
    intro x hx
    simp only [varLoop, List.mem_cons] at hx
    rcases hx with rfl | hx
    · exact h1
    · exact ih h1 (fun s' r' b' h' hm => hstep s' r' b' h' (by simp [hm])) x hx

theorem zip_shift {α β : Type} (l : List α) (m : List β) (t : ℕ) (r : α) (b : β)
    (ht : t + 1 < l.length) (hr : l[t]? = some r) (hb : m[t + 1]? = some b) :
    (List.zip l.dropLast m.tail)[t]? = some (r, b) := by
  rw [List.getElem?_zip_eq_some]
  constructor
  · rw [List.getElem?_dropLast, if_pos (by omega)]; exact hr
  · rw [List.getElem?_tail]; exact hb

theorem zip_shift_length {α β : Type} (l : List α) (m : List β) (h : l.length ≤ m.length) :
    (List.zip l.dropLast m.tail).length = l.length - 1 := by
  simp; omega

theorem variancePath_ok {next : XR → XR → XR} {chk : XR → XR × XR → XR} {s0 : XR}
    {resids : List XR} {bounds : List (XR × XR)} (h : resids ≠ [])
    (hb : 2 ≤ resids.length → resids.length ≤ bounds.length) :
    variancePath next chk s0 resids bounds
      = .ok (s0 :: varLoop next chk s0 (List.zip resids.dropLast bounds.tail)) := by
  unfold variancePath
  rw [if_neg h, if_neg]
  rintro ⟨h1, h2⟩
  exact absurd (hb h1) (by omega)

theorem variancePath_recursion {next : XR → XR → XR} {chk : XR → XR × XR → XR} {s0 : XR}
    {resids : List XR} {bounds : List (XR × XR)} {out : List XR}
    (h : variancePath next chk s0 resids bounds = .ok out) :
    IsRecursion (fun r s b => chk (next r s) b) s0 resids bounds out := by
  unfold variancePath at h
  by_cases h1 : resids = []
  · rw [if_pos h1] at h; cases h
  rw [if_neg h1] at h
  by_cases h2 : 2 ≤ resids.length ∧ bounds.length < resids.length
  · rw [if_pos h2] at h; cases h
  rw [if_neg h2] at h
  injection h with h
  subst h
  have hpos := List.length_pos_iff.mpr h1
  refine ⟨?_, rfl, ?_⟩
  · rw [List.length_cons, varLoop_length]
    simp only [List.length_zip, List.length_dropLast, List.length_tail]
    by_cases h3 : 2 ≤ resids.length
    · have : ¬ bounds.length < resids.length := fun h4 => h2 ⟨h3, h4⟩
      omega
    · omega
  · intro t r s b ht hr hs hb
    exact varLoop_get next chk s0 _ t r b s (zip_shift resids bounds t r b ht hr hb) hs

/-- a recursion determines the output -/
theorem IsRecursion.unique {α β γ : Type} {step : α → γ → β → γ} {first : γ} {resids : List α}
    {bounds : List β} {o1 o2 : List γ} (hb : resids.length ≤ bounds.length)
    (h1 : IsRecursion step first resids bounds o1) (h2 : IsRecursion step first resids bounds o2) :
    o1 = o2 := by
  have key : ∀ t, t < resids.length → o1[t]? = o2[t]? := by
    intro t
    induction t with
    | zero => intro _; rw [h1.2.1, h2.2.1]
    | succ t ih =>
      intro ht
      have e := ih (by omega)
      have hr : resids[t]? = some (resids[t]'(by omega)) := List.getElem?_eq_getElem _
      have hbb : bounds[t + 1]? = some (bounds[t + 1]'(by omega)) := List.getElem?_eq_getElem _
      have hs : o1[t]? = some (o1[t]'(by rw [h1.1]; omega)) := List.getElem?_eq_getElem _
      rw [h1.2.2 t _ _ _ ht hr hs hbb, h2.2.2 t _ _ _ ht hr (e ▸ hs) hbb]
  apply List.ext_getElem?
  intro t
  by_cases ht : t < resids.length
  · exact key t ht
  · rw [List.getElem?_eq_none (by rw [h1.1]; omega), List.getElem?_eq_none (by rw [h2.1]; omega)]

theorem linearPath_zero (beta s0 : ℝ) (news : ℕ → ℝ) : linearPath beta s0 news 0 = s0 := by
  simp [linearPath]

theorem linearPath_succ (beta s0 : ℝ) (news : ℕ → ℝ) (t : ℕ) :
    linearPath beta s0 news (t + 1) = news t + beta * linearPath beta s0 news t := by
  unfold linearPath
  rw [Finset.sum_range_succ, mul_add, Finset.mul_sum]
  have : ∀ i ∈ Finset.range t, beta ^ (t + 1 - 1 - i) * news i
      = beta * (beta ^ (t - 1 - i) * news i) := by
    intro i hi
    have := Finset.mem_range.mp hi
    rw [show t + 1 - 1 - i = (t - 1 - i) + 1 by omega, pow_succ]; ring
  rw [Finset.sum_congr rfl this]
  simp
  ring

/-! ### bounds check -/

theorem boundsCheckPy_fin {lo hi : ℝ} (h : 0 < lo) (hl : lo ≤ hi) (x : ℝ) :
    boundsCheckPy (.fin x) (.fin lo, .fin hi) = .fin (clampLog lo hi x) := by
  have hhi : 0 < hi := lt_of_lt_of_le h hl
  unfold boundsCheckPy clampLog
  simp only [XR.pyMax_fin, XR.fin_lt]
  by_cases h1 : x < lo
  · rw [if_pos h1, max_eq_left h1.le, if_neg (not_lt.mpr hl)]
  · push Not at h1
    rw [if_neg (not_lt.mpr h1), max_eq_right h1]
    by_cases h2 : x ≤ hi
    · rw [if_pos h2, if_neg (not_lt.mpr h2)]
    · push Not at h2
      rw [if_neg (not_le.mpr h2), if_pos h2, if_pos (by simp), XR.fin_div _ hhi.ne',
        XR.fin_log (by have := hhi.trans h2; positivity), XR.fin_add]

theorem boundsCheck_eq {s : XR} {b : XR × XR} (hs : s ≠ .nan) (hb : b.1 ≠ .nan) :
    boundsCheckCpp s b = boundsCheckPy s b := by
  have : (if s < b.1 then b.1 else s) = XR.pyMax b.1 s := by
    unfold XR.pyMax
    obtain ⟨b1, b2⟩ := b
    cases s <;> cases b1 <;> simp at hs hb ⊢
    rename_i x y
    rcases lt_trichotomy x y with h | h | h
    · simp [h, not_lt.mpr h.le]
    · subst h; simp
    · simp [h, not_lt.mpr h.le]
  unfold boundsCheckCpp boundsCheckPy
  rw [this]

theorem boundsCheck_fin (cpp : Bool) {lo hi : ℝ} (h : 0 < lo) (hl : lo ≤ hi) (x : ℝ) :
    boundsCheck cpp (.fin x) (.fin lo, .fin hi) = .fin (clampLog lo hi x) := by
  unfold boundsCheck
  cases cpp
  · exact boundsCheckPy_fin h hl x
  · simp only [if_true]
    rw [boundsCheck_eq (by simp) (by simp), boundsCheckPy_fin h hl x]

theorem clampLog_ge {lo hi : ℝ} (h : 0 < lo) (hl : lo ≤ hi) (x : ℝ) : lo ≤ clampLog lo hi x := by
  have hhi : 0 < hi := lt_of_lt_of_le h hl
  unfold clampLog
  split_ifs with h1 h2
  · exact le_refl _
  · exact not_lt.mp h1
  · push Not at h2
    have : 0 ≤ Real.log (x / hi) := Real.log_nonneg (by rw [le_div_iff₀ hhi]; linarith)
    linarith

theorem clampLog_pos {lo hi : ℝ} (h : 0 < lo) (hl : lo ≤ hi) (x : ℝ) : 0 < clampLog lo hi x :=
  lt_of_lt_of_le h (clampLog_ge h hl x)

theorem clampLog_inside {lo hi x : ℝ} (h1 : lo ≤ x) (h2 : x ≤ hi) : clampLog lo hi x = x := by
  rw [clampLog, if_neg (not_lt.mpr h1), if_pos h2]

/-- `clampLog` as a composition of continuous maps -/
theorem clampLog_eq {lo hi : ℝ} (h : 0 < lo) (hl : lo ≤ hi) (x : ℝ) :
    clampLog lo hi x = min (max x lo) hi + Real.log (max x hi / hi) := by
  have hhi : 0 < hi := lt_of_lt_of_le h hl
  unfold clampLog
  by_cases h1 : x < lo
  · rw [if_pos h1, max_eq_right h1.le, max_eq_right (h1.le.trans hl), min_eq_left hl,
      div_self hhi.ne', Real.log_one, add_zero]
  · push Not at h1
    rw [if_neg (not_lt.mpr h1), max_eq_left h1]
    by_cases h2 : x ≤ hi
    · rw [if_pos h2, max_eq_right h2, min_eq_left h2, div_self hhi.ne', Real.log_one, add_zero]
    · push Not at h2
      rw [if_neg (not_le.mpr h2), max_eq_left h2.le, min_eq_right h2.le]

theorem clampLog_continuous {lo hi : ℝ} (h : 0 < lo) (hl : lo ≤ hi) :
    Continuous (clampLog lo hi) := by
  have hhi : 0 < hi := lt_of_lt_of_le h hl
  have : clampLog lo hi = fun x => min (max x lo) hi + Real.log (max x hi / hi) :=
    funext (clampLog_eq h hl)
  rw [this]
  apply Continuous.add (by fun_prop)
  apply Continuous.log (by fun_prop)
  intro x
  have : 0 < max x hi := lt_of_lt_of_le hhi (le_max_right _ _)
  positivity

theorem clampLog_mono {lo hi : ℝ} (h : 0 < lo) (hl : lo ≤ hi) : Monotone (clampLog lo hi) := by
  have hhi : 0 < hi := lt_of_lt_of_le h hl
  intro x y hxy
  rw [clampLog_eq h hl, clampLog_eq h hl]
  have h1 : min (max x lo) hi ≤ min (max y lo) hi := min_le_min_right _ (max_le_max_right _ hxy)
  have h3 : 0 < max x hi := lt_of_lt_of_le hhi (le_max_right _ _)
  have h2 : Real.log (max x hi / hi) ≤ Real.log (max y hi / hi) := by
    apply Real.log_le_log (by positivity)
    have := max_le_max_right hi hxy
    gcongr
  linarith

end
end Frds

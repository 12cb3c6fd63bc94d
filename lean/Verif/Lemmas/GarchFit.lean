import Verif.Lemmas.GarchFin

set_option linter.unusedSimpArgs false

namespace Frds
noncomputable section
open Frds.Model Frds.Spec Frds.Props Classical

theorem var_fin {l : List ℝ} (h : l ≠ []) : Np.var (l.map XR.fin) = .fin (popVar l) := by
  have hm : Np.mean (l.map XR.fin) = .fin (Spec.mean l id) := mean_col h id
  rw [Np.var, hm, List.map_map]
  have : ((fun v => XR.sq (v - XR.fin (Spec.mean l id))) ∘ XR.fin)
      = fun x => XR.fin ((x - Spec.mean l id) ^ 2) := by
    funext x; simp
  rw [this, mean_col h]
  rfl

/-- largest square -/
def maxSq : List ℝ → ℝ
  | [] => 0
  | x :: t => (t.map fun r => r ^ 2).foldl max (x ^ 2)

theorem foldl_npMax_fin (x : ℝ) (l : List ℝ) :
    (l.map XR.fin).foldl XR.npMax (.fin x) = .fin (l.foldl max x) := by
  induction l generalizing x with
  | nil => rfl
  | cons a t ih => simp only [List.map_cons, List.foldl_cons, XR.npMax_fin, ih]

theorem npMaxList_sq {l : List ℝ} (h : l ≠ []) :
    npMaxList ((l.map XR.fin).map XR.sq) = .fin (maxSq l) := by
  cases l with
  | nil => exact absurd rfl h
  | cons x t =>
    simp only [List.map_cons, npMaxList, maxSq, XR.fin_sq]
    rw [← foldl_npMax_fin, List.map_map, List.map_map]
    congr 2
    funext r; simp

theorem foldl_max_le {x M : ℝ} {l : List ℝ} : l.foldl max x ≤ M ↔ x ≤ M ∧ ∀ y ∈ l, y ≤ M := by
  induction l generalizing x with
  | nil => simp
  | cons a t ih => simp [ih]; tauto

theorem maxSq_le {l : List ℝ} (h : l ≠ []) {M : ℝ} : maxSq l ≤ M ↔ ∀ r ∈ l, r ^ 2 ≤ M := by
  cases l with
  | nil => exact absurd rfl h
  | cons x t => simp [maxSq, foldl_max_le]

theorem maxSq_nonneg (l : List ℝ) : 0 ≤ maxSq l := by
  cases l with
  | nil => simp [maxSq]
  | cons x t =>
    have := (maxSq_le (l := x :: t) (by simp)).mp le_rfl x (by simp)
    exact (sq_nonneg x).trans this

/-- smoothed variance at time `t` -/
def ewmaAt (l : List ℝ) (t : ℕ) : ℝ :=
  linearPath (94 / 100) (ewAvg l) (fun i => (1 - 94 / 100) * (l.getD i 0) ^ 2) t

/-- centre of the bounds at time `t` -/
def boundCentre (l : List ℝ) (t : ℕ) : ℝ :=
  min (max (ewmaAt l t) (popVar l / 100000000)) (10000000 * (1 + maxSq l))

def boundRows (l : List ℝ) : List (ℝ × ℝ) :=
  (List.range l.length).map fun t => (boundCentre l t / 1000000, boundCentre l t * 1000000)

theorem varianceBounds_fin (cpp : Bool) {l : List ℝ} (h : l ≠ []) :
    varianceBounds cpp (l.map XR.fin) = .ok (finRows (boundRows l)) := by
  simp only [varianceBounds, List.length_map]
  rw [initial_fin h, ewma_fin cpp h]
  simp only [bind, Except.bind, pure, Except.pure]
  rw [var_fin h, npMaxList_sq h]
  congr 1
  rw [finRows, boundRows, List.map_map, List.map_map, List.map_map]
  apply List.map_congr_left
  intro t _
  simp only [Function.comp]
  rw [XR.fin_div _ (by norm_num), XR.one_def, XR.fin_add, XR.fin_mul, Np.clip_fin,
    XR.fin_div _ (by norm_num), XR.fin_mul]
  rfl

theorem getD_sq_nonneg (l : List ℝ) (i : ℕ) : 0 ≤ (l.getD i 0) ^ 2 := sq_nonneg _

theorem ewmaAt_nonneg (l : List ℝ) (t : ℕ) : 0 ≤ ewmaAt l t := by
  unfold ewmaAt
  induction t with
  | zero => rw [linearPath_zero]; exact ewAvg_nonneg l
  | succ t ih => rw [linearPath_succ]; nlinarith [getD_sq_nonneg l t]

theorem getD_mem {l : List ℝ} {i : ℕ} (h : i < l.length) : l.getD i 0 ∈ l := by
  rw [List.getD_eq_getElem?_getD, List.getElem?_eq_getElem h]; simp

theorem ewmaAt_bounds {l : List ℝ} (hne : l ≠ []) {lo hi : ℝ} (h : ∀ r ∈ l, lo ≤ r ^ 2 ∧ r ^ 2 ≤ hi)
    {t : ℕ} (ht : t ≤ l.length) : lo ≤ ewmaAt l t ∧ ewmaAt l t ≤ hi := by
  unfold ewmaAt
  apply linearPath_bounds (x := fun i => (l.getD i 0) ^ 2) (by norm_num) (by norm_num)
  · exact ewAvg_bounds hne fun i hi' => h _ (getD_mem (by omega))
  · intro i hi'; exact h _ (getD_mem (by omega))

theorem boundCentre_pos {l : List ℝ} (h : ∃ r ∈ l, r ≠ 0) {t : ℕ} (ht : t < l.length) :
    0 < boundCentre l t := by
  have hne : l ≠ [] := by obtain ⟨r, hr, _⟩ := h; exact List.ne_nil_of_mem hr
  have hhi : 0 < 10000000 * (1 + maxSq l) := by have := maxSq_nonneg l; positivity
  refine lt_min ?_ hhi
  by_cases hv : popVar l = 0
  · obtain ⟨c, hc⟩ := (popVar_eq_zero_iff hne).mp hv
    obtain ⟨r, hr, hr0⟩ := h
    have hc0 : c ≠ 0 := by rw [← hc r hr]; exact hr0
    have := (ewmaAt_bounds hne (lo := c ^ 2) (hi := c ^ 2) (fun x hx => by rw [hc x hx]; simp)
      (t := t) (by omega)).1
    exact lt_max_of_lt_left (lt_of_lt_of_le (by positivity) this)
  · have := lt_of_le_of_ne (popVar_nonneg l) (Ne.symm hv)
    exact lt_max_of_lt_right (by positivity)

theorem boundCentre_zero {l : List ℝ} (h : ∀ r ∈ l, r = 0) (hne : l ≠ []) {t : ℕ}
    (ht : t < l.length) : boundCentre l t = 0 := by
  have hv : popVar l = 0 := (popVar_eq_zero_iff hne).mpr ⟨0, h⟩
  have h1 := ewmaAt_bounds hne (lo := 0) (hi := 0) (fun x hx => by rw [h x hx]; simp)
      (t := t) (by omega)
  have hhi : 0 < 10000000 * (1 + maxSq l) := by have := maxSq_nonneg l; positivity
  rw [boundCentre, hv, le_antisymm h1.2 h1.1]
  simp only [zero_div, max_self]
  exact min_eq_left hhi.le

theorem boundRows_good {l : List ℝ} (h : ∃ r ∈ l, r ≠ 0) : GoodRows (boundRows l) := by
  intro p hp
  obtain ⟨t, ht, rfl⟩ := List.mem_map.mp hp
  have := boundCentre_pos h (List.mem_range.mp ht)
  simp only
  constructor
  · positivity
  · nlinarith

theorem boundRows_length (l : List ℝ) : (boundRows l).length = l.length := by simp [boundRows]

/-! ### grid search -/

/-- a candidate usable as start: minus its log-likelihood exceeds minus infinity -/
def Usable {P : Type} (path : P → Except PyErr (List XR)) (resids : List XR) (p : P) : Prop :=
  ∃ s2, path p = .ok s2 ∧ .ninf < -(loglik resids s2)

theorem gridSearch_last {P : Type} {cands : List P} {path : P → Except PyErr (List XR)}
    {resids : List XR} (h : ∀ p ∈ cands, ∃ s2, path p = .ok s2) :
    gridSearch cands path resids
      = .ok (cands.reverse.find? fun p => decide (Usable path resids p)) := by
  unfold gridSearch
  induction cands using List.reverseRecOn with
  | nil => rfl
  | append_singleton l p ih =>
    rw [List.foldlM_append, ih fun q hq => h q (by simp [hq])]
    obtain ⟨s2, hs⟩ := h p (by simp)
    simp only [List.foldlM_cons, List.foldlM_nil, bind, Except.bind, pure, Except.pure, hs,
      List.reverse_append, List.reverse_cons, List.reverse_nil, List.nil_append,
      List.singleton_append, List.find?_cons]
    by_cases hu : XR.ninf < -(loglik resids s2)
    · have : Usable path resids p := ⟨s2, hs, hu⟩
      simp [this, hu]
    · have : ¬ Usable path resids p := by
        rintro ⟨s, e, hh⟩
        rw [hs] at e; injection e with e; subst e; exact hu hh
      simp [this, hu]

/-- log-likelihood of positive finite variances is finite -/
theorem loglik_finite {r v : List ℝ} (hl : v.length = r.length) (hv : ∀ x ∈ v, 0 < x) :
    loglik (r.map XR.fin) (v.map XR.fin)
      = .fin ((List.zip r v).map fun d => Real.log (normalPdf d.2 d.1)).sum := by
  rw [← loglik_fin (List.zip r v)]
  · have h1 : (List.zip r v).map (fun d => XR.fin d.1) = r.map XR.fin := by
      rw [show (fun d : ℝ × ℝ => XR.fin d.1) = XR.fin ∘ Prod.fst from rfl, ← List.map_map,
        List.map_fst_zip (by omega)]
    have h2 : (List.zip r v).map (fun d => XR.fin d.2) = v.map XR.fin := by
      rw [show (fun d : ℝ × ℝ => XR.fin d.2) = XR.fin ∘ Prod.snd from rfl, ← List.map_map,
        List.map_snd_zip (by omega)]
    rw [h1, h2]
  · intro d hd
    exact hv _ (List.of_mem_zip hd).2

theorem prep_length (z : Bool) (l : List ℝ) : (prep z l).length = l.length := by
  unfold prep; cases z <;> simp

theorem prep_ne {z : Bool} {l : List ℝ} (h : l ≠ []) : prep z l ≠ [] := by
  intro e
  have := prep_length z l
  rw [e] at this
  exact h (List.length_eq_zero_iff.mp this.symm)

theorem prepResids_fin {V : Type} {o : GarchObj V} {l : List ℝ} (h : l ≠ [])
    (ho : o.returns = l.map XR.fin) : prepResids o = (prep o.zeroMean l).map XR.fin := by
  unfold prepResids prep
  cases o.zeroMean
  · have hm : Np.mean (l.map XR.fin) = .fin (Spec.mean l id) := mean_col h id
    simp only [Bool.false_eq_true, if_false]
    rw [ho, hm, demean, List.map_map, List.map_map]
    apply List.map_congr_left
    intro x _; simp
  · simpa using ho

/-- the first variance is positive at any candidate -/
theorem first_pos {z : Bool} {l : List ℝ} (hr : ∃ r ∈ prep z l, r ≠ 0) {q p : ℝ} (hq : 0 < q)
    (hp : 0 < p) : 0 < popVar l * q + p * ewAvg (prep z l) := by
  have hne : l ≠ [] := by
    rintro rfl
    obtain ⟨r, hr, _⟩ := hr
    have := List.ne_nil_of_mem hr
    exact this (by unfold prep; cases z <;> rfl)
  have h0 := ewAvg_nonneg (prep z l)
  by_cases hv : popVar l = 0
  · obtain ⟨c, hc⟩ := (popVar_eq_zero_iff hne).mp hv
    cases z with
    | false =>
      exfalso
      obtain ⟨r, hr, hr0⟩ := hr
      simp only [prep, Bool.false_eq_true, if_false] at hr
      obtain ⟨x, hx, rfl⟩ := List.mem_map.mp hr
      have hm : Spec.mean l id = c := by
        rw [Spec.mean, List.map_congr_left (f := id) (g := fun _ => c) hc, sum_map_const']
        have : (l.length : ℝ) ≠ 0 := by have := List.length_pos_iff.mpr hne; positivity
        field_simp
      rw [hm, hc x hx] at hr0
      simp at hr0
    | true =>
      simp only [prep, if_true] at hr ⊢
      obtain ⟨r, hr, hr0⟩ := hr
      have hc0 : c ≠ 0 := by rw [← hc r hr]; exact hr0
      have := (ewAvg_bounds hne (lo := c ^ 2) (hi := c ^ 2) fun i hi => by
        rw [hc _ (getD_mem (by omega))]; simp).1
      rw [hv]
      have : 0 < ewAvg l := lt_of_lt_of_le (by positivity) this
      simp; positivity
  · have := lt_of_le_of_ne (popVar_nonneg l) (Ne.symm hv)
    have : 0 < popVar l * q := by positivity
    have : 0 ≤ p * ewAvg (prep z l) := by positivity
    linarith

end
end Frds

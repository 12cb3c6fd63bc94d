import Verif.Lemmas.Garch

set_option linter.unusedSimpArgs false

namespace Frds
noncomputable section
open Frds.Model Frds.Spec Classical

/-! ### finite data -/

theorem exists_fin_list {P : ℝ → Prop} {out : List XR} (h : ∀ x ∈ out, ∃ r, x = .fin r ∧ P r) :
    ∃ v : List ℝ, out = v.map XR.fin ∧ ∀ r ∈ v, P r := by
  induction out with
  | nil => exact ⟨[], rfl, by simp⟩
  | cons x t ih =>
    obtain ⟨r, rfl, hr⟩ := h x (by simp)
    obtain ⟨v, rfl, hv⟩ := ih fun y hy => h y (by simp [hy])
    exact ⟨r :: v, rfl, by simpa [hr] using hv⟩

/-- bound rows as float pairs -/
def finRows (b : List (ℝ × ℝ)) : List (XR × XR) := b.map fun p => (.fin p.1, .fin p.2)

def GoodRows (b : List (ℝ × ℝ)) : Prop := ∀ p ∈ b, 0 < p.1 ∧ p.1 ≤ p.2

theorem finRows_length (b : List (ℝ × ℝ)) : (finRows b).length = b.length := by simp [finRows]

theorem finRows_get (b : List (ℝ × ℝ)) (t : ℕ) (p : ℝ × ℝ) (h : b[t]? = some p) :
    (finRows b)[t]? = some (.fin p.1, .fin p.2) := by simp [finRows, h]

theorem garchNext_fin (o a b r s : ℝ) :
    garchNext ⟨.fin o, .fin a, .fin b⟩ (.fin r) (.fin s) = .fin (gjrNews o a 0 r + b * s) := by
  simp [garchNext, gjrNews]

theorem gjrNext_eq (p : GjrVar) (r s : XR) : gjrNextCpp p r s = gjrNextPy p r s := by
  unfold gjrNextCpp gjrNextPy
  split_ifs
  · rfl
  · exact (XR.add_zero _).symm

theorem gjrNext_fin (cpp : Bool) (o a g b r s : ℝ) :
    (if cpp then gjrNextCpp ⟨.fin o, .fin a, .fin g, .fin b⟩
      else gjrNextPy ⟨.fin o, .fin a, .fin g, .fin b⟩) (.fin r) (.fin s)
      = .fin (gjrNews o a g r + b * s) := by
  have : gjrNextPy ⟨.fin o, .fin a, .fin g, .fin b⟩ (.fin r) (.fin s)
      = .fin (gjrNews o a g r + b * s) := by
    unfold gjrNextPy gjrNews
    simp only [XR.zero_def, XR.fin_lt]
    by_cases h : r < 0
    · simp [h]; ring
    · simp [h]
  cases cpp
  · simpa using this
  · simp only [if_true]; rw [gjrNext_eq, this]

/-- A variance path on finite data with good bounds is finite and positive. -/
theorem variancePath_fin {next : XR → XR → XR} (cpp : Bool) {nr : ℝ → ℝ → ℝ}
    (hn : ∀ r s, next (.fin r) (.fin s) = .fin (nr r s)) {s0 : ℝ} (hs : 0 < s0)
    {resids : List ℝ} {bounds : List (ℝ × ℝ)} (hne : resids ≠ [])
    (hlen : resids.length ≤ bounds.length) (hb : GoodRows bounds) :
    ∃ v : List ℝ, variancePath next (boundsCheck cpp) (.fin s0) (resids.map XR.fin) (finRows bounds)
        = .ok (v.map XR.fin) ∧ (∀ x ∈ v, 0 < x) ∧
      IsRecursion (fun r s b => clampLog b.1 b.2 (nr r s)) s0 resids bounds v := by
  have hp := variancePath_ok (next := next) (chk := boundsCheck cpp) (s0 := .fin s0)
    (resids := resids.map XR.fin) (bounds := finRows bounds) (by simpa using hne)
    (by intro _; rw [finRows_length, List.length_map]; exact hlen)
  have hall : ∀ x ∈ (XR.fin s0 :: varLoop next (boundsCheck cpp) (.fin s0)
      (List.zip (resids.map XR.fin).dropLast (finRows bounds).tail)),
      ∃ r, x = .fin r ∧ 0 < r := by
    intro x hx
    rcases List.mem_cons.mp hx with rfl | hx
    · exact ⟨s0, rfl, hs⟩
    · refine varLoop_forall (fun x => ∃ r, x = .fin r ∧ 0 < r) ⟨s0, rfl, hs⟩ ?_ x hx
      rintro s r b ⟨s', rfl, _⟩ hm
      obtain ⟨h1, h2⟩ := List.of_mem_zip hm
      obtain ⟨r', _, rfl⟩ := List.mem_map.mp (List.mem_of_mem_dropLast h1)
      obtain ⟨b', hb', rfl⟩ := List.mem_map.mp (List.mem_of_mem_tail h2)
      have hg := hb b' hb'
      rw [hn, boundsCheck_fin cpp hg.1 hg.2]
      exact ⟨_, rfl, clampLog_pos hg.1 hg.2 _⟩
  obtain ⟨v, hv, hpos⟩ := exists_fin_list hall
  rw [hv] at hp
  refine ⟨v, hp, hpos, ?_⟩
  have hrec := variancePath_recursion hp
  refine ⟨by simpa using hrec.1, ?_, ?_⟩
  · have := hrec.2.1
    rw [List.getElem?_map] at this
    cases h0 : v[0]? with
    | none => rw [h0] at this; simp at this
    | some y => rw [h0] at this; simpa using this
  · intro t r s b ht hr hs' hbb
    have := hrec.2.2 t (.fin r) (.fin s) (.fin b.1, .fin b.2) (by simpa using ht)
      (by simp [hr]) (by simp [hs']) (finRows_get _ _ _ hbb)
    have hg := hb b (List.mem_of_getElem? hbb)
    simp only at this
    rw [hn, boundsCheck_fin cpp hg.1 hg.2, List.getElem?_map] at this
    cases h0 : v[t + 1]? with
    | none => rw [h0] at this; simp at this
    | some y => rw [h0] at this; simpa using this

/-- no bound binds: closed form -/
theorem variancePath_closed {next : XR → XR → XR} (cpp : Bool) {news : ℝ → ℝ} {beta : ℝ}
    (hn : ∀ r s, next (.fin r) (.fin s) = .fin (news r + beta * s)) {s0 : ℝ}
    {resids : List ℝ} {bounds : List (ℝ × ℝ)} (hne : resids ≠ [])
    (hlen : resids.length ≤ bounds.length) (hb : GoodRows bounds)
    (hin : ∀ t b, t + 1 < resids.length → bounds[t + 1]? = some b →
      b.1 ≤ linearPath beta s0 (fun i => news (resids.getD i 0)) (t + 1) ∧
      linearPath beta s0 (fun i => news (resids.getD i 0)) (t + 1) ≤ b.2) :
    variancePath next (boundsCheck cpp) (.fin s0) (resids.map XR.fin) (finRows bounds)
      = .ok ((List.range resids.length).map fun t =>
          .fin (linearPath beta s0 (fun i => news (resids.getD i 0)) t)) := by
  have hp := variancePath_ok (next := next) (chk := boundsCheck cpp) (s0 := .fin s0)
    (resids := resids.map XR.fin) (bounds := finRows bounds) (by simpa using hne)
    (by intro _; rw [finRows_length, List.length_map]; exact hlen)
  rw [hp]
  congr 1
  refine IsRecursion.unique (by rw [finRows_length, List.length_map]; exact hlen)
    (variancePath_recursion hp) ?_
  have hpos := List.length_pos_iff.mpr hne
  refine ⟨by simp, ?_, ?_⟩
  · simp [List.getElem?_range hpos, linearPath_zero]
  · intro t r s b ht hr hs hbb
    rw [List.length_map] at ht
    simp only [List.getElem?_map, List.getElem?_range (show t < resids.length by omega),
      List.getElem?_range ht, Option.map_some, Option.some.injEq] at hs ⊢
    subst hs
    obtain ⟨b', hb'⟩ : ∃ b', bounds[t + 1]? = some b' := ⟨_, List.getElem?_eq_getElem (by omega)⟩
    rw [finRows_get _ _ _ hb'] at hbb
    injection hbb with hbb; subst hbb
    have hr' : resids[t]? = some (resids[t]'(by omega)) := List.getElem?_eq_getElem _
    rw [List.getElem?_map, hr'] at hr
    simp at hr; subst hr
    have hg := hb b' (List.mem_of_getElem? hb')
    obtain ⟨h1, h2⟩ := hin t b' ht hb'
    have e : resids.getD t 0 = resids[t]'(by omega) := by
      rw [List.getD_eq_getElem?_getD, hr']; rfl
    rw [hn, boundsCheck_fin cpp hg.1 hg.2]
    rw [linearPath_succ, e] at h1 h2 ⊢
    rw [clampLog_inside h1 h2]

/-! ### EWMA -/

theorem linearPath_shift (beta v : ℝ) (news : ℕ → ℝ) (t : ℕ) :
    linearPath beta v news (t + 1)
      = linearPath beta (news 0 + beta * v) (fun i => news (i + 1)) t := by
  induction t with
  | zero => rw [linearPath_succ, linearPath_zero, linearPath_zero]
  | succ t ih => rw [linearPath_succ, ih, linearPath_succ]

theorem ewmaLoop_eq (lam v : XR) (l : List XR) :
    ewmaLoopCpp lam v l = ewmaLoopPy lam v (l.map XR.sq) := by
  induction l generalizing v with
  | nil => rfl
  | cons a t ih => simp only [ewmaLoopCpp, List.map_cons, ewmaLoopPy, ih]; rfl

theorem ewma_eq (resids : List XR) (v lam : XR) : ewma true resids v lam = ewma false resids v lam := by
  unfold ewma
  simp only [if_true, Bool.false_eq_true, if_false, ewmaLoop_eq, List.map_dropLast]

theorem ewmaLoopPy_fin (lam v : ℝ) (l : List ℝ) :
    ewmaLoopPy (.fin lam) (.fin v) ((l.map XR.fin).map XR.sq)
      = (List.range l.length).map fun t =>
          .fin (linearPath lam v (fun i => (1 - lam) * (l.getD i 0) ^ 2) (t + 1)) := by
  induction l generalizing v with
  | nil => rfl
  | cons a t ih =>
    simp only [List.map_cons, ewmaLoopPy, XR.fin_sq, XR.one_def, XR.fin_sub, XR.fin_mul, XR.fin_add,
      List.length_cons, List.range_succ_eq_map, List.map_map]
    rw [← List.map_map, ih]
    congr 1
    · rw [linearPath_succ, linearPath_zero]; simp [add_comm]
    · apply List.map_congr_left
      intro i _
      simp only [Function.comp]
      rw [linearPath_shift lam v _ (i.succ)]
      simp [add_comm]

theorem linearPath_congr {beta v : ℝ} {n1 n2 : ℕ → ℝ} {t : ℕ} (h : ∀ i < t, n1 i = n2 i) :
    linearPath beta v n1 t = linearPath beta v n2 t := by
  unfold linearPath
  rw [Finset.sum_congr rfl fun i hi => by rw [h i (Finset.mem_range.mp hi)]]

theorem ewma_fin (cpp : Bool) {resids : List ℝ} (h : resids ≠ []) (v lam : ℝ) :
    ewma cpp (resids.map XR.fin) (.fin v) (.fin lam)
      = .ok ((List.range resids.length).map fun t =>
          .fin (linearPath lam v (fun i => (1 - lam) * (resids.getD i 0) ^ 2) t)) := by
  have : ewma false (resids.map XR.fin) (.fin v) (.fin lam)
      = .ok ((List.range resids.length).map fun t =>
          .fin (linearPath lam v (fun i => (1 - lam) * (resids.getD i 0) ^ 2) t)) := by
    unfold ewma
    rw [if_neg (by simpa using h)]
    simp only [Bool.false_eq_true, if_false]
    rw [← List.map_dropLast, ← List.map_dropLast, ewmaLoopPy_fin, List.length_dropLast]
    congr 1
    obtain ⟨n, hn⟩ : ∃ n, resids.length = n + 1 :=
      ⟨resids.length - 1, by have := List.length_pos_iff.mpr h; omega⟩
    rw [hn, List.range_succ_eq_map, List.map_cons, linearPath_zero, List.map_map]
    congr 1
    simp only [Nat.add_sub_cancel]
    apply List.map_congr_left
    intro t ht
    have ht := List.mem_range.mp ht
    simp only [Function.comp]
    congr 1
    apply linearPath_congr
    intro i hi
    simp only [List.getD_eq_getElem?_getD, List.getElem?_dropLast]
    rw [if_pos (by omega)]
  cases cpp
  · exact this
  · rw [ewma_eq]; exact this

/-- an exponentially weighted path stays in any interval containing the start and the squares -/
theorem linearPath_bounds {lam v lo hi : ℝ} (h0 : 0 ≤ lam) (h1 : lam ≤ 1) {x : ℕ → ℝ} {t : ℕ}
    (hv : lo ≤ v ∧ v ≤ hi) (hx : ∀ i < t, lo ≤ x i ∧ x i ≤ hi) :
    lo ≤ linearPath lam v (fun i => (1 - lam) * x i) t ∧
      linearPath lam v (fun i => (1 - lam) * x i) t ≤ hi := by
  induction t with
  | zero => rw [linearPath_zero]; exact hv
  | succ t ih =>
    obtain ⟨i1, i2⟩ := ih fun i hi' => hx i (by omega)
    obtain ⟨x1, x2⟩ := hx t (by omega)
    rw [linearPath_succ]
    constructor <;> nlinarith

/-! ### backcast -/

theorem range_sum (n : ℕ) (f : ℕ → ℝ) : ((List.range n).map f).sum = ∑ i ∈ Finset.range n, f i := rfl

theorem zipWith_take_range {α β γ : Type} (f : α → β → γ) (g : ℕ → β) (l : List α) (d : α) (n : ℕ)
    (hn : n ≤ l.length) :
    List.zipWith f (l.take n) ((List.range n).map g)
      = (List.range n).map fun i => f (l.getD i d) (g i) := by
  apply List.ext_getElem
  · simp; omega
  · intro i h1 h2
    simp at h1 h2 ⊢
    rw [List.getElem?_eq_getElem (by omega)]
    simp

def decaySum (n : ℕ) : ℝ := ∑ i ∈ Finset.range n, (94 / 100 : ℝ) ^ i

theorem decaySum_pos {n : ℕ} (h : 0 < n) : 0 < decaySum n :=
  Finset.sum_pos (fun _ _ => by positivity) ⟨0, Finset.mem_range.mpr h⟩

theorem decay_normalised {n : ℕ} (h : 0 < n) :
    ((decayWeights n).map fun x => x / (decayWeights n).sum)
      = (List.range n).map fun i => .fin ((94 / 100 : ℝ) ^ i / decaySum n) := by
  have hs : (decayWeights n).sum = .fin (decaySum n) := by
    rw [decayWeights, XR.sum_fin, range_sum]; rfl
  rw [hs, decayWeights, List.map_map]
  apply List.map_congr_left
  intro i _
  simp only [Function.comp]
  rw [XR.fin_div _ (decaySum_pos h).ne']

theorem ewAvg_eq (l : List ℝ) : ewAvg l
    = ∑ i ∈ Finset.range (min 75 l.length), (94 / 100 : ℝ) ^ i / decaySum (min 75 l.length)
        * (l.getD i 0) ^ 2 := by
  unfold ewAvg
  rw [Finset.sum_div]
  apply Finset.sum_congr rfl
  intro i _
  unfold decaySum
  ring

theorem backcast_fin {l : List ℝ} (h : l ≠ []) : backcast (l.map XR.fin) = .fin (ewAvg l) := by
  have hpos := List.length_pos_iff.mpr h
  have hn : 0 < min 75 l.length := by omega
  simp only [backcast, List.length_map]
  rw [decay_normalised hn, zipWith_take_range _ _ _ (.fin 0) _ (by simp)]
  have : (fun i => XR.sq ((l.map XR.fin).getD i (.fin 0)) * .fin ((94 / 100 : ℝ) ^ i / decaySum (min 75 l.length)))
      = fun i => .fin ((94 / 100 : ℝ) ^ i / decaySum (min 75 l.length) * (l.getD i 0) ^ 2) := by
    funext i
    have : (l.map XR.fin).getD i (.fin 0) = .fin (l.getD i 0) := by
      simp only [List.getD_eq_getElem?_getD, List.getElem?_map]
      cases l[i]? <;> rfl
    rw [this, XR.fin_sq, XR.fin_mul, mul_comm]
  rw [this, XR.sum_fin, range_sum, ewAvg_eq]

theorem initial_fin {l : List ℝ} (h : l ≠ []) :
    (List.zipWith (· * ·) ((decayWeights (min 75 l.length)).map fun x =>
        x / (decayWeights (min 75 l.length)).sum)
      (((l.map XR.fin).take (min 75 l.length)).map XR.sq)).sum = .fin (ewAvg l) := by
  rw [← backcast_fin h, backcast]
  congr 1
  simp only [List.length_map]
  rw [List.zipWith_map_right, List.zipWith_comm]
  congr 1
  funext a b
  show b * XR.sq a = XR.sq a * b
  generalize XR.sq a = c
  cases b <;> cases c <;> first | rfl | (simp [mul_comm])

theorem ewAvg_bounds {l : List ℝ} (h : l ≠ []) {lo hi : ℝ}
    (hb : ∀ i < min 75 l.length, lo ≤ (l.getD i 0) ^ 2 ∧ (l.getD i 0) ^ 2 ≤ hi) :
    lo ≤ ewAvg l ∧ ewAvg l ≤ hi := by
  have hpos := List.length_pos_iff.mpr h
  have hs : 0 < decaySum (min 75 l.length) := decaySum_pos (by omega)
  unfold ewAvg
  change lo ≤ _ / decaySum _ ∧ _ / decaySum _ ≤ hi
  rw [le_div_iff₀ hs, div_le_iff₀ hs]
  unfold decaySum
  rw [Finset.mul_sum, Finset.mul_sum]
  constructor
  · apply Finset.sum_le_sum
    intro i hi'
    have := hb i (Finset.mem_range.mp hi')
    have : 0 ≤ (94 / 100 : ℝ) ^ i := by positivity
    nlinarith
  · apply Finset.sum_le_sum
    intro i hi'
    have := hb i (Finset.mem_range.mp hi')
    have : 0 ≤ (94 / 100 : ℝ) ^ i := by positivity
    nlinarith

theorem ewAvg_nonneg (l : List ℝ) : 0 ≤ ewAvg l := by
  unfold ewAvg
  apply div_nonneg
  · exact Finset.sum_nonneg fun i _ => by positivity
  · exact Finset.sum_nonneg fun i _ => by positivity

end
end Frds

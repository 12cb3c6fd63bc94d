import Verif.Model.Ses
import Verif.Lemmas.Spread

/-! Properties C26-C28: systemic expected shortfall. -/
namespace Frds.Props
noncomputable section
open Frds Frds.Model Classical

/-- one firm of the training sample -/
structure Firm where
  mes : ℝ
  lvg : ℝ
  ses : ℝ

/-- residual sum of squares of the regression `ses ~ a + b mes + c lvg` -/
def sesRss (l : List Firm) (a b c : ℝ) : ℝ :=
  (l.map fun f => (f.ses - (a + b * f.mes + c * f.lvg)) ^ 2).sum

/-- no exact linear relation between the constant, MES and LVG in the sample -/
def Regular (l : List Firm) : Prop :=
  ∀ a b c : ℝ, (∀ f ∈ l, a + b * f.mes + c * f.lvg = 0) → a = 0 ∧ b = 0 ∧ c = 0

/-- construct and estimate (default version) -/
def sesOf (L : LstsqFn) (l : List Firm) (mesFirm lvgFirm : ℝ) : Except PyErr XR := do
  let s ← Ses.new (l.map Firm.mes) (l.map Firm.lvg) (l.map Firm.ses) mesFirm lvgFirm
  s.estimate L "BFLV2012"

def design (l : List Firm) : List (Fin 3 → ℝ) := l.map fun f => ![1, f.mes, f.lvg]

theorem rss_design (l : List Firm) (b : Fin 3 → ℝ) :
    rss (design l) (l.map Firm.ses) b = sesRss l (b 0) (b 1) (b 2) := by
  rw [rss, design, zipWith_maps, sesRss]
  congr 1
  apply List.map_congr_left
  intro f _
  simp [dotRow, Fin.sum_univ_three, mul_comm]

theorem sesOf_eq (L : LstsqFn) (l : List Firm) (m v : ℝ) :
    sesOf L l m v = .ok (
      let b := L 3 (design l) (l.map Firm.ses)
      XR.fin (b 1 * m + b 2 * v) / XR.fin (b 1 + b 2)) := by
  simp only [sesOf, Ses.new, List.length_map, ne_eq, not_true_eq_false, if_false, bind, Except.bind,
    Ses.estimate, true_or, if_true, Ses.bflv2012, zipWith_maps, XR.fin_mul, XR.fin_add]
  rfl

/-- C26. The estimate is the normalised fitted combination of a least-squares regression: `(a,b,c)` has the
smallest residual sum of squares, residuals are orthogonal to all three regressors. -/
theorem C26_fitted {L : LstsqFn} (hL : L.Correct) (l : List Firm) (m v : ℝ) :
    ∃ a b c : ℝ, (∀ a' b' c', sesRss l a b c ≤ sesRss l a' b' c') ∧
      (l.map fun f => f.ses - (a + b * f.mes + c * f.lvg)).sum = 0 ∧
      (l.map fun f => (f.ses - (a + b * f.mes + c * f.lvg)) * f.mes).sum = 0 ∧
      (l.map fun f => (f.ses - (a + b * f.mes + c * f.lvg)) * f.lvg).sum = 0 ∧
      sesOf L l m v = .ok (.fin (b * m + c * v) / .fin (b + c)) ∧
      (b + c ≠ 0 → sesOf L l m v = .ok (.fin ((b * m + c * v) / (b + c)))) := by
  have hc := hL 3 (design l) (l.map Firm.ses) (by simp [design])
  set β := L 3 (design l) (l.map Firm.ses) with hβ
  have hres : ∀ d : Fin 3 → ℝ, (l.map fun f => (f.ses - (β 0 + β 1 * f.mes + β 2 * f.lvg)) *
      (d 0 + d 1 * f.mes + d 2 * f.lvg)).sum = 0 := by
    intro d
    have := (isLS_iff _ _ _).mp hc.min d
    rw [resDot, design, zipWith_maps] at this
    rw [← this]
    congr 1
    apply List.map_congr_left
    intro f _
    simp [dotRow, Fin.sum_univ_three, mul_comm]
  refine ⟨β 0, β 1, β 2, ?_, ?_, ?_, ?_, ?_, ?_⟩
  · intro a' b' c'
    have := hc.min ![a', b', c']
    rwa [rss_design, rss_design] at this
  · simpa using hres ![1, 0, 0]
  · simpa using hres ![0, 1, 0]
  · simpa using hres ![0, 0, 1]
  · rw [sesOf_eq]
  · intro h; rw [sesOf_eq]; simp only [← hβ]; rw [XR.fin_div _ h]

theorem fullRank_design {l : List Firm} (h : Regular l) : FullRank (design l) := by
  intro v hv
  obtain ⟨h0, h1, h2⟩ := h (v 0) (v 1) (v 2) (by
    intro f hf
    have := hv ![1, f.mes, f.lvg] (List.mem_map.mpr ⟨f, hf, rfl⟩)
    simp [dotRow, Fin.sum_univ_three] at this
    linarith)
  funext j
  fin_cases j
  · exact h0
  · exact h1
  · exact h2

/-- the regression coefficients are determined by the sample when it is regular -/
theorem beta_unique {L : LstsqFn} (hL : L.Correct) {l : List Firm} (h : Regular l) {a b c : ℝ}
    (hmin : ∀ a' b' c', sesRss l a b c ≤ sesRss l a' b' c') :
    L 3 (design l) (l.map Firm.ses) = ![a, b, c] := by
  have hc := hL 3 (design l) (l.map Firm.ses) (by simp [design])
  refine isLS_unique (by simp [design]) (fullRank_design h) hc.min ?_
  intro b'
  rw [rss_design, rss_design]
  exact hmin _ _ _

/-- C26. For a regular sample the result does not depend on which least-squares solver is used, and is given by
*the* regression coefficients. -/
theorem C26_unique {L : LstsqFn} (hL : L.Correct) {l : List Firm} (h : Regular l) {a b c : ℝ}
    (hmin : ∀ a' b' c', sesRss l a b c ≤ sesRss l a' b' c') (m v : ℝ) :
    sesOf L l m v = .ok (.fin (b * m + c * v) / .fin (b + c)) := by
  rw [sesOf_eq, beta_unique hL h hmin]; simp

/-- C27. Equal firm values are reproduced, whenever the regression yields finite estimates at all
(i.e. `b + c ≠ 0`). -/
theorem C27_equal {L : LstsqFn} (l : List Firm) (v x : ℝ) (m w : ℝ)
    (hfin : sesOf L l m w = .ok (.fin x)) : sesOf L l v v = .ok (.fin v) := by
  rw [sesOf_eq] at hfin ⊢
  simp only [Except.ok.injEq] at hfin
  set β := L 3 (design l) (l.map Firm.ses)
  have h0 : β 1 + β 2 ≠ 0 := by
    intro h0
    rw [h0, XR.fin_div_zero, XR.infSign] at hfin
    split_ifs at hfin
  rw [XR.fin_div _ h0]
  congr 2
  rw [← add_mul, mul_div_assoc, mul_comm, div_mul_cancel₀ _ h0]

/-- C27. Positive or negative rescaling and shifting of the training outcome does not change a finite estimate. -/
theorem C27_affine {L : LstsqFn} (hL : L.Correct) {l : List Firm} (h : Regular l) {s t : ℝ}
    (hs : s ≠ 0) (m v x : ℝ) (hfin : sesOf L l m v = .ok (.fin x)) :
    sesOf L (l.map fun f => ⟨f.mes, f.lvg, s * f.ses + t⟩) m v = .ok (.fin x) := by
  obtain ⟨a, b, c, hmin, -, -, -, he, -⟩ := C26_fitted hL l m v
  set l' : List Firm := l.map fun f => ⟨f.mes, f.lvg, s * f.ses + t⟩ with hl'
  have hreg : Regular l' := by
    intro a b c hz
    apply h
    intro f hf
    exact hz ⟨f.mes, f.lvg, s * f.ses + t⟩ (List.mem_map.mpr ⟨f, hf, rfl⟩)
  have hrss : ∀ a b c, sesRss l' (s * a + t) (s * b) (s * c) = s ^ 2 * sesRss l a b c := by
    intro a b c
    rw [sesRss, hl', List.map_map, sesRss, ← sum_map_mul']
    congr 1
    apply List.map_congr_left
    intro f _
    simp only [Function.comp]; ring
  have hmin' : ∀ a' b' c', sesRss l' (s * a + t) (s * b) (s * c) ≤ sesRss l' a' b' c' := by
    intro a' b' c'
    have e : sesRss l' a' b' c' = s ^ 2 * sesRss l ((a' - t) / s) (b' / s) (c' / s) := by
      rw [← hrss]; congr 1 <;> field_simp; ring
    rw [e, hrss]
    exact mul_le_mul_of_nonneg_left (hmin _ _ _) (sq_nonneg s)
  rw [he] at hfin
  simp only [Except.ok.injEq] at hfin
  have h0 : b + c ≠ 0 := by
    intro h0
    rw [h0, XR.fin_div_zero, XR.infSign] at hfin
    split_ifs at hfin
  rw [C26_unique hL hreg hmin', ← hfin, XR.fin_div _ h0, XR.fin_div _ (by
    rw [← mul_add]; exact mul_ne_zero hs h0)]
  congr 2
  rw [← mul_add, mul_assoc, mul_assoc, ← mul_add, mul_div_mul_left _ _ hs]

/-- C27. Exact recovery when the training outcome is exactly linear. -/
theorem C27_exact {L : LstsqFn} (hL : L.Correct) {l : List Firm} (h : Regular l) {a b c : ℝ}
    (hlin : ∀ f ∈ l, f.ses = a + b * f.mes + c * f.lvg) (h0 : b + c ≠ 0) (m v : ℝ) :
    sesOf L l m v = .ok (.fin ((b * m + c * v) / (b + c))) := by
  rw [C26_unique hL h (a := a) (b := b) (c := c) ?_, XR.fin_div _ h0]
  intro a' b' c'
  have : sesRss l a b c = 0 := by
    rw [sesRss, List.map_congr_left (g := fun _ => (0:ℝ))]
    · simp
    · intro f hf; rw [hlin f hf]; simp
  rw [this]
  exact sum_map_nonneg' fun f _ => sq_nonneg _

/-- a regular sample with an exact relation `ses = 1 + 2 mes + 3 lvg` -/
def sampleFirms : List Firm := [⟨0, 0, 1⟩, ⟨1, 0, 3⟩, ⟨0, 1, 4⟩, ⟨1, 1, 6⟩]

theorem sampleFirms_regular : Regular sampleFirms ∧ (∀ f ∈ sampleFirms, f.ses = 1 + 2 * f.mes + 3 * f.lvg) := by
  constructor
  · intro a b c h
    have h1 := h ⟨0, 0, 1⟩ (by simp [sampleFirms])
    have h2 := h ⟨1, 0, 3⟩ (by simp [sampleFirms])
    have h3 := h ⟨0, 1, 4⟩ (by simp [sampleFirms])
    simp at h1 h2 h3
    subst h1
    simp at h2 h3
    exact ⟨rfl, h2, h3⟩
  · intro f hf
    simp only [sampleFirms, List.mem_cons, List.not_mem_nil, or_false] at hf
    rcases hf with rfl | rfl | rfl | rfl <;> norm_num

/-- C28. Argument checking. -/
theorem C28_errors (L : LstsqFn) (mes lvg ses : List ℝ) (m v : ℝ) :
    (¬ (mes.length = lvg.length ∧ mes.length = ses.length) →
      Ses.new mes lvg ses m v = .error .assertionError) ∧
    (mes.length = lvg.length ∧ mes.length = ses.length →
      Ses.new mes lvg ses m v = .ok ⟨mes, lvg, ses, m, v⟩) ∧
    (∀ (s : Ses) (version : String), version ≠ "BFLV2012" → version ≠ "APPR2017" →
      s.estimate L version = .error .assertionError) ∧
    (∀ s : Ses, s.estimate L "APPR2017" = .error .notImplementedError) ∧
    (∀ s : Ses, ∃ x, s.estimate L "BFLV2012" = .ok x) := by
  refine ⟨fun h => ?_, fun h => ?_, fun s w h1 h2 => ?_, fun s => ?_, fun s => ⟨s.bflv2012 L, ?_⟩⟩
  · by_cases h1 : mes.length = lvg.length
    · have h2 : mes.length ≠ ses.length := fun h2 => h ⟨h1, h2⟩
      simp only [Ses.new]; rw [if_neg (by simpa using h1), if_pos h2]
    · simp only [Ses.new]; rw [if_pos h1]
  · simp only [Ses.new]; rw [if_neg (by simpa using h.1), if_neg (by simpa using h.2)]
  · simp [Ses.estimate, h1, h2]
  · simp [Ses.estimate]
  · simp [Ses.estimate]

/-- C28. With cancelling slopes `b + c = 0` the estimate is ±inf or NaN, not an error. -/
theorem C28_zero_slope {L : LstsqFn} (hL : L.Correct) {l : List Firm} (h : Regular l) {a b c : ℝ}
    (hmin : ∀ a' b' c', sesRss l a b c ≤ sesRss l a' b' c') (h0 : b + c = 0) (m v : ℝ) :
    sesOf L l m v = .ok (if 0 < b * (m - v) then .pinf else if b * (m - v) < 0 then .ninf else .nan) := by
  rw [C26_unique hL h hmin, h0, XR.fin_div_zero, XR.infSign]
  have : b * m + c * v = b * (m - v) := by
    have : c = -b := by linarith
    rw [this]; ring
  rw [this]

/-- the hypotheses of the previous theorem are met: `ses = mes - lvg` -/
theorem cancelFirms_regular : Regular [⟨0, 0, 0⟩, ⟨1, 0, 1⟩, ⟨0, 1, -1⟩] ∧
    ∀ a' b' c', sesRss [⟨0, 0, 0⟩, ⟨1, 0, 1⟩, ⟨0, 1, -1⟩] 0 1 (-1)
      ≤ sesRss [⟨0, 0, 0⟩, ⟨1, 0, 1⟩, ⟨0, 1, -1⟩] a' b' c' := by
  constructor
  · intro a b c h
    have h1 := h ⟨0, 0, 0⟩ (by simp)
    have h2 := h ⟨1, 0, 1⟩ (by simp)
    have h3 := h ⟨0, 1, -1⟩ (by simp)
    simp at h1 h2 h3
    subst h1
    simp at h2 h3
    exact ⟨rfl, h2, h3⟩
  · intro a' b' c'
    have : sesRss [⟨0, 0, 0⟩, ⟨1, 0, 1⟩, ⟨0, 1, -1⟩] 0 1 (-1) = 0 := by simp [sesRss]
    rw [this]
    exact sum_map_nonneg' fun f _ => sq_nonneg _

/-! ### Concrete cases of the theorems above -/

/-- Four firms on the plane `ses = 1 + 2 mes + 3 lvg`: the estimate is the weighted mean `(2 m + 3 v) / 5`. -/
example {L : LstsqFn} (hL : L.Correct) (m v : ℝ) :
    sesOf L sampleFirms m v = .ok (.fin ((2 * m + 3 * v) / (2 + 3))) :=
  C27_exact hL sampleFirms_regular.1 sampleFirms_regular.2 (by norm_num) m v
example {L : LstsqFn} (hL : L.Correct) := C26_fitted hL sampleFirms 1 2
/-- The same through the minimiser. -/
example {L : LstsqFn} (hL : L.Correct) (m v : ℝ) :
    sesOf L sampleFirms m v = .ok (.fin (2 * m + 3 * v) / .fin (2 + 3)) :=
  C26_unique hL sampleFirms_regular.1 (a := 1) (fun a' b' c' => by
    have h : sesRss sampleFirms 1 2 3 = 0 := by simp [sesRss, sampleFirms]; norm_num
    rw [h]
    exact sum_map_nonneg' fun f _ => sq_nonneg _) m v
example {L : LstsqFn} (hL : L.Correct) : sesOf L sampleFirms 7 7 = .ok (.fin 7) :=
  C27_equal sampleFirms 7 _ 1 2 (C27_exact hL sampleFirms_regular.1 sampleFirms_regular.2 (by norm_num) 1 2)
example {L : LstsqFn} (hL : L.Correct) :=
  C27_affine hL sampleFirms_regular.1 (s := -2) (t := 5) (by norm_num) 1 2 _
    (C27_exact hL sampleFirms_regular.1 sampleFirms_regular.2 (by norm_num) 1 2)
/-- Slopes `1` and `-1` cancel: the estimate is infinite. -/
example {L : LstsqFn} (hL : L.Correct) : sesOf L [⟨0, 0, 0⟩, ⟨1, 0, 1⟩, ⟨0, 1, -1⟩] 2 1 = .ok .pinf := by
  have h := C28_zero_slope hL cancelFirms_regular.1 cancelFirms_regular.2 (by norm_num) 2 1
  rwa [if_pos (by norm_num)] at h
example (L : LstsqFn) : Ses.new [1, 2] [1] [1, 2] 0 0 = .error .assertionError :=
  (C28_errors L [1, 2] [1] [1, 2] 0 0).1 (by simp)

end
end Frds.Props

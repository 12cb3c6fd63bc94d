import Verif.Model.Spread
import Verif.Spec.Spread

set_option linter.unusedSimpArgs false

namespace Frds
noncomputable section
open Frds.Model Frds.Spec Classical

theorem zipWith_maps {α β γ δ} (f : β → γ → δ) (g : α → β) (h : α → γ) (l : List α) :
    List.zipWith f (l.map g) (l.map h) = l.map fun t => f (g t) (h t) := by
  rw [List.zipWith_map, List.zipWith_self]

/-- column of a table as an array of finite floats -/
abbrev col {α} (l : List α) (f : α → ℝ) : List XR := l.map fun t => XR.fin (f t)

theorem sum_col {α} (l : List α) (f : α → ℝ) : (col l f).sum = .fin (l.map f).sum :=
  XR.sum_fin l f

theorem mean_col {α} {l : List α} (h : l ≠ []) (f : α → ℝ) :
    Np.mean (col l f) = .fin (Spec.mean l f) := by
  have := Np.mean_fin (l := l.map f) (by simpa using h)
  rw [List.map_map] at this
  rw [show col l f = l.map (XR.fin ∘ f) from rfl, this, List.length_map]; rfl

theorem nanmean_col {α} (l : List α) (f : α → ℝ) :
    Np.nanmean (col l f) = Np.mean (col l f) := by
  have := Np.nanmean_fin (l.map f)
  rwa [List.map_map] at this

theorem average_col {α} (l : List α) (f w : α → ℝ) (hw : (l.map w).sum ≠ 0) :
    Np.average (col l f) (col l w) = .ok (.fin (Spec.wmean l w f)) := by
  have := Np.average_fin (x := l.map f) (w := l.map w) (by simp) hw
  rw [List.map_map, List.map_map, zipWith_maps] at this
  rw [show col l f = l.map (XR.fin ∘ f) from rfl, show col l w = l.map (XR.fin ∘ w) from rfl,
    this, Spec.wmean]
  simp only [mul_comm]

theorem dollarWeighted_col {l : List Trade} (hne : l ≠ []) (f : Trade → ℝ) (hw : Weighable l) :
    dollarWeighted (col l f) (col l Trade.vol) (col l Trade.price)
      = .ok (.fin (volMean l f)) := by
  have hb : Np.bcast (· * ·) (col l Trade.vol) (col l Trade.price)
      = .ok (col l Trade.dollar) := by
    unfold Np.bcast
    rw [if_pos (by simp), zipWith_maps]; rfl
  have hall : Np.all (fun v => XR.feq v 0) (col l Trade.dollar)
      ↔ ∀ t ∈ l, t.dollar = 0 := by
    simp [Np.all, XR.zero_def]
  rw [dollarWeighted, hb]
  show (if _ then _ else _) = _
  by_cases h : ∀ t ∈ l, t.dollar = 0
  · rw [if_pos (hall.mpr h), nanmean_col, mean_col hne, volMean, if_pos h]
  · rw [if_neg (fun h' => h (hall.mp h')), volMean, if_neg h, average_col]
    exact hw.resolve_left h

theorem map_congr_fin {α} {l : List α} {g : α → XR} {f : α → ℝ}
    (h : ∀ t ∈ l, g t = .fin (f t)) : l.map g = col l f :=
  List.map_congr_left h

/-- prices are positive -/
def PosTrades (l : List Trade) : Prop := ∀ t ∈ l, 0 < t.price ∧ 0 < t.mid ∧ 0 < t.later

/-- the direction argument for the variants `signed = true / false` -/
def dirArg (signed : Bool) (l : List Trade) : TradeDir :=
  if signed then .array (col l Trade.dir) else .none

theorem gap_unsigned_pct {d base x y : ℝ} (hb : 0 < base) :
    gap true false d base x y = 2 * |x - y| / base * 100 := by
  simp [gap, abs_div, abs_of_pos hb]; ring

theorem effectiveSpread_col {l : List Trade} (hne : l ≠ []) (hp : PosTrades l)
    (hw : Weighable l) (signed pct : Bool) :
    effectiveSpread (col l Trade.price) (col l Trade.mid) (col l Trade.vol)
      (dirArg signed l) pct = .ok (.fin (volMean l (Trade.eff pct signed))) := by
  cases signed <;> cases pct <;>
    simp only [effectiveSpread, dirArg, List.length_map, and_self, not_true_eq_false, if_false,
      ne_eq, if_true, Bool.false_eq_true, zipWith_maps] <;>
    rw [← dollarWeighted_col hne _ hw] <;> congr 1 <;> apply map_congr_fin <;> intro t ht <;>
    obtain ⟨h1, h2, h3⟩ := hp t ht <;>
    simp only [XR.fin_log h1, XR.fin_log h2, XR.fin_log h3, XR.ofNat_def, XR.fin_sub, XR.fin_abs,
      XR.fin_mul, XR.fin_div _ h2.ne', Trade.eff, gap_unsigned_pct h2] <;>
    simp [gap] <;> ring

theorem realizedSpread_col {l : List Trade} (hne : l ≠ []) (hp : PosTrades l)
    (hw : Weighable l) (signed pct : Bool) :
    realizedSpread (col l Trade.price) (col l Trade.later) (col l Trade.mid) (col l Trade.vol)
      (dirArg signed l) pct = .ok (.fin (volMean l (Trade.real pct signed))) := by
  cases signed <;> cases pct <;>
    simp only [realizedSpread, dirArg, List.length_map, and_self, not_true_eq_false, if_false,
      ne_eq, if_true, Bool.false_eq_true, zipWith_maps] <;>
    rw [← dollarWeighted_col hne _ hw] <;> congr 1 <;> apply map_congr_fin <;> intro t ht <;>
    obtain ⟨h1, h2, h3⟩ := hp t ht <;>
    simp only [XR.fin_log h1, XR.fin_log h2, XR.fin_log h3, XR.ofNat_def, XR.fin_sub, XR.fin_abs,
      XR.fin_mul, XR.fin_div _ h2.ne', Trade.real, gap_unsigned_pct h2] <;>
    simp [gap] <;> ring

theorem simplePriceImpact_col {l : List Trade} (hne : l ≠ []) (hp : PosTrades l)
    (hw : Weighable l) (signed pct : Bool) :
    simplePriceImpact (col l Trade.price) (col l Trade.later) (col l Trade.mid) (col l Trade.vol)
      (dirArg signed l) pct = .ok (.fin (volMean l (Trade.impact pct signed))) := by
  cases signed <;> cases pct <;>
    simp only [simplePriceImpact, dirArg, List.length_map, and_self, not_true_eq_false, if_false,
      ne_eq, if_true, Bool.false_eq_true, zipWith_maps] <;>
    rw [← dollarWeighted_col hne _ hw] <;> congr 1 <;> apply map_congr_fin <;> intro t ht <;>
    obtain ⟨h1, h2, h3⟩ := hp t ht <;>
    simp only [XR.fin_log h1, XR.fin_log h2, XR.fin_log h3, XR.ofNat_def, XR.fin_sub, XR.fin_abs,
      XR.fin_mul, XR.fin_div _ h2.ne', Trade.impact, gap_unsigned_pct h2] <;>
    simp [gap] <;> ring

/-! algebra of `mean` / `wmean` / `volMean` -/

theorem sum_map_add' {α} (l : List α) (f g : α → ℝ) :
    (l.map fun t => f t + g t).sum = (l.map f).sum + (l.map g).sum := by
  induction l with
  | nil => simp
  | cons a t ih => simp only [List.map_cons, List.sum_cons, ih]; ring

theorem sum_map_le' {α} {l : List α} {f g : α → ℝ} (h : ∀ t ∈ l, f t ≤ g t) :
    (l.map f).sum ≤ (l.map g).sum := List.sum_le_sum h

theorem sum_map_nonneg' {α} {l : List α} {f : α → ℝ} (h : ∀ t ∈ l, 0 ≤ f t) :
    0 ≤ (l.map f).sum :=
  List.sum_nonneg (by intro a ha; obtain ⟨t, ht, rfl⟩ := List.mem_map.mp ha; exact h t ht)

theorem sum_map_const' {α} (l : List α) (c : ℝ) : (l.map fun _ => c).sum = l.length * c := by
  simp

theorem sum_map_mul' {α} (l : List α) (c : ℝ) (f : α → ℝ) :
    (l.map fun t => c * f t).sum = c * (l.map f).sum := by
  induction l with
  | nil => simp
  | cons a t ih => simp only [List.map_cons, List.sum_cons, ih]; ring

theorem sum_eq_zero_iff' {α} {l : List α} {f : α → ℝ} (h : ∀ t ∈ l, 0 ≤ f t) :
    (l.map f).sum = 0 ↔ ∀ t ∈ l, f t = 0 := by
  induction l with
  | nil => simp
  | cons a t ih =>
    have h1 := h a (by simp)
    have h2 : ∀ t' ∈ t, 0 ≤ f t' := fun t' ht => h t' (by simp [ht])
    have h3 := sum_map_nonneg' h2
    simp only [List.map_cons, List.sum_cons, List.forall_mem_cons, ← ih h2]
    constructor
    · intro he; constructor <;> linarith
    · rintro ⟨e1, e2⟩; linarith

theorem mean_add {α} (l : List α) (f g : α → ℝ) :
    Spec.mean l (fun t => f t + g t) = Spec.mean l f + Spec.mean l g := by
  simp only [Spec.mean, sum_map_add']; ring

theorem wmean_add {α} (l : List α) (w f g : α → ℝ) :
    Spec.wmean l w (fun t => f t + g t) = Spec.wmean l w f + Spec.wmean l w g := by
  simp only [Spec.wmean, mul_add, sum_map_add']; ring

theorem volMean_add (l : List Trade) (f g : Trade → ℝ) :
    volMean l (fun t => f t + g t) = volMean l f + volMean l g := by
  unfold volMean; split_ifs
  · exact mean_add l f g
  · exact wmean_add l _ f g

theorem volMean_congr {l : List Trade} {f g : Trade → ℝ} (h : ∀ t ∈ l, f t = g t) :
    volMean l f = volMean l g := by
  unfold volMean Spec.mean Spec.wmean
  rw [List.map_congr_left (f := f) (g := g) h,
    List.map_congr_left (f := fun t => t.dollar * f t) (g := fun t => t.dollar * g t)
      (fun t ht => by rw [h t ht])]

theorem mean_mono {α} {l : List α} {f g : α → ℝ} (h : ∀ t ∈ l, f t ≤ g t) :
    Spec.mean l f ≤ Spec.mean l g :=
  div_le_div_of_nonneg_right (sum_map_le' h) (by positivity)

theorem wmean_mono {α} {l : List α} {w f g : α → ℝ} (hw : ∀ t ∈ l, 0 ≤ w t)
    (h : ∀ t ∈ l, f t ≤ g t) : Spec.wmean l w f ≤ Spec.wmean l w g :=
  div_le_div_of_nonneg_right
    (sum_map_le' fun t ht => mul_le_mul_of_nonneg_left (h t ht) (hw t ht)) (sum_map_nonneg' hw)

theorem volMean_mono {l : List Trade} {f g : Trade → ℝ} (hw : ∀ t ∈ l, 0 ≤ t.dollar)
    (h : ∀ t ∈ l, f t ≤ g t) : volMean l f ≤ volMean l g := by
  unfold volMean; split_ifs
  · exact mean_mono h
  · exact wmean_mono hw h

theorem volMean_nonneg {l : List Trade} {f : Trade → ℝ} (hw : ∀ t ∈ l, 0 ≤ t.dollar)
    (h : ∀ t ∈ l, 0 ≤ f t) : 0 ≤ volMean l f := by
  have := volMean_mono (l := l) (f := fun _ => 0) (g := f) hw h
  have h0 : volMean l (fun _ => 0) = 0 := by
    unfold volMean Spec.mean Spec.wmean; split_ifs <;> simp
  linarith

theorem weighable_of_nonneg {l : List Trade} (hw : ∀ t ∈ l, 0 ≤ t.dollar) : Weighable l := by
  by_cases h : (l.map Trade.dollar).sum = 0
  · exact Or.inl ((sum_eq_zero_iff' hw).mp h)
  · exact Or.inr h

end
end Frds

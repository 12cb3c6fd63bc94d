import Verif.Lemmas.Spread

/-! Properties C47-C54: bid-ask spreads and price impact. -/
namespace Frds.Props
noncomputable section
open Frds Frds.Model Frds.Spec Classical

/-- valid quotes: `0 < bid ≤ ask` -/
def ValidQuotes (l : List Quote) : Prop := ∀ t ∈ l, 0 < t.bid ∧ t.bid ≤ t.ask

/-- C47a. Percentage quoted spread: 100 × mean of (ask-bid)/midpoint. -/
theorem C47_quoted_pct {l : List Quote} (hne : l ≠ []) (h : ∀ t ∈ l, t.bid + t.ask ≠ 0) :
    quotedSpread (col l Quote.bid) (col l Quote.ask) true
      = .ok (.fin (100 * mean l fun t => (t.ask - t.bid) / ((t.bid + t.ask) / 2))) := by
  simp only [quotedSpread, List.length_map, ne_eq, not_true_eq_false, if_false, if_true,
    zipWith_maps]
  have : (l.map fun t => (XR.fin t.ask - XR.fin t.bid) / ((XR.fin t.bid + XR.fin t.ask) / 2))
      = col l fun t => (t.ask - t.bid) / ((t.bid + t.ask) / 2) := by
    apply map_congr_fin; intro t ht
    have h2 := h t ht
    rw [XR.ofNat_def, XR.fin_add, XR.fin_sub, XR.fin_div _ (by norm_num),
      XR.fin_div _ (by
        intro h0; apply h2
        rcases div_eq_zero_iff.mp h0 with h0 | h0
        · exact h0
        · norm_num at h0)]
  rw [this, mean_col hne, XR.ofNat_def, XR.fin_mul, mul_comm]

/-- C47b. Log quoted spread: mean of ln ask - ln bid = ln (ask/bid). -/
theorem C47_quoted_log {l : List Quote} (hne : l ≠ []) (h : ∀ t ∈ l, 0 < t.bid ∧ 0 < t.ask) :
    quotedSpread (col l Quote.bid) (col l Quote.ask) false
      = .ok (.fin (mean l fun t => Real.log (t.ask / t.bid))) := by
  simp only [quotedSpread, List.length_map, ne_eq, not_true_eq_false, if_false,
    zipWith_maps, Bool.false_eq_true]
  have : (l.map fun t => XR.log (XR.fin t.ask) - XR.log (XR.fin t.bid))
      = col l fun t => Real.log (t.ask / t.bid) := by
    apply map_congr_fin; intro t ht
    obtain ⟨h1, h2⟩ := h t ht
    rw [XR.fin_log h1, XR.fin_log h2, XR.fin_sub, Real.log_div h2.ne' h1.ne']
  rw [this, mean_col hne]

theorem mean_eq_zero_iff {α} {l : List α} (hne : l ≠ []) {f : α → ℝ} (h : ∀ t ∈ l, 0 ≤ f t) :
    mean l f = 0 ↔ ∀ t ∈ l, f t = 0 := by
  have hl : (l.length : ℝ) ≠ 0 := by
    have := List.length_pos_iff.mpr hne; positivity
  rw [mean, div_eq_zero_iff, or_iff_left hl]
  exact sum_eq_zero_iff' h

/-- C47c. For valid quotes the percentage spread is in [0, 200), and it is zero iff
bid = ask in every quote; likewise the log spread is non-negative. -/
theorem C47_bounds {l : List Quote} (hne : l ≠ []) (h : ValidQuotes l) :
    ∃ x y : ℝ, quotedSpread (col l Quote.bid) (col l Quote.ask) true = .ok (.fin x) ∧
      quotedSpread (col l Quote.bid) (col l Quote.ask) false = .ok (.fin y) ∧
      0 ≤ x ∧ x < 200 ∧ 0 ≤ y ∧ (x = 0 ↔ ∀ t ∈ l, t.bid = t.ask) ∧
      (y = 0 ↔ ∀ t ∈ l, t.bid = t.ask) := by
  have hl : (0:ℝ) < l.length := by
    have := List.length_pos_iff.mpr hne; positivity
  have hpos : ∀ t ∈ l, 0 < t.bid ∧ 0 < t.ask := fun t ht =>
    ⟨(h t ht).1, (h t ht).1.trans_le (h t ht).2⟩
  have hn : ∀ t ∈ l, 0 ≤ (t.ask - t.bid) / ((t.bid + t.ask) / 2) := by
    intro t ht
    obtain ⟨h1, h2⟩ := hpos t ht
    have := (h t ht).2
    exact div_nonneg (by linarith) (by linarith)
  have hn' : ∀ t ∈ l, 0 ≤ Real.log (t.ask / t.bid) := by
    intro t ht
    obtain ⟨h1, h2⟩ := hpos t ht
    exact Real.log_nonneg ((one_le_div h1).mpr (h t ht).2)
  have hlt : ∀ t ∈ l, (t.ask - t.bid) / ((t.bid + t.ask) / 2) < 2 := by
    intro t ht
    obtain ⟨h1, h2⟩ := hpos t ht
    rw [div_lt_iff₀ (by linarith)]; linarith
  refine ⟨_, _, C47_quoted_pct hne (fun t ht => by have := hpos t ht; linarith),
    C47_quoted_log hne hpos, ?_, ?_, ?_, ?_, ?_⟩
  · exact mul_nonneg (by norm_num) (div_nonneg (sum_map_nonneg' hn) hl.le)
  · have : mean l (fun t => (t.ask - t.bid) / ((t.bid + t.ask) / 2)) < 2 := by
      rw [mean, div_lt_iff₀ hl]
      have := List.sum_lt_sum_of_ne_nil hne _ _ hlt
      simpa [mul_comm] using this
    linarith
  · exact div_nonneg (sum_map_nonneg' hn') hl.le
  · rw [mul_eq_zero, or_iff_right (by norm_num), mean_eq_zero_iff hne hn]
    refine forall₂_congr fun t ht => ?_
    obtain ⟨h1, h2⟩ := hpos t ht
    rw [div_eq_zero_iff, or_iff_left (by linarith), sub_eq_zero, eq_comm]
  · rw [mean_eq_zero_iff hne hn']
    refine forall₂_congr fun t ht => ?_
    obtain ⟨h1, h2⟩ := hpos t ht
    rw [Real.log_div h2.ne' h1.ne', sub_eq_zero]
    constructor
    · intro he; exact (Real.log_injOn_pos h2 h1 he).symm
    · intro he; rw [he]

example : ValidQuotes [⟨99, 101⟩, ⟨10, 10⟩] ∧ ([⟨99, 101⟩, ⟨10, 10⟩] : List Quote) ≠ [] := by
  constructor
  · intro t ht; simp at ht; rcases ht with rfl | rfl <;> norm_num
  · simp

/-- C47d. Swapping bids and asks negates the quoted spread. -/
theorem C47_antisymm {l : List Quote} (hne : l ≠ []) (h : ∀ t ∈ l, 0 < t.bid ∧ 0 < t.ask)
    (pct : Bool) :
    ∃ x : ℝ, quotedSpread (col l Quote.bid) (col l Quote.ask) pct = .ok (.fin x) ∧
      quotedSpread (col l Quote.ask) (col l Quote.bid) pct = .ok (.fin (-x)) := by
  have hl : (l.map fun t => (⟨t.ask, t.bid⟩ : Quote)) ≠ [] := by simpa using hne
  have hcol : ∀ f : Quote → ℝ, col (l.map fun t => (⟨t.ask, t.bid⟩ : Quote)) f
      = col l fun t => f ⟨t.ask, t.bid⟩ := by intro f; simp [col]
  have hneg : ∀ f : Quote → ℝ, mean l (fun t => - f t) = - mean l f := by
    intro f
    have := sum_map_mul' l (-1) f
    simp only [neg_one_mul] at this
    rw [mean, mean, this]; ring
  cases pct
  · refine ⟨_, C47_quoted_log hne h, ?_⟩
    have := C47_quoted_log hl (by
      intro t ht; obtain ⟨u, hu, rfl⟩ := List.mem_map.mp ht
      exact ⟨(h u hu).2, (h u hu).1⟩)
    rw [hcol, hcol] at this
    rw [this, ← hneg, mean, mean, List.map_map, List.length_map]
    congr 4
    apply List.map_congr_left
    intro t ht
    obtain ⟨h1, h2⟩ := h t ht
    simp only [Function.comp]
    rw [Real.log_div h1.ne' h2.ne', Real.log_div h2.ne' h1.ne']; ring
  · refine ⟨_, C47_quoted_pct hne (fun t ht => by have := h t ht; linarith), ?_⟩
    have := C47_quoted_pct hl (by
      intro t ht; obtain ⟨u, hu, rfl⟩ := List.mem_map.mp ht
      have := h u hu; simp only; linarith)
    rw [hcol, hcol] at this
    rw [this, ← mul_neg, ← hneg, mean, mean, List.map_map, List.length_map]
    congr 5
    apply List.map_congr_left
    intro t ht
    simp only [Function.comp]
    rw [add_comm t.ask t.bid]; ring

/-- C47e. Quoted spreads do not depend on the price unit. -/
theorem C47_scale {l : List Quote} (hne : l ≠ []) (h : ∀ t ∈ l, 0 < t.bid ∧ 0 < t.ask)
    (pct : Bool) {c : ℝ} (hc : 0 < c) :
    quotedSpread (col l fun t => c * t.bid) (col l fun t => c * t.ask) pct
      = quotedSpread (col l Quote.bid) (col l Quote.ask) pct := by
  have hl : (l.map fun t => (⟨c * t.bid, c * t.ask⟩ : Quote)) ≠ [] := by simpa using hne
  have hcol : ∀ f : Quote → ℝ, col (l.map fun t => (⟨c * t.bid, c * t.ask⟩ : Quote)) f
      = col l fun t => f ⟨c * t.bid, c * t.ask⟩ := by intro f; simp [col]
  cases pct
  · have := C47_quoted_log hl (by
      intro t ht; obtain ⟨u, hu, rfl⟩ := List.mem_map.mp ht
      exact ⟨mul_pos hc (h u hu).1, mul_pos hc (h u hu).2⟩)
    rw [hcol, hcol] at this
    rw [this, C47_quoted_log hne h, mean, mean, List.map_map, List.length_map]
    congr 4
    apply List.map_congr_left
    intro t ht
    simp only [Function.comp]
    rw [mul_div_mul_left _ _ hc.ne']
  · have := C47_quoted_pct hl (by
      intro t ht; obtain ⟨u, hu, rfl⟩ := List.mem_map.mp ht
      have := h u hu; simp only
      have : 0 < c * u.bid + c * u.ask :=
        add_pos (mul_pos hc this.1) (mul_pos hc this.2)
      exact this.ne')
    rw [hcol, hcol] at this
    rw [this, C47_quoted_pct hne (fun t ht => by have := h t ht; linarith), mean, mean,
      List.map_map, List.length_map]
    congr 5
    apply List.map_congr_left
    intro t ht
    simp only [Function.comp]
    rw [← mul_sub, ← mul_add, mul_div_assoc c (t.bid + t.ask), mul_div_mul_left _ _ hc.ne']

/-- C48. The three measures are dollar-volume weighted means (simple means when nothing
traded) of the documented per-trade quantities, for all four variants. -/
theorem C48_weighted_means {l : List Trade} (hne : l ≠ []) (hp : PosTrades l) (hw : Weighable l)
    (signed pct : Bool) :
    effectiveSpread (col l Trade.price) (col l Trade.mid) (col l Trade.vol)
        (dirArg signed l) pct = .ok (.fin (volMean l (Trade.eff pct signed))) ∧
    realizedSpread (col l Trade.price) (col l Trade.later) (col l Trade.mid) (col l Trade.vol)
        (dirArg signed l) pct = .ok (.fin (volMean l (Trade.real pct signed))) ∧
    simplePriceImpact (col l Trade.price) (col l Trade.later) (col l Trade.mid) (col l Trade.vol)
        (dirArg signed l) pct = .ok (.fin (volMean l (Trade.impact pct signed))) :=
  ⟨effectiveSpread_col hne hp hw signed pct, realizedSpread_col hne hp hw signed pct,
    simplePriceImpact_col hne hp hw signed pct⟩

/-- A concrete data set meeting the hypotheses of C48-C52. -/
def sampleTrades : List Trade :=
  [⟨101, 100, 100.5, 10, 1⟩, ⟨99, 100, 98, 5, -1⟩, ⟨100, 100, 100, 0, 1⟩]

theorem sampleTrades_ok : sampleTrades ≠ [] ∧ PosTrades sampleTrades ∧
    (∀ t ∈ sampleTrades, 0 ≤ t.dollar) ∧ Weighable sampleTrades ∧
    ¬ (∀ t ∈ sampleTrades, t.dollar = 0) := by
  have h1 : ∀ t ∈ sampleTrades, 0 ≤ t.dollar := by
    intro t ht; simp [sampleTrades] at ht
    rcases ht with rfl | rfl | rfl <;> norm_num [Trade.dollar]
  refine ⟨by simp [sampleTrades], ?_, h1, weighable_of_nonneg h1, ?_⟩
  · intro t ht; simp [sampleTrades] at ht
    rcases ht with rfl | rfl | rfl <;> norm_num
  · intro h
    have := h ⟨101, 100, 100.5, 10, 1⟩ (by simp [sampleTrades])
    norm_num [Trade.dollar] at this

/-- C49. With trade directions: effective spread = realized spread + price impact. -/
theorem C49_decomposition {l : List Trade} (hne : l ≠ []) (hp : PosTrades l) (hw : Weighable l)
    (pct : Bool) :
    ∃ e r i : ℝ,
      effectiveSpread (col l Trade.price) (col l Trade.mid) (col l Trade.vol)
        (.array (col l Trade.dir)) pct = .ok (.fin e) ∧
      realizedSpread (col l Trade.price) (col l Trade.later) (col l Trade.mid) (col l Trade.vol)
        (.array (col l Trade.dir)) pct = .ok (.fin r) ∧
      simplePriceImpact (col l Trade.price) (col l Trade.later) (col l Trade.mid)
        (col l Trade.vol) (.array (col l Trade.dir)) pct = .ok (.fin i) ∧
      e = r + i := by
  refine ⟨_, _, _, effectiveSpread_col hne hp hw true pct, realizedSpread_col hne hp hw true pct,
    simplePriceImpact_col hne hp hw true pct, ?_⟩
  rw [← volMean_add]
  apply volMean_congr
  intro t _
  cases pct <;> simp [Trade.eff, Trade.real, Trade.impact, gap] <;> ring

example := C49_decomposition sampleTrades_ok.1 sampleTrades_ok.2.1 sampleTrades_ok.2.2.2.1 true

/-- C50. Without directions: non-negative, and effective ≤ realized + impact. -/
theorem C50_triangle {l : List Trade} (hne : l ≠ []) (hp : PosTrades l)
    (hv : ∀ t ∈ l, 0 ≤ t.vol) (pct : Bool) :
    ∃ e r i : ℝ,
      effectiveSpread (col l Trade.price) (col l Trade.mid) (col l Trade.vol) .none pct
        = .ok (.fin e) ∧
      realizedSpread (col l Trade.price) (col l Trade.later) (col l Trade.mid) (col l Trade.vol)
        .none pct = .ok (.fin r) ∧
      simplePriceImpact (col l Trade.price) (col l Trade.later) (col l Trade.mid)
        (col l Trade.vol) .none pct = .ok (.fin i) ∧
      0 ≤ e ∧ 0 ≤ r ∧ 0 ≤ i ∧ e ≤ r + i := by
  have hd : ∀ t ∈ l, 0 ≤ t.dollar := fun t ht => mul_nonneg (hv t ht) (hp t ht).1.le
  have hw := weighable_of_nonneg hd
  have hg : ∀ d b x y : ℝ, 0 ≤ gap pct false d b x y := by
    intro d b x y; cases pct <;> simp [gap]
  refine ⟨_, _, _, effectiveSpread_col hne hp hw false pct,
    realizedSpread_col hne hp hw false pct, simplePriceImpact_col hne hp hw false pct,
    volMean_nonneg hd fun t _ => hg _ _ _ _, volMean_nonneg hd fun t _ => hg _ _ _ _,
    volMean_nonneg hd fun t _ => hg _ _ _ _, ?_⟩
  rw [← volMean_add]
  apply volMean_mono hd
  intro t ht
  cases pct
  · simp only [Trade.eff, Trade.real, Trade.impact, gap, Bool.false_eq_true, if_false]
    have := abs_sub_le (Real.log t.price) (Real.log t.later) (Real.log t.mid)
    linarith
  · simp only [Trade.eff, Trade.real, Trade.impact, gap_unsigned_pct (hp t ht).2.1]
    have := abs_sub_le t.price t.later t.mid
    have h2 := (hp t ht).2.1
    rw [← add_mul, ← add_div]
    gcongr
    linarith

example := C50_triangle sampleTrades_ok.1 sampleTrades_ok.2.1
  (by intro t ht; simp [sampleTrades] at ht; rcases ht with rfl | rfl | rfl <;> norm_num) true

theorem gap_sign (pct : Bool) {d b x y : ℝ} (hb : 0 < b) (hx : 0 < x) (hy : 0 < y)
    (hd : d = if y < x then 1 else if x < y then -1 else 0) :
    gap pct true d b x y = gap pct false d b x y := by
  rcases lt_trichotomy x y with h | h | h
  · rw [if_neg (not_lt.mpr h.le), if_pos h] at hd
    have hl := Real.log_lt_log hx h
    cases pct <;> simp only [gap, hd, if_true, if_false, Bool.false_eq_true]
    · rw [abs_of_neg (by linarith)]; ring
    · rw [abs_of_neg (div_neg_of_neg_of_pos (by linarith) hb)]; ring
  · subst h
    rw [if_neg (lt_irrefl _), if_neg (lt_irrefl _)] at hd
    cases pct <;> simp [gap]
  · rw [if_pos h] at hd
    have hl := Real.log_lt_log hy h
    cases pct <;> simp only [gap, hd, if_true, if_false, Bool.false_eq_true]
    · rw [abs_of_pos (by linarith)]; ring
    · rw [abs_of_pos (div_pos (by linarith) hb)]; ring

/-- C51a. If every direction is the sign of price - midpoint, the signed effective spread
equals the unsigned one. -/
theorem C51_sign_direction {l : List Trade} (hne : l ≠ []) (hp : PosTrades l) (hw : Weighable l)
    (hd : ∀ t ∈ l, t.dir = if t.mid < t.price then 1 else if t.price < t.mid then -1 else 0)
    (pct : Bool) :
    effectiveSpread (col l Trade.price) (col l Trade.mid) (col l Trade.vol)
        (.array (col l Trade.dir)) pct
      = effectiveSpread (col l Trade.price) (col l Trade.mid) (col l Trade.vol) .none pct := by
  rw [show TradeDir.array (col l Trade.dir) = dirArg true l from rfl,
    show TradeDir.none = dirArg false l from rfl,
    effectiveSpread_col hne hp hw, effectiveSpread_col hne hp hw]
  congr 2
  apply volMean_congr
  intro t ht
  exact gap_sign pct (hp t ht).2.1 (hp t ht).1 (hp t ht).2.1 (hd t ht)

example : ∀ t ∈ sampleTrades.take 2,
    t.dir = if t.mid < t.price then 1 else if t.price < t.mid then -1 else 0 := by
  intro t ht; simp [sampleTrades] at ht
  rcases ht with rfl | rfl <;> norm_num

/-- C51b. A direction passed as a Python list is ignored, whatever its content or length. -/
theorem C51_list_ignored (price later mid vol d : List XR) (pct : Bool) :
    effectiveSpread price mid vol (.list d) pct = effectiveSpread price mid vol .none pct ∧
    realizedSpread price later mid vol (.list d) pct
      = realizedSpread price later mid vol .none pct ∧
    simplePriceImpact price later mid vol (.list d) pct
      = simplePriceImpact price later mid vol .none pct := by
  refine ⟨?_, ?_, ?_⟩
  · simp only [effectiveSpread]
  · simp only [realizedSpread]
  · simp only [simplePriceImpact]

theorem gap_scale (pct signed : Bool) (d : ℝ) {b x y c : ℝ} (hx : 0 < x) (hy : 0 < y)
    (hc : 0 < c) : gap pct signed d (c * b) (c * x) (c * y) = gap pct signed d b x y := by
  have h1 : (c * x - c * y) / (c * b) = (x - y) / b := by
    rw [← mul_sub, mul_div_mul_left _ _ hc.ne']
  have h2 : Real.log (c * x) - Real.log (c * y) = Real.log x - Real.log y := by
    rw [Real.log_mul hc.ne' hx.ne', Real.log_mul hc.ne' hy.ne']; ring
  cases pct <;> simp [gap, h1, h2]

theorem volMean_scale {l : List Trade} {f : Trade → ℝ} {c : ℝ} (hc : 0 < c)
    (g : Trade → Trade) (hg : ∀ t ∈ l, (g t).dollar = c * t.dollar)
    (hf : ∀ t ∈ l, f (g t) = f t) : volMean (l.map g) f = volMean l f := by
  have hz : (∀ t ∈ l.map g, t.dollar = 0) ↔ ∀ t ∈ l, t.dollar = 0 := by
    simp only [List.forall_mem_map]
    refine forall₂_congr fun t ht => ?_
    rw [hg t ht, mul_eq_zero, or_iff_right hc.ne']
  unfold volMean
  by_cases h : ∀ t ∈ l, t.dollar = 0
  · rw [if_pos h, if_pos (hz.mpr h), mean, mean, List.map_map, List.length_map,
      List.map_congr_left (f := f ∘ g) (g := f) (fun t ht => hf t ht)]
  · rw [if_neg h, if_neg (fun h' => h (hz.mp h')), wmean, wmean, List.map_map, List.map_map,
      List.map_congr_left (f := (fun t => t.dollar * f t) ∘ g)
        (g := fun t => c * (t.dollar * f t))
        (fun t ht => by simp only [Function.comp]; rw [hg t ht, hf t ht]; ring),
      List.map_congr_left (f := Trade.dollar ∘ g) (g := fun t => c * t.dollar)
        (fun t ht => hg t ht), sum_map_mul', sum_map_mul', mul_div_mul_left _ _ hc.ne']

theorem weighable_scale {l : List Trade} {c : ℝ} (hc : 0 < c)
    (g : Trade → Trade) (hg : ∀ t ∈ l, (g t).dollar = c * t.dollar) (hw : Weighable l) :
    Weighable (l.map g) := by
  rcases hw with hw | hw
  · left
    simp only [List.forall_mem_map]
    intro t ht; rw [hg t ht, hw t ht, mul_zero]
  · right
    rw [List.map_map, List.map_congr_left (f := Trade.dollar ∘ g) (g := fun t => c * t.dollar)
        (fun t ht => hg t ht), sum_map_mul']
    exact mul_ne_zero hc.ne' hw

/-- C52. Multiplying all prices by `c > 0` and all volumes by `v > 0` changes nothing. -/
theorem C52_units {l : List Trade} (hne : l ≠ []) (hp : PosTrades l) (hw : Weighable l)
    (signed pct : Bool) {c v : ℝ} (hc : 0 < c) (hv : 0 < v) :
    effectiveSpread (col l fun t => c * t.price) (col l fun t => c * t.mid)
        (col l fun t => v * t.vol) (dirArg signed l) pct
      = effectiveSpread (col l Trade.price) (col l Trade.mid) (col l Trade.vol)
        (dirArg signed l) pct ∧
    realizedSpread (col l fun t => c * t.price) (col l fun t => c * t.later)
        (col l fun t => c * t.mid) (col l fun t => v * t.vol) (dirArg signed l) pct
      = realizedSpread (col l Trade.price) (col l Trade.later) (col l Trade.mid)
        (col l Trade.vol) (dirArg signed l) pct ∧
    simplePriceImpact (col l fun t => c * t.price) (col l fun t => c * t.later)
        (col l fun t => c * t.mid) (col l fun t => v * t.vol) (dirArg signed l) pct
      = simplePriceImpact (col l Trade.price) (col l Trade.later) (col l Trade.mid)
        (col l Trade.vol) (dirArg signed l) pct := by
  set g : Trade → Trade := fun t => ⟨c * t.price, c * t.mid, c * t.later, v * t.vol, t.dir⟩ with hg
  have hcv : 0 < v * c := mul_pos hv hc
  have hgd : ∀ t ∈ l, (g t).dollar = (v * c) * t.dollar := by
    intro t _; simp only [g, Trade.dollar]; ring
  have hne' : l.map g ≠ [] := by simpa using hne
  have hp' : PosTrades (l.map g) := by
    intro t ht; obtain ⟨u, hu, rfl⟩ := List.mem_map.mp ht
    obtain ⟨h1, h2, h3⟩ := hp u hu
    exact ⟨mul_pos hc h1, mul_pos hc h2, mul_pos hc h3⟩
  have hw' := weighable_scale hcv g hgd hw
  have hcol : ∀ f : Trade → ℝ, col (l.map g) f = col l fun t => f (g t) := by
    intro f; simp [col]
  have hdir : dirArg signed (l.map g) = dirArg signed l := by
    simp only [dirArg, hcol]; rfl
  have e1 := effectiveSpread_col hne' hp' hw' signed pct
  have e2 := realizedSpread_col hne' hp' hw' signed pct
  have e3 := simplePriceImpact_col hne' hp' hw' signed pct
  simp only [hcol, hdir] at e1 e2 e3
  refine ⟨?_, ?_, ?_⟩
  · rw [effectiveSpread_col hne hp hw, e1, volMean_scale hcv g hgd]
    intro t ht; obtain ⟨h1, h2, h3⟩ := hp t ht
    exact gap_scale pct signed _ h1 h2 hc
  · rw [realizedSpread_col hne hp hw, e2, volMean_scale hcv g hgd]
    intro t ht; obtain ⟨h1, h2, h3⟩ := hp t ht
    exact gap_scale pct signed _ h1 h3 hc
  · rw [simplePriceImpact_col hne hp hw, e3, volMean_scale hcv g hgd]
    intro t ht; obtain ⟨h1, h2, h3⟩ := hp t ht
    exact gap_scale pct signed _ h3 h2 hc

example := C52_units sampleTrades_ok.1 sampleTrades_ok.2.1 sampleTrades_ok.2.2.2.1 true true
  (c := 100) (v := 0.01) (by norm_num) (by norm_num)

/-- the per-trade quantity averaged by the three functions, for arbitrary (NaN or infinite) data: `x` against
the reference `y`, relative to `base` in percentage form, with direction `d` if `signed` -/
def perTrade (pct signed : Bool) (x y base d : XR) : XR :=
  match signed, pct with
  | true, true => 2 * d * (x - y) / base * 100
  | true, false => 2 * d * (XR.log x - XR.log y)
  | false, true => 2 * XR.abs (x - y) / base * 100
  | false, false => 2 * XR.abs (XR.log x - XR.log y)

/-- C53a. If every dollar volume is zero each of the three functions, in all four variants, returns the plain
mean of the per-trade quantities over the trades where it is defined (not NaN). Prices, midpoints and
directions may be zero, NaN or infinite; for no usable trade the result is NaN. -/
theorem C53_zero_volume {α : Type} (l : List α) (price later mid vol d : α → XR)
    (h : ∀ t ∈ l, vol t * price t = 0) (signed pct : Bool) :
    effectiveSpread (l.map price) (l.map mid) (l.map vol)
        (if signed then .array (l.map d) else .none) pct
      = .ok (Np.mean ((l.map fun t => perTrade pct signed (price t) (mid t) (mid t) (d t)).filter
          fun v => ¬ v.isNan)) ∧
    realizedSpread (l.map price) (l.map later) (l.map mid) (l.map vol)
        (if signed then .array (l.map d) else .none) pct
      = .ok (Np.mean ((l.map fun t => perTrade pct signed (price t) (later t) (mid t) (d t)).filter
          fun v => ¬ v.isNan)) ∧
    simplePriceImpact (l.map price) (l.map later) (l.map mid) (l.map vol)
        (if signed then .array (l.map d) else .none) pct
      = .ok (Np.mean ((l.map fun t => perTrade pct signed (later t) (mid t) (mid t) (d t)).filter
          fun v => ¬ v.isNan)) := by
  have key : ∀ s : List XR, dollarWeighted s (l.map vol) (l.map price)
      = .ok (Np.mean (s.filter fun v => ¬ v.isNan)) := by
    intro s
    have hb : Np.bcast (· * ·) (l.map vol) (l.map price) = .ok (l.map fun t => vol t * price t) := by
      unfold Np.bcast
      rw [if_pos (by simp), zipWith_maps]
    rw [dollarWeighted, hb]
    show (if _ then _ else _) = _
    rw [if_pos]
    · rfl
    · intro v hv
      obtain ⟨t, ht, rfl⟩ := List.mem_map.mp hv
      rw [h t ht]
      simp [XR.zero_def]
  refine ⟨?_, ?_, ?_⟩
  · cases signed <;> cases pct <;>
    simp only [effectiveSpread, List.length_map, and_self, not_true_eq_false, if_false,
      ne_eq, if_true, Bool.false_eq_true, zipWith_maps, perTrade] <;> exact key _
  · cases signed <;> cases pct <;>
    simp only [realizedSpread, List.length_map, and_self, not_true_eq_false, if_false,
      ne_eq, if_true, Bool.false_eq_true, zipWith_maps, perTrade] <;> exact key _
  · cases signed <;> cases pct <;>
    simp only [simplePriceImpact, List.length_map, and_self, not_true_eq_false, if_false,
      ne_eq, if_true, Bool.false_eq_true, zipWith_maps, perTrade] <;> exact key _

/-- not vacuous: three trades without volume, one of them with an unknown midpoint -/
example : effectiveSpread [.fin 101, .fin 7, .fin 99] [.fin 100, .nan, .fin 100] [.fin 0, .fin 0, .fin 0]
    .none true = .ok (.fin 2) := by
  have h := (C53_zero_volume [(XR.fin 101, XR.fin 100), (.fin 7, .nan), (.fin 99, .fin 100)]
    (fun t => t.1) (fun _ => 0) (fun t => t.2) (fun _ => .fin 0) (fun _ => 0) (by simp [XR.zero_def])
    false true).1
  simp only [List.map_cons, List.map_nil, Bool.false_eq_true, if_false, perTrade] at h
  rw [h]
  have e1 : (2 * XR.abs (.fin 101 - .fin 100) / .fin 100 * 100 : XR) = .fin 2 := by
    rw [XR.ofNat_def, XR.ofNat_def, XR.fin_sub, XR.fin_abs, XR.fin_mul, XR.fin_div _ (by norm_num), XR.fin_mul]
    norm_num
  have e2 : (2 * XR.abs (.fin 99 - .fin 100) / .fin 100 * 100 : XR) = .fin 2 := by
    rw [XR.ofNat_def, XR.ofNat_def, XR.fin_sub, XR.fin_abs, XR.fin_mul, XR.fin_div _ (by norm_num), XR.fin_mul]
    norm_num
  have e3 : (2 * XR.abs (.fin 7 - .nan) / .nan * 100 : XR) = .nan := by
    simp
  rw [e1, e2, e3]
  have e4 : ([XR.fin 2, .nan, .fin 2].filter fun v => ¬ v.isNan) = [.fin 2, .fin 2] := by
    simp [XR.isNan]
  rw [e4]
  simp [Np.mean]
  norm_num
  rw [XR.fin_div _ (by norm_num)]
  norm_num

/-- C53b. Dollar volumes that are not all zero but sum to zero raise `ZeroDivisionError`
in all three functions. -/
theorem C53_zero_sum {l : List Trade} (h0 : (l.map Trade.dollar).sum = 0)
    (h1 : ∃ t ∈ l, t.dollar ≠ 0) (signed pct : Bool) :
    effectiveSpread (col l Trade.price) (col l Trade.mid) (col l Trade.vol)
        (dirArg signed l) pct = .error .zeroDivisionError ∧
    realizedSpread (col l Trade.price) (col l Trade.later) (col l Trade.mid) (col l Trade.vol)
        (dirArg signed l) pct = .error .zeroDivisionError ∧
    simplePriceImpact (col l Trade.price) (col l Trade.later) (col l Trade.mid) (col l Trade.vol)
        (dirArg signed l) pct = .error .zeroDivisionError := by
  have key : ∀ s : List XR, s.length = l.length →
      dollarWeighted s (col l Trade.vol) (col l Trade.price) = .error .zeroDivisionError := by
    intro s hs
    have hb : Np.bcast (· * ·) (col l Trade.vol) (col l Trade.price)
        = .ok (col l Trade.dollar) := by
      unfold Np.bcast
      rw [if_pos (by simp), zipWith_maps]; rfl
    rw [dollarWeighted, hb]
    show (if _ then _ else _) = _
    rw [if_neg, Np.average, if_neg (by simp [hs]), sum_col, h0, if_pos (by simp)]
    simp only [Np.all, not_forall]
    obtain ⟨t, ht, hne⟩ := h1
    exact ⟨.fin t.dollar, List.mem_map.mpr ⟨t, ht, rfl⟩, by simpa [XR.zero_def] using hne⟩
  refine ⟨?_, ?_, ?_⟩
  · cases signed <;> cases pct <;>
    simp only [effectiveSpread, dirArg, List.length_map, and_self, not_true_eq_false, if_false,
      ne_eq, if_true, Bool.false_eq_true, zipWith_maps] <;> apply key <;> simp
  · cases signed <;> cases pct <;>
    simp only [realizedSpread, dirArg, List.length_map, and_self, not_true_eq_false, if_false,
      ne_eq, if_true, Bool.false_eq_true, zipWith_maps] <;> apply key <;> simp
  · cases signed <;> cases pct <;>
    simp only [simplePriceImpact, dirArg, List.length_map, and_self, not_true_eq_false, if_false,
      ne_eq, if_true, Bool.false_eq_true, zipWith_maps] <;> apply key <;> simp

example : (([⟨10, 10, 10, 1, 1⟩, ⟨10, 10, 10, -1, 1⟩] : List Trade).map Trade.dollar).sum = 0 ∧
    ∃ t ∈ ([⟨10, 10, 10, 1, 1⟩, ⟨10, 10, 10, -1, 1⟩] : List Trade), t.dollar ≠ 0 := by
  constructor
  · norm_num [Trade.dollar]
  · exact ⟨⟨10, 10, 10, 1, 1⟩, by simp, by norm_num [Trade.dollar]⟩

/-- C53c. With non-negative volumes and positive prices no `ZeroDivisionError` can occur: all three functions
return a number. -/
theorem C53_nonneg_ok {l : List Trade} (hne : l ≠ []) (hp : PosTrades l)
    (hv : ∀ t ∈ l, 0 ≤ t.vol) (signed pct : Bool) :
    (∃ x : ℝ, effectiveSpread (col l Trade.price) (col l Trade.mid) (col l Trade.vol)
        (dirArg signed l) pct = .ok (.fin x)) ∧
    (∃ x : ℝ, realizedSpread (col l Trade.price) (col l Trade.later) (col l Trade.mid) (col l Trade.vol)
        (dirArg signed l) pct = .ok (.fin x)) ∧
    ∃ x : ℝ, simplePriceImpact (col l Trade.price) (col l Trade.later) (col l Trade.mid) (col l Trade.vol)
        (dirArg signed l) pct = .ok (.fin x) :=
  have h := C48_weighted_means hne hp
    (weighable_of_nonneg fun t ht => mul_nonneg (hv t ht) (hp t ht).1.le) signed pct
  ⟨⟨_, h.1⟩, ⟨_, h.2.1⟩, ⟨_, h.2.2⟩⟩

/-- C54a. Length mismatches raise `AssertionError`. -/
theorem C54_shape_checks (price later mid vol : List XR) (dir : TradeDir) (pct : Bool) :
    (¬ (price.length = mid.length ∧ mid.length = vol.length) →
      effectiveSpread price mid vol dir pct = .error .assertionError) ∧
    (¬ (price.length = later.length ∧ later.length = mid.length ∧ mid.length = vol.length) →
      realizedSpread price later mid vol dir pct = .error .assertionError) ∧
    (¬ (later.length = mid.length ∧ mid.length = vol.length) →
      simplePriceImpact price later mid vol dir pct = .error .assertionError) ∧
    (price.length ≠ mid.length →
      quotedSpread price mid pct = .error .assertionError) ∧
    (∀ d, price.length ≠ d.length →
      effectiveSpread price mid vol (.array d) pct = .error .assertionError ∧
      realizedSpread price later mid vol (.array d) pct = .error .assertionError) := by
  refine ⟨fun h => ?_, fun h => ?_, fun h => ?_, fun h => ?_, fun d h => ⟨?_, ?_⟩⟩
  · simp only [effectiveSpread]; rw [if_pos h]
  · simp only [realizedSpread]; rw [if_pos h]
  · simp only [simplePriceImpact]; rw [if_pos h]
  · simp only [quotedSpread]; rw [if_pos h]
  · simp only [effectiveSpread]; split_ifs <;> rfl
  · simp only [realizedSpread]; split_ifs <;> rfl

theorem dollarWeighted_no_assert (x vol price : List XR) : dollarWeighted x vol price ≠ .error .assertionError := by
  unfold dollarWeighted
  intro h
  simp only [bind, Except.bind] at h
  cases hb : Np.bcast (· * ·) vol price with
  | error e =>
    rw [hb] at h
    simp only [Np.bcast] at hb
    split_ifs at hb
    split at hb
    all_goals first | (cases hb; done) | (injection hb with hb; subst hb; cases h)
  | ok w =>
    rw [hb] at h
    simp only [Np.average] at h
    split_ifs at h <;> cases h

/-- C54. Exact conditions of the `AssertionError`s: `simple_price_impact` compares the direction array with
the midpoints and never looks at the length of the price array. -/
theorem C54_exact (price later mid vol : List XR) (dir : TradeDir) (pct : Bool) :
    (effectiveSpread price mid vol dir pct = .error .assertionError ↔
      ¬ (price.length = mid.length ∧ mid.length = vol.length) ∨ ∃ d, dir = .array d ∧ d.length ≠ price.length) ∧
    (realizedSpread price later mid vol dir pct = .error .assertionError ↔
      ¬ (price.length = later.length ∧ later.length = mid.length ∧ mid.length = vol.length) ∨
        ∃ d, dir = .array d ∧ d.length ≠ price.length) ∧
    (simplePriceImpact price later mid vol dir pct = .error .assertionError ↔
      ¬ (later.length = mid.length ∧ mid.length = vol.length) ∨ ∃ d, dir = .array d ∧ d.length ≠ mid.length) ∧
    (quotedSpread price mid pct = .error .assertionError ↔ price.length ≠ mid.length) := by
  refine ⟨⟨fun h => ?_, ?_⟩, ⟨fun h => ?_, ?_⟩, ⟨fun h => ?_, ?_⟩, ⟨fun h => ?_, ?_⟩⟩
  · by_contra hc
    push Not at hc
    obtain ⟨h1, h2⟩ := hc
    unfold effectiveSpread at h
    rw [if_neg (not_not.mpr h1)] at h
    cases dir with
    | array d =>
      simp only at h
      rw [if_neg (by simp [h2 d rfl])] at h
      split_ifs at h <;> exact dollarWeighted_no_assert _ _ _ h
    | _ => simp only at h; split_ifs at h <;> exact dollarWeighted_no_assert _ _ _ h
  · rintro (h | ⟨d, rfl, h⟩)
    · simp only [effectiveSpread]; rw [if_pos h]
    · exact ((C54_shape_checks price later mid vol (.array d) pct).2.2.2.2 d h.symm).1
  · by_contra hc
    push Not at hc
    obtain ⟨h1, h2⟩ := hc
    unfold realizedSpread at h
    rw [if_neg (not_not.mpr h1)] at h
    cases dir with
    | array d =>
      simp only at h
      rw [if_neg (by simp [h2 d rfl])] at h
      split_ifs at h <;> exact dollarWeighted_no_assert _ _ _ h
    | _ => simp only at h; split_ifs at h <;> exact dollarWeighted_no_assert _ _ _ h
  · rintro (h | ⟨d, rfl, h⟩)
    · simp only [realizedSpread]; rw [if_pos h]
    · exact ((C54_shape_checks price later mid vol (.array d) pct).2.2.2.2 d h.symm).2
  · by_contra hc
    push Not at hc
    obtain ⟨h1, h2⟩ := hc
    unfold simplePriceImpact at h
    rw [if_neg (not_not.mpr h1)] at h
    cases dir with
    | array d =>
      simp only at h
      rw [if_neg (by simp [h2 d rfl])] at h
      split_ifs at h <;> exact dollarWeighted_no_assert _ _ _ h
    | _ => simp only at h; split_ifs at h <;> exact dollarWeighted_no_assert _ _ _ h
  · rintro (h | ⟨d, rfl, h⟩)
    · simp only [simplePriceImpact]; rw [if_pos h]
    · simp only [simplePriceImpact]; rw [if_pos h.symm]; split_ifs <;> rfl
  · by_contra hc
    simp only [quotedSpread] at h
    rw [if_neg (by simpa using hc)] at h
    split_ifs at h
  · intro h; simp only [quotedSpread]; rw [if_pos h]

/-- C54b. `simple_price_impact` never looks at the length of the price array: a one-element price array is
silently broadcast over all trades, for every number of trades, all values and all variants. -/
theorem C54_price_broadcast (p : XR) (later mid vol : List XR) (dir : TradeDir) (pct : Bool) :
    simplePriceImpact [p] later mid vol dir pct
      = simplePriceImpact (List.replicate vol.length p) later mid vol dir pct := by
  have hb : Np.bcast (· * ·) vol [p] = Np.bcast (· * ·) vol (List.replicate vol.length p) := by
    have hz : ∀ v : List XR, List.zipWith (· * ·) v (List.replicate v.length p) = v.map (· * p) := by
      intro v
      induction v with
      | nil => rfl
      | cons a t ih => simpa [List.replicate_succ] using ih
    conv_rhs => unfold Np.bcast
    rw [if_pos (by simp), hz]
    unfold Np.bcast
    match vol with
    | [] => simp
    | [a] => simp
    | a :: b :: t => simp
  have hd : ∀ s : List XR, dollarWeighted s vol [p] = dollarWeighted s vol (List.replicate vol.length p) := by
    intro s; simp only [dollarWeighted, hb]
  simp only [simplePriceImpact, hd]

/-- C54c. so a price array of a different length is accepted (here: trades of sizes 1 and 3 at price 100,
midpoints 100, later midpoints 101 and 99: weighted mean of the absolute impacts 2 and 2), while any other
length than one or the number of trades makes the multiplication raise `ValueError`. -/
theorem C54_price_unchecked :
    (∃ (price later mid vol : List XR) (x : XR), price.length ≠ mid.length ∧
      simplePriceImpact price later mid vol .none true = .ok x) ∧
    ∀ (price later mid vol : List XR) (pct : Bool), later.length = mid.length → mid.length = vol.length →
      price.length ≠ vol.length → price.length ≠ 1 → vol.length ≠ 1 →
      simplePriceImpact price later mid vol .none pct = .error .valueError := by
  constructor
  · have key : ∃ x, simplePriceImpact [.fin 100] [.fin 101, .fin 99] [.fin 100, .fin 100]
        [.fin 1, .fin 3] .none true = .ok x := by
      simp only [simplePriceImpact, List.length_cons, List.length_nil, and_self,
        not_true_eq_false, if_false, if_true]
      rw [dollarWeighted]
      have hb : Np.bcast (· * ·) [XR.fin 1, .fin 3] [.fin 100]
          = .ok [.fin 100, .fin 300] := by
        simp [Np.bcast]; norm_num
      rw [hb]
      simp only [bind, Except.bind]
      rw [if_neg, Np.average, if_neg (by simp), if_neg]
      · exact ⟨_, rfl⟩
      · simp [XR.zero_def]; norm_num
      · simp only [Np.all, not_forall]
        exact ⟨.fin 100, by simp, by simp [XR.zero_def]⟩
    obtain ⟨x, hx⟩ := key
    exact ⟨_, _, _, _, x, by simp, hx⟩
  · intro price later mid vol pct h1 h2 h3 h4 h5
    have hb : Np.bcast (· * ·) vol price = .error .valueError := by
      unfold Np.bcast
      rw [if_neg (fun h => h3 h.symm)]
      split
      · simp at h5
      · simp at h4
      · rfl
    simp only [simplePriceImpact, h1, h2, true_and, not_true_eq_false, if_false, dollarWeighted, hb]
    cases pct <;> rfl

/-! ### Concrete cases of the theorems above -/

def twoQuotes : List Quote := [⟨99, 101⟩, ⟨10, 10⟩]

theorem twoQuotes_ok : ValidQuotes twoQuotes ∧ (∀ t ∈ twoQuotes, 0 < t.bid ∧ 0 < t.ask) ∧ ∀ t ∈ twoQuotes, t.bid + t.ask ≠ 0 := by
  refine ⟨?_, ?_, ?_⟩ <;> intro t ht <;> simp [twoQuotes] at ht <;> rcases ht with rfl | rfl <;> norm_num

example := C47_quoted_pct (l := twoQuotes) (by simp [twoQuotes]) twoQuotes_ok.2.2
example := C47_quoted_log (l := twoQuotes) (by simp [twoQuotes]) twoQuotes_ok.2.1
example := C47_bounds (l := twoQuotes) (by simp [twoQuotes]) twoQuotes_ok.1
example := C47_antisymm (l := twoQuotes) (by simp [twoQuotes]) twoQuotes_ok.2.1 true
example := C47_scale (l := twoQuotes) (by simp [twoQuotes]) twoQuotes_ok.2.1 false (c := 100) (by norm_num)
example := C48_weighted_means sampleTrades_ok.1 sampleTrades_ok.2.1 sampleTrades_ok.2.2.2.1 true true
example := C53_nonneg_ok sampleTrades_ok.1 sampleTrades_ok.2.1
  (by intro t ht; simp [sampleTrades] at ht; rcases ht with rfl | rfl | rfl <;> norm_num) true false
/-- a buy at 101 and a sale at 99 -/
example := C51_sign_direction (l := [⟨101, 100, 100, 5, 1⟩, ⟨99, 100, 100, 7, -1⟩]) (by simp)
  (by intro t ht; simp at ht; rcases ht with rfl | rfl <;> norm_num)
  (by norm_num [Weighable, Trade.dollar])
  (by intro t ht; simp at ht; rcases ht with rfl | rfl <;> norm_num) true
example := C53_zero_sum (l := [⟨10, 10, 10, 1, 1⟩, ⟨10, 10, 10, -1, 1⟩]) (by norm_num [Trade.dollar])
  ⟨⟨10, 10, 10, 1, 1⟩, by simp, by norm_num [Trade.dollar]⟩ true false

end
end Frds.Props

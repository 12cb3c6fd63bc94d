import Verif.Lemmas.Mes

/-! Properties C22-C25: marginal expected shortfall. -/
namespace Frds.Props
noncomputable section
open Frds Frds.Model Frds.Spec Classical

/-- constructor followed by `estimate(q)`, as a user calls it on a table of days -/
def mesOf (l : List Day) (q : ℝ) : Except PyErr XR := do
  let m ← Mes.new (col l Day.firm) (col l Day.market)
  m.estimate (.fin q)

theorem mesOf_eq {l : List Day} {s : List ℝ} (hne : l ≠ []) (hs : s.SortedLE)
    (hp : s.Perm (l.map Day.market)) {q : ℝ} (h0 : 0 ≤ q) (h1 : q ≤ 1) :
    mesOf l q = .ok (Np.mean (col (worstDays l s q) Day.firm)) := by
  simp only [mesOf, Mes.new, List.length_map, ne_eq, not_true_eq_false, if_false, bind, Except.bind]
  exact estimate_fin hne hs hp h0 h1

/-- C22. MES is the arithmetic mean of the firm returns over exactly the days whose market return is
strictly below the interpolated `q`-quantile (`s` = sorted market returns); NaN if there is none. -/
theorem C22_value {l : List Day} {s : List ℝ} (hne : l ≠ []) (hs : s.SortedLE)
    (hp : s.Perm (l.map Day.market)) {q : ℝ} (h0 : 0 ≤ q) (h1 : q ≤ 1) :
    let worst := l.filter fun d => d.market < quantile s q
    mesOf l q = .ok (if worst = [] then .nan else .fin (Spec.mean worst Day.firm)) := by
  intro worst
  rw [mesOf_eq hne hs hp h0 h1]
  congr 1
  split_ifs with h
  · have : worstDays l s q = [] := h
    rw [this]; simp
  · exact mean_col h _

/-- four days; the 50% quantile of the market is 0.5, the worst days are the first and the third -/
def sampleDays : List Day := [⟨-0.1, -1⟩, ⟨0.3, 2⟩, ⟨-0.2, 0⟩, ⟨0.4, 1⟩]

theorem sampleDays_sorted : [(-1:ℝ), 0, 1, 2].SortedLE ∧ [(-1:ℝ), 0, 1, 2].Perm (sampleDays.map Day.market) := by
  constructor
  · rw [List.sortedLE_iff_pairwise]; norm_num
  · simp only [sampleDays, List.map_cons, List.map_nil]
    refine List.Perm.cons _ ?_
    exact (List.perm_append_comm (l₁ := [(0:ℝ), 1]) (l₂ := [2]))

theorem sampleDays_mes : mesOf sampleDays 0.5 = .ok (.fin (-0.15)) := by
  have hs := sampleDays_sorted.1
  have hp := sampleDays_sorted.2
  have hf : ⌊(3/2:ℝ)⌋₊ = 1 := by norm_num [Nat.floor_eq_iff]
  have hq : quantile [(-1:ℝ), 0, 1, 2] 0.5 = 0.5 := by
    simp only [quantile, List.length_cons, List.length_nil]
    norm_num [hf]
  rw [C22_value (by simp [sampleDays]) hs hp (by norm_num) (by norm_num), hq]
  have : (sampleDays.filter fun d => d.market < 0.5) = [⟨-0.1, -1⟩, ⟨-0.2, 0⟩] := by
    norm_num [sampleDays, List.filter_cons]
  rw [this, if_neg (by simp)]
  norm_num [Spec.mean]

example : mesOf sampleDays 0.5 = .ok (.fin (-0.15)) := sampleDays_mes

/-- C23. The order of days is irrelevant. -/
theorem C23_permutation {l l' : List Day} (h : l.Perm l') (q : ℝ) : mesOf l q = mesOf l' q := by
  by_cases hq : 0 ≤ q ∧ q ≤ 1
  · by_cases hne : l = []
    · subst hne; rw [h.nil_eq]
    · have hne' : l' ≠ [] := by rintro rfl; exact hne h.eq_nil
      obtain ⟨s, hs, hp⟩ := sort_exists (l.map Day.market)
      rw [C22_value hne hs hp hq.1 hq.2, C22_value hne' hs (hp.trans (h.map _)) hq.1 hq.2]
      have hw := h.filter fun d => decide (d.market < quantile s q)
      have hm : Spec.mean (l.filter fun d => decide (d.market < quantile s q)) Day.firm
          = Spec.mean (l'.filter fun d => decide (d.market < quantile s q)) Day.firm := by
        rw [Spec.mean, Spec.mean, hw.length_eq, (hw.map _).sum_eq]
      by_cases h0 : (l.filter fun d => decide (d.market < quantile s q)) = []
      · have h0' : (l'.filter fun d => decide (d.market < quantile s q)) = [] := by
          rw [h0] at hw; exact hw.nil_eq.symm
        rw [if_pos h0, if_pos h0']
      · have h0' : (l'.filter fun d => decide (d.market < quantile s q)) ≠ [] := by
          intro e; rw [e] at hw; exact h0 hw.eq_nil
        rw [if_neg h0, if_neg h0', hm]
  · simp only [mesOf, Mes.new, List.length_map, ne_eq, not_true_eq_false, if_false, bind,
      Except.bind, Mes.estimate, hq, not_false_eq_true, if_true]

/-- C23. Affine in the firm's returns. -/
theorem C23_firm_affine {l : List Day} (hne : l ≠ []) {q : ℝ} (h0 : 0 ≤ q) (h1 : q ≤ 1) (c d : ℝ) :
    (mesOf l q = .ok .nan ∧ mesOf (l.map fun x => ⟨c * x.firm + d, x.market⟩) q = .ok .nan) ∨
    ∃ r : ℝ, mesOf l q = .ok (.fin r) ∧
      mesOf (l.map fun x => ⟨c * x.firm + d, x.market⟩) q = .ok (.fin (c * r + d)) := by
  obtain ⟨s, hs, hp⟩ := sort_exists (l.map Day.market)
  have hp' : s.Perm ((l.map fun x => (⟨c * x.firm + d, x.market⟩ : Day)).map Day.market) := by
    rw [List.map_map]; exact hp
  rw [C22_value hne hs hp h0 h1, C22_value (by simpa using hne) hs hp' h0 h1, List.filter_map]
  have hcomp : ((fun d : Day => decide (d.market < quantile s q)) ∘
      fun x : Day => (⟨c * x.firm + d, x.market⟩ : Day)) = fun d : Day => decide (d.market < quantile s q) := by
    funext x; rfl
  rw [hcomp]
  by_cases hw : (l.filter fun d => decide (d.market < quantile s q)) = []
  · left; simp [hw]
  · right
    refine ⟨_, by rw [if_neg hw], ?_⟩
    rw [if_neg (by simpa using hw)]
    congr 2
    have hl : ((l.filter fun d => decide (d.market < quantile s q)).length : ℝ) ≠ 0 := by
      have := List.length_pos_iff.mpr hw; positivity
    generalize (l.filter fun d => decide (d.market < quantile s q)) = w at *
    rw [Spec.mean, Spec.mean, List.map_map, List.length_map]
    simp only [Function.comp_def]
    rw [sum_map_add' w (fun x => c * x.firm) fun _ => d, sum_map_mul' w c, sum_map_const']
    field_simp

/-- C23. Unchanged by an increasing affine transformation of the market returns. -/
theorem C23_market_affine {l : List Day} {q : ℝ} (h0 : 0 ≤ q) (h1 : q ≤ 1) {a : ℝ} (ha : 0 < a)
    (b : ℝ) (hne : l ≠ []) :
    mesOf (l.map fun x => ⟨x.firm, a * x.market + b⟩) q = mesOf l q := by
  obtain ⟨s, hs, hp⟩ := sort_exists (l.map Day.market)
  have hsne : s ≠ [] := by
    rintro rfl; have := hp.nil_eq; simp at this; exact hne this
  have hs' : (s.map fun x => a * x + b).SortedLE := by
    rw [List.sortedLE_iff_pairwise, List.pairwise_map]
    exact (List.sortedLE_iff_pairwise.mp hs).imp fun h => by
      have := mul_le_mul_of_nonneg_left h ha.le; linarith
  have hp' : (s.map fun x => a * x + b).Perm
      ((l.map fun x => (⟨x.firm, a * x.market + b⟩ : Day)).map Day.market) := by
    have := hp.map fun x => a * x + b
    rwa [List.map_map] at this ⊢
  rw [C22_value hne hs hp h0 h1, C22_value (by simpa using hne) hs' hp' h0 h1, List.filter_map]
  have hcomp : ((fun d : Day => decide (d.market < quantile (s.map fun x => a * x + b) q)) ∘
      fun x : Day => (⟨x.firm, a * x.market + b⟩ : Day)) = fun d : Day => decide (d.market < quantile s q) := by
    funext x
    simp only [Function.comp, quantile_affine hsne h0 h1]
    congr 1
    simp [mul_lt_mul_iff_right₀ ha]
  rw [hcomp]
  simp only [List.map_eq_nil_iff, Spec.mean, List.map_map, List.length_map]
  rfl

/-- C24. MES lies between the extreme firm returns of the sample. -/
theorem C24_range {l : List Day} (hne : l ≠ []) {q : ℝ} (h0 : 0 ≤ q) (h1 : q ≤ 1) {r : ℝ}
    (h : mesOf l q = .ok (.fin r)) {lo hi : ℝ} (hb : ∀ d ∈ l, lo ≤ d.firm ∧ d.firm ≤ hi) :
    lo ≤ r ∧ r ≤ hi := by
  obtain ⟨s, hs, hp⟩ := sort_exists (l.map Day.market)
  rw [C22_value hne hs hp h0 h1] at h
  split_ifs at h with hw
  · simp at h
  simp only [Except.ok.injEq, XR.fin_inj] at h
  subst h
  have hl : (0:ℝ) < ((l.filter fun d => decide (d.market < quantile s q)).length : ℝ) := by
    have := List.length_pos_iff.mpr hw; exact_mod_cast this
  have hb' : ∀ d ∈ (l.filter fun d => decide (d.market < quantile s q)), lo ≤ d.firm ∧ d.firm ≤ hi :=
    fun d hd => hb d (List.mem_filter.mp hd).1
  rw [Spec.mean, le_div_iff₀ hl, div_le_iff₀ hl, mul_comm lo, mul_comm hi, ← sum_map_const',
    ← sum_map_const']
  exact ⟨sum_map_le' fun d hd => (hb' d hd).1, sum_map_le' fun d hd => (hb' d hd).2⟩

/-- C24. At most `⌈q (n-1)⌉` days enter the average. -/
theorem C24_days {l : List Day} {s : List ℝ} (hne : l ≠ []) (hs : s.SortedLE)
    (hp : s.Perm (l.map Day.market)) {q : ℝ} (h0 : 0 ≤ q) (h1 : q ≤ 1) :
    (l.filter fun d => d.market < quantile s q).length ≤ ⌈q * ((l.length : ℝ) - 1)⌉₊ ∧
    mesOf l q = .ok (Np.mean (col (l.filter fun d => d.market < quantile s q) Day.firm)) := by
  refine ⟨?_, mesOf_eq hne hs hp h0 h1⟩
  have hsne : s ≠ [] := by
    rintro rfl; have := hp.nil_eq; simp at this; exact hne this
  have := countP_lt_quantile hsne hs h0 h1
  rw [hp.length_eq, List.length_map, hp.countP_eq, List.countP_map] at this
  rw [← List.countP_eq_length_filter]
  exact this

/-- C25. No day qualifies (NaN) when q = 0, when the market series is constant, or for one day. -/
theorem C25_nan {l : List Day} (hne : l ≠ []) {q : ℝ} (h0 : 0 ≤ q) (h1 : q ≤ 1)
    (h : q = 0 ∨ (∃ c, ∀ d ∈ l, d.market = c) ∨ l.length = 1) : mesOf l q = .ok .nan := by
  obtain ⟨s, hs, hp⟩ := sort_exists (l.map Day.market)
  have hsne : s ≠ [] := by
    rintro rfl; have := hp.nil_eq; simp at this; exact hne this
  rw [C22_value hne hs hp h0 h1]
  have hempty : (l.filter fun d => d.market < quantile s q) = [] := by
    rcases h with rfl | ⟨c, hc⟩ | h1'
    · have := (C24_days hne hs hp h0 h1).1
      simp only [zero_mul, Nat.ceil_zero, Nat.le_zero, List.length_eq_zero_iff] at this
      exact this
    · rw [List.filter_eq_nil_iff]
      intro d hd
      obtain ⟨hk, hQ⟩ := quantile_le hsne hs h0 h1
      have hmem : s[⌈q * ((s.length : ℝ) - 1)⌉₊] ∈ s := List.getElem_mem hk
      have hmem' := hp.subset hmem
      obtain ⟨d', hd', he⟩ := List.mem_map.mp hmem'
      rw [← he, hc d' hd', ← hc d hd] at hQ
      simpa using hQ
    · have := (C24_days hne hs hp h0 h1).1
      simp only [h1', Nat.cast_one, sub_self, mul_zero, Nat.ceil_zero, Nat.le_zero,
        List.length_eq_zero_iff] at this
      exact this
  rw [if_pos hempty]

/-- C25. A NaN market return makes the result NaN. -/
theorem C25_nan_market {firm market : List XR} (hl : firm.length = market.length)
    (hn : XR.nan ∈ market) {q : ℝ} (h0 : 0 ≤ q) (h1 : q ≤ 1) :
    (do let m ← Mes.new firm market; m.estimate (.fin q)) = .ok .nan := by
  have hne : market ≠ [] := by rintro rfl; simp at hn
  simp [Mes.new, hl, bind, Except.bind, Mes.estimate, h0, h1, Np.percentile, hne, hn, pure, Except.pure]

/-- C25. Argument errors: shape mismatch and `q` outside `[0,1]` (or NaN/inf) raise `AssertionError`;
empty arrays raise `IndexError` (in `np.percentile`). -/
theorem C25_errors (firm market : List XR) (q : XR) :
    (firm.length ≠ market.length → Mes.new firm market = .error .assertionError) ∧
    ((¬ ∃ r : ℝ, q = .fin r ∧ 0 ≤ r ∧ r ≤ 1) →
      Mes.estimate ⟨firm, market⟩ q = .error .assertionError) ∧
    ((∃ r : ℝ, q = .fin r ∧ 0 ≤ r ∧ r ≤ 1) → Mes.estimate ⟨[], []⟩ q = .error .indexError) := by
  refine ⟨fun h => by rw [Mes.new, if_pos h], fun h => ?_, ?_⟩
  · cases q with
    | fin r =>
      have : ¬ (0 ≤ r ∧ r ≤ 1) := fun hr => h ⟨r, rfl, hr⟩
      simp only [Mes.estimate, this, not_false_eq_true, if_true]
    | _ => rfl
  · rintro ⟨r, rfl, hr⟩
    simp [Mes.estimate, hr, Np.percentile, bind, Except.bind]

/-! ### Concrete cases of the theorems above -/

example := C23_permutation (List.Perm.swap (⟨1, 2⟩ : Day) ⟨3, 4⟩ sampleDays) 0.05
example := C23_firm_affine (l := sampleDays) (by simp [sampleDays]) (q := 0.5) (by norm_num) (by norm_num) (-2) 1
example := C23_market_affine (l := sampleDays) (q := 0.5) (by norm_num) (by norm_num) (a := 100) (by norm_num) 3 (by simp [sampleDays])
/-- three equal market returns, one day, or the zero quantile -/
example := C25_nan (l := [⟨1, 5⟩, ⟨2, 5⟩, ⟨3, 5⟩]) (by simp) (q := 0.05) (by norm_num) (by norm_num)
  (Or.inr (Or.inl ⟨5, by intro d hd; simp at hd; rcases hd with rfl | rfl | rfl <;> rfl⟩))
example := C25_nan_market (firm := [.fin 1, .fin 2]) (market := [.fin 3, .nan]) rfl (by simp) (q := 0.05) (by norm_num) (by norm_num)
example := C24_range (l := sampleDays) (by simp [sampleDays]) (q := 0.5) (by norm_num) (by norm_num) sampleDays_mes
  (lo := -1) (hi := 1) (by intro d hd; simp [sampleDays] at hd; rcases hd with rfl | rfl | rfl | rfl <;> norm_num)
example := C24_days (l := sampleDays) (by simp [sampleDays]) sampleDays_sorted.1 sampleDays_sorted.2 (q := 0.5) (by norm_num) (by norm_num)

end
end Frds.Props

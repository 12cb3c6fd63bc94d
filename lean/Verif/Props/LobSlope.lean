import Verif.Lemmas.LobSlope

/-! Properties C55-C58: limit-order-book slopes. -/
namespace Frds.Props
noncomputable section
open Frds Frds.Model Frds.Spec Classical

/-- the arrays a user passes for a list of quotes with `k` levels -/
def sizeArr (k : ℕ) (l : List LobSide) : Arr := .d2 k (l.map fun q => q.sizes.map ofOpt)
def priceArr (l : List LobSide) : List XR := l.map fun q => ofOpt q.price
def midArr (l : List LobSide) : Arr := .d1 (l.map fun q => ofOpt q.mid)

/-- C55. Mean of the defined per-quote slopes, NaN if none is defined. -/
theorem C55_slopes {k : ℕ} (hk : 1 < k) (l : List LobSide) (h : ∀ q ∈ l, ¬ q.Degenerate) :
    askSlope (sizeArr k l) (priceArr l) (midArr l)
      = .ok (ofOpt (definedMean (l.map LobSide.askSlope))) ∧
    bidSlope (sizeArr k l) (priceArr l) (midArr l)
      = .ok (ofOpt (definedMean (l.map LobSide.bidSlope))) := by
  have key : ∀ q ∈ l, ((q.sizes.map ofOpt).sum / (ofOpt q.price - ofOpt q.mid)
        = ofOpt q.askSlope) ∧ ((q.sizes.map ofOpt).sum / XR.abs (ofOpt q.price - ofOpt q.mid)
        = ofOpt q.bidSlope) := by
    intro q hq
    have hd := h q hq
    rw [sum_ofOpt]
    rw [LobSide.askSlope, LobSide.bidSlope]
    cases hp : q.price with
    | none => simp
    | some p =>
      cases hm : q.mid with
      | none => simp
      | some m =>
        cases ht : total q.sizes with
        | none => simp
        | some d =>
          simp only [ofOpt_some, XR.fin_sub, XR.fin_abs, Option.bind_eq_bind, Option.bind_some]
          split_ifs with hpm
          · subst hpm
            have : d = 0 := by
              by_contra hne
              exact hd ⟨p, d, hp, hm, ht, hne⟩
            subst this
            simp [XR.fin_div_zero]
          · have h1 : p - m ≠ 0 := sub_ne_zero.mpr hpm
            rw [XR.fin_div _ h1, XR.fin_div _ (abs_ne_zero.mpr h1)]
            exact ⟨rfl, rfl⟩
  constructor
  · rw [sizeArr, priceArr, midArr, askSlope_rows l hk,
      List.map_congr_left (fun q hq => (key q hq).1), ← nanmean_ofOpt, List.map_map]; rfl
  · rw [sizeArr, priceArr, midArr, bidSlope_rows l hk,
      List.map_congr_left (fun q hq => (key q hq).2), ← nanmean_ofOpt, List.map_map]; rfl

/-- Three ask quotes: one normal, one with a missing size, one empty quote at the midpoint. -/
def sampleSides : List LobSide :=
  [⟨[some 10, some 20], some 102, some 100⟩, ⟨[some 10, none], some 102, some 100⟩,
   ⟨[some 0, some 0], some 100, some 100⟩]

example : (∀ q ∈ sampleSides, ¬ q.Degenerate) ∧
    definedMean (sampleSides.map LobSide.askSlope) = some 15 := by
  constructor
  · intro q hq
    simp only [sampleSides, List.mem_cons, List.not_mem_nil, or_false] at hq
    rcases hq with rfl | rfl | rfl
    · rintro ⟨p, d, h1, h2, -⟩; simp at h1 h2; linarith
    · rintro ⟨p, d, h1, h2, -⟩; simp at h1 h2; linarith
    · rintro ⟨p, d, h1, h2, h3, h4⟩
      simp [total] at h3; exact h4 h3.symm
  · have : sampleSides.map LobSide.askSlope = [some 15, none, none] := by
      norm_num [sampleSides, LobSide.askSlope, total]
    have h2 : [some (15:ℝ), none, none].reduceOption = [15] := rfl
    rw [this, definedMean, h2]; simp

/-- C55. A quote with positive depth at zero distance makes the result infinite (it is not
skipped), when no depth is negative and every ask lies at or above the midpoint. -/
theorem C55_infinite {k : ℕ} (hk : 1 < k) (l : List LobSide)
    (hpos : ∀ q ∈ l, ∀ x ∈ q.sizes, ∀ r, x = some r → 0 ≤ r)
    (hge : ∀ q ∈ l, ∀ p m, q.price = some p → q.mid = some m → m ≤ p)
    (h : ∃ q ∈ l, q.Degenerate) :
    askSlope (sizeArr k l) (priceArr l) (midArr l) = .ok .pinf ∧
    bidSlope (sizeArr k l) (priceArr l) (midArr l) = .ok .pinf := by
  have htot : ∀ (s : List (Option ℝ)) (d : ℝ), (∀ x ∈ s, ∀ r, x = some r → 0 ≤ r) →
      total s = some d → 0 ≤ d := by
    intro s
    induction s with
    | nil => intro d _ hr; simp [total] at hr; exact hr.le
    | cons x t ih =>
      intro d hx hr
      cases x with
      | none => simp [total] at hr
      | some y =>
        cases ht : total t with
        | none => simp [total, ht] at hr
        | some z =>
          simp [total, ht] at hr
          have h1 := hx (some y) (by simp) y rfl
          have h2 := ih z (fun w hw => hx w (by simp [hw])) ht
          linarith
  -- per-quote values: NaN, finite, or +inf, and at least one +inf
  have hrow : ∀ q ∈ l,
      (let v := (q.sizes.map ofOpt).sum / (ofOpt q.price - ofOpt q.mid)
       v = .nan ∨ v = .pinf ∨ ∃ r, v = .fin r) ∧
      (q.Degenerate → (q.sizes.map ofOpt).sum / (ofOpt q.price - ofOpt q.mid) = .pinf) ∧
      (q.sizes.map ofOpt).sum / XR.abs (ofOpt q.price - ofOpt q.mid)
        = (q.sizes.map ofOpt).sum / (ofOpt q.price - ofOpt q.mid) := by
    intro q hq
    rw [sum_ofOpt]
    cases hp : q.price with
    | none => simp [LobSide.Degenerate, hp]
    | some p =>
      cases hm : q.mid with
      | none => simp [LobSide.Degenerate, hm]
      | some m =>
        cases ht : total q.sizes with
        | none => simp [LobSide.Degenerate, ht]
        | some d =>
          have hd0 := htot _ d (hpos q hq) ht
          have hpm := hge q hq p m hp hm
          simp only [ofOpt_some, XR.fin_sub, XR.fin_abs, abs_of_nonneg (sub_nonneg.mpr hpm),
            and_true]
          rcases eq_or_ne p m with e | e
          · subst e
            rw [sub_self, XR.fin_div_zero]
            rcases eq_or_lt_of_le hd0 with e0 | e0
            · subst e0
              refine ⟨by simp, ?_⟩
              rintro ⟨p', d', _, _, h3, h4⟩
              rw [ht] at h3; simp at h3; exact absurd h3.symm h4
            · rw [XR.infSign_pos e0]; simp
          · have h1 : p - m ≠ 0 := sub_ne_zero.mpr e
            rw [XR.fin_div _ h1]
            refine ⟨by simp, ?_⟩
            rintro ⟨p', d', h1, h2, _⟩
            rw [hp] at h1; rw [hm] at h2; simp at h1 h2
            exact absurd (h1.trans h2.symm) e
  have hsum : ∀ (vs : List XR), (∀ v ∈ vs, v = .nan ∨ v = .pinf ∨ ∃ r, v = .fin r) →
      ((vs.filter fun v => ¬ v.isNan).sum = .pinf ∨
        ∃ r, (vs.filter fun v => ¬ v.isNan).sum = .fin r) ∧
      (XR.pinf ∈ vs → (vs.filter fun v => ¬ v.isNan).sum = .pinf) := by
    intro vs
    induction vs with
    | nil => intro _; exact ⟨Or.inr ⟨0, rfl⟩, by simp⟩
    | cons v t ih =>
      intro hv
      obtain ⟨i1, i2⟩ := ih (fun w hw => hv w (by simp [hw]))
      rcases hv v (by simp) with rfl | rfl | ⟨r, rfl⟩
      · rw [List.filter_cons_of_neg (by simp)]
        exact ⟨i1, fun hm => i2 (by simpa using hm)⟩
      · have : ((XR.pinf :: t).filter fun v => ¬ v.isNan).sum = .pinf := by
          rw [List.filter_cons_of_pos (by simp [XR.isNan]), List.sum_cons]
          rcases i1 with e | ⟨r, e⟩ <;> rw [e] <;> rfl
        exact ⟨Or.inl this, fun _ => this⟩
      · have hc : ((XR.fin r :: t).filter fun v => ¬ v.isNan).sum
            = .fin r + (t.filter fun v => ¬ v.isNan).sum := by
          rw [List.filter_cons_of_pos (by simp), List.sum_cons]
        rw [hc]
        constructor
        · rcases i1 with e | ⟨s, e⟩
          · rw [e]; exact Or.inl rfl
          · rw [e]; exact Or.inr ⟨_, rfl⟩
        · intro hm
          rw [i2 (by simpa using hm)]; rfl
  have hmean : Np.nanmean (l.map fun q =>
      (q.sizes.map ofOpt).sum / (ofOpt q.price - ofOpt q.mid)) = .pinf := by
    obtain ⟨q, hq, hdeg⟩ := h
    rw [Np.nanmean, Np.mean, (hsum _ _).2]
    · show (if ((List.length _ : ℕ) : ℝ) < 0 then XR.ninf else XR.pinf) = _
      rw [if_neg (not_lt.mpr (Nat.cast_nonneg _))]
    · exact List.mem_map.mpr ⟨q, hq, (hrow q hq).2.1 hdeg⟩
    · intro v hv
      obtain ⟨q, hq, rfl⟩ := List.mem_map.mp hv
      exact (hrow q hq).1
  rw [sizeArr, priceArr, midArr, askSlope_rows l hk, bidSlope_rows l hk,
    List.map_congr_left (fun q hq => (hrow q hq).2.2), hmean]
  exact ⟨rfl, rfl⟩

example : ∃ q ∈ [(⟨[some 1, some 2], some 100, some 100⟩ : LobSide)], q.Degenerate :=
  ⟨_, List.mem_singleton_self _, 100, 3, rfl, rfl, by norm_num [total], by norm_num⟩

/-- reflect one side of the book at the midpoint -/
def reflect (q : LobSide) : LobSide :=
  { q with price := do return 2 * (← q.mid) - (← q.price) }

/-- C56. Reflecting an ask book (all asks at or above the midpoint) at the midpoint gives a bid book with
the same slope. -/
theorem C56_reflection {k : ℕ} (hk : 1 < k) (l : List LobSide)
    (hge : ∀ q ∈ l, ∀ p m, q.price = some p → q.mid = some m → m ≤ p) :
    bidSlope (sizeArr k (l.map reflect)) (priceArr (l.map reflect)) (midArr (l.map reflect))
      = askSlope (sizeArr k l) (priceArr l) (midArr l) := by
  simp only [sizeArr, priceArr, midArr, List.map_map, Function.comp_def]
  rw [askSlope_rows l hk, bidSlope_rows l hk]
  congr 2
  apply List.map_congr_left
  intro q hq
  simp only [reflect]
  cases hp : q.price with
  | none => simp
  | some p =>
    cases hm : q.mid with
    | none => simp
    | some m =>
      have := hge q hq p m hp hm
      simp only [Option.bind_eq_bind, Option.bind_some, ofOpt_some, XR.fin_sub, XR.fin_abs, pure]
      rw [show 2 * m - p - m = -(p - m) by ring, abs_neg, abs_of_nonneg (by linarith)]

/-- all values present, highest ask above the midpoint, `k` levels -/
def ProperAsk (l : List LobSide) : Prop :=
  ∀ q ∈ l, ∃ p m d : ℝ, q.price = some p ∧ q.mid = some m ∧ total q.sizes = some d ∧ m < p ∧ 0 ≤ d

/-- C56. Non-negative slopes for non-negative depth and asks above the midpoint. -/
theorem C56_nonneg {k : ℕ} (hk : 1 < k) {l : List LobSide} (hne : l ≠ []) (h : ProperAsk l) :
    ∃ r : ℝ, 0 ≤ r ∧ askSlope (sizeArr k l) (priceArr l) (midArr l) = .ok (.fin r) ∧
      bidSlope (sizeArr k l) (priceArr l) (midArr l) = .ok (.fin r) := by
  have hval : ∀ q ∈ l, ∃ v : ℝ, 0 ≤ v ∧
      (q.sizes.map ofOpt).sum / (ofOpt q.price - ofOpt q.mid) = .fin v ∧
      (q.sizes.map ofOpt).sum / XR.abs (ofOpt q.price - ofOpt q.mid) = .fin v := by
    intro q hq
    obtain ⟨p, m, d, hp, hm, ht, hpm, hd⟩ := h q hq
    have h1 : 0 < p - m := by linarith
    refine ⟨d / (p - m), by positivity, ?_, ?_⟩ <;>
      simp [sum_ofOpt, hp, hm, ht, abs_of_pos h1, XR.fin_div _ h1.ne']
  choose! v hv0 hva hvb using hval
  rw [sizeArr, priceArr, midArr, askSlope_rows l hk, bidSlope_rows l hk,
    List.map_congr_left hva, List.map_congr_left hvb]
  refine ⟨Spec.mean l v, ?_, ?_, ?_⟩
  · exact div_nonneg (sum_map_nonneg' hv0) (by positivity)
  · rw [← mean_col hne v, ← nanmean_col]
  · rw [← mean_col hne v, ← nanmean_col]

example : ProperAsk [⟨[some 10, some 20], some 102, some 100⟩] := by
  intro q hq
  rw [List.mem_singleton] at hq; subst hq
  exact ⟨102, 100, 30, rfl, rfl, by norm_num [total], by norm_num, by norm_num⟩

/-- change of units: sizes times `c`, prices times `d` -/
def rescale (c d : ℝ) (q : LobSide) : LobSide :=
  { sizes := q.sizes.map (Option.map (c * ·)), price := q.price.map (d * ·), mid := q.mid.map (d * ·) }

theorem total_scale (c : ℝ) (s : List (Option ℝ)) :
    total (s.map (Option.map (c * ·))) = (total s).map (c * ·) := by
  induction s with
  | nil => simp [total]
  | cons x t ih =>
    cases x with
    | none => simp [total]
    | some y =>
      cases ht : total t with
      | none => simp [total, ih, ht]
      | some z => simp [total, ih, ht, mul_add]

theorem definedMean_scale (c : ℝ) (l : List (Option ℝ)) :
    definedMean (l.map (Option.map (c * ·))) = (definedMean l).map (c * ·) := by
  have hr : (l.map (Option.map (c * ·))).reduceOption = l.reduceOption.map (c * ·) := by
    rw [List.reduceOption_map]
  have hs : ((l.reduceOption.map (c * ·)).sum : ℝ) = c * l.reduceOption.sum := by
    have := sum_map_mul' l.reduceOption c id
    simpa using this
  unfold definedMean
  rw [hr]
  by_cases h : l.reduceOption = []
  · simp [h]
  · rw [if_neg (by simpa using h), if_neg h, hs]
    simp [mul_div_assoc]

/-- C56. Slopes scale linearly with the size unit and inversely with the price unit. -/
theorem C56_units {k : ℕ} (hk : 1 < k) (l : List LobSide) (h : ∀ q ∈ l, ¬ q.Degenerate)
    {c d : ℝ} (hd : 0 < d) :
    ∃ r s : Option ℝ,
      askSlope (sizeArr k l) (priceArr l) (midArr l) = .ok (ofOpt r) ∧
      askSlope (sizeArr k (l.map (rescale c d))) (priceArr (l.map (rescale c d)))
        (midArr (l.map (rescale c d))) = .ok (ofOpt (r.map (c / d * ·))) ∧
      bidSlope (sizeArr k l) (priceArr l) (midArr l) = .ok (ofOpt s) ∧
      bidSlope (sizeArr k (l.map (rescale c d))) (priceArr (l.map (rescale c d)))
        (midArr (l.map (rescale c d))) = .ok (ofOpt (s.map (c / d * ·))) := by
  have h' : ∀ q ∈ l.map (rescale c d), ¬ q.Degenerate := by
    intro q' hq'
    obtain ⟨q, hq, rfl⟩ := List.mem_map.mp hq'
    rintro ⟨p, D, h1, h2, h3, h4⟩
    simp only [rescale, total_scale, Option.map_eq_some_iff] at h1 h2 h3
    obtain ⟨p1, e1, f1⟩ := h1
    obtain ⟨p2, e2, f2⟩ := h2
    obtain ⟨p3, e3, f3⟩ := h3
    have : p1 = p2 := by
      have : d * p1 = d * p2 := by rw [f1, f2]
      exact mul_left_cancel₀ hd.ne' this
    subst this
    exact h q hq ⟨p1, p3, e1, e2, e3, by rintro rfl; simp at f3; exact h4 f3.symm⟩
  refine ⟨_, _, (C55_slopes hk l h).1, ?_, (C55_slopes hk l h).2, ?_⟩
  · rw [(C55_slopes hk _ h').1, ← definedMean_scale, List.map_map, List.map_map]
    congr 3
    apply List.map_congr_left
    intro q _
    simp only [Function.comp, LobSide.askSlope, rescale, total_scale]
    cases q.price with
    | none => simp
    | some p =>
      cases q.mid with
      | none => simp
      | some m =>
        cases total q.sizes with
        | none => simp
        | some D =>
          simp only [Option.map_some, Option.bind_eq_bind, Option.bind_some]
          by_cases e : p = m
          · simp [e]
          · have e' : d * p ≠ d * m := fun h => e (mul_left_cancel₀ hd.ne' h)
            have : p - m ≠ 0 := sub_ne_zero.mpr e
            have h2 : d * p - d * m ≠ 0 := sub_ne_zero.mpr e'
            rw [if_neg e, if_neg e']
            simp only [Option.map_some, Option.some.injEq]
            rw [← mul_sub, mul_div_mul_comm]
  · rw [(C55_slopes hk _ h').2, ← definedMean_scale, List.map_map, List.map_map]
    congr 3
    apply List.map_congr_left
    intro q _
    simp only [Function.comp, LobSide.bidSlope, rescale, total_scale]
    cases q.price with
    | none => simp
    | some p =>
      cases q.mid with
      | none => simp
      | some m =>
        cases total q.sizes with
        | none => simp
        | some D =>
          simp only [Option.map_some, Option.bind_eq_bind, Option.bind_some]
          by_cases e : p = m
          · simp [e]
          · have e' : d * p ≠ d * m := fun h => e (mul_left_cancel₀ hd.ne' h)
            have : p - m ≠ 0 := sub_ne_zero.mpr e
            have h2 : d * p - d * m ≠ 0 := sub_ne_zero.mpr e'
            rw [if_neg e, if_neg e']
            simp only [Option.map_some, Option.some.injEq]
            rw [← mul_sub, abs_mul, abs_of_pos hd, mul_div_mul_comm]

/-- C57. The ask version is the bid version; fewer than five levels fail: `AssertionError` below
two levels and for 1-D input, `IndexError` for two to four levels. -/
theorem C57_levels (size price : Arr) :
    askSideSlopeDifference size price = bidSideSlopeDifference size price ∧
    (∀ v, size = .d1 v → bidSideSlopeDifference size price = .error .assertionError) ∧
    (∀ k rows, size = .d2 k rows → k ≤ 1 →
      bidSideSlopeDifference size price = .error .assertionError) ∧
    (∀ k rows, size = .d2 k rows → 2 ≤ k → k ≤ 4 →
      bidSideSlopeDifference size price = .error .indexError) := by
  refine ⟨rfl, ?_, ?_, ?_⟩
  · rintro v rfl; rfl
  · rintro k rows rfl hk
    simp only [bidSideSlopeDifference]
    rw [if_pos (by omega)]
  · rintro k rows rfl h2 h4
    simp only [bidSideSlopeDifference]
    rw [if_neg (by omega)]
    simp only [column]
    rw [if_neg (by omega)]
    rfl

/-- C57. With five or more levels only levels 1, 3 and 5 matter (whatever the values). -/
theorem C57_depends {α} (l : List α) {k k' j j' : ℕ} (hk : 5 ≤ k) (hk' : 5 ≤ k') (hj : 5 ≤ j)
    (hj' : 5 ≤ j') (s p s' p' : α → List XR)
    (h : ∀ q ∈ l, ∀ i, i = 0 ∨ i = 2 ∨ i = 4 → (s q)[i]? = (s' q)[i]? ∧ (p q)[i]? = (p' q)[i]?) :
    bidSideSlopeDifference (.d2 k (l.map s)) (.d2 k' (l.map p))
      = bidSideSlopeDifference (.d2 j (l.map s')) (.d2 j' (l.map p')) := by
  rw [slopeDiff_rows l hk hk', slopeDiff_rows l hj hj']
  congr 2
  apply List.map_congr_left
  intro q hq
  have h0 := h q hq 0 (by simp)
  have h2 := h q hq 2 (by simp)
  have h4 := h q hq 4 (by simp)
  simp only [slopeDiffRow, List.getD_eq_getElem?_getD, h0.1, h0.2, h2.1, h2.2, h4.1, h4.2]

/-- one book side with five price levels -/
structure Book5 where
  size : Fin 5 → ℝ
  price : Fin 5 → ℝ

/-- C57. The value for five levels of finite data with distinct prices at levels 1, 3, 5:
mean difference between the outer and the inner slope. -/
theorem C57_value {l : List Book5} (hne : l ≠ [])
    (h : ∀ b ∈ l, b.price 4 ≠ b.price 2 ∧ b.price 2 ≠ b.price 0) :
    askSideSlopeDifference (.d2 5 (l.map fun b => (List.ofFn b.size).map XR.fin))
        (.d2 5 (l.map fun b => (List.ofFn b.price).map XR.fin))
      = .ok (.fin (Spec.mean l fun b =>
          (b.size 4 - b.size 2) / |b.price 4 - b.price 2|
            - (b.size 2 - b.size 0) / |b.price 2 - b.price 0|)) := by
  rw [askSideSlopeDifference, slopeDiff_rows l le_rfl le_rfl, ← mean_col hne, ← nanmean_col]
  congr 2
  apply List.map_congr_left
  intro b hb
  obtain ⟨h1, h2⟩ := h b hb
  have e1 : |b.price 4 - b.price 2| ≠ 0 := abs_ne_zero.mpr (sub_ne_zero.mpr h1)
  have e2 : |b.price 2 - b.price 0| ≠ 0 := abs_ne_zero.mpr (sub_ne_zero.mpr h2)
  have hg : ∀ (f : Fin 5 → ℝ), ((List.ofFn f).map XR.fin).getD 0 .nan = .fin (f 0) ∧
      ((List.ofFn f).map XR.fin).getD 2 .nan = .fin (f 2) ∧
      ((List.ofFn f).map XR.fin).getD 4 .nan = .fin (f 4) := by
    intro f; simp [List.ofFn_succ]
  simp only [slopeDiffRow, (hg _).1, (hg _).2.1, (hg _).2.2, XR.fin_sub, XR.fin_abs,
    XR.fin_div _ e1, XR.fin_div _ e2]

example : ∀ b ∈ [(⟨fun i => i, fun i => 100 + i⟩ : Book5)],
    b.price 4 ≠ b.price 2 ∧ b.price 2 ≠ b.price 0 := by
  intro b hb; rw [List.mem_singleton] at hb; subst hb
  constructor <;> norm_num

/-- bid and ask sizes of one quote -/
structure Depths where
  bid : List (Option ℝ)
  ask : List (Option ℝ)

def NonnegDepths (l : List Depths) : Prop :=
  ∀ q ∈ l, ∀ x ∈ q.bid ++ q.ask, ∀ r, x = some r → 0 ≤ r

def bidArr (k : ℕ) (l : List Depths) : Arr := .d2 k (l.map fun q => q.bid.map ofOpt)
def askArr (k : ℕ) (l : List Depths) : Arr := .d2 k (l.map fun q => q.ask.map ofOpt)

/-- C58. Mean over the quotes that have depth and no missing size. -/
theorem C58_value (k : ℕ) {l : List Depths} (h : NonnegDepths l) :
    scaledDepthDifference (bidArr k l) (askArr k l)
      = .ok (ofOpt (definedMean (l.map fun q => depthDiff q.bid q.ask))) := by
  rw [bidArr, askArr, sdd_rows l, ← nanmean_ofOpt, List.map_map]
  congr 2
  apply List.map_congr_left
  intro q hq
  exact sdd_row _ _ (h q hq)

theorem definedMean_mem_Icc {l : List (Option ℝ)} {a b : ℝ}
    (h : ∀ x ∈ l, ∀ r, x = some r → a ≤ r ∧ r ≤ b) {m : ℝ} (hm : definedMean l = some m) :
    a ≤ m ∧ m ≤ b := by
  unfold definedMean at hm
  split_ifs at hm with h0
  simp only [Option.some.injEq] at hm
  subst hm
  have hlen : (0:ℝ) < l.reduceOption.length := by
    have := List.length_pos_iff.mpr h0; exact_mod_cast this
  have hb : ∀ r ∈ l.reduceOption, a ≤ r ∧ r ≤ b := by
    intro r hr
    rw [List.reduceOption_mem_iff] at hr
    exact h _ hr r rfl
  have h1 : (l.reduceOption.map fun _ => a).sum ≤ (l.reduceOption.map id).sum :=
    sum_map_le' fun t ht => (hb t ht).1
  have h2 : (l.reduceOption.map id).sum ≤ (l.reduceOption.map fun _ => b).sum :=
    sum_map_le' fun t ht => (hb t ht).2
  rw [sum_map_const', List.map_id] at h1
  rw [sum_map_const', List.map_id] at h2
  constructor
  · rw [le_div_iff₀ hlen]; linarith
  · rw [div_le_iff₀ hlen]; linarith

theorem total_nonneg' : ∀ (s : List (Option ℝ)) (d : ℝ), (∀ x ∈ s, ∀ r, x = some r → 0 ≤ r) →
    total s = some d → 0 ≤ d := by
  intro s
  induction s with
  | nil => intro d _ hr; simp [total] at hr; exact hr.le
  | cons x t ih =>
    intro d hx hr
    cases x with
    | none => simp [total] at hr
    | some y =>
      cases ht : total t with
      | none => simp [total, ht] at hr
      | some z =>
        simp [total, ht] at hr
        have h1 := hx (some y) (by simp) y rfl
        have h2 := ih z (fun w hw => hx w (by simp [hw])) ht
        linarith

theorem depthDiff_bounds {b a : List (Option ℝ)}
    (h : ∀ x ∈ b ++ a, ∀ r, x = some r → 0 ≤ r) {v : ℝ} (hv : depthDiff b a = some v) :
    -2 ≤ v ∧ v ≤ 2 := by
  rw [depthDiff] at hv
  cases hb : total b with
  | none => simp [hb] at hv
  | some y =>
    cases ha : total a with
    | none => simp [hb, ha] at hv
    | some z =>
      simp only [hb, ha, Option.bind_eq_bind, Option.bind_some] at hv
      split_ifs at hv with h0
      simp only [Option.some.injEq] at hv
      subst hv
      have hy := total_nonneg' b y (fun x hx => h x (by simp [hx])) hb
      have hz := total_nonneg' a z (fun x hx => h x (by simp [hx])) ha
      have hp : 0 < z + y := lt_of_le_of_ne (by linarith) (Ne.symm h0)
      constructor
      · rw [le_div_iff₀ hp]; linarith
      · rw [div_le_iff₀ hp]; linarith

/-- C58. The result is in `[-2, 2]`, or NaN when no quote is usable. -/
theorem C58_bounds (k : ℕ) {l : List Depths} (h : NonnegDepths l) :
    (∃ r : ℝ, -2 ≤ r ∧ r ≤ 2 ∧ scaledDepthDifference (bidArr k l) (askArr k l) = .ok (.fin r)) ∨
    ((∀ q ∈ l, depthDiff q.bid q.ask = none) ∧
      scaledDepthDifference (bidArr k l) (askArr k l) = .ok .nan) := by
  rw [C58_value k h]
  cases hm : definedMean (l.map fun q => depthDiff q.bid q.ask) with
  | some r =>
    left
    have := definedMean_mem_Icc (a := -2) (b := 2) (fun x hx v hv => by
      obtain ⟨q, hq, rfl⟩ := List.mem_map.mp hx
      exact depthDiff_bounds (h q hq) hv) hm
    exact ⟨r, this.1, this.2, rfl⟩
  | none =>
    right
    refine ⟨?_, rfl⟩
    intro q hq
    unfold definedMean at hm
    split_ifs at hm with h0
    cases hd : depthDiff q.bid q.ask with
    | none => rfl
    | some v =>
      have : v ∈ (l.map fun q => depthDiff q.bid q.ask).reduceOption := by
        rw [List.reduceOption_mem_iff]
        exact List.mem_map.mpr ⟨q, hq, hd⟩
      rw [h0] at this; simp at this

example : NonnegDepths [⟨[some 100, some 90], [some 120, some 80]⟩, ⟨[none, some 1], [some 0, some 3]⟩] ∧
    depthDiff [some 100, some 90] [some 120, some 80] = some (20 / 390) := by
  constructor
  · intro q hq x hx r hr
    simp only [List.mem_cons, List.not_mem_nil, or_false] at hq
    rcases hq with rfl | rfl <;> simp at hx <;>
      rcases hx with rfl | rfl | rfl | rfl <;> simp at hr <;> linarith
  · norm_num [depthDiff, total]

/-- C58. Swapping the two sides negates the result. -/
theorem C58_antisymm (k : ℕ) {l : List Depths} (h : NonnegDepths l) :
    ∃ r : Option ℝ, scaledDepthDifference (bidArr k l) (askArr k l) = .ok (ofOpt r) ∧
      scaledDepthDifference (askArr k l) (bidArr k l) = .ok (ofOpt (r.map (- ·))) := by
  refine ⟨_, C58_value k h, ?_⟩
  have h' : NonnegDepths (l.map fun q => ⟨q.ask, q.bid⟩) := by
    intro q hq x hx r hr
    obtain ⟨q', hq', rfl⟩ := List.mem_map.mp hq
    exact h q' hq' x (by simpa [or_comm] using hx) r hr
  have := C58_value k h'
  simp only [bidArr, askArr, List.map_map, Function.comp_def] at this ⊢
  rw [this]
  have e := definedMean_scale (-1) (l.map fun q => depthDiff q.bid q.ask)
  simp only [List.map_map, neg_one_mul] at e
  rw [← e]
  congr 3
  apply List.map_congr_left
  intro q _
  simp only [Function.comp, depthDiff]
  cases total q.bid with
  | none => cases total q.ask <;> simp
  | some y =>
    cases total q.ask with
    | none => simp
    | some z =>
      simp only [Option.bind_eq_bind, Option.bind_some]
      rw [add_comm y z]
      by_cases e : z + y = 0
      · simp [e]
      · rw [if_neg e, if_neg e]
        simp only [Option.map_some, Option.some.injEq]
        rw [← neg_div]; congr 1; ring

/-- C58. A change of the size unit does not matter. -/
theorem C58_scale (k : ℕ) {l : List Depths} (h : NonnegDepths l) {c : ℝ} (hc : 0 < c) :
    scaledDepthDifference
        (bidArr k (l.map fun q => ⟨q.bid.map (Option.map (c * ·)), q.ask.map (Option.map (c * ·))⟩))
        (askArr k (l.map fun q => ⟨q.bid.map (Option.map (c * ·)), q.ask.map (Option.map (c * ·))⟩))
      = scaledDepthDifference (bidArr k l) (askArr k l) := by
  rw [C58_value k h, C58_value k, List.map_map]
  · congr 3
    apply List.map_congr_left
    intro q _
    simp only [Function.comp, depthDiff, total_scale]
    cases total q.bid with
    | none => simp
    | some y =>
      cases total q.ask with
      | none => simp
      | some z =>
        simp only [Option.map_some, Option.bind_eq_bind, Option.bind_some]
        by_cases e : z + y = 0
        · rw [if_pos e, if_pos (by rw [← mul_add, e, mul_zero])]
        · rw [if_neg e, if_neg (by rw [← mul_add]; exact mul_ne_zero hc.ne' e)]
          rw [← mul_add, ← mul_sub, mul_left_comm, mul_div_mul_left _ _ hc.ne']
  · intro q hq x hx r hr
    obtain ⟨q', hq', rfl⟩ := List.mem_map.mp hq
    simp only [← List.map_append, List.mem_map] at hx
    obtain ⟨y, hy, rfl⟩ := hx
    simp only [Option.map_eq_some_iff] at hr
    obtain ⟨s, hs, rfl⟩ := hr
    exact mul_nonneg hc.le (h q' hq' y hy s hs)

/-- C58. Different shapes raise `AssertionError`. -/
theorem C58_shape (bid ask : Arr) (h : bid.shape ≠ ask.shape) :
    scaledDepthDifference bid ask = .error .assertionError := by
  rw [scaledDepthDifference, if_pos h]

/-! ### Concrete cases of the theorems above -/

theorem sampleSides_ok : ∀ q ∈ sampleSides, ¬ q.Degenerate := by
  intro q hq
  simp only [sampleSides, List.mem_cons, List.not_mem_nil, or_false] at hq
  rcases hq with rfl | rfl | rfl
  · rintro ⟨p, d, h1, h2, -⟩; simp at h1 h2; linarith
  · rintro ⟨p, d, h1, h2, -⟩; simp at h1 h2; linarith
  · rintro ⟨p, d, h1, h2, h3, h4⟩
    simp [total] at h3; exact h4 h3.symm

example := C55_slopes (k := 2) (by norm_num) sampleSides sampleSides_ok
example := C56_units (k := 2) (by norm_num) sampleSides sampleSides_ok (c := 3) (d := 1 / 100) (by norm_num)

/-- one crossed quote among proper ones -/
def touching : List LobSide := [⟨[some 1, some 2], some 100, some 100⟩, ⟨[some 5, none], some 101, some 100⟩]

theorem touching_above : ∀ q ∈ touching, ∀ p m, q.price = some p → q.mid = some m → m ≤ p := by
  intro q hq p m h1 h2
  simp only [touching, List.mem_cons, List.not_mem_nil, or_false] at hq
  rcases hq with rfl | rfl <;> simp only [Option.some.injEq] at h1 h2 <;> linarith

example := C55_infinite (k := 2) (by norm_num) touching
  (by
    intro q hq x hx r hr
    simp only [touching, List.mem_cons, List.not_mem_nil, or_false] at hq
    rcases hq with rfl | rfl <;> simp only [List.mem_cons, List.not_mem_nil, or_false] at hx <;>
      rcases hx with rfl | rfl <;> simp at hr <;> linarith)
  touching_above ⟨_, List.mem_cons_self, 100, 3, rfl, rfl, by norm_num [total], by norm_num⟩

example := C56_reflection (k := 2) (by norm_num) touching touching_above

example := C56_nonneg (k := 2) (by norm_num) (l := [⟨[some 10, some 20], some 102, some 100⟩]) (by simp) (by
  intro q hq
  rw [List.mem_singleton] at hq; subst hq
  exact ⟨102, 100, 30, rfl, rfl, by norm_num [total], by norm_num, by norm_num⟩)

/-- books that agree in levels 1, 3 and 5 only -/
example := C57_depends [()] (k := 5) (k' := 5) (j := 6) (j' := 5) (by norm_num) (by norm_num) (by norm_num) (by norm_num)
  (fun _ => [.fin 1, .fin 2, .fin 3, .fin 4, .fin 5]) (fun _ => [.fin 9, .fin 8, .fin 7, .fin 6, .fin 5])
  (fun _ => [.fin 1, .nan, .fin 3, .fin 0, .fin 5, .fin 7]) (fun _ => [.fin 9, .fin 1, .fin 7, .pinf, .fin 5])
  (by rintro _ _ i (rfl | rfl | rfl) <;> exact ⟨rfl, rfl⟩)

example := C57_value (l := [⟨fun i => i, fun i => 100 + i⟩]) (by simp) (by
  intro b hb; rw [List.mem_singleton] at hb; subst hb
  constructor <;> norm_num)

def sampleDepths : List Depths := [⟨[some 100, some 90], [some 120, some 80]⟩, ⟨[none, some 1], [some 0, some 3]⟩]

theorem sampleDepths_ok : NonnegDepths sampleDepths := by
  intro q hq x hx r hr
  simp only [sampleDepths, List.mem_cons, List.not_mem_nil, or_false] at hq
  rcases hq with rfl | rfl <;> simp at hx <;>
    rcases hx with rfl | rfl | rfl | rfl <;> simp at hr <;> linarith

example := C58_value 2 sampleDepths_ok
example := C58_bounds 2 sampleDepths_ok
example := C58_antisymm 2 sampleDepths_ok
example := C58_scale 2 sampleDepths_ok (c := 1000) (by norm_num)
example := C58_shape (.d2 2 [[.fin 1, .fin 2]]) (.d1 [.fin 1, .fin 2]) (by simp [Arr.shape])

end
end Frds.Props

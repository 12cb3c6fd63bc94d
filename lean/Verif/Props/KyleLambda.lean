import Verif.Model.KyleLambda
import Verif.Lemmas.Spread

/-! Properties C19-C21: Kyle's lambda and the bank Z-score. -/
namespace Frds.Props
noncomputable section
open Frds Frds.Model Classical

/-- one observation -/
structure Obs where
  ret : ℝ
  vol : ℝ

/-- sum of squared pricing errors of the slope `a` -/
def sse (l : List Obs) (a : ℝ) : ℝ := (l.map fun o => (o.ret - a * o.vol) ^ 2).sum

theorem rss_obs (l : List Obs) (b : Fin 1 → ℝ) :
    rss ((l.map Obs.vol).map fun v (_ : Fin 1) => v) (l.map Obs.ret) b = sse l (b 0) := by
  rw [rss, List.map_map, zipWith_maps, sse]
  congr 1
  apply List.map_congr_left
  intro o _
  simp [dotRow, mul_comm]

/-- C19. `kyle_lambda` is 1e6 times a least-squares slope; the slope is unique unless all volumes are
zero, and then it is zero. -/
theorem C19_least_squares {L : LstsqFn} (hL : L.Correct) (l : List Obs) :
    ∃ a : ℝ, kyleLambda L (l.map Obs.ret) (l.map Obs.vol) = .ok (1000000 * a) ∧
      (∀ a', sse l a ≤ sse l a') ∧
      ((∃ o ∈ l, o.vol ≠ 0) → ∀ a', (∀ a'', sse l a' ≤ sse l a'') → a' = a) ∧
      ((∀ o ∈ l, o.vol = 0) → a = 0) := by
  set rows : List (Fin 1 → ℝ) := (l.map Obs.vol).map fun v _ => v with hrows
  have hlen : rows.length = (l.map Obs.ret).length := by simp [rows]
  have hc := hL 1 rows (l.map Obs.ret) hlen
  refine ⟨L 1 rows (l.map Obs.ret) 0, ?_, ?_, ?_, ?_⟩
  · simp only [kyleLambda]
    rw [if_neg (by simp)]
    rw [mul_comm]
  · intro a'
    have := hc.min (fun _ => a')
    rwa [rss_obs, rss_obs] at this
  · rintro ⟨o, ho, hv⟩ a' ha'
    have hr : FullRank rows := by
      intro v hv'
      have h1 := hv' (fun _ => o.vol) (by simp only [rows, List.map_map]; exact List.mem_map.mpr ⟨o, ho, rfl⟩)
      simp [dotRow, hv] at h1
      funext j; rw [Fin.eq_zero j]; exact h1
    have hLS : IsLS rows (l.map Obs.ret) (fun _ => a') := by
      intro b; rw [rss_obs, rss_obs]; exact ha' _
    exact congrFun (isLS_unique hlen hr hLS hc.min) 0
  · intro h0
    have hLS : IsLS rows (l.map Obs.ret) (fun _ => 0) := by
      intro b
      rw [rss_obs, rss_obs, sse, sse]
      apply le_of_eq
      congr 1
      apply List.map_congr_left
      intro o ho; rw [h0 o ho]; simp
    have := hc.norm _ hLS
    simp at this
    nlinarith [sq_nonneg (L 1 rows (l.map Obs.ret) 0)]

/-- Closed form of the slope (zero if all volumes are zero). -/
theorem kyle_closed {L : LstsqFn} (hL : L.Correct) (l : List Obs) :
    kyleLambda L (l.map Obs.ret) (l.map Obs.vol)
      = .ok (1000000 * ((l.map fun o => o.vol * o.ret).sum / (l.map fun o => o.vol ^ 2).sum)) := by
  obtain ⟨a, ha, hmin, huniq, hzero⟩ := C19_least_squares hL l
  rw [ha]
  congr 2
  have hexp : ∀ a, sse l a = (l.map fun o => o.ret ^ 2).sum
      - 2 * a * (l.map fun o => o.vol * o.ret).sum + a ^ 2 * (l.map fun o => o.vol ^ 2).sum := by
    intro a; unfold sse
    clear ha hmin huniq hzero
    induction l with
    | nil => simp
    | cons o t ih =>
      simp only [List.map_cons, List.sum_cons]
      rw [ih]; ring
  by_cases h : ∃ o ∈ l, o.vol ≠ 0
  · have hpos : 0 < (l.map fun o => o.vol ^ 2).sum := by
      have hn := sum_map_nonneg' (l := l) (f := fun o => o.vol ^ 2) fun o _ => sq_nonneg _
      refine lt_of_le_of_ne hn fun e => ?_
      obtain ⟨o, ho, hv⟩ := h
      have := (sum_eq_zero_iff' (l := l) (f := fun o => o.vol ^ 2) fun o _ => sq_nonneg _).mp
        e.symm o ho
      exact hv (by simpa using this)
    symm
    apply huniq h
    intro a'
    rw [hexp, hexp]
    set X := (l.map fun o => o.vol * o.ret).sum
    set V := (l.map fun o => o.vol ^ 2).sum
    have : (X / V) ^ 2 * V = X ^ 2 / V := by field_simp
    rw [this]
    have h2 : 0 ≤ V * (a' - X / V) ^ 2 := mul_nonneg hpos.le (sq_nonneg _)
    have h3 : V * (a' - X / V) ^ 2 = a' ^ 2 * V - 2 * a' * X + X ^ 2 / V := by
      field_simp; ring
    have h4 : 2 * (X / V) * X = 2 * (X ^ 2 / V) := by ring
    rw [h4]; linarith
  · push Not at h
    rw [hzero h]
    have : (l.map fun o => o.vol ^ 2).sum = 0 :=
      (sum_eq_zero_iff' (f := fun o : Obs => o.vol ^ 2) fun o _ => sq_nonneg _).mpr
        fun o ho => by rw [h o ho]; simp
    rw [this, div_zero]

/-- C19. Arrays of different lengths raise `LinAlgError`. -/
theorem C19_lengths (L : LstsqFn) (r x : List ℝ) (h : x.length ≠ r.length) :
    kyleLambda L r x = .error .linAlgError := by
  simp only [kyleLambda, List.length_map]
  rw [if_pos h]

/-- C20. Scaling in both arguments (at the level of the returned value). -/
theorem C20_scaling {L : LstsqFn} (hL : L.Correct) (l : List Obs) (c : ℝ) :
    ∃ k : ℝ, kyleLambda L (l.map Obs.ret) (l.map Obs.vol) = .ok k ∧
      kyleLambda L (l.map fun o => c * o.ret) (l.map Obs.vol) = .ok (c * k) ∧
      (c ≠ 0 → kyleLambda L (l.map Obs.ret) (l.map fun o => c * o.vol) = .ok (k / c)) := by
  refine ⟨_, kyle_closed hL l, ?_, ?_⟩
  · have := kyle_closed hL (l.map fun o => ⟨c * o.ret, o.vol⟩)
    simp only [List.map_map, Function.comp_def] at this
    rw [this]
    have e : (l.map fun o => o.vol * (c * o.ret)) = l.map fun o => c * (o.vol * o.ret) :=
      List.map_congr_left fun o _ => by ring
    rw [e, sum_map_mul' l c]
    congr 1; ring
  · intro hc
    have := kyle_closed hL (l.map fun o => ⟨o.ret, c * o.vol⟩)
    simp only [List.map_map, Function.comp_def] at this
    rw [this]
    have e1 : (l.map fun o => c * o.vol * o.ret) = l.map fun o => c * (o.vol * o.ret) :=
      List.map_congr_left fun o _ => by ring
    have e2 : (l.map fun o => (c * o.vol) ^ 2) = l.map fun o => c ^ 2 * o.vol ^ 2 :=
      List.map_congr_left fun o _ => by ring
    rw [e1, e2, sum_map_mul' l c, sum_map_mul' l (c ^ 2)]
    congr 1
    rw [pow_two, mul_assoc c c, mul_div_mul_left _ _ hc, mul_div_assoc, mul_comm c, ← div_div]

/-- C20. Exact recovery, and zero for orthogonal data. -/
theorem C20_recovery {L : LstsqFn} (hL : L.Correct) (l : List Obs) :
    (∀ a, (∀ o ∈ l, o.ret = a * o.vol) → (∃ o ∈ l, o.vol ≠ 0) →
      kyleLambda L (l.map Obs.ret) (l.map Obs.vol) = .ok (1000000 * a)) ∧
    ((l.map fun o => o.vol * o.ret).sum = 0 →
      kyleLambda L (l.map Obs.ret) (l.map Obs.vol) = .ok 0) := by
  constructor
  · intro a ha hx
    obtain ⟨a', h1, _, huniq, _⟩ := C19_least_squares hL l
    rw [h1, ← huniq hx a ?_]
    intro a''
    have h0 : sse l a = 0 := by
      rw [sse, List.map_congr_left (g := fun _ => (0:ℝ))]
      · simp
      · intro o ho; rw [ha o ho]; simp
    rw [h0]
    exact sum_map_nonneg' fun o _ => sq_nonneg _
  · intro h
    rw [kyle_closed hL, h]; simp

example : (∀ o ∈ [(⟨0.02, 10⟩ : Obs), ⟨-0.04, -20⟩], o.ret = 0.002 * o.vol) ∧
    (∃ o ∈ [(⟨0.02, 10⟩ : Obs), ⟨-0.04, -20⟩], o.vol ≠ 0) ∧ ∃ L : LstsqFn, L.Correct := by
  refine ⟨?_, ⟨_, List.mem_cons_self, by norm_num⟩, exists_correct_lstsq⟩
  intro o ho
  simp only [List.mem_cons, List.not_mem_nil, or_false] at ho
  rcases ho with rfl | rfl <;> norm_num

/-! ### Z-score -/

/-- population variance -/
def popVar (l : List ℝ) : ℝ := Spec.mean l fun x => (x - Spec.mean l id) ^ 2

theorem std_fin {l : List ℝ} (h : l ≠ []) :
    Np.std (l.map XR.fin) = .fin (Real.sqrt (popVar l)) := by
  have hm : Np.mean (l.map XR.fin) = .fin (Spec.mean l id) := mean_col h id
  rw [Np.std, Np.var, hm, List.map_map]
  have : ((fun v => XR.sq (v - XR.fin (Spec.mean l id))) ∘ XR.fin)
      = fun x => XR.fin ((x - Spec.mean l id) ^ 2) := by
    funext x; simp
  rw [this, mean_col h, XR.fin_sqrt]
  · rfl
  · exact div_nonneg (sum_map_nonneg' fun x _ => sq_nonneg _) (by positivity)

theorem popVar_nonneg (l : List ℝ) : 0 ≤ popVar l :=
  div_nonneg (sum_map_nonneg' fun x _ => sq_nonneg _) (by positivity)

theorem popVar_eq_zero_iff {l : List ℝ} (h : l ≠ []) :
    popVar l = 0 ↔ ∃ c, ∀ x ∈ l, x = c := by
  have hlen : (l.length : ℝ) ≠ 0 := by
    have := List.length_pos_iff.mpr h; positivity
  constructor
  · intro h0
    rw [popVar, Spec.mean, div_eq_zero_iff, or_iff_left hlen,
      sum_eq_zero_iff' fun x _ => sq_nonneg _] at h0
    exact ⟨Spec.mean l id, fun x hx => by have := h0 x hx; nlinarith [pow_eq_zero_iff (two_ne_zero) |>.mp this]⟩
  · rintro ⟨c, hc⟩
    have hm : Spec.mean l id = c := by
      rw [Spec.mean, List.map_congr_left (f := id) (g := fun _ => c) hc, sum_map_const']
      field_simp
    rw [popVar, Spec.mean, hm, (sum_eq_zero_iff' fun x _ => sq_nonneg _).mpr, zero_div]
    intro x hx; rw [hc x hx]; simp

theorem mean_affine {l : List ℝ} (h : l ≠ []) (c d : ℝ) :
    Spec.mean (l.map fun x => c * x + d) id = c * Spec.mean l id + d := by
  have hlen : (l.length : ℝ) ≠ 0 := by
    have := List.length_pos_iff.mpr h; positivity
  simp only [Spec.mean, List.map_map, List.length_map, Function.comp_def, id]
  rw [sum_map_add' l (fun x => c * x) fun _ => d, sum_map_mul' l c fun x => x, sum_map_const',
    show (List.map id l) = List.map (fun x => x) l from rfl]
  field_simp

theorem popVar_affine {l : List ℝ} (h : l ≠ []) (c d : ℝ) :
    popVar (l.map fun x => c * x + d) = c ^ 2 * popVar l := by
  rw [popVar, mean_affine h, popVar]
  generalize Spec.mean l id = m
  rw [Spec.mean, List.map_map, List.length_map, Spec.mean,
    List.map_congr_left (g := fun x => c ^ 2 * (x - m) ^ 2), sum_map_mul', mul_div_assoc]
  intro x _
  simp only [Function.comp]; ring

/-- C21. The Z-score is `(roa + capital_ratio) / σ` with the population standard deviation of the past
ROAs; with a constant history it is ±inf or NaN by the sign of the numerator; NaN without history. -/
theorem C21_value (roa cap : ℝ) (past : List ℝ) :
    ((¬ ∃ c, ∀ x ∈ past, x = c) →
      zScore (.fin roa) (.fin cap) (past.map XR.fin)
        = .fin ((roa + cap) / Real.sqrt (popVar past))) ∧
    (past ≠ [] → (∃ c, ∀ x ∈ past, x = c) →
      zScore (.fin roa) (.fin cap) (past.map XR.fin)
        = if 0 < roa + cap then .pinf else if roa + cap < 0 then .ninf else .nan) ∧
    zScore (.fin roa) (.fin cap) [] = .nan := by
  refine ⟨fun h => ?_, fun hne h => ?_, ?_⟩
  · have hne : past ≠ [] := by rintro rfl; exact h ⟨0, by simp⟩
    have hv : popVar past ≠ 0 := fun h0 => h ((popVar_eq_zero_iff hne).mp h0)
    have hs : Real.sqrt (popVar past) ≠ 0 := by
      have := Real.sqrt_pos.mpr (lt_of_le_of_ne (popVar_nonneg past) (Ne.symm hv))
      exact this.ne'
    rw [zScore, std_fin hne, XR.fin_add, XR.fin_div _ hs]
  · rw [zScore, std_fin hne, (popVar_eq_zero_iff hne).mpr h, Real.sqrt_zero, XR.fin_add,
      XR.fin_div_zero, XR.infSign]
  · simp [zScore, Np.std, Np.var]

/-- C21. Invariance under reordering and shifts of the history, scaling with `1/|c|`. -/
theorem C21_invariance (roa cap : XR) (past past' : List ℝ) (h : past.Perm past') :
    zScore roa cap (past.map XR.fin) = zScore roa cap (past'.map XR.fin) := by
  by_cases hne : past = []
  · subst hne; rw [h.nil_eq]
  have hne' : past' ≠ [] := by rintro rfl; exact hne h.eq_nil
  have hm : Spec.mean past id = Spec.mean past' id := by
    simp only [Spec.mean, h.length_eq, (h.map id).sum_eq]
  have hv : popVar past = popVar past' := by
    simp only [popVar, hm]
    generalize Spec.mean past' id = m
    rw [Spec.mean, Spec.mean, h.length_eq, (h.map _).sum_eq]
  rw [zScore, zScore, std_fin hne, std_fin hne', hv]

theorem C21_affine (roa cap : ℝ) (past : List ℝ) (h : ¬ ∃ c, ∀ x ∈ past, x = c) {c d : ℝ}
    (hc : c ≠ 0) :
    ∃ z : ℝ, zScore (.fin roa) (.fin cap) (past.map XR.fin) = .fin z ∧
      zScore (.fin roa) (.fin cap) ((past.map fun x => c * x + d).map XR.fin) = .fin (z / |c|) := by
  have hne : past ≠ [] := by rintro rfl; exact h ⟨0, by simp⟩
  refine ⟨_, (C21_value roa cap past).1 h, ?_⟩
  rw [(C21_value roa cap _).1, popVar_affine hne, Real.sqrt_mul (sq_nonneg c), Real.sqrt_sq_eq_abs,
    mul_comm |c|, ← div_div]
  rintro ⟨e, he⟩
  refine h ⟨(e - d) / c, fun x hx => ?_⟩
  have := he (c * x + d) (List.mem_map.mpr ⟨x, hx, rfl⟩)
  rw [eq_div_iff hc]; linarith

example : ¬ ∃ c : ℝ, ∀ x ∈ [(0.01:ℝ), 0.02, 0.015], x = c := by
  rintro ⟨c, hc⟩
  have h1 := hc 0.01 (by simp)
  have h2 := hc 0.02 (by simp)
  rw [← h2] at h1; norm_num at h1

/-! ### Concrete cases of the theorems above -/

def fourObs : List Obs := [⟨0.02, 10⟩, ⟨-0.04, -20⟩, ⟨0.01, 3⟩, ⟨0, -1⟩]

/-- every theorem about Kyle's lambda, for one correct least-squares routine -/
example : ∃ L : LstsqFn, L.Correct ∧ (∃ a : ℝ, kyleLambda L (fourObs.map Obs.ret) (fourObs.map Obs.vol) = .ok (1000000 * a)) ∧
    (∃ k : ℝ, kyleLambda L (fourObs.map fun o => 2 * o.ret) (fourObs.map Obs.vol) = .ok (2 * k)) ∧
    kyleLambda L [0.02, -0.04] [10, -20] = .ok 2000 ∧ kyleLambda L [1, 2] [3] = .error .linAlgError := by
  obtain ⟨L, hL⟩ := exists_correct_lstsq
  obtain ⟨a, ha, -⟩ := C19_least_squares hL fourObs
  obtain ⟨k, -, hk, -⟩ := C20_scaling hL fourObs 2
  have := (C20_recovery hL [⟨0.02, 10⟩, ⟨-0.04, -20⟩]).1 0.002 (by
    intro o ho
    simp only [List.mem_cons, List.not_mem_nil, or_false] at ho
    rcases ho with rfl | rfl <;> norm_num) ⟨_, List.mem_cons_self, by norm_num⟩
  refine ⟨L, hL, ⟨a, ha⟩, ⟨k, hk⟩, ?_, C19_lengths L _ _ (by simp)⟩
  rw [show (2000 : ℝ) = 1000000 * 0.002 by norm_num]
  exact this

example := C21_invariance (.fin 1) (.fin 2) [1, 2, 3] [2, 1, 3] (.swap _ _ _)
example := C21_affine 1 2 [0.01, 0.02, 0.015] (by
  rintro ⟨c, hc⟩
  have h1 := hc 0.01 (by simp)
  have h2 := hc 0.02 (by simp)
  rw [← h2] at h1; norm_num at h1) (c := -3) (d := 5) (by norm_num)

end
end Frds.Props

import Verif.Props.Garch

/-! Properties C69-C72 and C97: starting values and estimation of the univariate GARCH models. -/
set_option linter.unusedSimpArgs false

namespace Frds.Props
noncomputable section
open Frds Frds.Model Frds.Spec Classical

/-! ### C69 -/

theorem find_last {P : Type} {l : List P} {f : P → Bool} {x : P} (h : l.getLast? = some x)
    (hx : f x = true) : l.reverse.find? f = some x := by
  rw [← List.head?_reverse] at h
  cases hr : l.reverse with
  | nil => rw [hr] at h; simp at h
  | cons a t =>
    rw [hr] at h
    simp at h
    subst h
    simp [hx]

theorem fin_start (v q a g b bc : ℝ) :
    (XR.fin (v * q) + (XR.fin a + XR.fin g / 2 + XR.fin b) * XR.fin bc)
      = .fin (v * q + (a + g / 2 + b) * bc) := by
  rw [XR.ofNat_def, XR.fin_div _ (by norm_num)]; rfl

theorem gjr_usable (cpp : Bool) {z : Bool} {l : List ℝ} (hr : ∃ r ∈ prep z l, r ≠ 0)
    {q a g b : ℝ} (hq : 0 < q) (hp : 0 < a + g / 2 + b) :
    Usable (fun p => gjrVariance cpp p ((prep z l).map XR.fin) (backcast ((prep z l).map XR.fin))
      (finRows (boundRows (prep z l)))) ((prep z l).map XR.fin)
      ⟨.fin (popVar l * q), .fin a, .fin g, .fin b⟩ := by
  have hne : prep z l ≠ [] := by obtain ⟨r, h, _⟩ := hr; exact List.ne_nil_of_mem h
  obtain ⟨v, hv, hpos, hrec⟩ := variancePath_fin cpp (gjrNext_fin cpp (popVar l * q) a g b)
    (first_pos hr hq hp) hne (by rw [boundRows_length]) (boundRows_good hr)
  refine ⟨v.map XR.fin, ?_, ?_⟩
  · simp only [gjrVariance]
    rw [backcast_fin hne, fin_start]
    exact hv
  · rw [loglik_finite hrec.1 hpos, XR.fin_neg]
    simp

theorem garch_usable (cpp : Bool) {z : Bool} {l : List ℝ} (hr : ∃ r ∈ prep z l, r ≠ 0)
    {q a b : ℝ} (hq : 0 < q) (hp : 0 < a + b) :
    Usable (fun p => garchVariance cpp p ((prep z l).map XR.fin) (backcast ((prep z l).map XR.fin))
      (finRows (boundRows (prep z l)))) ((prep z l).map XR.fin)
      ⟨.fin (popVar l * q), .fin a, .fin b⟩ := by
  have hne : prep z l ≠ [] := by obtain ⟨r, h, _⟩ := hr; exact List.ne_nil_of_mem h
  obtain ⟨v, hv, hpos, hrec⟩ := variancePath_fin cpp (garchNext_fin (popVar l * q) a b)
    (first_pos hr hq hp) hne (by rw [boundRows_length]) (boundRows_good hr)
  refine ⟨v.map XR.fin, ?_, ?_⟩
  · simp only [garchVariance]
    rw [backcast_fin hne]
    exact hv
  · rw [loglik_finite hrec.1 hpos, XR.fin_neg]
    simp

theorem prep_l_ne {z : Bool} {l : List ℝ} (h : prep z l ≠ []) : l ≠ [] := by
  rintro rfl; exact h (by unfold prep; cases z <;> rfl)

/-- C69. Whatever the data (some residual different from zero), the starting values are the last grid
point: `alpha = 0.2` (and `gamma = 0.2`) with persistence `0.98`. -/
theorem C69_last_grid_point (cpp zeroMean : Bool) (returns : List ℝ)
    (hr : ∃ r ∈ prep zeroMean returns, r ≠ 0) (vb : List (XR × XR))
    (hvb : varianceBounds cpp ((prep zeroMean returns).map XR.fin) = .ok vb) :
    garchStart cpp (returns.map XR.fin) ((prep zeroMean returns).map XR.fin)
        (backcast ((prep zeroMean returns).map XR.fin)) vb
      = .ok (some ⟨.fin (popVar returns * (1 - 98 / 100)), .fin (1 / 5), .fin (98 / 100 - 1 / 5)⟩) ∧
    gjrStart cpp (returns.map XR.fin) ((prep zeroMean returns).map XR.fin)
      = .ok (some ⟨.fin (popVar returns * (1 - 98 / 100)), .fin (1 / 5), .fin (1 / 5),
          .fin (98 / 100 - 1 / 5 - 1 / 5 / 2)⟩) := by
  have hne : prep zeroMean returns ≠ [] := by obtain ⟨r, h, _⟩ := hr; exact List.ne_nil_of_mem h
  have hl := prep_l_ne hne
  rw [varianceBounds_fin cpp hne] at hvb
  injection hvb with hvb
  subst hvb
  constructor
  · rw [garchStart, gridSearch_last]
    · rw [var_fin hl, find_last (x := ⟨.fin (popVar returns * (1 - 98 / 100)), .fin (1 / 5),
        .fin (98 / 100 - 1 / 5)⟩)]
      · simp [garchCands, alphaGrid, persistenceGrid, XR.one_def]
      · rw [decide_eq_true_eq]
        exact garch_usable cpp hr (by norm_num) (by norm_num)
    · intro p _
      refine ⟨_, variancePath_ok (by simpa using hne) fun _ => ?_⟩
      rw [finRows_length, boundRows_length, List.length_map]
  · rw [gjrStart, varianceBounds_fin cpp hne]
    simp only [bind, Except.bind]
    rw [gridSearch_last]
    · rw [var_fin hl, find_last (x := ⟨.fin (popVar returns * (1 - 98 / 100)), .fin (1 / 5),
        .fin (1 / 5), .fin (98 / 100 - 1 / 5 - 1 / 5 / 2)⟩)]
      · have : XR.fin (1 / 5) / 2 = .fin (1 / 5 / 2) := by
          rw [XR.ofNat_def, XR.fin_div _ (by norm_num)]
        simp only [gjrCands, alphaGrid, persistenceGrid, XR.one_def, List.flatMap_cons,
          List.flatMap_nil, List.map_cons, List.map_nil, List.append_nil, List.cons_append,
          List.nil_append, List.getLast?_cons_cons, List.getLast?_singleton, this, XR.fin_sub,
          XR.fin_mul]
      · rw [decide_eq_true_eq]
        exact gjr_usable cpp hr (by norm_num) (by norm_num)
    · intro p _
      refine ⟨_, variancePath_ok (by simpa using hne) fun _ => ?_⟩
      rw [finRows_length, boundRows_length, List.length_map]

/-- C69. For arbitrary data (NaN and infinities included), bounds and backcast value: the result of the
GARCH search is the last candidate whose negative log-likelihood exceeds minus infinity, if any. -/
theorem C69_general (cpp : Bool) (returns resids : List XR) (bc : XR) (vb : List (XR × XR))
    (hne : resids ≠ []) (hlen : resids.length ≤ vb.length) :
    ∃ res, garchStart cpp returns resids bc vb = .ok res ∧
      (∀ p, res = some p → ∃ before after s2, garchCands (Np.var returns) = before ++ p :: after ∧
        garchVariance cpp p resids bc vb = .ok s2 ∧ .ninf < -(loglik resids s2) ∧
        ∀ q ∈ after, ∀ s2, garchVariance cpp q resids bc vb = .ok s2 → ¬ .ninf < -(loglik resids s2)) ∧
      (res = none → ∀ q ∈ garchCands (Np.var returns), ∀ s2,
        garchVariance cpp q resids bc vb = .ok s2 → ¬ .ninf < -(loglik resids s2)) := by
  refine ⟨_, gridSearch_last fun p _ => ⟨_, variancePath_ok hne fun _ => hlen⟩, ?_, ?_⟩
  · intro p hp
    rw [List.find?_eq_some_iff_append] at hp
    obtain ⟨hu, as, bs, h1, h2⟩ := hp
    obtain ⟨s2, e1, e2⟩ := of_decide_eq_true hu
    refine ⟨bs.reverse, as.reverse, s2, ?_, e1, e2, ?_⟩
    · have := congrArg List.reverse h1
      simpa using this
    · intro q hq s h3 h4
      have := h2 q (List.mem_reverse.mp hq)
      simp only [Bool.not_eq_true', decide_eq_false_iff_not] at this
      exact this ⟨s, h3, h4⟩
  · intro hn q hq s h3 h4
    rw [List.find?_eq_none] at hn
    have := hn q (List.mem_reverse.mpr hq)
    rw [decide_eq_true_eq] at this
    exact this ⟨s, h3, h4⟩

theorem bounds_total (cpp : Bool) (l : List XR) (hl : l ≠ []) : ∃ vb, varianceBounds cpp l = .ok vb ∧ vb.length = l.length := by
  have hp : ∀ (lam v : XR) (l : List XR), (ewmaLoopPy lam v l).length = l.length := by
    intro lam v l
    induction l generalizing v with
    | nil => rfl
    | cons a t ih => simp [ewmaLoopPy, ih]
  have hc : ∀ (lam v : XR) (l : List XR), (ewmaLoopCpp lam v l).length = l.length := by
    intro lam v l
    induction l generalizing v with
    | nil => rfl
    | cons a t ih => simp [ewmaLoopCpp, ih]
  have h0 := List.length_pos_iff.mpr hl
  unfold varianceBounds ewma
  simp only [bind, Except.bind, pure, Except.pure, if_neg hl]
  refine ⟨_, rfl, ?_⟩
  cases cpp <;> simp [hp, hc] <;> omega

/-- C69. Likewise for GJR, which computes bounds and backcast from the residuals itself. -/
theorem C69_general_gjr (cpp : Bool) (returns resids : List XR) (hne : resids ≠ []) :
    ∃ vb res, varianceBounds cpp resids = .ok vb ∧ gjrStart cpp returns resids = .ok res ∧
      (∀ p, res = some p → ∃ before after s2, gjrCands (Np.var returns) = before ++ p :: after ∧
        gjrVariance cpp p resids (backcast resids) vb = .ok s2 ∧ .ninf < -(loglik resids s2) ∧
        ∀ q ∈ after, ∀ s2, gjrVariance cpp q resids (backcast resids) vb = .ok s2 → ¬ .ninf < -(loglik resids s2)) ∧
      (res = none → ∀ q ∈ gjrCands (Np.var returns), ∀ s2,
        gjrVariance cpp q resids (backcast resids) vb = .ok s2 → ¬ .ninf < -(loglik resids s2)) := by
  obtain ⟨vb, hvb, hlen⟩ := bounds_total cpp resids hne
  have hgs := gridSearch_last (cands := gjrCands (Np.var returns))
    (path := fun p => gjrVariance cpp p resids (backcast resids) vb) (resids := resids)
    fun p _ => ⟨_, variancePath_ok hne fun _ => hlen.ge⟩
  have hst : gjrStart cpp returns resids
      = gridSearch (gjrCands (Np.var returns)) (fun p => gjrVariance cpp p resids (backcast resids) vb) resids := by
    unfold gjrStart
    simp only [hvb, bind, Except.bind]
  refine ⟨vb, _, hvb, hst.trans hgs, ?_, ?_⟩
  · intro p hp
    rw [List.find?_eq_some_iff_append] at hp
    obtain ⟨hu, as, bs, h1, h2⟩ := hp
    obtain ⟨s2, e1, e2⟩ := of_decide_eq_true hu
    refine ⟨bs.reverse, as.reverse, s2, ?_, e1, e2, ?_⟩
    · have := congrArg List.reverse h1
      simpa using this
    · intro q hq s h3 h4
      have := h2 q (List.mem_reverse.mp hq)
      simp only [Bool.not_eq_true', decide_eq_false_iff_not] at this
      exact this ⟨s, h3, h4⟩
  · intro hn q hq s h3 h4
    rw [List.find?_eq_none] at hn
    have := hn q (List.mem_reverse.mpr hq)
    rw [decide_eq_true_eq] at this
    exact this ⟨s, h3, h4⟩

theorem mean_demo : Spec.mean [(2 : ℝ), -1, -1] id = 0 := by
  simp [Spec.mean]; norm_num

theorem prep_demo : prep false [(2 : ℝ), -1, -1] = [2, -1, -1] := by
  simp [prep, mean_demo]

theorem popVar_demo : popVar [(2 : ℝ), -1, -1] = 2 := by
  simp [popVar, mean_demo, Spec.mean]; norm_num

theorem ewAvg_demo : ewAvg [(2 : ℝ), -1, -1] = 14559 / 7059 := by
  simp [ewAvg, Finset.sum_range_succ]; norm_num

/-- variance path of three finite residuals with loose bounds -/
theorem path3 {next : XR → XR → XR} (cpp : Bool) {nr : ℝ → ℝ → ℝ}
    (hn : ∀ r s, next (.fin r) (.fin s) = .fin (nr r s)) {s0 s1 s2 r0 r1 r2 : ℝ} {rows : List (ℝ × ℝ)}
    {S : XR} (hlen : rows.length = 3) (hb : ∀ p ∈ rows, 0 < p.1 ∧ p.1 ≤ 1 ∧ 10 ≤ p.2)
    (hS : S = .fin s0) (h1 : nr r0 s0 = s1) (h2 : nr r1 s1 = s2) (b1 : 1 ≤ s1) (b1' : s1 ≤ 10) (b2 : 1 ≤ s2)
    (b2' : s2 ≤ 10) :
    variancePath next (boundsCheck cpp) S [.fin r0, .fin r1, .fin r2]
      (rows.map fun p => (.fin p.1, .fin p.2)) = .ok [.fin s0, .fin s1, .fin s2] := by
  subst hS
  obtain ⟨x, y, w, rfl⟩ := List.length_eq_three.mp hlen
  have hy := hb y (by simp)
  have hw := hb w (by simp)
  unfold variancePath
  rw [if_neg (by simp), if_neg (by simp)]
  simp only [List.map_cons, List.map_nil, List.dropLast, List.tail_cons, List.zip_cons_cons,
    List.zip_nil_left, varLoop, hn]
  rw [boundsCheck_fin cpp hy.1 (by linarith), h1, clampLog_inside (by linarith) (by linarith), hn, h2,
    boundsCheck_fin cpp hw.1 (by linarith), clampLog_inside (by linarith) (by linarith)]

theorem loglik3 {r0 r1 r2 s0 s1 s2 : ℝ} (h0 : 0 < s0) (h1 : 0 < s1) (h2 : 0 < s2) :
    loglik [.fin r0, .fin r1, .fin r2] [.fin s0, .fin s1, .fin s2]
      = .fin (-(1 / 2) * (3 * Real.log (2 * Real.pi) + (Real.log s0 + Real.log s1 + Real.log s2)
          + (r0 ^ 2 / s0 + r1 ^ 2 / s1 + r2 ^ 2 / s2))) := by
  have := loglik_fin [(r0, s0), (r1, s1), (r2, s2)] (by simp [h0, h1, h2])
  simp only [List.map_cons, List.map_nil, List.sum_cons, List.sum_nil, log_normalPdf h0,
    log_normalPdf h1, log_normalPdf h2] at this
  rw [this]
  congr 1; ring

theorem log_ge {a b : ℝ} (ha : 0 < a) (hb : 0 < b) : 1 - b / a ≤ Real.log a - Real.log b := by
  have := Real.one_sub_inv_le_log_of_pos (div_pos ha hb)
  rw [inv_div, Real.log_div ha.ne' hb.ne'] at this
  exact this

/-- C69. The starting values are in general not the grid point with the highest log-likelihood: for the
returns `[2, -1, -1]` the grid point `alpha = 0.01`, persistence `0.5` (with `gamma = 0.01` for GJR) has
a higher likelihood than the one returned. -/
theorem C69_not_maximiser (cpp : Bool) :
    ∃ (returns : List ℝ) (resids : List XR) (vb : List (XR × XR)) (bc : XR),
      resids = (prep false returns).map XR.fin ∧ varianceBounds cpp resids = .ok vb ∧
      bc = backcast resids ∧
      (∃ p ∈ garchCands (Np.var (returns.map XR.fin)), ∃ q ∈ garchCands (Np.var (returns.map XR.fin)),
        ∃ s2p s2q, garchStart cpp (returns.map XR.fin) resids bc vb = .ok (some p) ∧
        garchVariance cpp p resids bc vb = .ok s2p ∧ garchVariance cpp q resids bc vb = .ok s2q ∧
        loglik resids s2p < loglik resids s2q) ∧
      (∃ p ∈ gjrCands (Np.var (returns.map XR.fin)), ∃ q ∈ gjrCands (Np.var (returns.map XR.fin)),
        ∃ s2p s2q, gjrStart cpp (returns.map XR.fin) resids = .ok (some p) ∧
        gjrVariance cpp p resids bc vb = .ok s2p ∧ gjrVariance cpp q resids bc vb = .ok s2q ∧
        loglik resids s2p < loglik resids s2q) := by
  have hne : ([2, -1, -1] : List ℝ) ≠ [] := by simp
  obtain ⟨rows, hrows, hlen, hup, hpos, _, hM, hm⟩ := C66_variance_bounds cpp [(2 : ℝ), -1, -1] hne
  have hpos := hpos ⟨2, by simp, by norm_num⟩
  have hM := hM 4 (by simp; norm_num)
  have hm := hm 1 (by simp) (by norm_num)
  have hb : ∀ p ∈ rows, 0 < p.1 ∧ p.1 ≤ 1 ∧ 10 ≤ p.2 := by
    intro p hp
    have := hM p hp; have := hm p hp; have := hup p hp
    refine ⟨(hpos p hp).1, by linarith, by linarith⟩
  have hlast := C69_last_grid_point cpp false [(2 : ℝ), -1, -1]
    (by rw [prep_demo]; exact ⟨2, by simp, by norm_num⟩) _ (by rw [prep_demo]; exact hrows)
  rw [prep_demo, popVar_demo] at hlast
  have hbc : backcast ([(2 : ℝ), -1, -1].map XR.fin) = .fin (14559 / 7059) := by
    rw [backcast_fin hne, ewAvg_demo]
  have hvar : Np.var ([(2 : ℝ), -1, -1].map XR.fin) = .fin 2 := by rw [var_fin hne, popVar_demo]
  refine ⟨[2, -1, -1], [(2 : ℝ), -1, -1].map XR.fin, _, _, by rw [prep_demo], hrows, rfl, ?_, ?_⟩
  · refine ⟨_, ?_, ⟨.fin 1, .fin (1 / 100), .fin (49 / 100)⟩, ?_,
      [.fin (242503 / 117650), .fin (1107609 / 452500), .fin (48626751 / 22625000)],
      [.fin (9559 / 4706), .fin (191563 / 94120), .fin (18892707 / 9412000)], hlast.1, ?_, ?_, ?_⟩
    · rw [hvar]
      simp [garchCands, alphaGrid, persistenceGrid, XR.one_def]
    · rw [hvar]
      simp only [garchCands, alphaGrid, persistenceGrid, XR.one_def, List.flatMap_cons,
          List.map_cons, XR.fin_sub, XR.fin_mul, List.cons_append, List.mem_cons]
      left
      norm_num
    · rw [hbc, garchVariance]
      refine path3 (s0 := (242503 / 117650)) (s1 := (1107609 / 452500)) (s2 := (48626751 / 22625000)) cpp (garchNext_fin _ _ _) hlen hb ?_
        (by norm_num [gjrNews]) (by norm_num [gjrNews])
        (by norm_num) (by norm_num) (by norm_num) (by norm_num)
      simp only [XR.fin_add, XR.fin_mul]; norm_num
    · rw [hbc, garchVariance]
      refine path3 (s0 := (9559 / 4706)) (s1 := (191563 / 94120)) (s2 := (18892707 / 9412000)) cpp (garchNext_fin _ _ _) hlen hb ?_
        (by norm_num [gjrNews]) (by norm_num [gjrNews])
        (by norm_num) (by norm_num) (by norm_num) (by norm_num)
      simp only [XR.fin_add, XR.fin_mul]; norm_num
    · simp only [List.map_cons, List.map_nil]
      rw [loglik3 (by norm_num) (by norm_num) (by norm_num),
        loglik3 (by norm_num) (by norm_num) (by norm_num), XR.fin_lt]
      have l0 := log_ge (a := (242503 / 117650)) (b := (9559 / 4706)) (by norm_num) (by norm_num)
      have l1 := log_ge (a := (1107609 / 452500)) (b := (191563 / 94120)) (by norm_num) (by norm_num)
      have l2 := log_ge (a := (48626751 / 22625000)) (b := (18892707 / 9412000)) (by norm_num) (by norm_num)
      norm_num at l0 l1 l2 ⊢
      linarith
  · refine ⟨_, ?_, ⟨.fin 1, .fin (1 / 100), .fin (1 / 100), .fin (97 / 200)⟩, ?_,
      [.fin (242503 / 117650), .fin (6593201 / 2941250), .fin (144438167 / 73531250)],
      [.fin (9559 / 4706), .fin (1906071 / 941200), .fin (376893687 / 188240000)], hlast.2, ?_, ?_, ?_⟩
    · rw [hvar]
      have : XR.fin (1 / 5) / 2 = .fin (1 / 5 / 2) := by
        rw [XR.ofNat_def, XR.fin_div _ (by norm_num)]
      apply List.mem_of_getLast?
      simp only [gjrCands, alphaGrid, persistenceGrid, XR.one_def, List.flatMap_cons,
          List.flatMap_nil, List.map_cons, List.map_nil, List.append_nil, List.cons_append,
          List.nil_append, List.getLast?_cons_cons, List.getLast?_singleton, this, XR.fin_sub,
          XR.fin_mul]
    · rw [hvar]
      have : XR.fin (1 / 100) / 2 = .fin (1 / 100 / 2) := by
        rw [XR.ofNat_def, XR.fin_div _ (by norm_num)]
      simp only [gjrCands, alphaGrid, persistenceGrid, XR.one_def, List.flatMap_cons,
          List.map_cons, XR.fin_sub, XR.fin_mul, List.cons_append, List.mem_cons, this]
      left
      norm_num
    · rw [hbc, gjrVariance]
      refine path3 (s0 := (242503 / 117650)) (s1 := (6593201 / 2941250)) (s2 := (144438167 / 73531250)) cpp (gjrNext_fin cpp _ _ _ _) hlen hb ?_
        (by norm_num [gjrNews]) (by norm_num [gjrNews])
        (by norm_num) (by norm_num) (by norm_num) (by norm_num)
      simp only [XR.ofNat_def]; rw [XR.fin_div _ (by norm_num)]; simp only [XR.fin_add, XR.fin_mul]; norm_num
    · rw [hbc, gjrVariance]
      refine path3 (s0 := (9559 / 4706)) (s1 := (1906071 / 941200)) (s2 := (376893687 / 188240000)) cpp (gjrNext_fin cpp _ _ _ _) hlen hb ?_
        (by norm_num [gjrNews]) (by norm_num [gjrNews])
        (by norm_num) (by norm_num) (by norm_num) (by norm_num)
      simp only [XR.ofNat_def]; rw [XR.fin_div _ (by norm_num)]; simp only [XR.fin_add, XR.fin_mul]; norm_num
    · simp only [List.map_cons, List.map_nil]
      rw [loglik3 (by norm_num) (by norm_num) (by norm_num),
        loglik3 (by norm_num) (by norm_num) (by norm_num), XR.fin_lt]
      have l0 := log_ge (a := (242503 / 117650)) (b := (9559 / 4706)) (by norm_num) (by norm_num)
      have l1 := log_ge (a := (6593201 / 2941250)) (b := (1906071 / 941200)) (by norm_num) (by norm_num)
      have l2 := log_ge (a := (144438167 / 73531250)) (b := (376893687 / 188240000)) (by norm_num) (by norm_num)
      norm_num at l0 l1 l2 ⊢
      linarith

example : ∃ returns : List ℝ, returns.length = 3 ∧ ∃ r ∈ prep false returns, r ≠ 0 :=
  ⟨[2, -1, -1], rfl, by rw [prep_demo]; exact ⟨2, by simp, by norm_num⟩⟩

/-! ### C70 -/

theorem gridSearch_mem {P : Type} {cands : List P} {path : P → Except PyErr (List XR)}
    {resids : List XR} {p : P} (h : gridSearch cands path resids = .ok (some p)) : p ∈ cands := by
  have gen : ∀ (l : List P) (acc : Option P),
      l.foldlM (fun best p => do
        let s2 ← path p
        return if .ninf < -(loglik resids s2) then some p else best) acc = Except.ok (some p) →
      p ∈ l ∨ acc = some p := by
    intro l
    induction l with
    | nil =>
      intro acc h
      simp only [List.foldlM_nil, pure, Except.pure, Except.ok.injEq] at h
      exact Or.inr h
    | cons q t ih =>
      intro acc h
      rw [List.foldlM_cons] at h
      simp only [bind, Except.bind, pure, Except.pure] at h
      cases hp : path q with
      | error e => rw [hp] at h; simp at h
      | ok s2 =>
        rw [hp] at h
        simp only at h
        rcases ih _ h with h1 | h1
        · exact Or.inl (by simp [h1])
        · by_cases hu : XR.ninf < -(loglik resids s2)
          · rw [if_pos hu] at h1; left; simp at h1; simp [h1]
          · rw [if_neg hu] at h1; exact Or.inr h1
  rcases gen cands none h with h1 | h1
  · exact h1
  · cases h1

theorem alphaGrid_mem {a : XR} (h : a ∈ alphaGrid) : ∃ x : ℝ, a = .fin x ∧ 0 < x ∧ x ≤ 1 / 5 := by
  simp only [alphaGrid, List.mem_cons, List.not_mem_nil, or_false] at h
  rcases h with rfl | rfl | rfl | rfl <;> exact ⟨_, rfl, by norm_num, by norm_num⟩

theorem persistenceGrid_mem {a : XR} (h : a ∈ persistenceGrid) :
    ∃ x : ℝ, a = .fin x ∧ 1 / 2 ≤ x ∧ x ≤ 98 / 100 := by
  simp only [persistenceGrid, List.mem_cons, List.not_mem_nil, or_false] at h
  rcases h with rfl | rfl | rfl | rfl <;> exact ⟨_, rfl, by norm_num, by norm_num⟩

/-- C70. Any starting point returned by the GARCH search is a stationary model with positive
coefficients whose unconditional variance is the sample variance. -/
theorem C70_garch_feasible (cpp : Bool) (returns : List ℝ) (hv : 0 < popVar returns)
    (resids : List XR) (bc : XR) (vb : List (XR × XR)) (p : GarchVar)
    (h : garchStart cpp (returns.map XR.fin) resids bc vb = .ok (some p)) :
    ∃ omega alpha beta : ℝ, p = ⟨.fin omega, .fin alpha, .fin beta⟩ ∧ 0 < omega ∧ 0 < alpha ∧
      0 < beta ∧ alpha + beta < 1 ∧ omega / (1 - (alpha + beta)) = popVar returns := by
  have hne : returns ≠ [] := by rintro rfl; simp [popVar, Spec.mean] at hv
  have hm := gridSearch_mem h
  rw [var_fin hne] at hm
  simp only [garchCands, List.mem_flatMap, List.mem_map] at hm
  obtain ⟨a, ha, q, hq, rfl⟩ := hm
  obtain ⟨x, rfl, hx1, hx2⟩ := alphaGrid_mem ha
  obtain ⟨y, rfl, hy1, hy2⟩ := persistenceGrid_mem hq
  have hy : 0 < 1 - y := by linarith
  refine ⟨popVar returns * (1 - y), x, y - x, by simp [XR.one_def], by positivity, hx1,
    by linarith, by linarith, ?_⟩
  rw [add_sub_cancel, mul_div_assoc, div_self hy.ne', mul_one]

/-- C70. The same for GJR: persistence is `alpha + gamma / 2 + beta`. -/
theorem C70_gjr_feasible (cpp : Bool) (returns : List ℝ) (hv : 0 < popVar returns)
    (resids : List XR) (p : GjrVar)
    (h : gjrStart cpp (returns.map XR.fin) resids = .ok (some p)) :
    ∃ omega alpha gamma beta : ℝ, p = ⟨.fin omega, .fin alpha, .fin gamma, .fin beta⟩ ∧ 0 < omega ∧
      0 < alpha ∧ 0 < gamma ∧ 0 < beta ∧ alpha + gamma / 2 + beta < 1 ∧
      omega / (1 - (alpha + gamma / 2 + beta)) = popVar returns := by
  have hne : returns ≠ [] := by rintro rfl; simp [popVar, Spec.mean] at hv
  unfold gjrStart at h
  cases hb : varianceBounds cpp resids with
  | error e => rw [hb] at h; simp [bind, Except.bind] at h
  | ok vb =>
    rw [hb] at h
    simp only [bind, Except.bind] at h
    have hm := gridSearch_mem h
    rw [var_fin hne] at hm
    simp only [gjrCands, List.mem_flatMap, List.mem_map] at hm
    obtain ⟨a, ha, g, hg, q, hq, rfl⟩ := hm
    obtain ⟨x, rfl, hx1, hx2⟩ := alphaGrid_mem ha
    obtain ⟨z, rfl, hz1, hz2⟩ := alphaGrid_mem hg
    obtain ⟨y, rfl, hy1, hy2⟩ := persistenceGrid_mem hq
    have hy : 0 < 1 - y := by linarith
    refine ⟨popVar returns * (1 - y), x, z, y - x - z / 2, ?_, by positivity, hx1, hz1,
      by linarith, by linarith, ?_⟩
    · rw [XR.ofNat_def, XR.fin_div _ (by norm_num)]; simp [XR.one_def]
    · rw [show 1 - (x + z / 2 + (y - x - z / 2)) = 1 - y by ring, mul_div_assoc, div_self hy.ne',
        mul_one]

example : ∃ returns : List ℝ, 0 < popVar returns ∧
    ∃ resids bc vb p, garchStart false (returns.map XR.fin) resids bc vb = .ok (some p) := by
  refine ⟨[2, -1, -1], by rw [popVar_demo]; norm_num, _, _, _, _,
    (C69_last_grid_point false false [2, -1, -1] (by rw [prep_demo]; exact ⟨2, by simp, by norm_num⟩)
      _ (varianceBounds_fin false (by rw [prep_demo]; simp))).1⟩

/-! ### C71, C72 -/

/-- The estimation step common to both models, spelled out: preparation succeeds with backcast `bc`,
bounds `vb` and start `x0`; the optimiser is run on the negative log-likelihood from there. -/
structure Estimated {V : Type} (cpp : Bool)
    (var : V → List XR → XR → List (XR × XR) → Except PyErr (List XR))
    (feas : Bool → Feas (XR × V)) (opt : Optimizer (XR × V)) (o o' : GarchObj V) (bc : XR)
    (vb : List (XR × XR)) (x0 : XR × V) (run : OptRun (XR × V)) : Prop where
  backcast_eq : bc = backcast (prepResids o)
  bounds_eq : varianceBounds cpp (prepResids o) = .ok vb
  run_eq : run = opt (feas o.zeroMean) (objective var o bc vb) x0
  start_mean : o.zeroMean = false → x0.1 = Np.mean o.returns
  stored : o'.backcast = bc ∧ o'.bounds = some vb
  data : o'.returns = o.returns ∧ o'.zeroMean = o.zeroMean
  success : run.success = true → o'.success = true ∧
    o'.params = some (if o.zeroMean then 0 else run.x.1, run.x.2, -run.f) ∧
    o'.resids = o.returns.map (· - if o.zeroMean then 0 else run.x.1)
  failure : run.success = false → o'.success = o.success ∧ o'.params = o.params ∧ o'.resids = o.resids
  /-- `sigma2` is the path at the last evaluation -/
  sigma2 : ∀ p, run.trace.getLast? = some p → ∀ s2,
    var p.2 (if o.zeroMean then o.returns else o.returns.map (· - p.1)) bc vb = .ok s2 →
    o'.sigma2 = s2
  sigma2_none : run.trace = [] → o'.sigma2 = o.sigma2

theorem fitCore_estimated {V : Type} {cpp : Bool}
    {var : V → List XR → XR → List (XR × XR) → Except PyErr (List XR)}
    {start : List XR → List XR → XR → List (XR × XR) → Except PyErr (Option V)}
    {feas : Bool → Feas (XR × V)} {opt : Optimizer (XR × V)} {o o' : GarchObj V} (h : fitCore cpp var start feas opt o = .ok o') :
    ∃ bc vb x0 run, Estimated cpp var feas opt o o' bc vb x0 run ∧
      start o.returns (prepResids o) bc vb = .ok (some x0.2) := by
  unfold fitCore at h
  simp only [bind, Except.bind] at h
  cases hvb : varianceBounds cpp (prepResids o) with
  | error e => rw [hvb] at h; simp at h
  | ok vb =>
    rw [hvb] at h
    simp only at h
    cases hst : start o.returns (prepResids o) (backcast (prepResids o)) vb with
    | error e => rw [hst] at h; simp at h
    | ok v0 =>
      rw [hst] at h
      cases v0 with
      | none => simp at h
      | some v0 =>
        simp only at h
        set x0 : XR × V := (if o.zeroMean then 0 else Np.mean o.returns, v0) with hx0
        set run := opt (feas o.zeroMean) (objective var o (backcast (prepResids o)) vb) x0 with hrun
        refine ⟨backcast (prepResids o), vb, x0, run, ?_, hst⟩
        have hs2 : ∀ p, run.trace.getLast? = some p → ∀ s2,
            var p.2 (if o.zeroMean then o.returns else o.returns.map (· - p.1))
              (backcast (prepResids o)) vb = .ok s2 →
            (match run.trace.getLast? with
              | some p => match modelPath var o (backcast (prepResids o)) vb p with
                | .ok (_, s2) => s2
                | .error _ => o.sigma2
              | none => o.sigma2) = s2 := by
          intro p hp s2 hv
          rw [hp]
          simp only [modelPath, demean, bind, Except.bind, pure, Except.pure]
          rw [hv]
        have hs3 : run.trace = [] → (match run.trace.getLast? with
              | some p => match modelPath var o (backcast (prepResids o)) vb p with
                | .ok (_, s2) => s2
                | .error _ => o.sigma2
              | none => o.sigma2) = o.sigma2 := by
          intro hp
          rw [hp]; rfl
        cases hsu : run.success with
        | true =>
          rw [hsu] at h
          simp only [if_true, Except.ok.injEq] at h
          subst h
          refine ⟨rfl, hvb, hrun, ?_, ⟨rfl, rfl⟩, ⟨rfl, rfl⟩, fun _ => ⟨rfl, rfl, rfl⟩, ?_, hs2, hs3⟩
          · intro hz; rw [hx0, hz]; rfl
          · intro hf; rw [hsu] at hf; cases hf
        | false =>
          rw [hsu] at h
          simp only [Bool.false_eq_true, if_false, Except.ok.injEq] at h
          subst h
          refine ⟨rfl, hvb, hrun, ?_, ⟨rfl, rfl⟩, ⟨rfl, rfl⟩, ?_, fun _ => ⟨rfl, rfl, rfl⟩, hs2, hs3⟩
          · intro hz; rw [hx0, hz]; rfl
          · intro hf; rw [hsu] at hf; cases hf

/-- C71. `GARCHModel.fit`: nothing happens and `None` is returned after a successful fit; otherwise the
object is estimated and its parameters are returned. -/
theorem C71_garch_fit (cpp : Bool) (opt : Optimizer (XR × GarchVar)) (o o' : GarchObj GarchVar)
    (ret : Option (Option (XR × GarchVar × XR))) (h : garchFit cpp opt o = .ok (o', ret)) :
    (o.success = true → o' = o ∧ ret = none) ∧
    (o.success = false → ret = some o'.params ∧ ∃ bc vb x0 run,
      Estimated cpp (garchVariance cpp) garchFeas opt o o' bc vb x0 run ∧
      garchStart cpp o.returns (prepResids o) bc vb = .ok (some x0.2)) := by
  unfold garchFit at h
  constructor
  · intro hs
    rw [hs] at h
    simp only [if_true, Except.ok.injEq, Prod.mk.injEq] at h
    exact ⟨h.1.symm, h.2.symm⟩
  · intro hs
    rw [hs] at h
    simp only [Bool.false_eq_true, if_false, bind, Except.bind, pure, Except.pure] at h
    cases hf : fitCore cpp (garchVariance cpp) (garchStart cpp) garchFeas opt o with
    | error e => rw [hf] at h; simp at h
    | ok w =>
      rw [hf] at h
      simp only [Except.ok.injEq, Prod.mk.injEq] at h
      obtain ⟨rfl, rfl⟩ := h
      exact ⟨rfl, fitCore_estimated hf⟩

/-- C71. `GJRGARCHModel.fit` estimates every time and returns the parameters. -/
theorem C71_gjr_fit (cpp : Bool) (opt : Optimizer (XR × GjrVar)) (o o' : GarchObj GjrVar)
    (ret : Option (Option (XR × GjrVar × XR))) (h : gjrFit cpp opt o = .ok (o', ret)) :
    ret = some o'.params ∧ ∃ bc vb x0 run,
      Estimated cpp (gjrVariance cpp) gjrFeas opt o o' bc vb x0 run ∧
      gjrStart cpp o.returns (prepResids o) = .ok (some x0.2) := by
  unfold gjrFit at h
  simp only [bind, Except.bind, pure, Except.pure] at h
  cases hf : fitCore cpp (gjrVariance cpp) (fun ret res _ _ => gjrStart cpp ret res) gjrFeas opt o with
  | error e => rw [hf] at h; simp at h
  | ok w =>
    rw [hf] at h
    simp only [Except.ok.injEq, Prod.mk.injEq] at h
    obtain ⟨rfl, rfl⟩ := h
    exact ⟨rfl, fitCore_estimated hf⟩

/-- objects reachable from a fresh one (`estimation_success = False`, default parameters) by any
number of calls of a fit method, each with its own optimiser behaviour -/
inductive Reachable {V : Type} (fit : Optimizer (XR × V) → GarchObj V →
    Except PyErr (GarchObj V × Option (Option (XR × V × XR)))) : GarchObj V → Prop
  | fresh (o : GarchObj V) : o.success = false → o.params = none → Reachable fit o
  | step (o o' : GarchObj V) (opt : Optimizer (XR × V)) (ret) : Reachable fit o →
      fit opt o = .ok (o', ret) → Reachable fit o'

/-- consistent object: parameters are present exactly after a success; then the residuals are the
returns minus the estimated mean, which is zero for a zero-mean model -/
def Consistent {V : Type} (o : GarchObj V) : Prop :=
  (o.success = false → o.params = none) ∧
  (o.success = true → ∃ mu v ll, o.params = some (mu, v, ll) ∧ o.resids = o.returns.map (· - mu) ∧
    (o.zeroMean = true → mu = 0))

theorem estimated_consistent {V : Type} {cpp : Bool}
    {var : V → List XR → XR → List (XR × XR) → Except PyErr (List XR)}
    {feas : Bool → Feas (XR × V)} {opt : Optimizer (XR × V)} {o o' : GarchObj V} {bc vb x0 run} (hc : Consistent o)
    (h : Estimated cpp var feas opt o o' bc vb x0 run) : Consistent o' := by
  cases hr : run.success with
  | true =>
    obtain ⟨h1, h2, h3⟩ := h.success hr
    refine ⟨fun hf => absurd (h1.symm.trans hf) (by simp), fun _ => ⟨_, _, _, h2, ?_, ?_⟩⟩
    · rw [h3, h.data.1]
    · intro hz; rw [h.data.2] at hz; rw [hz]; rfl
  | false =>
    obtain ⟨h1, h2, h3⟩ := h.failure hr
    refine ⟨fun hf => ?_, fun hf => ?_⟩
    · rw [h2]; exact hc.1 (by rw [← h1]; exact hf)
    · obtain ⟨mu, v, ll, e1, e2, e3⟩ := hc.2 (by rw [← h1]; exact hf)
      refine ⟨mu, v, ll, by rw [h2, e1], by rw [h3, h.data.1, e2], ?_⟩
      rw [h.data.2]; exact e3

/-- C71. After any history of calls both kinds of object are consistent. -/
theorem C71_history (cpp : Bool) :
    (∀ o, Reachable (garchFit cpp) o → Consistent o) ∧ ∀ o, Reachable (gjrFit cpp) o → Consistent o := by
  constructor
  · intro o h
    induction h with
    | fresh o h1 h2 => exact ⟨fun _ => h2, fun h => absurd (h1.symm.trans h) (by simp)⟩
    | step o o' opt ret _ hf ih =>
      obtain ⟨hs, hn⟩ := C71_garch_fit cpp opt o o' ret hf
      cases hsu : o.success with
      | true => rw [(hs hsu).1]; exact ih
      | false =>
        obtain ⟨_, bc, vb, x0, run, he, _⟩ := hn hsu
        exact estimated_consistent ih he
  · intro o h
    induction h with
    | fresh o h1 h2 => exact ⟨fun _ => h2, fun h => absurd (h1.symm.trans h) (by simp)⟩
    | step o o' opt ret _ hf ih =>
      obtain ⟨_, bc, vb, x0, run, he, _⟩ := C71_gjr_fit cpp opt o o' ret hf
      exact estimated_consistent ih he

/-- an estimation of finite, non-degenerate data completes whatever the optimiser does -/
theorem garchFit_total (cpp : Bool) (opt : Optimizer (XR × GarchVar)) (o : GarchObj GarchVar)
    (l : List ℝ) (ho : o.returns = l.map XR.fin) (hs : o.success = false)
    (hr : ∃ r ∈ prep o.zeroMean l, r ≠ 0) : ∃ o' ret, garchFit cpp opt o = .ok (o', ret) := by
  have hne : prep o.zeroMean l ≠ [] := by obtain ⟨r, h, _⟩ := hr; exact List.ne_nil_of_mem h
  have hl := prep_l_ne hne
  have hvb := varianceBounds_fin cpp hne
  have hst := (C69_last_grid_point cpp o.zeroMean l hr _ hvb).1
  unfold garchFit fitCore
  simp only [bind, Except.bind, pure, Except.pure]
  rw [prepResids_fin hl ho, hvb, hs]
  simp only [Bool.false_eq_true, if_false, ho]
  rw [hst]
  simp only
  cases (opt _ _ _).success <;> exact ⟨_, _, rfl⟩

/-- C72. After `fit`, `sigma2` is the variance path at the last parameter vector the optimiser
evaluated; it is the path at the reported parameters if that vector was the last one evaluated. -/
theorem C72_sigma2 {V : Type} {cpp : Bool}
    {var : V → List XR → XR → List (XR × XR) → Except PyErr (List XR)}
    {feas : Bool → Feas (XR × V)} {opt : Optimizer (XR × V)} {o o' : GarchObj V} {bc vb x0 run}
    (h : Estimated cpp var feas opt o o' bc vb x0 run) (p : XR × V) (hp : run.trace.getLast? = some p)
    (s2 : List XR)
    (hs : var p.2 (if o.zeroMean then o.returns else o.returns.map (· - p.1)) bc vb = .ok s2) :
    o'.sigma2 = s2 ∧
    (run.success = true → p = run.x →
      ∃ mu v ll, o'.params = some (mu, v, ll) ∧ v = p.2 ∧ (o.zeroMean = false → mu = p.1) ∧
        (o.zeroMean = false → var v (o.returns.map (· - mu)) bc vb = .ok o'.sigma2) ∧
        (o.zeroMean = true → var v o.returns bc vb = .ok o'.sigma2)) := by
  have h1 := h.sigma2 p hp s2 hs
  refine ⟨h1, fun hr hpx => ⟨_, _, _, (h.success hr).2.1, by rw [hpx], ?_, ?_, ?_⟩⟩
  · intro hz; rw [hz, hpx]; rfl
  · intro hz
    rw [hz] at hs ⊢
    simp only [Bool.false_eq_true, if_false] at hs ⊢
    rw [← hpx, hs, h1]
  · intro hz
    rw [hz] at hs
    simp only [if_true] at hs
    rw [← hpx, hs, h1]

/-- C72. If the optimiser's last evaluation is elsewhere, `sigma2` differs from the path at the reported
parameters: there are data and an optimiser (which evaluates its solution before another point) with
this outcome. -/
theorem C72_sigma2_stale (cpp : Bool) :
    ∃ (opt : Optimizer (XR × GarchVar)) (o o' : GarchObj GarchVar) (mu ll : XR) (v : GarchVar)
      (s2 : List XR) (vb : List (XR × XR)),
      (∀ c f x0, (opt c f x0).x ∈ (opt c f x0).trace ∧ (opt c f x0).f = f (opt c f x0).x) ∧
      garchFit cpp opt o = .ok (o', some (some (mu, v, ll))) ∧ o'.success = true ∧
      o'.bounds = some vb ∧
      garchVariance cpp v (o.returns.map (· - mu)) o'.backcast vb = .ok s2 ∧ o'.sigma2 ≠ s2 := by
  let xa : XR × GarchVar := (.fin 0, ⟨.fin 2, .fin 0, .fin 0⟩)
  let xb : XR × GarchVar := (.fin 0, ⟨.fin 1, .fin 0, .fin 0⟩)
  let opt : Optimizer (XR × GarchVar) := fun _ f _ => ⟨[xa, xb], true, xa, f xa⟩
  let o : GarchObj GarchVar :=
    { returns := [(2 : ℝ), -1, -1].map XR.fin, zeroMean := false, resids := [], sigma2 := [] }
  obtain ⟨o', ret, hf⟩ := garchFit_total cpp opt o [2, -1, -1] rfl rfl
    (by show ∃ r ∈ prep false [(2 : ℝ), -1, -1], r ≠ 0
        rw [prep_demo]; exact ⟨2, by simp, by norm_num⟩)
  obtain ⟨hret, bc, vb, x0, run, he, _⟩ := (C71_garch_fit cpp opt o o' ret hf).2 rfl
  have hrun : run = ⟨[xa, xb], true, xa, objective (garchVariance cpp) o bc vb xa⟩ := he.run_eq
  obtain ⟨h1, h2, h3⟩ := he.success (by rw [hrun])
  have hne : ∀ m : XR, o.returns.map (· - m) ≠ [] := by intro m; simp [o]
  have hlen : ∀ m : XR, (o.returns.map (· - m)).length ≤ vb.length := by
    intro m
    have hb := he.bounds_eq
    have hpr : prepResids o = (prep false [(2 : ℝ), -1, -1]).map XR.fin := prepResids_fin (by simp) rfl
    rw [hpr, prep_demo, varianceBounds_fin cpp (by simp)] at hb
    injection hb with hb
    rw [← hb, finRows_length, boundRows_length]
    simp [o]
  have hb3 : ∃ b, bc = XR.fin b := by
    have hpr : prepResids o = (prep false [(2 : ℝ), -1, -1]).map XR.fin := prepResids_fin (by simp) rfl
    exact ⟨_, by rw [he.backcast_eq, hpr, prep_demo, backcast_fin (by simp)]⟩
  obtain ⟨b, hbf⟩ := hb3
  have hpath : ∀ (p : GarchVar) (m : XR), ∃ t, garchVariance cpp p (o.returns.map (· - m)) bc vb
      = .ok ((p.omega + (p.alpha + p.beta) * bc) :: t) := fun p m =>
    ⟨_, variancePath_ok (hne m) fun _ => hlen m⟩
  obtain ⟨ta, hta⟩ := hpath xa.2 xa.1
  obtain ⟨tb, htb⟩ := hpath xb.2 xb.1
  have hs := he.sigma2 xb (by rw [hrun]; rfl) _ (by simpa [o] using htb)
  have hpar : o'.params = some (xa.1, xa.2, -(objective (garchVariance cpp) o bc vb xa)) := by
    rw [h2, hrun]; rfl
  refine ⟨opt, o, o', xa.1, -(objective (garchVariance cpp) o bc vb xa), xa.2,
    (xa.2.omega + (xa.2.alpha + xa.2.beta) * bc) :: ta, vb, ?_, ?_, h1, he.stored.2, ?_, ?_⟩
  rotate_left
  · rw [hf, hret, hpar]
  · rw [he.stored.1]; exact hta
  · rw [hs, hbf]
    simp [xa, xb]
  · intro c f x0
    exact ⟨by simp [opt], rfl⟩

/-! ### C97 -/

/-- C97. A constant return series (or an all-zero series for a zero-mean model) cannot be estimated:
`fit` raises `ValueError` (no candidate start has a comparable likelihood). -/
theorem C97_degenerate (cpp : Bool) (opt : Optimizer (XR × GarchVar))
    (optj : Optimizer (XR × GjrVar)) (l : List ℝ) (hne : l ≠ []) (zm : Bool)
    (hz : ∀ r ∈ prep zm l, r = 0) (resids sigma2 : List XR) :
    garchFit cpp opt { returns := l.map XR.fin, zeroMean := zm, resids := resids, sigma2 := sigma2 }
      = .error .valueError ∧
    gjrFit cpp optj { returns := l.map XR.fin, zeroMean := zm, resids := resids, sigma2 := sigma2 }
      = .error .valueError := by
  have hpne : prep zm l ≠ [] := prep_ne hne
  have hv0 : popVar l = 0 := by
    rw [popVar_eq_zero_iff hne]
    cases zm with
    | true => exact ⟨0, hz⟩
    | false =>
      refine ⟨Spec.mean l id, fun x hx => ?_⟩
      have := hz (x - Spec.mean l id)
        (by simp only [prep, Bool.false_eq_true, if_false]; exact List.mem_map.mpr ⟨x, hx, rfl⟩)
      linarith
  have he0 : ewAvg (prep zm l) = 0 := by
    have := ewAvg_bounds hpne (lo := 0) (hi := 0) fun i hi => by
      rw [hz _ (getD_mem (by omega))]; simp
    linarith [this.1, this.2]
  have hvb := varianceBounds_fin cpp hpne
  have hbc := backcast_fin hpne
  rw [he0] at hbc
  have hll : ∀ s, loglik ((prep zm l).map XR.fin) (.fin 0 :: s) = .nan := by
    intro s
    cases hp : prep zm l with
    | nil => exact absurd hp hpne
    | cons x t => exact C61_zero_variance _ _ _
  have hlenb : ((prep zm l).map XR.fin).length ≤ (finRows (boundRows (prep zm l))).length := by
    rw [finRows_length, boundRows_length, List.length_map]
  have hg : garchStart cpp (l.map XR.fin) ((prep zm l).map XR.fin) (.fin 0)
      (finRows (boundRows (prep zm l))) = .ok none := by
    rw [garchStart, var_fin hne, hv0, gridSearch_last, List.find?_eq_none.mpr]
    · intro p hp hu
      rw [decide_eq_true_eq] at hu
      obtain ⟨s2, h1, h2⟩ := hu
      simp only [List.mem_reverse, garchCands, List.mem_flatMap, List.mem_map] at hp
      obtain ⟨a, ha, q, hq, rfl⟩ := hp
      obtain ⟨x, rfl, -, -⟩ := alphaGrid_mem ha
      obtain ⟨y, rfl, -, -⟩ := persistenceGrid_mem hq
      simp only [garchVariance] at h1
      rw [variancePath_ok (by simpa using hpne) fun _ => hlenb] at h1
      injection h1 with h1
      subst h1
      have : (XR.fin 0 * (1 - XR.fin y) + (XR.fin x + (XR.fin y - XR.fin x)) * XR.fin 0) = .fin 0 := by
        simp [XR.one_def]
      rw [this, hll] at h2
      simp at h2
    · intro p _
      exact ⟨_, variancePath_ok (by simpa using hpne) fun _ => hlenb⟩
  have hj : gjrStart cpp (l.map XR.fin) ((prep zm l).map XR.fin) = .ok none := by
    rw [gjrStart, hvb]
    simp only [bind, Except.bind]
    rw [var_fin hne, hv0, gridSearch_last, List.find?_eq_none.mpr]
    · intro p hp hu
      rw [decide_eq_true_eq] at hu
      obtain ⟨s2, h1, h2⟩ := hu
      simp only [List.mem_reverse, gjrCands, List.mem_flatMap, List.mem_map] at hp
      obtain ⟨a, ha, g, hg, q, hq, rfl⟩ := hp
      obtain ⟨x, rfl, -, -⟩ := alphaGrid_mem ha
      obtain ⟨w, rfl, -, -⟩ := alphaGrid_mem hg
      obtain ⟨y, rfl, -, -⟩ := persistenceGrid_mem hq
      simp only [gjrVariance] at h1
      rw [variancePath_ok (by simpa using hpne) fun _ => hlenb] at h1
      injection h1 with h1
      subst h1
      have : (XR.fin 0 * (1 - XR.fin y) + (XR.fin x + XR.fin w / 2
          + (XR.fin y - XR.fin x - XR.fin w / 2)) * XR.fin 0) = .fin 0 := by
        rw [XR.ofNat_def, XR.fin_div _ (by norm_num)]
        simp [XR.one_def]
      rw [hbc, this, hll] at h2
      simp at h2
    · intro p _
      exact ⟨_, variancePath_ok (by simpa using hpne) fun _ => hlenb⟩
  constructor
  · unfold garchFit fitCore
    simp only [bind, Except.bind, pure, Except.pure, Bool.false_eq_true, if_false]
    rw [prepResids_fin hne rfl, hvb]
    simp only
    rw [hbc, hg]
  · unfold gjrFit fitCore
    simp only [bind, Except.bind, pure, Except.pure, Bool.false_eq_true, if_false]
    rw [prepResids_fin hne rfl, hvb]
    simp only
    rw [hj]

/-- C97. An empty series raises `IndexError`. -/
theorem C97_empty (cpp : Bool) (opt : Optimizer (XR × GarchVar)) (optj : Optimizer (XR × GjrVar))
    (zm : Bool) (resids sigma2 : List XR) :
    garchFit cpp opt { returns := [], zeroMean := zm, resids := resids, sigma2 := sigma2 }
      = .error .indexError ∧
    gjrFit cpp optj { returns := [], zeroMean := zm, resids := resids, sigma2 := sigma2 }
      = .error .indexError := by
  constructor <;> cases zm <;> rfl

example : ∃ l : List ℝ, l ≠ [] ∧ ∀ r ∈ prep false l, r = 0 :=
  ⟨[3, 3], by simp, by simp [prep, Spec.mean]⟩

/-! ### Concrete cases of the theorems above -/

example (cpp : Bool) := C69_general cpp [2, -1, -1] [2, -1, -1] 1 [(1, 2), (1, 2), (1, 2)] (by simp) (by simp)
example (cpp : Bool) := C69_general_gjr cpp [2, -1, -1] [2, -1, -1] (by simp)
/-- A constant series has no variance to fit. -/
example (cpp : Bool) (opt : Optimizer (XR × GarchVar)) (optj : Optimizer (XR × GjrVar)) :=
  C97_degenerate cpp opt optj [3, 3] (by simp) false (by simp [prep, Spec.mean]) [] []

end
end Frds.Props

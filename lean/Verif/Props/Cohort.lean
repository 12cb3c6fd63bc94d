import Verif.Lemmas.CohortVal
import Verif.Props.FftSmooth

/-! Properties C91, C93, C95 and C116-C121: cohort computations of the modified Merton model. -/
set_option linter.unusedSimpArgs false
namespace Frds.Props
noncomputable section
open Frds Frds.Model Frds.Spec Classical

/-! ### C93 -/

/-- C93: sorting data by `key` and reading it back through the scattered index restores every array. -/
theorem C93_unsort_identity (key data : List XR) (h : key.length = data.length) :
    (scatterInv (argsortStable key)).map
      (fun q => ((argsortStable key).map fun r => data.getD r .nan).getD q .nan) = data := by
  rw [scatterInv_argsort]
  apply List.ext_getElem?
  intro q
  by_cases hq : q < key.length
  · obtain ⟨hm, he⟩ := argsort_rankOf key hq
    have hd : q < data.length := by omega
    rw [List.getElem?_map, List.getElem?_map, List.getElem?_range hq]
    simp only [Option.map_some]
    rw [List.getD_eq_getElem _ _ (by simpa using hm), List.getElem_map, he, List.getD_eq_getElem _ _ hd,
      List.getElem?_eq_getElem hd]
  · rw [List.getElem?_eq_none (by simp; omega), List.getElem?_eq_none (by omega)]

example : ([.fin 3, .nan, .fin 1, .fin 3] : List XR).length = ([.fin 7, .pinf, .nan, .fin 2] : List XR).length := rfl

/-- C93: the conditional expectation. With finite keys and payoffs, the value returned at position `q`
is, when the rank of `q` is at least half a window away from both ends, the average payoff of the
observations whose keys (rounded to nine digits) are nearest in rank. -/
theorem C93_local_average {k v : List ℝ} {win q : ℕ} (hl : k.length = v.length) (hn : v.length % 2 = 0)
    (hw : win % 2 = 0) (hw2 : win + 2 ≤ v.length) (hq : q < v.length)
    (h1 : win / 2 ≤ Spec.rank (fun i => (k.map fun x => Spec.round9 x).getD i 0) v.length q)
    (h2 : Spec.rank (fun i => (k.map fun x => Spec.round9 x).getD i 0) v.length q + win / 2
      < v.length) :
    ∃ l, condExp (k.map XR.fin) (v.map XR.fin) win = .ok l ∧ l.length = v.length ∧
      l.getD q .nan = .fin (Spec.localMean
        (fun i => (k.map fun x => Spec.round9 x).getD i 0) (fun i => v.getD i 0) v.length win q) := by
  have hr : (k.map XR.fin).map Model.round9 = (k.map fun x => Spec.round9 x).map XR.fin := by
    rw [List.map_map, List.map_map]; rfl
  refine ⟨_, condExp_eq (by simpa using hl) hn hw hw2, by simp, ?_⟩
  rw [List.getD_eq_getElem _ _ (by simpa using hq), List.getElem_map, List.getElem_range, hr,
    smoothed_rank_interior (by simpa using hl) hq h1 h2]

/-! ### C95 -/

theorem arangeDown_length (a b : ℤ) : (arangeDown a b).length = (a - b).toNat := by simp [arangeDown]

/-- C95: for a horizon of `HN` steps, `0 ≤ HN < N`, the vector of loan lives at `t+H` has `N` entries:
`(HN - j)/N` for the cohorts that have rolled over (`j ≤ HN`) and `(N + HN - j)/N` for the others. -/
theorem C95_loan_life {N HN : ℕ} (h : HN < N) :
    (lifeAtH HN N).length = N ∧
      (∀ j ≤ HN, (lifeAtH HN N).getD j 0 = ((HN : ℝ) - j) / N) ∧
      (∀ j, HN < j → j < N → (lifeAtH HN N).getD j 0 = ((N : ℝ) + HN - j) / N) := by
  have l1 : (arangeDown HN (-1)).length = HN + 1 := by rw [arangeDown_length]; omega
  have l2 : (arangeDown ((N : ℤ) - 1) HN).length = N - 1 - HN := by rw [arangeDown_length]; omega
  refine ⟨?_, ?_, ?_⟩
  · simp only [lifeAtH, List.length_append, List.length_map, l1, l2]; omega
  · intro j hj
    unfold lifeAtH
    rw [List.getD_eq_getElem _ _ (by simp [l1, l2]; omega), List.getElem_append_left (by simp [l1]; omega)]
    simp [arangeDown]
  · intro j hj hjN
    unfold lifeAtH
    rw [List.getD_eq_getElem _ _ (by simp [l1, l2]; omega), List.getElem_append_right (by simp [l1]; omega)]
    simp only [List.getElem_map, arangeDown, List.getElem_range, List.length_map, List.length_range]
    congr 1
    push_cast
    rw [show ((HN : ℤ) - -1).toNat = HN + 1 by omega, Nat.cast_sub (by omega)]
    push_cast; ring

example := C95_loan_life (N := 10) (HN := 5) (by norm_num)

theorem horizonSteps_ok {H T : ℝ} {N : ℕ} {z : ℤ} (hT : T ≠ 0) (h : H * ((N : ℝ) / T) = z) :
    horizonSteps H T N = .ok z := by
  have hex : ∃ z : ℤ, H * ((N : ℝ) / T) = z := ⟨z, h⟩
  unfold horizonSteps
  rw [if_neg hT, dif_pos hex]
  congr 1
  have := h.symm.trans hex.choose_spec
  exact_mod_cast this.symm

/-- C95: a horizon that is not a whole number of steps is rejected by both computations. -/
theorem C95_fractional_horizon {solve : FSolve} {fs : List ℝ} {p : CohortParam} {N Nsim2 : ℕ} {w : Shocks}
    (hT : p.T ≠ 0) (h : ∀ z : ℤ, p.H * ((N : ℝ) / p.T) ≠ z) :
    multiCohort solve fs p N Nsim2 w = .error .assertionError
      ∧ singleCohort solve fs p N Nsim2 w = .error .assertionError := by
  have hs : horizonSteps p.H p.T N = .error .assertionError := by
    unfold horizonSteps
    rw [if_neg hT, dif_neg (fun ⟨z, hz⟩ => h z hz)]
  constructor
  · unfold multiCohort; rw [hs]; rfl
  · unfold singleCohort; rw [hs]; rfl

/-- C95: the multi-cohort computation requires the bank debt to mature before the loans do: a horizon of
`N` steps or more (`H ≥ T`) raises `ValueError`. -/
theorem C95_horizon_below_maturity {solve : FSolve} {fs : List ℝ} {p : CohortParam} {N Nsim2 HN : ℕ} {w : Shocks}
    (hT : 0 < p.T) (h : p.H * ((N : ℝ) / p.T) = HN) (hle : p.T ≤ p.H) :
    multiCohort solve fs p N Nsim2 w = .error .valueError := by
  have hN : N ≤ HN := by
    have : (N : ℝ) ≤ HN := by
      rw [← h, mul_div_assoc', le_div_iff₀ hT, mul_comm]
      exact mul_le_mul_of_nonneg_right hle (by positivity)
    exact_mod_cast this
  have hlen : (lifeAtH HN N).length ≠ N := by
    simp only [lifeAtH, List.length_append, List.length_map, arangeDown_length]; omega
  unfold multiCohort
  rw [horizonSteps_ok (z := (HN : ℤ)) hT.ne' (by push_cast; exact h)]
  simp only [bind, Except.bind]
  rw [if_pos hlen]; rfl

example : (10 : ℝ) * (((10 : ℕ) : ℝ) / 10) = ((10 : ℕ) : ℝ) ∧ (10 : ℝ) ≤ 10 := by norm_num

/-! ### Evaluation -/

theorem pyCol_ok {n i : ℕ} (h : i < n) : pyCol n (i : ℤ) = .ok i := by
  unfold pyCol
  have : ¬ ((i : ℤ) < 0) := by omega
  simp only [if_neg this]
  rw [if_pos (by omega)]; simp

theorem fs3_length (fs : List ℝ) : (fs ++ fs ++ fs).length = 3 * fs.length := by simp; omega

theorem singleCohort_eval {solve : FSolve} {fs : List ℝ} {p : CohortParam} {N HN Nsim2 : ℕ} {w : Shocks} {mu : ℝ}
    (h : SingleInput fs p N HN Nsim2 w) (hmu' : YieldFound solve p mu) :
    ∃ out, singleCohort solve fs p N Nsim2 w = .ok out
      ∧ BalanceSheet p Nsim2 fs.length (singleLoan fs p N HN Nsim2 w mu) out
      ∧ (∀ s < fs.length, out.mFt s = .fin (Real.exp (singleShock fs p s + ival p)))
      ∧ (∀ i < Nsim2, ∀ s < fs.length, out.FH i s = .fin (singleKey fs p N HN w i s))
      ∧ (∀ i < Nsim2, ∀ s < fs.length, out.face i s
          = .fin (p.bookF * Real.exp (mu * p.T) * Real.exp (-p.r * (p.T - p.H))))
      ∧ out.mu = .fin mu ∧ out.F = .fin (p.bookF * Real.exp (mu * p.T)) := by
  have hmu : (promised solve p (.fin (ival p))).1 = .fin mu := hmu'
  have hv := h.valid
  have hFpos : 0 < p.bookF * Real.exp (mu * p.T) := mul_pos hv.bookF (Real.exp_pos _)
  have hl : 0 < fs.length := List.length_pos_of_ne_nil h.states
  have hpos : 0 < Nsim2 * (3 * fs.length) := Nat.mul_pos h.sims (by omega)
  have hfsa : ∀ s, XR.fin ((fs ++ fs ++ fs).getD s 0) * .fin (sigf p) * XR.sqrt (.fin p.T)
      + .fin (sigf p) / 10 * shiftBlock fs.length s = .fin (singleShock fs p s) := by
    intro s
    rw [XR.fin_sqrt hv.T.le, shiftBlock_fin, XR.ofNat_def, XR.fin_div _ (by norm_num : (OfNat.ofNat 10 : ℝ) ≠ 0),
      XR.fin_mul, XR.fin_mul, XR.fin_mul, XR.fin_add]
    rfl
  have hF := promised_fin hmu
  -- the sorted and smoothed payoffs
  obtain ⟨l, hl1, -, hl3⟩ := condExp_flat hpos h.even h.window
    (ka := fun i s => XR.exp (.fin (logFactor p N w i 0 HN) + .fin (singleShock fs p s) + .fin (ival p))
      * XR.exp (0.5 * (1 - .fin p.rho) * .fin p.H * XR.sq (.fin p.sig)))
    (pa := fun i s => loanPayoff (.fin (p.bookF * Real.exp (mu * p.T)))
      (.fin (logFactor p N w i 0 N) + .fin (singleShock fs p s)) (.fin (ival p)) (.fin p.rho) (.fin p.sig) (.fin p.T))
    (key := singleKey fs p N HN w) (pay := singlePay fs p N w mu)
    (by
      intro i _ s _
      rw [half_sci, XR.one_def]
      simp only [XR.fin_sub, XR.fin_add, XR.fin_mul, XR.fin_sq, XR.fin_exp, singleKey, XR.fin_inj]
      congr 2; ring)
    (by
      intro i _ s _
      rw [XR.fin_add, loanPayoff_repay hv hFpos]; rfl)
  have hLH : ∀ i < Nsim2, ∀ s < 3 * fs.length,
      unflatF Nsim2 l i s * XR.exp (-.fin p.r * (.fin p.T - .fin p.H)) = .fin (singleLoan fs p N HN Nsim2 w mu i s) := by
    intro i hi s hs
    rw [hl3 i hi s hs]; rfl
  have hey : ∀ s, XR.exp (.fin (singleShock fs p s) + .fin (ival p)) = .fin (Real.exp (singleShock fs p s + ival p)) :=
    fun s => rfl
  have heq : singleCohort solve fs p N Nsim2 w = .ok (bankTail p Nsim2 fs.length
      (fun i s => unflatF Nsim2 l i s * XR.exp (-.fin p.r * (.fin p.T - .fin p.H)))
      (fun _ _ => 1 * .fin (p.bookF * Real.exp (mu * p.T)) * XR.exp (-.fin p.r * (.fin p.T - .fin p.H)))
      (fun i s => XR.exp (.fin (logFactor p N w i 0 HN) + .fin (singleShock fs p s) + .fin (ival p))
        * XR.exp (0.5 * (1 - .fin p.rho) * .fin p.H * XR.sq (.fin p.sig)))
      (fun _ s => XR.exp (.fin (singleShock fs p s) + .fin (ival p)))
      (.fin mu) (.fin (p.bookF * Real.exp (mu * p.T)))) := by
    unfold singleCohort
    rw [ival_fin hv, sigf_fin hv, horizonSteps_ok (z := (HN : ℤ)) hv.T.ne' (by push_cast; exact h.horizon)]
    simp only [bind, Except.bind, pure, Except.pure, if_neg h.steps.ne', h.rows, ne_eq, not_true_eq_false, if_false,
      pyCol_ok (show N < w.cols + 1 by have := h.cols; omega), pyCol_ok (show HN < w.cols + 1 by have := h.horizon_le; omega),
      fs3_length, factorPath_fin hv h.steps, hfsa, hmu, hF, hl1]
  refine ⟨_, heq, bankTail_sheet h.sims hLH, ?_, ?_, ?_, rfl, rfl⟩
  · intro s hs
    show meanRows Nsim2 (fun _ s => XR.exp (.fin (singleShock fs p s) + .fin (ival p))) s = _
    rw [meanRows_fin (g := fun _ s => Real.exp (singleShock fs p s + ival p)) h.sims fun i _ => hey s]
    have : (Nsim2 : ℝ) ≠ 0 := by exact_mod_cast h.sims.ne'
    rw [Finset.sum_const, Finset.card_range, nsmul_eq_mul]
    congr 1; field_simp
  · intro i hi s hs
    show XR.exp (.fin (logFactor p N w i 0 HN) + .fin (singleShock fs p s) + .fin (ival p))
        * XR.exp (0.5 * (1 - .fin p.rho) * .fin p.H * XR.sq (.fin p.sig)) = _
    rw [half_sci, XR.one_def]
    simp only [XR.fin_sub, XR.fin_add, XR.fin_mul, XR.fin_sq, XR.fin_exp, singleKey, XR.fin_inj]
    congr 2; ring
  · intro i hi s hs
    show 1 * XR.fin (p.bookF * Real.exp (mu * p.T)) * XR.exp (-.fin p.r * (.fin p.T - .fin p.H)) = _
    rw [XR.one_def]
    simp only [XR.fin_sub, XR.fin_mul, XR.fin_neg, XR.fin_exp, one_mul]

/-! ### Several cohorts -/

theorem logFactor_sub {p : CohortParam} {N : ℕ} {w : Shocks} {i a b : ℕ} (h : a ≤ b) :
    logFactor p N w i 0 b - logFactor p N w i 0 a = logFactor p N w i a b := by
  unfold logFactor
  rw [← Finset.sum_Ico_consecutive _ (Nat.zero_le a) h]; ring

theorem removed_eq {p : CohortParam} {N : ℕ} (hv : ValidParam p) (hN : 0 < N) (w : Shocks) (i : ℕ) {j : ℕ} (hj : j ≤ N) :
    cumPath (removedStep p N w i) N - cumPath (removedStep p N w i) j
      = .fin (logFactor p N w i j N - cohortDrift p N j) := by
  rw [cumPath_fin (removedStep_fin hv hN w i), cumPath_fin (removedStep_fin hv hN w i), XR.fin_sub, XR.fin_inj,
    Finset.range_eq_Ico, Finset.range_eq_Ico, ← Finset.sum_Ico_consecutive _ (Nat.zero_le j) hj]
  unfold logFactor cohortDrift
  rw [add_sub_cancel_left, Finset.sum_add_distrib, Finset.sum_add_distrib]
  simp only [Finset.sum_const, Nat.card_Ico, nsmul_eq_mul]
  rw [Nat.cast_sub hj]
  have : (N : ℝ) ≠ 0 := by positivity
  field_simp
  ring

theorem factors_fin {p : CohortParam} {N HN : ℕ} (hv : ValidParam p) (hN : 0 < N) (w : Shocks) (i : ℕ) {j : ℕ}
    (hj : j < N) :
    (cohortFactors p N (N + HN) w).f1 i j = .fin (cohortDrift p N j + logFactor p N w i N (N + j))
      ∧ (cohortFactors p N (N + HN) w).f2 i j = .fin (logFactor p N w i (N + j) (2 * N + j))
      ∧ (cohortFactors p N (N + HN) w).ft i j = .fin (cohortDrift p N j)
      ∧ (cohortFactors p N (N + HN) w).fH1 i j = .fin (cohortDrift p N j + logFactor p N w i N (N + HN))
      ∧ (cohortFactors p N (N + HN) w).fH2 i j
        = .fin (logFactor p N w i N (N + HN) - logFactor p N w i N (N + j)) := by
  have hr := removed_eq hv hN w i hj.le
  have e1 := logFactor_sub (p := p) (N := N) (w := w) (i := i) (show j ≤ N by omega)
  have e2 := logFactor_sub (p := p) (N := N) (w := w) (i := i) (show N ≤ N + j by omega)
  have e3 := logFactor_sub (p := p) (N := N) (w := w) (i := i) (show N ≤ N + HN by omega)
  have e4 := logFactor_sub (p := p) (N := N) (w := w) (i := i) (show N + j ≤ 2 * N + j by omega)
  refine ⟨?_, ?_, ?_, ?_, ?_⟩
  all_goals
    simp only [cohortFactors]
    first | rw [hr] | skip
    simp only [factorPath_fin hv hN, XR.fin_sub, XR.fin_inj]
    linarith

theorem meanCohorts_fin {N : ℕ} (hN : 0 < N) {a : ℕ → XR} {g : ℕ → ℝ} (h : ∀ j < N, a j = .fin (g j)) :
    meanCohorts N a = .fin ((∑ j ∈ Finset.range N, g j) / N) := by
  have e : (List.range N).map a = (List.range N).map fun j => XR.fin (g j) :=
    List.map_congr_left fun j hj => h j (List.mem_range.1 hj)
  have hN' : (N : ℝ) ≠ 0 := by positivity
  rw [meanCohorts, e, Np.mean, XR.sum_fin, List.length_map, List.length_range, XR.fin_div _ hN']
  rfl

/-- scaling a loan and its collateral scales the expected repayment -/
theorem expRepay_scale {p : CohortParam} {c F x : ℝ} (hc : 0 < c) :
    expRepay p (c * F) (x + Real.log c) = c * expRepay p F x := by
  unfold expRepay
  rw [← MeasureTheory.integral_const_mul]
  congr 1
  funext z
  rw [show x + Real.log c + p.sig * Real.sqrt p.T * Real.sqrt (1 - p.rho) * z
    = Real.log c + (x + p.sig * Real.sqrt p.T * Real.sqrt (1 - p.rho) * z) by ring, Real.exp_add, Real.exp_log hc]
  exact (mul_min_of_nonneg _ _ hc.le).symm

theorem mapM_ok_exists {β : Type*} (f : ℕ → Except PyErr β) (d : β) (P : ℕ → β → Prop) (n : ℕ)
    (h : ∀ j < n, ∃ b, f j = .ok b ∧ P j b) :
    ∃ l : List β, (List.range n).mapM f = .ok l ∧ ∀ j < n, P j (l.getD j d) := by
  have hg : ∀ j, ∃ b, j < n → f j = .ok b ∧ P j b := by
    intro j
    by_cases hj : j < n
    · obtain ⟨b, hb⟩ := h j hj; exact ⟨b, fun _ => hb⟩
    · exact ⟨d, fun h => absurd h hj⟩
  choose g hg using hg
  refine ⟨(List.range n).map g, mapM_ok_map _ _ _ fun j hj => (hg j (List.mem_range.1 hj)).1, ?_⟩
  intro j hj
  rw [List.getD_eq_getElem _ _ (by simpa using hj)]
  simpa using (hg j hj).2

theorem multiCohort_tail {solve : FSolve} {fs : List ℝ} {p : CohortParam} {N HN Nsim2 : ℕ} {w : Shocks} {mu : ℝ}
    (h : MultiInput fs p N HN Nsim2 w) (hmu' : YieldFound solve p mu) :
    ∃ LH face FH Ft, multiCohort solve fs p N Nsim2 w
        = .ok (bankTail p Nsim2 fs.length LH face FH Ft (.fin mu) (.fin (p.bookF * Real.exp (mu * p.T))))
      ∧ (∀ i < Nsim2, ∀ s < 3 * fs.length, LH i s = .fin (multiLoan fs p N HN Nsim2 w mu i s))
      ∧ (∀ i < Nsim2, ∀ s < fs.length, Ft i s = .fin ((∑ j ∈ Finset.range N,
          Real.exp (cohortDrift p N j + cohortShock fs p N j s + ival p) * jensen p (((N : ℝ) - j) / N)) / N))
      ∧ (∀ i < Nsim2, ∀ s < fs.length, FH i s = .fin ((∑ j ∈ Finset.range N, cohortKey fs p N HN w i j s) / N))
      ∧ (∀ i < Nsim2, ∀ s < fs.length, face i s
          = .fin ((∑ j ∈ Finset.range N, p.bookF * Real.exp (mu * p.T) * loanScale fs p N HN w mu i j s
            * Real.exp (-p.r * stepsLeft N HN j * (p.T / N))) / N)) := by
  have hmu : (promised solve p (.fin (ival p))).1 = .fin mu := hmu'
  have hv := h.valid
  have hHN := h.horizon_lt
  have hN : 0 < N := by omega
  have hN' : (N : ℝ) ≠ 0 := by positivity
  have hFpos : 0 < p.bookF * Real.exp (mu * p.T) := mul_pos hv.bookF (Real.exp_pos _)
  have hl : 0 < fs.length := List.length_pos_of_ne_nil h.states
  have hpos : 0 < Nsim2 * (3 * fs.length) := Nat.mul_pos h.sims (by omega)
  have hF := promised_fin hmu
  obtain ⟨hlen, hlow, hhigh⟩ := C95_loan_life hHN
  -- scalar facts
  have hfsa : ∀ (j s : ℕ), XR.fin ((fs ++ fs ++ fs).getD s 0) * .fin (sigf p) * XR.sqrt (.fin p.T)
      * XR.fin (((N : ℝ) - j) / N) + .fin (sigf p) / 10 * shiftBlock fs.length s = .fin (cohortShock fs p N j s) := by
    intro j s
    rw [XR.fin_sqrt hv.T.le, shiftBlock_fin, XR.ofNat_def, XR.fin_div _ (by norm_num : (OfNat.ofNat 10 : ℝ) ≠ 0),
      XR.fin_mul, XR.fin_mul, XR.fin_mul, XR.fin_mul, XR.fin_add]
    rfl
  have hjens : ∀ x : ℝ, XR.exp (0.5 * (1 - .fin p.rho) * (.fin p.T * .fin x) * XR.sq (.fin p.sig))
      = .fin (jensen p x) := by
    intro x
    rw [half_sci, XR.one_def]
    simp only [XR.fin_sub, XR.fin_mul, XR.fin_sq, XR.fin_exp, jensen, XR.fin_inj]
    congr 1; ring
  have hL1 : ∀ i, ∀ j < N, ∀ s, loanPayoff (.fin (p.bookF * Real.exp (mu * p.T)))
      ((cohortFactors p N (N + HN) w).f1 i j + .fin (cohortShock fs p N j s)) (.fin (ival p)) (.fin p.rho) (.fin p.sig)
      (.fin p.T) = .fin (firstPay fs p N w mu i j s) := by
    intro i j hj s
    rw [(factors_fin (HN := HN) hv hN w i hj).1, XR.fin_add, loanPayoff_repay hv hFpos]; rfl
  have hpay : ∀ i j s, 0 < firstPay fs p N w mu i j s := fun i j s => (expRepay_bounds hv hFpos).1
  have hiv2 : ∀ i j s, XR.log (XR.fin (firstPay fs p N w mu i j s) / .fin p.ltv)
      = .fin (ival p + Real.log (firstPay fs p N w mu i j s / p.bookF)) := by
    intro i j s
    rw [XR.fin_div _ hv.ltv.ne', XR.fin_log (div_pos (hpay i j s) hv.ltv), ival,
      Real.log_div (hpay i j s).ne' hv.ltv.ne', Real.log_div (hpay i j s).ne' hv.bookF.ne']
    congr 1; ring
  have hsc : ∀ i j s, 0 < firstPay fs p N w mu i j s / p.bookF := fun i j s => div_pos (hpay i j s) hv.bookF
  have hL2 : ∀ i, ∀ j < N, ∀ s, loanPayoff (.fin (firstPay fs p N w mu i j s) * XR.exp (.fin mu * .fin p.T))
      ((cohortFactors p N (N + HN) w).f2 i j) (.fin (ival p + Real.log (firstPay fs p N w mu i j s / p.bookF)))
      (.fin p.rho) (.fin p.sig) (.fin p.T)
      = .fin (firstPay fs p N w mu i j s / p.bookF
        * expRepay p (p.bookF * Real.exp (mu * p.T)) (logFactor p N w i (N + j) (2 * N + j) + ival p)) := by
    intro i j hj s
    rw [(factors_fin (HN := HN) hv hN w i hj).2.1, XR.fin_mul, XR.fin_exp, XR.fin_mul,
      loanPayoff_repay hv (mul_pos (hpay i j s) (Real.exp_pos _)), ← expRepay_scale (hsc i j s)]
    congr 2
    · have := hv.bookF.ne'
      field_simp
    · ring
  -- keys and payoffs by cohort
  have hkey : ∀ i, ∀ j < N, ∀ s,
        (if (j : ℤ) < (HN : ℤ) then 0 else XR.exp ((cohortFactors p N (N + HN) w).fH1 i j
            + .fin (cohortShock fs p N j s) + .fin (ival p)) * .fin (jensen p ((lifeAtH HN N).getD j 0)))
        + (if (HN : ℤ) ≤ (j : ℤ) then 0 else XR.exp ((cohortFactors p N (N + HN) w).fH2 i j
            + XR.log (loanPayoff (.fin (p.bookF * Real.exp (mu * p.T)))
              ((cohortFactors p N (N + HN) w).f1 i j + .fin (cohortShock fs p N j s)) (.fin (ival p)) (.fin p.rho)
              (.fin p.sig) (.fin p.T) / .fin p.ltv)) * .fin (jensen p ((lifeAtH HN N).getD j 0))
          / (if (HN : ℤ) ≤ (j : ℤ) then 1 else loanPayoff (.fin (p.bookF * Real.exp (mu * p.T)))
              ((cohortFactors p N (N + HN) w).f1 i j + .fin (cohortShock fs p N j s)) (.fin (ival p)) (.fin p.rho)
              (.fin p.sig) (.fin p.T) / .fin p.bookF)) = .fin (cohortKey fs p N HN w i j s) := by
    intro i j hj s
    obtain ⟨-, -, -, e4, e5⟩ := factors_fin (HN := HN) hv hN w i hj
    rw [hL1 i j hj s, hiv2, e4, e5]
    by_cases hjH : j < HN
    · have z1 : ((j : ℤ) < (HN : ℤ)) := by omega
      have z2 : ¬ ((HN : ℤ) ≤ (j : ℤ)) := by omega
      simp only [if_pos z1, if_neg z2]
      rw [XR.fin_div _ hv.bookF.ne', XR.fin_add, XR.fin_exp, XR.fin_mul, XR.fin_div _ (hsc i j s).ne', XR.zero_def,
        XR.fin_add, hlow j hjH.le, XR.fin_inj, zero_add, cohortKey, if_pos hjH]
      have hs := hsc i j s
      have e : logFactor p N w i N (N + HN) - logFactor p N w i N (N + j) = logFactor p N w i (N + j) (N + HN) := by
        rw [← logFactor_sub (show N ≤ N + HN by omega), ← logFactor_sub (show N ≤ N + j by omega),
          ← logFactor_sub (show N + j ≤ N + HN by omega)]
        ring
      rw [e, ← add_assoc, Real.exp_add _ (Real.log _), Real.exp_log hs, mul_right_comm, mul_div_assoc, div_self hs.ne',
        mul_one]
    · have z1 : ¬ ((j : ℤ) < (HN : ℤ)) := by omega
      have z2 : ((HN : ℤ) ≤ (j : ℤ)) := by omega
      simp only [if_neg z1, if_pos z2]
      rw [XR.fin_add, XR.fin_add, XR.fin_exp, XR.fin_mul, XR.zero_def, XR.fin_add, XR.fin_inj, add_zero, cohortKey,
        if_neg hjH]
      congr 2
      by_cases hje : j = HN
      · rw [if_pos hje, hlow j hje.le, hje, sub_self, zero_div]
      · rw [if_neg hje, hhigh j (by omega) hj]
  have hpay2 : ∀ i, ∀ j < N, ∀ s,
        (if (j : ℤ) < (HN : ℤ) then 0 else loanPayoff (.fin (p.bookF * Real.exp (mu * p.T)))
              ((cohortFactors p N (N + HN) w).f1 i j + .fin (cohortShock fs p N j s)) (.fin (ival p)) (.fin p.rho)
              (.fin p.sig) (.fin p.T))
        + (if (HN : ℤ) ≤ (j : ℤ) then 0 else loanPayoff (loanPayoff (.fin (p.bookF * Real.exp (mu * p.T)))
              ((cohortFactors p N (N + HN) w).f1 i j + .fin (cohortShock fs p N j s)) (.fin (ival p)) (.fin p.rho)
              (.fin p.sig) (.fin p.T) * XR.exp (.fin mu * .fin p.T)) ((cohortFactors p N (N + HN) w).f2 i j)
            (XR.log (loanPayoff (.fin (p.bookF * Real.exp (mu * p.T)))
              ((cohortFactors p N (N + HN) w).f1 i j + .fin (cohortShock fs p N j s)) (.fin (ival p)) (.fin p.rho)
              (.fin p.sig) (.fin p.T) / .fin p.ltv)) (.fin p.rho) (.fin p.sig) (.fin p.T)
          / (if (HN : ℤ) ≤ (j : ℤ) then 1 else loanPayoff (.fin (p.bookF * Real.exp (mu * p.T)))
              ((cohortFactors p N (N + HN) w).f1 i j + .fin (cohortShock fs p N j s)) (.fin (ival p)) (.fin p.rho)
              (.fin p.sig) (.fin p.T) / .fin p.bookF)) = .fin (cohortPay fs p N HN w mu i j s) := by
    intro i j hj s
    rw [hL1 i j hj s, hiv2, hL2 i j hj s]
    by_cases hjH : j < HN
    · have z1 : ((j : ℤ) < (HN : ℤ)) := by omega
      have z2 : ¬ ((HN : ℤ) ≤ (j : ℤ)) := by omega
      simp only [if_pos z1, if_neg z2]
      rw [XR.fin_div _ hv.bookF.ne', XR.fin_div _ (hsc i j s).ne', XR.zero_def,
        XR.fin_add, XR.fin_inj, zero_add, cohortPay, if_pos hjH, mul_comm, mul_div_assoc, div_self (hsc i j s).ne', mul_one]
    · have z1 : ¬ ((j : ℤ) < (HN : ℤ)) := by omega
      have z2 : ((HN : ℤ) ≤ (j : ℤ)) := by omega
      simp only [if_neg z1, if_pos z2]
      rw [XR.zero_def, XR.fin_add, add_zero, cohortPay, if_neg hjH]
  have hcol : ∀ j < N, ∃ b, condExp
      (flatF Nsim2 (3 * fs.length) fun i s =>
        (if (j : ℤ) < (HN : ℤ) then 0 else XR.exp ((cohortFactors p N (N + HN) w).fH1 i j
            + .fin (cohortShock fs p N j s) + .fin (ival p)) * .fin (jensen p ((lifeAtH HN N).getD j 0)))
        + (if (HN : ℤ) ≤ (j : ℤ) then 0 else XR.exp ((cohortFactors p N (N + HN) w).fH2 i j
            + XR.log (loanPayoff (.fin (p.bookF * Real.exp (mu * p.T)))
              ((cohortFactors p N (N + HN) w).f1 i j + .fin (cohortShock fs p N j s)) (.fin (ival p)) (.fin p.rho)
              (.fin p.sig) (.fin p.T) / .fin p.ltv)) * .fin (jensen p ((lifeAtH HN N).getD j 0))
          / (if (HN : ℤ) ≤ (j : ℤ) then 1 else loanPayoff (.fin (p.bookF * Real.exp (mu * p.T)))
              ((cohortFactors p N (N + HN) w).f1 i j + .fin (cohortShock fs p N j s)) (.fin (ival p)) (.fin p.rho)
              (.fin p.sig) (.fin p.T) / .fin p.bookF)))
      (flatF Nsim2 (3 * fs.length) fun i s =>
        (if (j : ℤ) < (HN : ℤ) then 0 else loanPayoff (.fin (p.bookF * Real.exp (mu * p.T)))
              ((cohortFactors p N (N + HN) w).f1 i j + .fin (cohortShock fs p N j s)) (.fin (ival p)) (.fin p.rho)
              (.fin p.sig) (.fin p.T))
        + (if (HN : ℤ) ≤ (j : ℤ) then 0 else loanPayoff (loanPayoff (.fin (p.bookF * Real.exp (mu * p.T)))
              ((cohortFactors p N (N + HN) w).f1 i j + .fin (cohortShock fs p N j s)) (.fin (ival p)) (.fin p.rho)
              (.fin p.sig) (.fin p.T) * XR.exp (.fin mu * .fin p.T)) ((cohortFactors p N (N + HN) w).f2 i j)
            (XR.log (loanPayoff (.fin (p.bookF * Real.exp (mu * p.T)))
              ((cohortFactors p N (N + HN) w).f1 i j + .fin (cohortShock fs p N j s)) (.fin (ival p)) (.fin p.rho)
              (.fin p.sig) (.fin p.T) / .fin p.ltv)) (.fin p.rho) (.fin p.sig) (.fin p.T)
          / (if (HN : ℤ) ≤ (j : ℤ) then 1 else loanPayoff (.fin (p.bookF * Real.exp (mu * p.T)))
              ((cohortFactors p N (N + HN) w).f1 i j + .fin (cohortShock fs p N j s)) (.fin (ival p)) (.fin p.rho)
              (.fin p.sig) (.fin p.T) / .fin p.bookF)))
      (Nsim2 * (3 * fs.length) / 20) = .ok b ∧
      ∀ i < Nsim2, ∀ s < 3 * fs.length, unflatF Nsim2 b i s = .fin (condMean Nsim2 (3 * fs.length)
        (fun i s => cohortKey fs p N HN w i j s) (fun i s => cohortPay fs p N HN w mu i j s) i s) := by
    intro j hj
    obtain ⟨l, h1, -, h3⟩ := condExp_flat hpos h.even h.window
      (key := fun i s => cohortKey fs p N HN w i j s) (pay := fun i s => cohortPay fs p N HN w mu i j s)
      (ka := fun i s =>
        (if (j : ℤ) < (HN : ℤ) then 0 else XR.exp ((cohortFactors p N (N + HN) w).fH1 i j
            + .fin (cohortShock fs p N j s) + .fin (ival p)) * .fin (jensen p ((lifeAtH HN N).getD j 0)))
        + (if (HN : ℤ) ≤ (j : ℤ) then 0 else XR.exp ((cohortFactors p N (N + HN) w).fH2 i j
            + XR.log (loanPayoff (.fin (p.bookF * Real.exp (mu * p.T)))
              ((cohortFactors p N (N + HN) w).f1 i j + .fin (cohortShock fs p N j s)) (.fin (ival p)) (.fin p.rho)
              (.fin p.sig) (.fin p.T) / .fin p.ltv)) * .fin (jensen p ((lifeAtH HN N).getD j 0))
          / (if (HN : ℤ) ≤ (j : ℤ) then 1 else loanPayoff (.fin (p.bookF * Real.exp (mu * p.T)))
              ((cohortFactors p N (N + HN) w).f1 i j + .fin (cohortShock fs p N j s)) (.fin (ival p)) (.fin p.rho)
              (.fin p.sig) (.fin p.T) / .fin p.bookF)))
      (pa := fun i s =>
        (if (j : ℤ) < (HN : ℤ) then 0 else loanPayoff (.fin (p.bookF * Real.exp (mu * p.T)))
              ((cohortFactors p N (N + HN) w).f1 i j + .fin (cohortShock fs p N j s)) (.fin (ival p)) (.fin p.rho)
              (.fin p.sig) (.fin p.T))
        + (if (HN : ℤ) ≤ (j : ℤ) then 0 else loanPayoff (loanPayoff (.fin (p.bookF * Real.exp (mu * p.T)))
              ((cohortFactors p N (N + HN) w).f1 i j + .fin (cohortShock fs p N j s)) (.fin (ival p)) (.fin p.rho)
              (.fin p.sig) (.fin p.T) * XR.exp (.fin mu * .fin p.T)) ((cohortFactors p N (N + HN) w).f2 i j)
            (XR.log (loanPayoff (.fin (p.bookF * Real.exp (mu * p.T)))
              ((cohortFactors p N (N + HN) w).f1 i j + .fin (cohortShock fs p N j s)) (.fin (ival p)) (.fin p.rho)
              (.fin p.sig) (.fin p.T) / .fin p.ltv)) (.fin p.rho) (.fin p.sig) (.fin p.T)
          / (if (HN : ℤ) ≤ (j : ℤ) then 1 else loanPayoff (.fin (p.bookF * Real.exp (mu * p.T)))
              ((cohortFactors p N (N + HN) w).f1 i j + .fin (cohortShock fs p N j s)) (.fin (ival p)) (.fin p.rho)
              (.fin p.sig) (.fin p.T) / .fin p.bookF)))
      (fun i _ s _ => hkey i j hj s) (fun i _ s _ => hpay2 i j hj s)
    exact ⟨l, h1, h3⟩
  obtain ⟨cols, hc1, hc2⟩ := mapM_ok_exists _ [] (fun j b => ∀ i < Nsim2, ∀ s < 3 * fs.length,
    unflatF Nsim2 b i s = .fin (condMean Nsim2 (3 * fs.length)
        (fun i s => cohortKey fs p N HN w i j s) (fun i s => cohortPay fs p N HN w mu i j s) i s)) N hcol
  have hTN : XR.fin p.T / XR.fin N = .fin (p.T / N) := XR.fin_div _ hN'
  have hd1 : ∀ j : ℕ, XR.exp (-XR.fin p.r * .fin (((j : ℤ) - (HN : ℤ) : ℤ) : ℝ) * (XR.fin p.T / .fin N))
      = .fin (Real.exp (-p.r * ((j : ℝ) - HN) * (p.T / N))) := by
    intro j
    rw [hTN, XR.fin_neg, XR.fin_mul, XR.fin_mul, XR.fin_exp]; push_cast; rfl
  have hd2 : ∀ j : ℕ, XR.exp (-XR.fin p.r * .fin (((j : ℤ) - (HN : ℤ) + (N : ℤ) : ℤ) : ℝ) * (XR.fin p.T / .fin N))
      = .fin (Real.exp (-p.r * ((j : ℝ) - HN + N) * (p.T / N))) := by
    intro j
    rw [hTN, XR.fin_neg, XR.fin_mul, XR.fin_mul, XR.fin_exp]; push_cast; rfl
  have hzero : ∀ j : ℕ, (0 : XR) * XR.exp (-XR.fin p.r * .fin (((j : ℤ) - (HN : ℤ) : ℤ) : ℝ) * (XR.fin p.T / .fin N))
      = 0 := by
    intro j; rw [hd1, XR.zero_def, XR.fin_mul, zero_mul]
  have hzero' : ∀ j : ℕ, (0 : XR) * XR.exp (-XR.fin p.r * .fin (((j : ℤ) - (HN : ℤ) + (N : ℤ) : ℤ) : ℝ)
      * (XR.fin p.T / .fin N)) = 0 := by
    intro j; rw [hd2, XR.zero_def, XR.fin_mul, zero_mul]
  have hcH : pyCol (w.cols + 1) ((N : ℤ) + (HN : ℤ)) = .ok (N + HN) := by
    have := pyCol_ok (n := w.cols + 1) (i := N + HN) (by have := h.cols; omega)
    push_cast at this; exact this
  have heq : multiCohort solve fs p N Nsim2 w = multiCohort solve fs p N Nsim2 w := rfl
  conv_rhs at heq =>
    unfold multiCohort
    rw [horizonSteps_ok (z := (HN : ℤ)) hv.T.ne' (by push_cast; exact h.horizon)]
    simp only [bind, Except.bind, pure, Except.pure, if_neg hN.ne', h.rows, ne_eq, not_true_eq_false, if_false,
      hlen, if_neg (show ¬ (w.cols + 1 < 3 * N) by have := h.cols; omega), hcH]
    unfold cohortValue
    rw [ival_fin hv, sigf_fin hv]
    simp only [bind, Except.bind, pure, Except.pure, fs3_length, hfsa, hmu, hF, hjens, hc1]
  refine ⟨_, _, _, _, heq, ?_, ?_, ?_, ?_⟩
  · intro i hi s hs
    rw [multiLoan]
    refine meanCohorts_fin hN fun j hj => ?_
    simp only [hL1 i j hj s, hc2 j hj i hi s hs]
    by_cases hjH : j < HN
    · have z1 : ((j : ℤ) < (HN : ℤ)) := by omega
      have z2 : ¬ ((HN : ℤ) ≤ (j : ℤ)) := by omega
      simp only [if_pos z1, if_neg z2, hzero, hd2 j]
      rw [XR.fin_div _ hv.bookF.ne', XR.fin_mul, XR.fin_mul, XR.zero_def, XR.fin_add, loanScale, if_pos hjH,
        stepsLeft, if_pos hjH, zero_add]
    · have z1 : ¬ ((j : ℤ) < (HN : ℤ)) := by omega
      have z2 : ((HN : ℤ) ≤ (j : ℤ)) := by omega
      simp only [if_neg z1, if_pos z2, hzero', hd1 j]
      rw [XR.one_def, XR.fin_mul, XR.fin_mul, XR.zero_def, XR.fin_add, loanScale, if_neg hjH,
        stepsLeft, if_neg hjH, add_zero]
  · intro i hi s hs
    refine meanCohorts_fin hN fun j hj => ?_
    rw [(factors_fin (HN := HN) hv hN w i hj).2.2.1, XR.fin_add, XR.fin_add, XR.fin_exp, XR.fin_mul]
  · intro i hi s hs
    exact meanCohorts_fin hN fun j hj => hkey i j hj s
  · intro i hi s hs
    refine meanCohorts_fin hN fun j hj => ?_
    simp only [hL1 i j hj s]
    by_cases hjH : j < HN
    · have z1 : ((j : ℤ) < (HN : ℤ)) := by omega
      have z2 : ¬ ((HN : ℤ) ≤ (j : ℤ)) := by omega
      simp only [if_pos z1, if_neg z2, hzero, hd2 j]
      rw [XR.fin_mul, XR.fin_exp, XR.fin_mul, XR.fin_mul, XR.zero_def, XR.fin_add, loanScale, if_pos hjH,
        stepsLeft, if_pos hjH, zero_add, XR.fin_inj]
      have := hv.bookF.ne'
      field_simp
    · have z1 : ¬ ((j : ℤ) < (HN : ℤ)) := by omega
      have z2 : ((HN : ℤ) ≤ (j : ℤ)) := by omega
      simp only [if_neg z1, if_pos z2, hzero', hd1 j]
      rw [XR.one_def, XR.fin_mul, XR.fin_mul, XR.zero_def, XR.fin_add, loanScale, if_neg hjH,
        stepsLeft, if_neg hjH, add_zero, one_mul, mul_one]

theorem multiCohort_eval {solve : FSolve} {fs : List ℝ} {p : CohortParam} {N HN Nsim2 : ℕ} {w : Shocks} {mu : ℝ}
    (h : MultiInput fs p N HN Nsim2 w) (hmu : YieldFound solve p mu) :
    ∃ out, multiCohort solve fs p N Nsim2 w = .ok out
      ∧ BalanceSheet p Nsim2 fs.length (multiLoan fs p N HN Nsim2 w mu) out
      ∧ (∀ s < fs.length, out.mFt s = .fin ((∑ j ∈ Finset.range N,
          Real.exp (cohortDrift p N j + cohortShock fs p N j s + ival p) * jensen p (((N : ℝ) - j) / N)) / N))
      ∧ (∀ i < Nsim2, ∀ s < fs.length, out.FH i s = .fin ((∑ j ∈ Finset.range N, cohortKey fs p N HN w i j s) / N))
      ∧ (∀ i < Nsim2, ∀ s < fs.length, out.face i s
          = .fin ((∑ j ∈ Finset.range N, p.bookF * Real.exp (mu * p.T) * loanScale fs p N HN w mu i j s
            * Real.exp (-p.r * stepsLeft N HN j * (p.T / N))) / N))
      ∧ out.mu = .fin mu ∧ out.F = .fin (p.bookF * Real.exp (mu * p.T)) := by
  obtain ⟨LH, face, FH, Ft, h1, h2, h3, h4, h5⟩ := multiCohort_tail h hmu
  have hn' : (Nsim2 : ℝ) ≠ 0 := by exact_mod_cast h.sims.ne'
  refine ⟨_, h1, bankTail_sheet h.sims h2, fun s hs => ?_, fun i hi s hs => h4 i hi s hs,
    fun i hi s hs => h5 i hi s hs, rfl, rfl⟩
  simp only [bankTail]
  refine (meanRows_fin (s := s) (g := fun _ s => (∑ j ∈ Finset.range N,
        Real.exp (cohortDrift p N j + cohortShock fs p N j s + ival p) * jensen p (((N : ℝ) - j) / N)) / N)
    h.sims fun i hi => h3 i hi s hs).trans ?_
  rw [Finset.sum_const, Finset.card_range, nsmul_eq_mul]
  congr 1; field_simp

/-! ### A concrete case -/

/-- parameters of the simulation in the package, with a guarantee -/
def exParam : CohortParam :=
  { r := 0.01, T := 10, bookF := 0.66, H := 5, D := 0.63, rho := 0.5, ltv := 0.66, sig := 0.2, d := 0.005, y := 0.002,
    g := some 0.5 }

def exShocks : Shocks := { rows := 20, cols := 30, at_ := fun i c => (i : ℝ) - c }

theorem exValid : ValidParam exParam := by
  constructor <;> norm_num [exParam]

theorem exSingle : SingleInput [-1, 1] exParam 10 5 20 exShocks := by
  refine ⟨exValid, by norm_num, by norm_num [exParam], by norm_num [exShocks], rfl, by norm_num [exShocks], by norm_num,
    by simp, by simp, by simp⟩

theorem exMulti : MultiInput [-1, 1] exParam 10 5 20 exShocks := by
  refine ⟨exValid, by norm_num [exParam], by norm_num, rfl, by norm_num [exShocks], by norm_num, by simp, by simp, by simp⟩

theorem exYield : YieldFound (fun _ _ => .fin 0.03) exParam 0.03 := rfl

/-! ### C91 -/

/-- C91 (one cohort): on accepted inputs the computation returns, and its results are the balance sheet of a
bank whose loans are worth `singleLoan` at `t+H`. -/
theorem C91_single {solve : FSolve} {fs : List ℝ} {p : CohortParam} {N HN Nsim2 : ℕ} {w : Shocks} {mu : ℝ}
    (h : SingleInput fs p N HN Nsim2 w) (hmu : YieldFound solve p mu) :
    ∃ out, singleCohort solve fs p N Nsim2 w = .ok out
      ∧ BalanceSheet p Nsim2 fs.length (singleLoan fs p N HN Nsim2 w mu) out
      ∧ (∀ i < Nsim2, ∀ s < fs.length, out.FH i s = .fin (singleKey fs p N HN w i s))
      ∧ (∀ i < Nsim2, ∀ s < fs.length, out.face i s
          = .fin (p.bookF * Real.exp (mu * p.T) * Real.exp (-p.r * (p.T - p.H))))
      ∧ out.mu = .fin mu ∧ out.F = .fin (p.bookF * Real.exp (mu * p.T)) := by
  obtain ⟨out, h1, h2, -, h4⟩ := singleCohort_eval h hmu
  exact ⟨out, h1, h2, h4⟩

example := C91_single exSingle exYield

/-- C91 (several cohorts): on accepted inputs the computation returns, and its results are the balance sheet of
a bank whose loans are worth `multiLoan` at `t+H`. -/
theorem C91_multi {solve : FSolve} {fs : List ℝ} {p : CohortParam} {N HN Nsim2 : ℕ} {w : Shocks} {mu : ℝ}
    (h : MultiInput fs p N HN Nsim2 w) (hmu : YieldFound solve p mu) :
    ∃ out, multiCohort solve fs p N Nsim2 w = .ok out
      ∧ BalanceSheet p Nsim2 fs.length (multiLoan fs p N HN Nsim2 w mu) out
      ∧ (∀ i < Nsim2, ∀ s < fs.length, out.FH i s = .fin ((∑ j ∈ Finset.range N, cohortKey fs p N HN w i j s) / N))
      ∧ (∀ i < Nsim2, ∀ s < fs.length, out.face i s
          = .fin ((∑ j ∈ Finset.range N, p.bookF * Real.exp (mu * p.T) * loanScale fs p N HN w mu i j s
            * Real.exp (-p.r * stepsLeft N HN j * (p.T / N))) / N))
      ∧ out.mu = .fin mu ∧ out.F = .fin (p.bookF * Real.exp (mu * p.T)) := by
  obtain ⟨out, h1, h2, -, h4⟩ := multiCohort_eval h hmu
  exact ⟨out, h1, h2, h4⟩

example := C91_multi exMulti exYield

/-- C91: what every such balance sheet satisfies. Loans are debt plus equity in every state and in value; the
debt is never worth more than its riskless value; the guarantee is `g` times the shortfall of the debt; default
happens exactly when the debt is not paid in full or nothing is left after paying it; the mean default rate is a
probability. -/
theorem C91_identities {p : CohortParam} {n szfs : ℕ} {L : ℕ → ℕ → ℝ} {out : CohortOut} (hn : 0 < n)
    (b : BalanceSheet p n szfs L out) {s : ℕ} (hs : s < szfs) :
    (∀ i < n, ∃ LH BH EH : ℝ, out.LH i s = .fin LH ∧ out.BH i s = .fin BH ∧ out.EH i s = .fin EH ∧ LH = BH + EH
        ∧ BH ≤ p.D ∧ (out.dflt i s = 1 ↔ LH * Real.exp (-p.y * p.H) ≤ p.D)
        ∧ (out.dflt i s = 0 ↔ p.D < LH * Real.exp (-p.y * p.H))) ∧
      ∃ Lt Bt Et Gt m : ℝ, out.Lt s = .fin Lt ∧ out.Bt s = .fin Bt ∧ out.Et s = .fin Et ∧ out.Gt s = .fin Gt
        ∧ out.mdef s = .fin m ∧ Lt = Bt + Et ∧ Bt ≤ p.D * Real.exp (-p.r * p.H)
        ∧ Gt = p.g.getD 0 * (p.D * Real.exp (-p.r * p.H) - Bt) ∧ 0 ≤ m ∧ m ≤ 1 := by
  have hn' : (0 : ℝ) < n := by exact_mod_cast hn
  have he := Real.exp_pos (-p.r * p.H)
  refine ⟨fun i hi => ⟨_, _, _, b.LH i hi s hs, b.BH i hi s hs, b.EH i hi s hs, by ring, min_le_left _ _, ?_, ?_⟩,
    _, _, _, _, _, b.Lt s hs, b.Bt s hs, b.Et s hs, b.Gt s hs, b.mdef s hs, ?_, ?_, ?_, ?_, ?_⟩
  · rw [b.dflt i hi s hs, XR.one_def, XR.fin_inj]
    split_ifs with hc
    · exact ⟨fun _ => hc, fun _ => rfl⟩
    · exact ⟨fun h => absurd h (by norm_num), fun h => absurd h hc⟩
  · rw [b.dflt i hi s hs, XR.zero_def, XR.fin_inj]
    split_ifs with hc
    · simp only [one_ne_zero, false_iff]; exact not_lt.2 hc
    · simp only [true_iff]; exact not_le.1 hc
  · rw [Finset.sum_sub_distrib]; ring
  · rw [mul_comm p.D]
    refine mul_le_mul_of_nonneg_left ?_ he.le
    rw [div_le_iff₀ hn']
    calc ∑ i ∈ Finset.range n, min p.D (L i s * Real.exp (-p.y * p.H)) ≤ ∑ i ∈ Finset.range n, p.D :=
          Finset.sum_le_sum fun i _ => min_le_left _ _
      _ = p.D * n := by rw [Finset.sum_const, Finset.card_range, nsmul_eq_mul, mul_comm]
  · have e : ∀ i ∈ Finset.range n, p.g.getD 0 * max (p.D - L i s * Real.exp (-p.y * p.H)) 0
        = p.g.getD 0 * (p.D - min p.D (L i s * Real.exp (-p.y * p.H))) := by
      intro i _
      congr 1
      rcases le_total p.D (L i s * Real.exp (-p.y * p.H)) with hc | hc
      · rw [max_eq_right (by linarith), min_eq_left hc]; ring
      · rw [max_eq_left (by linarith), min_eq_right hc]
    rw [Finset.sum_congr rfl e, ← Finset.mul_sum, Finset.sum_sub_distrib, Finset.sum_const, Finset.card_range,
      nsmul_eq_mul]
    generalize ∑ i ∈ Finset.range n, min p.D (L i s * Real.exp (-p.y * p.H)) = S
    field_simp
  · positivity
  · rw [div_le_one hn']
    have := Finset.card_filter_le (Finset.range n) fun i => L i s * Real.exp (-p.y * p.H) ≤ p.D
    rw [Finset.card_range] at this
    exact_mod_cast this

example : ∃ out : CohortOut, BalanceSheet exParam 20 2 (singleLoan [-1, 1] exParam 10 5 20 exShocks 0.03) out := by
  obtain ⟨out, _, h, _⟩ := C91_single exSingle exYield
  exact ⟨out, h⟩

/-! ### C93 for the loan values -/

theorem condMean_interior {m n : ℕ} {key pay : ℕ → ℕ → ℝ} {i s : ℕ}
    (h1 : m * n / 20 / 2 ≤ Spec.rank (fun q => Spec.round9 (key (q % m) (q / m))) (m * n) (i + m * s))
    (h2 : Spec.rank (fun q => Spec.round9 (key (q % m) (q / m))) (m * n) (i + m * s) + m * n / 20 / 2 < m * n) :
    condMean m n key pay i s = localMean (fun q => Spec.round9 (key (q % m) (q / m))) (fun q => pay (q % m) (q / m))
      (m * n) (m * n / 20) (i + m * s) := by
  unfold condMean smoothed
  simp only
  rw [if_neg (by omega), if_pos (by omega)]
  unfold windowMean localMean
  congr 1
  generalize Spec.rank (fun q => Spec.round9 (key (q % m) (q / m))) (m * n) (i + m * s) = R at *
  rw [Finset.sum_sigma']
  refine Finset.sum_bij (fun x _ => x.2) ?_ ?_ ?_ ?_
  · rintro ⟨t, q⟩ hx
    simp only [Finset.mem_sigma, Finset.mem_Ioc, Finset.mem_filter, Finset.mem_range] at hx ⊢
    exact ⟨hx.2.1, by omega⟩
  · rintro ⟨t, q⟩ hx ⟨t', q'⟩ hx' heq
    simp only [Finset.mem_sigma, Finset.mem_Ioc, Finset.mem_filter, Finset.mem_range] at hx hx' heq
    subst heq
    have : t = t' := hx.2.2.symm.trans hx'.2.2
    subst this; rfl
  · intro q hq
    simp only [Finset.mem_filter, Finset.mem_range] at hq
    refine ⟨⟨Spec.rank (fun q => Spec.round9 (key (q % m) (q / m))) (m * n) q, q⟩, ?_, rfl⟩
    simp only [Finset.mem_sigma, Finset.mem_Ioc, Finset.mem_filter, Finset.mem_range]
    exact ⟨by omega, hq.1, trivial⟩
  · rintro ⟨t, q⟩ _; rfl

/-- C93: the value of a single-cohort loan portfolio in a simulated state whose borrower asset value is not
among the top or bottom fortieth of all states is the discounted average repayment over the states nearest in
borrower asset value. -/
theorem C93_loan_value {solve : FSolve} {fs : List ℝ} {p : CohortParam} {N HN Nsim2 : ℕ} {w : Shocks} {mu : ℝ}
    (h : SingleInput fs p N HN Nsim2 w) (hmu : YieldFound solve p mu) :
    ∃ out, singleCohort solve fs p N Nsim2 w = .ok out ∧ ∀ i < Nsim2, ∀ s < fs.length,
      Nsim2 * (3 * fs.length) / 20 / 2 ≤ Spec.rank
        (fun q => Spec.round9 (singleKey fs p N HN w (q % Nsim2) (q / Nsim2))) (Nsim2 * (3 * fs.length)) (i + Nsim2 * s) →
      Spec.rank (fun q => Spec.round9 (singleKey fs p N HN w (q % Nsim2) (q / Nsim2))) (Nsim2 * (3 * fs.length))
        (i + Nsim2 * s) + Nsim2 * (3 * fs.length) / 20 / 2 < Nsim2 * (3 * fs.length) →
      out.LH i s = .fin (Real.exp (-p.r * (p.T - p.H)) *
        localMean (fun q => Spec.round9 (singleKey fs p N HN w (q % Nsim2) (q / Nsim2)))
          (fun q => singlePay fs p N w mu (q % Nsim2) (q / Nsim2)) (Nsim2 * (3 * fs.length))
          (Nsim2 * (3 * fs.length) / 20) (i + Nsim2 * s)) := by
  obtain ⟨out, h1, h2, -⟩ := C91_single h hmu
  refine ⟨out, h1, fun i hi s hs r1 r2 => ?_⟩
  rw [h2.LH i hi s hs, singleLoan, condMean_interior r1 r2, mul_comm]

example := C93_loan_value exSingle exYield

/-- C93: rounding is to the nearest multiple, ties to even. -/
theorem C93_rounding (x : ℝ) : |(rint x : ℝ) - x| ≤ 1 / 2 ∧ (|(rint x : ℝ) - x| = 1 / 2 → Even (rint x)) := by
  have h0 := Int.fract_nonneg x
  have h1 := Int.fract_lt_one x
  have hx : x = ⌊x⌋ + Int.fract x := (Int.floor_add_fract x).symm
  unfold rint
  split_ifs with c1 c2 c3
  · have e : (⌊x⌋ : ℝ) - x = -Int.fract x := by linarith
    rw [e, abs_neg, abs_of_nonneg h0]
    exact ⟨c1.le, fun h => absurd h c1.ne⟩
  · have e : ((⌊x⌋ + 1 : ℤ) : ℝ) - x = 1 - Int.fract x := by push_cast; linarith
    rw [e, abs_of_nonneg (by linarith)]
    exact ⟨by linarith, fun h => absurd h (by linarith)⟩
  · have hf : Int.fract x = 1 / 2 := le_antisymm (not_lt.1 c2) (not_lt.1 c1)
    have e : (⌊x⌋ : ℝ) - x = -Int.fract x := by linarith
    rw [e, abs_neg, abs_of_nonneg h0, hf]
    exact ⟨le_rfl, fun _ => c3⟩
  · have hf : Int.fract x = 1 / 2 := le_antisymm (not_lt.1 c2) (not_lt.1 c1)
    have e : ((⌊x⌋ + 1 : ℤ) : ℝ) - x = 1 - Int.fract x := by push_cast; linarith
    rw [e, abs_of_nonneg (by linarith), hf]
    refine ⟨by norm_num, fun _ => ?_⟩
    rw [Int.not_even_iff_odd] at c3
    exact c3.add_one

/-! ### C116 -/

theorem bump_base {szfs s : ℕ} (hs : s < szfs) : bump szfs s = 0 := if_pos hs

/-- C116 (one cohort): the reported aggregate asset value at `t` does not depend on the simulation: it is the
asset value at origination, moved by the state. -/
theorem C116_single {solve : FSolve} {fs : List ℝ} {p : CohortParam} {N HN Nsim2 : ℕ} {w : Shocks} {mu : ℝ}
    (h : SingleInput fs p N HN Nsim2 w) (hmu : YieldFound solve p mu) :
    ∃ out, singleCohort solve fs p N Nsim2 w = .ok out ∧ ∀ s < fs.length,
      out.mFt s = .fin (p.bookF / p.ltv * Real.exp (fs.getD s 0 * (Real.sqrt p.rho * p.sig * Real.sqrt p.T))) := by
  obtain ⟨out, h1, -, h3, -⟩ := singleCohort_eval h hmu
  refine ⟨out, h1, fun s hs => ?_⟩
  have hv := h.valid
  have hfs : fsAt fs s = fs.getD s 0 := by
    unfold fsAt
    rw [List.append_assoc, List.getD_append _ _ _ _ hs]
  rw [h3 s hs, singleShock, bump_base hs, hfs, ival, sigf, mul_zero, add_zero, Real.exp_add, Real.exp_sub,
    Real.exp_log hv.bookF, Real.exp_log hv.ltv, mul_comm]
  congr 3; ring

example := C116_single exSingle exYield

/-- C116 (several cohorts): the reported aggregate borrower asset value at `t` is the average over the cohorts of
the original asset value grown at the expected rate `r - d` over the age of the loan, times the state shock scaled
with that age. No simulated shock enters. -/
theorem C116_multi {solve : FSolve} {fs : List ℝ} {p : CohortParam} {N HN Nsim2 : ℕ} {w : Shocks} {mu : ℝ}
    (h : MultiInput fs p N HN Nsim2 w) (hmu : YieldFound solve p mu) :
    ∃ out, multiCohort solve fs p N Nsim2 w = .ok out ∧ ∀ s < fs.length,
      out.mFt s = .fin (p.bookF / p.ltv * ((∑ j ∈ Finset.range N,
        Real.exp (((p.r - p.d) * p.T + fs.getD s 0 * (Real.sqrt p.rho * p.sig * Real.sqrt p.T)) * (((N : ℝ) - j) / N))) / N)) := by
  obtain ⟨out, h1, -, h3, -⟩ := multiCohort_eval h hmu
  refine ⟨out, h1, fun s hs => ?_⟩
  have hv := h.valid
  have hfs : fsAt fs s = fs.getD s 0 := by
    unfold fsAt
    rw [List.append_assoc, List.getD_append _ _ _ _ hs]
  rw [h3 s hs, ← mul_div_assoc, Finset.mul_sum]
  congr 2
  refine Finset.sum_congr rfl fun j _ => ?_
  have e : p.bookF / p.ltv = Real.exp (ival p) := by
    rw [ival, Real.exp_sub, Real.exp_log hv.bookF, Real.exp_log hv.ltv]
  rw [e, jensen, ← Real.exp_add, ← Real.exp_add]
  congr 1
  rw [cohortDrift, cohortShock, bump_base hs, hfs, sigf]
  ring

example := C116_multi exMulti exYield

/-! ### C117 -/

theorem logFactor_congr {p : CohortParam} {N : ℕ} {w w' : Shocks} {i a b : ℕ}
    (h : ∀ c, a ≤ c → c < b → w.at_ i c = w'.at_ i c) : logFactor p N w i a b = logFactor p N w' i a b := by
  unfold logFactor
  refine Finset.sum_congr rfl fun c hc => ?_
  obtain ⟨h1, h2⟩ := Finset.mem_Ico.1 hc
  rw [h c h1 h2]

theorem firstPay_congr {fs : List ℝ} {p : CohortParam} {N : ℕ} {w w' : Shocks} {mu : ℝ} {i j s : ℕ}
    (h : ∀ c, N ≤ c → c < N + j → w.at_ i c = w'.at_ i c) :
    firstPay fs p N w mu i j s = firstPay fs p N w' mu i j s := by
  unfold firstPay; rw [logFactor_congr h]

theorem condMean_congr {m n : ℕ} {key key' pay pay' : ℕ → ℕ → ℝ} {i s : ℕ}
    (hk : ∀ i < m, ∀ s < n, key i s = key' i s) (hp : ∀ i < m, ∀ s < n, pay i s = pay' i s) (hi : i < m) (hs : s < n) :
    condMean m n key pay i s = condMean m n key' pay' i s := by
  have hq : i + m * s < m * n := by
    have : m * s + m ≤ m * n := by rw [← Nat.mul_succ]; exact Nat.mul_le_mul_left _ hs
    omega
  have hr : ∀ q < m * n, Spec.rank (fun q => Spec.round9 (key (q % m) (q / m))) (m * n) q
      = Spec.rank (fun q => Spec.round9 (key' (q % m) (q / m))) (m * n) q := by
    intro q hq
    unfold Spec.rank
    congr 1
    refine Finset.filter_congr fun q' hq' => ?_
    obtain ⟨a1, a2⟩ := mem_flat hq
    obtain ⟨b1, b2⟩ := mem_flat (Finset.mem_range.1 hq')
    dsimp only
    rw [hk _ a1 _ a2, hk _ b1 _ b2]
  unfold condMean
  rw [hr _ hq]
  congr 1
  funext t
  have : (Finset.range (m * n)).filter (fun q => Spec.rank (fun q => Spec.round9 (key (q % m) (q / m))) (m * n) q = t)
      = (Finset.range (m * n)).filter (fun q => Spec.rank (fun q => Spec.round9 (key' (q % m) (q / m))) (m * n) q = t) :=
    Finset.filter_congr fun q hq => by rw [hr q (Finset.mem_range.1 hq)]
  rw [this]
  refine Finset.sum_congr rfl fun q hq => ?_
  obtain ⟨a1, a2⟩ := mem_flat (Finset.mem_range.1 (Finset.mem_filter.1 hq).1)
  exact hp _ a1 _ a2

/-- two balance sheets of the same loans agree -/
theorem sheets_agree {p : CohortParam} {n szfs : ℕ} {L L' : ℕ → ℕ → ℝ} {out out' : CohortOut}
    (b : BalanceSheet p n szfs L out) (b' : BalanceSheet p n szfs L' out')
    (hL : ∀ i < n, ∀ s < 3 * szfs, L i s = L' i s) {s : ℕ} (hs : s < szfs) :
    out.Lt s = out'.Lt s ∧ out.Bt s = out'.Bt s ∧ out.Et s = out'.Et s ∧ out.Gt s = out'.Gt s ∧ out.mdef s = out'.mdef s
      ∧ ∀ i < n, out.LH i s = out'.LH i s ∧ out.BH i s = out'.BH i s ∧ out.EH i s = out'.EH i s
        ∧ out.dflt i s = out'.dflt i s := by
  have hL' : ∀ i < n, L i s = L' i s := fun i hi => hL i hi s (by omega)
  have hr : ∀ i ∈ Finset.range n, L i s = L' i s := fun i hi => hL' i (Finset.mem_range.1 hi)
  refine ⟨?_, ?_, ?_, ?_, ?_, fun i hi => ⟨?_, ?_, ?_, ?_⟩⟩
  · rw [b.Lt s hs, b'.Lt s hs, Finset.sum_congr rfl hr]
  · rw [b.Bt s hs, b'.Bt s hs]; congr 3; exact Finset.sum_congr rfl fun i hi => by rw [hr i hi]
  · rw [b.Et s hs, b'.Et s hs]; congr 3; exact Finset.sum_congr rfl fun i hi => by rw [hr i hi]
  · rw [b.Gt s hs, b'.Gt s hs]; congr 3; exact Finset.sum_congr rfl fun i hi => by rw [hr i hi]
  · rw [b.mdef s hs, b'.mdef s hs]; congr 4; exact Finset.filter_congr fun i hi => by rw [hr i hi]
  · rw [b.LH i hi s hs, b'.LH i hi s hs, hL' i hi]
  · rw [b.BH i hi s hs, b'.BH i hi s hs, hL' i hi]
  · rw [b.EH i hi s hs, b'.EH i hi s hs, hL' i hi]
  · rw [b.dflt i hi s hs, b'.dflt i hi s hs, hL' i hi]

/-- C117 (several cohorts): only the shocks of steps `N, …, 3N-2` matter. What happened before `t` (columns
`0, …, N-1` of `w`) and the surplus columns do not change any result. -/
theorem C117_multi {solve : FSolve} {fs : List ℝ} {p : CohortParam} {N HN Nsim2 : ℕ} {w w' : Shocks} {mu : ℝ}
    (h : MultiInput fs p N HN Nsim2 w) (h' : MultiInput fs p N HN Nsim2 w') (hmu : YieldFound solve p mu)
    (hw : ∀ i < Nsim2, ∀ c, N ≤ c → c + 1 < 3 * N → w.at_ i c = w'.at_ i c) :
    ∃ out out', multiCohort solve fs p N Nsim2 w = .ok out ∧ multiCohort solve fs p N Nsim2 w' = .ok out' ∧
      ∀ s < fs.length, out.Lt s = out'.Lt s ∧ out.Bt s = out'.Bt s ∧ out.Et s = out'.Et s ∧ out.Gt s = out'.Gt s
        ∧ out.mdef s = out'.mdef s ∧ out.mFt s = out'.mFt s
        ∧ ∀ i < Nsim2, out.LH i s = out'.LH i s ∧ out.BH i s = out'.BH i s ∧ out.EH i s = out'.EH i s
          ∧ out.dflt i s = out'.dflt i s ∧ out.FH i s = out'.FH i s ∧ out.face i s = out'.face i s := by
  obtain ⟨out, a1, a2, a3, a4, a5, -⟩ := multiCohort_eval h hmu
  obtain ⟨out', b1, b2, b3, b4, b5, -⟩ := multiCohort_eval h' hmu
  have hHN := h.horizon_lt
  have hfp : ∀ i < Nsim2, ∀ j < N, ∀ s, firstPay fs p N w mu i j s = firstPay fs p N w' mu i j s :=
    fun i hi j hj s => firstPay_congr fun c c1 c2 => hw i hi c c1 (by omega)
  have hsc : ∀ i < Nsim2, ∀ j < N, ∀ s, loanScale fs p N HN w mu i j s = loanScale fs p N HN w' mu i j s := by
    intro i hi j hj s
    unfold loanScale; rw [hfp i hi j hj s]
  have hk : ∀ i < Nsim2, ∀ j < N, ∀ s, cohortKey fs p N HN w i j s = cohortKey fs p N HN w' i j s := by
    intro i hi j hj s
    unfold cohortKey
    rw [logFactor_congr (w := w) (w' := w') (a := N) fun c c1 c2 => hw i hi c c1 (by omega),
      logFactor_congr (w := w) (w' := w') (a := N + j) fun c c1 c2 => hw i hi c (by omega) (by omega)]
  have hp : ∀ i < Nsim2, ∀ j < N, ∀ s, cohortPay fs p N HN w mu i j s = cohortPay fs p N HN w' mu i j s := by
    intro i hi j hj s
    unfold cohortPay
    rw [hfp i hi j hj s,
      logFactor_congr (w := w) (w' := w') (a := N + j) fun c c1 c2 => hw i hi c (by omega) (by omega)]
  have hL : ∀ i < Nsim2, ∀ s < 3 * fs.length, multiLoan fs p N HN Nsim2 w mu i s = multiLoan fs p N HN Nsim2 w' mu i s := by
    intro i hi s hs
    unfold multiLoan
    congr 1
    refine Finset.sum_congr rfl fun j hj => ?_
    have hj' := Finset.mem_range.1 hj
    rw [hsc i hi j hj' s, condMean_congr (fun i hi s _ => hk i hi j hj' s) (fun i hi s _ => hp i hi j hj' s) hi hs]
  refine ⟨out, out', a1, b1, fun s hs => ?_⟩
  obtain ⟨c1, c2, c3, c4, c5, c6⟩ := sheets_agree a2 b2 hL hs
  refine ⟨c1, c2, c3, c4, c5, by rw [a3 s hs, b3 s hs], fun i hi => ?_⟩
  obtain ⟨d1, d2, d3, d4⟩ := c6 i hi
  refine ⟨d1, d2, d3, d4, ?_, ?_⟩
  · rw [a4 i hi s hs, b4 i hi s hs]; congr 2
    exact Finset.sum_congr rfl fun j hj => hk i hi j (Finset.mem_range.1 hj) s
  · rw [a5 i hi s hs, b5 i hi s hs]; congr 2
    exact Finset.sum_congr rfl fun j hj => by rw [hsc i hi j (Finset.mem_range.1 hj) s]

/-- shocks that differ before `t` and in the surplus column only -/
def exShocks' : Shocks := { rows := 20, cols := 30, at_ := fun i c => if c < 10 ∨ c = 29 then 7 else (i : ℝ) - c }

example := C117_multi exMulti (w' := exShocks')
  ⟨exValid, by norm_num [exParam], by norm_num, rfl, by norm_num [exShocks'], by norm_num, by simp, by simp, by simp⟩ exYield
  (by
    intro i _ c h1 h2
    simp only [exShocks, exShocks']
    rw [if_neg (by omega)])

/-- C117 (one cohort): only the shocks of the first `max N HN` steps matter. -/
theorem C117_single {solve : FSolve} {fs : List ℝ} {p : CohortParam} {N HN Nsim2 : ℕ} {w w' : Shocks} {mu : ℝ}
    (h : SingleInput fs p N HN Nsim2 w) (h' : SingleInput fs p N HN Nsim2 w') (hmu : YieldFound solve p mu)
    (hw : ∀ i < Nsim2, ∀ c, c < max N HN → w.at_ i c = w'.at_ i c) :
    ∃ out out', singleCohort solve fs p N Nsim2 w = .ok out ∧ singleCohort solve fs p N Nsim2 w' = .ok out' ∧
      ∀ s < fs.length, out.Lt s = out'.Lt s ∧ out.Bt s = out'.Bt s ∧ out.Et s = out'.Et s ∧ out.Gt s = out'.Gt s
        ∧ out.mdef s = out'.mdef s ∧ out.mFt s = out'.mFt s
        ∧ ∀ i < Nsim2, out.LH i s = out'.LH i s ∧ out.BH i s = out'.BH i s ∧ out.EH i s = out'.EH i s
          ∧ out.dflt i s = out'.dflt i s ∧ out.FH i s = out'.FH i s ∧ out.face i s = out'.face i s := by
  obtain ⟨out, a1, a2, a3, a4, a5, -⟩ := singleCohort_eval h hmu
  obtain ⟨out', b1, b2, b3, b4, b5, -⟩ := singleCohort_eval h' hmu
  have hk : ∀ i < Nsim2, ∀ s, singleKey fs p N HN w i s = singleKey fs p N HN w' i s := by
    intro i hi s
    unfold singleKey
    rw [logFactor_congr (w := w) (w' := w') fun c _ c2 => hw i hi c (lt_of_lt_of_le c2 (le_max_right _ _))]
  have hp : ∀ i < Nsim2, ∀ s, singlePay fs p N w mu i s = singlePay fs p N w' mu i s := by
    intro i hi s
    unfold singlePay
    rw [logFactor_congr (w := w) (w' := w') fun c _ c2 => hw i hi c (lt_of_lt_of_le c2 (le_max_left _ _))]
  have hL : ∀ i < Nsim2, ∀ s < 3 * fs.length, singleLoan fs p N HN Nsim2 w mu i s = singleLoan fs p N HN Nsim2 w' mu i s := by
    intro i hi s hs
    unfold singleLoan
    rw [condMean_congr (fun i hi s _ => hk i hi s) (fun i hi s _ => hp i hi s) hi hs]
  refine ⟨out, out', a1, b1, fun s hs => ?_⟩
  obtain ⟨c1, c2, c3, c4, c5, c6⟩ := sheets_agree a2 b2 hL hs
  refine ⟨c1, c2, c3, c4, c5, by rw [a3 s hs, b3 s hs], fun i hi => ?_⟩
  obtain ⟨d1, d2, d3, d4⟩ := c6 i hi
  exact ⟨d1, d2, d3, d4, by rw [a4 i hi s hs, b4 i hi s hs, hk i hi s], by rw [a5 i hi s hs, b5 i hi s hs]⟩

example := C117_single exSingle (w' := { rows := 20, cols := 10, at_ := fun i c => (i : ℝ) - c })
  ⟨exValid, by norm_num, by norm_num [exParam], by norm_num, rfl, by norm_num, by norm_num, by simp, by simp, by simp⟩
  exYield (fun i _ c _ => rfl)

/-! ### C118 -/

theorem condMean_small {m n : ℕ} (h : m * n < 20) (key pay : ℕ → ℕ → ℝ) (i s : ℕ) : condMean m n key pay i s = 0 := by
  have hw : m * n / 20 = 0 := by omega
  unfold condMean smoothed
  simp [hw, windowMean]

/-- C118: with fewer than twenty simulated states in total the smoothing window is empty, and both computations
value the loans at zero: the bank is worthless and in default in every state. -/
theorem C118_few_simulations {solve : FSolve} {fs : List ℝ} {p : CohortParam} {N HN Nsim2 : ℕ} {w w' : Shocks} {mu : ℝ}
    (h : SingleInput fs p N HN Nsim2 w) (h' : MultiInput fs p N HN Nsim2 w') (hmu : YieldFound solve p mu)
    (hsmall : Nsim2 * (3 * fs.length) < 20) (hD : 0 ≤ p.D) :
    ∃ out out', singleCohort solve fs p N Nsim2 w = .ok out ∧ multiCohort solve fs p N Nsim2 w' = .ok out' ∧
      ∀ s < fs.length, (out.Lt s = 0 ∧ out.Bt s = 0 ∧ out.Et s = 0 ∧ out.mdef s = 1)
        ∧ (out'.Lt s = 0 ∧ out'.Bt s = 0 ∧ out'.Et s = 0 ∧ out'.mdef s = 1) := by
  obtain ⟨out, a1, a2, -⟩ := C91_single h hmu
  obtain ⟨out', b1, b2, -⟩ := C91_multi h' hmu
  have key : ∀ {L : ℕ → ℕ → ℝ} {o : CohortOut}, (∀ i s, L i s = 0) → BalanceSheet p Nsim2 fs.length L o →
      ∀ s < fs.length, o.Lt s = 0 ∧ o.Bt s = 0 ∧ o.Et s = 0 ∧ o.mdef s = 1 := by
    intro L o hL b s hs
    have hn : (Nsim2 : ℝ) ≠ 0 := by exact_mod_cast h.sims.ne'
    refine ⟨?_, ?_, ?_, ?_⟩
    · rw [b.Lt s hs]; simp [hL, XR.zero_def]
    · rw [b.Bt s hs]; simp [hL, XR.zero_def, min_eq_right hD]
    · rw [b.Et s hs]; simp [hL, XR.zero_def, min_eq_right hD]
    · rw [b.mdef s hs]
      simp only [hL, zero_mul, hD, Finset.filter_true, Finset.card_range]
      rw [div_self hn]; rfl
  refine ⟨out, out', a1, b1, fun s hs => ⟨key ?_ a2 s hs, key ?_ b2 s hs⟩⟩
  · intro i s; simp [singleLoan, condMean_small hsmall]
  · intro i s; simp [multiLoan, condMean_small hsmall]

example := C118_few_simulations (solve := fun _ _ => .fin 0.03) (fs := [0]) (p := exParam) (N := 10) (HN := 5) (Nsim2 := 2)
  (w := { rows := 2, cols := 30, at_ := fun _ _ => 1 }) (w' := { rows := 2, cols := 30, at_ := fun _ _ => 1 })
  ⟨exValid, by norm_num, by norm_num [exParam], by norm_num, rfl, by norm_num, by norm_num, by simp, by simp, by simp⟩
  ⟨exValid, by norm_num [exParam], by norm_num, rfl, by norm_num, by norm_num, by simp, by simp, by simp⟩
  exYield (by simp) (by norm_num [exParam])

/-! ### C119 -/

theorem condExp_odd {key payoff : List XR} {win : ℕ} (hl : key.length = payoff.length)
    (h : payoff.length % 2 = 1 ∨ win % 2 = 1) : condExp key payoff win = .error .assertionError := by
  unfold condExp
  simp only [bind, Except.bind]
  rw [C92_odd_rejected]
  rw [List.length_map, argsort_length, List.length_map, hl]
  omega

theorem mapM_first_error {β : Type*} {f : ℕ → Except PyErr β} {n : ℕ} {e : PyErr} (hn : 0 < n) (h : f 0 = .error e) :
    (List.range n).mapM f = .error e := by
  obtain ⟨m, rfl⟩ : ∃ m, n = m + 1 := ⟨n - 1, by omega⟩
  rw [List.range_succ_eq_map, List.mapM_cons, h]; rfl

/-- C119: the number of simulated states and a twentieth of it (rounded down) must both be even; otherwise both
computations fail with an `AssertionError`. -/
theorem C119_even_sample {solve : FSolve} {fs : List ℝ} {p : CohortParam} {N HN Nsim2 : ℕ} {w : Shocks}
    (hT : p.T ≠ 0) (hH : p.H * ((N : ℝ) / p.T) = HN) (hHN : HN < N) (hr : w.rows = Nsim2) (hc : 3 * N ≤ w.cols + 1)
    (hodd : Nsim2 * (3 * fs.length) % 2 = 1 ∨ Nsim2 * (3 * fs.length) / 20 % 2 = 1) :
    singleCohort solve fs p N Nsim2 w = .error .assertionError
      ∧ multiCohort solve fs p N Nsim2 w = .error .assertionError := by
  have hN : 0 < N := by omega
  have hlen := (C95_loan_life hHN).1
  have hcH : pyCol (w.cols + 1) ((N : ℤ) + (HN : ℤ)) = .ok (N + HN) := by
    have := pyCol_ok (n := w.cols + 1) (i := N + HN) (by omega)
    push_cast at this; exact this
  constructor
  · unfold singleCohort
    rw [horizonSteps_ok (z := (HN : ℤ)) hT (by push_cast; exact hH)]
    simp only [bind, Except.bind, pure, Except.pure, if_neg hN.ne', hr, ne_eq, not_true_eq_false, if_false,
      pyCol_ok (show N < w.cols + 1 by omega), pyCol_ok (show HN < w.cols + 1 by omega), fs3_length]
    rw [condExp_odd (by simp [flatF]) (by simpa [flatF] using hodd)]
  · unfold multiCohort
    rw [horizonSteps_ok (z := (HN : ℤ)) hT (by push_cast; exact hH)]
    simp only [bind, Except.bind, pure, Except.pure, if_neg hN.ne', hr, ne_eq, not_true_eq_false, if_false,
      hlen, if_neg (show ¬ (w.cols + 1 < 3 * N) by omega), hcH]
    unfold cohortValue
    simp only [bind, Except.bind, pure, Except.pure, fs3_length]
    rw [mapM_first_error (e := .assertionError) hN ?_]
    exact condExp_odd (by simp [flatF]) (by simpa [flatF] using hodd)

example := C119_even_sample (solve := fun _ _ => .nan) (fs := List.replicate 33 0) (p := exParam) (N := 10) (HN := 5)
  (Nsim2 := 100) (w := { rows := 100, cols := 30, at_ := fun _ _ => 0 }) (by norm_num [exParam]) (by norm_num [exParam])
  (by norm_num) rfl (by norm_num) (by simp)

/-! ### C120 -/

/-- C120: as an objective for a root finder (which passes a one-dimensional array, whose entries are numbers)
`mod_single_cohort_solution` never returns: it raises `IndexError`, having overwritten the loan amount in the
caller's parameter list. -/
theorem C120_scalar_start (solve : FSolve) (gen : ShockGen) (x b1 : ℝ) {p : CohortParam} {N : ℕ} {z : ℤ} (Nsim2 : ℕ)
    (E sigE : ℝ) (hT : p.T ≠ 0) (hz : p.H * ((N : ℝ) / p.T) = z) :
    singleSolution solve gen (.scalar x) b1 p N Nsim2 E sigE = ({ p with bookF := b1 }, .error .indexError) := by
  unfold singleSolution
  simp only [bind, Except.bind]
  rw [horizonSteps_ok hT hz]
  rfl

example := C120_scalar_start (fun _ _ => .nan) (fun _ r c => ⟨r, c, fun _ _ => 0⟩) 0 0.6 (p := exParam) (N := 10) (z := 5) 100
  0.1 0.2 (by norm_num [exParam]) (by norm_num [exParam])

/-- C120: given an array of states it returns the differences to the targets, at the new loan amount, which also
stays in the caller's parameter list. -/
theorem C120_array (solve : FSolve) (gen : ShockGen) (fs : List ℝ) (b1 : ℝ) (p : CohortParam) (N Nsim2 : ℕ) (E sigE : ℝ)
    {out : CohortOut} (h : singleCohort solve fs { p with bookF := b1 } N Nsim2 (gen 1 Nsim2 N) = .ok out) :
    singleSolution solve gen (.array fs) b1 p N Nsim2 E sigE = ({ p with bookF := b1 },
      .ok (fun s => .fin E - out.Et s, fun s => .fin sigE - out.sigEt s)) := by
  unfold singleSolution
  simp only [bind, Except.bind]
  rw [h]
  rfl

example : ∃ out, singleCohort (fun _ _ => .fin 0.03) [-1, 1] { exParam with bookF := 0.66 } 10 20
    ((fun _ r c => ⟨r, c, fun _ _ => 0⟩ : ShockGen) 1 20 10) = .ok out := by
  obtain ⟨out, h, _⟩ := C91_single (solve := fun _ _ => .fin 0.03) (fs := [-1, 1]) (p := exParam) (N := 10) (HN := 5)
    (Nsim2 := 20) (w := ⟨20, 10, fun _ _ => 0⟩)
    ⟨exValid, by norm_num, by norm_num [exParam], by norm_num, rfl, by norm_num, by norm_num, by simp, by simp, by simp⟩ exYield
  exact ⟨out, h⟩

/-! ### C121 -/

/-- aggregate asset value at `t+H` of the borrowers of cohort `j`, whose loan has then run for `life` of its term -/
def trueAsset (fs : List ℝ) (p : CohortParam) (N HN : ℕ) (w : Shocks) (i j s : ℕ) : ℝ :=
  if j < HN then Real.exp (logFactor p N w i (N + j) (N + HN) + ival p) * jensen p (((HN : ℝ) - j) / N)
  else Real.exp (cohortDrift p N j + logFactor p N w i N (N + HN) + cohortShock fs p N j s + ival p)
    * jensen p (((N : ℝ) + HN - j) / N)

/-- C121: the cohort whose loan matures exactly at `t+H` has run for its whole term, but the computation takes its
life as zero: the reported aggregate asset value falls short of the average over the cohorts by the missing
Jensen correction of that cohort, `(e^{(1-rho) T sig²/2} - 1)/N` times its uncorrected value. -/
theorem C121_maturing_cohort {solve : FSolve} {fs : List ℝ} {p : CohortParam} {N HN Nsim2 : ℕ} {w : Shocks} {mu : ℝ}
    (h : MultiInput fs p N HN Nsim2 w) (hmu : YieldFound solve p mu) :
    ∃ out, multiCohort solve fs p N Nsim2 w = .ok out ∧ ∀ i < Nsim2, ∀ s < fs.length, ∃ FH : ℝ,
      out.FH i s = .fin FH ∧
      FH = (∑ j ∈ Finset.range N, trueAsset fs p N HN w i j s) / N
        - Real.exp (cohortDrift p N HN + logFactor p N w i N (N + HN) + cohortShock fs p N HN s + ival p)
          * (Real.exp ((1 - p.rho) * p.T * p.sig ^ 2 / 2) - 1) / N ∧
      FH < (∑ j ∈ Finset.range N, trueAsset fs p N HN w i j s) / N := by
  obtain ⟨out, h1, -, h3, -⟩ := C91_multi h hmu
  refine ⟨out, h1, fun i hi s hs => ⟨_, h3 i hi s hs, ?_⟩⟩
  have hHN := h.horizon_lt
  have hv := h.valid
  have hN : (0 : ℝ) < N := by exact_mod_cast (by omega : 0 < N)
  set X := Real.exp (cohortDrift p N HN + logFactor p N w i N (N + HN) + cohortShock fs p N HN s + ival p) with hX
  have hdiff : ∑ j ∈ Finset.range N, trueAsset fs p N HN w i j s - ∑ j ∈ Finset.range N, cohortKey fs p N HN w i j s
      = X * (Real.exp ((1 - p.rho) * p.T * p.sig ^ 2 / 2) - 1) := by
    rw [← Finset.sum_sub_distrib, Finset.sum_eq_single HN]
    · have e1 : ((N : ℝ) + HN - HN) / N = 1 := by rw [add_sub_cancel_right, div_self hN.ne']
      simp only [trueAsset, cohortKey, lt_irrefl, if_false, if_true, e1, jensen, ← hX]
      simp only [mul_one, mul_zero, zero_mul, zero_div, Real.exp_zero]
      ring
    · intro j _ hj
      simp only [trueAsset, cohortKey, if_neg hj, sub_self]
    · intro hn; exact absurd (Finset.mem_range.2 hHN) hn
  have hpos : 0 < X * (Real.exp ((1 - p.rho) * p.T * p.sig ^ 2 / 2) - 1) := by
    refine mul_pos (Real.exp_pos _) ?_
    have : 0 < (1 - p.rho) * p.T * p.sig ^ 2 / 2 := by
      have := hv.rho1; have := hv.T; have := hv.sig
      have h1 : 0 < 1 - p.rho := by linarith
      positivity
    linarith [Real.add_one_lt_exp this.ne']
  constructor
  · rw [← hdiff]; ring
  · exact (div_lt_div_iff_of_pos_right hN).2 (by linarith)

example := C121_maturing_cohort exMulti exYield

/-! ### C122 -/

/-- C122: the promised repayment of rolled-over loans. The second loan of a cohort lends exactly what the first one
paid back, at the same promised yield and loan-to-value ratio; so the face value of the portfolio at `t+H` is the
face value of a new loan times the average of the amounts lent relative to the initial amount, each discounted to
`t+H`, and a loan never repays more than its face value. -/
theorem C122_rollover {fs : List ℝ} {p : CohortParam} {N : ℕ} {w : Shocks} {mu : ℝ} (hv : ValidParam p) (i j s : ℕ) (x : ℝ) :
    0 < firstPay fs p N w mu i j s ∧ firstPay fs p N w mu i j s < p.bookF * Real.exp (mu * p.T) ∧
      expRepay p (firstPay fs p N w mu i j s * Real.exp (mu * p.T)) (x + Real.log (firstPay fs p N w mu i j s / p.ltv))
        = firstPay fs p N w mu i j s / p.bookF * expRepay p (p.bookF * Real.exp (mu * p.T)) (x + ival p) := by
  have hF : 0 < p.bookF * Real.exp (mu * p.T) := mul_pos hv.bookF (Real.exp_pos _)
  have hb := expRepay_bounds (x := cohortDrift p N j + logFactor p N w i N (N + j) + cohortShock fs p N j s + ival p) hv hF
  refine ⟨hb.1, hb.2, ?_⟩
  have hp : 0 < firstPay fs p N w mu i j s := hb.1
  rw [← expRepay_scale (div_pos hp hv.bookF)]
  have := hv.bookF.ne'
  congr 1
  · field_simp
  · rw [ival, Real.log_div hp.ne' hv.ltv.ne', Real.log_div hp.ne' hv.bookF.ne']; ring

example := C122_rollover (fs := [0]) (N := 10) (w := exShocks) (mu := 0.03) exValid 0 3 0 1

/-! ### Concrete cases of the theorems above -/

example := C93_unsort_identity [.fin 3, .nan, .fin 1, .fin 3] [.fin 7, .pinf, .nan, .fin 2] rfl
/-- Horizon `5` years of a `10` year loan in `3` steps is not a whole number of steps. -/
example : multiCohort (fun _ _ => .nan) [0] exParam 3 4 exShocks = .error .assertionError :=
  (C95_fractional_horizon (by norm_num [exParam]) (fun z h => by
    have h1 : (3 : ℝ) = 2 * z := by norm_num [exParam] at h; linarith
    have h2 : (3 : ℤ) = 2 * z := by exact_mod_cast h1
    omega)).1
/-- A horizon as long as the loans. -/
example : multiCohort (fun _ _ => .nan) [0] { exParam with H := 10 } 10 4 exShocks = .error .valueError :=
  C95_horizon_below_maturity (HN := 10) (by norm_num [exParam]) (by norm_num [exParam]) (by norm_num [exParam])
/-- The identities for the cohort of the sample parameters. -/
example : ∃ out : CohortOut, ∃ Lt Bt Et : ℝ, out.Lt 1 = .fin Lt ∧ out.Bt 1 = .fin Bt ∧ out.Et 1 = .fin Et ∧ Lt = Bt + Et := by
  obtain ⟨out, _, h, _⟩ := C91_single exSingle exYield
  obtain ⟨_, Lt, Bt, Et, _, _, h1, h2, h3, _, _, h4, _⟩ := C91_identities (by norm_num) h (s := 1) (by norm_num)
  exact ⟨out, Lt, Bt, Et, h1, h2, h3, h4⟩

end
end Frds.Props

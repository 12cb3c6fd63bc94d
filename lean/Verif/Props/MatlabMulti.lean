import Verif.Props.Matlab

/-! Property C160: `mod_merton_computation` against `ModMertonComputation.m`. -/
set_option linter.unusedSimpArgs false
namespace Frds.Props
noncomputable section
open Frds Frds.Model Frds.Spec Classical

theorem flatF_congr {m n : ℕ} {a b : ℕ → ℕ → XR} (h : ∀ i < m, ∀ s < n, a i s = b i s) : flatF m n a = flatF m n b := by
  unfold flatF
  refine List.map_congr_left fun q hq => ?_
  obtain ⟨h1, h2⟩ := mem_flat (List.mem_range.1 hq)
  exact h _ h1 _ h2

/-- loan life at `t+H` in Matlab -/
theorem mlife {N HN : ℕ} {x : ℝ} (hx : x = HN) (h : HN < N) :
    (Matlab.down x 0 ++ Matlab.down ((N : ℝ) - 1) (x + 1)).length = N
      ∧ ∀ j < N, (((Matlab.down x 0 ++ Matlab.down ((N : ℝ) - 1) (x + 1)).map (· / (N : ℝ))).getD j 0)
        = (lifeAtH HN N).getD j 0 := by
  rw [Matlab.down_nat (a := HN) (b := 0) hx (by simp) (by omega),
    Matlab.down_nat (a := N - 1) (b := HN + 1) (by rw [Nat.cast_sub (by omega)]; simp) (by rw [hx]; push_cast; rfl) (by omega)]
  obtain ⟨h1, h2, h3⟩ := C95_loan_life h
  refine ⟨by simp; omega, fun j hj => ?_⟩
  rw [List.getD_eq_getElem _ _ (by simp; omega), List.getElem_map]
  by_cases c : j < HN + 1
  · rw [List.getElem_append_left (by simpa using c), h2 j (by omega)]
    simp
  · rw [List.getElem_append_right (by simpa using c), h3 j (by omega) hj]
    simp only [List.getElem_map, List.getElem_range, List.length_map, List.length_range]
    congr 1
    rw [Nat.cast_sub (by omega), Nat.cast_sub (by omega)]
    push_cast; ring

theorem mfactors {p : CohortParam} {N HN : ℕ} (hv : ValidParam p) (hN : 0 < N) (w : Shocks) (i : ℕ) {j : ℕ}
    (hj : j < N) :
    Matlab.f p N w i (N + (j + 1)) - (Matlab.fw p N w i (N + 1) - Matlab.fw p N w i (j + 1)) - Matlab.f p N w i (j + 1)
        = .fin (cohortDrift p N j + logFactor p N w i N (N + j))
      ∧ Matlab.f p N w i (2 * N + (j + 1)) - Matlab.f p N w i (N + (j + 1))
        = .fin (logFactor p N w i (N + j) (2 * N + j))
      ∧ Matlab.f p N w i (N + 1) - (Matlab.fw p N w i (N + 1) - Matlab.fw p N w i (j + 1)) - Matlab.f p N w i (j + 1)
        = .fin (cohortDrift p N j)
      ∧ Matlab.f p N w i (N + HN + 1) - (Matlab.fw p N w i (N + 1) - Matlab.fw p N w i (j + 1))
          - Matlab.f p N w i (j + 1) = .fin (cohortDrift p N j + logFactor p N w i N (N + HN))
      ∧ Matlab.f p N w i (N + HN + 1) - Matlab.f p N w i (N + (j + 1))
        = .fin (logFactor p N w i N (N + HN) - logFactor p N w i N (N + j)) := by
  have e1 : Matlab.f p N w i (N + (j + 1)) = cumPath (factorStep p N w i) (N + j) := mf_eq p N w i (N + j)
  have e2 : Matlab.f p N w i (2 * N + (j + 1)) = cumPath (factorStep p N w i) (2 * N + j) := mf_eq p N w i (2 * N + j)
  simp only [e1, e2, mf_eq, mfw_eq]
  exact factors_fin hv hN w i hj

/-- C160: `mod_merton_computation` returns what `ModMertonComputation.m` returns, when both solvers solve the
yield equation, the number of observations is a multiple of 40, there are at least two simulations and no
key (asset value of a cohort at `t+H`) is half-way between two nine-digit decimals. The volatilities agree
unless a stepped value is negative. -/
theorem C160_multi_port {solve solve' : FSolve} {fs : List ℝ} {p : CohortParam} {N HN Nsim2 : ℕ} {w : Shocks}
    {mu mu' : ℝ} (h : MultiInput fs p N HN Nsim2 w) (hmu : YieldSolved solve p mu) (hmu' : YieldSolved solve' p mu')
    (h2 : 2 ≤ Nsim2) (h40 : Nsim2 * (3 * fs.length) % 40 = 0)
    (hnt : ∀ j < N, NoTies Nsim2 (3 * fs.length) fun i s => cohortKey fs p N HN w i j s) :
    ∃ out mout, multiCohort solve fs p N Nsim2 w = .ok out ∧ Matlab.multi solve' fs p N Nsim2 w = some mout
      ∧ SameResults Nsim2 fs.length out mout.re
      ∧ (∀ s < fs.length, SameVol (∑ i ∈ Finset.range Nsim2, multiLoan fs p N HN Nsim2 w mu i (fs.length + s))
          (∑ i ∈ Finset.range Nsim2, multiLoan fs p N HN Nsim2 w mu i (2 * fs.length + s))
          (out.sigLt s) (mout.re.sigLt s) (mout.sigLtIm s))
      ∧ ∀ s < fs.length, SameVol
          (∑ i ∈ Finset.range Nsim2, (multiLoan fs p N HN Nsim2 w mu i (fs.length + s)
            - min p.D (multiLoan fs p N HN Nsim2 w mu i (fs.length + s) * Real.exp (-p.y * p.H))))
          (∑ i ∈ Finset.range Nsim2, (multiLoan fs p N HN Nsim2 w mu i (2 * fs.length + s)
            - min p.D (multiLoan fs p N HN Nsim2 w mu i (2 * fs.length + s) * Real.exp (-p.y * p.H))))
          (out.sigEt s) (mout.re.sigEt s) (mout.sigEtIm s) := by
  have hv := h.valid
  have hmm := yield_unique hv hmu hmu'
  subst hmm
  have hHN := h.horizon_lt
  have hN : 0 < N := by omega
  have hN' : (N : ℝ) ≠ 0 := by positivity
  have hFpos : 0 < p.bookF * Real.exp (mu * p.T) := mul_pos hv.bookF (Real.exp_pos _)
  have hl : 0 < fs.length := List.length_pos_of_ne_nil h.states
  have hpos : 0 < Nsim2 * (3 * fs.length) := Nat.mul_pos h.sims (by omega)
  obtain ⟨LH, face, FH, Ft, hpy, hp1, hp2, hp3, hp4⟩ := multiCohort_tail h hmu.1
  obtain ⟨hlen, hlow, hhigh⟩ := C95_loan_life hHN
  obtain ⟨hml, hma⟩ := mlife (show p.H * ((N : ℝ) / p.T) = HN from h.horizon) hHN
  -- the conditional expectations
  have hB : ∀ j < N, ∃ l, Matlab.condExp
      ((flatF Nsim2 (3 * fs.length) fun i s => .fin (cohortKey fs p N HN w i j s)).map Matlab.round9)
      (flatF Nsim2 (3 * fs.length) fun i s => .fin (cohortPay fs p N HN w mu i j s))
      (((Nsim2 * (3 * fs.length) : ℕ) : ℚ) / 20) = some l ∧ ∀ i < Nsim2, ∀ s < 3 * fs.length,
        unflatF Nsim2 l i s = .fin (condMean Nsim2 (3 * fs.length) (fun i s => cohortKey fs p N HN w i j s)
          (fun i s => cohortPay fs p N HN w mu i j s) i s) := by
    intro j hj
    obtain ⟨l, -, e2, e3⟩ := condExp_both hpos h40 (ka := fun i s => .fin (cohortKey fs p N HN w i j s))
      (pa := fun i s => .fin (cohortPay fs p N HN w mu i j s))
      (key := fun i s => cohortKey fs p N HN w i j s) (pay := fun i s => cohortPay fs p N HN w mu i j s)
      (key' := (flatF Nsim2 (3 * fs.length) fun i s => .fin (cohortKey fs p N HN w i j s)).map Matlab.round9)
      (fun _ _ _ _ => rfl) (fun _ _ _ _ => rfl) (by simp [flatF])
      (by rw [argsort_noTies (fun _ _ _ _ => rfl) (hnt j hj)])
    exact ⟨l, e2, e3⟩
  have hB' : ∀ j, ∃ l, j < N → Matlab.condExp
      ((flatF Nsim2 (3 * fs.length) fun i s => .fin (cohortKey fs p N HN w i j s)).map Matlab.round9)
      (flatF Nsim2 (3 * fs.length) fun i s => .fin (cohortPay fs p N HN w mu i j s))
      (((Nsim2 * (3 * fs.length) : ℕ) : ℚ) / 20) = some l ∧ ∀ i < Nsim2, ∀ s < 3 * fs.length,
        unflatF Nsim2 l i s = .fin (condMean Nsim2 (3 * fs.length) (fun i s => cohortKey fs p N HN w i j s)
          (fun i s => cohortPay fs p N HN w mu i j s) i s) := by
    intro j
    by_cases hj : j < N
    · obtain ⟨l, hl⟩ := hB j hj; exact ⟨l, fun _ => hl⟩
    · exact ⟨[], fun hh => absurd hh hj⟩
  choose B hBs using hB'
  -- scalar facts
  have hfsa : ∀ (j s : ℕ), XR.fin ((fs ++ fs ++ fs).getD s 0) * .fin (sigf p) * XR.sqrt (.fin p.T)
      * XR.fin (((N : ℝ) - (((j + 1 : ℕ) : ℝ) - 1)) / N) + .fin (sigf p) / 10 * Matlab.stepSign fs.length s
      = .fin (cohortShock fs p N j s) := by
    intro j s
    rw [stepSign_eq hl, XR.fin_sqrt hv.T.le, shiftBlock_fin, XR.ofNat_def,
      XR.fin_div _ (by norm_num : (OfNat.ofNat 10 : ℝ) ≠ 0), XR.fin_mul, XR.fin_mul, XR.fin_mul, XR.fin_mul, XR.fin_add]
    push_cast
    rw [add_sub_cancel_right]
    rfl
  have hjens : ∀ x : ℝ, XR.exp (0.5 * (1 - .fin p.rho) * (.fin p.T * .fin x) * XR.sq (.fin p.sig))
      = .fin (jensen p x) := by
    intro x
    rw [half_sci, XR.one_def]
    simp only [XR.fin_sub, XR.fin_mul, XR.fin_sq, XR.fin_exp, jensen, XR.fin_inj]
    congr 1; ring
  have hlp : Matlab.loanPayoff = Model.loanPayoff := rfl
  have hL1 : ∀ i, ∀ j < N, ∀ s, loanPayoff (.fin (p.bookF * Real.exp (mu * p.T)))
      (Matlab.f p N w i (N + (j + 1)) - (Matlab.fw p N w i (N + 1) - Matlab.fw p N w i (j + 1)) - Matlab.f p N w i (j + 1)
        + .fin (cohortShock fs p N j s)) (.fin (ival p)) (.fin p.rho) (.fin p.sig)
      (.fin p.T) = .fin (firstPay fs p N w mu i j s) := by
    intro i j hj s
    rw [(mfactors (HN := HN) hv hN w i hj).1, XR.fin_add, loanPayoff_repay hv hFpos]; rfl
  have hpay : ∀ i j s, 0 < firstPay fs p N w mu i j s := fun i j s => (expRepay_bounds hv hFpos).1
  have hiv2 : ∀ i j s, XR.log (XR.fin (firstPay fs p N w mu i j s) / .fin p.ltv)
      = .fin (ival p + Real.log (firstPay fs p N w mu i j s / p.bookF)) := by
    intro i j s
    rw [XR.fin_div _ hv.ltv.ne', XR.fin_log (div_pos (hpay i j s) hv.ltv), ival,
      Real.log_div (hpay i j s).ne' hv.ltv.ne', Real.log_div (hpay i j s).ne' hv.bookF.ne']
    congr 1; ring
  have hsc : ∀ i j s, 0 < firstPay fs p N w mu i j s / p.bookF := fun i j s => div_pos (hpay i j s) hv.bookF
  have hL2 : ∀ i, ∀ j < N, ∀ s, loanPayoff (.fin (firstPay fs p N w mu i j s) * XR.exp (.fin mu * .fin p.T))
      (Matlab.f p N w i (2 * N + (j + 1)) - Matlab.f p N w i (N + (j + 1)))
      (.fin (ival p + Real.log (firstPay fs p N w mu i j s / p.bookF))) (.fin p.rho) (.fin p.sig) (.fin p.T)
      = .fin (firstPay fs p N w mu i j s / p.bookF
        * expRepay p (p.bookF * Real.exp (mu * p.T)) (logFactor p N w i (N + j) (2 * N + j) + ival p)) := by
    intro i j hj s
    rw [(mfactors (HN := HN) hv hN w i hj).2.1, XR.fin_mul, XR.fin_exp, XR.fin_mul,
      loanPayoff_repay hv (mul_pos (hpay i j s) (Real.exp_pos _)), ← expRepay_scale (hsc i j s)]
    congr 2
    · have := hv.bookF.ne'
      field_simp
    · ring
  have hge : ∀ j : ℕ, (((j + 1 : ℕ) : ℝ) - 1 ≥ p.H * ((N : ℝ) / p.T)) ↔ HN ≤ j := by
    intro j
    rw [h.horizon]; push_cast
    rw [add_sub_cancel_right, ge_iff_le]; exact Nat.cast_le
  have hlt : ∀ j : ℕ, (((j + 1 : ℕ) : ℝ) - 1 < p.H * ((N : ℝ) / p.T)) ↔ j < HN := by
    intro j
    rw [h.horizon]; push_cast
    rw [add_sub_cancel_right]; exact Nat.cast_lt
  have hmu2 : solve' (fun m => Matlab.findFaceValueIndiv m (.fin p.bookF * XR.exp (m * .fin p.T)) (.fin (ival p))
      (.fin p.sig) (.fin p.T) (.fin p.r) (.fin p.d)) (.fin p.r + 0.01) = .fin mu := hmu'.1
  have hF2 : XR.fin p.bookF * XR.exp (.fin mu * .fin p.T) = .fin (p.bookF * Real.exp (mu * p.T)) := rfl
  have hrange : List.range' 1 N = (List.range N).map (· + 1) := by
    rw [List.range'_eq_map_range]
    exact List.map_congr_left fun a _ => by rw [add_comm]
  have hkey1 : ∀ i, ∀ j < N, ∀ s, j < HN → (0 : XR) + XR.exp (.fin (logFactor p N w i N (N + HN) - logFactor p N w i N (N + j))
        + .fin (ival p + Real.log (firstPay fs p N w mu i j s / p.bookF))) * .fin (jensen p ((lifeAtH HN N).getD j 0))
        / (XR.fin (firstPay fs p N w mu i j s) / .fin p.bookF) = .fin (cohortKey fs p N HN w i j s) := by
    intro i j hj s hjH
    rw [XR.fin_div _ hv.bookF.ne', XR.fin_add, XR.fin_exp, XR.fin_mul, XR.fin_div _ (hsc i j s).ne', XR.zero_def,
      XR.fin_add, hlow j hjH.le, XR.fin_inj, zero_add, cohortKey, if_pos hjH]
    have hs := hsc i j s
    have e : logFactor p N w i N (N + HN) - logFactor p N w i N (N + j) = logFactor p N w i (N + j) (N + HN) := by
      rw [← logFactor_sub (show N ≤ N + HN by omega), ← logFactor_sub (show N ≤ N + j by omega),
        ← logFactor_sub (show N + j ≤ N + HN by omega)]
      ring
    rw [e, ← add_assoc, Real.exp_add _ (Real.log _), Real.exp_log hs, mul_right_comm, mul_div_assoc, div_self hs.ne',
      mul_one]
  have hkey2 : ∀ i, ∀ j < N, ∀ s, ¬ j < HN → XR.exp (.fin (cohortDrift p N j + logFactor p N w i N (N + HN))
        + .fin (cohortShock fs p N j s) + .fin (ival p)) * .fin (jensen p ((lifeAtH HN N).getD j 0)) + (0 : XR)
        = .fin (cohortKey fs p N HN w i j s) := by
    intro i j hj s hjH
    rw [XR.fin_add, XR.fin_add, XR.fin_exp, XR.fin_mul, XR.zero_def, XR.fin_add, XR.fin_inj, add_zero, cohortKey,
      if_neg hjH]
    congr 2
    by_cases hje : j = HN
    · rw [if_pos hje, hlow j hje.le, hje, sub_self, zero_div]
    · rw [if_neg hje, hhigh j (by omega) hj]
  have hTN : XR.fin p.T / XR.fin N = .fin (p.T / N) := XR.fin_div _ hN'
  have hd1 : ∀ j : ℕ, XR.exp (-XR.fin p.r * .fin (((j + 1 : ℕ) : ℝ) - 1 - p.H * ((N : ℝ) / p.T)) * (XR.fin p.T / .fin N))
      = .fin (Real.exp (-p.r * ((j : ℝ) - HN) * (p.T / N))) := by
    intro j
    rw [hTN, h.horizon, XR.fin_neg, XR.fin_mul, XR.fin_mul, XR.fin_exp]; push_cast
    rw [add_sub_cancel_right]
  have hd2 : ∀ j : ℕ, XR.exp (-XR.fin p.r * .fin (((j + 1 : ℕ) : ℝ) - 1 - p.H * ((N : ℝ) / p.T) + (N : ℝ))
      * (XR.fin p.T / .fin N)) = .fin (Real.exp (-p.r * ((j : ℝ) - HN + N) * (p.T / N))) := by
    intro j
    rw [hTN, h.horizon, XR.fin_neg, XR.fin_mul, XR.fin_mul, XR.fin_exp]; push_cast
    rw [add_sub_cancel_right]
  have hat : ∀ j : ℕ, ((N : ℝ) - (((j + 1 : ℕ) : ℝ) - 1)) / N = ((N : ℝ) - j) / N := by
    intro j; push_cast; rw [add_sub_cancel_right]
  have hbody : ∃ LH' face' FH' Ft', Matlab.multi solve' fs p N Nsim2 w
        = Matlab.tail p Nsim2 fs.length LH' face' FH' Ft' (.fin mu) (.fin (p.bookF * Real.exp (mu * p.T)))
      ∧ (∀ i < Nsim2, ∀ s < 3 * fs.length, LH' i s = .fin (multiLoan fs p N HN Nsim2 w mu i s))
      ∧ (∀ i < Nsim2, ∀ s < fs.length, Ft' i s = .fin ((∑ j ∈ Finset.range N,
          Real.exp (cohortDrift p N j + cohortShock fs p N j s + ival p) * jensen p (((N : ℝ) - j) / N)) / N))
      ∧ (∀ i < Nsim2, ∀ s < fs.length, FH' i s = .fin ((∑ j ∈ Finset.range N, cohortKey fs p N HN w i j s) / N))
      ∧ (∀ i < Nsim2, ∀ s < fs.length, face' i s
          = .fin ((∑ j ∈ Finset.range N, p.bookF * Real.exp (mu * p.T) * loanScale fs p N HN w mu i j s
            * Real.exp (-p.r * stepsLeft N HN j * (p.T / N))) / N)) := by
    have heq : Matlab.multi solve' fs p N Nsim2 w = Matlab.multi solve' fs p N Nsim2 w := rfl
    conv_rhs at heq =>
      unfold Matlab.multi
      rw [ival_fin hv, sigf_fin hv]
      simp only [bind, Option.bind, pure, if_neg (show ¬ (p.T = 0 ∨ N = 0) from not_or.2 ⟨hv.T.ne', hN.ne'⟩), h.rows,
        ne_eq, not_true_eq_false, if_false, List.length_map, hml, fs3_length,
        colIndex_nat (show ((3 * N : ℕ) : ℝ) = ((3 * N : ℕ) : ℝ) from rfl) (by omega)
          (show 3 * N ≤ w.cols + 1 by have := h.cols; omega),
        colIndex_nat (show (N : ℝ) + 1 + p.H * ((N : ℝ) / p.T) = ((N + HN + 1 : ℕ) : ℝ) by rw [h.horizon]; push_cast; ring)
          (by omega) (show N + HN + 1 ≤ w.cols + 1 by have := h.cols; omega), hmu2, hF2, hlp]
      rw [Matlab.mapM_some_map _ (fun j => B (j - 1)) _ (fun j hj => by
        obtain ⟨j, rfl⟩ : ∃ a, j = a + 1 := ⟨j - 1, by have := (List.mem_range'_1.1 hj).1; omega⟩
        have hj : j < N := by have := (List.mem_range'_1.1 hj).2; omega
        rw [Nat.add_sub_cancel, ← (hBs j hj).1]
        refine congrArg₂ (fun a b => Matlab.condExp (List.map Matlab.round9 a) b _) (flatF_congr fun i _ s _ => ?_)
          (flatF_congr fun i _ s _ => ?_)
        · obtain ⟨-, -, -, e4, e5⟩ := mfactors (HN := HN) hv hN w i hj
          simp only [hfsa, hma j hj, hjens, hL1 i j hj s, hiv2, e4, e5, hge, hlt]
          by_cases hjH : j < HN
          · simp only [if_pos hjH, if_neg (show ¬ HN ≤ j by omega)]
            exact hkey1 i j hj s hjH
          · simp only [if_neg hjH, if_pos (show HN ≤ j by omega)]
            exact hkey2 i j hj s hjH
        · simp only [hfsa, hL1 i j hj s, hiv2, hL2 i j hj s, hge, hlt]
          by_cases hjH : j < HN
          · simp only [if_pos hjH, if_neg (show ¬ HN ≤ j by omega)]
            rw [XR.fin_div _ hv.bookF.ne', XR.fin_div _ (hsc i j s).ne', XR.zero_def,
              XR.fin_add, XR.fin_inj, zero_add, cohortPay, if_pos hjH, mul_comm, mul_div_assoc, div_self (hsc i j s).ne',
              mul_one]
          · simp only [if_neg hjH, if_pos (show HN ≤ j by omega)]
            rw [XR.zero_def, XR.fin_add, add_zero, cohortPay, if_neg hjH])]
    refine ⟨_, _, _, _, heq, ?_, ?_, ?_, ?_⟩
    · intro i hi s hs
      rw [multiLoan]
      refine Matlab.mean_fin hN fun j hj => ?_
      have hget : ((List.range' 1 N).map fun j => B (j - 1)).getD (j + 1 - 1) [] = B j := by
        rw [List.getD_eq_getElem _ _ (by simpa using hj)]; simp
      simp only [hget, hfsa, hL1 i j hj s, (hBs j hj).2 i hi s hs, hge, hlt, hd1, hd2]
      by_cases hjH : j < HN
      · simp only [if_pos hjH, if_neg (show ¬ HN ≤ j by omega)]
        rw [XR.fin_div _ hv.bookF.ne', XR.zero_def, XR.fin_mul, XR.fin_mul, XR.fin_mul, XR.fin_add, loanScale, if_pos hjH,
          stepsLeft, if_pos hjH, zero_mul, zero_add]
      · simp only [if_neg hjH, if_pos (show HN ≤ j by omega)]
        rw [XR.one_def, XR.zero_def, XR.fin_mul, XR.fin_mul, XR.fin_mul, XR.fin_add, loanScale, if_neg hjH,
          stepsLeft, if_neg hjH, zero_mul, add_zero]
    · intro i hi s hs
      refine Matlab.mean_fin hN fun j hj => ?_
      obtain ⟨-, -, e3, -, -⟩ := mfactors (HN := HN) hv hN w i hj
      simp only [hfsa, e3]
      simp only [hat, hjens]
      rw [XR.fin_add, XR.fin_add, XR.fin_exp, XR.fin_mul]
    · intro i hi s hs
      refine Matlab.mean_fin hN fun j hj => ?_
      obtain ⟨-, -, -, e4, e5⟩ := mfactors (HN := HN) hv hN w i hj
      simp only [hfsa, Nat.add_sub_cancel, hma j hj, hjens, hL1 i j hj s, hiv2, e4, e5, hge, hlt]
      by_cases hjH : j < HN
      · simp only [if_pos hjH, if_neg (show ¬ HN ≤ j by omega)]
        exact hkey1 i j hj s hjH
      · simp only [if_neg hjH, if_pos (show HN ≤ j by omega)]
        exact hkey2 i j hj s hjH
    · intro i hi s hs
      refine Matlab.mean_fin hN fun j hj => ?_
      simp only [hfsa, hL1 i j hj s, hge, hlt, hd1, hd2]
      by_cases hjH : j < HN
      · simp only [if_pos hjH, if_neg (show ¬ HN ≤ j by omega)]
        rw [XR.fin_mul, XR.fin_exp, XR.fin_mul, XR.fin_mul, XR.zero_def, XR.fin_mul, XR.fin_add, loanScale, if_pos hjH,
          stepsLeft, if_pos hjH, zero_mul, zero_add, XR.fin_inj]
        have := hv.bookF.ne'
        field_simp
      · simp only [if_neg hjH, if_pos (show HN ≤ j by omega)]
        rw [XR.one_def, XR.fin_mul, XR.fin_mul, XR.zero_def, XR.fin_mul, XR.fin_add, loanScale, if_neg hjH,
          stepsLeft, if_neg hjH, zero_mul, add_zero, one_mul, mul_one]
  obtain ⟨LH', face', FH', Ft', hm, hq1, hq2, hq3, hq4⟩ := hbody
  obtain ⟨o, ho, hs1, hs2, hs3⟩ := Matlab.tail_same2 (p := p) (mu := .fin mu) (F := .fin (p.bookF * Real.exp (mu * p.T)))
    h2 hp1 hq1 hp4 hq4 hp3 hq3 hp2 hq2
  exact ⟨_, o, hpy, hm.trans ho, hs1, hs2, hs3⟩

end
end Frds.Props

import Verif.Props.LoanPositive
import Verif.Props.MatlabMulti

/-! Properties C159 and C160: when the volatilities agree with the Matlab original. -/
set_option linter.unusedSimpArgs false
namespace Frds.Props
noncomputable section
open Frds Frds.Model Frds.Spec Classical MeasureTheory Filter Topology

namespace MatlabVol

theorem equity_sum {n : ℕ} {D e : ℝ} (he : e ≤ 1) {L : ℕ → ℝ} (hL : ∀ i < n, 0 < L i) :
    0 ≤ ∑ i ∈ Finset.range n, (L i - min D (L i * e)) := by
  refine Finset.sum_nonneg fun i hi => ?_
  have := hL i (Finset.mem_range.1 hi)
  have h1 : min D (L i * e) ≤ L i * e := min_le_right _ _
  nlinarith

theorem at_least {n m : ℕ} (hn : 2 ≤ n) (hm : 0 < m) (h : n * (3 * m) % 40 = 0) : 20 ≤ n * (3 * m) := by
  have hp : 0 < n * (3 * m) := Nat.mul_pos (by omega) (by omega)
  have := Nat.le_of_dvd hp (Nat.dvd_of_mod_eq_zero h)
  omega

end MatlabVol
open MatlabVol

/-- C159: the volatilities of the one-cohort computation are those of the Matlab original, which are real, when in addition every
expected repayment is at least a third of the promised amount and the payout rate is not negative -/
theorem C159_volatilities {solve solve' : FSolve} {fs : List ℝ} {p : CohortParam} {N HN Nsim2 : ℕ} {w : Shocks}
    {mu mu' : ℝ} (h : SingleInput fs p N HN Nsim2 w) (hmu : YieldSolved solve p mu) (hmu' : YieldSolved solve' p mu')
    (h2 : 2 ≤ Nsim2) (h40 : Nsim2 * (3 * fs.length) % 40 = 0)
    (hap : KeysApart Nsim2 (3 * fs.length) (singleKey fs p N HN w)) (hy : 0 ≤ p.y * p.H)
    (hpay : ∀ i < Nsim2, ∀ s < 3 * fs.length, p.bookF * Real.exp (mu * p.T) / 3 ≤ singlePay fs p N w mu i s) :
    ∃ out mout, singleCohort solve fs p N Nsim2 w = .ok out ∧ Matlab.single solve' fs p N Nsim2 w = some mout
      ∧ SameResults Nsim2 fs.length out mout.re
      ∧ ∀ s < fs.length, out.sigLt s = mout.re.sigLt s ∧ mout.sigLtIm s = 0
        ∧ out.sigEt s = mout.re.sigEt s ∧ mout.sigEtIm s = 0 := by
  obtain ⟨out, mout, h3, h4, h5, hL, hE⟩ := C159_single_port h hmu hmu' h2 h40 hap
  have hl : 0 < fs.length := List.length_pos_of_ne_nil h.states
  have hp : ∀ {i s : ℕ}, i < Nsim2 → s < 3 * fs.length → 0 < singleLoan fs p N HN Nsim2 w mu i s :=
    fun hi hs => LoanPositive.single_pos h (at_least h2 hl h40) hpay hi hs
  have he : Real.exp (-p.y * p.H) ≤ 1 := by rw [Real.exp_le_one_iff]; linarith
  refine ⟨out, mout, h3, h4, h5, fun s hs => ?_⟩
  obtain ⟨a, b⟩ := (hL s hs).real (Finset.sum_nonneg fun i hi => (hp (Finset.mem_range.1 hi) (by omega)).le)
    (Finset.sum_nonneg fun i hi => (hp (Finset.mem_range.1 hi) (by omega)).le)
  obtain ⟨c, d⟩ := (hE s hs).real (equity_sum he fun i hi => hp hi (by omega)) (equity_sum he fun i hi => hp hi (by omega))
  exact ⟨a, b, c, d⟩

/-- C160: the same for several cohorts -/
theorem C160_volatilities {solve solve' : FSolve} {fs : List ℝ} {p : CohortParam} {N HN Nsim2 : ℕ} {w : Shocks}
    {mu mu' : ℝ} (h : MultiInput fs p N HN Nsim2 w) (hmu : YieldSolved solve p mu) (hmu' : YieldSolved solve' p mu')
    (h2 : 2 ≤ Nsim2) (h40 : Nsim2 * (3 * fs.length) % 40 = 0)
    (hnt : ∀ j < N, NoTies Nsim2 (3 * fs.length) fun i s => cohortKey fs p N HN w i j s) (hy : 0 ≤ p.y * p.H)
    (hpay : ∀ j < N, ∀ i < Nsim2, ∀ s < 3 * fs.length,
      p.bookF * Real.exp (mu * p.T) / 3 ≤ cohortPay fs p N HN w mu i j s) :
    ∃ out mout, multiCohort solve fs p N Nsim2 w = .ok out ∧ Matlab.multi solve' fs p N Nsim2 w = some mout
      ∧ SameResults Nsim2 fs.length out mout.re
      ∧ ∀ s < fs.length, out.sigLt s = mout.re.sigLt s ∧ mout.sigLtIm s = 0
        ∧ out.sigEt s = mout.re.sigEt s ∧ mout.sigEtIm s = 0 := by
  obtain ⟨out, mout, h3, h4, h5, hL, hE⟩ := C160_multi_port h hmu hmu' h2 h40 hnt
  have hl : 0 < fs.length := List.length_pos_of_ne_nil h.states
  have hp : ∀ {i s : ℕ}, i < Nsim2 → s < 3 * fs.length → 0 < multiLoan fs p N HN Nsim2 w mu i s :=
    fun hi hs => LoanPositive.multi_pos h (at_least h2 hl h40) hpay hi hs
  have he : Real.exp (-p.y * p.H) ≤ 1 := by rw [Real.exp_le_one_iff]; linarith
  refine ⟨out, mout, h3, h4, h5, fun s hs => ?_⟩
  obtain ⟨a, b⟩ := (hL s hs).real (Finset.sum_nonneg fun i hi => (hp (Finset.mem_range.1 hi) (by omega)).le)
    (Finset.sum_nonneg fun i hi => (hp (Finset.mem_range.1 hi) (by omega)).le)
  obtain ⟨c, d⟩ := (hE s hs).real (equity_sum he fun i hi => hp hi (by omega)) (equity_sum he fun i hi => hp hi (by omega))
  exact ⟨a, b, c, d⟩

/-! #### Cases in which the hypotheses hold: one large shock in every simulation and step -/

namespace MatlabVol
open LoanPositive

theorem const_apart {fs : List ℝ} {p : CohortParam} {N HN n c : ℕ} (hv : ValidParam p) (hr : 0 < p.rho) (hN : 0 < N) (hH : 0 < HN) :
    ∀ᶠ C in atTop, KeysApart n (3 * fs.length) (singleKey fs p N HN (constShocks n c C)) := by
  have hN' : (0 : ℝ) < N := by exact_mod_cast hN
  have hH' : (0 : ℝ) < HN := by exact_mod_cast hH
  have hs : 0 < sigf p * Real.sqrt (p.T / N) := mul_pos (sigf_pos hv hr) (Real.sqrt_pos.2 (div_pos hv.T hN'))
  have key : ∀ C i s, singleKey fs p N HN (constShocks n c C) i s
      = Real.exp ((HN : ℝ) * ((p.r - p.d - p.sig ^ 2 / 2) * (p.T / N)) + ival p + (HN : ℝ) * (sigf p * Real.sqrt (p.T / N)) * C)
        * (Real.exp (singleShock fs p s) * Real.exp ((1 - p.rho) * p.H * p.sig ^ 2 / 2)) := by
    intro C i s
    unfold singleKey
    rw [logFactor_const, Nat.sub_zero, ← Real.exp_add, ← Real.exp_add, ← Real.exp_add]
    refine congrArg Real.exp ?_
    ring
  have up : Tendsto (fun C : ℝ => Real.exp ((HN : ℝ) * ((p.r - p.d - p.sig ^ 2 / 2) * (p.T / N)) + ival p
      + (HN : ℝ) * (sigf p * Real.sqrt (p.T / N)) * C)) atTop atTop :=
    Real.tendsto_exp_atTop.comp (affine_top (mul_pos hH' hs))
  have one : ∀ s s' : ℕ, ∀ᶠ C in atTop, ∀ i i' : ℕ,
      singleKey fs p N HN (constShocks n c C) i s < singleKey fs p N HN (constShocks n c C) i' s' →
      singleKey fs p N HN (constShocks n c C) i s + 1 / 10 ^ 9 < singleKey fs p N HN (constShocks n c C) i' s' := by
    intro s s'
    by_cases hlt : singleShock fs p s < singleShock fs p s'
    · have hd : 0 < (Real.exp (singleShock fs p s') - Real.exp (singleShock fs p s))
          * Real.exp ((1 - p.rho) * p.H * p.sig ^ 2 / 2) :=
        mul_pos (sub_pos.2 (Real.exp_lt_exp.2 hlt)) (Real.exp_pos _)
      filter_upwards [(up.atTop_mul_const hd).eventually_gt_atTop (1 / 10 ^ 9)] with C hC i i' _
      rw [key, key]
      linarith
    · refine Eventually.of_forall fun C i i' h => absurd h (not_lt.2 ?_)
      rw [key, key]
      exact mul_le_mul_of_nonneg_left (mul_le_mul_of_nonneg_right (Real.exp_le_exp.2 (not_lt.1 hlt)) (Real.exp_pos _).le)
        (Real.exp_pos _).le
  filter_upwards [(Finset.range (3 * fs.length)).eventually_all.2 fun s _ =>
    (Finset.range (3 * fs.length)).eventually_all.2 fun s' _ => one s s'] with C hC i _ s hs i' _ s' hs' h
  exact hC s (Finset.mem_range.2 hs) s' (Finset.mem_range.2 hs') i i' h

/-- with one shock everywhere, only countably many shocks give a tie -/
theorem const_ties {fs : List ℝ} {p : CohortParam} {N HN n c : ℕ} (hv : ValidParam p) (hr : 0 < p.rho) (hN : 0 < N) (hH : 0 < HN) :
    {C : ℝ | ¬ ∀ j < N, NoTies n (3 * fs.length) fun i s => cohortKey fs p N HN (constShocks n c C) i j s}.Countable := by
  have hN' : (0 : ℝ) < N := by exact_mod_cast hN
  have hs : 0 < sigf p * Real.sqrt (p.T / N) := mul_pos (sigf_pos hv hr) (Real.sqrt_pos.2 (div_pos hv.T hN'))
  have inj : ∀ i j s : ℕ, Function.Injective fun C : ℝ => cohortKey fs p N HN (constShocks n c C) i j s := by
    intro i j s C C' h
    unfold cohortKey at h
    simp only [logFactor_const] at h
    by_cases hj : j < HN
    · have hp : (0 : ℝ) < ((N + HN - (N + j) : ℕ) : ℝ) := by exact_mod_cast (by omega)
      simp only [if_pos hj] at h
      have h1 := Real.exp_injective (mul_right_cancel₀ (Real.exp_pos _).ne' h)
      have h2 : ((N + HN - (N + j) : ℕ) : ℝ) * (sigf p * Real.sqrt (p.T / N)) * C
          = ((N + HN - (N + j) : ℕ) : ℝ) * (sigf p * Real.sqrt (p.T / N)) * C' := by linarith
      exact mul_left_cancel₀ (mul_pos hp hs).ne' h2
    · have hp : (0 : ℝ) < ((N + HN - N : ℕ) : ℝ) := by exact_mod_cast (by omega)
      simp only [if_neg hj] at h
      have h1 := Real.exp_injective (mul_right_cancel₀ (Real.exp_pos _).ne' h)
      have h2 : ((N + HN - N : ℕ) : ℝ) * (sigf p * Real.sqrt (p.T / N)) * C
          = ((N + HN - N : ℕ) : ℝ) * (sigf p * Real.sqrt (p.T / N)) * C' := by linarith
      exact mul_left_cancel₀ (mul_pos hp hs).ne' h2
  refine Set.Countable.mono (s₂ := ⋃ (i : ℕ) (j : ℕ) (s : ℕ) (m : ℤ),
    {C : ℝ | cohortKey fs p N HN (constShocks n c C) i j s * 10 ^ 9 = m + 1 / 2}) ?_ ?_
  · intro C h
    simp only [Set.mem_setOf_eq] at h
    push Not at h
    obtain ⟨j, -, h⟩ := h
    unfold NoTies at h
    push Not at h
    obtain ⟨i, -, s, -, m, hm⟩ := h
    simp only [Set.mem_iUnion]
    exact ⟨i, j, s, m, hm⟩
  · refine Set.countable_iUnion fun i => Set.countable_iUnion fun j => Set.countable_iUnion fun s =>
      Set.countable_iUnion fun m => Set.Subsingleton.countable fun C hC C' hC' => inj i j s ?_
    simp only [Set.mem_setOf_eq] at hC hC'
    show cohortKey fs p N HN (constShocks n c C) i j s = cohortKey fs p N HN (constShocks n c C') i j s
    exact mul_right_cancel₀ (by norm_num : (10 : ℝ) ^ 9 ≠ 0) (hC.trans hC'.symm)

end MatlabVol
open LoanPositive

example : ∃ (C mu : ℝ) (out : CohortOut) (mout : Matlab.Out),
    singleCohort (fun _ _ => .fin mu) [0] portParam 10 40 (constShocks 40 30 C) = .ok out
    ∧ Matlab.single (fun _ _ => .fin mu) [0] portParam 10 40 (constShocks 40 30 C) = some mout
    ∧ out.sigEt 0 = mout.re.sigEt 0 ∧ mout.sigEtIm 0 = 0 := by
  obtain ⟨mu, hmu⟩ := yield_exists portValid (by norm_num [portParam])
  obtain ⟨C, hC, hA⟩ := ((const_pay_single (fs := [0]) (p := portParam) (N := 10) (n := 40) (c := 30)
    (mu := mu) portValid (by norm_num [portParam]) (by norm_num)).and (const_apart (fs := [0]) (p := portParam) (N := 10) (HN := 5)
    (n := 40) (c := 30) portValid (by norm_num [portParam]) (by norm_num) (by norm_num))).exists
  have h : SingleInput [0] portParam 10 5 40 (constShocks 40 30 C) :=
    ⟨portValid, by norm_num, by norm_num [portParam], by norm_num [constShocks], rfl, by norm_num [constShocks], by norm_num,
      by simp, by simp, by simp⟩
  obtain ⟨out, mout, h1, h2, -, h3⟩ := C159_volatilities h hmu hmu (by norm_num) (by norm_num) hA (by norm_num [portParam]) hC
  exact ⟨C, mu, out, mout, h1, h2, (h3 0 (by norm_num)).2.2⟩

example : ∃ (C mu : ℝ) (out : CohortOut) (mout : Matlab.Out),
    multiCohort (fun _ _ => .fin mu) [0] portParam 10 40 (constShocks 40 30 C) = .ok out
    ∧ Matlab.multi (fun _ _ => .fin mu) [0] portParam 10 40 (constShocks 40 30 C) = some mout
    ∧ out.sigEt 0 = mout.re.sigEt 0 ∧ mout.sigEtIm 0 = 0 := by
  obtain ⟨mu, hmu⟩ := yield_exists portValid (by norm_num [portParam])
  have hev := const_pay (fs := [0]) (p := portParam) (N := 10) (HN := 5) (n := 40) (c := 30) (mu := mu) portValid
    (by norm_num [portParam]) (by norm_num) (by norm_num)
  obtain ⟨C0, hC0⟩ := eventually_atTop.1 hev
  have hc := const_ties (fs := [0]) (p := portParam) (N := 10) (HN := 5) (n := 40) (c := 30) portValid (by norm_num [portParam])
    (by norm_num) (by norm_num)
  have hu : ¬ (Set.Ioi C0).Countable := by
    rw [← Cardinal.le_aleph0_iff_set_countable, Cardinal.mk_Ioi_real, not_le]
    exact Cardinal.cantor _
  obtain ⟨C, hC, hC'⟩ := Set.not_subset.1 fun hsub => hu (hc.mono hsub)
  simp only [Set.mem_setOf_eq, not_not] at hC'
  have h : MultiInput [0] portParam 10 5 40 (constShocks 40 30 C) :=
    ⟨portValid, by norm_num [portParam], by norm_num, rfl, by simp [constShocks], by norm_num, by simp, by simp, by simp⟩
  obtain ⟨out, mout, h1, h2, -, h3⟩ := C160_volatilities h hmu hmu (by norm_num) (by norm_num) hC' (by norm_num [portParam])
    (hC0 C (le_of_lt hC))
  exact ⟨C, mu, out, mout, h1, h2, (h3 0 (by norm_num)).2.2⟩

end
end Frds.Props

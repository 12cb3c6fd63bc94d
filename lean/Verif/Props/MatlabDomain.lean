import Verif.Props.MatlabMulti
import Mathlib.Data.Set.Countable

/-! Properties C159 and C160, continued: when the two versions accept their inputs, how often the rounding
of the keys matters, and concrete cases. -/
set_option linter.unusedSimpArgs false
namespace Frds.Props
noncomputable section
open Frds Frds.Model Frds.Spec Classical

theorem mfftsmooth_some {x l : List XR} {win : ℚ} (h : Matlab.fftsmooth x win = some l) : ∃ k : ℕ, win = 2 * k := by
  unfold Matlab.fftsmooth at h
  split_ifs at h with hx
  · obtain ⟨y, hy, -⟩ := Option.map_eq_some_iff.1 h
    obtain ⟨k, hk, -⟩ := Matlab.smooth_some (Option.isSome_iff_exists.2 ⟨y, hy⟩)
    exact ⟨k, hk⟩
  · obtain ⟨y, hy, -⟩ := Option.map_eq_some_iff.1 h
    obtain ⟨k, hk, -⟩ := Matlab.smooth_some (Option.isSome_iff_exists.2 ⟨y, hy⟩)
    exact ⟨k, hk⟩

theorem mcondExp_some {key pay l : List XR} {M : ℕ} (h : Matlab.condExp key pay ((M : ℚ) / 20) = some l) : M % 40 = 0 := by
  unfold Matlab.condExp at h
  obtain ⟨y, hy, -⟩ := Option.bind_eq_some_iff.1 h
  obtain ⟨k, hk⟩ := mfftsmooth_some hy
  have : (M : ℚ) = ((40 * k : ℕ) : ℚ) := by
    push_cast
    rw [div_eq_iff (by norm_num)] at hk
    rw [hk]; ring
  have : M = 40 * k := by exact_mod_cast this
  omega

theorem mtail_some {p : CohortParam} {n szfs : ℕ} {LH face FH Ft : ℕ → ℕ → XR} {mu F : XR} {o : Matlab.Out}
    (h : Matlab.tail p n szfs LH face FH Ft mu F = some o) : 2 ≤ n := by
  unfold Matlab.tail at h
  by_contra hc
  simp only [if_pos (show n < 2 by omega)] at h
  cases h

/-- C159: the Matlab version of the one-cohort computation stops with an error unless the number of
observations `3 * Nsim2 * len(fs)` is a multiple of 40 and there are at least two simulations. -/
theorem C159_matlab_domain {solve : FSolve} {fs : List ℝ} {p : CohortParam} {N Nsim2 : ℕ} {w : Shocks} {o : Matlab.Out}
    (h : Matlab.single solve fs p N Nsim2 w = some o) : Nsim2 * (3 * fs.length) % 40 = 0 ∧ 2 ≤ Nsim2 := by
  unfold Matlab.single at h
  by_cases h1 : p.T = 0 ∨ N = 0
  · simp only [if_pos h1, bind, Option.bind] at h
    cases h
  by_cases h2 : w.rows = Nsim2
  swap
  · simp only [if_neg h1, ne_eq, h2, not_false_eq_true, if_true, bind, Option.bind, pure] at h
    cases h
  simp only [if_neg h1, ne_eq, h2, not_true_eq_false, if_false, bind, pure, Option.bind_some] at h
  obtain ⟨cN, -, h⟩ := Option.bind_eq_some_iff.1 h
  obtain ⟨cH, -, h⟩ := Option.bind_eq_some_iff.1 h
  obtain ⟨l, hl, h⟩ := Option.bind_eq_some_iff.1 h
  refine ⟨?_, mtail_some h⟩
  rw [← fs3_length]
  exact mcondExp_some hl

/-- C160: so does the Matlab version of the several-cohort computation -/
theorem C160_matlab_domain {solve : FSolve} {fs : List ℝ} {p : CohortParam} {N Nsim2 : ℕ} {w : Shocks} {o : Matlab.Out}
    (h : Matlab.multi solve fs p N Nsim2 w = some o) : Nsim2 * (3 * fs.length) % 40 = 0 ∧ 2 ≤ Nsim2 := by
  unfold Matlab.multi at h
  by_cases h1 : p.T = 0 ∨ N = 0
  · simp only [if_pos h1, bind, Option.bind] at h
    cases h
  have hN : 0 < N := by have := (not_or.1 h1).2; omega
  simp only [if_neg h1, bind, pure, Option.bind_some] at h
  by_cases h3 : (List.map (fun x => x / (N : ℝ)) (Matlab.down (p.H * ((N : ℝ) / p.T)) 0
      ++ Matlab.down ((N : ℝ) - 1) (p.H * ((N : ℝ) / p.T) + 1))).length ≠ N
  · rw [if_pos h3] at h
    cases h
  rw [if_neg h3] at h
  by_cases h4 : w.rows ≠ Nsim2
  · rw [if_pos h4] at h
    cases h
  rw [if_neg h4] at h
  obtain ⟨c3, -, h⟩ := Option.bind_eq_some_iff.1 h
  obtain ⟨cH, -, h⟩ := Option.bind_eq_some_iff.1 h
  obtain ⟨l, hl, h⟩ := Option.bind_eq_some_iff.1 h
  refine ⟨?_, mtail_some h⟩
  rw [← fs3_length]
  obtain ⟨m, rfl⟩ : ∃ m, N = m + 1 := ⟨N - 1, by omega⟩
  rw [List.range'_succ, List.mapM_cons] at hl
  obtain ⟨a, ha, -⟩ := Option.bind_eq_some_iff.1 hl
  exact mcondExp_some ha

/-- C159: Python accepts what Matlab does not: whenever `SingleInput` holds and the number of observations is
not a multiple of 40 (or there is one simulation), Python returns results and Matlab an error. -/
theorem C159_python_accepts_more {solve solve' : FSolve} {fs : List ℝ} {p : CohortParam} {N HN Nsim2 : ℕ} {w : Shocks}
    {mu : ℝ} (h : SingleInput fs p N HN Nsim2 w) (hmu : YieldFound solve p mu)
    (hbad : Nsim2 * (3 * fs.length) % 40 ≠ 0 ∨ Nsim2 < 2) :
    (∃ out, singleCohort solve fs p N Nsim2 w = .ok out) ∧ Matlab.single solve' fs p N Nsim2 w = none := by
  obtain ⟨out, ho, -⟩ := C91_single h hmu
  refine ⟨⟨out, ho⟩, ?_⟩
  cases hm : Matlab.single solve' fs p N Nsim2 w with
  | none => rfl
  | some o => have := C159_matlab_domain hm; omega

/-! ### Concrete cases -/

/-- a yield exists when the loan is worth less than its collateral net of payouts -/
theorem yield_exists {p : CohortParam} (hv : ValidParam p) (h : p.ltv < Real.exp (-p.d * p.T)) :
    ∃ mu, YieldSolved (fun _ _ => .fin mu) p mu := by
  have : p.bookF < Real.exp (ival p - p.d * p.T) := by
    rw [ival, sub_eq_add_neg, Real.exp_add, Real.exp_sub, Real.exp_log hv.bookF, Real.exp_log hv.ltv, ← neg_mul,
      div_mul_eq_mul_div, lt_div_iff₀ hv.ltv]
    exact mul_lt_mul_of_pos_left h hv.bookF
  obtain ⟨mu, hmu⟩ := (C111_promised_yield (r := p.r) hv.bookF hv.sig hv.T).1.2 this
  exact ⟨mu, rfl, hmu⟩

/-- loans at half the value of the collateral; factor volatility 10%, no drift of the log factor -/
def portParam : CohortParam :=
  { r := 0.02, T := 10, bookF := 0.5, H := 5, D := 0.4, rho := 0.25, ltv := 0.5, sig := 0.2, d := 0, y := 0, g := none }

def portShocks : Shocks := { rows := 40, cols := 30, at_ := fun i _ => i }

theorem portValid : ValidParam portParam := by
  constructor <;> norm_num [portParam]

theorem portSingle : SingleInput [0] portParam 10 5 40 portShocks := by
  refine ⟨portValid, by norm_num, by norm_num [portParam], by norm_num [portShocks], rfl, by norm_num [portShocks],
    by norm_num, by simp, by simp, by simp⟩

theorem portKey (i s : ℕ) : ∃ n : ℤ, -1 ≤ n ∧
    singleKey [0] portParam 10 5 portShocks i s = Real.exp (n / 100) * Real.exp 0.075 := by
  have hs : sigf portParam = 1 / 10 := by
    rw [sigf]
    have : (portParam.rho : ℝ) = (1 / 2) ^ 2 := by norm_num [portParam]
    rw [this, Real.sqrt_sq (by norm_num)]
    norm_num [portParam]
  have hb : ∃ b : ℤ, -1 ≤ b ∧ bump 1 s = b := by
    unfold bump
    split_ifs
    · exact ⟨0, by norm_num, by norm_num⟩
    · exact ⟨1, by norm_num, by norm_num⟩
    · exact ⟨-1, by norm_num, by norm_num⟩
  obtain ⟨b, hb1, hb2⟩ := hb
  refine ⟨50 * i + b, by omega, ?_⟩
  have hi : ival portParam = 0 := by simp [ival, portParam]
  have hf : fsAt [0] s = 0 := by
    unfold fsAt
    rcases s with _ | _ | _ | s <;> simp
  have hT : portParam.T / ((10 : ℕ) : ℝ) = 1 := by norm_num [portParam]
  have hl : logFactor portParam 10 portShocks i 0 5 = i / 2 := by
    unfold logFactor
    rw [hs, hT]
    simp only [portShocks, Real.sqrt_one, Finset.sum_const, Nat.card_Ico]
    norm_num [portParam]; ring
  unfold singleKey singleShock
  rw [hl, hi, hs, hf, show ([0] : List ℝ).length = 1 from rfl, hb2]
  congr 2
  · push_cast; ring
  · norm_num [portParam]

theorem portApart : KeysApart 40 (3 * ([0] : List ℝ).length) (singleKey [0] portParam 10 5 portShocks) := by
  intro i _ s _ i' _ s' _ hlt
  obtain ⟨n, hn, e⟩ := portKey i s
  obtain ⟨n', hn', e'⟩ := portKey i' s'
  rw [e, e'] at hlt ⊢
  have h75 : (1 : ℝ) ≤ Real.exp 0.075 := Real.one_le_exp (by norm_num)
  have hlt' : Real.exp ((n : ℝ) / 100) < Real.exp ((n' : ℝ) / 100) := lt_of_mul_lt_mul_right hlt (Real.exp_pos _).le
  rw [Real.exp_lt_exp] at hlt'
  have hnn : n + 1 ≤ n' := by
    have : (n : ℝ) < n' := by linarith
    exact_mod_cast this
  have hnr : (n : ℝ) + 1 ≤ n' := by exact_mod_cast hnn
  have hnl : (-1 : ℝ) ≤ n := by exact_mod_cast hn
  have h1 : Real.exp ((n' : ℝ) / 100) ≥ Real.exp ((n : ℝ) / 100) * Real.exp (1 / 100) := by
    rw [← Real.exp_add]; exact Real.exp_le_exp.2 (by linarith)
  have h2 : (1 : ℝ) / 100 + 1 ≤ Real.exp (1 / 100) := Real.add_one_le_exp _
  have h3 : (1 : ℝ) / 2 ≤ Real.exp ((n : ℝ) / 100) := by
    have := Real.add_one_le_exp ((n : ℝ) / 100); linarith
  have h4 : 1 / 200 ≤ Real.exp ((n' : ℝ) / 100) - Real.exp ((n : ℝ) / 100) := by nlinarith
  have h5 : 1 / 200 ≤ (Real.exp ((n' : ℝ) / 100) - Real.exp ((n : ℝ) / 100)) * Real.exp 0.075 := by nlinarith
  have : (1 : ℝ) / 10 ^ 9 < 1 / 200 := by norm_num
  nlinarith

example : ∃ mu out mout, YieldSolved (fun _ _ => .fin mu) portParam mu
    ∧ singleCohort (fun _ _ => .fin mu) [0] portParam 10 40 portShocks = .ok out
    ∧ Matlab.single (fun _ _ => .fin mu) [0] portParam 10 40 portShocks = some mout
    ∧ SameResults 40 1 out mout.re := by
  obtain ⟨mu, hmu⟩ := yield_exists portValid (by norm_num [portParam])
  obtain ⟨out, mout, h1, h2, h3, -⟩ := C159_single_port portSingle hmu hmu (by norm_num) (by norm_num) portApart
  exact ⟨mu, out, mout, hmu, h1, h2, h3⟩

/-- 14 simulations: Python smooths with a window of 2 observations, Matlab stops -/
example : (∃ out, singleCohort (fun _ _ => .fin 0.03) [0] portParam 10 14
      { rows := 14, cols := 10, at_ := fun i _ => i } = .ok out)
    ∧ Matlab.single (fun _ _ => .fin 0.03) [0] portParam 10 14 { rows := 14, cols := 10, at_ := fun i _ => i } = none :=
  C159_python_accepts_more (HN := 5) (mu := 0.03)
    ⟨portValid, by norm_num, by norm_num [portParam], by norm_num, rfl, by norm_num, by norm_num, by simp, by simp, by simp⟩
    rfl (Or.inl (by norm_num))

/-! ### How often ties occur -/

theorem cohortKey_bookF {fs : List ℝ} {p : CohortParam} {N HN : ℕ} {w : Shocks} {i j s : ℕ} (hl : 0 < p.ltv) {x : ℝ}
    (hx : 0 < x) : cohortKey fs { p with bookF := x } N HN w i j s
      = x * cohortKey fs { p with bookF := 1 } N HN w i j s := by
  have hi : Real.exp (ival { p with bookF := x }) = x * Real.exp (ival { p with bookF := 1 }) := by
    simp only [ival, Real.log_one, Real.exp_sub, Real.exp_log hx, Real.exp_log hl, Real.exp_zero]; ring
  have e1 : logFactor { p with bookF := x } N w = logFactor { p with bookF := 1 } N w := rfl
  have e2 : jensen { p with bookF := x } = jensen { p with bookF := 1 } := rfl
  have e3 : cohortDrift { p with bookF := x } = cohortDrift { p with bookF := 1 } := rfl
  have e4 : cohortShock fs { p with bookF := x } = cohortShock fs { p with bookF := 1 } := rfl
  unfold cohortKey
  rw [e1, e2, e3, e4]
  split_ifs <;> rw [Real.exp_add _ (ival _), Real.exp_add _ (ival _), hi] <;> ring

theorem cohortKey_pos {fs : List ℝ} {p : CohortParam} {N HN : ℕ} {w : Shocks} {i j s : ℕ} :
    0 < cohortKey fs p N HN w i j s := by
  unfold cohortKey jensen
  split_ifs <;> exact mul_pos (Real.exp_pos _) (Real.exp_pos _)

/-- C160: the tie that makes the two roundings differ occurs for at most countably many face values of the
loans: for all others the hypothesis on the keys holds. -/
theorem C160_ties_countable (fs : List ℝ) (p : CohortParam) (N HN Nsim2 : ℕ) (w : Shocks) (hl : 0 < p.ltv) :
    {x : ℝ | 0 < x ∧ ¬ ∀ j < N, NoTies Nsim2 (3 * fs.length)
      fun i s => cohortKey fs { p with bookF := x } N HN w i j s}.Countable := by
  refine Set.Countable.mono (s₂ := ⋃ (i : ℕ) (j : ℕ) (s : ℕ) (m : ℤ),
    {((m : ℝ) + 1 / 2) / (cohortKey fs { p with bookF := 1 } N HN w i j s * 10 ^ 9)}) ?_ ?_
  · rintro x ⟨hx, h⟩
    push Not at h
    obtain ⟨j, -, h⟩ := h
    unfold NoTies at h
    push Not at h
    obtain ⟨i, -, s, -, m, hm⟩ := h
    simp only [Set.mem_iUnion, Set.mem_singleton_iff]
    refine ⟨i, j, s, m, ?_⟩
    have hc : 0 < cohortKey fs { p with bookF := 1 } N HN w i j s := cohortKey_pos
    rw [eq_div_iff (by positivity), ← hm, cohortKey_bookF hl hx]; ring
  · exact Set.countable_iUnion fun i => Set.countable_iUnion fun j => Set.countable_iUnion fun s =>
      Set.countable_iUnion fun m => Set.countable_singleton _

/-- a case in which all hypotheses of `C160_multi_port` hold: the parameters above, with some face value
between 0.5 and 0.6 -/
theorem portMulti : ∃ x mu, 0.5 < x ∧ x < 0.6 ∧ YieldSolved (fun _ _ => .fin mu) { portParam with bookF := x } mu
    ∧ MultiInput [0] { portParam with bookF := x } 10 5 40 portShocks
    ∧ ∀ j < 10, NoTies 40 (3 * ([0] : List ℝ).length)
      fun i s => cohortKey [0] { portParam with bookF := x } 10 5 portShocks i j s := by
  have hc := C160_ties_countable [0] portParam 10 5 40 portShocks portValid.ltv
  have hu : ¬ (Set.Ioo (0.5 : ℝ) 0.6).Countable := by
    rw [← Cardinal.le_aleph0_iff_set_countable, Cardinal.mk_Ioo_real (by norm_num), not_le]
    exact Cardinal.cantor _
  obtain ⟨x, hx, hx'⟩ : ∃ x ∈ Set.Ioo (0.5 : ℝ) 0.6, ¬ (0 < x ∧ ¬ ∀ j < 10, NoTies 40 (3 * ([0] : List ℝ).length)
      fun i s => cohortKey [0] { portParam with bookF := x } 10 5 portShocks i j s) := by
    by_contra hcon
    push Not at hcon
    exact hu (hc.mono fun x hx => by have := hcon x hx; simpa using this)
  have hx0 : 0 < x := by have := hx.1; norm_num at this ⊢; linarith
  have hnt : ∀ j < 10, NoTies 40 (3 * ([0] : List ℝ).length)
      fun i s => cohortKey [0] { portParam with bookF := x } 10 5 portShocks i j s := by
    by_contra hcon; exact hx' ⟨hx0, hcon⟩
  have hv : ValidParam { portParam with bookF := x } :=
    ⟨hx0, portValid.ltv, portValid.sig, portValid.T, portValid.rho0, portValid.rho1⟩
  have hin : MultiInput [0] { portParam with bookF := x } 10 5 40 portShocks := by
    refine ⟨hv, by norm_num [portParam], by norm_num, rfl, by norm_num [portShocks], by norm_num, by simp, by simp, by simp⟩
  obtain ⟨mu, hmu⟩ := yield_exists hv (by norm_num [portParam])
  exact ⟨x, mu, hx.1, hx.2, hmu, hin, hnt⟩

example : ∃ x mu out mout, 0.5 < x ∧ x < 0.6 ∧ YieldSolved (fun _ _ => .fin mu) { portParam with bookF := x } mu
    ∧ multiCohort (fun _ _ => .fin mu) [0] { portParam with bookF := x } 10 40 portShocks = .ok out
    ∧ Matlab.multi (fun _ _ => .fin mu) [0] { portParam with bookF := x } 10 40 portShocks = some mout
    ∧ SameResults 40 1 out mout.re := by
  obtain ⟨x, mu, hx1, hx2, hmu, hin, hnt⟩ := portMulti
  obtain ⟨out, mout, h1, h2, h3, -⟩ := C160_multi_port hin hmu hmu (by norm_num) (by norm_num) hnt
  exact ⟨x, mu, out, mout, hx1, hx2, hmu, h1, h2, h3⟩

end
end Frds.Props

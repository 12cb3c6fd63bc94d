import Verif.Props.Cohort
import Verif.Lemmas.SmoothPos
import Verif.Props.MatlabDomain
import Mathlib.Analysis.Complex.ExponentialBounds

/-! Property C185: when the values computed by the cohort models are positive. -/
set_option linter.unusedSimpArgs false
namespace Frds.Props
noncomputable section
open Frds Frds.Model Frds.Spec Classical MeasureTheory Filter Topology

namespace LoanPositive

theorem sample_big {M : ℕ} (h0 : 20 ≤ M) (h : M / 20 % 2 = 0) : 40 ≤ M := by omega

/-- payoffs between a third of `F` and less than `F` have positive conditional expectations -/
theorem condMean_pos {m n : ℕ} (h20 : 20 ≤ m * n) (hev : m * n % 2 = 0) (hev2 : m * n / 20 % 2 = 0)
    (key : ℕ → ℕ → ℝ) {pay : ℕ → ℕ → ℝ} {F : ℝ} (h : ∀ i < m, ∀ s < n, F / 3 ≤ pay i s ∧ pay i s < F)
    {i s : ℕ} (hi : i < m) (hs : s < n) : 0 < condMean m n key pay i s := by
  have hm : 0 < m := by omega
  have hidx : ∀ i < m, ∀ s < n, i + m * s < m * n := by
    intro i hi s hs
    have : m * s + m ≤ m * n := by rw [← Nat.mul_succ]; exact Nat.mul_le_mul_left _ hs
    omega
  obtain ⟨q0, hq0, hmax⟩ := Finset.exists_max_image (Finset.range (m * n)) (fun q => pay (q % m) (q / m))
    ⟨0, Finset.mem_range.2 (by omega)⟩
  have hq0 := Finset.mem_range.1 hq0
  have ht := (h (q0 % m) (Nat.mod_lt _ hm) (q0 / m) (Nat.div_lt_of_lt_mul hq0)).2
  have hb := condMean_bound (lo := F / 3) (hi := pay (q0 % m) (q0 / m)) (sample_big h20 hev2) hev hev2 key (pay := pay)
    (fun i hi s hs => ⟨(h i hi s hs).1, by
      have := hmax _ (Finset.mem_range.2 (hidx i hi s hs))
      simp only [Nat.add_mul_mod_self_left, Nat.mod_eq_of_lt hi, Nat.add_mul_div_left _ _ hm, Nat.div_eq_of_lt hi,
        zero_add] at this
      exact this⟩) hi hs
  have := h i hi s hs
  linarith

/-- repayments of at least a third of what was promised give positive portfolio values -/
theorem single_pos {fs : List ℝ} {p : CohortParam} {N HN Nsim2 : ℕ} {w : Shocks} {mu : ℝ}
    (h : SingleInput fs p N HN Nsim2 w) (h20 : 20 ≤ Nsim2 * (3 * fs.length))
    (hpay : ∀ i < Nsim2, ∀ s < 3 * fs.length, p.bookF * Real.exp (mu * p.T) / 3 ≤ singlePay fs p N w mu i s)
    {i s : ℕ} (hi : i < Nsim2) (hs : s < 3 * fs.length) : 0 < singleLoan fs p N HN Nsim2 w mu i s := by
  have hv := h.valid
  have hF : 0 < p.bookF * Real.exp (mu * p.T) := mul_pos hv.bookF (Real.exp_pos _)
  refine mul_pos ?_ (Real.exp_pos _)
  exact condMean_pos h20 h.even h.window _ (fun i hi s hs => ⟨hpay i hi s hs, (expRepay_bounds hv hF).2⟩) hi hs

theorem multi_pos {fs : List ℝ} {p : CohortParam} {N HN Nsim2 : ℕ} {w : Shocks} {mu : ℝ}
    (h : MultiInput fs p N HN Nsim2 w) (h20 : 20 ≤ Nsim2 * (3 * fs.length))
    (hpay : ∀ j < N, ∀ i < Nsim2, ∀ s < 3 * fs.length, p.bookF * Real.exp (mu * p.T) / 3 ≤ cohortPay fs p N HN w mu i j s)
    {i s : ℕ} (hi : i < Nsim2) (hs : s < 3 * fs.length) : 0 < multiLoan fs p N HN Nsim2 w mu i s := by
  have hv := h.valid
  have hF : 0 < p.bookF * Real.exp (mu * p.T) := mul_pos hv.bookF (Real.exp_pos _)
  have hN : 0 < N := by have := h.horizon_lt; omega
  have hN' : (0 : ℝ) < N := by exact_mod_cast hN
  refine div_pos (Finset.sum_pos (fun j hj => mul_pos (mul_pos ?_ ?_) (Real.exp_pos _)) ⟨0, by simpa using hN⟩) hN'
  · refine condMean_pos h20 h.even h.window _ (fun i hi s hs => ⟨hpay j (Finset.mem_range.1 hj) i hi s hs, ?_⟩) hi hs
    unfold cohortPay
    split_ifs
    · exact (expRepay_bounds hv hF).2
    · exact (expRepay_bounds hv hF).2
  · unfold loanScale
    split_ifs
    · exact div_pos (expRepay_bounds hv hF).1 hv.bookF
    · norm_num

/-- a balance sheet with positive loan values has positive debt and equity and finite volatilities -/
structure AllPositive (n szfs : ℕ) (out : CohortOut) : Prop where
  LH : ∀ i < n, ∀ s < szfs, 0 < out.LH i s
  BH : ∀ i < n, ∀ s < szfs, 0 < out.BH i s
  EH : ∀ i < n, ∀ s < szfs, 0 < out.EH i s
  Lt : ∀ s < szfs, 0 < out.Lt s
  Bt : ∀ s < szfs, 0 < out.Bt s
  Et : ∀ s < szfs, 0 < out.Et s
  sigLt : ∀ s < szfs, ∃ v : ℝ, out.sigLt s = .fin v
  sigEt : ∀ s < szfs, ∃ v : ℝ, out.sigEt s = .fin v

theorem all_positive {p : CohortParam} {n szfs : ℕ} {L : ℕ → ℕ → ℝ} {out : CohortOut} (hn : 0 < n) (hD : 0 < p.D)
    (hy : 0 < p.y * p.H) (hb : BalanceSheet p n szfs L out) (hL : ∀ i < n, ∀ s < 3 * szfs, 0 < L i s) :
    AllPositive n szfs out := by
  have he : Real.exp (-p.y * p.H) < 1 := by
    rw [← Real.exp_zero]; exact Real.exp_lt_exp.2 (by linarith)
  have hB : ∀ i < n, ∀ s < 3 * szfs, 0 < min p.D (L i s * Real.exp (-p.y * p.H)) :=
    fun i hi s hs => lt_min hD (mul_pos (hL i hi s hs) (Real.exp_pos _))
  have hE : ∀ i < n, ∀ s < 3 * szfs, 0 < L i s - min p.D (L i s * Real.exp (-p.y * p.H)) := by
    intro i hi s hs
    have h1 := min_le_right p.D (L i s * Real.exp (-p.y * p.H))
    have h2 := mul_lt_mul_of_pos_left he (hL i hi s hs)
    linarith
  have hn' : (0 : ℝ) < n := by exact_mod_cast hn
  have hsum : ∀ (f : ℕ → ℝ), (∀ i < n, 0 < f i) → 0 < ∑ i ∈ Finset.range n, f i :=
    fun f hf => Finset.sum_pos (fun i hi => hf i (Finset.mem_range.1 hi)) ⟨0, by simpa using hn⟩
  have pos : ∀ {x : ℝ}, 0 < x → (0 : XR) < .fin x := fun h => by rw [XR.zero_def, XR.fin_lt]; exact h
  refine ⟨?_, ?_, ?_, ?_, ?_, ?_, ?_, ?_⟩
  · intro i hi s hs; rw [hb.LH i hi s hs]; exact pos (hL i hi s (by omega))
  · intro i hi s hs; rw [hb.BH i hi s hs]; exact pos (hB i hi s (by omega))
  · intro i hi s hs; rw [hb.EH i hi s hs]; exact pos (hE i hi s (by omega))
  · intro s hs; rw [hb.Lt s hs]
    exact pos (mul_pos (Real.exp_pos _) (div_pos (hsum _ fun i hi => hL i hi s (by omega)) hn'))
  · intro s hs; rw [hb.Bt s hs]
    exact pos (mul_pos (Real.exp_pos _) (div_pos (hsum _ fun i hi => hB i hi s (by omega)) hn'))
  · intro s hs; rw [hb.Et s hs]
    exact pos (mul_pos (Real.exp_pos _) (div_pos (hsum _ fun i hi => hE i hi s (by omega)) hn'))
  · intro s hs
    exact ⟨_, hb.sigLt s hs (hsum _ fun i hi => hL i hi _ (by omega)) (hsum _ fun i hi => hL i hi _ (by omega))⟩
  · intro s hs
    exact ⟨_, hb.sigEt s hs (hsum _ fun i hi => hE i hi _ (by omega)) (hsum _ fun i hi => hE i hi _ (by omega))⟩

/-! #### Limits of the expected repayment -/

theorem expRepay_mono {p : CohortParam} {F x x' : ℝ} (hF : 0 < F) (h : x ≤ x') : expRepay p F x ≤ expRepay p F x' := by
  unfold expRepay
  have hi : ∀ y : ℝ, Integrable (fun z => min (Real.exp (y + p.sig * Real.sqrt p.T * Real.sqrt (1 - p.rho) * z)) F) stdNormal := by
    intro y
    refine Integrable.of_bound (C := F) (by fun_prop) (Eventually.of_forall fun z => ?_)
    rw [Real.norm_of_nonneg (le_min (Real.exp_pos _).le hF.le)]
    exact min_le_right _ _
  exact integral_mono (hi x) (hi x') fun z => min_le_min_right _ (Real.exp_le_exp.2 (by linarith))

theorem expRepay_lim {p : CohortParam} {F : ℝ} (hF : 0 < F) {l : Filter ℝ} [l.IsCountablyGenerated] {c : ℝ}
    (h : ∀ z, Tendsto (fun x : ℝ => min (Real.exp (x + p.sig * Real.sqrt p.T * Real.sqrt (1 - p.rho) * z)) F) l (𝓝 c)) :
    Tendsto (fun x => expRepay p F x) l (𝓝 c) := by
  have e : c = ∫ _, c ∂stdNormal := by simp
  unfold expRepay
  conv => rhs; rw [e]
  refine tendsto_integral_filter_of_dominated_convergence (fun _ => F) (Eventually.of_forall fun x => by fun_prop)
    (Eventually.of_forall fun x => Eventually.of_forall fun z => ?_) (integrable_const F) (Eventually.of_forall h)
  rw [Real.norm_of_nonneg (le_min (Real.exp_pos _).le hF.le)]
  exact min_le_right _ _

theorem expRepay_top {p : CohortParam} {F : ℝ} (hF : 0 < F) : Tendsto (fun x => expRepay p F x) atTop (𝓝 F) := by
  refine expRepay_lim hF fun z => ?_
  have h := Real.tendsto_exp_atTop.comp (tendsto_atTop_add_const_right atTop
    (p.sig * Real.sqrt p.T * Real.sqrt (1 - p.rho) * z) tendsto_id)
  refine tendsto_const_nhds.congr' ?_
  filter_upwards [h.eventually_ge_atTop F] with x hx
  exact (min_eq_right hx).symm

theorem expRepay_bot {p : CohortParam} {F : ℝ} (hF : 0 < F) : Tendsto (fun x => expRepay p F x) atBot (𝓝 0) := by
  refine expRepay_lim hF fun z => ?_
  have h := Real.tendsto_exp_atBot.comp (tendsto_atBot_add_const_right atBot
    (p.sig * Real.sqrt p.T * Real.sqrt (1 - p.rho) * z) tendsto_id)
  have h2 := h.min (tendsto_const_nhds (x := F))
  rw [min_eq_left hF.le] at h2
  exact h2

/-! #### A smoothed value below zero -/

/-- the conditional expectation in terms of the ordered observations -/
theorem condMean_order {m n : ℕ} (hpos : 0 < m * n) (hev : m * n % 2 = 0) (hev2 : m * n / 20 % 2 = 0) (key pay : ℕ → ℕ → ℝ) :
    ∃ σ : ℕ → ℕ, (∀ t < m * n, σ t < m * n ∧ rank (fun q => Spec.round9 (key (q % m) (q / m))) (m * n) (σ t) = t)
      ∧ ∀ i < m, ∀ s < n, condMean m n key pay i s = smoothed (fun t => pay (σ t % m) (σ t / m)) (m * n) (m * n / 20)
        (rank (fun q => Spec.round9 (key (q % m) (q / m))) (m * n) (i + m * s)) := by
  set k : List ℝ := (List.range (m * n)).map fun q => Spec.round9 (key (q % m) (q / m)) with hk
  have hkl : k.length = m * n := by simp [hk]
  have hkey : (flatF m n fun i s => .fin (key i s)).map Model.round9 = k.map XR.fin := by
    rw [flatF, hk, List.map_map, List.map_map]; rfl
  have hrank : ∀ q < m * n, rankOf (k.map XR.fin) q
      = Spec.rank (fun q => Spec.round9 (key (q % m) (q / m))) (m * n) q := by
    intro q hq
    rw [rankOf_fin (by omega), hkl]
    unfold Spec.rank
    congr 1
    refine Finset.filter_congr fun q' hq' => ?_
    have hkf : ∀ q < m * n, k.getD q 0 = Spec.round9 (key (q % m) (q / m)) := by
      intro q hq
      rw [List.getD_eq_getElem _ _ (by omega)]
      simp [hk]
    dsimp only
    rw [hkf q hq, hkf q' (Finset.mem_range.1 hq')]
  have hσ : ∀ t < m * n, ∃ h : t < (argsortStable (k.map XR.fin)).length, (argsortStable (k.map XR.fin))[t] < m * n := by
    intro t ht
    have hta : t < (argsortStable (k.map XR.fin)).length := by rw [argsort_length]; simpa [hkl] using ht
    refine ⟨hta, ?_⟩
    have := argsort_lt (k.map XR.fin) (List.getElem_mem hta)
    simpa [hkl] using this
  refine ⟨fun t => (argsortStable (k.map XR.fin)).getD t 0, fun t ht => ?_, fun i hi s hs => ?_⟩
  · obtain ⟨hta, hlt⟩ := hσ t ht
    simp only [List.getD_eq_getElem _ _ hta]
    exact ⟨hlt, by rw [← hrank _ hlt]; exact rankOf_getElem _ hta⟩
  · have hq : i + m * s < m * n := by
      have : m * s + m ≤ m * n := by rw [← Nat.mul_succ]; exact Nat.mul_le_mul_left _ hs
      omega
    rw [← condMean_eq hpos hev2 hev key pay hq, hkey, hrank _ hq]
    refine smoothed_congr (by omega) fun t ht => ?_
    obtain ⟨hta, hlt⟩ := hσ t ht
    simp only [List.getD_eq_getElem _ _ hta]
    rw [List.getD_eq_getElem _ _ (by simpa using hlt)]
    simp only [List.getElem_map, List.getElem_range]

theorem rank_low {k : ℕ → ℝ} (h0 : ∀ q < 120, q % 40 < 2 → k q = 0) (h1 : ∀ q < 120, ¬ q % 40 < 2 → 0 < k q) {q : ℕ}
    (hq : q < 120) : (rank k 120 q < 6 ↔ q % 40 < 2) ∧ (q = 0 → rank k 120 q = 0) := by
  have hc : ((Finset.range 120).filter fun q => q % 40 < 2).card = 6 := by decide
  have hk : ∀ q < 120, 0 ≤ k q := fun q hq => by
    by_cases c : q % 40 < 2
    · exact (h0 q hq c).ge
    · exact (h1 q hq c).le
  unfold rank
  refine ⟨⟨fun h => ?_, fun h => ?_⟩, ?_⟩
  · by_contra c
    have hsub : ((Finset.range 120).filter fun q => q % 40 < 2)
        ⊆ (Finset.range 120).filter fun q' => k q' < k q ∨ (k q' = k q ∧ q' < q) := by
      intro q' hq'
      obtain ⟨a, b⟩ := Finset.mem_filter.1 hq'
      refine Finset.mem_filter.2 ⟨a, .inl ?_⟩
      rw [h0 q' (Finset.mem_range.1 a) b]; exact h1 q hq c
    have := Finset.card_le_card hsub
    omega
  · have hsub : ((Finset.range 120).filter fun q' => k q' < k q ∨ (k q' = k q ∧ q' < q))
        ⊂ (Finset.range 120).filter fun q => q % 40 < 2 := by
      refine Finset.ssubset_iff_subset_ne.2 ⟨fun q' hq' => ?_, fun he => ?_⟩
      · obtain ⟨a, b⟩ := Finset.mem_filter.1 hq'
        refine Finset.mem_filter.2 ⟨a, ?_⟩
        by_contra c
        have h3 := h1 q' (Finset.mem_range.1 a) c
        rw [h0 q hq h] at b
        rcases b with b | b
        · linarith
        · linarith [b.1]
      · have : q ∈ (Finset.range 120).filter fun q => q % 40 < 2 := Finset.mem_filter.2 ⟨Finset.mem_range.2 hq, h⟩
        rw [← he] at this
        rcases (Finset.mem_filter.1 this).2 with b | b
        · exact lt_irrefl _ b
        · exact absurd b.2 (lt_irrefl _)
    have := Finset.card_lt_card hsub
    omega
  · rintro rfl
    rw [Finset.card_eq_zero, Finset.filter_eq_empty_iff]
    intro q' hq' hc'
    have h3 := hk q' (Finset.mem_range.1 hq')
    rw [h0 0 (by norm_num) (by norm_num)] at hc'
    rcases hc' with b | b
    · linarith
    · exact absurd b.2 (by omega)

theorem smoothed_first (x : ℕ → ℝ) :
    smoothed x 120 6 0 = (x 1 + x 2 + x 3 + x 4 + x 5 + x 6) / 6 - (x 7 - x 1) / 2 := by
  have e1 : Finset.Ioc 0 6 = {1, 2, 3, 4, 5, 6} := by decide
  have e2 : Finset.Ioc 1 7 = {2, 3, 4, 5, 6, 7} := by decide
  unfold smoothed windowMean
  norm_num [e1, e2]
  ring

/-- in the first period, two of the forty paths fall and the others rise -/
def splitShocks (K : ℝ) : Shocks := { rows := 40, cols := 2, at_ := fun i c => if c = 0 then (if i < 2 then -K else K) else 0 }

theorem split_input (K : ℝ) : SingleInput [0] portParam 2 1 40 (splitShocks K) := by
  refine ⟨portValid, by norm_num, by norm_num [portParam], by norm_num [splitShocks], rfl, by norm_num [splitShocks],
    by norm_num, by simp, by simp, by simp⟩

theorem sigf_port : sigf portParam = 0.1 := by
  unfold sigf portParam
  rw [show (0.25 : ℝ) = 0.5 ^ 2 by norm_num, Real.sqrt_sq (by norm_num)]; norm_num

theorem ival_port : ival portParam = 0 := by unfold ival portParam; simp

theorem shock_port {s : ℕ} : singleShock [0] portParam s = 0.01 * bump 1 s := by
  unfold singleShock
  have : fsAt [0] s = 0 := by
    unfold fsAt
    rw [List.getD_eq_getElem?_getD]
    rcases s with _ | _ | _ | s <;> simp
  rw [this, sigf_port]
  norm_num

theorem bump_range (n s : ℕ) : -1 ≤ bump n s ∧ bump n s ≤ 1 := by
  unfold bump; split_ifs <;> norm_num

theorem factor_port (K : ℝ) (i : ℕ) : logFactor portParam 2 (splitShocks K) i 0 1
      = 0.1 * Real.sqrt 5 * (if i < 2 then -K else K)
    ∧ logFactor portParam 2 (splitShocks K) i 0 2 = 0.1 * Real.sqrt 5 * (if i < 2 then -K else K) := by
  unfold logFactor
  have e : (portParam.T / ((2 : ℕ) : ℝ)) = 5 := by norm_num [portParam]
  have e2 : portParam.r - portParam.d - portParam.sig ^ 2 / 2 = 0 := by norm_num [portParam]
  rw [e, e2, sigf_port]
  constructor
  · simp [splitShocks]
  · simp [splitShocks, Finset.sum_Ico_eq_sum_range, Finset.sum_range_succ]

theorem rint_small {x : ℝ} (h0 : 0 ≤ x) (h1 : x < 1 / 2) : Spec.round9 (x / 10 ^ 9) = 0 := by
  unfold Spec.round9
  rw [div_mul_cancel₀ _ (by norm_num)]
  have h := (C93_rounding x).1
  rw [abs_le] at h
  have h2 : (rint x : ℝ) < 1 := by linarith [h.2]
  have h3 : (-1 : ℝ) < (rint x : ℝ) := by linarith [h.1]
  have h2' : rint x < 1 := by exact_mod_cast h2
  have h3' : -1 < rint x := by exact_mod_cast h3
  have : rint x = 0 := by omega
  rw [this]; simp

theorem round_big {x : ℝ} (h : 1 ≤ x) : 0 < Spec.round9 x := by
  unfold Spec.round9
  have hr := (C93_rounding (x * 10 ^ 9)).1
  rw [abs_le] at hr
  refine div_pos ?_ (by norm_num)
  have : (1 : ℝ) * 10 ^ 9 ≤ x * 10 ^ 9 := mul_le_mul_of_nonneg_right h (by norm_num)
  norm_num at this hr ⊢
  have h1 := hr.1
  have h2 : (0 : ℝ) < (rint (x * 1000000000) : ℝ) := by linarith
  exact_mod_cast h2

/-- far enough apart, the first observation of the lower group gets a negative value -/
theorem split_negative (mu : ℝ) : ∃ K, singleLoan [0] portParam 2 1 40 (splitShocks K) mu 0 0 < 0 := by
  have hF : 0 < portParam.bookF * Real.exp (mu * portParam.T) := mul_pos portValid.bookF (Real.exp_pos _)
  set F := portParam.bookF * Real.exp (mu * portParam.T) with hFd
  have hv : (0 : ℝ) < 0.1 * Real.sqrt 5 := by positivity
  have up : Tendsto (fun K : ℝ => 0.1 * Real.sqrt 5 * K - 0.01) atTop atTop :=
    tendsto_atTop_add_const_right _ _ (tendsto_id.const_mul_atTop hv)
  have dn : Tendsto (fun K : ℝ => 0.1 * Real.sqrt 5 * -K + 0.01) atTop atBot :=
    tendsto_atBot_add_const_right _ _ (Tendsto.const_mul_atBot hv tendsto_neg_atTop_atBot)
  have c1 := ((expRepay_top (p := portParam) hF).comp up).eventually_const_lt (show 3 / 4 * F < F by linarith)
  have c2 := ((expRepay_bot (p := portParam) hF).comp dn).eventually_lt_const (show 0 < F / 20 by positivity)
  have c3 := ((Real.tendsto_exp_atBot.comp dn)).eventually_lt_const (show (0 : ℝ) < 1 / 10 ^ 10 by positivity)
  have c4 := up.eventually_ge_atTop 0
  obtain ⟨K, k1, k2, k3, k4⟩ := (c1.and (c2.and (c3.and c4))).exists
  simp only [Function.comp] at k1 k2 k3
  refine ⟨K, mul_neg_of_neg_of_pos ?_ (Real.exp_pos _)⟩
  have hJ : Real.exp ((1 - portParam.rho) * portParam.H * portParam.sig ^ 2 / 2) = Real.exp 0.075 := by
    norm_num [portParam]
  have hJ1 : 1 ≤ Real.exp 0.075 := Real.one_le_exp (by norm_num)
  have hJ2 : Real.exp 0.075 ≤ 3 := by
    have h1 : Real.exp 0.075 ≤ Real.exp 1 := Real.exp_le_exp.2 (by norm_num)
    have h2 := Real.exp_one_lt_d9
    linarith
  -- keys
  have key : ∀ i s, singleKey [0] portParam 2 1 (splitShocks K) i s
      = Real.exp (0.1 * Real.sqrt 5 * (if i < 2 then -K else K) + 0.01 * bump 1 s) * Real.exp 0.075 := by
    intro i s
    unfold singleKey
    rw [(factor_port K i).1, shock_port, ival_port, hJ, add_zero]
  have pay : ∀ i s, singlePay [0] portParam 2 (splitShocks K) mu i s
      = expRepay portParam F (0.1 * Real.sqrt 5 * (if i < 2 then -K else K) + 0.01 * bump 1 s) := by
    intro i s
    unfold singlePay
    rw [(factor_port K i).2, shock_port, ival_port, add_zero]
  have low : ∀ i s, i < 2 → singlePay [0] portParam 2 (splitShocks K) mu i s < F / 20 := by
    intro i s hi
    rw [pay, if_pos hi]
    refine (expRepay_mono hF ?_).trans_lt k2
    have := (bump_range 1 s).2
    linarith
  have high : ∀ i s, ¬ i < 2 → 3 / 4 * F < singlePay [0] portParam 2 (splitShocks K) mu i s := by
    intro i s hi
    rw [pay, if_neg hi]
    refine k1.trans_le (expRepay_mono hF ?_)
    have := (bump_range 1 s).1
    linarith
  have top : ∀ i s, singlePay [0] portParam 2 (splitShocks K) mu i s < F := fun i s => (expRepay_bounds portValid hF).2
  have klow : ∀ q < 120, q % 40 < 2 → Spec.round9 (singleKey [0] portParam 2 1 (splitShocks K) (q % 40) (q / 40)) = 0 := by
    intro q _ hq
    rw [key, if_pos hq]
    have hb := (bump_range 1 (q / 40)).2
    have hle : Real.exp (0.1 * Real.sqrt 5 * -K + 0.01 * bump 1 (q / 40)) ≤ Real.exp (0.1 * Real.sqrt 5 * -K + 0.01) :=
      Real.exp_le_exp.2 (by linarith)
    have hpos := Real.exp_pos (0.1 * Real.sqrt 5 * -K + 0.01 * bump 1 (q / 40))
    set e := Real.exp (0.1 * Real.sqrt 5 * -K + 0.01 * bump 1 (q / 40))
    have hlt : e < 1 / 10 ^ 10 := hle.trans_lt k3
    rw [show e * Real.exp 0.075 = e * Real.exp 0.075 * 10 ^ 9 / 10 ^ 9 by field_simp]
    refine rint_small (by positivity) ?_
    have : e * Real.exp 0.075 ≤ e * 3 := mul_le_mul_of_nonneg_left hJ2 hpos.le
    norm_num at hlt ⊢
    nlinarith
  have khigh : ∀ q < 120, ¬ q % 40 < 2 → 0 < Spec.round9 (singleKey [0] portParam 2 1 (splitShocks K) (q % 40) (q / 40)) := by
    intro q _ hq
    rw [key, if_neg hq]
    refine round_big ?_
    have hb := (bump_range 1 (q / 40)).1
    have : 1 ≤ Real.exp (0.1 * Real.sqrt 5 * K + 0.01 * bump 1 (q / 40)) := Real.one_le_exp (by linarith)
    nlinarith
  obtain ⟨σ, h1, h2⟩ := condMean_order (m := 40) (n := 3) (by norm_num) (by norm_num) (by norm_num)
    (singleKey [0] portParam 2 1 (splitShocks K)) (singlePay [0] portParam 2 (splitShocks K) mu)
  have hr := fun q hq => rank_low (k := fun q => Spec.round9 (singleKey [0] portParam 2 1 (splitShocks K) (q % 40) (q / 40)))
    klow khigh (q := q) hq
  have e0 := h2 0 (by norm_num) 0 (by norm_num)
  norm_num at e0 h1
  rw [(hr 0 (by norm_num)).2 rfl] at e0
  show condMean 40 3 _ _ 0 0 < 0
  rw [e0, smoothed_first]
  have xl : ∀ t < 6, singlePay [0] portParam 2 (splitShocks K) mu (σ t % 40) (σ t / 40) < F / 20 := by
    intro t ht
    obtain ⟨a, b⟩ := h1 t (by omega)
    exact low _ _ ((hr (σ t) a).1.1 (by rw [b]; exact ht))
  have xh : 3 / 4 * F < singlePay [0] portParam 2 (splitShocks K) mu (σ 7 % 40) (σ 7 / 40) := by
    obtain ⟨a, b⟩ := h1 7 (by norm_num)
    exact high _ _ fun c => by have := (hr (σ 7) a).1.2 c; rw [b] at this; omega
  have y1 := xl 1 (by norm_num); have y2 := xl 2 (by norm_num); have y3 := xl 3 (by norm_num)
  have y4 := xl 4 (by norm_num); have y5 := xl 5 (by norm_num)
  have y6 := top (σ 6 % 40) (σ 6 / 40)
  linarith

end LoanPositive

open LoanPositive

/-- C185: one cohort. When every expected repayment given the factor is at least a third of the promised amount, and there
are at least 20 observations, the loan portfolio, the debt and the equity of the bank are positive in every simulation and
state, and both volatilities are numbers in every state. -/
theorem C185_single {solve : FSolve} {fs : List ℝ} {p : CohortParam} {N HN Nsim2 : ℕ} {w : Shocks} {mu : ℝ}
    (h : SingleInput fs p N HN Nsim2 w) (hmu : YieldFound solve p mu) (h20 : 20 ≤ Nsim2 * (3 * fs.length)) (hD : 0 < p.D)
    (hy : 0 < p.y * p.H)
    (hpay : ∀ i < Nsim2, ∀ s < 3 * fs.length, p.bookF * Real.exp (mu * p.T) / 3 ≤ singlePay fs p N w mu i s) :
    ∃ out, singleCohort solve fs p N Nsim2 w = .ok out ∧ AllPositive Nsim2 fs.length out := by
  obtain ⟨out, h1, hb, -⟩ := C91_single h hmu
  exact ⟨out, h1, all_positive h.sims hD hy hb fun i hi s hs => single_pos h h20 hpay hi hs⟩

/-- C185: several cohorts, likewise -/
theorem C185_multi {solve : FSolve} {fs : List ℝ} {p : CohortParam} {N HN Nsim2 : ℕ} {w : Shocks} {mu : ℝ}
    (h : MultiInput fs p N HN Nsim2 w) (hmu : YieldFound solve p mu) (h20 : 20 ≤ Nsim2 * (3 * fs.length)) (hD : 0 < p.D)
    (hy : 0 < p.y * p.H)
    (hpay : ∀ j < N, ∀ i < Nsim2, ∀ s < 3 * fs.length,
      p.bookF * Real.exp (mu * p.T) / 3 ≤ cohortPay fs p N HN w mu i j s) :
    ∃ out, multiCohort solve fs p N Nsim2 w = .ok out ∧ AllPositive Nsim2 fs.length out := by
  obtain ⟨out, h1, hb, -⟩ := C91_multi h hmu
  exact ⟨out, h1, all_positive h.sims hD hy hb fun i hi s hs => multi_pos h h20 hpay hi hs⟩

/-- C185: without the bound on the repayments this fails, although all repayments are positive: there are an accepted
input and a solver returning the exact promised yield for which the value of the loan portfolio, and with it the value of
the debt, is negative. -/
theorem C185_negative : ∃ (w : Shocks) (mu : ℝ) (out : CohortOut), YieldSolved (fun _ _ => .fin mu) portParam mu
    ∧ SingleInput [0] portParam 2 1 40 w ∧ (∀ i s, 0 < singlePay [0] portParam 2 w mu i s)
    ∧ singleCohort (fun _ _ => .fin mu) [0] portParam 2 40 w = .ok out ∧ out.LH 0 0 < 0 ∧ out.BH 0 0 < 0 := by
  obtain ⟨mu, hmu⟩ := yield_exists portValid (by norm_num [portParam])
  obtain ⟨K, hK⟩ := split_negative mu
  obtain ⟨out, h1, hb, -⟩ := C91_single (split_input K) hmu.1
  have hF : 0 < portParam.bookF * Real.exp (mu * portParam.T) := mul_pos portValid.bookF (Real.exp_pos _)
  refine ⟨splitShocks K, mu, out, hmu, split_input K, fun i s => (expRepay_bounds portValid hF).1, h1, ?_, ?_⟩
  · rw [hb.LH 0 (by norm_num) 0 (by norm_num), XR.zero_def, XR.fin_lt]; exact hK
  · rw [hb.BH 0 (by norm_num) 0 (by norm_num), XR.zero_def, XR.fin_lt]
    exact (min_le_right _ _).trans_lt (mul_neg_of_neg_of_pos hK (Real.exp_pos _))

/-! #### A case in which the bound holds: the same large shock in every simulation and step -/

namespace LoanPositive

/-- every shock equals `C` -/
def constShocks (n c : ℕ) (C : ℝ) : Shocks := { rows := n, cols := c, at_ := fun _ _ => C }

theorem sigf_pos {p : CohortParam} (hv : ValidParam p) (hr : 0 < p.rho) : 0 < sigf p :=
  mul_pos (Real.sqrt_pos.2 hr) hv.sig

theorem logFactor_const {p : CohortParam} {N n c i a b : ℕ} (C : ℝ) : logFactor p N (constShocks n c C) i a b
    = ((b - a : ℕ) : ℝ) * ((p.r - p.d - p.sig ^ 2 / 2) * (p.T / N)) + ((b - a : ℕ) : ℝ) * (sigf p * Real.sqrt (p.T / N)) * C := by
  unfold logFactor constShocks
  simp only [Finset.sum_const, Nat.card_Ico, nsmul_eq_mul]
  ring

theorem affine_top {a b : ℝ} (hb : 0 < b) : Tendsto (fun C : ℝ => a + b * C) atTop atTop :=
  tendsto_atTop_add_const_left _ _ (tendsto_id.const_mul_atTop hb)

/-- with one large shock everywhere every repayment exceeds any fraction of what was promised, if the loan maturing at `t`
itself (cohort 0 of a zero horizon) is not there -/
theorem const_pay {fs : List ℝ} {p : CohortParam} {N HN n c : ℕ} {mu : ℝ} (hv : ValidParam p) (hr : 0 < p.rho) (hN : 0 < N)
    (hH : 0 < HN) : ∀ᶠ C in atTop, ∀ j < N, ∀ i < n, ∀ s < 3 * fs.length,
      p.bookF * Real.exp (mu * p.T) / 3 ≤ cohortPay fs p N HN (constShocks n c C) mu i j s := by
  have hF : 0 < p.bookF * Real.exp (mu * p.T) := mul_pos hv.bookF (Real.exp_pos _)
  have hN' : (0 : ℝ) < N := by exact_mod_cast hN
  have hs : 0 < sigf p * Real.sqrt (p.T / N) := mul_pos (sigf_pos hv hr) (Real.sqrt_pos.2 (div_pos hv.T hN'))
  have one : ∀ j s : ℕ, ∀ᶠ C in atTop, ∀ i < n,
      p.bookF * Real.exp (mu * p.T) / 3 ≤ cohortPay fs p N HN (constShocks n c C) mu i j s := by
    intro j s
    by_cases hj : j < HN
    · have up : Tendsto (fun C : ℝ => (N : ℝ) * ((p.r - p.d - p.sig ^ 2 / 2) * (p.T / N)) + ival p
          + (N : ℝ) * (sigf p * Real.sqrt (p.T / N)) * C) atTop atTop := affine_top (mul_pos hN' hs)
      filter_upwards [((expRepay_top (p := p) hF).comp up).eventually_const_lt (show p.bookF * Real.exp (mu * p.T) / 3 < p.bookF * Real.exp (mu * p.T) by linarith)] with C hC i _
      unfold cohortPay
      rw [if_pos hj, logFactor_const, show 2 * N + j - (N + j) = N by omega]
      refine le_of_lt (hC.trans_eq ?_)
      simp only [Function.comp]
      congr 1; ring
    · have hj' : (0 : ℝ) < j := by exact_mod_cast (by omega : 0 < j)
      have up : Tendsto (fun C : ℝ => cohortDrift p N j + (j : ℝ) * ((p.r - p.d - p.sig ^ 2 / 2) * (p.T / N))
          + cohortShock fs p N j s + ival p + (j : ℝ) * (sigf p * Real.sqrt (p.T / N)) * C) atTop atTop :=
        affine_top (mul_pos hj' hs)
      filter_upwards [((expRepay_top (p := p) hF).comp up).eventually_const_lt (show p.bookF * Real.exp (mu * p.T) / 3 < p.bookF * Real.exp (mu * p.T) by linarith)] with C hC i _
      unfold cohortPay firstPay
      rw [if_neg hj, logFactor_const, show N + j - N = j by omega]
      refine le_of_lt (hC.trans_eq ?_)
      simp only [Function.comp]
      congr 1; ring
  have all := (Finset.range N).eventually_all.2 fun j _ => (Finset.range (3 * fs.length)).eventually_all.2 fun s _ => one j s
  filter_upwards [all] with C hC j hj i hi s hs
  exact hC j (Finset.mem_range.2 hj) s (Finset.mem_range.2 hs) i hi

theorem const_pay_single {fs : List ℝ} {p : CohortParam} {N n c : ℕ} {mu : ℝ} (hv : ValidParam p) (hr : 0 < p.rho)
    (hN : 0 < N) : ∀ᶠ C in atTop, ∀ i < n, ∀ s < 3 * fs.length,
      p.bookF * Real.exp (mu * p.T) / 3 ≤ singlePay fs p N (constShocks n c C) mu i s := by
  have hF : 0 < p.bookF * Real.exp (mu * p.T) := mul_pos hv.bookF (Real.exp_pos _)
  have hN' : (0 : ℝ) < N := by exact_mod_cast hN
  have hs : 0 < sigf p * Real.sqrt (p.T / N) := mul_pos (sigf_pos hv hr) (Real.sqrt_pos.2 (div_pos hv.T hN'))
  have one : ∀ s : ℕ, ∀ᶠ C in atTop, ∀ i < n,
      p.bookF * Real.exp (mu * p.T) / 3 ≤ singlePay fs p N (constShocks n c C) mu i s := by
    intro s
    have up : Tendsto (fun C : ℝ => (N : ℝ) * ((p.r - p.d - p.sig ^ 2 / 2) * (p.T / N)) + singleShock fs p s + ival p
        + (N : ℝ) * (sigf p * Real.sqrt (p.T / N)) * C) atTop atTop := affine_top (mul_pos hN' hs)
    filter_upwards [((expRepay_top (p := p) hF).comp up).eventually_const_lt
      (show p.bookF * Real.exp (mu * p.T) / 3 < p.bookF * Real.exp (mu * p.T) by linarith)] with C hC i _
    unfold singlePay
    rw [logFactor_const, Nat.sub_zero]
    refine le_of_lt (hC.trans_eq ?_)
    simp only [Function.comp]
    congr 1; ring
  filter_upwards [(Finset.range (3 * fs.length)).eventually_all.2 fun s _ => one s] with C hC i hi s hs
  exact hC s (Finset.mem_range.2 hs) i hi

end LoanPositive

/-- the hypotheses of `C185_single` are met with a large constant shock -/
example : ∃ (C : ℝ) (out : CohortOut),
    singleCohort (fun _ _ => .fin 0.03) [0] { portParam with y := 0.01 } 10 40 (constShocks 40 30 C) = .ok out
    ∧ AllPositive 40 1 out := by
  have hv : ValidParam { portParam with y := 0.01 } := by constructor <;> norm_num [portParam]
  obtain ⟨C, hC⟩ := (const_pay_single (fs := [0]) (p := { portParam with y := 0.01 }) (N := 10) (n := 40) (c := 30)
    (mu := 0.03) hv (by norm_num [portParam]) (by norm_num)).exists
  have h : SingleInput [0] { portParam with y := 0.01 } 10 5 40 (constShocks 40 30 C) :=
    ⟨hv, by norm_num, by norm_num [portParam], by norm_num [constShocks], rfl, by norm_num [constShocks], by norm_num,
      by simp, by simp, by simp⟩
  obtain ⟨out, h1, h2⟩ := C185_single (solve := fun _ _ => .fin 0.03) h rfl (by norm_num) (by norm_num [portParam])
    (by norm_num [portParam]) hC
  exact ⟨C, out, h1, h2⟩

/-- the hypotheses of `C185_multi` are met with a large constant shock -/
example : ∃ (C : ℝ) (out : CohortOut), multiCohort (fun _ _ => .fin 0.03) [0] { portParam with y := 0.01 } 10 40 (constShocks 40 30 C) = .ok out
    ∧ AllPositive 40 1 out := by
  have hv : ValidParam { portParam with y := 0.01 } := by constructor <;> norm_num [portParam]
  obtain ⟨C, hC⟩ := (const_pay (fs := [0]) (p := { portParam with y := 0.01 }) (N := 10) (HN := 5) (n := 40) (c := 30) (mu := 0.03) hv (by norm_num [portParam])
    (by norm_num) (by norm_num)).exists
  have h : MultiInput [0] { portParam with y := 0.01 } 10 5 40 (constShocks 40 30 C) :=
    ⟨hv, by norm_num [portParam], by norm_num, rfl, by simp [constShocks], by norm_num, by simp, by simp, by simp⟩
  obtain ⟨out, h1, h2⟩ := C185_multi (solve := fun _ _ => .fin 0.03) h rfl (by norm_num) (by norm_num [portParam]) (by norm_num [portParam]) hC
  exact ⟨C, out, h1, h2⟩

end
end Frds.Props

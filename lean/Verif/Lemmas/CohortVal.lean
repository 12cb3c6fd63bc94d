import Verif.Lemmas.Cohort
import Verif.Props.Merton

/-! Evaluation of the cohort computations on valid parameters: everything is finite. -/
set_option linter.unusedSimpArgs false
namespace Frds.Model
noncomputable section
open Frds Classical Finset Frds.Spec Frds.Props

theorem half_sci : (0.5 : XR) = .fin (1 / 2) := by rw [XR.ofSci_def]; norm_num

theorem cumPath_fin {step : ℕ → XR} {g : ℕ → ℝ} (h : ∀ c, step c = .fin (g c)) (c : ℕ) :
    cumPath step c = .fin (∑ a ∈ Finset.range c, g a) := by
  induction c with
  | zero => rfl
  | succ c ih => rw [cumPath, ih, h, XR.fin_add, Finset.sum_range_succ]

theorem factorStep_fin {p : CohortParam} {N : ℕ} (hv : ValidParam p) (hN : 0 < N) (w : Shocks) (i c : ℕ) :
    factorStep p N w i c = .fin ((p.r - p.d - p.sig ^ 2 / 2) * (p.T / N) + sigf p * Real.sqrt (p.T / N) * w.at_ i c) := by
  have hN' : (N : ℝ) ≠ 0 := by positivity
  have hTN : 0 ≤ p.T / N := div_nonneg hv.T.le (by positivity)
  unfold factorStep sigf
  rw [half_sci, XR.fin_div _ hN', XR.fin_sqrt hv.rho0, XR.fin_sqrt hTN]
  simp only [XR.fin_sub, XR.fin_mul, XR.fin_sq, XR.fin_add, XR.fin_inj]
  ring

theorem removedStep_fin {p : CohortParam} {N : ℕ} (hv : ValidParam p) (hN : 0 < N) (w : Shocks) (i c : ℕ) :
    removedStep p N w i c = .fin (-(p.rho * p.sig ^ 2 / 2) * (p.T / N) + sigf p * Real.sqrt (p.T / N) * w.at_ i c) := by
  have hN' : (N : ℝ) ≠ 0 := by positivity
  have hTN : 0 ≤ p.T / N := div_nonneg hv.T.le (by positivity)
  unfold removedStep sigf
  rw [half_sci, XR.fin_div _ hN', XR.fin_sqrt hv.rho0, XR.fin_sqrt hTN]
  simp only [XR.fin_sub, XR.fin_mul, XR.fin_sq, XR.fin_add, XR.fin_neg, XR.fin_inj]
  ring

theorem factorPath_fin {p : CohortParam} {N : ℕ} (hv : ValidParam p) (hN : 0 < N) (w : Shocks) (i c : ℕ) :
    cumPath (factorStep p N w i) c = .fin (logFactor p N w i 0 c) := by
  rw [cumPath_fin (factorStep_fin hv hN w i), logFactor, Finset.range_eq_Ico]

theorem ival_fin {p : CohortParam} (hv : ValidParam p) :
    XR.log (.fin p.bookF) - XR.log (.fin p.ltv) = .fin (ival p) := by
  rw [XR.fin_log hv.bookF, XR.fin_log hv.ltv, XR.fin_sub, ival]

theorem sigf_fin {p : CohortParam} (hv : ValidParam p) : XR.sqrt (.fin p.rho) * .fin p.sig = .fin (sigf p) := by
  rw [XR.fin_sqrt hv.rho0, XR.fin_mul, sigf]

theorem shiftBlock_fin (szfs s : ℕ) : shiftBlock szfs s = .fin (bump szfs s) := by
  unfold shiftBlock bump
  split_ifs
  · rfl
  · rfl
  · rw [XR.one_def, XR.fin_neg]

theorem loanPayoff_repay {p : CohortParam} (hv : ValidParam p) {F f a : ℝ} (hF : 0 < F) :
    loanPayoff (.fin F) (.fin f) (.fin a) (.fin p.rho) (.fin p.sig) (.fin p.T) = .fin (expRepay p F (f + a)) :=
  C88_expected_repayment hF hv.rho1 hv.sig hv.T

theorem expRepay_bounds {p : CohortParam} (hv : ValidParam p) {F x : ℝ} (hF : 0 < F) :
    0 < expRepay p F x ∧ expRepay p F x < F := by
  obtain ⟨v, h, h0, h1, _⟩ := C88_bounds (F := F) (f := x) (ival := 0) hF hv.rho1 hv.sig hv.T
  rw [loanPayoff_repay hv hF, XR.fin_inj, add_zero] at h
  rw [h]; exact ⟨h0, h1⟩

theorem promised_fin {solve : FSolve} {p : CohortParam} {a : XR} {mu : ℝ} (h : (promised solve p a).1 = .fin mu) :
    (promised solve p a).2 = .fin (p.bookF * Real.exp (mu * p.T)) := by
  have : (promised solve p a).2 = .fin p.bookF * XR.exp ((promised solve p a).1 * .fin p.T) := rfl
  rw [this, h]; rfl

theorem meanRows_fin {n : ℕ} (hn : 0 < n) {a : ℕ → ℕ → XR} {g : ℕ → ℕ → ℝ} {s : ℕ}
    (h : ∀ i < n, a i s = .fin (g i s)) : meanRows n a s = .fin ((∑ i ∈ Finset.range n, g i s) / n) := by
  have e : (List.range n).map (fun i => a i s) = (List.range n).map fun i => XR.fin (g i s) :=
    List.map_congr_left fun i hi => h i (List.mem_range.1 hi)
  have hn' : (n : ℝ) ≠ 0 := by positivity
  rw [meanRows, e, Np.mean, XR.sum_fin, List.length_map, List.length_range, XR.fin_div _ hn']
  rfl

/-- the end of both computations -/
theorem bankTail_sheet {p : CohortParam} {n szfs : ℕ} (hn : 0 < n) {LH face FH Ft : ℕ → ℕ → XR} {mu F : XR}
    {L : ℕ → ℕ → ℝ} (h : ∀ i < n, ∀ s < 3 * szfs, LH i s = .fin (L i s)) :
    BalanceSheet p n szfs L (bankTail p n szfs LH face FH Ft mu F) := by
  have hey : XR.exp (-XR.fin p.y * .fin p.H) = .fin (Real.exp (-p.y * p.H)) := rfl
  have hdi : XR.exp (-XR.fin p.r * .fin p.H) = .fin (Real.exp (-p.r * p.H)) := rfl
  have hB : ∀ i < n, ∀ s < 3 * szfs, XR.npMin (.fin p.D) (LH i s * XR.exp (-.fin p.y * .fin p.H))
      = .fin (min p.D (L i s * Real.exp (-p.y * p.H))) := by
    intro i hi s hs
    rw [h i hi s hs, hey, XR.fin_mul, XR.npMin_fin]
  have hd : ∀ i < n, ∀ s < 3 * szfs,
      (if LH i s * XR.exp (-.fin p.y * .fin p.H) - XR.npMin (.fin p.D) (LH i s * XR.exp (-.fin p.y * .fin p.H)) > 0
        then (0 : XR) else 1) = .fin (if L i s * Real.exp (-p.y * p.H) ≤ p.D then 1 else 0) := by
    intro i hi s hs
    rw [hB i hi s hs, h i hi s hs, hey, XR.fin_mul, XR.fin_sub, XR.zero_def, gt_iff_lt, XR.fin_lt]
    by_cases hc : L i s * Real.exp (-p.y * p.H) ≤ p.D
    · rw [if_neg (by rw [min_eq_right hc]; simp), if_pos hc]; rfl
    · rw [if_pos (by rw [min_eq_left (not_le.1 hc).le]; linarith [not_le.1 hc]), if_neg hc]
  have hLt : ∀ s < 3 * szfs, (bankTail p n szfs LH face FH Ft mu F).Lt s
      = .fin (Real.exp (-p.r * p.H) * ((∑ i ∈ Finset.range n, L i s) / n)) := by
    intro s hs
    show meanRows n LH s * XR.exp (-.fin p.r * .fin p.H) = _
    rw [meanRows_fin hn fun i hi => h i hi s hs, hdi, XR.fin_mul, mul_comm]
  have hEt : ∀ s < 3 * szfs, (bankTail p n szfs LH face FH Ft mu F).Et s
      = .fin (Real.exp (-p.r * p.H) * ((∑ i ∈ Finset.range n, (L i s - min p.D (L i s * Real.exp (-p.y * p.H)))) / n)) := by
    intro s hs
    show meanRows n (fun i s => LH i s - XR.npMin (.fin p.D) (LH i s * XR.exp (-.fin p.y * .fin p.H))) s
      * XR.exp (-.fin p.r * .fin p.H) = _
    rw [meanRows_fin (g := fun i s => L i s - min p.D (L i s * Real.exp (-p.y * p.H))) hn
      fun i hi => by rw [hB i hi s hs, h i hi s hs, XR.fin_sub], hdi, XR.fin_mul, mul_comm]
  refine ⟨fun i hi s hs => h i hi s (by omega), fun i hi s hs => hB i hi s (by omega), ?_,
    fun i hi s hs => hd i hi s (by omega), fun s hs => hLt s (by omega), ?_, fun s hs => hEt s (by omega), ?_, ?_, ?_, ?_⟩
  · intro i hi s hs
    show LH i s - XR.npMin (.fin p.D) (LH i s * XR.exp (-.fin p.y * .fin p.H)) = _
    rw [hB i hi s (by omega), h i hi s (by omega), XR.fin_sub]
  · intro s hs
    show meanRows n (fun i s => XR.npMin (.fin p.D) (LH i s * XR.exp (-.fin p.y * .fin p.H))) s
      * XR.exp (-.fin p.r * .fin p.H) = _
    rw [meanRows_fin (g := fun i s => min p.D (L i s * Real.exp (-p.y * p.H))) hn
      fun i hi => hB i hi s (by omega), hdi, XR.fin_mul, mul_comm]
  · intro s hs
    show meanRows n (fun i s => .fin (p.g.getD 0) * XR.npMax (.fin p.D - LH i s * XR.exp (-.fin p.y * .fin p.H)) 0) s
      * XR.exp (-.fin p.r * .fin p.H) = _
    rw [meanRows_fin (g := fun i s => p.g.getD 0 * max (p.D - L i s * Real.exp (-p.y * p.H)) 0) hn
      fun i hi => by
        rw [h i hi s (by omega), hey, XR.fin_mul, XR.fin_sub, XR.zero_def, XR.npMax_fin, XR.fin_mul],
      hdi, XR.fin_mul, mul_comm]
  · intro s hs
    show meanRows n (fun i s => if LH i s * XR.exp (-.fin p.y * .fin p.H)
      - XR.npMin (.fin p.D) (LH i s * XR.exp (-.fin p.y * .fin p.H)) > 0 then (0 : XR) else 1) s = _
    rw [meanRows_fin (g := fun i s => if L i s * Real.exp (-p.y * p.H) ≤ p.D then 1 else 0) hn
      fun i hi => hd i hi s (by omega)]
    congr 2
    rw [Finset.sum_boole]
  · intro s hs h1 h2
    show (10 / 2) * (XR.log ((bankTail p n szfs LH face FH Ft mu F).Lt (szfs + s))
      - XR.log ((bankTail p n szfs LH face FH Ft mu F).Lt (2 * szfs + s))) = _
    have hn' : (0 : ℝ) < n := by exact_mod_cast hn
    have he := Real.exp_pos (-p.r * p.H)
    rw [hLt _ (by omega), hLt _ (by omega), XR.fin_log (mul_pos he (div_pos h1 hn')),
      XR.fin_log (mul_pos he (div_pos h2 hn')), XR.fin_sub, XR.ofNat_def, XR.ofNat_def,
      XR.fin_div _ (by norm_num : (OfNat.ofNat 2 : ℝ) ≠ 0), XR.fin_mul, ← Real.log_div (by positivity) (by positivity)]
    congr 1
    have e1 : ((OfNat.ofNat 10 : ℝ) / OfNat.ofNat 2) = 5 := by norm_num
    rw [e1]
    congr 2
    rw [mul_div_mul_left _ _ he.ne', div_div_div_cancel_right₀ hn'.ne']
  · intro s hs h1 h2
    show (10 / 2) * (XR.log ((bankTail p n szfs LH face FH Ft mu F).Et (szfs + s))
      - XR.log ((bankTail p n szfs LH face FH Ft mu F).Et (2 * szfs + s))) = _
    have hn' : (0 : ℝ) < n := by exact_mod_cast hn
    have he := Real.exp_pos (-p.r * p.H)
    rw [hEt _ (by omega), hEt _ (by omega), XR.fin_log (mul_pos he (div_pos h1 hn')),
      XR.fin_log (mul_pos he (div_pos h2 hn')), XR.fin_sub, XR.ofNat_def, XR.ofNat_def,
      XR.fin_div _ (by norm_num : (OfNat.ofNat 2 : ℝ) ≠ 0), XR.fin_mul, ← Real.log_div (by positivity) (by positivity)]
    congr 1
    have e1 : ((OfNat.ofNat 10 : ℝ) / OfNat.ofNat 2) = 5 := by norm_num
    rw [e1]
    congr 2
    rw [mul_div_mul_left _ _ he.ne', div_div_div_cancel_right₀ hn'.ne']

theorem mem_flat {m n q : ℕ} (hq : q < m * n) : q % m < m ∧ q / m < n := by
  have hm : 0 < m := by
    rcases Nat.eq_zero_or_pos m with h | h
    · subst h; simp at hq
    · exact h
  exact ⟨Nat.mod_lt _ hm, (Nat.div_lt_iff_lt_mul hm).2 (by rwa [mul_comm] at hq)⟩

theorem flatF_fin {m n : ℕ} {a : ℕ → ℕ → XR} {g : ℕ → ℕ → ℝ} (h : ∀ i < m, ∀ s < n, a i s = .fin (g i s)) :
    flatF m n a = ((List.range (m * n)).map fun q => g (q % m) (q / m)).map XR.fin := by
  unfold flatF
  rw [List.map_map]
  refine List.map_congr_left fun q hq => ?_
  obtain ⟨h1, h2⟩ := mem_flat (List.mem_range.1 hq)
  exact h _ h1 _ h2

theorem round9_fin (x : ℝ) : Model.round9 (.fin x) = .fin (Spec.round9 x) := rfl

theorem smoothed_congr {f g : ℕ → ℝ} {n w t : ℕ} (hw : w + 2 ≤ n) (h : ∀ i < n, f i = g i) :
    smoothed f n w t = smoothed g n w t := by
  have hwm : ∀ s, w / 2 ≤ s → s + w / 2 < n → windowMean f w s = windowMean g w s := by
    intro s h1 h2
    unfold windowMean
    congr 1
    refine Finset.sum_congr rfl fun i hi => h i ?_
    have := (Finset.mem_Ioc.1 hi).2
    omega
  unfold smoothed
  simp only
  rw [hwm _ le_rfl (by omega), hwm _ (by omega) (by omega), hwm (n - w / 2 - 1) (by omega) (by omega),
    hwm (n - w / 2 - 1 - 1) (by omega) (by omega)]
  split_ifs with c1 c2
  · rfl
  · exact hwm _ (by omega) (by omega)
  · rfl

theorem condMean_eq {m n : ℕ} (hpos : 0 < m * n) (hev2 : m * n / 20 % 2 = 0) (hev : m * n % 2 = 0)
    (key pay : ℕ → ℕ → ℝ) {i s : ℕ} (hq : i + m * s < m * n) :
    smoothed (fun t => ((List.range (m * n)).map fun q => pay (q % m) (q / m)).getD
      ((argsortStable ((flatF m n fun i s => .fin (key i s)).map Model.round9)).getD t 0) 0) (m * n) (m * n / 20)
      (rankOf ((flatF m n fun i s => .fin (key i s)).map Model.round9) (i + m * s)) = condMean m n key pay i s := by
  set k : List ℝ := (List.range (m * n)).map fun q => Spec.round9 (key (q % m) (q / m)) with hk
  have hkl : k.length = m * n := by simp [hk]
  have hkey : (flatF m n fun i s => .fin (key i s)).map Model.round9 = k.map XR.fin := by
    rw [flatF, hk, List.map_map, List.map_map]; rfl
  have hkf : ∀ q < m * n, k.getD q 0 = Spec.round9 (key (q % m) (q / m)) := by
    intro q hq
    rw [List.getD_eq_getElem _ _ (by omega)]
    simp [hk]
  have hrank : ∀ q < m * n, rankOf (k.map XR.fin) q
      = Spec.rank (fun q => Spec.round9 (key (q % m) (q / m))) (m * n) q := by
    intro q hq
    rw [rankOf_fin (by omega), hkl]
    unfold Spec.rank
    congr 1
    refine Finset.filter_congr fun q' hq' => ?_
    dsimp only
    rw [hkf q hq, hkf q' (Finset.mem_range.1 hq')]
  rw [hkey, hrank _ hq, condMean]
  refine smoothed_congr (by omega) fun t ht => ?_
  have hta : t < (argsortStable (k.map XR.fin)).length := by rw [argsort_length]; simpa [hkl] using ht
  have hlt : (argsortStable (k.map XR.fin))[t] < m * n := by
    have := argsort_lt (k.map XR.fin) (List.getElem_mem hta)
    simpa [hkl] using this
  have hr := rankOf_getElem (k.map XR.fin) hta
  rw [List.getD_eq_getElem (argsortStable _) _ hta, List.getD_eq_getElem _ _ (by simpa using hlt)]
  simp only [List.getElem_map, List.getElem_range]
  symm
  rw [Finset.sum_eq_single (argsortStable (k.map XR.fin))[t]]
  · intro q hq hne
    exfalso
    obtain ⟨h1, h2⟩ := Finset.mem_filter.1 hq
    have h1' := Finset.mem_range.1 h1
    rw [← hrank q h1'] at h2
    exact hne (rankOf_injOn (k.map XR.fin) (by simpa [hkl] using h1') (by simpa [hkl] using hlt) (h2.trans hr.symm))
  · intro hn
    exfalso
    exact hn (Finset.mem_filter.2 ⟨Finset.mem_range.2 hlt, by rw [← hrank _ hlt, hr]⟩)

theorem condExp_flat {m n : ℕ} (hpos : 0 < m * n) (hev : m * n % 2 = 0) (hev2 : m * n / 20 % 2 = 0)
    {ka pa : ℕ → ℕ → XR} {key pay : ℕ → ℕ → ℝ}
    (hk : ∀ i < m, ∀ s < n, ka i s = .fin (key i s)) (hp : ∀ i < m, ∀ s < n, pa i s = .fin (pay i s)) :
    ∃ l, condExp (flatF m n ka) (flatF m n pa) (m * n / 20) = .ok l ∧ l.length = m * n ∧
      ∀ i < m, ∀ s < n, unflatF m l i s = .fin (condMean m n key pay i s) := by
  have hkey : flatF m n ka = flatF m n fun i s => .fin (key i s) := by
    rw [flatF_fin hk, flatF_fin (g := key) fun i _ s _ => rfl]
  rw [flatF_fin hp]
  set v := (List.range (m * n)).map fun q => pay (q % m) (q / m) with hv
  have hlv : v.length = m * n := by simp [hv]
  have h := condExp_eq (key := flatF m n ka) (v := v) (win := m * n / 20) (by simp [flatF, hlv]) (by rw [hlv]; exact hev)
    hev2 (by rw [hlv]; omega)
  refine ⟨_, h, by simp [hlv], ?_⟩
  intro i hi s hs
  have hq : i + m * s < m * n := by
    have : m * s + m ≤ m * n := by rw [← Nat.mul_succ]; exact Nat.mul_le_mul_left _ hs
    omega
  unfold unflatF
  rw [List.getD_eq_getElem _ _ (by simpa [hlv] using hq)]
  simp only [List.getElem_map, List.getElem_range, hlv]
  rw [hkey]
  congr 1
  exact condMean_eq hpos hev2 hev key pay hq

end
end Frds.Model

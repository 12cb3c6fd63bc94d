import Verif.Lemmas.Dip

/-! Properties C14-C18 and C106-C109: the distress insurance premium. -/
set_option linter.unusedSimpArgs false
namespace Frds.Props
noncomputable section
open Frds Frds.Model Frds.Spec Frds.Spec.DipSim Classical

variable {S : DipSim} {chol : CholRoutine} {rng : DipRng} {corr : ℕ → ℕ → XR} {seed : ℕ}

/-- whole percents of a threshold -/
def pct (t : ℝ) : ℕ := ⌊100 * t⌋₊

theorem pyInt_pct {t : ℝ} (ht : 0 ≤ t) : pyInt (.fin t * 100) = .ok ((pct t : ℕ) : ℤ) := by
  have h : XR.fin t * 100 = .fin (100 * t) := by
    rw [XR.ofNat_def, XR.fin_mul, mul_comm]
  rw [h, pyInt, if_pos (by positivity), pct, Int.natCast_floor_eq_floor (by positivity)]

/-! ### a concrete outcome for the examples: two banks, both default, loss one -/

def dipDemo : DipSim where
  p := [1 / 2, 1 / 2]
  L b k := if b = k then 1 else 0
  d := ⟨fun _ _ => -1, fun _ _ _ => 1 / 2⟩
  nRet := 1
  nSim := 1

theorem dipDemo_valid : dipDemo.Valid where
  prob := by intro q hq; simp [dipDemo] at hq; subst hq; norm_num
  draws := by intro i r j; simp [dipDemo]; norm_num
  ret := by simp [dipDemo]
  sim := by simp [dipDemo]

theorem dipDemo_n : dipDemo.n = 2 := rfl

theorem dipDemo_loss (i j : ℕ) : dipDemo.loss i j = i / 2 := by
  simp [DipSim.loss, dipDemo]; ring

theorem dipDemo_fits : dipDemo.Fits := by
  intro j _
  rw [dipDemo_n, dipDemo_loss]; norm_num

def dipChol : CholRoutine := fun _ _ => .ok dipDemo.L
def dipRng : DipRng := fun _ _ _ _ => dipDemo.d

theorem dipDemo_run : dipDemo.Run dipChol dipRng (fun _ _ => 0) 0 := ⟨rfl, rfl⟩

theorem dipDemo_freq0 : dipDemo.freq 0 = 0 := by
  have : dipDemo.defaults 0 ≠ 0 := by
    unfold DipSim.defaults
    rw [Finset.card_ne_zero]
    refine ⟨0, Finset.mem_filter.2 ⟨by simp [dipDemo_n], ?_⟩⟩
    show Φ _ < _
    have : ∑ k ∈ Finset.range dipDemo.n, dipDemo.d.normal 0 k * dipDemo.L 0 k = -1 := by
      rw [dipDemo_n]; simp [dipDemo, Finset.sum_range_succ]
    rw [this]
    show Φ (-1) < 1 / 2
    rw [← Φ_zero]
    exact Φ_strictMono (by norm_num)
  unfold DipSim.freq
  rw [show dipDemo.nRet = 1 from rfl]
  simp [this]

theorem dipDemo_tail : 0 < dipDemo.tailProb (pct 0 * dipDemo.n) := by
  rw [pct]; simp only [mul_zero, Nat.floor_zero, zero_mul]
  rw [tailProb_zero dipDemo_valid dipDemo_fits, dipDemo_freq0]; norm_num

/-! ### C14 -/

/-- C14: when every simulated loss fits the grid and the tail has positive probability, the premium is
the expected loss carried by the slots from `int(100 t)·n` on. -/
theorem C14_value (hV : S.Valid) (hR : S.Run chol rng corr seed) (hF : S.Fits) (junk : ℕ → ℕ → ℝ)
    {t : ℝ} (ht : 0 ≤ t) (hP : 0 < S.tailProb (pct t * S.n)) :
    dipEstimate chol rng junk (S.input corr) (.fin t) seed S.nRet S.nSim
      = .ok (.fin (∑ k ∈ Finset.Ico (pct t * S.n) (100 * S.n), (k : ℝ) / 100 * S.slotProb k)) := by
  rw [dip_eval hV hR hF junk (pyInt_pct ht), XR.ofNat_def, XR.fin_mul]
  rw [show (OfNat.ofNat 100 : ℝ) = 100 from rfl]
  rw [XR.fin_div _ (by positivity), XR.fin_mul]
  congr 2
  show _ = S.tailLoss _
  rw [mul_div_mul_left _ _ (by norm_num : (100 : ℝ) ≠ 0), div_mul_cancel₀ _ hP.ne']

/-- C14, in terms of the simulations: the average over simulations of the joint-default frequency
times the loss rounded up to the next percent, counting only losses at or above the threshold slot. -/
theorem C14_as_average (hV : S.Valid) (hR : S.Run chol rng corr seed) (hF : S.Fits) (junk : ℕ → ℕ → ℝ)
    {t : ℝ} (ht : 0 ≤ t) (hP : 0 < S.tailProb (pct t * S.n)) :
    dipEstimate chol rng junk (S.input corr) (.fin t) seed S.nRet S.nSim
      = .ok (.fin (1 / S.nSim * ∑ i ∈ Finset.Icc 1 S.n, S.freq i * ∑ j ∈ Finset.range S.nSim,
          if ((pct t * S.n : ℕ) : ℤ) ≤ ⌈100 * S.loss i j⌉ then (⌈100 * S.loss i j⌉ : ℝ) / 100 else 0)) := by
  rw [C14_value hV hR hF junk ht hP]
  congr 2
  have h := slot_sum hV hF (fun k => if pct t * S.n ≤ k then (k : ℝ) / 100 else 0)
  have e1 : ∑ k ∈ Finset.range (100 * S.n), (if pct t * S.n ≤ k then (k : ℝ) / 100 else 0) * S.slotProb k
      = ∑ k ∈ Finset.Ico (pct t * S.n) (100 * S.n), (k : ℝ) / 100 * S.slotProb k := by
    simp only [ite_mul, zero_mul]
    rw [← Finset.sum_filter]
    apply Finset.sum_congr _ fun _ _ => rfl
    ext k
    simp only [Finset.mem_filter, Finset.mem_range, Finset.mem_Ico]
    tauto
  rw [← e1, h]
  congr 1
  apply Finset.sum_congr rfl
  intro i _
  congr 1
  apply Finset.sum_congr rfl
  intro j _
  have h0 := slot_nonneg hV i j
  unfold DipSim.slot at h0 ⊢
  obtain ⟨m, hm⟩ := Int.eq_ofNat_of_zero_le h0
  rw [hm]
  simp only [Int.toNat_natCast, Int.cast_natCast, Nat.cast_le]

example := C14_value dipDemo_valid dipDemo_run dipDemo_fits (fun _ _ => 7) le_rfl dipDemo_tail

/-! ### C15 -/

/-- C15: the probabilities of the loss slots add up to the probability of at least one default. -/
theorem C15_mass (hV : S.Valid) (hF : S.Fits) :
    ∑ k ∈ Finset.range (100 * S.n), S.slotProb k
      = ((Finset.range S.nRet).filter fun s => 1 ≤ S.defaults s).card / S.nRet := by
  have h := tailProb_zero hV hF
  have hr : (S.nRet : ℝ) ≠ 0 := by exact_mod_cast hV.ret.ne'
  unfold DipSim.tailProb at h
  rw [← Finset.range_eq_Ico] at h
  rw [h, DipSim.freq, eq_div_iff hr, sub_mul, one_mul, div_mul_cancel₀ _ hr]
  have hc := Finset.card_filter_add_card_filter_not (s := Finset.range S.nRet) (fun s => S.defaults s = 0)
  rw [Finset.card_range] at hc
  have e : (Finset.range S.nRet).filter (fun s => 1 ≤ S.defaults s)
      = (Finset.range S.nRet).filter (fun s => ¬ S.defaults s = 0) :=
    Finset.filter_congr fun s _ => by omega
  rw [e]
  have hc' := congrArg (Nat.cast : ℕ → ℝ) hc
  push_cast at hc'
  linarith

/-- C15: that mass is the one the program builds: the un-normalised array filled by the loop has slot
`k` equal to `n_simulations · Prob(slot k)`. -/
theorem C15_array (hV : S.Valid) (hF : S.Fits) (junk : ℕ → ℕ → ℝ) :
    fillLosses S.n S.nSim (fun q => .fin (S.freq q)) (lgdRows S.d S.n junk)
      = .ok ((List.range (100 * S.n)).map fun k : ℕ => XR.fin (S.nSim * S.slotProb k)) := fill_eq hV hF junk

/-- C15: the premium lies between zero and the number of banks times the probability of at least one
default. -/
theorem C15_bounds (hV : S.Valid) (hR : S.Run chol rng corr seed) (hF : S.Fits) (junk : ℕ → ℕ → ℝ)
    {t : ℝ} (ht : 0 ≤ t) (hP : 0 < S.tailProb (pct t * S.n)) :
    ∃ v : ℝ, dipEstimate chol rng junk (S.input corr) (.fin t) seed S.nRet S.nSim = .ok (.fin v)
      ∧ 0 ≤ v ∧ v ≤ S.n * (((Finset.range S.nRet).filter fun s => 1 ≤ S.defaults s).card / S.nRet) := by
  refine ⟨_, C14_value hV hR hF junk ht hP, tailLoss_nonneg _, ?_⟩
  rw [← C15_mass hV hF]
  refine (tailLoss_le _).trans ?_
  have := tailProb_anti (S := S) (Nat.zero_le (pct t * S.n))
  unfold DipSim.tailProb at this ⊢
  rw [← Finset.range_eq_Ico] at this
  exact mul_le_mul_of_nonneg_left this (by positivity)

example := C15_bounds dipDemo_valid dipDemo_run dipDemo_fits (fun _ _ => 7) le_rfl dipDemo_tail

/-! ### C16 -/

/-- C16: with the same draws, a larger threshold never gives a larger premium. -/
theorem C16_antitone (hV : S.Valid) (hR : S.Run chol rng corr seed) (hF : S.Fits) (junk : ℕ → ℕ → ℝ)
    {t u : ℝ} (ht : 0 ≤ t) (htu : t ≤ u) (hP : 0 < S.tailProb (pct u * S.n)) :
    ∃ v w : ℝ, dipEstimate chol rng junk (S.input corr) (.fin t) seed S.nRet S.nSim = .ok (.fin v)
      ∧ dipEstimate chol rng junk (S.input corr) (.fin u) seed S.nRet S.nSim = .ok (.fin w) ∧ w ≤ v := by
  have hle : pct t * S.n ≤ pct u * S.n := Nat.mul_le_mul_right _ (Nat.floor_mono (by linarith))
  exact ⟨_, _, C14_value hV hR hF junk ht (hP.trans_le (tailProb_anti hle)),
    C14_value hV hR hF junk (ht.trans htu) hP, tailLoss_anti hle⟩

example := C16_antitone dipDemo_valid dipDemo_run dipDemo_fits (fun _ _ => 7) le_rfl le_rfl dipDemo_tail

/-! ### C17 -/

/-- C17: if no probability reaches the threshold, the result is NaN although the tail loss is zero. -/
theorem C17_empty_tail (hV : S.Valid) (hR : S.Run chol rng corr seed) (hF : S.Fits) (junk : ℕ → ℕ → ℝ)
    {t : ℝ} (ht : 0 ≤ t) (hP : S.tailProb (pct t * S.n) = 0) :
    dipEstimate chol rng junk (S.input corr) (.fin t) seed S.nRet S.nSim = .ok .nan
      ∧ S.tailLoss (pct t * S.n) = 0 := by
  have hL : S.tailLoss (pct t * S.n) = 0 := by
    refine le_antisymm ?_ (tailLoss_nonneg _)
    have := tailLoss_le (S := S) (pct t * S.n)
    rwa [hP, mul_zero] at this
  refine ⟨?_, hL⟩
  rw [dip_eval hV hR hF junk (pyInt_pct ht), hP, hL, XR.ofNat_def, XR.fin_mul, mul_zero,
    XR.fin_div_zero, XR.infSign_zero]
  rfl

/-- C17: in particular when no scenario has a default, whatever the threshold. -/
theorem C17_no_default (hV : S.Valid) (hR : S.Run chol rng corr seed) (hF : S.Fits) (junk : ℕ → ℕ → ℝ)
    {t : ℝ} (ht : 0 ≤ t) (h : ∀ s < S.nRet, S.defaults s = 0) :
    dipEstimate chol rng junk (S.input corr) (.fin t) seed S.nRet S.nSim = .ok .nan := by
  refine (C17_empty_tail hV hR hF junk ht ?_).1
  refine le_antisymm ?_ (tailProb_nonneg _)
  refine (tailProb_anti (Nat.zero_le _)).trans ?_
  have hr : (S.nRet : ℝ) ≠ 0 := by exact_mod_cast hV.ret.ne'
  rw [tailProb_zero hV hF, DipSim.freq, Finset.filter_true_of_mem (fun s hs => h s (Finset.mem_range.1 hs)),
    Finset.card_range, div_self hr, sub_self]

/-- the same two banks with favourable draws: nobody defaults -/
def dipCalm : DipSim := { dipDemo with d := ⟨fun _ _ => 1, fun _ _ _ => 1 / 2⟩ }

theorem dipCalm_calm : (∀ s < dipCalm.nRet, dipCalm.defaults s = 0) ∧ dipCalm.Valid ∧ dipCalm.Fits := by
  refine ⟨?_, ⟨dipDemo_valid.prob, dipDemo_valid.draws, dipDemo_valid.ret, dipDemo_valid.sim⟩, dipDemo_fits⟩
  intro s _
  unfold DipSim.defaults
  rw [Finset.card_eq_zero, Finset.filter_eq_empty_iff]
  intro b hb
  rw [Finset.mem_range] at hb
  have hb2 : b < 2 := hb
  have : ∑ k ∈ Finset.range dipCalm.n, dipCalm.d.normal s k * dipCalm.L b k = 1 := by
    show ∑ k ∈ Finset.range 2, (1 : ℝ) * (if b = k then 1 else 0) = 1
    interval_cases b <;> simp [Finset.sum_range_succ]
  show ¬ (Φ _ < _)
  rw [this, not_lt]
  have h2 : dipCalm.p.getD b 0 = 1 / 2 := by
    show [(1 : ℝ) / 2, 1 / 2].getD b 0 = 1 / 2
    interval_cases b <;> rfl
  rw [h2, ← Φ_zero]
  exact (Φ_strictMono (by norm_num)).le

/-! ### C18 -/

/-- C18: for valid inputs and every threshold value whatsoever, the call raises `IndexError` exactly
when some simulated loss of all banks together exceeds `n - 0.01`. -/
theorem C18_index_error_iff (hV : S.Valid) (hR : S.Run chol rng corr seed) (hn : 0 < S.n)
    (junk : ℕ → ℕ → ℝ) (thr : XR) :
    dipEstimate chol rng junk (S.input corr) thr seed S.nRet S.nSim = .error .indexError
      ↔ ∃ j < S.nSim, (S.n : ℝ) - 0.01 < S.loss S.n j := by
  have hFits : (∃ j < S.nSim, (S.n : ℝ) - 0.01 < S.loss S.n j) ↔ ¬ S.Fits := by
    unfold DipSim.Fits
    push Not
    constructor
    · rintro ⟨j, hj, h⟩; exact ⟨j, hj, by linarith⟩
    · rintro ⟨j, hj, h⟩; exact ⟨j, hj, by linarith⟩
  rw [hFits]
  constructor
  · intro h hF
    rw [dip_head hV hR, fill_eq hV hF] at h
    simp only [bind, Except.bind] at h
    have hp : ∀ y, pyInt y ≠ .error .indexError := by
      intro y hy; cases y <;> simp [pyInt] at hy
    cases hc : pyInt (thr * 100) with
    | error e =>
      rw [hc] at h
      have h' : Except.error e = Except.error PyErr.indexError := h
      exact hp _ (hc.trans (by cases h'; rfl))
    | ok c =>
      rw [hc] at h
      dsimp only at h
      unfold npDot at h
      split at h
      · next e he =>
        split at he
        · cases he
        · cases he; cases h
      · cases h
  · intro hF
    rw [dip_head hV hR, fill_error hV hF junk hn]
    rfl

/-- draws at the top of the support -/
def dipTop : DipSim := { dipDemo with d := ⟨fun _ _ => -1, fun _ _ _ => 1⟩ }

theorem dipTop_top : (∃ j < dipTop.nSim, (dipTop.n : ℝ) - 0.01 < dipTop.loss dipTop.n j) ∧ dipTop.Valid :=
  ⟨⟨0, by simp [dipTop, dipDemo], by
      have h1 : dipTop.n = 2 := rfl
      have h2 : dipTop.loss 2 0 = 2 := by simp [DipSim.loss, dipTop]
      rw [h1, h2]; norm_num⟩,
    ⟨dipDemo_valid.prob, fun _ _ _ => ⟨by norm_num [dipTop], by norm_num [dipTop]⟩, dipDemo_valid.ret,
      dipDemo_valid.sim⟩⟩

/-! ### C106 -/

/-- C106: with a zero threshold the premium exceeds the simulated expected loss (joint-default
frequencies times average simulated loss) by at most `0.01` times the probability of at least one
default, and is never below it: the grid rounds each loss up to the next percent. -/
theorem C106_discretisation (hV : S.Valid) (hR : S.Run chol rng corr seed) (hF : S.Fits) (junk : ℕ → ℕ → ℝ)
    (hP : S.freq 0 < 1) :
    ∃ v : ℝ, dipEstimate chol rng junk (S.input corr) (.fin 0) seed S.nRet S.nSim = .ok (.fin v)
      ∧ ∑ i ∈ Finset.Icc 1 S.n, S.freq i * ((∑ j ∈ Finset.range S.nSim, S.loss i j) / S.nSim) ≤ v
      ∧ v ≤ ∑ i ∈ Finset.Icc 1 S.n, S.freq i * ((∑ j ∈ Finset.range S.nSim, S.loss i j) / S.nSim)
          + 0.01 * (1 - S.freq 0) := by
  have hs : (0 : ℝ) < S.nSim := by exact_mod_cast hV.sim
  have hp0 : pct 0 * S.n = 0 := by simp [pct]
  have h := C14_as_average hV hR hF junk le_rfl (t := 0) (by
    rw [hp0, tailProb_zero hV hF]; linarith)
  refine ⟨_, h, ?_, ?_⟩
  · rw [Finset.mul_sum]
    apply Finset.sum_le_sum
    intro i _
    rw [show ∀ X : ℝ, 1 / (S.nSim : ℝ) * (S.freq i * X) = S.freq i * (X / S.nSim) from fun X => by ring]
    apply mul_le_mul_of_nonneg_left _ (freq_nonneg i)
    apply div_le_div_of_nonneg_right _ hs.le
    apply Finset.sum_le_sum
    intro j _
    have h0 := slot_nonneg hV i j
    rw [hp0, if_pos (by exact_mod_cast h0)]
    have := Int.le_ceil (100 * S.loss i j)
    linarith
  · rw [Finset.mul_sum, ← freq_sum_Icc hV, Finset.mul_sum, ← Finset.sum_add_distrib]
    apply Finset.sum_le_sum
    intro i _
    rw [show ∀ X : ℝ, 1 / (S.nSim : ℝ) * (S.freq i * X) = S.freq i * (X / S.nSim) from fun X => by ring,
      show ∀ X : ℝ, S.freq i * X + 0.01 * S.freq i = S.freq i * (X + 0.01) from fun X => by ring]
    apply mul_le_mul_of_nonneg_left _ (freq_nonneg i)
    rw [div_add' _ _ _ hs.ne']
    apply div_le_div_of_nonneg_right _ hs.le
    rw [show (0.01 : ℝ) * S.nSim = ∑ _j ∈ Finset.range S.nSim, (0.01 : ℝ) from by
      rw [Finset.sum_const, Finset.card_range, nsmul_eq_mul, mul_comm], ← Finset.sum_add_distrib]
    apply Finset.sum_le_sum
    intro j _
    have h0 := slot_nonneg hV i j
    rw [hp0, if_pos (by exact_mod_cast h0)]
    have := Int.ceil_lt_add_one (100 * S.loss i j)
    linarith

example := C106_discretisation dipDemo_valid dipDemo_run dipDemo_fits (fun _ _ => 7)
  (by rw [dipDemo_freq0]; norm_num)

/-! ### C107 -/

/-- C107: a threshold of one or more always gives NaN (the tail of the grid is empty). -/
theorem C107_threshold_ge_one (hV : S.Valid) (hR : S.Run chol rng corr seed) (hF : S.Fits) (junk : ℕ → ℕ → ℝ)
    {t : ℝ} (ht : 1 ≤ t) :
    dipEstimate chol rng junk (S.input corr) (.fin t) seed S.nRet S.nSim = .ok .nan := by
  refine (C17_empty_tail hV hR hF junk (by linarith) ?_).1
  have h : 100 ≤ pct t := Nat.le_floor (by push_cast; linarith)
  unfold DipSim.tailProb
  rw [Finset.Ico_eq_empty_of_le (Nat.mul_le_mul_right _ h), Finset.sum_empty]

/-- C107: a threshold of `-0.01` or less raises `ValueError` (the price grid and the wrapped slice
have different lengths). -/
theorem C107_threshold_negative (hV : S.Valid) (hR : S.Run chol rng corr seed) (hF : S.Fits)
    (hn : 0 < S.n) (junk : ℕ → ℕ → ℝ) {t : ℝ} (ht : t ≤ -0.01) :
    dipEstimate chol rng junk (S.input corr) (.fin t) seed S.nRet S.nSim = .error .valueError := by
  have h : XR.fin t * 100 = .fin (100 * t) := by
    rw [XR.ofNat_def, XR.fin_mul, mul_comm]
  have hneg : ⌈100 * t⌉ ≤ -1 := Int.ceil_le.2 (by push_cast; linarith)
  rw [dip_head hV hR, fill_eq hV hF]
  simp only [bind, Except.bind]
  rw [h, pyInt, if_neg (by linarith)]
  dsimp only
  have hprod : ⌈100 * t⌉ * (S.n : ℤ) < 0 := by nlinarith
  have hlen : (npRange (⌈100 * t⌉ * (S.n : ℤ)) (100 * (S.n : ℤ))).length > 100 * S.n := by
    unfold npRange
    rw [List.length_map, List.length_range]
    omega
  unfold npDot
  rw [if_neg]
  intro heq
  rw [heq] at hlen
  unfold pySliceFrom at hlen
  rw [List.length_drop] at hlen
  simp only [List.length_map, List.length_range] at hlen
  omega

/-- C107: the threshold acts only through its whole percents; everything strictly between `-0.01` and
`0.01` acts as zero. -/
theorem C107_threshold_truncated (chol : CholRoutine) (rng : DipRng) (junk : ℕ → ℕ → ℝ) (x : DipIn)
    (seed nRet nSim : ℕ) {t : ℝ} (h1 : -0.01 < t) (h2 : t < 0.01) :
    dipEstimate chol rng junk x (.fin t) seed nRet nSim = dipEstimate chol rng junk x (.fin 0) seed nRet nSim := by
  have h : ∀ t : ℝ, XR.fin t * 100 = .fin (100 * t) := by
    intro t; rw [XR.ofNat_def, XR.fin_mul, mul_comm]
  have e : pyInt (.fin t * 100) = pyInt (.fin 0 * 100) := by
    rw [h, h, pyInt, pyInt, mul_zero, if_pos le_rfl, Int.floor_zero]
    by_cases h0 : 0 ≤ 100 * t
    · rw [if_pos h0, show ⌊100 * t⌋ = 0 from Int.floor_eq_iff.2 (by push_cast; constructor <;> linarith)]
    · rw [if_neg h0, show ⌈100 * t⌉ = 0 from Int.ceil_eq_iff.2 (by push_cast; constructor <;> linarith)]
  unfold dipEstimate
  rw [e]

example := C107_threshold_negative dipDemo_valid dipDemo_run dipDemo_fits (by rw [dipDemo_n]; norm_num)
  (fun _ _ => 7) (t := -0.5) (by norm_num)

/-! ### C108 -/

/-- C108: a default probability that is `≤ 0`, `≥ 1` or infinite raises `ValueError`
(`StatisticsError`) whatever the other arguments are. -/
theorem C108_bad_probability (chol : CholRoutine) (rng : DipRng) (junk : ℕ → ℕ → ℝ) (x : DipIn) (thr : XR)
    (seed nRet nSim : ℕ) {q : XR} (hq : q ∈ x.p) (h : q ≤ .fin 0 ∨ .fin 1 ≤ q) :
    dipEstimate chol rng junk x thr seed nRet nSim = .error .valueError := by
  have hbad : dipThreshold q = .error .valueError := by
    cases q with
    | nan => rcases h with h | h <;> exact absurd h (by intro h; cases h)
    | pinf => rfl
    | ninf => rfl
    | fin q =>
      rw [XR.fin_le, XR.fin_le] at h
      rw [dipThreshold, if_pos h]
  have herr : ∀ y e, dipThreshold y = .error e → e = .valueError := by
    intro y e hy
    cases y with
    | nan => cases hy
    | pinf => cases hy; rfl
    | ninf => cases hy; rfl
    | fin y =>
      rw [dipThreshold] at hy
      split at hy
      · cases hy; rfl
      · cases hy
  have key : ∀ l : List XR, q ∈ l → l.mapM dipThreshold = .error .valueError := by
    intro l
    induction l with
    | nil => intro h; cases h
    | cons y l ih =>
      intro hm
      rw [List.mapM_cons]
      cases hy : dipThreshold y with
      | error e => rw [herr _ _ hy]; rfl
      | ok v =>
        rcases List.mem_cons.1 hm with rfl | hm
        · rw [hbad] at hy; cases hy
        · rw [ih hm]; rfl
  unfold dipEstimate
  rw [key _ hq]
  rfl

example : XR.fin 0 ∈ [XR.fin (1 / 2), .fin 0] ∧ XR.fin 0 ≤ .fin 0 := by simp

/-! ### C109 -/

/-- C109: without banks the result is NaN, whatever the other arguments (a finite non-negative
threshold, a Cholesky routine that accepts the empty matrix). -/
theorem C109_no_banks (chol : CholRoutine) (rng : DipRng) (junk : ℕ → ℕ → ℝ) (corr : ℕ → ℕ → XR) {t : ℝ}
    (seed nRet nSim : ℕ) {L : ℕ → ℕ → ℝ} (hc : chol 0 corr = .ok L) :
    dipEstimate chol rng junk ⟨[], corr⟩ (.fin t) seed nRet nSim = .ok .nan := by
  have h : XR.fin t * 100 = .fin (100 * t) := by
    rw [XR.ofNat_def, XR.fin_mul, mul_comm]
  unfold dipEstimate
  simp only [List.length_nil, List.mapM_nil, pure, Except.pure, bind, Except.bind]
  rw [hc]
  dsimp only
  have hf : ∀ dist loss, fillLosses 0 nSim dist loss = .ok [] := fun _ _ => rfl
  rw [hf, h]
  simp only [pyInt, List.map_nil]
  simp only [Nat.cast_zero, mul_zero]
  have hs : pySliceFrom ([] : List XR) 0 = [] := rfl
  rw [hs]
  have hd : npDot (npRange 0 0) [] = .ok 0 := rfl
  rw [hd]
  simp only [List.sum_nil, XR.ofNat_def, XR.zero_def, XR.fin_mul, mul_zero, XR.fin_div_zero, XR.infSign_zero]
  rfl

/-- C109: with `n_simulations = 0` the result is NaN for valid inputs and every non-negative threshold
(every slot is `0/0`). -/
theorem C109_no_simulations {p : List ℝ} (hp : ∀ q ∈ p, 0 < q ∧ q < 1) (chol : CholRoutine) (rng : DipRng)
    (junk : ℕ → ℕ → ℝ) (corr : ℕ → ℕ → XR) {t : ℝ} (ht : 0 ≤ t) (seed nRet : ℕ) {L : ℕ → ℕ → ℝ}
    (hc : chol p.length corr = .ok L) :
    dipEstimate chol rng junk ⟨p.map .fin, corr⟩ (.fin t) seed nRet 0 = .ok .nan := by
  unfold dipEstimate
  simp only [List.length_map]
  rw [mapM_threshold hp]
  simp only [bind, Except.bind]
  rw [hc]
  dsimp only
  have hl : loopPairs p.length 0 = [] := by
    unfold loopPairs; simp
  have hf : ∀ dist loss, fillLosses p.length 0 dist loss = .ok (List.replicate (p.length * 100) 0) := by
    intro dist loss; unfold fillLosses; rw [hl]; rfl
  rw [hf, pyInt_pct ht]
  dsimp only
  have hz : (0 : XR) / XR.fin ((0 : ℕ) : ℝ) = .nan := by
    rw [XR.zero_def, Nat.cast_zero, XR.fin_div_zero, XR.infSign_zero]
  have hne : ¬ ((pct t : ℤ) * (p.length : ℤ) < 0) := not_lt.2 (by positivity)
  rw [List.map_replicate, hz]
  unfold pySliceFrom
  rw [if_neg hne, List.drop_replicate]
  have hlen : (npRange ((pct t : ℤ) * (p.length : ℤ)) (100 * (p.length : ℤ))).length
      = (List.replicate (p.length * 100 - ((pct t : ℤ) * (p.length : ℤ)).toNat) XR.nan).length := by
    unfold npRange
    simp only [List.length_map, List.length_range, List.length_replicate]
    omega
  unfold npDot
  rw [if_pos hlen]
  dsimp only
  generalize p.length * 100 - ((pct t : ℤ) * (p.length : ℤ)).toNat = m
  simp only [pure, Except.pure]
  congr 1
  cases m with
  | zero =>
    simp only [List.replicate_zero, List.zipWith_nil_right, List.sum_nil]
    rw [XR.ofNat_def, XR.zero_def, XR.fin_mul, mul_zero, XR.fin_div_zero, XR.infSign_zero]
    rfl
  | succ m =>
    have h : (List.replicate (m + 1) XR.nan).sum = .nan := by
      rw [List.replicate_succ, List.sum_cons]; rfl
    rw [h]
    show XR.mul _ XR.nan = _
    generalize (_ / (100 * XR.nan)) = y
    cases y <;> rfl

example := C109_no_simulations (p := [1 / 2]) (by intro q hq; simp at hq; subst hq; norm_num) dipChol dipRng
  (fun _ _ => 7) (fun _ _ => 1) (t := 0) le_rfl 0 10 rfl

/-! ### Concrete cases of the theorems above -/

example := C14_as_average dipDemo_valid dipDemo_run dipDemo_fits (fun _ _ => 7) le_rfl dipDemo_tail
example := C15_mass dipDemo_valid dipDemo_fits
example := C15_array dipDemo_valid dipDemo_fits (fun _ _ => 7)
example := C17_no_default (S := dipCalm) (chol := dipChol) (rng := fun _ _ _ _ => dipCalm.d) (corr := fun _ _ => 0)
  (seed := 0) dipCalm_calm.2.1 ⟨rfl, rfl⟩ dipCalm_calm.2.2 (fun _ _ => 7) (t := 1 / 10) (by norm_num) dipCalm_calm.1
/-- A threshold above one leaves an empty tail. -/
example : dipEstimate dipChol dipRng (fun _ _ => 7) (dipDemo.input fun _ _ => 0) (.fin 2) 0 dipDemo.nRet dipDemo.nSim
    = .ok .nan ∧ dipDemo.tailLoss (pct 2 * dipDemo.n) = 0 :=
  C17_empty_tail dipDemo_valid dipDemo_run dipDemo_fits (fun _ _ => 7) (t := 2) (by norm_num) (by
    have h : pct 2 = 200 := by norm_num [pct]
    rw [h, dipDemo_n]
    simp [DipSim.tailProb, dipDemo_n])
example := C107_threshold_ge_one dipDemo_valid dipDemo_run dipDemo_fits (fun _ _ => 7) (t := 2) (by norm_num)
/-- A simulated loss in the top percent of the range is an index error. -/
example : dipEstimate dipChol (fun _ _ _ _ => dipTop.d) (fun _ _ => 7) (dipTop.input fun _ _ => 0) (.fin 0) 0 dipTop.nRet
    dipTop.nSim = .error .indexError :=
  (C18_index_error_iff dipTop_top.2 ⟨rfl, rfl⟩ (by show 0 < 2; norm_num) (fun _ _ => 7) (.fin 0)).2 dipTop_top.1
example := C107_threshold_truncated dipChol dipRng (fun _ _ => 7) (dipDemo.input fun _ _ => 0) 0 1 1 (t := 0.005)
  (by norm_num) (by norm_num)
example := C108_bad_probability dipChol dipRng (fun _ _ => 7) ⟨[.fin (1 / 2), .fin 0], fun _ _ => 0⟩ (.fin 0) 0 1 1
  (q := .fin 0) (by simp) (Or.inl (by simp))
example := C109_no_banks dipChol dipRng (fun _ _ => 7) (fun _ _ => 0) (t := 0.1) 0 10 10 (L := dipDemo.L) rfl

end
end Frds.Props

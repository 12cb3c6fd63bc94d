import Verif.Lemmas.Lrmes

set_option linter.unusedSimpArgs false

/-! The fitted sample: finite records with positive variances and correlations inside (-1,1). -/
namespace Frds
noncomputable section
open Frds.Model Frds.Spec Classical

theorem cppSimulation_eq (x : SimArgs) (inv : List (XR × XR)) :
    cppSimulation x inv = simulation x inv := by
  have h : ∀ l : List XR, l.foldl (· + ·) 0 = l.sum := fun l => List.sum_eq_foldl.symm
  simp only [cppSimulation, cppLoop_eq, h, List.map_map, Function.comp_def, simulation]
  have : (⟨x.firmResid, x.mktResid, x.firmVar, x.mktVar, x.firmResid / XR.sqrt x.firmVar,
      x.mktResid / XR.sqrt x.mktVar, 1, 1, x.rho⟩ : SimState) = simInit x := rfl
  rw [this]
  split_ifs <;> simp_all

/-- total: result in terms of systemic paths, any XR inputs -/
theorem lrmesResult_eq (cpp : Bool) (x : SimArgs) (paths : List (List (XR × XR))) :
    lrmesResult cpp (accumulate cpp x paths)
      = (let sys := paths.filter fun p => (simulation x p).2
         if sys = [] then ⟨0, false⟩
         else ⟨-(sys.map fun p => (simulation x p).1).sum / .fin sys.length, !cpp⟩) := by
  have h0 := accumulate_eq cpp x paths (simulation x)
    (fun p => by cases cpp <;> simp [cppSimulation_eq]) 0 0
  have hz : ∀ p, (simulation x p).2 = false → (simulation x p).1 = 0 := by
    intro p; unfold simulation; simp only; split_ifs <;> simp
  have hsum : (paths.map fun p => (simulation x p).1).sum
      = ((paths.filter fun p => (simulation x p).2).map fun p => (simulation x p).1).sum := by
    induction paths with
    | nil => rfl
    | cons p t ih =>
      have ih := ih (accumulate_eq cpp x t (simulation x)
        (fun p => by cases cpp <;> simp [cppSimulation_eq]) 0 0)
      rw [List.map_cons, List.sum_cons, List.filter_cons, ih]
      by_cases h : (simulation x p).2 = true
      · simp [h]
      · have := hz p (by simpa using h)
        simp [h, this]
  have e : accumulate cpp x paths = _ := h0
  rw [e, lrmesResult, hsum]
  simp only [zero_add]
  by_cases hs : (paths.filter fun p => (simulation x p).2) = []
  · simp [hs]
  · have : (paths.filter fun p => (simulation x p).2).length ≠ 0 := by
      simpa [List.length_eq_zero_iff] using hs
    simp only [if_neg this, if_neg hs]

/-! ### sample records -/

theorem sum_cs {α} (l : List α) (f g : α → ℝ) :
    0 ≤ (l.map fun d => f d * f d).sum ∧ 0 ≤ (l.map fun d => g d * g d).sum ∧
    (l.map fun d => f d * g d).sum ^ 2
      ≤ (l.map fun d => f d * f d).sum * (l.map fun d => g d * g d).sum := by
  induction l with
  | nil => simp
  | cons d t ih =>
    simp only [List.map_cons, List.sum_cons]
    refine ⟨by nlinarith [mul_self_nonneg (f d)], by nlinarith [mul_self_nonneg (g d)], ?_⟩
    exact psd_add (mul_self_nonneg _) (mul_self_nonneg _) (le_of_eq (by ring)) ih.1 ih.2.1 ih.2.2

theorem sampleCov_sq_le {α} (l : List α) (f g : α → ℝ) :
    sampleCov l f g ^ 2 ≤ sampleCov l f f * sampleCov l g g := by
  have h := (sum_cs l (fun d => f d - Spec.mean l f) (fun d => g d - Spec.mean l g)).2.2
  unfold sampleCov
  rw [div_pow, div_mul_div_comm, ← sq]
  by_cases hn : ((l.length : ℝ) - 1) = 0
  · simp [hn]
  · exact div_le_div_of_nonneg_right h (sq_nonneg _)

theorem sampleCorr_sq_le {α} {l : List α} {f g : α → ℝ} (hf : 0 < sampleCov l f f)
    (hg : 0 < sampleCov l g g) : sampleCorr l f g ^ 2 ≤ 1 := by
  unfold sampleCorr
  rw [div_pow, mul_pow, Real.sq_sqrt hf.le, Real.sq_sqrt hg.le, div_le_one (mul_pos hf hg)]
  exact sampleCov_sq_le l f g

theorem sampleCorr_self {α} {l : List α} {f : α → ℝ} (hf : 0 < sampleCov l f f) :
    sampleCorr l f f = 1 := by
  unfold sampleCorr
  rw [Real.mul_self_sqrt hf.le, div_self hf.ne']

theorem sampleCov_comm {α} (l : List α) (f g : α → ℝ) : sampleCov l f g = sampleCov l g f := by
  unfold sampleCov; simp only [mul_comm]

theorem sampleCorr_comm {α} (l : List α) (f g : α → ℝ) : sampleCorr l f g = sampleCorr l g f := by
  unfold sampleCorr; rw [sampleCov_comm, mul_comm]

theorem length_ne_one {α} {l : List α} {f : α → ℝ} (hf : 0 < sampleCov l f f) :
    (l.length : ℝ) - 1 ≠ 0 := by
  intro h; unfold sampleCov at hf; rw [h] at hf; simp at hf

theorem npCov_col {α} {l : List α} (hl : l ≠ []) (hn : (l.length : ℝ) - 1 ≠ 0) (f g : α → ℝ) :
    npCov (col l f) (col l g) = .fin (sampleCov l f g) := by
  unfold npCov
  rw [mean_col hl, mean_col hl]
  simp only [col, List.map_map, zipWith_maps, Function.comp_def, XR.fin_sub, XR.fin_mul,
    List.length_map, XR.sum_map_fin, XR.fin_div _ hn]
  rw [XR.sum_fin, XR.fin_div _ hn]; rfl

theorem npCorr_col {α} {l : List α} {f g : α → ℝ} (hf : 0 < sampleCov l f f)
    (hg : 0 < sampleCov l g g) : npCorr (col l f) (col l g) = .fin (sampleCorr l f g) := by
  have hl : l ≠ [] := by rintro rfl; simp [sampleCov] at hf
  have hn := length_ne_one hf
  have hf' := Real.sqrt_pos.mpr hf
  have hg' := Real.sqrt_pos.mpr hg
  unfold npCorr
  rw [npCov_col hl hn, npCov_col hl hn, npCov_col hl hn, XR.fin_sqrt hf.le, XR.fin_sqrt hg.le,
    XR.fin_div _ hf'.ne', XR.fin_div _ hg'.ne', div_div, Np.clip_fin]
  have := abs_le_of_sq_le_sq' (a := sampleCorr l f g) (b := 1) (by simpa using sampleCorr_sq_le hf hg)
    zero_le_one
  rw [show sampleCov l f g / (√(sampleCov l f f) * √(sampleCov l g g)) = sampleCorr l f g from rfl,
    max_eq_left this.1, min_eq_left this.2]

/-- the Python object holding those numbers -/
def Spec.Fitted.toFit (f : Fitted) : DccFit where
  success := true
  firmVar := col f.sample FitDay.varI
  firmResid := col f.sample FitDay.residI
  mktVar := col f.sample FitDay.varM
  mktResid := col f.sample FitDay.residM
  rho := col f.sample FitDay.rho
  a := .fin f.a
  b := .fin f.b
  pi := ofGjr f.firm
  pm := ofGjr f.mkt

theorem fitDay_state_ok {d : FitDay} (h : d.Ok) : DccState.Ok d.state :=
  ⟨h.1, h.2.1, by show (0:ℝ) < 1; norm_num, by show (0:ℝ) < 1; norm_num,
    by show d.rho ^ 2 ≤ 1 * 1; linarith [h.2.2]⟩

theorem fitDay_state_start (d : FitDay) : DccState.Start d.state := ⟨rfl, rfl, rfl, rfl⟩

theorem fitted_model_ok {f : Fitted} (h : f.Ok) : DccModel.Ok f.model :=
  ⟨h.2.1, h.2.2.1, h.2.2.2.1, by show (0:ℝ) < 1; norm_num, by show (0:ℝ) < 1; norm_num, by
    show sampleCorr _ _ _ ^ 2 ≤ 1 * 1
    linarith [sampleCorr_sq_le h.2.2.2.2.1 h.2.2.2.2.2]⟩

theorem stdResid_col {α : Type} {l : List α} {r v : α → ℝ} (h : ∀ d ∈ l, 0 < v d) :
    stdResid (col l r) (col l v) = col l fun d => r d / Real.sqrt (v d) := by
  unfold stdResid col
  rw [zipWith_maps]
  apply List.map_congr_left
  intro d hd
  rw [XR.fin_sqrt (h d hd).le, XR.fin_div _ (Real.sqrt_pos.mpr (h d hd)).ne']

theorem fitted_zi_col {f : Fitted} (h : f.Ok) :
    stdResid f.toFit.firmResid f.toFit.firmVar = col f.sample FitDay.zi :=
  stdResid_col fun d hd => (h.1 d hd).1

theorem fitted_zm_col {f : Fitted} (h : f.Ok) :
    stdResid f.toFit.mktResid f.toFit.mktVar = col f.sample FitDay.zm :=
  stdResid_col fun d hd => (h.1 d hd).2.1

theorem fitted_xi_col {f : Fitted} (h : f.Ok) :
    xiSeries f.toFit = col f.sample FitDay.xi := by
  unfold xiSeries
  rw [fitted_zi_col h, fitted_zm_col h]
  show List.zipWith _ (List.zip (f.sample.map _) (f.sample.map _)) (f.sample.map _) = f.sample.map _
  rw [List.zip_eq_zipWith, zipWith_maps, zipWith_maps]
  apply List.map_congr_left
  intro d hd
  have hr := (h.1 d hd).2.2
  have hp : 0 < 1 - d.rho ^ 2 := by linarith
  simp only [orthInnov, XR.fin_mul, XR.fin_sub, XR.fin_sq, XR.one_def, XR.fin_sqrt hp.le,
    XR.fin_div _ (Real.sqrt_pos.mpr hp).ne', FitDay.xi]

theorem fitted_simArgs {f : Fitted} (h : f.Ok) {d : FitDay} (hd : f.sample.getLast? = some d) (C : ℝ) :
    simArgsOf f.toFit (.fin C) = .ok (ofModel f.model d.state C) := by
  have hlast : ∀ g : FitDay → ℝ, (col f.sample g).getLast? = some (.fin (g d)) := by
    intro g; simp [col, List.getLast?_map, hd]
  have hzi := h.2.2.2.2.1
  have hzm := h.2.2.2.2.2
  unfold simArgsOf
  dsimp only
  rw [fitted_zi_col h, fitted_zm_col h, npCorr_col hzi hzi, npCorr_col hzm hzm, npCorr_col hzm hzi,
    sampleCorr_self hzi, sampleCorr_self hzm, sampleCorr_comm]
  simp only [Fitted.toFit, hlast]
  rfl

theorem fitted_pathOf {f : Fitted} (h : f.Ok) {idx : List ℕ} (hi : ∀ i ∈ idx, i < f.sample.length) :
    Model.pathOf f.toFit idx = (f.shocks idx).map fun z => (.fin z.1, .fin z.2) := by
  unfold Model.pathOf Fitted.shocks
  rw [fitted_xi_col h, fitted_zm_col h]
  induction idx with
  | nil => rfl
  | cons i t ih =>
    have hi0 := hi i (by simp)
    have := ih fun j hj => hi j (by simp [hj])
    rw [List.map_cons, this]
    simp [List.filterMap_cons, hi0, col]

end
end Frds

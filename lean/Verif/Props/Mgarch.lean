import Verif.Lemmas.Mgarch
import Verif.Props.GarchFit

/-! Properties C74-C80: bivariate GARCH with constant or dynamic conditional correlation. -/
set_option linter.unusedSimpArgs false

namespace Frds.Props
noncomputable section
open Frds Frds.Model Frds.Spec Classical MeasureTheory

/-! ### C74 -/

/-- C74. The CCC log-likelihood is the logarithm of the product of bivariate normal densities with
covariance matrix `[[s1, rho √(s1 s2)], [rho √(s1 s2), s2]]`. -/
theorem C74_bivariate_likelihood (l : List BivDay) (h : ∀ d ∈ l, 0 < d.s1 ∧ 0 < d.s2) (rho : ℝ)
    (hr : |rho| < 1) :
    cccLoglik (l.map fun d => .fin d.r1) (l.map fun d => .fin d.s1) (l.map fun d => .fin d.r2)
        (l.map fun d => .fin d.s2) (.fin rho)
      = .fin (Real.log
          (l.map fun d => bivPdf d.s1 d.s2 (rho * Real.sqrt (d.s1 * d.s2)) d.r1 d.r2).prod) :=
  cccLoglik_fin h (by rw [← sq_abs]; nlinarith [abs_nonneg rho])

theorem bivPdf_zero {s1 s2 : ℝ} (h1 : 0 < s1) (h2 : 0 < s2) (x y : ℝ) :
    bivPdf s1 s2 0 x y = normalPdf s1 x * normalPdf s2 y := by
  rw [bivPdf_factor h1 (by nlinarith [mul_pos h1 h2])]
  have : (s1 * s2 - 0 ^ 2) / s1 = s2 := by field_simp; ring
  rw [this, zero_div, zero_mul]; rfl

/-- C74. With zero correlation it is the sum of the two univariate log-likelihoods. -/
theorem C74_independent (l : List BivDay) (h : ∀ d ∈ l, 0 < d.s1 ∧ 0 < d.s2) :
    cccLoglik (l.map fun d => .fin d.r1) (l.map fun d => .fin d.s1) (l.map fun d => .fin d.r2)
        (l.map fun d => .fin d.s2) 0
      = loglik (l.map fun d => .fin d.r1) (l.map fun d => .fin d.s1)
        + loglik (l.map fun d => .fin d.r2) (l.map fun d => .fin d.s2) := by
  have e := C74_bivariate_likelihood l h 0 (by simp)
  rw [← XR.zero_def] at e
  rw [e]
  have e1 := loglik_fin (l.map fun d => (d.r1, d.s1)) (by
    intro d hd; obtain ⟨x, hx, rfl⟩ := List.mem_map.mp hd; exact (h x hx).1)
  have e2 := loglik_fin (l.map fun d => (d.r2, d.s2)) (by
    intro d hd; obtain ⟨x, hx, rfl⟩ := List.mem_map.mp hd; exact (h x hx).2)
  simp only [List.map_map, Function.comp_def] at e1 e2
  rw [e1, e2, XR.fin_add, ← log_prod_map]
  · rw [← List.sum_map_add]
    congr 2
    apply List.map_congr_left
    intro d hd
    obtain ⟨h1, h2⟩ := h d hd
    rw [zero_mul, bivPdf_zero h1 h2, Real.log_mul (normalPdf_pos h1 _).ne' (normalPdf_pos h2 _).ne']
  · intro d hd
    obtain ⟨h1, h2⟩ := h d hd
    apply bivPdf_pos
    nlinarith [mul_pos h1 h2]

/-- C74. `bivPdf v1 v2 c` is the density it claims to be: both marginals are the normal densities with
variances `v1` and `v2`, and the covariance is `c`. -/
theorem C74_density (v1 v2 c : ℝ) (h1 : 0 < v1) (h2 : 0 < v2) (hd : c ^ 2 < v1 * v2) :
    (∀ x, ∫ y, bivPdf v1 v2 c x y = normalPdf v1 x) ∧
    (∀ y, ∫ x, bivPdf v1 v2 c x y = normalPdf v2 y) ∧
    (∫ x, ∫ y, x * y * bivPdf v1 v2 c x y) = c := by
  have hd' : 0 < v1 * v2 - c ^ 2 := by linarith
  have marg : ∀ {u w : ℝ}, 0 < u → 0 < u * w - c ^ 2 → ∀ x, ∫ y, bivPdf u w c x y = normalPdf u x := by
    intro u w hu hdet x
    have hv : Real.toNNReal ((u * w - c ^ 2) / u) ≠ 0 := by
      rw [Ne, Real.toNNReal_eq_zero, not_le]; exact div_pos hdet hu
    simp only [bivPdf_factor hu hdet]
    rw [integral_const_mul, ProbabilityTheory.integral_gaussianPDFReal_eq_one _ hv, mul_one]
  have hsymm : ∀ x y, bivPdf v1 v2 c x y = bivPdf v2 v1 c y x := by
    intro x y
    unfold bivPdf
    rw [mul_comm v1 v2]
    congr 3
    ring
  refine ⟨marg h1 hd', fun y => ?_, ?_⟩
  · simp only [hsymm]
    exact marg h2 (by rw [mul_comm]; exact hd') y
  · have hv : Real.toNNReal ((v1 * v2 - c ^ 2) / v1) ≠ 0 := by
      rw [Ne, Real.toNNReal_eq_zero, not_le]; exact div_pos hd' h1
    have hv1 : Real.toNNReal v1 ≠ 0 := by
      rw [Ne, Real.toNNReal_eq_zero, not_le]; exact h1
    have inner : ∀ x, ∫ y, x * y * bivPdf v1 v2 c x y = c / v1 * (normalPdf v1 x * x ^ 2) := by
      intro x
      simp only [bivPdf_factor h1 hd']
      have e : ∀ y, x * y * (normalPdf v1 x *
          ProbabilityTheory.gaussianPDFReal (c / v1 * x) (Real.toNNReal ((v1 * v2 - c ^ 2) / v1)) y)
          = x * normalPdf v1 x * (ProbabilityTheory.gaussianPDFReal (c / v1 * x)
            (Real.toNNReal ((v1 * v2 - c ^ 2) / v1)) y • y) := by
        intro y; rw [smul_eq_mul]; ring
      simp only [e]
      rw [integral_const_mul, ← ProbabilityTheory.integral_gaussianReal_eq_integral_smul hv,
        ProbabilityTheory.integral_id_gaussianReal]
      ring
    simp only [inner]
    rw [integral_const_mul]
    have hm2 : ∫ x, normalPdf v1 x * x ^ 2 = v1 := by
      have := ProbabilityTheory.integral_gaussianReal_eq_integral_smul (μ := 0) hv1 (f := fun x : ℝ => x ^ 2)
      simp only [smul_eq_mul] at this
      unfold normalPdf
      rw [← this]
      have hvar := ProbabilityTheory.variance_id_gaussianReal (μ := 0) (v := Real.toNNReal v1)
      rw [ProbabilityTheory.variance_eq_integral (by fun_prop)] at hvar
      simp only [id, ProbabilityTheory.integral_id_gaussianReal, sub_zero] at hvar
      rw [hvar, Real.coe_toNNReal _ h1.le]
    rw [hm2]
    field_simp

/-- C74. A correlation outside `[-1, 1]` makes the likelihood NaN. -/
theorem C74_out_of_range (d : BivDay) (h : 0 < d.s1 ∧ 0 < d.s2) (rho : ℝ)
    (hr : 1 < |rho|) (r1 s1 r2 s2 : List XR) :
    cccLoglik (.fin d.r1 :: r1) (.fin d.s1 :: s1) (.fin d.r2 :: r2) (.fin d.s2 :: s2) (.fin rho)
      = .nan := by
  have h12 := mul_pos h.1 h.2
  have hneg : d.s1 * d.s2 * (1 - rho ^ 2) < 0 := by
    have : 1 < rho ^ 2 := by rw [← sq_abs]; nlinarith
    nlinarith
  have hp : 0 < 2 * Real.pi := by positivity
  unfold cccLoglik
  simp only [List.zip_cons_cons, List.zipWith_cons_cons, List.sum_cons, cccTerm, XR.fin_sq, XR.one_def,
    XR.fin_sub, XR.fin_mul, XR.log_neg hneg]
  simp

example : ∃ (l : List BivDay) (rho : ℝ), l.length = 2 ∧ rho ≠ 0 ∧ |rho| < 1 ∧
    ∀ d ∈ l, 0 < d.s1 ∧ 0 < d.s2 :=
  ⟨[⟨1, 2, -1, 3⟩, ⟨0, 1, 2, 5⟩], 1 / 2, rfl, by norm_num, by rw [abs_lt]; norm_num, by simp⟩

/-! ### C75 -/

/-- C75. When both univariate models hold the log-likelihoods of their stored residuals and variances,
minus the DCC objective is the full bivariate normal log-likelihood with the conditional correlations
clipped to `[-0.99, 0.99]`. -/
theorem C75_decomposition {V : Type} (cpp : Bool) (fitU : GarchObj V → Except PyErr (GarchObj V))
    (o o' : DccObj V) (l : List BivDay) (h : ∀ d ∈ l, 0 < d.s1 ∧ 0 < d.s2)
    (hr1 : o.model1.resids = l.map fun d => .fin d.r1) (hs1 : o.model1.sigma2 = l.map fun d => .fin d.s1)
    (hr2 : o.model2.resids = l.map fun d => .fin d.r2) (hs2 : o.model2.sigma2 = l.map fun d => .fin d.s2)
    (mu1 mu2 : XR) (v1 v2 : V)
    (hl1 : o.model1.params = some (mu1, v1, loglik o.model1.resids o.model1.sigma2))
    (hl2 : o.model2.params = some (mu2, v2, loglik o.model2.resids o.model2.sigma2))
    (a b : XR) (rhos : List ℝ) (hlen : rhos.length = l.length)
    (hc : condCorr cpp fitU o a b = .ok (o', rhos.map XR.fin)) :
    dccObjective cpp fitU o (a, b) = .ok (o', .fin (-Real.log
      ((List.zip l rhos).map fun q =>
        bivPdf q.1.s1 q.1.s2 (max (-(99 / 100)) (min q.2 (99 / 100)) * Real.sqrt (q.1.s1 * q.1.s2))
          q.1.r1 q.1.r2).prod)) := by
  have hz1 : stdResid o.model1.resids o.model1.sigma2 = l.map fun d => .fin d.z1 := by
    rw [hr1, hs1]; exact stdResid_col fun d hd => (h d hd).1
  have hz2 : stdResid o.model2.resids o.model2.sigma2 = l.map fun d => .fin d.z2 := by
    rw [hr2, hs2]; exact stdResid_col fun d hd => (h d hd).2
  have e1 := loglik_fin (l.map fun d => (d.r1, d.s1)) (by
    intro d hd; obtain ⟨x, hx, rfl⟩ := List.mem_map.mp hd; exact (h x hx).1)
  have e2 := loglik_fin (l.map fun d => (d.r2, d.s2)) (by
    intro d hd; obtain ⟨x, hx, rfl⟩ := List.mem_map.mp hd; exact (h x hx).2)
  simp only [List.map_map, Function.comp_def] at e1 e2
  have hL : llOf o.model1 + llOf o.model2 = .fin ((l.map fun d => Real.log (normalPdf d.s1 d.r1)).sum
      + (l.map fun d => Real.log (normalPdf d.s2 d.r2)).sum) := by
    unfold llOf
    rw [hl1, hl2, hr1, hs1, hr2, hs2, e1, e2]; rfl
  unfold dccObjective
  simp only [hc, bind, Except.bind, pure, Except.pure, hz1, hz2]
  rw [if_neg (by simp [hlen])]
  rw [hL]
  congr 2
  have hterm : List.zipWith (fun (z : XR × XR) x => dccTerm z.1 z.2 x)
      (List.zip (l.map fun d => XR.fin d.z1) (l.map fun d => XR.fin d.z2))
      ((rhos.map XR.fin).map fun x => Np.clip x (.fin (-(99 / 100))) (.fin (99 / 100)))
      = (List.zip l rhos).map fun q => .fin (Real.log (q.1.pdf (clip99 q.2))
          - Real.log (normalPdf q.1.s1 q.1.r1) - Real.log (normalPdf q.1.s2 q.1.r2)) := by
    rw [List.zip, zipWith_maps, List.map_map, List.zipWith_map, List.zip, List.map_zipWith]
    clear hc hlen hL e1 e2 hz1 hz2 hr1 hs1 hr2 hs2 hl1 hl2
    simp only [Function.comp_apply, clip99_eq]
    induction l generalizing rhos with
    | nil => simp
    | cons d t ih =>
      cases rhos with
      | nil => simp
      | cons x xs =>
        simp only [List.zipWith_cons_cons]
        rw [dccTerm_fin (h d (by simp)) (clip99_sq x)]
        congr 1
        exact ih (fun e he => h e (by simp [he])) xs
  rw [hterm, XR.sum_fin, XR.fin_add, XR.fin_neg]
  congr 2
  have hpos : ∀ q ∈ List.zip l rhos, 0 < q.1.pdf (clip99 q.2) := fun q hq =>
    pdf_pos (h q.1 (List.of_mem_zip hq).1) (clip99_sq q.2)
  have hfin := log_prod_map (List.zip l rhos) (fun q => q.1.pdf (clip99 q.2)) hpos
  have hgoal : ((List.zip l rhos).map fun q =>
        bivPdf q.1.s1 q.1.s2 (max (-(99 / 100)) (min q.2 (99 / 100)) * Real.sqrt (q.1.s1 * q.1.s2))
          q.1.r1 q.1.r2) = (List.zip l rhos).map fun q => q.1.pdf (clip99 q.2) := rfl
  rw [hgoal, ← hfin]
  have hfst : ∀ f : BivDay → ℝ, (l.map f).sum = ((List.zip l rhos).map fun q => f q.1).sum := by
    intro f
    have : (List.zip l rhos).map (fun q => f q.1) = l.map f := by
      rw [show (fun q : BivDay × ℝ => f q.1) = f ∘ Prod.fst from rfl, ← List.map_map,
        List.map_fst_zip (by omega)]
    rw [this]
  rw [hfst, hfst]
  generalize List.zip l rhos = m
  induction m with
  | nil => simp
  | cons q t ih => simp only [List.map_cons, List.sum_cons]; linarith

/-- C75. Before the univariate models are estimated the objective is NaN (or raises), even though
evaluating it estimates them. -/
theorem C75_unfitted {V : Type} (cpp : Bool) (fitU : GarchObj V → Except PyErr (GarchObj V))
    (o o' : DccObj V) (h : o.model1.params = none ∨ o.model2.params = none) (p : XR × XR) (v : XR)
    (hv : dccObjective cpp fitU o p = .ok (o', v)) : v = .nan := by
  unfold dccObjective at hv
  simp only [bind, Except.bind, pure, Except.pure] at hv
  cases hc : condCorr cpp fitU o p.1 p.2 with
  | error e => rw [hc] at hv; simp at hv
  | ok r =>
    rw [hc] at hv
    simp only at hv
    have : llOf o.model1 + llOf o.model2 = .nan := by
      rcases h with h | h <;> simp [llOf, h]
    split_ifs at hv
    all_goals
      injection hv with hv
      rw [Prod.mk.injEq] at hv
      rw [← hv.2, this]; simp

/-! ### C76 -/

/-- the univariate models after `fit` hold residuals and positive variances `l` -/
def Holds {V : Type} (o : DccObj V) (l : List BivDay) : Prop :=
  o.model1.resids = (l.map fun d => .fin d.r1) ∧ o.model1.sigma2 = (l.map fun d => .fin d.s1) ∧
  o.model2.resids = (l.map fun d => .fin d.r2) ∧ o.model2.sigma2 = (l.map fun d => .fin d.s2) ∧
  ∀ d ∈ l, 0 < d.s1 ∧ 0 < d.s2

/-- standardised residuals from which the correlations can be computed: not all zero (C++),
respectively not constant (Python) -/
def Usable2 (cpp : Bool) (l : List BivDay) : Prop :=
  if cpp then (∃ d ∈ l, d.z1 ≠ 0) ∧ (∃ d ∈ l, d.z2 ≠ 0)
  else 0 < sampleCov l BivDay.z1 BivDay.z1 ∧ 0 < sampleCov l BivDay.z2 BivDay.z2

theorem condCorr_fin {V : Type} (cpp : Bool) {fitU : GarchObj V → Except PyErr (GarchObj V)}
    {o o' : DccObj V} (hfit : refit fitU o = .ok o') {l : List BivDay} (hl : Holds o' l)
    (hu : Usable2 cpp l) {a b : ℝ} (hw : DccWeights a b) :
    condCorr cpp fitU o (.fin a) (.fin b) = .ok (o', ((List.range l.length).map fun t =>
      (dccQ a b (qbarOf cpp l BivDay.z1 BivDay.z2) (zAt l BivDay.z1 BivDay.z2) t).corr).map XR.fin) := by
  obtain ⟨h1, h2, h3, h4, h5⟩ := hl
  have hz1 : stdResid o'.model1.resids o'.model1.sigma2 = col l BivDay.z1 := by
    rw [h1, h2]; exact stdResid_col fun d hd => (h5 d hd).1
  have hz2 : stdResid o'.model2.resids o'.model2.sigma2 = col l BivDay.z2 := by
    rw [h3, h4]; exact stdResid_col fun d hd => (h5 d hd).2
  unfold condCorr
  simp only [hfit, bind, Except.bind, pure, Except.pure, hz1, hz2]
  rw [dccKernel_fin cpp hw hu, List.map_map]
  rfl

/-- C76. For admissible weights and usable residuals the conditional correlations are one number in
`[-1, 1]` per day, in both implementations. -/
theorem C76_correlations {V : Type} (cpp : Bool) (fitU : GarchObj V → Except PyErr (GarchObj V))
    (o o' : DccObj V) (hfit : refit fitU o = .ok o') (l : List BivDay) (hl : Holds o' l)
    (hu : Usable2 cpp l) (a b : ℝ) (ha : 0 ≤ a) (hb : 0 ≤ b) (hab : a + b ≤ 1) (ha1 : a < 1) :
    ∃ rhos : List ℝ, condCorr cpp fitU o (.fin a) (.fin b) = .ok (o', rhos.map XR.fin) ∧
      rhos.length = l.length ∧ ∀ r ∈ rhos, -1 ≤ r ∧ r ≤ 1 := by
  have hw : DccWeights a b := ⟨ha, hb, hab, ha1⟩
  refine ⟨_, condCorr_fin cpp hfit hl hu hw, by simp, ?_⟩
  intro r hr
  obtain ⟨t, _, rfl⟩ := List.mem_map.mp hr
  have := corr_sq_le (dccQ_psd hw (qbarOf_psd hu) (zAt l BivDay.z1 BivDay.z2) t)
  exact abs_le.mp ((sq_le_one_iff_abs_le_one _).mp this)

/-- C76. They are the correlations of the DCC matrices: `Q_0 = Q̄`,
`Q_(t+1) = (1-a-b) Q̄ + a z_t z_tᵀ + b Q_t`, `rho_t = q12 / √(q11 q22)`, where `Q̄` is the sample correlation
matrix (Python) or the matrix of second moments (C++). -/
theorem C76_recursion {V : Type} (cpp : Bool) (fitU : GarchObj V → Except PyErr (GarchObj V))
    (o o' : DccObj V) (hfit : refit fitU o = .ok o') (l : List BivDay) (hl : Holds o' l)
    (hu : Usable2 cpp l) (a b : ℝ) (ha : 0 ≤ a) (hb : 0 ≤ b) (hab : a + b ≤ 1) (ha1 : a < 1)
    (Q : ℕ → Sym2) (hQ0 : Q 0 = if cpp then momentMat l BivDay.z1 BivDay.z2
      else corrMat l BivDay.z1 BivDay.z2)
    (hQ : ∀ t d, l[t]? = some d → Q (t + 1) = dccNext a b (Q 0) (Q t) d.z1 d.z2) :
    condCorr cpp fitU o (.fin a) (.fin b)
      = .ok (o', (List.range l.length).map fun t => .fin ((Q t).z / Real.sqrt ((Q t).x * (Q t).y))) := by
  have hw : DccWeights a b := ⟨ha, hb, hab, ha1⟩
  rw [condCorr_fin cpp hfit hl hu hw, List.map_map]
  congr 2
  apply List.map_congr_left
  intro t ht
  have ht := List.mem_range.mp ht
  have : ∀ t, t < l.length → Q t = dccQ a b (qbarOf cpp l BivDay.z1 BivDay.z2)
      (zAt l BivDay.z1 BivDay.z2) t := by
    intro t
    induction t with
    | zero => intro _; rw [hQ0]; rfl
    | succ t ih =>
      intro hlt
      have hg : l[t]? = some l[t] := List.getElem?_eq_getElem (by omega)
      rw [hQ t _ hg, ih (by omega), dccQ, hQ0]
      have : zAt l BivDay.z1 BivDay.z2 t = (l[t].z1, l[t].z2) := by
        unfold zAt
        rw [List.getD_eq_getElem?_getD, List.getElem?_map, hg]; rfl
      rw [this]; rfl
  rw [this t ht]; rfl

/-- C76. With `a = 0` the conditional correlations are constant. -/
theorem C76_constant {V : Type} (cpp : Bool) (fitU : GarchObj V → Except PyErr (GarchObj V))
    (o o' : DccObj V) (hfit : refit fitU o = .ok o') (l : List BivDay) (hl : Holds o' l)
    (hu : Usable2 cpp l) (b : ℝ) (hb : 0 ≤ b) (hb1 : b ≤ 1) :
    ∃ r : ℝ, condCorr cpp fitU o (.fin 0) (.fin b) = .ok (o', List.replicate l.length (.fin r)) := by
  have hw : DccWeights 0 b := ⟨le_rfl, hb, by linarith, one_pos⟩
  refine ⟨(qbarOf cpp l BivDay.z1 BivDay.z2).corr, ?_⟩
  rw [condCorr_fin cpp hfit hl hu hw]
  have : ∀ t, dccQ 0 b (qbarOf cpp l BivDay.z1 BivDay.z2) (zAt l BivDay.z1 BivDay.z2) t
      = qbarOf cpp l BivDay.z1 BivDay.z2 := by
    intro t
    induction t with
    | zero => rfl
    | succ t ih =>
      rw [dccQ, ih]
      generalize qbarOf cpp l BivDay.z1 BivDay.z2 = q
      cases q
      simp only [dccNext, Sym2.mk.injEq]
      refine ⟨by ring, by ring, by ring⟩
  simp only [this, List.map_map, Function.comp_def, List.map_const', List.length_range,
    List.map_replicate]

def demoDays : List BivDay := [⟨1, 1, 1, 1⟩, ⟨-1, 1, 1, 1⟩, ⟨-1, 1, -1, 1⟩, ⟨1, 1, -1, 1⟩]

theorem demo_z1 : ∀ d ∈ demoDays, d.z1 = d.r1 ∧ d.z2 = d.r2 := by
  intro d hd
  simp only [demoDays, List.mem_cons, List.not_mem_nil, or_false] at hd
  rcases hd with rfl | rfl | rfl | rfl <;> simp [BivDay.z1, BivDay.z2]

theorem demo_mean : Spec.mean demoDays BivDay.z1 = 0 ∧ Spec.mean demoDays BivDay.z2 = 0 := by
  constructor <;> simp [Spec.mean, demoDays, BivDay.z1, BivDay.z2]

theorem demo_cov : sampleCov demoDays BivDay.z1 BivDay.z1 = 4 / 3 ∧
    sampleCov demoDays BivDay.z2 BivDay.z2 = 4 / 3 ∧ sampleCov demoDays BivDay.z1 BivDay.z2 = 0 := by
  unfold sampleCov
  rw [demo_mean.1, demo_mean.2]
  refine ⟨?_, ?_, ?_⟩ <;> simp [demoDays, BivDay.z1, BivDay.z2] <;> norm_num

theorem demo_usable (cpp : Bool) : Usable2 cpp demoDays := by
  cases cpp
  · simp only [Usable2, Bool.false_eq_true, if_false, demo_cov.1, demo_cov.2.1]; norm_num
  · refine ⟨⟨⟨1, 1, 1, 1⟩, by simp [demoDays], by simp [BivDay.z1]⟩,
      ⟨1, 1, 1, 1⟩, by simp [demoDays], by simp [BivDay.z2]⟩

/-- an object whose univariate models are estimated -/
def demoObj (ll : XR) : DccObj GarchVar where
  model1 := { returns := demoDays.map fun d => .fin d.r1, zeroMean := true, success := true,
              params := some (0, nanVar, ll), resids := demoDays.map fun d => .fin d.r1,
              sigma2 := demoDays.map fun d => .fin d.s1 }
  model2 := { returns := demoDays.map fun d => .fin d.r2, zeroMean := true, success := true,
              params := some (0, nanVar, ll), resids := demoDays.map fun d => .fin d.r2,
              sigma2 := demoDays.map fun d => .fin d.s2 }

theorem demo_holds (ll : XR) : Holds (demoObj ll) demoDays :=
  ⟨rfl, rfl, rfl, rfl, by simp [demoDays]⟩

theorem demo_refit (cpp : Bool) (opt : Optimizer (XR × GarchVar)) (ll : XR) :
    refit (uFit cpp opt) (demoObj ll) = .ok (demoObj ll) := by
  simp [refit, uFit, garchFit, demoObj, bind, Except.bind, pure, Except.pure]

example (cpp : Bool) (opt : Optimizer (XR × GarchVar)) : ∃ (o : DccObj GarchVar) (l : List BivDay),
    refit (uFit cpp opt) o = .ok o ∧ Holds o l ∧ Usable2 cpp l :=
  ⟨demoObj 0, demoDays, demo_refit cpp opt 0, demo_holds 0, demo_usable cpp⟩

/-! ### Concrete cases of the theorems above -/

/-- Two days of residuals, correlation one half. -/
example := C74_bivariate_likelihood [⟨1, 2, -1, 3⟩, ⟨0, 1, 2, 5⟩] (by simp) (1 / 2) (by rw [abs_lt]; norm_num)
example := C74_independent [⟨1, 2, -1, 3⟩, ⟨0, 1, 2, 5⟩] (by simp)
example := C74_density 2 3 1 (by norm_num) (by norm_num) (by norm_num)
example := C74_out_of_range ⟨1, 2, -1, 3⟩ (by simp) 2 (by norm_num) [] [] [] []
/-- The correlations of four days, for the weights of the starting grid. -/
example (cpp : Bool) (opt : Optimizer (XR × GarchVar)) := C76_correlations cpp (uFit cpp opt) (demoObj 0) (demoObj 0)
  (demo_refit cpp opt 0) demoDays (demo_holds 0) (demo_usable cpp) (1 / 100) (8 / 10) (by norm_num) (by norm_num) (by norm_num)
  (by norm_num)
example (cpp : Bool) (opt : Optimizer (XR × GarchVar)) := C76_constant cpp (uFit cpp opt) (demoObj 0) (demoObj 0)
  (demo_refit cpp opt 0) demoDays (demo_holds 0) (demo_usable cpp) (8 / 10) (by norm_num) (by norm_num)

end
end Frds.Props

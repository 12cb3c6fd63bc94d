import Verif.Props.Mgarch

/-! Properties C77-C80: implementations, starting values, estimation of the bivariate models. -/
set_option linter.unusedSimpArgs false

namespace Frds.Props
noncomputable section
open Frds Frds.Model Frds.Spec Classical

/-! ### C77 -/

/-- C77. If both standardised residual series have mean zero and mean square one, the Python and the
C++ correlations agree, for every `a` and `b`. -/
theorem C77_agree {V : Type} (fitU : GarchObj V → Except PyErr (GarchObj V)) (o o' : DccObj V)
    (hfit : refit fitU o = .ok o') (l : List BivDay) (hl : Holds o' l)
    (hm1 : Spec.mean l BivDay.z1 = 0) (hm2 : Spec.mean l BivDay.z2 = 0)
    (hv1 : Spec.mean l (fun d => d.z1 ^ 2) = 1) (hv2 : Spec.mean l (fun d => d.z2 ^ 2) = 1)
    (a b : XR) :
    condCorr true fitU o a b = condCorr false fitU o a b := by
  have hne : l ≠ [] := by rintro rfl; simp [Spec.mean] at hv1
  have hn : (0 : ℝ) < l.length := by have := List.length_pos_iff.mpr hne; positivity
  have hs1 : (l.map fun d => d.z1 ^ 2).sum = (l.length : ℝ) := by
    unfold Spec.mean at hv1; field_simp at hv1; exact hv1
  have hs2 : (l.map fun d => d.z2 ^ 2).sum = (l.length : ℝ) := by
    unfold Spec.mean at hv2; field_simp at hv2; exact hv2
  have hn1 : (1 : ℝ) < l.length := by
    rcases Nat.lt_or_ge 1 l.length with h | h
    · exact_mod_cast h
    · exfalso
      have : l.length = 1 := by have := List.length_pos_iff.mpr hne; omega
      obtain ⟨d, rfl⟩ := List.length_eq_one_iff.mp this
      simp [Spec.mean] at hm1 hs1
      rw [hm1] at hs1; norm_num at hs1
  have hc : ∀ f g : BivDay → ℝ, Spec.mean l f = 0 → Spec.mean l g = 0 →
      sampleCov l f g = (l.map fun d => f d * g d).sum / ((l.length : ℝ) - 1) := by
    intro f g hf hg
    unfold sampleCov; simp only [hf, hg, sub_zero]
  have hc1 : sampleCov l BivDay.z1 BivDay.z1 = l.length / ((l.length : ℝ) - 1) := by
    rw [hc _ _ hm1 hm1]; simp only [← sq]; rw [hs1]
  have hc2 : sampleCov l BivDay.z2 BivDay.z2 = l.length / ((l.length : ℝ) - 1) := by
    rw [hc _ _ hm2 hm2]; simp only [← sq]; rw [hs2]
  have hp : 0 < (l.length : ℝ) / ((l.length : ℝ) - 1) := div_pos hn (by linarith)
  have hu0 : NonDeg false l BivDay.z1 BivDay.z2 := by
    simp only [NonDeg, Bool.false_eq_true, if_false, hc1, hc2]; exact ⟨hp, hp⟩
  have hex : ∀ f : BivDay → ℝ, (l.map fun d => f d ^ 2).sum = (l.length : ℝ) → ∃ d ∈ l, f d ≠ 0 := by
    intro f hf
    by_contra hcon
    push Not at hcon
    have : (l.map fun d => f d ^ 2) = l.map fun _ => (0 : ℝ) :=
      List.map_congr_left fun d hd => by rw [hcon d hd]; norm_num
    rw [this] at hf
    simp at hf
    linarith
  have hu1 : NonDeg true l BivDay.z1 BivDay.z2 := ⟨hex _ hs1, hex _ hs2⟩
  have hq : qbarOf true l BivDay.z1 BivDay.z2 = qbarOf false l BivDay.z1 BivDay.z2 := by
    simp only [qbarOf, if_true, Bool.false_eq_true, if_false, momentMat, corrMat, hv1, hv2]
    congr 1
    unfold sampleCorr
    rw [hc1, hc2, Real.mul_self_sqrt hp.le, hc _ _ hm1 hm2, Spec.mean]
    have : (l.length : ℝ) - 1 ≠ 0 := by linarith
    field_simp
  obtain ⟨h1, h2, h3, h4, h5⟩ := hl
  have hz1 : stdResid o'.model1.resids o'.model1.sigma2 = col l BivDay.z1 := by
    rw [h1, h2]; exact stdResid_col fun d hd => (h5 d hd).1
  have hz2 : stdResid o'.model2.resids o'.model2.sigma2 = col l BivDay.z2 := by
    rw [h3, h4]; exact stdResid_col fun d hd => (h5 d hd).2
  have htake : (col l BivDay.z2).take (col l BivDay.z1).length = col l BivDay.z2 :=
    List.take_of_length_le (by simp [col])
  unfold condCorr
  simp only [hfit, bind, Except.bind, pure, Except.pure, hz1, hz2]
  have hk : dccKernel true a b (col l BivDay.z1) (col l BivDay.z2)
      = dccKernel false a b (col l BivDay.z1) (col l BivDay.z2) := by
    unfold dccKernel
    rw [if_neg (by simp), if_neg (by simp [col]), if_neg (by simpa [col] using hne),
      if_neg (by simp [col]), if_neg (by simp [col]), if_neg (by simpa [col] using hne)]
    simp only
    rw [htake, dccQbar_fin hu0, dccQbar_fin hu1, hq]
  rw [hk]

/-- C77. In general they differ: residuals `[1, 3]` and `[1, 2]` with unit variances give a first
correlation of 1 in Python and of `3.5 / √12.5 < 1` in C++, whatever `a` and `b`. -/
theorem C77_differ (a b : XR) : ∃ z1 z2 p c : List XR,
    z1 = [.fin 1, .fin 3] ∧ z2 = [.fin 1, .fin 2] ∧
    dccKernel false a b z1 z2 = .ok p ∧ dccKernel true a b z1 z2 = .ok c ∧
    p.head? = some (.fin 1) ∧ c.head? = some (.fin (7 / 2 / Real.sqrt (25 / 2))) ∧
    (7 / 2 / Real.sqrt (25 / 2) : ℝ) < 1 ∧ p ≠ c := by
  let l : List (ℝ × ℝ) := [(1, 1), (3, 2)]
  have hcov : sampleCov l Prod.fst Prod.fst = 2 ∧ sampleCov l Prod.snd Prod.snd = 1 / 2 ∧
      sampleCov l Prod.fst Prod.snd = 1 := by
    refine ⟨?_, ?_, ?_⟩ <;> simp [sampleCov, Spec.mean, l] <;> norm_num
  have hp : NonDeg false l Prod.fst Prod.snd := by
    simp only [NonDeg, Bool.false_eq_true, if_false, hcov.1, hcov.2.1]; norm_num
  have hc : NonDeg true l Prod.fst Prod.snd :=
    ⟨⟨(1, 1), by simp [l], by norm_num⟩, (1, 1), by simp [l], by norm_num⟩
  have hcol1 : col l Prod.fst = [.fin 1, .fin 3] := rfl
  have hcol2 : col l Prod.snd = [.fin 1, .fin 2] := rfl
  have hrp := rho_fin (qbarOf_psd hp)
  have hrc := rho_fin (qbarOf_psd hc)
  rw [← dccQbar_fin hp, hcol1, hcol2] at hrp
  rw [← dccQbar_fin hc, hcol1, hcol2] at hrc
  have vp : (qbarOf false l Prod.fst Prod.snd).corr = 1 := by
    simp only [qbarOf, Bool.false_eq_true, if_false, Sym2.corr, corrMat, mul_one, Real.sqrt_one, div_one,
      sampleCorr, hcov.1, hcov.2.1, hcov.2.2]
    rw [← Real.sqrt_mul (by norm_num)]; norm_num
  have vc : (qbarOf true l Prod.fst Prod.snd).corr = 7 / 2 / Real.sqrt (25 / 2) := by
    simp only [qbarOf, if_true, Sym2.corr, momentMat, Spec.mean, l]
    norm_num
  have hlt : (7 / 2 / Real.sqrt (25 / 2) : ℝ) < 1 := by
    rw [div_lt_one (Real.sqrt_pos.mpr (by norm_num))]
    exact Real.lt_sqrt_of_sq_lt (by norm_num)
  rw [vp] at hrp
  rw [vc] at hrc
  have hk : ∀ cpp, dccKernel cpp a b [.fin 1, .fin 3] [.fin 1, .fin 2]
      = .ok ((dccQbar cpp [.fin 1, .fin 3] [.fin 1, .fin 2]).rho
          :: dccLoop a b (dccQbar cpp [.fin 1, .fin 3] [.fin 1, .fin 2])
            (dccQbar cpp [.fin 1, .fin 3] [.fin 1, .fin 2]) [(.fin 1, .fin 1)]) := by
    intro cpp
    unfold dccKernel
    rw [if_neg (by simp), if_neg (by simp), if_neg (by simp)]
    rfl
  refine ⟨_, _, _, _, rfl, rfl, hk false, hk true, ?_, ?_, hlt, ?_⟩
  · rw [List.head?_cons, hrp]
  · rw [List.head?_cons, hrc]
  · intro h
    injection h with h _
    rw [hrp, hrc] at h
    injection h with h
    exact absurd h.symm hlt.ne

example : ∃ l : List BivDay, l.length = 4 ∧ Spec.mean l BivDay.z1 = 0 ∧ Spec.mean l BivDay.z2 = 0 ∧
    Spec.mean l (fun d => d.z1 ^ 2) = 1 ∧ Spec.mean l (fun d => d.z2 ^ 2) = 1 :=
  ⟨demoDays, rfl, demo_mean.1, demo_mean.2, by simp [Spec.mean, demoDays, BivDay.z1]; norm_num,
    by simp [Spec.mean, demoDays, BivDay.z2]; norm_num⟩

/-! ### C78 -/

theorem foldlM_inv {α β : Type} {f : β → α → Except PyErr β} {P : β → Prop} {l : List α} {b b' : β}
    (hstep : ∀ b, P b → ∀ x ∈ l, ∀ b', f b x = .ok b' → P b') (hb : P b)
    (h : l.foldlM f b = .ok b') : P b' := by
  induction l generalizing b with
  | nil => simp [pure, Except.pure] at h; rwa [← h]
  | cons x t ih =>
    rw [List.foldlM_cons] at h
    simp only [bind, Except.bind] at h
    cases hx : f b x with
    | error e => rw [hx] at h; simp at h
    | ok c =>
      rw [hx] at h
      exact ih (fun b hb x hx => hstep b hb x (by simp [hx])) (hstep b hb x (by simp) c hx) h

/-- C78. Whatever the data, the starting values are feasible (`a, b ≥ 0`, `a + b < 1`) and are either the
default `(0.01, 0.8)` or a point of the 10 x 10 grid. -/
theorem C78_feasible {V : Type} (cpp : Bool) (fitU : GarchObj V → Except PyErr (GarchObj V))
    (o o' : DccObj V) (a b : ℝ) (h : dccStart cpp fitU o = .ok (o', (a, b))) :
    0 ≤ a ∧ 0 ≤ b ∧ a + b < 1 ∧ ((a = 1 / 100 ∧ b = 8 / 10) ∨
      ∃ i j : ℕ, i < 10 ∧ j < 10 ∧ a = 1 / 100 + i * (49 / 100 / 9) ∧ b = 6 / 10 + j * (35 / 100 / 9)) := by
  have key := foldlM_inv (P := fun st : DccObj V × (ℝ × ℝ) => 0 ≤ st.2.1 ∧ 0 ≤ st.2.2 ∧ st.2.1 + st.2.2 < 1 ∧
      ((st.2.1 = 1 / 100 ∧ st.2.2 = 8 / 10) ∨
        ∃ i j : ℕ, i < 10 ∧ j < 10 ∧ st.2.1 = 1 / 100 + i * (49 / 100 / 9) ∧
          st.2.2 = 6 / 10 + j * (35 / 100 / 9))) ?_ ?_ h
  · exact key
  · intro st hst p hp st' hs
    simp only at hs
    by_cases hf : 1 ≤ p.1 + p.2
    · rw [if_pos hf] at hs
      injection hs with hs
      rwa [← hs]
    · rw [if_neg hf] at hs
      simp only [bind, Except.bind, pure, Except.pure] at hs
      cases hd : dccObjective cpp fitU st.1 (.fin p.1, .fin p.2) with
      | error e => rw [hd] at hs; simp at hs
      | ok r =>
        rw [hd] at hs
        injection hs with hs
        rw [← hs]
        simp only
        split_ifs
        · simp only [dccGrid, aGrid, bGrid, List.mem_flatMap, List.mem_map, List.mem_range] at hp
          obtain ⟨x, ⟨i, hi, rfl⟩, y, ⟨j, hj, rfl⟩, rfl⟩ := hp
          refine ⟨by positivity, by positivity, not_le.mp hf, Or.inr ⟨i, j, hi, hj, rfl, rfl⟩⟩
        · exact hst
  · norm_num

theorem dccStart_fold {V : Type} (cpp : Bool) (fitU : GarchObj V → Except PyErr (GarchObj V))
    (o : DccObj V) (val : ℝ × ℝ → XR) (g : List (ℝ × ℝ)) (d : ℝ × ℝ)
    (h : ∀ p ∈ g, p.1 + p.2 < 1 → dccObjective cpp fitU o (.fin p.1, .fin p.2) = .ok (o, val p)) :
    g.foldlM (fun (st : DccObj V × (ℝ × ℝ)) p =>
      if 1 ≤ p.1 + p.2 then (.ok st : Except PyErr _)
      else do
        let r ← dccObjective cpp fitU st.1 (.fin p.1, .fin p.2)
        let ll := -r.2
        return (r.1, if .ninf < ll then p else st.2)) (o, d)
      = .ok (o, g.foldl (fun c p => if p.1 + p.2 < 1 ∧ .ninf < -(val p) then p else c) d) := by
  induction g generalizing d with
  | nil => rfl
  | cons p t ih =>
    rw [List.foldlM_cons, List.foldl_cons]
    by_cases hf : 1 ≤ p.1 + p.2
    · rw [if_pos hf, if_neg (by intro hc; linarith [hc.1])]
      simp only [bind, Except.bind]
      exact ih _ fun q hq => h q (by simp [hq])
    · have hf' := not_le.mp hf
      rw [if_neg hf, h p (by simp) hf']
      simp only [bind, Except.bind, pure, Except.pure]
      rw [if_congr (and_iff_right hf') rfl rfl]
      exact ih _ fun q hq => h q (by simp [hq])

theorem foldl_infeasible (val : ℝ × ℝ → XR) (g : List (ℝ × ℝ)) (d : ℝ × ℝ)
    (h : ∀ p ∈ g, 1 ≤ p.1 + p.2) :
    g.foldl (fun c p => if p.1 + p.2 < 1 ∧ .ninf < -(val p) then p else c) d = d := by
  induction g with
  | nil => rfl
  | cons p t ih =>
    rw [List.foldl_cons, if_neg (by intro hc; linarith [hc.1, h p (by simp)])]
    exact ih fun q hq => h q (by simp [hq])

theorem dccGrid_split : ∃ before after : List (ℝ × ℝ),
    dccGrid = before ++ (1 / 100 + 7 * (49 / 100 / 9), 6 / 10) :: after ∧ ∀ p ∈ after, 1 ≤ p.1 + p.2 := by
  refine ⟨(aGrid.take 7).flatMap fun a => bGrid.map fun b => (a, b),
    ((List.range 9).map fun j : ℕ => ((1 / 100 + 7 * (49 / 100 / 9) : ℝ),
        (6 / 10 + ((j + 1 : ℕ) : ℝ) * (35 / 100 / 9) : ℝ)))
      ++ (aGrid.drop 8).flatMap fun a => bGrid.map fun b => (a, b), ?_, ?_⟩
  · have hsplit : aGrid = aGrid.take 7 ++ (1 / 100 + 7 * (49 / 100 / 9)) :: aGrid.drop 8 := by
      simp [aGrid, List.range_succ]
    have hb : bGrid = (6 / 10 : ℝ) :: (List.range 9).map fun j : ℕ =>
        (6 / 10 + ((j + 1 : ℕ) : ℝ) * (35 / 100 / 9) : ℝ) := by
      simp [bGrid, List.range_succ]; norm_num
    conv_lhs => rw [dccGrid, hsplit, List.flatMap_append, List.flatMap_cons]
    congr 1
    conv_lhs => enter [1]; rw [hb]
    simp [Function.comp_def]
  · intro p hp
    rcases List.mem_append.mp hp with hp | hp
    · obtain ⟨j, _, rfl⟩ := List.mem_map.mp hp
      have : (0 : ℝ) ≤ j := Nat.cast_nonneg j
      push_cast
      linarith
    · simp only [List.mem_flatMap, List.mem_map] at hp
      obtain ⟨a, ha, b, hb, rfl⟩ := hp
      have ha' : a = 1 / 100 + 8 * (49 / 100 / 9) ∨ a = 1 / 100 + 9 * (49 / 100 / 9) := by
        simpa [aGrid, List.range_succ] using ha
      have hb' : 6 / 10 ≤ b := by
        simp only [bGrid, List.mem_map] at hb
        obtain ⟨j, _, rfl⟩ := hb
        have : (0 : ℝ) ≤ j := Nat.cast_nonneg j
        linarith
      rcases ha' with rfl | rfl <;> simp only <;> linarith

/-- correlation part of one day's log-likelihood -/
def dayTerm (z : ℝ × ℝ) (rho : ℝ) : ℝ :=
  -(1 / 2) * (-(z.1 ^ 2 + z.2 ^ 2) + Real.log (1 - rho ^ 2)
    + (z.1 ^ 2 + z.2 ^ 2 - 2 * rho * z.1 * z.2) / (1 - rho ^ 2))

/-- the objective is finite at every admissible point once the univariate models are estimated -/
theorem dccObjective_fin {V : Type} (cpp : Bool) {fitU : GarchObj V → Except PyErr (GarchObj V)}
    {o : DccObj V} (hfit : refit fitU o = .ok o) {l : List BivDay} (hl : Holds o l)
    (hu : Usable2 cpp l) {ll1 ll2 : ℝ} (h1 : llOf o.model1 = .fin ll1) (h2 : llOf o.model2 = .fin ll2)
    {a b : ℝ} (hw : DccWeights a b) :
    dccObjective cpp fitU o (.fin a, .fin b) = .ok (o, .fin (-(ll1 + ll2 +
      ((List.range l.length).map fun t => dayTerm (zAt l BivDay.z1 BivDay.z2 t)
        (clip99 (dccQ a b (qbarOf cpp l BivDay.z1 BivDay.z2) (zAt l BivDay.z1 BivDay.z2) t).corr)).sum))) := by
  have hc := condCorr_fin cpp hfit hl hu hw
  obtain ⟨e1, e2, e3, e4, e5⟩ := hl
  have hz1 : stdResid o.model1.resids o.model1.sigma2 = col l BivDay.z1 := by
    rw [e1, e2]; exact stdResid_col fun d hd => (e5 d hd).1
  have hz2 : stdResid o.model2.resids o.model2.sigma2 = col l BivDay.z2 := by
    rw [e3, e4]; exact stdResid_col fun d hd => (e5 d hd).2
  unfold dccObjective
  simp only [hc, bind, Except.bind, pure, Except.pure, hz1, hz2]
  rw [if_neg (by simp [col]), h1, h2]
  congr 2
  have hzip : List.zip (col l BivDay.z1) (col l BivDay.z2)
      = (List.range l.length).map fun t => (XR.fin (zAt l BivDay.z1 BivDay.z2 t).1,
          XR.fin (zAt l BivDay.z1 BivDay.z2 t).2) := by
    unfold col
    rw [List.zip, zipWith_maps]
    apply List.ext_getElem (by simp)
    intro i hi1 hi2
    have hi : i < l.length := by simpa using hi1
    have : zAt l BivDay.z1 BivDay.z2 i = (l[i].z1, l[i].z2) := by
      unfold zAt
      rw [List.getD_eq_getElem?_getD, List.getElem?_map, List.getElem?_eq_getElem hi]; rfl
    simp [this]
  rw [hzip, List.map_map, List.map_map, zipWith_maps]
  have : ∀ t, dccTerm (XR.fin (zAt l BivDay.z1 BivDay.z2 t).1) (XR.fin (zAt l BivDay.z1 BivDay.z2 t).2)
      ((((fun x => Np.clip x (XR.fin (-(99 / 100))) (XR.fin (99 / 100))) ∘ XR.fin) ∘ fun t =>
        (dccQ a b (qbarOf cpp l BivDay.z1 BivDay.z2) (zAt l BivDay.z1 BivDay.z2) t).corr) t)
      = .fin (dayTerm (zAt l BivDay.z1 BivDay.z2 t)
        (clip99 (dccQ a b (qbarOf cpp l BivDay.z1 BivDay.z2) (zAt l BivDay.z1 BivDay.z2) t).corr)) := by
    intro t
    have hr' : 0 < 1 - clip99 (dccQ a b (qbarOf cpp l BivDay.z1 BivDay.z2) (zAt l BivDay.z1 BivDay.z2) t).corr ^ 2 := by
      linarith [clip99_sq (dccQ a b (qbarOf cpp l BivDay.z1 BivDay.z2) (zAt l BivDay.z1 BivDay.z2) t).corr]
    simp only [Function.comp_apply, clip99_eq, dccTerm, XR.fin_sq, XR.one_def, XR.fin_sub, XR.fin_mul,
      XR.fin_log hr', two_def, XR.fin_add, XR.fin_div _ hr'.ne', XR.fin_neg, dayTerm]
  simp only [this]
  rw [XR.sum_fin]
  rfl

/-- C78. For estimated univariate models with usable residuals and finite log-likelihoods, the starting
values are always `(0.01 + 7·0.49/9, 0.6)`, the last feasible grid point, whatever the likelihoods. -/
theorem C78_last {V : Type} (cpp : Bool) (fitU : GarchObj V → Except PyErr (GarchObj V))
    (o : DccObj V) (hfit : refit fitU o = .ok o) (l : List BivDay) (hl : Holds o l)
    (hu : Usable2 cpp l) (ll1 ll2 : ℝ) (h1 : llOf o.model1 = .fin ll1) (h2 : llOf o.model2 = .fin ll2) :
    dccStart cpp fitU o = .ok (o, (1 / 100 + 7 * (49 / 100 / 9), 6 / 10)) := by
  have hobj : ∀ p ∈ dccGrid, p.1 + p.2 < 1 → ∃ v : ℝ,
      dccObjective cpp fitU o (.fin p.1, .fin p.2) = .ok (o, .fin v) := by
    intro p hp hlt
    refine ⟨_, dccObjective_fin cpp hfit hl hu h1 h2 ?_⟩
    simp only [dccGrid, aGrid, bGrid, List.mem_flatMap, List.mem_map, List.mem_range] at hp
    obtain ⟨x, ⟨i, hi, rfl⟩, y, ⟨j, hj, rfl⟩, rfl⟩ := hp
    simp only at hlt ⊢
    have hx : (0 : ℝ) ≤ i * (49 / 100 / 9) := by positivity
    have hy : (0 : ℝ) ≤ j * (35 / 100 / 9) := by positivity
    exact ⟨by linarith, by linarith, by linarith, by linarith⟩
  choose! v hv using hobj
  have := dccStart_fold cpp fitU o (fun p => .fin (v p)) dccGrid (1 / 100, 8 / 10) hv
  rw [dccStart, this]
  obtain ⟨before, after, hg, hafter⟩ := dccGrid_split
  rw [hg, List.foldl_append, List.foldl_cons, foldl_infeasible _ _ _ hafter, if_pos]
  refine ⟨by norm_num, ?_⟩
  rw [XR.fin_neg]; simp

/-- the correlation part of one day's log-likelihood when `z1 z2 = -sign(rho)`, as a function of `|rho|` -/
theorem term_mono {x y : ℝ} (hx : 0 ≤ x) (hxy : x < y) (hy : y < 1) :
    Real.log (1 - x ^ 2) + 2 / (1 - x) < Real.log (1 - y ^ 2) + 2 / (1 - y) := by
  have hx1 : 0 < 1 - x ^ 2 := by nlinarith
  have hy1 : 0 < 1 - y ^ 2 := by nlinarith
  have h1 := Real.one_sub_inv_le_log_of_pos (div_pos hy1 hx1)
  rw [inv_div, Real.log_div hy1.ne' hx1.ne'] at h1
  have h2 : 2 / (1 - y) - 2 / (1 - x) = 2 * (y - x) / ((1 - x) * (1 - y)) := by
    have : (1 - x) ≠ 0 := by linarith
    have : (1 - y) ≠ 0 := by linarith
    field_simp; ring
  have h3 : (1 - x ^ 2) / (1 - y ^ 2) - 1 = (y - x) * (y + x) / ((1 - y) * (1 + y)) := by
    have e : 1 - y ^ 2 = (1 - y) * (1 + y) := by ring
    rw [e]
    have : (1 - y) ≠ 0 := by linarith
    have : (1 + y) ≠ 0 := by linarith
    field_simp; ring
  have h4 : (y - x) * (y + x) / ((1 - y) * (1 + y)) < 2 * (y - x) / ((1 - x) * (1 - y)) := by
    rw [div_lt_div_iff₀ (by nlinarith) (by nlinarith)]
    have hyx : 0 < y - x := by linarith
    have h1y : 0 < 1 - y := by linarith
    have : (y + x) * (1 - x) < 2 * (1 + y) := by nlinarith
    calc (y - x) * (y + x) * ((1 - x) * (1 - y)) = (y - x) * (1 - y) * ((y + x) * (1 - x)) := by ring
      _ < (y - x) * (1 - y) * (2 * (1 + y)) := by
          apply mul_lt_mul_of_pos_left this; positivity
      _ = 2 * (y - x) * ((1 - y) * (1 + y)) := by ring
  linarith

theorem demo_qbar (cpp : Bool) : qbarOf cpp demoDays BivDay.z1 BivDay.z2 = ⟨1, 1, 0⟩ := by
  cases cpp
  · simp only [qbarOf, Bool.false_eq_true, if_false, corrMat, sampleCorr, demo_cov.2.2, zero_div]
  · simp only [qbarOf, if_true, momentMat]
    congr 1 <;> simp [Spec.mean, demoDays, BivDay.z1, BivDay.z2] <;> norm_num

theorem demo_corr (cpp : Bool) (a b : ℝ) :
    (dccQ a b (qbarOf cpp demoDays BivDay.z1 BivDay.z2) (zAt demoDays BivDay.z1 BivDay.z2) 0).corr = 0 ∧
    (dccQ a b (qbarOf cpp demoDays BivDay.z1 BivDay.z2) (zAt demoDays BivDay.z1 BivDay.z2) 1).corr = a ∧
    (dccQ a b (qbarOf cpp demoDays BivDay.z1 BivDay.z2) (zAt demoDays BivDay.z1 BivDay.z2) 2).corr
      = -(a * (1 - b)) ∧
    (dccQ a b (qbarOf cpp demoDays BivDay.z1 BivDay.z2) (zAt demoDays BivDay.z1 BivDay.z2) 3).corr
      = a * (1 - b * (1 - b)) := by
  have z0 : zAt demoDays BivDay.z1 BivDay.z2 0 = (1, 1) := by simp [zAt, demoDays, BivDay.z1, BivDay.z2]
  have z1 : zAt demoDays BivDay.z1 BivDay.z2 1 = (-1, 1) := by simp [zAt, demoDays, BivDay.z1, BivDay.z2]
  have z2 : zAt demoDays BivDay.z1 BivDay.z2 2 = (-1, -1) := by simp [zAt, demoDays, BivDay.z1, BivDay.z2]
  rw [demo_qbar]
  have q1 : dccQ a b ⟨1, 1, 0⟩ (zAt demoDays BivDay.z1 BivDay.z2) 1 = ⟨1, 1, a⟩ := by
    rw [dccQ, dccQ, z0]; simp only [dccNext, Sym2.outer, Sym2.mk.injEq]
    exact ⟨by ring, by ring, by ring⟩
  have q2 : dccQ a b ⟨1, 1, 0⟩ (zAt demoDays BivDay.z1 BivDay.z2) 2 = ⟨1, 1, -(a * (1 - b))⟩ := by
    rw [dccQ, q1, z1]; simp only [dccNext, Sym2.outer, Sym2.mk.injEq]
    exact ⟨by ring, by ring, by ring⟩
  have q3 : dccQ a b ⟨1, 1, 0⟩ (zAt demoDays BivDay.z1 BivDay.z2) 3 = ⟨1, 1, a * (1 - b * (1 - b))⟩ := by
    rw [dccQ, q2, z2]; simp only [dccNext, Sym2.outer, Sym2.mk.injEq]
    exact ⟨by ring, by ring, by ring⟩
  rw [q1, q2, q3]
  simp [dccQ, Sym2.corr]

theorem clip99_id {x : ℝ} (h1 : -(99 / 100) ≤ x) (h2 : x ≤ 99 / 100) : clip99 x = x := by
  rw [clip99, min_eq_left h2, max_eq_right h1]

/-- C78. The starting values are in general not the grid point of highest likelihood: for four days with
`z = (1,1), (-1,1), (-1,-1), (1,-1)` the grid point `(0.01, 0.6)` has a higher likelihood than the one returned. -/
theorem C78_not_maximiser (cpp : Bool) (opt : Optimizer (XR × GarchVar)) :
    ∃ (o : DccObj GarchVar) (p q : ℝ × ℝ) (vp vq : ℝ), o.model1.success = true ∧ o.model2.success = true ∧
      dccStart cpp (uFit cpp opt) o = .ok (o, p) ∧ q ∈ dccGrid ∧ q.1 + q.2 < 1 ∧
      dccObjective cpp (uFit cpp opt) o (.fin p.1, .fin p.2) = .ok (o, .fin (-vp)) ∧
      dccObjective cpp (uFit cpp opt) o (.fin q.1, .fin q.2) = .ok (o, .fin (-vq)) ∧ vp < vq := by
  have hfit := demo_refit cpp opt 0
  have hll1 : llOf (demoObj 0).model1 = .fin 0 := rfl
  have hll2 : llOf (demoObj 0).model2 = .fin 0 := rfl
  have hq : ((1 / 100 : ℝ), (6 / 10 : ℝ)) ∈ dccGrid := by
    simp only [dccGrid, List.mem_flatMap, List.mem_map]
    exact ⟨1 / 100, by simp [aGrid], 6 / 10,
      by simp [bGrid], rfl⟩
  refine ⟨demoObj 0, (1 / 100 + 7 * (49 / 100 / 9), 6 / 10), (1 / 100, 6 / 10), _, _, rfl, rfl,
    C78_last cpp _ _ hfit _ (demo_holds 0) (demo_usable cpp) 0 0 hll1 hll2, hq, by norm_num,
    dccObjective_fin cpp hfit (demo_holds 0) (demo_usable cpp) hll1 hll2 (a := 1 / 100 + 7 * (49 / 100 / 9)) (b := 6 / 10) ⟨by norm_num, by norm_num, by norm_num, by norm_num⟩,
    dccObjective_fin cpp hfit (demo_holds 0) (demo_usable cpp) hll1 hll2 (a := 1 / 100) (b := 6 / 10) ⟨by norm_num, by norm_num, by norm_num, by norm_num⟩,
    ?_⟩
  have hlen : demoDays.length = 4 := rfl
  have z0 : zAt demoDays BivDay.z1 BivDay.z2 0 = (1, 1) := by simp [zAt, demoDays, BivDay.z1, BivDay.z2]
  have z1 : zAt demoDays BivDay.z1 BivDay.z2 1 = (-1, 1) := by simp [zAt, demoDays, BivDay.z1, BivDay.z2]
  have z2 : zAt demoDays BivDay.z1 BivDay.z2 2 = (-1, -1) := by simp [zAt, demoDays, BivDay.z1, BivDay.z2]
  have z3 : zAt demoDays BivDay.z1 BivDay.z2 3 = (1, -1) := by simp [zAt, demoDays, BivDay.z1, BivDay.z2]
  obtain ⟨a0, a1, a2, a3⟩ := demo_corr cpp (1 / 100 + 7 * (49 / 100 / 9)) (6 / 10)
  obtain ⟨b0, b1, b2, b3⟩ := demo_corr cpp (1 / 100) (6 / 10)
  have hr : List.range 4 = [0, 1, 2, 3] := rfl
  simp only [hlen, hr, List.map_cons, List.map_nil, List.sum_cons, List.sum_nil, z0, z1, z2, z3, a0, a1, a2, a3,
    b0, b1, b2, b3, dayTerm]
  have key : ∀ x : ℝ, 0 ≤ x → x < 1 → (2 + 2 * x) / (1 - x ^ 2) = 2 / (1 - x) := by
    intro x h0 h1
    have e : 1 - x ^ 2 = (1 - x) * (1 + x) := by ring
    rw [e]
    have : (1 - x) ≠ 0 := by linarith
    have : (1 + x) ≠ 0 := by linarith
    field_simp
  have m1 := term_mono (x := 1 / 100) (y := 1 / 100 + 7 * (49 / 100 / 9)) (by norm_num) (by norm_num) (by norm_num)
  have m2 := term_mono (x := 1 / 100 * (1 - 6 / 10)) (y := (1 / 100 + 7 * (49 / 100 / 9)) * (1 - 6 / 10))
    (by norm_num) (by norm_num) (by norm_num)
  have m3 := term_mono (x := 1 / 100 * (1 - 6 / 10 * (1 - 6 / 10)))
    (y := (1 / 100 + 7 * (49 / 100 / 9)) * (1 - 6 / 10 * (1 - 6 / 10))) (by norm_num) (by norm_num) (by norm_num)
  rw [← key _ (by norm_num) (by norm_num), ← key _ (by norm_num) (by norm_num)] at m1 m2 m3
  rw [clip99_id (x := 0) (by norm_num) (by norm_num), clip99_id (by norm_num) (by norm_num),
    clip99_id (by norm_num) (by norm_num), clip99_id (by norm_num) (by norm_num),
    clip99_id (by norm_num) (by norm_num), clip99_id (by norm_num) (by norm_num),
    clip99_id (by norm_num) (by norm_num)]
  norm_num at m1 m2 m3 ⊢
  linarith

/-! ### Concrete cases of the theorems above -/

/-- Standardised residuals with mean zero and variance one: the C++ and the Python correlations are the same. -/
example (opt : Optimizer (XR × GarchVar)) (a b : XR) := C77_agree (uFit true opt) (demoObj 0) (demoObj 0)
  (demo_refit true opt 0) demoDays (demo_holds 0) demo_mean.1 demo_mean.2 (by simp [Spec.mean, demoDays, BivDay.z1]; norm_num)
  (by simp [Spec.mean, demoDays, BivDay.z2]; norm_num) a b
/-- The starting point of the same object, by C78, is the last feasible grid point; and it is feasible. -/
example (cpp : Bool) (opt : Optimizer (XR × GarchVar)) :
    dccStart cpp (uFit cpp opt) (demoObj (.fin 0)) = .ok (demoObj (.fin 0), (1 / 100 + 7 * (49 / 100 / 9), 6 / 10)) :=
  C78_last cpp (uFit cpp opt) (demoObj (.fin 0)) (demo_refit cpp opt _) demoDays (demo_holds _) (demo_usable cpp) 0 0 rfl rfl
example (cpp : Bool) (opt : Optimizer (XR × GarchVar)) := C78_feasible cpp (uFit cpp opt) _ _ _ _
  (C78_last cpp (uFit cpp opt) (demoObj (.fin 0)) (demo_refit cpp opt _) demoDays (demo_holds _) (demo_usable cpp) 0 0 rfl rfl)

end
end Frds.Props

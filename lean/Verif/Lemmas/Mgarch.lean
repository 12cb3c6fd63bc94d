import Verif.Model.Mgarch
import Verif.Spec.Mgarch
import Verif.Lemmas.GarchFit
import Verif.Lemmas.LrmesFit

set_option linter.unusedSimpArgs false

namespace Frds
noncomputable section
open Frds.Model Frds.Spec Classical

/-! ### bivariate density -/

theorem bivPdf_factor {v1 v2 c : ℝ} (h1 : 0 < v1) (hd : 0 < v1 * v2 - c ^ 2) (x y : ℝ) :
    bivPdf v1 v2 c x y = normalPdf v1 x *
      ProbabilityTheory.gaussianPDFReal (c / v1 * x) (Real.toNNReal ((v1 * v2 - c ^ 2) / v1)) y := by
  have hw : 0 < (v1 * v2 - c ^ 2) / v1 := div_pos hd h1
  unfold bivPdf normalPdf ProbabilityTheory.gaussianPDFReal
  rw [Real.coe_toNNReal _ h1.le, Real.coe_toNNReal _ hw.le]
  have hs : Real.sqrt (2 * Real.pi * v1) * Real.sqrt (2 * Real.pi * ((v1 * v2 - c ^ 2) / v1))
      = 2 * Real.pi * Real.sqrt (v1 * v2 - c ^ 2) := by
    rw [← Real.sqrt_mul (by positivity)]
    have : 2 * Real.pi * v1 * (2 * Real.pi * ((v1 * v2 - c ^ 2) / v1))
        = (2 * Real.pi) ^ 2 * (v1 * v2 - c ^ 2) := by field_simp
    rw [this, Real.sqrt_mul (by positivity), Real.sqrt_sq (by positivity)]
  rw [← hs, mul_mul_mul_comm, ← Real.exp_add, ← mul_inv, div_eq_inv_mul]
  congr 2
  have hd' := hd.ne'
  clear hs hw
  generalize hD : v1 * v2 - c ^ 2 = D at *
  have hv2 : v2 = (D + c ^ 2) / v1 := by rw [← hD]; field_simp; ring
  rw [hv2]
  field_simp
  ring

theorem bivPdf_pos {v1 v2 c : ℝ} (h : 0 < v1 * v2 - c ^ 2) (x y : ℝ) : 0 < bivPdf v1 v2 c x y := by
  unfold bivPdf
  have := Real.sqrt_pos.mpr h
  positivity

theorem det_corr {s1 s2 rho : ℝ} (h : 0 ≤ s1 * s2) :
    s1 * s2 - (rho * Real.sqrt (s1 * s2)) ^ 2 = s1 * s2 * (1 - rho ^ 2) := by
  rw [mul_pow, Real.sq_sqrt h]; ring

theorem pdf_pos {d : BivDay} (hd : d.Ok) {rho : ℝ} (hr : rho ^ 2 < 1) : 0 < d.pdf rho := by
  apply bivPdf_pos
  rw [det_corr (mul_pos hd.1 hd.2).le]
  exact mul_pos (mul_pos hd.1 hd.2) (by linarith)

/-- log of the day density in terms of standardised residuals -/
theorem log_pdf {d : BivDay} (hd : d.Ok) {rho : ℝ} (hr : rho ^ 2 < 1) :
    Real.log (d.pdf rho) = -(1 / 2) * (2 * Real.log (2 * Real.pi) + Real.log (d.s1 * d.s2 * (1 - rho ^ 2))
      + (d.z1 ^ 2 + d.z2 ^ 2 - 2 * rho * d.z1 * d.z2) / (1 - rho ^ 2)) := by
  obtain ⟨h1, h2⟩ := hd
  have h12 := mul_pos h1 h2
  have hr' : 0 < 1 - rho ^ 2 := by linarith
  have hdet : 0 < d.s1 * d.s2 * (1 - rho ^ 2) := mul_pos h12 hr'
  unfold BivDay.pdf bivPdf
  rw [det_corr h12.le, Real.log_div (Real.exp_pos _).ne' (by positivity), Real.log_exp,
    Real.log_mul (by positivity) (by positivity), Real.log_sqrt hdet.le]
  have hz1 : d.z1 ^ 2 = d.r1 ^ 2 / d.s1 := by rw [BivDay.z1, div_pow, Real.sq_sqrt h1.le]
  have hz2 : d.z2 ^ 2 = d.r2 ^ 2 / d.s2 := by rw [BivDay.z2, div_pow, Real.sq_sqrt h2.le]
  have hz : d.z1 * d.z2 = d.r1 * d.r2 * Real.sqrt (d.s1 * d.s2) / (d.s1 * d.s2) := by
    rw [BivDay.z1, BivDay.z2, div_mul_div_comm, ← Real.sqrt_mul h1.le]
    have hs := Real.sqrt_pos.mpr h12
    rw [div_eq_div_iff hs.ne' h12.ne', mul_assoc (d.r1 * d.r2), Real.mul_self_sqrt h12.le]
  rw [mul_assoc (2 * rho), hz1, hz2, hz]
  field_simp
  ring

theorem log_prod_map {α : Type} (l : List α) (f : α → ℝ) (h : ∀ d ∈ l, 0 < f d) :
    (l.map fun d => Real.log (f d)).sum = Real.log (l.map f).prod := by
  induction l with
  | nil => simp
  | cons a t ih =>
    have hp : 0 < (t.map f).prod := List.prod_pos (by
      intro x hx; obtain ⟨d, hd, rfl⟩ := List.mem_map.mp hx; exact h d (by simp [hd]))
    rw [List.map_cons, List.sum_cons, List.map_cons, List.prod_cons,
      Real.log_mul (h a (by simp)).ne' hp.ne', ih fun d hd => h d (by simp [hd])]

theorem two_def : (2 : XR) = .fin 2 := XR.ofNat_def 2

theorem cccTerm_fin {d : BivDay} (hd : d.Ok) {rho : ℝ} (hr : rho ^ 2 < 1) :
    cccTerm (.fin d.r1) (.fin d.s1) (.fin d.r2) (.fin d.s2) (.fin rho) = .fin (Real.log (d.pdf rho)) := by
  have hr' : 0 < 1 - rho ^ 2 := by linarith
  have hdet : 0 < d.s1 * d.s2 * (1 - rho ^ 2) := mul_pos (mul_pos hd.1 hd.2) hr'
  have hp : 0 < 2 * Real.pi := by positivity
  rw [log_pdf hd hr]
  simp only [cccTerm, XR.fin_sqrt hd.1.le, XR.fin_sqrt hd.2.le, XR.fin_div _ (Real.sqrt_pos.mpr hd.1).ne',
    XR.fin_div _ (Real.sqrt_pos.mpr hd.2).ne', XR.fin_sq, XR.one_def, XR.fin_sub, XR.fin_mul,
    XR.fin_log hdet, XR.fin_log hp, two_def, XR.fin_add, XR.fin_div _ hr'.ne', BivDay.z1, BivDay.z2]

theorem cccLoglik_fin {l : List BivDay} (h : ∀ d ∈ l, d.Ok) {rho : ℝ} (hr : rho ^ 2 < 1) :
    cccLoglik (col l BivDay.r1) (col l BivDay.s1) (col l BivDay.r2) (col l BivDay.s2) (.fin rho)
      = .fin (Real.log (l.map fun d => d.pdf rho).prod) := by
  rw [← log_prod_map l _ fun d hd => pdf_pos (h d hd) hr, ← XR.sum_fin]
  unfold cccLoglik col
  have hz : ∀ u v : BivDay → XR, List.zip (l.map u) (l.map v) = l.map fun d => (u d, v d) :=
    fun u v => by rw [List.zip, zipWith_maps]
  rw [hz, hz, zipWith_maps]
  congr 1
  apply List.map_congr_left
  intro d hd
  exact cccTerm_fin (h d hd) hr

/-! ### DCC kernel -/

/-- the matrix from which both implementations start -/
def qbarOf {α : Type} (cpp : Bool) (l : List α) (f g : α → ℝ) : Sym2 :=
  if cpp then momentMat l f g else corrMat l f g

/-- data on which the starting matrix is non-degenerate -/
def NonDeg {α : Type} (cpp : Bool) (l : List α) (f g : α → ℝ) : Prop :=
  if cpp then (∃ d ∈ l, f d ≠ 0) ∧ (∃ d ∈ l, g d ≠ 0)
  else 0 < sampleCov l f f ∧ 0 < sampleCov l g g

def ofSym (q : Sym2) : QMat := ⟨.fin q.x, .fin q.y, .fin q.z⟩

theorem sum_sq_pos {α : Type} {l : List α} {f : α → ℝ} (h : ∃ d ∈ l, f d ≠ 0) :
    0 < (l.map fun d => f d ^ 2).sum := by
  obtain ⟨d, hd, hne⟩ := h
  refine lt_of_lt_of_le (by positivity : 0 < f d ^ 2) ?_
  exact List.single_le_sum (fun x hx => by
    obtain ⟨e, _, rfl⟩ := List.mem_map.mp hx; positivity) _ (List.mem_map.mpr ⟨d, hd, rfl⟩)

theorem NonDeg.ne {α : Type} {cpp : Bool} {l : List α} {f g : α → ℝ} (h : NonDeg cpp l f g) : l ≠ [] := by
  rintro rfl
  cases cpp <;> simp [NonDeg, sampleCov] at h

theorem dccQbar_fin {α : Type} {cpp : Bool} {l : List α} {f g : α → ℝ} (h : NonDeg cpp l f g) :
    dccQbar cpp (col l f) (col l g) = ofSym (qbarOf cpp l f g) := by
  have hne := h.ne
  have hn : (l.length : ℝ) ≠ 0 := by have := List.length_pos_iff.mpr hne; positivity
  cases cpp
  · simp only [NonDeg, Bool.false_eq_true, if_false] at h
    simp only [dccQbar, qbarOf, Bool.false_eq_true, if_false, ofSym, corrMat]
    rw [npCorr_col h.1 h.1, npCorr_col h.2 h.2, npCorr_col h.1 h.2, sampleCorr_self h.1,
      sampleCorr_self h.2]
  · simp only [dccQbar, qbarOf, if_true, ofSym, momentMat, Spec.mean]
    have hl : (col l f).length = l.length := by simp [col]
    have e1 : ∀ u : α → ℝ, (col l u).map (fun z => z * z) = col l fun d => u d ^ 2 := by
      intro u; simp [col, Function.comp_def, sq]
    have e2 : List.zipWith (· * ·) (col l f) (col l g) = col l fun d => f d * g d := by
      unfold col; rw [zipWith_maps]; simp
    rw [e1, e1, e2, sum_col, sum_col, sum_col, hl, XR.fin_div _ hn, XR.fin_div _ hn, XR.fin_div _ hn]

theorem qbarOf_psd {α : Type} {cpp : Bool} {l : List α} {f g : α → ℝ} (h : NonDeg cpp l f g) :
    (qbarOf cpp l f g).Psd := by
  have hne := h.ne
  have hn : (0 : ℝ) < l.length := by have := List.length_pos_iff.mpr hne; positivity
  cases cpp
  · simp only [NonDeg, Bool.false_eq_true, if_false] at h
    simp only [qbarOf, Bool.false_eq_true, if_false]
    refine ⟨one_pos, one_pos, ?_⟩
    show sampleCorr l f g ^ 2 ≤ 1 * 1
    rw [one_mul]; exact sampleCorr_sq_le h.1 h.2
  · simp only [NonDeg, if_true] at h
    simp only [qbarOf, if_true]
    refine ⟨div_pos (sum_sq_pos h.1) hn, div_pos (sum_sq_pos h.2) hn, ?_⟩
    have := (sum_cs l f g).2.2
    simp only [momentMat, Spec.mean]
    rw [div_pow, div_mul_div_comm, ← sq]
    gcongr
    simpa only [sq] using this

theorem rho_fin {q : Sym2} (h : q.Psd) : (ofSym q).rho = .fin q.corr := by
  have hp := mul_pos h.1 h.2.1
  simp only [QMat.rho, ofSym, XR.fin_mul, XR.fin_sqrt hp.le, XR.fin_div _ (Real.sqrt_pos.mpr hp).ne', Sym2.corr]

theorem next_fin (a b : ℝ) (qbar q : Sym2) (z : ℝ × ℝ) :
    QMat.next (.fin a) (.fin b) (ofSym qbar) (ofSym q) (.fin z.1, .fin z.2)
      = ofSym (dccNext a b qbar q z.1 z.2) := by
  simp only [QMat.next, ofSym, dccNext, Sym2.outer, XR.one_def, XR.fin_sub, XR.fin_mul, XR.fin_sq, XR.fin_add,
    mul_assoc]

theorem dccQ_psd {a b : ℝ} (hw : DccWeights a b) {qbar : Sym2} (h : qbar.Psd) (z : ℕ → ℝ × ℝ) (t : ℕ) :
    (dccQ a b qbar z t).Psd := by
  induction t with
  | zero => exact h
  | succ t ih => exact dccNext_psd hw h ih _ _

/-- DCC matrices from any matrix -/
def dccFrom (a b : ℝ) (qbar : Sym2) (q : Sym2) (z : ℕ → ℝ × ℝ) : ℕ → Sym2
  | 0 => q
  | t + 1 => dccNext a b qbar (dccFrom a b qbar q z t) (z t).1 (z t).2

theorem dccFrom_shift (a b : ℝ) (qbar q : Sym2) (z : ℕ → ℝ × ℝ) (t : ℕ) :
    dccFrom a b qbar q z (t + 1)
      = dccFrom a b qbar (dccNext a b qbar q (z 0).1 (z 0).2) (fun i => z (i + 1)) t := by
  induction t with
  | zero => rfl
  | succ t ih => rw [dccFrom, ih]; rfl

theorem dccFrom_qbar (a b : ℝ) (qbar : Sym2) (z : ℕ → ℝ × ℝ) (t : ℕ) :
    dccFrom a b qbar qbar z t = dccQ a b qbar z t := by
  induction t with
  | zero => rfl
  | succ t ih => rw [dccFrom, ih]; rfl

theorem dccLoop_fin {a b : ℝ} (hw : DccWeights a b) {qbar : Sym2} (h : qbar.Psd) (l : List (ℝ × ℝ))
    (q : Sym2) (hq : q.Psd) :
    dccLoop (.fin a) (.fin b) (ofSym qbar) (ofSym q) (l.map fun z => (XR.fin z.1, XR.fin z.2))
      = (List.range l.length).map fun t => XR.fin (dccFrom a b qbar q (fun i => l.getD i (0, 0)) (t + 1)).corr := by
  induction l generalizing q with
  | nil => rfl
  | cons z t ih =>
    have hn := dccNext_psd hw h hq z.1 z.2
    rw [List.map_cons, dccLoop, next_fin, rho_fin hn, ih _ hn, List.length_cons,
      List.range_succ_eq_map, List.map_cons, List.map_map]
    congr 1
    apply List.map_congr_left
    intro i _
    simp only [Function.comp_apply]
    rw [Nat.succ_eq_add_one, dccFrom_shift a b qbar q]
    simp

/-- the standardised residuals of day `t` -/
def zAt {α : Type} (l : List α) (f g : α → ℝ) (t : ℕ) : ℝ × ℝ := (l.map fun d => (f d, g d)).getD t (0, 0)

theorem dccQ_congr {a b : ℝ} {qbar : Sym2} {z z' : ℕ → ℝ × ℝ} {t : ℕ} (h : ∀ i < t, z i = z' i) :
    dccQ a b qbar z t = dccQ a b qbar z' t := by
  induction t with
  | zero => rfl
  | succ t ih => rw [dccQ, dccQ, ih fun i hi => h i (by omega), h t (by omega)]

theorem dccKernel_fin {α : Type} (cpp : Bool) {a b : ℝ} (hw : DccWeights a b) {l : List α} {f g : α → ℝ}
    (h : NonDeg cpp l f g) :
    dccKernel cpp (.fin a) (.fin b) (col l f) (col l g)
      = .ok ((List.range l.length).map fun t => XR.fin (dccQ a b (qbarOf cpp l f g) (zAt l f g) t).corr) := by
  have hne := h.ne
  have hp := qbarOf_psd h
  have hlf : (col l f).length = l.length := by simp [col]
  have hlg : (col l g).length = l.length := by simp [col]
  have hcf : col l f ≠ [] := by simpa [col] using hne
  unfold dccKernel
  rw [if_neg (by rw [hlf, hlg]; simp), if_neg (by rw [hlf, hlg]; simp), if_neg hcf]
  have htake : (col l g).take (col l f).length = col l g := List.take_of_length_le (by rw [hlf, hlg])
  simp only
  rw [htake, dccQbar_fin h, rho_fin hp]
  have hzip : (List.zip (col l f) (col l g)).dropLast
      = ((l.map fun d => (f d, g d)).dropLast).map fun z => (XR.fin z.1, XR.fin z.2) := by
    unfold col
    rw [List.zip, zipWith_maps, List.map_dropLast, List.map_map]; rfl
  rw [hzip, dccLoop_fin hw hp _ _ hp]
  congr 1
  obtain ⟨n, hn⟩ : ∃ n, l.length = n + 1 := ⟨l.length - 1, by have := List.length_pos_iff.mpr hne; omega⟩
  rw [hn, List.range_succ_eq_map, List.map_cons, List.map_map, List.length_dropLast, List.length_map, hn]
  congr 1
  apply List.map_congr_left
  intro t ht
  simp only [Function.comp_apply, Nat.succ_eq_add_one]
  rw [dccFrom_qbar]
  congr 2
  apply dccQ_congr
  intro i hi
  have ht : t < n := by simpa using ht
  unfold zAt
  rw [List.dropLast_eq_take, List.length_map, hn, List.getD_eq_getElem?_getD, List.getD_eq_getElem?_getD,
    List.getElem?_take_of_lt (by omega)]

/-! ### DCC likelihood -/

theorem clip99_eq (x : ℝ) : Np.clip (.fin x) (.fin (-(99 / 100))) (.fin (99 / 100)) = .fin (clip99 x) := by
  rw [Np.clip_fin, clip99]
  congr 1
  rcases le_total x (-(99 / 100)) with h | h <;> rcases le_total x (99 / 100) with h' | h' <;>
    first | (simp [h, h']; norm_num; done) | (simp [h, h']; done) | (exfalso; linarith)

theorem clip99_sq (x : ℝ) : clip99 x ^ 2 < 1 := by
  have h1 : -(99 / 100) ≤ clip99 x := le_max_left _ _
  have h2 : clip99 x ≤ 99 / 100 := max_le (by norm_num) (min_le_right _ _)
  nlinarith

theorem dccTerm_fin {d : BivDay} (hd : d.Ok) {rho : ℝ} (hr : rho ^ 2 < 1) :
    dccTerm (.fin d.z1) (.fin d.z2) (.fin rho)
      = .fin (Real.log (d.pdf rho) - Real.log (normalPdf d.s1 d.r1) - Real.log (normalPdf d.s2 d.r2)) := by
  have hr' : 0 < 1 - rho ^ 2 := by linarith
  have h12 := mul_pos hd.1 hd.2
  simp only [dccTerm, XR.fin_sq, XR.one_def, XR.fin_sub, XR.fin_mul, XR.fin_log hr', two_def, XR.fin_add,
    XR.fin_div _ hr'.ne', XR.fin_neg]
  congr 1
  rw [log_pdf hd hr, log_normalPdf hd.1, log_normalPdf hd.2, Real.log_mul h12.ne' hr'.ne',
    Real.log_mul hd.1.ne' hd.2.ne']
  have hz1 : d.z1 ^ 2 = d.r1 ^ 2 / d.s1 := by rw [BivDay.z1, div_pow, Real.sq_sqrt hd.1.le]
  have hz2 : d.z2 ^ 2 = d.r2 ^ 2 / d.s2 := by rw [BivDay.z2, div_pow, Real.sq_sqrt hd.2.le]
  rw [← hz1, ← hz2]
  ring

end
end Frds

import Verif.Model.RoundedCcc
import Verif.Props.DccFloat
import Verif.Props.RoundedLik
import Verif.Props.Garch

/-! The CCC objective in binary64. -/
namespace Frds.Props
noncomputable section
open Frds Frds.Model Classical

namespace CccFloat
open RoundedDcc

/-- one standardised residual -/
theorem std80 (M : Machine) (hM : M.R = binary64.rounding) {r s : ℝ} (hr : |r| ≤ 2 ^ 38) (h1 : 1 / 2 ^ 80 ≤ s) (h2 : s ≤ 2 ^ 200) :
    ∃ z : ℝ, M.R.div (.fin r) (M.R.sqrt (.fin s)) = .fin z ∧ |z| ≤ 2 ^ 80 := by
  obtain ⟨tiny, huge, A, ht, hh⟩ := env M hM
  have hs : 0 < s := lt_of_lt_of_le (by positivity) h1
  have ht' := tinyLe (k := 60) ht (by norm_num) A.tiny_nonneg
  have q1 : 1 / 2 ^ 40 ≤ Real.sqrt s := Real.le_sqrt_of_sq_le (by norm_num at h1 ⊢; exact h1)
  have q2 : Real.sqrt s ≤ 2 ^ 100 := (Real.sqrt_le_left (by positivity)).mpr (by norm_num at h2 ⊢; exact h2)
  obtain ⟨w, hw⟩ := A.fin (Real.sqrt s) (by
    rw [abs_of_nonneg (Real.sqrt_nonneg _)]; exact hugeGe hh (k := 100) (by norm_num) q2)
  have ew := A.err _ _ hw
  rw [abs_of_nonneg (Real.sqrt_nonneg _), max_eq_left (le_trans (by norm_num at ht' ⊢; linarith) q1)] at ew
  have hw1 : 1 / 2 ^ 41 ≤ w := by
    have := (abs_le.mp ew).1
    have h3 : (2 : ℝ) ^ (-53 : ℤ) * Real.sqrt s ≤ 1 / 2 * Real.sqrt s := mul_le_mul_of_nonneg_right (by norm_num) (Real.sqrt_nonneg _)
    norm_num at q1 this h3 ⊢
    linarith
  have hw0 : 0 < w := lt_of_lt_of_le (by positivity) hw1
  have hq : |r / w| ≤ 2 ^ 79 := by
    rw [abs_div, abs_of_pos hw0, div_le_iff₀ hw0]
    have := mul_le_mul_of_nonneg_left hw1 (show (0 : ℝ) ≤ 2 ^ 79 by positivity)
    norm_num at this hr ⊢
    linarith
  obtain ⟨z, hz, bz⟩ := rd_bnd A (by norm_num) (by norm_num at ht'; linarith) hq (one_le_pow₀ (by norm_num)) (hugeGe hh (k := 79) (by norm_num) le_rfl)
  refine ⟨z, ?_, by norm_num at bz ⊢; linarith⟩
  have e : M.R.sqrt (.fin s) = .fin w := by
    unfold Rounding.sqrt; rw [XR.fin_sqrt hs.le, Rounding.round_fin, hw]
  rw [e]
  unfold Rounding.div
  rw [XR.fin_div _ hw0.ne', Rounding.round_fin, hz]

theorem term_fin (M : Machine) (hM : M.R = binary64.rounding)
    (hlog : ∀ w : ℝ, 1 / 2 ^ 170 ≤ w → w ≤ 2 ^ 170 → ∃ l, M.log (.fin w) = .fin l ∧ |l| ≤ 200)
    {lp p rho r1 s1 r2 s2 : ℝ} (hlp : Model.Rounded.log2pi M = .fin lp) (blp : |lp| ≤ 3)
    (hp : M.R.rd (99 / 100) = .fin p) (hrho : |rho| ≤ p)
    (h1 : |r1| ≤ 2 ^ 38) (l1 : 1 / 2 ^ 80 ≤ s1) (u1 : s1 ≤ 2 ^ 80) (h2 : |r2| ≤ 2 ^ 38) (l2 : 1 / 2 ^ 80 ≤ s2) (u2 : s2 ≤ 2 ^ 80) :
    ∃ v, Model.Rounded.cccTerm M (.fin r1) (.fin s1) (.fin r2) (.fin s2) (.fin rho) = .fin v ∧ M.R.Rep (.fin v) ∧ |v| ≤ 2 ^ 180 := by
  obtain ⟨tiny, huge, A, ht, hh⟩ := env M hM
  have ht0 := A.tiny_nonneg
  have htl := tinyLe (k := 200) ht (by norm_num) ht0
  have ht1 : tiny ≤ 1 := by
    have := tinyLe (k := 0) ht (by norm_num) ht0
    simpa using this
  have hhuge := hugeGe (x := 2 ^ 200) hh (k := 200) (by norm_num) le_rfl
  obtain ⟨w, ew, lw, uw, hr1⟩ := den M A (by norm_num) (by
    have := tinyLe (k := 1) ht (by norm_num) ht0
    norm_num at this
    linarith) (hugeGe hh (k := 1) (by norm_num) (by norm_num)) hp hrho
  obtain ⟨z1, e1, b1⟩ := std80 M hM h1 l1 (u1.trans (by norm_num))
  obtain ⟨z2, e2, b2⟩ := std80 M hM h2 l2 (u2.trans (by norm_num))
  generalize hu : (2 : ℝ) ^ (-53 : ℤ) = u at A
  have hu16 : 16 * u ≤ 1 := by rw [← hu]; norm_num
  clear hu hM
  -- products, sums and differences of bounded numbers
  have hmul : ∀ {x y K : ℝ}, |x * y| ≤ K → 1 ≤ K → K ≤ 2 ^ 200 → ∃ v, M.R.mul (.fin x) (.fin y) = .fin v ∧ |v| ≤ 2 * K := by
    intro x y K h a b
    obtain ⟨v, e, f⟩ := rd_bnd A hu16 ht1 h a (b.trans hhuge)
    exact ⟨v, by unfold Rounding.mul; rw [XR.fin_mul, Rounding.round_fin, e], f⟩
  have hadd : ∀ {x y K : ℝ}, |x + y| ≤ K → 1 ≤ K → K ≤ 2 ^ 200 → ∃ v, M.R.add (.fin x) (.fin y) = .fin v ∧ |v| ≤ 2 * K := by
    intro x y K h a b
    obtain ⟨v, e, f⟩ := rd_bnd A hu16 ht1 h a (b.trans hhuge)
    exact ⟨v, by unfold Rounding.add; rw [XR.fin_add, Rounding.round_fin, e], f⟩
  have hsub : ∀ {x y K : ℝ}, |x - y| ≤ K → 1 ≤ K → K ≤ 2 ^ 200 → ∃ v, M.R.sub (.fin x) (.fin y) = .fin v ∧ |v| ≤ 2 * K := by
    intro x y K h a b
    obtain ⟨v, e, f⟩ := rd_bnd A hu16 ht1 h a (b.trans hhuge)
    exact ⟨v, by unfold Rounding.sub; rw [XR.fin_sub, Rounding.round_fin, e], f⟩
  have tri : ∀ {x y a b : ℝ}, |x| ≤ a → |y| ≤ b → |x + y| ≤ a + b := fun ha hb => (abs_add_le _ _).trans (add_le_add ha hb)
  have tri' : ∀ {x y a b : ℝ}, |x| ≤ a → |y| ≤ b → |x - y| ≤ a + b := fun ha hb => (abs_sub _ _).trans (add_le_add ha hb)
  have pro : ∀ {x y a b : ℝ}, |x| ≤ a → |y| ≤ b → |x * y| ≤ a * b := fun {x y a b} ha hb => by
    rw [abs_mul]; exact mul_le_mul ha hb (abs_nonneg _) ((abs_nonneg x).trans ha)
  -- a positive number that is not tiny keeps its size
  have keep : ∀ {x : ℝ}, 1 / 2 ^ 168 ≤ x → x ≤ 2 ^ 168 → ∃ v, M.R.rd x = .fin v ∧ x / 2 ≤ v ∧ v ≤ 2 * x := by
    intro x a b
    have x0 : 0 < x := lt_of_lt_of_le (by positivity) a
    obtain ⟨v, e⟩ := A.fin x (by rw [abs_of_pos x0]; exact b.trans ((by norm_num : (2 : ℝ) ^ 168 ≤ 2 ^ 200).trans hhuge))
    have := A.err _ _ e
    rw [abs_of_pos x0, max_eq_left (htl.trans ((by norm_num : (1 : ℝ) / 2 ^ 200 ≤ 1 / 2 ^ 168).trans a))] at this
    have hx : u * x ≤ x / 2 := by nlinarith
    exact ⟨v, e, by linarith [(abs_le.mp this).1], by linarith [(abs_le.mp this).2]⟩
  have hs1 : 0 < s1 := lt_of_lt_of_le (by positivity) l1
  have hs2 : 0 < s2 := lt_of_lt_of_le (by positivity) l2
  have hw0 : 0 < w := by linarith
  have lo12 : 1 / 2 ^ 160 ≤ s1 * s2 := by
    have := mul_le_mul l1 l2 (by positivity) hs1.le
    norm_num at this ⊢
    exact this
  have hi12 : s1 * s2 ≤ 2 ^ 160 := by
    have := mul_le_mul u1 u2 hs2.le (by positivity)
    norm_num at this ⊢
    exact this
  obtain ⟨t, et, t1, t2⟩ := keep ((by norm_num : (1 : ℝ) / 2 ^ 168 ≤ 1 / 2 ^ 160).trans lo12) (hi12.trans (by norm_num))
  have t0 : 1 / 2 ^ 161 ≤ t := by norm_num at lo12 ⊢; linarith
  have tp : 0 < t := lt_of_lt_of_le (by positivity) t0
  have lotw : 1 / 2 ^ 168 ≤ t * w := by
    have := mul_le_mul t0 lw (by norm_num) tp.le
    norm_num at this ⊢
    linarith
  have hitw : t * w ≤ 2 ^ 161 := by
    have : t * w ≤ t := mul_le_of_le_one_right tp.le uw
    norm_num at hi12 ⊢
    linarith
  obtain ⟨g, eg, g1, g2⟩ := keep lotw (hitw.trans (by norm_num))
  obtain ⟨l, el, bl⟩ := hlog g (by norm_num at lotw ⊢; linarith) (by norm_num at hitw ⊢; linarith)
  have em1 : M.R.mul (.fin s1) (.fin s2) = .fin t := by unfold Rounding.mul; rw [XR.fin_mul, Rounding.round_fin, et]
  have em2 : M.R.mul (.fin t) (.fin w) = .fin g := by unfold Rounding.mul; rw [XR.fin_mul, Rounding.round_fin, eg]
  obtain ⟨q1, f1, c1⟩ := hmul (pro b1 b1) (by norm_num) (by norm_num)
  obtain ⟨q2, f2, c2⟩ := hmul (pro b2 b2) (by norm_num) (by norm_num)
  obtain ⟨q3, f3, c3⟩ := hadd (tri c1 c2) (by norm_num) (by norm_num)
  obtain ⟨v1, g1', d1⟩ := hmul (x := 2) (y := rho) (K := 2) (by rw [abs_mul, abs_two]; linarith) (by norm_num) (by norm_num)
  obtain ⟨v2, g2', d2⟩ := hmul (pro d1 b1) (by norm_num) (by norm_num)
  obtain ⟨v3, g3', d3⟩ := hmul (pro d2 b2) (by norm_num) (by norm_num)
  obtain ⟨n, en, bn⟩ := hsub (tri' c3 d3) (by norm_num) (by norm_num)
  have bn' : |n| ≤ 2 ^ 168 := by norm_num at bn ⊢; linarith
  have hq : |n / w| ≤ 2 ^ 175 := by
    rw [abs_div, abs_of_pos hw0, div_le_iff₀ hw0]
    have := mul_le_mul_of_nonneg_left lw (show (0 : ℝ) ≤ 2 ^ 175 by positivity)
    norm_num at this bn' ⊢
    linarith
  obtain ⟨q, eq, bq⟩ := rd_bnd A hu16 ht1 hq (by norm_num) ((by norm_num : (2 : ℝ) ^ 175 ≤ 2 ^ 200).trans hhuge)
  have edq : M.R.div (.fin n) (.fin w) = .fin q := by
    unfold Rounding.div; rw [XR.fin_div _ hw0.ne', Rounding.round_fin, eq]
  obtain ⟨k, ek, bk⟩ := hmul (x := 2) (y := lp) (K := 6) (by rw [abs_mul, abs_two]; linarith) (by norm_num) (by norm_num)
  obtain ⟨y1, j1, m1⟩ := hadd (tri bk bl) (by norm_num) (by norm_num)
  obtain ⟨y2, j2, m2⟩ := hadd (tri m1 bq) (by norm_num) (by norm_num)
  obtain ⟨v, hv, dv⟩ := rd_bnd A hu16 ht1 (x := -(1 / 2) * y2) (K := 2 ^ 178) (by
    rw [abs_mul, abs_neg, abs_of_pos (by norm_num : (0 : ℝ) < 1 / 2)]
    norm_num at m2 ⊢
    linarith) (by norm_num) ((by norm_num : (2 : ℝ) ^ 178 ≤ 2 ^ 200).trans hhuge)
  refine ⟨v, ?_, M.R.idem _ _ hv, by norm_num at dv ⊢; linarith⟩
  unfold Model.Rounded.cccTerm
  rw [ew, e1, e2, f1, f2, f3, show (2 : XR) = .fin 2 from rfl, g1', g2', g3', en, edq, em1, em2, el, hlp, ek, j1, j2]
  unfold Rounding.mul
  rw [XR.fin_mul, Rounding.round_fin, hv]

end CccFloat

/-- C208. The CCC log-likelihood in binary64 is a finite number: residuals of magnitude at most `2^38`, variances between `2^-80` and
`2^80`, a correlation within the bounds of the fit (0.99, rounded). -/
theorem C208_loglik (M : Machine) (hM : M.R = binary64.rounding)
    (hlog : ∀ w : ℝ, 1 / 2 ^ 170 ≤ w → w ≤ 2 ^ 170 → ∃ l, M.log (.fin w) = .fin l ∧ |l| ≤ 200)
    {lp p rho : ℝ} (hlp : Model.Rounded.log2pi M = .fin lp) (blp : |lp| ≤ 3) (hp : M.R.rd (99 / 100) = .fin p) (hrho : |rho| ≤ p)
    (i : ℕ) (x : List ((ℝ × ℝ) × (ℝ × ℝ))) (hlen : x.length ≤ 2 ^ 40)
    (hx : ∀ e ∈ x, (|e.1.1| ≤ 2 ^ 38 ∧ 1 / 2 ^ 80 ≤ e.1.2 ∧ e.1.2 ≤ 2 ^ 80) ∧ (|e.2.1| ≤ 2 ^ 38 ∧ 1 / 2 ^ 80 ≤ e.2.2 ∧ e.2.2 ≤ 2 ^ 80)) :
    ∃ v : ℝ, Model.Rounded.cccLoglik M i (x.map fun e => .fin e.1.1) (x.map fun e => .fin e.1.2) (x.map fun e => .fin e.2.1)
      (x.map fun e => .fin e.2.2) (.fin rho) = .fin v := by
  have hterms : ∃ v : List ℝ, List.zipWith (fun (x y : XR × XR) => Model.Rounded.cccTerm M x.1 x.2 y.1 y.2 (.fin rho))
      (List.zip (x.map fun e => XR.fin e.1.1) (x.map fun e => .fin e.1.2)) (List.zip (x.map fun e => .fin e.2.1) (x.map fun e => .fin e.2.2)) =
        v.map .fin ∧ v.length = x.length ∧ (∀ y ∈ v, M.R.Rep (.fin y)) ∧ (v.map fun y => |y|).sum ≤ x.length * 2 ^ 180 := by
    clear hlen
    induction x with
    | nil => exact ⟨[], rfl, rfl, by simp, by simp⟩
    | cons e x ih =>
      obtain ⟨v, k1, k2, k3, k4⟩ := ih (fun y hy => hx y (by simp [hy]))
      obtain ⟨⟨a1, a2, a3⟩, b1, b2, b3⟩ := hx e (by simp)
      obtain ⟨w, f1, f2, f3⟩ := CccFloat.term_fin M hM hlog hlp blp hp hrho a1 a2 a3 b1 b2 b3
      refine ⟨w :: v, ?_, by simp [k2], ?_, ?_⟩
      · simp only [List.map_cons, List.zip_cons_cons, List.zipWith_cons_cons, f1, k1]
      · intro y hy
        rcases List.mem_cons.mp hy with rfl | hy
        · exact f2
        · exact k3 y hy
      · simp only [List.map_cons, List.sum_cons, List.length_cons]
        push_cast
        linarith
  obtain ⟨v, ev, lv, rv, bv⟩ := hterms
  obtain ⟨tiny, huge, A, ht, hh⟩ := RoundedDcc.env M hM
  have hl : (x.length : ℝ) ≤ 2 ^ 40 := by exact_mod_cast hlen
  have hre : ((v.map XR.fin).map fun x => |Accurate.re x|) = v.map fun x => |x| := by rw [List.map_map]; rfl
  obtain ⟨t, et, -, -⟩ := A.sum_signed (by norm_num) (M.sum_ok i (v.map .fin))
    (by
      intro x hx
      obtain ⟨y, hy, rfl⟩ := List.mem_map.mp hx
      exact ⟨y, rfl, rv y hy⟩)
    (by
      rw [List.length_map, lv, show (2 : ℝ) ^ (-53 : ℤ) = 1 / 2 ^ 53 by norm_num]
      linarith only [hl])
    (by
      rw [hre]
      refine RoundedDcc.hugeGe hh (k := 230) (by norm_num) ?_
      have := mul_le_mul_of_nonneg_right hl (show (0 : ℝ) ≤ 2 ^ 180 by positivity)
      norm_num at this bv ⊢
      linarith)
  refine ⟨t, ?_⟩
  unfold Model.Rounded.cccLoglik
  rw [ev, et]

/-- C208. The objective of the CCC fit, when the computed variances of both series are in that range. -/
theorem C208_objective (M : Machine) (hM : M.R = binary64.rounding)
    (hlog : ∀ w : ℝ, 1 / 2 ^ 170 ≤ w → w ≤ 2 ^ 170 → ∃ l, M.log (.fin w) = .fin l ∧ |l| ≤ 200)
    {lp p : ℝ} (hlp : Model.Rounded.log2pi M = .fin lp) (blp : |lp| ≤ 3) (hp : M.R.rd (99 / 100) = .fin p)
    (cpp : Bool) (i : ℕ) (returns1 returns2 : List XR) (v : CccVec) (rho : ℝ) (hv : v.rho = .fin rho) (hrho : |rho| ≤ p) (bc1 bc2 : XR)
    (bounds1 bounds2 : List (XR × XR)) (x : List ((ℝ × ℝ) × (ℝ × ℝ))) (hlen : x.length ≤ 2 ^ 40)
    (h1 : Model.Rounded.modelResids M false returns1 v.mu1 = x.map fun e => .fin e.1.1)
    (h2 : Model.Rounded.modelResids M false returns2 v.mu2 = x.map fun e => .fin e.2.1)
    (g1 : Model.Rounded.garchVariance M cpp v.v1 (x.map fun e => .fin e.1.1) bc1 bounds1 = .ok (x.map fun e => .fin e.1.2))
    (g2 : Model.Rounded.garchVariance M cpp v.v2 (x.map fun e => .fin e.2.1) bc2 bounds2 = .ok (x.map fun e => .fin e.2.2))
    (hx : ∀ e ∈ x, (|e.1.1| ≤ 2 ^ 38 ∧ 1 / 2 ^ 80 ≤ e.1.2 ∧ e.1.2 ≤ 2 ^ 80) ∧ (|e.2.1| ≤ 2 ^ 38 ∧ 1 / 2 ^ 80 ≤ e.2.2 ∧ e.2.2 ≤ 2 ^ 80)) :
    ∃ f : ℝ, Model.Rounded.cccObjective M cpp i returns1 returns2 v bc1 bc2 bounds1 bounds2 = .ok (.fin f) := by
  obtain ⟨f, hf⟩ := C208_loglik M hM hlog hlp blp hp hrho i x hlen hx
  refine ⟨-f, ?_⟩
  unfold Model.Rounded.cccObjective
  simp only [bind, Except.bind, pure, Except.pure, h1, h2, g1, g2, hv, hf, XR.fin_neg]

/-- C208. Without rounding the likelihood is the one of the exact model. -/
theorem C208_exact (i : ℕ) (r1 s1 r2 s2 : List XR) (rho : XR) :
    Model.Rounded.cccLoglik Machine.exact i r1 s1 r2 s2 rho = Model.cccLoglik r1 s1 r2 s2 rho := by
  have hp : Model.Rounded.log2pi Machine.exact = XR.log (.fin (2 * Real.pi)) := by
    show XR.log (Rounding.exact.mul 2 (Rounding.exact.round (.fin Real.pi))) = _
    unfold Rounding.mul
    rw [Machine.exact_round, Machine.exact_round, show (2 : XR) = .fin 2 from rfl, XR.fin_mul]
  have hl : Machine.exact.log = XR.log := rfl
  have ht : ∀ a b c d, Model.Rounded.cccTerm Machine.exact a b c d rho = Model.cccTerm a b c d rho := by
    intro a b c d
    simp only [Model.Rounded.cccTerm, Model.cccTerm, RoundedDcc.exact_ops, RoundedDcc.exact_sqrt, hp, hl, XR.sq]
  unfold Model.Rounded.cccLoglik Model.cccLoglik
  simp only [ht]
  rfl

/-- C208. Without rounding the objective is the one of the exact model, for series of one length. -/
theorem C208_exact_objective (cpp : Bool) (i : ℕ) (returns1 returns2 : List XR) (p : CccVec) (hlen : returns1.length = returns2.length)
    (b1 b2 : List (XR × XR)) (h1 : varianceBounds cpp (demean returns1 p.mu1) = .ok b1) (h2 : varianceBounds cpp (demean returns2 p.mu2) = .ok b2)
    (x1 x2 : XR) (x3 x4 : List (XR × XR)) :
    Model.Rounded.cccObjective Machine.exact cpp i returns1 returns2 p (backcast (demean returns1 p.mu1)) (backcast (demean returns2 p.mu2)) b1 b2 =
      Model.cccObjective cpp returns1 returns2 p x1 x2 x3 x4 := by
  have hm : ∀ r mu, Model.Rounded.modelResids Machine.exact false r mu = demean r mu := by
    intro r mu
    unfold Model.Rounded.modelResids demean
    simp only [Bool.false_eq_true, if_false, RoundedDcc.exact_ops]
  unfold Model.Rounded.cccObjective Model.cccObjective
  simp only [bind, Except.bind, pure, Except.pure, h1, h2, hm,
    fun v r bc vb => (C152_exact v ⟨0, 0, 0, 0⟩ r bc 0 0 vb cpp).1, C208_exact]
  have hl : (demean returns1 p.mu1).length = (demean returns2 p.mu2).length := by
    unfold demean
    simpa using hlen
  rcases garchVariance cpp p.v1 (demean returns1 p.mu1) (backcast (demean returns1 p.mu1)) b1 with e | s1
  · rfl
  · rcases garchVariance cpp p.v2 (demean returns2 p.mu2) (backcast (demean returns2 p.mu2)) b2 with e | s2
    · rfl
    · simp only [hl, ne_eq, not_true_eq_false, if_false]

/-! ### IEEE arithmetic meets the hypotheses -/

theorem CccFloat.ieee_log200 (w : ℝ) (h1 : 1 / 2 ^ 170 ≤ w) (h2 : w ≤ 2 ^ 170) : ∃ l, Machine.ieee.log (.fin w) = .fin l ∧ |l| ≤ 200 := by
  have hw : 0 < w := lt_of_lt_of_le (by positivity) h1
  have h90 : Real.log ((2 : ℝ) ^ 170) ≤ 200 := by
    rw [Real.log_pow]
    have := Real.log_two_lt_d9
    push_cast
    linarith
  have hi : Real.log w ≤ 200 := (Real.log_le_log hw h2).trans h90
  have lo : -200 ≤ Real.log w := by
    have := Real.log_le_log (by positivity) h1
    rw [one_div, Real.log_inv] at this
    linarith
  have e : Machine.ieee.log (.fin w) = Machine.ieee.R.rd (Real.log w) := by
    show Machine.ieee.R.round (XR.log (.fin w)) = _
    rw [XR.fin_log hw, Rounding.round_fin]
  have h5 : Machine.ieee.R.rd 200 = .fin 200 := by
    have := Machine.ieee.R.nat 200 (by show 200 ≤ 2 ^ 53; norm_num)
    push_cast at this
    exact this
  have h5n : Machine.ieee.R.rd (-200) = .fin (-200) := by rw [Machine.ieee.R.neg, h5]; rfl
  have a := Machine.ieee.R.mono _ _ lo
  have b := Machine.ieee.R.mono _ _ hi
  rw [h5n] at a
  rw [h5] at b
  rw [e]
  rcases hx : Machine.ieee.R.rd (Real.log w) with _ | _ | _ | l
  · exact absurd hx (Rounding.rd_ne_nan _)
  · rw [hx] at a; exact False.elim a
  · rw [hx] at b; exact False.elim b
  · rw [hx] at a b
    exact ⟨l, rfl, abs_le.mpr ⟨XR.fin_le.mp a, XR.fin_le.mp b⟩⟩

theorem CccFloat.ieee_log2pi : ∃ lp : ℝ, Model.Rounded.log2pi Machine.ieee = .fin lp ∧ |lp| ≤ 3 := by
  obtain ⟨lp, h1, -, -, h3⟩ := RoundedLik.ieee_log2pi
  have hL : Real.log (2 * Real.pi) ≤ 2.5 := by
    rw [Real.log_le_iff_le_exp (by positivity)]
    have e : Real.exp 2.5 = Real.exp 1 ^ 2 * Real.exp 0.5 := by
      rw [← Real.exp_nat_mul, ← Real.exp_add]; norm_num
    have := Real.exp_one_gt_d9
    have := Real.pi_lt_four
    have h5 := Real.add_one_le_exp (0.5 : ℝ)
    have h2 : (2.7 : ℝ) ^ 2 ≤ Real.exp 1 ^ 2 := pow_le_pow_left₀ (by norm_num) (by linarith) 2
    rw [e]
    nlinarith
  have hL0 : 0 ≤ Real.log (2 * Real.pi) := Real.log_nonneg (by have := Real.pi_gt_three; linarith)
  have blp : |lp| ≤ 3 := by
    have h4 : 2 * (2 : ℝ) ^ (-53 : ℤ) * Real.log (2 * Real.pi) ≤ 0.1 * 2.5 := mul_le_mul (by norm_num) hL hL0 (by norm_num)
    have := abs_le.mp (h3.trans h4)
    rw [abs_le]
    constructor <;> linarith [this.1, this.2]
  exact ⟨lp, h1, blp⟩

example (i : ℕ) : ∃ v : ℝ, Model.Rounded.cccLoglik Machine.ieee i [.fin 1, .fin (-2)] [.fin 1, .fin 4] [.fin 3, .fin 1] [.fin 2, .fin 2]
    (.fin (1 / 2)) = .fin v := by
  obtain ⟨lp, h1, blp⟩ := CccFloat.ieee_log2pi
  obtain ⟨tiny, huge, A, ht, hh⟩ := RoundedDcc.env Machine.ieee rfl
  obtain ⟨p, hp⟩ := A.fin (99 / 100) (by
    rw [abs_of_pos (by norm_num)]; exact RoundedDcc.hugeGe hh (k := 1) (by norm_num) (by norm_num))
  have hhalf : (1 / 2 : ℝ) ≤ p := by
    have := Machine.ieee.R.mono (1 / 2) (99 / 100) (by norm_num)
    rw [hp, RoundedDip.half_rep] at this
    exact XR.fin_le.mp this
  exact C208_loglik Machine.ieee rfl CccFloat.ieee_log200 h1 blp hp (rho := 1 / 2) (by rw [abs_of_pos (by norm_num)]; exact hhalf) i
    [((1, 1), (3, 2)), ((-2, 4), (1, 2))] (by simp) (by
    intro e he
    simp only [List.mem_cons, List.not_mem_nil, or_false] at he
    rcases he with rfl | rfl <;> norm_num [abs_of_pos, abs_of_neg])

/-- the exact objective of two series of three returns -/
example (cpp : Bool) (p : CccVec) (h1 : p.mu1 = .fin 1) (h2 : p.mu2 = .fin 0) : ∃ (b1 b2 : List (XR × XR)),
    Model.Rounded.cccObjective Machine.exact cpp 0 (([1, -1, 3] : List ℝ).map .fin) (([2, 1, -4] : List ℝ).map .fin) p (backcast (demean (([1, -1, 3] : List ℝ).map .fin) p.mu1))
      (backcast (demean (([2, 1, -4] : List ℝ).map .fin) p.mu2)) b1 b2 = Model.cccObjective cpp (([1, -1, 3] : List ℝ).map .fin) (([2, 1, -4] : List ℝ).map .fin) p 0 0 [] [] := by
  have d1 : demean (([1, -1, 3] : List ℝ).map .fin) p.mu1 = ([0, -2, 2] : List ℝ).map .fin := by
    rw [h1]
    simp only [demean, List.map_cons, List.map_nil, XR.fin_sub]
    norm_num
  have d2 : demean (([2, 1, -4] : List ℝ).map .fin) p.mu2 = ([2, 1, -4] : List ℝ).map .fin := by
    rw [h2]
    simp only [demean, List.map_cons, List.map_nil, XR.fin_sub]
    norm_num
  obtain ⟨r1, e1, -⟩ := C66_variance_bounds cpp [0, -2, 2] (by simp)
  obtain ⟨r2, e2, -⟩ := C66_variance_bounds cpp [2, 1, -4] (by simp)
  rw [← d1] at e1
  rw [← d2] at e2
  exact ⟨_, _, C208_exact_objective cpp 0 (([1, -1, 3] : List ℝ).map .fin) (([2, 1, -4] : List ℝ).map .fin) p (by simp) _ _ e1 e2 0 0 [] []⟩

end
end Frds.Props

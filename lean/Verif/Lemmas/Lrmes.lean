import Verif.Model.Lrmes
import Verif.Spec.Lrmes
import Verif.Lemmas.Spread

set_option linter.unusedSimpArgs false

namespace Frds
noncomputable section
open Frds.Model Frds.Spec Classical

theorem XR.infSign_mul_pos {a b : ℝ} (ha : 0 < a) : XR.infSign (a * b) = XR.infSign b := by
  unfold XR.infSign
  simp [mul_pos_iff, ha, not_lt.mpr ha.le, mul_neg_iff]

theorem XR.mul_sq_assoc (a f : XR) : a * XR.sq f = a * f * f := by
  cases f with
  | nan => simp [XR.sq]
  | fin r => cases a <;> try simp [XR.sq]
             · show XR.infSign (-(r * r)) = XR.infSign (-r) * XR.fin r
               unfold XR.infSign
               rcases lt_trichotomy r 0 with h | h | h
               · have := mul_pos_of_neg_of_neg h h
                 simp [this, h, not_lt.mpr this.le, not_lt.mpr h.le]
                 show _ = XR.infSign r
                 simp [XR.infSign, h, not_lt.mpr h.le]
               · subst h; simp
               · have := mul_pos h h
                 simp [this, h, not_lt.mpr this.le, not_lt.mpr h.le]
                 show _ = XR.infSign (-r)
                 simp [XR.infSign, h, not_lt.mpr h.le]
             · show XR.infSign (r * r) = XR.infSign r * XR.fin r
               unfold XR.infSign
               rcases lt_trichotomy r 0 with h | h | h
               · have := mul_pos_of_neg_of_neg h h
                 simp [this, h, not_lt.mpr this.le, not_lt.mpr h.le]
                 show _ = XR.infSign (-r)
                 simp [XR.infSign, h, not_lt.mpr h.le]
               · subst h; simp
               · have := mul_pos h h
                 simp [this, h, not_lt.mpr this.le, not_lt.mpr h.le]
                 show _ = XR.infSign r
                 simp [XR.infSign, h, not_lt.mpr h.le]
             · ring
  | pinf => cases a <;> try rfl
            · rename_i r
              show XR.infSign r = XR.infSign r * XR.pinf
              unfold XR.infSign
              split_ifs <;> rfl
  | ninf => cases a <;> try rfl
            · rename_i r
              show XR.infSign r = XR.infSign (-r) * XR.ninf
              unfold XR.infSign
              rcases lt_trichotomy r 0 with h | h | h
              · simp [h, not_lt.mpr h.le]; rfl
              · subst h; simp
              · simp [h, not_lt.mpr h.le]; rfl

theorem cppVar_eq (p : GjrParams) (r v : XR) : cppVar p r v = simVar p r v := by
  unfold cppVar simVar
  split_ifs
  · rfl
  · exact (XR.add_zero _).symm

theorem cppLoop_eq (x : SimArgs) (s : SimState) (inv : List (XR × XR)) :
    cppLoop x s inv = ((simLoop x s inv).map Prod.fst, (simLoop x s inv).map Prod.snd) := by
  induction inv generalizing s with
  | nil => rfl
  | cons z zs ih =>
    simp only [cppLoop, simLoop, List.map_cons, simStep, cppVar_eq, ih, XR.mul_sq_assoc]

/-! ### real refinement -/

def ofGjr (p : Gjr) : GjrParams := ⟨.fin p.mu, .fin p.omega, .fin p.alpha, .fin p.gamma, .fin p.beta⟩

theorem gjr_next_pos {p : Gjr} (h : p.Admissible) {r v : ℝ} (hv : 0 < v) : 0 < p.next r v := by
  obtain ⟨h1, h2, h3, h4⟩ := h
  unfold Gjr.next
  have : 0 ≤ (p.alpha + if r < 0 then p.gamma else 0) * r ^ 2 := by
    apply mul_nonneg _ (sq_nonneg r)
    split_ifs <;> simpa
  have : 0 ≤ p.beta * v := mul_nonneg h4 hv.le
  linarith

theorem simVar_fin (p : Gjr) (r v : ℝ) : simVar (ofGjr p) (.fin r) (.fin v) = .fin (p.next r v) := by
  unfold simVar ofGjr Gjr.next
  simp only [XR.fin_sq, XR.fin_mul, XR.fin_add, XR.zero_def, XR.fin_lt]
  split_ifs <;> simp <;> ring

theorem psd_add {x1 y1 z1 x2 y2 z2 : ℝ} (hx1 : 0 ≤ x1) (hy1 : 0 ≤ y1) (h1 : z1 ^ 2 ≤ x1 * y1)
    (hx2 : 0 ≤ x2) (hy2 : 0 ≤ y2) (h2 : z2 ^ 2 ≤ x2 * y2) :
    (z1 + z2) ^ 2 ≤ (x1 + x2) * (y1 + y2) := by
  have h3 : (z1 * z2) ^ 2 ≤ (x1 * y2) * (x2 * y1) := by
    calc (z1 * z2) ^ 2 = z1 ^ 2 * z2 ^ 2 := by ring
      _ ≤ (x1 * y1) * (x2 * y2) := mul_le_mul h1 h2 (sq_nonneg _) (by positivity)
      _ = _ := by ring
  have hp : 0 ≤ x1 * y2 := by positivity
  have hq : 0 ≤ x2 * y1 := by positivity
  have h4 : 2 * (z1 * z2) ≤ x1 * y2 + x2 * y1 := by
    have : (2 * (z1 * z2)) ^ 2 ≤ (x1 * y2 + x2 * y1) ^ 2 := by
      nlinarith [sq_nonneg (x1 * y2 - x2 * y1)]
    exact abs_le_of_sq_le_sq' this (by positivity) |>.2
  nlinarith

theorem psd_smul {c x y z : ℝ} (h : z ^ 2 ≤ x * y) : (c * z) ^ 2 ≤ (c * x) * (c * y) := by
  nlinarith [mul_le_mul_of_nonneg_left h (sq_nonneg c)]

theorem dccNext_psd {a b : ℝ} (h : DccWeights a b) {qbar q : Sym2} (hb : qbar.Psd) (hq : q.Psd)
    (zi zm : ℝ) : (dccNext a b qbar q zi zm).Psd := by
  obtain ⟨ha, hb0, hab, ha1⟩ := h
  obtain ⟨b1, b2, b3⟩ := hb
  obtain ⟨q1, q2, q3⟩ := hq
  have hc : 0 ≤ 1 - a - b := by linarith
  have hpos : ∀ {u v w : ℝ}, 0 < u → 0 ≤ v → 0 < w → 0 < (1 - a - b) * u + a * v + b * w := by
    intro u v w hu hv hw
    have h1 : 0 ≤ (1 - a - b) * u := mul_nonneg hc hu.le
    have h2 : 0 ≤ a * v := mul_nonneg ha hv
    have h3 : 0 ≤ b * w := mul_nonneg hb0 hw.le
    rcases eq_or_lt_of_le hb0 with e | e
    · have : 0 < (1 - a - b) * u := mul_pos (by linarith) hu
      linarith
    · have : 0 < b * w := mul_pos e hw
      linarith
  refine ⟨hpos b1 (sq_nonneg _) q1, hpos b2 (sq_nonneg _) q2, ?_⟩
  simp only [dccNext, Sym2.outer]
  apply psd_add
  · have := mul_nonneg hc b1.le; have := mul_nonneg ha (sq_nonneg zi); linarith
  · have := mul_nonneg hc b2.le; have := mul_nonneg ha (sq_nonneg zm); linarith
  · apply psd_add
    · exact mul_nonneg hc b1.le
    · exact mul_nonneg hc b2.le
    · exact psd_smul b3
    · exact mul_nonneg ha (sq_nonneg _)
    · exact mul_nonneg ha (sq_nonneg _)
    · apply psd_smul; apply le_of_eq; ring
  · exact mul_nonneg hb0 q1.le
  · exact mul_nonneg hb0 q2.le
  · exact psd_smul q3

theorem corr_sq_le {q : Sym2} (h : q.Psd) : q.corr ^ 2 ≤ 1 := by
  obtain ⟨h1, h2, h3⟩ := h
  have hp : 0 < q.x * q.y := mul_pos h1 h2
  rw [Sym2.corr, div_pow, Real.sq_sqrt hp.le, div_le_one hp]
  exact h3

/-- model state corresponding to a real state -/
def ofState (s : DccState) : SimState :=
  ⟨.fin s.residI, .fin s.residM, .fin s.varI, .fin s.varM, .fin s.zI, .fin s.zM,
    .fin s.q.x, .fin s.q.y, .fin s.q.z⟩

/-- simulation arguments corresponding to a real model and state (`rho` = initial `q_im`) -/
def ofModel (m : DccModel) (s : DccState) (C : ℝ) : SimArgs :=
  { C := .fin C, firmVar := .fin s.varI, mktVar := .fin s.varM, firmResid := .fin s.residI,
    mktResid := .fin s.residM, a := .fin m.a, b := .fin m.b, rho := .fin s.q.z,
    q00 := .fin m.qbar.x, q11 := .fin m.qbar.y, q10 := .fin m.qbar.z,
    pi := ofGjr m.firm, pm := ofGjr m.mkt }

theorem day_ok {m : DccModel} (hm : DccModel.Ok m) {s : DccState} (hs : DccState.Ok s) (ξ zm : ℝ) :
    DccState.Ok (m.day s ξ zm).1 :=
  ⟨gjr_next_pos hm.1 hs.1, gjr_next_pos hm.2.1 hs.2.1, dccNext_psd hm.2.2.1 hm.2.2.2 hs.2.2 _ _⟩

theorem simStep_fin {m : DccModel} (hm : DccModel.Ok m) {s : DccState} (hs : DccState.Ok s)
    (s0 : DccState) (C ξ zm : ℝ) :
    simStep (ofModel m s0 C) (ofState s) (.fin ξ, .fin zm)
      = (ofState (m.day s ξ zm).1, .fin (m.day s ξ zm).2.1, .fin (m.day s ξ zm).2.2) := by
  have hvI := gjr_next_pos hm.1 (r := s.residI) hs.1
  have hvM := gjr_next_pos hm.2.1 (r := s.residM) hs.2.1
  have hq := dccNext_psd hm.2.2.1 hm.2.2.2 hs.2.2 s.zI s.zM
  have hqp : 0 < (dccNext m.a m.b m.qbar s.q s.zI s.zM).x * (dccNext m.a m.b m.qbar s.q s.zI s.zM).y :=
    mul_pos hq.1 hq.2.1
  have hc := corr_sq_le hq
  have e1 : (1 - m.a - m.b) * m.qbar.x + m.a * s.zI ^ 2 + m.b * s.q.x
      = (dccNext m.a m.b m.qbar s.q s.zI s.zM).x := rfl
  have e2 : (1 - m.a - m.b) * m.qbar.y + m.a * s.zM ^ 2 + m.b * s.q.y
      = (dccNext m.a m.b m.qbar s.q s.zI s.zM).y := rfl
  have e3 : (1 - m.a - m.b) * m.qbar.z + m.a * s.zI * s.zM + m.b * s.q.z
      = (dccNext m.a m.b m.qbar s.q s.zI s.zM).z := by
    simp only [dccNext, Sym2.outer]; ring
  have hsI : Real.sqrt (m.firm.next s.residI s.varI) ≠ 0 := (Real.sqrt_pos.mpr hvI).ne'
  simp only [simStep, ofModel, ofState, simVar_fin, XR.one_def, XR.fin_sub, XR.fin_mul, XR.fin_sq,
    XR.fin_add, e1, e2, e3, XR.fin_sqrt hqp.le, XR.fin_div _ (Real.sqrt_pos.mpr hqp).ne',
    XR.fin_sqrt hvI.le, XR.fin_sqrt hvM.le]
  rw [show (dccNext m.a m.b m.qbar s.q s.zI s.zM).z / Real.sqrt ((dccNext m.a m.b m.qbar s.q s.zI s.zM).x * (dccNext m.a m.b m.qbar s.q s.zI s.zM).y) = (dccNext m.a m.b m.qbar s.q s.zI s.zM).corr from rfl,
    XR.fin_sqrt (by linarith)]
  simp only [XR.fin_mul, XR.fin_add, XR.fin_div _ hsI, mul_div_cancel_left₀ _ hsI, ofGjr,
    DccModel.day]

theorem simLoop_fin {m : DccModel} (hm : DccModel.Ok m) (s0 : DccState) (C : ℝ)
    (p : List (ℝ × ℝ)) (s : DccState) (hs : DccState.Ok s) :
    simLoop (ofModel m s0 C) (ofState s) (p.map fun z => (.fin z.1, .fin z.2))
      = (m.path s p).map fun r => (.fin r.1, .fin r.2) := by
  induction p generalizing s with
  | nil => rfl
  | cons z t ih =>
    obtain ⟨ξ, zm⟩ := z
    simp only [List.map_cons, simLoop, DccModel.path, simStep_fin hm hs, ih _ (day_ok hm hs ξ zm)]

theorem simInit_fin {m : DccModel} {s : DccState} (hs : DccState.Ok s) (h : DccState.Start s) (C : ℝ) :
    simInit (ofModel m s C) = ofState s := by
  obtain ⟨h1, h2, h3, h4⟩ := h
  simp only [simInit, ofModel, ofState, XR.fin_sqrt hs.1.le, XR.fin_sqrt hs.2.1.le,
    XR.fin_div _ (Real.sqrt_pos.mpr hs.1).ne', XR.fin_div _ (Real.sqrt_pos.mpr hs.2.1).ne', h1, h2,
    h3, h4, XR.one_def]

theorem simulation_fin {m : DccModel} (hm : DccModel.Ok m) {s : DccState} (hs : DccState.Ok s)
    (h : DccState.Start s) (C : ℝ) (p : List (ℝ × ℝ)) :
    simulation (ofModel m s C) (p.map fun z => (.fin z.1, .fin z.2))
      = if m.mktReturn s p < C then (.fin (m.firmReturn s p), true) else (.fin 0, false) := by
  have h100 : (100:ℝ) ≠ 0 := by norm_num
  have hsum : ∀ (l : List (ℝ × ℝ)) (f : ℝ × ℝ → ℝ),
      (l.map fun r => XR.fin (f r / 100)).sum = .fin ((l.map f).map (· / 100)).sum := by
    intro l f
    rw [XR.sum_fin, List.map_map]; rfl
  simp only [simulation, simInit_fin hs h, simLoop_fin hm s C p s hs, List.map_map, Function.comp_def,
    XR.ofNat_def, XR.fin_div _ h100, hsum (m.path s p) Prod.fst, hsum (m.path s p) Prod.snd, XR.fin_exp, XR.one_def,
    XR.fin_sub, DccModel.mktReturn, DccModel.firmReturn, totalReturn, XR.zero_def]
  simp only [ofModel, XR.fin_lt]

/-! ### accumulation -/

theorem accumulate_eq (cpp : Bool) (x : SimArgs) (paths : List (List (XR × XR)))
    (sim : List (XR × XR) → XR × Bool)
    (hsim : ∀ p, sim p = if cpp then cppSimulation x p else simulation x p) (a0 : XR) (n0 : ℕ) :
    paths.foldl (fun acc p =>
      let r := if cpp then cppSimulation x p else simulation x p
      (acc.1 + r.1, acc.2 + (if r.2 then 1 else 0))) (a0, n0)
      = (a0 + (paths.map fun p => (sim p).1).sum, n0 + (paths.filter fun p => (sim p).2).length) := by
  induction paths generalizing a0 n0 with
  | nil => simp
  | cons p t ih =>
    rw [List.foldl_cons]
    simp only [← hsim]
    simp only [← hsim] at ih
    rw [ih]
    simp only [List.map_cons, List.sum_cons, List.filter_cons, add_assoc]
    by_cases h : (sim p).2 = true <;> simp [h]; omega

end
end Frds

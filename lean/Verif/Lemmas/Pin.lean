import Verif.Model.Pin
import Verif.Spec.Pin
import Verif.Lemmas.Spread

set_option linter.unusedSimpArgs false

namespace Frds
noncomputable section
open Frds.Model Frds.Spec Classical

def ofEho (p : Eho) : PinVec := ⟨.fin p.alpha, .fin p.delta, .fin p.eB, .fin p.eS, .fin p.mu⟩

/-- unnormalised mixture density for real counts -/
def mixture (p : Eho) (b s : ℝ) : ℝ :=
  p.alpha * (1 - p.delta) * (Real.exp (-p.eB - p.eS - p.mu) * ((p.mu + p.eB) ^ b * p.eS ^ s))
  + p.alpha * p.delta * (Real.exp (-p.eB - p.eS - p.mu) * (p.eB ^ b * (p.mu + p.eS) ^ s))
  + (1 - p.alpha) * (Real.exp (-p.eB - p.eS) * (p.eB ^ b * p.eS ^ s))

/-- weights of the three states are non-negative and sum to one -/
theorem mix_pos {p : Eho} (h : p.Admissible) {x y z : ℝ} (hx : 0 < x) (hy : 0 < y) (hz : 0 < z) :
    0 < p.alpha * (1 - p.delta) * x + p.alpha * p.delta * y + (1 - p.alpha) * z := by
  obtain ⟨h1, h2, h3, h4, _⟩ := h
  have a1 : 0 ≤ p.alpha * (1 - p.delta) := mul_nonneg h1 (by linarith)
  have a2 : 0 ≤ p.alpha * p.delta := mul_nonneg h1 h3
  have a3 : 0 ≤ 1 - p.alpha := by linarith
  set m := min x (min y z)
  have hm : 0 < m := lt_min hx (lt_min hy hz)
  have b1 := mul_le_mul_of_nonneg_left (min_le_left x (min y z)) a1
  have b2 := mul_le_mul_of_nonneg_left ((min_le_right x (min y z)).trans (min_le_left y z)) a2
  have b3 := mul_le_mul_of_nonneg_left ((min_le_right x (min y z)).trans (min_le_right y z)) a3
  have : p.alpha * (1 - p.delta) * m + p.alpha * p.delta * m + (1 - p.alpha) * m = m := by ring
  linarith

theorem mixture_pos {p : Eho} (h : p.Admissible) (b s : ℝ) : 0 < mixture p b s := by
  obtain ⟨_, _, _, _, hB, hS, hm⟩ := id h
  have hMB : 0 < p.mu + p.eB := by linarith
  have hMS : 0 < p.mu + p.eS := by linarith
  unfold mixture
  apply mix_pos h <;> positivity

theorem zipWith_pairs {l : List (ℝ × ℝ)} (f : XR → XR → XR) (g : ℝ → ℝ → ℝ)
    (h : ∀ b s, f (.fin b) (.fin s) = .fin (g b s)) :
    (List.zipWith f (col l Prod.fst) (col l Prod.snd)).sum = .fin (l.map fun d => g d.1 d.2).sum := by
  unfold col
  rw [zipWith_maps]
  simp only [h]
  rw [XR.sum_fin]

/-- real form of the log-mixture step: `A + log (w·e)` -/
theorem add_log_exp {A I F : ℝ} (hI : 0 < I) (h : Real.exp A * I = F) : A + Real.log I = Real.log F := by
  rw [← h, Real.log_mul (Real.exp_pos A).ne' hI.ne', Real.log_exp]

theorem eho2010_eq {p : Eho} (h : p.Admissible) (l : List (ℝ × ℝ)) :
    eho2010 (col l Prod.fst) (col l Prod.snd) (ofEho p)
      = .fin (-(l.map fun d => Real.log (mixture p d.1 d.2)).sum) := by
  obtain ⟨_, _, _, _, hB, hS, hm⟩ := id h
  have hMB : 0 < p.mu + p.eB := by linarith
  have hMS : 0 < p.mu + p.eS := by linarith
  have hxs : 0 < p.eS / (p.mu + p.eS) := div_pos hS hMS
  have hxb : 0 < p.eB / (p.mu + p.eB) := div_pos hB hMB
  have h2 : (2:ℝ) ≠ 0 := two_ne_zero
  let M := fun b s : ℝ => min b s + max b s / 2
  let xs := p.eS / (p.mu + p.eS)
  let xb := p.eB / (p.mu + p.eB)
  let A := fun b s : ℝ => -p.eB - p.eS + M b s * (Real.log xb + Real.log xs)
    + b * Real.log (p.mu + p.eB) + s * Real.log (p.mu + p.eS)
  let I := fun b s : ℝ => p.alpha * (1 - p.delta) * Real.exp (-p.mu) * xs ^ (s - M b s) * xb ^ (-M b s)
    + p.alpha * p.delta * Real.exp (-p.mu) * xb ^ (b - M b s) * xs ^ (-M b s)
    + (1 - p.alpha) * xs ^ (s - M b s) * xb ^ (b - M b s)
  have hI : ∀ b s, 0 < I b s := by
    intro b s
    have := mix_pos h (x := Real.exp (-p.mu) * xs ^ (s - M b s) * xb ^ (-M b s))
      (y := Real.exp (-p.mu) * xb ^ (b - M b s) * xs ^ (-M b s))
      (z := xs ^ (s - M b s) * xb ^ (b - M b s)) (by positivity) (by positivity) (by positivity)
    simp only [← mul_assoc] at this
    exact this
  have key : ∀ b s, Real.exp (A b s) * I b s = mixture p b s := by
    intro b s
    have e1 : Real.log xb = Real.log p.eB - Real.log (p.mu + p.eB) := Real.log_div hB.ne' hMB.ne'
    have e2 : Real.log xs = Real.log p.eS - Real.log (p.mu + p.eS) := Real.log_div hS.ne' hMS.ne'
    simp only [I, mixture, Real.rpow_def_of_pos hxb, Real.rpow_def_of_pos hxs, Real.rpow_def_of_pos hB,
      Real.rpow_def_of_pos hS, Real.rpow_def_of_pos hMB, Real.rpow_def_of_pos hMS, A]
    simp only [xb, xs] at e1 e2 ⊢
    simp only [Real.rpow_def_of_pos hxb, Real.rpow_def_of_pos hxs, e1, e2]
    generalize Real.log p.eB = LB
    generalize Real.log p.eS = LS
    generalize Real.log (p.mu + p.eB) = LMB
    generalize Real.log (p.mu + p.eS) = LMS
    generalize M b s = m
    rw [mul_add, mul_add]
    congr 1
    · congr 1
      · rw [← Real.exp_add, ← Real.exp_add,
          show ∀ E w a c d : ℝ, E * (w * a * c * d) = w * (E * a * c * d) by intros; ring,
          ← Real.exp_add, ← Real.exp_add, ← Real.exp_add]
        congr 2; ring
      · rw [← Real.exp_add, ← Real.exp_add,
          show ∀ E w a c d : ℝ, E * (w * a * c * d) = w * (E * a * c * d) by intros; ring,
          ← Real.exp_add, ← Real.exp_add, ← Real.exp_add]
        congr 2; ring
    · rw [← Real.exp_add, ← Real.exp_add,
          show ∀ E w a c : ℝ, E * (w * a * c) = w * (E * a * c) by intros; ring,
          ← Real.exp_add, ← Real.exp_add]
      congr 2; ring
  unfold eho2010 ofEho
  simp only [XR.fin_add, XR.fin_div _ hMB.ne', XR.fin_div _ hMS.ne']
  rw [zipWith_pairs _ A, zipWith_pairs _ fun b s => Real.log (I b s)]
  · rw [XR.fin_add, XR.fin_neg, ← sum_map_add']
    congr 2
    congr 1
    apply List.map_congr_left
    intro d _
    exact add_log_exp (hI _ _) (key _ _)
  · intro b s
    simp only [XR.npMin_fin, XR.npMax_fin, XR.ofNat_def, XR.fin_div _ h2, XR.fin_add, XR.fin_neg,
      XR.fin_sub, XR.one_def, XR.fin_mul, XR.fin_exp, XR.fin_rpow _ hxb, XR.fin_rpow _ hxs]
    exact XR.fin_log (hI b s)
  · intro b s
    simp only [XR.npMin_fin, XR.npMax_fin, XR.ofNat_def, XR.fin_div _ h2, XR.fin_add, XR.fin_neg,
      XR.fin_sub, XR.fin_mul, XR.fin_log hxb, XR.fin_log hxs, XR.fin_log hMB, XR.fin_log hMS]
    rfl

theorem lk2011_eq {p : Eho} (h : p.Admissible) (l : List (ℝ × ℝ)) :
    lk2011 (col l Prod.fst) (col l Prod.snd) (ofEho p)
      = .fin (-(l.map fun d => Real.log (mixture p d.1 d.2)).sum) := by
  obtain ⟨_, _, _, _, hB, hS, hm⟩ := id h
  have hMB : 0 < p.mu + p.eB := by linarith
  have hMS : 0 < p.mu + p.eS := by linarith
  have h1S : 0 < 1 + p.mu / p.eS := by positivity
  have h1B : 0 < 1 + p.mu / p.eB := by positivity
  let e1 := fun _b s : ℝ => -p.mu - s * Real.log (1 + p.mu / p.eS)
  let e2 := fun b _s : ℝ => -p.mu - b * Real.log (1 + p.mu / p.eB)
  let e3 := fun b s : ℝ => -b * Real.log (1 + p.mu / p.eB) - s * Real.log (1 + p.mu / p.eS)
  let em := fun b s : ℝ => max (max (e1 b s) (e2 b s)) (e3 b s)
  let A := fun b s : ℝ => -p.eB - p.eS + b * Real.log (p.mu + p.eB) + s * Real.log (p.mu + p.eS) + em b s
  let I := fun b s : ℝ => p.alpha * (1 - p.delta) * Real.exp (e1 b s - em b s)
    + p.alpha * p.delta * Real.exp (e2 b s - em b s) + (1 - p.alpha) * Real.exp (e3 b s - em b s)
  have hI : ∀ b s, 0 < I b s := fun b s =>
    mix_pos h (Real.exp_pos _) (Real.exp_pos _) (Real.exp_pos _)
  have key : ∀ b s, Real.exp (A b s) * I b s = mixture p b s := by
    intro b s
    have f1 : Real.log (1 + p.mu / p.eB) = Real.log (p.mu + p.eB) - Real.log p.eB := by
      rw [← Real.log_div hMB.ne' hB.ne']; congr 1; field_simp; ring
    have f2 : Real.log (1 + p.mu / p.eS) = Real.log (p.mu + p.eS) - Real.log p.eS := by
      rw [← Real.log_div hMS.ne' hS.ne']; congr 1; field_simp; ring
    simp only [I, mixture, Real.rpow_def_of_pos hB,
      Real.rpow_def_of_pos hS, Real.rpow_def_of_pos hMB, Real.rpow_def_of_pos hMS, A]
    generalize em b s = m
    simp only [e1, e2, e3, f1, f2]
    generalize Real.log p.eB = LB
    generalize Real.log p.eS = LS
    generalize Real.log (p.mu + p.eB) = LMB
    generalize Real.log (p.mu + p.eS) = LMS
    rw [mul_add, mul_add]
    congr 1
    · congr 1 <;>
      · rw [← Real.exp_add, ← Real.exp_add,
          show ∀ E w a : ℝ, E * (w * a) = w * (E * a) by intros; ring, ← Real.exp_add]
        congr 2; ring
    · rw [← Real.exp_add, ← Real.exp_add,
          show ∀ E w a : ℝ, E * (w * a) = w * (E * a) by intros; ring, ← Real.exp_add]
      congr 2; ring
  unfold lk2011 ofEho
  simp only [XR.fin_add, XR.fin_div _ hB.ne', XR.fin_div _ hS.ne', XR.one_def, XR.fin_log h1S,
    XR.fin_log h1B, XR.fin_neg]
  rw [zipWith_pairs _ A, zipWith_pairs _ fun b s => Real.log (I b s)]
  · rw [XR.fin_add, XR.fin_neg, ← sum_map_add']
    congr 2
    congr 1
    apply List.map_congr_left
    intro d _
    exact add_log_exp (hI _ _) (key _ _)
  · intro b s
    simp only [XR.npMax_fin, XR.fin_add, XR.fin_neg,
      XR.fin_sub, XR.one_def, XR.fin_mul, XR.fin_exp]
    exact XR.fin_log (hI b s)
  · intro b s
    simp only [XR.npMax_fin, XR.fin_add, XR.fin_neg,
      XR.fin_sub, XR.fin_mul, XR.fin_log hMB, XR.fin_log hMS]
    rfl

theorem mixture_poisson (p : Eho) (b s : ℕ) :
    mixture p b s = p.dayProb b s * ((b.factorial : ℝ) * (s.factorial : ℝ)) := by
  have hb : ((b.factorial : ℝ)) ≠ 0 := by exact_mod_cast b.factorial_ne_zero
  have hs : ((s.factorial : ℝ)) ≠ 0 := by exact_mod_cast s.factorial_ne_zero
  simp only [mixture, Eho.dayProb, poisson, Real.rpow_natCast]
  have e1 : Real.exp (-p.eB - p.eS - p.mu) = Real.exp (-(p.mu + p.eB)) * Real.exp (-p.eS) := by
    rw [← Real.exp_add]; congr 1; ring
  have e2 : Real.exp (-(p.mu + p.eS)) * Real.exp (-p.eB) = Real.exp (-(p.mu + p.eB)) * Real.exp (-p.eS) := by
    rw [← Real.exp_add, ← Real.exp_add]; congr 1; ring
  have e3 : Real.exp (-p.eB - p.eS) = Real.exp (-p.eB) * Real.exp (-p.eS) := by
    rw [← Real.exp_add]; congr 1
  rw [e1, e3]
  field_simp
  linear_combination (-p.alpha * p.delta * p.eB ^ b * (p.mu + p.eS) ^ s) * e2

end
end Frds

import Verif.Model.LobSlope
import Verif.Spec.LobSlope
import Verif.Lemmas.Spread

namespace Frds
noncomputable section
open Frds.Model Frds.Spec Classical

/-- missing value = NaN -/
def ofOpt : Option ℝ → XR
  | none => .nan
  | some r => .fin r

@[simp] theorem ofOpt_none : ofOpt none = .nan := rfl
@[simp] theorem ofOpt_some (r : ℝ) : ofOpt (some r) = .fin r := rfl

theorem sum_ofOpt (l : List (Option ℝ)) : (l.map ofOpt).sum = ofOpt (total l) := by
  induction l with
  | nil => rfl
  | cons a t ih =>
    rw [List.map_cons, List.sum_cons, ih]
    cases a with
    | none => simp [total]
    | some x =>
      cases h : total t with
      | none => simp [total, h]
      | some y => simp [total, h]

theorem nanmean_ofOpt (l : List (Option ℝ)) :
    Np.nanmean (l.map ofOpt) = ofOpt (definedMean l) := by
  have hf : (l.map ofOpt).filter (fun v => ¬ v.isNan) = l.reduceOption.map XR.fin := by
    induction l with
    | nil => rfl
    | cons a t ih =>
      cases a with
      | none => simpa [List.reduceOption_cons_of_none] using ih
      | some x => simpa [List.reduceOption_cons_of_some] using ih
  rw [Np.nanmean, hf]
  by_cases h : l.reduceOption = []
  · rw [definedMean, if_pos h, h]; simp
  · rw [Np.mean_fin h, definedMean, if_neg h]; rfl

theorem bcast_maps {α} (f : XR → XR → XR) (l : List α) (g h : α → XR) :
    Np.bcast f (l.map g) (l.map h) = .ok (l.map fun t => f (g t) (h t)) := by
  unfold Np.bcast
  rw [if_pos (by simp), zipWith_maps]

end
end Frds

namespace Frds
noncomputable section
open Frds.Model Frds.Spec Classical

theorem askSlope_rows {α} (l : List α) {k : ℕ} (hk : 1 < k) (sz : α → List XR) (p m : α → XR) :
    askSlope (.d2 k (l.map sz)) (l.map p) (.d1 (l.map m))
      = .ok (Np.nanmean (l.map fun t => (sz t).sum / (p t - m t))) := by
  simp only [askSlope, slopeChecks, hk, not_true_eq_false, if_false, List.length_map, if_true,
    sumAxis1, Arr.vec, List.map_map, bind, Except.bind, bcast_maps, pure, Except.pure]
  rfl

theorem bidSlope_rows {α} (l : List α) {k : ℕ} (hk : 1 < k) (sz : α → List XR) (p m : α → XR) :
    bidSlope (.d2 k (l.map sz)) (l.map p) (.d1 (l.map m))
      = .ok (Np.nanmean (l.map fun t => (sz t).sum / XR.abs (p t - m t))) := by
  simp only [bidSlope, slopeChecks, hk, not_true_eq_false, if_false, List.length_map, if_true,
    sumAxis1, Arr.vec, List.map_map, bind, Except.bind, bcast_maps, pure, Except.pure]
  rfl

/-- slope difference of one quote -/
def slopeDiffRow (s p : List XR) : XR :=
  (s.getD 4 .nan - s.getD 2 .nan) / XR.abs (p.getD 4 .nan - p.getD 2 .nan)
    - (s.getD 2 .nan - s.getD 0 .nan) / XR.abs (p.getD 2 .nan - p.getD 0 .nan)

theorem slopeDiff_rows {α} (l : List α) {k k' : ℕ} (hk : 5 ≤ k) (hk' : 5 ≤ k')
    (s p : α → List XR) :
    bidSideSlopeDifference (.d2 k (l.map s)) (.d2 k' (l.map p))
      = .ok (Np.nanmean (l.map fun t => slopeDiffRow (s t) (p t))) := by
  have c4 : ∀ {k}, 5 ≤ k → 4 < k := fun h => by omega
  have c2 : ∀ {k}, 5 ≤ k → 2 < k := fun h => by omega
  have c0 : ∀ {k}, 5 ≤ k → 0 < k := fun h => by omega
  have c1 : ∀ {k}, 5 ≤ k → 1 < k := fun h => by omega
  simp only [bidSideSlopeDifference, column, c4 hk, c2 hk, c0 hk, c1 hk, c4 hk', c2 hk', c0 hk',
    not_true_eq_false, if_false, if_true, List.map_map, bind, Except.bind, pure, Except.pure,
    Function.comp_def, bcast_maps, slopeDiffRow]

theorem sdd_rows {α} (l : List α) {k : ℕ} (b a : α → List XR) :
    scaledDepthDifference (.d2 k (l.map b)) (.d2 k (l.map a))
      = .ok (Np.nanmean (l.map fun t =>
          2 * ((a t).sum - (b t).sum) / ((a t).sum + (b t).sum))) := by
  simp only [scaledDepthDifference, Arr.shape, List.length_map, ne_eq, not_true_eq_false, if_false,
    sumAxis1, bind, Except.bind, pure, Except.pure, List.map_map, Function.comp_def, bcast_maps]

theorem sdd_row (b a : List (Option ℝ)) (h : ∀ x ∈ b ++ a, ∀ r, x = some r → 0 ≤ r) :
    2 * ((a.map ofOpt).sum - (b.map ofOpt).sum) / ((a.map ofOpt).sum + (b.map ofOpt).sum)
      = ofOpt (depthDiff b a) := by
  have hn : ∀ (l : List (Option ℝ)) (r : ℝ), (∀ x ∈ l, ∀ r, x = some r → 0 ≤ r) →
      total l = some r → 0 ≤ r := by
    intro l
    induction l with
    | nil => intro r _ hr; simp [total] at hr; exact hr.le
    | cons x t ih =>
      intro r hx hr
      cases x with
      | none => simp [total] at hr
      | some y =>
        cases ht : total t with
        | none => simp [total, ht] at hr
        | some z =>
          simp [total, ht] at hr
          have h1 := hx (some y) (by simp) y rfl
          have h2 := ih z (fun w hw => hx w (by simp [hw])) ht
          linarith
  rw [sum_ofOpt, sum_ofOpt, depthDiff]
  cases hb : total b with
  | none => simp
  | some y =>
    cases ha : total a with
    | none => simp
    | some z =>
      simp only [ofOpt_some, XR.ofNat_def, XR.fin_sub, XR.fin_mul, XR.fin_add, Option.bind_eq_bind,
        Option.bind_some]
      have hy := hn b y (fun x hx => h x (by simp [hx])) hb
      have hz := hn a z (fun x hx => h x (by simp [hx])) ha
      split_ifs with h0
      · have e1 : z = 0 := by linarith
        have e2 : y = 0 := by linarith
        subst e1; subst e2
        simp [XR.fin_div_zero]
      · rw [XR.fin_div _ h0]; rfl

end
end Frds

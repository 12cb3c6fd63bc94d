import Verif.Props.MgarchEst

/-! Property C80: the objective of the constant-correlation model. -/
set_option linter.unusedSimpArgs false

namespace Frds.Props
noncomputable section
open Frds Frds.Model Frds.Spec Classical

/-! ### C80 -/

/-- C80. The value does not depend on the backcasts and variance bounds passed by the caller. -/
theorem C80_ignores (cpp : Bool) (r1 r2 : List XR) (p : CccVec) (b1 b2 b1' b2' : XR)
    (v1 v2 v1' v2' : List (XR × XR)) :
    cccObjective cpp r1 r2 p b1 b2 v1 v2 = cccObjective cpp r1 r2 p b1' b2' v1' v2' := rfl

/-- the returns minus the mean parameter -/
def resid (l : List ℝ) (mu : ℝ) : List ℝ := l.map fun x => x - mu

/-- the variance path of one asset: starts from the backcast of its own residuals and is kept inside the
bounds of its own residuals -/
def OwnPath (omega alpha beta : ℝ) (r s : List ℝ) : Prop :=
  IsRecursion (fun x v (b : ℝ × ℝ) => clampLog b.1 b.2 (omega + alpha * x ^ 2 + beta * v))
    (omega + (alpha + beta) * ewAvg r) r (boundRows r) s

theorem demean_fin (l : List ℝ) (mu : ℝ) : demean (l.map XR.fin) (.fin mu) = (resid l mu).map XR.fin := by
  simp [demean, resid, List.map_map, Function.comp_def]

theorem ownPath (cpp : Bool) {omega alpha beta : ℝ} (ho : 0 < omega) (ha : 0 ≤ alpha) (hb : 0 ≤ beta)
    {r : List ℝ} (hr : ∃ x ∈ r, x ≠ 0) :
    ∃ s : List ℝ, garchVariance cpp ⟨.fin omega, .fin alpha, .fin beta⟩ (r.map XR.fin)
        (.fin (ewAvg r)) (finRows (boundRows r)) = .ok (s.map XR.fin) ∧ (∀ x ∈ s, 0 < x) ∧
      OwnPath omega alpha beta r s := by
  have hne : r ≠ [] := by rintro rfl; obtain ⟨x, hx, _⟩ := hr; simp at hx
  have hs0 : 0 < omega + (alpha + beta) * ewAvg r := by
    have := mul_nonneg (add_nonneg ha hb) (ewAvg_nonneg r); linarith
  obtain ⟨v, h1, h2, h3⟩ := variancePath_fin (next := garchNext ⟨.fin omega, .fin alpha, .fin beta⟩) cpp
    (nr := fun x s => omega + alpha * x ^ 2 + beta * s)
    (by intro x s; rw [garchNext_fin]; simp [gjrNews]) hs0 hne (by rw [boundRows_length])
    (boundRows_good hr)
  refine ⟨v, ?_, h2, h3⟩
  rw [garchVariance]
  simp only [XR.fin_add, XR.fin_mul]
  exact h1

/-- one list of days from the two assets' residuals and variances -/
def mkDays (r1 s1 r2 s2 : List ℝ) : List BivDay :=
  List.zipWith (fun (x y : ℝ × ℝ) => (⟨x.1, x.2, y.1, y.2⟩ : BivDay)) (List.zip r1 s1) (List.zip r2 s2)

theorem mkDays_maps : ∀ {r1 s1 r2 s2 : List ℝ}, s1.length = r1.length → r2.length = r1.length →
    s2.length = r1.length →
    (mkDays r1 s1 r2 s2).map (·.r1) = r1 ∧ (mkDays r1 s1 r2 s2).map (·.s1) = s1 ∧
    (mkDays r1 s1 r2 s2).map (·.r2) = r2 ∧ (mkDays r1 s1 r2 s2).map (·.s2) = s2
  | [], s1, r2, s2, h1, h2, h3 => by
    rw [List.length_nil, List.length_eq_zero_iff] at h1 h2 h3
    subst h1 h2 h3; simp [mkDays]
  | x :: r1, [], _, _, h1, _, _ => by simp at h1
  | x :: r1, a :: s1, [], _, _, h2, _ => by simp at h2
  | x :: r1, a :: s1, y :: r2, [], _, _, h3 => by simp at h3
  | x :: r1, a :: s1, y :: r2, b :: s2, h1, h2, h3 => by
    have := mkDays_maps (r1 := r1) (s1 := s1) (r2 := r2) (s2 := s2) (by simpa using h1) (by simpa using h2)
      (by simpa using h3)
    simp only [mkDays, List.zip_cons_cons, List.zipWith_cons_cons, List.map_cons] at this ⊢
    rw [this.1, this.2.1, this.2.2.1, this.2.2.2]
    simp

/-- C80. For finite returns of equal length and admissible parameters the objective is minus the bivariate
normal log-likelihood of the residuals at the *current* means, with variances started at and bounded by
quantities computed from those residuals. -/
theorem C80_value (cpp : Bool) (l1 l2 : List ℝ) (hlen : l2.length = l1.length)
    (mu1 mu2 o1 a1 b1 o2 a2 b2 rho : ℝ) (ho1 : 0 < o1) (ho2 : 0 < o2) (ha1 : 0 ≤ a1) (ha2 : 0 ≤ a2)
    (hb1 : 0 ≤ b1) (hb2 : 0 ≤ b2) (hrho : |rho| < 1)
    (h1 : ∃ x ∈ l1, x ≠ mu1) (h2 : ∃ x ∈ l2, x ≠ mu2)
    (bc1 bc2 : XR) (vb1 vb2 : List (XR × XR)) :
    ∃ days : List BivDay,
      days.map (·.r1) = resid l1 mu1 ∧ days.map (·.r2) = resid l2 mu2 ∧
      OwnPath o1 a1 b1 (resid l1 mu1) (days.map (·.s1)) ∧
      OwnPath o2 a2 b2 (resid l2 mu2) (days.map (·.s2)) ∧ (∀ d ∈ days, 0 < d.s1 ∧ 0 < d.s2) ∧
      cccObjective cpp (l1.map XR.fin) (l2.map XR.fin)
        ⟨.fin mu1, ⟨.fin o1, .fin a1, .fin b1⟩, .fin mu2, ⟨.fin o2, .fin a2, .fin b2⟩, .fin rho⟩
        bc1 bc2 vb1 vb2
      = .ok (.fin (-Real.log (days.map fun d =>
          bivPdf d.s1 d.s2 (rho * Real.sqrt (d.s1 * d.s2)) d.r1 d.r2).prod)) := by
  have e1 : ∃ x ∈ resid l1 mu1, x ≠ 0 := by
    obtain ⟨x, hx, hne⟩ := h1
    exact ⟨x - mu1, List.mem_map.mpr ⟨x, hx, rfl⟩, sub_ne_zero.mpr hne⟩
  have e2 : ∃ x ∈ resid l2 mu2, x ≠ 0 := by
    obtain ⟨x, hx, hne⟩ := h2
    exact ⟨x - mu2, List.mem_map.mpr ⟨x, hx, rfl⟩, sub_ne_zero.mpr hne⟩
  have n1 : resid l1 mu1 ≠ [] := by rintro h; rw [h] at e1; simp at e1
  have n2 : resid l2 mu2 ≠ [] := by rintro h; rw [h] at e2; simp at e2
  obtain ⟨s1, p1, q1, r1⟩ := ownPath cpp ho1 ha1 hb1 e1
  obtain ⟨s2, p2, q2, r2⟩ := ownPath cpp ho2 ha2 hb2 e2
  have hl1 : (resid l1 mu1).length = l1.length := by simp [resid]
  have hl2 : (resid l2 mu2).length = l1.length := by simp [resid, hlen]
  have hm := mkDays_maps (r1 := resid l1 mu1) (s1 := s1) (r2 := resid l2 mu2) (s2 := s2) r1.1
    (by rw [hl1, hl2]) (by rw [r2.1, hl1, hl2])
  have hpos : ∀ d ∈ mkDays (resid l1 mu1) s1 (resid l2 mu2) s2, 0 < d.s1 ∧ 0 < d.s2 := by
    intro d hd
    refine ⟨q1 _ ?_, q2 _ ?_⟩
    · rw [← hm.2.1]; exact List.mem_map.mpr ⟨d, hd, rfl⟩
    · rw [← hm.2.2.2]; exact List.mem_map.mpr ⟨d, hd, rfl⟩
  refine ⟨mkDays (resid l1 mu1) s1 (resid l2 mu2) s2, hm.1, hm.2.2.1, ?_, ?_, hpos, ?_⟩
  · rw [hm.2.1]; exact r1
  · rw [hm.2.2.2]; exact r2
  · have hL := C74_bivariate_likelihood (mkDays (resid l1 mu1) s1 (resid l2 mu2) s2) hpos rho hrho
    have c1 : (mkDays (resid l1 mu1) s1 (resid l2 mu2) s2).map (fun d => XR.fin d.r1)
        = (resid l1 mu1).map XR.fin := by
      rw [← hm.1, List.map_map, hm.1]; rfl
    have c2 : (mkDays (resid l1 mu1) s1 (resid l2 mu2) s2).map (fun d => XR.fin d.s1)
        = s1.map XR.fin := by
      conv_rhs => rw [← hm.2.1, List.map_map]
      rfl
    have c3 : (mkDays (resid l1 mu1) s1 (resid l2 mu2) s2).map (fun d => XR.fin d.r2)
        = (resid l2 mu2).map XR.fin := by
      conv_rhs => rw [← hm.2.2.1, List.map_map]
      rfl
    have c4 : (mkDays (resid l1 mu1) s1 (resid l2 mu2) s2).map (fun d => XR.fin d.s2)
        = s2.map XR.fin := by
      conv_rhs => rw [← hm.2.2.2, List.map_map]
      rfl
    rw [c1, c2, c3, c4] at hL
    unfold cccObjective
    simp only [demean_fin, bind, Except.bind, pure, Except.pure]
    rw [varianceBounds_fin cpp n1, varianceBounds_fin cpp n2]
    simp only
    rw [backcast_fin n1, backcast_fin n2, p1]
    simp only
    rw [p2]
    simp only [List.length_map]
    rw [if_neg (by rw [hl1, hl2]; simp), hL, XR.fin_neg]

/-- the likelihood of lists of equal length -/
theorem ccc_days {r1 s1 r2 s2 : List ℝ} (h1 : s1.length = r1.length) (h2 : r2.length = r1.length)
    (h3 : s2.length = r1.length) (q1 : ∀ x ∈ s1, 0 < x) (q2 : ∀ x ∈ s2, 0 < x) {rho : ℝ} (hrho : |rho| < 1) :
    (∀ d ∈ mkDays r1 s1 r2 s2, 0 < d.s1 ∧ 0 < d.s2) ∧
    cccLoglik (r1.map XR.fin) (s1.map XR.fin) (r2.map XR.fin) (s2.map XR.fin) (.fin rho)
      = .fin (Real.log ((mkDays r1 s1 r2 s2).map fun d =>
          bivPdf d.s1 d.s2 (rho * Real.sqrt (d.s1 * d.s2)) d.r1 d.r2).prod) := by
  have hm := mkDays_maps (r1 := r1) (s1 := s1) (r2 := r2) (s2 := s2) h1 h2 h3
  have hpos : ∀ d ∈ mkDays r1 s1 r2 s2, 0 < d.s1 ∧ 0 < d.s2 := by
    intro d hd
    refine ⟨q1 _ ?_, q2 _ ?_⟩
    · rw [← hm.2.1]; exact List.mem_map.mpr ⟨d, hd, rfl⟩
    · rw [← hm.2.2.2]; exact List.mem_map.mpr ⟨d, hd, rfl⟩
  refine ⟨hpos, ?_⟩
  have hL := C74_bivariate_likelihood (mkDays r1 s1 r2 s2) hpos rho hrho
  have c : ∀ (f : BivDay → ℝ) (l : List ℝ), (mkDays r1 s1 r2 s2).map f = l →
      (mkDays r1 s1 r2 s2).map (fun d => XR.fin (f d)) = l.map XR.fin := by
    intro f l h
    rw [← h, List.map_map]; rfl
  rw [c (·.r1) _ hm.1, c (·.s1) _ hm.2.1, c (·.r2) _ hm.2.2.1, c (·.s2) _ hm.2.2.2] at hL
  exact hL

/-- C80. A single observation next to a series of any other length is broadcast: its residual and its variance (from the
backcast and the bounds of that one residual) are paired with every day of the other series. -/
theorem C80_broadcast (cpp : Bool) (x : ℝ) (l : List ℝ) (mu1 mu2 o1 a1 b1 o2 a2 b2 rho : ℝ) (ho1 : 0 < o1) (ho2 : 0 < o2)
    (ha1 : 0 ≤ a1) (ha2 : 0 ≤ a2) (hb1 : 0 ≤ b1) (hb2 : 0 ≤ b2) (hrho : |rho| < 1) (hx : x ≠ mu1)
    (hl : ∃ y ∈ l, y ≠ mu2) (bc1 bc2 : XR) (vb1 vb2 : List (XR × XR)) :
    ∃ (v : ℝ) (days : List BivDay),
      OwnPath o1 a1 b1 [x - mu1] [v] ∧ OwnPath o2 a2 b2 (resid l mu2) (days.map (·.s2)) ∧
      days.map (·.r2) = resid l mu2 ∧ (∀ d ∈ days, d.r1 = x - mu1 ∧ d.s1 = v ∧ 0 < v ∧ 0 < d.s2) ∧
      cccObjective cpp [.fin x] (l.map XR.fin)
        ⟨.fin mu1, ⟨.fin o1, .fin a1, .fin b1⟩, .fin mu2, ⟨.fin o2, .fin a2, .fin b2⟩, .fin rho⟩ bc1 bc2 vb1 vb2
      = .ok (.fin (-Real.log (days.map fun d => bivPdf v d.s2 (rho * Real.sqrt (v * d.s2)) (x - mu1) d.r2).prod)) ∧
      cccObjective cpp (l.map XR.fin) [.fin x]
        ⟨.fin mu2, ⟨.fin o2, .fin a2, .fin b2⟩, .fin mu1, ⟨.fin o1, .fin a1, .fin b1⟩, .fin rho⟩ bc2 bc1 vb2 vb1
      = .ok (.fin (-Real.log (days.map fun d => bivPdf d.s2 v (rho * Real.sqrt (d.s2 * v)) d.r2 (x - mu1)).prod)) := by
  have e1 : ∃ z ∈ [x - mu1], z ≠ 0 := ⟨x - mu1, by simp, sub_ne_zero.mpr hx⟩
  have e2 : ∃ z ∈ resid l mu2, z ≠ 0 := by
    obtain ⟨z, hz, hne⟩ := hl
    exact ⟨z - mu2, List.mem_map.mpr ⟨z, hz, rfl⟩, sub_ne_zero.mpr hne⟩
  have n1 : [x - mu1] ≠ [] := by simp
  have n2 : resid l mu2 ≠ [] := by rintro h; rw [h] at e2; simp at e2
  obtain ⟨s1, p1, q1, r1⟩ := ownPath cpp ho1 ha1 hb1 e1
  obtain ⟨s2, p2, q2, r2⟩ := ownPath cpp ho2 ha2 hb2 e2
  obtain ⟨v, rfl⟩ : ∃ v, s1 = [v] := List.length_eq_one_iff.mp (by simpa using r1.1)
  have hv : 0 < v := q1 v (by simp)
  have hn : 1 ≤ (resid l mu2).length := List.length_pos_iff.mpr n2
  have hrep : ∀ (a : ℝ), (List.replicate (resid l mu2).length (XR.fin a))
      = (List.replicate (resid l mu2).length a).map XR.fin := by intro a; rw [List.map_replicate]
  have hst : ∀ (z : ℝ), stretch (resid l mu2).length [XR.fin z] = (List.replicate (resid l mu2).length z).map XR.fin :=
    fun z => hrep z
  have hsg : ∀ (y : List ℝ), stretch 1 (y.map XR.fin) = y.map XR.fin := by
    intro y
    match y with
    | [] => rfl
    | [a] => rfl
    | a :: b :: t => rfl
  obtain ⟨dpos, dl⟩ := ccc_days (r1 := List.replicate (resid l mu2).length (x - mu1))
    (s1 := List.replicate (resid l mu2).length v) (r2 := resid l mu2) (s2 := s2) (by simp) (by simp)
    (by simpa using r2.1) (fun z hz => by rw [List.eq_of_mem_replicate hz]; exact hv) q2 hrho
  obtain ⟨dpos', dl'⟩ := ccc_days (r2 := List.replicate (resid l mu2).length (x - mu1))
    (s2 := List.replicate (resid l mu2).length v) (r1 := resid l mu2) (s1 := s2) r2.1 (by simp)
    (by simp) q2 (fun z hz => by rw [List.eq_of_mem_replicate hz]; exact hv) hrho
  have hm := mkDays_maps (r1 := List.replicate (resid l mu2).length (x - mu1))
    (s1 := List.replicate (resid l mu2).length v) (r2 := resid l mu2) (s2 := s2) (by simp) (by simp)
    (by simpa using r2.1)
  have hswap : mkDays (resid l mu2) s2 (List.replicate (resid l mu2).length (x - mu1))
      (List.replicate (resid l mu2).length v)
      = (mkDays (List.replicate (resid l mu2).length (x - mu1)) (List.replicate (resid l mu2).length v)
        (resid l mu2) s2).map fun d => ⟨d.r2, d.s2, d.r1, d.s1⟩ := by
    unfold mkDays
    rw [List.zipWith_comm, List.map_zipWith]
  have hd : ∀ d ∈ mkDays (List.replicate (resid l mu2).length (x - mu1)) (List.replicate (resid l mu2).length v)
      (resid l mu2) s2, d.r1 = x - mu1 ∧ d.s1 = v ∧ 0 < v ∧ 0 < d.s2 := by
    intro d hd
    refine ⟨List.eq_of_mem_replicate (n := (resid l mu2).length) ?_,
      List.eq_of_mem_replicate (n := (resid l mu2).length) ?_, hv, (dpos d hd).2⟩
    · rw [← hm.1]; exact List.mem_map.mpr ⟨d, hd, rfl⟩
    · rw [← hm.2.1]; exact List.mem_map.mpr ⟨d, hd, rfl⟩
  refine ⟨v, _, r1, ?_, hm.2.2.1, hd, ?_, ?_⟩
  · rw [hm.2.2.2]; exact r2
  · have hL : (mkDays (List.replicate (resid l mu2).length (x - mu1)) (List.replicate (resid l mu2).length v)
        (resid l mu2) s2).map (fun d => bivPdf v d.s2 (rho * Real.sqrt (v * d.s2)) (x - mu1) d.r2)
        = (mkDays (List.replicate (resid l mu2).length (x - mu1)) (List.replicate (resid l mu2).length v)
        (resid l mu2) s2).map (fun d => bivPdf d.s1 d.s2 (rho * Real.sqrt (d.s1 * d.s2)) d.r1 d.r2) := by
      apply List.map_congr_left
      intro d h
      rw [(hd d h).1, (hd d h).2.1]
    rw [hL, ← XR.fin_neg, ← dl]
    unfold cccObjective
    simp only [demean_fin, bind, Except.bind, pure, Except.pure, show demean [XR.fin x] (.fin mu1) = [x - mu1].map XR.fin from by
      simp [demean]]
    rw [varianceBounds_fin cpp n1, varianceBounds_fin cpp n2]
    simp only
    rw [backcast_fin n1, backcast_fin n2, p1]
    simp only
    rw [p2]
    simp only [List.length_map]
    by_cases h1 : (resid l mu2).length = 1
    · rw [if_neg (by simp [h1])]
      simp [h1]
    · rw [if_pos (by simpa using Ne.symm h1), if_pos (Or.inl (by simp))]
      simp only [List.length_cons, List.length_nil, Nat.zero_add, List.map_cons, List.map_nil, hst, hsg]
  · have hL : (mkDays (List.replicate (resid l mu2).length (x - mu1)) (List.replicate (resid l mu2).length v)
        (resid l mu2) s2).map (fun d => bivPdf d.s2 v (rho * Real.sqrt (d.s2 * v)) d.r2 (x - mu1))
        = (mkDays (resid l mu2) s2 (List.replicate (resid l mu2).length (x - mu1))
        (List.replicate (resid l mu2).length v)).map
          (fun d => bivPdf d.s1 d.s2 (rho * Real.sqrt (d.s1 * d.s2)) d.r1 d.r2) := by
      rw [hswap, List.map_map]
      apply List.map_congr_left
      intro d h
      simp only [Function.comp]
      rw [(hd d h).1, (hd d h).2.1]
    rw [hL, ← XR.fin_neg, ← dl']
    unfold cccObjective
    simp only [demean_fin, bind, Except.bind, pure, Except.pure, show demean [XR.fin x] (.fin mu1) = [x - mu1].map XR.fin from by
      simp [demean]]
    rw [varianceBounds_fin cpp n1, varianceBounds_fin cpp n2]
    simp only
    rw [backcast_fin n1, backcast_fin n2, p2]
    simp only
    rw [p1]
    simp only [List.length_map]
    by_cases h1 : (resid l mu2).length = 1
    · rw [if_neg (by simp [h1])]
      simp [h1]
    · rw [if_pos (by simpa using h1), if_pos (Or.inr (by simp))]
      simp only [List.length_cons, List.length_nil, Nat.zero_add, List.map_cons, List.map_nil, hst, hsg]

/-- C80. Lengths: for non-empty series the objective raises exactly if the lengths differ and neither is one, and
then it is a `ValueError`; a single observation next to a longer series is silently repeated (broadcast). -/
theorem C80_lengths (cpp : Bool) (r1 r2 : List XR) (h1 : r1 ≠ []) (h2 : r2 ≠ []) (p : CccVec)
    (bc1 bc2 : XR) (vb1 vb2 : List (XR × XR)) :
    (r1.length ≠ r2.length → r1.length ≠ 1 → r2.length ≠ 1 →
      cccObjective cpp r1 r2 p bc1 bc2 vb1 vb2 = .error .valueError) ∧
    (r1.length = r2.length ∨ r1.length = 1 ∨ r2.length = 1 →
      ∃ v, cccObjective cpp r1 r2 p bc1 bc2 vb1 vb2 = .ok v) := by
  have hv : ∀ (r : List XR) (mu : XR) (q : GarchVar), r ≠ [] → ∃ vb s,
      varianceBounds cpp (demean r mu) = .ok vb ∧
      garchVariance cpp q (demean r mu) (backcast (demean r mu)) vb = .ok s := by
    intro r mu q hr
    have hd : demean r mu ≠ [] := by simpa [demean] using hr
    obtain ⟨e, he, hle⟩ : ∃ e, ewma cpp (demean r mu) ((List.zipWith (· * ·)
        ((decayWeights (min 75 (demean r mu).length)).map fun x =>
          x / (decayWeights (min 75 (demean r mu).length)).sum)
        (((demean r mu).take (min 75 (demean r mu).length)).map XR.sq)).sum) (.fin (94 / 100)) = .ok e ∧
        e.length = (demean r mu).length := by
      unfold ewma
      rw [if_neg hd]
      have hpos := List.length_pos_iff.mpr hd
      refine ⟨_, rfl, ?_⟩
      have hp : ∀ (lam v : XR) (l : List XR), (ewmaLoopPy lam v l).length = l.length := by
        intro lam v l
        induction l generalizing v with
        | nil => rfl
        | cons a t ih => simp [ewmaLoopPy, ih]
      have hc : ∀ (lam v : XR) (l : List XR), (ewmaLoopCpp lam v l).length = l.length := by
        intro lam v l
        induction l generalizing v with
        | nil => rfl
        | cons a t ih => simp [ewmaLoopCpp, ih]
      cases cpp <;> simp [hp, hc] <;> omega
    obtain ⟨vb, hvb, hl⟩ : ∃ vb, varianceBounds cpp (demean r mu) = .ok vb ∧ vb.length = (demean r mu).length := by
      unfold varianceBounds
      simp only [bind, Except.bind, pure, Except.pure, he]
      exact ⟨_, rfl, by simp [hle]⟩
    obtain ⟨s, hs⟩ := ((C62_total cpp q ⟨0, 0, 0, 0⟩ (backcast (demean r mu)) (demean r mu) vb).1 hd hl.ge).1
    exact ⟨vb, s, hvb, hs⟩
  obtain ⟨vb1', s1, e1, f1⟩ := hv r1 p.mu1 p.v1 h1
  obtain ⟨vb2', s2, e2, f2⟩ := hv r2 p.mu2 p.v2 h2
  have hl : ∀ (r : List XR) (mu : XR), (demean r mu).length = r.length := by simp [demean]
  constructor
  · intro hne hn1 hn2
    unfold cccObjective
    simp only [bind, Except.bind, pure, Except.pure, e1, e2, f1, f2, hl]
    rw [if_pos hne, if_neg (by tauto)]
  · intro h
    unfold cccObjective
    simp only [bind, Except.bind, pure, Except.pure, e1, e2, f1, f2, hl]
    by_cases hne : r1.length = r2.length
    · rw [if_neg (by simpa using hne)]; exact ⟨_, rfl⟩
    · rw [if_pos hne, if_pos (by tauto)]; exact ⟨_, rfl⟩

example : ∃ (l1 l2 : List ℝ) (mu1 mu2 o a b rho : ℝ), l2.length = l1.length ∧ 0 < o ∧ 0 ≤ a ∧ 0 ≤ b ∧
    |rho| < 1 ∧ rho ≠ 0 ∧ (∃ x ∈ l1, x ≠ mu1) ∧ ∃ x ∈ l2, x ≠ mu2 :=
  ⟨[1, 2, -1], [0, 1, 3], 1 / 2, 1, 1, 1 / 10, 8 / 10, 1 / 2, rfl, by norm_num, by norm_num, by norm_num,
    by rw [abs_lt]; norm_num, by norm_num, ⟨1, by simp, by norm_num⟩, 0, by simp, by norm_num⟩

/-! hypotheses of C75, C77, C78, C79 are met by the demo object -/

example : Spec.mean demoDays BivDay.z1 = 0 ∧ Spec.mean demoDays BivDay.z2 = 0 ∧
    Spec.mean demoDays (fun d => d.z1 ^ 2) = 1 ∧ Spec.mean demoDays (fun d => d.z2 ^ 2) = 1 := by
  refine ⟨demo_mean.1, demo_mean.2, ?_, ?_⟩ <;> simp [Spec.mean, demoDays, BivDay.z1, BivDay.z2] <;> norm_num

/-- a truthful optimiser that stops at its start and reports success -/
def stayOpt (P : Type) : Optimizer P := fun _ f x0 => { trace := [x0], x := x0, f := f x0, success := true }

/-- the DCC estimation of the demo object with that optimiser succeeds -/
theorem demo_fit (cpp : Bool) : ∃ (o' : DccObj GarchVar) (r : DccPars GarchVar),
    dccFit cpp (uFit cpp (stayOpt _)) (stayOpt _) (demoObj 0) = .ok (o', r) ∧ o'.success = true ∧
    r.a = .fin (1 / 100 + 7 * (49 / 100 / 9)) ∧ r.b = .fin (6 / 10) := by
  have hfit := demo_refit cpp (stayOpt _) 0
  have hst := C78_last cpp _ _ hfit _ (demo_holds 0) (demo_usable cpp) 0 0 rfl rfl
  let oP : DccObj GarchVar := { demoObj 0 with
    params := { p1 := dropLl (demoObj 0).model1.params, p2 := dropLl (demoObj 0).model2.params } }
  have hP : refit (uFit cpp (stayOpt _)) oP = .ok oP := by
    simp [refit, uFit, garchFit, demoObj, oP, bind, Except.bind, pure, Except.pure]
  have hv := dccObjective_fin (o := oP) cpp hP (demo_holds 0) (demo_usable cpp) rfl rfl
    (a := 1 / 100 + 7 * (49 / 100 / 9)) (b := 6 / 10) ⟨by norm_num, by norm_num, by norm_num, by norm_num⟩
  unfold dccFit
  rw [if_neg (by simp [demoObj])]
  simp only [bind, Except.bind, pure, Except.pure]
  rw [hfit]
  simp only
  rw [hst]
  simp only [stayOpt, List.foldlM_cons, List.foldlM_nil, bind, Except.bind, pure, Except.pure]
  simp only [oP] at hv
  rw [hv]
  exact ⟨_, _, rfl, rfl, rfl, rfl⟩

/-! ### Concrete cases of the theorems above -/

example (cpp : Bool) := C80_broadcast cpp 1 [2, -1, 3] 0 0 1 (1 / 10) (8 / 10) 2 (1 / 20) (9 / 10) (1 / 2) (by norm_num)
  (by norm_num) (by norm_num) (by norm_num) (by norm_num) (by norm_num) (by norm_num [abs_lt]) (by norm_num)
  ⟨2, by simp, by norm_num⟩ 0 0 [] []
/-- Three returns of one asset against two of the other. -/
example (cpp : Bool) (p : CccVec) : cccObjective cpp [1, 2, 3] [1, 2] p 0 0 [] [] = .error .valueError :=
  (C80_lengths cpp [1, 2, 3] [1, 2] (by simp) (by simp) p 0 0 [] []).1 (by simp) (by simp) (by simp)

end
end Frds.Props

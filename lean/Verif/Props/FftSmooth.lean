import Verif.Lemmas.FftSmooth

/-! Properties C92, C113-C115: the smoother `fftsmooth`. -/
set_option linter.unusedSimpArgs false
namespace Frds.Props
noncomputable section
open Frds Frds.Model Classical Finset

/-- the real data as a function of the position -/
abbrev obs (v : List ℝ) : ℕ → ℝ := fun i => v.getD i 0

/-- C92: for an even number of observations and an even window of at most `n - 2`, position `t` of the
output is the average of the `w` neighbours `x_{t-w/2+1} … x_{t+w/2}` in the interior and lies on the
straight line through the two outermost averages at each edge (see `Spec.smoothed`). -/
theorem C92_window_average {v : List ℝ} {w : ℕ} (hn : v.length % 2 = 0) (hw : w % 2 = 0)
    (hw2 : w + 2 ≤ v.length) :
    fftsmooth (v.map XR.fin) w
      = .ok ((List.range v.length).map fun t => XR.fin (Spec.smoothed (obs v) v.length w t)) :=
  fftsmooth_eq hn hw hw2

example : (([1, 2, 4, 8, 16, 32] : List ℝ).length % 2 = 0) ∧ (2 % 2 = 0) ∧
    (2 + 2 ≤ ([1, 2, 4, 8, 16, 32] : List ℝ).length) := by decide

/-- an example that exercises the averages and both edges: `[1,2,4,8,16,32]` with `w = 2` -/
example : fftsmooth (([1, 2, 4, 8, 16, 32] : List ℝ).map XR.fin) 2
    = .ok (([0, 3, 6, 12, 24, 36] : List ℝ).map XR.fin) := by
  rw [C92_window_average (by simp) (by norm_num) (by simp)]
  have : List.range ([1, 2, 4, 8, 16, 32] : List ℝ).length = [0, 1, 2, 3, 4, 5] := by decide
  rw [this]
  simp [Spec.smoothed, Spec.windowMean, Finset.sum_Ioc_succ_top, obs]
  norm_num

/-- C92: an odd number of observations or an odd window is rejected, whatever the data. -/
theorem C92_odd_rejected (x : List XR) (w : ℕ) (h : x.length % 2 ≠ 0 ∨ w % 2 ≠ 0) :
    fftsmooth x w = .error .assertionError := by
  unfold fftsmooth
  by_cases h1 : x.length % 2 ≠ 0
  · simp only [if_pos h1, bind, Except.bind, throw, throwThe, MonadExceptOf.throw]
  · have h2 : w % 2 ≠ 0 := h.resolve_left h1
    simp only [if_neg h1, if_pos h2, bind, Except.bind, throw, throwThe, MonadExceptOf.throw, pure, Except.pure]

example := C92_odd_rejected [.fin 1, .nan, .fin 3] 2 (by decide)

theorem windowMean_linear (a b : ℝ) (x y : ℕ → ℝ) (w t : ℕ) :
    Spec.windowMean (fun i => a * x i + b * y i) w t = a * Spec.windowMean x w t + b * Spec.windowMean y w t := by
  unfold Spec.windowMean
  rw [Finset.sum_add_distrib, ← Finset.mul_sum, ← Finset.mul_sum]; ring

theorem smoothed_linear (a b : ℝ) (x y : ℕ → ℝ) (n w t : ℕ) :
    Spec.smoothed (fun i => a * x i + b * y i) n w t = a * Spec.smoothed x n w t + b * Spec.smoothed y n w t := by
  unfold Spec.smoothed
  simp only [windowMean_linear]
  split_ifs <;> ring

/-- C92: smoothing is linear in the data. -/
theorem C92_linear {u v : List ℝ} {w : ℕ} (a b : ℝ) (huv : u.length = v.length) (hn : v.length % 2 = 0)
    (hw : w % 2 = 0) (hw2 : w + 2 ≤ v.length) :
    ∃ su sv : List ℝ, fftsmooth (u.map XR.fin) w = .ok (su.map XR.fin) ∧ fftsmooth (v.map XR.fin) w = .ok (sv.map XR.fin)
      ∧ fftsmooth ((List.zipWith (fun p q => a * p + b * q) u v).map XR.fin) w
        = .ok ((List.zipWith (fun p q => a * p + b * q) su sv).map XR.fin) := by
  have hl : (List.zipWith (fun p q => a * p + b * q) u v).length = v.length := by simp [huv]
  refine ⟨(List.range v.length).map fun t => Spec.smoothed (obs u) v.length w t,
    (List.range v.length).map fun t => Spec.smoothed (obs v) v.length w t, ?_, ?_, ?_⟩
  · rw [C92_window_average (by omega) hw (by omega), huv, List.map_map]; rfl
  · rw [C92_window_average hn hw hw2, List.map_map]; rfl
  · rw [C92_window_average (by omega) hw (by omega), hl]
    have hobs : obs (List.zipWith (fun p q => a * p + b * q) u v) = fun i => a * obs u i + b * obs v i := by
      funext i
      simp only [obs]
      by_cases hi : i < v.length
      · rw [List.getD_eq_getElem _ _ (by omega), List.getD_eq_getElem _ _ (by omega), List.getD_eq_getElem _ _ hi,
          List.getElem_zipWith]
      · rw [List.getD_eq_default _ _ (by omega), List.getD_eq_default _ _ (by omega),
          List.getD_eq_default _ _ (by omega)]
        ring
    rw [hobs, List.zipWith_map, List.zipWith_self]
    simp only [List.map_map, smoothed_linear]
    rfl

theorem windowMean_affine (a b : ℝ) {w t : ℕ} (hw : w % 2 = 0) (hw0 : 0 < w) (ht : w / 2 ≤ t) :
    Spec.windowMean (fun i => a + b * (i : ℝ)) w t = a + b * ((t : ℝ) + 1 / 2) := by
  obtain ⟨h, rfl⟩ : ∃ h, w = 2 * h := ⟨w / 2, by omega⟩
  obtain ⟨s, rfl⟩ : ∃ s, t = s + h := ⟨t - h, by omega⟩
  have hh : 0 < h := by omega
  unfold Spec.windowMean
  rw [show s + h - 2 * h / 2 = s by omega, show s + h + 2 * h / 2 = s + 2 * h by omega]
  have key : ∀ m : ℕ, ∑ i ∈ Finset.Ioc s (s + m), (a + b * (i : ℝ)) = m * a + b * (m * s + m * (m + 1) / 2) := by
    intro m
    induction m with
    | zero => simp
    | succ m ih =>
      rw [← add_assoc, Finset.sum_Ioc_succ_top (by omega), ih]
      push_cast; ring
  rw [key]
  have : (h : ℝ) ≠ 0 := by positivity
  push_cast
  field_simp
  ring

/-- C113: a straight line is shifted up by half a step of its slope: the output at every position `t`,
edges included, is the line's value at `t + 1/2` (the window is not centred). -/
theorem C113_half_step {n w : ℕ} (a b : ℝ) (hn : n % 2 = 0) (hw : w % 2 = 0) (hw0 : 0 < w) (hw2 : w + 2 ≤ n) :
    fftsmooth ((List.range n).map fun i : ℕ => XR.fin (a + b * (i : ℝ))) w
      = .ok ((List.range n).map fun t : ℕ => XR.fin (a + b * ((t : ℝ) + 1 / 2))) := by
  have h0 : ((List.range n).map fun i : ℕ => XR.fin (a + b * (i : ℝ)))
      = ((List.range n).map fun i : ℕ => a + b * (i : ℝ)).map XR.fin := by rw [List.map_map]; rfl
  have hl : ((List.range n).map fun i : ℕ => a + b * (i : ℝ)).length = n := by simp
  rw [h0, C92_window_average (by omega) hw (by omega), hl]
  congr 1
  refine List.map_congr_left fun t ht => ?_
  have htn := List.mem_range.1 ht
  have hwm : ∀ s, w / 2 ≤ s → s + w / 2 < n →
      Spec.windowMean (obs ((List.range n).map fun i : ℕ => a + b * (i : ℝ))) w s = a + b * ((s : ℝ) + 1 / 2) := by
    intro s h1 h2
    rw [← windowMean_affine a b hw hw0 h1]
    unfold Spec.windowMean
    congr 1
    refine Finset.sum_congr rfl fun i hi => ?_
    have hi2 := (Finset.mem_Ioc.1 hi).2
    simp only [obs]
    rw [List.getD_eq_getElem _ _ (by rw [hl]; omega)]
    simp
  congr 1
  unfold Spec.smoothed
  simp only
  rw [hwm _ le_rfl (by omega), hwm _ (by omega) (by omega), hwm (n - w / 2 - 1) (by omega) (by omega),
    hwm (n - w / 2 - 1 - 1) (by omega) (by omega)]
  split_ifs with c1 c2
  · push_cast; ring
  · rw [hwm t (by omega) (by omega)]
  · have e1 : ((n - w / 2 - 1 - 1 : ℕ) : ℝ) = ((n - w / 2 - 1 : ℕ) : ℝ) - 1 := by
      rw [Nat.cast_sub (by omega)]; push_cast; ring
    rw [e1]; ring

example := C113_half_step (n := 60) (w := 4) 1 (-2) (by decide) (by decide) (by decide) (by decide)

/-- C92: a constant series is returned unchanged, edges included. -/
theorem C92_constant {n w : ℕ} (c : ℝ) (hn : n % 2 = 0) (hw : w % 2 = 0) (hw0 : 0 < w) (hw2 : w + 2 ≤ n) :
    fftsmooth (List.replicate n (.fin c)) w = .ok (List.replicate n (.fin c)) := by
  have := C113_half_step c 0 hn hw hw0 hw2
  simp only [zero_mul, add_zero] at this
  simpa [List.map_const'] using this

/-- C114: with an empty window (`w = 0`) the output is zero at every position, whatever the data. The
callers use `w = int(len/20)`, so this is what happens to every sample of fewer than 20 points. -/
theorem C114_empty_window {v : List ℝ} (hn : v.length % 2 = 0) (hpos : v ≠ []) :
    fftsmooth (v.map XR.fin) 0 = .ok (List.replicate v.length (.fin 0)) := by
  have h0 : 0 < v.length := List.length_pos_of_ne_nil hpos
  rw [C92_window_average hn (by norm_num) (by omega)]
  congr 1
  have : ∀ t, Spec.smoothed (obs v) v.length 0 t = 0 := by
    intro t; simp [Spec.smoothed, Spec.windowMean]
  simp only [this, List.map_const', List.length_range]

example := C114_empty_window (v := [3, 4]) (by simp) (by simp)

theorem windowMean_mono {x y : ℕ → ℝ} {w t : ℕ} (h : ∀ i ∈ Finset.Ioc (t - w / 2) (t + w / 2), x i ≤ y i) :
    Spec.windowMean x w t ≤ Spec.windowMean y w t :=
  div_le_div_of_nonneg_right (Finset.sum_le_sum h) (by positivity)

theorem windowMean_step {x : ℕ → ℝ} {n w t : ℕ} (hx : ∀ i j, i ≤ j → j < n → x i ≤ x j)
    (h1 : w / 2 ≤ t) (h2 : t + 1 + w / 2 < n) : Spec.windowMean x w t ≤ Spec.windowMean x w (t + 1) := by
  have : Spec.windowMean x w (t + 1) = Spec.windowMean (fun i => x (i + 1)) w t := by
    unfold Spec.windowMean
    congr 1
    rw [show t + 1 - w / 2 = (t - w / 2) + 1 by omega, show t + 1 + w / 2 = (t + w / 2) + 1 by omega,
      ← Finset.map_add_right_Ioc, Finset.sum_map]
    rfl
  rw [this]
  refine windowMean_mono fun i hi => hx i (i + 1) (by omega) ?_
  have := (Finset.mem_Ioc.1 hi).2
  omega

/-- C115: smoothing keeps sorted data sorted: if the input is non-decreasing so is the whole output,
edges included. -/
theorem C115_monotone {v : List ℝ} {w : ℕ} (hn : v.length % 2 = 0) (hw : w % 2 = 0) (hw2 : w + 2 ≤ v.length)
    (hs : v.Pairwise (· ≤ ·)) :
    ∃ s : List ℝ, fftsmooth (v.map XR.fin) w = .ok (s.map XR.fin) ∧ s.length = v.length ∧ s.Pairwise (· ≤ ·) := by
  refine ⟨(List.range v.length).map fun t => Spec.smoothed (obs v) v.length w t, ?_, by simp, ?_⟩
  · rw [C92_window_average hn hw hw2, List.map_map]; rfl
  set n := v.length with hnd
  have hx : ∀ i j, i ≤ j → j < n → obs v i ≤ obs v j := by
    intro i j hij hj
    simp only [obs]
    rw [List.getD_eq_getElem _ _ (by omega), List.getD_eq_getElem _ _ (by omega)]
    rcases hij.lt_or_eq with h | h
    · exact List.pairwise_iff_getElem.1 hs i j (by omega) (by omega) h
    · subst h; rfl
  have hm := fun t => windowMean_step (n := n) (w := w) (t := t) hx
  -- successive outputs
  have hstep : ∀ t, t + 1 < n → Spec.smoothed (obs v) n w t ≤ Spec.smoothed (obs v) n w (t + 1) := by
    intro t ht
    have hd1 := hm (w / 2) le_rfl (by omega)
    have hd2 := hm (n - w / 2 - 1 - 1) (by omega) (by omega)
    rw [show n - w / 2 - 1 - 1 + 1 = n - w / 2 - 1 by omega] at hd2
    unfold Spec.smoothed
    simp only
    split_ifs with c1 c2 c3 c4 c5 c6
    · push_cast; nlinarith
    · have : t + 1 = w / 2 := by omega
      rw [this, ← this]
      push_cast
      rw [this]
      nlinarith
    · omega
    · omega
    · exact hm t (by omega) (by omega)
    · have : t = n - w / 2 - 1 := by omega
      rw [← this]
      rw [← this] at hd2
      push_cast; nlinarith
    · omega
    · omega
    · push_cast; nlinarith
  rw [List.pairwise_map, List.pairwise_iff_getElem]
  intro i j hi hj hij
  simp only [List.getElem_range]
  simp only [List.length_range] at hi hj
  obtain ⟨d, rfl⟩ : ∃ d, j = i + d := ⟨j - i, by omega⟩
  clear hij
  induction d with
  | zero => exact le_rfl
  | succ d ih => exact (ih (by omega)).trans (hstep (i + d) (by omega))

/-- C115: in the interior every output stays within any bounds of the data; at the edges it need not:
non-negative, sorted data of every admissible length can give a negative first output. -/
theorem C115_interior_bounds {v : List ℝ} {w : ℕ} {lo hi : ℝ} (hn : v.length % 2 = 0) (hw : w % 2 = 0) (hw0 : 0 < w)
    (hw2 : w + 2 ≤ v.length) (hb : ∀ y ∈ v, lo ≤ y ∧ y ≤ hi) :
    ∃ s : List ℝ, fftsmooth (v.map XR.fin) w = .ok (s.map XR.fin)
      ∧ ∀ t, w / 2 ≤ t → t + w / 2 < v.length → lo ≤ s.getD t 0 ∧ s.getD t 0 ≤ hi := by
  refine ⟨(List.range v.length).map fun t => Spec.smoothed (obs v) v.length w t, ?_, ?_⟩
  · rw [C92_window_average hn hw hw2, List.map_map]; rfl
  intro t h1 h2
  have hval : ((List.range v.length).map fun t => Spec.smoothed (obs v) v.length w t).getD t 0
      = Spec.windowMean (obs v) w t := by
    rw [List.getD_eq_getElem _ _ (by simp; omega)]
    simp only [List.getElem_map, List.getElem_range, Spec.smoothed]
    rw [if_neg (by omega), if_pos (by omega)]
  rw [hval]
  have hmem : ∀ i ∈ Finset.Ioc (t - w / 2) (t + w / 2), lo ≤ obs v i ∧ obs v i ≤ hi := by
    intro i hi'
    have := (Finset.mem_Ioc.1 hi').2
    simp only [obs]
    rw [List.getD_eq_getElem _ _ (by omega)]
    exact hb _ (List.getElem_mem _)
  have hc : ∀ c : ℝ, Spec.windowMean (fun _ => c) w t = c := by
    intro c
    have := windowMean_affine c 0 hw hw0 h1
    simpa using this
  constructor
  · rw [← hc lo]; exact windowMean_mono fun i hi' => (hmem i hi').1
  · rw [← hc hi]; exact windowMean_mono fun i hi' => (hmem i hi').2

/-- C115: the edges can leave the range of the data: for every even `n ≥ 4` there are `n` values that are
zero or one, in increasing order, whose smoothed first value (window 2) is negative. -/
theorem C115_edge_overshoot {n : ℕ} (hn : n % 2 = 0) (hn4 : 4 ≤ n) :
    ∃ v s : List ℝ, v.length = n ∧ v.Pairwise (· ≤ ·) ∧ (∀ y ∈ v, 0 ≤ y ∧ y ≤ 1)
      ∧ fftsmooth (v.map XR.fin) 2 = .ok (s.map XR.fin) ∧ s.getD 0 0 < 0 := by
  refine ⟨(List.range n).map fun i => if i < 3 then (0 : ℝ) else 1,
    (List.range n).map fun t => Spec.smoothed (obs ((List.range n).map fun i => if i < 3 then (0 : ℝ) else 1)) n 2 t,
    by simp, ?_, ?_, ?_, ?_⟩
  · rw [List.pairwise_map]
    refine List.pairwise_lt_range.imp fun {a b} h => ?_
    split_ifs <;> first | omega | norm_num
  · intro y hy
    obtain ⟨i, _, rfl⟩ := List.mem_map.1 hy
    split_ifs <;> norm_num
  · rw [C92_window_average (by simpa using hn) (by norm_num) (by simpa using hn4), List.map_map]
    simp only [List.length_map, List.length_range]
    rfl
  · rw [List.getD_eq_getElem _ _ (by simp; omega)]
    simp only [List.getElem_map, List.getElem_range, Spec.smoothed, Spec.windowMean]
    norm_num
    rw [Finset.sum_Ioc_succ_top (by norm_num), Finset.sum_Ioc_succ_top (by norm_num),
      Finset.sum_Ioc_succ_top (by norm_num), Finset.sum_Ioc_succ_top (by norm_num)]
    rw [List.getElem?_range (show 1 < n by omega), List.getElem?_range (show 2 < n by omega),
      List.getElem?_range (show 3 < n by omega)]
    norm_num

/-! ### Concrete cases of the theorems above -/

example := C92_linear (u := [6, 5, 4, 3, 2, 1]) (v := [1, 2, 4, 8, 16, 32]) (w := 2) 3 (-1) rfl (by simp) (by simp) (by simp)
example := C92_constant (n := 60) (w := 4) 3 (by decide) (by decide) (by decide) (by decide)
example := C115_monotone (v := [1, 2, 4, 8, 16, 32]) (w := 2) (by simp) (by simp) (by simp) (by simp; norm_num)
example := C115_interior_bounds (v := [1, 2, 4, 8, 16, 32]) (w := 2) (lo := 1) (hi := 32) (by simp) (by simp) (by simp) (by simp)
  (by simp; norm_num)
example := C115_edge_overshoot (n := 100) (by decide) (by decide)

end
end Frds.Props

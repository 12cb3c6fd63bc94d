import Verif.Props.RoundedForest
import Verif.Lemmas.Eval64

/-! Property C170: the order in which the threads push their trees is visible in the scores. -/
set_option linter.unusedSimpArgs false

namespace Frds.Props
noncomputable section
open Frds Frds.Model.IForest Frds.Spec.IForest Classical

namespace RoundedForest

/-- two observations: attribute 0 is constant, attribute 1 is not -/
def twoRows : Data where
  nNum := 2
  nChar := 0
  nObs := 2
  num a o := if a = 0 then .fin 0 else .fin o
  width := 1
  bytes := []

/-- a generator whose draws are the remainder of the seed -/
def remRng : Rng ℕ where
  seed s := s
  unif g n := (g % n, g)
  unif_lt _ _ h := Nat.mod_lt _ h
  sample g n k := (List.range (min k n), g)
  sample_sub _ n k := List.range_sublist.mpr (Nat.min_le_right _ _)
  sample_len _ _ _ := List.length_range

/-- the tree that splits on attribute 0 leaves both observations together; the one on attribute 1 isolates them -/
def together : Tree := .numNode 0 (.fin 0) 2 (.leaf 0) (.leaf 2)
def apart : Tree := .numNode 1 (.fin 1) 2 (.leaf 1) (.leaf 1)

theorem height2 : maxTreeHeight 2 = 1 := by
  unfold maxTreeHeight
  norm_num

theorem grow_even (g : ℕ) (hg : g % 2 = 0) : growTree twoRows remRng 1 0 [0, 1] g = together := by
  rw [growTree, dif_neg (by simp)]
  simp only [remRng, twoRows, Nat.add_zero, List.length_cons, List.length_nil, Nat.zero_add, Nat.reduceAdd, hg]
  rw [if_pos (by norm_num)]
  have e : trainLess (.fin 0) (.fin 0) = false := by simp [trainLess]
  simp [e, growTree, together]

theorem grow_odd (g : ℕ) (hg : g % 2 = 1) : growTree twoRows remRng 1 0 [0, 1] g = apart := by
  rw [growTree, dif_neg (by simp)]
  simp only [remRng, twoRows, Nat.add_zero, List.length_cons, List.length_nil, Nat.zero_add, Nat.reduceAdd, hg]
  rw [if_pos (by norm_num)]
  have e : trainLess (.fin 1) (.fin 0) = true := by simp [trainLess]
  have e' : trainLess (.fin 1) (.fin 1) = false := by simp [trainLess]
  simp [e, e', growTree, apart]

theorem threads3 : threadTrees twoRows remRng 2 3 0 3 = [[together], [apart], [together]] := by
  have hs : remRng.sample 0 2 2 = ([0, 1], 0) := rfl
  have key : ∀ i, workerTrees twoRows remRng 2 0 i 1 = [growTree twoRows remRng 1 0 [0, 1] i] := by
    intro i
    have : ∀ g, remRng.sample g twoRows.nObs 2 = ([0, 1], g) := fun g => rfl
    simp only [workerTrees, workerLoop, this, height2, List.nil_append]
    simp [remRng, randomOffset, twoRows]
  have j : ∀ i, i < 3 → jobsOf 3 3 i = 1 := by
    intro i hi
    interval_cases i <;> rfl
  have r3 : List.range 3 = [0, 1, 2] := rfl
  unfold threadTrees
  rw [r3]
  simp only [List.map_cons, List.map_nil, j 0 (by norm_num), j 1 (by norm_num), j 2 (by norm_num), key,
    grow_even 0 rfl, grow_odd 1 rfl, grow_even 2 rfl]

/-- first schedule: thread 0, thread 1, thread 2 -/
theorem grown_a : Grown twoRows remRng 2 3 0 3 [together, apart, together] := by
  refine ⟨[[], [], []], by simp, ?_⟩
  rw [threads3]
  exact .step (.push [] [[apart], [together]] together [] [])
    (.step (.push [[]] [[together]] apart [] [together])
    (.step (.push [[], []] [] together [] [together, apart]) (.refl _)))

/-- second schedule: thread 0, thread 2, thread 1 -/
theorem grown_b : Grown twoRows remRng 2 3 0 3 [together, together, apart] := by
  refine ⟨[[], [], []], by simp, ?_⟩
  rw [threads3]
  exact .step (.push [] [[apart], [together]] together [] [])
    (.step (.push [[], [apart]] [] together [] [together])
    (.step (.push [[]] [[]] apart [] [together, together]) (.refl _)))

variable {M : Machine}

section
variable (hM : M.R = binary64.rounding)
include hM

theorem rd_hM (x : ℝ) : M.R.rd x = binary64.rd x := by rw [hM]; rfl

theorem add_eval {x y : ℝ} (z : ℝ) (h : binary64.rd (x + y) = .fin z) : M.R.add (.fin x) (.fin y) = .fin z := by
  show M.R.round _ = _
  rw [XR.fin_add, Rounding.round_fin, rd_hM hM, h]

theorem sub_eval {x y : ℝ} (z : ℝ) (h : binary64.rd (x - y) = .fin z) : M.R.sub (.fin x) (.fin y) = .fin z := by
  show M.R.round _ = _
  rw [XR.fin_sub, Rounding.round_fin, rd_hM hM, h]

theorem mul_eval {x y : ℝ} (z : ℝ) (h : binary64.rd (x * y) = .fin z) : M.R.mul (.fin x) (.fin y) = .fin z := by
  show M.R.round _ = _
  rw [XR.fin_mul, Rounding.round_fin, rd_hM hM, h]

theorem div_eval {x y : ℝ} (hy : y ≠ 0) (z : ℝ) (h : binary64.rd (x / y) = .fin z) :
    M.R.div (.fin x) (.fin y) = .fin z := by
  show M.R.round _ = _
  rw [XR.fin_div _ hy, Rounding.round_fin, rd_hM hM, h]

theorem nat_eval (n : ℕ) (hn : n ≤ 2 ^ 53) : M.R.round (.fin n) = .fin n := by
  rw [Rounding.round_fin, rd_hM hM]
  exact Format.rd_nat n hn

theorem gamma_eval : M.R.round (.fin eulerGamma) = .fin (5199096506725913 / 2 ^ 53) := by
  rw [Rounding.round_fin, rd_hM hM, rd64_eq 5199096506725913 (-53) (by norm_num) (by norm_num)]
  · norm_num
  · norm_num [eulerGamma]
  · norm_num [eulerGamma]
  · left
    rw [abs_lt]
    norm_num [eulerGamma]

/-- the computed `c(2)` -/
theorem c2_eval (hlog : M.log (.fin 1) = .fin 0) :
    Model.RoundedForest.averagePathLength M 2 = .fin (5563975034843336 / 2 ^ 55) := by
  have e2 := nat_eval hM 2 (by norm_num)
  push_cast at e2
  have e1 : M.R.sub (.fin 2) 1 = .fin 1 := by
    rw [XR.one_def]
    refine sub_eval hM 1 ?_
    have := Format.rd_nat (F := binary64) 1 (by norm_num [binary64])
    push_cast at this
    rw [← this]
    norm_num
  unfold Model.RoundedForest.averagePathLength
  push_cast
  rw [e2, e1, hlog, gamma_eval hM]
  rw [add_eval hM (5199096506725913 / 2 ^ 53), XR.ofNat_def 2]
  · rw [mul_eval hM (x := 2) (5199096506725913 / 2 ^ 52)]
    · rw [mul_eval hM (x := 2) (y := 1) 2, div_eval hM (by norm_num) 1, sub_eval hM]
      · rw [rd64_eq 5563975034843336 (-55) (by norm_num) (by norm_num) (by norm_num) (by norm_num)]
        · norm_num
        · left; rw [abs_lt]; norm_num
      · rw [rd64_eq (2 ^ 52) (-52) (by norm_num) (by norm_num) (by norm_num) (by norm_num)]
        · norm_num
        · left; rw [abs_lt]; norm_num
      · rw [rd64_eq (2 ^ 52) (-51) (by norm_num) (by norm_num) (by norm_num) (by norm_num)]
        · norm_num
        · left; rw [abs_lt]; norm_num
    · rw [rd64_eq 5199096506725913 (-52) (by norm_num) (by norm_num) (by norm_num) (by norm_num)]
      · norm_num
      · left; rw [abs_lt]; norm_num
  · rw [rd64_eq 5199096506725913 (-53) (by norm_num) (by norm_num) (by norm_num) (by norm_num)]
    · norm_num
    · left; rw [abs_lt]; norm_num

theorem path_together (hlog : M.log (.fin 1) = .fin 0) :
    Model.RoundedForest.pathLength M twoRows 0 together 0 = .fin (5199096506725913 / 2 ^ 52) := by
  have e1 := nat_eval hM 1 (by norm_num)
  simp only [together, Model.RoundedForest.pathLength, twoRows]
  have h0 : ¬ (if True then XR.fin 0 else XR.fin ((0 : ℕ) : ℝ)) < XR.fin 0 := by simp
  rw [if_neg h0, if_neg (by norm_num), Nat.zero_add, e1, c2_eval hM hlog]
  push_cast
  rw [add_eval hM]
  rw [rd64_eq 5199096506725913 (-52) (by norm_num) (by norm_num) (by norm_num) (by norm_num)]
  · norm_num
  · left; rw [abs_lt]; norm_num

theorem path_apart : Model.RoundedForest.pathLength M twoRows 0 apart 0 = .fin 1 := by
  have e1 := nat_eval hM 1 (by norm_num)
  push_cast at e1
  simp only [apart, Model.RoundedForest.pathLength, twoRows]
  simpa using e1

theorem zero_add_eval {y : ℝ} (h : binary64.rd y = .fin y) : M.R.add (.fin 0) (.fin y) = .fin y :=
  add_eval hM y (by rw [zero_add, h])

theorem expo_a (hlog : M.log (.fin 1) = .fin 0) (pow2 : XR → XR) :
    Model.RoundedForest.anomalyScore M pow2 twoRows 2 3 [together, apart, together] 0
      = pow2 (.fin (-(8041218417179024 / 2 ^ 50))) := by
  have e3 := nat_eval hM 3 (by norm_num)
  push_cast at e3
  unfold Model.RoundedForest.anomalyScore Rounding.foldSum
  simp only [List.map_cons, List.map_nil, List.foldl_cons, List.foldl_nil, path_together hM hlog, path_apart hM,
    c2_eval hM hlog]
  push_cast
  rw [e3, zero_add_eval hM, add_eval hM (4851348067048204 / 2 ^ 51), add_eval hM (7450896320411160 / 2 ^ 51),
    div_eval hM (by norm_num) (4967264213607440 / 2 ^ 52), XR.fin_neg, div_eval hM (by norm_num)]
  · rw [neg_div, Format.rd_neg, rd64_eq 8041218417179024 (-50) (by norm_num) (by norm_num) (by norm_num) (by norm_num)]
    · rw [XR.fin_neg]; norm_num
    · left; rw [abs_lt]; norm_num
  · rw [rd64_eq 4967264213607440 (-52) (by norm_num) (by norm_num) (by norm_num) (by norm_num)]
    · norm_num
    · left; rw [abs_lt]; norm_num
  · rw [rd64_eq 7450896320411160 (-51) (by norm_num) (by norm_num) (by norm_num) (by norm_num)]
    · norm_num
    · right
      refine ⟨?_, by decide⟩
      norm_num
  · rw [rd64_eq 4851348067048204 (-51) (by norm_num) (by norm_num) (by norm_num) (by norm_num)]
    · norm_num
    · right
      refine ⟨?_, by decide⟩
      norm_num
  · rw [rd64_eq 5199096506725913 (-52) (by norm_num) (by norm_num) (by norm_num) (by norm_num)]
    · norm_num
    · left; rw [abs_lt]; norm_num

theorem expo_b (hlog : M.log (.fin 1) = .fin 0) (pow2 : XR → XR) :
    Model.RoundedForest.anomalyScore M pow2 twoRows 2 3 [together, together, apart] 0
      = pow2 (.fin (-(8041218417179025 / 2 ^ 50))) := by
  have e3 := nat_eval hM 3 (by norm_num)
  push_cast at e3
  unfold Model.RoundedForest.anomalyScore Rounding.foldSum
  simp only [List.map_cons, List.map_nil, List.foldl_cons, List.foldl_nil, path_together hM hlog, path_apart hM,
    c2_eval hM hlog]
  push_cast
  rw [e3, zero_add_eval hM, add_eval hM (5199096506725913 / 2 ^ 51), add_eval hM (7450896320411161 / 2 ^ 51),
    div_eval hM (by norm_num) (4967264213607441 / 2 ^ 52), XR.fin_neg, div_eval hM (by norm_num)]
  · rw [neg_div, Format.rd_neg, rd64_eq 8041218417179025 (-50) (by norm_num) (by norm_num) (by norm_num) (by norm_num)]
    · rw [XR.fin_neg]; norm_num
    · left; rw [abs_lt]; norm_num
  · rw [rd64_eq 4967264213607441 (-52) (by norm_num) (by norm_num) (by norm_num) (by norm_num)]
    · norm_num
    · left; rw [abs_lt]; norm_num
  · rw [rd64_eq 7450896320411161 (-51) (by norm_num) (by norm_num) (by norm_num) (by norm_num)]
    · norm_num
    · left; rw [abs_lt]; norm_num
  · rw [rd64_eq 5199096506725913 (-51) (by norm_num) (by norm_num) (by norm_num) (by norm_num)]
    · norm_num
    · left; rw [abs_lt]; norm_num
  · rw [rd64_eq 5199096506725913 (-52) (by norm_num) (by norm_num) (by norm_num) (by norm_num)]
    · norm_num
    · left; rw [abs_lt]; norm_num

end

end RoundedForest
open RoundedForest

/-- C170. Two schedules of the same call give different binary64 scores, for every logarithm with `log 1 = 0` and every
`pow` whose relative error is at most `2 ^ -52`: three threads grow one tree each for two rows; whether the second or the
third thread pushes its tree first decides the last digits of the score of the first row. -/
theorem C170_order_matters : ∃ (d : Data) (rng : Rng ℕ) (forestSize treeSize seed workers : ℕ),
    ∀ M : Machine, M.R = binary64.rounding → M.log (.fin 1) = .fin 0 →
    ∀ pow2 : XR → XR,
      (∀ x : ℝ, 0 ≤ x → x ≤ 1000 → ∃ s, pow2 (.fin (-x)) = .fin s ∧ |s - 2 ^ (-x)| ≤ 2 ^ (-52 : ℤ) * 2 ^ (-x)) →
    ∃ out out', Model.RoundedForest.IsOutput M pow2 d rng forestSize treeSize seed workers out ∧
      Model.RoundedForest.IsOutput M pow2 d rng forestSize treeSize seed workers out' ∧ out[0]? ≠ out'[0]? := by
  refine ⟨twoRows, remRng, 3, 2, 0, 3, fun M hM hlog pow2 hpow => ?_⟩
  have run : ∀ trees, Grown twoRows remRng 2 3 0 3 trees →
      Model.RoundedForest.IsOutput M pow2 twoRows remRng 3 2 0 3
        ((List.range 2).map (Model.RoundedForest.anomalyScore M pow2 twoRows 2 3 trees)) := by
    intro trees hg
    obtain ⟨fin, o, hf, hr⟩ := scoreRun_exists (Model.RoundedForest.anomalyScore M pow2 twoRows 2 3 trees)
      ((List.range 3).map (scoreJobs twoRows.nObs 3)) [] (List.replicate twoRows.nObs 0) (by simp)
    have hsc : Scored (Model.RoundedForest.anomalyScore M pow2 twoRows 2 3 trees) 0 twoRows.nObs 3 o :=
      ⟨fin, hf, by simpa using hr⟩
    have e := C85_scores _ _ _ _ (by norm_num) _ hsc
    rw [e] at hsc
    exact ⟨trees, hg, hsc⟩
  refine ⟨_, _, run _ grown_a, run _ grown_b, ?_⟩
  rw [List.getElem?_map, List.getElem?_map, List.getElem?_range (by norm_num), Option.map_some, Option.map_some,
    expo_a hM hlog, expo_b hM hlog]
  obtain ⟨s, e1, h1⟩ := hpow (8041218417179024 / 2 ^ 50) (by norm_num) (by norm_num)
  obtain ⟨t, e2, h2⟩ := hpow (8041218417179025 / 2 ^ 50) (by norm_num) (by norm_num)
  rw [e1, e2]
  intro h
  have hst : s = t := by simpa using h
  subst hst
  have hl2 := Real.log_two_gt_d9
  obtain ⟨y, hy⟩ : ∃ y : ℝ, y = 8041218417179025 / 2 ^ 50 := ⟨_, rfl⟩
  have hy' : (8041218417179024 / 2 ^ 50 : ℝ) = y - 2 ^ (-50 : ℤ) := by rw [hy]; norm_num
  rw [hy'] at h1
  rw [← hy] at h2
  clear hy hy' h
  have hA : (2 : ℝ) ^ (-(y - 2 ^ (-50 : ℤ))) = 2 ^ (-y) * Real.exp (Real.log 2 * 2 ^ (-50 : ℤ)) := by
    rw [Real.rpow_def_of_pos (by norm_num), Real.rpow_def_of_pos (by norm_num), ← Real.exp_add]
    congr 1
    ring
  rw [hA] at h1
  have hB0 : (0 : ℝ) < 2 ^ (-y) := Real.rpow_pos_of_pos (by norm_num) _
  generalize (2 : ℝ) ^ (-y) = B at *
  have hexp := Real.add_one_le_exp (Real.log 2 * 2 ^ (-50 : ℤ))
  obtain ⟨a1, a2⟩ := abs_le.mp h1
  obtain ⟨b1, b2⟩ := abs_le.mp h2
  set E := Real.exp (Real.log 2 * 2 ^ (-50 : ℤ)) with hE
  have hBE : B * (Real.log 2 * 2 ^ (-50 : ℤ) + 1) ≤ B * E := mul_le_mul_of_nonneg_left hexp hB0.le
  have k : B * E * (1 - 2 ^ (-52 : ℤ)) ≤ B * (1 + 2 ^ (-52 : ℤ)) := by linarith
  have k2 : B * (Real.log 2 * 2 ^ (-50 : ℤ) + 1) * (1 - 2 ^ (-52 : ℤ)) ≤ B * (1 + 2 ^ (-52 : ℤ)) :=
    (mul_le_mul_of_nonneg_right hBE (by norm_num)).trans k
  rw [mul_assoc] at k2
  have k3 := le_of_mul_le_mul_left k2 hB0
  norm_num at k3 hl2
  linarith

/-- the correctly rounded logarithm and power meet the assumptions -/
example : Machine.ieee.R = binary64.rounding ∧ Machine.ieee.log (.fin 1) = .fin 0 := by
  refine ⟨rfl, ?_⟩
  show binary64.rounding.round (XR.log (.fin 1)) = _
  rw [XR.fin_log (by norm_num), Real.log_one]
  exact Rounding.rd_zero

end
end Frds.Props

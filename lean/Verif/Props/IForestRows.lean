import Verif.Props.IForestPy

/-! Properties C128 (rows) and C132: which score belongs to which row; equal rows. -/
set_option linter.unusedSimpArgs false

namespace Frds.Props
noncomputable section
open Frds Frds.Model.IForest Frds.Spec.IForest Classical

/-- C128. The score under the `i`-th index entry is the score of the `i`-th row of the data: there is one forest of
`F` trees, and the score of row `i` is `2 ^ (- average path length of row i / c(T))`, where the paths are those of the
`i`-th entries of the used columns. -/
theorem C128_rows {I G : Type} (env : Env) (hw : 1 ≤ env.workers) (rng : Rng G) (f : Frame I) (F T : ℤ)
    (hF : 1 ≤ F) (hT : 2 ≤ T) (excl : Option (List String)) (seed : ℤ) (name : String) (r : ScoreFrame I)
    (h : AnomalyScores env rng f F T excl seed name (.ok r)) :
    ∃ (d : Data) (trees : List Tree), Grown d rng T.toNat F.toNat (seedOf seed) env.workers trees ∧
      trees.length = F.toNat ∧
      (∀ a col i x, (usedNumbers f (excl.getD []))[a]? = some col → col[i]? = some x → d.num a i = x) ∧
      ∀ i < f.index.length,
        r.scores[i]? = some (.fin (2 ^ (-avgDepth d i trees / avgPath T.toNat))) := by
  obtain ⟨d, out, hp, _, _, hA, ⟨t, ht, hs⟩, rfl⟩ := h
  have hlen := (C85_forest d rng _ _ _ _ hw t ht).1
  have hne : t ≠ [] := by
    intro hnil
    rw [hnil] at hlen
    simp at hlen
    omega
  refine ⟨d, t, ht, hlen, ?_, ?_⟩
  · obtain ⟨-, -, -, -, rfl⟩ := prepare_ok hp
    intro a col i x ha hx
    simp only [dataOf, List.getD_eq_getElem?_getD, ha, Option.getD_some, hx]
  · intro i hi
    have hn : d.nObs = f.index.length := by
      obtain ⟨-, -, -, -, rfl⟩ := prepare_ok hp
      rfl
    simp only
    rw [C85_scores _ _ _ _ hw _ hs, List.getElem?_map, List.getElem?_range (by omega), Option.map_some, ← hlen,
      score_fin d T.toNat (by omega) t hne]

/-! ### C132 -/

theorem path_same {G : Type} {d : Data} (rng : Rng G) (mh : ℕ) (hA : 1 ≤ d.nNum + d.nChar) (i j : ℕ)
    (hnum : ∀ a < d.nNum, d.num a i = d.num a j) (hchr : ∀ a < d.nChar, d.cstr a i = d.cstr a j) :
    ∀ (k height : ℕ) (sample : List ℕ) (g : G) (len : ℕ), mh - height = k →
    pathLength d i (growTree d rng mh height sample g) len = pathLength d j (growTree d rng mh height sample g) len := by
  intro k
  induction k using Nat.strong_induction_on with
  | _ k ih =>
    intro height sample g len hk
    rw [growTree]
    by_cases hb : sample.length ≤ 1 ∨ mh ≤ height
    · rw [dif_pos hb]
      rfl
    · rw [dif_neg hb]
      simp only
      have hattr := rng.unif_lt g (d.nNum + d.nChar) (by omega)
      by_cases hn : (rng.unif g (d.nNum + d.nChar)).1 < d.nNum
      · rw [if_pos hn]
        simp only [pathLength, hnum _ hn]
        rw [ih (mh - (height + 1)) (by omega) (height + 1) _ _ _ rfl,
          ih (mh - (height + 1)) (by omega) (height + 1) _ _ _ rfl]
      · rw [if_neg hn]
        simp only [pathLength, hchr _ (show (rng.unif g (d.nNum + d.nChar)).1 - d.nNum < d.nChar by omega)]
        rw [ih (mh - (height + 1)) (by omega) (height + 1) _ _ _ rfl,
          ih (mh - (height + 1)) (by omega) (height + 1) _ _ _ rfl]

theorem loop_same {G : Type} {d : Data} (rng : Rng G) (T : ℕ) (hA : 1 ≤ d.nNum + d.nChar) (i j : ℕ)
    (hnum : ∀ a < d.nNum, d.num a i = d.num a j) (hchr : ∀ a < d.nChar, d.cstr a i = d.cstr a j) :
    ∀ (n : ℕ) (sample : List ℕ) (g : G),
    (workerLoop d rng T n sample g).map (fun t => pathLength d i t 0)
      = (workerLoop d rng T n sample g).map (fun t => pathLength d j t 0)
  | 0, _, _ => rfl
  | n + 1, sample, g => by
    simp only [workerLoop, List.map_cons]
    rw [path_same rng _ hA i j hnum hchr _ 0 _ _ _ rfl, loop_same rng T hA i j hnum hchr n]

/-- C132. Two rows that agree in all used numeric columns, and in all used object columns on texts that are not of
maximal length, get the same score, whatever the generator and the number of workers. -/
theorem C132_equal_rows {I G : Type} (env : Env) (hw : 1 ≤ env.workers) (rng : Rng G) (f : Frame I) (F T : ℤ)
    (excl : Option (List String)) (seed : ℤ) (name : String) (r : ScoreFrame I)
    (h : AnomalyScores env rng f F T excl seed name (.ok r)) (i j : ℕ)
    (hi : i < f.index.length) (hj : j < f.index.length)
    (hwf : ∀ col ∈ usedTexts f (excl.getD []), col.length = f.index.length)
    (hnum : ∀ col ∈ usedNumbers f (excl.getD []), col[i]? = col[j]?)
    (htxt : ∀ col ∈ usedTexts f (excl.getD []), ∃ t longer, col[i]? = some t ∧ col[j]? = some t ∧ (∀ x ∈ t, x ≠ 0) ∧
      (∃ col' ∈ usedTexts f (excl.getD []), longer ∈ col') ∧ t.length < longer.length) :
    r.scores[i]? = r.scores[j]? := by
  obtain ⟨d, out, hp, _, _, hA, ho, rfl⟩ := h
  rw [isOutput_iff _ _ _ _ _ _ hw] at ho
  have hchr : ∀ a < d.nChar, d.cstr a i = d.cstr a j := by
    intro a ha
    have hd := (prepare_ok hp).2.2.2.2
    have ha' : a < (usedTexts f (excl.getD [])).length := by rw [hd] at ha; exact ha
    obtain ⟨t, longer, hti, htj, hz, hl, hlt⟩ := htxt _ (List.getElem_mem ha')
    rw [C130_shorter env f F T excl seed d hp hwf a i _ t longer (List.getElem?_eq_getElem ha') hti hz hl hlt,
      C130_shorter env f F T excl seed d hp hwf a j _ t longer (List.getElem?_eq_getElem ha') htj hz hl hlt]
  have hnm : ∀ a < d.nNum, d.num a i = d.num a j := by
    intro a ha
    obtain ⟨-, -, -, -, rfl⟩ := prepare_ok hp
    have ha' : a < (usedNumbers f (excl.getD [])).length := ha
    simp only [dataOf]
    rw [List.getD_eq_getElem _ _ ha', List.getD_eq_getElem?_getD, List.getD_eq_getElem?_getD,
      hnum _ (List.getElem_mem ha')]
  have hn : d.nObs = f.index.length := by
    obtain ⟨-, -, -, -, rfl⟩ := prepare_ok hp
    rfl
  simp only
  rw [ho, List.getElem?_map, List.getElem?_map, List.getElem?_range (by omega), List.getElem?_range (by omega),
    Option.map_some, Option.map_some]
  unfold anomalyScore threadTrees workerTrees
  simp only [List.map_flatten, List.map_map, Function.comp_def, loop_same rng _ hA i j hnm hchr]

/-- the hypotheses hold of a frame whose first and third row agree -/
example : ∃ r, AnomalyScores demoEnv firstRng (demoFrame [[65], [66, 67], [65]] [.fin 5, .nan, .fin 5]) 10 4
    (some ["id"]) 1021 "score" (.ok r) ∧ r.scores[0]? = r.scores[2]? := by
  obtain ⟨r, hr⟩ := C128_succeeds demoEnv (by simp [demoEnv]) firstRng
    (demoFrame [[65], [66, 67], [65]] [.fin 5, .nan, .fin 5]) 10 4 (some ["id"]) 1021 "score" (demo_labels _ _) rfl
    (by
      intro col hc t ht x hx
      simp only [Option.getD_some] at hc
      rw [(demo_used _ _).2, List.mem_singleton] at hc
      subst hc
      simp at ht
      rcases ht with rfl | rfl | rfl <;> simp at hx <;> omega) (by norm_num) (by norm_num) (by norm_num)
    (Or.inl (by simp only [Option.getD_some]; rw [(demo_used _ _).1]; simp))
  refine ⟨r, hr, C132_equal_rows demoEnv (by simp [demoEnv]) firstRng _ 10 4 _ _ _ r hr 0 2 (by simp [demoFrame])
    (by simp [demoFrame]) ?_ ?_ ?_⟩
  all_goals simp only [Option.getD_some, (demo_used _ _).1, (demo_used _ _).2, List.mem_singleton, forall_eq]
  · simp [demoFrame]
  · simp
  · exact ⟨[65], [66, 67], rfl, rfl, by simp, ⟨_, rfl, by simp⟩, by simp⟩

/-- three rows, all with the text `"A"` -/
def sameFrame : Frame String where
  index := ["x", "y", "z"]
  cols := [⟨"code", .object [[65], [65], [65]]⟩]

def oneWorker : Env where
  numpy2 := false
  workers := 1
  rest := [0]

theorem same_prepare : prepare oneWorker sameFrame none 1 4 5 = .ok (dataOf 3 [] [[[65], [65], [65]]] [0]) := by
  rw [prepare_eq, if_neg, if_neg, if_neg, if_neg]
  · simp [usedNumbers, usedTexts, sameFrame, oneWorker]
  · simp [fitsInt]
  · rw [not_not]
    intro col hc t ht x hx
    simp [usedTexts, sameFrame] at hc
    subst hc
    simp at ht
    subst ht
    simp at hx
    omega
  · simp [oneWorker]
  · rw [not_not]
    intro l hl
    simp at hl

theorem same_tree : (threadTrees (dataOf 3 [] [[[65], [65], [65]]] [0]) firstRng 4 1 (seedOf 5) 1).flatten
    = [.chrNode 0 [65, 65, 65] 3 (.chrNode 0 [65, 65] 2 (.leaf 1) (.leaf 1)) (.leaf 1)] := by
  have hmh : maxTreeHeight 4 = 2 := by
    unfold maxTreeHeight
    rw [show ((4 : ℕ) : ℝ) = 2 ^ (2 : ℝ) by norm_num, Real.logb_rpow (by norm_num) (by norm_num)]
    norm_num
  have hc0 : (dataOf 3 [] [[[65], [65], [65]]] [0]).cstr 0 0 = [65, 65, 65] := by rfl
  have hc1 : (dataOf 3 [] [[[65], [65], [65]]] [0]).cstr 0 1 = [65, 65] := by rfl
  have hc2 : (dataOf 3 [] [[[65], [65], [65]]] [0]).cstr 0 2 = [65] := by rfl
  have hN : (dataOf 3 [] [[[65], [65], [65]]] [0]).nNum = 0 := rfl
  have hO : (dataOf 3 [] [[[65], [65], [65]]] [0]).nObs = 3 := rfl
  have hu : ∀ n, firstRng.unif () n = (0, ()) := fun _ => rfl
  have leaf1 : ∀ (h k : ℕ), growTree (dataOf 3 [] [[[65], [65], [65]]] [0]) firstRng 2 h [k] () = .leaf 1 := by
    intro h k
    rw [growTree, dif_pos (by simp)]
    rfl
  simp only [threadTrees, workerTrees, List.range_succ, List.range_zero, List.map_cons, List.map_nil, List.nil_append,
    jobsOf, if_true, workerLoop, hmh, hO, firstRng]
  simp only [List.flatten_cons, List.flatten_nil, List.append_nil, Nat.sub_self, Nat.mul_zero, Nat.sub_zero, workerLoop, hmh, hO]
  show [growTree (dataOf 3 [] [[[65], [65], [65]]] [0]) firstRng 2 0 [0, 1, 2] ()] = _
  rw [growTree, dif_neg (by simp)]
  simp only [hN, hu, List.getD_cons_zero, lt_irrefl, if_false, Nat.sub_zero, hc0]
  have f1 : List.filter (fun i => strLess ((dataOf 3 [] [[[65], [65], [65]]] [0]).cstr 0 i) [65, 65, 65]) [0, 1, 2]
      = [1, 2] := by
    simp [List.filter_cons, hc0, hc1, hc2, strLess]
  have f2 : List.filter (fun i => !strLess ((dataOf 3 [] [[[65], [65], [65]]] [0]).cstr 0 i) [65, 65, 65]) [0, 1, 2]
      = [0] := by
    simp [List.filter_cons, hc0, hc1, hc2, strLess]
  rw [f1, f2, leaf1]
  rw [growTree, dif_neg (by simp)]
  simp only [hN, hu, List.getD_cons_zero, lt_irrefl, if_false, Nat.sub_zero, hc1]
  have f3 : List.filter (fun i => strLess ((dataOf 3 [] [[[65], [65], [65]]] [0]).cstr 0 i) [65, 65]) [1, 2]
      = [2] := by
    simp [List.filter_cons, hc0, hc1, hc2, strLess]
  have f4 : List.filter (fun i => !strLess ((dataOf 3 [] [[[65], [65], [65]]] [0]).cstr 0 i) [65, 65]) [1, 2]
      = [1] := by
    simp [List.filter_cons, hc0, hc1, hc2, strLess]
  rw [f3, f4, leaf1, leaf1]
  rfl

/-- C132. The restriction to texts that are not of maximal length is needed: there is a frame with one object column
whose three rows are the same, and the call succeeds and gives the first two rows different scores. -/
theorem C132_longest_texts :
    usedNumbers sameFrame [] = [] ∧ usedTexts sameFrame [] = [[[65], [65], [65]]] ∧
    ∃ r, AnomalyScores oneWorker firstRng sameFrame 1 4 none 5 "score" (.ok r) ∧
      ∃ a b, r.scores[0]? = some a ∧ r.scores[1]? = some b ∧ b < a := by
  refine ⟨rfl, by simp [usedTexts, sameFrame], ?_⟩
  have hout := (isOutput_iff (dataOf 3 [] [[[65], [65], [65]]] [0]) firstRng 1 4 (seedOf 5) 1 le_rfl _).mpr rfl
  refine ⟨_, ⟨_, _, same_prepare, by norm_num, by norm_num, by simp [dataOf], hout, rfl⟩, ?_⟩
  rw [same_tree]
  refine ⟨_, _, rfl, rfl, ?_⟩
  refine C84_antitone _ 4 (by norm_num) [_] (by simp) 0 1 ?_
  have hc0 : (dataOf 3 [] [[[65], [65], [65]]] [0]).cstr 0 0 = [65, 65, 65] := by rfl
  have hc1 : (dataOf 3 [] [[[65], [65], [65]]] [0]).cstr 0 1 = [65, 65] := by rfl
  have hN : (dataOf 3 [] [[[65], [65], [65]]] [0]).nNum = 0 := rfl
  have hr : ∀ v x : List ℕ, x.length < v.length → charLeft v x := fun v x h => Or.inl h
  have hs : ∀ v : List ℕ, ¬ charLeft v v := by
    intro v h'
    have := (strLess_iff v v).mpr h'
    unfold strLess at this
    simp at this
  unfold avgDepth
  simp only [List.map_cons, List.map_nil, List.sum_cons, List.sum_nil, route, hN, Nat.sub_zero, hc0, hc1,
    if_neg (hs _), if_pos (hr [65, 65, 65] [65, 65] (by simp)), leafAt, pathValue]
  norm_num

end
end Frds.Props

import Verif.Props.IForestPool
import Verif.Spec.IForestPy
import Mathlib.Data.List.GetD

/-! Properties C128-C130: the Python function `anomaly_scores`. -/
set_option linter.unusedSimpArgs false

namespace Frds.Props
noncomputable section
open Frds Frds.Model.IForest Frds.Spec.IForest Classical

/-! ### the output in closed form -/

theorem scoreRun_trans {S : Type} {f : ℕ → S} {a b c : List (List ℕ) × List S} (h : ScoreRun f a b)
    (h' : ScoreRun f b c) : ScoreRun f a c := by
  induction h with
  | refl _ => exact h'
  | step h _ ih => exact .step h (ih h')

theorem scoreRun_exists {S : Type} (f : ℕ → S) : ∀ (l done : List (List ℕ)) (out : List S), (∀ x ∈ done, x = []) →
    ∃ fin out', (∀ x ∈ fin, x = []) ∧ ScoreRun f (done ++ l, out) (fin, out') := by
  intro l
  induction l with
  | nil => intro done out h; exact ⟨done, out, h, by rw [List.append_nil]; exact .refl _⟩
  | cons x l ih =>
    intro done out h
    have inner : ∀ (x : List ℕ) (out : List S), ∃ out', ScoreRun f (done ++ x :: l, out) (done ++ [] :: l, out') := by
      intro x
      induction x with
      | nil => intro out; exact ⟨out, .refl _⟩
      | cons t rest ih2 =>
        intro out
        obtain ⟨o, ho⟩ := ih2 (out.set t (f t))
        exact ⟨o, .step (.write done l t rest out) ho⟩
    obtain ⟨o1, h1⟩ := inner x out
    obtain ⟨fin, o2, hf, h2⟩ := ih (done ++ [[]]) o1 (by
      intro y hy
      rcases List.mem_append.mp hy with hy | hy
      · exact h y hy
      · simpa using hy)
    rw [List.append_assoc, List.singleton_append] at h2
    exact ⟨fin, o2, hf, scoreRun_trans h1 h2⟩

/-- for at least one worker there is exactly one output -/
theorem isOutput_iff {G : Type} (d : Data) (rng : Rng G) (F T seed w : ℕ) (hw : 1 ≤ w) (out : List XR) :
    IsOutput d rng F T seed w out ↔
    out = (List.range d.nObs).map (anomalyScore d T F (threadTrees d rng T F seed w).flatten) := by
  constructor
  · rintro ⟨t, ht, hs⟩
    rw [C85_scores _ _ _ _ hw _ hs]
    exact List.map_congr_left fun o _ => score_perm d T F (grown_perm ht) o
  · intro h
    obtain ⟨t, ht⟩ := grown_exists d rng T F seed w
    obtain ⟨fin, o, hf, hr⟩ := scoreRun_exists (anomalyScore d T F t) ((List.range w).map (scoreJobs d.nObs w)) []
      (List.replicate d.nObs 0) (by simp)
    have hsc : Scored (anomalyScore d T F t) 0 d.nObs w o := ⟨fin, hf, by simpa using hr⟩
    refine ⟨t, ht, ?_⟩
    have e : o = out := by
      rw [C85_scores _ _ _ _ hw _ hsc, h]
      exact List.map_congr_left fun o _ => score_perm d T F (grown_perm ht) o
    rwa [← e]

/-! ### the data handed over -/

theorem drop_numbers {I : Type} (f : Frame I) (excl : List String) :
    Frame.numbers { f with cols := f.cols.filter fun c => c.label ∉ excl } = usedNumbers f excl := by
  unfold Frame.numbers usedNumbers
  rw [List.filterMap_filter]
  apply List.filterMap_congr
  intro c _
  cases hc : c.cells <;> by_cases hl : c.label ∈ excl <;> simp [hl, hc]

theorem drop_objects {I : Type} (f : Frame I) (excl : List String) :
    Frame.objects { f with cols := f.cols.filter fun c => c.label ∉ excl } = usedTexts f excl := by
  unfold Frame.objects usedTexts
  rw [List.filterMap_filter]
  apply List.filterMap_congr
  intro c _
  cases hc : c.cells <;> by_cases hl : c.label ∈ excl <;> simp [hl, hc]

/-- the arrays built from the used columns -/
def dataOf (n : ℕ) (nums : List (List XR)) (texts : List (List (List ℕ))) (rest : List ℕ) : Data where
  nNum := nums.length
  nChar := texts.length
  nObs := n
  num := fun a o => (nums.getD a []).getD o .nan
  width := itemSize texts.flatten
  bytes := (texts.flatten.map (padTo (itemSize texts.flatten))).flatten ++ rest

theorem prepare_eq {I : Type} (env : Env) (f : Frame I) (excl : Option (List String)) (F T s : ℤ) :
    prepare env f excl F T s =
      if ¬ LabelsExist f (excl.getD []) then .error .keyError
      else if env.numpy2 = true then .error .attributeError
      else if ¬ AsciiTexts f (excl.getD []) then .error .valueError
      else if ¬ (fitsInt F ∧ fitsInt T ∧ fitsInt s) then .error .overflowError
      else .ok (dataOf f.index.length (usedNumbers f (excl.getD [])) (usedTexts f (excl.getD [])) env.rest) := by
  unfold prepare Frame.drop LabelsExist
  simp only [bind, Except.bind, pure, Except.pure, throw, throwThe, MonadExceptOf.throw]
  by_cases h1 : ∀ l ∈ excl.getD [], ∃ c ∈ f.cols, c.label = l
  · rw [if_pos h1, if_neg (not_not.mpr h1)]
    simp only
    by_cases h2 : env.numpy2 = true
    · simp [h2]
    · have hasc : (∃ c ∈ (usedTexts f (excl.getD [])).flatten, ∃ x ∈ c, 128 ≤ x) ↔ ¬ AsciiTexts f (excl.getD []) := by
        unfold AsciiTexts
        push Not
        constructor
        · rintro ⟨c, hc, x, hx, h⟩
          obtain ⟨col, hcol, hcc⟩ := List.mem_flatten.mp hc
          exact ⟨col, hcol, c, hcc, x, hx, h⟩
        · rintro ⟨col, hcol, c, hcc, x, hx, h⟩
          exact ⟨c, List.mem_flatten.mpr ⟨col, hcol, hcc⟩, x, hx, h⟩
      rw [if_neg h2, if_neg h2]
      unfold Frame.toData
      rw [drop_numbers, drop_objects]
      by_cases h3 : AsciiTexts f (excl.getD [])
      · rw [if_neg (fun h => hasc.mp h h3), if_neg (not_not.mpr h3)]
        simp only
        by_cases h4 : fitsInt F ∧ fitsInt T ∧ fitsInt s
        · rw [if_neg (not_not.mpr h4), if_neg (not_not.mpr h4)]
          rfl
        · rw [if_pos h4, if_pos h4]
      · rw [if_pos (hasc.mpr h3), if_pos h3]
  · rw [if_neg h1, if_pos h1]

/-! ### only the order of the values matters -/

/-- two data sets of the same shape whose cells compare in the same way -/
structure SameOrder (d d' : Data) : Prop where
  nNum : d.nNum = d'.nNum
  nChar : d.nChar = d'.nChar
  nObs : d.nObs = d'.nObs
  lt_iff : ∀ a < d.nNum, ∀ i < d.nObs, ∀ j < d.nObs, (d.num a i < d.num a j ↔ d'.num a i < d'.num a j)
  nan_iff : ∀ a < d.nNum, ∀ i < d.nObs, (d.num a i).isNan = (d'.num a i).isNan
  str : ∀ a < d.nChar, ∀ i < d.nObs, ∀ j < d.nObs,
    strLess (d.cstr a i) (d.cstr a j) = strLess (d'.cstr a i) (d'.cstr a j)

theorem SameOrder.train {d d' : Data} (h : SameOrder d d') {a i j : ℕ} (ha : a < d.nNum) (hi : i < d.nObs)
    (hj : j < d.nObs) : trainLess (d.num a i) (d.num a j) = trainLess (d'.num a i) (d'.num a j) := by
  unfold trainLess
  simp only [h.nan_iff a ha i hi, h.nan_iff a ha j hj, h.lt_iff a ha j hj i hi]

theorem SameOrder.path {G : Type} {d d' : Data} (h : SameOrder d d') (rng : Rng G) (mh : ℕ)
    (hA : 1 ≤ d.nNum + d.nChar) (o : ℕ) (ho : o < d.nObs) : ∀ (k height : ℕ) (sample : List ℕ) (g : G) (len : ℕ),
    mh - height = k → (∀ i ∈ sample, i < d.nObs) →
    pathLength d o (growTree d rng mh height sample g) len
      = pathLength d' o (growTree d' rng mh height sample g) len := by
  intro k
  induction k using Nat.strong_induction_on with
  | _ k ih =>
    intro height sample g len hk hs
    rw [growTree.eq_def d, growTree.eq_def d']
    by_cases hb : sample.length ≤ 1 ∨ mh ≤ height
    · rw [dif_pos hb, dif_pos hb]
      rfl
    · rw [dif_neg hb, dif_neg hb]
      simp only
      rw [← h.nNum, ← h.nChar]
      have hattr := rng.unif_lt g (d.nNum + d.nChar) (by omega)
      have hpick := rng.unif_lt (rng.unif g (d.nNum + d.nChar)).2 sample.length (by omega)
      set attr := rng.unif g (d.nNum + d.nChar)
      set pick := rng.unif attr.2 sample.length
      have hob : sample.getD pick.1 0 < d.nObs := by
        rw [List.getD_eq_getElem _ _ hpick]
        exact hs _ (List.getElem_mem _)
      by_cases hn : attr.1 < d.nNum
      · rw [if_pos hn, if_pos hn]
        have e1 : sample.filter (fun i => trainLess (d'.num attr.1 (sample.getD pick.1 0)) (d'.num attr.1 i))
            = sample.filter (fun i => trainLess (d.num attr.1 (sample.getD pick.1 0)) (d.num attr.1 i)) :=
          List.filter_congr fun i hi => (h.train hn hob (hs i hi)).symm
        have e2 : sample.filter (fun i => !trainLess (d'.num attr.1 (sample.getD pick.1 0)) (d'.num attr.1 i))
            = sample.filter (fun i => !trainLess (d.num attr.1 (sample.getD pick.1 0)) (d.num attr.1 i)) :=
          List.filter_congr fun i hi => by rw [h.train hn hob (hs i hi)]
        rw [e1, e2]
        simp only [pathLength, h.lt_iff _ hn o ho _ hob]
        rw [ih (mh - (height + 1)) (by omega) (height + 1) _ _ _ rfl
            (fun i hi => hs i (List.mem_of_mem_filter hi)),
          ih (mh - (height + 1)) (by omega) (height + 1) _ _ _ rfl
            (fun i hi => hs i (List.mem_of_mem_filter hi))]
      · rw [if_neg hn, if_neg hn]
        have ha : attr.1 - d.nNum < d.nChar := by omega
        have e1 : sample.filter (fun i => strLess (d'.cstr (attr.1 - d.nNum) i)
              (d'.cstr (attr.1 - d.nNum) (sample.getD pick.1 0)))
            = sample.filter (fun i => strLess (d.cstr (attr.1 - d.nNum) i)
              (d.cstr (attr.1 - d.nNum) (sample.getD pick.1 0))) :=
          List.filter_congr fun i hi => (h.str _ ha _ (hs i hi) _ hob).symm
        have e2 : sample.filter (fun i => !strLess (d'.cstr (attr.1 - d.nNum) i)
              (d'.cstr (attr.1 - d.nNum) (sample.getD pick.1 0)))
            = sample.filter (fun i => !strLess (d.cstr (attr.1 - d.nNum) i)
              (d.cstr (attr.1 - d.nNum) (sample.getD pick.1 0))) :=
          List.filter_congr fun i hi => by rw [h.str _ ha _ (hs i hi) _ hob]
        rw [e1, e2]
        simp only [pathLength, ← h.nNum, h.str _ ha o ho _ hob]
        rw [ih (mh - (height + 1)) (by omega) (height + 1) _ _ _ rfl
            (fun i hi => hs i (List.mem_of_mem_filter hi)),
          ih (mh - (height + 1)) (by omega) (height + 1) _ _ _ rfl
            (fun i hi => hs i (List.mem_of_mem_filter hi))]

theorem SameOrder.loop {G : Type} {d d' : Data} (h : SameOrder d d') (rng : Rng G) (T : ℕ)
    (hA : 1 ≤ d.nNum + d.nChar) (o : ℕ) (ho : o < d.nObs) : ∀ (j : ℕ) (sample : List ℕ) (g : G),
    (∀ i ∈ sample, i < d.nObs) →
    (workerLoop d rng T j sample g).map (fun t => pathLength d o t 0)
      = (workerLoop d' rng T j sample g).map (fun t => pathLength d' o t 0)
  | 0, _, _, _ => rfl
  | j + 1, sample, g, hs => by
    have hs' : ∀ i ∈ sample ++ (rng.sample g d.nObs T).1, i < d.nObs := by
      intro i hi
      rcases List.mem_append.mp hi with hi | hi
      · exact hs i hi
      · exact List.mem_range.mp ((rng.sample_sub g d.nObs T).subset hi)
    simp only [workerLoop, List.map_cons, ← h.nObs]
    rw [h.path rng _ hA o ho _ 0 _ _ _ rfl hs', h.loop rng T hA o ho j _ _ hs']

theorem SameOrder.output {G : Type} {d d' : Data} (h : SameOrder d d') (rng : Rng G) (F T seed w : ℕ) (hw : 1 ≤ w)
    (hA : 1 ≤ d.nNum + d.nChar) (out : List XR) :
    IsOutput d rng F T seed w out ↔ IsOutput d' rng F T seed w out := by
  rw [isOutput_iff d rng F T seed w hw, isOutput_iff d' rng F T seed w hw, ← h.nObs]
  have : (List.range d.nObs).map (anomalyScore d T F (threadTrees d rng T F seed w).flatten)
      = (List.range d.nObs).map (anomalyScore d' T F (threadTrees d' rng T F seed w).flatten) := by
    apply List.map_congr_left
    intro o ho
    unfold anomalyScore threadTrees workerTrees
    simp only [List.map_flatten, List.map_map, Function.comp_def, ← h.nObs,
      h.loop rng T hA o (List.mem_range.mp ho) _ [] _ (by simp)]
  rw [this]

/-! ### C128 -/

theorem prepare_ok {I : Type} {env : Env} {f : Frame I} {excl : Option (List String)} {F T s : ℤ} {d : Data}
    (h : prepare env f excl F T s = .ok d) :
    LabelsExist f (excl.getD []) ∧ env.numpy2 = false ∧ AsciiTexts f (excl.getD []) ∧
    (fitsInt F ∧ fitsInt T ∧ fitsInt s) ∧
    d = dataOf f.index.length (usedNumbers f (excl.getD [])) (usedTexts f (excl.getD [])) env.rest := by
  rw [prepare_eq] at h
  split_ifs at h with h1 h2 h3 h4
  injection h with h
  exact ⟨h1, by simpa using h2, h3, h4, h.symm⟩

/-- C128. A successful call returns one score per row under the index of the data, in the order of the rows, in
one column with the requested name, and no other outcome is possible, whatever the threads do. -/
theorem C128_frame {I G : Type} (env : Env) (hw : 1 ≤ env.workers) (rng : Rng G) (f : Frame I) (F T : ℤ)
    (excl : Option (List String)) (seed : ℤ) (name : String) (r : ScoreFrame I)
    (h : AnomalyScores env rng f F T excl seed name (.ok r)) :
    r.index = f.index ∧ r.column = name ∧ r.scores.length = f.index.length ∧
    ∀ x, AnomalyScores env rng f F T excl seed name x → x = .ok r := by
  obtain ⟨d, out, hp, hF, hT, hA, ho, rfl⟩ := h
  have hd := (prepare_ok hp).2.2.2.2
  rw [isOutput_iff _ _ _ _ _ _ hw] at ho
  refine ⟨rfl, rfl, by rw [ho, hd]; simp [dataOf], ?_⟩
  intro x hx
  cases x with
  | error e =>
    have hx' : prepare env f excl F T seed = .error e := hx
    rw [hp] at hx'
    cases hx'
  | ok r' =>
    obtain ⟨d', out', hp', _, _, _, ho', rfl⟩ := hx
    rw [hp] at hp'
    injection hp' with hp'
    subst hp'
    rw [isOutput_iff _ _ _ _ _ _ hw] at ho'
    rw [ho, ho']

/-- C128. With at least two observations per tree and at least one tree all scores are in `(0, 1]`. -/
theorem C128_range {I G : Type} (env : Env) (hw : 1 ≤ env.workers) (rng : Rng G) (f : Frame I) (F T : ℤ)
    (hF : 1 ≤ F) (hT : 2 ≤ T) (excl : Option (List String)) (seed : ℤ) (name : String) (r : ScoreFrame I)
    (h : AnomalyScores env rng f F T excl seed name (.ok r)) :
    ∀ s ∈ r.scores, ∃ x : ℝ, s = .fin x ∧ 0 < x ∧ x ≤ 1 := by
  obtain ⟨d, out, hp, _, _, hA, ⟨t, ht, hs⟩, rfl⟩ := h
  intro s hsm
  simp only at hsm
  rw [C85_scores _ _ _ _ hw _ hs] at hsm
  obtain ⟨o, _, rfl⟩ := List.mem_map.mp hsm
  have hlen := (C85_forest d rng _ _ _ _ hw t ht).1
  obtain ⟨_, _, x, e, _, h0, h1⟩ := C84_range d T.toNat (by omega) t (by
    intro hnil
    rw [hnil] at hlen
    simp at hlen
    omega) o
  rw [hlen] at e
  exact ⟨x, e, h0, h1⟩

/-- C128. Exactly these calls fail, with these exceptions, in this order of precedence: an excluded label does not
exist; NumPy 2 or later; a text of a used object column is not ASCII; an integer argument does not fit a C
`int`. -/
theorem C128_errors {I G : Type} (env : Env) (rng : Rng G) (f : Frame I) (F T : ℤ)
    (excl : Option (List String)) (seed : ℤ) (name : String) (e : PyErr) :
    AnomalyScores env rng f F T excl seed name (.error e) ↔
      (e = .keyError ∧ ¬ LabelsExist f (excl.getD [])) ∨
      (e = .attributeError ∧ LabelsExist f (excl.getD []) ∧ env.numpy2 = true) ∨
      (e = .valueError ∧ LabelsExist f (excl.getD []) ∧ env.numpy2 = false ∧ ¬ AsciiTexts f (excl.getD [])) ∨
      (e = .overflowError ∧ LabelsExist f (excl.getD []) ∧ env.numpy2 = false ∧ AsciiTexts f (excl.getD []) ∧
        ∃ x ∈ [F, T, seed], x < -2 ^ 31 ∨ 2 ^ 31 ≤ x) := by
  show prepare env f excl F T seed = .error e ↔ _
  rw [prepare_eq]
  have hfit : (¬ (fitsInt F ∧ fitsInt T ∧ fitsInt seed)) ↔ ∃ x ∈ [F, T, seed], x < -2 ^ 31 ∨ 2 ^ 31 ≤ x := by
    have one : ∀ x : ℤ, ¬ fitsInt x ↔ x < -2 ^ 31 ∨ 2 ^ 31 ≤ x := by
      intro x
      unfold fitsInt
      omega
    simp only [not_and_or, one, List.mem_cons, List.not_mem_nil, or_false, exists_eq_or_imp, exists_eq_left]
  rw [← hfit]
  have flip : ∀ a : PyErr, (Except.error a : Except PyErr Data) = .error e ↔ e = a := by
    intro a
    rw [Except.error.injEq, eq_comm]
  by_cases h1 : LabelsExist f (excl.getD [])
  · by_cases h2 : env.numpy2 = true
    · simp [h1, h2, flip]
    · by_cases h3 : AsciiTexts f (excl.getD [])
      · by_cases h4 : fitsInt F ∧ fitsInt T ∧ fitsInt seed
        · simp [h1, h2, h3, h4]
        · rw [if_neg (not_not.mpr h1), if_neg h2, if_neg (not_not.mpr h3), if_pos h4, flip]
          simp [h1, h2, h3, h4]
      · simp [h1, h2, h3, flip]
  · simp [h1, flip]

/-- C128. All other calls with `forest_size ≥ 0`, `tree_size ≥ 1` and at least one numeric or object column left
succeed. -/
theorem C128_succeeds {I G : Type} (env : Env) (hw : 1 ≤ env.workers) (rng : Rng G) (f : Frame I) (F T : ℤ)
    (excl : Option (List String)) (seed : ℤ) (name : String)
    (h1 : LabelsExist f (excl.getD [])) (h2 : env.numpy2 = false) (h3 : AsciiTexts f (excl.getD []))
    (hF : 0 ≤ F ∧ F < 2 ^ 31) (hT : 1 ≤ T ∧ T < 2 ^ 31) (hs : -2 ^ 31 ≤ seed ∧ seed < 2 ^ 31)
    (hA : usedNumbers f (excl.getD []) ≠ [] ∨ usedTexts f (excl.getD []) ≠ []) :
    ∃ r, AnomalyScores env rng f F T excl seed name (.ok r) := by
  refine ⟨_, dataOf f.index.length (usedNumbers f (excl.getD [])) (usedTexts f (excl.getD [])) env.rest, _, ?_,
    hF.1, hT.1, ?_, (isOutput_iff _ _ _ _ _ _ hw _).mpr rfl, rfl⟩
  · rw [prepare_eq, if_neg (not_not.mpr h1), if_neg (by simp [h2]), if_neg (not_not.mpr h3),
      if_neg (not_not.mpr ⟨by unfold fitsInt; omega, by unfold fitsInt; omega, hs⟩)]
  · simp only [dataOf]
    rcases hA with h | h
    · have := List.length_pos_iff.mpr h; omega
    · have := List.length_pos_iff.mpr h; omega

/-- C128. Excluded columns, columns of other dtypes, and the way numeric and object columns are interleaved have no
influence: if two frames have the same index and the same remaining numeric columns and remaining object columns
(contents, in order; labels are irrelevant), all outcomes agree. -/
theorem C128_ignored {I G : Type} (env : Env) (rng : Rng G) (f g : Frame I) (F T : ℤ)
    (excl excl' : Option (List String)) (seed : ℤ) (name : String)
    (hi : f.index = g.index) (hn : usedNumbers f (excl.getD []) = usedNumbers g (excl'.getD []))
    (ht : usedTexts f (excl.getD []) = usedTexts g (excl'.getD []))
    (hl : LabelsExist f (excl.getD []) ↔ LabelsExist g (excl'.getD [])) (x : Except PyErr (ScoreFrame I)) :
    AnomalyScores env rng f F T excl seed name x ↔ AnomalyScores env rng g F T excl' seed name x := by
  have e : prepare env f excl F T seed = prepare env g excl' F T seed := by
    rw [prepare_eq, prepare_eq]
    unfold AsciiTexts
    rw [hi, hn, ht, hl]
  cases x with
  | error _ => exact Iff.of_eq (by simp only [AnomalyScores, e])
  | ok r => exact Iff.of_eq (by simp only [AnomalyScores, e, hi])

/-! ### C129 -/

theorem dataOf_order {n : ℕ} {nums : List (List XR)} {texts : List (List (List ℕ))} {rest : List ℕ}
    {φ : ℕ → XR → XR} (hφ : ∀ a, OrderKeeping (φ a)) :
    SameOrder (dataOf n nums texts rest) (dataOf n (nums.mapIdx fun a col => col.map (φ a)) texts rest) := by
  have hnan : ∀ a, φ a .nan = .nan := fun a => ((hφ a).nan_iff .nan).mpr rfl
  have hnum : ∀ a < nums.length, ∀ i, ((nums.mapIdx fun a col => col.map (φ a)).getD a []).getD i .nan
      = φ a ((nums.getD a []).getD i .nan) := by
    intro a ha i
    have ha' : a < (nums.mapIdx fun a col => col.map (φ a)).length := by simpa using ha
    rw [List.getD_eq_getElem (nums.mapIdx fun a col => col.map (φ a)) _ ha', List.getD_eq_getElem nums _ ha,
      List.getElem_mapIdx]
    rw [List.getD_eq_getElem?_getD, List.getD_eq_getElem?_getD, List.getElem?_map]
    cases (nums[a])[i]? with
    | none => simp [hnan]
    | some x => simp
  have isn : ∀ x : XR, x.isNan ↔ x = .nan := by intro x; cases x <;> simp [XR.isNan]
  refine ⟨by simp [dataOf], rfl, rfl, ?_, ?_, fun _ _ _ _ _ _ => rfl⟩
  · intro a ha i _ j _
    simp only [dataOf] at ha ⊢
    rw [hnum a ha, hnum a ha, (hφ a).lt_iff]
  · intro a ha i _
    simp only [dataOf] at ha ⊢
    rw [hnum a ha, eq_iff_iff, isn, isn, (hφ a).nan_iff]

/-- C129. Replacing the values of each numeric column by an order-keeping transformation of them (levels by logs, a
change of units, ranks) changes no score. -/
theorem C129_monotone {I G : Type} (env : Env) (hw : 1 ≤ env.workers) (rng : Rng G) (f g : Frame I) (F T : ℤ)
    (excl excl' : Option (List String)) (seed : ℤ) (name : String) (φ : ℕ → XR → XR) (hφ : ∀ a, OrderKeeping (φ a))
    (hi : f.index = g.index)
    (hn : usedNumbers g (excl'.getD []) = (usedNumbers f (excl.getD [])).mapIdx fun a col => col.map (φ a))
    (ht : usedTexts f (excl.getD []) = usedTexts g (excl'.getD []))
    (hl : LabelsExist f (excl.getD []) ↔ LabelsExist g (excl'.getD [])) (x : Except PyErr (ScoreFrame I)) :
    AnomalyScores env rng f F T excl seed name x ↔ AnomalyScores env rng g F T excl' seed name x := by
  cases x with
  | error e =>
    show prepare env f excl F T seed = .error e ↔ prepare env g excl' F T seed = .error e
    rw [prepare_eq, prepare_eq]
    unfold AsciiTexts
    rw [ht, hl]
    split_ifs <;> simp
  | ok r =>
    have hso := dataOf_order (n := f.index.length) (nums := usedNumbers f (excl.getD []))
      (texts := usedTexts f (excl.getD [])) (rest := env.rest) hφ
    have hd' : dataOf g.index.length (usedNumbers g (excl'.getD [])) (usedTexts g (excl'.getD [])) env.rest
        = dataOf f.index.length ((usedNumbers f (excl.getD [])).mapIdx fun a col => col.map (φ a))
          (usedTexts f (excl.getD [])) env.rest := by rw [hi, hn, ht]
    have asc : AsciiTexts f (excl.getD []) ↔ AsciiTexts g (excl'.getD []) := by unfold AsciiTexts; rw [ht]
    constructor
    · rintro ⟨d, out, hp, hF, hT, hA, ho, rfl⟩
      obtain ⟨h1, h2, h3, h4, rfl⟩ := prepare_ok hp
      refine ⟨_, out, ?_, hF, hT, ?_, (hso.output rng _ _ _ _ hw hA out).mp ho, by rw [hi]⟩
      · rw [prepare_eq, if_neg (not_not.mpr (hl.mp h1)), if_neg (by simp [h2]), if_neg (not_not.mpr (asc.mp h3)),
          if_neg (not_not.mpr h4), hd']
      · rw [← hso.nNum, ← hso.nChar]; exact hA
    · rintro ⟨d, out, hp, hF, hT, hA, ho, rfl⟩
      obtain ⟨h1, h2, h3, h4, rfl⟩ := prepare_ok hp
      rw [hd'] at ho hA
      rw [← hso.nNum, ← hso.nChar] at hA
      refine ⟨_, out, ?_, hF, hT, hA, (hso.output rng _ _ _ _ hw hA out).mpr ho, by rw [hi]⟩
      rw [prepare_eq, if_neg (not_not.mpr (hl.mpr h1)), if_neg (by simp [h2]), if_neg (not_not.mpr (asc.mpr h3)),
          if_neg (not_not.mpr h4)]

/-! ### C130 -/

theorem le_itemSize {cells : List (List ℕ)} {c : List ℕ} (h : c ∈ cells) : c.length ≤ itemSize cells := by
  unfold itemSize
  induction cells with
  | nil => simp at h
  | cons x xs ih =>
    simp only [List.map_cons, List.foldr_cons]
    rcases List.mem_cons.mp h with rfl | h
    · exact le_max_left _ _
    · exact (ih h).trans (le_max_right _ _)

theorem itemSize_le {cells : List (List ℕ)} {w : ℕ} (hw : 1 ≤ w) (h : ∀ c ∈ cells, c.length ≤ w) :
    itemSize cells ≤ w := by
  unfold itemSize
  induction cells with
  | nil => simpa using hw
  | cons x xs ih =>
    simp only [List.map_cons, List.foldr_cons]
    exact max_le (h x (by simp)) (ih fun c hc => h c (by simp [hc]))

theorem flatten_length_mul {α : Type} {n : ℕ} : ∀ (l : List (List α)), (∀ c ∈ l, c.length = n) →
    l.flatten.length = l.length * n
  | [], _ => by simp
  | c :: l, h => by
    rw [List.flatten_cons, List.length_append, h c (by simp),
      flatten_length_mul l (fun x hx => h x (by simp [hx])), List.length_cons]
    ring

theorem flatten_get {α : Type} {n : ℕ} : ∀ (l : List (List α)) (a o : ℕ), (∀ c ∈ l, c.length = n) → o < n →
    l.flatten[a * n + o]? = (l[a]?).bind (·[o]?)
  | [], a, o, _, _ => by simp
  | c :: l, 0, o, h, ho => by
    have hc : c.length = n := h c (by simp)
    simp [List.getElem?_append_left (hc ▸ ho)]
  | c :: l, a + 1, o, h, ho => by
    have hc : c.length = n := h c (by simp)
    rw [List.flatten_cons, List.getElem?_append_right (by rw [hc, Nat.succ_mul]; omega)]
    rw [show (a + 1) * n + o - c.length = a * n + o by rw [hc, Nat.succ_mul]; omega]
    simpa using flatten_get l a o (fun x hx => h x (by simp [hx])) ho

theorem dataOf_stored {n : ℕ} {nums : List (List XR)} {texts : List (List (List ℕ))} {rest : List ℕ}
    (h : ∀ col ∈ texts, col.length = n) :
    Stored (dataOf n nums texts rest) (texts.flatten.map (padTo (itemSize texts.flatten))) rest := by
  refine ⟨rfl, ?_, ?_⟩
  · rw [List.length_map, flatten_length_mul texts h]
    rfl
  · intro c hc
    obtain ⟨t, ht, rfl⟩ := List.mem_map.mp hc
    have := le_itemSize ht
    simp only [padTo, List.length_append, List.length_replicate, dataOf]
    omega

/-- C130. Among the texts of all used object columns, one shorter than another one is compared by its content. -/
theorem C130_shorter {I : Type} (env : Env) (f : Frame I) (F T : ℤ) (excl : Option (List String)) (seed : ℤ)
    (d : Data) (h : prepare env f excl F T seed = .ok d)
    (hwf : ∀ col ∈ usedTexts f (excl.getD []), col.length = f.index.length)
    (a o : ℕ) (col : List (List ℕ)) (t longer : List ℕ)
    (ha : (usedTexts f (excl.getD []))[a]? = some col) (ho : col[o]? = some t) (hz : ∀ x ∈ t, x ≠ 0)
    (hl : ∃ col' ∈ usedTexts f (excl.getD []), longer ∈ col') (hlt : t.length < longer.length) :
    d.cstr a o = t := by
  obtain ⟨-, -, -, -, rfl⟩ := prepare_ok h
  set texts := usedTexts f (excl.getD []) with htx
  have hst := dataOf_stored (n := f.index.length) (nums := usedNumbers f (excl.getD [])) (rest := env.rest) hwf
  obtain ⟨col', hc', hlong⟩ := hl
  have hw := le_itemSize (List.mem_flatten.mpr ⟨col', hc', hlong⟩)
  have ha' := (List.getElem?_eq_some_iff.mp ha).1
  have ho' := (List.getElem?_eq_some_iff.mp ho).1
  have hlen : col.length = f.index.length := hwf col (List.mem_of_getElem? ha)
  refine C100_padded _ _ _ hst a o ha' (by simp only [dataOf]; omega) t hz (itemSize texts.flatten - t.length - 1) ?_
  simp only [dataOf]
  rw [List.getElem?_map, flatten_get texts a o hwf (by omega), ha]
  simp only [Option.bind_some, ho, Option.map_some, padTo]
  rw [show itemSize texts.flatten - t.length - 1 + 1 = itemSize texts.flatten - t.length by omega]

/-- C130. A text of maximal length is not terminated: what is compared is the text followed by what the next cell
of the array (next row, or first row of the next object column) is read as. -/
theorem C130_longest {I : Type} (env : Env) (f : Frame I) (F T : ℤ) (excl : Option (List String)) (seed : ℤ)
    (d : Data) (h : prepare env f excl F T seed = .ok d)
    (hwf : ∀ col ∈ usedTexts f (excl.getD []), col.length = f.index.length)
    (a o : ℕ) (col : List (List ℕ)) (t : List ℕ)
    (ha : (usedTexts f (excl.getD []))[a]? = some col) (ho : col[o]? = some t) (hz : ∀ x ∈ t, x ≠ 0) (hne : t ≠ [])
    (hmax : ∀ col' ∈ usedTexts f (excl.getD []), ∀ t' ∈ col', t'.length ≤ t.length) :
    (o + 1 < f.index.length → d.cstr a o = t ++ d.cstr a (o + 1)) ∧
    (o + 1 = f.index.length → d.cstr a o = t ++ d.cstr (a + 1) 0) := by
  obtain ⟨-, -, -, -, rfl⟩ := prepare_ok h
  set texts := usedTexts f (excl.getD []) with htx
  have hst := dataOf_stored (n := f.index.length) (nums := usedNumbers f (excl.getD [])) (rest := env.rest) hwf
  have ho' := (List.getElem?_eq_some_iff.mp ho).1
  have ha' := (List.getElem?_eq_some_iff.mp ha).1
  have hlen : col.length = f.index.length := hwf col (List.mem_of_getElem? ha)
  have hmem : t ∈ texts.flatten := List.mem_flatten.mpr ⟨col, List.mem_of_getElem? ha, List.mem_of_getElem? ho⟩
  have hw : itemSize texts.flatten = t.length := by
    refine le_antisymm (itemSize_le (List.length_pos_iff.mpr hne) ?_) (le_itemSize hmem)
    intro c hc
    obtain ⟨col', hc', h'⟩ := List.mem_flatten.mp hc
    exact hmax col' hc' c h'
  set d := dataOf f.index.length (usedNumbers f (excl.getD [])) texts env.rest with hd
  have hN : d.nObs = f.index.length := rfl
  have hW : d.width = t.length := hw
  have key : ∀ a' o', a' * d.nObs + o' = a * d.nObs + o + 1 → d.cstr a o = t ++ d.cstr a' o' := by
    intro a' o' e
    obtain ⟨hb, hl, hwid⟩ := hst
    have hi := cell_index d (a := a) (o := o) ha' (by omega)
    unfold Data.cstr
    rw [e, hb, drop_cells _ _ _ hwid (by omega), drop_cells _ _ _ hwid (by omega),
      List.drop_eq_getElem_cons (by omega), List.flatten_cons, List.append_assoc]
    have hcell : (texts.flatten.map (padTo (itemSize texts.flatten)))[a * d.nObs + o]? = some t := by
      rw [List.getElem?_map, hN, flatten_get texts a o hwf (by omega), ha]
      simp only [Option.bind_some, ho, Option.map_some, padTo, hw, Nat.sub_self, List.replicate_zero,
        List.append_nil]
    rw [List.getElem?_eq_getElem (by omega)] at hcell
    rw [Option.some.inj hcell, takeWhile_full hz]
  constructor
  · intro _
    exact key a (o + 1) rfl
  · intro e
    refine key (a + 1) 0 ?_
    rw [Nat.succ_mul, hN]
    omega

/-- C130. If all texts of the used object columns have the same length (tickers, country codes, dates), the scores
do not depend on the texts at all: any other texts of any other common length give the same outcomes. -/
theorem C130_equal_length {I G : Type} (env : Env) (hw : 1 ≤ env.workers) (rng : Rng G) (f g : Frame I) (F T : ℤ)
    (excl excl' : Option (List String)) (seed : ℤ) (name : String) (hi : f.index = g.index)
    (hn : usedNumbers f (excl.getD []) = usedNumbers g (excl'.getD []))
    (ht : (usedTexts f (excl.getD [])).length = (usedTexts g (excl'.getD [])).length)
    (hl : LabelsExist f (excl.getD []) ↔ LabelsExist g (excl'.getD []))
    (hf : ∀ col ∈ usedTexts f (excl.getD []), col.length = f.index.length)
    (hg : ∀ col ∈ usedTexts g (excl'.getD []), col.length = g.index.length) (k k' : ℕ) (hk : 1 ≤ k) (hk' : 1 ≤ k')
    (tf : ∀ col ∈ usedTexts f (excl.getD []), ∀ t ∈ col, t.length = k ∧ ∀ x ∈ t, 0 < x ∧ x < 128)
    (tg : ∀ col ∈ usedTexts g (excl'.getD []), ∀ t ∈ col, t.length = k' ∧ ∀ x ∈ t, 0 < x ∧ x < 128)
    (x : Except PyErr (ScoreFrame I)) :
    AnomalyScores env rng f F T excl seed name x ↔ AnomalyScores env rng g F T excl' seed name x := by
  have af : AsciiTexts f (excl.getD []) := fun col hc t h x hx => ((tf col hc t h).2 x hx).2
  have ag : AsciiTexts g (excl'.getD []) := fun col hc t h x hx => ((tg col hc t h).2 x hx).2
  set F' := dataOf f.index.length (usedNumbers f (excl.getD [])) (usedTexts f (excl.getD [])) env.rest with hF'
  set G' := dataOf g.index.length (usedNumbers g (excl'.getD [])) (usedTexts g (excl'.getD [])) env.rest with hG'
  have pos : ∀ (n : ℕ) (nums : List (List XR)) (texts : List (List (List ℕ))) (k : ℕ), 1 ≤ k →
      (∀ col ∈ texts, col.length = n) → (∀ col ∈ texts, ∀ t ∈ col, t.length = k ∧ ∀ x ∈ t, 0 < x ∧ x < 128) →
      ∀ a < texts.length, ∀ i < n, ∀ j < n,
        (strLess ((dataOf n nums texts env.rest).cstr a i) ((dataOf n nums texts env.rest).cstr a j) = true
          ↔ j < i) := by
    intro n nums texts k hk hwf hts a ha i hi j hj
    rw [strLess_iff]
    have hsize : ∀ t ∈ texts.flatten, t.length = itemSize texts.flatten := by
      intro t htm
      obtain ⟨col, hc, h'⟩ := List.mem_flatten.mp htm
      refine le_antisymm (le_itemSize htm) (itemSize_le (by rw [(hts col hc t h').1]; exact hk) ?_)
      intro t' ht'
      obtain ⟨col', hc', h''⟩ := List.mem_flatten.mp ht'
      rw [(hts col hc t h').1, (hts col' hc' t' h'').1]
    refine C100_full_width _ _ _ (dataOf_stored (nums := nums) (rest := env.rest) hwf) ?_ ?_ a i j ha hi hj
    · show 0 < itemSize texts.flatten
      unfold itemSize
      clear hsize
      induction texts.flatten with
      | nil => simp
      | cons x xs ih =>
        simp only [List.map_cons, List.foldr_cons]
        exact lt_of_lt_of_le ih (le_max_right _ _)
    · intro c hc x hx
      obtain ⟨t, htm, rfl⟩ := List.mem_map.mp hc
      rw [padTo, hsize t htm, Nat.sub_self, List.replicate_zero, List.append_nil] at hx
      obtain ⟨col, hc, h'⟩ := List.mem_flatten.mp htm
      exact ((hts col hc t h').2 x hx).1.ne'
  have hso : SameOrder F' G' := by
    refine ⟨by simp [hF', hG', dataOf, hn], by simpa [hF', hG', dataOf] using ht, by simp [hF', hG', dataOf, hi],
      ?_, ?_, ?_⟩
    · intro a _ i _ j _
      simp only [hF', hG', dataOf, hn]
    · intro a _ i _
      simp only [hF', hG', dataOf, hn]
    · intro a ha i hi' j hj'
      rw [Bool.eq_iff_iff, hF', pos _ _ _ k hk hf tf a ha i hi' j hj', hG',
        pos _ _ _ k' hk' hg tg a (by rw [← ht]; exact ha) i (by rw [← hi]; exact hi') j (by rw [← hi]; exact hj')]
  cases x with
  | error e =>
    show prepare env f excl F T seed = .error e ↔ prepare env g excl' F T seed = .error e
    rw [prepare_eq, prepare_eq, ← hl]
    simp only [af, ag]
    split_ifs <;> simp
  | ok r =>
    constructor
    · rintro ⟨d, out, hp, hFF, hT, hA, ho, rfl⟩
      obtain ⟨h1, h2, h3, h4, rfl⟩ := prepare_ok hp
      refine ⟨_, out, ?_, hFF, hT, ?_, (hso.output rng _ _ _ _ hw hA out).mp ho, by rw [hi]⟩
      · rw [prepare_eq, if_neg (not_not.mpr (hl.mp h1)), if_neg (by simp [h2]), if_neg (not_not.mpr ag),
          if_neg (not_not.mpr h4)]
      · rw [← hso.nNum, ← hso.nChar]; exact hA
    · rintro ⟨d, out, hp, hFF, hT, hA, ho, rfl⟩
      obtain ⟨h1, h2, h3, h4, rfl⟩ := prepare_ok hp
      rw [← hso.nNum, ← hso.nChar] at hA
      refine ⟨_, out, ?_, hFF, hT, hA, (hso.output rng _ _ _ _ hw hA out).mpr ho, by rw [hi]⟩
      rw [prepare_eq, if_neg (not_not.mpr (hl.mpr h1)), if_neg (by simp [h2]), if_neg (not_not.mpr af),
          if_neg (not_not.mpr h4)]

/-! ### the hypotheses are satisfiable -/

/-- three firms; a price, a ticker, a date and a column to be excluded -/
def demoFrame (tickers : List (List ℕ)) (prices : List XR) : Frame String where
  index := ["x", "y", "z"]
  cols := [⟨"price", .number prices⟩, ⟨"ticker", .object tickers⟩, ⟨"date", .other 3⟩, ⟨"id", .number [1, 2, 3]⟩]

def demoEnv : Env where
  numpy2 := false
  workers := 4
  rest := [7, 0]

theorem demo_labels (t : List (List ℕ)) (p : List XR) : LabelsExist (demoFrame t p) ["id"] := by
  intro l hl
  rw [List.mem_singleton.mp hl]
  exact ⟨⟨"id", .number [1, 2, 3]⟩, by simp [demoFrame], rfl⟩

theorem demo_used (t : List (List ℕ)) (p : List XR) : usedNumbers (demoFrame t p) ["id"] = [p] ∧
    usedTexts (demoFrame t p) ["id"] = [t] := by
  constructor <;> simp [usedNumbers, usedTexts, demoFrame]

/-- the call succeeds, with scores in `(0, 1]` -/
example : ∃ r, AnomalyScores demoEnv firstRng (demoFrame [[65], [66, 67], [68]] [.fin 5, .nan, .fin 2]) 10 4
    (some ["id"]) 1021 "score" (.ok r) ∧ r.index = ["x", "y", "z"] ∧ r.scores.length = 3 ∧
    ∀ s ∈ r.scores, ∃ x : ℝ, s = .fin x ∧ 0 < x ∧ x ≤ 1 := by
  obtain ⟨r, hr⟩ := C128_succeeds demoEnv (by simp [demoEnv]) firstRng
    (demoFrame [[65], [66, 67], [68]] [.fin 5, .nan, .fin 2]) 10 4 (some ["id"]) 1021 "score" (demo_labels _ _) rfl
    (by
      intro col hc t ht x hx
      simp only [Option.getD_some] at hc
      rw [(demo_used _ _).2, List.mem_singleton] at hc
      subst hc
      simp at ht
      rcases ht with rfl | rfl | rfl <;> simp at hx <;> omega) (by norm_num) (by norm_num) (by norm_num)
    (Or.inl (by simp only [Option.getD_some]; rw [(demo_used _ _).1]; simp))
  obtain ⟨h1, h2, h3, _⟩ := C128_frame demoEnv (by simp [demoEnv]) firstRng _ _ _ _ _ _ r hr
  exact ⟨r, hr, h1, h3, C128_range demoEnv (by simp [demoEnv]) firstRng _ 10 4 (by norm_num) (by norm_num) _ _ _ r hr⟩

/-- a wrong label gives a `KeyError` -/
example : AnomalyScores demoEnv firstRng (demoFrame [] []) 10 4 (some ["no such column"]) 1021 "score"
    (.error .keyError) := by
  rw [C128_errors]
  refine Or.inl ⟨rfl, ?_⟩
  intro h
  obtain ⟨c, hc, he⟩ := h "no such column" (by simp)
  simp [demoFrame] at hc
  rcases hc with rfl | rfl | rfl | rfl <;> simp at he

/-- the exponential keeps the order and what is missing: log prices may replace prices -/
theorem exp_keeps : OrderKeeping XR.exp where
  lt_iff x y := by
    have key : ∀ a b : XR, a < b ↔ XR.lt a b := fun _ _ => Iff.rfl
    cases x <;> cases y <;> simp [XR.exp, key, XR.lt, Real.exp_pos, (Real.exp_pos _).le]
  nan_iff x := by cases x <;> simp [XR.exp]

example (x : Except PyErr (ScoreFrame String)) :
    AnomalyScores demoEnv firstRng (demoFrame [[65], [66, 67], [68]] [.fin 5, .nan, .fin 2]) 10 4
      (some ["id"]) 1021 "score" x ↔
    AnomalyScores demoEnv firstRng (demoFrame [[65], [66, 67], [68]] [XR.exp (.fin 5), .nan, XR.exp (.fin 2)]) 10 4
      (some ["id"]) 1021 "score" x := by
  refine C129_monotone demoEnv (by simp [demoEnv]) firstRng _ _ 10 4 (some ["id"]) (some ["id"]) 1021 "score"
    (fun _ => XR.exp) (fun _ => exp_keeps) (by rfl) ?_ ?_ ?_ x
  · simp only [Option.getD_some]
    rw [(demo_used _ _).1, (demo_used _ _).1]
    rfl
  · simp only [Option.getD_some]
    rw [(demo_used _ _).2, (demo_used _ _).2]
  · exact iff_of_true (demo_labels _ _) (demo_labels _ _)

/-- two-letter codes may be replaced by three-letter codes -/
example (x : Except PyErr (ScoreFrame String)) :
    AnomalyScores demoEnv firstRng (demoFrame [[65, 85], [85, 83], [68, 69]] [.fin 5, .nan, .fin 2]) 10 4
      (some ["id"]) 1021 "score" x ↔
    AnomalyScores demoEnv firstRng (demoFrame [[88, 88, 88], [88, 88, 88], [88, 88, 88]] [.fin 5, .nan, .fin 2]) 10 4
      (some ["id"]) 1021 "score" x := by
  refine C130_equal_length demoEnv (by simp [demoEnv]) firstRng _ _ 10 4 (some ["id"]) (some ["id"]) 1021 "score" (by rfl)
    ?_ ?_ (by exact iff_of_true (demo_labels _ _) (demo_labels _ _)) ?_ ?_ 2 3 (by norm_num) (by norm_num) ?_ ?_ x
  all_goals simp only [Option.getD_some, (demo_used _ _).1, (demo_used _ _).2]
  all_goals simp [demoFrame]

/-- the tickers `"A"`, `"BC"`, `"D"` are read as `"A"`, `"BCD"`, `"D"` -/
example : ∃ d, prepare demoEnv (demoFrame [[65], [66, 67], [68]] [.fin 5, .nan, .fin 2]) (some ["id"]) 10 4 1021
    = .ok d ∧ d.cstr 0 0 = [65] ∧ d.cstr 0 1 = [66, 67, 68] ∧ d.cstr 0 2 = [68] := by
  have hp : prepare demoEnv (demoFrame [[65], [66, 67], [68]] [.fin 5, .nan, .fin 2]) (some ["id"]) 10 4 1021
      = .ok (dataOf 3 [[.fin 5, .nan, .fin 2]] [[[65], [66, 67], [68]]] [7, 0]) := by
    rw [prepare_eq]
    simp only [Option.getD_some]
    rw [if_neg (not_not.mpr (demo_labels _ _)), if_neg (by simp [demoEnv]), if_neg, if_neg (by simp [fitsInt]),
      (demo_used _ _).1, (demo_used _ _).2]
    · rfl
    · rw [not_not]
      unfold AsciiTexts
      rw [(demo_used _ _).2]
      simp
  have hwf : ∀ col ∈ usedTexts (demoFrame [[65], [66, 67], [68]] [.fin 5, .nan, .fin 2]) ((some ["id"]).getD []),
      col.length = (demoFrame [[65], [66, 67], [68]] [.fin 5, .nan, .fin 2]).index.length := by
    simp only [Option.getD_some, (demo_used _ _).2]
    simp [demoFrame]
  have hsel : usedTexts (demoFrame [[65], [66, 67], [68]] [.fin 5, .nan, .fin 2]) ((some ["id"]).getD [])
      = [[[65], [66, 67], [68]]] := by simp only [Option.getD_some, (demo_used _ _).2]
  have h2 := C130_shorter demoEnv _ 10 4 (some ["id"]) 1021 _ hp hwf 0 2 [[65], [66, 67], [68]] [68] [66, 67]
    (by rw [hsel]; rfl) rfl (by simp) ⟨[[65], [66, 67], [68]], by rw [hsel]; simp, by simp⟩ (by simp)
  refine ⟨_, hp, ?_, ?_, h2⟩
  · exact C130_shorter demoEnv _ 10 4 (some ["id"]) 1021 _ hp hwf 0 0 [[65], [66, 67], [68]] [65] [66, 67]
      (by rw [hsel]; rfl) rfl (by simp) ⟨[[65], [66, 67], [68]], by rw [hsel]; simp, by simp⟩ (by simp)
  · rw [(C130_longest demoEnv _ 10 4 (some ["id"]) 1021 _ hp hwf 0 1 [[65], [66, 67], [68]] [66, 67]
      (by rw [hsel]; rfl) rfl (by simp) (by simp) (by rw [hsel]; simp)).1 (by simp [demoFrame]), h2]
    rfl

end
end Frds.Props

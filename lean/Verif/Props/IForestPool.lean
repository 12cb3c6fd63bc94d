import Verif.Props.IForest

/-! Properties C85-C87, C99, C100: the forest, its threads, its random streams and its character data. -/
set_option linter.unusedSimpArgs false

namespace Frds.Props
noncomputable section
open Frds Frds.Model.IForest Frds.Spec.IForest Classical

/-! ### interleavings -/

theorem pushStep_perm {T : Type} {s s' : List (List T) × List T} (h : PushStep s s') :
    (s.1.flatten ++ s.2).Perm (s'.1.flatten ++ s'.2) := by
  cases h with
  | push before after t rest out =>
    simp only [List.flatten_append, List.flatten_cons, List.append_assoc, List.cons_append]
    refine List.Perm.append_left _ ?_
    have h1 : (t :: (rest ++ (after.flatten ++ out))).Perm ((rest ++ (after.flatten ++ out)) ++ [t]) :=
      (List.perm_append_singleton t _).symm
    simpa [List.append_assoc] using h1

theorem pushRun_perm {T : Type} {s s' : List (List T) × List T} (h : PushRun s s') :
    (s.1.flatten ++ s.2).Perm (s'.1.flatten ++ s'.2) := by
  induction h with
  | refl s => exact List.Perm.refl _
  | step h _ ih => exact (pushStep_perm h).trans ih

theorem flatten_done {T : Type} {l : List (List T)} (h : ∀ x ∈ l, x = []) : l.flatten = [] := by
  rw [List.flatten_eq_nil_iff]; exact h

/-- some complete interleaving always exists -/
theorem pushRun_exists {T : Type} : ∀ (l done : List (List T)) (out : List T), (∀ x ∈ done, x = []) →
    ∃ fin out', (∀ x ∈ fin, x = []) ∧ PushRun (done ++ l, out) (fin, out') := by
  intro l
  induction l with
  | nil => intro done out h; exact ⟨done, out, h, by rw [List.append_nil]; exact .refl _⟩
  | cons x l ih =>
    intro done out h
    have inner : ∀ (x : List T) (out : List T), ∃ out', PushRun (done ++ x :: l, out) (done ++ [] :: l, out') := by
      intro x
      induction x with
      | nil => intro out; exact ⟨out, .refl _⟩
      | cons t rest ih2 =>
        intro out
        obtain ⟨o, ho⟩ := ih2 (out ++ [t])
        exact ⟨o, .step (.push done l t rest out) ho⟩
    obtain ⟨o1, h1⟩ := inner x out
    obtain ⟨fin, o2, hf, h2⟩ := ih (done ++ [[]]) o1 (by
      intro y hy
      rcases List.mem_append.mp hy with hy | hy
      · exact h y hy
      · simpa using hy)
    rw [List.append_assoc, List.singleton_append] at h2
    refine ⟨fin, o2, hf, ?_⟩
    clear hf ih
    generalize hs : (done ++ x :: l, out) = s at h1
    generalize hs' : (done ++ [] :: l, o1) = s' at h1 h2
    clear hs hs'
    induction h1 with
    | refl s => exact h2
    | step h _ ih3 => exact .step h (ih3 h2)

/-! ### C85 -/

theorem workerLoop_length {G : Type} (d : Data) (rng : Rng G) (ts : ℕ) : ∀ (j : ℕ) (s : List ℕ) (g : G),
    (workerLoop d rng ts j s g).length = j
  | 0, _, _ => rfl
  | j + 1, s, g => by simp [workerLoop, workerLoop_length d rng ts j]

theorem sum_jobs (F w : ℕ) (hw : 1 ≤ w) : ((List.range w).map (jobsOf F w)).sum = F := by
  obtain ⟨w, rfl⟩ : ∃ v, w = v + 1 := ⟨w - 1, by omega⟩
  rw [List.range_succ_eq_map, List.map_cons, List.sum_cons, List.map_map]
  have : (List.range w).map (jobsOf F (w + 1) ∘ Nat.succ) = List.replicate w (F / (w + 1)) := by
    rw [List.eq_replicate_iff]
    refine ⟨by simp, ?_⟩
    intro b hb
    obtain ⟨i, _, rfl⟩ := List.mem_map.mp hb
    simp [jobsOf]
  rw [this, List.sum_replicate, smul_eq_mul]
  have h0 : jobsOf F (w + 1) 0 = F - F / (w + 1) * w := by simp [jobsOf]
  rw [h0, Nat.mul_comm w]
  have h1 : F / (w + 1) * w ≤ F := by
    have := Nat.div_mul_le_self F (w + 1)
    nlinarith
  omega

theorem threadTrees_length {G : Type} (d : Data) (rng : Rng G) (ts F seed w : ℕ) (hw : 1 ≤ w) :
    (threadTrees d rng ts F seed w).flatten.length = F := by
  rw [threadTrees, List.length_flatten, List.map_map]
  have : (List.range w).map (List.length ∘ fun i => workerTrees d rng ts seed i (jobsOf F w i))
      = (List.range w).map (jobsOf F w) := by
    apply List.map_congr_left
    intro i _
    simp [workerTrees, workerLoop_length]
  rw [this, sum_jobs F w hw]

theorem grown_perm {G : Type} {d : Data} {rng : Rng G} {ts F seed w : ℕ} {trees : List Tree}
    (h : Grown d rng ts F seed w trees) : trees.Perm (threadTrees d rng ts F seed w).flatten := by
  obtain ⟨done, hd, hr⟩ := h
  have := pushRun_perm hr
  simp only [List.append_nil] at this
  rw [flatten_done hd, List.nil_append] at this
  exact this.symm

/-- C85. For every number of workers and every schedule exactly `forestSize` trees are grown, and up to the
order of the trees the forest is the same for all schedules. -/
theorem C85_forest {G : Type} (d : Data) (rng : Rng G) (treeSize forestSize seed workers : ℕ) (hw : 1 ≤ workers)
    (trees : List Tree) (h : Grown d rng treeSize forestSize seed workers trees) :
    trees.length = forestSize ∧
    ∀ trees', Grown d rng treeSize forestSize seed workers trees' → trees.Perm trees' := by
  refine ⟨?_, fun trees' h' => (grown_perm h).trans (grown_perm h').symm⟩
  rw [(grown_perm h).length_eq, threadTrees_length d rng treeSize forestSize seed workers hw]

theorem score_perm (d : Data) (ts F : ℕ) {a b : List Tree} (h : a.Perm b) (o : ℕ) :
    anomalyScore d ts F a o = anomalyScore d ts F b o := by
  unfold anomalyScore
  rw [(h.map _).sum_eq]

/-- C85. The score of an observation does not depend on the order in which the trees were appended. -/
theorem C85_order {G : Type} (d : Data) (rng : Rng G) (treeSize forestSize seed workers : ℕ)
    (trees trees' : List Tree) (h : Grown d rng treeSize forestSize seed workers trees)
    (h' : Grown d rng treeSize forestSize seed workers trees') (o : ℕ) :
    anomalyScore d treeSize forestSize trees o = anomalyScore d treeSize forestSize trees' o :=
  score_perm d treeSize forestSize ((grown_perm h).trans (grown_perm h').symm) o

theorem scoreJobs_prefix (n w : ℕ) : ∀ k, k + 1 ≤ w →
    ((List.range k).map (scoreJobs n w)).flatten = List.range' 0 (k * (n / w)) := by
  intro k
  induction k with
  | zero => intro _; simp
  | succ k ih =>
    intro hk
    rw [List.range_succ, List.map_append, List.flatten_append, ih (by omega)]
    simp only [List.map_cons, List.map_nil, List.flatten_cons, List.flatten_nil, List.append_nil, scoreJobs,
      scoreRange]
    rw [if_pos (by omega)]
    simp only
    have := List.range'_append_1 (s := 0) (m := k * (n / w)) (n := n / w)
    rw [Nat.zero_add] at this
    rw [this, Nat.succ_mul]

/-- C85. The threads' index ranges, taken together, are exactly `0, ..., nObs - 1`, each once. -/
theorem C85_each_once (nObs workers : ℕ) (hw : 1 ≤ workers) :
    ((List.range workers).map (scoreJobs nObs workers)).flatten = List.range nObs := by
  obtain ⟨w, rfl⟩ : ∃ v, workers = v + 1 := ⟨workers - 1, by omega⟩
  rw [List.range_succ, List.map_append, List.flatten_append, scoreJobs_prefix nObs (w + 1) w (by omega)]
  simp only [List.map_cons, List.map_nil, List.flatten_cons, List.flatten_nil, List.append_nil, scoreJobs,
    scoreRange]
  rw [if_neg (by omega)]
  have h1 : nObs / (w + 1) * w ≤ nObs := by
    have := Nat.div_mul_le_self nObs (w + 1)
    nlinarith
  simp only
  rw [show nObs - (nObs - nObs / (w + 1) * w) = 0 + w * (nObs / (w + 1)) by rw [Nat.mul_comm w]; omega,
    List.range'_append_1, List.range_eq_range']
  congr 1
  rw [Nat.mul_comm w]; omega

theorem scoreStep_inv {S : Type} {f : ℕ → S} {s s' : List (List ℕ) × List S} (h : ScoreStep f s s')
    (hd : ∀ i < s.2.length, i ∈ s.1.flatten ∨ s.2[i]? = some (f i)) :
    s'.2.length = s.2.length ∧ ∀ i < s'.2.length, i ∈ s'.1.flatten ∨ s'.2[i]? = some (f i) := by
  cases h with
  | write before after i rest out =>
    refine ⟨by simp, ?_⟩
    intro j hj
    simp only [List.length_set] at hj
    by_cases hij : i = j
    · subst hij
      right
      simp [hj]
    · rcases hd j hj with hm | hm
      · left
        simp only [List.flatten_append, List.flatten_cons, List.mem_append, List.mem_cons] at hm ⊢
        rcases hm with hm | (hm | hm) | hm
        · exact Or.inl hm
        · exact absurd hm.symm hij
        · exact Or.inr (Or.inl hm)
        · exact Or.inr (Or.inr hm)
      · right
        simp only at hm ⊢
        rw [List.getElem?_set_ne hij]; exact hm

theorem scoreRun_inv {S : Type} {f : ℕ → S} {s s' : List (List ℕ) × List S} (h : ScoreRun f s s')
    (hd : ∀ i < s.2.length, i ∈ s.1.flatten ∨ s.2[i]? = some (f i)) :
    s'.2.length = s.2.length ∧ ∀ i < s'.2.length, i ∈ s'.1.flatten ∨ s'.2[i]? = some (f i) := by
  induction h with
  | refl s => exact ⟨rfl, hd⟩
  | step h _ ih =>
    obtain ⟨e1, e2⟩ := scoreStep_inv h hd
    obtain ⟨e3, e4⟩ := ih e2
    exact ⟨e3.trans e1, e4⟩

/-- C85. Whatever the schedule of the scoring threads, the score array ends as the list of all scores. -/
theorem C85_scores {S : Type} (f : ℕ → S) (init : S) (nObs workers : ℕ) (hw : 1 ≤ workers) (scores : List S)
    (h : Scored f init nObs workers scores) : scores = (List.range nObs).map f := by
  obtain ⟨done, hd, hr⟩ := h
  obtain ⟨e1, e2⟩ := scoreRun_inv hr (by
    intro i hi
    left
    simp only [List.length_replicate] at hi
    simp only
    rw [C85_each_once nObs workers hw]
    exact List.mem_range.mpr hi)
  simp only [List.length_replicate] at e1 e2
  rw [flatten_done hd] at e2
  apply List.ext_getElem?
  intro i
  by_cases hi : i < nObs
  · rcases e2 i (by omega) with h | h
    · simp at h
    · rw [h]; simp [hi]
  · rw [List.getElem?_eq_none (by omega), List.getElem?_eq_none (by simp; omega)]

/-- C85. The whole computation is deterministic: for given data, sizes, seed and number of workers, all
interleavings of all threads give the same output array. -/
theorem C85_deterministic {G : Type} (d : Data) (rng : Rng G) (forestSize treeSize seed workers : ℕ)
    (hw : 1 ≤ workers) (out out' : List XR) (h : IsOutput d rng forestSize treeSize seed workers out)
    (h' : IsOutput d rng forestSize treeSize seed workers out') : out = out' ∧ out.length = d.nObs := by
  obtain ⟨t, ht, hs⟩ := h
  obtain ⟨t', ht', hs'⟩ := h'
  rw [C85_scores _ _ _ _ hw _ hs, C85_scores _ _ _ _ hw _ hs']
  refine ⟨?_, by simp⟩
  apply List.map_congr_left
  intro o _
  exact C85_order d rng treeSize forestSize seed workers t t' ht ht' o

/-- an output always exists, so the statements above are not vacuous -/
theorem grown_exists {G : Type} (d : Data) (rng : Rng G) (treeSize forestSize seed workers : ℕ) :
    ∃ trees, Grown d rng treeSize forestSize seed workers trees := by
  obtain ⟨fin, out, hf, hr⟩ := pushRun_exists (threadTrees d rng treeSize forestSize seed workers) [] [] (by simp)
  exact ⟨out, fin, hf, by simpa using hr⟩

/-! ### C99 -/

theorem workerLoop_sizes {G : Type} (d : Data) (rng : Rng G) (ts : ℕ) : ∀ (j : ℕ) (s : List ℕ) (g : G),
    (workerLoop d rng ts j s g).map size
      = (List.range j).map fun k => s.length + (k + 1) * min ts d.nObs
  | 0, _, _ => rfl
  | j + 1, s, g => by
    rw [workerLoop, List.map_cons, workerLoop_sizes d rng ts j, List.range_succ_eq_map, List.map_cons,
      List.map_map, (C81_sizes _ _ _ _ _).1]
    congr 1
    · rw [List.length_append, rng.sample_len]; ring
    · apply List.map_congr_left
      intro k _
      simp only [Function.comp, List.length_append, rng.sample_len, Nat.succ_eq_add_one]
      ring

/-- C99. The sample buffer of a worker is never cleared: its `k`-th tree (`k = 1, 2, ...`) is grown from
`k · min(treeSize, nObs)` observations, not from `treeSize`. -/
theorem C99_sample_grows {G : Type} (d : Data) (rng : Rng G) (treeSize seed thread jobs : ℕ) :
    (workerTrees d rng treeSize seed thread jobs).map size
      = (List.range jobs).map fun k => (k + 1) * min treeSize d.nObs := by
  rw [workerTrees, workerLoop_sizes]
  simp

/-- C99. Hence from a worker's second tree on, a tree over non-empty data contains more observations than the
data set has when `nObs ≤ treeSize`. -/
theorem C99_exceeds {G : Type} (d : Data) (rng : Rng G) (treeSize seed thread jobs : ℕ) (hn : 1 ≤ d.nObs)
    (hts : d.nObs ≤ treeSize) (k : ℕ) (hk : k + 1 < jobs) (t : Tree)
    (ht : (workerTrees d rng treeSize seed thread jobs)[k + 1]? = some t) : d.nObs < size t := by
  have h := C99_sample_grows d rng treeSize seed thread jobs
  have h2 : ((workerTrees d rng treeSize seed thread jobs).map size)[k + 1]? = some (size t) := by
    rw [List.getElem?_map, ht]; rfl
  rw [h, List.getElem?_map, List.getElem?_range hk] at h2
  simp only [Option.map_some, Option.some.injEq] at h2
  rw [← h2, min_eq_right hts]
  nlinarith

/-! ### C86 -/

/-- generator seeds actually used: one per thread that has at least one tree to grow -/
def usedSeeds (forestSize workers nObs seed : ℕ) : List ℕ :=
  ((List.range workers).filter fun i => decide (0 < jobsOf forestSize workers i)).map
    fun i => i * jobsOf forestSize workers i + randomOffset nObs seed

/-- C86. A thread's trees depend on the random facility only through the generator seeded with
`threadId * jobs + offset`: one seed per thread, whatever the number of trees. -/
theorem C86_one_seed {G : Type} (d : Data) (rng rng' : Rng G) (treeSize seed thread jobs : ℕ)
    (hu : rng.unif = rng'.unif) (hs : rng.sample = rng'.sample)
    (h : rng.seed (thread * jobs + randomOffset d.nObs seed)
      = rng'.seed (thread * jobs + randomOffset d.nObs seed)) :
    workerTrees d rng treeSize seed thread jobs = workerTrees d rng' treeSize seed thread jobs := by
  have hg : ∀ k hh s g, maxTreeHeight treeSize - hh = k →
      growTree d rng (maxTreeHeight treeSize) hh s g = growTree d rng' (maxTreeHeight treeSize) hh s g := by
    intro k
    induction k with
    | zero =>
      intro hh s g hk
      rw [growTree, growTree, dif_pos (by omega), dif_pos (by omega)]
    | succ k ih =>
      intro hh s g hk
      rw [growTree, growTree]
      by_cases hc : s.length ≤ 1 ∨ maxTreeHeight treeSize ≤ hh
      · rw [dif_pos hc, dif_pos hc]
      · rw [dif_neg hc, dif_neg hc]
        simp only [hu, ih (hh + 1) _ _ (by omega)]
  have hl : ∀ j s g, workerLoop d rng treeSize j s g = workerLoop d rng' treeSize j s g := by
    intro j
    induction j with
    | zero => intro s g; rfl
    | succ j ih =>
      intro s g
      simp only [workerLoop, hs, hg _ 0 _ _ rfl, ih]
  unfold workerTrees
  rw [h, hl]

/-- C86. With `forestSize ≥ workers` exactly `workers` generator seeds are used, `k * (forestSize / workers)`
plus the offset; with `0 < forestSize < workers` only one. -/
theorem C86_seeds (forestSize workers nObs seed : ℕ) (hw : 1 ≤ workers) :
    (workers ≤ forestSize → usedSeeds forestSize workers nObs seed
      = (List.range workers).map fun k => k * (forestSize / workers) + randomOffset nObs seed) ∧
    (0 < forestSize → forestSize < workers → usedSeeds forestSize workers nObs seed
      = [randomOffset nObs seed]) := by
  have hpos0 : 0 < forestSize → 0 < jobsOf forestSize workers 0 := by
    intro h
    simp only [jobsOf, if_true]
    have h1 := Nat.div_mul_le_self forestSize workers
    rcases Nat.eq_zero_or_pos (forestSize / workers) with h0 | h0
    · rw [h0, Nat.zero_mul]; omega
    · have : forestSize / workers * (workers - 1) < forestSize / workers * workers :=
        Nat.mul_lt_mul_of_pos_left (by omega) h0
      omega
  constructor
  · intro hf
    have hall : (List.range workers).filter (fun i => decide (0 < jobsOf forestSize workers i))
        = List.range workers := by
      rw [List.filter_eq_self]
      intro i _
      rw [decide_eq_true_eq]
      by_cases hi : i = 0
      · subst hi; exact hpos0 (by omega)
      · simp only [jobsOf, if_neg hi]
        exact Nat.div_pos hf (by omega)
    rw [usedSeeds, hall]
    apply List.map_congr_left
    intro i _
    by_cases hi : i = 0
    · subst hi; simp
    · simp [jobsOf, hi]
  · intro h0 hf
    obtain ⟨w, rfl⟩ : ∃ v, workers = v + 1 := ⟨workers - 1, by omega⟩
    rw [usedSeeds, List.range_succ_eq_map, List.filter_cons, if_pos (by simpa using hpos0 h0)]
    have : (List.map Nat.succ (List.range w)).filter (fun i => decide (0 < jobsOf forestSize (w + 1) i)) = [] := by
      rw [List.filter_eq_nil_iff]
      intro i hi
      obtain ⟨j, _, rfl⟩ := List.mem_map.mp hi
      simp [jobsOf, Nat.div_eq_of_lt hf]
    rw [this]
    simp

/-- C86. The forest depends on the number of workers, contrary to the comment in the source: for every random
facility and all non-empty data, two trees grown by one worker and by two workers are different forests, even
up to order. -/
theorem C86_depends_on_workers {G : Type} (d : Data) (hn : 1 ≤ d.nObs) (rng : Rng G) (treeSize : ℕ)
    (hts : 1 ≤ treeSize) (seed : ℕ) (one two : List Tree)
    (h1 : Grown d rng treeSize 2 seed 1 one) (h2 : Grown d rng treeSize 2 seed 2 two) : ¬ one.Perm two := by
  intro hp
  have e := ((grown_perm h1).symm.trans (hp.trans (grown_perm h2))).map size
  have hs := e.sum_eq
  simp only [threadTrees, List.map_flatten, List.map_map] at hs
  simp [List.range_succ, jobsOf, Function.comp, C99_sample_grows] at hs
  have : 1 ≤ min treeSize d.nObs := by omega
  omega

/-- C86. The tree index ranges of workers 0 and 1 overlap whenever the forest size is not a multiple of the
number of workers and every worker has something to do. -/
theorem C86_overlap (forestSize workers : ℕ) (hw : 2 ≤ workers) (hf : workers ≤ forestSize)
    (hd : ¬ workers ∣ forestSize) :
    ∃ i, i ∈ List.range' 0 (jobsOf forestSize workers 0) ∧
      i ∈ List.range' (1 * jobsOf forestSize workers 1) (jobsOf forestSize workers 1) := by
  have hq : 0 < forestSize / workers := Nat.div_pos hf (by omega)
  have hlt : forestSize / workers * workers < forestSize := by
    rcases Nat.lt_or_ge (forestSize / workers * workers) forestSize with h | h
    · exact h
    · exact absurd (Nat.dvd_of_mul_dvd_mul_right (Nat.succ_pos 0)
        (by simpa using Dvd.intro_left _ (le_antisymm (Nat.div_mul_le_self _ _) h))) hd
  refine ⟨forestSize / workers, ?_, ?_⟩
  · rw [List.mem_range'_1]
    simp only [jobsOf, if_true]
    have h2 : forestSize / workers * workers = forestSize / workers * (workers - 1) + forestSize / workers := by
      obtain ⟨w, rfl⟩ : ∃ v, workers = v + 1 := ⟨workers - 1, by omega⟩
      simp [Nat.mul_succ]
    omega
  · rw [List.mem_range'_1]
    simp only [jobsOf, one_ne_zero, if_false]
    omega

/-! ### C87 -/

/-- C87. All seeds above the number of observations, and all negative seeds, give the same offset, hence the same
forest and scores; seed 0 and seed 1 are equivalent too. -/
theorem C87_seeds {G : Type} (d : Data) (rng : Rng G) (treeSize forestSize workers : ℕ)
    (hn : d.nObs < 2 ^ 63) (s s' : ℤ) (hs : -2 ^ 31 ≤ s ∧ s < 2 ^ 31) (hs' : -2 ^ 31 ≤ s' ∧ s' < 2 ^ 31)
    (h : (s < 0 ∨ d.nObs < s) ∧ (s' < 0 ∨ d.nObs < s') ∨ (s = 0 ∧ s' = 1)) (out : List XR) :
    IsOutput d rng forestSize treeSize (seedOf s) workers out ↔
    IsOutput d rng forestSize treeSize (seedOf s') workers out := by
  have hoff : ∀ s : ℤ, -2 ^ 31 ≤ s ∧ s < 2 ^ 31 → (s < 0 ∨ d.nObs < s) →
      randomOffset d.nObs (seedOf s) = d.nObs := by
    intro s hs h
    have hlt : d.nObs < seedOf s := by
      unfold seedOf
      rcases h with h | h <;> omega
    unfold randomOffset
    rw [if_pos (by omega), Nat.mod_eq_of_lt hlt]
  have key : randomOffset d.nObs (seedOf s) = randomOffset d.nObs (seedOf s') := by
    rcases h with ⟨h1, h2⟩ | ⟨rfl, rfl⟩
    · rw [hoff s hs h1, hoff s' hs' h2]
    · simp [randomOffset, seedOf, Nat.mod_one]
  unfold IsOutput Grown threadTrees workerTrees
  rw [key]

/-- C87. In general the seed enters only through `nObs mod seed`, which is at most `nObs`. -/
theorem C87_offset (nObs seed : ℕ) (h : 1 ≤ seed) :
    randomOffset nObs seed = nObs % seed ∧ randomOffset nObs seed ≤ nObs := by
  unfold randomOffset
  rw [if_pos (by omega)]
  exact ⟨rfl, Nat.mod_le _ _⟩

/-! ### C100 -/

/-- the memory holds the cells one after the other -/
def Stored (d : Data) (cells : List (List ℕ)) (rest : List ℕ) : Prop :=
  d.bytes = cells.flatten ++ rest ∧ cells.length = d.nChar * d.nObs ∧ ∀ c ∈ cells, c.length = d.width

theorem drop_cells {w : ℕ} : ∀ (cells : List (List ℕ)) (rest : List ℕ) (k : ℕ),
    (∀ c ∈ cells, c.length = w) → k ≤ cells.length →
    (cells.flatten ++ rest).drop (k * w) = (cells.drop k).flatten ++ rest
  | cells, rest, 0, _, _ => by simp
  | [], _, k + 1, _, hk => by simp at hk
  | c :: cells, rest, k + 1, h, hk => by
    have hc : c.length = w := h c (by simp)
    rw [List.flatten_cons, List.append_assoc, Nat.succ_mul, Nat.add_comm, ← List.drop_drop,
      List.drop_append_of_le_length (by omega), ← hc, List.drop_length, List.nil_append, hc,
      drop_cells cells rest k (fun x hx => h x (by simp [hx])) (by simpa using hk)]
    simp

theorem takeWhile_full {l rest : List ℕ} (h : ∀ x ∈ l, x ≠ 0) :
    (l ++ rest).takeWhile (· ≠ 0) = l ++ rest.takeWhile (· ≠ 0) := by
  rw [List.takeWhile_append_of_pos (by simpa using h)]

theorem cell_index (d : Data) {a o : ℕ} (ha : a < d.nChar) (ho : o < d.nObs) :
    a * d.nObs + o < d.nChar * d.nObs := by
  have : (a + 1) * d.nObs ≤ d.nChar * d.nObs := Nat.mul_le_mul_right _ ha
  rw [Nat.succ_mul] at this
  omega

/-- C100. If every cell is shorter than the item size (so it is padded with a NUL byte), the comparison sees
exactly the content of the cell. -/
theorem C100_padded (d : Data) (cells : List (List ℕ)) (rest : List ℕ) (h : Stored d cells rest)
    (a o : ℕ) (ha : a < d.nChar) (ho : o < d.nObs) (content : List ℕ) (hc : ∀ x ∈ content, x ≠ 0)
    (pad : ℕ) (hcell : cells[a * d.nObs + o]? = some (content ++ List.replicate (pad + 1) 0)) :
    d.cstr a o = content := by
  obtain ⟨hb, hlen, hw⟩ := h
  have hi := cell_index d ha ho
  unfold Data.cstr
  rw [hb, drop_cells cells rest _ hw (by omega), List.drop_eq_getElem_cons (by omega)]
  have he : cells[a * d.nObs + o]'(by omega) = content ++ List.replicate (pad + 1) 0 := by
    rw [List.getElem?_eq_getElem (by omega)] at hcell
    exact Option.some.inj hcell
  rw [he, List.flatten_cons, List.append_assoc, List.append_assoc, takeWhile_full hc, List.replicate_succ]
  simp

theorem flatten_length_const {w : ℕ} : ∀ (l : List (List ℕ)), (∀ c ∈ l, c.length = w) →
    l.flatten.length = l.length * w
  | [], _ => by simp
  | c :: l, h => by
    rw [List.flatten_cons, List.length_append, h c (by simp),
      flatten_length_const l (fun x hx => h x (by simp [hx])), List.length_cons]
    ring

/-- C100. If all cells are full (all strings have the maximal length, e.g. ISO codes), the strings are not
terminated: the length read is that of the rest of the memory, so splits compare positions, not contents —
observation `o` counts as smaller than `o'` iff it comes *after* it in the array. -/
theorem C100_full_width (d : Data) (cells : List (List ℕ)) (rest : List ℕ) (h : Stored d cells rest)
    (hw : 0 < d.width) (hfull : ∀ c ∈ cells, ∀ x ∈ c, x ≠ 0) (a o o' : ℕ) (ha : a < d.nChar)
    (ho : o < d.nObs) (ho' : o' < d.nObs) :
    charLeft (d.cstr a o') (d.cstr a o) ↔ o' < o := by
  obtain ⟨hb, hlen, hwid⟩ := h
  have hcstr : ∀ o, o < d.nObs → (d.cstr a o).length
      = (d.nChar * d.nObs - (a * d.nObs + o)) * d.width + (rest.takeWhile (· ≠ 0)).length := by
    intro o ho
    have hi := cell_index d ha ho
    unfold Data.cstr
    rw [hb, drop_cells cells rest _ hwid (by omega), takeWhile_full (by
      intro x hx
      obtain ⟨c, hc, hxc⟩ := List.mem_flatten.mp hx
      exact hfull c (List.mem_of_mem_drop hc) x hxc), List.length_append,
      flatten_length_const _ (fun c hc => hwid c (List.mem_of_mem_drop hc)), List.length_drop, hlen]
  have hi := cell_index d ha ho
  have hi' := cell_index d ha ho'
  have key : (d.cstr a o).length < (d.cstr a o').length ↔ o' < o := by
    rw [hcstr o ho, hcstr o' ho', Nat.add_lt_add_iff_right, Nat.mul_lt_mul_right hw]
    omega
  constructor
  · rintro (h | ⟨h, hlt⟩)
    · exact key.mp h
    · exfalso
      rw [hcstr o ho, hcstr o' ho', Nat.add_right_cancel_iff, Nat.mul_left_inj hw.ne'] at h
      have : o = o' := by omega
      subst this
      exact lt_irrefl _ hlt
  · intro h
    exact Or.inl (key.mpr h)

/-! ### the hypotheses are satisfiable -/

/-- a trivial but legitimate random facility: always the first values -/
def firstRng : Rng Unit where
  seed _ := ()
  unif _ _ := (0, ())
  unif_lt _ _ h := h
  sample _ n k := ((List.range n).take k, ())
  sample_sub _ n k := List.take_sublist k _
  sample_len _ n k := by simp

example (d : Data) : ∃ trees, Grown d firstRng 4 10 7 3 trees ∧ trees.length = 10 := by
  obtain ⟨t, ht⟩ := grown_exists d firstRng 4 10 7 3
  exact ⟨t, ht, (C85_forest d firstRng 4 10 7 3 (by norm_num) t ht).1⟩

/-- two observations `"AU"`, `"US"`: the first is longer, as it is read as `"AUUS"` -/
def codes : Data where
  nNum := 0
  nChar := 1
  nObs := 2
  num _ _ := .nan
  width := 2
  bytes := [65, 85, 85, 83, 0]

example : Stored codes [[65, 85], [85, 83]] [0] ∧ codes.cstr 0 0 = [65, 85, 85, 83] ∧
    charLeft (codes.cstr 0 0) (codes.cstr 0 1) := by
  refine ⟨⟨rfl, rfl, by simp [codes]⟩, rfl, Or.inl (by decide)⟩

/-- data with a missing value: observation 0 is missing, observations 1 and 2 are not -/
def missing : Data where
  nNum := 1
  nChar := 0
  nObs := 3
  num _ o := if o = 0 then .nan else .fin o
  width := 1
  bytes := []

example : ∃ o, ∀ a ∈ metAttrs missing o (growTree missing firstRng 2 0 [0, 1, 2] ()), missing.num a o ≠ .nan :=
  ⟨1, fun _ _ => by simp [missing]⟩

/-! ### Concrete cases of the theorems above -/

/-- The tree of three rows, the first of which is missing: every row reaches a leaf, which holds the rows sent there. -/
example : ∃ p n, leafAt (growTree missing firstRng 2 0 [0, 1, 2] ()) p = some n ∧
    n = ([0, 1, 2].filter fun o => decide (route missing trainLeft o (growTree missing firstRng 2 0 [0, 1, 2] ()) = p)).length :=
  let ⟨n, h⟩ := C81_route missing firstRng 2 [0, 1, 2] () 1
  ⟨_, n, h, (C81_leaves missing firstRng 2 [0, 1, 2] () _ n h).1⟩
example := C82_consistent missing firstRng 2 [0, 1, 2] () 1 (fun _ _ => by simp [missing])
/-- A column with no value at all. -/
example (rng : Rng Unit) := C83_all_missing { missing with num := fun _ _ => .nan } rfl rfl (fun _ => rfl) rng 3 (by norm_num)
  [0, 1, 2] (by simp) () 0
example := C84_range missing 256 (by norm_num) [growTree missing firstRng 2 0 [0, 1, 2] ()] (by simp) 1
example := C84_one missing 256 (by norm_num) [growTree missing firstRng 2 0 [0, 1, 2] ()] (by simp) 1
example := C84_size_one missing [growTree missing firstRng 2 0 [0, 1, 2] ()] (by simp) 1
example (d : Data) (o : ℕ) : ∃ trees, Grown d firstRng 4 10 7 3 trees ∧ ∀ trees', Grown d firstRng 4 10 7 3 trees' →
    anomalyScore d 4 10 trees o = anomalyScore d 4 10 trees' o :=
  let ⟨t, h⟩ := grown_exists d firstRng 4 10 7 3
  ⟨t, h, fun t' h' => C85_order d firstRng 4 10 7 3 t t' h h' o⟩
example := C85_each_once 10 3 (by norm_num)
/-- Ten trees of one worker over three rows: the second tree has more observations than the data. -/
example : ∃ t, (workerTrees missing firstRng 256 7 0 10)[1]? = some t ∧ 3 < size t := by
  have hl : (workerTrees missing firstRng 256 7 0 10).length = 10 := by
    have := congrArg List.length (C99_sample_grows missing firstRng 256 7 0 10)
    simpa using this
  obtain ⟨t, ht⟩ : ∃ t, (workerTrees missing firstRng 256 7 0 10)[1]? = some t :=
    ⟨_, List.getElem?_eq_getElem (by rw [hl]; norm_num)⟩
  exact ⟨t, ht, C99_exceeds missing firstRng 256 7 0 10 (by simp [missing]) (by simp [missing]) 0 (by norm_num) t ht⟩
/-- Two generators that agree from seed 1 on grow the same trees with it. -/
example (rng : Rng ℕ) := C86_one_seed missing rng { rng with seed := fun s => if s = 0 then 99 else rng.seed s } 4 2 1 5 rfl rfl
  (by simp)
/-- Ten trees on three workers: seeds 0, 3 and 6, plus the offset. -/
example (nObs seed : ℕ) : usedSeeds 10 3 nObs seed = (List.range 3).map fun k => k * 3 + randomOffset nObs seed :=
  (C86_seeds 10 3 nObs seed (by norm_num)).1 (by norm_num)
example : ∃ one two, Grown missing firstRng 2 2 7 1 one ∧ Grown missing firstRng 2 2 7 2 two ∧ ¬ one.Perm two :=
  let ⟨t1, h1⟩ := grown_exists missing firstRng 2 2 7 1
  let ⟨t2, h2⟩ := grown_exists missing firstRng 2 2 7 2
  ⟨t1, t2, h1, h2, C86_depends_on_workers missing (by simp [missing]) firstRng 2 (by norm_num) 7 t1 t2 h1 h2⟩
example := C86_overlap 10 3 (by norm_num) (by norm_num) (by norm_num)
/-- Seeds `-1` and `1000` give the same scores for three rows. -/
example (out : List XR) : IsOutput missing firstRng 10 4 (seedOf (-1)) 3 out ↔ IsOutput missing firstRng 10 4 (seedOf 1000) 3 out :=
  C87_seeds missing firstRng 4 10 3 (by norm_num [missing]) (-1) 1000 (by norm_num) (by norm_num)
    (Or.inl ⟨Or.inl (by norm_num), Or.inr (by norm_num [missing])⟩) out
example := C87_offset 10 3 (by norm_num)
/-- Two codes as long as the field: each string runs into the next, and the order is that of the rows. -/
example : charLeft (codes.cstr 0 0) (codes.cstr 0 1) :=
  (C100_full_width codes [[65, 85], [85, 83]] [0] ⟨rfl, rfl, by simp [codes]⟩ (by simp [codes]) (by simp) 0 1 0 (by simp [codes])
    (by simp [codes]) (by simp [codes])).2 (by norm_num)
/-- A field of three bytes for codes of two. -/
example : ({ codes with width := 3, bytes := [65, 85, 0, 85, 83, 0] } : Data).cstr 0 1 = [85, 83] :=
  C100_padded { codes with width := 3, bytes := [65, 85, 0, 85, 83, 0] } [[65, 85, 0], [85, 83, 0]] []
    ⟨rfl, rfl, by simp⟩ 0 1 (by simp [codes]) (by simp [codes]) [85, 83] (by simp) 0 rfl

end
end Frds.Props

import Verif.Model.IForestInt
import Verif.Props.IForestPy

/-! C186: the integer types of the C++ isolation forest. -/
namespace Frds.Props
noncomputable section
open Frds Frds.Model.IForest Frds.Spec.IForest Classical
set_option linter.unusedSimpArgs false

namespace IForestInt

theorem toInt_small {n : ℕ} (h : n < 2 ^ 31) : Model.IForestInt.toInt n = n := by
  unfold Model.IForestInt.toInt; omega

theorem toInt_le (n : ℕ) : Model.IForestInt.toInt n ≤ n := by
  unfold Model.IForestInt.toInt; omega

theorem toInt_lt {n : ℕ} (h : 2 ^ 31 ≤ n) : Model.IForestInt.toInt n < n := by
  unfold Model.IForestInt.toInt; omega

theorem avgPath_strictMono {m n : ℕ} (hm : 2 ≤ m) (h : m < n) : avgPath m < avgPath n := by
  have hm' : (2 : ℝ) ≤ m := by exact_mod_cast hm
  have h' : (m : ℝ) + 1 ≤ n := by exact_mod_cast h
  have hlog := Real.one_sub_inv_le_log_of_pos (x := ((n : ℝ) - 1) / (m - 1)) (by apply div_pos <;> linarith)
  rw [Real.log_div (by linarith) (by linarith)] at hlog
  have e1 : 1 - (((n : ℝ) - 1) / (m - 1))⁻¹ = (n - m) / (n - 1) := by
    have : (n : ℝ) - 1 ≠ 0 := by linarith
    rw [inv_div]; field_simp; ring
  rw [e1] at hlog
  have e2 : ((n : ℝ) - m) / (n * m) < (n - m) / (n - 1) := by
    apply div_lt_div_of_pos_left (by linarith) (by linarith)
    nlinarith
  have e3 : 2 * ((n : ℝ) - 1) / n - 2 * (m - 1) / m = 2 * ((n - m) / (n * m)) := by
    have h1 : (n : ℝ) ≠ 0 := by linarith
    have h2 : (m : ℝ) ≠ 0 := by linarith
    field_simp; ring
  unfold avgPath
  linarith

/-- what a leaf of `n` observations adds to a path, with and without wrapping -/
theorem leaf_value (len : ℕ) (d : Data) (o n : ℕ) :
    ∃ x y : ℝ, pathLength d o (.leaf n) len = .fin x ∧ Model.IForestInt.pathLength d o (.leaf n) len = .fin y ∧
      (n < 2 ^ 31 → y = x) ∧ y ≤ x ∧ (2 ^ 31 ≤ n → y < x) := by
  have hx : ∃ x : ℝ, pathLength d o (.leaf n) len = .fin x ∧ x = len + if n ≤ 1 then 0 else avgPath n := by
    refine ⟨_, ?_, rfl⟩
    rw [pathLength]
    by_cases h : n ≤ 1
    · rw [if_pos h, if_pos h, add_zero]
    · rw [if_neg h, if_neg h, averagePathLength_fin (by omega), XR.fin_add]
  have hy : ∃ y : ℝ, Model.IForestInt.pathLength d o (.leaf n) len = .fin y ∧
      y = len + if Model.IForestInt.toInt n ≤ 1 then 0 else avgPath (Model.IForestInt.toInt n).toNat := by
    refine ⟨_, ?_, rfl⟩
    rw [Model.IForestInt.pathLength]
    by_cases h : Model.IForestInt.toInt n ≤ 1
    · rw [if_pos h, if_pos h, add_zero]
    · rw [if_neg h, if_neg h, averagePathLength_fin (by omega), XR.fin_add]
  obtain ⟨x, ex, hx⟩ := hx
  obtain ⟨y, ey, hy⟩ := hy
  have hsmall : n < 2 ^ 31 → y = x := by
    intro h
    rw [hx, hy, toInt_small h]
    simp only [Int.toNat_natCast]
    by_cases h1 : n ≤ 1
    · rw [if_pos (by omega), if_pos h1]
    · rw [if_neg (by omega), if_neg h1]
  have hbig : 2 ^ 31 ≤ n → y < x := by
    intro h
    have ht := toInt_lt h
    have hp := avgPath_pos (n := n) (by omega)
    rw [hx, hy, if_neg (show ¬ n ≤ 1 by omega)]
    by_cases h1 : Model.IForestInt.toInt n ≤ 1
    · rw [if_pos h1]; linarith
    · rw [if_neg h1]
      have := avgPath_strictMono (m := (Model.IForestInt.toInt n).toNat) (n := n) (by omega) (by omega)
      linarith
  refine ⟨x, y, ex, ey, hsmall, ?_, hbig⟩
  rcases lt_or_ge n (2 ^ 31) with h | h
  · exact (hsmall h).le
  · exact (hbig h).le

/-- the two path lengths of an observation in any tree -/
theorem path_values (d : Data) (o : ℕ) (t : Tree) : ∀ len : ℕ,
    ∃ x y : ℝ, pathLength d o t len = .fin x ∧ Model.IForestInt.pathLength d o t len = .fin y ∧ y ≤ x ∧
      (SizesAdd t → size t < 2 ^ 31 → y = x) := by
  induction t with
  | leaf n =>
    intro len
    obtain ⟨x, y, h1, h2, h3, h4, _⟩ := leaf_value len d o n
    exact ⟨x, y, h1, h2, h4, fun _ h => h3 h⟩
  | numNode a v n l r ihl ihr =>
    intro len
    simp only [pathLength, Model.IForestInt.pathLength]
    by_cases h : d.num a o < v
    · simp only [if_pos h]
      obtain ⟨x, y, h1, h2, h3, h4⟩ := ihl (len + 1)
      exact ⟨x, y, h1, h2, h3, fun hs hz => h4 hs.2.1 (by have := hs.1; simp only [size] at hz; omega)⟩
    · simp only [if_neg h]
      obtain ⟨x, y, h1, h2, h3, h4⟩ := ihr (len + 1)
      exact ⟨x, y, h1, h2, h3, fun hs hz => h4 hs.2.2 (by have := hs.1; simp only [size] at hz; omega)⟩
  | chrNode a v n l r ihl ihr =>
    intro len
    simp only [pathLength, Model.IForestInt.pathLength]
    by_cases h : strLess (d.cstr (a - d.nNum) o) v = true
    · simp only [if_pos h]
      obtain ⟨x, y, h1, h2, h3, h4⟩ := ihl (len + 1)
      exact ⟨x, y, h1, h2, h3, fun hs hz => h4 hs.2.1 (by have := hs.1; simp only [size] at hz; omega)⟩
    · simp only [if_neg h]
      obtain ⟨x, y, h1, h2, h3, h4⟩ := ihr (len + 1)
      exact ⟨x, y, h1, h2, h3, fun hs hz => h4 hs.2.2 (by have := hs.1; simp only [size] at hz; omega)⟩

/-- the number in an `XR` -/
def num : XR → ℝ
  | .fin r => r
  | _ => 0

/-- exact path length as a number -/
def px (d : Data) (o : ℕ) (t : Tree) : ℝ := num (pathLength d o t 0)
/-- path length with C integers as a number -/
def py (d : Data) (o : ℕ) (t : Tree) : ℝ := num (Model.IForestInt.pathLength d o t 0)

theorem px_eq (d : Data) (o : ℕ) (t : Tree) : pathLength d o t 0 = .fin (px d o t) := by
  obtain ⟨x, y, h1, _⟩ := path_values d o t 0
  rw [px, h1]; rfl

theorem py_eq (d : Data) (o : ℕ) (t : Tree) : Model.IForestInt.pathLength d o t 0 = .fin (py d o t) := by
  obtain ⟨x, y, _, h1, _⟩ := path_values d o t 0
  rw [py, h1]; rfl

theorem py_le (d : Data) (o : ℕ) (t : Tree) : py d o t ≤ px d o t := by
  obtain ⟨x, y, h1, h2, h3, _⟩ := path_values d o t 0
  rw [py, px, h1, h2]; exact h3

theorem path_nonneg (d : Data) (o : ℕ) (t : Tree) : ∀ len : ℕ,
    ∃ y : ℝ, Model.IForestInt.pathLength d o t len = .fin y ∧ 0 ≤ y := by
  induction t with
  | leaf n =>
    intro len
    rw [Model.IForestInt.pathLength]
    by_cases h : Model.IForestInt.toInt n ≤ 1
    · rw [if_pos h]; exact ⟨_, rfl, by positivity⟩
    · rw [if_neg h, averagePathLength_fin (by omega), XR.fin_add]
      have := avgPath_pos (n := (Model.IForestInt.toInt n).toNat) (by omega)
      exact ⟨_, rfl, by positivity⟩
  | numNode a v n l r ihl ihr =>
    intro len
    simp only [Model.IForestInt.pathLength]
    by_cases h : d.num a o < v
    · simp only [if_pos h]; exact ihl (len + 1)
    · simp only [if_neg h]; exact ihr (len + 1)
  | chrNode a v n l r ihl ihr =>
    intro len
    simp only [Model.IForestInt.pathLength]
    by_cases h : strLess (d.cstr (a - d.nNum) o) v = true
    · simp only [if_pos h]; exact ihl (len + 1)
    · simp only [if_neg h]; exact ihr (len + 1)

theorem py_nonneg (d : Data) (o : ℕ) (t : Tree) : 0 ≤ py d o t := by
  obtain ⟨y, h1, h2⟩ := path_nonneg d o t 0
  rw [py, h1]; exact h2

theorem py_same (d : Data) (o : ℕ) (t : Tree) (hs : SizesAdd t) (hz : size t < 2 ^ 31) : py d o t = px d o t := by
  obtain ⟨x, y, h1, h2, _, h3⟩ := path_values d o t 0
  rw [py, px, h1, h2]; exact h3 hs hz

theorem jobs_le (F w i : ℕ) : jobsOf F w i ≤ F - F / w * (w - 1) := by
  unfold jobsOf
  split_ifs with h
  · exact le_rfl
  · rcases Nat.eq_zero_or_pos w with h0 | h0
    · subst h0; simp
    · have h1 := Nat.div_mul_le_self F w
      have h2 : F / w * w = F / w * (w - 1) + F / w := by
        obtain ⟨v, rfl⟩ : ∃ v, w = v + 1 := ⟨w - 1, by omega⟩
        rw [Nat.add_sub_cancel]; ring
      omega

/-- with a forest size that fits an `int`, the `unsigned int` job arithmetic never wraps -/
theorem threads_same {G : Type} (d : Data) (rng : Rng G) (ts F seed w : ℕ) (hF : F < 2 ^ 31)
    (hn : d.nObs < 2 ^ 63) :
    Model.IForestInt.threadTrees d rng ts F seed w = threadTrees d rng ts F seed w := by
  unfold Model.IForestInt.threadTrees threadTrees
  apply List.map_congr_left
  intro i hi
  rw [List.mem_range] at hi
  have hj : i * jobsOf F w i + jobsOf F w i ≤ F := by
    unfold jobsOf
    split_ifs with h
    · subst h; simp
    · have h1 := Nat.div_mul_le_self F w
      have h2 : i * (F / w) + F / w ≤ F / w * w := by
        have : (i + 1) * (F / w) ≤ w * (F / w) := Nat.mul_le_mul_right _ (by omega)
        linarith [Nat.mul_comm w (F / w)]
      omega
  have ho : randomOffset d.nObs seed ≤ d.nObs := Nat.mod_le _ _
  have e0 : jobsOf F w i % 2 ^ 32 = jobsOf F w i := Nat.mod_eq_of_lt (by omega)
  simp only [Model.IForestInt.workerTrees, workerTrees, e0]
  generalize jobsOf F w i = j at *
  generalize i * j = p at *
  rw [Nat.mod_eq_of_lt (show p < 2 ^ 32 by omega), Nat.mod_eq_of_lt (show p + j < 2 ^ 32 by omega),
    Nat.mod_eq_of_lt (show p + randomOffset d.nObs seed < 2 ^ 64 by omega), Nat.add_sub_cancel_left]

theorem grown_same {G : Type} (d : Data) (rng : Rng G) (ts F seed w : ℕ) (hF : F < 2 ^ 31) (hn : d.nObs < 2 ^ 63)
    (trees : List Tree) :
    Model.IForestInt.Grown d rng ts F seed w trees ↔ Grown d rng ts F seed w trees := by
  unfold Model.IForestInt.Grown Grown
  rw [threads_same d rng ts F seed w hF hn]

theorem workerLoop_add {G : Type} (d : Data) (rng : Rng G) (ts : ℕ) : ∀ (j : ℕ) (s : List ℕ) (g : G),
    ∀ t ∈ workerLoop d rng ts j s g, SizesAdd t
  | 0, _, _ => by intro t ht; simp [workerLoop] at ht
  | j + 1, s, g => by
    intro t ht
    rw [workerLoop] at ht
    rcases List.mem_cons.mp ht with h | h
    · rw [h]; exact (C81_sizes _ _ _ _ _).2.1
    · exact workerLoop_add d rng ts j _ _ t h

/-- sizes of the trees of a forest -/
theorem grown_sizes {G : Type} {d : Data} {rng : Rng G} {ts F seed w : ℕ} {trees : List Tree}
    (h : Grown d rng ts F seed w trees) : ∀ t ∈ trees, SizesAdd t ∧
      size t ≤ (F - F / w * (w - 1)) * min ts d.nObs := by
  intro t ht
  have hm := (grown_perm h).mem_iff.mp ht
  obtain ⟨l, hl, htl⟩ := List.mem_flatten.mp hm
  obtain ⟨i, _, rfl⟩ := List.mem_map.mp hl
  refine ⟨workerLoop_add d rng ts _ _ _ t htl, ?_⟩
  have hsz : size t ∈ (workerTrees d rng ts seed i (jobsOf F w i)).map size := List.mem_map_of_mem htl
  rw [C99_sample_grows] at hsz
  obtain ⟨k, hk, he⟩ := List.mem_map.mp hsz
  rw [List.mem_range] at hk
  rw [← he]
  exact Nat.mul_le_mul_right _ (by have := jobs_le F w i; omega)

/-- the two scores of a row -/
theorem scores (d : Data) (ts : ℕ) (hts : 2 ≤ ts) (trees : List Tree) (hne : trees ≠ []) (o : ℕ) :
    anomalyScore d ts trees.length trees o
        = .fin (2 ^ (-((trees.map (px d o)).sum / trees.length) / avgPath ts)) ∧
      Model.IForestInt.anomalyScore d ts trees.length trees o
        = .fin (2 ^ (-((trees.map (py d o)).sum / trees.length) / avgPath ts)) := by
  have hl : (trees.length : ℝ) ≠ 0 := by
    have := List.length_pos_iff.mpr hne; positivity
  unfold anomalyScore Model.IForestInt.anomalyScore
  simp only [px_eq, py_eq]
  constructor <;>
  · rw [XR.sum_fin, XR.fin_div _ hl, XR.fin_neg, averagePathLength_fin hts, XR.fin_div _ (avgPath_pos hts).ne']
    rfl

theorem out_of {G : Type} {d : Data} {rng : Rng G} {F ts seed w : ℕ} {out : List XR} (hw : 1 ≤ w)
    (h : IsOutput d rng F ts seed w out) : ∃ trees, Grown d rng ts F seed w trees ∧ trees.length = F ∧
      out = (List.range d.nObs).map (anomalyScore d ts F trees) := by
  obtain ⟨t, ht, hs⟩ := h
  exact ⟨t, ht, (C85_forest d rng ts F seed w hw t ht).1, C85_scores _ _ _ _ hw _ hs⟩

theorem outInt_of {G : Type} {d : Data} {rng : Rng G} {F ts seed w : ℕ} {out : List XR} (hw : 1 ≤ w)
    (hF : F < 2 ^ 31) (hn : d.nObs < 2 ^ 63) (h : Model.IForestInt.IsOutput d rng F ts seed w out) :
    ∃ trees, Grown d rng ts F seed w trees ∧ trees.length = F ∧
      out = (List.range d.nObs).map (Model.IForestInt.anomalyScore d ts F trees) := by
  obtain ⟨t, ht, hs⟩ := h
  have ht' := (grown_same d rng ts F seed w hF hn t).mp ht
  exact ⟨t, ht', (C85_forest d rng ts F seed w hw t ht').1, C85_scores _ _ _ _ hw _ hs⟩

/-- the trees of a constant attribute: all observations go right until the maximal height -/
theorem const_path {G : Type} (d : Data) (h1 : d.nNum = 1) (h0 : d.nChar = 0) {c : ℝ} (hc : ∀ o, d.num 0 o = .fin c)
    (rng : Rng G) (H : ℕ) (sample : List ℕ) (hs : 2 ≤ sample.length) (o : ℕ) : ∀ (k h : ℕ) (g : G) (len : ℕ),
    H - h = k →
      pathLength d o (growTree d rng H h sample g) len = pathLength d o (.leaf sample.length) (len + k) ∧
      Model.IForestInt.pathLength d o (growTree d rng H h sample g) len
        = Model.IForestInt.pathLength d o (.leaf sample.length) (len + k) := by
  have hattr : ∀ g, (rng.unif g 1).1 = 0 := fun g => by have := rng.unif_lt g 1 (by norm_num); omega
  have hnlt : ¬ ((.fin c : XR) < .fin c) := by rw [XR.fin_lt]; exact lt_irrefl c
  have hless : trainLess (.fin c) (.fin c) = false := by
    simp [trainLess, XR.isNan]
  intro k
  induction k with
  | zero =>
    intro h g len hk
    rw [growTree, dif_pos (by omega)]
    exact ⟨rfl, rfl⟩
  | succ k ih =>
    intro h g len hk
    rw [growTree, dif_neg (by omega)]
    simp only [h1, h0, Nat.add_zero, hattr, hc, if_pos (show (0 : ℕ) < 1 by norm_num)]
    have hf : (sample.filter fun _ => !trainLess (.fin c) (.fin c)) = sample := by simp [hless]
    rw [hf]
    obtain ⟨e1, e2⟩ := ih (h + 1) (rng.unif (rng.unif g 1).2 sample.length).2 (len + 1) (by omega)
    simp only [pathLength, Model.IForestInt.pathLength, hc, if_neg hnlt] at e1 e2 ⊢
    rw [e1, e2, show len + 1 + k = len + (k + 1) by omega]
    exact ⟨rfl, rfl⟩

theorem workerLoop_grow {G : Type} (d : Data) (rng : Rng G) (ts : ℕ) : ∀ (j : ℕ) (s : List ℕ) (g : G),
    ∀ t ∈ workerLoop d rng ts j s g, ∃ smp g', t = growTree d rng (maxTreeHeight ts) 0 smp g'
  | 0, _, _ => by intro t ht; simp [workerLoop] at ht
  | j + 1, s, g => by
    intro t ht
    rw [workerLoop] at ht
    rcases List.mem_cons.mp ht with h | h
    · exact ⟨_, _, h⟩
    · exact workerLoop_grow d rng ts j _ _ t h

/-- the last tree of the only worker holds the largest sample -/
theorem last_tree {G : Type} (d : Data) (rng : Rng G) (ts F seed : ℕ) (hF : 1 ≤ F) {trees : List Tree}
    (h : trees.Perm (threadTrees d rng ts F seed 1).flatten) :
    ∃ x ∈ trees, size x = F * min ts d.nObs ∧ ∃ smp g, x = growTree d rng (maxTreeHeight ts) 0 smp g := by
  have e : (threadTrees d rng ts F seed 1).flatten = workerTrees d rng ts seed 0 F := by
    simp [threadTrees, jobsOf]
  have hm : F * min ts d.nObs ∈ (workerTrees d rng ts seed 0 F).map size := by
    rw [C99_sample_grows]
    exact List.mem_map.mpr ⟨F - 1, List.mem_range.mpr (by omega), by rw [Nat.sub_add_cancel hF]⟩
  obtain ⟨x, hx, hz⟩ := List.mem_map.mp hm
  refine ⟨x, h.mem_iff.mpr (by rw [e]; exact hx), hz, workerLoop_grow d rng ts _ _ _ x hx⟩

end IForestInt

open IForestInt

/-- C186. The C++ code counts in `int`, `unsigned int` and `size_t`. As long as the largest number of observations a
worker accumulates, `(forestSize - forestSize / workers * (workers - 1)) * min(treeSize, nObs)`, is below `2 ^ 31` (and
`forestSize` is an `int`), no count wraps around: the possible outputs are those of the model with unbounded integers. -/
theorem C186_no_overflow {G : Type} (d : Data) (rng : Rng G) (forestSize treeSize seed workers : ℕ)
    (hw : 1 ≤ workers) (hF : forestSize < 2 ^ 31) (hn : d.nObs < 2 ^ 63)
    (h : (forestSize - forestSize / workers * (workers - 1)) * min treeSize d.nObs < 2 ^ 31) (out : List XR) :
    Model.IForestInt.IsOutput d rng forestSize treeSize seed workers out ↔
      IsOutput d rng forestSize treeSize seed workers out := by
  have key : ∀ trees, Grown d rng treeSize forestSize seed workers trees →
      Model.IForestInt.anomalyScore d treeSize forestSize trees = anomalyScore d treeSize forestSize trees := by
    intro trees ht
    funext o
    unfold Model.IForestInt.anomalyScore anomalyScore
    have : (trees.map fun t => Model.IForestInt.pathLength d o t 0) = trees.map fun t => pathLength d o t 0 := by
      apply List.map_congr_left
      intro t htt
      obtain ⟨h1, h2⟩ := grown_sizes ht t htt
      rw [px_eq, py_eq, py_same d o t h1 (by omega)]
    rw [this]
  constructor
  · rintro ⟨t, ht, hs⟩
    have ht' := (grown_same d rng treeSize forestSize seed workers hF hn t).mp ht
    exact ⟨t, ht', by rw [← key t ht']; exact hs⟩
  · rintro ⟨t, ht, hs⟩
    exact ⟨t, (grown_same d rng treeSize forestSize seed workers hF hn t).mpr ht, by rw [key t ht]; exact hs⟩

/-- the default sizes on a machine with four cores -/
example : (1000 - 1000 / 4 * (4 - 1)) * min 256 1000000 < 2 ^ 31 := by norm_num

/-- C186. When counts do wrap around, rows can only look more anomalous: every score is at least the score computed with
unbounded integers. -/
theorem C186_direction {G : Type} (d : Data) (rng : Rng G) (forestSize treeSize seed workers : ℕ)
    (hw : 1 ≤ workers) (hF0 : 1 ≤ forestSize) (hF : forestSize < 2 ^ 31) (ht : 2 ≤ treeSize) (hn : d.nObs < 2 ^ 63)
    (out exact : List XR) (h : Model.IForestInt.IsOutput d rng forestSize treeSize seed workers out)
    (he : IsOutput d rng forestSize treeSize seed workers exact) :
    out.length = exact.length ∧ ∀ o < d.nObs, ∃ s e : ℝ, out[o]? = some (.fin s) ∧ exact[o]? = some (.fin e) ∧
      e ≤ s ∧ s ≤ 1 := by
  obtain ⟨t, hg, hl, rfl⟩ := outInt_of hw hF hn h
  obtain ⟨t', hg', hl', rfl⟩ := out_of hw he
  refine ⟨by simp, fun o ho => ?_⟩
  have hne : t ≠ [] := by intro h0; rw [h0] at hl; simp at hl; omega
  have hsc := scores d treeSize ht t hne o
  rw [hl] at hsc
  have hpp : anomalyScore d treeSize forestSize t' o = anomalyScore d treeSize forestSize t o :=
    C85_order d rng treeSize forestSize seed workers t' t hg' hg o
  refine ⟨2 ^ (-((t.map (py d o)).sum / forestSize) / avgPath treeSize),
    2 ^ (-((t.map (px d o)).sum / forestSize) / avgPath treeSize), ?_, ?_, ?_, ?_⟩
  · rw [List.getElem?_map, List.getElem?_range ho, Option.map_some, hsc.2]
  · rw [List.getElem?_map, List.getElem?_range ho, Option.map_some, hpp, hsc.1]
  · apply Real.rpow_le_rpow_of_exponent_le (by norm_num)
    have hle : (t.map (py d o)).sum ≤ (t.map (px d o)).sum := List.sum_le_sum fun x _ => py_le d o x
    apply div_le_div_of_nonneg_right _ (avgPath_pos ht).le
    apply neg_le_neg
    exact div_le_div_of_nonneg_right hle (by positivity)
  · apply Real.rpow_le_one_of_one_le_of_nonpos (by norm_num)
    rw [neg_div]
    have h0 : 0 ≤ (t.map (py d o)).sum := by
      apply List.sum_nonneg
      intro x hx
      obtain ⟨y, _, rfl⟩ := List.mem_map.mp hx
      exact py_nonneg d o y
    have := div_nonneg (div_nonneg h0 (by positivity : (0 : ℝ) ≤ forestSize)) (avgPath_pos ht).le
    linarith

/-- C186. They do wrap around: if all rows are equal in the only (numeric) column and one worker grows the forest, every
score is wrong as soon as the worker's last tree holds `2 ^ 31` observations, `2 ^ 31 ≤ forestSize * min(treeSize, nObs)`,
and right below that. -/
theorem C186_wraps {G : Type} (d : Data) (h1 : d.nNum = 1) (h0 : d.nChar = 0) (c : ℝ) (hc : ∀ o, d.num 0 o = .fin c)
    (rng : Rng G) (forestSize treeSize seed : ℕ) (hF0 : 1 ≤ forestSize) (hF : forestSize < 2 ^ 31) (ht : 2 ≤ treeSize)
    (hn : d.nObs < 2 ^ 63) (out exact : List XR)
    (h : Model.IForestInt.IsOutput d rng forestSize treeSize seed 1 out)
    (he : IsOutput d rng forestSize treeSize seed 1 exact) :
    ∀ o < d.nObs, ∃ s e : ℝ, out[o]? = some (.fin s) ∧ exact[o]? = some (.fin e) ∧
      (e < s ↔ 2 ^ 31 ≤ forestSize * min treeSize d.nObs) := by
  intro o ho
  rcases lt_or_ge (forestSize * min treeSize d.nObs) (2 ^ 31) with hlt | hge
  · have hsame := (C186_no_overflow d rng forestSize treeSize seed 1 le_rfl hF hn (by simpa using hlt) out).mp h
    obtain ⟨s, e, hs, he', _, _⟩ := (C186_direction d rng forestSize treeSize seed 1 le_rfl hF0 hF ht hn out exact h he).2 o ho
    have heq := (C85_deterministic d rng forestSize treeSize seed 1 le_rfl out exact hsame he).1
    rw [heq, he'] at hs
    have : e = s := by simpa using hs
    exact ⟨s, e, by rw [heq, he', this], he', by constructor <;> intro h' <;> [linarith; omega]⟩
  · obtain ⟨t, hg, hl, rfl⟩ := outInt_of le_rfl hF hn h
    obtain ⟨t', hg', hl', rfl⟩ := out_of le_rfl he
    have hne : t ≠ [] := by intro h0; rw [h0] at hl; simp at hl; omega
    have hsc := scores d treeSize ht t hne o
    rw [hl] at hsc
    have hpp : anomalyScore d treeSize forestSize t' o = anomalyScore d treeSize forestSize t o :=
      C85_order d rng treeSize forestSize seed 1 t' t hg' hg o
    refine ⟨2 ^ (-((t.map (py d o)).sum / forestSize) / avgPath treeSize),
      2 ^ (-((t.map (px d o)).sum / forestSize) / avgPath treeSize), ?_, ?_, ?_⟩
    · rw [List.getElem?_map, List.getElem?_range ho, Option.map_some, hsc.2]
    · rw [List.getElem?_map, List.getElem?_range ho, Option.map_some, hpp, hsc.1]
    · refine ⟨fun _ => hge, fun _ => ?_⟩
      apply Real.rpow_lt_rpow_of_exponent_lt (by norm_num)
      have hlt : (t.map (py d o)).sum < (t.map (px d o)).sum := by
        apply List.sum_lt_sum _ _ (fun x _ => py_le d o x)
        -- the last tree of the worker
        obtain ⟨x, hx, hz, smp, g, rfl⟩ := last_tree d rng treeSize forestSize seed hF0 (grown_perm hg)
        refine ⟨_, hx, ?_⟩
        rw [(C81_sizes _ _ _ _ _).1] at hz
        obtain ⟨e1, e2⟩ := const_path d h1 h0 hc rng (maxTreeHeight treeSize) smp (by omega) o _ 0 g 0 rfl
        obtain ⟨a, b, ea, eb, _, _, hab⟩ := leaf_value (0 + (maxTreeHeight treeSize - 0)) d o smp.length
        rw [py, px, e1, e2, ea, eb]
        exact hab (by omega)
      apply div_lt_div_of_pos_right _ (avgPath_pos ht)
      apply neg_lt_neg
      exact div_lt_div_of_pos_right hlt (by positivity)

/-- thirty million equal rows -/
def equalRows : Data where
  nNum := 1
  nChar := 0
  nObs := 30000000
  num _ _ := .fin 1
  width := 1
  bytes := []

/-- a hundred trees of thirty million equal rows on one worker: both programs have an output, and the counts do wrap -/
theorem IForestInt.equalRows_outputs : (∃ out, Model.IForestInt.IsOutput equalRows firstRng 100 30000000 7 1 out) ∧
    (∃ exact, IsOutput equalRows firstRng 100 30000000 7 1 exact) ∧
    2 ^ 31 ≤ 100 * min 30000000 equalRows.nObs := by
  obtain ⟨t, ht⟩ := grown_exists equalRows firstRng 30000000 100 7 1
  refine ⟨?_, ?_, by norm_num [equalRows]⟩
  · obtain ⟨fin, o, hf, hr⟩ := scoreRun_exists (Model.IForestInt.anomalyScore equalRows 30000000 100 t)
      ((List.range 1).map (scoreJobs equalRows.nObs 1)) [] (List.replicate equalRows.nObs 0) (by simp)
    exact ⟨o, t, (grown_same equalRows firstRng 30000000 100 7 1 (by norm_num) (by norm_num [equalRows]) t).mpr ht,
      fin, hf, hr⟩
  · obtain ⟨fin, o, hf, hr⟩ := scoreRun_exists (anomalyScore equalRows 30000000 100 t)
      ((List.range 1).map (scoreJobs equalRows.nObs 1)) [] (List.replicate equalRows.nObs 0) (by simp)
    exact ⟨o, t, ht, fin, hf, hr⟩

/-! ### Concrete cases of the theorems above -/

/-- A hundred trees of thirty million equal rows: the counts wrap, and the scores are too high. -/
example : ∃ out exact, Model.IForestInt.IsOutput equalRows firstRng 100 30000000 7 1 out ∧
    IsOutput equalRows firstRng 100 30000000 7 1 exact ∧
    ∃ s e : ℝ, out[5]? = some (.fin s) ∧ exact[5]? = some (.fin e) ∧ e < s := by
  obtain ⟨⟨out, h⟩, ⟨exact_, he⟩, hb⟩ := IForestInt.equalRows_outputs
  obtain ⟨s, e, h1, h2, h3⟩ := C186_wraps equalRows rfl rfl 1 (fun _ => rfl) firstRng 100 30000000 7 (by norm_num)
    (by norm_num) (by norm_num) (by norm_num [equalRows]) out exact_ h he 5 (by norm_num [equalRows])
  exact ⟨out, exact_, h, he, s, e, h1, h2, h3.2 hb⟩
example : ∃ out exact : List XR, out.length = exact.length ∧ Model.IForestInt.IsOutput equalRows firstRng 100 30000000 7 1 out := by
  obtain ⟨⟨out, h⟩, ⟨exact_, he⟩, -⟩ := IForestInt.equalRows_outputs
  exact ⟨out, exact_, (C186_direction equalRows firstRng 100 30000000 7 1 (by norm_num) (by norm_num)
    (by norm_num) (by norm_num) (by norm_num [equalRows]) out exact_ h he).1, h⟩
/-- The default forest of a thousand trees of 256 on four workers. -/
example (out : List XR) := C186_no_overflow equalRows firstRng 1000 256 7 4 (by norm_num) (by norm_num)
  (by norm_num [equalRows]) (by norm_num [equalRows]) out
example : ∃ out, IsOutput equalRows firstRng 100 30000000 7 1 out ∧ out.length = 30000000 :=
  let ⟨out, h⟩ := IForestInt.equalRows_outputs.2.1
  ⟨out, h, (C85_deterministic equalRows firstRng 100 30000000 7 1 (by norm_num) out out h h).2⟩

end
end Frds.Props

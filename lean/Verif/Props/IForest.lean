import Verif.Spec.IForest
import Mathlib.Tactic.Linarith
import Mathlib.Analysis.SpecialFunctions.Pow.Real
import Mathlib.Analysis.Complex.ExponentialBounds

/-! Properties C81-C84, C98: isolation trees and scores. -/
set_option linter.unusedSimpArgs false

namespace Frds.Props
noncomputable section
open Frds Frds.Model.IForest Frds.Spec.IForest Classical

theorem trainLess_iff (v x : XR) : trainLess v x = true ↔ trainLeft v x := by
  unfold trainLess trainLeft
  cases v <;> cases x <;> simp [XR.isNan]

theorem strLess_iff (x v : List ℕ) : strLess x v = true ↔ charLeft v x := by
  unfold strLess charLeft
  rcases lt_trichotomy x.length v.length with h | h | h
  · simp [h]
  · simp [h]
  · simp only [if_neg h.not_gt, if_pos h]
    simp only [Bool.false_eq_true, false_iff, not_or]
    exact ⟨h.not_gt, fun hh => h.ne' hh.1⟩

theorem filter_split (l : List ℕ) (p : ℕ → Bool) :
    l.length = (l.filter p).length + (l.filter fun i => !p i).length := by
  induction l with
  | nil => rfl
  | cons x l ih => cases h : p x <;> simp [h, ih] <;> omega

/-- what is known about a tree grown from a sample -/
structure TreeInv (d : Data) (maxH h : ℕ) (sample : List ℕ) (t : Tree) : Prop where
  size_eq : size t = sample.length
  add : SizesAdd t
  high : height t ≤ maxH - h
  leaf : ∀ p n, leafAt t p = some n →
    n = (sample.filter fun o => decide (route d trainLeft o t = p)).length ∧ (1 < n → p.length = maxH - h)
  sib : SiblingsAgree t

theorem route_leaf (d : Data) (rule : XR → XR → Prop) (o n : ℕ) : route d rule o (.leaf n) = [] := rfl

theorem growTree_root {G : Type} (d : Data) (rng : Rng G) (maxH h : ℕ) (s : List ℕ) (g : G) (a : ℕ)
    (ha : rootAttr (growTree d rng maxH h s g) = some a) : a = (rng.unif g (d.nNum + d.nChar)).1 := by
  unfold growTree at ha
  by_cases hc : s.length ≤ 1 ∨ maxH ≤ h
  · rw [dif_pos hc] at ha; simp [rootAttr] at ha
  · rw [dif_neg hc] at ha
    simp only at ha
    split at ha
    · simpa [rootAttr, eq_comm] using ha
    · simpa [rootAttr, eq_comm] using ha

theorem filter_filter_eq (l : List ℕ) (p q r : ℕ → Bool) (h : ∀ o, r o = true ↔ (p o = true ∧ q o = true)) :
    (l.filter r).length = ((l.filter p).filter q).length := by
  rw [List.filter_filter]
  congr 1
  apply List.filter_congr
  intro o _
  rw [Bool.eq_iff_iff, h o]; simp [and_comm]

theorem tree_inv {G : Type} (d : Data) (rng : Rng G) (maxH : ℕ) : ∀ (k h : ℕ) (s : List ℕ) (g : G),
    maxH - h = k → TreeInv d maxH h s (growTree d rng maxH h s g) := by
  intro k
  induction k with
  | zero =>
    intro h s g hk
    have hc : s.length ≤ 1 ∨ maxH ≤ h := Or.inr (by omega)
    unfold growTree
    rw [dif_pos hc]
    refine ⟨rfl, trivial, by simp [height], ?_, trivial⟩
    intro p n hp
    cases p with
    | nil =>
      simp only [leafAt, Option.some.injEq] at hp
      subst hp
      exact ⟨by simp [route_leaf], fun _ => by simp; omega⟩
    | cons b p => simp [leafAt] at hp
  | succ k ih =>
    intro h s g hk
    unfold growTree
    by_cases hc : s.length ≤ 1 ∨ maxH ≤ h
    · rw [dif_pos hc]
      refine ⟨rfl, trivial, by simp [height], ?_, trivial⟩
      intro p n hp
      cases p with
      | nil =>
        simp only [leafAt, Option.some.injEq] at hp
        subst hp
        refine ⟨by simp [route_leaf], fun hn => ?_⟩
        rcases hc with hc | hc
        · omega
        · simp; omega
      | cons b p => simp [leafAt] at hp
    · rw [dif_neg hc]
      simp only
      have hk' : maxH - (h + 1) = k := by omega
      split
      · -- numeric split
        set a := rng.unif g (d.nNum + d.nChar)
        set pk := rng.unif a.2 s.length
        set v := d.num a.1 (s.getD pk.1 0)
        have il := ih (h + 1) (s.filter fun i => trainLess v (d.num a.1 i)) pk.2 hk'
        have ir := ih (h + 1) (s.filter fun i => !trainLess v (d.num a.1 i)) pk.2 hk'
        refine ⟨rfl, ⟨?_, il.add, ir.add⟩, ?_, ?_, ⟨?_, il.sib, ir.sib⟩⟩
        · rw [il.size_eq, ir.size_eq]; exact filter_split _ _
        · simp only [height]
          have := il.high; have := ir.high
          omega
        · intro p n hp
          cases p with
          | nil => simp [leafAt] at hp
          | cons b p =>
            simp only [leafAt] at hp
            cases b with
            | true =>
              simp only [if_true] at hp
              obtain ⟨e1, e2⟩ := il.leaf p n hp
              refine ⟨?_, fun hn => by have := e2 hn; simp; omega⟩
              rw [e1]
              symm
              apply filter_filter_eq
              intro o
              simp only [route, decide_eq_true_eq, trainLess_iff]
              by_cases ho : trainLeft v (d.num a.1 o) <;> simp [ho]
            | false =>
              simp only [Bool.false_eq_true, if_false] at hp
              obtain ⟨e1, e2⟩ := ir.leaf p n hp
              refine ⟨?_, fun hn => by have := e2 hn; simp; omega⟩
              rw [e1]
              symm
              apply filter_filter_eq
              intro o
              simp only [route, decide_eq_true_eq, Bool.not_eq_true', ← Bool.not_eq_true, trainLess_iff]
              by_cases ho : trainLeft v (d.num a.1 o) <;> simp [ho]
        · intro x y hx hy
          rw [growTree_root _ _ _ _ _ _ _ hx, growTree_root _ _ _ _ _ _ _ hy]
      · -- character split
        set a := rng.unif g (d.nNum + d.nChar)
        set pk := rng.unif a.2 s.length
        set v := d.cstr (a.1 - d.nNum) (s.getD pk.1 0)
        have il := ih (h + 1) (s.filter fun i => strLess (d.cstr (a.1 - d.nNum) i) v) pk.2 hk'
        have ir := ih (h + 1) (s.filter fun i => !strLess (d.cstr (a.1 - d.nNum) i) v) pk.2 hk'
        refine ⟨rfl, ⟨?_, il.add, ir.add⟩, ?_, ?_, ⟨?_, il.sib, ir.sib⟩⟩
        · rw [il.size_eq, ir.size_eq]; exact filter_split _ _
        · simp only [height]
          have := il.high; have := ir.high
          omega
        · intro p n hp
          cases p with
          | nil => simp [leafAt] at hp
          | cons b p =>
            simp only [leafAt] at hp
            cases b with
            | true =>
              simp only [if_true] at hp
              obtain ⟨e1, e2⟩ := il.leaf p n hp
              refine ⟨?_, fun hn => by have := e2 hn; simp; omega⟩
              rw [e1]
              symm
              apply filter_filter_eq
              intro o
              simp only [route, decide_eq_true_eq, strLess_iff]
              by_cases ho : charLeft v (d.cstr (a.1 - d.nNum) o) <;> simp [ho]
            | false =>
              simp only [Bool.false_eq_true, if_false] at hp
              obtain ⟨e1, e2⟩ := ir.leaf p n hp
              refine ⟨?_, fun hn => by have := e2 hn; simp; omega⟩
              rw [e1]
              symm
              apply filter_filter_eq
              intro o
              simp only [route, decide_eq_true_eq, Bool.not_eq_true', ← Bool.not_eq_true, strLess_iff]
              by_cases ho : charLeft v (d.cstr (a.1 - d.nNum) o) <;> simp [ho]
        · intro x y hx hy
          rw [growTree_root _ _ _ _ _ _ _ hx, growTree_root _ _ _ _ _ _ _ hy]

theorem leafAt_route (d : Data) (rule : XR → XR → Prop) (o : ℕ) (t : Tree) :
    ∃ n, leafAt t (route d rule o t) = some n := by
  induction t with
  | leaf n => exact ⟨n, rfl⟩
  | numNode a v n l r il ir =>
    by_cases h : rule v (d.num a o)
    · simpa [route, h, leafAt] using il
    · simpa [route, h, leafAt] using ir
  | chrNode a v n l r il ir =>
    by_cases h : charLeft v (d.cstr (a - d.nNum) o)
    · simpa [route, h, leafAt] using il
    · simpa [route, h, leafAt] using ir

theorem leaf_depth {t : Tree} : ∀ {p n}, leafAt t p = some n → p.length ≤ height t := by
  induction t with
  | leaf n => intro p m h; cases p <;> simp [leafAt, height] at h ⊢
  | numNode a v n l r il ir =>
    intro p m h
    cases p with
    | nil => simp [leafAt] at h
    | cons b p =>
      cases b <;> simp only [leafAt, if_true, Bool.false_eq_true, if_false] at h
      · have := ir h; simp [height]; omega
      · have := il h; simp [height]; omega
  | chrNode a v n l r il ir =>
    intro p m h
    cases p with
    | nil => simp [leafAt] at h
    | cons b p =>
      cases b <;> simp only [leafAt, if_true, Bool.false_eq_true, if_false] at h
      · have := ir h; simp [height]; omega
      · have := il h; simp [height]; omega

/-! ### C81 -/

/-- C81. In a tree grown from any sample with any random draws: every leaf stores the number of sampled
observations whose training route ends there; leaves are at most `maxHeight` deep, and a leaf with two or
more observations is exactly that deep. -/
theorem C81_leaves {G : Type} (d : Data) (rng : Rng G) (maxHeight : ℕ) (sample : List ℕ) (g : G)
    (p : List Bool) (n : ℕ) (h : leafAt (growTree d rng maxHeight 0 sample g) p = some n) :
    n = (sample.filter fun o =>
      decide (route d trainLeft o (growTree d rng maxHeight 0 sample g) = p)).length ∧
    p.length ≤ maxHeight ∧ (1 < n → p.length = maxHeight) := by
  have inv := tree_inv d rng maxHeight maxHeight 0 sample g (by simp)
  obtain ⟨h1, h2⟩ := inv.leaf p n h
  exact ⟨h1, (leaf_depth h).trans (by simpa using inv.high), by simpa using h2⟩

/-- C81. Every observation, sampled or not, has exactly one training route and it ends in a leaf. -/
theorem C81_route {G : Type} (d : Data) (rng : Rng G) (maxHeight : ℕ) (sample : List ℕ) (g : G) (o : ℕ) :
    ∃ n, leafAt (growTree d rng maxHeight 0 sample g)
      (route d trainLeft o (growTree d rng maxHeight 0 sample g)) = some n :=
  leafAt_route d trainLeft o _

/-- C81. The root stores the sample size, sizes of children add up at every node, and the height is bounded
by the maximal height. -/
theorem C81_sizes {G : Type} (d : Data) (rng : Rng G) (maxHeight : ℕ) (sample : List ℕ) (g : G) :
    size (growTree d rng maxHeight 0 sample g) = sample.length ∧
    SizesAdd (growTree d rng maxHeight 0 sample g) ∧
    height (growTree d rng maxHeight 0 sample g) ≤ maxHeight := by
  have inv := tree_inv d rng maxHeight maxHeight 0 sample g (by simp)
  exact ⟨inv.size_eq, inv.add, by simpa using inv.high⟩

/-- C81. The maximal height is the smallest `k` with `treeSize ≤ 2^k`. -/
theorem C81_max_height (treeSize k : ℕ) : maxTreeHeight treeSize ≤ k ↔ treeSize ≤ 2 ^ k := by
  unfold maxTreeHeight
  rw [show ((2 : ℝ)) = ((2 : ℕ) : ℝ) from by norm_num, Real.natCeil_logb_natCast]
  exact Nat.clog_le_iff_le_pow (by norm_num)

/-! ### C98 -/

/-- C98. Because both children receive a copy of the same generator, sibling nodes that split always split on
the same attribute. -/
theorem C98_siblings {G : Type} (d : Data) (rng : Rng G) (maxHeight : ℕ) (sample : List ℕ) (g : G) :
    SiblingsAgree (growTree d rng maxHeight 0 sample g) :=
  (tree_inv d rng maxHeight maxHeight 0 sample g (by simp)).sib

/-! ### C82, C83 -/

theorem pathLength_route (d : Data) (o : ℕ) (t : Tree) : ∀ k n,
    leafAt t (route d scoreLeft o t) = some n →
    pathLength d o t k = if n ≤ 1 then .fin ((k + (route d scoreLeft o t).length : ℕ) : ℝ)
      else .fin ((k + (route d scoreLeft o t).length : ℕ) : ℝ) + averagePathLength n := by
  induction t with
  | leaf m =>
    intro k n h
    simp only [route, leafAt, Option.some.injEq] at h
    subst h
    simp [pathLength, route]
  | numNode a v m l r il ir =>
    intro k n h
    by_cases hs : d.num a o < v
    · have hs' : scoreLeft v (d.num a o) := hs
      simp only [route, if_pos hs', leafAt, if_true] at h ⊢
      simp only [pathLength, if_pos hs, il (k + 1) n h, List.length_cons]
      rw [show k + 1 + (route d scoreLeft o l).length = k + ((route d scoreLeft o l).length + 1) by omega]
    · have hs' : ¬ scoreLeft v (d.num a o) := hs
      simp only [route, if_neg hs', leafAt, Bool.false_eq_true, if_false] at h ⊢
      simp only [pathLength, if_neg hs, ir (k + 1) n h, List.length_cons]
      rw [show k + 1 + (route d scoreLeft o r).length = k + ((route d scoreLeft o r).length + 1) by omega]
  | chrNode a v m l r il ir =>
    intro k n h
    by_cases hs : charLeft v (d.cstr (a - d.nNum) o)
    · simp only [route, if_pos hs, leafAt, if_true] at h ⊢
      simp only [pathLength, if_pos ((strLess_iff _ _).mpr hs), il (k + 1) n h, List.length_cons]
      rw [show k + 1 + (route d scoreLeft o l).length = k + ((route d scoreLeft o l).length + 1) by omega]
    · simp only [route, if_neg hs, leafAt, Bool.false_eq_true, if_false] at h ⊢
      simp only [pathLength, if_neg (fun hh => hs ((strLess_iff _ _).mp hh)), ir (k + 1) n h, List.length_cons]
      rw [show k + 1 + (route d scoreLeft o r).length = k + ((route d scoreLeft o r).length + 1) by omega]

theorem averagePathLength_fin {n : ℕ} (h : 2 ≤ n) : averagePathLength n = .fin (avgPath n) := by
  have h2 : (2 : ℝ) ≤ n := by exact_mod_cast h
  unfold averagePathLength avgPath eulerGamma
  rw [XR.one_def, XR.fin_sub, XR.fin_log (by linarith), XR.ofNat_def 2, XR.fin_add, XR.fin_mul, XR.fin_mul,
    XR.fin_div _ (by linarith), XR.fin_sub]

theorem avgPath_pos {n : ℕ} (h : 2 ≤ n) : 0 < avgPath n := by
  have h2 : (2 : ℝ) ≤ n := by exact_mod_cast h
  unfold avgPath
  rcases Nat.lt_or_ge n 3 with h3 | h3
  · have : n = 2 := by omega
    subst this
    norm_num
  · have h3' : (3 : ℝ) ≤ n := by exact_mod_cast h3
    have hl : Real.log 2 ≤ Real.log (n - 1) := Real.log_le_log (by norm_num) (by linarith)
    have hl2 : (0.6931471803 : ℝ) < Real.log 2 := Real.log_two_gt_d9
    have hd : 2 * ((n : ℝ) - 1) / n < 2 := by
      rw [div_lt_iff₀ (by linarith)]; linarith
    norm_num at hl2 ⊢
    linarith

/-- the value contributed by one tree to the average path length of an observation -/
theorem pathLength_fin (d : Data) (o : ℕ) (t : Tree) (n : ℕ) (h : leafAt t (route d scoreLeft o t) = some n) :
    pathLength d o t 0 = .fin (pathValue (route d scoreLeft o t).length n) := by
  rw [pathLength_route d o t 0 n h, Nat.zero_add]
  unfold pathValue
  by_cases hn : n ≤ 1
  · rw [if_pos hn, if_pos hn, add_zero]
  · rw [if_neg hn, if_neg hn, averagePathLength_fin (by omega), XR.fin_add]

theorem routes_agree (d : Data) (o : ℕ) (t : Tree) :
    route d scoreLeft o t = route d trainLeft o t ↔ ∀ a ∈ metAttrs d o t, d.num a o ≠ .nan := by
  induction t with
  | leaf m => simp [route, metAttrs]
  | numNode a v m l r il ir =>
    by_cases hnan : d.num a o = .nan
    · have h1 : trainLeft v (d.num a o) := Or.inl hnan
      have h2 : ¬ scoreLeft v (d.num a o) := by rw [hnan]; unfold scoreLeft; simp
      simp only [route, if_pos h1, if_neg h2, metAttrs]
      simp [hnan]
    · by_cases hs : scoreLeft v (d.num a o)
      · have h1 : trainLeft v (d.num a o) := Or.inr ⟨by rintro rfl; unfold scoreLeft at hs; simp at hs, hs⟩
        simp only [route, if_pos h1, if_pos hs, metAttrs, List.cons.injEq, true_and, il, List.mem_cons,
          forall_eq_or_imp]
        tauto
      · have h1 : ¬ trainLeft v (d.num a o) := by
          rintro (h | ⟨_, h⟩)
          · exact hnan h
          · exact hs h
        simp only [route, if_neg h1, if_neg hs, metAttrs, List.cons.injEq, true_and, ir, List.mem_cons,
          forall_eq_or_imp]
        tauto
  | chrNode a v m l r il ir =>
    by_cases hs : charLeft v (d.cstr (a - d.nNum) o)
    · simp only [route, if_pos hs, metAttrs, List.cons.injEq, true_and, il]
    · simp only [route, if_neg hs, metAttrs, List.cons.injEq, true_and, ir]

/-- C82. An observation without missing values in the numeric attributes met on its training route is scored
through the leaf it was assigned to: its path length is the depth of that leaf plus the correction for the
number of sampled observations in the same leaf. -/
theorem C82_consistent {G : Type} (d : Data) (rng : Rng G) (maxHeight : ℕ) (sample : List ℕ) (g : G) (o : ℕ)
    (h : ∀ a ∈ metAttrs d o (growTree d rng maxHeight 0 sample g), d.num a o ≠ .nan) :
    pathLength d o (growTree d rng maxHeight 0 sample g) 0 = .fin (pathValue
      (route d trainLeft o (growTree d rng maxHeight 0 sample g)).length
      (sample.filter fun o' => decide (route d trainLeft o' (growTree d rng maxHeight 0 sample g)
        = route d trainLeft o (growTree d rng maxHeight 0 sample g))).length) := by
  have e := (routes_agree d o _).mpr h
  obtain ⟨n, hn⟩ := leafAt_route d scoreLeft o (growTree d rng maxHeight 0 sample g)
  rw [pathLength_fin d o _ n hn]
  rw [e] at hn ⊢
  rw [(C81_leaves d rng maxHeight sample g _ n hn).1]

/-- C83. Training and scoring follow the same route exactly if no numeric attribute met on the training route is
missing. -/
theorem C83_iff (d : Data) (o : ℕ) (t : Tree) :
    route d scoreLeft o t = route d trainLeft o t ↔ ∀ a ∈ metAttrs d o t, d.num a o ≠ .nan :=
  routes_agree d o t

/-- C83. If the single attribute is missing for all observations, every observation is scored through an empty
leaf at depth one, while training assigns all of them to one leaf at the maximal depth. -/
theorem C83_all_missing {G : Type} (d : Data) (h1 : d.nNum = 1) (h0 : d.nChar = 0) (hn : ∀ o, d.num 0 o = .nan)
    (rng : Rng G) (maxHeight : ℕ) (hh : 1 ≤ maxHeight) (sample : List ℕ) (hs : 2 ≤ sample.length) (g : G) (o : ℕ) :
    pathLength d o (growTree d rng maxHeight 0 sample g) 0 = 1 ∧
    leafAt (growTree d rng maxHeight 0 sample g) [false] = some 0 ∧
    route d trainLeft o (growTree d rng maxHeight 0 sample g) = List.replicate maxHeight true ∧
    leafAt (growTree d rng maxHeight 0 sample g) (List.replicate maxHeight true) = some sample.length := by
  have hattr : ∀ g, (rng.unif g 1).1 = 0 := fun g => by have := rng.unif_lt g 1 (by norm_num); omega
  have step : ∀ h g, h < maxHeight → growTree d rng maxHeight h sample g
      = .numNode 0 .nan sample.length
        (growTree d rng maxHeight (h + 1) sample (rng.unif (rng.unif g 1).2 sample.length).2) (.leaf 0) := by
    intro h g hlt
    conv_lhs => rw [growTree]
    rw [dif_neg (by omega)]
    simp only [h1, h0, Nat.add_zero, hattr, hn]
    rw [if_pos (by norm_num)]
    have ht : ∀ l : List ℕ, (l.filter fun _ => trainLess .nan .nan) = l := by
      intro l; simp [trainLess, XR.isNan]
    have hf : ∀ l : List ℕ, (l.filter fun _ => !trainLess .nan .nan) = [] := by
      intro l; simp [trainLess, XR.isNan]
    rw [ht, hf]
    congr 1
    rw [growTree, dif_pos (by simp)]; simp
  have deep : ∀ k h g, maxHeight - h = k →
      route d trainLeft o (growTree d rng maxHeight h sample g) = List.replicate k true ∧
      leafAt (growTree d rng maxHeight h sample g) (List.replicate k true) = some sample.length := by
    intro k
    induction k with
    | zero =>
      intro h g hk
      rw [growTree, dif_pos (by omega)]
      exact ⟨rfl, rfl⟩
    | succ k ih =>
      intro h g hk
      rw [step h g (by omega)]
      obtain ⟨e1, e2⟩ := ih (h + 1) (rng.unif (rng.unif g 1).2 sample.length).2 (by omega)
      have hl : trainLeft .nan (d.num 0 o) := Or.inl (hn o)
      refine ⟨?_, ?_⟩
      · simp only [route, if_pos hl, e1, List.replicate_succ]
      · simp only [List.replicate_succ, leafAt, if_true, e2]
  refine ⟨?_, ?_, deep maxHeight 0 g rfl⟩
  · rw [step 0 g (by omega)]
    simp [pathLength, hn, XR.one_def]
  · rw [step 0 g (by omega)]
    simp [leafAt]

/-! ### C84 -/

theorem pathLength_nonneg (d : Data) (o : ℕ) (t : Tree) : ∃ x : ℝ, 0 ≤ x ∧ pathLength d o t 0 = .fin x := by
  obtain ⟨n, hn⟩ := leafAt_route d scoreLeft o t
  refine ⟨_, ?_, pathLength_fin d o t n hn⟩
  unfold pathValue
  split_ifs with h
  · positivity
  · have := avgPath_pos (n := n) (by omega); positivity

/-- average over the trees of the path length of an observation -/
def avgDepth (d : Data) (o : ℕ) (trees : List Tree) : ℝ :=
  (trees.map fun t => pathValue (route d scoreLeft o t).length
    ((leafAt t (route d scoreLeft o t)).getD 0)).sum / trees.length

theorem pathLength_eq (d : Data) (o : ℕ) (t : Tree) : pathLength d o t 0
    = .fin (pathValue (route d scoreLeft o t).length ((leafAt t (route d scoreLeft o t)).getD 0)) := by
  obtain ⟨n, hn⟩ := leafAt_route d scoreLeft o t
  rw [pathLength_fin d o t n hn, hn]; rfl

theorem avgDepth_nonneg (d : Data) (o : ℕ) (trees : List Tree) : 0 ≤ avgDepth d o trees := by
  unfold avgDepth
  apply div_nonneg _ (by positivity)
  apply List.sum_nonneg
  intro x hx
  obtain ⟨t, _, rfl⟩ := List.mem_map.mp hx
  obtain ⟨y, hy, he⟩ := pathLength_nonneg d o t
  rw [pathLength_eq] at he
  rw [XR.fin_inj.mp he]; exact hy

theorem score_fin (d : Data) (treeSize : ℕ) (h : 2 ≤ treeSize) (trees : List Tree) (hne : trees ≠ []) (o : ℕ) :
    anomalyScore d treeSize trees.length trees o = .fin (2 ^ (-avgDepth d o trees / avgPath treeSize)) := by
  have hl : (trees.length : ℝ) ≠ 0 := by
    have := List.length_pos_iff.mpr hne; positivity
  unfold anomalyScore
  simp only [pathLength_eq]
  rw [XR.sum_fin, XR.fin_div _ hl, XR.fin_neg, averagePathLength_fin h,
    XR.fin_div _ (avgPath_pos h).ne']
  rfl

/-- C84. For tree sizes of at least two and a non-empty forest the score is `2^(-E[path]/c(treeSize))` with a
positive constant, and it lies in `(0, 1]`. -/
theorem C84_range (d : Data) (treeSize : ℕ) (h : 2 ≤ treeSize) (trees : List Tree) (hne : trees ≠ []) (o : ℕ) :
    0 < avgPath treeSize ∧ 0 ≤ avgDepth d o trees ∧
    ∃ s : ℝ, anomalyScore d treeSize trees.length trees o = .fin s ∧
      s = 2 ^ (-avgDepth d o trees / avgPath treeSize) ∧ 0 < s ∧ s ≤ 1 := by
  refine ⟨avgPath_pos h, avgDepth_nonneg d o trees, _, score_fin d treeSize h trees hne o, rfl, by positivity, ?_⟩
  apply Real.rpow_le_one_of_one_le_of_nonpos (by norm_num)
  rw [neg_div]
  have := div_nonneg (avgDepth_nonneg d o trees) (avgPath_pos h).le
  linarith

/-- C84. A larger average path length means a smaller score. -/
theorem C84_antitone (d : Data) (treeSize : ℕ) (h : 2 ≤ treeSize) (trees : List Tree) (hne : trees ≠ [])
    (o o' : ℕ) (hlt : avgDepth d o trees < avgDepth d o' trees) :
    anomalyScore d treeSize trees.length trees o' < anomalyScore d treeSize trees.length trees o := by
  rw [score_fin d treeSize h trees hne, score_fin d treeSize h trees hne, XR.fin_lt]
  apply Real.rpow_lt_rpow_of_exponent_lt (by norm_num)
  rw [neg_div, neg_div]
  have := div_lt_div_of_pos_right hlt (avgPath_pos h)
  linarith

/-- C84. The score is one exactly if every tree has a path length of zero for the observation. -/
theorem C84_one (d : Data) (treeSize : ℕ) (h : 2 ≤ treeSize) (trees : List Tree) (hne : trees ≠ []) (o : ℕ) :
    anomalyScore d treeSize trees.length trees o = 1 ↔ ∀ t ∈ trees, pathLength d o t 0 = 0 := by
  have hl : (0 : ℝ) < trees.length := by
    have := List.length_pos_iff.mpr hne; positivity
  rw [score_fin d treeSize h trees hne, XR.one_def, XR.fin_inj]
  have hpos := avgPath_pos h
  have e1 : (2 : ℝ) ^ (-avgDepth d o trees / avgPath treeSize) = 1 ↔ avgDepth d o trees = 0 := by
    constructor
    · intro hh
      by_contra hz
      have hz' : 0 < avgDepth d o trees := lt_of_le_of_ne (avgDepth_nonneg d o trees) (Ne.symm hz)
      have : (2 : ℝ) ^ (-avgDepth d o trees / avgPath treeSize) < 1 := by
        apply Real.rpow_lt_one_of_one_lt_of_neg (by norm_num)
        rw [neg_div]
        have := div_pos hz' hpos
        linarith
      linarith
    · intro hh; rw [hh]; simp
  have hnn : ∀ t, 0 ≤ pathValue (route d scoreLeft o t).length ((leafAt t (route d scoreLeft o t)).getD 0) := by
    intro t
    obtain ⟨y, hy, he⟩ := pathLength_nonneg d o t
    rw [pathLength_eq] at he
    rw [XR.fin_inj.mp he]; exact hy
  rw [e1]
  unfold avgDepth
  rw [div_eq_zero_iff, or_iff_left hl.ne']
  simp only [pathLength_eq, XR.zero_def, XR.fin_inj]
  clear e1 hl hne
  induction trees with
  | nil => simp
  | cons t ts ih =>
    have hs : 0 ≤ (ts.map fun t => pathValue (route d scoreLeft o t).length
        ((leafAt t (route d scoreLeft o t)).getD 0)).sum := by
      apply List.sum_nonneg
      intro x hx
      obtain ⟨t, _, rfl⟩ := List.mem_map.mp hx
      exact hnn t
    have := hnn t
    simp only [List.map_cons, List.sum_cons, List.mem_cons, forall_eq_or_imp]
    constructor
    · intro hh
      exact ⟨by linarith, ih.mp (by linarith)⟩
    · rintro ⟨h1, h2⟩
      rw [h1, ih.mpr h2, add_zero]

/-- C84. With `tree_size = 1` the normalising constant is minus infinity and every score is exactly one. -/
theorem C84_size_one (d : Data) (trees : List Tree) (hne : trees ≠ []) (o : ℕ) :
    averagePathLength 1 = .ninf ∧ anomalyScore d 1 trees.length trees o = 1 := by
  have hl : (trees.length : ℝ) ≠ 0 := by
    have := List.length_pos_iff.mpr hne; positivity
  have hc : averagePathLength 1 = .ninf := by
    unfold averagePathLength
    simp only [XR.one_def, XR.fin_sub, Nat.cast_one, sub_self, XR.log_zero, XR.ninf_add_fin, XR.ofNat_def 2,
      XR.fin_mul, mul_zero]
    rw [XR.fin_div _ one_ne_zero]
    have : XR.fin 2 * .ninf = .ninf := by
      show XR.mul _ _ = _
      simp [XR.mul, XR.infSign]
    rw [this, XR.ninf_sub_fin]
  refine ⟨hc, ?_⟩
  unfold anomalyScore
  simp only [pathLength_eq, hc]
  rw [XR.sum_fin, XR.fin_div _ hl, XR.fin_neg]
  show pow2 (XR.div _ _) = _
  simp [XR.div, pow2, XR.one_def]

/-- C84. An empty forest gives NaN. -/
theorem C84_empty (d : Data) (treeSize : ℕ) (o : ℕ) : anomalyScore d treeSize 0 [] o = .nan := by
  unfold anomalyScore
  simp only [List.map_nil, List.sum_nil, Nat.cast_zero, XR.zero_def, XR.fin_div_zero, XR.infSign_zero,
    XR.neg_nan, XR.nan_div]
  rfl

end
end Frds.Props

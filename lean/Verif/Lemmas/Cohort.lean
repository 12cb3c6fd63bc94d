import Verif.Model.Cohort
import Verif.Spec.Cohort
import Verif.Lemmas.FftSmooth

/-! Sorting, un-sorting and the conditional expectation by smoothing. -/
set_option linter.unusedSimpArgs false
namespace Frds.Model
noncomputable section
open Frds Classical Finset

theorem lexKey_inj {key : List XR} {i j : ℕ} (h : lexKey key i = lexKey key j) : i = j := by
  have := congrArg (fun x : WithTop EReal ×ₗ ℕ => (ofLex x).2) h
  simpa [lexKey] using this

theorem argsort_perm (key : List XR) : (argsortStable key).Perm (List.range key.length) :=
  List.perm_insertionSort _ _

theorem argsort_length (key : List XR) : (argsortStable key).length = key.length := by
  simpa using (argsort_perm key).length_eq

theorem argsort_nodup (key : List XR) : (argsortStable key).Nodup :=
  (argsort_perm key).nodup_iff.2 List.nodup_range

theorem argsort_lt (key : List XR) {q : ℕ} (h : q ∈ argsortStable key) : q < key.length :=
  List.mem_range.1 ((argsort_perm key).mem_iff.1 h)

theorem argsort_mem (key : List XR) {q : ℕ} (h : q < key.length) : q ∈ argsortStable key :=
  (argsort_perm key).mem_iff.2 (List.mem_range.2 h)

theorem argsort_sorted (key : List XR) :
    (argsortStable key).Pairwise fun i j => lexKey key i < lexKey key j := by
  have : Std.Total fun i j => lexKey key i ≤ lexKey key j := ⟨fun a b => le_total _ _⟩
  have : IsTrans ℕ fun i j => lexKey key i ≤ lexKey key j := ⟨fun a b c => le_trans⟩
  have h1 : (argsortStable key).Pairwise fun i j => lexKey key i ≤ lexKey key j :=
    List.pairwise_insertionSort _ _
  have h2 := argsort_nodup key
  exact (h1.and h2).imp fun {i j} h => lt_of_le_of_ne h.1 fun e => h.2 (lexKey_inj e)

/-- the rank of a position among all positions -/
def rankOf (key : List XR) (q : ℕ) : ℕ :=
  (List.range key.length).countP fun q' => decide (lexKey key q' < lexKey key q)

theorem rankOf_getElem (key : List XR) {m : ℕ} (hm : m < (argsortStable key).length) :
    rankOf key ((argsortStable key)[m]) = m := by
  unfold rankOf
  rw [← (argsort_perm key).countP_eq]
  have hs := List.pairwise_iff_getElem.1 (argsort_sorted key)
  generalize argsortStable key = l at hm hs ⊢
  have h0 : l.countP (fun q' => decide (lexKey key q' < lexKey key l[m]))
      = (l.take m).countP (fun q' => decide (lexKey key q' < lexKey key l[m]))
        + (l.drop m).countP (fun q' => decide (lexKey key q' < lexKey key l[m])) := by
    rw [← List.countP_append, List.take_append_drop]
  rw [h0]
  have h1 : (l.take m).countP (fun q' => decide (lexKey key q' < lexKey key l[m])) = m := by
    have : (l.take m).countP (fun q' => decide (lexKey key q' < lexKey key l[m])) = (l.take m).length := by
      rw [List.countP_eq_length]
      intro a ha
      obtain ⟨i, hi, rfl⟩ := List.getElem_of_mem ha
      simp only [List.length_take] at hi
      rw [List.getElem_take]
      simpa using hs i m (by omega) hm (by omega)
    rw [this, List.length_take]; omega
  have h2 : (l.drop m).countP (fun q' => decide (lexKey key q' < lexKey key l[m])) = 0 := by
    rw [List.countP_eq_zero]
    intro a ha
    obtain ⟨i, hi, rfl⟩ := List.getElem_of_mem ha
    simp only [List.length_drop] at hi
    rw [List.getElem_drop]
    simp only [decide_eq_true_eq, not_lt]
    rcases Nat.eq_zero_or_pos i with rfl | hp
    · exact le_rfl
    · exact (hs m (m + i) hm (by omega) (by omega)).le
  rw [h1, h2, add_zero]

theorem argsort_rankOf (key : List XR) {q : ℕ} (hq : q < key.length) :
    ∃ h : rankOf key q < (argsortStable key).length, (argsortStable key)[rankOf key q] = q := by
  obtain ⟨m, hm, he⟩ := List.getElem_of_mem (argsort_mem key hq)
  have := rankOf_getElem key hm
  rw [he] at this
  subst this
  exact ⟨hm, he⟩

theorem rankOf_lt (key : List XR) {q : ℕ} (hq : q < key.length) : rankOf key q < key.length := by
  obtain ⟨h, _⟩ := argsort_rankOf key hq
  rwa [argsort_length] at h

theorem rankOf_injOn (key : List XR) : Set.InjOn (rankOf key) {q | q < key.length} := by
  intro a ha b hb h
  obtain ⟨h1, e1⟩ := argsort_rankOf key ha
  obtain ⟨h2, e2⟩ := argsort_rankOf key hb
  rw [← e1, ← e2]; congr 1

/-- a fold of `set` over distinct positions -/
theorem foldl_set_length (l : List (ℕ × ℕ)) (acc : List ℕ) :
    (l.foldl (fun acc q => acc.set q.1 q.2) acc).length = acc.length := by
  induction l generalizing acc with
  | nil => rfl
  | cons a l ih => rw [List.foldl_cons, ih, List.length_set]

theorem foldl_set_getElem? (l : List (ℕ × ℕ)) (acc : List ℕ) (hn : (l.map Prod.fst).Nodup) {q v : ℕ}
    (hq : q < acc.length) (hm : (q, v) ∈ l) :
    (l.foldl (fun acc q => acc.set q.1 q.2) acc)[q]? = some v := by
  induction l generalizing acc with
  | nil => simp at hm
  | cons a l ih =>
    rw [List.foldl_cons]
    rw [List.map_cons, List.nodup_cons] at hn
    rcases List.mem_cons.1 hm with rfl | hm'
    · have key : ∀ (l : List (ℕ × ℕ)) (acc : List ℕ), q ∉ l.map Prod.fst →
          (l.foldl (fun acc q => acc.set q.1 q.2) acc)[q]? = acc[q]? := by
        intro l
        induction l with
        | nil => intro acc _; rfl
        | cons b l ih' =>
          intro acc hb
          rw [List.map_cons, List.mem_cons, not_or] at hb
          rw [List.foldl_cons, ih' _ hb.2, List.getElem?_set_ne (Ne.symm hb.1)]
      rw [key l _ hn.1]
      simp [hq]
    · exact ih _ hn.2 (by simpa using hq) hm'

theorem scatterInv_length (ind : List ℕ) : (scatterInv ind).length = ind.length := by
  simp [scatterInv, foldl_set_length]

/-- the scatter computes the rank of every position -/
theorem scatterInv_argsort (key : List XR) :
    scatterInv (argsortStable key) = (List.range key.length).map (rankOf key) := by
  apply List.ext_getElem?
  intro q
  by_cases hq : q < key.length
  · obtain ⟨hm, he⟩ := argsort_rankOf key hq
    rw [scatterInv, foldl_set_getElem? _ _ _ (v := rankOf key q)]
    · simp [List.getElem?_range hq]
    · simpa [argsort_length] using hq
    · rw [List.mem_zipIdx_iff_getElem?]
      rw [List.getElem?_eq_getElem hm, he]
    · rw [List.zipIdx_map_fst]; exact argsort_nodup key
  · rw [List.getElem?_eq_none (by rw [scatterInv_length, argsort_length]; omega),
      List.getElem?_eq_none (by simp; omega)]

theorem mapM_ok_map {α β : Type*} (f : α → Except PyErr β) (g : α → β) (l : List α)
    (h : ∀ a ∈ l, f a = .ok (g a)) : l.mapM f = .ok (l.map g) := by
  induction l with
  | nil => rfl
  | cons a l ih =>
    rw [List.mapM_cons, h a (by simp), ih fun b hb => h b (by simp [hb])]
    rfl

theorem sortKey_fin_lt {a b : ℝ} : sortKey (.fin a) < sortKey (.fin b) ↔ a < b := by
  simp [sortKey]

theorem lexKey_lt_fin {k : List ℝ} {q q' : ℕ} (hq : q < k.length) (hq' : q' < k.length) :
    lexKey (k.map XR.fin) q' < lexKey (k.map XR.fin) q
      ↔ k.getD q' 0 < k.getD q 0 ∨ (k.getD q' 0 = k.getD q 0 ∧ q' < q) := by
  have e : ∀ i, i < k.length → (k.map XR.fin).getD i .nan = .fin (k.getD i 0) := by
    intro i hi
    rw [List.getD_eq_getElem _ _ (by simpa using hi), List.getD_eq_getElem _ _ hi, List.getElem_map]
  unfold lexKey
  rw [Prod.Lex.toLex_lt_toLex, e q hq, e q' hq']
  simp only [sortKey_fin_lt]
  have : sortKey (.fin (k.getD q' 0)) = sortKey (.fin (k.getD q 0)) ↔ k.getD q' 0 = k.getD q 0 := by
    simp [sortKey]
  rw [this]

theorem rankOf_fin {k : List ℝ} {q : ℕ} (hq : q < k.length) :
    rankOf (k.map XR.fin) q = Spec.rank (fun i => k.getD i 0) k.length q := by
  unfold rankOf Spec.rank
  rw [List.length_map, List.countP_eq_length_filter, Finset.card, ← Multiset.coe_card]
  congr 1
  rw [Finset.filter_val, Finset.range_val, ← Multiset.coe_range, Multiset.filter_coe]
  congr 1
  refine List.filter_congr fun q' hq' => ?_
  rw [decide_eq_decide]
  exact lexKey_lt_fin hq (List.mem_range.1 hq')

/-- `condExp` in closed form: the payoffs in the order of the keys, smoothed, read back at the rank -/
theorem condExp_eq {key : List XR} {v : List ℝ} {win : ℕ} (hl : key.length = v.length)
    (hn : v.length % 2 = 0) (hw : win % 2 = 0) (hw2 : win + 2 ≤ v.length) :
    condExp key (v.map XR.fin) win = .ok ((List.range v.length).map fun q => XR.fin
      (Spec.smoothed (fun m => v.getD ((argsortStable (key.map round9)).getD m 0) 0) v.length win
        (rankOf (key.map round9) q))) := by
  set key' := key.map round9 with hk
  have hkl : key'.length = v.length := by rw [hk, List.length_map, hl]
  set ind := argsortStable key' with hind
  have hil : ind.length = v.length := by rw [hind, argsort_length, hkl]
  have hs : (ind.map fun q => (v.map XR.fin).getD q .nan) = (ind.map fun q => v.getD q 0).map XR.fin := by
    rw [List.map_map]
    refine List.map_congr_left fun q hq => ?_
    have hq' : q < v.length := hkl ▸ argsort_lt key' hq
    rw [List.getD_eq_getElem _ _ (by simpa using hq'), List.getElem_map]
    simp only [Function.comp]
    rw [List.getD_eq_getElem _ _ hq']
  unfold condExp
  simp only [bind, Except.bind, ← hk, ← hind]
  rw [hs, fftsmooth_eq (by simpa [hil] using hn) hw (by simpa [hil] using hw2)]
  simp only [List.length_map, hil]
  rw [hind, scatterInv_argsort, ← hind, hkl, List.mapM_map]
  refine mapM_ok_map _ _ _ fun q hq => ?_
  have hq' := List.mem_range.1 hq
  have hr : rankOf key' q < v.length := by rw [← hkl]; exact rankOf_lt key' (by rw [hkl]; exact hq')
  have e : ((List.range v.length).map fun t => XR.fin
        (Spec.smoothed (fun i => (ind.map fun q => v.getD q 0).getD i 0) v.length win t))
      = ((List.range v.length).map fun t =>
        (Spec.smoothed (fun i => (ind.map fun q => v.getD q 0).getD i 0) v.length win t)).map XR.fin := by
    rw [List.map_map]; rfl
  simp only [Function.comp]
  rw [e, npIndex_fin (by simpa using hr), List.getD_eq_getElem _ _ (by simpa using hr)]
  simp only [List.getElem_map, List.getElem_range]
  congr 2
  have hfun : ∀ m, m < v.length → (ind.map fun q => v.getD q 0).getD m 0 = v.getD (ind.getD m 0) 0 := by
    intro m hm
    rw [List.getD_eq_getElem _ _ (by simpa [hil] using hm), List.getElem_map, List.getD_eq_getElem ind _ (by omega)]
  have hwm : ∀ s, win / 2 ≤ s → s + win / 2 < v.length →
      Spec.windowMean (fun i => (ind.map fun q => v.getD q 0).getD i 0) win s
        = Spec.windowMean (fun m => v.getD (ind.getD m 0) 0) win s := by
    intro s h1 h2
    unfold Spec.windowMean
    congr 1
    refine Finset.sum_congr rfl fun i hi => hfun i ?_
    have := (Finset.mem_Ioc.1 hi).2
    omega
  unfold Spec.smoothed
  simp only
  rw [hwm _ le_rfl (by omega), hwm _ (by omega) (by omega), hwm (v.length - win / 2 - 1) (by omega) (by omega),
    hwm (v.length - win / 2 - 1 - 1) (by omega) (by omega)]
  split_ifs with c1 c2
  · rfl
  · exact hwm _ (by omega) (by omega)
  · rfl

/-- in the interior the smoothed value is the mean of the payoffs of the neighbouring ranks -/
theorem smoothed_rank_interior {k v : List ℝ} {w q : ℕ} (hl : k.length = v.length)
    (hq : q < v.length) (h1 : w / 2 ≤ Spec.rank (fun i => k.getD i 0) v.length q)
    (h2 : Spec.rank (fun i => k.getD i 0) v.length q + w / 2 < v.length) :
    Spec.smoothed (fun m => v.getD ((argsortStable (k.map XR.fin)).getD m 0) 0) v.length w (rankOf (k.map XR.fin) q)
      = Spec.localMean (fun i => k.getD i 0) (fun i => v.getD i 0) v.length w q := by
  have hr : ∀ i, i < v.length → rankOf (k.map XR.fin) i = Spec.rank (fun i => k.getD i 0) v.length i := by
    intro i hi
    rw [rankOf_fin (by omega), hl]
  rw [hr q hq]
  unfold Spec.smoothed
  simp only
  rw [if_neg (by omega), if_pos (by omega)]
  unfold Spec.windowMean Spec.localMean
  congr 1
  symm
  have hlen : (k.map XR.fin).length = v.length := by simpa using hl
  refine Finset.sum_bij (fun i _ => rankOf (k.map XR.fin) i) ?_ ?_ ?_ ?_
  · intro i hi
    have hi' := Finset.mem_filter.1 hi
    rw [Finset.mem_Ioc, hr i (Finset.mem_range.1 hi'.1)]
    omega
  · intro a ha b hb h
    have ha' := Finset.mem_range.1 (Finset.mem_filter.1 ha).1
    have hb' := Finset.mem_range.1 (Finset.mem_filter.1 hb).1
    exact rankOf_injOn (k.map XR.fin) (by simpa [hl] using ha') (by simpa [hl] using hb') h
  · intro m hm
    have hm' := Finset.mem_Ioc.1 hm
    have hml : m < (argsortStable (k.map XR.fin)).length := by rw [argsort_length, hlen]; omega
    refine ⟨(argsortStable (k.map XR.fin))[m], ?_, rankOf_getElem _ hml⟩
    have hlt : (argsortStable (k.map XR.fin))[m] < v.length := by
      have := argsort_lt (k.map XR.fin) (List.getElem_mem hml)
      rwa [hlen] at this
    rw [Finset.mem_filter, Finset.mem_range, ← hr _ hlt, rankOf_getElem _ hml]
    refine ⟨hlt, ?_⟩
    omega
  · intro i hi
    have hi' := Finset.mem_range.1 (Finset.mem_filter.1 hi).1
    obtain ⟨h, e⟩ := argsort_rankOf (k.map XR.fin) (q := i) (by rw [hlen]; exact hi')
    rw [List.getD_eq_getElem (argsortStable _) _ h, e]

end
end Frds.Model

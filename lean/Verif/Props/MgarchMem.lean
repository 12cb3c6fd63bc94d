import Verif.Props.Lrmes
import Verif.Props.GarchMem
import Verif.Model.MgarchMem

/-! Property C147: the compiled DCC and LRMES kernels on arrays of any memory layout. -/
set_option linter.unusedSimpArgs false

namespace Frds.Props
noncomputable section
open Frds Frds.Model Frds.Spec Classical

theorem foldl_sum (l : List XR) (s : XR) : l.foldl (· + ·) s = s + l.sum := by
  induction l generalizing s with
  | nil => simp
  | cons x t ih => rw [List.foldl_cons, ih, List.sum_cons, add_assoc]

theorem cSum_eq (f : ℕ → XR) (T : ℕ) : cSum f T = ((List.range T).map f).sum := by
  unfold cSum
  rw [show (fun acc t => acc + f t) = fun (acc : XR) t => (fun x y : XR => x + y) acc (f t) from rfl,
    ← List.foldl_map, foldl_sum, zero_add]

/-- the index loop on a list of pairs is the list recursion -/
theorem cDccLoop_eq (a b : XR) (qbar : QMat) (z1 z2 : ℕ → XR) (n t : ℕ) (q : QMat) :
    cDccLoop a b qbar z1 z2 n (t + 1) q
      = dccLoop a b qbar q ((List.range n).map fun i => (z1 (t + i), z2 (t + i))) := by
  induction n generalizing t q with
  | zero => rfl
  | succ n ih =>
    rw [List.range_succ_eq_map, List.map_cons, List.map_map]
    simp only [cDccLoop, dccLoop, Nat.add_sub_cancel, Nat.add_zero]
    rw [ih (t + 1)]
    have : ((fun i => (z1 (t + i), z2 (t + i))) ∘ Nat.succ) = fun i => (z1 (t + 1 + i), z2 (t + 1 + i)) := by
      funext i; simp only [Function.comp, Nat.succ_eq_add_one]; rw [show t + (i + 1) = t + 1 + i by omega]
    rw [this]
    rfl

theorem stdResid_get (r s : Strided) (h : s.len = r.len) :
    stdResid r.toList s.toList = (List.range r.len).map fun t => r.get t / XR.sqrt (s.get t) := by
  unfold stdResid Strided.toList
  rw [h, List.zipWith_map]
  rw [List.zipWith_self]

/-- C147. For residual and variance arrays of any memory layout (any offset and stride, any surrounding memory), one
variance per residual: if the second series is at least as long as the first and the first is not empty, the
compiled `conditional_correlations` stays inside its arrays and returns the correlations of the list model, computed
from the elements NumPy sees; otherwise it leaves its arrays, where the list model has an error. -/
theorem C147_dcc (a b : XR) (resids1 resids2 sigma2_1 sigma2_2 : Strided) (h1 : sigma2_1.len = resids1.len)
    (h2 : sigma2_2.len = resids2.len) :
    (0 < resids1.len ∧ resids1.len ≤ resids2.len →
      ∃ rho, extDcc a b resids1 resids2 sigma2_1 sigma2_2 = some rho ∧
        dccKernel true a b (stdResid resids1.toList sigma2_1.toList) (stdResid resids2.toList sigma2_2.toList)
          = .ok rho) ∧
    (¬ (0 < resids1.len ∧ resids1.len ≤ resids2.len) →
      extDcc a b resids1 resids2 sigma2_1 sigma2_2 = none ∧
        dccKernel true a b (stdResid resids1.toList sigma2_1.toList) (stdResid resids2.toList sigma2_2.toList)
          = .error .indexError) := by
  have e1 := stdResid_get _ _ h1
  have e2 := stdResid_get _ _ h2
  have l1 : (stdResid resids1.toList sigma2_1.toList).length = resids1.len := by rw [e1]; simp
  have l2 : (stdResid resids2.toList sigma2_2.toList).length = resids2.len := by rw [e2]; simp
  constructor
  · rintro ⟨hp, hle⟩
    unfold extDcc dccKernel
    simp only
    rw [if_neg (by omega), if_neg (by simp), if_neg (by omega),
      if_neg (by intro h; rw [h] at l1; simp at l1; omega)]
    refine ⟨_, rfl, ?_⟩
    have t2 : (stdResid resids2.toList sigma2_2.toList).take (stdResid resids1.toList sigma2_1.toList).length
        = (List.range resids1.len).map fun t => resids2.get t / XR.sqrt (sigma2_2.get t) := by
      rw [l1, e2, ← List.map_take, List.take_range, Nat.min_eq_left hle]
    rw [t2, e1]
    set g1 := fun t => resids1.get t / XR.sqrt (sigma2_1.get t) with hg1
    set g2 := fun t => resids2.get t / XR.sqrt (sigma2_2.get t) with hg2
    have a1 : ∀ t, t < resids1.len → (cFill g1 resids1.len).getD t .nan = g1 t := by
      intro t ht
      rw [List.getD_eq_getElem _ _ (by simpa [cFill] using ht)]
      simp [cFill]
    have a2 : ∀ t, t < resids1.len → (cFill g2 resids1.len).getD t .nan = g2 t := by
      intro t ht
      rw [List.getD_eq_getElem _ _ (by simpa [cFill] using ht)]
      simp [cFill]
    have s11 : cSum (fun t => (cFill g1 resids1.len).getD t .nan * (cFill g1 resids1.len).getD t .nan) resids1.len
        = (((List.range resids1.len).map g1).map fun z => z * z).sum := by
      rw [cSum_eq, List.map_map]
      congr 1
      apply List.map_congr_left
      intro t ht
      simp only [Function.comp, a1 t (List.mem_range.mp ht)]
    have s22 : cSum (fun t => (cFill g2 resids1.len).getD t .nan * (cFill g2 resids1.len).getD t .nan) resids1.len
        = (((List.range resids1.len).map g2).map fun z => z * z).sum := by
      rw [cSum_eq, List.map_map]
      congr 1
      apply List.map_congr_left
      intro t ht
      simp only [Function.comp, a2 t (List.mem_range.mp ht)]
    have s12 : cSum (fun t => (cFill g1 resids1.len).getD t .nan * (cFill g2 resids1.len).getD t .nan) resids1.len
        = (List.zipWith (· * ·) ((List.range resids1.len).map g1) ((List.range resids1.len).map g2)).sum := by
      rw [cSum_eq, List.zipWith_map, List.zipWith_self]
      congr 1
      apply List.map_congr_left
      intro t ht
      simp only [a1 t (List.mem_range.mp ht), a2 t (List.mem_range.mp ht)]
    have hq : dccQbar true ((List.range resids1.len).map g1) ((List.range resids1.len).map g2)
        = ⟨cSum (fun t => (cFill g1 resids1.len).getD t .nan * (cFill g1 resids1.len).getD t .nan) resids1.len
              / .fin resids1.len,
            cSum (fun t => (cFill g2 resids1.len).getD t .nan * (cFill g2 resids1.len).getD t .nan) resids1.len
              / .fin resids1.len,
            cSum (fun t => (cFill g1 resids1.len).getD t .nan * (cFill g2 resids1.len).getD t .nan) resids1.len
              / .fin resids1.len⟩ := by
      unfold dccQbar
      rw [if_pos rfl, s11, s22, s12, List.length_map, List.length_range]
    rw [hq]
    rw [cDccLoop_eq _ _ _ _ _ _ 0]
    have hz : (List.zip ((List.range resids1.len).map g1) ((List.range resids1.len).map g2)).dropLast
        = (List.range (resids1.len - 1)).map fun i => ((cFill g1 resids1.len).getD (0 + i) .nan,
            (cFill g2 resids1.len).getD (0 + i) .nan) := by
      rw [List.zip_map', ← List.map_dropLast]
      have : (List.range resids1.len).dropLast = List.range (resids1.len - 1) := by
        rw [List.dropLast_eq_take, List.length_range, List.take_range, Nat.min_eq_left (by omega)]
      rw [this]
      apply List.map_congr_left
      intro t ht
      have := List.mem_range.mp ht
      rw [zero_add, a1 t (by omega), a2 t (by omega)]
    rw [hz]
    rfl
  · intro hn
    refine ⟨if_pos (by omega), ?_⟩
    unfold dccKernel
    rw [if_neg (by simp)]
    by_cases hlt : (stdResid resids2.toList sigma2_2.toList).length < (stdResid resids1.toList sigma2_1.toList).length
    · rw [if_pos hlt]
    · rw [if_neg hlt, if_pos (List.length_eq_zero_iff.mp (by omega))]

theorem toList_inj {v w : Strided} (h : v.toList = w.toList) : v.len = w.len ∧ ∀ t < v.len, v.get t = w.get t := by
  have hl : v.len = w.len := by simpa [Strided.toList] using congrArg List.length h
  refine ⟨hl, fun t ht => ?_⟩
  have := congrArg (fun l : List XR => l[t]?) h
  simpa [Strided.toList, ht, hl ▸ ht] using this

/-- C147. The compiled DCC kernel sees the elements only: arrays with the same elements in other layouts (copies,
slices, reversed or strided views) give the same result. -/
theorem C147_layout (a b : XR) (r1 r2 s1 s2 r1' r2' s1' s2' : Strided) (h1 : r1.toList = r1'.toList)
    (h2 : r2.toList = r2'.toList) (h3 : s1.toList = s1'.toList) (h4 : s2.toList = s2'.toList) :
    extDcc a b r1 r2 s1 s2 = extDcc a b r1' r2' s1' s2' := by
  obtain ⟨l1, g1⟩ := toList_inj h1
  obtain ⟨l2, g2⟩ := toList_inj h2
  obtain ⟨l3, g3⟩ := toList_inj h3
  obtain ⟨l4, g4⟩ := toList_inj h4
  unfold extDcc
  simp only
  rw [← l1, ← l2, ← l3, ← l4]
  split_ifs with hc
  · rfl
  · have e1 : cFill (fun t => r1.get t / XR.sqrt (s1.get t)) r1.len
        = cFill (fun t => r1'.get t / XR.sqrt (s1'.get t)) r1.len := by
      apply List.map_congr_left
      intro t ht
      have := List.mem_range.mp ht
      rw [g1 t (by omega), g3 t (by omega)]
    have e2 : cFill (fun t => r2.get t / XR.sqrt (s2.get t)) r1.len
        = cFill (fun t => r2'.get t / XR.sqrt (s2'.get t)) r1.len := by
      apply List.map_congr_left
      intro t ht
      have := List.mem_range.mp ht
      rw [g2 t (by omega), g4 t (by omega)]
    rw [e1, e2]

theorem cSimLoop_eq (x : SimArgs) (firm mkt : ℕ → XR) (n h : ℕ) (s : SimState) :
    cppLoop x s ((List.range n).map fun i => (firm (h + i), mkt (h + i)))
      = ((cSimLoop x firm mkt n h s).map (·.1), (cSimLoop x firm mkt n h s).map (·.2)) := by
  induction n generalizing h s with
  | zero => rfl
  | succ n ih =>
    rw [List.range_succ_eq_map, List.map_cons, List.map_map]
    have : ((fun i => (firm (h + i), mkt (h + i))) ∘ Nat.succ) = fun i => (firm (h + 1 + i), mkt (h + 1 + i)) := by
      funext i; simp only [Function.comp, Nat.succ_eq_add_one]; rw [show h + (i + 1) = h + 1 + i by omega]
    rw [this]
    simp only [cppLoop, cSimLoop, cppVar, Nat.add_zero, List.map_cons]
    rw [ih (h + 1)]

/-- C147. The compiled LRMES simulation, called as `estimate` calls it, on innovations and a correlation matrix of any
memory layout (such as the slice `sample[s, :, :]`): it returns what the Python simulation returns for the elements
NumPy sees. -/
theorem C147_simulation (x : SimArgs) (inv Q : Strided2) (q01 : XR)
    (hQ : Q.toList = [(x.q00, q01), (x.q10, x.q11)]) :
    callSimulation x inv Q = simulation x inv.toList := by
  have hr : Q.rows = 2 := by simpa [Strided2.toList] using congrArg List.length hQ
  have h0 : Q.row 0 = (x.q00, q01) ∧ Q.row 1 = (x.q10, x.q11) := by
    unfold Strided2.toList at hQ
    rw [hr] at hQ
    simpa [List.range_succ] using hQ
  rw [← cppSimulation_eq]
  unfold callSimulation extSimulation cppSimulation
  have hl : inv.toList = (List.range inv.rows).map fun i => ((inv.row (0 + i)).1, (inv.row (0 + i)).2) := by
    unfold Strided2.toList
    apply List.map_congr_left
    intro t _
    rw [zero_add]
  rw [hl, cSimLoop_eq x (fun h => (inv.row h).1) (fun h => (inv.row h).2)]
  simp only [h0.1, h0.2, List.map_map]
  rfl

/-- a dense array and a reversed view of another one with the same elements; a correlation matrix stored by columns -/
example : (∃ v w : Strided, v.toList = w.toList ∧ v.stride = 1 ∧ w.stride = -1 ∧ v.len = 2) ∧
    ∃ Q : Strided2, Q.stride0 = 1 ∧ Q.stride1 = 2 ∧ Q.toList = [(.fin 1, .fin (1 / 2)), (.fin (1 / 3), .fin 1)] := by
  refine ⟨⟨⟨fun i => .fin i, 0, 1, 2⟩, ⟨fun i => .fin (7 - i), 7, -1, 2⟩, ?_, rfl, rfl, rfl⟩,
    ⟨fun i => if i = 0 then .fin 1 else if i = 1 then .fin (1 / 3) else if i = 2 then .fin (1 / 2) else .fin 1, 0, 1, 2, 2⟩,
    rfl, rfl, ?_⟩
  · simp [Strided.toList, Strided.get, List.range_succ]; norm_num
  · simp [Strided2.toList, Strided2.row, List.range_succ]

end
end Frds.Props

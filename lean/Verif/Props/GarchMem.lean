import Verif.Props.GarchFit
import Verif.Model.GarchMem
import Mathlib.Data.List.GetD

/-! Property C131: the memory layout of the returns and the C extension. -/
set_option linter.unusedSimpArgs false

namespace Frds.Props
noncomputable section
open Frds Frds.Model Frds.Spec Classical

/-- the dense block of memory that starts where the array starts and has as many cells as the array has elements -/
def block (v : Strided) : List XR := (List.range v.len).map v.data

/-- the pairs of consecutive cells that start where the array starts -/
def pairs (b : Strided2) : List (XR × XR) := (List.range b.rows).map fun t => (b.data (t * 2), b.data (t * 2 + 1))

theorem block_dense {v : Strided} (h : v.stride = 1 ∨ v.len ≤ 1) : block v = v.toList := by
  unfold block Strided.toList
  apply List.map_congr_left
  intro t ht
  unfold Strided.data Strided.get
  rcases h with h | h
  · rw [h, one_mul]
  · have : t = 0 := by have := List.mem_range.mp ht; omega
    subst this
    simp

theorem pairs_dense {b : Strided2} (h0 : b.stride0 = 2) (h1 : b.stride1 = 1) : pairs b = b.toList := by
  unfold pairs Strided2.toList
  apply List.map_congr_left
  intro t _
  unfold Strided2.data Strided2.row
  rw [h0, h1]
  push_cast
  rw [mul_comm (2 : ℤ), add_assoc]

theorem fresh_toList (junk : ℤ → XR) (l : List XR) : (fresh junk l).toList = l := by
  unfold Strided.toList
  apply List.ext_getElem (by simp [fresh])
  intro i h1 h2
  simp [Strided.get, fresh, h2]

theorem fresh_block (junk : ℤ → XR) (l : List XR) : block (fresh junk l) = l := by
  rw [block_dense (Or.inl rfl), fresh_toList]

theorem vstackT_toList (junk : ℤ → XR) (a b : List XR) (h : a.length = b.length) :
    (vstackT junk a b).toList = List.zip a b := by
  unfold Strided2.toList
  apply List.ext_getElem (by simp [vstackT, h])
  intro i h1 h2
  have ha : i < a.length := by simpa [vstackT] using h1
  have hb : i < b.length := by omega
  have e1 : (0 : ℤ) ≤ (i : ℤ) + (a.length : ℤ) := by positivity
  have e2 : ((i : ℤ) + (a.length : ℤ)).toNat = i + a.length := by omega
  simp only [List.getElem_map, List.getElem_range, List.getElem_zip, Strided2.row, vstackT, zero_add, one_mul,
    Int.toNat_natCast, Nat.cast_nonneg, if_true, if_pos e1, e2, Prod.mk.injEq]
  constructor
  · rw [List.getD_eq_getElem _ _ (by simp; omega), List.getElem_append_left ha]
  · rw [List.getD_eq_getElem _ _ (by simp; omega), List.getElem_append_right (by omega)]
    simp

theorem flat_getD {d : XR} : ∀ (l : List (XR × XR)) (t : ℕ) (h : t < l.length),
    (l.flatMap fun q => [q.1, q.2]).getD (2 * t) d = l[t].1 ∧
    ∀ d', (l.flatMap fun q => [q.1, q.2]).getD (2 * t + 1) d' = l[t].2
  | [], _, h => by simp at h
  | q :: l, 0, _ => by simp
  | q :: l, t + 1, h => by
    have ih := flat_getD (d := d) l t (by simpa using h)
    rw [show 2 * (t + 1) = 2 * t + 1 + 1 by ring]
    simpa using ih

theorem ascontiguous_toList (junk : ℤ → XR) (b : Strided2) : (ascontiguous junk b).toList = b.toList := by
  have hl : b.toList.length = b.rows := by simp [Strided2.toList]
  apply List.ext_getElem (by simp [Strided2.toList, ascontiguous])
  intro i h1 h2
  have hi : i < b.toList.length := h2
  have e1 : (0 : ℤ) ≤ 2 * (i : ℤ) := by positivity
  have e2 : (2 * (i : ℤ)).toNat = 2 * i := by omega
  have e3 : (0 : ℤ) ≤ 2 * (i : ℤ) + 1 := by positivity
  have e4 : (2 * (i : ℤ) + 1).toNat = 2 * i + 1 := by omega
  rw [show (ascontiguous junk b).toList[i] = (ascontiguous junk b).row i by simp [Strided2.toList]]
  unfold Strided2.row ascontiguous
  simp only [zero_add, if_pos e1, if_pos e3, e2, e4]
  rw [(flat_getD b.toList i hi).1, (flat_getD (d := .nan) b.toList i hi).2]

/-! ### the C loops -/

theorem cEwma_eq (lam : XR) (r : ℕ → XR) : ∀ (n t : ℕ) (v : XR), 1 ≤ t →
    cEwma lam r n t v = ewmaLoopCpp lam v ((List.range' (t - 1) n).map r)
  | 0, _, _, _ => rfl
  | n + 1, t, v, h => by
    rw [cEwma, List.range'_succ, List.map_cons, ewmaLoopCpp, cEwma_eq lam r n (t + 1) _ (by omega)]
    rw [show t + 1 - 1 = t - 1 + 1 by omega]

theorem extEwma_eq (v : Strided) (i lam : XR) : extEwma v i lam = ewma true (block v) i lam := by
  unfold extEwma ewma block
  by_cases h : v.len = 0
  · simp [h]
  · rw [if_neg h, if_neg (by simp [h]), cEwma_eq _ _ _ _ _ le_rfl]
    obtain ⟨n, hn⟩ : ∃ n, v.len = n + 1 := ⟨v.len - 1, by omega⟩
    rw [hn, List.range_succ, List.map_append]
    simp [List.range_eq_range']

theorem cVariance_eq (next : XR → XR → XR) (r b : ℕ → XR) : ∀ (n m t : ℕ) (s : XR), 1 ≤ t → n ≤ m →
    cVariance next r b n t s = varLoop next boundsCheckCpp s
      (List.zip ((List.range' (t - 1) n).map r) ((List.range' t m).map fun k => (b (k * 2), b (k * 2 + 1))))
  | 0, _, _, _, _, _ => by simp [cVariance, varLoop]
  | n + 1, 0, _, _, _, h => by omega
  | n + 1, m + 1, t, s, h, hm => by
    rw [cVariance, List.range'_succ, List.range'_succ, List.map_cons, List.map_cons, List.zip_cons_cons, varLoop]
    rw [cVariance_eq next r b n m (t + 1) _ (by omega) (by omega), show t + 1 - 1 = t - 1 + 1 by omega]

theorem extVariance_eq (next : XR → XR → XR) (s0 : XR) (v : Strided) (b : Strided2) :
    extVariance next s0 v b = variancePath next boundsCheckCpp s0 (block v) (pairs b) := by
  unfold extVariance variancePath
  have hb : (block v).length = v.len := by simp [block]
  have hp : (pairs b).length = b.rows := by simp [pairs]
  by_cases h : v.len = 0
  · rw [if_pos h, if_pos (List.length_eq_zero_iff.mp (hb.trans h))]
  · rw [if_neg h, if_neg (show ¬ block v = [] from fun e => h (by rw [← hb, e]; rfl)), hb, hp]
    by_cases h2 : 2 ≤ v.len ∧ b.rows < v.len
    · rw [if_pos h2, if_pos h2]
    · rw [if_neg h2, if_neg h2]
      obtain ⟨n, hn⟩ : ∃ n, v.len = n + 1 := ⟨v.len - 1, by omega⟩
      have e1 : (block v).dropLast = (List.range' 0 n).map v.data := by
        unfold block
        rw [hn, List.range_succ, List.map_append, List.map_singleton, List.dropLast_concat, List.range_eq_range']
      by_cases hn0 : n = 0
      · subst hn0
        rw [hn, e1]
        simp [cVariance, varLoop]
      · obtain ⟨m, hm⟩ : ∃ m, b.rows = m + 1 := ⟨b.rows - 1, by omega⟩
        have e2 : (pairs b).tail = (List.range' 1 m).map fun k => (b.data (k * 2), b.data (k * 2 + 1)) := by
          unfold pairs
          rw [hm, List.range_eq_range', List.range'_succ, List.map_cons, List.tail_cons]
        rw [hn, e1, e2, cVariance_eq _ _ _ _ m _ _ le_rfl (by omega)]
        simp

/-! ### C131 -/

/-- C131. For every array of residuals and every two-column array of bounds the kernels of the extension compute the
recursion on the dense memory block behind the arrays: strides are ignored. -/
theorem C131_kernels (v : Strided) (b : Strided2) (p : GarchVar) (q : GjrVar) (bc i lam : XR) :
    extGarchVariance p v bc b = garchVariance true p (block v) bc (pairs b) ∧
    extGjrVariance q v bc b = gjrVariance true q (block v) bc (pairs b) ∧
    extEwma v i lam = ewma true (block v) i lam :=
  ⟨extVariance_eq _ _ v b, extVariance_eq _ _ v b, extEwma_eq v i lam⟩

/-- C131. For dense arrays that is the recursion on the elements. -/
theorem C131_dense (v : Strided) (b : Strided2) (p : GarchVar) (q : GjrVar) (bc i lam : XR)
    (hv : v.stride = 1 ∨ v.len ≤ 1) (h0 : b.stride0 = 2) (h1 : b.stride1 = 1) :
    extGarchVariance p v bc b = garchVariance true p v.toList bc b.toList ∧
    extGjrVariance q v bc b = gjrVariance true q v.toList bc b.toList ∧
    extEwma v i lam = ewma true v.toList i lam := by
  have h := C131_kernels v b p q bc i lam
  rwa [block_dense hv, pairs_dense h0 h1] at h

/-- the residual arrays of the model are dense, or have at most one element -/
def DenseUse (zeroMean : Bool) (v : Strided) : Prop := zeroMean = false ∨ v.stride = 1 ∨ v.len ≤ 1

theorem zip_pairs (vb : List XR) (f g : XR → XR) : List.zip (vb.map f) (vb.map g) = vb.map fun v => (f v, g v) := by
  rw [List.zip_map', ]

theorem varianceBoundsMem_eq (junk : ℤ → XR) (v : Strided) (hv : block v = v.toList) :
    (∀ e, varianceBounds true v.toList = .error e → varianceBoundsMem junk v = .error e) ∧
    (∀ l, varianceBounds true v.toList = .ok l →
      ∃ b, varianceBoundsMem junk v = .ok b ∧ b.toList = l ∧ b.stride0 = 2 ∧ b.stride1 = 1) := by
  unfold varianceBounds varianceBoundsMem
  simp only [bind, Except.bind, pure, Except.pure, extEwma_eq, hv]
  cases ewma true v.toList _ _ with
  | error e =>
    refine ⟨fun e' h => ?_, fun l h => by simp at h⟩
    injection h with h
    rw [h]
  | ok vb =>
    refine ⟨fun e h => by simp at h, fun l h => ⟨_, rfl, ?_, rfl, rfl⟩⟩
    injection h with h
    rw [ascontiguous_toList, vstackT_toList _ _ _ (by simp), zip_pairs, ← h]

theorem prepResidsMem_eq {V : Type} (junk : ℤ → XR) (o : GarchObj V) (v : Strided) (hr : o.returns = v.toList)
    (hd : DenseUse o.zeroMean v) :
    (prepResidsMem junk o.zeroMean v).toList = prepResids o ∧
    block (prepResidsMem junk o.zeroMean v) = prepResids o := by
  unfold prepResidsMem prepResids demean
  cases hz : o.zeroMean with
  | true =>
    rw [hz] at hd
    simp only [if_true, hr, true_and]
    exact block_dense (by simpa [DenseUse] using hd)
  | false => simp only [Bool.false_eq_true, if_false, fresh_toList, fresh_block, hr, and_self]

theorem modelPathMem_eq {V : Type} (junk : ℤ → XR) (o : GarchObj V) (v : Strided) (hr : o.returns = v.toList)
    (hd : DenseUse o.zeroMean v) (varM : V → Strided → XR → Strided2 → Except PyErr (List XR))
    (var : V → List XR → XR → List (XR × XR) → Except PyErr (List XR))
    (hvar : ∀ p r bc b, varM p r bc b = var p (block r) bc (pairs b)) (bc : XR) (b : Strided2) (p : XR × V) :
    modelPathMem junk varM o.zeroMean v bc b p = modelPath var o bc (pairs b) p := by
  unfold modelPathMem modelPath demean
  cases hz : o.zeroMean with
  | true =>
    rw [hz] at hd
    simp only [if_true, hvar, hr, block_dense (show v.stride = 1 ∨ v.len ≤ 1 by simpa [DenseUse] using hd)]
  | false => simp only [Bool.false_eq_true, if_false, hvar, fresh_block, fresh_toList, hr]

theorem fitMem_eq {V : Type} (junk : ℤ → XR) (o : GarchObj V) (v : Strided) (hr : o.returns = v.toList)
    (hd : DenseUse o.zeroMean v) (varM : V → Strided → XR → Strided2 → Except PyErr (List XR))
    (var : V → List XR → XR → List (XR × XR) → Except PyErr (List XR))
    (hvar : ∀ p r bc b, varM p r bc b = var p (block r) bc (pairs b))
    (startM : Strided → Strided → XR → Strided2 → Except PyErr (Option V))
    (start : List XR → List XR → XR → List (XR × XR) → Except PyErr (Option V))
    (hstart : ∀ r bc b, block r = r.toList → startM v r bc b = start v.toList r.toList bc (pairs b))
    (feas : Bool → Feas (XR × V)) (opt : Optimizer (XR × V)) :
    fitMem junk varM startM feas opt v o = fitCore true var start feas opt o := by
  obtain ⟨e1, e2⟩ := prepResidsMem_eq junk o v hr hd
  obtain ⟨b1, b2⟩ := varianceBoundsMem_eq junk (prepResidsMem junk o.zeroMean v) (e2.trans e1.symm)
  unfold fitMem fitCore
  rw [e1] at b1 b2
  simp only [bind, Except.bind, pure, Except.pure]
  cases hvb : varianceBounds true (prepResids o) with
  | error e => rw [b1 e hvb]
  | ok l =>
    obtain ⟨b, hb, hbl, hs0, hs1⟩ := b2 l hvb
    rw [hb]
    have hp : pairs b = l := (pairs_dense hs0 hs1).trans hbl
    simp only [hstart _ _ _ (e2.trans e1.symm), e1, hp, hr]
    cases hst : start v.toList (prepResids o) (backcast (prepResids o)) l with
    | error e => rfl
    | ok v0 =>
      cases v0 with
      | none => rfl
      | some v0 =>
        have hobj : objectiveMem junk varM o.zeroMean v (backcast (prepResids o)) b
            = objective var o (backcast (prepResids o)) l := by
          funext p
          unfold objectiveMem objective
          rw [modelPathMem_eq junk o v hr hd varM var hvar, hp]
          cases modelPath var o (backcast (prepResids o)) l p <;> rfl
        simp only [hobj, modelPathMem_eq junk o v hr hd varM var hvar, hp, hbl]
        generalize opt _ _ _ = run
        cases run.trace.getLast? with
        | none => rfl
        | some p =>
          simp only
          cases modelPath var o (backcast (prepResids o)) l p <;> rfl

/-- C131. With the extension, the estimation of a model with a mean, and of a zero-mean model whose returns are dense
in memory, is the estimation on the elements of the returns, for both model families; whatever else is in memory has
no influence. -/
theorem C131_fit (junk : ℤ → XR) (v : Strided) (o : GarchObj GarchVar) (j : GarchObj GjrVar)
    (ho : o.returns = v.toList) (hj : j.returns = v.toList)
    (hdo : o.zeroMean = false ∨ v.stride = 1) (hdj : j.zeroMean = false ∨ v.stride = 1)
    (opt : Optimizer (XR × GarchVar)) (optj : Optimizer (XR × GjrVar)) :
    fitMem junk extGarchVariance garchStartMem garchFeas opt v o
      = fitCore true (garchVariance true) (garchStart true) garchFeas opt o ∧
    fitMem junk extGjrVariance (fun ret res _ _ => gjrStartMem junk ret res) gjrFeas optj v j
      = fitCore true (gjrVariance true) (fun ret res _ _ => gjrStart true ret res) gjrFeas optj j := by
  constructor
  · refine fitMem_eq junk o v ho (hdo.imp id Or.inl) _ _ (fun p r bc b => extVariance_eq _ _ r b) _ _ ?_ _ _
    intro r bc b hb
    unfold garchStartMem garchStart
    have : (fun p => extGarchVariance p r bc b) = fun p => garchVariance true p r.toList bc (pairs b) := by
      funext p
      rw [← hb]
      exact extVariance_eq _ _ r b
    rw [this]
  · refine fitMem_eq junk j v hj (hdj.imp id Or.inl) _ _ (fun p r bc b => extVariance_eq _ _ r b) _ _ ?_ _ _
    intro r bc b hb
    unfold gjrStartMem gjrStart
    obtain ⟨b1, b2⟩ := varianceBoundsMem_eq junk r hb
    simp only [bind, Except.bind]
    cases hvb : varianceBounds true r.toList with
    | error e => rw [b1 e hvb]
    | ok l =>
      obtain ⟨b', hb', hbl, hs0, hs1⟩ := b2 l hvb
      rw [hb']
      have hp : pairs b' = l := (pairs_dense hs0 hs1).trans hbl
      have : (fun p => extGjrVariance p r (backcast r.toList) b')
          = fun p => gjrVariance true p r.toList (backcast r.toList) l := by
        funext p
        rw [← hp]
        have h := extVariance_eq (gjrNextCpp p) (p.omega + (p.alpha + p.gamma / 2 + p.beta) * backcast r.toList) r b'
        rw [hb] at h
        exact h
      simp only [this]

/-- the hypotheses of `C131_dense` and `C131_fit` hold of a dense array of three returns in a larger memory, with
dense bounds, and for a model with a mean also of every second cell -/
example : ∃ (v w : Strided) (b : Strided2) (o : GarchObj GarchVar),
    v.stride = 1 ∧ v.toList = [5, 6, 7] ∧ b.stride0 = 2 ∧ b.stride1 = 1 ∧
    w.stride = 2 ∧ w.toList = [5, 7] ∧ o.returns = w.toList ∧ o.zeroMean = false := by
  refine ⟨{ mem := fun i => if i = 1 then 5 else if i = 2 then 6 else if i = 3 then 7 else .nan, off := 1,
            stride := 1, len := 3 },
    { mem := fun i => if i = 1 then 5 else if i = 2 then 6 else if i = 3 then 7 else .nan, off := 1,
      stride := 2, len := 2 },
    { mem := fun _ => 1, off := 0, stride0 := 2, stride1 := 1, rows := 3 },
    { returns := [5, 7], zeroMean := false, success := false, params := none, resids := [], sigma2 := [],
      backcast := 0, bounds := none }, rfl, ?_, rfl, rfl, rfl, ?_, ?_, rfl⟩ <;>
  simp [Strided.toList, Strided.get, List.range_succ]

/-- C131. A zero-mean model on a strided view (a column of a matrix, every second return) does not get the variances
of its returns from the extension: two arrays that start at the same place of the same memory give the same
variances whatever elements they select, and there is an array for which the variances differ from those the pure
Python code computes. -/
theorem C131_strided :
    (∀ (v w : Strided) (b : Strided2) (p : GarchVar) (q : GjrVar) (bc : XR),
      v.mem = w.mem → v.off = w.off → v.len = w.len →
      extGarchVariance p v bc b = extGarchVariance p w bc b ∧ extGjrVariance q v bc b = extGjrVariance q w bc b) ∧
    (∃ (v : Strided) (b : Strided2) (p : GarchVar) (bc : XR) (l l' : List XR),
      v.stride = 2 ∧ v.toList = [1, 2, 1] ∧ b.toList = [(1, 100), (1, 100), (1, 100)] ∧
      extGarchVariance p v bc b = .ok l ∧ garchVariance false p v.toList bc b.toList = .ok l' ∧
      l = [2, 2, 1] ∧ l' = [2, 2, 5]) := by
  constructor
  · intro v w b p q bc hm ho hl
    have hb : block v = block w := by
      unfold block Strided.data
      rw [hm, ho, hl]
    have hv := C131_kernels v b p q bc 0 0
    have hw := C131_kernels w b p q bc 0 0
    rw [hv.1, hv.2.1, hw.1, hw.2.1, hb]
    exact ⟨rfl, rfl⟩
  · refine ⟨{ mem := fun i => if i = 0 ∨ i = 4 then 1 else if i = 2 then 2 else 0, off := 0, stride := 2, len := 3 },
      { mem := fun i => if i % 2 = 0 then 1 else 100, off := 0, stride0 := 2, stride1 := 1, rows := 3 },
      ⟨1, 1, 0⟩, 1, [2, 2, 1], [2, 2, 5], rfl, ?_, ?_, ?_, ?_, rfl, rfl⟩
    · simp [Strided.toList, Strided.get, List.range_succ]
    · simp [Strided2.toList, Strided2.row, List.range_succ]
    · simp [extGarchVariance, extVariance, cVariance, Strided.data, Strided2.data, garchNext, boundsCheckCpp,
        XR.one_def, XR.zero_def, XR.ofNat_def, XR.sq]
      norm_num
    · simp [garchVariance, variancePath, varLoop, Strided.toList, Strided.get, Strided2.toList, Strided2.row,
        List.range_succ, garchNext, boundsCheck, boundsCheckPy, XR.one_def, XR.zero_def, XR.ofNat_def, XR.sq, XR.pyMax]
      norm_num

end
end Frds.Props

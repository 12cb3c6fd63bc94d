import Verif.Spec.Absorption
import Mathlib.Analysis.Matrix.Spectrum
import Mathlib.Analysis.Matrix.PosDef
import Mathlib.LinearAlgebra.Matrix.PosDef
import Mathlib.Algebra.Order.Star.Real

/-! Lemmas for the absorption ratio. -/
set_option linter.unusedSimpArgs false
namespace Frds
noncomputable section
open Model Spec Classical

variable {n T : ℕ}

theorem sum_ofFn_fin {m : ℕ} (f : Fin m → ℝ) :
    (List.ofFn fun i => XR.fin (f i)).sum = .fin (∑ i, f i) := by
  have : (List.ofFn fun i => XR.fin (f i)) = (List.ofFn f).map XR.fin := by
    rw [List.map_ofFn]; rfl
  rw [this, XR.sum_map_fin, List.sum_ofFn]

theorem rowMean_retOf (x : Fin n → Fin T → ℝ) (hT : 2 ≤ T) (i : Fin n) :
    rowMean (retOf x) i = .fin (assetMean x i) := by
  have hne : (List.ofFn (x i)) ≠ [] := by
    intro h
    have := congrArg List.length h
    simp at this; omega
  have h := Np.mean_fin hne
  rw [List.map_ofFn] at h
  refine Eq.trans (show rowMean (retOf x) i = Np.mean (List.ofFn (XR.fin ∘ x i)) from rfl) (h.trans ?_)
  rw [List.sum_ofFn, List.length_ofFn]; rfl

theorem npCov_retOf (x : Fin n → Fin T → ℝ) (hT : 2 ≤ T) (i j : Fin n) :
    (npCovMat (retOf x)).at_ i j = .fin (covMatrix x i j) := by
  have hT' : ((T - 1 : ℕ) : ℝ) ≠ 0 := by
    have : T - 1 ≠ 0 := by omega
    exact_mod_cast this
  have hc : ((T - 1 : ℕ) : ℝ) = (T : ℝ) - 1 := by
    rw [Nat.cast_sub (by omega)]; simp
  show (List.ofFn fun t => (XR.fin (x i t) - rowMean (retOf x) i) * (XR.fin (x j t) - rowMean (retOf x) j)).sum
    * (1 / .fin ((T - 1 : ℕ) : ℝ)) = _
  rw [rowMean_retOf x hT, rowMean_retOf x hT, XR.one_def, XR.fin_div _ hT']
  simp only [XR.fin_sub, XR.fin_mul]
  rw [sum_ofFn_fin, XR.fin_mul, covMatrix, Matrix.of_apply, hc]
  congr 1
  rw [mul_one_div]

theorem toReal_retOf (x : Fin n → Fin T → ℝ) (hT : 2 ≤ T) :
    (npCovMat (retOf x)).toReal? = some (covMatrix x) := by
  unfold Cov.toReal?
  have h : ∃ M : Matrix (Fin (npCovMat (retOf x)).n) (Fin (npCovMat (retOf x)).n) ℝ,
      ∀ i j, (npCovMat (retOf x)).at_ i j = .fin (M i j) := ⟨covMatrix x, npCov_retOf x hT⟩
  rw [dif_pos h]
  congr 1
  funext i j
  have h1 := h.choose_spec i j
  exact (XR.fin_inj.1 ((npCov_retOf x hT i j).symm.trans h1)).symm

theorem npTrace_retOf (x : Fin n → Fin T → ℝ) (hT : 2 ≤ T) :
    npTrace (npCovMat (retOf x)) = .fin (covMatrix x).trace := by
  unfold npTrace
  have : (List.ofFn fun i => (npCovMat (retOf x)).at_ i i)
      = (List.ofFn fun i => XR.fin (covMatrix x i i)) := by
    congr 1; funext i; exact npCov_retOf x hT i i
  rw [this]
  exact sum_ofFn_fin _

theorem trace_eq_totalVar (x : Fin n → Fin T → ℝ) : (covMatrix x).trace = totalVar x := by
  simp only [Matrix.trace, Matrix.diag, covMatrix, Matrix.of_apply, totalVar, sq]

theorem covMatrix_psd (x : Fin n → Fin T → ℝ) (hT : 2 ≤ T) : (covMatrix x).PosSemidef := by
  have hpos : (0 : ℝ) < (T : ℝ) - 1 := by
    have : (2 : ℝ) ≤ T := by exact_mod_cast hT
    linarith
  have : covMatrix x = ((T : ℝ) - 1)⁻¹ • ((Matrix.of fun i t => x i t - assetMean x i) *
      (Matrix.of fun i t => x i t - assetMean x i).conjTranspose) := by
    ext i j
    simp only [covMatrix, Matrix.of_apply, Matrix.smul_apply, Matrix.mul_apply,
      Matrix.conjTranspose_apply, smul_eq_mul, star_trivial]
    rw [div_eq_inv_mul]
  rw [this]
  exact (Matrix.posSemidef_self_mul_conjTranspose _).smul (inv_nonneg.2 hpos.le)

theorem covMatrix_symm (x : Fin n → Fin T → ℝ) : (covMatrix x).IsSymm := by
  ext i j
  simp only [Matrix.transpose_apply, covMatrix, Matrix.of_apply]
  congr 1
  exact Finset.sum_congr rfl fun t _ => mul_comm _ _

theorem covMatrix_herm (x : Fin n → Fin T → ℝ) : (covMatrix x).IsHermitian := by
  have := covMatrix_symm x
  rw [Matrix.IsHermitian, Matrix.conjTranspose_eq_transpose_of_trivial]; exact this

theorem covEigs_eq (x : Fin n → Fin T → ℝ) :
    covEigs x = Multiset.map (covMatrix_herm x).eigenvalues Finset.univ.val := by
  rw [covEigs, (covMatrix_herm x).roots_charpoly_eq_eigenvalues]; rfl

theorem covEigs_card (x : Fin n → Fin T → ℝ) : Multiset.card (covEigs x) = n := by
  rw [covEigs_eq]; simp

theorem covEigs_sum (x : Fin n → Fin T → ℝ) : (covEigs x).sum = totalVar x := by
  rw [covEigs_eq, ← trace_eq_totalVar, (covMatrix_herm x).trace_eq_sum_eigenvalues]; rfl

theorem covEigs_nonneg (x : Fin n → Fin T → ℝ) (hT : 2 ≤ T) : ∀ a ∈ covEigs x, 0 ≤ a := by
  rw [covEigs_eq]
  intro a ha
  obtain ⟨i, -, rfl⟩ := Multiset.mem_map.1 ha
  exact (covMatrix_psd x hT).eigenvalues_nonneg i

/-- the ascending list of eigenvalues -/
def eigList (x : Fin n → Fin T → ℝ) : List ℝ := (covEigs x).toList.mergeSort (fun a b => decide (a ≤ b))

theorem eigList_pairwise (x : Fin n → Fin T → ℝ) : (eigList x).Pairwise (· ≤ ·) := by
  have := List.pairwise_mergeSort (le := fun a b : ℝ => decide (a ≤ b))
    (by intro a b c; simp; exact le_trans) (by intro a b; simp; exact le_total a b) (covEigs x).toList
  simpa [eigList] using this

theorem eigList_coe (x : Fin n → Fin T → ℝ) : (eigList x : Multiset ℝ) = covEigs x := by
  rw [eigList, Multiset.coe_eq_coe.2 (List.mergeSort_perm _ _), Multiset.coe_toList]

theorem eigList_length (x : Fin n → Fin T → ℝ) : (eigList x).length = n := by
  rw [← Multiset.coe_card, eigList_coe, covEigs_card]

theorem eigList_sum (x : Fin n → Fin T → ℝ) : (eigList x).sum = totalVar x := by
  rw [← Multiset.sum_coe, eigList_coe, covEigs_sum]

theorem eigList_nonneg (x : Fin n → Fin T → ℝ) (hT : 2 ≤ T) : ∀ a ∈ eigList x, 0 ≤ a := by
  intro a ha
  exact covEigs_nonneg x hT a (by rw [← eigList_coe]; exact ha)

theorem sorted_unique {l : List ℝ} {m : List ℝ} (h : l.Perm m) :
    l.mergeSort (fun a b => decide (a ≤ b)) = m.mergeSort (fun a b => decide (a ≤ b)) := by
  have hp : ∀ k : List ℝ, (k.mergeSort (fun a b => decide (a ≤ b))).Pairwise (· ≤ ·) := by
    intro k
    have := List.pairwise_mergeSort (le := fun a b : ℝ => decide (a ≤ b))
      (by intro a b c; simp; exact le_trans) (by intro a b; simp; exact le_total a b) k
    simpa using this
  exact List.Perm.eq_of_pairwise (fun a b _ _ => le_antisymm) (hp l) (hp m)
    ((List.mergeSort_perm _ _).trans (h.trans (List.mergeSort_perm _ _).symm))

theorem npEig_retOf {eig : EigRoutine} (x : Fin n → Fin T → ℝ) (hn : n ≠ 1) (hT : 2 ≤ T) :
    npEigvals eig (npCovMat (retOf x)) = .ok (eig n (covMatrix x)) := by
  have h1 : ¬ (npCovMat (retOf x)).n = 1 := hn
  unfold npEigvals
  rw [if_neg h1]
  have h2 := toReal_retOf x hT
  split
  · next M hM => rw [hM] at h2; rw [Option.some.inj h2]; rfl
  · next hM => rw [hM] at h2; cases h2

theorem eig_sorted {eig : EigRoutine} (he : EigContract eig) (x : Fin n → Fin T → ℝ) :
    (eig n (covMatrix x)).mergeSort (fun a b => decide (a ≤ b)) = eigList x := by
  refine sorted_unique ?_
  rw [← Multiset.coe_eq_coe, he n _ (covMatrix_symm x), Multiset.coe_toList]; rfl

theorem estimate_eq_mixed (eig : EigRoutine) (o : ArObj) (f : XR) (b : Returns)
    (hc : o.cov.getD (npCovMat o.returns) = npCovMat b)
    (hee : ∀ e, o.eig = some e → npEigvals eig (npCovMat b) = .ok e) :
    (o.estimate eig f).2 = arMixed eig b o.returns.n f := by
  unfold ArObj.estimate ArObj.readEig arMixed ArObj.readCov
  simp only [bind, Except.bind, pure, Except.pure]
  cases hoe : o.eig with
  | some e =>
    rw [hee e hoe]
    dsimp only
    cases hd : decimalInt (f * .fin (o.returns.n : ℝ)) with
    | error x => rfl
    | ok k =>
      dsimp only
      cases hoc : o.cov with
      | some c => rw [hoc] at hc; simp at hc; rw [hc]
      | none => rw [hoc] at hc; simp at hc; simp only [hc]
  | none =>
    cases hoc : o.cov with
    | some c =>
      rw [hoc] at hc; simp at hc; subst hc
      dsimp only
      cases hv : npEigvals eig (npCovMat b) with
      | error x => rfl
      | ok e =>
        dsimp only
        cases hd : decimalInt (f * .fin (o.returns.n : ℝ)) with
        | error x => rfl
        | ok k => simp only [hoc]
    | none =>
      rw [hoc] at hc; simp at hc
      dsimp only
      rw [hc]
      cases hv : npEigvals eig (npCovMat b) with
      | error x => rfl
      | ok e =>
        dsimp only
        cases hd : decimalInt (f * .fin (o.returns.n : ℝ)) with
        | error x => rfl
        | ok k => rfl

theorem arFresh_eq (eig : EigRoutine) (r : Returns) (f : XR) :
    arFresh eig r f = arMixed eig r r.n f :=
  estimate_eq_mixed eig (ArObj.new r) f r rfl (by intro e h; cases h)

/-- closed form on finite data -/
theorem arMixed_retOf {eig : EigRoutine} (he : EigContract eig) (x : Fin n → Fin T → ℝ) (hn : n ≠ 1)
    (hT : 2 ≤ T) (m : ℕ) (f : ℝ) :
    arMixed eig (retOf x) m (.fin f)
      = .ok (.fin (pySliceFrom (eigList x) ((n : ℤ) - roundHalfUp (f * m))).sum / .fin (totalVar x)) := by
  unfold arMixed
  simp only [bind, Except.bind, pure, Except.pure]
  rw [npEig_retOf x hn hT, XR.fin_mul]
  simp only [decimalInt]
  rw [eig_sorted he, eigList_length, npTrace_retOf x hT, trace_eq_totalVar]

theorem roundHalfUp_nonneg {y : ℝ} (h : 0 ≤ y) : 0 ≤ roundHalfUp y := by
  rw [roundHalfUp, if_pos h]; exact Int.floor_nonneg.2 (by linarith)

theorem roundHalfUp_mono {y z : ℝ} (hy : 0 ≤ y) (h : y ≤ z) : roundHalfUp y ≤ roundHalfUp z := by
  rw [roundHalfUp, roundHalfUp, if_pos hy, if_pos (hy.trans h)]
  exact Int.floor_mono (by linarith)

theorem roundHalfUp_nat (k : ℕ) : roundHalfUp k = k := by
  rw [roundHalfUp, if_pos (by positivity), Int.floor_eq_iff]
  push_cast
  constructor <;> linarith

theorem slice_nat {α} (l : List α) (k : ℕ) (h : k ≤ l.length) :
    pySliceFrom l ((l.length : ℤ) - k) = l.drop (l.length - k) := by
  unfold pySliceFrom
  rw [if_neg (by omega)]
  congr 1; omega

theorem sum_drop_antitone {l : List ℝ} (h : ∀ a ∈ l, 0 ≤ a) {i j : ℕ} (hij : i ≤ j) :
    (l.drop j).sum ≤ (l.drop i).sum := by
  obtain ⟨d, rfl⟩ := Nat.exists_eq_add_of_le hij
  rw [← List.drop_drop]
  conv_rhs => rw [← List.sum_take_add_sum_drop (l.drop i) d]
  have : 0 ≤ ((l.drop i).take d).sum :=
    List.sum_nonneg fun a ha => h a (List.mem_of_mem_drop (List.mem_of_mem_take ha))
  linarith

theorem sum_drop_nonneg {l : List ℝ} (h : ∀ a ∈ l, 0 ≤ a) (i : ℕ) : 0 ≤ (l.drop i).sum :=
  List.sum_nonneg fun a ha => h a (List.mem_of_mem_drop ha)

theorem topSum_drop (x : Fin n → Fin T → ℝ) {k : ℕ} (hk : k ≤ n) :
    IsTopSum (covEigs x) k ((eigList x).drop (n - k)).sum := by
  refine ⟨((eigList x).drop (n - k) : List ℝ), ((eigList x).take (n - k) : List ℝ), ?_, ?_, ?_, ?_⟩
  · rw [add_comm, Multiset.coe_add, List.take_append_drop, eigList_coe]
  · rw [Multiset.coe_card, List.length_drop, eigList_length]; omega
  · intro a ha b hb
    have h := eigList_pairwise x
    rw [← List.take_append_drop (n - k) (eigList x), List.pairwise_append] at h
    exact h.2.2 b hb a ha
  · rw [Multiset.sum_coe]

theorem fresh_value {eig : EigRoutine} (he : EigContract eig) (x : Fin n → Fin T → ℝ) (hn : 2 ≤ n)
    (hT : 2 ≤ T) (hv : totalVar x ≠ 0) {f : ℝ} (hf : 0 ≤ f) (hf1 : f ≤ 1) :
    ∃ k : ℕ, (roundHalfUp (f * n)) = k ∧ k ≤ n ∧
      arFresh eig (retOf x) (.fin f) = .ok (.fin (((eigList x).drop (n - k)).sum / totalVar x)) := by
  have h0 : (0 : ℝ) ≤ f * n := by positivity
  have h1 : roundHalfUp (f * n) ≤ n := by
    have := roundHalfUp_mono h0 (show f * n ≤ n from by
      have : (0 : ℝ) ≤ n := by positivity
      nlinarith)
    rwa [roundHalfUp_nat] at this
  obtain ⟨k, hk⟩ := Int.eq_ofNat_of_zero_le (roundHalfUp_nonneg h0)
  have hkn : k ≤ n := by omega
  refine ⟨k, hk, hkn, ?_⟩
  rw [arFresh_eq, show (retOf x).n = n from rfl, arMixed_retOf he x (by omega) hT, hk, XR.fin_div _ hv]
  have := slice_nat (eigList x) k (by rw [eigList_length]; exact hkn)
  rw [eigList_length] at this
  rw [this]

end
end Frds

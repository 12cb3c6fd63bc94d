import Verif.Basic.Lstsq
import Mathlib.Analysis.Matrix.PosDef
import Mathlib.Analysis.Matrix.Spectrum
import Mathlib.Algebra.Order.Star.Real
import Mathlib.LinearAlgebra.Matrix.NonsingularInverse

/-!
# Least squares with the rank cut-off of LAPACK

`np.linalg.lstsq(A, y, rcond=None)` calls `gelsd` with `rcond` = machine precision times `max(M, N)`: singular values that
are at most `rcond` times the largest one are treated as zero. (`Basic/Lstsq` is the case without a cut-off.)
-/
namespace Frds
noncomputable section
open Classical

/-- `A^T A d` -/
def gramMul {n : ℕ} (rows : List (Fin n → ℝ)) (d : Fin n → ℝ) (j : Fin n) : ℝ := (rows.map fun r => r j * dotRow r d).sum

/-- `y . A d` -/
def targetDot {n : ℕ} (rows : List (Fin n → ℝ)) (y : List ℝ) (d : Fin n → ℝ) : ℝ :=
  (List.zipWith (fun r v => v * dotRow r d) rows y).sum

/-- `b` is the solution computed from a singular value decomposition (`s` the singular values, `v` the right singular vectors)
in which every singular value that is at most `rc` times another one (hence at most `rc` times the largest) counts as zero -/
def IsLstsqCut {n : ℕ} (rc : ℝ) (rows : List (Fin n → ℝ)) (y : List ℝ) (b : Fin n → ℝ) : Prop :=
  ∃ (s : Fin n → ℝ) (v : Fin n → Fin n → ℝ), (∀ i, 0 ≤ s i) ∧
    (∀ i k, ∑ j, v i j * v k j = if i = k then 1 else 0) ∧
    (∀ i j, gramMul rows (v i) j = s i ^ 2 * v i j) ∧
    ∀ j, b j = ∑ i, if ∃ k, s i ≤ rc * s k then 0 else targetDot rows y (v i) / s i ^ 2 * v i j

/-- `rcond=None`: machine precision `2^-52` times `max(M, N)` -/
def rcondDefault (M N : ℕ) : ℝ := 1 / 2 ^ 52 * (max M N : ℕ)

/-- contract of `np.linalg.lstsq(., ., rcond=None)[0]` with the cut-off -/
def LstsqFn.CorrectCut (L : LstsqFn) : Prop :=
  ∀ n rows y, rows.length = y.length → IsLstsqCut (rcondDefault rows.length n) rows y (L n rows y)

theorem dotRow_sum {n m : ℕ} (r : Fin n → ℝ) (c : Fin m → ℝ) (v : Fin m → Fin n → ℝ) :
    dotRow r (fun j => ∑ i, c i * v i j) = ∑ i, c i * dotRow r (v i) := by
  simp only [dotRow, Finset.mul_sum]
  rw [Finset.sum_comm]
  exact Finset.sum_congr rfl fun i _ => Finset.sum_congr rfl fun j _ => by ring

/-- orthonormal rows of a square matrix are a basis -/
theorem cols_orthonormal {n : ℕ} {v : Fin n → Fin n → ℝ} (h : ∀ i k, ∑ j, v i j * v k j = if i = k then 1 else 0) (j l : Fin n) :
    ∑ i, v i j * v i l = if j = l then 1 else 0 := by
  let V : Matrix (Fin n) (Fin n) ℝ := Matrix.of v
  have h1 : V * V.transpose = 1 := by
    ext i k
    rw [Matrix.mul_apply, Matrix.one_apply]
    exact h i k
  have h2 : V.transpose * V = 1 := mul_eq_one_comm.mp h1
  have := congrFun (congrFun h2 j) l
  rw [Matrix.mul_apply, Matrix.one_apply] at this
  exact this

theorem expand {n : ℕ} {v : Fin n → Fin n → ℝ} (h : ∀ i k, ∑ j, v i j * v k j = if i = k then 1 else 0) (d : Fin n → ℝ) (j : Fin n) :
    d j = ∑ i, (∑ l, d l * v i l) * v i j := by
  simp only [Finset.sum_mul]
  rw [Finset.sum_comm]
  have : ∀ l, ∑ i, d l * v i l * v i j = d l * (if l = j then 1 else 0) := by
    intro l
    rw [← cols_orthonormal h l j, Finset.mul_sum]
    exact Finset.sum_congr rfl fun i _ => by ring
  simp [this]

theorem targetDot_gram {n : ℕ} (rows : List (Fin n → ℝ)) (y : List ℝ) (hl : rows.length = y.length) (b d : Fin n → ℝ) :
    resDot rows y b d = targetDot rows y d - ∑ j, gramMul rows b j * d j := by
  unfold resDot targetDot gramMul
  induction rows generalizing y with
  | nil => simp
  | cons r t ih =>
    cases y with
    | nil => simp at hl
    | cons u us =>
      simp only [List.zipWith_cons_cons, List.sum_cons, List.map_cons, ih us (by simpa using hl), add_mul, Finset.sum_add_distrib]
      have : ∑ j, r j * dotRow r b * d j = dotRow r b * dotRow r d := by
        rw [dotRow.eq_1 r d, Finset.mul_sum]
        exact Finset.sum_congr rfl fun j _ => by ring
      rw [this]; ring

theorem gram_quad {n : ℕ} (rows : List (Fin n → ℝ)) (d : Fin n → ℝ) :
    ∑ j, gramMul rows d j * d j = (rows.map fun r => dotRow r d ^ 2).sum := by
  unfold gramMul
  induction rows with
  | nil => simp
  | cons r t ih =>
    simp only [List.map_cons, List.sum_cons, add_mul, Finset.sum_add_distrib, ih]
    congr 1
    rw [sq, dotRow.eq_1 r d, Finset.mul_sum]
    exact Finset.sum_congr rfl fun j _ => by ring

theorem targetDot_lin {n m : ℕ} (rows : List (Fin n → ℝ)) (y : List ℝ) (c : Fin m → ℝ) (v : Fin m → Fin n → ℝ) :
    targetDot rows y (fun j => ∑ i, c i * v i j) = ∑ i, c i * targetDot rows y (v i) := by
  unfold targetDot
  induction rows generalizing y with
  | nil => simp
  | cons r t ih =>
    cases y with
    | nil => simp
    | cons u us =>
      simp only [List.zipWith_cons_cons, List.sum_cons]
      rw [ih us, dotRow_sum]
      simp only [mul_add, Finset.sum_add_distrib, Finset.mul_sum]
      congr 1
      exact Finset.sum_congr rfl fun i _ => by ring

theorem gramMul_lin {n m : ℕ} (rows : List (Fin n → ℝ)) (c : Fin m → ℝ) (v : Fin m → Fin n → ℝ) (j : Fin n) :
    gramMul rows (fun j => ∑ i, c i * v i j) j = ∑ i, c i * gramMul rows (v i) j := by
  unfold gramMul
  induction rows with
  | nil => simp
  | cons r t ih =>
    simp only [List.map_cons, List.sum_cons]
    rw [ih, dotRow_sum]
    simp only [mul_add, Finset.sum_add_distrib, Finset.mul_sum]
    congr 1
    exact Finset.sum_congr rfl fun i _ => by ring

/-- a vector that the rows annihilate is orthogonal to every target -/
theorem targetDot_zero {n : ℕ} {rows : List (Fin n → ℝ)} {d : Fin n → ℝ} (h : ∀ j, gramMul rows d j = 0) (y : List ℝ) :
    targetDot rows y d = 0 := by
  have hq : (rows.map fun r => dotRow r d ^ 2).sum = 0 := by rw [← gram_quad]; simp [h]
  have hz : ∀ r ∈ rows, dotRow r d = 0 := by
    clear h
    induction rows with
    | nil => simp
    | cons r t ih =>
      simp only [List.map_cons, List.sum_cons] at hq
      have hn : 0 ≤ (t.map fun r => dotRow r d ^ 2).sum := List.sum_nonneg (by simp only [List.mem_map]; rintro _ ⟨r, _, rfl⟩; positivity)
      have h1 : dotRow r d ^ 2 = 0 := by nlinarith [sq_nonneg (dotRow r d)]
      intro r' hr'
      rcases List.mem_cons.mp hr' with rfl | hr'
      · exact pow_eq_zero_iff two_ne_zero |>.mp h1
      · exact ih (by linarith) r' hr'
  unfold targetDot
  clear hq h
  induction rows generalizing y with
  | nil => simp
  | cons r t ih =>
    cases y with
    | nil => simp
    | cons u us =>
      simp only [List.zipWith_cons_cons, List.sum_cons]
      rw [hz r (by simp), ih us (fun r hr => hz r (by simp [hr]))]
      simp

/-- if no positive singular value is cut off, the result is the least-squares solution of smallest norm -/
theorem uncut {n : ℕ} {rc : ℝ} {rows : List (Fin n → ℝ)} {y : List ℝ} (hl : rows.length = y.length) {b : Fin n → ℝ}
    (s : Fin n → ℝ) (v : Fin n → Fin n → ℝ) (hs : ∀ i, 0 ≤ s i)
    (ho : ∀ i k, ∑ j, v i j * v k j = if i = k then 1 else 0)
    (hg : ∀ i j, gramMul rows (v i) j = s i ^ 2 * v i j)
    (hb : ∀ j, b j = ∑ i, if ∃ k, s i ≤ rc * s k then 0 else targetDot rows y (v i) / s i ^ 2 * v i j) (hrc : 0 ≤ rc)
    (hu : ∀ i k, s i ≤ rc * s k → s i = 0) : IsLstsq rows y b := by
  have hcut : ∀ i, (∃ k, s i ≤ rc * s k) ↔ s i = 0 := by
    intro i
    constructor
    · rintro ⟨k, hk⟩; exact hu i k hk
    · intro h; exact ⟨i, by rw [h]; simp⟩
  obtain ⟨c, hc⟩ : ∃ c : Fin n → ℝ, c = fun i => if s i = 0 then 0 else targetDot rows y (v i) / s i ^ 2 := ⟨_, rfl⟩
  have hb' : b = fun j => ∑ i, c i * v i j := by
    funext j
    rw [hb j]
    refine Finset.sum_congr rfl fun i _ => ?_
    simp only [hcut, hc]
    split_ifs <;> simp
  have hcs : ∀ i, c i * s i ^ 2 = targetDot rows y (v i) := by
    intro i
    rw [hc]
    by_cases h : s i = 0
    · rw [targetDot_zero (d := v i) (fun j => by rw [hg, h]; ring) y]
      simp [h]
    · simp only [h, if_false]; field_simp
  have hLS : IsLS rows y b := by
    rw [isLS_iff]
    intro d
    rw [targetDot_gram rows y hl]
    have e1 : ∀ j, gramMul rows b j = ∑ i, targetDot rows y (v i) * v i j := by
      intro j
      rw [hb', gramMul_lin]
      refine Finset.sum_congr rfl fun i _ => ?_
      rw [hg, ← mul_assoc, hcs]
    have e2 : ∑ j, gramMul rows b j * d j = ∑ i, (∑ l, d l * v i l) * targetDot rows y (v i) := by
      simp only [e1, Finset.sum_mul]
      rw [Finset.sum_comm]
      exact Finset.sum_congr rfl fun i _ => Finset.sum_congr rfl fun j _ => by ring
    have e3 : targetDot rows y d = ∑ i, (∑ l, d l * v i l) * targetDot rows y (v i) := by
      rw [← targetDot_lin]
      congr 1
      funext j
      exact expand ho d j
    rw [e2, e3]; ring
  refine ⟨hLS, fun b' hb'' => ?_⟩
  -- the difference is annihilated by the rows, hence orthogonal to `b`
  have hd := dotRow_zero_of hl hLS hb''
  have horth : ∑ j, b j * (b' j - b j) = 0 := by
    have : ∀ i, c i * ∑ j, v i j * (b' j - b j) = 0 := by
      intro i
      by_cases h : s i = 0
      · simp [hc, h]
      · have h0 : s i ^ 2 * ∑ j, v i j * (b' j - b j) = 0 := by
          rw [Finset.mul_sum]
          have : ∀ j, s i ^ 2 * (v i j * (b' j - b j)) = gramMul rows (v i) j * (b' j - b j) := by
            intro j; rw [hg]; ring
          simp only [this]
          have e : ∑ j, gramMul rows (v i) j * (b' j - b j)
              = (rows.map fun r => dotRow r (v i) * dotRow r (fun j => b' j - b j)).sum := by
            unfold gramMul
            clear hd this hb'' hLS hcs hb' hc hb hu hcut hg hl
            induction rows with
            | nil => simp
            | cons r t ih =>
              simp only [List.map_cons, List.sum_cons, add_mul, Finset.sum_add_distrib, ih]
              congr 1
              rw [dotRow.eq_1 r (fun j => b' j - b j), Finset.mul_sum]
              exact Finset.sum_congr rfl fun j _ => by ring
          rw [e]
          apply List.sum_eq_zero
          intro x hx
          obtain ⟨r, hr, rfl⟩ := List.mem_map.mp hx
          rw [hd r hr, mul_zero]
        rcases mul_eq_zero.mp h0 with h1 | h1
        · exact absurd (pow_eq_zero_iff two_ne_zero |>.mp h1) h
        · rw [h1, mul_zero]
    have e : ∑ j, b j * (b' j - b j) = ∑ i, c i * ∑ j, v i j * (b' j - b j) := by
      rw [hb']
      simp only [Finset.sum_mul, Finset.mul_sum]
      rw [Finset.sum_comm]
      exact Finset.sum_congr rfl fun i _ => Finset.sum_congr rfl fun j _ => by ring
    rw [e]; exact Finset.sum_eq_zero fun i _ => this i
  have e : ∑ j, b' j ^ 2 = ∑ j, b j ^ 2 + 2 * ∑ j, b j * (b' j - b j) + ∑ j, (b' j - b j) ^ 2 := by
    rw [Finset.mul_sum, ← Finset.sum_add_distrib, ← Finset.sum_add_distrib]
    exact Finset.sum_congr rfl fun j _ => by ring
  rw [e, horth]
  have : 0 ≤ ∑ j, (b' j - b j) ^ 2 := Finset.sum_nonneg fun j _ => sq_nonneg _
  linarith

/-- a squared singular value is the squared length of the image of its vector -/
theorem sv_sq {n : ℕ} {rows : List (Fin n → ℝ)} {s : Fin n → ℝ} {v : Fin n → Fin n → ℝ}
    (ho : ∀ i k, ∑ j, v i j * v k j = if i = k then 1 else 0)
    (hg : ∀ i j, gramMul rows (v i) j = s i ^ 2 * v i j) (i : Fin n) :
    s i ^ 2 = (rows.map fun r => dotRow r (v i) ^ 2).sum := by
  rw [← gram_quad]
  simp only [hg]
  have := ho i i
  rw [if_pos rfl] at this
  have e : ∑ j, s i ^ 2 * v i j * v i j = s i ^ 2 * ∑ j, v i j * v i j := by
    rw [Finset.mul_sum]
    exact Finset.sum_congr rfl fun j _ => by ring
  rw [e, this, mul_one]

/-- Cauchy-Schwarz: no singular value exceeds the Frobenius norm -/
theorem sv_le {n : ℕ} {rows : List (Fin n → ℝ)} {d : Fin n → ℝ} (hd : ∑ j, d j ^ 2 = 1) :
    (rows.map fun r => dotRow r d ^ 2).sum ≤ (rows.map fun r => ∑ j, r j ^ 2).sum := by
  apply List.sum_le_sum
  intro r _
  have := Finset.sum_mul_sq_le_sq_mul_sq Finset.univ r d
  rw [hd, mul_one] at this
  exact this

/-- a decomposition always exists: the contract is consistent -/
theorem exists_isLstsqCut {n : ℕ} (rc : ℝ) (rows : List (Fin n → ℝ)) (y : List ℝ) : ∃ b, IsLstsqCut rc rows y b := by
  let A : Matrix (Fin rows.length) (Fin n) ℝ := Matrix.of fun i j => rows.get i j
  let G : Matrix (Fin n) (Fin n) ℝ := A.conjTranspose * A
  have hG : G.PosSemidef := Matrix.posSemidef_conjTranspose_mul_self A
  have hmul : ∀ (d : Fin n → ℝ) j, gramMul rows d j = (G.mulVec d) j := by
    intro d j
    have e1 : gramMul rows d j = ∑ i : Fin rows.length, rows.get i j * dotRow (rows.get i) d := by
      unfold gramMul
      rw [← List.sum_ofFn]
      congr 1
      apply List.ext_get
      · simp
      · intro i h1 h2; simp
    rw [e1]
    show _ = (Matrix.mulVec (A.conjTranspose * A) d) j
    rw [← Matrix.mulVec_mulVec]
    simp only [Matrix.mulVec, dotProduct, Matrix.conjTranspose_apply, star_trivial]
    rfl
  let v : Fin n → Fin n → ℝ := fun i j => hG.1.eigenvectorBasis i j
  let s : Fin n → ℝ := fun i => Real.sqrt (hG.1.eigenvalues i)
  refine ⟨fun j => ∑ i, if ∃ k, s i ≤ rc * s k then 0 else targetDot rows y (v i) / s i ^ 2 * v i j, s, v,
    fun i => Real.sqrt_nonneg _, ?_, ?_, fun j => rfl⟩
  · intro i k
    have := hG.1.eigenvectorBasis.orthonormal
    rw [orthonormal_iff_ite] at this
    have h := this k i
    simp only [PiLp.inner_apply] at h
    have e : ∑ j, v i j * v k j = ∑ j, inner ℝ (hG.1.eigenvectorBasis k j) (hG.1.eigenvectorBasis i j) := by
      exact Finset.sum_congr rfl fun j _ => by simp [v]
    rw [e, h]
    by_cases hik : i = k
    · simp [hik]
    · rw [if_neg hik, if_neg (fun h => hik h.symm)]
  · intro i j
    rw [hmul, Real.sq_sqrt (hG.eigenvalues_nonneg i)]
    have := hG.1.mulVec_eigenvectorBasis i
    have h := congrFun this j
    simpa [v] using h

theorem exists_correctCut : ∃ L : LstsqFn, L.CorrectCut :=
  ⟨fun n rows y => (exists_isLstsqCut (rcondDefault rows.length n) rows y).choose,
    fun n rows y _ => (exists_isLstsqCut (rcondDefault rows.length n) rows y).choose_spec⟩

end
end Frds

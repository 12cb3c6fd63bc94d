import Mathlib.Analysis.InnerProductSpace.Projection.Minimal
import Mathlib.Analysis.InnerProductSpace.PiL2
import Mathlib.Tactic.Linarith
import Mathlib.Tactic.Ring

/-!
# Least squares: the contract of `np.linalg.lstsq`

A design matrix with `n` columns is a list of rows `Fin n → ℝ`.
`np.linalg.lstsq(A, y, rcond=None)[0]` is trusted to return the least-squares solution of
minimal Euclidean norm (in exact arithmetic; the machine-precision cut-off of singular
values is not modelled).
-/
namespace Frds
noncomputable section
open Classical

/-- fitted value of one row -/
def dotRow {n : ℕ} (r b : Fin n → ℝ) : ℝ := ∑ j, r j * b j

/-- residual sum of squares -/
def rss {n : ℕ} (rows : List (Fin n → ℝ)) (y : List ℝ) (b : Fin n → ℝ) : ℝ :=
  (List.zipWith (fun r v => (v - dotRow r b) ^ 2) rows y).sum

/-- `b` minimises the residual sum of squares -/
def IsLS {n : ℕ} (rows : List (Fin n → ℝ)) (y : List ℝ) (b : Fin n → ℝ) : Prop :=
  ∀ b', rss rows y b ≤ rss rows y b'

/-- `b` is the least-squares solution of smallest norm: contract of `np.linalg.lstsq` -/
structure IsLstsq {n : ℕ} (rows : List (Fin n → ℝ)) (y : List ℝ) (b : Fin n → ℝ) : Prop where
  min : IsLS rows y b
  norm : ∀ b', IsLS rows y b' → ∑ j, b j ^ 2 ≤ ∑ j, b' j ^ 2

/-- an implementation of `np.linalg.lstsq(A, y, rcond=None)[0]` -/
abbrev LstsqFn := ∀ n : ℕ, List (Fin n → ℝ) → List ℝ → (Fin n → ℝ)

/-- the implementation meets the contract on all inputs with matching numbers of rows -/
def LstsqFn.Correct (L : LstsqFn) : Prop :=
  ∀ n rows y, rows.length = y.length → IsLstsq rows y (L n rows y)

/-- the design matrix has full column rank -/
def FullRank {n : ℕ} (rows : List (Fin n → ℝ)) : Prop :=
  ∀ v : Fin n → ℝ, (∀ r ∈ rows, dotRow r v = 0) → v = 0

theorem dotRow_add {n : ℕ} (r b d : Fin n → ℝ) (t : ℝ) :
    dotRow r (fun j => b j + t * d j) = dotRow r b + t * dotRow r d := by
  simp only [dotRow, Finset.mul_sum, ← Finset.sum_add_distrib]
  exact Finset.sum_congr rfl fun j _ => by ring

/-- inner product of the residual with the fitted direction `d` -/
def resDot {n : ℕ} (rows : List (Fin n → ℝ)) (y : List ℝ) (b d : Fin n → ℝ) : ℝ :=
  (List.zipWith (fun r v => (v - dotRow r b) * dotRow r d) rows y).sum

/-- squared norm of the fitted direction `d` -/
def fitSq {n : ℕ} (rows : List (Fin n → ℝ)) (y : List ℝ) (d : Fin n → ℝ) : ℝ :=
  (List.zipWith (fun r (_ : ℝ) => dotRow r d ^ 2) rows y).sum

theorem rss_line {n : ℕ} (rows : List (Fin n → ℝ)) (y : List ℝ) (b d : Fin n → ℝ) (t : ℝ) :
    rss rows y (fun j => b j + t * d j)
      = rss rows y b - 2 * t * resDot rows y b d + t ^ 2 * fitSq rows y d := by
  unfold rss resDot fitSq
  induction rows generalizing y with
  | nil => simp
  | cons r rs ih =>
    cases y with
    | nil => simp
    | cons v vs =>
      simp only [List.zipWith_cons_cons, List.sum_cons, ih vs]
      rw [dotRow_add]
      ring

theorem fitSq_nonneg {n : ℕ} (rows : List (Fin n → ℝ)) (y : List ℝ) (d : Fin n → ℝ) :
    0 ≤ fitSq rows y d := by
  unfold fitSq
  induction rows generalizing y with
  | nil => simp
  | cons r rs ih =>
    cases y with
    | nil => simp
    | cons v vs =>
      simp only [List.zipWith_cons_cons, List.sum_cons]
      exact add_nonneg (sq_nonneg _) (ih vs)

theorem fitSq_eq_zero {n : ℕ} {rows : List (Fin n → ℝ)} {y : List ℝ} (hl : rows.length = y.length)
    {d : Fin n → ℝ} (h : fitSq rows y d = 0) : ∀ r ∈ rows, dotRow r d = 0 := by
  induction rows generalizing y with
  | nil => simp
  | cons r rs ih =>
    cases y with
    | nil => simp at hl
    | cons v vs =>
      have hn := fitSq_nonneg rs vs d
      have e : fitSq (r :: rs) (v :: vs) d = dotRow r d ^ 2 + fitSq rs vs d := by
        simp [fitSq]
      rw [e] at h
      have h1 : dotRow r d ^ 2 = 0 := by nlinarith [sq_nonneg (dotRow r d)]
      have h2 : fitSq rs vs d = 0 := by nlinarith [sq_nonneg (dotRow r d)]
      intro r' hr'
      rcases List.mem_cons.mp hr' with rfl | hr'
      · exact pow_eq_zero_iff (two_ne_zero) |>.mp h1
      · exact ih (by simpa using hl) h2 r' hr'

/-- normal equations -/
theorem isLS_iff {n : ℕ} (rows : List (Fin n → ℝ)) (y : List ℝ) (b : Fin n → ℝ) :
    IsLS rows y b ↔ ∀ d, resDot rows y b d = 0 := by
  constructor
  · intro h d
    have hF := fitSq_nonneg rows y d
    by_contra hne
    rcases eq_or_lt_of_le hF with h0 | h0
    · have := h (fun j => b j + (resDot rows y b d) * d j)
      rw [rss_line, ← h0] at this
      nlinarith [sq_nonneg (resDot rows y b d), mul_self_pos.mpr hne]
    · have := h (fun j => b j + (resDot rows y b d / fitSq rows y d) * d j)
      rw [rss_line] at this
      have e : (resDot rows y b d / fitSq rows y d) ^ 2 * fitSq rows y d
          = resDot rows y b d ^ 2 / fitSq rows y d := by field_simp
      have e2 : 2 * (resDot rows y b d / fitSq rows y d) * resDot rows y b d
          = 2 * (resDot rows y b d ^ 2 / fitSq rows y d) := by ring
      rw [e, e2] at this
      have : 0 < resDot rows y b d ^ 2 / fitSq rows y d := by positivity
      linarith
  · intro h b'
    have := rss_line rows y b (fun j => b' j - b j) 1
    have e : (fun j => b j + 1 * (b' j - b j)) = b' := by funext j; ring
    rw [e, h] at this
    rw [this]
    have := fitSq_nonneg rows y (fun j => b' j - b j)
    linarith

/-- with full column rank the least-squares solution is unique -/
theorem isLS_unique {n : ℕ} {rows : List (Fin n → ℝ)} {y : List ℝ} (hl : rows.length = y.length)
    (hr : FullRank rows) {b b' : Fin n → ℝ} (h : IsLS rows y b) (h' : IsLS rows y b') : b = b' := by
  have := rss_line rows y b (fun j => b' j - b j) 1
  have e : (fun j => b j + 1 * (b' j - b j)) = b' := by funext j; ring
  rw [e, (isLS_iff rows y b).mp h] at this
  have hle := h' b
  have h0 : fitSq rows y (fun j => b' j - b j) = 0 := by
    have := fitSq_nonneg rows y (fun j => b' j - b j)
    linarith
  have := hr _ (fitSq_eq_zero hl h0)
  funext j
  have := congrFun this j
  simp at this
  linarith

theorem dotRow_zero_of {n : ℕ} {rows : List (Fin n → ℝ)} {y : List ℝ}
    (hl : rows.length = y.length) {b b' : Fin n → ℝ} (h : IsLS rows y b) (h' : IsLS rows y b') :
    ∀ r ∈ rows, dotRow r (fun j => b' j - b j) = 0 := by
  have := rss_line rows y b (fun j => b' j - b j) 1
  have e : (fun j => b j + 1 * (b' j - b j)) = b' := by funext j; ring
  rw [e, (isLS_iff rows y b).mp h] at this
  have hle := h' b
  have h0 : fitSq rows y (fun j => b' j - b j) = 0 := by
    have := fitSq_nonneg rows y (fun j => b' j - b j)
    linarith
  exact fitSq_eq_zero hl h0

/-- A correct implementation exists: the contract is consistent. -/
theorem exists_isLstsq {n : ℕ} (rows : List (Fin n → ℝ)) (y : List ℝ)
    (hl : rows.length = y.length) : ∃ b, IsLstsq rows y b := by
  let A : EuclideanSpace ℝ (Fin n) →ₗ[ℝ] EuclideanSpace ℝ (Fin rows.length) :=
    { toFun := fun b => WithLp.toLp 2 fun i => dotRow (rows.get i) (fun j => b j)
      map_add' := by
        intro b d; ext i
        simpa using dotRow_add (rows.get i) (fun j => b j) (fun j => d j) 1
      map_smul' := by
        intro c b; ext i
        simp only [dotRow, PiLp.smul_apply, smul_eq_mul, RingHom.id_apply, Finset.mul_sum]
        exact Finset.sum_congr rfl fun j _ => by ring }
  have hA : ∀ b i, A b i = dotRow (rows.get i) (fun j => b j) := fun b i => rfl
  let Y : EuclideanSpace ℝ (Fin rows.length) := WithLp.toLp 2 fun i => y.get (Fin.cast hl i)
  have hrss : ∀ b : EuclideanSpace ℝ (Fin n), rss rows y (fun j => b j) = ‖Y - A b‖ ^ 2 := by
    intro b
    rw [EuclideanSpace.norm_eq, Real.sq_sqrt (Finset.sum_nonneg fun i _ => sq_nonneg _)]
    simp only [rss, Real.norm_eq_abs, sq_abs]
    rw [← List.sum_ofFn]
    congr 1
    apply List.ext_get
    · simp [hl]
    · intro i h1 h2
      simp [hA, Y]
  obtain ⟨c, hc⟩ : ∃ c, A c = (LinearMap.range A).starProjection Y := by
    have := Submodule.starProjection_apply_mem (LinearMap.range A) Y
    exact this
  have hmin : ∀ b, ‖Y - A c‖ ≤ ‖Y - A b‖ := by
    intro b
    rw [hc]
    have hm : A b ∈ LinearMap.range A := ⟨b, rfl⟩
    rw [Submodule.starProjection_minimal]
    exact ciInf_le ⟨0, by rintro _ ⟨x, rfl⟩; exact norm_nonneg _⟩ (⟨A b, hm⟩ : LinearMap.range A)
  -- project onto the orthogonal complement of the kernel
  let K := LinearMap.ker A
  let b := c - K.starProjection c
  have hAb : A b = A c := by
    have : A (K.starProjection c) = 0 := LinearMap.mem_ker.mp (Submodule.starProjection_apply_mem K c)
    simp [b, this]
  have hLS : IsLS rows y (fun j => b j) := by
    intro b'
    have h1 := hrss b
    have h2 := hrss (WithLp.toLp 2 b')
    rw [h1, hAb]
    refine (pow_le_pow_left₀ (norm_nonneg _) (hmin (WithLp.toLp 2 b')) 2).trans ?_
    rw [← h2]
  refine ⟨fun j => b j, hLS, ?_⟩
  intro b' hb'
  have hd := dotRow_zero_of hl hLS hb'
  let D : EuclideanSpace ℝ (Fin n) := WithLp.toLp 2 b' - b
  have hDK : D ∈ K := by
    rw [LinearMap.mem_ker]
    ext i
    rw [hA]
    exact hd (rows.get i) (List.get_mem _ _)
  have horth : inner ℝ b D = 0 := Submodule.starProjection_inner_eq_zero c D hDK
  have hexp : ‖b + D‖ ^ 2 = ‖b‖ ^ 2 + ‖D‖ ^ 2 := by
    rw [norm_add_sq_real, horth]; ring
  have e1 : ‖b‖ ^ 2 = ∑ j, b j ^ 2 := by
    rw [EuclideanSpace.norm_eq, Real.sq_sqrt (Finset.sum_nonneg fun i _ => sq_nonneg _)]
    simp
  have e2 : ‖b + D‖ ^ 2 = ∑ j, b' j ^ 2 := by
    rw [EuclideanSpace.norm_eq, Real.sq_sqrt (Finset.sum_nonneg fun i _ => sq_nonneg _)]
    simp [D]
  rw [← e1, ← e2, hexp]
  have := sq_nonneg ‖D‖
  linarith

theorem exists_correct_lstsq : ∃ L : LstsqFn, L.Correct := by
  refine ⟨fun n rows y => if h : rows.length = y.length then
    (exists_isLstsq rows y h).choose else 0, ?_⟩
  intro n rows y h
  simp only [dif_pos h]
  exact (exists_isLstsq rows y h).choose_spec

end
end Frds

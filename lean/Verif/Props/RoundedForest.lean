import Verif.Model.RoundedForest
import Verif.Lemmas.RoundError
import Verif.Props.IForestPy
import Verif.Props.RoundedError

/-! Property C170: anomaly scores in floating point. -/
set_option linter.unusedSimpArgs false

namespace Frds.Props
noncomputable section
open Frds Frds.Model.IForest Frds.Spec.IForest Classical

namespace RoundedForest
variable {u : ℝ} {k : ℕ} {x y : ℝ}

/-- a relative error as a number of roundings -/
theorem of_rel (hu : 0 ≤ u) (hu1 : u < 1) {j : ℕ} (hj : 4 * ((j : ℝ) * u) ≤ 1) (hx : 0 ≤ x) (h : |y - x| ≤ j * u * x) :
    Close u (2 * j) x y := by
  have ht : 0 ≤ (j : ℝ) * u := by positivity
  have hp : (1 - u) ^ (2 * j) ≤ 1 - j * u := by
    have h1 : 1 - u ≤ Real.exp (-u) := by have := Real.add_one_le_exp (-u); linarith
    have h2 : (1 - u) ^ (2 * j) ≤ Real.exp (-(2 * (j * u))) := by
      calc (1 - u) ^ (2 * j) ≤ Real.exp (-u) ^ (2 * j) := pow_le_pow_left₀ (by linarith) h1 _
        _ = _ := by rw [← Real.exp_nat_mul]; push_cast; ring_nf
    have h3 : 1 + 2 * (j * u) ≤ Real.exp (2 * (j * u)) := by have := Real.add_one_le_exp (2 * (j * u)); linarith
    refine h2.trans ?_
    rw [Real.exp_neg, inv_le_comm₀ (Real.exp_pos _) (by linarith)]
    refine le_trans ?_ h3
    rw [inv_le_comm₀ (by linarith) (by linarith), inv_eq_one_div, div_le_iff₀ (by linarith)]
    nlinarith
  have hp0 : 0 ≤ (1 - u) ^ (2 * j) := pow_nonneg (by linarith) _
  obtain ⟨h1, h2⟩ := abs_le.mp h
  refine ⟨hx, ?_, ?_⟩
  · have := mul_le_mul_of_nonneg_left hp hx; linarith
  · have h3 : y ≤ x * (1 + j * u) := by linarith
    calc y * (1 - u) ^ (2 * j) ≤ x * (1 + j * u) * (1 - u) ^ (2 * j) := mul_le_mul_of_nonneg_right h3 hp0
      _ ≤ x * (1 + j * u) * (1 - j * u) := mul_le_mul_of_nonneg_left hp (by positivity)
      _ ≤ x := by nlinarith [mul_nonneg hx (mul_nonneg ht ht)]

/-- the accuracy assumed of the machine's logarithm: `m` roundings on the positive integers of a C `int` -/
def LogOk (M : Machine) (u : ℝ) (m : ℕ) : Prop :=
  ∀ n : ℕ, 1 ≤ n → n ≤ 2 ^ 31 → ∃ y, M.log (.fin n) = .fin y ∧ M.R.Rep (.fin y) ∧ Close u m (Real.log n) y

/-- the accuracy assumed of `pow(2, ·)` for non-positive arguments: an absolute error of `w`, and a value in `[0, 1]` -/
def PowOk (pow2 : XR → XR) (w : ℝ) : Prop :=
  ∀ x : ℝ, 0 ≤ x → ∃ s, pow2 (.fin (-x)) = .fin s ∧ 0 ≤ s ∧ s ≤ 1 ∧ |s - 2 ^ (-x)| ≤ w

/-- the format is large enough for C integers -/
structure Roomy (M : Machine) (u tiny huge : ℝ) : Prop where
  acc : Accurate M.R u tiny huge
  prec : 31 ≤ M.R.prec
  small : tiny ≤ 1 / 2 ^ 80
  large : 2 ^ 80 ≤ huge

variable {M : Machine} {tiny huge : ℝ}

theorem rep_nat (h : Roomy M u tiny huge) {n : ℕ} (hn : n ≤ 2 ^ 31) : M.R.rd (n : ℝ) = .fin n :=
  M.R.nat n (hn.trans (Nat.pow_le_pow_right (by norm_num) h.prec))

theorem inRange_of (h : Roomy M u tiny huge) {x : ℝ} (h1 : 1 / 2 ^ 79 ≤ x) (h2 : x ≤ 2 ^ 79) : InRange tiny huge x := by
  have a := h.small
  have b := h.large
  norm_num at a b h1 h2
  refine Or.inr ⟨by linarith, by linarith⟩

theorem log_le {n : ℕ} (h1 : 1 ≤ n) (h2 : n ≤ 2 ^ 31) : Real.log n ≤ 2 ^ 31 := by
  have hn : (n : ℝ) ≤ 2 ^ 31 := by exact_mod_cast h2
  have hp : (0 : ℝ) < n := by exact_mod_cast h1
  have := Real.log_le_sub_one_of_pos hp
  linarith

theorem avgPath_bounds {n : ℕ} (h : 2 ≤ n) :
    2 * (Real.log (n - 1) + 0.57721566490153286) + 2 * (n - 1) / n ≤ 15 * avgPath n ∧ 1 / 10 ≤ avgPath n := by
  have h2 : (2 : ℝ) ≤ n := by exact_mod_cast h
  unfold avgPath
  rcases Nat.lt_or_ge n 3 with h3 | h3
  · have : n = 2 := by omega
    subst this
    norm_num
  · have h3' : (3 : ℝ) ≤ n := by exact_mod_cast h3
    have hl : Real.log 2 ≤ Real.log (n - 1) := Real.log_le_log (by norm_num) (by linarith)
    have hl2 : (0.6931471803 : ℝ) < Real.log 2 := Real.log_two_gt_d9
    have hd : 2 * ((n : ℝ) - 1) / n < 2 := by
      rw [div_lt_iff₀ (by linarith)]; linarith
    norm_num at hl2 ⊢
    constructor <;> linarith

theorem avgPath_le {n : ℕ} (h : 2 ≤ n) (hn : n ≤ 2 ^ 31) : avgPath n ≤ 2 ^ 33 := by
  have h2 : (2 : ℝ) ≤ n := by exact_mod_cast h
  have := log_le (n := n - 1) (by omega) (by omega)
  rw [Nat.cast_sub (by omega)] at this
  have hd : 0 ≤ 2 * ((n : ℝ) - 1) / n := div_nonneg (by linarith) (by linarith)
  unfold avgPath
  norm_num at this ⊢
  linarith

/-- the computed average path length: relative error of `60 (m + 2) + 1` roundings (cancellation) -/
theorem avg_close (R : Roomy M u tiny huge) {m : ℕ} (hm : 1 ≤ m) (hlog : LogOk M u m)
    (hu : 120 * ((m + 2 : ℝ) * u) ≤ 1) {n : ℕ} (h2 : 2 ≤ n) (hn : n ≤ 2 ^ 31) :
    ∃ c, Model.RoundedForest.averagePathLength M n = .fin c ∧ M.R.rd c = .fin c ∧ Close u (60 * (m + 2) + 1) (avgPath n) c := by
  have A := R.acc
  have hu0 := A.u_nonneg
  have hm' : (1 : ℝ) ≤ m := by exact_mod_cast hm
  have hu1 : u < 1 := by nlinarith
  have hn2 : (2 : ℝ) ≤ n := by exact_mod_cast h2
  have hcast : ((n - 1 : ℕ) : ℝ) = n - 1 := by rw [Nat.cast_sub (by omega)]; simp
  have e0 : M.R.round (.fin n) = .fin n := rep_nat R hn
  have e1 : M.R.sub (.fin n) 1 = .fin ((n - 1 : ℕ) : ℝ) := by
    show M.R.round (.fin n - 1) = _
    rw [XR.one_def, XR.fin_sub, ← hcast]
    exact rep_nat R (by omega)
  obtain ⟨y, e2, ry, cy⟩ := hlog (n - 1) (by omega) (by omega)
  have hL0 := cy.1
  have hL1 := log_le (n := n - 1) (by omega) (by omega)
  set L := Real.log ((n - 1 : ℕ) : ℝ) with hL
  obtain ⟨g, e3, rg, cg⟩ := A.step hu1 (k := 0) (by simp) (Close.refl (u := u) (x := eulerGamma) (by unfold eulerGamma; norm_num))
    (inRange_of R (by unfold eulerGamma; norm_num) (by unfold eulerGamma; norm_num))
  have hg0 : (0.57721566490153286 : ℝ) = eulerGamma := rfl
  have hgb : (1 / 2 : ℝ) ≤ eulerGamma ∧ eulerGamma ≤ 1 := by unfold eulerGamma; norm_num
  have hmu : 2 * (((m : ℕ) : ℝ) * u) ≤ 1 := by nlinarith
  have hhuge := R.large
  obtain ⟨a, e4, ra, ca⟩ := A.add hu1 hmu cy (cg.mono hu0 hu1 hm) ry rg (by norm_num at hhuge hL1; linarith)
  obtain ⟨p, e5, rp, cp⟩ := A.mul hu1 (k := 0) (l := m + 1) (by push_cast; nlinarith) (Close.refl (u := u) (x := 2) (by norm_num)) ca
    (inRange_of R (by norm_num; linarith) (by norm_num at hL1 ⊢; linarith))
  have hn1 : (1 : ℝ) ≤ ((n - 1 : ℕ) : ℝ) := by rw [hcast]; linarith
  have hn3 : (n : ℝ) ≤ 2147483648 := by exact_mod_cast hn
  obtain ⟨q, e6, rq, cq⟩ := A.mul hu1 (k := 0) (l := 0) (by simp) (Close.refl (u := u) (x := 2) (by norm_num))
    (Close.refl (u := u) (x := ((n - 1 : ℕ) : ℝ)) (by linarith))
    (inRange_of R (by norm_num; linarith) (by rw [hcast]; norm_num; linarith))
  have hQ1 : 1 ≤ 2 * ((n - 1 : ℕ) : ℝ) / n := by rw [le_div_iff₀ (by linarith), hcast]; linarith
  have hQ2 : 2 * ((n - 1 : ℕ) : ℝ) / n ≤ 2 := by rw [div_le_iff₀ (by linarith), hcast]; linarith
  obtain ⟨r, e7, rr, cr⟩ := A.div hu1 (k := 0 + 0 + 1) (l := 0) (by push_cast; nlinarith) cq
    (Close.refl (u := u) (x := (n : ℝ)) (by linarith)) (by linarith)
    (inRange_of R (by norm_num; linarith) (by norm_num; linarith))
  set P := 2 * (L + eulerGamma) with hP
  set Q := 2 * ((n - 1 : ℕ) : ℝ) / n with hQ
  have hD : avgPath n = P - Q := by rw [hP, hQ, hL, hcast]; rfl
  have hPQ : P + Q ≤ 15 * (P - Q) ∧ 1 / 10 ≤ P - Q := by
    have := avgPath_bounds h2
    rw [hD, hg0] at this
    rw [hP, hQ, hL, hcast] at this ⊢
    exact this
  have cp' : Close u (m + 2) P p := cp.mono hu0 hu1 (by omega)
  have cr' : Close u (m + 2) Q r := cr.mono hu0 hu1 (by omega)
  have hku : ((m + 2 : ℕ) : ℝ) * u ≤ 1 / 2 := by push_cast; nlinarith
  have hk0 : (0 : ℝ) ≤ ((m + 2 : ℕ) : ℝ) * u := by positivity
  have half : ∀ {v w : ℝ}, Close u (m + 2) v w → |w - v| ≤ 2 * (((m + 2 : ℕ) : ℝ) * u) * v := by
    intro v w c
    refine (c.error hu0 (by linarith) hu1).trans ?_
    apply mul_le_mul_of_nonneg_right _ c.1
    rw [div_le_iff₀ (by linarith)]
    nlinarith
  have hp := half cp'
  have hq := half cr'
  have hz : |(p - r) - (P - Q)| ≤ ((30 * (m + 2) : ℕ) : ℝ) * u * (P - Q) := by
    rw [show (p - r) - (P - Q) = (p - P) - (r - Q) by ring]
    refine (abs_sub _ _).trans ?_
    have := mul_le_mul_of_nonneg_left hPQ.1 (show 0 ≤ 2 * (((m + 2 : ℕ) : ℝ) * u) by linarith)
    push_cast at this hp hq ⊢
    nlinarith
  have cz := of_rel hu0 hu1 (j := 30 * (m + 2)) (by push_cast; linarith) (by linarith [hPQ.2]) hz
  rw [show 2 * (30 * (m + 2)) = 60 * (m + 2) by ring, ← hD] at cz
  obtain ⟨c, e8, rc, cc⟩ := A.step hu1 (by push_cast; linarith) cz
    (inRange_of R (by rw [hD]; norm_num; linarith [hPQ.2]) (by have := avgPath_le h2 hn; norm_num at this ⊢; linarith))
  refine ⟨c, ?_, rc, cc⟩
  unfold Model.RoundedForest.averagePathLength
  rw [e0, e1, e2, show M.R.round (.fin eulerGamma) = .fin g from e3, e4, XR.ofNat_def 2]
  rw [e5, e6, e7]
  exact e8


/-- the computed value of a leaf -/
def leafValue (M : Machine) (k n : ℕ) : XR :=
  if n ≤ 1 then M.R.round (.fin k)
  else M.R.add (M.R.round (.fin k)) (Model.RoundedForest.averagePathLength M n)

theorem path_route (d : Data) (o : ℕ) (t : Tree) : ∀ (k n : ℕ), leafAt t (route d scoreLeft o t) = some n →
    Model.RoundedForest.pathLength M d o t k = leafValue M (k + (route d scoreLeft o t).length) n := by
  induction t with
  | leaf m =>
    intro k n h
    simp only [route, leafAt, Option.some.injEq] at h
    subst h
    rfl
  | numNode a v m l r il ir =>
    intro k n h
    by_cases hs : scoreLeft v (d.num a o)
    · simp only [route, if_pos hs, leafAt, if_true] at h ⊢
      simp only [Model.RoundedForest.pathLength, if_pos (show d.num a o < v from hs), il (k + 1) n h, List.length_cons]
      rw [show k + 1 + (route d scoreLeft o l).length = k + ((route d scoreLeft o l).length + 1) by omega]
    · simp only [route, if_neg hs, leafAt, Bool.false_eq_true, if_false] at h ⊢
      simp only [Model.RoundedForest.pathLength, if_neg (show ¬ d.num a o < v from hs), ir (k + 1) n h, List.length_cons]
      rw [show k + 1 + (route d scoreLeft o r).length = k + ((route d scoreLeft o r).length + 1) by omega]
  | chrNode a v m l r il ir =>
    intro k n h
    by_cases hs : charLeft v (d.cstr (a - d.nNum) o)
    · simp only [route, if_pos hs, leafAt, if_true] at h ⊢
      simp only [Model.RoundedForest.pathLength, if_pos ((strLess_iff _ _).mpr hs), il (k + 1) n h, List.length_cons]
      rw [show k + 1 + (route d scoreLeft o l).length = k + ((route d scoreLeft o l).length + 1) by omega]
    · simp only [route, if_neg hs, leafAt, Bool.false_eq_true, if_false] at h ⊢
      simp only [Model.RoundedForest.pathLength, if_neg (fun hh => hs ((strLess_iff _ _).mp hh)), ir (k + 1) n h,
        List.length_cons]
      rw [show k + 1 + (route d scoreLeft o r).length = k + ((route d scoreLeft o r).length + 1) by omega]

theorem leaf_close (R : Roomy M u tiny huge) {m : ℕ} (hm : 1 ≤ m) (hlog : LogOk M u m)
    (hu : 124 * ((m + 2 : ℝ) * u) ≤ 1) {k n : ℕ} (hk : k ≤ 2 ^ 31) (hn : n ≤ 2 ^ 31) :
    ∃ c, leafValue M k n = .fin c ∧ M.R.rd c = .fin c ∧ Close u (60 * (m + 2) + 2) (pathValue k n) c := by
  have A := R.acc
  have hu0 := A.u_nonneg
  have hm' : (1 : ℝ) ≤ m := by exact_mod_cast hm
  have hu1 : u < 1 := by nlinarith
  have e0 : M.R.round (.fin k) = .fin k := rep_nat R hk
  unfold leafValue pathValue
  by_cases h : n ≤ 1
  · rw [if_pos h, if_pos h, e0, add_zero]
    exact ⟨k, rfl, e0, (Close.refl (u := u) (by positivity)).mono hu0 hu1 (Nat.zero_le _)⟩
  · rw [if_neg h, if_neg h, e0]
    obtain ⟨c, e1, rc, cc⟩ := avg_close R hm hlog (by nlinarith) (n := n) (by omega) hn
    rw [e1]
    have h1 := avgPath_le (n := n) (by omega) hn
    have h3 : (k : ℝ) ≤ 2147483648 := by exact_mod_cast hk
    have h4 := R.large
    norm_num at h1 h4
    exact A.add hu1 (by push_cast; nlinarith) ((Close.refl (u := u) (by positivity)).mono hu0 hu1 (Nat.zero_le _)) cc e0 rc
      (by linarith)

theorem pathValue_bounds {k n : ℕ} (hk : k ≤ 2 ^ 31) (hn : n ≤ 2 ^ 31) :
    (pathValue k n = 0 ∨ 1 / 10 ≤ pathValue k n) ∧ pathValue k n ≤ 2 ^ 34 := by
  have h3 : (k : ℝ) ≤ 2147483648 := by exact_mod_cast hk
  have hk0 : (0 : ℝ) ≤ k := by positivity
  unfold pathValue
  by_cases h : n ≤ 1
  · rw [if_pos h, add_zero]
    refine ⟨?_, by norm_num; linarith⟩
    rcases Nat.eq_zero_or_pos k with h0 | h0
    · exact Or.inl (by simp [h0])
    · exact Or.inr (by have : (1 : ℝ) ≤ k := by exact_mod_cast h0
                       linarith)
  · rw [if_neg h]
    have h1 := avgPath_le (n := n) (by omega) hn
    have h2 := (avgPath_bounds (n := n) (by omega)).2
    norm_num at h1 ⊢
    exact ⟨Or.inr (by linarith), by linarith⟩

/-- observation `o` reaches a leaf of the tree that fits into C integers -/
def Fits (d : Data) (o : ℕ) (t : Tree) : Prop :=
  (route d scoreLeft o t).length ≤ 2 ^ 31 ∧ ∀ n, leafAt t (route d scoreLeft o t) = some n → n ≤ 2 ^ 31

/-- sums of zeros and numbers of at least 1/10 -/
theorem sum_gap (l : List ℝ) (h : ∀ x ∈ l, x = 0 ∨ 1 / 10 ≤ x) : l.sum = 0 ∨ 1 / 10 ≤ l.sum := by
  induction l with
  | nil => exact Or.inl rfl
  | cons a l ih =>
    rw [List.sum_cons]
    rcases h a (by simp) with h1 | h1 <;> rcases ih (fun x hx => h x (List.mem_cons_of_mem _ hx)) with h2 | h2
    · left; linarith
    · right; linarith
    · right; linarith
    · right; linarith

theorem sum_le (l : List ℝ) (B : ℝ) (h : ∀ x ∈ l, x ≤ B) : l.sum ≤ l.length * B := by
  induction l with
  | nil => simp
  | cons a l ih =>
    rw [List.sum_cons, List.length_cons]
    have := ih (fun x hx => h x (List.mem_cons_of_mem _ hx))
    have := h a (by simp)
    push_cast
    linarith

/-- `2 ^ (-x)` at two close exponents -/
theorem pow_close (hu : 0 ≤ u) (hu1 : u < 1) (hk : 2 * ((k : ℝ) * u) ≤ 1) (h : Close u k x y) :
    |(2 : ℝ) ^ (-y) - 2 ^ (-x)| ≤ 2 * (k * u) := by
  have hx := h.1
  have hy := h.nonneg hu1.le
  have hp : 1 - (k : ℝ) * u ≤ (1 - u) ^ k := by
    have := one_add_mul_le_pow (a := -u) (by linarith) k
    simpa [sub_eq_add_neg] using this
  have hku : 0 ≤ (k : ℝ) * u := by positivity
  -- one side at a time
  have side : ∀ a b : ℝ, 0 ≤ a → a ≤ b → b * (1 - k * u) ≤ a → (2 : ℝ) ^ (-a) - 2 ^ (-b) ≤ 2 * (k * u) := by
    intro a b ha hab hb
    have hl2 : 0 < Real.log 2 := Real.log_pos (by norm_num)
    have e1 : (2 : ℝ) ^ (-a) = Real.exp (-(Real.log 2 * a)) := by
      rw [Real.rpow_def_of_pos (by norm_num)]; ring_nf
    have e2 : (2 : ℝ) ^ (-b) = Real.exp (-(Real.log 2 * a)) * Real.exp (-(Real.log 2 * (b - a))) := by
      rw [Real.rpow_def_of_pos (by norm_num), ← Real.exp_add]; ring_nf
    rw [e1, e2]
    set t := Real.log 2 * a with ht
    have ht0 : 0 ≤ t := by positivity
    have h1 : 1 - Real.exp (-(Real.log 2 * (b - a))) ≤ Real.log 2 * (b - a) := by
      have := Real.add_one_le_exp (-(Real.log 2 * (b - a))); linarith
    have h2 : b - a ≤ 2 * (k * u) * a := by nlinarith
    have h3 : t * Real.exp (-t) ≤ 1 := by
      rw [Real.exp_neg, ← div_eq_mul_inv, div_le_one (Real.exp_pos _)]
      have := Real.add_one_le_exp t; linarith
    have hexp := Real.exp_pos (-t)
    calc Real.exp (-t) - Real.exp (-t) * Real.exp (-(Real.log 2 * (b - a)))
        = Real.exp (-t) * (1 - Real.exp (-(Real.log 2 * (b - a)))) := by ring
      _ ≤ Real.exp (-t) * (Real.log 2 * (b - a)) := mul_le_mul_of_nonneg_left h1 hexp.le
      _ ≤ Real.exp (-t) * (Real.log 2 * (2 * (k * u) * a)) :=
          mul_le_mul_of_nonneg_left (mul_le_mul_of_nonneg_left h2 hl2.le) hexp.le
      _ = 2 * (k * u) * (t * Real.exp (-t)) := by rw [ht]; ring
      _ ≤ 2 * (k * u) * 1 := mul_le_mul_of_nonneg_left h3 (by linarith)
      _ = _ := by ring
  have mono : ∀ a b : ℝ, a ≤ b → (2 : ℝ) ^ (-b) ≤ 2 ^ (-a) := fun a b hab =>
    Real.rpow_le_rpow_of_exponent_le (by norm_num) (by linarith)
  rcases le_total x y with hxy | hxy
  · rw [abs_sub_comm, abs_of_nonneg (by linarith [mono x y hxy])]
    exact side x y hx hxy ((mul_le_mul_of_nonneg_left hp hy).trans h.2.2)
  · rw [abs_of_nonneg (by linarith [mono y x hxy])]
    exact side y x hy hxy ((mul_le_mul_of_nonneg_left hp hx).trans h.2.1)

/-- accuracy of one score -/
theorem score_close (R : Roomy M u tiny huge) {m : ℕ} (hm : 1 ≤ m) (hlog : LogOk M u m) {pow2 : XR → XR} {w : ℝ}
    (hpow : PowOk pow2 w) (d : Data) (o ts : ℕ) (h2 : 2 ≤ ts) (hts : ts ≤ 2 ^ 31) (trees : List Tree) (hne : trees ≠ [])
    (hF : trees.length ≤ 2 ^ 31) (hfit : ∀ t ∈ trees, Fits d o t)
    (hu : 4 * ((trees.length + 120 * m + 244 : ℝ) * u) ≤ 1) :
    ∃ s, Model.RoundedForest.anomalyScore M pow2 d ts trees.length trees o = .fin s ∧ 0 ≤ s ∧ s ≤ 1 ∧
      |s - 2 ^ (-avgDepth d o trees / avgPath ts)| ≤ 2 * ((trees.length + 120 * m + 244) * u) + w := by
  have A := R.acc
  have hu0 := A.u_nonneg
  have hm' : (1 : ℝ) ≤ m := by exact_mod_cast hm
  have hF1 : 1 ≤ trees.length := List.length_pos_iff.mpr hne
  have hF1' : (1 : ℝ) ≤ trees.length := by exact_mod_cast hF1
  have hF2 : (trees.length : ℝ) ≤ 2147483648 := by exact_mod_cast hF
  have hmu : 0 ≤ (m : ℝ) * u := by positivity
  have hFu : 0 ≤ (trees.length : ℝ) * u := by positivity
  have hu1 : u < 1 := by nlinarith
  have hhuge := R.large
  norm_num at hhuge
  set v : Tree → ℝ := fun t => pathValue (route d scoreLeft o t).length ((leafAt t (route d scoreLeft o t)).getD 0) with hv
  have hleaf : ∀ t ∈ trees, (route d scoreLeft o t).length ≤ 2 ^ 31 ∧ (leafAt t (route d scoreLeft o t)).getD 0 ≤ 2 ^ 31 := by
    intro t ht
    obtain ⟨n, hn⟩ := leafAt_route d scoreLeft o t
    rw [hn]
    exact ⟨(hfit t ht).1, (hfit t ht).2 n hn⟩
  have hall : List.Forall₂ (fun a r => ∃ y, a = XR.fin y ∧ M.R.rd y = .fin y ∧ Close u (60 * (m + 2) + 2) r y)
      (trees.map fun t => Model.RoundedForest.pathLength M d o t 0) (trees.map v) := by
    rw [List.forall₂_map_left_iff, List.forall₂_map_right_iff, List.forall₂_same]
    intro t ht
    obtain ⟨n, hn⟩ := leafAt_route d scoreLeft o t
    obtain ⟨g1, g2⟩ := hleaf t ht
    rw [path_route d o t 0 n hn, Nat.zero_add, hv]
    simp only [hn, Option.getD_some] at g2 ⊢
    exact leaf_close R hm hlog (by nlinarith) g1 g2
  have hbd : ∀ x ∈ trees.map v, (x = 0 ∨ 1 / 10 ≤ x) ∧ x ≤ 2 ^ 34 := by
    intro x hx
    obtain ⟨t, ht, rfl⟩ := List.mem_map.mp hx
    exact pathValue_bounds (hleaf t ht).1 (hleaf t ht).2
  have hgap := sum_gap (trees.map v) fun x hx => (hbd x hx).1
  have hsum := sum_le (trees.map v) (2 ^ 34) fun x hx => (hbd x hx).2
  rw [List.length_map] at hsum
  norm_num at hsum
  set S := (trees.map v).sum with hS
  obtain ⟨t, e1, rt, ct⟩ := A.sum_close hu1 (Rounding.foldSum_ok (R := M.R) _) (trees.map v) hall
    (by rw [List.length_map]; push_cast; nlinarith) (by rw [← hS]; nlinarith)
  rw [List.length_map, ← hS] at ct
  have eF : M.R.round (.fin trees.length) = .fin trees.length := rep_nat R hF
  have hS0 := ct.1
  have hSF : S / trees.length = 0 ∨ 1 / 21474836480 ≤ S / trees.length := by
    rcases hgap with h0 | h0
    · left; rw [h0, zero_div]
    · right
      rw [le_div_iff₀ (by linarith)]
      linarith
  have hSF2 : S / trees.length ≤ 17179869184 := by rw [div_le_iff₀ (by linarith)]; linarith
  obtain ⟨a, e2, ra, ca⟩ := A.div hu1 (l := 0) (by push_cast [Nat.cast_sub hF1]; nlinarith) ct
    (Close.refl (u := u) (x := (trees.length : ℝ)) (by linarith)) (by linarith)
    (hSF.imp id fun h0 => by
      rcases inRange_of R (x := S / trees.length) (by norm_num; linarith) (by norm_num; linarith) with h | h
      · rw [h] at h0; norm_num at h0
      · exact h)
  obtain ⟨c, e3, rc, cc⟩ := avg_close R hm hlog (by nlinarith) h2 hts
  have hc1 := (avgPath_bounds h2).2
  have hc2 := avgPath_le h2 hts
  norm_num at hc2
  have hE : S / trees.length / avgPath ts = 0 ∨ 1 / 2 ^ 79 ≤ S / trees.length / avgPath ts := by
    rcases hSF with h0 | h0
    · left; rw [h0, zero_div]
    · right
      rw [le_div_iff₀ (by linarith)]
      norm_num at h0 ⊢
      linarith
  have hE2 : S / trees.length / avgPath ts ≤ 2 ^ 79 := by
    rw [div_le_iff₀ (by linarith)]
    norm_num
    linarith
  obtain ⟨q, e4, rq, cq⟩ := A.div hu1 (by push_cast [Nat.cast_sub hF1]; nlinarith) ca cc (by linarith)
    (hE.imp id fun h0 => by
      rcases inRange_of R h0 hE2 with h | h
      · rw [h] at h0; norm_num at h0
      · exact h)
  have cq' : Close u (trees.length + 120 * m + 244) (S / trees.length / avgPath ts) q := cq.mono hu0 hu1 (by omega)
  have hq0 := cq'.nonneg hu1.le
  obtain ⟨s, e5, hs0, hs1, hs⟩ := hpow q hq0
  have e6 : M.R.div (-.fin a) (.fin c) = .fin (-q) := by
    have hc0 : c ≠ 0 := by
      intro h0
      have := cc.2.1
      have hpos : 0 < (1 - u) ^ (60 * (m + 2) + 1) := pow_pos (by linarith) _
      rw [h0] at this
      nlinarith
    have : M.R.rd (a / c) = .fin q := by
      have := e4
      unfold Rounding.div at this
      rwa [XR.fin_div _ hc0] at this
    show M.R.round (-.fin a / .fin c) = _
    rw [XR.fin_neg, XR.fin_div _ hc0, Rounding.round_fin, neg_div, M.R.neg, this, XR.fin_neg]
  have hD : avgDepth d o trees = S / trees.length := rfl
  refine ⟨s, ?_, hs0, hs1, ?_⟩
  · unfold Model.RoundedForest.anomalyScore
    simp only [e1, eF, e2, e3, e6, e5]
  · have hc := pow_close hu0 hu1 (by push_cast; linarith) cq'
    push_cast at hc
    rw [hD, neg_div]
    calc |s - 2 ^ (-(S / trees.length / avgPath ts))|
        = |(s - 2 ^ (-q)) + (2 ^ (-q) - 2 ^ (-(S / trees.length / avgPath ts)))| := by ring_nf
      _ ≤ |s - 2 ^ (-q)| + |2 ^ (-q) - 2 ^ (-(S / trees.length / avgPath ts))| := abs_add_le _ _
      _ ≤ w + 2 * ((trees.length + 120 * m + 244) * u) := add_le_add hs hc
      _ = _ := by ring

/-- leaves are not larger than the tree -/
theorem leaf_le_size {t : Tree} (h : SizesAdd t) : ∀ {p n}, leafAt t p = some n → n ≤ size t := by
  induction t with
  | leaf m => intro p n hp; cases p <;> simp [leafAt, size] at hp ⊢; omega
  | numNode a v m l r il ir =>
    intro p n hp
    obtain ⟨h1, h2, h3⟩ := h
    cases p with
    | nil => simp [leafAt] at hp
    | cons b p =>
      simp only [leafAt] at hp
      simp only [size]
      cases b with
      | true => have := il h2 (by simpa using hp); omega
      | false => have := ir h3 (by simpa using hp); omega
  | chrNode a v m l r il ir =>
    intro p n hp
    obtain ⟨h1, h2, h3⟩ := h
    cases p with
    | nil => simp [leafAt] at hp
    | cons b p =>
      simp only [leafAt] at hp
      simp only [size]
      cases b with
      | true => have := il h2 (by simpa using hp); omega
      | false => have := ir h3 (by simpa using hp); omega

theorem worker_mem {G : Type} (d : Data) (rng : Rng G) (ts : ℕ) : ∀ (j : ℕ) (s : List ℕ) (g : G) (t : Tree),
    t ∈ workerLoop d rng ts j s g → ∃ s' g', t = growTree d rng (maxTreeHeight ts) 0 s' g' ∧
      s'.length ≤ s.length + j * ts
  | 0, _, _, t, h => by simp [workerLoop] at h
  | j + 1, s, g, t, h => by
    rw [workerLoop] at h
    have hlen : (s ++ (rng.sample g d.nObs ts).1).length ≤ s.length + ts := by
      rw [List.length_append, rng.sample_len]; omega
    rcases List.mem_cons.mp h with h | h
    · exact ⟨_, _, h, hlen.trans (by rw [Nat.succ_mul]; omega)⟩
    · obtain ⟨s', g', e, hs⟩ := worker_mem d rng ts j _ _ t h
      exact ⟨s', g', e, hs.trans (by rw [Nat.succ_mul]; omega)⟩

theorem jobs_le (F w i : ℕ) : jobsOf F w i ≤ F := by
  unfold jobsOf
  split_ifs
  · omega
  · exact Nat.div_le_self _ _

/-- every tree of a grown forest fits -/
theorem grown_fits {G : Type} {d : Data} {rng : Rng G} {ts F seed w : ℕ} {trees : List Tree}
    (h : Grown d rng ts F seed w trees) (hF : F * ts ≤ 2 ^ 31) (hF1 : 1 ≤ F) (o : ℕ) : ∀ t ∈ trees, Fits d o t := by
  intro t ht
  have ht' := (grown_perm h).mem_iff.mp ht
  obtain ⟨l, hl, htl⟩ := List.mem_flatten.mp ht'
  obtain ⟨i, _, rfl⟩ := List.mem_map.mp hl
  obtain ⟨s', g', rfl, hs⟩ := worker_mem d rng ts _ _ _ t htl
  simp only [List.length_nil, Nat.zero_add] at hs
  obtain ⟨c1, c2, c3⟩ := C81_sizes d rng (maxTreeHeight ts) s' g'
  have hts : ts ≤ 2 ^ 31 := le_trans (by nlinarith) hF
  have hH : maxTreeHeight ts ≤ 31 := (C81_max_height ts 31).mpr hts
  refine ⟨?_, fun n hn => ?_⟩
  · obtain ⟨n, hn⟩ := leafAt_route d scoreLeft o (growTree d rng (maxTreeHeight ts) 0 s' g')
    exact ((leaf_depth hn).trans (c3.trans hH)).trans (by norm_num)
  · refine (leaf_le_size c2 hn).trans ?_
    rw [c1]
    exact hs.trans ((Nat.mul_le_mul_right ts (jobs_le F w i)).trans hF)

end RoundedForest
open RoundedForest

/-- C170. In floating point, whatever the schedule of the threads, all scores of `nObs` rows are numbers in `[0, 1]` and
differ from the exact scores `2 ^ (-average path length / c(treeSize))` by at most `2 (forestSize + 120 m + 244)` rounding
errors plus the error `w` of `pow`, if the logarithm is correct to `m` rounding errors. -/
theorem C170_accuracy {G : Type} (M : Machine) {u tiny huge w : ℝ} (R : Roomy M u tiny huge) {m : ℕ} (hm : 1 ≤ m)
    (hlog : LogOk M u m) {pow2 : XR → XR} (hpow : PowOk pow2 w) (d : Data) (rng : Rng G)
    (forestSize treeSize seed workers : ℕ) (hw : 1 ≤ workers) (hF : 1 ≤ forestSize) (ht : 2 ≤ treeSize)
    (hsize : forestSize * treeSize ≤ 2 ^ 31) (hu : 4 * ((forestSize + 120 * m + 244 : ℝ) * u) ≤ 1) (out : List XR)
    (h : Model.RoundedForest.IsOutput M pow2 d rng forestSize treeSize seed workers out) :
    out.length = d.nObs ∧ ∀ o < d.nObs, ∃ s e : ℝ, out[o]? = some (.fin s) ∧ 0 ≤ s ∧ s ≤ 1 ∧
      (∀ exact, IsOutput d rng forestSize treeSize seed workers exact → exact[o]? = some (.fin e)) ∧
      |s - e| ≤ 2 * ((forestSize + 120 * m + 244) * u) + w := by
  obtain ⟨trees, hg, hs⟩ := h
  have hlen := (C85_forest d rng treeSize forestSize seed workers hw trees hg).1
  have hne : trees ≠ [] := by
    rintro rfl
    simp only [List.length_nil] at hlen
    omega
  have e0 := C85_scores _ _ _ _ hw _ hs
  refine ⟨by rw [e0]; simp, fun o ho => ?_⟩
  rw [← hlen] at hu
  have hF2 : trees.length ≤ 2 ^ 31 := by rw [hlen]; nlinarith
  have hts : treeSize ≤ 2 ^ 31 := le_trans (by nlinarith) hsize
  obtain ⟨s, e1, h0, h1, h2⟩ := score_close R hm hlog hpow d o treeSize ht hts trees hne hF2
    (grown_fits hg hsize hF o) hu
  rw [hlen] at e1 h2
  refine ⟨s, _, ?_, h0, h1, ?_, h2⟩
  · rw [e0, List.getElem?_map, List.getElem?_range ho, Option.map_some, e1]
  · rintro exact ⟨trees', hg', hs'⟩
    rw [C85_scores _ _ _ _ hw _ hs', List.getElem?_map, List.getElem?_range ho, Option.map_some,
      C85_order d rng treeSize forestSize seed workers trees' trees hg' hg o]
    have := score_fin d treeSize ht trees hne o
    rw [hlen] at this
    rw [this]

/-- C170. Two runs with the same data and arguments, scheduled differently, give scores in which every entry differs by at
most twice that amount. -/
theorem C170_schedules {G : Type} (M : Machine) {u tiny huge w : ℝ} (R : Roomy M u tiny huge) {m : ℕ} (hm : 1 ≤ m)
    (hlog : LogOk M u m) {pow2 : XR → XR} (hpow : PowOk pow2 w) (d : Data) (rng : Rng G)
    (forestSize treeSize seed workers : ℕ) (hw : 1 ≤ workers) (hF : 1 ≤ forestSize) (ht : 2 ≤ treeSize)
    (hsize : forestSize * treeSize ≤ 2 ^ 31) (hu : 4 * ((forestSize + 120 * m + 244 : ℝ) * u) ≤ 1) (out out' : List XR)
    (h : Model.RoundedForest.IsOutput M pow2 d rng forestSize treeSize seed workers out)
    (h' : Model.RoundedForest.IsOutput M pow2 d rng forestSize treeSize seed workers out') :
    out.length = out'.length ∧ ∀ o < d.nObs, ∃ s s' : ℝ, out[o]? = some (.fin s) ∧ out'[o]? = some (.fin s') ∧
      |s - s'| ≤ 2 * (2 * ((forestSize + 120 * m + 244) * u) + w) := by
  obtain ⟨l1, a1⟩ := C170_accuracy M R hm hlog hpow d rng forestSize treeSize seed workers hw hF ht hsize hu out h
  obtain ⟨l2, a2⟩ := C170_accuracy M R hm hlog hpow d rng forestSize treeSize seed workers hw hF ht hsize hu out' h'
  refine ⟨by rw [l1, l2], fun o ho => ?_⟩
  obtain ⟨s, e, g1, _, _, g2, g3⟩ := a1 o ho
  obtain ⟨s', e', g1', _, _, g2', g3'⟩ := a2 o ho
  have hex := (isOutput_iff d rng forestSize treeSize seed workers hw _).mpr rfl
  have q1 := g2 _ hex
  have q2 := g2' _ hex
  rw [q1] at q2
  have : e = e' := by simpa using q2
  subst this
  refine ⟨s, s', g1, g1', ?_⟩
  calc |s - s'| = |(s - e) - (s' - e)| := by ring_nf
    _ ≤ |s - e| + |s' - e| := abs_sub _ _
    _ ≤ _ := by linarith

/-- C170 for binary64 and the default forest of 1000 trees of 256 observations: with a logarithm correct to two rounding
errors and a `pow` with an error of at most `2 ^ -52`, all scores are within `10 ^ -12` of the exact ones. -/
theorem C170_binary64 {G : Type} (M : Machine) (hM : M.R = binary64.rounding) (hlog : LogOk M (2 ^ (-53 : ℤ)) 2)
    {pow2 : XR → XR} (hpow : PowOk pow2 (2 ^ (-52 : ℤ))) (d : Data) (rng : Rng G) (seed workers : ℕ) (hw : 1 ≤ workers)
    (out : List XR) (h : Model.RoundedForest.IsOutput M pow2 d rng 1000 256 seed workers out) :
    out.length = d.nObs ∧ ∀ o < d.nObs, ∃ s e : ℝ, out[o]? = some (.fin s) ∧ 0 ≤ s ∧ s ≤ 1 ∧
      (∀ exact, IsOutput d rng 1000 256 seed workers exact → exact[o]? = some (.fin e)) ∧ |s - e| ≤ 1 / 10 ^ 12 := by
  have A := Format.accurate binary64
  rw [← hM] at A
  have R : Roomy M (2 ^ (-53 : ℤ)) (2 ^ (-1022 : ℤ)) (2 ^ (1023 : ℤ)) :=
    ⟨A, by rw [hM]; norm_num [Format.rounding, binary64], by
      rw [one_div, ← zpow_natCast, ← zpow_neg]
      exact zpow_le_zpow_right₀ (by norm_num) (by norm_num), by
      rw [← zpow_natCast]
      exact zpow_le_zpow_right₀ (by norm_num) (by norm_num)⟩
  obtain ⟨h1, h2⟩ := C170_accuracy M R (m := 2) (by norm_num) hlog hpow d rng 1000 256 seed workers hw (by norm_num)
    (by norm_num) (by norm_num) (by norm_num) out h
  refine ⟨h1, fun o ho => ?_⟩
  obtain ⟨s, e, g1, g2, g3, g4, g5⟩ := h2 o ho
  refine ⟨s, e, g1, g2, g3, g4, g5.trans ?_⟩
  norm_num

/-- the correctly rounded logarithm and power of binary64 meet the assumptions -/
example : LogOk Machine.ieee (2 ^ (-53 : ℤ)) 2 ∧
    PowOk (fun x => binary64.rounding.round (Model.IForest.pow2 x)) (2 ^ (-52 : ℤ)) := by
  have A := Format.accurate binary64
  have hu0 : (0 : ℝ) ≤ 2 ^ (-53 : ℤ) := by positivity
  have hu1 : (2 : ℝ) ^ (-53 : ℤ) < 1 := by norm_num
  have e53 : -((binary64.p : ℕ) : ℤ) = -53 := rfl
  rw [e53] at A
  constructor
  · intro n h1 h2
    have hl0 : 0 ≤ Real.log n := Real.log_nonneg (by exact_mod_cast h1)
    have hl1 := log_le h1 h2
    have hr : InRange (2 ^ binary64.emin) (2 ^ binary64.emax) (Real.log n) := by
      rcases Nat.eq_or_lt_of_le h1 with h | h
      · left; rw [← h]; simp
      · right
        have h3 : Real.log 2 ≤ Real.log n := Real.log_le_log (by norm_num) (by exact_mod_cast h)
        have h4 := Real.log_two_gt_d9
        constructor
        · have : (2 : ℝ) ^ binary64.emin ≤ 2 ^ (-2 : ℤ) := zpow_le_zpow_right₀ (by norm_num) (by norm_num [binary64])
          norm_num at this
          linarith
        · have : (2 : ℝ) ^ (40 : ℤ) ≤ 2 ^ binary64.emax := zpow_le_zpow_right₀ (by norm_num) (by norm_num [binary64])
          norm_num at this hl1
          linarith
    obtain ⟨s, e1, e2, e3⟩ := A.step hu1 (k := 0) (by simp) (Close.refl (u := 2 ^ (-53 : ℤ)) hl0) hr
    refine ⟨s, ?_, e2, e3.mono hu0 hu1 (by norm_num)⟩
    show binary64.rounding.round (XR.log (.fin n)) = _
    rw [XR.fin_log (by exact_mod_cast h1)]
    exact e1
  · intro x hx
    have h0 : (0 : ℝ) < 2 ^ (-x) := by positivity
    have h1 : (2 : ℝ) ^ (-x) ≤ 1 := Real.rpow_le_one_of_one_le_of_nonpos (by norm_num) (by linarith)
    have hb : (1 : ℝ) ≤ 2 ^ binary64.emax := one_le_zpow₀ (by norm_num) (by norm_num [binary64])
    obtain ⟨s, hs⟩ := A.fin (2 ^ (-x)) (by rw [abs_of_pos h0]; linarith)
    refine ⟨s, hs, ?_, ?_, ?_⟩
    · have := Rounding.rd_nonneg (R := binary64.rounding) h0.le
      rw [hs] at this
      exact XR.fin_le.mp this
    · have := Rounding.rd_le_one (R := binary64.rounding) h1
      rw [hs] at this
      exact XR.fin_le.mp this
    · refine (A.err _ _ hs).trans ?_
      have : max |(2 : ℝ) ^ (-x)| (2 ^ binary64.emin) ≤ 1 := by
        rw [abs_of_pos h0]
        exact max_le h1 (zpow_le_one_of_nonpos₀ (by norm_num) (by norm_num [binary64]))
      calc (2 : ℝ) ^ (-53 : ℤ) * max |(2 : ℝ) ^ (-x)| (2 ^ binary64.emin) ≤ 2 ^ (-53 : ℤ) * 1 :=
            mul_le_mul_of_nonneg_left this hu0
        _ ≤ _ := by norm_num

end
end Frds.Props

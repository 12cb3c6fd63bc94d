import Verif.Basic.Accuracy

/-! Relative errors of rounded operations and sums. -/
namespace Frds
noncomputable section
open Classical

/-- zero, or well inside the range of normal numbers -/
def InRange (tiny huge x : ℝ) : Prop := x = 0 ∨ (2 * tiny ≤ x ∧ 2 * x ≤ huge)

namespace Accurate
variable {R : Rounding} {u tiny huge : ℝ} {k l : ℕ} {x y x' y' z : ℝ}

theorem pow_half (A : Accurate R u tiny huge) (hk : 2 * ((k : ℝ) * u) ≤ 1) (hu1 : u < 1) : 1 / 2 ≤ (1 - u) ^ k := by
  have := one_add_mul_le_pow (a := -u) (by linarith) k
  have h2 : 1 + (k : ℝ) * -u = 1 - k * u := by ring
  rw [h2, show 1 + -u = 1 - u by ring] at this
  linarith

/-- rounding a result close to a number in the range -/
theorem step (A : Accurate R u tiny huge) (hu1 : u < 1) (hk : 2 * ((k : ℝ) * u) ≤ 1) (h : Close u k x z)
    (hr : InRange tiny huge x) : ∃ s, R.rd z = .fin s ∧ R.rd s = .fin s ∧ Close u (k + 1) x s := by
  have hp := A.pow_half hk hu1
  have hz := h.nonneg hu1.le
  rcases hr with rfl | ⟨h1, h2⟩
  · have hz0 : z = 0 := by have := h.2.2; nlinarith
    rw [hz0]
    exact ⟨0, Rounding.rd_zero, Rounding.rd_zero, (Close.refl le_rfl).mono A.u_nonneg hu1 (Nat.zero_le _)⟩
  · have hzu : z ≤ huge := by have := h.2.2; nlinarith
    have hzl : tiny ≤ z := by have := h.2.1; have := h.1; nlinarith
    obtain ⟨s, hs⟩ := A.fin z (by rw [abs_of_nonneg hz]; exact hzu)
    have he := A.err z s hs
    rw [abs_of_nonneg hz, max_eq_left hzl] at he
    exact ⟨s, hs, R.idem z s hs, h.trans hu1 (Close.of_err A.u_nonneg hu1 hz he)⟩

/-- rounded sum of two numbers of the format: no underflow -/
theorem step_add (A : Accurate R u tiny huge) (hu1 : u < 1) (hk : 2 * ((k : ℝ) * u) ≤ 1) (hy : R.rd y = .fin y)
    (hy' : R.rd y' = .fin y') (h : Close u k x (y + y')) (hr : 2 * x ≤ huge) :
    ∃ s, R.rd (y + y') = .fin s ∧ R.rd s = .fin s ∧ Close u (k + 1) x s := by
  have hp := A.pow_half hk hu1
  have hz := h.nonneg hu1.le
  have hzu : y + y' ≤ huge := by have := h.2.2; nlinarith
  obtain ⟨s, hs⟩ := A.fin (y + y') (by rw [abs_of_nonneg hz]; exact hzu)
  have he := A.err_add y y' s hy hy' hs
  rw [abs_of_nonneg hz] at he
  exact ⟨s, hs, R.idem _ s hs, h.trans hu1 (Close.of_err A.u_nonneg hu1 hz he)⟩

/-- rounded difference of two numbers of the format, larger minus smaller -/
theorem step_sub (A : Accurate R u tiny huge) (hu1 : u < 1) (hy : R.rd y = .fin y) (hy' : R.rd y' = .fin y')
    (h : y' ≤ y) (hr : y - y' ≤ huge) : ∃ s, R.rd (y - y') = .fin s ∧ R.rd s = .fin s ∧ Close u 1 (y - y') s := by
  have hn : R.rd (-y') = .fin (-y') := by rw [R.neg, hy']; simp
  obtain ⟨s, hs⟩ := A.fin (y - y') (by rw [abs_of_nonneg (by linarith)]; exact hr)
  have he := A.err_add y (-y') s hy hn (by rw [← sub_eq_add_neg]; exact hs)
  rw [← sub_eq_add_neg, abs_of_nonneg (show 0 ≤ y - y' by linarith)] at he
  exact ⟨s, hs, R.idem _ s hs, Close.of_err A.u_nonneg hu1 (by linarith) he⟩

theorem mul (A : Accurate R u tiny huge) (hu1 : u < 1) (hk : 2 * (((k + l : ℕ) : ℝ) * u) ≤ 1) (h : Close u k x y)
    (h' : Close u l x' y') (hr : InRange tiny huge (x * x')) :
    ∃ s, R.mul (.fin y) (.fin y') = .fin s ∧ R.rd s = .fin s ∧ Close u (k + l + 1) (x * x') s :=
  A.step hu1 hk (h.mul hu1 h') hr

theorem div (A : Accurate R u tiny huge) (hu1 : u < 1) (hk : 2 * (((k + l : ℕ) : ℝ) * u) ≤ 1) (h : Close u k x y)
    (h' : Close u l x' y') (hx' : 0 < x') (hr : InRange tiny huge (x / x')) :
    ∃ s, R.div (.fin y) (.fin y') = .fin s ∧ R.rd s = .fin s ∧ Close u (k + l + 1) (x / x') s := by
  have hy' : 0 < y' := by
    have h1 := h'.2.1
    have h2 : 0 < (1 - u) ^ l := pow_pos (by linarith) l
    nlinarith
  obtain ⟨s, h1, h2, h3⟩ := A.step hu1 hk (h.div hu1 h') hr
  refine ⟨s, ?_, h2, h3⟩
  show R.round (.fin y / .fin y') = _
  rw [XR.fin_div _ hy'.ne']
  exact h1

theorem add (A : Accurate R u tiny huge) (hu1 : u < 1) (hk : 2 * ((k : ℝ) * u) ≤ 1) (h : Close u k x y)
    (h' : Close u k x' y') (ry : R.rd y = .fin y) (ry' : R.rd y' = .fin y') (hr : 2 * (x + x') ≤ huge) :
    ∃ s, R.add (.fin y) (.fin y') = .fin s ∧ R.rd s = .fin s ∧ Close u (k + 1) (x + x') s :=
  A.step_add hu1 hk ry ry' (h.add h') hr

/-! ### sums -/

/-- the real number of a finite value -/
def re : XR → ℝ
  | .fin r => r
  | _ => 0

theorem isSum_nil {s : XR} (h : R.IsSum [] s) : s = .fin 0 := by
  have key : ∀ l s, R.IsSum l s → l = [] → s = .fin 0 := by
    intro l s h
    induction h with
    | nil => intro _; rfl
    | single x => intro h; simp at h
    | add _ _ h1 h2 =>
      intro h
      rw [List.append_eq_nil_iff] at h
      rw [h1 h.1, h2 h.2]
      show R.round _ = _
      rw [XR.fin_add, add_zero]
      exact Rounding.rd_zero
    | perm hp _ ih =>
      intro h
      rw [h] at hp
      exact ih hp.eq_nil
  exact key _ _ h rfl

/-- sum of non-negative numbers of the format, in any order and bracketing -/
theorem sum (A : Accurate R u tiny huge) (hu1 : u < 1) {l : List XR} {s : XR} (h : R.IsSum l s)
    (hl : ∀ x ∈ l, ∃ r, x = .fin r ∧ 0 ≤ r ∧ R.rd r = .fin r) (hn : 2 * ((l.length : ℝ) * u) ≤ 1)
    (hr : 2 * (l.map re).sum ≤ huge) :
    ∃ t, s = .fin t ∧ R.rd t = .fin t ∧ Close u (l.length - 1) (l.map re).sum t := by
  have hu := A.u_nonneg
  induction h with
  | nil => exact ⟨0, rfl, Rounding.rd_zero, by simpa using Close.refl le_rfl⟩
  | single x =>
    obtain ⟨r, rfl, hr0, hrr⟩ := hl x (by simp)
    exact ⟨r, rfl, hrr, by simpa [re] using Close.refl hr0⟩
  | @add l₁ l₂ s₁ s₂ g1 g2 h1 h2 =>
    have hpos : ∀ l' : List XR, (∀ x ∈ l', ∃ r, x = .fin r ∧ 0 ≤ r ∧ R.rd r = .fin r) → 0 ≤ (l'.map re).sum := by
      intro l' hl'
      apply List.sum_nonneg
      intro v hv
      obtain ⟨x, hx, rfl⟩ := List.mem_map.mp hv
      obtain ⟨r, rfl, hr0, _⟩ := hl' x hx
      exact hr0
    have hl1 : ∀ x ∈ l₁, ∃ r, x = .fin r ∧ 0 ≤ r ∧ R.rd r = .fin r := fun x hx => hl x (by simp [hx])
    have hl2 : ∀ x ∈ l₂, ∃ r, x = .fin r ∧ 0 ≤ r ∧ R.rd r = .fin r := fun x hx => hl x (by simp [hx])
    have p1 := hpos l₁ hl1
    have p2 := hpos l₂ hl2
    rw [List.map_append, List.sum_append] at hr
    rw [List.length_append] at hn
    push_cast at hn
    have n1 : (0 : ℝ) ≤ l₁.length * u := by positivity
    have n2 : (0 : ℝ) ≤ l₂.length * u := by positivity
    obtain ⟨t1, rfl, r1, c1⟩ := h1 hl1 (by linarith) (by linarith)
    obtain ⟨t2, rfl, r2, c2⟩ := h2 hl2 (by linarith) (by linarith)
    rw [List.map_append, List.sum_append, List.length_append]
    rcases List.eq_nil_or_concat l₁ with rfl | hne1
    · have : t1 = 0 := by simpa using isSum_nil g1
      subst this
      refine ⟨t2, ?_, r2, by simpa using c2⟩
      show R.round _ = _
      rw [XR.fin_add, zero_add]
      exact r2
    rcases List.eq_nil_or_concat l₂ with rfl | hne2
    · have : t2 = 0 := by simpa using isSum_nil g2
      subst this
      refine ⟨t1, ?_, r1, by simpa using c1⟩
      show R.round _ = _
      rw [XR.fin_add, add_zero]
      exact r1
    have hk1 : 1 ≤ l₁.length := by obtain ⟨a, b, rfl⟩ := hne1; simp
    have hk2 : 1 ≤ l₂.length := by obtain ⟨a, b, rfl⟩ := hne2; simp
    obtain ⟨t, a, b, c⟩ := A.add (k := l₁.length + l₂.length - 2) hu1 (by
        have : ((l₁.length + l₂.length - 2 : ℕ) : ℝ) ≤ l₁.length + l₂.length := by
          have : l₁.length + l₂.length - 2 ≤ l₁.length + l₂.length := by omega
          exact_mod_cast this
        nlinarith)
      (c1.mono hu hu1 (by omega)) (c2.mono hu hu1 (by omega)) r1 r2 (by linarith)
    exact ⟨t, a, b, c.mono hu hu1 (by omega)⟩
  | @perm l₁ l₂ s hp _ ih =>
    rw [← hp.length_eq] at hn ⊢
    rw [← (hp.map re).sum_eq] at hr ⊢
    exact ih (fun x hx => hl x (hp.mem_iff.mp hx)) hn hr

/-- sum of numbers close to given ones -/
theorem sum_close (A : Accurate R u tiny huge) (hu1 : u < 1) {l : List XR} {s : XR} (h : R.IsSum l s) (x : List ℝ)
    (hl : List.Forall₂ (fun v r => ∃ y, v = .fin y ∧ R.rd y = .fin y ∧ Close u k r y) l x)
    (hk : 2 * (((k + l.length : ℕ) : ℝ) * u) ≤ 1) (hr : 4 * x.sum ≤ huge) :
    ∃ t, s = .fin t ∧ R.rd t = .fin t ∧ Close u (k + (l.length - 1)) x.sum t := by
  have hu := A.u_nonneg
  have hc : Close u k x.sum (l.map re).sum := by
    clear h hk hr
    induction hl with
    | nil => simpa using (Close.refl (u := u) le_rfl).mono hu hu1 (Nat.zero_le k)
    | cons h _ ih =>
      obtain ⟨y, rfl, _, hy⟩ := h
      simpa [re] using hy.add ih
  have hall : ∀ v ∈ l, ∃ r, v = .fin r ∧ 0 ≤ r ∧ R.rd r = .fin r := by
    clear h hk hr hc
    induction hl with
    | nil => simp
    | cons h _ ih =>
      obtain ⟨y, rfl, hy1, hy2⟩ := h
      intro v hv
      rcases List.mem_cons.mp hv with rfl | hv
      · exact ⟨y, rfl, hy2.nonneg hu1.le, hy1⟩
      · exact ih v hv
  push_cast at hk
  have k0 : (0 : ℝ) ≤ k * u := by positivity
  have n0 : (0 : ℝ) ≤ l.length * u := by positivity
  have hp := A.pow_half (k := k) (by nlinarith) hu1
  have hb : 2 * (l.map re).sum ≤ huge := by
    have h1 := hc.2.2
    have h2 := hc.1
    have h3 := hc.nonneg hu1.le
    nlinarith
  obtain ⟨t, h1, h2, h3⟩ := A.sum hu1 h hall (by nlinarith) hb
  exact ⟨t, h1, h2, hc.trans hu1 h3⟩

end Accurate
/-! ### absolute errors of signed expressions -/

/-- `y` agrees with `x` up to `k` rounding errors relative to the magnitude `B` -/
def Apx (u : ℝ) (k : ℕ) (x B y : ℝ) : Prop := |x| ≤ B ∧ |y - x| * (1 - u) ^ k ≤ (1 - (1 - u) ^ k) * B

namespace Apx
variable {u : ℝ} {k l : ℕ} {x y x' y' B B' : ℝ}

theorem refl : Apx u 0 x |x| x := ⟨le_rfl, by simp⟩

theorem pow_pos (hu1 : u < 1) : 0 < (1 - u) ^ k := _root_.pow_pos (by linarith) k
theorem pow_le (hu : 0 ≤ u) (hu1 : u < 1) : (1 - u) ^ k ≤ 1 := pow_le_one₀ (by linarith) (by linarith)

theorem mag_nonneg (h : Apx u k x B y) : 0 ≤ B := (abs_nonneg x).trans h.1

theorem mono_mag (hu : 0 ≤ u) (hu1 : u < 1) (h : Apx u k x B y) (hB : B ≤ B') : Apx u k x B' y := by
  have := pow_le (k := k) hu hu1
  exact ⟨h.1.trans hB, h.2.trans (mul_le_mul_of_nonneg_left hB (by linarith))⟩

theorem bound (hu1 : u < 1) (h : Apx u k x B y) : |y| * (1 - u) ^ k ≤ B := by
  have hp := pow_pos (u := u) (k := k) hu1
  have h1 : |y| ≤ |y - x| + |x| := by
    have := abs_add_le (y - x) x
    simpa using this
  have h2 := h.2
  have h3 := h.1
  nlinarith

theorem mono (hu : 0 ≤ u) (hu1 : u < 1) (h : Apx u k x B y) (hkl : k ≤ l) : Apx u l x B y := by
  have hp : (1 - u) ^ l ≤ (1 - u) ^ k := pow_le_pow_of_le_one (by linarith) (by linarith) hkl
  have hB := h.mag_nonneg
  refine ⟨h.1, (mul_le_mul_of_nonneg_left hp (abs_nonneg _)).trans (h.2.trans ?_)⟩
  exact mul_le_mul_of_nonneg_right (by linarith) hB

theorem add (h : Apx u k x B y) (h' : Apx u k x' B' y') (hu1 : u < 1) : Apx u k (x + x') (B + B') (y + y') := by
  have hp := pow_pos (u := u) (k := k) hu1
  refine ⟨(abs_add_le x x').trans (add_le_add h.1 h'.1), ?_⟩
  have e : y + y' - (x + x') = (y - x) + (y' - x') := by ring
  have h1 : |y + y' - (x + x')| ≤ |y - x| + |y' - x'| := by rw [e]; exact abs_add_le _ _
  have := mul_le_mul_of_nonneg_right h1 hp.le
  have a := h.2
  have b := h'.2
  nlinarith

theorem neg (h : Apx u k x B y) : Apx u k (-x) B (-y) := by
  refine ⟨by rw [abs_neg]; exact h.1, ?_⟩
  rw [show -y - -x = -(y - x) by ring, abs_neg]
  exact h.2

theorem sub (h : Apx u k x B y) (h' : Apx u k x' B' y') (hu1 : u < 1) : Apx u k (x - x') (B + B') (y - y') := by
  rw [sub_eq_add_neg, sub_eq_add_neg]
  exact h.add h'.neg hu1

theorem mul (hu : 0 ≤ u) (hu1 : u < 1) (h : Apx u k x B y) (h' : Apx u l x' B' y') :
    Apx u (k + l) (x * x') (B * B') (y * y') := by
  have hP := pow_pos (u := u) (k := k) hu1
  have hQ := pow_pos (u := u) (k := l) hu1
  have hP1 := pow_le (k := k) hu hu1
  have hQ1 := pow_le (k := l) hu hu1
  have hB := h.mag_nonneg
  have hB' := h'.mag_nonneg
  refine ⟨by rw [abs_mul]; exact mul_le_mul h.1 h'.1 (abs_nonneg _) hB, ?_⟩
  have e : y * y' - x * x' = (y - x) * y' + x * (y' - x') := by ring
  have h1 : |y * y' - x * x'| ≤ |y - x| * |y'| + |x| * |y' - x'| := by
    rw [e, ← abs_mul, ← abs_mul]; exact abs_add_le _ _
  have b' := h'.bound hu1
  rw [pow_add]
  have hh := h.2
  have hh' := h'.2
  generalize (1 - u) ^ k = P at *
  generalize (1 - u) ^ l = Q at *
  have m1 : (|y - x| * P) * (|y'| * Q) ≤ ((1 - P) * B) * B' :=
    mul_le_mul hh b' (by positivity) (mul_nonneg (by linarith) hB)
  have m2 : (|x| * P) * (|y' - x'| * Q) ≤ (B * P) * ((1 - Q) * B') :=
    mul_le_mul (mul_le_mul_of_nonneg_right h.1 hP.le) hh' (by positivity) (by positivity)
  have m3 := mul_le_mul_of_nonneg_right h1 (mul_nonneg hP.le hQ.le)
  nlinarith

/-- division by an exact number -/
theorem div_const (h : Apx u k x B y) {w : ℝ} (hw : 0 < w) : Apx u k (x / w) (B / w) (y / w) := by
  refine ⟨by rw [abs_div, abs_of_pos hw]; exact div_le_div_of_nonneg_right h.1 hw.le, ?_⟩
  rw [← sub_div, abs_div, abs_of_pos hw, div_mul_eq_mul_div, mul_div_assoc']
  exact div_le_div_of_nonneg_right h.2 hw.le

theorem of_close (hu : 0 ≤ u) (hu1 : u < 1) (h : Close u k x y) : Apx u k x x y := by
  have hP := pow_pos (u := u) (k := k) hu1
  have hP1 := pow_le (k := k) hu hu1
  refine ⟨by rw [abs_of_nonneg h.1], ?_⟩
  have h1 := h.2.1
  have h2 := h.2.2
  have h0 := h.1
  rcases le_total x y with hxy | hxy
  · rw [abs_of_nonneg (by linarith)]
    nlinarith
  · rw [abs_of_nonpos (by linarith)]
    nlinarith

theorem error (hk : (k : ℝ) * u < 1) (hu1 : u < 1) (h : Apx u k x B y) :
    |y - x| ≤ k * u / (1 - k * u) * B := by
  have hb : 1 - (k : ℝ) * u ≤ (1 - u) ^ k := by
    have := one_add_mul_le_pow (a := -u) (by linarith) k
    simpa [sub_eq_add_neg] using this
  have hB := h.mag_nonneg
  have hd : 0 < 1 - (k : ℝ) * u := by linarith
  rw [div_mul_eq_mul_div, le_div_iff₀ hd]
  have h1 := mul_le_mul_of_nonneg_left hb (abs_nonneg (y - x))
  have h2 := h.2
  have h3 : (1 - (1 - u) ^ k) * B ≤ k * u * B := mul_le_mul_of_nonneg_right (by linarith) hB
  linarith

end Apx

namespace Accurate
variable {R : Rounding} {u tiny huge : ℝ} {k l : ℕ} {x y x' y' z B B' : ℝ}

/-- rounding a signed result: underflow is covered by the magnitude -/
theorem round (A : Accurate R u tiny huge) (hu1 : u < 1) (hk : 2 * ((k : ℝ) * u) ≤ 1) (h : Apx u k x B z) (ht : tiny ≤ B)
    (hB : 2 * B ≤ huge) : ∃ s, R.rd z = .fin s ∧ R.rd s = .fin s ∧ Apx u (k + 1) x B s := by
  have hu := A.u_nonneg
  have hp := A.pow_half hk hu1
  have hP := Apx.pow_pos (u := u) (k := k) hu1
  have hP1 := Apx.pow_le (k := k) hu hu1
  have hb := h.bound hu1
  have hB0 := h.mag_nonneg
  obtain ⟨s, hs⟩ := A.fin z (by have := abs_nonneg z; nlinarith)
  refine ⟨s, hs, R.idem z s hs, h.1, ?_⟩
  have he := A.err z s hs
  have h2 := h.2
  rw [pow_succ]
  generalize (1 - u) ^ k = P at *
  have hm : max |z| tiny * P ≤ B := by
    rcases max_cases |z| tiny with ⟨e, _⟩ | ⟨e, _⟩
    · rw [e]; exact hb
    · rw [e]; have := A.tiny_nonneg; nlinarith
  have h1 : |s - x| ≤ |s - z| + |z - x| := by
    have := abs_add_le (s - z) (z - x)
    simpa using this
  have m1 := mul_le_mul_of_nonneg_right he hP.le
  have m2 := mul_le_mul_of_nonneg_right h1 hP.le
  have m3 : |s - x| * P ≤ u * B + (1 - P) * B := by nlinarith
  have m4 := mul_le_mul_of_nonneg_right m3 (show 0 ≤ 1 - u by linarith)
  nlinarith [mul_nonneg (mul_nonneg hu hu) hB0]

/-- rounded sum of signed numbers of the format, in any order and bracketing -/
theorem sum_signed (A : Accurate R u tiny huge) (hu1 : u < 1) {l : List XR} {s : XR} (h : R.IsSum l s)
    (hl : ∀ x ∈ l, ∃ r, x = .fin r ∧ R.rd r = .fin r) (hn : 2 * ((l.length : ℝ) * u) ≤ 1)
    (hr : 2 * (l.map fun v => |re v|).sum ≤ huge) :
    ∃ t, s = .fin t ∧ R.rd t = .fin t ∧ Apx u (l.length - 1) (l.map re).sum (l.map fun v => |re v|).sum t := by
  have hu := A.u_nonneg
  induction h with
  | nil => exact ⟨0, rfl, Rounding.rd_zero, by simpa using Apx.refl (u := u) (x := 0)⟩
  | single x =>
    obtain ⟨r, rfl, hrr⟩ := hl x (by simp)
    exact ⟨r, rfl, hrr, by simpa [re] using Apx.refl (u := u) (x := r)⟩
  | @add l₁ l₂ s₁ s₂ g1 g2 h1 h2 =>
    have hpos : ∀ l' : List XR, 0 ≤ (l'.map fun v => |re v|).sum := by
      intro l'
      apply List.sum_nonneg
      intro v hv
      obtain ⟨x, hx, rfl⟩ := List.mem_map.mp hv
      exact abs_nonneg _
    have p1 := hpos l₁
    have p2 := hpos l₂
    rw [List.map_append, List.sum_append] at hr
    rw [List.length_append] at hn
    push_cast at hn
    have n1 : (0 : ℝ) ≤ l₁.length * u := by positivity
    have n2 : (0 : ℝ) ≤ l₂.length * u := by positivity
    obtain ⟨t1, rfl, r1, c1⟩ := h1 (fun x hx => hl x (by simp [hx])) (by linarith) (by linarith)
    obtain ⟨t2, rfl, r2, c2⟩ := h2 (fun x hx => hl x (by simp [hx])) (by linarith) (by linarith)
    rw [List.map_append, List.sum_append, List.map_append, List.sum_append, List.length_append]
    rcases List.eq_nil_or_concat l₁ with rfl | hne1
    · have : t1 = 0 := by simpa using isSum_nil g1
      subst this
      refine ⟨t2, ?_, r2, by simpa using c2⟩
      show R.round _ = _
      rw [XR.fin_add, zero_add]
      exact r2
    rcases List.eq_nil_or_concat l₂ with rfl | hne2
    · have : t2 = 0 := by simpa using isSum_nil g2
      subst this
      refine ⟨t1, ?_, r1, by simpa using c1⟩
      show R.round _ = _
      rw [XR.fin_add, add_zero]
      exact r1
    have hk1 : 1 ≤ l₁.length := by obtain ⟨a, b, rfl⟩ := hne1; simp
    have hk2 : 1 ≤ l₂.length := by obtain ⟨a, b, rfl⟩ := hne2; simp
    have hk : 2 * (((l₁.length + l₂.length - 2 : ℕ) : ℝ) * u) ≤ 1 := by
      have : ((l₁.length + l₂.length - 2 : ℕ) : ℝ) ≤ l₁.length + l₂.length := by
        have : l₁.length + l₂.length - 2 ≤ l₁.length + l₂.length := by omega
        exact_mod_cast this
      nlinarith
    have hc := (c1.mono hu hu1 (l := l₁.length + l₂.length - 2) (by omega)).add (c2.mono hu hu1 (by omega)) hu1
    -- no underflow in additions
    have hP := Apx.pow_pos (u := u) (k := l₁.length + l₂.length - 2) hu1
    have hP1 := Apx.pow_le (k := l₁.length + l₂.length - 2) hu hu1
    have hp := A.pow_half hk hu1
    have hb := hc.bound hu1
    obtain ⟨t, ht⟩ := A.fin (t1 + t2) (by have := abs_nonneg (t1 + t2); nlinarith)
    have he := A.err_add t1 t2 t r1 r2 ht
    refine ⟨t, ht, R.idem _ t ht, ?_⟩
    have hfin : Apx u (l₁.length + l₂.length - 2 + 1) ((l₁.map re).sum + (l₂.map re).sum)
        ((l₁.map fun v => |re v|).sum + (l₂.map fun v => |re v|).sum) t := by
      refine ⟨hc.1, ?_⟩
      have h2 := hc.2
      have hB0 := hc.mag_nonneg
      rw [pow_succ]
      generalize (1 - u) ^ (l₁.length + l₂.length - 2) = P at *
      generalize (l₁.map re).sum + (l₂.map re).sum = X at *
      generalize (l₁.map fun v => |re v|).sum + (l₂.map fun v => |re v|).sum = B at *
      have h1 : |t - X| ≤ |t - (t1 + t2)| + |t1 + t2 - X| := by
        have := abs_add_le (t - (t1 + t2)) (t1 + t2 - X)
        simpa using this
      have m1 := mul_le_mul_of_nonneg_right he hP.le
      have m2 := mul_le_mul_of_nonneg_right h1 hP.le
      have m3 : |t - X| * P ≤ u * B + (1 - P) * B := by nlinarith
      have m4 := mul_le_mul_of_nonneg_right m3 (show 0 ≤ 1 - u by linarith)
      nlinarith [mul_nonneg (mul_nonneg hu hu) hB0]
    exact hfin.mono hu hu1 (by omega)
  | @perm l₁ l₂ s hp _ ih =>
    rw [← hp.length_eq] at hn ⊢
    rw [← (hp.map _).sum_eq] at hr
    rw [← (hp.map re).sum_eq, ← (hp.map fun v => |re v|).sum_eq]
    exact ih (fun x hx => hl x (hp.mem_iff.mp hx)) hn hr

/-- rounded sum of two numbers of the format: no underflow -/
theorem round_add (A : Accurate R u tiny huge) (hu1 : u < 1) (hk : 2 * ((k : ℝ) * u) ≤ 1) (ry : R.rd y = .fin y)
    (ry' : R.rd y' = .fin y') (h : Apx u k x B (y + y')) (hB : 2 * B ≤ huge) :
    ∃ s, R.rd (y + y') = .fin s ∧ R.rd s = .fin s ∧ Apx u (k + 1) x B s := by
  have hu := A.u_nonneg
  have hP := Apx.pow_pos (u := u) (k := k) hu1
  have hp := A.pow_half hk hu1
  have hb := h.bound hu1
  have hB0 := h.mag_nonneg
  obtain ⟨t, ht⟩ := A.fin (y + y') (by have := abs_nonneg (y + y'); nlinarith)
  have he := A.err_add y y' t ry ry' ht
  refine ⟨t, ht, R.idem _ t ht, h.1, ?_⟩
  have h2 := h.2
  rw [pow_succ]
  generalize (1 - u) ^ k = P at *
  have h1 : |t - x| ≤ |t - (y + y')| + |y + y' - x| := by
    have := abs_add_le (t - (y + y')) (y + y' - x)
    simpa using this
  have m1 := mul_le_mul_of_nonneg_right he hP.le
  have m2 := mul_le_mul_of_nonneg_right h1 hP.le
  have m3 : |t - x| * P ≤ u * B + (1 - P) * B := by nlinarith
  have m4 := mul_le_mul_of_nonneg_right m3 (show 0 ≤ 1 - u by linarith)
  nlinarith [mul_nonneg (mul_nonneg hu hu) hB0]

theorem round_sub (A : Accurate R u tiny huge) (hu1 : u < 1) (hk : 2 * ((k : ℝ) * u) ≤ 1) (ry : R.rd y = .fin y)
    (ry' : R.rd y' = .fin y') (h : Apx u k x B (y - y')) (hB : 2 * B ≤ huge) :
    ∃ s, R.rd (y - y') = .fin s ∧ R.rd s = .fin s ∧ Apx u (k + 1) x B s := by
  have hn : R.rd (-y') = .fin (-y') := by rw [R.neg, ry']; simp
  rw [sub_eq_add_neg] at h ⊢
  exact A.round_add hu1 hk ry hn h hB

/-- sum of numbers agreeing with given ones -/
theorem sum_apx (A : Accurate R u tiny huge) (hu1 : u < 1) {l : List XR} {s : XR} (h : R.IsSum l s) (x : List (ℝ × ℝ))
    (hl : List.Forall₂ (fun v r => ∃ y, v = .fin y ∧ R.rd y = .fin y ∧ Apx u k r.1 r.2 y) l x)
    (hk : 2 * (((k + l.length : ℕ) : ℝ) * u) ≤ 1) (hr : 4 * (x.map Prod.snd).sum ≤ huge) :
    ∃ t, s = .fin t ∧ R.rd t = .fin t ∧ Apx u (k + (l.length - 1)) (x.map Prod.fst).sum (x.map Prod.snd).sum t := by
  have hu := A.u_nonneg
  have hP := Apx.pow_pos (u := u) (k := k) hu1
  have hP1 := Apx.pow_le (k := k) hu hu1
  have hc : Apx u k (x.map Prod.fst).sum (x.map Prod.snd).sum (l.map re).sum := by
    clear h hk hr
    induction hl with
    | nil => simpa using (Apx.refl (u := u) (x := 0)).mono hu hu1 (Nat.zero_le k)
    | cons h _ ih =>
      obtain ⟨y, rfl, _, hy⟩ := h
      simpa [re] using hy.add ih hu1
  have hm : (l.map fun v => |re v|).sum * (1 - u) ^ k ≤ (x.map Prod.snd).sum := by
    clear h hk hr hc
    induction hl with
    | nil => simp
    | cons h _ ih =>
      obtain ⟨y, rfl, _, hy⟩ := h
      have := hy.bound hu1
      rw [List.map_cons, List.sum_cons, List.map_cons, List.sum_cons, add_mul]
      exact add_le_add this ih
  have hall : ∀ v ∈ l, ∃ r, v = .fin r ∧ R.rd r = .fin r := by
    clear h hk hr hc hm
    induction hl with
    | nil => simp
    | cons h _ ih =>
      obtain ⟨y, rfl, hy1, _⟩ := h
      intro v hv
      rcases List.mem_cons.mp hv with rfl | hv
      · exact ⟨y, rfl, hy1⟩
      · exact ih v hv
  push_cast at hk
  have k0 : (0 : ℝ) ≤ k * u := by positivity
  have n0 : (0 : ℝ) ≤ l.length * u := by positivity
  have hp := A.pow_half (k := k) (by nlinarith) hu1
  have hm0 : 0 ≤ (l.map fun v => |re v|).sum := by
    apply List.sum_nonneg
    intro v hv
    obtain ⟨x, _, rfl⟩ := List.mem_map.mp hv
    exact abs_nonneg _
  obtain ⟨t, h1, h2, h3⟩ := A.sum_signed hu1 h hall (by nlinarith) (by nlinarith)
  refine ⟨t, h1, h2, hc.1, ?_⟩
  have hQ := Apx.pow_pos (u := u) (k := l.length - 1) hu1
  have hQ1 := Apx.pow_le (k := l.length - 1) hu hu1
  have c2 := hc.2
  have d2 := h3.2
  have hB0 := hc.mag_nonneg
  rw [pow_add]
  generalize (1 - u) ^ k = P at *
  generalize (1 - u) ^ (l.length - 1) = Q at *
  generalize (x.map Prod.fst).sum = X at *
  generalize (x.map Prod.snd).sum = B at *
  generalize (l.map re).sum = Y at *
  generalize (l.map fun v => |re v|).sum = C at *
  have e : |t - X| ≤ |t - Y| + |Y - X| := by
    have := abs_add_le (t - Y) (Y - X)
    simpa using this
  have m1 : |t - Y| * Q * P ≤ (1 - Q) * (C * P) := by nlinarith
  have m2 : (1 - Q) * (C * P) ≤ (1 - Q) * B := mul_le_mul_of_nonneg_left hm (by linarith)
  have m3 : |Y - X| * P * Q ≤ (1 - P) * B * Q := mul_le_mul_of_nonneg_right c2 hQ.le
  have m4 := mul_le_mul_of_nonneg_right e (mul_nonneg hP.le hQ.le)
  nlinarith

end Accurate

end
end Frds

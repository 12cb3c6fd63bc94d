import Verif.Basic.Float
import Verif.Basic.Np
import Mathlib.Data.List.Perm.Basic

/-! Floating-point operations of a machine: every operation is the exact one followed by rounding; sums are taken in
some order and bracketing. -/
namespace Frds
noncomputable section
open Classical

namespace Rounding
variable (R : Rounding)

/-- numbers of the format (and infinities and NaN) -/
def Rep (x : XR) : Prop := R.round x = x

def add (x y : XR) : XR := R.round (x + y)
def sub (x y : XR) : XR := R.round (x - y)
def mul (x y : XR) : XR := R.round (x * y)
def div (x y : XR) : XR := R.round (x / y)
def sqrt (x : XR) : XR := R.round (XR.sqrt x)

/-- `s` is the sum of the list in some order and bracketing (`np.sum` adds pairwise with several accumulators;
`sum` and the C++ loops add from left to right) -/
inductive IsSum : List XR → XR → Prop
  | nil : IsSum [] (.fin 0)
  | single (x : XR) : IsSum [x] x
  | add {l₁ l₂ : List XR} {s₁ s₂ : XR} : IsSum l₁ s₁ → IsSum l₂ s₂ → IsSum (l₁ ++ l₂) (R.add s₁ s₂)
  | perm {l₁ l₂ : List XR} {s : XR} : l₁.Perm l₂ → IsSum l₁ s → IsSum l₂ s

/-- left-to-right summation -/
def foldSum (l : List XR) : XR := l.foldl R.add (.fin 0)

end Rounding

/-- the arithmetic a program runs on: rounding, summation order (the tag distinguishes calls), `exp` and `log` -/
structure Machine where
  R : Rounding
  sum : ℕ → List XR → XR
  sum_ok : ∀ i l, R.IsSum l (sum i l)
  exp : XR → XR
  log : XR → XR

namespace Rounding
variable {R : Rounding}

theorem rd_zero : R.rd 0 = .fin 0 := by simpa using R.nat 0 (Nat.zero_le _)

theorem rd_ne_nan (r : ℝ) : R.rd r ≠ .nan := by
  intro h
  have := R.mono r r le_rfl
  rw [h] at this
  exact this

theorem round_fin (r : ℝ) : R.round (.fin r) = R.rd r := rfl

theorem round_eq_nan {x : XR} : R.round x = .nan ↔ x = .nan := by
  cases x <;> simp [round, rd_ne_nan]

theorem rep_round (x : XR) : R.Rep (R.round x) := by
  unfold Rep
  cases x with
  | fin r =>
    rw [round_fin]
    rcases h : R.rd r with _ | _ | _ | s
    · rfl
    · rfl
    · rfl
    · exact R.idem r s h
  | _ => rfl

theorem rep_zero : R.Rep (.fin 0) := rd_zero
theorem rep_nat {n : ℕ} (h : n ≤ 2 ^ R.prec) : R.Rep (.fin n) := R.nat n h
theorem rep_one : R.Rep (.fin 1) := by simpa using rep_nat (R := R) (n := 1) Nat.one_le_two_pow

theorem rd_le_one {r : ℝ} (h : r ≤ 1) : R.rd r ≤ .fin 1 := by
  have := R.mono r 1 h
  rwa [show R.rd 1 = .fin 1 from rep_one] at this

theorem rd_nonneg {r : ℝ} (h : 0 ≤ r) : (.fin 0 : XR) ≤ R.rd r := by
  have := R.mono 0 r h
  rwa [rd_zero] at this

theorem round_mono {x y : XR} (h : x ≤ y) : R.round x ≤ R.round y := by
  have hle : ∀ r, R.rd r ≤ .pinf := fun r => by
    have := rd_ne_nan (R := R) r
    cases h : R.rd r <;> first | exact trivial | exact absurd h this
  have hge : ∀ r, XR.ninf ≤ R.rd r := fun r => by
    have := rd_ne_nan (R := R) r
    cases h : R.rd r <;> first | exact trivial | exact absurd h this
  cases x <;> cases y
  case fin.fin a b => exact R.mono a b (XR.fin_le.mp h)
  case fin.pinf a => exact hle a
  case ninf.fin a => exact hge a
  all_goals first
    | exact trivial
    | exact False.elim h

theorem round_le {x y : XR} (hy : R.Rep y) (h : x ≤ y) : R.round x ≤ y := by
  have := round_mono (R := R) h
  rwa [hy] at this

theorem le_round {x y : XR} (hx : R.Rep x) (h : x ≤ y) : x ≤ R.round y := by
  have := round_mono (R := R) h
  rwa [hx] at this

theorem round_nonneg {x : XR} (h : 0 ≤ x) : 0 ≤ R.round x := le_round rep_zero h

theorem rep_add (x y : XR) : R.Rep (R.add x y) := rep_round _
theorem rep_sub (x y : XR) : R.Rep (R.sub x y) := rep_round _
theorem rep_mul (x y : XR) : R.Rep (R.mul x y) := rep_round _
theorem rep_div (x y : XR) : R.Rep (R.div x y) := rep_round _

theorem neg_rep {x : XR} (h : R.Rep x) : R.Rep (-x) := by
  unfold Rep at *
  cases x <;> try rfl
  simp only [XR.fin_neg, round_fin] at *
  rw [R.neg, h]
  rfl

theorem rep_two (h : 1 ≤ R.prec) : R.Rep (.fin 2) := by
  have := rep_nat (R := R) (n := 2) (by calc 2 = 2 ^ 1 := rfl
                                           _ ≤ _ := Nat.pow_le_pow_right (by norm_num) h)
  simpa using this

end Rounding

namespace XR

theorem mul_comm' (x y : XR) : x * y = y * x := by
  cases x <;> cases y <;> first | rfl | (show XR.fin _ = XR.fin _; rw [mul_comm])

theorem le_trans' {x y z : XR} (h1 : x ≤ y) (h2 : y ≤ z) : x ≤ z := Format.xr_le_trans h1 h2
theorem neg_le' {x y : XR} (h : x ≤ y) : -y ≤ -x := Format.xr_neg_le h

theorem le_refl' {x : XR} (h : x ≠ nan) : x ≤ x := by
  cases x <;> first | exact absurd rfl h | exact trivial | exact XR.fin_le.mpr le_rfl

theorem ne_nan_of_le {x y : XR} (h : x ≤ y) : x ≠ nan ∧ y ≠ nan := by
  constructor <;> rintro rfl
  · simp at h
  · simp at h

/-- non-negative values -/
theorem nonneg_cases {x : XR} (h : 0 ≤ x) : x = pinf ∨ ∃ r, 0 ≤ r ∧ x = fin r := by
  cases x with
  | nan => exact absurd h (not_le_nan 0)
  | ninf => exact False.elim h
  | pinf => exact Or.inl rfl
  | fin r => exact Or.inr ⟨r, XR.fin_le.mp h, rfl⟩

theorem nonneg_fin {r : ℝ} : (0 : XR) ≤ fin r ↔ 0 ≤ r := XR.fin_le

theorem add_nonneg' {x y : XR} (hx : 0 ≤ x) (hy : 0 ≤ y) : 0 ≤ x + y := by
  rcases nonneg_cases hx with rfl | ⟨a, ha, rfl⟩ <;> rcases nonneg_cases hy with rfl | ⟨b, hb, rfl⟩ <;>
    first | exact trivial | exact nonneg_fin.mpr (by positivity)

theorem le_add_right' {x y : XR} (hx : 0 ≤ x) (hy : 0 ≤ y) : x ≤ x + y := by
  rcases nonneg_cases hx with rfl | ⟨a, ha, rfl⟩ <;> rcases nonneg_cases hy with rfl | ⟨b, hb, rfl⟩ <;>
    first | exact trivial | exact XR.fin_le.mpr (by linarith)

theorem add_mono' {x y x' y' : XR} (hx : 0 ≤ x) (hy : 0 ≤ y) (hxx : x ≤ x') (hyy : y ≤ y') : x + y ≤ x' + y' := by
  have hx' := le_trans' hx hxx
  have hy' := le_trans' hy hyy
  rcases nonneg_cases hx with rfl | ⟨a, ha, rfl⟩ <;> rcases nonneg_cases hy with rfl | ⟨b, hb, rfl⟩ <;>
    rcases nonneg_cases hx' with rfl | ⟨c, hc, rfl⟩ <;> rcases nonneg_cases hy' with rfl | ⟨d, hd, rfl⟩ <;>
    first
      | exact trivial
      | exact False.elim hxx
      | exact False.elim hyy
      | exact XR.fin_le.mpr (add_le_add (XR.fin_le.mp hxx) (XR.fin_le.mp hyy))

end XR

namespace Rounding
variable {R : Rounding}

theorem add_nonneg {x y : XR} (hx : 0 ≤ x) (hy : 0 ≤ y) : 0 ≤ R.add x y := round_nonneg (XR.add_nonneg' hx hy)

theorem le_add_right {x y : XR} (hr : R.Rep x) (hx : 0 ≤ x) (hy : 0 ≤ y) : x ≤ R.add x y :=
  le_round hr (XR.le_add_right' hx hy)

theorem le_add_left {x y : XR} (hr : R.Rep y) (hx : 0 ≤ x) (hy : 0 ≤ y) : y ≤ R.add x y := by
  unfold add
  rw [XR.add_comm]
  exact le_add_right hr hy hx

/-- a sum of non-negative numbers of the format is non-negative and at least each term -/
theorem IsSum.nonneg {l : List XR} {s : XR} (h : R.IsSum l s) (hl : ∀ x ∈ l, 0 ≤ x ∧ R.Rep x) :
    0 ≤ s ∧ R.Rep s ∧ ∀ x ∈ l, x ≤ s := by
  induction h with
  | nil => exact ⟨XR.fin_le.mpr le_rfl, rep_zero, by simp⟩
  | single x =>
    have := hl x (by simp)
    exact ⟨this.1, this.2, by simpa using XR.le_refl' (XR.ne_nan_of_le this.1).2⟩
  | add _ _ h1 h2 =>
    obtain ⟨a1, b1, c1⟩ := h1 fun x hx => hl x (by simp [hx])
    obtain ⟨a2, b2, c2⟩ := h2 fun x hx => hl x (by simp [hx])
    refine ⟨add_nonneg a1 a2, rep_add _ _, fun x hx => ?_⟩
    rcases List.mem_append.mp hx with h | h
    · exact XR.le_trans' (c1 x h) (le_add_right b1 a1 a2)
    · exact XR.le_trans' (c2 x h) (le_add_left b2 a1 a2)
  | perm hp _ ih =>
    obtain ⟨a, b, c⟩ := ih fun x hx => hl x (hp.mem_iff.mp hx)
    exact ⟨a, b, fun x hx => c x (hp.mem_iff.mpr hx)⟩

/-- terms bounded by integer weights: the sum is bounded by the total weight -/
theorem IsSum.le_weights {l : List XR} {s : XR} (h : R.IsSum l s) (w : XR → ℕ) (hc : (l.map w).sum ≤ 2 ^ R.prec)
    (hl : ∀ x ∈ l, x ≤ .fin (w x) ∧ .fin (-(w x : ℝ)) ≤ x) :
    s ≤ .fin (((l.map w).sum : ℕ)) ∧ .fin (-(((l.map w).sum : ℕ) : ℝ)) ≤ s := by
  induction h with
  | nil => simp [XR.fin_le]
  | single x => simpa using hl x (by simp)
  | @add l₁ l₂ s₁ s₂ _ _ h1 h2 =>
    rw [List.map_append, List.sum_append] at hc
    obtain ⟨a1, b1⟩ := h1 (by omega) fun x hx => hl x (by simp [hx])
    obtain ⟨a2, b2⟩ := h2 (by omega) fun x hx => hl x (by simp [hx])
    obtain ⟨r1, rfl⟩ : ∃ r, s₁ = .fin r := by
      cases s₁ <;> first | exact False.elim a1 | exact False.elim b1 | exact ⟨_, rfl⟩
    obtain ⟨r2, rfl⟩ : ∃ r, s₂ = .fin r := by
      cases s₂ <;> first | exact False.elim a2 | exact False.elim b2 | exact ⟨_, rfl⟩
    rw [XR.fin_le] at a1 b1 a2 b2
    have e : ((((l₁ ++ l₂).map w).sum : ℕ) : ℝ) = ((l₁.map w).sum : ℕ) + ((l₂.map w).sum : ℕ) := by
      rw [List.map_append, List.sum_append]; push_cast; ring
    have hrep : R.Rep (.fin ((((l₁ ++ l₂).map w).sum : ℕ))) :=
      rep_nat (by rw [List.map_append, List.sum_append]; exact hc)
    constructor
    · exact round_le hrep (XR.fin_le.mpr (by rw [e]; linarith))
    · exact le_round (neg_rep hrep) (XR.fin_le.mpr (by rw [e]; linarith))
  | perm hp _ ih =>
    rw [← (hp.map w).sum_eq] at hc ⊢
    exact ih hc fun x hx => hl x (hp.mem_iff.mp hx)

/-- terms between two integers: the sum is between the multiples -/
theorem IsSum.le_mul {l : List XR} {s : XR} (h : R.IsSum l s) (c : ℕ) (hc : c * l.length ≤ 2 ^ R.prec)
    (hl : ∀ x ∈ l, x ≤ .fin c ∧ .fin (-c) ≤ x) :
    s ≤ .fin ((c * l.length : ℕ)) ∧ .fin (-((c * l.length : ℕ) : ℝ)) ≤ s := by
  have e : (l.map fun _ => c).sum = c * l.length := by simp [mul_comm]
  have := h.le_weights (fun _ => c) (by rw [e]; exact hc) hl
  rwa [e] at this

/-- NaN or not negative -/
def Good (x : XR) : Prop := x = .nan ∨ 0 ≤ x

theorem good_round {x : XR} (h : Good x) : Good (R.round x) := by
  rcases h with rfl | h
  · exact Or.inl rfl
  · exact Or.inr (round_nonneg h)

theorem good_xadd {x y : XR} (hx : Good x) (hy : Good y) : Good (x + y) := by
  rcases hx with rfl | hx
  · exact Or.inl (by simp)
  rcases hy with rfl | hy
  · exact Or.inl (by simp)
  exact Or.inr (XR.add_nonneg' hx hy)

theorem good_xmul {x y : XR} (hx : Good x) (hy : Good y) : Good (x * y) := by
  rcases hx with rfl | hx
  · exact Or.inl (by simp)
  rcases hy with rfl | hy
  · exact Or.inl (by simp)
  have hsign : ∀ a : ℝ, 0 ≤ a → Good (XR.infSign a) := by
    intro a ha
    rcases ha.eq_or_lt with rfl | ha
    · exact Or.inl XR.infSign_zero
    · rw [XR.infSign_pos ha]; exact Or.inr trivial
  rcases XR.nonneg_cases hx with rfl | ⟨a, ha, rfl⟩ <;> rcases XR.nonneg_cases hy with rfl | ⟨b, hb, rfl⟩
  · exact Or.inr trivial
  · exact hsign b hb
  · exact hsign a ha
  · exact Or.inr (XR.fin_le.mpr (by positivity))

theorem good_xdiv {x y : XR} (hx : Good x) (hy : Good y) : Good (x / y) := by
  rcases hx with rfl | hx
  · exact Or.inl (by simp)
  rcases hy with rfl | hy
  · exact Or.inl (by simp)
  rcases XR.nonneg_cases hx with rfl | ⟨a, ha, rfl⟩ <;> rcases XR.nonneg_cases hy with rfl | ⟨b, hb, rfl⟩
  · exact Or.inl rfl
  · right
    show 0 ≤ (if b < 0 then XR.ninf else XR.pinf)
    rw [if_neg (by linarith)]
    trivial
  · exact Or.inr (XR.fin_le.mpr le_rfl)
  · rw [XR.fin_div']
    split_ifs with h
    · rcases ha.eq_or_lt with rfl | ha
      · exact Or.inl XR.infSign_zero
      · rw [XR.infSign_pos ha]; exact Or.inr trivial
    · exact Or.inr (XR.fin_le.mpr (by positivity))

theorem good_add {x y : XR} (hx : Good x) (hy : Good y) : Good (R.add x y) := good_round (good_xadd hx hy)
theorem good_mul {x y : XR} (hx : Good x) (hy : Good y) : Good (R.mul x y) := good_round (good_xmul hx hy)
theorem good_div {x y : XR} (hx : Good x) (hy : Good y) : Good (R.div x y) := good_round (good_xdiv hx hy)
theorem good_sqrt {x : XR} : Good (R.sqrt x) := by
  apply good_round
  cases x with
  | fin r =>
    by_cases h : r < 0
    · rw [XR.sqrt_neg h]; exact Or.inl rfl
    · rw [XR.fin_sqrt (not_lt.mp h)]; exact Or.inr (XR.fin_le.mpr (Real.sqrt_nonneg r))
  | nan => exact Or.inl rfl
  | ninf => exact Or.inl rfl
  | pinf => exact Or.inr trivial
theorem good_abs {x : XR} : Good (XR.abs x) := by
  cases x with
  | fin r => exact Or.inr (XR.fin_le.mpr (abs_nonneg r))
  | nan => exact Or.inl rfl
  | ninf => exact Or.inr trivial
  | pinf => exact Or.inr trivial

/-- squares -/
theorem good_square {x : XR} : Good (R.mul x x) := by
  apply good_round
  cases x with
  | fin r => exact Or.inr (XR.fin_le.mpr (mul_self_nonneg r))
  | nan => exact Or.inl rfl
  | ninf => exact Or.inr trivial
  | pinf => exact Or.inr trivial

theorem good_nat (n : ℕ) : Good (.fin n) := Or.inr (XR.fin_le.mpr (Nat.cast_nonneg n))

theorem IsSum.good {l : List XR} {s : XR} (h : R.IsSum l s) (hl : ∀ x ∈ l, Good x) : Good s := by
  induction h with
  | nil => exact Or.inr (XR.fin_le.mpr le_rfl)
  | single x => exact hl x (by simp)
  | add _ _ h1 h2 =>
    exact good_add (h1 fun x hx => hl x (by simp [hx])) (h2 fun x hx => hl x (by simp [hx]))
  | perm hp _ ih => exact ih fun x hx => hl x (hp.mem_iff.mp hx)

/-- left-to-right summation is one of the orders -/
theorem foldSum_ok (l : List XR) : R.IsSum l (R.foldSum l) := by
  have key : ∀ (l : List XR) (l0 : List XR) (s : XR), R.IsSum l0 s → R.IsSum (l0 ++ l) (l.foldl R.add s) := by
    intro l
    induction l with
    | nil => intro l0 s h; simpa using h
    | cons x t ih =>
      intro l0 s h
      have := ih (l0 ++ [x]) (R.add s x) (.add h (.single x))
      simpa using this
  simpa using (show R.IsSum ([] ++ l) (R.foldSum l) from key l [] _ .nil)

end Rounding

namespace Machine

/-- IEEE binary64 arithmetic with left-to-right sums and rounded `exp` and `log` -/
def ieee : Machine where
  R := binary64.rounding
  sum _ l := binary64.rounding.foldSum l
  sum_ok _ l := Rounding.foldSum_ok l
  exp x := binary64.rounding.round (XR.exp x)
  log x := binary64.rounding.round (XR.log x)

theorem exact_round (x : XR) : Rounding.exact.round x = x := by cases x <;> rfl

theorem exact_isSum (l : List XR) : Rounding.exact.IsSum l l.sum := by
  induction l with
  | nil => exact .nil
  | cons x t ih =>
    have := Rounding.IsSum.add (.single x) ih
    rw [Rounding.add, exact_round] at this
    simpa using this

/-- exact arithmetic -/
def exact : Machine where
  R := Rounding.exact
  sum _ l := l.sum
  sum_ok _ l := exact_isSum l
  exp := XR.exp
  log := XR.log

end Machine

end
end Frds

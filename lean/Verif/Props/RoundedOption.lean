import Verif.Model.RoundedOption
import Verif.Model.OptionPrice
import Verif.Spec.Distribution
import Verif.Lemmas.RoundError
import Verif.Props.RoundedError
import Verif.Props.RoundedDip
import Mathlib.Analysis.Complex.ExponentialBounds

/-! C202: option prices in floating point. -/
set_option linter.unusedSimpArgs false
namespace Frds.Props
noncomputable section
open Frds Frds.Model Frds.Spec Classical

/-- products with a number between 0 and 1 -/
theorem RoundedOption.part {R : Rounding} {s a : ℝ} (hs : R.rd s = .fin s) (h0 : 0 ≤ s) (a0 : 0 ≤ a) (a1 : a ≤ 1) :
    ∃ x, R.mul (.fin s) (.fin a) = .fin x ∧ R.rd (s * a) = .fin x ∧ 0 ≤ x ∧ x ≤ s := by
  have l := R.mono 0 (s * a) (by positivity)
  have u := R.mono (s * a) s (mul_le_of_le_one_right h0 a1)
  rw [Rounding.rd_zero] at l
  rw [hs] at u
  unfold Rounding.mul
  rw [XR.fin_mul, Rounding.round_fin]
  rcases h : R.rd (s * a) with _ | _ | _ | x <;> rw [h] at l u
  · exact l.elim
  · exact l.elim
  · exact u.elim
  · exact ⟨x, rfl, rfl, XR.fin_le.mp l, XR.fin_le.mp u⟩

/-- differences of two such numbers -/
theorem RoundedOption.diff {R : Rounding} {s k x y : ℝ} (hs : R.rd s = .fin s) (hk : R.rd k = .fin k) (x0 : 0 ≤ x) (xs : x ≤ s)
    (y0 : 0 ≤ y) (yk : y ≤ k) :
    ∃ c, R.sub (.fin x) (.fin y) = .fin c ∧ R.rd (x - y) = .fin c ∧ -k ≤ c ∧ c ≤ s ∧ (y ≤ x → 0 ≤ c) := by
  have l := R.mono (-k) (x - y) (by linarith)
  have u := R.mono (x - y) s (by linarith)
  rw [R.neg, hk] at l
  rw [hs] at u
  unfold Rounding.sub
  rw [XR.fin_sub, Rounding.round_fin]
  rcases h : R.rd (x - y) with _ | _ | _ | c <;> rw [h] at l u
  · exact l.elim
  · exact l.elim
  · exact u.elim
  · refine ⟨c, rfl, rfl, XR.fin_le.mp (by simpa using l), XR.fin_le.mp u, fun hxy => ?_⟩
    have p := R.mono 0 (x - y) (by linarith)
    rw [Rounding.rd_zero, h] at p
    exact XR.fin_le.mp p

theorem RoundedOption.rep_fin {R : Rounding} {s : ℝ} {x : XR} (hr : R.Rep x) (h : x = .fin s) : R.rd s = .fin s := by
  rw [h] at hr; exact hr

/-- the parts of a price -/
theorem RoundedOption.parts (M : Machine) (cdf : XR → XR) (δ : ℝ) (hc : DistFn cdf δ) (S K r T sigma q : XR) (s k : ℝ)
    (hs : Model.Rounded.discounted M S q T = .fin s) (hk : Model.Rounded.discounted M K r T = .fin k) (s0 : 0 ≤ s) (k0 : 0 ≤ k)
    (hd1 : Model.Rounded.blsD1 M S K r T sigma q ≠ .nan) (hd2 : Model.Rounded.blsD2 M S K r T sigma q ≠ .nan) :
    ∃ a b a' b' x y x' y' c p : ℝ, (0 ≤ a ∧ a ≤ 1) ∧ (0 ≤ b ∧ b ≤ 1) ∧ (0 ≤ a' ∧ a' ≤ 1) ∧ (0 ≤ b' ∧ b' ≤ 1) ∧
      |a + a' - 1| ≤ δ ∧ |b + b' - 1| ≤ δ ∧
      (M.R.rd (s * a) = .fin x ∧ 0 ≤ x ∧ x ≤ s) ∧ (M.R.rd (k * b) = .fin y ∧ 0 ≤ y ∧ y ≤ k) ∧
      (M.R.rd (k * b') = .fin y' ∧ 0 ≤ y' ∧ y' ≤ k) ∧ (M.R.rd (s * a') = .fin x' ∧ 0 ≤ x' ∧ x' ≤ s) ∧
      (M.R.rd (x - y) = .fin c ∧ -k ≤ c ∧ c ≤ s ∧ (y ≤ x → 0 ≤ c)) ∧
      (M.R.rd (y' - x') = .fin p ∧ -s ≤ p ∧ p ≤ k ∧ (x' ≤ y' → 0 ≤ p)) ∧
      cdf (Model.Rounded.blsD1 M S K r T sigma q) = .fin a ∧ cdf (Model.Rounded.blsD2 M S K r T sigma q) = .fin b ∧
      cdf (-Model.Rounded.blsD1 M S K r T sigma q) = .fin a' ∧ cdf (-Model.Rounded.blsD2 M S K r T sigma q) = .fin b' ∧
      Model.Rounded.blsprice M cdf S K r T sigma q = (.fin c, .fin p) := by
  have rs : M.R.rd s = .fin s := RoundedOption.rep_fin (Rounding.rep_mul _ _) hs
  have rk : M.R.rd k = .fin k := RoundedOption.rep_fin (Rounding.rep_mul _ _) hk
  have hn : ∀ d : XR, d ≠ .nan → -d ≠ .nan := by
    intro d h; cases d <;> simp_all
  obtain ⟨a, ha, a0, a1⟩ := hc.range _ hd1
  obtain ⟨b, hb, b0, b1⟩ := hc.range _ hd2
  obtain ⟨a', ha', a0', a1'⟩ := hc.range _ (hn _ hd1)
  obtain ⟨b', hb', b0', b1'⟩ := hc.range _ (hn _ hd2)
  obtain ⟨x, hx, rx, x0, xs⟩ := RoundedOption.part rs s0 a0 a1
  obtain ⟨y, hy, ry, y0, yk⟩ := RoundedOption.part rk k0 b0 b1
  obtain ⟨y', hy', ry', y0', yk'⟩ := RoundedOption.part rk k0 b0' b1'
  obtain ⟨x', hx', rx', x0', xs'⟩ := RoundedOption.part rs s0 a0' a1'
  obtain ⟨c, hcc, rc, c1, c2, c3⟩ := RoundedOption.diff rs rk x0 xs y0 yk
  obtain ⟨p, hpp, rp, p1, p2, p3⟩ := RoundedOption.diff rk rs y0' yk' x0' xs'
  refine ⟨a, b, a', b', x, y, x', y', c, p, ⟨a0, a1⟩, ⟨b0, b1⟩, ⟨a0', a1'⟩, ⟨b0', b1'⟩, hc.tails _ _ _ ha ha', hc.tails _ _ _ hb hb',
    ⟨rx, x0, xs⟩, ⟨ry, y0, yk⟩, ⟨ry', y0', yk'⟩, ⟨rx', x0', xs'⟩, ⟨rc, c1, c2, c3⟩, ⟨rp, p1, p2, p3⟩, ha, hb, ha', hb', ?_⟩
  unfold Model.Rounded.blsprice Model.Rounded.blsCall Model.Rounded.blsPut
  rw [hs, hk, ha, hb, ha', hb', hx, hy, hx', hy', hcc, hpp]

/-- the accounting of rounding errors in put-call parity -/
theorem RoundedOption.sum_errors {u t δ s k a b a' b' x y x' y' c p : ℝ} (hu : 0 ≤ u) (ht0 : 0 ≤ t) (hδ : δ ≤ 1) (s0 : 0 ≤ s)
    (k0 : 0 ≤ k) (a0 : 0 ≤ a) (b0 : 0 ≤ b) (a0' : 0 ≤ a') (b0' : 0 ≤ b') (ha : |a + a' - 1| ≤ δ) (hb : |b + b' - 1| ≤ δ)
    (x0 : 0 ≤ x) (xs : x ≤ s) (y0 : 0 ≤ y) (yk : y ≤ k) (x0' : 0 ≤ x') (xs' : x' ≤ s) (y0' : 0 ≤ y') (yk' : y' ≤ k)
    (ex : |x - s * a| ≤ u * max |s * a| t) (ey : |y - k * b| ≤ u * max |k * b| t) (ex' : |x' - s * a'| ≤ u * max |s * a'| t)
    (ey' : |y' - k * b'| ≤ u * max |k * b'| t) (ec : |c - (x - y)| ≤ u * |x - y|) (ep : |p - (y' - x')| ≤ u * |y' - x'|)
    (hsk : 4 * t ≤ s + k) : |c - p - (s - k)| ≤ (δ + 5 * u) * (s + k) := by
  have m : ∀ z : ℝ, 0 ≤ z → u * max |z| t ≤ u * z + u * t := by
    intro z hz
    rw [abs_of_nonneg hz, ← mul_add]
    exact mul_le_mul_of_nonneg_left (max_le (by linarith) (by linarith)) hu
  have d1 : u * |x - y| ≤ u * (s + k) := by
    apply mul_le_mul_of_nonneg_left _ hu
    rw [abs_le]; constructor <;> linarith
  have d2 : u * |y' - x'| ≤ u * (s + k) := by
    apply mul_le_mul_of_nonneg_left _ hu
    rw [abs_le]; constructor <;> linarith
  have e1 := ex.trans (m _ (mul_nonneg s0 a0))
  have e2 := ey.trans (m _ (mul_nonneg k0 b0))
  have e3 := ex'.trans (m _ (mul_nonneg s0 a0'))
  have e4 := ey'.trans (m _ (mul_nonneg k0 b0'))
  have e5 := ec.trans d1
  have e6 := ep.trans d2
  have e7 : |s * (a + a' - 1)| ≤ δ * s := by
    rw [abs_mul, abs_of_nonneg s0, mul_comm]; exact mul_le_mul_of_nonneg_right ha s0
  have e8 : |k * (b + b' - 1)| ≤ δ * k := by
    rw [abs_mul, abs_of_nonneg k0, mul_comm]; exact mul_le_mul_of_nonneg_right hb k0
  have e9 : u * (s * a) + u * (s * a') ≤ 2 * (u * s) := by
    have h1 : a + a' ≤ 2 := by linarith [(abs_le.mp ha).2]
    have := mul_le_mul_of_nonneg_left h1 (mul_nonneg hu s0)
    linarith
  have e10 : u * (k * b) + u * (k * b') ≤ 2 * (u * k) := by
    have h1 : b + b' ≤ 2 := by linarith [(abs_le.mp hb).2]
    have := mul_le_mul_of_nonneg_left h1 (mul_nonneg hu k0)
    linarith
  have e11 : u * (4 * t) ≤ u * (s + k) := mul_le_mul_of_nonneg_left hsk hu
  rw [abs_le] at *
  constructor
  · linarith [e1.1, e2.2, e3.1, e4.2, e5.1, e6.2, e7.1, e8.2]
  · linarith [e1.2, e2.1, e3.2, e4.1, e5.2, e6.1, e7.2, e8.1]

/-- C202. Put-call parity in binary64: call minus put differs from the (computed) discounted spot price minus the discounted strike by
at most `δ + 5·2⁻⁵³` of their sum, however inaccurate `d1` and `d2` are; `δ` is the error of the two tails of the distribution
function. -/
theorem C202_parity (M : Machine) (hM : M.R = binary64.rounding) (cdf : XR → XR) (δ : ℝ) (hδ : δ ≤ 1) (hc : DistFn cdf δ)
    (S K r T sigma q : XR) (s k : ℝ) (hs : Model.Rounded.discounted M S q T = .fin s)
    (hk : Model.Rounded.discounted M K r T = .fin k) (s0 : 0 ≤ s) (k0 : 0 ≤ k) (hsk : 2 ^ (-1000 : ℤ) ≤ s + k)
    (hd1 : Model.Rounded.blsD1 M S K r T sigma q ≠ .nan) (hd2 : Model.Rounded.blsD2 M S K r T sigma q ≠ .nan) :
    ∃ c p : ℝ, Model.Rounded.blsprice M cdf S K r T sigma q = (.fin c, .fin p) ∧
      |c - p - (s - k)| ≤ (δ + 5 * 2 ^ (-53 : ℤ)) * (s + k) := by
  obtain ⟨a, b, a', b', x, y, x', y', c, p, ⟨a0, a1⟩, ⟨b0, b1⟩, ⟨a0', a1'⟩, ⟨b0', b1'⟩, ta, tb, ⟨rx, x0, xs⟩, ⟨ry, y0, yk⟩,
    ⟨ry', y0', yk'⟩, ⟨rx', x0', xs'⟩, ⟨rc, -⟩, ⟨rp, -⟩, -, -, -, -, h⟩ :=
    RoundedOption.parts M cdf δ hc S K r T sigma q s k hs hk s0 k0 hd1 hd2
  refine ⟨c, p, h, ?_⟩
  obtain ⟨tiny, huge, A, h1, -, -⟩ := Rounded.acc64 hM
  have ht : 4 * tiny ≤ s + k := by
    refine le_trans ?_ hsk
    have e : (2 : ℝ) ^ (-1000 : ℤ) * 2 ^ (1000 : ℤ) = 1 := by
      rw [← zpow_add₀ (by norm_num)]; norm_num
    have p0 : (0 : ℝ) < 2 ^ (1000 : ℤ) := by positivity
    have l : 2 * tiny * 2 ^ (1000 : ℤ) ≤ 1 / 2 := h1.trans (by norm_num)
    clear h1 hsk
    generalize (2 : ℝ) ^ (1000 : ℤ) = P at *
    generalize (2 : ℝ) ^ (-1000 : ℤ) = Q at *
    have : 4 * tiny * P ≤ Q * P := by rw [e]; linear_combination 2 * l
    exact le_of_mul_le_mul_right this p0
  have neg : ∀ z w : ℝ, M.R.rd z = .fin w → M.R.rd (-z) = .fin (-w) := by
    intro z w hz; rw [M.R.neg, hz]; simp
  have ec := A.err_add x (-y) c (M.R.idem _ _ rx) (neg _ _ (M.R.idem _ _ ry)) (by rw [← sub_eq_add_neg]; exact rc)
  have ep := A.err_add y' (-x') p (M.R.idem _ _ ry') (neg _ _ (M.R.idem _ _ rx')) (by rw [← sub_eq_add_neg]; exact rp)
  rw [← sub_eq_add_neg] at ec ep
  exact RoundedOption.sum_errors A.u_nonneg A.tiny_nonneg hδ s0 k0 a0 b0 a0' b0' ta tb x0 xs y0 yk x0' xs' y0' yk'
    (A.err _ _ rx) (A.err _ _ ry) (A.err _ _ rx') (A.err _ _ ry') ec ep ht

/-- C202. For every rounding: the computed call is at most the discounted spot price and the computed put at most the discounted strike
(and they are not below minus the other one); no tolerance is needed. -/
theorem C202_bounds (M : Machine) (cdf : XR → XR) (δ : ℝ) (hc : DistFn cdf δ)
    (S K r T sigma q : XR) (s k : ℝ) (hs : Model.Rounded.discounted M S q T = .fin s)
    (hk : Model.Rounded.discounted M K r T = .fin k) (s0 : 0 ≤ s) (k0 : 0 ≤ k)
    (hd1 : Model.Rounded.blsD1 M S K r T sigma q ≠ .nan) (hd2 : Model.Rounded.blsD2 M S K r T sigma q ≠ .nan) :
    ∃ c p : ℝ, Model.Rounded.blsprice M cdf S K r T sigma q = (.fin c, .fin p) ∧ c ≤ s ∧ p ≤ k ∧ -k ≤ c ∧ -s ≤ p := by
  obtain ⟨a, b, a', b', x, y, x', y', c, p, -, -, -, -, -, -, -, -, -, -, ⟨-, c1, c2, -⟩, ⟨-, p1, p2, -⟩, -, -, -, -, h⟩ :=
    RoundedOption.parts M cdf δ hc S K r T sigma q s k hs hk s0 k0 hd1 hd2
  exact ⟨c, p, h, c2, p2, c1, p1⟩

/-- C202. For every rounding, a volatility and an expiry that are not negative: the computed `d2` does not exceed the computed `d1`; a
call whose (computed) discounted spot price is at least the discounted strike has no negative price, and a put whose discounted strike
is at least the discounted spot price neither. -/
theorem C202_in_the_money (M : Machine) (cdf : XR → XR) (δ : ℝ) (hc : DistFn cdf δ)
    (S K r T sigma q : XR) (s k v : ℝ) (hs : Model.Rounded.discounted M S q T = .fin s)
    (hk : Model.Rounded.discounted M K r T = .fin k) (s0 : 0 ≤ s) (k0 : 0 ≤ k)
    (hd1 : Model.Rounded.blsD1 M S K r T sigma q ≠ .nan) (hv : Model.Rounded.blsVol M T sigma = .fin v) (hv0 : 0 ≤ v) :
    ∃ c p : ℝ, Model.Rounded.blsprice M cdf S K r T sigma q = (.fin c, .fin p) ∧
      Model.Rounded.blsD2 M S K r T sigma q ≤ Model.Rounded.blsD1 M S K r T sigma q ∧ (k ≤ s → 0 ≤ c) ∧ (s ≤ k → 0 ≤ p) := by
  have hle : Model.Rounded.blsD2 M S K r T sigma q ≤ Model.Rounded.blsD1 M S K r T sigma q := by
    have hrep : M.R.Rep (Model.Rounded.blsD1 M S K r T sigma q) := Rounding.rep_div _ _
    unfold Model.Rounded.blsD2 Rounding.sub
    rw [hv]
    apply Rounding.round_le hrep
    rcases h : Model.Rounded.blsD1 M S K r T sigma q with _ | _ | _ | d
    · exact absurd h hd1
    · trivial
    · trivial
    · rw [XR.fin_sub]; exact XR.fin_le.mpr (by linarith)
  have hd2 : Model.Rounded.blsD2 M S K r T sigma q ≠ .nan := (XR.ne_nan_of_le hle).1
  obtain ⟨a, b, a', b', x, y, x', y', c, p, ⟨a0, a1⟩, ⟨b0, b1⟩, ⟨a0', a1'⟩, ⟨b0', b1'⟩, ta, tb, ⟨rx, x0, xs⟩, ⟨ry, y0, yk⟩,
    ⟨ry', y0', yk'⟩, ⟨rx', x0', xs'⟩, ⟨-, -, -, c3⟩, ⟨-, -, -, p3⟩, ha, hb, ha', hb', h⟩ :=
    RoundedOption.parts M cdf δ hc S K r T sigma q s k hs hk s0 k0 hd1 hd2
  refine ⟨c, p, h, hle, fun hks => c3 ?_, fun hsk => p3 ?_⟩
  · have m := hc.mono _ _ hle
    rw [ha, hb] at m
    have m' := M.R.mono (k * b) (s * a) (mul_le_mul hks (XR.fin_le.mp m) b0 s0)
    rw [rx, ry] at m'
    exact XR.fin_le.mp m'
  · have m := hc.mono _ _ (XR.neg_le' hle)
    rw [ha', hb'] at m
    have m' := M.R.mono (s * a') (k * b') (mul_le_mul hsk (XR.fin_le.mp m) a0' k0)
    rw [rx', ry'] at m'
    exact XR.fin_le.mp m'

/-- values in a wide range are not rounded to zero or infinity -/
theorem RoundedOption.rd_pos {M : Machine} (hM : M.R = binary64.rounding) {x : ℝ} (h1 : 2 ^ (-900 : ℤ) ≤ x) (h2 : x ≤ 2 ^ (900 : ℤ)) :
    ∃ y, M.R.rd x = .fin y ∧ x / 2 ≤ y ∧ y ≤ 2 * x := by
  obtain ⟨tiny, huge, A, -, a2, a3⟩ := Rounded.acc64 hM
  have hx : 0 < x := lt_of_lt_of_le (by positivity) h1
  have hb : x ≤ huge := by
    refine h2.trans (le_trans ?_ a2)
    rw [← zpow_add₀ (by norm_num)]
    exact zpow_le_zpow_right₀ (by norm_num) (by norm_num)
  have ht : tiny ≤ x := by
    refine le_trans ?_ h1
    have h0 := A.tiny_nonneg
    have e : tiny ≤ 2 * tiny * 2 ^ (53 : ℤ) := by
      have : (1 : ℝ) ≤ 2 ^ (53 : ℤ) := by norm_num
      have := mul_le_mul_of_nonneg_left this h0
      clear a2 a3 h1 h2
      norm_num at this ⊢
      linarith
    exact e.trans (a3.trans (zpow_le_zpow_right₀ (by norm_num) (by norm_num)))
  obtain ⟨y, hy⟩ := A.fin x (by rwa [abs_of_pos hx])
  have he := A.err x y hy
  rw [abs_of_pos hx, max_eq_left ht] at he
  have hu : (2 : ℝ) ^ (-53 : ℤ) * x ≤ x / 2 := by
    have : (2 : ℝ) ^ (-53 : ℤ) ≤ 1 / 2 := by norm_num
    have := mul_le_mul_of_nonneg_right this hx.le
    linarith
  have := abs_le.mp (he.trans hu)
  exact ⟨y, hy, by linarith [this.1], by linarith [this.2]⟩

theorem RoundedOption.div_nan {R : Rounding} {x : XR} {v : ℝ} (hx : x ≠ .nan) (hv : 0 < v) : R.div x (.fin v) ≠ .nan := by
  unfold Rounding.div
  rw [ne_eq, Rounding.round_eq_nan]
  rcases x with _ | _ | _ | x
  · exact absurd rfl hx
  · intro h; simp [HDiv.hDiv, Div.div, XR.div, hv, hv.ne', not_lt.mpr hv.le] at h
  · intro h; simp [HDiv.hDiv, Div.div, XR.div, hv, hv.ne', not_lt.mpr hv.le] at h
  · rw [XR.fin_div _ hv.ne']; simp

theorem RoundedOption.mul_nan {R : Rounding} {x : XR} {v : ℝ} (hx : x ≠ .nan) (hv : 0 < v) : R.mul x (.fin v) ≠ .nan := by
  unfold Rounding.mul
  rw [ne_eq, Rounding.round_eq_nan]
  rcases x with _ | _ | _ | x
  · exact absurd rfl hx
  · intro h; simp [HMul.hMul, Mul.mul, XR.mul, XR.infSign, hv, hv.ne', not_lt.mpr hv.le] at h
  · intro h; simp [HMul.hMul, Mul.mul, XR.mul, XR.infSign, hv, hv.ne', not_lt.mpr hv.le] at h
  · rw [XR.fin_mul]; simp

theorem RoundedOption.add_nan {R : Rounding} {x : XR} {v : ℝ} (hx : x ≠ .nan) : R.add x (.fin v) ≠ .nan := by
  unfold Rounding.add
  rw [ne_eq, Rounding.round_eq_nan]
  rcases x with _ | _ | _ | x
  · exact absurd rfl hx
  · intro h; simp [HAdd.hAdd, Add.add, XR.add] at h
  · intro h; simp [HAdd.hAdd, Add.add, XR.add] at h
  · rw [XR.fin_add]; simp

theorem RoundedOption.add_nan' {R : Rounding} {x : XR} {v : ℝ} (hx : x ≠ .nan) : R.add (.fin v) x ≠ .nan := by
  unfold Rounding.add
  rw [ne_eq, Rounding.round_eq_nan]
  rcases x with _ | _ | _ | x
  · exact absurd rfl hx
  · intro h; simp [HAdd.hAdd, Add.add, XR.add] at h
  · intro h; simp [HAdd.hAdd, Add.add, XR.add] at h
  · rw [XR.fin_add]; simp

/-- products, quotients and square roots of numbers in a range stay in a range -/
theorem RoundedOption.in_range {e f : ℤ} {x y : ℝ} (hx : 2 ^ (-e) ≤ x ∧ x ≤ 2 ^ e) (hy : 2 ^ (-f) ≤ y ∧ y ≤ 2 ^ f) :
    (2 ^ (-(e + f)) ≤ x * y ∧ x * y ≤ 2 ^ (e + f)) ∧ (2 ^ (-(e + f)) ≤ x / y ∧ x / y ≤ 2 ^ (e + f)) := by
  have p : ∀ n : ℤ, (0 : ℝ) < 2 ^ n := fun n => by positivity
  have x0 : 0 < x := lt_of_lt_of_le (p _) hx.1
  have y0 : 0 < y := lt_of_lt_of_le (p _) hy.1
  rw [neg_add, zpow_add₀ (by norm_num), zpow_add₀ (by norm_num)]
  refine ⟨⟨mul_le_mul hx.1 hy.1 (p _).le x0.le, mul_le_mul hx.2 hy.2 y0.le (p _).le⟩, ?_, ?_⟩
  · rw [le_div_iff₀ y0]
    calc 2 ^ (-e) * 2 ^ (-f) * y ≤ 2 ^ (-e) * 2 ^ (-f) * 2 ^ f := mul_le_mul_of_nonneg_left hy.2 (by positivity)
      _ = 2 ^ (-e) := by rw [mul_assoc, ← zpow_add₀ (by norm_num)]; simp
      _ ≤ x := hx.1
  · rw [div_le_iff₀ y0]
    calc x ≤ 2 ^ e := hx.2
      _ = 2 ^ e * 2 ^ f * 2 ^ (-f) := by rw [mul_assoc, ← zpow_add₀ (by norm_num)]; simp
      _ ≤ 2 ^ e * 2 ^ f * y := mul_le_mul_of_nonneg_left hy.1 (by positivity)

theorem RoundedOption.sqrt_range {e : ℤ} {x : ℝ} (hx : 2 ^ (-(2 * e)) ≤ x ∧ x ≤ 2 ^ (2 * e)) :
    2 ^ (-e) ≤ Real.sqrt x ∧ Real.sqrt x ≤ 2 ^ e := by
  have x0 : 0 < x := lt_of_lt_of_le (by positivity) hx.1
  constructor
  · rw [Real.le_sqrt (by positivity) x0.le, ← zpow_natCast, ← zpow_mul]
    refine le_trans (le_of_eq ?_) hx.1
    congr 1; push_cast; ring
  · rw [Real.sqrt_le_left (by positivity), ← zpow_natCast, ← zpow_mul]
    refine hx.2.trans (le_of_eq ?_)
    congr 1; push_cast; ring

theorem RoundedOption.rd_range {M : Machine} (hM : M.R = binary64.rounding) {e : ℤ} (he : e ≤ 900) {x : ℝ}
    (hx : 2 ^ (-e) ≤ x ∧ x ≤ 2 ^ e) : ∃ y, M.R.rd x = .fin y ∧ 2 ^ (-(e + 1)) ≤ y ∧ y ≤ 2 ^ (e + 1) := by
  obtain ⟨y, h, l, u⟩ := RoundedOption.rd_pos hM ((zpow_le_zpow_right₀ (by norm_num) (by omega)).trans hx.1)
    (hx.2.trans (zpow_le_zpow_right₀ (by norm_num) he))
  refine ⟨y, h, le_trans ?_ l, u.trans ?_⟩
  · rw [neg_add, zpow_add₀ (by norm_num)]
    have h1 := hx.1
    have e : (2 : ℝ) ^ (-1 : ℤ) = 1 / 2 := by norm_num
    rw [e]
    linarith
  · rw [zpow_add₀ (by norm_num)]
    have := hx.2
    norm_num
    linarith

/-- the discounted value of a price is a positive number -/
theorem RoundedOption.discounted_ok {M : Machine} (hM : M.R = binary64.rounding) (hl : LibFns M) {x rate T : ℝ}
    (hx : 2 ^ (-200 : ℤ) ≤ x ∧ x ≤ 2 ^ (200 : ℤ)) (hr : |rate| * T ≤ 100) (hT : 0 < T) :
    ∃ s, Model.Rounded.discounted M (.fin x) (.fin rate) (.fin T) = .fin s ∧ 2 ^ (-401 : ℤ) ≤ s := by
  have hz : ∃ z, M.R.mul (-(.fin rate)) (.fin T) = .fin z ∧ |z| ≤ 100 := by
    unfold Rounding.mul
    rw [XR.fin_neg, XR.fin_mul, Rounding.round_fin]
    have h100 : M.R.rd 100 = .fin 100 := by
      have hp : (100 : ℕ) ≤ 2 ^ M.R.prec := by rw [hM]; norm_num [Format.rounding, binary64]
      exact_mod_cast M.R.nat 100 hp
    have ha : |(-rate) * T| ≤ 100 := by rwa [abs_mul, abs_neg, abs_of_pos hT]
    have l := M.R.mono (-100) ((-rate) * T) (abs_le.mp ha).1
    have u := M.R.mono ((-rate) * T) 100 (abs_le.mp ha).2
    rw [M.R.neg, h100] at l
    rw [h100] at u
    rcases h : M.R.rd ((-rate) * T) with _ | _ | _ | z <;> rw [h] at l u
    · exact l.elim
    · exact l.elim
    · exact u.elim
    · exact ⟨z, rfl, abs_le.mpr ⟨XR.fin_le.mp (by simpa using l), XR.fin_le.mp u⟩⟩
  obtain ⟨z, hz, hz'⟩ := hz
  obtain ⟨y, hy, y1, y2⟩ := hl.exp z hz'
  obtain ⟨s, hs, s1, -⟩ := RoundedOption.rd_range hM (e := 400) (by norm_num) (x := x * y)
    (RoundedOption.in_range (e := 200) (f := 200) hx ⟨y1, y2⟩).1
  refine ⟨s, ?_, s1⟩
  unfold Model.Rounded.discounted
  rw [hz, hy]
  unfold Rounding.mul
  rw [XR.fin_mul, Rounding.round_fin, hs]

/-- C202. In binary64, for spot price, strike, volatility and expiry between 2⁻²⁰⁰ and 2²⁰⁰ and rates with `|r|·T` and `|q|·T` up to
100, the call never returns NaN or an infinity: both prices are numbers, at most the discounted spot price and the discounted strike, and
satisfy put-call parity up to rounding. -/
theorem C202_prices (M : Machine) (hM : M.R = binary64.rounding) (hl : LibFns M) (cdf : XR → XR) (δ : ℝ) (hδ : δ ≤ 1)
    (hc : DistFn cdf δ) (S K r T sigma q : ℝ) (hS : 2 ^ (-200 : ℤ) ≤ S ∧ S ≤ 2 ^ (200 : ℤ)) (hK : 2 ^ (-200 : ℤ) ≤ K ∧ K ≤ 2 ^ (200 : ℤ))
    (hT : 2 ^ (-200 : ℤ) ≤ T ∧ T ≤ 2 ^ (200 : ℤ)) (hsig : 2 ^ (-200 : ℤ) ≤ sigma ∧ sigma ≤ 2 ^ (200 : ℤ)) (hr : |r| * T ≤ 100)
    (hq : |q| * T ≤ 100) :
    ∃ s k c p : ℝ, Model.Rounded.discounted M (.fin S) (.fin q) (.fin T) = .fin s ∧
      Model.Rounded.discounted M (.fin K) (.fin r) (.fin T) = .fin k ∧
      Model.Rounded.blsprice M cdf (.fin S) (.fin K) (.fin r) (.fin T) (.fin sigma) (.fin q) = (.fin c, .fin p) ∧
      c ≤ s ∧ p ≤ k ∧ |c - p - (s - k)| ≤ (δ + 5 * 2 ^ (-53 : ℤ)) * (s + k) ∧ (k ≤ s → 0 ≤ c) ∧ (s ≤ k → 0 ≤ p) := by
  have T0 : 0 < T := lt_of_lt_of_le (by positivity) hT.1
  obtain ⟨s, hs, s1⟩ := RoundedOption.discounted_ok hM hl hS hq T0
  obtain ⟨k, hk, k1⟩ := RoundedOption.discounted_ok hM hl hK hr T0
  have p401 : (0 : ℝ) < 2 ^ (-401 : ℤ) := by positivity
  have s0 : 0 ≤ s := p401.le.trans s1
  have k0 : 0 ≤ k := p401.le.trans k1
  -- the standard deviation
  obtain ⟨w, hw, w1⟩ := RoundedOption.rd_range hM (e := 100) (by norm_num) (RoundedOption.sqrt_range (e := 100) hT)
  obtain ⟨v, hv, v1⟩ := RoundedOption.rd_range hM (e := 301) (by norm_num) (RoundedOption.in_range (e := 200) (f := 101) hsig w1).1
  have v0 : 0 < v := lt_of_lt_of_le (by positivity) v1.1
  have hvol : Model.Rounded.blsVol M (.fin T) (.fin sigma) = .fin v := by
    unfold Model.Rounded.blsVol Rounding.sqrt
    rw [XR.fin_sqrt T0.le, Rounding.round_fin, hw]
    unfold Rounding.mul
    rw [XR.fin_mul, Rounding.round_fin, hv]
  -- the logarithm
  obtain ⟨m, hm, m1⟩ := RoundedOption.rd_range hM (e := 400) (by norm_num) (RoundedOption.in_range (e := 200) (f := 200) hS hK).2
  obtain ⟨lg, hlg⟩ := hl.log m (le_trans (zpow_le_zpow_right₀ (by norm_num) (by norm_num)) m1.1)
    (m1.2.trans (zpow_le_zpow_right₀ (by norm_num) (by norm_num)))
  have K0 : K ≠ 0 := (lt_of_lt_of_le (by positivity) hK.1).ne'
  have hlog : M.log (M.R.div (.fin S) (.fin K)) = .fin lg := by
    unfold Rounding.div
    rw [XR.fin_div _ K0, Rounding.round_fin, hm, hlg]
  -- the variance
  obtain ⟨x, hx, x1⟩ := RoundedOption.rd_range hM (e := 400) (by norm_num) (RoundedOption.in_range (e := 200) (f := 200) hsig hsig).1
  obtain ⟨y, hy, -⟩ := RoundedOption.rd_range hM (e := 402) (by norm_num)
    (RoundedOption.in_range (e := 401) (f := 1) x1 (y := 2) (by norm_num)).2
  have hvar : M.R.div (M.R.mul (.fin sigma) (.fin sigma)) 2 = .fin y := by
    unfold Rounding.mul Rounding.div
    rw [XR.fin_mul, Rounding.round_fin, hx, XR.ofNat_def, XR.fin_div _ (by norm_num), Rounding.round_fin]
    exact hy
  have hd1 : Model.Rounded.blsD1 M (.fin S) (.fin K) (.fin r) (.fin T) (.fin sigma) (.fin q) ≠ .nan := by
    unfold Model.Rounded.blsD1
    rw [hvol, hlog, hvar]
    apply RoundedOption.div_nan _ v0
    apply RoundedOption.add_nan'
    apply RoundedOption.mul_nan _ T0
    apply RoundedOption.add_nan
    unfold Rounding.sub
    rw [XR.fin_sub, ne_eq, Rounding.round_eq_nan]
    simp
  obtain ⟨c, p, h, hle, hcs, hpk⟩ := C202_in_the_money M cdf δ hc _ _ _ _ _ _ s k v hs hk s0 k0 hd1 hvol v0.le
  have hd2 := (XR.ne_nan_of_le hle).1
  obtain ⟨c', p', h', b1, b2, -⟩ := C202_bounds M cdf δ hc _ _ _ _ _ _ s k hs hk s0 k0 hd1 hd2
  have hsk : (2 : ℝ) ^ (-1000 : ℤ) ≤ s + k := by
    have : (2 : ℝ) ^ (-1000 : ℤ) ≤ 2 ^ (-401 : ℤ) := zpow_le_zpow_right₀ (by norm_num) (by norm_num)
    exact this.trans (s1.trans (le_add_of_nonneg_right k0))
  obtain ⟨c'', p'', h'', par⟩ := C202_parity M hM cdf δ hδ hc _ _ _ _ _ _ s k hs hk s0 k0 hsk hd1 hd2
  rw [h] at h' h''
  simp only [Prod.mk.injEq, XR.fin.injEq] at h' h''
  rw [← h'.1] at b1
  rw [← h'.2] at b2
  rw [← h''.1, ← h''.2] at par
  exact ⟨s, k, c, p, hs, hk, h, b1, b2, par, hcs, hpk⟩

/-- a correctly rounded normal distribution function has tails that add up to 1 within `2·2⁻⁵³` -/
theorem RoundedOption.rounded_ncdf : DistFn (fun d => Machine.ieee.R.round (XR.ncdf d)) (2 * 2 ^ (-53 : ℤ)) := by
  obtain ⟨tiny, huge, A, a1, -, -⟩ := Rounded.acc64 (M := Machine.ieee) rfl
  have t1 : tiny ≤ 1 / 2 := by
    have h0 := A.tiny_nonneg
    have : tiny * 2 ≤ 2 * tiny * 2 ^ (1000 : ℤ) := by
      rw [mul_comm tiny 2]
      exact le_mul_of_one_le_right (by linarith) (one_le_zpow₀ (by norm_num) (by norm_num))
    have h2 : tiny * 2 ≤ 1 := (this.trans a1).trans (zpow_le_one_of_nonpos₀ (by norm_num) (by norm_num))
    linarith
  have r1 : Machine.ieee.R.rd 1 = .fin 1 := Rounding.rep_one
  have val : ∀ x : ℝ, 0 ≤ x → x ≤ 1 → ∃ a, Machine.ieee.R.rd x = .fin a ∧ 0 ≤ a ∧ a ≤ 1 := by
    intro x x0 x1
    have := RoundedOption.part (R := Machine.ieee.R) r1 zero_le_one x0 x1
    simp only [one_mul] at this
    obtain ⟨a, -, h, a0, a1⟩ := this
    exact ⟨a, h, a0, a1⟩
  have hΦ : ∀ x, 0 ≤ Φ x ∧ Φ x ≤ 1 := fun x => ⟨(Φ_pos x).le, (Φ_lt_one x).le⟩
  refine ⟨?_, ?_, ?_⟩
  · intro d hd
    rcases d with _ | _ | _ | d
    · exact absurd rfl hd
    · exact val 0 le_rfl zero_le_one
    · exact val 1 zero_le_one le_rfl
    · exact val (Φ d) (hΦ d).1 (hΦ d).2
  · intro d a b ha hb
    have key : ∀ x a b : ℝ, 0 ≤ x → x ≤ 1 → Machine.ieee.R.rd x = .fin a → Machine.ieee.R.rd (1 - x) = .fin b →
        |a + b - 1| ≤ 2 * 2 ^ (-53 : ℤ) := by
      intro x a b x0 x1 ha hb
      have e1 := A.err _ _ ha
      have e2 := A.err _ _ hb
      have m1 : max |x| tiny ≤ 1 := max_le (by rwa [abs_of_nonneg x0]) (by linarith)
      have m2 : max |1 - x| tiny ≤ 1 := max_le (by rw [abs_of_nonneg (by linarith)]; linarith) (by linarith)
      have e1' := e1.trans (mul_le_of_le_one_right A.u_nonneg m1)
      have e2' := e2.trans (mul_le_of_le_one_right A.u_nonneg m2)
      rw [abs_le] at *
      constructor <;> linarith [e1'.1, e2'.1, e1'.2, e2'.2]
    rcases d with _ | _ | _ | d
    · simp [Rounding.round] at ha
    · exact key 0 a b le_rfl zero_le_one ha (by rw [sub_zero]; exact hb)
    · exact key 1 a b zero_le_one le_rfl ha (by rw [sub_self]; exact hb)
    · refine key (Φ d) a b (hΦ d).1 (hΦ d).2 ha ?_
      rw [← Φ_neg]; exact hb
  · intro d e hde
    apply Rounding.round_mono
    rcases d with _ | _ | _ | d <;> rcases e with _ | _ | _ | e <;> first | exact hde.elim | skip
    · exact XR.fin_le.mpr le_rfl
    · exact XR.fin_le.mpr zero_le_one
    · exact XR.fin_le.mpr (hΦ e).1
    · exact XR.fin_le.mpr le_rfl
    · exact XR.fin_le.mpr (hΦ d).2
    · exact XR.fin_le.mpr (Φ_strictMono.monotone (XR.fin_le.mp hde))

/-- rounded logarithms and exponentials -/
theorem RoundedOption.ieee_lib : LibFns Machine.ieee := by
  constructor
  · intro x h1 h2
    obtain ⟨tiny, huge, A, -, a2, -⟩ := Rounded.acc64 (M := Machine.ieee) rfl
    have x0 : 0 < x := lt_of_lt_of_le (by positivity) h1
    have l2 : 0 < Real.log 2 := Real.log_pos (by norm_num)
    have l2' : Real.log 2 ≤ 1 := by
      have := Real.log_le_sub_one_of_pos (show (0 : ℝ) < 2 by norm_num)
      linarith
    have b1 := Real.log_le_log (by positivity) h1
    have b2 := Real.log_le_log x0 h2
    rw [Real.log_zpow] at b1 b2
    push_cast at b1 b2
    have hb : |Real.log x| ≤ huge := by
      refine le_trans (b := (1000 : ℝ)) ?_ (le_trans ?_ a2)
      · clear a2 h1 h2
        rw [abs_le]; constructor <;> linarith
      · have : (1000 : ℝ) ≤ 2 ^ (20 : ℤ) := by norm_num
        exact this.trans (le_mul_of_one_le_right (by positivity) (one_le_zpow₀ (by norm_num) (by norm_num)))
    obtain ⟨y, hy⟩ := A.fin _ hb
    refine ⟨y, ?_⟩
    show Machine.ieee.R.round (XR.log (.fin x)) = _
    rw [XR.fin_log x0]
    exact hy
  · intro x hx
    have he : Real.exp 100 ≤ 2 ^ (199 : ℤ) := by
      have h1 : Real.exp 1 ≤ 3 := by have := Real.exp_one_lt_d9; linarith
      have h2 : Real.exp 100 = Real.exp 1 ^ 100 := by rw [← Real.exp_nat_mul]; norm_num
      rw [h2]
      refine (pow_le_pow_left₀ (Real.exp_pos 1).le h1 100).trans ?_
      norm_num
    have hlo : (2 : ℝ) ^ (-199 : ℤ) ≤ Real.exp x := by
      refine le_trans ?_ (Real.exp_le_exp.mpr (abs_le.mp hx).1)
      rw [Real.exp_neg, zpow_neg]
      exact inv_anti₀ (Real.exp_pos _) he
    have hhi : Real.exp x ≤ 2 ^ (199 : ℤ) := (Real.exp_le_exp.mpr (abs_le.mp hx).2).trans he
    obtain ⟨y, hy, y1, y2⟩ := RoundedOption.rd_range (M := Machine.ieee) rfl (e := 199) (by norm_num) ⟨hlo, hhi⟩
    refine ⟨y, ?_, y1, y2⟩
    show Machine.ieee.R.round (XR.exp (.fin x)) = _
    rw [XR.fin_exp]
    exact hy

/-- one year, spot price 1, strike 2, 25% volatility, an interest rate of 1/8 and no yield, with rounded library functions -/
example : ∃ s k c p : ℝ, Model.Rounded.discounted Machine.ieee (.fin 1) (.fin 0) (.fin 1) = .fin s ∧
    Model.Rounded.discounted Machine.ieee (.fin 2) (.fin (1 / 8)) (.fin 1) = .fin k ∧
    Model.Rounded.blsprice Machine.ieee (fun d => Machine.ieee.R.round (XR.ncdf d)) (.fin 1) (.fin 2) (.fin (1 / 8)) (.fin 1)
      (.fin (1 / 4)) (.fin 0) = (.fin c, .fin p) ∧ c ≤ s ∧ p ≤ k ∧
    |c - p - (s - k)| ≤ (2 * 2 ^ (-53 : ℤ) + 5 * 2 ^ (-53 : ℤ)) * (s + k) ∧ (k ≤ s → 0 ≤ c) ∧ (s ≤ k → 0 ≤ p) := by
  have hb : (2 : ℝ) ^ (2 : ℤ) ≤ 2 ^ (200 : ℤ) := zpow_le_zpow_right₀ (by norm_num) (by norm_num)
  have hs : (2 : ℝ) ^ (-200 : ℤ) ≤ 2 ^ (-2 : ℤ) := zpow_le_zpow_right₀ (by norm_num) (by norm_num)
  have e1 : (2 : ℝ) ^ (2 : ℤ) = 4 := by norm_num
  have e2 : (2 : ℝ) ^ (-2 : ℤ) = 1 / 4 := by norm_num
  rw [e1] at hb
  rw [e2] at hs
  exact C202_prices Machine.ieee rfl RoundedOption.ieee_lib _ _ (by norm_num) RoundedOption.rounded_ncdf 1 2 (1 / 8) 1 (1 / 4) 0
    ⟨hs.trans (by norm_num), le_trans (by norm_num) hb⟩ ⟨hs.trans (by norm_num), le_trans (by norm_num) hb⟩
    ⟨hs.trans (by norm_num), le_trans (by norm_num) hb⟩ ⟨hs.trans (by norm_num), le_trans (by norm_num) hb⟩
    (by rw [abs_of_pos] <;> norm_num) (by norm_num)

end
end Frds.Props

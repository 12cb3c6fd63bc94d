import Verif.Model.RoundedAbsorption
import Verif.Lemmas.RoundedMes
import Verif.Props.RoundedDip
import Verif.Props.RoundedError
import Verif.Props.Absorption

/-! C197: the absorption ratio in floating point. -/
set_option linter.unusedSimpArgs false
namespace Frds.Props
noncomputable section
open Frds Frds.Model Frds.Spec Frds.RoundedMes Classical

namespace RoundedAbsorption

theorem product (M : Machine) (hM : M.R = binary64.rounding) {n : ℕ} (hn : n ≤ 2 ^ 40) {f : ℝ} (h0 : 0 ≤ f) (h1 : f ≤ 1) :
    ∃ y, M.R.mul (.fin f) (M.R.round (.fin n)) = .fin y ∧ 0 ≤ y ∧ y ≤ n ∧ |y - f * n| ≤ n / 2 ^ 53 := by
  have en : M.R.rd n = .fin n := M.R.nat n (by rw [hM]; exact hn.trans (by norm_num [binary64, Format.rounding]))
  have hn0 : (0 : ℝ) ≤ n := by positivity
  obtain ⟨y, hy, y0, y1, _⟩ := rd_between (R := M.R) (lo := 0) (hi := n) (x := f * n) Rounding.rd_zero en (by positivity)
    (by nlinarith)
  refine ⟨y, ?_, y0, y1, ?_⟩
  · rw [Rounding.round_fin, en]
    unfold Rounding.mul
    rw [XR.fin_mul, Rounding.round_fin, hy]
  · rcases Nat.eq_zero_or_pos n with rfl | hpos
    · simp at hy y1 ⊢
      linarith
    have A := Format.accurate binary64
    have hu : (2 : ℝ) ^ (-(binary64.p : ℤ)) = 1 / 2 ^ 53 := by norm_num [binary64]
    rw [hu] at A
    rw [hM] at hy
    have herr := A.err _ _ hy
    rw [abs_of_nonneg (show 0 ≤ f * n by positivity)] at herr
    have hmn : (2 : ℝ) ^ binary64.emin ≤ 1 := by
      rw [← zpow_zero (2 : ℝ)]
      exact zpow_le_zpow_right₀ (by norm_num) (by simp [binary64])
    have hn1 : (1 : ℝ) ≤ n := by exact_mod_cast hpos
    have hmx : max (f * n) (2 ^ binary64.emin) ≤ n := max_le (by nlinarith) (hmn.trans hn1)
    refine herr.trans ((mul_le_mul_of_nonneg_left hmx (by positivity)).trans (by rw [one_div_mul_eq_div]))

theorem count_eq {M : Machine} {n : ℕ} {f y : ℝ} (h : M.R.mul (.fin f) (M.R.round (.fin n)) = .fin y) (y0 : 0 ≤ y) :
    Model.Rounded.arCount M (.fin f) n = .ok ⌊y + 1 / 2⌋ := by
  unfold Model.Rounded.arCount
  rw [h]
  show Except.ok (roundHalfUp y) = _
  unfold roundHalfUp
  rw [if_pos y0]

theorem small {n : ℝ} (hn : n ≤ 2 ^ 20) (h0 : 0 ≤ n) :
    n * 2 ^ (-53 : ℤ) ≤ (n + 1) * 2 ^ (-53 : ℤ) * (1 - n * 2 ^ (-53 : ℤ)) := by
  norm_num at hn ⊢
  nlinarith

theorem pinf_div {t : ℝ} (h : 0 < t) : (XR.pinf : XR) / .fin t = .pinf := by
  show XR.div _ _ = _
  simp [XR.div, h, h.ne', h.le]

/-- sums from the left grow when non-negative numbers are added at the front -/
theorem fold_mono {R : Rounding} {l : List XR} (hl : ∀ x ∈ l, (0 : XR) ≤ x) {a b : XR} (ha : 0 ≤ a) (hab : a ≤ b) :
    0 ≤ l.foldl R.add a ∧ l.foldl R.add a ≤ l.foldl R.add b := by
  induction l generalizing a b with
  | nil => exact ⟨ha, hab⟩
  | cons x t ih =>
    have hx := hl x (by simp)
    exact ih (fun y hy => hl y (by simp [hy])) (Rounding.add_nonneg ha hx)
      (Rounding.round_mono (XR.add_mono' ha hx hab (XR.le_refl' (XR.ne_nan_of_le hx).2)))

theorem sum_mono {R : Rounding} {l m : List XR} (hl : ∀ x ∈ l ++ m, (0 : XR) ≤ x) :
    0 ≤ R.foldSum m ∧ R.foldSum m ≤ R.foldSum (l ++ m) := by
  have h0 : (0 : XR) ≤ .fin 0 := XR.fin_le.mpr le_rfl
  have h1 := fold_mono (R := R) (l := l) (fun x hx => hl x (by simp [hx])) h0 h0
  have h2 := fold_mono (R := R) (l := m) (fun x hx => hl x (by simp [hx])) h0 h1.1
  refine ⟨h2.1, ?_⟩
  unfold Rounding.foldSum
  rw [List.foldl_append]
  exact h2.2

end RoundedAbsorption

/-- C197. The number of eigenvalues used for a fraction between 0 and 1 of up to 2^40 assets lies between 0 and `n`, and differs
from `f n` by at most one half plus the rounding error of the product. -/
theorem C197_count (M : Machine) (hM : M.R = binary64.rounding) (n : ℕ) (hn : n ≤ 2 ^ 40) (f : ℝ) (h0 : 0 ≤ f) (h1 : f ≤ 1) :
    ∃ k : ℕ, Model.Rounded.arCount M (.fin f) n = .ok k ∧ k ≤ n ∧ |(k : ℝ) - f * n| ≤ 1 / 2 + n / 2 ^ 53 := by
  obtain ⟨y, hy, y0, y1, he⟩ := RoundedAbsorption.product M hM hn h0 h1
  have hfl := Int.floor_le (y + 1 / 2)
  have hfu := Int.lt_floor_add_one (y + 1 / 2)
  have hnn : 0 ≤ ⌊y + 1 / 2⌋ := Int.floor_nonneg.mpr (by linarith)
  obtain ⟨k, hk⟩ := Int.eq_ofNat_of_zero_le hnn
  refine ⟨k, by rw [RoundedAbsorption.count_eq hy y0, hk], ?_, ?_⟩
  · have : ⌊y + 1 / 2⌋ < (n : ℤ) + 1 := by rw [Int.floor_lt]; push_cast; linarith
    omega
  · rw [hk] at hfl hfu
    push_cast at hfl hfu
    obtain ⟨e1, e2⟩ := abs_le.mp he
    rw [abs_le]
    constructor <;> linarith

/-- C197. A fraction written as whole percents: unless the exact product `c n / 100` is half-way between two whole numbers, the
number of eigenvalues is the exact product rounded. -/
theorem C197_percent (M : Machine) (hM : M.R = binary64.rounding) (c n : ℕ) (hc : c ≤ 100) (hn : n ≤ 2 ^ 40)
    (hh : c * n % 100 ≠ 50) :
    Model.Rounded.arCount M (M.R.rd (c / 100)) n = .ok (((c * n + 50) / 100 : ℕ) : ℤ) := by
  have hcr : (c : ℝ) ≤ 100 := by exact_mod_cast hc
  have hc0 : (0 : ℝ) ≤ c := by positivity
  obtain ⟨f, hf, f0, f1, _⟩ := rd_between (R := M.R) (lo := 0) (hi := 1) (x := (c : ℝ) / 100) Rounding.rd_zero Rounding.rep_one
    (by positivity) (by linarith)
  have A := Format.accurate binary64
  have hu : (2 : ℝ) ^ (-(binary64.p : ℤ)) = 1 / 2 ^ 53 := by norm_num [binary64]
  rw [hu] at A
  have hef : |f - (c : ℝ) / 100| ≤ 1 / 2 ^ 53 := by
    rw [hM] at hf
    have herr := A.err _ _ hf
    rw [abs_of_nonneg (show (0 : ℝ) ≤ c / 100 by positivity)] at herr
    have hmn : (2 : ℝ) ^ binary64.emin ≤ 1 := by
      rw [← zpow_zero (2 : ℝ)]
      exact zpow_le_zpow_right₀ (by norm_num) (by simp [binary64])
    have hmx : max ((c : ℝ) / 100) (2 ^ binary64.emin) ≤ 1 := max_le (by linarith) hmn
    refine herr.trans ((mul_le_mul_of_nonneg_left hmx (by positivity)).trans (by rw [mul_one]))
  obtain ⟨y, hy, y0, y1, he⟩ := RoundedAbsorption.product M hM hn f0 f1
  rw [hf, RoundedAbsorption.count_eq hy y0]
  congr 1
  have hnr : (n : ℝ) ≤ 2 ^ 40 := by exact_mod_cast hn
  have hn0 : (0 : ℝ) ≤ n := by positivity
  have hs : (n : ℝ) / 2 ^ 53 ≤ 1 / 1000 := by
    refine (div_le_div_of_nonneg_right hnr (by positivity)).trans (by norm_num)
  have hprod : |f * n - (c : ℝ) * n / 100| ≤ n / 2 ^ 53 := by
    have e : f * n - (c : ℝ) * n / 100 = (f - c / 100) * n := by ring
    rw [e, abs_mul, abs_of_nonneg hn0]
    refine (mul_le_mul_of_nonneg_right hef hn0).trans (by rw [one_div_mul_eq_div])
  obtain ⟨a1, a2⟩ := abs_le.mp he
  obtain ⟨b1, b2⟩ := abs_le.mp hprod
  rw [Int.floor_eq_iff]
  set k := (c * n + 50) / 100 with hk
  have k1 : 100 * k ≤ c * n + 50 := by omega
  have k2 : c * n + 50 < 100 * k + 100 := by omega
  have k3 : c * n + 50 ≠ 100 * k := by omega
  have k4 : 100 * k + 1 ≤ c * n + 50 := by omega
  have r1 : (100 : ℝ) * k + 1 ≤ c * n + 50 := by exact_mod_cast k4
  have r2 : (c : ℝ) * n + 50 + 1 ≤ 100 * k + 100 := by exact_mod_cast k2
  push_cast
  constructor <;> linarith

/-- C197. At the default of 20% the number of eigenvalues is `n / 5` rounded to the nearest whole number, for every number of
assets up to 2^40. -/
theorem C197_default (M : Machine) (hM : M.R = binary64.rounding) (n : ℕ) (hn : n ≤ 2 ^ 40) :
    ∃ k : ℕ, Model.Rounded.arCount M (M.R.rd (1 / 5)) n = .ok k ∧ |(k : ℝ) - n / 5| < 1 / 2 := by
  have h := C197_percent M hM 20 n (by norm_num) hn (by omega)
  rw [show (((20 : ℕ) : ℝ) / 100) = 1 / 5 by norm_num] at h
  refine ⟨_, h, ?_⟩
  set k := (20 * n + 50) / 100 with hk
  have k1 : 10 * k + 1 ≤ 2 * n + 5 := by omega
  have k2 : 2 * n + 5 + 1 ≤ 10 * k + 10 := by omega
  have r1 : (10 : ℝ) * k + 1 ≤ 2 * n + 5 := by exact_mod_cast k1
  have r2 : (2 : ℝ) * n + 5 + 1 ≤ 10 * k + 10 := by exact_mod_cast k2
  rw [abs_lt]
  constructor <;> linarith

/-- C197. Half-way products may be rounded the wrong way: 29% of 50 assets is 14.5, which ROUND_HALF_UP turns into 15, but the
computed product is below 14.5, and 14 eigenvalues are used. -/
theorem C197_half (M : Machine) (hM : M.R = binary64.rounding) :
    Model.Rounded.arCount M (M.R.rd (29 / 100)) 50 = .ok 14 ∧ decimalInt (.fin (29 / 100 * 50)) = .ok 15 := by
  constructor
  · have c1 := RoundedDip.rd_cert (a := 29) (b := 100) (m := 5224175567749775) (s := 54) (by decide)
    have c2 := RoundedDip.rd_cert (a := 261208778387488750) (b := 2 ^ 54) (m := 8162774324609023) (s := 49) (by decide)
    have n1 := M.R.nat 50 (by rw [hM]; norm_num [binary64, Format.rounding])
    have e1 : M.R.rd (29 / 100) = .fin (5224175567749775 / 2 ^ 54) := by
      rw [hM]; norm_num at c1 ⊢; exact c1
    have e2 : M.R.mul (.fin (5224175567749775 / 2 ^ 54)) (M.R.round (.fin (50 : ℕ))) = .fin (8162774324609023 / 2 ^ 49) := by
      rw [Rounding.round_fin, n1]
      unfold Rounding.mul
      rw [XR.fin_mul, Rounding.round_fin, hM]
      norm_num at c2 ⊢; exact c2
    rw [e1, RoundedAbsorption.count_eq e2 (by positivity)]
    congr 1
    rw [Int.floor_eq_iff]
    norm_num
  · show Except.ok (roundHalfUp (29 / 100 * 50)) = _
    unfold roundHalfUp
    rw [if_pos (by norm_num)]
    congr 1
    rw [Int.floor_eq_iff]
    norm_num

/-- C197. With non-negative computed eigenvalues and a positive trace the computed ratio is not negative and does not decrease when
the fraction grows. -/
theorem C197_monotone (M : Machine) (hM : M.R = binary64.rounding) (eigs : List ℝ) (hn : eigs.length ≤ 2 ^ 40)
    (he : ∀ x ∈ eigs, 0 ≤ x) (t : ℝ) (ht : 0 < t) (f g : ℝ) (h0 : 0 ≤ f) (hfg : f ≤ g) (h1 : g ≤ 1) :
    ∃ v w : XR, Model.Rounded.absorption M eigs.length eigs (.fin t) (.fin f) = .ok v ∧
      Model.Rounded.absorption M eigs.length eigs (.fin t) (.fin g) = .ok w ∧ 0 ≤ v ∧ v ≤ w := by
  obtain ⟨y, hy, y0, y1, _⟩ := RoundedAbsorption.product M hM hn h0 (hfg.trans h1)
  obtain ⟨z, hz, z0, z1, _⟩ := RoundedAbsorption.product M hM hn (h0.trans hfg) h1
  have hyz : y ≤ z := by
    have h : M.R.mul (.fin f) (M.R.round (.fin eigs.length)) ≤ M.R.mul (.fin g) (M.R.round (.fin eigs.length)) := by
      rw [Rounding.round_fin, M.R.nat eigs.length (by rw [hM]; exact hn.trans (by norm_num [binary64, Format.rounding]))]
      unfold Rounding.mul
      rw [XR.fin_mul, XR.fin_mul]
      exact Rounding.round_mono (XR.fin_le.mpr (mul_le_mul_of_nonneg_right hfg (by positivity)))
    rw [hy, hz] at h
    exact XR.fin_le.mp h
  obtain ⟨k, hk⟩ := Int.eq_ofNat_of_zero_le (Int.floor_nonneg.mpr (show 0 ≤ y + 1 / 2 by linarith))
  obtain ⟨m, hm⟩ := Int.eq_ofNat_of_zero_le (Int.floor_nonneg.mpr (show 0 ≤ z + 1 / 2 by linarith))
  have hkm : k ≤ m := by
    have := Int.floor_le_floor (show y + 1 / 2 ≤ z + 1 / 2 by linarith)
    rw [hk, hm] at this
    omega
  have hmn : m ≤ eigs.length := by
    have : ⌊z + 1 / 2⌋ < (eigs.length : ℤ) + 1 := by rw [Int.floor_lt]; push_cast; linarith
    omega
  set s := eigs.mergeSort (fun a b => decide (a ≤ b)) with hs
  have hperm : s.Perm eigs := List.mergeSort_perm _ _
  have hsl : s.length = eigs.length := hperm.length_eq
  have hval : ∀ (F : ℝ) (K : ℕ), K ≤ eigs.length → Model.Rounded.arCount M (.fin F) eigs.length = .ok (K : ℤ) →
      Model.Rounded.absorption M eigs.length eigs (.fin t) (.fin F)
        = .ok (M.R.div (M.R.foldSum ((s.drop (s.length - K)).map XR.fin)) (.fin t)) := by
    intro F K hK h
    unfold Model.Rounded.absorption
    rw [h]
    simp only [bind, Except.bind, pure, Except.pure]
    rw [← hs, slice_nat s K (by omega)]
  refine ⟨_, _, hval f k (by omega) (by rw [RoundedAbsorption.count_eq hy y0, hk]),
    hval g m hmn (by rw [RoundedAbsorption.count_eq hz z0, hm]), ?_⟩
  have hsplit : (s.drop (s.length - m)).map XR.fin
      = ((s.drop (s.length - m)).take (m - k)).map XR.fin ++ (s.drop (s.length - k)).map XR.fin := by
    rw [← List.map_append]
    congr 1
    have : s.drop (s.length - k) = (s.drop (s.length - m)).drop (m - k) := by
      rw [List.drop_drop]; congr 1; omega
    rw [this, List.take_append_drop]
  have hpos := RoundedAbsorption.sum_mono (R := M.R) (l := ((s.drop (s.length - m)).take (m - k)).map XR.fin)
    (m := (s.drop (s.length - k)).map XR.fin) (by
      rw [← hsplit]
      intro x hx
      obtain ⟨r, hr, rfl⟩ := List.mem_map.mp hx
      exact XR.fin_le.mpr (he r (hperm.subset (List.mem_of_mem_drop hr))))
  rw [hsplit]
  revert hpos
  generalize M.R.foldSum ((s.drop (s.length - k)).map XR.fin) = a
  generalize M.R.foldSum _ = b
  rintro ⟨ha, hab⟩
  have hdiv : ∀ x : XR, 0 ≤ x → (0 : XR) ≤ x / .fin t := by
    intro x hx
    rcases XR.nonneg_cases hx with rfl | ⟨r, hr, rfl⟩
    · rw [RoundedAbsorption.pinf_div ht]; trivial
    · rw [XR.fin_div _ ht.ne']; exact XR.fin_le.mpr (by positivity)
  refine ⟨Rounding.round_nonneg (hdiv a ha), Rounding.round_mono ?_⟩
  rcases XR.nonneg_cases ha with rfl | ⟨r, hr, rfl⟩ <;> rcases XR.nonneg_cases (XR.le_trans' ha hab) with rfl | ⟨r', hr', rfl⟩
  · rw [RoundedAbsorption.pinf_div ht]; trivial
  · exact False.elim hab
  · rw [RoundedAbsorption.pinf_div ht, XR.fin_div _ ht.ne']; trivial
  · rw [XR.fin_div _ ht.ne', XR.fin_div _ ht.ne']
    exact XR.fin_le.mpr (div_le_div_of_nonneg_right (XR.fin_le.mp hab) ht.le)

/-- C197. Accuracy: with up to 2^20 non-negative computed eigenvalues the result is within a relative error of `(k + 1) 2^-53` of
the sum of the `k` largest divided by the trace (sizes away from overflow and underflow). -/
theorem C197_accuracy (M : Machine) (hM : M.R = binary64.rounding) (eigs : List ℝ) (hn : eigs.length ≤ 2 ^ 20)
    (he : ∀ x ∈ eigs, 0 ≤ x ∧ M.R.Rep (.fin x) ∧ x ≤ 2 ^ (400 : ℤ) ∧ (x = 0 ∨ (2 : ℝ) ^ (-400 : ℤ) ≤ x)) (t : ℝ)
    (ht : (2 : ℝ) ^ (-400 : ℤ) ≤ t) (ht2 : t ≤ 2 ^ (400 : ℤ)) (f : ℝ) (h0 : 0 ≤ f) (h1 : f ≤ 1) :
    ∃ (k : ℕ) (S v : ℝ), Model.Rounded.arCount M (.fin f) eigs.length = .ok k ∧ IsTopSum (eigs : Multiset ℝ) k S ∧
      Model.Rounded.absorption M eigs.length eigs (.fin t) (.fin f) = .ok (.fin v) ∧
      |v - S / t| ≤ (k + 1) * 2 ^ (-53 : ℤ) * (S / t) := by
  obtain ⟨k, hk, hkn, _⟩ := C197_count M hM eigs.length (hn.trans (by norm_num)) f h0 h1
  obtain ⟨tiny, huge, A, a1, a2, a3⟩ := Rounded.acc64 hM
  have hu1 : (2 : ℝ) ^ (-53 : ℤ) < 1 := by norm_num
  have ht0 : (0 : ℝ) < t := lt_of_lt_of_le (by positivity) ht
  set s := eigs.mergeSort (fun a b => decide (a ≤ b)) with hs
  have hperm : s.Perm eigs := List.mergeSort_perm _ _
  have hsl : s.length = eigs.length := hperm.length_eq
  have hsorted : s.Pairwise (· ≤ ·) := by
    have := List.pairwise_mergeSort (le := fun a b : ℝ => decide (a ≤ b))
      (fun a b c h1 h2 => by simp only [decide_eq_true_eq] at *; exact h1.trans h2)
      (fun a b => by simpa using le_total a b) eigs
    simpa using this
  set w := s.drop (s.length - k) with hw
  have hwl : w.length = k := by rw [hw, List.length_drop]; omega
  have hwm : ∀ x ∈ w, x ∈ eigs := fun x hx => hperm.subset (List.mem_of_mem_drop hx)
  have hk20 : (k : ℝ) ≤ 2 ^ 20 := by exact_mod_cast hkn.trans hn
  have hku : 2 * ((k : ℝ) * 2 ^ (-53 : ℤ)) ≤ 1 := by
    have h' := mul_le_mul_of_nonneg_right hk20 (show (0 : ℝ) ≤ 2 ^ (-53 : ℤ) by positivity)
    have h'' : (2 : ℝ) * (2 ^ 20 * 2 ^ (-53 : ℤ)) ≤ 1 := by norm_num
    exact (mul_le_mul_of_nonneg_left h' (by norm_num)).trans h''
  have hS0 : 0 ≤ w.sum := List.sum_nonneg fun x hx => (he x (hwm x hx)).1
  have hSu : w.sum ≤ 2 ^ 20 * 2 ^ (400 : ℤ) := by
    have h := List.sum_le_card_nsmul w (2 ^ (400 : ℤ)) (fun x hx => (he x (hwm x hx)).2.2.1)
    rw [nsmul_eq_mul, hwl] at h
    exact h.trans (mul_le_mul_of_nonneg_right hk20 (by positivity))
  have hre : (w.map XR.fin).map Accurate.re = w := by rw [List.map_map]; exact List.map_id _
  have big : ∀ (e : ℤ), e ≤ 1000 → (2 : ℝ) * (2 ^ 20 * 2 ^ e) ≤ 2 * 2 ^ 20 * 2 ^ (1000 : ℤ) := by
    intro e h
    rw [← mul_assoc]
    exact mul_le_mul_of_nonneg_left (zpow_le_zpow_right₀ (by norm_num) h) (by positivity)
  have hhuge : (2 : ℝ) * (2 ^ 20 * 2 ^ (900 : ℤ)) ≤ huge := by
    have h20 : (2 : ℝ) ^ (20 : ℤ) = 2 ^ 20 := by norm_num
    rw [h20] at a2
    refine le_trans ?_ a2
    have e : (2 : ℝ) * (2 ^ 20 * 2 ^ (900 : ℤ)) = 2 ^ 20 * 2 ^ (901 : ℤ) := by
      rw [show (901 : ℤ) = 900 + 1 by norm_num, zpow_add₀ (by norm_num), zpow_one]; ring
    rw [e]
    exact mul_le_mul_of_nonneg_left (zpow_le_zpow_right₀ (by norm_num) (by norm_num)) (by positivity)
  have hle900 : (2 : ℝ) ^ (400 : ℤ) ≤ 2 ^ (900 : ℤ) := zpow_le_zpow_right₀ (by norm_num) (by norm_num)
  obtain ⟨r, hr, hrr, hrc⟩ := A.sum hu1 (M.R.foldSum_ok (w.map XR.fin)) (by
      intro v hv
      obtain ⟨x, hx, rfl⟩ := List.mem_map.mp hv
      exact ⟨x, rfl, (he x (hwm x hx)).1, (he x (hwm x hx)).2.1⟩)
    (by rw [List.length_map, hwl]; exact hku)
    (by
      rw [hre]
      refine le_trans (mul_le_mul_of_nonneg_left (hSu.trans ?_) (by norm_num)) hhuge
      exact mul_le_mul_of_nonneg_left hle900 (by positivity))
  rw [hre, List.length_map, hwl] at hrc
  have hrange : InRange tiny huge (w.sum / t) := by
    by_cases hz : w.sum = 0
    · left; rw [hz, zero_div]
    right
    have hge : (2 : ℝ) ^ (-400 : ℤ) ≤ w.sum := by
      by_contra hlt
      apply hz
      refine le_antisymm ?_ hS0
      have : ∀ x ∈ w, x = 0 := by
        intro x hx
        rcases (he x (hwm x hx)).2.2.2 with h | h
        · exact h
        · exact absurd (h.trans (List.single_le_sum (fun y hy => (he y (hwm y hy)).1) x hx)) hlt
      exact (List.sum_eq_zero this).le
    constructor
    · have e : (2 : ℝ) ^ (-800 : ℤ) ≤ w.sum / t := by
        rw [le_div_iff₀ ht0]
        calc (2 : ℝ) ^ (-800 : ℤ) * t ≤ 2 ^ (-800 : ℤ) * 2 ^ (400 : ℤ) := mul_le_mul_of_nonneg_left ht2 (by positivity)
          _ = 2 ^ (-400 : ℤ) := by rw [← zpow_add₀ (by norm_num)]; norm_num
          _ ≤ _ := hge
      have e1 : (2 : ℝ) ^ (-950 : ℤ) ≤ 2 ^ (-800 : ℤ) := zpow_le_zpow_right₀ (by norm_num) (by norm_num)
      have e2 : (1 : ℝ) ≤ 2 ^ (53 : ℤ) := by norm_num
      have htn := A.tiny_nonneg
      calc 2 * tiny = 2 * tiny * 1 := by ring
        _ ≤ 2 * tiny * 2 ^ (53 : ℤ) := mul_le_mul_of_nonneg_left e2 (by linarith)
        _ ≤ _ := a3.trans (e1.trans e)
    · have e : w.sum / t ≤ 2 ^ 20 * 2 ^ (900 : ℤ) := by
        rw [div_le_iff₀ ht0]
        calc w.sum ≤ 2 ^ 20 * 2 ^ (400 : ℤ) := hSu
          _ ≤ 2 ^ 20 * (2 ^ (900 : ℤ) * 2 ^ (-400 : ℤ)) := by
            refine mul_le_mul_of_nonneg_left ?_ (by positivity)
            rw [← zpow_add₀ (by norm_num)]
            exact zpow_le_zpow_right₀ (by norm_num) (by norm_num)
          _ = 2 ^ 20 * 2 ^ (900 : ℤ) * 2 ^ (-400 : ℤ) := by ring
          _ ≤ _ := mul_le_mul_of_nonneg_left ht (by positivity)
      exact (mul_le_mul_of_nonneg_left e (by norm_num)).trans hhuge
  have hkk : 2 * (((k - 1 + 0 : ℕ) : ℝ) * (2 : ℝ) ^ (-53 : ℤ)) ≤ 1 := by
    refine le_trans ?_ hku
    refine mul_le_mul_of_nonneg_left (mul_le_mul_of_nonneg_right ?_ (by positivity)) (by norm_num)
    exact_mod_cast (by omega : k - 1 + 0 ≤ k)
  obtain ⟨v, hv, _, hvc⟩ := A.div (l := 0) hu1 hkk hrc (Close.refl ht0.le) ht0 hrange
  refine ⟨k, w.sum, v, hk, ?_, ?_, ?_⟩
  · refine ⟨(w : List ℝ), (s.take (s.length - k) : List ℝ), ?_, ?_, ?_, ?_⟩
    · rw [add_comm, Multiset.coe_add, List.take_append_drop]
      exact Multiset.coe_eq_coe.mpr hperm
    · rw [Multiset.coe_card, hwl]
    · intro a ha b hb
      have h := hsorted
      rw [← List.take_append_drop (s.length - k) s, List.pairwise_append] at h
      exact h.2.2 b hb a ha
    · rw [Multiset.sum_coe]
  · unfold Model.Rounded.absorption
    rw [hk]
    simp only [bind, Except.bind, pure, Except.pure]
    rw [← hs, slice_nat s k (by omega), ← hw, hr, hv]
  · rcases Nat.eq_zero_or_pos k with rfl | hkp
    · have hw0 : w = [] := List.eq_nil_of_length_eq_zero hwl
      have hz : v = 0 := by
        rw [hw0] at hr
        have : r = 0 := by simpa [Rounding.foldSum] using hr.symm
        rw [this] at hv
        unfold Rounding.div at hv
        rw [XR.fin_div _ ht0.ne', zero_div, Rounding.round_fin, Rounding.rd_zero] at hv
        simpa using hv.symm
      rw [hz, hw0]
      simp
    · rw [show k - 1 + 0 + 1 = k by omega] at hvc
      refine (hvc.error A.u_nonneg (by linarith) hu1).trans ?_
      apply mul_le_mul_of_nonneg_right _ (by positivity)
      have hd : 0 < 1 - (k : ℝ) * 2 ^ (-53 : ℤ) := by linarith
      rw [div_le_iff₀ hd]
      exact RoundedAbsorption.small hk20 (by positivity)

/-- 35% of ten assets would be 3.5; 35% of eleven (3.85) is four -/
example : Model.Rounded.arCount Machine.ieee (Machine.ieee.R.rd (35 / 100)) 11 = .ok 4 := by
  have := C197_percent Machine.ieee rfl 35 11 (by norm_num) (by norm_num) (by norm_num)
  norm_num at this ⊢
  exact this

/-- three eigenvalues, from one third to two thirds of them -/
example : ∃ v w : XR, Model.Rounded.absorption Machine.ieee 3 [2, 0, 1] (.fin 3) (.fin (1 / 3)) = .ok v ∧
    Model.Rounded.absorption Machine.ieee 3 [2, 0, 1] (.fin 3) (.fin (2 / 3)) = .ok w ∧ 0 ≤ v ∧ v ≤ w :=
  C197_monotone Machine.ieee rfl [2, 0, 1] (by norm_num) (by simp) 3 (by norm_num) (1 / 3) (2 / 3) (by norm_num) (by norm_num)
    (by norm_num)

/-- the accuracy bound on three eigenvalues -/
example : ∃ (k : ℕ) (S v : ℝ), Model.Rounded.arCount Machine.ieee (.fin (1 / 2)) 3 = .ok k ∧
    IsTopSum (([2, 0, 1] : List ℝ) : Multiset ℝ) k S ∧
    Model.Rounded.absorption Machine.ieee 3 [2, 0, 1] (.fin 3) (.fin (1 / 2)) = .ok (.fin v) ∧
      |v - S / 3| ≤ (k + 1) * 2 ^ (-53 : ℤ) * (S / 3) := by
  have hb : (2 : ℝ) ^ (2 : ℤ) ≤ 2 ^ (400 : ℤ) := zpow_le_zpow_right₀ (by norm_num) (by norm_num)
  have hs : (2 : ℝ) ^ (-400 : ℤ) ≤ 2 ^ (0 : ℤ) := zpow_le_zpow_right₀ (by norm_num) (by norm_num)
  have h4 : (2 : ℝ) ^ (2 : ℤ) = 4 := by norm_num
  rw [h4] at hb
  rw [zpow_zero] at hs
  refine C197_accuracy Machine.ieee rfl [2, 0, 1] (by norm_num) ?_ 3 (hs.trans (by norm_num)) (le_trans (by norm_num) hb)
    (1 / 2) (by norm_num) (by norm_num)
  intro x hx
  simp only [List.mem_cons, List.not_mem_nil, or_false] at hx
  have hn := fun n : ℕ => RoundedDip.nat_rep (n := n)
  rcases hx with rfl | rfl | rfl
  · exact ⟨by norm_num, (show Machine.ieee.R.rd 2 = _ by simpa using hn 2 (by norm_num)), le_trans (by norm_num) hb,
      Or.inr (hs.trans (by norm_num))⟩
  · exact ⟨le_rfl, (show Machine.ieee.R.rd 0 = _ by simpa using hn 0 (by norm_num)), le_trans (by norm_num) hb, Or.inl rfl⟩
  · exact ⟨by norm_num, (show Machine.ieee.R.rd 1 = _ by simpa using hn 1 (by norm_num)), le_trans (by norm_num) hb,
      Or.inr hs⟩

end
end Frds.Props

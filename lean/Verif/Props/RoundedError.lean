import Verif.Props.RoundedSpread
import Verif.Lemmas.RoundError

/-! Accuracy of the computed measures: relative errors against the exact value of the same formula. The arithmetic is any
rounding with `Accurate` laws (`Format.accurate`: binary64 has `u = 2 ^ -53`, `tiny = 2 ^ -1022`, `huge = 2 ^ 1023`); the
exact intermediate values must not underflow or overflow. Sums are in any order. -/
namespace Frds.Props
noncomputable section
open Frds Frds.Model Classical
set_option linter.unusedSimpArgs false

/-- C162: the computed PIN has a relative error of at most five rounding errors, `5 u / (1 - 5 u)`. -/
theorem C162_pin_accuracy (M : Machine) {u tiny huge : ℝ} (A : Accurate M.R u tiny huge) (hu : 8 * u ≤ 1)
    (a d eB eS m : ℝ) (ha : 0 ≤ a) (hm : 0 ≤ m) (hB : 0 ≤ eB) (hS : 0 ≤ eS) (rB : M.R.Rep (.fin eB))
    (rS : M.R.Rep (.fin eS)) (h0 : a * m = 0 ∨ 2 * tiny ≤ a * m) (hpos : 0 < a * m + eB + eS) (h2 : 2 ≤ huge)
    (hmax : 2 * (a * m + eB + eS) ≤ huge) (hmin : a * m = 0 ∨ 2 * tiny ≤ a * m / (a * m + eB + eS)) :
    ∃ r, Model.Rounded.pin M ⟨.fin a, .fin d, .fin eB, .fin eS, .fin m⟩ = .fin r ∧
      |r - a * m / (a * m + eB + eS)| ≤ 5 * u / (1 - 5 * u) * (a * m / (a * m + eB + eS)) := by
  have hu0 := A.u_nonneg
  have hu1 : u < 1 := by linarith
  have ham : 0 ≤ a * m := mul_nonneg ha hm
  have rB' : M.R.rd eB = .fin eB := rB
  have rS' : M.R.rd eS = .fin eS := rS
  obtain ⟨p, hp, rp, cp⟩ := A.mul hu1 (by push_cast; linarith) (Close.refl ha) (Close.refl hm)
    (h0.imp_right fun h => ⟨h, by linarith⟩)
  obtain ⟨s, hs, rs, cs⟩ := A.add hu1 (by push_cast; linarith) cp ((Close.refl hB).mono hu0 hu1 (Nat.zero_le 1)) rp rB'
    (by linarith)
  obtain ⟨t, ht, rt, ct⟩ := A.add hu1 (by push_cast; linarith) cs ((Close.refl hS).mono hu0 hu1 (Nat.zero_le 2)) rs rS'
    (by linarith)
  have hle : a * m / (a * m + eB + eS) ≤ 1 := (div_le_one hpos).mpr (by linarith)
  obtain ⟨r, hr, _, cr⟩ := A.div hu1 (by push_cast; linarith) cp ct hpos
    (hmin.imp (fun h => by rw [h]; simp) fun h => ⟨h, by linarith⟩)
  refine ⟨r, ?_, ?_⟩
  · show M.R.div (M.R.mul (.fin a) (.fin m)) (M.R.add (M.R.add (M.R.mul (.fin a) (.fin m)) (.fin eB)) (.fin eS)) = _
    rw [hp, hs, ht, hr]
  · have := cr.error hu0 (by push_cast; linarith) hu1
    norm_num at this
    exact this

/-- C162: in binary64 the computed PIN is accurate to `6 * 2 ^ -53` -/
theorem C162_pin_binary64 (M : Machine) (hM : M.R = binary64.rounding) (a d eB eS m : ℝ) (ha : 0 ≤ a) (hm : 0 ≤ m)
    (hB : 0 ≤ eB) (hS : 0 ≤ eS) (rB : M.R.Rep (.fin eB)) (rS : M.R.Rep (.fin eS))
    (h0 : a * m = 0 ∨ (2 : ℝ) ^ (-1021 : ℤ) ≤ a * m) (hpos : 0 < a * m + eB + eS)
    (hmax : a * m + eB + eS ≤ (2 : ℝ) ^ (1022 : ℤ))
    (hmin : a * m = 0 ∨ (2 : ℝ) ^ (-1021 : ℤ) ≤ a * m / (a * m + eB + eS)) :
    ∃ r, Model.Rounded.pin M ⟨.fin a, .fin d, .fin eB, .fin eS, .fin m⟩ = .fin r ∧
      |r - a * m / (a * m + eB + eS)| ≤ 6 * 2 ^ (-53 : ℤ) * (a * m / (a * m + eB + eS)) := by
  have A := Format.accurate binary64
  rw [← hM] at A
  have e1 : (2 : ℝ) * 2 ^ (-1022 : ℤ) = 2 ^ (-1021 : ℤ) := by
    rw [show (-1021 : ℤ) = 1 + -1022 by norm_num, zpow_add₀ (by norm_num), zpow_one]
  have e2 : (2 : ℝ) * 2 ^ (1022 : ℤ) = 2 ^ (1023 : ℤ) := by
    rw [show (1023 : ℤ) = 1 + 1022 by norm_num, zpow_add₀ (by norm_num), zpow_one]
  have e3 : (2 : ℝ) ≤ 2 ^ (1023 : ℤ) := by
    calc (2 : ℝ) = 2 ^ (1 : ℤ) := by norm_num
      _ ≤ _ := zpow_le_zpow_right₀ (by norm_num) (by norm_num)
  have hu : (8 : ℝ) * 2 ^ (-53 : ℤ) ≤ 1 := by norm_num
  obtain ⟨r, h1, h2⟩ := C162_pin_accuracy M A (by exact hu) a d eB eS m ha hm hB hS rB rS
    (h0.imp_right fun h => by show 2 * (2 : ℝ) ^ (-1022 : ℤ) ≤ _; rw [e1]; exact h) hpos e3
    (by show _ ≤ (2 : ℝ) ^ (1023 : ℤ); rw [← e2]; linarith)
    (hmin.imp_right fun h => by show 2 * (2 : ℝ) ^ (-1022 : ℤ) ≤ _; rw [e1]; exact h)
  refine ⟨r, h1, h2.trans ?_⟩
  apply mul_le_mul_of_nonneg_right _ (div_nonneg (mul_nonneg ha hm) hpos.le)
  show 5 * (2 : ℝ) ^ (-53 : ℤ) / (1 - 5 * 2 ^ (-53 : ℤ)) ≤ _
  norm_num

/-- the hypotheses hold for typical estimates: `alpha = 1/4`, `mu = 100`, `eB = 60`, `eS = 40` -/
example : ∃ r, Model.Rounded.pin Machine.ieee ⟨.fin (1 / 4), .fin (1 / 2), .fin 60, .fin 40, .fin 100⟩ = .fin r ∧
    |r - 1 / 5| ≤ 6 * 2 ^ (-53 : ℤ) * (1 / 5) := by
  have small : (2 : ℝ) ^ (-1021 : ℤ) ≤ 2 ^ (-3 : ℤ) := zpow_le_zpow_right₀ (by norm_num) (by norm_num)
  have big : (2 : ℝ) ^ (10 : ℤ) ≤ 2 ^ (1022 : ℤ) := zpow_le_zpow_right₀ (by norm_num) (by norm_num)
  have h3 : (2 : ℝ) ^ (-3 : ℤ) = 1 / 8 := by norm_num
  have h10 : (2 : ℝ) ^ (10 : ℤ) = 1024 := by norm_num
  rw [h3] at small
  rw [h10] at big
  have := C162_pin_binary64 Machine.ieee rfl (1 / 4) (1 / 2) 60 40 100 (by norm_num) (by norm_num) (by norm_num)
    (by norm_num) (by exact_mod_cast Rounding.rep_nat (R := binary64.rounding) (n := 60) (by norm_num [Format.rounding, binary64]))
    (by exact_mod_cast Rounding.rep_nat (R := binary64.rounding) (n := 40) (by norm_num [Format.rounding, binary64]))
    (Or.inr (small.trans (by norm_num))) (by norm_num) (le_trans (by norm_num) big) (Or.inr (small.trans (by norm_num)))
  rw [show (1 / 4 * 100 / (1 / 4 * 100 + 60 + 40) : ℝ) = 1 / 5 by norm_num] at this
  exact this

/-! ### C163: quoted spread -/

namespace Rounded
open Rounding

/-- computed relative spread of one quote -/
theorem relSpread_close {M : Machine} {u tiny huge : ℝ} (A : Accurate M.R u tiny huge) (hu : 8 * u ≤ 1) {b a : ℝ}
    (hb : 0 < b) (hba : b ≤ a) (rb : M.R.rd b = .fin b) (ra : M.R.rd a = .fin a) (hlo : 2 * tiny ≤ b) (hhi : 4 * a ≤ huge)
    (h4 : 4 ≤ huge) (hs : a = b ∨ 2 * tiny * a ≤ a - b) :
    ∃ y, Model.Rounded.relSpread M (.fin b) (.fin a) = .fin y ∧ M.R.rd y = .fin y ∧
      Close u 4 ((a - b) / ((a + b) / 2)) y := by
  have hu0 := A.u_nonneg
  have hu1 : u < 1 := by linarith
  obtain ⟨d, hd, rd, cd⟩ := A.step_sub hu1 ra rb hba (by linarith)
  obtain ⟨s, hsum, rs, cs⟩ := A.add hu1 (k := 0) (by norm_num) (Close.refl hb.le) (Close.refl (by linarith : 0 ≤ a)) rb ra
    (by linarith)
  obtain ⟨m, hm, rm, cm⟩ := A.div hu1 (by push_cast; linarith) cs (Close.refl (by norm_num : (0 : ℝ) ≤ 2)) (by norm_num)
    (Or.inr ⟨by linarith, by linarith⟩)
  have hmid : 0 < (b + a) / 2 := by linarith
  obtain ⟨y, hy, ry, cy⟩ := A.div hu1 (by push_cast; linarith) cd cm hmid (by
    rcases hs with h | h
    · left; rw [h]; simp
    · right
      constructor
      · rw [le_div_iff₀ hmid]
        have := A.tiny_nonneg
        nlinarith
      · have : (a - b) / ((b + a) / 2) ≤ 2 := by rw [div_le_iff₀ hmid]; linarith
        linarith)
  refine ⟨y, ?_, ry, by rw [add_comm a b]; exact cy⟩
  show M.R.div (M.R.sub (.fin a) (.fin b)) (M.R.div (M.R.add (.fin b) (.fin a)) 2) = _
  rw [show M.R.sub (.fin a) (.fin b) = .fin d from hd, hsum, show (2 : XR) = .fin 2 from rfl, hm, hy]

theorem sum_le_mul {l : List ℝ} {c : ℝ} (h : ∀ x ∈ l, x ≤ c) : l.sum ≤ c * l.length := by
  induction l with
  | nil => simp
  | cons x t ih =>
    have h1 := h x (by simp)
    have h2 := ih fun y hy => h y (by simp [hy])
    simp only [List.sum_cons, List.length_cons]
    push_cast
    linarith

theorem sum_ge_mem {l : List ℝ} (h : ∀ x ∈ l, 0 ≤ x) {y : ℝ} (hy : y ∈ l) : y ≤ l.sum := List.single_le_sum h y hy

theorem sum_zero_or {l : List ℝ} (h : ∀ x ∈ l, 0 ≤ x) : l.sum = 0 ∨ ∃ x ∈ l, x ≠ 0 := by
  by_cases hx : ∃ x ∈ l, x ≠ 0
  · exact Or.inr hx
  · left
    push Not at hx
    exact List.sum_eq_zero hx

end Rounded
open Rounded

/-- C163: for quotes with `0 < bid <= ask`, the computed percentage quoted spread of `n` quotes has a relative error of at
most `n + 5` rounding errors. The difference of bid and ask causes no loss of accuracy, however small it is. -/
theorem C163_quoted_accuracy (M : Machine) {u tiny huge : ℝ} (A : Accurate M.R u tiny huge) (q : List (ℝ × ℝ))
    (hne : q ≠ []) (hn : q.length ≤ 2 ^ M.R.prec) (hu : 2 * ((q.length + 5) * u) ≤ 1)
    (hq : ∀ x ∈ q, 0 < x.1 ∧ x.1 ≤ x.2 ∧ M.R.Rep (.fin x.1) ∧ M.R.Rep (.fin x.2))
    (hlo : ∀ x ∈ q, 2 * tiny ≤ x.1) (hhi : ∀ x ∈ q, 4 * x.2 ≤ huge) (hbig : 400 * q.length ≤ huge)
    (hs : ∀ x ∈ q, x.2 = x.1 ∨ 2 * tiny * q.length * x.2 ≤ x.2 - x.1) :
    ∃ r, Model.Rounded.quotedSpread M (q.map fun x => .fin x.1) (q.map fun x => .fin x.2) true = .ok (.fin r) ∧
      |r - (q.map fun x => (x.2 - x.1) / ((x.2 + x.1) / 2)).sum / q.length * 100| ≤
        (q.length + 5) * u / (1 - (q.length + 5) * u) *
          ((q.map fun x => (x.2 - x.1) / ((x.2 + x.1) / 2)).sum / q.length * 100) := by
  have hu0 := A.u_nonneg
  have ht0 := A.tiny_nonneg
  have hn1 : 1 ≤ q.length := List.length_pos_iff.mpr hne
  have hn1' : (1 : ℝ) ≤ q.length := by exact_mod_cast hn1
  have hu8 : 8 * u ≤ 1 := by nlinarith
  have hu1 : u < 1 := by linarith
  set S := (q.map fun x => (x.2 - x.1) / ((x.2 + x.1) / 2)) with hS
  have hterm : ∀ x ∈ q, 0 ≤ (x.2 - x.1) / ((x.2 + x.1) / 2) ∧ (x.2 - x.1) / ((x.2 + x.1) / 2) ≤ 2 ∧
      ((x.2 - x.1) / ((x.2 + x.1) / 2) = 0 ∨ 2 * tiny * q.length ≤ (x.2 - x.1) / ((x.2 + x.1) / 2)) := by
    intro x hx
    obtain ⟨h1, h2, _, _⟩ := hq x hx
    have hmid : 0 < (x.2 + x.1) / 2 := by linarith
    refine ⟨div_nonneg (by linarith) hmid.le, by rw [div_le_iff₀ hmid]; linarith, ?_⟩
    rcases hs x hx with h | h
    · left; rw [h]; simp
    · right
      rw [le_div_iff₀ hmid]
      have : 2 * tiny * q.length * ((x.2 + x.1) / 2) ≤ 2 * tiny * q.length * x.2 :=
        mul_le_mul_of_nonneg_left (by linarith) (by positivity)
      linarith
  have hSn : ∀ x ∈ S, 0 ≤ x := by
    intro x hx
    obtain ⟨y, hy, rfl⟩ := List.mem_map.mp hx
    exact (hterm y hy).1
  have hS2 : S.sum ≤ 2 * q.length := by
    have := sum_le_mul (l := S) (c := 2) (by
      intro x hx
      obtain ⟨y, hy, rfl⟩ := List.mem_map.mp hx
      exact (hterm y hy).2.1)
    simpa [hS] using this
  have hSum0 : 0 ≤ S.sum := List.sum_nonneg hSn
  have hrange : S.sum = 0 ∨ 2 * tiny * q.length ≤ S.sum := by
    rcases sum_zero_or hSn with h | ⟨x, hx, hx0⟩
    · exact Or.inl h
    · right
      obtain ⟨y, hy, rfl⟩ := List.mem_map.mp hx
      rcases (hterm y hy).2.2 with h | h
      · exact absurd h hx0
      · exact h.trans (sum_ge_mem hSn hx)
  set l := q.map fun x => Model.Rounded.relSpread M (.fin x.1) (.fin x.2) with hl
  have hlen : l.length = q.length := by simp [hl]
  have hf : List.Forall₂ (fun v r => ∃ y, v = XR.fin y ∧ M.R.rd y = .fin y ∧ Close u 4 r y) l S := by
    rw [hl, hS, List.forall₂_map_left_iff, List.forall₂_map_right_iff, List.forall₂_same]
    intro x hx
    obtain ⟨h1, h2, h3, h4⟩ := hq x hx
    refine relSpread_close A hu8 h1 h2 h3 h4 (hlo x hx) (hhi x hx) (by nlinarith) ?_
    rcases hs x hx with h | h
    · exact Or.inl h
    · right
      have : 2 * tiny * x.2 ≤ 2 * tiny * q.length * x.2 :=
        mul_le_mul_of_nonneg_right (by nlinarith) (by linarith)
      linarith
  obtain ⟨t, ht, rt, ct⟩ := A.sum_close hu1 (M.sum_ok 0 l) S hf (by rw [hlen]; push_cast; nlinarith) (by nlinarith)
  rw [hlen] at ct
  have hnr : M.R.round (.fin (l.length : ℝ)) = .fin (q.length : ℝ) := by rw [hlen]; exact M.R.nat _ hn
  have hdiv : S.sum / q.length = 0 ∨ 2 * tiny ≤ S.sum / q.length := by
    rcases hrange with h | h
    · left; rw [h]; simp
    · right; rw [le_div_iff₀ (by linarith)]; exact h
  have hdiv2 : S.sum / q.length ≤ 2 := by rw [div_le_iff₀ (by linarith)]; exact hS2
  obtain ⟨m, hm, rm, cm⟩ := A.div hu1 (by
      have : ((4 + (q.length - 1) + 0 : ℕ) : ℝ) = q.length + 3 := by
        have : 4 + (q.length - 1) + 0 = q.length + 3 := by omega
        rw [this]; push_cast; ring
      rw [this]; nlinarith) ct
    (Close.refl (by linarith : (0 : ℝ) ≤ q.length)) (by linarith)
    (hdiv.imp_right fun h => ⟨h, by nlinarith⟩)
  obtain ⟨r, hr, rr, cr⟩ := A.mul hu1 (by
      have : ((4 + (q.length - 1) + 0 + 1 + 0 : ℕ) : ℝ) = q.length + 4 := by
        have : 4 + (q.length - 1) + 0 + 1 + 0 = q.length + 4 := by omega
        rw [this]; push_cast; ring
      rw [this]; nlinarith) cm
    (Close.refl (by norm_num : (0 : ℝ) ≤ 100))
    (hdiv.imp (fun h => by rw [h]; simp) fun h => ⟨by nlinarith, by nlinarith⟩)
  have hk : 4 + (q.length - 1) + 0 + 1 + 0 + 1 = q.length + 5 := by omega
  rw [hk] at cr
  refine ⟨r, ?_, ?_⟩
  · have hz : List.zipWith (Model.Rounded.relSpread M) (q.map fun x => XR.fin x.1) (q.map fun x => XR.fin x.2) = l := by
      rw [List.zipWith_map, List.zipWith_self]
    simp only [Model.Rounded.quotedSpread, List.length_map, ne_eq, not_true_eq_false, if_false, if_true, hz]
    rw [Model.Rounded.mean, ht, hnr, hm, show (100 : XR) = .fin 100 from rfl, hr]
  · have := cr.error hu0 (by push_cast; nlinarith) hu1
    push_cast at this
    exact this

/-- the constants of binary64, with simple bounds -/
theorem Rounded.acc64 {M : Machine} (hM : M.R = binary64.rounding) :
    ∃ tiny huge : ℝ, Accurate M.R (2 ^ (-53 : ℤ)) tiny huge ∧ 2 * tiny * 2 ^ (1000 : ℤ) ≤ 2 ^ (-20 : ℤ) ∧
      2 ^ (20 : ℤ) * 2 ^ (1000 : ℤ) ≤ huge ∧ 2 * tiny * 2 ^ (53 : ℤ) ≤ 2 ^ (-950 : ℤ) := by
  have A := Format.accurate binary64
  rw [← hM] at A
  refine ⟨2 ^ (-1022 : ℤ), 2 ^ (1023 : ℤ), A, le_of_lt ?_, le_of_lt ?_, le_of_lt ?_⟩
  · rw [show (2 : ℝ) * 2 ^ (-1022 : ℤ) = 2 ^ (1 : ℤ) * 2 ^ (-1022 : ℤ) by rw [zpow_one], ← zpow_add₀ (by norm_num),
      ← zpow_add₀ (by norm_num)]
    exact zpow_lt_zpow_right₀ (by norm_num) (by norm_num)
  · rw [← zpow_add₀ (by norm_num)]
    exact zpow_lt_zpow_right₀ (by norm_num) (by norm_num)
  · rw [show (2 : ℝ) * 2 ^ (-1022 : ℤ) = 2 ^ (1 : ℤ) * 2 ^ (-1022 : ℤ) by rw [zpow_one], ← zpow_add₀ (by norm_num),
      ← zpow_add₀ (by norm_num)]
    exact zpow_lt_zpow_right₀ (by norm_num) (by norm_num)

/-- C163: in binary64, for at most 2^20 quotes of ordinary size, the computed quoted spread is accurate to
`(n + 6) * 2 ^ -53` -/
theorem C163_quoted_binary64 (M : Machine) (hM : M.R = binary64.rounding) (q : List (ℝ × ℝ)) (hne : q ≠ [])
    (hn : q.length ≤ 2 ^ 20) (hq : ∀ x ∈ q, 0 < x.1 ∧ x.1 ≤ x.2 ∧ M.R.Rep (.fin x.1) ∧ M.R.Rep (.fin x.2))
    (hlo : ∀ x ∈ q, (2 : ℝ) ^ (-900 : ℤ) ≤ x.1) (hhi : ∀ x ∈ q, x.2 ≤ (2 : ℝ) ^ (1000 : ℤ))
    (hs : ∀ x ∈ q, x.2 = x.1 ∨ (2 : ℝ) ^ (-53 : ℤ) * x.2 ≤ x.2 - x.1) :
    ∃ r, Model.Rounded.quotedSpread M (q.map fun x => .fin x.1) (q.map fun x => .fin x.2) true = .ok (.fin r) ∧
      |r - (q.map fun x => (x.2 - x.1) / ((x.2 + x.1) / 2)).sum / q.length * 100| ≤
        (q.length + 6) * 2 ^ (-53 : ℤ) * ((q.map fun x => (x.2 - x.1) / ((x.2 + x.1) / 2)).sum / q.length * 100) := by
  obtain ⟨tiny, huge, A, h1, h2, h3⟩ := acc64 hM
  have ht0 := A.tiny_nonneg
  have hn' : (q.length : ℝ) ≤ 1048576 := by exact_mod_cast hn
  have hn0 : (0 : ℝ) ≤ q.length := by positivity
  have hprec : M.R.prec = 53 := by rw [hM]; rfl
  have hsmall : (2 : ℝ) ^ (-950 : ℤ) ≤ 2 ^ (-900 : ℤ) := zpow_le_zpow_right₀ (by norm_num) (by norm_num)
  have hsmall2 : (2 : ℝ) ^ (-950 : ℤ) ≤ 2 ^ (-53 : ℤ) := zpow_le_zpow_right₀ (by norm_num) (by norm_num)
  have hbig : (1 : ℝ) ≤ 2 ^ (1000 : ℤ) := one_le_zpow₀ (by norm_num) (by norm_num)
  have hbig2 : (2 : ℝ) ^ (30 : ℤ) ≤ 2 ^ (1000 : ℤ) := zpow_le_zpow_right₀ (by norm_num) (by norm_num)
  generalize hB : (2 : ℝ) ^ (1000 : ℤ) = B at *
  generalize hC : (2 : ℝ) ^ (-950 : ℤ) = C at *
  generalize hD : (2 : ℝ) ^ (-900 : ℤ) = D at *
  clear hB hC hD
  norm_num at h2 h3 hbig2
  have ht1 : 2 * tiny ≤ C := by nlinarith
  have ht2 : 2 * tiny * q.length ≤ C := by nlinarith
  have hu : 2 * ((q.length + 5) * (2 : ℝ) ^ (-53 : ℤ)) ≤ 1 := by norm_num; linarith
  obtain ⟨r, e, hr⟩ := C163_quoted_accuracy M A q hne (by rw [hprec]; exact hn.trans (by norm_num)) hu hq
    (fun x hx => (ht1.trans hsmall).trans (hlo x hx))
    (fun x hx => by have := hhi x hx; linarith)
    (by linarith)
    (fun x hx => (hs x hx).imp_right fun h => by
      have h0 := (hq x hx).1.trans_le (hq x hx).2.1
      have := mul_le_mul_of_nonneg_right (ht2.trans hsmall2) h0.le
      linarith)
  refine ⟨r, e, hr.trans ?_⟩
  apply mul_le_mul_of_nonneg_right
  · have hd : 0 < 1 - ((q.length : ℝ) + 5) * 2 ^ (-53 : ℤ) := by linarith
    rw [div_le_iff₀ hd]
    generalize (q.length : ℝ) = n at *
    norm_num
    nlinarith
  · apply mul_nonneg _ (by norm_num)
    apply div_nonneg _ hn0
    apply List.sum_nonneg
    intro v hv
    obtain ⟨x, hx, rfl⟩ := List.mem_map.mp hv
    obtain ⟨a1, a2, _⟩ := hq x hx
    exact div_nonneg (by linarith) (by linarith)

/-- the hypotheses hold for two quotes, one of them with equal bid and ask -/
example : ∃ r, Model.Rounded.quotedSpread Machine.ieee [.fin 99, .fin 100] [.fin 101, .fin 100] true = .ok (.fin r) ∧
    |r - 1| ≤ 8 * 2 ^ (-53 : ℤ) := by
  have rep : ∀ n : ℕ, n ≤ 1000 → Machine.ieee.R.Rep (.fin (n : ℝ)) := fun n hn =>
    Rounding.rep_nat (R := binary64.rounding) (hn.trans (by norm_num [Format.rounding, binary64]))
  have small : (2 : ℝ) ^ (-900 : ℤ) ≤ 1 := zpow_le_one_of_nonpos₀ (by norm_num) (by norm_num)
  have big : (2 : ℝ) ^ (10 : ℤ) ≤ 2 ^ (1000 : ℤ) := zpow_le_zpow_right₀ (by norm_num) (by norm_num)
  have h99 := rep 99 (by norm_num)
  have h100 := rep 100 (by norm_num)
  have h101 := rep 101 (by norm_num)
  norm_num at h99 h100 h101
  obtain ⟨r, h1, h2⟩ := C163_quoted_binary64 Machine.ieee rfl [(99, 101), (100, 100)] (by simp) (by norm_num)
    (by
      intro x hx
      fin_cases hx
      · exact ⟨by norm_num, by norm_num, h99, h101⟩
      · exact ⟨by norm_num, by norm_num, h100, h100⟩)
    (by
      intro x hx
      refine small.trans ?_
      fin_cases hx <;> norm_num)
    (by
      intro x hx
      refine le_trans ?_ big
      fin_cases hx <;> norm_num)
    (by
      intro x hx
      fin_cases hx
      · right; norm_num
      · left; rfl)
  refine ⟨r, h1, ?_⟩
  have e : ([((99 : ℝ), (101 : ℝ)), (100, 100)].map fun x => (x.2 - x.1) / ((x.2 + x.1) / 2)).sum /
      (([((99 : ℝ), (101 : ℝ)), (100, 100)].length : ℕ) : ℝ) * 100 = 1 := by norm_num
  rw [e] at h2
  norm_num at h2 ⊢
  exact h2

end
end Frds.Props

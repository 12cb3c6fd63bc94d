import Verif.Basic.XR
import Mathlib.Data.Int.Log

/-! Floating-point arithmetic with rounding and overflow: the laws used in the proofs (`Rounding`), and the proof that
binary formats with round-to-nearest-even, gradual underflow and overflow to infinity (among them IEEE binary64)
satisfy them. Zeros are not signed: `x / 0` is the infinity with the sign of `x`. -/
namespace Frds
noncomputable section
open Classical

/-- a rounding of real numbers to the numbers of a format -/
structure Rounding where
  /-- rounded value, or an infinity on overflow -/
  rd : ℝ → XR
  /-- integers up to `2 ^ prec` are exact -/
  prec : ℕ
  mono : ∀ r s, r ≤ s → rd r ≤ rd s
  neg : ∀ r, rd (-r) = -rd r
  idem : ∀ r s, rd r = .fin s → rd s = .fin s
  nat : ∀ n : ℕ, n ≤ 2 ^ prec → rd n = .fin n
  /-- doubling a number of the format is exact or overflows -/
  double : ∀ s, 0 ≤ s → rd s = .fin s → rd (2 * s) = .fin (2 * s) ∨ rd (2 * s) = .pinf
  /-- half of a rounded sum is at least half of the rounded difference (also for subnormal numbers) -/
  mid : ∀ a b s d, rd a = .fin a → rd b = .fin b → 0 < b → b ≤ a → rd (a + b) = .fin s → rd (a - b) = .fin d →
    ∃ m, rd (s / 2) = .fin m ∧ d ≤ 2 * m

/-- rounding a result; infinities and NaN stay -/
def Rounding.round (R : Rounding) : XR → XR
  | .fin r => R.rd r
  | x => x

/-- exact arithmetic is a rounding -/
def Rounding.exact : Rounding where
  rd r := .fin r
  prec := 53
  mono r s h := by simpa using h
  neg r := by simp
  idem r s h := by simp
  nat n _ := rfl
  double s _ _ := Or.inl rfl
  mid a b s d _ _ hb _ hs hd := by
    simp only [XR.fin_inj] at hs hd
    exact ⟨s / 2, rfl, by rw [← hs, ← hd]; linarith⟩

/-! ### round to nearest, ties to even -/

/-- nearest integer, ties to even -/
def nearestEven (x : ℝ) : ℤ :=
  if x - ⌊x⌋ < 1 / 2 then ⌊x⌋
  else if 1 / 2 < x - ⌊x⌋ then ⌊x⌋ + 1
  else if Even ⌊x⌋ then ⌊x⌋ else ⌊x⌋ + 1

theorem nearestEven_int (n : ℤ) : nearestEven n = n := by simp [nearestEven]

theorem nearestEven_bounds (x : ℝ) : ⌊x⌋ ≤ nearestEven x ∧ nearestEven x ≤ ⌊x⌋ + 1 := by
  unfold nearestEven
  split_ifs <;> omega

theorem nearestEven_mono {x y : ℝ} (h : x ≤ y) : nearestEven x ≤ nearestEven y := by
  have hf := Int.floor_le_floor h
  rcases hf.lt_or_eq with hlt | heq
  · have h1 := (nearestEven_bounds x).2
    have h2 := (nearestEven_bounds y).1
    omega
  · unfold nearestEven
    rw [heq]
    split_ifs <;> first | omega | (exfalso; linarith)

/-- the error is at most one half -/
theorem nearestEven_err (x : ℝ) : |x - nearestEven x| ≤ 1 / 2 := by
  have h1 := Int.floor_le x
  have h2 := Int.lt_floor_add_one x
  unfold nearestEven
  rw [abs_le]
  split_ifs <;> push_cast <;> constructor <;> linarith

/-! ### binary formats -/

/-- a binary format: precision `p`, exponents from `emin` to `emax` (binary64: 53, -1022, 1023) -/
structure Format where
  p : ℕ
  emin : ℤ
  emax : ℤ
  hp : 1 ≤ p
  hmin : emin ≤ 0
  hmax : (p : ℤ) ≤ emax

def binary64 : Format := ⟨53, -1022, 1023, by norm_num, by norm_num, by norm_num⟩

namespace Format
variable (F : Format)

/-- exponent used for a positive number -/
def expo (r : ℝ) : ℤ := max (Int.log 2 r) F.emin

/-- distance between neighbouring numbers of the format around `r` -/
def ulp (r : ℝ) : ℝ := 2 ^ (F.expo r - (F.p - 1))

/-- rounded positive number, exponent not bounded above -/
def val (r : ℝ) : ℝ := nearestEven (r / F.ulp r) * F.ulp r

/-- round to nearest even with gradual underflow and overflow -/
def posRd (r : ℝ) : XR := if (2 : ℝ) ^ (F.emax + 1) ≤ F.val r then .pinf else .fin (F.val r)

def rd (r : ℝ) : XR := if r < 0 then -F.posRd (-r) else F.posRd r

variable {F}

theorem ulp_pos (r : ℝ) : 0 < F.ulp r := by unfold ulp; positivity

theorem lt_pow_log {r : ℝ} (_ : 0 < r) : r < 2 ^ (Int.log 2 r + 1) := by
  have := Int.lt_zpow_succ_log_self (b := 2) (by norm_num) r
  simpa using this

theorem pow_log_le {r : ℝ} (hr : 0 < r) : (2 : ℝ) ^ Int.log 2 r ≤ r := by
  have := Int.zpow_log_le_self (b := 2) (by norm_num) hr
  simpa using this

theorem expo_mono {r s : ℝ} (hr : 0 < r) (h : r ≤ s) : F.expo r ≤ F.expo s := by
  unfold expo
  have := Int.log_mono_right (b := 2) hr h
  omega

/-- numbers with at most `p` significant bits are exact -/
theorem val_exact (m : ℕ) (q : ℤ) (hm : m ≤ 2 ^ F.p) (hq : F.emin - (F.p - 1) ≤ q) :
    F.val (m * 2 ^ q) = m * 2 ^ q := by
  rcases Nat.eq_zero_or_pos m with rfl | hm0
  · simp [val, nearestEven]
  have hw : (0 : ℝ) < m * 2 ^ q := by positivity
  -- the exponent is small enough
  have key : ∀ (m : ℕ) (q : ℤ), 0 < m → m < 2 ^ F.p → F.emin - (F.p - 1) ≤ q →
      F.val (m * 2 ^ q) = m * 2 ^ q := by
    intro m q hm0 hm hq
    have hw : (0 : ℝ) < m * 2 ^ q := by positivity
    have hlt : (m : ℝ) * 2 ^ q < 2 ^ ((F.p : ℤ) + q) := by
      rw [zpow_add₀ (by norm_num)]
      apply mul_lt_mul_of_pos_right _ (by positivity)
      rw [zpow_natCast]
      exact_mod_cast hm
    have hlog : Int.log 2 ((m : ℝ) * 2 ^ q) < (F.p : ℤ) + q := by
      have h1 := pow_log_le hw
      have h2 := lt_of_le_of_lt h1 hlt
      exact (zpow_lt_zpow_iff_right₀ (by norm_num)).mp h2
    have he : F.expo ((m : ℝ) * 2 ^ q) - (F.p - 1) ≤ q := by unfold expo; omega
    obtain ⟨d, hd⟩ := Int.eq_ofNat_of_zero_le (sub_nonneg.mpr he)
    unfold val
    have hdiv : (m : ℝ) * 2 ^ q / F.ulp (m * 2 ^ q) = ((m * 2 ^ d : ℕ) : ℤ) := by
      unfold ulp
      rw [mul_div_assoc, ← zpow_sub₀ (by norm_num), hd, zpow_natCast]
      push_cast
      rfl
    rw [hdiv, nearestEven_int, ← hdiv, div_mul_cancel₀ _ (ne_of_gt (ulp_pos _))]
  rcases Nat.lt_or_eq_of_le hm with hlt | heq
  · exact key m q hm0 hlt hq
  · have h2 := key (2 ^ (F.p - 1)) (q + 1) (by positivity)
      (Nat.pow_lt_pow_right (by norm_num) (by have := F.hp; omega)) (by omega)
    have e : (m : ℝ) * 2 ^ q = ((2 ^ (F.p - 1) : ℕ) : ℝ) * 2 ^ (q + 1) := by
      rw [heq]
      push_cast
      rw [zpow_add₀ (by norm_num), ← mul_assoc, mul_right_comm, zpow_one, ← pow_succ,
        Nat.sub_add_cancel F.hp]
    rw [e]
    exact h2

/-- a rounded number has at most `p` significant bits -/
theorem val_form {r : ℝ} (hr : 0 ≤ r) :
    ∃ (m : ℕ) (q : ℤ), m ≤ 2 ^ F.p ∧ F.emin - (F.p - 1) ≤ q ∧ F.val r = m * 2 ^ q := by
  rcases hr.eq_or_lt with rfl | hr
  · exact ⟨0, F.emin, by simp, by have := F.hp; omega, by simp [val, nearestEven]⟩
  have h0 : 0 ≤ r / F.ulp r := div_nonneg hr.le (ulp_pos r).le
  have hk : 0 ≤ nearestEven (r / F.ulp r) := by
    have := nearestEven_mono h0
    rwa [show (0 : ℝ) = ((0 : ℤ) : ℝ) by simp, nearestEven_int] at this
  obtain ⟨m, hm⟩ := Int.eq_ofNat_of_zero_le hk
  refine ⟨m, F.expo r - (F.p - 1), ?_, by unfold expo; omega, ?_⟩
  · have hle : r / F.ulp r ≤ ((2 ^ F.p : ℕ) : ℤ) := by
      rw [div_le_iff₀ (ulp_pos r)]
      unfold ulp
      push_cast
      rw [← zpow_natCast, ← zpow_add₀ (by norm_num)]
      refine (lt_pow_log hr).le.trans ?_
      apply zpow_le_zpow_right₀ (by norm_num)
      unfold expo
      omega
    have := nearestEven_mono hle
    rw [nearestEven_int, hm] at this
    exact_mod_cast this
  · unfold val ulp
    unfold ulp at hm
    rw [hm]
    push_cast
    rfl

theorem val_idem {r : ℝ} (hr : 0 ≤ r) : F.val (F.val r) = F.val r := by
  obtain ⟨m, q, h1, h2, h3⟩ := val_form (F := F) hr
  rw [h3, val_exact m q h1 h2]

theorem val_nonneg {r : ℝ} (hr : 0 ≤ r) : 0 ≤ F.val r := by
  obtain ⟨m, q, _, _, h3⟩ := val_form (F := F) hr
  rw [h3]; positivity

theorem val_mono {r s : ℝ} (hr : 0 ≤ r) (h : r ≤ s) : F.val r ≤ F.val s := by
  rcases hr.eq_or_lt with rfl | hr
  · have : F.val 0 = 0 := by simp [val, nearestEven]
    rw [this]
    exact val_nonneg h
  have hs := hr.trans_le h
  rcases (expo_mono (F := F) hr h).lt_or_eq with hlt | heq
  · -- a power of two lies between
    have hmid : r ≤ (1 : ℕ) * 2 ^ (F.expo s) := by
      rw [Nat.cast_one, one_mul]
      refine (lt_pow_log hr).le.trans ?_
      apply zpow_le_zpow_right₀ (by norm_num)
      have : Int.log 2 r ≤ F.expo r := by unfold expo; omega
      omega
    -- r / ulp r ≤ 2 ^ (expo s) / ulp r, an integer
    obtain ⟨d, hd⟩ := Int.eq_ofNat_of_zero_le (show 0 ≤ F.expo s - (F.expo r - (F.p - 1)) by have := F.hp; omega)
    have h1 : F.val r ≤ 2 ^ (F.expo s) := by
      have hle : r / F.ulp r ≤ ((2 ^ d : ℕ) : ℤ) := by
        rw [div_le_iff₀ (ulp_pos r)]
        unfold ulp
        push_cast
        rw [← zpow_natCast, ← zpow_add₀ (by norm_num), ← hd]
        rw [Nat.cast_one, one_mul] at hmid
        refine hmid.trans (le_of_eq ?_)
        congr 1
        omega
      have h2 := nearestEven_mono hle
      rw [nearestEven_int] at h2
      have h3 : (nearestEven (r / F.ulp r) : ℝ) ≤ ((2 ^ d : ℕ) : ℤ) := by exact_mod_cast h2
      unfold val
      calc _ ≤ (((2 ^ d : ℕ) : ℤ) : ℝ) * F.ulp r := mul_le_mul_of_nonneg_right h3 (ulp_pos r).le
        _ = 2 ^ (F.expo s) := by
          unfold ulp
          push_cast
          rw [← zpow_natCast, ← zpow_add₀ (by norm_num), ← hd]
          congr 1
          omega
    have hes : F.expo s = Int.log 2 s := by unfold expo at hlt ⊢; omega
    have h2 : (2 : ℝ) ^ (F.expo s) ≤ F.val s := by
      have hle : (((2 ^ (F.p - 1) : ℕ) : ℤ) : ℝ) ≤ s / F.ulp s := by
        rw [le_div_iff₀ (ulp_pos s)]
        unfold ulp
        push_cast
        rw [← zpow_natCast, ← zpow_add₀ (by norm_num)]
        refine le_trans (le_of_eq ?_) (pow_log_le hs)
        rw [← hes]
        congr 1
        have := F.hp
        push_cast [Nat.cast_sub this]
        omega
      have h2 := nearestEven_mono hle
      rw [nearestEven_int] at h2
      have h3 : (((2 ^ (F.p - 1) : ℕ) : ℤ) : ℝ) ≤ nearestEven (s / F.ulp s) := by exact_mod_cast h2
      unfold val
      calc (2 : ℝ) ^ (F.expo s) = (((2 ^ (F.p - 1) : ℕ) : ℤ) : ℝ) * F.ulp s := by
            unfold ulp
            push_cast
            rw [← zpow_natCast, ← zpow_add₀ (by norm_num)]
            congr 1
            have := F.hp
            push_cast [Nat.cast_sub this]
            omega
        _ ≤ _ := mul_le_mul_of_nonneg_right h3 (ulp_pos s).le
    exact h1.trans h2
  · unfold val
    have hu : F.ulp r = F.ulp s := by unfold ulp; rw [heq]
    rw [hu]
    have h1 := nearestEven_mono (div_le_div_of_nonneg_right h (ulp_pos (F := F) s).le)
    have h2 : (nearestEven (r / F.ulp s) : ℝ) ≤ nearestEven (s / F.ulp s) := by exact_mod_cast h1
    exact mul_le_mul_of_nonneg_right h2 (ulp_pos s).le

theorem posRd_ne_nan (r : ℝ) : F.posRd r ≠ .nan := by unfold posRd; split_ifs <;> simp

theorem posRd_mono {r s : ℝ} (hr : 0 ≤ r) (h : r ≤ s) : F.posRd r ≤ F.posRd s := by
  have := val_mono (F := F) hr h
  unfold posRd
  split_ifs with h1 h2 h2
  · trivial
  · exact absurd (h1.trans this) h2
  · trivial
  · simpa using this

theorem posRd_nonneg {r : ℝ} (hr : 0 ≤ r) : (.fin 0 : XR) ≤ F.posRd r := by
  have := val_nonneg (F := F) hr
  unfold posRd
  split_ifs
  · trivial
  · simpa using this

theorem val_zero : F.val 0 = 0 := by simp [val, nearestEven]

theorem posRd_zero : F.posRd 0 = .fin 0 := by
  unfold posRd
  rw [val_zero, if_neg (by have : (0 : ℝ) < 2 ^ (F.emax + 1) := by positivity
                           linarith)]

theorem xr_le_trans {x y z : XR} (h1 : x ≤ y) (h2 : y ≤ z) : x ≤ z := by
  cases x <;> cases y <;> cases z
  case fin.fin.fin a b c => exact XR.fin_le.mpr (le_trans (XR.fin_le.mp h1) (XR.fin_le.mp h2))
  all_goals first
    | exact trivial
    | exact False.elim h1
    | exact False.elim h2

theorem xr_neg_le {x y : XR} (h : x ≤ y) : -y ≤ -x := by
  cases x <;> cases y
  case fin.fin a b => exact XR.fin_le.mpr (neg_le_neg (XR.fin_le.mp h))
  all_goals first
    | exact trivial
    | exact False.elim h

theorem rd_of_nonneg {r : ℝ} (h : 0 ≤ r) : F.rd r = F.posRd r := if_neg (by linarith)

theorem rd_neg (r : ℝ) : F.rd (-r) = -F.rd r := by
  unfold rd
  rcases lt_trichotomy r 0 with h | rfl | h
  · rw [if_pos h, if_neg (by linarith)]
    cases F.posRd (-r) <;> simp
  · simp [posRd_zero]
  · rw [if_pos (show -r < 0 by linarith), if_neg (show ¬ r < 0 by linarith), neg_neg]

theorem rd_mono {r s : ℝ} (h : r ≤ s) : F.rd r ≤ F.rd s := by
  rcases le_or_gt 0 r with hr | hr
  · rw [rd_of_nonneg hr, rd_of_nonneg (hr.trans h)]
    exact posRd_mono hr h
  · rcases le_or_gt 0 s with hs | hs
    · have h1 : F.rd r ≤ .fin 0 := by
        unfold rd
        rw [if_pos hr]
        have := xr_neg_le (posRd_nonneg (F := F) (show (0 : ℝ) ≤ -r by linarith))
        simpa using this
      rw [rd_of_nonneg hs]
      exact xr_le_trans h1 (posRd_nonneg hs)
    · unfold rd
      rw [if_pos hr, if_pos hs]
      exact xr_neg_le (posRd_mono (by linarith) (by linarith))

theorem posRd_exact {w : ℝ} (m : ℕ) (q : ℤ) (hm : m ≤ 2 ^ F.p) (hq : F.emin - (F.p - 1) ≤ q) (hw : w = m * 2 ^ q) :
    F.posRd w = .fin w ∨ F.posRd w = .pinf := by
  unfold posRd
  rw [hw, val_exact m q hm hq]
  split_ifs
  · exact Or.inr rfl
  · exact Or.inl rfl

theorem posRd_idem {r s : ℝ} (hr : 0 ≤ r) (h : F.posRd r = .fin s) : F.posRd s = .fin s := by
  unfold posRd at h ⊢
  split_ifs at h with h1
  injection h with h
  subst h
  rw [val_idem hr, if_neg h1]

theorem rd_nat (n : ℕ) (hn : n ≤ 2 ^ F.p) : F.rd n = .fin n := by
  rw [rd_of_nonneg (Nat.cast_nonneg n)]
  have h0 : (n : ℝ) = n * 2 ^ (0 : ℤ) := by simp
  have hv := val_exact (F := F) n 0 hn (by have := F.hp; have := F.hmin; omega)
  rw [← h0] at hv
  unfold posRd
  rw [hv, if_neg]
  rw [not_le]
  calc (n : ℝ) ≤ 2 ^ F.p := by exact_mod_cast hn
    _ = 2 ^ (F.p : ℤ) := by rw [zpow_natCast]
    _ < 2 ^ (F.emax + 1) := by
      apply zpow_lt_zpow_right₀ (by norm_num)
      have := F.hmax
      omega

theorem rd_idem {r s : ℝ} (h : F.rd r = .fin s) : F.rd s = .fin s := by
  rcases le_or_gt 0 r with hr | hr
  · rw [rd_of_nonneg hr] at h
    have h1 := posRd_nonneg (F := F) hr
    rw [h] at h1
    rw [rd_of_nonneg (by simpa using h1)]
    exact posRd_idem hr h
  · have h' : F.rd (-r) = .fin (-s) := by rw [rd_neg, h]; simp
    have hr' : 0 ≤ -r := by linarith
    rw [rd_of_nonneg hr'] at h'
    have h1 := posRd_nonneg (F := F) hr'
    rw [h'] at h1
    have h2 := posRd_idem hr' h'
    have h3 : F.rd (-s) = .fin (-s) := by rw [rd_of_nonneg (by simpa using h1)]; exact h2
    have := rd_neg (F := F) (-s)
    rw [neg_neg, h3] at this
    simpa using this

theorem rd_double {s : ℝ} (hs : 0 ≤ s) (h : F.rd s = .fin s) : F.rd (2 * s) = .fin (2 * s) ∨ F.rd (2 * s) = .pinf := by
  rw [rd_of_nonneg hs] at h
  unfold posRd at h
  split_ifs at h
  injection h with h
  obtain ⟨m, q, h1, h2, h3⟩ := val_form (F := F) hs
  rw [rd_of_nonneg (by linarith)]
  refine posRd_exact m (q + 1) h1 (by omega) ?_
  rw [← h, h3, zpow_add₀ (by norm_num)]
  ring

/-- the exponent of the smallest positive number -/
def e0 (F : Format) : ℤ := F.emin - (F.p - 1)

theorem rd_fin_val {a : ℝ} (ha : 0 ≤ a) {s : ℝ} (h : F.rd a = .fin s) : F.val a = s := by
  rw [rd_of_nonneg ha] at h
  unfold posRd at h
  split_ifs at h
  simpa using h

/-- numbers of the format are multiples of the smallest positive one -/
theorem rep_mul {a : ℝ} (ha : 0 ≤ a) (h : F.rd a = .fin a) : ∃ K : ℕ, a = K * 2 ^ F.e0 := by
  obtain ⟨m, q, _, hq, e⟩ := val_form (F := F) ha
  rw [rd_fin_val ha h] at e
  obtain ⟨d, hd⟩ := Int.eq_ofNat_of_zero_le (show 0 ≤ q - F.e0 by unfold e0; omega)
  refine ⟨m * 2 ^ d, ?_⟩
  rw [e]
  push_cast
  rw [mul_assoc, ← zpow_natCast, ← zpow_add₀ (by norm_num)]
  congr 2
  omega

theorem rd_mid {a b s d : ℝ} (ha : F.rd a = .fin a) (hb : F.rd b = .fin b) (hb0 : 0 < b) (hba : b ≤ a)
    (hs : F.rd (a + b) = .fin s) (hd : F.rd (a - b) = .fin d) : ∃ m, F.rd (s / 2) = .fin m ∧ d ≤ 2 * m := by
  have ha0 : 0 < a := hb0.trans_le hba
  have has : a ≤ s := by
    have := rd_mono (F := F) (show a ≤ a + b by linarith)
    rw [ha, hs] at this
    exact XR.fin_le.mp this
  have hda : d ≤ a := by
    have := rd_mono (F := F) (show a - b ≤ a by linarith)
    rw [ha, hd] at this
    exact XR.fin_le.mp this
  have hs0 : 0 ≤ s := by linarith
  have hss : F.rd s = .fin s := rd_idem hs
  -- the half is finite
  have hfin : ∃ m, F.rd (s / 2) = .fin m := by
    have h1 := rd_mono (F := F) (show s / 2 ≤ s by linarith)
    rw [hss] at h1
    have h2 := rd_mono (F := F) (show 0 ≤ s / 2 by linarith)
    rw [show F.rd 0 = .fin 0 by rw [rd_of_nonneg le_rfl]; exact posRd_zero] at h2
    cases h : F.rd (s / 2) with
    | nan => rw [h] at h1; exact False.elim h1
    | ninf => rw [h] at h2; exact False.elim h2
    | pinf => rw [h] at h1; exact False.elim h1
    | fin m => exact ⟨m, rfl⟩
  obtain ⟨m, hm⟩ := hfin
  refine ⟨m, hm, ?_⟩
  -- exact halves
  have exact_half : ∀ (k : ℕ) (q : ℤ), k ≤ 2 ^ F.p → F.e0 ≤ q → s / 2 = k * 2 ^ q → d ≤ 2 * m := by
    intro k q hk hq e
    have h1 := rd_fin_val (show 0 ≤ s / 2 by linarith) hm
    rw [e, val_exact k q hk hq, ← e] at h1
    linarith
  obtain ⟨k, q, hk, hq, e⟩ := val_form (F := F) hs0
  rw [rd_fin_val hs0 hss] at e
  rcases hq.lt_or_eq with hlt | heq
  · refine exact_half k (q - 1) hk (by unfold e0; omega) ?_
    rw [e, zpow_sub₀ (by norm_num)]
    ring
  · rcases Nat.even_or_odd' k with ⟨j, rfl | rfl⟩
    · refine exact_half j q (by omega) (by unfold e0; omega) ?_
      rw [e]
      push_cast
      ring
    · -- subnormal
      have hη : (0 : ℝ) < 2 ^ F.e0 := by positivity
      have hqe : q = F.e0 := by unfold e0; omega
      rw [hqe] at e
      obtain ⟨A, hA⟩ := rep_mul ha0.le ha
      obtain ⟨B, hB⟩ := rep_mul hb0.le hb
      have hBA : B ≤ A := by
        have : (B : ℝ) * 2 ^ F.e0 ≤ A * 2 ^ F.e0 := by rw [← hA, ← hB]; exact hba
        exact_mod_cast le_of_mul_le_mul_right this hη
      have hB1 : 1 ≤ B := by
        rcases Nat.eq_zero_or_pos B with h | h
        · rw [h] at hB; simp at hB; linarith
        · exact h
      have hev : Even (2 ^ F.p) := (Nat.even_pow.mpr ⟨even_two, by have := F.hp; omega⟩)
      have hsum : A + B ≤ 2 ^ F.p := by
        by_contra hcon
        have h1 : F.rd ((2 ^ F.p : ℕ) * 2 ^ F.e0) ≤ F.rd (a + b) := by
          apply rd_mono
          rw [hA, hB, ← add_mul]
          apply mul_le_mul_of_nonneg_right _ hη.le
          have : 2 ^ F.p ≤ A + B := by omega
          exact_mod_cast this
        rw [hs, rd_of_nonneg (by positivity)] at h1
        rcases posRd_exact (F := F) (2 ^ F.p) F.e0 le_rfl (by unfold e0; omega) rfl with h2 | h2
        · rw [h2, XR.fin_le, e] at h1
          have h3 := le_of_mul_le_mul_right h1 hη
          have h4 : 2 ^ F.p ≤ 2 * j + 1 := by exact_mod_cast h3
          have h5 : 2 ^ F.p = 2 * j + 1 := by omega
          rw [h5] at hev
          exact (Nat.not_even_iff_odd.mpr ⟨j, rfl⟩) hev
        · rw [h2] at h1
          exact False.elim h1
      have hval : F.val (a + b) = a + b := by
        have := val_exact (F := F) (A + B) F.e0 hsum (by unfold e0; omega)
        rw [hA, hB, ← add_mul]
        exact_mod_cast this
      have hs' : s = a + b := by
        rw [← rd_fin_val (by linarith) hs, hval]
      have hdv : d = a - b := by
        have := val_exact (F := F) (A - B) F.e0 (by omega) (by unfold e0; omega)
        have e2 : a - b = ((A - B : ℕ) : ℝ) * 2 ^ F.e0 := by
          rw [hA, hB, Nat.cast_sub hBA]; ring
        rw [← rd_fin_val (by linarith) hd, e2, this]
      have hlow : (j : ℝ) * 2 ^ F.e0 ≤ m := by
        have h1 := val_mono (F := F) (r := j * 2 ^ F.e0) (s := s / 2) (by positivity) (by
          rw [e]; push_cast; nlinarith)
        rw [val_exact j F.e0 (by omega) (by unfold e0; omega), rd_fin_val (by linarith) hm] at h1
        exact h1
      have hb1 : (2 : ℝ) ^ F.e0 ≤ b := by
        rw [hB]
        have : (1 : ℝ) ≤ B := by exact_mod_cast hB1
        nlinarith
      push_cast at e
      nlinarith

/-- rounding to the format -/
def rounding (F : Format) : Rounding where
  rd := F.rd
  prec := F.p
  mono _ _ := rd_mono
  neg := rd_neg
  idem _ _ := rd_idem
  nat := rd_nat
  double _ := rd_double
  mid _ _ _ _ := rd_mid

end Format
end
end Frds

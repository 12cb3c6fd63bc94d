import Verif.Props.Typed
import Verif.Props.Pin
import Verif.Props.Srisk

set_option linter.unusedSimpArgs false

/-! C143: PIN likelihoods of integer-typed order counts. C144: SRISK of integer-typed balance sheets. -/
namespace Frds.Props
noncomputable section
open Frds Frds.Np Frds.Model Frds.Spec Classical

variable {α : Type*}

theorem pow_le_pow_int {a b : ℕ} (h : a ≤ b) : (2 : ℤ) ^ a ≤ 2 ^ b := pow_le_pow_right₀ (by norm_num) h

theorem cast_int (t : IntTy) (l : List α) (b : α → ℤ) :
    (TArr.int t (l.map b)).cast = l.map fun d => XR.fin (b d) := by
  simp [TArr.cast, Function.comp_def]

theorem fits_zero {t : IntTy} (h : 1 ≤ t.width) : t.Fits 0 := by
  obtain ⟨s, w⟩ := t
  have h1 : (1 : ℤ) ≤ 2 ^ (w - 1) := one_le_pow₀ (by norm_num)
  have h2 : (1 : ℤ) ≤ 2 ^ w := one_le_pow₀ (by norm_num)
  cases s <;> simp only [IntTy.Fits, IntTy.lo, IntTy.hi, Bool.false_eq_true, if_false, if_true] <;> omega

/-- both operands' values are representable in the promoted type -/
theorem promote_fits {s t p : IntTy} (hs : 1 ≤ s.width) (ht : 1 ≤ t.width) (hp : s.promote t = some p)
    {z : ℤ} (hz : s.Fits z ∨ t.Fits z) : 1 ≤ p.width ∧ p.Fits z := by
  obtain ⟨ss, sw⟩ := s
  obtain ⟨ts, tw⟩ := t
  simp only at hs ht
  have same : ∀ (b : Bool) (v v' : ℕ), 1 ≤ v → v ≤ v' → (⟨b, v⟩ : IntTy).Fits z → (⟨b, v'⟩ : IntTy).Fits z := by
    intro b v v' h1 h2 h
    have e1 := pow_le_pow_int h2
    have e2 := pow_le_pow_int (show v - 1 ≤ v' - 1 by omega)
    cases b <;> simp only [IntTy.Fits, IntTy.lo, IntTy.hi, Bool.false_eq_true, if_false, if_true] at h ⊢ <;> omega
  have mixed : ∀ (u v : ℕ), u ≤ v - 1 → (⟨false, u⟩ : IntTy).Fits z → (⟨true, v⟩ : IntTy).Fits z := by
    intro u v h2 h
    have e2 := pow_le_pow_int h2
    have e3 : (0 : ℤ) < 2 ^ (v - 1) := by positivity
    simp only [IntTy.Fits, IntTy.lo, IntTy.hi, Bool.false_eq_true, if_false, if_true] at h ⊢
    omega
  unfold IntTy.promote at hp
  by_cases hst : ss = ts
  · subst hst
    simp only [if_true, Option.some.injEq] at hp
    subst hp
    refine ⟨by simp only; omega, ?_⟩
    rcases hz with hz | hz
    · exact same _ _ _ hs (le_max_left _ _) hz
    · exact same _ _ _ ht (le_max_right _ _) hz
  · simp only [if_neg hst] at hp
    have core : ∀ u s' : ℕ, 1 ≤ u → 1 ≤ s' → ((⟨false, u⟩ : IntTy).Fits z ∨ (⟨true, s'⟩ : IntTy).Fits z) →
        (if u < s' then some (⟨true, s'⟩ : IntTy) else if u < 64 then some ⟨true, 2 * u⟩ else none) = some p →
        1 ≤ p.width ∧ p.Fits z := by
      intro u s' hu hs' hz hp
      split_ifs at hp with h1 h2
      · simp only [Option.some.injEq] at hp; subst hp
        refine ⟨hs', ?_⟩
        rcases hz with hz | hz
        · exact mixed u s' (by omega) hz
        · exact hz
      · simp only [Option.some.injEq] at hp; subst hp
        refine ⟨by simp only; omega, ?_⟩
        rcases hz with hz | hz
        · exact mixed u (2 * u) (by omega) hz
        · exact same true s' (2 * u) hs' (by omega) hz
    cases ss <;> cases ts
    · exact absurd rfl hst
    · simp only [Bool.false_eq_true, if_false] at hp
      exact core sw tw hs ht hz hp
    · simp only [if_true] at hp
      exact core tw sw ht hs hz.symm hp
    · exact absurd rfl hst

/-- C143 (EHO2010): for any integer types of the two count arrays, whatever the counts (as long as
they are representable, which they are when stored), the EHO2010 objective is that of the same
counts as floats - for every parameter vector. -/
theorem C143_eho (l : List α) (tb ts : IntTy) (b s : α → ℤ)
    (hb : (Col.int tb b).Fits l) (hs : (Col.int ts s).Fits l) (p : PinVec) :
    eho2010T (.int tb (l.map b)) (.int ts (l.map s)) p
      = .ok (eho2010 (l.map fun d => .fin (b d)) (l.map fun d => .fin (s d)) p) := by
  have hmn : (Col.op min XR.npMin (Col.int tb b) (Col.int ts s)).Fits l := by
    simp only [Col.op]
    cases hp : tb.promote ts with
    | none => simp [Col.Fits]
    | some q =>
      simp only [Col.Fits]
      refine ⟨?_, fun d hd => ?_⟩
      · exact (promote_fits hb.1 hs.1 hp (.inl (fits_zero hb.1))).1
      · rcases min_choice (b d) (s d) with h | h <;> rw [h]
        · exact (promote_fits hb.1 hs.1 hp (.inl (hb.2 d hd))).2
        · exact (promote_fits hb.1 hs.1 hp (.inr (hs.2 d hd))).2
  have hmx : (Col.op max XR.npMax (Col.int tb b) (Col.int ts s)).Fits l := by
    simp only [Col.op]
    cases hp : tb.promote ts with
    | none => simp [Col.Fits]
    | some q =>
      simp only [Col.Fits]
      refine ⟨?_, fun d hd => ?_⟩
      · exact (promote_fits hb.1 hs.1 hp (.inl (fits_zero hb.1))).1
      · rcases max_choice (b d) (s d) with h | h <;> rw [h]
        · exact (promote_fits hb.1 hs.1 hp (.inl (hb.2 d hd))).2
        · exact (promote_fits hb.1 hs.1 hp (.inr (hs.2 d hd))).2
  have e1 : arith min XR.npMin (.int tb (l.map b)) (.int ts (l.map s))
      = .ok ((Col.op min XR.npMin (Col.int tb b) (Col.int ts s)).arr l) := arith_arr min XR.npMin l _ _ hmn
  have e2 : arith max XR.npMax (.int tb (l.map b)) (.int ts (l.map s))
      = .ok ((Col.op max XR.npMax (Col.int tb b) (Col.int ts s)).arr l) := arith_arr max XR.npMax l _ _ hmx
  have v1 : (Col.op min XR.npMin (Col.int tb b) (Col.int ts s)).val
      = fun d => XR.npMin (.fin (b d)) (.fin (s d)) :=
    funext fun d => op_val _ _ (by intro a c; rw [XR.npMin_fin]; push_cast; rfl) _ _ d
  have v2 : (Col.op max XR.npMax (Col.int tb b) (Col.int ts s)).val
      = fun d => XR.npMax (.fin (b d)) (.fin (s d)) :=
    funext fun d => op_val _ _ (by intro a c; rw [XR.npMax_fin]; push_cast; rfl) _ _ d
  simp only [eho2010T, bind, Except.bind, e1, e2]
  simp only [arr_cast, Col.floats, v1, v2, bcast_maps, cast_int, List.map_map, eho2010, zipWith_maps,
    List.zip, zipWith_maps, Function.comp_def]

/-- C143 (LK2011, signed counts): same for the LK2011 objective when the buys are stored in a signed
type (and are not its most negative number). -/
theorem C143_lk_signed (l : List α) {w : ℕ} (hw : 1 ≤ w) (ts : IntTy) (b s : α → ℤ)
    (hb : ∀ d ∈ l, |b d| < 2 ^ (w - 1)) (p : PinVec) :
    lk2011T (.int ⟨true, w⟩ (l.map b)) (.int ts (l.map s)) p
      = lk2011 (l.map fun d => .fin (b d)) (l.map fun d => .fin (s d)) p := by
  have hn : (TArr.int ⟨true, w⟩ (l.map b)).neg = (sCol w b).neg.arr l := neg_arr l (sCol w b) (by
    simp only [Col.neg, Col.map, Col.Fits]
    exact ⟨hw, fun d hd => fits_signed (by rw [abs_neg]; exact hb d hd)⟩)
  have hn' : (TArr.int ⟨true, w⟩ (l.map b)).neg.cast = l.map fun d => -(XR.fin (b d)) := by
    rw [hn, arr_cast]
    simp only [Col.floats]
    apply List.map_congr_left
    intro d _
    rw [neg_val]; rfl
  simp only [lk2011T, hn', cast_int, List.map_map, lk2011, zipWith_maps, List.zip, Function.comp_def]

/-- days as (buys, what is stored for `-B`, sells) -/
def mixT (p : Eho) (b nb s : ℝ) : ℝ :=
  p.alpha * (1 - p.delta) * (Real.exp (-p.eB - p.eS - p.mu) * ((p.mu + p.eB) ^ b * p.eS ^ s))
  + p.alpha * p.delta * (Real.exp (-p.eB - p.eS - p.mu) * (p.eB ^ b * (p.mu + p.eS) ^ s))
  + (1 - p.alpha) * (Real.exp (-p.eB - p.eS) * (p.eB ^ b * p.eS ^ s) * (1 + p.mu / p.eB) ^ (nb + b))

theorem mixT_pos {p : Eho} (h : p.Admissible) (b nb s : ℝ) : 0 < mixT p b nb s := by
  obtain ⟨_, _, _, _, hB, hS, hm⟩ := id h
  have hMB : 0 < p.mu + p.eB := by linarith
  have hMS : 0 < p.mu + p.eS := by linarith
  have h1B : 0 < 1 + p.mu / p.eB := by positivity
  unfold mixT
  apply mix_pos h <;> positivity

theorem lk2011T_eq {p : Eho} (h : p.Admissible) (l : List α) (t ts : IntTy) (b s : α → ℤ) :
    lk2011T (.int t (l.map b)) (.int ts (l.map s)) (ofEho p)
      = .fin (-(l.map fun d => Real.log (mixT p (b d) (t.wrap (-b d)) (s d))).sum) := by
  obtain ⟨_, _, _, _, hB, hS, hm⟩ := id h
  have hMB : 0 < p.mu + p.eB := by linarith
  have hMS : 0 < p.mu + p.eS := by linarith
  have h1S : 0 < 1 + p.mu / p.eS := by positivity
  have h1B : 0 < 1 + p.mu / p.eB := by positivity
  let e1 := fun s : ℝ => -p.mu - s * Real.log (1 + p.mu / p.eS)
  let e2 := fun b : ℝ => -p.mu - b * Real.log (1 + p.mu / p.eB)
  let e3 := fun nb s : ℝ => nb * Real.log (1 + p.mu / p.eB) - s * Real.log (1 + p.mu / p.eS)
  let em := fun b nb s : ℝ => max (max (e1 s) (e2 b)) (e3 nb s)
  let A := fun b nb s : ℝ => -p.eB - p.eS + b * Real.log (p.mu + p.eB) + s * Real.log (p.mu + p.eS) + em b nb s
  let I := fun b nb s : ℝ => p.alpha * (1 - p.delta) * Real.exp (e1 s - em b nb s)
    + p.alpha * p.delta * Real.exp (e2 b - em b nb s) + (1 - p.alpha) * Real.exp (e3 nb s - em b nb s)
  have hI : ∀ b nb s, 0 < I b nb s := fun b nb s =>
    mix_pos h (Real.exp_pos _) (Real.exp_pos _) (Real.exp_pos _)
  have key : ∀ b nb s, Real.exp (A b nb s) * I b nb s = mixT p b nb s := by
    intro b nb s
    have f1 : Real.log (1 + p.mu / p.eB) = Real.log (p.mu + p.eB) - Real.log p.eB := by
      rw [← Real.log_div hMB.ne' hB.ne']; congr 1; field_simp; ring
    have f2 : Real.log (1 + p.mu / p.eS) = Real.log (p.mu + p.eS) - Real.log p.eS := by
      rw [← Real.log_div hMS.ne' hS.ne']; congr 1; field_simp; ring
    simp only [I, mixT, Real.rpow_def_of_pos hB, Real.rpow_def_of_pos h1B,
      Real.rpow_def_of_pos hS, Real.rpow_def_of_pos hMB, Real.rpow_def_of_pos hMS, A]
    generalize em b nb s = m
    simp only [e1, e2, e3, f1, f2]
    generalize Real.log p.eB = LB
    generalize Real.log p.eS = LS
    generalize Real.log (p.mu + p.eB) = LMB
    generalize Real.log (p.mu + p.eS) = LMS
    rw [mul_add, mul_add]
    congr 1
    · congr 1 <;>
      · rw [← Real.exp_add, ← Real.exp_add,
          show ∀ E w a : ℝ, E * (w * a) = w * (E * a) by intros; ring, ← Real.exp_add]
        congr 2; ring
    · rw [← Real.exp_add, ← Real.exp_add, ← Real.exp_add,
          show ∀ E w a : ℝ, E * (w * a) = w * (E * a) by intros; ring, ← Real.exp_add]
      congr 2; ring
  unfold lk2011T ofEho
  simp only [XR.fin_add, XR.fin_div _ hB.ne', XR.fin_div _ hS.ne', XR.one_def, XR.fin_log h1S,
    XR.fin_log h1B, XR.fin_neg, TArr.neg, TArr.cast, List.map_map, List.zip, zipWith_maps, Function.comp_def,
    XR.fin_mul, XR.fin_sub, XR.npMax_fin, XR.fin_exp, XR.fin_log hMB, XR.fin_log hMS]
  have s1 : ∀ (f : α → XR) (g : α → ℝ), (∀ d, f d = .fin (g d)) → (l.map f).sum = .fin (l.map g).sum := by
    intro f g hfg
    rw [show l.map f = l.map fun d => XR.fin (g d) from List.map_congr_left fun d _ => hfg d, XR.sum_fin]
  rw [s1 _ (fun d => A (b d) (t.wrap (-b d)) (s d)) (fun d => rfl),
    s1 _ (fun d => Real.log (I (b d) (t.wrap (-b d)) (s d))) (fun d => XR.fin_log (hI _ _ _)),
    XR.fin_add, XR.fin_neg, ← sum_map_add']
  congr 3
  apply List.map_congr_left
  intro d _
  exact add_log_exp (hI _ _ _) (key _ _ _)

/-- what the LK2011 objective takes for the probability of a day when the buys are stored in an
unsigned `w`-bit type: the no-news term of a day with buys is inflated by `(1 + mu/eB)^(2^w)` -/
def dayProbU (w : ℕ) (p : Eho) (b s : ℕ) : ℝ :=
  p.alpha * (1 - p.delta) * (poisson (p.mu + p.eB) b * poisson p.eS s)
  + p.alpha * p.delta * (poisson p.eB b * poisson (p.mu + p.eS) s)
  + (1 - p.alpha) * (poisson p.eB b * poisson p.eS s) * (if b = 0 then 1 else (1 + p.mu / p.eB) ^ (2 ^ w))

theorem wrap_neg_nat {w : ℕ} {b : ℕ} (hb : b < 2 ^ w) :
    (⟨false, w⟩ : IntTy).wrap (-(b : ℤ)) = if b = 0 then 0 else 2 ^ w - (b : ℤ) := by
  have hb' : (b : ℤ) < 2 ^ w := by exact_mod_cast hb
  simp only [IntTy.wrap, Bool.false_eq_true, if_false]
  split_ifs with h
  · subst h; simp
  · rw [show -(b : ℤ) = (2 ^ w - b) + 2 ^ w * (-1) by ring, Int.add_mul_emod_self_left]
    exact Int.emod_eq_of_lt (by omega) (by omega)

theorem mixT_poisson (w : ℕ) (p : Eho) {b s : ℕ} (hb : b < 2 ^ w) :
    mixT p (b : ℝ) ((⟨false, w⟩ : IntTy).wrap (-(b : ℤ)) : ℤ) s
      = dayProbU w p b s * ((b.factorial : ℝ) * (s.factorial : ℝ)) := by
  have hm := mixture_poisson p b s
  rw [wrap_neg_nat hb]
  have split1 : mixT p (b : ℝ) ((if b = 0 then 0 else 2 ^ w - (b : ℤ) : ℤ) : ℝ) s
      = mixture p b s + (1 - p.alpha) * (Real.exp (-p.eB - p.eS) * (p.eB ^ (b:ℝ) * p.eS ^ (s:ℝ)))
        * ((if b = 0 then 1 else (1 + p.mu / p.eB) ^ (2 ^ w)) - 1) := by
    simp only [mixT, mixture]
    by_cases h0 : b = 0
    · simp [h0]
    · simp only [h0, if_false]
      rw [show (((2 ^ w - (b : ℤ) : ℤ) : ℝ) + (b : ℝ)) = ((2 ^ w : ℕ) : ℝ) by push_cast; ring,
        Real.rpow_natCast (1 + p.mu / p.eB) (2 ^ w)]
      ring
  have hb0 : ((b.factorial : ℝ)) ≠ 0 := by exact_mod_cast b.factorial_ne_zero
  have hs0 : ((s.factorial : ℝ)) ≠ 0 := by exact_mod_cast s.factorial_ne_zero
  have e3 : Real.exp (-p.eB - p.eS) = Real.exp (-p.eB) * Real.exp (-p.eS) := by
    rw [← Real.exp_add]; congr 1
  have third : (1 - p.alpha) * (Real.exp (-p.eB - p.eS) * (p.eB ^ (b:ℝ) * p.eS ^ (s:ℝ)))
      = (1 - p.alpha) * (poisson p.eB b * poisson p.eS s) * ((b.factorial : ℝ) * (s.factorial : ℝ)) := by
    rw [e3]; simp only [poisson, Real.rpow_natCast]; field_simp
  rw [split1, hm, third]
  unfold dayProbU Eho.dayProb
  ring

/-- C143 (LK2011, unsigned counts): the objective is minus the log of the product of the distorted
day "probabilities" `dayProbU`, up to the same constant as the true likelihood. -/
theorem C143_lk_unsigned {p : Eho} (h : p.Admissible) (w : ℕ) (ts : IntTy) (l : List (ℕ × ℕ))
    (hb : ∀ d ∈ l, d.1 < 2 ^ w) :
    lk2011T (.int ⟨false, w⟩ (l.map fun d => (d.1 : ℤ))) (.int ts (l.map fun d => (d.2 : ℤ))) (ofEho p)
      = .fin (-((l.map fun d => Real.log (dayProbU w p d.1 d.2)).sum
          + (l.map fun d => Real.log ((d.1.factorial : ℝ) * (d.2.factorial : ℝ))).sum)) ∧
    ∀ d ∈ l, 0 < dayProbU w p d.1 d.2 := by
  have hpos : ∀ d ∈ l, 0 < dayProbU w p d.1 d.2 := by
    intro d hd
    have := mixT_pos h (d.1 : ℝ) ((⟨false, w⟩ : IntTy).wrap (-(d.1 : ℤ)) : ℤ) (d.2 : ℝ)
    rw [mixT_poisson w p (hb d hd)] at this
    have hf : (0 : ℝ) < (d.1.factorial : ℝ) * (d.2.factorial : ℝ) := by
      exact_mod_cast Nat.mul_pos d.1.factorial_pos d.2.factorial_pos
    exact (mul_pos_iff_of_pos_right hf).mp this
  refine ⟨?_, hpos⟩
  rw [lk2011T_eq h, ← sum_map_add']
  congr 3
  apply List.map_congr_left
  intro d hd
  have hf : (0 : ℝ) < (d.1.factorial : ℝ) * (d.2.factorial : ℝ) := by
    exact_mod_cast Nat.mul_pos d.1.factorial_pos d.2.factorial_pos
  rw [← Real.log_mul (hpos d hd).ne' hf.ne', ← mixT_poisson w p (hb d hd)]
  simp

/-- C143 (LK2011, unsigned counts): it never exceeds the objective of the same counts stored as
floats, and it differs from it exactly when `alpha < 1`, `mu > 0` and some day has a buy. -/
theorem C143_lk_unsigned_wrong {p : Eho} (h : p.Admissible) (w : ℕ) (ts : IntTy) (l : List (ℕ × ℕ))
    (hb : ∀ d ∈ l, d.1 < 2 ^ w) :
    ∃ u v : ℝ,
      lk2011T (.int ⟨false, w⟩ (l.map fun d => (d.1 : ℤ))) (.int ts (l.map fun d => (d.2 : ℤ))) (ofEho p)
        = .fin u ∧
      lk2011 (l.map fun d => .fin (d.1 : ℝ)) (l.map fun d => .fin (d.2 : ℝ)) (ofEho p) = .fin v ∧
      u ≤ v ∧ (u ≠ v ↔ p.alpha < 1 ∧ 0 < p.mu ∧ ∃ d ∈ l, d.1 ≠ 0) := by
  obtain ⟨hu, hpos⟩ := C143_lk_unsigned h w ts l hb
  obtain ⟨hpos', heho, hv⟩ : (∀ d ∈ l, 0 < p.dayProb d.1 d.2) ∧ _ ∧ _ := C45_likelihood h l
  obtain ⟨a0, a1, d0, d1, hB, hS, hm⟩ := id h
  have hprod : Real.log (l.map fun d => p.dayProb d.1 d.2).prod
      = (l.map fun d => Real.log (p.dayProb d.1 d.2)).sum := by
    clear hv hu hpos hb heho
    revert hpos'
    induction l with
    | nil => intro _; simp
    | cons d t ih =>
      intro hpos'
      have hp' : 0 < (t.map fun d => p.dayProb d.1 d.2).prod :=
        List.prod_pos fun x hx => by
          obtain ⟨e, he, rfl⟩ := List.mem_map.mp hx; exact hpos' e (by simp [he])
      simp only [List.map_cons, List.sum_cons, List.prod_cons]
      rw [Real.log_mul (hpos' d (by simp)).ne' hp'.ne', ih fun e he => hpos' e (by simp [he])]
  refine ⟨_, _, hu, hv, ?_⟩
  rw [hprod]
  have hpow : ∀ b : ℕ, (1 : ℝ) ≤ (if b = 0 then 1 else (1 + p.mu / p.eB) ^ (2 ^ w)) := by
    intro b
    split_ifs
    · exact le_rfl
    · exact one_le_pow₀ (by have : 0 ≤ p.mu / p.eB := div_nonneg hm hB.le; linarith)
  have hpois : ∀ (r : ℝ) (n : ℕ), 0 < r → 0 < poisson r n := by
    intro r n hr
    unfold poisson
    have : (0 : ℝ) < n.factorial := by exact_mod_cast n.factorial_pos
    positivity
  have hdiff : ∀ d : ℕ × ℕ, dayProbU w p d.1 d.2 = p.dayProb d.1 d.2
      + (1 - p.alpha) * (poisson p.eB d.1 * poisson p.eS d.2)
        * ((if d.1 = 0 then 1 else (1 + p.mu / p.eB) ^ (2 ^ w)) - 1) := by
    intro d; unfold dayProbU Eho.dayProb; ring
  have hnn : ∀ d ∈ l, 0 ≤ Real.log (dayProbU w p d.1 d.2) - Real.log (p.dayProb d.1 d.2) := by
    intro d hd
    rw [sub_nonneg]
    apply Real.log_le_log (hpos' d hd)
    rw [hdiff]
    have := mul_nonneg (mul_nonneg (show (0 : ℝ) ≤ 1 - p.alpha by linarith)
      (mul_pos (hpois p.eB d.1 hB) (hpois p.eS d.2 hS)).le) (show (0:ℝ) ≤ _ - 1 from sub_nonneg.mpr (hpow d.1))
    linarith
  have hsum : (l.map fun d => Real.log (dayProbU w p d.1 d.2) - Real.log (p.dayProb d.1 d.2)).sum
      = (l.map fun d => Real.log (dayProbU w p d.1 d.2)).sum - (l.map fun d => Real.log (p.dayProb d.1 d.2)).sum := by
    have := sum_map_add' l (fun d => Real.log (dayProbU w p d.1 d.2) - Real.log (p.dayProb d.1 d.2))
      (fun d => Real.log (p.dayProb d.1 d.2))
    simp only [sub_add_cancel] at this
    linarith
  have hge := sum_map_nonneg' hnn
  refine ⟨by linarith, ?_⟩
  have hiff := sum_eq_zero_iff' hnn
  have hne : ∀ d ∈ l, (Real.log (dayProbU w p d.1 d.2) - Real.log (p.dayProb d.1 d.2) = 0
      ↔ ¬ (p.alpha < 1 ∧ 0 < p.mu ∧ d.1 ≠ 0)) := by
    intro d hd
    rw [sub_eq_zero, Real.log_injOn_pos.eq_iff (hpos d hd) (hpos' d hd), hdiff, add_eq_left, mul_eq_zero,
      mul_eq_zero, or_assoc]
    have hP := (mul_pos (hpois p.eB d.1 hB) (hpois p.eS d.2 hS)).ne'
    constructor
    · rintro (h1 | h1 | h1) ⟨g1, g2, g3⟩
      · linarith
      · exact hP h1
      · rw [if_neg g3, sub_eq_zero] at h1
        have h2 : (1 : ℝ) < 1 + p.mu / p.eB := by have : 0 < p.mu / p.eB := div_pos g2 hB; linarith
        have h3 := one_lt_pow₀ h2 (n := 2 ^ w) (by positivity)
        linarith
    · intro hn
      by_cases g1 : p.alpha < 1
      · by_cases g2 : 0 < p.mu
        · by_cases g3 : d.1 = 0
          · right; right; simp [g3]
          · exact absurd ⟨g1, g2, g3⟩ hn
        · have : p.mu = 0 := le_antisymm (not_lt.mp g2) hm
          right; right; simp [this]
      · left; linarith
  constructor
  · intro hne'
    by_contra hcon
    apply hne'
    have : ∀ d ∈ l, Real.log (dayProbU w p d.1 d.2) - Real.log (p.dayProb d.1 d.2) = 0 := by
      intro d hd
      rw [hne d hd]
      rintro ⟨g1, g2, g3⟩
      exact hcon ⟨g1, g2, d, hd, g3⟩
    have := hiff.mpr this
    linarith
  · rintro ⟨g1, g2, d, hd, g3⟩ he
    have h0 : (l.map fun d => Real.log (dayProbU w p d.1 d.2) - Real.log (p.dayProb d.1 d.2)).sum = 0 := by
      linarith
    exact (hne d hd).mp (hiff.mp h0 d hd) ⟨g1, g2, g3⟩

/-- a `uint8` sample and parameters meeting the hypotheses, including those of the difference -/
example : (⟨1 / 2, 1 / 2, 10, 10, 20⟩ : Eho).Admissible ∧ (⟨1 / 2, 1 / 2, 10, 10, 20⟩ : Eho).alpha < 1 ∧
    (∀ d ∈ [((3 : ℕ), (4 : ℕ)), (0, 7)], d.1 < 2 ^ 8) ∧ ∃ d ∈ [((3 : ℕ), (4 : ℕ)), (0, 7)], d.1 ≠ 0 := by
  refine ⟨by norm_num [Eho.Admissible], by norm_num, ?_, ⟨(3, 4), by simp, by simp⟩⟩
  intro d hd; simp at hd; rcases hd with rfl | rfl <;> norm_num

/-! ### C144: SRISK -/

/-- C144 (firm-level SRISK): with integer-typed equity and debt, if no sum `D + W` overflows its type,
the result is that of the same numbers as floats. -/
theorem C144_exact (l : List α) (k : XR) (W D : Col α) (lr : α → XR) (h : (D.plus W).Fits l) :
    sriskArrayT k (W.arr l) (D.arr l) (l.map lr)
      = sriskArrayT k (.flt (W.floats l)) (.flt (D.floats l)) (l.map lr) ∧
    ∀ (k' : ℝ) (w d r : α → ℝ), k = .fin k' → (∀ f ∈ l, W.val f = .fin (w f) ∧ D.val f = .fin (d f) ∧
        lr f = .fin (r f) ∧ w f ≠ 0) →
      sriskArrayT k (W.arr l) (D.arr l) (l.map lr) = .ok (l.map fun f => .fin (shortfall k' (w f) (d f) (r f))) := by
  have e : sriskArrayT k (W.arr l) (D.arr l) (l.map lr)
      = .ok (l.map fun f => sriskFormula k (W.val f) (D.val f) (lr f)) := by
    simp only [sriskArrayT, bind, Except.bind, add_arr l D W h, arr_cast]
    simp only [Col.floats, bcast_maps, plus_val, sriskFormula]
  refine ⟨?_, ?_⟩
  · rw [e]
    simp only [sriskArrayT, bind, Except.bind, TArr.add, arith, TArr.cast, Col.floats, bc_maps, Except.map, bcast_maps, sriskFormula]
  · rintro k' w d r rfl hf
    rw [e]
    congr 1
    apply List.map_congr_left
    intro f hfl
    obtain ⟨h1, h2, h3, h4⟩ := hf f hfl
    rw [h1, h2, h3, sriskFormula_fin h4]

/-- C144: signed `w`-bit equity and debt, non-negative and representable: a firm whose `D + W` exceeds
the largest number of the type has `D + W - 2^w` in its place, which lowers its reported SRISK by
exactly `k * 2^w`; every other firm's SRISK is right. -/
theorem C144_overflow (l : List α) {w : ℕ} (hw : 1 ≤ w) (k : ℝ) (W D : α → ℤ) (lr : α → ℝ)
    (h : ∀ f ∈ l, 0 < W f ∧ 0 ≤ D f ∧ W f < 2 ^ (w - 1) ∧ D f < 2 ^ (w - 1)) :
    sriskArrayT (.fin k) (.int ⟨true, w⟩ (l.map W)) (.int ⟨true, w⟩ (l.map D)) (l.map fun f => .fin (lr f))
      = .ok (l.map fun f => .fin (shortfall k (W f) (D f) (lr f)
          - if D f + W f < 2 ^ (w - 1) then 0 else k * 2 ^ w)) := by
  obtain ⟨v, rfl⟩ : ∃ v, w = v + 1 := ⟨w - 1, by omega⟩
  simp only [Nat.add_sub_cancel] at h ⊢
  have hq : (0 : ℤ) < 2 ^ v := by positivity
  have e2 : (((2 ^ (v + 1) : ℕ) : ℤ)) = 2 * 2 ^ v := by push_cast; ring
  have hadd : TArr.add (.int ⟨true, v + 1⟩ (l.map D)) (.int ⟨true, v + 1⟩ (l.map W))
      = .ok (.int ⟨true, v + 1⟩ (l.map fun f => if D f + W f < 2 ^ v then D f + W f
          else D f + W f - 2 ^ (v + 1))) := by
    simp only [TArr.add, arith, promote_self, bc_maps, Except.map]
    congr 2
    apply List.map_congr_left
    intro f hf
    obtain ⟨h1, h2, h3, h4⟩ := h f hf
    simp only [IntTy.wrap, if_true]
    split_ifs with hlt
    · apply Int.bmod_eq_of_le <;> rw [e2] <;> omega
    · have e3 : (2 : ℤ) ^ (v + 1) = 2 * 2 ^ v := by ring
      rw [show D f + W f = (D f + W f - 2 ^ (v + 1)) + (2 ^ (v + 1) : ℕ) by push_cast; ring, Int.add_bmod_right,
        show D f + W f - 2 ^ (v + 1) + ((2 ^ (v + 1) : ℕ) : ℤ) - 2 ^ (v + 1) = D f + W f - 2 ^ (v + 1) by push_cast; ring]
      apply Int.bmod_eq_of_le <;> rw [e2, e3] <;> omega
  simp only [sriskArrayT, bind, Except.bind, hadd, cast_int, bcast_maps]
  congr 1
  apply List.map_congr_left
  intro f hf
  obtain ⟨h1, h2, h3, h4⟩ := h f hf
  have hW : (W f : ℝ) ≠ 0 := by exact_mod_cast h1.ne'
  simp only [XR.one_def, XR.fin_div _ hW, XR.fin_mul, XR.fin_sub, XR.fin_add, XR.fin_inj, shortfall]
  split_ifs
  · push_cast; field_simp; ring
  · push_cast; field_simp; ring

/-- a bank with 2 billion of debt and 0.5 billion of equity in `int32` overflows -/
example : (∀ f ∈ [((500000000 : ℤ), (2000000000 : ℤ)), (100, 900)],
      0 < f.1 ∧ 0 ≤ f.2 ∧ f.1 < 2 ^ (32 - 1) ∧ f.2 < 2 ^ (32 - 1)) ∧
    ¬ ((2000000000 : ℤ) + 500000000 < 2 ^ (32 - 1)) := by
  refine ⟨?_, by norm_num⟩
  intro f hf; simp at hf; rcases hf with rfl | rfl <;> norm_num

end
end Frds.Props

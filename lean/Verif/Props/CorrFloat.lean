import Verif.Model.RoundedCorr
import Verif.Props.StartFloat
import Verif.Props.RoundedDcc
import Verif.Props.CccObj

/-! C213: the starting correlation and the fit of the constant-correlation model, in binary64. -/
namespace Frds.Props
noncomputable section
open Frds Frds.Model Classical Rounding
set_option linter.unusedSimpArgs false

namespace CorrFloat
open RoundedDcc

/-- two of the values differ by at least `2^-80` -/
def Spread (z : List ℝ) : Prop := ∃ v ∈ z, ∃ w ∈ z, 1 / 2 ^ 80 ≤ |v - w|

variable {M : Machine}

theorem rep_fin {r s : ℝ} (h : M.R.rd r = .fin s) : M.R.rd s = .fin s := by
  have := M.R.idem r
  rw [h] at this
  simpa using this

/-- a sum of at most `2^38` numbers of the format, in any order -/
theorem sum_bd (hM : M.R = binary64.rounding) (i : ℕ) (l : List ℝ) {B : ℝ} (hB : 0 ≤ B) (hB2 : B ≤ 2 ^ 205) (hlen : l.length ≤ 2 ^ 38)
    (hl : ∀ v ∈ l, |v| ≤ B ∧ M.R.rd v = .fin v) :
    ∃ t : ℝ, M.sum i (l.map .fin) = .fin t ∧ M.R.rd t = .fin t ∧ |t| ≤ 2 ^ 39 * B := by
  obtain ⟨tiny, huge, A, ht, hh⟩ := env M hM
  have hre : (l.map XR.fin).map (fun v => |Accurate.re v|) = l.map fun v => |v| := by
    rw [List.map_map]; rfl
  have hs : (l.map fun v => |v|).sum ≤ l.length * B := by
    have := List.sum_le_card_nsmul (l.map fun v => |v|) B (by
      intro x hx
      obtain ⟨v, hv, rfl⟩ := List.mem_map.mp hx
      exact (hl v hv).1)
    rwa [List.length_map, nsmul_eq_mul] at this
  have hn : (l.length : ℝ) ≤ 2 ^ 38 := by exact_mod_cast hlen
  have hs2 : (l.map fun v => |v|).sum ≤ 2 ^ 38 * B := hs.trans (mul_le_mul_of_nonneg_right hn hB)
  have hnu : 2 * (((l.map XR.fin).length : ℝ) * 2 ^ (-53 : ℤ)) ≤ 1 := by
    rw [List.length_map, show (2 : ℝ) ^ (-53 : ℤ) = 1 / 2 ^ 53 by norm_num]
    linarith only [hn]
  obtain ⟨t, e, r, a⟩ := A.sum_signed (by norm_num) (M.sum_ok i (l.map .fin)) (by
    intro x hx
    obtain ⟨v, hv, rfl⟩ := List.mem_map.mp hx
    exact ⟨v, rfl, (hl v hv).2⟩) hnu (by
    rw [hre]
    refine hugeGe hh (k := 250) le_rfl ?_
    calc 2 * (l.map fun v => |v|).sum ≤ 2 * (2 ^ 38 * 2 ^ 205) := by
          refine mul_le_mul_of_nonneg_left (hs2.trans (mul_le_mul_of_nonneg_left hB2 (by positivity))) (by norm_num)
      _ ≤ 2 ^ 250 := by norm_num)
  refine ⟨t, e, r, ?_⟩
  rw [hre] at a
  have b := a.bound (by norm_num)
  have hph := A.pow_half (k := (l.map XR.fin).length - 1) (by
    have : (((l.map XR.fin).length - 1 : ℕ) : ℝ) ≤ (l.map XR.fin).length := by exact_mod_cast Nat.sub_le _ _
    have k := mul_le_mul_of_nonneg_right this (show (0 : ℝ) ≤ 2 ^ (-53 : ℤ) by positivity)
    linarith) (by norm_num)
  generalize (1 - (2 : ℝ) ^ (-53 : ℤ)) ^ ((l.map XR.fin).length - 1) = P at *
  have := mul_le_mul_of_nonneg_left hph (abs_nonneg t)
  have e2 : (2 : ℝ) ^ 39 * B = 2 * (2 ^ 38 * B) := by ring
  rw [e2]
  linarith only [this, b, hs2]

/-- rounding a number that is not below `2^-250` loses at most half of it -/
theorem rd_low (hM : M.R = binary64.rounding) {r s : ℝ} (h : M.R.rd r = .fin s) (hr : 1 / 2 ^ 250 ≤ r) : r / 2 ≤ s := by
  obtain ⟨tiny, huge, A, ht, hh⟩ := env M hM
  have htl := tinyLe (k := 250) ht le_rfl A.tiny_nonneg
  have r0 : 0 ≤ r := le_trans (by positivity) hr
  have e := A.err r s h
  rw [abs_of_nonneg r0, max_eq_left (htl.trans hr)] at e
  have k : (2 : ℝ) ^ (-53 : ℤ) * r ≤ 1 / 2 * r := mul_le_mul_of_nonneg_right (by norm_num) r0
  generalize (2 : ℝ) ^ (-53 : ℤ) * r = z at e k
  have := (abs_le.mp e).1
  linarith only [this, k]

/-- centred values: bounded, and at least one is not tiny -/
theorem centred_bd (hM : M.R = binary64.rounding) (i : ℕ) (z : List ℝ) (hne : z ≠ []) (hlen : z.length ≤ 2 ^ 38)
    (hz : ∀ v ∈ z, |v| ≤ 2 ^ 60 ∧ M.R.rd v = .fin v) :
    ∃ d : List ℝ, Model.Rounded.centred M i (z.map .fin) = d.map .fin ∧ d.length = z.length ∧ (∀ v ∈ d, |v| ≤ 2 ^ 102) ∧
      (Spread z → ∃ v ∈ d, 1 / 2 ^ 82 ≤ |v|) := by
  obtain ⟨tiny, huge, A, ht, hh⟩ := env M hM
  have hn : (0 : ℝ) < z.length := by exact_mod_cast List.length_pos_iff.mpr hne
  have hn1 : (1 : ℝ) ≤ z.length := by exact_mod_cast List.length_pos_iff.mpr hne
  have htl := tinyLe (k := 0) ht (by norm_num) A.tiny_nonneg
  obtain ⟨t, et, rt, bt⟩ := sum_bd hM i z (B := 2 ^ 60) (by positivity) (by norm_num) hlen hz
  have hq : |t / z.length| ≤ 2 ^ 99 := by
    rw [abs_div, abs_of_pos hn, div_le_iff₀ hn]
    refine bt.trans ?_
    calc ((2 : ℝ) ^ 39 * 2 ^ 60 : ℝ) = (2 : ℝ) ^ 99 * (1 : ℝ) := by norm_num
      _ ≤ (2 : ℝ) ^ 99 * (z.length : ℝ) := mul_le_mul_of_nonneg_left hn1 (by positivity)
  obtain ⟨m, em, bm⟩ := rd_bnd A (by norm_num) (by simpa using htl) hq (by norm_num) (hugeGe hh (k := 99) (by norm_num) le_rfl)
  have rm := rep_fin em
  have hmean : Model.Rounded.mean M i (z.map .fin) = .fin m := by
    have hl : M.R.round (.fin (z.length : ℝ)) = .fin z.length :=
      Rounding.rep_nat (by rw [hM]; exact hlen.trans (by show 2 ^ 38 ≤ 2 ^ 53; norm_num))
    unfold Model.Rounded.mean
    rw [et, List.length_map, hl]
    unfold Rounding.div
    rw [XR.fin_div _ hn.ne', Rounding.round_fin, em]
  have rmn : M.R.rd (-m) = .fin (-m) := by
    have := M.R.neg m
    rw [rm] at this
    simpa using this
  have key : ∀ v ∈ z, ∃ d : ℝ, M.R.sub (.fin v) (.fin m) = .fin d ∧ |d| ≤ 2 ^ 102 ∧ |v - m| / 2 ≤ |d| := by
    intro v hv
    obtain ⟨b, r⟩ := hz v hv
    have hb : |v - m| ≤ 2 ^ 101 := by
      refine (abs_sub v m).trans ?_
      norm_num at b bm ⊢
      linarith only [b, bm]
    obtain ⟨d, ed, bd⟩ := rd_bnd A (by norm_num) (by simpa using htl) hb (by norm_num) (hugeGe hh (k := 101) (by norm_num) le_rfl)
    refine ⟨d, by unfold Rounding.sub; rw [XR.fin_sub, Rounding.round_fin, ed], by norm_num at bd ⊢; exact bd, ?_⟩
    have e := A.err_add v (-m) d r rmn (by rw [← sub_eq_add_neg]; exact ed)
    rw [← sub_eq_add_neg] at e
    have k1 : |v - m| ≤ |d| + |d - (v - m)| := by
      have := abs_sub d (d - (v - m))
      rwa [sub_sub_cancel] at this
    have k2 : (2 : ℝ) ^ (-53 : ℤ) * |v - m| ≤ 1 / 2 * |v - m| := mul_le_mul_of_nonneg_right (by norm_num) (abs_nonneg _)
    generalize (2 : ℝ) ^ (-53 : ℤ) * |v - m| = y at e k2
    linarith only [k1, k2, e]
  choose! f hf1 hf2 hf3 using key
  refine ⟨z.map f, ?_, by simp, ?_, ?_⟩
  · unfold Model.Rounded.centred
    rw [hmean, List.map_map, List.map_map]
    refine List.map_congr_left fun v hv => ?_
    exact hf1 v hv
  · intro v hv
    obtain ⟨w, hw, rfl⟩ := List.mem_map.mp hv
    exact hf2 w hw
  · rintro ⟨v, hv, w, hw, h⟩
    have h3 : |v - w| ≤ |v - m| + |w - m| := by
      have := abs_sub (v - m) (w - m)
      rwa [show v - m - (w - m) = v - w by ring] at this
    rcases le_total |v - m| |w - m| with h4 | h4
    · refine ⟨f w, List.mem_map_of_mem hw, le_trans ?_ (hf3 w hw)⟩
      norm_num at h ⊢
      linarith only [h, h3, h4]
    · refine ⟨f v, List.mem_map_of_mem hv, le_trans ?_ (hf3 v hv)⟩
      norm_num at h ⊢
      linarith only [h, h3, h4]

/-- an entry of the computed covariance matrix is a finite number; on the diagonal it is positive -/
theorem entry_bd (hM : M.R = binary64.rounding) (i : ℕ) (d e : List ℝ) (hlen : d.length ≤ 2 ^ 38) (h2 : 2 ≤ d.length)
    (hd : ∀ v ∈ d, |v| ≤ 2 ^ 102) (he : ∀ v ∈ e, |v| ≤ 2 ^ 102) :
    ∃ c : ℝ, Model.Rounded.covEntry M i (d.map .fin) (e.map .fin) = .fin c ∧ |c| ≤ 2 ^ 246 ∧
      (d = e → (∃ v ∈ d, 1 / 2 ^ 82 ≤ |v|) → 1 / 2 ^ 210 ≤ c) := by
  obtain ⟨tiny, huge, A, ht, hh⟩ := env M hM
  have htl := tinyLe (k := 0) ht (by norm_num) A.tiny_nonneg
  -- the products
  have key : ∀ p ∈ List.zip d e, ∃ q : ℝ, M.R.mul (.fin p.1) (.fin p.2) = .fin q ∧ M.R.rd q = .fin q ∧ |q| ≤ 2 ^ 205 ∧
      M.R.rd (p.1 * p.2) = .fin q := by
    intro p hp
    have hm := List.of_mem_zip (a := p.1) (b := p.2) hp
    have hb : |p.1 * p.2| ≤ 2 ^ 204 := by
      rw [abs_mul]
      calc |p.1| * |p.2| ≤ 2 ^ 102 * 2 ^ 102 := mul_le_mul (hd _ hm.1) (he _ hm.2) (abs_nonneg _) (by positivity)
        _ = 2 ^ 204 := by norm_num
    obtain ⟨q, eq, bq⟩ := rd_bnd A (by norm_num) (by simpa using htl) hb (by norm_num) (hugeGe hh (k := 204) (by norm_num) le_rfl)
    exact ⟨q, by unfold Rounding.mul; rw [XR.fin_mul, Rounding.round_fin, eq], rep_fin eq, by norm_num at bq ⊢; exact bq, eq⟩
  choose! f hf1 hf2 hf3 hf4 using key
  have hzip : List.zipWith (fun u v => M.R.mul u v) (d.map XR.fin) (e.map .fin) = ((List.zip d e).map f).map .fin := by
    rw [List.zipWith_map, ← List.map_uncurry_zip_eq_zipWith, List.map_map]
    refine List.map_congr_left fun p hp => ?_
    exact hf1 p hp
  have hl : ((List.zip d e).map f).length ≤ 2 ^ 38 := by
    rw [List.length_map, List.length_zip]
    exact (min_le_left _ _).trans hlen
  obtain ⟨t, et, rt, bt⟩ := sum_bd hM i ((List.zip d e).map f) (B := 2 ^ 205) (by positivity) le_rfl hl (by
    intro v hv
    obtain ⟨p, hp, rfl⟩ := List.mem_map.mp hv
    exact ⟨hf3 p hp, hf2 p hp⟩)
  -- the reciprocal
  have hn : (1 : ℝ) ≤ (d.length : ℝ) - 1 := by
    have : (2 : ℝ) ≤ d.length := by exact_mod_cast h2
    linarith
  have hn2 : (d.length : ℝ) - 1 ≤ 2 ^ 38 := by
    have : (d.length : ℝ) ≤ 2 ^ 38 := by exact_mod_cast hlen
    linarith
  have hsub : (d.length : ℝ) - 1 = ((d.length - 1 : ℕ) : ℝ) := by rw [Nat.cast_sub (by omega)]; simp
  have hr : M.R.round (.fin ((d.length : ℝ) - 1)) = .fin ((d.length : ℝ) - 1) := by
    rw [hsub]
    exact Rounding.rep_nat (by rw [hM]; exact (Nat.sub_le _ _).trans (hlen.trans (by show 2 ^ 38 ≤ 2 ^ 53; norm_num)))
  have q0 : 1 / 2 ^ 38 ≤ 1 / ((d.length : ℝ) - 1) := one_div_le_one_div_of_le (by linarith) hn2
  have q1 : 1 / ((d.length : ℝ) - 1) ≤ 1 := by rw [div_le_one (by linarith)]; exact hn
  obtain ⟨s, es, bs⟩ := rd_bnd A (by norm_num) (by simpa using htl) (x := 1 / ((d.length : ℝ) - 1)) (K := 1)
    (by rw [abs_of_nonneg (le_trans (by positivity) q0)]; exact q1) le_rfl (hugeGe hh (k := 0) (by norm_num) (by norm_num))
  have ls := rd_low hM es (le_trans (one_div_le_one_div_of_le (by positivity) (pow_le_pow_right₀ (by norm_num) (by norm_num))) q0)
  have ls2 : 1 / 2 ^ 39 ≤ s := by
    norm_num at q0 ls ⊢
    linarith only [q0, ls]
  have hts : |t * s| ≤ 2 ^ 245 := by
    rw [abs_mul]
    calc |t| * |s| ≤ (2 ^ 39 * 2 ^ 205) * (2 * 1) := mul_le_mul bt bs (abs_nonneg _) (by positivity)
      _ ≤ 2 ^ 245 := by norm_num
  obtain ⟨c, ec, bc⟩ := rd_bnd A (by norm_num) (by simpa using htl) hts (by norm_num) (hugeGe hh (k := 245) (by norm_num) le_rfl)
  refine ⟨c, ?_, by norm_num at bc ⊢; exact bc, ?_⟩
  · unfold Model.Rounded.covEntry
    rw [hzip, et, List.length_map, hr]
    unfold Rounding.div Rounding.mul
    rw [XR.one_def, XR.fin_div _ (by linarith), Rounding.round_fin, es, XR.fin_mul, Rounding.round_fin, ec]
  · rintro rfl ⟨v, hv, hvl⟩
    have hdiag : ∀ p ∈ List.zip d d, p.1 = p.2 := by
      intro p hp
      have : List.zip d d = d.map fun a => (a, a) := by
        clear * -
        induction d with
        | nil => rfl
        | cons a d ih => rw [List.zip_cons_cons, ih, List.map_cons]
      rw [this] at hp
      obtain ⟨a, -, rfl⟩ := List.mem_map.mp hp
      rfl
    have hmem : (v, v) ∈ List.zip d d := by
      clear hdiag hf1 hf2 hf3 hf4 hzip hl bt et rt hd he
      clear hsub hr q0 q1 es bs ls hn hn2 h2 hlen
      induction d with
      | nil => simp at hv
      | cons a d ih =>
        rw [List.zip_cons_cons]
        rcases List.mem_cons.mp hv with rfl | hv
        · exact List.mem_cons_self
        · exact List.mem_cons_of_mem _ (ih hv)
    obtain ⟨-, -, hge⟩ := (M.sum_ok i (((List.zip d d).map f).map .fin)).nonneg (by
      intro x hx
      rw [List.map_map] at hx
      obtain ⟨p, hp, rfl⟩ := List.mem_map.mp hx
      refine ⟨?_, ?_⟩
      · have h := hf4 p hp
        rw [← hdiag p hp] at h
        have := M.R.rd_nonneg (mul_self_nonneg p.1)
        rw [h] at this
        exact this
      · show M.R.round (.fin (f p)) = .fin (f p)
        rw [Rounding.round_fin]
        exact hf2 p hp)
    have hg := hge (.fin (f (v, v))) (List.mem_map_of_mem (List.mem_map_of_mem hmem))
    rw [et, XR.fin_le] at hg
    have hv2 : 1 / 2 ^ 164 ≤ v * v := by
      rw [← abs_mul_abs_self]
      calc (1 : ℝ) / 2 ^ 164 = 1 / 2 ^ 82 * (1 / 2 ^ 82) := by norm_num
        _ ≤ |v| * |v| := mul_le_mul hvl hvl (by positivity) (abs_nonneg _)
    have hf := rd_low hM (hf4 _ hmem) (le_trans (one_div_le_one_div_of_le (by positivity) (pow_le_pow_right₀ (by norm_num) (by norm_num))) hv2)
    have ht2 : 1 / 2 ^ 165 ≤ t := by
      refine le_trans (le_trans ?_ hf) hg
      rw [show (1 : ℝ) / 2 ^ 165 = 1 / 2 ^ 164 / 2 by norm_num]
      exact div_le_div_of_nonneg_right hv2 (by norm_num)
    have hts2 : 1 / 2 ^ 204 ≤ t * s := by
      calc (1 : ℝ) / 2 ^ 204 = 1 / 2 ^ 165 * (1 / 2 ^ 39) := by norm_num
        _ ≤ t * s := mul_le_mul ht2 ls2 (by positivity) (le_trans (by positivity) ht2)
    have hc := rd_low hM ec (le_trans (one_div_le_one_div_of_le (by positivity) (pow_le_pow_right₀ (by norm_num) (by norm_num))) hts2)
    refine le_trans ?_ hc
    refine le_trans ?_ (div_le_div_of_nonneg_right hts2 (by norm_num))
    norm_num

/-- the square root of such a diagonal entry -/
theorem sqrt_pos (hM : M.R = binary64.rounding) {c : ℝ} (h1 : 1 / 2 ^ 210 ≤ c) (h2 : |c| ≤ 2 ^ 246) : ∃ s : ℝ, M.R.sqrt (.fin c) = .fin s ∧ 0 < s := by
  obtain ⟨tiny, huge, A, ht, hh⟩ := env M hM
  have c0 : 0 ≤ c := le_trans (by positivity) h1
  have q1 : 1 / 2 ^ 105 ≤ Real.sqrt c := Real.le_sqrt_of_sq_le (le_trans (le_of_eq (by norm_num)) h1)
  have q2 : Real.sqrt c ≤ 2 ^ 123 := (Real.sqrt_le_left (by positivity)).mpr (le_trans (le_abs_self c) (h2.trans (le_of_eq (by norm_num))))
  obtain ⟨s, es⟩ := A.fin (Real.sqrt c) (by rw [abs_of_nonneg (Real.sqrt_nonneg _)]; exact hugeGe hh (k := 123) (by norm_num) q2)
  refine ⟨s, ?_, ?_⟩
  · unfold Rounding.sqrt
    rw [XR.fin_sqrt c0, Rounding.round_fin, es]
  · have := rd_low hM es (le_trans (one_div_le_one_div_of_le (by positivity) (pow_le_pow_right₀ (by norm_num) (by norm_num))) q1)
    have p : (0 : ℝ) < 1 / 2 ^ 105 := by positivity
    linarith only [this, p, q1]

theorem div_ne_nan {x : XR} (hx : x ≠ .nan) {s : ℝ} (hs : 0 < s) : M.R.div x (.fin s) ≠ .nan := by
  unfold Rounding.div
  rcases x with _ | _ | _ | r
  · exact absurd rfl hx
  · have : (XR.ninf / .fin s : XR) = .ninf := by
      show (if s < 0 then XR.pinf else XR.ninf) = .ninf
      rw [if_neg (not_lt.mpr hs.le)]
    rw [this]; simp [Rounding.round]
  · have : (XR.pinf / .fin s : XR) = .pinf := by
      show (if s < 0 then XR.ninf else XR.pinf) = .pinf
      rw [if_neg (not_lt.mpr hs.le)]
    rw [this]; simp [Rounding.round]
  · rw [XR.fin_div _ hs.ne', Rounding.round_fin]
    exact Rounding.rd_ne_nan _

theorem Spread.len {z : List ℝ} (h : Spread z) : 2 ≤ z.length := by
  obtain ⟨v, hv, w, hw, h⟩ := h
  rcases z with _ | ⟨a, _ | ⟨b, z⟩⟩
  · simp at hv
  · simp only [List.mem_singleton] at hv hw
    rw [hv, hw, sub_self, abs_zero] at h
    have : (0 : ℝ) < 1 / 2 ^ 80 := by positivity
    linarith only [h, this]
  · simp

/-- the standardised residuals are numbers of the format -/
theorem uniStd_rep {pw : ℕ → XR} {i : ℕ} {cpp zeroMean : Bool} {x l : List XR} {f : Model.Rounded.FittedUni}
    (h : Model.Rounded.uniStd M pw i cpp zeroMean x f = .ok l) : ∀ v ∈ l, M.R.Rep v := by
  unfold Model.Rounded.uniStd at h
  simp only [bind, Except.bind, pure, Except.pure] at h
  split at h
  · cases h
  split at h
  · cases h
  injection h with h
  subst h
  intro v hv
  unfold Model.Rounded.stdResid at hv
  rw [← List.map_uncurry_zip_eq_zipWith] at hv
  obtain ⟨p, -, rfl⟩ := List.mem_map.mp hv
  exact Rounding.rep_round _

end CorrFloat

open PrepFloat CorrFloat

/-- C213. `np.corrcoef` of two series of one length, at most `2^38` numbers of the format of magnitude at most `2^60`, each with two values at least
`2^-80` apart: the entry off the diagonal is a number between -1 and 1, never NaN. -/
theorem C213_corr (M : Machine) (hM : M.R = binary64.rounding) (i : ℕ) (x y : List ℝ) (hlen : x.length = y.length) (hl : x.length ≤ 2 ^ 38)
    (hx : ∀ v ∈ x, |v| ≤ 2 ^ 60 ∧ M.R.Rep (.fin v)) (hy : ∀ v ∈ y, |v| ≤ 2 ^ 60 ∧ M.R.Rep (.fin v)) (sx : Spread x) (sy : Spread y) :
    ∃ r : ℝ, Model.Rounded.npCorr M i (x.map .fin) (y.map .fin) = .fin r ∧ |r| ≤ 1 := by
  have nx : x ≠ [] := fun h => by have := sx.len; rw [h] at this; simp at this
  have ny : y ≠ [] := fun h => by have := sy.len; rw [h] at this; simp at this
  obtain ⟨dx, ex, lx, bx, kx⟩ := centred_bd hM i x nx hl hx
  obtain ⟨dy, ey, ly, by', ky⟩ := centred_bd hM (i + 1) y ny (by omega) hy
  have h2 := sx.len
  have h3 := sy.len
  obtain ⟨c11, e11, b11, p11⟩ := entry_bd hM (i + 2) dx dx (by omega) (by omega) bx bx
  obtain ⟨c22, e22, b22, p22⟩ := entry_bd hM (i + 3) dy dy (by omega) (by omega) by' by'
  obtain ⟨c12, e12, b12, -⟩ := entry_bd hM (i + 4) dx dy (by omega) (by omega) bx by'
  obtain ⟨s1, es1, q1⟩ := sqrt_pos hM (p11 rfl (kx sx)) b11
  obtain ⟨s2, es2, q2⟩ := sqrt_pos hM (p22 rfl (ky sy)) b22
  obtain ⟨r, hr, br, -⟩ := RoundedDcc.clip_one (M.R.div (M.R.div (.fin c12) (.fin s1)) (.fin s2)) (div_ne_nan (div_ne_nan (XR.fin_ne_nan _) q1) q2)
  refine ⟨r, ?_, br⟩
  unfold Model.Rounded.npCorr Model.Rounded.corrcoef Model.Rounded.npCov
  simp only [ex, ey, e11, e22, e12, es1, es2, hr]

/-- C213. The fit of the constant-correlation model after its univariate models have been estimated in range. The standardised residuals are
finite; if each series has two of them at least `2^-80` apart, the starting correlation is a number between -1 and 1, the objective is finite at the
start (with the correlation moved into its bounds `[-p, p]`, as SLSQP does), and on success at a candidate in range with the value of the objective
the stored log-likelihood is finite, minus the objective there, and at least that of the start if the optimiser does not report a larger value. -/
theorem C213_ccc_fit (M : Machine) (hM : M.R = binary64.rounding) (hlog : LogRange M) {lp p : ℝ} (hlp : Model.Rounded.log2pi M = .fin lp)
    (blp : |lp| ≤ 3) (hp : M.R.rd (99 / 100) = .fin p) (pw : ℕ → XR) (hpw : Decay M pw) (i : ℕ) (cpp : Bool) (x1 x2 : List ℝ) (h1 : Data M x1)
    (h2 : Data M x2) (hlen : x1.length = x2.length) (f1 f2 : Model.Rounded.FittedUni) (hf1 : Fitted M f1) (hf2 : Fitted M f2) (v1 v2 : GarchVar)
    (ho1 : Omega M v1.omega) (ha1 : Coef M v1.alpha) (hb1 : Coef M v1.beta) (ho2 : Omega M v2.omega) (ha2 : Coef M v2.alpha) (hb2 : Coef M v2.beta) :
    ∃ z1 z2 : List ℝ, Model.Rounded.uniStd M pw i cpp false (x1.map .fin) f1 = .ok (z1.map .fin) ∧
      Model.Rounded.uniStd M pw i cpp false (x2.map .fin) f2 = .ok (z2.map .fin) ∧ z1.length = x1.length ∧ z2.length = x2.length ∧
      (Spread z1 → Spread z2 → ∃ rho f0 : ℝ, Model.Rounded.npCorr M i (z2.map .fin) (z1.map .fin) = .fin rho ∧ |rho| ≤ 1 ∧
        Model.Rounded.cccFitObjective M pw i cpp (x1.map .fin) (x2.map .fin) ⟨f1.mu, v1, f2.mu, v2, Np.clip (.fin rho) (.fin (-p)) (.fin p)⟩ =
          .ok (.fin f0) ∧
        ∀ (opt : Optimizer CccVec) (run : OptRun CccVec),
          run = opt cccFeas (Model.Rounded.objValue (Model.Rounded.cccFitObjective M pw i cpp (x1.map .fin) (x2.map .fin)))
            ⟨f1.mu, v1, f2.mu, v2, .fin rho⟩ →
          (run.success = false → Model.Rounded.cccFit M pw i cpp (x1.map .fin) (x2.map .fin) f1 f2 v1 v2 opt = .ok none) ∧
          (run.success = true →
            run.f = Model.Rounded.objValue (Model.Rounded.cccFitObjective M pw i cpp (x1.map .fin) (x2.map .fin)) run.x →
            Mean M run.x.mu1 → Mean M run.x.mu2 → Omega M run.x.v1.omega → Coef M run.x.v1.alpha → Coef M run.x.v1.beta →
            Omega M run.x.v2.omega → Coef M run.x.v2.alpha → Coef M run.x.v2.beta → (∃ r : ℝ, run.x.rho = .fin r ∧ |r| ≤ p) →
            ∃ f : ℝ, Model.Rounded.cccFit M pw i cpp (x1.map .fin) (x2.map .fin) f1 f2 v1 v2 opt = .ok (some (run.x, .fin f)) ∧
              Model.Rounded.cccFitObjective M pw i cpp (x1.map .fin) (x2.map .fin) run.x = .ok (.fin (-f)) ∧ (run.f ≤ .fin f0 → -f0 ≤ f))) := by
  obtain ⟨z1, e1, k1, b1⟩ := PrepFloat.uniStd_fin M hM hlog pw hpw i cpp false x1 h1 f1 hf1
  obtain ⟨z2, e2, k2, b2⟩ := PrepFloat.uniStd_fin M hM hlog pw hpw i cpp false x2 h2 f2 hf2
  refine ⟨z1, z2, e1, e2, k1, k2, fun s1 s2 => ?_⟩
  have r1 : ∀ v ∈ z1, |v| ≤ 2 ^ 60 ∧ M.R.Rep (.fin v) := fun v hv => ⟨b1 v hv, uniStd_rep e1 _ (List.mem_map_of_mem hv)⟩
  have r2 : ∀ v ∈ z2, |v| ≤ 2 ^ 60 ∧ M.R.Rep (.fin v) := fun v hv => ⟨b2 v hv, uniStd_rep e2 _ (List.mem_map_of_mem hv)⟩
  obtain ⟨rho, er, br⟩ := C213_corr M hM i z2 z1 (by omega) (by rw [k2]; exact h2.len) r2 r1 s2 s1
  have p0 : 0 ≤ p := by
    have := M.R.rd_nonneg (r := 99 / 100) (by norm_num)
    rw [hp] at this
    exact XR.fin_le.mp this
  obtain ⟨f0, hf0⟩ := C211_ccc M hM hlog hlp blp hp pw hpw i cpp x1 x2 h1 h2 hlen ⟨f1.mu, v1, f2.mu, v2, Np.clip (.fin rho) (.fin (-p)) (.fin p)⟩
    hf1.mu hf2.mu ho1 ha1 hb1 ho2 ha2 hb2 _ (Np.clip_fin _ _ _) (by
      rw [abs_le]
      exact ⟨le_min (le_max_right _ _) (by linarith), min_le_right _ _⟩)
  refine ⟨rho, f0, er, br, hf0, ?_⟩
  intro opt run hrun
  have hfit : Model.Rounded.cccFit M pw i cpp (x1.map .fin) (x2.map .fin) f1 f2 v1 v2 opt =
      .ok (if run.success then some (run.x, -run.f) else none) := by
    rw [hrun]
    unfold Model.Rounded.cccFit
    simp only [bind, Except.bind, pure, Except.pure, e1, e2, er, List.length_map, k1, k2, hlen, ne_eq, not_true, if_false]
  refine ⟨fun hs => by rw [hfit, hs]; rfl, ?_⟩
  intro hs k m1 m2 o1 c1 c2 o2 c3 c4 hr
  obtain ⟨r, er', br'⟩ := hr
  obtain ⟨f, hf⟩ := C211_ccc M hM hlog hlp blp hp pw hpw i cpp x1 x2 h1 h2 hlen run.x m1 m2 o1 c1 c2 o2 c3 c4 r er' br'
  have hf' : run.f = .fin f := by
    rw [k]
    unfold Model.Rounded.objValue
    rw [hf]
  refine ⟨-f, ?_, by rw [neg_neg]; exact hf, ?_⟩
  · rw [hfit, hs, hf', XR.fin_neg]; rfl
  · intro hle
    rw [hf', XR.fin_le] at hle
    linarith

/-- C213. The residuals are spread out when the series crosses its fitted mean: one return at least `2^-30` above it and one at least `2^-30` below. -/
theorem C213_spread (M : Machine) (hM : M.R = binary64.rounding) (hlog : LogRange M) (pw : ℕ → XR) (hpw : Decay M pw) (i : ℕ) (cpp : Bool)
    (x : List ℝ) (hx : Data M x) (f : Model.Rounded.FittedUni) (hf : Fitted M f) (mu : ℝ) (hmu : f.mu = .fin mu)
    (up : ∃ v ∈ x, 1 / 2 ^ 30 ≤ v - mu) (down : ∃ v ∈ x, v - mu ≤ -(1 / 2 ^ 30)) (z : List ℝ)
    (hz : Model.Rounded.uniStd M pw i cpp false (x.map .fin) f = .ok (z.map .fin)) : Spread z := by
  obtain ⟨tiny, huge, A, ht, hh⟩ := RoundedDcc.env M hM
  obtain ⟨y, ey, ly, hy⟩ := prep_good hM hx false (i + 2) i
  obtain ⟨v0, e0, q1, q2⟩ := hy.comp
  obtain ⟨rows, er, lr, hr⟩ := rows_ok hM hpw i y hy.ne hy.bd e0 q1 q2
  have hbc := backcast_nn hM hpw i y hy.ne hy.bd
  obtain ⟨w, ew, lw, nw, bw⟩ := cand_bd hM hx hf.lastMu false
  obtain ⟨s, es, ls, bs⟩ := garch_path hM hlog cpp hf.omega hf.alpha hf.beta hbc w nw (fun v hv => (bw v hv).trans (by norm_num)) rows (by omega) hr
  have hz' : Model.Rounded.stdResid M (Model.Rounded.modelResids M false (x.map .fin) f.mu) (s.map .fin) = z.map .fin := by
    unfold Model.Rounded.uniStd at hz
    simp only [bind, Except.bind, pure, Except.pure, ey, er, ew, es] at hz
    injection hz
  obtain ⟨mu', e', -, rmu⟩ := hf.mu
  rw [hmu] at e'
  injection e' with e'
  subst e'
  have rmn : M.R.rd (-mu) = .fin (-mu) := by
    have := M.R.neg mu
    rw [show M.R.rd mu = .fin mu from rmu] at this
    simpa using this
  -- the standardised residual of one return
  have key : ∀ (x s z : List ℝ), x.length ≤ s.length → (∀ v ∈ x, |v| ≤ 2 ^ 14 ∧ M.R.Rep (.fin v)) → (∀ v ∈ s, 1 / 2 ^ 80 ≤ v ∧ v ≤ 2 ^ 79) →
      Model.Rounded.stdResid M (Model.Rounded.modelResids M false (x.map .fin) (.fin mu)) (s.map .fin) = z.map .fin →
      ∀ v ∈ x, ∃ r q t : ℝ, ∃ u ∈ z, M.R.rd (v - mu) = .fin r ∧ M.R.rd (Real.sqrt t) = .fin q ∧ 1 / 2 ^ 80 ≤ t ∧ t ≤ 2 ^ 79 ∧
        M.R.div (.fin r) (.fin q) = .fin u := by
    intro x
    induction x with
    | nil => intro s z _ _ _ _ v hv; simp at hv
    | cons a x ih =>
      intro s z hl hx hs he v hv
      rcases s with _ | ⟨b, s⟩
      · simp at hl
      rcases z with _ | ⟨c, z⟩
      · simp [Model.Rounded.stdResid, Model.Rounded.modelResids] at he
      simp only [Model.Rounded.stdResid, Model.Rounded.modelResids, Bool.false_eq_true, if_false, List.map_cons, List.zipWith_cons_cons,
        List.cons.injEq] at he
      rcases List.mem_cons.mp hv with rfl | hv
      · obtain ⟨h1, h2⟩ := hs b (by simp)
        have hb : |v - mu| ≤ 2 ^ 100 := by
          obtain ⟨mu', e1, e2, -⟩ := hf.mu
          rw [hmu] at e1
          injection e1 with e1
          subst e1
          refine (abs_sub v mu).trans ?_
          have := (hx v (by simp)).1
          norm_num at this e2 ⊢
          linarith only [this, e2]
        obtain ⟨r, er⟩ := A.fin (v - mu) (RoundedDcc.hugeGe hh (k := 100) (by norm_num) hb)
        have b0 : 0 ≤ b := le_trans (by positivity) h1
        have q2 : Real.sqrt b ≤ 2 ^ 40 := (Real.sqrt_le_left (by positivity)).mpr (h2.trans (by norm_num))
        obtain ⟨q, eq⟩ := A.fin (Real.sqrt b) (by
          rw [abs_of_nonneg (Real.sqrt_nonneg _)]; exact RoundedDcc.hugeGe hh (k := 40) (by norm_num) q2)
        refine ⟨r, q, b, c, by simp, er, eq, h1, h2, ?_⟩
        rw [← he.1]
        unfold Rounding.sub Rounding.sqrt
        rw [XR.fin_sub, Rounding.round_fin, er, XR.fin_sqrt b0, Rounding.round_fin, eq]
      · obtain ⟨r, q, t, u, hu, g⟩ := ih s z (by simpa using hl) (fun v hv => hx v (by simp [hv])) (fun v hv => hs v (by simp [hv])) (by
          simp only [Model.Rounded.stdResid, Model.Rounded.modelResids, Bool.false_eq_true, if_false]
          exact he.2) v hv
        exact ⟨r, q, t, u, by simp [hu], g⟩
  rw [hmu] at hz'
  have lo : ∀ (r t q u d : ℝ), 1 / 2 ^ 30 ≤ d → M.R.rd d = .fin r → M.R.rd (Real.sqrt t) = .fin q → 1 / 2 ^ 80 ≤ t → t ≤ 2 ^ 79 →
      M.R.div (.fin r) (.fin q) = .fin u → 1 / 2 ^ 80 ≤ u := by
    intro r t q u d hd er eq h1 h2 eu
    have k1 := CorrFloat.rd_low hM er (le_trans (one_div_le_one_div_of_le (by positivity) (pow_le_pow_right₀ (by norm_num) (by norm_num))) hd)
    have s1 : 1 / 2 ^ 40 ≤ Real.sqrt t := Real.le_sqrt_of_sq_le (le_trans (le_of_eq (by norm_num)) h1)
    have k2 := CorrFloat.rd_low hM eq (le_trans (one_div_le_one_div_of_le (by positivity) (pow_le_pow_right₀ (by norm_num) (by norm_num))) s1)
    have q0 : 0 < q := by
      have : (0 : ℝ) < 1 / 2 ^ 40 := by positivity
      linarith only [k2, s1, this]
    have s2 : Real.sqrt t ≤ 2 ^ 40 := (Real.sqrt_le_left (by positivity)).mpr (h2.trans (by norm_num))
    obtain ⟨q', eq', bq⟩ := RoundedDcc.rd_bnd A (by norm_num) (by simpa using RoundedDcc.tinyLe (k := 0) ht (by norm_num) A.tiny_nonneg)
      (x := Real.sqrt t) (K := 2 ^ 40) (by rw [abs_of_nonneg (Real.sqrt_nonneg _)]; exact s2) (by norm_num)
      (RoundedDcc.hugeGe hh (k := 40) (by norm_num) le_rfl)
    rw [eq] at eq'
    injection eq' with eq'
    subst eq'
    rw [abs_of_pos q0] at bq
    have k3 : 1 / 2 ^ 72 ≤ r / q := by
      rw [le_div_iff₀ q0]
      calc 1 / 2 ^ 72 * q ≤ 1 / 2 ^ 72 * (2 * 2 ^ 40) := mul_le_mul_of_nonneg_left bq (by positivity)
        _ = 1 / 2 ^ 30 / 2 := by norm_num
        _ ≤ d / 2 := div_le_div_of_nonneg_right hd (by norm_num)
        _ ≤ r := k1
    unfold Rounding.div at eu
    rw [XR.fin_div _ q0.ne', Rounding.round_fin] at eu
    have k4 := CorrFloat.rd_low hM eu (le_trans (one_div_le_one_div_of_le (by positivity) (pow_le_pow_right₀ (by norm_num) (by norm_num))) k3)
    refine le_trans ?_ k4
    refine le_trans ?_ (div_le_div_of_nonneg_right k3 (by norm_num))
    norm_num
  obtain ⟨v1, m1, d1⟩ := up
  obtain ⟨v2, m2, d2⟩ := down
  obtain ⟨r1, a1, t1, u1, hu1, g1, g2, g3, g4, g5⟩ := key x s z (by omega) hx.bd bs hz' v1 m1
  obtain ⟨r2, a2, t2, u2, hu2, g1', g2', g3', g4', g5'⟩ := key x s z (by omega) hx.bd bs hz' v2 m2
  have l1 := lo _ _ _ _ _ d1 g1 g2 g3 g4 g5
  have n1 := M.R.neg (v2 - mu)
  rw [g1', XR.fin_neg] at n1
  have l2 := lo (-r2) t2 a2 (-u2) (-(v2 - mu)) (by linarith only [d2]) n1 g2' g3' g4' (by
    have hq : a2 ≠ 0 := by
      have s1 : 1 / 2 ^ 40 ≤ Real.sqrt t2 := Real.le_sqrt_of_sq_le (le_trans (le_of_eq (by norm_num)) g3')
      have k2 := CorrFloat.rd_low hM g2' (le_trans (one_div_le_one_div_of_le (by positivity) (pow_le_pow_right₀ (by norm_num) (by norm_num))) s1)
      have : (0 : ℝ) < 1 / 2 ^ 40 := by positivity
      intro h
      rw [h] at k2
      linarith only [k2, s1, this]
    unfold Rounding.div at g5' ⊢
    rw [XR.fin_div _ hq, Rounding.round_fin] at g5' ⊢
    rw [neg_div, M.R.neg, g5', XR.fin_neg])
  refine ⟨u1, hu1, u2, hu2, ?_⟩
  have p : (0 : ℝ) < 1 / 2 ^ 80 := by positivity
  rw [abs_of_nonneg (by linarith only [l1, l2, p])]
  linarith only [l1, l2, p]

/-- C213. Without rounding `np.corrcoef` is that of the exact model (at least two observations, finite or not). -/
theorem C213_exact_corr (i : ℕ) (x y : List XR) (hx : 2 ≤ x.length) (hlen : x.length = y.length) :
    Model.Rounded.npCorr Machine.exact i x y = Model.npCorr x y := by
  have b := fun x y => (RoundedDcc.exact_ops x y).2.1
  have c := fun x y => (RoundedDcc.exact_ops x y).2.2.1
  have d := fun x y => (RoundedDcc.exact_ops x y).2.2.2
  have hs : ∀ (i : ℕ) (l : List XR), Machine.exact.sum i l = l.sum := fun _ _ => rfl
  have hr : ∀ x, Machine.exact.R.round x = x := Machine.exact_round
  have hmean : ∀ i (r : List XR), Model.Rounded.mean Machine.exact i r = Np.mean r := by
    intro i r
    unfold Model.Rounded.mean Np.mean
    simp only [d, hs, hr]
  have key : ∀ j k l (u v : List XR), 2 ≤ u.length → Model.Rounded.covEntry Machine.exact j (Model.Rounded.centred Machine.exact k u)
      (Model.Rounded.centred Machine.exact l v) = Model.npCov u v := by
    intro j k l u v hu
    unfold Model.Rounded.covEntry Model.Rounded.centred Model.npCov
    simp only [hmean, b, c, d, hs, hr, List.length_map]
    have hn : (u.length : ℝ) - 1 ≠ 0 := by
      have : (2 : ℝ) ≤ u.length := by exact_mod_cast hu
      linarith
    rw [List.zipWith_map, XR.one_def, XR.fin_div _ hn]
    have hn1 : 0 < (u.length : ℝ) - 1 := by
      have : (2 : ℝ) ≤ u.length := by exact_mod_cast hu
      linarith
    have kk : ∀ t : XR, t * .fin (1 / ((u.length : ℝ) - 1)) = t / .fin ((u.length : ℝ) - 1) := by
     intro t
     rcases t with _ | _ | _ | r
     · rfl
     · show XR.infSign (-(1 / ((u.length : ℝ) - 1))) = if (u.length : ℝ) - 1 < 0 then XR.pinf else XR.ninf
       have h := one_div_pos.mpr hn1
       rw [if_neg (not_lt.mpr hn1.le)]
       unfold XR.infSign
       rw [if_neg (by linarith only [h]), if_pos (by linarith only [h])]
     · show XR.infSign (1 / ((u.length : ℝ) - 1)) = if (u.length : ℝ) - 1 < 0 then XR.ninf else XR.pinf
       have h := one_div_pos.mpr hn1
       rw [if_neg (not_lt.mpr hn1.le)]
       unfold XR.infSign
       rw [if_pos h]
     · rw [XR.fin_mul, XR.fin_div _ hn, mul_one_div]
    exact kk _
  unfold Model.Rounded.npCorr Model.Rounded.corrcoef Model.Rounded.npCov Model.npCorr
  have hy : 2 ≤ y.length := hlen ▸ hx
  simp only [fun j k l => key j k l x x hx, fun j k l => key j k l x y hx, fun j k l => key j k l y y hy, d, RoundedDcc.exact_sqrt]

/-- C213. Without rounding a fit of a fresh object whose univariate models are estimated (`f1`, `f2` describe what they hold) stores what the exact
model stores, for every optimiser. -/
theorem C213_exact_fit (i : ℕ) (cpp : Bool) (fitU : GarchObj GarchVar → Except PyErr (GarchObj GarchVar)) (opt : Optimizer CccVec) (o : CccObj)
    (ho : o.success = false) (hp : o.params = none) (m1 m2 : GarchObj GarchVar) (h1 : fitU o.model1 = .ok m1) (h2 : fitU o.model2 = .ok m2)
    (f1 f2 : Model.Rounded.FittedUni) (v1 v2 : GarchVar) (l1 l2 : XR) (p1 : m1.params = some (f1.mu, v1, l1)) (p2 : m2.params = some (f2.mu, v2, l2))
    (hlen : m1.returns.length = m2.returns.length) (hne : m1.returns ≠ [])
    (hz1 : Model.Rounded.uniStd Machine.exact (fun k => .fin ((94 / 100 : ℝ) ^ k)) i cpp false m1.returns f1 = .ok (Model.stdResid m1.resids m1.sigma2))
    (hz2 : Model.Rounded.uniStd Machine.exact (fun k => .fin ((94 / 100 : ℝ) ^ k)) i cpp false m2.returns f2 = .ok (Model.stdResid m2.resids m2.sigma2))
    (hz : 2 ≤ (Model.stdResid m1.resids m1.sigma2).length) :
    (Model.cccFit cpp fitU opt o).map (fun (x : CccObj × Option (CccVec × XR)) => x.2) =
      Model.Rounded.cccFit Machine.exact (fun k => .fin ((94 / 100 : ℝ) ^ k)) i cpp m1.returns m2.returns f1 f2 v1 v2 opt := by
  have hobj : ∀ p, Model.Rounded.cccFitObjective Machine.exact (fun k => .fin ((94 / 100 : ℝ) ^ k)) i cpp m1.returns m2.returns p =
      Model.cccObjective cpp m1.returns m2.returns p m1.backcast m2.backcast (m1.bounds.getD []) (m2.bounds.getD []) :=
    fun p => C211_exact_ccc i cpp _ _ p hlen hne _ _ _ _
  have hne2 : m2.returns ≠ [] := fun h => hne (List.length_eq_zero_iff.mp (by rw [hlen, h]; rfl))
  have hok : ∀ p, ∃ v, Model.cccObjective cpp m1.returns m2.returns p m1.backcast m2.backcast (m1.bounds.getD []) (m2.bounds.getD []) = .ok v :=
    fun p => (C80_lengths cpp _ _ hne hne2 p _ _ _ _).2 (Or.inl hlen)
  have hrun : ∀ x0, runOpt opt cccFeas (fun p => Model.cccObjective cpp m1.returns m2.returns p m1.backcast m2.backcast (m1.bounds.getD [])
      (m2.bounds.getD [])) x0 = .ok (opt cccFeas (Model.Rounded.objValue (Model.Rounded.cccFitObjective Machine.exact
        (fun k => .fin ((94 / 100 : ℝ) ^ k)) i cpp m1.returns m2.returns)) x0) := by
    intro x0
    have e : (Model.Rounded.objValue (Model.Rounded.cccFitObjective Machine.exact (fun k => .fin ((94 / 100 : ℝ) ^ k)) i cpp m1.returns m2.returns)) =
        fun p => match Model.cccObjective cpp m1.returns m2.returns p m1.backcast m2.backcast (m1.bounds.getD []) (m2.bounds.getD []) with
          | .ok v => v
          | .error _ => .nan := by
      funext p
      unfold Model.Rounded.objValue
      simp only [hobj]
      rfl
    have hf : ∀ (g : CccVec → Except PyErr Unit), (∀ p, g p = .ok ()) → ∀ l : List CccVec, l.forM g = .ok () := by
      intro g hg l
      induction l with
      | nil => rfl
      | cons p l ih =>
        show (g p >>= fun _ => l.forM g) = _
        rw [hg]
        exact ih
    unfold runOpt
    rw [e]
    simp only [bind, Except.bind, pure, Except.pure]
    rw [hf]
    · rfl
    · intro p
      obtain ⟨v, hv⟩ := hok p
      rw [hv]
  unfold Model.cccFit Model.Rounded.cccFit
  rw [ho, hp]
  simp only [Bool.false_eq_true, if_false, bind, Except.bind, pure, Except.pure, h1, h2, hz1, hz2]
  by_cases hl : (Model.stdResid m1.resids m1.sigma2).length ≠ (Model.stdResid m2.resids m2.sigma2).length
  · simp only [if_pos hl]
    rfl
  · have hl' : (Model.stdResid m1.resids m1.sigma2).length = (Model.stdResid m2.resids m2.sigma2).length := not_not.mp hl
    simp only [if_neg hl]
    rw [C213_exact_corr i _ _ (by omega) hl'.symm]
    simp only [p1, p2, dropLl, Option.map_some, Option.getD_some, hrun]
    generalize opt cccFeas _ _ = run
    cases run.success <;> rfl

/-- two crossing series in range, with fitted means 1: the correlation at the start is a number, and a failed optimisation stores nothing -/
example (i : ℕ) (cpp : Bool) : ∃ (z1 z2 : List ℝ) (rho : ℝ),
    Model.Rounded.uniStd Machine.ieee (fun k => Machine.ieee.R.rd ((94 / 100 : ℝ) ^ k)) i cpp false (([1, -1, 2] : List ℝ).map .fin)
      ⟨1, 1, ⟨1, .fin (1 / 2), 1⟩, .fin (-7)⟩ = .ok (z1.map .fin) ∧
    Model.Rounded.uniStd Machine.ieee (fun k => Machine.ieee.R.rd ((94 / 100 : ℝ) ^ k)) i cpp false (([1, -1, 2] : List ℝ).map .fin)
      ⟨1, 1, ⟨1, .fin (1 / 2), .fin (1 / 2)⟩, .fin (-8)⟩ = .ok (z2.map .fin) ∧
    Model.Rounded.npCorr Machine.ieee i (z2.map .fin) (z1.map .fin) = .fin rho ∧ |rho| ≤ 1 ∧
    Model.Rounded.cccFit Machine.ieee (fun k => Machine.ieee.R.rd ((94 / 100 : ℝ) ^ k)) i cpp (([1, -1, 2] : List ℝ).map .fin)
      (([1, -1, 2] : List ℝ).map .fin) ⟨1, 1, ⟨1, .fin (1 / 2), 1⟩, .fin (-7)⟩ ⟨1, 1, ⟨1, .fin (1 / 2), .fin (1 / 2)⟩, .fin (-8)⟩
      ⟨1, .fin (1 / 2), .fin (1 / 2)⟩ ⟨1, .fin (1 / 2), .fin (1 / 2)⟩ (fun _ _ x => ⟨[], false, x, 0⟩) = .ok none := by
  obtain ⟨lp, h1, blp⟩ := CccFloat.ieee_log2pi
  obtain ⟨c1, c2, c3, c4⟩ := PrepFloat.ieee_coef
  obtain ⟨tiny, huge, A, ht, hh⟩ := RoundedDcc.env Machine.ieee rfl
  obtain ⟨p, hp⟩ := A.fin (99 / 100) (by
    rw [abs_of_pos (by norm_num)]; exact RoundedDcc.hugeGe hh (k := 1) (by norm_num) (by norm_num))
  have hf1 : PrepFloat.Fitted Machine.ieee ⟨1, 1, ⟨1, .fin (1 / 2), 1⟩, .fin (-7)⟩ :=
    ⟨c4, c4, c3, c2, c1, -7, rfl, by rw [abs_neg, abs_of_pos (by norm_num)]; norm_num⟩
  have hf2 : PrepFloat.Fitted Machine.ieee ⟨1, 1, ⟨1, .fin (1 / 2), .fin (1 / 2)⟩, .fin (-8)⟩ :=
    ⟨c4, c4, c3, c2, c2, -8, rfl, by rw [abs_neg, abs_of_pos (by norm_num)]; norm_num⟩
  obtain ⟨z1, z2, e1, e2, -, -, key⟩ := C213_ccc_fit Machine.ieee rfl PrepFloat.ieee_range h1 blp hp _ PrepFloat.ieee_decay i cpp [1, -1, 2] [1, -1, 2]
    PrepFloat.ieee_data PrepFloat.ieee_data rfl _ _ hf1 hf2 ⟨1, .fin (1 / 2), .fin (1 / 2)⟩ ⟨1, .fin (1 / 2), .fin (1 / 2)⟩ c3 c2 c2 c3 c2 c2
  have sp := fun f (hf : PrepFloat.Fitted Machine.ieee f) (h : f.mu = .fin 1) z hz => C213_spread Machine.ieee rfl PrepFloat.ieee_range _
    PrepFloat.ieee_decay i cpp [1, -1, 2] PrepFloat.ieee_data f hf 1 h ⟨2, by simp, by norm_num⟩ ⟨-1, by simp, by norm_num⟩ z hz
  obtain ⟨rho, f0, r1, r2, -, r3⟩ := key (sp _ hf1 rfl z1 e1) (sp _ hf2 rfl z2 e2)
  exact ⟨z1, z2, rho, e1, e2, r1, r2, (r3 (fun _ _ x => ⟨[], false, x, 0⟩) _ rfl).1 rfl⟩

/-- exact arithmetic -/
example (i : ℕ) : Model.Rounded.npCorr Machine.exact i [1, 2, 4] [3, -1, .fin (1 / 2)] = Model.npCorr [1, 2, 4] [3, -1, .fin (1 / 2)] :=
  C213_exact_corr i _ _ (by simp) rfl

end
end Frds.Props

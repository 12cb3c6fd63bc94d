import Verif.Props.RoundedError
import Verif.Props.RoundedRisk

/-! Accuracy of the computed SRISK, of the aggregate, and of the log quoted spread. -/
namespace Frds.Props
noncomputable section
open Frds Frds.Model Classical
set_option linter.unusedSimpArgs false

/-- C166: the computed SRISK differs from the exact value of the formula by at most six rounding errors relative to the
magnitude of its terms, `k (D + W) + W ((1 - k) |LRMES| + 2)`. -/
theorem C166_srisk_accuracy (M : Machine) {u tiny huge : ℝ} (A : Accurate M.R u tiny huge) (hu : 16 * u ≤ 1)
    (k W D l : ℝ) (hk0 : 0 ≤ k) (hk1 : k ≤ 1) (hW : 0 < W) (hD : 0 ≤ D) (rk : M.R.Rep (.fin k))
    (ht1 : tiny ≤ 1) (htW : tiny ≤ W) (htk : k = 0 ∨ tiny ≤ k)
    (hq : 2 * ((D + W) / W + (1 - k) * |l| + 2) ≤ huge) (hDW : 2 * (D + W) ≤ huge)
    (hmag : 2 * (k * (D + W) + W * ((1 - k) * |l| + 2)) ≤ huge) :
    ∃ s, Model.Rounded.srisk M (.fin k) (.fin W) (.fin D) (.fin l) = .fin s ∧
      |s - W * (k * ((D + W) / W) + (1 - k) * l - 1)| ≤
        6 * u / (1 - 6 * u) * (k * (D + W) + W * ((1 - k) * |l| + 2)) := by
  have hu0 := A.u_nonneg
  have hu1 : u < 1 := by linarith
  have ht0 := A.tiny_nonneg
  have hl0 : 0 ≤ (1 - k) * |l| := mul_nonneg (by linarith) (abs_nonneg l)
  have hq1 : 1 ≤ (D + W) / W := by rw [le_div_iff₀ hW]; linarith
  have hh : 1 ≤ huge := by linarith
  have aD : Apx u 0 D D D := by simpa [abs_of_nonneg hD] using Apx.refl (u := u) (x := D)
  have aW : Apx u 0 W W W := by simpa [abs_of_nonneg hW.le] using Apx.refl (u := u) (x := W)
  have ak : Apx u 0 k k k := by simpa [abs_of_nonneg hk0] using Apx.refl (u := u) (x := k)
  have a1' : Apx u 0 1 1 1 := by simpa using Apx.refl (u := u) (x := 1)
  -- (D + W) / W
  obtain ⟨s1, e1, r1, c1⟩ := A.round hu1 (k := 0) (by norm_num) (aD.add aW hu1) (by linarith) hDW
  obtain ⟨s2, e2, r2, c2⟩ := A.round hu1 (by push_cast; linarith) (c1.div_const hW) (by linarith) (by linarith)
  -- times k
  have hkq : k * ((D + W) / W) ≤ (D + W) / W := by nlinarith
  obtain ⟨s3, e3, r3, c3⟩ : ∃ s3, M.R.rd (k * s2) = .fin s3 ∧ M.R.rd s3 = .fin s3 ∧
      Apx u 3 (k * ((D + W) / W)) (k * ((D + W) / W)) s3 := by
    rcases htk with h | h
    · refine ⟨0, by rw [h, zero_mul]; exact Rounding.rd_zero, Rounding.rd_zero, ?_⟩
      rw [h, zero_mul]
      have := (Apx.refl (u := u) (x := 0)).mono hu0 hu1 (Nat.zero_le 3)
      simpa using this
    · have := A.round hu1 (by push_cast; linarith) (ak.mul hu0 hu1 c2) (by nlinarith) (by linarith)
      exact this
  -- (1 - k) * l
  obtain ⟨s4, e4, r4, c4⟩ := A.step_sub hu1 (y := 1) Rounding.rep_one rk hk1 (by linarith)
  have c4' := Apx.of_close hu0 hu1 c4
  have al : Apx u 0 l |l| l := Apx.refl
  obtain ⟨s5, e5, r5, c5⟩ := A.round hu1 (by push_cast; linarith)
    ((c4'.mul hu0 hu1 al).mono_mag hu0 hu1 (show (1 - k) * |l| ≤ (1 - k) * |l| + 1 by linarith)) (by linarith) (by linarith)
  -- sum
  have hkq0 : 0 ≤ k * ((D + W) / W) := by positivity
  obtain ⟨s6, e6, r6, c6⟩ := A.round hu1 (by push_cast; linarith) (c3.add (c5.mono hu0 hu1 (l := 3) (by norm_num)) hu1)
    (by linarith) (by linarith)
  obtain ⟨s7, e7, r7, c7⟩ := A.round hu1 (by push_cast; linarith) (c6.sub (a1'.mono hu0 hu1 (Nat.zero_le 4)) hu1)
    (by linarith) (by linarith)
  have hmagW : W * (k * ((D + W) / W) + ((1 - k) * |l| + 1) + 1) = k * (D + W) + W * ((1 - k) * |l| + 2) := by
    field_simp; ring
  obtain ⟨s8, e8, r8, c8⟩ := A.round hu1 (by push_cast; linarith) (aW.mul hu0 hu1 c7) (by
      have : W * 1 ≤ W * (k * ((D + W) / W) + ((1 - k) * |l| + 1) + 1) := mul_le_mul_of_nonneg_left (by linarith) hW.le
      linarith) (by rw [hmagW]; exact hmag)
  refine ⟨s8, ?_, ?_⟩
  · show M.R.mul (.fin W) (M.R.sub (M.R.add (M.R.mul (.fin k) (M.R.div (M.R.add (.fin D) (.fin W)) (.fin W)))
      (M.R.mul (M.R.sub 1 (.fin k)) (.fin l))) 1) = _
    rw [show M.R.add (.fin D) (.fin W) = .fin s1 from e1,
      show M.R.div (.fin s1) (.fin W) = .fin s2 by
        show M.R.round (.fin s1 / .fin W) = _
        rw [XR.fin_div _ hW.ne']; exact e2,
      show M.R.mul (.fin k) (.fin s2) = .fin s3 from e3, show M.R.sub 1 (.fin k) = .fin s4 from e4,
      show M.R.mul (.fin s4) (.fin l) = .fin s5 from e5, show M.R.add (.fin s3) (.fin s5) = .fin s6 from e6,
      show M.R.sub (.fin s6) 1 = .fin s7 from e7]
    exact e8
  · have := c8.error (by push_cast; linarith) hu1
    rw [hmagW] at this
    norm_num at this
    exact this

/-- C166: the computed aggregate SRISK of given firm values is accurate to `n - 1` rounding errors -/
theorem C166_aggregate_accuracy (M : Machine) {u tiny huge : ℝ} (A : Accurate M.R u tiny huge) (s : List ℝ)
    (hn : 2 * (s.length * u) ≤ 1) (hu : u < 1) (rs : ∀ x ∈ s, M.R.Rep (.fin x))
    (hmax : 2 * (s.map fun x => max x 0).sum ≤ huge) :
    ∃ t, Model.Rounded.aggregate M (s.map .fin) = .fin t ∧
      |t - (s.map fun x => max x 0).sum| ≤
        ((s.length - 1 : ℕ) : ℝ) * u / (1 - ((s.length - 1 : ℕ) : ℝ) * u) * (s.map fun x => max x 0).sum := by
  have hu0 := A.u_nonneg
  have e : (s.map XR.fin).map (fun x => XR.npMax x 0) = s.map fun x => XR.fin (max x 0) := by
    rw [List.map_map]
    apply List.map_congr_left
    intro x _
    show XR.npMax (.fin x) 0 = _
    rw [XR.zero_def, XR.npMax_fin]
  have e2 : ((s.map fun x => XR.fin (max x 0)).map Accurate.re).sum = (s.map fun x => max x 0).sum := by
    rw [List.map_map]; rfl
  have hall : ∀ x ∈ s.map fun x => XR.fin (max x 0), ∃ r, x = .fin r ∧ 0 ≤ r ∧ M.R.rd r = .fin r := by
    intro v hv
    obtain ⟨x, hx, rfl⟩ := List.mem_map.mp hv
    refine ⟨max x 0, rfl, le_max_right _ _, ?_⟩
    rcases max_cases x 0 with ⟨h, _⟩ | ⟨h, _⟩
    · rw [h]; exact rs x hx
    · rw [h]; exact Rounding.rd_zero
  obtain ⟨t, ht, _, c⟩ := A.sum hu (M.sum_ok 0 (s.map fun x => XR.fin (max x 0))) hall (by simpa using hn)
    (by rw [e2]; exact hmax)
  rw [e2, List.length_map] at c
  refine ⟨t, ?_, ?_⟩
  · unfold Model.Rounded.aggregate
    rw [e, ht]
  · refine c.error hu0 ?_ hu
    have : ((s.length - 1 : ℕ) : ℝ) ≤ s.length := by exact_mod_cast Nat.sub_le _ _
    nlinarith

/-- C167: if the machine's logarithm is correct to one rounding error, the computed log quoted spread of `n` quotes differs
from the exact mean of `log ask - log bid` by at most `n + 2` rounding errors relative to the mean of
`|log ask| + |log bid|` (cancellation makes a bound relative to the spread itself impossible). -/
theorem C167_log_spread_accuracy (M : Machine) {u tiny huge : ℝ} (A : Accurate M.R u tiny huge) (q : List (ℝ × ℝ))
    (hne : q ≠ []) (hn : q.length ≤ 2 ^ M.R.prec) (hu : 2 * ((q.length + 3) * u) ≤ 1)
    (hlog : ∀ x ∈ q, (∃ y, M.log (.fin x.1) = .fin y ∧ M.R.Rep (.fin y) ∧ |y - Real.log x.1| ≤ u * |Real.log x.1|) ∧
      ∃ y, M.log (.fin x.2) = .fin y ∧ M.R.Rep (.fin y) ∧ |y - Real.log x.2| ≤ u * |Real.log x.2|)
    (hmin : tiny * q.length ≤ (q.map fun x => |Real.log x.2| + |Real.log x.1|).sum)
    (hmax : 4 * (q.map fun x => |Real.log x.2| + |Real.log x.1|).sum ≤ huge) :
    ∃ r, Model.Rounded.quotedSpread M (q.map fun x => .fin x.1) (q.map fun x => .fin x.2) false = .ok (.fin r) ∧
      |r - (q.map fun x => Real.log x.2 - Real.log x.1).sum / q.length| ≤
        (q.length + 2) * u / (1 - (q.length + 2) * u) *
          ((q.map fun x => |Real.log x.2| + |Real.log x.1|).sum / q.length) := by
  have hu0 := A.u_nonneg
  have hn1 : 1 ≤ q.length := List.length_pos_iff.mpr hne
  have hn1' : (1 : ℝ) ≤ q.length := by exact_mod_cast hn1
  have hu8 : 8 * u ≤ 1 := by nlinarith
  have hu1 : u < 1 := by linarith
  set l := q.map fun x => M.R.sub (M.log (.fin x.2)) (M.log (.fin x.1)) with hl
  have hlen : l.length = q.length := by simp [hl]
  set S := q.map fun x => (Real.log x.2 - Real.log x.1, |Real.log x.2| + |Real.log x.1|) with hS
  have hS1 : (S.map Prod.fst).sum = (q.map fun x => Real.log x.2 - Real.log x.1).sum := by
    rw [hS, List.map_map]; rfl
  have hS2 : (S.map Prod.snd).sum = (q.map fun x => |Real.log x.2| + |Real.log x.1|).sum := by
    rw [hS, List.map_map]; rfl
  have hBn : ∀ v ∈ q.map fun x => |Real.log x.2| + |Real.log x.1|, 0 ≤ v := by
    intro v hv
    obtain ⟨x, _, rfl⟩ := List.mem_map.mp hv
    positivity
  have hB0 : 0 ≤ (q.map fun x => |Real.log x.2| + |Real.log x.1|).sum := List.sum_nonneg hBn
  have one : ∀ {x y : ℝ}, |y - x| ≤ u * |x| → Apx u 1 x |x| y := by
    intro x y h
    refine ⟨le_rfl, ?_⟩
    rw [pow_one]
    have := abs_nonneg (y - x)
    nlinarith
  have hf : List.Forall₂ (fun v r => ∃ y, v = XR.fin y ∧ M.R.rd y = .fin y ∧ Apx u 2 r.1 r.2 y) l S := by
    rw [hl, hS, List.forall₂_map_left_iff, List.forall₂_map_right_iff, List.forall₂_same]
    intro x hx
    obtain ⟨⟨y1, e1, r1, d1⟩, y2, e2, r2, d2⟩ := hlog x hx
    have hle := Rounded.sum_ge_mem hBn (List.mem_map.mpr ⟨x, hx, rfl⟩)
    obtain ⟨s, es, rs, cs⟩ := A.round_sub hu1 (by push_cast; linarith) r2 r1 ((one d2).sub (one d1) hu1)
      (by linarith)
    exact ⟨s, by rw [e1, e2]; exact es, rs, cs⟩
  obtain ⟨t, ht, rt, ct⟩ := A.sum_apx hu1 (M.sum_ok 0 l) S hf (by rw [hlen]; push_cast; nlinarith) (by rw [hS2]; exact hmax)
  rw [hlen, hS1, hS2] at ct
  have hnr : M.R.round (.fin (l.length : ℝ)) = .fin (q.length : ℝ) := by rw [hlen]; exact M.R.nat _ hn
  have hk : 2 + (q.length - 1) = q.length + 1 := by omega
  rw [hk] at ct
  have hdivle : (q.map fun x => |Real.log x.2| + |Real.log x.1|).sum / q.length ≤
      (q.map fun x => |Real.log x.2| + |Real.log x.1|).sum := div_le_self hB0 hn1'
  obtain ⟨r, hr, rr, cr⟩ := A.round hu1 (by push_cast; nlinarith) (ct.div_const (by linarith : (0 : ℝ) < q.length))
    (by rw [le_div_iff₀ (by linarith)]; exact hmin) (by linarith)
  refine ⟨r, ?_, ?_⟩
  · have hz : List.zipWith (fun a b => M.R.sub (M.log a) (M.log b)) (q.map fun x => XR.fin x.2) (q.map fun x => XR.fin x.1)
        = l := by
      rw [List.zipWith_map, List.zipWith_self]
    simp only [Model.Rounded.quotedSpread, List.length_map, ne_eq, not_true_eq_false, if_false, hz, Bool.false_eq_true]
    rw [Model.Rounded.mean, ht, hnr]
    show Except.ok (M.R.round (.fin t / .fin (q.length : ℝ))) = _
    rw [XR.fin_div _ (by linarith)]
    exact congrArg Except.ok hr
  · have := cr.error (by push_cast; nlinarith) hu1
    push_cast at this
    rw [show (q.length : ℝ) + 1 + 1 = q.length + 2 by ring] at this
    exact this

/-- binary64: a firm with equity 10, debt 90 and LRMES 1/2 at a prudential ratio of 1/2 (exact SRISK 42.5) -/
example : ∃ s, Model.Rounded.srisk Machine.ieee (.fin (1 / 2)) (.fin 10) (.fin 90) (.fin (1 / 2)) = .fin s ∧
    |s - 85 / 2| ≤ 6 * 2 ^ (-53 : ℤ) / (1 - 6 * 2 ^ (-53 : ℤ)) * (145 / 2) := by
  obtain ⟨tiny, huge, A, h1, h2, h3⟩ := Rounded.acc64 (M := Machine.ieee) rfl
  have hbig : (2 : ℝ) ^ (30 : ℤ) ≤ 2 ^ (1000 : ℤ) := zpow_le_zpow_right₀ (by norm_num) (by norm_num)
  have hsmall : (2 : ℝ) ^ (-950 : ℤ) ≤ 2 ^ (-3 : ℤ) := zpow_le_zpow_right₀ (by norm_num) (by norm_num)
  have hone : (1 : ℝ) < 2 ^ (1024 : ℤ) := one_lt_zpow₀ (by norm_num) (by norm_num)
  have rh : Machine.ieee.R.Rep (.fin (1 / 2)) := by
    show binary64.rd (1 / 2) = _
    rw [Format.rd_of_nonneg (by norm_num)]
    have e := Format.val_exact (F := binary64) 1 (-1) (by norm_num [binary64]) (by norm_num [binary64])
    have e' : ((1 : ℕ) : ℝ) * 2 ^ (-1 : ℤ) = 1 / 2 := by norm_num
    rw [e'] at e
    unfold Format.posRd
    rw [e, if_neg]
    show ¬ (2 : ℝ) ^ (1024 : ℤ) ≤ _
    rw [not_le]
    exact lt_trans (by norm_num) hone
  have ht0 := A.tiny_nonneg
  generalize (2 : ℝ) ^ (1000 : ℤ) = B at *
  generalize (2 : ℝ) ^ (-950 : ℤ) = C at *
  clear hone
  norm_num at h2 h3 hbig hsmall
  have ht : tiny ≤ 1 / 8 := by linarith
  have hh : 1000000 ≤ huge := by linarith
  have hab : |(1 / 2 : ℝ)| = 1 / 2 := abs_of_pos (by norm_num)
  obtain ⟨s, e, hs⟩ := C166_srisk_accuracy Machine.ieee A (by norm_num) (1 / 2) 10 90 (1 / 2) (by norm_num) (by norm_num)
    (by norm_num) (by norm_num) rh (by linarith) (by linarith) (Or.inr (by linarith))
    (by rw [hab]; linarith) (by linarith) (by rw [hab]; linarith)
  refine ⟨s, e, ?_⟩
  rw [hab] at hs
  norm_num at hs ⊢
  exact hs

/-- binary64: three firms, one with negative SRISK -/
example : ∃ t, Model.Rounded.aggregate Machine.ieee [.fin 5, .fin (-3), .fin 7] = .fin t ∧
    |t - 12| ≤ 2 * 2 ^ (-53 : ℤ) / (1 - 2 * 2 ^ (-53 : ℤ)) * 12 := by
  have rep : ∀ n : ℕ, n ≤ 1000 → Machine.ieee.R.Rep (.fin (n : ℝ)) := fun n hn =>
    Rounding.rep_nat (R := binary64.rounding) (hn.trans (by norm_num [Format.rounding, binary64]))
  obtain ⟨tiny, huge, A, h1, h2, h3⟩ := Rounded.acc64 (M := Machine.ieee) rfl
  have hbig : (2 : ℝ) ^ (30 : ℤ) ≤ 2 ^ (1000 : ℤ) := zpow_le_zpow_right₀ (by norm_num) (by norm_num)
  generalize (2 : ℝ) ^ (1000 : ℤ) = B at *
  norm_num at h2 hbig
  have r5 := rep 5 (by norm_num)
  have r3 := Rounding.neg_rep (rep 3 (by norm_num))
  have r7 := rep 7 (by norm_num)
  norm_num at r5 r3 r7
  obtain ⟨t, e, ht⟩ := C166_aggregate_accuracy Machine.ieee A [5, -3, 7] (by norm_num) (by norm_num) (by
    intro x hx
    simp only [List.mem_cons, List.not_mem_nil, or_false] at hx
    rcases hx with rfl | rfl | rfl
    · exact r5
    · exact r3
    · exact r7) (by
    simp only [List.map_cons, List.map_nil, List.sum_cons, List.sum_nil]
    rw [max_eq_left (by norm_num), max_eq_right (by norm_num), max_eq_left (by norm_num)]
    linarith)
  refine ⟨t, e, ?_⟩
  simp only [List.map_cons, List.map_nil, List.sum_cons, List.sum_nil, List.length_cons, List.length_nil] at ht
  rw [max_eq_left (by norm_num), max_eq_right (by norm_num), max_eq_left (by norm_num)] at ht
  norm_num at ht ⊢
  exact ht

/-- binary64 with a correctly rounded logarithm: one quote with bid 2 and ask 4 -/
example : ∃ r, Model.Rounded.quotedSpread Machine.ieee [.fin 2] [.fin 4] false = .ok (.fin r) ∧
    |r - Real.log 2| ≤ 3 * 2 ^ (-53 : ℤ) / (1 - 3 * 2 ^ (-53 : ℤ)) * (3 * Real.log 2) := by
  obtain ⟨tiny, huge, A, h1, h2, h3⟩ := Rounded.acc64 (M := Machine.ieee) rfl
  have hbig : (2 : ℝ) ^ (30 : ℤ) ≤ 2 ^ (1000 : ℤ) := zpow_le_zpow_right₀ (by norm_num) (by norm_num)
  have hsmall : (2 : ℝ) ^ (-950 : ℤ) ≤ 2 ^ (-3 : ℤ) := zpow_le_zpow_right₀ (by norm_num) (by norm_num)
  have ht0 := A.tiny_nonneg
  generalize (2 : ℝ) ^ (1000 : ℤ) = B at *
  generalize (2 : ℝ) ^ (-950 : ℤ) = C at *
  norm_num at h2 h3 hbig hsmall
  have ht : tiny ≤ 1 / 8 := by linarith
  have hh : 1000000 ≤ huge := by linarith
  have l2 : 1 / 2 ≤ Real.log 2 := by
    have := Real.one_sub_inv_le_log_of_pos (show (0 : ℝ) < 2 by norm_num)
    norm_num at this ⊢
    exact this
  have l2' : Real.log 2 ≤ 1 := by
    have := Real.log_le_sub_one_of_pos (show (0 : ℝ) < 2 by norm_num)
    linarith
  have l4 : Real.log 4 = 2 * Real.log 2 := by
    rw [show (4 : ℝ) = 2 ^ (2 : ℕ) by norm_num, Real.log_pow]; norm_num
  have a2 : |Real.log 2| = Real.log 2 := abs_of_pos (by linarith)
  have a4 : |Real.log 4| = 2 * Real.log 2 := by rw [l4]; exact abs_of_pos (by linarith)
  have key : ∀ a : ℝ, 0 < a → tiny ≤ |Real.log a| → |Real.log a| ≤ 2 → ∃ y, Machine.ieee.log (.fin a) = .fin y ∧
      Machine.ieee.R.Rep (.fin y) ∧ |y - Real.log a| ≤ (2 : ℝ) ^ (-53 : ℤ) * |Real.log a| := by
    intro a ha h1 h2
    obtain ⟨y, hy⟩ := A.fin (Real.log a) (by linarith)
    refine ⟨y, ?_, Machine.ieee.R.idem _ _ hy, ?_⟩
    · show binary64.rounding.round (XR.log (.fin a)) = _
      rw [XR.fin_log ha]
      exact hy
    · have := A.err _ _ hy
      rwa [max_eq_left h1] at this
  obtain ⟨r, e, hr⟩ := C167_log_spread_accuracy Machine.ieee A [(2, 4)] (by simp)
    (by show 1 ≤ 2 ^ 53; norm_num) (by norm_num) (by
      intro x hx
      simp only [List.mem_cons, List.not_mem_nil, or_false] at hx
      subst hx
      exact ⟨key 2 (by norm_num) (by rw [a2]; linarith) (by rw [a2]; linarith),
        key 4 (by norm_num) (by rw [a4]; linarith) (by rw [a4]; linarith)⟩)
    (by
      simp only [List.map_cons, List.map_nil, List.sum_cons, List.sum_nil, List.length_cons, List.length_nil]
      rw [a2, a4]; norm_num; linarith)
    (by
      simp only [List.map_cons, List.map_nil, List.sum_cons, List.sum_nil, List.length_cons, List.length_nil]
      rw [a2, a4]; linarith)
  refine ⟨r, e, ?_⟩
  simp only [List.map_cons, List.map_nil, List.sum_cons, List.sum_nil, List.length_cons, List.length_nil] at hr
  rw [a2, a4, l4] at hr
  have e1 : (2 * Real.log 2 - Real.log 2 + 0) / ((0 + 1 : ℕ) : ℝ) = Real.log 2 := by norm_num; ring
  have e2 : (2 * Real.log 2 + Real.log 2 + 0) / ((0 + 1 : ℕ) : ℝ) = 3 * Real.log 2 := by norm_num; ring
  rw [e1, e2] at hr
  norm_num at hr ⊢
  exact hr

end
end Frds.Props

import Verif.Model.RoundedDccFit
import Verif.Props.CorrFloat

/-! C214: starting values and the fit of the dynamic-correlation model, in binary64. -/
namespace Frds.Props
noncomputable section
open Frds Frds.Model Classical Rounding
set_option linter.unusedSimpArgs false

namespace DccStartFloat
open RoundedDcc

variable {M : Machine}

/-- rounding a number of moderate size -/
theorem rd_near (hM : M.R = binary64.rounding) {x : ℝ} (hx : |x| ≤ 16) : ∃ y : ℝ, M.R.rd x = .fin y ∧ M.R.rd y = .fin y ∧ |y - x| ≤ 1 / 2 ^ 49 := by
  obtain ⟨tiny, huge, A, ht, hh⟩ := env M hM
  obtain ⟨y, hy⟩ := A.fin x (hugeGe hh (k := 4) (by norm_num) (hx.trans (by norm_num)))
  refine ⟨y, hy, CorrFloat.rep_fin hy, ?_⟩
  have he := A.err x y hy
  have htl := tinyLe (k := 0) ht (by norm_num) A.tiny_nonneg
  have hm : max |x| tiny ≤ 16 := max_le hx (htl.trans (by norm_num))
  have : (2 : ℝ) ^ (-53 : ℤ) * max |x| tiny ≤ 2 ^ (-53 : ℤ) * 16 := mul_le_mul_of_nonneg_left hm (by positivity)
  refine he.trans (this.trans (le_of_eq ?_))
  norm_num

/-- the entries of the computed grid -/
theorem linspace_near (hM : M.R = binary64.rounding) {s e : ℝ} (hs : 0 ≤ s) (hse : s ≤ e) (he : e ≤ 1) {k : ℕ} (hk : k ≤ 9) :
    ∃ y : ℝ, Model.Rounded.linspaceAt M s e k = .fin y ∧ M.R.rd y = .fin y ∧ |y - (s + k * ((e - s) / 9))| ≤ 1 / 2 ^ 40 := by
  obtain ⟨e', h1, i1, b1⟩ := rd_near hM (x := e) (by rw [abs_le]; constructor <;> linarith)
  obtain ⟨s', h2, i2, b2⟩ := rd_near hM (x := s) (by rw [abs_le]; constructor <;> linarith)
  rw [abs_le] at b1 b2
  unfold Model.Rounded.linspaceAt
  by_cases h9 : k = 9
  · rw [if_pos h9, h1]
    refine ⟨e', rfl, i1, ?_⟩
    rw [h9, abs_le]
    norm_num at b1 b2 ⊢
    constructor <;> linarith
  · rw [if_neg h9, h1, h2]
    obtain ⟨d, h3, -, b3⟩ := rd_near hM (x := e' - s') (by rw [abs_le]; norm_num at b1 b2; constructor <;> linarith)
    rw [abs_le] at b3
    have hk0 : (0 : ℝ) ≤ k := Nat.cast_nonneg k
    have hk9 : (k : ℝ) ≤ 9 := by exact_mod_cast hk
    obtain ⟨t, h4, -, b4⟩ := rd_near hM (x := d / 9) (by rw [abs_le]; norm_num at b1 b2 b3; constructor <;> linarith)
    rw [abs_le] at b4
    have t1 : |t - (e - s) / 9| ≤ 1 / 2 ^ 47 := by
      rw [abs_le]; norm_num at b1 b2 b3 b4 ⊢; constructor <;> linarith
    have p1 : |(k : ℝ) * t - k * ((e - s) / 9)| ≤ 9 * (1 / 2 ^ 47) := by
      rw [← mul_sub, abs_mul, abs_of_nonneg hk0]
      exact mul_le_mul hk9 t1 (abs_nonneg _) (by norm_num)
    rw [abs_le] at p1
    have q0 : 0 ≤ (k : ℝ) * ((e - s) / 9) := mul_nonneg hk0 (by linarith)
    have q1 : (k : ℝ) * ((e - s) / 9) ≤ e - s := by
      have := mul_le_mul_of_nonneg_right hk9 (show 0 ≤ (e - s) / 9 by linarith)
      linarith
    obtain ⟨m, h5, -, b5⟩ := rd_near hM (x := k * t) (by rw [abs_le]; norm_num at p1; constructor <;> linarith)
    rw [abs_le] at b5
    obtain ⟨y, h6, i6, b6⟩ := rd_near hM (x := m + s') (by rw [abs_le]; norm_num at b1 b2 p1 b5; constructor <;> linarith)
    rw [abs_le] at b6
    refine ⟨y, ?_, i6, ?_⟩
    · unfold Rounding.add Rounding.mul Rounding.div Rounding.sub
      rw [XR.fin_sub, Rounding.round_fin, h3, XR.fin_div _ (by norm_num), Rounding.round_fin, h4, XR.fin_mul, Rounding.round_fin, h5, XR.fin_add,
        Rounding.round_fin, h6]
    · rw [abs_le]; norm_num at b2 p1 b5 b6 ⊢; constructor <;> linarith

/-- an exact sum of at least one is computed as at least one -/
theorem add_ge_one {a b : ℝ} (h : 1 ≤ a + b) : 1 ≤ M.R.add (.fin a) (.fin b) := by
  unfold Rounding.add
  rw [XR.fin_add, Rounding.round_fin]
  have := M.R.round_mono (x := .fin 1) (y := .fin (a + b)) (XR.fin_le.mpr h)
  rw [Rounding.rep_one] at this
  exact this

theorem add_lt_one (hM : M.R = binary64.rounding) {a b : ℝ} (h0 : 0 ≤ a + b) (h : a + b ≤ 999 / 1000) : ¬ 1 ≤ M.R.add (.fin a) (.fin b) := by
  obtain ⟨y, h1, -, b1⟩ := rd_near hM (x := a + b) (by rw [abs_le]; constructor <;> linarith)
  rw [abs_le] at b1
  unfold Rounding.add
  rw [XR.fin_add, Rounding.round_fin, h1, XR.one_def, XR.fin_le]
  norm_num at b1 ⊢
  linarith

/-- the fold of the grid search over candidates that are skipped or have a finite objective -/
theorem fold_ok (obj : XR × XR → Except PyErr XR) : ∀ (l : List (XR × XR)) (best : XR × XR),
    (∀ p ∈ l, 1 ≤ M.R.add p.1 p.2 ∨ ∃ v : ℝ, obj p = .ok (.fin v)) →
    ∃ q, l.foldlM (fun best p => if 1 ≤ M.R.add p.1 p.2 then (.ok best : Except PyErr (XR × XR)) else do
      let v ← obj p
      return if .ninf < -v then p else best) best = .ok q
  | [], best, _ => ⟨best, rfl⟩
  | p :: l, best, h => by
    rw [List.foldlM_cons]
    by_cases hp : 1 ≤ M.R.add p.1 p.2
    · rw [if_pos hp]
      exact fold_ok obj l best fun q hq => h q (List.mem_cons_of_mem _ hq)
    · rcases h p List.mem_cons_self with h' | ⟨v, hv⟩
      · exact absurd h' hp
      · rw [if_neg hp, hv]
        exact fold_ok obj l _ fun q hq => h q (List.mem_cons_of_mem _ hq)

theorem fold_skip (obj : XR × XR → Except PyErr XR) : ∀ (l : List (XR × XR)) (best : XR × XR), (∀ p ∈ l, 1 ≤ M.R.add p.1 p.2) →
    l.foldlM (fun best p => if 1 ≤ M.R.add p.1 p.2 then (.ok best : Except PyErr (XR × XR)) else do
      let v ← obj p
      return if .ninf < -v then p else best) best = .ok best
  | [], _, _ => rfl
  | p :: l, best, h => by
    rw [List.foldlM_cons, if_pos (h p List.mem_cons_self)]
    exact fold_skip obj l best fun q hq => h q (List.mem_cons_of_mem _ hq)

/-- the weights of a candidate that is not skipped: `1 - a - b` is computed as a number above `1/2000` -/
theorem weights (hM : M.R = binary64.rounding) {a b : ℝ} {k j : ℕ} (ha : |a - (1 / 100 + k * ((1 / 2 - 1 / 100) / 9))| ≤ 1 / 2 ^ 40)
    (hb : |b - (6 / 10 + j * ((95 / 100 - 6 / 10) / 9))| ≤ 1 / 2 ^ 40) (h : ¬ 1 ≤ M.R.add (.fin a) (.fin b)) :
    0 ≤ a ∧ 0 ≤ b ∧ a + b ≤ 999 / 1000 ∧ ∃ c : ℝ, M.R.sub (M.R.sub 1 (.fin a)) (.fin b) = .fin c ∧ 1 / 2 ^ 60 ≤ c := by
  rw [abs_le] at ha hb
  have hk0 : (0 : ℝ) ≤ k := Nat.cast_nonneg k
  have hj0 : (0 : ℝ) ≤ j := Nat.cast_nonneg j
  have hlt : a + b < 1 := not_le.mp fun h1 => h (add_ge_one h1)
  have hint : 7 * k + 5 * j ≤ 50 := by
    by_contra hc
    have : (51 : ℝ) ≤ 7 * k + 5 * j := by exact_mod_cast (by omega : 51 ≤ 7 * k + 5 * j)
    norm_num at ha hb
    linarith
  have hint' : 7 * (k : ℝ) + 5 * j ≤ 50 := by exact_mod_cast hint
  have a0 : 0 ≤ a := by norm_num at ha; linarith
  have b0 : 0 ≤ b := by norm_num at hb; linarith
  have hab : a + b ≤ 999 / 1000 := by norm_num at ha hb; linarith
  obtain ⟨c1, e1, -, b1⟩ := rd_near hM (x := 1 - a) (by rw [abs_le]; constructor <;> linarith)
  rw [abs_le] at b1
  obtain ⟨c, e2, -, b2⟩ := rd_near hM (x := c1 - b) (by rw [abs_le]; norm_num at b1; constructor <;> linarith)
  rw [abs_le] at b2
  refine ⟨a0, b0, hab, c, ?_, ?_⟩
  · unfold Rounding.sub
    rw [XR.one_def, XR.fin_sub, Rounding.round_fin, e1, XR.fin_sub, Rounding.round_fin, e2]
  · norm_num at b1 b2 ⊢
    linarith

end DccStartFloat

open PrepFloat CorrFloat DccStartFloat

/-- C214. The grid search of `GARCHModel_DCC.starting_values` for any objective that is finite at the weights `a, b ≥ 0` with `a + b ≤ 1` and computed
`1 - a - b` at least `2^-60`: it returns the last candidate that is not skipped, the eighth value of `np.linspace(0.01, 0.5, 10)` and the first of
`np.linspace(0.6, 0.95, 10)` (about 0.391 and 0.6). -/
theorem C214_start (M : Machine) (hM : M.R = binary64.rounding) (obj : XR × XR → Except PyErr XR)
    (hobj : ∀ a b c : ℝ, 0 ≤ a → 0 ≤ b → a + b ≤ 1 → M.R.Rep (.fin a) → M.R.Rep (.fin b) →
      M.R.sub (M.R.sub 1 (.fin a)) (.fin b) = .fin c → 1 / 2 ^ 60 ≤ c → ∃ v : ℝ, obj (.fin a, .fin b) = .ok (.fin v)) :
    ∃ a b c : ℝ, Model.Rounded.dccStart M obj = .ok (.fin a, .fin b) ∧ |a - (1 / 100 + 7 * (49 / 100 / 9))| ≤ 1 / 2 ^ 40 ∧
      |b - 6 / 10| ≤ 1 / 2 ^ 40 ∧ 0 ≤ a ∧ 0 ≤ b ∧ a + b ≤ 1 ∧ M.R.Rep (.fin a) ∧ M.R.Rep (.fin b) ∧
      M.R.sub (M.R.sub 1 (.fin a)) (.fin b) = .fin c ∧ 1 / 2 ^ 60 ≤ c := by
  have na : ∀ k : ℕ, k ≤ 9 → ∃ y : ℝ, Model.Rounded.linspaceAt M (1 / 100) (1 / 2) k = .fin y ∧ M.R.rd y = .fin y ∧
      |y - (1 / 100 + k * ((1 / 2 - 1 / 100) / 9))| ≤ 1 / 2 ^ 40 := fun k hk => linspace_near hM (by norm_num) (by norm_num) (by norm_num) hk
  have nb : ∀ k : ℕ, k ≤ 9 → ∃ y : ℝ, Model.Rounded.linspaceAt M (6 / 10) (95 / 100) k = .fin y ∧ M.R.rd y = .fin y ∧
      |y - (6 / 10 + k * ((95 / 100 - 6 / 10) / 9))| ≤ 1 / 2 ^ 40 := fun k hk => linspace_near hM (by norm_num) (by norm_num) (by norm_num) hk
  have hsplit : Model.Rounded.dccGrid M = ([0, 1, 2, 3, 4, 5, 6].flatMap fun k => (List.range 10).map fun j =>
        (Model.Rounded.linspaceAt M (1 / 100) (1 / 2) k, Model.Rounded.linspaceAt M (6 / 10) (95 / 100) j)) ++
      (Model.Rounded.linspaceAt M (1 / 100) (1 / 2) 7, Model.Rounded.linspaceAt M (6 / 10) (95 / 100) 0) ::
        (([1, 2, 3, 4, 5, 6, 7, 8, 9].map fun j => (Model.Rounded.linspaceAt M (1 / 100) (1 / 2) 7, Model.Rounded.linspaceAt M (6 / 10) (95 / 100) j)) ++
          [8, 9].flatMap fun k => (List.range 10).map fun j =>
            (Model.Rounded.linspaceAt M (1 / 100) (1 / 2) k, Model.Rounded.linspaceAt M (6 / 10) (95 / 100) j)) := rfl
  have hcand : ∀ k j : ℕ, k ≤ 9 → j ≤ 9 →
      1 ≤ M.R.add (Model.Rounded.linspaceAt M (1 / 100) (1 / 2) k) (Model.Rounded.linspaceAt M (6 / 10) (95 / 100) j) ∨
        ∃ v : ℝ, obj (Model.Rounded.linspaceAt M (1 / 100) (1 / 2) k, Model.Rounded.linspaceAt M (6 / 10) (95 / 100) j) = .ok (.fin v) := by
    intro k j hk hj
    obtain ⟨a, ea, ra, ba⟩ := na k hk
    obtain ⟨b, eb, rb, bb⟩ := nb j hj
    rw [ea, eb]
    by_cases h : 1 ≤ M.R.add (.fin a) (.fin b)
    · exact .inl h
    · obtain ⟨a0, b0, hab, c, hc, hc0⟩ := weights hM ba bb h
      exact .inr (hobj a b c a0 b0 (hab.trans (by norm_num)) ra rb hc hc0)
  have hskip : ∀ k j : ℕ, k ≤ 9 → j ≤ 9 → 51 ≤ 7 * k + 5 * j →
      1 ≤ M.R.add (Model.Rounded.linspaceAt M (1 / 100) (1 / 2) k) (Model.Rounded.linspaceAt M (6 / 10) (95 / 100) j) := by
    intro k j hk hj hkj
    obtain ⟨a, ea, ra, ba⟩ := na k hk
    obtain ⟨b, eb, rb, bb⟩ := nb j hj
    rw [ea, eb]
    apply add_ge_one
    have : (51 : ℝ) ≤ 7 * k + 5 * j := by exact_mod_cast hkj
    rw [abs_le] at ba bb
    norm_num at ba bb
    linarith
  obtain ⟨a, ea, ra, ba⟩ := na 7 (by norm_num)
  obtain ⟨b, eb, rb, bb⟩ := nb 0 (by norm_num)
  have ba' : |a - (1 / 100 + 7 * (49 / 100 / 9))| ≤ 1 / 2 ^ 40 := by
    have e : (1 / 100 + ((7 : ℕ) : ℝ) * ((1 / 2 - 1 / 100) / 9) : ℝ) = 1 / 100 + 7 * (49 / 100 / 9) := by norm_num
    rw [e] at ba
    exact ba
  have bb' : |b - 6 / 10| ≤ 1 / 2 ^ 40 := by
    have e : (6 / 10 + ((0 : ℕ) : ℝ) * ((95 / 100 - 6 / 10) / 9) : ℝ) = 6 / 10 := by norm_num
    rw [e] at bb
    exact bb
  have hlt : ¬ 1 ≤ M.R.add (.fin a) (.fin b) := by
    have h1 := abs_le.mp ba'
    have h2 := abs_le.mp bb'
    norm_num at h1 h2
    apply add_lt_one hM <;> linarith
  obtain ⟨a0, b0, hab, c, hc, hc0⟩ := weights hM ba bb hlt
  refine ⟨a, b, c, ?_, ba', bb', a0, b0, hab.trans (by norm_num), ra, rb, hc, hc0⟩
  unfold Model.Rounded.dccStart
  rw [hsplit, List.foldlM_append]
  obtain ⟨q, hq⟩ := fold_ok (M := M) obj ([0, 1, 2, 3, 4, 5, 6].flatMap fun k => (List.range 10).map fun j =>
        (Model.Rounded.linspaceAt M (1 / 100) (1 / 2) k, Model.Rounded.linspaceAt M (6 / 10) (95 / 100) j)) (M.R.rd (1 / 100), M.R.rd (8 / 10)) (by
    intro p hp
    obtain ⟨k, hk, hp⟩ := List.mem_flatMap.mp hp
    obtain ⟨j, hj, rfl⟩ := List.mem_map.mp hp
    have : k ≤ 9 := by simp at hk; omega
    have : j ≤ 9 := by have := List.mem_range.mp hj; omega
    exact hcand k j ‹_› ‹_›)
  rw [hq]
  simp only [bind, Except.bind, List.foldlM_cons]
  rw [ea, eb, if_neg hlt]
  obtain ⟨v, hv⟩ := hobj a b c a0 b0 (hab.trans (by norm_num)) ra rb hc hc0
  rw [hv]
  simp only [pure, Except.pure]
  rw [if_pos (show XR.ninf < -XR.fin v from trivial)]
  refine fold_skip (M := M) obj _ _ ?_
  intro p hp
  rcases List.mem_append.mp hp with hp | hp
  · obtain ⟨j, hj, rfl⟩ := List.mem_map.mp hp
    rw [← ea]
    refine hskip 7 j (by norm_num) ?_ ?_ <;> (simp at hj; omega)
  · obtain ⟨k, hk, hp⟩ := List.mem_flatMap.mp hp
    obtain ⟨j, hj, rfl⟩ := List.mem_map.mp hp
    have := List.mem_range.mp hj
    refine hskip k j ?_ (by omega) ?_ <;> (simp at hk; omega)

theorem DccStartFloat.data_two {M : Machine} {x : List ℝ} (h : Data M x) : 2 ≤ x.length := by
  rcases x with _ | ⟨a, _ | ⟨b, x⟩⟩
  · exact absurd rfl h.ne
  · have := h.var
    simp [PrepFloat.var] at this
    norm_num at this
  · simp

/-- C214. The objective that `GARCHModel_DCC` passes to the optimiser, long-run matrix included. For univariate models estimated in range the
standardised residuals are finite; if each series has two of them at least `2^-80` apart (Python kernel) or mean squares at least `2^-60` (C++ kernel),
the objective is finite at every pair of weights `a, b ≥ 0` with `a + b ≤ 1` and computed `1 - a - b` at least `2^-60`. -/
theorem C214_objective (M : Machine) (hM : M.R = binary64.rounding) (hlog : LogRange M)
    (hlog5 : ∀ w : ℝ, 1 / 100 ≤ w → w ≤ 1 → ∃ l, M.log (.fin w) = .fin l ∧ |l| ≤ 5)
    (pw : ℕ → XR) (hpw : Decay M pw) (i : ℕ) (cpp zeroMean1 zeroMean2 : Bool) (x1 x2 : List ℝ) (h1 : Data M x1) (h2 : Data M x2)
    (hlen : x1.length = x2.length) (f1 f2 : Model.Rounded.FittedUni) (hf1 : Fitted M f1) (hf2 : Fitted M f2) :
    ∃ z1 z2 : List ℝ, Model.Rounded.uniStd M pw i cpp zeroMean1 (x1.map .fin) f1 = .ok (z1.map .fin) ∧
      Model.Rounded.uniStd M pw i cpp zeroMean2 (x2.map .fin) f2 = .ok (z2.map .fin) ∧ z1.length = x1.length ∧ z2.length = x2.length ∧
      ((cpp = false → Spread z1 ∧ Spread z2) →
        (cpp = true → (z1.length : ℝ) * (1 / 2 ^ 60) ≤ (z1.map fun v => v ^ 2).sum ∧ (z2.length : ℝ) * (1 / 2 ^ 60) ≤ (z2.map fun v => v ^ 2).sum) →
        ∀ (a b c : ℝ), 0 ≤ a → 0 ≤ b → a + b ≤ 1 → M.R.Rep (.fin a) → M.R.Rep (.fin b) →
          M.R.sub (M.R.sub 1 (.fin a)) (.fin b) = .fin c → 1 / 2 ^ 60 ≤ c →
          ∃ v : ℝ, Model.Rounded.dccLoglik M pw i cpp zeroMean1 zeroMean2 (x1.map .fin) (x2.map .fin) f1 f2 (.fin a, .fin b) = .ok (.fin v)) := by
  obtain ⟨z1, e1, k1, b1⟩ := PrepFloat.uniStd_fin M hM hlog pw hpw i cpp zeroMean1 x1 h1 f1 hf1
  obtain ⟨z2, e2, k2, b2⟩ := PrepFloat.uniStd_fin M hM hlog pw hpw i cpp zeroMean2 x2 h2 f2 hf2
  obtain ⟨w1, w2, g1, g2, -, -, key⟩ := C211_dcc M hM hlog hlog5 pw hpw i cpp zeroMean1 zeroMean2 x1 x2 h1 h2 hlen f1 f2 hf1 hf2
  have inj : Function.Injective (XR.fin) := fun a b h => XR.fin_inj.mp h
  obtain rfl : w1 = z1 := List.map_injective_iff.mpr inj (Except.ok.inj (g1.symm.trans e1))
  obtain rfl : w2 = z2 := List.map_injective_iff.mpr inj (Except.ok.inj (g2.symm.trans e2))
  refine ⟨w1, w2, e1, e2, k1, k2, fun hs hq => ?_⟩
  have r1 : ∀ v ∈ w1, |v| ≤ 2 ^ 60 ∧ M.R.rd v = .fin v := fun v hv => ⟨b1 v hv, uniStd_rep e1 _ (List.mem_map_of_mem hv)⟩
  have r2 : ∀ v ∈ w2, |v| ≤ 2 ^ 60 ∧ M.R.rd v = .fin v := fun v hv => ⟨b2 v hv, uniStd_rep e2 _ (List.mem_map_of_mem hv)⟩
  have t1 := data_two h1
  have t2 := data_two h2
  have l1 := h1.len
  have l2 := h2.len
  obtain ⟨dx, ex, lx, bx, kx⟩ := centred_bd hM i w1 (by intro h; rw [h] at k1; simp at k1; omega) (by omega) r1
  obtain ⟨dy, ey, ly, by', ky⟩ := centred_bd hM (i + 1) w2 (by intro h; rw [h] at k2; simp at k2; omega) (by omega) r2
  obtain ⟨c11, e11, b11, p11⟩ := entry_bd hM (i + 2) dx dx (by omega) (by omega) bx bx
  obtain ⟨c22, e22, b22, p22⟩ := entry_bd hM (i + 3) dy dy (by omega) (by omega) by' by'
  obtain ⟨c12, e12, b12, -⟩ := entry_bd hM (i + 4) dx dy (by omega) (by omega) bx by'
  intro a b c ha hb hab ra rb hcd hc
  obtain ⟨v, hv⟩ := key c11 c22 c12 a b c ha hb hab ra rb hcd hc
    (fun h => ⟨⟨p11 rfl (kx (hs h).1), (le_abs_self _).trans b11⟩, p22 rfl (ky (hs h).2), (le_abs_self _).trans b22⟩) hq
  refine ⟨v, ?_⟩
  unfold Model.Rounded.dccLoglik
  simp only [bind, Except.bind, e1, e2]
  have hcov : Model.Rounded.npCov M i (w1.map .fin) (w2.map .fin) = ⟨.fin c11, .fin c22, .fin c12⟩ := by
    unfold Model.Rounded.npCov
    simp only [ex, ey, e11, e22, e12]
  rw [hcov, hv]

/-- C214. The correlation step of `GARCHModel_DCC.fit` after the univariate models have been estimated in range, with residuals as in
`C214_objective`. The starting weights are those of `C214_start` and the objective is finite there; on failure of the optimiser nothing is stored; on
success at weights in range with the value of the objective there the stored log-likelihood is finite, minus the objective there, and at least that
of the start if the optimiser does not report a larger value. -/
theorem C214_fit (M : Machine) (hM : M.R = binary64.rounding) (hlog : LogRange M)
    (hlog5 : ∀ w : ℝ, 1 / 100 ≤ w → w ≤ 1 → ∃ l, M.log (.fin w) = .fin l ∧ |l| ≤ 5)
    (pw : ℕ → XR) (hpw : Decay M pw) (i : ℕ) (cpp zeroMean1 zeroMean2 : Bool) (x1 x2 : List ℝ) (h1 : Data M x1) (h2 : Data M x2)
    (hlen : x1.length = x2.length) (f1 f2 : Model.Rounded.FittedUni) (hf1 : Fitted M f1) (hf2 : Fitted M f2) :
    ∃ z1 z2 : List ℝ, Model.Rounded.uniStd M pw i cpp zeroMean1 (x1.map .fin) f1 = .ok (z1.map .fin) ∧
      Model.Rounded.uniStd M pw i cpp zeroMean2 (x2.map .fin) f2 = .ok (z2.map .fin) ∧
      ((cpp = false → Spread z1 ∧ Spread z2) →
        (cpp = true → (z1.length : ℝ) * (1 / 2 ^ 60) ≤ (z1.map fun v => v ^ 2).sum ∧ (z2.length : ℝ) * (1 / 2 ^ 60) ≤ (z2.map fun v => v ^ 2).sum) →
        ∃ a b f0 : ℝ, |a - (1 / 100 + 7 * (49 / 100 / 9))| ≤ 1 / 2 ^ 40 ∧ |b - 6 / 10| ≤ 1 / 2 ^ 40 ∧
          Model.Rounded.dccStart M (Model.Rounded.dccLoglik M pw i cpp zeroMean1 zeroMean2 (x1.map .fin) (x2.map .fin) f1 f2) = .ok (.fin a, .fin b) ∧
          Model.Rounded.dccLoglik M pw i cpp zeroMean1 zeroMean2 (x1.map .fin) (x2.map .fin) f1 f2 (.fin a, .fin b) = .ok (.fin f0) ∧
          ∀ (opt : Optimizer (XR × XR)) (run : OptRun (XR × XR)),
            run = opt dccFeas (Model.Rounded.objValue (Model.Rounded.dccLoglik M pw i cpp zeroMean1 zeroMean2 (x1.map .fin) (x2.map .fin) f1 f2))
              (.fin a, .fin b) →
            (run.success = false →
              Model.Rounded.dccFit M pw i cpp zeroMean1 zeroMean2 (x1.map .fin) (x2.map .fin) f1 f2 opt = .ok none) ∧
            (run.success = true →
              run.f = Model.Rounded.objValue (Model.Rounded.dccLoglik M pw i cpp zeroMean1 zeroMean2 (x1.map .fin) (x2.map .fin) f1 f2) run.x →
              (∃ a' b' c' : ℝ, run.x = (.fin a', .fin b') ∧ 0 ≤ a' ∧ 0 ≤ b' ∧ a' + b' ≤ 1 ∧ M.R.Rep (.fin a') ∧ M.R.Rep (.fin b') ∧
                M.R.sub (M.R.sub 1 (.fin a')) (.fin b') = .fin c' ∧ 1 / 2 ^ 60 ≤ c') →
              ∃ f : ℝ, Model.Rounded.dccFit M pw i cpp zeroMean1 zeroMean2 (x1.map .fin) (x2.map .fin) f1 f2 opt = .ok (some (run.x, .fin f)) ∧
                Model.Rounded.dccLoglik M pw i cpp zeroMean1 zeroMean2 (x1.map .fin) (x2.map .fin) f1 f2 run.x = .ok (.fin (-f)) ∧
                (run.f ≤ .fin f0 → -f0 ≤ f))) := by
  obtain ⟨z1, z2, e1, e2, -, -, key⟩ := C214_objective M hM hlog hlog5 pw hpw i cpp zeroMean1 zeroMean2 x1 x2 h1 h2 hlen f1 f2 hf1 hf2
  refine ⟨z1, z2, e1, e2, fun hs hq => ?_⟩
  have hobj := key hs hq
  obtain ⟨a, b, c, es, ba, bb, ha, hb, hab, ra, rb, hc, hc0⟩ := C214_start M hM _ hobj
  obtain ⟨f0, hf0⟩ := hobj a b c ha hb hab ra rb hc hc0
  refine ⟨a, b, f0, ba, bb, es, hf0, ?_⟩
  intro opt run hrun
  have hfit : Model.Rounded.dccFit M pw i cpp zeroMean1 zeroMean2 (x1.map .fin) (x2.map .fin) f1 f2 opt =
      .ok (if run.success then some (run.x, -run.f) else none) := by
    rw [hrun]
    unfold Model.Rounded.dccFit
    rw [es]
    rfl
  refine ⟨fun h => by rw [hfit, h]; rfl, ?_⟩
  rintro h k ⟨a', b', c', hx, qa, qb, qab, sa, sb, qc, qc0⟩
  obtain ⟨f, hf⟩ := hobj a' b' c' qa qb qab sa sb qc qc0
  have hf' : run.f = .fin f := by
    rw [k, hx]
    unfold Model.Rounded.objValue
    rw [hf]
  refine ⟨-f, ?_, by rw [neg_neg, hx]; exact hf, ?_⟩
  · rw [hfit, h, hf', XR.fin_neg]; rfl
  · intro hle
    rw [hf', XR.fin_le] at hle
    linarith

/-- C214. Without rounding the grid is that of the exact model, and the search is the fold of the exact model. -/
theorem C214_exact_grid : Model.Rounded.dccGrid Machine.exact = Model.dccGrid.map fun p => (.fin p.1, .fin p.2) := by
  have hl : ∀ (s e : ℝ) (k : ℕ), Model.Rounded.linspaceAt Machine.exact s e k = .fin (s + k * ((e - s) / 9)) := by
    intro s e k
    have hrd : ∀ x : ℝ, Machine.exact.R.rd x = .fin x := fun x => rfl
    unfold Model.Rounded.linspaceAt
    by_cases h : k = 9
    · rw [if_pos h, hrd, h]
      congr 1
      push_cast
      ring
    · rw [if_neg h, hrd, hrd, (RoundedDcc.exact_ops _ _).2.1, XR.fin_sub, (RoundedDcc.exact_ops _ _).2.2.2, XR.fin_div _ (by norm_num),
        (RoundedDcc.exact_ops _ _).2.2.1, XR.fin_mul, (RoundedDcc.exact_ops _ _).1, XR.fin_add, add_comm]
  unfold Model.Rounded.dccGrid Model.dccGrid aGrid bGrid
  rw [List.map_flatMap, List.flatMap_map]
  congr 1
  funext k
  rw [List.map_map, List.map_map]
  refine List.map_congr_left fun j _ => ?_
  simp only [Function.comp, hl]
  norm_num

theorem DccStartFloat.loop_len (M : Machine) (a b : XR) (qbar : QMat) : ∀ (z : List (XR × XR)) (q : QMat),
    (Model.Rounded.dccLoop M a b qbar q z).length = z.length
  | [], _ => rfl
  | _ :: z, _ => by simp [Model.Rounded.dccLoop, DccStartFloat.loop_len M a b qbar z]

/-- C214. Without rounding the objective is that of the exact model on an object whose univariate models are estimated (fitting them again changes
nothing; `f1`, `f2` describe what they hold). -/
theorem C214_exact_objective {V : Type} (i : ℕ) (cpp zm1 zm2 : Bool) (fitU : GarchObj V → Except PyErr (GarchObj V)) (o : DccObj V)
    (h1 : fitU o.model1 = .ok o.model1) (h2 : fitU o.model2 = .ok o.model2) (x1 x2 : List XR) (f1 f2 : Model.Rounded.FittedUni)
    (l1 : f1.ll = llOf o.model1) (l2 : f2.ll = llOf o.model2)
    (hz1 : Model.Rounded.uniStd Machine.exact (fun k => .fin ((94 / 100 : ℝ) ^ k)) i cpp zm1 x1 f1 = .ok (Model.stdResid o.model1.resids o.model1.sigma2))
    (hz2 : Model.Rounded.uniStd Machine.exact (fun k => .fin ((94 / 100 : ℝ) ^ k)) i cpp zm2 x2 f2 = .ok (Model.stdResid o.model2.resids o.model2.sigma2))
    (hlen : (Model.stdResid o.model1.resids o.model1.sigma2).length = (Model.stdResid o.model2.resids o.model2.sigma2).length)
    (hz : 2 ≤ (Model.stdResid o.model1.resids o.model1.sigma2).length) (p : XR × XR) :
    ∃ v, Model.dccObjective cpp fitU o p = .ok (o, v) ∧
      Model.Rounded.dccLoglik Machine.exact (fun k => .fin ((94 / 100 : ℝ) ^ k)) i cpp zm1 zm2 x1 x2 f1 f2 p = .ok v := by
  have hr : refit fitU o = .ok o := by
    unfold refit
    simp only [bind, Except.bind, pure, Except.pure, h1, h2]
  unfold Model.Rounded.dccLoglik Model.Rounded.dccFitObjective Model.dccObjective condCorr
  simp only [bind, Except.bind, pure, Except.pure, hr, hz1, hz2, l1, l2]
  generalize Model.stdResid o.model1.resids o.model1.sigma2 = z1 at *
  generalize Model.stdResid o.model2.resids o.model2.sigma2 = z2 at *
  have hcov : Model.Rounded.corrcoef Machine.exact (Model.Rounded.npCov Machine.exact i z1 z2) = Model.dccQbar false z1 z2 := by
    unfold Model.dccQbar
    simp only [Bool.false_eq_true, if_false]
    rw [← C213_exact_corr i z1 z1 hz rfl, ← C213_exact_corr i z2 z2 (by omega) rfl, ← C213_exact_corr i z1 z2 hz hlen]
    rfl
  rw [C206_exact cpp (Model.Rounded.npCov Machine.exact i z1 z2) p.1 p.2 z1 z2 hlen (by intro h; rw [h] at hz; simp at hz) (fun _ => hcov)]
  have hk : (Model.Rounded.dccKernel Machine.exact cpp (Model.Rounded.npCov Machine.exact i z1 z2) p.1 p.2 (List.zip z1 z2)).length = z1.length := by
    unfold Model.Rounded.dccKernel
    rw [List.length_cons, DccStartFloat.loop_len, List.length_dropLast, List.length_zip]
    omega
  generalize Model.Rounded.dccKernel Machine.exact cpp (Model.Rounded.npCov Machine.exact i z1 z2) p.1 p.2 (List.zip z1 z2) = rho at *
  simp only [List.length_map, hk, hlen, and_self, not_true, if_false]
  refine ⟨_, rfl, ?_⟩
  congr 1
  unfold Model.Rounded.dccObjective
  have hs : ∀ (i : ℕ) (l : List XR), Machine.exact.sum i l = l.sum := fun _ _ => rfl
  have hrd : ∀ x, Machine.exact.R.round x = x := Machine.exact_round
  have hlg : ∀ x, Machine.exact.log x = XR.log x := fun _ => rfl
  have hsq : ∀ x : XR, XR.sq x = x * x := fun x => rfl
  simp only [hs, hrd, (RoundedDcc.exact_ops _ _).1, List.zipWith_map_right]
  have ht : ∀ u v x, Model.Rounded.dccTerm Machine.exact u v x = Model.dccTerm u v x := by
    intro u v x
    unfold Model.Rounded.dccTerm Model.dccTerm
    simp only [RoundedDcc.exact_ops, hlg, hsq]
  simp only [ht]

/-- C214. So is the search for starting weights. -/
theorem C214_exact_start {V : Type} (i : ℕ) (cpp zm1 zm2 : Bool) (fitU : GarchObj V → Except PyErr (GarchObj V)) (o : DccObj V)
    (h1 : fitU o.model1 = .ok o.model1) (h2 : fitU o.model2 = .ok o.model2) (x1 x2 : List XR) (f1 f2 : Model.Rounded.FittedUni)
    (l1 : f1.ll = llOf o.model1) (l2 : f2.ll = llOf o.model2)
    (hz1 : Model.Rounded.uniStd Machine.exact (fun k => .fin ((94 / 100 : ℝ) ^ k)) i cpp zm1 x1 f1 = .ok (Model.stdResid o.model1.resids o.model1.sigma2))
    (hz2 : Model.Rounded.uniStd Machine.exact (fun k => .fin ((94 / 100 : ℝ) ^ k)) i cpp zm2 x2 f2 = .ok (Model.stdResid o.model2.resids o.model2.sigma2))
    (hlen : (Model.stdResid o.model1.resids o.model1.sigma2).length = (Model.stdResid o.model2.resids o.model2.sigma2).length)
    (hz : 2 ≤ (Model.stdResid o.model1.resids o.model1.sigma2).length) :
    ∃ q : ℝ × ℝ, Model.dccStart cpp fitU o = .ok (o, q) ∧
      Model.Rounded.dccStart Machine.exact
        (Model.Rounded.dccLoglik Machine.exact (fun k => .fin ((94 / 100 : ℝ) ^ k)) i cpp zm1 zm2 x1 x2 f1 f2) = .ok (.fin q.1, .fin q.2) := by
  have hobj := C214_exact_objective i cpp zm1 zm2 fitU o h1 h2 x1 x2 f1 f2 l1 l2 hz1 hz2 hlen hz
  unfold Model.dccStart Model.Rounded.dccStart
  rw [C214_exact_grid]
  have key : ∀ (g : List (ℝ × ℝ)) (best : ℝ × ℝ), ∃ q : ℝ × ℝ,
      g.foldlM (fun (st : DccObj V × (ℝ × ℝ)) p =>
        if 1 ≤ p.1 + p.2 then (.ok st : Except PyErr (DccObj V × (ℝ × ℝ)))
        else do
          let r ← Model.dccObjective cpp fitU st.1 (.fin p.1, .fin p.2)
          let ll := -r.2
          return (r.1, if .ninf < ll then p else st.2)) (o, best) = .ok (o, q) ∧
      (g.map fun p => ((.fin p.1, .fin p.2) : XR × XR)).foldlM (fun best p =>
        if 1 ≤ Machine.exact.R.add p.1 p.2 then (.ok best : Except PyErr (XR × XR))
        else do
          let v ← Model.Rounded.dccLoglik Machine.exact (fun k => .fin ((94 / 100 : ℝ) ^ k)) i cpp zm1 zm2 x1 x2 f1 f2 p
          return if .ninf < -v then p else best) (.fin best.1, .fin best.2) = .ok (.fin q.1, .fin q.2) := by
    intro g
    induction g with
    | nil => exact fun best => ⟨best, rfl, rfl⟩
    | cons p g ih =>
      intro best
      obtain ⟨v, e1, e2⟩ := hobj (.fin p.1, .fin p.2)
      have hadd : (1 ≤ Machine.exact.R.add (.fin p.1) (.fin p.2)) ↔ 1 ≤ p.1 + p.2 := by
        rw [(RoundedDcc.exact_ops _ _).1, XR.fin_add, XR.one_def, XR.fin_le]
      rw [List.map_cons, List.foldlM_cons, List.foldlM_cons]
      by_cases h : 1 ≤ p.1 + p.2
      · rw [if_pos h, if_pos (hadd.mpr h)]
        exact ih best
      · rw [if_neg h, if_neg (fun h' => h (hadd.mp h'))]
        simp only [bind, Except.bind, pure, Except.pure, e1, e2]
        by_cases hv : XR.ninf < -v
        · simp only [if_pos hv]
          exact ih p
        · simp only [if_neg hv]
          exact ih best
  exact key _ _

/-- C214. So is the fit: what a fit of an object whose univariate models are estimated stores as weights and log-likelihood, for every optimiser. -/
theorem C214_exact_fit {V : Type} (i : ℕ) (cpp zm1 zm2 : Bool) (fitU : GarchObj V → Except PyErr (GarchObj V)) (o : DccObj V)
    (ho : o.success = false) (h1 : fitU o.model1 = .ok o.model1) (h2 : fitU o.model2 = .ok o.model2) (x1 x2 : List XR)
    (f1 f2 : Model.Rounded.FittedUni) (l1 : f1.ll = llOf o.model1) (l2 : f2.ll = llOf o.model2)
    (hz1 : Model.Rounded.uniStd Machine.exact (fun k => .fin ((94 / 100 : ℝ) ^ k)) i cpp zm1 x1 f1 = .ok (Model.stdResid o.model1.resids o.model1.sigma2))
    (hz2 : Model.Rounded.uniStd Machine.exact (fun k => .fin ((94 / 100 : ℝ) ^ k)) i cpp zm2 x2 f2 = .ok (Model.stdResid o.model2.resids o.model2.sigma2))
    (hlen : (Model.stdResid o.model1.resids o.model1.sigma2).length = (Model.stdResid o.model2.resids o.model2.sigma2).length)
    (hz : 2 ≤ (Model.stdResid o.model1.resids o.model1.sigma2).length) (opt : Optimizer (XR × XR)) :
    ∃ (o' : DccObj V) (q : DccPars V), Model.dccFit cpp fitU opt o = .ok (o', q) ∧
      Model.Rounded.dccFit Machine.exact (fun k => .fin ((94 / 100 : ℝ) ^ k)) i cpp zm1 zm2 x1 x2 f1 f2 opt =
        .ok (if o'.success then some ((q.a, q.b), q.ll) else none) ∧
      (o'.success = false → q.a = .nan ∧ q.b = .nan ∧ q.ll = .nan) := by
  have hr : refit fitU o = .ok o := by
    unfold refit
    simp only [bind, Except.bind, pure, Except.pure, h1, h2]
  obtain ⟨x0, s1, s2⟩ := C214_exact_start i cpp zm1 zm2 fitU o h1 h2 x1 x2 f1 f2 l1 l2 hz1 hz2 hlen hz
  have hobj : ∀ (q : DccPars V) (p : XR × XR), ∃ v, Model.dccObjective cpp fitU { o with params := q } p = .ok ({ o with params := q }, v) ∧
      Model.Rounded.dccLoglik Machine.exact (fun k => .fin ((94 / 100 : ℝ) ^ k)) i cpp zm1 zm2 x1 x2 f1 f2 p = .ok v := fun q p =>
    C214_exact_objective i cpp zm1 zm2 fitU { o with params := q } h1 h2 x1 x2 f1 f2 l1 l2 hz1 hz2 hlen hz p
  unfold Model.dccFit Model.Rounded.dccFit
  rw [ho]
  simp only [Bool.false_eq_true, if_false, bind, Except.bind, pure, Except.pure, hr, s1, s2]
  obtain ⟨v, e1⟩ := Classical.axiom_of_choice (hobj { p1 := dropLl o.model1.params, p2 := dropLl o.model2.params })
  have hfun : Model.Rounded.objValue (Model.Rounded.dccLoglik Machine.exact (fun k => .fin ((94 / 100 : ℝ) ^ k)) i cpp zm1 zm2 x1 x2 f1 f2) = v := by
    funext p
    unfold Model.Rounded.objValue
    rw [(e1 p).2]
  have htr : ∀ l : List (XR × XR), l.foldlM (fun (o : DccObj V) p => do
      let r ← Model.dccObjective cpp fitU o p
      return r.1) { o with params := { p1 := dropLl o.model1.params, p2 := dropLl o.model2.params } } =
      .ok { o with params := { p1 := dropLl o.model1.params, p2 := dropLl o.model2.params } } := by
    intro l
    induction l with
    | nil => rfl
    | cons p l ih =>
      rw [List.foldlM_cons]
      simp only [(e1 p).1, bind, Except.bind, pure, Except.pure] at ih ⊢
      exact ih
  simp only [bind, Except.bind, pure, Except.pure] at htr
  have e1' := fun p => (e1 p).1
  simp only [e1', hfun, htr]
  generalize opt dccFeas v (.fin x0.1, .fin x0.2) = run
  cases hs : run.success
  · exact ⟨_, _, rfl, by simp [ho], fun _ => ⟨rfl, rfl, rfl⟩⟩
  · exact ⟨_, _, rfl, rfl, fun h => by simp at h⟩

/-- two crossing series in range: the search ends at the eighth `a` and the first `b`, and a failed optimisation stores nothing -/
example (i : ℕ) : ∃ a b : ℝ, |a - (1 / 100 + 7 * (49 / 100 / 9))| ≤ 1 / 2 ^ 40 ∧ |b - 6 / 10| ≤ 1 / 2 ^ 40 ∧
    Model.Rounded.dccStart Machine.ieee (Model.Rounded.dccLoglik Machine.ieee (fun k => Machine.ieee.R.rd ((94 / 100 : ℝ) ^ k)) i false false false
      (([1, -1, 2] : List ℝ).map .fin) (([1, -1, 2] : List ℝ).map .fin)
      ⟨1, 1, ⟨1, .fin (1 / 2), 1⟩, .fin (-7)⟩ ⟨1, 1, ⟨1, .fin (1 / 2), .fin (1 / 2)⟩, .fin (-8)⟩) = .ok (.fin a, .fin b) ∧
    Model.Rounded.dccFit Machine.ieee (fun k => Machine.ieee.R.rd ((94 / 100 : ℝ) ^ k)) i false false false
      (([1, -1, 2] : List ℝ).map .fin) (([1, -1, 2] : List ℝ).map .fin)
      ⟨1, 1, ⟨1, .fin (1 / 2), 1⟩, .fin (-7)⟩ ⟨1, 1, ⟨1, .fin (1 / 2), .fin (1 / 2)⟩, .fin (-8)⟩ (fun _ _ x => ⟨[], false, x, 0⟩) = .ok none := by
  obtain ⟨c1, c2, c3, c4⟩ := PrepFloat.ieee_coef
  have hf1 : PrepFloat.Fitted Machine.ieee ⟨1, 1, ⟨1, .fin (1 / 2), 1⟩, .fin (-7)⟩ :=
    ⟨c4, c4, c3, c2, c1, -7, rfl, by rw [abs_neg, abs_of_pos (by norm_num)]; norm_num⟩
  have hf2 : PrepFloat.Fitted Machine.ieee ⟨1, 1, ⟨1, .fin (1 / 2), .fin (1 / 2)⟩, .fin (-8)⟩ :=
    ⟨c4, c4, c3, c2, c2, -8, rfl, by rw [abs_neg, abs_of_pos (by norm_num)]; norm_num⟩
  obtain ⟨z1, z2, e1, e2, key⟩ := C214_fit Machine.ieee rfl PrepFloat.ieee_range RoundedDcc.ieee_log5 _ PrepFloat.ieee_decay i false false false
    [1, -1, 2] [1, -1, 2] PrepFloat.ieee_data PrepFloat.ieee_data rfl _ _ hf1 hf2
  have sp := fun f (hf : PrepFloat.Fitted Machine.ieee f) (h : f.mu = .fin 1) z hz => C213_spread Machine.ieee rfl PrepFloat.ieee_range _
    PrepFloat.ieee_decay i false [1, -1, 2] PrepFloat.ieee_data f hf 1 h ⟨2, by simp, by norm_num⟩ ⟨-1, by simp, by norm_num⟩ z hz
  obtain ⟨a, b, f0, ba, bb, es, -, r3⟩ := key (fun _ => ⟨sp _ hf1 rfl z1 e1, sp _ hf2 rfl z2 e2⟩) (by simp)
  exact ⟨a, b, ba, bb, es, (r3 (fun _ _ x => ⟨[], false, x, 0⟩) _ rfl).1 rfl⟩

/-- the search with an objective that is zero everywhere -/
example : ∃ a b c : ℝ, Model.Rounded.dccStart Machine.ieee (fun _ => .ok 0) = .ok (.fin a, .fin b) ∧ |a - (1 / 100 + 7 * (49 / 100 / 9))| ≤ 1 / 2 ^ 40 ∧
    |b - 6 / 10| ≤ 1 / 2 ^ 40 ∧ Machine.ieee.R.sub (Machine.ieee.R.sub 1 (.fin a)) (.fin b) = .fin c ∧ 1 / 2 ^ 60 ≤ c := by
  obtain ⟨a, b, c, e, h1, h2, -, -, -, -, -, h3, h4⟩ := C214_start Machine.ieee rfl (fun _ => .ok 0) fun _ _ _ _ _ _ _ _ _ _ => ⟨0, rfl⟩
  exact ⟨a, b, c, e, h1, h2, h3, h4⟩

theorem DccStartFloat.ewma_len (M : Machine) (lam : XR) : ∀ (l : List XR) (v : XR), (Model.Rounded.ewmaLoop M lam v l).length = l.length
  | [], _ => rfl
  | _ :: l, _ => by simp [Model.Rounded.ewmaLoop, DccStartFloat.ewma_len M lam l]

theorem DccStartFloat.var_len (next : XR → XR → XR) (chk : XR → XR × XR → XR) : ∀ (l : List (XR × (XR × XR))) (s : XR),
    (varLoop next chk s l).length = l.length
  | [], _ => rfl
  | _ :: l, _ => by simp [varLoop, DccStartFloat.var_len next chk l]

/-- the residuals of any fitted description, on any non-empty series and any machine -/
theorem DccStartFloat.uniStd_total (M : Machine) (pw : ℕ → XR) (i : ℕ) (cpp zm : Bool) (x : List XR) (hx : x ≠ []) (f : Model.Rounded.FittedUni) :
    ∃ l, Model.Rounded.uniStd M pw i cpp zm x f = .ok l ∧ l.length = x.length := by
  have hm : ∀ (b : Bool) (m : XR), (Model.Rounded.modelResids M b x m).length = x.length := by
    intro b m
    unfold Model.Rounded.modelResids
    split <;> simp
  have hp : (Model.Rounded.prepResids M zm i x).length = x.length := hm _ _
  have he : ∀ (r : List XR) (v lam : XR), r ≠ [] → ∃ l, Model.Rounded.ewma M r v lam = .ok l ∧ l.length = r.length := by
    intro r v lam hr
    obtain ⟨a, t, rfl⟩ := List.exists_cons_of_ne_nil hr
    exact ⟨_, rfl, by simp [DccStartFloat.ewma_len]⟩
  have hb : ∃ b, Model.Rounded.varianceBounds M pw i (Model.Rounded.prepResids M zm i x) = .ok b ∧ b.length = x.length := by
    unfold Model.Rounded.varianceBounds Model.Rounded.boundRows
    obtain ⟨l, hl, hl2⟩ := he (Model.Rounded.prepResids M zm i x) (M.sum (i + 1) (List.zipWith (fun w s => M.R.mul w s)
      ((Model.Rounded.decayWeights pw (min 75 (Model.Rounded.prepResids M zm i x).length)).map fun y => M.R.div y
        (M.sum i (Model.Rounded.decayWeights pw (min 75 (Model.Rounded.prepResids M zm i x).length))))
      (((Model.Rounded.prepResids M zm i x).take (min 75 (Model.Rounded.prepResids M zm i x).length)).map fun r => M.R.mul r r)))
      (M.R.rd (94 / 100)) (by intro h; rw [h] at hp; simp at hp; exact hx (List.length_eq_zero_iff.mp hp.symm))
    simp only [bind, Except.bind, pure, Except.pure, hl]
    exact ⟨_, rfl, by simp [hl2, hp]⟩
  obtain ⟨b, eb, lb⟩ := hb
  unfold Model.Rounded.uniStd Model.Rounded.garchVariance variancePath
  simp only [bind, Except.bind, pure, Except.pure, eb]
  rw [if_neg (by intro h; have := hm zm f.lastMu; rw [h] at this; simp at this; exact hx (List.length_eq_zero_iff.mp this.symm)),
    if_neg (by rw [hm]; omega)]
  refine ⟨_, rfl, ?_⟩
  have h1 : 1 ≤ x.length := List.length_pos_iff.mpr hx
  unfold Model.Rounded.stdResid
  rw [List.length_zipWith, List.length_cons, DccStartFloat.var_len, List.length_zip, List.length_dropLast, List.length_tail, hm, hm, lb]
  omega

theorem DccStartFloat.std_one3 (l : List XR) (h : l.length = 3) : Model.stdResid l [1, 1, 1] = l := by
  have hd : ∀ y : XR, y / XR.sqrt 1 = y := by
    intro y
    rw [XR.one_def, show XR.sqrt (.fin 1) = .fin 1 by simp [XR.sqrt]]
    cases y with
    | fin r => rw [XR.fin_div _ one_ne_zero, div_one]
    | _ => simp [HDiv.hDiv, Div.div, XR.div]
  revert h
  rcases l with (_ | ⟨a, _ | ⟨b, _ | ⟨c, _ | ⟨d, t⟩⟩⟩⟩) <;> intro h <;> simp at h
  simp [Model.stdResid, hd]

/-- C214: an object whose models hold the residuals of three returns (variances one), fitted already: the exact fit and the rounded fit without
rounding agree, whatever the optimiser -/
example (i : ℕ) (cpp : Bool) (opt : Optimizer (XR × XR)) : ∃ (o o' : DccObj GarchVar) (q : DccPars GarchVar),
    o.model1.resids.length = 3 ∧ Model.dccFit cpp (fun m => .ok m) opt o = .ok (o', q) ∧
      Model.Rounded.dccFit Machine.exact (fun k => .fin ((94 / 100 : ℝ) ^ k)) i cpp false false [1, .fin (-1), 2] [3, 1, .fin (-2)]
        ⟨1, 1, ⟨1, .fin (1 / 2), 1⟩, .fin (-7)⟩ ⟨1, 1, ⟨1, .fin (1 / 2), .fin (1 / 2)⟩, .fin (-8)⟩ opt =
        .ok (if o'.success then some ((q.a, q.b), q.ll) else none) := by
  obtain ⟨l1, e1, k1⟩ := DccStartFloat.uniStd_total Machine.exact (fun k => .fin ((94 / 100 : ℝ) ^ k)) i cpp false [1, .fin (-1), 2] (by simp)
    ⟨1, 1, ⟨1, .fin (1 / 2), 1⟩, .fin (-7)⟩
  obtain ⟨l2, e2, k2⟩ := DccStartFloat.uniStd_total Machine.exact (fun k => .fin ((94 / 100 : ℝ) ^ k)) i cpp false [3, 1, .fin (-2)] (by simp)
    ⟨1, 1, ⟨1, .fin (1 / 2), .fin (1 / 2)⟩, .fin (-8)⟩
  have r1 := DccStartFloat.std_one3 l1 (by rw [k1]; rfl)
  have r2 := DccStartFloat.std_one3 l2 (by rw [k2]; rfl)
  obtain ⟨o', q, a1, a2, -⟩ := C214_exact_fit i cpp false false (fun m => .ok m)
    (⟨{ zeroMean := false, returns := [1, .fin (-1), 2], resids := l1, sigma2 := [1, 1, 1], params := some (1, ⟨1, .fin (1 / 2), 1⟩, .fin (-7)) },
      { zeroMean := false, returns := [3, 1, .fin (-2)], resids := l2, sigma2 := [1, 1, 1],
        params := some (1, ⟨1, .fin (1 / 2), .fin (1 / 2)⟩, .fin (-8)) }, false, {}⟩ : DccObj GarchVar)
    rfl rfl rfl [1, .fin (-1), 2] [3, 1, .fin (-2)] ⟨1, 1, ⟨1, .fin (1 / 2), 1⟩, .fin (-7)⟩ ⟨1, 1, ⟨1, .fin (1 / 2), .fin (1 / 2)⟩, .fin (-8)⟩ rfl rfl
    (by rw [e1, r1]) (by rw [e2, r2]) (by rw [r1, r2, k1, k2]; rfl) (by rw [r1, k1]; simp) opt
  exact ⟨_, o', q, by rw [k1]; rfl, a1, a2⟩

/-- C213: likewise for a fresh constant-correlation object -/
example (i : ℕ) (cpp : Bool) (opt : Optimizer CccVec) : ∃ o : CccObj, o.success = false ∧ o.model1.resids.length = 3 ∧
    (Model.cccFit cpp (fun m => .ok m) opt o).map (fun (x : CccObj × Option (CccVec × XR)) => x.2) =
      Model.Rounded.cccFit Machine.exact (fun k => .fin ((94 / 100 : ℝ) ^ k)) i cpp [1, .fin (-1), 2] [3, 1, .fin (-2)]
        ⟨1, 1, ⟨1, .fin (1 / 2), 1⟩, .fin (-7)⟩ ⟨1, 1, ⟨1, .fin (1 / 2), .fin (1 / 2)⟩, .fin (-8)⟩
        ⟨1, .fin (1 / 2), 1⟩ ⟨1, .fin (1 / 2), .fin (1 / 2)⟩ opt := by
  obtain ⟨l1, e1, k1⟩ := DccStartFloat.uniStd_total Machine.exact (fun k => .fin ((94 / 100 : ℝ) ^ k)) i cpp false [1, .fin (-1), 2] (by simp)
    ⟨1, 1, ⟨1, .fin (1 / 2), 1⟩, .fin (-7)⟩
  obtain ⟨l2, e2, k2⟩ := DccStartFloat.uniStd_total Machine.exact (fun k => .fin ((94 / 100 : ℝ) ^ k)) i cpp false [3, 1, .fin (-2)] (by simp)
    ⟨1, 1, ⟨1, .fin (1 / 2), .fin (1 / 2)⟩, .fin (-8)⟩
  have r1 := DccStartFloat.std_one3 l1 (by rw [k1]; rfl)
  have r2 := DccStartFloat.std_one3 l2 (by rw [k2]; rfl)
  refine ⟨⟨{ zeroMean := false, returns := [1, .fin (-1), 2], resids := l1, sigma2 := [1, 1, 1], params := some (1, ⟨1, .fin (1 / 2), 1⟩, .fin (-7)) },
      { zeroMean := false, returns := [3, 1, .fin (-2)], resids := l2, sigma2 := [1, 1, 1],
        params := some (1, ⟨1, .fin (1 / 2), .fin (1 / 2)⟩, .fin (-8)) }, false, none⟩, rfl, by rw [k1]; rfl, ?_⟩
  exact C213_exact_fit i cpp (fun m => .ok m) opt _ rfl rfl _ _ rfl rfl _ _ _ _ _ _ rfl rfl rfl (by simp) (by rw [e1, r1]) (by rw [e2, r2])
    (by rw [r1, k1]; simp)

end
end Frds.Props

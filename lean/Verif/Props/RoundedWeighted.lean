import Verif.Props.RoundedError

/-! Accuracy of the dollar-weighted spreads. -/
namespace Frds.Props
noncomputable section
open Frds Frds.Model Classical
set_option linter.unusedSimpArgs false

namespace Rounded

/-- one trade in percent: `2 |x - y| / m * 100` -/
def pctSpread (x y m : ℝ) : ℝ := 2 * |x - y| / m * 100

/-- a trade whose exact values neither underflow nor overflow: `x` against `y`, relative to `m`, dollar volume `v * p` -/
structure TradeOk (R : Rounding) (tiny huge x y m v p : ℝ) : Prop where
  rx : R.Rep (.fin x)
  ry : R.Rep (.fin y)
  m_pos : 0 < m
  v_nonneg : 0 ≤ v
  p_nonneg : 0 ≤ p
  diff : InRange tiny huge (2 * |x - y|)
  ratio : InRange tiny huge (2 * |x - y| / m)
  pct : InRange tiny huge (pctSpread x y m)
  weight : InRange tiny huge (v * p)
  prod : InRange tiny huge (pctSpread x y m * (v * p))

variable {M : Machine} {u tiny huge : ℝ}

theorem abs_sub_close (A : Accurate M.R u tiny huge) (hu1 : u < 1) {x y : ℝ} (rx : M.R.rd x = .fin x)
    (ry : M.R.rd y = .fin y) (hr : |x - y| ≤ huge) :
    ∃ d, XR.abs (M.R.sub (.fin x) (.fin y)) = .fin d ∧ M.R.rd d = .fin d ∧ Close u 1 |x - y| d := by
  rcases le_total y x with h | h
  · rw [abs_of_nonneg (by linarith)] at hr ⊢
    obtain ⟨d, h1, h2, h3⟩ := A.step_sub hu1 rx ry h hr
    refine ⟨d, ?_, h2, h3⟩
    rw [show M.R.sub (.fin x) (.fin y) = .fin d from h1, XR.fin_abs, abs_of_nonneg (h3.nonneg hu1.le)]
  · rw [abs_of_nonpos (by linarith), neg_sub] at hr ⊢
    obtain ⟨d, h1, h2, h3⟩ := A.step_sub hu1 ry rx h hr
    refine ⟨d, ?_, h2, h3⟩
    have e : M.R.sub (.fin x) (.fin y) = .fin (-d) := by
      show M.R.round (.fin x - .fin y) = _
      rw [XR.fin_sub, Rounding.round_fin, ← neg_sub, M.R.neg, h1]
      simp
    rw [e, XR.fin_abs, abs_neg, abs_of_nonneg (h3.nonneg hu1.le)]

theorem inRange_le (h : InRange tiny huge z) (h0 : 0 ≤ huge) : 2 * z ≤ huge := by
  rcases h with rfl | h
  · linarith
  · exact h.2

theorem absPct_close (A : Accurate M.R u tiny huge) (hu : 8 * u ≤ 1) (h0 : 0 ≤ huge) {x y m v p : ℝ}
    (h : TradeOk M.R tiny huge x y m v p) :
    ∃ s, Model.Rounded.absPct M (.fin x) (.fin y) (.fin m) = .fin s ∧ M.R.rd s = .fin s ∧ Close u 4 (pctSpread x y m) s := by
  have hu0 := A.u_nonneg
  have hu1 : u < 1 := by linarith
  have hb := inRange_le h.diff h0
  obtain ⟨d, hd, rd, cd⟩ := abs_sub_close A hu1 h.rx h.ry (by have := abs_nonneg (x - y); linarith)
  obtain ⟨e, he, re, ce⟩ := A.mul hu1 (by push_cast; linarith) (Close.refl (by norm_num : (0 : ℝ) ≤ 2)) cd h.diff
  obtain ⟨f, hf, rf, cf⟩ := A.div hu1 (by push_cast; linarith) ce (Close.refl h.m_pos.le) h.m_pos h.ratio
  obtain ⟨g, hg, rg, cg⟩ := A.mul hu1 (by push_cast; linarith) cf (Close.refl (by norm_num : (0 : ℝ) ≤ 100)) h.pct
  refine ⟨g, ?_, rg, cg⟩
  show M.R.mul (M.R.div (M.R.mul 2 (XR.abs (M.R.sub (.fin x) (.fin y)))) (.fin m)) 100 = _
  rw [hd, show (2 : XR) = .fin 2 from rfl, he, hf, show (100 : XR) = .fin 100 from rfl, hg]

theorem weight_close (A : Accurate M.R u tiny huge) (hu : 8 * u ≤ 1) {x y m v p : ℝ}
    (h : TradeOk M.R tiny huge x y m v p) :
    ∃ w, M.R.mul (.fin v) (.fin p) = .fin w ∧ M.R.rd w = .fin w ∧ Close u 1 (v * p) w :=
  A.mul (by have := A.u_nonneg; linarith) (by push_cast; linarith) (Close.refl h.v_nonneg) (Close.refl h.p_nonneg) h.weight

theorem prod_close (A : Accurate M.R u tiny huge) (hu : 16 * u ≤ 1) (h0 : 0 ≤ huge) {x y m v p : ℝ}
    (h : TradeOk M.R tiny huge x y m v p) :
    ∃ w, M.R.mul (Model.Rounded.absPct M (.fin x) (.fin y) (.fin m)) (M.R.mul (.fin v) (.fin p)) = .fin w ∧
      M.R.rd w = .fin w ∧ Close u 6 (pctSpread x y m * (v * p)) w := by
  have hu0 := A.u_nonneg
  obtain ⟨s, hs, rs, cs⟩ := absPct_close A (by linarith) h0 h
  obtain ⟨w, hw, rw', cw⟩ := weight_close A (by linarith) h
  obtain ⟨z, hz, rz, cz⟩ := A.mul (by linarith) (by push_cast; linarith) cs cw h.prod
  exact ⟨z, by rw [hs, hw, hz], rz, cz⟩

theorem dirNone {x y m : List XR} {dir : TradeDir} (hd : ∀ d, dir ≠ .array d) :
    Model.Rounded.tradeSpreads M x y m dir true =
      List.zipWith (fun (p : XR × XR) m => Model.Rounded.absPct M p.1 p.2 m) (List.zip x y) m := by
  cases dir with
  | array d => exact absurd rfl (hd d)
  | none => rfl
  | list d => rfl

/-- dollar-weighted spread of a list of trades -/
theorem weighted_close (A : Accurate M.R u tiny huge) (l : List Trade) (x y : Trade → ℝ)
    (hu : 2 * ((2 * l.length + 7) * u) ≤ 1) (dir : TradeDir) (hd : ∀ d, dir ≠ .array d)
    (h : ∀ t ∈ l, TradeOk M.R tiny huge (x t) (y t) t.mid t.volume t.price) (hw : ∃ t ∈ l, 0 < t.volume * t.price)
    (hbw : 4 * (l.map fun t => t.volume * t.price).sum ≤ huge)
    (hbp : 4 * (l.map fun t => pctSpread (x t) (y t) t.mid * (t.volume * t.price)).sum ≤ huge)
    (hr : InRange tiny huge ((l.map fun t => pctSpread (x t) (y t) t.mid * (t.volume * t.price)).sum /
      (l.map fun t => t.volume * t.price).sum)) :
    ∃ r, Model.Rounded.dollarWeighted M (Model.Rounded.tradeSpreads M (l.map fun t => .fin (x t)) (l.map fun t => .fin (y t))
        (l.map fun t => .fin t.mid) dir true) (l.map fun t => .fin t.volume) (l.map fun t => .fin t.price) = .ok (.fin r) ∧
      |r - (l.map fun t => pctSpread (x t) (y t) t.mid * (t.volume * t.price)).sum /
          (l.map fun t => t.volume * t.price).sum| ≤
        (2 * l.length + 6) * u / (1 - (2 * l.length + 6) * u) *
          ((l.map fun t => pctSpread (x t) (y t) t.mid * (t.volume * t.price)).sum /
            (l.map fun t => t.volume * t.price).sum) := by
  have hu0 := A.u_nonneg
  have hn1 : 1 ≤ l.length := by
    obtain ⟨t, ht, _⟩ := hw
    exact List.length_pos_of_mem ht
  have hn1' : (1 : ℝ) ≤ l.length := by exact_mod_cast hn1
  have hu16 : 16 * u ≤ 1 := by nlinarith
  have hu1 : u < 1 := by linarith
  set S := l.map fun t => pctSpread (x t) (y t) t.mid * (t.volume * t.price) with hS
  set W := l.map fun t => t.volume * t.price with hW
  have hW0 : ∀ v ∈ W, 0 ≤ v := by
    intro v hv
    obtain ⟨t, ht, rfl⟩ := List.mem_map.mp hv
    exact mul_nonneg (h t ht).v_nonneg (h t ht).p_nonneg
  have hWpos : 0 < W.sum := by
    obtain ⟨t, ht, htp⟩ := hw
    exact htp.trans_le (sum_ge_mem hW0 (List.mem_map.mpr ⟨t, ht, rfl⟩))
  have h0 : 0 ≤ huge := by linarith
  have hsp : Model.Rounded.tradeSpreads M (l.map fun t => .fin (x t)) (l.map fun t => .fin (y t))
      (l.map fun t => .fin t.mid) dir true =
      l.map fun t => Model.Rounded.absPct M (.fin (x t)) (.fin (y t)) (.fin t.mid) := by
    rw [dirNone hd]
    simp only [List.zip_eq_zipWith, List.zipWith_map, List.zipWith_self, List.zipWith_map_left, List.zipWith_map_right]
  rw [hsp]
  set wl := l.map fun t => M.R.mul (.fin t.volume) (.fin t.price) with hwl
  set pl := l.map fun t => M.R.mul (Model.Rounded.absPct M (.fin (x t)) (.fin (y t)) (.fin t.mid))
    (M.R.mul (.fin t.volume) (.fin t.price)) with hpl
  have hwlen : wl.length = l.length := by simp [hwl]
  have hplen : pl.length = l.length := by simp [hpl]
  have fw : List.Forall₂ (fun v r => ∃ y, v = XR.fin y ∧ M.R.rd y = .fin y ∧ Close u 1 r y) wl W := by
    rw [hwl, hW, List.forall₂_map_left_iff, List.forall₂_map_right_iff, List.forall₂_same]
    intro t ht
    exact weight_close A (by linarith) (h t ht)
  have fp : List.Forall₂ (fun v r => ∃ y, v = XR.fin y ∧ M.R.rd y = .fin y ∧ Close u 6 r y) pl S := by
    rw [hpl, hS, List.forall₂_map_left_iff, List.forall₂_map_right_iff, List.forall₂_same]
    intro t ht
    exact prod_close A hu16 h0 (h t ht)
  obtain ⟨w, hw1, rw1, cw⟩ := A.sum_close hu1 (M.sum_ok 1 wl) W fw (by rw [hwlen]; push_cast; nlinarith) hbw
  obtain ⟨p, hp1, rp1, cp⟩ := A.sum_close hu1 (M.sum_ok 2 pl) S fp (by rw [hplen]; push_cast; nlinarith) hbp
  rw [hwlen] at cw
  rw [hplen] at cp
  have hwpos : 0 < w := by
    have h1 := cw.2.1
    have h2 : 0 < (1 - u) ^ (1 + (l.length - 1)) := pow_pos (by linarith) _
    nlinarith
  obtain ⟨r, hr1, rr, cr⟩ := A.div hu1 (by
      have : ((6 + (l.length - 1) + (1 + (l.length - 1)) : ℕ) : ℝ) = 2 * l.length + 5 := by
        have : 6 + (l.length - 1) + (1 + (l.length - 1)) = 2 * l.length + 5 := by omega
        rw [this]; push_cast; ring
      rw [this]; nlinarith) cp cw hWpos hr
  have hk : 6 + (l.length - 1) + (1 + (l.length - 1)) + 1 = 2 * l.length + 6 := by omega
  rw [hk] at cr
  refine ⟨r, ?_, ?_⟩
  · have hb : Np.bcast (fun v p => M.R.mul v p) (l.map fun t => XR.fin t.volume) (l.map fun t => XR.fin t.price) = .ok wl := by
      unfold Np.bcast
      rw [if_pos (by simp), List.zipWith_map, List.zipWith_self]
    simp only [Model.Rounded.dollarWeighted, hb, bind, Except.bind]
    have hnot : ¬ Np.all (fun v => XR.feq v 0) wl := by
      intro hall
      obtain ⟨t, ht, htp⟩ := hw
      obtain ⟨z, hz, _, cz⟩ := weight_close A (by linarith) (h t ht)
      have := hall _ (List.mem_map.mpr ⟨t, ht, rfl⟩)
      rw [hz, XR.zero_def, XR.feq_fin] at this
      have h1 := cz.2.1
      rw [pow_one] at h1
      nlinarith
    rw [if_neg hnot]
    unfold Model.Rounded.average
    rw [if_neg (by simp [hwl]), hw1, if_neg (by rw [XR.zero_def, XR.feq_fin]; exact hwpos.ne')]
    have hz : List.zipWith (fun a b => M.R.mul a b)
        (l.map fun t => Model.Rounded.absPct M (.fin (x t)) (.fin (y t)) (.fin t.mid)) wl = pl := by
      rw [hwl, hpl, List.zipWith_map, List.zipWith_self]
    rw [hz, hp1, hr1]
  · have := cr.error hu0 (by push_cast; nlinarith) hu1
    push_cast at this
    exact this

end Rounded
open Rounded

/-- C164: without trade directions, the computed percentage effective spread of `n` trades is accurate to `2 n + 6` rounding
errors: the exact value is the dollar-weighted mean of `2 |price - midpoint| / midpoint * 100`. -/
theorem C164_effective_accuracy (M : Machine) {u tiny huge : ℝ} (A : Accurate M.R u tiny huge) (l : List Trade)
    (dir : TradeDir) (hd : ∀ d, dir ≠ .array d) (hu : 2 * ((2 * l.length + 7) * u) ≤ 1)
    (h : ∀ t ∈ l, TradeOk M.R tiny huge t.price t.mid t.mid t.volume t.price) (hw : ∃ t ∈ l, 0 < t.volume * t.price)
    (hbw : 4 * (l.map fun t => t.volume * t.price).sum ≤ huge)
    (hbp : 4 * (l.map fun t => pctSpread t.price t.mid t.mid * (t.volume * t.price)).sum ≤ huge)
    (hr : InRange tiny huge ((l.map fun t => pctSpread t.price t.mid t.mid * (t.volume * t.price)).sum /
      (l.map fun t => t.volume * t.price).sum)) :
    ∃ r, Model.Rounded.effectiveSpread M (l.map fun t => .fin t.price) (l.map fun t => .fin t.mid)
        (l.map fun t => .fin t.volume) dir true = .ok (.fin r) ∧
      |r - (l.map fun t => pctSpread t.price t.mid t.mid * (t.volume * t.price)).sum /
          (l.map fun t => t.volume * t.price).sum| ≤
        (2 * l.length + 6) * u / (1 - (2 * l.length + 6) * u) *
          ((l.map fun t => pctSpread t.price t.mid t.mid * (t.volume * t.price)).sum /
            (l.map fun t => t.volume * t.price).sum) := by
  unfold Model.Rounded.effectiveSpread
  rw [if_neg (by simp), if_neg (by simp [dirOk_of hd])]
  exact weighted_close A l Trade.price Trade.mid hu dir hd h hw hbw hbp hr

/-- C164: the computed percentage realized spread -/
theorem C164_realized_accuracy (M : Machine) {u tiny huge : ℝ} (A : Accurate M.R u tiny huge) (l : List Trade)
    (dir : TradeDir) (hd : ∀ d, dir ≠ .array d) (hu : 2 * ((2 * l.length + 7) * u) ≤ 1)
    (h : ∀ t ∈ l, TradeOk M.R tiny huge t.price t.later t.mid t.volume t.price) (hw : ∃ t ∈ l, 0 < t.volume * t.price)
    (hbw : 4 * (l.map fun t => t.volume * t.price).sum ≤ huge)
    (hbp : 4 * (l.map fun t => pctSpread t.price t.later t.mid * (t.volume * t.price)).sum ≤ huge)
    (hr : InRange tiny huge ((l.map fun t => pctSpread t.price t.later t.mid * (t.volume * t.price)).sum /
      (l.map fun t => t.volume * t.price).sum)) :
    ∃ r, Model.Rounded.realizedSpread M (l.map fun t => .fin t.price) (l.map fun t => .fin t.later)
        (l.map fun t => .fin t.mid) (l.map fun t => .fin t.volume) dir true = .ok (.fin r) ∧
      |r - (l.map fun t => pctSpread t.price t.later t.mid * (t.volume * t.price)).sum /
          (l.map fun t => t.volume * t.price).sum| ≤
        (2 * l.length + 6) * u / (1 - (2 * l.length + 6) * u) *
          ((l.map fun t => pctSpread t.price t.later t.mid * (t.volume * t.price)).sum /
            (l.map fun t => t.volume * t.price).sum) := by
  unfold Model.Rounded.realizedSpread
  rw [if_neg (by simp), if_neg (by simp [dirOk_of hd])]
  exact weighted_close A l Trade.price Trade.later hu dir hd h hw hbw hbp hr

/-- C164: the computed percentage price impact -/
theorem C164_impact_accuracy (M : Machine) {u tiny huge : ℝ} (A : Accurate M.R u tiny huge) (l : List Trade)
    (dir : TradeDir) (hd : ∀ d, dir ≠ .array d) (hu : 2 * ((2 * l.length + 7) * u) ≤ 1)
    (h : ∀ t ∈ l, TradeOk M.R tiny huge t.later t.mid t.mid t.volume t.price) (hw : ∃ t ∈ l, 0 < t.volume * t.price)
    (hbw : 4 * (l.map fun t => t.volume * t.price).sum ≤ huge)
    (hbp : 4 * (l.map fun t => pctSpread t.later t.mid t.mid * (t.volume * t.price)).sum ≤ huge)
    (hr : InRange tiny huge ((l.map fun t => pctSpread t.later t.mid t.mid * (t.volume * t.price)).sum /
      (l.map fun t => t.volume * t.price).sum)) :
    ∃ r, Model.Rounded.simplePriceImpact M (l.map fun t => .fin t.price) (l.map fun t => .fin t.later)
        (l.map fun t => .fin t.mid) (l.map fun t => .fin t.volume) dir true = .ok (.fin r) ∧
      |r - (l.map fun t => pctSpread t.later t.mid t.mid * (t.volume * t.price)).sum /
          (l.map fun t => t.volume * t.price).sum| ≤
        (2 * l.length + 6) * u / (1 - (2 * l.length + 6) * u) *
          ((l.map fun t => pctSpread t.later t.mid t.mid * (t.volume * t.price)).sum /
            (l.map fun t => t.volume * t.price).sum) := by
  unfold Model.Rounded.simplePriceImpact
  rw [if_neg (by simp), if_neg (by simp [dirOk_of hd])]
  exact weighted_close A l Trade.later Trade.mid hu dir hd h hw hbw hbp hr

/-- binary64, two trades: the exact effective spread is 10 percent -/
example : ∃ r, Model.Rounded.effectiveSpread Machine.ieee [.fin 21, .fin 19] [.fin 20, .fin 20] [.fin 100, .fin 50] .none
    true = .ok (.fin r) ∧ |r - 10| ≤ 10 * (2 : ℝ) ^ (-53 : ℤ) / (1 - 10 * (2 : ℝ) ^ (-53 : ℤ)) * 10 := by
  have rep : ∀ n : ℕ, n ≤ 1000 → Machine.ieee.R.Rep (.fin (n : ℝ)) := fun n hn =>
    Rounding.rep_nat (R := binary64.rounding) (hn.trans (by norm_num [Format.rounding, binary64]))
  obtain ⟨tiny, huge, A, h1, h2, h3⟩ := acc64 (M := Machine.ieee) rfl
  have hbig : (2 : ℝ) ^ (30 : ℤ) ≤ 2 ^ (1000 : ℤ) := zpow_le_zpow_right₀ (by norm_num) (by norm_num)
  have hsmall : (2 : ℝ) ^ (-950 : ℤ) ≤ 1 := zpow_le_one_of_nonpos₀ (by norm_num) (by norm_num)
  have ht0 := A.tiny_nonneg
  generalize (2 : ℝ) ^ (1000 : ℤ) = B at *
  generalize (2 : ℝ) ^ (-950 : ℤ) = C at *
  norm_num at h2 h3 hbig
  have ht : 2 * tiny ≤ 1 := by linarith
  have hh : 1000000 ≤ huge := by linarith
  have inr : ∀ z : ℝ, 1 ≤ z → z ≤ 500000 → InRange tiny huge z := fun z a b => Or.inr ⟨by linarith, by linarith⟩
  have h20 := rep 20 (by norm_num)
  have h21 := rep 21 (by norm_num)
  have h19 := rep 19 (by norm_num)
  norm_num at h20 h21 h19
  have a1 : |(21 : ℝ) - 20| = 1 := by norm_num
  have a2 : |(19 : ℝ) - 20| = 1 := by norm_num
  have b1 : pctSpread 21 20 20 = 10 := by norm_num [pctSpread]
  have b2 : pctSpread 19 20 20 = 10 := by norm_num [pctSpread]
  have ok1 : TradeOk Machine.ieee.R tiny huge 21 20 20 100 21 := by
    refine ⟨h21, h20, by norm_num, by norm_num, by norm_num, ?_, ?_, ?_, ?_, ?_⟩
    · rw [a1]; exact inr _ (by norm_num) (by norm_num)
    · rw [a1]; exact Or.inr ⟨by linarith, by linarith⟩
    · rw [b1]; exact inr _ (by norm_num) (by norm_num)
    · exact inr _ (by norm_num) (by norm_num)
    · rw [b1]; exact inr _ (by norm_num) (by norm_num)
  have ok2 : TradeOk Machine.ieee.R tiny huge 19 20 20 50 19 := by
    refine ⟨h19, h20, by norm_num, by norm_num, by norm_num, ?_, ?_, ?_, ?_, ?_⟩
    · rw [a2]; exact inr _ (by norm_num) (by norm_num)
    · rw [a2]; exact Or.inr ⟨by linarith, by linarith⟩
    · rw [b2]; exact inr _ (by norm_num) (by norm_num)
    · exact inr _ (by norm_num) (by norm_num)
    · rw [b2]; exact inr _ (by norm_num) (by norm_num)
  have e : (([⟨21, 20, 20, 100⟩, ⟨19, 20, 20, 50⟩] : List Trade).map fun t =>
      pctSpread t.price t.mid t.mid * (t.volume * t.price)).sum /
      (([⟨21, 20, 20, 100⟩, ⟨19, 20, 20, 50⟩] : List Trade).map fun t => t.volume * t.price).sum = 10 := by
    norm_num [b1, b2]
  obtain ⟨r, hr1, hr2⟩ := C164_effective_accuracy Machine.ieee A [⟨21, 20, 20, 100⟩, ⟨19, 20, 20, 50⟩] .none (by simp)
    (by norm_num) (by
      intro t ht
      simp only [List.mem_cons, List.not_mem_nil, or_false] at ht
      rcases ht with rfl | rfl
      · exact ok1
      · exact ok2) ⟨⟨21, 20, 20, 100⟩, by simp, by norm_num⟩ (by norm_num; linarith) (by norm_num [b1, b2]; linarith)
    (by rw [e]; exact inr _ (by norm_num) (by norm_num))
  rw [e] at hr2
  refine ⟨r, hr1, ?_⟩
  norm_num at hr2 ⊢
  exact hr2

end
end Frds.Props

import Verif.Model.RoundedLik
import Verif.Props.RoundedRisk
import Verif.Props.RoundedError
import Verif.Props.RoundedRiskError
import Mathlib.Analysis.Complex.ExponentialBounds
import Mathlib.Analysis.Real.Pi.Bounds

/-! C205: the log-likelihood and the objective of the volatility models in floating point. -/
set_option linter.unusedSimpArgs false
namespace Frds.Props
noncomputable section
open Frds Frds.Model Classical

/-- sums of terms that are at most an integer -/
theorem RoundedLik.sum_le {R : Rounding} {l : List XR} {s : XR} (h : R.IsSum l s) (c : ℕ) (hc : c * l.length ≤ 2 ^ R.prec)
    (hl : ∀ x ∈ l, x ≤ .fin c) : s ≤ .fin ((c * l.length : ℕ)) := by
  induction h with
  | nil => simp [XR.fin_le]
  | single x => simpa using hl x (by simp)
  | @add l₁ l₂ s₁ s₂ _ _ h1 h2 =>
    rw [List.length_append, mul_add] at hc ⊢
    have a1 := h1 (by omega) fun x hx => hl x (by simp [hx])
    have a2 := h2 (by omega) fun x hx => hl x (by simp [hx])
    apply Rounding.round_le (Rounding.rep_nat hc)
    push_cast at a1 a2 ⊢
    rcases s₁ with _ | _ | _ | x <;> rcases s₂ with _ | _ | _ | y <;>
      first | exact a1.elim | exact a2.elim | trivial | skip
    rw [XR.fin_add]
    exact XR.fin_le.mpr (add_le_add (XR.fin_le.mp a1) (XR.fin_le.mp a2))
  | perm hp _ ih =>
    rw [← hp.length_eq] at hc ⊢
    exact ih hc fun x hx => hl x (hp.mem_iff.mp hx)

/-- sums that are at least minus an integer -/
theorem RoundedLik.add_ge {R : Rounding} {c : ℕ} (hc : c ≤ 2 ^ R.prec) {x y : XR} (hx : .fin (-(c : ℝ)) ≤ x) (hy : 0 ≤ y) :
    .fin (-(c : ℝ)) ≤ R.add x y := by
  apply Rounding.le_round (Rounding.neg_rep (Rounding.rep_nat hc))
  rcases x with _ | _ | _ | x <;> rcases y with _ | _ | _ | y <;> first | exact hx.elim | exact hy.elim | trivial | skip
  rw [XR.fin_add]
  exact XR.fin_le.mpr (by have := XR.fin_le.mp hx; have := XR.nonneg_fin.mp hy; linarith)

/-- one observation -/
theorem RoundedLik.term_le (M : Machine) (c : ℕ) (hc : c ≤ 2 ^ M.R.prec) (lp : ℝ)
    (hlp : Model.Rounded.log2pi M = .fin lp) (lp0 : 0 ≤ lp) (r : ℝ) (hr : ∃ y, M.R.mul (.fin r) (.fin r) = .fin y) (s : XR) (hs : 0 < s)
    (hlog : .fin (-(c : ℝ)) ≤ M.log s) : Model.Rounded.likTerm M (.fin r) s ≤ .fin c := by
  obtain ⟨y, hy⟩ := hr
  have y0 : 0 ≤ y := by
    have := Rounded.square_nonneg (R := M.R) r
    rw [hy] at this
    exact XR.nonneg_fin.mp this
  have hq : 0 ≤ M.R.div (M.R.mul (.fin r) (.fin r)) s := by
    rw [hy]
    apply Rounding.round_nonneg
    rcases s with _ | _ | _ | s
    · exact hs.elim
    · exact hs.elim
    · exact XR.fin_le.mpr le_rfl
    · have s0 : 0 < s := XR.fin_lt.mp hs
      rw [XR.fin_div _ s0.ne']
      exact XR.fin_le.mpr (by positivity)
  have h1 : .fin (-(c : ℝ)) ≤ M.R.add (Model.Rounded.log2pi M) (M.log s) := by
    have e : M.R.add (Model.Rounded.log2pi M) (M.log s) = M.R.add (M.log s) (.fin lp) := by
      rw [hlp]; unfold Rounding.add
      congr 1
      rcases M.log s with _ | _ | _ | z <;> first | rfl | skip
      rw [XR.fin_add, XR.fin_add, add_comm]
    rw [e]
    exact RoundedLik.add_ge hc hlog (XR.nonneg_fin.mpr lp0)
  have h2 := RoundedLik.add_ge hc h1 hq
  unfold Model.Rounded.likTerm
  generalize M.R.add (M.R.add (Model.Rounded.log2pi M) (M.log s)) (M.R.div (M.R.mul (.fin r) (.fin r)) s) = z at *
  apply Rounding.round_le (Rounding.rep_nat hc)
  rcases z with _ | _ | _ | z
  · exact h2.elim
  · exact h2.elim
  · show XR.infSign (-(1 / 2)) ≤ _
    rw [XR.infSign_neg (by norm_num)]
    trivial
  · rw [XR.fin_mul]
    refine XR.fin_le.mpr ?_
    have := XR.fin_le.mp h2
    have : (0 : ℝ) ≤ c := Nat.cast_nonneg c
    linarith

/-- C205. The computed log-likelihood of finite residuals (whose squares do not overflow) and positive variances (infinite ones allowed)
is never NaN and never plus infinity, if the machine's logarithms of the variances are at least `-c` (745 for doubles). -/
theorem C205_not_nan (M : Machine) (lp : ℝ)
    (hlp : Model.Rounded.log2pi M = .fin lp) (lp0 : 0 ≤ lp) (i c : ℕ) (resids : List ℝ) (sigma2 : List XR)
    (hn : resids.length ≤ sigma2.length) (hne : resids ≠ []) (hc : c * resids.length ≤ 2 ^ M.R.prec)
    (hr : ∀ r ∈ resids, ∃ y, M.R.mul (.fin r) (.fin r) = .fin y)
    (hs : ∀ s ∈ sigma2, 0 < s ∧ .fin (-(c : ℝ)) ≤ M.log s) :
    Model.Rounded.loglik M i (resids.map .fin) sigma2 ≤ .fin ((c * resids.length : ℕ)) := by
  have hlen : (List.zipWith (Model.Rounded.likTerm M) (resids.map XR.fin) sigma2).length = resids.length := by
    simp [hn]
  have hcp : c ≤ 2 ^ M.R.prec := by
    refine le_trans ?_ hc
    exact Nat.le_mul_of_pos_right _ (List.length_pos_iff.mpr hne)
  have := RoundedLik.sum_le (M.sum_ok i (List.zipWith (Model.Rounded.likTerm M) (resids.map XR.fin) sigma2)) c (by rw [hlen]; exact hc) ?_
  · rw [hlen] at this
    exact this
  intro x hx
  rw [List.zipWith_map_left, ← List.map_uncurry_zip_eq_zipWith] at hx
  obtain ⟨⟨r, s⟩, hm, rfl⟩ := List.mem_map.mp hx
  obtain ⟨hm1, hm2⟩ := List.of_mem_zip hm
  exact RoundedLik.term_le M c hcp lp hlp lp0 r (hr r hm1) s (hs s hm2).1 (hs s hm2).2

/-- C205. The objective of the estimation is never NaN and never minus infinity: with returns that are finite after the mean is
subtracted and whose squares do not overflow, parameters in the admissible range and `omega` and all lower variance bounds at least
`ℓ > 0`, in both models and with both kernels (for the C++ kernel the coefficients are positive). -/
theorem C205_objective (M : Machine) (hlog1 : ∀ x, 1 ≤ x → 0 ≤ M.log x) (lp : ℝ)
    (hlp : Model.Rounded.log2pi M = .fin lp) (lp0 : 0 ≤ lp) (cpp zeroMean : Bool) (returns resids : List ℝ) (mu : ℝ) (hne : returns ≠ [])
    (hres : Model.Rounded.modelResids M zeroMean (returns.map .fin) (.fin mu) = resids.map .fin)
    (hsq : ∀ r ∈ resids, ∃ y, M.R.mul (.fin r) (.fin r) = .fin y) (l : ℝ) (hl : 0 < l) (c : ℕ)
    (hc : c * returns.length ≤ 2 ^ M.R.prec) (hlog : ∀ s, .fin l ≤ s → .fin (-(c : ℝ)) ≤ M.log s)
    (omega alpha gamma beta backcast : ℝ) (ho : l ≤ omega) (ro : M.R.Rep (.fin omega)) (ha : 0 ≤ alpha) (hg : 0 ≤ gamma) (hbe : 0 ≤ beta)
    (hcpp : cpp = true → 0 < alpha ∧ 0 < gamma ∧ 0 < beta) (hbc : 0 < backcast) (bounds : List (XR × XR))
    (hlen : returns.length ≤ bounds.length) (hb : ∀ b ∈ bounds, .fin l ≤ b.1 ∧ b.1 ≤ b.2 ∧ M.R.Rep b.2) :
    (∃ v, Model.Rounded.garchObjective M cpp zeroMean (returns.map .fin) (.fin mu) ⟨.fin omega, .fin alpha, .fin beta⟩ (.fin backcast)
      bounds = .ok v ∧ .fin (-((c * returns.length : ℕ) : ℝ)) ≤ v) ∧
    (∃ v, Model.Rounded.gjrObjective M cpp zeroMean (returns.map .fin) (.fin mu) ⟨.fin omega, .fin alpha, .fin gamma, .fin beta⟩
      (.fin backcast) bounds = .ok v ∧ .fin (-((c * returns.length : ℕ) : ℝ)) ≤ v) := by
  have hl' : resids.length = returns.length := by
    have := congrArg List.length hres
    unfold Model.Rounded.modelResids at this
    split_ifs at this <;> simpa using this.symm
  have hne' : resids ≠ [] := by
    rw [← List.length_pos_iff, hl']; exact List.length_pos_iff.mpr hne
  have hlt : ∀ x : XR, .fin l ≤ x → 0 < x := by
    intro x hx
    rcases x with _ | _ | _ | x
    · exact hx.elim
    · exact hx.elim
    · trivial
    · exact XR.fin_lt.mpr (lt_of_lt_of_le hl (XR.fin_le.mp hx))
  have hrow : ∀ b ∈ bounds, Rounded.RowOk M b := by
    intro b h
    obtain ⟨h1, h2, h3⟩ := hb b h
    exact ⟨XR.le_trans' (XR.fin_le.mpr hl.le) h1, h2, h3⟩
  have total : ∀ (next : XR → XR → XR) (chk : XR → XR × XR → XR) (s0 : XR), ∃ out,
      variancePath next chk s0 (resids.map .fin) bounds = .ok out := by
    intro next chk s0
    unfold variancePath
    rw [if_neg (by simpa using hne'), if_neg (by simp; intro _; omega)]
    exact ⟨_, rfl⟩
  have fin : ∀ out : List XR, out.length = resids.length →
      (∀ t (ht : t + 1 < out.length) (hb : t + 1 < bounds.length), (bounds[t + 1]).1 ≤ out[t + 1]) →
      (∃ s t, out = s :: t ∧ .fin omega ≤ s) →
      .fin (-((c * returns.length : ℕ) : ℝ)) ≤ -Model.Rounded.loglik M 0 (resids.map .fin) out := by
    intro out h1 h2 ⟨s, t, h3, h4⟩
    have hall : ∀ x ∈ out, .fin l ≤ x := by
      intro x hx
      obtain ⟨j, hj, rfl⟩ := List.mem_iff_getElem.mp hx
      rcases j with _ | j
      · subst h3
        exact XR.le_trans' (XR.fin_le.mpr ho) h4
      · have hjb : j + 1 < bounds.length := by omega
        exact XR.le_trans' (hb _ (List.getElem_mem hjb)).1 (h2 j hj hjb)
    have := C205_not_nan M lp hlp lp0 0 c resids out (by omega) hne' (by rw [hl']; exact hc) hsq
      fun s hs => ⟨hlt s (hall s hs), hlog s (hall s hs)⟩
    rw [hl'] at this
    have := XR.neg_le' this
    rwa [XR.fin_neg] at this
  have lower : ∀ out, (Model.Rounded.garchVariance M cpp ⟨.fin omega, .fin alpha, .fin beta⟩ (resids.map .fin) (.fin backcast) bounds
        = .ok out ∨
      Model.Rounded.gjrVariance M cpp ⟨.fin omega, .fin alpha, .fin gamma, .fin beta⟩ (resids.map .fin) (.fin backcast)
        bounds = .ok out) → out.length = resids.length ∧
      ∀ t (ht : t + 1 < out.length) (hb : t + 1 < bounds.length), (bounds[t + 1]).1 ≤ out[t + 1] := by
    intro out h
    cases cpp
    · have := C152_python M hlog1 (resids.map .fin) (.fin backcast) bounds hrow out
        (h.imp (fun h => ⟨_, h⟩) (fun h => ⟨_, h⟩))
      rwa [List.length_map] at this
    · obtain ⟨h1, h2, h3⟩ := hcpp rfl
      exact C152_cpp M hlog1 omega alpha gamma beta (hl.le.trans ho) h1 h2 h3 resids backcast hbc bounds hrow out h
  constructor
  · obtain ⟨out, h⟩ := total (Model.Rounded.garchNext M ⟨.fin omega, .fin alpha, .fin beta⟩) (Model.Rounded.boundsCheck M cpp)
      (M.R.add (.fin omega) (M.R.mul (M.R.add (.fin alpha) (.fin beta)) (.fin backcast)))
    have h' : Model.Rounded.garchVariance M cpp ⟨.fin omega, .fin alpha, .fin beta⟩ (resids.map .fin) (.fin backcast)
      bounds = .ok out := h
    obtain ⟨l1, l2⟩ := lower out (Or.inl h')
    have l3 := C152_first M cpp omega alpha gamma beta backcast (hl.le.trans ho) ro ha hg hbe hbc _ bounds out (Or.inl h')
    refine ⟨_, ?_, fin out l1 l2 l3⟩
    unfold Model.Rounded.garchObjective
    simp only [hres, h', bind, Except.bind, pure, Except.pure]
  · obtain ⟨out, h'⟩ : ∃ out, Model.Rounded.gjrVariance M cpp ⟨.fin omega, .fin alpha, .fin gamma, .fin beta⟩ (resids.map .fin)
        (.fin backcast) bounds = .ok out := total _ _ _
    obtain ⟨l1, l2⟩ := lower out (Or.inr h')
    have l3 := C152_first M cpp omega alpha gamma beta backcast (hl.le.trans ho) ro ha hg hbe hbc _ bounds out (Or.inr h')
    refine ⟨_, ?_, fin out l1 l2 l3⟩
    unfold Model.Rounded.gjrObjective
    simp only [hres, h', bind, Except.bind, pure, Except.pure]

/-- C205. Accuracy: for residuals and positive variances given as finite numbers, logarithms correct to one rounding error and no
over- or underflow, the computed log-likelihood of `n` observations differs from the exact one by at most `n + 4` rounding errors
relative to half the sum of `log 2π + |log s| + r² / s`. -/
theorem C205_accuracy (M : Machine) {u tiny huge : ℝ} (A : Accurate M.R u tiny huge) (i : ℕ) (d : List (ℝ × ℝ)) (hne : d ≠ [])
    (hu : 2 * ((d.length + 5) * u) ≤ 1) (ht : 4 * tiny ≤ 1) (lp : ℝ) (hlp : Model.Rounded.log2pi M = .fin lp)
    (rlp : M.R.Rep (.fin lp)) (elp : |lp - Real.log (2 * Real.pi)| ≤ 2 * u * Real.log (2 * Real.pi))
    (hs : ∀ x ∈ d, 0 < x.2)
    (hlog : ∀ x ∈ d, ∃ y, M.log (.fin x.2) = .fin y ∧ M.R.Rep (.fin y) ∧ |y - Real.log x.2| ≤ u * |Real.log x.2|)
    (hr : ∀ x ∈ d, InRange tiny huge (x.1 ^ 2) ∧ InRange tiny huge (x.1 ^ 2 / x.2))
    (hmax : 4 * (d.map fun x => Real.log (2 * Real.pi) + |Real.log x.2| + x.1 ^ 2 / x.2).sum ≤ huge) :
    ∃ v, Model.Rounded.loglik M i (d.map fun x => .fin x.1) (d.map fun x => .fin x.2) = .fin v ∧
      |v - (d.map fun x => -(1 / 2) * (Real.log (2 * Real.pi) + Real.log x.2 + x.1 ^ 2 / x.2)).sum| ≤
        (d.length + 4) * u / (1 - (d.length + 4) * u) *
          (d.map fun x => 1 / 2 * (Real.log (2 * Real.pi) + |Real.log x.2| + x.1 ^ 2 / x.2)).sum := by
  have hu0 := A.u_nonneg
  have hn1 : 1 ≤ d.length := List.length_pos_iff.mpr hne
  have hn1' : (1 : ℝ) ≤ d.length := by exact_mod_cast hn1
  have hu8 : 12 * u ≤ 1 := by nlinarith
  have hu1 : u < 1 := by linarith
  have h2pi : 0 < Real.log (2 * Real.pi) := Real.log_pos (by have := Real.pi_gt_three; linarith)
  have h2pi' : 1 ≤ Real.log (2 * Real.pi) := by
    rw [Real.le_log_iff_exp_le (by positivity)]
    have := Real.pi_gt_three
    have := Real.exp_one_lt_d9
    linarith
  generalize hL : Real.log (2 * Real.pi) = L at *
  have one : ∀ {x y : ℝ}, |y - x| ≤ u * |x| → Apx u 2 x |x| y := by
    intro x y h
    refine Apx.mono (k := 1) hu0 hu1 ⟨le_rfl, ?_⟩ (by norm_num)
    rw [pow_one]
    have := abs_nonneg (y - x)
    nlinarith
  have alp : Apx u 2 L L lp := by
    refine ⟨by rw [abs_of_pos h2pi], ?_⟩
    have h0 : 0 ≤ (1 - u) ^ 2 := by positivity
    have := mul_le_mul_of_nonneg_right elp h0
    refine this.trans ?_
    have : 2 * u * (1 - u) ^ 2 ≤ 1 - (1 - u) ^ 2 := by nlinarith [mul_nonneg hu0 hu0]
    nlinarith
  have hBn : ∀ v ∈ d.map fun x => L + |Real.log x.2| + x.1 ^ 2 / x.2, 0 ≤ v := by
    intro v hv
    obtain ⟨x, hx, rfl⟩ := List.mem_map.mp hv
    have := hs x hx
    positivity
  set l := d.map fun x => Model.Rounded.likTerm M (.fin x.1) (.fin x.2) with hl
  have hlen : l.length = d.length := by simp [hl]
  set S := d.map fun x => (-(1 / 2) * (L + Real.log x.2 + x.1 ^ 2 / x.2), 1 / 2 * (L + |Real.log x.2| + x.1 ^ 2 / x.2)) with hS
  have hS1 : (S.map Prod.fst).sum = (d.map fun x => -(1 / 2) * (L + Real.log x.2 + x.1 ^ 2 / x.2)).sum := by
    rw [hS, List.map_map]; rfl
  have hS2 : (S.map Prod.snd).sum = (d.map fun x => 1 / 2 * (L + |Real.log x.2| + x.1 ^ 2 / x.2)).sum := by
    rw [hS, List.map_map]; rfl
  have hS3 : (d.map fun x => 1 / 2 * (L + |Real.log x.2| + x.1 ^ 2 / x.2)).sum
      = 1 / 2 * (d.map fun x => L + |Real.log x.2| + x.1 ^ 2 / x.2).sum := List.sum_map_mul_left _ _ _
  have hf : List.Forall₂ (fun v r => ∃ y, v = XR.fin y ∧ M.R.rd y = .fin y ∧ Apx u 5 r.1 r.2 y) l S := by
    rw [hl, hS, List.forall₂_map_left_iff, List.forall₂_map_right_iff, List.forall₂_same]
    intro x hx
    have s0 := hs x hx
    obtain ⟨y, ey, ry, dy⟩ := hlog x hx
    have hle := Rounded.sum_ge_mem hBn (List.mem_map.mpr ⟨x, hx, rfl⟩)
    have hq0 : 0 ≤ x.1 ^ 2 / x.2 := by positivity
    have hl0 := abs_nonneg (Real.log x.2)
    -- the two logarithms
    obtain ⟨a, ea, ra, ca⟩ := A.round_add hu1 (by push_cast; linarith) rlp ry (alp.add (one dy) hu1) (by linarith)
    -- the squared standardised residual
    have c0 : Close u 0 |x.1| |x.1| := Close.refl (abs_nonneg _)
    have hsq : |x.1| * |x.1| = x.1 ^ 2 := by rw [← abs_mul, ← sq, abs_of_nonneg (sq_nonneg _)]
    obtain ⟨q, eq, rq, cq⟩ := A.mul hu1 (by push_cast; linarith) c0 c0 (by rw [hsq]; exact (hr x hx).1)
    have eq' : M.R.mul (.fin x.1) (.fin x.1) = .fin q := by
      rw [← eq]; unfold Rounding.mul
      rw [XR.fin_mul, XR.fin_mul, hsq, sq]
    rw [hsq] at cq
    obtain ⟨w, ew, rw', cw⟩ := A.div hu1 (by push_cast; linarith) cq (Close.refl s0.le) s0 (hr x hx).2
    have aw := (Apx.of_close hu0 hu1 cw).mono (l := 3) hu0 hu1 (by norm_num)
    obtain ⟨z, ez, rz, cz⟩ := A.round_add hu1 (by push_cast; linarith) ra rw' (ca.add aw hu1) (by linarith)
    -- times minus one half
    have ch : Apx u 0 (-(1 / 2) : ℝ) (1 / 2) (-(1 / 2)) := by
      have := Apx.refl (u := u) (x := (-(1 / 2) : ℝ))
      rwa [abs_neg, abs_of_pos (by norm_num)] at this
    have cm := Apx.mul hu0 hu1 ch cz
    obtain ⟨t, et, rt, ct⟩ := A.round hu1 (by push_cast; linarith) cm (by linarith) (by linarith)
    refine ⟨t, ?_, rt, ct.mono hu0 hu1 (by norm_num)⟩
    unfold Model.Rounded.likTerm
    rw [hlp, ey]
    have e1 : M.R.add (.fin lp) (.fin y) = .fin a := by unfold Rounding.add; rw [XR.fin_add]; exact ea
    rw [e1, eq', ew]
    have e2 : M.R.add (.fin a) (.fin w) = .fin z := by unfold Rounding.add; rw [XR.fin_add]; exact ez
    rw [e2]
    unfold Rounding.mul
    rw [XR.fin_mul]
    exact et
  have hB0 : 0 ≤ (d.map fun x => L + |Real.log x.2| + x.1 ^ 2 / x.2).sum := List.sum_nonneg hBn
  obtain ⟨t, ht', rt, ct⟩ := A.sum_apx hu1 (M.sum_ok i l) S hf (by rw [hlen]; push_cast; nlinarith)
    (by rw [hS2, hS3]; linarith)
  refine ⟨t, ?_, ?_⟩
  · unfold Model.Rounded.loglik
    rw [List.zipWith_map, List.zipWith_self, ← hl, ht']
  · rw [hlen, hS1, hS2, show 5 + (d.length - 1) = d.length + 4 by omega] at ct
    have := ct.error (by push_cast; nlinarith) hu1
    push_cast at this
    exact this

/-- the constant in binary64 -/
theorem RoundedLik.ieee_log2pi : ∃ lp, Model.Rounded.log2pi Machine.ieee = .fin lp ∧ Machine.ieee.R.Rep (.fin lp) ∧ 0 ≤ lp ∧
    |lp - Real.log (2 * Real.pi)| ≤ 2 * 2 ^ (-53 : ℤ) * Real.log (2 * Real.pi) := by
  obtain ⟨tiny, huge, A, a1, a2, -⟩ := Rounded.acc64 (M := Machine.ieee) rfl
  have hp3 := Real.pi_gt_three
  have hp4 := Real.pi_lt_four
  have hbig : (16 : ℝ) ≤ huge := by
    refine le_trans ?_ a2
    have : (16 : ℝ) ≤ 2 ^ (20 : ℤ) := by norm_num
    exact this.trans (le_mul_of_one_le_right (by positivity) (one_le_zpow₀ (by norm_num) (by norm_num)))
  have htiny : tiny ≤ 1 := by
    have h0 := A.tiny_nonneg
    have : tiny * 1 ≤ 2 * tiny * 2 ^ (1000 : ℤ) := by
      apply mul_le_mul (by linarith) (one_le_zpow₀ (by norm_num) (by norm_num)) (by norm_num) (by linarith)
    rw [mul_one] at this
    exact (this.trans a1).trans (zpow_le_one_of_nonpos₀ (by norm_num) (by norm_num))
  clear a1 a2
  have hu : (2 : ℝ) ^ (-53 : ℤ) ≤ 1 / 1000 := by norm_num
  have hu0 : (0 : ℝ) < 2 ^ (-53 : ℤ) := by positivity
  generalize (2 : ℝ) ^ (-53 : ℤ) = u at *
  obtain ⟨p, hp⟩ := A.fin Real.pi (by rw [abs_of_pos Real.pi_pos]; linarith)
  have ep := A.err _ _ hp
  rw [abs_of_pos Real.pi_pos, max_eq_left (by linarith)] at ep
  obtain ⟨ep1, ep2⟩ := abs_le.mp ep
  have hup : u * Real.pi ≤ 4 / 1000 := by nlinarith
  have p0 : 2 < p := by linarith
  have h2p : Machine.ieee.R.rd (2 * p) = .fin (2 * p) := by
    rcases Machine.ieee.R.double p (by linarith) (Machine.ieee.R.idem _ _ hp) with h | h
    · exact h
    · obtain ⟨q, hq⟩ := A.fin (2 * p) (by rw [abs_of_pos (by linarith)]; linarith)
      rw [h] at hq; cases hq
  -- the logarithm of the rounded number
  have hL : (11 : ℝ) / 10 ≤ Real.log (2 * Real.pi) := by
    rw [Real.le_log_iff_exp_le (by positivity)]
    have h1 := Real.exp_one_lt_d9
    have h2 : Real.exp (1 / 10 : ℝ) ≤ 1 / (1 - 1 / 10) := by
      have := Real.add_one_le_exp (-(1 / 10) : ℝ)
      rw [Real.exp_neg] at this
      rw [le_div_iff₀ (by norm_num)]
      have h3 := Real.exp_pos (1 / 10 : ℝ)
      have h4 := mul_le_mul_of_nonneg_left this h3.le
      rw [mul_inv_cancel₀ h3.ne'] at h4
      linarith
    have e : Real.exp (11 / 10 : ℝ) = Real.exp 1 * Real.exp (1 / 10) := by rw [← Real.exp_add]; norm_num
    rw [e]
    have := mul_le_mul h1.le h2 (Real.exp_pos _).le (by norm_num)
    refine this.trans ?_
    norm_num
    linarith
  have hd : |Real.log (2 * p) - Real.log (2 * Real.pi)| ≤ 101 / 100 * u := by
    have e : Real.log (2 * p) - Real.log (2 * Real.pi) = Real.log (p / Real.pi) := by
      rw [Real.log_mul (by norm_num) (by linarith), Real.log_mul (by norm_num) Real.pi_ne_zero,
        Real.log_div (by linarith) Real.pi_ne_zero]
      ring
    rw [e, abs_le]
    have q1 : 1 - u ≤ p / Real.pi := by rw [le_div_iff₀ Real.pi_pos]; linarith
    have q2 : p / Real.pi ≤ 1 + u := by rw [div_le_iff₀ Real.pi_pos]; linarith
    have q0 : 0 < p / Real.pi := by positivity
    have l1 := Real.log_le_sub_one_of_pos q0
    have l2 := Real.one_sub_inv_le_log_of_pos q0
    constructor
    · refine le_trans ?_ l2
      have : (p / Real.pi)⁻¹ ≤ 1 + 101 / 100 * u := by
        rw [inv_le_comm₀ q0 (by linarith)]
        refine le_trans ?_ q1
        rw [inv_le_iff_one_le_mul₀ (by linarith)]
        nlinarith
      linarith
    · linarith
  obtain ⟨d1, d2⟩ := abs_le.mp hd
  have hL4 : Real.log (2 * Real.pi) ≤ 7 := by
    have := Real.log_le_sub_one_of_pos (show 0 < 2 * Real.pi by positivity)
    linarith
  have hlp0 : 1 ≤ Real.log (2 * p) := by linarith
  obtain ⟨lp, hlp⟩ := A.fin (Real.log (2 * p)) (by rw [abs_of_pos (by linarith)]; linarith)
  have el := A.err _ _ hlp
  rw [abs_of_pos (show 0 < Real.log (2 * p) by linarith), max_eq_left (show tiny ≤ Real.log (2 * p) by linarith)] at el
  obtain ⟨el1, el2⟩ := abs_le.mp el
  refine ⟨lp, ?_, Machine.ieee.R.idem _ _ hlp, ?_, ?_⟩
  · unfold Model.Rounded.log2pi
    rw [Rounding.round_fin, hp, XR.ofNat_def]
    unfold Rounding.mul
    rw [XR.fin_mul, Rounding.round_fin]
    show Machine.ieee.R.round (XR.log (Machine.ieee.R.rd (2 * p))) = _
    rw [h2p, XR.fin_log (by linarith)]
    exact hlp
  · nlinarith
  · rw [abs_le]
    constructor <;> nlinarith

theorem RoundedLik.exact_loglik (i : ℕ) (r s : List XR) : Model.Rounded.loglik Machine.exact i r s = Model.loglik r s := by
  have hr : ∀ x, Machine.exact.R.round x = x := Machine.exact_round
  have hp : Model.Rounded.log2pi Machine.exact = XR.log (.fin (2 * Real.pi)) := by
    show XR.log (Machine.exact.R.mul 2 (Machine.exact.R.round (.fin Real.pi))) = _
    unfold Rounding.mul
    rw [hr, hr, show (2 : XR) = .fin 2 from rfl, XR.fin_mul]
  have ht : ∀ a b, Model.Rounded.likTerm Machine.exact a b =
      .fin (-(1 / 2)) * (XR.log (.fin (2 * Real.pi)) + XR.log b + XR.sq a / b) := by
    intro a b
    simp only [Model.Rounded.likTerm, Rounding.add, Rounding.mul, Rounding.div, hr, hp]
    rfl
  have he : Model.Rounded.likTerm Machine.exact = fun a b => .fin (-(1 / 2)) * (XR.log (.fin (2 * Real.pi)) + XR.log b + XR.sq a / b) := by
    funext a b
    exact ht a b
  unfold Model.Rounded.loglik Model.loglik
  rw [he]
  rfl

/-- C205. Without rounding the likelihood and the two objectives (their values and their exceptions) are those of the exact model. -/
theorem C205_exact (cpp : Bool) (bc : XR) (vb : List (XR × XR)) :
    (∀ (i : ℕ) (r s : List XR), Model.Rounded.loglik Machine.exact i r s = Model.loglik r s) ∧
    (∀ (o : GarchObj GarchVar) (p : XR × GarchVar),
      Model.Rounded.garchObjective Machine.exact cpp o.zeroMean o.returns p.1 p.2 bc vb =
        (modelPath (garchVariance cpp) o bc vb p).map fun (x : List XR × List XR) => -Model.loglik x.1 x.2) ∧
    (∀ (o : GarchObj GjrVar) (p : XR × GjrVar),
      Model.Rounded.gjrObjective Machine.exact cpp o.zeroMean o.returns p.1 p.2 bc vb =
        (modelPath (gjrVariance cpp) o bc vb p).map fun (x : List XR × List XR) => -Model.loglik x.1 x.2) := by
  have hm : ∀ z r mu, Model.Rounded.modelResids Machine.exact z r mu = if z then r else demean r mu := by
    intro z r mu
    unfold Model.Rounded.modelResids demean
    simp only [Rounding.sub, show ∀ x, Machine.exact.R.round x = x from Machine.exact_round]
  have g1 := fun p r => (C152_exact p ⟨0, 0, 0, 0⟩ r bc 0 0 vb cpp).1
  have g2 := fun p r => (C152_exact ⟨0, 0, 0⟩ p r bc 0 0 vb cpp).2.1
  refine ⟨RoundedLik.exact_loglik, fun o p => ?_, fun o p => ?_⟩
  · unfold Model.Rounded.garchObjective modelPath
    simp only [bind, Except.bind, pure, Except.pure, hm, g1, RoundedLik.exact_loglik]
    rcases garchVariance cpp p.2 (if o.zeroMean = true then o.returns else demean o.returns p.1) bc vb with e | s2 <;> rfl
  · unfold Model.Rounded.gjrObjective modelPath
    simp only [bind, Except.bind, pure, Except.pure, hm, g2, RoundedLik.exact_loglik]
    rcases gjrVariance cpp p.2 (if o.zeroMean = true then o.returns else demean o.returns p.1) bc vb with e | s2 <;> rfl

/-- three returns under a GARCH and a GJR model, both kernels -/
example (cpp : Bool) :
    (∃ v, Model.Rounded.garchObjective Machine.ieee cpp true ([1, -1, 2].map .fin) (.fin 0) ⟨.fin (1 / 2), .fin (1 / 4), .fin (1 / 2)⟩ (.fin 1)
      (List.replicate 3 (.fin (1 / 4), .fin 1024)) = .ok v ∧ .fin (-((20 * 3 : ℕ) : ℝ)) ≤ v) := by
  obtain ⟨lp, h1, -, h2, -⟩ := RoundedLik.ieee_log2pi
  refine (C205_objective Machine.ieee Rounded.ieee_log lp h1 h2 cpp true [1, -1, 2] [1, -1, 2] 0 (by simp) rfl ?_ (1 / 4) (by norm_num) 20 ?_
    ?_ (1 / 2) (1 / 4) (1 / 4) (1 / 2) 1 (by norm_num) Rounded.ieee_half (by norm_num) (by norm_num) (by norm_num)
    (fun _ => by norm_num) (by norm_num) (List.replicate 3 (.fin (1 / 4), .fin 1024)) (by simp) ?_).1
  · intro r hr
    have hnat : ∀ n : ℕ, n ≤ 2 ^ 53 → Machine.ieee.R.rd n = .fin n := fun n hn => Machine.ieee.R.nat n hn
    have h1 := hnat 1 (by norm_num)
    have h4 := hnat 4 (by norm_num)
    push_cast at h1 h4
    unfold Rounding.mul
    rw [XR.fin_mul, Rounding.round_fin]
    simp only [List.mem_cons, List.not_mem_nil, or_false] at hr
    rcases hr with rfl | rfl | rfl
    · rw [one_mul]; exact ⟨1, h1⟩
    · rw [show (-1 : ℝ) * -1 = 1 by norm_num]; exact ⟨1, h1⟩
    · rw [show (2 : ℝ) * 2 = 4 by norm_num]; exact ⟨4, h4⟩
  · show 20 * 3 ≤ 2 ^ 53
    norm_num
  · intro s hs
    have h20 : Machine.ieee.R.Rep (.fin (-((20 : ℕ) : ℝ))) :=
      Rounding.neg_rep (Rounding.rep_nat (show 20 ≤ 2 ^ 53 by norm_num))
    apply Rounding.le_round h20
    rcases s with _ | _ | _ | s
    · exact hs.elim
    · exact hs.elim
    · trivial
    · have h := XR.fin_le.mp hs
      have s0 : 0 < s := by linarith
      rw [XR.fin_log s0]
      refine XR.fin_le.mpr ?_
      have := Real.one_sub_inv_le_log_of_pos s0
      have h4 : s⁻¹ ≤ 4 := by rw [inv_le_comm₀ s0 (by norm_num)]; linarith
      push_cast
      linarith
  · intro b hb
    rw [List.eq_of_mem_replicate hb]
    refine ⟨XR.fin_le.mpr le_rfl, XR.fin_le.mpr (by norm_num), ?_⟩
    have : Machine.ieee.R.rd ((1024 : ℕ) : ℝ) = .fin ((1024 : ℕ) : ℝ) := Machine.ieee.R.nat 1024 (show 1024 ≤ 2 ^ 53 by norm_num)
    push_cast at this
    exact this

/-- two returns, 1 and -2, with variances 2 and 4: the computed log-likelihood is within seven rounding errors -/
example (i : ℕ) : ∃ v, Model.Rounded.loglik Machine.ieee i ([(1, 2), (-2, 4)].map fun x : ℝ × ℝ => .fin x.1)
    ([(1, 2), (-2, 4)].map fun x : ℝ × ℝ => .fin x.2) = .fin v ∧
    |v - ([(1, 2), (-2, 4)].map fun x : ℝ × ℝ => -(1 / 2) * (Real.log (2 * Real.pi) + Real.log x.2 + x.1 ^ 2 / x.2)).sum| ≤
      7 * 2 ^ (-53 : ℤ) * ([(1, 2), (-2, 4)].map fun x : ℝ × ℝ => 1 / 2 * (Real.log (2 * Real.pi) + |Real.log x.2| + x.1 ^ 2 / x.2)).sum := by
  obtain ⟨lp, h1, h2, -, h3⟩ := RoundedLik.ieee_log2pi
  obtain ⟨tiny, huge, A, a1, a2, -⟩ := Rounded.acc64 (M := Machine.ieee) rfl
  have hbig : (1000 : ℝ) ≤ huge := by
    refine le_trans ?_ a2
    have : (1000 : ℝ) ≤ 2 ^ (20 : ℤ) := by norm_num
    exact this.trans (le_mul_of_one_le_right (by positivity) (one_le_zpow₀ (by norm_num) (by norm_num)))
  have htiny : tiny ≤ 1 / 100 := by
    have h0 := A.tiny_nonneg
    have : tiny * 1 ≤ 2 * tiny * 2 ^ (1000 : ℤ) := by
      apply mul_le_mul (by linarith) (one_le_zpow₀ (by norm_num) (by norm_num)) (by norm_num) (by linarith)
    rw [mul_one] at this
    exact (this.trans a1).trans (by norm_num)
  clear a1 a2
  have hl2 := Real.log_two_gt_d9
  have hl2' := Real.log_two_lt_d9
  have hl4 : Real.log 4 = 2 * Real.log 2 := by
    rw [show (4 : ℝ) = 2 ^ 2 by norm_num, Real.log_pow]; norm_num
  have hL4 : Real.log (2 * Real.pi) ≤ 7 := by
    have := Real.log_le_sub_one_of_pos (show 0 < 2 * Real.pi by positivity)
    have := Real.pi_lt_four
    linarith
  have hL0 : 0 ≤ Real.log (2 * Real.pi) := Real.log_nonneg (by have := Real.pi_gt_three; linarith)
  have hlog : ∀ s : ℝ, 1 / 100 ≤ Real.log s → Real.log s ≤ 100 → 0 < s →
      ∃ y, Machine.ieee.log (.fin s) = .fin y ∧ Machine.ieee.R.Rep (.fin y) ∧ |y - Real.log s| ≤ 2 ^ (-53 : ℤ) * |Real.log s| := by
    intro s g1 g2 g3
    obtain ⟨y, hy⟩ := A.fin (Real.log s) (by rw [abs_of_pos (by linarith)]; linarith)
    refine ⟨y, ?_, Machine.ieee.R.idem _ _ hy, ?_⟩
    · show Machine.ieee.R.round (XR.log (.fin s)) = _
      rw [XR.fin_log g3]; exact hy
    · have := A.err _ _ hy
      rwa [max_eq_left (by rw [abs_of_pos (by linarith)]; linarith)] at this
  obtain ⟨v, hv, ev⟩ := C205_accuracy Machine.ieee A i [(1, 2), (-2, 4)] (by simp) (by norm_num) (by linarith) lp h1 h2 h3
    (by intro x hx; simp only [List.mem_cons, List.not_mem_nil, or_false] at hx; rcases hx with rfl | rfl <;> norm_num)
    (by
      intro x hx; simp only [List.mem_cons, List.not_mem_nil, or_false] at hx
      rcases hx with rfl | rfl
      · exact hlog 2 (by linarith) (by linarith) (by norm_num)
      · exact hlog 4 (by rw [hl4]; linarith) (by rw [hl4]; linarith) (by norm_num))
    (by
      intro x hx; simp only [List.mem_cons, List.not_mem_nil, or_false] at hx
      unfold InRange
      rcases hx with rfl | rfl
      · norm_num; exact ⟨⟨by linarith, by linarith⟩, by linarith, by linarith⟩
      · norm_num; exact ⟨⟨by linarith, by linarith⟩, by linarith, by linarith⟩)
    (by
      simp only [List.map_cons, List.map_nil, List.sum_cons, List.sum_nil, hl4]
      rw [abs_of_pos (by linarith), abs_of_pos (by linarith)]
      linarith)
  refine ⟨v, hv, ev.trans ?_⟩
  apply mul_le_mul_of_nonneg_right _ (List.sum_nonneg _)
  · norm_num
  · intro x hx
    simp only [List.map_cons, List.map_nil, List.mem_cons, List.not_mem_nil, or_false] at hx
    rcases hx with rfl | rfl <;> positivity

end
end Frds.Props

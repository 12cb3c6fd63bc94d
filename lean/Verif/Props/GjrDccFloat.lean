import Verif.Model.RoundedGjrDcc
import Verif.Props.DccStartFloat

/-! C215: the correlation step of `GJRGARCHModel_DCC`, in binary64. -/
namespace Frds.Props
noncomputable section
open Frds Frds.Model Classical Rounding
open PrepFloat hiding Fitted
open CorrFloat DccStartFloat

/-- an asymmetric model estimated within the range of C211 -/
structure GjrDccFloat.Fitted (M : Machine) (f : Model.Rounded.FittedGjr) : Prop where
  mu : Mean M f.mu
  lastMu : Mean M f.lastMu
  omega : Omega M f.last.omega
  alpha : Coef M f.last.alpha
  gamma : Coef M f.last.gamma
  beta : Coef M f.last.beta
  ll : ∃ l : ℝ, f.ll = .fin l ∧ |l| ≤ 2 ^ 180

/-- C215. The standardised residuals of an asymmetric univariate model estimated in range are finite, at most `2^60` in magnitude. -/
theorem C215_residuals (M : Machine) (hM : M.R = binary64.rounding) (hlog : LogRange M) (pw : ℕ → XR) (hpw : Decay M pw) (i : ℕ)
    (cpp zeroMean : Bool) (x : List ℝ) (hx : Data M x) (f : Model.Rounded.FittedGjr) (hf : GjrDccFloat.Fitted M f) :
    ∃ z : List ℝ, Model.Rounded.uniStdGjr M pw i cpp zeroMean (x.map .fin) f = .ok (z.map .fin) ∧ z.length = x.length ∧ ∀ v ∈ z, |v| ≤ 2 ^ 60 := by
  obtain ⟨y, ey, ly, hy⟩ := prep_good hM hx zeroMean (i + 2) i
  obtain ⟨v0, e0, v1, v2⟩ := hy.comp
  obtain ⟨rows, er, lr, hr⟩ := rows_ok hM hpw i y hy.ne hy.bd e0 v1 v2
  have hbc := backcast_nn hM hpw i y hy.ne hy.bd
  obtain ⟨z, ez, lz, nz, bz⟩ := cand_bd hM hx hf.lastMu zeroMean
  obtain ⟨s, es, ls, bs⟩ := gjr_path hM hlog cpp hf.omega hf.alpha hf.gamma hf.beta hbc z nz (fun v hv => (bz v hv).trans (by norm_num)) rows (by omega) hr
  obtain ⟨w, ew, lw, -, bw⟩ := cand_bd hM hx hf.mu false
  have key : ∀ (w s : List ℝ), w.length = s.length → (∀ v ∈ w, |v| ≤ 2 ^ 15) → (∀ v ∈ s, 1 / 2 ^ 80 ≤ v ∧ v ≤ 2 ^ 79) →
      ∃ q : List ℝ, Model.Rounded.stdResid M (w.map .fin) (s.map .fin) = q.map .fin ∧ q.length = w.length ∧ ∀ v ∈ q, |v| ≤ 2 ^ 60 := by
    intro w
    induction w with
    | nil => intro s _ _ _; exact ⟨[], rfl, rfl, by simp⟩
    | cons a w ih =>
      intro s hl hw hs
      rcases s with _ | ⟨b, s⟩
      · simp at hl
      obtain ⟨q, k1, k2, k3⟩ := ih s (by simpa using hl) (fun v hv => hw v (by simp [hv])) (fun v hv => hs v (by simp [hv]))
      obtain ⟨y, f1, f2⟩ := PrepFloat.std60 M hM (hw a (by simp)) (hs b (by simp)).1 (hs b (by simp)).2
      refine ⟨y :: q, ?_, by simp [k2], ?_⟩
      · unfold Model.Rounded.stdResid at k1 ⊢
        simp only [List.map_cons, List.zipWith_cons_cons, f1, k1]
      · intro v hv
        rcases List.mem_cons.mp hv with rfl | hv
        · exact f2
        · exact k3 v hv
  obtain ⟨q, k1, k2, k3⟩ := key w s (by omega) bw bs
  refine ⟨q, ?_, by omega, k3⟩
  unfold Model.Rounded.uniStdGjr
  simp only [bind, Except.bind, pure, Except.pure, ey, er, ez, es, ew, k1]

/-- the standardised residuals are numbers of the format -/
theorem GjrDccFloat.uniStd_rep {M : Machine} {pw : ℕ → XR} {i : ℕ} {cpp zeroMean : Bool} {x l : List XR} {f : Model.Rounded.FittedGjr}
    (h : Model.Rounded.uniStdGjr M pw i cpp zeroMean x f = .ok l) : ∀ v ∈ l, M.R.Rep v := by
  unfold Model.Rounded.uniStdGjr at h
  simp only [bind, Except.bind, pure, Except.pure] at h
  split at h
  · cases h
  split at h
  · cases h
  injection h with h
  subst h
  intro v hv
  unfold Model.Rounded.stdResid at hv
  rw [← List.map_uncurry_zip_eq_zipWith] at hv
  obtain ⟨p, -, rfl⟩ := List.mem_map.mp hv
  exact Rounding.rep_round _

/-- C215. The residuals are spread out when the series crosses its fitted mean: one return at least `2^-30` above it and one at least `2^-30` below. -/
theorem C215_spread (M : Machine) (hM : M.R = binary64.rounding) (hlog : LogRange M) (pw : ℕ → XR) (hpw : Decay M pw) (i : ℕ) (cpp : Bool)
    (x : List ℝ) (hx : Data M x) (f : Model.Rounded.FittedGjr) (hf : GjrDccFloat.Fitted M f) (mu : ℝ) (hmu : f.mu = .fin mu)
    (up : ∃ v ∈ x, 1 / 2 ^ 30 ≤ v - mu) (down : ∃ v ∈ x, v - mu ≤ -(1 / 2 ^ 30)) (z : List ℝ)
    (hz : Model.Rounded.uniStdGjr M pw i cpp false (x.map .fin) f = .ok (z.map .fin)) : Spread z := by
  obtain ⟨tiny, huge, A, ht, hh⟩ := RoundedDcc.env M hM
  obtain ⟨y, ey, ly, hy⟩ := prep_good hM hx false (i + 2) i
  obtain ⟨v0, e0, q1, q2⟩ := hy.comp
  obtain ⟨rows, er, lr, hr⟩ := rows_ok hM hpw i y hy.ne hy.bd e0 q1 q2
  have hbc := backcast_nn hM hpw i y hy.ne hy.bd
  obtain ⟨w, ew, lw, nw, bw⟩ := cand_bd hM hx hf.lastMu false
  obtain ⟨s, es, ls, bs⟩ := gjr_path hM hlog cpp hf.omega hf.alpha hf.gamma hf.beta hbc w nw (fun v hv => (bw v hv).trans (by norm_num)) rows (by omega) hr
  have hz' : Model.Rounded.stdResid M (Model.Rounded.modelResids M false (x.map .fin) f.mu) (s.map .fin) = z.map .fin := by
    unfold Model.Rounded.uniStdGjr at hz
    simp only [bind, Except.bind, pure, Except.pure, ey, er, ew, es] at hz
    injection hz
  obtain ⟨mu', e', -, rmu⟩ := hf.mu
  rw [hmu] at e'
  injection e' with e'
  subst e'
  have rmn : M.R.rd (-mu) = .fin (-mu) := by
    have := M.R.neg mu
    rw [show M.R.rd mu = .fin mu from rmu] at this
    simpa using this
  -- the standardised residual of one return
  have key : ∀ (x s z : List ℝ), x.length ≤ s.length → (∀ v ∈ x, |v| ≤ 2 ^ 14 ∧ M.R.Rep (.fin v)) → (∀ v ∈ s, 1 / 2 ^ 80 ≤ v ∧ v ≤ 2 ^ 79) →
      Model.Rounded.stdResid M (Model.Rounded.modelResids M false (x.map .fin) (.fin mu)) (s.map .fin) = z.map .fin →
      ∀ v ∈ x, ∃ r q t : ℝ, ∃ u ∈ z, M.R.rd (v - mu) = .fin r ∧ M.R.rd (Real.sqrt t) = .fin q ∧ 1 / 2 ^ 80 ≤ t ∧ t ≤ 2 ^ 79 ∧
        M.R.div (.fin r) (.fin q) = .fin u := by
    intro x
    induction x with
    | nil => intro s z _ _ _ _ v hv; simp at hv
    | cons a x ih =>
      intro s z hl hx hs he v hv
      rcases s with _ | ⟨b, s⟩
      · simp at hl
      rcases z with _ | ⟨c, z⟩
      · simp [Model.Rounded.stdResid, Model.Rounded.modelResids] at he
      simp only [Model.Rounded.stdResid, Model.Rounded.modelResids, Bool.false_eq_true, if_false, List.map_cons, List.zipWith_cons_cons,
        List.cons.injEq] at he
      rcases List.mem_cons.mp hv with rfl | hv
      · obtain ⟨h1, h2⟩ := hs b (by simp)
        have hb : |v - mu| ≤ 2 ^ 100 := by
          obtain ⟨mu', e1, e2, -⟩ := hf.mu
          rw [hmu] at e1
          injection e1 with e1
          subst e1
          refine (abs_sub v mu).trans ?_
          have := (hx v (by simp)).1
          norm_num at this e2 ⊢
          linarith only [this, e2]
        obtain ⟨r, er⟩ := A.fin (v - mu) (RoundedDcc.hugeGe hh (k := 100) (by norm_num) hb)
        have b0 : 0 ≤ b := le_trans (by positivity) h1
        have q2 : Real.sqrt b ≤ 2 ^ 40 := (Real.sqrt_le_left (by positivity)).mpr (h2.trans (by norm_num))
        obtain ⟨q, eq⟩ := A.fin (Real.sqrt b) (by
          rw [abs_of_nonneg (Real.sqrt_nonneg _)]; exact RoundedDcc.hugeGe hh (k := 40) (by norm_num) q2)
        refine ⟨r, q, b, c, by simp, er, eq, h1, h2, ?_⟩
        rw [← he.1]
        unfold Rounding.sub Rounding.sqrt
        rw [XR.fin_sub, Rounding.round_fin, er, XR.fin_sqrt b0, Rounding.round_fin, eq]
      · obtain ⟨r, q, t, u, hu, g⟩ := ih s z (by simpa using hl) (fun v hv => hx v (by simp [hv])) (fun v hv => hs v (by simp [hv])) (by
          simp only [Model.Rounded.stdResid, Model.Rounded.modelResids, Bool.false_eq_true, if_false]
          exact he.2) v hv
        exact ⟨r, q, t, u, by simp [hu], g⟩
  rw [hmu] at hz'
  have lo : ∀ (r t q u d : ℝ), 1 / 2 ^ 30 ≤ d → M.R.rd d = .fin r → M.R.rd (Real.sqrt t) = .fin q → 1 / 2 ^ 80 ≤ t → t ≤ 2 ^ 79 →
      M.R.div (.fin r) (.fin q) = .fin u → 1 / 2 ^ 80 ≤ u := by
    intro r t q u d hd er eq h1 h2 eu
    have k1 := CorrFloat.rd_low hM er (le_trans (one_div_le_one_div_of_le (by positivity) (pow_le_pow_right₀ (by norm_num) (by norm_num))) hd)
    have s1 : 1 / 2 ^ 40 ≤ Real.sqrt t := Real.le_sqrt_of_sq_le (le_trans (le_of_eq (by norm_num)) h1)
    have k2 := CorrFloat.rd_low hM eq (le_trans (one_div_le_one_div_of_le (by positivity) (pow_le_pow_right₀ (by norm_num) (by norm_num))) s1)
    have q0 : 0 < q := by
      have : (0 : ℝ) < 1 / 2 ^ 40 := by positivity
      linarith only [k2, s1, this]
    have s2 : Real.sqrt t ≤ 2 ^ 40 := (Real.sqrt_le_left (by positivity)).mpr (h2.trans (by norm_num))
    obtain ⟨q', eq', bq⟩ := RoundedDcc.rd_bnd A (by norm_num) (by simpa using RoundedDcc.tinyLe (k := 0) ht (by norm_num) A.tiny_nonneg)
      (x := Real.sqrt t) (K := 2 ^ 40) (by rw [abs_of_nonneg (Real.sqrt_nonneg _)]; exact s2) (by norm_num)
      (RoundedDcc.hugeGe hh (k := 40) (by norm_num) le_rfl)
    rw [eq] at eq'
    injection eq' with eq'
    subst eq'
    rw [abs_of_pos q0] at bq
    have k3 : 1 / 2 ^ 72 ≤ r / q := by
      rw [le_div_iff₀ q0]
      calc 1 / 2 ^ 72 * q ≤ 1 / 2 ^ 72 * (2 * 2 ^ 40) := mul_le_mul_of_nonneg_left bq (by positivity)
        _ = 1 / 2 ^ 30 / 2 := by norm_num
        _ ≤ d / 2 := div_le_div_of_nonneg_right hd (by norm_num)
        _ ≤ r := k1
    unfold Rounding.div at eu
    rw [XR.fin_div _ q0.ne', Rounding.round_fin] at eu
    have k4 := CorrFloat.rd_low hM eu (le_trans (one_div_le_one_div_of_le (by positivity) (pow_le_pow_right₀ (by norm_num) (by norm_num))) k3)
    refine le_trans ?_ k4
    refine le_trans ?_ (div_le_div_of_nonneg_right k3 (by norm_num))
    norm_num
  obtain ⟨v1, m1, d1⟩ := up
  obtain ⟨v2, m2, d2⟩ := down
  obtain ⟨r1, a1, t1, u1, hu1, g1, g2, g3, g4, g5⟩ := key x s z (by omega) hx.bd bs hz' v1 m1
  obtain ⟨r2, a2, t2, u2, hu2, g1', g2', g3', g4', g5'⟩ := key x s z (by omega) hx.bd bs hz' v2 m2
  have l1 := lo _ _ _ _ _ d1 g1 g2 g3 g4 g5
  have n1 := M.R.neg (v2 - mu)
  rw [g1', XR.fin_neg] at n1
  have l2 := lo (-r2) t2 a2 (-u2) (-(v2 - mu)) (by linarith only [d2]) n1 g2' g3' g4' (by
    have hq : a2 ≠ 0 := by
      have s1 : 1 / 2 ^ 40 ≤ Real.sqrt t2 := Real.le_sqrt_of_sq_le (le_trans (le_of_eq (by norm_num)) g3')
      have k2 := CorrFloat.rd_low hM g2' (le_trans (one_div_le_one_div_of_le (by positivity) (pow_le_pow_right₀ (by norm_num) (by norm_num))) s1)
      have : (0 : ℝ) < 1 / 2 ^ 40 := by positivity
      intro h
      rw [h] at k2
      linarith only [k2, s1, this]
    unfold Rounding.div at g5' ⊢
    rw [XR.fin_div _ hq, Rounding.round_fin] at g5' ⊢
    rw [neg_div, M.R.neg, g5', XR.fin_neg])
  refine ⟨u1, hu1, u2, hu2, ?_⟩
  have p : (0 : ℝ) < 1 / 2 ^ 80 := by positivity
  rw [abs_of_nonneg (by linarith only [l1, l2, p])]
  linarith only [l1, l2, p]

/-- C215. The dynamic-correlation model: with two such series and two fitted univariate models in range, the standardised residuals are
finite; if their second moments are not below `2^-60` (for the Python kernel: the variances that `np.cov` computes between `2^-210` and `2^246`),
the objective of the correlation step is a finite number at every candidate `a, b ≥ 0` with `a + b ≤ 1` and computed `1 - a - b ≥ 2^-60`. -/
theorem C215_weights (M : Machine) (hM : M.R = binary64.rounding) (hlog : LogRange M)
    (hlog5 : ∀ w : ℝ, 1 / 100 ≤ w → w ≤ 1 → ∃ l, M.log (.fin w) = .fin l ∧ |l| ≤ 5)
    (pw : ℕ → XR) (hpw : Decay M pw) (i : ℕ) (cpp zeroMean1 zeroMean2 : Bool) (x1 x2 : List ℝ) (h1 : Data M x1) (h2 : Data M x2)
    (hlen : x1.length = x2.length) (f1 f2 : Model.Rounded.FittedGjr) (hf1 : GjrDccFloat.Fitted M f1) (hf2 : GjrDccFloat.Fitted M f2) :
    ∃ z1 z2 : List ℝ, Model.Rounded.uniStdGjr M pw i cpp zeroMean1 (x1.map .fin) f1 = .ok (z1.map .fin) ∧
      Model.Rounded.uniStdGjr M pw i cpp zeroMean2 (x2.map .fin) f2 = .ok (z2.map .fin) ∧ z1.length = x1.length ∧ z2.length = x2.length ∧
      ∀ (c11 c22 c12 a b c : ℝ), 0 ≤ a → 0 ≤ b → a + b ≤ 1 → M.R.Rep (.fin a) → M.R.Rep (.fin b) →
        M.R.sub (M.R.sub 1 (.fin a)) (.fin b) = .fin c → 1 / 2 ^ 60 ≤ c →
        (cpp = false → (1 / 2 ^ 210 ≤ c11 ∧ c11 ≤ 2 ^ 246) ∧ (1 / 2 ^ 210 ≤ c22 ∧ c22 ≤ 2 ^ 246)) →
        (cpp = true → (z1.length : ℝ) * (1 / 2 ^ 60) ≤ (z1.map fun v => v ^ 2).sum ∧ (z2.length : ℝ) * (1 / 2 ^ 60) ≤ (z2.map fun v => v ^ 2).sum) →
        ∃ v : ℝ, Model.Rounded.gjrDccFitObjective M pw i cpp zeroMean1 zeroMean2 ⟨.fin c11, .fin c22, .fin c12⟩ (.fin a) (.fin b)
          (x1.map .fin) (x2.map .fin) f1 f2 = .ok (.fin v) := by
  obtain ⟨z1, e1, k1, b1⟩ := C215_residuals M hM hlog pw hpw i cpp zeroMean1 x1 h1 f1 hf1
  obtain ⟨z2, e2, k2, b2⟩ := C215_residuals M hM hlog pw hpw i cpp zeroMean2 x2 h2 f2 hf2
  refine ⟨z1, z2, e1, e2, k1, k2, ?_⟩
  intro c11 c22 c12 a b c ha hb hab ra rb hcd hc hpy hcpp
  obtain ⟨l1, el1, bl1⟩ := hf1.ll
  obtain ⟨l2, el2, bl2⟩ := hf2.ll
  have hz : List.zip (z1.map XR.fin) (z2.map XR.fin) = (List.zip z1 z2).map fun p => (.fin p.1, .fin p.2) := by
    rw [List.zip_map]; rfl
  have hzl : (List.zip z1 z2).length = x1.length := by rw [List.length_zip]; omega
  have m1 : (List.zip z1 z2).map (fun p => p.1 ^ 2) = z1.map fun v => v ^ 2 := by
    have := List.map_fst_zip (l₁ := z1) (l₂ := z2) (by omega)
    conv_rhs => rw [← this, List.map_map]
    rfl
  have m2 : (List.zip z1 z2).map (fun p => p.2 ^ 2) = z2.map fun v => v ^ 2 := by
    have := List.map_snd_zip (l₁ := z1) (l₂ := z2) (by omega)
    conv_rhs => rw [← this, List.map_map]
    rfl
  obtain ⟨v, hv⟩ := C207_candidates M hM hlog5 (List.zip z1 z2) (by
      intro h
      have := congrArg List.length h
      rw [hzl] at this
      exact h1.ne (List.length_eq_zero_iff.mp this)) (by rw [hzl]; exact h1.len.trans (by norm_num)) (by
      intro p hp
      have := List.of_mem_zip (a := p.1) (b := p.2) hp
      exact ⟨b1 _ this.1, b2 _ this.2⟩) cpp c11 c22 c12 a b c ha hb hab ra rb hcd hc hpy (by
      intro h
      obtain ⟨q1, q2⟩ := hcpp h
      rw [m1, m2, hzl]
      rw [k1] at q1
      rw [k2, ← hlen] at q2
      exact ⟨q1, q2⟩) i l1 l2 bl1 bl2
  refine ⟨v, ?_⟩
  unfold Model.Rounded.gjrDccFitObjective
  simp only [bind, Except.bind, pure, Except.pure, e1, e2, hz, el1, el2, hv]

/-- C215. The objective that `GJRGARCHModel_DCC` passes to the optimiser, long-run matrix included. For univariate models estimated in range the
standardised residuals are finite; if each series has two of them at least `2^-80` apart (Python kernel) or mean squares at least `2^-60` (C++ kernel),
the objective is finite at every pair of weights `a, b ≥ 0` with `a + b ≤ 1` and computed `1 - a - b` at least `2^-60`. -/
theorem C215_objective (M : Machine) (hM : M.R = binary64.rounding) (hlog : LogRange M)
    (hlog5 : ∀ w : ℝ, 1 / 100 ≤ w → w ≤ 1 → ∃ l, M.log (.fin w) = .fin l ∧ |l| ≤ 5)
    (pw : ℕ → XR) (hpw : Decay M pw) (i : ℕ) (cpp zeroMean1 zeroMean2 : Bool) (x1 x2 : List ℝ) (h1 : Data M x1) (h2 : Data M x2)
    (hlen : x1.length = x2.length) (f1 f2 : Model.Rounded.FittedGjr) (hf1 : GjrDccFloat.Fitted M f1) (hf2 : GjrDccFloat.Fitted M f2) :
    ∃ z1 z2 : List ℝ, Model.Rounded.uniStdGjr M pw i cpp zeroMean1 (x1.map .fin) f1 = .ok (z1.map .fin) ∧
      Model.Rounded.uniStdGjr M pw i cpp zeroMean2 (x2.map .fin) f2 = .ok (z2.map .fin) ∧ z1.length = x1.length ∧ z2.length = x2.length ∧
      ((cpp = false → Spread z1 ∧ Spread z2) →
        (cpp = true → (z1.length : ℝ) * (1 / 2 ^ 60) ≤ (z1.map fun v => v ^ 2).sum ∧ (z2.length : ℝ) * (1 / 2 ^ 60) ≤ (z2.map fun v => v ^ 2).sum) →
        ∀ (a b c : ℝ), 0 ≤ a → 0 ≤ b → a + b ≤ 1 → M.R.Rep (.fin a) → M.R.Rep (.fin b) →
          M.R.sub (M.R.sub 1 (.fin a)) (.fin b) = .fin c → 1 / 2 ^ 60 ≤ c →
          ∃ v : ℝ, Model.Rounded.gjrDccLoglik M pw i cpp zeroMean1 zeroMean2 (x1.map .fin) (x2.map .fin) f1 f2 (.fin a, .fin b) = .ok (.fin v)) := by
  obtain ⟨z1, e1, k1, b1⟩ := C215_residuals M hM hlog pw hpw i cpp zeroMean1 x1 h1 f1 hf1
  obtain ⟨z2, e2, k2, b2⟩ := C215_residuals M hM hlog pw hpw i cpp zeroMean2 x2 h2 f2 hf2
  obtain ⟨w1, w2, g1, g2, -, -, key⟩ := C215_weights M hM hlog hlog5 pw hpw i cpp zeroMean1 zeroMean2 x1 x2 h1 h2 hlen f1 f2 hf1 hf2
  have inj : Function.Injective (XR.fin) := fun a b h => XR.fin_inj.mp h
  obtain rfl : w1 = z1 := List.map_injective_iff.mpr inj (Except.ok.inj (g1.symm.trans e1))
  obtain rfl : w2 = z2 := List.map_injective_iff.mpr inj (Except.ok.inj (g2.symm.trans e2))
  refine ⟨w1, w2, e1, e2, k1, k2, fun hs hq => ?_⟩
  have r1 : ∀ v ∈ w1, |v| ≤ 2 ^ 60 ∧ M.R.rd v = .fin v := fun v hv => ⟨b1 v hv, GjrDccFloat.uniStd_rep e1 _ (List.mem_map_of_mem hv)⟩
  have r2 : ∀ v ∈ w2, |v| ≤ 2 ^ 60 ∧ M.R.rd v = .fin v := fun v hv => ⟨b2 v hv, GjrDccFloat.uniStd_rep e2 _ (List.mem_map_of_mem hv)⟩
  have t1 := data_two h1
  have t2 := data_two h2
  have l1 := h1.len
  have l2 := h2.len
  obtain ⟨dx, ex, lx, bx, kx⟩ := centred_bd hM i w1 (by intro h; rw [h] at k1; simp at k1; omega) (by omega) r1
  obtain ⟨dy, ey, ly, by', ky⟩ := centred_bd hM (i + 1) w2 (by intro h; rw [h] at k2; simp at k2; omega) (by omega) r2
  obtain ⟨c11, e11, b11, p11⟩ := entry_bd hM (i + 2) dx dx (by omega) (by omega) bx bx
  obtain ⟨c22, e22, b22, p22⟩ := entry_bd hM (i + 3) dy dy (by omega) (by omega) by' by'
  obtain ⟨c12, e12, b12, -⟩ := entry_bd hM (i + 4) dx dy (by omega) (by omega) bx by'
  intro a b c ha hb hab ra rb hcd hc
  obtain ⟨v, hv⟩ := key c11 c22 c12 a b c ha hb hab ra rb hcd hc
    (fun h => ⟨⟨p11 rfl (kx (hs h).1), (le_abs_self _).trans b11⟩, p22 rfl (ky (hs h).2), (le_abs_self _).trans b22⟩) hq
  refine ⟨v, ?_⟩
  unfold Model.Rounded.gjrDccLoglik
  simp only [bind, Except.bind, e1, e2]
  have hcov : Model.Rounded.npCov M i (w1.map .fin) (w2.map .fin) = ⟨.fin c11, .fin c22, .fin c12⟩ := by
    unfold Model.Rounded.npCov
    simp only [ex, ey, e11, e22, e12]
  rw [hcov, hv]

/-- C215. The correlation step of `GJRGARCHModel_DCC.fit` after the univariate models have been estimated in range, with residuals as in
`C215_objective`. The starting weights are those of `C214_start` and the objective is finite there; on failure of the optimiser nothing is stored; on
success at weights in range with the value of the objective there the stored log-likelihood is finite, minus the objective there, and at least that
of the start if the optimiser does not report a larger value. -/
theorem C215_fit (M : Machine) (hM : M.R = binary64.rounding) (hlog : LogRange M)
    (hlog5 : ∀ w : ℝ, 1 / 100 ≤ w → w ≤ 1 → ∃ l, M.log (.fin w) = .fin l ∧ |l| ≤ 5)
    (pw : ℕ → XR) (hpw : Decay M pw) (i : ℕ) (cpp zeroMean1 zeroMean2 : Bool) (x1 x2 : List ℝ) (h1 : Data M x1) (h2 : Data M x2)
    (hlen : x1.length = x2.length) (f1 f2 : Model.Rounded.FittedGjr) (hf1 : GjrDccFloat.Fitted M f1) (hf2 : GjrDccFloat.Fitted M f2) :
    ∃ z1 z2 : List ℝ, Model.Rounded.uniStdGjr M pw i cpp zeroMean1 (x1.map .fin) f1 = .ok (z1.map .fin) ∧
      Model.Rounded.uniStdGjr M pw i cpp zeroMean2 (x2.map .fin) f2 = .ok (z2.map .fin) ∧
      ((cpp = false → Spread z1 ∧ Spread z2) →
        (cpp = true → (z1.length : ℝ) * (1 / 2 ^ 60) ≤ (z1.map fun v => v ^ 2).sum ∧ (z2.length : ℝ) * (1 / 2 ^ 60) ≤ (z2.map fun v => v ^ 2).sum) →
        ∃ a b f0 : ℝ, |a - (1 / 100 + 7 * (49 / 100 / 9))| ≤ 1 / 2 ^ 40 ∧ |b - 6 / 10| ≤ 1 / 2 ^ 40 ∧
          Model.Rounded.dccStart M (Model.Rounded.gjrDccLoglik M pw i cpp zeroMean1 zeroMean2 (x1.map .fin) (x2.map .fin) f1 f2) = .ok (.fin a, .fin b) ∧
          Model.Rounded.gjrDccLoglik M pw i cpp zeroMean1 zeroMean2 (x1.map .fin) (x2.map .fin) f1 f2 (.fin a, .fin b) = .ok (.fin f0) ∧
          ∀ (opt : Optimizer (XR × XR)) (run : OptRun (XR × XR)),
            run = opt dccFeas (Model.Rounded.objValue (Model.Rounded.gjrDccLoglik M pw i cpp zeroMean1 zeroMean2 (x1.map .fin) (x2.map .fin) f1 f2))
              (.fin a, .fin b) →
            (run.success = false →
              Model.Rounded.gjrDccFit M pw i cpp zeroMean1 zeroMean2 (x1.map .fin) (x2.map .fin) f1 f2 opt = .ok none) ∧
            (run.success = true →
              run.f = Model.Rounded.objValue (Model.Rounded.gjrDccLoglik M pw i cpp zeroMean1 zeroMean2 (x1.map .fin) (x2.map .fin) f1 f2) run.x →
              (∃ a' b' c' : ℝ, run.x = (.fin a', .fin b') ∧ 0 ≤ a' ∧ 0 ≤ b' ∧ a' + b' ≤ 1 ∧ M.R.Rep (.fin a') ∧ M.R.Rep (.fin b') ∧
                M.R.sub (M.R.sub 1 (.fin a')) (.fin b') = .fin c' ∧ 1 / 2 ^ 60 ≤ c') →
              ∃ f : ℝ, Model.Rounded.gjrDccFit M pw i cpp zeroMean1 zeroMean2 (x1.map .fin) (x2.map .fin) f1 f2 opt = .ok (some (run.x, .fin f)) ∧
                Model.Rounded.gjrDccLoglik M pw i cpp zeroMean1 zeroMean2 (x1.map .fin) (x2.map .fin) f1 f2 run.x = .ok (.fin (-f)) ∧
                (run.f ≤ .fin f0 → -f0 ≤ f))) := by
  obtain ⟨z1, z2, e1, e2, -, -, key⟩ := C215_objective M hM hlog hlog5 pw hpw i cpp zeroMean1 zeroMean2 x1 x2 h1 h2 hlen f1 f2 hf1 hf2
  refine ⟨z1, z2, e1, e2, fun hs hq => ?_⟩
  have hobj := key hs hq
  obtain ⟨a, b, c, es, ba, bb, ha, hb, hab, ra, rb, hc, hc0⟩ := C214_start M hM _ hobj
  obtain ⟨f0, hf0⟩ := hobj a b c ha hb hab ra rb hc hc0
  refine ⟨a, b, f0, ba, bb, es, hf0, ?_⟩
  intro opt run hrun
  have hfit : Model.Rounded.gjrDccFit M pw i cpp zeroMean1 zeroMean2 (x1.map .fin) (x2.map .fin) f1 f2 opt =
      .ok (if run.success then some (run.x, -run.f) else none) := by
    rw [hrun]
    unfold Model.Rounded.gjrDccFit
    rw [es]
    rfl
  refine ⟨fun h => by rw [hfit, h]; rfl, ?_⟩
  rintro h k ⟨a', b', c', hx, qa, qb, qab, sa, sb, qc, qc0⟩
  obtain ⟨f, hf⟩ := hobj a' b' c' qa qb qab sa sb qc qc0
  have hf' : run.f = .fin f := by
    rw [k, hx]
    unfold Model.Rounded.objValue
    rw [hf]
  refine ⟨-f, ?_, by rw [neg_neg, hx]; exact hf, ?_⟩
  · rw [hfit, h, hf', XR.fin_neg]; rfl
  · intro hle
    rw [hf', XR.fin_le] at hle
    linarith

/-- C215. Without rounding the objective is that of the exact model on an object whose univariate models are estimated (fitting them again changes
nothing; `f1`, `f2` describe what they hold). -/
theorem C215_exact_objective {V : Type} (i : ℕ) (cpp zm1 zm2 : Bool) (fitU : GarchObj V → Except PyErr (GarchObj V)) (o : DccObj V)
    (h1 : fitU o.model1 = .ok o.model1) (h2 : fitU o.model2 = .ok o.model2) (x1 x2 : List XR) (f1 f2 : Model.Rounded.FittedGjr)
    (l1 : f1.ll = llOf o.model1) (l2 : f2.ll = llOf o.model2)
    (hz1 : Model.Rounded.uniStdGjr Machine.exact (fun k => .fin ((94 / 100 : ℝ) ^ k)) i cpp zm1 x1 f1 = .ok (Model.stdResid o.model1.resids o.model1.sigma2))
    (hz2 : Model.Rounded.uniStdGjr Machine.exact (fun k => .fin ((94 / 100 : ℝ) ^ k)) i cpp zm2 x2 f2 = .ok (Model.stdResid o.model2.resids o.model2.sigma2))
    (hlen : (Model.stdResid o.model1.resids o.model1.sigma2).length = (Model.stdResid o.model2.resids o.model2.sigma2).length)
    (hz : 2 ≤ (Model.stdResid o.model1.resids o.model1.sigma2).length) (p : XR × XR) :
    ∃ v, Model.dccObjective cpp fitU o p = .ok (o, v) ∧
      Model.Rounded.gjrDccLoglik Machine.exact (fun k => .fin ((94 / 100 : ℝ) ^ k)) i cpp zm1 zm2 x1 x2 f1 f2 p = .ok v := by
  have hr : refit fitU o = .ok o := by
    unfold refit
    simp only [bind, Except.bind, pure, Except.pure, h1, h2]
  unfold Model.Rounded.gjrDccLoglik Model.Rounded.gjrDccFitObjective Model.dccObjective condCorr
  simp only [bind, Except.bind, pure, Except.pure, hr, hz1, hz2, l1, l2]
  generalize Model.stdResid o.model1.resids o.model1.sigma2 = z1 at *
  generalize Model.stdResid o.model2.resids o.model2.sigma2 = z2 at *
  have hcov : Model.Rounded.corrcoef Machine.exact (Model.Rounded.npCov Machine.exact i z1 z2) = Model.dccQbar false z1 z2 := by
    unfold Model.dccQbar
    simp only [Bool.false_eq_true, if_false]
    rw [← C213_exact_corr i z1 z1 hz rfl, ← C213_exact_corr i z2 z2 (by omega) rfl, ← C213_exact_corr i z1 z2 hz hlen]
    rfl
  rw [C206_exact cpp (Model.Rounded.npCov Machine.exact i z1 z2) p.1 p.2 z1 z2 hlen (by intro h; rw [h] at hz; simp at hz) (fun _ => hcov)]
  have hk : (Model.Rounded.dccKernel Machine.exact cpp (Model.Rounded.npCov Machine.exact i z1 z2) p.1 p.2 (List.zip z1 z2)).length = z1.length := by
    unfold Model.Rounded.dccKernel
    rw [List.length_cons, DccStartFloat.loop_len, List.length_dropLast, List.length_zip]
    omega
  generalize Model.Rounded.dccKernel Machine.exact cpp (Model.Rounded.npCov Machine.exact i z1 z2) p.1 p.2 (List.zip z1 z2) = rho at *
  simp only [List.length_map, hk, hlen, and_self, not_true, if_false]
  refine ⟨_, rfl, ?_⟩
  congr 1
  unfold Model.Rounded.dccObjective
  have hs : ∀ (i : ℕ) (l : List XR), Machine.exact.sum i l = l.sum := fun _ _ => rfl
  have hrd : ∀ x, Machine.exact.R.round x = x := Machine.exact_round
  have hlg : ∀ x, Machine.exact.log x = XR.log x := fun _ => rfl
  have hsq : ∀ x : XR, XR.sq x = x * x := fun x => rfl
  simp only [hs, hrd, (RoundedDcc.exact_ops _ _).1, List.zipWith_map_right]
  have ht : ∀ u v x, Model.Rounded.dccTerm Machine.exact u v x = Model.dccTerm u v x := by
    intro u v x
    unfold Model.Rounded.dccTerm Model.dccTerm
    simp only [RoundedDcc.exact_ops, hlg, hsq]
  simp only [ht]

/-- C215. So is the search for starting weights. -/
theorem C215_exact_start {V : Type} (i : ℕ) (cpp zm1 zm2 : Bool) (fitU : GarchObj V → Except PyErr (GarchObj V)) (o : DccObj V)
    (h1 : fitU o.model1 = .ok o.model1) (h2 : fitU o.model2 = .ok o.model2) (x1 x2 : List XR) (f1 f2 : Model.Rounded.FittedGjr)
    (l1 : f1.ll = llOf o.model1) (l2 : f2.ll = llOf o.model2)
    (hz1 : Model.Rounded.uniStdGjr Machine.exact (fun k => .fin ((94 / 100 : ℝ) ^ k)) i cpp zm1 x1 f1 = .ok (Model.stdResid o.model1.resids o.model1.sigma2))
    (hz2 : Model.Rounded.uniStdGjr Machine.exact (fun k => .fin ((94 / 100 : ℝ) ^ k)) i cpp zm2 x2 f2 = .ok (Model.stdResid o.model2.resids o.model2.sigma2))
    (hlen : (Model.stdResid o.model1.resids o.model1.sigma2).length = (Model.stdResid o.model2.resids o.model2.sigma2).length)
    (hz : 2 ≤ (Model.stdResid o.model1.resids o.model1.sigma2).length) :
    ∃ q : ℝ × ℝ, Model.dccStart cpp fitU o = .ok (o, q) ∧
      Model.Rounded.dccStart Machine.exact
        (Model.Rounded.gjrDccLoglik Machine.exact (fun k => .fin ((94 / 100 : ℝ) ^ k)) i cpp zm1 zm2 x1 x2 f1 f2) = .ok (.fin q.1, .fin q.2) := by
  have hobj := C215_exact_objective i cpp zm1 zm2 fitU o h1 h2 x1 x2 f1 f2 l1 l2 hz1 hz2 hlen hz
  unfold Model.dccStart Model.Rounded.dccStart
  rw [C214_exact_grid]
  have key : ∀ (g : List (ℝ × ℝ)) (best : ℝ × ℝ), ∃ q : ℝ × ℝ,
      g.foldlM (fun (st : DccObj V × (ℝ × ℝ)) p =>
        if 1 ≤ p.1 + p.2 then (.ok st : Except PyErr (DccObj V × (ℝ × ℝ)))
        else do
          let r ← Model.dccObjective cpp fitU st.1 (.fin p.1, .fin p.2)
          let ll := -r.2
          return (r.1, if .ninf < ll then p else st.2)) (o, best) = .ok (o, q) ∧
      (g.map fun p => ((.fin p.1, .fin p.2) : XR × XR)).foldlM (fun best p =>
        if 1 ≤ Machine.exact.R.add p.1 p.2 then (.ok best : Except PyErr (XR × XR))
        else do
          let v ← Model.Rounded.gjrDccLoglik Machine.exact (fun k => .fin ((94 / 100 : ℝ) ^ k)) i cpp zm1 zm2 x1 x2 f1 f2 p
          return if .ninf < -v then p else best) (.fin best.1, .fin best.2) = .ok (.fin q.1, .fin q.2) := by
    intro g
    induction g with
    | nil => exact fun best => ⟨best, rfl, rfl⟩
    | cons p g ih =>
      intro best
      obtain ⟨v, e1, e2⟩ := hobj (.fin p.1, .fin p.2)
      have hadd : (1 ≤ Machine.exact.R.add (.fin p.1) (.fin p.2)) ↔ 1 ≤ p.1 + p.2 := by
        rw [(RoundedDcc.exact_ops _ _).1, XR.fin_add, XR.one_def, XR.fin_le]
      rw [List.map_cons, List.foldlM_cons, List.foldlM_cons]
      by_cases h : 1 ≤ p.1 + p.2
      · rw [if_pos h, if_pos (hadd.mpr h)]
        exact ih best
      · rw [if_neg h, if_neg (fun h' => h (hadd.mp h'))]
        simp only [bind, Except.bind, pure, Except.pure, e1, e2]
        by_cases hv : XR.ninf < -v
        · simp only [if_pos hv]
          exact ih p
        · simp only [if_neg hv]
          exact ih best
  exact key _ _

/-- C215. So is the fit: what a fit of an object whose univariate models are estimated stores as weights and log-likelihood, for every optimiser. -/
theorem C215_exact_fit {V : Type} (i : ℕ) (cpp zm1 zm2 : Bool) (fitU : GarchObj V → Except PyErr (GarchObj V)) (o : DccObj V)
    (ho : o.success = false) (h1 : fitU o.model1 = .ok o.model1) (h2 : fitU o.model2 = .ok o.model2) (x1 x2 : List XR)
    (f1 f2 : Model.Rounded.FittedGjr) (l1 : f1.ll = llOf o.model1) (l2 : f2.ll = llOf o.model2)
    (hz1 : Model.Rounded.uniStdGjr Machine.exact (fun k => .fin ((94 / 100 : ℝ) ^ k)) i cpp zm1 x1 f1 = .ok (Model.stdResid o.model1.resids o.model1.sigma2))
    (hz2 : Model.Rounded.uniStdGjr Machine.exact (fun k => .fin ((94 / 100 : ℝ) ^ k)) i cpp zm2 x2 f2 = .ok (Model.stdResid o.model2.resids o.model2.sigma2))
    (hlen : (Model.stdResid o.model1.resids o.model1.sigma2).length = (Model.stdResid o.model2.resids o.model2.sigma2).length)
    (hz : 2 ≤ (Model.stdResid o.model1.resids o.model1.sigma2).length) (opt : Optimizer (XR × XR)) :
    ∃ (o' : DccObj V) (q : DccPars V), Model.dccFit cpp fitU opt o = .ok (o', q) ∧
      Model.Rounded.gjrDccFit Machine.exact (fun k => .fin ((94 / 100 : ℝ) ^ k)) i cpp zm1 zm2 x1 x2 f1 f2 opt =
        .ok (if o'.success then some ((q.a, q.b), q.ll) else none) ∧
      (o'.success = false → q.a = .nan ∧ q.b = .nan ∧ q.ll = .nan) := by
  have hr : refit fitU o = .ok o := by
    unfold refit
    simp only [bind, Except.bind, pure, Except.pure, h1, h2]
  obtain ⟨x0, s1, s2⟩ := C215_exact_start i cpp zm1 zm2 fitU o h1 h2 x1 x2 f1 f2 l1 l2 hz1 hz2 hlen hz
  have hobj : ∀ (q : DccPars V) (p : XR × XR), ∃ v, Model.dccObjective cpp fitU { o with params := q } p = .ok ({ o with params := q }, v) ∧
      Model.Rounded.gjrDccLoglik Machine.exact (fun k => .fin ((94 / 100 : ℝ) ^ k)) i cpp zm1 zm2 x1 x2 f1 f2 p = .ok v := fun q p =>
    C215_exact_objective i cpp zm1 zm2 fitU { o with params := q } h1 h2 x1 x2 f1 f2 l1 l2 hz1 hz2 hlen hz p
  unfold Model.dccFit Model.Rounded.gjrDccFit
  rw [ho]
  simp only [Bool.false_eq_true, if_false, bind, Except.bind, pure, Except.pure, hr, s1, s2]
  obtain ⟨v, e1⟩ := Classical.axiom_of_choice (hobj { p1 := dropLl o.model1.params, p2 := dropLl o.model2.params })
  have hfun : Model.Rounded.objValue (Model.Rounded.gjrDccLoglik Machine.exact (fun k => .fin ((94 / 100 : ℝ) ^ k)) i cpp zm1 zm2 x1 x2 f1 f2) = v := by
    funext p
    unfold Model.Rounded.objValue
    rw [(e1 p).2]
  have htr : ∀ l : List (XR × XR), l.foldlM (fun (o : DccObj V) p => do
      let r ← Model.dccObjective cpp fitU o p
      return r.1) { o with params := { p1 := dropLl o.model1.params, p2 := dropLl o.model2.params } } =
      .ok { o with params := { p1 := dropLl o.model1.params, p2 := dropLl o.model2.params } } := by
    intro l
    induction l with
    | nil => rfl
    | cons p l ih =>
      rw [List.foldlM_cons]
      simp only [(e1 p).1, bind, Except.bind, pure, Except.pure] at ih ⊢
      exact ih
  simp only [bind, Except.bind, pure, Except.pure] at htr
  have e1' := fun p => (e1 p).1
  simp only [e1', hfun, htr]
  generalize opt dccFeas v (.fin x0.1, .fin x0.2) = run
  cases hs : run.success
  · exact ⟨_, _, rfl, by simp [ho], fun _ => ⟨rfl, rfl, rfl⟩⟩
  · exact ⟨_, _, rfl, rfl, fun h => by simp at h⟩

/-- the residuals of any fitted description, on any non-empty series and any machine -/
theorem GjrDccFloat.uniStd_total (M : Machine) (pw : ℕ → XR) (i : ℕ) (cpp zm : Bool) (x : List XR) (hx : x ≠ []) (f : Model.Rounded.FittedGjr) :
    ∃ l, Model.Rounded.uniStdGjr M pw i cpp zm x f = .ok l ∧ l.length = x.length := by
  have hm : ∀ (b : Bool) (m : XR), (Model.Rounded.modelResids M b x m).length = x.length := by
    intro b m
    unfold Model.Rounded.modelResids
    split <;> simp
  have hp : (Model.Rounded.prepResids M zm i x).length = x.length := hm _ _
  have he : ∀ (r : List XR) (v lam : XR), r ≠ [] → ∃ l, Model.Rounded.ewma M r v lam = .ok l ∧ l.length = r.length := by
    intro r v lam hr
    obtain ⟨a, t, rfl⟩ := List.exists_cons_of_ne_nil hr
    exact ⟨_, rfl, by simp [DccStartFloat.ewma_len]⟩
  have hb : ∃ b, Model.Rounded.varianceBounds M pw i (Model.Rounded.prepResids M zm i x) = .ok b ∧ b.length = x.length := by
    unfold Model.Rounded.varianceBounds Model.Rounded.boundRows
    obtain ⟨l, hl, hl2⟩ := he (Model.Rounded.prepResids M zm i x) (M.sum (i + 1) (List.zipWith (fun w s => M.R.mul w s)
      ((Model.Rounded.decayWeights pw (min 75 (Model.Rounded.prepResids M zm i x).length)).map fun y => M.R.div y
        (M.sum i (Model.Rounded.decayWeights pw (min 75 (Model.Rounded.prepResids M zm i x).length))))
      (((Model.Rounded.prepResids M zm i x).take (min 75 (Model.Rounded.prepResids M zm i x).length)).map fun r => M.R.mul r r)))
      (M.R.rd (94 / 100)) (by intro h; rw [h] at hp; simp at hp; exact hx (List.length_eq_zero_iff.mp hp.symm))
    simp only [bind, Except.bind, pure, Except.pure, hl]
    exact ⟨_, rfl, by simp [hl2, hp]⟩
  obtain ⟨b, eb, lb⟩ := hb
  unfold Model.Rounded.uniStdGjr Model.Rounded.gjrVariance variancePath
  simp only [bind, Except.bind, pure, Except.pure, eb]
  rw [if_neg (by intro h; have := hm zm f.lastMu; rw [h] at this; simp at this; exact hx (List.length_eq_zero_iff.mp this.symm)),
    if_neg (by rw [hm]; omega)]
  refine ⟨_, rfl, ?_⟩
  have h1 : 1 ≤ x.length := List.length_pos_iff.mpr hx
  unfold Model.Rounded.stdResid
  rw [List.length_zipWith, List.length_cons, DccStartFloat.var_len, List.length_zip, List.length_dropLast, List.length_tail, hm, hm, lb]
  omega

/-- two crossing series in range: the search ends at the eighth `a` and the first `b`, and a failed optimisation stores nothing -/
example (i : ℕ) : ∃ a b : ℝ, |a - (1 / 100 + 7 * (49 / 100 / 9))| ≤ 1 / 2 ^ 40 ∧ |b - 6 / 10| ≤ 1 / 2 ^ 40 ∧
    Model.Rounded.dccStart Machine.ieee (Model.Rounded.gjrDccLoglik Machine.ieee (fun k => Machine.ieee.R.rd ((94 / 100 : ℝ) ^ k)) i false false false
      (([1, -1, 2] : List ℝ).map .fin) (([1, -1, 2] : List ℝ).map .fin)
      ⟨1, 1, ⟨1, .fin (1 / 2), .fin (1 / 2), 1⟩, .fin (-7)⟩ ⟨1, 1, ⟨1, .fin (1 / 2), .fin (1 / 2), .fin (1 / 2)⟩, .fin (-8)⟩) = .ok (.fin a, .fin b) ∧
    Model.Rounded.gjrDccFit Machine.ieee (fun k => Machine.ieee.R.rd ((94 / 100 : ℝ) ^ k)) i false false false
      (([1, -1, 2] : List ℝ).map .fin) (([1, -1, 2] : List ℝ).map .fin)
      ⟨1, 1, ⟨1, .fin (1 / 2), .fin (1 / 2), 1⟩, .fin (-7)⟩ ⟨1, 1, ⟨1, .fin (1 / 2), .fin (1 / 2), .fin (1 / 2)⟩, .fin (-8)⟩ (fun _ _ x => ⟨[], false, x, 0⟩) = .ok none := by
  obtain ⟨c1, c2, c3, c4⟩ := PrepFloat.ieee_coef
  have hf1 : GjrDccFloat.Fitted Machine.ieee ⟨1, 1, ⟨1, .fin (1 / 2), .fin (1 / 2), 1⟩, .fin (-7)⟩ :=
    ⟨c4, c4, c3, c2, c2, c1, -7, rfl, by rw [abs_neg, abs_of_pos (by norm_num)]; norm_num⟩
  have hf2 : GjrDccFloat.Fitted Machine.ieee ⟨1, 1, ⟨1, .fin (1 / 2), .fin (1 / 2), .fin (1 / 2)⟩, .fin (-8)⟩ :=
    ⟨c4, c4, c3, c2, c2, c2, -8, rfl, by rw [abs_neg, abs_of_pos (by norm_num)]; norm_num⟩
  obtain ⟨z1, z2, e1, e2, key⟩ := C215_fit Machine.ieee rfl PrepFloat.ieee_range RoundedDcc.ieee_log5 _ PrepFloat.ieee_decay i false false false
    [1, -1, 2] [1, -1, 2] PrepFloat.ieee_data PrepFloat.ieee_data rfl _ _ hf1 hf2
  have sp := fun f (hf : GjrDccFloat.Fitted Machine.ieee f) (h : f.mu = .fin 1) z hz => C215_spread Machine.ieee rfl PrepFloat.ieee_range _
    PrepFloat.ieee_decay i false [1, -1, 2] PrepFloat.ieee_data f hf 1 h ⟨2, by simp, by norm_num⟩ ⟨-1, by simp, by norm_num⟩ z hz
  obtain ⟨a, b, f0, ba, bb, es, -, r3⟩ := key (fun _ => ⟨sp _ hf1 rfl z1 e1, sp _ hf2 rfl z2 e2⟩) (by simp)
  exact ⟨a, b, ba, bb, es, (r3 (fun _ _ x => ⟨[], false, x, 0⟩) _ rfl).1 rfl⟩

/-- C215: an object whose models hold the residuals of three returns (variances one), fitted already: the exact fit and the rounded fit without
rounding agree, whatever the optimiser -/
example (i : ℕ) (cpp : Bool) (opt : Optimizer (XR × XR)) : ∃ (o o' : DccObj GjrVar) (q : DccPars GjrVar),
    o.model1.resids.length = 3 ∧ Model.dccFit cpp (fun m => .ok m) opt o = .ok (o', q) ∧
      Model.Rounded.gjrDccFit Machine.exact (fun k => .fin ((94 / 100 : ℝ) ^ k)) i cpp false false [1, .fin (-1), 2] [3, 1, .fin (-2)]
        ⟨1, 1, ⟨1, .fin (1 / 2), .fin (1 / 2), 1⟩, .fin (-7)⟩ ⟨1, 1, ⟨1, .fin (1 / 2), .fin (1 / 2), .fin (1 / 2)⟩, .fin (-8)⟩ opt =
        .ok (if o'.success then some ((q.a, q.b), q.ll) else none) := by
  obtain ⟨l1, e1, k1⟩ := GjrDccFloat.uniStd_total Machine.exact (fun k => .fin ((94 / 100 : ℝ) ^ k)) i cpp false [1, .fin (-1), 2] (by simp)
    ⟨1, 1, ⟨1, .fin (1 / 2), .fin (1 / 2), 1⟩, .fin (-7)⟩
  obtain ⟨l2, e2, k2⟩ := GjrDccFloat.uniStd_total Machine.exact (fun k => .fin ((94 / 100 : ℝ) ^ k)) i cpp false [3, 1, .fin (-2)] (by simp)
    ⟨1, 1, ⟨1, .fin (1 / 2), .fin (1 / 2), .fin (1 / 2)⟩, .fin (-8)⟩
  have r1 := DccStartFloat.std_one3 l1 (by rw [k1]; rfl)
  have r2 := DccStartFloat.std_one3 l2 (by rw [k2]; rfl)
  obtain ⟨o', q, a1, a2, -⟩ := C215_exact_fit i cpp false false (fun m => .ok m)
    (⟨{ zeroMean := false, returns := [1, .fin (-1), 2], resids := l1, sigma2 := [1, 1, 1], params := some (1, ⟨1, .fin (1 / 2), .fin (1 / 2), 1⟩, .fin (-7)) },
      { zeroMean := false, returns := [3, 1, .fin (-2)], resids := l2, sigma2 := [1, 1, 1],
        params := some (1, ⟨1, .fin (1 / 2), .fin (1 / 2), .fin (1 / 2)⟩, .fin (-8)) }, false, {}⟩ : DccObj GjrVar)
    rfl rfl rfl [1, .fin (-1), 2] [3, 1, .fin (-2)] ⟨1, 1, ⟨1, .fin (1 / 2), .fin (1 / 2), 1⟩, .fin (-7)⟩ ⟨1, 1, ⟨1, .fin (1 / 2), .fin (1 / 2), .fin (1 / 2)⟩, .fin (-8)⟩ rfl rfl
    (by rw [e1, r1]) (by rw [e2, r2]) (by rw [r1, r2, k1, k2]; rfl) (by rw [r1, k1]; simp) opt
  exact ⟨_, o', q, by rw [k1]; rfl, a1, a2⟩

end
end Frds.Props

import Verif.Props.RoundedError
import Verif.Props.RoundedRisk

/-! Accuracy of the computed variance paths. -/
namespace Frds.Props
noncomputable section
open Frds Frds.Model Classical
set_option linter.unusedSimpArgs false

namespace Rounded

/-- exact GJR-GARCH(1,1) variance (GARCH for `gamma = 0`) from an initial value -/
def exactVar (omega alpha gamma beta v0 : ℝ) (r : ℕ → ℝ) : ℕ → ℝ
  | 0 => v0
  | t + 1 => omega + alpha * r t ^ 2 + beta * exactVar omega alpha gamma beta v0 r t +
      (if r t < 0 then gamma * r t ^ 2 else 0)

/-- exact exponentially weighted variance -/
def exactEwma (lam v0 : ℝ) (r : ℕ → ℝ) : ℕ → ℝ
  | 0 => v0
  | t + 1 => lam * exactEwma lam v0 r t + (1 - lam) * r t ^ 2

variable {M : Machine} {u tiny huge : ℝ}

theorem square_close (A : Accurate M.R u tiny huge) (hu1 : u < 1) {r : ℝ} (hr : InRange tiny huge (r ^ 2)) :
    ∃ s, M.R.mul (.fin r) (.fin r) = .fin s ∧ M.R.rd s = .fin s ∧ Close u 1 (r ^ 2) s :=
  A.step (k := 0) hu1 (by norm_num) (by rw [← pow_two]; exact Close.refl (by positivity)) hr

theorem check_inside (M : Machine) (cpp : Bool) {s lo hi : ℝ} (h1 : lo ≤ s) (h2 : s ≤ hi) :
    Model.Rounded.boundsCheck M cpp (.fin s) (.fin lo, .fin hi) = .fin s := by
  have key : ∀ z : XR, z = .fin s → (if (XR.fin hi) < z then
      (if ¬ z.isInf then M.R.add (.fin hi) (M.log (M.R.div z (.fin hi))) else M.R.add (.fin hi) 1000) else z) = .fin s := by
    rintro z rfl
    rw [if_neg (by rw [XR.fin_lt]; linarith)]
  cases cpp
  · show Model.Rounded.boundsCheckPy M _ _ = _
    apply key
    unfold XR.pyMax
    split_ifs with h
    · rfl
    · rw [XR.fin_lt, not_lt] at h
      exact congrArg _ (le_antisymm h1 h)
  · show Model.Rounded.boundsCheckCpp M _ _ = _
    apply key
    rw [if_neg (by rw [XR.fin_lt]; linarith)]

/-- computed path of a recursion with errors growing by `c` roundings per step -/
theorem loop_close (x : ℕ → ℝ) (k c : ℕ) (next : XR → XR → XR) (chk : XR → XR × XR → XR) (f : ℕ → XR × (XR × XR)) (n : ℕ)
    (hstep : ∀ t s, t < n → M.R.rd s = .fin s → Close u (k + c * t) (x t) s →
      ∃ s', chk (next (f t).1 (.fin s)) (f t).2 = .fin s' ∧ M.R.rd s' = .fin s' ∧ Close u (k + c * (t + 1)) (x (t + 1)) s') :
    ∀ (m t : ℕ) (s : ℝ), t + m ≤ n → M.R.rd s = .fin s → Close u (k + c * t) (x t) s →
      ∃ v : ℕ → ℝ, varLoop next chk (.fin s) ((List.range m).map fun i => f (t + i)) =
          (List.range m).map (fun i => .fin (v i)) ∧
        ∀ i < m, Close u (k + c * (t + i + 1)) (x (t + i + 1)) (v i) := by
  intro m
  induction m with
  | zero => intro t s _ _ _; exact ⟨fun _ => 0, rfl, by simp⟩
  | succ m ih =>
    intro t s hle hs hc
    obtain ⟨s', e, r', c'⟩ := hstep t s (by omega) hs hc
    obtain ⟨v, hv, hvc⟩ := ih (t + 1) s' (by omega) r' c'
    refine ⟨fun i => match i with | 0 => s' | i + 1 => v i, ?_, ?_⟩
    · rw [List.range_succ_eq_map]
      simp only [List.map_cons, List.map_map, add_zero]
      have hf : (List.range m).map ((fun i => f (t + i)) ∘ Nat.succ) = (List.range m).map fun i => f (t + 1 + i) := by
        apply List.map_congr_left
        intro i _
        simp only [Function.comp]
        congr 1
        omega
      rw [hf]
      show chk (next (f t).1 (.fin s)) (f t).2 :: varLoop next chk (chk (next (f t).1 (.fin s)) (f t).2) _ = _
      rw [e, hv]
      rfl
    · intro i hi
      cases i with
      | zero => simpa using c'
      | succ i =>
        have := hvc i (by omega)
        rw [show t + (i + 1) + 1 = t + 1 + i + 1 by omega]
        exact this

theorem path_close (x : ℕ → ℝ) (k c : ℕ) (next : XR → XR → XR) (chk : XR → XR × XR → XR) (r : ℕ → ℝ) (b : ℕ → XR × XR) (n : ℕ)
    (hn : 1 ≤ n) (s0 : ℝ) (h0 : M.R.rd s0 = .fin s0) (c0 : Close u k (x 0) s0)
    (hstep : ∀ t s, t + 1 < n → M.R.rd s = .fin s → Close u (k + c * t) (x t) s →
      ∃ s', chk (next (.fin (r t)) (.fin s)) (b (t + 1)) = .fin s' ∧ M.R.rd s' = .fin s' ∧
        Close u (k + c * (t + 1)) (x (t + 1)) s') :
    ∃ v : ℕ → ℝ, variancePath next chk (.fin s0) ((List.range n).map fun t => .fin (r t)) ((List.range n).map b) =
        .ok ((List.range n).map fun t => .fin (v t)) ∧
      ∀ t < n, Close u (k + c * t) (x t) (v t) := by
  obtain ⟨v, hv, hc⟩ := loop_close (M := M) (u := u) x k c next chk (fun t => (XR.fin (r t), b (t + 1))) (n - 1)
    (fun t s ht hs hc => hstep t s (by omega) hs hc) (n - 1) 0 s0 (by omega) h0 (by simpa using c0)
  refine ⟨fun i => match i with | 0 => s0 | i + 1 => v i, ?_, ?_⟩
  · unfold variancePath
    rw [if_neg (by intro h; have := congrArg List.length h; simp at this; omega),
      if_neg (by simp)]
    have hz : List.zip ((List.range n).map fun t => XR.fin (r t)).dropLast ((List.range n).map b).tail =
        (List.range (n - 1)).map fun i => (XR.fin (r (0 + i)), b (0 + i + 1)) := by
      apply List.ext_getElem
      · simp
      · intro i h1 h2
        simp [List.getElem_zip]
    rw [hz, hv]
    congr 1
    obtain ⟨m, rfl⟩ : ∃ m, n = m + 1 := ⟨n - 1, by omega⟩
    rw [List.range_succ_eq_map]
    simp only [List.map_cons, List.map_map, Nat.add_sub_cancel]
    rfl
  · intro t ht
    cases t with
    | zero => simpa using c0
    | succ t =>
      have := hc t (by omega)
      simp only [zero_add] at this
      exact this

theorem close_inside (A : Accurate M.R u tiny huge) (hu1 : u < 1) {k : ℕ} (hk : 2 * ((k : ℝ) * u) ≤ 1) {x s lo hi : ℝ}
    (h : Close u k x s) (h1 : 2 * lo ≤ x) (h2 : 2 * x ≤ hi) : lo ≤ s ∧ s ≤ hi := by
  have hp := A.pow_half hk hu1
  have := h.1
  have := h.2.1
  have := h.2.2
  have := h.nonneg hu1.le
  constructor <;> nlinarith

end Rounded
open Rounded

/-- C165: as long as the exact variances stay away from the bounds, the computed GARCH(1,1) variance path is accurate to
`3 + 2 t` rounding errors in period `t`, in both back-ends. -/
theorem C165_garch_accuracy (M : Machine) {u tiny huge : ℝ} (A : Accurate M.R u tiny huge) (cpp : Bool)
    (omega alpha beta bc : ℝ) (ho : 0 ≤ omega) (ha : 0 ≤ alpha) (hb : 0 ≤ beta) (hbc : 0 ≤ bc)
    (ro : M.R.Rep (.fin omega)) (ra : M.R.Rep (.fin alpha)) (rb : M.R.Rep (.fin beta)) (n : ℕ) (hn : 1 ≤ n)
    (hu : 2 * ((2 * n + 3) * u) ≤ 1) (r lo hi x : ℕ → ℝ)
    (hx : x = exactVar omega alpha 0 beta (omega + (alpha + beta) * bc) r)
    (hab : 2 * (alpha + beta) ≤ huge) (h0 : InRange tiny huge ((alpha + beta) * bc)) (hmax : ∀ t < n, 2 * x t ≤ huge)
    (hr : ∀ t, t + 1 < n → InRange tiny huge (r t ^ 2) ∧ InRange tiny huge (alpha * r t ^ 2) ∧ InRange tiny huge (beta * x t))
    (hin : ∀ t, 0 < t → t < n → 2 * lo t ≤ x t ∧ 2 * x t ≤ hi t) :
    ∃ v : ℕ → ℝ, Model.Rounded.garchVariance M cpp ⟨.fin omega, .fin alpha, .fin beta⟩
        ((List.range n).map fun t => .fin (r t)) (.fin bc) ((List.range n).map fun t => (.fin (lo t), .fin (hi t))) =
          .ok ((List.range n).map fun t => .fin (v t)) ∧
      ∀ t < n, |v t - x t| ≤ (3 + 2 * t) * u / (1 - (3 + 2 * t) * u) * x t := by
  have hu0 := A.u_nonneg
  have hn' : (1 : ℝ) ≤ n := by exact_mod_cast hn
  have hu8 : 8 * u ≤ 1 := by nlinarith
  have hu1 : u < 1 := by linarith
  have ro' : M.R.rd omega = .fin omega := ro
  have hx0 : x 0 = omega + (alpha + beta) * bc := by rw [hx]; rfl
  obtain ⟨p, hp, rp, cp⟩ := A.add (k := 0) hu1 (by norm_num) (Close.refl ha) (Close.refl hb) ra rb (by linarith)
  obtain ⟨q, hq, rq, cq⟩ := A.mul hu1 (by push_cast; linarith) cp (Close.refl hbc) h0
  obtain ⟨s0, hs0, rs0, cs0⟩ := A.add hu1 (by push_cast; linarith)
    ((Close.refl ho).mono hu0 hu1 (Nat.zero_le 2)) cq ro' rq (by rw [← hx0]; exact hmax 0 (by omega))
  obtain ⟨v, hv, hc⟩ := path_close (M := M) (u := u) x 3 2
    (Model.Rounded.garchNext M ⟨.fin omega, .fin alpha, .fin beta⟩) (Model.Rounded.boundsCheck M cpp) r
    (fun t => (XR.fin (lo t), XR.fin (hi t))) n hn s0 rs0 (by rw [hx0]; exact cs0) (by
      intro t s ht rs cs
      obtain ⟨h1, h2, h3⟩ := hr t ht
      have htn : ((t + 1 : ℕ) : ℝ) ≤ n := by exact_mod_cast ht.le
      push_cast at htn
      have hut : (t + 1) * u ≤ n * u := mul_le_mul_of_nonneg_right htn hu0
      have hsq : 0 ≤ alpha * r t ^ 2 := by positivity
      have hx1 : x (t + 1) = omega + alpha * r t ^ 2 + beta * x t := by
        rw [hx]
        show _ + (if r t < 0 then 0 * r t ^ 2 else 0) = _
        simp
      have hbx : 0 ≤ beta * x t := mul_nonneg hb cs.1
      have hm := hmax (t + 1) ht
      rw [hx1] at hm
      obtain ⟨a1, e1, r1, c1⟩ := square_close A hu1 h1
      obtain ⟨a2, e2, r2, c2⟩ := A.mul hu1 (by push_cast; linarith) (Close.refl ha) c1 h2
      obtain ⟨a3, e3, r3, c3⟩ := A.add hu1 (by push_cast; linarith) ((Close.refl ho).mono hu0 hu1 (Nat.zero_le 2)) c2 ro'
        r2 (by linarith)
      obtain ⟨a4, e4, r4, c4⟩ := A.mul hu1 (by push_cast; nlinarith) (Close.refl hb) cs h3
      obtain ⟨a5, e5, r5, c5⟩ := A.add (k := 4 + 2 * t) hu1 (by push_cast; nlinarith) (c3.mono hu0 hu1 (by omega))
        (c4.mono hu0 hu1 (by omega)) r3 r4 (by linarith)
      obtain ⟨i1, i2⟩ := hin (t + 1) (by omega) ht
      have hc5 : Close u (3 + 2 * (t + 1)) (x (t + 1)) a5 := by
        rw [hx1]
        exact c5.mono hu0 hu1 (by omega)
      obtain ⟨j1, j2⟩ := close_inside A hu1 (by push_cast; nlinarith) hc5 i1 i2
      refine ⟨a5, ?_, r5, hc5⟩
      have hnx : Model.Rounded.garchNext M ⟨.fin omega, .fin alpha, .fin beta⟩ (.fin (r t)) (.fin s) = .fin a5 := by
        simp only [Model.Rounded.garchNext]
        rw [e1, e2, e3, e4, e5]
      rw [hnx]
      exact check_inside M cpp j1 j2)
  refine ⟨v, ?_, ?_⟩
  · unfold Model.Rounded.garchVariance
    simp only
    rw [hp, hq, hs0]
    exact hv
  · intro t ht
    have htn : (t : ℝ) ≤ n := by exact_mod_cast ht.le
    have hut : (t : ℝ) * u ≤ n * u := mul_le_mul_of_nonneg_right htn hu0
    have := (hc t ht).error hu0 (by push_cast; nlinarith) hu1
    push_cast at this
    exact this

/-- C165: the computed GJR-GARCH(1,1) variance path is accurate to `5 + 3 t` rounding errors in period `t` -/
theorem C165_gjr_accuracy (M : Machine) {u tiny huge : ℝ} (A : Accurate M.R u tiny huge) (cpp : Bool)
    (omega alpha gamma beta bc : ℝ) (ho : 0 ≤ omega) (ha : 0 ≤ alpha) (hg : 0 ≤ gamma) (hb : 0 ≤ beta) (hbc : 0 ≤ bc)
    (ro : M.R.Rep (.fin omega)) (ra : M.R.Rep (.fin alpha)) (rb : M.R.Rep (.fin beta)) (n : ℕ) (hn : 1 ≤ n)
    (hu : 2 * ((3 * n + 5) * u) ≤ 1) (r lo hi x : ℕ → ℝ)
    (hx : x = exactVar omega alpha gamma beta (omega + (alpha + gamma / 2 + beta) * bc) r)
    (hg2 : InRange tiny huge (gamma / 2)) (hab : 2 * (alpha + gamma / 2 + beta) ≤ huge)
    (h0 : InRange tiny huge ((alpha + gamma / 2 + beta) * bc)) (hmax : ∀ t < n, 2 * x t ≤ huge)
    (hr : ∀ t, t + 1 < n → InRange tiny huge (r t ^ 2) ∧ InRange tiny huge (alpha * r t ^ 2) ∧
      InRange tiny huge (gamma * r t ^ 2) ∧ InRange tiny huge (beta * x t))
    (hin : ∀ t, 0 < t → t < n → 2 * lo t ≤ x t ∧ 2 * x t ≤ hi t) :
    ∃ v : ℕ → ℝ, Model.Rounded.gjrVariance M cpp ⟨.fin omega, .fin alpha, .fin gamma, .fin beta⟩
        ((List.range n).map fun t => .fin (r t)) (.fin bc) ((List.range n).map fun t => (.fin (lo t), .fin (hi t))) =
          .ok ((List.range n).map fun t => .fin (v t)) ∧
      ∀ t < n, |v t - x t| ≤ (5 + 3 * t) * u / (1 - (5 + 3 * t) * u) * x t := by
  have hu0 := A.u_nonneg
  have hn' : (1 : ℝ) ≤ n := by exact_mod_cast hn
  have hu8 : 16 * u ≤ 1 := by nlinarith
  have hu1 : u < 1 := by linarith
  have ro' : M.R.rd omega = .fin omega := ro
  have hx0 : x 0 = omega + (alpha + gamma / 2 + beta) * bc := by rw [hx]; rfl
  obtain ⟨g, hg', rg, cg⟩ := A.div hu1 (by push_cast; linarith) (Close.refl hg) (Close.refl (by norm_num : (0 : ℝ) ≤ 2))
    (by norm_num) hg2
  obtain ⟨p0, hp0, rp0, cp0⟩ := A.add hu1 (by push_cast; linarith) ((Close.refl ha).mono hu0 hu1 (Nat.zero_le 1)) cg ra rg
    (by linarith)
  obtain ⟨p, hp, rp, cp⟩ := A.add hu1 (by push_cast; linarith) cp0 ((Close.refl hb).mono hu0 hu1 (Nat.zero_le 2)) rp0 rb
    (by linarith)
  obtain ⟨q, hq, rq, cq⟩ := A.mul hu1 (by push_cast; linarith) cp (Close.refl hbc) h0
  obtain ⟨s0, hs0, rs0, cs0⟩ := A.add hu1 (by push_cast; linarith)
    ((Close.refl ho).mono hu0 hu1 (Nat.zero_le 4)) cq ro' rq (by rw [← hx0]; exact hmax 0 (by omega))
  obtain ⟨v, hv, hc⟩ := path_close (M := M) (u := u) x 5 3
    (Model.Rounded.gjrNext M ⟨.fin omega, .fin alpha, .fin gamma, .fin beta⟩) (Model.Rounded.boundsCheck M cpp) r
    (fun t => (XR.fin (lo t), XR.fin (hi t))) n hn s0 rs0 (by rw [hx0]; exact cs0) (by
      intro t s ht rs cs
      obtain ⟨h1, h2, h2', h3⟩ := hr t ht
      have htn : ((t + 1 : ℕ) : ℝ) ≤ n := by exact_mod_cast ht.le
      push_cast at htn
      have hut : (t + 1) * u ≤ n * u := mul_le_mul_of_nonneg_right htn hu0
      have hsq : 0 ≤ alpha * r t ^ 2 := by positivity
      have hsqg : 0 ≤ gamma * r t ^ 2 := by positivity
      have hx1 : x (t + 1) = omega + alpha * r t ^ 2 + beta * x t + (if r t < 0 then gamma * r t ^ 2 else 0) := by
        rw [hx]; rfl
      have hif : 0 ≤ (if r t < 0 then gamma * r t ^ 2 else 0) := by split_ifs <;> simp [hsqg]
      have hbx : 0 ≤ beta * x t := mul_nonneg hb cs.1
      have hm := hmax (t + 1) ht
      rw [hx1] at hm
      obtain ⟨a1, e1, r1, c1⟩ := square_close A hu1 h1
      obtain ⟨a2, e2, r2, c2⟩ := A.mul hu1 (by push_cast; linarith) (Close.refl ha) c1 h2
      obtain ⟨a3, e3, r3, c3⟩ := A.add hu1 (by push_cast; linarith) ((Close.refl ho).mono hu0 hu1 (Nat.zero_le 2)) c2 ro'
        r2 (by linarith)
      obtain ⟨a4, e4, r4, c4⟩ := A.mul hu1 (by push_cast; nlinarith) (Close.refl hb) cs h3
      obtain ⟨a5, e5, r5, c5⟩ := A.add (k := 6 + 3 * t) hu1 (by push_cast; nlinarith) (c3.mono hu0 hu1 (by omega))
        (c4.mono hu0 hu1 (by omega)) r3 r4 (by linarith)
      obtain ⟨a6, e6, r6, c6⟩ : ∃ a6, (if XR.fin (r t) < 0 then
          M.R.mul (.fin gamma) (M.R.mul (.fin (r t)) (.fin (r t))) else 0) = .fin a6 ∧ M.R.rd a6 = .fin a6 ∧
          Close u (6 + 3 * t + 1) (if r t < 0 then gamma * r t ^ 2 else 0) a6 := by
        by_cases hneg : r t < 0
        · obtain ⟨a6, e6, r6, c6⟩ := A.mul hu1 (by push_cast; linarith) (Close.refl hg) c1 h2'
          refine ⟨a6, ?_, r6, ?_⟩
          · rw [if_pos (by rw [XR.zero_def, XR.fin_lt]; exact hneg), e1, e6]
          · rw [if_pos hneg]
            exact c6.mono hu0 hu1 (by omega)
        · refine ⟨0, ?_, Rounding.rd_zero, ?_⟩
          · rw [if_neg (by rw [XR.zero_def, XR.fin_lt]; exact hneg)]
            rfl
          · rw [if_neg hneg]
            exact (Close.refl le_rfl).mono hu0 hu1 (Nat.zero_le _)
      obtain ⟨a7, e7, r7, c7⟩ := A.add hu1 (by push_cast; nlinarith) c5 c6 r5 r6 (by linarith)
      obtain ⟨i1, i2⟩ := hin (t + 1) (by omega) ht
      have hc7 : Close u (5 + 3 * (t + 1)) (x (t + 1)) a7 := by
        rw [hx1]
        exact c7.mono hu0 hu1 (by omega)
      obtain ⟨j1, j2⟩ := close_inside A hu1 (by push_cast; nlinarith) hc7 i1 i2
      refine ⟨a7, ?_, r7, hc7⟩
      have hnx : Model.Rounded.gjrNext M ⟨.fin omega, .fin alpha, .fin gamma, .fin beta⟩ (.fin (r t)) (.fin s) = .fin a7 := by
        simp only [Model.Rounded.gjrNext]
        rw [e6, e1, e2, e3, e4, e5, e7]
      rw [hnx]
      exact check_inside M cpp j1 j2)
  refine ⟨v, ?_, ?_⟩
  · rw [Rounded.gjrVariance_eq]
    simp only
    rw [show (2 : XR) = .fin 2 from rfl, hg', hp0, hp, hq, hs0]
    exact hv
  · intro t ht
    have htn : (t : ℝ) ≤ n := by exact_mod_cast ht.le
    have hut : (t : ℝ) * u ≤ n * u := mul_le_mul_of_nonneg_right htn hu0
    have := (hc t ht).error hu0 (by push_cast; nlinarith) hu1
    push_cast at this
    exact this

namespace Rounded

theorem ewmaLoop_eq (M : Machine) (lam v : XR) (l : List XR) (b : XR × XR) :
    Model.Rounded.ewmaLoop M lam v l = varLoop (fun r v => M.R.add (M.R.mul lam v) (M.R.mul (M.R.sub 1 lam) (M.R.mul r r)))
      (fun s _ => s) v (l.map fun r => (r, b)) := by
  induction l generalizing v with
  | nil => rfl
  | cons r t ih =>
    simp only [Model.Rounded.ewmaLoop, List.map_cons, varLoop]
    rw [ih]

end Rounded

/-- C165: the computed exponentially weighted variance (used for the variance bounds) is accurate to `2 + 2 t` rounding
errors in period `t` -/
theorem C165_ewma_accuracy (M : Machine) {u tiny huge : ℝ} (A : Accurate M.R u tiny huge) (lam v0 : ℝ) (hl0 : 0 ≤ lam)
    (hl1 : lam ≤ 1) (rl : M.R.Rep (.fin lam)) (hv0 : 0 ≤ v0) (rv : M.R.Rep (.fin v0)) (n : ℕ) (hn : 1 ≤ n)
    (hu : 2 * ((2 * n + 3) * u) ≤ 1) (r x : ℕ → ℝ) (hx : x = exactEwma lam v0 r) (h1 : 1 ≤ huge)
    (hmax : ∀ t < n, 2 * x t ≤ huge)
    (hr : ∀ t, t + 1 < n → InRange tiny huge (r t ^ 2) ∧ InRange tiny huge ((1 - lam) * r t ^ 2) ∧
      InRange tiny huge (lam * x t)) :
    ∃ v : ℕ → ℝ, Model.Rounded.ewma M ((List.range n).map fun t => .fin (r t)) (.fin v0) (.fin lam) =
          .ok ((List.range n).map fun t => .fin (v t)) ∧
      ∀ t < n, |v t - x t| ≤ (2 + 2 * t) * u / (1 - (2 + 2 * t) * u) * x t := by
  have hu0 := A.u_nonneg
  have hn' : (1 : ℝ) ≤ n := by exact_mod_cast hn
  have hu8 : 8 * u ≤ 1 := by nlinarith
  have hu1 : u < 1 := by linarith
  have hx0 : x 0 = v0 := by rw [hx]; rfl
  obtain ⟨d, hd, rd, cd⟩ := A.step_sub hu1 (y := 1) Rounding.rep_one rl hl1 (by linarith)
  obtain ⟨v, hv, hc⟩ := path_close (M := M) (u := u) x 2 2
    (fun r v => M.R.add (M.R.mul (.fin lam) v) (M.R.mul (M.R.sub 1 (.fin lam)) (M.R.mul r r))) (fun s _ => s) r
    (fun _ => (0, 0)) n hn v0 rv (by rw [hx0]; exact (Close.refl hv0).mono hu0 hu1 (Nat.zero_le 2)) (by
      intro t s ht rs cs
      obtain ⟨h1, h2, h3⟩ := hr t ht
      have htn : ((t + 1 : ℕ) : ℝ) ≤ n := by exact_mod_cast ht.le
      push_cast at htn
      have hut : (t + 1) * u ≤ n * u := mul_le_mul_of_nonneg_right htn hu0
      have hx1 : x (t + 1) = lam * x t + (1 - lam) * r t ^ 2 := by rw [hx]; rfl
      have hm := hmax (t + 1) ht
      rw [hx1] at hm
      obtain ⟨a1, e1, r1, c1⟩ := square_close A hu1 h1
      obtain ⟨a2, e2, r2, c2⟩ := A.mul hu1 (by push_cast; linarith) cd c1 h2
      obtain ⟨a3, e3, r3, c3⟩ := A.mul hu1 (by push_cast; nlinarith) (Close.refl hl0) cs h3
      obtain ⟨a4, e4, r4, c4⟩ := A.add (k := 3 + 2 * t) hu1 (by push_cast; nlinarith) (c3.mono hu0 hu1 (by omega))
        (c2.mono hu0 hu1 (by omega)) r3 r2 (by linarith)
      refine ⟨a4, ?_, r4, ?_⟩
      · rw [show M.R.sub 1 (.fin lam) = .fin d from hd, e1, e2, e3, e4]
      · rw [hx1]
        exact c4.mono hu0 hu1 (by omega))
  refine ⟨v, ?_, ?_⟩
  · rw [← hv]
    unfold Model.Rounded.ewma variancePath
    have hne : ¬ ((List.range n).map fun t => XR.fin (r t)) = [] := by
      intro h; have := congrArg List.length h; simp at this; omega
    rw [if_neg hne, if_neg hne, if_neg (by simp), ewmaLoop_eq M _ _ _ (0, 0)]
    congr 3
    apply List.ext_getElem
    · simp
    · intro i h1 h2
      simp [List.getElem_zip]
  · intro t ht
    have htn : (t : ℝ) ≤ n := by exact_mod_cast ht.le
    have hut : (t : ℝ) * u ≤ n * u := mul_le_mul_of_nonneg_right htn hu0
    have := (hc t ht).error hu0 (by push_cast; nlinarith) hu1
    push_cast at this
    exact this

/-- binary64, three periods of a GARCH(1,1) with dyadic parameters: all hypotheses hold -/
example : ∃ v : ℕ → ℝ, Model.Rounded.garchVariance Machine.ieee true ⟨.fin 1, .fin 2, .fin 1⟩
      [.fin 1, .fin (-2), .fin 3] (.fin 4) [(.fin 1, .fin 1000), (.fin 1, .fin 1000), (.fin 1, .fin 1000)] =
        .ok [.fin (v 0), .fin (v 1), .fin (v 2)] ∧
    |v 2 - 25| ≤ 7 * 2 ^ (-53 : ℤ) / (1 - 7 * 2 ^ (-53 : ℤ)) * 25 := by
  have rep : ∀ n : ℕ, n ≤ 1000 → Machine.ieee.R.Rep (.fin (n : ℝ)) := fun n hn =>
    Rounding.rep_nat (R := binary64.rounding) (hn.trans (by norm_num [Format.rounding, binary64]))
  obtain ⟨tiny, huge, A, h1, h2, h3⟩ := acc64 (M := Machine.ieee) rfl
  have hbig : (2 : ℝ) ^ (30 : ℤ) ≤ 2 ^ (1000 : ℤ) := zpow_le_zpow_right₀ (by norm_num) (by norm_num)
  have hsmall : (2 : ℝ) ^ (-950 : ℤ) ≤ 1 := zpow_le_one_of_nonpos₀ (by norm_num) (by norm_num)
  have ht0 := A.tiny_nonneg
  generalize (2 : ℝ) ^ (1000 : ℤ) = B at *
  generalize (2 : ℝ) ^ (-950 : ℤ) = C at *
  norm_num at h2 h3 hbig
  have ht : 2 * tiny ≤ 1 := by linarith
  have hh : 1000000 ≤ huge := by linarith
  have inr : ∀ z : ℝ, 1 ≤ z → z ≤ 500000 → InRange tiny huge z := fun z a b => Or.inr ⟨by linarith, by linarith⟩
  have r1 := rep 1 (by norm_num)
  have r2 := rep 2 (by norm_num)
  norm_num at r1 r2
  let r : ℕ → ℝ := fun t => if t = 0 then 1 else if t = 1 then -2 else 3
  let x := exactVar 1 2 0 1 (1 + (2 + 1) * 4) r
  have x0 : x 0 = 13 := by norm_num [x, exactVar]
  have x1 : x 1 = 16 := by norm_num [x, exactVar, r]
  have x2 : x 2 = 25 := by norm_num [x, exactVar, r]
  obtain ⟨v, e, hv⟩ := C165_garch_accuracy Machine.ieee A true 1 2 1 4 (by norm_num) (by norm_num) (by norm_num) (by norm_num)
    r1 r2 r1 3 (by norm_num) (by norm_num) r (fun _ => 1) (fun _ => 1000) x rfl (by linarith)
    (inr _ (by norm_num) (by norm_num))
    (by
      intro t ht
      interval_cases t
      · rw [x0]; linarith
      · rw [x1]; linarith
      · rw [x2]; linarith)
    (by
      intro t ht
      have : t = 0 ∨ t = 1 := by omega
      rcases this with rfl | rfl
      · rw [x0]
        refine ⟨inr _ ?_ ?_, inr _ ?_ ?_, inr _ ?_ ?_⟩ <;> norm_num [r]
      · rw [x1]
        refine ⟨inr _ ?_ ?_, inr _ ?_ ?_, inr _ ?_ ?_⟩ <;> norm_num [r])
    (by
      intro t _ ht
      interval_cases t
      · rw [x1]; norm_num
      · rw [x2]; norm_num)
  refine ⟨v, ?_, ?_⟩
  · simpa [List.range_succ, r] using e
  · have := hv 2 (by norm_num)
    rw [x2] at this
    norm_num at this ⊢
    exact this

/-- the same three periods with leverage -/
example : ∃ v : ℕ → ℝ, Model.Rounded.gjrVariance Machine.ieee true ⟨.fin 1, .fin 2, .fin 2, .fin 1⟩
      [.fin 1, .fin (-2), .fin 3] (.fin 4) [(.fin 1, .fin 1000), (.fin 1, .fin 1000), (.fin 1, .fin 1000)] =
        .ok [.fin (v 0), .fin (v 1), .fin (v 2)] ∧
    |v 2 - 37| ≤ 11 * 2 ^ (-53 : ℤ) / (1 - 11 * 2 ^ (-53 : ℤ)) * 37 := by
  have rep : ∀ n : ℕ, n ≤ 1000 → Machine.ieee.R.Rep (.fin (n : ℝ)) := fun n hn =>
    Rounding.rep_nat (R := binary64.rounding) (hn.trans (by norm_num [Format.rounding, binary64]))
  obtain ⟨tiny, huge, A, h1, h2, h3⟩ := acc64 (M := Machine.ieee) rfl
  have hbig : (2 : ℝ) ^ (30 : ℤ) ≤ 2 ^ (1000 : ℤ) := zpow_le_zpow_right₀ (by norm_num) (by norm_num)
  have hsmall : (2 : ℝ) ^ (-950 : ℤ) ≤ 1 := zpow_le_one_of_nonpos₀ (by norm_num) (by norm_num)
  have ht0 := A.tiny_nonneg
  generalize (2 : ℝ) ^ (1000 : ℤ) = B at *
  generalize (2 : ℝ) ^ (-950 : ℤ) = C at *
  norm_num at h2 h3 hbig
  have ht : 2 * tiny ≤ 1 := by linarith
  have hh : 1000000 ≤ huge := by linarith
  have inr : ∀ z : ℝ, 1 ≤ z → z ≤ 500000 → InRange tiny huge z := fun z a b => Or.inr ⟨by linarith, by linarith⟩
  have r1 := rep 1 (by norm_num)
  have r2 := rep 2 (by norm_num)
  norm_num at r1 r2
  let r : ℕ → ℝ := fun t => if t = 0 then 1 else if t = 1 then -2 else 3
  let x := exactVar 1 2 2 1 (1 + (2 + 2 / 2 + 1) * 4) r
  have x0 : x 0 = 17 := by norm_num [x, exactVar]
  have x1 : x 1 = 20 := by
    show 1 + 2 * r 0 ^ 2 + 1 * (1 + (2 + 2 / 2 + 1) * 4) + (if r 0 < 0 then 2 * r 0 ^ 2 else 0) = _
    rw [show r 0 = 1 from rfl, if_neg (by norm_num)]
    norm_num
  have x2 : x 2 = 37 := by
    show 1 + 2 * r 1 ^ 2 + 1 * x 1 + (if r 1 < 0 then 2 * r 1 ^ 2 else 0) = _
    rw [x1, show r 1 = -2 by norm_num [r], if_pos (by norm_num)]
    norm_num
  obtain ⟨v, e, hv⟩ := C165_gjr_accuracy Machine.ieee A true 1 2 2 1 4 (by norm_num) (by norm_num) (by norm_num) (by norm_num)
    (by norm_num) r1 r2 r1 3 (by norm_num) (by norm_num) r (fun _ => 1) (fun _ => 1000) x rfl
    (inr _ (by norm_num) (by norm_num)) (by linarith) (inr _ (by norm_num) (by norm_num))
    (by
      intro t ht
      interval_cases t
      · rw [x0]; linarith
      · rw [x1]; linarith
      · rw [x2]; linarith)
    (by
      intro t ht
      have : t = 0 ∨ t = 1 := by omega
      rcases this with rfl | rfl
      · rw [x0]
        refine ⟨inr _ ?_ ?_, inr _ ?_ ?_, inr _ ?_ ?_, inr _ ?_ ?_⟩ <;> norm_num [r]
      · rw [x1]
        refine ⟨inr _ ?_ ?_, inr _ ?_ ?_, inr _ ?_ ?_, inr _ ?_ ?_⟩ <;> norm_num [r])
    (by
      intro t _ ht
      interval_cases t
      · rw [x1]; norm_num
      · rw [x2]; norm_num)
  refine ⟨v, ?_, ?_⟩
  · simpa [List.range_succ, r] using e
  · have := hv 2 (by norm_num)
    rw [x2] at this
    norm_num at this ⊢
    exact this

/-- exponentially weighted variance with weight one half -/
example : ∃ v : ℕ → ℝ, Model.Rounded.ewma Machine.ieee [.fin 2, .fin (-4), .fin 3] (.fin 6) (.fin (1 / 2)) =
        .ok [.fin (v 0), .fin (v 1), .fin (v 2)] ∧
    |v 2 - 21 / 2| ≤ 6 * 2 ^ (-53 : ℤ) / (1 - 6 * 2 ^ (-53 : ℤ)) * (21 / 2) := by
  obtain ⟨tiny, huge, A, h1, h2, h3⟩ := acc64 (M := Machine.ieee) rfl
  have hbig : (2 : ℝ) ^ (30 : ℤ) ≤ 2 ^ (1000 : ℤ) := zpow_le_zpow_right₀ (by norm_num) (by norm_num)
  have hsmall : (2 : ℝ) ^ (-950 : ℤ) ≤ 1 := zpow_le_one_of_nonpos₀ (by norm_num) (by norm_num)
  have hone : (1 : ℝ) < 2 ^ (1024 : ℤ) := one_lt_zpow₀ (by norm_num) (by norm_num)
  have rh : Machine.ieee.R.Rep (.fin (1 / 2)) := by
    show binary64.rd (1 / 2) = _
    rw [Format.rd_of_nonneg (by norm_num)]
    have e := Format.val_exact (F := binary64) 1 (-1) (by norm_num [binary64]) (by norm_num [binary64])
    have e' : ((1 : ℕ) : ℝ) * 2 ^ (-1 : ℤ) = 1 / 2 := by norm_num
    rw [e'] at e
    unfold Format.posRd
    rw [e, if_neg]
    show ¬ (2 : ℝ) ^ (1024 : ℤ) ≤ _
    rw [not_le]
    exact lt_trans (by norm_num) hone
  have r6 : Machine.ieee.R.Rep (.fin 6) := by
    exact_mod_cast Rounding.rep_nat (R := binary64.rounding) (n := 6) (by norm_num [Format.rounding, binary64])
  have ht0 := A.tiny_nonneg
  generalize (2 : ℝ) ^ (1000 : ℤ) = B at *
  generalize (2 : ℝ) ^ (-950 : ℤ) = C at *
  clear hone
  norm_num at h2 h3 hbig
  have ht : 2 * tiny ≤ 1 := by linarith
  have hh : 1000000 ≤ huge := by linarith
  have inr : ∀ z : ℝ, 1 ≤ z → z ≤ 500000 → InRange tiny huge z := fun z a b => Or.inr ⟨by linarith, by linarith⟩
  let r : ℕ → ℝ := fun t => if t = 0 then 2 else if t = 1 then -4 else 3
  let x := exactEwma (1 / 2) 6 r
  have x0 : x 0 = 6 := rfl
  have x1 : x 1 = 5 := by
    show 1 / 2 * 6 + (1 - 1 / 2) * r 0 ^ 2 = _
    rw [show r 0 = 2 from rfl]
    norm_num
  have x2 : x 2 = 21 / 2 := by
    show 1 / 2 * x 1 + (1 - 1 / 2) * r 1 ^ 2 = _
    rw [x1, show r 1 = -4 by norm_num [r]]
    norm_num
  obtain ⟨v, e, hv⟩ := C165_ewma_accuracy Machine.ieee A (1 / 2) 6 (by norm_num) (by norm_num) rh (by norm_num) r6 3
    (by norm_num) (by norm_num) r x rfl (by linarith)
    (by
      intro t ht
      interval_cases t
      · rw [x0]; linarith
      · rw [x1]; linarith
      · rw [x2]; linarith)
    (by
      intro t ht
      have : t = 0 ∨ t = 1 := by omega
      rcases this with rfl | rfl
      · rw [x0]
        refine ⟨inr _ ?_ ?_, inr _ ?_ ?_, inr _ ?_ ?_⟩ <;> norm_num [r]
      · rw [x1]
        refine ⟨inr _ ?_ ?_, inr _ ?_ ?_, inr _ ?_ ?_⟩ <;> norm_num [r])
  refine ⟨v, ?_, ?_⟩
  · simpa [List.range_succ, r] using e
  · have := hv 2 (by norm_num)
    rw [x2] at this
    norm_num at this ⊢
    exact this

end
end Frds.Props

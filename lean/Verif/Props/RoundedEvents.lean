import Verif.Props.RoundedLrmes
import Verif.Props.RoundedRiskError

/-! C194: the simulations of LRMES in floating point, Python against C++. -/
namespace Frds.Props
noncomputable section
open Frds Frds.Model Classical Rounding
open Frds.Props.Rounded
set_option linter.unusedSimpArgs false

namespace RoundedEvents

theorem simVar_eq (M : Machine) (cpp : Bool) (p : GjrParams) (r v : XR) :
    Model.Rounded.simVar M cpp p r v = Model.Rounded.simVarPy M p r v := by
  cases cpp
  · rfl
  · simp only [Model.Rounded.simVar, Model.Rounded.simVarCpp, Model.Rounded.simVarPy, if_true]
    split_ifs
    · rfl
    · generalize hv : M.R.add (M.R.add p.omega (M.R.mul p.alpha (M.R.mul r r))) (M.R.mul p.beta v) = y
      have hr : M.R.Rep y := hv ▸ rep_add _ _
      unfold Rounding.add
      cases y <;> try rfl
      rename_i a
      show _ = M.R.round (.fin a + .fin 0)
      rw [XR.fin_add, add_zero]
      exact hr.symm

/-- the market side of the simulation: variance and residual, from period to period -/
theorem market_loop (M : Machine) (x x' : SimArgs) (hp : x.pm = x'.pm) (cpp cpp' : Bool) :
    ∀ (l l' : List (XR × XR)) (s s' : SimState), l.map Prod.snd = l'.map Prod.snd → s.residM = s'.residM →
      s.varM = s'.varM →
      (Model.Rounded.simLoop M cpp x s l).map Prod.snd = (Model.Rounded.simLoop M cpp' x' s' l').map Prod.snd := by
  intro l
  induction l with
  | nil =>
    intro l' s s' h _ _
    cases l' with
    | nil => rfl
    | cons => simp at h
  | cons z t ih =>
    intro l' s s' h h1 h2
    cases l' with
    | nil => simp at h
    | cons z' t' =>
      simp only [List.map_cons, List.cons.injEq] at h
      have hv : Model.Rounded.simVar M cpp x.pm s.residM s.varM = Model.Rounded.simVar M cpp' x'.pm s'.residM s'.varM := by
        rw [simVar_eq, simVar_eq, hp, h1, h2]
      simp only [Model.Rounded.simLoop, List.map_cons]
      congr 1
      · simp only [Model.Rounded.simStep]
        rw [hv, h.1, hp]
      · apply ih t' _ _ h.2
        · simp only [Model.Rounded.simStep, hv, h.1]
        · simp only [Model.Rounded.simStep, hv]

end RoundedEvents
open RoundedEvents

/-- C194: the simulated market returns of a path are the same floats in Python and in C++, and depend only on the market's
parameters, variance and residual and on the market innovations: not on the firm, the correlation parameters or the
threshold. -/
theorem C194_market (M : Machine) (cpp cpp' : Bool) (x x' : SimArgs) (hp : x.pm = x'.pm) (hr : x.mktResid = x'.mktResid)
    (hv : x.mktVar = x'.mktVar) (p p' : List (XR × XR)) (hz : p.map Prod.snd = p'.map Prod.snd) :
    (Model.Rounded.simLoop M cpp x (Model.Rounded.simInit M x) p).map Prod.snd
      = (Model.Rounded.simLoop M cpp' x' (Model.Rounded.simInit M x') p').map Prod.snd :=
  market_loop M x x' hp cpp cpp' p p' _ _ hz hr hv

namespace RoundedEvents

/-- the computed daily market returns of a path (scaled back), as summed by both implementations -/
def daily (M : Machine) (x : SimArgs) (p : List (XR × XR)) : List XR :=
  (Model.Rounded.simLoop M false x (Model.Rounded.simInit M x) p).map fun r => M.R.div r.2 100

theorem daily_eq (M : Machine) (cpp : Bool) (x : SimArgs) (p : List (XR × XR)) :
    (Model.Rounded.simLoop M cpp x (Model.Rounded.simInit M x) p).map (fun r => M.R.div r.2 100) = daily M x p := by
  have := congrArg (List.map fun v => M.R.div v 100) (C194_market M cpp false x x rfl rfl rfl p p rfl)
  rw [List.map_map, List.map_map] at this
  exact this

theorem event_eq (M : Machine) (cpp : Bool) (i : ℕ) (x : SimArgs) (p : List (XR × XR)) :
    (Model.Rounded.simulation M cpp i x p).2
      = decide (M.R.sub (M.exp (Model.Rounded.simSum M cpp (2 * i) (daily M x p))) 1 < x.C) := by
  unfold Model.Rounded.simulation
  simp only [daily_eq]
  split_ifs with h
  · simp [h]
  · simp [h]

theorem simSum_ok (M : Machine) (cpp : Bool) (i : ℕ) (l : List XR) : M.R.IsSum l (Model.Rounded.simSum M cpp i l) := by
  unfold Model.Rounded.simSum
  split_ifs
  · exact Rounding.foldSum_ok l
  · exact M.sum_ok i l

/-- a one-day horizon: a sum of one float is that float -/
theorem sum_single {R : Rounding} {l : List XR} {s : XR} (h : R.IsSum l s) :
    ∀ x, l = [x] → R.Rep x → s = x := by
  have zero_add : ∀ x : XR, R.Rep x → R.add (.fin 0) x = x ∧ R.add x (.fin 0) = x := by
    intro x hx
    unfold Rounding.add
    constructor
    · cases x <;> try rfl
      rename_i a
      rw [XR.fin_add, _root_.zero_add]; exact hx
    · cases x <;> try rfl
      rename_i a
      rw [XR.fin_add, _root_.add_zero]; exact hx
  induction h with
  | nil => intro x h; simp at h
  | single y => intro x h _; simpa using h
  | @add l₁ l₂ s₁ s₂ a b h1 h2 =>
    intro x h hx
    cases l₁ with
    | nil =>
      have := Accurate.isSum_nil a
      rw [this, h2 x (by simpa using h) hx, (zero_add x hx).1]
    | cons y t =>
      simp only [List.cons_append, List.cons.injEq, List.append_eq_nil_iff] at h
      obtain ⟨rfl, rfl, rfl⟩ := h
      rw [Accurate.isSum_nil b, h1 y rfl hx, (zero_add y hx).2]
  | perm hp _ ih => intro x h hx; subst h; exact ih x (by simpa using hp) hx

end RoundedEvents

/-- C194: unless the market's total return is within the rounding error of the summation of the threshold, both
implementations agree on the systemic event: if every number that close to the exact sum of the (same) daily returns lies on
one side of the threshold, the event is decided by the exact sum. -/
theorem C194_event (M : Machine) {u tiny huge : ℝ} (A : Accurate M.R u tiny huge) (hu1 : u < 1) (x : SimArgs)
    (p : List (XR × XR)) (m : List ℝ)
    (hm : (Model.Rounded.simLoop M true x (Model.Rounded.simInit M x) p).map (fun r => M.R.div r.2 100) = m.map .fin)
    (hn : 2 * ((m.length : ℝ) * u) ≤ 1) (hr : 2 * (m.map abs).sum ≤ huge)
    (hC : (∀ y, |y - m.sum| ≤ ((m.length - 1 : ℕ) : ℝ) * u / (1 - ((m.length - 1 : ℕ) : ℝ) * u) * (m.map abs).sum →
        M.R.sub (M.exp (.fin y)) 1 < x.C) ∨
      (∀ y, |y - m.sum| ≤ ((m.length - 1 : ℕ) : ℝ) * u / (1 - ((m.length - 1 : ℕ) : ℝ) * u) * (m.map abs).sum →
        ¬ M.R.sub (M.exp (.fin y)) 1 < x.C)) (cpp : Bool) (i : ℕ) :
    (Model.Rounded.simulation M cpp i x p).2 = decide (M.R.sub (M.exp (.fin m.sum)) 1 < x.C) := by
  have hu := A.u_nonneg
  rw [event_eq]
  rw [daily_eq] at hm
  have hrep : ∀ v ∈ daily M x p, ∃ r, v = .fin r ∧ M.R.rd r = .fin r := by
    intro v hv
    have hv' := hv
    rw [hm] at hv'
    obtain ⟨r, _, rfl⟩ := List.mem_map.mp hv'
    refine ⟨r, rfl, ?_⟩
    unfold daily at hv
    obtain ⟨q, _, e⟩ := List.mem_map.mp hv
    have : M.R.Rep (.fin r) := e ▸ rep_div _ _
    exact this
  have hl : (daily M x p).length = m.length := by rw [hm, List.length_map]
  have hs1 : (daily M x p).map Accurate.re = m := by
    rw [hm, List.map_map]
    conv_rhs => rw [← List.map_id m]
    rfl
  have hs2 : (daily M x p).map (fun v => |Accurate.re v|) = m.map abs := by
    rw [hm, List.map_map]
    rfl
  obtain ⟨t, ht, -, hA⟩ := A.sum_signed hu1 (simSum_ok M cpp (2 * i) (daily M x p)) hrep (by rw [hl]; exact hn)
    (by rw [hs2]; exact hr)
  rw [hl, hs1, hs2] at hA
  have hk : ((m.length - 1 : ℕ) : ℝ) * u < 1 := by
    have h1 : ((m.length - 1 : ℕ) : ℝ) ≤ m.length := by exact_mod_cast Nat.sub_le _ _
    nlinarith [mul_le_mul_of_nonneg_right h1 hu]
  have he := hA.error hk hu1
  have h0 : |m.sum - m.sum| ≤ ((m.length - 1 : ℕ) : ℝ) * u / (1 - ((m.length - 1 : ℕ) : ℝ) * u) * (m.map abs).sum := by
    rw [sub_self, abs_zero]
    have : 0 ≤ (m.map abs).sum := List.sum_nonneg (by
      intro v hv
      obtain ⟨w, _, rfl⟩ := List.mem_map.mp hv
      exact abs_nonneg w)
    have h2 : 0 ≤ ((m.length - 1 : ℕ) : ℝ) * u := by positivity
    exact mul_nonneg (div_nonneg h2 (by linarith)) this
  rw [ht]
  rcases hC with h | h
  · simp [h t he, h _ h0]
  · simp [h t he, h _ h0]

namespace RoundedEvents

/-- a market with constant variance one that falls by 100 % (in logs) every day -/
def crash (firm : GjrParams) (a b rho : XR) : SimArgs where
  C := .fin (-1 / 10)
  firmVar := 1
  mktVar := .fin 1
  firmResid := 1
  mktResid := .fin 0
  a := a
  b := b
  rho := rho
  q00 := 1
  q11 := 1
  q10 := rho
  pi := firm
  pm := ⟨.fin 0, .fin 1, .fin 0, .fin 0, .fin 0⟩

theorem ieee_int (n : ℤ) (h : n.natAbs ≤ 100) : Machine.ieee.R.rd (n : ℝ) = .fin (n : ℝ) := by
  have h' : Machine.ieee.R.rd ((n.natAbs : ℕ) : ℝ) = .fin ((n.natAbs : ℕ) : ℝ) :=
    rep_nat (R := Machine.ieee.R) (n := n.natAbs) (by
      have : (100 : ℕ) ≤ 2 ^ Machine.ieee.R.prec := by
        rw [show Machine.ieee.R.prec = 53 from rfl]; norm_num
      omega)
  rcases Int.natAbs_eq n with e | e
  · rw [e, Int.cast_natCast]; exact h'
  · rw [e]
    push_cast
    rw [Machine.ieee.R.neg]
    have : Machine.ieee.R.rd (|(n : ℝ)|) = .fin |(n : ℝ)| := by simpa using h'
    simp [this]

theorem crash_step (firm : GjrParams) (a b rho : XR) (cpp : Bool) (s : SimState) (h : s.varM = .fin 1)
    (hr : s.residM = .fin 0 ∨ s.residM = .fin (-100)) (z : XR) :
    (Model.Rounded.simStep Machine.ieee cpp (crash firm a b rho) s (z, .fin (-100))).1.varM = .fin 1 ∧
    (Model.Rounded.simStep Machine.ieee cpp (crash firm a b rho) s (z, .fin (-100))).1.residM = .fin (-100) ∧
    Machine.ieee.R.div (Model.Rounded.simStep Machine.ieee cpp (crash firm a b rho) s (z, .fin (-100))).2.2 100 = .fin (-1) := by
  have r0 : Machine.ieee.R.rd 0 = .fin 0 := by simpa using ieee_int 0 (by norm_num)
  have r1 : Machine.ieee.R.rd 1 = .fin 1 := by simpa using ieee_int 1 (by norm_num)
  have rm : Machine.ieee.R.rd (-1) = .fin (-1) := by simpa using ieee_int (-1) (by norm_num)
  have rh : Machine.ieee.R.rd (-100) = .fin (-100) := by simpa using ieee_int (-100) (by norm_num)
  have mulz : ∀ v : ℝ, Machine.ieee.R.mul (.fin 0) (.fin v) = .fin 0 := by
    intro v
    simp only [Rounding.mul, XR.fin_mul, zero_mul, round_fin, r0]
  have add0 : Machine.ieee.R.add (.fin 1) (.fin 0) = .fin 1 := by
    simp only [Rounding.add, XR.fin_add, add_zero, round_fin, r1]
  obtain ⟨q, hq⟩ : ∃ q, Machine.ieee.R.mul s.residM s.residM = .fin q := by
    rcases hr with h | h <;> rw [h]
    · exact ⟨0, mulz 0⟩
    · simp only [Rounding.mul, XR.fin_mul, round_fin]
      have : Machine.ieee.R.rd ((10000 : ℕ) : ℝ) = .fin ((10000 : ℕ) : ℝ) := rep_nat (R := Machine.ieee.R) (by
        rw [show Machine.ieee.R.prec = 53 from rfl]; norm_num)
      exact ⟨10000, by norm_num at this ⊢; exact this⟩
  have hv : Model.Rounded.simVar Machine.ieee cpp (crash firm a b rho).pm s.residM s.varM = .fin 1 := by
    rw [simVar_eq]
    simp only [Model.Rounded.simVarPy, crash, h, hq, mulz, add0]
    split_ifs
    · exact add0
    · exact add0
  have hs : Machine.ieee.R.sqrt (.fin 1) = .fin 1 := by
    unfold Rounding.sqrt
    rw [XR.fin_sqrt (by norm_num), Real.sqrt_one]
    exact r1
  have he : Machine.ieee.R.mul (.fin 1) (.fin (-100)) = .fin (-100) := by
    simp only [Rounding.mul, XR.fin_mul, one_mul, round_fin, rh]
  refine ⟨hv, ?_, ?_⟩
  · simp only [Model.Rounded.simStep]
    rw [hv, hs, he]
  · simp only [Model.Rounded.simStep]
    rw [hv, hs, he]
    simp only [crash, Rounding.add, XR.fin_add, zero_add, round_fin, rh, Rounding.div]
    rw [show (100 : XR) = .fin 100 from rfl, XR.fin_div _ (by norm_num), round_fin]
    norm_num
    exact rm

theorem crash_daily (firm : GjrParams) (a b rho : XR) (cpp : Bool) (z1 z2 z3 : XR) :
    (Model.Rounded.simLoop Machine.ieee cpp (crash firm a b rho) (Model.Rounded.simInit Machine.ieee (crash firm a b rho))
      [(z1, .fin (-100)), (z2, .fin (-100)), (z3, .fin (-100))]).map (fun r => Machine.ieee.R.div r.2 100)
      = [-1, -1, -1].map XR.fin := by
  obtain ⟨a1, a2, a3⟩ := crash_step firm a b rho cpp (Model.Rounded.simInit Machine.ieee (crash firm a b rho)) rfl (Or.inl rfl) z1
  obtain ⟨b1, b2, b3⟩ := crash_step firm a b rho cpp _ a1 (Or.inr a2) z2
  obtain ⟨c1, c2, c3⟩ := crash_step firm a b rho cpp _ b1 (Or.inr b2) z3
  simp only [Model.Rounded.simLoop, List.map_cons, List.map_nil, a3, b3, c3]

end RoundedEvents

/-- binary64: a market falling by one log point a day for three days is a systemic event in both implementations, whatever the
firm and the correlation parameters -/
example (firm : GjrParams) (a b rho z1 z2 z3 : XR) (cpp : Bool) (i : ℕ) :
    (Model.Rounded.simulation Machine.ieee cpp i (crash firm a b rho)
      [(z1, .fin (-100)), (z2, .fin (-100)), (z3, .fin (-100))]).2 = true := by
  obtain ⟨tiny, huge, A, h1, h2, h3⟩ := acc64 (M := Machine.ieee) rfl
  have hbig : (1 : ℝ) ≤ 2 ^ (1000 : ℤ) := one_le_zpow₀ (by norm_num) (by norm_num)
  have hu : (2 : ℝ) ^ (-53 : ℤ) ≤ 1 / 100 := by norm_num
  have hu0 : (0 : ℝ) < 2 ^ (-53 : ℤ) := by positivity
  have key : ∀ y : ℝ, y ≤ -2 → Machine.ieee.R.sub (Machine.ieee.exp (.fin y)) 1 < (.fin (-1 / 10) : XR) := by
    intro y hy
    have e1 : Real.exp y ≤ 1 / 2 := by
      have : Real.exp y ≤ Real.exp (-1) := Real.exp_le_exp.mpr (by linarith)
      have h2 : Real.exp (-1) ≤ 1 / 2 := by
        rw [Real.exp_neg, ← one_div]
        exact one_div_le_one_div_of_le (by norm_num) (by have := Real.add_one_le_exp (1 : ℝ); linarith)
      linarith
    have e2 : Machine.ieee.exp (.fin y) ≤ .fin (1 / 2) := by
      show Machine.ieee.R.round (XR.exp (.fin y)) ≤ _
      rw [XR.fin_exp]
      exact round_le ieee_half (XR.fin_le.mpr e1)
    have e3 : 0 ≤ Machine.ieee.exp (.fin y) := by
      show 0 ≤ Machine.ieee.R.round (XR.exp (.fin y))
      rw [XR.fin_exp]
      exact round_nonneg (XR.fin_le.mpr (Real.exp_pos y).le)
    rcases XR.nonneg_cases e3 with e | ⟨r, hr, e⟩
    · rw [e] at e2; exact False.elim e2
    · rw [e] at e2 ⊢
      rw [XR.fin_le] at e2
      have hn : Machine.ieee.R.Rep (.fin (-(1 / 2))) := by
        have := neg_rep ieee_half
        rwa [XR.fin_neg] at this
      have e4 : Machine.ieee.R.sub (.fin r) 1 ≤ .fin (-(1 / 2)) := by
        unfold Rounding.sub
        apply round_le hn
        show (XR.fin r - XR.fin 1) ≤ _
        rw [XR.fin_sub]
        exact XR.fin_le.mpr (by linarith)
      generalize Machine.ieee.R.sub (.fin r) 1 = w at e4
      cases w with
      | nan => exact absurd e4 (by simp)
      | ninf => trivial
      | pinf => exact False.elim e4
      | fin w => rw [XR.fin_le] at e4; exact XR.fin_lt.mpr (by linarith)
  have hs : ([-1, -1, -1] : List ℝ).sum = -3 := by norm_num
  have ha : (([-1, -1, -1] : List ℝ).map abs).sum = 3 := by norm_num
  have := C194_event Machine.ieee A (by norm_num) (crash firm a b rho) _ [-1, -1, -1] (crash_daily firm a b rho true z1 z2 z3)
    (by simp only [List.length_cons, List.length_nil]; norm_num)
    (by rw [ha]; generalize (2 : ℝ) ^ (1000 : ℤ) = B at *; norm_num at h2 ⊢; linarith)
    (Or.inl (by
      intro y hy
      apply key
      rw [hs, ha] at hy
      simp only [List.length_cons, List.length_nil] at hy
      have hB : ((0 + 1 + 1 + 1 - 1 : ℕ) : ℝ) * 2 ^ (-53 : ℤ) / (1 - ((0 + 1 + 1 + 1 - 1 : ℕ) : ℝ) * 2 ^ (-53 : ℤ)) * 3 ≤ 1 := by
        push_cast
        norm_num
      have := (abs_le.mp (hy.trans hB)).2
      linarith)) cpp i
  rw [this, hs]
  exact decide_eq_true (key (-3) (by norm_num))

/-- C194: over a horizon of one day the systemic events always agree, whatever the inputs. -/
theorem C194_one_day (M : Machine) (x : SimArgs) (z : XR × XR) (i j : ℕ) :
    (Model.Rounded.simulation M true i x [z]).2 = (Model.Rounded.simulation M false j x [z]).2 := by
  rw [event_eq, event_eq]
  have hd : ∃ v, daily M x [z] = [v] ∧ M.R.Rep v := ⟨_, rfl, rep_div _ _⟩
  obtain ⟨v, hv, hr⟩ := hd
  rw [hv, sum_single (simSum_ok M true (2 * i) [v]) v rfl hr, sum_single (simSum_ok M false (2 * j) [v]) v rfl hr]

/-- C194: if the implementations agree on every path's event they count the same number of events; in particular one of them
reports no event exactly when the other does. -/
theorem C194_count (M : Machine) (x : SimArgs) (paths : List (List (XR × XR)))
    (h : ∀ p ∈ paths, ∀ i, (Model.Rounded.simulation M true i x p).2 = (Model.Rounded.simulation M false i x p).2) :
    (Model.Rounded.accumulate M true x 0 (0, 0) paths).2 = (Model.Rounded.accumulate M false x 0 (0, 0) paths).2 := by
  have key : ∀ (l : List (List (XR × XR))) (i n : ℕ) (a b : XR),
      (∀ p ∈ l, ∀ i, (Model.Rounded.simulation M true i x p).2 = (Model.Rounded.simulation M false i x p).2) →
      (Model.Rounded.accumulate M true x i (a, n) l).2 = (Model.Rounded.accumulate M false x i (b, n) l).2 := by
    intro l
    induction l with
    | nil => intro i n a b _; rfl
    | cons p t ih =>
      intro i n a b h
      simp only [Model.Rounded.accumulate]
      rw [h p (by simp) i]
      exact ih _ _ _ _ fun q hq => h q (by simp [hq])
  exact key paths 0 0 0 0 h

/-- any number of one-day paths: the same number of events -/
example (M : Machine) (x : SimArgs) (zs : List (XR × XR)) :
    (Model.Rounded.accumulate M true x 0 (0, 0) (zs.map fun z => [z])).2
      = (Model.Rounded.accumulate M false x 0 (0, 0) (zs.map fun z => [z])).2 :=
  C194_count M x _ fun p hp i => by
    obtain ⟨z, _, rfl⟩ := List.mem_map.mp hp
    exact C194_one_day M x z i i

/-- another firm, other correlation parameters, the other implementation: the same market returns -/
example (M : Machine) (firm firm' : GjrParams) :
    (Model.Rounded.simLoop M true (crash firm (.fin 0) (.fin 0) (.fin 0)) (Model.Rounded.simInit M (crash firm (.fin 0) (.fin 0) (.fin 0)))
      [(.fin 1, .fin 2), (.fin 3, .fin (-4))]).map Prod.snd
    = (Model.Rounded.simLoop M false (crash firm' (.fin 1) (.nan) (.fin 2)) (Model.Rounded.simInit M (crash firm' (.fin 1) (.nan) (.fin 2)))
      [(.nan, .fin 2), (.fin 5, .fin (-4))]).map Prod.snd :=
  C194_market M true false _ _ rfl rfl rfl _ _ rfl

end
end Frds.Props

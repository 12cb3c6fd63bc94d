import Verif.Model.RoundedPrep
import Verif.Props.CccFloat
import Verif.Props.DccFloat
import Verif.Props.PinFloat

/-! C211: from returns to finite objectives, in binary64. -/
namespace Frds.Props
noncomputable section
open Frds Frds.Model Classical Rounding
set_option linter.unusedSimpArgs false

namespace PrepFloat
open RoundedDcc

/-- a finite non-negative number of the format, at most `B` -/
def Nn (M : Machine) (B : ℝ) (x : XR) : Prop := ∃ y : ℝ, x = .fin y ∧ 0 ≤ y ∧ y ≤ B ∧ M.R.Rep (.fin y)

variable {M : Machine}

theorem Nn.mono {a b : ℝ} {x : XR} (h : Nn M a x) (hab : a ≤ b) : Nn M b x := by
  obtain ⟨y, e, h0, h1, r⟩ := h
  exact ⟨y, e, h0, h1.trans hab, r⟩

theorem Nn.nonneg {a : ℝ} {x : XR} (h : Nn M a x) : 0 ≤ x := by
  obtain ⟨y, rfl, h0, h1, r⟩ := h
  exact XR.fin_le.mpr h0

theorem Nn.rep {a : ℝ} {x : XR} (h : Nn M a x) : M.R.Rep x := by
  obtain ⟨y, rfl, h0, h1, r⟩ := h
  exact r

/-- rounding a non-negative real -/
theorem nn_rd (hM : M.R = binary64.rounding) {x B : ℝ} (h0 : 0 ≤ x) (hx : x ≤ B) (h1 : 1 ≤ B) (hB : B ≤ 2 ^ 200) :
    Nn M (2 * B) (M.R.rd x) := by
  obtain ⟨tiny, huge, A, ht, hh⟩ := env M hM
  have ht1 : tiny ≤ 1 := by simpa using tinyLe (k := 0) ht (by norm_num) A.tiny_nonneg
  obtain ⟨y, e, b⟩ := rd_bnd A (by norm_num) ht1 (x := x) (K := B) (by rwa [abs_of_nonneg h0]) h1
    (hugeGe hh (k := 200) (by norm_num) hB)
  have := M.R.rd_nonneg h0
  rw [e] at this
  exact ⟨y, e, XR.fin_le.mp this, (le_abs_self y).trans b, M.R.idem _ _ e⟩

theorem Nn.add (hM : M.R = binary64.rounding) {a b : ℝ} {x y : XR} (hx : Nn M a x) (hy : Nn M b y) (h1 : 1 ≤ a + b) (h2 : a + b ≤ 2 ^ 200) :
    Nn M (2 * (a + b)) (M.R.add x y) := by
  obtain ⟨x, rfl, x0, x1, -⟩ := hx
  obtain ⟨y, rfl, y0, y1, -⟩ := hy
  unfold Rounding.add
  rw [XR.fin_add, Rounding.round_fin]
  exact nn_rd hM (by linarith) (by linarith) h1 h2

theorem Nn.mul (hM : M.R = binary64.rounding) {a b : ℝ} {x y : XR} (hx : Nn M a x) (hy : Nn M b y) (h1 : 1 ≤ a * b) (h2 : a * b ≤ 2 ^ 200) :
    Nn M (2 * (a * b)) (M.R.mul x y) := by
  obtain ⟨x, rfl, x0, x1, -⟩ := hx
  obtain ⟨y, rfl, y0, y1, -⟩ := hy
  unfold Rounding.mul
  rw [XR.fin_mul, Rounding.round_fin]
  exact nn_rd hM (mul_nonneg x0 y0) (mul_le_mul x1 y1 y0 (x0.trans x1)) h1 h2

theorem nn_sq (hM : M.R = binary64.rounding) {r B : ℝ} (hr : |r| ≤ B) (h1 : 1 ≤ B * B) (h2 : B * B ≤ 2 ^ 200) :
    Nn M (2 * (B * B)) (M.R.mul (.fin r) (.fin r)) := by
  unfold Rounding.mul
  rw [XR.fin_mul, Rounding.round_fin]
  have := mul_le_mul hr hr (abs_nonneg _) ((abs_nonneg _).trans hr)
  rw [abs_mul_abs_self] at this
  exact nn_rd hM (mul_self_nonneg r) this h1 h2

/-- the assumptions on the machine's logarithm: finite on the range in use, non-negative from one on -/
structure LogRange (M : Machine) : Prop where
  fin : ∀ w : ℝ, 1 / 2 ^ 170 ≤ w → w ≤ 2 ^ 170 → ∃ l, M.log (.fin w) = .fin l ∧ |l| ≤ 200
  one : ∀ x : XR, 1 ≤ x → 0 ≤ M.log x

/-- the range of the bounds of a variance -/
def Row (M : Machine) (b : XR × XR) : Prop :=
  ∃ l u : ℝ, b = (.fin l, .fin u) ∧ 1 / 2 ^ 80 ≤ l ∧ l ≤ u ∧ u ≤ 2 ^ 77 ∧ M.R.Rep (.fin u)

theorem check (hM : M.R = binary64.rounding) (hlog : LogRange M) (cpp : Bool) {b : XR × XR} (hb : Row M b) {s : ℝ} (s0 : 0 ≤ s) (hs : s ≤ 2 ^ 86) :
    ∃ y : ℝ, Model.Rounded.boundsCheck M cpp (.fin s) b = .fin y ∧ 1 / 2 ^ 80 ≤ y ∧ y ≤ 2 ^ 79 := by
  obtain ⟨l, u, rfl, h1, h2, h3, h4⟩ := hb
  have l0 : 0 < l := lt_of_lt_of_le (by positivity) h1
  have u0 : 0 < u := by linarith
  have key : ∀ m : ℝ, l ≤ m → m ≤ 2 ^ 86 → ∃ y : ℝ,
      (if (XR.fin u : XR) < .fin m then (if ¬ (XR.fin m).isInf then M.R.add (.fin u) (M.log (M.R.div (.fin m) (.fin u))) else M.R.add (.fin u) 1000)
        else .fin m) = .fin y ∧ 1 / 2 ^ 80 ≤ y ∧ y ≤ 2 ^ 79 := by
    intro m m1 m2
    by_cases hlt : u < m
    · have hq1 : 1 ≤ m / u := (one_le_div u0).mpr hlt.le
      have hq2 : m / u ≤ 2 ^ 166 := by
        rw [div_le_iff₀ u0]
        have := mul_le_mul_of_nonneg_left (h1.trans h2) (show (0 : ℝ) ≤ 2 ^ 166 by positivity)
        norm_num at this m2 ⊢
        linarith
      obtain ⟨q, eq, q0, q1, rq⟩ := nn_rd hM (by linarith) hq2 (by norm_num) (by norm_num)
      have q2 : 1 ≤ q := by
        have := Rounding.le_round (R := M.R) (x := .fin 1) (y := .fin (m / u)) Rounding.rep_one (XR.fin_le.mpr hq1)
        rw [Rounding.round_fin, eq] at this
        exact XR.fin_le.mp this
      obtain ⟨k, ek, bk⟩ := hlog.fin q (by norm_num at q2 ⊢; linarith) (by norm_num at q1 ⊢; linarith)
      have k0 : 0 ≤ k := by
        have := hlog.one (.fin q) (XR.fin_le.mpr q2)
        rw [ek] at this
        exact XR.fin_le.mp this
      obtain ⟨y, ey, y0, y1, -⟩ := nn_rd hM (x := u + k) (B := 2 ^ 77 + 200) (by linarith) (by linarith [(abs_le.mp bk).2]) (by norm_num) (by norm_num)
      have y2 : u ≤ y := by
        have := Rounding.le_round (R := M.R) (x := .fin u) (y := .fin (u + k)) h4 (XR.fin_le.mpr (by linarith))
        rw [Rounding.round_fin, ey] at this
        exact XR.fin_le.mp this
      refine ⟨y, ?_, by linarith, by norm_num at y1 ⊢; linarith⟩
      have ed : M.R.div (.fin m) (.fin u) = .fin q := by unfold Rounding.div; rw [XR.fin_div _ u0.ne', Rounding.round_fin, eq]
      rw [if_pos (XR.fin_lt.mpr hlt), if_pos (by simp [XR.isInf]), ed, ek]
      unfold Rounding.add
      rw [XR.fin_add, Rounding.round_fin, ey]
    · refine ⟨m, by rw [if_neg (fun h => hlt (XR.fin_lt.mp h))], by linarith, ?_⟩
      have : m ≤ u := not_lt.mp hlt
      norm_num at h3 ⊢
      linarith
  have hl86 : l ≤ 2 ^ 86 := by norm_num at h3 ⊢; linarith
  cases cpp
  · simp only [Model.Rounded.boundsCheck, Bool.false_eq_true, if_false, Model.Rounded.boundsCheckPy, XR.pyMax]
    by_cases h : l < s
    · simp only [XR.fin_lt, if_pos h]
      have := key s h.le hs
      simpa only [XR.fin_lt] using this
    · simp only [XR.fin_lt, if_neg h]
      have := key l le_rfl hl86
      simpa only [XR.fin_lt] using this
  · simp only [Model.Rounded.boundsCheck, if_true, Model.Rounded.boundsCheckCpp]
    by_cases h : s < l
    · simp only [XR.fin_lt, if_pos h]
      have := key l le_rfl hl86
      simpa only [XR.fin_lt] using this
    · simp only [XR.fin_lt, if_neg h]
      have := key s (not_lt.mp h) hs
      simpa only [XR.fin_lt] using this

/-- the loop stays in the range -/
theorem loop (hM : M.R = binary64.rounding) (hlog : LogRange M) (cpp : Bool) (next : XR → XR → XR)
    (hnext : ∀ r s : ℝ, |r| ≤ 2 ^ 16 → 0 ≤ s → s ≤ 2 ^ 79 → Nn M (2 ^ 86) (next (.fin r) (.fin s))) (l : List (ℝ × (XR × XR)))
    (hl : ∀ p ∈ l, |p.1| ≤ 2 ^ 16 ∧ Row M p.2) : ∀ s : ℝ, 0 ≤ s → s ≤ 2 ^ 79 →
    ∃ y : List ℝ, varLoop next (Model.Rounded.boundsCheck M cpp) (.fin s) (l.map fun p => (.fin p.1, p.2)) = y.map .fin ∧
      y.length = l.length ∧ ∀ v ∈ y, 1 / 2 ^ 80 ≤ v ∧ v ≤ 2 ^ 79 := by
  induction l with
  | nil => intro s _ _; exact ⟨[], rfl, rfl, by simp⟩
  | cons p l ih =>
    intro s s0 s1
    obtain ⟨hr, hrow⟩ := hl p (by simp)
    obtain ⟨w, ew, w0, w1, -⟩ := hnext p.1 s hr s0 s1
    obtain ⟨y, ey, y0, y1⟩ := check hM hlog cpp hrow w0 w1
    obtain ⟨t, et, lt, bt⟩ := ih (fun q hq => hl q (by simp [hq])) y (le_trans (by positivity) y0) y1
    refine ⟨y :: t, ?_, by simp [lt], ?_⟩
    · simp only [List.map_cons, varLoop, ew, ey, et]
    · intro v hv
      rcases List.mem_cons.mp hv with rfl | hv
      · exact ⟨y0, y1⟩
      · exact bt v hv

theorem path (hM : M.R = binary64.rounding) (hlog : LogRange M) (cpp : Bool) (next : XR → XR → XR)
    (hnext : ∀ r s : ℝ, |r| ≤ 2 ^ 16 → 0 ≤ s → s ≤ 2 ^ 79 → Nn M (2 ^ 86) (next (.fin r) (.fin s))) {s : ℝ} (h1 : 1 / 2 ^ 80 ≤ s) (h2 : s ≤ 2 ^ 79)
    (resids : List ℝ) (hne : resids ≠ []) (hr : ∀ r ∈ resids, |r| ≤ 2 ^ 16) (rows : List (XR × XR)) (hlen : resids.length ≤ rows.length)
    (hb : ∀ b ∈ rows, Row M b) :
    ∃ y : List ℝ, variancePath next (Model.Rounded.boundsCheck M cpp) (.fin s) (resids.map .fin) rows = .ok (y.map .fin) ∧
      y.length = resids.length ∧ ∀ v ∈ y, 1 / 2 ^ 80 ≤ v ∧ v ≤ 2 ^ 79 := by
  have he : List.zip (resids.map XR.fin).dropLast rows.tail = (List.zip resids.dropLast rows.tail).map fun p => (.fin p.1, p.2) := by
    rw [← List.map_dropLast, List.zip_map_left]
    rfl
  obtain ⟨y, ey, ly, by'⟩ := loop hM hlog cpp next hnext (List.zip resids.dropLast rows.tail) (by
    intro p hp
    have := List.of_mem_zip (a := p.1) (b := p.2) hp
    exact ⟨hr _ (List.mem_of_mem_dropLast this.1), hb _ (List.mem_of_mem_tail this.2)⟩) s (le_trans (by positivity) h1) h2
  refine ⟨s :: y, ?_, ?_, ?_⟩
  · unfold variancePath
    rw [if_neg (by simpa using hne), if_neg (by simp; intro _; omega), he, ey]
    rfl
  · have : 0 < resids.length := List.length_pos_iff.mpr hne
    rw [List.length_cons, ly, List.length_zip, List.length_dropLast, List.length_tail]
    omega
  · intro v hv
    rcases List.mem_cons.mp hv with rfl | hv
    · exact ⟨h1, h2⟩
    · exact by' v hv

/-- a coefficient: a number of the format between 0 and 1 -/
def Coef (M : Machine) (x : XR) : Prop := Nn M 1 x

/-- omega: a number of the format between `2^-80` and `2^40` -/
def Omega (M : Machine) (x : XR) : Prop := ∃ o : ℝ, x = .fin o ∧ 1 / 2 ^ 80 ≤ o ∧ o ≤ 2 ^ 40 ∧ M.R.Rep (.fin o)

theorem Omega.nn {x : XR} (h : Omega M x) : Nn M (2 ^ 40) x := by
  obtain ⟨o, e, h1, h2, r⟩ := h
  exact ⟨o, e, le_trans (by positivity) h1, h2, r⟩

theorem garchNext_nn (hM : M.R = binary64.rounding) {p : GarchVar} (ho : Nn M (2 ^ 40) p.omega) (ha : Nn M 1 p.alpha) (hb : Nn M 1 p.beta)
    {r s : ℝ} (hr : |r| ≤ 2 ^ 16) (s0 : 0 ≤ s) (s1 : s ≤ 2 ^ 79) : Nn M (2 ^ 83) (Model.Rounded.garchNext M p (.fin r) (.fin s)) := by
  have hq := nn_sq hM hr (by norm_num) (by norm_num)
  have h1 := ha.mul hM hq (by norm_num) (by norm_num)
  have h2 := ho.add hM h1 (by norm_num) (by norm_num)
  have h3 : Nn M (2 ^ 80) (M.R.mul p.beta (.fin s)) := by
    obtain ⟨b, eb, b0, b1, -⟩ := hb
    rw [eb]
    unfold Rounding.mul
    rw [XR.fin_mul, Rounding.round_fin]
    refine (nn_rd hM (mul_nonneg b0 s0) (B := 2 ^ 79) ?_ (by norm_num) (by norm_num)).mono (by norm_num)
    exact (mul_le_of_le_one_left s0 b1).trans s1
  exact (h2.add hM h3 (by norm_num) (by norm_num)).mono (by norm_num)

theorem gjrNext_nn (hM : M.R = binary64.rounding) (cpp : Bool) {p : GjrVar} (ho : Nn M (2 ^ 40) p.omega) (ha : Nn M 1 p.alpha) (hg : Nn M 1 p.gamma)
    (hb : Nn M 1 p.beta) {r s : ℝ} (hr : |r| ≤ 2 ^ 16) (s0 : 0 ≤ s) (s1 : s ≤ 2 ^ 79) :
    Nn M (2 ^ 86) ((if cpp then Model.Rounded.gjrNextCpp M p else Model.Rounded.gjrNext M p) (.fin r) (.fin s)) := by
  have h1 := garchNext_nn hM (p := ⟨p.omega, p.alpha, p.beta⟩) ho ha hb hr s0 s1
  unfold Model.Rounded.garchNext at h1
  have hq := hg.mul hM (nn_sq hM hr (by norm_num) (by norm_num)) (by norm_num) (by norm_num)
  have h2 := (h1.add hM hq (by norm_num) (by norm_num)).mono (b := 2 ^ 86) (by norm_num)
  have hz : Nn M 1 (0 : XR) := ⟨0, rfl, le_rfl, zero_le_one, Rounding.rep_zero⟩
  have h3 := (h1.add hM hz (by norm_num) (by norm_num)).mono (b := 2 ^ 86) (by norm_num)
  cases cpp
  · simp only [Bool.false_eq_true, if_false, Model.Rounded.gjrNext]
    by_cases h : XR.fin r < 0
    · rw [if_pos h]; exact h2
    · rw [if_neg h]; exact h3
  · simp only [if_true, Model.Rounded.gjrNextCpp]
    by_cases h : XR.fin r < 0
    · rw [if_pos h]; exact h2
    · rw [if_neg h]; exact h1.mono (by norm_num)

/-- the first variance -/
theorem first (hM : M.R = binary64.rounding) {o c bc : XR} (ho : Omega M o) (hc : Nn M 16 c) (hbc : Nn M (2 ^ 40) bc) :
    ∃ s : ℝ, M.R.add o (M.R.mul c bc) = .fin s ∧ 1 / 2 ^ 80 ≤ s ∧ s ≤ 2 ^ 79 := by
  have h1 := hc.mul hM hbc (by norm_num) (by norm_num)
  obtain ⟨s, es, s0, s1, -⟩ := ho.nn.add hM h1 (by norm_num) (by norm_num)
  obtain ⟨v, rfl, v1, v2, rv⟩ := ho
  have := Rounding.le_add_right (R := M.R) rv (XR.fin_le.mpr (le_trans (by positivity) v1)) h1.nonneg
  rw [es] at this
  exact ⟨s, es, v1.trans (XR.fin_le.mp this), by norm_num at s1 ⊢; linarith⟩

theorem two_rep (hM : M.R = binary64.rounding) : M.R.Rep (.fin 2) := by
  have := Rounding.rep_nat (R := M.R) (n := 2) (by rw [hM]; show 2 ≤ 2 ^ 53; norm_num)
  simpa using this

theorem garch_path (hM : M.R = binary64.rounding) (hlog : LogRange M) (cpp : Bool) {p : GarchVar} (ho : Omega M p.omega) (ha : Coef M p.alpha)
    (hb : Coef M p.beta) {bc : XR} (hbc : Nn M (2 ^ 40) bc) (resids : List ℝ) (hne : resids ≠ []) (hr : ∀ r ∈ resids, |r| ≤ 2 ^ 16)
    (rows : List (XR × XR)) (hlen : resids.length ≤ rows.length) (hrows : ∀ b ∈ rows, Row M b) :
    ∃ y : List ℝ, Model.Rounded.garchVariance M cpp p (resids.map .fin) bc rows = .ok (y.map .fin) ∧
      y.length = resids.length ∧ ∀ v ∈ y, 1 / 2 ^ 80 ≤ v ∧ v ≤ 2 ^ 79 := by
  obtain ⟨s, es, s1, s2⟩ := first hM ho ((ha.add hM hb (by norm_num) (by norm_num)).mono (by norm_num)) hbc
  unfold Model.Rounded.garchVariance
  rw [es]
  exact path hM hlog cpp _ (fun r s hr s0 s1 => (garchNext_nn hM ho.nn ha hb hr s0 s1).mono (by norm_num)) s1 s2 resids hne hr rows hlen hrows

theorem gjr_path (hM : M.R = binary64.rounding) (hlog : LogRange M) (cpp : Bool) {p : GjrVar} (ho : Omega M p.omega) (ha : Coef M p.alpha)
    (hg : Coef M p.gamma) (hb : Coef M p.beta) {bc : XR} (hbc : Nn M (2 ^ 40) bc) (resids : List ℝ) (hne : resids ≠ []) (hr : ∀ r ∈ resids, |r| ≤ 2 ^ 16)
    (rows : List (XR × XR)) (hlen : resids.length ≤ rows.length) (hrows : ∀ b ∈ rows, Row M b) :
    ∃ y : List ℝ, Model.Rounded.gjrVariance M cpp p (resids.map .fin) bc rows = .ok (y.map .fin) ∧
      y.length = resids.length ∧ ∀ v ∈ y, 1 / 2 ^ 80 ≤ v ∧ v ≤ 2 ^ 79 := by
  have hg2 : Nn M 2 (M.R.div p.gamma 2) := by
    obtain ⟨g, eg, g0, g1, -⟩ := hg
    rw [eg]
    unfold Rounding.div
    rw [show (2 : XR) = .fin 2 from rfl, XR.fin_div _ (by norm_num), Rounding.round_fin]
    exact (nn_rd hM (by positivity) (B := 1) (by linarith) le_rfl (by norm_num)).mono (by norm_num)
  have hc := ((ha.add hM hg2 (by norm_num) (by norm_num)).add hM hb (by norm_num) (by norm_num)).mono (b := 16) (by norm_num)
  obtain ⟨s, es, s1, s2⟩ := first hM ho hc hbc
  unfold Model.Rounded.gjrVariance
  rw [es]
  exact path hM hlog cpp _ (fun r s hr s0 s1 => gjrNext_nn hM cpp ho.nn ha hg hb hr s0 s1) s1 s2 resids hne hr rows hlen hrows

/-! ### the likelihood -/

theorem lik_term (hM : M.R = binary64.rounding) (hlog : LogRange M) {lp r s : ℝ} (hlp : Model.Rounded.log2pi M = .fin lp) (blp : |lp| ≤ 3)
    (hr : |r| ≤ 2 ^ 16) (s1 : 1 / 2 ^ 80 ≤ s) (s2 : s ≤ 2 ^ 79) :
    ∃ v : ℝ, Model.Rounded.likTerm M (.fin r) (.fin s) = .fin v ∧ M.R.Rep (.fin v) ∧ |v| ≤ 2 ^ 130 := by
  obtain ⟨tiny, huge, A, ht, hh⟩ := env M hM
  have ht1 : tiny ≤ 1 := by simpa using tinyLe (k := 0) ht (by norm_num) A.tiny_nonneg
  have hhuge := hugeGe (x := 2 ^ 200) hh (k := 200) (by norm_num) le_rfl
  have sp : 0 < s := lt_of_lt_of_le (by positivity) s1
  obtain ⟨q, eq, q0, q1, -⟩ := nn_sq hM hr (by norm_num) (by norm_num)
  have hd : q / s ≤ 2 ^ 113 := by
    rw [div_le_iff₀ sp]
    have := mul_le_mul_of_nonneg_left s1 (show (0 : ℝ) ≤ 2 ^ 113 by positivity)
    norm_num at this q1 ⊢
    linarith
  obtain ⟨d, ed, d0, d1, -⟩ := nn_rd hM (div_nonneg q0 sp.le) hd (by norm_num) (by norm_num)
  obtain ⟨l, el, bl⟩ := hlog.fin s (by norm_num at s1 ⊢; linarith) (by norm_num at s2 ⊢; linarith)
  obtain ⟨a, ea, ba⟩ := rd_bnd A (by norm_num) ht1 (x := lp + l) (K := 203) ((abs_add_le _ _).trans (by linarith)) (by norm_num)
    ((by norm_num : (203 : ℝ) ≤ 2 ^ 200).trans hhuge)
  obtain ⟨b, eb, bb⟩ := rd_bnd A (by norm_num) ht1 (x := a + d) (K := 2 ^ 115) ((abs_add_le _ _).trans (by
    rw [abs_of_nonneg d0]; norm_num at ba d1 ⊢; linarith)) (by norm_num) ((by norm_num : (2 : ℝ) ^ 115 ≤ 2 ^ 200).trans hhuge)
  obtain ⟨v, ev, bv⟩ := rd_bnd A (by norm_num) ht1 (x := -(1 / 2) * b) (K := 2 ^ 116) (by
    rw [abs_mul, abs_neg, abs_of_pos (by norm_num : (0 : ℝ) < 1 / 2)]; norm_num at bb ⊢; linarith) (by norm_num)
    ((by norm_num : (2 : ℝ) ^ 116 ≤ 2 ^ 200).trans hhuge)
  refine ⟨v, ?_, M.R.idem _ _ ev, by norm_num at bv ⊢; linarith⟩
  unfold Model.Rounded.likTerm
  rw [hlp, el, eq]
  unfold Rounding.mul Rounding.add Rounding.div
  rw [XR.fin_add, Rounding.round_fin, ea, XR.fin_div _ sp.ne', Rounding.round_fin, ed, XR.fin_add, Rounding.round_fin, eb, XR.fin_mul,
    Rounding.round_fin, ev]

theorem loglik_fin (hM : M.R = binary64.rounding) (hlog : LogRange M) {lp : ℝ} (hlp : Model.Rounded.log2pi M = .fin lp) (blp : |lp| ≤ 3)
    (i : ℕ) (r s : List ℝ) (hls : s.length = r.length) (hlen : r.length ≤ 2 ^ 40) (hr : ∀ x ∈ r, |x| ≤ 2 ^ 16)
    (hs : ∀ x ∈ s, 1 / 2 ^ 80 ≤ x ∧ x ≤ 2 ^ 79) :
    ∃ v : ℝ, Model.Rounded.loglik M i (r.map .fin) (s.map .fin) = .fin v ∧ |v| ≤ 2 ^ 180 := by
  have hterms : ∃ v : List ℝ, List.zipWith (Model.Rounded.likTerm M) (r.map .fin) (s.map .fin) = v.map .fin ∧ v.length = r.length ∧
      (∀ y ∈ v, M.R.Rep (.fin y)) ∧ (v.map fun y => |y|).sum ≤ r.length * 2 ^ 130 := by
    clear hlen
    induction r generalizing s with
    | nil => exact ⟨[], rfl, rfl, by simp, by simp⟩
    | cons x r ih =>
      rcases s with _ | ⟨y, s⟩
      · simp at hls
      obtain ⟨v, k1, k2, k3, k4⟩ := ih s (by simpa using hls) (fun z hz => hr z (by simp [hz])) (fun z hz => hs z (by simp [hz]))
      obtain ⟨w, f1, f2, f3⟩ := lik_term hM hlog hlp blp (hr x (by simp)) (hs y (by simp)).1 (hs y (by simp)).2
      refine ⟨w :: v, ?_, by simp [k2], ?_, ?_⟩
      · simp only [List.map_cons, List.zipWith_cons_cons, f1, k1]
      · intro y hy
        rcases List.mem_cons.mp hy with rfl | hy
        · exact f2
        · exact k3 y hy
      · simp only [List.map_cons, List.sum_cons, List.length_cons]
        push_cast
        linarith
  obtain ⟨v, ev, lv, rv, bv⟩ := hterms
  obtain ⟨tiny, huge, A, ht, hh⟩ := env M hM
  have hl : (r.length : ℝ) ≤ 2 ^ 40 := by exact_mod_cast hlen
  have hre : ((v.map XR.fin).map fun x => |Accurate.re x|) = v.map fun x => |x| := by rw [List.map_map]; rfl
  obtain ⟨t, et, -, bt⟩ := A.sum_signed (by norm_num) (M.sum_ok i (v.map .fin))
    (by
      intro x hx
      obtain ⟨y, hy, rfl⟩ := List.mem_map.mp hx
      exact ⟨y, rfl, rv y hy⟩)
    (by
      rw [List.length_map, lv, show (2 : ℝ) ^ (-53 : ℤ) = 1 / 2 ^ 53 by norm_num]
      linarith only [hl])
    (by
      rw [hre]
      refine hugeGe hh (k := 200) (by norm_num) ?_
      have := mul_le_mul_of_nonneg_right hl (show (0 : ℝ) ≤ 2 ^ 130 by positivity)
      norm_num at this bv ⊢
      linarith)
  refine ⟨t, ?_, ?_⟩
  · unfold Model.Rounded.loglik
    rw [ev, et]
  have b1 := bt.bound (by norm_num)
  rw [hre, List.length_map, lv] at b1
  have b2 : 1 / 2 ≤ (1 - (2 : ℝ) ^ (-53 : ℤ)) ^ (r.length - 1) := by
    have h1 := one_add_mul_le_pow (a := -(2 : ℝ) ^ (-53 : ℤ)) (by norm_num) (r.length - 1)
    have h2 : ((r.length - 1 : ℕ) : ℝ) ≤ 2 ^ 40 := le_trans (by exact_mod_cast Nat.sub_le _ _) hl
    rw [show (2 : ℝ) ^ (-53 : ℤ) = 1 / 2 ^ 53 by norm_num] at h1 ⊢
    rw [sub_eq_add_neg]
    refine le_trans ?_ h1
    linarith only [h2]
  generalize (1 - (2 : ℝ) ^ (-53 : ℤ)) ^ (r.length - 1) = P at b1 b2
  have b3 := mul_le_mul_of_nonneg_left b2 (abs_nonneg t)
  have b4 := mul_le_mul_of_nonneg_right hl (show (0 : ℝ) ≤ 2 ^ 130 by positivity)
  have b5 : |t| ≤ 2 * (2 ^ 40 * 2 ^ 130) := by linarith only [b1, b3, b4, bv]
  exact b5.trans (by norm_num)

/-! ### the sample variance -/

theorem sq_expand (c : ℝ) (x : List ℝ) : (x.map fun v => (v - c) ^ 2).sum = (x.map fun v => v ^ 2).sum - 2 * c * x.sum + x.length * c ^ 2 := by
  induction x with
  | nil => simp
  | cons a x ih =>
    simp only [List.map_cons, List.sum_cons, List.length_cons, ih]
    push_cast
    ring

/-- the sum of squared deviations is least around the mean -/
theorem dev_min (c : ℝ) {x : List ℝ} (hne : x ≠ []) :
    (x.map fun v => (v - x.sum / x.length) ^ 2).sum ≤ (x.map fun v => (v - c) ^ 2).sum := by
  have hn : (0 : ℝ) < x.length := by exact_mod_cast List.length_pos_iff.mpr hne
  rw [sq_expand, sq_expand c]
  generalize (x.length : ℝ) = n at *
  generalize x.sum = b
  have h : (b / n) * n = b := div_mul_cancel₀ _ hn.ne'
  have h2 := mul_nonneg hn.le (sq_nonneg (c - b / n))
  have e : n * (c - b / n) ^ 2 = n * c ^ 2 - 2 * c * ((b / n) * n) + (b / n) * ((b / n) * n) := by ring
  have e2 : n * (b / n) ^ 2 = (b / n) * ((b / n) * n) := by ring
  rw [e, h] at h2
  rw [e2, h]
  linarith [show 2 * (b / n) * b = 2 * (b / n * b) by ring]

/-- exact sample variance (divisor `n`) -/
def var (x : List ℝ) : ℝ := (x.map fun v => (v - x.sum / x.length) ^ 2).sum / x.length

theorem var_shift {x : List ℝ} (hne : x ≠ []) (f : ℝ → ℝ) (mu d : ℝ) (hf : ∀ v ∈ x, |f v - (v - mu)| ≤ d) :
    var x / 2 - d ^ 2 ≤ var (x.map f) := by
  have hn : (0 : ℝ) < x.length := by exact_mod_cast List.length_pos_iff.mpr hne
  unfold var
  rw [List.length_map, List.map_map]
  generalize (x.map f).sum / (x.length : ℝ) = c
  have h1 := dev_min (mu + c) hne
  generalize x.sum / (x.length : ℝ) = m at h1 ⊢
  have key : (x.map fun v => (v - (mu + c)) ^ 2).sum / 2 - x.length * d ^ 2 ≤ (x.map ((fun v => (v - c) ^ 2) ∘ f)).sum := by
    clear h1 hn hne
    induction x with
    | nil => simp
    | cons a x ih =>
      have i1 := ih fun v hv => hf v (by simp [hv])
      have i2 := hf a (by simp)
      simp only [List.map_cons, List.sum_cons, List.length_cons, Function.comp]
      push_cast
      have i3 : (f a - (a - mu)) ^ 2 ≤ d ^ 2 := sq_le_sq' (abs_le.mp i2).1 (abs_le.mp i2).2
      have i4 : (a - (mu + c)) ^ 2 / 2 ≤ (f a - c) ^ 2 + (f a - (a - mu)) ^ 2 := by
        nlinarith [sq_nonneg ((f a - c) + (f a - (a - mu)))]
      have e : ((fun v => (v - c) ^ 2) ∘ f) = fun v => (f v - c) ^ 2 := rfl
      rw [e] at i1 ⊢
      linarith
  rw [le_div_iff₀ hn]
  have e : (((x.map fun v => (v - m) ^ 2).sum / x.length) / 2 - d ^ 2) * x.length =
      (x.map fun v => (v - m) ^ 2).sum / 2 - x.length * d ^ 2 := by
    field_simp
  rw [e]
  linarith

theorem bd_rd (hM : M.R = binary64.rounding) {x : ℝ} {n : ℕ} (hn : n ≤ 2 ^ 53) (hx : |x| ≤ n) :
    ∃ y, M.R.rd x = .fin y ∧ |y| ≤ n ∧ M.R.Rep (.fin y) := by
  have hr : M.R.Rep (.fin (n : ℝ)) := Rounding.rep_nat (by rw [hM]; exact hn)
  have hr' := Rounding.neg_rep hr
  rw [XR.fin_neg] at hr'
  have a := Rounding.round_le (R := M.R) (x := .fin x) (y := .fin n) hr (XR.fin_le.mpr (abs_le.mp hx).2)
  have b := Rounding.le_round (R := M.R) (x := .fin (-n)) (y := .fin x) hr' (XR.fin_le.mpr (abs_le.mp hx).1)
  rw [Rounding.round_fin] at a b
  rcases h : M.R.rd x with _ | _ | _ | y
  · exact absurd h (Rounding.rd_ne_nan _)
  · rw [h] at b; exact b.elim
  · rw [h] at a; exact a.elim
  · rw [h] at a b
    exact ⟨y, rfl, abs_le.mpr ⟨XR.fin_le.mp b, XR.fin_le.mp a⟩, M.R.idem _ _ h⟩

/-- the mean -/
theorem mean_bd (hM : M.R = binary64.rounding) (i c : ℕ) (x : List ℝ) (hne : x ≠ []) (hc : c ≤ 2 ^ 15) (hlen : x.length ≤ 2 ^ 38)
    (hx : ∀ v ∈ x, |v| ≤ c) : ∃ m : ℝ, Model.Rounded.mean M i (x.map .fin) = .fin m ∧ |m| ≤ c ∧ M.R.Rep (.fin m) := by
  have hn : (0 : ℝ) < x.length := by exact_mod_cast List.length_pos_iff.mpr hne
  have hp : M.R.prec = 53 := by rw [hM]; rfl
  obtain ⟨s, es, bs⟩ := PinFloat.sum_bd (M.sum_ok i (x.map .fin)) c (by
    rw [hp, List.length_map]
    calc c * x.length ≤ 2 ^ 15 * 2 ^ 38 := Nat.mul_le_mul hc hlen
      _ = 2 ^ 53 := by norm_num) (by
    intro v hv
    obtain ⟨w, hw, rfl⟩ := List.mem_map.mp hv
    exact ⟨w, rfl, hx w hw⟩)
  rw [List.length_map] at bs
  push_cast at bs
  have hq : |s / x.length| ≤ c := by rw [abs_div, abs_of_pos hn, div_le_iff₀ hn]; exact bs
  obtain ⟨m, em, bm, rm⟩ := bd_rd hM (n := c) (hc.trans (by norm_num)) hq
  refine ⟨m, ?_, bm, rm⟩
  have hl : M.R.round (.fin (x.length : ℝ)) = .fin x.length := Rounding.rep_nat (by rw [hp]; exact hlen.trans (by norm_num))
  unfold Model.Rounded.mean
  rw [es, List.length_map, hl]
  unfold Rounding.div
  rw [XR.fin_div _ hn.ne', Rounding.round_fin, em]

/-- the computed variance is not much smaller than the variance -/
theorem var_bd (hM : M.R = binary64.rounding) (i : ℕ) (x : List ℝ) (hne : x ≠ []) (hlen : x.length ≤ 2 ^ 38)
    (hx : ∀ v ∈ x, |v| ≤ 2 ^ 15 ∧ M.R.Rep (.fin v)) (hv : 1 / 2 ^ 30 ≤ var x) :
    ∃ v : ℝ, Model.Rounded.npVar M i (x.map .fin) = .fin v ∧ var x / 4 ≤ v ∧ v ≤ 2 ^ 40 := by
  obtain ⟨m, em, bm, rm⟩ := mean_bd hM i (2 ^ 15) x hne le_rfl hlen (fun v hv => by
    have := (hx v hv).1
    norm_num at this ⊢
    exact this)
  push_cast at bm
  have hn : (0 : ℝ) < x.length := by exact_mod_cast List.length_pos_iff.mpr hne
  have hl : (x.length : ℝ) ≤ 2 ^ 38 := by exact_mod_cast hlen
  obtain ⟨tiny, huge, A, ht, hh⟩ := env M hM
  have htl := tinyLe (k := 100) ht (by norm_num) A.tiny_nonneg
  have hhuge := hugeGe (x := 2 ^ 200) hh (k := 200) (by norm_num) le_rfl
  have ht0 := A.tiny_nonneg
  clear ht hh
  have hvar := dev_min m hne
  have hxs : var x * x.length = (x.map fun v => (v - x.sum / x.length) ^ 2).sum := by
    unfold var; exact div_mul_cancel₀ _ hn.ne'
  rw [← hxs] at hvar
  generalize var x = V at *
  have terms : ∃ q : List ℝ, (x.map .fin).map (fun v => M.R.mul (M.R.sub v (.fin m)) (M.R.sub v (.fin m))) = q.map .fin ∧ q.length = x.length ∧
      (∀ w ∈ q, 0 ≤ w ∧ M.R.Rep (.fin w)) ∧ 7 / 8 * (x.map fun v => (v - m) ^ 2).sum ≤ q.sum + x.length * (1 / 2 ^ 100) ∧
      q.sum ≤ x.length * 2 ^ 33 := by
    clear hvar hxs hl hn hlen hne em
    induction x with
    | nil => exact ⟨[], rfl, rfl, by simp, by simp, by simp⟩
    | cons a x ih =>
      obtain ⟨q, q1, q2, q3, q4, q5⟩ := ih fun v hv => hx v (by simp [hv])
      obtain ⟨ba, ra⟩ := hx a (by simp)
      obtain ⟨d, ed, bd, rd⟩ := bd_rd hM (x := a - m) (n := 2 ^ 16) (by norm_num) (by
        push_cast
        refine (abs_sub _ _).trans ?_
        norm_num at ba bm ⊢
        linarith)
      push_cast at bd
      have rmn := Rounding.neg_rep rm
      rw [XR.fin_neg] at rmn
      have e1 := A.err_add a (-m) d ra rmn (by rw [← sub_eq_add_neg]; exact ed)
      rw [← sub_eq_add_neg] at e1
      obtain ⟨w, ew, w0, w1, rw'⟩ := nn_sq hM bd (by norm_num) (by norm_num)
      have ew' := ew
      unfold Rounding.mul at ew'
      rw [XR.fin_mul, Rounding.round_fin] at ew'
      have e2 := A.err _ _ ew'
      rw [abs_of_nonneg (mul_self_nonneg d)] at e2
      have hm : max (d * d) tiny ≤ d * d + tiny := max_le (by linarith) (by linarith [mul_self_nonneg d])
      have e3 : d * d - 1 / 2 ^ 53 * (d * d + tiny) ≤ w := by
        have k : (2 : ℝ) ^ (-53 : ℤ) * max (d * d) tiny ≤ 1 / 2 ^ 53 * (d * d + tiny) := by
          rw [show (2 : ℝ) ^ (-53 : ℤ) = 1 / 2 ^ 53 by norm_num]
          exact mul_le_mul_of_nonneg_left hm (by positivity)
        generalize (2 : ℝ) ^ (-53 : ℤ) * max (d * d) tiny = z at e2 k
        have := (abs_le.mp e2).1
        linarith only [this, k]
      have e4 : 15 / 16 * |a - m| ≤ |d| := by
        have k1 : |a - m| ≤ |d| + |d - (a - m)| := by
          have := abs_sub d (d - (a - m))
          rwa [sub_sub_cancel] at this
        have k2 : (2 : ℝ) ^ (-53 : ℤ) * |a - m| ≤ 1 / 16 * |a - m| := mul_le_mul_of_nonneg_right (by norm_num) (abs_nonneg _)
        generalize (2 : ℝ) ^ (-53 : ℤ) * |a - m| = z at e1 k2
        linarith only [k1, k2, e1]
      have e5 : 225 / 256 * (a - m) ^ 2 ≤ d * d := by
        have := mul_le_mul e4 e4 (by positivity) (abs_nonneg d)
        rw [abs_mul_abs_self] at this
        have k : 15 / 16 * |a - m| * (15 / 16 * |a - m|) = 225 / 256 * (|a - m| * |a - m|) := by ring
        rw [k, abs_mul_abs_self] at this
        linarith [show (a - m) ^ 2 = (a - m) * (a - m) by ring]
      have e6 : 7 / 8 * (a - m) ^ 2 ≤ w + 1 / 2 ^ 100 := by
        have k1 : 1 / 2 ^ 53 * (d * d + tiny) ≤ 1 / 1000 * (d * d) + tiny := by
          have := mul_self_nonneg d
          norm_num
          nlinarith
        nlinarith [sq_nonneg (a - m)]
      refine ⟨w :: q, ?_, by simp [q2], ?_, ?_, ?_⟩
      · simp only [List.map_cons, q1]
        have : M.R.sub (.fin a) (.fin m) = .fin d := by unfold Rounding.sub; rw [XR.fin_sub, Rounding.round_fin, ed]
        rw [this, ew]
      · intro y hy
        rcases List.mem_cons.mp hy with rfl | hy
        · exact ⟨w0, rw'⟩
        · exact q3 y hy
      · simp only [List.map_cons, List.sum_cons, List.length_cons]
        push_cast
        linarith
      · simp only [List.sum_cons, List.length_cons]
        push_cast
        norm_num at w1 q5 ⊢
        linarith
  obtain ⟨q, q1, q2, q3, q4, q5⟩ := terms
  have hre : (q.map XR.fin).map Accurate.re = q := by rw [List.map_map]; exact List.map_id q
  have hnu : 2 * ((q.length : ℝ) * 2 ^ (-53 : ℤ)) ≤ 1 := by
    rw [q2, show (2 : ℝ) ^ (-53 : ℤ) = 1 / 2 ^ 53 by norm_num]
    linarith only [hl]
  obtain ⟨t, et, -, ct⟩ := A.sum (by norm_num) (M.sum_ok (i + 1) (q.map .fin)) (by
      intro v hv
      obtain ⟨w, hw, rfl⟩ := List.mem_map.mp hv
      exact ⟨w, rfl, (q3 w hw).1, (q3 w hw).2⟩) (by rw [List.length_map]; exact hnu) (by
      rw [hre]
      have := mul_le_mul_of_nonneg_right hl (show (0 : ℝ) ≤ 2 ^ 33 by positivity)
      refine le_trans ?_ hhuge
      norm_num at this q5 ⊢
      linarith)
  rw [hre, List.length_map] at ct
  have hph := A.pow_half (k := q.length - 1) (by
    have : ((q.length - 1 : ℕ) : ℝ) ≤ q.length := by exact_mod_cast Nat.sub_le _ _
    have k := mul_le_mul_of_nonneg_right this (show (0 : ℝ) ≤ 2 ^ (-53 : ℤ) by positivity)
    linarith) (by norm_num)
  generalize (1 - (2 : ℝ) ^ (-53 : ℤ)) ^ (q.length - 1) = P at *
  have t0 : 0 ≤ q.sum := ct.1
  have ht' : ∃ P : ℝ, 1 / 2 ≤ P ∧ P ≤ 1 ∧ q.sum * P ≤ t ∧ t * P ≤ q.sum := by
    refine ⟨(1 - (2 : ℝ) ^ (-53 : ℤ)) ^ (q.length - 1), ?_, ?_, ct.2.1, ct.2.2⟩
    · exact A.pow_half (k := q.length - 1) (by
        have : ((q.length - 1 : ℕ) : ℝ) ≤ q.length := by exact_mod_cast Nat.sub_le _ _
        have k := mul_le_mul_of_nonneg_right this (show (0 : ℝ) ≤ 2 ^ (-53 : ℤ) by positivity)
        linarith) (by norm_num)
    · exact pow_le_one₀ (by norm_num) (by norm_num)
  clear ct hph hnu
  obtain ⟨P, P1, P2, c1, c2⟩ := ht'
  have tlo : 1 / 2 * q.sum ≤ t := le_trans (by nlinarith) c1
  have thi : t ≤ 2 * q.sum := by nlinarith [mul_nonneg t0 (by linarith : (0 : ℝ) ≤ P)]
  have hV : 0 ≤ V := le_trans (by positivity) hv
  have tn0 : 0 ≤ t / x.length := div_nonneg (by linarith) hn.le
  have lo : 27 / 64 * V ≤ t / x.length := by
    rw [le_div_iff₀ hn]
    have h1 : 7 / 8 * (V * x.length) ≤ q.sum + x.length * (1 / 2 ^ 100) := by linarith
    have h2 : (x.length : ℝ) * (1 / 2 ^ 100) ≤ 1 / 64 * (V * x.length) := by
      rw [mul_comm V, show 1 / 64 * (x.length * V) = x.length * (1 / 64 * V) by ring]
      refine mul_le_mul_of_nonneg_left ?_ hn.le
      norm_num at hv ⊢
      linarith
    nlinarith
  have hi : t / x.length ≤ 2 ^ 34 := by
    rw [div_le_iff₀ hn]
    norm_num at q5 ⊢
    linarith
  obtain ⟨v, ev, v0, v1, -⟩ := nn_rd hM tn0 hi (by norm_num) (by norm_num)
  have ev2 := A.err _ _ ev
  rw [abs_of_nonneg tn0] at ev2
  have hmx : max (t / x.length) tiny = t / x.length := max_eq_left (by
    refine htl.trans (le_trans ?_ lo)
    norm_num at hv ⊢
    linarith)
  rw [hmx] at ev2
  refine ⟨v, ?_, ?_, by norm_num at v1 ⊢; linarith⟩
  · have hlr : M.R.round (.fin (x.length : ℝ)) = .fin x.length :=
      Rounding.rep_nat (by rw [hM]; exact hlen.trans (by show 2 ^ 38 ≤ 2 ^ 53; norm_num))
    unfold Model.Rounded.npVar
    rw [em]
    unfold Model.Rounded.mean
    rw [q1, et, List.length_map, q2, hlr]
    unfold Rounding.div
    rw [XR.fin_div _ hn.ne', Rounding.round_fin, ev]
  · have k := (abs_le.mp ev2).1
    have k2 : (2 : ℝ) ^ (-53 : ℤ) * (t / x.length) ≤ 1 / 64 * (t / x.length) := mul_le_mul_of_nonneg_right (by norm_num) tn0
    linarith

/-! ### backcast and bounds -/

/-- the computed powers of 0.94: numbers of the format between 0 and 1, the first of them 1 -/
structure Decay (M : Machine) (pw : ℕ → XR) : Prop where
  zero : pw 0 = .fin 1
  all : ∀ i, Nn M 1 (pw i)

theorem nn_le (hM : M.R = binary64.rounding) {x : ℝ} {n : ℕ} (hn : n ≤ 2 ^ 53) (h0 : 0 ≤ x) (hx : x ≤ n) : Nn M n (M.R.rd x) := by
  obtain ⟨y, ey, by', ry⟩ := bd_rd hM hn (by rwa [abs_of_nonneg h0])
  have := M.R.rd_nonneg h0
  rw [ey] at this
  exact ⟨y, ey, XR.fin_le.mp this, (le_abs_self y).trans by', ry⟩

theorem Nn.mul_le (hM : M.R = binary64.rounding) {c : ℕ} (hc : c ≤ 2 ^ 53) {x y : XR} (hx : Nn M 1 x) (hy : Nn M c y) :
    Nn M c (M.R.mul x y) ∧ Nn M c (M.R.mul y x) := by
  have : M.R.mul y x = M.R.mul x y := by unfold Rounding.mul; rw [XR.mul_comm']
  rw [this, and_self]
  obtain ⟨x, rfl, x0, x1, -⟩ := hx
  obtain ⟨y, rfl, y0, y1, -⟩ := hy
  unfold Rounding.mul
  rw [XR.fin_mul, Rounding.round_fin]
  exact nn_le hM hc (mul_nonneg x0 y0) ((mul_le_of_le_one_left y0 x1).trans y1)

theorem sq_le (hM : M.R = binary64.rounding) {r : ℝ} (hr : |r| ≤ 2 ^ 15) : Nn M ((2 ^ 30 : ℕ) : ℝ) (M.R.mul (.fin r) (.fin r)) := by
  unfold Rounding.mul
  rw [XR.fin_mul, Rounding.round_fin]
  refine nn_le hM (by norm_num) (mul_self_nonneg r) ?_
  have := mul_le_mul hr hr (abs_nonneg _) (by positivity)
  rw [abs_mul_abs_self] at this
  norm_num at this ⊢
  exact this

theorem nn_sum (hM : M.R = binary64.rounding) {l : List XR} {s : XR} (h : M.R.IsSum l s) (c k : ℕ) (hc : c * k ≤ 2 ^ 53) (hk : l.length ≤ k)
    (hl : ∀ x ∈ l, Nn M c x) : Nn M ((c * k : ℕ) : ℝ) s := by
  obtain ⟨h0, hr, -⟩ := h.nonneg fun x hx => ⟨(hl x hx).nonneg, (hl x hx).rep⟩
  have hp : M.R.prec = 53 := by rw [hM]; rfl
  have h2 : s ≤ .fin ((c * l.length : ℕ) : ℝ) := RoundedLik.sum_le h c (by rw [hp]; exact (Nat.mul_le_mul_left c hk).trans hc) fun x hx => by
    obtain ⟨y, rfl, -, h1, -⟩ := hl x hx
    exact XR.fin_le.mpr h1
  rcases XR.nonneg_cases h0 with rfl | ⟨y, y0, rfl⟩
  · exact h2.elim
  · refine ⟨y, rfl, y0, (XR.fin_le.mp h2).trans ?_, hr⟩
    exact_mod_cast Nat.mul_le_mul_left c hk

theorem weights (hM : M.R = binary64.rounding) {pw : ℕ → XR} (hpw : Decay M pw) {tau : ℕ} (h1 : 1 ≤ tau) (h2 : tau ≤ 75) {s : XR}
    (hs : M.R.IsSum (Model.Rounded.decayWeights pw tau) s) :
    ∀ x ∈ (Model.Rounded.decayWeights pw tau).map (fun x => M.R.div x s), Nn M 1 x := by
  have hmem : ∀ x ∈ Model.Rounded.decayWeights pw tau, Nn M ((1 : ℕ) : ℝ) x := by
    intro x hx
    obtain ⟨i, -, rfl⟩ := List.mem_map.mp hx
    simpa using hpw.all i
  obtain ⟨-, -, hge⟩ := hs.nonneg fun x hx => ⟨(hmem x hx).nonneg, (hmem x hx).rep⟩
  obtain ⟨t, rfl, t0, t1, rt⟩ := nn_sum hM hs 1 75 (by norm_num) (by simpa [Model.Rounded.decayWeights] using h2) hmem
  have hz := hge (pw 0) (List.mem_map.mpr ⟨0, List.mem_range.mpr h1, rfl⟩)
  rw [hpw.zero] at hz
  have hz' := XR.fin_le.mp hz
  intro x hx
  obtain ⟨w, hw, rfl⟩ := List.mem_map.mp hx
  have hle := hge w hw
  obtain ⟨y, rfl, y0, y1, -⟩ := hmem w hw
  unfold Rounding.div
  rw [XR.fin_div _ (by linarith), Rounding.round_fin]
  have := nn_le hM (n := 1) (x := y / t) (by norm_num) (div_nonneg y0 t0) (by
    push_cast
    exact (div_le_one (by linarith)).mpr (XR.fin_le.mp hle))
  simpa using this

theorem zip_nn (hM : M.R = binary64.rounding) {c : ℕ} (hc : c ≤ 2 ^ 53) (l : List XR) (hl : ∀ x ∈ l, Nn M 1 x) (r : List XR) (hr : ∀ x ∈ r, Nn M c x) :
    ∀ v, (v ∈ List.zipWith (fun a b => M.R.mul a b) l r ∨ v ∈ List.zipWith (fun a b => M.R.mul a b) r l) → Nn M c v := by
  induction l generalizing r with
  | nil => intro v hv; simp at hv
  | cons a l ih =>
    rcases r with _ | ⟨b, r⟩
    · intro v hv; simp at hv
    intro v hv
    have hab := (hl a (by simp)).mul_le hM hc (hr b (by simp))
    have ih' := ih (fun x hx => hl x (by simp [hx])) r (fun x hx => hr x (by simp [hx])) v
    simp only [List.zipWith_cons_cons, List.mem_cons] at hv
    rcases hv with (rfl | hv) | (rfl | hv)
    · exact hab.1
    · exact ih' (Or.inl hv)
    · exact hab.2
    · exact ih' (Or.inr hv)

theorem backcast_nn (hM : M.R = binary64.rounding) {pw : ℕ → XR} (hpw : Decay M pw) (i : ℕ) (x : List ℝ) (hne : x ≠ []) (hx : ∀ v ∈ x, |v| ≤ 2 ^ 15) :
    Nn M (2 ^ 40) (Model.Rounded.backcast M pw i (x.map .fin)) := by
  have hlen : 1 ≤ min 75 (x.map XR.fin).length := by
    have := List.length_pos_iff.mpr hne
    rw [List.length_map]; omega
  unfold Model.Rounded.backcast
  have hw := weights hM hpw hlen (min_le_left _ _) (M.R.foldSum_ok _)
  generalize hW : (Model.Rounded.decayWeights pw (min 75 (x.map XR.fin).length)).map
    (fun x_1 => M.R.div x_1 (M.R.foldSum (Model.Rounded.decayWeights pw (min 75 (x.map XR.fin).length)))) = W at hw
  have hz : List.zipWith (fun r v => M.R.mul (M.R.mul r r) v) ((x.map XR.fin).take (min 75 (x.map XR.fin).length)) W =
      List.zipWith (fun a b => M.R.mul a b) (((x.map XR.fin).take (min 75 (x.map XR.fin).length)).map fun r => M.R.mul r r) W := by
    rw [List.zipWith_map_left]
  have hWl : W.length ≤ 75 := by
    rw [← hW]; simp only [List.length_map, Model.Rounded.decayWeights, List.length_range]; omega
  have := nn_sum hM (M.sum_ok i (List.zipWith (fun a b => M.R.mul a b) (((x.map XR.fin).take (min 75 (x.map XR.fin).length)).map fun r => M.R.mul r r) W))
    (2 ^ 30) 75 (by norm_num) (by rw [List.length_zipWith]; exact (min_le_right _ _).trans hWl) (fun v hv => by
      refine zip_nn hM (by norm_num) W hw _ ?_ v (Or.inr hv)
      intro y hy
      obtain ⟨r, hr, rfl⟩ := List.mem_map.mp hy
      obtain ⟨a, ha, rfl⟩ := List.mem_map.mp (List.mem_of_mem_take hr)
      exact sq_le hM (hx a ha))
  simp only [hW, hz]
  exact this.mono (by norm_num)

theorem lam_ok (hM : M.R = binary64.rounding) : ∃ lam c : ℝ, M.R.rd (94 / 100) = .fin lam ∧ 0 < lam ∧ M.R.sub 1 (.fin lam) = .fin c ∧ 0 < c := by
  obtain ⟨tiny, huge, A, ht, hh⟩ := env M hM
  have htl := tinyLe (k := 100) ht (by norm_num) A.tiny_nonneg
  have hh1 := hugeGe (x := 1) hh (k := 1) (by norm_num) (by norm_num)
  have htl' : tiny ≤ 1 / 100 := htl.trans (by norm_num)
  obtain ⟨lam, e⟩ := A.fin (94 / 100) (by rw [abs_of_pos (by norm_num)]; linarith)
  have b := A.err _ _ e
  rw [abs_of_pos (by norm_num : (0 : ℝ) < 94 / 100), max_eq_left (by linarith)] at b
  have b1 : |lam - 94 / 100| ≤ 1 / 100 := b.trans (by norm_num)
  have b2 := abs_le.mp b1
  obtain ⟨c, ec⟩ := A.fin (1 - lam) (by rw [abs_of_pos (by linarith)]; linarith)
  have d := A.err _ _ ec
  rw [abs_of_pos (by linarith : (0 : ℝ) < 1 - lam), max_eq_left (by linarith)] at d
  have d2 : (2 : ℝ) ^ (-53 : ℤ) * (1 - lam) ≤ 1 / 2 * (1 - lam) := mul_le_mul_of_nonneg_right (by norm_num) (by linarith)
  generalize (2 : ℝ) ^ (-53 : ℤ) * (1 - lam) = z at d d2
  have d1 := (abs_le.mp d).1
  refine ⟨lam, c, e, by linarith, ?_, by linarith⟩
  unfold Rounding.sub
  rw [show (1 : XR) = .fin 1 from rfl, XR.fin_sub, Rounding.round_fin, ec]

theorem npMaxList_nn {B : ℝ} (l : List XR) (hne : l ≠ []) (hl : ∀ x ∈ l, Nn M B x) : Nn M B (npMaxList l) := by
  rcases l with _ | ⟨a, l⟩
  · exact absurd rfl hne
  have : ∀ (l : List XR) (a : XR), Nn M B a → (∀ x ∈ l, Nn M B x) → Nn M B (l.foldl XR.npMax a) := by
    intro l
    induction l with
    | nil => intro a ha _; exact ha
    | cons b l ih =>
      intro a ha hb
      rw [List.foldl_cons]
      refine ih _ ?_ fun x hx => hb x (by simp [hx])
      have h2 := hb b (by simp)
      obtain ⟨x, rfl, x0, x1, rx⟩ := ha
      obtain ⟨y, rfl, y0, y1, ry⟩ := h2
      rw [XR.npMax_fin]
      rcases max_choice x y with h | h <;> rw [h]
      · exact ⟨x, rfl, x0, x1, rx⟩
      · exact ⟨y, rfl, y0, y1, ry⟩
  exact this l a (hl a (by simp)) fun x hx => hl x (by simp [hx])

/-- a division of a number that is not tiny loses at most a quarter of it -/
theorem div_half (hM : M.R = binary64.rounding) {x d : ℝ} (hd : 1 ≤ d) (h1 : 1 / 2 ^ 99 ≤ x / d) (h2 : x ≤ 2 ^ 100) :
    ∃ y, M.R.div (.fin x) (.fin d) = .fin y ∧ 3 / 4 * (x / d) ≤ y ∧ y ≤ 2 * (x / d) := by
  obtain ⟨tiny, huge, A, ht, hh⟩ := env M hM
  have htl := tinyLe (k := 100) ht (by norm_num) A.tiny_nonneg
  have hx : 0 < x / d := lt_of_lt_of_le (by positivity) h1
  have hx0 : 0 ≤ x := by
    have := mul_nonneg hx.le (by linarith : (0 : ℝ) ≤ d)
    rwa [div_mul_cancel₀ _ (by linarith)] at this
  have hle : x / d ≤ 2 ^ 100 := (div_le_self hx0 hd).trans h2
  obtain ⟨y, e⟩ := A.fin (x / d) (by rw [abs_of_pos hx]; exact hugeGe hh (k := 100) (by norm_num) hle)
  have b := A.err _ _ e
  rw [abs_of_pos hx, max_eq_left (by norm_num at htl h1 ⊢; linarith)] at b
  have b2 : (2 : ℝ) ^ (-53 : ℤ) * (x / d) ≤ 1 / 4 * (x / d) := mul_le_mul_of_nonneg_right (by norm_num) hx.le
  generalize (2 : ℝ) ^ (-53 : ℤ) * (x / d) = z at b b2
  have b3 := abs_le.mp b
  refine ⟨y, ?_, by linarith only [b3.1, b2], by linarith only [b3.2, b2, hx]⟩
  unfold Rounding.div
  rw [XR.fin_div _ (by linarith), Rounding.round_fin, e]

theorem rows_ok (hM : M.R = binary64.rounding) {pw : ℕ → XR} (hpw : Decay M pw) (i : ℕ) (x : List ℝ) (hne : x ≠ []) (hx : ∀ v ∈ x, |v| ≤ 2 ^ 15)
    {v0 : ℝ} (hv : Model.Rounded.npVar M (i + 2) (x.map .fin) = .fin v0) (v1 : 1 / 2 ^ 32 ≤ v0) (v2 : v0 ≤ 2 ^ 40) :
    ∃ rows, Model.Rounded.varianceBounds M pw i (x.map .fin) = .ok rows ∧ rows.length = x.length ∧ ∀ b ∈ rows, Row M b := by
  have hlen : 1 ≤ min 75 (x.map XR.fin).length := by
    have := List.length_pos_iff.mpr hne
    rw [List.length_map]; omega
  have hw := weights hM hpw hlen (min_le_left _ _) (M.sum_ok i _)
  -- the initial variance
  have hinit : ∃ ini, ini = M.sum (i + 1) (List.zipWith (fun w s => M.R.mul w s)
      ((Model.Rounded.decayWeights pw (min 75 (x.map XR.fin).length)).map fun y => M.R.div y (M.sum i (Model.Rounded.decayWeights pw (min 75 (x.map XR.fin).length))))
      (((x.map XR.fin).take (min 75 (x.map XR.fin).length)).map fun r => M.R.mul r r)) ∧ 0 ≤ ini ∧ M.R.Rep ini := by
    refine ⟨_, rfl, ?_⟩
    have := nn_sum hM (M.sum_ok (i + 1) (List.zipWith (fun w s => M.R.mul w s)
      ((Model.Rounded.decayWeights pw (min 75 (x.map XR.fin).length)).map fun y => M.R.div y (M.sum i (Model.Rounded.decayWeights pw (min 75 (x.map XR.fin).length))))
      (((x.map XR.fin).take (min 75 (x.map XR.fin).length)).map fun r => M.R.mul r r))) (2 ^ 30) 75 (by norm_num) (by
        rw [List.length_zipWith]
        refine (min_le_left _ _).trans ?_
        simp only [List.length_map, Model.Rounded.decayWeights, List.length_range]; omega) (fun v hv => by
      refine zip_nn hM (by norm_num) _ hw _ ?_ v (Or.inl hv)
      intro y hy
      obtain ⟨r, hr, rfl⟩ := List.mem_map.mp hy
      obtain ⟨a, ha, rfl⟩ := List.mem_map.mp (List.mem_of_mem_take hr)
      exact sq_le hM (hx a ha))
    exact ⟨this.nonneg, this.rep⟩
  obtain ⟨ini, hini, ini0, rini⟩ := hinit
  -- the global bounds
  obtain ⟨lo, elo, lo1, lo2⟩ := div_half hM (x := v0) (d := 100000000) (by norm_num) (by norm_num at v1 ⊢; linarith) (by norm_num at v2 ⊢; linarith)
  have hlo1 : 1 / 2 ^ 59 ≤ lo := by norm_num at v1 lo1 ⊢; linarith
  have hlo2 : lo ≤ 2 ^ 40 := by norm_num at v2 lo2 ⊢; linarith
  have hmax : Nn M ((2 ^ 30 : ℕ) : ℝ) (npMaxList ((x.map XR.fin).map fun r => M.R.mul r r)) := by
    refine npMaxList_nn _ (by simpa using hne) ?_
    intro y hy
    obtain ⟨r, hr, rfl⟩ := List.mem_map.mp hy
    obtain ⟨a, ha, rfl⟩ := List.mem_map.mp hr
    exact sq_le hM (hx a ha)
  have hhi : ∃ hi : ℝ, M.R.mul (.fin 10000000) (M.R.add 1 (npMaxList ((x.map XR.fin).map fun r => M.R.mul r r))) = .fin hi ∧ 1 ≤ hi ∧ hi ≤ 2 ^ 55 := by
    obtain ⟨mx, em, m0, m1, -⟩ := hmax
    rw [em]
    have h1 := nn_le hM (x := 1 + mx) (n := 2 ^ 30 + 1) (by norm_num) (by linarith) (by push_cast at m1 ⊢; linarith)
    have h1' : M.R.add 1 (.fin mx) = M.R.rd (1 + mx) := by
      unfold Rounding.add
      rw [show (1 : XR) = .fin 1 from rfl, XR.fin_add, Rounding.round_fin]
    obtain ⟨a, ea, a0, a1, -⟩ := h1
    have a2 : 1 ≤ a := by
      have := Rounding.le_round (R := M.R) (x := .fin 1) (y := .fin (1 + mx)) Rounding.rep_one (XR.fin_le.mpr (by linarith))
      rw [Rounding.round_fin, ea] at this
      exact XR.fin_le.mp this
    rw [h1', ea]
    have h2 : M.R.mul (.fin 10000000) (.fin a) = M.R.rd (10000000 * a) := by
      unfold Rounding.mul
      rw [XR.fin_mul, Rounding.round_fin]
    obtain ⟨b, eb, b0, b1, -⟩ := nn_rd hM (x := 10000000 * a) (B := 10000000 * (2 ^ 30 + 1)) (by linarith) (by push_cast at a1; linarith) (by norm_num) (by norm_num)
    have b2 : 1 ≤ b := by
      have := Rounding.le_round (R := M.R) (x := .fin 1) (y := .fin (10000000 * a)) Rounding.rep_one (XR.fin_le.mpr (by linarith))
      rw [Rounding.round_fin, eb] at this
      exact XR.fin_le.mp this
    exact ⟨b, by rw [h2, eb], b2, by norm_num at b1 ⊢; linarith⟩
  obtain ⟨hi, ehi, hi1, hi2⟩ := hhi
  obtain ⟨lam, c, hlam, hl, hc, hc0⟩ := lam_ok hM
  have hall : ∀ y ∈ ini :: Model.Rounded.ewmaLoop M (.fin lam) ini (x.dropLast.map .fin), 0 ≤ y ∧ M.R.Rep y := by
    intro y hy
    rcases List.mem_cons.mp hy with rfl | hy
    · exact ⟨ini0, rini⟩
    · exact Rounded.ewmaLoop_nonneg M lam hl c hc hc0 _ _ ini0 y hy
  have hloopl : ∀ (l : List XR) (v : XR), (Model.Rounded.ewmaLoop M (.fin lam) v l).length = l.length := by
    intro l
    induction l with
    | nil => intro v; rfl
    | cons r t ih => intro v; simp [Model.Rounded.ewmaLoop, ih]
  refine ⟨((ini :: Model.Rounded.ewmaLoop M (.fin lam) ini (x.dropLast.map .fin)).map fun v => Np.clip v (.fin lo) (.fin hi)).map
    (Model.Rounded.boundRow M), ?_, ?_, ?_⟩
  · unfold Model.Rounded.varianceBounds Model.Rounded.boundRows Model.Rounded.ewma
    simp only [bind, Except.bind, pure, Except.pure, hv, elo, ehi, hlam, ← hini]
    rw [if_neg (by simpa using hne), ← List.map_dropLast]
  · have := List.length_pos_iff.mpr hne
    simp only [List.length_map, List.length_cons, hloopl, List.length_dropLast]
    omega
  · intro b hb
    rw [List.map_map] at hb
    obtain ⟨v, hv', rfl⟩ := List.mem_map.mp hb
    have hv0 := (hall v hv').1
    have hclip : ∃ w : ℝ, Np.clip v (.fin lo) (.fin hi) = .fin w ∧ 1 / 2 ^ 59 ≤ w ∧ w ≤ hi := by
      unfold Np.clip
      rcases XR.nonneg_cases hv0 with rfl | ⟨r, r0, rfl⟩
      · refine ⟨hi, ?_, le_trans (by norm_num) hi1, le_rfl⟩
        have h1 : XR.npMax XR.pinf (.fin lo) = .pinf := by
          unfold XR.npMax
          rw [if_neg (by simp)]
          exact if_neg (fun h => False.elim h)
        have h2 : XR.npMin XR.pinf (.fin hi) = .fin hi := by
          unfold XR.npMin
          rw [if_neg (by simp)]
          exact if_pos trivial
        rw [h1, h2]
      · rw [XR.npMax_fin, XR.npMin_fin]
        exact ⟨_, rfl, le_min (hlo1.trans (le_max_right _ _)) (le_trans (by norm_num) hi1), min_le_right _ _⟩
    obtain ⟨w, ew, w1, w2⟩ := hclip
    simp only [Function.comp, ew]
    have wp : 0 < w := lt_of_lt_of_le (by positivity) w1
    have w3 : w ≤ 2 ^ 55 := w2.trans hi2
    obtain ⟨l, el, l1, l2⟩ := div_half hM (x := w) (d := 1000000) (by norm_num) (by norm_num at w1 ⊢; linarith) (by norm_num at w3 ⊢; linarith)
    have hu : M.R.mul (.fin w) (.fin 1000000) = M.R.rd (w * 1000000) := by
      unfold Rounding.mul
      rw [XR.fin_mul, Rounding.round_fin]
    obtain ⟨u, eu, u0, u1, ru⟩ := nn_rd hM (x := w * 1000000) (B := 2 ^ 76) (by linarith) (by norm_num at w3 ⊢; linarith) (by norm_num) (by norm_num)
    have hle : l ≤ u := by
      have := M.R.mono (w / 1000000) (w * 1000000) (by rw [div_le_iff₀ (by norm_num)]; nlinarith)
      unfold Rounding.div at el
      rw [XR.fin_div _ (by norm_num), Rounding.round_fin] at el
      rw [el, eu] at this
      exact XR.fin_le.mp this
    exact ⟨l, u, by unfold Model.Rounded.boundRow; rw [el, hu, eu], by norm_num at w1 l1 ⊢; linarith, hle, by norm_num at u1 ⊢; linarith, ru⟩

/-! ### residuals -/

/-- data: returns of magnitude at most `2^14`, numbers of the format, with variance at least `2^-28` -/
structure Data (M : Machine) (x : List ℝ) : Prop where
  ne : x ≠ []
  len : x.length ≤ 2 ^ 38
  bd : ∀ v ∈ x, |v| ≤ 2 ^ 14 ∧ M.R.Rep (.fin v)
  var : 1 / 2 ^ 28 ≤ PrepFloat.var x

/-- a mean: a number of the format of magnitude at most `2^14` -/
def Mean (M : Machine) (m : XR) : Prop := ∃ mu : ℝ, m = .fin mu ∧ |mu| ≤ 2 ^ 14 ∧ M.R.Rep (.fin mu)

/-- residuals fit for the preparation: bounded numbers of the format whose computed variance is not small -/
structure Good (M : Machine) (i : ℕ) (y : List ℝ) : Prop where
  ne : y ≠ []
  bd : ∀ v ∈ y, |v| ≤ 2 ^ 15
  comp : ∃ v0 : ℝ, Model.Rounded.npVar M i (y.map .fin) = .fin v0 ∧ 1 / 2 ^ 32 ≤ v0 ∧ v0 ≤ 2 ^ 40

theorem resid_good (hM : M.R = binary64.rounding) {x : List ℝ} (hx : Data M x) {m : XR} (hm : Mean M m) (i : ℕ) :
    ∃ y : List ℝ, Model.Rounded.modelResids M false (x.map .fin) m = y.map .fin ∧ y.length = x.length ∧ Good M i y := by
  obtain ⟨mu, rfl, bm, rm⟩ := hm
  obtain ⟨tiny, huge, A, -, -⟩ := env M hM
  have rmn := Rounding.neg_rep rm
  rw [XR.fin_neg] at rmn
  have hf : ∀ v ∈ x, ∃ d, M.R.sub (.fin v) (.fin mu) = .fin d ∧ |d| ≤ 2 ^ 15 ∧ M.R.Rep (.fin d) ∧ |d - (v - mu)| ≤ 1 / 2 ^ 38 := by
    intro v hv
    obtain ⟨bv, rv⟩ := hx.bd v hv
    have hb : |v - mu| ≤ 2 ^ 15 := (abs_sub _ _).trans (by norm_num at bv bm ⊢; linarith)
    obtain ⟨d, ed, bd, rd⟩ := bd_rd hM (n := 2 ^ 15) (by norm_num) (by push_cast; norm_num at hb ⊢; exact hb)
    have e := A.err_add v (-mu) d rv rmn (by rw [← sub_eq_add_neg]; exact ed)
    rw [← sub_eq_add_neg] at e
    refine ⟨d, ?_, by push_cast at bd; norm_num at bd ⊢; exact bd, rd, e.trans ?_⟩
    · unfold Rounding.sub; rw [XR.fin_sub, Rounding.round_fin, ed]
    · have := mul_le_mul_of_nonneg_left hb (show (0 : ℝ) ≤ 2 ^ (-53 : ℤ) by positivity)
      refine this.trans ?_
      norm_num
  have hre : ∀ v ∈ x, M.R.sub (.fin v) (.fin mu) = .fin (Accurate.re (M.R.sub (.fin v) (.fin mu))) := by
    intro v hv
    obtain ⟨d, ed, -⟩ := hf v hv
    rw [ed]; rfl
  have hf' : ∀ v ∈ x, |Accurate.re (M.R.sub (.fin v) (.fin mu))| ≤ 2 ^ 15 ∧ M.R.Rep (.fin (Accurate.re (M.R.sub (.fin v) (.fin mu)))) ∧
      |Accurate.re (M.R.sub (.fin v) (.fin mu)) - (v - mu)| ≤ 1 / 2 ^ 38 := by
    intro v hv
    obtain ⟨d, ed, b⟩ := hf v hv
    rw [ed]; exact b
  refine ⟨x.map fun v => Accurate.re (M.R.sub (.fin v) (.fin mu)), ?_, by simp, ⟨by simpa using hx.ne, ?_, ?_⟩⟩
  · unfold Model.Rounded.modelResids
    simp only [Bool.false_eq_true, if_false, List.map_map]
    exact List.map_congr_left hre
  · intro w hw
    obtain ⟨v, hv, rfl⟩ := List.mem_map.mp hw
    exact (hf' v hv).1
  · have hvs := var_shift hx.ne (fun v => Accurate.re (M.R.sub (.fin v) (.fin mu))) mu (1 / 2 ^ 38) fun v hv => (hf' v hv).2.2
    have h28 := hx.var
    obtain ⟨v0, e0, lo, hi⟩ := var_bd hM i (x.map fun v => Accurate.re (M.R.sub (.fin v) (.fin mu))) (by simpa using hx.ne)
      (by rw [List.length_map]; exact hx.len) (by
        intro w hw
        obtain ⟨v, hv, rfl⟩ := List.mem_map.mp hw
        exact ⟨(hf' v hv).1, (hf' v hv).2.1⟩) (by norm_num at h28 hvs ⊢; linarith)
    exact ⟨v0, e0, by norm_num at h28 hvs ⊢; linarith, hi⟩

theorem prep_good (hM : M.R = binary64.rounding) {x : List ℝ} (hx : Data M x) (zeroMean : Bool) (i j : ℕ) :
    ∃ y : List ℝ, Model.Rounded.prepResids M zeroMean j (x.map .fin) = y.map .fin ∧ y.length = x.length ∧ Good M i y := by
  cases zeroMean
  · obtain ⟨m, em, bm, rm⟩ := mean_bd hM j (2 ^ 14) x hx.ne (by norm_num) hx.len (fun v hv => by
      have := (hx.bd v hv).1
      norm_num at this ⊢
      exact this)
    unfold Model.Rounded.prepResids
    rw [em]
    exact resid_good hM hx ⟨m, rfl, by norm_num at bm ⊢; exact bm, rm⟩ i
  · refine ⟨x, rfl, rfl, hx.ne, fun v hv => (hx.bd v hv).1.trans (by norm_num), ?_⟩
    have h28 := hx.var
    obtain ⟨v0, e0, lo, hi⟩ := var_bd hM i x hx.ne hx.len (fun v hv => ⟨(hx.bd v hv).1.trans (by norm_num), (hx.bd v hv).2⟩)
      (by norm_num at h28 ⊢; linarith)
    exact ⟨v0, e0, by norm_num at h28 ⊢; linarith, hi⟩

/-- the residuals of the likelihood -/
theorem cand_bd (hM : M.R = binary64.rounding) {x : List ℝ} (hx : Data M x) {m : XR} (hm : Mean M m) (zeroMean : Bool) :
    ∃ y : List ℝ, Model.Rounded.modelResids M zeroMean (x.map .fin) m = y.map .fin ∧ y.length = x.length ∧ y ≠ [] ∧ ∀ v ∈ y, |v| ≤ 2 ^ 15 := by
  cases zeroMean
  · obtain ⟨y, ey, ly, hy⟩ := resid_good hM hx hm 0
    exact ⟨y, ey, ly, hy.ne, hy.bd⟩
  · exact ⟨x, rfl, rfl, hx.ne, fun v hv => (hx.bd v hv).1.trans (by norm_num)⟩

end PrepFloat
open PrepFloat

/-- C211. The preparation: from returns of magnitude at most `2^14` with a sample variance of at least `2^-28` (a standard deviation of
0.00006), the variance bounds computed in binary64 are finite and positive, `2^-80 ≤ lower ≤ upper ≤ 2^77`, one row for each day,
and the backcast is finite and non-negative. -/
theorem C211_preparation (M : Machine) (hM : M.R = binary64.rounding) (pw : ℕ → XR) (hpw : Decay M pw) (i : ℕ) (zeroMean : Bool)
    (x : List ℝ) (hx : Data M x) :
    (∃ rows : List (ℝ × ℝ), Model.Rounded.varianceBounds M pw i (Model.Rounded.prepResids M zeroMean i (x.map .fin)) =
        .ok (rows.map fun b => (.fin b.1, .fin b.2)) ∧ rows.length = x.length ∧ ∀ b ∈ rows, 1 / 2 ^ 80 ≤ b.1 ∧ b.1 ≤ b.2 ∧ b.2 ≤ 2 ^ 77) ∧
      ∃ b : ℝ, Model.Rounded.backcast M pw i (Model.Rounded.prepResids M zeroMean i (x.map .fin)) = .fin b ∧ 0 ≤ b ∧ b ≤ 2 ^ 40 := by
  obtain ⟨y, ey, ly, hy⟩ := prep_good hM hx zeroMean (i + 2) i
  obtain ⟨v0, e0, v1, v2⟩ := hy.comp
  obtain ⟨rows, er, lr, hr⟩ := rows_ok hM hpw i y hy.ne hy.bd e0 v1 v2
  obtain ⟨b, eb, b0, b1, -⟩ := backcast_nn hM hpw i y hy.ne hy.bd
  rw [ey]
  refine ⟨⟨rows.map fun b => (Accurate.re b.1, Accurate.re b.2), ?_, by rw [List.length_map, lr, ly], ?_⟩, b, eb, b0, b1⟩
  · rw [er, List.map_map]
    congr 1
    symm
    apply (List.map_congr_left ?_).trans (List.map_id rows)
    intro b hb
    obtain ⟨l, u, rfl, -⟩ := hr b hb
    rfl
  · intro c hc
    obtain ⟨b, hb, rfl⟩ := List.mem_map.mp hc
    obtain ⟨l, u, rfl, h1, h2, h3, -⟩ := hr b hb
    exact ⟨h1, h2, h3⟩

/-- C211. What the optimiser sees: with those returns the objective that `GARCHModel.fit` minimises, computed in binary64 with either
kernel, is a finite number at every candidate with `|mu| ≤ 2^14`, `2^-80 ≤ omega ≤ 2^40` and coefficients between 0 and 1 -
stationary or not. -/
theorem C211_garch (M : Machine) (hM : M.R = binary64.rounding) (hlog : LogRange M) {lp : ℝ} (hlp : Model.Rounded.log2pi M = .fin lp)
    (blp : |lp| ≤ 3) (pw : ℕ → XR) (hpw : Decay M pw) (i : ℕ) (cpp zeroMean : Bool) (x : List ℝ) (hx : Data M x) (mu : XR) (hmu : Mean M mu)
    (p : GarchVar) (ho : Omega M p.omega) (ha : Coef M p.alpha) (hb : Coef M p.beta) :
    ∃ f : ℝ, Model.Rounded.garchFitObjective M pw i cpp zeroMean (x.map .fin) mu p = .ok (.fin f) ∧ |f| ≤ 2 ^ 180 := by
  obtain ⟨y, ey, ly, hy⟩ := prep_good hM hx zeroMean (i + 2) i
  obtain ⟨v0, e0, v1, v2⟩ := hy.comp
  obtain ⟨rows, er, lr, hr⟩ := rows_ok hM hpw i y hy.ne hy.bd e0 v1 v2
  have hbc := backcast_nn hM hpw i y hy.ne hy.bd
  obtain ⟨z, ez, lz, nz, bz⟩ := cand_bd hM hx hmu zeroMean
  obtain ⟨s, es, ls, bs⟩ := garch_path hM hlog cpp ho ha hb hbc z nz (fun v hv => (bz v hv).trans (by norm_num)) rows (by omega) hr
  obtain ⟨f, hf, bf⟩ := PrepFloat.loglik_fin hM hlog hlp blp 0 z s ls (by rw [lz]; exact hx.len.trans (by norm_num)) (fun v hv => (bz v hv).trans (by norm_num)) bs
  refine ⟨-f, ?_, by rwa [abs_neg]⟩
  unfold Model.Rounded.garchFitObjective Model.Rounded.garchObjective
  simp only [bind, Except.bind, pure, Except.pure, ey, er, ez, es, hf, XR.fin_neg]

/-- C211. The same for the objective of `GJRGARCHModel.fit`. -/
theorem C211_gjr (M : Machine) (hM : M.R = binary64.rounding) (hlog : LogRange M) {lp : ℝ} (hlp : Model.Rounded.log2pi M = .fin lp)
    (blp : |lp| ≤ 3) (pw : ℕ → XR) (hpw : Decay M pw) (i : ℕ) (cpp zeroMean : Bool) (x : List ℝ) (hx : Data M x) (mu : XR) (hmu : Mean M mu)
    (p : GjrVar) (ho : Omega M p.omega) (ha : Coef M p.alpha) (hg : Coef M p.gamma) (hb : Coef M p.beta) :
    ∃ f : ℝ, Model.Rounded.gjrFitObjective M pw i cpp zeroMean (x.map .fin) mu p = .ok (.fin f) ∧ |f| ≤ 2 ^ 180 := by
  obtain ⟨y, ey, ly, hy⟩ := prep_good hM hx zeroMean (i + 2) i
  obtain ⟨v0, e0, v1, v2⟩ := hy.comp
  obtain ⟨rows, er, lr, hr⟩ := rows_ok hM hpw i y hy.ne hy.bd e0 v1 v2
  have hbc := backcast_nn hM hpw i y hy.ne hy.bd
  obtain ⟨z, ez, lz, nz, bz⟩ := cand_bd hM hx hmu zeroMean
  obtain ⟨s, es, ls, bs⟩ := gjr_path hM hlog cpp ho ha hg hb hbc z nz (fun v hv => (bz v hv).trans (by norm_num)) rows (by omega) hr
  obtain ⟨f, hf, bf⟩ := PrepFloat.loglik_fin hM hlog hlp blp 0 z s ls (by rw [lz]; exact hx.len.trans (by norm_num)) (fun v hv => (bz v hv).trans (by norm_num)) bs
  refine ⟨-f, ?_, by rwa [abs_neg]⟩
  unfold Model.Rounded.gjrFitObjective Model.Rounded.gjrObjective
  simp only [bind, Except.bind, pure, Except.pure, ey, er, ez, es, hf, XR.fin_neg]

/-- C211. The constant-correlation model: two such series of one length, any correlation within the bounds of the fit; the bounds are
computed from the residuals of the candidate itself. -/
theorem C211_ccc (M : Machine) (hM : M.R = binary64.rounding) (hlog : LogRange M) {lp p : ℝ} (hlp : Model.Rounded.log2pi M = .fin lp)
    (blp : |lp| ≤ 3) (hp : M.R.rd (99 / 100) = .fin p) (pw : ℕ → XR) (hpw : Decay M pw) (i : ℕ) (cpp : Bool) (x1 x2 : List ℝ) (h1 : Data M x1)
    (h2 : Data M x2) (hlen : x1.length = x2.length) (v : CccVec) (hm1 : Mean M v.mu1) (hm2 : Mean M v.mu2)
    (ho1 : Omega M v.v1.omega) (ha1 : Coef M v.v1.alpha) (hb1 : Coef M v.v1.beta)
    (ho2 : Omega M v.v2.omega) (ha2 : Coef M v.v2.alpha) (hb2 : Coef M v.v2.beta) (rho : ℝ) (hv : v.rho = .fin rho) (hrho : |rho| ≤ p) :
    ∃ f : ℝ, Model.Rounded.cccFitObjective M pw i cpp (x1.map .fin) (x2.map .fin) v = .ok (.fin f) := by
  obtain ⟨y1, ey1, ly1, g1⟩ := resid_good hM h1 hm1 (i + 2)
  obtain ⟨y2, ey2, ly2, g2⟩ := resid_good hM h2 hm2 (i + 2)
  obtain ⟨a1, b1, c1, d1⟩ := g1.comp
  obtain ⟨a2, b2, c2, d2⟩ := g2.comp
  obtain ⟨rows1, er1, lr1, hr1⟩ := rows_ok hM hpw i y1 g1.ne g1.bd b1 c1 d1
  obtain ⟨rows2, er2, lr2, hr2⟩ := rows_ok hM hpw i y2 g2.ne g2.bd b2 c2 d2
  have bc1 := backcast_nn hM hpw i y1 g1.ne g1.bd
  have bc2 := backcast_nn hM hpw i y2 g2.ne g2.bd
  obtain ⟨s1, es1, ls1, bs1⟩ := garch_path hM hlog cpp ho1 ha1 hb1 bc1 y1 g1.ne (fun v hv => (g1.bd v hv).trans (by norm_num)) rows1 (by omega) hr1
  obtain ⟨s2, es2, ls2, bs2⟩ := garch_path hM hlog cpp ho2 ha2 hb2 bc2 y2 g2.ne (fun v hv => (g2.bd v hv).trans (by norm_num)) rows2 (by omega) hr2
  have z1 : ((List.zip (List.zip y1 s1) (List.zip y2 s2)).map fun e => e.1.1) = y1 := by
    have : (fun e : (ℝ × ℝ) × (ℝ × ℝ) => e.1.1) = Prod.fst ∘ Prod.fst := rfl
    rw [this, ← List.map_map, List.map_fst_zip (by rw [List.length_zip, List.length_zip]; omega), List.map_fst_zip (by omega)]
  have z2 : ((List.zip (List.zip y1 s1) (List.zip y2 s2)).map fun e => e.1.2) = s1 := by
    have : (fun e : (ℝ × ℝ) × (ℝ × ℝ) => e.1.2) = Prod.snd ∘ Prod.fst := rfl
    rw [this, ← List.map_map, List.map_fst_zip (by rw [List.length_zip, List.length_zip]; omega), List.map_snd_zip (by omega)]
  have z3 : ((List.zip (List.zip y1 s1) (List.zip y2 s2)).map fun e => e.2.1) = y2 := by
    have : (fun e : (ℝ × ℝ) × (ℝ × ℝ) => e.2.1) = Prod.fst ∘ Prod.snd := rfl
    rw [this, ← List.map_map, List.map_snd_zip (by rw [List.length_zip, List.length_zip]; omega), List.map_fst_zip (by omega)]
  have z4 : ((List.zip (List.zip y1 s1) (List.zip y2 s2)).map fun e => e.2.2) = s2 := by
    have : (fun e : (ℝ × ℝ) × (ℝ × ℝ) => e.2.2) = Prod.snd ∘ Prod.snd := rfl
    rw [this, ← List.map_map, List.map_snd_zip (by rw [List.length_zip, List.length_zip]; omega), List.map_snd_zip (by omega)]
  have lift : ∀ (f : (ℝ × ℝ) × (ℝ × ℝ) → ℝ) (l : List ((ℝ × ℝ) × (ℝ × ℝ))) (w : List ℝ), l.map f = w → (l.map fun e => XR.fin (f e)) = w.map .fin := by
    intro f l w h
    rw [← h, List.map_map]
    rfl
  have k1 := lift _ _ _ z1
  have k2 := lift _ _ _ z2
  have k3 := lift _ _ _ z3
  have k4 := lift _ _ _ z4
  obtain ⟨f, hf⟩ := C208_objective M hM hlog.fin hlp blp hp cpp i (x1.map .fin) (x2.map .fin) v rho hv hrho
    (Model.Rounded.backcast M pw i (y1.map .fin)) (Model.Rounded.backcast M pw i (y2.map .fin)) rows1 rows2
    (List.zip (List.zip y1 s1) (List.zip y2 s2)) (by
      have := h1.len
      simp only [List.length_zip]
      omega) (by rw [k1]; exact ey1) (by rw [k3]; exact ey2) (by rw [k1, k2]; exact es1) (by rw [k3, k4]; exact es2) (by
      intro e he
      have m1 := List.of_mem_zip (a := e.1) (b := e.2) he
      have m2 := List.of_mem_zip (a := e.1.1) (b := e.1.2) m1.1
      have m3 := List.of_mem_zip (a := e.2.1) (b := e.2.2) m1.2
      have q1 := bs1 _ m2.2
      have q2 := bs2 _ m3.2
      exact ⟨⟨(g1.bd _ m2.1).trans (by norm_num), q1.1, q1.2.trans (by norm_num)⟩,
        ⟨(g2.bd _ m3.1).trans (by norm_num), q2.1, q2.2.trans (by norm_num)⟩⟩)
  refine ⟨f, ?_⟩
  unfold Model.Rounded.cccFitObjective
  simp only [bind, Except.bind, ey1, ey2, er1, er2, hf]

/-- one standardised residual of a fitted model -/
theorem PrepFloat.std60 (M : Machine) (hM : M.R = binary64.rounding) {r s : ℝ} (hr : |r| ≤ 2 ^ 15) (h1 : 1 / 2 ^ 80 ≤ s) (h2 : s ≤ 2 ^ 79) :
    ∃ z : ℝ, M.R.div (.fin r) (M.R.sqrt (.fin s)) = .fin z ∧ |z| ≤ 2 ^ 60 := by
  obtain ⟨tiny, huge, A, ht, hh⟩ := RoundedDcc.env M hM
  have hs : 0 < s := lt_of_lt_of_le (by positivity) h1
  have ht' := RoundedDcc.tinyLe (k := 60) ht (by norm_num) A.tiny_nonneg
  have q1 : 1 / 2 ^ 40 ≤ Real.sqrt s := Real.le_sqrt_of_sq_le (by norm_num at h1 ⊢; exact h1)
  have q2 : Real.sqrt s ≤ 2 ^ 40 := (Real.sqrt_le_left (by positivity)).mpr (by norm_num at h2 ⊢; linarith)
  obtain ⟨w, hw⟩ := A.fin (Real.sqrt s) (by
    rw [abs_of_nonneg (Real.sqrt_nonneg _)]; exact RoundedDcc.hugeGe hh (k := 100) (by norm_num) (q2.trans (by norm_num)))
  have ew := A.err _ _ hw
  rw [abs_of_nonneg (Real.sqrt_nonneg _), max_eq_left (le_trans (by norm_num at ht' ⊢; linarith) q1)] at ew
  have hw1 : 1 / 2 ^ 41 ≤ w := by
    have := (abs_le.mp ew).1
    have h3 : (2 : ℝ) ^ (-53 : ℤ) * Real.sqrt s ≤ 1 / 2 * Real.sqrt s := mul_le_mul_of_nonneg_right (by norm_num) (Real.sqrt_nonneg _)
    norm_num at q1 this h3 ⊢
    linarith
  have hw0 : 0 < w := lt_of_lt_of_le (by positivity) hw1
  have hq : |r / w| ≤ 2 ^ 59 := by
    rw [abs_div, abs_of_pos hw0, div_le_iff₀ hw0]
    have := mul_le_mul_of_nonneg_left hw1 (show (0 : ℝ) ≤ 2 ^ 59 by positivity)
    norm_num at this hr ⊢
    linarith
  obtain ⟨z, hz, bz⟩ := RoundedDcc.rd_bnd A (by norm_num) (by norm_num at ht'; linarith) hq (one_le_pow₀ (by norm_num))
    (RoundedDcc.hugeGe hh (k := 59) (by norm_num) le_rfl)
  refine ⟨z, ?_, by norm_num at bz ⊢; linarith⟩
  have e : M.R.sqrt (.fin s) = .fin w := by
    unfold Rounding.sqrt; rw [XR.fin_sqrt hs.le, Rounding.round_fin, hw]
  rw [e]
  unfold Rounding.div
  rw [XR.fin_div _ hw0.ne', Rounding.round_fin, hz]

/-- a fitted model within the range of C211 -/
structure PrepFloat.Fitted (M : Machine) (f : Model.Rounded.FittedUni) : Prop where
  mu : Mean M f.mu
  lastMu : Mean M f.lastMu
  omega : Omega M f.last.omega
  alpha : Coef M f.last.alpha
  beta : Coef M f.last.beta
  ll : ∃ l : ℝ, f.ll = .fin l ∧ |l| ≤ 2 ^ 180

theorem PrepFloat.uniStd_fin (M : Machine) (hM : M.R = binary64.rounding) (hlog : LogRange M) (pw : ℕ → XR) (hpw : Decay M pw) (i : ℕ)
    (cpp zeroMean : Bool) (x : List ℝ) (hx : Data M x) (f : Model.Rounded.FittedUni) (hf : Fitted M f) :
    ∃ z : List ℝ, Model.Rounded.uniStd M pw i cpp zeroMean (x.map .fin) f = .ok (z.map .fin) ∧ z.length = x.length ∧ ∀ v ∈ z, |v| ≤ 2 ^ 60 := by
  obtain ⟨y, ey, ly, hy⟩ := prep_good hM hx zeroMean (i + 2) i
  obtain ⟨v0, e0, v1, v2⟩ := hy.comp
  obtain ⟨rows, er, lr, hr⟩ := rows_ok hM hpw i y hy.ne hy.bd e0 v1 v2
  have hbc := backcast_nn hM hpw i y hy.ne hy.bd
  obtain ⟨z, ez, lz, nz, bz⟩ := cand_bd hM hx hf.lastMu zeroMean
  obtain ⟨s, es, ls, bs⟩ := garch_path hM hlog cpp hf.omega hf.alpha hf.beta hbc z nz (fun v hv => (bz v hv).trans (by norm_num)) rows (by omega) hr
  obtain ⟨w, ew, lw, -, bw⟩ := cand_bd hM hx hf.mu false
  have key : ∀ (w s : List ℝ), w.length = s.length → (∀ v ∈ w, |v| ≤ 2 ^ 15) → (∀ v ∈ s, 1 / 2 ^ 80 ≤ v ∧ v ≤ 2 ^ 79) →
      ∃ q : List ℝ, Model.Rounded.stdResid M (w.map .fin) (s.map .fin) = q.map .fin ∧ q.length = w.length ∧ ∀ v ∈ q, |v| ≤ 2 ^ 60 := by
    intro w
    induction w with
    | nil => intro s _ _ _; exact ⟨[], rfl, rfl, by simp⟩
    | cons a w ih =>
      intro s hl hw hs
      rcases s with _ | ⟨b, s⟩
      · simp at hl
      obtain ⟨q, k1, k2, k3⟩ := ih s (by simpa using hl) (fun v hv => hw v (by simp [hv])) (fun v hv => hs v (by simp [hv]))
      obtain ⟨y, f1, f2⟩ := PrepFloat.std60 M hM (hw a (by simp)) (hs b (by simp)).1 (hs b (by simp)).2
      refine ⟨y :: q, ?_, by simp [k2], ?_⟩
      · unfold Model.Rounded.stdResid at k1 ⊢
        simp only [List.map_cons, List.zipWith_cons_cons, f1, k1]
      · intro v hv
        rcases List.mem_cons.mp hv with rfl | hv
        · exact f2
        · exact k3 v hv
  obtain ⟨q, k1, k2, k3⟩ := key w s (by omega) bw bs
  refine ⟨q, ?_, by omega, k3⟩
  unfold Model.Rounded.uniStd
  simp only [bind, Except.bind, pure, Except.pure, ey, er, ez, es, ew, k1]

/-- C211. The dynamic-correlation model: with two such series and two fitted univariate models in range, the standardised residuals are
finite; if their second moments are not below `2^-60` (for the Python kernel: the variances that `np.cov` computes between `2^-210` and `2^246`),
the objective of the correlation step is a finite number at every candidate `a, b ≥ 0` with `a + b ≤ 1` and computed `1 - a - b ≥ 2^-60`. -/
theorem C211_dcc (M : Machine) (hM : M.R = binary64.rounding) (hlog : LogRange M)
    (hlog5 : ∀ w : ℝ, 1 / 100 ≤ w → w ≤ 1 → ∃ l, M.log (.fin w) = .fin l ∧ |l| ≤ 5)
    (pw : ℕ → XR) (hpw : Decay M pw) (i : ℕ) (cpp zeroMean1 zeroMean2 : Bool) (x1 x2 : List ℝ) (h1 : Data M x1) (h2 : Data M x2)
    (hlen : x1.length = x2.length) (f1 f2 : Model.Rounded.FittedUni) (hf1 : Fitted M f1) (hf2 : Fitted M f2) :
    ∃ z1 z2 : List ℝ, Model.Rounded.uniStd M pw i cpp zeroMean1 (x1.map .fin) f1 = .ok (z1.map .fin) ∧
      Model.Rounded.uniStd M pw i cpp zeroMean2 (x2.map .fin) f2 = .ok (z2.map .fin) ∧ z1.length = x1.length ∧ z2.length = x2.length ∧
      ∀ (c11 c22 c12 a b c : ℝ), 0 ≤ a → 0 ≤ b → a + b ≤ 1 → M.R.Rep (.fin a) → M.R.Rep (.fin b) →
        M.R.sub (M.R.sub 1 (.fin a)) (.fin b) = .fin c → 1 / 2 ^ 60 ≤ c →
        (cpp = false → (1 / 2 ^ 210 ≤ c11 ∧ c11 ≤ 2 ^ 246) ∧ (1 / 2 ^ 210 ≤ c22 ∧ c22 ≤ 2 ^ 246)) →
        (cpp = true → (z1.length : ℝ) * (1 / 2 ^ 60) ≤ (z1.map fun v => v ^ 2).sum ∧ (z2.length : ℝ) * (1 / 2 ^ 60) ≤ (z2.map fun v => v ^ 2).sum) →
        ∃ v : ℝ, Model.Rounded.dccFitObjective M pw i cpp zeroMean1 zeroMean2 ⟨.fin c11, .fin c22, .fin c12⟩ (.fin a) (.fin b)
          (x1.map .fin) (x2.map .fin) f1 f2 = .ok (.fin v) := by
  obtain ⟨z1, e1, k1, b1⟩ := PrepFloat.uniStd_fin M hM hlog pw hpw i cpp zeroMean1 x1 h1 f1 hf1
  obtain ⟨z2, e2, k2, b2⟩ := PrepFloat.uniStd_fin M hM hlog pw hpw i cpp zeroMean2 x2 h2 f2 hf2
  refine ⟨z1, z2, e1, e2, k1, k2, ?_⟩
  intro c11 c22 c12 a b c ha hb hab ra rb hcd hc hpy hcpp
  obtain ⟨l1, el1, bl1⟩ := hf1.ll
  obtain ⟨l2, el2, bl2⟩ := hf2.ll
  have hz : List.zip (z1.map XR.fin) (z2.map XR.fin) = (List.zip z1 z2).map fun p => (.fin p.1, .fin p.2) := by
    rw [List.zip_map]; rfl
  have hzl : (List.zip z1 z2).length = x1.length := by rw [List.length_zip]; omega
  have m1 : (List.zip z1 z2).map (fun p => p.1 ^ 2) = z1.map fun v => v ^ 2 := by
    have := List.map_fst_zip (l₁ := z1) (l₂ := z2) (by omega)
    conv_rhs => rw [← this, List.map_map]
    rfl
  have m2 : (List.zip z1 z2).map (fun p => p.2 ^ 2) = z2.map fun v => v ^ 2 := by
    have := List.map_snd_zip (l₁ := z1) (l₂ := z2) (by omega)
    conv_rhs => rw [← this, List.map_map]
    rfl
  obtain ⟨v, hv⟩ := C207_candidates M hM hlog5 (List.zip z1 z2) (by
      intro h
      have := congrArg List.length h
      rw [hzl] at this
      exact h1.ne (List.length_eq_zero_iff.mp this)) (by rw [hzl]; exact h1.len.trans (by norm_num)) (by
      intro p hp
      have := List.of_mem_zip (a := p.1) (b := p.2) hp
      exact ⟨b1 _ this.1, b2 _ this.2⟩) cpp c11 c22 c12 a b c ha hb hab ra rb hcd hc hpy (by
      intro h
      obtain ⟨q1, q2⟩ := hcpp h
      rw [m1, m2, hzl]
      rw [k1] at q1
      rw [k2, ← hlen] at q2
      exact ⟨q1, q2⟩) i l1 l2 bl1 bl2
  refine ⟨v, ?_⟩
  unfold Model.Rounded.dccFitObjective
  simp only [bind, Except.bind, pure, Except.pure, e1, e2, hz, el1, el2, hv]

theorem PrepFloat.exact_foldSum (l : List XR) : Machine.exact.R.foldSum l = l.sum := by
  have key : ∀ (l : List XR) (x : XR), l.foldl Machine.exact.R.add x = x + l.sum := by
    intro l
    induction l with
    | nil => intro x; simp
    | cons y l ih =>
      intro x
      rw [List.foldl_cons, ih, (RoundedDcc.exact_ops x y).1, List.sum_cons, add_assoc]
  unfold Rounding.foldSum
  rw [key, ← XR.zero_def, zero_add]

/-- C211. Without rounding the backcast and the variance bounds are those of the exact model, and so is the objective of the
constant-correlation model. -/
theorem C211_exact (i : ℕ) (cpp : Bool) (r : List XR) :
    Model.Rounded.backcast Machine.exact (fun k => .fin ((94 / 100 : ℝ) ^ k)) i r = Model.backcast r ∧
    Model.Rounded.varianceBounds Machine.exact (fun k => .fin ((94 / 100 : ℝ) ^ k)) i r = Model.varianceBounds cpp r := by
  have a := fun x y => (RoundedDcc.exact_ops x y).1
  have b := fun x y => (RoundedDcc.exact_ops x y).2.1
  have c := fun x y => (RoundedDcc.exact_ops x y).2.2.1
  have d := fun x y => (RoundedDcc.exact_ops x y).2.2.2
  have hs : ∀ (i : ℕ) (l : List XR), Machine.exact.sum i l = l.sum := fun _ _ => rfl
  have hr : ∀ x, Machine.exact.R.round x = x := Machine.exact_round
  have hsq : ∀ x : XR, XR.sq x = x * x := fun x => rfl
  have hrd : ∀ x : ℝ, Machine.exact.R.rd x = x := fun x => rfl
  have hew : ∀ (v lam : XR), Model.Rounded.ewma Machine.exact r v lam = Model.ewma cpp r v lam := by
    intro v lam
    rw [(C152_exact ⟨0, 0, 0⟩ ⟨0, 0, 0, 0⟩ r v lam v [] cpp).2.2]
    cases cpp
    · exact ewma_eq _ _ _
    · rfl
  refine ⟨?_, ?_⟩
  · simp only [Model.Rounded.backcast, Model.backcast, Model.Rounded.decayWeights, Model.decayWeights, PrepFloat.exact_foldSum, hs, a, b, c, d, hsq]
  · simp only [Model.Rounded.varianceBounds, Model.varianceBounds, Model.Rounded.decayWeights, Model.decayWeights, Model.Rounded.boundRows,
      Model.Rounded.npVar, Np.var, Model.Rounded.mean, Np.mean, hs, a, b, c, d, hr, hsq, hrd, hew]
    have he : Model.Rounded.boundRow Machine.exact = fun v : XR => (v / .fin 1000000, v * .fin 1000000) := by
      funext v
      simp only [Model.Rounded.boundRow, c, d]
    rw [he]
    rw [show XR.sq = fun r : XR => r * r from rfl]

/-- C211. Without rounding the objectives of the univariate fits are minus the exact log-likelihood along the exact variance path, with
the backcast and bounds of the exact preparation. -/
theorem C211_exact_objective (i : ℕ) (cpp : Bool) :
    (∀ (o : GarchObj GarchVar) (p : XR × GarchVar),
      Model.Rounded.garchFitObjective Machine.exact (fun k => .fin ((94 / 100 : ℝ) ^ k)) i cpp o.zeroMean o.returns p.1 p.2 =
        (Model.varianceBounds cpp (Model.prepResids o)).bind fun vb : List (XR × XR) =>
          (modelPath (garchVariance cpp) o (Model.backcast (Model.prepResids o)) vb p).map fun (x : List XR × List XR) => -Model.loglik x.1 x.2) ∧
    (∀ (o : GarchObj GjrVar) (p : XR × GjrVar),
      Model.Rounded.gjrFitObjective Machine.exact (fun k => .fin ((94 / 100 : ℝ) ^ k)) i cpp o.zeroMean o.returns p.1 p.2 =
        (Model.varianceBounds cpp (Model.prepResids o)).bind fun vb : List (XR × XR) =>
          (modelPath (gjrVariance cpp) o (Model.backcast (Model.prepResids o)) vb p).map fun (x : List XR × List XR) => -Model.loglik x.1 x.2) := by
  have b := fun x y => (RoundedDcc.exact_ops x y).2.1
  have d := fun x y => (RoundedDcc.exact_ops x y).2.2.2
  have hs : ∀ (i : ℕ) (l : List XR), Machine.exact.sum i l = l.sum := fun _ _ => rfl
  have hr : ∀ x, Machine.exact.R.round x = x := Machine.exact_round
  have hm : ∀ (z : Bool) (r : List XR), Model.Rounded.prepResids Machine.exact z i r = if z then r else demean r (Np.mean r) := by
    intro z r
    unfold Model.Rounded.prepResids Model.Rounded.modelResids Model.Rounded.mean demean Np.mean
    simp only [b, d, hs, hr]
  refine ⟨fun o p => ?_, fun o p => ?_⟩
  · unfold Model.Rounded.garchFitObjective
    simp only [hm, (C211_exact i cpp _).1, (C211_exact i cpp _).2]
    rw [show (if o.zeroMean = true then o.returns else demean o.returns (Np.mean o.returns)) = Model.prepResids o from rfl]
    rcases Model.varianceBounds cpp (Model.prepResids o) with e | vb
    · rfl
    · exact (C205_exact cpp _ vb).2.1 o p
  · unfold Model.Rounded.gjrFitObjective
    simp only [hm, (C211_exact i cpp _).1, (C211_exact i cpp _).2]
    rw [show (if o.zeroMean = true then o.returns else demean o.returns (Np.mean o.returns)) = Model.prepResids o from rfl]
    rcases Model.varianceBounds cpp (Model.prepResids o) with e | vb
    · rfl
    · exact (C205_exact cpp _ vb).2.2 o p

/-- C211. The same for the objective of the constant-correlation model on two series of one length. -/
theorem C211_exact_ccc (i : ℕ) (cpp : Bool) (returns1 returns2 : List XR) (p : CccVec) (hlen : returns1.length = returns2.length)
    (hne : returns1 ≠ []) (x1 x2 : XR) (x3 x4 : List (XR × XR)) :
    Model.Rounded.cccFitObjective Machine.exact (fun k => .fin ((94 / 100 : ℝ) ^ k)) i cpp returns1 returns2 p =
      Model.cccObjective cpp returns1 returns2 p x1 x2 x3 x4 := by
  have b := fun x y => (RoundedDcc.exact_ops x y).2.1
  have hm : ∀ r mu, Model.Rounded.modelResids Machine.exact false r mu = demean r mu := by
    intro r mu
    unfold Model.Rounded.modelResids demean
    simp only [Bool.false_eq_true, if_false, b]
  have ok : ∀ r : List XR, r ≠ [] → ∃ v, Model.varianceBounds cpp r = .ok v := by
    intro r hr
    unfold Model.varianceBounds Model.ewma
    simp only [bind, Except.bind, pure, Except.pure, hr, if_false]
    exact ⟨_, rfl⟩
  have n1 : demean returns1 p.mu1 ≠ [] := by
    unfold demean; simpa using hne
  have n2 : demean returns2 p.mu2 ≠ [] := by
    unfold demean
    intro h
    exact hne (List.length_eq_zero_iff.mp (by rw [hlen]; simpa using congrArg List.length h))
  obtain ⟨b1, e1⟩ := ok _ n1
  obtain ⟨b2, e2⟩ := ok _ n2
  unfold Model.Rounded.cccFitObjective
  simp only [hm, (C211_exact i cpp _).1, (C211_exact i cpp _).2, e1, e2, bind, Except.bind]
  exact C208_exact_objective cpp i returns1 returns2 p hlen b1 b2 e1 e2 x1 x2 x3 x4

/-- C211. Without rounding the standardised residuals are those of the exact model, and the objective of the correlation step is that of the
exact model at the correlations of its kernel. -/
theorem C211_exact_dcc (i : ℕ) (cpp : Bool) :
    (∀ (o : GarchObj GarchVar) (f : Model.Rounded.FittedUni),
      Model.Rounded.uniStd Machine.exact (fun k => .fin ((94 / 100 : ℝ) ^ k)) i cpp o.zeroMean o.returns f =
        (Model.varianceBounds cpp (Model.prepResids o)).bind fun vb : List (XR × XR) =>
          (modelPath (garchVariance cpp) o (Model.backcast (Model.prepResids o)) vb (f.lastMu, f.last)).map fun (x : List XR × List XR) =>
            Model.stdResid (demean o.returns f.mu) x.2) ∧
    (∀ (zeroMean1 zeroMean2 : Bool) (cov : QMat) (a b : XR) (returns1 returns2 : List XR) (f1 f2 : Model.Rounded.FittedUni) (z1 z2 rho : List XR),
      Model.Rounded.uniStd Machine.exact (fun k => .fin ((94 / 100 : ℝ) ^ k)) i cpp zeroMean1 returns1 f1 = .ok z1 →
      Model.Rounded.uniStd Machine.exact (fun k => .fin ((94 / 100 : ℝ) ^ k)) i cpp zeroMean2 returns2 f2 = .ok z2 →
      z1.length = z2.length → z1 ≠ [] →
      (cpp = false → Model.Rounded.corrcoef Machine.exact cov = Model.dccQbar false z1 z2) → Model.dccKernel cpp a b z1 z2 = .ok rho →
      Model.Rounded.dccFitObjective Machine.exact (fun k => .fin ((94 / 100 : ℝ) ^ k)) i cpp zeroMean1 zeroMean2 cov a b returns1 returns2 f1 f2 =
        .ok (-(f1.ll + f2.ll + (List.zipWith (fun (z : XR × XR) (x : XR) => Model.dccTerm z.1 z.2 x) (List.zip z1 z2)
          (rho.map fun x : XR => Np.clip x (.fin (-(99 / 100))) (.fin (99 / 100)))).sum))) := by
  have a' := fun x y => (RoundedDcc.exact_ops x y).1
  have b := fun x y => (RoundedDcc.exact_ops x y).2.1
  have c := fun x y => (RoundedDcc.exact_ops x y).2.2.1
  have d := fun x y => (RoundedDcc.exact_ops x y).2.2.2
  have hs : ∀ (i : ℕ) (l : List XR), Machine.exact.sum i l = l.sum := fun _ _ => rfl
  have hr : ∀ x, Machine.exact.R.round x = x := Machine.exact_round
  have hsq : ∀ x : XR, XR.sq x = x * x := fun x => rfl
  have hl : ∀ x : XR, Machine.exact.log x = XR.log x := fun x => rfl
  have hm : ∀ (z : Bool) (r : List XR), Model.Rounded.prepResids Machine.exact z i r = if z then r else demean r (Np.mean r) := by
    intro z r
    unfold Model.Rounded.prepResids Model.Rounded.modelResids Model.Rounded.mean demean Np.mean
    simp only [b, d, hs, hr]
  have hm2 : ∀ z r mu, Model.Rounded.modelResids Machine.exact z r mu = if z then r else demean r mu := by
    intro z r mu
    unfold Model.Rounded.modelResids demean
    simp only [b]
  have hstd : ∀ r s : List XR, Model.Rounded.stdResid Machine.exact r s = Model.stdResid r s := by
    intro r s
    unfold Model.Rounded.stdResid Model.stdResid
    simp only [d, RoundedDcc.exact_sqrt]
  refine ⟨fun o f => ?_, ?_⟩
  · unfold Model.Rounded.uniStd
    simp only [hm, hm2, hstd, (C211_exact i cpp _).1, (C211_exact i cpp _).2,
      fun v r bc vb => (C152_exact v ⟨0, 0, 0, 0⟩ r bc 0 0 vb cpp).1]
    rw [show (if o.zeroMean = true then o.returns else demean o.returns (Np.mean o.returns)) = Model.prepResids o from rfl]
    rcases Model.varianceBounds cpp (Model.prepResids o) with e | vb
    · rfl
    · show (do
        let s2 ← garchVariance cpp f.last (if o.zeroMean = true then o.returns else demean o.returns f.lastMu) (Model.backcast (Model.prepResids o)) vb
        pure (Model.stdResid (if false = true then o.returns else demean o.returns f.mu) s2) : Except PyErr (List XR)) = Except.map _ (modelPath _ o _ vb _)
      unfold modelPath
      dsimp only
      generalize garchVariance cpp f.last (if o.zeroMean = true then o.returns else demean o.returns f.lastMu) (Model.backcast (Model.prepResids o)) vb = g
      rcases g with e | s2 <;> rfl
  · intro zm1 zm2 cov a b2 r1 r2 f1 f2 z1 z2 rho h1 h2 hlen hne hcov hk
    have hk2 := C206_exact cpp cov a b2 z1 z2 hlen hne hcov
    rw [hk] at hk2
    injection hk2 with hk2
    have hterm : ∀ x y r : XR, Model.Rounded.dccTerm Machine.exact x y r = Model.dccTerm x y r := by
      intro x y r
      unfold Model.Rounded.dccTerm Model.dccTerm
      simp only [a', b, c, d, hsq, hl]
    unfold Model.Rounded.dccFitObjective
    simp only [bind, Except.bind, pure, Except.pure, h1, h2, ← hk2]
    unfold Model.Rounded.dccObjective
    simp only [hterm, a', hs, hr, List.zipWith_map_right]

/-! ### IEEE arithmetic meets the hypotheses -/

namespace PrepFloat

theorem ieee_range : LogRange Machine.ieee := ⟨CccFloat.ieee_log200, Rounded.ieee_log⟩

theorem ieee_decay : Decay Machine.ieee fun k => Machine.ieee.R.rd ((94 / 100 : ℝ) ^ k) := by
  constructor
  · show Machine.ieee.R.rd ((94 / 100 : ℝ) ^ 0) = .fin 1
    rw [pow_zero]
    exact Rounding.rep_one
  · intro k
    have := nn_le (M := Machine.ieee) rfl (n := 1) (by norm_num) (x := (94 / 100 : ℝ) ^ k) (by positivity)
      (by push_cast; exact pow_le_one₀ (by norm_num) (by norm_num))
    simpa using this

theorem ieee_int (z : ℤ) (hz : z.natAbs ≤ 2 ^ 53) : Machine.ieee.R.Rep (.fin (z : ℝ)) := by
  have h := Rounding.rep_nat (R := Machine.ieee.R) (n := z.natAbs) hz
  rcases Int.natAbs_eq z with e | e
  · rw [e]; simpa using h
  · rw [e]
    have := Rounding.neg_rep h
    rw [XR.fin_neg] at this
    simpa using this

theorem ieee_data : Data Machine.ieee [1, -1, 2] := by
  refine ⟨by simp, by norm_num, ?_, ?_⟩
  · intro v hv
    simp only [List.mem_cons, List.not_mem_nil, or_false] at hv
    have h1 := ieee_int 1 (by norm_num)
    have h2 := ieee_int (-1) (by norm_num)
    have h3 := ieee_int 2 (by norm_num)
    push_cast at h1 h2 h3
    rcases hv with rfl | rfl | rfl
    · exact ⟨by norm_num, h1⟩
    · exact ⟨by norm_num, h2⟩
    · exact ⟨by norm_num, h3⟩
  · norm_num [PrepFloat.var]

theorem ieee_coef : Coef Machine.ieee 1 ∧ Coef Machine.ieee (.fin (1 / 2)) ∧ Omega Machine.ieee 1 ∧ Mean Machine.ieee 1 := by
  have h := RoundedDip.half_rep
  have h1 := Rounding.rep_one (R := Machine.ieee.R)
  rw [XR.one_def]
  exact ⟨⟨1, rfl, by norm_num, by norm_num, h1⟩, ⟨1 / 2, rfl, by norm_num, by norm_num, h⟩,
    ⟨1, rfl, by norm_num, by norm_num, h1⟩, ⟨1, rfl, by norm_num, h1⟩⟩

end PrepFloat

/-- C211: three returns, either mean specification and either kernel; the candidate has `alpha + beta = 3/2` -/
example (i : ℕ) (cpp zeroMean : Bool) :
    (∃ (rows : List (ℝ × ℝ)) (b : ℝ), Model.Rounded.varianceBounds Machine.ieee (fun k => Machine.ieee.R.rd ((94 / 100 : ℝ) ^ k)) i
        (Model.Rounded.prepResids Machine.ieee zeroMean i ([.fin 1, .fin (-1), .fin 2])) = .ok (rows.map fun c => (.fin c.1, .fin c.2)) ∧
      Model.Rounded.backcast Machine.ieee (fun k => Machine.ieee.R.rd ((94 / 100 : ℝ) ^ k)) i
        (Model.Rounded.prepResids Machine.ieee zeroMean i ([.fin 1, .fin (-1), .fin 2])) = .fin b ∧ rows.length = 3) ∧
    (∃ f : ℝ, Model.Rounded.garchFitObjective Machine.ieee (fun k => Machine.ieee.R.rd ((94 / 100 : ℝ) ^ k)) i cpp zeroMean
      [.fin 1, .fin (-1), .fin 2] 1 ⟨1, .fin (1 / 2), 1⟩ = .ok (.fin f)) ∧
    (∃ f : ℝ, Model.Rounded.gjrFitObjective Machine.ieee (fun k => Machine.ieee.R.rd ((94 / 100 : ℝ) ^ k)) i cpp zeroMean
      [.fin 1, .fin (-1), .fin 2] 1 ⟨1, .fin (1 / 2), 1, 1⟩ = .ok (.fin f)) := by
  obtain ⟨lp, h1, blp⟩ := CccFloat.ieee_log2pi
  obtain ⟨c1, c2, c3, c4⟩ := PrepFloat.ieee_coef
  obtain ⟨⟨rows, e, l, -⟩, b, eb, -⟩ := C211_preparation Machine.ieee rfl _ PrepFloat.ieee_decay i zeroMean _ PrepFloat.ieee_data
  refine ⟨⟨rows, b, e, eb, l⟩, ?_, ?_⟩
  · obtain ⟨f, hf, -⟩ := C211_garch Machine.ieee rfl PrepFloat.ieee_range h1 blp _ PrepFloat.ieee_decay i cpp zeroMean _ PrepFloat.ieee_data 1 c4 ⟨1, .fin (1 / 2), 1⟩ c3 c2 c1
    exact ⟨f, hf⟩
  · obtain ⟨f, hf, -⟩ := C211_gjr Machine.ieee rfl PrepFloat.ieee_range h1 blp _ PrepFloat.ieee_decay i cpp zeroMean _ PrepFloat.ieee_data 1 c4
      ⟨1, .fin (1 / 2), 1, 1⟩ c3 c2 c1 c1
    exact ⟨f, hf⟩

/-- C211: the constant-correlation model on two series, correlation 1/2 -/
example (i : ℕ) (cpp : Bool) : ∃ f : ℝ, Model.Rounded.cccFitObjective Machine.ieee (fun k => Machine.ieee.R.rd ((94 / 100 : ℝ) ^ k)) i cpp
    (([1, -1, 2] : List ℝ).map .fin) (([1, -1, 2] : List ℝ).map .fin) ⟨1, ⟨1, .fin (1 / 2), 1⟩, 1, ⟨1, 1, .fin (1 / 2)⟩, .fin (1 / 2)⟩ = .ok (.fin f) := by
  obtain ⟨lp, h1, blp⟩ := CccFloat.ieee_log2pi
  obtain ⟨c1, c2, c3, c4⟩ := PrepFloat.ieee_coef
  obtain ⟨tiny, huge, A, ht, hh⟩ := RoundedDcc.env Machine.ieee rfl
  obtain ⟨p, hp⟩ := A.fin (99 / 100) (by
    rw [abs_of_pos (by norm_num)]; exact RoundedDcc.hugeGe hh (k := 1) (by norm_num) (by norm_num))
  have hhalf : (1 / 2 : ℝ) ≤ p := by
    have := Machine.ieee.R.mono (1 / 2) (99 / 100) (by norm_num)
    rw [hp, RoundedDip.half_rep] at this
    exact XR.fin_le.mp this
  have key := C211_ccc Machine.ieee rfl PrepFloat.ieee_range h1 blp hp _ PrepFloat.ieee_decay i cpp [1, -1, 2] [1, -1, 2] PrepFloat.ieee_data
    PrepFloat.ieee_data rfl
  have hr : |(1 / 2 : ℝ)| ≤ p := by rw [abs_of_pos (by norm_num)]; exact hhalf
  generalize hv : CccVec.mk 1 ⟨1, .fin (1 / 2), 1⟩ 1 ⟨1, 1, .fin (1 / 2)⟩ (.fin (1 / 2)) = v
  exact key v (by rw [← hv]; exact c4) (by rw [← hv]; exact c4) (by rw [← hv]; exact c3) (by rw [← hv]; exact c2) (by rw [← hv]; exact c1)
    (by rw [← hv]; exact c3) (by rw [← hv]; exact c1) (by rw [← hv]; exact c2) (1 / 2) (by rw [← hv]) hr

/-- C211: the dynamic-correlation model on two series, Python kernel, `a = 1/2`, `b = 0` -/
example (i : ℕ) : ∃ f : ℝ, Model.Rounded.dccFitObjective Machine.ieee (fun k => Machine.ieee.R.rd ((94 / 100 : ℝ) ^ k)) i false false true
    ⟨.fin 1, .fin 1, .fin (1 / 2)⟩ (.fin (1 / 2)) (.fin 0) (([1, -1, 2] : List ℝ).map .fin) (([1, -1, 2] : List ℝ).map .fin)
    ⟨1, 1, ⟨1, .fin (1 / 2), 1⟩, .fin (-7)⟩ ⟨1, 1, ⟨1, .fin (1 / 2), 1⟩, .fin (-8)⟩ = .ok (.fin f) := by
  obtain ⟨c1, c2, c3, c4⟩ := PrepFloat.ieee_coef
  have hf : ∀ l : ℝ, |l| ≤ 2 ^ 180 → PrepFloat.Fitted Machine.ieee ⟨1, 1, ⟨1, .fin (1 / 2), 1⟩, .fin l⟩ :=
    fun l hl => ⟨c4, c4, c3, c2, c1, l, rfl, hl⟩
  have hh := RoundedDip.half_rep
  have z0 : Machine.ieee.R.Rep (.fin 0) := Rounding.rd_zero
  have e1 : Machine.ieee.R.sub (Machine.ieee.R.sub 1 (.fin (1 / 2))) (.fin 0) = .fin (1 / 2) := by
    unfold Rounding.sub
    rw [XR.one_def, XR.fin_sub, Rounding.round_fin, show (1 : ℝ) - 1 / 2 = 1 / 2 by norm_num, hh, XR.fin_sub, sub_zero, Rounding.round_fin, hh]
  obtain ⟨z1, z2, -, -, -, -, key⟩ := C211_dcc Machine.ieee rfl PrepFloat.ieee_range RoundedDcc.ieee_log5 _ PrepFloat.ieee_decay i false false true
    [1, -1, 2] [1, -1, 2] PrepFloat.ieee_data PrepFloat.ieee_data rfl ⟨1, 1, ⟨1, .fin (1 / 2), 1⟩, .fin (-7)⟩ ⟨1, 1, ⟨1, .fin (1 / 2), 1⟩, .fin (-8)⟩
    (hf (-7) (by rw [abs_neg, abs_of_pos (by norm_num)]; norm_num)) (hf (-8) (by rw [abs_neg, abs_of_pos (by norm_num)]; norm_num))
  exact key 1 1 (1 / 2) (1 / 2) 0 (1 / 2) (by norm_num) le_rfl (by norm_num) hh z0 e1 (by norm_num)
    (fun _ => ⟨⟨by norm_num, by norm_num⟩, by norm_num, by norm_num⟩) (by simp)

/-- C211: the exact objective of two series -/
example (i : ℕ) (cpp : Bool) (p : CccVec) : Model.Rounded.cccFitObjective Machine.exact (fun k => .fin ((94 / 100 : ℝ) ^ k)) i cpp
    [.fin 1, .fin (-1), .fin 2] [.fin 3, .fin 1, .fin (-2)] p = Model.cccObjective cpp [.fin 1, .fin (-1), .fin 2] [.fin 3, .fin 1, .fin (-2)] p 0 0 [] [] :=
  C211_exact_ccc i cpp [.fin 1, .fin (-1), .fin 2] [.fin 3, .fin 1, .fin (-2)] p (by simp) (by simp) 0 0 [] []

end
end Frds.Props

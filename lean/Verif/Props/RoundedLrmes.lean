import Verif.Props.RoundedRisk
import Verif.Props.Lrmes

/-! LRMES and the z-score in rounded arithmetic. -/
namespace Frds.Props
noncomputable section
open Frds Frds.Model Classical
set_option linter.unusedSimpArgs false

namespace Rounded
open Rounding

/-- NaN or at least `-n` -/
def AtLeastNeg (n : ℕ) (x : XR) : Prop := x = .nan ∨ .fin (-(n : ℝ)) ≤ x

theorem atLeastNeg_add {R : Rounding} {m n : ℕ} {x y : XR} (hb : m + n ≤ 2 ^ R.prec) (hx : AtLeastNeg m x)
    (hy : AtLeastNeg n y) : AtLeastNeg (m + n) (R.add x y) := by
  rcases hx with rfl | hx
  · exact Or.inl (round_eq_nan.mpr (by cases y <;> rfl))
  rcases hy with rfl | hy
  · exact Or.inl (round_eq_nan.mpr (by cases x <;> rfl))
  right
  have hrep : R.Rep (.fin (-((m + n : ℕ) : ℝ))) := by
    have := neg_rep (rep_nat (R := R) hb)
    simpa using this
  refine le_round hrep ?_
  cases x with
  | nan => exact False.elim hx
  | ninf => exact False.elim hx
  | pinf =>
    cases y with
    | nan => exact False.elim hy
    | ninf => exact False.elim hy
    | pinf => exact trivial
    | fin b => exact trivial
  | fin a =>
    cases y with
    | nan => exact False.elim hy
    | ninf => exact False.elim hy
    | pinf => exact trivial
    | fin b =>
      rw [XR.fin_le] at hx hy
      rw [XR.fin_add, XR.fin_le]
      push_cast
      linarith

theorem exp_sub_one {M : Machine} {e : XR} (h : Good e) : AtLeastNeg 1 (M.R.sub e 1) := by
  rcases h with rfl | h
  · exact Or.inl rfl
  right
  have hrep : M.R.Rep (.fin (-((1 : ℕ) : ℝ))) := by
    have := neg_rep (rep_one (R := M.R))
    simpa using this
  refine le_round hrep ?_
  rcases XR.nonneg_cases h with rfl | ⟨r, hr, rfl⟩
  · exact trivial
  · rw [XR.one_def, XR.fin_sub, XR.fin_le]
    push_cast
    linarith

theorem accumulate_inv (M : Machine) (hexp : ∀ y, Good (M.exp y)) (cpp : Bool) (x : SimArgs) :
    ∀ (paths : List (List (XR × XR))) (i : ℕ) (acc : XR × ℕ), acc.2 + paths.length ≤ 2 ^ M.R.prec →
      AtLeastNeg acc.2 acc.1 →
      AtLeastNeg (Model.Rounded.accumulate M cpp x i acc paths).2 (Model.Rounded.accumulate M cpp x i acc paths).1 ∧
      (Model.Rounded.accumulate M cpp x i acc paths).2 ≤ acc.2 + paths.length := by
  intro paths
  induction paths with
  | nil => intro i acc _ h; exact ⟨h, le_rfl⟩
  | cons p t ih =>
    intro i acc hb h
    rw [List.length_cons] at hb
    unfold Model.Rounded.accumulate
    have key : AtLeastNeg (if (Model.Rounded.simulation M cpp i x p).2 then 1 else 0)
        (Model.Rounded.simulation M cpp i x p).1 := by
      unfold Model.Rounded.simulation
      dsimp only
      split_ifs with h1
      · exact exp_sub_one (hexp _)
      · exact absurd rfl ‹_›
      · exact absurd ‹_› (by simp)
      · exact Or.inr (XR.fin_le.mpr (by simp))
    have hle : (if (Model.Rounded.simulation M cpp i x p).2 then 1 else 0) ≤ 1 := by split_ifs <;> simp
    have := ih (i + 1) (M.R.add acc.1 (Model.Rounded.simulation M cpp i x p).1,
      acc.2 + (if (Model.Rounded.simulation M cpp i x p).2 then 1 else 0)) (by dsimp only; omega)
      (atLeastNeg_add (by omega) h key)
    refine ⟨this.1, this.2.trans ?_⟩
    rw [List.length_cons]
    dsimp only
    omega

end Rounded
open Rounded Rounding

/-! ### C154: LRMES -/

/-- C154: the computed LRMES never exceeds one (it may be NaN), in Python and in C++, for any inputs, as long as the
exponential does not return a negative number and there are at most `2 ^ 53` paths. -/
theorem C154_le_one (M : Machine) (hexp : ∀ y, M.exp y = .nan ∨ 0 ≤ M.exp y) (cpp : Bool) (x : SimArgs)
    (paths : List (List (XR × XR))) (hn : paths.length ≤ 2 ^ M.R.prec) :
    Model.Rounded.lrmes M cpp x paths = .nan ∨ Model.Rounded.lrmes M cpp x paths ≤ 1 := by
  have h := accumulate_inv M hexp cpp x paths 0 (0, 0) (by simpa using hn) (Or.inr (XR.fin_le.mpr (by simp)))
  unfold Model.Rounded.lrmes Model.Rounded.lrmesResult
  generalize Model.Rounded.accumulate M cpp x 0 (0, 0) paths = acc at h
  obtain ⟨s, n⟩ := acc
  dsimp only at h ⊢
  obtain ⟨h1, h2⟩ := h
  split_ifs with h0
  · exact Or.inr (XR.fin_le.mpr zero_le_one)
  have hnr : M.R.round (.fin n) = .fin n := rep_nat (by omega)
  rw [hnr]
  have hpos : (0 : ℝ) < n := by exact_mod_cast Nat.pos_of_ne_zero h0
  rcases h1 with rfl | h1
  · left
    rfl
  right
  refine round_le rep_one ?_
  cases s with
  | nan => exact False.elim h1
  | ninf => exact False.elim h1
  | pinf =>
    show XR.ninf / XR.fin (n : ℝ) ≤ 1
    rw [show XR.ninf / XR.fin (n : ℝ) = XR.ninf by simp [HDiv.hDiv, Div.div, XR.div, hpos]]
    exact trivial
  | fin a =>
    rw [XR.fin_le] at h1
    rw [XR.fin_neg, XR.fin_div _ hpos.ne', XR.one_def, XR.fin_le, div_le_one hpos]
    linarith

namespace Rounded

theorem ieee_exp : ∀ y, Machine.ieee.exp y = .nan ∨ 0 ≤ Machine.ieee.exp y := by
  intro y
  refine good_round ?_
  cases y with
  | nan => exact Or.inl rfl
  | ninf => exact Or.inr (XR.fin_le.mpr le_rfl)
  | pinf => exact Or.inr trivial
  | fin r => exact Or.inr (XR.fin_le.mpr (Real.exp_pos r).le)

end Rounded

/-- in binary64, whatever the arguments and paths -/
example (x : SimArgs) (paths : List (List (XR × XR))) (hn : paths.length ≤ 10000) :
    Model.Rounded.lrmes Machine.ieee true x paths = .nan ∨ Model.Rounded.lrmes Machine.ieee true x paths ≤ 1 :=
  C154_le_one Machine.ieee ieee_exp true x paths
    (hn.trans (show 10000 ≤ 2 ^ 53 by norm_num))

/-- C154: with a threshold of `-1` or less no path is a systemic event, and LRMES is exactly zero, also under rounding. -/
theorem C154_never (M : Machine) (hexp : ∀ y, M.exp y = .nan ∨ 0 ≤ M.exp y) (cpp : Bool) (x : SimArgs) (C : ℝ)
    (hx : x.C = .fin C) (hC : C ≤ -1) (paths : List (List (XR × XR))) :
    (∀ i p, Model.Rounded.simulation M cpp i x p = (0, false)) ∧ Model.Rounded.lrmes M cpp x paths = 0 := by
  have h : ∀ i p, Model.Rounded.simulation M cpp i x p = (0, false) := by
    intro i p
    unfold Model.Rounded.simulation
    dsimp only
    rw [if_neg]
    rw [hx]
    generalize Model.Rounded.simSum M cpp (2 * i) _ = s
    rcases exp_sub_one (M := M) (hexp s) with h | h
    · rw [h]; exact fun h => h
    · intro h'
      generalize M.R.sub (M.exp s) 1 = y at h h'
      cases y with
      | nan => exact h'
      | ninf => exact h
      | pinf => exact h'
      | fin r =>
        rw [XR.fin_le] at h
        rw [XR.fin_lt] at h'
        push_cast at h
        linarith
  refine ⟨h, ?_⟩
  have : ∀ (l : List (List (XR × XR))) (i : ℕ) (s : XR), (Model.Rounded.accumulate M cpp x i (s, 0) l).2 = 0 := by
    intro l
    induction l with
    | nil => intro i s; rfl
    | cons p t ih =>
      intro i s
      unfold Model.Rounded.accumulate
      rw [h]
      exact ih _ _
  unfold Model.Rounded.lrmes Model.Rounded.lrmesResult
  rw [if_pos (this _ _ _)]

/-- C154: raising the threshold never turns a systemic event off, and does not change the return of an event, also under
rounding. -/
theorem C154_threshold (M : Machine) (cpp : Bool) (x : SimArgs) (C' : XR) (h : x.C ≤ C') (i : ℕ) (p : List (XR × XR))
    (r : XR) (he : Model.Rounded.simulation M cpp i x p = (r, true)) :
    Model.Rounded.simulation M cpp i { x with C := C' } p = (r, true) := by
  have hl : ∀ (l : List (XR × XR)) (s : SimState), Model.Rounded.simLoop M cpp { x with C := C' } s l =
      Model.Rounded.simLoop M cpp x s l := by
    intro l
    induction l with
    | nil => intro s; rfl
    | cons z t ih =>
      intro s
      unfold Model.Rounded.simLoop
      rw [ih]
      rfl
  unfold Model.Rounded.simulation at he ⊢
  dsimp only at he ⊢
  have hi : Model.Rounded.simInit M { x with C := C' } = Model.Rounded.simInit M x := rfl
  rw [hl, hi]
  by_cases h1 : M.R.sub (M.exp (Model.Rounded.simSum M cpp (2 * i)
      ((Model.Rounded.simLoop M cpp x (Model.Rounded.simInit M x) p).map fun r => M.R.div r.2 100))) 1 < x.C
  · rw [if_pos h1] at he
    rw [if_pos (XR_lt_of_lt_of_le h1 h)]
    exact he
  · rw [if_neg h1] at he
    exact absurd (congrArg Prod.snd he) (by simp)

/-- C154: without rounding the computation is the exact one, in both implementations. -/
theorem C154_exact (cpp : Bool) (x : SimArgs) (paths : List (List (XR × XR))) :
    Model.Rounded.lrmes Machine.exact cpp x paths = (Model.lrmesResult cpp (Model.accumulate cpp x paths)).val := by
  have hv : ∀ (p : GjrParams) (r v : XR), Model.Rounded.simVar Machine.exact cpp p r v = Model.simVar p r v := by
    intro p r v
    cases cpp
    · simp only [Model.Rounded.simVar, Model.Rounded.simVarPy, Model.simVar, ex_add, ex_mul, XR.sq, Bool.false_eq_true, if_false]
    · simp only [Model.Rounded.simVar, Model.Rounded.simVarCpp, Model.simVar, ex_add, ex_mul, XR.sq, if_true]
      split_ifs
      · rfl
      · generalize p.omega + p.alpha * (r * r) + p.beta * v = y
        cases y <;> simp [XR.zero_def]
  have hs : ∀ (s : SimState) (z : XR × XR), Model.Rounded.simStep Machine.exact cpp x s z = Model.simStep x s z := by
    intro s z
    have ha : ∀ u : XR, (if cpp = true then x.a * u * u else x.a * (u * u)) = x.a * (u * u) := by
      intro u
      cases cpp
      · rfl
      · exact (XR.mul_sq_assoc _ _).symm
    simp only [Model.Rounded.simStep, Model.simStep, ex_add, ex_mul, ex_sub, ex_div, ex_sqrt, XR.sq, hv, ha]
  have hl : ∀ (l : List (XR × XR)) (s : SimState), Model.Rounded.simLoop Machine.exact cpp x s l = Model.simLoop x s l := by
    intro l
    induction l with
    | nil => intro s; rfl
    | cons z t ih =>
      intro s
      unfold Model.Rounded.simLoop Model.simLoop
      rw [ih, hs]
  have hsum : ∀ (i : ℕ) (l : List XR), Model.Rounded.simSum Machine.exact cpp i l = l.sum := by
    intro i l
    unfold Model.Rounded.simSum
    cases cpp
    · rfl
    · rw [if_pos rfl]
      have := Rounding.foldSum_ok (R := Machine.exact.R) l
      unfold Rounding.foldSum
      have e : Machine.exact.R.add = (· + ·) := by
        funext a b; exact ex_add a b
      rw [e]
      exact (List.sum_eq_foldl ..).symm
  have hsim : ∀ (i : ℕ) (p : List (XR × XR)), Model.Rounded.simulation Machine.exact cpp i x p =
      if cpp then cppSimulation x p else Model.simulation x p := by
    intro i p
    have e : Model.Rounded.simInit Machine.exact x = Model.simInit x := by
      simp only [Model.Rounded.simInit, Model.simInit, ex_div, ex_sqrt]
    rw [cppSimulation_eq, ite_self]
    simp only [Model.Rounded.simulation, Model.simulation, hl, hsum, e, ex_sub, ex_div, ex_exp]
  have hacc : ∀ (l : List (List (XR × XR))) (i : ℕ) (acc : XR × ℕ), Model.Rounded.accumulate Machine.exact cpp x i acc l =
      l.foldl (fun acc p =>
        ((acc.1 + (if cpp then cppSimulation x p else Model.simulation x p).1,
          acc.2 + (if (if cpp then cppSimulation x p else Model.simulation x p).2 then 1 else 0)) : XR × ℕ)) acc := by
    intro l
    induction l with
    | nil => intro i acc; rfl
    | cons p t ih =>
      intro i acc
      unfold Model.Rounded.accumulate
      rw [ih, hsim, ex_add]
      rfl
  unfold Model.Rounded.lrmes
  rw [hacc]
  unfold Model.Rounded.lrmesResult Model.lrmesResult Model.accumulate
  dsimp only
  generalize List.foldl _ _ paths = acc
  split_ifs
  · rfl
  · rw [ex_div, ex_round]

/-- a concrete set of arguments: threshold `-1`, no event on any path in binary64 -/
example : Model.Rounded.lrmes Machine.ieee true
    ⟨.fin (-1), 1, 1, 0, 0, 0, 0, 0, 1, 1, 0, ⟨0, 1, 0, 0, 0⟩, ⟨0, 1, 0, 0, 0⟩⟩ [[(.fin 1, .fin (-3))], [(.fin 2, .fin 1)]] = 0 :=
  (C154_never Machine.ieee ieee_exp true _ (-1) rfl le_rfl _).2

/-- on an empty path the market return is exactly zero: an event for the threshold 1, hence for every larger one -/
example (C' : XR) (h : .fin 1 ≤ C') : ∃ r, Model.Rounded.simulation Machine.ieee true 0
    ⟨C', 1, 1, 0, 0, 0, 0, 0, 1, 1, 0, ⟨0, 1, 0, 0, 0⟩, ⟨0, 1, 0, 0, 0⟩⟩ [] = (r, true) := by
  refine ⟨_, C154_threshold Machine.ieee true
    ⟨.fin 1, 1, 1, 0, 0, 0, 0, 0, 1, 1, 0, ⟨0, 1, 0, 0, 0⟩, ⟨0, 1, 0, 0, 0⟩⟩ C' h 0 []
    (Machine.ieee.R.sub (Machine.ieee.exp (.fin 0)) 1) ?_⟩
  have e1 : Machine.ieee.exp (.fin 0) = .fin 1 := by
    show Machine.ieee.R.round (.fin (Real.exp 0)) = _
    rw [Real.exp_zero]
    exact rep_one
  have e : Machine.ieee.R.sub (Machine.ieee.exp (.fin 0)) 1 < .fin 1 := by
    rw [e1]
    have : Machine.ieee.R.sub (.fin 1) 1 = .fin 0 := by
      unfold Rounding.sub
      rw [XR.one_def, XR.fin_sub, sub_self]
      exact rep_zero
    rw [this]
    exact XR.fin_lt.mpr one_pos
  unfold Model.Rounded.simulation
  exact if_pos e

/-! ### C155: z-score -/

namespace Rounded

theorem std_good (M : Machine) (i : ℕ) (l : List XR) : Good (Model.Rounded.std M i l) := good_sqrt

theorem div_good_sign {R : Rounding} {x y : XR} (hx : x ≤ 0) (hy : Good y) : R.div x y = .nan ∨ R.div x y ≤ 0 := by
  rcases hy with rfl | hy
  · left
    exact round_eq_nan.mpr (by cases x <;> rfl)
  have hrep : R.Rep 0 := rep_zero
  rcases XR.nonneg_cases hy with rfl | ⟨b, hb, rfl⟩
  · cases x with
    | nan => exact Or.inl rfl
    | ninf => exact Or.inl rfl
    | pinf => exact False.elim hx
    | fin a => exact Or.inr (round_le hrep (XR.fin_le.mpr le_rfl))
  · cases x with
    | nan => exact Or.inl rfl
    | ninf =>
      right
      refine round_le hrep ?_
      have e : XR.ninf / XR.fin b = XR.ninf := if_neg (not_lt.mpr hb)
      rw [e]
      exact trivial
    | pinf => exact False.elim hx
    | fin a =>
      have ha : a ≤ 0 := XR.fin_le.mp hx
      rcases hb.eq_or_lt with rfl | hb
      · unfold Rounding.div
        rw [XR.fin_div_zero]
        rcases ha.eq_or_lt with rfl | ha
        · left; rw [XR.infSign_zero]; rfl
        · right
          refine round_le hrep ?_
          rw [XR.infSign_neg ha]
          exact trivial
      · right
        refine round_le hrep ?_
        rw [XR.fin_div _ hb.ne']
        exact XR.fin_le.mpr (div_nonpos_of_nonpos_of_nonneg ha hb.le)

end Rounded

/-- C155: the sign of the computed z-score is the sign of `roa + capital_ratio`, whatever the past returns: never
negative when the sum is not negative, never positive when it is not positive (it may be NaN or zero). -/
theorem C155_sign (M : Machine) (roa cap : ℝ) (past : List XR) :
    (0 ≤ roa + cap → Model.Rounded.zScore M (.fin roa) (.fin cap) past = .nan ∨
      0 ≤ Model.Rounded.zScore M (.fin roa) (.fin cap) past) ∧
    (roa + cap ≤ 0 → Model.Rounded.zScore M (.fin roa) (.fin cap) past = .nan ∨
      Model.Rounded.zScore M (.fin roa) (.fin cap) past ≤ 0) := by
  constructor
  · intro h
    refine good_div (Or.inr ?_) (std_good M 0 past)
    exact round_nonneg (XR.fin_le.mpr h)
  · intro h
    refine div_good_sign ?_ (std_good M 0 past)
    exact round_le rep_zero (XR.fin_le.mpr h)

/-- C155: without rounding the computation is the exact one. -/
theorem C155_exact (roa cap : XR) (past : List XR) :
    Model.Rounded.zScore Machine.exact roa cap past = Model.zScore roa cap past := by
  simp only [Model.Rounded.zScore, Model.zScore, Model.Rounded.std, Np.std, Np.var, ex_add, ex_sub, ex_mul, ex_div, ex_sqrt,
    ex_mean, XR.sq]

example (past : List XR) : Model.Rounded.zScore Machine.ieee (.fin (1 / 2)) (.fin (1 / 4)) past = .nan ∨
    0 ≤ Model.Rounded.zScore Machine.ieee (.fin (1 / 2)) (.fin (1 / 4)) past :=
  (C155_sign Machine.ieee _ _ past).1 (by norm_num)

/-! ### bid slope -/

/-- C151: the bid slope of non-negative depths is not negative (or NaN) under rounding, for one-dimensional prices of any
sign. -/
theorem C151_bid_slope (M : Machine) (k : ℕ) (rows : List (List XR)) (mid : Arr) (price : List XR) (v : XR)
    (hs : ∀ r ∈ rows, ∀ x ∈ r, 0 ≤ x) (h : Model.Rounded.bidSlope M (.d2 k rows) price mid = .ok v) : v = .nan ∨ 0 ≤ v := by
  have hb : ∀ (x y l : List XR), Np.bcast (fun d x => M.R.div d x) x (y.map XR.abs) = .ok l → (∀ a ∈ x, Good a) →
      ∀ a ∈ l, Good a := by
    intro x y l hl hx a ha
    have hy : ∀ b ∈ y.map XR.abs, Good b := by
      intro b hb
      obtain ⟨c, _, rfl⟩ := List.mem_map.mp hb
      exact good_abs
    have : ∃ u ∈ x, ∃ w ∈ y.map XR.abs, a = M.R.div u w := by
      generalize y.map XR.abs = y at hl
      unfold Np.bcast at hl
      split_ifs at hl with hlen
      · cases hl
        rw [← List.map_uncurry_zip_eq_zipWith] at ha
        obtain ⟨⟨u, w⟩, huw, rfl⟩ := List.mem_map.mp ha
        exact ⟨u, (List.of_mem_zip huw).1, w, (List.of_mem_zip huw).2, rfl⟩
      · split at hl
        · cases hl
          obtain ⟨w, hw, rfl⟩ := List.mem_map.mp ha
          exact ⟨_, List.mem_cons_self, w, hw, rfl⟩
        · cases hl
          obtain ⟨u, hu, rfl⟩ := List.mem_map.mp ha
          exact ⟨u, hu, _, List.mem_cons_self, rfl⟩
        · cases hl
    obtain ⟨u, hu, w, hw, rfl⟩ := this
    exact good_div (hx u hu) (hy w hw)
  unfold Model.Rounded.bidSlope at h
  simp only [bind, Except.bind, pure, Except.pure, Model.Rounded.sumAxis1] at h
  split at h
  · cases h
  split at h
  · cases h
  rename_i dist _
  cases hslope : Np.bcast (fun d x => M.R.div d x) (rows.mapIdx fun j row => M.sum (1 + 2 * j) row) (dist.map XR.abs) with
  | error e => rw [hslope] at h; cases h
  | ok slope =>
    rw [hslope] at h
    cases h
    have hg := hb _ _ _ hslope (by
      intro a ha
      obtain ⟨j, hj, rfl⟩ := List.mem_mapIdx.mp ha
      exact (M.sum_ok _ _).good fun x hx => Or.inr (hs _ (List.getElem_mem _) x hx))
    refine good_div ((M.sum_ok _ _).good ?_) (good_round (good_nat _))
    intro x hx
    obtain ⟨y, hy, rfl⟩ := List.mem_map.mp hx
    split_ifs
    · exact Or.inr (XR.fin_le.mpr le_rfl)
    · exact hg y hy

/-- C151: without rounding the bid slope is the exact one. -/
theorem C151_bid_exact (size mid : Arr) (price : List XR) :
    Model.Rounded.bidSlope Machine.exact size price mid = Model.bidSlope size price mid := by
  have e1 : (fun p m : XR => Machine.exact.R.sub p m) = (· - ·) := by funext p m; exact ex_sub p m
  have e2 : (fun p m : XR => Machine.exact.R.div p m) = (· / ·) := by funext p m; exact ex_div p m
  have e3 : Model.Rounded.sumAxis1 Machine.exact 1 size = Model.sumAxis1 size := by
    cases size with
    | d1 v => rfl
    | d2 k rows =>
      simp only [Model.Rounded.sumAxis1, Model.sumAxis1, ex_sum]
      congr 1
      exact List.ext_getElem (by simp) (by simp)
  simp only [Model.Rounded.bidSlope, Model.bidSlope, e1, e2, e3, ex_nanmean]

example (v : XR) (h : Model.Rounded.bidSlope Machine.ieee (.d2 2 [[.fin 1, .fin 2], [.fin 3, .fin 4]]) [.fin 9, .fin 8]
    (.d1 [.fin 10, .fin 9]) = .ok v) : v = .nan ∨ 0 ≤ v :=
  C151_bid_slope Machine.ieee 2 _ _ _ v (by
    intro r hr x hx
    simp only [List.mem_cons, List.not_mem_nil, or_false] at hr
    rcases hr with rfl | rfl <;>
      (simp only [List.mem_cons, List.not_mem_nil, or_false] at hx
       rcases hx with rfl | rfl <;> exact XR.fin_le.mpr (by norm_num))) h

/-- the call of the example succeeds -/
example : ∃ v, Model.Rounded.bidSlope Machine.ieee (.d2 2 [[.fin 1, .fin 2], [.fin 3, .fin 4]]) [.fin 9, .fin 8]
    (.d1 [.fin 10, .fin 9]) = .ok v := ⟨_, rfl⟩

end
end Frds.Props

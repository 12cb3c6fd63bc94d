import Verif.Model.MatlabSim
import Verif.Props.MatlabMulti
import Verif.Props.Simulation
import Verif.Props.LoanPositive

/-! Property C184: `simulate` against `ModMertonSimulation.m`. -/
set_option linter.unusedSimpArgs false
namespace Frds.Props
noncomputable section
open Frds Frds.Model Frds.Spec Classical

namespace MatlabSim

theorem fs_eq : Matlab.simFs = simStates := by
  unfold Matlab.simFs simStates Matlab.colon npArange
  have h1 : (⌊((0.8 : ℝ) - -0.8) / 0.05⌋ + 1).toNat = 33 := by
    rw [show ((0.8 : ℝ) - -0.8) / 0.05 = ((32 : ℤ) : ℝ) by norm_num, Int.floor_intCast]; rfl
  have h2 : ⌈((0.85 : ℝ) - -0.8) / 0.05⌉.toNat = 33 := by
    rw [show ((0.85 : ℝ) - -0.8) / 0.05 = ((33 : ℤ) : ℝ) by norm_num, Int.ceil_intCast]; rfl
  rw [h1, h2]

theorem debt_eq : Matlab.simDebt = simD := by
  have h1 : (⌊((10 : ℝ) - 1) / 1⌋ + 1).toNat = 10 := by
    rw [show ((10 : ℝ) - 1) / 1 = ((9 : ℤ) : ℝ) by norm_num, Int.floor_intCast]; rfl
  have h2 : ⌈((11 : ℝ) - 1) / 1⌉.toNat = 10 := by
    rw [show ((11 : ℝ) - 1) / 1 = ((10 : ℤ) : ℝ) by norm_num, Int.ceil_intCast]; rfl
  unfold Matlab.simDebt simD meanGrowth Matlab.colon npArange
  rw [h1, h2]
  simp

theorem param_eq : Matlab.simParams = simParam := by
  unfold Matlab.simParams simParam
  rw [debt_eq]

theorem minIndex_eq {f : ℕ → ℝ} {n i : ℕ} (hi : i < n) (h : ∀ s < n, s ≠ i → f i < f s) :
    Matlab.minIndex ((List.range n).map fun s => XR.fin (f s)) = some (i + 1) := by
  unfold Matlab.minIndex
  rw [if_neg (by simp; omega), if_neg (by
    intro hc
    have := hc (.fin (f i)) (List.mem_map.2 ⟨i, List.mem_range.2 hi, rfl⟩)
    simp [XR.isNan] at this)]
  congr 2
  rw [List.findIdx_eq (by simpa using hi)]
  constructor
  · simp only [List.getElem_map, List.getElem_range, List.mem_map, List.mem_range, forall_exists_index, and_imp,
      forall_apply_eq_imp_iff₂, XR.fin_lt, decide_eq_true_eq, not_lt]
    refine ⟨by simp [XR.isNan], fun s hs => ?_⟩
    by_cases e : s = i
    · rw [e]
    · exact (h s hs e).le
  · intro j hj
    have hjn : j < n := by omega
    simp only [List.getElem_map, List.getElem_range, List.mem_map, List.mem_range, forall_exists_index, and_imp,
      forall_apply_eq_imp_iff₂, XR.fin_lt, decide_eq_false_iff_not, not_forall, not_not, not_and]
    exact fun _ => ⟨i, hi, h j hjn (by omega)⟩

theorem maxAll_eq (l : List ℝ) : Matlab.maxAll (l.map XR.fin) = (npAmax (l.map XR.fin)).toOption := by
  cases l with
  | nil => rfl
  | cons a l =>
    simp only [List.map_cons, Matlab.maxAll, npAmax, Except.toOption]
    congr 1
    induction l generalizing a with
    | nil => rfl
    | cons b l ih =>
      simp only [List.map_cons, List.foldl_cons]
      rw [Matlab.max_fin, XR.npMax_fin]
      exact ih _

/-- the numbers behind the figures are real: no stepped value was negative, nor the loans or the debt of a state -/
structure RealRun (o : CohortOut) : Prop where
  sigE : ∀ k < 33, o.sigEt k ≠ .nan
  sigL : ∀ k < 33, o.sigLt k ≠ .nan
  loans : ∀ k < 33, 0 ≤ o.Lt k
  debt : ∀ k < 33, 0 ≤ o.Bt k

/-- in state `k` both solvers return the same asset value, not negative, and the same volatility -/
def SameRoot (solve2 fsolve2 : FSolve2) (o : CohortOut) (k : ℕ) : Prop :=
  ∃ A s : ℝ, 0 ≤ A
    ∧ solve2 (fun b => Model.mertonSolution b (o.Et k) (.fin simD) (.fin 0.01) (.fin 0.002) (.fin 5) (o.sigEt k))
        (o.Et k + .fin simD * XR.exp (-.fin 0.01 * .fin 5), o.sigEt k / 2) = (.fin A, .fin s)
    ∧ fsolve2 (fun b => Matlab.mertonSolution b (o.Et k) (.fin simD) (.fin 0.01) (.fin 0.002) (.fin 5) (o.sigEt k))
        (o.Et k + .fin simD * XR.exp (-.fin 0.01 * .fin 5), o.sigEt k / 2) = (.fin A, .fin s)

theorem vol_real {u d : ℝ} {py re : XR} {im : ℝ} (h : SameVol u d py re im) (hn : py ≠ .nan) : py = re ∧ im = 0 := by
  refine h.real ?_ ?_
  · by_contra hc; exact hn (h.nan (.inl (not_le.1 hc)))
  · by_contra hc; exact hn (h.nan (.inr (not_le.1 hc)))

theorem fit_eq {solve2 fsolve2 : FSolve2} {o : CohortOut} {k : ℕ} (h : SameRoot solve2 fsolve2 o k) :
    Matlab.fit fsolve2 (o.Et k) (o.sigEt k) (.fin simD) (.fin 0.01) (.fin 0.002) (.fin 5) (.fin 0.5)
      = some (fitOf solve2 o k) := by
  obtain ⟨A, s, hA, h1, h2⟩ := h
  unfold Matlab.fit fitOf mertonFit
  simp only [h1, h2]
  rw [if_pos (show (0 : XR) ≤ .fin A from by rw [XR.zero_def, XR.fin_le]; exact hA), XR.ofSci_def, Matlab.max_fin,
    XR.npMax_fin, XR.pyMax_fin]
  rfl

theorem range_one (n : ℕ) : List.range' 1 n = (List.range n).map (· + 1) := by
  rw [List.range'_eq_map_range]
  exact List.map_congr_left fun a _ => by rw [add_comm]

end MatlabSim

open MatlabSim

/-- C184: on the same shocks, with both yield solvers exact, a multiple of 40 simulations (at least two) and no sort key
half-way between two nine-digit decimals, the script `ModMertonSimulation.m` selects the same three states as `simulate`
and writes the same seven numbers for each of them, and the two compute the same `mface` and the same Merton
probabilities from the implied asset values - provided all volatilities are numbers and both two-dimensional solvers
return the same answers. -/
theorem C184_table {solve fsolve : FSolve} {solve2 fsolve2 : FSolve2} {gen : ShockGen} {gd : GridData} {Nsim : ℕ}
    {res : SimResult} {mu mu' : ℝ} (hg : Shaped gen) (h2 : 2 ≤ Nsim) (h40 : Nsim % 40 = 0)
    (hmu : YieldSolved solve simParam mu) (hmu' : YieldSolved fsolve simParam mu')
    (hnt : ∀ j < 10, NoTies Nsim 99 fun i s => cohortKey simStates simParam 10 5 (gen 1 Nsim 30) i j s)
    (h : simulate solve solve2 gen gd Nsim = .ok res) (hreal : RealRun res.out)
    (hroot : ∀ k < 33, SameRoot solve2 fsolve2 res.out k) :
    ∃ m, Matlab.simulation fsolve fsolve2 (gen 1 Nsim 30) Nsim = some m
      ∧ m.j0 = res.j0 + 1 ∧ m.mface = res.mface
      ∧ m.xmertdef = (List.range 33).map res.xmertdef
      ∧ m.const = res.noShock ∧ m.up = res.up ∧ m.down = res.down := by
  have h0 : 0 < Nsim := by omega
  obtain ⟨hb, hm, hj⟩ := main_facts hg h0 hmu.1 h
  obtain ⟨ho, -, hfit, hmk, hsp, -, -, -, hx, c1, c2, c3, top, htop, hface⟩ := sim_unfold h
  have hin := main_input hg h0 (by omega) (by omega)
  obtain ⟨out, mo, e1, e2, hs, hvL, hvE⟩ := C160_multi_port hin hmu hmu' h2 (by rw [states_length]; omega)
    (by rw [states_length]; exact hnt)
  obtain rfl : out = res.out := by rw [ho] at e1; exact (Except.ok.inj e1).symm
  rw [states_length] at hs hvL hvE
  have vE := fun k hk => vol_real (hvE k hk) (hreal.sigE k hk)
  have vL := fun k hk => vol_real (hvL k hk) (hreal.sigL k hk)
  -- the selected state
  have ht : XR.exp (.fin 0.01 * .fin 10 / 2) = .fin (Real.exp 0.05) := by
    rw [XR.ofNat_def, XR.fin_mul, XR.fin_div _ (by norm_num), XR.fin_exp]; norm_num
  have hmin : Matlab.minIndex ((List.range' 1 33).map fun k => XR.abs (mo.re.mFt (k - 1) - XR.exp (.fin 0.01 * .fin 10 / 2)))
      = some 18 := by
    rw [range_one, List.map_map]
    have e : (List.range 33).map ((fun k => XR.abs (mo.re.mFt (k - 1) - XR.exp (.fin 0.01 * .fin 10 / 2))) ∘ (· + 1))
        = (List.range 33).map fun k : ℕ => XR.fin |aggValue (0.05 + (-0.8 + k * 0.05)) - Real.exp 0.05| := by
      refine List.map_congr_left fun k hk => ?_
      have hk := List.mem_range.1 hk
      simp only [Function.comp, Nat.add_sub_cancel]
      rw [← hs.mFt k hk, hm k hk, ht, XR.fin_sub, XR.fin_abs]
    rw [e]
    refine minIndex_eq (f := fun k : ℕ => |aggValue (0.05 + (-0.8 + k * 0.05)) - Real.exp 0.05|) (i := 17) (by norm_num)
      fun s hs' h17 => ?_
    have := closest hs' h17
    have e2 : (0.05 + (-0.8 + ((17 : ℕ) : ℝ) * 0.05) : ℝ) = 0.1 := by norm_num
    simp only [e2]
    exact this
  -- the largest face value
  have hmax : Matlab.maxAll ((List.range Nsim).map fun i => mo.re.face i 17) = some top := by
    obtain ⟨LH, face, FH, Ft, hpy, -, -, -, hp4⟩ := multiCohort_tail hin hmu.1
    rw [ho] at hpy
    have hfc : res.out.face = face := by rw [Except.ok.inj hpy]; rfl
    rw [states_length] at hp4
    rw [hj] at htop
    have e : ∃ l : List ℝ, (List.range Nsim).map (fun i => res.out.face i 17) = l.map XR.fin := by
      have hr : ∀ i, ∃ r : ℝ, i < Nsim → res.out.face i 17 = .fin r := by
        intro i
        by_cases hi : i < Nsim
        · exact ⟨_, fun _ => by rw [hfc, hp4 i hi 17 (by norm_num)]⟩
        · exact ⟨0, fun hc => absurd hc hi⟩
      choose r hr using hr
      refine ⟨(List.range Nsim).map r, ?_⟩
      rw [List.map_map]
      exact List.map_congr_left fun i hi => hr i (List.mem_range.1 hi)
    obtain ⟨l, hl⟩ := e
    have e2 : (List.range Nsim).map (fun i => mo.re.face i 17) = (List.range Nsim).map fun i => res.out.face i 17 :=
      List.map_congr_left fun i hi => (hs.face i (List.mem_range.1 hi) 17 (by norm_num)).symm
    rw [e2, hl, maxAll_eq, ← hl, htop]; rfl
  -- the Merton fits
  have hfits : (List.range' 1 33).mapM (fun k => if mo.sigEtIm (k - 1) = 0 then
      Matlab.fit fsolve2 (mo.re.Et (k - 1)) (mo.re.sigEt (k - 1)) (.fin simD) (.fin 0.01) (.fin 0.002) (.fin 5) (.fin 0.5)
      else none) = some ((List.range' 1 33).map fun k => fitOf solve2 res.out (k - 1)) := by
    refine Matlab.mapM_some_map _ _ _ fun k hk => ?_
    obtain ⟨a, b⟩ := List.mem_range'_1.1 hk
    have hk' : k - 1 < 33 := by omega
    rw [if_pos (vE _ hk').2, ← hs.Et _ hk', ← (vE _ hk').1]
    exact fit_eq (hroot _ hk')
  have hxm : (List.range' 1 33).mapM (fun k => if mo.sigLtIm (k - 1) = 0 ∧ 0 ≤ mo.re.Lt (k - 1) then
      some (XR.ncdf (-Matlab.distance (mo.re.Lt (k - 1)) (.fin simD) (.fin 0.01) (.fin 0.002) (mo.re.sigLt (k - 1)) (.fin 5)))
      else none) = some ((List.range' 1 33).map fun k => res.xmertdef (k - 1)) := by
    refine Matlab.mapM_some_map _ _ _ fun k hk => ?_
    obtain ⟨a, b⟩ := List.mem_range'_1.1 hk
    have hk' : k - 1 < 33 := by omega
    rw [← hs.Lt _ hk', if_pos ⟨(vL _ hk').2, hreal.loans _ hk'⟩, ← (vL _ hk').1, hx]
    rfl
  have hcol : ∀ i < 33, Matlab.summaryColumn 33 (i + 1) mo.re ((List.range' 1 33).map fun k => fitOf solve2 res.out (k - 1))
      = some ⟨res.out.mFt i, res.out.Lt i, res.mktCR i, res.out.mdef i, res.sp i * 100, (res.fit i).def_,
        (res.fit i).sp * 100⟩ := by
    intro i hi
    unfold Matlab.summaryColumn
    simp only [Nat.add_sub_cancel, ← hs.Bt i hi]
    rw [if_pos ⟨by omega, by omega, hreal.debt i hi⟩]
    have : ((List.range' 1 33).map fun k => fitOf solve2 res.out (k - 1))[i]? = some (fitOf solve2 res.out i) := by
      rw [List.getElem?_map, List.getElem?_range' (by omega)]
      simp
    rw [this]
    simp only [bind, Option.bind, pure]
    rw [hmk, hsp, hfit, ← hs.mFt i hi, ← hs.Lt i hi, ← hs.Et i hi, ← hs.mdef i hi, debt_eq]
    rfl
  rw [hj] at c1 c2 c3
  rw [column_eq 33 (i := 17) (by norm_num)] at c1
  rw [show ((17 : ℕ) : ℤ) + 8 = ((25 : ℕ) : ℤ) by norm_num, column_eq 33 (i := 25) (by norm_num)] at c2
  rw [show ((17 : ℕ) : ℤ) - 8 = ((9 : ℕ) : ℤ) by norm_num, column_eq 33 (i := 9) (by norm_num)] at c3
  refine ⟨⟨18, res.mface, (List.range 33).map res.xmertdef, res.noShock, res.up, res.down⟩, ?_, by rw [hj], rfl, rfl, rfl,
    rfl, rfl⟩
  unfold Matlab.simulation
  rw [fs_eq, param_eq, debt_eq, states_length, e2]
  simp only [bind, Option.bind, pure]
  rw [hmin]
  simp only [Nat.reduceSub, Nat.reduceAdd]
  rw [hmax]
  simp only []
  rw [hfits]
  simp only []
  rw [hxm]
  simp only []
  rw [hcol 17 (by norm_num), hcol 25 (by norm_num), hcol 9 (by norm_num)]
  simp only []
  rw [← Except.ok.inj c1, ← Except.ok.inj c2, ← Except.ok.inj c3, hface, range_one, List.map_map]
  rfl

/-- C184: the condition on the volatilities and values holds when every expected repayment is at least a third of the
promised amount -/
theorem C184_real {solve : FSolve} {solve2 : FSolve2} {gen : ShockGen} {gd : GridData} {Nsim : ℕ} {res : SimResult} {mu : ℝ}
    (hg : Shaped gen) (h0 : 0 < Nsim) (hmu : YieldFound solve simParam mu)
    (h : simulate solve solve2 gen gd Nsim = .ok res)
    (hpay : ∀ j < 10, ∀ i < Nsim, ∀ s < 99,
      simParam.bookF * Real.exp (mu * simParam.T) / 3 ≤ cohortPay simStates simParam 10 5 (gen 1 Nsim 30) mu i j s) :
    RealRun res.out := by
  obtain ⟨ho, -⟩ := sim_unfold h
  have hev : Nsim * 99 % 2 = 0 ∧ Nsim * 99 / 20 % 2 = 0 := by
    by_contra hc
    rw [main_odd solve hg (by omega)] at ho
    cases ho
  have hin := main_input hg h0 hev.1 hev.2
  obtain ⟨out, e, ha⟩ := C185_multi hin hmu (by rw [states_length]; omega) simD_pos (by norm_num [simParam])
    (by rw [states_length]; exact hpay)
  rw [ho] at e
  obtain rfl := Except.ok.inj e
  rw [states_length] at ha
  have le : ∀ {x : XR}, 0 < x → 0 ≤ x := fun {x} hx => by
    cases x with
    | nan => exact hx.elim
    | ninf => exact hx.elim
    | pinf => trivial
    | fin r => rw [XR.zero_def, XR.fin_lt] at hx; rw [XR.zero_def, XR.fin_le]; exact hx.le
  refine ⟨fun k hk hc => ?_, fun k hk hc => ?_, fun k hk => le (ha.Lt k hk), fun k hk => le (ha.Bt k hk)⟩
  · obtain ⟨v, hv⟩ := ha.sigEt k hk; rw [hv] at hc; cases hc
  · obtain ⟨v, hv⟩ := ha.sigLt k hk; rw [hv] at hc; cases hc

/-! ### A case in which all hypotheses hold: 40 simulations with the same large shock in every step -/

namespace MatlabSim
open LoanPositive Filter

def constGen (C : ℝ) : ShockGen := fun _ r c => constShocks r c C

theorem const_key {i j s : ℕ} (C C' : ℝ) (h : C < C') :
    cohortKey simStates simParam 10 5 (constShocks 40 30 C) i j s
      < cohortKey simStates simParam 10 5 (constShocks 40 30 C') i j s := by
  have hs : 0 < sigf simParam * Real.sqrt (simParam.T / ((10 : ℕ) : ℝ)) :=
    mul_pos (sigf_pos simParam_valid (by norm_num [simParam])) (Real.sqrt_pos.2 (by norm_num [simParam]))
  have lf : ∀ a b : ℕ, a < b → logFactor simParam 10 (constShocks 40 30 C) i a b
      < logFactor simParam 10 (constShocks 40 30 C') i a b := by
    intro a b hab
    rw [logFactor_const, logFactor_const]
    have : (0 : ℝ) < ((b - a : ℕ) : ℝ) := by exact_mod_cast (by omega : 0 < b - a)
    have := mul_lt_mul_of_pos_left h (mul_pos this hs)
    linarith
  unfold cohortKey
  by_cases hj : j < 5
  · rw [if_pos hj, if_pos hj]
    have := lf (10 + j) (10 + 5) (by omega)
    exact mul_lt_mul_of_pos_right (Real.exp_lt_exp.2 (by linarith)) (Real.exp_pos _)
  · rw [if_neg hj, if_neg hj]
    have := lf 10 (10 + 5) (by omega)
    exact mul_lt_mul_of_pos_right (Real.exp_lt_exp.2 (by linarith)) (Real.exp_pos _)

theorem const_ties : {C : ℝ | ¬ ∀ j < 10, NoTies 40 99
    fun i s => cohortKey simStates simParam 10 5 (constShocks 40 30 C) i j s}.Countable := by
  refine Set.Countable.mono (s₂ := ⋃ (i : ℕ) (j : ℕ) (s : ℕ) (m : ℤ),
    {C : ℝ | cohortKey simStates simParam 10 5 (constShocks 40 30 C) i j s * 10 ^ 9 = m + 1 / 2}) ?_ ?_
  · intro C h
    simp only [Set.mem_setOf_eq] at h
    push Not at h
    obtain ⟨j, -, h⟩ := h
    unfold NoTies at h
    push Not at h
    obtain ⟨i, -, s, -, m, hm⟩ := h
    simp only [Set.mem_iUnion]
    exact ⟨i, j, s, m, hm⟩
  · refine Set.countable_iUnion fun i => Set.countable_iUnion fun j => Set.countable_iUnion fun s =>
      Set.countable_iUnion fun m => Set.Subsingleton.countable ?_
    intro C hC C' hC'
    have e : cohortKey simStates simParam 10 5 (constShocks 40 30 C) i j s * 10 ^ 9
        = cohortKey simStates simParam 10 5 (constShocks 40 30 C') i j s * 10 ^ 9 := hC.trans hC'.symm
    have e := mul_right_cancel₀ (by norm_num) e
    rcases lt_trichotomy C C' with h | h | h
    · exact absurd e (const_key C C' h).ne
    · exact h
    · exact absurd e (const_key C' C h).ne'

end MatlabSim

example : ∃ (C mu : ℝ) (res : SimResult) (m : Matlab.Summary),
    simulate (fun _ _ => .fin mu) exSimSolve2 (constGen C) exSimGd 40 = .ok res
    ∧ Matlab.simulation (fun _ _ => .fin mu) exSimSolve2 (constGen C 1 40 30) 40 = some m ∧ m.up = res.up := by
  obtain ⟨mu, hmu⟩ := yield_exists simParam_valid (by
    have e : (-simParam.d * simParam.T : ℝ) = -0.05 := by norm_num [simParam]
    have := Real.add_one_le_exp (-0.05 : ℝ)
    rw [e]
    refine lt_of_lt_of_le ?_ this
    norm_num [simParam])
  have hp := LoanPositive.const_pay (fs := simStates) (p := simParam) (N := 10) (HN := 5) (n := 40) (c := 30) (mu := mu)
    simParam_valid (by norm_num [simParam]) (by norm_num) (by norm_num)
  obtain ⟨C0, hC0⟩ := Filter.eventually_atTop.1 hp
  have hu : ¬ (Set.Ioi C0).Countable := by
    rw [← Cardinal.le_aleph0_iff_set_countable, Cardinal.mk_Ioi_real, not_le]
    exact Cardinal.cantor _
  obtain ⟨C, hC, hnt⟩ : ∃ C ∈ Set.Ioi C0, ∀ j < 10, NoTies 40 99
      fun i s => cohortKey simStates simParam 10 5 (LoanPositive.constShocks 40 30 C) i j s := by
    by_contra hcon
    push Not at hcon
    exact hu (const_ties.mono fun x hx => by have := hcon x hx; simpa using this)
  have hg : Shaped (constGen C) := fun _ _ _ => ⟨rfl, rfl⟩
  obtain ⟨res, hres⟩ := (C133_sample_size exSimSolve2 (Nsim := 40) hg (by norm_num) (fun _ _ => ⟨mu, rfl⟩)
    (solve := fun _ _ => .fin mu) (gd := exSimGd) fun _ _ _ => ⟨_, rfl⟩).1 (by norm_num)
  have hreal := C184_real hg (by norm_num) hmu.1 hres (by
    have := hC0 C (le_of_lt hC)
    rw [states_length] at this
    exact this)
  obtain ⟨m, hm, -, -, -, -, h3, -⟩ := C184_table (fsolve2 := exSimSolve2) hg (by norm_num) (by norm_num) hmu hmu hnt hres hreal
    fun k _ => ⟨0.8, 0.1, by norm_num, rfl, rfl⟩
  exact ⟨C, mu, res, m, hres, hm, h3⟩

end
end Frds.Props

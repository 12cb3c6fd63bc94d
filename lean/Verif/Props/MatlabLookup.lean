import Verif.Props.MatlabDomain
import Verif.Props.Lookup

/-! Property C161: the lookup tables of the Python and the Matlab version. -/
set_option linter.unusedSimpArgs false
namespace Frds.Props
noncomputable section
open Frds Frds.Model Frds.Spec Classical

/-- an error-or-value computation as seen by a caller who ignores which error it was -/
def forget {α : Type*} : Except PyErr α → Option α
  | .ok a => some a
  | .error _ => none

theorem forget_foldlM {α σ : Type*} (f : σ → α → Except PyErr σ) (l : List α) (s : σ) :
    forget (l.foldlM f s) = l.foldlM (fun s a => forget (f s a)) s := by
  induction l generalizing s with
  | nil => rfl
  | cons a l ih =>
    rw [List.foldlM_cons, List.foldlM_cons]
    cases h : f s a with
    | error e => rfl
    | ok s' => exact ih s'

theorem foldlM_range' {σ : Type*} (f : σ → ℕ → Option σ) (n : ℕ) (s : σ) :
    (List.range' 1 n).foldlM f s = (List.range n).foldlM (fun s a => f s (a + 1)) s := by
  have : List.range' 1 n = (List.range n).map (· + 1) := by
    rw [List.range'_eq_map_range]
    exact List.map_congr_left fun a _ => by rw [add_comm]
  rw [this]
  generalize List.range n = l
  induction l generalizing s with
  | nil => rfl
  | cons a l ih =>
    rw [List.map_cons, List.foldlM_cons, List.foldlM_cons]
    congr 1
    funext s'
    exact ih s'

/-- a Matlab computation in the role of a Python one -/
def asPy (c : Matlab.Comp) : Model.Comp := fun fs p N n w =>
  match c fs p N n w with
  | some o => .ok o.re
  | none => .error .runtimeError

theorem cell_forget (a : Arr4) (j k q : ℕ) : Matlab.cell a (j + 1) (k + 1) (q + 1) = forget (a.cell j k q) := by
  unfold Matlab.cell Arr4.cell
  by_cases h : 0 < a.n0 ∧ j < a.n1 ∧ k < a.n2 ∧ q < a.n3
  · rw [if_pos h, if_pos (by omega)]; rfl
  · rw [if_neg h, if_neg (by omega)]; rfl

theorem lookupStep_forget (c : Matlab.Comp) (a : LookupArgs) (xr xF xsig : Arr4) (N Nsim2 G : ℕ) (fs : List ℝ) (w : Shocks)
    (t : Tables) (j k q : ℕ) :
    Matlab.lookupStep c a xr xF xsig N Nsim2 G fs w t (j + 1) (k + 1) (q + 1)
      = forget (Model.lookupStep (asPy c) a xr xF xsig N Nsim2 G fs w t j k q) := by
  unfold Matlab.lookupStep Model.lookupStep cellParam
  simp only [cell_forget, Nat.add_sub_cancel]
  cases hr : xr.cell j k q with
  | error e => rfl
  | ok r =>
    cases hF : xF.cell j k q with
    | error e => rfl
    | ok F =>
      cases hs : xsig.cell j k q with
      | error e => rfl
      | ok s =>
        simp only [bind, Except.bind, Option.bind, forget, pure, Except.pure, asPy]
        generalize c fs _ N Nsim2 w = x
        cases x <;> rfl

/-- the Matlab tables are the Python tables for the Matlab computation -/
theorem mlookup_eq (c : Matlab.Comp) (w : Shocks) (a : LookupArgs) (xfs xr xF xsig : Arr4) (N Nsim2 : ℕ) :
    Matlab.createLookup c w a xfs xr xF xsig N Nsim2
      = forget (Model.createLookup (asPy c) (fun _ _ _ => w) a xfs xr xF xsig N Nsim2) := by
  unfold Matlab.createLookup Model.createLookup Arr4.first
  by_cases h : 0 < xfs.n1 ∧ 0 < xfs.n2 ∧ 0 < xfs.n3
  · rw [if_pos h]
    simp only [bind, Except.bind, Option.bind, pure, if_neg (show ¬ (xfs.n1 = 0 ∨ xfs.n2 = 0 ∨ xfs.n3 = 0) by omega)]
    rw [forget_foldlM, foldlM_range']
    congr 1
    funext t j
    rw [forget_foldlM, foldlM_range']
    congr 1
    funext t k
    rw [forget_foldlM, foldlM_range']
    congr 1
    funext t q
    exact lookupStep_forget c a xr xF xsig N Nsim2 xfs.n0 _ w t j k q
  · rw [if_neg h]
    simp only [bind, Except.bind, Option.bind, pure, if_pos (show xfs.n1 = 0 ∨ xfs.n2 = 0 ∨ xfs.n3 = 0 by omega)]
    rfl

/-- two tables agree, the volatility where both versions have the same one -/
def SameTables (G J K Q : ℕ) (t t' : Tables) (vol : ℕ → ℕ → ℕ → ℕ → Prop) : Prop :=
  ∀ s < G, ∀ j < J, ∀ k < K, ∀ q < Q,
    t.xLt s j k q = t'.xLt s j k q ∧ t.xBt s j k q = t'.xBt s j k q ∧ t.xEt s j k q = t'.xEt s j k q
    ∧ t.xFt s j k q = t'.xFt s j k q ∧ t.xmdef s j k q = t'.xmdef s j k q
    ∧ (vol s j k q → t.xsigEt s j k q = t'.xsigEt s j k q)

theorem tables_same {comp : Model.Comp} {mcomp : Matlab.Comp} (gen : ShockGen) (a : LookupArgs)
    {xfs xr xF xsig : Arr4} {J K Q : ℕ} {N Nsim2 : ℕ} (hsz : GridShapes xfs xr xF xsig J K Q)
    (vol : ℕ → ℕ → ℕ → ℕ → Prop)
    (h : ∀ j < J, ∀ k < K, ∀ q < Q, ∃ o mo,
      comp ((List.range xfs.n0).map fun s => xfs.at_ s 0 0 0) (cellP a xr xF xsig j k q) N Nsim2 (gen 1 Nsim2 (3 * N))
        = .ok o
      ∧ mcomp ((List.range xfs.n0).map fun s => xfs.at_ s 0 0 0) (cellP a xr xF xsig j k q) N Nsim2
        (gen 1 Nsim2 (3 * N)) = some mo
      ∧ SameResults Nsim2 xfs.n0 o mo.re ∧ ∀ s < xfs.n0, vol s j k q → o.sigEt s = mo.re.sigEt s) :
    ∃ t t', Model.createLookup comp gen a xfs xr xF xsig N Nsim2 = .ok t
      ∧ Matlab.createLookup mcomp (gen 1 Nsim2 (3 * N)) a xfs xr xF xsig N Nsim2 = some t'
      ∧ SameTables xfs.n0 J K Q t t' vol := by
  have h' : ∀ j k q, ∃ o : CohortOut × Matlab.Out, j < J → k < K → q < Q →
      comp ((List.range xfs.n0).map fun s => xfs.at_ s 0 0 0) (cellP a xr xF xsig j k q) N Nsim2 (gen 1 Nsim2 (3 * N))
        = .ok o.1
      ∧ mcomp ((List.range xfs.n0).map fun s => xfs.at_ s 0 0 0) (cellP a xr xF xsig j k q) N Nsim2
        (gen 1 Nsim2 (3 * N)) = some o.2
      ∧ SameResults Nsim2 xfs.n0 o.1 o.2.re ∧ ∀ s < xfs.n0, vol s j k q → o.1.sigEt s = o.2.re.sigEt s := by
    intro j k q
    by_cases hc : j < J ∧ k < K ∧ q < Q
    · obtain ⟨o, mo, hh⟩ := h j hc.1 k hc.2.1 q hc.2.2
      exact ⟨(o, mo), fun _ _ _ => hh⟩
    · have z : CohortOut := ⟨fun _ => 0, fun _ => 0, fun _ => 0, fun _ _ => 0, fun _ _ => 0, fun _ _ => 0, fun _ => 0,
        fun _ => 0, fun _ _ => 0, fun _ => 0, fun _ _ => 0, fun _ _ => 0, fun _ => 0, 0, 0, fun _ => 0⟩
      exact ⟨(z, ⟨z, fun _ => 0, fun _ => 0⟩), fun h1 h2 h3 => absurd ⟨h1, h2, h3⟩ hc⟩
  choose res hres using h'
  obtain ⟨t, ht, hv⟩ := C96_tables comp gen a N Nsim2 hsz (fun j k q => (res j k q).1)
    fun j hj k hk q hq => (hres j k q hj hk hq).1
  obtain ⟨t', ht', hv'⟩ := C96_tables (asPy mcomp) (fun _ _ _ => gen 1 Nsim2 (3 * N)) a N Nsim2 hsz
    (fun j k q => (res j k q).2.re) (fun j hj k hk q hq => by
      have := (hres j k q hj hk hq).2.1
      unfold asPy
      change (match mcomp _ (cellP a xr xF xsig j k q) N Nsim2 (gen 1 Nsim2 (3 * N)) with
        | some o => Except.ok o.re
        | none => Except.error PyErr.runtimeError) = _
      rw [this])
  refine ⟨t, t', ht, by rw [mlookup_eq, ht']; rfl, ?_⟩
  intro s hs j hj k hk q hq
  obtain ⟨a1, a2, a3, a4, a5, a6⟩ := hv s hs j hj k hk q hq
  obtain ⟨b1, b2, b3, b4, b5, b6⟩ := hv' s hs j hj k hk q hq
  obtain ⟨-, -, hsame, hvol⟩ := hres j k q hj hk hq
  exact ⟨by rw [a1, b1]; exact hsame.Lt s hs, by rw [a2, b2]; exact hsame.Bt s hs, by rw [a3, b3]; exact hsame.Et s hs,
    by rw [a4, b4]; exact hsame.mFt s hs, by rw [a5, b5]; exact hsame.mdef s hs,
    fun hh => by rw [a6, b6]; exact hvol s hs hh⟩

/-- equity at `t` in state column `s`, undiscounted and summed over the simulations -/
def equitySum (p : CohortParam) (n : ℕ) (L : ℕ → ℕ → ℝ) (s : ℕ) : ℝ :=
  ∑ i ∈ Finset.range n, (L i s - min p.D (L i s * Real.exp (-p.y * p.H)))

/-- C161 (several cohorts): with the same shocks, `mod_merton_create_lookup` fills its tables with what
`ModMertonCreateLookup.m` fills them with, when every cell meets the conditions of C160; `sigEt` where the
stepped equity values are not negative. -/
theorem C161_multi_tables {solve solve' : FSolve} (gen : ShockGen) (a : LookupArgs) {xfs xr xF xsig : Arr4} {J K Q : ℕ}
    {N HN Nsim2 : ℕ} {mu mu' : ℕ → ℕ → ℕ → ℝ} (hsz : GridShapes xfs xr xF xsig J K Q)
    (h : ∀ j < J, ∀ k < K, ∀ q < Q, MultiInput ((List.range xfs.n0).map fun s => xfs.at_ s 0 0 0)
      (cellP a xr xF xsig j k q) N HN Nsim2 (gen 1 Nsim2 (3 * N)))
    (hmu : ∀ j < J, ∀ k < K, ∀ q < Q, YieldSolved solve (cellP a xr xF xsig j k q) (mu j k q))
    (hmu' : ∀ j < J, ∀ k < K, ∀ q < Q, YieldSolved solve' (cellP a xr xF xsig j k q) (mu' j k q))
    (h2 : 2 ≤ Nsim2) (h40 : Nsim2 * (3 * xfs.n0) % 40 = 0)
    (hnt : ∀ j < J, ∀ k < K, ∀ q < Q, ∀ c < N, NoTies Nsim2 (3 * xfs.n0) fun i s =>
      cohortKey ((List.range xfs.n0).map fun s => xfs.at_ s 0 0 0) (cellP a xr xF xsig j k q) N HN
        (gen 1 Nsim2 (3 * N)) i c s) :
    ∃ t t', multiLookup solve gen a xfs xr xF xsig N Nsim2 = .ok t
      ∧ Matlab.createLookup (Matlab.multi solve') (gen 1 Nsim2 (3 * N)) a xfs xr xF xsig N Nsim2 = some t'
      ∧ SameTables xfs.n0 J K Q t t' fun s j k q =>
        0 ≤ equitySum (cellP a xr xF xsig j k q) Nsim2 (multiLoan ((List.range xfs.n0).map fun s => xfs.at_ s 0 0 0)
          (cellP a xr xF xsig j k q) N HN Nsim2 (gen 1 Nsim2 (3 * N)) (mu j k q)) (xfs.n0 + s)
        ∧ 0 ≤ equitySum (cellP a xr xF xsig j k q) Nsim2 (multiLoan ((List.range xfs.n0).map fun s => xfs.at_ s 0 0 0)
          (cellP a xr xF xsig j k q) N HN Nsim2 (gen 1 Nsim2 (3 * N)) (mu j k q)) (2 * xfs.n0 + s) := by
  have hlen : ((List.range xfs.n0).map fun s => xfs.at_ s 0 0 0).length = xfs.n0 := by simp
  refine tables_same (comp := multiCohort solve) (mcomp := Matlab.multi solve') gen a hsz _ fun j hj k hk q hq => ?_
  obtain ⟨o, mo, h3, h4, h5, -, h6⟩ := C160_multi_port (h j hj k hk q hq) (hmu j hj k hk q hq) (hmu' j hj k hk q hq) h2
    (by rw [hlen]; exact h40) (by rw [hlen]; exact hnt j hj k hk q hq)
  rw [hlen] at h5 h6
  exact ⟨o, mo, h3, h4, h5, fun s hs hh => ((h6 s hs).real hh.1 hh.2).1⟩

/-- C161 (one cohort): the same for `mod_single_merton_create_lookup` and the conditions of C159. The Matlab
version draws its shocks differently (`normrnd`); this compares the two on the same shocks. -/
theorem C161_single_tables {solve solve' : FSolve} (gen : ShockGen) (a : LookupArgs) {xfs xr xF xsig : Arr4} {J K Q : ℕ}
    {N HN Nsim2 : ℕ} {mu mu' : ℕ → ℕ → ℕ → ℝ} (hsz : GridShapes xfs xr xF xsig J K Q)
    (h : ∀ j < J, ∀ k < K, ∀ q < Q, SingleInput ((List.range xfs.n0).map fun s => xfs.at_ s 0 0 0)
      (cellP a xr xF xsig j k q) N HN Nsim2 (gen 1 Nsim2 (3 * N)))
    (hmu : ∀ j < J, ∀ k < K, ∀ q < Q, YieldSolved solve (cellP a xr xF xsig j k q) (mu j k q))
    (hmu' : ∀ j < J, ∀ k < K, ∀ q < Q, YieldSolved solve' (cellP a xr xF xsig j k q) (mu' j k q))
    (h2 : 2 ≤ Nsim2) (h40 : Nsim2 * (3 * xfs.n0) % 40 = 0)
    (hap : ∀ j < J, ∀ k < K, ∀ q < Q, KeysApart Nsim2 (3 * xfs.n0)
      (singleKey ((List.range xfs.n0).map fun s => xfs.at_ s 0 0 0) (cellP a xr xF xsig j k q) N HN
        (gen 1 Nsim2 (3 * N)))) :
    ∃ t t', singleLookup solve gen a xfs xr xF xsig N Nsim2 = .ok t
      ∧ Matlab.createLookup (Matlab.single solve') (gen 1 Nsim2 (3 * N)) a xfs xr xF xsig N Nsim2 = some t'
      ∧ SameTables xfs.n0 J K Q t t' fun s j k q =>
        0 ≤ equitySum (cellP a xr xF xsig j k q) Nsim2 (singleLoan ((List.range xfs.n0).map fun s => xfs.at_ s 0 0 0)
          (cellP a xr xF xsig j k q) N HN Nsim2 (gen 1 Nsim2 (3 * N)) (mu j k q)) (xfs.n0 + s)
        ∧ 0 ≤ equitySum (cellP a xr xF xsig j k q) Nsim2 (singleLoan ((List.range xfs.n0).map fun s => xfs.at_ s 0 0 0)
          (cellP a xr xF xsig j k q) N HN Nsim2 (gen 1 Nsim2 (3 * N)) (mu j k q)) (2 * xfs.n0 + s) := by
  have hlen : ((List.range xfs.n0).map fun s => xfs.at_ s 0 0 0).length = xfs.n0 := by simp
  refine tables_same (comp := singleCohort solve) (mcomp := Matlab.single solve') gen a hsz _ fun j hj k hk q hq => ?_
  obtain ⟨o, mo, h3, h4, h5, -, h6⟩ := C159_single_port (h j hj k hk q hq) (hmu j hj k hk q hq) (hmu' j hj k hk q hq) h2
    (by rw [hlen]; exact h40) (by rw [hlen]; exact hap j hj k hk q hq)
  rw [hlen] at h5 h6
  exact ⟨o, mo, h3, h4, h5, fun s hs hh => ((h6 s hs).real hh.1 hh.2).1⟩

/-- one cell, with the parameters of the examples of C159 and C160 -/
def portArgs : LookupArgs := { d := 0, y := 0, T := 10, H := 5, bookD := 0.4 * Real.exp (-0.1), rho := 0.25, ltv := 0.5 }

def portGrid (x : ℝ) : Arr4 := ⟨1, 1, 1, 1, fun _ _ _ _ => x⟩

theorem portShapes (a b c d : ℝ) : GridShapes (portGrid a) (portGrid b) (portGrid c) (portGrid d) 1 1 1 := by
  constructor <;> simp [portGrid]

theorem portCell (x : ℝ) (j k q : ℕ) : cellP portArgs (portGrid 0.02) (portGrid x) (portGrid 0.2) j k q
    = { portParam with bookF := x } := by
  unfold cellP portArgs portGrid portParam
  simp only [CohortParam.mk.injEq, and_true, true_and]
  rw [mul_assoc, ← Real.exp_add]; norm_num

example : ∃ mu, ∃ t t', singleLookup (fun _ _ => .fin mu) (fun _ _ _ => portShocks) portArgs (portGrid 0) (portGrid 0.02)
      (portGrid 0.5) (portGrid 0.2) 10 40 = .ok t
    ∧ Matlab.createLookup (Matlab.single fun _ _ => .fin mu) portShocks portArgs (portGrid 0) (portGrid 0.02)
      (portGrid 0.5) (portGrid 0.2) 10 40 = some t'
    ∧ SameTables 1 1 1 1 t t' fun _ _ _ _ => False := by
  obtain ⟨mu, hmu⟩ := yield_exists portValid (by norm_num [portParam])
  have hfs : ((List.range (portGrid 0).n0).map fun s => (portGrid 0).at_ s 0 0 0) = [0] := rfl
  obtain ⟨t, t', h1, h2, h3⟩ := C161_single_tables (solve := fun _ _ => .fin mu) (solve' := fun _ _ => .fin mu)
    (fun _ _ _ => portShocks) portArgs (N := 10) (HN := 5) (Nsim2 := 40) (mu := fun _ _ _ => mu) (mu' := fun _ _ _ => mu)
    (portShapes 0 0.02 0.5 0.2) (fun j _ k _ q _ => by rw [hfs, portCell]; exact portSingle)
    (fun j _ k _ q _ => by rw [portCell]; exact hmu) (fun j _ k _ q _ => by rw [portCell]; exact hmu) (by norm_num)
    (by norm_num [portGrid]) (fun j _ k _ q _ => by rw [hfs, portCell]; exact portApart)
  exact ⟨mu, t, t', h1, h2, fun s hs j hj k hk q hq => by
    obtain ⟨a1, a2, a3, a4, a5, -⟩ := h3 s hs j hj k hk q hq
    exact ⟨a1, a2, a3, a4, a5, fun hf => hf.elim⟩⟩

example : ∃ x mu, ∃ t t', multiLookup (fun _ _ => .fin mu) (fun _ _ _ => portShocks) portArgs (portGrid 0) (portGrid 0.02)
      (portGrid x) (portGrid 0.2) 10 40 = .ok t
    ∧ Matlab.createLookup (Matlab.multi fun _ _ => .fin mu) portShocks portArgs (portGrid 0) (portGrid 0.02)
      (portGrid x) (portGrid 0.2) 10 40 = some t'
    ∧ SameTables 1 1 1 1 t t' fun _ _ _ _ => False := by
  obtain ⟨x, mu, -, -, hmu, hin, hnt⟩ := portMulti
  have hfs : ((List.range (portGrid 0).n0).map fun s => (portGrid 0).at_ s 0 0 0) = [0] := rfl
  obtain ⟨t, t', h1, h2, h3⟩ := C161_multi_tables (solve := fun _ _ => .fin mu) (solve' := fun _ _ => .fin mu)
    (fun _ _ _ => portShocks) portArgs (N := 10) (HN := 5) (Nsim2 := 40) (mu := fun _ _ _ => mu) (mu' := fun _ _ _ => mu)
    (portShapes 0 0.02 x 0.2) (fun j _ k _ q _ => by rw [hfs, portCell]; exact hin)
    (fun j _ k _ q _ => by rw [portCell]; exact hmu) (fun j _ k _ q _ => by rw [portCell]; exact hmu) (by norm_num)
    (by norm_num [portGrid]) (fun j _ k _ q _ => by rw [hfs, portCell]; exact hnt)
  exact ⟨x, mu, t, t', h1, h2, fun s hs j hj k hk q hq => by
    obtain ⟨a1, a2, a3, a4, a5, -⟩ := h3 s hs j hj k hk q hq
    exact ⟨a1, a2, a3, a4, a5, fun hf => hf.elim⟩⟩

end
end Frds.Props

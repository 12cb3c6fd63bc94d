import Verif.Model.Lookup
import Verif.Props.Cohort

/-! Property C96: lookup tables. -/
set_option linter.unusedSimpArgs false
namespace Frds.Props
noncomputable section
open Frds Frds.Model Frds.Spec Classical

/-- the cells of the table in the order in which the loops visit them -/
def cells (J K Q : ℕ) : List (ℕ × ℕ × ℕ) :=
  (List.range J).flatMap fun j => (List.range K).flatMap fun k => (List.range Q).map fun q => (j, k, q)

theorem mem_cells {J K Q : ℕ} {c : ℕ × ℕ × ℕ} : c ∈ cells J K Q ↔ c.1 < J ∧ c.2.1 < K ∧ c.2.2 < Q := by
  obtain ⟨j, k, q⟩ := c
  simp [cells]

theorem foldlM_flatMap {α β σ : Type*} (f : σ → β → Except PyErr σ) (g : α → List β) (l : List α) (s : σ) :
    (l.flatMap g).foldlM f s = l.foldlM (fun s a => (g a).foldlM f s) s := by
  induction l generalizing s with
  | nil => rfl
  | cons a l ih =>
    rw [List.flatMap_cons, List.foldlM_append, List.foldlM_cons]
    congr 1
    funext s'
    exact ih s'

theorem foldlM_map' {α β σ : Type*} (f : σ → β → Except PyErr σ) (g : α → β) (l : List α) (s : σ) :
    (l.map g).foldlM f s = l.foldlM (fun s a => f s (g a)) s := by
  induction l generalizing s with
  | nil => rfl
  | cons a l ih =>
    rw [List.map_cons, List.foldlM_cons, List.foldlM_cons]
    congr 1
    funext s'
    exact ih s'

theorem createLookup_eq (comp : Comp) (gen : ShockGen) (a : LookupArgs) (xfs xr xF xsig : Arr4) (N Nsim2 : ℕ)
    {fs : List ℝ} (hfs : xfs.first = .ok fs) :
    createLookup comp gen a xfs xr xF xsig N Nsim2 = (cells xsig.n1 xr.n2 xF.n3).foldlM
      (fun t c => lookupStep comp a xr xF xsig N Nsim2 xfs.n0 fs (gen 1 Nsim2 (3 * N)) t c.1 c.2.1 c.2.2) Tables.zeros := by
  unfold createLookup
  rw [hfs]
  simp only [bind, Except.bind, cells, foldlM_flatMap, foldlM_map']

/-- the parameters of cell `(j,k,q)` -/
def cellP (a : LookupArgs) (xr xF xsig : Arr4) (j k q : ℕ) : CohortParam :=
  { r := xr.at_ 0 j k q, T := a.T, bookF := xF.at_ 0 j k q, H := a.H, D := a.bookD * Real.exp (xr.at_ 0 j k q * a.H),
    rho := a.rho, ltv := a.ltv, sig := xsig.at_ 0 j k q, d := a.d, y := a.y, g := none }

/-- the grids cover the table -/
structure GridShapes (xfs xr xF xsig : Arr4) (J K Q : ℕ) : Prop where
  sizes : xsig.n1 = J ∧ xr.n2 = K ∧ xF.n3 = Q
  fs : 0 < xfs.n1 ∧ 0 < xfs.n2 ∧ 0 < xfs.n3
  r : 0 < xr.n0 ∧ J ≤ xr.n1 ∧ Q ≤ xr.n3
  F : 0 < xF.n0 ∧ J ≤ xF.n1 ∧ K ≤ xF.n2
  sig : 0 < xsig.n0 ∧ K ≤ xsig.n2 ∧ Q ≤ xsig.n3

theorem cellParam_ok {a : LookupArgs} {xfs xr xF xsig : Arr4} {J K Q j k q : ℕ} (h : GridShapes xfs xr xF xsig J K Q)
    (hj : j < J) (hk : k < K) (hq : q < Q) : cellParam a xr xF xsig j k q = .ok (cellP a xr xF xsig j k q) := by
  obtain ⟨⟨e1, e2, e3⟩, -, ⟨r0, r1, r2⟩, ⟨f0, f1, f2⟩, s0, s1, s2⟩ := h
  have h1 : xr.cell j k q = .ok (xr.at_ 0 j k q) := if_pos ⟨r0, by omega, by omega, by omega⟩
  have h2 : xF.cell j k q = .ok (xF.at_ 0 j k q) := if_pos ⟨f0, by omega, by omega, by omega⟩
  have h3 : xsig.cell j k q = .ok (xsig.at_ 0 j k q) := if_pos ⟨s0, by omega, by omega, by omega⟩
  unfold cellParam
  rw [h1, h2, h3]
  rfl

/-- the table entry after visiting `visited`: the output of the cell's own computation, or zero -/
def entry (G : ℕ) (visited : List (ℕ × ℕ × ℕ)) (res : ℕ → ℕ → ℕ → CohortOut) (f : CohortOut → ℕ → XR) (s j k q : ℕ) : XR :=
  if s < G ∧ (j, k, q) ∈ visited then f (res j k q) s else 0

theorem setCol_entry {G : ℕ} {vis : List (ℕ × ℕ × ℕ)} {res : ℕ → ℕ → ℕ → CohortOut} {f : CohortOut → ℕ → XR} {j k q : ℕ} :
    setCol G j k q (entry G vis res f) (f (res j k q)) = entry G (vis ++ [(j, k, q)]) res f := by
  funext s j' k' q'
  unfold setCol entry
  by_cases hc : j' = j ∧ k' = k ∧ q' = q
  · obtain ⟨rfl, rfl, rfl⟩ := hc
    by_cases hs : s < G <;> simp [hs]
  · have : (j', k', q') ≠ (j, k, q) := by
      intro e; simp only [Prod.mk.injEq] at e; exact hc e
    simp [hc, this]

theorem fold_ok (comp : Comp) (a : LookupArgs) {xfs xr xF xsig : Arr4} {J K Q : ℕ} (N Nsim2 G : ℕ) (fs : List ℝ) (w : Shocks)
    (h : GridShapes xfs xr xF xsig J K Q) (res : ℕ → ℕ → ℕ → CohortOut)
    (hres : ∀ j < J, ∀ k < K, ∀ q < Q, comp fs (cellP a xr xF xsig j k q) N Nsim2 w = .ok (res j k q))
    (todo vis : List (ℕ × ℕ × ℕ)) (hsub : ∀ c ∈ todo, c.1 < J ∧ c.2.1 < K ∧ c.2.2 < Q) :
    todo.foldlM (fun t c => lookupStep comp a xr xF xsig N Nsim2 G fs w t c.1 c.2.1 c.2.2)
      ⟨entry G vis res CohortOut.Lt, entry G vis res CohortOut.Bt, entry G vis res CohortOut.Et,
        entry G vis res CohortOut.mFt, entry G vis res CohortOut.mdef, entry G vis res CohortOut.sigEt⟩
      = .ok ⟨entry G (vis ++ todo) res CohortOut.Lt, entry G (vis ++ todo) res CohortOut.Bt,
          entry G (vis ++ todo) res CohortOut.Et, entry G (vis ++ todo) res CohortOut.mFt,
          entry G (vis ++ todo) res CohortOut.mdef, entry G (vis ++ todo) res CohortOut.sigEt⟩ := by
  induction todo generalizing vis with
  | nil => simp [pure, Except.pure]
  | cons c todo ih =>
    obtain ⟨j, k, q⟩ := c
    obtain ⟨hj, hk, hq⟩ := hsub (j, k, q) (by simp)
    rw [List.foldlM_cons]
    have hstep : lookupStep comp a xr xF xsig N Nsim2 G fs w
        ⟨entry G vis res CohortOut.Lt, entry G vis res CohortOut.Bt, entry G vis res CohortOut.Et,
        entry G vis res CohortOut.mFt, entry G vis res CohortOut.mdef, entry G vis res CohortOut.sigEt⟩ j k q
        = .ok ⟨entry G (vis ++ [(j, k, q)]) res CohortOut.Lt, entry G (vis ++ [(j, k, q)]) res CohortOut.Bt,
          entry G (vis ++ [(j, k, q)]) res CohortOut.Et, entry G (vis ++ [(j, k, q)]) res CohortOut.mFt,
          entry G (vis ++ [(j, k, q)]) res CohortOut.mdef, entry G (vis ++ [(j, k, q)]) res CohortOut.sigEt⟩ := by
      unfold lookupStep
      rw [cellParam_ok h hj hk hq]
      simp only [bind, Except.bind]
      rw [hres j hj k hk q hq]
      simp only [pure, Except.pure, Tables.store, setCol_entry]
    simp only [bind, Except.bind]
    rw [hstep]
    simp only
    rw [ih (vis ++ [(j, k, q)]) fun c hc => hsub c (by simp [hc])]
    simp

/-- C96: when every cell's computation succeeds, the tables hold at `(s,j,k,q)` exactly the `s`-th results of one
computation with the cell's own interest rate, loan size and volatility, debt `bookD e^{r H}`, no guarantee, the
states `xfs[:,0,0,0]` and the same simulated shocks for all cells. -/
theorem C96_tables (comp : Comp) (gen : ShockGen) (a : LookupArgs) {xfs xr xF xsig : Arr4} {J K Q : ℕ} (N Nsim2 : ℕ)
    (h : GridShapes xfs xr xF xsig J K Q) (res : ℕ → ℕ → ℕ → CohortOut)
    (hres : ∀ j < J, ∀ k < K, ∀ q < Q, comp ((List.range xfs.n0).map fun s => xfs.at_ s 0 0 0)
      { r := xr.at_ 0 j k q, T := a.T, bookF := xF.at_ 0 j k q, H := a.H, D := a.bookD * Real.exp (xr.at_ 0 j k q * a.H),
        rho := a.rho, ltv := a.ltv, sig := xsig.at_ 0 j k q, d := a.d, y := a.y, g := none }
      N Nsim2 (gen 1 Nsim2 (3 * N)) = .ok (res j k q)) :
    ∃ t, createLookup comp gen a xfs xr xF xsig N Nsim2 = .ok t ∧
      ∀ s < xfs.n0, ∀ j < J, ∀ k < K, ∀ q < Q,
        t.xLt s j k q = (res j k q).Lt s ∧ t.xBt s j k q = (res j k q).Bt s ∧ t.xEt s j k q = (res j k q).Et s
        ∧ t.xFt s j k q = (res j k q).mFt s ∧ t.xmdef s j k q = (res j k q).mdef s
        ∧ t.xsigEt s j k q = (res j k q).sigEt s := by
  have hfs : xfs.first = .ok ((List.range xfs.n0).map fun s => xfs.at_ s 0 0 0) := if_pos h.fs
  obtain ⟨e1, e2, e3⟩ := h.sizes
  have hz : Tables.zeros = ⟨entry xfs.n0 [] res CohortOut.Lt, entry xfs.n0 [] res CohortOut.Bt,
      entry xfs.n0 [] res CohortOut.Et, entry xfs.n0 [] res CohortOut.mFt, entry xfs.n0 [] res CohortOut.mdef,
      entry xfs.n0 [] res CohortOut.sigEt⟩ := by
    unfold Tables.zeros entry; simp
  have := fold_ok comp a N Nsim2 xfs.n0 _ (gen 1 Nsim2 (3 * N)) h res hres (cells J K Q) [] fun c hc => mem_cells.1 hc
  rw [← hz] at this
  refine ⟨_, (createLookup_eq comp gen a xfs xr xF xsig N Nsim2 hfs).trans (by rw [e1, e2, e3]; exact this), ?_⟩
  intro s hs j hj k hk q hq
  have hm : (j, k, q) ∈ cells J K Q := mem_cells.2 ⟨hj, hk, hq⟩
  simp [entry, hs, hm]

/-- C96: if the cell `c` fails and every cell visited before it (row by row) succeeds, its error is raised and no
table is returned. -/
theorem C96_first_error (comp : Comp) (gen : ShockGen) (a : LookupArgs) {xfs xr xF xsig : Arr4} {J K Q : ℕ} (N Nsim2 : ℕ)
    (h : GridShapes xfs xr xF xsig J K Q) {j k q : ℕ} {e : PyErr} (hj : j < J) (hk : k < K) (hq : q < Q)
    (hbefore : ∀ j' k' q', j' < J → k' < K → q' < Q → (j' < j ∨ (j' = j ∧ (k' < k ∨ (k' = k ∧ q' < q)))) →
      ∃ o, comp ((List.range xfs.n0).map fun s => xfs.at_ s 0 0 0) (cellP a xr xF xsig j' k' q') N Nsim2
        (gen 1 Nsim2 (3 * N)) = .ok o)
    (herr : comp ((List.range xfs.n0).map fun s => xfs.at_ s 0 0 0) (cellP a xr xF xsig j k q) N Nsim2
        (gen 1 Nsim2 (3 * N)) = .error e) :
    createLookup comp gen a xfs xr xF xsig N Nsim2 = .error e := by
  have hfs : xfs.first = .ok ((List.range xfs.n0).map fun s => xfs.at_ s 0 0 0) := if_pos h.fs
  obtain ⟨e1, e2, e3⟩ := h.sizes
  rw [createLookup_eq comp gen a xfs xr xF xsig N Nsim2 hfs, e1, e2, e3]
  -- the cells before `c`
  have hrange : ∀ {n m : ℕ}, m < n → List.range n = List.range m ++ m :: (List.range (n - m - 1)).map (m + 1 + ·) := by
    intro n m hm
    apply List.ext_getElem
    · simp; omega
    · intro i h1 h2
      simp only [List.length_range] at h1
      rcases lt_trichotomy i m with hi | hi | hi
      · rw [List.getElem_append_left (by simpa using hi)]; simp
      · subst hi; rw [List.getElem_append_right (by simp)]; simp
      · rw [List.getElem_append_right (by simpa using hi.le), List.getElem_cons]
        have : ¬ (i - (List.range m).length = 0) := by simp; omega
        rw [dif_neg this]
        simp
        omega
  have hsplit : ∃ pre post, cells J K Q = pre ++ (j, k, q) :: post ∧ ∀ c ∈ pre, (c.1 < J ∧ c.2.1 < K ∧ c.2.2 < Q) ∧
      (c.1 < j ∨ (c.1 = j ∧ (c.2.1 < k ∨ (c.2.1 = k ∧ c.2.2 < q)))) := by
    refine ⟨(List.range j).flatMap (fun j => (List.range K).flatMap fun k => (List.range Q).map fun q => (j, k, q))
        ++ ((List.range k).flatMap (fun k => (List.range Q).map fun q => (j, k, q)) ++ (List.range q).map fun q => (j, k, q)),
      ((List.range (Q - q - 1)).map (q + 1 + ·)).map (fun q => (j, k, q))
        ++ (((List.range (K - k - 1)).map (k + 1 + ·)).flatMap (fun k => (List.range Q).map fun q => (j, k, q))
        ++ ((List.range (J - j - 1)).map (j + 1 + ·)).flatMap
          (fun j => (List.range K).flatMap fun k => (List.range Q).map fun q => (j, k, q))), ?_, ?_⟩
    · have q1 : (List.range Q).map (fun q' => (j, k, q')) = (List.range q).map (fun q' => (j, k, q'))
          ++ (j, k, q) :: ((List.range (Q - q - 1)).map (q + 1 + ·)).map fun q' => (j, k, q') := by
        conv_lhs => rw [hrange hq]
        rw [List.map_append, List.map_cons]
      have k1 : (List.range K).flatMap (fun k' => (List.range Q).map fun q' => (j, k', q'))
          = (List.range k).flatMap (fun k' => (List.range Q).map fun q' => (j, k', q'))
            ++ ((List.range Q).map (fun q' => (j, k, q'))
            ++ ((List.range (K - k - 1)).map (k + 1 + ·)).flatMap fun k' => (List.range Q).map fun q' => (j, k', q')) := by
        conv_lhs => rw [hrange hk]
        rw [List.flatMap_append, List.flatMap_cons]
      have j1 : cells J K Q = (List.range j).flatMap (fun j => (List.range K).flatMap fun k => (List.range Q).map fun q => (j, k, q))
            ++ ((List.range K).flatMap (fun k' => (List.range Q).map fun q' => (j, k', q'))
            ++ ((List.range (J - j - 1)).map (j + 1 + ·)).flatMap
              fun j => (List.range K).flatMap fun k => (List.range Q).map fun q => (j, k, q)) := by
        unfold cells
        conv_lhs => rw [hrange hj]
        rw [List.flatMap_append, List.flatMap_cons]
      rw [j1, k1, q1]
      simp only [List.append_assoc, List.cons_append]
    · rintro ⟨j', k', q'⟩ hc
      simp only [List.mem_append, List.mem_flatMap, List.mem_map, List.mem_range, Prod.mk.injEq] at hc
      simp only
      rcases hc with ⟨a1, h1, a2, h2, a3, h3, rfl, rfl, rfl⟩ | ⟨a2, h2, a3, h3, rfl, rfl, rfl⟩ | ⟨a3, h3, rfl, rfl, rfl⟩
      · exact ⟨⟨by omega, h2, h3⟩, Or.inl h1⟩
      · exact ⟨⟨hj, by omega, h3⟩, Or.inr ⟨rfl, Or.inl h2⟩⟩
      · exact ⟨⟨hj, hk, by omega⟩, Or.inr ⟨rfl, Or.inr ⟨rfl, h3⟩⟩⟩
  obtain ⟨pre, post, hcells, hpre⟩ := hsplit
  rw [hcells, List.foldlM_append]
  have hpreok : ∀ (l : List (ℕ × ℕ × ℕ)) (t : Tables), (∀ c ∈ l, c ∈ pre) → ∃ t', l.foldlM
      (fun t c => lookupStep comp a xr xF xsig N Nsim2 xfs.n0 ((List.range xfs.n0).map fun s => xfs.at_ s 0 0 0)
        (gen 1 Nsim2 (3 * N)) t c.1 c.2.1 c.2.2) t = .ok t' := by
    intro l
    induction l with
    | nil => intro t _; exact ⟨t, rfl⟩
    | cons c l ih =>
      intro t hsub
      obtain ⟨⟨b1, b2, b3⟩, b4⟩ := hpre c (hsub c (by simp))
      obtain ⟨o, ho⟩ := hbefore c.1 c.2.1 c.2.2 b1 b2 b3 b4
      obtain ⟨t', ht'⟩ := ih (t.store xfs.n0 c.1 c.2.1 c.2.2 o) fun c hc => hsub c (by simp [hc])
      refine ⟨t', ?_⟩
      rw [List.foldlM_cons]
      have : lookupStep comp a xr xF xsig N Nsim2 xfs.n0 ((List.range xfs.n0).map fun s => xfs.at_ s 0 0 0)
          (gen 1 Nsim2 (3 * N)) t c.1 c.2.1 c.2.2 = .ok (t.store xfs.n0 c.1 c.2.1 c.2.2 o) := by
        unfold lookupStep
        rw [cellParam_ok h b1 b2 b3]
        simp only [bind, Except.bind]
        rw [ho]
        rfl
      simp only [bind, Except.bind]
      rw [this]
      exact ht'
  obtain ⟨t', ht'⟩ := hpreok pre Tables.zeros fun c hc => hc
  simp only [bind, Except.bind]
  rw [ht']
  simp only
  rw [List.foldlM_cons]
  have : lookupStep comp a xr xF xsig N Nsim2 xfs.n0 ((List.range xfs.n0).map fun s => xfs.at_ s 0 0 0)
      (gen 1 Nsim2 (3 * N)) t' j k q = .error e := by
    unfold lookupStep
    rw [cellParam_ok h hj hk hq]
    simp only [bind, Except.bind]
    rw [herr]
  simp only [bind, Except.bind]
  rw [this]

/-! ### A concrete case -/

def exArgs : LookupArgs := { d := 0.005, y := 0.002, T := 10, H := 5, bookD := 0.6, rho := 0.5, ltv := 0.66 }

def exGrid (f : ℕ → ℕ → ℕ → ℕ → ℝ) : Arr4 := ⟨2, 2, 1, 3, f⟩

def exGen : ShockGen := fun _ r c => ⟨r, c, fun i c => (i : ℝ) - c⟩

theorem exGridShapes (f g h k : ℕ → ℕ → ℕ → ℕ → ℝ) : GridShapes (exGrid f) (exGrid g) (exGrid h) (exGrid k) 2 1 3 := by
  constructor <;> simp [exGrid]

/-- both lookup functions succeed on a grid of six cells -/
example : ∃ res : ℕ → ℕ → ℕ → CohortOut, ∀ j < 2, ∀ k < 1, ∀ q < 3,
    multiCohort (fun _ _ => .fin 0.03) ((List.range 2).map fun s => (s : ℝ))
      (cellP exArgs (exGrid fun _ j _ _ => 0.01 * (j + 1)) (exGrid fun _ _ _ q => 0.5 + 0.1 * q) (exGrid fun _ _ _ _ => 0.2) j k q)
      10 20 (exGen 1 20 (3 * 10)) = .ok (res j k q) := by
  have hall : ∀ j k q : ℕ, ∃ o, multiCohort (fun _ _ => .fin 0.03) ((List.range 2).map fun s => (s : ℝ))
      (cellP exArgs (exGrid fun _ j _ _ => 0.01 * (j + 1)) (exGrid fun _ _ _ q => 0.5 + 0.1 * q) (exGrid fun _ _ _ _ => 0.2) j k q)
      10 20 (exGen 1 20 (3 * 10)) = .ok o := by
    intro j k q
    obtain ⟨o, ho, _⟩ := C91_multi (solve := fun _ _ => .fin 0.03) (fs := (List.range 2).map fun s => (s : ℝ))
      (p := cellP exArgs (exGrid fun _ j _ _ => 0.01 * (j + 1)) (exGrid fun _ _ _ q => 0.5 + 0.1 * q)
        (exGrid fun _ _ _ _ => 0.2) j k q) (N := 10) (HN := 5) (Nsim2 := 20) (w := exGen 1 20 (3 * 10)) (mu := 0.03)
      ⟨⟨by simp only [cellP, exGrid]; positivity, by norm_num [cellP, exArgs], by norm_num [cellP, exGrid], by norm_num [cellP, exArgs],
          by norm_num [cellP, exArgs], by norm_num [cellP, exArgs]⟩,
        by norm_num [cellP, exArgs], by norm_num, rfl, by norm_num [exGen], by norm_num,
        by rw [ne_eq, List.map_eq_nil_iff]; decide, by simp, by simp⟩ rfl
    exact ⟨o, ho⟩
  choose res hres using hall
  exact ⟨res, fun j _ k _ q _ => hres j k q⟩

/-- a sample whose twentieth part is odd fails in the first cell -/
example : createLookup (singleCohort fun _ _ => .nan) exGen exArgs (exGrid fun s _ _ _ => s) (exGrid fun _ _ _ _ => 0.01)
    (exGrid fun _ _ _ _ => 0.5) (exGrid fun _ _ _ _ => 0.2) 10 4 = .error .assertionError := by
  refine C96_first_error _ _ _ 10 4 (exGridShapes _ _ _ _) (j := 0) (k := 0) (q := 0) (by norm_num) (by norm_num)
    (by norm_num) (fun j' k' q' _ _ _ h => absurd h (by omega)) ?_
  exact (C119_even_sample (HN := 5) (by norm_num [cellP, exArgs]) (by norm_num [cellP, exArgs]) (by norm_num) rfl
    (by norm_num [exGen]) (by simp [exGrid, exGen])).1

end
end Frds.Props

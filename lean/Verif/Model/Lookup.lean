import Verif.Model.Cohort

/-! Model of `mod_merton_create_lookup.py` (8-46) and `mod_single_merton_create_lookup.py` (10-52). The two
functions differ in the computation they call only; `comp` stands for it. The grid arrays are 4-D arrays of
finite reals; `gen 1 Nsim2 (3*N)` stands for `norm.ppf(RandomState(1).rand(3*N, Nsim2)).T`. -/
namespace Frds.Model
noncomputable section
open Frds Classical

/-- a 4-D array of numbers -/
structure Arr4 where
  n0 : ℕ
  n1 : ℕ
  n2 : ℕ
  n3 : ℕ
  at_ : ℕ → ℕ → ℕ → ℕ → ℝ

/-- `a[0, j, k, q]` -/
def Arr4.cell (a : Arr4) (j k q : ℕ) : Except PyErr ℝ :=
  if 0 < a.n0 ∧ j < a.n1 ∧ k < a.n2 ∧ q < a.n3 then .ok (a.at_ 0 j k q) else .error .indexError

/-- `a[:, 0, 0, 0]` -/
def Arr4.first (a : Arr4) : Except PyErr (List ℝ) :=
  if 0 < a.n1 ∧ 0 < a.n2 ∧ 0 < a.n3 then .ok ((List.range a.n0).map fun s => a.at_ s 0 0 0) else .error .indexError

/-- the signature shared by the two computations -/
abbrev Comp := List ℝ → CohortParam → ℕ → ℕ → Shocks → Except PyErr CohortOut

/-- the scalar arguments of the lookup functions -/
structure LookupArgs where
  d : ℝ
  y : ℝ
  T : ℝ
  H : ℝ
  bookD : ℝ
  rho : ℝ
  ltv : ℝ

/-- the six tables, of shape `(G, J, K, Q)` -/
structure Tables where
  xLt : ℕ → ℕ → ℕ → ℕ → XR
  xBt : ℕ → ℕ → ℕ → ℕ → XR
  xEt : ℕ → ℕ → ℕ → ℕ → XR
  xFt : ℕ → ℕ → ℕ → ℕ → XR
  xmdef : ℕ → ℕ → ℕ → ℕ → XR
  xsigEt : ℕ → ℕ → ℕ → ℕ → XR

/-- `np.zeros((G, J, K, Q))` six times: lines 19-24 -/
def Tables.zeros : Tables :=
  let z := fun _ _ _ _ => (0 : XR)
  ⟨z, z, z, z, z, z⟩

/-- `x[:, j, k, q] = v` for a vector of `G` entries -/
def setCol (G j k q : ℕ) (x : ℕ → ℕ → ℕ → ℕ → XR) (v : ℕ → XR) : ℕ → ℕ → ℕ → ℕ → XR :=
  fun s j' k' q' => if s < G ∧ j' = j ∧ k' = k ∧ q' = q then v s else x s j' k' q'

/-- lines 34-39 -/
def Tables.store (t : Tables) (G j k q : ℕ) (o : CohortOut) : Tables :=
  { xLt := setCol G j k q t.xLt o.Lt, xBt := setCol G j k q t.xBt o.Bt, xEt := setCol G j k q t.xEt o.Et,
    xFt := setCol G j k q t.xFt o.mFt, xmdef := setCol G j k q t.xmdef o.mdef,
    xsigEt := setCol G j k q t.xsigEt o.sigEt }

/-- line 29: the parameter list, in the order of evaluation of its elements -/
def cellParam (a : LookupArgs) (xr xF xsig : Arr4) (j k q : ℕ) : Except PyErr CohortParam := do
  let r ← xr.cell j k q
  let F ← xF.cell j k q
  let r' ← xr.cell j k q
  let s ← xsig.cell j k q
  return { r := r, T := a.T, bookF := F, H := a.H, D := a.bookD * Real.exp (r' * a.H), rho := a.rho, ltv := a.ltv,
           sig := s, d := a.d, y := a.y, g := none }

/-- body of the innermost loop: lines 29-39 -/
def lookupStep (comp : Comp) (a : LookupArgs) (xr xF xsig : Arr4) (N Nsim2 G : ℕ) (fs : List ℝ) (w : Shocks)
    (t : Tables) (j k q : ℕ) : Except PyErr Tables := do
  let p ← cellParam a xr xF xsig j k q
  let o ← comp fs p N Nsim2 w
  return t.store G j k q o

/-- the two lookup functions: lines 8-41 -/
def createLookup (comp : Comp) (gen : ShockGen) (a : LookupArgs) (xfs xr xF xsig : Arr4) (N Nsim2 : ℕ) :
    Except PyErr Tables := do
  let w := gen 1 Nsim2 (3 * N)                                               -- 10-11
  let J := xsig.n1                                                           -- 13
  let K := xr.n2
  let Q := xF.n3
  let G := xfs.n0
  let fs ← xfs.first                                                         -- 18
  (List.range J).foldlM (fun t j =>
    (List.range K).foldlM (fun t k =>
      (List.range Q).foldlM (fun t q => lookupStep comp a xr xF xsig N Nsim2 G fs w t j k q) t) t) Tables.zeros

/-- `mod_merton_create_lookup` -/
def multiLookup (solve : FSolve) := createLookup (multiCohort solve)

/-- `mod_single_merton_create_lookup` -/
def singleLookup (solve : FSolve) := createLookup (singleCohort solve)

end
end Frds.Model

import Verif.Model.Merton
import Verif.Model.FftSmooth
import Mathlib.Data.EReal.Basic
import Mathlib.Data.Prod.Lex

/-! Model of `src/frds/measures/modified_merton/mod_merton_computation.py` (lines 10-319) and
`mod_single_cohort_computation.py` (lines 11-137).

Arrays are functions of their indices together with their sizes. Parameters and shocks are finite
reals. `scipy.optimize.fsolve` is a parameter: any function of the objective and the start. The import
of `find_face_value_indiv` is taken to succeed (see `Model/ImportGraph.lean`). Broadcasting of
length-1 axes between `w` and the sizes is not modelled (reported as `ValueError`). -/
namespace Frds.Model
noncomputable section
open Frds Classical

/-- the list `param` (lines 16-33 / 13-34); `g` is `none` when the list has ten entries -/
structure CohortParam where
  r : ℝ
  T : ℝ
  bookF : ℝ
  H : ℝ
  D : ℝ
  rho : ℝ
  ltv : ℝ
  sig : ℝ
  d : ℝ
  y : ℝ
  g : Option ℝ

/-- the array `w` of factor shocks: `rows × cols` -/
structure Shocks where
  rows : ℕ
  cols : ℕ
  at_ : ℕ → ℕ → ℝ

/-- `scipy.optimize.fsolve(fun, x0)[0]` for a scalar start -/
abbrev FSolve := (XR → XR) → XR → XR

/-- column index `a[:, i]` of an array with `n` columns -/
def pyCol (n : ℕ) (i : ℤ) : Except PyErr ℕ :=
  let i' := if i < 0 then i + n else i
  if 0 ≤ i' ∧ i' < n then .ok i'.toNat else .error .indexError

/-- `HN = H * (N / T)`, an integer or `AssertionError` (multi 46-49, single 47-50); dividing by
`T = 0` is a `ZeroDivisionError` -/
def horizonSteps (H T : ℝ) (N : ℕ) : Except PyErr ℤ :=
  if T = 0 then .error .zeroDivisionError
  else if h : ∃ z : ℤ, H * ((N : ℝ) / T) = z then .ok h.choose
  else .error .assertionError

/-- row `i` of `concatenate((zeros, cumsum(step, axis=1)))` at column `c` -/
def cumPath (step : ℕ → XR) : ℕ → XR
  | 0 => 0
  | c + 1 => cumPath step c + step c

/-- `np.round(x, 9)`: half to even -/
def rint (x : ℝ) : ℤ :=
  if Int.fract x < 1 / 2 then ⌊x⌋ else if 1 / 2 < Int.fract x then ⌊x⌋ + 1
  else if Even ⌊x⌋ then ⌊x⌋ else ⌊x⌋ + 1

def round9 : XR → XR
  | .fin x => .fin (rint (x * 10 ^ 9) / 10 ^ 9)
  | v => v

/-- NumPy's sort order on floats: NaN after everything else -/
def sortKey : XR → WithTop EReal
  | .nan => ⊤
  | .pinf => ((⊤ : EReal) : WithTop EReal)
  | .ninf => ((⊥ : EReal) : WithTop EReal)
  | .fin x => ((x : EReal) : WithTop EReal)

/-- position `i` before position `j` in a stable sort by `key` -/
def lexKey (key : List XR) (i : ℕ) : WithTop EReal ×ₗ ℕ := toLex (sortKey (key.getD i .nan), i)

/-- `key.argsort(kind="stable")` -/
def argsortStable (key : List XR) : List ℕ :=
  (List.range key.length).insertionSort fun i j => lexKey key i ≤ lexKey key j

/-- `newInd = zeros(M); newInd[ind] = arange(M)` -/
def scatterInv (ind : List ℕ) : List ℕ :=
  ind.zipIdx.foldl (fun acc q => acc.set q.1 q.2) (List.replicate ind.length 0)

/-- smoothing in the order of `key` and putting the result back in place: multi 245-251, single 94-101 -/
def condExp (key payoff : List XR) (win : ℕ) : Except PyErr (List XR) := do
  let ind := argsortStable (key.map round9)
  let sortL := ind.map fun q => payoff.getD q .nan
  let LHs ← fftsmooth sortL win
  let newInd := scatterInv ind
  newInd.mapM fun q : ℕ => npIndex LHs (q : ℤ)

/-- `a.flatten(order="F")` of an `m × n` array -/
def flatF (m n : ℕ) (a : ℕ → ℕ → XR) : List XR := (List.range (m * n)).map fun q => a (q % m) (q / m)

/-- entry `(i, s)` of `reshape(l, (m, n), order="F")` -/
def unflatF (m : ℕ) (l : List XR) (i s : ℕ) : XR := l.getD (i + m * s) .nan

/-- the block that shifts `fs` for the numerical derivative: 0, +1, -1 (multi 144-151, single 68-71) -/
def shiftBlock (szfs s : ℕ) : XR := if s < szfs then 0 else if s < 2 * szfs then 1 else -1

/-- mean over the first axis (`axis=0`) -/
def meanRows (m : ℕ) (a : ℕ → ℕ → XR) (s : ℕ) : XR := Np.mean ((List.range m).map fun i => a i s)

/-- the sixteen results, in the order of the return statement. Vectors have `szfs` entries and matrices
`Nsim2 × szfs`; positions outside are meaningless -/
structure CohortOut where
  Lt : ℕ → XR
  Bt : ℕ → XR
  Et : ℕ → XR
  LH : ℕ → ℕ → XR
  BH : ℕ → ℕ → XR
  EH : ℕ → ℕ → XR
  sigEt : ℕ → XR
  mFt : ℕ → XR
  dflt : ℕ → ℕ → XR
  mdef : ℕ → XR
  face : ℕ → ℕ → XR
  FH : ℕ → ℕ → XR
  Gt : ℕ → XR
  mu : XR
  F : XR
  sigLt : ℕ → XR

/-- from the loan portfolio value at `t+H` to the results: multi 272-319, single 107-137 (identical
code) -/
def bankTail (p : CohortParam) (Nsim2 szfs : ℕ) (LH face FH Ft : ℕ → ℕ → XR) (mu F : XR) : CohortOut :=
  let g : ℝ := p.g.getD 0
  let ey := XR.exp (-.fin p.y * .fin p.H)
  let BH := fun i s => XR.npMin (.fin p.D) (LH i s * ey)
  let EHex := fun i s => LH i s * ey - BH i s
  let EH := fun i s => LH i s - BH i s
  let GH := fun i s => .fin g * XR.npMax (.fin p.D - LH i s * ey) 0
  let disc := XR.exp (-.fin p.r * .fin p.H)
  let Lt := fun s => meanRows Nsim2 LH s * disc
  let Bt := fun s => meanRows Nsim2 BH s * disc
  let Et := fun s => meanRows Nsim2 EH s * disc
  let Gt := fun s => meanRows Nsim2 GH s * disc
  let mFt := fun s => meanRows Nsim2 Ft s
  let dflt := fun i s => if EHex i s > 0 then (0 : XR) else 1
  let mdef := fun s => meanRows Nsim2 dflt s
  { Lt := Lt, Bt := Bt, Et := Et, LH := LH, BH := BH, EH := EH,
    sigEt := fun s => (10 / 2) * (XR.log (Et (szfs + s)) - XR.log (Et (2 * szfs + s))),
    mFt := mFt, dflt := dflt, mdef := mdef, face := face, FH := FH, Gt := Gt, mu := mu, F := F,
    sigLt := fun s => (10 / 2) * (XR.log (Lt (szfs + s)) - XR.log (Lt (2 * szfs + s))) }

/-- promised yield and face value of a loan: multi 159-165, single 74-77 -/
def promised (solve : FSolve) (p : CohortParam) (ival : XR) : XR × XR :=
  let mu := solve (fun mu => findFaceValueIndiv mu (.fin p.bookF * XR.exp (mu * .fin p.T)) ival (.fin p.sig)
    (.fin p.T) (.fin p.r) (.fin p.d)) (.fin p.r + 0.01)
  (mu, .fin p.bookF * XR.exp (mu * .fin p.T))

/-- increment of the log factor per step: multi 100, single 58 -/
def factorStep (p : CohortParam) (N : ℕ) (w : Shocks) (i c : ℕ) : XR :=
  (.fin p.r - .fin p.d - 0.5 * XR.sq (.fin p.sig)) * (.fin p.T / .fin N)
    + XR.sqrt (.fin p.rho) * .fin p.sig * XR.sqrt (.fin p.T / .fin N) * .fin (w.at_ i c)

/-- increment of the part removed up to `t`: multi 111 -/
def removedStep (p : CohortParam) (N : ℕ) (w : Shocks) (i c : ℕ) : XR :=
  -0.5 * .fin p.rho * XR.sq (.fin p.sig) * (.fin p.T / .fin N)
    + XR.sqrt (.fin p.rho) * .fin p.sig * XR.sqrt (.fin p.T / .fin N) * .fin (w.at_ i c)

/-- `mod_single_cohort_computation(fs, param, N, Nsim2, w)` -/
def singleCohort (solve : FSolve) (fs : List ℝ) (p : CohortParam) (N Nsim2 : ℕ) (w : Shocks) :
    Except PyErr CohortOut := do
  let ival := XR.log (.fin p.bookF) - XR.log (.fin p.ltv)                    -- 43
  let sigf := XR.sqrt (.fin p.rho) * .fin p.sig                              -- 44
  let HN ← horizonSteps p.H p.T N                                            -- 47-50
  let szfs := fs.length                                                      -- 51
  let fs3 := fs ++ fs ++ fs                                                  -- 52
  let Nsim1 := fs3.length                                                    -- 53
  if N = 0 then throw .zeroDivisionError                                     -- 58: T / N
  if w.rows ≠ Nsim2 then throw .valueError                                   -- 56-60
  let f := fun i => cumPath (factorStep p N w i)                             -- 56-60
  let cN ← pyCol (w.cols + 1) (N : ℤ)                                        -- 62
  let fsa := fun s => .fin (fs3.getD s 0) * sigf * XR.sqrt (.fin p.T)
    + sigf / 10 * shiftBlock szfs s                                          -- 65-71
  let f1j := fun i s => f i cN + fsa s                                       -- 72
  let muF := promised solve p ival                                           -- 74-77
  let L1 := fun i s => loanPayoff muF.2 (f1j i s) ival (.fin p.rho) (.fin p.sig) (.fin p.T)     -- 79
  let cH ← pyCol (w.cols + 1) HN                                             -- 83
  let FH1j := fun i s => XR.exp (f i cH + fsa s + ival)
    * XR.exp (0.5 * (1 - .fin p.rho) * .fin p.H * XR.sq (.fin p.sig))        -- 84-85
  let Ft := fun (_ : ℕ) s => XR.exp (fsa s + ival)                           -- 82, 86
  let LHs ← condExp (flatF Nsim2 Nsim1 FH1j) (flatF Nsim2 Nsim1 L1) (Nsim2 * Nsim1 / 20)        -- 92-100
  let dT := XR.exp (-.fin p.r * (.fin p.T - .fin p.H))
  let LH := fun i s => unflatF Nsim2 LHs i s * dT                            -- 101-103
  let face := fun (_ _ : ℕ) => 1 * muF.2 * dT                                -- 80, 105
  return bankTail p Nsim2 szfs LH face FH1j Ft muF.1 muF.2                   -- 107-137

/-- `np.arange(a, b, -1)` -/
def arangeDown (a b : ℤ) : List ℝ := (List.range (a - b).toNat).map fun k : ℕ => ((a - k : ℤ) : ℝ)

/-- line 78: fractional accumulated loan life at `t+H`, before the reshape -/
def lifeAtH (HN : ℤ) (N : ℕ) : List ℝ :=
  (arangeDown HN (-1)).map (· / (N : ℝ)) ++ (arangeDown ((N : ℤ) - 1) HN).map (· / (N : ℝ))

/-- mean over the cohorts (`axis=1`) -/
def meanCohorts (N : ℕ) (a : ℕ → XR) : XR := Np.mean ((List.range N).map a)

/-- log factor realisations by simulation and cohort, without the `fs` shock: lines 131-135, 199, 203-207 -/
structure CohortFactors where
  f1 : ℕ → ℕ → XR
  f2 : ℕ → ℕ → XR
  ft : ℕ → ℕ → XR
  fH1 : ℕ → ℕ → XR
  fH2 : ℕ → ℕ → XR

/-- lines 97-114, 131-135, 199, 203-207; `cH` is the column of `t+H` -/
def cohortFactors (p : CohortParam) (N cH : ℕ) (w : Shocks) : CohortFactors :=
  let f := fun i => cumPath (factorStep p N w i)                             -- 97-103
  let fw := fun i => cumPath (removedStep p N w i)                           -- 108-114
  let f0w := fun i j => fw i N - fw i j                                      -- 131
  { f1 := fun i j => f i (N + j) - f0w i j - f i j                           -- 133
    f2 := fun i j => f i (2 * N + j) - f i (N + j)                           -- 135
    ft := fun i j => f i N - f0w i j - f i j                                 -- 199
    fH1 := fun i j => f i cH - f0w i j - f i j                               -- 205
    fH2 := fun i j => f i cH - f i (N + j) }                                 -- 207

/-- lines 141-319: from the factor realisations to the results; `aH` is the loan life at `t+H` (78) -/
def cohortValue (solve : FSolve) (fs : List ℝ) (p : CohortParam) (N Nsim2 : ℕ) (HN : ℤ) (aH : List ℝ)
    (m : CohortFactors) : Except PyErr CohortOut := do
  let ival := XR.log (.fin p.bookF) - XR.log (.fin p.ltv)                    -- 42
  let sigf := XR.sqrt (.fin p.rho) * .fin p.sig                              -- 43
  let szfs := fs.length                                                      -- 50
  let fs3 := fs ++ fs ++ fs                                                  -- 52
  let Nsim1 := fs3.length                                                    -- 53
  -- 55-75: `rmat` is the cohort number `j`; `ind1 = rmat >= HN`, `ind2 = rmat < HN`
  let ind1 := fun j : ℕ => HN ≤ (j : ℤ)
  let ind2 := fun j : ℕ => (j : ℤ) < HN
  let at_ := fun j : ℕ => XR.fin (((N : ℝ) - j) / N)                         -- 82
  let fsa := fun j s => .fin (fs3.getD s 0) * sigf * XR.sqrt (.fin p.T) * at_ j
    + sigf / 10 * shiftBlock szfs s                                          -- 141-151
  let f1j := fun i j s => m.f1 i j + fsa j s                                 -- 153
  let muF := promised solve p ival                                           -- 159-165
  let L1 := fun i j s => loanPayoff muF.2 (f1j i j s) ival (.fin p.rho) (.fin p.sig) (.fin p.T) -- 173
  let ival2 := fun i j s => XR.log (L1 i j s / .fin p.ltv)                   -- 180
  let F2 := fun i j s => L1 i j s * XR.exp (muF.1 * .fin p.T)                -- 181
  let L2 := fun i j s => loanPayoff (F2 i j s) (m.f2 i j) (ival2 i j s) (.fin p.rho) (.fin p.sig) (.fin p.T)  -- 182
  let face2 := fun i j s => if ind1 j then 0 else F2 i j s                   -- 183, 185
  let face1 := fun j => if ind2 j then 0 else 1 * muF.2                      -- 174, 186
  let ft := fun i j s => m.ft i j + fsa j s + ival                           -- 200
  let jens := fun x : XR => XR.exp (0.5 * (1 - .fin p.rho) * (.fin p.T * x) * XR.sq (.fin p.sig))
  let FH1j := fun i j s => XR.exp (m.fH1 i j + fsa j s + ival) * jens (.fin (aH.getD j 0))       -- 209, 213
  let FH2j := fun i j s => XR.exp (m.fH2 i j + ival2 i j s) * jens (.fin (aH.getD j 0))          -- 210, 215
  let Ft := fun i s => meanCohorts N fun j => XR.exp (ft i j s) * jens (at_ j)                   -- 218
  let sc := fun i j s => if ind1 j then 1 else L1 i j s / .fin p.bookF       -- 230-231
  let FHr1 := fun i j s => if ind2 j then 0 else FH1j i j s                  -- 232-233
  let FHr2 := fun i j s => if ind1 j then 0 else FH2j i j s / sc i j s       -- 234-235
  let Lr1 := fun i j s => if ind2 j then 0 else L1 i j s                     -- 236-237
  let Lr2 := fun i j s => if ind1 j then 0 else L2 i j s / sc i j s          -- 238-239
  let cols ← (List.range N).mapM fun j : ℕ =>                                -- 242-251
    condExp (flatF Nsim2 Nsim1 fun i s => FHr1 i j s + FHr2 i j s)
      (flatF Nsim2 Nsim1 fun i s => Lr1 i j s + Lr2 i j s) (Nsim2 * Nsim1 / 20)
  let LHj := fun i j s => unflatF Nsim2 (cols.getD j []) i s * sc i j s      -- 252-253
  let LH1j := fun i j s => if ind2 j then 0 else LHj i j s                   -- 256-257
  let LH2j := fun i j s => if ind1 j then 0 else LHj i j s                   -- 258-259
  let d1 := fun j : ℕ => XR.exp (-.fin p.r * .fin (((j : ℤ) - HN : ℤ) : ℝ) * (.fin p.T / .fin N))
  let d2 := fun j : ℕ => XR.exp (-.fin p.r * .fin (((j : ℤ) - HN + N : ℤ) : ℝ) * (.fin p.T / .fin N))
  let LH := fun i s => meanCohorts N fun j => LH1j i j s * d1 j + LH2j i j s * d2 j              -- 261-264
  let FH := fun i s => meanCohorts N fun j => FHr1 i j s + FHr2 i j s                            -- 265
  let face := fun i s => meanCohorts N fun j => face1 j * d1 j + face2 i j s * d2 j              -- 267-270
  return bankTail p Nsim2 szfs LH face FH Ft muF.1 muF.2                     -- 272-319

/-- `mod_merton_computation(fs, param, N, Nsim2, w)`, lines 10-319 -/
def multiCohort (solve : FSolve) (fs : List ℝ) (p : CohortParam) (N Nsim2 : ℕ) (w : Shocks) :
    Except PyErr CohortOut := do
  let HN ← horizonSteps p.H p.T N                                            -- 46-49
  let aH := lifeAtH HN N                                                     -- 78
  if aH.length ≠ N then throw .valueError                                    -- 79: reshape
  if N = 0 then throw .zeroDivisionError                                     -- 100: T / N
  if w.rows ≠ Nsim2 then throw .valueError                                   -- 97-103
  if w.cols + 1 < 3 * N then throw .valueError                               -- 131-135: slices of unequal width
  let cH ← pyCol (w.cols + 1) ((N : ℤ) + HN)                                 -- 203-204
  cohortValue solve fs p N Nsim2 HN aH (cohortFactors p N cH w)

/-- `norm.ppf(RandomState(seed).rand(cols, rows).T)`: shocks as a function of seed, rows and columns -/
abbrev ShockGen := ℕ → ℕ → ℕ → Shocks

/-- an element of `b` in `mod_single_cohort_solution`: a number or an array -/
inductive ScalarOrArray where
  | scalar (x : ℝ)
  | array (l : List ℝ)

/-- `mod_single_cohort_solution(b, param, N, Nsim2, E, sigE)`, `mod_single_cohort_solution.py` 6-16. The
first component is the caller's list `param` after the call (line 8 writes to it). A scalar `b[0]` has
shape `()`, and `fs.shape[0]` (computation, line 51) raises `IndexError`. `E` and `sigE` are numbers. The
errors are vectors of `szfs` entries. -/
def singleSolution (solve : FSolve) (gen : ShockGen) (b0 : ScalarOrArray) (b1 : ℝ) (p : CohortParam) (N Nsim2 : ℕ)
    (E sigE : ℝ) : CohortParam × Except PyErr ((ℕ → XR) × (ℕ → XR)) :=
  let p' := { p with bookF := b1 }                                           -- 8
  (p', do
    match b0 with
    | .scalar _ =>
      let _ ← horizonSteps p'.H p'.T N                                       -- computation 47-50
      throw .indexError                                                      -- computation 51
    | .array fs =>
      let out ← singleCohort solve fs p' N Nsim2 (gen 1 Nsim2 N)             -- 11
      return (fun s => .fin E - out.Et s, fun s => .fin sigE - out.sigEt s)) -- 13

end
end Frds.Model

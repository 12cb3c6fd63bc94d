import Verif.Model.Lookup

/-! Model of the Matlab reference code in `src/frds/measures/modified_merton/matlab/` that the Python
functions of `modified_merton` declare to be translations of: `fftsmooth.m`, `LoanPayoff.m`,
`FindFaceValueIndiv.m`, `MertonSolution.m`, `ModSingleCohortComputation.m`, `ModMertonComputation.m`,
`ModMertonCreateLookup.m` and `ModSingleMertonCreateLookup.m`.

`none` is a Matlab error. Positions inside a column vector, columns of `f` and cohort numbers are 1-based as
in the source; the row (simulation) and the state column, whose numbers enter no arithmetic, are numbered
from 0. `fsolve` is a parameter; the toolbox function `blsprice` is the Black-Scholes formula of
`Model/OptionPrice.lean`. `log` and `sqrt` of a negative number are NaN here (Matlab: complex), except in
the last step (`sigEt`, `sigLt`), where the imaginary part is modelled. `N = 0` is reported as an error. -/
namespace Frds.Model.Matlab
noncomputable section
open Frds Frds.Model Classical

/-! ### fftsmooth.m -/

/-- `a(i)`: 1-based, an error unless `i` is a positive integer not above the number of elements -/
def index (a : List ℂ) (i : ℚ) : Option ℂ :=
  if i.den = 1 ∧ 1 ≤ i ∧ i ≤ a.length then a[i.num.toNat - 1]? else none

/-- `zeros(m, 1)`, `ones(m, 1)`: a negative size is an empty array, a fractional size an error -/
def column (m : ℚ) (v : ℝ) : Option (List ℝ) :=
  if m.den = 1 then some (List.replicate m.num.toNat v) else none

/-- `W = exp(-2πi/n)` in the documentation of `fft` -/
def root (n : ℕ) : ℂ := Complex.exp (-(2 * Real.pi * Complex.I) / (n : ℂ))

/-- `fft(X)`: `Y(k) = Σ_{j=1}^n X(j) W^((j-1)(k-1))` -/
def fft (x : List ℂ) : List ℂ :=
  (List.range' 1 x.length).map fun k : ℕ => ∑ j ∈ Finset.Icc 1 x.length,
    x.getD (j - 1) 0 * root x.length ^ ((j - 1) * (k - 1))

/-- `ifft(Y)`: `X(j) = (1/n) Σ_{k=1}^n Y(k) W^(-(j-1)(k-1))` -/
def ifft (y : List ℂ) : List ℂ :=
  (List.range' 1 y.length).map fun j : ℕ => 1 / (y.length : ℂ) * ∑ k ∈ Finset.Icc 1 y.length,
    y.getD (k - 1) 0 * (root y.length ^ ((j - 1) * (k - 1)))⁻¹

/-- `fftsmooth(x, w)` (`fftsmooth.m` lines 1-23) for a finite column vector -/
def smooth (x : List ℝ) (w : ℚ) : Option (List ℂ) := do
  let n : ℚ := x.length                                               -- 9
  let xpad ← (column n 0).map (· ++ x)                                -- 10
  let z ← column (n - w / 2) 0                                        -- 11
  let o ← column w 1
  let k := z ++ o.map (· / (w : ℝ)) ++ z
  if k.length ≠ xpad.length then none                                 -- 14: sizes of Fx and Fk
  let Fx := fft (xpad.map fun v : ℝ => (v : ℂ))                       -- 12
  let Fk := fft (k.map fun v : ℝ => (v : ℂ))                          -- 13
  let xk := ifft (List.zipWith (· * ·) Fx Fk)                         -- 14-15
  let a2 ← index xk (w / 2 + 2)
  let a1 ← index xk (w / 2 + 1)
  let dl := a2 - a1                                                   -- 18
  let lex := (List.range (w / 2).num.toNat).map fun i : ℕ => a1 - ((w / 2 - i : ℚ) : ℂ) * dl          -- 19
  let b1 ← index xk (n - w / 2)
  let b2 ← index xk (n - w / 2 - 1)
  let ul := b1 - b2                                                   -- 20
  let uex := (List.range' 1 (w / 2).num.toNat).map fun i : ℕ => b1 + (i : ℂ) * ul                     -- 21
  return lex ++ (xk.take (n - w / 2).num.toNat).drop (w / 2).num.toNat ++ uex                         -- 23

/-- `fftsmooth(x, w)` for any column vector: the same errors, NaN throughout when an element is not finite
(as in `Model/FftSmooth.lean`). The imaginary parts, which are dropped here, are zero (C156). -/
def fftsmooth (x : List XR) (w : ℚ) : Option (List XR) :=
  if h : ∃ v : List ℝ, x = v.map XR.fin then (smooth h.choose w).map fun l => l.map fun c => XR.fin c.re
  else (smooth (List.replicate x.length 0) w).map fun l => l.map fun _ => XR.nan

/-! ### LoanPayoff.m, FindFaceValueIndiv.m, MertonSolution.m -/

/-- `LoanPayoff.m` lines 13-16 -/
def loanPayoff (F f ival rho sig T : XR) : XR :=
  let EA := XR.exp (f + ival + 0.5 * (1 - rho) * T * XR.sq sig)       -- 13
  let s := sig * XR.sqrt T * XR.sqrt (1 - rho)                        -- 14
  let a := (XR.log F - f - ival) / s                                  -- 15
  EA * (1 - XR.ncdf (s - a)) + XR.ncdf (-a) * F                       -- 16

/-- `FindFaceValueIndiv.m` lines 3-8, first output -/
def findFaceValueIndiv (mu F ival sig T r d : XR) : XR :=
  let P := (blsprice (XR.exp ival) F r T sig d).2                     -- 3
  let L := F * XR.exp (-r * T) - P                                    -- 5
  let newmu := (1 / T) * XR.log (F / L)                               -- 6
  mu - newmu                                                          -- 8

/-- `MertonSolution.m` lines 5-30: the penalty uses the original `b` -/
def mertonSolution (b : XR × XR) (E D r d T sigE : XR) : XR × XR :=
  let esig : XR := if b.2 < 0 then 9999999 else 0                     -- 7-11
  let sig : XR := if b.2 < 0 then 0 else b.2
  let eA : XR := if b.1 < 0 then 9999999 else 0                       -- 12-16
  let A : XR := if b.1 < 0 then 0 else b.1
  let C := (blsprice A D r T sig d).1                                 -- 18
  let PVd := A * (1 - XR.exp (-d * T))                                -- 21
  let C' := C + PVd                                                   -- 22
  let d1 := (XR.log A - XR.log D + (r - d + XR.sq sig / 2) * T) / (sig * XR.sqrt T)             -- 24
  let v := (XR.exp (-d * T) * XR.ncdf d1 + (1 - XR.exp (-d * T))) * (A / E) * sig               -- 25
  (E - C' + esig * XR.sq b.2 + eA * XR.sq b.1, sigE - v + esig * XR.sq b.2 + eA * XR.sq b.1)    -- 30

/-! ### The two cohort computations -/

/-- `min(a, b)`, which ignores NaN -/
def min (a b : XR) : XR := if a.isNan then b else if b.isNan then a else if a ≤ b then a else b

/-- `max(a, b)`, which ignores NaN -/
def max (a b : XR) : XR := if a.isNan then b else if b.isNan then a else if b ≤ a then a else b

/-- `log` with its imaginary part -/
def clog : XR → XR × ℝ
  | .fin x => if x < 0 then (.fin (Real.log (-x)), Real.pi) else (XR.log (.fin x), 0)
  | .ninf => (.pinf, Real.pi)
  | v => (v, 0)

/-- `[sorted, ind] = sort(key)` (stable, ascending, NaN last), smoothing in that order, and the results put
back: single 83-90, multi 183-189; `key` is rounded already in the second -/
def condExp (key payoff : List XR) (win : ℚ) : Option (List XR) := do
  let ind := argsortStable key
  let sortL := ind.map fun q => payoff.getD q .nan
  let LHs ← fftsmooth sortL win
  let newInd := scatterInv ind
  newInd.mapM fun q : ℕ => LHs[q]?

/-- `round(x, 9)`: half away from zero -/
def round9 : XR → XR
  | .fin x => .fin ((if 0 ≤ x then (⌊x * 10 ^ 9 + 1 / 2⌋ : ℝ) else -(⌊-x * 10 ^ 9 + 1 / 2⌋ : ℝ)) / 10 ^ 9)
  | v => v

/-- `mean` of a column with at least one element -/
def mean (l : List XR) : XR := l.sum / .fin l.length

/-- the results: those of the Python version, and the imaginary parts of `sigEt` and `sigLt` -/
structure Out where
  re : CohortOut
  sigEtIm : ℕ → ℝ
  sigLtIm : ℕ → ℝ

/-- from the portfolio value at `t+H` to the results: single 98-134, multi 206-252 (identical code). With
one simulation `mean` reduces the only row to a number and the indices of `Et(szfs+1:2*szfs,1)` are out of
range. -/
def tail (p : CohortParam) (Nsim2 szfs : ℕ) (LH face FH Ft : ℕ → ℕ → XR) (mu F : XR) : Option Out :=
  let g : ℝ := p.g.getD 0                                                    -- 22-26
  let BH := fun i s => min (.fin p.D) (LH i s * XR.exp (-.fin p.y * .fin p.H))                  -- 98
  let EHex := fun i s => LH i s * XR.exp (-.fin p.y * .fin p.H) - BH i s     -- 99
  let EH := fun i s => LH i s - BH i s                                       -- 100
  let GH := fun i s => .fin g * max (.fin p.D - LH i s * XR.exp (-.fin p.y * .fin p.H)) 0       -- 101
  let col := fun (a : ℕ → ℕ → XR) s => mean ((List.range Nsim2).map fun i => a i s)
  let Lt := fun s => col LH s * XR.exp (-.fin p.r * .fin p.H)                -- 105
  let Bt := fun s => col BH s * XR.exp (-.fin p.r * .fin p.H)
  let Et := fun s => col EH s * XR.exp (-.fin p.r * .fin p.H)
  let Gt := fun s => col GH s * XR.exp (-.fin p.r * .fin p.H)
  let mFt := fun s => col Ft s                                               -- 109
  let dflt := fun i s => if EHex i s > 0 then (0 : XR) else 1                -- 112-114
  let mdef := fun s => col dflt s                                            -- 116
  if Nsim2 < 2 then none
  else some
    { re :=
        { Lt := Lt, Bt := Bt, Et := Et, LH := LH, BH := BH, EH := EH,
          sigEt := fun s => (10 / 2) * ((clog (Et (szfs + s))).1 - (clog (Et (2 * szfs + s))).1),          -- 120
          mFt := mFt, dflt := dflt, mdef := mdef, face := face, FH := FH, Gt := Gt, mu := mu, F := F,
          sigLt := fun s => (10 / 2) * ((clog (Lt (szfs + s))).1 - (clog (Lt (2 * szfs + s))).1) }         -- 121
      sigEtIm := fun s => 10 / 2 * ((clog (Et (szfs + s))).2 - (clog (Et (2 * szfs + s))).2)
      sigLtIm := fun s => 10 / 2 * ((clog (Lt (szfs + s))).2 - (clog (Lt (2 * szfs + s))).2) }

/-- column `c` (1-based) of `[zeros(Nsim2,1) cumsum(step, 2)]` in a row with increments `step` (1-based) -/
def path (step : ℕ → XR) : ℕ → XR
  | 0 => .nan
  | 1 => 0
  | c + 2 => path step (c + 1) + step (c + 1)

/-- `df*cat(dim, zeros, ones, -ones)`: the factor that multiplies `df` in state column `s` -/
def stepSign (szfs s : ℕ) : XR := if s / szfs = 0 then 0 else if s / szfs = 1 then 1 else -1

/-- `f`, column `c`: single 43, multi 71 -/
def f (p : CohortParam) (N : ℕ) (w : Shocks) (i c : ℕ) : XR :=
  path (fun c => (.fin p.r - .fin p.d - 0.5 * XR.sq (.fin p.sig)) * (.fin p.T / .fin N)
    + XR.sqrt (.fin p.rho) * .fin p.sig * XR.sqrt (.fin p.T / .fin N) * .fin (w.at_ i (c - 1))) c

/-- `fw`, column `c`: multi 76 -/
def fw (p : CohortParam) (N : ℕ) (w : Shocks) (i c : ℕ) : XR :=
  path (fun c => -0.5 * .fin p.rho * XR.sq (.fin p.sig) * (.fin p.T / .fin N)
    + XR.sqrt (.fin p.rho) * .fin p.sig * XR.sqrt (.fin p.T / .fin N) * .fin (w.at_ i (c - 1))) c

/-- a column number of an array with `cols` columns -/
def colIndex (cols : ℕ) (c : ℝ) : Option ℕ :=
  if h : ∃ z : ℕ, c = z ∧ 1 ≤ z ∧ z ≤ cols then some h.choose else none

/-- `ModSingleCohortComputation(fs, param, N, Nsim2, w)` -/
def single (solve : FSolve) (fs : List ℝ) (p : CohortParam) (N Nsim2 : ℕ) (w : Shocks) : Option Out := do
  let ival := XR.log (.fin p.bookF) - XR.log (.fin p.ltv)                    -- 35
  let sigf := XR.sqrt (.fin p.rho) * .fin p.sig                              -- 36
  if p.T = 0 ∨ N = 0 then none                                               -- 37: HN is infinite or NaN
  let HN := p.H * ((N : ℝ) / p.T)
  let szfs := fs.length                                                      -- 38
  let fs3 := fs ++ fs ++ fs                                                  -- 39
  let Nsim1 := fs3.length                                                    -- 40
  if w.rows ≠ Nsim2 then none                                                -- 43
  let cN ← colIndex (w.cols + 1) (N + 1)                                     -- 44
  let df := sigf / 10                                                        -- 49
  let fsa := fun s => .fin (fs3.getD s 0) * sigf * XR.sqrt (.fin p.T) + df * stepSign szfs s    -- 47-50
  let f1j := fun i s => f p N w i cN + fsa s                                 -- 51
  let mu := solve (fun mu => findFaceValueIndiv mu (.fin p.bookF * XR.exp (mu * .fin p.T)) ival (.fin p.sig)
    (.fin p.T) (.fin p.r) (.fin p.d)) (.fin p.r + 0.01)                      -- 57-62
  let F := .fin p.bookF * XR.exp (mu * .fin p.T)                             -- 63
  let L1 := fun i s => loanPayoff F (f1j i s) ival (.fin p.rho) (.fin p.sig) (.fin p.T)         -- 66
  let cH ← colIndex (w.cols + 1) (1 + HN)                                    -- 71
  let fH1j := fun i s => f p N w i cH + fsa s + ival                         -- 72
  let FH1j := fun i s => XR.exp (fH1j i s)
    * XR.exp (0.5 * (1 - .fin p.rho) * .fin p.H * XR.sq (.fin p.sig))        -- 73
  let Ft := fun (_ : ℕ) s => XR.exp (fsa s + ival)                           -- 70, 74
  let win : ℚ := ((Nsim2 * Nsim1 : ℕ) : ℚ) / 20                              -- 85
  let LHs ← condExp (flatF Nsim2 Nsim1 FH1j) (flatF Nsim2 Nsim1 L1) win      -- 81-90
  let LH := fun i s => unflatF Nsim2 LHs i s * XR.exp (-.fin p.r * (.fin p.T - .fin p.H))       -- 94
  let face := fun (_ _ : ℕ) => 1 * F * XR.exp (-.fin p.r * (.fin p.T - .fin p.H))               -- 67, 96
  tail p Nsim2 szfs LH face FH1j Ft mu F

/-- `a:-1:b` -/
def down (a b : ℝ) : List ℝ := (List.range (⌊a - b⌋ + 1).toNat).map fun k : ℕ => a - k

/-- `ModMertonComputation(fs, param, N, Nsim2, w)`; `j` runs over the cohorts `1, …, N` -/
def multi (solve : FSolve) (fs : List ℝ) (p : CohortParam) (N Nsim2 : ℕ) (w : Shocks) : Option Out := do
  let ival := XR.log (.fin p.bookF) - XR.log (.fin p.ltv)                    -- 38
  let sigf := XR.sqrt (.fin p.rho) * .fin p.sig                              -- 39
  if p.T = 0 ∨ N = 0 then none                                               -- 40
  let HN := p.H * ((N : ℝ) / p.T)
  let szfs := fs.length                                                      -- 41
  let fs3 := fs ++ fs ++ fs                                                  -- 42
  let Nsim1 := fs3.length                                                    -- 43
  let rmat := fun j : ℕ => (j : ℝ) - 1                                       -- 46
  let ind1 := fun j => rmat j ≥ HN                                           -- 48
  let ind2 := fun j => rmat j < HN                                           -- 49
  let aHmat := (down HN 0 ++ down ((N : ℝ) - 1) (HN + 1)).map (· / (N : ℝ))  -- 52
  if aHmat.length ≠ N then none                                              -- 149: sizes
  let aH := fun j => XR.fin (aHmat.getD (j - 1) 0)
  let at_ := fun j : ℕ => XR.fin (((N : ℝ) - rmat j) / N)                    -- 56
  if w.rows ≠ Nsim2 then none                                                -- 71
  let _ ← colIndex (w.cols + 1) ((3 * N : ℕ) : ℝ)                            -- 90: the last column used
  let f0w := fun i j => fw p N w i (N + 1) - fw p N w i j                    -- 88
  let f1 := fun i j => f p N w i (N + j) - f0w i j - f p N w i j             -- 89
  let f2 := fun i j => f p N w i (2 * N + j) - f p N w i (N + j)             -- 90
  let df := sigf / 10                                                        -- 98
  let fsa := fun j s => .fin (fs3.getD s 0) * sigf * XR.sqrt (.fin p.T) * at_ j + df * stepSign szfs s    -- 96-100
  let f1j := fun i j s => f1 i j + fsa j s                                   -- 101
  let mu := solve (fun mu => findFaceValueIndiv mu (.fin p.bookF * XR.exp (mu * .fin p.T)) ival (.fin p.sig)
    (.fin p.T) (.fin p.r) (.fin p.d)) (.fin p.r + 0.01)                      -- 108-113
  let F := .fin p.bookF * XR.exp (mu * .fin p.T)                             -- 114
  let L1 := fun i j s => loanPayoff F (f1j i j s) ival (.fin p.rho) (.fin p.sig) (.fin p.T)     -- 122
  let ival2 := fun i j s => XR.log (L1 i j s / .fin p.ltv)                   -- 129
  let F2 := fun i j s => L1 i j s * XR.exp (mu * .fin p.T)                   -- 130
  let L2 := fun i j s => loanPayoff (F2 i j s) (f2 i j) (ival2 i j s) (.fin p.rho) (.fin p.sig) (.fin p.T)  -- 131
  let face2 := fun i j s => if ind1 j then 0 else F2 i j s                   -- 132, 134
  let face1 := fun j => if ind2 j then 0 else 1 * F                          -- 123, 135
  let ft := fun i j s => f p N w i (N + 1) - f0w i j - f p N w i j + fsa j s + ival             -- 142
  let cH ← colIndex (w.cols + 1) ((N : ℝ) + 1 + HN)                          -- 144
  let fH1 := fun i j => f p N w i cH - f0w i j - f p N w i j                 -- 144
  let fH2 := fun i j => f p N w i cH - f p N w i (N + j)                     -- 145
  let fH1j := fun i j s => fH1 i j + fsa j s + ival                          -- 146
  let fH2j := fun i j s => fH2 i j + ival2 i j s                             -- 147
  let jens := fun x : XR => XR.exp (0.5 * (1 - .fin p.rho) * (.fin p.T * x) * XR.sq (.fin p.sig))
  let FH1j := fun i j s => XR.exp (fH1j i j s) * jens (aH j)                 -- 149
  let FH2j := fun i j s => XR.exp (fH2j i j s) * jens (aH j)                 -- 150
  let cohorts := List.range' 1 N
  let Ft := fun i s => mean (cohorts.map fun j => XR.exp (ft i j s) * jens (at_ j))             -- 152
  let sc := fun i j s => if ind1 j then 1 else L1 i j s / .fin p.bookF       -- 167-168
  let FHr1 := fun i j s => if ind2 j then 0 else FH1j i j s                  -- 169-170
  let FHr2 := fun i j s => if ind1 j then 0 else FH2j i j s / sc i j s       -- 171-172
  let Lr1 := fun i j s => if ind2 j then 0 else L1 i j s                     -- 173-174
  let Lr2 := fun i j s => if ind1 j then 0 else L2 i j s / sc i j s          -- 175-176
  let win : ℚ := ((Nsim2 * Nsim1 : ℕ) : ℚ) / 20                              -- 185
  let cols ← cohorts.mapM fun j : ℕ =>                                       -- 179-189
    condExp ((flatF Nsim2 Nsim1 fun i s => FHr1 i j s + FHr2 i j s).map round9)
      (flatF Nsim2 Nsim1 fun i s => Lr1 i j s + Lr2 i j s) win
  let LHj := fun i j s => unflatF Nsim2 (cols.getD (j - 1) []) i s * sc i j s                   -- 189-190
  let LH1j := fun i j s => if ind2 j then 0 else LHj i j s                   -- 196-197
  let LH2j := fun i j s => if ind1 j then 0 else LHj i j s                   -- 198-199
  let d1 := fun j => XR.exp (-.fin p.r * .fin (rmat j - HN) * (.fin p.T / .fin N))
  let d2 := fun j => XR.exp (-.fin p.r * .fin (rmat j - HN + N) * (.fin p.T / .fin N))
  let LH := fun i s => mean (cohorts.map fun j => LH1j i j s * d1 j + LH2j i j s * d2 j)        -- 201
  let FH := fun i s => mean (cohorts.map fun j => FHr1 i j s + FHr2 i j s)   -- 202
  let face := fun i s => mean (cohorts.map fun j => face1 j * d1 j + face2 i j s * d2 j)        -- 204
  tail p Nsim2 szfs LH face FH Ft mu F

/-! ### The lookup tables -/

/-- the signature shared by the two computations -/
abbrev Comp := List ℝ → CohortParam → ℕ → ℕ → Shocks → Option Out

/-- `a(1, j, k, q)` with 1-based `j`, `k`, `q` -/
def cell (a : Arr4) (j k q : ℕ) : Option ℝ :=
  if 1 ≤ a.n0 ∧ (1 ≤ j ∧ j ≤ a.n1) ∧ (1 ≤ k ∧ k ≤ a.n2) ∧ (1 ≤ q ∧ q ≤ a.n3) then
    some (a.at_ 0 (j - 1) (k - 1) (q - 1)) else none

/-- body of the innermost loop, lines 31-41; tables are stored 0-based -/
def lookupStep (comp : Comp) (a : LookupArgs) (xr xF xsig : Arr4) (N Nsim2 G : ℕ) (fs : List ℝ) (w : Shocks)
    (t : Tables) (j k q : ℕ) : Option Tables := do
  let r ← cell xr j k q                                                      -- 31
  let F ← cell xF j k q
  let s ← cell xsig j k q
  let param : CohortParam :=
    { r := r, T := a.T, bookF := F, H := a.H, D := a.bookD * Real.exp (r * a.H), rho := a.rho, ltv := a.ltv, sig := s,
      d := a.d, y := a.y, g := none }
  let o ← comp fs param N Nsim2 w                                            -- 33
  return t.store G (j - 1) (k - 1) (q - 1) o.re                              -- 35-40

/-- `ModMertonCreateLookup` (`comp = multi`) and `ModSingleMertonCreateLookup` (`comp = single`), lines 4-44;
`w` stands for the shocks drawn in lines 4-6. Complex entries of `sigEt` are stored as their real parts (a
simplification). -/
def createLookup (comp : Comp) (w : Shocks) (a : LookupArgs) (xfs xr xF xsig : Arr4) (N Nsim2 : ℕ) :
    Option Tables := do
  let J := xsig.n1                                                           -- 8
  let K := xr.n2                                                             -- 9
  let Q := xF.n3                                                             -- 10
  let G := xfs.n0                                                            -- 11
  if xfs.n1 = 0 ∨ xfs.n2 = 0 ∨ xfs.n3 = 0 then none                          -- 13
  let fs := (List.range G).map fun s => xfs.at_ s 0 0 0
  (List.range' 1 J).foldlM (fun t j =>                                       -- 22-44
    (List.range' 1 K).foldlM (fun t k =>
      (List.range' 1 Q).foldlM (fun t q => lookupStep comp a xr xF xsig N Nsim2 G fs w t j k q) t) t) Tables.zeros

end
end Frds.Model.Matlab

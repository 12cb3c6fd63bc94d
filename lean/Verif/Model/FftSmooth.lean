import Verif.Basic.Np
import Mathlib.Analysis.SpecialFunctions.Complex.Log

/-! Model of `src/frds/measures/modified_merton/fftsmooth.py`.

`np.fft.fft` and `np.fft.ifft` are library calls written out as the sums NumPy documents, in exact
complex arithmetic. When an element of `x` is NaN or infinite every transformed value is NaN
(a simplification: every output of the transforms depends on every input). -/
namespace Frds.Model
noncomputable section
open Frds Classical

/-- `np.fft.fft(a)[k] = Σ_j a[j] exp(-2πi jk/M)`, `M = len(a)` -/
def npFft (a : List ℂ) : List ℂ :=
  (List.range a.length).map fun k : ℕ => ∑ j ∈ Finset.range a.length,
    a.getD j 0 * Complex.exp (-(2 * Real.pi * Complex.I * (j : ℂ) * (k : ℂ)) / (a.length : ℂ))

/-- `np.fft.ifft(a)[k] = (1/M) Σ_j a[j] exp(2πi jk/M)` -/
def npIfft (a : List ℂ) : List ℂ :=
  (List.range a.length).map fun k : ℕ => (1 / (a.length : ℂ)) * ∑ j ∈ Finset.range a.length,
    a.getD j 0 * Complex.exp ((2 * Real.pi * Complex.I * (j : ℂ) * (k : ℂ)) / (a.length : ℂ))

/-- Python indexing `a[i]` of a 1-D array: negative indices count from the end -/
def npIndex (a : List XR) (i : ℤ) : Except PyErr XR :=
  let i' := if i < 0 then i + a.length else i
  if 0 ≤ i' ∧ i' < a.length then .ok (a.getD i'.toNat 0) else .error .indexError

/-- `np.zeros((m,))`: a negative dimension is a `ValueError` -/
def npZeros (m : ℤ) : Except PyErr (List ℝ) :=
  if m < 0 then .error .valueError else .ok (List.replicate m.toNat 0)

/-- lines 23-28: `np.real(np.fft.ifft(np.fft.fft(xpad) * np.fft.fft(k)))` on finite arrays of equal
length (`squeeze` leaves an array of length at least 2 unchanged) -/
def fftProduct (xpad k : List ℝ) : List ℝ :=
  let Fx := npFft (xpad.map fun v : ℝ => (v : ℂ))
  let Fk := npFft (k.map fun v : ℝ => (v : ℂ))
  (npIfft (List.zipWith (· * ·) Fx Fk)).map Complex.re

/-- `fftsmooth(x, w)`, lines 4-37, for a window `w ≥ 0` -/
def fftsmooth (x : List XR) (w : ℕ) : Except PyErr (List XR) := do
  let n := x.length                                                   -- 15
  if n % 2 ≠ 0 then throw .assertionError                             -- 16
  if w % 2 ≠ 0 then throw .assertionError                             -- 17
  let pad ← npZeros (n : ℤ)                                           -- 18
  let z ← npZeros ((n : ℤ) - (w / 2 : ℕ))                             -- 20-22
  let k := z ++ List.replicate w (1 / (w : ℝ)) ++ z
  if n = 0 then throw .valueError                                     -- 23: no data points
  let xk : List XR :=                                                 -- 23-28
    if h : ∃ v : List ℝ, x = v.map XR.fin then (fftProduct (pad ++ h.choose) k).map XR.fin
    else List.replicate (2 * n) .nan
  let xh ← npIndex xk ((w / 2 : ℕ) : ℤ)
  let xh1 ← npIndex xk (((w / 2 : ℕ) : ℤ) + 1)
  let dl := xh1 - xh                                                  -- 31
  let lex := ((List.range (w / 2)).map fun i : ℕ => (i : ℝ) + 1).reverse.map fun c : ℝ => xh - .fin c * dl  -- 32
  let xu ← npIndex xk ((n : ℤ) - (w / 2 : ℕ) - 1)
  let xu1 ← npIndex xk ((n : ℤ) - (w / 2 : ℕ) - 2)
  let ul := xu - xu1                                                  -- 33
  let uex := (List.range (w / 2)).map fun i : ℕ => xu + .fin ((i : ℝ) + 1) * ul       -- 34
  return lex ++ (xk.take (n - w / 2)).drop (w / 2) ++ uex             -- 36-37

end
end Frds.Model

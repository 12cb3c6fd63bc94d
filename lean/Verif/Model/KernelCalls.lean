import Verif.Model.Garch
import Verif.Basic.IntArr

/-! Direct calls of the static variance methods (`src/frds/algorithms/_garch.py` lines 173-199 and 408-461,
`src/frds/algorithms/utils/utils_module.cpp` lines 65-156, `src/frds/algorithms/utils/garch.hpp` lines 33-69) with arguments
the estimation itself never passes: parameter lists of any length, bounds with any number of columns, integer residuals. -/
namespace Frds.Model.KernelCalls
noncomputable section
open Frds Frds.Model Classical

/-- the element type of the residuals, hence (`np.zeros_like`) of the variances: value of an element, value of
`resids[t] ** 2`, test `resids[t] < 0`, and `sigma2[t] = x` -/
structure Elem (α : Type) where
  val : α → XR
  sq : α → XR
  neg : α → Prop
  store : XR → Except PyErr α

/-- float64 -/
def flt : Elem XR where
  val x := x
  sq := XR.sq
  neg x := x < 0
  store x := .ok x

/-- conversion of a float to a C integer: towards zero -/
def trunc (x : ℝ) : ℤ := if 0 ≤ x then ⌊x⌋ else ⌈x⌉

def int64Ty : Np.IntTy := ⟨true, 64⟩

/-- int64: the square wraps around; `sigma2[t] = x` is `int(x)`, which fails for NaN (`ValueError`), infinities and
values outside the range (`OverflowError`). Simplification: this is the behaviour for Python floats; a numpy scalar outside
the range may, depending on the numpy version, be stored as an arbitrary integer with a warning instead. -/
def int64 : Elem ℤ where
  val z := .fin z
  sq z := .fin (int64Ty.wrap (z * z) : ℤ)
  neg z := z < 0
  store
    | .fin x => if int64Ty.Fits (trunc x) then .ok (trunc x) else .error .overflowError
    | .nan => .error .valueError
    | _ => .error .overflowError

variable {α : Type} (E : Elem α)

/-- `var_bounds[t]`, then `[0]` and `[1]` (lines 198, 284, 435) -/
def boundsAt (bounds : List (List XR)) (t : ℕ) : Except PyErr (XR × XR) :=
  match bounds[t]? with
  | some (lo :: hi :: _) => .ok (lo, hi)
  | _ => .error .indexError

/-- lines 196-198 -/
def garchLoop (p : GarchVar) (bounds : List (List XR)) : ℕ → α → List α → Except PyErr (List α)
  | _, _, [] => .ok []
  | t, s, r :: rs => do
    let s1 ← E.store (p.omega + p.alpha * E.sq r + p.beta * E.val s)             -- 197
    let b ← boundsAt bounds t
    let s2 ← E.store (boundsCheckPy (E.val s1) b)                                -- 198
    let rest ← garchLoop p bounds (t + 1) s2 rs
    return s2 :: rest

/-- lines 173-199, `GARCHModel.compute_variance` without the extension -/
def garchPy (params : List XR) (resids : List α) (backcast : XR) (bounds : List (List XR)) : Except PyErr (List α) :=
  match params with
  | [omega, alpha, beta] =>                                                      -- 193
    if resids = [] then .error .indexError                                       -- 195: sigma2[0]
    else do
      let s ← E.store (omega + (alpha + beta) * backcast)                        -- 195
      let rest ← garchLoop E ⟨omega, alpha, beta⟩ bounds 1 s resids.dropLast
      return s :: rest
  | _ => .error .valueError

/-- lines 431-434: one step without the bounds -/
def gjrStep (p : GjrVar) (s r : α) : Except PyErr α := do
  let s1 ← E.store (p.omega + p.alpha * E.sq r + p.beta * E.val s)               -- 432
  E.store (E.val s1 + (if E.neg r then p.gamma * E.sq r else 0))                 -- 433

/-- lines 431-434 -/
def gjrLoop (p : GjrVar) (bounds : List (List XR)) : ℕ → α → List α → Except PyErr (List α)
  | _, _, [] => .ok []
  | t, s, r :: rs => do
    let s1 ← gjrStep E p s r
    let b ← boundsAt bounds t
    let s2 ← E.store (boundsCheckPy (E.val s1) b)                                -- 434
    let rest ← gjrLoop p bounds (t + 1) s2 rs
    return s2 :: rest

/-- lines 408-435, `GJRGARCHModel.compute_variance` without the extension -/
def gjrPy (params : List XR) (resids : List α) (backcast : XR) (bounds : List (List XR)) : Except PyErr (List α) :=
  match params with
  | [omega, alpha, gamma, beta] =>                                               -- 428
    if resids = [] then .error .indexError
    else do
      let s ← E.store (omega + (alpha + gamma / 2 + beta) * backcast)            -- 430
      let rest ← gjrLoop E ⟨omega, alpha, gamma, beta⟩ bounds 1 s resids.dropLast
      return s :: rest
  | _ => .error .valueError

/-- lines 458-460 -/
def forecastLoop (p : GjrVar) : α → List α → Except PyErr (List α)
  | _, [] => .ok []
  | s, r :: rs => do
    let s1 ← gjrStep E p s r
    let rest ← forecastLoop p s1 rs
    return s1 :: rest

/-- lines 437-461, `GJRGARCHModel.forecast_variance` (no extension) -/
def forecastPy (p : GjrVar) (resids : List α) (initial : XR) : Except PyErr (List α) :=
  if resids = [] then .error .indexError
  else do
    let s ← E.store initial                                                      -- 457
    forecastLoop E p s resids.dropLast

/-! ### the extension -/

/-- `garch.hpp` lines 41-46 and 60-68 on flat memory -/
def cLoop (next : XR → XR → XR) (bounds : List XR) : ℕ → XR → List XR → Option (List XR)
  | _, _, [] => some []
  | t, s, r :: rs => do
    let lo ← bounds[t * 2]?
    let hi ← bounds[t * 2 + 1]?
    let s' := boundsCheckCpp (next r s) (lo, hi)
    let rest ← cLoop next bounds (t + 1) s' rs
    return s' :: rest

/-- `ext.compute_garch_variance` on one-dimensional residuals and two-dimensional, C-contiguous bounds (flattened);
`resids` are the 64-bit words of the array read as doubles; `none`: undefined behaviour (read or write outside an array) -/
def garchExt (params resids : List XR) (backcast : XR) (bounds : List XR) : Option (List XR) :=
  match params with
  | omega :: alpha :: beta :: _ =>                                               -- garch.hpp 36-38
    if resids = [] then none
    else do
      let s := omega + (alpha + beta) * backcast
      let rest ← cLoop (garchNext ⟨omega, alpha, beta⟩) bounds 1 s resids.dropLast
      return s :: rest
  | _ => none

/-- `ext.compute_gjrgarch_variance` -/
def gjrExt (params resids : List XR) (backcast : XR) (bounds : List XR) : Option (List XR) :=
  match params with
  | omega :: alpha :: gamma :: beta :: _ =>                                      -- garch.hpp 53-56
    if resids = [] then none
    else do
      let s := omega + (alpha + gamma / 2 + beta) * backcast
      let rest ← cLoop (gjrNextCpp ⟨omega, alpha, gamma, beta⟩) bounds 1 s resids.dropLast
      return s :: rest
  | _ => none

/-- the double with the same 64 bits as an int64 (IEEE 754 binary64: sign, 11 bits of exponent, 52 bits of fraction) -/
def reinterpret (z : ℤ) : XR :=
  let w : ℤ := z % 2 ^ 64
  let sign : ℝ := if w < 2 ^ 63 then 1 else -1
  let e : ℤ := w / 2 ^ 52 % 2 ^ 11
  let f : ℤ := w % 2 ^ 52
  if e = 2047 then (if f = 0 then (if w < 2 ^ 63 then .pinf else .ninf) else .nan)
  else if e = 0 then .fin (sign * f * 2 ^ (-1074 : ℤ))
  else .fin (sign * (2 ^ 52 + f) * 2 ^ (e - 1075))

end
end Frds.Model.KernelCalls

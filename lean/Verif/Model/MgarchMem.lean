import Verif.Model.GarchMem
import Verif.Model.Mgarch

/-! Memory-level model of the two C++ kernels that go through `PyArray_GETPTR1` / `PyArray_GETPTR2`:
`src/frds/algorithms/utils/mgarch.hpp` (called from `utils_module.cpp` lines 158-181) and
`src/frds/measures/lrmes.hpp` (called from `measures_module.cpp` lines 22-46). These macros use the strides of the
array. All arrays hold doubles (the callers only pass float64 arrays); the conversion of the length to `int` and
memory exhaustion are not modelled. -/
namespace Frds.Model
noncomputable section
open Frds Classical

/-- a `std::vector<double>` filled by `for (int t = 0; t < T; ++t) v[t] = f(t)` -/
def cFill (f : ℕ → XR) (T : ℕ) : List XR := (List.range T).map f

/-- `for (int t = 0; t < T; ++t) acc += f(t)`, starting from 0 -/
def cSum (f : ℕ → XR) (T : ℕ) : XR := (List.range T).foldl (fun acc t => acc + f t) 0

/-- `mgarch.hpp` lines 51-59: the loop from `t` on, `n` steps; `q` holds the entries `t - 1` of the three vectors -/
def cDccLoop (a b : XR) (qbar : QMat) (z1 z2 : ℕ → XR) : ℕ → ℕ → QMat → List XR
  | 0, _, _ => []
  | n + 1, t, q =>
    let q11 := (1 - a - b) * qbar.q11 + a * XR.sq (z1 (t - 1)) + b * q.q11  -- 52-53
    let q22 := (1 - a - b) * qbar.q22 + a * XR.sq (z2 (t - 1)) + b * q.q22  -- 54-55
    let q12 := (1 - a - b) * qbar.q12 + a * z1 (t - 1) * z2 (t - 1) + b * q.q12   -- 56-57
    (q12 / XR.sqrt (q11 * q22)) :: cDccLoop a b qbar z1 z2 n (t + 1) ⟨q11, q22, q12⟩   -- 58

/-- `mgarch.hpp` lines 10-61, `DCC::conditional_correlations`. `none`: the code reads or writes outside an array
(one of the other arrays is shorter than the first, or the first is empty). -/
def extDcc (a b : XR) (resids1 resids2 sigma2_1 sigma2_2 : Strided) : Option (List XR) :=
  let T := resids1.len                                                      -- 15
  if T = 0 ∨ resids2.len < T ∨ sigma2_1.len < T ∨ sigma2_2.len < T then none
  else
    let z1 := cFill (fun t => resids1.get t / XR.sqrt (sigma2_1.get t)) T   -- 22-23
    let z2 := cFill (fun t => resids2.get t / XR.sqrt (sigma2_2.get t)) T   -- 24-25
    let at1 := fun t => z1.getD t .nan
    let at2 := fun t => z2.getD t .nan
    let qbar : QMat := ⟨cSum (fun t => at1 t * at1 t) T / .fin T,           -- 32, 36
      cSum (fun t => at2 t * at2 t) T / .fin T,                             -- 34, 38
      cSum (fun t => at1 t * at2 t) T / .fin T⟩                             -- 33, 37
    some ((qbar.q12 / XR.sqrt (qbar.q11 * qbar.q22)) :: cDccLoop a b qbar at1 at2 (T - 1) 1 qbar)   -- 48-61

/-- `lrmes.hpp` lines 42-79: the loop from `h` on, `n` steps; returns the pairs `(firm_return, mkt_return)` -/
def cSimLoop (x : SimArgs) (firm mkt : ℕ → XR) : ℕ → ℕ → SimState → List (XR × XR)
  | 0, _, _ => []
  | n + 1, h, s =>
    let varI := x.pi.omega + x.pi.alpha * XR.sq s.residI + x.pi.beta * s.varI           -- 44-45
    let varI := if s.residI < 0 then varI + x.pi.gamma * XR.sq s.residI else varI        -- 46-48
    let varM := x.pm.omega + x.pm.alpha * XR.sq s.residM + x.pm.beta * s.varM           -- 50-51
    let varM := if s.residM < 0 then varM + x.pm.gamma * XR.sq s.residM else varM        -- 52-54
    let qi := (1 - x.a - x.b) * x.q00 + x.a * s.innovI * s.innovI + x.b * s.qi           -- 56
    let qm := (1 - x.a - x.b) * x.q11 + x.a * s.innovM * s.innovM + x.b * s.qm           -- 57
    let qim := (1 - x.a - x.b) * x.q10 + x.a * s.innovI * s.innovM + x.b * s.qim         -- 58-59
    let rho := qim / XR.sqrt (qi * qm)                                                   -- 60
    let epsM := XR.sqrt varM * mkt h                                                     -- 63, 65
    let epsI := XR.sqrt varI * (rho * mkt h + XR.sqrt (1 - XR.sq rho) * firm h)          -- 62, 66-68
    (x.pi.mu + epsI, x.pm.mu + epsM) ::                                                  -- 70-71
      cSimLoop x firm mkt n (h + 1) ⟨epsI, epsM, varI, varM, epsI / XR.sqrt varI, mkt h, qi, qm, qim⟩   -- 73-78

/-- `ext.simulation`, arguments in the order of `measures_module.cpp` lines 30-35 / `lrmes.hpp` lines 10-14 -/
def extSimulation (innovation : Strided2) (C firm_var mkt_var firm_resid mkt_resid a b rho : XR) (Q_bar : Strided2)
    (mu_i omega_i alpha_i gamma_i beta_i mu_m omega_m alpha_m gamma_m beta_m : XR) : XR × Bool :=
  let q_i_bar := (Q_bar.row 0).1                                            -- 16
  let q_m_bar := (Q_bar.row 1).2                                            -- 17
  let q_im_bar := (Q_bar.row 1).1                                           -- 18
  let x : SimArgs := { C := C, firmVar := firm_var, mktVar := mkt_var, firmResid := firm_resid,
                       mktResid := mkt_resid, a := a, b := b, rho := rho, q00 := q_i_bar, q11 := q_m_bar,
                       q10 := q_im_bar, pi := ⟨mu_i, omega_i, alpha_i, gamma_i, beta_i⟩,
                       pm := ⟨mu_m, omega_m, alpha_m, gamma_m, beta_m⟩ }
  let rets := cSimLoop x (fun h => (innovation.row h).1) (fun h => (innovation.row h).2) innovation.rows 0
    ⟨firm_resid, mkt_resid, firm_var, mkt_var, firm_resid / XR.sqrt firm_var, mkt_resid / XR.sqrt mkt_var,
      1, 1, rho⟩                                                            -- 21, 32-39
  let mkt := rets.map fun r => r.2 / 100                                    -- 82-84
  let firm := rets.map fun r => r.1 / 100                                   -- 85-87
  let mkt_sum := mkt.foldl (· + ·) 0                                        -- 90-93
  if ¬ (XR.exp mkt_sum - 1 < C) then (0, false)                             -- 94-98
  else (XR.exp (firm.foldl (· + ·) 0) - 1, true)                            -- 101-107

/-- `_long_run_mes.py` lines 94-116: the call of the extension in `estimate` -/
def callSimulation (x : SimArgs) (inv Q_bar : Strided2) : XR × Bool :=
  extSimulation inv x.C x.firmVar x.mktVar x.firmResid x.mktResid x.a x.b x.rho Q_bar
    x.pi.mu x.pi.omega x.pi.alpha x.pi.gamma x.pi.beta x.pm.mu x.pm.omega x.pm.alpha x.pm.gamma x.pm.beta

end
end Frds.Model

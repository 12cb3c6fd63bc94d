import Verif.Basic.Np
import Verif.Model.Lrmes

/-! Model of `src/frds/measures/_srisk.py`. -/
namespace Frds.Model
noncomputable section
open Frds Classical

/-- A NumPy array of any rank: its shape and its entries by multi-index. -/
structure Nd where
  shape : List ℕ
  at_ : List ℕ → XR

/-- contents of a 1-D array -/
def Nd.vec (x : Nd) : List XR := (List.range (x.shape.headD 0)).map fun t => x.at_ [t]
/-- `x[:, i]` of a 2-D array -/
def Nd.column (x : Nd) (i : ℕ) : List XR := (List.range (x.shape.headD 0)).map fun t => x.at_ [t, i]

/-- Argument `W` or `D`: a float (`np.float64` is a subclass of `float`, hence accepted by
`isinstance(_, float)`), an array, or any other object. -/
inductive Money where
  | float (x : PyFloat)
  | nd (x : Nd)
  | other

/-- fields set by the constructor (`_srisk.py` lines 49-54) -/
structure SriskObj where
  firm : Nd
  market : Nd
  W : Money
  D : Money
  nFirms : ℕ
  nDays : ℕ

/-- `_srisk.py` lines 34-54, the constructor. -/
def sriskCtor (firm market : Nd) (W D : Money) : Except PyErr SriskObj :=
  if firm.shape.length = 1 then                                                    -- 34
    if firm.shape ≠ market.shape then .error .assertionError                       -- 38
    else match D, W with
      | .float _, .float _ => .ok ⟨firm, market, W, D, 1, firm.shape.headD 0⟩      -- 39
      | _, _ => .error .assertionError
  else match firm.shape with
    | [nDays, nFirms] =>                                                           -- 42
      if ¬ 1 < nFirms then .error .assertionError                                  -- 43
      else match market.shape with
        | [] => .error .indexError                                                 -- 44, `shape[0]`
        | m :: _ =>
          if m ≠ nDays then .error .assertionError                                 -- 44
          else match D, W with
            | .nd d, .nd w =>                                                      -- 45
              if d.shape ≠ w.shape then .error .assertionError                     -- 46
              else if d.shape ≠ [nFirms] then .error .assertionError               -- 47
              else .ok ⟨firm, market, W, D, nFirms, nDays⟩
            | _, _ => .error .assertionError
    | _ => .error .valueError                                                      -- 42, unpacking

/-- the LRMES estimator called on one firm's and the market's returns (modelled in `Model/Lrmes`;
here any function of its arguments): `(firm, market, h, S, C, seed)` -/
abbrev LrmesFn := List XR → List XR → ℕ → ℕ → XR → ℕ → Except PyErr PyFloat

/-- LRMES options of `estimate` (`_srisk.py` lines 57-65) -/
structure LrmesOpts where
  h : ℕ := 22
  S : ℕ := 10000
  C : XR := .fin (-(1 / 10))
  seed : ℕ := 42

/-- the LRMES constructor asserts equal shapes (`_long_run_mes.py` line 30), then `estimate` -/
def runLrmes (L : LrmesFn) (o : LrmesOpts) (firm : List XR) (market : Nd) : Except PyErr PyFloat :=
  if market.shape ≠ [firm.length] then .error .assertionError
  else L firm market.vec o.h o.S o.C o.seed

/-- `_srisk.py` lines 92-93 in NumPy arithmetic -/
def sriskFormula (k W D l : XR) : XR := W * (k * ((D + W) / W) + (1 - k) * l - 1)

inductive SriskOut where
  | scalar (x : PyFloat)
  | array (x : List XR)

/-- `_srisk.py` lines 57-97, `estimate`. `k` is a float. -/
def sriskEstimate (L : LrmesFn) (s : SriskObj) (k : PyFloat) (o : LrmesOpts) (aggregate : Bool) :
    Except PyErr SriskOut := do
  if s.nFirms = 1 then
    let l ← runLrmes L o s.firm.vec s.market                                       -- 81-83
    match s.W, s.D with
    | .float W, .float D =>
      if ¬ (W.isNumpy ∨ D.isNumpy) ∧ W.val = 0 then .error .zeroDivisionError      -- 92
      else
        let r : PyFloat := ⟨sriskFormula k.val W.val D.val l.val,
          W.isNumpy || D.isNumpy || k.isNumpy || l.isNumpy⟩                        -- 92-93
        if ¬ aggregate then .ok (.scalar r)                                        -- 94-95
        else if ¬ r.isNumpy then .error .attributeError                            -- 97, `float.clip`
        else .ok (.scalar ⟨XR.npMax r.val 0, true⟩)
    | _, _ => .error .typeError
  else
    let ls ← (List.range s.nFirms).mapM fun i => runLrmes L o (s.firm.column i) s.market   -- 85-90
    match s.W, s.D with
    | .nd W, .nd D =>
      let r := List.zipWith (fun (wd : XR × XR) (l : PyFloat) => sriskFormula k.val wd.1 wd.2 l.val)
        (List.zip W.vec D.vec) ls                                                  -- 92-93
      if ¬ aggregate then .ok (.array r)
      else .ok (.scalar ⟨(r.map fun x => XR.npMax x 0).sum, true⟩)                 -- 97
    | _, _ => .error .typeError

end
end Frds.Model

import Verif.Model.Conc

/-! Several threads calling `PIN.estimate` of one object: `src/frds/measures/_probability_of_informed_trading.py` lines 14-103.
The `Parameters` objects are mutable and are returned to the callers, so they are modelled as objects in a heap. -/
namespace Frds.Model.Conc
noncomputable section
open Frds Frds.Model Classical Prog

/-- the `PIN` object and the `Parameters` objects; `cur` is the object `self.parameters` refers to -/
structure PinHeap where
  B : List XR
  S : List XR
  success : Bool
  objs : List PinParams
  cur : ℕ

/-- `self.parameters = Parameters(...)`: a new object (creating it is not visible to other threads) -/
def PinHeap.assign (p : PinParams) (h : PinHeap) : PinHeap := { h with objs := h.objs ++ [p], cur := h.objs.length }

/-- the contents of an object -/
def PinHeap.obj (h : PinHeap) (r : ℕ) : PinParams := h.objs.getD r {}

/-- writing an attribute of an object -/
def PinHeap.modify (r : ℕ) (f : PinParams → PinParams) (h : PinHeap) : PinHeap := { h with objs := h.objs.modify r f }

/-- lines 96-102 for one start: the optimiser's result `r` has been computed from `self.B` and `self.S` alone -/
def acceptProg (method : String) (r : OptRes) : Prog PinHeap Unit :=
  if r.success then do                                                             -- 96
    let h ← get
    let ll := (h.obj h.cur).loglikelihood                                          -- 97
    if ll.isNan ∨ (-r.f < .pinf ∧ ll < -r.f) then                                  -- 98
      put (PinHeap.assign { x := r.x, loglikelihood := -r.f })                     -- 99
      let h ← get                                                                  -- 100: `self.parameters`, its fields
      put (PinHeap.modify h.cur fun p => { p with pin := calculatePin (h.obj h.cur).x })   -- 100, 25-31
      let h ← get                                                                  -- 101: `self.parameters`
      put (PinHeap.modify h.cur fun p => { p with method := method })              -- 101
      put fun h => { h with success := true }                                      -- 102
    else return ()
  else return ()

/-- lines 88-102: the loop over the starting values -/
def startsProg (method : String) (mini : PinVec → OptRes) : List PinVec → Prog PinHeap Unit
  | [] => return ()
  | s :: l => bind' (acceptProg method (mini s)) fun _ => startsProg method mini l

/-- lines 49-103, `estimate`; the returned value is a reference -/
def pinProg (mini : PinMinimizer) (method : String) : Prog PinHeap ℕ :=
  if method ≠ "EHO2010" ∧ method ≠ "LK2011" then lift (.error .valueError)         -- 61-62
  else do
    put (PinHeap.assign {})                                                        -- 75
    let h ← get                                                                    -- `self.B`, `self.S`
    let func := if method = "EHO2010" then eho2010 h.B h.S else lk2011 h.B h.S     -- 76-79
    startsProg method (mini pinBounds func) (pinStarts h.B h.S)                    -- 88-102
    let h ← get
    return h.cur                                                                   -- 103

/-- the object as seen by a caller that follows the reference -/
def PinHeap.view (h : PinHeap) : PinObj := ⟨h.B, h.S, h.success, h.obj h.cur⟩

end
end Frds.Model.Conc

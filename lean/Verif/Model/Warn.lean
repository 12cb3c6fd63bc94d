import Verif.Model.Conc

/-! The process-wide list of warning filters, which estimation methods change: `src/frds/algorithms/_garch.py` lines 80-85 and
380-385, `src/frds/algorithms/_mgarch.py` lines 101-106 and 277-282, `src/frds/measures/_probability_of_informed_trading.py`
lines 82-87, `src/frds/measures/modified_merton/mod_merton_simulation.py` lines 122 and 143; and Python's
`warnings.filterwarnings`, `warnings.catch_warnings`. -/
namespace Frds.Model.Conc
noncomputable section
open Frds Frds.Model Classical Prog

/-- an entry `(action, message, category, module, lineno)` of `warnings.filters`; `none` for no pattern -/
structure WFilter where
  action : String
  message : Option String
  category : String
  module_ : Option String
  lineno : ℕ

/-- a warning that is being issued -/
structure Warn where
  text : String
  category : String
  module_ : String
  lineno : ℕ

/-- Python's regular expressions (`rx pattern text`) and class hierarchy (`sub c d`: `issubclass(c, d)`) -/
structure WMatch where
  rx : String → String → Prop
  sub : String → String → Prop

/-- `warnings.warn_explicit`: the test of one filter -/
def WFilter.hits (M : WMatch) (f : WFilter) (w : Warn) : Prop :=
  (∀ p, f.message = some p → M.rx p w.text) ∧ M.sub w.category f.category ∧ (∀ p, f.module_ = some p → M.rx p w.module_) ∧
    (f.lineno = 0 ∨ f.lineno = w.lineno)

/-- `warnings.warn_explicit`: the first filter that applies decides; `warnings.defaultaction` otherwise -/
def actionFor (M : WMatch) (l : List WFilter) (w : Warn) : String :=
  match l.find? fun f => f.hits M w with
  | some f => f.action
  | none => "default"

/-- list objects, and the one `warnings.filters` refers to -/
structure WState where
  lists : List (List WFilter)
  cur : ℕ

/-- the contents of a list object -/
def WState.list (s : WState) (r : ℕ) : List WFilter := s.lists.getD r []

/-- the filters in force -/
def WState.filters (s : WState) : List WFilter := s.list s.cur

/-- an in-place change of a list object -/
def WState.change (r : ℕ) (f : List WFilter → List WFilter) (s : WState) : WState := { s with lists := s.lists.modify r f }

/-- `warnings.filters = <a new list>` -/
def WState.install (l : List WFilter) (s : WState) : WState := { lists := s.lists ++ [l], cur := s.lists.length }

/-- `warnings.filterwarnings`: `filters.remove(item)` if present, then `filters.insert(0, item)` -/
def filterWarnings (item : WFilter) : Prog WState Unit := do
  let s ← get
  put (WState.change s.cur fun l => l.erase item)
  let s ← get
  put (WState.change s.cur fun l => item :: l)

/-- run `k` whether or not `m` raises -/
def finally' {S A : Type} : Prog S A → Prog S Unit → Prog S A
  | .done r, k => bind' k fun _ => .done r
  | .read f, k => .read fun s => finally' (f s) k
  | .write f m, k => .write f (finally' m k)

/-- `with warnings.catch_warnings(): warnings.filterwarnings(item); body` -/
def guarded {A : Type} (item : WFilter) (body : Prog WState A) : Prog WState A := do
  let s ← get                                        -- `self._filters = self._module.filters`
  let saved := s.cur
  let s ← get                                        -- `self._filters[:]`
  put (WState.install (s.list saved))                -- `self._module.filters = ...`
  finally' (bind' (filterWarnings item) fun _ => body) (put fun s => { s with cur := saved })   -- `__exit__`

/-- `_garch.py` lines 81-85, 381-385, `_mgarch.py` lines 102-106, 278-282 -/
def boundsItem : WFilter := ⟨"ignore", some "Values in x were outside bounds during a minimize step", "RuntimeWarning", none, 0⟩

/-- `_probability_of_informed_trading.py` lines 83-87, `mod_merton_simulation.py` line 122: the empty message is no pattern -/
def runtimeItem : WFilter := ⟨"ignore", none, "RuntimeWarning", none, 0⟩

/-- `mod_merton_simulation.py` line 143: `filterwarnings("default")` -/
def defaultItem : WFilter := ⟨"default", none, "Warning", none, 0⟩

/-- `GARCHModel.fit` and `GJRGARCHModel.fit` (`_garch.py` lines 51-100, 356-406): preparation, then the optimisation. The numerical
work is a parameter: it does not touch the filters, but a filter with the action "error" may make it raise, so it may read
them. -/
def uniWarn {A : Type} (prep : Prog WState Unit) (opt : Prog WState A) : Prog WState A :=
  bind' prep fun _ => guarded boundsItem opt

/-- `GARCHModel_CCC.fit`, `GARCHModel_DCC.fit` (`_mgarch.py` lines 57-120, 250-296) -/
def multiWarn {A : Type} (fit1 fit2 : Prog WState Unit) (prep : Prog WState Unit) (opt : Prog WState A) : Prog WState A :=
  bind' fit1 fun _ => bind' fit2 fun _ => bind' prep fun _ => guarded boundsItem opt

/-- `PIN.estimate` (lines 49-103) -/
def pinWarn {A : Type} (prep : Prog WState Unit) (opt : Prog WState A) : Prog WState A :=
  bind' prep fun _ => guarded runtimeItem opt

/-- `mod_merton_simulation.simulate` (lines 21-391): before line 122, the loop of lines 125-141, after line 143 -/
def simWarn {A B C : Type} (before : Prog WState A) (loop : A → Prog WState B) (after : A → B → Prog WState C) : Prog WState C := do
  let a ← before
  filterWarnings runtimeItem                          -- 122
  let b ← loop a                                      -- 125-141
  filterWarnings defaultItem                          -- 143
  after a b

end
end Frds.Model.Conc

import Mathlib.Data.List.Basic
import Mathlib.Logic.Function.Basic
import Mathlib.Tactic.Common

/-! Model of `src/frds/datasets/_stocks.py`. -/
namespace Frds.Model

/-! ### sequential use -/

/-- Process state: `SingletonMeta._instances[_StockReturns]`, the instance attribute `_stocks_us`
(absent = the class attribute `None`), the data frames allocated so far (their contents, abstracted
to a type `α`), and how many objects of each kind were created. -/
structure StockState (α : Type) where
  instances : Option ℕ
  nInst : ℕ
  attr : ℕ → Option ℕ
  frames : List α

/-- module import before line 44 -/
def StockState.init (α : Type) : StockState α := ⟨none, 0, fun _ => none, []⟩

/-- lines 11-15, `SingletonMeta.__call__` -/
def construct {α} (s : StockState α) : StockState α × ℕ :=
  match s.instances with
  | some i => (s, i)                                                              -- 15
  | none => ({ s with instances := some s.nInst, nInst := s.nInst + 1 }, s.nInst) -- 12-15

/-- lines 24-41, `stocks_us` on instance `i`; `csv` is what `pd.read_csv` gives (`none`: it raises).
Returns the frame's identity. -/
def stocksUs {α} (s : StockState α) (i : ℕ) (csv : Option α) : StockState α × Option ℕ :=
  match s.attr i with
  | some d => (s, some d)                                                         -- 41
  | none => match csv with
    | none => (s, none)                                                           -- exception
    | some c => ({ s with frames := s.frames ++ [c],
                          attr := Function.update s.attr i (some s.frames.length) },
                  some s.frames.length)                                           -- 39-41

/-- what user code does: call the class, read the property of an instance it holds, or mutate a
frame it holds in place -/
inductive StockOp (α : Type) where
  | construct
  | read (i : ℕ) (csv : Option α)
  | mutate (d : ℕ) (f : α → α)

/-- one user operation, with the identity it returned (if any) -/
def stockStep {α} (s : StockState α) : StockOp α → StockState α × Option ℕ
  | .construct => ((construct s).1, some (construct s).2)
  | .read i csv => stocksUs s i csv
  | .mutate d f => ({ s with frames := s.frames.modify d f }, none)

/-- run a history, collecting the results -/
def stockRun {α} : StockState α → List (StockOp α) → StockState α × List (Option ℕ)
  | s, [] => (s, [])
  | s, op :: t => ((stockRun (stockStep s op).1 t).1, (stockStep s op).2 :: (stockRun (stockStep s op).1 t).2)

/-- line 44: the module-level instance -/
def afterImport (α : Type) : StockState α := (construct (StockState.init α)).1

/-! ### concurrent use

Both `SingletonMeta.__call__` (lines 12-15) and `stocks_us` (lines 38-41) are check-then-act on one
shared cell: test it, create a new object if it was empty, store it, read the cell back and return.
Each of these four actions is atomic under the GIL, the sequence is not. -/

/-- where a thread is -/
inductive Pc where
  | start                    -- before the test
  | create                   -- saw an empty cell
  | store (x : ℕ)            -- holds a new object
  | load                     -- before the final read
  | done (x : Option ℕ)      -- returned what it read
  deriving DecidableEq

/-- shared cell, number of objects created so far, and the threads -/
structure CellState where
  cell : Option ℕ
  fresh : ℕ
  pc : ℕ → Pc

/-- thread `t` makes one atomic step -/
def cellStep (s : CellState) (t : ℕ) : CellState :=
  match s.pc t with
  | .start => { s with pc := Function.update s.pc t (if s.cell.isSome then .load else .create) }   -- 12 / 38
  | .create => { s with fresh := s.fresh + 1, pc := Function.update s.pc t (.store s.fresh) }      -- 13 / 39
  | .store x => { s with cell := some x, pc := Function.update s.pc t .load }                      -- 14 / 39
  | .load => { s with pc := Function.update s.pc t (.done s.cell) }                                -- 15 / 41
  | .done _ => s

/-- an interleaving: which thread moves at each instant -/
def cellRun (s : CellState) (sched : List ℕ) : CellState := sched.foldl cellStep s

/-- all threads about to call, with the given cell contents -/
def cellInit (c : Option ℕ) (fresh : ℕ) : CellState := ⟨c, fresh, fun _ => .start⟩

end Frds.Model

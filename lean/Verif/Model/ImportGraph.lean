import Mathlib.Data.List.Basic
import Mathlib.Logic.Function.Basic
import Mathlib.Tactic.Common

/-! Model of `import` of the modules of `src/frds`: the import statements at the top of every module, and the
part of Python's import system they use (`sys.modules`, parents first, removal of a module whose body
raised, `from m import n` on partially initialised modules). Imports of third-party packages (numpy, scipy,
pandas, matplotlib) and of the standard library are taken to succeed and are left out. -/
namespace Frds.Model.Imports

/-- the modules of the package, the three compiled extensions, and the module name `frds.measures.option_price`
that some of them ask for -/
inductive Mod where
  | frds
  | algorithms | garch | mgarch | iforest | iforestExt | utils | utilsExt
  | datasets | stocks
  | measures | absorption | cca | dip | lerner | lrmes | mes | pin | srisk | ses | kyle | optionPricePriv | zScore
  | lobSlope | priceImpact | spread | measuresExt | optionPrice
  | merton | fftsmooth | findFace | loanPayoff | mertonSolution | mmComputation | mmLookup | mmSimulation
  | scComputation | scSolution | smLookup
  deriving DecidableEq, Repr

/-- names bound in module namespaces, as far as other modules or `__all__` use them -/
inductive Sym where
  | GARCHModel | GJRGARCHModel | GARCHModel_CCC | GARCHModel_DCC | GJRGARCHModel_DCC
  | StockReturns
  | AbsorptionRatio | ContingentClaimAnalysis | DistressInsurancePremium | LernerIndex
  | LongRunMarginalExpectedShortfall | LRMES | MarginalExpectedShortfall | PIN | SRISK | SystemicExpectedShortfall
  | kyle_lambda | blsprice | z_score
  | anomaly_scores
  | fftsmooth | loan_payoff | find_face_value_indiv | merton_solution | mod_merton_computation
  | mod_merton_create_lookup | mod_single_cohort_computation | mod_single_cohort_solution
  | mod_single_merton_create_lookup | simulate
  deriving DecidableEq, Repr

/-- what `from m import n` may name: an attribute or a submodule -/
inductive Name where
  | sym (s : Sym)
  | sub (m : Mod)

/-- a top-level statement: an import (`guarded`: inside `try: ... except ImportError`), or definitions -/
inductive Stmt where
  | imp (guarded : Bool) (m : Mod) (names : List Name)
  | defs (l : List Sym)

/-- the package a module belongs to (directory structure of `src/frds`) -/
def parent : Mod → Option Mod
  | .frds => none
  | .algorithms | .datasets | .measures => some .frds
  | .garch | .mgarch | .iforest | .utils => some .algorithms
  | .iforestExt => some .iforest
  | .utilsExt => some .utils
  | .stocks => some .datasets
  | .absorption | .cca | .dip | .lerner | .lrmes | .mes | .pin | .srisk | .ses | .kyle | .optionPricePriv
  | .zScore | .lobSlope | .priceImpact | .spread | .measuresExt | .optionPrice | .merton => some .measures
  | .fftsmooth | .findFace | .loanPayoff | .mertonSolution | .mmComputation | .mmLookup | .mmSimulation
  | .scComputation | .scSolution | .smLookup => some .merton

/-- which compiled extensions were built (`setup.py` lines 14-46) -/
structure Env where
  utilsExt : Bool
  measuresExt : Bool
  iforestExt : Bool

/-- is there a file for the module? `src/frds/measures/option_price.py` does not exist (the file is
`_option_price.py`) -/
def present (env : Env) : Mod → Bool
  | .utilsExt => env.utilsExt
  | .measuresExt => env.measuresExt
  | .iforestExt => env.iforestExt
  | .optionPrice => false
  | _ => true

/-- unguarded `from m import s` -/
def fromSym (m : Mod) (s : List Sym) : Stmt := .imp false m (s.map .sym)

/-- top-level statements of each module. Files and lines: `algorithms/__init__.py` 1-2, `_garch.py` 9-12 and
15-338, `_mgarch.py` 8-15, `isolation_forest/__init__.py` 6-9, `datasets/__init__.py` 7, `_stocks.py` 44,
`measures/__init__.py` 6-20, `_long_run_mes.py` 3-12, `_srisk.py` 4-7, `modified_merton/*.py` first lines.
The remaining modules import nothing from the package. -/
def body : Mod → List Stmt
  | .algorithms => [fromSym .garch [.GARCHModel, .GJRGARCHModel],
      fromSym .mgarch [.GARCHModel_CCC, .GARCHModel_DCC, .GJRGARCHModel_DCC]]
  | .garch => [.imp true .utilsExt [], .defs [.GARCHModel, .GJRGARCHModel]]
  | .mgarch => [fromSym .algorithms [.GARCHModel, .GJRGARCHModel], .imp true .utilsExt [],
      .defs [.GARCHModel_CCC, .GARCHModel_DCC, .GJRGARCHModel_DCC]]
  | .iforest => [.imp false .iforestExt [], .defs [.anomaly_scores]]
  | .datasets => [fromSym .stocks [.StockReturns]]
  | .stocks => [.defs [.StockReturns]]
  | .measures => [fromSym .absorption [.AbsorptionRatio], fromSym .cca [.ContingentClaimAnalysis],
      fromSym .dip [.DistressInsurancePremium], fromSym .lerner [.LernerIndex],
      fromSym .lrmes [.LongRunMarginalExpectedShortfall], fromSym .mes [.MarginalExpectedShortfall],
      fromSym .pin [.PIN], fromSym .srisk [.SRISK], fromSym .ses [.SystemicExpectedShortfall],
      fromSym .kyle [.kyle_lambda], fromSym .optionPricePriv [.blsprice], fromSym .zScore [.z_score],
      .defs [.LRMES]]
  | .absorption => [.defs [.AbsorptionRatio]]
  | .cca => [.defs [.ContingentClaimAnalysis]]
  | .dip => [.defs [.DistressInsurancePremium]]
  | .lerner => [.defs [.LernerIndex]]
  | .lrmes => [fromSym .algorithms [.GJRGARCHModel, .GJRGARCHModel_DCC], .imp true .measures [.sub .measuresExt],
      .defs [.LongRunMarginalExpectedShortfall]]
  | .mes => [.defs [.MarginalExpectedShortfall]]
  | .pin => [.defs [.PIN]]
  | .srisk => [fromSym .measures [.LongRunMarginalExpectedShortfall], .defs [.SRISK]]
  | .ses => [.defs [.SystemicExpectedShortfall]]
  | .kyle => [.defs [.kyle_lambda]]
  | .optionPricePriv => [.defs [.blsprice]]
  | .zScore => [.defs [.z_score]]
  | .fftsmooth => [.defs [.fftsmooth]]
  | .loanPayoff => [.defs [.loan_payoff]]
  | .findFace => [fromSym .optionPrice [.blsprice], .defs [.find_face_value_indiv]]
  | .mertonSolution => [fromSym .optionPrice [.blsprice], .defs [.merton_solution]]
  | .mmComputation => [fromSym .fftsmooth [.fftsmooth], fromSym .loanPayoff [.loan_payoff],
      fromSym .findFace [.find_face_value_indiv], .defs [.mod_merton_computation]]
  | .mmLookup => [fromSym .mmComputation [.mod_merton_computation], .defs [.mod_merton_create_lookup]]
  | .mmSimulation => [fromSym .optionPrice [.blsprice], fromSym .mertonSolution [.merton_solution],
      fromSym .mmComputation [.mod_merton_computation], fromSym .mmLookup [.mod_merton_create_lookup],
      fromSym .smLookup [.mod_single_merton_create_lookup], .defs [.simulate]]
  | .scComputation => [fromSym .fftsmooth [.fftsmooth], fromSym .loanPayoff [.loan_payoff],
      fromSym .findFace [.find_face_value_indiv], .defs [.mod_single_cohort_computation]]
  | .scSolution => [fromSym .scComputation [.mod_single_cohort_computation], .defs [.mod_single_cohort_solution]]
  | .smLookup => [fromSym .scComputation [.mod_single_cohort_computation], .defs [.mod_single_merton_create_lookup]]
  | _ => []

/-- `sys.modules`: absent, or present with the number of top-level statements executed so far -/
abbrev SysModules := Mod → Option ℕ

def SysModules.set (st : SysModules) (m : Mod) (v : Option ℕ) : SysModules := fun m' => if m' = m then v else st m'

/-- symbols bound by a statement -/
def Stmt.binds : Stmt → List Sym
  | .imp _ _ ns => ns.filterMap fun n => match n with | .sym s => some s | .sub _ => none
  | .defs l => l

/-- symbols bound in the namespace of `m` now -/
def bound (st : SysModules) (m : Mod) : List Sym :=
  match st m with
  | none => []
  | some k => ((body m).take k).flatMap Stmt.binds

/-- what an import can raise; `deep` is not a Python error: the recursion bound of the model was hit -/
inductive ImpErr where
  | moduleNotFound
  | importError
  | deep
  deriving DecidableEq, Repr

abbrev Res := SysModules × Option ImpErr

/-- `from m import n1, n2, ...` after `m` itself was imported: an attribute, or else the submodule is imported
(`importlib._bootstrap._handle_fromlist`: its absence is swallowed), or else `ImportError` -/
def bindNames (env : Env) (imp : SysModules → Mod → Res) (m : Mod) : List Name → SysModules → Res
  | [], st => (st, none)
  | .sym s :: t, st => if s ∈ bound st m then bindNames env imp m t st else (st, some .importError)
  | .sub c :: t, st =>
    if (st c).isSome then bindNames env imp m t st
    else match imp st c with
      | (st1, none) => bindNames env imp m t st1
      | (st1, some e) => (st1, some (if present env c then e else .importError))

/-- one top-level statement -/
def execStmt (env : Env) (imp : SysModules → Mod → Res) : Stmt → SysModules → Res
  | .defs _, st => (st, none)
  | .imp g m ns, st =>
    match imp st m with
    | (st1, none) => match bindNames env imp m ns st1 with
      | (st2, some .importError) => (st2, if g then none else some .importError)
      | (st2, some .moduleNotFound) => (st2, if g then none else some .moduleNotFound)
      | r => r
    | (st1, some .importError) => (st1, if g then none else some .importError)
    | (st1, some .moduleNotFound) => (st1, if g then none else some .moduleNotFound)
    | (st1, some .deep) => (st1, some .deep)

/-- the body of module `m`, counting executed statements -/
def execBody (env : Env) (imp : SysModules → Mod → Res) (m : Mod) : ℕ → List Stmt → SysModules → Res
  | _, [], st => (st, none)
  | k, s :: t, st =>
    match execStmt env imp s st with
    | (st1, none) => execBody env imp m (k + 1) t (st1.set m (some (k + 1)))
    | (st1, some e) => (st1, some e)

/-- `import m` (`importlib._bootstrap._find_and_load`); the first argument bounds the nesting depth -/
def importMod (env : Env) : ℕ → SysModules → Mod → Res
  | 0, st, _ => (st, some .deep)
  | n + 1, st, m =>
    if (st m).isSome then (st, none)
    else
      match (match parent m with | none => (st, none) | some p => importMod env n st p) with
      | (st1, some e) => (st1, some e)
      | (st1, none) =>
        if (st1 m).isSome then (st1, none)
        else if present env m = false then (st1, some .moduleNotFound)
        else match execBody env (importMod env n) m 0 (body m) (st1.set m (some 0)) with
          | (st2, none) => (st2, none)
          | (st2, some e) => (st2.set m none, some e)

/-- nesting depth allowed by the model (the theorems show it is never reached) -/
def depth : ℕ := 40

/-- a fresh interpreter -/
def noModules : SysModules := fun _ => none

/-- a sequence of `import` statements of a client who catches the exceptions -/
def importAll (env : Env) : SysModules → List Mod → SysModules × List (Option ImpErr)
  | st, [] => (st, [])
  | st, m :: t =>
    ((importAll env (importMod env depth st m).1 t).1,
      (importMod env depth st m).2 :: (importAll env (importMod env depth st m).1 t).2)

end Frds.Model.Imports

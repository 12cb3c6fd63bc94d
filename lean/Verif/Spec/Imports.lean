import Verif.Model.ImportGraph

/-! What it means for a module of the package to be unusable, read off the import statements. -/
namespace Frds.Spec.Imports
open Frds.Model.Imports

/-- a module cannot work if there is no file for it, if its package cannot work, or if it imports, outside
`try`/`except`, a module that cannot work -/
inductive Unusable (env : Env) : Mod → Prop where
  | missing {m} : present env m = false → Unusable env m
  | inPackage {m p} : parent m = some p → Unusable env p → Unusable env m
  | needs {m m' ns} : Stmt.imp false m' ns ∈ body m → Unusable env m' → Unusable env m

/-- all statements of the module were executed -/
def FullyLoaded (st : SysModules) (m : Mod) : Prop := st m = some (body m).length

/-- `frds.measures.__all__` (`measures/__init__.py` lines 22-39) -/
def measuresAll : List Sym :=
  [.AbsorptionRatio, .ContingentClaimAnalysis, .DistressInsurancePremium, .LernerIndex,
    .LongRunMarginalExpectedShortfall, .LRMES, .MarginalExpectedShortfall, .PIN, .SRISK,
    .SystemicExpectedShortfall, .blsprice, .kyle_lambda, .z_score]

/-- `frds.algorithms.__all__` -/
def algorithmsAll : List Sym :=
  [.GARCHModel, .GJRGARCHModel, .GARCHModel_CCC, .GARCHModel_DCC, .GJRGARCHModel_DCC]

end Frds.Spec.Imports

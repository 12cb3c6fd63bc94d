import Verif.Basic.Accuracy
import Verif.Basic.Float
import Verif.Basic.Gauss
import Verif.Basic.IntArr
import Verif.Basic.Lstsq
import Verif.Basic.LstsqCut
import Verif.Basic.Machine
import Verif.Basic.Np
import Verif.Basic.XR
import Verif.Lemmas.Absorption
import Verif.Lemmas.BlackScholes
import Verif.Lemmas.Cohort
import Verif.Lemmas.CohortVal
import Verif.Lemmas.Conc
import Verif.Lemmas.ConcGarch
import Verif.Lemmas.Crash
import Verif.Lemmas.Dip
import Verif.Lemmas.Eval64
import Verif.Lemmas.FftSmooth
import Verif.Lemmas.Garch
import Verif.Lemmas.GarchFin
import Verif.Lemmas.GarchFit
import Verif.Lemmas.HeapArr
import Verif.Lemmas.HeapGarch
import Verif.Lemmas.Imports
import Verif.Lemmas.LobSlope
import Verif.Lemmas.Lrmes
import Verif.Lemmas.LrmesFit
import Verif.Lemmas.Matlab
import Verif.Lemmas.Mes
import Verif.Lemmas.Mgarch
import Verif.Lemmas.Mills
import Verif.Lemmas.Pin
import Verif.Lemmas.RoundError
import Verif.Lemmas.RoundErrorLog
import Verif.Lemmas.RoundedDcc
import Verif.Lemmas.RoundedDip
import Verif.Lemmas.RoundedMes
import Verif.Lemmas.SmoothPos
import Verif.Lemmas.Spread
import Verif.Model.Absorption
import Verif.Model.BlsArr
import Verif.Model.CApi
import Verif.Model.Cca
import Verif.Model.CcaOverflow
import Verif.Model.Cohort
import Verif.Model.Conc
import Verif.Model.ConcDcc
import Verif.Model.ConcPin
import Verif.Model.Crash
import Verif.Model.DccAny
import Verif.Model.Dip
import Verif.Model.FftSmooth
import Verif.Model.Garch
import Verif.Model.GarchMem
import Verif.Model.HeapArr
import Verif.Model.HeapGarch
import Verif.Model.IForest
import Verif.Model.IForestInt
import Verif.Model.IForestPy
import Verif.Model.ImportGraph
import Verif.Model.KernelCalls
import Verif.Model.KyleLambda
import Verif.Model.LobSlope
import Verif.Model.Lookup
import Verif.Model.Lrmes
import Verif.Model.LrmesObj
import Verif.Model.Matlab
import Verif.Model.MatlabSim
import Verif.Model.Merton
import Verif.Model.Mes
import Verif.Model.Mgarch
import Verif.Model.MgarchMem
import Verif.Model.OptionPrice
import Verif.Model.Pin
import Verif.Model.Rounded
import Verif.Model.RoundedAbsorption
import Verif.Model.RoundedCcc
import Verif.Model.RoundedCorr
import Verif.Model.RoundedDcc
import Verif.Model.RoundedDccFit
import Verif.Model.RoundedForest
import Verif.Model.RoundedGjrDcc
import Verif.Model.RoundedLik
import Verif.Model.RoundedOption
import Verif.Model.RoundedPin
import Verif.Model.RoundedPrep
import Verif.Model.RoundedStart
import Verif.Model.RoundedTail
import Verif.Model.Ses
import Verif.Model.Shared
import Verif.Model.Simulation
import Verif.Model.Spread
import Verif.Model.Srisk
import Verif.Model.SriskRun
import Verif.Model.Stocks
import Verif.Model.Typed
import Verif.Model.Warn
import Verif.Props.Absorption
import Verif.Props.BlsArr
import Verif.Props.CApi
import Verif.Props.Cca
import Verif.Props.CcaResidual
import Verif.Props.CcaSolution
import Verif.Props.CccFloat
import Verif.Props.CccObj
import Verif.Props.Cohort
import Verif.Props.ConcAr
import Verif.Props.ConcDcc
import Verif.Props.ConcGarch
import Verif.Props.ConcGarchRace
import Verif.Props.ConcPin
import Verif.Props.ConcPinRace
import Verif.Props.CorrFloat
import Verif.Props.CorrZero
import Verif.Props.Crash
import Verif.Props.CrashDcc
import Verif.Props.CrashMulti
import Verif.Props.CrashPin
import Verif.Props.DccAny
import Verif.Props.DccFloat
import Verif.Props.DccLink
import Verif.Props.DccStartFloat
import Verif.Props.DccTotal
import Verif.Props.DccTwoStep
import Verif.Props.Dip
import Verif.Props.Feasible
import Verif.Props.FftSmooth
import Verif.Props.Garch
import Verif.Props.GarchFit
import Verif.Props.GarchMem
import Verif.Props.GjrDccFloat
import Verif.Props.HeapGarch
import Verif.Props.IForest
import Verif.Props.IForestInt
import Verif.Props.IForestPool
import Verif.Props.IForestPy
import Verif.Props.IForestRows
import Verif.Props.ImpliedVol
import Verif.Props.Imports
import Verif.Props.Instances
import Verif.Props.KernelCalls
import Verif.Props.KyleLambda
import Verif.Props.LoanPositive
import Verif.Props.LobSlope
import Verif.Props.Lookup
import Verif.Props.Lrmes
import Verif.Props.LrmesObj
import Verif.Props.LrmesRun
import Verif.Props.LrmesSilent
import Verif.Props.LstsqCut
import Verif.Props.Matlab
import Verif.Props.MatlabDomain
import Verif.Props.MatlabLookup
import Verif.Props.MatlabMulti
import Verif.Props.MatlabSim
import Verif.Props.MatlabVol
import Verif.Props.Merton
import Verif.Props.MertonUnique
import Verif.Props.Mes
import Verif.Props.Mgarch
import Verif.Props.MgarchEst
import Verif.Props.MgarchFit
import Verif.Props.MgarchMem
import Verif.Props.OptionPrice
import Verif.Props.Pin
import Verif.Props.PinAccuracy
import Verif.Props.PinFloat
import Verif.Props.PrepFloat
import Verif.Props.Rounded
import Verif.Props.RoundedAbsorption
import Verif.Props.RoundedDcc
import Verif.Props.RoundedDip
import Verif.Props.RoundedError
import Verif.Props.RoundedEvents
import Verif.Props.RoundedForest
import Verif.Props.RoundedGarchError
import Verif.Props.RoundedKernels
import Verif.Props.RoundedLik
import Verif.Props.RoundedLrmes
import Verif.Props.RoundedMes
import Verif.Props.RoundedOption
import Verif.Props.RoundedOrder
import Verif.Props.RoundedRisk
import Verif.Props.RoundedRiskError
import Verif.Props.RoundedSpread
import Verif.Props.RoundedWeighted
import Verif.Props.Ses
import Verif.Props.Shared
import Verif.Props.Simulation
import Verif.Props.Spread
import Verif.Props.Srisk
import Verif.Props.SriskRun
import Verif.Props.StartFloat
import Verif.Props.Stocks
import Verif.Props.Typed
import Verif.Props.TypedLob
import Verif.Props.TypedPin
import Verif.Props.Warn
import Verif.Spec.Absorption
import Verif.Spec.Cohort
import Verif.Spec.Dip
import Verif.Spec.Distribution
import Verif.Spec.FftSmooth
import Verif.Spec.Garch
import Verif.Spec.IForest
import Verif.Spec.IForestPy
import Verif.Spec.Imports
import Verif.Spec.KernelCalls
import Verif.Spec.LobSlope
import Verif.Spec.Lrmes
import Verif.Spec.LrmesObj
import Verif.Spec.Matlab
import Verif.Spec.Mes
import Verif.Spec.Mgarch
import Verif.Spec.OptionPrice
import Verif.Spec.Pin
import Verif.Spec.Spread
import Verif.Spec.Typed

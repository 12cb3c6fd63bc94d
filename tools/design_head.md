# Formal model of frds: design

## Technique
Shallow embedding in Lean 4 + Mathlib. Every modelled Python/C++ function is a Lean function in
`lean/Verif/Model/*.lean`, written branch by branch, with a comment giving file and lines in /repo.
Exceptions are values (`Except PyErr`), object state is a structure, method calls are state transformers,
threads are interleavings of atomic steps, external routines (SciPy optimisers, `fsolve`, random generators,
`np.linalg.lstsq/eigvals/cholesky`, `griddata`) are parameters ("oracles"), and theorems quantify over all of
their results, or over the results that meet an explicitly stated contract (least-squares solution,
eigenvalues of a symmetric matrix, an optimiser that honours its bounds and constraints).

* `Verif/Basic/XR.lean`: value domain `XR` = NaN, ±inf, exact reals, with IEEE propagation rules.
* `Verif/Basic/Np.lean`: NumPy/Python primitives on lists of `XR` (mean, var, clip, indexing, percentile).
* `Verif/Basic/Gauss.lean`: standard normal law (Mathlib's Gaussian measure); `Basic/Lstsq.lean`: least squares.
* `Verif/Model/*`: the model, one file per source file or group of source files (table below).
* `Verif/Spec/*`: small independent specifications (textbook formulas over ℝ, expectation integrals,
  densities, matchings of rows and columns), which do not mention the functions of the model.
* `Verif/Lemmas/*`: helper lemmas.
* `Verif/Props/*`: the property theorems, named `Cxx_...` after the property in `properties.jsonl`. Beside the
  theorems stand `example`s which show that concrete, non-trivial cases meet the hypotheses.
* `seeded/LOG.jsonl`: wrong programs tried against the theorems.
* `tools/`: `manifest.py` regenerates `MANIFEST.json` and `lean/Verif.lean` from the theorem names, `design.py`
  regenerates this file, `setprop.py` edits `properties.jsonl`.

## Trusted base
* The Lean 4.33 kernel. Axioms: at most `propext`, `Classical.choice`, `Quot.sound` for every theorem in the
  manifest; no axiom of our own, no compiled code in any proof.
* The hand translation from Python/C++ into `Verif/Model` (the code was read, never run), with the
  conventions and simplifications below.
* NumPy, SciPy, pandas and libstdc++ behave as the primitives in `Basic/Np.lean` and the oracle contracts say.

### General conventions
* Except in C148-C155, C162-C167, C170 and C193-C197, finite floats are exact reals: no rounding, overflow to infinity, underflow or signed zero.
  NaN and ±inf are modelled; `0/0`, `x/0`, `log 0`, `log` and `sqrt` of negative numbers follow IEEE/NumPy.
* 1-D arrays are `List XR`; 2-D arrays are lists of rows or functions of their indices with explicit sizes.
  Warnings are not effects. Python floats and NumPy floats are told apart only where the exception behaviour
  differs (division by zero, `math.log`, `**`).
* `XR.rpow` gives NaN for a negative base with a non-integer exponent and does not model the special cases of
  infinite bases beyond those used.
* An optimiser is a function of feasible set, objective and start that returns a trace of evaluated points,
  the reported point, value and success flag (`OptRun`). It is arbitrary unless a theorem says `Honours`
  (reported and evaluated points are feasible) or `Truthful` (reported value is the objective at the reported
  point); SciPy meets these up to its tolerance. A start vector of the wrong length is a `ValueError`.
* When a method raises, the state of the object afterwards is not modelled, except where a theorem is about it and in Model/Crash, where the estimation methods are sequences of attribute writes (an attribute write is atomic) that may be cut short anywhere.
* C++ reads beyond the end of an array are given the outcome `IndexError` (the theorems exclude or name them).

### What is modelled, by source file

| source (src/frds/...) | model | not modelled / simplified |
|---|---|---|
| measures/_option_price.py | Model/OptionPrice (scalars), Model/BlsArr (built-in numbers, NumPy scalars, arrays) | `float64` arrays; lists and integer arrays as arguments |
| measures/_contingent_claim_analysis.py | Model/Cca, Model/CcaOverflow (`math.exp` may raise) | `fsolve` is arbitrary |
| measures/_absorption_ratio.py | Model/Absorption | eigenvalues are real and complete for a symmetric matrix (contract); 2-D arrays only |
| measures/_distress_insurance_premium.py | Model/Dip | generator = function of seed and sizes with uniform draws in [0.1, 1]; Cholesky oracle; `np.empty` contents are a parameter; unequal shapes |
| measures/_kyle_lambda.py, _z_score.py | Model/KyleLambda | `lstsq` contract without the rank cut-off `rcond`, except in C190 (Basic/LstsqCut), which has it |
| measures/_marginal_expected_shortfall.py | Model/Mes | `np.percentile` on an empty array is `IndexError` |
| measures/_systemic_expected_shortfall.py | Model/Ses | as above for `lstsq` |
| measures/_srisk.py | Model/Srisk | LRMES estimator is an arbitrary function of the firm's and the market's returns, except in C189 (Model/SriskRun), where it is the LRMES object of Model/LrmesObj |
| measures/_long_run_mes.py, lrmes.hpp, measures_module.cpp | Model/Lrmes, Model/LrmesObj (the object and its history), Model/CApi (reference counts) | generator = arbitrary draws; argument parsing of the wrapper |
| measures/_probability_of_informed_trading.py | Model/Pin, Model/Crash (interrupted calls) | optimiser oracle; input arrays already flattened |
| measures/spread.py, price_impact.py | Model/Spread | array kinds: 1-D arrays, lists, `None` |
| measures/lob_slope.py | Model/LobSlope | |
| measures/modified_merton/loan_payoff.py, find_face_value_indiv.py, merton_solution.py | Model/Merton | as if the imports succeeded (C94 says which do not) |
| measures/modified_merton/fftsmooth.py | Model/FftSmooth | exact DFT sums; any non-finite input gives NaN everywhere |
| measures/modified_merton/mod_merton_computation.py, mod_single_cohort_computation.py, mod_single_cohort_solution.py | Model/Cohort | finite parameters and shocks; `fs` one-dimensional; `fsolve` oracle; `H*(N/T)` exact; a wrong width of `w` is a `ValueError` |
| measures/modified_merton/mod_merton_create_lookup.py, mod_single_merton_create_lookup.py | Model/Lookup | 4-D arrays of finite reals |
| measures/modified_merton/matlab: fftsmooth.m, LoanPayoff.m, FindFaceValueIndiv.m, MertonSolution.m, ModSingleCohortComputation.m, ModMertonComputation.m, ModMertonCreateLookup.m, ModSingleMertonCreateLookup.m | Model/Matlab | reference for the port (C156-C161); `fsolve` oracle; finite parameters; `log`/`sqrt` of negative numbers are NaN except in the last step; complex table entries stored as real parts; any Matlab error is `none` |
| measures/modified_merton/matlab/ModMertonSimulation.m | Model/MatlabSim | lines 13-146, 208-252 (C184); not the alternative models (natural-neighbour interpolation, the port uses a cubic one), figures and number format |
| measures/modified_merton/mod_merton_simulation.py | Model/Simulation | plotting, printing format and the warnings filter; `griddata` is arbitrary |
| datasets/_stocks.py | Model/Stocks | reading the file is an oracle that may fail; atomic steps = the attribute reads and writes of `__new__`/`__init__` |
| algorithms/_garch.py | Model/Garch, Model/KernelCalls (direct calls of the static methods), Model/Crash (interrupted calls) | equal lengths in the likelihood; optimiser oracle |
| algorithms/utils/utils_module.cpp, garch.hpp | Model/Garch (kernels on lists), Model/GarchMem (memory layout, wrappers), Model/CApi (reference counts, allocation failure), Model/KernelCalls (wrong argument counts, integer residuals) | dtypes other than float64 and int64 |
| algorithms/_mgarch.py, utils/mgarch.hpp | Model/Mgarch, Model/Crash (interrupted calls), Model/Shared (univariate models shared by several correlation models), Model/DccAny, Model/MgarchMem, Model/CApi | dtype other than float64 |
| algorithms/isolation_forest/IsolationForest.cpp/.hpp | Model/IForest, Model/RoundedForest (scoring in rounded arithmetic), Model/IForestInt (C integer types) | unbounded integers except in C186; tree size 0, no attribute and 0 workers (undefined behaviour) excluded; exact arithmetic except in C170; generator contracts only; memory reclamation |
| algorithms/isolation_forest/__init__.py, iforest_module.cpp | Model/IForestPy, Model/CApi (reference counts) | a frame is labelled columns of kind number/object/other; texts as code points; `KeyError` rule of current pandas; NumPy 2 as a flag; calls with undefined behaviour get no outcome |
| element types of the arrays in spread.py, price_impact.py, lob_slope.py, the PIN likelihoods and SRISK | Basic/IntArr, Model/Typed | float64 and all integer types with wrap-around and NumPy promotion; no float32, bool or object arrays; 1-D (books: 2-D) arguments |
| the formulas of PIN and its likelihoods, option prices, the GARCH/DCC/CCC likelihoods, z-score, spreads, depth difference, bid slope, SRISK, GARCH variances and bounds, LRMES, DIP, MES and the absorption ratio in rounded arithmetic | Basic/Float (rounding to nearest even in any binary format, binary64), Basic/Machine (operations, summation in any order), Model/Rounded, Model/RoundedTail, Model/RoundedAbsorption, Model/RoundedOption, Model/RoundedLik, Model/RoundedDcc, Model/RoundedCcc, Model/RoundedPrep, Model/RoundedStart, Model/RoundedCorr, Model/RoundedDccFit, Model/RoundedPin | every `+ - * / sqrt` rounds; overflow to infinity and gradual underflow included; zeros are unsigned; squares are products; no fused multiply-add or extended precision; `exp` and `log` are any functions with the laws stated as hypotheses; the BLAS dot product of `variance_bounds` is a sum of rounded products in any order. Theorems `*_exact` show that without rounding these are the definitions of the exact models; `Accurate` (Basic/Accuracy) adds error sizes, proved for every binary format |
| threads sharing one GARCH, GJR, PIN or absorption-ratio object; the process's warning filters | Model/Conc, Model/ConcPin, Model/Warn | no method takes a lock; reads and attribute writes are atomic and threads may be switched between any two of them; one read sees all attributes at one instant; objectives are evaluated one after another by an optimiser that is any function of the values received; PIN's likelihood is evaluated without touching the object; for the filters: the numerical work is any code that reads but does not change them, regular expressions and the class hierarchy of warnings are arbitrary relations |
| sharing of arrays between the caller, GARCH models and the LRMES constructor | Model/HeapArr, Model/HeapGarch | an array is a buffer and a list of positions; temporaries of one expression get no buffer; the optimiser sees the objective's values, its evaluations are then performed in order; kernels return new arrays; single-threaded |
| all `__init__.py` and `import` statements | Model/ImportGraph | third-party imports succeed; nesting depth 40 is shown to suffice |

Not modelled at all: `_lerner_index.py` (an empty class), build scripts, documentation, the remaining Matlab files
(empirical application, test data, figures and tables), performance, the internals of SciPy optimisers and of random generators.

Negative findings (the code does not do what a user expects) are stated as theorems too, with concrete witnesses.

## Plan per property
Statements are in `properties.jsonl`. "Proof" says how the property is proved for all inputs.


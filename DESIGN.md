# Formal model of frds: design

## Technique
Shallow embedding in Lean 4 + Mathlib. Every modelled Python/C++ function is a Lean function in
`lean/Verif/Model/*.lean`, written branch by branch, with a comment giving file and lines in /repo.
Exceptions are values (`Except PyErr`), object state is a structure, method calls are state transformers,
threads are interleavings of atomic steps, external routines (SciPy optimisers, `fsolve`, random generators,
`np.linalg.lstsq/eigvals/cholesky`, `griddata`) are parameters ("oracles"), and theorems quantify over all of
their results, or over the results that meet an explicitly stated contract (least-squares solution,
eigenvalues of a symmetric matrix, an optimiser that honours its bounds and constraints).

* `Verif/Basic/XR.lean`: value domain `XR` = NaN, ±inf, exact reals, with IEEE propagation rules.
* `Verif/Basic/Np.lean`: NumPy/Python primitives on lists of `XR` (mean, var, clip, indexing, percentile).
* `Verif/Basic/Gauss.lean`: standard normal law (Mathlib's Gaussian measure); `Basic/Lstsq.lean`: least squares.
* `Verif/Model/*`: the model, one file per source file or group of source files (table below).
* `Verif/Spec/*`: small independent specifications (textbook formulas over ℝ, expectation integrals,
  densities, matchings of rows and columns), which do not mention the functions of the model.
* `Verif/Lemmas/*`: helper lemmas.
* `Verif/Props/*`: the property theorems, named `Cxx_...` after the property in `properties.jsonl`. Beside the
  theorems stand `example`s which show that concrete, non-trivial cases meet the hypotheses.
* `seeded/LOG.jsonl`: wrong programs tried against the theorems.
* `tools/`: `manifest.py` regenerates `MANIFEST.json` and `lean/Verif.lean` from the theorem names, `design.py`
  regenerates this file, `setprop.py` edits `properties.jsonl`.

## Trusted base
* The Lean 4.33 kernel. Axioms: at most `propext`, `Classical.choice`, `Quot.sound` for every theorem in the
  manifest; no axiom of our own, no compiled code in any proof.
* The hand translation from Python/C++ into `Verif/Model` (the code was read, never run), with the
  conventions and simplifications below.
* NumPy, SciPy, pandas and libstdc++ behave as the primitives in `Basic/Np.lean` and the oracle contracts say.

### General conventions
* Except in C148-C155, C162-C167, C170 and C193-C197, finite floats are exact reals: no rounding, overflow to infinity, underflow or signed zero.
  NaN and ±inf are modelled; `0/0`, `x/0`, `log 0`, `log` and `sqrt` of negative numbers follow IEEE/NumPy.
* 1-D arrays are `List XR`; 2-D arrays are lists of rows or functions of their indices with explicit sizes.
  Warnings are not effects. Python floats and NumPy floats are told apart only where the exception behaviour
  differs (division by zero, `math.log`, `**`).
* `XR.rpow` gives NaN for a negative base with a non-integer exponent and does not model the special cases of
  infinite bases beyond those used.
* An optimiser is a function of feasible set, objective and start that returns a trace of evaluated points,
  the reported point, value and success flag (`OptRun`). It is arbitrary unless a theorem says `Honours`
  (reported and evaluated points are feasible) or `Truthful` (reported value is the objective at the reported
  point); SciPy meets these up to its tolerance. A start vector of the wrong length is a `ValueError`.
* When a method raises, the state of the object afterwards is not modelled, except where a theorem is about it and in Model/Crash, where the estimation methods are sequences of attribute writes (an attribute write is atomic) that may be cut short anywhere.
* C++ reads beyond the end of an array are given the outcome `IndexError` (the theorems exclude or name them).

### What is modelled, by source file

| source (src/frds/...) | model | not modelled / simplified |
|---|---|---|
| measures/_option_price.py | Model/OptionPrice (scalars), Model/BlsArr (built-in numbers, NumPy scalars, arrays) | `float64` arrays; lists and integer arrays as arguments |
| measures/_contingent_claim_analysis.py | Model/Cca, Model/CcaOverflow (`math.exp` may raise) | `fsolve` is arbitrary |
| measures/_absorption_ratio.py | Model/Absorption | eigenvalues are real and complete for a symmetric matrix (contract); 2-D arrays only |
| measures/_distress_insurance_premium.py | Model/Dip | generator = function of seed and sizes with uniform draws in [0.1, 1]; Cholesky oracle; `np.empty` contents are a parameter; unequal shapes |
| measures/_kyle_lambda.py, _z_score.py | Model/KyleLambda | `lstsq` contract without the rank cut-off `rcond`, except in C190 (Basic/LstsqCut), which has it |
| measures/_marginal_expected_shortfall.py | Model/Mes | `np.percentile` on an empty array is `IndexError` |
| measures/_systemic_expected_shortfall.py | Model/Ses | as above for `lstsq` |
| measures/_srisk.py | Model/Srisk | LRMES estimator is an arbitrary function of the firm's and the market's returns, except in C189 (Model/SriskRun), where it is the LRMES object of Model/LrmesObj |
| measures/_long_run_mes.py, lrmes.hpp, measures_module.cpp | Model/Lrmes, Model/LrmesObj (the object and its history), Model/CApi (reference counts) | generator = arbitrary draws; argument parsing of the wrapper |
| measures/_probability_of_informed_trading.py | Model/Pin, Model/Crash (interrupted calls) | optimiser oracle; input arrays already flattened |
| measures/spread.py, price_impact.py | Model/Spread | array kinds: 1-D arrays, lists, `None` |
| measures/lob_slope.py | Model/LobSlope | |
| measures/modified_merton/loan_payoff.py, find_face_value_indiv.py, merton_solution.py | Model/Merton | as if the imports succeeded (C94 says which do not) |
| measures/modified_merton/fftsmooth.py | Model/FftSmooth | exact DFT sums; any non-finite input gives NaN everywhere |
| measures/modified_merton/mod_merton_computation.py, mod_single_cohort_computation.py, mod_single_cohort_solution.py | Model/Cohort | finite parameters and shocks; `fs` one-dimensional; `fsolve` oracle; `H*(N/T)` exact; a wrong width of `w` is a `ValueError` |
| measures/modified_merton/mod_merton_create_lookup.py, mod_single_merton_create_lookup.py | Model/Lookup | 4-D arrays of finite reals |
| measures/modified_merton/matlab: fftsmooth.m, LoanPayoff.m, FindFaceValueIndiv.m, MertonSolution.m, ModSingleCohortComputation.m, ModMertonComputation.m, ModMertonCreateLookup.m, ModSingleMertonCreateLookup.m | Model/Matlab | reference for the port (C156-C161); `fsolve` oracle; finite parameters; `log`/`sqrt` of negative numbers are NaN except in the last step; complex table entries stored as real parts; any Matlab error is `none` |
| measures/modified_merton/matlab/ModMertonSimulation.m | Model/MatlabSim | lines 13-146, 208-252 (C184); not the alternative models (natural-neighbour interpolation, the port uses a cubic one), figures and number format |
| measures/modified_merton/mod_merton_simulation.py | Model/Simulation | plotting, printing format and the warnings filter; `griddata` is arbitrary |
| datasets/_stocks.py | Model/Stocks | reading the file is an oracle that may fail; atomic steps = the attribute reads and writes of `__new__`/`__init__` |
| algorithms/_garch.py | Model/Garch, Model/KernelCalls (direct calls of the static methods), Model/Crash (interrupted calls) | equal lengths in the likelihood; optimiser oracle |
| algorithms/utils/utils_module.cpp, garch.hpp | Model/Garch (kernels on lists), Model/GarchMem (memory layout, wrappers), Model/CApi (reference counts, allocation failure), Model/KernelCalls (wrong argument counts, integer residuals) | dtypes other than float64 and int64 |
| algorithms/_mgarch.py, utils/mgarch.hpp | Model/Mgarch, Model/Crash (interrupted calls), Model/Shared (univariate models shared by several correlation models), Model/DccAny, Model/MgarchMem, Model/CApi | dtype other than float64 |
| algorithms/isolation_forest/IsolationForest.cpp/.hpp | Model/IForest, Model/RoundedForest (scoring in rounded arithmetic), Model/IForestInt (C integer types) | unbounded integers except in C186; tree size 0, no attribute and 0 workers (undefined behaviour) excluded; exact arithmetic except in C170; generator contracts only; memory reclamation |
| algorithms/isolation_forest/__init__.py, iforest_module.cpp | Model/IForestPy, Model/CApi (reference counts) | a frame is labelled columns of kind number/object/other; texts as code points; `KeyError` rule of current pandas; NumPy 2 as a flag; calls with undefined behaviour get no outcome |
| element types of the arrays in spread.py, price_impact.py, lob_slope.py, the PIN likelihoods and SRISK | Basic/IntArr, Model/Typed | float64 and all integer types with wrap-around and NumPy promotion; no float32, bool or object arrays; 1-D (books: 2-D) arguments |
| the formulas of PIN and its likelihoods, option prices, the GARCH/DCC/CCC likelihoods, z-score, spreads, depth difference, bid slope, SRISK, GARCH variances and bounds, LRMES, DIP, MES and the absorption ratio in rounded arithmetic | Basic/Float (rounding to nearest even in any binary format, binary64), Basic/Machine (operations, summation in any order), Model/Rounded, Model/RoundedTail, Model/RoundedAbsorption, Model/RoundedOption, Model/RoundedLik, Model/RoundedDcc, Model/RoundedCcc, Model/RoundedPrep, Model/RoundedStart, Model/RoundedCorr, Model/RoundedDccFit, Model/RoundedPin | every `+ - * / sqrt` rounds; overflow to infinity and gradual underflow included; zeros are unsigned; squares are products; no fused multiply-add or extended precision; `exp` and `log` are any functions with the laws stated as hypotheses; the BLAS dot product of `variance_bounds` is a sum of rounded products in any order. Theorems `*_exact` show that without rounding these are the definitions of the exact models; `Accurate` (Basic/Accuracy) adds error sizes, proved for every binary format |
| threads sharing one GARCH, GJR, PIN or absorption-ratio object; the process's warning filters | Model/Conc, Model/ConcPin, Model/Warn | no method takes a lock; reads and attribute writes are atomic and threads may be switched between any two of them; one read sees all attributes at one instant; objectives are evaluated one after another by an optimiser that is any function of the values received; PIN's likelihood is evaluated without touching the object; for the filters: the numerical work is any code that reads but does not change them, regular expressions and the class hierarchy of warnings are arbitrary relations |
| sharing of arrays between the caller, GARCH models and the LRMES constructor | Model/HeapArr, Model/HeapGarch | an array is a buffer and a list of positions; temporaries of one expression get no buffer; the optimiser sees the objective's values, its evaluations are then performed in order; kernels return new arrays; single-threaded |
| all `__init__.py` and `import` statements | Model/ImportGraph | third-party imports succeed; nesting depth 40 is shown to suffice |

Not modelled at all: `_lerner_index.py` (an empty class), build scripts, documentation, the remaining Matlab files
(empirical application, test data, figures and tables), performance, the internals of SciPy optimisers and of random generators.

Negative findings (the code does not do what a user expects) are stated as theorems too, with concrete witnesses.

## Plan per property
Statements are in `properties.jsonl`. "Proof" says how the property is proved for all inputs.

| id | property | theorems (Verif/Props) | proof |
|---|---|---|---|
| C01 | Put-call parity | OptionPrice: put_call_parity | reduction from XR to reals, N(x)+N(-x)=1 |
| C02 | blsprice is the risk-neutral expectation | OptionPrice: risk_neutral | Gaussian integral of the payoff (change of variable, completion of the square) |
| C03 | No-arbitrage bounds | OptionPrice: bounds | from C02 by Jensen/monotone integrals; strictness from positive tails |
| C04 | Prices strictly increase with volatility | OptionPrice: vega_pos | derivative A e^{-qT} sqrt(T) φ(d1) > 0, strict monotonicity from the derivative |
| C05 | Spot/strike monotonicity and homogeneity | OptionPrice: spot, strike, homogeneous, symmetry | expectation form and convexity; homogeneity by algebra |
| C06 | Degenerate volatility or maturity | OptionPrice: sigma_zero, T_zero, S_zero | case analysis on zero/negative volatility and maturity in XR |
| C07 | CCA output at an exact solution | Cca: exact_root | solver oracle; reuse of option bounds; the squares appear in the residuals |
| C08 | CCA put and CDS-put bounds | Cca: put_bounds, cds_bounds, spread | solver oracle; reuse of option bounds; the squares appear in the residuals |
| C09 | CCA depends on the solver only through squares; zero components | Cca: signs, equations_even, zero_asset, solver_error, zero_volatility | solver oracle; reuse of option bounds; the squares appear in the residuals |
| C10 | Absorption ratio is in [0,1] | Absorption: value_and_range, topSum_unique | eigenvalues of a positive semidefinite covariance; sorted suffix sums |
| C11 | Absorption ratio monotone in the fraction, 0 at 0 and 1 at 1 | Absorption: monotone, endpoints | eigenvalues of a positive semidefinite covariance; sorted suffix sums |
| C12 | Absorption ratio cache is history independent | Absorption: history_independent, stale_after_reassignment, stale_instance | object as state machine; invariant over all call histories |
| C13 | Out-of-range fraction wraps around | Absorption: above_one, wraps_below_one, negative | integer arithmetic of negative slicing |
| C14 | DIP equals tail expected loss | Dip: value, as_average | histogram sums: exchange of finite sums, slot invariants of the fill loop |
| C15 | DIP bounds and loss-distribution mass | Dip: mass, array, bounds | histogram sums: exchange of finite sums, slot invariants of the fill loop |
| C16 | DIP is non-increasing in the threshold | Dip: antitone | histogram sums: exchange of finite sums, slot invariants of the fill loop |
| C17 | DIP returns NaN rather than 0 when no simulated loss reaches the threshold | Dip: empty_tail, no_default | error and NaN analysis of the loop and the final division |
| C18 | DIP raises IndexError when a simulated loss reaches the top of the grid | Dip: index_error_iff | error and NaN analysis of the loop and the final division |
| C19 | Kyle lambda is the least-squares slope | KyleLambda: least_squares, lengths | normal equations; least-squares minimiser |
| C20 | Kyle lambda scaling and exact recovery | KyleLambda: scaling, recovery | normal equations; least-squares minimiser |
| C21 | Z-score affine behaviour and degenerate history | KyleLambda: value, invariance, affine | population variance identities |
| C22 | MES is the firm's average return on the market's worst days | Mes: value | order statistics, linear interpolation of the percentile |
| C23 | MES invariances | Mes: permutation, firm_affine, market_affine | permutation invariance of sorting; affine maps |
| C24 | MES lies between the firm's extreme returns and uses at most ceil(q(n-1)) days | Mes: range, days | order statistics, linear interpolation of the percentile |
| C25 | MES is NaN when no day is strictly below the threshold | Mes: nan, nan_market, errors | order statistics, linear interpolation of the percentile |
| C26 | SES is the fitted normalised combination | Ses: fitted, unique | least-squares contract; uniqueness under full rank |
| C27 | SES invariance and consistency | Ses: equal, affine, exact | least-squares contract; uniqueness under full rank |
| C28 | SES argument checking | Ses: errors, zero_slope | complete case analysis of the argument checks |
| C29 | SRISK formula | Srisk: single, multi, zero_equity | list induction over firms; LRMES oracle |
| C30 | Firm-level SRISK depends only on the firm's own column | Srisk: own_column, permutation | list induction over firms; LRMES oracle |
| C31 | Aggregate SRISK | Srisk: aggregate, order | list induction over firms; LRMES oracle |
| C32 | SRISK constructor contract | Srisk: contract, errors | complete case analysis of the argument checks |
| C33 | Single-firm aggregate SRISK can fail | Srisk: attribute_error, numpy, lrmes_kind | list induction over firms; LRMES oracle |
| C34 | LRMES is minus the average simulated firm return over systemic paths | Lrmes: paths, estimate, failed_fit | fold over the simulated paths |
| C35 | LRMES < 1 | Lrmes: le_one, lt_one, nonsystemic, order, draw_order | fold over the simulated paths |
| C36 | Systemic events are monotone in C | Lrmes: monotone, count, never | fold over the simulated paths |
| C37 | Simulated conditional correlations stay in [-1,1] and variances stay positive | Lrmes: invariant, finite, estimate_args | Cauchy-Schwarz invariant on (q_i, q_m, q_im) by induction on the path |
| C38 | Python and C++ LRMES simulations agree | Lrmes: simulation, estimate | simulation relation between the Python and the C++ loop |
| C39 | Orthogonalised innovations reconstruct the standardised residuals | Lrmes: reconstruct, unique, degenerate | algebra of the 2x2 Cholesky factor |
| C40 | PIN is a probability | Pin: probability, reported | algebra on admissible parameters |
| C41 | PIN estimate keeps the best accepted log-likelihood | Pin: best, history | invariant of the fold over the start grid, for arbitrary optimiser results |
| C42 | PIN success flag is sticky | Pin: sticky, stale_flag, flag | invariant of the fold over the start grid, for arbitrary optimiser results |
| C43 | PIN starting values match the sample means | Pin: starts, skipped, count | algebra on admissible parameters |
| C44 | EHO2010 and LK2011 are the same likelihood | Pin: equal | log-sum-exp algebra; Poisson mass function and independence product |
| C45 | PIN likelihood is the Poisson-mixture likelihood | Pin: likelihood, mle | log-sum-exp algebra; Poisson mass function and independence product |
| C46 | PIN argument checking | Pin: method, ctor, ctor_state, assert | complete case analysis of the argument checks |
| C47 | Quoted spread | Spread: quoted_pct, quoted_log, bounds, antisymm, scale | weighted mean algebra on lists; case analysis of the direction argument |
| C48 | Effective and realized spread and price impact are dollar-volume weighted means | Spread: weighted_means | weighted mean algebra on lists; case analysis of the direction argument |
| C49 | Spread decomposition | Spread: decomposition | weighted mean algebra on lists; case analysis of the direction argument |
| C50 | Spread triangle inequality without directions | Spread: triangle | weighted mean algebra on lists; case analysis of the direction argument |
| C51 | Directions given as signs reproduce absolute spreads; lists are silently ignored | Spread: sign_direction, list_ignored | weighted mean algebra on lists; case analysis of the direction argument |
| C52 | Spreads are invariant to the unit of price and of volume | Spread: units | weighted mean algebra on lists; case analysis of the direction argument |
| C53 | Zero-volume fallback and zero-sum weights | Spread: zero_volume, zero_sum, nonneg_ok | weighted mean algebra on lists; case analysis of the direction argument |
| C54 | Shape checks of spread functions | Spread: shape_checks, exact, price_broadcast, price_unchecked | complete case analysis of the argument checks |
| C55 | DGGW slopes skip undefined quotes | LobSlope: slopes, infinite | nanmean as the mean of the non-NaN entries; case analysis of book depth |
| C56 | Bid/ask reflection | LobSlope: reflection, nonneg, units | nanmean as the mean of the non-NaN entries; case analysis of book depth |
| C57 | Slope differences need five levels | LobSlope: levels, depends, value | nanmean as the mean of the non-NaN entries; case analysis of book depth |
| C58 | Scaled depth difference bounds and antisymmetry | LobSlope: value, bounds, antisymm, scale, shape | nanmean as the mean of the non-NaN entries; case analysis of book depth |
| C59 | StockReturns is a singleton with a one-time read | Stocks: singleton, shared_mutation | state machine over call histories |
| C60 | Singleton under concurrency | Stocks: after_import, never_none, race, serial | interleaving semantics, inductive invariant; witness schedule for the race |
| C61 | GARCH log-likelihood is the log of the product of normal densities | Garch: normal_likelihood, zero_variance | log of the product of normal densities by induction |
| C62 | Conditional variance recursion | Garch: garch_recursion, gjr_recursion, total, closed_form | induction along the recursion |
| C63 | Conditional variances stay positive and within bounds | Garch: positive_bounded | induction along the recursion |
| C64 | bounds_check is monotone and only changes out-of-range values | Garch: bounds_check, inf_not_largest, shrinks | case analysis on the two bounds, log inequality |
| C65 | Python and C++ GARCH kernels agree except on NaN | Garch: kernels, paths, finite | loop-by-loop equality of two programs; NaN witness |
| C66 | Variance bounds are ordered and positive | Garch: variance_bounds, empty | finite sums with positive weights |
| C67 | Backcast is a weighted average of early squared residuals | Garch: backcast, first_75 | finite sums with positive weights |
| C68 | EWMA recursion closed form and bounds | Garch: closed_form, bounds, empty | induction along the recursion |
| C69 | Starting values are not the likelihood maximiser | GarchFit: last_grid_point, general, general_gjr, not_maximiser | fold over the grid of starting values; witness data |
| C70 | Starting values are feasible | GarchFit: garch_feasible, gjr_feasible | fold over the grid of starting values; witness data |
| C71 | GARCH fit state machine | Feasible: reported_garch, reported_gjr; GarchFit: garch_fit, gjr_fit, history | state machine with optimiser traces C71_reported_*: unfolding the objective at the point a truthful optimiser returns. |
| C72 | sigma2 after fit is the last evaluated point | GarchFit: sigma2, sigma2_stale | state machine with optimiser traces |
| C73 | GJR variance forecast | Garch: recursion, positive, gamma_zero, empty | conditional expectation with the sign indicator |
| C74 | CCC log-likelihood is the bivariate normal log-likelihood | Mgarch: bivariate_likelihood, independent, density, out_of_range | density algebra: bivariate normal, decomposition of the log-likelihood |
| C75 | DCC two-step likelihood decomposition | Mgarch: decomposition, unfitted | density algebra: bivariate normal, decomposition of the log-likelihood |
| C76 | DCC correlations are in [-1,1] | Mgarch: correlations, recursion, constant | Cauchy-Schwarz invariant of the correlation recursion |
| C77 | Python and C++ DCC correlations differ in Q_bar | MgarchFit: agree, differ | program equivalence up to Q-bar; witness |
| C78 | DCC starting values are feasible but not optimal | MgarchFit: feasible, last, not_maximiser | grid fold; witness |
| C79 | CCC/DCC fit is idempotent after success | MgarchEst: ccc, dcc, dcc_failed, dcc_stable, refit_stable, dcc_reported | idempotence of the state transformer for a deterministic optimiser |
| C80 | CCC objective ignores the passed backcast and bounds | CccObj: ignores, value, broadcast, lengths | unfolding of the objective; trace invariant of the run |
| C81 | Isolation trees partition the sample and are bounded in height | IForest: leaves, route, sizes, max_height | induction on tree growth |
| C82 | Training and scoring route observations identically for non-missing data | IForest: consistent | route functions agree iff no NaN is met; induction on the tree |
| C83 | NaN observations are routed differently in training and scoring | IForest: iff, all_missing | route functions agree iff no NaN is met; induction on the tree |
| C84 | Anomaly scores are in (0,1] | IForest: range, antitone, one, size_one, empty | positivity of c(n), monotonicity of 2^x |
| C85 | Forest size and score coverage for any number of workers | IForestPool: forest, order, each_once, scores, deterministic | invariant over all interleavings of the worker threads |
| C86 | Worker count changes the random streams | IForestPool: one_seed, seeds, depends_on_workers, overlap | arithmetic of the seed offsets |
| C87 | Seeds larger than the data set are equivalent | IForestPool: seeds, offset | arithmetic of the seed offsets |
| C88 | Loan payoff is E[min(asset, face)] | Merton: expected_repayment, bounds, monotone | Gaussian integral; limiting case rho = 1 |
| C89 | Loan yield objective | Merton: root_iff, yield_above_riskfree | unfolding and XR case analysis |
| C90 | merton_solution penalty is always zero | Merton: no_penalty, root_iff | unfolding and XR case analysis |
| C91 | Bank balance sheet identities | Cohort: single, multi, identities | algebra of min/max and means |
| C92 | fftsmooth is a local average with linear extrapolation | FftSmooth: window_average, odd_rejected, linear, constant | convolution theorem for the finite Fourier transform |
| C93 | Conditional expectation by sorting, smoothing and un-sorting | Cohort: unsort_identity, local_average, loan_value, rounding | permutation and its inverse |
| C94 | Modified-Merton modules that price options cannot be imported | Imports: import, sys_modules, list | operational semantics of imports with a module table; induction over histories |
| C95 | Cohort maturity weights | Cohort: loan_life, fractional_horizon, horizon_below_maturity | index arithmetic of the cohorts |
| C96 | Lookup tables | Lookup: tables, first_error | nested loops over a 4-D grid: entry-wise description |
| C97 | Degenerate series cannot be estimated | GarchFit: degenerate, empty; LrmesRun: nonfinite | error analysis of the likelihood and the grid search |
| C98 | Sibling splits use the same attribute | IForest: siblings | induction on tree growth |
| C99 | Samples accumulate within a worker thread | IForestPool: sample_grows, exceeds | invariant of the worker loop; memory model of fixed-width texts |
| C100 | Character attributes of maximal width are compared by position | IForestPool: padded, full_width | invariant of the worker loop; memory model of fixed-width texts |
| C101 | Absorption ratio is at least proportional | Absorption: at_least_proportional | eigenvalues of a positive semidefinite covariance; sorted suffix sums |
| C102 | Absorption ratio invariances | Absorption: shift_invariant, permutation_invariant, scale_invariant | eigenvalues under scaling, permutation, shift (characteristic polynomial) |
| C103 | One common factor is fully absorbed | Absorption: one_factor | rank-one covariance has one non-zero eigenvalue |
| C104 | Uncorrelated equal-variance assets | Absorption: uncorrelated | eigenvalues of a positive semidefinite covariance; sorted suffix sums |
| C105 | Absorption ratio on degenerate inputs | Absorption: no_variance, single_asset, too_few_days, return_not_finite, fraction_not_finite | case analysis on sizes and NaN |
| C106 | DIP grid error is at most one percent of a bank per default event | Dip: discretisation | histogram sums: exchange of finite sums, slot invariants of the fill loop |
| C107 | DIP threshold edge cases | Dip: threshold_ge_one, threshold_negative, threshold_truncated | error and NaN analysis of the loop and the final division |
| C108 | DIP rejects default probabilities outside (0,1) | Dip: bad_probability | error and NaN analysis of the loop and the final division |
| C109 | DIP on empty inputs is NaN | Dip: no_banks, no_simulations | error and NaN analysis of the loop and the final division |
| C110 | Loan payoff with perfectly correlated borrowers | Merton: perfect_correlation | Gaussian integral; limiting case rho = 1 |
| C111 | Promised loan yield exists and is unique | Merton: promised_yield | intermediate value theorem and strict monotonicity |
| C112 | merton_solution is flat for non-positive assets | Merton: flat_below_zero | unfolding and XR case analysis |
| C113 | fftsmooth window is off centre by half a step | FftSmooth: half_step | convolution theorem for the finite Fourier transform |
| C114 | fftsmooth with an empty window returns zeros | FftSmooth: empty_window | empty window: 0/0 and the Fourier sums |
| C115 | fftsmooth preserves order; bounds only in the interior | FftSmooth: monotone, interior_bounds, edge_overshoot | convolution theorem for the finite Fourier transform |
| C116 | Aggregate borrower asset value at t is deterministic | Cohort: single, multi | telescoping sums of the factor path |
| C117 | Which shocks matter | Cohort: multi, single | telescoping sums of the factor path |
| C118 | Fewer than twenty simulated states value the loans at zero | Cohort: few_simulations | window 0 in C114 carried through the valuation |
| C119 | Admissible simulation sizes | Cohort: even_sample | complete error analysis |
| C120 | mod_single_cohort_solution as a solver objective | Cohort: scalar_start, array | state of the caller's list, error vectors |
| C121 | Cohort maturing exactly at the horizon | Cohort: maturing_cohort | index arithmetic of the cohorts |
| C122 | Rolled-over loans are scaled copies of new loans | Cohort: rollover | index arithmetic of the cohorts |
| C123 | The public names are available after any import history | Imports: public_names, order_independent, stays | operational semantics of imports with a module table; induction over histories |
| C124 | CCC fit: starting point and reported likelihood | Feasible: start, reported | unfolding of the objective; trace invariant of the run |
| C125 | Fitted GARCH-family parameters are admissible | Feasible: garch, gjr, ccc, dcc, ccc_history, dcc_history | optimiser contract carried through the fit and through any history of calls |
| C126 | Estimated PIN parameters and PIN are in range | Feasible: range | optimiser contract carried through the fit and through any history of calls |
| C127 | DCC estimation is two-step on the two given series | DccTwoStep: correlations, two_step | composition of the fits, uniqueness of the second step |
| C128 | anomaly_scores returns one score per row, ignores unused columns, and fails exactly when documented | IForestPy: frame, range, errors, succeeds, ignored; IForestRows: rows | closed form of the unique output over all schedules; two-run comparison of tree growth |
| C129 | anomaly_scores depends on numeric columns only through order and missingness | IForestPy: monotone | closed form of the unique output over all schedules; two-run comparison of tree growth |
| C130 | anomaly_scores: the longest texts are not compared by content | IForestPy: shorter, longest, equal_length | closed form of the unique output over all schedules; two-run comparison of tree growth |
| C131 | Memory layout of the returns handed to the C extension | GarchMem: kernels, dense, fit, strided | C loops on memory equal the list recursion on the dense block |
| C132 | Equal rows get equal anomaly scores, unless texts of maximal length are involved | IForestRows: equal_rows, longest_texts | closed form of the unique output over all schedules; two-run comparison of tree growth |
| C133 | simulate: admissible numbers of simulated paths | Simulation: sample_size | evenness conditions of C119 for the main grid and the first lookup cell, combined modulo 40; success by C91 and C96 |
| C134 | simulate: which states the columns of Table 1 show | Simulation: columns | aggregate value of C116 as a polynomial in e^{0.005}; numeric enclosure and monotonicity give a strict minimum at 17 |
| C135 | simulate: panel A is a consistent balance sheet | Simulation: true_properties | balance-sheet identities of C91 carried to the printed vectors |
| C136 | simulate: panel B is the standard Merton model at the solver's answer | Simulation: fit, balance, no_assets, rows | parity, bounds and risk-neutral form of blsprice (C01-C03), root characterisation of C90 |
| C137 | simulate: what the alternative models' curves are | Simulation: alternatives, merton_actual | the lookup succeeds only if every cell does (induction over cells, C96); flattening of the table |
| C138 | Integer-typed quotes and trades give the floats' results when nothing overflows | Typed: quoted, spreads, shapes, signed | typed arrays: exact value and type of every intermediate column; wrap is the identity on representable values |
| C139 | Unsigned prices: crossed quotes and trades below the reference are mis-measured | Typed: quoted, quoted_iff, spreads, wrapped | closed form of the wrapped difference, sum comparison for the exact 'iff' |
| C140 | Integer dollar volumes wrap around: the weights are reduced modulo the type's range | Typed: weights, negative | weights computed in the product type; explicit witness in every width |
| C141 | Scaled depth difference of integer sizes | TypedLob: exact, signed, unsigned, unsigned_iff | closed form of wrapped depths; comparison of means |
| C142 | Slopes and slope differences of integer sizes and prices | TypedLob: slope_difference, slopes, exact, signed | closed form of wrapped differences; column-wise equality with the float model |
| C143 | PIN likelihoods of integer-typed counts: EHO2010 is type-independent, LK2011 is wrong for unsigned buys | TypedPin: eho, lk_signed, lk_unsigned, lk_unsigned_wrong | min/max stay representable under promotion; mixture identity with the wrapped -B |
| C144 | SRISK with integer debt and market value: D + W may overflow | TypedPin: exact, overflow | typed addition followed by float arithmetic |
| C145 | DCC classes: accepted arguments and meaning of the parameter fields | DccAny: labels, labels_gjr, mislabel, mislabel_second, mislabel_first, rejects; DccLink: typed | Model/DccAny: argument kinds, dynamic class of the univariate models, positional parameter fields; invariant that the univariate models stay fixed during the second step; simulation proof that for models of one class it is the typed dccFit (C145_typed) |
| C146 | DCC estimation completes on regular data and rejects misaligned series | DccTotal: completes, mismatch | totality of the univariate fits on regular data (C69), length invariants of all paths, induction over grid and optimiser trace |
| C147 | Compiled DCC and LRMES kernels: right on every memory layout | MgarchMem: dcc, layout, simulation | Model/MgarchMem: index loops over strided memory (GETPTR); induction on the remaining steps shows they are the list recursions of Model/Mgarch and Model/Lrmes |
| C148 | PIN stays a probability in floating point | Rounded: range, exact | Model/Rounded `pin`; laws of rounding (monotone, representable integers), which Basic/Float proves for round-to-nearest-even in every binary format |
| C149 | Quoted spread in floating point | Rounded: midpoint, range, exact; RoundedSpread: log | Model/Rounded `quotedSpread`; the midpoint law of binary rounding (Basic/Float `rd_mid`), sums in any order and bracketing bounded through exactly representable integers |
| C150 | Unsigned trade spreads in floating point are never negative | RoundedSpread: nonneg, exact | Model/Rounded `effectiveSpread`, `realizedSpread`, `simplePriceImpact`; the set of NaN and non-negative numbers is closed under the rounded operations used |
| C151 | Order book measures in floating point | RoundedLrmes: bid_slope, bid_exact; RoundedSpread: range, overflow, exact | Model/Rounded `scaledDepthDifference`, `bidSlope`; bounds of one difference from monotonicity and doubling, sums bounded through integers; a computed counterexample for overflow |
| C152 | GARCH variance bounds hold in floating point | RoundedRisk: python, cpp, first, rows, exact | Model/Rounded `boundRows`, `garchVariance`, `gjrVariance`; induction along the recursion, max and the log penalty never go below the lower bound; NaN-freeness by the closure of non-negative numbers |
| C153 | SRISK in floating point: monotone, aggregate dominates | RoundedRisk: monotone, aggregate, exact | Model/Rounded `srisk`, `aggregate`; each rounded operation is monotone; sums of non-negative numbers dominate their terms in every order |
| C154 | LRMES in floating point | RoundedLrmes: le_one, never, threshold, exact | Model/Rounded `simulation`, `accumulate`, `lrmes`; the accumulated return is at least minus the number of events, which are exactly representable integers |
| C155 | Sign of the z-score in floating point | RoundedLrmes: sign, exact | Model/Rounded `zScore`, `std`; the computed square root is never negative, division keeps the sign |
| C156 | fftsmooth against its Matlab original | Matlab: port, matlab_domain, python_domain, wrapped_windows | Model/Matlab `smooth` (1-based indexing, complex fft/ifft as sums) against Model/FftSmooth; both are reduced to one list `smoothList`; domains by case analysis on the indices |
| C157 | merton_solution against its Matlab original | Matlab: penalty, port | Model/Matlab `mertonSolution` against Model/Merton, case analysis on the signs |
| C158 | Rounding of the sort key: round against np.round | Matlab: rounding | Model/Matlab `round9` (half away from zero) against Model/Cohort `round9` (half to even) |
| C159 | One-cohort computation against its Matlab original | Matlab: single_port; MatlabDomain: matlab_domain, python_accepts_more; MatlabVol: volatilities | Model/Matlab `single` and Model/Cohort `singleCohort` are both evaluated to the same tail; the yields agree because the root is unique (C111); keys that are apart sort alike with and without rounding; domain: the window must be an even whole number |
| C160 | Several-cohort computation against its Matlab original | MatlabDomain: matlab_domain, ties_countable; MatlabMulti: multi_port; MatlabVol: volatilities | Model/Matlab `multi` and Model/Cohort `multiCohort` are both evaluated to tails with pointwise equal arguments (`tail_same2`); keys are proportional to the loan size, so ties occur for countably many sizes |
| C161 | Lookup tables against their Matlab originals | MatlabLookup: multi_tables, single_tables | Model/Matlab `createLookup` is the Python table construction for the Matlab computation (`mlookup_eq`, a monad morphism); then C96 on both sides and C159/C160 in each cell |
| C162 | Accuracy of the computed PIN | RoundedError: pin_accuracy, pin_binary64 | Basic/Accuracy: laws of accurate roundings, proved for every binary format (`Format.accurate`); `Close u k x y` counts relative errors, closed under products, quotients, sums of non-negative numbers and rounding (Lemmas/RoundError); PIN is five roundings |
| C163 | Accuracy of the computed percentage quoted spread | RoundedError: quoted_accuracy, quoted_binary64 | as C162; the difference of two numbers of the format has one relative error without underflow; sums in any order by induction on `IsSum` (`Accurate.sum_close`) |
| C164 | Accuracy of the computed effective and realized spread and price impact | RoundedWeighted: effective_accuracy, realized_accuracy, impact_accuracy | as C163 for the two sums of the weighted mean; one proof for the three measures (`weighted_close`) |
| C165 | Accuracy of the computed variance paths | RoundedGarchError: garch_accuracy, gjr_accuracy, ewma_accuracy | induction over the periods (`path_close`): each step adds two or three roundings; the bounds are not reached (`close_inside`, `check_inside`) |
| C166 | Accuracy of the computed SRISK and aggregate SRISK | RoundedRiskError: srisk_accuracy, aggregate_accuracy | `Apx u k x B y`: errors relative to a magnitude, closed under signed sums, products and rounding; six roundings |
| C167 | Accuracy of the computed log quoted spread | RoundedRiskError: log_spread_accuracy | `Apx` with the assumed accuracy of the logarithm; signed sums in any order (`Accurate.sum_apx`) |
| C168 | Compiled numerical kernels release everything they allocate | CApi: balanced, null, history | heap model with reference counts and cascading release (`Model/CApi`); the list of parameters by induction (`drain_ok`), the wrappers case by case, histories by induction |
| C169 | Every isolation forest scoring leaks one float object per row | CApi: leak, history, failures | pending references as a function added to the counts of the old heap (`bump`, `taken`, `made`), so that taking and releasing commute; the float objects by induction over the rows |
| C170 | Anomaly scores in floating point: in [0, 1], accurate, and independent of the schedule up to rounding | RoundedForest: accuracy, schedules, binary64; RoundedOrder: order_matters | relative error calculus (`Close`) through logarithm, cancellation in c(n) (condition number at most 15), summation in the order of the schedule, and 2^-x by x e^-x ≤ 1; fits-in-int invariants of the grown trees; order dependence by evaluating binary64 rounding on a concrete forest with two interleavings |
| C171 | Direct calls of compute_variance: number of parameters and of bounds columns | KernelCalls: params_python, params_extension, full_vector, python, few_columns, extension, three_columns | case analysis on the parameter list; the loop of either implementation is shown equal to the kernel of the estimation with bounds read off the rows (Python) or off the flattened array (extension, index arithmetic by division); concrete three-column call |
| C172 | Integer residuals in compute_variance and forecast_variance | KernelCalls: garch, gjr, forecast, zero, reinterpreted, extension_nan, not_finite, witness | induction over the residuals for a generic store; truncation to int64 as floor/ceiling, bit patterns of int64 read as binary64 by arithmetic on the fields; NaN propagates through the recursion; a NaN or infinite first variance fails to be stored |
| C173 | Interrupted estimations of volatility and correlation models | Crash: univariate_complete, garch, garch_torn, gjr, history; CrashDcc: dcc_complete, dcc, gjr_dcc, dcc_torn_model, torn_model_reached; CrashMulti: ccc_complete, ccc | each method is a program over attribute writes; a call denotes the list of states after each write and its outcome (Model/Crash). Final states are shown equal to the functions of the other models; crash states are characterised by a Hoare logic with crash conditions (Lemmas/Crash), induction over the optimiser trace and the start grid; retries by congruence of fit in the attributes it reads; induction over histories |
| C174 | Interrupted PIN estimation | CrashPin: complete, states, stale, torn, retry, unsupported | the same program semantics; the loop invariant of C41 applied to a prefix of the starting values |
| C175 | Concurrent fits of one univariate model | ConcGarch: garch, gjr, loglikelihood, feasible, finishes, alone; ConcGarchRace: crossed, wrong_value, torn | each method is a program of atomic reads and writes of the shared object (Model/Conc), threads are interleaved by an arbitrary schedule, the optimiser is any decision tree of objective evaluations; safety by rely-guarantee reasoning (Lemmas/Conc: Ok, sound for every schedule), termination under fair schedules by induction over the program, hazards by constructing schedules for arbitrary data |
| C176 | Concurrent PIN estimations of one object | ConcPin: states, finishes; ConcPinRace: alone, lost, mislabelled | the same semantics with Parameters objects in a heap (Model/ConcPin); rely-guarantee invariant over the heap; run alone = pinEstimate by induction over the starts; hazards by constructed schedules |
| C177 | Concurrent absorption ratios of one object | ConcAr: absorption, finishes, alone | rely-guarantee with the invariant that filled caches are right |
| C178 | Estimations and the process's warning filters | Warn: restored, during, concurrent, left_behind | Python's warnings.filters as list objects plus a reference (Model/Warn), guarded blocks as programs with a finally part, numerical work as arbitrary code that may read but not change the filters; alone by a Hoare-style predicate closed under sequencing, concurrent by rely-guarantee, hazard by a constructed schedule |
| C179 | The modified Merton simulation resets the warning filters | Warn: simulate | the same filter model, direct execution of the three parts |
| C180 | LRMES objects with a history | LrmesObj: new, first, repeat, interrupted, torn, stale | estimate as a program of attribute writes on the DCC object (Model/LrmesObj, the semantics of C171-C173); invariant over histories: either not yet estimated with univariate fits that give what they would have given, or estimated with parameters possibly written in part and univariate models that re-estimate to the right ones; the stale state is constructed for an arbitrary point of the optimiser's trace |
| C181 | When LRMES returns and when it raises | LrmesRun: completes, rejects | composition of C146 and C145 (the DCC fit of regular series completes) with C180; unusable series by C97 (a NaN variance makes every starting likelihood NaN) |
| C182 | GARCH estimation never writes to arrays that existed before the call | HeapGarch: static_methods, variance_bounds, garch_history, gjr_history, attributes_are_new, models_do_not_interfere | Model/HeapArr gives NumPy arrays as references into memory with in-place assignment; Model/HeapGarch rewrites `_garch.py` in it. Refinement (Lemmas/HeapArr, HeapGarch): every method computes the list model and keeps all existing buffers; loops by an invariant on the filled prefix; histories by induction over the program. |
| C183 | Which objects notice that their data were overwritten | HeapGarch: fit_uses_current_contents, float64_is_shared, float64_is_shared_garch, garch_keeps_estimate, gjr_refit_sees_new_data, lrmes_takes_snapshot | Refinement of C182 plus induction over programs; GJR refits by comparing two estimations on equal data; the LRMES constructor step by step. |
| C184 | The simulation script and its Matlab original produce the same table | MatlabSim: table, real | Model/MatlabSim is the script; its several-cohort part is C160, the state index is computed from the strictly closest state (C134), minimum and maximum of finite vectors agree with NumPy's, and the fits agree entry by entry. Condition on the volatilities from C185. |
| C185 | When the values of the modified Merton model are positive | LoanPositive: single, multi, negative | The smoother returns at least 3/2 of the smallest minus half of the largest payoff (window means at both ends, Lemmas/SmoothPos); repayments lie below the promised amount (C92). Counterexample: two groups of simulations, limits of the expected repayment by dominated convergence, then the first smoothed value is computed exactly. |
| C186 | Machine integers in the isolation forest | IForestInt: no_overflow, direction, wraps | Second model of the forest with the C integer types (two's complement conversions, unsigned wrap-around). A tree of fewer than 2^31 observations gives the same path lengths (induction on the tree with C81's node sizes); the sizes are those of C99; a leaf's wrapped count is never larger and the average path length is strictly increasing, so wrapped paths are shorter and scores larger. For equal rows every observation ends in the one leaf that holds the whole sample. |
| C187 | blsprice on arrays, NumPy scalars and built-in numbers | BlsArr: arrays, zero_strike | N-dimensional arrays with NumPy broadcasting (shapes aligned at the last axis). Invariant for every intermediate result: it exists exactly if the shapes of the arguments used so far fit, has their combined shape, and its broadcast entries are the function of the arguments' entries; one lemma per operator, applied 24 times. |
| C188 | A failed volatility estimation is silent in LRMES | LrmesSilent: market, firm | A failed univariate fit of a new model leaves the parameters at NaN; every simulated market return of every path is then NaN, the test `sum - 1 < C` is false, so no path counts and the result is 0.0 (market), or the sum over counted paths is NaN (firm). Induction over days and over paths; totality of the rest from C181. |
| C189 | SRISK with the LRMES estimation it runs | SriskRun: single, multi, rejects, log_returns | Composition: Model/SriskRun plugs the LRMES object of Model/LrmesObj (with its GJR-GARCH and DCC fits, optimisers and fresh memory as parameters) into SRISK. From C181 (LRMES of usable series completes or raises RuntimeError; unusable ones raise ValueError), C35 (finite LRMES is at most 1), C29/C31, and induction over the firms (first error wins). |
| C190 | The rank cut-off of least squares | LstsqCut: kyle, ses, ses_det, ses_cut | Contract of gelsd: an orthonormal basis of eigenvectors of A^T A with squared singular values as eigenvalues; terms with a singular value at most rcond times another one are dropped (existence from the spectral theorem). If no positive singular value is dropped, the normal equations and minimal norm follow; one column never drops; three columns: quadratic-form and determinant criteria; counterexample by computing the eigenvectors of a diagonal Gram matrix for an arbitrary decomposition. |
| C191 | Univariate models shared by several correlation models | Shared: garch, gjr, univariate, gjr_interrupted | `Model/Shared.lean`: a store of univariate models, correlation models as pairs of references into it, the public methods as `Run`s (sequences of attribute writes with an outcome) on the part of the store they refer to, and the inductively defined worlds reachable by calls that return or raise (`Calls`) or may be interrupted (`Interrupted`). Invariant: the fit of every stored univariate model has the effect it has at the start, and every correlation model with its flag set is, with its models, what the first call would have produced; kept by each method since univariate fits are idempotent (C79) and a raising fit leaves a model that fits as before (C173). |
| C192 | Concurrent estimation of correlation models on shared univariate models | ConcDcc: estimated, finishes, race | `Model/ConcDcc.lean`: `fit` of a correlation model as an interleavable program (`Prog`) over the store of `Model/Shared.lean`, one action per attribute read or write, the univariate `garchFitProg` of `Model/Conc.lean` acting on its slot. First part: as long as the univariate models keep their values, such a program depends on and writes nothing but its own correlation object (`Own`, closed under sequencing, since the fit of an estimated model only reads), hence its outcome is invariant under actions of other threads; run alone it equals the sequential `dccFit` of `Model/Mgarch.lean`. Second part: a schedule is built that stops one thread between `self.estimation_success = True` and `self.parameters = ...` (`_garch.py` lines 95-96). |
| C193 | Python and C++ GARCH kernels return the same floats | RoundedKernels: bounds_check, paths, finite, nan_residual | Model: `Model/Rounded.lean` (rounded `boundsCheckPy/Cpp`, `gjrNext`, `gjrNextCpp`, `garchVariance`, `gjrVariance`; both implementations call the same `log`, squares are products). Proof (`Props/RoundedKernels.lean`): case analysis of the check, induction over the loop; adding zero to a rounded number changes nothing; no NaN with positive coefficients from `C152_cpp`. |
| C194 | LRMES in floating point: Python and C++ simulate the same market | RoundedEvents: market, event, one_day, count | Model: `Model/Rounded.lean` (`simVarPy`, `simVarCpp`, `simStep`, `simLoop`, `simSum`, `simulation`, `accumulate`). Proof (`Props/RoundedEvents.lean`): simulation relation between the market components of the two loops (induction over the innovations), the error bound for sums in any order (`Accurate.sum_signed`), induction over the paths. |
| C195 | DIP in floating point: which losses count, and how accurate the premium is | RoundedDip: value, nan, slot, percent, same, percent_any | `Model/RoundedTail.lean` writes lines 52-90 of `estimate` in rounded arithmetic (counts of defaults and loss draws are inputs; the normal draws, Cholesky and quantiles of lines 39-51 are not repeated). The fill loop is shown to leave in every slot a sum (in some order) of the frequencies that go there (`Lemmas/RoundedDip.lean`), all exact values are ratios of integers of bounded size, so nothing under- or overflows, and the relative errors are added up with the `Close` calculus. The 101 whole percentages are all of the domain of that statement and are evaluated in the kernel from certificates of correct rounding (`rd_cert`). |
| C196 | MES in floating point: which days count, and how accurate the average is | RoundedMes: days, average, position, default, extra | `Model/RoundedTail.lean` writes `estimate` with NumPy's linear percentile in rounded arithmetic: `q * 100`, division by 100, multiplication by `n - 1`, floor, and NumPy's two-sided interpolation `_lerp`. `Lemmas/RoundedMes.lean` shows that the interpolation stays between its two end points although the rounded difference may exceed the exact one (the weight is at most 1/2 on each side, and the difference of two doubles is exact when it is tiny). The number of selected days is then counted in the sorted list. For `q = 0.05` the doubles are computed (`rd64_eq`): the position is `(n-1)/20 (1 + 2^-54)` before the last rounding, which is the whole number itself when 20 divides `n - 1` and stays strictly between whole numbers otherwise. The counterexample at 0.07 is evaluated exactly. The accuracy statements use the summation and product error lemmas. |
| C197 | Absorption ratio in floating point: how many eigenvectors are used, monotonicity and accuracy | RoundedAbsorption: count, percent, default, half, monotone, accuracy | `Model/RoundedAbsorption.lean` writes lines 27-31 of `estimate` with the rounded product `f * n`, the exact `Decimal` rounding, the left-to-right builtin `sum` and the rounded division; the eigenvalues and the trace are the results of the library calls (inputs). The count follows from the rounding error of the product and the distance of `c n / 100` from the half-integers; the counterexample is evaluated exactly. Monotonicity: adding non-negative numbers in front of a left-to-right sum cannot lower it, because rounding is monotone. Accuracy by the summation and division error lemmas. |
| C198 | The CCA equations have exactly one solution, so the estimate is well defined | CcaSolution: solution, determined, only_positive | `Lemmas/Mills.lean`: with `u = d2` as the unknown the second equation gives the total volatility explicitly, `v = e w / (e + N(u))`, and the first becomes one equation in `u`. Its derivative at a zero is `(e + N(u)) v` times the variance of a truncated normal variable, `1 - d h - h^2 > 0` (three monotone functions with limit 0 at minus infinity), so there is at most one zero (a differentiable function that increases at each of its zeros); signs at two explicit points and the intermediate value theorem give one. `Props/CcaSolution.lean` translates between this and the equations as coded, and excludes zero, infinite and NaN components. |
| C199 | CCA at an inaccurate root: the put is off by the balance-sheet residual | CcaResidual: accounting | Put-call parity for the two legs as computed: debt = asset value - (call on the assets), and the first residual is equity minus that call. Option bounds give the range. |
| C200 | When CCA raises OverflowError | CcaResidual: no_overflow, overflow, equations | `Model/CcaOverflow.lean` repeats the code with a `math.exp` that raises above a limit `L`. While the discount factor is below the limit the equations are those of `Model/Cca.lean`; the exponent of the CDS leg is negative because the debt lies below the discounted barrier. |
| C201 | The standard Merton fit of the simulation is well defined | MertonUnique: solution, fit | The same one-dimensional reduction as for C198, with the payouts as an additional non-negative term `k = (1 - e^{-dT})/e^{-dT}` beside `N(d1)`; the truncated-variance inequality survives because `2 N(d) > d n(d)`. Non-positive components: C112 for the asset value, and a zero volatility leaves the second error at `sigE`. |
| C202 | Option prices in floating point keep put-call parity and the price bounds | RoundedOption: parity, bounds, in_the_money, prices | Model/RoundedOption: blsprice with every operation rounded, norm.cdf a function described by Spec/Distribution (DistFn). Monotonicity of rounding gives the bounds and signs; the error of each product and difference (Accurate) is summed for parity. Concrete case: correctly rounded ncdf (DistFn with 2*2^-53). |
| C203 | Every admissible option price has exactly one implied volatility | ImpliedVol: call, put, same | Limits of the Black formula for the total volatility going to 0 (intrinsic value; three cases of the moneyness) and to infinity (discounted spot), continuity, the intermediate value theorem, and strict monotonicity (C04) for uniqueness. |
| C204 | Option prices admit no butterfly, vertical or calendar arbitrage | ImpliedVol: strike_convex, spot_convex, vertical, calendar | The derivative of the Black formula in the asset value is N(d1), strictly increasing: strict convexity; the strike by parity. Vertical spreads from monotonicity of call and put and parity; calendar from monotonicity in total volatility and in the discounted strike. |
| C205 | In floating point the estimation objective is never NaN or minus infinity, and the log-likelihood is accurate | RoundedLik: not_nan, objective, accuracy, exact | Model.Rounded.loglik and the two objectives over an arbitrary rounding machine. Each term is at most c because its three summands are bounded below (monotone rounding) and NaN is excluded; a rounded sum of n numbers at most c is at most c*n in any order. Accuracy by the signed error calculus (Apx) of Lemmas/RoundError. np.log is a parameter of the machine: nonnegative from 1 on and bounded below by -c on [l, inf]; for accuracy within one rounding error. |
| C206 | Conditional correlations in binary64 exceed one by rounding error at most, can exceed one, and then poison LRMES | DccFloat: python, cpp, exceeds, nan, exact | `Model/RoundedDcc.lean` writes both kernels in rounded arithmetic (Python: `np.corrcoef` after the covariance matrix, which is a parameter because its order of summation is the library's; C++: mean squares and cross products summed left to right). The invariant of the loop (`Lemmas/RoundedDcc.lean`, `RoundedDcc.loop_bound`) is `|q12| (1-u)^k <= sqrt(q11 q22)`: each step adds at most ten rounding errors to `k` (Cauchy-Schwarz on the three terms of the update), while the diagonal stays between `(1-a-b) m / 2` and `2 B`. The start satisfies it with `k = 4` (Python, because of the clip in `corrcoef`) or `2T + 4` (C++, Cauchy-Schwarz for the sums). The excess is evaluated exactly in binary64 with certificates for +, -, *, / and sqrt (`mul_d`, ..., `sqrt_d`). The NaN is monotonicity of rounding: `r * r` does not round below `|r|`, and a difference of doubles does not round to zero. |
| C207 | The DCC objective is a finite number in floating point | DccFloat: objective, candidates, model | After the clip the computed `1 - rho ** 2` lies in [1/100, 1] (`RoundedDcc.den`), so each term is bounded by `20000 Z^2` (`term_bnd`) and so is the sum in any order (`Accurate.sum_signed`). That `log` of a number in [1/100, 1] is computed within [-5, 5] is a hypothesis, shown for correctly rounded `log` (`ieee_log5`). |
| C208 | The CCC objective is a finite number in floating point | CccFloat: loglik, objective, exact, exact_objective | `Model/RoundedCcc.lean` writes the term of `_mgarch.py` lines 181-188 operation by operation. `CccFloat.term_fin` bounds each intermediate result: the standardised residuals (`std_one`), `1 - rho ** 2` in [1/100, 1] (`den`), the product under the logarithm in [2^-170, 2^170]; the sum of the terms is finite in any order (`Accurate.sum_signed`). That `log` is computed within [-200, 200] there is a hypothesis, shown for correctly rounded `log`. The variances are given (their lower bounds are C152). |
| C209 | The PIN likelihoods in floating point: Lin and Ke's never overflows, EHO's is NaN for active stocks | PinFloat: lk_not_nan, lk_finite, eho_nan, exact, silent | `Model/RoundedPin.lean` writes lines 133-169 operation by operation; the power function of the machine is a parameter. `PinFloat.exps/mix/day1` bound every intermediate result of the Lin-Ke form by integers, which rounding respects (`rd_bd`, `add_bd`, ...): the exponents are not positive, one of them is exactly zero, so the mixture is at most 3 and at least the least weight. For EHO `C209_eho_nan` follows 0 (underflow of exp) times a power times infinity = NaN through the sums. `C209_silent` is an induction over the optimisation results (from the right) on the exact model's `estimate`. Correctly rounded exp and powers meet the hypotheses (`ieee_exp0`, `ieee_pow`). |
| C210 | Accuracy of the Lin-Ke likelihood of the PIN model in floating point | PinAccuracy: accuracy, binary64 | `Lemmas/RoundErrorLog.lean` adds logarithms (a relative error of the argument is an absolute error of the logarithm), maxima and shifts of the exponents of a mixture to the error calculus `Apx`/`Close`. `PinAcc.exps` bounds the three exponents (5 errors), `mix` the mixture (13 errors including underflow of exp and of products, covered by the least weight), `day` both terms of a day (6 and 14 errors); `Accurate.sum_apx` sums in any order; `C45_likelihood` connects the exact formula to the Poisson mixture. `C210_binary64` instantiates the constants; `ieee_expOk`, `ieee_logOk` show that correctly rounded functions meet the hypotheses. |
| C211 | From returns to a finite objective in floating point | PrepFloat: preparation, garch, gjr, ccc, dcc, exact, exact_objective, exact_ccc, exact_dcc | `Model/RoundedPrep.lean` writes `preparation` (`_garch.py` lines 104-128, 236-310) operation by operation and puts it in front of the rounded objectives of C205 and C208. `Props/PrepFloat.lean` carries the type `Nn B` (a finite non-negative number of the format at most `B`) through every operation: weights sum to at least one because the first is one, so normalised weights are at most one; the computed variance keeps at least 2^-32 of the exact sample variance although the mean is rounded (`dev_min`, `var_shift`, `var_bd`: moving the centre and perturbing each deviation cannot lose more than half), so the lower bound is positive; every variance of the recursion is clamped to its row (`check`), so the logarithms are taken in [2^-170, 2^170]; the sums are finite in any order. The powers of 0.94 are any function into [0, 1] of the format with value 1 at 0; correctly rounded powers are an instance. The hypotheses on `log` are those of C208 and monotonicity at 1; the sums of `np.dot` are sums of rounded products in any order (no fused multiply-add). For the DCC model `FittedUni` holds what its objective reads of a fitted univariate model (stored mean, last evaluated candidate, reported log-likelihood); the standardised residuals are at most 2^60 (`std60`) and `C207_candidates`, which `C207_model` now also uses, closes the chain. That the second moments of the standardised residuals are not tiny is a hypothesis on the computed residuals; `cov` is what `np.cov` returned. |
| C212 | Starting values and univariate fits in floating point | StartFloat: garch_start, gjr_start, garch_fit, gjr_fit, exact, exact_fit | `Model/RoundedStart.lean` writes the grids, `starting_values` and `fit` of the two univariate models with every operation rounded, on top of `Model/RoundedPrep.lean`. Since `max_likelihood` is never updated, the search keeps the last candidate with likelihood above minus infinity; `Props/StartFloat.lean` proves that all candidates qualify: the rounded omega is between 2^-80 and 2^40 and the rounded differences persistence - alpha (- gamma/2) stay between 0 and 1, so `garch_path` and `gjr_path` of C211 and `loglik_fin` apply to each of the 16 (64) candidates. The optimiser is any function returning success, point and value; that the point is in range and the value is the objective's are hypotheses on its result. `C212_exact` compares with the exact starting values, `C212_exact_fit` with the fits of the exact model on a fresh object, for every optimiser. |
| C213 | Starting correlation and CCC fit in floating point | CorrFloat: corr, ccc_fit, spread, exact_corr, exact_fit; CorrZero: zero | `Model/RoundedCorr.lean` writes `np.cov` (rounded means, centred values, sums of rounded products in any order, times the rounded reciprocal of n - 1), `np.corrcoef` on top of the definition of C210, and `GARCHModel_CCC.fit` after its univariate fits. `Props/CorrFloat.lean`: two values 2^-80 apart cannot both be within 2^-82 of the computed mean, so one rounded centred value is not tiny, its square is a lower bound of the diagonal entry (all terms of that sum are non-negative, so in any order the rounded sum is at least any of them rounded), and the square roots are positive; no overflow occurs, so the quotient is not NaN and clipping puts it in [-1, 1]. `C213_spread` gives the hypothesis for residuals: one is positive and one negative, both bounded away from 0. `C213_ccc_fit` uses `C211_ccc` at the start and at the optimiser's point; that this point is in range and its value is the objective's are hypotheses on the optimiser. `C213_exact_corr` and `C213_exact_fit` compare with the exact model, on a fresh object and for every optimiser. `C213_zero` (`Props/CorrZero.lean`) shows that the spread is needed. |
| C214 | DCC starting weights and fit in floating point | DccStartFloat: start, objective, fit, exact_grid, exact_objective, exact_start, exact_fit | `Model/RoundedDccFit.lean` writes `np.linspace` (rounded step, products and sums, last entry replaced by `stop`), the search (a fold that keeps the last candidate with likelihood above minus infinity), the objective with the covariance matrix of C213 and `fit` after the univariate fits. `Props/DccStartFloat.lean`: every grid entry is within 2^-40 of its exact value, so the exact sum of candidate (k, j) is 0.61 + (7k + 5j) 0.7/90 up to 2^-39 and equals one for no integers; candidates with 7k + 5j at least 51 are skipped, the others have computed 1 - a - b well above 2^-60. The last one kept is k = 7, j = 0. The objective is finite by `C211_dcc`, whose range for the variances of `np.cov` was widened to [2^-210, 2^246] so that the bounds of C213 for `np.cov` apply. That the optimiser's point is in range and its value is the objective's are hypotheses on the optimiser. `C214_exact_grid`, `C214_exact_objective`, `C214_exact_start` and `C214_exact_fit` compare grid, objective, search and fit with the exact model on an object whose univariate models are estimated (fitting them again changes nothing, as the first line of their `fit` ensures), for every optimiser. |
| C215 | GJR-DCC starting weights and fit in floating point | GjrDccFloat: residuals, spread, weights, objective, fit, exact_objective, exact_start, exact_fit | `Model/RoundedGjrDcc.lean` repeats the correlation step of C214 on two `GJRGARCHModel`s: `GJRGARCHModel_DCC` inherits every method of `GARCHModel_DCC`, only the variance path that left `sigma2` is the asymmetric one. `Props/GjrDccFloat.lean`: that path stays within [2^-80, 2^79] by the path lemma of C211, so the standardised residuals are finite (`C215_residuals`) and spread out when the series crosses its fitted mean (`C215_spread`); the objective is finite at all weights of the range by C207 and the bounds of C213 for `np.cov`; search and fit follow from `C214_start`, which holds for any objective. The comparisons without rounding are as in C214; what the fitted univariate models hold is a hypothesis (`f1`, `f2` describe it). |

{
 "C01": "reduction from XR to reals, N(x)+N(-x)=1",
 "C02": "Gaussian integral of the payoff (change of variable, completion of the square)",
 "C03": "from C02 by Jensen/monotone integrals; strictness from positive tails",
 "C04": "derivative A e^{-qT} sqrt(T) φ(d1) > 0, strict monotonicity from the derivative",
 "C05": "expectation form and convexity; homogeneity by algebra",
 "C06": "case analysis on zero/negative volatility and maturity in XR",
 "C07": "solver oracle; reuse of option bounds; the squares appear in the residuals",
 "C08": "solver oracle; reuse of option bounds; the squares appear in the residuals",
 "C09": "solver oracle; reuse of option bounds; the squares appear in the residuals",
 "C10": "eigenvalues of a positive semidefinite covariance; sorted suffix sums",
 "C11": "eigenvalues of a positive semidefinite covariance; sorted suffix sums",
 "C101": "eigenvalues of a positive semidefinite covariance; sorted suffix sums",
 "C104": "eigenvalues of a positive semidefinite covariance; sorted suffix sums",
 "C12": "object as state machine; invariant over all call histories",
 "C13": "integer arithmetic of negative slicing",
 "C102": "eigenvalues under scaling, permutation, shift (characteristic polynomial)",
 "C103": "rank-one covariance has one non-zero eigenvalue",
 "C105": "case analysis on sizes and NaN",
 "C14": "histogram sums: exchange of finite sums, slot invariants of the fill loop",
 "C15": "histogram sums: exchange of finite sums, slot invariants of the fill loop",
 "C16": "histogram sums: exchange of finite sums, slot invariants of the fill loop",
 "C106": "histogram sums: exchange of finite sums, slot invariants of the fill loop",
 "C17": "error and NaN analysis of the loop and the final division",
 "C18": "error and NaN analysis of the loop and the final division",
 "C107": "error and NaN analysis of the loop and the final division",
 "C108": "error and NaN analysis of the loop and the final division",
 "C109": "error and NaN analysis of the loop and the final division",
 "C19": "normal equations; least-squares minimiser",
 "C20": "normal equations; least-squares minimiser",
 "C21": "population variance identities",
 "C22": "order statistics, linear interpolation of the percentile",
 "C24": "order statistics, linear interpolation of the percentile",
 "C25": "order statistics, linear interpolation of the percentile",
 "C23": "permutation invariance of sorting; affine maps",
 "C26": "least-squares contract; uniqueness under full rank",
 "C27": "least-squares contract; uniqueness under full rank",
 "C28": "complete case analysis of the argument checks",
 "C32": "complete case analysis of the argument checks",
 "C46": "complete case analysis of the argument checks",
 "C54": "complete case analysis of the argument checks",
 "C29": "list induction over firms; LRMES oracle",
 "C30": "list induction over firms; LRMES oracle",
 "C31": "list induction over firms; LRMES oracle",
 "C33": "list induction over firms; LRMES oracle",
 "C34": "fold over the simulated paths",
 "C35": "fold over the simulated paths",
 "C36": "fold over the simulated paths",
 "C37": "Cauchy-Schwarz invariant on (q_i, q_m, q_im) by induction on the path",
 "C38": "simulation relation between the Python and the C++ loop",
 "C39": "algebra of the 2x2 Cholesky factor",
 "C40": "algebra on admissible parameters",
 "C43": "algebra on admissible parameters",
 "C41": "invariant of the fold over the start grid, for arbitrary optimiser results",
 "C42": "invariant of the fold over the start grid, for arbitrary optimiser results",
 "C44": "log-sum-exp algebra; Poisson mass function and independence product",
 "C45": "log-sum-exp algebra; Poisson mass function and independence product",
 "C47": "weighted mean algebra on lists; case analysis of the direction argument",
 "C48": "weighted mean algebra on lists; case analysis of the direction argument",
 "C49": "weighted mean algebra on lists; case analysis of the direction argument",
 "C50": "weighted mean algebra on lists; case analysis of the direction argument",
 "C51": "weighted mean algebra on lists; case analysis of the direction argument",
 "C52": "weighted mean algebra on lists; case analysis of the direction argument",
 "C53": "weighted mean algebra on lists; case analysis of the direction argument",
 "C55": "nanmean as the mean of the non-NaN entries; case analysis of book depth",
 "C56": "nanmean as the mean of the non-NaN entries; case analysis of book depth",
 "C57": "nanmean as the mean of the non-NaN entries; case analysis of book depth",
 "C58": "nanmean as the mean of the non-NaN entries; case analysis of book depth",
 "C59": "state machine over call histories",
 "C60": "interleaving semantics, inductive invariant; witness schedule for the race",
 "C61": "log of the product of normal densities by induction",
 "C62": "induction along the recursion",
 "C63": "induction along the recursion",
 "C68": "induction along the recursion",
 "C64": "case analysis on the two bounds, log inequality",
 "C65": "loop-by-loop equality of two programs; NaN witness",
 "C66": "finite sums with positive weights",
 "C67": "finite sums with positive weights",
 "C69": "fold over the grid of starting values; witness data",
 "C70": "fold over the grid of starting values; witness data",
 "C71": "state machine with optimiser traces C71_reported_*: unfolding the objective at the point a truthful optimiser returns.",
 "C72": "state machine with optimiser traces",
 "C73": "conditional expectation with the sign indicator",
 "C74": "density algebra: bivariate normal, decomposition of the log-likelihood",
 "C75": "density algebra: bivariate normal, decomposition of the log-likelihood",
 "C76": "Cauchy-Schwarz invariant of the correlation recursion",
 "C77": "program equivalence up to Q-bar; witness",
 "C78": "grid fold; witness",
 "C79": "idempotence of the state transformer for a deterministic optimiser",
 "C80": "unfolding of the objective; trace invariant of the run",
 "C124": "unfolding of the objective; trace invariant of the run",
 "C81": "induction on tree growth",
 "C98": "induction on tree growth",
 "C82": "route functions agree iff no NaN is met; induction on the tree",
 "C83": "route functions agree iff no NaN is met; induction on the tree",
 "C84": "positivity of c(n), monotonicity of 2^x",
 "C85": "invariant over all interleavings of the worker threads",
 "C86": "arithmetic of the seed offsets",
 "C87": "arithmetic of the seed offsets",
 "C99": "invariant of the worker loop; memory model of fixed-width texts",
 "C100": "invariant of the worker loop; memory model of fixed-width texts",
 "C88": "Gaussian integral; limiting case rho = 1",
 "C110": "Gaussian integral; limiting case rho = 1",
 "C89": "unfolding and XR case analysis",
 "C90": "unfolding and XR case analysis",
 "C112": "unfolding and XR case analysis",
 "C111": "intermediate value theorem and strict monotonicity",
 "C91": "algebra of min/max and means",
 "C92": "convolution theorem for the finite Fourier transform",
 "C113": "convolution theorem for the finite Fourier transform",
 "C115": "convolution theorem for the finite Fourier transform",
 "C114": "empty window: 0/0 and the Fourier sums",
 "C93": "permutation and its inverse",
 "C95": "index arithmetic of the cohorts",
 "C121": "index arithmetic of the cohorts",
 "C122": "index arithmetic of the cohorts",
 "C116": "telescoping sums of the factor path",
 "C117": "telescoping sums of the factor path",
 "C118": "window 0 in C114 carried through the valuation",
 "C119": "complete error analysis",
 "C120": "state of the caller's list, error vectors",
 "C94": "operational semantics of imports with a module table; induction over histories",
 "C123": "operational semantics of imports with a module table; induction over histories",
 "C96": "nested loops over a 4-D grid: entry-wise description",
 "C97": "error analysis of the likelihood and the grid search",
 "C125": "optimiser contract carried through the fit and through any history of calls",
 "C126": "optimiser contract carried through the fit and through any history of calls",
 "C127": "composition of the fits, uniqueness of the second step",
 "C128": "closed form of the unique output over all schedules; two-run comparison of tree growth",
 "C129": "closed form of the unique output over all schedules; two-run comparison of tree growth",
 "C130": "closed form of the unique output over all schedules; two-run comparison of tree growth",
 "C132": "closed form of the unique output over all schedules; two-run comparison of tree growth",
 "C131": "C loops on memory equal the list recursion on the dense block",
 "C133": "evenness conditions of C119 for the main grid and the first lookup cell, combined modulo 40; success by C91 and C96",
 "C134": "aggregate value of C116 as a polynomial in e^{0.005}; numeric enclosure and monotonicity give a strict minimum at 17",
 "C135": "balance-sheet identities of C91 carried to the printed vectors",
 "C136": "parity, bounds and risk-neutral form of blsprice (C01-C03), root characterisation of C90",
 "C137": "the lookup succeeds only if every cell does (induction over cells, C96); flattening of the table",
 "C138": "typed arrays: exact value and type of every intermediate column; wrap is the identity on representable values",
 "C139": "closed form of the wrapped difference, sum comparison for the exact 'iff'",
 "C140": "weights computed in the product type; explicit witness in every width",
 "C141": "closed form of wrapped depths; comparison of means",
 "C142": "closed form of wrapped differences; column-wise equality with the float model",
 "C143": "min/max stay representable under promotion; mixture identity with the wrapped -B",
 "C144": "typed addition followed by float arithmetic",
 "C145": "Model/DccAny: argument kinds, dynamic class of the univariate models, positional parameter fields; invariant that the univariate models stay fixed during the second step; simulation proof that for models of one class it is the typed dccFit (C145_typed)",
 "C146": "totality of the univariate fits on regular data (C69), length invariants of all paths, induction over grid and optimiser trace",
 "C147": "Model/MgarchMem: index loops over strided memory (GETPTR); induction on the remaining steps shows they are the list recursions of Model/Mgarch and Model/Lrmes",
 "C148": "Model/Rounded `pin`; laws of rounding (monotone, representable integers), which Basic/Float proves for round-to-nearest-even in every binary format",
 "C149": "Model/Rounded `quotedSpread`; the midpoint law of binary rounding (Basic/Float `rd_mid`), sums in any order and bracketing bounded through exactly representable integers",
 "C150": "Model/Rounded `effectiveSpread`, `realizedSpread`, `simplePriceImpact`; the set of NaN and non-negative numbers is closed under the rounded operations used",
 "C151": "Model/Rounded `scaledDepthDifference`, `bidSlope`; bounds of one difference from monotonicity and doubling, sums bounded through integers; a computed counterexample for overflow",
 "C152": "Model/Rounded `boundRows`, `garchVariance`, `gjrVariance`; induction along the recursion, max and the log penalty never go below the lower bound; NaN-freeness by the closure of non-negative numbers",
 "C153": "Model/Rounded `srisk`, `aggregate`; each rounded operation is monotone; sums of non-negative numbers dominate their terms in every order",
 "C154": "Model/Rounded `simulation`, `accumulate`, `lrmes`; the accumulated return is at least minus the number of events, which are exactly representable integers",
 "C155": "Model/Rounded `zScore`, `std`; the computed square root is never negative, division keeps the sign",
 "C156": "Model/Matlab `smooth` (1-based indexing, complex fft/ifft as sums) against Model/FftSmooth; both are reduced to one list `smoothList`; domains by case analysis on the indices",
 "C157": "Model/Matlab `mertonSolution` against Model/Merton, case analysis on the signs",
 "C158": "Model/Matlab `round9` (half away from zero) against Model/Cohort `round9` (half to even)",
 "C159": "Model/Matlab `single` and Model/Cohort `singleCohort` are both evaluated to the same tail; the yields agree because the root is unique (C111); keys that are apart sort alike with and without rounding; domain: the window must be an even whole number",
 "C160": "Model/Matlab `multi` and Model/Cohort `multiCohort` are both evaluated to tails with pointwise equal arguments (`tail_same2`); keys are proportional to the loan size, so ties occur for countably many sizes",
 "C161": "Model/Matlab `createLookup` is the Python table construction for the Matlab computation (`mlookup_eq`, a monad morphism); then C96 on both sides and C159/C160 in each cell",
 "C162": "Basic/Accuracy: laws of accurate roundings, proved for every binary format (`Format.accurate`); `Close u k x y` counts relative errors, closed under products, quotients, sums of non-negative numbers and rounding (Lemmas/RoundError); PIN is five roundings",
 "C163": "as C162; the difference of two numbers of the format has one relative error without underflow; sums in any order by induction on `IsSum` (`Accurate.sum_close`)",
 "C164": "as C163 for the two sums of the weighted mean; one proof for the three measures (`weighted_close`)",
 "C165": "induction over the periods (`path_close`): each step adds two or three roundings; the bounds are not reached (`close_inside`, `check_inside`)",
 "C166": "`Apx u k x B y`: errors relative to a magnitude, closed under signed sums, products and rounding; six roundings",
 "C167": "`Apx` with the assumed accuracy of the logarithm; signed sums in any order (`Accurate.sum_apx`)",
 "C168": "heap model with reference counts and cascading release (`Model/CApi`); the list of parameters by induction (`drain_ok`), the wrappers case by case, histories by induction",
 "C169": "pending references as a function added to the counts of the old heap (`bump`, `taken`, `made`), so that taking and releasing commute; the float objects by induction over the rows",
 "C170": "relative error calculus (`Close`) through logarithm, cancellation in c(n) (condition number at most 15), summation in the order of the schedule, and 2^-x by x e^-x ≤ 1; fits-in-int invariants of the grown trees; order dependence by evaluating binary64 rounding on a concrete forest with two interleavings",
 "C171": "case analysis on the parameter list; the loop of either implementation is shown equal to the kernel of the estimation with bounds read off the rows (Python) or off the flattened array (extension, index arithmetic by division); concrete three-column call",
 "C172": "induction over the residuals for a generic store; truncation to int64 as floor/ceiling, bit patterns of int64 read as binary64 by arithmetic on the fields; NaN propagates through the recursion; a NaN or infinite first variance fails to be stored",
 "C173": "each method is a program over attribute writes; a call denotes the list of states after each write and its outcome (Model/Crash). Final states are shown equal to the functions of the other models; crash states are characterised by a Hoare logic with crash conditions (Lemmas/Crash), induction over the optimiser trace and the start grid; retries by congruence of fit in the attributes it reads; induction over histories",
 "C174": "the same program semantics; the loop invariant of C41 applied to a prefix of the starting values",
 "C175": "each method is a program of atomic reads and writes of the shared object (Model/Conc), threads are interleaved by an arbitrary schedule, the optimiser is any decision tree of objective evaluations; safety by rely-guarantee reasoning (Lemmas/Conc: Ok, sound for every schedule), termination under fair schedules by induction over the program, hazards by constructing schedules for arbitrary data",
 "C176": "the same semantics with Parameters objects in a heap (Model/ConcPin); rely-guarantee invariant over the heap; run alone = pinEstimate by induction over the starts; hazards by constructed schedules",
 "C177": "rely-guarantee with the invariant that filled caches are right",
 "C178": "Python's warnings.filters as list objects plus a reference (Model/Warn), guarded blocks as programs with a finally part, numerical work as arbitrary code that may read but not change the filters; alone by a Hoare-style predicate closed under sequencing, concurrent by rely-guarantee, hazard by a constructed schedule",
 "C179": "the same filter model, direct execution of the three parts",
 "C180": "estimate as a program of attribute writes on the DCC object (Model/LrmesObj, the semantics of C171-C173); invariant over histories: either not yet estimated with univariate fits that give what they would have given, or estimated with parameters possibly written in part and univariate models that re-estimate to the right ones; the stale state is constructed for an arbitrary point of the optimiser's trace",
 "C181": "composition of C146 and C145 (the DCC fit of regular series completes) with C180; unusable series by C97 (a NaN variance makes every starting likelihood NaN)",
 "C182": "Model/HeapArr gives NumPy arrays as references into memory with in-place assignment; Model/HeapGarch rewrites `_garch.py` in it. Refinement (Lemmas/HeapArr, HeapGarch): every method computes the list model and keeps all existing buffers; loops by an invariant on the filled prefix; histories by induction over the program.",
 "C183": "Refinement of C182 plus induction over programs; GJR refits by comparing two estimations on equal data; the LRMES constructor step by step.",
 "C184": "Model/MatlabSim is the script; its several-cohort part is C160, the state index is computed from the strictly closest state (C134), minimum and maximum of finite vectors agree with NumPy's, and the fits agree entry by entry. Condition on the volatilities from C185.",
 "C185": "The smoother returns at least 3/2 of the smallest minus half of the largest payoff (window means at both ends, Lemmas/SmoothPos); repayments lie below the promised amount (C92). Counterexample: two groups of simulations, limits of the expected repayment by dominated convergence, then the first smoothed value is computed exactly.",
 "C186": "Second model of the forest with the C integer types (two's complement conversions, unsigned wrap-around). A tree of fewer than 2^31 observations gives the same path lengths (induction on the tree with C81's node sizes); the sizes are those of C99; a leaf's wrapped count is never larger and the average path length is strictly increasing, so wrapped paths are shorter and scores larger. For equal rows every observation ends in the one leaf that holds the whole sample.",
 "C187": "N-dimensional arrays with NumPy broadcasting (shapes aligned at the last axis). Invariant for every intermediate result: it exists exactly if the shapes of the arguments used so far fit, has their combined shape, and its broadcast entries are the function of the arguments' entries; one lemma per operator, applied 24 times.",
 "C188": "A failed univariate fit of a new model leaves the parameters at NaN; every simulated market return of every path is then NaN, the test `sum - 1 < C` is false, so no path counts and the result is 0.0 (market), or the sum over counted paths is NaN (firm). Induction over days and over paths; totality of the rest from C181.",
 "C189": "Composition: Model/SriskRun plugs the LRMES object of Model/LrmesObj (with its GJR-GARCH and DCC fits, optimisers and fresh memory as parameters) into SRISK. From C181 (LRMES of usable series completes or raises RuntimeError; unusable ones raise ValueError), C35 (finite LRMES is at most 1), C29/C31, and induction over the firms (first error wins).",
 "C190": "Contract of gelsd: an orthonormal basis of eigenvectors of A^T A with squared singular values as eigenvalues; terms with a singular value at most rcond times another one are dropped (existence from the spectral theorem). If no positive singular value is dropped, the normal equations and minimal norm follow; one column never drops; three columns: quadratic-form and determinant criteria; counterexample by computing the eigenvectors of a diagonal Gram matrix for an arbitrary decomposition.",
 "C191": "`Model/Shared.lean`: a store of univariate models, correlation models as pairs of references into it, the public methods as `Run`s (sequences of attribute writes with an outcome) on the part of the store they refer to, and the inductively defined worlds reachable by calls that return or raise (`Calls`) or may be interrupted (`Interrupted`). Invariant: the fit of every stored univariate model has the effect it has at the start, and every correlation model with its flag set is, with its models, what the first call would have produced; kept by each method since univariate fits are idempotent (C79) and a raising fit leaves a model that fits as before (C173).",
 "C192": "`Model/ConcDcc.lean`: `fit` of a correlation model as an interleavable program (`Prog`) over the store of `Model/Shared.lean`, one action per attribute read or write, the univariate `garchFitProg` of `Model/Conc.lean` acting on its slot. First part: as long as the univariate models keep their values, such a program depends on and writes nothing but its own correlation object (`Own`, closed under sequencing, since the fit of an estimated model only reads), hence its outcome is invariant under actions of other threads; run alone it equals the sequential `dccFit` of `Model/Mgarch.lean`. Second part: a schedule is built that stops one thread between `self.estimation_success = True` and `self.parameters = ...` (`_garch.py` lines 95-96).",
 "C193": "Model: `Model/Rounded.lean` (rounded `boundsCheckPy/Cpp`, `gjrNext`, `gjrNextCpp`, `garchVariance`, `gjrVariance`; both implementations call the same `log`, squares are products). Proof (`Props/RoundedKernels.lean`): case analysis of the check, induction over the loop; adding zero to a rounded number changes nothing; no NaN with positive coefficients from `C152_cpp`.",
 "C194": "Model: `Model/Rounded.lean` (`simVarPy`, `simVarCpp`, `simStep`, `simLoop`, `simSum`, `simulation`, `accumulate`). Proof (`Props/RoundedEvents.lean`): simulation relation between the market components of the two loops (induction over the innovations), the error bound for sums in any order (`Accurate.sum_signed`), induction over the paths.",
 "C195": "`Model/RoundedTail.lean` writes lines 52-90 of `estimate` in rounded arithmetic (counts of defaults and loss draws are inputs; the normal draws, Cholesky and quantiles of lines 39-51 are not repeated). The fill loop is shown to leave in every slot a sum (in some order) of the frequencies that go there (`Lemmas/RoundedDip.lean`), all exact values are ratios of integers of bounded size, so nothing under- or overflows, and the relative errors are added up with the `Close` calculus. The 101 whole percentages are all of the domain of that statement and are evaluated in the kernel from certificates of correct rounding (`rd_cert`).",
 "C196": "`Model/RoundedTail.lean` writes `estimate` with NumPy's linear percentile in rounded arithmetic: `q * 100`, division by 100, multiplication by `n - 1`, floor, and NumPy's two-sided interpolation `_lerp`. `Lemmas/RoundedMes.lean` shows that the interpolation stays between its two end points although the rounded difference may exceed the exact one (the weight is at most 1/2 on each side, and the difference of two doubles is exact when it is tiny). The number of selected days is then counted in the sorted list. For `q = 0.05` the doubles are computed (`rd64_eq`): the position is `(n-1)/20 (1 + 2^-54)` before the last rounding, which is the whole number itself when 20 divides `n - 1` and stays strictly between whole numbers otherwise. The counterexample at 0.07 is evaluated exactly. The accuracy statements use the summation and product error lemmas.",
 "C197": "`Model/RoundedAbsorption.lean` writes lines 27-31 of `estimate` with the rounded product `f * n`, the exact `Decimal` rounding, the left-to-right builtin `sum` and the rounded division; the eigenvalues and the trace are the results of the library calls (inputs). The count follows from the rounding error of the product and the distance of `c n / 100` from the half-integers; the counterexample is evaluated exactly. Monotonicity: adding non-negative numbers in front of a left-to-right sum cannot lower it, because rounding is monotone. Accuracy by the summation and division error lemmas.",
 "C198": "`Lemmas/Mills.lean`: with `u = d2` as the unknown the second equation gives the total volatility explicitly, `v = e w / (e + N(u))`, and the first becomes one equation in `u`. Its derivative at a zero is `(e + N(u)) v` times the variance of a truncated normal variable, `1 - d h - h^2 > 0` (three monotone functions with limit 0 at minus infinity), so there is at most one zero (a differentiable function that increases at each of its zeros); signs at two explicit points and the intermediate value theorem give one. `Props/CcaSolution.lean` translates between this and the equations as coded, and excludes zero, infinite and NaN components.",
 "C199": "Put-call parity for the two legs as computed: debt = asset value - (call on the assets), and the first residual is equity minus that call. Option bounds give the range.",
 "C200": "`Model/CcaOverflow.lean` repeats the code with a `math.exp` that raises above a limit `L`. While the discount factor is below the limit the equations are those of `Model/Cca.lean`; the exponent of the CDS leg is negative because the debt lies below the discounted barrier.",
 "C201": "The same one-dimensional reduction as for C198, with the payouts as an additional non-negative term `k = (1 - e^{-dT})/e^{-dT}` beside `N(d1)`; the truncated-variance inequality survives because `2 N(d) > d n(d)`. Non-positive components: C112 for the asset value, and a zero volatility leaves the second error at `sigE`.",
 "C202": "Model/RoundedOption: blsprice with every operation rounded, norm.cdf a function described by Spec/Distribution (DistFn). Monotonicity of rounding gives the bounds and signs; the error of each product and difference (Accurate) is summed for parity. Concrete case: correctly rounded ncdf (DistFn with 2*2^-53).",
 "C203": "Limits of the Black formula for the total volatility going to 0 (intrinsic value; three cases of the moneyness) and to infinity (discounted spot), continuity, the intermediate value theorem, and strict monotonicity (C04) for uniqueness.",
 "C204": "The derivative of the Black formula in the asset value is N(d1), strictly increasing: strict convexity; the strike by parity. Vertical spreads from monotonicity of call and put and parity; calendar from monotonicity in total volatility and in the discounted strike.",
 "C205": "Model.Rounded.loglik and the two objectives over an arbitrary rounding machine. Each term is at most c because its three summands are bounded below (monotone rounding) and NaN is excluded; a rounded sum of n numbers at most c is at most c*n in any order. Accuracy by the signed error calculus (Apx) of Lemmas/RoundError. np.log is a parameter of the machine: nonnegative from 1 on and bounded below by -c on [l, inf]; for accuracy within one rounding error.",
 "C206": "`Model/RoundedDcc.lean` writes both kernels in rounded arithmetic (Python: `np.corrcoef` after the covariance matrix, which is a parameter because its order of summation is the library's; C++: mean squares and cross products summed left to right). The invariant of the loop (`Lemmas/RoundedDcc.lean`, `RoundedDcc.loop_bound`) is `|q12| (1-u)^k <= sqrt(q11 q22)`: each step adds at most ten rounding errors to `k` (Cauchy-Schwarz on the three terms of the update), while the diagonal stays between `(1-a-b) m / 2` and `2 B`. The start satisfies it with `k = 4` (Python, because of the clip in `corrcoef`) or `2T + 4` (C++, Cauchy-Schwarz for the sums). The excess is evaluated exactly in binary64 with certificates for +, -, *, / and sqrt (`mul_d`, ..., `sqrt_d`). The NaN is monotonicity of rounding: `r * r` does not round below `|r|`, and a difference of doubles does not round to zero.",
 "C207": "After the clip the computed `1 - rho ** 2` lies in [1/100, 1] (`RoundedDcc.den`), so each term is bounded by `20000 Z^2` (`term_bnd`) and so is the sum in any order (`Accurate.sum_signed`). That `log` of a number in [1/100, 1] is computed within [-5, 5] is a hypothesis, shown for correctly rounded `log` (`ieee_log5`).",
 "C208": "`Model/RoundedCcc.lean` writes the term of `_mgarch.py` lines 181-188 operation by operation. `CccFloat.term_fin` bounds each intermediate result: the standardised residuals (`std_one`), `1 - rho ** 2` in [1/100, 1] (`den`), the product under the logarithm in [2^-170, 2^170]; the sum of the terms is finite in any order (`Accurate.sum_signed`). That `log` is computed within [-200, 200] there is a hypothesis, shown for correctly rounded `log`. The variances are given (their lower bounds are C152).",
 "C209": "`Model/RoundedPin.lean` writes lines 133-169 operation by operation; the power function of the machine is a parameter. `PinFloat.exps/mix/day1` bound every intermediate result of the Lin-Ke form by integers, which rounding respects (`rd_bd`, `add_bd`, ...): the exponents are not positive, one of them is exactly zero, so the mixture is at most 3 and at least the least weight. For EHO `C209_eho_nan` follows 0 (underflow of exp) times a power times infinity = NaN through the sums. `C209_silent` is an induction over the optimisation results (from the right) on the exact model's `estimate`. Correctly rounded exp and powers meet the hypotheses (`ieee_exp0`, `ieee_pow`).",
 "C210": "`Lemmas/RoundErrorLog.lean` adds logarithms (a relative error of the argument is an absolute error of the logarithm), maxima and shifts of the exponents of a mixture to the error calculus `Apx`/`Close`. `PinAcc.exps` bounds the three exponents (5 errors), `mix` the mixture (13 errors including underflow of exp and of products, covered by the least weight), `day` both terms of a day (6 and 14 errors); `Accurate.sum_apx` sums in any order; `C45_likelihood` connects the exact formula to the Poisson mixture. `C210_binary64` instantiates the constants; `ieee_expOk`, `ieee_logOk` show that correctly rounded functions meet the hypotheses.",
 "C211": "`Model/RoundedPrep.lean` writes `preparation` (`_garch.py` lines 104-128, 236-310) operation by operation and puts it in front of the rounded objectives of C205 and C208. `Props/PrepFloat.lean` carries the type `Nn B` (a finite non-negative number of the format at most `B`) through every operation: weights sum to at least one because the first is one, so normalised weights are at most one; the computed variance keeps at least 2^-32 of the exact sample variance although the mean is rounded (`dev_min`, `var_shift`, `var_bd`: moving the centre and perturbing each deviation cannot lose more than half), so the lower bound is positive; every variance of the recursion is clamped to its row (`check`), so the logarithms are taken in [2^-170, 2^170]; the sums are finite in any order. The powers of 0.94 are any function into [0, 1] of the format with value 1 at 0; correctly rounded powers are an instance. The hypotheses on `log` are those of C208 and monotonicity at 1; the sums of `np.dot` are sums of rounded products in any order (no fused multiply-add). For the DCC model `FittedUni` holds what its objective reads of a fitted univariate model (stored mean, last evaluated candidate, reported log-likelihood); the standardised residuals are at most 2^60 (`std60`) and `C207_candidates`, which `C207_model` now also uses, closes the chain. That the second moments of the standardised residuals are not tiny is a hypothesis on the computed residuals; `cov` is what `np.cov` returned.",
 "C212": "`Model/RoundedStart.lean` writes the grids, `starting_values` and `fit` of the two univariate models with every operation rounded, on top of `Model/RoundedPrep.lean`. Since `max_likelihood` is never updated, the search keeps the last candidate with likelihood above minus infinity; `Props/StartFloat.lean` proves that all candidates qualify: the rounded omega is between 2^-80 and 2^40 and the rounded differences persistence - alpha (- gamma/2) stay between 0 and 1, so `garch_path` and `gjr_path` of C211 and `loglik_fin` apply to each of the 16 (64) candidates. The optimiser is any function returning success, point and value; that the point is in range and the value is the objective's are hypotheses on its result. `C212_exact` compares with the exact starting values, `C212_exact_fit` with the fits of the exact model on a fresh object, for every optimiser.",
 "C213": "`Model/RoundedCorr.lean` writes `np.cov` (rounded means, centred values, sums of rounded products in any order, times the rounded reciprocal of n - 1), `np.corrcoef` on top of the definition of C210, and `GARCHModel_CCC.fit` after its univariate fits. `Props/CorrFloat.lean`: two values 2^-80 apart cannot both be within 2^-82 of the computed mean, so one rounded centred value is not tiny, its square is a lower bound of the diagonal entry (all terms of that sum are non-negative, so in any order the rounded sum is at least any of them rounded), and the square roots are positive; no overflow occurs, so the quotient is not NaN and clipping puts it in [-1, 1]. `C213_spread` gives the hypothesis for residuals: one is positive and one negative, both bounded away from 0. `C213_ccc_fit` uses `C211_ccc` at the start and at the optimiser's point; that this point is in range and its value is the objective's are hypotheses on the optimiser. `C213_exact_corr` and `C213_exact_fit` compare with the exact model, on a fresh object and for every optimiser. `C213_zero` (`Props/CorrZero.lean`) shows that the spread is needed.",
 "C214": "`Model/RoundedDccFit.lean` writes `np.linspace` (rounded step, products and sums, last entry replaced by `stop`), the search (a fold that keeps the last candidate with likelihood above minus infinity), the objective with the covariance matrix of C213 and `fit` after the univariate fits. `Props/DccStartFloat.lean`: every grid entry is within 2^-40 of its exact value, so the exact sum of candidate (k, j) is 0.61 + (7k + 5j) 0.7/90 up to 2^-39 and equals one for no integers; candidates with 7k + 5j at least 51 are skipped, the others have computed 1 - a - b well above 2^-60. The last one kept is k = 7, j = 0. The objective is finite by `C211_dcc`, whose range for the variances of `np.cov` was widened to [2^-210, 2^246] so that the bounds of C213 for `np.cov` apply. That the optimiser's point is in range and its value is the objective's are hypotheses on the optimiser. `C214_exact_grid`, `C214_exact_objective`, `C214_exact_start` and `C214_exact_fit` compare grid, objective, search and fit with the exact model on an object whose univariate models are estimated (fitting them again changes nothing, as the first line of their `fit` ensures), for every optimiser.",
 "C215": "`Model/RoundedGjrDcc.lean` repeats the correlation step of C214 on two `GJRGARCHModel`s: `GJRGARCHModel_DCC` inherits every method of `GARCHModel_DCC`, only the variance path that left `sigma2` is the asymmetric one. `Props/GjrDccFloat.lean`: that path stays within [2^-80, 2^79] by the path lemma of C211, so the standardised residuals are finite (`C215_residuals`) and spread out when the series crosses its fitted mean (`C215_spread`); the objective is finite at all weights of the range by C207 and the bounds of C213 for `np.cov`; search and fit follow from `C214_start`, which holds for any objective. The comparisons without rounding are as in C214; what the fitted univariate models hold is a hypothesis (`f1`, `f2` describe it)."
}
{"id": "C01", "title": "Put-call parity", "statement": "blsprice(S,K,r,T,sigma,q) returns finite (call,put) with call - put = S e^{-qT} - K e^{-rT}.", "quantifier": "all S,K,T,sigma>0 and all real r,q", "why_tests_cant": "The domain is a continuum of real inputs; a test evaluates finitely many points.", "anchors": ["src/frds/measures/_option_price.py::blsprice"]}
{"id": "C02", "title": "blsprice is the risk-neutral expectation", "statement": "The two returned numbers are exactly e^{-rT} E[max(S_T-K,0)] and e^{-rT} E[max(K-S_T,0)], where S_T = S exp((r-q-sigma^2/2)T + sigma sqrt(T) Z), Z standard normal (an integral against the Gaussian measure).", "quantifier": "all S,K,T,sigma>0, all real r,q", "why_tests_cant": "The domain is a continuum of real inputs; a test evaluates finitely many points.", "anchors": ["src/frds/measures/_option_price.py::blsprice"]}
{"id": "C03", "title": "No-arbitrage bounds", "statement": "max(0, S e^{-qT}-K e^{-rT}) < call < S e^{-qT} and max(0, K e^{-rT}-S e^{-qT}) < put < K e^{-rT}.", "quantifier": "all S,K,T,sigma>0, all real r,q", "why_tests_cant": "The domain is a continuum of real inputs; a test evaluates finitely many points.", "anchors": ["src/frds/measures/_option_price.py::blsprice"]}
{"id": "C04", "title": "Prices strictly increase with volatility", "statement": "With everything else fixed, both call and put are strictly increasing in sigma on (0,inf), so an implied volatility is unique.", "quantifier": "all S,K,T>0, all r,q, all pairs 0<sigma1<sigma2", "why_tests_cant": "The domain is a continuum of real inputs; a test evaluates finitely many points.", "anchors": ["src/frds/measures/_option_price.py::blsprice"]}
{"id": "C05", "title": "Spot/strike monotonicity and homogeneity", "statement": "call is strictly increasing in S and strictly decreasing in K, put the reverse; scaling S and K by c>0 scales both prices by c; swapping (S,q) with (K,r) swaps call and put.", "quantifier": "all positive S,K,T,sigma,c, all r,q", "why_tests_cant": "The domain is a continuum of real inputs; a test evaluates finitely many points.", "anchors": ["src/frds/measures/_option_price.py::blsprice"]}
{"id": "C06", "title": "Degenerate volatility or maturity", "statement": "With sigma = 0 (T>0) blsprice returns the discounted intrinsic values of the forward when S e^{-qT} != K e^{-rT}, and (nan, nan) when they are equal; with T = 0 it returns max(S-K,0), max(K-S,0) when S != K and nan when S = K; with S = 0 the call is worth 0 and the put the discounted strike. No exception is raised.", "quantifier": "all S,K>0, all r,q, sigma=0 or T=0", "why_tests_cant": "NaN at a measure-zero set of inputs is missed by sampled tests.", "anchors": ["src/frds/measures/_option_price.py::blsprice"]}
{"id": "C07", "title": "CCA output at an exact solution", "statement": "Whenever the nonlinear solver returns an exact root of the two Merton equations, the implied market value of debt used for the CDS leg equals (solved asset value) - (equity), and equity*volatility = delta * asset value * asset volatility.", "quantifier": "all positive inputs, every solver result that is a root", "why_tests_cant": "Ranges over every behaviour of the external optimiser/solver, which tests see only through one deterministic instance.", "anchors": ["src/frds/measures/_contingent_claim_analysis.py::ContingentClaimAnalysis.estimate"]}
{"id": "C08", "title": "CCA put and CDS-put bounds", "statement": "For any solver result with non-zero components, the returned put price lies strictly between 0 and default_barrier*e^{-rT}; with cds_spread >= 0 and r >= 0 the CDS put lies in [0, default_barrier*e^{-rT}), so the second result is at most the first and above first - D e^{-rT}; with cds_spread = 0 the two results coincide; the second result strictly decreases in cds_spread.", "quantifier": "all positive D,T, all r, all solver results", "why_tests_cant": "Ranges over every behaviour of the external optimiser/solver, which tests see only through one deterministic instance.", "anchors": ["src/frds/measures/_contingent_claim_analysis.py::ContingentClaimAnalysis.estimate"]}
{"id": "C09", "title": "CCA depends on the solver only through squares; zero components", "statement": "Replacing the solver's answer (a,b) by (±a,±b) gives the same output; a zero asset component raises ValueError; a zero volatility component makes the put the discounted intrinsic value max(D e^{-rT} - A, 0) (NaN at the money); exceptions in the solver reach the caller.", "quantifier": "all inputs and all solver results", "why_tests_cant": "Ranges over every behaviour of the external optimiser/solver, which tests see only through one deterministic instance.", "anchors": ["src/frds/measures/_contingent_claim_analysis.py::ContingentClaimAnalysis.estimate"]}
{"id": "C10", "title": "Absorption ratio is in [0,1]", "statement": "For an (n_assets>=2, n_days>=2) return matrix with non-zero total variance and 0<=fraction<=1, estimate returns a number in [0,1]: the sum of the k largest eigenvalues of the sample covariance over its trace, with k = fraction*n rounded half up.", "quantifier": "all return matrices of every size, all fractions in [0,1]", "why_tests_cant": "Arrays of every length and content are covered; tests sample a few arrays.", "anchors": ["src/frds/measures/_absorption_ratio.py::AbsorptionRatio.estimate"]}
{"id": "C11", "title": "Absorption ratio monotone in the fraction, 0 at 0 and 1 at 1", "statement": "estimate(f) <= estimate(g) for f<=g in [0,1]; estimate(0)=0 and estimate(1)=1 (trace = sum of eigenvalues).", "quantifier": "all return matrices, all pairs of fractions", "why_tests_cant": "Arrays of every length and content are covered; tests sample a few arrays.", "anchors": ["src/frds/measures/_absorption_ratio.py::AbsorptionRatio.estimate"]}
{"id": "C12", "title": "Absorption ratio cache is history independent", "statement": "For any sequence of estimate / eigvals / asset_covariance reads on one object whose asset_returns is not reassigned, each call returns what a fresh object would return; if asset_returns is reassigned after the first read, later results still use the old covariance (stale), together with the new n_assets.", "quantifier": "all call sequences", "why_tests_cant": "Ranges over call histories of unbounded length.", "anchors": ["src/frds/measures/_absorption_ratio.py::AbsorptionRatio"]}
{"id": "C13", "title": "Out-of-range fraction wraps around", "statement": "For fraction > 1 the slice start becomes negative and Python wraps it: the result is a partial sum of eigenvalues and can be smaller than estimate(1), not 1. For negative fractions with fraction*n <= -1/2 the result is 0. No error is raised.", "quantifier": "all return matrices and all fractions outside [0,1]", "why_tests_cant": "Documentation does not restrict the argument; the failure depends on the value of round(f*n) relative to n.", "anchors": ["src/frds/measures/_absorption_ratio.py::AbsorptionRatio.estimate"]}
{"id": "C14", "title": "DIP equals tail expected loss", "statement": "When no draw overflows the loss grid and the tail probability is positive, the returned premium equals the sum over grid slots k >= int(threshold*100)*n_banks of (k/100) * Prob(slot k), where Prob(slot k) = (1/n_sim) * sum over i of freq(i defaults) * #{j : ceil(100*loss_ij) = k} and loss_ij is the sum of i LGD draws.", "quantifier": "all default matrices, LGD draws, thresholds >= 0, bank and simulation counts", "why_tests_cant": "Ranges over every outcome of the random generator.", "anchors": ["src/frds/measures/_distress_insurance_premium.py::DistressInsurancePremium.estimate"]}
{"id": "C15", "title": "DIP bounds and loss-distribution mass", "statement": "Under the same conditions 0 <= premium <= n_banks * Prob(at least one default), and the loss distribution built internally sums to 1 - Prob(no default).", "quantifier": "all simulation outcomes", "why_tests_cant": "Ranges over every outcome of the random generator.", "anchors": ["src/frds/measures/_distress_insurance_premium.py::DistressInsurancePremium.estimate"]}
{"id": "C16", "title": "DIP is non-increasing in the threshold", "statement": "For fixed simulation draws, a larger default_threshold never yields a larger premium (as long as the tail probability is positive).", "quantifier": "all pairs of thresholds, all draws", "why_tests_cant": "The domain is a continuum of real inputs; a test evaluates finitely many points.", "anchors": ["src/frds/measures/_distress_insurance_premium.py::DistressInsurancePremium.estimate"]}
{"id": "C17", "title": "DIP returns NaN rather than 0 when no simulated loss reaches the threshold", "statement": "If the tail probability is zero the result is NaN (0/0), even though the insured loss is zero.", "quantifier": "all draws with empty tail", "why_tests_cant": "Happens only on particular simulation outcomes.", "anchors": ["src/frds/measures/_distress_insurance_premium.py::DistressInsurancePremium.estimate"]}
{"id": "C18", "title": "DIP raises IndexError when a simulated loss reaches the top of the grid", "statement": "If ceil(100*loss) equals 100*n_banks for some draw (loss in (n-0.01, n]), the call raises IndexError; otherwise it does not.", "quantifier": "all LGD draws", "why_tests_cant": "Probability of the triggering draw is small unless n_banks=1.", "anchors": ["src/frds/measures/_distress_insurance_premium.py::DistressInsurancePremium.estimate"]}
{"id": "C19", "title": "Kyle lambda is the least-squares slope", "statement": "kyle_lambda(r,x) = 1e6 * a where a minimises sum (r_i - a x_i)^2, it is the unique minimiser when some x_i != 0, and it is 0 when all x_i = 0 (minimum norm).", "quantifier": "all pairs of equal-length real arrays", "why_tests_cant": "Arrays of every length and content are covered; tests sample a few arrays.", "anchors": ["src/frds/measures/_kyle_lambda.py::kyle_lambda"]}
{"id": "C20", "title": "Kyle lambda scaling and exact recovery", "statement": "kyle_lambda(c r, x) = c*kyle_lambda(r,x); kyle_lambda(r, c x) = kyle_lambda(r,x)/c for c != 0; if r = a x exactly (x not all zero) the result is 1e6 a; if r is orthogonal to x it is 0.", "quantifier": "all arrays and scalars", "why_tests_cant": "Arrays of every length and content are covered; tests sample a few arrays.", "anchors": ["src/frds/measures/_kyle_lambda.py::kyle_lambda"]}
{"id": "C21", "title": "Z-score affine behaviour and degenerate history", "statement": "z_score uses the population standard deviation of past ROAs; it is unchanged by shifting all past ROAs, scales by 1/|c| when they are scaled by c, is permutation invariant; with constant history it is +inf, -inf or nan according to the sign of roa+capital_ratio; with empty history nan.", "quantifier": "all reals and all arrays", "why_tests_cant": "Arrays of every length and content are covered; tests sample a few arrays.", "anchors": ["src/frds/measures/_z_score.py::z_score"]}
{"id": "C22", "title": "MES is the firm's average return on the market's worst days", "statement": "estimate(q) is the arithmetic mean of firm returns over exactly the days whose market return is strictly below the linearly interpolated q-quantile of market returns.", "quantifier": "all equal-length arrays, all q in [0,1]", "why_tests_cant": "Arrays of every length and content are covered; tests sample a few arrays.", "anchors": ["src/frds/measures/_marginal_expected_shortfall.py::MarginalExpectedShortfall.estimate"]}
{"id": "C23", "title": "MES invariances", "statement": "MES is invariant under simultaneous permutation of days, affine-equivariant in firm returns, and unchanged by increasing affine transformations of market returns.", "quantifier": "all arrays, all permutations, all affine maps", "why_tests_cant": "Arrays of every length and content are covered; tests sample a few arrays.", "anchors": ["src/frds/measures/_marginal_expected_shortfall.py::MarginalExpectedShortfall.estimate"]}
{"id": "C24", "title": "MES lies between the firm's extreme returns and uses at most ceil(q(n-1)) days", "statement": "When at least one day qualifies, min(firm) <= MES <= max(firm); the number of qualifying days is at most ceil(q*(n-1)).", "quantifier": "all arrays, all q in [0,1]", "why_tests_cant": "Arrays of every length and content are covered; tests sample a few arrays.", "anchors": ["src/frds/measures/_marginal_expected_shortfall.py::MarginalExpectedShortfall.estimate"]}
{"id": "C25", "title": "MES is NaN when no day is strictly below the threshold", "statement": "With q = 0, or a constant market series, or a single day, no day qualifies and the result is NaN rather than an exception; q outside [0,1] or shape mismatch raise AssertionError; empty arrays raise IndexError.", "quantifier": "all such inputs", "why_tests_cant": "Degenerate inputs; strict inequality at the boundary.", "anchors": ["src/frds/measures/_marginal_expected_shortfall.py::MarginalExpectedShortfall"]}
{"id": "C26", "title": "SES is the fitted normalised combination", "statement": "estimate() = (b*mes_firm + c*lvg_firm)/(b+c) where (a,b,c) is a least-squares solution of ses ~ 1 + mes + lvg on the training sample (satisfies the normal equations / minimises the residual sum of squares).", "quantifier": "all training samples of every size, all firm values", "why_tests_cant": "Arrays of every length and content are covered; tests sample a few arrays.", "anchors": ["src/frds/measures/_systemic_expected_shortfall.py::SystemicExpectedShortfall._bflv2012", "src/frds/measures/_systemic_expected_shortfall.py::SystemicExpectedShortfall.estimate"]}
{"id": "C27", "title": "SES invariance and consistency", "statement": "When mes_firm = lvg_firm = v and b+c != 0 the estimate is v; the estimate is unchanged by ses -> s*ses + t (s != 0) when the design has full rank and b+c != 0; if ses = a + b mes + c lvg exactly then the estimate is (b*mes_firm + c*lvg_firm)/(b+c).", "quantifier": "all samples with full column rank, all reals", "why_tests_cant": "Arrays of every length and content are covered; tests sample a few arrays.", "anchors": ["src/frds/measures/_systemic_expected_shortfall.py::SystemicExpectedShortfall._bflv2012"]}
{"id": "C28", "title": "SES argument checking", "statement": "Training arrays of different shapes raise AssertionError; unknown version strings raise AssertionError; 'APPR2017' raises NotImplementedError; b+c = 0 gives inf/nan, not an error.", "quantifier": "all strings, shapes, samples", "why_tests_cant": "All strings.", "anchors": ["src/frds/measures/_systemic_expected_shortfall.py::SystemicExpectedShortfall"]}
{"id": "C29", "title": "SRISK formula", "statement": "estimate() returns for each firm W*(k*(D+W)/W + (1-k)*LRMES - 1) = k*D - (1-k)*W*(1-LRMES) for W != 0, with LRMES of that firm's return column, same horizon, sample size, threshold and seed for every firm. For W = 0 a builtin float raises ZeroDivisionError and a NumPy value yields NaN.", "quantifier": "all W,D,k, all LRMES values, all numbers of firms", "why_tests_cant": "Arrays of every length and content are covered; tests sample a few arrays.", "anchors": ["src/frds/measures/_srisk.py::SRISK.estimate"]}
{"id": "C30", "title": "Firm-level SRISK depends only on the firm's own column", "statement": "Changing or permuting other firms' data leaves firm i's SRISK unchanged; permuting firms permutes the output and leaves the aggregate unchanged.", "quantifier": "all numbers of firms, all permutations", "why_tests_cant": "Arrays of every length and content are covered; tests sample a few arrays.", "anchors": ["src/frds/measures/_srisk.py::SRISK.estimate"]}
{"id": "C31", "title": "Aggregate SRISK", "statement": "With aggregate_srisk=True and several firms the result is the sum of max(0, SRISK_i): non-negative, at least each firm's SRISK, at least the plain sum, and zero iff no firm has a shortfall.", "quantifier": "all firm counts and values", "why_tests_cant": "Arrays of every length and content are covered; tests sample a few arrays.", "anchors": ["src/frds/measures/_srisk.py::SRISK.estimate"]}
{"id": "C32", "title": "SRISK constructor contract", "statement": "The constructor succeeds exactly when shapes and types match the documented contract (1-D: equal shapes and float W,D; 2-D: more than one firm, same number of days, ndarray W,D of shape (n_firms,)); otherwise AssertionError, the shape-unpacking ValueError for rank other than 1 or 2, or IndexError for a zero-dimensional market array.", "quantifier": "all shapes and argument kinds", "why_tests_cant": "Combinatorially many shapes/types.", "anchors": ["src/frds/measures/_srisk.py::SRISK.__init__"]}
{"id": "C33", "title": "Single-firm aggregate SRISK can fail", "statement": "For a single firm with float W, D, aggregate_srisk=True raises AttributeError when LRMES is a built-in float (no systemic event, or C++ extension), instead of returning max(0,SRISK).", "quantifier": "all single-firm inputs with built-in float LRMES", "why_tests_cant": "Depends on which simulation outcome and back-end occurred.", "anchors": ["src/frds/measures/_srisk.py::SRISK.estimate", "src/frds/measures/_long_run_mes.py::LongRunMarginalExpectedShortfall.estimate"]}
{"id": "C34", "title": "LRMES is minus the average simulated firm return over systemic paths", "statement": "estimate returns 0.0 if no simulated path has market return exp(sum)-1 < C, and otherwise minus the average of exp(sum firm log return)-1 over exactly the systemic paths.", "quantifier": "all S, h, innovations, model parameters", "why_tests_cant": "Ranges over all Monte-Carlo outcomes.", "anchors": ["src/frds/measures/_long_run_mes.py::LongRunMarginalExpectedShortfall.estimate", "src/frds/measures/_long_run_mes.py::LongRunMarginalExpectedShortfall.simulation"]}
{"id": "C35", "title": "LRMES < 1", "statement": "Every finite LRMES result is at most 1, and below 1 for every usable fit (a firm cannot lose more than its value); non-systemic paths do not influence it.", "quantifier": "all Monte-Carlo outcomes", "why_tests_cant": "Ranges over all Monte-Carlo outcomes.", "anchors": ["src/frds/measures/_long_run_mes.py::LongRunMarginalExpectedShortfall.estimate"]}
{"id": "C36", "title": "Systemic events are monotone in C", "statement": "If a path is systemic for C it is systemic for every C' >= C; for C <= -1 no path is systemic and LRMES is 0.0.", "quantifier": "all paths, thresholds", "why_tests_cant": "Ranges over all Monte-Carlo outcomes.", "anchors": ["src/frds/measures/_long_run_mes.py::LongRunMarginalExpectedShortfall.simulation"]}
{"id": "C37", "title": "Simulated conditional correlations stay in [-1,1] and variances stay positive", "statement": "For a,b >= 0, a < 1, a+b <= 1, |rho| <= 1, a valid Q_bar and non-negative GJR parameters with omega > 0, every simulated step has positive variances and |rho_h| <= 1, so no NaN arises from sqrt(1-rho^2).", "quantifier": "all horizons, innovations, admissible parameters", "why_tests_cant": "Invariant of an unbounded recursion.", "anchors": ["src/frds/measures/_long_run_mes.py::LongRunMarginalExpectedShortfall.simulation"]}
{"id": "C38", "title": "Python and C++ LRMES simulations agree", "statement": "The pure-Python simulation method and the C++ extension return the same (firm_return, systemic_event) for all inputs in exact arithmetic.", "quantifier": "all inputs, all horizons", "why_tests_cant": "Only one backend is present in a given install.", "anchors": ["src/frds/measures/_long_run_mes.py::LongRunMarginalExpectedShortfall.simulation", "src/frds/measures/lrmes.hpp", "src/frds/measures/measures_module.cpp"]}
{"id": "C39", "title": "Orthogonalised innovations reconstruct the standardised residuals", "statement": "xi = (z_i - rho z_m)/sqrt(1-rho^2) satisfies z_i = rho z_m + sqrt(1-rho^2) xi for |rho|<1; at |rho|=1 it is inf or nan.", "quantifier": "all residuals and correlations", "why_tests_cant": "The domain is a continuum of real inputs; a test evaluates finitely many points.", "anchors": ["src/frds/measures/_long_run_mes.py::LongRunMarginalExpectedShortfall.estimate"]}
{"id": "C40", "title": "PIN is a probability", "statement": "The reported pin equals alpha*mu/(alpha*mu + eB + eS); for any optimiser output within the documented bounds it is in [0,1], or NaN exactly when alpha*mu = eB = eS = 0.", "quantifier": "all optimiser outputs within bounds", "why_tests_cant": "Ranges over every behaviour of the external optimiser/solver, which tests see only through one deterministic instance.", "anchors": ["src/frds/measures/_probability_of_informed_trading.py::PIN.Parameters.calculate_pin", "src/frds/measures/_probability_of_informed_trading.py::PIN.estimate"]}
{"id": "C41", "title": "PIN estimate keeps the best accepted log-likelihood", "statement": "After estimate, if some start succeeded the reported parameters are those of one successful start and its log-likelihood is at least that of every successful start with a log-likelihood below +inf; it is NaN only if all successes are NaN and +inf only if that is the first non-NaN success (later, finite successes are then not considered). If no start succeeded all fields are NaN. Independent of earlier estimate calls except the success flag.", "quantifier": "all optimiser behaviours over all grid starts, all histories", "why_tests_cant": "Ranges over every behaviour of the external optimiser/solver, which tests see only through one deterministic instance.", "anchors": ["src/frds/measures/_probability_of_informed_trading.py::PIN.estimate"]}
{"id": "C42", "title": "PIN success flag is sticky", "statement": "estimation_success is never reset: after one successful estimate, a later estimate in which every start fails returns NaN parameters while estimation_success remains True.", "quantifier": "all call histories", "why_tests_cant": "Ranges over call histories of unbounded length.", "anchors": ["src/frds/measures/_probability_of_informed_trading.py::PIN.estimate"]}
{"id": "C43", "title": "PIN starting values match the sample means", "statement": "Every yielded start (alpha,delta,eB,eS,mu) has non-negative components for non-negative data, lies within the optimiser bounds and matches the first moments: alpha(1-delta)mu + eB = mean(B), alpha*delta*mu + eS = mean(S); starts are skipped exactly when the implied eS is negative.", "quantifier": "all buy/sell samples", "why_tests_cant": "Arrays of every length and content are covered; tests sample a few arrays.", "anchors": ["src/frds/measures/_probability_of_informed_trading.py::PIN.init_params_grid_search"]}
{"id": "C44", "title": "EHO2010 and LK2011 are the same likelihood", "statement": "For all admissible parameters the two objective functions are equal as real numbers (they differ only in floating-point stability).", "quantifier": "all samples, 0<=alpha<=1, 0<=delta<=1, eB,eS>0, mu>=0", "why_tests_cant": "The domain is a continuum of real inputs; a test evaluates finitely many points.", "anchors": ["src/frds/measures/_probability_of_informed_trading.py::PIN.loglikelihood_EHO2010", "src/frds/measures/_probability_of_informed_trading.py::PIN.loglikelihood_LK2011"]}
{"id": "C45", "title": "PIN likelihood is the Poisson-mixture likelihood", "statement": "Both objectives equal minus the log of the product over days of the three-state Poisson mixture density (no news, good news with buy rate mu+eB, bad news with sell rate mu+eS), times prod B!S!.", "quantifier": "all integer samples, admissible parameters", "why_tests_cant": "The domain is a continuum of real inputs; a test evaluates finitely many points.", "anchors": ["src/frds/measures/_probability_of_informed_trading.py::PIN.loglikelihood_EHO2010", "src/frds/measures/_probability_of_informed_trading.py::PIN.loglikelihood_LK2011"]}
{"id": "C46", "title": "PIN argument checking", "statement": "Unknown method raises ValueError before any state changes; mismatched shapes raise AssertionError at construction.", "quantifier": "all strings / shapes", "why_tests_cant": "All strings.", "anchors": ["src/frds/measures/_probability_of_informed_trading.py::PIN.estimate", "src/frds/measures/_probability_of_informed_trading.py::PIN.__init__"]}
{"id": "C47", "title": "Quoted spread", "statement": "quoted_spread is 100 times the mean of (ask-bid)/mid, in [0,200) for 0<bid<=ask; with pct_spread=False the mean of ln(ask/bid); zero iff bid=ask throughout; antisymmetric under swapping; invariant to rescaling prices by a common factor.", "quantifier": "all equal-length positive arrays", "why_tests_cant": "Arrays of every length and content are covered; tests sample a few arrays.", "anchors": ["src/frds/measures/spread.py::quoted_spread"]}
{"id": "C48", "title": "Effective and realized spread and price impact are dollar-volume weighted means", "statement": "For positive prices and non-negative volumes not all zero, each function returns the dollar-volume-weighted mean of the documented per-trade spread (percentage or log, signed or absolute).", "quantifier": "all equal-length arrays", "why_tests_cant": "Arrays of every length and content are covered; tests sample a few arrays.", "anchors": ["src/frds/measures/spread.py::effective_spread", "src/frds/measures/spread.py::realized_spread", "src/frds/measures/price_impact.py::simple_price_impact"]}
{"id": "C49", "title": "Spread decomposition", "statement": "With trade directions given, effective_spread = realized_spread + simple_price_impact, both in percentage and in log form, whenever the volumes are not all zero (or all zero and data finite).", "quantifier": "all arrays, all directions", "why_tests_cant": "Arrays of every length and content are covered; tests sample a few arrays.", "anchors": ["src/frds/measures/spread.py::effective_spread", "src/frds/measures/spread.py::realized_spread", "src/frds/measures/price_impact.py::simple_price_impact"]}
{"id": "C50", "title": "Spread triangle inequality without directions", "statement": "Without directions (positive midpoints, non-negative volumes), effective_spread <= realized_spread + simple_price_impact and each is non-negative.", "quantifier": "all arrays", "why_tests_cant": "Arrays of every length and content are covered; tests sample a few arrays.", "anchors": ["src/frds/measures/spread.py::effective_spread", "src/frds/measures/spread.py::realized_spread", "src/frds/measures/price_impact.py::simple_price_impact"]}
{"id": "C51", "title": "Directions given as signs reproduce absolute spreads; lists are silently ignored", "statement": "If trade_direction_i = sign(price_i - midpoint_i) the signed effective spread equals the unsigned one; if trade_direction is a list (not an ndarray) the result is the unsigned spread regardless of its content.", "quantifier": "all arrays / all lists", "why_tests_cant": "Arrays of every length and content are covered; tests sample a few arrays.", "anchors": ["src/frds/measures/spread.py::effective_spread", "src/frds/measures/spread.py::realized_spread", "src/frds/measures/price_impact.py::simple_price_impact"]}
{"id": "C52", "title": "Spreads are invariant to the unit of price and of volume", "statement": "Multiplying all prices and midpoints by c>0, or all volumes by c>0, leaves effective, realized spread and price impact unchanged.", "quantifier": "all arrays, all c>0", "why_tests_cant": "Arrays of every length and content are covered; tests sample a few arrays.", "anchors": ["src/frds/measures/spread.py::effective_spread", "src/frds/measures/spread.py::realized_spread", "src/frds/measures/price_impact.py::simple_price_impact"]}
{"id": "C53", "title": "Zero-volume fallback and zero-sum weights", "statement": "If every dollar volume is 0 all three functions return, in all variants, the unweighted mean of the per-trade quantities ignoring NaN; if dollar volumes are not all zero but sum to zero a ZeroDivisionError is raised; with non-negative volumes and positive prices that cannot happen.", "quantifier": "all arrays", "why_tests_cant": "Arrays of every length and content are covered; tests sample a few arrays.", "anchors": ["src/frds/measures/spread.py::effective_spread", "src/frds/measures/spread.py::realized_spread", "src/frds/measures/price_impact.py::simple_price_impact"]}
{"id": "C54", "title": "Shape checks of spread functions", "statement": "The spread functions raise AssertionError exactly when the lengths of their arrays (and of an array of trade directions) differ, except that simple_price_impact never looks at the length of the price array: a price array of length 1 is broadcast silently to all trades, any other mismatch (with more than one trade) is a ValueError from NumPy.", "quantifier": "all lengths", "why_tests_cant": "Arrays of every length and content are covered; tests sample a few arrays.", "anchors": ["src/frds/measures/spread.py::effective_spread", "src/frds/measures/spread.py::realized_spread", "src/frds/measures/price_impact.py::simple_price_impact"]}
{"id": "C55", "title": "DGGW slopes skip undefined quotes", "statement": "DGGW_ask_slope / DGGW_bid_slope return the mean over quotes of total depth / distance of the highest level from the midpoint, ignoring exactly the quotes whose slope is NaN; NaN if none remains.", "quantifier": "all n x k arrays, possibly with NaN", "why_tests_cant": "Arrays of every length and content are covered; tests sample a few arrays.", "anchors": ["src/frds/measures/lob_slope.py::DGGW_ask_slope", "src/frds/measures/lob_slope.py::DGGW_bid_slope"]}
{"id": "C56", "title": "Bid/ask reflection", "statement": "Reflecting the book around the midpoint maps DGGW_ask_slope to DGGW_bid_slope; with non-negative sizes and highest ask above mid both are non-negative; both scale linearly in size and inversely in price units.", "quantifier": "all books", "why_tests_cant": "Arrays of every length and content are covered; tests sample a few arrays.", "anchors": ["src/frds/measures/lob_slope.py::DGGW_ask_slope", "src/frds/measures/lob_slope.py::DGGW_bid_slope"]}
{"id": "C57", "title": "Slope differences need five levels", "statement": "DGGW_bid_side_slope_difference and the ask version are the same function; they raise IndexError for 2 to 4 levels (although the check only requires 2) and AssertionError for 1 level, and for 5+ levels depend only on levels 1, 3 and 5.", "quantifier": "all books of every shape", "why_tests_cant": "All shapes.", "anchors": ["src/frds/measures/lob_slope.py::DGGW_bid_side_slope_difference", "src/frds/measures/lob_slope.py::DGGW_ask_side_slope_difference"]}
{"id": "C58", "title": "Scaled depth difference bounds and antisymmetry", "statement": "For non-negative sizes with at least one non-empty quote the result is in [-2,2]; swapping bid and ask negates it; it is scale invariant; quotes with both sides empty are ignored.", "quantifier": "all books", "why_tests_cant": "Arrays of every length and content are covered; tests sample a few arrays.", "anchors": ["src/frds/measures/lob_slope.py::DGGW_scaled_depth_difference"]}
{"id": "C59", "title": "StockReturns is a singleton with a one-time read", "statement": "After import, for every sequence of class calls and stocks_us reads all calls yield the same instance and the same DataFrame object, and the CSV is read at most once; reads observe in-place mutations made earlier by other users.", "quantifier": "all call histories", "why_tests_cant": "Ranges over call histories of unbounded length.", "anchors": ["src/frds/datasets/_stocks.py::SingletonMeta.__call__", "src/frds/datasets/_stocks.py::_StockReturns.stocks_us"]}
{"id": "C60", "title": "Singleton under concurrency", "statement": "After import, every interleaving of concurrent constructor calls returns the same instance; before the first instance exists the check-then-act is not atomic and some interleaving returns two different instances. Concurrent first reads may read the CSV more than once but never return None.", "quantifier": "all interleavings of any number of threads", "why_tests_cant": "Schedules cannot be enumerated by tests.", "anchors": ["src/frds/datasets/_stocks.py::SingletonMeta.__call__", "src/frds/datasets/_stocks.py::_StockReturns.stocks_us"]}
{"id": "C61", "title": "GARCH log-likelihood is the log of the product of normal densities", "statement": "loglikelihood(resids, sigma2) = log prod_t N(resid_t; 0, sigma2_t) for positive variances; a first variance of zero makes it NaN.", "quantifier": "all lengths and values", "why_tests_cant": "Arrays of every length and content are covered; tests sample a few arrays.", "anchors": ["src/frds/algorithms/_garch.py::GARCHModel.loglikelihood"]}
{"id": "C62", "title": "Conditional variance recursion", "statement": "compute_variance returns sigma2 with sigma2_0 = omega+(alpha+beta)*backcast and sigma2_t = bounds_check(omega+alpha*r_{t-1}^2+beta*sigma2_{t-1}); when no bound binds it equals the closed form backcast/ARCH(inf) expansion; adding gamma r^2 after negative residuals for GJR.", "quantifier": "all lengths, parameters, residuals", "why_tests_cant": "Arrays of every length and content are covered; tests sample a few arrays.", "anchors": ["src/frds/algorithms/_garch.py::GARCHModel.compute_variance", "src/frds/algorithms/_garch.py::GJRGARCHModel.compute_variance", "src/frds/algorithms/utils/garch.hpp"]}
{"id": "C63", "title": "Conditional variances stay positive and within bounds", "statement": "With omega>0, alpha,beta>=0, alpha+gamma>=0, backcast>=0 and bounds 0<lower<=upper every variance is finite and positive; from the second on it equals max(lower, raw) when the raw recursion value is at most the upper bound and upper+log(raw/upper) > upper otherwise, so it is never below its lower bound.", "quantifier": "all lengths, parameters, residuals", "why_tests_cant": "Arrays of every length and content are covered; tests sample a few arrays.", "anchors": ["src/frds/algorithms/_garch.py::GARCHModel.compute_variance", "src/frds/algorithms/_garch.py::GARCHModel.bounds_check", "src/frds/algorithms/_garch.py::GJRGARCHModel.compute_variance"]}
{"id": "C64", "title": "bounds_check is monotone and only changes out-of-range values", "statement": "For 0<lower<=upper: values inside [lower, upper] are unchanged, smaller ones become lower; the map is monotone non-decreasing and continuous on finite values; -inf maps to lower, +inf to upper+1000 (which is below the image of large finite values); the adjustment shrinks excessive values when upper>=1 but can enlarge them when upper<1.", "quantifier": "all values and bounds 0<lower<=upper", "why_tests_cant": "The domain is a continuum of real inputs; a test evaluates finitely many points.", "anchors": ["src/frds/algorithms/_garch.py::GARCHModel.bounds_check", "src/frds/algorithms/utils/garch.hpp"]}
{"id": "C65", "title": "Python and C++ GARCH kernels agree except on NaN", "statement": "ewma gives the same output from the Python and C++ implementations for all data, bounds_check whenever value and lower bound are not NaN, compute_variance (GARCH, GJR) whenever the C++ output has no NaN, in particular on finite data with positive bounds; on a NaN variance Python returns the lower bound while C++ propagates NaN.", "quantifier": "all inputs", "why_tests_cant": "Only one backend is present in a given install.", "anchors": ["src/frds/algorithms/_garch.py::GARCHModel.bounds_check", "src/frds/algorithms/_garch.py::GARCHModel.ewma", "src/frds/algorithms/utils/garch.hpp"]}
{"id": "C66", "title": "Variance bounds are ordered and positive", "statement": "For a non-empty finite residual series variance_bounds returns one (lower, upper) row per residual with upper = 1e12*lower; 0 < lower < upper when some residual is not zero, all rows (0,0) when all residuals are zero; lower lies between 1e-6 times the smallest and the largest squared residual (smallest capped at 1e7); an empty series raises IndexError.", "quantifier": "all residual series", "why_tests_cant": "Arrays of every length and content are covered; tests sample a few arrays.", "anchors": ["src/frds/algorithms/_garch.py::GARCHModel.variance_bounds"]}
{"id": "C67", "title": "Backcast is a weighted average of early squared residuals", "statement": "backcast is the 0.94^i-weighted average of the first min(75,T) squared residuals: it lies between the min and max of them, is non-negative, depends on no later residual, is homogeneous of degree 2, and is 0 for an empty series.", "quantifier": "all residual series", "why_tests_cant": "Arrays of every length and content are covered; tests sample a few arrays.", "anchors": ["src/frds/algorithms/_garch.py::GARCHModel.backcast"]}
{"id": "C68", "title": "EWMA recursion closed form and bounds", "statement": "ewma(resids, v0, lam)_t = lam^t v0 + (1-lam) sum_{s<t} lam^{t-1-s} r_s^2; each entry is within any bounds on v0 and the previous squared residuals for lam in [0,1]; an empty series raises IndexError.", "quantifier": "all series, all lam", "why_tests_cant": "Arrays of every length and content are covered; tests sample a few arrays.", "anchors": ["src/frds/algorithms/_garch.py::GARCHModel.ewma"]}
{"id": "C69", "title": "Starting values are not the likelihood maximiser", "statement": "For every finite return series whose residuals are not all zero starting_values returns the last grid point - alpha=0.2 (gamma=0.2) with persistence 0.98 - and for arbitrary data the last one whose negative log-likelihood exceeds -inf, not the grid point with the highest log-likelihood as documented; for the returns [2,-1,-1] another grid point has a strictly higher likelihood.", "quantifier": "all residual series", "why_tests_cant": "Arrays of every length and content are covered; tests sample a few arrays.", "anchors": ["src/frds/algorithms/_garch.py::GARCHModel.starting_values", "src/frds/algorithms/_garch.py::GJRGARCHModel.starting_values"]}
{"id": "C70", "title": "Starting values are feasible", "statement": "For a sample with positive variance any returned start satisfies alpha,beta(,gamma),omega > 0, alpha+beta(+gamma/2) < 1 and reproduces the sample variance as unconditional variance omega/(1-alpha-gamma/2-beta).", "quantifier": "all samples with positive variance", "why_tests_cant": "Arrays of every length and content are covered; tests sample a few arrays.", "anchors": ["src/frds/algorithms/_garch.py::GARCHModel.starting_values", "src/frds/algorithms/_garch.py::GJRGARCHModel.starting_values"]}
{"id": "C71", "title": "GARCH fit state machine", "statement": "A successful fit stores parameters = optimiser solution (mu=0 if zero_mean), log-likelihood = -objective, resids = returns - mu; a failed fit leaves parameters and resids unchanged; after success, GARCHModel.fit() is a no-op returning None whereas GJRGARCHModel.fit() re-estimates and returns parameters. With an optimiser that reports its objective truthfully, the log-likelihood stored is the Gaussian log-likelihood of the stored residuals and the variances at the stored parameters.", "quantifier": "all optimiser behaviours, all histories", "why_tests_cant": "Ranges over every behaviour of the external optimiser/solver, which tests see only through one deterministic instance.", "anchors": ["src/frds/algorithms/_garch.py::GARCHModel.fit", "src/frds/algorithms/_garch.py::GJRGARCHModel.fit"]}
{"id": "C72", "title": "sigma2 after fit is the last evaluated point", "statement": "After fit, sigma2 is the variance path at the last parameter vector at which the optimiser evaluated the objective, which equals the path at the reported parameters only if that was the last evaluation.", "quantifier": "all optimiser evaluation traces", "why_tests_cant": "Ranges over every behaviour of the external optimiser/solver, which tests see only through one deterministic instance.", "anchors": ["src/frds/algorithms/_garch.py::GARCHModel.loglikelihood_model", "src/frds/algorithms/_garch.py::GARCHModel.fit"]}
{"id": "C73", "title": "GJR variance forecast", "statement": "forecast_variance returns len(resids)-1 values following the un-bounded GJR recursion from initial_variance; each is at least omega for admissible parameters; with gamma=0 it is the GARCH recursion; empty input raises IndexError.", "quantifier": "all series and parameters", "why_tests_cant": "Arrays of every length and content are covered; tests sample a few arrays.", "anchors": ["src/frds/algorithms/_garch.py::GJRGARCHModel.forecast_variance"]}
{"id": "C74", "title": "CCC log-likelihood is the bivariate normal log-likelihood", "statement": "loglikelihood equals the log of the product of bivariate normal densities with covariance [[s1, rho sqrt(s1 s2)],[.., s2]]; at rho=0 it is the sum of the two univariate log-likelihoods.", "quantifier": "all lengths, positive variances, |rho|<1", "why_tests_cant": "Arrays of every length and content are covered; tests sample a few arrays.", "anchors": ["src/frds/algorithms/_mgarch.py::GARCHModel_CCC.loglikelihood"]}
{"id": "C75", "title": "DCC two-step likelihood decomposition", "statement": "When the stored univariate log-likelihoods are those of the stored residuals and variances, -loglikelihood_model([a,b]) equals the full bivariate normal log-likelihood with time-varying correlation clipped to [-0.99,0.99].", "quantifier": "all lengths, parameters", "why_tests_cant": "Arrays of every length and content are covered; tests sample a few arrays.", "anchors": ["src/frds/algorithms/_mgarch.py::GARCHModel_DCC.loglikelihood_model"]}
{"id": "C76", "title": "DCC correlations are in [-1,1]", "statement": "conditional_correlations(a,b) returns values in [-1,1] for a,b>=0, a<1, a+b<=1 and non-degenerate residuals; with a=0 they are constant.", "quantifier": "all series, admissible a,b", "why_tests_cant": "Arrays of every length and content are covered; tests sample a few arrays.", "anchors": ["src/frds/algorithms/_mgarch.py::GARCHModel_DCC.conditional_correlations", "src/frds/algorithms/utils/mgarch.hpp"]}
{"id": "C77", "title": "Python and C++ DCC correlations differ in Q_bar", "statement": "The Python path uses the centred correlation matrix, the C++ path uncentred second moments: they agree when both standardised residual series have mean zero and unit population variance; there is data on which they differ.", "quantifier": "all series", "why_tests_cant": "Only one backend is present in a given install.", "anchors": ["src/frds/algorithms/_mgarch.py::GARCHModel_DCC.conditional_correlations", "src/frds/algorithms/utils/mgarch.hpp"]}
{"id": "C78", "title": "DCC starting values are feasible but not optimal", "statement": "starting_values returns a grid point with a+b<1 (or the default (0.01,0.8)); it is the last feasible grid point with likelihood > -inf, not the one with the highest likelihood.", "quantifier": "all data", "why_tests_cant": "Arrays of every length and content are covered; tests sample a few arrays.", "anchors": ["src/frds/algorithms/_mgarch.py::GARCHModel_DCC.starting_values"]}
{"id": "C79", "title": "CCC/DCC fit is idempotent after success", "statement": "After a successful fit, further fit() calls return the same parameters without calling the optimiser or the univariate models, in every history of calls; a failed DCC fit leaves a, b, loglikelihood NaN and estimation_success False. With an optimiser that reports its objective truthfully, the DCC log-likelihood stored is minus the objective re-evaluated at the stored a and b.", "quantifier": "all optimiser behaviours, all histories", "why_tests_cant": "Ranges over every behaviour of the external optimiser/solver, which tests see only through one deterministic instance.", "anchors": ["src/frds/algorithms/_mgarch.py::GARCHModel_CCC.fit", "src/frds/algorithms/_mgarch.py::GARCHModel_DCC.fit"]}
{"id": "C80", "title": "CCC objective ignores the passed backcast and bounds", "statement": "CCC loglikelihood_model's value does not depend on its backcast/var_bounds arguments; they are recomputed from the residuals at the current mu. It is minus the bivariate normal log-likelihood of those residuals. Return series of different lengths raise ValueError, except that a single observation is silently broadcast to the length of the other series.", "quantifier": "all arguments", "why_tests_cant": "Arrays of every length and content are covered; tests sample a few arrays.", "anchors": ["src/frds/algorithms/_mgarch.py::GARCHModel_CCC.loglikelihood_model"]}
{"id": "C81", "title": "Isolation trees partition the sample and are bounded in height", "statement": "Every grown tree has height at most maxTreeHeight = ceil(log2(treeSize)); node sizes add up; each leaf has size <=1 or depth = maxTreeHeight; every sampled observation is in exactly one leaf.", "quantifier": "all data sets, samples, random draws", "why_tests_cant": "Ranges over all random draws and all data.", "anchors": ["src/frds/algorithms/isolation_forest/IsolationForest.cpp::IsolationForest::growTree"]}
{"id": "C82", "title": "Training and scoring route observations identically for non-missing data", "statement": "An observation with no missing value in the numeric attributes met on its training route is routed by scoring to the leaf that contains it in training: its path length is the depth of that leaf plus the correction for the number of sampled observations sharing the leaf.", "quantifier": "all data, all random draws", "why_tests_cant": "Ranges over all random draws and all data.", "anchors": ["src/frds/algorithms/isolation_forest/IsolationForest.cpp::IsolationForest::growTree", "src/frds/algorithms/isolation_forest/IsolationForest.cpp::IsolationForest::pathLength"]}
{"id": "C83", "title": "NaN observations are routed differently in training and scoring", "statement": "Training and scoring follow the same route for an observation if and only if none of the numeric attributes met on its training route is missing; if the only attribute is missing everywhere, every observation is scored through an empty leaf at depth 1 while training puts all of them into one leaf at maximal depth.", "quantifier": "all data with NaN", "why_tests_cant": "Depends on random split choice.", "anchors": ["src/frds/algorithms/isolation_forest/IsolationForest.cpp::IsolationForest::growTree", "src/frds/algorithms/isolation_forest/IsolationForest.cpp::IsolationForest::pathLength"]}
{"id": "C84", "title": "Anomaly scores are in (0,1]", "statement": "For tree_size >= 2 (positive normalising constant) and any non-empty forest every score is 2^(-E[path]/c(tree_size)) in (0,1], strictly decreasing in the average path length, and 1 only if every tree gives path length 0; tree_size = 1 gives exactly 1 for all observations; forest_size = 0 gives NaN.", "quantifier": "all forests", "why_tests_cant": "Arrays of every length and content are covered; tests sample a few arrays.", "anchors": ["src/frds/algorithms/isolation_forest/IsolationForest.cpp::IsolationForest::anomalyScore", "src/frds/algorithms/isolation_forest/IsolationForest.cpp::IsolationForest::averagePathLength"]}
{"id": "C85", "title": "Forest size and score coverage for any number of workers", "statement": "For every number of workers >= 1 and every schedule, exactly forestSize trees are grown, each observation's score is computed exactly once, and the scores do not depend on the order in which trees were appended.", "quantifier": "all worker counts, sizes and interleavings", "why_tests_cant": "Schedules and hardware thread counts vary by machine.", "anchors": ["src/frds/algorithms/isolation_forest/IsolationForest.cpp::IsolationForest::grow", "src/frds/algorithms/isolation_forest/IsolationForest.cpp::IsolationForest::calculateAnomalyScores"]}
{"id": "C86", "title": "Worker count changes the random streams", "statement": "Contrary to the source comment, the seed index range of worker 0 overlaps those of other workers whenever forestSize is not divisible by workers, and each thread's generator is seeded once only, so the multiset of seeds used depends on the number of workers.", "quantifier": "all forest sizes and worker counts", "why_tests_cant": "Hardware thread counts vary by machine.", "anchors": ["src/frds/algorithms/isolation_forest/IsolationForest.cpp::IsolationForest::grow"]}
{"id": "C87", "title": "Seeds larger than the data set are equivalent", "statement": "Every random_seed > n_obs and every negative seed gives the same random offset (n_obs), so all such seeds produce identical forests and scores; seed 0 and 1 are equivalent as well.", "quantifier": "all seeds and data sizes", "why_tests_cant": "Unbounded seed space.", "anchors": ["src/frds/algorithms/isolation_forest/IsolationForest.cpp::IsolationForest::grow"]}
{"id": "C88", "title": "Loan payoff is E[min(asset, face)]", "statement": "loan_payoff equals the expectation of min(A,F) for lognormal A with mean EA and log-volatility sig sqrt(T(1-rho)); hence 0 < payoff < min(F, EA), increasing in F and in the factor f.", "quantifier": "all F>0, rho<1, sig,T>0, all f, ival", "why_tests_cant": "The domain is a continuum of real inputs; a test evaluates finitely many points.", "anchors": ["src/frds/measures/modified_merton/loan_payoff.py::loan_payoff"]}
{"id": "C89", "title": "Loan yield objective", "statement": "find_face_value_indiv is zero exactly when mu is the yield implied by the Black-Scholes put: F e^{-mu T} = F e^{-rT} - put; the implied yield always exceeds r.", "quantifier": "all positive inputs", "why_tests_cant": "The domain is a continuum of real inputs; a test evaluates finitely many points.", "anchors": ["src/frds/measures/modified_merton/find_face_value_indiv.py::find_face_value_indiv"]}
{"id": "C90", "title": "merton_solution penalty is always zero", "statement": "Because negative A / sig are replaced by 0 before the penalty is computed, the penalty term is 0 for every input; for admissible (positive) inputs the objective vanishes exactly at solutions of the two Merton equations.", "quantifier": "all inputs", "why_tests_cant": "The domain is a continuum of real inputs; a test evaluates finitely many points.", "anchors": ["src/frds/measures/modified_merton/merton_solution.py::merton_solution"]}
{"id": "C91", "title": "Bank balance sheet identities", "statement": "On accepted inputs both cohort computations return, and their results are a bank balance sheet: in every simulated state loan value = debt payoff + equity, debt payoff = min(D, LH e^{-yH}), guarantee payoff = g*max(D - LH e^{-yH}, 0), default indicator 1 iff LH e^{-yH} <= D; Lt, Bt, Et, Gt are the discounted means, so Lt = Bt + Et, Bt <= D e^{-rH}, Gt = g (D e^{-rH} - Bt), and the mean default rate is in [0,1]; volatilities are 5 log(value up / value down). The loan value is the stated conditional expectation, averaged over cohorts and discounted.", "quantifier": "all simulation outcomes, sizes", "why_tests_cant": "Arrays of every length and content are covered; tests sample a few arrays.", "anchors": ["src/frds/measures/modified_merton/mod_merton_computation.py::mod_merton_computation", "src/frds/measures/modified_merton/mod_single_cohort_computation.py::mod_single_cohort_computation"]}
{"id": "C92", "title": "fftsmooth is a local average with linear extrapolation", "statement": "For an even number n of observations and an even window w with w <= n-2, interior output t is the average of the w consecutive inputs x[t-w/2+1..t+w/2]; the w/2 points at each edge lie on the straight line through the two outermost averages; smoothing is linear in the data, constant series are returned unchanged (w >= 2); odd n or odd w raise AssertionError.", "quantifier": "all even lengths and windows, all data", "why_tests_cant": "Arrays of every length and content are covered; tests sample a few arrays.", "anchors": ["src/frds/measures/modified_merton/fftsmooth.py::fftsmooth"]}
{"id": "C93", "title": "Conditional expectation by sorting, smoothing and un-sorting", "statement": "The argsort / newInd scatter is an inverse permutation: reading sorted data back through it restores every array. In the cohort computations the value given to a simulated state at least half a window away from the extremes is the average payoff of the states nearest to it in rank of the borrower asset value rounded to 9 decimals (half to even).", "quantifier": "all arrays", "why_tests_cant": "Arrays of every length and content are covered; tests sample a few arrays.", "anchors": ["src/frds/measures/modified_merton/mod_merton_computation.py::mod_merton_computation"]}
{"id": "C94", "title": "Modified-Merton modules that price options cannot be imported", "statement": "find_face_value_indiv and merton_solution import frds.measures.option_price, a module that does not exist in the package (it is _option_price). In every history of imports, importing one of them, or any of the six other modified-Merton modules that need them at import time, raises ModuleNotFoundError and leaves it out of sys.modules. The isolation-forest package fails in the same way exactly when its compiled extension is absent; every other module of the package imports successfully, with or without the compiled extensions.", "quantifier": "all modules of the package import graph, all histories of import statements, with or without the compiled extensions", "why_tests_cant": "A test of one module does not cover the transitive closure.", "anchors": ["src/frds/measures/modified_merton/find_face_value_indiv.py", "src/frds/measures/modified_merton/merton_solution.py", "src/frds/measures/modified_merton/mod_merton_computation.py"]}
{"id": "C95", "title": "Cohort maturity weights", "statement": "With HN = H*N/T an integer in 0..N-1 the accumulated loan life vector has exactly N entries, (HN-j)/N for j<=HN and (N+HN-j)/N for j>HN; a non-integer HN raises AssertionError in both computations; in the multi-cohort computation H >= T raises ValueError.", "quantifier": "all N, HN", "why_tests_cant": "Arrays of every length and content are covered; tests sample a few arrays.", "anchors": ["src/frds/measures/modified_merton/mod_merton_computation.py::mod_merton_computation"]}
{"id": "C96", "title": "Lookup tables", "statement": "create_lookup stores at index (:,j,k,q) exactly the outputs of one computation with parameters r=xr[0,j,k,q], bookF=xF[0,j,k,q], sig=xsig[0,j,k,q] and D=bookD e^{rH}, same shocks for every cell, every cell written exactly once; if a cell fails, the error is that of the first failing cell in row-major order.", "quantifier": "all table sizes", "why_tests_cant": "Arrays of every length and content are covered; tests sample a few arrays.", "anchors": ["src/frds/measures/modified_merton/mod_merton_create_lookup.py::mod_merton_create_lookup", "src/frds/measures/modified_merton/mod_single_merton_create_lookup.py::mod_single_merton_create_lookup"]}
{"id": "C97", "title": "Degenerate series cannot be estimated", "statement": "fit() on a constant return series (an all-zero one for a zero-mean model), or on a series that contains a NaN or an infinity, raises ValueError for GARCH and GJR-GARCH whatever the optimiser does, because no starting value has a comparable likelihood; on an empty series it raises IndexError.", "quantifier": "all constant series, all optimiser behaviours", "why_tests_cant": "Ranges over every length and constant and over every behaviour of the external optimiser.", "anchors": ["src/frds/algorithms/_garch.py::GARCHModel.fit", "src/frds/algorithms/_garch.py::GARCHModel.preparation", "src/frds/algorithms/_garch.py::GJRGARCHModel.fit"]}
{"id": "C98", "title": "Sibling splits use the same attribute", "statement": "In every isolation tree, two sibling nodes that both split do so on the same attribute (both subtrees are grown from a copy of the same generator), so splits are not chosen independently.", "quantifier": "all data sets, samples, random draws", "why_tests_cant": "A test sees a few random trees; the claim is about every draw of the generator.", "anchors": ["src/frds/algorithms/isolation_forest/IsolationForest.cpp::growTree"]}
{"id": "C99", "title": "Samples accumulate within a worker thread", "statement": "The k-th tree grown by a worker contains k*min(tree_size, n_obs) observations (with duplicates), not tree_size: the sample buffer is appended to but never cleared.", "quantifier": "all data, sizes, random draws and job counts", "why_tests_cant": "Tree contents are not visible through the API; holds for every random draw.", "anchors": ["src/frds/algorithms/isolation_forest/IsolationForest.cpp::grow"]}
{"id": "C100", "title": "Character attributes of maximal width are compared by position", "statement": "If every string is shorter than the item size, character splits compare the strings (length first, then bytes). If all strings have the maximal width, no terminator is found and an observation counts as smaller than another iff it comes later in the data, whatever the strings are.", "quantifier": "all character arrays, and whatever follows them in memory", "why_tests_cant": "Depends on memory layout after the array; holds for every content.", "anchors": ["src/frds/algorithms/isolation_forest/IsolationForest.cpp::growTree", "src/frds/algorithms/isolation_forest/__init__.py"]}
{"id": "C101", "title": "Absorption ratio is at least proportional", "statement": "With k = fraction*n rounded half up, estimate(fraction) >= k/n: the k largest eigenvalues carry at least their proportional share of the variance.", "quantifier": "all finite return matrices with n>=2, T>=2 and non-zero variance, all fractions in [0,1]", "why_tests_cant": "Quantifies over every return matrix of every size; tests sample a few arrays.", "anchors": ["src/frds/measures/_absorption_ratio.py::AbsorptionRatio.estimate"]}
{"id": "C102", "title": "Absorption ratio invariances", "statement": "estimate is unchanged by adding a constant to each asset's returns, by permuting assets or days, and by multiplying all returns by one non-zero number.", "quantifier": "all finite return matrices, all shifts, permutations, scale factors and fractions", "why_tests_cant": "Quantifies over every return matrix of every size; tests sample a few arrays.", "anchors": ["src/frds/measures/_absorption_ratio.py::AbsorptionRatio.estimate"]}
{"id": "C103", "title": "One common factor is fully absorbed", "statement": "If every asset's return is a(i) + b(i)*g(t) for one factor g, estimate(f)=1 for every f<=1 with f*n >= 1/2.", "quantifier": "all loadings, factors and sizes", "why_tests_cant": "Quantifies over every return matrix of every size; tests sample a few arrays.", "anchors": ["src/frds/measures/_absorption_ratio.py::AbsorptionRatio.estimate"]}
{"id": "C104", "title": "Uncorrelated equal-variance assets", "statement": "If the sample covariance is a multiple of the identity, estimate(f) = k/n exactly, k = f*n rounded half up.", "quantifier": "all such return matrices and fractions in [0,1]", "why_tests_cant": "Quantifies over every return matrix of every size; tests sample a few arrays.", "anchors": ["src/frds/measures/_absorption_ratio.py::AbsorptionRatio.estimate"]}
{"id": "C105", "title": "Absorption ratio on degenerate inputs", "statement": "Zero total variance gives NaN for each finite fraction; one asset, fewer than two days, or a NaN/infinite return raises LinAlgError; a NaN fraction raises ValueError and an infinite one OverflowError.", "quantifier": "all such inputs of every size", "why_tests_cant": "Quantifies over every return matrix of every size; tests sample a few arrays.", "anchors": ["src/frds/measures/_absorption_ratio.py::AbsorptionRatio.estimate"]}
{"id": "C106", "title": "DIP grid error is at most one percent of a bank per default event", "statement": "With a zero threshold (and every simulated loss on the grid) the premium is at least the simulated expected loss, sum over i of freq(i defaults) times the average simulated loss, and exceeds it by at most 0.01*Prob(at least one default).", "quantifier": "all simulation outcomes with at least one default scenario", "why_tests_cant": "Ranges over every outcome of the random generator and every argument value.", "anchors": ["src/frds/measures/_distress_insurance_premium.py::DistressInsurancePremium.estimate"]}
{"id": "C107", "title": "DIP threshold edge cases", "statement": "A threshold >= 1 gives NaN; a threshold <= -0.01 raises ValueError (when there is at least one bank); thresholds strictly between -0.01 and 0.01 give exactly the result of threshold 0.", "quantifier": "all thresholds and simulation outcomes whose losses fit the grid", "why_tests_cant": "Ranges over every outcome of the random generator and every argument value.", "anchors": ["src/frds/measures/_distress_insurance_premium.py::DistressInsurancePremium.estimate"]}
{"id": "C108", "title": "DIP rejects default probabilities outside (0,1)", "statement": "If some default probability is <= 0 or >= 1 (or infinite) the call raises ValueError (StatisticsError), whatever the other arguments.", "quantifier": "all input arrays and arguments", "why_tests_cant": "Ranges over every outcome of the random generator and every argument value.", "anchors": ["src/frds/measures/_distress_insurance_premium.py::DistressInsurancePremium.estimate"]}
{"id": "C109", "title": "DIP on empty inputs is NaN", "statement": "With no bank, or with n_simulations = 0 and a threshold >= 0, the result is NaN rather than 0 or an error.", "quantifier": "all remaining arguments", "why_tests_cant": "Ranges over every outcome of the random generator and every argument value.", "anchors": ["src/frds/measures/_distress_insurance_premium.py::DistressInsurancePremium.estimate"]}
{"id": "C110", "title": "Loan payoff with perfectly correlated borrowers", "statement": "loan_payoff with rho = 1 (no idiosyncratic risk) returns exactly min(asset value, face value), except when the asset value equals the face value, where it returns NaN (0/0).", "quantifier": "all F>0, T>=0, all f, ival, sig", "why_tests_cant": "The domain is a continuum of real inputs; the exceptional set is a curve a test would hit only by construction.", "anchors": ["src/frds/measures/modified_merton/loan_payoff.py::loan_payoff"]}
{"id": "C111", "title": "Promised loan yield exists and is unique", "statement": "With face value bookF e^{mu T}, find_face_value_indiv has at most one root mu, and has a root exactly when the cash lent is below the collateral value net of depreciation, bookF < e^{ival - dT}.", "quantifier": "all bookF, sig, T > 0, all ival, r, d", "why_tests_cant": "Existence and uniqueness of a root quantify over every real yield; running a solver finds one root for one parameter set.", "anchors": ["src/frds/measures/modified_merton/find_face_value_indiv.py::find_face_value_indiv", "src/frds/measures/modified_merton/mod_merton_computation.py::mod_merton_computation"]}
{"id": "C112", "title": "merton_solution is flat for non-positive assets", "statement": "For every trial asset value A <= 0 the objective returns the same constant (E, sigE): the penalty intended to push the solver back vanishes and there is no slope.", "quantifier": "all A <= 0, sig, E, D, T > 0", "why_tests_cant": "A statement about a whole half line of solver states.", "anchors": ["src/frds/measures/modified_merton/merton_solution.py::merton_solution"]}
{"id": "C113", "title": "fftsmooth window is off centre by half a step", "statement": "Smoothing a straight line a + b i returns, at every position including the edges, the line's value at t + 1/2: the even window is not centred.", "quantifier": "all even n, even w with 2 <= w <= n-2, all a, b", "why_tests_cant": "All lengths, windows and slopes.", "anchors": ["src/frds/measures/modified_merton/fftsmooth.py::fftsmooth"]}
{"id": "C114", "title": "fftsmooth with an empty window returns zeros", "statement": "With w = 0 the output is zero at every position whatever the (finite) data.", "quantifier": "all non-empty even-length data", "why_tests_cant": "All data.", "anchors": ["src/frds/measures/modified_merton/fftsmooth.py::fftsmooth"]}
{"id": "C115", "title": "fftsmooth preserves order; bounds only in the interior", "statement": "Non-decreasing input gives non-decreasing output, edges included. Interior outputs stay within any bounds of the data; edge outputs need not: for every even n >= 4 there are sorted 0/1 data whose first smoothed value is negative.", "quantifier": "all even n, even windows, all data", "why_tests_cant": "Order preservation must hold for every data set.", "anchors": ["src/frds/measures/modified_merton/fftsmooth.py::fftsmooth"]}
{"id": "C116", "title": "Aggregate borrower asset value at t is deterministic", "statement": "The reported mean borrower asset value mFt does not depend on the simulated shocks: single cohort, (bookF/ltv) e^{fs sqrt(rho) sig sqrt(T)}; multi cohort, bookF/ltv times the mean over cohorts j of exp(((r-d)T + fs sqrt(rho) sig sqrt(T)) (N-j)/N).", "quantifier": "all valid parameters, shocks, numbers of steps and simulations", "why_tests_cant": "Independence from every shock array and the closed form for every N.", "anchors": ["src/frds/measures/modified_merton/mod_merton_computation.py::mod_merton_computation", "src/frds/measures/modified_merton/mod_single_cohort_computation.py::mod_single_cohort_computation"]}
{"id": "C117", "title": "Which shocks matter", "statement": "Multi-cohort results depend only on shock columns N..3N-2: shocks before t and surplus columns change nothing. Single-cohort results depend only on the first max(N, HN) columns.", "quantifier": "all pairs of shock arrays that agree on those columns", "why_tests_cant": "Quantifies over pairs of shock arrays of any size.", "anchors": ["src/frds/measures/modified_merton/mod_merton_computation.py::mod_merton_computation", "src/frds/measures/modified_merton/mod_single_cohort_computation.py::mod_single_cohort_computation"]}
{"id": "C118", "title": "Fewer than twenty simulated states value the loans at zero", "statement": "If Nsim2 * 3 * len(fs) < 20 (and even), both computations return Lt = Bt = Et = 0 and default probability 1, whatever the parameters (D >= 0).", "quantifier": "all valid parameters and shocks", "why_tests_cant": "Holds for every parameter set and shock array of that size.", "anchors": ["src/frds/measures/modified_merton/mod_merton_computation.py::mod_merton_computation", "src/frds/measures/modified_merton/mod_single_cohort_computation.py::mod_single_cohort_computation", "src/frds/measures/modified_merton/fftsmooth.py::fftsmooth"]}
{"id": "C119", "title": "Admissible simulation sizes", "statement": "With a horizon of HN < N whole steps and shocks of the required shape, both computations raise AssertionError whenever M = Nsim2 * 3 * len(fs) is odd or floor(M/20) is odd (for example 100 simulations of 33 states), whatever the states, the other parameters, the values of the shocks and the solver.", "quantifier": "all sizes, states, parameters with T != 0 and a whole number of steps to the horizon, shocks and solvers", "why_tests_cant": "All sizes.", "anchors": ["src/frds/measures/modified_merton/mod_merton_computation.py::mod_merton_computation", "src/frds/measures/modified_merton/mod_single_cohort_computation.py::mod_single_cohort_computation", "src/frds/measures/modified_merton/fftsmooth.py::fftsmooth"]}
{"id": "C120", "title": "mod_single_cohort_solution as a solver objective", "statement": "Called with a scalar first unknown (what a root finder passes) it always raises IndexError after overwriting the loan amount in the caller's parameter list; called with an array of states it returns [E - Et, sigE - sigEt] at the new loan amount, which also stays in the caller's list.", "quantifier": "all unknowns, parameters with integer horizon, targets", "why_tests_cant": "Every solver state.", "anchors": ["src/frds/measures/modified_merton/mod_single_cohort_solution.py::mod_single_cohort_solution"]}
{"id": "C121", "title": "Cohort maturing exactly at the horizon", "statement": "The loan life of the cohort maturing exactly at t+H is taken as 0 instead of the full term, so the reported aggregate asset value FH falls short of the cohort average by that cohort's missing Jensen correction, e^{x}(e^{(1-rho) T sig^2/2} - 1)/N > 0, in every state.", "quantifier": "all valid parameters with horizon H < T, all shocks", "why_tests_cant": "All parameters and states.", "anchors": ["src/frds/measures/modified_merton/mod_merton_computation.py::mod_merton_computation"]}
{"id": "C122", "title": "Rolled-over loans are scaled copies of new loans", "statement": "Lending out a loan's repayment L at the same promised yield and loan-to-value ratio gives an expected repayment of L/bookF times that of a new loan with the same subsequent factor path, so dividing by the scale and multiplying back is exact; the repayment is positive and below the face value.", "quantifier": "all valid parameters, shocks, cohorts and states", "why_tests_cant": "Real-valued identity for all states.", "anchors": ["src/frds/measures/modified_merton/mod_merton_computation.py::mod_merton_computation", "src/frds/measures/modified_merton/loan_payoff.py::loan_payoff"]}
{"id": "C123", "title": "The public names are available after any import history", "statement": "After any sequence of imports of package modules, importing frds.measures or frds.algorithms succeeds and every name of their __all__ can be imported from them, with or without the compiled extensions; once a module is fully loaded it stays so, and the set of modules that can be imported does not depend on the order of earlier imports.", "quantifier": "all histories of import statements, extensions present or absent", "why_tests_cant": "Import cycles and partial initialisation depend on the order of imports; tests exercise one order.", "anchors": ["src/frds/measures/__init__.py", "src/frds/algorithms/__init__.py", "src/frds/measures/_long_run_mes.py", "src/frds/measures/_srisk.py"]}
{"id": "C124", "title": "CCC fit: starting point and reported likelihood", "statement": "GARCHModel_CCC.fit() on a model not yet estimated first fits both univariate models and keeps them; the joint optimisation starts at their estimates and at the sample correlation of their standardised residuals, with minus the bivariate log-likelihood as objective. On success the reported parameters are the optimiser's, and the reported log-likelihood is the log-likelihood at these parameters; on failure the parameters are unchanged.", "quantifier": "all objects, all univariate estimators, all optimiser behaviours", "why_tests_cant": "Depends on what an external optimiser returns, for every such behaviour.", "anchors": ["src/frds/algorithms/_mgarch.py::GARCHModel_CCC.fit"]}
{"id": "C125", "title": "Fitted GARCH-family parameters are admissible", "statement": "If the optimiser returns, on success, a point satisfying the bounds and constraints it is given, then after any history of fit() calls the reported parameters satisfy omega >= 1e-6, 0 <= alpha, beta and alpha + beta <= 1 (GARCH); all >= 1e-6 and alpha + beta + gamma/2 <= 1 (GJR-GARCH); both GARCH conditions and |rho| <= 0.99 (CCC); a, b >= 0 and a + b <= 1 (DCC). A CCC or DCC object without a successful fit reports NaN for these parameters, whatever the history of fit() and conditional_correlations() calls.", "quantifier": "all data, all optimisers honouring bounds and constraints, all histories of calls", "why_tests_cant": "The claim ranges over all optimiser results.", "anchors": ["src/frds/algorithms/_garch.py::GARCHModel.fit", "src/frds/algorithms/_garch.py::GJRGARCHModel.fit", "src/frds/algorithms/_mgarch.py::GARCHModel_CCC.fit", "src/frds/algorithms/_mgarch.py::GARCHModel_DCC.fit"]}
{"id": "C126", "title": "Estimated PIN parameters and PIN are in range", "statement": "If the minimiser returns, on success, a point within the bounds, PIN.estimate returns either the all-NaN default or alpha, delta in [0,1], eB, eS, mu >= 0 and a pin that is NaN or in [0,1]; pin equals alpha*mu/(alpha*mu + eB + eS) whenever the rates are finite and this denominator is positive.", "quantifier": "all data, methods and minimisers honouring the bounds, all histories", "why_tests_cant": "The claim ranges over all optimiser results.", "anchors": ["src/frds/measures/_probability_of_informed_trading.py::PIN.estimate"]}
{"id": "C127", "title": "DCC estimation is two-step on the two given series", "statement": "conditional_correlations(a, b) estimates each univariate model on its own series, stores both and returns the correlations of their standardised residuals, leaving parameters and success flag alone. GARCHModel_DCC.fit() estimates both univariate models (each on its own series), then runs exactly one constrained optimisation over (a, b), started at the best feasible grid point, with those univariate models fixed; on success a, b and the log-likelihood reported are that run's, on failure they are NaN; the univariate entries of the stored parameters are those of the two univariate models.", "quantifier": "every object, both kernel variants (C++ extension and NumPy), both univariate model families, every deterministic optimiser", "why_tests_cant": "tests run one data set with one optimiser; a second model fitted on the wrong series or a silent re-estimation inside the objective still returns plausible numbers", "anchors": ["src/frds/algorithms/_mgarch.py: GARCHModel_DCC.fit, conditional_correlations, loglikelihood_model", "src/frds/algorithms/_garch.py: GARCHModel.fit, GJRGARCHModel.fit"]}
{"id": "C128", "title": "anomaly_scores returns one score per row, ignores unused columns, and fails exactly when documented", "statement": "anomaly_scores(data, ...) returns a frame with the index of data, in order, and one column with the requested name holding one score per row; the outcome is unique whatever the thread schedule; with tree_size >= 2 and forest_size >= 1 every score lies in (0, 1]. Excluded columns, columns that are neither numeric nor object, column labels and the interleaving of numeric and object columns have no influence. KeyError is raised iff an excluded label does not exist; otherwise AttributeError under NumPy >= 2 (np.string_); otherwise ValueError (UnicodeEncodeError) iff a used text is not ASCII; otherwise OverflowError iff an integer argument does not fit a C int; all other calls with valid sizes and at least one usable column succeed.", "quantifier": "every frame, exclusion list, size, seed, number of workers, random facility and thread interleaving", "why_tests_cant": "the frames, dtypes, label sets and thread schedules are unbounded; a test sees one frame on one machine", "anchors": ["src/frds/algorithms/isolation_forest/__init__.py: anomaly_scores", "src/frds/algorithms/isolation_forest/iforest_module.cpp: iforest_wrapper"]}
{"id": "C129", "title": "anomaly_scores depends on numeric columns only through order and missingness", "statement": "Replacing the values of every numeric column by an order-keeping transformation that preserves NaN (logs of positive values, change of units, ranks) changes no outcome of anomaly_scores.", "quantifier": "every frame, family of order-keeping transformations (one per column), sizes, seed, workers, random facility and schedule", "why_tests_cant": "an invariance over all transformations and all data", "anchors": ["src/frds/algorithms/isolation_forest/__init__.py: anomaly_scores", "src/frds/algorithms/isolation_forest/IsolationForest.cpp: growTree, pathLength"]}
{"id": "C130", "title": "anomaly_scores: the longest texts are not compared by content", "statement": "Among the texts of the used object columns, a text shorter than another one is compared by its content. A text of maximal length is not NUL-terminated in the array and is compared as itself followed by whatever the next cell is read as. Hence, if all texts have the same length (tickers, country codes), the scores do not depend on the texts at all: any other texts of any other common length give the same outcomes.", "quantifier": "every frame with ASCII texts without NUL, sizes, seed, workers, random facility, memory contents and schedule", "why_tests_cant": "a memory-layout effect that returns plausible scores on every data set", "anchors": ["src/frds/algorithms/isolation_forest/__init__.py: anomaly_scores (char_data)", "src/frds/algorithms/isolation_forest/IsolationForest.cpp: growTree lines 55-75, pathLength lines 131-144"]}
{"id": "C131", "title": "Memory layout of the returns handed to the C extension", "statement": "The compiled kernels (EWMA, GARCH and GJR-GARCH variances) compute the documented recursion on the dense block of memory that starts at the array; the strides of the array are ignored. Hence for dense arrays, and for every model with a mean (whose residuals are freshly computed), fitting with the extension is fitting on the elements of the returns, whatever else is in memory. For a zero-mean model on a strided view (a column of a row-major matrix, every second return) the variances do not depend on the selected elements and differ from those of the pure Python code.", "quantifier": "all arrays (memory contents, offset, stride, length), all parameters, backcasts and bounds, all optimisers, both model families", "why_tests_cant": "tests use freshly allocated arrays; the claim ranges over every memory layout and everything that surrounds the array in memory", "anchors": ["src/frds/algorithms/utils/utils_module.cpp: ewma, compute_garch_variance, compute_gjrgarch_variance wrappers", "src/frds/algorithms/utils/garch.hpp", "src/frds/algorithms/_garch.py: GARCHModel.fit, preparation, loglikelihood_model, variance_bounds, starting_values"]}
{"id": "C132", "title": "Equal rows get equal anomaly scores, unless texts of maximal length are involved", "statement": "In a successful call of anomaly_scores, two rows that agree in all used numeric columns and in all used object columns, on texts shorter than the longest used text, get the same score. The restriction is necessary: a frame whose rows are all the same short code can get different scores for different rows, because texts of maximal length run into the next cell.", "quantifier": "all frames, excluded columns, forest and tree sizes, seeds, random generators within the contract, numbers of workers and thread schedules, all pairs of rows", "why_tests_cant": "holds for every data set, seed and schedule; a test sees finitely many", "anchors": ["src/frds/algorithms/isolation_forest/__init__.py: anomaly_scores", "src/frds/algorithms/isolation_forest/IsolationForest.cpp: growTree, pathLength, anomalyScore"]}
{"id": "C133", "title": "simulate: admissible numbers of simulated paths", "statement": "simulate(Nsim) runs to completion exactly for those positive Nsim whose remainder modulo 40 is 0, 24, 30 or 36 (so 1000 and the default 10000 work); for every other positive Nsim (100, 500, ...) it ends in an AssertionError raised by the smoother, before any table is printed.", "quantifier": "every positive Nsim, every pseudo-random draw of the factor shocks, every behaviour of the root finders that returns numbers, every interpolation routine that does not raise", "why_tests_cant": "unbounded in Nsim, and a run takes about an hour; the set of admissible sizes is a statement about all of them", "anchors": ["src/frds/measures/modified_merton/mod_merton_simulation.py: simulate", "src/frds/measures/modified_merton/fftsmooth.py: fftsmooth", "src/frds/measures/modified_merton/mod_merton_create_lookup.py"]}
{"id": "C134", "title": "simulate: which states the columns of Table 1 show", "statement": "Whatever Nsim, the shocks and the solvers, the column 'No shock' of the printed table is state 17 of the grid, in which the log asset value of a loan of full age is 0.05 above its expectation; '+ve shock' and '-ve shock' are states 25 (+0.45) and 9 (-0.35). The state with zero shock (number 16) is not shown: the target e^{rT/2} ignores depreciation and the averaging over cohorts. Every row of a column belongs to the same state, and no index error occurs.", "quantifier": "every accepted Nsim, every simulated sample, every root finder that returns a promised yield", "why_tests_cant": "the column index is the argmin of a simulated vector; a test sees one sample, the claim is for all", "anchors": ["src/frds/measures/modified_merton/mod_merton_simulation.py: simulate (lines 90-91, 261-262, 279-298)", "src/frds/measures/modified_merton/mod_merton_computation.py"]}
{"id": "C135", "title": "simulate: panel A is a consistent balance sheet", "statement": "In every state the bank's asset value is debt plus equity, the 5-year default probability lies in [0,1], the market capital ratio is equity over assets, and the credit spread is non-negative and discounts the face value of the debt, D e^{-(r+sp)H}, exactly to the debt's value; debt worth zero gets an infinite spread and (extrapolation artefact) negative debt a NaN.", "quantifier": "every accepted Nsim, every simulated sample, all 33 states", "why_tests_cant": "must hold for every simulated sample", "anchors": ["src/frds/measures/modified_merton/mod_merton_simulation.py: simulate (lines 84-86, 145-146, 287-291)", "src/frds/measures/modified_merton/mod_merton_computation.py"]}
{"id": "C136", "title": "simulate: panel B is the standard Merton model at the solver's answer", "statement": "If the root finder returns an asset value A > 0 and a volatility s, the reported default probability is the risk-neutral probability, strictly between 0 and 1, that lognormal assets with value A and volatility max(s, 0.0001) end at or below the debt; the reported spread is positive and satisfies D e^{-(r+sp)H} = D e^{-rH} - put; the guarantee is g times the put. If the answer is an exact solution, equity plus debt discounted at r plus the spread equals A. At A = 0 the fit reports certain default and an infinite spread, at A < 0 NaN.", "quantifier": "all parameters with positive debt and horizon, every equity value and volatility, every root finder", "why_tests_cant": "for all inputs and every behaviour of the numerical solver", "anchors": ["src/frds/measures/modified_merton/mod_merton_simulation.py: simulate (lines 125-141, 294-295)", "src/frds/measures/modified_merton/merton_solution.py", "src/frds/measures/_option_price.py: blsprice"]}
{"id": "C137", "title": "simulate: what the alternative models' curves are", "statement": "The curves of models 1-3 interpolate, at the equity value and equity volatility of the 33 states of the main model, the default rates of a table of 69 states by 105 loan sizes computed with the multi-cohort (10-year loans, correlation 0.99, volatility 0.2 sqrt(0.5)) or single-cohort computation (5-year loans; 0.5, 0.2 and 0.99, 0.2 sqrt(0.5)); all of them use the same debt and the same simulated shocks as the main model. The curve of model 4 is the risk-neutral default probability of lognormal assets with the bank's true asset value and volatility.", "quantifier": "every successful run: all Nsim, samples, solvers and interpolation routines, all table entries", "why_tests_cant": "the wiring of 7245 table entries and 33 query points must be right for every simulated sample; a run takes about an hour", "anchors": ["src/frds/measures/modified_merton/mod_merton_simulation.py: simulate (lines 152-256)", "src/frds/measures/modified_merton/mod_merton_create_lookup.py", "src/frds/measures/modified_merton/mod_single_merton_create_lookup.py"]}
{"id": "C138", "title": "Integer-typed quotes and trades give the floats' results when nothing overflows", "statement": "Quoted, effective and realized spread and simple price impact, percentage or log, with or without trade directions, of NumPy arrays of any mixture of integer types and float64 equal the result for the same numbers stored as float64, provided no intermediate sum, difference, doubled difference or dollar volume leaves the range of the type NumPy gives it. In particular w-bit signed columns with prices at most 2^(w-4) in absolute value, directions in {-1,0,1} and dollar volumes below 2^(w-1) are safe.", "quantifier": "all lengths, all integer widths and signednesses, all values within the stated ranges, both modes, with and without directions", "why_tests_cant": "holds for every type combination and every table of numbers within the ranges", "anchors": ["src/frds/measures/spread.py: quoted_spread, effective_spread, realized_spread", "src/frds/measures/price_impact.py: simple_price_impact"]}
{"id": "C139", "title": "Unsigned prices: crossed quotes and trades below the reference are mis-measured", "statement": "With prices stored as unsigned w-bit integers, quoted_spread adds 2^w / midpoint for each crossed quote: the result is never negative and equals the float result exactly when no quote is crossed. effective_spread, realized_spread and simple_price_impact in per cent without directions count a trade below the reference price with (2^w - 2 (reference - price)) / midpoint instead of 2 (reference - price) / midpoint; trades at or above it are counted correctly. The two agree below the reference only at a distance of 2^w / 4.", "quantifier": "all widths, all non-empty tables of positive unsigned quotes or trades whose sums and doubled distances fit", "why_tests_cant": "an exact characterisation of when the silent wrap-around changes the result, over all tables", "anchors": ["src/frds/measures/spread.py: quoted_spread (lines 20-22), effective_spread, realized_spread", "src/frds/measures/price_impact.py: simple_price_impact"]}
{"id": "C140", "title": "Integer dollar volumes wrap around: the weights are reduced modulo the type's range", "statement": "When volume and price are integer arrays, effective_spread weights each trade with volume x price reduced to the range of the product type: the simple mean if all reduced weights are zero, ZeroDivisionError if they sum to zero otherwise, else the mean with those weights. In every signed width there are trades with positive representable prices and volumes and non-negative spreads whose reported average spread is negative.", "quantifier": "all integer types, all tables of positive prices and midpoints, both modes, with and without directions", "why_tests_cant": "exact result for every table, including overflow of each product", "anchors": ["src/frds/measures/spread.py: effective_spread (lines 66-69)"]}
{"id": "C141", "title": "Scaled depth difference of integer sizes", "statement": "The scaled depth difference of integer sizes equals that of the same sizes as floats if the depths, their sum and twice their difference are representable; signed sizes with depths below 2^61 always are. With unsigned sizes the result is never negative, each quote with the deeper bid side is off by 2^64 / depth, and the result agrees with the float one exactly when no quote has a deeper bid side.", "quantifier": "all numbers of quotes and levels, all integer types up to 64 bits, all non-negative sizes with total depth below 2^63", "why_tests_cant": "exact characterisation over all books", "anchors": ["src/frds/measures/lob_slope.py: DGGW_scaled_depth_difference (lines 138-171)"]}
{"id": "C142", "title": "Slopes and slope differences of integer sizes and prices", "statement": "Ask and bid slopes equal those of the same numbers as floats if depths and price differences are representable; slope differences of signed numbers below half the type's range do too. With unsigned prices and midpoints a price below the midpoint is taken to be 2^w - (midpoint - price) away, so every proper bid-side quote is wrong, and np.absolute does not repair it; in slope differences every difference that should be negative is too large by 2^w.", "quantifier": "all books, all integer widths, all representable sizes and prices", "why_tests_cant": "must hold for all books and types", "anchors": ["src/frds/measures/lob_slope.py: DGGW_ask_slope, DGGW_bid_slope, DGGW_bid_side_slope_difference"]}
{"id": "C143", "title": "PIN likelihoods of integer-typed counts: EHO2010 is type-independent, LK2011 is wrong for unsigned buys", "statement": "For buy and sell counts of any integer types the EHO2010 objective equals that of the same counts as floats for every parameter vector. The LK2011 objective does for signed buys; for unsigned w-bit buys it is minus the log of the product of distorted day probabilities (the no-event state of a day with b > 0 buys is multiplied by (1 + mu/eps_b)^(2^w)), never larger than the true objective, and different from it exactly when alpha < 1, mu > 0 and some day has a buy.", "quantifier": "all count histories, integer types and (admissible) parameter vectors", "why_tests_cant": "ranges over all histories, types and parameters", "anchors": ["src/frds/measures/_probability_of_informed_trading.py: loglikelihood_EHO2010, loglikelihood_LK2011 (line 161)"]}
{"id": "C144", "title": "SRISK with integer debt and market value: D + W may overflow", "statement": "SRISK of W and D arrays of any mixture of integer types and floats equals that of the same numbers as floats if every D + W is representable in the common type. With signed w-bit values (positive equity, non-negative debt), a firm whose D + W exceeds the largest number of the type is reported with an SRISK that is too low by exactly k 2^w; every other firm's is right.", "quantifier": "all numbers of firms, integer types, capital requirements and LRMES values", "why_tests_cant": "exact result for all values, including overflow", "anchors": ["src/frds/measures/_srisk.py: estimate (lines 92-93)"]}
{"id": "C145", "title": "DCC classes: accepted arguments and meaning of the parameter fields", "statement": "GARCHModel_DCC built from two return arrays or GARCHModel objects, and GJRGARCHModel_DCC built from arrays or GJRGARCHModel objects, estimate each univariate model on its own and after fit() report every univariate estimate under its own name, with a, b and loglikelihood from the second step (NaN if it failed). GARCHModel_DCC also accepts GJRGARCHModel objects, but then the fields are shifted: beta1 is the asymmetry of model 1, mu2 its persistence and so on, and after a failed second step a and b hold univariate estimates instead of NaN. Any other argument (a list, a GARCHModel for the GJR class) is accepted by the constructor, and fit() and the log-likelihood raise AttributeError.", "quantifier": "all kinds of arguments, all data, all behaviours of the three optimisers, with and without the compiled kernels", "why_tests_cant": "all combinations of argument kinds, estimation outcomes and data", "anchors": ["src/frds/algorithms/_mgarch.py: GARCHModel_DCC.__init__, Parameters, fit (lines 203-299)", "src/frds/algorithms/_mgarch.py: GJRGARCHModel_DCC (lines 408-473)", "src/frds/algorithms/_garch.py: Parameters (lines 24-30, 347-354)"]}
{"id": "C146", "title": "DCC estimation completes on regular data and rejects misaligned series", "statement": "If both arguments stand for T finite returns that are not all equal (not all zero for zero-mean models), as arrays or as models of either class, estimated before or not, then fit() of either DCC class completes and conditional_correlations(a, b) returns T values for every a and b, whatever the optimisers do. If the two series have different lengths of at least two, fit() raises.", "quantifier": "all T, all finite non-degenerate data, all optimiser behaviours, both classes, with and without the compiled kernels", "why_tests_cant": "totality over all inputs and all optimiser behaviours, including failed optimisations", "anchors": ["src/frds/algorithms/_mgarch.py: fit, starting_values, loglikelihood_model, conditional_correlations (lines 249-406)", "src/frds/algorithms/_garch.py: fit (lines 51-128, 356-406)"]}
{"id": "C147", "title": "Compiled DCC and LRMES kernels: right on every memory layout", "statement": "With the C extension, conditional correlations and the LRMES simulation are computed from the elements NumPy sees, whatever the memory layout of the arrays passed (slices, reversed or strided views, transposed matrices), and equal the pure Python results for the LRMES simulation and the list model of the DCC kernel. The DCC kernel stays inside its arrays exactly if the first series is not empty and the second is at least as long; later days of a longer second series are ignored.", "quantifier": "all lengths, offsets, strides, memory contents, parameters, including NaN and infinities", "why_tests_cant": "all layouts and lengths; out-of-bounds reads are not observable by tests", "anchors": ["src/frds/algorithms/utils/mgarch.hpp: conditional_correlations", "src/frds/algorithms/utils/utils_module.cpp: dcc_conditional_correlations_wrapper (lines 158-181)", "src/frds/measures/lrmes.hpp: simulation", "src/frds/measures/measures_module.cpp: lrmes_simulation_wrapper (lines 22-46)", "src/frds/measures/_long_run_mes.py: lines 94-116"]}
{"id": "C148", "title": "PIN stays a probability in floating point", "statement": "calculate_pin of parameters inside the estimation bounds (0 <= alpha <= 1, non-negative mu and arrival rates, alpha*mu finite) returns a number between 0 and 1 in rounded arithmetic too; it is NaN only if alpha*mu underflows or is zero and both uninformed rates are zero.", "quantifier": "all parameter vectors in the bounds; all rounding functions that are monotone, odd, idempotent and exact on integers up to 2^p (IEEE binary64 in particular), all orders and bracketings of the sums", "anchors": ["src/frds/measures/_probability_of_informed_trading.py: calculate_pin (lines 25-31)"], "why_tests_cant": "a test runs on one machine with one summation order and few inputs; rounding, overflow and underflow vary with every input"}
{"id": "C149", "title": "Quoted spread in floating point", "statement": "For quotes 0 < bid <= ask the computed midpoint lies between bid and ask (unless bid+ask overflows), and the computed percentage quoted spread is never NaN, never negative and at most 200. With a log that is finite and monotone on positive numbers the computed log quoted spread is never NaN and never negative.", "quantifier": "all representable positive quotes, any number of quotes up to 2^52; all rounding functions that are monotone, odd, idempotent and exact on integers up to 2^p (IEEE binary64 in particular), all orders and bracketings of the sums", "anchors": ["src/frds/measures/spread.py: quoted_spread (lines 4-24)"], "why_tests_cant": "a test runs on one machine with one summation order and few inputs; rounding, overflow and underflow vary with every input"}
{"id": "C150", "title": "Unsigned trade spreads in floating point are never negative", "statement": "Without a trade direction array, effective_spread, realized_spread and simple_price_impact of trades with non-negative prices and volumes and positive midpoints never raise and never return a negative number in rounded arithmetic.", "quantifier": "all trades, percentage or log spreads, equal or dollar weights; all rounding functions that are monotone, odd, idempotent and exact on integers up to 2^p (IEEE binary64 in particular), all orders and bracketings of the sums", "anchors": ["src/frds/measures/spread.py: effective_spread, realized_spread", "src/frds/measures/price_impact.py: simple_price_impact"], "why_tests_cant": "a test runs on one machine with one summation order and few inputs; rounding, overflow and underflow vary with every input"}
{"id": "C151", "title": "Order book measures in floating point", "statement": "DGGW_scaled_depth_difference of books with non-negative sizes, at least one of them positive, stays in [-2, 2] in rounded arithmetic as long as no doubled depth overflows; if one overflows the result can be infinite. DGGW_bid_slope of non-negative depths is never negative.", "quantifier": "all books of any size; all rounding functions that are monotone, odd, idempotent and exact on integers up to 2^p (IEEE binary64 in particular), all orders and bracketings of the sums", "anchors": ["src/frds/measures/lob_slope.py: DGGW_scaled_depth_difference (lines 138-171), DGGW_bid_slope (lines 63-99)"], "why_tests_cant": "a test runs on one machine with one summation order and few inputs; rounding, overflow and underflow vary with every input"}
{"id": "C152", "title": "GARCH variance bounds hold in floating point", "statement": "In rounded arithmetic the computed variance bounds are ordered and not negative for all finite residuals, and every variance after the first computed by compute_variance of GARCHModel and GJRGARCHModel is at least its lower bound: in pure Python for all parameters and residuals, even if NaN or overflow occurs, and in C++ for positive coefficients and finite residuals. The first variance is at least omega.", "quantifier": "all residuals, parameters and lengths; all rounding functions that are monotone, odd, idempotent and exact on integers up to 2^p (IEEE binary64 in particular), all orders and bracketings of the sums", "anchors": ["src/frds/algorithms/_garch.py: variance_bounds, bounds_check, ewma, compute_variance", "src/frds/algorithms/utils/garch.hpp"], "why_tests_cant": "a test runs on one machine with one summation order and few inputs; rounding, overflow and underflow vary with every input"}
{"id": "C153", "title": "SRISK in floating point: monotone, aggregate dominates", "statement": "In rounded arithmetic SRISK of a firm with positive equity does not decrease when debt or LRMES increase, and the aggregate SRISK is not negative and at least each firm's SRISK, whatever the order in which the sum is taken.", "quantifier": "all finite inputs with 0 < k <= 1; all numbers of firms; all rounding functions that are monotone, odd, idempotent and exact on integers up to 2^p (IEEE binary64 in particular), all orders and bracketings of the sums", "anchors": ["src/frds/measures/_srisk.py"], "why_tests_cant": "a test runs on one machine with one summation order and few inputs; rounding, overflow and underflow vary with every input"}
{"id": "C154", "title": "LRMES in floating point", "statement": "In rounded arithmetic, in Python and in C++, LRMES is NaN or at most one for any inputs; with threshold C <= -1 it is exactly zero; raising C never turns a systemic path into a non-systemic one and keeps its firm return.", "quantifier": "all arguments and innovations, up to 2^53 paths, every exp that returns NaN or a non-negative number; all rounding functions that are monotone, odd, idempotent and exact on integers up to 2^p (IEEE binary64 in particular), all orders and bracketings of the sums", "anchors": ["src/frds/measures/_long_run_mes.py: lines 85-248", "src/frds/measures/lrmes.hpp"], "why_tests_cant": "a test runs on one machine with one summation order and few inputs; rounding, overflow and underflow vary with every input"}
{"id": "C155", "title": "Sign of the z-score in floating point", "statement": "In rounded arithmetic z_score is NaN or has the sign of roa + capital_ratio: never negative if the sum is not negative, never positive if it is not positive.", "quantifier": "all finite roa and capital ratios, all past returns including NaN and infinities; all rounding functions that are monotone, odd, idempotent and exact on integers up to 2^p (IEEE binary64 in particular), all orders and bracketings of the sums", "anchors": ["src/frds/measures/_z_score.py"], "why_tests_cant": "a test runs on one machine with one summation order and few inputs; rounding, overflow and underflow vary with every input"}
{"id": "C156", "title": "fftsmooth against its Matlab original", "statement": "On an even number of finite observations and an even window 2k with k + 2 <= n, fftsmooth returns exactly the numbers fftsmooth.m returns (whose complex transforms leave no imaginary part). Matlab accepts a window iff it is 2k with k + 2 <= n, Python iff n and w are even, n is positive and w <= 2n: for even n the only windows Python accepts and Matlab rejects are w = 2n - 2 and w = 2n, where Python's negative index wraps around.", "quantifier": "all vectors of finite numbers and all windows, all lengths", "anchors": ["src/frds/measures/modified_merton/fftsmooth.py", "src/frds/measures/modified_merton/matlab/fftsmooth.m"], "why_tests_cant": "a port can only be compared on sample data by a test; equality of the two programs ranges over all data and windows"}
{"id": "C157", "title": "merton_solution against its Matlab original", "statement": "The residuals of MertonSolution.m are those of merton_solution plus 9999999 times the squares of the negative parts of the candidate asset value and volatility: the penalty was lost in the port. The two agree where the candidate is not negative.", "quantifier": "all finite candidates and all other arguments", "anchors": ["src/frds/measures/modified_merton/merton_solution.py", "src/frds/measures/modified_merton/matlab/MertonSolution.m"], "why_tests_cant": "tests evaluate at a few candidates, and the difference appears only at negative ones a solver may visit"}
{"id": "C158", "title": "Rounding of the sort key: round against np.round", "statement": "Matlab's round(x,9) and Python's np.round(x,9) agree unless x is half-way between two nine-digit decimals; there they differ by one unit exactly when the lower neighbour is even.", "quantifier": "all real numbers", "anchors": ["src/frds/measures/modified_merton/mod_merton_computation.py", "src/frds/measures/modified_merton/mod_single_cohort_computation.py", "src/frds/measures/modified_merton/matlab/ModMertonComputation.m"], "why_tests_cant": "ties do not occur in random test data"}
{"id": "C159", "title": "One-cohort computation against its Matlab original", "statement": "mod_single_cohort_computation returns what ModSingleCohortComputation.m returns (all fourteen non-volatility outputs exactly, the volatilities wherever no stepped value is negative), provided both solvers solve the yield equation, 3*Nsim2*len(fs) is a multiple of 40, there are at least two simulations and no two different sort keys are closer than 1e-9. Matlab fails on every other number of observations and with one simulation, where Python may return results. If moreover every expected repayment is at least a third of the promised amount and the payout rate is not negative, both volatilities are equal and the Matlab ones real.", "quantifier": "all parameters, states, shocks and numbers of steps and simulations; all solvers that return a root", "anchors": ["src/frds/measures/modified_merton/mod_single_cohort_computation.py", "src/frds/measures/modified_merton/matlab/ModSingleCohortComputation.m"], "why_tests_cant": "the repository compares the two on one stored data set; agreement must hold for all parameters and draws"}
{"id": "C160", "title": "Several-cohort computation against its Matlab original", "statement": "mod_merton_computation returns what ModMertonComputation.m returns (volatilities wherever no stepped value is negative), provided both solvers solve the yield equation, 3*Nsim2*len(fs) is a multiple of 40, there are at least two simulations and no sort key is half-way between two nine-digit decimals, which fails for at most countably many loan sizes. Matlab fails on other numbers of observations and with one simulation. If moreover every expected repayment is at least a third of the promised amount and the payout rate is not negative, both volatilities are equal and the Matlab ones real.", "quantifier": "all parameters, states, shocks and numbers of cohorts and simulations; all solvers that return a root", "anchors": ["src/frds/measures/modified_merton/mod_merton_computation.py", "src/frds/measures/modified_merton/matlab/ModMertonComputation.m"], "why_tests_cant": "the repository compares the two on one stored data set; agreement must hold for all parameters and draws, with 1-based against 0-based indices everywhere"}
{"id": "C161", "title": "Lookup tables against their Matlab originals", "statement": "Given the same shocks, mod_merton_create_lookup and mod_single_merton_create_lookup fill every cell of the six tables with the value the Matlab functions store there, when every cell meets the conditions of C160 or C159 (sigEt where the stepped equity values are not negative).", "quantifier": "all grids and table sizes, all parameters and shocks, all solvers that return a root", "anchors": ["src/frds/measures/modified_merton/mod_merton_create_lookup.py", "src/frds/measures/modified_merton/mod_single_merton_create_lookup.py", "src/frds/measures/modified_merton/matlab/ModMertonCreateLookup.m", "src/frds/measures/modified_merton/matlab/ModSingleMertonCreateLookup.m"], "why_tests_cant": "a test compares one table; an index error in one of four dimensions shows only for some shapes"}
{"id": "C162", "title": "Accuracy of the computed PIN", "statement": "For estimates whose exact intermediate values neither underflow nor overflow, the PIN computed in floating point differs from alpha*mu/(alpha*mu+eB+eS) by a relative error of at most 5u/(1-5u); in binary64 at most 6*2^-53.", "quantifier": "all non-negative estimates of representable arrival rates in range; all roundings with relative error u (IEEE binary64 in particular)", "why_tests_cant": "a test compares a few values with a tolerance chosen by hand; the bound has to hold for every input", "anchors": ["src/frds/measures/_probability_of_informed_trading.py"]}
{"id": "C163", "title": "Accuracy of the computed percentage quoted spread", "statement": "For n quotes with 0 < bid <= ask the computed percentage quoted spread has a relative error of at most (n+5)u/(1-(n+5)u) ((n+6)*2^-53 in binary64 for up to 2^20 quotes), however close bid and ask are, and whatever the order of the summation.", "quantifier": "all lists of representable quotes of ordinary size, all roundings with relative error u, all orders and bracketings of the sum", "why_tests_cant": "cancellation in ask - bid and the summation order depend on the data; a test covers a few data sets", "anchors": ["src/frds/measures/spread.py"]}
{"id": "C164", "title": "Accuracy of the computed effective and realized spread and price impact", "statement": "Without trade directions the computed percentage effective spread, realized spread and simple price impact of n trades have a relative error of at most (2n+6)u/(1-(2n+6)u) against the exact dollar-weighted mean.", "quantifier": "all lists of trades whose exact intermediate values neither underflow nor overflow, with positive dollar volume in total; all roundings with relative error u; all orders of the two sums", "why_tests_cant": "a test covers a few data sets and one summation order", "anchors": ["src/frds/measures/spread.py", "src/frds/measures/price_impact.py"]}
{"id": "C165", "title": "Accuracy of the computed variance paths", "statement": "As long as the exact variances stay inside the variance bounds by a factor of two, the computed GARCH(1,1), GJR-GARCH(1,1) and EWMA variances of period t have a relative error of at most 3+2t, 5+3t and 2+2t rounding errors: the error grows linearly, not exponentially, in Python and in C++.", "quantifier": "all parameters >= 0, residuals, series lengths and back-ends; exact values in the range of normal numbers; all roundings with relative error u", "why_tests_cant": "error growth over long series cannot be seen from short ones, and the exact value is not available to a test", "anchors": ["src/frds/algorithms/_garch.py", "src/frds/algorithms/utils/garch.hpp"]}
{"id": "C166", "title": "Accuracy of the computed SRISK and aggregate SRISK", "statement": "The computed SRISK of a firm differs from the exact value of the formula by at most 6u/(1-6u) times k(D+W)+W((1-k)|LRMES|+2); the sum of the positive parts of n firms' values is accurate to n-1 rounding errors.", "quantifier": "all firms with 0 <= k <= 1, positive equity, non-negative debt and any LRMES, no overflow; all roundings with relative error u; all orders of the sum", "why_tests_cant": "the terms cancel to different degrees for every firm", "anchors": ["src/frds/measures/_srisk.py"]}
{"id": "C167", "title": "Accuracy of the computed log quoted spread", "statement": "With a logarithm correct to one rounding error, the computed log quoted spread of n quotes differs from the exact mean of log ask - log bid by at most (n+2)u/(1-(n+2)u) times the mean of |log ask|+|log bid|.", "quantifier": "all lists of positive quotes without underflow or overflow; all roundings with relative error u; all orders of the sum", "why_tests_cant": "cancellation depends on the price level; a test covers a few data sets", "anchors": ["src/frds/measures/spread.py"]}
{"id": "C168", "title": "Compiled numerical kernels release everything they allocate", "statement": "Calling any of the compiled kernels (EWMA, bounds check, GARCH and GJR-GARCH variances, DCC correlations, LRMES simulation step) and dropping the result leaves every object that existed before with the reference count it had before, and leaves no other object alive; this holds for successful calls and for every failing call (bad arguments, bad dimensions, no memory), and therefore after any history of calls, such as the thousands an estimation makes. No call releases an object that is already gone. The only calls that are not safe are a variance kernel called with parameters that are not iterable and the DCC kernel called when the result array cannot be allocated: both use a null pointer.", "quantifier": "all heaps, all calls and argument objects (parsing and allocation succeeding or not, any parameter iterable yielding existing or new objects), all histories of calls", "why_tests_cant": "a reference count that is off by one does not change any result; a leak or a premature release shows only after many calls, on an error path, or when memory is exhausted", "anchors": ["src/frds/algorithms/utils/utils_module.cpp:ewma_wrapper", "src/frds/algorithms/utils/utils_module.cpp:compute_garch_variance_wrapper", "src/frds/algorithms/utils/utils_module.cpp:compute_gjrgarch_variance_wrapper", "src/frds/algorithms/utils/utils_module.cpp:dcc_conditional_correlations_wrapper", "src/frds/measures/measures_module.cpp:lrmes_simulation_wrapper"]}
{"id": "C169", "title": "Every isolation forest scoring leaks one float object per row", "statement": "A successful call of the isolation forest extension leaves all objects that existed before with the reference counts they had before, but also leaves exactly as many additional objects alive as rows were scored; nothing refers to them, so that nothing can release them, and after any history of calls the number of leaked objects is the total number of rows scored. A call that fails because the text columns cannot be converted keeps a reference to the numeric array (or its converted copy alive) forever; a call that fails at any other place leaves nothing behind.", "quantifier": "all heaps, all calls (arrays used as they are, converted by copy, or not convertible), all numbers of rows, all histories of calls", "why_tests_cant": "the scores are right; a leak of 24 bytes per row is invisible to any test of results and adds up only in long-running processes", "anchors": ["src/frds/algorithms/isolation_forest/iforest_module.cpp:iforest_wrapper"]}
{"id": "C170", "title": "Anomaly scores in floating point: in [0, 1], accurate, and independent of the schedule up to rounding", "statement": "In floating-point arithmetic every anomaly score is a number between 0 and 1, for every schedule of the threads, and differs from the exact score 2^(-average path length / c(tree size)) by at most 2(forestSize + 120m + 244) rounding errors plus the error of pow, where m is the error of the logarithm in roundings; two runs with the same data, seed and number of workers differ at most by twice that. For binary64 and the default forest (1000 trees of 256 rows) the error is below 1e-12. The scores are not bitwise reproducible, though: the path lengths are summed in the order in which the threads happened to push their trees, and there are data and two schedules giving different binary64 scores.", "quantifier": "all data sets, forests, seeds, numbers of workers, schedules of the threads; all binary floating-point formats large enough for C integers and all logarithms / powers of given accuracy", "why_tests_cant": "the error bound ranges over all forests and all schedules; an order-dependent last digit shows up only under schedules a test does not control", "anchors": ["src/frds/algorithms/isolation_forest/IsolationForest.cpp:anomalyScore", "src/frds/algorithms/isolation_forest/IsolationForest.cpp:pathLength", "src/frds/algorithms/isolation_forest/IsolationForest.cpp:averagePathLength", "src/frds/algorithms/isolation_forest/IsolationForest.cpp:grow"]}
{"id": "C171", "title": "Direct calls of compute_variance: number of parameters and of bounds columns", "statement": "Called directly, compute_variance checks the number of parameters only without the C++ extension: anything but three (GARCH) or four (GJR) raises ValueError. With the extension extra parameters are silently ignored, so passing the full vector [mu, omega, alpha, beta] returns the variances of a model with mu as omega, omega as alpha and alpha as beta; fewer parameters are read out of bounds. With the right number of parameters the call without the extension uses the first two columns of var_bounds (IndexError if there are fewer than two), while the extension uses entries 2t and 2t+1 of the flattened array: both are the estimation's variance path when var_bounds has exactly two columns, and they differ for three.", "quantifier": "all parameter lists, residuals, backcasts and bounds arrays of any shape", "why_tests_cant": "the argument shapes are unbounded and the two builds are never tested against each other on malformed calls", "anchors": ["src/frds/algorithms/_garch.py:GARCHModel.compute_variance", "src/frds/algorithms/_garch.py:GJRGARCHModel.compute_variance", "src/frds/algorithms/utils/utils_module.cpp:compute_garch_variance_wrapper", "src/frds/algorithms/utils/utils_module.cpp:compute_gjrgarch_variance_wrapper", "src/frds/algorithms/utils/garch.hpp:compute_garch_variance", "src/frds/algorithms/utils/garch.hpp:compute_gjrgarch_variance"]}
{"id": "C172", "title": "Integer residuals in compute_variance and forecast_variance", "statement": "If the residuals passed to the static variance methods are integers, the result without the extension is an integer array: every variance is the exact expression cut off towards zero before and after the bounds are applied (so variances can lie below their lower bound), and for finite arguments nothing is reported except values outside int64 (OverflowError); a NaN parameter or backcast raises ValueError. A first variance below one becomes zero and makes the log-likelihood NaN. forecast_variance truncates likewise, with or without the extension. With the extension compute_variance reads the 64-bit integers as doubles: a non-negative residual counts as less than 2^-1022 and every variance after a negative residual is NaN.", "quantifier": "all integer residual arrays (squares within int64), all real parameters, backcasts and finite positive bounds", "why_tests_cant": "the recursion runs over residual series of any length with arbitrary integers", "anchors": ["src/frds/algorithms/_garch.py:GARCHModel.compute_variance", "src/frds/algorithms/_garch.py:GJRGARCHModel.compute_variance", "src/frds/algorithms/utils/utils_module.cpp:compute_garch_variance_wrapper", "src/frds/algorithms/utils/utils_module.cpp:compute_gjrgarch_variance_wrapper", "src/frds/algorithms/utils/garch.hpp:compute_garch_variance", "src/frds/algorithms/utils/garch.hpp:compute_gjrgarch_variance", "src/frds/algorithms/_garch.py:GJRGARCHModel.forecast_variance"]}
{"id": "C173", "title": "Interrupted estimations of volatility and correlation models", "statement": "Suppose a fit() of a GARCH, GJR-GARCH, CCC or DCC model is interrupted at any point (an exception in the optimiser, KeyboardInterrupt, ...). As long as estimation_success is not set the parameters are those from before the call (for DCC: a, b and the log-likelihood are those from before or NaN), and calling fit() again gives exactly what the first call would have given. The exception: estimation_success is set before the parameters and residuals are written. A GARCH model interrupted in between claims success with NaN parameters or old residuals, and no later fit() repairs it; a CCC or DCC model interrupted in between keeps its old or incomplete parameters for good. A GJR-GARCH model is always repaired by the next fit(). A DCC model whose first GARCH model was caught in this way later reports a success in which that model's parameters are NaN and a, b do not depend on the returns. A call that is not interrupted does what the other properties say.", "quantifier": "all interruption points of all calls, all optimisers (that evaluate the objective at least once), all data; all histories of completed, failed and interrupted calls for GARCH", "why_tests_cant": "it ranges over every point at which a call can be interrupted, for any number of optimiser evaluations and any history of calls", "anchors": ["src/frds/algorithms/_garch.py:GARCHModel.fit", "src/frds/algorithms/_garch.py:GJRGARCHModel.fit", "src/frds/algorithms/_mgarch.py:GARCHModel_CCC.fit", "src/frds/algorithms/_mgarch.py:GARCHModel_DCC.fit", "src/frds/algorithms/_mgarch.py:GJRGARCHModel_DCC.fit"]}
{"id": "C174", "title": "Interrupted PIN estimation", "statement": "Wherever PIN.estimate() is interrupted, the order data are unchanged, and either nothing has changed or the stored parameter vector and log-likelihood are those of the best optimiser result so far (all NaN if there is none yet); pin and method are then either filled in accordingly or still NaN and empty. The success flag stays set if it was set before, so an interruption right after the reset leaves estimation_success True with NaN parameters. Estimating again gives the same parameters as on a new object. A call with an unsupported method changes nothing.", "quantifier": "all interruption points, all optimisers, all order data, both methods", "why_tests_cant": "it ranges over every interruption point of a loop of up to 125 optimisations with arbitrary results", "anchors": ["src/frds/measures/_probability_of_informed_trading.py:PIN.estimate"]}
{"id": "C175", "title": "Concurrent fits of one univariate model", "statement": "Several threads call fit() on one GARCHModel or GJRGARCHModel object, which takes no lock. Under every schedule the returns stay as they are, and the stored parameters, variances and residuals are each the original ones or ones produced by some thread; a thread raises only what fit() raises on that data with any optimiser; it returns None only if the object was or has been estimated; otherwise it returns the original parameters or some thread's. Every thread that keeps being scheduled finishes, and a call that is not interleaved behaves like the sequential one. But the calls are not isolated: the log-likelihood stored with the parameters may combine one point's residuals with another thread's variances (so it can differ from the value of the same call alone), and parameters and residuals can end up belonging to different threads.", "quantifier": "all numbers of threads, all schedules at the granularity of attribute accesses, all optimisers asking any sequence of evaluations, all return series", "why_tests_cant": "thread schedules are not controlled by a test and the set of interleavings is unbounded", "anchors": ["src/frds/algorithms/_garch.py:GARCHModel.fit", "src/frds/algorithms/_garch.py:GARCHModel.loglikelihood_model", "src/frds/algorithms/_garch.py:GJRGARCHModel.fit"]}
{"id": "C176", "title": "Concurrent PIN estimations of one object", "statement": "Several threads call estimate() on one PIN object, each with its own method. Under every schedule the order data are unchanged, Parameters objects returned before are not modified, every new Parameters object holds either all-NaN estimates or a point with its log-likelihood found by one of the threads, with pin not computed yet or that of this point; the success flag is raised only after a success; a supported method never raises and an unsupported one always raises ValueError; a thread that keeps being scheduled finishes, and an uninterleaved call is the sequential one. But a thread can get an all-NaN result although its own optimisation succeeded (another call's reset), and estimates of one method can be returned, to both callers, under the name of the other.", "quantifier": "all numbers of threads, all schedules at the granularity of attribute accesses, all optimiser results, all order data", "why_tests_cant": "thread schedules are not controlled by a test and the set of interleavings is unbounded", "anchors": ["src/frds/measures/_probability_of_informed_trading.py:PIN.estimate"]}
{"id": "C177", "title": "Concurrent absorption ratios of one object", "statement": "Several threads call estimate(fraction), each with its own fraction, on one AbsorptionRatio object, whose covariance matrix and eigenvalues are cached properties filled without a lock. Under every schedule each thread that finishes gets exactly the value (or exception) it would get from a new object with the same returns, the returns are unchanged and the caches hold the right values; each thread that keeps being scheduled finishes.", "quantifier": "all numbers of threads, all schedules at the granularity of attribute accesses, all eigenvalue routines, all return matrices and fractions", "why_tests_cant": "thread schedules are not controlled by a test and the set of interleavings is unbounded", "anchors": ["src/frds/measures/_absorption_ratio.py:AbsorptionRatio.estimate", "src/frds/measures/_absorption_ratio.py:AbsorptionRatio.cov", "src/frds/measures/_absorption_ratio.py:AbsorptionRatio.eig"]}
{"id": "C178", "title": "Estimations and the process's warning filters", "statement": "A univariate fit, a multivariate fit or a PIN estimation that is not overlapped by another thread leaves the process-wide warning filters exactly as they were, whether it returns or raises; while it optimises, its own filter is in front, so a warning it covers is ignored whatever the user's filters say and every other warning is treated as before. With any number of overlapping estimations, of the same or of different objects, the user's filters are always all in force in their order up to the estimators' own two filters, so all other warnings are treated as before. But overlapping calls can leave an estimator's filter in force for good after all of them have finished, e.g. all RuntimeWarnings of the process ignored although the user turned them into exceptions.", "quantifier": "all filter lists, all outcomes of the numerical work, all numbers of threads and all schedules at the granularity of accesses to the filter list", "why_tests_cant": "the effect is on global state, and depends on the interleaving and on every possible exit", "anchors": ["src/frds/algorithms/_garch.py:GARCHModel.fit", "src/frds/algorithms/_garch.py:GJRGARCHModel.fit", "src/frds/algorithms/_mgarch.py:GARCHModel_CCC.fit", "src/frds/algorithms/_mgarch.py:GARCHModel_DCC.fit", "src/frds/measures/_probability_of_informed_trading.py:PIN.estimate"]}
{"id": "C179", "title": "The modified Merton simulation resets the warning filters", "statement": "simulate() changes the process-wide warning filters and does not restore them: once it is past its Merton loop, every warning is treated with the action 'default', whatever filters the user had installed; if the loop raises, every RuntimeWarning is ignored from then on and the other warnings are treated as before; if it raises before the loop, nothing changes.", "quantifier": "all filter lists, all warnings, all outcomes of the three parts of the computation", "why_tests_cant": "it speaks of every filter list and every possible warning", "anchors": ["src/frds/measures/modified_merton/mod_merton_simulation.py:simulate"]}
{"id": "C180", "title": "LRMES objects with a history", "statement": "LongRunMarginalExpectedShortfall works on the percentage log returns 100 log(1+r) of two series of equal length. The first estimate() is the two-step DCC estimation followed by the LRMES of the estimated model; RuntimeError if that estimation fails. After any number of calls, returned or raised, a call gives what it would have given as the first one. After interruptions this still holds as long as the correlation model is not marked as estimated. Once it is marked, either its parameter b is NaN - then no later call ever repairs it: each raises or returns NaN or 0 - or the property holds again after one further completed call. That further call is needed: an interruption in the re-estimation of the firm's model leaves the variances of some point the optimiser evaluated, and the next call draws its innovations from them.", "quantifier": "all return series, optimiser behaviours, random draws, call arguments, histories of calls, interruption points", "why_tests_cant": "it ranges over every history of calls and every point at which a call may be interrupted, for every optimiser", "anchors": ["src/frds/measures/_long_run_mes.py:LongRunMarginalExpectedShortfall.__init__", "src/frds/measures/_long_run_mes.py:LongRunMarginalExpectedShortfall.estimate", "src/frds/algorithms/_mgarch.py:GARCHModel_DCC.fit", "src/frds/algorithms/_mgarch.py:GARCHModel_DCC.conditional_correlations"]}
{"id": "C181", "title": "When LRMES returns and when it raises", "statement": "On firm and market series of one length T whose returns are real numbers above -1 and not all equal, estimate() returns a number for all arguments, or raises RuntimeError if the optimiser of the correlation model reports failure; nothing else can happen, whatever the optimisers do, and the number is the LRMES of the estimated model with T correlations and innovations drawn out of T. Series of different lengths raise AssertionError in the constructor; empty series raise IndexError in estimate(); a firm or market series with a return that is NaN, infinite or at most -1, or with all returns equal, raises ValueError in estimate().", "quantifier": "all return series of any length, optimiser behaviours, random draws, arguments", "why_tests_cant": "it covers every series and every behaviour of the optimisers", "anchors": ["src/frds/measures/_long_run_mes.py:LongRunMarginalExpectedShortfall", "src/frds/algorithms/_garch.py:GJRGARCHModel.starting_values", "src/frds/algorithms/_mgarch.py:GARCHModel_DCC.fit"]}
{"id": "C182", "title": "GARCH estimation never writes to arrays that existed before the call", "statement": "Constructing GARCH or GJR-GARCH models on arrays, views or lists, fitting them (successfully, unsuccessfully or with an exception; zero-mean models too, whose residuals are the caller's array itself), and calling ewma, compute_variance, variance_bounds or forecast_variance directly changes no element of any array that existed before the call: at every point of a program every array holds what the program's own assignments made of it. The arrays the calls return are new; a model's resids and sigma2 are never its return array nor each other; fitting one of several models that share an array leaves the attributes and values of the others unchanged. With or without the compiled extension, and the results are those of the computation on plain values.", "quantifier": "all programs of array creations, element assignments, constructions and fits over any number of models, all memories, all (also strided, overlapping) views, both builds, all optimisers", "why_tests_cant": "Aliasing shows only for particular combinations of dtype, zero_mean, view and history; a test fixes one and compares one array.", "anchors": ["src/frds/algorithms/_garch.py:GARCHModel.__init__", "src/frds/algorithms/_garch.py:GARCHModel.fit", "src/frds/algorithms/_garch.py:GARCHModel.preparation", "src/frds/algorithms/_garch.py:GARCHModel.ewma", "src/frds/algorithms/_garch.py:GARCHModel.variance_bounds", "src/frds/algorithms/_garch.py:GJRGARCHModel.forecast_variance"]}
{"id": "C183", "title": "Which objects notice that their data were overwritten", "statement": "A model constructed from a float64 array shares it: a fit at any later moment uses the contents of that moment; a model constructed from a list or another dtype keeps the values of the construction. Once a GARCHModel was estimated successfully, overwriting its data is ignored for ever (fit returns None, the parameters stay those of the old data), whereas a GJRGARCHModel fitted again gets exactly the parameters and residuals of a new model of the overwritten data. LongRunMarginalExpectedShortfall takes a snapshot at construction: it scales only arrays of its own, raises AssertionError exactly for different lengths, and later writes to the caller's arrays leave its models unchanged.", "quantifier": "all programs of array creations, element assignments, constructions and fits, all memories, both builds, all optimisers; all pairs of array or list arguments of the LRMES constructor", "why_tests_cant": "The dependence on later assignments is a property of histories; tests pass fresh arrays and never reuse them.", "anchors": ["src/frds/algorithms/_garch.py:GARCHModel.__init__", "src/frds/algorithms/_garch.py:GARCHModel.fit", "src/frds/algorithms/_garch.py:GJRGARCHModel.fit", "src/frds/measures/_long_run_mes.py:LongRunMarginalExpectedShortfall.__init__"]}
{"id": "C184", "title": "The simulation script and its Matlab original produce the same table", "statement": "On the same shocks, simulate and ModMertonSimulation.m use the same states and parameters, select the same three states, and compute the same three table columns (average borrower asset value, loan value, market capital ratio, default probability, credit spread, Merton default probability and spread), the same mface and the same Merton probabilities from the implied asset values - provided the number of simulations is a multiple of 40, no sort key is half-way between two nine-digit decimals, the solvers are exact and agree, and all volatilities are numbers and the loan and debt values not negative; the last condition holds whenever every expected repayment is at least a third of the promised amount.", "quantifier": "all shock matrices, all numbers of simulations divisible by 40, all solvers that return the exact yield, all two-dimensional solvers that agree with each other", "why_tests_cant": "Matlab is not run by the tests; equality for all shock matrices is a statement about two programs.", "anchors": ["src/frds/measures/modified_merton/mod_merton_simulation.py:simulate", "src/frds/measures/modified_merton/matlab/ModMertonSimulation.m"]}
{"id": "C185", "title": "When the values of the modified Merton model are positive", "statement": "For both the one-cohort and the several-cohort computation: if every expected repayment given the factor is at least a third of the promised amount, there are at least 20 observations, the debt is positive and the payout positive, then loan, debt and equity values are positive in every simulation and state and on average, and both volatilities are numbers. Without the bound this fails although every expected repayment is positive: there is an accepted input, with the exact promised yield, for which the smoother extrapolates below zero and the value of the loan portfolio and of the debt in a state are negative.", "quantifier": "all accepted parameters, states, shocks and yields; the counterexample is one input", "why_tests_cant": "The sign depends on all shocks jointly through the smoothing of sorted payoffs; a test sees one sample.", "anchors": ["src/frds/measures/modified_merton/mod_single_cohort_computation.py:mod_single_cohort_computation", "src/frds/measures/modified_merton/mod_merton_computation.py:mod_merton_computation", "src/frds/measures/modified_merton/fftsmooth.py:fftsmooth"]}
{"id": "C186", "title": "Machine integers in the isolation forest", "statement": "The extension counts observations in a C int, trees per worker in an unsigned int and everything else in size_t. While the largest sample a worker accumulates, (forest_size - forest_size // workers * (workers - 1)) * min(tree_size, n), stays below 2^31 (forest_size below 2^31), no count wraps around and the possible outputs are exactly those with unbounded integers. Beyond that bound, counts may wrap; the number of rows scored and the range (at most 1) stay right, and a row can only look more anomalous than it is: every score is at least the score with unbounded integers. The bound is sharp: for equal rows in one numeric column and one worker, every score is strictly too high exactly from forest_size * min(tree_size, n) = 2^31 on.", "quantifier": "all data sets, random generators, seeds, forest and tree sizes, numbers of workers and thread schedules", "why_tests_cant": "Wrapping needs samples of billions of observations, which no test allocates, and the bound must hold for all sizes and schedules.", "anchors": ["src/frds/algorithms/isolation_forest/IsolationForest.cpp: growTree, pathLength, grow, anomalyScore", "src/frds/algorithms/isolation_forest/IsolationForest.hpp: IsolationTree::Node", "src/frds/algorithms/isolation_forest/iforest_module.cpp"]}
{"id": "C187", "title": "blsprice on arrays, NumPy scalars and built-in numbers", "statement": "The six arguments may be built-in numbers, NumPy scalars and arrays of any shapes, in any combination. Unless S and K are both built-in numbers and K = 0 (ZeroDivisionError, whatever the other arguments), the call succeeds exactly if the shapes can be broadcast together, and raises ValueError otherwise; both results then have the broadcast shape and each entry is the scalar price of the corresponding entries of the arguments, so all scalar properties (parity, bounds, monotonicity) hold entry by entry. A zero strike given as a NumPy scalar does not raise: the call is worth S e^{-qT} and the put 0.", "quantifier": "all combinations of built-in numbers, NumPy scalars and float64 arrays with any number of dimensions, all values including nan and infinities", "why_tests_cant": "There are infinitely many shapes and mixtures of argument kinds; broadcasting has to agree over 24 intermediate operations for all of them.", "anchors": ["src/frds/measures/_option_price.py: blsprice"]}
{"id": "C188", "title": "A failed volatility estimation is silent in LRMES", "statement": "On usable series, if the optimiser reports failure for the market's volatility model, LongRunMarginalExpectedShortfall.estimate raises nothing about it: it returns exactly 0.0 (no systemic event, no expected shortfall), whatever the firm's data, the arguments and the random draws, unless the correlation estimation is also reported as failed (RuntimeError). If the firm's volatility model fails, the result is 0 or NaN.", "quantifier": "all usable firm and market series, all optimisers, all draws with at least one day, with or without the extension", "why_tests_cant": "Depends on the optimiser failing; a test fixes one data set on which it converges.", "anchors": ["src/frds/measures/_long_run_mes.py: estimate, simulation", "src/frds/algorithms/_mgarch.py: GJRGARCHModel_DCC.fit", "src/frds/algorithms/_garch.py: GJRGARCHModel.fit"]}
{"id": "C189", "title": "SRISK with the LRMES estimation it runs", "statement": "SRISK.estimate on usable series either raises RuntimeError or returns k*D-(1-k)*W*(1-LRMES) with the LRMES of a new object of the same data and options, for each firm separately; finite values are at most k*D and a finite aggregate lies between 0 and k times the total debt. A single unusable series (a return that is not a real number above -1, or constant returns) makes the whole multi-firm call raise. Log returns, which the documentation asks for, are logged a second time: the models see 100*log(1+log(1+r)) < 100*log(1+r), and a day with r <= 1/e-1 raises ValueError.", "quantifier": "all firms, series, equity and debt values, options, optimisers, random draws and contents of fresh memory", "why_tests_cant": "A property of the composition of five modules for every data set and every behaviour of the optimisers.", "anchors": ["src/frds/measures/_srisk.py: SRISK.__init__, estimate", "src/frds/measures/_long_run_mes.py: __init__, estimate"]}
{"id": "C190", "title": "The rank cut-off of least squares", "statement": "np.linalg.lstsq treats singular values up to 2^-52*max(M,N) times the largest as zero. kyle_lambda is nevertheless exactly the least-squares slope for every sample of fewer than 2^52 observations. SystemicExpectedShortfall.estimate is that of the (unique) least-squares regression whenever the training sample is well conditioned, for which det > cutoff^2 * trace^3 of the 3x3 moment matrix suffices. Otherwise it need not be: with leverage 2^50 times larger than MES and the constant, linearly independent, uncorrelated regressors give an estimate equal to the firm's leverage whatever its MES and the training data.", "quantifier": "all samples of all sizes; all routines that compute the truncated SVD solution with any choice of singular vectors", "why_tests_cant": "The cut-off depends on the singular values of the whole sample; a test covers one sample far from it.", "anchors": ["src/frds/measures/_kyle_lambda.py: kyle_lambda", "src/frds/measures/_systemic_expected_shortfall.py: _bflv2012"]}
{"id": "C191", "title": "Univariate models shared by several correlation models", "statement": "A GARCHModel_DCC (or GJRGARCHModel_DCC) may be built on GARCHModel (GJRGARCHModel) objects instead of arrays, and one such object, e.g. that of the market, may serve any number of correlation models. After any sequence of calls of fit on the univariate and on the correlation models and of starting_values, loglikelihood_model and conditional_correlations, in any order, where each call returns or raises, fit of every correlation model has the outcome it would have had as the very first call of the program: the same parameters, attributes and univariate models, or the same exception. With GJR models calls may also be interrupted at any point: a correlation model whose estimation_success is not set behaves as if nothing had happened, and one whose flag is set holds the parameters of that first call, of which the last of a, b and the log-likelihood may be NaN.", "quantifier": "every number of univariate and correlation models, every assignment of two different univariate models to each correlation model, every returns, every optimiser that evaluates its objective at least once, every sequence of calls, every exception and (GJR) every interruption point", "why_tests_cant": "Tests estimate one correlation model on two arrays; nothing tests shared objects, and no finite set of call sequences covers all orders in which shared models are estimated, re-estimated and left behind by exceptions.", "anchors": ["src/frds/algorithms/_mgarch.py: GARCHModel_DCC.__init__, fit, starting_values, loglikelihood_model, conditional_correlations, GJRGARCHModel_DCC", "src/frds/algorithms/_garch.py: GARCHModel.fit, GJRGARCHModel.fit"]}
{"id": "C192", "title": "Concurrent estimation of correlation models on shared univariate models", "statement": "A program fits one GARCHModel_DCC per firm in a thread pool, all built on shared GARCHModel objects (e.g. one for the market). If the univariate models have been estimated before, then under every schedule the univariate models and the correlation models nobody fits stay as they are, and every fit() that finishes returns the parameters (or raises the exception) and leaves the object that it would in a program without the other threads; every thread that keeps being scheduled finishes. If the shared model has not been estimated this is false: whenever its estimation would succeed there is a schedule under which another thread's fit() returns NaN for all parameters of the shared model, and for a and b whatever its optimiser reports after being given NaN for every value of the objective, with estimation_success set if the optimiser claims success.", "quantifier": "any number of threads, correlation models and univariate models, all schedules at the granularity of attribute accesses, all optimisers asking any sequence of evaluations, all returns; second part: all shared series of finite non-constant returns whose estimation succeeds", "why_tests_cant": "Thread schedules are not under a test's control and there are unboundedly many of them.", "anchors": ["src/frds/algorithms/_mgarch.py: GARCHModel_DCC.fit, starting_values, loglikelihood_model, conditional_correlations", "src/frds/algorithms/_garch.py: GARCHModel.fit"]}
{"id": "C193", "title": "Python and C++ GARCH kernels return the same floats", "statement": "With floating-point arithmetic (every operation rounded, any rounding, overflow to infinity included), bounds_check of the Python and C++ implementations return the same float whenever the variance and its lower bound are not NaN; compute_variance (GARCH and GJR) of both return the same floats whenever the extension's path has no NaN after its first entry, which is always the case with positive coefficients, finite residuals, a positive backcast and ordered bounds. With a NaN residual the extension's variances are NaN from the next period to the end, while Python returns the lower bound in the next period.", "quantifier": "all floating-point formats, parameters, residuals and bounds", "why_tests_cant": "Only one backend is present in a given install, and agreement to the last bit depends on the order of every operation.", "anchors": ["src/frds/algorithms/_garch.py::GARCHModel.bounds_check", "src/frds/algorithms/_garch.py::GARCHModel.compute_variance", "src/frds/algorithms/_garch.py::GJRGARCHModel.compute_variance", "src/frds/algorithms/utils/garch.hpp"]}
{"id": "C194", "title": "LRMES in floating point: Python and C++ simulate the same market", "statement": "With floating-point arithmetic the simulated market returns of a path are the same floats in the Python and the C++ simulation, and depend only on the market's parameters, last variance and residual and on the market innovations, not on the firm, the correlation parameters or the threshold. The implementations can therefore disagree on a systemic event only through the order in which the daily returns are added: over a one-day horizon they always agree, and over a longer one they agree, with the verdict of the exact sum of these returns, whenever no number within the rounding error (n-1)u/(1-(n-1)u) times the sum of absolute daily returns of that sum lies on the other side of the threshold. If they agree on each path's event they count the same number of events.", "quantifier": "all arguments, innovations, horizons, rounding functions and summation orders", "why_tests_cant": "Only one backend is present in a given install; the agreement concerns all inputs and all summation orders.", "anchors": ["src/frds/measures/_long_run_mes.py::LongRunMarginalExpectedShortfall.simulation", "src/frds/measures/lrmes.hpp::simulation"]}
{"id": "C195", "title": "DIP in floating point: which losses count, and how accurate the premium is", "statement": "In binary64 arithmetic, DistressInsurancePremium.estimate keeps its meaning up to two discretisation effects. (1) The threshold is turned into whole percents by int(default_threshold * 100): for a threshold written as a decimal number of whole percents from 0 to 100 this is the intended number, except that 29, 57 and 58 percent become 28, 56 and 57, so that a threshold of 0.29 returns exactly the result of 0.28, and 0.57 that of 0.56, on every input; for any threshold in [0, 1] it is the integer part of the exact product or one more. (2) The grid slot of a simulated loss differs by at most one from the slot of the exact sum of the draws. Given the slots, if some loss at or above the threshold has positive probability the call returns a non-negative number whose relative error against the exact average is at most 4 (n m + 100 n) 2^-53 for n banks and m loss simulations (n up to 2^10, m up to 2^20, up to 2^30 scenarios), for every summation order; otherwise it returns NaN.", "quantifier": "all numbers of banks, scenarios and simulations in the stated ranges, all default counts and loss draws, all thresholds, all summation orders, any content of the uninitialised array", "why_tests_cant": "The accuracy bound ranges over all draws and summation orders; which whole percentages are mis-truncated is a statement about all of them; tests with 0.15 never see it.", "anchors": ["src/frds/measures/_distress_insurance_premium.py: DistressInsurancePremium.estimate (lines 52-90)"]}
{"id": "C196", "title": "MES in floating point: which days count, and how accurate the average is", "statement": "In binary64 arithmetic, MarginalExpectedShortfall.estimate averages the firm's returns over the days on which the market return is strictly below a threshold that lies between two neighbouring order statistics of the market returns (floor and ceiling of the computed position of the quantile), whatever the rounding errors of the interpolation; at most ceiling(position) days are used. The position has relative error at most 4 * 2^-53, and the average of m returns differs from the exact average by at most (m + 1) 2^-53 times the average absolute return; without any day below the threshold the result is NaN. At the default q = 0.05 the position rounds to the same whole numbers as the exact (n - 1) / 20, so the call uses between floor and ceiling of (n - 1) / 20 days when all market returns differ. This is not so for every q: with 101 days and q = 0.07 eight days are averaged although seven lie below the exact 7% quantile.", "quantifier": "all lists of days with market returns that are doubles up to 2^1000, all q in [0, 1]; all lists of selected returns of up to 2^20 doubles for the average; up to 2^40 days for the default; all firm returns for the 101-day counterexample; every order of summation", "why_tests_cant": "which days are selected depends on rounding in three multiplications and on an interpolation, for every data set; a test sees one data set, and the q at which a day is added are rare", "anchors": ["src/frds/measures/_marginal_expected_shortfall.py: MarginalExpectedShortfall.estimate"]}
{"id": "C197", "title": "Absorption ratio in floating point: how many eigenvectors are used, monotonicity and accuracy", "statement": "In binary64 arithmetic, AbsorptionRatio.estimate(f) with 0 <= f <= 1 uses a number k of eigenvalues between 0 and n (the slice never wraps around) that differs from f*n by at most one half plus the rounding error of the product. For a fraction written as whole percents, k is the exact product rounded to the nearest whole number, unless the exact product is half-way between two whole numbers; so at the default 0.2 it is n/5 rounded, for every n. Half-way products may go the wrong way: 0.29 of 50 assets uses 14 eigenvalues although 14.5 rounds half up to 15. For non-negative computed eigenvalues and a positive trace the result is not negative and does not decrease when f grows, in spite of rounding, and it is within a relative error of (k + 1) 2^-53 of the sum of the k largest computed eigenvalues over the computed trace.", "quantifier": "all fractions in [0, 1]; all numbers of assets up to 2^40; all whole percents; all lists of non-negative eigenvalues and positive traces (up to 2^20 eigenvalues, sizes between 2^-400 and 2^400 for the accuracy)", "why_tests_cant": "the rounding of a product of a binary fraction and an integer decides about a whole eigenvalue; the failing combinations are isolated and no finite set of tests shows that the default has none", "anchors": ["src/frds/measures/_absorption_ratio.py: AbsorptionRatio.estimate"]}
{"id": "C198", "title": "The CCA equations have exactly one solution, so the estimate is well defined", "statement": "For positive equity, volatility, default barrier and maturity (any rate, any CDS spread) there is exactly one pair of positive numbers (a, b) such that the two equations ContingentClaimAnalysis.estimate hands to fsolve vanish exactly at (+-a, +-b) and nowhere else (not at zero, infinite or NaN components either); a^2 is an asset value and b^2 an asset volatility for which equity is a call struck at the barrier. Hence the put price and the contribution do not depend on the solver, its starting point or the signs it returns, as long as it finds a root. A root with non-zero components exists only if equity and volatility are positive.", "quantifier": "all positive equity, volatility, barrier, maturity, all rates and spreads, all points of the extended plane, all pairs of solvers", "why_tests_cant": "existence and uniqueness of the solution of a transcendental system over all inputs; a test sees one root of one system", "anchors": ["src/frds/measures/_contingent_claim_analysis.py: ContingentClaimAnalysis.estimate, cca_func"]}
{"id": "C199", "title": "CCA at an inaccurate root: the put is off by the balance-sheet residual", "statement": "For whatever finite point with non-zero components fsolve returns, converged or not, with residual e of the first equation there: the market value of debt used for the CDS leg is (asset value) - (equity) + e, lies strictly between zero and the smaller of the asset value and the discounted barrier, the put is the discounted barrier minus that amount, and the contribution follows from it; the residual of the volatility equation has no effect on the results.", "quantifier": "all equity values, volatilities, rates and spreads, all positive barriers and maturities, all finite non-zero solver answers", "why_tests_cant": "ranges over every point an iterative solver may stop at, for all inputs", "anchors": ["src/frds/measures/_contingent_claim_analysis.py: ContingentClaimAnalysis.estimate"]}
{"id": "C200", "title": "When CCA raises OverflowError", "statement": "math.exp raises OverflowError above a limit L. With a non-negative rate and a non-negative CDS spread estimate never raises OverflowError, for any finite non-zero solver answer. In general it does so exactly when -rate*maturity exceeds L (then also every evaluation of the equations at a non-zero point) or -(spread/10000)*(barrier/debt - 1)*maturity exceeds L, where debt = asset value - equity + residual; otherwise the result is that of the formulas.", "quantifier": "all limits, all rates and spreads, all positive barriers and maturities, all finite non-zero solver answers", "why_tests_cant": "the absence of an exception for all inputs and all solver answers", "anchors": ["src/frds/measures/_contingent_claim_analysis.py: ContingentClaimAnalysis.estimate"]}
{"id": "C201", "title": "The standard Merton fit of the simulation is well defined", "statement": "For positive equity value, equity volatility, debt and horizon, a dividend yield that is not negative and any rate, merton_solution vanishes at exactly one point (A, sig) of the plane, and both components are positive; in particular the clamping of negative arguments creates no other root. Hence the Merton columns computed by simulate (asset value, default probability, spread, guarantee) do not depend on the root finder or its start, as long as it finds a root.", "quantifier": "all positive equity values, volatilities, debts, horizons, all non-negative yields, all rates, all points of the plane, all pairs of root finders", "why_tests_cant": "existence and uniqueness of the solution of a transcendental system over all inputs", "anchors": ["src/frds/measures/modified_merton/merton_solution.py: merton_solution", "src/frds/measures/modified_merton/mod_merton_simulation.py: simulate"]}
{"id": "C202", "title": "Option prices in floating point keep put-call parity and the price bounds", "statement": "Computed in binary64 (every operation rounded), blsprice returns for prices, strikes, volatilities and expiries in [2^-200, 2^200] and rates with |r|T, |q|T <= 100 two finite numbers, never NaN or an infinity. The call is at most the computed discounted spot price and the put at most the computed discounted strike, without any tolerance; call minus put differs from the difference of the two discounted values by at most (delta + 5*2^-53) of their sum, where delta is the error with which norm.cdf(d) + norm.cdf(-d) = 1 holds, independently of the accuracy of d1 and d2; the computed d2 never exceeds d1; and a call whose discounted spot price is at least the discounted strike (a put in the opposite case) has a nonnegative price.", "quantifier": "all inputs in the stated ranges, every monotone distribution function with values in [0, 1], every rounding (for the bounds without tolerance) or binary64 (parity)", "why_tests_cant": "The guarantees concern every combination of six floating-point inputs and every rounding of intermediate results; tests compare a few prices with a tolerance.", "anchors": ["src/frds/measures/_option_price.py: blsprice"]}
{"id": "C203", "title": "Every admissible option price has exactly one implied volatility", "statement": "For positive spot price, strike and expiry, a number c is the call price blsprice returns for some positive volatility exactly if it lies strictly between max(0, S e^{-qT} - K e^{-rT}) and S e^{-qT}; the volatility is then unique. The same holds for put prices between max(0, K e^{-rT} - S e^{-qT}) and K e^{-rT}. A call and a put price have the same implied volatility exactly if they satisfy put-call parity.", "quantifier": "all positive S, K, T, all rates and yields, all target prices", "why_tests_cant": "Existence and uniqueness of a root for every price are statements about a continuum.", "anchors": ["src/frds/measures/_option_price.py: blsprice"]}
{"id": "C204", "title": "Option prices admit no butterfly, vertical or calendar arbitrage", "statement": "Call and put prices of blsprice are strictly convex in the strike and in the spot price; between two strikes the call falls and the put rises by a positive amount less than the discounted difference of the strikes; without a yield and with r >= 0 a call with a later expiry is worth strictly more, and without a rate and with q >= 0 a put is.", "quantifier": "all positive S, K, T, sigma, all rates and yields, all pairs of strikes, spot prices and expiries, all weights", "why_tests_cant": "Inequalities between prices at all pairs of arguments; tests look at single prices.", "anchors": ["src/frds/measures/_option_price.py: blsprice"]}
{"id": "C205", "title": "In floating point the estimation objective is never NaN or minus infinity, and the log-likelihood is accurate", "statement": "When GARCHModel and GJRGARCHModel evaluate their objective in IEEE-754 arithmetic - residuals, variance recursion with either kernel, logarithms, squares, the sum in whatever order NumPy takes - the value handed to the optimizer is never NaN and never minus infinity: with demeaned returns whose squares do not overflow, admissible coefficients (for the C++ kernel positive) and omega and all lower variance bounds at least l > 0, the evaluation completes and the value is at least -c*n where -c bounds the computed logarithm on [l, inf]; variances that overflowed to infinity are included. For finite residuals and variances whose squares and ratios are in range, the computed log-likelihood of n observations differs from the exact Gaussian log-likelihood by at most n+4 rounding errors relative to half the sum of log(2 pi) + |log s| + r^2/s.", "quantifier": "all rounding machines (binary64 with any summation order among them), all lists of returns, all parameters, backcasts and bounds in the stated range, both kernels, both mean specifications", "why_tests_cant": "Concerns rounding and overflow at every point the optimizer may visit and every summation order; tests evaluate a few moderate points on one machine.", "anchors": ["src/frds/algorithms/_garch.py: GARCHModel.loglikelihood_model, GARCHModel.loglikelihood, GARCHModel.compute_variance, GJRGARCHModel.compute_variance", "src/frds/algorithms/utils/garch.hpp: compute_garch_variance, compute_gjrgarch_variance"]}
{"id": "C206", "title": "Conditional correlations in binary64 exceed one by rounding error at most, can exceed one, and then poison LRMES", "statement": "In binary64 arithmetic, `conditional_correlations(a, b)` of the DCC models returns, for weights a, b >= 0 with a + b <= 1 and a computed 1 - a - b that is not negligible, finite numbers of magnitude at most 1 + (24 T + 8) 2^-53 for T observations, with the Python and with the C++ kernel. They are not confined to [-1, 1]: with a = 5/64, b = 7/8 and two identical three-day series the second correlation is 1 + 2^-52 in both kernels. Any returned correlation above one in magnitude makes the firm innovation that LongRunMarginalExpectedShortfall computes from it NaN, whatever the residuals. Without rounding the computation is the one of the exact model.", "quantifier": "all weights, all series of at most 2^40 standardised residuals of magnitude at most 2^60 with computed variances between 2^-210 and 2^246; one concrete series for the excess; all residuals and all representable correlations above one for the NaN", "why_tests_cant": "the bound accumulates over all observations and depends on how errors of numerator and denominator combine; a correlation above one appears only for particular roundings that random tests do not hit reliably", "anchors": ["src/frds/algorithms/_mgarch.py:GARCHModel_DCC.conditional_correlations", "src/frds/algorithms/utils/mgarch.hpp:conditional_correlations", "src/frds/measures/_long_run_mes.py:LongRunMarginalExpectedShortfall.estimate"]}
{"id": "C207", "title": "The DCC objective is a finite number in floating point", "statement": "The negative log-likelihood that the DCC fit minimises, evaluated in floating point on bounded standardised residuals, is a finite number: never NaN and never infinite, whatever non-NaN correlations the kernel returned (also above one, also infinite), because they are clipped to [-0.99, 0.99] first. In particular, from residuals up to 2^38 and variances between 2^-40 and 2^200 of both univariate models, in binary64, the objective is finite at every candidate a, b >= 0 with a + b <= 1 whose computed 1 - a - b is at least 2^-60, with either kernel.", "quantifier": "all standardised residuals of magnitude at most Z and all correlation lists without NaN, any summation order, any arithmetic accurate to 2^-10 or better whose range covers 8 L + 40000 (T + 1) Z^2; for the second part all residual and variance series of one length up to 2^40 and all such candidates", "why_tests_cant": "one overflow or a logarithm of a non-positive number at one observation of one candidate would make the objective NaN and silently stop the optimiser; the candidates it visits are not known in advance", "anchors": ["src/frds/algorithms/_mgarch.py:GARCHModel_DCC.loglikelihood_model"]}
{"id": "C208", "title": "The CCC objective is a finite number in floating point", "statement": "The log-likelihood of the constant-correlation model, and so the objective of its fit, evaluated in binary64 is a finite number, never NaN and never infinite, for residuals up to 2^38 in magnitude, variances between 2^-80 and 2^80 and every correlation within the bounds of the fit, [-0.99, 0.99]. Without rounding it is the likelihood of the exact model.", "quantifier": "all residual and variance series of one length up to 2^40 in those ranges, all correlations in the bounds, any order of summation, either variance kernel", "why_tests_cant": "the product of the variances and of 1 - rho^2 goes into one logarithm and the quotient by 1 - rho^2 into a sum: one underflow or overflow at one observation of one candidate makes the objective useless, and the candidates are chosen by the optimiser", "anchors": ["src/frds/algorithms/_mgarch.py:GARCHModel_CCC.loglikelihood", "src/frds/algorithms/_mgarch.py:GARCHModel_CCC.loglikelihood_model"]}
{"id": "C209", "title": "The PIN likelihoods in floating point: Lin and Ke's never overflows, EHO's is NaN for active stocks", "statement": "In floating point the Lin-Ke objective of admissible parameters and non-negative counts is never NaN and never minus infinity, and it is a finite number of known size when no mixture weight is too small. The Easley-Hvidkjaer-O'Hara objective, equal to it in exact arithmetic, is NaN in binary64 as soon as one day has 2050 trades (the smaller side counted twice), the informed rate is at least 746 and at least one of the uninformed rates: exp(-mu) underflows while a power overflows. estimate() then silently reports the last successful optimisation with a NaN likelihood and the success flag set.", "quantifier": "all numbers of days, all counts, all admissible parameter vectors, every order of summation, every exp/log/power function of the machine with the stated ranges; any optimiser", "why_tests_cant": "overflow depends on the size of counts and parameters; small simulated data never show it", "anchors": ["src/frds/measures/_probability_of_informed_trading.py:PIN.loglikelihood_EHO2010", "src/frds/measures/_probability_of_informed_trading.py:PIN.loglikelihood_LK2011", "src/frds/measures/_probability_of_informed_trading.py:PIN.estimate"]}
{"id": "C210", "title": "Accuracy of the Lin-Ke likelihood of the PIN model in floating point", "statement": "The objective computed by loglikelihood_LK2011 for n days differs from minus the logarithm of the Poisson-mixture likelihood of the sample (up to the constant sum of log B!S! of the formula) by at most n + 14 rounding errors (n + 15 units of 2^-53 in binary64) relative to the total magnitude of its terms: rates, counts times logarithms of the rates, three times the exponents of the mixture and the logarithm of the least mixture weight. In particular the factoring out of the largest exponent loses nothing however large the counts are.", "quantifier": "all numbers of days, all counts, all admissible parameters (rates in the normal range, no mixture weight zero), every order of summation, every exp and log of the machine correct to one rounding error", "why_tests_cant": "error bounds must hold for every sample and every parameter vector the optimiser visits", "anchors": ["src/frds/measures/_probability_of_informed_trading.py:PIN.loglikelihood_LK2011"]}
{"id": "C211", "title": "From returns to a finite objective in floating point", "statement": "For up to 2^38 returns of magnitude at most 2^14 whose sample variance is at least 2^-28, everything the volatility models compute before and during a fit is finite in binary64: the residuals at the computed sample mean, the backcast (between 0 and 2^40), the variance bounds (one positive ordered pair per day, between 2^-80 and 2^77), and the objectives that GARCHModel.fit, GJRGARCHModel.fit and GARCHModel_CCC.fit minimise, at every candidate with |mu| <= 2^14, omega between 2^-80 and 2^40, coefficients between 0 and 1 (stationary or not) and correlation within its bounds - never NaN, never infinite (at most 2^180 in magnitude for the univariate models), and no exception. From two univariate models whose stored mean and last candidate are in that range the standardised residuals of GARCHModel_DCC are finite; if their second moments are at least 2^-60 (and, for the Python kernel, the variances of np.cov are between 2^-210 and 2^246) the objective of its correlation step is finite at every candidate a, b >= 0 with a + b <= 1 and computed 1 - a - b at least 2^-60. Without rounding the backcast, the bounds and all these objectives are those of the exact models.", "quantifier": "all lists of returns in that range, all candidates in that range, both mean specifications, both kernels, any order of summation, any powers of 0.94 computed in [0, 1] (the first being 1)", "why_tests_cant": "one overflow, 0/0 or NaN anywhere in the chain mean - residuals - decay weights - bounds - recursion - logarithms makes the fit silently useless; the optimiser chooses the candidates and NumPy the order of the sums", "anchors": ["src/frds/algorithms/_garch.py:GARCHModel.preparation, GARCHModel.backcast, GARCHModel.variance_bounds, GARCHModel.loglikelihood_model, GJRGARCHModel.compute_variance", "src/frds/algorithms/_mgarch.py:GARCHModel_CCC.loglikelihood_model", "src/frds/algorithms/utils/garch.hpp"]}
{"id": "C212", "title": "Starting values and univariate fits in floating point", "statement": "In binary64, for the returns of C211 (up to 2^38 of them, magnitude at most 2^14, sample variance at least 2^-28), starting_values always finds a starting point, never the empty list that makes the optimiser raise: every candidate of the grid has a finite likelihood, and the value returned is the last candidate (alpha = 0.2, for GJR also gamma = 0.2, persistence 0.98, omega = variance x (1 - 0.98), all as rounded), whatever the data. It lies in the range on which the objective is finite, so the optimisation begins at a finite objective value. If the optimiser reports failure nothing is stored; if it reports success at a point of that range with the value of the objective there, fit stores that point and a finite log-likelihood that is minus the objective there, and that is at least the log-likelihood of the starting point whenever the optimiser's value is not above its initial one. With a zero-mean model the stored mean is zero. Without rounding the starting values and the result of fit are those of the exact models, for every optimiser.", "quantifier": "all returns in that range, GARCHModel and GJRGARCHModel, both mean specifications, both kernels, every optimiser, any order of summation, any powers of 0.94 computed in [0, 1] (the first being 1)", "why_tests_cant": "whether some candidate overflows, or whether the maximum is never updated and the starting point stays empty, depends on the data; the optimiser is a black box", "anchors": ["src/frds/algorithms/_garch.py:GARCHModel.starting_values, GJRGARCHModel.starting_values, GARCHModel.fit, GJRGARCHModel.fit, GARCHModel.preparation"]}
{"id": "C213", "title": "Starting correlation and CCC fit in floating point", "statement": "In binary64, np.corrcoef of two equally long series (at most 2^38 values of magnitude at most 2^60, each series with two values at least 2^-80 apart) is a number between -1 and 1 off the diagonal, never NaN or infinite; if instead the first series consists of zeros it is NaN, whatever the other one is. For the return series of C211 whose univariate models are estimated in range, the standardised residuals that GARCHModel_CCC.fit correlates are finite, and they are spread out in that sense as soon as each series crosses its fitted mean (one return at least 2^-30 above it and one at least 2^-30 below). Then the starting correlation is a number in [-1, 1] and the objective is finite at the starting point, with the correlation moved into its bounds as SLSQP does. If the optimiser reports failure nothing is stored; if it reports success at a point of that range with the value of the objective there, fit stores that point and a finite log-likelihood that is minus the objective there, and that is at least that of the starting point whenever the optimiser's value is not above the initial one. Without rounding the correlation and the result of fit are those of the exact models, for every optimiser.", "quantifier": "all pairs of return series in that range, all estimated univariate parameters in range, both kernels, every optimiser, any order of summation, any powers of 0.94 computed in [0, 1] (the first being 1)", "why_tests_cant": "whether rounding makes a variance vanish, so that the correlation becomes 0/0, depends on the residuals, which depend on the data and the fitted parameters; the optimiser is a black box", "anchors": ["src/frds/algorithms/_mgarch.py:GARCHModel_CCC.fit, GARCHModel_CCC.loglikelihood_model"]}
{"id": "C214", "title": "DCC starting weights and fit in floating point", "statement": "In binary64, GARCHModel_DCC.starting_values, for any objective that is finite at the admissible weights (a, b >= 0, a + b <= 1, computed 1 - a - b at least 2^-60), always returns the last grid candidate that is not skipped, whatever the data: the eighth value of linspace(0.01, 0.5, 10) and the first of linspace(0.6, 0.95, 10), about 0.391 and 0.6, never one of the defaults; no candidate whose sum is at least one is evaluated because of rounding, and none below one is skipped. For return series of C211 whose univariate models are estimated in range, the objective that is passed to the optimiser, including its long-run correlation matrix computed from the residuals, is finite at all those weights, as soon as each series of standardised residuals has two values at least 2^-80 apart (Python kernel; true when each return series crosses its fitted mean, C213) or a mean square of at least 2^-60 (C++ kernel). So the optimisation begins at a finite value. If the optimiser reports failure nothing is stored; if it reports success at such weights with the value of the objective there, fit stores them and a finite log-likelihood that is minus the objective there, and at least that of the start whenever the optimiser's value is not above the initial one. Without rounding the grid, the objective, the starting weights and what fit stores are those of the exact model, for every optimiser.", "quantifier": "all objectives for the search; all pairs of return series in that range, all estimated univariate parameters in range, both mean specifications of either model, both kernels, every optimiser, any order of summation, any powers of 0.94 computed in [0, 1] (the first being 1)", "why_tests_cant": "a candidate is skipped or kept by a comparison of a rounded sum with one, and every candidate must have a finite objective for the last one to be returned; the optimiser is a black box", "anchors": ["src/frds/algorithms/_mgarch.py:GARCHModel_DCC.starting_values, GARCHModel_DCC.loglikelihood_model, GARCHModel_DCC.conditional_correlations, GARCHModel_DCC.fit"]}
{"id": "C215", "title": "GJR-DCC starting weights and fit in floating point", "statement": "GJRGARCHModel_DCC does in binary64 what C214 says of GARCHModel_DCC. For return series of C211 whose two GJR-GARCH models are estimated in range (omega, alpha, gamma, beta and the means in the ranges of C211), the standardised residuals are finite and at most 2^60 in magnitude, and two of them are at least 2^-80 apart as soon as the series crosses its fitted mean by 2^-30. Then the objective of the correlation step, including its long-run matrix, is finite at all weights a, b >= 0 with a + b <= 1 and computed 1 - a - b at least 2^-60 (C++ kernel: if the mean squares of the residuals are at least 2^-60), the starting weights are the same fixed pair, about 0.391 and 0.6, whatever the data, a failed optimisation stores nothing, and a successful one that ends at such weights with the value of the objective there stores them with a finite log-likelihood, minus the objective there, at least that of the start whenever the optimiser's value is not above the initial one. Without rounding the objective, the starting weights and what fit stores are those of the exact model, for every optimiser.", "quantifier": "all pairs of return series in that range, all estimated univariate parameters in range, both mean specifications of either model, both kernels, every optimiser, any order of summation, any powers of 0.94 computed in [0, 1] (the first being 1)", "why_tests_cant": "the asymmetric variance path must stay within the range of a double for every series and every fitted model; a candidate is skipped or kept by a comparison of a rounded sum with one, and every candidate must have a finite objective for the last one to be returned; the optimiser is a black box", "anchors": ["src/frds/algorithms/_mgarch.py:GJRGARCHModel_DCC.fit, GARCHModel_DCC.starting_values, GARCHModel_DCC.loglikelihood_model, GARCHModel_DCC.fit", "src/frds/algorithms/_garch.py:GJRGARCHModel.compute_variance"]}

{
 "claims": [
  {
   "property": "C01",
   "status": "proved",
   "theorems": [
    "Frds.Props.C01_put_call_parity"
   ],
   "note": ""
  },
  {
   "property": "C02",
   "status": "proved",
   "theorems": [
    "Frds.Props.C02_risk_neutral"
   ],
   "note": ""
  },
  {
   "property": "C03",
   "status": "proved",
   "theorems": [
    "Frds.Props.C03_bounds"
   ],
   "note": ""
  },
  {
   "property": "C04",
   "status": "proved",
   "theorems": [
    "Frds.Props.C04_vega_pos"
   ],
   "note": ""
  },
  {
   "property": "C05",
   "status": "proved",
   "theorems": [
    "Frds.Props.C05_spot",
    "Frds.Props.C05_strike",
    "Frds.Props.C05_homogeneous",
    "Frds.Props.C05_symmetry"
   ],
   "note": ""
  },
  {
   "property": "C06",
   "status": "proved",
   "theorems": [
    "Frds.Props.C06_sigma_zero",
    "Frds.Props.C06_T_zero",
    "Frds.Props.C06_S_zero"
   ],
   "note": ""
  },
  {
   "property": "C07",
   "status": "proved",
   "theorems": [
    "Frds.Props.C07_exact_root"
   ],
   "note": ""
  },
  {
   "property": "C08",
   "status": "proved",
   "theorems": [
    "Frds.Props.C08_put_bounds",
    "Frds.Props.C08_cds_bounds",
    "Frds.Props.C08_spread"
   ],
   "note": ""
  },
  {
   "property": "C09",
   "status": "proved",
   "theorems": [
    "Frds.Props.C09_signs",
    "Frds.Props.C09_equations_even",
    "Frds.Props.C09_zero_asset",
    "Frds.Props.C09_solver_error",
    "Frds.Props.C09_zero_volatility"
   ],
   "note": ""
  },
  {
   "property": "C10",
   "status": "proved",
   "theorems": [
    "Frds.Props.C10_value_and_range",
    "Frds.Props.C10_topSum_unique"
   ],
   "note": ""
  },
  {
   "property": "C11",
   "status": "proved",
   "theorems": [
    "Frds.Props.C11_monotone",
    "Frds.Props.C11_endpoints"
   ],
   "note": ""
  },
  {
   "property": "C12",
   "status": "proved",
   "theorems": [
    "Frds.Props.C12_history_independent",
    "Frds.Props.C12_stale_after_reassignment",
    "Frds.Props.C12_stale_instance"
   ],
   "note": ""
  },
  {
   "property": "C13",
   "status": "proved",
   "theorems": [
    "Frds.Props.C13_above_one",
    "Frds.Props.C13_wraps_below_one",
    "Frds.Props.C13_negative"
   ],
   "note": ""
  },
  {
   "property": "C14",
   "status": "proved",
   "theorems": [
    "Frds.Props.C14_value",
    "Frds.Props.C14_as_average"
   ],
   "note": ""
  },
  {
   "property": "C15",
   "status": "proved",
   "theorems": [
    "Frds.Props.C15_mass",
    "Frds.Props.C15_array",
    "Frds.Props.C15_bounds"
   ],
   "note": ""
  },
  {
   "property": "C16",
   "status": "proved",
   "theorems": [
    "Frds.Props.C16_antitone"
   ],
   "note": ""
  },
  {
   "property": "C17",
   "status": "proved",
   "theorems": [
    "Frds.Props.C17_empty_tail",
    "Frds.Props.C17_no_default"
   ],
   "note": ""
  },
  {
   "property": "C18",
   "status": "proved",
   "theorems": [
    "Frds.Props.C18_index_error_iff"
   ],
   "note": ""
  },
  {
   "property": "C19",
   "status": "proved",
   "theorems": [
    "Frds.Props.C19_least_squares",
    "Frds.Props.C19_lengths"
   ],
   "note": ""
  },
  {
   "property": "C20",
   "status": "proved",
   "theorems": [
    "Frds.Props.C20_scaling",
    "Frds.Props.C20_recovery"
   ],
   "note": ""
  },
  {
   "property": "C21",
   "status": "proved",
   "theorems": [
    "Frds.Props.C21_value",
    "Frds.Props.C21_invariance",
    "Frds.Props.C21_affine"
   ],
   "note": ""
  },
  {
   "property": "C22",
   "status": "proved",
   "theorems": [
    "Frds.Props.C22_value"
   ],
   "note": ""
  },
  {
   "property": "C23",
   "status": "proved",
   "theorems": [
    "Frds.Props.C23_permutation",
    "Frds.Props.C23_firm_affine",
    "Frds.Props.C23_market_affine"
   ],
   "note": ""
  },
  {
   "property": "C24",
   "status": "proved",
   "theorems": [
    "Frds.Props.C24_range",
    "Frds.Props.C24_days"
   ],
   "note": ""
  },
  {
   "property": "C25",
   "status": "proved",
   "theorems": [
    "Frds.Props.C25_nan",
    "Frds.Props.C25_nan_market",
    "Frds.Props.C25_errors"
   ],
   "note": ""
  },
  {
   "property": "C26",
   "status": "proved",
   "theorems": [
    "Frds.Props.C26_fitted",
    "Frds.Props.C26_unique"
   ],
   "note": ""
  },
  {
   "property": "C27",
   "status": "proved",
   "theorems": [
    "Frds.Props.C27_equal",
    "Frds.Props.C27_affine",
    "Frds.Props.C27_exact"
   ],
   "note": ""
  },
  {
   "property": "C28",
   "status": "proved",
   "theorems": [
    "Frds.Props.C28_errors",
    "Frds.Props.C28_zero_slope"
   ],
   "note": ""
  },
  {
   "property": "C29",
   "status": "proved",
   "theorems": [
    "Frds.Props.C29_single",
    "Frds.Props.C29_multi",
    "Frds.Props.C29_zero_equity"
   ],
   "note": ""
  },
  {
   "property": "C30",
   "status": "proved",
   "theorems": [
    "Frds.Props.C30_own_column",
    "Frds.Props.C30_permutation"
   ],
   "note": ""
  },
  {
   "property": "C31",
   "status": "proved",
   "theorems": [
    "Frds.Props.C31_aggregate",
    "Frds.Props.C31_order"
   ],
   "note": ""
  },
  {
   "property": "C32",
   "status": "proved",
   "theorems": [
    "Frds.Props.C32_contract",
    "Frds.Props.C32_errors"
   ],
   "note": ""
  },
  {
   "property": "C33",
   "status": "proved",
   "theorems": [
    "Frds.Props.C33_attribute_error",
    "Frds.Props.C33_numpy",
    "Frds.Props.C33_lrmes_kind"
   ],
   "note": ""
  },
  {
   "property": "C34",
   "status": "proved",
   "theorems": [
    "Frds.Props.C34_paths",
    "Frds.Props.C34_estimate",
    "Frds.Props.C34_failed_fit"
   ],
   "note": ""
  },
  {
   "property": "C35",
   "status": "proved",
   "theorems": [
    "Frds.Props.C35_le_one",
    "Frds.Props.C35_lt_one",
    "Frds.Props.C35_nonsystemic",
    "Frds.Props.C35_order",
    "Frds.Props.C35_draw_order"
   ],
   "note": ""
  },
  {
   "property": "C36",
   "status": "proved",
   "theorems": [
    "Frds.Props.C36_monotone",
    "Frds.Props.C36_count",
    "Frds.Props.C36_never"
   ],
   "note": ""
  },
  {
   "property": "C37",
   "status": "proved",
   "theorems": [
    "Frds.Props.C37_invariant",
    "Frds.Props.C37_finite",
    "Frds.Props.C37_estimate_args"
   ],
   "note": ""
  },
  {
   "property": "C38",
   "status": "proved",
   "theorems": [
    "Frds.Props.C38_simulation",
    "Frds.Props.C38_estimate"
   ],
   "note": ""
  },
  {
   "property": "C39",
   "status": "proved",
   "theorems": [
    "Frds.Props.C39_reconstruct",
    "Frds.Props.C39_unique",
    "Frds.Props.C39_degenerate"
   ],
   "note": ""
  },
  {
   "property": "C40",
   "status": "proved",
   "theorems": [
    "Frds.Props.C40_probability",
    "Frds.Props.C40_reported"
   ],
   "note": ""
  },
  {
   "property": "C41",
   "status": "proved",
   "theorems": [
    "Frds.Props.C41_best",
    "Frds.Props.C41_history"
   ],
   "note": ""
  },
  {
   "property": "C42",
   "status": "proved",
   "theorems": [
    "Frds.Props.C42_sticky",
    "Frds.Props.C42_stale_flag",
    "Frds.Props.C42_flag"
   ],
   "note": ""
  },
  {
   "property": "C43",
   "status": "proved",
   "theorems": [
    "Frds.Props.C43_starts",
    "Frds.Props.C43_skipped",
    "Frds.Props.C43_count"
   ],
   "note": ""
  },
  {
   "property": "C44",
   "status": "proved",
   "theorems": [
    "Frds.Props.C44_equal"
   ],
   "note": ""
  },
  {
   "property": "C45",
   "status": "proved",
   "theorems": [
    "Frds.Props.C45_likelihood",
    "Frds.Props.C45_mle"
   ],
   "note": ""
  },
  {
   "property": "C46",
   "status": "proved",
   "theorems": [
    "Frds.Props.C46_method",
    "Frds.Props.C46_ctor",
    "Frds.Props.C46_ctor_state",
    "Frds.Props.C46_assert"
   ],
   "note": ""
  },
  {
   "property": "C47",
   "status": "proved",
   "theorems": [
    "Frds.Props.C47_quoted_pct",
    "Frds.Props.C47_quoted_log",
    "Frds.Props.C47_bounds",
    "Frds.Props.C47_antisymm",
    "Frds.Props.C47_scale"
   ],
   "note": ""
  },
  {
   "property": "C48",
   "status": "proved",
   "theorems": [
    "Frds.Props.C48_weighted_means"
   ],
   "note": ""
  },
  {
   "property": "C49",
   "status": "proved",
   "theorems": [
    "Frds.Props.C49_decomposition"
   ],
   "note": ""
  },
  {
   "property": "C50",
   "status": "proved",
   "theorems": [
    "Frds.Props.C50_triangle"
   ],
   "note": ""
  },
  {
   "property": "C51",
   "status": "proved",
   "theorems": [
    "Frds.Props.C51_sign_direction",
    "Frds.Props.C51_list_ignored"
   ],
   "note": ""
  },
  {
   "property": "C52",
   "status": "proved",
   "theorems": [
    "Frds.Props.C52_units"
   ],
   "note": ""
  },
  {
   "property": "C53",
   "status": "proved",
   "theorems": [
    "Frds.Props.C53_zero_volume",
    "Frds.Props.C53_zero_sum",
    "Frds.Props.C53_nonneg_ok"
   ],
   "note": ""
  },
  {
   "property": "C54",
   "status": "proved",
   "theorems": [
    "Frds.Props.C54_shape_checks",
    "Frds.Props.C54_exact",
    "Frds.Props.C54_price_broadcast",
    "Frds.Props.C54_price_unchecked"
   ],
   "note": ""
  },
  {
   "property": "C55",
   "status": "proved",
   "theorems": [
    "Frds.Props.C55_slopes",
    "Frds.Props.C55_infinite"
   ],
   "note": ""
  },
  {
   "property": "C56",
   "status": "proved",
   "theorems": [
    "Frds.Props.C56_reflection",
    "Frds.Props.C56_nonneg",
    "Frds.Props.C56_units"
   ],
   "note": ""
  },
  {
   "property": "C57",
   "status": "proved",
   "theorems": [
    "Frds.Props.C57_levels",
    "Frds.Props.C57_depends",
    "Frds.Props.C57_value"
   ],
   "note": ""
  },
  {
   "property": "C58",
   "status": "proved",
   "theorems": [
    "Frds.Props.C58_value",
    "Frds.Props.C58_bounds",
    "Frds.Props.C58_antisymm",
    "Frds.Props.C58_scale",
    "Frds.Props.C58_shape"
   ],
   "note": ""
  },
  {
   "property": "C59",
   "status": "proved",
   "theorems": [
    "Frds.Props.C59_singleton",
    "Frds.Props.C59_shared_mutation"
   ],
   "note": ""
  },
  {
   "property": "C60",
   "status": "proved",
   "theorems": [
    "Frds.Props.C60_after_import",
    "Frds.Props.C60_never_none",
    "Frds.Props.C60_race",
    "Frds.Props.C60_serial"
   ],
   "note": ""
  },
  {
   "property": "C61",
   "status": "proved",
   "theorems": [
    "Frds.Props.C61_normal_likelihood",
    "Frds.Props.C61_zero_variance"
   ],
   "note": ""
  },
  {
   "property": "C62",
   "status": "proved",
   "theorems": [
    "Frds.Props.C62_garch_recursion",
    "Frds.Props.C62_gjr_recursion",
    "Frds.Props.C62_total",
    "Frds.Props.C62_closed_form"
   ],
   "note": ""
  },
  {
   "property": "C63",
   "status": "proved",
   "theorems": [
    "Frds.Props.C63_positive_bounded"
   ],
   "note": ""
  },
  {
   "property": "C64",
   "status": "proved",
   "theorems": [
    "Frds.Props.C64_bounds_check",
    "Frds.Props.C64_inf_not_largest",
    "Frds.Props.C64_shrinks"
   ],
   "note": ""
  },
  {
   "property": "C65",
   "status": "proved",
   "theorems": [
    "Frds.Props.C65_kernels",
    "Frds.Props.C65_paths",
    "Frds.Props.C65_finite"
   ],
   "note": ""
  },
  {
   "property": "C66",
   "status": "proved",
   "theorems": [
    "Frds.Props.C66_variance_bounds",
    "Frds.Props.C66_empty"
   ],
   "note": ""
  },
  {
   "property": "C67",
   "status": "proved",
   "theorems": [
    "Frds.Props.C67_backcast",
    "Frds.Props.C67_first_75"
   ],
   "note": ""
  },
  {
   "property": "C68",
   "status": "proved",
   "theorems": [
    "Frds.Props.C68_closed_form",
    "Frds.Props.C68_bounds",
    "Frds.Props.C68_empty"
   ],
   "note": ""
  },
  {
   "property": "C69",
   "status": "proved",
   "theorems": [
    "Frds.Props.C69_last_grid_point",
    "Frds.Props.C69_general",
    "Frds.Props.C69_general_gjr",
    "Frds.Props.C69_not_maximiser"
   ],
   "note": ""
  },
  {
   "property": "C70",
   "status": "proved",
   "theorems": [
    "Frds.Props.C70_garch_feasible",
    "Frds.Props.C70_gjr_feasible"
   ],
   "note": ""
  },
  {
   "property": "C71",
   "status": "proved",
   "theorems": [
    "Frds.Props.C71_reported_garch",
    "Frds.Props.C71_reported_gjr",
    "Frds.Props.C71_garch_fit",
    "Frds.Props.C71_gjr_fit",
    "Frds.Props.C71_history"
   ],
   "note": ""
  },
  {
   "property": "C72",
   "status": "proved",
   "theorems": [
    "Frds.Props.C72_sigma2",
    "Frds.Props.C72_sigma2_stale"
   ],
   "note": ""
  },
  {
   "property": "C73",
   "status": "proved",
   "theorems": [
    "Frds.Props.C73_recursion",
    "Frds.Props.C73_positive",
    "Frds.Props.C73_gamma_zero",
    "Frds.Props.C73_empty"
   ],
   "note": ""
  },
  {
   "property": "C74",
   "status": "proved",
   "theorems": [
    "Frds.Props.C74_bivariate_likelihood",
    "Frds.Props.C74_independent",
    "Frds.Props.C74_density",
    "Frds.Props.C74_out_of_range"
   ],
   "note": ""
  },
  {
   "property": "C75",
   "status": "proved",
   "theorems": [
    "Frds.Props.C75_decomposition",
    "Frds.Props.C75_unfitted"
   ],
   "note": ""
  },
  {
   "property": "C76",
   "status": "proved",
   "theorems": [
    "Frds.Props.C76_correlations",
    "Frds.Props.C76_recursion",
    "Frds.Props.C76_constant"
   ],
   "note": ""
  },
  {
   "property": "C77",
   "status": "proved",
   "theorems": [
    "Frds.Props.C77_agree",
    "Frds.Props.C77_differ"
   ],
   "note": ""
  },
  {
   "property": "C78",
   "status": "proved",
   "theorems": [
    "Frds.Props.C78_feasible",
    "Frds.Props.C78_last",
    "Frds.Props.C78_not_maximiser"
   ],
   "note": ""
  },
  {
   "property": "C79",
   "status": "proved",
   "theorems": [
    "Frds.Props.C79_ccc",
    "Frds.Props.C79_dcc",
    "Frds.Props.C79_dcc_failed",
    "Frds.Props.C79_dcc_stable",
    "Frds.Props.C79_refit_stable",
    "Frds.Props.C79_dcc_reported"
   ],
   "note": ""
  },
  {
   "property": "C80",
   "status": "proved",
   "theorems": [
    "Frds.Props.C80_ignores",
    "Frds.Props.C80_value",
    "Frds.Props.C80_broadcast",
    "Frds.Props.C80_lengths"
   ],
   "note": ""
  },
  {
   "property": "C81",
   "status": "proved",
   "theorems": [
    "Frds.Props.C81_leaves",
    "Frds.Props.C81_route",
    "Frds.Props.C81_sizes",
    "Frds.Props.C81_max_height"
   ],
   "note": ""
  },
  {
   "property": "C82",
   "status": "proved",
   "theorems": [
    "Frds.Props.C82_consistent"
   ],
   "note": ""
  },
  {
   "property": "C83",
   "status": "proved",
   "theorems": [
    "Frds.Props.C83_iff",
    "Frds.Props.C83_all_missing"
   ],
   "note": ""
  },
  {
   "property": "C84",
   "status": "proved",
   "theorems": [
    "Frds.Props.C84_range",
    "Frds.Props.C84_antitone",
    "Frds.Props.C84_one",
    "Frds.Props.C84_size_one",
    "Frds.Props.C84_empty"
   ],
   "note": ""
  },
  {
   "property": "C85",
   "status": "proved",
   "theorems": [
    "Frds.Props.C85_forest",
    "Frds.Props.C85_order",
    "Frds.Props.C85_each_once",
    "Frds.Props.C85_scores",
    "Frds.Props.C85_deterministic"
   ],
   "note": ""
  },
  {
   "property": "C86",
   "status": "proved",
   "theorems": [
    "Frds.Props.C86_one_seed",
    "Frds.Props.C86_seeds",
    "Frds.Props.C86_depends_on_workers",
    "Frds.Props.C86_overlap"
   ],
   "note": ""
  },
  {
   "property": "C87",
   "status": "proved",
   "theorems": [
    "Frds.Props.C87_seeds",
    "Frds.Props.C87_offset"
   ],
   "note": ""
  },
  {
   "property": "C88",
   "status": "proved",
   "theorems": [
    "Frds.Props.C88_expected_repayment",
    "Frds.Props.C88_bounds",
    "Frds.Props.C88_monotone"
   ],
   "note": ""
  },
  {
   "property": "C89",
   "status": "proved",
   "theorems": [
    "Frds.Props.C89_root_iff",
    "Frds.Props.C89_yield_above_riskfree"
   ],
   "note": ""
  },
  {
   "property": "C90",
   "status": "proved",
   "theorems": [
    "Frds.Props.C90_no_penalty",
    "Frds.Props.C90_root_iff"
   ],
   "note": ""
  },
  {
   "property": "C91",
   "status": "proved",
   "theorems": [
    "Frds.Props.C91_single",
    "Frds.Props.C91_multi",
    "Frds.Props.C91_identities"
   ],
   "note": ""
  },
  {
   "property": "C92",
   "status": "proved",
   "theorems": [
    "Frds.Props.C92_window_average",
    "Frds.Props.C92_odd_rejected",
    "Frds.Props.C92_linear",
    "Frds.Props.C92_constant"
   ],
   "note": ""
  },
  {
   "property": "C93",
   "status": "proved",
   "theorems": [
    "Frds.Props.C93_unsort_identity",
    "Frds.Props.C93_local_average",
    "Frds.Props.C93_loan_value",
    "Frds.Props.C93_rounding"
   ],
   "note": ""
  },
  {
   "property": "C94",
   "status": "proved",
   "theorems": [
    "Frds.Props.C94_import",
    "Frds.Props.C94_sys_modules",
    "Frds.Props.C94_list"
   ],
   "note": ""
  },
  {
   "property": "C95",
   "status": "proved",
   "theorems": [
    "Frds.Props.C95_loan_life",
    "Frds.Props.C95_fractional_horizon",
    "Frds.Props.C95_horizon_below_maturity"
   ],
   "note": ""
  },
  {
   "property": "C96",
   "status": "proved",
   "theorems": [
    "Frds.Props.C96_tables",
    "Frds.Props.C96_first_error"
   ],
   "note": ""
  },
  {
   "property": "C97",
   "status": "proved",
   "theorems": [
    "Frds.Props.C97_degenerate",
    "Frds.Props.C97_empty",
    "Frds.Props.C97_nonfinite"
   ],
   "note": ""
  },
  {
   "property": "C98",
   "status": "proved",
   "theorems": [
    "Frds.Props.C98_siblings"
   ],
   "note": ""
  },
  {
   "property": "C99",
   "status": "proved",
   "theorems": [
    "Frds.Props.C99_sample_grows",
    "Frds.Props.C99_exceeds"
   ],
   "note": ""
  },
  {
   "property": "C100",
   "status": "proved",
   "theorems": [
    "Frds.Props.C100_padded",
    "Frds.Props.C100_full_width"
   ],
   "note": ""
  },
  {
   "property": "C101",
   "status": "proved",
   "theorems": [
    "Frds.Props.C101_at_least_proportional"
   ],
   "note": ""
  },
  {
   "property": "C102",
   "status": "proved",
   "theorems": [
    "Frds.Props.C102_shift_invariant",
    "Frds.Props.C102_permutation_invariant",
    "Frds.Props.C102_scale_invariant"
   ],
   "note": ""
  },
  {
   "property": "C103",
   "status": "proved",
   "theorems": [
    "Frds.Props.C103_one_factor"
   ],
   "note": ""
  },
  {
   "property": "C104",
   "status": "proved",
   "theorems": [
    "Frds.Props.C104_uncorrelated"
   ],
   "note": ""
  },
  {
   "property": "C105",
   "status": "proved",
   "theorems": [
    "Frds.Props.C105_no_variance",
    "Frds.Props.C105_single_asset",
    "Frds.Props.C105_too_few_days",
    "Frds.Props.C105_return_not_finite",
    "Frds.Props.C105_fraction_not_finite"
   ],
   "note": ""
  },
  {
   "property": "C106",
   "status": "proved",
   "theorems": [
    "Frds.Props.C106_discretisation"
   ],
   "note": ""
  },
  {
   "property": "C107",
   "status": "proved",
   "theorems": [
    "Frds.Props.C107_threshold_ge_one",
    "Frds.Props.C107_threshold_negative",
    "Frds.Props.C107_threshold_truncated"
   ],
   "note": ""
  },
  {
   "property": "C108",
   "status": "proved",
   "theorems": [
    "Frds.Props.C108_bad_probability"
   ],
   "note": ""
  },
  {
   "property": "C109",
   "status": "proved",
   "theorems": [
    "Frds.Props.C109_no_banks",
    "Frds.Props.C109_no_simulations"
   ],
   "note": ""
  },
  {
   "property": "C110",
   "status": "proved",
   "theorems": [
    "Frds.Props.C110_perfect_correlation"
   ],
   "note": ""
  },
  {
   "property": "C111",
   "status": "proved",
   "theorems": [
    "Frds.Props.C111_promised_yield"
   ],
   "note": ""
  },
  {
   "property": "C112",
   "status": "proved",
   "theorems": [
    "Frds.Props.C112_flat_below_zero"
   ],
   "note": ""
  },
  {
   "property": "C113",
   "status": "proved",
   "theorems": [
    "Frds.Props.C113_half_step"
   ],
   "note": ""
  },
  {
   "property": "C114",
   "status": "proved",
   "theorems": [
    "Frds.Props.C114_empty_window"
   ],
   "note": ""
  },
  {
   "property": "C115",
   "status": "proved",
   "theorems": [
    "Frds.Props.C115_monotone",
    "Frds.Props.C115_interior_bounds",
    "Frds.Props.C115_edge_overshoot"
   ],
   "note": ""
  },
  {
   "property": "C116",
   "status": "proved",
   "theorems": [
    "Frds.Props.C116_single",
    "Frds.Props.C116_multi"
   ],
   "note": ""
  },
  {
   "property": "C117",
   "status": "proved",
   "theorems": [
    "Frds.Props.C117_multi",
    "Frds.Props.C117_single"
   ],
   "note": ""
  },
  {
   "property": "C118",
   "status": "proved",
   "theorems": [
    "Frds.Props.C118_few_simulations"
   ],
   "note": ""
  },
  {
   "property": "C119",
   "status": "proved",
   "theorems": [
    "Frds.Props.C119_even_sample"
   ],
   "note": ""
  },
  {
   "property": "C120",
   "status": "proved",
   "theorems": [
    "Frds.Props.C120_scalar_start",
    "Frds.Props.C120_array"
   ],
   "note": ""
  },
  {
   "property": "C121",
   "status": "proved",
   "theorems": [
    "Frds.Props.C121_maturing_cohort"
   ],
   "note": ""
  },
  {
   "property": "C122",
   "status": "proved",
   "theorems": [
    "Frds.Props.C122_rollover"
   ],
   "note": ""
  },
  {
   "property": "C123",
   "status": "proved",
   "theorems": [
    "Frds.Props.C123_public_names",
    "Frds.Props.C123_order_independent",
    "Frds.Props.C123_stays"
   ],
   "note": ""
  },
  {
   "property": "C124",
   "status": "proved",
   "theorems": [
    "Frds.Props.C124_start",
    "Frds.Props.C124_reported"
   ],
   "note": ""
  },
  {
   "property": "C125",
   "status": "proved",
   "theorems": [
    "Frds.Props.C125_garch",
    "Frds.Props.C125_gjr",
    "Frds.Props.C125_ccc",
    "Frds.Props.C125_dcc",
    "Frds.Props.C125_ccc_history",
    "Frds.Props.C125_dcc_history"
   ],
   "note": ""
  },
  {
   "property": "C126",
   "status": "proved",
   "theorems": [
    "Frds.Props.C126_range"
   ],
   "note": ""
  },
  {
   "property": "C127",
   "status": "proved",
   "theorems": [
    "Frds.Props.C127_correlations",
    "Frds.Props.C127_two_step"
   ],
   "note": ""
  },
  {
   "property": "C128",
   "status": "proved",
   "theorems": [
    "Frds.Props.C128_frame",
    "Frds.Props.C128_range",
    "Frds.Props.C128_errors",
    "Frds.Props.C128_succeeds",
    "Frds.Props.C128_ignored",
    "Frds.Props.C128_rows"
   ],
   "note": ""
  },
  {
   "property": "C129",
   "status": "proved",
   "theorems": [
    "Frds.Props.C129_monotone"
   ],
   "note": ""
  },
  {
   "property": "C130",
   "status": "proved",
   "theorems": [
    "Frds.Props.C130_shorter",
    "Frds.Props.C130_longest",
    "Frds.Props.C130_equal_length"
   ],
   "note": ""
  },
  {
   "property": "C131",
   "status": "proved",
   "theorems": [
    "Frds.Props.C131_kernels",
    "Frds.Props.C131_dense",
    "Frds.Props.C131_fit",
    "Frds.Props.C131_strided"
   ],
   "note": ""
  },
  {
   "property": "C132",
   "status": "proved",
   "theorems": [
    "Frds.Props.C132_equal_rows",
    "Frds.Props.C132_longest_texts"
   ],
   "note": ""
  },
  {
   "property": "C133",
   "status": "proved",
   "theorems": [
    "Frds.Props.C133_sample_size"
   ],
   "note": ""
  },
  {
   "property": "C134",
   "status": "proved",
   "theorems": [
    "Frds.Props.C134_columns"
   ],
   "note": ""
  },
  {
   "property": "C135",
   "status": "proved",
   "theorems": [
    "Frds.Props.C135_true_properties"
   ],
   "note": ""
  },
  {
   "property": "C136",
   "status": "proved",
   "theorems": [
    "Frds.Props.C136_fit",
    "Frds.Props.C136_balance",
    "Frds.Props.C136_no_assets",
    "Frds.Props.C136_rows"
   ],
   "note": ""
  },
  {
   "property": "C137",
   "status": "proved",
   "theorems": [
    "Frds.Props.C137_alternatives",
    "Frds.Props.C137_merton_actual"
   ],
   "note": ""
  },
  {
   "property": "C138",
   "status": "proved",
   "theorems": [
    "Frds.Props.C138_quoted",
    "Frds.Props.C138_spreads",
    "Frds.Props.C138_shapes",
    "Frds.Props.C138_signed"
   ],
   "note": ""
  },
  {
   "property": "C139",
   "status": "proved",
   "theorems": [
    "Frds.Props.C139_quoted",
    "Frds.Props.C139_quoted_iff",
    "Frds.Props.C139_spreads",
    "Frds.Props.C139_wrapped"
   ],
   "note": ""
  },
  {
   "property": "C140",
   "status": "proved",
   "theorems": [
    "Frds.Props.C140_weights",
    "Frds.Props.C140_negative"
   ],
   "note": ""
  },
  {
   "property": "C141",
   "status": "proved",
   "theorems": [
    "Frds.Props.C141_exact",
    "Frds.Props.C141_signed",
    "Frds.Props.C141_unsigned",
    "Frds.Props.C141_unsigned_iff"
   ],
   "note": ""
  },
  {
   "property": "C142",
   "status": "proved",
   "theorems": [
    "Frds.Props.C142_slope_difference",
    "Frds.Props.C142_slopes",
    "Frds.Props.C142_exact",
    "Frds.Props.C142_signed"
   ],
   "note": ""
  },
  {
   "property": "C143",
   "status": "proved",
   "theorems": [
    "Frds.Props.C143_eho",
    "Frds.Props.C143_lk_signed",
    "Frds.Props.C143_lk_unsigned",
    "Frds.Props.C143_lk_unsigned_wrong"
   ],
   "note": ""
  },
  {
   "property": "C144",
   "status": "proved",
   "theorems": [
    "Frds.Props.C144_exact",
    "Frds.Props.C144_overflow"
   ],
   "note": ""
  },
  {
   "property": "C145",
   "status": "proved",
   "theorems": [
    "Frds.Props.C145_labels",
    "Frds.Props.C145_labels_gjr",
    "Frds.Props.C145_mislabel",
    "Frds.Props.C145_mislabel_second",
    "Frds.Props.C145_mislabel_first",
    "Frds.Props.C145_rejects",
    "Frds.Props.C145_typed"
   ],
   "note": ""
  },
  {
   "property": "C146",
   "status": "proved",
   "theorems": [
    "Frds.Props.C146_completes",
    "Frds.Props.C146_mismatch"
   ],
   "note": ""
  },
  {
   "property": "C147",
   "status": "proved",
   "theorems": [
    "Frds.Props.C147_dcc",
    "Frds.Props.C147_layout",
    "Frds.Props.C147_simulation"
   ],
   "note": ""
  },
  {
   "property": "C148",
   "status": "proved",
   "theorems": [
    "Frds.Props.C148_range",
    "Frds.Props.C148_exact"
   ],
   "note": ""
  },
  {
   "property": "C149",
   "status": "proved",
   "theorems": [
    "Frds.Props.C149_midpoint",
    "Frds.Props.C149_range",
    "Frds.Props.C149_exact",
    "Frds.Props.C149_log"
   ],
   "note": ""
  },
  {
   "property": "C150",
   "status": "proved",
   "theorems": [
    "Frds.Props.C150_nonneg",
    "Frds.Props.C150_exact"
   ],
   "note": ""
  },
  {
   "property": "C151",
   "status": "proved",
   "theorems": [
    "Frds.Props.C151_bid_slope",
    "Frds.Props.C151_bid_exact",
    "Frds.Props.C151_range",
    "Frds.Props.C151_overflow",
    "Frds.Props.C151_exact"
   ],
   "note": ""
  },
  {
   "property": "C152",
   "status": "proved",
   "theorems": [
    "Frds.Props.C152_python",
    "Frds.Props.C152_cpp",
    "Frds.Props.C152_first",
    "Frds.Props.C152_rows",
    "Frds.Props.C152_exact"
   ],
   "note": ""
  },
  {
   "property": "C153",
   "status": "proved",
   "theorems": [
    "Frds.Props.C153_monotone",
    "Frds.Props.C153_aggregate",
    "Frds.Props.C153_exact"
   ],
   "note": ""
  },
  {
   "property": "C154",
   "status": "proved",
   "theorems": [
    "Frds.Props.C154_le_one",
    "Frds.Props.C154_never",
    "Frds.Props.C154_threshold",
    "Frds.Props.C154_exact"
   ],
   "note": ""
  },
  {
   "property": "C155",
   "status": "proved",
   "theorems": [
    "Frds.Props.C155_sign",
    "Frds.Props.C155_exact"
   ],
   "note": ""
  },
  {
   "property": "C156",
   "status": "proved",
   "theorems": [
    "Frds.Props.C156_port",
    "Frds.Props.C156_matlab_domain",
    "Frds.Props.C156_python_domain",
    "Frds.Props.C156_wrapped_windows"
   ],
   "note": ""
  },
  {
   "property": "C157",
   "status": "proved",
   "theorems": [
    "Frds.Props.C157_penalty",
    "Frds.Props.C157_port"
   ],
   "note": ""
  },
  {
   "property": "C158",
   "status": "proved",
   "theorems": [
    "Frds.Props.C158_rounding"
   ],
   "note": ""
  },
  {
   "property": "C159",
   "status": "proved",
   "theorems": [
    "Frds.Props.C159_single_port",
    "Frds.Props.C159_matlab_domain",
    "Frds.Props.C159_python_accepts_more",
    "Frds.Props.C159_volatilities"
   ],
   "note": ""
  },
  {
   "property": "C160",
   "status": "proved",
   "theorems": [
    "Frds.Props.C160_matlab_domain",
    "Frds.Props.C160_ties_countable",
    "Frds.Props.C160_multi_port",
    "Frds.Props.C160_volatilities"
   ],
   "note": ""
  },
  {
   "property": "C161",
   "status": "proved",
   "theorems": [
    "Frds.Props.C161_multi_tables",
    "Frds.Props.C161_single_tables"
   ],
   "note": ""
  },
  {
   "property": "C162",
   "status": "proved",
   "theorems": [
    "Frds.Props.C162_pin_accuracy",
    "Frds.Props.C162_pin_binary64"
   ],
   "note": ""
  },
  {
   "property": "C163",
   "status": "proved",
   "theorems": [
    "Frds.Props.C163_quoted_accuracy",
    "Frds.Props.C163_quoted_binary64"
   ],
   "note": ""
  },
  {
   "property": "C164",
   "status": "proved",
   "theorems": [
    "Frds.Props.C164_effective_accuracy",
    "Frds.Props.C164_realized_accuracy",
    "Frds.Props.C164_impact_accuracy"
   ],
   "note": ""
  },
  {
   "property": "C165",
   "status": "proved",
   "theorems": [
    "Frds.Props.C165_garch_accuracy",
    "Frds.Props.C165_gjr_accuracy",
    "Frds.Props.C165_ewma_accuracy"
   ],
   "note": ""
  },
  {
   "property": "C166",
   "status": "proved",
   "theorems": [
    "Frds.Props.C166_srisk_accuracy",
    "Frds.Props.C166_aggregate_accuracy"
   ],
   "note": ""
  },
  {
   "property": "C167",
   "status": "proved",
   "theorems": [
    "Frds.Props.C167_log_spread_accuracy"
   ],
   "note": ""
  },
  {
   "property": "C168",
   "status": "proved",
   "theorems": [
    "Frds.Props.C168_balanced",
    "Frds.Props.C168_null",
    "Frds.Props.C168_history"
   ],
   "note": ""
  },
  {
   "property": "C169",
   "status": "proved",
   "theorems": [
    "Frds.Props.C169_leak",
    "Frds.Props.C169_history",
    "Frds.Props.C169_failures"
   ],
   "note": ""
  },
  {
   "property": "C170",
   "status": "proved",
   "theorems": [
    "Frds.Props.C170_accuracy",
    "Frds.Props.C170_schedules",
    "Frds.Props.C170_binary64",
    "Frds.Props.C170_order_matters"
   ],
   "note": ""
  },
  {
   "property": "C171",
   "status": "proved",
   "theorems": [
    "Frds.Props.C171_params_python",
    "Frds.Props.C171_params_extension",
    "Frds.Props.C171_full_vector",
    "Frds.Props.C171_python",
    "Frds.Props.C171_few_columns",
    "Frds.Props.C171_extension",
    "Frds.Props.C171_three_columns"
   ],
   "note": ""
  },
  {
   "property": "C172",
   "status": "proved",
   "theorems": [
    "Frds.Props.C172_garch",
    "Frds.Props.C172_gjr",
    "Frds.Props.C172_forecast",
    "Frds.Props.C172_zero",
    "Frds.Props.C172_reinterpreted",
    "Frds.Props.C172_extension_nan",
    "Frds.Props.C172_not_finite",
    "Frds.Props.C172_witness"
   ],
   "note": ""
  },
  {
   "property": "C173",
   "status": "proved",
   "theorems": [
    "Frds.Props.C173_univariate_complete",
    "Frds.Props.C173_garch",
    "Frds.Props.C173_garch_torn",
    "Frds.Props.C173_gjr",
    "Frds.Props.C173_history",
    "Frds.Props.C173_dcc_complete",
    "Frds.Props.C173_dcc",
    "Frds.Props.C173_gjr_dcc",
    "Frds.Props.C173_dcc_torn_model",
    "Frds.Props.C173_torn_model_reached",
    "Frds.Props.C173_ccc_complete",
    "Frds.Props.C173_ccc"
   ],
   "note": ""
  },
  {
   "property": "C174",
   "status": "proved",
   "theorems": [
    "Frds.Props.C174_complete",
    "Frds.Props.C174_states",
    "Frds.Props.C174_stale",
    "Frds.Props.C174_torn",
    "Frds.Props.C174_retry",
    "Frds.Props.C174_unsupported"
   ],
   "note": ""
  },
  {
   "property": "C175",
   "status": "proved",
   "theorems": [
    "Frds.Props.C175_garch",
    "Frds.Props.C175_gjr",
    "Frds.Props.C175_loglikelihood",
    "Frds.Props.C175_feasible",
    "Frds.Props.C175_finishes",
    "Frds.Props.C175_alone",
    "Frds.Props.C175_crossed",
    "Frds.Props.C175_wrong_value",
    "Frds.Props.C175_torn"
   ],
   "note": ""
  },
  {
   "property": "C176",
   "status": "proved",
   "theorems": [
    "Frds.Props.C176_states",
    "Frds.Props.C176_finishes",
    "Frds.Props.C176_alone",
    "Frds.Props.C176_lost",
    "Frds.Props.C176_mislabelled"
   ],
   "note": ""
  },
  {
   "property": "C177",
   "status": "proved",
   "theorems": [
    "Frds.Props.C177_absorption",
    "Frds.Props.C177_finishes",
    "Frds.Props.C177_alone"
   ],
   "note": ""
  },
  {
   "property": "C178",
   "status": "proved",
   "theorems": [
    "Frds.Props.C178_restored",
    "Frds.Props.C178_during",
    "Frds.Props.C178_concurrent",
    "Frds.Props.C178_left_behind"
   ],
   "note": ""
  },
  {
   "property": "C179",
   "status": "proved",
   "theorems": [
    "Frds.Props.C179_simulate"
   ],
   "note": ""
  },
  {
   "property": "C180",
   "status": "proved",
   "theorems": [
    "Frds.Props.C180_new",
    "Frds.Props.C180_first",
    "Frds.Props.C180_repeat",
    "Frds.Props.C180_interrupted",
    "Frds.Props.C180_torn",
    "Frds.Props.C180_stale"
   ],
   "note": ""
  },
  {
   "property": "C181",
   "status": "proved",
   "theorems": [
    "Frds.Props.C181_completes",
    "Frds.Props.C181_rejects"
   ],
   "note": ""
  },
  {
   "property": "C182",
   "status": "proved",
   "theorems": [
    "Frds.Props.C182_static_methods",
    "Frds.Props.C182_variance_bounds",
    "Frds.Props.C182_garch_history",
    "Frds.Props.C182_gjr_history",
    "Frds.Props.C182_attributes_are_new",
    "Frds.Props.C182_models_do_not_interfere"
   ],
   "note": ""
  },
  {
   "property": "C183",
   "status": "proved",
   "theorems": [
    "Frds.Props.C183_fit_uses_current_contents",
    "Frds.Props.C183_float64_is_shared",
    "Frds.Props.C183_float64_is_shared_garch",
    "Frds.Props.C183_garch_keeps_estimate",
    "Frds.Props.C183_gjr_refit_sees_new_data",
    "Frds.Props.C183_lrmes_takes_snapshot"
   ],
   "note": ""
  },
  {
   "property": "C184",
   "status": "proved",
   "theorems": [
    "Frds.Props.C184_table",
    "Frds.Props.C184_real"
   ],
   "note": ""
  },
  {
   "property": "C185",
   "status": "proved",
   "theorems": [
    "Frds.Props.C185_single",
    "Frds.Props.C185_multi",
    "Frds.Props.C185_negative"
   ],
   "note": ""
  },
  {
   "property": "C186",
   "status": "proved",
   "theorems": [
    "Frds.Props.C186_no_overflow",
    "Frds.Props.C186_direction",
    "Frds.Props.C186_wraps"
   ],
   "note": ""
  },
  {
   "property": "C187",
   "status": "proved",
   "theorems": [
    "Frds.Props.C187_arrays",
    "Frds.Props.C187_zero_strike"
   ],
   "note": ""
  },
  {
   "property": "C188",
   "status": "proved",
   "theorems": [
    "Frds.Props.C188_market",
    "Frds.Props.C188_firm"
   ],
   "note": ""
  },
  {
   "property": "C189",
   "status": "proved",
   "theorems": [
    "Frds.Props.C189_single",
    "Frds.Props.C189_multi",
    "Frds.Props.C189_rejects",
    "Frds.Props.C189_log_returns"
   ],
   "note": ""
  },
  {
   "property": "C190",
   "status": "proved",
   "theorems": [
    "Frds.Props.C190_kyle",
    "Frds.Props.C190_ses",
    "Frds.Props.C190_ses_det",
    "Frds.Props.C190_ses_cut"
   ],
   "note": ""
  },
  {
   "property": "C191",
   "status": "proved",
   "theorems": [
    "Frds.Props.C191_garch",
    "Frds.Props.C191_gjr",
    "Frds.Props.C191_univariate",
    "Frds.Props.C191_gjr_interrupted"
   ],
   "note": ""
  },
  {
   "property": "C192",
   "status": "proved",
   "theorems": [
    "Frds.Props.C192_estimated",
    "Frds.Props.C192_finishes",
    "Frds.Props.C192_race"
   ],
   "note": ""
  },
  {
   "property": "C193",
   "status": "proved",
   "theorems": [
    "Frds.Props.C193_bounds_check",
    "Frds.Props.C193_paths",
    "Frds.Props.C193_finite",
    "Frds.Props.C193_nan_residual"
   ],
   "note": ""
  },
  {
   "property": "C194",
   "status": "proved",
   "theorems": [
    "Frds.Props.C194_market",
    "Frds.Props.C194_event",
    "Frds.Props.C194_one_day",
    "Frds.Props.C194_count"
   ],
   "note": ""
  },
  {
   "property": "C195",
   "status": "proved",
   "theorems": [
    "Frds.Props.C195_value",
    "Frds.Props.C195_nan",
    "Frds.Props.C195_slot",
    "Frds.Props.C195_percent",
    "Frds.Props.C195_same",
    "Frds.Props.C195_percent_any"
   ],
   "note": ""
  },
  {
   "property": "C196",
   "status": "proved",
   "theorems": [
    "Frds.Props.C196_days",
    "Frds.Props.C196_average",
    "Frds.Props.C196_position",
    "Frds.Props.C196_default",
    "Frds.Props.C196_extra"
   ],
   "note": ""
  },
  {
   "property": "C197",
   "status": "proved",
   "theorems": [
    "Frds.Props.C197_count",
    "Frds.Props.C197_percent",
    "Frds.Props.C197_default",
    "Frds.Props.C197_half",
    "Frds.Props.C197_monotone",
    "Frds.Props.C197_accuracy"
   ],
   "note": ""
  },
  {
   "property": "C198",
   "status": "proved",
   "theorems": [
    "Frds.Props.C198_solution",
    "Frds.Props.C198_determined",
    "Frds.Props.C198_only_positive"
   ],
   "note": ""
  },
  {
   "property": "C199",
   "status": "proved",
   "theorems": [
    "Frds.Props.C199_accounting"
   ],
   "note": ""
  },
  {
   "property": "C200",
   "status": "proved",
   "theorems": [
    "Frds.Props.C200_no_overflow",
    "Frds.Props.C200_overflow",
    "Frds.Props.C200_equations"
   ],
   "note": ""
  },
  {
   "property": "C201",
   "status": "proved",
   "theorems": [
    "Frds.Props.C201_solution",
    "Frds.Props.C201_fit"
   ],
   "note": ""
  },
  {
   "property": "C202",
   "status": "proved",
   "theorems": [
    "Frds.Props.C202_parity",
    "Frds.Props.C202_bounds",
    "Frds.Props.C202_in_the_money",
    "Frds.Props.C202_prices"
   ],
   "note": ""
  },
  {
   "property": "C203",
   "status": "proved",
   "theorems": [
    "Frds.Props.C203_call",
    "Frds.Props.C203_put",
    "Frds.Props.C203_same"
   ],
   "note": ""
  },
  {
   "property": "C204",
   "status": "proved",
   "theorems": [
    "Frds.Props.C204_strike_convex",
    "Frds.Props.C204_spot_convex",
    "Frds.Props.C204_vertical",
    "Frds.Props.C204_calendar"
   ],
   "note": ""
  },
  {
   "property": "C205",
   "status": "proved",
   "theorems": [
    "Frds.Props.C205_not_nan",
    "Frds.Props.C205_objective",
    "Frds.Props.C205_accuracy",
    "Frds.Props.C205_exact"
   ],
   "note": ""
  },
  {
   "property": "C206",
   "status": "proved",
   "theorems": [
    "Frds.Props.C206_python",
    "Frds.Props.C206_cpp",
    "Frds.Props.C206_exceeds",
    "Frds.Props.C206_nan",
    "Frds.Props.C206_exact"
   ],
   "note": ""
  },
  {
   "property": "C207",
   "status": "proved",
   "theorems": [
    "Frds.Props.C207_objective",
    "Frds.Props.C207_candidates",
    "Frds.Props.C207_model"
   ],
   "note": ""
  },
  {
   "property": "C208",
   "status": "proved",
   "theorems": [
    "Frds.Props.C208_loglik",
    "Frds.Props.C208_objective",
    "Frds.Props.C208_exact",
    "Frds.Props.C208_exact_objective"
   ],
   "note": ""
  },
  {
   "property": "C209",
   "status": "proved",
   "theorems": [
    "Frds.Props.C209_lk_not_nan",
    "Frds.Props.C209_lk_finite",
    "Frds.Props.C209_eho_nan",
    "Frds.Props.C209_exact",
    "Frds.Props.C209_silent"
   ],
   "note": ""
  },
  {
   "property": "C210",
   "status": "proved",
   "theorems": [
    "Frds.Props.C210_accuracy",
    "Frds.Props.C210_binary64"
   ],
   "note": ""
  },
  {
   "property": "C211",
   "status": "proved",
   "theorems": [
    "Frds.Props.C211_preparation",
    "Frds.Props.C211_garch",
    "Frds.Props.C211_gjr",
    "Frds.Props.C211_ccc",
    "Frds.Props.C211_dcc",
    "Frds.Props.C211_exact",
    "Frds.Props.C211_exact_objective",
    "Frds.Props.C211_exact_ccc",
    "Frds.Props.C211_exact_dcc"
   ],
   "note": ""
  },
  {
   "property": "C212",
   "status": "proved",
   "theorems": [
    "Frds.Props.C212_garch_start",
    "Frds.Props.C212_gjr_start",
    "Frds.Props.C212_garch_fit",
    "Frds.Props.C212_gjr_fit",
    "Frds.Props.C212_exact",
    "Frds.Props.C212_exact_fit"
   ],
   "note": ""
  },
  {
   "property": "C213",
   "status": "proved",
   "theorems": [
    "Frds.Props.C213_corr",
    "Frds.Props.C213_ccc_fit",
    "Frds.Props.C213_spread",
    "Frds.Props.C213_exact_corr",
    "Frds.Props.C213_exact_fit",
    "Frds.Props.C213_zero"
   ],
   "note": ""
  },
  {
   "property": "C214",
   "status": "proved",
   "theorems": [
    "Frds.Props.C214_start",
    "Frds.Props.C214_objective",
    "Frds.Props.C214_fit",
    "Frds.Props.C214_exact_grid",
    "Frds.Props.C214_exact_objective",
    "Frds.Props.C214_exact_start",
    "Frds.Props.C214_exact_fit"
   ],
   "note": ""
  },
  {
   "property": "C215",
   "status": "proved",
   "theorems": [
    "Frds.Props.C215_residuals",
    "Frds.Props.C215_spread",
    "Frds.Props.C215_weights",
    "Frds.Props.C215_objective",
    "Frds.Props.C215_fit",
    "Frds.Props.C215_exact_objective",
    "Frds.Props.C215_exact_start",
    "Frds.Props.C215_exact_fit"
   ],
   "note": ""
  }
 ]
}
{
 "claims": [
  {
   "property": "C01",
   "status": "proved",
   "theorems": [
    "Oneka.C01_geometry"
   ],
   "note": ""
  },
  {
   "property": "C02",
   "status": "proved",
   "theorems": [
    "Oneka.C02_lattice"
   ],
   "note": ""
  },
  {
   "property": "C03",
   "status": "proved",
   "theorems": [
    "Oneka.C03_expand_interior"
   ],
   "note": ""
  },
  {
   "property": "C04",
   "status": "proved",
   "theorems": [
    "Oneka.C04_expand_contents"
   ],
   "note": ""
  },
  {
   "property": "C05",
   "status": "proved",
   "theorems": [
    "Oneka.C05_expand_inside",
    "Oneka.C05_expand_idempotent",
    "Oneka.C05_expand_minimal"
   ],
   "note": ""
  },
  {
   "property": "C06",
   "status": "proved",
   "theorems": [
    "Oneka.C06_expand_total"
   ],
   "note": ""
  },
  {
   "property": "C07",
   "status": "proved",
   "theorems": [
    "Oneka.C07_distancesquared",
    "Oneka.C07_degenerate"
   ],
   "note": ""
  },
  {
   "property": "C08",
   "status": "proved",
   "theorems": [
    "Oneka.C08_insert"
   ],
   "note": ""
  },
  {
   "property": "C09",
   "status": "proved",
   "theorems": [
    "Oneka.C09_rasterize"
   ],
   "note": ""
  },
  {
   "property": "C10",
   "status": "partial",
   "theorems": [
    "Oneka.C10_recorded_partial",
    "Oneka.C10_fails_if_umbra_exceeds_spacing",
    "Oneka.C10_fails_for_single_point"
   ],
   "note": "Proved for umbra <= spacing and tracks with two different vertices. False otherwise, shown for every spacing by C10_fails_if_umbra_exceeds_spacing and C10_fails_for_single_point."
  },
  {
   "property": "C11",
   "status": "partial",
   "theorems": [
    "Oneka.C11_order_partial",
    "Oneka.C11_fails_if_umbra_exceeds_spacing"
   ],
   "note": "total_weight: always. Weights: at nodes of the initial grid, or everywhere if no umbra exceeds the spacing. False otherwise: C11_fails_if_umbra_exceeds_spacing."
  },
  {
   "property": "C12",
   "status": "proved",
   "theorems": [
    "Oneka.C12_accumulation"
   ],
   "note": "The side condition on the umbra is part of the property and is necessary (C10, C11)."
  },
  {
   "property": "C13",
   "status": "proved",
   "theorems": [
    "Oneka.C13_probability_bounds"
   ],
   "note": ""
  },
  {
   "property": "C14",
   "status": "proved",
   "theorems": [
    "Oneka.C14_reset",
    "Oneka.C14_discard_leaves_no_trace"
   ],
   "note": ""
  },
  {
   "property": "C15",
   "status": "proved",
   "theorems": [
    "Oneka.C15_constructor",
    "Oneka.C15_origin",
    "Oneka.C15_empty"
   ],
   "note": ""
  },
  {
   "property": "C16",
   "status": "proved",
   "theorems": [
    "Oneka.C16_rasterize_errors"
   ],
   "note": ""
  },
  {
   "property": "C17",
   "status": "proved",
   "theorems": [
    "Oneka.C17_start"
   ],
   "note": ""
  },
  {
   "property": "C18",
   "status": "proved",
   "theorems": [
    "Oneka.C18_steps",
    "Oneka.C18_steady"
   ],
   "note": ""
  },
  {
   "property": "C19",
   "status": "proved",
   "theorems": [
    "Oneka.C19_duration",
    "Oneka.C19_complete",
    "Oneka.C19_any_velocity",
    "Oneka.C19_zero_duration"
   ],
   "note": ""
  },
  {
   "property": "C20",
   "status": "proved",
   "theorems": [
    "Oneka.C20_terminates"
   ],
   "note": "The thresholds are sharp for a particle at rest (C21_fails_below_machine_epsilon)."
  },
  {
   "property": "C21",
   "status": "partial",
   "theorems": [
    "Oneka.C21_terminates_partial",
    "Oneka.C21_fails_below_machine_epsilon",
    "Oneka.C21_fails_for_nan_velocity",
    "Oneka.C21_fails_on_wells",
    "Oneka.C21_fails_for_second_well_east"
   ],
   "note": "Proved for finite velocities of at most linear growth and tolerances above machine-epsilon scale. False otherwise: C21_fails_below_machine_epsilon, C21_fails_for_nan_velocity, and for the models of the library C21_fails_on_wells, C21_fails_for_second_well_east (a well on the target circle)."
  },
  {
   "property": "C22",
   "status": "proved",
   "theorems": [
    "Oneka.C22_reverse"
   ],
   "note": ""
  },
  {
   "property": "C23",
   "status": "proved",
   "theorems": [
    "Oneka.C23_uniform_flow"
   ],
   "note": ""
  },
  {
   "property": "C24",
   "status": "proved",
   "theorems": [
    "Oneka.C24_order",
    "Oneka.C24_code_is_method",
    "Oneka.C24_linear",
    "Oneka.C24_linear_trace"
   ],
   "note": ""
  },
  {
   "property": "C25",
   "status": "proved",
   "theorems": [
    "Oneka.C25_prefix"
   ],
   "note": ""
  },
  {
   "property": "C26",
   "status": "proved",
   "theorems": [
    "Oneka.C26_finite",
    "Oneka.C26_agrees_with_reals"
   ],
   "note": ""
  },
  {
   "property": "C27",
   "status": "proved",
   "theorems": [
    "Oneka.C27_starts"
   ],
   "note": ""
  },
  {
   "property": "C28",
   "status": "proved",
   "theorems": [
    "Oneka.C28_one_realization",
    "Oneka.C28_returns"
   ],
   "note": "The side condition on nodes (present at the start, or umbra not exceeding the spacing) is necessary, see C10."
  },
  {
   "property": "C29",
   "status": "proved",
   "theorems": [
    "Oneka.C29_gradient",
    "Oneka.C29_partials"
   ],
   "note": ""
  },
  {
   "property": "C30",
   "status": "partial",
   "theorems": [
    "Oneka.C30_divergence_curl",
    "Oneka.C30_deterministic_log",
    "Oneka.C30_fails_for_stochastic_log"
   ],
   "note": "Divergence and curl: proved. Logged recharge: proved for deterministic runs; false for stochastic runs, which log the opposite sign (C30_fails_for_stochastic_log)."
  },
  {
   "property": "C31",
   "status": "proved",
   "theorems": [
    "Oneka.C31_closed_form",
    "Oneka.C31_order",
    "Oneka.C31_additive",
    "Oneka.C31_idle_well",
    "Oneka.C31_linear"
   ],
   "note": ""
  },
  {
   "property": "C32",
   "status": "proved",
   "theorems": [
    "Oneka.C32_inverse",
    "Oneka.C32_monotone"
   ],
   "note": ""
  },
  {
   "property": "C33",
   "status": "proved",
   "theorems": [
    "Oneka.C33_head",
    "Oneka.C33_velocity",
    "Oneka.C33_head_floats",
    "Oneka.C33_velocity_floats",
    "Oneka.C33_agrees_with_reals",
    "Oneka.C33_on_a_well"
   ],
   "note": ""
  },
  {
   "property": "C34",
   "status": "proved",
   "theorems": [
    "Oneka.C34_velocity",
    "Oneka.C34_confined"
   ],
   "note": ""
  },
  {
   "property": "C35",
   "status": "proved",
   "theorems": [
    "Oneka.C35_minimises"
   ],
   "note": "Exact arithmetic; numpy.linalg.lstsq enters through its contract (LinAlg.Correct). Standard deviations are positive."
  },
  {
   "property": "C36",
   "status": "proved",
   "theorems": [
    "Oneka.C36_recovers"
   ],
   "note": ""
  },
  {
   "property": "C37",
   "status": "proved",
   "theorems": [
    "Oneka.C37_degenerate",
    "Oneka.C37_few_locations",
    "Oneka.C37_collinear",
    "Oneka.C37_duplicates"
   ],
   "note": ""
  },
  {
   "property": "C38",
   "status": "proved",
   "theorems": [
    "Oneka.C38_range",
    "Oneka.C38_unchanged"
   ],
   "note": ""
  },
  {
   "property": "C39",
   "status": "proved",
   "theorems": [
    "Oneka.C39_origin"
   ],
   "note": ""
  },
  {
   "property": "C40",
   "status": "proved",
   "theorems": [
    "Oneka.C40_covariance",
    "Oneka.C40_scaling"
   ],
   "note": ""
  },
  {
   "property": "C41",
   "status": "proved",
   "theorems": [
    "Oneka.C41_in_range",
    "Oneka.C41_bounds"
   ],
   "note": ""
  },
  {
   "property": "C42",
   "status": "proved",
   "theorems": [
    "Oneka.C42_mean"
   ],
   "note": ""
  },
  {
   "property": "C43",
   "status": "partial",
   "theorems": [
    "Oneka.C43_accepted_partial",
    "Oneka.C43_fails_for_lists",
    "Oneka.C43_fails_for_constant_triples",
    "Oneka.C43_fails_for_infinite_bounds"
   ],
   "note": "Proved for finite entries that are not lists and not constant triples; false otherwise: C43_fails_for_lists, C43_fails_for_constant_triples, C43_fails_for_infinite_bounds."
  },
  {
   "property": "C44",
   "status": "proved",
   "theorems": [
    "Oneka.C44_frequencies"
   ],
   "note": "Node counts hold at the nodes around the target, or everywhere if the umbra does not exceed the spacing (necessary, see C10)."
  },
  {
   "property": "C45",
   "status": "proved",
   "theorems": [
    "Oneka.C45_realizations",
    "Oneka.C45_ranges"
   ],
   "note": ""
  },
  {
   "property": "C46",
   "status": "proved",
   "theorems": [
    "Oneka.C46_means",
    "Oneka.C46_deterministic"
   ],
   "note": ""
  },
  {
   "property": "C47",
   "status": "proved",
   "theorems": [
    "Oneka.C47_filter"
   ],
   "note": ""
  },
  {
   "property": "C48",
   "status": "proved",
   "theorems": [
    "Oneka.C48_information"
   ],
   "note": ""
  },
  {
   "property": "C49",
   "status": "proved",
   "theorems": [
    "Oneka.C49_minimum_variance"
   ],
   "note": ""
  },
  {
   "property": "C50",
   "status": "partial",
   "theorems": [
    "Oneka.C50_idempotent_partial",
    "Oneka.C50_fails_for_separated_duplicates"
   ],
   "note": "Idempotence and distances between consecutive retained observations: proved. False for duplicates that are separated in the list: C50_fails_for_separated_duplicates."
  },
  {
   "property": "C51",
   "status": "proved",
   "theorems": [
    "Oneka.C51_error",
    "Oneka.C51_groups"
   ],
   "note": ""
  },
  {
   "property": "C52",
   "status": "proved",
   "theorems": [
    "Oneka.C52_statistics",
    "Oneka.C52_empty_column"
   ],
   "note": "The numbers in the table; the text layout is not modelled. NaN entries are None."
  },
  {
   "property": "C53",
   "status": "proved",
   "theorems": [
    "Oneka.C53_impact",
    "Oneka.C53_range"
   ],
   "note": ""
  },
  {
   "property": "C54",
   "status": "partial",
   "theorems": [
    "Oneka.C54_table_partial",
    "Oneka.C54_fails_always"
   ],
   "note": "False for every field and threshold (C54_fails_always): the logged area is one cell too large, or one cell if no node has a probability at or below the threshold. C54_table_partial says exactly what is logged."
  },
  {
   "property": "C55",
   "status": "proved",
   "theorems": [
    "Oneka.C55_area"
   ],
   "note": ""
  },
  {
   "property": "C56",
   "status": "proved",
   "theorems": [
    "Oneka.C56_empty",
    "Oneka.C56_probability_plot",
    "Oneka.C56_smoothed_plot"
   ],
   "note": ""
  },
  {
   "property": "C57",
   "status": "partial",
   "theorems": [
    "Oneka.C57_heads_partial",
    "Oneka.C57_fails_at_dry_nodes",
    "Oneka.C57_potential"
   ],
   "note": "Potential maps, and head maps without dry nodes: proved. With a dry node contour_head raises NameError: C57_fails_at_dry_nodes."
  },
  {
   "property": "C58",
   "status": "proved",
   "theorems": [
    "Oneka.C58_no_effect"
   ],
   "note": ""
  },
  {
   "property": "C59",
   "status": "partial",
   "theorems": [
    "Oneka.C59_accepted_partial",
    "Oneka.C59_fails_for_default_smooth",
    "Oneka.C59_other_defaults_partial",
    "Oneka.C59_fails_for_nrealizations"
   ],
   "note": "The accepted arguments are characterised exactly (C59_accepted_partial). The defaults are not all acceptable: the default of smooth fails the check (C59_fails_for_default_smooth), and nrealizations is not checked (C59_fails_for_nrealizations)."
  },
  {
   "property": "C60",
   "status": "proved",
   "theorems": [
    "Oneka.C60_archive",
    "Oneka.C60_field",
    "Oneka.C60_no_archive"
   ],
   "note": ""
  },
  {
   "property": "C61",
   "status": "partial",
   "theorems": [
    "Oneka.C61_distinct_partial",
    "Oneka.C61_fails_same_second",
    "Oneka.C61_fails_broken"
   ],
   "note": "Proved for different seconds. False for two runs in the same second, which write the same file (C61_fails_same_second), also if the second write fails half-way (C61_fails_broken)."
  },
  {
   "property": "C62",
   "status": "proved",
   "theorems": [
    "Oneka.C62_balance"
   ],
   "note": ""
  },
  {
   "property": "C63",
   "status": "partial",
   "theorems": [
    "Oneka.C63_six_entries",
    "Oneka.C63_constructor",
    "Oneka.C63_setter",
    "Oneka.C63_frame",
    "Oneka.C63_default_zero_partial",
    "Oneka.C63_fails_for_in_place_edits"
   ],
   "note": "False for in-place edits of coefficients that are still the shared default array (C63_fails_for_in_place_edits); proved for every other history."
  },
  {
   "property": "C64",
   "status": "proved",
   "theorems": [
    "Oneka.C64_returns_unless_singular"
   ],
   "note": ""
  },
  {
   "property": "C65",
   "status": "proved",
   "theorems": [
    "Oneka.C65_only_parameters_raise",
    "Oneka.C65_interrupts_are_swallowed"
   ],
   "note": ""
  },
  {
   "property": "C66",
   "status": "proved",
   "theorems": [
    "Oneka.C66_drawn"
   ],
   "note": ""
  },
  {
   "property": "C67",
   "status": "proved",
   "theorems": [
    "Oneka.C67_quick"
   ],
   "note": ""
  },
  {
   "property": "C68",
   "status": "proved",
   "theorems": [
    "Oneka.C68_stochastic",
    "Oneka.C68_deterministic"
   ],
   "note": ""
  },
  {
   "property": "C69",
   "status": "proved",
   "theorems": [
    "Oneka.C69_stochastic",
    "Oneka.C69_deterministic",
    "Oneka.C69_shown"
   ],
   "note": ""
  },
  {
   "property": "C70",
   "status": "proved",
   "theorems": [
    "Oneka.C70_raises",
    "Oneka.C70_diverges",
    "Oneka.C70_returns",
    "Oneka.C70_few",
    "Oneka.C70_fit"
   ],
   "note": "Numerical routines enter through their contracts (LinAlg.Correct, LinAlg.Converges)."
  },
  {
   "property": "C71",
   "status": "proved",
   "theorems": [
    "Oneka.C71_log",
    "Oneka.C71_once"
   ],
   "note": ""
  },
  {
   "property": "C72",
   "status": "proved",
   "theorems": [
    "Oneka.C72_hangs"
   ],
   "note": ""
  },
  {
   "property": "C73",
   "status": "proved",
   "theorems": [
    "Oneka.C73_nodes",
    "Oneka.C73_weights",
    "Oneka.C73_never_overstates"
   ],
   "note": ""
  },
  {
   "property": "C74",
   "status": "proved",
   "theorems": [
    "Oneka.C74_stochastic",
    "Oneka.C74_deterministic",
    "Oneka.C74_archived"
   ],
   "note": ""
  },
  {
   "property": "C75",
   "status": "proved",
   "theorems": [
    "Oneka.C75_archive",
    "Oneka.C75_log"
   ],
   "note": ""
  },
  {
   "property": "C76",
   "status": "proved",
   "theorems": [
    "Oneka.C76_missing_module",
    "Oneka.C76_import_fails",
    "Oneka.C76_missing_constant",
    "Oneka.C76_rejected"
   ],
   "note": ""
  },
  {
   "property": "C77",
   "status": "partial",
   "theorems": [
    "Oneka.C77_own_partial",
    "Oneka.C77_history",
    "Oneka.C77_fails_in_one_process",
    "Oneka.C77_fails_same_second",
    "Oneka.C77_separate_partial"
   ],
   "note": "Proved for one process per run and one run per second; the general rule is C77_history. False for two runs in one process (C77_fails_in_one_process, C77_fails_same_second)."
  },
  {
   "property": "C78",
   "status": "proved",
   "theorems": [
    "Oneka.C78_raises",
    "Oneka.C78_diverges",
    "Oneka.C78_returns"
   ],
   "note": "The literals of the data files are taken as exact decimal numbers; numerical routines enter through their contracts."
  },
  {
   "property": "C79",
   "status": "proved",
   "theorems": [
    "Oneka.C79_control",
    "Oneka.C79_steps",
    "Oneka.C79_vertices"
   ],
   "note": ""
  },
  {
   "property": "C80",
   "status": "proved",
   "theorems": [
    "Oneka.C80_accuracy",
    "Oneka.C80_follows",
    "Oneka.C80_convergence"
   ],
   "note": ""
  },
  {
   "property": "C81",
   "status": "proved",
   "theorems": [
    "Oneka.C81_trace",
    "Oneka.C81_realization",
    "Oneka.C81_call"
   ],
   "note": ""
  },
  {
   "property": "C82",
   "status": "proved",
   "theorems": [
    "Oneka.C82_follows",
    "Oneka.C82_realization"
   ],
   "note": ""
  },
  {
   "property": "C83",
   "status": "proved",
   "theorems": [
    "Oneka.C83_uniform",
    "Oneka.C83_triangular",
    "Oneka.C83_run"
   ],
   "note": ""
  },
  {
   "property": "C84",
   "status": "proved",
   "theorems": [
    "Oneka.C84_from_the_end",
    "Oneka.C84_outside",
    "Oneka.C84_spacing",
    "Oneka.C84_none"
   ],
   "note": ""
  },
  {
   "property": "C85",
   "status": "proved",
   "theorems": [
    "Oneka.C85_prefix",
    "Oneka.C85_failure",
    "Oneka.C85_independent"
   ],
   "note": ""
  },
  {
   "property": "C86",
   "status": "proved",
   "theorems": [
    "Oneka.C86_fit",
    "Oneka.C86_no_wells",
    "Oneka.C86_trace",
    "Oneka.C86_duplicates",
    "Oneka.C86_zero",
    "Oneka.C86_porosity",
    "Oneka.C86_no_step"
   ],
   "note": ""
  },
  {
   "property": "C87",
   "status": "proved",
   "theorems": [
    "Oneka.C87_bounds",
    "Oneka.C87_total",
    "Oneka.C87_exceptions"
   ],
   "note": ""
  },
  {
   "property": "C88",
   "status": "proved",
   "theorems": [
    "Oneka.C88_expand",
    "Oneka.C88_returns",
    "Oneka.C88_hangs_at_large_coordinates",
    "Oneka.C88_hangs_for_a_track_through_the_origin",
    "Oneka.C88_first_box_on_the_edge"
   ],
   "note": ""
  },
  {
   "property": "C89",
   "status": "proved",
   "theorems": [
    "Oneka.C89_accuracy",
    "Oneka.C89_exact_weights",
    "Oneka.C89_same_as_exact",
    "Oneka.C89_origins"
   ],
   "note": ""
  },
  {
   "property": "C90",
   "status": "proved",
   "theorems": [
    "Oneka.C90_duration"
   ],
   "note": ""
  },
  {
   "property": "C91",
   "status": "proved",
   "theorems": [
    "Oneka.C91_accuracy",
    "Oneka.C91_follows"
   ],
   "note": ""
  },
  {
   "property": "C92",
   "status": "proved",
   "theorems": [
    "Oneka.C92_returns"
   ],
   "note": ""
  },
  {
   "property": "C93",
   "status": "proved",
   "theorems": [
    "Oneka.C93_discharge",
    "Oneka.C93_potential",
    "Oneka.C93_head",
    "Oneka.C93_velocity"
   ],
   "note": ""
  },
  {
   "property": "C94",
   "status": "proved",
   "theorems": [
    "Oneka.C94_follows"
   ],
   "note": ""
  },
  {
   "property": "C95",
   "status": "proved",
   "theorems": [
    "Oneka.C95_track",
    "Oneka.C95_captures",
    "Oneka.C95_call"
   ],
   "note": ""
  },
  {
   "property": "C96",
   "status": "proved",
   "theorems": [
    "Oneka.C96_returns",
    "Oneka.C96_binomial",
    "Oneka.C96_converges",
    "Oneka.C96_error",
    "Oneka.C96_call"
   ],
   "note": ""
  },
  {
   "property": "C97",
   "status": "proved",
   "theorems": [
    "Oneka.C97_coefficients",
    "Oneka.C97_potential",
    "Oneka.C97_discharge",
    "Oneka.C97_average"
   ],
   "note": ""
  },
  {
   "property": "C98",
   "status": "proved",
   "theorems": [
    "Oneka.C98_removed",
    "Oneka.C98_accounts",
    "Oneka.C98_raises",
    "Oneka.C98_call"
   ],
   "note": ""
  },
  {
   "property": "C99",
   "status": "proved",
   "theorems": [
    "Oneka.C99_table",
    "Oneka.C99_lengths",
    "Oneka.C99_wide_numbers",
    "Oneka.C99_call"
   ],
   "note": ""
  },
  {
   "property": "C100",
   "status": "proved",
   "theorems": [
    "Oneka.C100_realization",
    "Oneka.C100_deterministic",
    "Oneka.C100_deciles",
    "Oneka.C100_area",
    "Oneka.C100_observations",
    "Oneka.C100_arguments",
    "Oneka.C100_small_numbers"
   ],
   "note": ""
  },
  {
   "property": "C101",
   "status": "proved",
   "theorems": [
    "Oneka.C101_stochastic",
    "Oneka.C101_deterministic"
   ],
   "note": ""
  },
  {
   "property": "C102",
   "status": "proved",
   "theorems": [
    "Oneka.C102_curve",
    "Oneka.C102_order",
    "Oneka.C102_drawn"
   ],
   "note": ""
  },
  {
   "property": "C103",
   "status": "partial",
   "theorems": [
    "Oneka.C103_lines_partial",
    "Oneka.C103_fails_at_exact_levels",
    "Oneka.C103_other_lines"
   ],
   "note": "What each line shows is proved for all fields (C103_lines_partial), and that fourteen lines agree with exact arithmetic (C103_other_lines). False in the lines for 0.40, 0.45, 0.50, 0.55 and 0.80: C103_fails_at_exact_levels."
  },
  {
   "property": "C104",
   "status": "partial",
   "theorems": [
    "Oneka.C104_ordinates_partial",
    "Oneka.C104_fails_below_one_acre",
    "Oneka.C104_fails_small_zone",
    "Oneka.C104_fails_in_calls"
   ],
   "note": "Every ordinate is proved to be the area rounded down to whole acres (C104_ordinates_partial). False that all of them show: areas below one acre are drawn at 0 on a logarithmic axis (C104_fails_below_one_acre, C104_fails_small_zone, C104_fails_in_calls)."
  },
  {
   "property": "C105",
   "status": "proved",
   "theorems": [
    "Oneka.C105_starts",
    "Oneka.C105_track",
    "Oneka.C105_frequencies"
   ],
   "note": ""
  },
  {
   "property": "C106",
   "status": "partial",
   "theorems": [
    "Oneka.C106_confined_partial",
    "Oneka.C106_fails_unconfined"
   ],
   "note": "Proved for measured levels that are confined with probability one. False for unconfined levels, where the fitted potential has a bias of conductivity times std squared at each of six sites: C106_fails_unconfined."
  },
  {
   "property": "C107",
   "status": "partial",
   "theorems": [
    "Oneka.C107_confined_partial",
    "Oneka.C107_fails_at_thickness"
   ],
   "note": "Proved among confined levels. False for a level raised from just below the thickness to the thickness: C107_fails_at_thickness."
  },
  {
   "property": "C108",
   "status": "partial",
   "theorems": [
    "Oneka.C108_draw_partial",
    "Oneka.C108_uniform",
    "Oneka.C108_positive",
    "Oneka.C108_fails_triangular",
    "Oneka.C108_mean_partial",
    "Oneka.C108_mean_pair",
    "Oneka.C108_fails_mean"
   ],
   "note": "Range proved for scalars and pairs; for triples distance to the exact value and mean, sign, and positivity unless the largest value exceeds 2^47 times the smallest. False for triples, where rounding can leave the range: C108_fails_triangular, C108_fails_mean."
  },
  {
   "property": "C109",
   "status": "proved",
   "theorems": [
    "Oneka.C109_agrees",
    "Oneka.C109_places",
    "Oneka.C109_critical"
   ],
   "note": ""
  },
  {
   "property": "C110",
   "status": "partial",
   "theorems": [
    "Oneka.C110_range",
    "Oneka.C110_solver",
    "Oneka.C110_site",
    "Oneka.C110_levels_partial",
    "Oneka.C110_damped_partial",
    "Oneka.C110_fails_unconfined"
   ],
   "note": "Other flows, inexact solvers and the standard deviation at observations: proved in full. Changed levels: proved among confined levels, false among unconfined ones (C110_fails_unconfined)."
  },
  {
   "property": "C111",
   "status": "proved",
   "theorems": [
    "Oneka.C111_raises",
    "Oneka.C111_rows",
    "Oneka.C111_fit",
    "Oneka.C111_determined",
    "Oneka.C111_critical"
   ],
   "note": ""
  },
  {
   "property": "C112",
   "status": "proved",
   "theorems": [
    "Oneka.C112_discharge",
    "Oneka.C112_velocity",
    "Oneka.C112_pathline",
    "Oneka.C112_rounded",
    "Oneka.C112_traces"
   ],
   "note": ""
  },
  {
   "property": "C113",
   "status": "proved",
   "theorems": [
    "Oneka.C113_models",
    "Oneka.C113_stochastic",
    "Oneka.C113_deterministic"
   ],
   "note": ""
  },
  {
   "property": "C114",
   "status": "proved",
   "theorems": [
    "Oneka.C114_covariance",
    "Oneka.C114_variance",
    "Oneka.C114_correlations",
    "Oneka.C114_returns"
   ],
   "note": ""
  },
  {
   "property": "C115",
   "status": "proved",
   "theorems": [
    "Oneka.C115_model",
    "Oneka.C115_potential",
    "Oneka.C115_head",
    "Oneka.C115_discharge",
    "Oneka.C115_velocity",
    "Oneka.C115_fit",
    "Oneka.C115_constructor",
    "Oneka.C115_expand",
    "Oneka.C115_distancesquared"
   ],
   "note": ""
  },
  {
   "property": "C116",
   "status": "proved",
   "theorems": [
    "Oneka.C116_potential",
    "Oneka.C116_discharge",
    "Oneka.C116_head",
    "Oneka.C116_velocity",
    "Oneka.C116_confined",
    "Oneka.C116_potential_accurate",
    "Oneka.C116_discharge_accurate",
    "Oneka.C116_head_accurate",
    "Oneka.C116_overflow",
    "Oneka.C116_underflow"
   ],
   "note": ""
  },
  {
   "property": "C117",
   "status": "proved",
   "theorems": [
    "Oneka.C117_constructor",
    "Oneka.C117_history",
    "Oneka.C117_call",
    "Oneka.C117_bounds",
    "Oneka.C117_overflow"
   ],
   "note": ""
  },
  {
   "property": "C118",
   "status": "proved",
   "theorems": [
    "Oneka.C118_velocity",
    "Oneka.C118_trace",
    "Oneka.C118_follows"
   ],
   "note": ""
  },
  {
   "property": "C119",
   "status": "proved",
   "theorems": [
    "Oneka.C119_zones",
    "Oneka.C119_frequencies"
   ],
   "note": ""
  },
  {
   "property": "C120",
   "status": "proved",
   "theorems": [
    "Oneka.C120_values",
    "Oneka.C120_log"
   ],
   "note": ""
  },
  {
   "property": "C121",
   "status": "proved",
   "theorems": [
    "Oneka.C121_model",
    "Oneka.C121_model_fails",
    "Oneka.C121_empty",
    "Oneka.C121_field",
    "Oneka.C121_field_fails",
    "Oneka.C121_empty_fails"
   ],
   "note": ""
  },
  {
   "property": "C122",
   "status": "proved",
   "theorems": [
    "Oneka.C122_traces",
    "Oneka.C122_model",
    "Oneka.C122_filter",
    "Oneka.C122_run",
    "Oneka.C122_call",
    "Oneka.C122_archive"
   ],
   "note": ""
  },
  {
   "property": "C123",
   "status": "proved",
   "theorems": [
    "Oneka.C123_model",
    "Oneka.C123_filter",
    "Oneka.C123_run",
    "Oneka.C123_call",
    "Oneka.C123_archive"
   ],
   "note": ""
  },
  {
   "property": "C124",
   "status": "proved",
   "theorems": [
    "Oneka.C124_model",
    "Oneka.C124_filter",
    "Oneka.C124_run",
    "Oneka.C124_law",
    "Oneka.C124_call",
    "Oneka.C124_archive"
   ],
   "note": ""
  },
  {
   "property": "C125",
   "status": "proved",
   "theorems": [
    "Oneka.C125_model",
    "Oneka.C125_variate",
    "Oneka.C125_run",
    "Oneka.C125_call",
    "Oneka.C125_archive"
   ],
   "note": ""
  },
  {
   "property": "C126",
   "status": "proved",
   "theorems": [
    "Oneka.C126_filter",
    "Oneka.C126_variate",
    "Oneka.C126_fit",
    "Oneka.C126_stochastic",
    "Oneka.C126_deterministic",
    "Oneka.C126_frequencies",
    "Oneka.C126_report"
   ],
   "note": ""
  },
  {
   "property": "C127",
   "status": "proved",
   "theorems": [
    "Oneka.C127_stochastic",
    "Oneka.C127_deterministic",
    "Oneka.C127_course",
    "Oneka.C127_spacing",
    "Oneka.C127_archived"
   ],
   "note": ""
  },
  {
   "property": "C128",
   "status": "proved",
   "theorems": [
    "Oneka.C128_model",
    "Oneka.C128_filter",
    "Oneka.C128_backtrace",
    "Oneka.C128_course",
    "Oneka.C128_stochastic",
    "Oneka.C128_deterministic",
    "Oneka.C128_archived"
   ],
   "note": ""
  },
  {
   "property": "C129",
   "status": "proved",
   "theorems": [
    "Oneka.C129_fit_order",
    "Oneka.C129_run_order",
    "Oneka.C129_filter_order",
    "Oneka.C129_call_order",
    "Oneka.C129_archive_order",
    "Oneka.C129_order_matters",
    "Oneka.C129_duplicates",
    "Oneka.C129_duplicates_run",
    "Oneka.C129_unconfined_matters",
    "Oneka.C129_filter_precision",
    "Oneka.C129_fit_precision",
    "Oneka.C129_run_precision"
   ],
   "note": ""
  },
  {
   "property": "C130",
   "status": "proved",
   "theorems": [
    "Oneka.C130_common",
    "Oneka.C130_uniform",
    "Oneka.C130_track",
    "Oneka.C130_captures",
    "Oneka.C130_stochastic",
    "Oneka.C130_archived",
    "Oneka.C130_not_monotone"
   ],
   "note": ""
  },
  {
   "property": "C131",
   "status": "proved",
   "theorems": [
    "Oneka.C131_delivers",
    "Oneka.C131_captures",
    "Oneka.C131_start",
    "Oneka.C131_archived",
    "Oneka.C131_enters",
    "Oneka.C131_pumping",
    "Oneka.C131_misses"
   ],
   "note": ""
  },
  {
   "property": "C132",
   "status": "proved",
   "theorems": [
    "Oneka.C132_course",
    "Oneka.C132_result",
    "Oneka.C132_calls",
    "Oneka.C132_archived",
    "Oneka.C132_wide"
   ],
   "note": ""
  },
  {
   "property": "C133",
   "status": "proved",
   "theorems": [
    "Oneka.C133_realization",
    "Oneka.C133_dry",
    "Oneka.C133_archived",
    "Oneka.C133_hole",
    "Oneka.C133_diluted"
   ],
   "note": ""
  },
  {
   "property": "C134",
   "status": "proved",
   "theorems": [
    "Oneka.C134_done",
    "Oneka.C134_meaning",
    "Oneka.C134_files",
    "Oneka.C134_no_answer",
    "Oneka.C134_profile"
   ],
   "note": ""
  },
  {
   "property": "C135",
   "status": "partial",
   "theorems": [
    "Oneka.C135_model",
    "Oneka.C135_fit",
    "Oneka.C135_filter_partial",
    "Oneka.C135_fails_filter",
    "Oneka.C135_trace_partial",
    "Oneka.C135_deterministic_partial",
    "Oneka.C135_stochastic_partial",
    "Oneka.C135_fails_start",
    "Oneka.C135_fails_acres"
   ],
   "note": "Model and fit: proved in full. The filter, the tracer and whole calls: proved up to the constants of the code that have a unit (starting points one length unit outside the rim, observations closer than 1.0 are merged, first step 0.1 time unit, machine epsilon added to lengths, 4046.86 square metres per acre), which the theorems name; because of them the full claim is false: C135_fails_filter, C135_fails_start, C135_fails_acres."
  },
  {
   "property": "C136",
   "status": "proved",
   "theorems": [
    "Oneka.C136_velocity",
    "Oneka.C136_call"
   ],
   "note": ""
  },
  {
   "property": "C137",
   "status": "proved",
   "theorems": [
    "Oneka.C137_model",
    "Oneka.C137_fails_at",
    "Oneka.C137_filter",
    "Oneka.C137_call"
   ],
   "note": ""
  },
  {
   "property": "C138",
   "status": "proved",
   "theorems": [
    "Oneka.C138_fit",
    "Oneka.C138_call",
    "Oneka.C138_flow",
    "Oneka.C138_traces"
   ],
   "note": ""
  },
  {
   "property": "C139",
   "status": "proved",
   "theorems": [
    "Oneka.C139_result",
    "Oneka.C139_archived"
   ],
   "note": ""
  },
  {
   "property": "C140",
   "status": "proved",
   "theorems": [
    "Oneka.C140_stochastic",
    "Oneka.C140_deterministic"
   ],
   "note": ""
  },
  {
   "property": "C141",
   "status": "proved",
   "theorems": [
    "Oneka.C141_model",
    "Oneka.C141_only",
    "Oneka.C141_filter",
    "Oneka.C141_call"
   ],
   "note": ""
  },
  {
   "property": "C142",
   "status": "proved",
   "theorems": [
    "Oneka.C142_streamline",
    "Oneka.C142_width",
    "Oneka.C142_stagnation",
    "Oneka.C142_delivers",
    "Oneka.C142_captures",
    "Oneka.C142_archived"
   ],
   "note": ""
  },
  {
   "property": "C143",
   "status": "proved",
   "theorems": [
    "Oneka.C143_filter",
    "Oneka.C143_monotone",
    "Oneka.C143_map"
   ],
   "note": ""
  },
  {
   "property": "C144",
   "status": "proved",
   "theorems": [
    "Oneka.C144_divides",
    "Oneka.C144_near",
    "Oneka.C144_shape",
    "Oneka.C144_delivers",
    "Oneka.C144_captures",
    "Oneka.C144_archived"
   ],
   "note": ""
  },
  {
   "property": "C145",
   "status": "proved",
   "theorems": [
    "Oneka.C145_paths",
    "Oneka.C145_volume",
    "Oneka.C145_delivers",
    "Oneka.C145_follows",
    "Oneka.C145_captures",
    "Oneka.C145_radius",
    "Oneka.C145_archived"
   ],
   "note": ""
  },
  {
   "property": "C146",
   "status": "proved",
   "theorems": [
    "Oneka.C146_line",
    "Oneka.C146_trace",
    "Oneka.C146_rest",
    "Oneka.C146_recharge",
    "Oneka.C146_axis",
    "Oneka.C146_captures",
    "Oneka.C146_archived",
    "Oneka.C146_outward",
    "Oneka.C146_rays",
    "Oneka.C146_archived_rays"
   ],
   "note": ""
  },
  {
   "property": "C147",
   "status": "proved",
   "theorems": [
    "Oneka.C147_range",
    "Oneka.C147_advances",
    "Oneka.C147_speed",
    "Oneka.C147_attained"
   ],
   "note": ""
  },
  {
   "property": "C148",
   "status": "proved",
   "theorems": [
    "Oneka.C148_same",
    "Oneka.C148_returned",
    "Oneka.C148_logs",
    "Oneka.C148_negative_target",
    "Oneka.C148_few",
    "Oneka.C148_no_duration"
   ],
   "note": ""
  },
  {
   "property": "C149",
   "status": "proved",
   "theorems": [
    "Oneka.C149_cells",
    "Oneka.C149_zone",
    "Oneka.C149_deterministic",
    "Oneka.C149_stochastic",
    "Oneka.C149_upper",
    "Oneka.C149_pathlines",
    "Oneka.C149_at_rest"
   ],
   "note": ""
  },
  {
   "property": "C150",
   "status": "proved",
   "theorems": [
    "Oneka.C150_redrawn",
    "Oneka.C150_cut",
    "Oneka.C150_cut_matters"
   ],
   "note": ""
  },
  {
   "property": "C151",
   "status": "proved",
   "theorems": [
    "Oneka.C151_catchment",
    "Oneka.C151_paths",
    "Oneka.C151_everything",
    "Oneka.C151_smaller",
    "Oneka.C151_velocity"
   ],
   "note": ""
  },
  {
   "property": "C152",
   "status": "proved",
   "theorems": [
    "Oneka.C152_returns",
    "Oneka.C152_weights",
    "Oneka.C152_archived",
    "Oneka.C152_batches_matter"
   ],
   "note": ""
  },
  {
   "property": "C153",
   "status": "proved",
   "theorems": [
    "Oneka.C153_delivers",
    "Oneka.C153_line",
    "Oneka.C153_circle",
    "Oneka.C153_injecting",
    "Oneka.C153_archived"
   ],
   "note": ""
  },
  {
   "property": "C154",
   "status": "proved",
   "theorems": [
    "Oneka.C154_faster",
    "Oneka.C154_slower",
    "Oneka.C154_delivers",
    "Oneka.C154_later",
    "Oneka.C154_captures",
    "Oneka.C154_enough",
    "Oneka.C154_archived",
    "Oneka.C154_calls"
   ],
   "note": ""
  },
  {
   "property": "C155",
   "status": "proved",
   "theorems": [
    "Oneka.C155_path",
    "Oneka.C155_head",
    "Oneka.C155_no_return",
    "Oneka.C155_delivers",
    "Oneka.C155_captures",
    "Oneka.C155_archived"
   ],
   "note": ""
  },
  {
   "property": "C156",
   "status": "proved",
   "theorems": [
    "Oneka.C156_delivers",
    "Oneka.C156_porosity",
    "Oneka.C156_captures",
    "Oneka.C156_archived",
    "Oneka.C156_calls"
   ],
   "note": ""
  }
 ]
}
{
 "claims": [
  {
   "property": "C01",
   "status": "proved",
   "theorems": [
    "Verif.Time.C01_fixed_time_domain",
    "Verif.Time.C01_fixed_count"
   ],
   "note": ""
  },
  {
   "property": "C02",
   "status": "proved",
   "theorems": [
    "Verif.Time.C02_non_positive_rejected",
    "Verif.Time.C02_frequency_time_domain",
    "Verif.Time.C02_tiling",
    "Verif.Time.C02_month_anchor",
    "Verif.Time.C02_fixed_step_duration"
   ],
   "note": ""
  },
  {
   "property": "C03",
   "status": "proved",
   "theorems": [
    "Verif.Time.C03_index_is_leap_slot",
    "Verif.Time.C03_index_leap_stable",
    "Verif.Time.C03_leap_day_own_slot",
    "Verif.Time.C03_fractional"
   ],
   "note": ""
  },
  {
   "property": "C04",
   "status": "proved",
   "theorems": [
    "Verif.Scenario.C04_full_domain"
   ],
   "note": ""
  },
  {
   "property": "C05",
   "status": "proved",
   "theorems": [
    "Verif.Scenario.C05_subset_domain",
    "Verif.Scenario.C05_subset_mem"
   ],
   "note": ""
  },
  {
   "property": "C06",
   "status": "proved",
   "theorems": [
    "Verif.Scenario.C06_sim_schema_roundtrip",
    "Verif.Scenario.C06_map_length"
   ],
   "note": ""
  },
  {
   "property": "C07",
   "status": "partial",
   "theorems": [
    "Verif.Scenario.C07_schema_id_refuted",
    "Verif.Scenario.C07_schema_id_partial",
    "Verif.Scenario.C07_same_id_partial",
    "Verif.Scenario.C07_combination_ids_unique"
   ],
   "note": "Refuted for two or more groups with several members; proved when at most one group has more than one member. Ids of combinations are proved unique."
  },
  {
   "property": "C08",
   "status": "proved",
   "theorems": [
    "Verif.State.C08_water_balance",
    "Verif.State.C08_water_balance_exact",
    "Verif.State.C08_step_balance",
    "Verif.State.C08_imbalance_panics"
   ],
   "note": "Solvers that complete the timestep; see C53 for the interior point solvers."
  },
  {
   "property": "C09",
   "status": "proved",
   "theorems": [
    "Verif.State.C09_node_flows",
    "Verif.State.C09_node_flows_observable",
    "Verif.State.C09_order_independent"
   ],
   "note": ""
  },
  {
   "property": "C10",
   "status": "proved",
   "theorems": [
    "Verif.Values.C10_write_fails_iff",
    "Verif.Values.C10_failed_write_no_effect",
    "Verif.Values.C10_write_frame",
    "Verif.Values.C10_history",
    "Verif.Values.C10_never_nan",
    "Verif.Values.C10_initial_no_nan",
    "Verif.Values.C10_transfer_accepts_nan_refuted"
   ],
   "note": "Holds for parameter values. Values transferred between networks are not checked for NaN."
  },
  {
   "property": "C100",
   "status": "partial",
   "theorems": [
    "Verif.EndToEnd.C100_run_partial",
    "Verif.EndToEnd.C100_accepts",
    "Verif.EndToEnd.C100_flows",
    "Verif.EndToEnd.C100_passed",
    "Verif.EndToEnd.Cases.Three.C100_link_of_link_case"
   ],
   "note": "Composition of C48 (order and lag of links), C96 and C99. Proved for documents whose networks Fit, as in C99. Links of indices panic in the code (todo!, pywr-core/src/metric.rs:1379) and are not modelled. In the first step a link from a later network without an initial value brings what its metric shows before anything has happened, which is left open. C100_link_of_link_case: a document with a link of a link runs, which a comment in the code says is refused."
  },
  {
   "property": "C101",
   "status": "partial",
   "theorems": [
    "Verif.Rename.C101_compiles",
    "Verif.Rename.C101_built",
    "Verif.Rename.C101_runs",
    "Verif.Rename.C101_metrics",
    "Verif.Rename.C101_virtual_metrics",
    "Verif.Rename.C101_one",
    "Verif.Rename.C101_document_partial",
    "Verif.Rename.C101_document_one_partial",
    "Verif.Rename.C101_references",
    "Verif.Rename.C101_renamed_references",
    "Verif.Rename.C101_untouched",
    "Verif.Rename.C101_visited_metrics_partial",
    "Verif.Rename.C101_visited_metrics_refuted",
    "Verif.Rename.C101_visited_paths_partial",
    "Verif.Rename.C101_visited_paths_refuted",
    "Verif.Rename.C101_changes",
    "Verif.Rename.C101_moved_partial",
    "Verif.Rename.C101_moved_refuted",
    "Verif.Rename.C101_replaced",
    "Verif.Rename.C101_renamed",
    "Verif.Rename.C101_agree",
    "Verif.Rename.DocumentCases.C101_document_series_refuted"
   ],
   "note": "Renaming in networks, in documents with parameters and of node references proved. For documents the names of nodes must be apart from those of series: C101_document_series_refuted shows that a metric of a series shows the parameter of a node otherwise. C101_visited_metrics_refuted: metrics in arrays are not visited; C101_visited_paths_refuted: files of tables are not visited; C101_moved_refuted: see DESIGN.md."
  },
  {
   "property": "C102",
   "status": "partial",
   "theorems": [
    "Verif.Files.C102_checked",
    "Verif.Files.C102_read",
    "Verif.Files.C102_place",
    "Verif.Files.C102_apart",
    "Verif.Files.C102_change",
    "Verif.Files.C102_uppercase_refuted",
    "Verif.Files.C102_converted_table",
    "Verif.Files.C102_converted_frame",
    "Verif.Files.C102_accepts_frame",
    "Verif.Files.C102_frame_checksum_partial",
    "Verif.Files.C102_frame_checksum_refuted",
    "Verif.Files.C102_times_partial",
    "Verif.Files.C102_times_refuted",
    "Verif.Files.C102_keywords",
    "Verif.Files.C102_called_partial",
    "Verif.Files.C102_called_refuted"
   ],
   "note": "Places and checks proved; refuted parts: hashes in upper case, checksums of other kinds of data frames (dropped), columns of times given by number, keywords of files with upper-case extension."
  },
  {
   "property": "C103",
   "status": "partial",
   "theorems": [
    "Verif.Python.C103_calls",
    "Verif.Python.C103_objects",
    "Verif.Python.C103_phases",
    "Verif.Python.C103_scenarios_partial",
    "Verif.Python.C103_order_partial",
    "Verif.Python.C103_run",
    "Verif.Python.C103_function",
    "Verif.Python.C103_function_partial",
    "Verif.Python.C103_told",
    "Verif.Python.C103_arguments_partial",
    "Verif.Python.Cases.C103_shared_refuted",
    "Verif.Python.Cases.C103_arguments_refuted"
   ],
   "note": "Calls, objects, phases and what is told proved for all classes and sequences of calls; independence of scenarios for classes and functions that leave their arguments as they are (refuted in general: arguments are shared by the objects of all scenarios); arguments unchanged unless they hold a whole number of 2^63 or more (refuted: it becomes a float)."
  },
  {
   "property": "C104",
   "status": "partial",
   "theorems": [
    "Verif.V1Model.C104_kept",
    "Verif.V1Model.C104_days",
    "Verif.V1Model.C104_frequency",
    "Verif.V1Model.C104_run",
    "Verif.V1Model.C104_parts",
    "Verif.V1Model.C104_reported",
    "Verif.V1Model.C104_converts_partial",
    "Verif.V1Model.Cases.C104_zero_days_refuted"
   ],
   "note": "Dates, scenarios, independence of parts and reports proved; the conversion succeeds but for steps of zero days and slices with a step of zero (refuted: it fails instead of reporting) and networks whose conversion fails (C89). C104_run needs slices that do not consist of an end alone (C92)."
  },
  {
   "property": "C105",
   "status": "partial",
   "theorems": [
    "Verif.Cli.C105_directory",
    "Verif.Cli.C105_file",
    "Verif.Cli.C105_intact",
    "Verif.Cli.C105_order_partial",
    "Verif.Cli.Cases.C105_order_refuted"
   ],
   "note": "Exact conditions and effects proved for all disks; independence of the order of listing holds without errors and is refuted with them: a file that is no old model ends the conversion even without the option to stop."
  },
  {
   "property": "C106",
   "status": "proved",
   "theorems": [
    "Verif.Reorder.C106_builds",
    "Verif.Reorder.C106_any",
    "Verif.Reorder.C106_step",
    "Verif.Reorder.C106_flows",
    "Verif.Reorder.C106_best"
   ],
   "note": "Any order of nodes and edges, any histories; for models C86 covers (factors followed, constant limits of members of exclusivity groups), whatever the order of the groups' columns."
  },
  {
   "property": "C107",
   "status": "partial",
   "theorems": [
    "Verif.Settings.C107_python",
    "Verif.Settings.C107_python_effect",
    "Verif.Settings.C107_cli",
    "Verif.Settings.C107_multi_partial",
    "Verif.Settings.Cases.C107_again_refuted",
    "Verif.Settings.Cases.C107_ignore_refuted",
    "Verif.Settings.Cases.C107_threads_refuted",
    "Verif.Settings.Cases.C107_multi_refuted",
    "Verif.Settings.Cases.C107_opencl_refuted"
   ],
   "note": "Exact conditions and effects proved for all dictionaries, solvers and networks. Refuted: a dictionary used a second time is empty; requirements cannot be ignored from Python with Clp, Cbc and HiGHS; threads alone do nothing in Python; run-multi drops its threads; OpenCL solvers accept anything."
  },
  {
   "property": "C108",
   "status": "proved",
   "theorems": [
    "Verif.Reorder.C108_run",
    "Verif.Reorder.C108_possible",
    "Verif.Reorder.C108_setup"
   ],
   "note": "Under the conditions of C60 on networks and inputs; values of metrics are inputs, solvers are exact. If several flows are cheapest, the same runs are possible; if one is, the runs are the same."
  },
  {
   "property": "C109",
   "status": "proved",
   "theorems": [
    "Verif.Statics.C109_possible",
    "Verif.Statics.C109_cheaper",
    "Verif.Statics.C109_scale",
    "Verif.Statics.C109_demand"
   ],
   "note": "For all programs that the solver builder prepares, after any steps before, with exclusive groups too. Limits of members of exclusive groups and factors stay as they are."
  },
  {
   "property": "C11",
   "status": "proved",
   "theorems": [
    "Verif.State.C11_feasible_step",
    "Verif.State.C11_feasible_completes",
    "Verif.State.C11_feasible_run"
   ],
   "note": ""
  },
  {
   "property": "C110",
   "status": "proved",
   "theorems": [
    "Verif.Insert.C110_builds",
    "Verif.Insert.C110_step",
    "Verif.Insert.C110_link",
    "Verif.Insert.C110_flows",
    "Verif.Insert.C110_best"
   ],
   "note": "For networks whose programs C86 describes (factors accepted and followed, members of exclusive groups with constant limits); that the network with the link is such a one is proved."
  },
  {
   "property": "C12",
   "status": "proved",
   "theorems": [
    "Verif.State.C12_feasible_step",
    "Verif.State.C12_feasible_completes",
    "Verif.State.C12_inactive"
   ],
   "note": ""
  },
  {
   "property": "C13",
   "status": "partial",
   "theorems": [
    "Verif.State.C13_rolling_window_partial",
    "Verif.State.C13_reset_to_max_refuted",
    "Verif.State.C13_long_steps_refuted",
    "Verif.State.C13_unequal_steps_refuted"
   ],
   "note": "Holds for equal steps, reset to the initial volume, and daily steps or a full initial volume. Refuted for reset to the maximum volume, for long steps and for unequal steps."
  },
  {
   "property": "C14",
   "status": "partial",
   "theorems": [
    "Verif.State.C14_months_reset_iff",
    "Verif.State.C14_day_of_year_reset_iff",
    "Verif.State.C14_never_reset_iff",
    "Verif.State.C14_day_of_year_once_per_year",
    "Verif.State.C14_months_reset_on_first_of_month",
    "Verif.State.C14_step_volume",
    "Verif.State.C14_day_of_year_skipped_refuted"
   ],
   "note": "The reset rule is proved in both directions. A day-of-year reset once per year holds for daily steps and is refuted for steps that skip the day."
  },
  {
   "property": "C15",
   "status": "proved",
   "theorems": [
    "Verif.State.C15_active_iff_cyclic"
   ],
   "note": ""
  },
  {
   "property": "C16",
   "status": "proved",
   "theorems": [
    "Verif.Solver.C16_columns",
    "Verif.Solver.C16_shared_column_equal_flow",
    "Verif.Solver.C16_no_edges"
   ],
   "note": ""
  },
  {
   "property": "C17",
   "status": "proved",
   "theorems": [
    "Verif.Solver.C17_mass_balance",
    "Verif.Solver.C17_representable"
   ],
   "note": ""
  },
  {
   "property": "C18",
   "status": "proved",
   "theorems": [
    "Verif.Solver.C18_intersection",
    "Verif.Solver.C18_total",
    "Verif.Solver.C18_order",
    "Verif.Solver.C18_no_memory"
   ],
   "note": "Bounds are additionally cut at the largest numbers the solver accepts."
  },
  {
   "property": "C19",
   "status": "proved",
   "theorems": [
    "Verif.Solver.C19_accumulate",
    "Verif.Solver.C19_sparse",
    "Verif.Solver.C19_row_ids"
   ],
   "note": ""
  },
  {
   "property": "C20",
   "status": "proved",
   "theorems": [
    "Verif.Solver.C20_objective",
    "Verif.Solver.C20_optimal"
   ],
   "note": "C20_objective holds for every valid model; C20_optimal for models without exclusivity relationships whose factors are accepted."
  },
  {
   "property": "C21",
   "status": "partial",
   "theorems": [
    "Verif.Solver.C21_max_active_partial",
    "Verif.Solver.C21_min_active_partial",
    "Verif.Solver.C21_bounds_partial",
    "Verif.Solver.C21_together_partial",
    "Verif.Solver.C21_flow_cut",
    "Verif.Solver.C21_varying_refuted",
    "Verif.Solver.C21_min_active_refuted"
   ],
   "note": "Proved for members with constant bounds, and for min_active when every group has a minimum flow. Refuted for bounds that vary in time and for min_active without minimum flows."
  },
  {
   "property": "C22",
   "status": "partial",
   "theorems": [
    "Verif.Solver.C22_proportion_accepted_iff",
    "Verif.Solver.C22_proportion_split",
    "Verif.Solver.C22_ratio_accepted_iff",
    "Verif.Solver.C22_ratio_split",
    "Verif.Solver.C22_coefficients",
    "Verif.Solver.C22_zero_proportion_accepted_refuted",
    "Verif.Solver.C22_zero_first_ratio_refuted",
    "Verif.Solver.C22_negative_ratio_accepted_refuted",
    "Verif.Solver.C22_invalid_ignored_refuted",
    "Verif.Solver.C22_zero_ratio_panics_refuted"
   ],
   "note": "The meaning of accepted factors and the exact acceptance conditions are proved; rejection of all invalid factors is refuted by witnesses."
  },
  {
   "property": "C23",
   "status": "partial",
   "theorems": [
    "Verif.Solver.C23_constant_pairs_agree",
    "Verif.Solver.C23_pairs_agree",
    "Verif.Solver.C23_varying_rhs_ignored_refuted",
    "Verif.Solver.C23_storage_sign_refuted",
    "Verif.Solver.C23_shared_column_refuted",
    "Verif.Solver.C23_merged_rows_refuted"
   ],
   "note": "Constant factors give the same pairs at setup and in a step; with C56 the rows follow the current values when FactorsOk holds. Refuted for a varying right-hand side, storage nodes, nodes on one chain and several relations of the same nodes."
  },
  {
   "property": "C24",
   "status": "proved",
   "theorems": [
    "Verif.State.C24_fills_in_order",
    "Verif.State.C24_total_preserved",
    "Verif.State.C24_proportional"
   ],
   "note": ""
  },
  {
   "property": "C25",
   "status": "proved",
   "theorems": [
    "Verif.Temporal.C25_delay_general",
    "Verif.Temporal.C25_delay_simple",
    "Verif.Temporal.C25_delay_zero_general",
    "Verif.Temporal.C25_delay_memory_bounded"
   ],
   "note": ""
  },
  {
   "property": "C26",
   "status": "proved",
   "theorems": [
    "Verif.Temporal.C26_rolling",
    "Verif.Temporal.C26_rolling_warm",
    "Verif.Temporal.C26_window_content",
    "Verif.Temporal.C26_min_exceeds_window"
   ],
   "note": ""
  },
  {
   "property": "C27",
   "status": "proved",
   "theorems": [
    "Verif.ArrayParam.C27_array2_value",
    "Verif.ArrayParam.C27_array2_column_exists",
    "Verif.ArrayParam.C27_array1_value",
    "Verif.ArrayParam.C27_empty_subset_build_error"
   ],
   "note": ""
  },
  {
   "property": "C28",
   "status": "proved",
   "theorems": [
    "Verif.Temporal.C28_asymmetric_hysteresis"
   ],
   "note": ""
  },
  {
   "property": "C29",
   "status": "proved",
   "theorems": [
    "Verif.Temporal.C29_threshold_ratchet",
    "Verif.Temporal.C29_threshold_plain",
    "Verif.Temporal.C29_predicate_meaning",
    "Verif.Temporal.C29_multi_position",
    "Verif.Temporal.C29_multi_ratchet",
    "Verif.Temporal.C29_multi_ratchet_monotone",
    "Verif.Temporal.C29_multi_plain"
   ],
   "note": ""
  },
  {
   "property": "C30",
   "status": "proved",
   "theorems": [
    "Verif.Curves.C30_relation",
    "Verif.Curves.C30_first_specified",
    "Verif.Curves.C30_first_steady",
    "Verif.Curves.C30_run",
    "Verif.Curves.C30_constant"
   ],
   "note": "For a non-zero denominator. A step counts as one unit of time, as in the code."
  },
  {
   "property": "C31",
   "status": "partial",
   "theorems": [
    "Verif.Curves.C31_exact",
    "Verif.Curves.C31_between",
    "Verif.Curves.C31_outside",
    "Verif.Curves.C31_total",
    "Verif.Curves.C31_monotone",
    "Verif.Curves.C31_continuous_partial",
    "Verif.Curves.C31_insufficient",
    "Verif.Curves.C31_rejected_iff",
    "Verif.Curves.C31_lazy_refuted",
    "Verif.Curves.C31_small_gap_refuted"
   ],
   "note": "All proved for increasing tables, continuity if points are at least the tolerance apart. Refuted: rejection of every non-increasing table, linearity between points closer than the tolerance."
  },
  {
   "property": "C32",
   "status": "partial",
   "theorems": [
    "Verif.Curves.C32_index_iff",
    "Verif.Curves.C32_index_total",
    "Verif.Curves.C32_index_monotone",
    "Verif.Curves.C32_index_count",
    "Verif.Curves.C32_value_partial",
    "Verif.Curves.C32_value_above",
    "Verif.Curves.C32_wrong_count_refuted"
   ],
   "note": "The index is proved in full; the value if there is one value more than curves. Refuted for another number of values, which is accepted."
  },
  {
   "property": "C33",
   "status": "partial",
   "theorems": [
    "Verif.Curves.C33_interpolated_partial",
    "Verif.Curves.C33_on_curve_partial",
    "Verif.Curves.C33_between_partial",
    "Verif.Curves.C33_piecewise_partial",
    "Verif.Curves.C33_short_refuted",
    "Verif.Curves.C33_curve_at_one_refuted",
    "Verif.Curves.C33_piecewise_short_refuted"
   ],
   "note": "Proved for the right number of values and decreasing curves strictly inside the range; refuted for short lists and a curve at the end of the range."
  },
  {
   "property": "C34",
   "status": "proved",
   "theorems": [
    "Verif.Curves.C34_apportion",
    "Verif.Curves.C34_apportion_nonneg",
    "Verif.Curves.C34_volumes",
    "Verif.Curves.C34_volume_range"
   ],
   "note": ""
  },
  {
   "property": "C35",
   "status": "partial",
   "theorems": [
    "Verif.Profiles.C35_plain",
    "Verif.Profiles.C35_first",
    "Verif.Profiles.C35_last_partial",
    "Verif.Profiles.C35_last_overshoot_refuted"
   ],
   "note": "Proved for every date-time, except that interpolation to the last day goes beyond the value after the start of the last day (refuted)."
  },
  {
   "property": "C36",
   "status": "proved",
   "theorems": [
    "Verif.Profiles.C36_accepts",
    "Verif.Profiles.C36_weekly",
    "Verif.Profiles.C36_year_end_jump"
   ],
   "note": ""
  },
  {
   "property": "C37",
   "status": "partial",
   "theorems": [
    "Verif.Profiles.C37_even_partial",
    "Verif.Profiles.C37_early_partial",
    "Verif.Profiles.C37_leap_day_partial",
    "Verif.Profiles.C37_reset",
    "Verif.Profiles.C37_range",
    "Verif.Profiles.C37_double_drop_refuted",
    "Verif.Profiles.C37_wrapped_refuted",
    "Verif.Profiles.C37_no_reset_refuted"
   ],
   "note": "Value on reset days and range proved in full; even fall proved for resets from March on. For earlier resets the exact value is proved and the claim refuted in common years. For a reset on 29 February the fall is even from 29 February of a leap year; in common years the cycle begins on 1 March one day ahead, and the value never is one (refuted)."
  },
  {
   "property": "C38",
   "status": "partial",
   "theorems": [
    "Verif.Params.C38_terminates",
    "Verif.Params.C38_succeeds_iff",
    "Verif.Params.C38_success_graph",
    "Verif.Params.C38_graph_succeeds",
    "Verif.Params.C38_duplicate_real",
    "Verif.Params.C38_duplicate_reported",
    "Verif.Params.C38_circular_real",
    "Verif.Params.C38_missing_real",
    "Verif.Params.C38_missing_name_false",
    "Verif.Params.C38_failure_real",
    "Verif.Params.C38_once",
    "Verif.Params.C38_order",
    "Verif.Params.C38_definition_order"
   ],
   "note": "Every list of builders. Success is characterised exactly by a least fixed point; for collections whose references have the type and phase offered this is the same as acyclic and complete (C38_graph_succeeds). Refuted: a parameter reported as missing may exist with another type."
  },
  {
   "property": "C39",
   "status": "partial",
   "theorems": [
    "Verif.Variables.C39_read_back",
    "Verif.Variables.C39_profile_effective",
    "Verif.Variables.C39_profile_partial",
    "Verif.Variables.C39_failed_no_change",
    "Verif.Variables.C39_success_accepted",
    "Verif.Variables.C39_others",
    "Verif.Variables.C39_takes",
    "Verif.Variables.C39_not_taken",
    "Verif.Variables.C39_all_is_each",
    "Verif.Variables.C39_order",
    "Verif.Variables.C39_unit_partial",
    "Verif.Variables.C39_read_back_refuted",
    "Verif.Variables.C39_constant_never",
    "Verif.Variables.C39_effect_refuted",
    "Verif.Variables.C39_offset_refuted"
   ],
   "note": "Reading refines a record of last accepted values for every history; failed sets change nothing; values of a kind the parameter does not take are errors for reading and setting; setting all scenarios at once is setting each in turn, and the order of sets of different parameters or scenarios does not matter; values set for radial basis profiles are used by all later steps. Refuted: values set for constants are never used, transformed values are read back transformed, offsets panic."
  },
  {
   "property": "C40",
   "status": "partial",
   "theorems": [
    "Verif.Params.C40_resolves_iff",
    "Verif.Params.C40_offers_sound",
    "Verif.Params.C40_never_uncomputed",
    "Verif.Params.C40_requested_partial",
    "Verif.Params.C40_every_step",
    "Verif.Params.C40_requested_false"
   ],
   "note": "Never an uncomputed value, in every step of every built collection. The phase requested is honoured except for integer references to constant and simple parameters (refuted there)."
  },
  {
   "property": "C41",
   "status": "partial",
   "theorems": [
    "Verif.Agg.C41_split",
    "Verif.Agg.C41_unique",
    "Verif.Agg.C41_days_partial",
    "Verif.Agg.C41_days_refuted"
   ],
   "note": "Proved in full, with uniqueness, for monthly and annual periods. For day counts the pieces partition the span but the periods restart at every value, so 'inside a single period' is refuted."
  },
  {
   "property": "C42",
   "status": "partial",
   "theorems": [
    "Verif.Agg.C42_records_partial",
    "Verif.Agg.C42_tiling",
    "Verif.Agg.C42_no_panic",
    "Verif.Agg.C42_panic_refuted",
    "Verif.Agg.C42_last_duration_refuted",
    "Verif.Agg.C42_sum_refuted",
    "Verif.Agg.C42_days_partial",
    "Verif.Agg.C42_days_refuted",
    "Verif.Agg.C42_no_frequency"
   ],
   "note": "Grouping, starts and values proved for values no longer than the shortest period. Refuted: the last record is short by its last value; values longer than a period panic; sums count a value on both sides of a boundary; day counts."
  },
  {
   "property": "C43",
   "status": "partial",
   "theorems": [
    "Verif.Agg.C43_nested_partial",
    "Verif.Agg.C43_lost_year_refuted",
    "Verif.Agg.C43_lost_month_refuted",
    "Verif.Agg.C43_single_step_refuted"
   ],
   "note": "Proved for months inside years when the outer period in which the run ends contains time from before the last inner period; refuted otherwise."
  },
  {
   "property": "C44",
   "status": "partial",
   "theorems": [
    "Verif.Agg.C44_overall",
    "Verif.Agg.C44_order",
    "Verif.Agg.C44_single",
    "Verif.Agg.C44_functions",
    "Verif.Agg.C44_single_refuted",
    "Verif.Agg.C44_mixed_refuted",
    "Verif.Agg.C44_empty_refuted"
   ],
   "note": "Order proved for sum, mean, min and max over data with at least one recorded period. Refuted: a single value is passed on without applying the function."
  },
  {
   "property": "C45",
   "status": "proved",
   "theorems": [
    "Verif.Run.C45_past_end",
    "Verif.Run.C45_not_past_end",
    "Verif.Run.C45_terminates",
    "Verif.Run.C45_run",
    "Verif.Run.C45_interrupted",
    "Verif.Run.C45_fuel",
    "Verif.Run.C45_error",
    "Verif.Run.C45_log"
   ],
   "note": "For every network (the computations of a step are parameters). Stepping past the end changes nothing."
  },
  {
   "property": "C46",
   "status": "proved",
   "theorems": [
    "Verif.Run.C46_step",
    "Verif.Run.C46_alone",
    "Verif.Run.C46_others",
    "Verif.Run.C46_parallel",
    "Verif.Run.C46_parallel_ends",
    "Verif.Run.C46_parallel_fails",
    "Verif.Run.C46_multi"
   ],
   "note": "All interleavings of the three computations of each scenario. That a scenario's computations touch only its own state is what the model assumes, from the types of the loop."
  },
  {
   "property": "C47",
   "status": "partial",
   "theorems": [
    "Verif.Run.C47_failed_partial",
    "Verif.Run.C47_not_atomic_refuted",
    "Verif.Run.C47_recorder_refuted"
   ],
   "note": "The timestep index and the later scenarios are unchanged; the earlier scenarios have been advanced, so the claim is refuted."
  },
  {
   "property": "C48",
   "status": "proved",
   "theorems": [
    "Verif.Multi.C48_accepts",
    "Verif.Multi.C48_delivered",
    "Verif.Multi.C48_run",
    "Verif.Multi.C48_initial_precedence"
   ],
   "note": ""
  },
  {
   "property": "C49",
   "status": "proved",
   "theorems": [
    "Verif.Topology.C49_build_iff",
    "Verif.Topology.C49_topology",
    "Verif.Topology.C49_edges_of_nodes"
   ],
   "note": ""
  },
  {
   "property": "C50",
   "status": "proved",
   "theorems": [
    "Verif.Agg.C50_values",
    "Verif.Agg.C50_order",
    "Verif.Agg.C50_mean_between",
    "Verif.Agg.C50_periods",
    "Verif.Agg.C50_weighted_between",
    "Verif.Agg.C50_equal_durations",
    "Verif.Agg.C50_period_order",
    "Verif.Agg.C50_integers",
    "Verif.Agg.C50_sum_overflow",
    "Verif.Agg.C50_product_overflow_refuted"
   ],
   "note": "Finite values of representable size; integer functions overflow exactly when the true result does, save for a product with a zero (refuted)."
  },
  {
   "property": "C51",
   "status": "partial",
   "theorems": [
    "Verif.Hydropower.C51_round_trip",
    "Verif.Hydropower.C51_power",
    "Verif.Hydropower.C51_limits",
    "Verif.Hydropower.C51_target_met",
    "Verif.Hydropower.C51_phases",
    "Verif.Hydropower.C51_limits_refuted"
   ],
   "note": "Round trip proved. Limits proved for min flow not above max flow and head above the minimum; refuted otherwise."
  },
  {
   "property": "C52",
   "status": "partial",
   "theorems": [
    "Verif.Time.C52_duration_string",
    "Verif.Time.C52_negative_duration_refuted",
    "Verif.Time.C52_whole_days"
   ],
   "note": "Proved for non-negative durations; refuted for negative ones."
  },
  {
   "property": "C53",
   "status": "partial",
   "theorems": [
    "Verif.State.C53_completed_partial",
    "Verif.State.C53_ipm_virtual_storage_refuted",
    "Verif.State.C53_solvers_differ_refuted"
   ],
   "note": "Holds for the solvers that complete the timestep; refuted for the interior point solvers."
  },
  {
   "property": "C54",
   "status": "partial",
   "theorems": [
    "Verif.Scenario.C54_combination_domain",
    "Verif.Scenario.C54_accepted",
    "Verif.Scenario.C54_out_of_range_accepted_refuted"
   ],
   "note": "All parts proved except rejection of out-of-range indices, which is refuted for groups without labels."
  },
  {
   "property": "C55",
   "status": "partial",
   "theorems": [
    "Verif.Scenario.C55_label_unique_partial",
    "Verif.Scenario.C55_label_not_unique_refuted"
   ],
   "note": "Proved for distinct labels without the separator; refuted otherwise."
  },
  {
   "property": "C56",
   "status": "proved",
   "theorems": [
    "Verif.Solver.C56_create",
    "Verif.Solver.C56_feasible",
    "Verif.Solver.C56_represented",
    "Verif.Solver.C56_defined"
   ],
   "note": "For models whose aggregated nodes have accepted factors meeting FactorsOk; C22 and C23 list what goes wrong otherwise. Bounds are cut at the largest numbers of the solver."
  },
  {
   "property": "C57",
   "status": "proved",
   "theorems": [
    "Verif.Profiles.C57_through_points",
    "Verif.Profiles.C57_dates",
    "Verif.Profiles.C57_variables",
    "Verif.Profiles.C57_day_bounds"
   ],
   "note": "For weights that solve the system; the linear solver is not modelled."
  },
  {
   "property": "C58",
   "status": "proved",
   "theorems": [
    "Verif.Profiles.C58_daily_accepts",
    "Verif.Profiles.C58_daily_leap",
    "Verif.Profiles.C58_daily_common",
    "Verif.Profiles.C58_diurnal"
   ],
   "note": ""
  },
  {
   "property": "C59",
   "status": "proved",
   "theorems": [
    "Verif.Params.C38_definition_order",
    "Verif.Params.C38_succeeds_iff"
   ],
   "note": ""
  },
  {
   "property": "C60",
   "status": "partial",
   "theorems": [
    "Verif.Simulation.C60_run",
    "Verif.Simulation.C60_setup",
    "Verif.Simulation.C60_least_cost",
    "Verif.Simulation.C60_rolling",
    "Verif.Simulation.C60_rolling_limit",
    "Verif.Simulation.C60_narrowing_refuted",
    "Verif.Simulation.C60_start_refuted",
    "Verif.Simulation.C60_longer_refuted"
   ],
   "note": "Induction over all runs, with the solver an arbitrary sound oracle. Exclusive aggregated nodes whose members have constant limits are included (through C86). Rolling licences included: they start full or are reset to their initial volume with steps of at most a day, and steps do not get longer. Refuted without the conditions: a licence whose maximum narrows below its volume, that starts above it, or that gets back the use of a day as that of a week, panics although the solver's answer satisfies its program."
  },
  {
   "property": "C61",
   "status": "proved",
   "theorems": [
    "Verif.Simulation.C61_balance"
   ],
   "note": "All runs as in C60, with exclusive groups and rolling licences."
  },
  {
   "property": "C62",
   "status": "proved",
   "theorems": [
    "Verif.Simulation.C62_completes"
   ],
   "note": "All runs meeting the conditions stated."
  },
  {
   "property": "C63",
   "status": "proved",
   "theorems": [
    "Verif.Variables.C63_apply",
    "Verif.Variables.C63_panics_iff",
    "Verif.Variables.C63_range",
    "Verif.Variables.C63_onto",
    "Verif.Variables.C63_onto_refuted",
    "Verif.Variables.C63_monotone",
    "Verif.Variables.C63_variables"
   ],
   "note": "The exponential of the logistic function is an arbitrary function."
  },
  {
   "property": "C64",
   "status": "proved",
   "theorems": [
    "Verif.Schema.C64_validate_iff",
    "Verif.Schema.C64_validate_error",
    "Verif.Schema.C64_validate_total"
   ],
   "note": ""
  },
  {
   "property": "C65",
   "status": "proved",
   "theorems": [
    "Verif.Schema.C65_through",
    "Verif.Schema.C65_lossy",
    "Verif.Schema.C65_source",
    "Verif.Schema.C65_sink",
    "Verif.Schema.C65_storage",
    "Verif.Schema.C65_reservoir",
    "Verif.Schema.C65_pieces",
    "Verif.Schema.C65_routed"
   ],
   "note": "For every network that compiles and builds and every allowed flow of a step (Allowed is the specification that C20 and C56 prove the solver's programs equivalent to)."
  },
  {
   "property": "C66",
   "status": "partial",
   "theorems": [
    "Verif.Schema.C66_inflow",
    "Verif.Schema.C66_outflow",
    "Verif.Schema.C66_abstraction",
    "Verif.Schema.C66_compensation",
    "Verif.Schema.C66_edge",
    "Verif.Schema.C66_river_outflow_refuted",
    "Verif.Schema.C66_river_outflow_case",
    "Verif.Schema.C66_rainfall_refuted",
    "Verif.Schema.C66_rainfall_case",
    "Verif.Schema.C66_evaporation_refuted"
   ],
   "note": "Refuted: a river with routing and a loss reports as outflow the flow before the loss; a reservoir reports a rainfall of 0 whatever it is, and its evaporation names a node that does not exist."
  },
  {
   "property": "C67",
   "status": "proved",
   "theorems": [
    "Verif.Schema.C65_lossy",
    "Verif.Schema.C65_routed"
   ],
   "note": "The law of losses is the last part of C65_lossy, and of C65_routed for rivers with routing."
  },
  {
   "property": "C68",
   "status": "partial",
   "theorems": [
    "Verif.Schema.C68_input",
    "Verif.Schema.C68_output",
    "Verif.Schema.C68_catchment",
    "Verif.Schema.C68_link",
    "Verif.Schema.C68_net",
    "Verif.Schema.C68_abstraction",
    "Verif.Schema.C68_pieceLink",
    "Verif.Schema.C68_turbine",
    "Verif.Schema.C68_soft_max_refuted",
    "Verif.Schema.C68_max_flow_refuted",
    "Verif.Schema.C68_gauge_refuted"
   ],
   "note": "Refuted: a link with both soft constraints ignores its largest flow and treats its soft maximum as a hard one; the cost of a gauge's bypass acts as its least flow."
  },
  {
   "property": "C69",
   "status": "partial",
   "theorems": [
    "Verif.Schema.C69_component",
    "Verif.Schema.C69_aggregated"
   ],
   "note": "All components but the outflow of rivers with both routing and a loss, for which C66_river_outflow_refuted shows that another flow is meant. Exclusivity is the subject of C21."
  },
  {
   "property": "C70",
   "status": "partial",
   "theorems": [
    "Verif.Schema.C70_use",
    "Verif.Schema.C70_factors_partial",
    "Verif.Schema.C70_factors_refuted",
    "Verif.Schema.C70_cost_refuted",
    "Verif.Schema.C70_parameters_refuted"
   ],
   "note": "With factors proved for components of one core node; refuted otherwise (factors are paired with core nodes). Refuted: the cost of a virtual storage has no effect, parameters defined on virtual nodes are never added."
  },
  {
   "property": "C71",
   "status": "proved",
   "theorems": [
    "Verif.Schema.C71_sizes",
    "Verif.Schema.C71_least",
    "Verif.Schema.C71_initial",
    "Verif.Schema.C71_range",
    "Verif.Schema.C71_volume"
   ],
   "note": "Values of the generated parameters are those computed by their definitions (Computed)."
  },
  {
   "property": "C72",
   "status": "partial",
   "theorems": [
    "Verif.Schema.C72_outflow",
    "Verif.Schema.C72_inflow",
    "Verif.Schema.C72_outputs_refuted",
    "Verif.Schema.C72_volume"
   ],
   "note": "Proved for components leaving (outflow) or entering (inflow) their nodes. Refuted: by default 0 is reported for an aggregated node of outputs, whatever they receive."
  },
  {
   "property": "C73",
   "status": "partial",
   "theorems": [
    "Verif.Agg.C73_dates",
    "Verif.Agg.C73_memory",
    "Verif.Agg.C73_frame",
    "Verif.Agg.C73_wide",
    "Verif.Agg.C73_long",
    "Verif.Agg.C73_period",
    "Verif.Agg.C73_places",
    "Verif.Agg.C73_hundredths",
    "Verif.Agg.C73_metric_set_refuted",
    "Verif.Agg.C73_empty_refuted",
    "Verif.Agg.C73_wide_values_refuted"
   ],
   "note": "Proved for all runs but for three parts that are refuted: the data frame of a memory recorder names the recorder in its metric_set column, a metric set without metrics makes memory and wide recorders panic, and the wide file keeps two decimals only."
  },
  {
   "property": "C74",
   "status": "proved",
   "theorems": [
    "Verif.Solver.C74_solved",
    "Verif.Solver.C74_no_bargain",
    "Verif.Solver.C74_serve",
    "Verif.Solver.C74_bottleneck",
    "Verif.Solver.C74_no_loss",
    "Verif.Solver.C74_reroute",
    "Verif.Solver.C74_merit_order",
    "Verif.Solver.C74_merit_order_room",
    "Verif.Simulation.C74_run"
   ],
   "note": "Solver assumed to return an optimum of the program it is given (as in C20, C60); flows strictly within the largest numbers of the solver. Networks without exclusivity."
  },
  {
   "property": "C75",
   "status": "proved",
   "theorems": [
    "Verif.Schema.C75_piecewise_link",
    "Verif.Schema.C75_piecewise_fill",
    "Verif.Schema.C75_gauge",
    "Verif.Schema.C75_soft_min",
    "Verif.Schema.C75_soft_max",
    "Verif.Schema.C75_soft_both",
    "Verif.Schema.C75_soft_both_order",
    "Verif.Schema.C75_works",
    "Verif.Schema.C75_abstraction"
   ],
   "note": "With both soft limits on a link the lane of the soft maximum is never used when dearer, as the link's own lane has no limit. Solver assumed to return an optimum. Virtual storages with a list of factors that refer to the node are excluded (the list is misaligned with the lanes, C70)."
  },
  {
   "property": "C76",
   "status": "proved",
   "theorems": [
    "Verif.Params.C76_form",
    "Verif.Params.C76_refused",
    "Verif.Params.C76_run",
    "Verif.Params.C76_fails",
    "Verif.Params.C76_unique",
    "Verif.Params.C76_builds_iff",
    "Verif.Params.C76_order",
    "Verif.Params.C76_extra"
   ],
   "note": "Formulas of parameters, behaviour of nodes and the solver are arbitrary partial functions; nodes are resolved for the phase before and read simple metrics at the start of a step. Well-formed builders (those of the code base) as in C38."
  },
  {
   "property": "C77",
   "status": "proved",
   "theorems": [
    "Verif.IpmLp.C77_create",
    "Verif.IpmLp.C77_matrix",
    "Verif.IpmLp.C77_update",
    "Verif.IpmLp.C77_program",
    "Verif.IpmLp.C77_represented",
    "Verif.IpmLp.C77_objective",
    "Verif.IpmLp.C77_optimal",
    "Verif.IpmLp.C77_allowed",
    "Verif.IpmLp.C77_features",
    "Verif.IpmLp.C77_minimum_refuted"
   ],
   "note": "Limits are cut off at 999999. Minimum flows are not part of the program although no feature is asked for them (C77_minimum_refuted)."
  },
  {
   "property": "C78",
   "status": "proved",
   "theorems": [
    "Verif.Ipm.C78_setup",
    "Verif.Ipm.C78_empty_row_refuted",
    "Verif.Ipm.C78_factor",
    "Verif.Ipm.C78_pivots",
    "Verif.Ipm.C78_solves",
    "Verif.Ipm.C78_unique"
   ],
   "note": "Over any ordered field with a square root (rounding is not modelled). An empty first row makes the setup panic; dependent equality rows give a zero pivot (C78_pivots is an equivalence)."
  },
  {
   "property": "C79",
   "status": "proved",
   "theorems": [
    "Verif.Ipm.C79_inside",
    "Verif.Ipm.C79_step",
    "Verif.Ipm.C79_finished",
    "Verif.Ipm.C79_shrinks"
   ],
   "note": "Exact arithmetic. That the iterations end is not claimed."
  },
  {
   "property": "C80",
   "status": "proved",
   "theorems": [
    "Verif.Ipm.C80_returned",
    "Verif.Ipm.C80_certificate"
   ],
   "note": "Exact arithmetic. The bound on what can be gained contains the length of the multipliers, which are not returned."
  },
  {
   "property": "C81",
   "status": "proved",
   "theorems": [
    "Verif.Ipm.C81_group",
    "Verif.Ipm.C81_padding",
    "Verif.Ipm.C81_leftovers"
   ],
   "note": "Exact arithmetic; the code's NaN panic is left out. Leftovers in work arrays: for matrices without empty rows and with independent equality rows."
  },
  {
   "property": "C82",
   "status": "proved",
   "theorems": [
    "Verif.IpmLp.C82_setup",
    "Verif.IpmLp.C82_independent",
    "Verif.IpmLp.C82_pivots",
    "Verif.IpmLp.C82_ring_refuted"
   ],
   "note": "A link with one edge in and one out that is joined to links only is left open: its row can be empty. C82_ring_refuted shows a network where a pivot is zero."
  },
  {
   "property": "C83",
   "status": "proved",
   "theorems": [
    "Verif.Coupled.C83_run",
    "Verif.Coupled.C83_fails",
    "Verif.Coupled.C83_reads",
    "Verif.Coupled.C83_proportion",
    "Verif.Coupled.C83_carried",
    "Verif.Coupled.C83_limits",
    "Verif.Coupled.C83_deficit",
    "Verif.Coupled.C83_proportion_refuted"
   ],
   "note": "Equivalence between the report of a run and histories of parameters and simulation, for any values of parameters and any calculations. For maximum flows that do not refer to values calculated after the allocation; they are seen after the allocation only. C83_deficit: for members of exclusive aggregated nodes if the maximum is not negative. C83_proportion_refuted: before an allocation the proportional volume refers to the maximum of the step before."
  },
  {
   "property": "C84",
   "status": "partial",
   "theorems": [
    "Verif.Tables.C84_loads_partial",
    "Verif.Tables.C84_repeated_partial",
    "Verif.Tables.C84_scalar_partial",
    "Verif.Tables.C84_refused_partial",
    "Verif.Tables.C84_reference",
    "Verif.Tables.C84_index_partial",
    "Verif.Tables.C84_array_loads",
    "Verif.Tables.C84_array_row",
    "Verif.Tables.C84_array_col",
    "Verif.Tables.C84_kinds",
    "Verif.Tables.C84_collection",
    "Verif.Tables.C84_labels_refuted",
    "Verif.Tables.C84_no_column_refuted",
    "Verif.Tables.C84_no_row_refuted",
    "Verif.Tables.C84_index_refuted"
   ],
   "note": "Tables of single values for up to two labels of each kind (three and four are refused by the code, C84_labels_refuted), tables of arrays for up to four. Files without values make loading panic. Indices below 2^64 (C84_index_refuted)."
  },
  {
   "property": "C85",
   "status": "partial",
   "theorems": [
    "Verif.Timeseries.C85_loads",
    "Verif.Timeseries.C85_rows",
    "Verif.Timeseries.C85_same",
    "Verif.Timeseries.C85_finer",
    "Verif.Timeseries.C85_coarser_partial",
    "Verif.Timeseries.C85_even",
    "Verif.Timeseries.C85_columns",
    "Verif.Timeseries.C85_collection",
    "Verif.Timeseries.C85_references_partial",
    "Verif.Timeseries.C85_step",
    "Verif.Timeseries.C85_uneven_refuted",
    "Verif.Timeseries.C85_gaps_refuted",
    "Verif.Timeseries.C85_monthly_refuted",
    "Verif.Timeseries.C85_names_refuted"
   ],
   "note": "For steps of equal length (months are refuted, C85_monthly_refuted); coarser series if their gap is a multiple of the step (otherwise refuted, C85_gaps_refuted); references whose names do not collide (C85_names_refuted). polars is modelled by its documentation."
  },
  {
   "property": "C86",
   "status": "proved",
   "theorems": [
    "Verif.Solver.C86_create",
    "Verif.Solver.C86_sound",
    "Verif.Solver.C86_represented",
    "Verif.Solver.C86_defined",
    "Verif.Solver.C86_optimal",
    "Verif.Solver.C86_order",
    "Verif.Solver.C86_plain"
   ],
   "note": "By refinement: the program with binaries and the program of the same network without exclusivity, with unlimited members, are created and updated side by side (Lemmas/ChoiceTwin), so C56 carries over. Members have constant limits, as in the statement; for varying limits C21_varying_refuted. The limits of the program (f64::MAX) are at least one million."
  },
  {
   "property": "C87",
   "status": "proved",
   "theorems": [
    "Verif.Kinds.C87_run",
    "Verif.Kinds.C87_fails",
    "Verif.Kinds.C87_unique",
    "Verif.Kinds.C87_offset",
    "Verif.Kinds.C87_vector",
    "Verif.Kinds.C87_delay_zero",
    "Verif.Kinds.C87_delays_add",
    "Verif.Kinds.C87_between"
   ],
   "note": "On top of C76, with the calculations and the internal states of the code; the states are eliminated by invariants over the steps. Arrays and profiles are functions of the step, control curves and hydropower arbitrary functions of what their metrics return. The offset parameter unwraps a state that is never set up and panics in every run, which C87_offset proves."
  },
  {
   "property": "C88",
   "status": "proved",
   "theorems": [
    "Verif.Coupled.C88_run",
    "Verif.Coupled.C88_fails",
    "Verif.Coupled.C88_unique",
    "Verif.Coupled.C88_limits",
    "Verif.Coupled.C88_return_flow",
    "Verif.Coupled.C88_deficit",
    "Verif.Coupled.C88_restriction",
    "Verif.Coupled.C88_curve"
   ],
   "note": "C83 with the types of C87. Parameters with several values are left out here (they are part of C83). C88_limits and what follows from it need the conditions of C60 on the inputs of the simulation (sound solver, licences that do not narrow)."
  },
  {
   "property": "C89",
   "status": "partial",
   "theorems": [
    "Verif.V1.C89_stops",
    "Verif.V1.C89_nodes",
    "Verif.V1.C89_edges",
    "Verif.V1.C89_parameters",
    "Verif.V1.C89_errors",
    "Verif.V1.C89_virtual",
    "Verif.V1.C89_one_stops_all_refuted"
   ],
   "note": "Equivalences for all networks in which nothing is of a type that is not implemented. Refuted without that: one such node or parameter ends the whole conversion and nothing is reported. Recorders of old networks are dropped without a report and are not modelled."
  },
  {
   "property": "C90",
   "status": "partial",
   "theorems": [
    "Verif.V1.C90_means_partial",
    "Verif.V1.C90_curves",
    "Verif.V1.C90_unaware",
    "Verif.V1.C90_virtual_frame_refuted",
    "Verif.V1.C90_index_frame_refuted",
    "Verif.V1.C90_virtual_storage_refuted",
    "Verif.V1.C90_same_series_refuted"
   ],
   "note": "For networks with distinct names whose virtual nodes and indices do not refer to data frames and whose thresholds do not refer to virtual storages; each condition is needed (refuted without it)."
  },
  {
   "property": "C91",
   "status": "partial",
   "theorems": [
    "Verif.V1.C91_timeseries",
    "Verif.V1.C91_unique_partial",
    "Verif.V1.C91_node_and_parameter_refuted",
    "Verif.V1.C91_curve_refuted",
    "Verif.V1.C91_unnamed_refuted"
   ],
   "note": "For networks whose written names are distinct and not of the made-up form. Refuted for a node and a parameter of one name, for control curves without values (converted twice) and for nodes' parameters without metadata."
  },
  {
   "property": "C92",
   "status": "partial",
   "theorems": [
    "Verif.Scenario.C92_members_partial",
    "Verif.Scenario.C92_accepted",
    "Verif.Scenario.C92_combinations",
    "Verif.Scenario.C92_reported",
    "Verif.Scenario.C92_end_only_refuted",
    "Verif.Scenario.C92_slice_and_combinations_refuted",
    "Verif.Schema.C92_split_partial",
    "Verif.Schema.C92_splits_refuted"
   ],
   "note": "Members and combinations for all sizes, slices and steps, down to the scenarios that are simulated. Refuted: a slice that consists of an end only is ignored; a slice together with combinations is converted to a model that cannot be built; with two or more splits each gets less than in the old model (proved for all factors and flows)."
  },
  {
   "property": "C93",
   "status": "partial",
   "theorems": [
    "Verif.Schema.C93_slot",
    "Verif.Schema.C93_share",
    "Verif.Schema.C93_several_refuted",
    "Verif.Schema.C93_two_case"
   ],
   "note": "The bound holds for any number of splits. With several splits the part is not the factor: C93_share gives the exact part and C93_several_refuted proves it is always smaller."
  },
  {
   "property": "C94",
   "status": "partial",
   "theorems": [
    "Verif.Backends.C94_held",
    "Verif.Backends.C94_allocation",
    "Verif.Backends.C94_microlp",
    "Verif.Backends.C94_clamp_refuted",
    "Verif.Backends.C94_cbc_refuted"
   ],
   "note": "Proved for all sequences of steps and networks whose exclusive members have constant limits (the rest is refuted in C21), for HiGHS with factors up to 10^10. Refuted beyond: HiGHS gets larger varying coefficients cut off (C94_clamp_refuted), and Cbc accepts networks with exclusive members of varying limits but fails in the first step (C94_cbc_refuted). The libraries' setters are modelled by their documentation."
  },
  {
   "property": "C95",
   "status": "partial",
   "theorems": [
    "Verif.Backends.C95_clp",
    "Verif.Backends.C95_highs",
    "Verif.Backends.C95_microlp",
    "Verif.Backends.C95_cbc_partial",
    "Verif.Backends.C95_best",
    "Verif.Backends.C95_microlp_best",
    "Verif.Backends.C95_cbc_refuted"
   ],
   "note": "Proved for Clp, HiGHS and Microlp, given that what a library reports as optimal is so. Cbc is only asked for its return code: C95_cbc_refuted returns flows for a program without solution. Flows of Cbc below 10^-10 are set to zero, so C95_cbc_partial gives them up to that."
  },
  {
   "property": "C96",
   "status": "partial",
   "theorems": [
    "Verif.Load.C96_run_partial",
    "Verif.Load.Cases.C97_deficit_captured",
    "Verif.Load.Cases.C97_series_captured",
    "Verif.Load.Cases.C97_column_captured"
   ],
   "note": "Proved for all documents whose names keep apart (Doc.Apart): no node parameter called deficit, no node called like a series, no scenario group called like a column, no parameters on virtual nodes, no multi-threshold without returned values inside a node. Refuted without: C97_*_captured. Exactness of the values, not of success: which documents load is C97, which build and run is C76/C87. Python, RBF, hydropower and HDF5 arrays left out."
  },
  {
   "property": "C97",
   "status": "partial",
   "theorems": [
    "Verif.Load.C97_loads",
    "Verif.EndToEnd.C97_index_of_node",
    "Verif.Load.Cases.C97_deficit_captured",
    "Verif.Load.Cases.C97_series_captured",
    "Verif.Load.Cases.C97_column_captured",
    "Verif.Load.Cases.C97_deficit_series",
    "Verif.Load.Cases.C97_local_refuted",
    "Verif.Load.Cases.C97_multi_refuted",
    "Verif.Load.Cases.C97_threshold_refuted",
    "Verif.Load.Cases.C97_virtual_refuted",
    "Verif.Load.Cases.C97_outputs_refuted"
   ],
   "note": "C97_loads is an equivalence for all documents; its condition shows that references to parameters of the own node are understood in some places only, which is the refuted half of the statement (C97_local_refuted and others)."
  },
  {
   "property": "C98",
   "status": "partial",
   "theorems": [
    "Verif.Hdf.C98_file",
    "Verif.Hdf.C98_accepts",
    "Verif.Hdf.C98_plain",
    "Verif.Hdf.C98_links",
    "Verif.Hdf.C98_columns_partial",
    "Verif.Hdf.Cases.C98_aggregation_refuted",
    "Verif.Hdf.Cases.C98_names_refuted",
    "Verif.Hdf.Cases.C98_subset_refuted"
   ],
   "note": "Contents of the file and the exact condition on names are proved for all runs. Refuted: aggregation of the metric set is ignored, some names stop the run, and with subsets the tables do not tell the scenario of a column. The behaviour of the HDF5 library (paths, groups on the way, writing rows) is modelled, not verified."
  },
  {
   "property": "C99",
   "status": "partial",
   "theorems": [
    "Verif.EndToEnd.C99_run_partial",
    "Verif.EndToEnd.C99_input",
    "Verif.EndToEnd.C99_output",
    "Verif.EndToEnd.C99_link",
    "Verif.EndToEnd.C99_catchment",
    "Verif.EndToEnd.C99_inflow",
    "Verif.EndToEnd.C99_outflow",
    "Verif.EndToEnd.C99_edge",
    "Verif.EndToEnd.C99_deficit",
    "Verif.EndToEnd.C99_storage",
    "Verif.EndToEnd.C99_bounds",
    "Verif.EndToEnd.C99_capacity",
    "Verif.EndToEnd.C99_delay",
    "Verif.EndToEnd.C99_demand",
    "Verif.EndToEnd.C99_licence",
    "Verif.EndToEnd.C99_budget",
    "Verif.EndToEnd.C99_group",
    "Verif.EndToEnd.C99_group_outflow",
    "Verif.EndToEnd.C99_group_inflow",
    "Verif.EndToEnd.C99_group_outputs_refuted",
    "Verif.EndToEnd.C99_stores",
    "Verif.EndToEnd.C99_pieces",
    "Verif.EndToEnd.C99_made",
    "Verif.EndToEnd.C99_series",
    "Verif.EndToEnd.C99_series_scenario",
    "Verif.EndToEnd.C99_table",
    "Verif.EndToEnd.C99_profile",
    "Verif.EndToEnd.C99_scenario",
    "Verif.EndToEnd.C99_choice"
   ],
   "note": "Proved for all documents that Fit: names apart (C96), no exclusive members and factors accepted (C56), licences with constant bounds; without these conditions the statement is refuted as shown with C21, C60, C86 and C97. Bounds of volumes may be parameters known at the start of a step; C99_bounds: others stop the run. Links without soft minimum. Factors of licences if each reference means a single core node (C70 refutes the rest). Metrics of aggregated nodes if the flows of their members all enter or all leave; C99_group_outputs_refuted: the default metric of an aggregated node of outputs is always 0. Piecewise storages if the document lists the parameters they make (C99_made). Power of turbines left out."
  }
 ]
}
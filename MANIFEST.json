{"claims": [
 {"property": "C01", "status": "proved", "theorems": ["MrHyDE.Expr.C01_evaluation"], "note": "Text to value, end to end: split, classification, 100-pass decomposition, flags, constant folding, any history of evaluations.  Numbers are an abstract arithmetic; hypotheses of Program.Ok exclude the disagreements listed in DESIGN.md."},
 {"property": "C02", "status": "proved", "theorems": ["MrHyDE.Expr.C02_leading_minus"], "note": "Every sum with a leading minus, every history of evaluations."},
 {"property": "C03", "status": "partial", "theorems": ["MrHyDE.Expr.C03_unsigned_exponent_partial", "MrHyDE.Expr.C03_signed_exponent_is_cut", "MrHyDE.Expr.C03_violated", "MrHyDE.Expr.C03_number_syntax"], "note": "The code violates the property: a signed exponent is cut at its sign.  Proved for unsigned exponents."},
 {"property": "C04", "status": "proved", "theorems": ["MrHyDE.Expr.C04_unbalanced_rejected"], "note": "Every text, every surrounding set of functions."},
 {"property": "C05", "status": "proved", "theorems": ["MrHyDE.Dag.C05_cycle_error_iff"], "note": "Decision procedure of checkDepDataType over any finite dependency graph."},
 {"property": "C06", "status": "proved", "theorems": ["MrHyDE.Dag.C06_flags_exact"], "note": "Flags equal the reachability specification."},
 {"property": "C07", "status": "proved", "theorems": ["MrHyDE.Registry.C07_first_registration_wins", "MrHyDE.Registry.C07_index"], "note": "Any history of registrations over any distinct locations."},
 {"property": "C08", "status": "partial", "theorems": ["MrHyDE.Expr.C08_emax_emin_partial", "MrHyDE.Expr.C08_emean_partial", "MrHyDE.Expr.C08_emax_exact", "MrHyDE.Expr.C08_emax_violated", "MrHyDE.Expr.C08_emin_violated", "MrHyDE.Expr.C08_emean_violated"], "note": "The code violates the property for three or more points (emax, emin) and for a non-zero first value (emean)."},
 {"property": "C09", "status": "partial", "theorems": ["MrHyDE.Storage.C09_extract_latest_partial", "MrHyDE.Storage.C09_read_back_partial", "MrHyDE.Storage.C09_by_position", "MrHyDE.Storage.C09_negative_time_violated", "MrHyDE.Storage.C09_index_gap_violated"], "note": "Round trip proved for the times and tolerances stated; fails for negative times and index gaps (proved negations)."},
 {"property": "C10", "status": "partial", "theorems": ["MrHyDE.Storage.C10_neighbours_partial", "MrHyDE.Storage.C10_ends_violated", "MrHyDE.Storage.C10_time_zero_violated", "MrHyDE.Storage.C10_extractLast"], "note": "Neighbours proved for interior times; the ends and time zero violate the property (proved negations)."},
 {"property": "C11", "status": "partial", "theorems": ["MrHyDE.Database.C11_compressed_agrees", "MrHyDE.Database.C11_database_read", "MrHyDE.Database.C11_size_violated"], "note": "All reads and extents agree; size() of a keyed view counts elements only (proved negation)."},
 {"property": "C12", "status": "partial", "theorems": ["MrHyDE.Views.C12_sparse_exact", "MrHyDE.Views.C12_sparse_product", "MrHyDE.Views.C12_device_violated"], "note": "Proved where the host mirror shares memory; on separate device memory the row counts are never copied and the view is empty (proved negation)."},
 {"property": "C13", "status": "partial", "theorems": ["MrHyDE.Views.C13_grid1_partial", "MrHyDE.Views.C13_grid2_partial", "MrHyDE.Views.C13_grid3_partial", "MrHyDE.Views.C13_far_violated", "MrHyDE.Views.C13_scattered_partial", "MrHyDE.Views.C13_scattered_violated"], "note": "Grid lookup proved when some node lies within sqrt(RAND_MAX) on each axis; fails beyond it. Scattered lookup relies on the external neighbour search and on each list being non-empty."},
 {"property": "C14", "status": "proved", "theorems": ["MrHyDE.UQ.C14_exact_cover", "MrHyDE.UQ.C14_samples"], "note": ""},
 {"property": "C15", "status": "partial", "theorems": ["MrHyDE.UQ.C15_split_partial", "MrHyDE.UQ.C15_default", "MrHyDE.UQ.C15_indivisible_violated", "MrHyDE.UQ.C15_multiscale_violated"], "note": "Proved for divisible sizes and the default split; fails for other sizes and for the multiscale split (proved negations)."},
 {"property": "C16", "status": "partial", "theorems": ["MrHyDE.UQ.C16_mean", "MrHyDE.UQ.C16_variance_partial", "MrHyDE.UQ.C16_variance_unbiased", "MrHyDE.UQ.C16_probability", "MrHyDE.UQ.C16_variance_violated", "MrHyDE.UQ.C16_less_than_violated"], "note": "The reported variance divides by the number of samples, and the level itself counts as below (proved negations)."},
 {"property": "C17", "status": "partial", "theorems": ["MrHyDE.UQ.C17_distinct_partial", "MrHyDE.UQ.C17_infinite_violated", "MrHyDE.UQ.C17_not_a_root_violated"], "note": "Distinctness needs a derivative that does not vanish at an iterate."},
 {"property": "C18", "status": "partial", "theorems": ["MrHyDE.Workset.C18_plain_names_partial", "MrHyDE.Workset.C18_time_violated", "MrHyDE.Workset.C18_curl_violated", "MrHyDE.Workset.C18_grad_violated", "MrHyDE.Workset.C18_stale_violated", "MrHyDE.Workset.C18_value_violated"], "note": "Proved for every name free of grad, div, curl, _t and brackets. Violated otherwise: every quantity of a variable whose name contains _t is treated as a time derivative (in a steady run its value is never computed), names containing grad/div/curl are evaluated with the wrong tables."},
 {"property": "C19", "status": "proved", "theorems": ["MrHyDE.Time.C19", "MrHyDE.Time.C19_other_orders_violated"], "note": "All polynomials of degree at most the order, all times and steps; orders outside 1..6 are accepted silently and give a zero derivative."},
 {"property": "C20", "status": "partial", "theorems": ["MrHyDE.Time.C20_partial", "MrHyDE.Time.C20_unknown_names", "MrHyDE.Time.C20_dirk33_formula", "MrHyDE.Time.C20_dirk33_partial", "MrHyDE.Time.C20_dirk33_violated", "MrHyDE.Time.C20_leapfrog_violated"], "note": "Holds for nine names; \"leap-frog\" is not consistent; \"DIRK-3,3\" only up to 1e-11 because its constant is rounded to ten digits."},
 {"property": "C21", "status": "partial", "theorems": ["MrHyDE.Time.C21", "MrHyDE.Time.builtin_dirk", "MrHyDE.Time.C21_explicit", "MrHyDE.Time.C21_explicit_violated"], "note": "Proved for all explicit and diagonally implicit tableaux with non-zero weights and all problems; the explicit solver does not check that the tableau is explicit."},
 {"property": "C22", "status": "proved", "theorems": ["MrHyDE.Time.C22", "MrHyDE.Time.C22_close", "MrHyDE.Time.C22_failures", "MrHyDE.Time.C22_failures_violated"], "note": "All times and steps over any Archimedean ordered field; also termination for every pattern of failures."},
 {"property": "C23", "status": "partial", "theorems": ["MrHyDE.Time.C23_no_failures_partial", "MrHyDE.Time.C23_one_slot_partial", "MrHyDE.Time.C23_violated", "MrHyDE.Time.C23_startup_violated"], "note": "Holds without failed steps or with one slot; after a failed step the older slots are shifted once too often."},
 {"property": "C24", "status": "partial", "theorems": ["MrHyDE.Solver.C24_terminates_partial", "MrHyDE.Solver.C24_converged_partial", "MrHyDE.Solver.C24_status_violated", "MrHyDE.Solver.C24_violated", "MrHyDE.Solver.C24_ranks_violated"], "note": "Terminates and is right when it leaves through the test; failure is never reported."},
 {"property": "C25", "status": "proved", "theorems": ["MrHyDE.Solver.C25", "MrHyDE.Solver.C25_run"], "note": ""},
 {"property": "C26", "status": "proved", "theorems": ["MrHyDE.Solver.C26", "MrHyDE.Solver.C26_spd", "MrHyDE.Solver.C26_solves", "MrHyDE.Solver.C26_indefinite_violated"], "note": "True residual for all operators; no breakdown and at most n iterations for symmetric positive definite operators."},
 {"property": "C27", "status": "partial", "theorems": ["MrHyDE.Param.C27_table", "MrHyDE.Param.C27_partial", "MrHyDE.Param.C27_at", "MrHyDE.Param.C27_violated", "MrHyDE.Param.C27_flat_violated", "MrHyDE.Param.C27_usage_partial", "MrHyDE.Param.C27_unknown_word", "MrHyDE.Param.C27_states"], "note": "Round trip proved when every parameter has a recognised usage; an unrecognised usage string is accepted silently and misaligns the tables; the flat reading concatenates all times of dynamic parameters."},
 {"property": "C28", "status": "proved", "theorems": ["MrHyDE.Param.C28", "MrHyDE.Param.C28_unseeded", "MrHyDE.Param.C28_few_slots"], "note": ""},
 {"property": "C29", "status": "partial", "theorems": ["MrHyDE.Param.C29_partial", "MrHyDE.Param.C29_zero", "MrHyDE.Param.C29_violated", "MrHyDE.Param.C29_violated_concrete"], "note": "Derivative exact except at the last stored time, where the code gives zero."},
 {"property": "C30", "status": "partial", "theorems": ["MrHyDE.Opt.C30_entrywise", "MrHyDE.Opt.C30_symm", "MrHyDE.Opt.C30_bilinear", "MrHyDE.Opt.C30_positive", "MrHyDE.Opt.C30_norm", "MrHyDE.Opt.C30_clone", "MrHyDE.Opt.C30_mass_violated", "MrHyDE.Opt.C30_clone_violated"], "note": "All laws proved when a diagonal or no mass is given and both vectors share the metric; a mass matrix without diagonal gives a zero field product, and a clone loses the duality scale (both only reachable through the constructors)."},
 {"property": "C31", "status": "partial", "theorems": ["MrHyDE.Opt.C31_partial", "MrHyDE.Opt.C31_value", "MrHyDE.Opt.C31_initial_violated", "MrHyDE.Opt.C31_mass_violated"], "note": "Holds up to the code's tolerance once a value was requested since data were last generated; a gradient at the initial parameters first uses no (or the data-generating) forward solution."},
 {"property": "C32", "status": "partial", "theorems": ["MrHyDE.Opt.C32_partial", "MrHyDE.Opt.C32_new", "MrHyDE.Opt.C32_violated", "MrHyDE.Opt.C32_first_violated", "MrHyDE.Opt.C32_close_violated"], "note": "Holds after the values of all samples at the point; a gradient at a new point for one sample makes later gradients for other samples use old solutions."},
 {"property": "C33", "status": "partial", "theorems": ["MrHyDE.Assembly.C33_cover_partial", "MrHyDE.Assembly.C33_requested_size", "MrHyDE.Assembly.C33_same_signature_partial", "MrHyDE.Assembly.C33_zero_size_never_ends", "MrHyDE.Assembly.C33_other_modes_fail", "MrHyDE.Assembly.C33_foreign_number_fails"], "note": "positive group size and the mode sorting by signature or none; size zero never ends, other modes and foreign numbers fail"},
 {"property": "C34", "status": "proved", "theorems": ["MrHyDE.Assembly.C34_boundary_cover"], "note": "every boundary element side lands in exactly one boundary group of its block and side set"},
 {"property": "C35", "status": "partial", "theorems": ["MrHyDE.Assembly.C35_sums_partial", "MrHyDE.Assembly.C35_order_independent_partial", "MrHyDE.Assembly.C35_atomics_needed", "MrHyDE.Assembly.C35_narrow_block_undefined"], "note": "exact sums; undefined for blocks narrower than the table of local numbers (proved)"},
 {"property": "C36", "status": "partial", "theorems": ["MrHyDE.Assembly.C36_identity_row_partial", "MrHyDE.Assembly.C36_free_rows", "MrHyDE.Assembly.C36_weak_option_empty_row", "MrHyDE.Assembly.C36_point_residual", "MrHyDE.Assembly.C36_second_set_residual"], "note": "holds for strong conditions; false for weak option with listed dofs, point constraints, second physics set in second path (all proved)"},
 {"property": "C37", "status": "partial", "theorems": ["MrHyDE.Assembly.C37_lumped_partial", "MrHyDE.Assembly.C37_second_path_not_lumped"], "note": "first path; the second path ignores the option"},
 {"property": "C38", "status": "partial", "theorems": ["MrHyDE.Assembly.Gather.C38_gather", "MrHyDE.Assembly.Gather.C38_gather_steady", "MrHyDE.Assembly.Gather.C38_out_of_range", "MrHyDE.Assembly.Gather.C38_coefficients_partial", "MrHyDE.Assembly.Gather.C38_other_set_derivative"], "note": "gathered values are those of the vectors; false for the time derivative of sets not being solved"},
 {"property": "C39", "status": "proved", "theorems": ["MrHyDE.Database.C39_volumetric", "MrHyDE.Database.C39_boundary", "MrHyDE.Database.C39_boundary_minimal", "MrHyDE.Database.C39_volumetric_minimal"], "note": ""},
 {"property": "C40", "status": "partial", "theorems": ["MrHyDE.Multiscale.C40_majority", "MrHyDE.Multiscale.C40_own_block_partial", "MrHyDE.Multiscale.C40_usage_partial", "MrHyDE.Multiscale.C40_no_votes_last_model", "MrHyDE.Multiscale.C40_predicted_partial", "MrHyDE.Multiscale.C40_short_group_shifts", "MrHyDE.Multiscale.C40_single_model_undefined", "MrHyDE.Multiscale.C40_hierarchical", "MrHyDE.Multiscale.C40_active_partial", "MrHyDE.Multiscale.C40_foreign_group_active"], "note": "Holds for user-defined choice if some model of the block gets a vote, for predictors if all groups are full and there are at least two models, for the hierarchical choice always, and for activity if all blocks have subgrid models. The code violates it otherwise; each violation is proved."},
 {"property": "C41", "status": "partial", "theorems": ["MrHyDE.Workset.C41_volume_partial", "MrHyDE.Workset.C41_side_partial", "MrHyDE.Workset.C41_side_curl_violated", "MrHyDE.Workset.C41_param_index_violated", "MrHyDE.Workset.C41_unknown_violated", "MrHyDE.Workset.C41_points_violated", "MrHyDE.Workset.C41_points_constant_violated", "MrHyDE.Workset.C41_points_partial"], "note": "Any history of loads, moves and requests; plain distinct names. Violated: curl on a side is the value, second discretized parameter with one variable reads out of range, an unknown label reads out of range. Not covered: requests that write through the returned view (markUpdated). At points nothing is ever evaluated: proved for all states (violated)."},
 {"property": "C42", "status": "partial", "theorems": ["MrHyDE.Workset.C42_variables", "MrHyDE.Workset.C42_basis_partial", "MrHyDE.Workset.C42_parameters_partial", "MrHyDE.Workset.C42_parameters_violated", "MrHyDE.Workset.C42_basis_violated", "MrHyDE.Workset.C42_parameter_basis_partial"], "note": "Variables: full. Discretized parameters: the loop never stops unless the first parameter matches or there is none."},
 {"property": "C43", "status": "partial", "theorems": ["MrHyDE.Expr.C43_violated", "MrHyDE.Expr.C01_evaluation"], "note": "The code violates the property; C01 holds for programs without such references."},
 {"property": "C44", "status": "partial", "theorems": ["MrHyDE.Expr.C44_violated", "MrHyDE.Expr.C44_equality_dropped"], "note": "The code violates the property: = is dropped at every depth of a sum."},
 {"property": "C45", "status": "partial", "theorems": ["MrHyDE.Expr.C45_spaces_partial", "MrHyDE.Expr.C45_violated"], "note": "The code violates the property; spaces are dropped only when a text is split at + - * / < >."},
 {"property": "C46", "status": "partial", "theorems": ["MrHyDE.Expr.C46_unknown_name_rejected_partial", "MrHyDE.Expr.C46_violated", "MrHyDE.Expr.C46_only_defined"], "note": "Unknown plain names are rejected; unknown functions are accepted, which violates the property."},
 {"property": "C47", "status": "proved", "theorems": ["MrHyDE.UQ.C47_rejection", "MrHyDE.UQ.C47_all_zero"], "note": ""},
 {"property": "C48", "status": "partial", "theorems": ["MrHyDE.UQ.C48_draw", "MrHyDE.UQ.C48_fill_violated"], "note": "One of the two sampling calls passes the variance as standard deviation (proved negation)."},
 {"property": "C49", "status": "partial", "theorems": ["MrHyDE.Time.C49_partial", "MrHyDE.Time.C49_violated", "MrHyDE.Time.C49_allowed"], "note": "Named physics sets ignore the global multistep order."},
 {"property": "C50", "status": "partial", "theorems": ["MrHyDE.Time.C50_constant_partial", "MrHyDE.Time.C50_one_stage_partial", "MrHyDE.Time.C50_linear", "MrHyDE.Time.C50_sums", "MrHyDE.Time.C50_violated"], "note": ""},
 {"property": "C51", "status": "partial", "theorems": ["MrHyDE.Time.C51_first_partial", "MrHyDE.Time.C51_repeat_partial", "MrHyDE.Time.C51_violated"], "note": ""},
 {"property": "C52", "status": "partial", "theorems": ["MrHyDE.Time.C52", "MrHyDE.Time.C52_other_set_violated"], "note": "Exact for the current physics set; the time derivative of other sets is stale."},
 {"property": "C53", "status": "partial", "theorems": ["MrHyDE.Param.C53_partial", "MrHyDE.Param.C53_dt_violated", "MrHyDE.Param.C53_both_violated", "MrHyDE.Param.C53_cut_violated", "MrHyDE.Param.C53_scalar_violated", "MrHyDE.Param.C27_states"], "note": "Holds when only the step size is given, and no step is cut; fails in four other situations."},
 {"property": "C54", "status": "partial", "theorems": ["MrHyDE.Param.C54_partial", "MrHyDE.Param.C54_violated"], "note": "Holds except in the fully explicit mode."},
 {"property": "C55", "status": "partial", "theorems": ["MrHyDE.Opt.C55_partial", "MrHyDE.Opt.C55_violated", "MrHyDE.Opt.C55_back_violated"], "note": "Holds without mass weights and with scale one."},
 {"property": "C56", "status": "partial", "theorems": ["MrHyDE.Opt.C56_partial", "MrHyDE.Opt.C56_violated"], "note": "Holds when the last request was at the result; a rejected last trial point stays in the parameter manager."},
 {"property": "C57", "status": "partial", "theorems": ["MrHyDE.Opt.C57_partial", "MrHyDE.Opt.C57_violated"], "note": "Holds for one time level; later levels are not summed."},
 {"property": "C58", "status": "partial", "theorems": ["MrHyDE.Assembly.C58_single_block_partial", "MrHyDE.Assembly.C58_second_block_wrong", "MrHyDE.Assembly.C58_second_block_out_of_range"], "note": "one block; for later blocks the boundary element numbers refer to the wrong list"},
 {"property": "C59", "status": "partial", "theorems": ["MrHyDE.BC.C59_single_element_partial", "MrHyDE.BC.C59_first_element", "MrHyDE.BC.C59_shared_node_wrong", "MrHyDE.BC.C59_first_block", "MrHyDE.BC.C59_second_block_wrong", "MrHyDE.BC.C59_name_inside", "MrHyDE.BC.C59_processes"], "note": "Proved for node sets in one element of the first block, and the exchange over processes; the code takes numbers of the first element for all, rows of another block, and names inside names."},
 {"property": "C60", "status": "partial", "theorems": ["MrHyDE.BC.C60_agree_partial", "MrHyDE.BC.C60_label_last", "MrHyDE.BC.C60_code_first", "MrHyDE.BC.C60_weak_dropped", "MrHyDE.BC.C60_side_info"], "note": "The parts agree exactly if no more than one condition is asked for; several are accepted without message."},
 {"property": "C61", "status": "partial", "theorems": ["MrHyDE.Assembly.C61_adjoint_transpose_partial", "MrHyDE.Assembly.C61_lumped_not_transposed"], "note": "no lumping and blocks whose unknowns fill the table; false with lumping (proved)"},
 {"property": "C62", "status": "partial", "theorems": ["MrHyDE.Assembly.C62_single_block_partial", "MrHyDE.Assembly.C62_second_block_shifted"], "note": "one block; false with several"},
 {"property": "C63", "status": "partial", "theorems": ["MrHyDE.Database.C63_values_partial", "MrHyDE.Database.C63_gradient_zero", "MrHyDE.Database.C63_flux_zero"], "note": "values proved; the code never fills the gradients of the side database, so every side reads zero gradients (proved)"},
 {"property": "C64", "status": "partial", "theorems": ["MrHyDE.Assembly.Terms.C64_volume_on_partial", "MrHyDE.Assembly.Terms.C64_stale_residual", "MrHyDE.Assembly.Terms.C64_faces_accumulate"], "note": "holds with volume terms on; false with volume terms off"},
 {"property": "C65", "status": "partial", "theorems": ["MrHyDE.Time.C65_volume_partial", "MrHyDE.Time.C65_boundary_older_step"], "note": "holds for volume terms; false for boundary terms"},
 {"property": "C66", "status": "partial", "theorems": ["MrHyDE.Time.C66_first_stage_partial", "MrHyDE.Time.C66_later_stage"], "note": "holds in the first stage; false in later stages"},
 {"property": "C67", "status": "partial", "theorems": ["MrHyDE.Adjoint.C67_gradient_partial", "MrHyDE.Adjoint.C67_multistage", "MrHyDE.Adjoint.C67_multistep_undefined", "MrHyDE.Adjoint.C67_multistep_ignored", "MrHyDE.Adjoint.C67_step_size", "MrHyDE.Adjoint.C67_explicit_violated"], "note": "holds for one-stage one-step integrators with uniform steps; false or undefined otherwise; the explicit dependence of the objective on scalar parameters is ignored (C171)"},
 {"property": "C68", "status": "partial", "theorems": ["MrHyDE.Assembly.Projection.C68_consistent_partial", "MrHyDE.Assembly.Projection.C68_lumped_last_column", "MrHyDE.Assembly.Projection.C68_lumped_zero_diagonal"], "note": "holds without lumping; false with lumping"},
 {"property": "C69", "status": "partial", "theorems": ["MrHyDE.Assembly.Gather.C69_single_group_partial", "MrHyDE.Assembly.Gather.C69_stale_previous"], "note": "holds for the group gathered last; false for every other group"},
 {"property": "C70", "status": "partial", "theorems": ["MrHyDE.Multiscale.C70_factor_zero", "MrHyDE.Multiscale.C70_cost_last_group"], "note": "The code violates this for all inputs: both reductions go to the same variable, the number printed is always zero; the initial cost is that of the last group only. Only the negation is proved."},
 {"property": "C71", "status": "partial", "theorems": ["MrHyDE.Assembly.Gather.C71_single_group_partial", "MrHyDE.Assembly.Gather.choose_sees_last", "MrHyDE.Assembly.Gather.C71_other_group"], "note": "Holds in blocks with a single group. With several groups the state seen is that of the group assembled last."},
 {"property": "C72", "status": "partial", "theorems": ["MrHyDE.Objective.C72_reported_partial", "MrHyDE.Objective.C72_response_squares_regularisation", "MrHyDE.Objective.C72_sensor_regularisation_step"], "note": "Proved for controls, and for responses and sensors without regularisation; the code violates it for responses and sensors with regularisations."},
 {"property": "C73", "status": "partial", "theorems": ["MrHyDE.Objective.C73_explicit_partial", "MrHyDE.Objective.C73_processes", "MrHyDE.Objective.C73_processes_wrong", "MrHyDE.Objective.C73_response_regularisation", "MrHyDE.Objective.C73_sensor_regularisation", "MrHyDE.Objective.C73_integrated_ignored", "MrHyDE.Objective.C73_seeded_partial", "MrHyDE.Objective.C73_unseeded_violated"], "note": "Proved on one process given correct derivative slots; the code does not sum over processes, and treats regularisations of responses and sensors, and integrated regularisations of scalar parameters, inconsistently. The evaluations return no slots at all (C171): only squared norms of the parameters are differentiated."},
 {"property": "C74", "status": "partial", "theorems": ["MrHyDE.Objective.Sensors.C74_measurements_partial", "MrHyDE.Objective.Sensors.C74_responses_add_first_data", "MrHyDE.Objective.Sensors.C74_silent", "MrHyDE.Objective.Sensors.C74_derivative_shifted"], "note": "Proved for the value without the option to compute responses; with it the first measurement is compared at times without data; the explicit derivative is shifted by one step."},
 {"property": "C75", "status": "partial", "theorems": ["MrHyDE.Objective.Slots.C75_control_partial", "MrHyDE.Objective.Slots.C75_response_stale", "MrHyDE.Objective.Slots.C75_response_wrong", "MrHyDE.Objective.Slots.C75_unseeded_violated"], "note": "Proved for integrated controls; for integrated responses the workspace with derivatives is not updated. In both cases the parameter itself is seen without slot (C171)."},
 {"property": "C76", "status": "partial", "theorems": ["MrHyDE.Objective.Slots.C76_regularisation", "MrHyDE.Objective.Slots.C76_single_partial", "MrHyDE.Objective.Slots.C76_group_sum", "MrHyDE.Objective.Slots.C76_group_wrong"], "note": "Proved for regularisations, and for groups of one element; the code adds the sum over the group to each element. Responses index by global numbers; only the range check of that is modelled."},
 {"property": "C77", "status": "proved", "theorems": ["MrHyDE.BC.C77_dirichlet_dofs"], "note": ""},
 {"property": "C78", "status": "proved", "theorems": ["MrHyDE.Mass.C78_stored", "MrHyDE.Mass.C78_computed", "MrHyDE.Mass.C78_database"], "note": "dense storage; sparse storage drops small entries, see C12"},
 {"property": "C79", "status": "proved", "theorems": ["MrHyDE.Mass.C79_inner_product", "MrHyDE.Mass.C79_nonneg"], "note": ""},
 {"property": "C80", "status": "partial", "theorems": ["MrHyDE.Mass.C80_row_sums_partial", "MrHyDE.Mass.C80_plain", "MrHyDE.Mass.C80_negative", "MrHyDE.Mass.C80_paths_differ", "MrHyDE.Mass.C80_jacobi_partial", "MrHyDE.Mass.C80_jacobi_violated"], "note": "proved for non-negative entries; the dense path sums magnitudes, so with negative entries it differs from the row sum and from the other paths"},
 {"property": "C81", "status": "partial", "theorems": ["MrHyDE.Mass.C81_database_partial", "MrHyDE.Mass.C81_sparse_matrix_zero"], "note": "proved for dense storage; with the sparse mass format the assembled matrix stays zero"},
 {"property": "C82", "status": "partial", "theorems": ["MrHyDE.Postprocess.Record.C82_state_partial", "MrHyDE.Postprocess.Record.C82_explicit_partial", "MrHyDE.Postprocess.Record.C82_window_violated", "MrHyDE.Postprocess.Record.C82_frequency_violated", "MrHyDE.Postprocess.Record.C82_negative_times_violated", "MrHyDE.Postprocess.Record.C82_single_recorded"], "note": "Proved: the objective and the gradient use the same recorded steps for the state dependence, for every write frequency, when the window covers the run and the recorded times are positive and separated; for the explicit dependence when every step is recorded. Violated with a window leaving out steps, with a frequency above one (explicit part), with negative times, and with a single recorded time."},
 {"property": "C83", "status": "partial", "theorems": ["MrHyDE.Postprocess.Record.C83_partial", "MrHyDE.Postprocess.Record.C83_last_missing", "MrHyDE.Postprocess.Record.C83_last_twice", "MrHyDE.Postprocess.Record.C83_zero_frequency"], "note": "Proved for equal write frequencies and a last time inside the window. The code tests the wrong frequency for the last frame, so otherwise it can be missing or written twice."},
 {"property": "C84", "status": "partial", "theorems": ["MrHyDE.Postprocess.Sensors.C84_one_owner_partial", "MrHyDE.Postprocess.Sensors.C84_box_partial", "MrHyDE.Postprocess.Sensors.C84_reads_outside"], "note": "Ownership proved for all partitions; in one and two dimensions the code reads past the extent of the bounding box."},
 {"property": "C85", "status": "proved", "theorems": ["MrHyDE.Postprocess.Sensors.C85_grid", "MrHyDE.Postprocess.Sensors.C85_ends"], "note": "Exact arithmetic."},
 {"property": "C86", "status": "partial", "theorems": ["MrHyDE.Postprocess.Names.C86_points", "MrHyDE.Postprocess.Names.C86_data_partial", "MrHyDE.Postprocess.Names.C86_data_iff", "MrHyDE.Postprocess.Names.C86_data_violated", "MrHyDE.Postprocess.Names.C86_dropped", "MrHyDE.Postprocess.Names.C86_null_violated"], "note": "Names of point files are right; the name of the data file is right only for particular lengths, and of sensors with the same number on several processes only one is kept."},
 {"property": "C87", "status": "partial", "theorems": ["MrHyDE.Postprocess.Responses.C87_local_partial", "MrHyDE.Postprocess.Responses.C87_sum_partial", "MrHyDE.Postprocess.Responses.C87_other_violated", "MrHyDE.Postprocess.Responses.C87_empty_violated"], "note": "Layout proved when all objectives are responses; with any other objective, or no recorded time, the code reads past the end of a vector."},
 {"property": "C88", "status": "partial", "theorems": ["MrHyDE.Postprocess.Repeat.C88_partial", "MrHyDE.Postprocess.Repeat.C88_accumulate", "MrHyDE.Postprocess.Repeat.C88_violated"], "note": "Holds for responses and objective values; sensor solutions, errors and norms accumulate over solves."},
 {"property": "C89", "status": "partial", "theorems": ["MrHyDE.Postprocess.Dft.C89_partial", "MrHyDE.Postprocess.Dft.C89_violated", "MrHyDE.Postprocess.Dft.C89_witness"], "note": "Right for one frequency only: an integer quotient makes every frequency the same sum."},
 {"property": "C90", "status": "partial", "theorems": ["MrHyDE.Postprocess.Fields.C90_partial", "MrHyDE.Postprocess.Fields.C90_violated", "MrHyDE.Postprocess.Fields.C90_single"], "note": "Nonnegative and definite, but homogeneous of degree two."},
 {"property": "C91", "status": "partial", "theorems": ["MrHyDE.Postprocess.Fields.C91_mean", "MrHyDE.Postprocess.Fields.C91_max_partial", "MrHyDE.Postprocess.Fields.C91_violated"], "note": "Mean proved; greatest and least values start from zero, so they are wrong for fields of one sign."},
 {"property": "C92", "status": "partial", "theorems": ["MrHyDE.Postprocess.Integrals.C92_volume_partial", "MrHyDE.Postprocess.Integrals.C92_boundary_partial", "MrHyDE.Postprocess.Integrals.C92_boundary_all", "MrHyDE.Postprocess.Integrals.C92_name_violated", "MrHyDE.Postprocess.Integrals.C92_seen", "MrHyDE.Postprocess.Integrals.C92_stale"], "note": "Integrals proved partition independent; sides are selected by text search, and values are stale between recorded steps."},
 {"property": "C93", "status": "partial", "theorems": ["MrHyDE.Postprocess.Integrals.C93_partial", "MrHyDE.Postprocess.Integrals.C93_state_violated", "MrHyDE.Postprocess.Integrals.C93_times_violated", "MrHyDE.Postprocess.Integrals.C93_all_violated"], "note": "No gather before evaluation, sums over recorded times, default selection counts nothing."},
 {"property": "C94", "status": "partial", "theorems": ["MrHyDE.Postprocess.Integrals.C94_volume_partial", "MrHyDE.Postprocess.Integrals.C94_face", "MrHyDE.Postprocess.Integrals.C94_face_violated"], "note": "Volume norms proved; in the face norm boundary faces count by half."},
 {"property": "C95", "status": "partial", "theorems": ["MrHyDE.Physics.Flux.C95_residual", "MrHyDE.Physics.Flux.C95_partial", "MrHyDE.Physics.Flux.C95_dropped_violated", "MrHyDE.Physics.Flux.C95_paths_violated", "MrHyDE.Physics.Flux.C95_multiscale"], "note": "The flux conditions are right in the residual-only assembly, but in the assembly with the Jacobian they are left out for 1 to 32 unknowns per element with the automatic choice of the derivative type (default)."},
 {"property": "C96", "status": "partial", "theorems": ["MrHyDE.Physics.Settings.C96_settings", "MrHyDE.Physics.Settings.C96_functions", "MrHyDE.Physics.Settings.C96_partial", "MrHyDE.Physics.Settings.C96_prefix_violated", "MrHyDE.Physics.Settings.C96_eleven_violated"], "note": "A sublist is taken for a block when its name contains the block name, so settings of eblock-0_10 also apply to eblock-0_1."},
 {"property": "C97", "status": "partial", "theorems": ["MrHyDE.Physics.Basis.C97_spaces", "MrHyDE.Physics.Basis.C97_partial", "MrHyDE.Physics.Basis.C97_sets_violated", "MrHyDE.Physics.Basis.C97_params_first", "MrHyDE.Physics.Basis.C97_params_partial", "MrHyDE.Physics.Basis.C97_params_violated", "MrHyDE.Physics.Basis.C97_dg"], "note": "The list of spaces and the positions are right for every block; the query by name ignores the set, and the numbers of discretized parameters are those of the first block."},
 {"property": "C98", "status": "partial", "theorems": ["MrHyDE.Physics.Modules.C98_breakup", "MrHyDE.Physics.Modules.C98_empty_separator", "MrHyDE.Physics.Modules.C98_terms", "MrHyDE.Physics.Modules.C98_partial", "MrHyDE.Physics.Modules.C98_unknown_violated", "MrHyDE.Physics.Modules.C98_blank_violated", "MrHyDE.Physics.Modules.C98_twice"], "note": "Splitting is the inverse of joining for all terms; unknown names are ignored without a report."},
 {"property": "C99", "status": "partial", "theorems": ["MrHyDE.Physics.Numbers.C99_error", "MrHyDE.Physics.Numbers.C99_exact", "MrHyDE.Physics.Numbers.C99_partial", "MrHyDE.Physics.Numbers.C99_small_violated", "MrHyDE.Physics.Numbers.C99_all_violated", "MrHyDE.Physics.Numbers.C99_neumann_violated", "MrHyDE.Physics.Numbers.C99_whole_violated"], "note": "Numbers pass through a text with six digits after the point; an entry for all boundaries hides the others; numbers in Neumann, far-field, slip and flux conditions end the run."},
 {"property": "C100", "status": "partial", "theorems": ["MrHyDE.Modules.Thermal.C100_volume", "MrHyDE.Modules.Thermal.C100_volume_balance", "MrHyDE.Modules.Thermal.C100_side", "MrHyDE.Modules.Thermal.C100_flux_balance", "MrHyDE.Modules.Thermal.C100_symmetric", "MrHyDE.Modules.Thermal.C100_adjoint_partial", "MrHyDE.Modules.Thermal.C100_adjoint_violated", "MrHyDE.Modules.Thermal.C100_robin_violated"], "note": "Weak form, energy balance, flux balance and symmetry hold for all states, rules and dimensions; the adjoint uses another form when the form parameter is not 1, and robin data have no effect."},
 {"property": "C101", "status": "partial", "theorems": ["MrHyDE.Modules.Elasticity.C101_stress_partial", "MrHyDE.Modules.Elasticity.C101_stress_3d", "MrHyDE.Modules.Elasticity.C101_rigid", "MrHyDE.Modules.Elasticity.C101_free_expansion", "MrHyDE.Modules.Elasticity.C101_reciprocal", "MrHyDE.Modules.Elasticity.C101_energy", "MrHyDE.Modules.Elasticity.C101_volume", "MrHyDE.Modules.Elasticity.C101_virtual_work", "MrHyDE.Modules.Elasticity.C101_side", "MrHyDE.Modules.Elasticity.C101_side_symmetric_partial", "MrHyDE.Modules.Elasticity.C101_traction_alone", "MrHyDE.Modules.Elasticity.C101_flux_balance", "MrHyDE.Modules.Elasticity.C101_biot_violated", "MrHyDE.Modules.Elasticity.C101_plane_thermal_violated", "MrHyDE.Modules.Elasticity.C101_mixed_violated", "MrHyDE.Modules.Elasticity.C101_plane_side_violated"], "note": "Holds in three dimensions; below, pore pressure is wrong and undefined, plane stress with heating is wrong, plane stress makes the boundary terms unsymmetric, and a weakly imposed displacement with another condition on another component reads the wrong or no data."},
 {"property": "C102", "status": "partial", "theorems": ["MrHyDE.Modules.Stokes.C102_momentum", "MrHyDE.Modules.Stokes.C102_divergence_partial", "MrHyDE.Modules.Stokes.C102_energy", "MrHyDE.Modules.Stokes.C102_pspg_violated", "MrHyDE.Modules.Stokes.C102_tau_violated", "MrHyDE.Modules.Stokes.C102_source_pr_violated", "MrHyDE.Modules.Stokes.C102_traction_violated", "MrHyDE.Modules.Stokes.C102_lsic_violated"], "note": "Momentum, divergence and energy balance hold; the pressure stabilisation has the wrong sign of the source and in two dimensions the wrong power of the element size; the least-squares term does not enter the momentum equations; pressure source and tractions have no effect."},
 {"property": "C103", "status": "partial", "theorems": ["MrHyDE.Modules.NavierStokes.C103_momentum_partial", "MrHyDE.Modules.NavierStokes.C103_pressure_partial", "MrHyDE.Modules.NavierStokes.C103_consistent", "MrHyDE.Modules.NavierStokes.C103_traction", "MrHyDE.Modules.NavierStokes.C103_3d_violated", "MrHyDE.Modules.NavierStokes.C103_buoyancy_violated", "MrHyDE.Modules.NavierStokes.C103_pspg_violated"], "note": "Holds in one and two dimensions without buoyancy; in three dimensions the third momentum equation is added to the second; buoyancy is not found with the thermal module; PSPG with buoyancy is inconsistent."},
 {"property": "C104", "status": "partial", "theorems": ["MrHyDE.Modules.Porous.C104_volume", "MrHyDE.Modules.Porous.C104_balance", "MrHyDE.Modules.Porous.C104_side", "MrHyDE.Modules.Porous.C104_consistent", "MrHyDE.Modules.Porous.C104_interface_sum", "MrHyDE.Modules.Porous.C104_flux_partial", "MrHyDE.Modules.Porous.C104_flux_violated", "MrHyDE.Modules.Porous.C104_gravity_violated", "MrHyDE.Modules.Porous.C104_flux_zero_violated", "MrHyDE.Modules.Porous.C104_flux_intended"], "note": "Weak form, mass balance, side terms proved for all inputs; gravity and the tangential parts of the returned flux violate the property."},
 {"property": "C105", "status": "partial", "theorems": ["MrHyDE.Subgrid.C105_linear", "MrHyDE.Subgrid.C105_quadratic", "MrHyDE.Subgrid.C105_ends", "MrHyDE.Subgrid.C105_cover", "MrHyDE.Subgrid.C105_between", "MrHyDE.Subgrid.C105_history_violated", "MrHyDE.Subgrid.C105_explicit_stage_violated", "MrHyDE.Subgrid.C105_unequal_violated", "MrHyDE.Subgrid.C105_second_stage_violated"], "note": "Exactness for histories of one and two values with equal steps; longer histories, unequal steps, coarse stages at the start of a step and later coarse stages violate it."},
 {"property": "C106", "status": "partial", "theorems": ["MrHyDE.Subgrid.Flux.C106_flux_partial", "MrHyDE.Subgrid.Flux.C106_conserved", "MrHyDE.Subgrid.Flux.C106_average_partial", "MrHyDE.Subgrid.Flux.C106_accumulate_violated", "MrHyDE.Subgrid.Flux.C106_accumulate_average_violated", "MrHyDE.Subgrid.Flux.C106_order_violated", "MrHyDE.Subgrid.Flux.C106_bounds_violated"], "note": "Proved for modules that store at the coarse number; modules that add or use their own number violate it."},
 {"property": "C107", "status": "partial", "theorems": ["MrHyDE.Subgrid.Sens.C107_tolerance", "MrHyDE.Subgrid.Sens.C107_derivative_partial", "MrHyDE.Subgrid.Sens.C107_unique", "MrHyDE.Subgrid.Sens.C107_stale_violated", "MrHyDE.Subgrid.Sens.C107_zero_residual_violated", "MrHyDE.Subgrid.Sens.C107_silent_violated", "MrHyDE.Subgrid.Sens.C107_history_violated", "MrHyDE.Subgrid.Sens.C107_two_step_violated"], "note": "Exact for linear fine problems with one-step methods when a matrix of the problem has been factorised; otherwise violated."},
 {"property": "C108", "status": "partial", "theorems": ["MrHyDE.Modules.Maxwell.C108_faraday", "MrHyDE.Modules.Maxwell.C108_ampere_2d", "MrHyDE.Modules.Maxwell.C108_ampere_3d_partial", "MrHyDE.Modules.Maxwell.C108_leapfrog", "MrHyDE.Modules.Maxwell.C108_energy_2d", "MrHyDE.Modules.Maxwell.C108_energy_3d_partial", "MrHyDE.Modules.Maxwell.C108_absorbing", "MrHyDE.Modules.Maxwell.C108_permittivity_violated", "MrHyDE.Modules.Maxwell.C108_absorbing_2d_violated"], "note": "Both laws, leap frog, Poynting balance and the absorbing term proved; in 3-D the electric equation is divided by the permittivity under the curl, wrong when it varies, and in 2-D the absorbing condition does nothing."},
 {"property": "C109", "status": "partial", "theorems": ["MrHyDE.Modules.Elastodynamics.C109_momentum", "MrHyDE.Modules.Elastodynamics.C109_velocity_partial", "MrHyDE.Modules.Elastodynamics.C109_velocity_violated", "MrHyDE.Modules.Elastodynamics.C109_balance", "MrHyDE.Modules.Elastodynamics.C109_energy"], "note": "Momentum, balance and energy proved in all dimensions; in 3-D the equation of the second velocity component receives nothing (its terms go to the first)."},
 {"property": "C110", "status": "partial", "theorems": ["MrHyDE.Modules.Transport.C110_cdr", "MrHyDE.Modules.Transport.C110_prior", "MrHyDE.Modules.Transport.C110_ice_partial", "MrHyDE.Modules.Transport.C110_balance", "MrHyDE.Modules.Transport.C110_flux", "MrHyDE.Modules.Transport.C110_ode_partial", "MrHyDE.Modules.Transport.C110_ice_violated", "MrHyDE.Modules.Transport.C110_defaults_violated", "MrHyDE.Modules.Transport.C110_ode_violated"], "note": "Weak forms proved; shallow ice assembles nothing in 3-D, the default reaction of cdr is a source of strength one, ode is not the weak form for more than one basis function."},
 {"property": "C111", "status": "partial", "theorems": ["MrHyDE.Modules.Burgers.C111_weak", "MrHyDE.Modules.Burgers.C111_conservation", "MrHyDE.Modules.Burgers.C111_viscosity", "MrHyDE.Modules.Burgers.C111_energy", "MrHyDE.Modules.Burgers.C111_supg_consistent", "MrHyDE.Modules.Burgers.C111_entropy_partial", "MrHyDE.Modules.Burgers.C111_uniform", "MrHyDE.Modules.Burgers.C111_dimension_violated", "MrHyDE.Modules.Burgers.C111_side_violated", "MrHyDE.Modules.Burgers.C111_entropy_violated", "MrHyDE.Modules.Burgers.C111_tau"], "note": "Weak form, conservation, energy, consistency and free stream proved; the settings act in 2-D only, the side term depends on the first variable of the block, the entropy residual leaves the velocity out."},
 {"property": "C112", "status": "partial", "theorems": ["MrHyDE.Modules.Kuramoto.C112_weak_partial", "MrHyDE.Modules.Kuramoto.C112_energy", "MrHyDE.Modules.Kuramoto.C112_mean", "MrHyDE.Modules.Kuramoto.C112_basis_violated"], "note": "Weak forms, energy and mean proved for a common basis; with a larger basis for the auxiliary variable some of its equations receive nothing."},
 {"property": "C113", "status": "partial", "theorems": ["MrHyDE.Modules.ShallowWater.C113_weak_partial", "MrHyDE.Modules.ShallowWater.C113_conservation", "MrHyDE.Modules.ShallowWater.C113_lake_at_rest", "MrHyDE.Modules.ShallowWater.C113_reference_level", "MrHyDE.Modules.ShallowWater.C113_terms_violated"], "note": "Weak form without the missing terms, conservation and the lake at rest proved; viscosity and Coriolis force have no effect."},
 {"property": "C114", "status": "partial", "theorems": ["MrHyDE.Modules.Hartmann.C114_weak", "MrHyDE.Modules.Hartmann.C114_energy", "MrHyDE.Modules.Hartmann.C114_unique", "MrHyDE.Modules.Hartmann.C114_side_partial", "MrHyDE.Modules.Hartmann.C114_side_violated"], "note": "Weak forms, energy and uniqueness proved; the Neumann term is added on sides without that condition too."},
 {"property": "C115", "status": "partial", "theorems": ["MrHyDE.Subgrid.Refine.C115_quad", "MrHyDE.Subgrid.Refine.C115_hex", "MrHyDE.Subgrid.Refine.C115_tri_partial", "MrHyDE.Subgrid.Refine.C115_tri_violated", "MrHyDE.Subgrid.Refine.C115_tet_violated", "MrHyDE.Subgrid.Refine.C115_line_violated", "MrHyDE.Subgrid.Refine.C115_quadToTri", "MrHyDE.Subgrid.Refine.C115_mixed_violated", "MrHyDE.Subgrid.Refine.C115_triToQuad"], "note": "Proved in full for quadrilaterals and hexahedra (the tiling, orientation, shared nodes and sides for every number of refinements); for triangles the cover and areas; the code violates orientation and sides of triangles, misses parts of tetrahedra, refers to a missing node on lines and uses side -1 in mixed meshes."},
 {"property": "C116", "status": "partial", "theorems": ["MrHyDE.Subgrid.Sides.C116_nodes", "MrHyDE.Subgrid.Sides.C116_sideinfo", "MrHyDE.Subgrid.Sides.C116_groups", "MrHyDE.Subgrid.Sides.C116_once", "MrHyDE.Subgrid.Sides.C116_bcs", "MrHyDE.Subgrid.Sides.C116_reuse", "MrHyDE.Subgrid.Sides.C116_mixed_violated", "MrHyDE.Subgrid.Sides.C116_triToQuad_violated", "MrHyDE.Subgrid.Sides.C116_double_violated", "MrHyDE.Subgrid.Sides.C116_bcs_violated", "MrHyDE.Subgrid.Sides.C116_reuse_violated"], "note": "Copies and side conditions proved; single assembly, types and reuse of degrees of freedom proved when names agree between variables and depend on the local side only; violated otherwise."},
 {"property": "C117", "status": "partial", "theorems": ["MrHyDE.Disc.C117_gradient_partial", "MrHyDE.Disc.C117_gradient_face_partial", "MrHyDE.Disc.C117_gradient_points", "MrHyDE.Disc.C117_circulation", "MrHyDE.Disc.C117_flux2", "MrHyDE.Disc.C117_flux3", "MrHyDE.Disc.C117_curl3", "MrHyDE.Disc.C117_divergence", "MrHyDE.Disc.C117_determined", "MrHyDE.Disc.C117_values", "MrHyDE.Disc.C117_plain", "MrHyDE.Disc.C117_nodes_partial", "MrHyDE.Disc.C117_face_violated", "MrHyDE.Disc.C117_nodes_violated", "MrHyDE.Disc.C117_nodes_end_violated", "MrHyDE.Disc.C117_point_violated"], "note": "The code violates it for gradients of HGRAD on faces without orientation, at nodes and at points (see the _violated theorems); everything else is proved for all maps."},
 {"property": "C118", "status": "partial", "theorems": ["MrHyDE.Disc.C118_weighted2", "MrHyDE.Disc.C118_weighted3", "MrHyDE.Disc.C118_unit", "MrHyDE.Disc.C118_defined", "MrHyDE.Disc.C118_outward", "MrHyDE.Disc.C118_flux", "MrHyDE.Disc.C118_length", "MrHyDE.Disc.C118_closed2", "MrHyDE.Disc.C118_closed_tet", "MrHyDE.Disc.C118_closed_hex", "MrHyDE.Disc.C118_closed_line", "MrHyDE.Disc.C118_positive", "MrHyDE.Disc.C118_area_quad", "MrHyDE.Disc.C118_volume_simplex", "MrHyDE.Disc.C118_size", "MrHyDE.Disc.C118_face1_violated", "MrHyDE.Disc.C118_tangent_violated", "MrHyDE.Disc.C118_points"], "note": "The code violates it for interior faces in one dimension (weight zero, no normal) and for tangents; the rest is proved, except the volume of a general hexahedron."},
 {"property": "C119", "status": "partial", "theorems": ["MrHyDE.Modules.PorousMixed.C119_volume", "MrHyDE.Modules.PorousMixed.C119_conservation", "MrHyDE.Modules.PorousMixed.C119_energy", "MrHyDE.Modules.PorousMixed.C119_symmetric", "MrHyDE.Modules.PorousMixed.C119_side", "MrHyDE.Modules.PorousMixed.C119_rest", "MrHyDE.Modules.PorousMixed.C119_face", "MrHyDE.Modules.PorousMixed.C119_multiplier", "MrHyDE.Modules.PorousMixed.C119_transmission", "MrHyDE.Modules.PorousMixed.C119_basis_partial", "MrHyDE.Modules.PorousMixed.C119_data_partial", "MrHyDE.Modules.PorousMixed.C119_basis_violated", "MrHyDE.Modules.PorousMixed.C119_data_violated"], "note": "The weak forms, conservation, symmetry, energy and transmission are proved for both modules. The code violates two parts: the side terms of porousMixed take the basis with the number of the variable, and the hybrid module takes permeability data for inverse permeabilities."},
 {"property": "C120", "status": "partial", "theorems": ["MrHyDE.Modules.KL.C120_order", "MrHyDE.Modules.KL.C120_field_partial", "MrHyDE.Modules.KL.C120_written", "MrHyDE.Modules.KL.C120_derivative", "MrHyDE.Modules.KL.C120_eigenpair", "MrHyDE.Modules.KL.C120_normalised", "MrHyDE.Modules.KL.C120_roots_partial", "MrHyDE.Modules.KL.C120_roots_violated", "MrHyDE.Modules.KL.C120_three_violated", "MrHyDE.Modules.KL.C120_wells_partial", "MrHyDE.Modules.KL.C120_nowells_violated", "MrHyDE.Modules.KL.C120_wellperm_violated", "MrHyDE.Modules.KL.C120_wellsign_violated", "MrHyDE.Modules.KL.C120_one_violated", "MrHyDE.Modules.KL.C120_medium"], "note": "Order, field in one and two dimensions, eigenpairs and normalisation are proved. The code violates: three dimensions with KLUQcoeffs, the search for roots, the source without wells, the permeability and the sign of wells."},
 {"property": "C121", "status": "partial", "theorems": ["MrHyDE.Mesh.C121_nodes", "MrHyDE.Mesh.C121_cells", "MrHyDE.Mesh.C121_area", "MrHyDE.Mesh.C121_tiling", "MrHyDE.Mesh.C121_sides", "MrHyDE.Mesh.C121_ids", "MrHyDE.Mesh.C121_owner", "MrHyDE.Mesh.C121_whole", "MrHyDE.Mesh.C121_cell_owner", "MrHyDE.Mesh.C121_part_sides_partial", "MrHyDE.Mesh.C121_brick_nodes", "MrHyDE.Mesh.C121_brick_cells", "MrHyDE.Mesh.C121_brick_edges", "MrHyDE.Mesh.C121_brick_sides", "MrHyDE.Mesh.C121_division_violated", "MrHyDE.Mesh.C121_few_cells_violated", "MrHyDE.Mesh.C121_procid_violated", "MrHyDE.Mesh.C121_zero_violated", "MrHyDE.Mesh.C121_part_sides_violated", "MrHyDE.Mesh.C121_edges_violated", "MrHyDE.Mesh.C121_foreign_violated", "MrHyDE.Mesh.C121_rank", "MrHyDE.Mesh.C121_rank_violated", "MrHyDE.Mesh.C121_processes", "MrHyDE.Mesh.C121_processes_accepted"], "note": "Nodes, cells, tiling, side sets and (brick) edges proved for all sizes; numbering and ownership proved for all decompositions. The code drops cells when the number of processes does not divide the number of cells, lists borders between processes in the side sets, leaves the edge map of a rectangle empty, lets one process number too many through and divides before its check. Interval, cylinder and step channel cannot be instantiated and are not modelled."},
 {"property": "C122", "status": "partial", "theorems": ["MrHyDE.Mesh.C122_rectangle_partial", "MrHyDE.Mesh.C122_owned_partial", "MrHyDE.Mesh.C122_brick_violated", "MrHyDE.Mesh.C122_phase_violated", "MrHyDE.Mesh.C122_owned_violated", "MrHyDE.Mesh.C122_variables_violated", "MrHyDE.Mesh.C122_offsets_violated", "MrHyDE.Mesh.C122_discontinuous_violated", "MrHyDE.Mesh.C122_hexahedra_violated", "MrHyDE.Mesh.C122_phase_brick_violated"], "note": "Proved: the box in two dimensions; each degree of freedom owned once, when a phase space is present. Violated by the code: y and z extents exchanged in three dimensions, phase mesh sized with the lower limits of the physical mesh, owned view of size zero without a phase space, equal offsets for all variables, third and fourth function exchanged for the first-order basis, four offsets on hexahedra."},
 {"property": "C123", "status": "partial", "theorems": ["MrHyDE.LinAlg.C123_fresh", "MrHyDE.LinAlg.C123_reuse_partial", "MrHyDE.LinAlg.C123_operator", "MrHyDE.LinAlg.C123_prec_current", "MrHyDE.LinAlg.C123_prec_first", "MrHyDE.LinAlg.C123_options", "MrHyDE.LinAlg.C123_belos", "MrHyDE.LinAlg.C123_generic", "MrHyDE.LinAlg.C123_previous_partial", "MrHyDE.LinAlg.C123_empty_violated", "MrHyDE.LinAlg.C123_adjoint_violated", "MrHyDE.LinAlg.C123_precname_violated", "MrHyDE.LinAlg.C123_paramL2_violated", "MrHyDE.LinAlg.C123_bndryprec_violated", "MrHyDE.LinAlg.C123_krylov_violated", "MrHyDE.LinAlg.C123_previous_violated", "MrHyDE.LinAlg.C123_direct", "MrHyDE.LinAlg.C123_new", "MrHyDE.LinAlg.C123_previous_reuse"], "note": "Matrix of every solve for all histories without reuse, and with reuse when the first pass of each run solves; preconditioner history, option resolution and dispatch proved. The code violates the rest: an unassembled matrix is reused after a converged first pass, adjoint steps use a stale Jacobian, a misspelt preconditioner and two options are silently ignored, the parameter projections do not solve."},
 {"property": "C124", "status": "partial", "theorems": ["MrHyDE.LinAlg.C124_owned", "MrHyDE.LinAlg.C124_rows_known", "MrHyDE.LinAlg.C124_graph_partial", "MrHyDE.LinAlg.C124_symmetric", "MrHyDE.LinAlg.C124_room", "MrHyDE.LinAlg.C124_paramState", "MrHyDE.LinAlg.C124_alloc_partial", "MrHyDE.LinAlg.C124_phase_violated", "MrHyDE.LinAlg.C124_projection_violated", "MrHyDE.LinAlg.C124_ghosts"], "note": "Maps, rows, room and parameter graph for all inputs; the state graph is exact without a phase space. With phase unknowns the columns are not multiplied out and diagonal entries are missing; with a fully explicit matrix-free scheme the default initial projection has no graph."},
 {"property": "C125", "status": "partial", "theorems": ["MrHyDE.Modules.Euler.C125_numbers_partial", "MrHyDE.Modules.Euler.C125_numbers_violated", "MrHyDE.Modules.Euler.C125_gas", "MrHyDE.Modules.Euler.C125_mach", "MrHyDE.Modules.Euler.C125_flux_partial", "MrHyDE.Modules.Euler.C125_flux_violated", "MrHyDE.Modules.Euler.C125_jacobian_partial", "MrHyDE.Modules.Euler.C125_waves_partial", "MrHyDE.Modules.Euler.C125_left_violated", "MrHyDE.Modules.Euler.C125_consistent", "MrHyDE.Modules.Euler.C125_maxspeed", "MrHyDE.Modules.Euler.C125_roe_partial", "MrHyDE.Modules.Euler.C125_roe1_violated", "MrHyDE.Modules.Euler.C125_roe2_violated", "MrHyDE.Modules.Euler.C125_inflow_violated", "MrHyDE.Modules.Euler.C125_slip", "MrHyDE.Modules.Euler.C125_interface_partial", "MrHyDE.Modules.Euler.C125_balance_partial", "MrHyDE.Modules.Euler.C125_sides_violated", "MrHyDE.Modules.Euler.C125_conditions", "MrHyDE.Modules.Euler.C125_volume_partial", "MrHyDE.Modules.Euler.C125_conservation", "MrHyDE.Modules.Euler.C125_boundary_partial", "MrHyDE.Modules.Euler.C125_farfield_partial", "MrHyDE.Modules.Euler.C125_storage"], "note": "Fluxes, thermodynamics, weak forms, element conservation, consistency, scalar stabilisation, slip condition and interface balance hold for every state, normal and dimension (third momentum excepted); in two and three dimensions the decomposition is that of the derivative of the flux for every unit normal. Violated: flux of the third momentum never computed; left eigenvectors in one dimension wrong unless the gas is at rest or a = 2; Roe stabilisation in one and two dimensions; far-field condition at the left end of an interval; other conditions keep the old flux; a second module before it leads out of the storage."},
 {"property": "C126", "status": "partial", "theorems": ["MrHyDE.Modules.Helmholtz.C126_weak", "MrHyDE.Modules.Helmholtz.C126_solutions_partial", "MrHyDE.Modules.Helmholtz.C126_combination", "MrHyDE.Modules.Helmholtz.C126_mixed_violated", "MrHyDE.Modules.Helmholtz.C126_bases_violated", "MrHyDE.Modules.Helmholtz.C126_orders_violated", "MrHyDE.Modules.Helmholtz.C126_fractional", "MrHyDE.Modules.Helmholtz.C126_fractional_violated", "MrHyDE.Modules.Helmholtz.C126_sides_partial", "MrHyDE.Modules.Helmholtz.C126_robin", "MrHyDE.Modules.Helmholtz.C126_sides_violated", "MrHyDE.Modules.Helmholtz.C126_condition_violated"], "note": "Real and imaginary part of the complex form for the paired test function; equivalent to the complex equation for equal bases. Violated: one Dirichlet part, different bases or orders, fractional (spurious factor 1+i), Robin sides in one dimension and with fractional (undefined), condition of uimag ignored."},
 {"property": "C127", "status": "partial", "theorems": ["MrHyDE.Initial.C127_projection_partial", "MrHyDE.Initial.C127_closest_partial", "MrHyDE.Initial.C127_reproduces_partial", "MrHyDE.Initial.C127_blocks_violated", "MrHyDE.Initial.C127_two_blocks_violated", "MrHyDE.Initial.C127_small_violated", "MrHyDE.Initial.C127_hface_violated", "MrHyDE.Initial.C127_lumped_partial", "MrHyDE.Initial.C127_argument_violated", "MrHyDE.Initial.C127_face_partial", "MrHyDE.Initial.C127_face_adjoint_violated", "MrHyDE.Initial.C127_numbers_partial", "MrHyDE.Initial.C127_sets_violated", "MrHyDE.Initial.C127_mixed_violated", "MrHyDE.Initial.C127_constant", "MrHyDE.Initial.C127_given_partial", "MrHyDE.Initial.C127_missing_violated", "MrHyDE.Initial.C127_nodes_partial", "MrHyDE.Initial.C127_order_violated", "MrHyDE.Initial.C127_padding_violated", "MrHyDE.Initial.C127_face_rows", "MrHyDE.Initial.C127_last", "MrHyDE.Initial.C127_interp_defined"], "note": "Proved: the solution of the assembled system is the projection, closest and reproducing, when no row is taken for a zero row after any block; lumped, face, number and nodal versions. Violated: unknowns not touched by the first block get 1 + mass on the diagonal; rows of small elements are replaced; variables on faces become zero; the argument for lumping is ignored; the adjoint flag lumps the face system into the last column; numbers are looked up under the wrong set; blocks without data fail; interpolation of bases other than linear nodal ones. Scalar parameters in the data: stale or zero, see C171."},
 {"property": "C128", "status": "partial", "theorems": ["MrHyDE.Micro.C128_lattice", "MrHyDE.Micro.C128_lattice_inside", "MrHyDE.Micro.C128_lattice_apart", "MrHyDE.Micro.C128_random", "MrHyDE.Micro.C128_spaced", "MrHyDE.Micro.C128_spaced_best", "MrHyDE.Micro.C128_box_violated", "MrHyDE.Micro.C128_box_partial", "MrHyDE.Micro.C128_rotation", "MrHyDE.Micro.C128_rotation_none", "MrHyDE.Micro.C128_grains_partial", "MrHyDE.Micro.C128_ties_violated", "MrHyDE.Micro.C128_topology_violated", "MrHyDE.Micro.C128_empty_violated", "MrHyDE.Micro.C128_distance_violated", "MrHyDE.Micro.C128_update", "MrHyDE.Micro.C128_update_partial", "MrHyDE.Micro.C128_update_violated", "MrHyDE.Micro.C128_update_boundary_violated", "MrHyDE.Micro.C128_volume", "MrHyDE.Micro.C128_boundary_violated", "MrHyDE.Micro.C128_boundary_zero_violated", "MrHyDE.Micro.C128_file_partial", "MrHyDE.Micro.C128_columns_violated", "MrHyDE.Micro.C128_index_violated", "MrHyDE.Micro.C128_grid_violated", "MrHyDE.Micro.C128_grid", "MrHyDE.Micro.C128_spaced_first", "MrHyDE.Micro.C128_width"], "note": "Seeds and rotations are as claimed for all draws; grains are right when every cell has the same number of vertices, no element is within 1.1 of a second seed and there are at least as many elements as seeds. Ties, mixed cells, more seeds than elements, boundary groups and more than 100 grains violate the claim."},
 {"property": "C129", "status": "partial", "theorems": ["MrHyDE.Modules.Crystal.C129_strain", "MrHyDE.Modules.Crystal.C129_lattice_partial", "MrHyDE.Modules.Crystal.C129_lattice_violated", "MrHyDE.Modules.Crystal.C129_frame", "MrHyDE.Modules.Crystal.C129_unrotated", "MrHyDE.Modules.Crystal.C129_compose", "MrHyDE.Modules.Crystal.C129_energy", "MrHyDE.Modules.Crystal.C129_law_partial", "MrHyDE.Modules.Crystal.C129_shear_violated", "MrHyDE.Modules.Crystal.C129_isotropic_violated", "MrHyDE.Modules.Crystal.C129_constants_violated", "MrHyDE.Modules.Crystal.C129_lambda_violated", "MrHyDE.Modules.Crystal.C129_youngs", "MrHyDE.Modules.Crystal.C129_temperature_violated", "MrHyDE.Modules.Crystal.C129_expansion_partial", "MrHyDE.Modules.Crystal.C129_expansion", "MrHyDE.Modules.Crystal.C129_expansion_violated", "MrHyDE.Modules.Crystal.C129_plane_partial", "MrHyDE.Modules.Crystal.C129_plane_violated", "MrHyDE.Modules.Crystal.C129_bunge", "MrHyDE.Modules.Crystal.C129_bunge_rotation", "MrHyDE.Modules.Crystal.C129_choice", "MrHyDE.Modules.Crystal.C129_serial_partial", "MrHyDE.Modules.Crystal.C129_threads_violated", "MrHyDE.Modules.Crystal.C129_uniaxial", "MrHyDE.Modules.Crystal.C129_defaults"], "note": "Rotation laws, strain, Bunge angles and the cubic law hold for all inputs (in three dimensions without one component). Violated: entry (0,2,2,0), shear stiffness of isotropic materials, constants of crystals that are not cubic, parameters lambda and mu, name of the temperature, thermal expansion of cubic crystals, rotations out of the plane in two dimensions, threads."},
 {"property": "C130", "status": "partial", "theorems": ["MrHyDE.Solver.Steady.C130_settled", "MrHyDE.Solver.Steady.C130_kept", "MrHyDE.Solver.Steady.C130_oneway", "MrHyDE.Solver.Steady.C130_rate", "MrHyDE.Solver.Steady.C130_stored", "MrHyDE.Solver.Steady.C130_coupled_violated", "MrHyDE.Solver.Steady.C130_no_cycles_violated", "MrHyDE.Solver.Steady.C130_kind_violated", "MrHyDE.Solver.Steady.C130_guess", "MrHyDE.Solver.Steady.C130_equation", "MrHyDE.Solver.Steady.C130_gradient_partial", "MrHyDE.Solver.Steady.C130_run_partial", "MrHyDE.Solver.Steady.C130_start_violated", "MrHyDE.Solver.Steady.C130_late_violated", "MrHyDE.Solver.Steady.C130_negative_violated", "MrHyDE.Solver.Steady.C130_sets_violated", "MrHyDE.Solver.Steady.C130_frequency_violated", "MrHyDE.Solver.Steady.C130_leftover_violated", "MrHyDE.Solver.Steady.C130_dynamic_violated", "MrHyDE.Solver.Steady.C130_type_violated", "MrHyDE.Solver.Steady.C130_explicit_violated"], "note": "holds for one set, initial times between -1 and 1, write frequency one; false for sets coupled both ways with one cycle, for later initial times (the time is used as an index), several sets, other frequencies (all proved); the explicit dependence of the objective on scalar parameters is ignored (C171)"},
 {"property": "C131", "status": "partial", "theorems": ["MrHyDE.Disc.Face.C131_quad_trace", "MrHyDE.Disc.Face.C131_quad_inside", "MrHyDE.Disc.Face.C131_quad_unity", "MrHyDE.Disc.Face.C131_quad_nodes", "MrHyDE.Disc.Face.C131_quad_all", "MrHyDE.Disc.Face.C131_quad_shared_partial", "MrHyDE.Disc.Face.C131_corner_violated", "MrHyDE.Disc.Face.C131_pointwise", "MrHyDE.Disc.Face.C131_batch_violated", "MrHyDE.Disc.Face.C131_tri_trace", "MrHyDE.Disc.Face.C131_tri_unity", "MrHyDE.Disc.Face.C131_tri_inside", "MrHyDE.Disc.Face.C131_tri_nodes_violated", "MrHyDE.Disc.Face.C131_tri_shared_violated", "MrHyDE.Disc.Face.C131_hex_trace", "MrHyDE.Disc.Face.C131_hex_inside", "MrHyDE.Disc.Face.C131_hex_shared_partial", "MrHyDE.Disc.Face.C131_hex_shared_violated", "MrHyDE.Disc.Face.C131_hex_nodes_partial", "MrHyDE.Disc.Face.C131_hex_nodes_violated", "MrHyDE.Disc.Face.C131_tet_partial", "MrHyDE.Disc.Face.C131_tet_violated", "MrHyDE.Disc.Face.C131_tri_all", "MrHyDE.Disc.Face.C131_tri_shared_partial", "MrHyDE.Disc.Face.C131_even_partial"], "note": "Quadrilaterals and the interior hold; at corners two sides count; shared edges agree only for opposite kinds of edges; triangles use the interval [-1,1] on edges of length one; the face x=1 of hexahedra is numbered transposed and the nodes of the other faces are transposed; tetrahedra exist for order zero only."},
 {"property": "C132", "status": "partial", "theorems": ["MrHyDE.Modules.WeakGalerkin.C132_volume", "MrHyDE.Modules.WeakGalerkin.C132_face", "MrHyDE.Modules.WeakGalerkin.C132_side", "MrHyDE.Modules.WeakGalerkin.C132_conservation", "MrHyDE.Modules.WeakGalerkin.C132_darcy", "MrHyDE.Modules.WeakGalerkin.C132_energy", "MrHyDE.Modules.WeakGalerkin.C132_rest", "MrHyDE.Modules.WeakGalerkin.C132_dirichlet_violated", "MrHyDE.Modules.WeakGalerkin.C132_coarse_violated", "MrHyDE.Modules.WeakGalerkin.C132_ac_divergence", "MrHyDE.Modules.WeakGalerkin.C132_ac_span", "MrHyDE.Modules.WeakGalerkin.C132_ac_constants", "MrHyDE.Modules.WeakGalerkin.C132_ac_position_violated", "MrHyDE.Modules.WeakGalerkin.C132_ac_edges_violated", "MrHyDE.Modules.WeakGalerkin.C132_ac_nodes"], "note": "All assembly identities hold. A prescribed element pressure is counted twice together with the face pressure; the flux may go to the wrong coarse variable; HDIV_AC maps all functions by Piola and its functions are not tied to edges."},
 {"property": "C133", "status": "partial", "theorems": ["MrHyDE.Modules.Saturation.C133_weak_partial", "MrHyDE.Modules.Saturation.C133_balance", "MrHyDE.Modules.Saturation.C133_uniform", "MrHyDE.Modules.Saturation.C133_further_violated", "MrHyDE.Modules.Saturation.C133_sides_violated", "MrHyDE.Modules.Saturation.C133_alone_iff"], "note": "Weak form, balance and uniform states proved where S is alone in its set; with further variables fluxes and sources that were never stored are read (proved), and sides are always closed (proved)."},
 {"property": "C134", "status": "partial", "theorems": ["MrHyDE.Modules.LevelSet.C134_weak_partial", "MrHyDE.Modules.LevelSet.C134_balance", "MrHyDE.Modules.LevelSet.C134_transported", "MrHyDE.Modules.LevelSet.C134_distance", "MrHyDE.Modules.LevelSet.C134_restoring", "MrHyDE.Modules.LevelSet.C134_names", "MrHyDE.Modules.LevelSet.C134_zero_violated", "MrHyDE.Modules.LevelSet.C134_fire_violated", "MrHyDE.Modules.LevelSet.C134_slow_violated", "MrHyDE.Modules.LevelSet.C134_output_violated", "MrHyDE.Modules.LevelSet.C134_velocity"], "note": "Proved for speeds above 1e-6; the stabilisation divides by zero where the velocity vanishes, is too large for slow flow, and the reported length of the gradient is another one than in the equations (all proved)."},
 {"property": "C135", "status": "partial", "theorems": ["MrHyDE.Modules.Rothermal.C135_rothermel", "MrHyDE.Modules.Rothermal.C135_sign", "MrHyDE.Modules.Rothermal.C135_optimum", "MrHyDE.Modules.Rothermal.C135_bounds", "MrHyDE.Modules.Rothermal.C135_stands", "MrHyDE.Modules.Rothermal.C135_direction", "MrHyDE.Modules.Rothermal.C135_front", "MrHyDE.Modules.Rothermal.C135_turn", "MrHyDE.Modules.Rothermal.C135_external", "MrHyDE.Modules.Rothermal.C135_bare_violated", "MrHyDE.Modules.Rothermal.C135_wet_violated", "MrHyDE.Modules.Rothermal.C135_half_violated", "MrHyDE.Modules.Rothermal.C135_threshold_violated", "MrHyDE.Modules.Rothermal.C135_output_violated", "MrHyDE.Modules.Rothermal.C135_scale_violated", "MrHyDE.Modules.Rothermal.C135_scale_partial", "MrHyDE.Modules.Rothermal.C135_scale"], "note": "Formulas, sign, bounds, directions and rotation proved; cells without data give no number, wet fuel a negative rate, the front less than half the rate, output and offered scale differ (all proved)."},
 {"property": "C136", "status": "partial", "theorems": ["MrHyDE.Mesh.ExoGrid.C136_grid", "MrHyDE.Mesh.ExoGrid.C136_cell", "MrHyDE.Mesh.ExoGrid.C136_unique", "MrHyDE.Mesh.ExoGrid.C136_data_partial", "MrHyDE.Mesh.ExoGrid.C136_order_violated", "MrHyDE.Mesh.ExoGrid.C136_spacing_violated", "MrHyDE.Mesh.ExoGrid.C136_nodal", "MrHyDE.Mesh.ExoGrid.C136_bilinear", "MrHyDE.Mesh.ExoGrid.C136_accepts"], "note": "Proved for grids with equal spacings numbered row by row; other numberings are not noticed, and on small meshes unequal spacings pass (both proved). Reading of the file itself is not modelled."},
 {"property": "C137", "status": "partial", "theorems": ["MrHyDE.Modules.PhaseField.C137_mobility", "MrHyDE.Modules.PhaseField.C137_weak_partial", "MrHyDE.Modules.PhaseField.C137_stale_violated", "MrHyDE.Modules.PhaseField.C137_space_violated", "MrHyDE.Modules.PhaseField.C137_line_violated", "MrHyDE.Modules.PhaseField.C137_pure", "MrHyDE.Modules.PhaseField.C137_energy", "MrHyDE.Modules.PhaseField.C137_parameters", "MrHyDE.Modules.PhaseField.C137_numbers"], "note": "Right in two dimensions for fields that do not vary over the group; the vectors of point values are never emptied, so varying fields are replaced by those of the first point of the first element; one dimension reads past the gradient, three dimensions has another factor and ignores the option."},
 {"property": "C138", "status": "partial", "theorems": ["MrHyDE.Modules.Bianisotropic.C138_faraday", "MrHyDE.Modules.Bianisotropic.C138_weak_partial", "MrHyDE.Modules.Bianisotropic.C138_names_violated", "MrHyDE.Modules.Bianisotropic.C138_components_violated", "MrHyDE.Modules.Bianisotropic.C138_default_violated", "MrHyDE.Modules.Bianisotropic.C138_active_violated", "MrHyDE.Modules.Bianisotropic.C138_settings", "MrHyDE.Modules.Bianisotropic.C138_absorbing", "MrHyDE.Modules.Bianisotropic.C138_boundary", "MrHyDE.Modules.Bianisotropic.C138_leap", "MrHyDE.Modules.Bianisotropic.C138_defaults"], "note": "The weak forms hold if the user defines functions under the names that are read (invepsr, mur) and three components coincide; under the announced names every evaluation of the equation of E fails. Three components are ignored, coupling tensors default to the identity, and one field alone reads fields that do not exist."},
 {"property": "C139", "status": "partial", "theorems": ["MrHyDE.Analysis.C139_names", "MrHyDE.Analysis.C139_vector", "MrHyDE.Analysis.C139_later_run_partial", "MrHyDE.Analysis.C139_gradient", "MrHyDE.Analysis.C139_digits", "MrHyDE.Analysis.C139_digits_violated", "MrHyDE.Analysis.C139_missing", "MrHyDE.Analysis.C139_stale_violated", "MrHyDE.Analysis.C139_same_base_violated"], "note": "Holds up to the twelve printed digits (relative error at most 5e-12, exact for short numbers). Files of time levels the last run does not have stay on the disk and are read; gradient and parameters under one base name overwrite each other."},
 {"property": "C140", "status": "partial", "theorems": ["MrHyDE.Analysis.C140_names", "MrHyDE.Analysis.C140_files", "MrHyDE.Analysis.C140_recover_partial", "MrHyDE.Analysis.C140_memory", "MrHyDE.Analysis.C140_steady", "MrHyDE.Analysis.C140_transient_violated", "MrHyDE.Analysis.C140_recompute_violated", "MrHyDE.Analysis.C140_default_violated", "MrHyDE.Analysis.C140_stops", "MrHyDE.Analysis.C140_times_violated", "MrHyDE.Analysis.C140_times", "MrHyDE.Analysis.C140_sets", "MrHyDE.Analysis.C140_keeps"], "note": "True for steady runs. Transient: only as many states as the multistep formula has history terms are read, so with the first order integrator no adjoint step is made and the gradient is zero; times are made up from the step; recomputed states are not kept; default names of writer and reader differ."},
 {"property": "C141", "status": "partial", "theorems": ["MrHyDE.Analysis.C141_rows_partial", "MrHyDE.Analysis.C141_point", "MrHyDE.Analysis.C141_levels_violated", "MrHyDE.Analysis.C141_solutions", "MrHyDE.Analysis.C141_columns", "MrHyDE.Analysis.C141_adjoints_violated", "MrHyDE.Analysis.C141_adjoint_states_violated", "MrHyDE.Analysis.C141_component_violated", "MrHyDE.Analysis.C141_pointfile_violated", "MrHyDE.Analysis.C141_responses"], "note": "Rows and files are proved; violated: a point is set at time level 0 only; adjoint solutions pile up, as they are never reset; states are not kept unless solutions are written; files of points and of components."},
 {"property": "C142", "status": "partial", "theorems": ["MrHyDE.Analysis.C142_names", "MrHyDE.Analysis.C142_final_partial", "MrHyDE.Analysis.C142_runs_violated", "MrHyDE.Analysis.C142_history_violated", "MrHyDE.Analysis.C142_kinds_violated", "MrHyDE.Analysis.C142_no_file_violated", "MrHyDE.Analysis.C142_sets_violated", "MrHyDE.Analysis.C142_short", "MrHyDE.Analysis.C142_repeat_violated", "MrHyDE.Analysis.C142_repeat", "MrHyDE.Analysis.C142_missing"], "note": "The state reached is proved to be the one on file; violated: no mode of the restart runs anything, the history starts with the initial state, files of other kinds and other sets, the restart vector is aliased so that a second run starts elsewhere."},
 {"property": "C143", "status": "partial", "theorems": ["MrHyDE.Input.C143_merge", "MrHyDE.Input.C143_clash", "MrHyDE.Input.C143_sections_partial", "MrHyDE.Input.C143_one_file", "MrHyDE.Input.C143_files_found", "MrHyDE.Input.C143_required", "MrHyDE.Input.C143_main_file", "MrHyDE.Input.C143_ending", "MrHyDE.Input.C143_override_violated", "MrHyDE.Input.C143_misspelt_violated", "MrHyDE.Input.C143_no_ending_violated", "MrHyDE.Input.C143_brought_violated", "MrHyDE.Input.C143_auxiliary_violated", "MrHyDE.Input.C143_reserved"], "note": "Proved for files that hold exactly their own section. Violated: a file may replace settings of other sections; a named file that lacks the section passes; a file name without a point is opened and ignored; a section brought by an earlier file does not count; the check of the auxiliary sections looks at the main file only."},
 {"property": "C144", "status": "partial", "theorems": ["MrHyDE.Modules.ShallowHybrid.C144_numbers_partial", "MrHyDE.Modules.ShallowHybrid.C144_numbers_violated", "MrHyDE.Modules.ShallowHybrid.C144_options", "MrHyDE.Modules.ShallowHybrid.C144_neither_violated", "MrHyDE.Modules.ShallowHybrid.C144_flux", "MrHyDE.Modules.ShallowHybrid.C144_three_violated", "MrHyDE.Modules.ShallowHybrid.C144_celerity", "MrHyDE.Modules.ShallowHybrid.C144_jacobian_partial", "MrHyDE.Modules.ShallowHybrid.C144_roe", "MrHyDE.Modules.ShallowHybrid.C144_maxspeed", "MrHyDE.Modules.ShallowHybrid.C144_fastest", "MrHyDE.Modules.ShallowHybrid.C144_consistent", "MrHyDE.Modules.ShallowHybrid.C144_farfield_partial", "MrHyDE.Modules.ShallowHybrid.C144_inflow_violated", "MrHyDE.Modules.ShallowHybrid.C144_slip", "MrHyDE.Modules.ShallowHybrid.C144_interface", "MrHyDE.Modules.ShallowHybrid.C144_conditions", "MrHyDE.Modules.ShallowHybrid.C144_sides_violated", "MrHyDE.Modules.ShallowHybrid.C144_balance", "MrHyDE.Modules.ShallowHybrid.C144_volume", "MrHyDE.Modules.ShallowHybrid.C144_boundary", "MrHyDE.Modules.ShallowHybrid.C144_uniform", "MrHyDE.Modules.ShallowHybrid.C144_storage"], "note": "Violated: a second module in the physics set leads outside the storage; without a stabilisation the run goes on after an error message; in three dimensions nothing is added; in one dimension the far-field condition ignores the normal, so that the left end treats inflow as outflow; other side conditions leave the old flux."},
 {"property": "C145", "status": "partial", "theorems": ["MrHyDE.Modules.NeoHookean.C145_stress_partial", "MrHyDE.Modules.NeoHookean.C145_stress_2d", "MrHyDE.Modules.NeoHookean.C145_reference", "MrHyDE.Modules.NeoHookean.C145_frame_partial", "MrHyDE.Modules.NeoHookean.C145_rotation_violated", "MrHyDE.Modules.NeoHookean.C145_energy_partial", "MrHyDE.Modules.NeoHookean.C145_equilibrium_partial", "MrHyDE.Modules.NeoHookean.C145_moment_partial", "MrHyDE.Modules.NeoHookean.C145_moment_violated", "MrHyDE.Modules.NeoHookean.C145_small_partial", "MrHyDE.Modules.NeoHookean.C145_small_violated", "MrHyDE.Modules.NeoHookean.C145_side", "MrHyDE.Modules.NeoHookean.C145_flux_balance", "MrHyDE.Modules.NeoHookean.C145_flux_violated"], "note": "Violated in two dimensions: the off-diagonal entries of the cofactor matrix are exchanged, so a rigid rotation causes stress, the Cauchy stress is not symmetric and small shears are wrong; the flux of a component with a traction condition reads an unassigned view (1D, 2D) or keeps an old value (3D)."},
 {"property": "C146", "status": "partial", "theorems": ["MrHyDE.Modules.NeoHookean.C146_mises_partial", "MrHyDE.Modules.NeoHookean.C146_invariant", "MrHyDE.Modules.NeoHookean.C146_pressure", "MrHyDE.Modules.NeoHookean.C146_plane_violated", "MrHyDE.Modules.NeoHookean.C146_magnitude_partial", "MrHyDE.Modules.NeoHookean.C146_shear_violated", "MrHyDE.Modules.NeoHookean.C146_names", "MrHyDE.Modules.NeoHookean.C146_cauchy_partial", "MrHyDE.Modules.NeoHookean.C146_frame_partial", "MrHyDE.Modules.NeoHookean.C146_turn_violated"], "note": "Violated: MAG stress ignores shear and so depends on the axes; in plane strain (and one dimension) the stress out of the plane is left out; the neo-Hookean module in two dimensions reports a von Mises stress for a rigid rotation."},
 {"property": "C147", "status": "partial", "theorems": ["MrHyDE.Analysis.Inversion.C147_predicted", "MrHyDE.Analysis.Inversion.C147_responses", "MrHyDE.Analysis.Inversion.C147_gaussian", "MrHyDE.Analysis.Inversion.C147_uniform", "MrHyDE.Analysis.Inversion.C147_data", "MrHyDE.Analysis.Inversion.C147_weights", "MrHyDE.Analysis.Inversion.C147_information", "MrHyDE.Analysis.Inversion.C147_chance", "MrHyDE.Analysis.Inversion.C147_some", "MrHyDE.Analysis.Inversion.C147_files", "MrHyDE.Analysis.Inversion.C147_statistics_partial", "MrHyDE.Analysis.Inversion.C147_statistics_violated", "MrHyDE.Analysis.Inversion.C147_same", "MrHyDE.Analysis.Inversion.C147_responses_violated", "MrHyDE.Analysis.Inversion.C147_type_violated", "MrHyDE.Analysis.Inversion.C147_constant_violated", "MrHyDE.Analysis.Inversion.C147_file_violated"], "note": "Violated: an analytic observed density sees only the first response; a misspelt type or bounds in the wrong order give zero densities and no accepted sample without an error; a response that is the same for all samples gives no densities; statistics of zero or one accepted sample are not numbers; a blank line in the data file is an observation of zeros."},
 {"property": "C148", "status": "partial", "theorems": ["MrHyDE.Modules.LowMach.C148_momentum_partial", "MrHyDE.Modules.LowMach.C148_energy", "MrHyDE.Modules.LowMach.C148_pressure", "MrHyDE.Modules.LowMach.C148_other", "MrHyDE.Modules.LowMach.C148_mass", "MrHyDE.Modules.LowMach.C148_consistent_partial", "MrHyDE.Modules.LowMach.C148_source_violated", "MrHyDE.Modules.LowMach.C148_graddiv_3d_violated", "MrHyDE.Modules.LowMach.C148_params", "MrHyDE.Modules.LowMach.C148_named", "MrHyDE.Modules.LowMach.C148_neumann", "MrHyDE.Modules.LowMach.C148_reserved", "MrHyDE.Modules.LowMach.C148_open", "MrHyDE.Modules.LowMach.C148_closed", "MrHyDE.Modules.LowMach.C148_advance", "MrHyDE.Modules.LowMach.C148_inflow_violated", "MrHyDE.Modules.LowMach.C148_closed_violated", "MrHyDE.Modules.LowMach.C148_read", "MrHyDE.Modules.LowMach.C148_background_violated", "MrHyDE.Modules.LowMach.C148_tau", "MrHyDE.Modules.LowMach.C148_tau_bounds", "MrHyDE.Modules.LowMach.C148_graddiv_violated", "MrHyDE.Modules.LowMach.C148_graddiv_2d"], "note": "Proved for the weak forms, SUPG, PSPG, Neumann data, the closed-system formula. False: the grad-div divergence in 2D uses duy_dx, the setting is ignored in 3D, 'source pr' is ignored, the two fluxes are exchanged in the in/outflow balance, the default density makes the closed-system update void, and no residual reads the updated background pressure."},
 {"property": "C149", "status": "partial", "theorems": ["MrHyDE.Opt.C149_elementwise", "MrHyDE.Opt.C149_reduce", "MrHyDE.Opt.C149_minimum", "MrHyDE.Opt.C149_dimension", "MrHyDE.Opt.C149_box_partial", "MrHyDE.Opt.C149_scalars_violated", "MrHyDE.Opt.C149_file_violated", "MrHyDE.Opt.C149_blank_violated", "MrHyDE.Opt.C149_short", "MrHyDE.Opt.C149_project_partial", "MrHyDE.Opt.C149_free_violated", "MrHyDE.Opt.C149_dynamic_violated", "MrHyDE.Opt.C149_half_violated"], "note": "Box, projection and elementwise operations proved for static parameters with discretized parameters present; violated for runs with scalar parameters only (null pointer), active parameters without a bounds file (fixed at zero), dynamic parameters (bounds have one level), blank, surplus or missing lines."},
 {"property": "C150", "status": "partial", "theorems": ["MrHyDE.Opt.Run.C150_output", "MrHyDE.Opt.Run.C150_steady_violated", "MrHyDE.Opt.Run.C150_source_violated", "MrHyDE.Opt.Run.C150_data", "MrHyDE.Opt.Run.C150_settings_violated", "MrHyDE.Opt.Run.C150_gradient_violated", "MrHyDE.Opt.Run.C150_gradient_partial", "MrHyDE.Opt.Run.C150_files", "MrHyDE.Opt.Run.C150_saved", "MrHyDE.Opt.Run.C150_final_partial", "MrHyDE.Opt.Run.C150_final_violated", "MrHyDE.Opt.Run.C150_numbers"], "note": "Silence during the optimisation, restored output flag, untouched other files, data generation and the round trip of the saved parameters proved for every history of requests. Violated: in steady runs the file in the input is replaced and no new one made; disabling the source has no effect; data generation overwrites the response type and with it drops the direct part of every gradient; after a rejected last trial step output and saved parameters belong to the rejected point."},
 {"property": "C151", "status": "partial", "theorems": ["MrHyDE.Postprocess.Exodus.C151_state", "MrHyDE.Postprocess.Exodus.C151_average", "MrHyDE.Postprocess.Exodus.C151_parameter_partial", "MrHyDE.Postprocess.Exodus.C151_parameter_violated", "MrHyDE.Postprocess.Exodus.C151_search", "MrHyDE.Postprocess.Exodus.C151_curl_violated", "MrHyDE.Postprocess.Exodus.C151_extra_violated", "MrHyDE.Postprocess.Exodus.C151_cells_exact", "MrHyDE.Postprocess.Exodus.C151_derived_exact", "MrHyDE.Postprocess.Exodus.C151_cells_partial", "MrHyDE.Postprocess.Exodus.C151_derived_partial", "MrHyDE.Postprocess.Exodus.C151_partial", "MrHyDE.Postprocess.Exodus.C151_sets_violated", "MrHyDE.Postprocess.Exodus.C151_derived_violated", "MrHyDE.Postprocess.Exodus.C151_names_violated"], "note": "State variables of all sets and kinds proved without conditions, averages proved to be integrals over measure, the whole output of a block proved for fields of the first set. Violated: extra cell fields that use another set, and derived quantities that use another set or a discretized parameter, show the values of elements of the last group; vector parameters other than the first one never end the search for their name; HCURL parameters are tested with the wrong index; extra nodal fields are zero; names of derived quantities shift when a module returns no values."},
 {"property": "C152", "status": "partial", "theorems": ["MrHyDE.Postprocess.Exodus.C152_partial", "MrHyDE.Postprocess.Exodus.C152_extra_violated", "MrHyDE.Postprocess.Exodus.C152_type_violated", "MrHyDE.Postprocess.Exodus.C152_stk_violated", "MrHyDE.Postprocess.Exodus.C152_grains_violated", "MrHyDE.Postprocess.Exodus.C152_hface", "MrHyDE.Postprocess.Exodus.C152_mesh"], "note": "Proved for every input apart from: extra nodal fields in a UQ run are declared with the sample number and written without it; a discretized parameter without type has a default everywhere but in the declarations, which throw; output with a mesh outside STK dereferences a null pointer; new grains without mesh data write fields never declared. Variables on faces are declared but only written on request."},
 {"property": "C153", "status": "partial", "theorems": ["MrHyDE.Views.DataFile.C153_points_partial", "MrHyDE.Views.DataFile.C153_many_violated", "MrHyDE.Views.DataFile.C153_comma_violated", "MrHyDE.Views.DataFile.C153_blank_violated", "MrHyDE.Views.DataFile.C153_long_violated", "MrHyDE.Views.DataFile.C153_values", "MrHyDE.Views.DataFile.C153_partial", "MrHyDE.Views.DataFile.C153_order", "MrHyDE.Views.DataFile.C153_short_violated", "MrHyDE.Views.DataFile.C153_use_partial", "MrHyDE.Views.DataFile.C153_quadrature_violated", "MrHyDE.Views.DataFile.C153_grid_partial", "MrHyDE.Views.DataFile.C153_gridnode_partial", "MrHyDE.Views.DataFile.C153_float_violated", "MrHyDE.Views.DataFile.C153_gridshort_violated"], "note": "Proved for up to three coordinates, blanks between them and lines below 99 characters. More coordinates give no points, commas and empty lines repeat values of the line before, long lines make additional points, numbers of points and records are not compared, grid points are rounded to single precision, and values at integration points never reach a module."},
 {"property": "C154", "status": "partial", "theorems": ["MrHyDE.Postprocess.SensorData.C154_partial", "MrHyDE.Postprocess.SensorData.C154_refused", "MrHyDE.Postprocess.SensorData.C154_misfit", "MrHyDE.Postprocess.SensorData.C154_missing_violated", "MrHyDE.Postprocess.SensorData.C154_padded", "MrHyDE.Postprocess.SensorData.C154_short_violated", "MrHyDE.Postprocess.SensorData.C154_times_violated", "MrHyDE.Postprocess.SensorData.C154_nodata_violated", "MrHyDE.Postprocess.SensorData.C154_mesh_partial", "MrHyDE.Postprocess.SensorData.C154_mesh_groups_violated", "MrHyDE.Postprocess.SensorData.C154_mesh_datum_violated", "MrHyDE.Postprocess.SensorData.C154_mesh_count_violated", "MrHyDE.Postprocess.SensorData.C154_mesh_name_violated", "MrHyDE.Postprocess.SensorData.C154_quadrature", "MrHyDE.Postprocess.SensorData.C154_side_violated", "MrHyDE.Postprocess.SensorData.C154_first_violated", "MrHyDE.Postprocess.SensorData.C154_mesh_negative_violated"], "note": "Proved for files with one line of as many measurements as times for each point, and for mesh files with one element in each group and the number of sensors in the field with the number of the block. A missing file of points is an exception, short lines are filled with zeros which are compared, additional measurements are taken to be made at time zero, and mesh sensors ignore elements beyond the number of groups and share one datum."},
 {"property": "C155", "status": "partial", "theorems": ["MrHyDE.Postprocess.SensorValue.C155_basis_partial", "MrHyDE.Postprocess.SensorValue.C155_order_violated", "MrHyDE.Postprocess.SensorValue.C155_face_violated", "MrHyDE.Postprocess.SensorValue.C155_solution", "MrHyDE.Postprocess.SensorValue.C155_partial", "MrHyDE.Postprocess.SensorValue.C155_vector_violated", "MrHyDE.Postprocess.SensorValue.C155_set_violated", "MrHyDE.Postprocess.SensorValue.C155_components_partial"], "note": "The recorded solution is right for all sets and components once the basis functions are known. These are right if the bases of kind HGRAD come first and there is none on faces; otherwise entries past the end of a list are written. For responses, only scalar variables of physics set 0 are right: second and third components keep old values, and with another current set the unknowns of set 0 are used."},
 {"property": "C156", "status": "partial", "theorems": ["MrHyDE.Objective.State.C156_partial", "MrHyDE.Objective.State.C156_regularisation_violated", "MrHyDE.Objective.State.C156_fixed_violated", "MrHyDE.Objective.State.C156_fields_partial", "MrHyDE.Objective.State.C156_face_violated", "MrHyDE.Objective.State.C156_points_violated", "MrHyDE.Objective.State.C156_points_partial", "MrHyDE.Objective.State.C156_parameters_partial", "MrHyDE.Objective.State.C156_parameters_violated"], "note": "Proved over the reals for all four types with the fixed unknowns at rest. Not for regularisations that depend on the state (no contribution), for an unknown of a second set with a number fixed in the first, for discretised parameters owned by another process (read beyond the vector), for responses at sensors behind a face variable (wrong field); and a sensor overwrites the first integration point of the boundary group used last."},
 {"property": "C157", "status": "partial", "theorems": ["MrHyDE.Assembly.Newton.C157_partial", "MrHyDE.Assembly.Newton.C157_residual", "MrHyDE.Assembly.Newton.C157_affine_partial", "MrHyDE.Assembly.Newton.C157_multiscale_partial", "MrHyDE.Assembly.Newton.C157_multiscale_violated", "MrHyDE.Assembly.Newton.C157_terms_partial", "MrHyDE.Assembly.Newton.C157_terms_violated", "MrHyDE.Assembly.Newton.C157_faces_violated"], "note": "Proved for steady states and all stages of the time integrators, with any schedule, assuming the chain rule for the derivative numbers. Not on a process without elements of the first block when there are subgrid models (residual without, matrix with the subgrid model), nor with volume terms switched off: then the groups scatter what the last boundary group or the groups before left in the workset."},
 {"property": "C158", "status": "partial", "theorems": ["MrHyDE.BC.Values.C158_partial", "MrHyDE.BC.Values.C158_state_partial", "MrHyDE.BC.Values.C158_reproduced_partial", "MrHyDE.BC.Values.C158_oblique_violated", "MrHyDE.BC.Values.C158_scalar_partial", "MrHyDE.BC.Values.C158_sides_violated", "MrHyDE.BC.Values.C158_text_violated", "MrHyDE.BC.Values.C158_constant_partial", "MrHyDE.BC.Values.C158_coefficient_violated", "MrHyDE.BC.Values.C158_time_partial", "MrHyDE.BC.Values.C158_static_violated", "MrHyDE.BC.Values.C158_data_partial", "MrHyDE.BC.Values.C158_components_violated", "MrHyDE.BC.Values.C158_normal_violated", "MrHyDE.BC.Values.C158_label_partial"], "note": "Proved (closest trace, exact reproduction, state after the call) for scalar bases, edge elements, and face elements on sides with the normal along an axis, for any solution of the system, on one process and without lumping. Not for face elements on other sides (the mass matrix is another one than the right-hand side belongs to), edge elements without a first component, face elements with component entries, scalar data with different numbers or texts, and data in time with the default of \"static data\". Scalar parameters in the data: stale or zero, see C171."},
 {"property": "C159", "status": "partial", "theorems": ["MrHyDE.Subgrid.Switch.C159_partial", "MrHyDE.Subgrid.Switch.C159_reproduces_partial", "MrHyDE.Subgrid.Switch.C159_mean_partial", "MrHyDE.Subgrid.Switch.C159_same_partial", "MrHyDE.Subgrid.Switch.C159_size_violated", "MrHyDE.Subgrid.Switch.C159_order_violated", "MrHyDE.Subgrid.Switch.C159_mixed_violated", "MrHyDE.Subgrid.Switch.C159_room_violated", "MrHyDE.Subgrid.Switch.C159_outside_violated", "MrHyDE.Subgrid.Switch.C159_groups_partial", "MrHyDE.Subgrid.Switch.C159_numbers_partial", "MrHyDE.Subgrid.Switch.C159_plain_block_violated"], "note": "Proved for scalar variables with equally many unknowns, given in the same order, at most 64 columns per row: the closest state with the weights of the reference element, reproduction, weighted mean, all groups of one update, times, flags. Not for fine elements of different sizes (mean not kept), variables in another order, mixed or vector-valued bases, large elements, meshes with a block without subgrid models."},
 {"property": "C160", "status": "partial", "theorems": ["MrHyDE.Subgrid.Life.C160_sync_partial", "MrHyDE.Subgrid.Life.C160_start_partial", "MrHyDE.Subgrid.Life.C160_async_partial", "MrHyDE.Subgrid.Life.C160_rejected_violated", "MrHyDE.Subgrid.Life.C160_abscissa_violated", "MrHyDE.Subgrid.Life.C160_second_run_violated", "MrHyDE.Subgrid.Life.C160_history_violated", "MrHyDE.Subgrid.Life.C160_first_violated"], "note": "Proved for synchronous steps of the second kind of model with any stages and rejected tries when the earlier value of the fine groups is the last state (zero initial state), and for asynchronous steps with one stage at the end of the step and no rejected try. Not for the first kind of model (earlier values never set), nonzero initial states in the first synchronous step, rejected asynchronous tries, stages inside the step, second runs."},
 {"property": "C161", "status": "partial", "theorems": ["MrHyDE.Subgrid.Errors.C161_partial", "MrHyDE.Subgrid.Errors.C161_total_partial", "MrHyDE.Subgrid.Errors.C161_changing_violated", "MrHyDE.Subgrid.Errors.C161_face_violated", "MrHyDE.Subgrid.Errors.C161_inactive_face_violated"], "note": "Proved for lists of errors without face errors, for models of the second kind or models that do not change. Not for models of the first kind that can change (zero is reported), lists with face errors (workset out of range with two coarse groups on a process; errors of unused models counted)."},
 {"property": "C162", "status": "partial", "theorems": ["MrHyDE.Modules.Kinetic.C162_partial", "MrHyDE.Modules.Kinetic.C162_balance_partial", "MrHyDE.Modules.Kinetic.C162_electron_violated", "MrHyDE.Modules.Kinetic.C162_undetermined_violated", "MrHyDE.Modules.Kinetic.C162_witness_violated", "MrHyDE.Modules.Kinetic.C162_transport_violated", "MrHyDE.Modules.Kinetic.C162_phase_partial", "MrHyDE.Modules.Kinetic.C162_phase_source_violated", "MrHyDE.Modules.Kinetic.C162_phase_violated"], "note": "Proved for C and G (rate and source, equal numbers of functions of H and E) and for the loops of phase elliptic with one phase element. Not for H and E (the block for the electrons adds to the equation of H; E has none), the transport (commented out), phase elliptic with several phase elements or without another function called source at the integration points."},
 {"property": "C163", "status": "partial", "theorems": ["MrHyDE.Modules.MaxwellPotential.C163_rows", "MrHyDE.Modules.MaxwellPotential.C163_partial", "MrHyDE.Modules.MaxwellPotential.C163_equation_partial", "MrHyDE.Modules.MaxwellPotential.C163_weights_violated", "MrHyDE.Modules.MaxwellPotential.C163_rates_violated", "MrHyDE.Modules.MaxwellPotential.C163_side", "MrHyDE.Modules.MaxwellPotential.C163_boundary_violated", "MrHyDE.Modules.MaxwellPotential.C163_media", "MrHyDE.Modules.MaxwellPotential.C163_data1", "MrHyDE.Modules.MaxwellPotential.C163_data2", "MrHyDE.Modules.MaxwellPotential.C163_data3", "MrHyDE.Modules.MaxwellPotential.C163_vars", "MrHyDE.Modules.MaxwellPotential.C163_rate_values", "MrHyDE.Modules.MaxwellPotential.C163_vacuum", "MrHyDE.Modules.MaxwellPotential.C163_current4"], "note": "Proved: every row is the real or imaginary part of the complex integrand; with points of one common weight and no rates both rows vanish exactly when the complex equation does; formulas for sides; media; data of tests 1 to 3. Violated: the weights of the integration points are never used; rates go to the raw positions 0 to 7; the type of every side is 0, so currents and charges on sides have no effect."},
 {"property": "C164", "status": "partial", "theorems": ["MrHyDE.Modules.MaxwellControl.C164_magnetisation", "MrHyDE.Modules.MaxwellControl.C164_no_control", "MrHyDE.Modules.MaxwellControl.C164_ampere_2d_partial", "MrHyDE.Modules.MaxwellControl.C164_ampere_3d_partial", "MrHyDE.Modules.MaxwellControl.C164_energy_2d", "MrHyDE.Modules.MaxwellControl.C164_absorbing", "MrHyDE.Modules.MaxwellControl.C164_dissipates", "MrHyDE.Modules.MaxwellControl.C164_current_violated", "MrHyDE.Modules.MaxwellControl.C164_component_violated", "MrHyDE.Modules.MaxwellControl.C164_absorbing_2d_violated"], "note": "Proved: the module is maxwell with the magnetisation of the control (B - \u03bcM in Amp\u00e8re's law), maxwell itself without control, energy balance, dissipation by the absorbing condition in three dimensions. Violated: the control is tested with the curls of the basis functions, so it is no current (a uniform control may have no effect); its second component has no effect in two dimensions, nor has the absorbing condition."},
 {"property": "C165", "status": "partial", "theorems": ["MrHyDE.Assembly.Worksets.C165_partial", "MrHyDE.Assembly.Worksets.C165_jacobian", "MrHyDE.Assembly.Worksets.C165_same", "MrHyDE.Assembly.Worksets.C165_violated", "MrHyDE.Assembly.Worksets.C165_create_violated", "MrHyDE.Assembly.Worksets.C165_size"], "note": "Proved: all runs that are not fully explicit, and fully explicit forward runs without subgrid models: every admissible sequence of calls is executed and leaves each workset as prescribed by the calls for its block; the Jacobian is evaluated with an existing workset of sufficient width; residual and Jacobian of a transient step agree. Violated: in fully explicit runs a Jacobian has no physics modules, and for other analyses than forward the creation of the worksets reads outside the table when a process has no elements of the first block."},
 {"property": "C166", "status": "partial", "theorems": ["MrHyDE.Opt.Metric.C166_plain", "MrHyDE.Opt.Metric.C166_matrix", "MrHyDE.Opt.Metric.C166_orthogonal_partial", "MrHyDE.Opt.Metric.C166_constant_partial", "MrHyDE.Opt.Metric.C166_lumped_one_partial", "MrHyDE.Opt.Metric.C166_positive", "MrHyDE.Opt.Metric.C166_face_violated", "MrHyDE.Opt.Metric.C166_violated", "MrHyDE.Opt.Metric.C166_lumped_violated", "MrHyDE.Opt.Metric.C166_matrix_empty_violated"], "note": "Proved: the assembled parameter mass matrix represents the inner product of the fields; the diagonal used by the optimiser does for orthogonal bases (piecewise constants) with and without lumping, and with lumping against the constant field; definiteness for positive weights. Violated: for continuous linear parameters the diagonal gives 2/3 instead of 1 for the constant one, the lumped one 1 instead of 1/3; for parameters of type HFACE the product is zero."},
 {"property": "C167", "status": "partial", "theorems": ["MrHyDE.Database.Points.C167_direct", "MrHyDE.Database.Points.C167_tolerance_partial", "MrHyDE.Database.Points.C167_exact_partial", "MrHyDE.Database.Points.C167_table", "MrHyDE.Database.Points.C167_simple_partial", "MrHyDE.Database.Points.C167_rows_partial", "MrHyDE.Database.Points.C167_parallel_violated", "MrHyDE.Database.Points.C167_brick_violated", "MrHyDE.Database.Points.C167_alone_violated", "MrHyDE.Database.Points.C167_weights_partial", "MrHyDE.Database.Points.C167_weights_violated", "MrHyDE.Database.Points.C167_order_needed"], "note": "Proved: own points without the ip database; with both databases on any mesh points within the tolerance, exact when distinct coordinates are separated, tables without repetition; simple rectangles on one process or on processes above each other: the search ends and the points are exact, for every workset size; own weights with full storage. Violated: processes beside each other (second coordinates of another row), simple meshes in three dimensions, ip database without basis database, partial storage without a database (no weights)."},
 {"property": "C168", "status": "partial", "theorems": ["MrHyDE.Assembly.ParamGrad.C168_partial", "MrHyDE.Assembly.ParamGrad.C168_entries", "MrHyDE.Assembly.ParamGrad.C168_fix_zero_rows_violated", "MrHyDE.Assembly.ParamGrad.C168_multiscale_violated", "MrHyDE.Assembly.ParamGrad.C168_reuse_violated"], "note": "Proved over the reals for steady runs on one process: the gradient is the derivative along every path of solved states, with any workers and schedules for residual, adjoint matrix and parameter derivative; entries of the parameter derivative for any field, pinned points allowed. Assumed: exact solves, chain rule of the derivative numbers. Violated: \"fix zero rows\" (parameter outside the residual gets the adjoint as gradient), blocks with a subgrid model (derivatives overwritten or array left), \"reuse Jacobian\" (derivative of the first step kept)."},
 {"property": "C169", "status": "partial", "theorems": ["MrHyDE.Subgrid.AdjointSolve.C169_partial", "MrHyDE.Subgrid.AdjointSolve.C169_adjoint_violated", "MrHyDE.Subgrid.AdjointSolve.C169_sensitivity_violated", "MrHyDE.Subgrid.AdjointSolve.C169_adjoint_value", "MrHyDE.Subgrid.AdjointSolve.C169_alias", "MrHyDE.Subgrid.AdjointSolve.C169_limit_violated", "MrHyDE.Subgrid.AdjointSolve.C169_alias_violated", "MrHyDE.Subgrid.AdjointSolve.C169_mortar_violated", "MrHyDE.Subgrid.AdjointSolve.C169_gradient_value", "MrHyDE.Subgrid.AdjointSolve.C169_steady_value", "MrHyDE.Subgrid.AdjointSolve.C169_transient_value"], "note": "Proved: forward evaluations end with the state of the fine solver of C107, gradient zero. Violated for every fine problem: adjoint and sensitivity evaluations follow a null pointer (the fine adjoint is never created). Were it created: the increment of a forward Newton step is added once per iteration (closed form proved), the stored states of the sub-steps share one vector (closed form proved), and with mortar the volume part of the parameter derivative is missing. Trusted: assignment of Tpetra multivectors is a shallow copy."},
 {"property": "C170", "status": "partial", "theorems": ["MrHyDE.Assembly.DiagRepair.C170_entries", "MrHyDE.Assembly.DiagRepair.C170_partial", "MrHyDE.Assembly.DiagRepair.C170_constant_violated", "MrHyDE.Assembly.DiagRepair.C170_coupling_violated", "MrHyDE.Assembly.DiagRepair.C170_units_violated", "MrHyDE.Assembly.DiagRepair.C170_adjoint_violated", "MrHyDE.Assembly.DiagRepair.C170_residual_violated", "MrHyDE.Assembly.DiagRepair.C170_shared_violated"], "note": "Proved: all entries of the element's matrix and right hand side; for rows that are entirely zero the replaced system is equivalent to the original one plus the averages. Violated: rows with couplings to other unknowns (a regular matrix becomes singular), small units (absolute tolerance), variables without any equation (constants in the kernel), unknowns with an equation in a neighbouring element, nonzero residual kept, adjoint not the transpose."},
 {"property": "C171", "status": "partial", "theorems": ["MrHyDE.Param.Protocol.C171_partial", "MrHyDE.Param.Protocol.C171_explicit_violated", "MrHyDE.Param.Protocol.C171_first_violated", "MrHyDE.Param.Protocol.C171_stale_violated", "MrHyDE.Param.Protocol.C171_static_violated", "MrHyDE.Param.Protocol.C171_steady_dynamic_violated", "MrHyDE.Param.Protocol.C171_steps_violated", "MrHyDE.Param.Protocol.C171_steps", "MrHyDE.Param.Protocol.C171_adjoint_steps", "MrHyDE.Param.Protocol.C171_sets_violated"], "note": "Proved over all call histories: residual, objective after a step, state derivative of the objective, derivatives of the residual and Dirichlet data of stages see the current values of their time index, seeded in the residual's derivative only; no read outside the table while the steps fit it. Violated: the explicit derivative of the objective with respect to scalar parameters is always taken without seeds (hence zero); initial conditions, Dirichlet data before the solve and the objective at the initial time see zeros in the first run and the previous run's values later; static Dirichlet data (the default) see zeros for ever; a steady adjoint with a time-dependent parameter and a time loop with more steps than planned read outside the table."},
 {"property": "C172", "status": "partial", "theorems": ["MrHyDE.Objective.SensorGrad.C172_partial", "MrHyDE.Objective.SensorGrad.C172_serial_partial", "MrHyDE.Objective.SensorGrad.C172_order_violated", "MrHyDE.Objective.SensorGrad.C172_processes_violated", "MrHyDE.Objective.SensorGrad.C172_state_violated", "MrHyDE.Objective.SensorGrad.C172_state_partial"], "note": "Proved: entries of the gradient by global number are the derivatives (any response, any spaces); the vector of the optimiser on one process with unknowns in order; fields of the state of every set if all bases are HGRAD. Violated: other orders of the local unknowns (derivatives go to other parameters), several processes (write beyond the gradient), state variables of other kinds (read beyond the list of basis gradients)."},
 {"property": "C173", "status": "partial", "theorems": ["MrHyDE.Postprocess.SensorFiles.C173_partial", "MrHyDE.Postprocess.SensorFiles.C173_files_partial", "MrHyDE.Postprocess.SensorFiles.C173_responses_partial", "MrHyDE.Postprocess.SensorFiles.C173_quadrature_violated", "MrHyDE.Postprocess.SensorFiles.C173_lengths_violated", "MrHyDE.Postprocess.SensorFiles.C173_dft_violated", "MrHyDE.Postprocess.SensorFiles.C173_hdf5_partial", "MrHyDE.Postprocess.SensorFiles.C173_hdf5_violated", "MrHyDE.Postprocess.SensorFiles.C173_names_violated", "MrHyDE.Postprocess.SensorFiles.C173_records_partial"], "note": "Proved: text files and files of responses when every sensor is held by exactly one process and all processes know all sensors; HDF5 when one process holds all. Violated: sensors at quadrature points on several processes (lines hold sums over different points, or the processes do not meet), output type dft (reads a record that does not exist), HDF5 on several processes, two objectives in one block (same file names)."},
 {"property": "C174", "status": "partial", "theorems": ["MrHyDE.Postprocess.FarField.C174_partial", "MrHyDE.Postprocess.FarField.C174_single_partial", "MrHyDE.Postprocess.FarField.C174_sensors_violated", "MrHyDE.Postprocess.FarField.C174_directions_violated", "MrHyDE.Postprocess.FarField.C174_phi_violated", "MrHyDE.Postprocess.FarField.C174_theta_violated", "MrHyDE.Postprocess.FarField.C174_processes_violated", "MrHyDE.Postprocess.FarField.C174_defaults_violated", "MrHyDE.Postprocess.FarField.C174_power_violated", "MrHyDE.Postprocess.FarField.C174_angles_partial", "MrHyDE.Postprocess.FarField.C174_lines_partial", "MrHyDE.Postprocess.FarField.C174_kernel_partial", "MrHyDE.Postprocess.FarField.C174_columns_partial", "MrHyDE.Postprocess.FarField.C174_angle_partial"], "note": "Proved: closed form of the potentials of a process; the wanted ones for one direction and one point in each group; lines of the file on one process; grid of angles. Violated: sensor counted by group and direction instead of point, read beyond the transform with more directions than sensors, second polarisation always zero, imaginary part and the other potentials dropped, power 4 pi times the quoted formula, default impedance 0, process without sensors. Not modelled: opening of the file, rounding, whether the component-wise phase is the right kernel."},
 {"property": "C175", "status": "partial", "theorems": ["MrHyDE.Postprocess.FluxFile.C175_partial", "MrHyDE.Postprocess.FluxFile.C175_one_partial", "MrHyDE.Postprocess.FluxFile.C175_lines_partial", "MrHyDE.Postprocess.FluxFile.C175_times_violated", "MrHyDE.Postprocess.FluxFile.C175_solves_violated", "MrHyDE.Postprocess.FluxFile.C175_unreported_violated", "MrHyDE.Postprocess.FluxFile.C175_append_violated", "MrHyDE.Postprocess.FluxFile.C175_number_violated"], "note": "Proved: lines of any history as sums over the times since the report before and the processes; one recorded time; number of lines. Violated: several recorded times (summed), solves without report before a reported one (needs two calls of run on one manager), analyses that never report, earlier contents kept, more values than variables. The integral of one time is C93."},
 {"property": "C176", "status": "partial", "theorems": ["MrHyDE.Postprocess.QuadFiles.C176_partial", "MrHyDE.Postprocess.QuadFiles.C176_integral_partial", "MrHyDE.Postprocess.QuadFiles.C176_side_partial", "MrHyDE.Postprocess.QuadFiles.C176_processes_violated", "MrHyDE.Postprocess.QuadFiles.C176_empty_violated", "MrHyDE.Postprocess.QuadFiles.C176_unknown_violated", "MrHyDE.Postprocess.QuadFiles.C176_last_violated", "MrHyDE.Postprocess.QuadFiles.C176_host_violated"], "note": "Proved on one process: points, weights, normals, and the sums. Violated: several processes (rows and columns exchanged when sending, so defined only if all have as many points as columns; each turn overwrites the file; the first process writes the points of the last in its own file), a process without points in the block, unknown block names. Not modelled: rounding in the text."},
 {"property": "C177", "status": "partial", "theorems": ["MrHyDE.Time.Tables.C177_partial", "MrHyDE.Time.Tables.C177_zero_violated", "MrHyDE.Time.Tables.C177_order_violated", "MrHyDE.Time.Tables.C177_shift", "MrHyDE.Time.Tables.C177_own_partial", "MrHyDE.Time.Tables.C177_revert", "MrHyDE.Time.Tables.C177_synchronous_violated", "MrHyDE.Time.Tables.C177_startup_violated"], "note": "Proved for orders 1 to 6 over any sequence of runs, and for fine groups whose tables fit. Violated: orders below one and above six (accepted, then read outside), synchronous fine models under a coarse method of higher order (weights copied, tables too small), fine models with a start-up method (never left). One physics set at a time; adjoint runs are in C67."},
 {"property": "C178", "status": "partial", "theorems": ["MrHyDE.Opt.Stoch.C178_files", "MrHyDE.Opt.Stoch.C178_single", "MrHyDE.Opt.Stoch.C178_expectation", "MrHyDE.Opt.Stoch.C178_processes_violated", "MrHyDE.Opt.Stoch.C178_count_violated", "MrHyDE.Opt.Stoch.C178_empty_violated", "MrHyDE.Opt.Stoch.C178_write_violated", "MrHyDE.Opt.Stoch.C178_short_violated", "MrHyDE.Opt.Stoch.C178_missing_violated", "MrHyDE.Opt.Stoch.C178_objectives", "MrHyDE.Opt.Stoch.C178_final_partial", "MrHyDE.Opt.Stoch.C178_final_violated", "MrHyDE.Opt.Stoch.C178_steady_violated", "MrHyDE.Opt.Stoch.C178_primal_dual_violated", "MrHyDE.Opt.Stoch.C178_written", "MrHyDE.Opt.Stoch.C178_iterate_partial", "MrHyDE.Opt.Stoch.C178_iterate_short_violated", "MrHyDE.Opt.Stoch.C178_iterate_many_violated", "MrHyDE.Opt.Stoch.C178_iterate_missing_violated", "MrHyDE.Opt.Stoch.C178_word_violated"], "note": "Proved: sums over processes, files of samples round trip on one process, objectives and transient outputs belong to the point asked for last. Violated: processes share the mesh but work on different samples at once, unequal counts, processes without a sample, every process writes the same files, short or missing sample files, rejected last trial point, steady outputs overwrite each other, several vectors of unknowns in a file of one, primal dual without support. The optimiser is any list of calls; risk measures of the library are not modelled."},
 {"property": "C179", "status": "partial", "theorems": ["MrHyDE.Subgrid.Output.C179_mesh", "MrHyDE.Subgrid.Output.C179_nodal_partial", "MrHyDE.Subgrid.Output.C179_cell_partial", "MrHyDE.Subgrid.Output.C179_names", "MrHyDE.Subgrid.Output.C179_vector_violated", "MrHyDE.Subgrid.Output.C179_average_violated", "MrHyDE.Subgrid.Output.C179_extra_violated", "MrHyDE.Subgrid.Output.C179_files", "MrHyDE.Subgrid.Output.C179_steps_partial", "MrHyDE.Subgrid.Output.C179_first_violated", "MrHyDE.Subgrid.Output.C179_steady_violated"], "note": "Proved: mesh, file names, registered names, values of variables at nodes and in elements for the second model, steps of a transient fine model. Violated: the first model writes nothing, a steady fine model keeps the last step only, vectors are zero on one coarse group and read past a list on several, extra nodal fields are zero, extra cell fields are shifted after a group that uses another model and are evaluated with old data. Not modelled: values of vectors at nodes, parameter fields, mesh data, the text of the file."},
 {"property": "C180", "status": "partial", "theorems": ["MrHyDE.Subgrid.Groups.C180_groups_partial", "MrHyDE.Subgrid.Groups.C180_oriented_partial", "MrHyDE.Subgrid.Groups.C180_defined", "MrHyDE.Subgrid.Groups.C180_orientation_violated", "MrHyDE.Subgrid.Groups.C180_larger_violated", "MrHyDE.Subgrid.Groups.C180_quadToTri_violated", "MrHyDE.Subgrid.Groups.C180_triToQuad_violated", "MrHyDE.Subgrid.Groups.C180_tri_violated", "MrHyDE.Subgrid.Groups.C180_quad", "MrHyDE.Subgrid.Groups.C180_initial_partial", "MrHyDE.Subgrid.Groups.C180_initial_violated", "MrHyDE.Subgrid.Groups.C180_quad_sizes", "MrHyDE.Subgrid.Groups.C180_tri_sizes_violated"], "note": "Proved: elements, vertices, dofs, coarse elements and coarse dofs of all groups; the coarse basis where orientations agree with the first group; exactly when the set-up succeeds; quadrilaterals in quadrilaterals for every refinement; initial states without initial data or with one coarse group. Violated: orientations that differ from the first group; a coarse group larger than the first; triangles in quadrilaterals, quadrilaterals in triangles and refined triangles (division by zero on a side that is flagged nowhere); initial data with several coarse groups. Not modelled: other values of 'multiscale method', values of the maps, side maps of tetrahedra and hexahedra."},
 {"property": "C181", "status": "partial", "theorems": ["MrHyDE.Multiscale.Input.C181_sections", "MrHyDE.Multiscale.Input.C181_models_partial", "MrHyDE.Multiscale.Input.C181_single_partial", "MrHyDE.Multiscale.Input.C181_usage", "MrHyDE.Multiscale.Input.C181_info_partial", "MrHyDE.Multiscale.Input.C181_selection_partial", "MrHyDE.Multiscale.Input.C181_selection_violated", "MrHyDE.Multiscale.Input.C181_block_violated", "MrHyDE.Multiscale.Input.C181_type_violated", "MrHyDE.Multiscale.Input.C181_single_violated", "MrHyDE.Multiscale.Input.C181_info_violated", "MrHyDE.Multiscale.Input.C181_default_violated"], "note": "Proved: which sections become models; name, type, block, topology and usage of each for known types and blocks; a single model; usage functions for different names; data of the block on processes with elements of block 0; the words of the selection. Violated: an unknown word of the selection is an undefined choice; an unknown block becomes block 0; an unknown type changes the model before it or writes to an empty list; the usage of a single model is not read; a process without elements of block 0; without 'usage' a further block uses the last model of the input. Not modelled: the other entries of a section, the communicators, the constructors of the models."},
 {"property": "C182", "status": "partial", "theorems": ["MrHyDE.Postprocess.TrueSolutions.C182_measured", "MrHyDE.Postprocess.TrueSolutions.C182_accepted", "MrHyDE.Postprocess.TrueSolutions.C182_compared_partial", "MrHyDE.Postprocess.TrueSolutions.C182_curl_violated", "MrHyDE.Postprocess.TrueSolutions.C182_unknown_violated", "MrHyDE.Postprocess.TrueSolutions.C182_plane_violated", "MrHyDE.Postprocess.TrueSolutions.C182_scalar_violated"], "note": "Proved: the measured errors are exactly those asked for; the inputs accepted are exactly the complete and fitting ones; each measured error compares the right quantities with the expressions of the input at the right points, except the curl in the plane. Violated: the curl in the plane needs two components in the input and then reads a solution field that does not exist, and its true name is ignored; an entry with the name of a vector variable or of a variable on faces is ignored; an entry that fits no variable is ignored. Not modelled: the sums (C94), the parsing of the expressions, several blocks."},
 {"property": "C183", "status": "partial", "theorems": ["MrHyDE.Param.Fields.C183_families", "MrHyDE.Param.Fields.C183_layout", "MrHyDE.Param.Fields.C183_used_partial", "MrHyDE.Param.Fields.C183_family_violated", "MrHyDE.Param.Fields.C183_initial", "MrHyDE.Param.Fields.C183_custom_violated", "MrHyDE.Param.Fields.C183_levels_partial", "MrHyDE.Param.Fields.C183_static_violated", "MrHyDE.Param.Fields.C183_static_scalar_violated"], "note": "Proved: families of a block, unknowns of the requested family on all blocks, initial values on every process in every order, time levels. The basis functions are those of the requested family exactly when the family has the same position on the block as on the first block (C183_family_violated otherwise); static parameters next to dynamic ones vary in time (C183_static_violated); with a custom initial guess announced all unknowns start at zero (C183_custom_violated)."},
 {"property": "C184", "status": "partial", "theorems": ["MrHyDE.Mesh.Construct.C184_asked_partial", "MrHyDE.Mesh.Construct.C184_refused", "MrHyDE.Mesh.Construct.C184_box", "MrHyDE.Mesh.Construct.C184_dimension_violated", "MrHyDE.Mesh.Construct.C184_default_violated", "MrHyDE.Mesh.Construct.C184_output_partial", "MrHyDE.Mesh.Construct.C184_output_violated", "MrHyDE.Mesh.Construct.C184_phase_violated", "MrHyDE.Mesh.Construct.C184_nophase", "MrHyDE.Mesh.Construct.C184_fine_partial", "MrHyDE.Mesh.Construct.C184_fine_violated", "MrHyDE.Mesh.Construct.C184_simple_partial", "MrHyDE.Mesh.Construct.C184_simple_violated"], "note": "Proved: dimension and element type of that dimension give the cells, the nodes per element, the factory and the box asked for; nothing else succeeds; default processes multiply to all processes; output rows for blocks of the input's type; fine scales with the entry element type. Violated: missing dimension, missing element type in three dimensions (also for Exodus files), blocks of different types, every phase space of positive dimension, fine scales with the entry shape, simple meshes with simplices (node counts of triangles on quadrilaterals)."},
 {"property": "C185", "status": "partial", "theorems": ["MrHyDE.Disc.Families.C185_basis_partial", "MrHyDE.Disc.Families.C185_hvol_violated", "MrHyDE.Disc.Families.C185_block", "MrHyDE.Disc.Families.C185_input", "MrHyDE.Disc.Families.C185_refused", "MrHyDE.Disc.Families.C185_quadrature_partial", "MrHyDE.Disc.Families.C185_quadrature_violated", "MrHyDE.Disc.Families.C185_sparse_partial", "MrHyDE.Disc.Families.C185_sparse_violated"], "note": "Proved: a basis is made exactly when type, cell and order mean one (HVOL of order zero only), each family of a block has it at its position, from the lists of variables and parameters to the bases; a family that means nothing ends the run; orders of the rules for one physics set. Violated: HVOL of positive order is piecewise constant; quadrature settings of all physics sets but the first are ignored; the sparsifying mass quadrature takes the order of the last block and has no rule in one and two dimensions."},
 {"property": "C186", "status": "partial", "theorems": ["MrHyDE.Physics.InitialData.C186_projection_partial", "MrHyDE.Physics.InitialData.C186_face_partial", "MrHyDE.Physics.InitialData.C186_interpolation_partial", "MrHyDE.Physics.InitialData.C186_skipped_violated", "MrHyDE.Physics.InitialData.C186_mixed_violated", "MrHyDE.Physics.InitialData.C186_vector_violated", "MrHyDE.Physics.InitialData.C186_type_violated", "MrHyDE.Physics.InitialData.C186_whole_violated", "MrHyDE.Physics.InitialData.C186_same_violated"], "note": "Proved for functions of different names: projection of all variables but those on faces, projection on faces of sets of variables on faces, interpolation of variables with one component. Violated: variables on faces start at zero with the default way; the projection on faces ends the run when the set has another variable; interpolation ends the run with a variable of several components; an unknown 'initial type' gives zero; whole numbers count as nothing; a variable of an earlier set with the same name decides."},
 {"property": "C187", "status": "partial", "theorems": ["MrHyDE.Analysis.Purge.C187_kept_partial", "MrHyDE.Analysis.Purge.C187_same_partial", "MrHyDE.Analysis.Purge.C187_defined_partial", "MrHyDE.Analysis.Purge.C187_violated", "MrHyDE.Analysis.Purge.C187_linalg_partial", "MrHyDE.Analysis.Purge.C187_freed_partial"], "note": "Proved: without the option everything read is there; a run with the option that goes through reads the values of the run without; exactly which settings go through. Violated: every run with the option that solves something (and writes at least once if told to write) reads removed data, because the setup of the linear algebra comes after the purge and the output reads the element numbers."},
 {"property": "C188", "status": "partial", "theorems": ["MrHyDE.Physics.Weights.C188_read_partial", "MrHyDE.Physics.Weights.C188_norm_partial", "MrHyDE.Physics.Weights.C188_text_violated", "MrHyDE.Physics.Weights.C188_whole_violated", "MrHyDE.Physics.Weights.C188_serial_violated", "MrHyDE.Physics.Weights.C188_sets_violated", "MrHyDE.Physics.Weights.C188_left_violated", "MrHyDE.Physics.Weights.C188_interface_partial"], "note": "Proved for one physics set and weights given as real numbers, with a vector over owned and shared unknowns. Violated: expressions and whole numbers count as one without a message; with several sets the positions of the unknowns are those of the set worked on last, so variables get weight zero or memory beyond the list is read; on one process the norm of an explicit run without matrices is undefined."},
 {"property": "C189", "status": "partial", "theorems": ["MrHyDE.Mesh.ExoData.C189_data_partial", "MrHyDE.Mesh.ExoData.C189_ranks", "MrHyDE.Mesh.ExoData.C189_padding_iff", "MrHyDE.Mesh.ExoData.C189_padding_violated", "MrHyDE.Mesh.ExoData.C189_missing_violated", "MrHyDE.Mesh.ExoData.C189_blocks_violated", "MrHyDE.Mesh.ExoData.C189_first_violated", "MrHyDE.Mesh.ExoData.C189_name_violated", "MrHyDE.Mesh.ExoData.C189_nodal_violated", "MrHyDE.Mesh.ExoData.C189_sign", "MrHyDE.Mesh.ExoData.C189_blank_violated"], "note": "Proved for the first step of the block with number 1 and names that are either free of 'Val' or carry a number as fourth part. Violated: other blocks and steps have no influence; a missing file passes as one without variables; from ten processes on the first ranks look for a file without the leading zeros; a name with 'Val' and fewer than three '_' reads outside a list; without a block of number 1 a size never set is used; nodal data is never read."},
 {"property": "C190", "status": "partial", "theorems": ["MrHyDE.Postprocess.Movie.C190_defined_partial", "MrHyDE.Postprocess.Movie.C190_nodal_partial", "MrHyDE.Postprocess.Movie.C190_cell_partial", "MrHyDE.Postprocess.Movie.C190_frames", "MrHyDE.Postprocess.Movie.C190_shared_violated", "MrHyDE.Postprocess.Movie.C190_vector_violated", "MrHyDE.Postprocess.Movie.C190_index_violated", "MrHyDE.Postprocess.Movie.C190_levels_violated", "MrHyDE.Postprocess.Movie.C190_declared", "MrHyDE.Postprocess.Movie.C190_type", "MrHyDE.Postprocess.Movie.C190_last"], "note": "Proved for processes that own all unknowns of their elements and parameters with values at nodes or elements. Violated: the vector read holds only the unknowns a process owns, so shared ones are read outside of it; vector parameters are not written; for type HCURL a list is read at the number of the parameter instead of that of its basis; of parameters that change in time only the last level is shown."},
 {"property": "C191", "status": "partial", "theorems": ["MrHyDE.Multiscale.Training.C191_label", "MrHyDE.Multiscale.Training.C191_features", "MrHyDE.Multiscale.Training.C191_data_partial", "MrHyDE.Multiscale.Training.C191_residual", "MrHyDE.Multiscale.Training.C191_gradient_violated", "MrHyDE.Multiscale.Training.C191_rows_violated", "MrHyDE.Multiscale.Training.C191_phases", "MrHyDE.Multiscale.Training.C191_given_violated", "MrHyDE.Multiscale.Training.C191_static_violated", "MrHyDE.Multiscale.Training.C191_nothing_violated", "MrHyDE.Multiscale.Training.C191_many_violated", "MrHyDE.Multiscale.Training.C191_written"], "note": "Proved: lines and labels fit together for any calls, the meaning of a label, the layout of a line, the residual used, the phases. Violated: rows of the shared table that are no elements of the group are recorded; with 'have ML models' or with static subgrids (the default) collection never ends; nothing collected or five models read outside of lists; the gradient left in the group belongs to another model than the residual."},
 {"property": "C192", "status": "partial", "theorems": ["MrHyDE.Analysis.TextParams.C192_dynamic_partial", "MrHyDE.Analysis.TextParams.C192_static_partial", "MrHyDE.Analysis.TextParams.C192_roundtrip", "MrHyDE.Analysis.TextParams.C192_short_violated", "MrHyDE.Analysis.TextParams.C192_word_violated", "MrHyDE.Analysis.TextParams.C192_missing_violated"], "note": "Proved: files with enough numbers, for any fields, and the round trip with the file of final parameters without fields. Violated: a short file repeats its last number; a word that is no number makes all values from there on zero; a missing file makes all active parameters zero if they do not change in time."},
 {"property": "C193", "status": "partial", "theorems": ["MrHyDE.Objective.Blocks.C193_blocks_partial", "MrHyDE.Objective.Blocks.C193_names_violated", "MrHyDE.Objective.Blocks.C193_own", "MrHyDE.Objective.Blocks.C193_once", "MrHyDE.Objective.Blocks.C193_sum_partial", "MrHyDE.Objective.Blocks.C193_counted_violated", "MrHyDE.Objective.Blocks.C193_norm_violated", "MrHyDE.Objective.Blocks.C193_target_violated", "MrHyDE.Objective.Blocks.C193_response"], "note": "Proved: the choice of blocks if no name is part of another, once and in order, sublists of blocks, sums of integrals and misfits. Violated: a name that is part of another one (x1, x10); the misfit of the whole state and the norm of the parameters are counted once for each block; a target is compared with the response of each block."},
 {"property": "C194", "status": "partial", "theorems": ["MrHyDE.Param.Levels.C194_generate_partial", "MrHyDE.Param.Levels.C194_generate_violated", "MrHyDE.Param.Levels.C194_size_violated", "MrHyDE.Param.Levels.C194_samples_partial", "MrHyDE.Param.Levels.C194_first_violated", "MrHyDE.Param.Levels.C194_last_violated", "MrHyDE.Param.Levels.C194_absent"], "note": "Proved without parameters that change in time. Violated with them: datagen is set in the current level only, so it is one in one step of the generating run, and later zero only in the last step; samples are seen by the first step only (studies of uncertainty) or the last step only (stochastic optimisation). A datagen with two values reads outside of the new values."},
 {"property": "C195", "status": "partial", "theorems": ["MrHyDE.Postprocess.Quantities.C195_partial", "MrHyDE.Postprocess.Quantities.C195_settings", "MrHyDE.Postprocess.Quantities.C195_blocks", "MrHyDE.Postprocess.Quantities.C195_name_violated", "MrHyDE.Postprocess.Quantities.C195_location_violated", "MrHyDE.Postprocess.Quantities.C195_reserve_needed", "MrHyDE.Postprocess.Quantities.C195_pressure_violated", "MrHyDE.Postprocess.Quantities.C195_rate_violated", "MrHyDE.Postprocess.Quantities.C195_pressure_partial"], "note": "Proved for names used once at each location, locations volume or boundary, and modules that reserve as many places as they ask for. Violated otherwise: a name used again takes the integrand defined first; another location is reported as zero without a message; on several blocks the background pressure is that of the last block and its rate is not zero at rest."}
]}

{
 "claims": [
  {
   "property": "C01",
   "status": "proved",
   "theorems": [
    "Discrete1.Props.C01_energy_coarse_index_any_positions",
    "Discrete1.Props.C01_energy_coarse_index",
    "Discrete1.Props.C01_energy_coarse_index_rounded",
    "Discrete1.Props.C01_energy_coarse_index_rounding_error",
    "Discrete1.Props.C01_zero_coarse"
   ],
   "note": ""
  },
  {
   "property": "C02",
   "status": "proved",
   "theorems": [
    "Discrete1.Props.C02_collided_index",
    "Discrete1.Props.C02_uncollided_index"
   ],
   "note": ""
  },
  {
   "property": "C03",
   "status": "proved",
   "theorems": [
    "Discrete1.Props.C03_factor_value",
    "Discrete1.Props.C03_factor_pos",
    "Discrete1.Props.C03_factor_sum",
    "Discrete1.Props.C03_spread_then_coarsen",
    "Discrete1.Props.C03_spread_total"
   ],
   "note": ""
  },
  {
   "property": "C04",
   "status": "proved",
   "theorems": [
    "Discrete1.Props.C04_unweighted_block",
    "Discrete1.Props.C04_unweighted_total",
    "Discrete1.Props.C04_weighted_block",
    "Discrete1.Props.C04_weighted_total",
    "Discrete1.Props.C04_one_group"
   ],
   "note": ""
  },
  {
   "property": "C05",
   "status": "proved",
   "theorems": [
    "Discrete1.Props.C05_between",
    "Discrete1.Props.C05_constant",
    "Discrete1.Props.C05_identity",
    "Discrete1.Props.C05_rate",
    "Discrete1.Props.C05_tower"
   ],
   "note": ""
  },
  {
   "property": "C06",
   "status": "proved",
   "theorems": [
    "Discrete1.Props.C06_rates",
    "Discrete1.Props.C06_full_rate",
    "Discrete1.Props.C06_conservation",
    "Discrete1.Props.C06_conservation_eq",
    "Discrete1.Props.C06_identity",
    "Discrete1.Props.C06_none",
    "Discrete1.Props.C06_coarsen_materials"
   ],
   "note": ""
  },
  {
   "property": "C07",
   "status": "proved",
   "theorems": [
    "Discrete1.Props.C07_between",
    "Discrete1.Props.C07_pos",
    "Discrete1.Props.C07_identity"
   ],
   "note": ""
  },
  {
   "property": "C08",
   "status": "proved",
   "theorems": [
    "Discrete1.Props.C08_forward_iso",
    "Discrete1.Props.C08_backward_iso",
    "Discrete1.Props.C08_full_sweep",
    "Discrete1.Props.C08_full_sweep_aniso",
    "Discrete1.Props.C08_scatter_source",
    "Discrete1.Props.C08_left_reflection",
    "Discrete1.Props.C08_right_reflection",
    "Discrete1.Props.C08_known_source",
    "Discrete1.Props.C08_known_source_exists"
   ],
   "note": ""
  },
  {
   "property": "C09",
   "status": "proved",
   "theorems": [
    "Discrete1.Props.C09_global_balance"
   ],
   "note": ""
  },
  {
   "property": "C10",
   "status": "proved",
   "theorems": [
    "Discrete1.Props.C10_scalar_is_quadrature"
   ],
   "note": ""
  },
  {
   "property": "C11",
   "status": "proved",
   "theorems": [
    "Discrete1.Props.C11_linear"
   ],
   "note": ""
  },
  {
   "property": "C12",
   "status": "proved",
   "theorems": [
    "Discrete1.Props.C12_uniform",
    "Discrete1.Props.C12_linear_in_x"
   ],
   "note": ""
  },
  {
   "property": "C13",
   "status": "proved",
   "theorems": [
    "Discrete1.Props.C13_centers_are_edge_means"
   ],
   "note": ""
  },
  {
   "property": "C14",
   "status": "proved",
   "theorems": [
    "Discrete1.Props.C14_mirrored_solution",
    "Discrete1.Props.C14_reflecting_equals_mirrored",
    "Discrete1.Props.C14_sweep"
   ],
   "note": ""
  },
  {
   "property": "C15",
   "status": "partial",
   "theorems": [
    "Discrete1.Props.C15_sweeps_raise",
    "Discrete1.Props.C15_source_iteration_raises_partial",
    "Discrete1.Props.C15_violation_known_source"
   ],
   "note": "Proved for every iterating solver; REFUTED for known_source_angular/known_source_scalar (C15_violation_known_source): the zero ordinate is silently skipped there."
  },
  {
   "property": "C16",
   "status": "proved",
   "theorems": [
    "Discrete1.Props.C16_thick_cell_negative",
    "Discrete1.Props.C16_nonneg_iff_fine",
    "Discrete1.Props.C16_sweep_nonneg",
    "Discrete1.Props.C16_within_group_nonneg",
    "Discrete1.Props.C16_source_iteration_nonneg",
    "Discrete1.Props.C16_known_source_nonneg",
    "Discrete1.Props.C16_condition_needed"
   ],
   "note": ""
  },
  {
   "property": "C17",
   "status": "proved",
   "theorems": [
    "Discrete1.Props.C17_damping",
    "Discrete1.Props.C17_forward_sweep"
   ],
   "note": ""
  },
  {
   "property": "C18",
   "status": "proved",
   "theorems": [
    "Discrete1.Props.C18_within_group_stops",
    "Discrete1.Props.C18_within_group_stops_aniso"
   ],
   "note": ""
  },
  {
   "property": "C19",
   "status": "proved",
   "theorems": [
    "Discrete1.Props.C19_fixed_point_solves",
    "Discrete1.Props.C19_returned_flux_residual"
   ],
   "note": ""
  },
  {
   "property": "C20",
   "status": "proved",
   "theorems": [
    "Discrete1.Props.C20_off_scatter_complete",
    "Discrete1.Props.C20_off_scatter_0d"
   ],
   "note": ""
  },
  {
   "property": "C21",
   "status": "proved",
   "theorems": [
    "Discrete1.Props.C21_source_iteration_stops",
    "Discrete1.Props.C21_source_iteration_stops_aniso",
    "Discrete1.Props.C21_initial_guess_untouched"
   ],
   "note": ""
  },
  {
   "property": "C22",
   "status": "proved",
   "theorems": [
    "Discrete1.Props.C22_call_fixed_point_solves",
    "Discrete1.Props.C22_downscatter_exact",
    "Discrete1.Props.C22_fixed_point_solves",
    "Discrete1.Props.C22_outer_fixed_point_solves",
    "Discrete1.Props.C22_returned_flux_residual"
   ],
   "note": ""
  },
  {
   "property": "C23",
   "status": "partial",
   "theorems": [
    "Discrete1.Props.C23_source_iteration",
    "Discrete1.Props.C23_known_source_boundary",
    "Discrete1.Props.C23_known_source_scalar_source",
    "Discrete1.Props.C23_violation_scatter_source",
    "Discrete1.Props.C23_violation_scatter_source_example"
   ],
   "note": "Proved for source_iteration (external and boundary, both geometries, iso/aniso) and for the boundary of the known-source functions; REFUTED for the sweep behind ml_source_iteration (C23_violation_scatter_source*): the boundary column is selected with the external source's angle axis."
  },
  {
   "property": "C24",
   "status": "proved",
   "theorems": [
    "Discrete1.Props.C24_drivers",
    "Discrete1.Props.C24_vector_is_outer_matrix",
    "Discrete1.Props.C24_zeroth_moment_only"
   ],
   "note": ""
  },
  {
   "property": "C25",
   "status": "proved",
   "theorems": [
    "Discrete1.Props.C25_matrix_source",
    "Discrete1.Props.C25_vector_source",
    "Discrete1.Props.C25_forms_agree",
    "Discrete1.Props.C25_sign_needed",
    "Discrete1.Props.C25_collapsed_source"
   ],
   "note": ""
  },
  {
   "property": "C26",
   "status": "proved",
   "theorems": [
    "Discrete1.Props.C26_matrix_update",
    "Discrete1.Props.C26_vector_update",
    "Discrete1.Props.C26_updates_agree",
    "Discrete1.Props.C26_scale_invariant"
   ],
   "note": ""
  },
  {
   "property": "C27",
   "status": "proved",
   "theorems": [
    "Discrete1.Props.C27_power_iteration_stops",
    "Discrete1.Props.C27_fixed_point_is_eigenpair",
    "Discrete1.Props.C27_eigenpair_is_fixed_point",
    "Discrete1.Props.C27_hybrid_stops",
    "Discrete1.Props.C27_hybrid_fixed_point_is_eigenpair",
    "Discrete1.Props.C27_unit_norm"
   ],
   "note": ""
  },
  {
   "property": "C28",
   "status": "partial",
   "theorems": [
    "Discrete1.Props.C28_saved_rows_partial",
    "Discrete1.Props.C28_violation"
   ],
   "note": "REFUTED for every input (C28_violation): the file has one row fewer than passes; the flux of the first pass is written to index -1 and never saved. C28_saved_rows_partial states exactly what is saved (passes 2..n, in order; up to 101 passes)."
  },
  {
   "property": "C29",
   "status": "proved",
   "theorems": [
    "Discrete1.Props.C29_collect"
   ],
   "note": ""
  },
  {
   "property": "C30",
   "status": "proved",
   "theorems": [
    "Discrete1.Props.C30_snapshots",
    "Discrete1.Props.C30_early_convergence"
   ],
   "note": ""
  },
  {
   "property": "C31",
   "status": "partial",
   "theorems": [
    "Discrete1.Props.C31_lossless_exact_partial",
    "Discrete1.Props.C31_violation_drops_mode",
    "Discrete1.Props.C31_single_mode_exact_partial",
    "Discrete1.Props.C31_violation_not_exact"
   ],
   "note": "REFUTED for two or more modes: _svd_dmd's (1-energy)>residual mask always drops the last non-zero mode (C31_violation_*). Exactness proved when nothing is truncated and for one-mode errors."
  },
  {
   "property": "C32",
   "status": "proved",
   "theorems": [
    "Discrete1.Props.C32_backward_euler"
   ],
   "note": ""
  },
  {
   "property": "C33",
   "status": "proved",
   "theorems": [
    "Discrete1.Props.C33_bdf2",
    "Discrete1.Props.C33_exact_on_quadratics"
   ],
   "note": ""
  },
  {
   "property": "C34",
   "status": "proved",
   "theorems": [
    "Discrete1.Props.C34_backward_euler_steady",
    "Discrete1.Props.C34_bdf2_steady"
   ],
   "note": ""
  },
  {
   "property": "C35",
   "status": "proved",
   "theorems": [
    "Discrete1.Props.C35_constant_data",
    "Discrete1.Props.C35_causal",
    "Discrete1.Props.C35_short_data_raises"
   ],
   "note": ""
  },
  {
   "property": "C36",
   "status": "proved",
   "theorems": [
    "Discrete1.Props.C36_hybrid_steps",
    "Discrete1.Props.C36_star_coefficients",
    "Discrete1.Props.C36_vhybrid_steps"
   ],
   "note": ""
  },
  {
   "property": "C37",
   "status": "proved",
   "theorems": [
    "Discrete1.Props.C37_fully_implicit_unique",
    "Discrete1.Props.C37_hybrid_fully_implicit",
    "Discrete1.Props.C37_equal_grids",
    "Discrete1.Props.C37_equal_grids_downscatter"
   ],
   "note": ""
  },
  {
   "property": "C38",
   "status": "proved",
   "theorems": [
    "Discrete1.Props.C38_group",
    "Discrete1.Props.C38_block",
    "Discrete1.Props.C38_total",
    "Discrete1.Props.C38_aniso"
   ],
   "note": ""
  },
  {
   "property": "C39",
   "status": "proved",
   "theorems": [
    "Discrete1.Props.C39_hybrid_total",
    "Discrete1.Props.C39_hybrid_total_aniso"
   ],
   "note": ""
  },
  {
   "property": "C40",
   "status": "proved",
   "theorems": [
    "Discrete1.Props.C40_cross_sections",
    "Discrete1.Props.C40_variable_source_iteration"
   ],
   "note": ""
  },
  {
   "property": "C41",
   "status": "partial",
   "theorems": [
    "Discrete1.Props.C41_uniform_partial",
    "Discrete1.Props.C41_consistent_iff_uniform",
    "Discrete1.Props.C41_violation"
   ],
   "note": "REFUTED in general: the code multiplies the cell index by the local width, so the shells are nested spheres exactly when the mesh is uniform (C41_consistent_iff_uniform); proved for uniform meshes, C41_violation gives a non-uniform mesh."
  },
  {
   "property": "C42",
   "status": "proved",
   "theorems": [
    "Discrete1.Props.C42_coefficients",
    "Discrete1.Props.C42_flat_flux"
   ],
   "note": ""
  },
  {
   "property": "C43",
   "status": "partial",
   "theorems": [
    "Discrete1.Props.C43_violation_known_source",
    "Discrete1.Props.C43_violation_drivers"
   ],
   "note": "REFUTED: sphere_known_source_sn rebinds its 2-D flux to a 1-D array and the next write raises IndexError for every input with at least one cell and one nonzero angle (C43_violation_known_source); so do the public known-source drivers (C43_violation_drivers)."
  },
  {
   "property": "C44",
   "status": "proved",
   "theorems": [
    "Discrete1.Props.C44_forward_cell",
    "Discrete1.Props.C44_backward_cell",
    "Discrete1.Props.C44_sweep",
    "Discrete1.Props.C44_stored_edge_iff"
   ],
   "note": ""
  },
  {
   "property": "C45",
   "status": "partial",
   "theorems": [
    "Discrete1.Props.C45_normalised_and_ordered_partial",
    "Discrete1.Props.C45_mirror_order",
    "Discrete1.Props.C45_violation"
   ],
   "note": "Proved for [0,0], [1,0] and [0,1] given as lists (incl. the mirror ordering); REFUTED for [1,1] and for tuples/arrays: UnboundLocalError / ValueError (C45_violation)."
  },
  {
   "property": "C46",
   "status": "proved",
   "theorems": [
    "Discrete1.Props.C46_last_region_wins",
    "Discrete1.Props.C46_contiguous_regions_cover",
    "Discrete1.Props.C46_dash_in_number_rejected"
   ],
   "note": ""
  },
  {
   "property": "C47",
   "status": "proved",
   "theorems": [
    "Discrete1.Props.C47_interleaves"
   ],
   "note": ""
  },
  {
   "property": "C48",
   "status": "proved",
   "theorems": [
    "Discrete1.Props.C48_speeds",
    "Discrete1.Props.C48_increasing",
    "Discrete1.Props.C48_kinetic_energy"
   ],
   "note": ""
  },
  {
   "property": "C49",
   "status": "partial",
   "theorems": [
    "Discrete1.Props.C49_hydride_partial",
    "Discrete1.Props.C49_plain_names_partial",
    "Discrete1.Props.C49_unknown_rejected",
    "Discrete1.Props.C49_mixture_partial",
    "Discrete1.Props.C49_names_partial",
    "Discrete1.Props.C49_violation_never_loads",
    "Discrete1.Props.C49_violation_documented_suffix"
   ],
   "note": "Mixture algebra, name handling and rejection of unknown names proved for every loader; REFUTED for the shipped loader: Path + str raises TypeError for every non-vacuum material (C49_violation_never_loads) and the documented name-X% suffix is always rejected (C49_violation_documented_suffix)."
  },
  {
   "property": "C50",
   "status": "partial",
   "theorems": [
    "Discrete1.Props.C50_source_group_partial",
    "Discrete1.Props.C50_adjacent",
    "Discrete1.Props.C50_violation",
    "Discrete1.Props.C50_violation_grid_below"
   ],
   "note": "Proved whenever the last edge is not the nearest; REFUTED otherwise: IndexError (C50_violation, C50_violation_grid_below). The group chosen contains the energy or is the one just above (C50_adjacent)."
  },
  {
   "property": "C51",
   "status": "proved",
   "theorems": [
    "Discrete1.Props.C51_shutoff",
    "Discrete1.Props.C51_stays_off"
   ],
   "note": ""
  },
  {
   "property": "C52",
   "status": "proved",
   "theorems": [
    "Discrete1.Props.C52_fission_conserved",
    "Discrete1.Props.C52_unlisted_material"
   ],
   "note": ""
  },
  {
   "property": "C53",
   "status": "partial",
   "theorems": [
    "Discrete1.Props.C53_short_labels",
    "Discrete1.Props.C53_scatter_conserved_partial",
    "Discrete1.Props.C53_violation_no_label"
   ],
   "note": "Conservation and physics fallback proved for labelled models; REFUTED for label=None, the default (C53_violation_no_label): label[0] raises TypeError."
  },
  {
   "property": "C54",
   "status": "proved",
   "theorems": [
    "Discrete1.Props.C54_no_models",
    "Discrete1.Props.C54_models",
    "Discrete1.Props.C54_fission_model_pass"
   ],
   "note": ""
  },
  {
   "property": "C55",
   "status": "proved",
   "theorems": [
    "Discrete1.Props.C55_rows",
    "Discrete1.Props.C55_dropped_are_zero",
    "Discrete1.Props.C55_violation_cancelling_row"
   ],
   "note": "Proved in terms of the flux-plus-rate sum. Rows whose entries are nonzero but cancel in the sum are dropped (C55_violation_cancelling_row); with non-negative data the dropped rows are exactly the all-zero ones (C55_dropped_are_zero)."
  },
  {
   "property": "C56",
   "status": "partial",
   "theorems": [
    "Discrete1.Props.C56_no_row_lost_partial",
    "Discrete1.Props.C56_violation_overlap",
    "Discrete1.Props.C56_violation_same_name"
   ],
   "note": "REFUTED: the final assertion only counts rows, so overlapping splits can hide lost rows, and equal file names overwrite each other (C56_violation_*); for disjoint splits with distinct names no row is lost (C56_no_row_lost_partial)."
  },
  {
   "property": "C57",
   "status": "proved",
   "theorems": [
    "Discrete1.Props.C57_normalised"
   ],
   "note": ""
  },
  {
   "property": "C58",
   "status": "partial",
   "theorems": [
    "Discrete1.Props.C58_errors",
    "Discrete1.Props.C58_mae_le_rmse",
    "Discrete1.Props.C58_scores_partial",
    "Discrete1.Props.C58_violation_constant_truth"
   ],
   "note": "Errors and scores proved for a non-constant truth; REFUTED for constant truth: r2 = 0 for a perfect prediction (C58_violation_constant_truth)."
  },
  {
   "property": "C59",
   "status": "partial",
   "theorems": [
    "Discrete1.Props.C59_batches",
    "Discrete1.Props.C59_split_partial",
    "Discrete1.Props.C59_violation_no_training_row"
   ],
   "note": "Single data sets and the three-way split proved; REFUTED when the training fraction is worth less than one row: end_idx = 0 is read as 'whole file' (C59_violation_no_training_row)."
  },
  {
   "property": "C60",
   "status": "partial",
   "theorems": [
    "Discrete1.Props.C60_stored_partial",
    "Discrete1.Props.C60_violation_data_destroyed",
    "Discrete1.Props.C60_violation_shared_metadata",
    "Discrete1.Props.C60_companion_name"
   ],
   "note": "Proved for names containing 'memmap'; REFUTED otherwise: the metadata overwrite the data (C60_violation_data_destroyed); two files may share one metadata file (C60_violation_shared_metadata)."
  },
  {
   "property": "C61",
   "status": "partial",
   "theorems": [
    "Discrete1.Props.C61_best_weights_partial",
    "Discrete1.Props.C61_violation_no_best"
   ],
   "note": "Proved when some epoch has a loss below infinity; REFUTED otherwise: TypeError after training (C61_violation_no_best)."
  },
  {
   "property": "C62",
   "status": "partial",
   "theorems": [
    "Discrete1.Props.C62_best_weights_partial",
    "Discrete1.Props.C62_violation_no_improvement"
   ],
   "note": "Proved when a new epoch beats the checkpoint; REFUTED otherwise: TypeError and the model keeps the last epoch's weights (C62_violation_no_improvement)."
  },
  {
   "property": "C63",
   "status": "partial",
   "theorems": [
    "Discrete1.Props.C63_split_partial",
    "Discrete1.Props.C63_violation_outside_file"
   ],
   "note": "Proved for fractions that add to at most one; REFUTED otherwise: batches outside the file (C63_violation_outside_file)."
  },
  {
   "property": "C64",
   "status": "partial",
   "theorems": [
    "Discrete1.Props.C64_no_interrupt",
    "Discrete1.Props.C64_one_interrupt",
    "Discrete1.Props.C64_ends_after_current_iteration",
    "Discrete1.Props.C64_second_interrupt",
    "Discrete1.Props.C64_handler_restored_partial",
    "Discrete1.Props.C64_violation_handler_lost"
   ],
   "note": "Iteration-boundary behaviour proved for every interleaving; REFUTED for the handler: interrupts in two windows lose the previous handler (C64_violation_handler_lost); it is restored outside of them (C64_handler_restored_partial)."
  },
  {
   "property": "C65",
   "status": "partial",
   "theorems": [
    "Discrete1.Props.C65_outcomes",
    "Discrete1.Props.C65_one_interrupt",
    "Discrete1.Props.C65_violation_second_interrupt"
   ],
   "note": "Proved for at most one interrupt; REFUTED for the second: it only prints (C65_violation_second_interrupt)."
  },
  {
   "property": "C66",
   "status": "partial",
   "theorems": [
    "Discrete1.Props.C66_number",
    "Discrete1.Props.C66_alphabet_partial",
    "Discrete1.Props.C66_alphabet_few_files",
    "Discrete1.Props.C66_violation_names_used_up",
    "Discrete1.Props.C66_unknown_label"
   ],
   "note": "Numbers proved; letters proved while one of the 703 names is free; REFUTED otherwise: IndexError (C66_violation_names_used_up)."
  },
  {
   "property": "C67",
   "status": "proved",
   "theorems": [
    "Discrete1.Props.C67_rejects",
    "Discrete1.Props.C67_linear",
    "Discrete1.Props.C67_substeps",
    "Discrete1.Props.C67_eigenvector"
   ],
   "note": ""
  },
  {
   "property": "C68",
   "status": "partial",
   "theorems": [
    "Discrete1.Props.C68_order_accuracy",
    "Discrete1.Props.C68_wynn_reads",
    "Discrete1.Props.C68_wynn_geometric",
    "Discrete1.Props.C68_wynn_constant",
    "Discrete1.Props.C68_wynn_homogeneous",
    "Discrete1.Props.C68_violation_converged",
    "Discrete1.Props.C68_spatial_error",
    "Discrete1.Props.C68_spatial_error_metric",
    "Discrete1.Props.C68_spatial_error_rejects"
   ],
   "note": "order_accuracy, spatial_error (metric, normalisation) and wynn_epsilon (geometric with ratio different from 0 and 1, constants at every rank, homogeneity) proved; REFUTED for the geometric ratio 0: a sequence that has already converged returns its first value (C68_violation_converged)."
  },
  {
   "property": "C69",
   "status": "proved",
   "theorems": [
    "Discrete1.Props.C69_bonnet",
    "Discrete1.Props.C69_explicit",
    "Discrete1.Props.C69_values",
    "Discrete1.Props.C69_low_orders"
   ],
   "note": ""
  },
  {
   "property": "C70",
   "status": "proved",
   "theorems": [
    "Discrete1.Props.C70_one_moment",
    "Discrete1.Props.C70_source_total"
   ],
   "note": ""
  },
  {
   "property": "C71",
   "status": "proved",
   "theorems": [
    "Discrete1.Props.C71_iterations_bounded",
    "Discrete1.Props.C71_fixed_point_balances",
    "Discrete1.Props.C71_balance_is_fixed",
    "Discrete1.Props.C71_finds_the_solution",
    "Discrete1.Props.C71_call_fixed_point",
    "Discrete1.Props.C71_anisotropy_irrelevant",
    "Discrete1.Props.C71_power_iteration_stops",
    "Discrete1.Props.C71_power_iteration_limit",
    "Discrete1.Props.C71_fixed_point_is_eigenpair",
    "Discrete1.Props.C71_eigenpair_is_fixed",
    "Discrete1.Props.C71_accuracy_when_converged"
   ],
   "note": ""
  },
  {
   "property": "C72",
   "status": "partial",
   "theorems": [
    "Discrete1.Props.C72_dispatch_partial",
    "Discrete1.Props.C72_violation_aniso_slab"
   ],
   "note": "REFUTED for anisotropic slabs: ValueError for every input because the Legendre tables and the flags swap positions (C72_violation_aniso_slab); the other three branches are proved to agree with the multigroup group step (C72_dispatch_partial)."
  },
  {
   "property": "C73",
   "status": "proved",
   "theorems": [
    "Discrete1.Props.C73_matrix_product",
    "Discrete1.Props.C73_aniso"
   ],
   "note": ""
  },
  {
   "property": "C74",
   "status": "proved",
   "theorems": [
    "Discrete1.Props.C74_exists",
    "Discrete1.Props.C74_source_iteration_finds_solution",
    "Discrete1.Props.C74_unique",
    "Discrete1.Props.C74_outer_sweep_contracts",
    "Discrete1.Props.C74_source_iteration_converges",
    "Discrete1.Props.C74_sweep_contracts",
    "Discrete1.Props.C74_within_group_converges",
    "Discrete1.Props.C74_solution_unique"
   ],
   "note": ""
  },
  {
   "property": "C75",
   "status": "partial",
   "theorems": [
    "Discrete1.Props.C75_violation_right_reflection_ignored",
    "Discrete1.Props.C75_violation_not_reflecting"
   ],
   "note": "REFUTED: with bc_x=[1,1] the sweep silently ignores the right reflection (C75_violation_*); the single-face cases are C08_left_reflection / C08_right_reflection / C14."
  },
  {
   "property": "C76",
   "status": "partial",
   "theorems": [
    "Discrete1.Props.C76_balance_with_defect",
    "Discrete1.Props.C76_balance_if_diamond_partial",
    "Discrete1.Props.C76_violation"
   ],
   "note": "REFUTED: the exact global balance with its defect is proved (C76_balance_with_defect); the defect is the mismatch between the plain diamond angular edge used in the cell balance and the weighted-diamond edge handed to the next direction. C76_violation is a concrete problem where particles are not conserved; if the stored edges were plain diamond the balance holds (C76_balance_if_diamond_partial)."
  },
  {
   "property": "C77",
   "status": "proved",
   "theorems": [
    "Discrete1.Props.C77_fixed_point_solves"
   ],
   "note": ""
  },
  {
   "property": "C78",
   "status": "partial",
   "theorems": [
    "Discrete1.Props.C78_violation_offdiagonal_moments_ignored"
   ],
   "note": "REFUTED: l>=1 moments of the transfer between different groups never influence the result (C78_violation_offdiagonal_moments_ignored)."
  },
  {
   "property": "C79",
   "status": "partial",
   "theorems": [
    "Discrete1.Props.C79_single_entry_partial",
    "Discrete1.Props.C79_strength_bounds",
    "Discrete1.Props.C79_violation_zero_boundary",
    "Discrete1.Props.C79_violation_many_entries",
    "Discrete1.Props.C79_violation_not_scaled"
   ],
   "note": "Proved for boundaries with exactly one nonzero entry; REFUTED otherwise: zero boundaries become nonzero everywhere, two or more nonzero entries raise IndexError, and the original strength is replaced rather than scaled (C79_violation_*)."
  },
  {
   "property": "C80",
   "status": "partial",
   "theorems": [
    "Discrete1.Props.C80_computed_indices_partial",
    "Discrete1.Props.C80_packaged_whole_grid_partial",
    "Discrete1.Props.C80_violation_coarse_of_stock_grid",
    "Discrete1.Props.C80_violation_unsupported_grid"
   ],
   "note": "Proved for computed indices and for packaged ones on the whole stock grid; REFUTED for packaged coarse indices with fewer fine groups than the grid, and for unsupported grids (C80_violation_*). The packaged tables are not in the repository, so they are a parameter."
  },
  {
   "property": "C81",
   "status": "partial",
   "theorems": [
    "Discrete1.Props.C81_violation_handler_kept",
    "Discrete1.Props.C81_search_stops_partial"
   ],
   "note": "REFUTED: run() leaves its own SIGINT handler installed on every path (C81_violation_handler_kept)."
  },
  {
   "property": "C82",
   "status": "partial",
   "theorems": [
    "Discrete1.Props.C82_finish_iteration_partial",
    "Discrete1.Props.C82_violation_break_loop"
   ],
   "note": "Proved for finish_iteration; REFUTED for break_loop: it returns None whatever the function returned (C82_violation_break_loop)."
  },
  {
   "property": "C83",
   "status": "partial",
   "theorems": [
    "Discrete1.Props.C83_violation_iteration_never_ends",
    "Discrete1.Props.C83_refusal_ends_iteration",
    "Discrete1.Props.C83_violation_next_part"
   ],
   "note": "REFUTED: __getitem__ accepts every index, so the loop never ends and serves rows of the next part (C83_violation_*)."
  },
  {
   "property": "C84",
   "status": "partial",
   "theorems": [
    "Discrete1.Props.C84_violation_doubling"
   ],
   "note": "REFUTED: the k-th continuation trains 2^(k-1) n epochs (C84_violation_doubling)."
  },
  {
   "property": "C85",
   "status": "partial",
   "theorems": [
    "Discrete1.Props.C85_violation_test_loss_of_last_epoch",
    "Discrete1.Props.C85_violation_example"
   ],
   "note": "REFUTED: the test loss is that of the last epoch's weights (C85_violation_*)."
  },
  {
   "property": "C86",
   "status": "partial",
   "theorems": [
    "Discrete1.Props.C86_sample_mean",
    "Discrete1.Props.C86_chunk_mean",
    "Discrete1.Props.C86_violation_empty"
   ],
   "note": "Proved for non-empty data sets (in memory and memmap); an empty one raises ZeroDivisionError (C86_violation_empty)."
  },
  {
   "property": "C87",
   "status": "proved",
   "theorems": [
    "Discrete1.Props.C87_predict"
   ],
   "note": ""
  },
  {
   "property": "C88",
   "status": "partial",
   "theorems": [
    "Discrete1.Props.C88_last_metric_partial",
    "Discrete1.Props.C88_violation_zero_epochs"
   ],
   "note": "Proved for at least one epoch; zero epochs raise UnboundLocalError."
  },
  {
   "property": "C89",
   "status": "partial",
   "theorems": [
    "Discrete1.Props.C89_violation_seed_keyword"
   ],
   "note": "REFUTED: TypeError for every input (C89_violation_seed_keyword)."
  },
  {
   "property": "C90",
   "status": "proved",
   "theorems": [
    "Discrete1.Props.C90_weighted_sum",
    "Discrete1.Props.C90_closed_chain"
   ],
   "note": ""
  },
  {
   "property": "C91",
   "status": "partial",
   "theorems": [
    "Discrete1.Props.C91_violation_negative"
   ],
   "note": "REFUTED: order 16 with dt = 100/rate and order 48 with dt = 1650/rate give a negative density (C91_violation_negative)."
  },
  {
   "property": "C92",
   "status": "partial",
   "theorems": [
    "Discrete1.Props.C92_ss_01_02",
    "Discrete1.Props.C92_ss_03",
    "Discrete1.Props.C92_ss_04",
    "Discrete1.Props.C92_ss_05",
    "Discrete1.Props.C92_td",
    "Discrete1.Props.C92_violation_interface"
   ],
   "note": "Proved for all seven cases at every point off the material interface; REFUTED at the interface: the two-material sources are zero in the middle cell of every odd mesh (C92_violation_interface)."
  },
  {
   "property": "C93",
   "status": "proved",
   "theorems": [
    "Discrete1.Props.C93_reeds_full",
    "Discrete1.Props.C93_reeds_half",
    "Discrete1.Props.C93_reeds_rejects",
    "Discrete1.Props.C93_reeds_rejects_repeated"
   ],
   "note": ""
  },
  {
   "property": "C94",
   "status": "proved",
   "theorems": [
    "Discrete1.Props.C94_outputs_agree"
   ],
   "note": ""
  },
  {
   "property": "C95",
   "status": "partial",
   "theorems": [
    "Discrete1.Props.C95_violation_fixed_aniso",
    "Discrete1.Props.C95_violation_timed_aniso"
   ],
   "note": "REFUTED: with anisotropic scattering every known-source output of fixed1d and every step of timed1d raises TypeError (compiled signature f8[:,:,:]), although the scalar output works (C95_violation_fixed_aniso, C95_violation_timed_aniso)."
  },
  {
   "property": "C96",
   "status": "proved",
   "theorems": [
    "Discrete1.Props.C96_maximum_principle"
   ],
   "note": ""
  },
  {
   "property": "C97",
   "status": "proved",
   "theorems": [
    "Discrete1.Props.C97_backward_euler_nonneg"
   ],
   "note": ""
  },
  {
   "property": "C98",
   "status": "proved",
   "theorems": [
    "Discrete1.Props.C98_backward_euler_bounded"
   ],
   "note": ""
  },
  {
   "property": "C99",
   "status": "proved",
   "theorems": [
    "Discrete1.Props.C99_backward_euler_balance",
    "Discrete1.Props.C99_bdf2_balance"
   ],
   "note": ""
  },
  {
   "property": "C100",
   "status": "proved",
   "theorems": [
    "Discrete1.Props.C100_mirror",
    "Discrete1.Props.C100_mirror_vacuum",
    "Discrete1.Props.C100_backward_euler",
    "Discrete1.Props.C100_bdf2",
    "Discrete1.Props.C100_power",
    "Discrete1.Props.C100_angles",
    "Discrete1.Props.C100_aniso"
   ],
   "note": ""
  },
  {
   "property": "C101",
   "status": "proved",
   "theorems": [
    "Discrete1.Props.C101_scale",
    "Discrete1.Props.C101_backward_euler",
    "Discrete1.Props.C101_bdf2",
    "Discrete1.Props.C101_aniso"
   ],
   "note": ""
  },
  {
   "property": "C102",
   "status": "proved",
   "theorems": [
    "Discrete1.Props.C102_units",
    "Discrete1.Props.C102_backward_euler",
    "Discrete1.Props.C102_bdf2",
    "Discrete1.Props.C102_power",
    "Discrete1.Props.C102_aniso"
   ],
   "note": ""
  },
  {
   "property": "C103",
   "status": "proved",
   "theorems": [
    "Discrete1.Props.C103_order",
    "Discrete1.Props.C103_time",
    "Discrete1.Props.C103_power",
    "Discrete1.Props.C103_aniso"
   ],
   "note": ""
  },
  {
   "property": "C104",
   "status": "proved",
   "theorems": [
    "Discrete1.Props.C104_materials",
    "Discrete1.Props.C104_time",
    "Discrete1.Props.C104_power",
    "Discrete1.Props.C104_aniso"
   ],
   "note": ""
  },
  {
   "property": "C105",
   "status": "partial",
   "theorems": [
    "Discrete1.Props.C105_vacuum_partial",
    "Discrete1.Props.C105_violation_ignored",
    "Discrete1.Props.C105_violation_differs"
   ],
   "note": "REFUTED for non-zero boundary flux: sphere_backward_scatter starts every inward sweep from zero and ignores its boundary argument (C105_violation_ignored, C105_violation_differs). Proved when nothing enters from outside (C105_vacuum_partial)."
  },
  {
   "property": "C106",
   "status": "partial",
   "theorems": [
    "Discrete1.Props.C106_copies",
    "Discrete1.Props.C106_deeponet_partial",
    "Discrete1.Props.C106_violation_deeponet"
   ],
   "note": "Proved for DJINN and AutoDJINN. REFUTED for DeepONet: the transformer receives the caller's array itself (predict.py:530), so an in-place transformer overwrites it and a repeated call differs (C106_violation_deeponet); the array survives exactly when the transformer leaves its argument alone."
  },
  {
   "property": "C107",
   "status": "proved",
   "theorems": [
    "Discrete1.Props.C107_deeponet_row_count",
    "Discrete1.Props.C107_djinn",
    "Discrete1.Props.C107_autodjinn",
    "Discrete1.Props.C107_deeponet"
   ],
   "note": ""
  },
  {
   "property": "C108",
   "status": "partial",
   "theorems": [
    "Discrete1.Props.C108_backend_partial",
    "Discrete1.Props.C108_violation_both_installed",
    "Discrete1.Props.C108_violation_default_tf_only"
   ],
   "note": "REFUTED: predict.py:62 sets tf = None whenever torch imports, so with both packages installed backend='tensorflow' raises ImportError asking to install TensorFlow (C108_violation_both_installed); on a TensorFlow-only machine the default backend raises ImportError. The rest is proved (C108_backend_partial)."
  },
  {
   "property": "C109",
   "status": "proved",
   "theorems": [
    "Discrete1.Props.C109_sequence"
   ],
   "note": ""
  },
  {
   "property": "C110",
   "status": "partial",
   "theorems": [
    "Discrete1.Props.C110_fission_partial",
    "Discrete1.Props.C110_scatter_partial",
    "Discrete1.Props.C110_violation"
   ],
   "note": "Proved for non-negative fluxes. REFUTED in general: the test np.sum(mat_flux) == 0 lets entries of opposite sign in different cells cancel, and then every cell of the material loses its source (C110_violation)."
  },
  {
   "property": "C111",
   "status": "proved",
   "theorems": [
    "Discrete1.Props.C111_auto_steps"
   ],
   "note": ""
  },
  {
   "property": "C112",
   "status": "proved",
   "theorems": [
    "Discrete1.Props.C112_full_grid",
    "Discrete1.Props.C112_full_grid_is_timed",
    "Discrete1.Props.C112_each_its_spectrum"
   ],
   "note": ""
  },
  {
   "property": "C113",
   "status": "partial",
   "theorems": [
    "Discrete1.Props.C113_violation_vector_fission"
   ],
   "note": "REFUTED: _xs_matrix_coarsen indexes the one-dimensional rows of nusigf with two slices, so every such call raises IndexError before any transport is solved (C113_violation_vector_fission)."
  },
  {
   "property": "C114",
   "status": "partial",
   "theorems": [
    "Discrete1.Props.C114_violation_default_chi_raises",
    "Discrete1.Props.C114_violation_default_chi_silent"
   ],
   "note": "REFUTED: transfer_matrix(xs_scatter_c, nusigf, None) broadcasts the vector over the outgoing groups: ValueError unless materials is 1 or equals groups (C114_violation_default_chi_raises); with one material the run silently uses chi = 1 in every group (C114_violation_default_chi_silent)."
  },
  {
   "property": "C115",
   "status": "proved",
   "theorems": [
    "Discrete1.Props.C115_from_below",
    "Discrete1.Props.C115_from_above",
    "Discrete1.Props.C115_fixed_from_below"
   ],
   "note": ""
  },
  {
   "property": "C116",
   "status": "proved",
   "theorems": [
    "Discrete1.Props.C116_more_data_more_flux",
    "Discrete1.Props.C116_exact_nonneg",
    "Discrete1.Props.C116_runs"
   ],
   "note": ""
  },
  {
   "property": "C117",
   "status": "proved",
   "theorems": [
    "Discrete1.Props.C117_power_iteration_nonneg"
   ],
   "note": ""
  },
  {
   "property": "C118",
   "status": "proved",
   "theorems": [
    "Discrete1.Props.C118_balance",
    "Discrete1.Props.C118_below_kinf"
   ],
   "note": ""
  },
  {
   "property": "C119",
   "status": "proved",
   "theorems": [
    "Discrete1.Props.C119_dominant",
    "Discrete1.Props.C119_unique"
   ],
   "note": ""
  },
  {
   "property": "C120",
   "status": "proved",
   "theorems": [
    "Discrete1.Props.C120_bracket"
   ],
   "note": ""
  },
  {
   "property": "C121",
   "status": "proved",
   "theorems": [
    "Discrete1.Props.C121_early_convergence",
    "Discrete1.Props.C121_slab",
    "Discrete1.Props.C121_downscatter"
   ],
   "note": ""
  },
  {
   "property": "C122",
   "status": "partial",
   "theorems": [
    "Discrete1.Props.C122_violation_few_snapshots",
    "Discrete1.Props.C122_violation_one_snapshot"
   ],
   "note": "REFUTED: with K = 0 np.zeros((n, -1)) raises ValueError and with K = 1 the snapshot matrices have no column, so tools.dmd raises, unless a sweep meets the tolerance first; with the code's tolerance R = 0, K = 1 always raises (C122_violation_one_snapshot). For K >= 2 see C121, C123."
  },
  {
   "property": "C123",
   "status": "proved",
   "theorems": [
    "Discrete1.Props.C123_downscatter_exact"
   ],
   "note": ""
  },
  {
   "property": "C124",
   "status": "proved",
   "theorems": [
    "Discrete1.Props.C124_coarsened",
    "Discrete1.Props.C124_full_grid",
    "Discrete1.Props.C124_one_moment"
   ],
   "note": ""
  },
  {
   "property": "C125",
   "status": "proved",
   "theorems": [
    "Discrete1.Props.C125_linear_in_time",
    "Discrete1.Props.C125_downscatter",
    "Discrete1.Props.C125_hybrid_downscatter"
   ],
   "note": ""
  },
  {
   "property": "C126",
   "status": "proved",
   "theorems": [
    "Discrete1.Props.C126_error_bound",
    "Discrete1.Props.C126_downscatter",
    "Discrete1.Props.C126_first_order"
   ],
   "note": ""
  },
  {
   "property": "C127",
   "status": "proved",
   "theorems": [
    "Discrete1.Props.C127_downscatter"
   ],
   "note": ""
  },
  {
   "property": "C128",
   "status": "proved",
   "theorems": [
    "Discrete1.Props.C128_error_bound",
    "Discrete1.Props.C128_source_iteration",
    "Discrete1.Props.C128_downscatter",
    "Discrete1.Props.C128_second_order"
   ],
   "note": ""
  },
  {
   "property": "C129",
   "status": "proved",
   "theorems": [
    "Discrete1.Props.C129_downscatter",
    "Discrete1.Props.C129_superposition"
   ],
   "note": ""
  },
  {
   "property": "C130",
   "status": "proved",
   "theorems": [
    "Discrete1.Props.C130_constant_counts"
   ],
   "note": ""
  },
  {
   "property": "C131",
   "status": "partial",
   "theorems": [
    "Discrete1.Props.C131_violation_other_counts",
    "Discrete1.Props.C131_violation_short_array"
   ],
   "note": "REFUTED in part: a list, tuple or np.int64 raises UnboundLocalError (C131_violation_other_counts); an array with fewer entries than steps raises IndexError after all earlier steps have been computed (C131_violation_short_array). ints and sufficiently long arrays are covered by C133."
  },
  {
   "property": "C132",
   "status": "partial",
   "theorems": [
    "Discrete1.Props.C132_violation_part_of_stock_grid"
   ],
   "note": "REFUTED: whenever the problem has neither one group nor as many groups as the stock grid the call raises; ValueError if everything else is in order, because delta_fine has one entry per stock group (C132_violation_part_of_stock_grid)."
  },
  {
   "property": "C133",
   "status": "proved",
   "theorems": [
    "Discrete1.Props.C133_vhybrid_steps"
   ],
   "note": ""
  },
  {
   "property": "C134",
   "status": "proved",
   "theorems": [
    "Discrete1.Props.C134_full_grid_is_timed"
   ],
   "note": ""
  },
  {
   "property": "C135",
   "status": "proved",
   "theorems": [
    "Discrete1.Props.C135_hybrid_power_passes"
   ],
   "note": ""
  },
  {
   "property": "C136",
   "status": "proved",
   "theorems": [
    "Discrete1.Props.C136_full_grid_is_power_iteration"
   ],
   "note": ""
  },
  {
   "property": "C137",
   "status": "partial",
   "theorems": [
    "Discrete1.Props.C137_single_mode_limit_partial",
    "Discrete1.Props.C137_single_feedback_exact_partial",
    "Discrete1.Props.C137_subcritical_exact_partial",
    "Discrete1.Props.C137_violation_two_modes"
   ],
   "note": "REFUTED for iteration errors with two or more modes (C137_violation_two_modes: a subcritical problem whose unique solution the driver misses, for every SVD routine, because tools.dmd keeps one mode fewer than it found). Proved for iteration errors with one mode (snapshot differences in geometric progression), in particular whenever the only transfers to the same or a lower-numbered group start from one group in one cell (C137_single_feedback_exact_partial, also for supercritical problems; C137_subcritical_exact_partial)."
  },
  {
   "property": "C138",
   "status": "partial",
   "theorems": [
    "Discrete1.Props.C138_test_rows_held_out_partial",
    "Discrete1.Props.C138_violation_validation_row_trained"
   ],
   "note": "REFUTED for validation samples when the number of samples leaves remainder 2 modulo 5 (the first validation row is served for training, C138_violation_validation_row_trained). Proved: test rows are never served for training or validation, and all other remainders are safe."
  },
  {
   "property": "C139",
   "status": "partial",
   "theorems": [
    "Discrete1.Props.C139_process_data_partial",
    "Discrete1.Props.C139_violation_few_samples",
    "Discrete1.Props.C139_tuner_process_data",
    "Discrete1.Props.C139_same_parts_as_memmap"
   ],
   "note": "REFUTED below three samples (ValueError, C139_violation_few_samples). Proved for three samples and more, for the tuner for all sizes, and the agreement with deeponet_memmap."
  },
  {
   "property": "C140",
   "status": "partial",
   "theorems": [
    "Discrete1.Props.C140_networks",
    "Discrete1.Props.C140_other_rows_rejected",
    "Discrete1.Props.C140_prebuilt_networks",
    "Discrete1.Props.C140_violation_few_nodes",
    "Discrete1.Props.C140_violation_missing_key"
   ],
   "note": "Proved for searched networks and for complete prebuilt dictionaries. REFUTED for prebuilt dictionaries with fewer node counts than layers (IndexError in every trial, C140_violation_few_nodes). Activation functions are assumed to keep the length of a row."
  },
  {
   "property": "C141",
   "status": "proved",
   "theorems": [
    "Discrete1.Props.C141_reported",
    "Discrete1.Props.C141_parameters_determine"
   ],
   "note": ""
  },
  {
   "property": "C142",
   "status": "partial",
   "theorems": [
    "Discrete1.Props.C142_studies_run_partial",
    "Discrete1.Props.C142_all_or_none",
    "Discrete1.Props.C142_violation_mixed_modes",
    "Discrete1.Props.C142_violation_changed_choices"
   ],
   "note": "REFUTED when sched_mode mixes None with a mode: the scheduler parameters are suggested as categorical in one trial and numeric in another and the study aborts with ValueError (C142_violation_mixed_modes; C142_all_or_none: a study that runs through never mixes). REFUTED when a stored study is continued with other choices (C142_violation_changed_choices). Proved for all other valid search spaces."
  },
  {
   "property": "C143",
   "status": "partial",
   "theorems": [
    "Discrete1.Props.C143_scheduler_partial",
    "Discrete1.Props.C143_violation_factor_one"
   ],
   "note": "REFUTED for ranges that reach one, as the default (0.1, 1.0) does (ValueError, C143_violation_factor_one). Proved: every scheduler that is trained with has drawn values within the ranges that ReduceLROnPlateau accepts."
  },
  {
   "property": "C144",
   "status": "partial",
   "theorems": [
    "Discrete1.Props.C144_documented_fractions_partial",
    "Discrete1.Props.C144_violation_default_fractions"
   ],
   "note": "REFUTED for the defaults of the code (0.8/0.2; the documentation says 0.6/0.2): validation rows are trained on and all validation is done on test rows (C144_violation_default_fractions). Proved with the documented fractions."
  },
  {
   "property": "C145",
   "status": "proved",
   "theorems": [
    "Discrete1.Props.C145_known_source_angular",
    "Discrete1.Props.C145_known_source_scalar"
   ],
   "note": ""
  },
  {
   "property": "C146",
   "status": "proved",
   "theorems": [
    "Discrete1.Props.C146_outer_sweep_contracts",
    "Discrete1.Props.C146_source_iteration_converges",
    "Discrete1.Props.C146_unique",
    "Discrete1.Props.C146_source_iteration_finds_solution"
   ],
   "note": ""
  },
  {
   "property": "C147",
   "status": "proved",
   "theorems": [
    "Discrete1.Props.C147_stopped_is_accurate",
    "Discrete1.Props.C147_stopped_is_accurate_fine"
   ],
   "note": ""
  },
  {
   "property": "C148",
   "status": "proved",
   "theorems": [
    "Discrete1.Props.C148_backward_euler",
    "Discrete1.Props.C148_bdf2_first",
    "Discrete1.Props.C148_bdf2",
    "Discrete1.Props.C148_drivers"
   ],
   "note": ""
  },
  {
   "property": "C149",
   "status": "proved",
   "theorems": [
    "Discrete1.Props.C149_backward_euler",
    "Discrete1.Props.C149_bdf2",
    "Discrete1.Props.C149_first_order",
    "Discrete1.Props.C149_second_order",
    "Discrete1.Props.C149_hybrid_first_order",
    "Discrete1.Props.C149_hybrid_second_order"
   ],
   "note": ""
  },
  {
   "property": "C150",
   "status": "partial",
   "theorems": [
    "Discrete1.Props.C150_violation_path",
    "Discrete1.Props.C150_groups_partial",
    "Discrete1.Props.C150_violation_edges_modified",
    "Discrete1.Props.C150_edges_kept",
    "Discrete1.Props.C150_second_call",
    "Discrete1.Props.C150_violation_second_call"
   ],
   "note": "REFUTED as stated: ambe always raises TypeError (PosixPath + str); with the path repaired the mapping holds (C150_groups_partial) but the caller's edges are rescaled in place (C150_violation_edges_modified), and converted again by a second call when the grid goes beyond 20 MeV."
  },
  {
   "property": "C151",
   "status": "partial",
   "theorems": [
    "Discrete1.Props.C151_resume_partial",
    "Discrete1.Props.C151_violation_mixed_state",
    "Discrete1.Props.C151_violation_example"
   ],
   "note": "REFUTED as stated: the checkpoint pairs the weights of the best epoch with the optimizer of the last epoch (C151_violation_mixed_state, C151_violation_example). C151_resume_partial proves equality when the last epoch before the stop is the best and a later one improves."
  },
  {
   "property": "C152",
   "status": "proved",
   "theorems": [
    "Discrete1.Props.C152_hybrid_backward_euler_nonneg",
    "Discrete1.Props.C152_vhybrid_backward_euler_nonneg"
   ],
   "note": ""
  },
  {
   "property": "C153",
   "status": "partial",
   "theorems": [
    "Discrete1.Props.C153_violation_bdf2",
    "Discrete1.Props.C153_violation_hybrid_bdf2",
    "Discrete1.Props.C153_first_step_partial"
   ],
   "note": "REFUTED as stated: C153_violation_bdf2 and C153_violation_hybrid_bdf2 show that whenever a single cell decays fast enough in the first step the second bdf2 step is negative, on every positive mesh. C153_first_step_partial proves the first step non-negative."
  },
  {
   "property": "C154",
   "status": "partial",
   "theorems": [
    "Discrete1.Props.C154_hybrid_balance_partial",
    "Discrete1.Props.C154_equal_grids",
    "Discrete1.Props.C154_violation_coarse"
   ],
   "note": "REFUTED as stated: with collapsed groups the step does not balance (C154_violation_coarse). C154_hybrid_balance_partial proves the exact defect for every grid, and C154_equal_grids proves conservation when the collided grid equals the uncollided one."
  },
  {
   "property": "C155",
   "status": "proved",
   "theorems": [
    "Discrete1.Props.C155_surrogate_passes",
    "Discrete1.Props.C155_surrogate_balance"
   ],
   "note": ""
  },
  {
   "property": "C156",
   "status": "proved",
   "theorems": [
    "Discrete1.Props.C156_surrogate_error",
    "Discrete1.Props.C156_placeholders"
   ],
   "note": ""
  },
  {
   "property": "C157",
   "status": "proved",
   "theorems": [
    "Discrete1.Props.C157_unique",
    "Discrete1.Props.C157_exists",
    "Discrete1.Props.C157_aniso_converges"
   ],
   "note": ""
  },
  {
   "property": "C158",
   "status": "partial",
   "theorems": [
    "Discrete1.Props.C158_round_trip",
    "Discrete1.Props.C158_violation_documented_name",
    "Discrete1.Props.C158_violation_untrained",
    "Discrete1.Props.C158_violation_checkpoint_replaced"
   ],
   "note": "Round trip proved (C158_round_trip). REFUTED: the metrics are saved as <name>-loss-metrics.npz, not under the documented name (C158_violation_documented_name); saving an untrained or loaded model raises AttributeError after writing the weights (C158_violation_untrained); a checkpoint called <name>.pt is replaced (C158_violation_checkpoint_replaced)."
  },
  {
   "property": "C159",
   "status": "partial",
   "theorems": [
    "Discrete1.Props.C159_options",
    "Discrete1.Props.C159_unexpected_ignored",
    "Discrete1.Props.C159_violation_tensorboard",
    "Discrete1.Props.C159_optimizer",
    "Discrete1.Props.C159_violation_no_weight_decay",
    "Discrete1.Props.C159_loss_and_scheduler",
    "Discrete1.Props.C159_unknown_names",
    "Discrete1.Props.C159_violation_scheduler_object"
   ],
   "note": "Options, warnings, optimizer, loss and named schedulers proved. REFUTED: TensorBoard is off by default (documented 'run-01'), optimizers without weight decay raise TypeError even with the default, and the documented scheduler objects are refused (C159_violation_*)."
  },
  {
   "property": "C160",
   "status": "proved",
   "theorems": [
    "Discrete1.Props.C160_epoch",
    "Discrete1.Props.C160_steps",
    "Discrete1.Props.C160_choice"
   ],
   "note": ""
  },
  {
   "property": "C161",
   "status": "proved",
   "theorems": [
    "Discrete1.Props.C161_test_data",
    "Discrete1.Props.C161_test_loss",
    "Discrete1.Props.C161_validation_data",
    "Discrete1.Props.C161_validation_loss_only"
   ],
   "note": ""
  },
  {
   "property": "C162",
   "status": "proved",
   "theorems": [
    "Discrete1.Props.C162_duality",
    "Discrete1.Props.C162_source_iteration",
    "Discrete1.Props.C162_known_source"
   ],
   "note": ""
  },
  {
   "property": "C163",
   "status": "proved",
   "theorems": [
    "Discrete1.Props.C163_adjoint_keff",
    "Discrete1.Props.C163_orthogonal"
   ],
   "note": ""
  },
  {
   "property": "C164",
   "status": "proved",
   "theorems": [
    "Discrete1.Props.C164_perturbation"
   ],
   "note": ""
  },
  {
   "property": "C165",
   "status": "proved",
   "theorems": [
    "Discrete1.Props.C165_keff_monotone"
   ],
   "note": ""
  },
  {
   "property": "C166",
   "status": "proved",
   "theorems": [
    "Discrete1.Props.C166_substructure",
    "Discrete1.Props.C166_source_iteration"
   ],
   "note": ""
  },
  {
   "property": "C167",
   "status": "proved",
   "theorems": [
    "Discrete1.Props.C167_part_has_smaller_keff"
   ],
   "note": ""
  },
  {
   "property": "C168",
   "status": "partial",
   "theorems": [
    "Discrete1.Props.C168_source_iteration",
    "Discrete1.Props.C168_scatter_source",
    "Discrete1.Props.C168_power_iteration",
    "Discrete1.Props.C168_sources",
    "Discrete1.Props.C168_hybrid",
    "Discrete1.Props.C168_variable_source_iteration",
    "Discrete1.Props.C168_anisotropic_sources",
    "Discrete1.Props.C168_zero_dimensional",
    "Discrete1.Props.C168_violation_known_source",
    "Discrete1.Props.C168_violation_sphere_edges",
    "Discrete1.Props.C168_violation_discrete_ordinates_edges"
   ],
   "note": "REFUTED for known-source solves and discrete_ordinates with edges. Proved for source_iteration (isotropic, anisotropic, variable groups), scatter-source sweeps, power-iteration, time-source and hybrid kernels. Violations: known_source_* on slabs is safe iff every material index is below cells+edges (a dummy array of that length is indexed by material); sphere with edges=1 and discrete_ordinates(edges=1) always run past an array."
  },
  {
   "property": "C169",
   "status": "partial",
   "theorems": [
    "Discrete1.Props.C169_electronvolts",
    "Discrete1.Props.C169_violation_mev"
   ],
   "note": "REFUTED: the code reads the grid in electronvolts (C169_electronvolts proves the speeds for that unit); for a grid in MeV every speed is that of a neutron with a millionth of the energy."
  },
  {
   "property": "C170",
   "status": "proved",
   "theorems": [
    "Discrete1.Props.C170_dominance_gap",
    "Discrete1.Props.C170_fundamental_mode"
   ],
   "note": ""
  },
  {
   "property": "C171",
   "status": "proved",
   "theorems": [
    "Discrete1.Props.C171_converges_inexact",
    "Discrete1.Props.C171_converges"
   ],
   "note": ""
  },
  {
   "property": "C172",
   "status": "proved",
   "theorems": [
    "Discrete1.Props.C172_tolerance_bounds_keff"
   ],
   "note": ""
  },
  {
   "property": "C173",
   "status": "proved",
   "theorems": [
    "Discrete1.Props.C173_error_bound",
    "Discrete1.Props.C173_first_order"
   ],
   "note": ""
  },
  {
   "property": "C174",
   "status": "partial",
   "theorems": [
    "Discrete1.Props.C174_violation_bdf2_first_order",
    "Discrete1.Props.C174_data_collapsed",
    "Discrete1.Props.C174_fine_bdf2_exact",
    "Discrete1.Props.C174_violation_no_second_order_bound"
   ],
   "note": "REFUTED on coarse grids: C174_violation_bdf2_first_order gives one cell and four groups, collapsed to {0},{1,2},{3} by the package's own routines (C174_data_collapsed), where for every time step the run started in the exact steady state leaves it by at least t*dt/7; C174_violation_no_second_order_bound: no constant C bounds the error by C dt^2.  timed1d.bdf2 keeps that state exactly (C174_fine_bdf2_exact), and on equal grids hybrid1d.bdf2 is second order (C125, C149).  C173 proves that first order holds on every coarse grid."
  },
  {
   "property": "C175",
   "status": "proved",
   "theorems": [
    "Discrete1.Props.C175_exact_arithmetic",
    "Discrete1.Props.C175_rounded_nonneg"
   ],
   "note": ""
  },
  {
   "property": "C176",
   "status": "proved",
   "theorems": [
    "Discrete1.Props.C176_one_pass"
   ],
   "note": ""
  },
  {
   "property": "C177",
   "status": "proved",
   "theorems": [
    "Discrete1.Props.C177_rounding_does_not_accumulate",
    "Discrete1.Props.C177_stopped_accuracy",
    "Discrete1.Props.C177_stopped_accuracy_default"
   ],
   "note": ""
  },
  {
   "property": "C178",
   "status": "proved",
   "theorems": [
    "Discrete1.Props.C178_coarse_groups_kept"
   ],
   "note": ""
  },
  {
   "property": "C179",
   "status": "proved",
   "theorems": [
    "Discrete1.Props.C179_flat_groups_exact",
    "Discrete1.Props.C179_flat_groups_is_timed",
    "Discrete1.Props.C179_flat_groups_is_timed_downscatter"
   ],
   "note": ""
  },
  {
   "property": "C180",
   "status": "partial",
   "theorems": [
    "Discrete1.Props.C180_options",
    "Discrete1.Props.C180_violation_train_size",
    "Discrete1.Props.C180_no_prebuilt",
    "Discrete1.Props.C180_arrays_needed",
    "Discrete1.Props.C180_arrays",
    "Discrete1.Props.C180_memmap",
    "Discrete1.Props.C180_default_space"
   ],
   "note": "REFUTED for train_size: the documentation says 0.6, the constructor uses 0.8 (C180_violation_train_size), so that with the default val_size the whole file is used; everything else of the statement is proved."
  },
  {
   "property": "C181",
   "status": "proved",
   "theorems": [
    "Discrete1.Props.C181_epoch",
    "Discrete1.Props.C181_reports",
    "Discrete1.Props.C181_no_leak",
    "Discrete1.Props.C181_only_the_metric"
   ],
   "note": ""
  },
  {
   "property": "C182",
   "status": "proved",
   "theorems": [
    "Discrete1.Props.C182_exact_arithmetic",
    "Discrete1.Props.C182_rounded_backward_euler_nonneg"
   ],
   "note": ""
  },
  {
   "property": "C183",
   "status": "proved",
   "theorems": [
    "Discrete1.Props.C183_exact_arithmetic",
    "Discrete1.Props.C183_rounded_keff",
    "Discrete1.Props.C183_rounded_keff_downscatter"
   ],
   "note": ""
  },
  {
   "property": "C184",
   "status": "proved",
   "theorems": [
    "Discrete1.Props.C184_rounded_downscatter"
   ],
   "note": ""
  },
  {
   "property": "C185",
   "status": "proved",
   "theorems": [
    "Discrete1.Props.C185_subcritical_converges",
    "Discrete1.Props.C185_solvable_iff_subcritical",
    "Discrete1.Props.C185_supercritical_grows",
    "Discrete1.Props.C185_fixed_source"
   ],
   "note": ""
  },
  {
   "property": "C186",
   "status": "proved",
   "theorems": [
    "Discrete1.Props.C186_relaxes",
    "Discrete1.Props.C186_steady_state_attracts",
    "Discrete1.Props.C186_subcritical_relaxes",
    "Discrete1.Props.C186_supercritical_grows",
    "Discrete1.Props.C186_supercritical_persists",
    "Discrete1.Props.C186_supercritical_geometric"
   ],
   "note": ""
  },
  {
   "property": "C187",
   "status": "partial",
   "theorems": [
    "Discrete1.Props.C187_violation_source_iteration",
    "Discrete1.Props.C187_violation_fixed_source",
    "Discrete1.Props.C187_violation_backward_euler",
    "Discrete1.Props.C187_violation_bdf2"
   ],
   "note": "REFUTED: with any other value every driver returns an all-zero flux without an error, whatever the sources (violation theorems for all data)."
  },
  {
   "property": "C188",
   "status": "partial",
   "theorems": [
    "Discrete1.Props.C188_violation"
   ],
   "note": "REFUTED: in an empty two-shell sphere of any width (sigma dx = 0) with one unit entering along the second of four ordinates, the returned central flux is -1/52, for every guess and convergence test."
  },
  {
   "property": "C189",
   "status": "proved",
   "theorems": [
    "Discrete1.Props.C189_backward_euler",
    "Discrete1.Props.C189_bdf2",
    "Discrete1.Props.C189_hybrid",
    "Discrete1.Props.C189_auto",
    "Discrete1.Props.C189_variable_hybrid",
    "Discrete1.Props.C189_variable_hybrid_call",
    "Discrete1.Props.C189_truncated",
    "Discrete1.Props.C189_constant_source"
   ],
   "note": ""
  },
  {
   "property": "C190",
   "status": "proved",
   "theorems": [
    "Discrete1.Props.C190_solution_kept",
    "Discrete1.Props.C190_returned_flux_residual",
    "Discrete1.Props.C190_downscatter_exact",
    "Discrete1.Props.C190_downscatter_unique",
    "Discrete1.Props.C190_superposition"
   ],
   "note": ""
  },
  {
   "property": "C191",
   "status": "proved",
   "theorems": [
    "Discrete1.Props.C191_scale",
    "Discrete1.Props.C191_units",
    "Discrete1.Props.C191_pi",
    "Discrete1.Props.C191_power"
   ],
   "note": ""
  },
  {
   "property": "C192",
   "status": "proved",
   "theorems": [
    "Discrete1.Props.C192_power_iteration_stops",
    "Discrete1.Props.C192_eigenpair_kept",
    "Discrete1.Props.C192_fixed_point_is_eigenpair"
   ],
   "note": ""
  },
  {
   "property": "C193",
   "status": "proved",
   "theorems": [
    "Discrete1.Props.C193_flat_groups_same_keff",
    "Discrete1.Props.C193_flat_groups_same_keff_downscatter"
   ],
   "note": ""
  },
  {
   "property": "C194",
   "status": "proved",
   "theorems": [
    "Discrete1.Props.C194_hybrid_power_nonneg"
   ],
   "note": ""
  },
  {
   "property": "C195",
   "status": "proved",
   "theorems": [
    "Discrete1.Props.C195_pass_positive",
    "Discrete1.Props.C195_power_iteration_positive"
   ],
   "note": ""
  },
  {
   "property": "C196",
   "status": "proved",
   "theorems": [
    "Discrete1.Props.C196_keff_bounds",
    "Discrete1.Props.C196_eigenvalue_bounds"
   ],
   "note": ""
  },
  {
   "property": "C197",
   "status": "proved",
   "theorems": [
    "Discrete1.Props.C197_unique_eigenpair",
    "Discrete1.Props.C197_keff_after_any_pass",
    "Discrete1.Props.C197_exact_after_one_pass"
   ],
   "note": ""
  },
  {
   "property": "C198",
   "status": "proved",
   "theorems": [
    "Discrete1.Props.C198_pass_bracketed",
    "Discrete1.Props.C198_power_iteration_bracketed"
   ],
   "note": ""
  },
  {
   "property": "C199",
   "status": "proved",
   "theorems": [
    "Discrete1.Props.C199_crash",
    "Discrete1.Props.C199_complete"
   ],
   "note": ""
  },
  {
   "property": "C200",
   "status": "partial",
   "theorems": [
    "Discrete1.Props.C200_violation_stale",
    "Discrete1.Props.C200_violation_crash"
   ],
   "note": "REFUTED: a second run with fewer passes leaves the first run's later flux_scatter_model files, which clean_data_scatter appends with the second run's cross sections (C200_violation_stale); a second run killed after q passes pairs its fluxes with the first run's cross sections without an error (C200_violation_crash)."
  },
  {
   "property": "C201",
   "status": "partial",
   "theorems": [
    "Discrete1.Props.C201_matrix",
    "Discrete1.Props.C201_violation"
   ],
   "note": "REFUTED with chi: fission_cross_sections.npy then holds nusigf, and flux @ nusigf is one number broadcast to every group, so the target is the total production in each group instead of chi times it (C201_violation). True for fission matrices (C201_matrix)."
  },
  {
   "property": "C202",
   "status": "partial",
   "theorems": [
    "Discrete1.Props.C202_fresh",
    "Discrete1.Props.C202_violation_rewrite"
   ],
   "note": "REFUTED when a companion file of an earlier call exists: a crash of the second call leaves zero columns that open without an error (C202_violation_rewrite). Without one, and after completion, it holds (C202_fresh)."
  },
  {
   "property": "C203",
   "status": "partial",
   "theorems": [
    "Discrete1.Props.C203_checkpoint",
    "Discrete1.Props.C203_violation_lost",
    "Discrete1.Props.C203_violation_mixed"
   ],
   "note": "REFUTED: torch.save truncates the old checkpoint in place (C203_violation_lost) and save_model writes two files (C203_violation_mixed). What holds: old, new or an error, never anything else (C203_checkpoint)."
  },
  {
   "property": "C204",
   "status": "partial",
   "theorems": [
    "Discrete1.Props.C204_own_network",
    "Discrete1.Props.C204_fails",
    "Discrete1.Props.C204_violation_shared",
    "Discrete1.Props.C204_violation_path"
   ],
   "note": "REFUTED: the wrapper keeps a reference to the network object it is given, so building a second wrapper on the same network object silently changes the predictions of the first (C204_violation_shared); and the path of the saved file, name.pt, is looked up as name.pt.pt (C204_violation_path). Holds for wrappers with their own network object (C204_own_network, C204_fails)."
  },
  {
   "property": "C205",
   "status": "proved",
   "theorems": [
    "Discrete1.Props.C205_torch",
    "Discrete1.Props.C205_tensorflow",
    "Discrete1.Props.C205_backend_first",
    "Discrete1.Props.C205_state_dict",
    "Discrete1.Props.C205_rows"
   ],
   "note": ""
  },
  {
   "property": "C206",
   "status": "proved",
   "theorems": [
    "Discrete1.Props.C206_backward_euler_step",
    "Discrete1.Props.C206_bdf2_step",
    "Discrete1.Props.C206_bdf2_first",
    "Discrete1.Props.C206_decay",
    "Discrete1.Props.C206_drivers",
    "Discrete1.Props.C206_steady"
   ],
   "note": ""
  },
  {
   "property": "C207",
   "status": "proved",
   "theorems": [
    "Discrete1.Props.C207_inputs_safe",
    "Discrete1.Props.C207_restart",
    "Discrete1.Props.C207_one_file",
    "Discrete1.Props.C207_split_files"
   ],
   "note": ""
  },
  {
   "property": "C208",
   "status": "partial",
   "theorems": [
    "Discrete1.Props.C208_success",
    "Discrete1.Props.C208_violation_assertion",
    "Discrete1.Props.C208_violation_stale"
   ],
   "note": "REFUTED: the assertion comes after the writing, so a call that raises AssertionError has already written complete-looking files that lack the unmatched rows (C208_violation_assertion); a split without rows is skipped, so its file of an earlier run survives a successful call (C208_violation_stale). Proved: with splits that share no label the call succeeds exactly when every row belongs to a split (C208_success)."
  },
  {
   "property": "C209",
   "status": "proved",
   "theorems": [
    "Discrete1.Props.C209_backward_euler",
    "Discrete1.Props.C209_bdf2",
    "Discrete1.Props.C209_backward_euler_driver",
    "Discrete1.Props.C209_bdf2_driver",
    "Discrete1.Props.C209_first_order",
    "Discrete1.Props.C209_second_order"
   ],
   "note": ""
  },
  {
   "property": "C210",
   "status": "proved",
   "theorems": [
    "Discrete1.Props.C210_backward_euler",
    "Discrete1.Props.C210_backward_euler_unfinished",
    "Discrete1.Props.C210_bdf2",
    "Discrete1.Props.C210_bdf2_unfinished",
    "Discrete1.Props.C210_backward_euler_passive",
    "Discrete1.Props.C210_bdf2_passive"
   ],
   "note": ""
  },
  {
   "property": "C211",
   "status": "proved",
   "theorems": [
    "Discrete1.Props.C211_second_order_every_mesh",
    "Discrete1.Props.C211_source_iteration_downscatter",
    "Discrete1.Props.C211_source_iteration"
   ],
   "note": ""
  },
  {
   "property": "C212",
   "status": "partial",
   "theorems": [
    "Discrete1.Props.C212_positive_sources",
    "Discrete1.Props.C212_violation_one_pass",
    "Discrete1.Props.C212_violation_wrong_flux",
    "Discrete1.Props.C212_violation_inner"
   ],
   "note": "REFUTED in general (two violation theorems: one pass only, wrong flux); proved for positive sources on fine meshes."
  },
  {
   "property": "C213",
   "status": "proved",
   "theorems": [
    "Discrete1.Props.C213_any_coarse_grid",
    "Discrete1.Props.C213_equal_grids_backward_euler",
    "Discrete1.Props.C213_equal_grids_bdf2"
   ],
   "note": ""
  },
  {
   "property": "C214",
   "status": "proved",
   "theorems": [
    "Discrete1.Props.C214_reference_exists",
    "Discrete1.Props.C214_coefficients",
    "Discrete1.Props.C214_rounded_backward_euler"
   ],
   "note": ""
  },
  {
   "property": "C215",
   "status": "proved",
   "theorems": [
    "Discrete1.Props.C215_relative_conditioning"
   ],
   "note": ""
  },
  {
   "property": "C216",
   "status": "proved",
   "theorems": [
    "Discrete1.Props.C216_time_conditioning"
   ],
   "note": ""
  },
  {
   "property": "C217",
   "status": "proved",
   "theorems": [
    "Discrete1.Props.C217_rounded_vs_exact"
   ],
   "note": ""
  },
  {
   "property": "C218",
   "status": "proved",
   "theorems": [
    "Discrete1.Props.C218_keff_conditioning",
    "Discrete1.Props.C218_power_iteration"
   ],
   "note": ""
  },
  {
   "property": "C219",
   "status": "proved",
   "theorems": [
    "Discrete1.Props.C219_scattering_conditioning"
   ],
   "note": ""
  },
  {
   "property": "C220",
   "status": "proved",
   "theorems": [
    "Discrete1.Props.C220_certified_flux",
    "Discrete1.Props.C220_stopping_proves_solvable"
   ],
   "note": ""
  }
 ]
}
{
 "C15": {
  "status": "partial",
  "note": "Proved for every iterating solver; REFUTED for known_source_angular/known_source_scalar (C15_violation_known_source): the zero ordinate is silently skipped there."
 },
 "C75": {
  "status": "partial",
  "note": "REFUTED: with bc_x=[1,1] the sweep silently ignores the right reflection (C75_violation_*); the single-face cases are C08_left_reflection / C08_right_reflection / C14."
 },
 "C23": {
  "status": "partial",
  "note": "Proved for source_iteration (external and boundary, both geometries, iso/aniso) and for the boundary of the known-source functions; REFUTED for the sweep behind ml_source_iteration (C23_violation_scatter_source*): the boundary column is selected with the external source's angle axis."
 },
 "C31": {
  "status": "partial",
  "note": "REFUTED for two or more modes: _svd_dmd's (1-energy)>residual mask always drops the last non-zero mode (C31_violation_*). Exactness proved when nothing is truncated and for one-mode errors."
 },
 "C28": {
  "status": "partial",
  "note": "REFUTED for every input (C28_violation): the file has one row fewer than passes; the flux of the first pass is written to index -1 and never saved. C28_saved_rows_partial states exactly what is saved (passes 2..n, in order; up to 101 passes)."
 },
 "C53": {
  "status": "partial",
  "note": "Conservation and physics fallback proved for labelled models; REFUTED for label=None, the default (C53_violation_no_label): label[0] raises TypeError."
 },
 "C41": {
  "status": "partial",
  "note": "REFUTED in general: the code multiplies the cell index by the local width, so the shells are nested spheres exactly when the mesh is uniform (C41_consistent_iff_uniform); proved for uniform meshes, C41_violation gives a non-uniform mesh."
 },
 "C43": {
  "status": "partial",
  "note": "REFUTED: sphere_known_source_sn rebinds its 2-D flux to a 1-D array and the next write raises IndexError for every input with at least one cell and one nonzero angle (C43_violation_known_source); so do the public known-source drivers (C43_violation_drivers)."
 },
 "C72": {
  "status": "partial",
  "note": "REFUTED for anisotropic slabs: ValueError for every input because the Legendre tables and the flags swap positions (C72_violation_aniso_slab); the other three branches are proved to agree with the multigroup group step (C72_dispatch_partial)."
 },
 "C76": {
  "status": "partial",
  "note": "REFUTED: the exact global balance with its defect is proved (C76_balance_with_defect); the defect is the mismatch between the plain diamond angular edge used in the cell balance and the weighted-diamond edge handed to the next direction. C76_violation is a concrete problem where particles are not conserved; if the stored edges were plain diamond the balance holds (C76_balance_if_diamond_partial)."
 },
 "C78": {
  "status": "partial",
  "note": "REFUTED: l>=1 moments of the transfer between different groups never influence the result (C78_violation_offdiagonal_moments_ignored)."
 },
 "C45": {
  "status": "partial",
  "note": "Proved for [0,0], [1,0] and [0,1] given as lists (incl. the mirror ordering); REFUTED for [1,1] and for tuples/arrays: UnboundLocalError / ValueError (C45_violation)."
 },
 "C49": {
  "status": "partial",
  "note": "Mixture algebra, name handling and rejection of unknown names proved for every loader; REFUTED for the shipped loader: Path + str raises TypeError for every non-vacuum material (C49_violation_never_loads) and the documented name-X% suffix is always rejected (C49_violation_documented_suffix)."
 },
 "C50": {
  "status": "partial",
  "note": "Proved whenever the last edge is not the nearest; REFUTED otherwise: IndexError (C50_violation, C50_violation_grid_below). The group chosen contains the energy or is the one just above (C50_adjacent)."
 },
 "C79": {
  "status": "partial",
  "note": "Proved for boundaries with exactly one nonzero entry; REFUTED otherwise: zero boundaries become nonzero everywhere, two or more nonzero entries raise IndexError, and the original strength is replaced rather than scaled (C79_violation_*)."
 },
 "C80": {
  "status": "partial",
  "note": "Proved for computed indices and for packaged ones on the whole stock grid; REFUTED for packaged coarse indices with fewer fine groups than the grid, and for unsupported grids (C80_violation_*). The packaged tables are not in the repository, so they are a parameter."
 },
 "C55": {
  "status": "proved",
  "note": "Proved in terms of the flux-plus-rate sum. Rows whose entries are nonzero but cancel in the sum are dropped (C55_violation_cancelling_row); with non-negative data the dropped rows are exactly the all-zero ones (C55_dropped_are_zero)."
 },
 "C56": {
  "status": "partial",
  "note": "REFUTED: the final assertion only counts rows, so overlapping splits can hide lost rows, and equal file names overwrite each other (C56_violation_*); for disjoint splits with distinct names no row is lost (C56_no_row_lost_partial)."
 },
 "C58": {
  "status": "partial",
  "note": "Errors and scores proved for a non-constant truth; REFUTED for constant truth: r2 = 0 for a perfect prediction (C58_violation_constant_truth)."
 },
 "C64": {
  "status": "partial",
  "note": "Iteration-boundary behaviour proved for every interleaving; REFUTED for the handler: interrupts in two windows lose the previous handler (C64_violation_handler_lost); it is restored outside of them (C64_handler_restored_partial)."
 },
 "C65": {
  "status": "partial",
  "note": "Proved for at most one interrupt; REFUTED for the second: it only prints (C65_violation_second_interrupt)."
 },
 "C81": {
  "status": "partial",
  "note": "REFUTED: run() leaves its own SIGINT handler installed on every path (C81_violation_handler_kept)."
 },
 "C82": {
  "status": "partial",
  "note": "Proved for finish_iteration; REFUTED for break_loop: it returns None whatever the function returned (C82_violation_break_loop)."
 },
 "C59": {
  "status": "partial",
  "note": "Single data sets and the three-way split proved; REFUTED when the training fraction is worth less than one row: end_idx = 0 is read as 'whole file' (C59_violation_no_training_row)."
 },
 "C60": {
  "status": "partial",
  "note": "Proved for names containing 'memmap'; REFUTED otherwise: the metadata overwrite the data (C60_violation_data_destroyed); two files may share one metadata file (C60_violation_shared_metadata)."
 },
 "C61": {
  "status": "partial",
  "note": "Proved when some epoch has a loss below infinity; REFUTED otherwise: TypeError after training (C61_violation_no_best)."
 },
 "C62": {
  "status": "partial",
  "note": "Proved when a new epoch beats the checkpoint; REFUTED otherwise: TypeError and the model keeps the last epoch's weights (C62_violation_no_improvement)."
 },
 "C63": {
  "status": "partial",
  "note": "Proved for fractions that add to at most one; REFUTED otherwise: batches outside the file (C63_violation_outside_file)."
 },
 "C66": {
  "status": "partial",
  "note": "Numbers proved; letters proved while one of the 703 names is free; REFUTED otherwise: IndexError (C66_violation_names_used_up)."
 },
 "C83": {
  "status": "partial",
  "note": "REFUTED: __getitem__ accepts every index, so the loop never ends and serves rows of the next part (C83_violation_*)."
 },
 "C84": {
  "status": "partial",
  "note": "REFUTED: the k-th continuation trains 2^(k-1) n epochs (C84_violation_doubling)."
 },
 "C85": {
  "status": "partial",
  "note": "REFUTED: the test loss is that of the last epoch's weights (C85_violation_*)."
 },
 "C86": {
  "status": "partial",
  "note": "Proved for non-empty data sets (in memory and memmap); an empty one raises ZeroDivisionError (C86_violation_empty)."
 },
 "C88": {
  "status": "partial",
  "note": "Proved for at least one epoch; zero epochs raise UnboundLocalError."
 },
 "C89": {
  "status": "partial",
  "note": "REFUTED: TypeError for every input (C89_violation_seed_keyword)."
 },
 "C68": {
  "status": "partial",
  "note": "order_accuracy, spatial_error (metric, normalisation) and wynn_epsilon (geometric with ratio different from 0 and 1, constants at every rank, homogeneity) proved; REFUTED for the geometric ratio 0: a sequence that has already converged returns its first value (C68_violation_converged)."
 },
 "C91": {
  "status": "partial",
  "note": "REFUTED: order 16 with dt = 100/rate and order 48 with dt = 1650/rate give a negative density (C91_violation_negative)."
 },
 "C92": {
  "status": "partial",
  "note": "Proved for all seven cases at every point off the material interface; REFUTED at the interface: the two-material sources are zero in the middle cell of every odd mesh (C92_violation_interface)."
 },
 "C95": {
  "status": "partial",
  "note": "REFUTED: with anisotropic scattering every known-source output of fixed1d and every step of timed1d raises TypeError (compiled signature f8[:,:,:]), although the scalar output works (C95_violation_fixed_aniso, C95_violation_timed_aniso)."
 },
 "C105": {
  "status": "partial",
  "note": "REFUTED for non-zero boundary flux: sphere_backward_scatter starts every inward sweep from zero and ignores its boundary argument (C105_violation_ignored, C105_violation_differs). Proved when nothing enters from outside (C105_vacuum_partial)."
 },
 "C106": {
  "status": "partial",
  "note": "Proved for DJINN and AutoDJINN. REFUTED for DeepONet: the transformer receives the caller's array itself (predict.py:530), so an in-place transformer overwrites it and a repeated call differs (C106_violation_deeponet); the array survives exactly when the transformer leaves its argument alone."
 },
 "C108": {
  "status": "partial",
  "note": "REFUTED: predict.py:62 sets tf = None whenever torch imports, so with both packages installed backend='tensorflow' raises ImportError asking to install TensorFlow (C108_violation_both_installed); on a TensorFlow-only machine the default backend raises ImportError. The rest is proved (C108_backend_partial)."
 },
 "C110": {
  "status": "partial",
  "note": "Proved for non-negative fluxes. REFUTED in general: the test np.sum(mat_flux) == 0 lets entries of opposite sign in different cells cancel, and then every cell of the material loses its source (C110_violation)."
 },
 "C113": {
  "status": "partial",
  "note": "REFUTED: _xs_matrix_coarsen indexes the one-dimensional rows of nusigf with two slices, so every such call raises IndexError before any transport is solved (C113_violation_vector_fission)."
 },
 "C114": {
  "status": "partial",
  "note": "REFUTED: transfer_matrix(xs_scatter_c, nusigf, None) broadcasts the vector over the outgoing groups: ValueError unless materials is 1 or equals groups (C114_violation_default_chi_raises); with one material the run silently uses chi = 1 in every group (C114_violation_default_chi_silent)."
 },
 "C122": {
  "status": "partial",
  "note": "REFUTED: with K = 0 np.zeros((n, -1)) raises ValueError and with K = 1 the snapshot matrices have no column, so tools.dmd raises, unless a sweep meets the tolerance first; with the code's tolerance R = 0, K = 1 always raises (C122_violation_one_snapshot). For K >= 2 see C121, C123."
 },
 "C131": {
  "status": "partial",
  "note": "REFUTED in part: a list, tuple or np.int64 raises UnboundLocalError (C131_violation_other_counts); an array with fewer entries than steps raises IndexError after all earlier steps have been computed (C131_violation_short_array). ints and sufficiently long arrays are covered by C133."
 },
 "C132": {
  "status": "partial",
  "note": "REFUTED: whenever the problem has neither one group nor as many groups as the stock grid the call raises; ValueError if everything else is in order, because delta_fine has one entry per stock group (C132_violation_part_of_stock_grid)."
 },
 "C137": {
  "status": "partial",
  "note": "REFUTED for iteration errors with two or more modes (C137_violation_two_modes: a subcritical problem whose unique solution the driver misses, for every SVD routine, because tools.dmd keeps one mode fewer than it found). Proved for iteration errors with one mode (snapshot differences in geometric progression), in particular whenever the only transfers to the same or a lower-numbered group start from one group in one cell (C137_single_feedback_exact_partial, also for supercritical problems; C137_subcritical_exact_partial)."
 },
 "C138": {
  "status": "partial",
  "note": "REFUTED for validation samples when the number of samples leaves remainder 2 modulo 5 (the first validation row is served for training, C138_violation_validation_row_trained). Proved: test rows are never served for training or validation, and all other remainders are safe."
 },
 "C139": {
  "status": "partial",
  "note": "REFUTED below three samples (ValueError, C139_violation_few_samples). Proved for three samples and more, for the tuner for all sizes, and the agreement with deeponet_memmap."
 },
 "C140": {
  "status": "partial",
  "note": "Proved for searched networks and for complete prebuilt dictionaries. REFUTED for prebuilt dictionaries with fewer node counts than layers (IndexError in every trial, C140_violation_few_nodes). Activation functions are assumed to keep the length of a row."
 },
 "C142": {
  "status": "partial",
  "note": "REFUTED when sched_mode mixes None with a mode: the scheduler parameters are suggested as categorical in one trial and numeric in another and the study aborts with ValueError (C142_violation_mixed_modes; C142_all_or_none: a study that runs through never mixes). REFUTED when a stored study is continued with other choices (C142_violation_changed_choices). Proved for all other valid search spaces."
 },
 "C143": {
  "status": "partial",
  "note": "REFUTED for ranges that reach one, as the default (0.1, 1.0) does (ValueError, C143_violation_factor_one). Proved: every scheduler that is trained with has drawn values within the ranges that ReduceLROnPlateau accepts."
 },
 "C144": {
  "status": "partial",
  "note": "REFUTED for the defaults of the code (0.8/0.2; the documentation says 0.6/0.2): validation rows are trained on and all validation is done on test rows (C144_violation_default_fractions). Proved with the documented fractions."
 },
 "C150": {
  "status": "partial",
  "note": "REFUTED as stated: ambe always raises TypeError (PosixPath + str); with the path repaired the mapping holds (C150_groups_partial) but the caller's edges are rescaled in place (C150_violation_edges_modified), and converted again by a second call when the grid goes beyond 20 MeV."
 },
 "C151": {
  "status": "partial",
  "note": "REFUTED as stated: the checkpoint pairs the weights of the best epoch with the optimizer of the last epoch (C151_violation_mixed_state, C151_violation_example). C151_resume_partial proves equality when the last epoch before the stop is the best and a later one improves."
 },
 "C153": {
  "status": "partial",
  "note": "REFUTED as stated: C153_violation_bdf2 and C153_violation_hybrid_bdf2 show that whenever a single cell decays fast enough in the first step the second bdf2 step is negative, on every positive mesh. C153_first_step_partial proves the first step non-negative."
 },
 "C154": {
  "status": "partial",
  "note": "REFUTED as stated: with collapsed groups the step does not balance (C154_violation_coarse). C154_hybrid_balance_partial proves the exact defect for every grid, and C154_equal_grids proves conservation when the collided grid equals the uncollided one."
 },
 "C158": {
  "status": "partial",
  "note": "Round trip proved (C158_round_trip). REFUTED: the metrics are saved as <name>-loss-metrics.npz, not under the documented name (C158_violation_documented_name); saving an untrained or loaded model raises AttributeError after writing the weights (C158_violation_untrained); a checkpoint called <name>.pt is replaced (C158_violation_checkpoint_replaced)."
 },
 "C159": {
  "status": "partial",
  "note": "Options, warnings, optimizer, loss and named schedulers proved. REFUTED: TensorBoard is off by default (documented 'run-01'), optimizers without weight decay raise TypeError even with the default, and the documented scheduler objects are refused (C159_violation_*)."
 },
 "C168": {
  "status": "partial",
  "note": "REFUTED for known-source solves and discrete_ordinates with edges. Proved for source_iteration (isotropic, anisotropic, variable groups), scatter-source sweeps, power-iteration, time-source and hybrid kernels. Violations: known_source_* on slabs is safe iff every material index is below cells+edges (a dummy array of that length is indexed by material); sphere with edges=1 and discrete_ordinates(edges=1) always run past an array."
 },
 "C169": {
  "status": "partial",
  "note": "REFUTED: the code reads the grid in electronvolts (C169_electronvolts proves the speeds for that unit); for a grid in MeV every speed is that of a neutron with a millionth of the energy."
 },
 "C174": {
  "status": "partial",
  "note": "REFUTED on coarse grids: C174_violation_bdf2_first_order gives one cell and four groups, collapsed to {0},{1,2},{3} by the package's own routines (C174_data_collapsed), where for every time step the run started in the exact steady state leaves it by at least t*dt/7; C174_violation_no_second_order_bound: no constant C bounds the error by C dt^2.  timed1d.bdf2 keeps that state exactly (C174_fine_bdf2_exact), and on equal grids hybrid1d.bdf2 is second order (C125, C149).  C173 proves that first order holds on every coarse grid."
 },
 "C180": {
  "status": "partial",
  "note": "REFUTED for train_size: the documentation says 0.6, the constructor uses 0.8 (C180_violation_train_size), so that with the default val_size the whole file is used; everything else of the statement is proved."
 },
 "C187": {
  "status": "partial",
  "note": "REFUTED: with any other value every driver returns an all-zero flux without an error, whatever the sources (violation theorems for all data)."
 },
 "C188": {
  "status": "partial",
  "note": "REFUTED: in an empty two-shell sphere of any width (sigma dx = 0) with one unit entering along the second of four ordinates, the returned central flux is -1/52, for every guess and convergence test."
 },
 "C200": {
  "status": "partial",
  "note": "REFUTED: a second run with fewer passes leaves the first run's later flux_scatter_model files, which clean_data_scatter appends with the second run's cross sections (C200_violation_stale); a second run killed after q passes pairs its fluxes with the first run's cross sections without an error (C200_violation_crash)."
 },
 "C201": {
  "status": "partial",
  "note": "REFUTED with chi: fission_cross_sections.npy then holds nusigf, and flux @ nusigf is one number broadcast to every group, so the target is the total production in each group instead of chi times it (C201_violation). True for fission matrices (C201_matrix)."
 },
 "C202": {
  "status": "partial",
  "note": "REFUTED when a companion file of an earlier call exists: a crash of the second call leaves zero columns that open without an error (C202_violation_rewrite). Without one, and after completion, it holds (C202_fresh)."
 },
 "C203": {
  "status": "partial",
  "note": "REFUTED: torch.save truncates the old checkpoint in place (C203_violation_lost) and save_model writes two files (C203_violation_mixed). What holds: old, new or an error, never anything else (C203_checkpoint)."
 },
 "C204": {
  "status": "partial",
  "note": "REFUTED: the wrapper keeps a reference to the network object it is given, so building a second wrapper on the same network object silently changes the predictions of the first (C204_violation_shared); and the path of the saved file, name.pt, is looked up as name.pt.pt (C204_violation_path). Holds for wrappers with their own network object (C204_own_network, C204_fails)."
 },
 "C208": {
  "status": "partial",
  "note": "REFUTED: the assertion comes after the writing, so a call that raises AssertionError has already written complete-looking files that lack the unmatched rows (C208_violation_assertion); a split without rows is skipped, so its file of an earlier run survives a successful call (C208_violation_stale). Proved: with splits that share no label the call succeeds exactly when every row belongs to a split (C208_success)."
 },
 "C212": {
  "status": "partial",
  "note": "REFUTED in general (two violation theorems: one pass only, wrong flux); proved for positive sources on fine meshes."
 }
}
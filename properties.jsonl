{"id": "C01", "title": "energy_coarse_index always returns a balanced partition", "statement": "For every fine >= coarse >= 1, energy_coarse_index(fine, coarse) returns coarse+1 strictly increasing indices starting at 0 and ending at fine, every coarse group spans floor(fine/coarse) or floor(fine/coarse)+1 fine groups, exactly fine % coarse groups are the wider ones, and the internal assertion never fires.", "quantifier": "every pair fine >= coarse >= 1", "why_tests_cant": "infinitely many (fine, coarse) pairs; the truncated linspace could repeat an index for some pair and trip the assert", "anchors": ["discrete1/utils/hybrid.py:energy_coarse_index"]}
{"id": "C02", "title": "collided_index maps every fine group to the coarse group that contains it", "statement": "For every strictly increasing index array 0 = e_0 < ... < e_C = G, collided_index(G, e)[g] is the unique c with e_c <= g < e_{c+1}; and uncollided_index returns the index array itself.", "quantifier": "every partition index array, every fine group", "why_tests_cant": "the input space is infinite (every array size and every real-valued entry); a test fixes a handful of sizes and values", "anchors": ["discrete1/utils/hybrid.py:collided_index", "discrete1/utils/hybrid.py:uncollided_index"]}
{"id": "C03", "title": "Prolongation factors sum to one in every coarse group", "statement": "The factor array returned by indexing(...) is positive and sums to exactly 1 over the fine groups of each coarse group, so spreading a coarse flux over fine groups and adding it back up returns the coarse flux: nothing is gained or lost in the hybrid flux update.", "quantifier": "every increasing energy grid, every partition, every coarse flux", "why_tests_cant": "the input space is infinite (every array size and every real-valued entry); a test fixes a handful of sizes and values", "anchors": ["discrete1/utils/hybrid.py:indexing", "discrete1/utils/hybrid.py:hybrid_factor", "discrete1/tools.py:_hybrid_combine_fluxes", "discrete1/tools.py:_coarsen_flux"]}
{"id": "C04", "title": "coarsen_external conserves the source", "statement": "Unweighted, the coarse source summed over coarse groups equals the fine source summed over fine groups; weighted, the energy-width-integrated source is the same on both grids and inside every coarse group; a one-group array is returned unchanged.", "quantifier": "every array, every increasing energy grid, every partition", "why_tests_cant": "the input space is infinite (every array size and every real-valued entry); a test fixes a handful of sizes and values", "anchors": ["discrete1/utils/hybrid.py:coarsen_external"]}
{"id": "C05", "title": "Coarse total cross sections are averages of the fine ones", "statement": "Each coarse total cross section lies between the least and greatest fine value in its group, constants are preserved, the identity partition changes nothing, coarsening in two stages equals coarsening once, and the reaction rate of a flux that is flat per unit energy is preserved.", "quantifier": "every cross section array, every increasing grid, every (nested) partition", "why_tests_cant": "the input space is infinite (every array size and every real-valued entry); a test fixes a handful of sizes and values", "anchors": ["discrete1/utils/hybrid.py:_xs_vector_coarsen", "discrete1/utils/hybrid.py:coarsen_materials"]}
{"id": "C06", "title": "Coarse transfer matrices preserve group-to-group rates", "statement": "For a flux proportional to group width, the coarse matrix applied to the coarse flux equals the fine matrix applied to the fine flux summed over each outgoing coarse group; if every fine column sum (total out-scatter) is bounded by the fine total cross section the same holds on the coarse grid; None stays None.", "quantifier": "every matrix, grid and partition", "why_tests_cant": "the input space is infinite (every array size and every real-valued entry); a test fixes a handful of sizes and values", "anchors": ["discrete1/utils/hybrid.py:_xs_matrix_coarsen", "discrete1/utils/hybrid.py:coarsen_materials"]}
{"id": "C07", "title": "coarsen_velocity stays inside the range of the fine velocities", "statement": "Each coarse velocity lies between the smallest and largest fine velocity of its coarse group, so positive velocities stay positive and 1/(v dt) is always defined; the identity partition changes nothing.", "quantifier": "every velocity vector and partition", "why_tests_cant": "the input space is infinite (every array size and every real-valued entry); a test fixes a handful of sizes and values", "anchors": ["discrete1/utils/hybrid.py:coarsen_velocity"]}
{"id": "C08", "title": "Slab sweep solves the diamond-difference equations exactly", "statement": "For every mesh, material map, source, boundary value and nonzero direction, the angular edge fluxes behind one directional slab sweep satisfy mu (out - in)/dx + sigma (in + out)/2 = source in every cell, start at the given inflow, and the flux added to each cell is weight times the cell average (or weight times the edge values when edges are requested).", "quantifier": "every number of cells, every material map, every positive mesh, every source and inflow", "why_tests_cant": "the input space is infinite (every array size and every real-valued entry); a test fixes a handful of sizes and values", "anchors": ["discrete1/spatial_sweep.py:slab_forward_iso", "discrete1/spatial_sweep.py:slab_backward_iso", "discrete1/spatial_sweep.py:slab_forward_aniso", "discrete1/spatial_sweep.py:slab_backward_aniso", "discrete1/spatial_sweep.py:slab_forward_scatter", "discrete1/spatial_sweep.py:slab_backward_scatter"]}
{"id": "C09", "title": "Global particle balance of a slab sweep", "statement": "Summed over the whole slab and all directions, net leakage through the two faces plus total collision rate equals total source, exactly, for every quadrature, mesh and boundary source.", "quantifier": "every mesh, material map, quadrature, source and boundary", "why_tests_cant": "the input space is infinite (every array size and every real-valued entry); a test fixes a handful of sizes and values", "anchors": ["discrete1/spatial_sweep.py:slab_isotropic_sn", "discrete1/spatial_sweep.py:slab_known_source_sn"]}
{"id": "C10", "title": "Scalar known-source flux is the quadrature sum of the angular one", "statement": "known_source_scalar equals the sum over angles of weight times known_source_angular (for more than one angle), for centers and for edges, so the scalar flux used for scattering and the angular flux carried between time steps are consistent.", "quantifier": "every source, boundary, mesh, quadrature", "why_tests_cant": "the input space is infinite (every array size and every real-valued entry); a test fixes a handful of sizes and values", "anchors": ["discrete1/multi_group.py:known_source_scalar", "discrete1/multi_group.py:known_source_angular", "discrete1/spatial_sweep.py:slab_known_source_sn"]}
{"id": "C11", "title": "Known-source sweeps are linear", "statement": "The fluxes of a known-source sweep are additive and homogeneous in (source, boundary): the solution with q1+q2 and b1+b2 is the sum of the solutions, and scaling scales.  The uncollided/collided split relies on this.", "quantifier": "every pair of sources and boundaries, every scalar", "why_tests_cant": "the input space is infinite (every array size and every real-valued entry); a test fixes a handful of sizes and values", "anchors": ["discrete1/spatial_sweep.py:slab_known_source_sn", "discrete1/multi_group.py:known_source_scalar", "discrete1/multi_group.py:known_source_angular"]}
{"id": "C12", "title": "Infinite-medium solution is reproduced exactly", "statement": "In a slab with uniform absorption-balanced source (q = sigma*c per angle) and boundary inflow c, every cell and edge flux is exactly c for every mesh and every quadrature; more generally a solution that is linear in x is reproduced exactly at all cell edges.", "quantifier": "every mesh, direction, constants", "why_tests_cant": "the input space is infinite (every array size and every real-valued entry); a test fixes a handful of sizes and values", "anchors": ["discrete1/spatial_sweep.py:slab_forward_iso", "discrete1/spatial_sweep.py:slab_backward_iso"]}
{"id": "C13", "title": "Cell-centre output is the average of the edge output", "statement": "For the same problem the centers output of a known-source calculation equals the mean of the two neighbouring entries of the edges output, in every cell and angle.", "quantifier": "every mesh, source, boundary, quadrature", "why_tests_cant": "the input space is infinite (every array size and every real-valued entry); a test fixes a handful of sizes and values", "anchors": ["discrete1/spatial_sweep.py:slab_known_source_sn", "discrete1/multi_group.py:known_source_scalar", "discrete1/multi_group.py:known_source_angular"]}
{"id": "C14", "title": "Reflective boundary equals the mirrored full problem", "statement": "With a reflecting left face and angles ordered incoming-first, the swept flux on the half slab equals the flux of the right half of the mirrored full slab with no reflection, in every cell.", "quantifier": "every half-slab mesh, material map, source, symmetric quadrature", "why_tests_cant": "the input space is infinite (every array size and every real-valued entry); a test fixes a handful of sizes and values", "anchors": ["discrete1/spatial_sweep.py:slab_isotropic_sn", "discrete1/tools.py:reflector_corrector", "discrete1/main.py:angular_x"]}
{"id": "C15", "title": "A zero ordinate is rejected, never silently dropped", "statement": "Every solver that is handed an ordinate mu = 0 raises 'Discontinuity at 0' rather than returning a flux that omits that direction.", "quantifier": "every quadrature containing 0, every problem", "why_tests_cant": "one must examine every entry point for every quadrature", "anchors": ["discrete1/spatial_sweep.py:slab_isotropic_sn", "discrete1/spatial_sweep.py:slab_known_source_sn", "discrete1/spatial_sweep.py:slab_scatter_source_sn"]}
{"id": "C16", "title": "Non-negative sources give non-negative fluxes on fine enough meshes", "statement": "If sigma*dx <= 2|mu| in every cell for every direction and sources, boundary inflow and cross sections are non-negative, the sweep never produces a negative flux.", "quantifier": "every mesh satisfying the optical-thickness condition, every non-negative data", "why_tests_cant": "the input space is infinite (every array size and every real-valued entry); a test fixes a handful of sizes and values", "anchors": ["discrete1/spatial_sweep.py:slab_forward_iso", "discrete1/spatial_sweep.py:slab_backward_iso", "discrete1/spatial_sweep.py:slab_isotropic_sn"]}
{"id": "C17", "title": "Sweeps are bounded-damping: errors at the inflow edge never grow", "statement": "The difference between two sweeps with the same source and different inflow values is non-increasing in absolute value from cell to cell in the sweep direction.", "quantifier": "every mesh, cross sections >= 0, any two inflows", "why_tests_cant": "the input space is infinite (every array size and every real-valued entry); a test fixes a handful of sizes and values", "anchors": ["discrete1/spatial_sweep.py:slab_forward_iso", "discrete1/spatial_sweep.py:slab_backward_iso"]}
{"id": "C18", "title": "Within-group iteration stops, and reports the last sweep", "statement": "The within-group iteration performs at least 1 and at most 100 sweeps; the returned flux is the result of the last sweep; and it stops early only if the change criterion held between the last two iterates.", "quantifier": "every problem and every outcome of the convergence test", "why_tests_cant": "termination must be shown for non-convergent and NaN-producing inputs too", "anchors": ["discrete1/spatial_sweep.py:slab_isotropic_sn", "discrete1/spatial_sweep.py:slab_anisotropic_sn", "discrete1/spatial_sweep.py:sphere_isotropic_sn"]}
{"id": "C19", "title": "A converged within-group flux solves the transport equation", "statement": "If the within-group iteration returns a flux that a further sweep would not change, then there are angular fluxes whose quadrature sum is that flux and which satisfy the discrete one-group transport equation with scattering source xs_s*flux + off-scatter + external in every cell and direction.", "quantifier": "every problem, every fixed point", "why_tests_cant": "the input space is infinite (every array size and every real-valued entry); a test fixes a handful of sizes and values", "anchors": ["discrete1/spatial_sweep.py:slab_isotropic_sn"]}
{"id": "C20", "title": "Off-group scattering source is complete", "statement": "The off-scatter source for group g is the sum over all other groups, each exactly once, of xs[g,og] times the newest available flux (this sweep's for og<g, last iterate's for og>g); with within-group scattering it is the full row of the scattering matrix.", "quantifier": "every group count, group, flux", "why_tests_cant": "the input space is infinite (every array size and every real-valued entry); a test fixes a handful of sizes and values", "anchors": ["discrete1/tools.py:_off_scatter", "discrete1/tools.py:_off_scatter_0d"]}
{"id": "C21", "title": "Source iteration stops, and reports the last sweep", "statement": "The multigroup iteration performs between 1 and 100 Gauss-Seidel sweeps, returns the last one, and never modifies the initial guess passed in.", "quantifier": "every problem and every outcome of the convergence test", "why_tests_cant": "must include non-convergent inputs", "anchors": ["discrete1/multi_group.py:source_iteration_iso", "discrete1/multi_group.py:source_iteration_aniso", "discrete1/fixed1d.py:source_iteration"]}
{"id": "C22", "title": "A converged multigroup flux solves the full discrete transport equation", "statement": "If the returned multigroup flux is unchanged by one more sweep then for every group there are angular fluxes with that scalar flux satisfying mu dpsi/dx + sigma psi = sum_g' xs[g,g'] phi_g' + external with the boundary conditions, in every cell, angle and group.", "quantifier": "every group count, mesh, quadrature and data set, every fixed point", "why_tests_cant": "the input space is infinite (every array size and every real-valued entry); a test fixes a handful of sizes and values", "anchors": ["discrete1/multi_group.py:_one_sweep_iso", "discrete1/multi_group.py:source_iteration_iso"]}
{"id": "C23", "title": "Length-one angle and group axes broadcast", "statement": "An external source or boundary given with a length-1 angle or group axis gives exactly the same flux as the same data repeated along that axis.", "quantifier": "every problem and every combination of length-1 axes", "why_tests_cant": "the input space is infinite (every array size and every real-valued entry); a test fixes a handful of sizes and values", "anchors": ["discrete1/multi_group.py:_one_sweep_iso", "discrete1/spatial_sweep.py:slab_isotropic_sn", "discrete1/tools.py:_source_total"]}
{"id": "C24", "title": "chi/nusigf input is equivalent to the fission matrix", "statement": "transfer_matrix(scatter, nusigf, chi) equals transfer_matrix(scatter, outer(chi, nusigf)), for isotropic and anisotropic scattering, and only the zeroth moment receives fission; fixed-source results are therefore identical for both inputs.", "quantifier": "every material/group count, chi, nusigf", "why_tests_cant": "the input space is infinite (every array size and every real-valued entry); a test fixes a handful of sizes and values", "anchors": ["discrete1/tools.py:transfer_matrix", "discrete1/tools.py:_transfer_matrix"]}
{"id": "C25", "title": "Fission source is chi times production over k, for every material", "statement": "fission_mat_prod and fission_vec_prod return sum_ig flux*xs/keff in every cell and group, agree with each other when the matrix is outer(chi, nusigf), and the zero-material shortcut never changes the answer for non-negative cross sections.", "quantifier": "every flux, material map, cross sections, keff", "why_tests_cant": "the input space is infinite (every array size and every real-valued entry); a test fixes a handful of sizes and values", "anchors": ["discrete1/tools.py:fission_mat_prod", "discrete1/tools.py:fission_vec_prod"]}
{"id": "C26", "title": "k-effective update equals the ratio of fission productions", "statement": "The updated keff times the old production equals keff times the new production; the update is invariant to a common scaling of both fluxes; and the matrix and vector versions agree when the matrix is outer(chi, nusigf).", "quantifier": "every flux pair, cross sections, keff", "why_tests_cant": "the input space is infinite (every array size and every real-valued entry); a test fixes a handful of sizes and values", "anchors": ["discrete1/tools.py:_update_keff_mat", "discrete1/tools.py:_update_keff_vec", "discrete1/tools.py:_update_keff_mat_0d", "discrete1/tools.py:_update_keff_vec_0d"]}
{"id": "C27", "title": "Power iteration stops and returns a normalised eigenpair candidate", "statement": "power_iteration performs between 1 and 100 outer iterations, the returned flux has unit Euclidean norm whenever the unnormalised flux is nonzero, and whenever a further iteration would leave flux and keff unchanged they satisfy the k-eigenvalue transport equation.", "quantifier": "every problem, every starting flux, every outcome of the convergence tests", "why_tests_cant": "random starting flux and data-dependent stopping", "anchors": ["discrete1/critical1d.py:power_iteration"]}
{"id": "C28", "title": "collect_power_iteration saves every outer iterate", "statement": "The flux_fission_model file written by collect_power_iteration contains the normalised flux of every outer iteration, in order.", "quantifier": "every run length from 1 to the iteration limit", "why_tests_cant": "off-by-one indexing with a wrap-around to -1 only shows for particular run lengths", "anchors": ["discrete1/critical1d.py:collect_power_iteration"]}
{"id": "C29", "title": "source_iteration_collect saves every inner iterate and the same answer", "statement": "The saved array holds exactly the iterates of source_iteration in order, its last entry is the returned flux, and the returned flux equals source_iteration's.", "quantifier": "every run length", "why_tests_cant": "the input space is infinite (every array size and every real-valued entry); a test fixes a handful of sizes and values", "anchors": ["discrete1/multi_group.py:source_iteration_collect"]}
{"id": "C30", "title": "DMD snapshots are consecutive differences", "statement": "After warm-up, column k of y_minus is x_{k+1}-x_k and column k of y_plus is x_{k+2}-x_{k+1} for the source-iteration iterates x, the flux handed to dmd is the last iterate, and early convergence returns the converging iterate; the caller's initial flux is not modified although buffers are swapped.", "quantifier": "every R, K >= 2, every problem, every outcome of the convergence test", "why_tests_cant": "buffer swapping by parity of the iteration count; every R and K", "anchors": ["discrete1/multi_group.py:_dmd_warmup", "discrete1/multi_group.py:_dmd_collect", "discrete1/multi_group.py:dynamic_mode_decomp"]}
{"id": "C31", "title": "DMD extrapolation is exact for linear iterations", "statement": "If the iteration error is governed by a linear map on the span of the snapshots (y_plus = A y_minus with the snapshot range A-invariant) and 1 is not an eigenvalue, tools.dmd returns the exact fixed point of the iteration.", "quantifier": "every state dimension, every number of snapshots, every such linear map", "why_tests_cant": "the input space is infinite (every array size and every real-valued entry); a test fixes a handful of sizes and values", "anchors": ["discrete1/tools.py:dmd", "discrete1/tools.py:_svd_dmd"]}
{"id": "C32", "title": "Backward Euler advances the discrete time-dependent transport equation", "statement": "Every step's angular flux satisfies (psi_new - psi_old)/(v dt) + mu dpsi_new/dx + sigma psi_new = xs*phi + external(step) with that step's boundary data, where phi is that step's returned scalar flux, in every cell, angle and group.", "quantifier": "every step count, mesh, quadrature, data", "why_tests_cant": "the input space is infinite (every array size and every real-valued entry); a test fixes a handful of sizes and values", "anchors": ["discrete1/timed1d.py:backward_euler"]}
{"id": "C33", "title": "BDF2 advances the second-order equation, started with one BDF1 step", "statement": "From the second step on, the angular flux satisfies (3/2 psi_new - 2 psi_old + 1/2 psi_older)/(v dt) + streaming + collision = sources; the first step is backward Euler; and the difference formula is exact for fluxes quadratic in time.", "quantifier": "every step count, mesh, quadrature, data", "why_tests_cant": "the input space is infinite (every array size and every real-valued entry); a test fixes a handful of sizes and values", "anchors": ["discrete1/timed1d.py:bdf2"]}
{"id": "C34", "title": "A steady state is preserved by every time integrator", "statement": "If the initial angular flux satisfies the steady discrete transport equation for the (constant) source and boundary, and the inner iteration returns a fixed point, all subsequent steps return the same flux, for backward Euler and BDF2, for any time step size.", "quantifier": "every steady state, every dt and step count", "why_tests_cant": "the input space is infinite (every array size and every real-valued entry); a test fixes a handful of sizes and values", "anchors": ["discrete1/timed1d.py:backward_euler", "discrete1/timed1d.py:bdf2"]}
{"id": "C35", "title": "Time-dependent source data are used at their own step", "statement": "A source or boundary with time axis of length 1 is used for all steps, otherwise step t uses entry t; constant data repeated along the time axis give identical results, and results of step t do not depend on data of later steps.", "quantifier": "every step count and data history", "why_tests_cant": "causality must hold for all histories", "anchors": ["discrete1/timed1d.py:backward_euler", "discrete1/timed1d.py:bdf2", "discrete1/hybrid1d.py:backward_euler"]}
{"id": "C36", "title": "vhybrid BDF2 uses the same time discretisation as timed1d", "statement": "The variable-hybrid q* and effective total cross section equal timed1d's at every step: 4/3*(3/2)/(v dt) = 2/(v dt), 1/3*(3/2)/(v dt) = 1/(2 v dt), and the first step is BDF1.", "quantifier": "every velocity, dt, flux history, step", "why_tests_cant": "the input space is infinite (every array size and every real-valued entry); a test fixes a handful of sizes and values", "anchors": ["discrete1/vhybrid1d.py:bdf2", "discrete1/timed1d.py:bdf2"]}
{"id": "C37", "title": "Hybrid on equal grids equals the monolithic method", "statement": "With the collided grid equal to the uncollided one (same groups, same angles, identity partition), if the collided and the monolithic source iterations are both solved to their fixed point, the hybrid step produces the same angular flux as timed1d's.", "quantifier": "every problem with equal grids", "why_tests_cant": "the input space is infinite (every array size and every real-valued entry); a test fixes a handful of sizes and values", "anchors": ["discrete1/hybrid1d.py:backward_euler", "discrete1/hybrid1d.py:_hybrid_method", "discrete1/tools.py:_hybrid_source_total"]}
{"id": "C38", "title": "Collided source conserves the scattering rate", "statement": "The collided source summed over coarse groups equals the scattering (plus fission) rate of the uncollided flux summed over fine groups in every cell, and within each coarse group it equals the sum over its fine groups.", "quantifier": "every flux, matrix, partition", "why_tests_cant": "the input space is infinite (every array size and every real-valued entry); a test fixes a handful of sizes and values", "anchors": ["discrete1/tools.py:_hybrid_source_collided", "discrete1/tools.py:_hybrid_source_collided_aniso", "discrete1/tools.py:_hybrid_fission_source"]}
{"id": "C39", "title": "Hybrid total source is the full scattering source of the combined flux", "statement": "After _hybrid_source_total the fine flux is uncollided + factor*collided and q* has grown by the scattering matrix applied to exactly that flux, the same for every angle.", "quantifier": "every flux pair, partition, matrix", "why_tests_cant": "the input space is infinite (every array size and every real-valued entry); a test fixes a handful of sizes and values", "anchors": ["discrete1/tools.py:_hybrid_source_total", "discrete1/tools.py:_hybrid_source_total_aniso"]}
{"id": "C40", "title": "On-the-fly coarse cross sections equal the pre-computed ones", "statement": "The within-group, total and off-group coarse cross sections used inside variable_source_iteration equal those of coarsen_materials on the same grid, so vhybrid and hybrid solve the same collided equations.", "quantifier": "every grid, partition, cross section", "why_tests_cant": "the input space is infinite (every array size and every real-valued entry); a test fixes a handful of sizes and values", "anchors": ["discrete1/multi_group.py:_variable_source_iteration_iso", "discrete1/tools.py:_variable_off_scatter", "discrete1/utils/hybrid.py:coarsen_materials"]}
{"id": "C41", "title": "Sphere mesh geometry is consistent", "statement": "The cell volumes and face areas used by the spherical sweeps are those of nested spherical shells: outer area of a cell equals inner area of the next, volumes are positive and add up to the volume of the sphere.", "quantifier": "every mesh, uniform or not", "why_tests_cant": "the input space is infinite (every array size and every real-valued entry); a test fixes a handful of sizes and values", "anchors": ["discrete1/spatial_sweep.py:sphere_forward_iso", "discrete1/spatial_sweep.py:sphere_backward_iso"]}
{"id": "C42", "title": "Angular redistribution coefficients close", "statement": "The spherical angular differencing coefficients start at 0, are non-negative in between, and end at 0 for every symmetric ascending quadrature, so angular redistribution neither creates nor destroys particles, and a constant isotropic flux satisfies each cell equation.", "quantifier": "every symmetric quadrature", "why_tests_cant": "the input space is infinite (every array size and every real-valued entry); a test fixes a handful of sizes and values", "anchors": ["discrete1/spatial_sweep.py:angle_coef_corrector", "discrete1/spatial_sweep.py:sphere_isotropic_sn"]}
{"id": "C43", "title": "Spherical known-source calculations return a flux", "statement": "known_source_angular/known_source_scalar with geometry=2 return the angular or scalar flux (needed for edges, angular output and all time-dependent spherical problems).", "quantifier": "every spherical problem", "why_tests_cant": "a test could find the crash; that it happens for every input needs the argument", "anchors": ["discrete1/spatial_sweep.py:sphere_known_source_sn", "discrete1/timed1d.py:backward_euler"]}
{"id": "C44", "title": "Spherical cell balance", "statement": "The centre flux computed in each spherical cell satisfies the diamond-differenced balance equation (streaming + angular redistribution + collision = volume source) with outgoing edge 2*center - in and outgoing angular edge 2*center - half_angle.", "quantifier": "every cell, mesh, source, direction with positive denominators", "why_tests_cant": "the input space is infinite (every array size and every real-valued entry); a test fixes a handful of sizes and values", "anchors": ["discrete1/spatial_sweep.py:sphere_forward_iso", "discrete1/spatial_sweep.py:sphere_backward_iso", "discrete1/spatial_sweep.py:_half_angle_iso"]}
{"id": "C45", "title": "angular_x returns a normalised, correctly ordered quadrature for every boundary condition", "statement": "For bc in {[0,0],[1,0],[0,1],[1,1]} angular_x returns weights summing to 1, the same ordinates as the unordered set, ascending for [1,0] and descending for [0,1], so that each reflected direction is swept after the one it mirrors.", "quantifier": "every number of angles and every boundary flag pair", "why_tests_cant": "the input space is infinite (every array size and every real-valued entry); a test fixes a handful of sizes and values", "anchors": ["discrete1/main.py:angular_x"]}
{"id": "C46", "title": "spatial1d fills cells by last matching layer", "statement": "Each cell gets the material of the last listed region whose nearest-edge interval covers it, and with check=True a map with an unfilled cell is never returned.", "quantifier": "every layer list and edge array", "why_tests_cant": "the input space is infinite (every array size and every real-valued entry); a test fixes a handful of sizes and values", "anchors": ["discrete1/main.py:spatial1d"]}
{"id": "C47", "title": "gamma_time_steps interleaves the time grid", "statement": "For increasing edges and 0<gamma<1, the result has 2n-1 entries, is sorted, contains every original edge at even positions with the gamma point between consecutive edges, and only entry 1 is changed by half_step.", "quantifier": "every increasing time grid, every gamma in (0,1)", "why_tests_cant": "the input space is infinite (every array size and every real-valued entry); a test fixes a handful of sizes and values", "anchors": ["discrete1/main.py:gamma_time_steps"]}
{"id": "C48", "title": "energy_velocity is positive, subluminal and increasing", "statement": "Group velocities are positive, below the speed of light (in cm/s), strictly increase with group-centre energy, and default to ones when no grid is given.", "quantifier": "every positive energy grid", "why_tests_cant": "the input space is infinite (every array size and every real-valued entry); a test fixes a handful of sizes and values", "anchors": ["discrete1/main.py:energy_velocity"]}
{"id": "C49", "title": "Enriched materials are convex mixtures", "statement": "For enrichment e in [0,1], each uranium/plutonium cross section lies between the two isotopes' values, equals them at e=1 and e=0, and unknown material names are always rejected before any data is read.", "quantifier": "every enrichment, every data file", "why_tests_cant": "the input space is infinite (every array size and every real-valued entry); a test fixes a handful of sizes and values", "anchors": ["discrete1/materials.py:materials", "discrete1/materials.py:_generate_cross_section"]}
{"id": "C50", "title": "Monoenergetic boundary sources land in a group of the grid", "statement": "deuterium_deuterium and deuterium_tritium place the unit source in the energy group containing (or nearest to) the source energy for every energy grid.", "quantifier": "every increasing energy grid", "why_tests_cant": "the input space is infinite (every array size and every real-valued entry); a test fixes a handful of sizes and values", "anchors": ["discrete1/boundary1d.py:deuterium_deuterium", "discrete1/boundary1d.py:deuterium_tritium"]}
{"id": "C51", "title": "Boundary shut-off in time", "statement": "time_dependence_decay_01 returns one entry per step, equal to the original boundary for steps ending at or before off_time and zero after; time_dependence_constant is the original for every step.", "quantifier": "every time grid, off time, boundary array", "why_tests_cant": "the input space is infinite (every array size and every real-valued entry); a test fixes a handful of sizes and values", "anchors": ["discrete1/boundary1d.py:time_dependence_decay_01", "discrete1/boundary1d.py:time_dependence_constant"]}
{"id": "C52", "title": "ML fission prediction conserves the fission production", "statement": "For every model output with nonzero row sums, the predicted fission source summed over groups equals the exact fission production / keff in each cell, when cross sections were prepared with update_cross_sections, and cells of materials without a model get the exact physics source.", "quantifier": "every model (arbitrary function), flux, material map", "why_tests_cant": "the model is an arbitrary learned function", "anchors": ["discrete1/tools.py:fission_prod_predict", "discrete1/ml/tools.py:update_cross_sections"]}
{"id": "C53", "title": "ML scatter prediction conserves the scattering rate and needs no label", "statement": "scatter_prod_predict's source summed over groups equals the exact scattering rate in each cell with nonzero flux, cells without a model get the physics source, for labelled and unlabelled (label=None) models.", "quantifier": "every model, flux, material map, label argument", "why_tests_cant": "the model is an arbitrary learned function", "anchors": ["discrete1/tools.py:scatter_prod_predict", "discrete1/tools.py:scatter_prod"]}
{"id": "C54", "title": "ml_power_iteration without models is power_iteration", "statement": "With no models the call is exactly power_iteration; with models it performs between 1 and 50 iterations and an early exit returns the previous (flux, keff) pair, not a mixture.", "quantifier": "every problem, every outcome of the convergence tests", "why_tests_cant": "data-dependent stopping", "anchors": ["discrete1/critical1d.py:ml_power_iteration"]}
{"id": "C55", "title": "combine_flux_reaction keeps exactly the rows with data", "statement": "Every (iteration, cell) with non-zero flux-plus-rate sum yields exactly one training row, in order, carrying its own label, flux and reaction rate; no other rows appear.", "quantifier": "every flux history, map, label", "why_tests_cant": "the input space is infinite (every array size and every real-valued entry); a test fixes a handful of sizes and values", "anchors": ["discrete1/ml/tools.py:combine_flux_reaction"]}
{"id": "C56", "title": "Splitting by material loses no training data", "statement": "If _split_by_material completes, every training row has been saved in some split file.", "quantifier": "every data set and list of (possibly overlapping) splits", "why_tests_cant": "the count-based assertion can be fooled only by particular overlaps", "anchors": ["discrete1/ml/tools.py:_split_by_material"]}
{"id": "C57", "title": "min_max_normalization maps rows into [0,1]", "statement": "Every entry of the normalised data is in [0,1], each non-constant row attains 0 and 1, constant rows become 0, and the transformation is inverted by low + x*(high-low).", "quantifier": "every finite data array", "why_tests_cant": "the input space is infinite (every array size and every real-valued entry); a test fixes a handful of sizes and values", "anchors": ["discrete1/ml/tools.py:min_max_normalization"]}
{"id": "C58", "title": "Regression metrics obey their identities", "statement": "mse >= 0 with equality iff prediction equals truth, mae^2 <= mse (so mae <= rmse), r2 <= 1 with equality iff perfect, and explained variance >= r2 with equality when residuals have zero mean.", "quantifier": "every pair of arrays", "why_tests_cant": "the input space is infinite (every array size and every real-valued entry); a test fixes a handful of sizes and values", "anchors": ["discrete1/ml/tools.py:mean_absolute_error", "discrete1/ml/tools.py:mean_squared_error", "discrete1/ml/tools.py:r2_score", "discrete1/ml/tools.py:explained_variance_score"]}
{"id": "C59", "title": "Memmap datasets serve each sample at most once and stay in their split", "statement": "Batches of a DeepONetDataset are disjoint, stay within [start_idx, end_idx), have exactly batch_size rows, and miss fewer than batch_size samples; train/val/test of process_data_memmap are disjoint and cover the file up to those remainders.", "quantifier": "every sample count, batch size and split fraction", "why_tests_cant": "the input space is infinite (every array size and every real-valued entry); a test fixes a handful of sizes and values", "anchors": ["discrete1/ml/data.py:DeepONetDataset", "discrete1/ml/train.py:process_data_memmap"]}
{"id": "C60", "title": "deeponet_memmap stores every sample once and does not destroy its own file", "statement": "The written file is a permutation of the samples with flux, labels and y of a row kept together, the metadata can be read back, and writing the metadata leaves the data file intact, for every file name.", "quantifier": "every sample set, every train/test shuffle, every file name", "why_tests_cant": "string replacement in file names: only names without 'memmap' fail", "anchors": ["discrete1/ml/data.py:deeponet_memmap", "discrete1/ml/data.py:load_deeponet_memmap_metadata"]}
{"id": "C61", "title": "train() ends with the weights of the best validation epoch", "statement": "After train(), for every epoch history and every interruption point, the model carries the weights of the first epoch with the lowest validation loss, and training completes normally for every n_epochs and history.", "quantifier": "every loss history (including NaN), every interrupt point", "why_tests_cant": "arbitrary histories and interrupt points", "anchors": ["discrete1/ml/train.py:train"]}
{"id": "C62", "title": "continue_training never loses the checkpointed model", "statement": "After continue_training the model carries the best weights seen in the checkpoint and the new epochs, the epoch counter continues from the checkpoint, and the call completes for every new loss history.", "quantifier": "every checkpoint, every new loss history, every interrupt point", "why_tests_cant": "arbitrary histories", "anchors": ["discrete1/ml/train.py:continue_training", "discrete1/ml/train.py:save_checkpoint"]}
{"id": "C63", "title": "Tuning split never yields an empty data set", "statement": "_create_memmap_datasets either raises ValueError or gives disjoint train and validation sets that each contain at least one batch and lie inside the file.", "quantifier": "every sample count, fractions, batch size", "why_tests_cant": "the input space is infinite (every array size and every real-valued entry); a test fixes a handful of sizes and values", "anchors": ["discrete1/ml/tune.py:_create_memmap_datasets"]}
{"id": "C64", "title": "break_loop stops cleanly at an iteration boundary", "statement": "With @break_loop and grange, one Ctrl+C lets the current iteration finish and starts no further one; a second Ctrl+C raises KeyboardInterrupt; the previous SIGINT handler is restored in every outcome.", "quantifier": "every interleaving of interrupts and iterations, normal or exceptional end", "why_tests_cant": "all interrupt timings", "anchors": ["discrete1/utils/decorators.py:break_loop", "discrete1/utils/decorators.py:grange"]}
{"id": "C65", "title": "finish_iteration defers one interrupt and honours the second", "statement": "With @finish_iteration one Ctrl+C lets the call finish and then raises KeyboardInterrupt; a second Ctrl+C raises KeyboardInterrupt immediately; the previous handler is restored in every outcome.", "quantifier": "every interleaving of interrupts with the call", "why_tests_cant": "all interrupt timings", "anchors": ["discrete1/utils/decorators.py:finish_iteration"]}
{"id": "C66", "title": "update_file_name always returns a fresh name", "statement": "update_file_name returns a name that does not exist, the first free one in its labelling order, for every finite set of existing files.", "quantifier": "every finite set of existing files, both labelings", "why_tests_cant": "only fails after 702 existing files", "anchors": ["discrete1/ml/tools.py:update_file_name", "discrete1/ml/tools.py:_alphabet_generator"]}
{"id": "C67", "title": "cram_expm is linear, composes over substeps and respects the rational approximation", "statement": "cram_expm is linear in n0; with substeps=s it is s applications of one step of dt/s; on an eigenvector it multiplies by the CRAM rational function of the eigenvalue; unsupported order or substeps < 1 always raise ValueError.", "quantifier": "every matrix with solvable shifted systems, every n0, dt, substeps", "why_tests_cant": "the input space is infinite (every array size and every real-valued entry); a test fixes a handful of sizes and values", "anchors": ["discrete1/cram.py:cram_expm"]}
{"id": "C68", "title": "Convergence-order and extrapolation utilities are exact on model sequences", "statement": "order_accuracy returns p for errors C h^p and C (h/r)^p; wynn_epsilon of rank 1 returns |limit| for every geometrically converging sequence and for constant sequences.", "quantifier": "every C>0, h>0, p, ratio; every geometric sequence", "why_tests_cant": "the input space is infinite (every array size and every real-valued entry); a test fixes a handful of sizes and values", "anchors": ["discrete1/utils/manufactured.py:order_accuracy", "discrete1/utils/manufactured.py:wynn_epsilon", "discrete1/utils/manufactured.py:spatial_error"]}
{"id": "C69", "title": "legendre_polynomials are the Legendre polynomials", "statement": "Row l evaluated at 1 is 1, at -mu is (-1)^l times the value at mu, |value| satisfies Bonnet's recurrence, and rows agree with the closed forms for l<=3, for any number of moments.", "quantifier": "every number of moments, every ordinate", "why_tests_cant": "the input space is infinite (every array size and every real-valued entry); a test fixes a handful of sizes and values", "anchors": ["discrete1/tools.py:legendre_polynomials"]}
{"id": "C70", "title": "Anisotropic solver with one moment equals the isotropic solver", "statement": "With a single Legendre moment the anisotropic sweep, iteration and source terms give exactly the isotropic results (slab).", "quantifier": "every problem, every iteration outcome", "why_tests_cant": "the input space is infinite (every array size and every real-valued entry); a test fixes a handful of sizes and values", "anchors": ["discrete1/spatial_sweep.py:slab_anisotropic_sn", "discrete1/multi_group.py:_one_sweep_aniso", "discrete1/tools.py:_source_total_aniso", "discrete1/tools.py:_time_right_side_aniso", "discrete1/tools.py:_hybrid_source_total_aniso"]}
{"id": "C71", "title": "Zero-dimensional solver solves the infinite-medium balance", "statement": "With weights summing to one, a fixed point of the 0-d multigroup iteration satisfies sigma_t phi = scattering*phi + external in every group; iterations are bounded by 100; 0-d power iteration runs at most 101 outer iterations and a fixed point is a k-eigenpair.", "quantifier": "every group count and data", "why_tests_cant": "the input space is infinite (every array size and every real-valued entry); a test fixes a handful of sizes and values", "anchors": ["discrete1/multi_group_0d.py:source_iteration_iso", "discrete1/multi_group_0d.py:discrete_ordinates_iso", "discrete1/critical0d.py:power_iteration"]}
{"id": "C72", "title": "discrete_ordinates dispatches every documented case to a working solver", "statement": "discrete_ordinates with anisotropic slab scattering passes its boundary flags, edge flag and Legendre tables to the sweep in the positions the sweep expects.", "quantifier": "every anisotropic slab problem", "why_tests_cant": "argument order bug affects every anisotropic input", "anchors": ["discrete1/spatial_sweep.py:discrete_ordinates", "discrete1/spatial_sweep.py:slab_anisotropic_sn"]}
{"id": "C73", "title": "Reaction rates and total source are the material-wise matrix product", "statement": "reaction_rates[i] = xs[mat_i] @ flux[i] and _source_total adds it, identically for every angle, to the external source; _time_right_side adds the same quantity to q*.", "quantifier": "every flux, matrix, map", "why_tests_cant": "the input space is infinite (every array size and every real-valued entry); a test fixes a handful of sizes and values", "anchors": ["discrete1/tools.py:reaction_rates", "discrete1/tools.py:_source_total", "discrete1/tools.py:_time_right_side"]}
{"id": "C74", "title": "Source iteration contracts and converges geometrically on fine meshes", "statement": "If the mesh resolves every direction (sigma*dx <= 2|mu|), scattering is bounded by c < 1 times the total cross section and the weights are non-negative and sum to one, one more sweep brings any two iterates closer by the factor c, so the within-group and the multigroup iterations converge geometrically to the one solution, whatever the initial guess.", "quantifier": "every mesh, material map, quadrature and initial guess", "why_tests_cant": "convergence for all starting points is a limit statement", "anchors": ["discrete1/spatial_sweep.py:slab_isotropic_sn", "discrete1/multi_group.py:source_iteration_iso"]}
{"id": "C75", "title": "Both reflecting faces are honoured", "statement": "With both slab faces reflecting (bc_x = [1,1]) every direction that leaves through either face re-enters in the mirrored direction.", "quantifier": "every slab problem with both faces reflecting", "why_tests_cant": "needs a symmetry argument over all meshes; the right face's reflection is lost in the sweep order", "anchors": ["discrete1/spatial_sweep.py:slab_isotropic_sn", "discrete1/tools.py:reflector_corrector"]}
{"id": "C76", "title": "Spherical sweeps conserve particles", "statement": "In a spherical geometry sweep, the quadrature sum of leakage through the outer surface plus collisions equals the total volume source plus inflow, i.e. the swept fluxes conserve particles over the whole sphere.", "quantifier": "every mesh, quadrature, source", "why_tests_cant": "the input space is infinite (every array size and every real-valued entry); a test fixes a handful of sizes and values", "anchors": ["discrete1/spatial_sweep.py:sphere_forward_iso", "discrete1/spatial_sweep.py:sphere_backward_iso", "discrete1/spatial_sweep.py:angle_coef_corrector"]}
{"id": "C77", "title": "Converged anisotropic flux solves the Legendre-expanded equation", "statement": "A flux (with its moments) left unchanged by every group's anisotropic sweep satisfies the discrete transport equation with the within-group source sum_l (2l+1) xs_l phi_l P_l(mu).", "quantifier": "every slab problem with anisotropic scattering", "why_tests_cant": "the input space is infinite (every array size and every real-valued entry); a test fixes a handful of sizes and values", "anchors": ["discrete1/spatial_sweep.py:slab_anisotropic_sn", "discrete1/multi_group.py:_one_sweep_aniso"]}
{"id": "C78", "title": "Anisotropic transfer between groups contributes", "statement": "The l >= 1 Legendre moments of the scattering matrix from another group contribute to the solution as the within-group moments do.", "quantifier": "every anisotropic multigroup problem", "why_tests_cant": "a test on one problem cannot show that the entries are ignored for all", "anchors": ["discrete1/multi_group.py:_one_sweep_aniso", "discrete1/multi_group.py:source_iteration_aniso"]}
{"id": "C79", "title": "time_dependence_decay_02 decays exactly the nonzero boundary entries", "statement": "The result has one entry per step; steps ending before 0.2 microseconds equal the given boundary; afterwards every nonzero entry is reduced by the documented schedule relative to its original strength and every zero entry stays zero, for every boundary array.", "quantifier": "every boundary array, every time grid", "why_tests_cant": "depends on the number of nonzero entries and on the times", "anchors": ["discrete1/boundary1d.py:time_dependence_decay_02"]}
{"id": "C80", "title": "energy_grid's indices partition the grids", "statement": "For every supported grid and group counts coarse <= fine <= grid, the fine index cuts the stock grid into fine consecutive nonempty blocks and the coarse index cuts the fine groups into coarse blocks, whether the indices are packaged or computed; unsupported grids are rejected with a usable error.", "quantifier": "every grid, fine and coarse group count, optimize flag, table content", "why_tests_cant": "the input space is infinite (every array size and every real-valued entry); a test fixes a handful of sizes and values", "anchors": ["discrete1/main.py:energy_grid", "discrete1/utils/hybrid.py:energy_coarse_index"]}
{"id": "C81", "title": "Tuning leaves Ctrl+C behaviour as it found it", "statement": "After a tuning run returns or raises, the process reacts to Ctrl+C as it did before the run.", "quantifier": "every number of trials, every interrupt timing", "why_tests_cant": "global process state, every interrupt timing", "anchors": ["discrete1/ml/tune.py:finish_trial", "discrete1/ml/tune.py:run"]}
{"id": "C82", "title": "Decorated functions still return their results", "statement": "A function wrapped in break_loop or finish_iteration that completes normally without interrupts returns the value its body returned.", "quantifier": "every wrapped function and return value", "why_tests_cant": "holds or fails for every function", "anchors": ["discrete1/utils/decorators.py:break_loop", "discrete1/utils/decorators.py:finish_iteration"]}
{"id": "C83", "title": "Iterating a memmap data set yields its batches and stops", "statement": "for batch in dataset yields exactly len(dataset) batches, all from its own part of the file, and ends.", "quantifier": "every data set", "why_tests_cant": "never ends for any data set, so no finite run shows it", "anchors": ["discrete1/ml/data.py:DeepONetDataset"]}
{"id": "C84", "title": "continue_training trains n_epochs further epochs", "statement": "Each uninterrupted continue_training call trains as many epochs as configured.", "quantifier": "every number of epochs and of continuation calls", "why_tests_cant": "the error grows with the number of calls", "anchors": ["discrete1/ml/train.py:continue_training"]}
{"id": "C85", "title": "The reported test loss describes the model that is kept", "statement": "After train() metric_data['test_loss'] is the test loss of the weights the model carries.", "quantifier": "every epoch history", "why_tests_cant": "depends on the loss history", "anchors": ["discrete1/ml/train.py:train"]}
{"id": "C86", "title": "Reported losses are sample means, whatever the batch size", "statement": "The validation loss reported by training and tuning is the mean of the per-sample losses for every way of batching the samples, in memory or memmap.", "quantifier": "every sample list and batching", "why_tests_cant": "infinitely many batchings", "anchors": ["discrete1/ml/train.py:_val_batch", "discrete1/ml/tune.py:_validate"]}
{"id": "C87", "title": "predict returns one output per row for every batch size", "statement": "RegressionDeepONet.predict returns the model output of every row in order, independently of the batch size.", "quantifier": "every row list, batch size and row-wise model", "why_tests_cant": "infinitely many inputs", "anchors": ["discrete1/ml/train.py:predict"]}
{"id": "C88", "title": "The tuning objective returns the last epoch's validation metric", "statement": "objective returns the metric of the last epoch, or prunes; it never fails for a configured epoch count.", "quantifier": "every number of epochs, every pruning decision", "why_tests_cant": "arbitrary histories", "anchors": ["discrete1/ml/tune.py:objective"]}
{"id": "C89", "title": "djinn_regression trains every grid combination", "statement": "djinn_regression trains and saves one model per (trees, depth) pair.", "quantifier": "every data set and grid", "why_tests_cant": "fails for every input", "anchors": ["discrete1/ml/train.py:djinn_regression"]}
{"id": "C90", "title": "CRAM conserves the total of closed chains", "statement": "For a burn-up matrix whose columns sum to zero, the total number density after cram_expm equals the initial total up to the method's alpha-product factor, which is within 1e-15 of one per substep.", "quantifier": "every closed chain, every initial vector, step and substep count", "why_tests_cant": "infinitely many matrices and vectors", "anchors": ["discrete1/cram.py:cram_expm"]}
{"id": "C91", "title": "CRAM densities stay non-negative", "statement": "Non-negative densities stay non-negative after cram_expm.", "quantifier": "every decay chain, step length and order", "why_tests_cant": "only fails for step lengths a test does not pick", "anchors": ["discrete1/cram.py:cram_expm"]}
{"id": "C92", "title": "Manufactured sources belong to their solutions", "statement": "Each manufactured source, with its boundary values, is exactly the transport residual of the matching manufactured solution, at every point, ordinate and time.", "quantifier": "every position, ordinate and time", "why_tests_cant": "a test samples a few meshes and only sees convergence orders", "anchors": ["discrete1/external1d.py:manufactured_ss_03", "discrete1/utils/manufactured.py:solution_ss_03", "discrete1/boundary1d.py:manufactured_ss_03"]}
{"id": "C93", "title": "Reed's source follows the geometry", "statement": "reeds returns, on every mesh containing the material interfaces, the source of Reed's problem at each cell centre (full problem, or the half selected by the reflecting face); meshes missing an interface are rejected.", "quantifier": "every mesh and boundary condition", "why_tests_cant": "infinitely many meshes", "anchors": ["discrete1/external1d.py:reeds"]}
{"id": "C94", "title": "The four outputs of fixed1d belong to one flux", "statement": "fixed1d.source_iteration with angular and/or edges output returns the cell averages and edge values of one and the same discrete solution, driven by the scalar flux the plain call returns; summing the angular output with the quadrature weights gives the scalar output.", "quantifier": "every well-posed slab problem and all four combinations of the output flags", "why_tests_cant": "infinitely many inputs; a test compares one mesh", "anchors": ["discrete1/fixed1d.py:source_iteration", "discrete1/fixed1d.py:known_source_calculation", "discrete1/multi_group.py:known_source_angular", "discrete1/multi_group.py:known_source_scalar"]}
{"id": "C95", "title": "Output flags work with anisotropic scattering", "statement": "Asking fixed1d for angular or edge output, or running timed1d, works for Legendre scattering matrices whenever the plain scalar call does.", "quantifier": "every anisotropic problem and output combination", "why_tests_cant": "a matter of argument ranks over all call paths", "anchors": ["discrete1/fixed1d.py:known_source_calculation", "discrete1/timed1d.py:backward_euler", "discrete1/timed1d.py:bdf2"]}
{"id": "C96", "title": "Maximum principle", "statement": "If M bounds the boundary data and the initial guess, and external source plus scattering of M is at most the collisions of M, the flux returned by source_iteration is at most M in size, on a fine mesh, whatever the iteration counts.", "quantifier": "every fine-mesh slab problem, group count, source, boundary, guess and convergence behaviour", "why_tests_cant": "infinitely many inputs", "anchors": ["discrete1/multi_group.py:source_iteration", "discrete1/spatial_sweep.py:discrete_ordinates"]}
{"id": "C97", "title": "Backward Euler keeps the flux non-negative", "statement": "With non-negative data, (sigma + 1/(v dt)) dx <= 2|mu| and any number of steps, timed1d.backward_euler returns non-negative fluxes.", "quantifier": "every such problem, any number of steps", "why_tests_cant": "a bound over all histories", "anchors": ["discrete1/timed1d.py:backward_euler"]}
{"id": "C98", "title": "Backward Euler is bounded uniformly in time", "statement": "If M dominates the sources of every step and bounds boundary data and initial flux, every flux returned by timed1d.backward_euler is at most M, however many steps are taken.", "quantifier": "every sub-critical fine-mesh problem, any number of steps and any step length that keeps the mesh fine", "why_tests_cant": "long-time stability cannot be tested for every horizon", "anchors": ["discrete1/timed1d.py:backward_euler"]}
{"id": "C99", "title": "Time steps conserve particles", "statement": "In each step of timed1d.backward_euler and bdf2 and each group, the (first- or second-order) time difference of the particle inventory plus leakage plus collisions equals scattering, fission and external production, exactly.", "quantifier": "every slab problem, group, step and history", "why_tests_cant": "an exact identity over all histories", "anchors": ["discrete1/timed1d.py:backward_euler", "discrete1/timed1d.py:bdf2"]}
{"id": "C100", "title": "Mirror symmetry", "statement": "Turning a slab problem round (materials, widths, sources, boundary values and boundary conditions reversed, ordinates negated) turns the returned flux round and changes nothing else: for fixed-source runs with isotropic or Legendre scattering, for every step of backward Euler and BDF2, and for power iteration (same k-effective). The ordinates main.angular_x returns for the two orders of a one-sided reflecting problem are mirror images of each other.", "quantifier": "every slab problem, whatever the number of iterations taken", "why_tests_cant": "an identity between two runs on all inputs", "anchors": ["discrete1/multi_group.py:source_iteration", "discrete1/multi_group.py:source_iteration_aniso", "discrete1/timed1d.py:backward_euler", "discrete1/timed1d.py:bdf2", "discrete1/critical1d.py:power_iteration", "discrete1/main.py:angular_x"]}
{"id": "C101", "title": "Fluxes scale with the sources", "statement": "Multiplying the external source, boundary values and starting flux by one non-zero constant multiplies every returned flux by the same constant, for any number of iterations taken: fixed-source runs (isotropic and Legendre scattering), backward Euler and BDF2.", "quantifier": "every slab problem and every non-zero constant", "why_tests_cant": "an identity between two runs on all inputs", "anchors": ["discrete1/multi_group.py:source_iteration", "discrete1/multi_group.py:source_iteration_aniso", "discrete1/timed1d.py:backward_euler", "discrete1/timed1d.py:bdf2"]}
{"id": "C102", "title": "The unit of length (and time) is immaterial", "statement": "Multiplying all cell widths by s > 0 and dividing cross sections and source densities by s leaves the flux unchanged; in time dependent runs velocities and the step length may change units too; k-effective is unchanged.", "quantifier": "every slab problem and every s, t > 0", "why_tests_cant": "an identity between two runs on all inputs", "anchors": ["discrete1/multi_group.py:source_iteration", "discrete1/multi_group.py:source_iteration_aniso", "discrete1/timed1d.py:backward_euler", "discrete1/timed1d.py:bdf2", "discrete1/critical1d.py:power_iteration"]}
{"id": "C103", "title": "The order of the ordinates is immaterial between vacuum boundaries", "statement": "With vacuum boundaries, listing the ordinates with their weights, source columns and boundary columns in another order leaves the scalar flux, every time step and k-effective unchanged.", "quantifier": "every slab problem with two vacuum boundaries and every permutation of its ordinates", "why_tests_cant": "an identity between two runs on all inputs", "anchors": ["discrete1/multi_group.py:source_iteration", "discrete1/multi_group.py:source_iteration_aniso", "discrete1/timed1d.py:backward_euler", "discrete1/timed1d.py:bdf2", "discrete1/critical1d.py:power_iteration", "discrete1/spatial_sweep.py:discrete_ordinates"]}
{"id": "C104", "title": "The numbering of materials is immaterial", "statement": "Renumbering materials (including splitting a material into equal copies, merging equal ones, adding unused ones) and permuting the cross-section tables accordingly leaves the flux, every time step and k-effective unchanged; giving fission as nu-fission matrix or as chi and nu-fission vectors makes no difference either.", "quantifier": "every slab problem and every renumbering", "why_tests_cant": "an identity between two runs on all inputs", "anchors": ["discrete1/multi_group.py:source_iteration", "discrete1/multi_group.py:source_iteration_aniso", "discrete1/timed1d.py:backward_euler", "discrete1/timed1d.py:bdf2", "discrete1/critical1d.py:power_iteration"]}
{"id": "C105", "title": "The predicted-source sweep on a sphere is the ordinary sweep", "statement": "On a sphere, the sweep with a prescribed scattering source (used when a model supplies the source) solves the same problem as the ordinary sweep with that source: same incoming boundary flux, same result.", "quantifier": "every mesh, quadrature, source and boundary array", "why_tests_cant": "an identity between two sweeps on all inputs", "anchors": ["discrete1/spatial_sweep.py:scatter_source_sn", "discrete1/spatial_sweep.py:sphere_scatter_source_sn", "discrete1/spatial_sweep.py:sphere_backward_scatter", "discrete1/spatial_sweep.py:sphere_isotropic_sn"]}
{"id": "C106", "title": "Predicting does not change the caller's flux", "statement": "Calling predict on a DJINN, AutoDJINN or DeepONet wrapper leaves the flux array the caller passed unchanged, whatever the transformer does (in-place transformers included), so two identical calls give the same answer.", "quantifier": "every transformer, detransformer, model, label and flux", "why_tests_cant": "transformers are arbitrary caller code", "anchors": ["discrete1/ml/predict.py:DJINN.predict", "discrete1/ml/predict.py:AutoDJINN.predict", "discrete1/ml/predict.py:DeepONet.predict"]}
{"id": "C107", "title": "Predictions are made row by row", "statement": "When transformer, network and detransformer act on rows, so does predict: the answer for a stack of rows is the stack of the answers, in order, with the label prefixed to every row (to the transformed and to the encoded row for AutoDJINN); DeepONet with no rows raises ValueError.", "quantifier": "every number of rows, every label, every row-wise model", "why_tests_cant": "infinitely many inputs and models", "anchors": ["discrete1/ml/predict.py:DJINN.predict", "discrete1/ml/predict.py:AutoDJINN.predict", "discrete1/ml/predict.py:DeepONet.predict"]}
{"id": "C108", "title": "The requested backend is used", "statement": "AutoDJINN accepts 'torch' and 'tensorflow' in any capitalisation and uses the one asked for whenever that package is installed; other names raise ValueError; a missing package raises ImportError.", "quantifier": "every string and every combination of installed packages", "why_tests_cant": "depends on the environment", "anchors": ["discrete1/ml/predict.py:AutoDJINN.__init__"]}
{"id": "C109", "title": "load_djinn_models keeps positions", "statement": "A sequence of paths yields a list of the same length with the integer 0 exactly where the path is 0 and the model loaded from the path elsewhere, so model number n belongs to material n; it fails exactly when some file fails to load, with the error of the first such file.", "quantifier": "every sequence of paths and every loader behaviour", "why_tests_cant": "unbounded sequences and failure points", "anchors": ["discrete1/ml/predict.py:load_djinn_models"]}
{"id": "C110", "title": "Predicted sources are local", "statement": "With models that predict row by row, the predicted fission and scattering source of a cell depends only on the flux in that cell and its material.", "quantifier": "all fluxes, materials, models and meshes", "why_tests_cant": "relates two runs over all inputs", "anchors": ["discrete1/tools.py:fission_prod_predict", "discrete1/tools.py:scatter_prod_predict"]}
{"id": "C111", "title": "The automatic hybrid drivers assemble a consistent collided problem", "statement": "auto_bdf1 and auto_bdf2 with a fission matrix succeed for every admissible energy grid and coarse quadrature; the collided problem has groups_c groups and angles_c ordinates on the same mesh, its cross sections conserve the width-weighted rates of the fine ones, its velocities are block means, the prolongation shares are energy-width shares, and every step is the hybrid step of C36 on these data.", "quantifier": "every mesh, group structure, quadrature, number of steps and initial flux", "why_tests_cant": "infinitely many grids; the existing tests compare one grid to stored output", "anchors": ["discrete1/hybrid1d.py:auto_bdf1", "discrete1/hybrid1d.py:auto_bdf2", "discrete1/utils/hybrid.py:coarsen_materials", "discrete1/utils/hybrid.py:coarsen_velocity", "discrete1/utils/hybrid.py:indexing"]}
{"id": "C112", "title": "Automatic hybrid on the full grid is the monolithic scheme", "statement": "auto_bdf1 / auto_bdf2 called with the fine numbers of groups and angles run the hybrid integrator with the fine problem on both levels, identity index and unit shares; for down-scatter problems the returned fluxes equal those of timed1d.backward_euler / timed1d.bdf2 at every step.", "quantifier": "every full grid, matrix or nusigf/chi fission", "why_tests_cant": "relates two programs over all inputs", "anchors": ["discrete1/hybrid1d.py:auto_bdf1", "discrete1/hybrid1d.py:auto_bdf2"]}
{"id": "C113", "title": "Automatic hybrid accepts nusigf with chi on a coarse grid", "statement": "Fission given as nusigf with chi_u and chi_c (both documented arguments) is accepted by auto_bdf1 / auto_bdf2 for groups_c smaller than the fine number.", "quantifier": "every call with vector fission data and groups_c different from the fine number", "why_tests_cant": "the failure is independent of all numerical data", "anchors": ["discrete1/hybrid1d.py:auto_bdf1", "discrete1/hybrid1d.py:auto_bdf2", "discrete1/utils/hybrid.py:_xs_matrix_coarsen"]}
{"id": "C114", "title": "Omitting chi_c does not change the fission spectrum", "statement": "Leaving chi_c at its default while passing chi_u and nusigf either uses chi_u or is rejected clearly.", "quantifier": "every call with chi_u given, chi_c omitted, full energy grid", "why_tests_cant": "depends on numpy broadcasting for every number of materials and groups", "anchors": ["discrete1/hybrid1d.py:auto_bdf1", "discrete1/hybrid1d.py:auto_bdf2", "discrete1/tools.py:transfer_matrix"]}
{"id": "C115", "title": "Early-stopped source iteration stays on its side of the exact solution", "statement": "Source iteration started at or below (above) a non-negative exact solution of a problem with at least (at most) as much scattering, source and inflow returns a flux at or below (above) that solution, however early the convergence tests or the iteration caps stop it; fixed1d.source_iteration, which starts from zero, returns scalar and angular fluxes (centers and edges) between zero and the exact solution.", "quantifier": "every mesh fine enough for positivity, all non-negative data, every pair of comparable problems, every number of inner and outer iterations", "why_tests_cant": "needs the exact solution and all stopping points", "anchors": ["discrete1/fixed1d.py:source_iteration", "discrete1/multi_group.py:source_iteration"]}
{"id": "C116", "title": "More source, inflow or scattering never lowers the flux", "statement": "On sub-critical (contractive) fine-mesh problems the exact discrete solution is monotone in scattering/fission, external source and incoming flux - every cell, group, ordinate and edge - and non-negative for non-negative data; on down-scatter problems two runs of source iteration compare like their data whatever their guesses.", "quantifier": "all pairs of comparable problems", "why_tests_cant": "a statement over pairs of inputs", "anchors": ["discrete1/fixed1d.py:source_iteration", "discrete1/multi_group.py:source_iteration"]}
{"id": "C117", "title": "Power iteration keeps flux and keff non-negative", "statement": "Started from a non-negative flux (numpy.random.rand), with non-negative scattering and fission data on meshes fine enough for positivity, every iterate of critical1d.power_iteration, including the returned one, has non-negative flux and non-negative keff, and keff is strictly positive while the iterates produce fission neutrons.", "quantifier": "all such problems, all starts, every iteration at which the loop may stop", "why_tests_cant": "needs every iterate and every stopping point", "anchors": ["discrete1/critical1d.py:power_iteration", "discrete1/multi_group.py:source_iteration"]}
{"id": "C118", "title": "Neutron balance and k-infinity bound of the computed eigenpair", "statement": "For every k-eigenpair of the discretised slab problem (what the power iteration returns on convergence), fission neutrons divided by keff equal absorption plus leakage; and keff never exceeds the largest ratio of fission yield to absorption over materials and groups.", "quantifier": "every slab, quadrature, cross-section set and eigenpair with non-negative flux", "why_tests_cant": "a bound over all eigenpairs of all problems", "anchors": ["discrete1/critical1d.py:power_iteration"]}
{"id": "C119", "title": "The keff with a positive flux is the dominant, unique one", "statement": "On sub-critical-scattering fine-mesh problems with non-negative fission: a multiplication factor belonging to an everywhere positive flux is at least as large in modulus as every other real eigenvalue, and at most one multiplication factor has a positive flux.", "quantifier": "all pairs of eigenpairs of all such problems", "why_tests_cant": "a statement over all eigenpairs", "anchors": ["discrete1/critical1d.py:power_iteration"]}
{"id": "C120", "title": "Power iteration brackets keff from any positive start", "statement": "On down-scatter problems, if the random start lies between a*phi and b*phi for the positive eigenflux phi with factor k, every iterate stays between the same multiples of phi up to a common positive factor and every keff computed - so the returned one, however early the loop stops - lies in [a/b k, b/a k].", "quantifier": "all such problems, starts, norms and stopping points", "why_tests_cant": "needs the exact eigenpair and all stopping points", "anchors": ["discrete1/critical1d.py:power_iteration", "discrete1/tools.py:_update_keff_mat"]}
{"id": "C121", "title": "DMD and source iteration agree when the sweeps converge early", "statement": "If successive sweeps meet the outer tolerance for the first time within the R warm-up and K snapshot sweeps (and within 100), fixed1d.dynamic_mode_decomp returns exactly what fixed1d.source_iteration returns, for every combination of angular and edges, isotropic or anisotropic scattering, every geometry and whatever the SVD routine does.", "quantifier": "all problems, all R and K, all output options, the sweep at which the tolerance is met", "why_tests_cant": "the sweep at which convergence happens varies with the problem", "anchors": ["discrete1/fixed1d.py:dynamic_mode_decomp", "discrete1/fixed1d.py:source_iteration", "discrete1/multi_group.py:dynamic_mode_decomp", "discrete1/multi_group.py:_dmd_warmup", "discrete1/multi_group.py:_dmd_collect"]}
{"id": "C122", "title": "DMD accepts every number of snapshots", "statement": "fixed1d.dynamic_mode_decomp returns a flux for every K >= 0.", "quantifier": "all R, K", "why_tests_cant": "needs all K and all problems", "anchors": ["discrete1/fixed1d.py:dynamic_mode_decomp", "discrete1/multi_group.py:_dmd_collect", "discrete1/tools.py:dmd"]}
{"id": "C123", "title": "DMD is exact for down-scatter problems", "statement": "If no group scatters or fissions into itself or a lower-numbered group, fixed1d.dynamic_mode_decomp with K >= 2 returns the exact solution of the multigroup equations, for every R, every tolerance, every SVD routine: the extrapolation leaves a converged iterate alone.", "quantifier": "all such slab problems, all R >= 0, K >= 2", "why_tests_cant": "all problems and all sweep counts", "anchors": ["discrete1/fixed1d.py:dynamic_mode_decomp", "discrete1/tools.py:dmd", "discrete1/tools.py:_svd_dmd"]}
{"id": "C124", "title": "variable_source_iteration is source_iteration on width-averaged data", "statement": "multi_group.variable_source_iteration on any partition of the energy grid returns (or raises) exactly what multi_group.source_iteration does on cross sections averaged over the coarse groups with the fine widths, each Legendre moment separately, plus the time coefficient; on the full grid nothing is averaged; one moment gives the isotropic result.", "quantifier": "all problems, geometries, partitions, scattering orders, guesses", "why_tests_cant": "all partitions and all data", "anchors": ["discrete1/multi_group.py:variable_source_iteration", "discrete1/multi_group.py:_variable_source_iteration_iso", "discrete1/multi_group.py:_variable_source_iteration_aniso"]}
{"id": "C125", "title": "Solutions linear in time are reproduced exactly", "statement": "If a flux that is linear in time solves the transport equation (not discretised in time) at the end of every step with that step's sources and boundary data, then timed1d.backward_euler, timed1d.bdf2 and, on equal grids, the hybrid1d integrators started from it return it at every step, once the inner iterations are solved; for down-scatter problems unconditionally.", "quantifier": "all slab problems, linear fields, step sizes, numbers of steps, data", "why_tests_cant": "all fields and all step counts", "anchors": ["discrete1/timed1d.py:backward_euler", "discrete1/timed1d.py:bdf2", "discrete1/hybrid1d.py:backward_euler", "discrete1/hybrid1d.py:bdf2"]}
{"id": "C126", "title": "backward_euler converges to first order", "statement": "At time t = (j+1) dt the flux returned by timed1d.backward_euler is within start error + t*(largest deviation of the difference quotient from the time derivative) of any solution of the transport equation that is not discretised in time, up to the accuracy of the inner iterations; for solutions whose time derivative changes at rate at most L this is L*t*dt.", "quantifier": "all non-multiplying slab problems on meshes fine for the step, all solutions, all steps", "why_tests_cant": "an error bound for all solutions and steps cannot be tested", "anchors": ["discrete1/timed1d.py:backward_euler"]}
{"id": "C127", "title": "Solutions linear in space are reproduced exactly", "statement": "Angular fluxes linear in space (with direction- and group-dependent coefficients) that satisfy the cell-averaged transport equation are returned exactly by multi_group.source_iteration for down-scatter problems, on every mesh, from every guess.", "quantifier": "all slab meshes, fields, guesses", "why_tests_cant": "all meshes and fields", "anchors": ["discrete1/multi_group.py:source_iteration", "discrete1/spatial_sweep.py:slab_forward_iso", "discrete1/spatial_sweep.py:slab_backward_iso"]}
{"id": "C128", "title": "source_iteration is second-order accurate in space", "statement": "On a fine mesh of width at most d in a medium with sum of transfers at most c*sigma, c < 1, source_iteration returns from any guess a flux within zeta*d^2/(6(1-c)) of the cell averages of the exact scalar flux of the discrete-ordinates equations (second derivatives at most zeta in every cell, source given by cell averages), plus an iteration error bounded by c^sweeps times the initial error.", "quantifier": "all such problems, exact solutions, meshes, guesses", "why_tests_cant": "convergence orders quantify over all meshes", "anchors": ["discrete1/multi_group.py:source_iteration", "discrete1/spatial_sweep.py:discrete_ordinates"]}
{"id": "C129", "title": "Sources superpose", "statement": "source_iteration for the combination a*q1+b*q2 of sources (and boundary data) returns a times the first plus b times the second flux: exactly for down-scatter problems, whatever the guesses, and up to the iteration errors c^sweeps on contractive problems.", "quantifier": "all slab problems, shapes of the sources, coefficients, guesses", "why_tests_cant": "all pairs of sources", "anchors": ["discrete1/multi_group.py:source_iteration"]}
{"id": "C130", "title": "An integer and a constant array request the same thing", "statement": "vhybrid1d.backward_euler and bdf2 return the same result (or raise the same error) for groups_c = n as for an array whose first `steps` entries are n, whatever its further entries; likewise for angles_c.", "quantifier": "all problems, stock grids, data, numbers of steps >= 1", "why_tests_cant": "two code paths that must agree for all inputs", "anchors": ["discrete1/vhybrid1d.py:backward_euler", "discrete1/vhybrid1d.py:bdf2"]}
{"id": "C131", "title": "Any integer request is understood", "statement": "groups_c and angles_c of vhybrid1d may be an int or any sequence of integers with one entry per step.", "quantifier": "all values of groups_c and angles_c", "why_tests_cant": "quantifies over all kinds of arguments", "anchors": ["discrete1/vhybrid1d.py:backward_euler", "discrete1/vhybrid1d.py:bdf2"]}
{"id": "C132", "title": "A problem on part of a stock energy grid", "statement": "vhybrid1d accepts a problem whose groups were obtained from discrete1.energy_grid with fewer groups than the stock grid.", "quantifier": "all group counts, stock grids, requests", "why_tests_cant": "all group counts", "anchors": ["discrete1/vhybrid1d.py:_variable_hybrid_method", "discrete1/utils/hybrid.py:energy_grid_change", "discrete1/multi_group.py:variable_source_iteration"]}
{"id": "C133", "title": "Every step of vhybrid1d is a hybrid step on the grid requested for it", "statement": "For a problem on a whole stock grid and any admissible sequence of collided group and angle numbers, the call succeeds; in step j the collided problem has the requested number of groups, which cut the fine ones, the ordinates of angular_x, the same mesh and faces, data collapsed with the energy widths, and the step is the uncollided / collided / total decomposition of the implicit time step.", "quantifier": "all problems, sequences of group and angle numbers, sources, initial conditions", "why_tests_cant": "all sequences of grids and all histories", "anchors": ["discrete1/vhybrid1d.py:backward_euler", "discrete1/vhybrid1d.py:bdf2", "discrete1/utils/hybrid.py:energy_grid_change"]}
{"id": "C134", "title": "vhybrid1d on the full grid is timed1d", "statement": "With one collided group per fine group and the fine ordinates in every step, vhybrid1d.backward_euler / bdf2 return exactly what timed1d.backward_euler / bdf2 return, for problems without self- or up-scattering.", "quantifier": "all such problems, sources, initial conditions, steps", "why_tests_cant": "two solvers must agree for all inputs", "anchors": ["discrete1/vhybrid1d.py:backward_euler", "discrete1/vhybrid1d.py:bdf2", "discrete1/timed1d.py:backward_euler", "discrete1/timed1d.py:bdf2"]}
{"id": "C135", "title": "What a pass of hybrid_power_iteration computes", "statement": "critical1d.hybrid_power_iteration succeeds for every admissible coarse grid and quadrature after between 1 and 100 passes, stops at the first pass at which the criterion holds, and every pass computes the uncollided flux of the fissions (divided by keff) on the fine grid, the first-collision source of every coarse group, the collided flux from it with collapsed data, their sum, keff times the ratio of the fission productions, and the normalised flux.", "quantifier": "all slab problems, coarse grids, quadratures, random starts", "why_tests_cant": "all inputs and all passes", "anchors": ["discrete1/critical1d.py:hybrid_power_iteration", "discrete1/critical1d.py:_collided_terms"]}
{"id": "C136", "title": "hybrid_power_iteration on the full grid is power_iteration", "statement": "With one collided group per fine group and the fine ordinates, hybrid_power_iteration returns the flux and keff of power_iteration after the same number of passes from the same random start, for problems without self- or up-scattering.", "quantifier": "all such slab problems, energy bounds, random starts", "why_tests_cant": "two solvers must agree for all inputs", "anchors": ["discrete1/critical1d.py:hybrid_power_iteration", "discrete1/critical1d.py:power_iteration"]}
{"id": "C137", "title": "Dynamic mode decomposition extrapolates to the limit", "statement": "fixed1d.dynamic_mode_decomp, after its warm-up sweeps, returns the limit of the iteration (the solution of the multigroup equations), also when the plain iteration diverges, provided the solution exists and is unique.", "quantifier": "all slab problems, numbers of warm-up sweeps and snapshots, tolerances, SVD routines returning a singular value decomposition", "why_tests_cant": "all inputs; a test compares one run to a tolerance", "anchors": ["discrete1/fixed1d.py:dynamic_mode_decomp", "discrete1/tools.py:dmd"]}
{"id": "C138", "title": "Rows held out when a memmap file is written stay held out when it is read", "statement": "A file written by deeponet_memmap stores training, validation and test samples in this order; process_data_memmap with its default fractions serves test samples only for testing, validation samples only for validation, and only training samples for training.", "quantifier": "all sample counts, batch sizes and seeds (any permutation)", "why_tests_cant": "all sample counts and permutations; the split sizes are rounded differently by writer and reader", "anchors": ["discrete1/ml/train.py:process_data_memmap", "discrete1/ml/data.py:deeponet_memmap"]}
{"id": "C139", "title": "process_data partitions the samples", "statement": "process_data puts every sample, with its own flux, labels and target, into exactly one of the training, validation and test sets, with one fifth kept for testing and a quarter of the rest for validation; the tuner's split does the same with its validation fraction; deeponet_memmap writes the same parts for the same seed.", "quantifier": "all sample counts, sample contents, fractions and seeds", "why_tests_cant": "all data sets and all permutations", "anchors": ["discrete1/ml/train.py:process_data", "discrete1/ml/tune.py:_process_data", "discrete1/ml/data.py:deeponet_memmap"]}
{"id": "C140", "title": "Every network the tuner builds fits the data", "statement": "Whatever a trial draws, the DeepONet that is trained maps one row of flux and one row of labels to one row of y (both subnetworks end in rows of the latent size, the output layer maps their product to the number of outputs); with prebuilt the prescribed layer sizes are used.", "quantifier": "all search spaces, sampler answers, data sizes, weights and input rows", "why_tests_cant": "all architectures in an unbounded search space", "anchors": ["discrete1/ml/tune.py:_init_nn_model", "discrete1/ml/tune.py:_init_onet_model", "discrete1/ml/tune.py:_init_prebuilt_nn_model", "discrete1/ml/tune.py:DeepONet"]}
{"id": "C141", "title": "Reported trial parameters determine what was trained", "statement": "The parameters reported for a trial are exactly those of the network, optimizer, scheduler, loss, epochs and batch size it was trained with; there is one value per name, and two trials with the same reported values train the same configuration.", "quantifier": "all search spaces, sampler answers and study histories", "why_tests_cant": "all pairs of trials", "anchors": ["discrete1/ml/tune.py:objective", "discrete1/ml/tune.py:_init_onet_model", "discrete1/ml/tune.py:_init_optimizer", "discrete1/ml/tune.py:_init_scheduler", "discrete1/ml/tune.py:_init_loss_function"]}
{"id": "C142", "title": "A study over a valid search space runs through", "statement": "run never fails because of what a trial draws: every search space with values torch accepts can be searched with any number of trials, also when a stored study is continued.", "quantifier": "all search spaces, sampler answers, numbers of trials and of continued runs", "why_tests_cant": "all histories of a study", "anchors": ["discrete1/ml/tune.py:run", "discrete1/ml/tune.py:objective", "discrete1/ml/tune.py:_init_scheduler"]}
{"id": "C143", "title": "Every scheduler a trial can draw is accepted", "statement": "A trial that draws a scheduler mode gets a ReduceLROnPlateau scheduler with the drawn values; the default ranges contain only values it accepts.", "quantifier": "all ranges and sampler answers", "why_tests_cant": "all draws from a continuous range", "anchors": ["discrete1/ml/tune.py:_init_scheduler", "discrete1/ml/tune.py:_init_search_parameters"]}
{"id": "C144", "title": "The tuner leaves the test samples of a memmap file alone", "statement": "With default fractions the tuner trains on training samples and validates on validation samples of a file written by deeponet_memmap; it does not use test samples.", "quantifier": "all sample counts, batch sizes and seeds", "why_tests_cant": "all sample counts and permutations", "anchors": ["discrete1/ml/tune.py:_create_memmap_datasets", "discrete1/ml/data.py:deeponet_memmap"]}
{"id": "C145", "title": "Known-source fluxes are bounded by their source on every mesh", "statement": "Summed over cells and directions, collisions times the squared flux returned by known_source_calculation never exceed the squared source divided by the total cross section plus the squared boundary input, however coarse the cells (diamond difference may oscillate, but the mean square cannot blow up).", "quantifier": "all slabs with positive totals, cell widths, quadratures, sources and boundary fluxes (vacuum, or reflecting without additional input)", "why_tests_cant": "all meshes and optical thicknesses", "anchors": ["discrete1/fixed1d.py:known_source_calculation", "discrete1/multi_group.py:known_source_angular", "discrete1/multi_group.py:known_source_scalar", "discrete1/spatial_sweep.py:slab_known_source_sn"]}
{"id": "C146", "title": "Source iteration converges on every mesh", "statement": "If the transfer ratios are at most c < 1, every outer sweep of the source iteration multiplies the mean-square distance to the solution by at most c squared, on fine and on coarse meshes; the discrete equations then have exactly one solution and source_iteration approaches it from every guess.", "quantifier": "all slabs, meshes, sources, boundaries, starting fluxes and group structures with damped transfers", "why_tests_cant": "all meshes, data and iteration histories", "anchors": ["discrete1/fixed1d.py:source_iteration", "discrete1/multi_group.py:source_iteration", "discrete1/spatial_sweep.py:slab_isotropic_sn"]}
{"id": "C147", "title": "Stopping by the tolerance means accuracy", "statement": "When source_iteration stops because the change fell below the tolerance, the returned flux differs from the exact discrete solution by at most c/(1-c) times the tolerance times the size of the flux, in the mean square on every mesh and in every cell on fine meshes.", "quantifier": "all problems with scattering ratio below one, tolerances and starting fluxes", "why_tests_cant": "all iteration histories", "anchors": ["discrete1/multi_group.py:source_iteration", "discrete1/multi_group.py:source_iteration_iso"]}
{"id": "C148", "title": "The time integrators are unconditionally stable", "statement": "Without multiplication, the mean-square difference of two runs with the same sources never grows with backward_euler and stays within a factor three of the initial difference with bdf2, for every cell width, time step and number of steps.", "quantifier": "all passive slabs, meshes, time steps, sources, pairs of initial fluxes and numbers of steps", "why_tests_cant": "all time steps and run lengths", "anchors": ["discrete1/timed1d.py:backward_euler", "discrete1/timed1d.py:bdf2"]}
{"id": "C149", "title": "backward_euler is first order and bdf2 second order in the time step", "statement": "Against a smooth solution of the semi-discrete equations the root-mean-square error of backward_euler is at most t L dt/2, that of bdf2 at most (3/2 M + 4 t L) dt^2 (its first step is backward Euler), on every mesh; the hybrid drivers on equal grids have the same orders.", "quantifier": "all passive slabs without self- and up-scatter, meshes, time steps, numbers of steps and smooth solutions", "why_tests_cant": "all step sizes and smooth solutions", "anchors": ["discrete1/timed1d.py:backward_euler", "discrete1/timed1d.py:bdf2", "discrete1/hybrid1d.py:backward_euler", "discrete1/hybrid1d.py:bdf2"]}
{"id": "C150", "title": "The AmBe source loads and maps into the energy groups", "statement": "external1d.ambe(x, loc_x, edges_g) returns a source that sits in cell loc_x only and gives each group the magnitude of the data bin that holds its centre, accepts edges in eV or MeV, and leaves the caller's energy grid as it was.", "quantifier": "all locations, group structures, energy grids and data files", "why_tests_cant": "all grids and repeated calls", "anchors": ["discrete1/external1d.py:ambe"]}
{"id": "C151", "title": "Stopping and continuing a training equals training on", "statement": "Training m epochs, and later continuing from the checkpoint for k more (in the same or a new session), leaves the same weights, optimizer state, checkpoint and loss histories as training m + k epochs at once.", "quantifier": "all models, optimizers, schedulers, loss histories and split points m, k", "why_tests_cant": "all training histories and split points", "anchors": ["discrete1/ml/train.py:RegressionDeepONet", "discrete1/ml/train.py:continue_training", "discrete1/ml/train.py:save_checkpoint", "discrete1/ml/train.py:load_checkpoint"]}
{"id": "C152", "title": "Hybrid backward Euler keeps the flux non-negative", "statement": "With non-negative data (sources, initial and boundary flux, cross sections) on a mesh fine enough for the diamond scheme, every angular and scalar flux that the hybrid and variable hybrid backward Euler drivers compute at every time step is non-negative.", "quantifier": "all problems, collided grids, group maps and numbers of time steps satisfying the stated mesh and data conditions", "why_tests_cant": "all step counts and data", "anchors": ["discrete1/hybrid1d.py:backward_euler", "discrete1/hybrid1d.py:_hybrid_method", "discrete1/vhybrid1d.py:backward_euler", "discrete1/vhybrid1d.py:_variable_hybrid_method"]}
{"id": "C153", "title": "bdf2 keeps the flux non-negative", "statement": "With non-negative data and a mesh fine enough for the diamond scheme, the bdf2 drivers return non-negative fluxes at every time step.", "quantifier": "all problems and numbers of time steps", "why_tests_cant": "all step counts and data", "anchors": ["discrete1/timed1d.py:bdf2", "discrete1/hybrid1d.py:bdf2"]}
{"id": "C154", "title": "Hybrid time steps conserve particles", "statement": "Every time step of the hybrid drivers satisfies the particle balance: rate of change of the inventory plus net leakage plus collisions equals scattering and fission production plus sources, summed over cells and groups.", "quantifier": "all problems, collided grids, group maps, both time schemes and all steps", "why_tests_cant": "all step counts and data", "anchors": ["discrete1/hybrid1d.py:backward_euler", "discrete1/hybrid1d.py:bdf2", "discrete1/hybrid1d.py:_hybrid_method"]}
{"id": "C155", "title": "A surrogate solve transports its models' source and keeps the particle balance", "statement": "ml_source_iteration with a label makes 1 to 50 passes, stops early exactly when its criterion holds, keeps the flux non-negative for non-negative data on a fine mesh, and every pass is the transport solution of exactly the models' spectra rescaled to the true scattering rate (physics for materials without a model), so that leakage plus collisions equal the true scattering of the previous flux plus the external source whatever the models predict.", "quantifier": "all slab problems with non-negative data, all models with non-negative nonzero predictions, all guesses and numbers of passes", "why_tests_cant": "all models and iteration counts", "anchors": ["discrete1/multi_group.py:ml_source_iteration", "discrete1/tools.py:scatter_prod_predict", "discrete1/spatial_sweep.py:slab_scatter_source_sn"]}
{"id": "C156", "title": "The error of a surrogate solve is bounded by the error of its models", "statement": "If near the physics solution the models reproduce the scattering source within eps times sigma_t, ml_source_iteration returns a flux within c^passes times the initial error plus eps/(1-c) of the physics solution; with placeholders for all materials it converges to the physics solution.", "quantifier": "all slab problems on a fine mesh with scattering ratio c < 1, all models, guesses and pass counts", "why_tests_cant": "all models and iteration counts", "anchors": ["discrete1/multi_group.py:ml_source_iteration", "discrete1/tools.py:scatter_prod_predict"]}
{"id": "C157", "title": "Anisotropic within-group iteration converges on every mesh", "statement": "If every Legendre scattering moment is at most c < 1 times the total cross section and the quadrature integrates products of the Legendre polynomials used exactly, the one-group slab equation with Legendre-expanded scattering has exactly one solution, and the anisotropic within-group iteration approaches it: after s sweeps (at most 100, fewer only if its criterion holds) the collision-weighted squared error of the scalar flux is at most c^(2s) times the initial error, for every cell width, angular order, number of moments, source, vacuum or reflecting boundary.", "quantifier": "all one-group slab problems with anisotropic scattering ratio below c, all meshes, moments, sources and guesses", "why_tests_cant": "all meshes, moment counts and iteration counts", "anchors": ["discrete1/spatial_sweep.py:slab_anisotropic_sn"]}
{"id": "C158", "title": "Saved DeepONets load back", "statement": "save_model writes the weights and the metrics under documented names and load_model of the same name restores exactly these weights, whatever is saved under other names in between; no other file is touched.", "quantifier": "all names, weights, metrics and file systems", "why_tests_cant": "all names and histories of saves", "anchors": ["discrete1/ml/train.py:save_model", "discrete1/ml/train.py:load_model"]}
{"id": "C159", "title": "The trainer honours its documented options", "statement": "Every documented keyword that is given is used, every other takes its documented default, unexpected names are reported once each and change nothing, and the named optimizer, loss and scheduler are built with the trainer's values.", "quantifier": "all sets of keyword arguments, all torch registries", "why_tests_cant": "all combinations of options", "anchors": ["discrete1/ml/train.py:__init__", "discrete1/ml/train.py:_init_optimizer", "discrete1/ml/train.py:_init_lr_scheduler", "discrete1/ml/train.py:_init_loss_fn"]}
{"id": "C160", "title": "The learning-rate scheduler advances once per epoch", "statement": "An epoch updates the model once per training batch in training mode, evaluates all validation batches with the updated weights in evaluation mode and then steps the scheduler once, with the validation loss exactly for ReduceLROnPlateau; over a whole call there are exactly as many steps as epochs run, in order, and the test evaluation adds none.", "quantifier": "all torch back ends whose evaluation is pure, all batches, schedulers, epoch counts and interruptions", "why_tests_cant": "all back ends and schedules", "anchors": ["discrete1/ml/train.py:train_one_epoch", "discrete1/ml/train.py:_val_batch", "discrete1/ml/train.py:_train_batch", "discrete1/ml/train.py:train"]}
{"id": "C161", "title": "Validation and test data do not leak into training", "statement": "Replacing the test set changes nothing but the reported test loss; replacing the validation set leaves the model, optimizer and training loss after every epoch unchanged unless ReduceLROnPlateau is used, and then only the validation losses matter.", "quantifier": "all torch back ends whose evaluation is pure, all data sets, epoch counts and interruptions", "why_tests_cant": "relates two runs for all data", "anchors": ["discrete1/ml/train.py:train", "discrete1/ml/train.py:train_one_epoch", "discrete1/ml/train.py:_val_batch"]}
{"id": "C162", "title": "Reciprocity of source and detector", "statement": "Exchanging source and detector (with transposed scattering and a symmetric quadrature) leaves the response unchanged on every mesh: exactly for known_source_scalar, up to the iteration error for source_iteration, including boundary sources weighted with the outgoing importance.", "quantifier": "all slabs, meshes, symmetric quadratures, faces, sources and detectors", "why_tests_cant": "relates two runs for all data", "anchors": ["discrete1/multi_group.py:known_source_scalar", "discrete1/multi_group.py:source_iteration"]}
{"id": "C163", "title": "Transposing scattering and fission does not change keff", "statement": "The multiplication factor of the problem with transposed scattering and fission matrices equals that of the problem itself; modes of different eigenvalues are orthogonal in the fission importance.", "quantifier": "all slabs, meshes, symmetric quadratures and cross sections", "why_tests_cant": "relates two eigenproblems for all data", "anchors": ["discrete1/critical1d.py:power_iteration"]}
{"id": "C164", "title": "Exact perturbation formula for keff", "statement": "The change of 1/keff caused by any change of total, scattering and fission cross sections is exactly the importance-weighted balance of the changes.", "quantifier": "all slabs, meshes, symmetric quadratures and changes of the cross sections", "why_tests_cant": "relates two eigenproblems for all data", "anchors": ["discrete1/critical1d.py:power_iteration"]}
{"id": "C165", "title": "keff is monotone in the cross sections", "statement": "More fission, more scattering or less absorption never lowers the multiplication factor of a positive flux.", "quantifier": "all fine slab meshes, quadratures and pairs of ordered cross sections", "why_tests_cant": "relates two eigenproblems for all data", "anchors": ["discrete1/critical1d.py:power_iteration"]}
{"id": "C166", "title": "Solutions can be restricted to a part of the slab", "statement": "Wherever a slab is cut, the restriction of the solution solves the part fed with the angular fluxes at the cuts, and source_iteration on the part finds it from every guess.", "quantifier": "all slabs, faces, cuts, sources and guesses", "why_tests_cant": "all cuts and meshes", "anchors": ["discrete1/multi_group.py:source_iteration"]}
{"id": "C167", "title": "A part of a slab multiplies less than the whole", "statement": "Cutting a piece out of a slab and replacing the rest by vacuum never raises the multiplication factor.", "quantifier": "all fine slab meshes, cuts and cross sections", "why_tests_cant": "relates two eigenproblems for all cuts", "anchors": ["discrete1/critical1d.py:power_iteration"]}
{"id": "C168", "title": "Compiled kernels stay inside their arrays", "statement": "With documented shapes and material indices below the number of materials, no numba kernel (compiled without bounds checks) reads or writes outside its arrays, whichever public solver calls it.", "quantifier": "all numbers of cells, materials, groups and angles, all material maps, geometries and source shapes", "why_tests_cant": "an out-of-bounds access is silent; tests cannot enumerate the shapes", "anchors": ["discrete1/multi_group.py:known_source_scalar", "discrete1/multi_group.py:source_iteration", "discrete1/spatial_sweep.py:slab_forward_iso", "discrete1/spatial_sweep.py:discrete_ordinates", "discrete1/tools.py:_off_scatter"]}
{"id": "C169", "title": "energy_velocity reads its grid in MeV", "statement": "A neutron moving with the returned speed has the kinetic energy of the group centre in the documented unit, MeV.", "quantifier": "all energy grids", "why_tests_cant": "all real-valued grids", "anchors": ["discrete1/main.py:energy_velocity"]}
{"id": "C170", "title": "The fundamental mode exists and is isolated", "statement": "For a subcritically scattering slab in which neutrons spread to both sides and every fission spectrum reaches every group, the k-eigenvalue problem that power_iteration solves has an eigenpair with positive flux and positive k, unique up to scaling, and every other real eigenvalue is smaller in modulus by a fixed ratio below one.", "quantifier": "all slabs (any number of cells, groups, angles, materials, reflective or vacuum boundaries) with non-negative data, scattering ratio below one and resolved mesh", "why_tests_cant": "existence and a uniform spectral gap are statements about all problems of a class; no finite set of runs shows them", "anchors": ["discrete1/critical1d.py:power_iteration", "discrete1/tools.py:fission_mat_prod"]}
{"id": "C171", "title": "power_iteration converges geometrically from every start", "statement": "From every non-negative random start with some production, the flux of pass j of power_iteration differs from a multiple of the fundamental mode by at most a factor 1 + q^(j-1) E (plus a term given by the accuracy of the inner iterations), and keff converges to the eigenvalue at the same rate; q < 1 and E depend on the problem only.", "quantifier": "all starts, norms, stopping tests, numbers of passes; all down-scatter slabs (and all slabs with inner iterations of relative accuracy eta)", "why_tests_cant": "quantifies over all starts and all numbers of passes", "anchors": ["discrete1/critical1d.py:power_iteration", "discrete1/tools.py:_update_keff_mat", "discrete1/tools.py:_update_keff_vec"]}
{"id": "C172", "title": "Stopping by the tolerance bounds the error of keff", "statement": "If power_iteration stops by its tolerance (before the 100th pass), the returned keff satisfies (1-tau)/(1+tau) <= keff/k <= (1+tau)/(1-tau) with tau = cells * tolerance (times 1 -+ eta for inner iterations of relative accuracy eta).", "quantifier": "all positive starts, all tolerances with cells * tol < 1, all slabs of the class", "why_tests_cant": "the true eigenvalue is unknown to a test, and the bound has to hold for every start and problem", "anchors": ["discrete1/critical1d.py:power_iteration"]}
{"id": "C173", "title": "Hybrid time integration converges with the time step on every coarse grid", "statement": "hybrid1d.backward_euler and hybrid1d.bdf2 approximate the time-dependent fine-group transport equation on the given mesh to first order in the time step, whatever coarse energy groups, coarse quadrature and coarse cross sections the collided problem uses, and however badly its source iteration has converged within its cap: the scalar fluxes of step j differ from the exact ones, in the weighted mean square norm, by at most exp(Lambda t) t C dt, with constants given by the bounds of the data.", "quantifier": "all slabs, meshes, quadratures, groups, fine and coarse data bounded by given constants, sources, smooth solutions, numbers of steps, time steps with dt * (coarse speed * coarse transfer * coarse groups) <= 1/2", "why_tests_cant": "an error bound for all step sizes, all coarse grids and all solutions cannot be sampled", "anchors": ["discrete1/hybrid1d.py:backward_euler", "discrete1/hybrid1d.py:bdf2", "discrete1/hybrid1d.py:_hybrid_method"]}
{"id": "C174", "title": "hybrid1d.bdf2 is of second order", "statement": "On a smooth solution the error of hybrid1d.bdf2 at a fixed time decreases with the square of the time step, as its documentation (second-order time integration) says, for every coarse grid.", "quantifier": "all problems, coarse grids, time steps", "why_tests_cant": "order of convergence is a statement about all time steps", "anchors": ["discrete1/hybrid1d.py:bdf2", "discrete1/hybrid1d.py:_hybrid_method"]}
{"id": "C175", "title": "Rounding never produces a negative flux", "statement": "In floating-point arithmetic, with every addition, subtraction, multiplication and division rounded in the order the code performs them, source iteration on a slab with non-negative cross sections, sources, boundary data and initial flux on a mesh with sigma dx <= 2 |mu| returns a non-negative scalar flux, for every rounding mode that keeps the order of numbers and keeps zero and for every way the convergence tests may come out.", "quantifier": "all monotone roundings with rnd 0 = 0, all slabs, meshes, quadratures, groups, non-negative data, initial fluxes, convergence tests", "why_tests_cant": "a sign property of rounded arithmetic for all roundings and all data cannot be settled by running some inputs on one machine", "anchors": ["discrete1/spatial_sweep.py:slab_isotropic_sn", "discrete1/spatial_sweep.py:slab_forward_iso", "discrete1/spatial_sweep.py:slab_backward_iso", "discrete1/tools.py:_off_scatter", "discrete1/multi_group.py:_one_sweep_iso", "discrete1/multi_group.py:source_iteration_iso"]}
{"id": "C176", "title": "One rounded sweep has a small relative error in every cell", "statement": "One pass of the within-group iteration computed with unit roundoff u differs in every cell from the same pass in exact arithmetic by a relative error of at most K u / (1 - K u), K = A + 5 + 2 N (G + 7 + 2 / (1 - th)), for A directions, N cells, G groups, when sigma dx <= th * 2 |mu| with th < 1 and the data are non-negative; reflecting faces included.", "quantifier": "all arithmetics with relative error u per operation, all slabs, meshes, quadratures, groups, non-negative data and fluxes with K u < 1", "why_tests_cant": "componentwise rounding error bounds hold for all inputs and sizes or not at all", "anchors": ["discrete1/spatial_sweep.py:slab_isotropic_sn", "discrete1/spatial_sweep.py:slab_forward_iso", "discrete1/spatial_sweep.py:slab_backward_iso", "discrete1/tools.py:_off_scatter", "discrete1/multi_group.py:_one_sweep_iso", "discrete1/multi_group.py:source_iteration_iso"]}
{"id": "C177", "title": "Rounding errors do not pile up over the iterations", "statement": "In floating-point arithmetic source iteration on a contractive slab problem (scattering ratio c) approaches the exact solution of the discrete multigroup equations to within the fixed distance k M / (1 - c - k), k = K u, M the largest flux, however many of the up to 100 x 100 passes are made: after s outer sweeps the error is at most that distance plus (c / (1 - k))^s times the initial excess; and when the outer test stops the call (relative change t), the error is at most (k + c t) / (1 - k - c (1 + t)) M from any non-negative guess.", "quantifier": "all arithmetics with relative error u per operation, all contractive slab problems with c + k < 1, non-negative guesses, convergence tests, numbers of sweeps", "why_tests_cant": "the accumulated effect of thousands of roundings over all inputs cannot be tested", "anchors": ["discrete1/spatial_sweep.py:slab_isotropic_sn", "discrete1/spatial_sweep.py:slab_forward_iso", "discrete1/spatial_sweep.py:slab_backward_iso", "discrete1/tools.py:_off_scatter", "discrete1/multi_group.py:_one_sweep_iso", "discrete1/multi_group.py:source_iteration_iso", "discrete1/multi_group.py:source_iteration"]}
{"id": "C178", "title": "The last hybrid solve only distributes collided particles among fine groups", "statement": "auto_bdf1 and auto_bdf2 with the fine ordinates, on problems whose total cross section and speed do not vary within a coarse energy group: in every step whose collided iteration is solved, the returned flux summed over the fine groups of a coarse group equals the uncollided flux of these groups plus the collided flux of the coarse group, in every cell and whatever the scattering and fission matrices.", "quantifier": "all slabs, meshes, quadratures, partitions of the energy groups, scattering and fission matrices, sources, boundaries, time steps, both integrators", "why_tests_cant": "conservation between the three solves of a step must hold for every partition and every matrix", "anchors": ["discrete1/hybrid1d.py:auto_bdf1", "discrete1/hybrid1d.py:auto_bdf2", "discrete1/hybrid1d.py:_hybrid_method", "discrete1/utils/hybrid.py:coarsen_materials", "discrete1/utils/hybrid.py:coarsen_velocity", "discrete1/utils/hybrid.py:indexing"]}
{"id": "C179", "title": "A coarse energy grid costs no accuracy when nothing varies within its groups", "statement": "If total cross section, speed and transfer columns (scattering plus fission) do not vary within a coarse energy group, every auto_bdf1 / auto_bdf2 run with the fine ordinates whose collided iterations are solved is fully implicit: each step solves the monolithic time-discrete transport equation with the scattering source of its own flux. On contractive problems it returns exactly what timed1d returns on the fine grid; for down-scatter problems without any condition on the inner iterations.", "quantifier": "all such slab problems, partitions of the energy groups, sources, boundaries, initial fluxes, time steps, numbers of steps, both integrators", "why_tests_cant": "equality of two different algorithms on all inputs of a class is not a finite check", "anchors": ["discrete1/hybrid1d.py:auto_bdf1", "discrete1/hybrid1d.py:auto_bdf2", "discrete1/hybrid1d.py:_hybrid_method", "discrete1/utils/hybrid.py:coarsen_materials", "discrete1/utils/hybrid.py:coarsen_velocity", "discrete1/utils/hybrid.py:indexing", "discrete1/timed1d.py:backward_euler", "discrete1/timed1d.py:bdf2"]}
{"id": "C180", "title": "The tuner honours its documented options", "statement": "Every documented keyword of the tuner that is given is used, every other takes its documented default, unexpected names are reported once each and change nothing else; without memmap_file all three arrays are required (ValueError otherwise) and the input and output sizes are their column numbers; with memmap_file the arrays may be None and the sizes are those stored with the file; without search keywords the default search space is used.", "quantifier": "all keyword dictionaries, array shapes, memmap files", "why_tests_cant": "the options are independent of each other and there are unboundedly many combinations", "anchors": ["discrete1/ml/tune.py:RegressionDeepONet", "discrete1/ml/tune.py:__init__", "discrete1/ml/tune.py:_init_search_parameters"]}
{"id": "C181", "title": "What a trial of the tuner trains, evaluates and reports", "statement": "In a trial with at least one epoch every epoch updates the model once per training batch in training mode, evaluates all validation batches in evaluation mode with the updated weights and steps the scheduler (if any) once with their mean; exactly one metric per epoch is reported, the trial is pruned at the first epoch the pruner asks for and otherwise returns its last metric; validation data influence the weights at most through the metrics handed to a scheduler, and not at all without one.", "quantifier": "all models, optimizers, schedulers, data sets, pruners and numbers of epochs (at least one)", "why_tests_cant": "all histories of a stateful training are quantified over", "anchors": ["discrete1/ml/tune.py:_train_batch", "discrete1/ml/tune.py:_validate", "discrete1/ml/tune.py:objective"]}
{"id": "C182", "title": "Time stepping in floating point never produces a negative flux", "statement": "With non-negative data, on a mesh fine for the cross section sigma + 1/(v dt) as the computer rounds it, timed1d.backward_euler run with any monotone rounding after every operation returns non-negative scalar fluxes at every time step; with no rounding the model is the exact integrator.", "quantifier": "all monotone roundings (all IEEE modes), data, meshes, numbers of steps, convergence tests", "why_tests_cant": "unboundedly many roundings, steps and data", "anchors": ["discrete1/timed1d.py:backward_euler", "discrete1/tools.py:_time_right_side", "discrete1/multi_group.py:known_source_angular"]}
{"id": "C183", "title": "What stopping by the tolerance means for keff in floating point", "statement": "If critical1d.power_iteration, run with a rounding of relative error u after every operation from a positive start, stops before pass 100 because successive fluxes agree to tau, then it has raised no exception, flux and keff are positive, and keff agrees with the eigenvalue of the positive mode up to the factor (1+tau)/(1-tau) times e (accuracy of the inner iterations) times (1/(1-u))^(2 N G^2 + G + 11); for down-scatter problems up to (1+tau)/(1-tau)/(1 - D u) with explicit D. Roundings of earlier passes do not count.", "quantifier": "all roundings with relative error u, starts, norms, tests, slabs with non-negative data", "why_tests_cant": "an error bound for all data and all iteration histories", "anchors": ["discrete1/critical1d.py:power_iteration", "discrete1/tools.py:_update_keff_mat", "discrete1/tools.py:_update_keff_vec", "discrete1/tools.py:fission_mat_prod", "discrete1/tools.py:fission_vec_prod"]}
{"id": "C184", "title": "Relative accuracy in floating point on down-scatter problems", "statement": "On a down-scatter problem with non-negative data and a fine mesh the source iteration, run with a rounding of relative error u after every operation, whatever guess and convergence tests, gives in every cell and every group a flux that agrees with the exact solution of the discrete equations up to the factor (1/(1 - C u))^(g+1), C = A + 5 + 2 N (G + 7 + 2/(1-th)), however small the flux is.", "quantifier": "all roundings with relative error u, guesses, tests, down-scatter slabs with non-negative data", "why_tests_cant": "a relative error bound for all data and guesses", "anchors": ["discrete1/multi_group.py:source_iteration_iso", "discrete1/spatial_sweep.py:slab_isotropic_sn"]}
{"id": "C185", "title": "Fixed-source problems with fission converge exactly when the system is subcritical", "statement": "Scattering alone contractive, fission non-negative, positive eigenpair with multiplication factor k. If k < 1 there is, for every external source and boundary source, exactly one solution of the discrete equations (non-negative for non-negative data) and a ratio r < 1 depending only on the system such that source_iteration (and fixed1d.source_iteration, from zero) contracts the error measured against a fixed positive flux by r per sweep, whatever guess and inner tests. A positive source has a non-negative solution if and only if k < 1. If k >= 1 each sweep raises the flux everywhere by at least delta times the mode, yet source_iteration returns without any error.", "quantifier": "all subcritical and supercritical slabs, sources, guesses, convergence tests, numbers of sweeps", "why_tests_cant": "an iff over all data; convergence is about unboundedly many sweeps", "anchors": ["discrete1/fixed1d.py:source_iteration", "discrete1/multi_group.py:source_iteration_iso", "discrete1/critical1d.py:power_iteration"]}
{"id": "C186", "title": "Long-time behaviour of backward Euler: relaxation, persistence, growth", "statement": "timed1d.backward_euler with constant data, on a mesh fine for sigma + 1/(v dt). Subcritical (k < 1): there are theta < 1 and a positive flux u depending only on the system and dt such that from every initial flux the flux of step j is within theta^(j+1) M u of the unique steady state - however badly the inner iterations converge, even one sweep per step; with no source the flux dies out. k >= 1: a flux that starts above m times the positive mode stays above it at every step; k > 1 with fission everywhere: it grows at least like rho^(j+1) with one rho > 1.", "quantifier": "all subcritical, critical and supercritical slabs, initial fluxes, constant data, step lengths, numbers of steps, convergence tests", "why_tests_cant": "asymptotics over unboundedly many steps and all data", "anchors": ["discrete1/timed1d.py:backward_euler", "discrete1/multi_group.py:source_iteration_iso", "discrete1/tools.py:_time_right_side"]}
{"id": "C187", "title": "An unsupported geometry value is refused", "statement": "A call with a geometry flag other than the two documented values (1 slab, 2 sphere) raises an error, or at least does not return a flux that is wrong for every source. This applies to the fixed-source driver, the multigroup source iteration and the time-dependent drivers.", "quantifier": "all problems, data and geometry values other than 1 and 2", "why_tests_cant": "a statement about every value and all data; the failure is silent, so a test that does not check the flux passes", "anchors": ["discrete1/multi_group.py:_one_sweep_iso", "discrete1/multi_group.py:source_iteration", "discrete1/multi_group.py:known_source_scalar", "discrete1/timed1d.py:backward_euler"]}
{"id": "C188", "title": "Non-negative data give non-negative fluxes in spheres on fine meshes", "statement": "As in slabs, there is a mesh refinement (bound on sigma dx) below which a sphere with non-negative sources, cross sections and entering flux gets a non-negative scalar flux.", "quantifier": "all shell widths, guesses, numbers of sweeps", "why_tests_cant": "for-all meshes; a test sees only some meshes and sources", "anchors": ["discrete1/spatial_sweep.py:sphere_isotropic_sn", "discrete1/spatial_sweep.py:sphere_backward_iso", "discrete1/multi_group.py:source_iteration"]}
{"id": "C189", "title": "The past does not depend on the future", "statement": "The first m entries returned by a time-dependent run of n >= m steps (timed1d, hybrid1d, auto drivers, vhybrid1d, first and second order) are exactly what a run of m steps returns, and depend only on the source and boundary data (and collided grids) of the first m steps; if the short run raises an error, the long run raises the same one.", "quantifier": "all problems, geometries, data, numbers of steps m <= n, later data; no well-posedness assumption", "why_tests_cant": "for-all histories and futures", "anchors": ["discrete1/timed1d.py:backward_euler", "discrete1/timed1d.py:bdf2", "discrete1/hybrid1d.py:backward_euler", "discrete1/hybrid1d.py:bdf2", "discrete1/hybrid1d.py:auto_bdf1", "discrete1/hybrid1d.py:auto_bdf2", "discrete1/vhybrid1d.py:backward_euler", "discrete1/vhybrid1d.py:bdf2"]}
{"id": "C190", "title": "Source iteration solves the sphere", "statement": "For a spherical problem (positive shell widths, non-negative total cross sections, ascending symmetric quadrature) source_iteration never fails and returns a flux that solves the coupled multigroup spherical equations up to a residual, which after stopping by the tolerances is bounded by cells times tolerance times the scattering of the flux; a guess that solves the equations is returned unchanged whatever the tests; with down-scattering only the returned flux is exactly the unique solution, for every guess; solutions superpose.", "quantifier": "every sphere, mesh, material map, cross sections, sources, entering fluxes, guess, outcome of the convergence tests", "why_tests_cant": "the input space is infinite and the iteration is data dependent", "anchors": ["discrete1/multi_group.py:source_iteration", "discrete1/multi_group.py:_one_sweep_iso", "discrete1/spatial_sweep.py:sphere_isotropic_sn"]}
{"id": "C191", "title": "Scaling and units in spheres", "statement": "In spheres, multiplying source, boundary values and guess by a nonzero constant multiplies the flux by it; changing the unit of length changes neither the flux of source_iteration nor flux, keff and iteration count of power_iteration; the value used for pi cancels.", "quantifier": "every spherical problem, every scale, every starting flux", "why_tests_cant": "relates pairs of runs over infinitely many inputs", "anchors": ["discrete1/fixed1d.py:source_iteration", "discrete1/critical1d.py:power_iteration", "discrete1/spatial_sweep.py:sphere_isotropic_sn"]}
{"id": "C192", "title": "Power iteration on spheres", "statement": "power_iteration on a sphere performs between 1 and 100 passes and never fails; a normalised eigenpair of the spherical k-eigenvalue equations is left unchanged by a pass, whatever the inner tests; with down-scattering only, a state that a pass leaves unchanged is an eigenpair.", "quantifier": "every spherical problem, fission data in matrix or vector form, starting flux, outcome of the tests", "why_tests_cant": "random starting flux and data-dependent stopping", "anchors": ["discrete1/critical1d.py:power_iteration", "discrete1/multi_group.py:source_iteration"]}
{"id": "C193", "title": "Coarse groups that cost nothing in hybrid power iteration", "statement": "If every coarse group of hybrid_power_iteration joins fine groups with the same total cross section, scattering column and fission column, and the collided ordinates are the fine ones, then from the same random start hybrid_power_iteration and power_iteration have, after the same number of passes, the same keff, and fluxes whose sums over each coarse group are proportional, provided the inner iterations are solved (always so with strict down-scattering).", "quantifier": "every slab problem, coarse grid with that property, random start, norm, convergence test and number of passes", "why_tests_cant": "relates two iterations over infinitely many inputs", "anchors": ["discrete1/critical1d.py:hybrid_power_iteration", "discrete1/critical1d.py:power_iteration", "discrete1/critical1d.py:_collided_terms"]}
{"id": "C194", "title": "Hybrid power iteration keeps fluxes and keff non-negative", "statement": "On a mesh fine enough for the fine cross sections in every fine and collided direction, with non-negative scattering and fission and a non-negative random start, every pass of hybrid_power_iteration has a non-negative flux, collided flux and keff, for every coarse grid and quadrature and however early the inner iterations stop.", "quantifier": "every slab problem with such data, coarse grid, coarse quadrature, random start, outcome of the tests", "why_tests_cant": "infinitely many inputs, data-dependent stopping", "anchors": ["discrete1/critical1d.py:hybrid_power_iteration", "discrete1/critical1d.py:_collided_terms"]}
{"id": "C195", "title": "Infinite-medium power iteration keeps flux and keff positive", "statement": "With non-negative cross sections in which every group is fed by scattering or fission and some fission happens, critical0d.power_iteration started from a positive random flux keeps every group flux and keff strictly positive after every pass (no division by zero), however early or late the inner tests stop.", "quantifier": "every group count, cross sections of that kind, random start and outcome of the convergence tests", "why_tests_cant": "infinitely many inputs, data-dependent stopping", "anchors": ["discrete1/critical0d.py:power_iteration", "discrete1/multi_group_0d.py:source_iteration_iso"]}
{"id": "C196", "title": "Infinite-medium keff lies between the ratios of fission yield to absorption", "statement": "Whatever flux and keff a pass of critical0d.power_iteration starts from, if the inner solution balances up to a fraction eps of the absorption, the new keff lies between the smallest and the largest ratio of fission yield to absorption over the groups up to a factor 1-eps; every eigenpair with non-negative flux obeys the same bounds.", "quantifier": "every medium with positive absorption, state, and residual eps < 1", "why_tests_cant": "infinitely many cross sections and states", "anchors": ["discrete1/critical0d.py:power_iteration", "discrete1/multi_group_0d.py:source_iteration_iso"]}
{"id": "C197", "title": "With one fission spectrum keff is exact after the first pass", "statement": "With chi given, the only keff whose flux causes fission is the number of neutrons one fission neutron yields, and the flux is unique up to scale; every pass of critical0d.power_iteration from any state returns that keff up to the relative error of its inner solution, so with an exact inner solution (no up- or within-group scattering) the driver returns the exact eigenpair for every random start and however many passes it makes.", "quantifier": "every medium, spectrum, random start and outcome of the tests", "why_tests_cant": "infinitely many inputs and starts", "anchors": ["discrete1/critical0d.py:power_iteration", "discrete1/multi_group_0d.py:source_iteration_iso", "discrete1/tools.py:_fission_vec_source_0d", "discrete1/tools.py:_update_keff_vec_0d"]}
{"id": "C198", "title": "Infinite-medium power iteration stays in the bracket of its start", "statement": "If the flux before a pass of critical0d.power_iteration lies between a and b times a positive eigenvector with factor k, the new keff lies between min(keff,k) a/b and max(keff,k) b/a whatever the inner tests say; with exact inner solutions the bracket never widens and the returned keff is between k a/b and k b/a.", "quantifier": "every medium, matrix or vector fission data, start, outcome of the tests", "why_tests_cant": "infinitely many inputs, data-dependent stopping", "anchors": ["discrete1/critical0d.py:power_iteration", "discrete1/multi_group_0d.py:source_iteration_iso", "discrete1/tools.py:_update_keff_mat_0d"]}
{"id": "C199", "title": "A collecting run in a fresh directory is all or nothing", "statement": "In a directory without an earlier medium_map.npy, a collect_power_iteration run that is killed at any point before its last write, or that raises, leaves files from which clean_data_fission and clean_data_scatter raise; after a completed run (no foreign flux_scatter_model files) clean_data_scatter yields exactly the rows of every inner iteration of every pass in order, and clean_data_fission the rows of the tracked fluxes.", "quantifier": "every problem, path, earlier directory content, crash point, random start and outcome of the tests", "why_tests_cant": "crash points are unbounded in number; the files depend on data-dependent pass counts", "anchors": ["discrete1/critical1d.py:collect_power_iteration", "discrete1/multi_group.py:source_iteration_collect", "discrete1/ml/tools.py:clean_data_scatter", "discrete1/ml/tools.py:clean_data_fission", "discrete1/ml/tools.py:combine_flux_reaction"]}
{"id": "C200", "title": "A collecting run replaces the data of earlier runs", "statement": "Training data built after a run, or after a run was killed, never mix fluxes and cross sections of different runs in the same directory.", "quantifier": "every pair of runs in one directory and every crash point of the second", "why_tests_cant": "histories of several runs and crashes", "anchors": ["discrete1/critical1d.py:collect_power_iteration", "discrete1/multi_group.py:source_iteration_collect", "discrete1/ml/tools.py:clean_data_scatter", "discrete1/ml/tools.py:clean_data_fission", "discrete1/ml/tools.py:combine_flux_reaction"]}
{"id": "C201", "title": "Fission training targets are the fission emission", "statement": "The targets clean_data_fission writes are, cell by cell and group by group, keff times the fission source the solver uses (what ml_power_iteration substitutes for it), in matrix and in chi form.", "quantifier": "every fission data, flux, cell and group", "why_tests_cant": "infinitely many inputs; shapes make the wrong value pass silently", "anchors": ["discrete1/ml/tools.py:clean_data_scatter", "discrete1/ml/tools.py:clean_data_fission", "discrete1/ml/tools.py:combine_flux_reaction", "discrete1/tools.py:fission_vec_prod", "discrete1/tools.py:fission_mat_prod"]}
{"id": "C202", "title": "deeponet_memmap is all or nothing", "statement": "After a completed deeponet_memmap the rows read back are the rows written, whatever was there before; a crash at any earlier point leaves files that cannot be opened.", "quantifier": "all sizes, contents, earlier files and crash points", "why_tests_cant": "crash points and earlier directory contents", "anchors": ["discrete1/ml/data.py:deeponet_memmap", "discrete1/ml/data.py:load_deeponet_memmap_metadata", "discrete1/ml/data.py:DeepONetDataset"]}
{"id": "C203", "title": "A crash while saving never loses the previous checkpoint or mixes models", "statement": "Killed at any point, save_checkpoint leaves the old or the new checkpoint readable and save_model leaves weights and metrics of one model.", "quantifier": "all crash points, earlier files and contents", "why_tests_cant": "crash points", "anchors": ["discrete1/ml/train.py:RegressionDeepONet.save_checkpoint", "discrete1/ml/train.py:RegressionDeepONet.save_model", "discrete1/ml/train.py:RegressionDeepONet.load_model"]}
{"id": "C204", "title": "A DeepONet wrapper keeps predicting with the model it was built from", "statement": "A DeepONet object built from a file predicts with the weights that file held at the time, whatever other wrappers are built, networks trained or files written later; building fails exactly when the file does not hold weights.", "quantifier": "every history of constructions, trainings and file changes after the construction", "why_tests_cant": "unbounded histories and object sharing", "anchors": ["discrete1/ml/predict.py:DeepONet", "discrete1/ml/train.py:RegressionDeepONet.load_model"]}
{"id": "C205", "title": "AutoDJINN is built from exactly the three files", "statement": "AutoDJINN succeeds exactly when the backend is usable and the three files load as encoder, DJINN and decoder; the object consists of these and predicts row by row with them, in both backends (with torch on 32-bit features).", "quantifier": "every installation, backend name, outcome of loading, label and flux", "why_tests_cant": "combinations of installations, files and inputs", "anchors": ["discrete1/ml/predict.py:AutoDJINN"]}
{"id": "C206", "title": "In an absorbing medium both time integrators forget the initial flux geometrically", "statement": "If every material absorbs at rate at least c, the mean-square difference of two runs with the same sources shrinks per step by the factor 1 + 2 c dt with backward_euler and by 1 + 2 c dt/(9 + 2 c dt) with bdf2 (up to a factor 3 for its first step); with constant sources both approach the steady state at this rate. Every mesh, cell width, time step and number of steps; steps without self- and up-scatter, which the drivers solve exactly.", "quantifier": "every slab problem, cell width, cross section, velocity, time step, number of steps and pair of initial fluxes", "why_tests_cant": "rates over unboundedly many steps on all meshes", "anchors": ["discrete1/timed1d.py:backward_euler", "discrete1/timed1d.py:bdf2"]}
{"id": "C207", "title": "Cleaning training data is safe to interrupt and repeat", "statement": "clean_data_fission and clean_data_scatter, killed after any disk write, leave every file but *_training_data.npy as it was; any later cleaning call does and returns exactly what it would have before, and repeating the killed call leaves every file as one undisturbed call would. Without splits the one documented file holds exactly the rows; with splits of different names every split that has rows gets its documented file with exactly its rows, nothing else changes.", "quantifier": "every directory content, path, kind, splits, labels and crash point", "why_tests_cant": "crash points and arbitrary directory contents", "anchors": ["discrete1/ml/tools.py:clean_data_fission", "discrete1/ml/tools.py:clean_data_scatter", "discrete1/ml/tools.py:_split_by_material"]}
{"id": "C208", "title": "Cleaning with splits is all or nothing and describes the current data", "statement": "A cleaning call with splits that raises writes nothing, and after one that succeeds every split's file holds its rows of the current data.", "quantifier": "every directory content, splits and labels", "why_tests_cant": "arbitrary directory contents and earlier runs", "anchors": ["discrete1/ml/tools.py:_split_by_material"]}
{"id": "C209", "title": "In an absorbing medium the error of time stepping is bounded uniformly in the number of steps", "statement": "Against any solution of the semi-discrete equation, backward_euler and bdf2 keep the mean-square error at every step below the (geometrically decaying) initial error plus a constant of the form (truncation error + what the inner iterations left open) / absorption rate, however many steps are taken, for all scattering and fission and iterations stopped anywhere. With steps solved exactly backward_euler is first-order and bdf2 second-order accurate with constants independent of the final time; the contribution of bdf2's backward-Euler first step decays.", "quantifier": "every mesh, time step, number of steps, medium that absorbs at a positive rate, sources, initial flux and reference solution", "why_tests_cant": "unbounded number of steps and every medium", "anchors": ["discrete1/timed1d.py:backward_euler", "discrete1/timed1d.py:bdf2"]}
{"id": "C210", "title": "Time stepping converges to the solution of the continuous transport equation in time and space", "statement": "Against angular fluxes that solve the time-dependent discrete-ordinates equations pointwise - discretised neither in space nor in time - the flux returned by backward_euler differs from the cell-averaged scalar flux in the mean square by at most the start error plus a constant times dt + dx^2, and the one of bdf2 by at most a constant times dt + dx^2 in the first step and dt^2 + dx^2 after it, on every mesh and for every time step (no fineness condition). In a medium that absorbs the constants do not depend on the final time; in one that merely does not multiply they grow linearly with it. With scattering iterations stopped early what they left open enters the bound divided by the absorption rate.", "quantifier": "every mesh, time step, number of steps, medium that does not multiply, smooth solution of the transport equation, initial flux near its cell averages", "why_tests_cant": "unbounded number of steps and every smooth solution; no discrete reference", "anchors": ["discrete1/timed1d.py:backward_euler", "discrete1/timed1d.py:bdf2", "discrete1/fixed1d.py:source_iteration"]}
{"id": "C211", "title": "Steady problems are solved to second order on every mesh", "statement": "In a medium that absorbs at a net rate c > 0, the mean-square distance between the flux of source_iteration and the cell-averaged scalar flux of a smooth solution of the continuous discrete-ordinates equations is at most (S/c + 1) zeta d^2 / 12 - zeta bounds the second space derivative, d the cell widths, S the collision plus transfer cross sections - on every mesh, also where the diamond scheme oscillates. In down-scatter problems this is the returned flux from any guess; with scattering inside and between groups the iterates approach, geometrically and from any guess, one flux with this bound.", "quantifier": "every mesh, absorbing medium, smooth solution, guess", "why_tests_cant": "every solution and mesh; unbounded refinement", "anchors": ["discrete1/fixed1d.py:source_iteration", "discrete1/spatial_sweep.py:discrete_ordinates"]}
{"id": "C212", "title": "The flux of source_iteration does not depend on whether the process raises its warnings", "statement": "The convergence tests divide by the new flux and treat a raised RuntimeWarning as convergence, so their outcome can depend on the process-wide warning filter. With a positive source in every cell and group, on a fine mesh, the two settings return the same flux from any non-negative guess and for all tolerances. Otherwise they do not: with warnings raised, a group that gets nothing in the first pass over the groups ends the iteration after that pass, and if a later group scatters into it the returned flux solves the equations for no angular flux.", "quantifier": "every slab problem, warning setting, tolerance and guess", "why_tests_cant": "every problem; tests run under one warning setting", "anchors": ["discrete1/multi_group.py:source_iteration_iso", "discrete1/spatial_sweep.py:slab_isotropic_sn"]}
{"id": "C213", "title": "The hybrid integrators converge to the solution of the continuous transport equation in time and space", "statement": "hybrid1d.backward_euler and hybrid1d.bdf2, run on any mesh and any coarse collided grid whose time step is below its scattering time, stay within O(dt + dx^2) (root mean square over cells and groups) of the cell averages of a smooth solution of the time-dependent discrete-ordinates equations, however the collided cross sections are chosen and wherever its iterations stop. With the collided grid equal to the fine one the bounds of the non-hybrid integrators hold: in an absorbing medium O(dt + dx^2) and O(dt^2 + dx^2) with constants independent of the number of steps.", "quantifier": "every mesh, time step, coarse grid and smooth solution", "why_tests_cant": "all meshes, time steps and grids", "anchors": ["discrete1/hybrid1d.py:backward_euler", "discrete1/hybrid1d.py:bdf2"]}
{"id": "C214", "title": "Time stepping in floating point is accurate in the relative sense on down-scatter problems", "statement": "On a problem without in-group or up-scattering (after fission) whose data are non-negative and whose mesh is fine for the rounded cross sections, timed1d.backward_euler run with a relative rounding error u after every operation succeeds and returns, at step j, a flux that agrees in every cell and group with the exact implicit steps taken with the rounded coefficients up to the factor 1/(1 - (j+1) L u), L = (G+1)C + G + 4 where C is the cost of one pass (C176): the relative error grows at most linearly in the number of steps, however small the flux and however the convergence tests fire. The rounded coefficients are within a few roundings of the true ones.", "quantifier": "all roundings with relative error u, data, meshes, numbers of steps and groups, convergence tests", "why_tests_cant": "unboundedly many roundings and steps", "anchors": ["discrete1/timed1d.py:backward_euler", "discrete1/tools.py:_time_right_side", "discrete1/multi_group.py:known_source_angular"]}
{"id": "C215", "title": "Uncertain cross sections move the flux of a down-scatter problem in proportion", "statement": "On a problem without in-group or up-scattering on a fine mesh, if every cell width, total and scattering cross section, source and boundary value is known up to the factor 1/(1-eps), then the fluxes multi_group.source_iteration returns for any two such data sets, from any two initial guesses, agree in group g and every cell up to the factor 1/(1 - (g+1) D eps) with D = 1 + 2 N (1 + 2/(1-th)), N cells, th the mesh fineness: relative accuracy in gives relative accuracy out, however deep the penetration.", "quantifier": "all pairs of data sets, meshes, numbers of cells and groups, initial guesses", "why_tests_cant": "all perturbations, meshes and depths", "anchors": ["discrete1/multi_group.py:source_iteration", "discrete1/spatial_sweep.py:discrete_ordinates"]}
{"id": "C216", "title": "Uncertain data move the time-dependent flux in proportion, linearly in the number of steps", "statement": "For timed1d.backward_euler on the same class of problems: two data sets (cell widths, total, scattering and fission cross sections, velocities, sources, boundary values, initial flux) that agree up to the factor 1/(1-eps) give fluxes that agree at step j in every cell and group up to the factor 1/(1 - (1 + (j+1) G D) eps).", "quantifier": "all pairs of data sets, meshes, numbers of steps and groups", "why_tests_cant": "all perturbations and numbers of steps", "anchors": ["discrete1/timed1d.py:backward_euler"]}
{"id": "C217", "title": "Backward Euler in floating point agrees with backward Euler in exact arithmetic", "statement": "On a down-scatter problem with non-negative data and a fine mesh, timed1d.backward_euler run with relative rounding error u after every operation (including those that build sigma + 1/(v dt) and the transfer matrix) returns at step j, in every cell and group, the flux of the exactly computed integrator up to the factor 1/(1 - (3 + (j+1)(L + 3 G D)) u), with L of C214 and D of C215, whatever the convergence tests.", "quantifier": "all roundings with relative error u, data, meshes, numbers of steps and groups", "why_tests_cant": "unboundedly many roundings and steps", "anchors": ["discrete1/timed1d.py:backward_euler", "discrete1/tools.py:transfer_matrix"]}
{"id": "C218", "title": "Uncertain cross sections move the multiplication factor in proportion", "statement": "On a down-scatter problem on a fine mesh, if every cell width and every total, scattering and fission cross section of two data sets agree up to the factor 1/(1-eps), the multiplication factors of their positive modes agree up to the factor 1/(1 - G D eps), D that of C215, G the number of groups; and the numbers critical1d.power_iteration returns for them when it stops by its tolerance, from any positive initial fluxes, agree up to that factor times ((1+tau)/(1-tau))^2, tau the number of cells times the tolerance.", "quantifier": "all pairs of data sets, meshes, numbers of cells and groups, initial fluxes, norms", "why_tests_cant": "all perturbations, meshes and unbounded numbers of iterations", "anchors": ["discrete1/critical1d.py:power_iteration"]}
{"id": "C219", "title": "Uncertain data move the flux in proportion, with any scattering", "statement": "With in-group and up-scattering included, on a mesh of at least one cell and group fine enough for the sweep to be positive with room th < 1, if every cell width, total and scattering cross section, source and boundary value of two problems agree up to the factor 1/(1-eps), non-negative fluxes that solve the discrete equations of the two problems agree in every cell and group up to the factor 1/(1 - R D eps), D that of C215 and R any bound on the ratio of the flux to the (positive) uncollided flux that source_iteration returns with scattering switched off.", "quantifier": "all pairs of data sets, meshes, numbers of cells, angles and groups, boundary conditions", "why_tests_cant": "all perturbations of all data on meshes of every size", "anchors": ["discrete1/multi_group.py:source_iteration", "discrete1/spatial_sweep.py:slab_isotropic_sn"]}
{"id": "C220", "title": "The stopping test certifies the returned flux", "statement": "source_iteration started from the zero flux with no negative cross section, source or boundary value, on a fine mesh: no pass lowers the flux in any cell or group, the returned flux is nowhere above any non-negative solution of the discrete equations, and if the tolerance test (tolerance tol) stopped it the solution is at most (1 - N tol)/(1 - R N tol) times the returned flux, N the number of cells and R any bound on the ratio of the returned flux to the positive uncollided flux that source_iteration returns with scattering switched off, as long as R N tol < 1 - whatever the scattering ratio and the inner tests. Such a stop moreover proves that the discrete equations have exactly one solution, non-negative and within those bounds.", "quantifier": "all problems with non-negative data, tolerances, numbers of cells, angles, groups and passes, inner convergence tests", "why_tests_cant": "unbounded data and histories of nested iterations", "anchors": ["discrete1/multi_group.py:source_iteration", "discrete1/multi_group.py:_one_sweep_iso"]}

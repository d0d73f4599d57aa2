# Formal model of bwhewe-13/discrete1 in Lean 4

## 1. Layout

| path | content |
|---|---|
| `lean/Verif/Model/*.lean` | the model: one Lean definition per Python function, with a comment citing file and lines |
| `lean/Verif/Spec/*.lean`  | small, model-independent specifications (what a partition is, what the discrete transport equation is, which run of a stopping loop is meant (`Spec/Runs`, unique), ...) |
| `lean/Verif/Lemmas/*.lean` | helper lemmas that connect loops to closed forms |
| `lean/Verif/Props/*.lean` | the property theorems (C01 ...), each followed by non-vacuity `example`s |
| `MANIFEST.json` | property -> theorems |
| `seeded/LOG.jsonl` | mutations of the model tried against the theorems |

## 2. Modelling conventions (and what they leave out)

* **Numbers.** float64 is replaced by an arbitrary linearly ordered field `K` (`Field`, `LinearOrder`,
  `IsStrictOrderedRing`); examples run on `ℚ`, square roots / logs / exponentials are over `ℝ`.
  Rounding is modelled for the slab source iteration only (`Model/Rounded.lean`, C175-C177); overflow and
  NaN propagation are NOT modelled, except where NaN/inf decides control flow:
  the convergence test `norm((new-old)/new/cells) < tol` is modelled as "false if any `new` entry is 0"
  (0-division gives inf or nan, and `inf < tol`, `nan < tol` are both False).
* **Arrays** are total functions `ℕ → K` (`ℕ → ℕ → K`, ...) together with explicit sizes; in-place
  writes are `Function.update`. Out-of-range accesses that the real code can make are modelled
  explicitly as `Except` errors in the functions where they matter.
* **Loops** `for i in range(n)` / `range(n-1,-1,-1)` are the structural recursions `loop` / `loopDown`
  of `Model/Basic.lean`; `while not converged` with an iteration limit is a recursion on the number of
  sweeps left, so the limit and the stop condition are visible.
* **Exceptions** are values of `Except PyErr`.
* **External code** (numpy leggauss, SVD, dense/sparse solves, learned models, random start vectors,
  train_test_split permutations, the OS signal delivery order, the file system) is a parameter of
  the model; whatever is assumed of it is a hypothesis in the theorem statement.
* Module map: `Model/Timed` = timed1d, vhybrid1d, hybrid1d step functions; `Model/Critical` = critical1d
  power iterations; `Model/MlSource` = predicted fission/scatter sources; `Model/Dispatch` =
  `spatial_sweep.discrete_ordinates`; `Model/ZeroD` = multi_group_0d, critical0d; `Model/Setup`, `Model/Velocity` =
  main.py, materials.py, boundary1d.py helpers; `Model/Interrupt` = utils/decorators.py and the tuning signal handler;
  `Model/MlTools` = ml/tools.py; `Spec/{Time,Eigen,Sphere}` = time-discretised equation, eigenvalue
  equation, spherical conservation scheme.
  `Model/Datasets` = ml/data.py and the memmap splits; `Model/Train` = ml/train.py, tune.objective; `Model/FileNames` = update_file_name.
  `Model/Cram` = cram.py; `Model/Manufactured` = utils/manufactured.py, the manufactured cases of external1d.py/boundary1d.py and external1d.reeds.
  `Model/Predict.lean` - ml/predict.py (wrappers; conversion to 32-bit floats not modelled);
  `Model/Auto.lean` - hybrid1d.auto_bdf1/auto_bdf2 (three-dimensional scattering data);
  `Model/DmdDriver.lean` - fixed1d.dynamic_mode_decomp, mg.dynamic_mode_decomp, tools.dmd with its errors;
  `Model/Variable.lean` - mg.variable_source_iteration, both branches;
  `Model/HybridCalls.lean` - the calls vhybrid1d.backward_euler / bdf2 and critical1d.hybrid_power_iteration with the caller's arguments;
  `Model/Splits.lean` - process_data of train.py and tune.py, train_test_split;
  `Model/Tune.lean` - search space, suggestions, networks, optimizer/scheduler/loss of a trial, studies (tune.py:266-559, 646-789);
  `Model/Ambe.lean` - external1d.ambe;
  `Model/Trainer.lean` - ml/train.py constructor, epochs, saved models;
  `Model/Access.lean` - array accesses of the compiled kernels;
  `Model/Rounded.lean` - slab source iteration of `spatial_sweep.py`, `tools.py`, `multi_group.py` with every floating-point operation rounded;
  `Model/Tuner.lean` - constructor of the tuner of `ml/tune.py`, epochs and reports of a trial;
  `Model/RoundedDrivers.lean` - `power_iteration` and `backward_euler` with a rounding after every operation;
  `Model/Files.lean` - disk, crash points, files of collecting runs, memmap and checkpoints;
  `Model/Wrappers.lean` - constructors of predict.py, shared network objects;
* numba compilation, tqdm printing, file formats and plotting are not modelled.

## 3. Trusted base

* Lean 4.33.0 kernel; Mathlib as installed. No axioms of our own; theorems depend on at most
  `propext`, `Classical.choice`, `Quot.sound` (checked by `vcheck`).
* The reading of the Python source that produced the model (nothing was executed).
* The conventions of section 2.

## 4. Plan per property

(status and exact theorem names are in MANIFEST.json)

| id | modelled | proof idea |
|---|---|---|
| C01 | `energy_coarse_index` incl. truncated linspace, fancy-index `+= 1`, assert, cumsum | linspace indices are strictly increasing => every wide group counted once => sum = fine; no bound on sizes |
| C02 | `collided_index`, `uncollided_index` slice assignment loops | induction over the slices of a strictly increasing array |
| C03 | `indexing`, `hybrid_factor`, `_hybrid_combine_fluxes`, `_coarsen_flux` | telescoping sum of widths over a coarse group |
| C04-C07 | `coarsen_external`, `_xs_vector_coarsen`, `_xs_matrix_coarsen`, `coarsen_velocity` | block sums of Finset.Ico; convexity; tower of partitions |
| C08 | six slab directional sweeps | induction over cells; field arithmetic per cell |
| C09 | angle loop | telescoping of the cell equation, sum over angles |
| C10,C11,C13 | known-source sweeps with scalar/angular columns | simultaneous induction over angles and cells |
| C12,C16,C17 | directional sweeps | induction on edges |
| C14 | angle loop with reflector on half problem and mirrored full problem | simulation between the two sweeps |
| C15 | all sweep drivers | raise proved for the iterating solvers; NEGATION for known-source sweeps (silent skip) |
| C18,C21 | iteration drivers with arbitrary convergence test | induction on remaining sweeps |
| C19,C22 | fixed points of the drivers | C08 per angle, C20 for the group coupling |
| C20 | `_off_scatter`, `_off_scatter_0d` | loop = Finset sum, range split |
| C23 | broadcasting index selection | extensionality |
| C24-C26 | transfer matrix, fission products, keff updates | loop = sum; zero-sum of non-negative terms |
| C27,C54 | power iterations with arbitrary inner solver result / start vector | loop induction; sqrt norm over ℝ |
| C28,C29 | tracked-flux buffers with Python negative index | C28: NEGATION (first iterate lost) + partial (iterates 2..n saved); C29 proved |
| C30 | DMD warm-up/collect with swapped buffers | loop invariant: buffers hold x_k, x_{k+1} |
| C31 | `dmd` over matrices, SVD factors as parameters with U^T U = 1, y_minus = U S V^T | linear algebra |
| C32-C36 | timed1d / vhybrid1d step functions | unfold step, use C08 |
| C37-C40 | hybrid step functions | uniqueness of the known-source sweep and linearity |
| C41 | sphere areas/volumes | uniform meshes: telescoping; NEGATION for non-uniform meshes |
| C42,C44 | alpha recursion, sphere sweeps | induction; field arithmetic |
| C43 | `sphere_known_source_sn` with array ranks | NEGATION: every call with at least one nonzero angle raises IndexError |
| C45-C51 | setup helpers | lists, argmin, sorting |
| C52,C53 | predict functions with arbitrary model function | row-sum algebra; C53 NEGATION for label=None |
| C55-C63 | ML data plumbing | list/index arithmetic; C56, C59(end_idx=0), C60, C61(no epoch), C62: NEGATION + partial |
| C64,C65 | signal/iteration event machines | induction over event traces; C65 second interrupt: NEGATION + partial |
| C66 | name generators, finite file set | pigeonhole for numbers; IndexError after 702 names: NEGATION + partial |
| C67 | CRAM with abstract solvers | linearity, induction on substeps |
| C68 | order_accuracy, wynn_epsilon table | real logs; explicit table for rank 1 |
| C69,C70 | Bonnet recursion; anisotropic sweeps | induction |
| C71 | 0-d solvers | sum of weights = 1 |
| C72 | positional argument binding of the dispatch | NEGATION: arguments land in the wrong parameters |
| C73 | reaction_rates, `_source_total`, `_time_right_side` | loop = sum |
| C74 | sweeps, within-group and multigroup drivers | max-norm bound of the difference of two sweeps on fine meshes; iterate |
| C75 | reflector logic of the angle loop with bc [1,1] | NEGATION: the sweep equals the sweep with only the left face reflecting for incoming-first orderings |
| C76 | spherical angle loop and half-angle update | sum of the cell balances, telescoping in space and angle; the defect term is exact; NEGATION by a one-cell instance |
| C77 | anisotropic within-group sweep | fixed point of the sweep + sweep specification |
| C78 | `_one_sweep_aniso` | NEGATION: the iteration is invariant under changes of the ignored entries |
| C79 | `time_dependence_decay_02` incl. numpy's flattened `argwhere` index tuple | cases on the list of nonzero entries; loop invariant; NEGATION outside one nonzero entry |
| C80 | `energy_grid` with the packaged tables as a parameter | C01 for computed indices; NEGATION for packaged coarse tables on a subset of the grid |
| C81,C82 | handler state of the tuning run; wrappers with arbitrary return values | NEGATION for tune.run and break_loop; finish_iteration proved |
| C83 | Python's sequence protocol on the data set | NEGATION by induction on the number of items |
| C84,C85 | training session with arbitrary epochs | loop invariant; NEGATION with exact epoch counts and a concrete session |
| C86,C87 | batching of losses and predictions | induction over batches |
| C88,C89 | tuning objective, keyword binding of train_test_split | recursion over epochs; NEGATION for zero epochs and for `seed=` |
| C90,C91 | cram_expm with an abstract exact LU, the real pole tables | weighted sums commute with each pole factor; NEGATION by exact rational evaluation of the product at one point |
| C92 | manufactured solutions, sources, boundaries as real functions | calculus in Mathlib (HasDerivAt, interval integrals); NEGATION at the interface |
| C93 | reeds | index/position equivalence for strictly increasing meshes |
| C94,C95 | fixed1d/timed1d drivers incl. the known-source stage (Model/Dispatch, Timed) | uniqueness of the swept solution; NEGATION for 4-D scattering |
| C96-C98 | source_iteration, backward_euler | invariant |flux| <= M through both nested iterations and the time loop (discrete maximum principle per sweep) |
| C99 | backward_euler, bdf2 | sum of the implicit cell balances, telescoping edge fluxes |
| C100-C104 | source_iteration (iso and aniso), backward_euler, bdf2, power_iteration | one simulation relation (Props/Similar: the second run is the image of the first under amplitude c, length unit s, reversal and ordinate permutation) carried through the sweeps by uniqueness of the swept solution and through all nested loops; the convergence tests of the code are invariant |
| C105 | sphere scatter-source sweep vs isotropic sweep (Model/Sphere) | definitional equality when the boundary vanishes; NEGATION by independence and by exact evaluation |
| C106-C109 | ml/predict.py wrappers with effectful transformers, loader, backend selection (Model/Predict) | case analysis, induction over rows and paths; NEGATION for DeepONet and for both packages installed |
| C110 | fission_prod_predict, scatter_prod_predict with row-wise models (Model/MlSource) | closed form of one cell's source; NEGATION with cancelling fluxes |
| C111, C112 | auto_bdf1, auto_bdf2 (Model/Auto) over the hybrid time loop | collapsed data characterised by rate identities; reduction to C36 and C37 |
| C113, C114 | fission argument handling of the automatic drivers | NEGATION: universally quantified failure, equality with chi = 1 |
| C115, C116 | comparison of source iteration with exact solutions of comparable problems | invariant of the inner and outer loops preserved by the monotone sweep; maximum principle |
| C117 - C120 | power iteration and k-eigenpairs (Spec/Eigen) | positivity invariant; summed balance; Perron-type comparison of eigenvectors through the maximum principle of C116; monotone bracketing invariant |
| C121 - C123 | `Model/DmdDriver.lean`: fixed1d.dynamic_mode_decomp on problems, SVD as a parameter | C30 (early stop) + loop lemma; refuted for K < 2; vanishing last differences make Atilde and the right-hand side zero, solution unique by induction over groups |
| C124 | `Model/Variable.lean`: variable_source_iteration, both branches | group-by-group congruence of the sweeps (C40 for the isotropic branch); full grid and one-moment corollaries |
| C125, C126 | timed1d / hybrid1d runs against fields that solve the equation at the step ends | sampled linear field is a fully implicit sequence + uniqueness; error equation of one Euler step + maximum principle, induction over steps; mean value theorem for the L*t*dt form |
| C127, C128 | source_iteration against pointwise solutions on the slab | integration over cells (fundamental theorem), trapezoidal rule bound from Mathlib, maximum principle of the error equation, contraction of the iteration (C74) |
| C129 | source_iteration with combined sources | linearity of the multigroup equations + uniqueness |
| C130-C134 | the calls of vhybrid1d: how groups_c / angles_c are read, the grids of every step, the full grid | case analysis on the argument kinds; C36 per step with the grid of energy_grid_change; C37 uniqueness |
| C135, C136 | the call of critical1d.hybrid_power_iteration | C27 loop specification + collapsed data; relation between the two loops, one pass by linearity and uniqueness of down-scatter problems |
| C137 | fixed1d.dynamic_mode_decomp on problems whose iteration error has one mode | rank-one SVD has one singular value, C31 linear algebra; the sweep is affine in the flux of the feeding cell |
| C138, C139 | process_data, tuner _process_data, deeponet_memmap + process_data_memmap; train_test_split from its documentation with an arbitrary permutation | splitting is natural in the rows; arithmetic of ceil/floor; C59 for the rows served |
| C140-C143 | trials of the tuner as programs that ask a study for values (free monad), optuna's rules for parameter names, shapes of torch layers | induction over programs: totality (Fits), inversion of successful runs, freshness of names; induction over trials and continued runs |
| C144 | tuner memmap split against the rows written by deeponet_memmap | C63/C59 rows served + split sizes of C138 |
| C145-C147 | known-source sweeps, source iteration and its stopping rule in the mean square | discrete energy identity: multiply every cell balance by the cell average, streaming telescopes, Cauchy-Schwarz; finite-dimensional uniqueness gives existence |
| C148-C149 | timed1d / hybrid1d drivers over all steps | energy of one implicit step; G-stability identity of BDF2; truncation errors by fencing of derivatives (Mathlib mean value theorems) |
| C150 | external1d.ambe with the data file as a parameter | loop invariant over the data bins; the path expression makes every call raise |
| C151 | ml/train train + continue_training over an arbitrary session | loop invariant, uniqueness of the first best epoch; concrete counterexample with momentum |
| C152 | hybrid1d/vhybrid1d backward_euler through every step | induction over steps, positivity of sweeps with the coarsened data |
| C153 | timed1d/hybrid1d bdf2 | concrete one-cell decay family: second step negative; first step positive |
| C154 | hybrid1d one step of either scheme | exact balance with defect term; equal-grid equality; counterexample |
| C155 | ml_source_iteration through every pass | specification of the surrogate source by material; sweep specification; positivity; sum over groups |
| C156 | the same | contraction plus perturbation, induction over the passes |
| C157 | slab_anisotropic_sn through every within-group sweep | energy identity of a sweep, Bessel's inequality for the moments, existence from uniqueness by finite dimension |
| C158 | save_model, load_model over a file system | function update; suffixes are injective |
| C159 | constructor and _init_* methods over arbitrary class registries | case analysis on the option names |
| C160 | _train_batch, _val_batch, train_one_epoch, train over an abstract torch | induction over batches and epochs, ghost record of scheduler steps |
| C161 | the same | relational induction over two runs |
| C162 | sweep equations (diamond difference) of both problems | per-cell duality summed by parts; mirror pairing of directions; C74 for the iteration |
| C163 | eigenproblem of the sweep equations | C164 with equal data |
| C164 | the same | duality with the changed collision terms as angular source |
| C165 | the same | comparison principle C116 at the cell of the largest ratio |
| C166 | sub-slab as a problem of its own | cell equations are local; C74 on the part |
| C167 | the same | C166 and comparison principle |
| C168 | list of array accesses of every kernel and shapes at every call | membership in the access lists, bounds by arithmetic; exact condition for the dummy array |
| C169 | `energyVelocity` with the constants of the package | C48_kinetic_energy and the numerical rest energy |
| C170 | `KEigenpair` over the reals | one generation maps the cone into bounded ratios (positivity of the flux of a unit source); brackets of successive generations shrink geometrically; Cauchy limit |
| C171 | `powerIteration` of Model/Critical | the same contraction applied to each `powerStep` with its normalisation, generic inner accuracy, exact on down-scatter |
| C172 | `powerIteration` with the concrete convergence test | Collatz-Wielandt comparison of the last two iterates with the positive mode |
| C173 | `hybridRun` of Model/Timed, exact field `sol` with Lipschitz time derivative | the collided flux is O(dt) in mean square (energy estimate of the damped coarse iteration); discrete energy growth of BE / BDF2 with that perturbation; induction over steps |
| C174 | `hybridRun true` on a one-cell cascade | REFUTED: explicit step equations solved, two-sided invariant for the deviation of the last group |
| C175 | Model/Rounded: the slab source iteration with `rnd` after every operation; `rnd = id` is the exact model (C175_exact_arithmetic) | sign invariant through cells, directions, reflector, groups, iterations |
| C176 | Model/Rounded against Model/Slab | lockstep relation `WithinFactor` between the rounded and the exact loops; subtraction in `mu/dx - sigma/2` controlled by `th` |
| C177 | Model/Rounded, `SolvesMultigroup` | C176 per pass + contraction of the exact pass (C74); fixed point of the error recursion |
| C178 | Model/Auto, Model/Timed `hybridRun` | final minus uncollided angular flux summed over a coarse group solves the coarse equations; uniqueness of the swept solution |
| C179 | same | C178 + flat columns: the scattering source of `u + factor phi_c` is that of the final flux; C37_fully_implicit_unique |
| C180 | Model/Tuner `initTuner` | case analysis on the keyword list; documented defaults as a separate table |
| C181 | Model/Tuner `tuneEpoch`, `tuneLoop` over an arbitrary `Torch` | induction over batches and epochs, evaluation is pure (torch's contract) |
| C182 | Model/RoundedDrivers `backwardEuler` (rounding after every operation) | sign invariant through all loops |
| C183 | Model/RoundedDrivers `powerIteration` | relative closeness of every kernel to its exact value, then comparison with the positive mode (maximum and minimum of phi/u) |
| C184 | Model/Rounded `sourceIterationIso` | induction over the groups: one factor per group (C176), comparison principle for the exact sweep |
| C185 | Model/MultiGroup `sourceIteration`, Model/Timed `fixedSourceIteration` | weighted norm by the solution for a positive source (exists because k < 1), comparison principle of the sweep; growth by induction over the sweeps |
| C186 | Model/Timed `backwardEuler` | sources of the error compared with the source of a positive steady flux; induction over the steps with an invariant on angular and scalar fluxes |
| C187 | Model/MultiGroup, Model/Timed drivers with geometry not 1, 2 | refuted: the group loop and the iteration leave the zero arrays untouched (induction over the loops) |
| C188 | Model/Sphere `isotropicSn`, Model/MultiGroup `sourceIteration` | refuted for every width: the scheme equations of C44 determine the two-shell fluxes |
| C189 | Model/Timed, Model/Auto, Model/HybridCalls time loops | generic lemma on loops whose step writes only its own entry; induction over the extra steps |
| C190 | Model/Sphere, Model/MultiGroup (geometry 2) | linearity and uniqueness of the spherical scheme (cell by cell, ordinate by ordinate), group step and outer pass as fixed-point equations, residual from the two tolerances |
| C191 | the same with Model/Critical | two runs side by side: scaled scheme solves the scaled problem, uniqueness |
| C192 | Model/Critical on geometry 2 | eigenpair = solution with its own fission source; C190 |
| C193 | Model/Critical, Model/HybridCalls | fine transport summed over coarse groups is coarse transport; the pass is linear in the coarse sums, so scale and normalisation cancel in the keff ratio; induction on passes |
| C194 | the same | collapsed totals are weighted means, so fineness is inherited; positivity of sweeps and of source iteration; induction on passes |
| C137 (refuted part) | four groups in two independent pairs: the kept correction is a multiple of the first left singular vector, the true one is not an eigenvector of A Aᵀ | explicit iterates from the sweep specification, algebra of an arbitrary two-column SVD |
| C195 | Model/ZeroD | an invariant of group fluxes preserved by one inner pass is preserved by the solver; strict positivity is one |
| C196 | Model/ZeroD | sum the group balances; compare with yields |
| C197 | Model/ZeroD | the source is a multiple of chi, linearity and uniqueness of the balance |
| C198 | Model/ZeroD | multiples of the eigenvector are sub- and supersolutions; monotonicity of production |
| C199 | Model/Files (disk as named files, each whole or torn; a call is its list of disk changes, a crash a prefix of it) | medium_map is written last; sorted glob = pass order; induction over the passes |
| C200 | Model/Files | refuted: contents of the directory after two runs, or a run and a prefix of another |
| C201 | Model/Files, Model/Tools | refuted with chi; algebra of the two products |
| C202 | Model/Files (flat float file and sizes) | division with remainder of the position; companion file written last; refuted on rewriting |
| C203 | Model/Files | refuted; case analysis over crash points |
| C204 | Model/Wrappers (network objects by number, histories of events) | induction over the history; refuted for shared networks |
| C205 | Model/Wrappers | case analysis over the loads; C107 |
| C206 | Model/Timed (driver steps), Spec/Time | energy identity with the absorption moved into the rate; contraction of |u|^2 + |2u - u'|^2 + 2 c dt |u|^2 for BDF2 |
| C207 | Model/Files (cleanCall, splitLoop) | written names are disjoint from read names and from the glob; saves are restartable by induction |
| C208 | Model/Files | counting rows over disjoint splits; refuted by assertion after writing and by skipped splits |
| C209 | Model/Timed (backwardEuler, bdf2) | discrete energy inequality with absorption; Gronwall-free contraction of the BDF2 energy |
| C210 | Model/Timed (backwardEuler, bdf2) | edge means of the solution satisfy the discrete equations with a rate second-order close to du/dt (trapezoidal error); then C209/C149 |
| C211 | Model/MultiGroup (sourceIteration) | the edge means solve the equations with a small rate (trapezoidal errors); energy inequality with absorption |
| C212 | Model/Warnings (fluxConverged, fluxConverged2, setting), Model/MultiGroup | invariant (positivity) congruence of the loops; a dark group stays zero and stops the outer loop |
| C213 | Model/Timed (hybridRun) | the edge means of the exact solution satisfy the discrete equations up to a defect O(dx^2) in the rate (C210); fed to the hybrid error recursion of C173, respectively the energy estimates of C209 |
| C214 | Model/RoundedDrivers (backwardEuler) | induction over steps: the right-hand side inherits the factor of the previous flux, C184 bounds the inner solve, the known-source sweep adds one pass; no cancellation because everything is non-negative |
| C215 | Model/MultiGroup (sourceIteration) | cell by cell: the diamond step is a quotient of sums of non-negative terms, the only difference m - sigma/2 is controlled by the mesh fineness; induction over cells, directions, groups |
| C216 | Model/Timed (backwardEuler) | induction over steps with C215 for every step |
| C217 | Model/RoundedDrivers, Model/Timed | C214 bounds the distance to the steps with rounded coefficients, C216's induction the distance of those to the exact steps |
| C218 | Model/Critical (powerIteration), Spec/Eigen (KEigenpair) | one solve of the fission source of the perturbed mode is near in both problems (C215's factors); comparison at the cell where the ratio of the two modes is largest gives both inequalities of Collatz–Wielandt type; tolerance bounds from C172 |
| C219 | Model/MultiGroup (sourceIteration), Spec/Transport | both fluxes answer purely absorbing problems with their own scattering source; the unperturbed answer to the perturbed scattering source is near (C215's sweep factors) and comparison with a mixture of flux and uncollided flux at the cell of largest ratio bounds that ratio |
| C220 | Model/MultiGroup (groupStepIso, oneSweepIso, sourceIteration), Spec/Runs | invariant of inner, group and outer loops: each flux answers a source at most what it emits, so the next is larger; the last answers at least what the one before emitted, which the test makes close; comparison as in C219; a mixture of the last flux and the uncollided flux answers more than it emits, which by comparison leaves no homogeneous solution |

## 5. Disagreements between code and properties found while modelling

See the `note` fields of MANIFEST.json; each is proved as a theorem whose name contains `violation`.

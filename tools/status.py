STATUS = {
 'C01': ('proved', 'Exact arithmetic over any ordered field with floor; any cell shape, any number of atoms and frames.'),
 'C02': ('proved', 'Each step is the representative in [-1/2,1/2) of the new cell; uniqueness of that representative is a separate theorem.'),
 'C03': ('partial', 'False as stated for cells that change between frames (C03_violated_npt); proved whenever the cell does not change between a frame with a shifted image and the next frame (in particular for constant cells).'),
 'C04': ('proved', 'Warning flag is returned as a value.'),
 'C05': ('proved', 'Singular cell gives LinAlgError, otherwise the result has shape (atoms, frames-1, 3).'),
 'C06': ('proved', 'Drift correction, the empty framework and the out-of-range index.'),
 'C07': ('proved', 'Exact values in exact arithmetic; count, end points, order and range for every rounding function with the stated properties (binary64 is an instance, rounding_fl64).'),
 'C08': ('partial', 'False as stated (C08_violated). Proved: exact criterion n <= b-a+1, and distinctness with the default max_dt and min_dt >= one frame.'),
 'C09': ('partial', 'True in exact arithmetic; false in binary64 (C09_violated_binary64, 29 steps of 0.005); under any rounding the list ends at T, or ends at T-1 with a repeated interval.'),
 'C10': ('proved', 'Generic interior points plus the real formula of numpy.geomspace; binary64 values of the interior points are not modelled.'),
 'C11': ('proved', 'Exact arithmetic, any framework atoms, linear and logarithmic spacing; an interval beyond T is an IndexError (or the MemoryError raised before).'),
 'C12': ('proved', 'Also: no interval with more than one independent window is skipped.'),
 'C14': ('partial', 'False as stated (C14_violated): the loop counter is used instead of the interval. Proved: what is returned, and that it is right for the intervals 1,2,3,...'),
 'C15': ('proved', 'For ordered intervals skipped ones are a suffix of the list, so positions agree.'),
 'C16': ('proved', ''),
 'C17': ('proved', ''),
 'C20': ('proved', 'Same function body in the three parsers.'),
 'C21': ('partial', 'Holds for specie; false for flat specie_indices (AttributeError) and for molecules (IndexError).'),
 'C22': ('partial', 'Holds without framework_indices; with framework_indices AttributeError (C22_violated_explicit) unless every atom is selected.'),
 'C23': ('partial', 'False (C23_violated): 0-based for specie, 1-based for molecules; the exact shift is proved.'),
 'C24': ('proved', 'Real arithmetic with cos, sin and atan2 of Mathlib.'),
 'C25': ('proved', ''),
 'C26': ('proved', ''),
 'C13': ('partial', 'False as stated (C13_violated): each interval has one extra first observation that spans one frame less, because the first frame is duplicated; the interval equal to the number of frames has only this observation. All other observations are proved to be exactly the windows, for the three parsers, after unwrapping and drift correction.'),
 'C18': ('partial', 'Holds for pymatgen and MDAnalysis in exact arithmetic; for ASE only with sub_sample_traj = 1 (C18_violated_ase).'),
 'C19': ('partial', 'Holds for ASE and MDAnalysis in exact arithmetic; pymatgen raises whenever both time_step and step_skip are integers (C19_violated_pymatgen).'),
 'C71': ('partial', 'Holds for selection by indices; with specie a non-empty framework tuple always raises (C71_violated).'),
 'C72': ('partial', 'Holds for pymatgen and MDAnalysis; for ASE the coordinates are right but the times are not scaled (C72_violated_ase).'),
 'C74': ('proved', ''),
 'C75': ('proved', ''),
 'C27': ('proved', ''),
 'C28': ('proved', 'Value for every recorded interval, plus non-negativity, scaling, atom order and additivity over axes.'),
 'C29': ('proved', 'C29_mstd: the values. C29_additive: over disjoint sets of axes they add up (default thinning of intervals, no blocking).'),
 'C30': ('proved', 'Scalar and array charges, neutrality, wrong length.'),
 'C31': ('partial', 'False (C31_violated): the MSCD always uses all three axes, whatever the dimension; this is proved as C31_mscd_ignores_dimension. C31_planar_partial: true when nothing moves along the axes left out.'),
 'C32': ('proved', 'All arrays of a finished run; a skipped interval before a recorded one is an error (C33), so positions agree. C32_block, C32_block_total: with block=True, relative to the values pyblock returns.'),
 'C33': ('partial', 'False (C33_violated): a skipped interval before a recorded one is an IndexError. Proved: the analysis succeeds exactly when skipped intervals are at the end, and then all entries belong to each other (C28, C32).'),
 'C34': ('partial', 'False (C34_violated): n_o is not sub-sampled. Proved for dt, msd and ngp, and for dt and the values of MSTD and MSCD (C34_total_partial).'),
 'C35': ('proved', 'Value, bound with the case of equality, scale invariance, nan exactly when all are zero.'),
 'C36': ('partial', 'False with a nan entry (C36_violated); proved when no entry is nan.'),
 'C37': ('proved', 'The model is a total function for every random outcome; budget and stopping reason.'),
 'C38': ('partial', 'False (C38_violated): the warning depends on the number of values only. Proved: it is never missing.'),
 'C39': ('proved', 'Bayesian weights: any sampler returning non-negative weights with sum one.'),
 'C40': ('proved', ''),
 'C41': ('proved', ''),
 'C42': ('proved', 'Exact arithmetic; any non-negative fitted coefficient.'),
 'C43': ('partial', 'False when numpy.linalg.eig does not return the largest eigenvalue first (C43_violated). Proved when it does, for orthonormal eigenvectors.'),
 'C44': ('proved', 'Ascending intervals.'),
 'C45': ('proved', 'The weight matrix is whatever pinvh returns, symmetric positive semi-definite.'),
 'C46': ('proved', 'The start is non-negative if scipy.optimize.minimize does not end at an infinite value and no normal deviate is below -1000 (C46_start_nonneg). Proposals and thresholds of emcee are arbitrary.'),
 'C47': ('proved', 'emcee get_chain modelled as the slice it takes.'),
 'C48': ('proved', 'Exact arithmetic, positive constants. C48_denominators: no reported value was divided by zero.'),
 'C49': ('partial', 'False for every fit without intercept (C49_violated). Proved with intercept.'),
 'C50': ('partial', 'False (C50_violated): start_dt, model, cond_max and the covariance are overwritten first. Proved: D, D_J, sigma are kept, and gradient, intercept and flatchain unless the new chain was stored.'),
 'C51': ('proved', 'Each call with its own random numbers and arguments.'),
 'C52': ('proved', 'At least one kept sample; scipy.stats.linregress assumed to reject (nan) a single point.'),
 'C53': ('partial', 'Pooling and the mean of the MSDs are proved for every input format; the rejection clause is false for a trajectory with a single mobile atom, which numpy repeats (C53_violated); proved up to that: C53_rejects_partial says exactly which lists of trajectories are pooled. C53_content_partial says what the pooled arrays hold in every case.'),
 'C54': ('partial', 'Holds for the MSD. False for MSTD and MSCD: k copies give k^2 times the value (C54_mstd_violated, C54_mscd_violated, for every trajectory).'),
 'C55': ('partial', 'False: a charge array with one entry per ion always raises ValueError for pooled trajectories (C55_violated_always). Proved: scalar charges work.'),
 'C56': ('proved', 'ASE, pymatgen, Xdatcar objects and files.'),
 'C57': ('proved', 'All five input formats.'),
 'C76': ('partial', 'False with single-origin sampling (C76_violated). Proved for several origins: linear spacing with any min_dt, max_dt and n_steps and any rounding, logarithmic spacing in exact arithmetic with any geometric grid that stays between its ends, for all three input formats and at least two mobile atoms. With any number of atoms (C76_atoms_ase_partial and the other formats): linear spacing, ascending intervals, if the first trajectory has any observation; without any, trajectories of different lengths are pooled to nothing (C76_violated_empty).'),
 'C66': ('proved', 'Real arithmetic; positive temperature.'),
 'C67': ('proved', 'Real arithmetic.'),
 'C68': ('partial', 'False (C68_violated, C68_caller_modified): the default list is shared and modified; C68_history says exactly which temperature is used after any history. Proved for explicit bounds and for the first default construction.'),
 'C69': ('proved', 'The chain is a list of rows; the uravu class itself is not modelled.'),
 'C77': ('partial', 'False for temperatures that are not ascending and at the closed end point (C77_violated, C77_end_point). Proved for ascending temperatures and T0 below the first.'),
 'C70': ('proved', 'Composition of parser, analyzer and MSDBootstrap, from the stored coordinates to diff.n and diff.dt, in exact arithmetic, for runs that return. The additional observation over the first t-1 frames is the defect recorded under C13.'),
 'C58': ('partial', 'False for sub_sample_dt >= 2 (C58_subsample_violated, C58_violated) and for MSCDBootstrap.from_dict, which always raises (C58_mscd_violated). Proved without sub-sampling for Bootstrap, MSDBootstrap, MSTDBootstrap and the three analyzers after any history of fits, given that uravu distributions survive their own round trip. Objects with equal dictionaries have equal attributes (C58_distinct).'),
 'C59': ('proved', 'h5py is modelled as an ordered list of datasets with path components; distributions of uravu are assumed to have flat dictionaries that from_dict accepts. C59_values: what comes back, value by value; C59_names: names with a slash come back nested, the name . raises.'),
 'C60': ('partial', 'False (C60_violated, C60_no_intervals_violated, C60_jump_violated): empty lists are forgotten, None in a list is dropped, NULL becomes None, keys beginning with list. Proved for the documents of C59.'),
 'C61': ('partial', 'The file opened by load is the one written by save, whatever the extension. False for the last part: names without extension in a directory with a dot collide (C61_violated). Proved for names without a dot.'),
 'C62': ('partial', 'Proved for one process, and for every interleaving for files that exist before. False for two processes that both create the file (C62_violated).'),
 'C63': ('partial', 'False (C63_violated, C63_stuck): an exception while writing leaves a file that blocks every later save. Proved for exceptions before writing and for all other files.'),
 'C64': ('proved', 'Crash points are the boundaries between assignments of datasets; a file that HDF5 cannot open after a crash raises anyway.'),
 'C65': ('partial', 'False for every analyzer with a bootstrap object (C65_violated): max_obs comes back as a numpy integer, which save rejects. Proved for the base class.'),
 'C78': ('proved', 'The same composition as C70 for MDAnalysis, from Cartesian positions, with sub_sample_atoms = sub_sample_traj = 1; agreement with ASE for every n_steps.'),
 'C79': ('partial', 'Proved for ASE and MDAnalysis. False for pymatgen when time_step and step_skip are both integers (C79_violated, see C19); proved for pymatgen otherwise. Also for atoms named by number, for explicit frameworks and for molecules (C79_selection_partial, C79_molecules_partial), and for chosen min_dt, max_dt, n_steps and spacing if these ask for distinct intervals within the trajectory (C79_bounds_partial); a framework given as a tuple, or given as an empty list with molecules, raises (C71, C21). Exact arithmetic; with or without resampling, block averaging and sub-sampling. Of scipy and pyblock it is assumed that normaltest accepts eight or more values and reblock two or more (StatisticsRun).'),
 'C80': ('proved', 'For the three input formats, exact arithmetic, runs that return (which C79 guarantees). The MSCD ignores the dimension argument (C31).'),
 'C81': ('proved', 'For ASE, pymatgen and MDAnalysis and the three analyzers; ions with different charges are reordered together with their charges (C81_order_charges). C81_drift_needs_framework shows why the statement asks for a framework: without one a drift is reported as diffusion.'),
 'C82': ('proved', 'For the three formats and the three analyzers, runs that return.'),
 'C83': ('partial', 'False (C83_violated): the additional observation over the first t-1 frames (see C13) becomes one over the last t-1 frames. C83_reversal_partial gives the exact difference, and equality of the first entry when it belongs to one frame.'),
 'C84': ('proved', 'For runs that return; n_resamples >= 2; for the MSCD the charge array has one entry per ion.'),
 'C85': ('proved', 'rvs and randint are oracles: the theorem says with which mean, covariance and index they are used. The posterior predictive is for ascending times (C85_predictive).'),
 'C86': ('partial', 'Violated: pools with different volumes are accepted and use the first one, and a changing cell uses the first frame (C86_violated, C86_first_frame). Proved for constant volume in all five formats and every dtype.'),
 'C87': ('proved', 'The optimiser is an oracle assumed to return only maxima; the weights are positive definite.'),
 'C88': ('proved', 'Relative to library routines that respect the change of units (SameLib), including an optimum that does not depend on the starting point: the start values 1e-20 in the code are not converted.'),
 'C89': ('proved', 'pinvh is taken to be the inverse, which it is for a positive definite matrix; the restriction to non-negative gradients cuts the normal distribution off at zero.'),
 'C90': ('partial', 'True in exact arithmetic, and always if start_dt is an entry of dt. False in binary64 (C90_violated_binary64: time_step 0.001, step_skip 50, start_dt 0.55 starts at 12 frames instead of 11). With any rounding only the interval of exactly m frames can be missed (C90_start_rounded_partial).'),
 'C91': ('proved', 'Explicit margin and error bound; the three products of a matrix entry are added from left to right; overflow and underflow are not modelled.'),
 'C92': ('partial', 'False for one or two axes (C92_violated: 4/5 and 1/5 instead of 0); true for three (C92_three_axes_partial); C92_gaussian_value gives the value for every number of axes.'),
 'C93': ('partial', 'False: the duplicated first frame (C13) adds a window of tau - 1 steps, so that the expected value is d v (tau - 1 / (F - tau + 1)) (C93_ase_partial and the other formats; exact for every tau); C93_violated gives a walk where 3/16 is reported as 1/8 on average.'),
 'C94': ('partial', 'True for averages over disjoint windows and intervals that divide each other and the number of steps (C94_disjoint_windows_partial); false for the overlapping windows that kinisi averages (C94_violated).'),
 'C95': ('proved', 'For averages over disjoint windows; the coefficient a is fitted by curve_fit in the code, the theorem says which value is right.'),
 'C96': ('proved', 'For the first half of the intervals, which is all that the collective curves have (C29); MSCD with dimension xyz (see C31).'),
 'C97': ('proved', 'With sub_sample_traj=1 and n_steps at least the number of frames, so that all intervals are analysed. The duplicated first frame (C93_violated) biases every finite analysis but not the limit.'),
 'C98': ('proved', 'With sub_sample_dt=1 and block=False. The windows include the one over the first tau-1 frames that the duplicated first frame adds (C13).'),
 'C99': ('partial', 'C99_results_partial: constructions and fits depend on the RandomState alone. C99_session_partial: sessions that start without a fitted object are reproducible as a whole. Two parts of the claim are false: a fit reseeds the global generator of numpy (C99_violated_global), and posterior_predictive of an object fitted earlier depends on the global generator and has no random_state (C99_violated_predictive). C99_values and C99_built tie the actions of a session to the calls: which coefficient a fit leaves, and what a constructor draws from. C99_last: the object at the end is the one that the last call reported; C99_end_partial: it depends on the RandomState and the calls alone.'),
 'C100': ('partial', 'True of all properties but n_i (C100_readable_partial); n_i reads an attribute that no method assigns and always raises AttributeError (C100_violated_n_i).'),
 'C101': ('proved', 'Exact arithmetic, default intervals, all axes or any dimension argument, no block averaging and sub_sample_dt = 1. What "stored" means for a cell that changes is Spec.StoredIn: the Cartesian position moves by the true step less whole edges of the new cell. C101_breathing bounds what atoms at rest report in a breathing orthorhombic cell.'),
 'C102': ('proved', 'Real numbers with the true sine, cosine and arctangent; otherwise as C101. That such runs exist is C79_molecules_partial.'),
 'C103': ('partial', 'False when max_dt < min_dt: the run is not refused and a value is reported at the wrong time (C103_violated). Proved for min_dt <= max_dt in exact arithmetic, without block averaging and with sub_sample_dt = 1; for MSTD and MSCD the intervals must be distinct (logarithmic spacing, or n_steps no larger than the number of whole steps between the bounds, see C08). Logarithmic spacing: of numpy.geomspace it is assumed that it stays between its ends.'),
 'C104': ('proved', 'Relative rounding errors only: no overflow and no underflow. The bounds are msdError, totalError and dispError (windowError, driftError, pathError). Multi-origin sampling, fixed cell; without block averaging. Of numpy.linalg.inv the error of the computed inverse is a parameter.'),
 'C105': ('proved', 'Relative rounding errors only: no overflow and no underflow. ASE input without sub_sample_traj (with it the times are wrong, C18).'),
 'C106': ('partial', 'Holds between the base class and the analyzers (C106_rejects_partial). False among the analyzers: the class is not stored (C106_unchecked, C106_violated).'),
 'C107': ('proved', 'For MSD, MSTD and MSCD (one charge or one charge per ion). Uncorrelated squared displacements are a hypothesis; overlapping windows of a trajectory are correlated.'),
 'C108': ('proved', 'For a fixed number of resamples. Stopping by the normality test makes the number depend on the values.'),
 'C109': ('partial', 'False as stated (C109_violated): for one atom the first reported time is min_dt while the first displacements are those of max_dt. C109_swapped: with two or more atoms the intervals descend and n_o starts below one per atom. Proved: a max_dt of less than one frame is rejected.'),
 'C110': ('partial', 'False as stated (C110_violated, C110_one_frame_late, C110_collective_empty). The first frame is duplicated and the position in the list is used as the interval, so the value for the time of i + 1 frames is that of i frames and the first value is zero for every trajectory. C110_msd_partial gives the exact law for two or more atoms and the default grid; C110_variance the reported variances, too small by interval / last interval; MSTD and MSCD are empty. C110_one_atom: with one atom the trajectory is read and none of the three observables can be computed.'),
 'C111': ('partial', 'False as stated (C111_violated): the volume is that of the trajectory listed first, and a trajectory with a single mobile atom is accepted after one with two atoms but refused before it. For trajectories of equal shapes and times the pool (C111_pool_partial, volume if all volumes are equal) and the curves (C111_msd_partial with variances, C111_mstd_partial, C111_mscd_partial) do not depend on the order. Runs without blocking; the variances without sub-sampling.'),
 'C112': ('proved', 'C112_latest, C112_none and C112_outcome for arbitrary histories with exceptions; C112_new for the three classes. Each call with its own random numbers and arguments. What else a failed fit changes is C50.'),
 'C113': ('partial', 'C113_right_angles_partial: true in every cell with perpendicular lattice vectors (also turned ones, also changing with time). C113_small_steps_partial: in any cell, if the raw step has an image shorter than half of the smallest distance between opposite faces, that one is taken and it is strictly the shortest. C113_violated: false otherwise; in a cell with edges 10 and an angle of 53 degrees a step (6.4, 3.2, 0) is taken instead of (-3.6, 3.2, 0). The package only warns.'),
 'C114': ('partial', 'C114_partial: all attributes of all three analyzers, the generator state and the exceptions agree for every two descriptions of the same motion in which the steps between kept frames are within half of the cell; all options (floating-point times, sampling, spacing, resampling, block averaging) and three formats; selection by species or atom numbers. C114_violated: false for longer steps: one lattice with two choices of lattice vectors, the same positions in steps shorter than half of every edge, two different MSDs.'),
 'C115': ('proved', 'C115_atoms: selection by species or atom numbers (with or without named framework). C115_molecules: centres of molecules relative to named framework atoms; without framework_indices all atoms outside of the molecules are framework (C102), so nothing is left over. Exceptions and generator state included. The number and the species of the atoms are the same in both trajectories.'),
 'C116': ('proved', 'C116_variance: relative error plus the square of the error of the mean (the mean of the values themselves does not enter linearly); C116_sign: never negative, zero only if all values are equal; C116_msd, C116_mstd, C116_mscd: from stored coordinates to an entry of v, all operations rounded; C116_ngp: from displacements to the non-Gaussian parameter. C116_equal_values: the converse of C116_sign is false, three equal doubles have variance 2e-34. Overflow and underflow are outside of the model of rounding.'),
 'C117': ('partial', 'C117_partial: all attributes of the three analyzers and the exceptions agree for any two of the five readers, in exact arithmetic, steps within half of the cell; C117_molecules_partial: the same objects for every selection and steps of any length, if the fractional coordinates are the same; C117_floating_partial: ASE and MDAnalysis in floating point. C117_violated: with sub_sample_traj = 2 the times of from_ase are half of those of the other readers for the same arguments (step_skip is not multiplied), and an int time step in femtoseconds with an int step_skip is an exception.'),
 'C118': ('proved', 'Without blocking (with block=True the values come from pyblock). C118_charge needs the dimension xyz, as the MSCD uses all axes (C31).'),
 'C119': ('partial', 'Violated with one atom of the species: its last intervals have one observation and are left out, those of the copies are not (C119_violated). Proved for two atoms and more, with exact arithmetic, selection by symbols, without blocking.'),
 'C120': ('proved', 'Rounding is any function with a relative error and fl 1 = 1 (binary64 without underflow and overflow: fl64).'),
 'C121': ('partial', 'Violated by rounding (C121_violated, binary64: variances 27 and 147 with 7 and 3 observations). Proved when the smallest eigenvalue exceeds the rounding errors. Later steps (minimum_eigenvalue_method, cov_nearest) repair the matrix, C43.'),
 'C122': ('proved', 'Any content of the files. Framework atoms must be given: by default the other species is part of the framework and the relation fails (C122_framework_needed). A species with a single atom loses its longest intervals (C119_violated).'),
 'C123': ('proved', 'The fit relative to library routines that respect the change of units (SameLib as in C88); with bootstrap or block also normaltest and pyblock (UnitFree). The sign and the forms of one charge need no assumption.'),
 'C124': ('proved', 'The equality of outcomes covers exceptions. Relative to library routines that respect the change of units (SameLib as in C88, UnitFree for bootstrap or block); of the square root only homogeneity is used.'),
 'C125': ('partial', 'False for the variances (C125_violated): n_o counts with the longest interval looked at, so that the variance of every entry is inversely proportional to it; leaving out the intervals above three fifths of the trajectory makes all variances larger by 5/3. C125_msd_partial, C125_mstd_partial, C125_mscd_partial: all other values agree wherever both analyses have an entry for the same time, the variances also with block=True, and else in exactly this ratio (without sub_sample_dt). Exact arithmetic for the times, sampling multi-origin; the resampled distributions are not covered.'),
 'C126': ('proved', 'C126_fit: of two successful fits both start their sampling from the best line, these differ by the offset in the intercept only, and the two likelihoods are the same function moved by the offset. The optimiser is assumed to return a maximum, the weights to be positive definite. The chains themselves are not moved copies: the walkers are spread by a thousandth of the best values, so that the spread in the intercept depends on the offset. C126_no_intercept and C126_ray_witness: without intercept D changes.'),
 'C127': ('partial', 'False (C127_violated): every interval of τ frames has one additional observation over the first τ-1 frames only (C93), and for three frames and one atom the fitted gradient is two thirds of the true one for every outcome and all weights. C127_ase_partial, C127_pymatgen_partial, C127_mda_partial: the expected gradient is the true one less the linear estimate for the curve rate/(F-τ+1), exactly, with weights that do not depend on chance and fitted gradients that are positive. The weights of the code come from the same trajectory; their randomness is not covered.'),
 'C128': ('partial', 'False with the default bounds (C128_violated): activation energies above 1 eV are excluded, data with 1.5 eV are missed by every law within the bounds. C128_standard_partial, C128_super_partial: for every law within the bounds (super-Arrhenius: with activation energy not zero). C128_default_partial: the default bounds spelled out. C128_unit: change of the unit of D. The best parameters are those with the smallest weighted sum of squares, which is where the likelihood of uravu (not modelled) is highest.'),
 'C129': ('partial', 'False for two arguments. model is documented as True and is False: C129_violated (other variances and covariance matrix), C129_model (a fit without model never uses the random walk variances). max_resamples is documented as 100000 and is 10000: C129_resamples_violated (never more than a tenth of the documented number is drawn). C129_fit_partial, C129_estimate_partial: everything else agrees, and without resampling the three estimates are those of the documented call. random_state and progress are not in the model as arguments.'),
 'C130': ('proved', 'C130_fit, C130_results: the fit of any estimate with usable numbers. C130_diffusion, C130_jump, C130_conductivity: after the constructors, where the positive variances are proved from displacements that differ. C130_too_few: with fewer than two intervals the fit raises, so the condition is needed. The routines of scipy, statsmodels and emcee are arguments; LibraryRuns says what is asked of each, and that the minimum found by scipy has no component that is exactly zero (the walkers would start on a line and emcee would raise). Shown to be satisfiable by a library over the reals with the spectral theorem.'),
 'C131': ('proved', 'Composition of C79 (the analyzers are built), C70, C78, C80 (what they hold) and C130 (fits run): C131_diffusion, C131_jump, C131_conductivity. Excluded by hypotheses, because the code raises: a framework given as a tuple (C71), two integers with pymatgen (C19), motionless atoms (zero variances). Exact arithmetic, default interval bounds, no block averaging.'),
 'C132': ('proved', 'C132_same_object: no hypothesis on options or library. C132_nernst_einstein: for q other than 1 relative to library routines that do not depend on the unit of their data (as C88, C123). The dimension must be xyz in either case of letters, since MSCDBootstrap ignores it (C31, and the last example).'),
 'C133': ('partial', 'False as stated: C133_violated, in binary64 the middle of 1..31 at 23 intervals is 15 instead of 16, and with the default 100 intervals the same happens for 109 steps. C133_intervals_partial: apart from values that are whole frames already, and may come out one frame too small, every interval is the exact one. C133_distinct, C133_trajectory: strict order holds in full.'),
 'C134': ('proved', 'C134_likelihood: closed form of the log-likelihood. C134_first_interval, C134_intercept: the maxima, with uniqueness. C134_fit, C134_model: the chain of a whole fit (measured or model variances) is that of the first fitted point alone, when the conditioning leaves the matrix alone and the pseudo-inverse of a positive definite matrix is its inverse. C134_constant: n_o times the interval is constant for all readers and the three analyses, with two or more atoms; C134_constant_atoms: for any number of atoms when all frames are read and the times ascend. Together: without an intercept all but one value of the curve are ignored (DESIGN.md, findings).'),
 'C135': ('proved', 'C135_spread: any selection of the intervals, with and without intercept, for the matrices kinisi builds and their inverses. C135_start: the matrices stored by two fits of the same data with different start_dt (measured variances; conditioning left them alone). C135_ray: the exact variance without intercept and strictness. With model=True the scale of the variances is fitted again for each start and no order holds.'),
 'C136': ('partial', 'C136_no_intercept_partial: with all starting points and without an intercept the gradients of highest likelihood add up exactly. C136_violated: with an intercept, the default, they do not, although the MSDs do (C28): the weights come from the variances, which depend on the axes chosen (two atoms, three steps: 11/3 along x, 239/34 along y, but 11 in the plane). C136_total_no_intercept_partial: without an intercept the same additivity for the total displacement (its values add up by C29_additive).'),
 'C137': ('proved', 'C137_speed_limit: any stored coordinates in non-singular cells. C137_uniform: exact value. C137_cage: values and best gradient (likelihood maximum, all starting points, positive variances). Exact arithmetic, default intervals, no block averaging, runs that return.'),
 'C138': ('proved', 'C138_neutral: value by value. C138_matched: one interval for every number of frames. C138_bound: values and best gradient (likelihood maximum, all starting points, positive variances). Exact arithmetic, default intervals, no block averaging, runs that return.'),
 'C139': ('proved', 'A cell that does not change; default intervals, exact arithmetic, no block averaging, runs that return. The bound is stated for every r with y <= r^2, which is the bound of the roots (root_within for real numbers).'),
 'C140': ('proved', 'The event counted is that a fit exists and is off: that variances are positive and the covariance matrix has an inverse is part of the event, not proved to happen. The fit is the best line of the exact likelihood (C134 for its closed form), not the outcome of the sampler or of cov_nearest. sub_sample_traj=1. Without intercept (C140_error, C140_limit) n_steps is at least the number of frames, as in C97; with intercept (C140_line_error, C140_line_limit) min_dt and max_dt are chosen by the user and v n^2 increases in the event.'),
 'C141': ('proved', 'Exact arithmetic, sub_sample_traj=1, one trajectory, multi-origin sampling. The fit is the best line of the exact likelihood, not the outcome of the sampler; that the matrix is inverted and that v n^2 increases (which makes it positive definite, C41) is assumed. The reason is C134: n t is constant, so the weights act only on differences that decorrelate.'),
 'C142': ('proved', 'Universes with sub_sample_atoms=1 and cells that can be inverted. The exceptions of numpy, h5py and emcee are those of the versions the model describes (DESIGN.md). C142_resampling is for the first interval and sub_sample_dt=1.'),
 'C143': ('proved', 'Dictionaries (to_dict, from_dict), under the conditions of C58: sub_sample_dt=1 and uravu distributions that survive their own round trip. Files change int to numpy integers (C65) and are not covered. MSCDBootstrap.from_dict raises (C58_mscd_violated), but the conductivity analyzer restores its object through Bootstrap.from_dict, which C143_analyzer covers.'),
 'C144': ('proved', 'Curves and fits without intercept (C144_ray_limit): default intervals (all of 1..F), fixed cell. Fits with intercept (C144_line_error, C144_line_limit): intervals chosen by the user, distinct (C08), cells that may change; that a fit exists with positive variances and increasing v n^2 is part of the event, as in C140. No block bootstrap, sub_sample_traj of 1. As in C97 the first of the averaged windows is one frame short (C01), which the error bound includes.'),
 'C145': ('partial', 'C145_pool_partial, C145_species_partial: exact for fits without intercept from the same interval on, if the numbers of observations are inversely proportional to the times (default intervals, C134_constant_atoms). C145_violated: with an intercept, the default, pooling a trajectory with a copy of itself leaves times and MSD unchanged but changes the best gradient (59/336 alone, 59/624 pooled): the variances of the intervals change by different factors (number of displacements minus one), and so do the weights.'),
 'C146': ('proved', 'C146_combined (any finite family), C146_same (no condition on the gradient), C146_axes, C146_total_axes (MSTD), C146_pool, C146_species. About the line of highest likelihood with the matrix before conditioning, which for ascending times is positive definite (C41); the posterior is sampled around it. The parts must have positive gradients, because the likelihood is cut off at gradient zero.'),
 'C147': ('proved', 'C147_model (model=True, exact weights), C147_measured (model=False, some positive weights), C147_errors (model=True: errors R of the curve change the gradient by at most (1 + q) R / t), C147_close (model=True: a bound that does not depend on the number of intervals), C147_early (model=True, evenly spaced times), C147_runs (one trajectory in any format meets the conditions). About the line of highest likelihood with the matrix before conditioning; the posterior is sampled around it.'),
 'C148': ('proved', 'C148_diffusion, C148_jump, C148_conductivity. A cell that does not change; default intervals, exact arithmetic, no block averaging, sub_sample_traj=1, runs that return. About the line of highest likelihood with the matrix before conditioning; with model=False the weights themselves depend on the variances, and C141 is the statement that holds.'),
 'C149': ('proved', 'C149_model (model=True), C149_measured (model=False: positive variances that increase with the squared number of observations), C149_runs (from the frames of a file to the sampler). Exact arithmetic, an optimiser that only returns maxima and an exact inverse; fits in which conditioning left the matrix as it was. Without intercept: C134.'),
 'C150': ('proved', 'C150_curve (any curve), C150_mean (a run of the library: squares and means rounded), C150_path (everything from the stored coordinates to the means rounded). The intervals and the solution of the fit are exact; the rounding inside pinvh, the optimiser and the sampler is not modelled.'),
 'C151': ('partial', 'False for the weights (C151_violated): n_o is cut to the number of kept intervals, not sub-sampled, so that times and numbers of observations belong to different intervals; in the example the coefficient without an intercept is a third larger than that of the full analysis, whose first value it shares. C151_definite_partial: the matrix still is positive definite for evenly spaced intervals. C151_line_partial: data on a line give this line, and only it. Missing: equality with the fit of the kept intervals for all other data.'),
 'C152': ('proved', 'Removes the hypothesis "no conditioning was necessary" of C134 and C149 for default intervals. Assumes that eig returns orthonormal eigenvectors of symmetric matrices, that cov_nearest keeps matrices whose correlation matrix has no eigenvalue below its threshold 1e-15, and a positive fitted coefficient; exact arithmetic.'),
 'C153': ('proved', 'Extends C146, which needs positive gradients, to all signs, and gives its conditions for pools from the trajectories themselves. C153_strict: gradients 23/120 and 0, but 11/144 for the pool. Exact arithmetic, line of highest likelihood.'),
 'C154': ('proved', 'C154_diffusion, C154_jump, C154_conductivity. Exact arithmetic; the libraries meet Dependable (optimiser finds a maximum, matrices are diagonalised and inverted, cov_nearest keeps a positive definite matrix); blocking off; the fitted variance coefficient is positive; two intervals if an intercept is fitted. reportedMsd contains the short first window of C12.'),
 'C155': ('proved', 'C155_coefficient (weights), C155_share and C155_early (bounds), C155_runs (trajectories meet the conditions), C155_positive (the coefficient is positive exactly if a fitted variance is). Assumes that scipy curve_fit returns the non-negative coefficient of least squares (LeastSquares). In the example a measured variance of 67/2 becomes 1 in the model.'),
 'C156': ('proved', 'C156_likelihood (the two distributions), C156_double and C156_all (the factor), C156_fit (what the sampler of a fit is given), C156_runs (from the frames to two fits that differ in fit_intercept). Assumes exact routines: eigenvalues, nearest covariance matrix, inverse, and a positive coefficient from curve_fit. The distribution is that of the log-likelihood given to emcee; that the walkers sample it is emcee\'s part.'),
 'C157': ('proved', 'C157_error_bars (up to a third of the frames), C157_one_atom (a single atom at half of the frames, where the error bar is too small). From the frames in three formats to the reported n, v and n_o, including the first window, which is one step short. Exact arithmetic, all intervals, no sub-sampling.'),
 'C158': ('proved', 'C158_error_bar (means over all walks of the fitted coefficient, the gradient and the variance of its samples), C158_fit (that these are popt and the parameters of the sampled distribution). Exact arithmetic, model=True, no intercept, all intervals, no sub-sampling; curve_fit as documented; the matrix kept by cond_max and cov_nearest as in C156. With an intercept the variance is more than four times as large (C156).'),
 'C159': ('proved', 'C159_mstd, C159_mscd (intervals of up to a third or a quarter of the frames), C159_mstd_longest, C159_mscd_longest (the factor 3/5 for half of the frames), C159_independent (the hypothesis holds for independent atoms). Exact arithmetic, block=False, sub_sample_dt = 1, all intervals.'),
 'C160': ('proved', 'C160_mstd (jump diffusion), C160_mscd (conductivity). What the fit does with the coefficient is C158_fit. Exact arithmetic, block=False, sub_sample_dt = 1, all intervals, curve_fit as documented.'),
 'C161': ('proved', 'C161_pool. What the fit does with the coefficient is C158_fit. Exact arithmetic, block=False, sub_sample_dt = 1, all intervals, curve_fit as documented.'),
 'C162': ('proved', 'C162_mstd and C162_mscd: the code does this, which is not what pooling is for. C162_msd: the MSD does get more precise. C162_atoms: the number of atoms that jump_diffusion divides by. C162_independent: independent atoms meet the hypotheses. block=False, sub_sample_dt = 1, all intervals; the curve at each interval, not the fit.'),
 'C163': ('proved', 'C163_mstd, C163_mscd. What the fit does with the coefficient is C158_fit. Exact arithmetic, block=False, sub_sample_dt = 1, all intervals, curve_fit as documented.'),
 'C73': ('partial', 'True in exact arithmetic; false in binary64 (C73_violated_binary64). C73_rounded_partial: in floating point the last interval is the documented one or the one before, never another.'),
}

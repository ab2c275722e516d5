{"id": "C01", "title": "Unwrapping recovers the true path in a fixed cell", "statement": "If an atom's true path moves by fractional components in [-1/2, 1/2) between consecutive frames of a fixed invertible cell, then from any periodic images of that path the displacement array returned by get_disp is exactly the Cartesian displacement of the true path from the first frame.", "quantifier": "every invertible 3x3 cell, every number of atoms and frames, every true path with sub-half-cell steps, every choice of periodic image per atom per frame", "why_tests_cant": "the image choices and path lengths are unbounded; a test checks one trajectory", "anchors": ["kinisi/parser.py:Parser.get_disp"]}
{"id": "C02", "title": "Each unwrapped step is the minimum image of the raw step", "statement": "For every frame and atom, also in a cell that changes in time, the unwrapped step differs from the raw Cartesian difference by an integer combination of the lattice vectors of the later frame, has fractional components in [-1/2, 1/2) in that frame, is the only vector with both properties, and the returned array is the running sum of these steps.", "quantifier": "every list of invertible cells (NVT or NPT), every fractional coordinates", "why_tests_cant": "boundary behaviour at exactly half a cell and arbitrary cells cannot be enumerated", "anchors": ["kinisi/parser.py:Parser.get_disp"]}
{"id": "C03", "title": "Displacements do not depend on which periodic image is stored", "statement": "Adding whole lattice vectors to any atom in any frame does not change the displacements. (Expected for every trajectory get_disp claims to support, including NPT.)", "quantifier": "every trajectory, every integer shift per atom per frame", "why_tests_cant": "a metamorphic relation over an infinite family of inputs", "anchors": ["kinisi/parser.py:Parser.get_disp"]}
{"id": "C04", "title": "Non-orthorhombic warning is exact", "statement": "get_disp warns that a triclinic cell is being converted exactly when some frame's lattice matrix has a non-zero off-diagonal entry, whichever entry and whichever frame.", "quantifier": "every non-empty list of lattice matrices", "why_tests_cant": "any of 6*F entries may be the offending one", "anchors": ["kinisi/parser.py:Parser.get_disp"]}
{"id": "C05", "title": "A singular cell is an error, never a number", "statement": "get_disp raises LinAlgError when any frame's cell is singular, ValueError when the frames have different numbers of atoms, and otherwise (one cell per frame) returns an array of shape [atoms, frames-1, 3].", "quantifier": "every list of frames with one cell per frame", "why_tests_cant": "all shapes and all ways of being singular", "anchors": ["kinisi/parser.py:Parser.get_disp"]}
{"id": "C06", "title": "Drift correction makes the framework stationary and removes exactly the common motion", "statement": "After correct_drift with a non-empty list of framework atoms the mean displacement of these atoms is zero at every step; adding any time-dependent displacement to all atoms does not change the result; differences between atoms are preserved; correcting twice equals correcting once; with no framework atoms the array is returned unchanged; an out-of-range framework index is an IndexError.", "quantifier": "every displacement array, every non-empty index list (negative numpy indices included), every common motion", "why_tests_cant": "quantifies over all arrays and all common motions", "anchors": ["kinisi/parser.py:Parser.correct_drift"]}
{"id": "C07", "title": "Linear time intervals have the requested count, range and order", "statement": "get_time_intervals('linear') returns n_steps integers, starts at the minimum, ends at the maximum (when n_steps >= 2), never leaves that range, is ordered, and its i-th value is the floor of the evenly spaced point.", "quantifier": "every n_steps, min_dt, max_dt, time_step, step_skip with a positive step and a minimum of no more whole frames than the maximum, exact or correctly rounded arithmetic", "why_tests_cant": "off-by-one and rounding of evenly spaced integer points cannot be sampled exhaustively", "anchors": ["kinisi/parser.py:Parser.get_time_intervals", "kinisi/parser.py:Parser.__init__"]}
{"id": "C08", "title": "Time intervals are distinct", "statement": "The time intervals a Parser analyses are pairwise distinct (repeated intervals make the covariance matrix singular); __init__ limits n_steps for this purpose.", "quantifier": "every trajectory length, min_dt, max_dt and n_steps", "why_tests_cant": "depends on the joint value of four unbounded parameters", "anchors": ["kinisi/parser.py:Parser.__init__", "kinisi/parser.py:Parser.get_time_intervals"]}
{"id": "C09", "title": "Default intervals are 1..T", "statement": "With default min_dt and max_dt, and n_steps at least the number of displacement steps T, the time intervals are exactly 1, 2, ..., T, and delta_t is these times step_skip*time_step.", "quantifier": "every T >= 2, every n_steps >= T, every positive time_step and step_skip (as real numbers, and as binary64 numbers)", "why_tests_cant": "all trajectory lengths; in binary64 it depends on the exact bits of time_step", "anchors": ["kinisi/parser.py:Parser.__init__", "kinisi/parser.py:Parser.get_time_intervals"]}
{"id": "C10", "title": "Logarithmic intervals are unique, ordered and in range", "statement": "get_time_intervals('logarithmic') returns a strictly increasing list of at most n_steps integers between min and max, containing both end points when n_steps >= 2; any other spacing string except 'linear' is a ValueError.", "quantifier": "every n_steps >= 1, every 1 <= min <= max, every spacing string", "why_tests_cant": "geometric rounding collisions depend on all parameters", "anchors": ["kinisi/parser.py:Parser.get_time_intervals"]}
{"id": "C11", "title": "min_dt and max_dt outside the trajectory are rejected", "statement": "A Parser that is constructed successfully with multi-origin sampling has every time interval between 1 and the number of displacement steps T; min_dt of T steps or more is a ValueError, and max_dt beyond T steps (with at least two intervals) is an IndexError, or the MemoryError raised before it, not silently accepted.", "quantifier": "every trajectory length, every non-negative min_dt and every max_dt >= min_dt", "why_tests_cant": "unbounded parameters", "anchors": ["kinisi/parser.py:Parser.__init__", "kinisi/parser.py:Parser.get_disps"]}
{"id": "C12", "title": "Multi-origin sampling yields every window exactly once", "statement": "Given displacements from an origin, multi-origin sampling for an interval of t steps returns, for each selected atom, exactly T-t+1 observations and the k-th one is the displacement between step k and step k+t (step 0 being the origin).", "quantifier": "every displacement array, every atom selection, every 1 <= t <= T", "why_tests_cant": "every window of every length", "anchors": ["kinisi/parser.py:Parser.get_disps"]}
{"id": "C13", "title": "Every observation of an interval spans exactly that interval of the trajectory", "statement": "For a trajectory read by the ASE, pymatgen or MDAnalysis parser, each displacement observation attributed to an interval of t sampled frames is the difference of the (drift-corrected) positions of two frames that are t sampled frames apart.", "quantifier": "every trajectory, every interval, every observation", "why_tests_cant": "all observations of all intervals; the error sits in one observation per interval", "anchors": ["kinisi/parser.py:ASEParser.get_structure_coords_latt", "kinisi/parser.py:PymatgenParser.get_structure_coords_latt", "kinisi/parser.py:MDAnalysisParser.get_structure_coords_latt", "kinisi/parser.py:Parser.get_disps"]}
{"id": "C14", "title": "Single-origin sampling measures each interval from the origin", "statement": "With sampling='single-origin' the one observation per atom for an interval of t steps is the displacement after t steps from the origin.", "quantifier": "every displacement array and every list of time intervals", "why_tests_cant": "any list of intervals other than 1,2,3,... exposes it", "anchors": ["kinisi/parser.py:Parser.get_disps"]}
{"id": "C15", "title": "Displacement arrays, observation counts and delta_t stay aligned", "statement": "disp_3d and n_o have equal length, and disp_3d[i] and n_o[i] belong to delta_t[i] for every i, also when intervals with at most one independent observation were left out.", "quantifier": "every trajectory and parameters with ordered intervals", "why_tests_cant": "the left-out set depends on atoms, T and interval", "anchors": ["kinisi/parser.py:Parser.get_disps"]}
{"id": "C16", "title": "Number of independent observations", "statement": "n_o[i] = atoms * (last interval / interval i): it is at least the number of atoms, equals it at the last interval, does not increase with the interval, and n_o[i]*delta_t[i] is the same for all i.", "quantifier": "every successful multi-origin parse with ordered intervals", "why_tests_cant": "relation over all intervals of all trajectories", "anchors": ["kinisi/parser.py:Parser.get_disps"]}
{"id": "C17", "title": "Memory limit is enforced exactly", "statement": "With multi-origin sampling the parse fails with MemoryError exactly when the displacement arrays it is about to build (all intervals, all selected atoms, 3 axes, itemsize bytes) exceed memory_limit gigabytes; no array is built in that case, and a successful parse never holds more.", "quantifier": "every trajectory, interval list, itemsize and limit", "why_tests_cant": "limits can be hit at any boundary value", "anchors": ["kinisi/parser.py:Parser.get_disps"]}
{"id": "C18", "title": "delta_t is the simulated time between the compared frames", "statement": "For every parser, delta_t[i] is (number of sampled frames of the interval) * sub_sample_traj * step_skip * time_step, expressed in picoseconds.", "quantifier": "every parser, every sub_sample_traj, step_skip, time_step and interval", "why_tests_cant": "must hold for each combination of parser and sub-sampling", "anchors": ["kinisi/parser.py:ASEParser.__init__", "kinisi/parser.py:PymatgenParser.__init__", "kinisi/parser.py:MDAnalysisParser.__init__"]}
{"id": "C19", "title": "Integer and floating time steps are interchangeable", "statement": "A parse succeeds for time_step=2 whenever it succeeds for time_step=2.0, with the same result.", "quantifier": "every parser and every integral time_step", "why_tests_cant": "every numeric type combination", "anchors": ["kinisi/parser.py:PymatgenParser.__init__", "kinisi/parser.py:Parser.get_disps"]}
{"id": "C20", "title": "Species selection splits the atoms", "statement": "With specie given and no framework_indices, the selected indices and the framework indices are ordered, disjoint, together list every atom exactly once, and the selected ones are exactly those whose symbol is asked for; ValueError if there are none; an explicit framework_indices list replaces the framework and leaves the selection.", "quantifier": "every structure, every list of symbols", "why_tests_cant": "all structures", "anchors": ["kinisi/parser.py:ASEParser.get_indices", "kinisi/parser.py:PymatgenParser.get_indices", "kinisi/parser.py:MDAnalysisParser.get_indices"]}
{"id": "C21", "title": "An empty framework_indices list turns drift correction off", "statement": "Passing framework_indices=[] performs no drift correction, however the diffusing atoms are selected (specie, flat specie_indices, or molecules).", "quantifier": "every structure and every selection mode", "why_tests_cant": "documented for every selection mode", "anchors": ["kinisi/parser.py:_get_framework", "kinisi/parser.py:_get_molecules", "kinisi/parser.py:ASEParser.get_indices"]}
{"id": "C22", "title": "specie_indices selects the given atoms and the rest is framework", "statement": "With flat specie_indices the selected atoms are exactly the given ones, and the framework is every other atom, or exactly the atoms named by framework_indices when that is given.", "quantifier": "every structure, selection and framework list", "why_tests_cant": "all index lists", "anchors": ["kinisi/parser.py:_get_framework"]}
{"id": "C23", "title": "framework_indices names the same atoms in every selection mode", "statement": "The same framework_indices list denotes the same atoms whether the diffusing atoms are chosen by specie or as molecules.", "quantifier": "every structure and framework list", "why_tests_cant": "needs comparison of two code paths on all inputs", "anchors": ["kinisi/parser.py:_get_molecules", "kinisi/parser.py:PymatgenParser.get_indices"]}
{"id": "C24", "title": "Molecule centre is the mass-weighted centre", "statement": "If the atoms of a molecule lie within less than half a cell in each fractional direction (after choosing suitable images), the centre used for the molecule is the weighted mean of these positions modulo the cell, for any positive masses (equal weights without masses), and lies in [0, 1).", "quantifier": "every molecule size, positions, images and positive masses", "why_tests_cant": "real-valued positions, all wrap-around cases", "anchors": ["kinisi/parser.py:_get_molecules"]}
{"id": "C25", "title": "Molecule centres ignore images and follow translations", "statement": "The centre of such a molecule does not change when lattice vectors are added to any of its atoms, and moves by the same amount (modulo the cell) when the whole molecule is translated.", "quantifier": "every molecule, image shift and translation", "why_tests_cant": "metamorphic relation over reals", "anchors": ["kinisi/parser.py:_get_molecules"]}
{"id": "C26", "title": "Molecule parsing keeps molecules first and framework after, in order", "statement": "After _get_molecules the selected indices are 0..M-1 in the order of the given molecules and the framework indices are the following ones, one per framework atom, whose coordinates are untouched; molecules of unequal length, or masses of the wrong length, are a ValueError.", "quantifier": "every structure, every list of molecules, every framework list", "why_tests_cant": "all index layouts", "anchors": ["kinisi/parser.py:_get_molecules"]}
{"id": "C27", "title": "dimension selects exactly the named axes", "statement": "For every accepted dimension string, in any letter case, the axes used are exactly the letters of the string, dims is their number; any other string is a KeyError.", "quantifier": "every string", "why_tests_cant": "all strings", "anchors": ["kinisi/diffusion.py:DIMENSIONALITY", "kinisi/diffusion.py:Bootstrap.__init__"]}
{"id": "C28", "title": "MSD is the mean squared displacement over all atoms and observations", "statement": "msd[i] is the sum over atoms, observations and selected axes of the squared displacement divided by atoms*observations, for every interval; hence non-negative, additive over disjoint axes, independent of the order of atoms, and multiplied by c^2 when all lengths are scaled by c.", "quantifier": "every list of displacement arrays with more than one value, every dimension", "why_tests_cant": "numeric identity on all inputs", "anchors": ["kinisi/diffusion.py:MSDBootstrap.__init__"]}
{"id": "C29", "title": "MSTD is the mean squared total displacement over the first half of the intervals", "statement": "mstd has floor(L/2) entries (L intervals), the i-th being the mean over observations of the squared length, along the selected axes, of the sum of all atoms' displacements.", "quantifier": "every list of displacement arrays with at least two observations", "why_tests_cant": "numeric identity on all inputs", "anchors": ["kinisi/diffusion.py:MSTDBootstrap.__init__"]}
{"id": "C30", "title": "MSCD weights displacements by charge", "statement": "With dimension 'xyz', mscd[i] is the mean over observations of the squared length of the charge-weighted sum of displacements; a scalar charge q gives q^2 times the MSTD; for a neutral set of charges a displacement common to all ions changes nothing; with several ions and at least two intervals, a charge array whose length is neither the number of ions nor 1 is a ValueError.", "quantifier": "every displacement list with at least two observations per interval, every charge array or scalar", "why_tests_cant": "numeric identity on all inputs", "anchors": ["kinisi/diffusion.py:MSCDBootstrap.__init__"]}
{"id": "C31", "title": "MSCD respects dimension", "statement": "The MSCD (and so the conductivity) for dimension d only uses the displacement components along the axes of d.", "quantifier": "every dimension string and displacement list", "why_tests_cant": "seven dimension strings times all arrays", "anchors": ["kinisi/diffusion.py:MSCDBootstrap.__init__"]}
{"id": "C32", "title": "Variance and standard deviation of the MSD", "statement": "v[i] is the unbiased sample variance of the squared displacements divided by n_o[i] (for the MSTD and MSCD, of the squared sums divided by n_o[i]/atoms), or with block=True the squared standard error pyblock reports for the series; it is non-negative, and s[i] is its non-negative square root; dt, n, v, s, ngp and the displacement distributions have equal lengths and refer to the same interval index.", "quantifier": "every list of displacement arrays as produced by a parser", "why_tests_cant": "all inputs incl. skipped intervals", "anchors": ["kinisi/diffusion.py:MSDBootstrap.__init__"]}
{"id": "C33", "title": "Skipped intervals do not shift results", "statement": "When an interval with at most one squared displacement is skipped, the remaining entries of dt, n, v and s still belong to each other (s[k]^2 = v[k] for the same interval), wherever the skipped interval is.", "quantifier": "every list of displacement arrays", "why_tests_cant": "the skipped interval may be anywhere", "anchors": ["kinisi/diffusion.py:MSDBootstrap.__init__"]}
{"id": "C34", "title": "sub_sample_dt keeps every k-th interval", "statement": "Constructing with sub_sample_dt=k gives the entries 0, k, 2k, ... of the dt, msd, msd_std and ngp of the full analysis.", "quantifier": "every k >= 1 and every displacement list", "why_tests_cant": "all k and all lists", "anchors": ["kinisi/diffusion.py:Bootstrap.__init__", "kinisi/diffusion.py:MSDBootstrap.__init__"]}
{"id": "C35", "title": "Non-Gaussian parameter bounds and scale invariance", "statement": "For squared displacements that are not all zero the non-Gaussian parameter is at least -2/5, equals it exactly when all squared displacements are equal, and is unchanged when all lengths are scaled; it is NaN when all are zero.", "quantifier": "every non-empty array of squared displacements", "why_tests_cant": "inequality over all arrays", "anchors": ["kinisi/diffusion.py:Bootstrap.ngp_calculation"]}
{"id": "C36", "title": "ngp_max is the first interval of maximal non-Gaussian parameter", "statement": "ngp_max returns the dt at which the non-Gaussian parameter is largest, the earliest such dt on ties.", "quantifier": "every analysed trajectory", "why_tests_cant": "all arrays incl. undefined entries", "anchors": ["kinisi/analyzer.py:Analyzer.ngp_max"]}
{"id": "C37", "title": "Resampling until normal terminates within its budget", "statement": "sample_until_normal stops for every random outcome; it returns n_resamples + 100*m values for some m, fewer than max_resamples + 100 unless n_resamples is larger, and it stops early only when the normality test passed (or is undefined), and it draws more only after a test that failed.", "quantifier": "every outcome of the resampling and of the normality test, every n_resamples, max_resamples, alpha", "why_tests_cant": "quantifies over all random streams", "anchors": ["kinisi/diffusion.py:Bootstrap.sample_until_normal"]}
{"id": "C38", "title": "The not-normal warning is truthful", "statement": "The warning that the distribution is not yet normal is issued exactly when the returned values fail the normality test.", "quantifier": "every outcome of the normality test", "why_tests_cant": "rare coincidences of budget and p-value", "anchors": ["kinisi/diffusion.py:Bootstrap.sample_until_normal"]}
{"id": "C39", "title": "Bootstrap means stay inside the data", "statement": "Every bootstrapped mean lies between the smallest and the largest value of the resampled data, there are exactly the requested number of them, and each is the mean of int(n_samples) draws from the data; so does every Bayesian bootstrap mean.", "quantifier": "every data array, every random stream, every n_samples >= 1", "why_tests_cant": "all random streams", "anchors": ["kinisi/diffusion.py:_bootstrap", "kinisi/diffusion.py:_bayesian_bootstrap"]}
{"id": "C40", "title": "Covariance matrix entries and symmetry", "statement": "The modelled covariance matrix is square of the size of the variance array, symmetric, has the variances on its diagonal, and entry (i,j) with i<=j is variance i times n_o[i]/n_o[j].", "quantifier": "every variance and n_o array (equal lengths)", "why_tests_cant": "all sizes", "anchors": ["kinisi/diffusion.py:_populate_covariance_matrix"]}
{"id": "C41", "title": "Exactly when the covariance matrix is positive semi-definite", "statement": "With positive n_o the covariance matrix is positive semi-definite if and only if variance*n_o^2 is non-negative and non-decreasing along the intervals; it is positive definite when strictly increasing from a positive value.", "quantifier": "every size, every variance and positive n_o array", "why_tests_cant": "needs all vectors of all sizes", "anchors": ["kinisi/diffusion.py:_populate_covariance_matrix"]}
{"id": "C42", "title": "Random-walk covariance model is always valid", "statement": "With model=True, the n_o of a multi-origin parse and any non-negative fitted coefficient, the covariance matrix is positive semi-definite for every choice of start_dt (positive definite for a positive coefficient and distinct intervals).", "quantifier": "every parse with ordered intervals, every fitted coefficient, every start of the diffusive regime", "why_tests_cant": "all sizes and parameters", "anchors": ["kinisi/diffusion.py:Bootstrap.generate_covariance_matrix", "kinisi/diffusion.py:_populate_covariance_matrix", "kinisi/parser.py:Parser.get_disps"]}
{"id": "C43", "title": "Minimum eigenvalue method bounds the condition number", "statement": "minimum_eigenvalue_method returns a symmetric matrix whose condition number is at most cond_max.", "quantifier": "every symmetric positive definite matrix and every cond_max >= 1, whatever order the eigenvalue routine uses", "why_tests_cant": "the eigenvalue order is an implementation detail of LAPACK", "anchors": ["kinisi/diffusion.py:minimum_eigenvalue_method"]}
{"id": "C44", "title": "The fit uses exactly the intervals from start_dt on", "statement": "bootstrap_GLS fits exactly the intervals with dt >= start_dt and raises IndexError when there is none.", "quantifier": "every ordered dt array and every start_dt", "why_tests_cant": "all start values incl. ties", "anchors": ["kinisi/diffusion.py:Bootstrap.bootstrap_GLS", "kinisi/diffusion.py:Bootstrap.posterior_predictive"]}
{"id": "C45", "title": "The log-likelihood is maximised by the generalised least-squares line", "statement": "For a symmetric positive semi-definite inverse covariance, any line with non-negative gradient that solves the generalised least-squares normal equations has the highest log-likelihood of all lines; it is the only one if the matrix is positive definite and two intervals differ; lines with a negative gradient have log-likelihood minus infinity.", "quantifier": "every data set, every inverse covariance, every line, with and without intercept", "why_tests_cant": "optimality over all lines", "anchors": ["kinisi/diffusion.py:Bootstrap.bootstrap_GLS", "kinisi/diffusion.py:_straight_line"]}
{"id": "C46", "title": "Diffusion coefficients are never negative", "statement": "If the sampling starts from non-negative gradients, every sample of gradient, D, D_J and sigma is non-negative, whatever the random proposals and acceptances.", "quantifier": "every random stream, every number of walkers and steps", "why_tests_cant": "all random streams", "anchors": ["kinisi/diffusion.py:Bootstrap.bootstrap_GLS", "kinisi/diffusion.py:Bootstrap.diffusion"]}
{"id": "C47", "title": "Number of posterior samples", "statement": "After a fit, D has n_walkers*floor(n_samples/thin) samples, none of them from the first n_burn steps.", "quantifier": "every n_walkers, n_samples, n_burn, thin >= 1", "why_tests_cant": "all parameter combinations", "anchors": ["kinisi/diffusion.py:Bootstrap.bootstrap_GLS"]}
{"id": "C48", "title": "Unit conversions", "statement": "D = gradient/(2*dims) converted from A^2/ps to cm^2/s, D_J = D/atoms, and sigma = e^2 D/(V k_B T) in mS/cm: sigma is inversely proportional to temperature and volume and all are proportional to the gradient sample by sample.", "quantifier": "every gradient sample, dims, number of atoms, volume and temperature", "why_tests_cant": "algebraic identity", "anchors": ["kinisi/diffusion.py:Bootstrap.diffusion", "kinisi/diffusion.py:Bootstrap.jump_diffusion", "kinisi/diffusion.py:Bootstrap.conductivity"]}
{"id": "C49", "title": "Results stay available without an intercept", "statement": "After a successful fit, with or without fit_intercept, posterior_predictive, distribution and flatchain can be evaluated.", "quantifier": "every successful fit", "why_tests_cant": "option combinations over call histories", "anchors": ["kinisi/diffusion.py:Bootstrap.posterior_predictive", "kinisi/analyzer.py:Analyzer.distribution", "kinisi/diffusion_analyzer.py:DiffusionAnalyzer.flatchain"]}
{"id": "C50", "title": "A failed fit leaves the previous results intact", "statement": "If diffusion/jump_diffusion/conductivity raises, at whatever internal point, all results of the previous fit are unchanged and still usable.", "quantifier": "every history of fits, every point of failure", "why_tests_cant": "all histories and all failure points", "anchors": ["kinisi/diffusion.py:Bootstrap.bootstrap_GLS", "kinisi/diffusion.py:Bootstrap.generate_covariance_matrix"]}
{"id": "C51", "title": "Fit results are mutually consistent after any history of successful fits", "statement": "After any sequence of successful fits the gradient, intercept, flatchain, covariance size, start_dt, model and cond_max all belong to the latest fit; intercept is present exactly if the latest fit fitted it; D belongs to the latest diffusion call.", "quantifier": "every sequence of fit calls with any parameters", "why_tests_cant": "all histories", "anchors": ["kinisi/diffusion.py:Bootstrap.bootstrap_GLS", "kinisi/diffusion.py:Bootstrap.diffusion"]}
{"id": "C52", "title": "Posterior predictive shape", "statement": "posterior_predictive returns n_posterior_samples*n_predictive_samples rows with one column per fitted interval; the default n_posterior_samples is the number of posterior samples.", "quantifier": "every state after a fit with intercept, every argument", "why_tests_cant": "all parameter combinations", "anchors": ["kinisi/diffusion.py:Bootstrap.posterior_predictive"]}
{"id": "C53", "title": "Identical-start trajectories are pooled", "statement": "With dtype='identical' of k equally shaped trajectories, the displacement arrays are the concatenation over trajectories along the atom axis, n_o is the sum, and the MSD of the pool is the mean of the individual MSDs; trajectories with different numbers of observations are rejected.", "quantifier": "every k >= 1, every list of parsed trajectories", "why_tests_cant": "all numbers of trajectories and shapes", "anchors": ["kinisi/analyzer.py:Analyzer._stack_trajectories", "kinisi/analyzer.py:Analyzer._from_pymatgen"]}
{"id": "C54", "title": "Repeating a trajectory does not change the observables", "statement": "Analysing k copies of one trajectory with dtype='identical' gives the same MSD, MSTD per atom and conductivity-relevant MSCD as one copy.", "quantifier": "every trajectory, every k >= 1", "why_tests_cant": "all k", "anchors": ["kinisi/analyzer.py:Analyzer._stack_trajectories", "kinisi/diffusion.py:MSTDBootstrap.__init__", "kinisi/diffusion.py:MSCDBootstrap.__init__"]}
{"id": "C55", "title": "Per-ion charges work with pooled trajectories", "statement": "A per-ion charge array that is valid for a single trajectory is valid for dtype='identical' with several trajectories.", "quantifier": "every trajectory list and charge array", "why_tests_cant": "all k", "anchors": ["kinisi/diffusion.py:MSCDBootstrap.__init__", "kinisi/analyzer.py:Analyzer._stack_trajectories"]}
{"id": "C56", "title": "Consecutive trajectories are analysed as one", "statement": "With dtype='consecutive' the result equals that of the single trajectory made by joining the parts in order; how the trajectory is cut does not matter.", "quantifier": "every list of lists of structures", "why_tests_cant": "all cuts", "anchors": ["kinisi/analyzer.py:_flatten_list", "kinisi/analyzer.py:Analyzer._from_pymatgen"]}
{"id": "C57", "title": "Unknown dtype is rejected", "statement": "dtype values other than None, 'identical' and (except for universes) 'consecutive' raise ValueError.", "quantifier": "every string, every input format", "why_tests_cant": "all strings", "anchors": ["kinisi/analyzer.py:Analyzer._from_universe", "kinisi/analyzer.py:Analyzer._from_file"]}
{"id": "C58", "title": "Dictionary round trip", "statement": "from_dict(to_dict(x)) has the same observable state as x, for analyzers and for every bootstrap class, whatever fits have been run.", "quantifier": "every analyzer and bootstrap object reachable through the API", "why_tests_cant": "all reachable states", "anchors": ["kinisi/diffusion.py:Bootstrap.from_dict", "kinisi/diffusion.py:Bootstrap.to_dict", "kinisi/diffusion_analyzer.py:DiffusionAnalyzer.from_dict"]}
{"id": "C59", "title": "HDF5 round trip preserves keys, values and list order", "statement": "Loading what was saved gives the same nested dictionary (strings as bytes), in particular lists of any length come back in order.", "quantifier": "every dictionary of arrays, numbers, strings, None, lists of arrays and lists of flat dictionaries", "why_tests_cant": "order of more than ten entries depends on string sorting; all nestings", "anchors": ["kinisi/analyzer.py:_dict_to_group", "kinisi/analyzer.py:_group_to_dict"]}
{"id": "C60", "title": "Everything that can be saved can be loaded completely", "statement": "If save succeeds, load returns every key of the dictionary with every list element.", "quantifier": "every dictionary accepted by save", "why_tests_cant": "corner cases of nesting and emptiness", "anchors": ["kinisi/analyzer.py:_dict_to_group", "kinisi/analyzer.py:_group_to_dict"]}
{"id": "C61", "title": "Save and load agree on the file name", "statement": "load(name) opens the file that save(name) wrote, with or without an extension; adding or changing an extension does not matter; different names without extension denote different files.", "quantifier": "every file name", "why_tests_cant": "all strings", "anchors": ["kinisi/analyzer.py:Analyzer.save", "kinisi/analyzer.py:Analyzer.load"]}
{"id": "C62", "title": "Save never overwrites a file", "statement": "save raises ValueError and changes nothing if the target file exists, also when several processes save at the same time.", "quantifier": "every state of the file system, every interleaving of savers", "why_tests_cant": "all interleavings", "anchors": ["kinisi/analyzer.py:Analyzer.save"]}
{"id": "C63", "title": "A failed save leaves no file behind", "statement": "If save raises, the file system is as before, so that the save can be repeated.", "quantifier": "every analyzer state, every point of failure", "why_tests_cant": "all failure points", "anchors": ["kinisi/analyzer.py:Analyzer.save", "kinisi/analyzer.py:_dict_to_group"]}
{"id": "C64", "title": "A torn save is never mistaken for a complete one", "statement": "If writing stops after any number of stored values but before the last, loading the file raises an error instead of returning an object.", "quantifier": "every analyzer state, every crash point before the last write", "why_tests_cant": "all crash points", "anchors": ["kinisi/analyzer.py:Analyzer.save", "kinisi/analyzer.py:Analyzer.load", "kinisi/diffusion.py:Bootstrap.from_dict"]}
{"id": "C65", "title": "A loaded analyzer can be saved again", "statement": "save after load succeeds (under a fresh name) and reloading gives the same object.", "quantifier": "every saved analyzer", "why_tests_cant": "types change on disk", "anchors": ["kinisi/analyzer.py:_dict_to_group", "kinisi/diffusion.py:Bootstrap.to_dict"]}
{"id": "C66", "title": "Arrhenius rate is positive, bounded and increasing", "statement": "For a positive prefactor, arrhenius is positive, at most the prefactor for non-negative activation energy and positive temperature, increasing in temperature for positive activation energy, decreasing in activation energy, and ln D is linear in 1/T with slope -Ea/k_B.", "quantifier": "all real parameters", "why_tests_cant": "real inequalities", "anchors": ["kinisi/arrhenius.py:arrhenius"]}
{"id": "C67", "title": "Super-Arrhenius extends Arrhenius", "statement": "super_arrhenius with T0=0 equals arrhenius, with T0=t it equals arrhenius at T-t, and for temperatures above T0 it is positive, at most the prefactor and increasing in temperature.", "quantifier": "all real parameters", "why_tests_cant": "real inequalities", "anchors": ["kinisi/arrhenius.py:super_arrhenius"]}
{"id": "C68", "title": "Default T0 bounds come from the data at hand", "statement": "SuperArrhenius without bounds uses (0, temperature[0]) of its own temperature array as bounds for T0, whatever was constructed before, and does not modify the caller's bounds.", "quantifier": "every history of constructions", "why_tests_cant": "depends on the history of earlier calls", "anchors": ["kinisi/arrhenius.py:SuperArrhenius.__init__"]}
{"id": "C69", "title": "Extrapolation agrees with the fitted curve", "statement": "extrapolate(T) at a measured temperature equals the corresponding row of distribution, sample by sample.", "quantifier": "every temperature array and sample chain", "why_tests_cant": "all samples", "anchors": ["kinisi/arrhenius.py:StandardArrhenius.extrapolate", "kinisi/arrhenius.py:StandardArrhenius.distribution", "kinisi/arrhenius.py:SuperArrhenius.extrapolate"]}
{"id": "C70", "title": "End-to-end MSD of a wrapped trajectory", "statement": "For a trajectory in a fixed cell with sub-half-cell steps, the msd reported by DiffusionAnalyzer (atoms chosen by species, with or without an explicit framework, or by number; default bounds of the intervals; ASE or pymatgen) is, for each interval of t frames, the average over the chosen atoms of the squared true displacement relative to the framework over all windows of t frames and, in addition, over the first t-1 frames; the periodic images the file stores do not matter.", "quantifier": "every trajectory in a fixed cell, every choice of images, every linear number of steps (exact arithmetic)", "why_tests_cant": "composition of all stages on all inputs", "anchors": ["kinisi/parser.py:ASEParser", "kinisi/parser.py:Parser", "kinisi/diffusion.py:MSDBootstrap", "kinisi/diffusion_analyzer.py:DiffusionAnalyzer.from_ase"]}
{"id": "C71", "title": "Index lists and tuples are interchangeable", "statement": "specie_indices and framework_indices given as a tuple have the same effect as the same values given as a list (the code accepts both types).", "quantifier": "every structure and every index sequence", "why_tests_cant": "two types times all inputs", "anchors": ["kinisi/parser.py:ASEParser.get_indices", "kinisi/parser.py:Parser.correct_drift"]}
{"id": "C72", "title": "Sub-sampling a trajectory equals parsing the thinned trajectory", "statement": "Parsing with sub_sample_traj=k gives the same displacements and delta_t as parsing every k-th frame of the trajectory with step_skip multiplied by k.", "quantifier": "every parser, trajectory, k >= 1 and other parameters", "why_tests_cant": "all trajectories and k", "anchors": ["kinisi/parser.py:PymatgenParser", "kinisi/parser.py:MDAnalysisParser", "kinisi/parser.py:ASEParser"]}
{"id": "C73", "title": "A min_dt of m frames starts at m frames", "statement": "If min_dt is m times the time between frames (max_dt: M times), the first (last) time interval analysed is m (M) frames.", "quantifier": "every m, M and every positive time_step and step_skip (as real numbers, and as binary64 numbers)", "why_tests_cant": "depends on the exact bits of the quotient", "anchors": ["kinisi/parser.py:Parser.get_time_intervals", "kinisi/parser.py:Parser.__init__"]}
{"id": "C74", "title": "Missing or empty input is an error", "statement": "An empty trajectory, a missing selection (specie and specie_indices both None), an empty specie_indices list, and sub_sample_atoms together with specie_indices raise an exception; no parser object with zero atoms or zero frames is created.", "quantifier": "every parser and every input", "why_tests_cant": "all parsers and all degenerate inputs", "anchors": ["kinisi/parser.py:ASEParser.__init__", "kinisi/parser.py:PymatgenParser.__init__", "kinisi/parser.py:MDAnalysisParser.__init__"]}
{"id": "C75", "title": "Atom sub-sampling keeps every k-th atom", "statement": "With sub_sample_atoms=k the MDAnalysis parser behaves as if the universe contained only atoms 0, k, 2k, ...: same selection, framework and displacements.", "quantifier": "every universe and every k >= 1", "why_tests_cant": "all universes and k", "anchors": ["kinisi/parser.py:MDAnalysisParser.get_structure_coords_latt"]}
{"id": "C76", "title": "Only equal time intervals are pooled", "statement": "With dtype='identical' displacements are pooled only if they belong to the same time interval in every trajectory, so that the times reported are those of all pooled displacements.", "quantifier": "every list of trajectories and every choice of parser parameters", "why_tests_cant": "all combinations of lengths and parameters", "anchors": ["kinisi/analyzer.py:Analyzer._stack_trajectories", "kinisi/analyzer.py:Analyzer._from_ase"]}
{"id": "C77", "title": "Default T0 bounds keep the VTF expression regular on the data", "statement": "For every T0 within the default bounds of SuperArrhenius, the Vogel-Tammann-Fulcher rate is positive, at most the prefactor and increasing on the temperatures analysed.", "quantifier": "every temperature array", "why_tests_cant": "all arrays, all T0", "anchors": ["kinisi/arrhenius.py:SuperArrhenius.__init__", "kinisi/arrhenius.py:super_arrhenius"]}
{"id": "C78", "title": "End-to-end MSD of an MDAnalysis universe", "statement": "For a universe with Cartesian positions in a fixed box, moving less than half a box per frame and wrapped in any way, the msd and times reported are those of C70 for the true motion; ASE atoms and an MDAnalysis universe with the same motion give the same MSD, times and volume.", "quantifier": "every motion in a fixed box, every choice of images (exact arithmetic)", "why_tests_cant": "composition of all stages on all inputs", "anchors": ["kinisi/parser.py:MDAnalysisParser", "kinisi/diffusion.py:MSDBootstrap", "kinisi/diffusion_analyzer.py:DiffusionAnalyzer.from_universe"]}
{"id": "C79", "title": "Valid input is analysed without an exception", "statement": "Two or more frames with the same number of atoms and non-degenerate cells, at least one atom of the chosen species, default interval bounds, n_steps >= 1, a known dimension and enough memory: DiffusionAnalyzer, JumpDiffusionAnalyzer and ConductivityAnalyzer (scalar charge, or one charge per atom) are constructed without an exception, for ASE, pymatgen and MDAnalysis input.", "quantifier": "every valid trajectory and every such parameter set, with and without bootstrap (at least 8 resamples), block averaging and sub-sampling (exact arithmetic)", "why_tests_cant": "absence of exceptions on all valid inputs", "anchors": ["kinisi/parser.py:Parser.__init__", "kinisi/parser.py:PymatgenParser.__init__", "kinisi/diffusion.py:MSDBootstrap.__init__", "kinisi/diffusion.py:MSTDBootstrap.__init__", "kinisi/diffusion.py:MSCDBootstrap.__init__"]}
{"id": "C80", "title": "End-to-end MSTD and MSCD of a wrapped trajectory", "statement": "For the trajectories of C70 and C78, the MSTD (MSCD) reported is, for the first half of the intervals, the average over all windows of t frames and, in addition, the first t-1 frames, of the squared sum over the chosen atoms of the true displacements (weighted with the charges).", "quantifier": "every motion in a fixed cell, every choice of images, every charge (exact arithmetic)", "why_tests_cant": "composition of all stages on all inputs", "anchors": ["kinisi/diffusion.py:MSTDBootstrap", "kinisi/diffusion.py:MSCDBootstrap", "kinisi/jump_diffusion_analyzer.py:JumpDiffusionAnalyzer.from_ase", "kinisi/conductivity_analyzer.py:ConductivityAnalyzer.from_ase"]}
{"id": "C81", "title": "Symmetries of the reported curves", "statement": "The times and the MSD, MSTD and MSCD reported do not change under a rigid drift of all atoms (when there are framework atoms), a rotation or reflection of cell and positions (all dimensions selected), or another order of the atoms in the file (charges given per ion in the same order); when lengths are measured in a unit 1/c as long, the values are multiplied by c^2 and the times stay.", "quantifier": "every motion in a fixed cell, every drift, orthogonal matrix, permutation and scale, every choice of images in both trajectories, three input formats (exact arithmetic)", "why_tests_cant": "relational statement over pairs of arbitrary trajectories", "anchors": ["kinisi/parser.py:Parser.correct_drift", "kinisi/diffusion.py:MSDBootstrap", "kinisi/diffusion.py:MSTDBootstrap", "kinisi/diffusion.py:MSCDBootstrap"]}
{"id": "C82", "title": "Unit of time", "statement": "Multiplying time_step by c multiplies the reported times by c and changes no value of the curves; time_step and step_skip enter the intervals only through their product.", "quantifier": "every motion, every positive time_step and c, three input formats (exact arithmetic)", "why_tests_cant": "relational statement over pairs of arbitrary runs", "anchors": ["kinisi/parser.py:Parser.get_time_intervals", "kinisi/parser.py:Parser.get_disps"]}
{"id": "C83", "title": "Time reversal", "statement": "The MSD of a trajectory played backwards equals the MSD of the trajectory.", "quantifier": "every motion in a fixed cell (exact arithmetic)", "why_tests_cant": "relational statement over pairs of arbitrary trajectories", "anchors": ["kinisi/parser.py:Parser.get_disps", "kinisi/diffusion.py:MSDBootstrap"]}
{"id": "C84", "title": "What bootstrap=True adds", "statement": "bootstrap, n_resamples, max_resamples, alpha and the random state change nothing of the object except the bootstrap arrays; these are empty without bootstrap; with it they have one entry per recorded interval: a distribution of n_resamples + 100 m values, each the mean of int(n_o[i]) (MSTD, MSCD: int(n_o[i]/atoms)) >= 1 values of that interval drawn with replacement, and its mean, unbiased variance and standard deviation.", "quantifier": "every input, every random generator, the three observables (exact arithmetic)", "why_tests_cant": "all random outcomes", "anchors": ["kinisi/diffusion.py:Bootstrap.sample_until_normal", "kinisi/diffusion.py:MSDBootstrap.__init__", "kinisi/diffusion.py:MSTDBootstrap.__init__", "kinisi/diffusion.py:MSCDBootstrap.__init__"]}
{"id": "C85", "title": "Distribution, flat chain and posterior predictive belong to the same samples", "statement": "After a successful fit with intercept by bootstrap_GLS, diffusion, jump_diffusion or conductivity: row k, column s of distribution is g_s dt_k + c_s, where (g_s, c_s) is row s of the flat chain; row s of the analyzer's flatchain is (D_s, c_s), (D_J s, c_s) or (sigma_s, c_s), with the quantity computed from g_s; block i of posterior_predictive consists of draws from the normal distribution with mean g dt + c over the fitted intervals, (g, c) one posterior sample, and the covariance matrix of that fit.", "quantifier": "every object, fit arguments, library behaviour, sample index", "why_tests_cant": "a mismatch of gradient and intercept samples, or of intervals, gives plausible numbers", "anchors": ["kinisi/analyzer.py:Analyzer.distribution", "kinisi/diffusion_analyzer.py:DiffusionAnalyzer.flatchain", "kinisi/jump_diffusion_analyzer.py:JumpDiffusionAnalyzer.flatchain", "kinisi/conductivity_analyzer.py:ConductivityAnalyzer.flatchain", "kinisi/diffusion.py:Bootstrap.posterior_predictive"]}
{"id": "C86", "title": "The volume is that of the simulation cell", "statement": "The volume an analyzer reports and uses for the conductivity is the cell volume of the simulation: for trajectories whose frames all have one volume it is that volume, and trajectories with different volumes are refused or averaged, not silently given the volume of one frame.", "quantifier": "every input format, dtype, sub_sample_traj (also negative), number of trajectories", "why_tests_cant": "needs trajectories with changing cells or pools of different cells in all formats", "anchors": ["kinisi/parser.py:ASEParser.__init__", "kinisi/parser.py:PymatgenParser.__init__", "kinisi/parser.py:MDAnalysisParser.get_structure_coords_latt", "kinisi/analyzer.py:Analyzer._from_ase", "kinisi/analyzer.py:Analyzer._from_pymatgen"]}
{"id": "C87", "title": "Data on a line", "statement": "If the fitted part of the curve lies exactly on a line of non-negative gradient, this line has the highest likelihood for every covariance matrix, it is the only such line if the matrix is positive definite and two intervals differ, and the walkers of the sampler start from exactly this line (each coordinate changed by 1e-3 of itself times a normal deviate), wherever the linear regression put the starting point of the maximisation.", "quantifier": "every line, covariance matrix, number of points, fit arguments; optimisers that return a maximum", "why_tests_cant": "all covariance matrices", "anchors": ["kinisi/diffusion.py:Bootstrap.bootstrap_GLS"]}
{"id": "C88", "title": "Units of length and time", "statement": "Expressing the curve in other units (values times ell, variances times ell^2, intervals and start_dt times tau) leaves the outcome of the fit, success or exception, the same and multiplies the gradient samples and D by ell/tau, the intercept samples by ell, the covariance matrix by ell^2: the clipping of eigenvalues, the model of the variances, the likelihood and the acceptance of proposals do not depend on the units, given library routines that do not.", "quantifier": "every positive ell, tau, every data, every fit argument", "why_tests_cant": "unit dependence of a threshold shows up only for extreme values", "anchors": ["kinisi/diffusion.py:Bootstrap.bootstrap_GLS", "kinisi/diffusion.py:Bootstrap.generate_covariance_matrix", "kinisi/diffusion.py:minimum_eigenvalue_method", "kinisi/diffusion.py:_populate_covariance_matrix"]}
{"id": "C89", "title": "The fitted gradient is the most precise one, and its spread is its error", "statement": "If the inverse of the covariance matrix of the data is used as weight, the gradient of highest likelihood (when positive) is a fixed linear combination of the data, right on average for data scattered about any line, with a smaller variance than every other linear combination that is right for all lines; and for each gradient the highest likelihood over the intercepts is that of a normal distribution about this value with exactly this variance, so that the sampled spread of D is the true standard error. The same holds without intercept among lines through the origin.", "quantifier": "every number of intervals, symmetric positive definite covariance matrix, data, competing estimator", "why_tests_cant": "optimality is a statement about all estimators and all covariance matrices", "anchors": ["kinisi/diffusion.py:Bootstrap.bootstrap_GLS"]}
{"id": "C90", "title": "The fit starts where start_dt says", "statement": "If start_dt is the time of m frames, the fit starts at the first interval of at least m frames. The reported times are frames times time_step times step_skip up to two roundings; an entry of dt passed as start_dt starts the fit at that entry.", "quantifier": "every time step, step_skip, list of intervals, m; every rounding function, binary64 for the counterexample", "why_tests_cant": "depends on the binary expansion of the time step: 0.1 behaves, 0.001 with step_skip 50 does not", "anchors": ["kinisi/parser.py:Parser.get_disps", "kinisi/diffusion.py:Bootstrap.bootstrap_GLS"]}
{"id": "C91", "title": "Unwrapping in floating point arithmetic picks the right images", "statement": "With rounding after every operation and an inexact inverse of the cell, get_disp subtracts the same whole cells as in exact arithmetic unless a step is within a margin of the order of the rounding error of half a cell, and the displacements differ from the true ones by an error that grows only linearly with the number of frames.", "quantifier": "every rounding with small relative error, cell, path, image choice, number of frames; changing cells for a single step", "why_tests_cant": "a wrong image is an error of a whole cell; no test can exclude it for all coordinates", "anchors": ["kinisi/parser.py:Parser.get_disp"]}
{"id": "C92", "title": "The non-Gaussian parameter vanishes for Gaussian motion", "statement": "If the displacements of an interval have the moments of independent normal variables along the chosen axes, the reported non-Gaussian parameter is zero.", "quantifier": "every number of atoms and observations, variance, dimension string", "why_tests_cant": "the tests use xyz only; the prefactor 3/5 is right for three axes only", "anchors": ["kinisi/diffusion.py:Bootstrap.ngp_calculation", "kinisi/diffusion.py:MSDBootstrap.__init__"]}
{"id": "C93", "title": "The reported MSD of a random walk is right on average", "statement": "If the steps of the atoms relative to the framework are uncorrelated with mean square v along each of d axes, the expected value of the MSD reported for an interval of tau frames is d v tau.", "quantifier": "every probability space, path, cell, image choice, selection, number of frames, interval; ASE, pymatgen and MDAnalysis", "why_tests_cant": "an expectation over all trajectories; one trajectory cannot show a bias", "anchors": ["kinisi/parser.py:Parser.get_disps", "kinisi/parser.py:ASEParser.get_structure_coords_latt", "kinisi/diffusion.py:MSDBootstrap.__init__"]}
{"id": "C94", "title": "The covariance matrix is that of a random walk", "statement": "If the atoms make independent steps of mean zero, the covariance matrix built from the true variances of the mean squared displacements and from n_o is their true covariance matrix.", "quantifier": "every probability space, distribution of the steps, number of atoms, frames and axes, list of intervals", "why_tests_cant": "an identity of covariances over all distributions of steps", "anchors": ["kinisi/diffusion.py:_populate_covariance_matrix"]}
{"id": "C95", "title": "The variance model is that of normal steps", "statement": "If the steps also have the fourth moments of a normal distribution of variance s2, the model a / n_o * dt**2 with a = 2 d s2**2 / delta**2 is exactly the variance of the mean squared displacement over independent windows, and the matrix built from it is the true covariance matrix.", "quantifier": "every probability space, number of atoms, frames and axes, list of intervals that divide the number of steps (for the matrix, each other)", "why_tests_cant": "holds for all walks and all intervals or for none", "anchors": ["kinisi/diffusion.py:_model_variance", "kinisi/diffusion.py:Bootstrap.bootstrap_GLS"]}
{"id": "C96", "title": "Self and collective motion agree for uncorrelated atoms", "statement": "If the steps of different atoms are uncorrelated (and those of the same atom in time), the reported MSTD is on average the number of atoms times the MSD reported for the same interval, and the MSCD the sum of the squared charges times the MSD.", "quantifier": "every probability space, path, cell, image choice, selection, number of atoms and frames, charges; ASE, pymatgen and MDAnalysis", "why_tests_cant": "an expectation over all trajectories; for one trajectory the two curves differ", "anchors": ["kinisi/diffusion.py:MSTDBootstrap.__init__", "kinisi/diffusion.py:MSCDBootstrap.__init__", "kinisi/parser.py:Parser.get_disps"]}
{"id": "C97", "title": "More frames give the right MSD", "statement": "For atoms that make independent steps with mean zero, equal mean square and bounded fourth moment, the reported MSD of a fixed interval converges (in mean square and in probability) to the true mean squared displacement as the number of frames grows, with an explicit bound on the mean squared error that falls as one over atoms times windows.", "quantifier": "every probability space, walk, cell, image choice, selection, interval and accuracy; ASE, pymatgen and MDAnalysis", "why_tests_cant": "a limit over trajectory lengths of an expectation over all trajectories", "anchors": ["kinisi/parser.py:Parser.get_disps", "kinisi/diffusion.py:MSDBootstrap.__init__"]}
{"id": "C98", "title": "Displacement distributions and NGP of a trajectory", "statement": "For atoms that move by less than half a cell per frame, dr[k] of each of the three analyzers holds the true length (along the chosen axes, relative to the framework) of the displacement of every chosen atom over every window of dt[k], atom by atom, ngp[k] is the non-Gaussian parameter of exactly these, both lists are aligned with dt, and the mean square of dr[k] is the reported MSD.", "quantifier": "every trajectory, cell, image choice, selection, dimension and number of frames; ASE, pymatgen and MDAnalysis; diffusion, jump diffusion and conductivity", "why_tests_cant": "composition of parser, unwrapping, drift correction, windows and loop with skips, for all trajectories", "anchors": ["kinisi/diffusion.py:Bootstrap.euclidian_displacements", "kinisi/diffusion.py:Bootstrap.ngp_calculation", "kinisi/analyzer.py:Analyzer.dr", "kinisi/parser.py:Parser.get_disps"]}
{"id": "C99", "title": "Reproducibility with random_state", "statement": "If the same RandomState is passed to every construction and fit, the results depend on it and on the data alone: not on numpy's global generator, nor on other use made of it; numpy's global generator is left as it was, and posterior_predictive is reproducible as well.", "quantifier": "every sequence of constructions, fits, predictions and other uses of numpy's generator, every generator", "why_tests_cant": "all interleavings with other users of a global generator", "anchors": ["kinisi/diffusion.py:Bootstrap.bootstrap_GLS", "kinisi/diffusion.py:Bootstrap.sample_until_normal", "kinisi/diffusion.py:_bootstrap", "kinisi/diffusion.py:Bootstrap.posterior_predictive"]}
{"id": "C100", "title": "The documented properties can be read", "statement": "Every documented property of Bootstrap, and every property of the analyzers, can be read at any time in the life of an object, also before a fit and after calls that raised.", "quantifier": "every history of calls, complete or raising at any assignment", "why_tests_cant": "histories of any length, failing anywhere; Python resolves attributes at run time", "anchors": ["kinisi/diffusion.py:Bootstrap.__init__", "kinisi/diffusion.py:Bootstrap.n_i", "kinisi/diffusion.py:Bootstrap.from_dict"]}
{"id": "C101", "title": "Cells that change: the curves are those of the true path", "statement": "For a trajectory at constant pressure, whose cell changes from frame to frame, stored wrapped in any of the three formats: if each atom truly moves by less than half the cell per frame, the reported MSD, MSTD and MSCD are the averages along the true Cartesian paths, relative to the framework. Atoms that rest while the cell breathes give an MSD no larger than the squared change of their stored Cartesian position.", "quantifier": "every sequence of non-singular cells, every path with bounded steps, every choice of periodic images, all three formats", "why_tests_cant": "all trajectories and cells; tests use a fixed cell", "anchors": ["kinisi/parser.py:Parser.get_disp", "kinisi/parser.py:ASEParser.get_structure_coords_latt", "kinisi/parser.py:PymatgenParser.get_structure_coords_latt", "kinisi/parser.py:MDAnalysisParser.get_structure_coords_latt", "kinisi/diffusion.py:MSDBootstrap"]}
{"id": "C102", "title": "Molecules: the curves are those of the centres of mass", "statement": "For molecules named by their atoms, in a fixed cell, stored wrapped in any of the three formats: if in each frame the atoms of a molecule lie within less than half a cell of each other, and no centre and no framework atom moves by half a cell per frame, the reported MSD, MSTD and MSCD are those of the true centres of mass (centres of geometry without masses), relative to the mean of the framework atoms.", "quantifier": "every number and size of molecules, all masses, every path, every choice of periodic images per atom and frame, all three formats", "why_tests_cant": "real-valued trigonometry and all images; tests compare a few frames", "anchors": ["kinisi/parser.py:_get_molecules", "kinisi/parser.py:Parser.get_disp", "kinisi/diffusion.py:MSDBootstrap", "kinisi/diffusion.py:MSTDBootstrap", "kinisi/diffusion.py:MSCDBootstrap"]}
{"id": "C103", "title": "Chosen interval bounds are honoured end to end", "statement": "With min_dt, max_dt, n_steps and spacing given by the user, the analysed intervals lie between min_dt and max_dt (rounded down to whole steps, both ends included), and at each reported time the reported MSD, MSTD or MSCD is the average along the true path over windows of exactly that length.", "quantifier": "all bounds, all numbers of intervals, both spacings, every trajectory (also with a cell that changes), all three formats", "why_tests_cant": "all combinations of bounds, rounding to whole steps and trajectories; tests use the defaults", "anchors": ["kinisi/parser.py:Parser.__init__", "kinisi/parser.py:Parser.get_time_intervals", "kinisi/parser.py:Parser.get_disps", "kinisi/diffusion.py:MSDBootstrap", "kinisi/diffusion.py:MSTDBootstrap", "kinisi/diffusion.py:MSCDBootstrap"]}
{"id": "C104", "title": "The mean squared displacements in floating point arithmetic", "statement": "Computed in floating point arithmetic, from the stored coordinates through unwrapping, drift correction, windows, squares and means, with the additions in any order, the MSD, MSTD and MSCD differ from those of the true path by an explicit bound that is proportional to the machine precision; the computed MSD is never negative and is zero exactly if the displacements along the chosen axes are zero.", "quantifier": "every rounding with relative error eps, every order of summation, every trajectory in a fixed cell whose steps stay a small margin below half a cell, all images, frameworks, axes, charges and intervals", "why_tests_cant": "rounding and the order of summation depend on platform and shape; tests compare single numbers with a tolerance", "anchors": ["kinisi/parser.py:Parser.get_disp", "kinisi/parser.py:Parser.correct_drift", "kinisi/parser.py:Parser.get_disps", "kinisi/diffusion.py:MSDBootstrap", "kinisi/diffusion.py:MSTDBootstrap", "kinisi/diffusion.py:MSCDBootstrap"]}
{"id": "C105", "title": "The times in floating point arithmetic", "statement": "In floating point arithmetic delta_t is interval x step_skip x sub_sample_traj x time_step (over 1000 for pymatgen input) up to a relative error of two, five or three roundings, and it stays positive and strictly increasing for every number of frames up to about 1/(10 eps).", "quantifier": "every rounding with relative error eps, every time_step and step_skip (integers or floats), every trajectory, sub_sample_traj and interval", "why_tests_cant": "a time step such as 0.1 is no binary number; tests compare a few times with a tolerance", "anchors": ["kinisi/parser.py:Parser.get_disps", "kinisi/parser.py:PymatgenParser.__init__", "kinisi/parser.py:ASEParser.__init__", "kinisi/parser.py:MDAnalysisParser.__init__"]}
{"id": "C106", "title": "A file is only accepted by the class that wrote it", "statement": "A file saved by one analyzer class can only be loaded by the same class: the base class and the three analyzers raise on each other's files, and an MSTD or MSCD is never reported as an MSD.", "quantifier": "every pair of classes, every analyzer after any history of fits, every file system", "why_tests_cant": "quantifies over all saved states and all pairs of classes", "anchors": ["kinisi/analyzer.py:Analyzer.load", "kinisi/analyzer.py:Analyzer.from_dict", "kinisi/diffusion_analyzer.py:DiffusionAnalyzer.from_dict", "kinisi/jump_diffusion_analyzer.py:JumpDiffusionAnalyzer.from_dict", "kinisi/conductivity_analyzer.py:ConductivityAnalyzer.from_dict"]}
{"id": "C107", "title": "The reported variance is right on average when n_o counts the observations", "statement": "If the squared displacements of a time interval are pairwise uncorrelated with a common mean and variance v, the reported MSD has that mean and the variance v/(number of squared displacements), and the reported variance is v/n_o on average. The report is right on average exactly if n_o is that number. The same holds for the MSTD and the MSCD with one value per observation and n_o divided by the number of atoms.", "quantifier": "every probability space, every random displacement arrays of fixed shape, every interval, dimension and n_o", "why_tests_cant": "the claim is about expectations over all realisations", "anchors": ["kinisi/diffusion.py:MSDBootstrap.__init__", "kinisi/diffusion.py:MSTDBootstrap.__init__", "kinisi/diffusion.py:MSCDBootstrap.__init__"]}
{"id": "C108", "title": "Resampled and analytic variance agree on average", "statement": "With uniform, pairwise independent picks and a fixed number of resamples, the average of the resampled means is the mean of the sample, and their unbiased variance is on average (1 - 1/N) n_o/floor(n_o) times the analytic variance var(sample, ddof=1)/n_o, with N the size of the sample.", "quantifier": "every sample of at least two values, every n_o of at least one, every number of resamples of at least two, every generator with uniform pairwise independent picks", "why_tests_cant": "the claim is about expectations over all random draws", "anchors": ["kinisi/diffusion.py:Bootstrap.sample_until_normal", "kinisi/diffusion.py:_bootstrap"]}
{"id": "C109", "title": "A max_dt below min_dt is an error", "statement": "A parser given a max_dt of fewer whole frames than its min_dt is not constructed: an error is raised.", "quantifier": "every min_dt and max_dt, trajectory, selection, spacing and number of steps", "why_tests_cant": "whether an inverted range slips through depends on spacing, number of atoms and frames", "anchors": ["kinisi/parser.py:Parser.__init__", "kinisi/parser.py:Parser.get_time_intervals", "kinisi/parser.py:Parser.get_disps"]}
{"id": "C110", "title": "Single-origin analysis reports the displacement from the first frame over each time", "statement": "With sampling='single-origin', for any of the three formats and cells that may change, the MSD reported for a time of t frames is the mean over the chosen atoms of the squared true displacement from the first frame to frame t. Its variance is that of a mean of one observation per atom, and MSTD and MSCD have a value for each of the first half of the intervals.", "quantifier": "every trajectory with steps below half a cell, every sequence of cells, selection, number of steps, dimension, all three formats", "why_tests_cant": "the shift by one frame is invisible for slow motion and for ballistic motion it changes every value", "anchors": ["kinisi/parser.py:Parser.get_disps", "kinisi/parser.py:ASEParser.get_structure_coords_latt", "kinisi/diffusion.py:MSDBootstrap.__init__", "kinisi/diffusion.py:MSTDBootstrap.__init__"]}
{"id": "C111", "title": "The order in which identical-start trajectories are listed does not matter", "statement": "With dtype='identical', listing the trajectories in another order is accepted equally and gives the same times, sample counts, volume, and the same MSD, MSTD and (one charge for all atoms) MSCD curves, with the same MSD variances.", "quantifier": "every list of trajectories, every permutation of it, every input format, dimension and sub-sampling", "why_tests_cant": "tests use one order, and mostly copies of one trajectory", "anchors": ["kinisi/analyzer.py:Analyzer._from_pymatgen", "kinisi/analyzer.py:Analyzer._from_ase", "kinisi/analyzer.py:Analyzer._from_universe", "kinisi/analyzer.py:Analyzer._stack_trajectories", "kinisi/diffusion.py:MSDBootstrap.__init__"]}
{"id": "C112", "title": "D, D_J and sigma always come from their latest successful fit", "statement": "After any sequence of fits, of which any may have raised at any point and been caught, D, D_J and sigma are each exactly what the latest successful call of their kind gives on the untouched object; without such a call they are None. Before the first fit no fit result is available: the results are None and distribution, flatchain and posterior_predictive raise. Whether a call succeeds does not depend on the calls before it.", "quantifier": "every object, every sequence of calls with any parameters and points of failure", "why_tests_cant": "needs arbitrary interleavings of failing and successful calls", "anchors": ["kinisi/diffusion.py:Bootstrap.__init__", "kinisi/diffusion.py:Bootstrap.diffusion", "kinisi/diffusion.py:Bootstrap.jump_diffusion", "kinisi/diffusion.py:Bootstrap.conductivity", "kinisi/diffusion.py:Bootstrap.posterior_predictive", "kinisi/analyzer.py:Analyzer.distribution"]}
{"id": "C113", "title": "An unwrapped step is the shortest periodic image", "statement": "Of all periodic images of the raw step between two frames the unwrapping takes the shortest one.", "quantifier": "every non-singular cell (per frame), every fractional coordinate", "why_tests_cant": "needs all images of all steps in all cells; tests use cubic boxes", "anchors": ["kinisi/parser.py:Parser.get_disp"]}
{"id": "C114", "title": "The results depend on the motion, not on the cell vectors and images that describe it", "statement": "The same Cartesian motion stored with other lattice vectors or other periodic images gives the same results: every attribute of the three analyzers, the random numbers used, and the exception if there is one.", "quantifier": "every motion, every pair of cells (also changing with time) and images that describe it, every option, every format, every sub-sampling of frames", "why_tests_cant": "needs pairs of descriptions of all motions; a test has one trajectory in one box", "anchors": ["kinisi/parser.py:Parser.get_disp", "kinisi/parser.py:ASEParser.__init__", "kinisi/parser.py:PymatgenParser.__init__", "kinisi/parser.py:MDAnalysisParser.__init__", "kinisi/diffusion.py:MSDBootstrap.__init__"]}
{"id": "C115", "title": "Atoms that are neither analysed nor framework do not matter", "statement": "Two trajectories in which the analysed atoms and the framework atoms are at the same places give the same results, whatever the other atoms do: every attribute of the three analyzers, the random numbers used, and the exception if there is one.", "quantifier": "every pair of such trajectories, every cell (changing with time, also singular), every option, three formats, every sub-sampling of frames, single atoms and molecules", "why_tests_cant": "needs pairs of trajectories that differ arbitrarily in the other atoms", "anchors": ["kinisi/parser.py:_get_framework", "kinisi/parser.py:_get_molecules", "kinisi/parser.py:Parser.get_disp", "kinisi/parser.py:Parser.correct_drift", "kinisi/diffusion.py:MSDBootstrap.__init__"]}
{"id": "C116", "title": "The reported variances and the non-Gaussian parameter survive rounding", "statement": "In floating point arithmetic the reported variance is close to the exact one even if the spread is small compared to the values, it is never negative (so the standard deviation is never nan) and zero only if all observations agree; the non-Gaussian parameter is a number whenever something moved and is close to the exact one.", "quantifier": "every list of values, every order of additions, every rounding function with a bounded relative error, every trajectory within the limits of C104", "why_tests_cant": "cancellation depends on the data; tests compare a few numbers with a tolerance", "anchors": ["kinisi/diffusion.py:MSDBootstrap.__init__", "kinisi/diffusion.py:MSTDBootstrap.__init__", "kinisi/diffusion.py:MSCDBootstrap.__init__", "kinisi/diffusion.py:Bootstrap.ngp_calculation"]}
{"id": "C117", "title": "The file format does not matter", "statement": "The same simulation given as ASE atoms, pymatgen structures, an Xdatcar object, an Xdatcar file or an MDAnalysis universe gives the same results, if the times are given in the documented unit (femtoseconds for the three readers based on pymatgen, else picoseconds).", "quantifier": "every motion, every pair of formats, every cell and images used to describe it, every option of parser and bootstrap, every sub-sampling of the frames", "why_tests_cant": "each format has its own tests with its own reference numbers", "anchors": ["kinisi/parser.py:ASEParser.__init__", "kinisi/parser.py:PymatgenParser.__init__", "kinisi/parser.py:MDAnalysisParser.__init__", "kinisi/analyzer.py:Analyzer._from_pymatgen", "kinisi/analyzer.py:Analyzer._from_ase", "kinisi/analyzer.py:Analyzer._from_Xdatcar", "kinisi/analyzer.py:Analyzer._from_file", "kinisi/analyzer.py:Analyzer._from_universe"]}
{"id": "C118", "title": "Self and collective motion of one trajectory fit together", "statement": "For the same displacements, the MSTD is N times the MSD plus the correlations between different atoms, never more than N² times the MSD, with equality exactly when all atoms move alike (so a single atom has the same MSD and MSTD); the MSCD is never more than N times the sum of the squared charges times the MSD. The three curves have the same time intervals, MSTD and MSCD the first half of them.", "quantifier": "all displacements with at least two observations per interval, all dimension strings, all charges, every sub-sampling", "why_tests_cant": "the three analyses are tested apart, each against its own numbers", "anchors": ["kinisi/diffusion.py:MSDBootstrap.__init__", "kinisi/diffusion.py:MSTDBootstrap.__init__", "kinisi/diffusion.py:MSCDBootstrap.__init__"]}
{"id": "C119", "title": "Repeating the simulation cell changes nothing but the number of observations", "statement": "If a simulation cell is repeated R times, every copy moving in the same way (in any images, in any larger cell), the times, the MSD and the non-Gaussian parameter are the same, the number of independent observations is R times as large, the variance follows v' (R M - 1) = v (M - 1) with M displacements, and the MSTD and MSCD, to which all copies contribute in phase, are R² times as large.", "quantifier": "all trajectories, cells (also changing ones), displacements of the copies, images, species, R, sub-samplings and formats", "why_tests_cant": "needs two trajectories that differ by a construction with a free R; tests have one system size", "anchors": ["kinisi/parser.py:Parser.get_disps", "kinisi/parser.py:Parser.correct_drift", "kinisi/diffusion.py:MSDBootstrap.__init__", "kinisi/diffusion.py:MSTDBootstrap.__init__", "kinisi/diffusion.py:MSCDBootstrap.__init__"]}
{"id": "C120", "title": "Standard deviations and covariance matrix in floating point arithmetic", "statement": "With rounding after every operation the covariance matrix is exactly symmetric, has exactly the reported variances on its diagonal, its other entries have the relative error of two operations, and it is positive when variances and numbers of observations are; the square of each reported standard deviation is its variance up to the relative error of one rounding.", "quantifier": "every rounding with a relative error, all variances that are floating point numbers, all numbers of observations, all sizes", "why_tests_cant": "tests compare a few entries with a tolerance", "anchors": ["kinisi/diffusion.py:_populate_covariance_matrix", "kinisi/diffusion.py:MSDBootstrap.__init__"]}
{"id": "C121", "title": "Rounding keeps the covariance matrix positive semi-definite", "statement": "When the covariance matrix of the formula is positive semi-definite, so is the one that is computed in floating point arithmetic.", "quantifier": "all variances and numbers of observations", "why_tests_cant": "the loss is one unit in the last place and shows only for matrices that are nearly singular, which those of long trajectories are", "anchors": ["kinisi/diffusion.py:_populate_covariance_matrix"]}
{"id": "C122", "title": "The MSD of several species is the weighted mean of their MSDs", "statement": "When one trajectory is analysed for species A, for species B and for both with the same explicit framework atoms, the times are the same, the MSD of both is at every time the mean of the two MSDs weighted with the numbers of atoms, and the numbers of independent observations add up.", "quantifier": "all trajectories of one file in all five formats, all frame and atom sub-samplings, both samplings, all interval settings, all species lists without common species, at least two atoms each", "why_tests_cant": "tests analyse one species at a time and never relate selections of one trajectory", "anchors": ["kinisi/parser.py:ASEParser.get_indices", "kinisi/parser.py:Parser.get_disps", "kinisi/diffusion.py:MSDBootstrap.__init__"]}
{"id": "C123", "title": "Units and sign of the charges", "statement": "Multiplying all charges by c multiplies the MSCD and its standard deviations by c^2, its variances by c^4 and the conductivity by c^2 and changes nothing else; the sign convention (c = -1) has no influence on anything, including the resampled distributions and the state of the random generator; a scalar charge, an array of equal charges and an array with this one entry give the same object.", "quantifier": "every displacement list, charge, option, random generator, success and exceptions", "why_tests_cant": "tests use charges of one only", "anchors": ["kinisi/diffusion.py:MSCDBootstrap.__init__", "kinisi/diffusion.py:Bootstrap.conductivity"]}
{"id": "C124", "title": "Units of length and time, from displacements to results", "statement": "Expressing displacements and time intervals (and start_dt, volume) in other units gives the same outcome and the same object in the new units: curve, standard deviations, variances, resampled values and displacement distributions are converted, n_o and the non-Gaussian parameter stay, and D, D_J and sigma are converted accordingly.", "quantifier": "every displacement list, positive factors of length and time, all options, the three observables and results", "why_tests_cant": "tests use one unit system only", "anchors": ["kinisi/diffusion.py:MSDBootstrap.__init__", "kinisi/diffusion.py:MSTDBootstrap.__init__", "kinisi/diffusion.py:MSCDBootstrap.__init__", "kinisi/diffusion.py:Bootstrap.diffusion"]}
{"id": "C125", "title": "The choice of the intervals does not change the values", "statement": "MSD, MSTD, MSCD, their variances, the non-Gaussian parameter and the distances reported for a time depend on the trajectory and this time only, not on which other intervals are looked at (min_dt, max_dt, n_steps, spacing, sub_sample_dt).", "quantifier": "every trajectory in each of the five formats, every selection of two or more atoms, every two choices of the intervals", "why_tests_cant": "tests look at one grid at a time", "anchors": ["kinisi/parser.py:Parser.get_disps", "kinisi/parser.py:Parser.get_time_intervals", "kinisi/diffusion.py:MSDBootstrap.__init__"]}
{"id": "C126", "title": "A constant offset of the curve does not change D", "statement": "Adding a constant to all values of the observable (localisation noise, vibrations about the sites, a short ballistic part before start_dt) changes the fitted intercept by this constant and nothing else: covariance matrix, weights and the gradient of highest likelihood, hence D, stay the same. With fit_intercept=False the constant goes into the gradient, by the gradient of the ray fitted to it.", "quantifier": "every curve with at least two fitted times, every offset, every positive definite matrix of weights", "why_tests_cant": "a test of one curve cannot tell an absorbed offset from a small one", "anchors": ["kinisi/diffusion.py:Bootstrap.bootstrap_GLS", "kinisi/diffusion.py:_straight_line"]}
{"id": "C127", "title": "D of a random walk is right on average", "statement": "For ions that make uncorrelated steps, the expected value of the fitted gradient over many simulations is the gradient of the true mean squared displacement, so that D averages to the true diffusion coefficient.", "quantifier": "every random motion with uncorrelated steps of less than half a cell, every number of atoms and frames, with and without intercept, every positive definite matrix of weights", "why_tests_cant": "an expected value over all simulations cannot be measured by a test", "anchors": ["kinisi/parser.py:Parser.get_disps", "kinisi/diffusion.py:MSDBootstrap.__init__", "kinisi/diffusion.py:Bootstrap.bootstrap_GLS"]}
{"id": "C128", "title": "Diffusion coefficients that follow an Arrhenius law give back this law", "statement": "If the diffusion coefficients follow an Arrhenius (super-Arrhenius) law exactly, then activation energy, prefactor (and T0) of this law are the best parameters within the default bounds and the only ones, from two (three) different temperatures on; in another unit of D only the prefactor changes.", "quantifier": "every law with positive prefactor, every list of temperatures and errors", "why_tests_cant": "whether other parameters describe the data as well concerns all parameters at once", "anchors": ["kinisi/arrhenius.py:StandardArrhenius.__init__", "kinisi/arrhenius.py:SuperArrhenius.__init__", "kinisi/arrhenius.py:arrhenius", "kinisi/arrhenius.py:super_arrhenius"]}
{"id": "C129", "title": "Arguments that are left out take the documented values", "statement": "A fit or an estimate in which keyword arguments are left out gives the result of the call with the values that the docstrings state.", "quantifier": "all observations, library routines and random draws", "why_tests_cant": "that two calls agree for all data, and which variances a default fit ever uses, is no statement about one call; the tests compare no default with the documentation", "anchors": ["kinisi/diffusion.py:Bootstrap.bootstrap_GLS", "kinisi/diffusion.py:MSDBootstrap.__init__", "kinisi/diffusion.py:MSTDBootstrap.__init__", "kinisi/diffusion.py:MSCDBootstrap.__init__", "kinisi/diffusion.py:Bootstrap.sample_until_normal"]}
{"id": "C130", "title": "Valid fits run without an exception", "statement": "After an estimate with increasing positive time intervals, positive numbers of observations and displacements that are not all of the same length, diffusion(), jump_diffusion() and conductivity() with a start_dt that leaves at least two intervals, enough walkers and at least one kept sample return without an exception, whatever the data.", "quantifier": "all displacements, charges, temperatures and volumes, arguments and library routines that do their own work without an exception", "why_tests_cant": "a test shows that one fit runs; that no branch, index, division, factorisation or shape of the arrays can fail for any data is a statement about all of them", "anchors": ["kinisi/diffusion.py:Bootstrap.bootstrap_GLS", "kinisi/diffusion.py:Bootstrap.diffusion", "kinisi/diffusion.py:Bootstrap.jump_diffusion", "kinisi/diffusion.py:Bootstrap.conductivity", "kinisi/diffusion.py:Bootstrap.generate_covariance_matrix", "kinisi/analyzer.py:DiffusionAnalyzer.diffusion"]}
{"id": "C131", "title": "From a trajectory to a transport coefficient without an exception", "statement": "For a trajectory of at least two frames in a fixed cell, with steps of less than half a cell, at least one chosen atom and, for each interval, true displacements that are not all equally long, the analyzers are built and every valid fit (two intervals from start_dt on, twice as many walkers as parameters, at least one kept sample) returns a diffusion coefficient, jump-diffusion coefficient or conductivity, in all three input formats and for all periodic images.", "quantifier": "all motions, images, selections, charges, temperatures and fit arguments", "why_tests_cant": "the whole chain from the file to the coefficient has many places that raise; a test exercises a few trajectories", "anchors": ["kinisi/parser.py:Parser.__init__", "kinisi/diffusion.py:MSDBootstrap.__init__", "kinisi/diffusion.py:Bootstrap.bootstrap_GLS", "kinisi/diffusion.py:Bootstrap.diffusion", "kinisi/diffusion.py:Bootstrap.jump_diffusion", "kinisi/diffusion.py:Bootstrap.conductivity", "kinisi/analyzer.py:DiffusionAnalyzer.diffusion"]}
{"id": "C132", "title": "Conductivity and jump diffusion of ions of one kind obey the Nernst-Einstein relation", "statement": "For N ions that all carry the charge q, analysed in three dimensions with the same options and random numbers, the conductivity samples are those of the jump-diffusion coefficient times 1000 (N/V) (q e)^2 / (k_B T): for q = 1 the object of MSCDBootstrap is the object of MSTDBootstrap, and charges and units enter only as this factor.", "quantifier": "all displacements, charges q other than zero, options, temperatures, volumes and fits that run", "why_tests_cant": "the relation is between two analyses; a test of either one, or of one factor of the unit conversion, does not see it", "anchors": ["kinisi/diffusion.py:MSTDBootstrap.__init__", "kinisi/diffusion.py:MSCDBootstrap.__init__", "kinisi/diffusion.py:Bootstrap.jump_diffusion", "kinisi/diffusion.py:Bootstrap.conductivity"]}
{"id": "C133", "title": "Linear time intervals are evenly spaced and distinct in floating point arithmetic", "statement": "With linear spacing, the interval at position i between a and b frames is a + i (b - a)/(n - 1) rounded down to a whole frame, although numpy computes it in floating point; the intervals are strictly increasing whenever n frames fit between the bounds.", "quantifier": "all rounding functions that are monotone, exact on small integers and of bounded relative error; all bounds, time steps and numbers of intervals with 8 b n below the reciprocal of the relative error (2^53 for binary64)", "why_tests_cant": "the rounding errors appear for particular pairs of length and count only; a test with a few grids does not meet them", "anchors": ["kinisi/parser.py:Parser.get_time_intervals", "kinisi/parser.py:Parser.__init__"]}
{"id": "C134", "title": "Which intervals determine the diffusion coefficient", "statement": "The fit weighs the intervals by the covariance matrix, which for all starting points makes the changes of n_o times the MSD from interval to interval independent. As n_o times the interval is constant, a fit without intercept gives the MSD of the first fitted interval divided by this interval, with the uncertainty of this one value, whatever the later intervals are; with intercept, the later intervals determine the intercept and the gradient is that of the line from there to the first fitted value.", "quantifier": "all data, variances, numbers of observations and starting points; all samplers and optimisers that return maxima; all trajectories, formats and grids, for MSD, MSTD and MSCD (with sub-sampled frames: two or more atoms)", "why_tests_cant": "tests compare the fit of one data set with a stored number; that the result ignores all but one value shows only when the algebra of the inverse covariance matrix is done for all data", "anchors": ["kinisi/diffusion.py:Bootstrap.bootstrap_GLS", "kinisi/diffusion.py:_populate_covariance_matrix", "kinisi/diffusion.py:Bootstrap.generate_covariance_matrix", "kinisi/parser.py:Parser.get_disps"]}
{"id": "C135", "title": "A later start or fewer intervals never makes the gradient more precise", "statement": "Fitting the same measured curve from a later start_dt, or with some of the intervals left out, never gives a narrower likelihood of the gradient; without an intercept and with all starting points the variance is that of the first fitted value over the square of its time, so a later start gives a strictly wider one.", "quantifier": "all data, all variances and numbers of observations with a positive definite covariance matrix, all selections of intervals in order, all pairs of start_dt, with and without intercept", "why_tests_cant": "the width of a sampled posterior fluctuates, and for a single data set a comparison of two widths says nothing about all others", "anchors": ["kinisi/diffusion.py:Bootstrap.bootstrap_GLS", "kinisi/diffusion.py:_populate_covariance_matrix"]}
{"id": "C136", "title": "The diffusion coefficient in space is the mean of those along the axes", "statement": "For the same displacements, analysed along disjoint sets of axes and along their union (for example xy, z and xyz), the gradient fitted for the union is the sum of the gradients fitted for the parts, so D in space is the average of D along the axes. The same for the total displacement and the collective diffusion coefficient.", "quantifier": "all displacement arrays, all numbers of observations, all pairs of disjoint axis sets, all starting intervals; fits without intercept", "why_tests_cant": "a test compares sampled values on chosen data and cannot tell an exact identity from one that holds up to noise, nor find the data for which it fails", "anchors": ["kinisi/diffusion.py:MSDBootstrap.__init__", "kinisi/diffusion.py:MSTDBootstrap.__init__", "kinisi/diffusion.py:Bootstrap.bootstrap_GLS", "kinisi/diffusion.py:_populate_covariance_matrix"]}
{"id": "C137", "title": "What the motion allows: speed limit, uniform motion, caged atoms", "statement": "The MSD reported for an interval of t frames is never more than the square of t times half the cell (twice that relative to a framework), whatever the file holds. Atoms that move with constant velocities give the mean squared relative velocity times t squared (but for the additional observation over t-1 frames). Atoms that never leave a region give an MSD no larger than the square of its size, and a fit without intercept gives a gradient no larger than that divided by the first fitted time.", "quantifier": "all stored coordinates, all sequences of non-singular cells, all velocities, all bounded paths, all three formats, all axes, with and without framework, all starts of the fit", "why_tests_cant": "the bounds hold for every trajectory of any length, also for those that are not physical; tests run a few", "anchors": ["kinisi/parser.py:Parser.get_disp", "kinisi/diffusion.py:MSDBootstrap.__init__", "kinisi/diffusion.py:Bootstrap.bootstrap_GLS"]}
{"id": "C138", "title": "What a collective curve can show: neutral ions, matched motion, bound charges", "statement": "If the charges of the ions add up to zero, the MSCD is that of their own true paths, whichever atoms form the framework and however it moves. The first value of an MSTD or MSCD curve is zero exactly when the (charge-)weighted sum of the positions relative to the framework never changes, and then the whole curve is zero: ions that move in neutral pairs conduct nothing. If this sum never leaves a region, the curve never exceeds the square of its size, and a fit without intercept gives a gradient no larger than that divided by the first fitted time.", "quantifier": "all true paths in all sequences of cells, all charges, all selections of atoms and framework, all three formats, all axes (MSTD), all starts of the fit", "why_tests_cant": "the values are equal or zero for every trajectory of any length; tests run a few", "anchors": ["kinisi/parser.py:Parser.correct_drift", "kinisi/diffusion.py:MSTDBootstrap.__init__", "kinisi/diffusion.py:MSCDBootstrap.__init__", "kinisi/diffusion.py:Bootstrap.bootstrap_GLS"]}
{"id": "C139", "title": "The precision of the stored coordinates", "statement": "If a trajectory is stored with coordinates that are each off by at most a distance of eta (such as rounded to a few decimals, also across the edge of the cell), the root mean squared displacements differ from those of the precise trajectory by at most 4 eta (2 eta without a framework), at every time interval, however many frames lie between; the roots of MSTD and MSCD by at most that times the number of atoms or the sum of the absolute charges. The errors of the steps do not accumulate.", "quantifier": "all paths of any length whose steps keep twice the error from half the cell, all errors within the bound, all cells, all three formats, all selections, axes and charges", "why_tests_cant": "the bound holds for every number of frames and for the worst combination of roundings; tests see one file at a time", "anchors": ["kinisi/parser.py:Parser.get_disp", "kinisi/parser.py:Parser.correct_drift", "kinisi/diffusion.py:MSDBootstrap.__init__", "kinisi/diffusion.py:MSTDBootstrap.__init__", "kinisi/diffusion.py:MSCDBootstrap.__init__"]}
{"id": "C140", "title": "More frames give the right gradient", "statement": "For atoms that make independent steps with mean zero, equal mean square and bounded fourth moment, the probability that the line fitted without intercept to the MSD (with the weights from the covariance matrix that the code builds from whatever positive variances, so also those measured on or modelled from the same trajectory) has a gradient off by any given amount tends to zero as the number of frames grows, with an explicit bound: however the weights come out, the diffusion coefficient converges to the true one. The same for the default fit with intercept, when the bounds of the intervals are fixed by the user, also in cells that change.", "quantifier": "every probability space, walk of any number of atoms, cell, image choice, selection, start of the fit and accuracy; ASE, pymatgen and MDAnalysis", "why_tests_cant": "a limit over numbers of frames, and the weights are random and depend on the values they weight; simulations only sample it", "anchors": ["kinisi/parser.py:Parser.get_disp", "kinisi/diffusion.py:MSDBootstrap.__init__", "kinisi/diffusion.py:Bootstrap.bootstrap_GLS", "kinisi/diffusion.py:Bootstrap.generate_covariance_matrix", "kinisi/diffusion.py:_populate_covariance_matrix"]}
{"id": "C141", "title": "Small errors of the curve make small errors of the fitted gradient", "statement": "In the default fit with intercept, if every fitted value is within R of some line with a gradient that is not negative, the fitted gradient is within (1+q)R/t0 of that gradient, where t0 is the first fitted time and q bounds (t+t')/|t'-t| for neighbouring times; the bound does not depend on the variances, however unequal the weights are, so no noise in the variances can spoil a good curve.", "quantifier": "every reader of one trajectory with any number of atoms (with sub-sampled frames: two or more), MSD, MSTD and MSCD, every grid of intervals, start of the fit, positive variances with increasing v n^2", "why_tests_cant": "the weights are the inverse of a matrix that is nearly singular for real data; a bound for all variances is not visible in any finite set of fits", "anchors": ["kinisi/diffusion.py:Bootstrap.bootstrap_GLS", "kinisi/diffusion.py:Bootstrap.generate_covariance_matrix", "kinisi/diffusion.py:_populate_covariance_matrix", "kinisi/diffusion.py:MSDBootstrap.__init__", "kinisi/diffusion.py:MSTDBootstrap.__init__", "kinisi/diffusion.py:MSCDBootstrap.__init__"]}
{"id": "C142", "title": "Wrong arguments raise, with one kind of exception each", "statement": "Naming no atoms is a TypeError (neither specie nor specie_indices) or an IndexError (an empty list, molecules without atoms); molecules of different lengths and masses that do not match them are a ValueError; sub_sample_traj=0 is a ValueError and an empty trajectory or list of trajectories an IndexError; sub_sample_dt=0, a logarithmic grid that ends below one step, less than one independent sample for a bootstrap, thin=0 in a fit that otherwise runs, ngp_max without intervals and several predictions for one fitted interval are a ValueError; posterior_predictive before a fit is a TypeError or an AttributeError; Arrhenius bounds without a third entry and samples with too few parameters are an IndexError, a tuple with an open upper bound for T0 is a TypeError; saving a numpy integer is a ValueError and loading without displacement distributions a TypeError. None of them yields a result.", "quantifier": "every trajectory, lattice, selection, grid, random generator, chain and dictionary; all three analyzers", "why_tests_cant": "tests try one wrong argument with one trajectory; that no combination with the other arguments gets through, or fails in another way first, needs the quantifier", "anchors": ["kinisi/parser.py:_get_molecules", "kinisi/parser.py:MDAnalysisParser.get_indices", "kinisi/parser.py:Parser.__init__", "kinisi/analyzer.py:Analyzer._from_ase", "kinisi/analyzer.py:Analyzer._from_pymatgen", "kinisi/analyzer.py:Analyzer._from_universe", "kinisi/diffusion.py:Bootstrap.bootstrap_GLS", "kinisi/diffusion.py:Bootstrap.posterior_predictive", "kinisi/diffusion.py:Bootstrap.ngp_max", "kinisi/arrhenius.py:SuperArrhenius.__init__", "kinisi/analyzer.py:_dict_to_group"]}
{"id": "C143", "title": "Work can be continued after a dictionary round trip", "statement": "Without sub_sample_dt, an object that has been made into a dictionary and back in the middle of a session behaves exactly like the one that was never saved: every later fit has the same outcome (result or exception), D, D_J, sigma, gradient, intercept, flatchain and covariance stay equal, and so do distribution, ngp_max and the posterior predictive samples for equal random numbers.", "quantifier": "every MSD and MSTD object and every analyzer, every history of fits before and every list of calls after, failed ones included, all fit arguments and library outcomes", "why_tests_cant": "the restored object differs from the saved one in attributes that are not written; that no sequence of later calls can bring the difference to light is a statement about all sequences", "anchors": ["kinisi/diffusion.py:Bootstrap.from_dict", "kinisi/diffusion.py:Bootstrap.to_dict", "kinisi/diffusion.py:Bootstrap.bootstrap_GLS", "kinisi/diffusion.py:Bootstrap.generate_covariance_matrix", "kinisi/analyzer.py:Analyzer.from_dict", "kinisi/diffusion.py:Bootstrap.posterior_predictive"]}
{"id": "C144", "title": "More frames give the right MSTD and MSCD", "statement": "If the total displacement of the mobile atoms (with charges for the conductivity) makes independent steps over time, then with more and more frames the MSTD and MSCD reported for a fixed interval of tau frames tend to d v tau and 3 v tau, where v is the mean square of one total step; a bound for the mean squared error is explicit. The atoms may be correlated with each other in any way within a step. A fit without intercept, and the default fit with an intercept to intervals chosen by the user, tend to the gradient d v / delta or 3 v / delta.", "quantifier": "all distributions of the steps with a fourth moment, all correlations between atoms at one time, all numbers of frames with 4 tau <= F, all intervals tau, all charges, all readers", "why_tests_cant": "a statement about probabilities of random trajectories of every length; a test draws a few", "anchors": ["kinisi/diffusion.py:MSTDBootstrap", "kinisi/diffusion.py:MSCDBootstrap", "kinisi/analyzer.py:JumpDiffusionAnalyzer", "kinisi/analyzer.py:ConductivityAnalyzer", "kinisi/parser.py:Parser.get_disps"]}
{"id": "C145", "title": "Pooling averages the diffusion coefficients", "statement": "When trajectories with identical starting points are pooled, the fitted gradient and so D is the mean of those of the single trajectories; in particular pooling a trajectory with a copy of itself changes nothing. When two species are analysed together with the same framework atoms, the fitted gradient is the mean of the two gradients weighted with the numbers of atoms.", "quantifier": "all numbers of trajectories, all formats, all species lists without common species, all starting intervals; fits without intercept", "why_tests_cant": "an identity between fits of several data sets; a test compares sampled values up to noise, and on well-behaved data the deviation that the default fit shows is small", "anchors": ["kinisi/analyzer.py:Analyzer._from_ase", "kinisi/analyzer.py:Analyzer._stack_trajectories", "kinisi/diffusion.py:MSDBootstrap.__init__", "kinisi/diffusion.py:Bootstrap.bootstrap_GLS"]}
{"id": "C146", "title": "With the random walk model the fit is linear in the curve", "statement": "With model=True the best gradient and intercept depend only on the times and values of the curve, not on the measured variances, the numbers of atoms or the fitted coefficient. They are linear in the curve: the lines of disjoint sets of axes add up to the line of all axes, the line of a pool of trajectories is the mean of the lines of the trajectories, and the line of two species is the mean weighted with the numbers of atoms.", "quantifier": "all curves and combinations with non-negative coefficients, all starting intervals with at least two intervals fitted, all positive coefficients found by curve_fit, numbers of observations inversely proportional to the times, positive gradients of the parts", "why_tests_cant": "an exact identity between fits of different data sets with different covariance matrices; sampled estimates agree only up to noise, and the same statement is false with model=False (C136, C145)", "anchors": ["kinisi/diffusion.py:Bootstrap.generate_covariance_matrix", "kinisi/diffusion.py:_populate_covariance_matrix", "kinisi/diffusion.py:Bootstrap.bootstrap_GLS", "kinisi/diffusion.py:MSDBootstrap.__init__", "kinisi/diffusion.py:MSTDBootstrap.__init__", "kinisi/analyzer.py:Analyzer._stack_trajectories"]}
{"id": "C147", "title": "The fitted line passes through the first point of the fit, and lines through neighbouring points give its intercept", "statement": "If the best gradient is positive, the line of highest likelihood passes exactly through the first point at or after start_dt. Its intercept is a mean, with positive weights, of the intercepts of the lines through neighbouring points, so it lies between the lowest and the highest of these. With model=True the weights are the squared changes of 1/t per length of the interval; for evenly spaced times the first interval alone has more than 9/11 of the weight when the fit starts at the first interval, so the diffusion coefficient is nearly that of the first two points, and errors of the curve enter it at most by a known factor.", "quantifier": "all curves whose numbers of observations are inversely proportional to the times, all starting intervals with at least two intervals fitted, all measured variances with ascending variance times squared observations, and all positive coefficients of the random walk model", "why_tests_cant": "an exact identity for generalised least squares with this family of covariance matrices; a numerical test sees sampled gradients, never the maximum itself, and only for one curve", "anchors": ["kinisi/diffusion.py:_populate_covariance_matrix", "kinisi/diffusion.py:Bootstrap.generate_covariance_matrix", "kinisi/diffusion.py:Bootstrap.bootstrap_GLS", "kinisi/diffusion.py:Bootstrap.diffusion"]}
{"id": "C148", "title": "The precision of the stored coordinates changes the fitted coefficient little", "statement": "Coordinates that are stored with an error of up to eta change the gradient fitted with model=True by at most (1/t + 2Q/u) 4 eta (2 rho + 4 eta), where t is the first fitted time, u the time between frames, rho the root of the mean squared displacement at t, and Q is 7/2 when no interval is more than twice the one before. The bound does not depend on the length of the trajectory or on the errors of long intervals. The same holds for the jump diffusion coefficient and the conductivity, with the errors of C139.", "quantifier": "all paths whose steps keep twice the error from half the cell, all errors within the bound, all cells, formats, selections, axes and charges, all starting intervals with at least two intervals fitted, root mean squared displacements that grow no faster than the time", "why_tests_cant": "a bound over all perturbations of the input and all lengths; tests compare single files", "anchors": ["kinisi/parser.py:Parser.get_disp", "kinisi/parser.py:Parser.get_disps", "kinisi/diffusion.py:_populate_covariance_matrix", "kinisi/diffusion.py:Bootstrap.bootstrap_GLS", "kinisi/diffusion.py:MSDBootstrap.__init__", "kinisi/diffusion.py:MSTDBootstrap.__init__", "kinisi/diffusion.py:MSCDBootstrap.__init__"]}
{"id": "C149", "title": "The sampler starts from the fitted line and samples its likelihood", "statement": "bootstrap_GLS with an intercept starts its walkers from the line of highest likelihood for the points from start_dt on, weighted by the inverse of the covariance matrix that the random walk model (model=True) or the measured variances (model=False) give, and the stored chain is that of this likelihood. For one trajectory and model=True the starting gradient is max(0, (y0 - c)/t0), where c is the mean of the intercepts of the lines through neighbouring points with the weights of C147; with measured variances the starting line passes through the first fitted point if it rises.", "quantifier": "all optimisers that return maxima, all inverses, random numbers, proposals and thresholds, all start_dt, numbers of walkers, steps, burn-in and thinning, all curves, all trajectories in the three formats", "why_tests_cant": "tests run the sampler with random numbers and compare shapes or loose ranges; the starting line is never returned", "anchors": ["kinisi/diffusion.py:Bootstrap.bootstrap_GLS", "kinisi/diffusion.py:Bootstrap.generate_covariance_matrix", "kinisi/diffusion.py:_populate_covariance_matrix", "kinisi/diffusion.py:_model_variance"]}
{"id": "C150", "title": "Rounding in the mean squared displacements changes the fitted coefficient little", "statement": "If the mean squared displacements are computed in floating point arithmetic, with the additions in any order, the gradient of the fit with the random walk model changes by at most ((1+eps)^d - 1) Y (1/t + 2Q/delta). Here d counts the operations that one square passes through (for pairwise summation it grows with the logarithm of the number of displacements), t is the first fitted interval, the curve grows no faster than the interval from Y at t, delta is the distance of neighbouring intervals and Q is 7/2 when no interval is more than twice the one before. If unwrapping, drift correction and windows are rounded as well and the errors of C104 are at most R, the gradient changes by at most R (1/t + Q/delta).", "quantifier": "all roundings with relative error eps, all orders of the additions, all curves with a relative error, all trajectories in the three formats (means) and all paths that stay clear of half a cell per step (whole computation)", "why_tests_cant": "tests compare coefficients with loose tolerances on one platform; summation orders differ between platforms and numpy versions", "anchors": ["kinisi/diffusion.py:MSDBootstrap.__init__", "kinisi/diffusion.py:Bootstrap.bootstrap_GLS", "kinisi/parser.py:Parser.get_disps", "kinisi/parser.py:Parser.get_displacements"]}
{"id": "C151", "title": "Fitting every k-th interval is fitting these intervals", "statement": "An analysis with sub_sample_dt=k is fitted (model=True) like the intervals 0, k, 2k, ... of the full analysis with their own numbers of observations: the weights are those of these intervals, data on a line give this line, and without an intercept the coefficient is the first fitted value divided by its time (C134).", "quantifier": "all trajectories in the three formats, MSD, MSTD and MSCD, all k, all starting points, with and without intercept; for what holds: evenly spaced intervals", "why_tests_cant": "tests with sub_sample_dt check the number of intervals only", "anchors": ["kinisi/diffusion.py:Bootstrap.__init__", "kinisi/diffusion.py:MSDBootstrap.__init__", "kinisi/diffusion.py:Bootstrap.generate_covariance_matrix", "kinisi/diffusion.py:Bootstrap.bootstrap_GLS"]}
{"id": "C152", "title": "Conditioning does not change the matrix of the random walk model", "statement": "A fit with model=True and the default cond_max of a trajectory of fewer than ten thousand frames inverts the covariance matrix of the random walk model as computed: the eigenvalues are within a factor of N^2 (N+1)^2, N being the longest interval in frames, those of the correlation matrix are at least 1/(N (N+1)), so that neither minimum_eigenvalue_method nor cov_nearest changes an entry, whatever the order in which numpy returns the eigenvalues.", "quantifier": "all trajectories in the three formats, MSD, MSTD and MSCD, default intervals, all starting points, all fitted coefficients, all orders of the eigenvalues", "why_tests_cant": "tests cover a few small matrices; a bound for all interval grids of up to ten thousand steps, independent of coefficient, units and starting point, cannot be tested", "anchors": ["kinisi/diffusion.py:Bootstrap.generate_covariance_matrix", "kinisi/diffusion.py:minimum_eigenvalue_method", "kinisi/diffusion.py:Bootstrap.populate_covariance_matrix", "kinisi/diffusion.py:Bootstrap.bootstrap_GLS"]}
{"id": "C153", "title": "The mean of separate fits is never below the fit of the pool", "statement": "Trajectories with identical starting points, fitted with model=True and an intercept, once pooled and once each by itself: the gradient of the pool is at most the mean of the separate gradients. It is equal to it, as is the intercept, if all separate gradients are positive. A trajectory with a falling curve gets the gradient 0, which makes the mean of the separate fits too high but not the fit of the pool. The same holds for two species analysed together and separately. A pool satisfies what the other claims on fits with the random walk model assume.", "quantifier": "all pools of trajectories in the three formats with equally many analysed intervals, all starting points of the fit, all signs of the trend, all pairs of species; existence of a pool with a strict inequality", "why_tests_cant": "an inequality over all sets of trajectories; a test on trajectories that diffuse well only sees equality", "anchors": ["kinisi/analyzer.py:Analyzer._from_ase", "kinisi/analyzer.py:Analyzer._from_universe", "kinisi/diffusion.py:Bootstrap.bootstrap_GLS", "kinisi/diffusion.py:MSDBootstrap"]}
{"id": "C154", "title": "The sampling of a coefficient starts from a value given by the true paths", "statement": "A trajectory of fewer than 10000 frames, in cells that may change, whose atoms follow the true paths x (relative to the framework), read with the default intervals; a fit with model=True and cond_max of at least 1e16. The samples of the self-diffusion coefficient, of the jump-diffusion coefficient and of the conductivity are the gradients of one Markov chain times the conversion to cm2/s or mS/cm (for the jump-diffusion coefficient per atom, for the conductivity with the volume of the first frame). The walkers start within their thousandths of a line of highest likelihood. Its gradient is an explicit function of the mean squared displacements of the true paths at the intervals from start_dt on: first value over first time without intercept; with intercept the line from the weighted mean of the intercepts of the chords to the first point, and 0 if that falls. No measured variance, no eigenvalue and no regression enters.", "quantifier": "all trajectories, cells, unit systems, selections, dimensions, numbers of steps and starting times; all three frame formats; with and without intercept; all libraries that meet their specification and all random numbers", "why_tests_cant": "links the positions of the atoms to the reported coefficient for all trajectories; the tests compare single stages with their own recorded output", "anchors": ["kinisi/parser.py:Parser.__init__", "kinisi/diffusion.py:MSDBootstrap.__init__", "kinisi/diffusion.py:MSTDBootstrap.__init__", "kinisi/diffusion.py:MSCDBootstrap.__init__", "kinisi/diffusion.py:Bootstrap.bootstrap_GLS", "kinisi/diffusion.py:Bootstrap.diffusion", "kinisi/diffusion.py:Bootstrap.jump_diffusion", "kinisi/diffusion.py:Bootstrap.conductivity"]}
{"id": "C155", "title": "The longest intervals decide on the size of the error bar of a model fit", "statement": "With model=True the covariance matrix has one free coefficient, which scales every uncertainty of the fit. It is fitted to the variances of all intervals by least squares without weights. It is the mean of the coefficients that the intervals would give by themselves (variance times number of observations over squared time), weighted with the sixth power of the time. In a trajectory whose n intervals are all analysed, those before the (q+1)-th have together at most the share ((q+1)/n)^7: less than 1 % for the first half of 100 intervals, less than a half for the first 89. A change of their variances changes the coefficient by no more than this share of the change. The coefficient is positive exactly if one of the fitted variances is. The intervals with the most observations hardly count.", "quantifier": "all trajectories with at most n_steps frames in the three formats, all three observables, all numbers of intervals, all variances and all starting points of the fit; for the coefficient all data with numbers of observations inversely proportional to the times", "why_tests_cant": "a bound for all numbers of intervals and all variances; the tests check neither the coefficient nor how it depends on the variances", "anchors": ["kinisi/diffusion.py:Bootstrap.generate_covariance_matrix", "kinisi/diffusion.py:Bootstrap.bootstrap_GLS"]}
{"id": "C156", "title": "Fitting an intercept more than doubles the error bar of a model fit", "statement": "With model=True (and the default cond_max) the gradient that is sampled has a normal distribution, cut off at zero. Without an intercept its mean is the first fitted value over its time and its variance is the fitted coefficient over the number of observations of the first fitted interval: no further interval narrows it. With an intercept the variance is larger by the factor 1 + 1/(t0^3 S), S the sum of (t(k+1) - t(k))/(t(k)^2 t(k+1)^2) over successive fitted times. This factor is more than 4 whatever the times. It is 5 for two intervals, and between 31/7 and 5 for any number of intervals when all from the first one on are fitted. The standard deviation of the diffusion coefficient is therefore always more than twice as large with the intercept that is fitted by default.", "quantifier": "all trajectories of fewer than ten thousand frames in the three formats, all three observables, all start_dt that leave two intervals; for the distribution all data with numbers of observations inversely proportional to the times", "why_tests_cant": "an inequality for all trajectories and all numbers of intervals about a distribution that is only sampled; the tests compare no two fits", "anchors": ["kinisi/diffusion.py:Bootstrap.bootstrap_GLS", "kinisi/diffusion.py:Bootstrap.generate_covariance_matrix"]}
{"id": "C157", "title": "The error bar of the reported MSD of a random walk is right within a factor up to a third of the trajectory", "statement": "The atoms make independent steps with the moments of a normal distribution. For an interval of up to a third of the frames the MSD is averaged over all windows, which overlap, and its variance is estimated as if there were N F / tau independent ones. The true variance of the reported MSD is between 2/3 of the variance for that many independent windows and all of it; the reported variance is on average no less than the true one times 1 - 2 / (tau W) - 1 / (3 N), and no more than 3/2 of it times N W / (N W - 1) (1 + 1 / (2 W)), with N atoms and W windows. For a single atom and the longest reported interval, half of the frames, it is on average at most 3/5 of the true one.", "quantifier": "all numbers of atoms and frames, all cells, three formats, all axes, all intervals of at most a third of the frames, all distributions of steps with mean zero and the second and fourth moment of a normal distribution", "why_tests_cant": "the average over all random walks of a reported error against the spread of the reported value; a test sees single walks", "anchors": ["kinisi/diffusion.py:MSDBootstrap.__init__", "kinisi/parser.py:Parser.get_disps"]}
{"id": "C158", "title": "The error bar of the diffusion coefficient of a random walk is right within a factor", "statement": "Two or more atoms make independent steps with the moments of a normal distribution. The analysis with all intervals is fitted without an intercept with the random walk model from an interval of at most a third of the frames on. The coefficient fitted to the variances is on average between (1 - 1/N) (1 - 7/(3F)) and N/(N-1) (1 + 1/(2F)) of that of the walk, for N atoms and F frames, although the longest intervals, which have the fewest windows, decide on it. The variance of the sampled gradients is on average no less than the true variance of the gradient times the first factor, and no more than 3/2 of it times the second.", "quantifier": "all numbers of atoms (two or more) and frames, all cells, three formats, all axes, all first fitted intervals of at most a third of the frames, all routines for curve_fit that minimise, all distributions of steps with mean zero and the second and fourth moment of a normal distribution", "why_tests_cant": "the average over all random walks of a reported error against the spread of the reported value; a test sees single walks", "anchors": ["kinisi/diffusion.py:Bootstrap.bootstrap_GLS", "kinisi/diffusion.py:MSDBootstrap.__init__"]}
{"id": "C159", "title": "The error bars of the total displacements do not profit from more atoms, and are too small for the longest intervals", "statement": "The total displacement of the atoms, with or without charges, makes independent steps with the moments of a normal distribution; within a step the atoms may move together in any way. For an interval of tau of F frames, at most a quarter of them (a third with two or more atoms), the variance of the reported MSTD and MSCD lies between 2/3 and 1 times that of F/tau independent windows, for every number of atoms. The reported variance is on average at least 1 - 2/(tau W) - tau/F of the true one and at most 3/2 of it, up to a factor that tends to 1 with the number W of windows. Atoms with independent normal steps meet the hypothesis, with the variance of a step times the sum of the squared charges. With two or more atoms the intervals go up to half of the frames, and there the reported variance is on average at most 3/5 of the true one, for every number of atoms: with the MSD this happens only for a single atom (C157).", "quantifier": "all numbers of atoms and frames, all correlations between the atoms within a step, all charges, all cells, three formats, all axes, all intervals up to a third (a quarter) of the frames and the longest one, all distributions of steps with mean zero and the second and fourth moment of a normal distribution", "why_tests_cant": "the average over all random walks of a reported variance against the true variance of the reported value; a test sees single walks", "anchors": ["kinisi/diffusion.py:MSTDBootstrap.__init__", "kinisi/diffusion.py:MSCDBootstrap.__init__"]}
{"id": "C160", "title": "The error bars of the jump diffusion coefficient and of the conductivity of a random walk are on average too small", "statement": "The total displacement of two or more atoms, with or without charges, makes independent steps with the moments of a normal distribution; within a step the atoms may move together in any way. F frames are analysed with all intervals and fitted with the random walk model from an interval r on of at most a third of the frames. The coefficient that is fitted to the variances is on average between 1/2 and 19/32 + 4/F of that of the walk (times the number of atoms, as the code counts). The gradient that the fit without an intercept reports has almost the mean of the walk, but the variance that is sampled for it is on average between 1/2 and 57/64 + 6/F of the true variance of the gradient: from 55 frames on it is too small, however many atoms there are. For the diffusion coefficient it is at least the true one, up to factors that tend to 1 (C158).", "quantifier": "all numbers of two or more atoms, all numbers of frames, all correlations between the atoms within a step, all charges, all cells, three formats, all axes, all start intervals of up to a third of the frames, all distributions of steps with mean zero and the second and fourth moment of a normal distribution", "why_tests_cant": "the average over all random walks of the sampled variance against the true variance of the result; a test sees single walks", "anchors": ["kinisi/diffusion.py:Bootstrap.bootstrap_GLS", "kinisi/diffusion.py:MSTDBootstrap.__init__", "kinisi/diffusion.py:MSCDBootstrap.__init__"]}
{"id": "C161", "title": "The error bar of the diffusion coefficient of pooled random walks", "statement": "Trajectories of two or more atoms each, every one with its own cell, are pooled with dtype='identical'. All their atoms, relative to the framework of their trajectory, make independent steps with the moments of a normal distribution. The fit of the pooled MSD with the random walk model from an interval r on of at most a third of the F frames then is as good as that of one trajectory with all these atoms (C158): with M atoms altogether, the coefficient is on average that of the walk up to the factors (1 - 1/M)(1 - 7/(3F)) and M/(M - 1) (1 + 1/(2F)), the gradient has the mean of the walk up to 1 - 1/((r + 1)(F - r)), and the variance that is sampled for it is on average between the true variance of the gradient and 3/2 of it, up to the same factors.", "quantifier": "all numbers of trajectories, all numbers of two or more atoms, all numbers of frames, all cells (also different ones), three formats, all axes, all start intervals of up to a third of the frames, all distributions of steps with mean zero and the second and fourth moment of a normal distribution", "why_tests_cant": "the average over all random walks of the sampled variance against the true variance of the result; a test sees single walks", "anchors": ["kinisi/analyzer.py:Analyzer._from_ase", "kinisi/analyzer.py:Analyzer._stack_trajectories", "kinisi/diffusion.py:Bootstrap.bootstrap_GLS"]}
{"id": "C162", "title": "Pooling independent trajectories does not sharpen the jump diffusion coefficient and multiplies the conductivity", "statement": "k independent trajectories of the same kind are pooled with dtype='identical'. Within a trajectory the atoms may move together in any way; the total displacements of the trajectories, relative to their frameworks, make independent steps with the moments of a normal distribution. (a) The MSTD of the pool per atom, as the jump diffusion coefficient takes it, has the mean of the MSTD per atom of one trajectory, and exactly the same variance, whatever k is: more trajectories do not give a more precise jump diffusion coefficient. The mean of the MSTDs of k separate analyses has a variance that is k times smaller. (b) The MSCD of the pool, with one charge or with an array of charges given once per trajectory, is on average k times that of a single trajectory, while its volume is that of the first trajectory alone: the MSCD over the volume, and with it the conductivity, is on average k times too large. (c) What users would expect, the same mean and 1/k of the variance, is true of the MSD (independent atoms), and false for both of the others.", "quantifier": "all numbers of trajectories, all numbers of two or more atoms, all numbers of frames, all intervals of up to half of the frames, all cells (also different ones), three formats, all charges (one number or one per ion), all distributions of steps with mean zero and the second and fourth moment of a normal distribution", "why_tests_cant": "means and variances over all random walks, of the pool and of separate analyses; a test sees single walks", "anchors": ["kinisi/analyzer.py:Analyzer._stack_trajectories", "kinisi/diffusion.py:MSTDBootstrap.__init__", "kinisi/diffusion.py:MSCDBootstrap.__init__", "kinisi/diffusion.py:Bootstrap.jump_diffusion", "kinisi/diffusion.py:Bootstrap.conductivity"]}
{"id": "C163", "title": "The error bars of the jump diffusion coefficient and the conductivity of pooled random walks are too small", "statement": "k trajectories as in C162 are pooled with dtype='identical', all intervals, and the MSTD or MSCD is fitted with the random walk model and without intercept from an interval r on of at most a third of the F frames. The gradient is on average k times that of the walk of one trajectory, up to the factor 1 - 1/((r + 1)(F - r)). The variance that is sampled for it is on average at least half of its true variance, at most 57/64 + 6/F of it, and strictly less for 55 frames and more: the error bar of the pool is too small by the same factors as that of a single trajectory (C160), whatever k is.", "quantifier": "all numbers of trajectories, all numbers of two or more atoms, all numbers of frames, all cells (also different ones), three formats, all charges, all start intervals of up to a third of the frames, all distributions of steps with mean zero and the second and fourth moment of a normal distribution, any correlation of the atoms within a trajectory", "why_tests_cant": "the average over all random walks of the sampled variance against the true variance of the result; a test sees single walks", "anchors": ["kinisi/analyzer.py:Analyzer._stack_trajectories", "kinisi/diffusion.py:MSTDBootstrap.__init__", "kinisi/diffusion.py:MSCDBootstrap.__init__", "kinisi/diffusion.py:Bootstrap.bootstrap_GLS"]}

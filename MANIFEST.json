{
 "claims": [
  {
   "property": "C01",
   "status": "proved",
   "theorems": [
    "Kinisi.C01_unwrap_recovers_path"
   ],
   "note": "Exact arithmetic over any ordered field with floor; any cell shape, any number of atoms and frames."
  },
  {
   "property": "C02",
   "status": "proved",
   "theorems": [
    "Kinisi.C02_steps_are_minimum_images",
    "Kinisi.C02_minimum_image_unique"
   ],
   "note": "Each step is the representative in [-1/2,1/2) of the new cell; uniqueness of that representative is a separate theorem."
  },
  {
   "property": "C03",
   "status": "partial",
   "theorems": [
    "Kinisi.C03_image_invariance_partial",
    "Kinisi.C03_violated_npt"
   ],
   "note": "False as stated for cells that change between frames (C03_violated_npt); proved whenever the cell does not change between a frame with a shifted image and the next frame (in particular for constant cells)."
  },
  {
   "property": "C04",
   "status": "proved",
   "theorems": [
    "Kinisi.C04_warning_exact"
   ],
   "note": "Warning flag is returned as a value."
  },
  {
   "property": "C05",
   "status": "proved",
   "theorems": [
    "Kinisi.C05_outcomes"
   ],
   "note": "Singular cell gives LinAlgError, otherwise the result has shape (atoms, frames-1, 3)."
  },
  {
   "property": "C06",
   "status": "proved",
   "theorems": [
    "Kinisi.C06_drift_correction",
    "Kinisi.C06_no_framework",
    "Kinisi.C06_bad_index"
   ],
   "note": "Drift correction, the empty framework and the out-of-range index."
  },
  {
   "property": "C07",
   "status": "proved",
   "theorems": [
    "Kinisi.C07_linear_intervals",
    "Kinisi.C07_linear_intervals_rounded",
    "Kinisi.C07_degenerate_counts"
   ],
   "note": "Exact values in exact arithmetic; count, end points, order and range for every rounding function with the stated properties (binary64 is an instance, rounding_fl64)."
  },
  {
   "property": "C08",
   "status": "partial",
   "theorems": [
    "Kinisi.C08_distinct_iff_partial",
    "Kinisi.C08_default_max_distinct_partial",
    "Kinisi.C08_violated"
   ],
   "note": "False as stated (C08_violated). Proved: exact criterion n <= b-a+1, and distinctness with the default max_dt and min_dt >= one frame."
  },
  {
   "property": "C09",
   "status": "partial",
   "theorems": [
    "Kinisi.C09_default_intervals",
    "Kinisi.C09_default_intervals_rounded_partial",
    "Kinisi.C09_violated_binary64"
   ],
   "note": "True in exact arithmetic; false in binary64 (C09_violated_binary64, 29 steps of 0.005); under any rounding the list ends at T, or ends at T-1 with a repeated interval."
  },
  {
   "property": "C10",
   "status": "proved",
   "theorems": [
    "Kinisi.C10_logarithmic_intervals",
    "Kinisi.C10_logarithmic_intervals_real",
    "Kinisi.C10_other_spacing"
   ],
   "note": "Generic interior points plus the real formula of numpy.geomspace; binary64 values of the interior points are not modelled."
  },
  {
   "property": "C11",
   "status": "proved",
   "theorems": [
    "Kinisi.C11_accepted_intervals_in_range",
    "Kinisi.C11_min_dt_too_large",
    "Kinisi.C11_max_dt_too_large"
   ],
   "note": "Exact arithmetic, any framework atoms, linear and logarithmic spacing; an interval beyond T is an IndexError (or the MemoryError raised before)."
  },
  {
   "property": "C12",
   "status": "proved",
   "theorems": [
    "Kinisi.C12_multi_origin_windows",
    "Kinisi.C12_nothing_skipped"
   ],
   "note": "Also: no interval with more than one independent window is skipped."
  },
  {
   "property": "C13",
   "status": "partial",
   "theorems": [
    "Kinisi.C13_ase_partial",
    "Kinisi.C13_pymatgen_partial",
    "Kinisi.C13_mda_partial",
    "Kinisi.C13_violated"
   ],
   "note": "False as stated (C13_violated): each interval has one extra first observation that spans one frame less, because the first frame is duplicated; the interval equal to the number of frames has only this observation. All other observations are proved to be exactly the windows, for the three parsers, after unwrapping and drift correction."
  },
  {
   "property": "C14",
   "status": "partial",
   "theorems": [
    "Kinisi.C14_single_origin_uses_list_position_partial",
    "Kinisi.C14_consecutive_intervals_partial",
    "Kinisi.C14_violated"
   ],
   "note": "False as stated (C14_violated): the loop counter is used instead of the interval. Proved: what is returned, and that it is right for the intervals 1,2,3,..."
  },
  {
   "property": "C15",
   "status": "proved",
   "theorems": [
    "Kinisi.C15_alignment"
   ],
   "note": "For ordered intervals skipped ones are a suffix of the list, so positions agree."
  },
  {
   "property": "C16",
   "status": "proved",
   "theorems": [
    "Kinisi.C16_independent_observations"
   ],
   "note": ""
  },
  {
   "property": "C17",
   "status": "proved",
   "theorems": [
    "Kinisi.C17_memory_limit"
   ],
   "note": ""
  },
  {
   "property": "C18",
   "status": "partial",
   "theorems": [
    "Kinisi.C18_pymatgen",
    "Kinisi.C18_mda",
    "Kinisi.C18_ase_partial",
    "Kinisi.C18_violated_ase"
   ],
   "note": "Holds for pymatgen and MDAnalysis in exact arithmetic; for ASE only with sub_sample_traj = 1 (C18_violated_ase)."
  },
  {
   "property": "C19",
   "status": "partial",
   "theorems": [
    "Kinisi.C19_ase_partial",
    "Kinisi.C19_mda_partial",
    "Kinisi.C19_violated_pymatgen"
   ],
   "note": "Holds for ASE and MDAnalysis in exact arithmetic; pymatgen raises whenever both time_step and step_skip are integers (C19_violated_pymatgen)."
  },
  {
   "property": "C20",
   "status": "proved",
   "theorems": [
    "Kinisi.C20_species_partition",
    "Kinisi.C20_explicit_framework"
   ],
   "note": "Same function body in the three parsers."
  },
  {
   "property": "C21",
   "status": "partial",
   "theorems": [
    "Kinisi.C21_species_no_drift_correction_partial",
    "Kinisi.C21_violated_flat",
    "Kinisi.C21_violated_molecules"
   ],
   "note": "Holds for specie; false for flat specie_indices (AttributeError) and for molecules (IndexError)."
  },
  {
   "property": "C22",
   "status": "partial",
   "theorems": [
    "Kinisi.C22_flat_selection_partial",
    "Kinisi.C22_violated_explicit"
   ],
   "note": "Holds without framework_indices; with framework_indices AttributeError (C22_violated_explicit) unless every atom is selected."
  },
  {
   "property": "C23",
   "status": "partial",
   "theorems": [
    "Kinisi.C23_violated",
    "Kinisi.C23_shifted_convention_partial"
   ],
   "note": "False (C23_violated): 0-based for specie, 1-based for molecules; the exact shift is proved."
  },
  {
   "property": "C24",
   "status": "proved",
   "theorems": [
    "Kinisi.C24_three_axes",
    "Kinisi.C24_centre_of_mass"
   ],
   "note": "Real arithmetic with cos, sin and atan2 of Mathlib."
  },
  {
   "property": "C25",
   "status": "proved",
   "theorems": [
    "Kinisi.C25_image_invariance",
    "Kinisi.C25_translation"
   ],
   "note": ""
  },
  {
   "property": "C26",
   "status": "proved",
   "theorems": [
    "Kinisi.C26_molecule_layout",
    "Kinisi.C26_errors"
   ],
   "note": ""
  },
  {
   "property": "C27",
   "status": "proved",
   "theorems": [
    "Kinisi.C27_dimension"
   ],
   "note": ""
  },
  {
   "property": "C28",
   "status": "proved",
   "theorems": [
    "Kinisi.C28_msd",
    "Kinisi.C28_nonneg",
    "Kinisi.C28_scaling",
    "Kinisi.C28_atom_order",
    "Kinisi.C28_additive"
   ],
   "note": "Value for every recorded interval, plus non-negativity, scaling, atom order and additivity over axes."
  },
  {
   "property": "C29",
   "status": "proved",
   "theorems": [
    "Kinisi.C29_additive",
    "Kinisi.C29_mstd"
   ],
   "note": "C29_mstd: the values. C29_additive: over disjoint sets of axes they add up (default thinning of intervals, no blocking)."
  },
  {
   "property": "C30",
   "status": "proved",
   "theorems": [
    "Kinisi.C30_mscd",
    "Kinisi.C30_scalar_charge",
    "Kinisi.C30_neutral",
    "Kinisi.C30_wrong_length"
   ],
   "note": "Scalar and array charges, neutrality, wrong length."
  },
  {
   "property": "C31",
   "status": "partial",
   "theorems": [
    "Kinisi.C31_mscd_ignores_dimension",
    "Kinisi.C31_planar_partial",
    "Kinisi.C31_violated"
   ],
   "note": "False (C31_violated): the MSCD always uses all three axes, whatever the dimension; this is proved as C31_mscd_ignores_dimension. C31_planar_partial: true when nothing moves along the axes left out."
  },
  {
   "property": "C32",
   "status": "proved",
   "theorems": [
    "Kinisi.C32_variance_mstd",
    "Kinisi.C32_variance_mscd",
    "Kinisi.C32_block",
    "Kinisi.C32_block_total",
    "Kinisi.C32_variance"
   ],
   "note": "All arrays of a finished run; a skipped interval before a recorded one is an error (C33), so positions agree. C32_block, C32_block_total: with block=True, relative to the values pyblock returns."
  },
  {
   "property": "C33",
   "status": "partial",
   "theorems": [
    "Kinisi.C33_skipped_partial",
    "Kinisi.C33_violated"
   ],
   "note": "False (C33_violated): a skipped interval before a recorded one is an IndexError. Proved: the analysis succeeds exactly when skipped intervals are at the end, and then all entries belong to each other (C28, C32)."
  },
  {
   "property": "C34",
   "status": "partial",
   "theorems": [
    "Kinisi.C34_sub_sample_partial",
    "Kinisi.C34_total_partial",
    "Kinisi.C34_violated"
   ],
   "note": "False (C34_violated): n_o is not sub-sampled. Proved for dt, msd and ngp, and for dt and the values of MSTD and MSCD (C34_total_partial)."
  },
  {
   "property": "C35",
   "status": "proved",
   "theorems": [
    "Kinisi.C35_ngp_value",
    "Kinisi.C35_ngp_bound",
    "Kinisi.C35_ngp_scale"
   ],
   "note": "Value, bound with the case of equality, scale invariance, nan exactly when all are zero."
  },
  {
   "property": "C36",
   "status": "partial",
   "theorems": [
    "Kinisi.C36_ngp_max_partial",
    "Kinisi.C36_violated"
   ],
   "note": "False with a nan entry (C36_violated); proved when no entry is nan."
  },
  {
   "property": "C37",
   "status": "proved",
   "theorems": [
    "Kinisi.C37_budget",
    "Kinisi.C37_needed"
   ],
   "note": "The model is a total function for every random outcome; budget and stopping reason."
  },
  {
   "property": "C38",
   "status": "partial",
   "theorems": [
    "Kinisi.C38_warning_partial",
    "Kinisi.C38_violated"
   ],
   "note": "False (C38_violated): the warning depends on the number of values only. Proved: it is never missing."
  },
  {
   "property": "C39",
   "status": "proved",
   "theorems": [
    "Kinisi.C39_bootstrap_means",
    "Kinisi.C39_bayesian_means"
   ],
   "note": "Bayesian weights: any sampler returning non-negative weights with sum one."
  },
  {
   "property": "C40",
   "status": "proved",
   "theorems": [
    "Kinisi.C40_covariance",
    "Kinisi.C40_short"
   ],
   "note": ""
  },
  {
   "property": "C41",
   "status": "proved",
   "theorems": [
    "Kinisi.C41_psd_iff"
   ],
   "note": ""
  },
  {
   "property": "C42",
   "status": "proved",
   "theorems": [
    "Kinisi.C42_model_psd"
   ],
   "note": "Exact arithmetic; any non-negative fitted coefficient."
  },
  {
   "property": "C43",
   "status": "partial",
   "theorems": [
    "Kinisi.C43_condition_partial",
    "Kinisi.C43_violated"
   ],
   "note": "False when numpy.linalg.eig does not return the largest eigenvalue first (C43_violated). Proved when it does, for orthonormal eigenvectors."
  },
  {
   "property": "C44",
   "status": "proved",
   "theorems": [
    "Kinisi.C44_fit_window",
    "Kinisi.C44_fit_points",
    "Kinisi.C44_no_interval"
   ],
   "note": "Ascending intervals."
  },
  {
   "property": "C45",
   "status": "proved",
   "theorems": [
    "Kinisi.C45_negative",
    "Kinisi.C45_maximum",
    "Kinisi.C45_maximum_normal",
    "Kinisi.C45_maximum_no_intercept"
   ],
   "note": "The weight matrix is whatever pinvh returns, symmetric positive semi-definite."
  },
  {
   "property": "C46",
   "status": "proved",
   "theorems": [
    "Kinisi.C46_gradient_nonneg",
    "Kinisi.C46_start_nonneg",
    "Kinisi.C46_derived_nonneg"
   ],
   "note": "The start is non-negative if scipy.optimize.minimize does not end at an infinite value and no normal deviate is below -1000 (C46_start_nonneg). Proposals and thresholds of emcee are arbitrary."
  },
  {
   "property": "C47",
   "status": "proved",
   "theorems": [
    "Kinisi.C47_sample_count",
    "Kinisi.C47_D_count"
   ],
   "note": "emcee get_chain modelled as the slice it takes."
  },
  {
   "property": "C48",
   "status": "proved",
   "theorems": [
    "Kinisi.C48_diffusion",
    "Kinisi.C48_conductivity",
    "Kinisi.C48_scaling",
    "Kinisi.C48_zero",
    "Kinisi.C48_denominators"
   ],
   "note": "Exact arithmetic, positive constants. C48_denominators: no reported value was divided by zero."
  },
  {
   "property": "C49",
   "status": "partial",
   "theorems": [
    "Kinisi.C49_violated",
    "Kinisi.C49_with_intercept_partial"
   ],
   "note": "False for every fit without intercept (C49_violated). Proved with intercept."
  },
  {
   "property": "C50",
   "status": "partial",
   "theorems": [
    "Kinisi.C50_failed_fit_partial",
    "Kinisi.C50_violated"
   ],
   "note": "False (C50_violated): start_dt, model, cond_max and the covariance are overwritten first. Proved: D, D_J, sigma are kept, and gradient, intercept and flatchain unless the new chain was stored."
  },
  {
   "property": "C51",
   "status": "proved",
   "theorems": [
    "Kinisi.C51_history",
    "Kinisi.C51_consistent",
    "Kinisi.C51_D",
    "Kinisi.C51_others"
   ],
   "note": "Each call with its own random numbers and arguments."
  },
  {
   "property": "C52",
   "status": "proved",
   "theorems": [
    "Kinisi.C52_posterior_predictive"
   ],
   "note": "At least one kept sample; scipy.stats.linregress assumed to reject (nan) a single point."
  },
  {
   "property": "C53",
   "status": "partial",
   "theorems": [
    "Kinisi.C53_pool",
    "Kinisi.C53_msd",
    "Kinisi.C53_rejects_partial",
    "Kinisi.C53_violated",
    "Kinisi.C53_content_partial"
   ],
   "note": "Pooling and the mean of the MSDs are proved for every input format; the rejection clause is false for a trajectory with a single mobile atom, which numpy repeats (C53_violated); proved up to that: C53_rejects_partial says exactly which lists of trajectories are pooled. C53_content_partial says what the pooled arrays hold in every case."
  },
  {
   "property": "C54",
   "status": "partial",
   "theorems": [
    "Kinisi.C54_msd_partial",
    "Kinisi.C54_mstd_violated",
    "Kinisi.C54_mscd_violated",
    "Kinisi.C54_violated"
   ],
   "note": "Holds for the MSD. False for MSTD and MSCD: k copies give k^2 times the value (C54_mstd_violated, C54_mscd_violated, for every trajectory)."
  },
  {
   "property": "C55",
   "status": "partial",
   "theorems": [
    "Kinisi.C55_violated_always",
    "Kinisi.C55_violated",
    "Kinisi.C55_scalar_partial"
   ],
   "note": "False: a charge array with one entry per ion always raises ValueError for pooled trajectories (C55_violated_always). Proved: scalar charges work."
  },
  {
   "property": "C56",
   "status": "proved",
   "theorems": [
    "Kinisi.C56_pymatgen",
    "Kinisi.C56_ase",
    "Kinisi.C56_xdatcar",
    "Kinisi.C56_file",
    "Kinisi.C56_cut"
   ],
   "note": "ASE, pymatgen, Xdatcar objects and files."
  },
  {
   "property": "C57",
   "status": "proved",
   "theorems": [
    "Kinisi.C57_unknown",
    "Kinisi.C57_universe",
    "Kinisi.C57_accepted"
   ],
   "note": "All five input formats."
  },
  {
   "property": "C58",
   "status": "partial",
   "theorems": [
    "Kinisi.C58_bootstrap",
    "Kinisi.C58_analyzer",
    "Kinisi.C58_msd_partial",
    "Kinisi.C58_mstd_partial",
    "Kinisi.C58_subsample_violated",
    "Kinisi.C58_mscd_violated",
    "Kinisi.C58_violated",
    "Kinisi.C58_distinct"
   ],
   "note": "False for sub_sample_dt >= 2 (C58_subsample_violated, C58_violated) and for MSCDBootstrap.from_dict, which always raises (C58_mscd_violated). Proved without sub-sampling for Bootstrap, MSDBootstrap, MSTDBootstrap and the three analyzers after any history of fits, given that uravu distributions survive their own round trip. Objects with equal dictionaries have equal attributes (C58_distinct)."
  },
  {
   "property": "C59",
   "status": "proved",
   "theorems": [
    "Kinisi.C59_analyzer",
    "Kinisi.C59_values",
    "Kinisi.C59_roundtrip",
    "Kinisi.C59_list_order",
    "Kinisi.C59_names"
   ],
   "note": "h5py is modelled as an ordered list of datasets with path components; distributions of uravu are assumed to have flat dictionaries that from_dict accepts. C59_values: what comes back, value by value; C59_names: names with a slash come back nested, the name . raises."
  },
  {
   "property": "C60",
   "status": "partial",
   "theorems": [
    "Kinisi.C60_complete_partial",
    "Kinisi.C60_violated",
    "Kinisi.C60_no_intervals_violated",
    "Kinisi.C60_jump_violated"
   ],
   "note": "False (C60_violated, C60_no_intervals_violated, C60_jump_violated): empty lists are forgotten, None in a list is dropped, NULL becomes None, keys beginning with list. Proved for the documents of C59."
  },
  {
   "property": "C61",
   "status": "partial",
   "theorems": [
    "Kinisi.C61_same_file",
    "Kinisi.C61_extension",
    "Kinisi.C61_change_extension",
    "Kinisi.C61_injective_partial",
    "Kinisi.C61_violated"
   ],
   "note": "The file opened by load is the one written by save, whatever the extension. False for the last part: names without extension in a directory with a dot collide (C61_violated). Proved for names without a dot."
  },
  {
   "property": "C62",
   "status": "partial",
   "theorems": [
    "Kinisi.C62_existing",
    "Kinisi.C62_unchanged",
    "Kinisi.C62_interleaved_partial",
    "Kinisi.C62_violated"
   ],
   "note": "Proved for one process, and for every interleaving for files that exist before. False for two processes that both create the file (C62_violated)."
  },
  {
   "property": "C63",
   "status": "partial",
   "theorems": [
    "Kinisi.C63_partial",
    "Kinisi.C63_stuck",
    "Kinisi.C63_violated"
   ],
   "note": "False (C63_violated, C63_stuck): an exception while writing leaves a file that blocks every later save. Proved for exceptions before writing and for all other files."
  },
  {
   "property": "C64",
   "status": "proved",
   "theorems": [
    "Kinisi.C64_torn",
    "Kinisi.C64_failed_save",
    "Kinisi.C64_base",
    "Kinisi.C64_example"
   ],
   "note": "Crash points are the boundaries between assignments of datasets; a file that HDF5 cannot open after a crash raises anyway."
  },
  {
   "property": "C65",
   "status": "partial",
   "theorems": [
    "Kinisi.C65_violated",
    "Kinisi.C65_base_partial"
   ],
   "note": "False for every analyzer with a bootstrap object (C65_violated): max_obs comes back as a numpy integer, which save rejects. Proved for the base class."
  },
  {
   "property": "C66",
   "status": "proved",
   "theorems": [
    "Kinisi.C66_value",
    "Kinisi.C66_constant",
    "Kinisi.C66_pos",
    "Kinisi.C66_le_prefactor",
    "Kinisi.C66_increasing",
    "Kinisi.C66_decreasing",
    "Kinisi.C66_log_linear",
    "Kinisi.C66_two_points"
   ],
   "note": "Real arithmetic; positive temperature."
  },
  {
   "property": "C67",
   "status": "proved",
   "theorems": [
    "Kinisi.C67_shift",
    "Kinisi.C67_zero",
    "Kinisi.C67_above",
    "Kinisi.C67_decreasing_T0"
   ],
   "note": "Real arithmetic."
  },
  {
   "property": "C68",
   "status": "partial",
   "theorems": [
    "Kinisi.C68_history",
    "Kinisi.C68_violated",
    "Kinisi.C68_caller_modified",
    "Kinisi.C68_explicit_partial",
    "Kinisi.C68_first_partial"
   ],
   "note": "False (C68_violated, C68_caller_modified): the default list is shared and modified; C68_history says exactly which temperature is used after any history. Proved for explicit bounds and for the first default construction."
  },
  {
   "property": "C69",
   "status": "proved",
   "theorems": [
    "Kinisi.C69_standard",
    "Kinisi.C69_super",
    "Kinisi.C69_samples",
    "Kinisi.C69_samples_super"
   ],
   "note": "The chain is a list of rows; the uravu class itself is not modelled."
  },
  {
   "property": "C70",
   "status": "proved",
   "theorems": [
    "Kinisi.C70_ase",
    "Kinisi.C70_pymatgen",
    "Kinisi.C70_images"
   ],
   "note": "Composition of parser, analyzer and MSDBootstrap, from the stored coordinates to diff.n and diff.dt, in exact arithmetic, for runs that return. The additional observation over the first t-1 frames is the defect recorded under C13."
  },
  {
   "property": "C71",
   "status": "partial",
   "theorems": [
    "Kinisi.C71_indices_partial",
    "Kinisi.C71_violated"
   ],
   "note": "Holds for selection by indices; with specie a non-empty framework tuple always raises (C71_violated)."
  },
  {
   "property": "C72",
   "status": "partial",
   "theorems": [
    "Kinisi.C72_pymatgen",
    "Kinisi.C72_mda",
    "Kinisi.C72_thinned_frames",
    "Kinisi.C72_ase_partial",
    "Kinisi.C72_violated_ase"
   ],
   "note": "Holds for pymatgen and MDAnalysis; for ASE the coordinates are right but the times are not scaled (C72_violated_ase)."
  },
  {
   "property": "C73",
   "status": "partial",
   "theorems": [
    "Kinisi.C73_whole_multiples",
    "Kinisi.C73_range",
    "Kinisi.C73_violated_binary64",
    "Kinisi.C73_rounded_partial"
   ],
   "note": "True in exact arithmetic; false in binary64 (C73_violated_binary64). C73_rounded_partial: in floating point the last interval is the documented one or the one before, never another."
  },
  {
   "property": "C74",
   "status": "proved",
   "theorems": [
    "Kinisi.C74_ase_pymatgen",
    "Kinisi.C74_mda"
   ],
   "note": ""
  },
  {
   "property": "C75",
   "status": "proved",
   "theorems": [
    "Kinisi.C75_sub_sample_atoms",
    "Kinisi.C75_kept_atoms"
   ],
   "note": ""
  },
  {
   "property": "C76",
   "status": "partial",
   "theorems": [
    "Kinisi.C76_violated",
    "Kinisi.C76_default_partial",
    "Kinisi.C76_ase_partial",
    "Kinisi.C76_pymatgen_partial",
    "Kinisi.C76_universe_partial",
    "Kinisi.C76_logarithmic_partial",
    "Kinisi.C76_logarithmic_pymatgen_partial",
    "Kinisi.C76_logarithmic_universe_partial",
    "Kinisi.C76_atoms_ase_partial",
    "Kinisi.C76_atoms_pymatgen_partial",
    "Kinisi.C76_atoms_universe_partial",
    "Kinisi.C76_violated_empty"
   ],
   "note": "False with single-origin sampling (C76_violated). Proved for several origins: linear spacing with any min_dt, max_dt and n_steps and any rounding, logarithmic spacing in exact arithmetic with any geometric grid that stays between its ends, for all three input formats and at least two mobile atoms. With any number of atoms (C76_atoms_ase_partial and the other formats): linear spacing, ascending intervals, if the first trajectory has any observation; without any, trajectories of different lengths are pooled to nothing (C76_violated_empty)."
  },
  {
   "property": "C77",
   "status": "partial",
   "theorems": [
    "Kinisi.C77_ascending_partial",
    "Kinisi.C77_violated",
    "Kinisi.C77_end_point"
   ],
   "note": "False for temperatures that are not ascending and at the closed end point (C77_violated, C77_end_point). Proved for ascending temperatures and T0 below the first."
  },
  {
   "property": "C78",
   "status": "proved",
   "theorems": [
    "Kinisi.C78_mda",
    "Kinisi.C78_ase_mda_agree"
   ],
   "note": "The same composition as C70 for MDAnalysis, from Cartesian positions, with sub_sample_atoms = sub_sample_traj = 1; agreement with ASE for every n_steps."
  },
  {
   "property": "C79",
   "status": "partial",
   "theorems": [
    "Kinisi.C79_bounds_partial",
    "Kinisi.C79_selection_partial",
    "Kinisi.C79_molecules_partial",
    "Kinisi.C79_ase",
    "Kinisi.C79_pymatgen_partial",
    "Kinisi.C79_mda",
    "Kinisi.C79_violated"
   ],
   "note": "Proved for ASE and MDAnalysis. False for pymatgen when time_step and step_skip are both integers (C79_violated, see C19); proved for pymatgen otherwise. Also for atoms named by number, for explicit frameworks and for molecules (C79_selection_partial, C79_molecules_partial), and for chosen min_dt, max_dt, n_steps and spacing if these ask for distinct intervals within the trajectory (C79_bounds_partial); a framework given as a tuple, or given as an empty list with molecules, raises (C71, C21). Exact arithmetic; with or without resampling, block averaging and sub-sampling. Of scipy and pyblock it is assumed that normaltest accepts eight or more values and reblock two or more (StatisticsRun)."
  },
  {
   "property": "C80",
   "status": "proved",
   "theorems": [
    "Kinisi.C80_mstd",
    "Kinisi.C80_mscd"
   ],
   "note": "For the three input formats, exact arithmetic, runs that return (which C79 guarantees). The MSCD ignores the dimension argument (C31)."
  },
  {
   "property": "C81",
   "status": "proved",
   "theorems": [
    "Kinisi.C81_drift",
    "Kinisi.C81_rotation",
    "Kinisi.C81_length_unit",
    "Kinisi.C81_order",
    "Kinisi.C81_order_charges",
    "Kinisi.C81_drift_needs_framework"
   ],
   "note": "For ASE, pymatgen and MDAnalysis and the three analyzers; ions with different charges are reordered together with their charges (C81_order_charges). C81_drift_needs_framework shows why the statement asks for a framework: without one a drift is reported as diffusion."
  },
  {
   "property": "C82",
   "status": "proved",
   "theorems": [
    "Kinisi.C82_time_unit",
    "Kinisi.C82_intervals"
   ],
   "note": "For the three formats and the three analyzers, runs that return."
  },
  {
   "property": "C83",
   "status": "partial",
   "theorems": [
    "Kinisi.C83_reversal_partial",
    "Kinisi.C83_violated"
   ],
   "note": "False (C83_violated): the additional observation over the first t-1 frames (see C13) becomes one over the last t-1 frames. C83_reversal_partial gives the exact difference, and equality of the first entry when it belongs to one frame."
  },
  {
   "property": "C84",
   "status": "proved",
   "theorems": [
    "Kinisi.C84_flag_msd",
    "Kinisi.C84_flag_mstd",
    "Kinisi.C84_flag_mscd",
    "Kinisi.C84_off",
    "Kinisi.C84_msd",
    "Kinisi.C84_mstd",
    "Kinisi.C84_mscd"
   ],
   "note": "For runs that return; n_resamples >= 2; for the MSCD the charge array has one entry per ion."
  },
  {
   "property": "C85",
   "status": "proved",
   "theorems": [
    "Kinisi.C85_distribution",
    "Kinisi.C85_flatchain",
    "Kinisi.C85_predictive"
   ],
   "note": "rvs and randint are oracles: the theorem says with which mean, covariance and index they are used. The posterior predictive is for ascending times (C85_predictive)."
  },
  {
   "property": "C86",
   "status": "partial",
   "theorems": [
    "Kinisi.C86_constant_volume_partial",
    "Kinisi.C86_first_frame",
    "Kinisi.C86_violated"
   ],
   "note": "Violated: pools with different volumes are accepted and use the first one, and a changing cell uses the first frame (C86_violated, C86_first_frame). Proved for constant volume in all five formats and every dtype."
  },
  {
   "property": "C87",
   "status": "proved",
   "theorems": [
    "Kinisi.C87_exact_line",
    "Kinisi.C87_fit"
   ],
   "note": "The optimiser is an oracle assumed to return only maxima; the weights are positive definite."
  },
  {
   "property": "C88",
   "status": "proved",
   "theorems": [
    "Kinisi.C88_fit",
    "Kinisi.C88_D"
   ],
   "note": "Relative to library routines that respect the change of units (SameLib), including an optimum that does not depend on the starting point: the start values 1e-20 in the code are not converted."
  },
  {
   "property": "C89",
   "status": "proved",
   "theorems": [
    "Kinisi.C89_efficient",
    "Kinisi.C89_efficient_no_intercept"
   ],
   "note": "pinvh is taken to be the inverse, which it is for a positive definite matrix; the restriction to non-negative gradients cuts the normal distribution off at zero."
  },
  {
   "property": "C90",
   "status": "partial",
   "theorems": [
    "Kinisi.C90_times",
    "Kinisi.C90_from_dt",
    "Kinisi.C90_start_exact",
    "Kinisi.C90_start_rounded_partial",
    "Kinisi.C90_violated_binary64"
   ],
   "note": "True in exact arithmetic, and always if start_dt is an entry of dt. False in binary64 (C90_violated_binary64: time_step 0.001, step_skip 50, start_dt 0.55 starts at 12 frames instead of 11). With any rounding only the interval of exactly m frames can be missed (C90_start_rounded_partial)."
  },
  {
   "property": "C91",
   "status": "proved",
   "theorems": [
    "Kinisi.C91_images",
    "Kinisi.C91_path"
   ],
   "note": "Explicit margin and error bound; the three products of a matrix entry are added from left to right; overflow and underflow are not modelled."
  },
  {
   "property": "C92",
   "status": "partial",
   "theorems": [
    "Kinisi.C92_gaussian_value",
    "Kinisi.C92_three_axes_partial",
    "Kinisi.C92_violated"
   ],
   "note": "False for one or two axes (C92_violated: 4/5 and 1/5 instead of 0); true for three (C92_three_axes_partial); C92_gaussian_value gives the value for every number of axes."
  },
  {
   "property": "C93",
   "status": "partial",
   "theorems": [
    "Kinisi.C93_ase_partial",
    "Kinisi.C93_pymatgen_partial",
    "Kinisi.C93_mda_partial",
    "Kinisi.C93_violated"
   ],
   "note": "False: the duplicated first frame (C13) adds a window of tau - 1 steps, so that the expected value is d v (tau - 1 / (F - tau + 1)) (C93_ase_partial and the other formats; exact for every tau); C93_violated gives a walk where 3/16 is reported as 1/8 on average."
  },
  {
   "property": "C94",
   "status": "partial",
   "theorems": [
    "Kinisi.C94_disjoint_windows_partial",
    "Kinisi.C94_violated"
   ],
   "note": "True for averages over disjoint windows and intervals that divide each other and the number of steps (C94_disjoint_windows_partial); false for the overlapping windows that kinisi averages (C94_violated)."
  },
  {
   "property": "C95",
   "status": "proved",
   "theorems": [
    "Kinisi.C95_model_variance",
    "Kinisi.C95_model_matrix"
   ],
   "note": "For averages over disjoint windows; the coefficient a is fitted by curve_fit in the code, the theorem says which value is right."
  },
  {
   "property": "C96",
   "status": "proved",
   "theorems": [
    "Kinisi.C96_mstd",
    "Kinisi.C96_mscd"
   ],
   "note": "For the first half of the intervals, which is all that the collective curves have (C29); MSCD with dimension xyz (see C31)."
  },
  {
   "property": "C97",
   "status": "proved",
   "theorems": [
    "Kinisi.C97_error",
    "Kinisi.C97_limit"
   ],
   "note": "With sub_sample_traj=1 and n_steps at least the number of frames, so that all intervals are analysed. The duplicated first frame (C93_violated) biases every finite analysis but not the limit."
  },
  {
   "property": "C98",
   "status": "proved",
   "theorems": [
    "Kinisi.C98_diffusion",
    "Kinisi.C98_jump",
    "Kinisi.C98_conductivity",
    "Kinisi.C98_mean"
   ],
   "note": "With sub_sample_dt=1 and block=False. The windows include the one over the first tau-1 frames that the duplicated first frame adds (C13)."
  },
  {
   "property": "C99",
   "status": "partial",
   "theorems": [
    "Kinisi.C99_results_partial",
    "Kinisi.C99_session_partial",
    "Kinisi.C99_violated_global",
    "Kinisi.C99_violated_predictive",
    "Kinisi.C99_values",
    "Kinisi.C99_built",
    "Kinisi.C99_last",
    "Kinisi.C99_end_partial"
   ],
   "note": "C99_results_partial: constructions and fits depend on the RandomState alone. C99_session_partial: sessions that start without a fitted object are reproducible as a whole. Two parts of the claim are false: a fit reseeds the global generator of numpy (C99_violated_global), and posterior_predictive of an object fitted earlier depends on the global generator and has no random_state (C99_violated_predictive). C99_values and C99_built tie the actions of a session to the calls: which coefficient a fit leaves, and what a constructor draws from. C99_last: the object at the end is the one that the last call reported; C99_end_partial: it depends on the RandomState and the calls alone."
  },
  {
   "property": "C100",
   "status": "partial",
   "theorems": [
    "Kinisi.C100_readable_partial",
    "Kinisi.C100_violated_n_i"
   ],
   "note": "True of all properties but n_i (C100_readable_partial); n_i reads an attribute that no method assigns and always raises AttributeError (C100_violated_n_i)."
  },
  {
   "property": "C101",
   "status": "proved",
   "theorems": [
    "Kinisi.C101_msd",
    "Kinisi.C101_mstd",
    "Kinisi.C101_mscd",
    "Kinisi.C101_breathing"
   ],
   "note": "Exact arithmetic, default intervals, all axes or any dimension argument, no block averaging and sub_sample_dt = 1. What \"stored\" means for a cell that changes is Spec.StoredIn: the Cartesian position moves by the true step less whole edges of the new cell. C101_breathing bounds what atoms at rest report in a breathing orthorhombic cell."
  },
  {
   "property": "C102",
   "status": "proved",
   "theorems": [
    "Kinisi.C102_msd",
    "Kinisi.C102_mstd",
    "Kinisi.C102_mscd"
   ],
   "note": "Real numbers with the true sine, cosine and arctangent; otherwise as C101. That such runs exist is C79_molecules_partial."
  },
  {
   "property": "C103",
   "status": "partial",
   "theorems": [
    "Kinisi.C103_msd_partial",
    "Kinisi.C103_mstd_partial",
    "Kinisi.C103_mscd_partial",
    "Kinisi.C103_violated"
   ],
   "note": "False when max_dt < min_dt: the run is not refused and a value is reported at the wrong time (C103_violated). Proved for min_dt <= max_dt in exact arithmetic, without block averaging and with sub_sample_dt = 1; for MSTD and MSCD the intervals must be distinct (logarithmic spacing, or n_steps no larger than the number of whole steps between the bounds, see C08). Logarithmic spacing: of numpy.geomspace it is assumed that it stays between its ends."
  },
  {
   "property": "C104",
   "status": "proved",
   "theorems": [
    "Kinisi.C104_mean",
    "Kinisi.C104_sign",
    "Kinisi.C104_msd",
    "Kinisi.C104_mstd",
    "Kinisi.C104_mscd"
   ],
   "note": "Relative rounding errors only: no overflow and no underflow. The bounds are msdError, totalError and dispError (windowError, driftError, pathError). Multi-origin sampling, fixed cell; without block averaging. Of numpy.linalg.inv the error of the computed inverse is a parameter."
  },
  {
   "property": "C105",
   "status": "proved",
   "theorems": [
    "Kinisi.C105_ase",
    "Kinisi.C105_pymatgen",
    "Kinisi.C105_mda",
    "Kinisi.C105_increasing"
   ],
   "note": "Relative rounding errors only: no overflow and no underflow. ASE input without sub_sample_traj (with it the times are wrong, C18)."
  },
  {
   "property": "C106",
   "status": "partial",
   "theorems": [
    "Kinisi.C106_rejects_partial",
    "Kinisi.C106_unchecked",
    "Kinisi.C106_violated"
   ],
   "note": "Holds between the base class and the analyzers (C106_rejects_partial). False among the analyzers: the class is not stored (C106_unchecked, C106_violated)."
  },
  {
   "property": "C107",
   "status": "proved",
   "theorems": [
    "Kinisi.C107_msd",
    "Kinisi.C107_mstd",
    "Kinisi.C107_mscd"
   ],
   "note": "For MSD, MSTD and MSCD (one charge or one charge per ion). Uncorrelated squared displacements are a hypothesis; overlapping windows of a trajectory are correlated."
  },
  {
   "property": "C108",
   "status": "proved",
   "theorems": [
    "Kinisi.C108_resample"
   ],
   "note": "For a fixed number of resamples. Stopping by the normality test makes the number depend on the values."
  },
  {
   "property": "C109",
   "status": "partial",
   "theorems": [
    "Kinisi.C109_swapped",
    "Kinisi.C109_violated",
    "Kinisi.C109_below_one_frame_partial"
   ],
   "note": "False as stated (C109_violated): for one atom the first reported time is min_dt while the first displacements are those of max_dt. C109_swapped: with two or more atoms the intervals descend and n_o starts below one per atom. Proved: a max_dt of less than one frame is rejected."
  },
  {
   "property": "C110",
   "status": "partial",
   "theorems": [
    "Kinisi.C110_msd_partial",
    "Kinisi.C110_one_frame_late",
    "Kinisi.C110_variance",
    "Kinisi.C110_collective_empty",
    "Kinisi.C110_one_atom",
    "Kinisi.C110_violated"
   ],
   "note": "False as stated (C110_violated, C110_one_frame_late, C110_collective_empty). The first frame is duplicated and the position in the list is used as the interval, so the value for the time of i + 1 frames is that of i frames and the first value is zero for every trajectory. C110_msd_partial gives the exact law for two or more atoms and the default grid; C110_variance the reported variances, too small by interval / last interval; MSTD and MSCD are empty. C110_one_atom: with one atom the trajectory is read and none of the three observables can be computed."
  },
  {
   "property": "C111",
   "status": "partial",
   "theorems": [
    "Kinisi.C111_pool_partial",
    "Kinisi.C111_msd_partial",
    "Kinisi.C111_mstd_partial",
    "Kinisi.C111_mscd_partial",
    "Kinisi.C111_violated"
   ],
   "note": "False as stated (C111_violated): the volume is that of the trajectory listed first, and a trajectory with a single mobile atom is accepted after one with two atoms but refused before it. For trajectories of equal shapes and times the pool (C111_pool_partial, volume if all volumes are equal) and the curves (C111_msd_partial with variances, C111_mstd_partial, C111_mscd_partial) do not depend on the order. Runs without blocking; the variances without sub-sampling."
  },
  {
   "property": "C112",
   "status": "proved",
   "theorems": [
    "Kinisi.C112_latest",
    "Kinisi.C112_none",
    "Kinisi.C112_outcome",
    "Kinisi.C112_new"
   ],
   "note": "C112_latest, C112_none and C112_outcome for arbitrary histories with exceptions; C112_new for the three classes. Each call with its own random numbers and arguments. What else a failed fit changes is C50."
  },
  {
   "property": "C113",
   "status": "partial",
   "theorems": [
    "Kinisi.C113_right_angles_partial",
    "Kinisi.C113_small_steps_partial",
    "Kinisi.C113_violated"
   ],
   "note": "C113_right_angles_partial: true in every cell with perpendicular lattice vectors (also turned ones, also changing with time). C113_small_steps_partial: in any cell, if the raw step has an image shorter than half of the smallest distance between opposite faces, that one is taken and it is strictly the shortest. C113_violated: false otherwise; in a cell with edges 10 and an angle of 53 degrees a step (6.4, 3.2, 0) is taken instead of (-3.6, 3.2, 0). The package only warns."
  },
  {
   "property": "C114",
   "status": "partial",
   "theorems": [
    "Kinisi.C114_partial",
    "Kinisi.C114_curves_partial",
    "Kinisi.C114_violated"
   ],
   "note": "C114_partial: all attributes of all three analyzers, the generator state and the exceptions agree for every two descriptions of the same motion in which the steps between kept frames are within half of the cell; all options (floating-point times, sampling, spacing, resampling, block averaging) and three formats; selection by species or atom numbers. C114_violated: false for longer steps: one lattice with two choices of lattice vectors, the same positions in steps shorter than half of every edge, two different MSDs."
  },
  {
   "property": "C115",
   "status": "proved",
   "theorems": [
    "Kinisi.C115_atoms",
    "Kinisi.C115_molecules"
   ],
   "note": "C115_atoms: selection by species or atom numbers (with or without named framework). C115_molecules: centres of molecules relative to named framework atoms; without framework_indices all atoms outside of the molecules are framework (C102), so nothing is left over. Exceptions and generator state included. The number and the species of the atoms are the same in both trajectories."
  },
  {
   "property": "C116",
   "status": "proved",
   "theorems": [
    "Kinisi.C116_variance",
    "Kinisi.C116_sign",
    "Kinisi.C116_equal_values",
    "Kinisi.C116_msd",
    "Kinisi.C116_mstd",
    "Kinisi.C116_mscd",
    "Kinisi.C116_ngp"
   ],
   "note": "C116_variance: relative error plus the square of the error of the mean (the mean of the values themselves does not enter linearly); C116_sign: never negative, zero only if all values are equal; C116_msd, C116_mstd, C116_mscd: from stored coordinates to an entry of v, all operations rounded; C116_ngp: from displacements to the non-Gaussian parameter. C116_equal_values: the converse of C116_sign is false, three equal doubles have variance 2e-34. Overflow and underflow are outside of the model of rounding."
  },
  {
   "property": "C117",
   "status": "partial",
   "theorems": [
    "Kinisi.C117_partial",
    "Kinisi.C117_molecules_partial",
    "Kinisi.C117_floating_partial",
    "Kinisi.C117_violated"
   ],
   "note": "C117_partial: all attributes of the three analyzers and the exceptions agree for any two of the five readers, in exact arithmetic, steps within half of the cell; C117_molecules_partial: the same objects for every selection and steps of any length, if the fractional coordinates are the same; C117_floating_partial: ASE and MDAnalysis in floating point. C117_violated: with sub_sample_traj = 2 the times of from_ase are half of those of the other readers for the same arguments (step_skip is not multiplied), and an int time step in femtoseconds with an int step_skip is an exception."
  },
  {
   "property": "C118",
   "status": "proved",
   "theorems": [
    "Kinisi.C118_self_total",
    "Kinisi.C118_one_atom",
    "Kinisi.C118_charge"
   ],
   "note": "Without blocking (with block=True the values come from pyblock). C118_charge needs the dimension xyz, as the MSCD uses all axes (C31)."
  },
  {
   "property": "C119",
   "status": "partial",
   "theorems": [
    "Kinisi.C119_msd_partial",
    "Kinisi.C119_variance_partial",
    "Kinisi.C119_mstd_partial",
    "Kinisi.C119_mscd_partial",
    "Kinisi.C119_violated"
   ],
   "note": "Violated with one atom of the species: its last intervals have one observation and are left out, those of the copies are not (C119_violated). Proved for two atoms and more, with exact arithmetic, selection by symbols, without blocking."
  },
  {
   "property": "C120",
   "status": "proved",
   "theorems": [
    "Kinisi.C120_matrix",
    "Kinisi.C120_std"
   ],
   "note": "Rounding is any function with a relative error and fl 1 = 1 (binary64 without underflow and overflow: fl64)."
  },
  {
   "property": "C121",
   "status": "partial",
   "theorems": [
    "Kinisi.C121_violated",
    "Kinisi.C121_partial"
   ],
   "note": "Violated by rounding (C121_violated, binary64: variances 27 and 147 with 7 and 3 observations). Proved when the smallest eigenvalue exceeds the rounding errors. Later steps (minimum_eigenvalue_method, cov_nearest) repair the matrix, C43."
  },
  {
   "property": "C122",
   "status": "proved",
   "theorems": [
    "Kinisi.C122_species",
    "Kinisi.C122_framework_needed"
   ],
   "note": "Any content of the files. Framework atoms must be given: by default the other species is part of the framework and the relation fails (C122_framework_needed). A species with a single atom loses its longest intervals (C119_violated)."
  },
  {
   "property": "C123",
   "status": "proved",
   "theorems": [
    "Kinisi.C123_charges",
    "Kinisi.C123_sign",
    "Kinisi.C123_one_charge",
    "Kinisi.C123_sigma"
   ],
   "note": "The fit relative to library routines that respect the change of units (SameLib as in C88); with bootstrap or block also normaltest and pyblock (UnitFree). The sign and the forms of one charge need no assumption."
  },
  {
   "property": "C124",
   "status": "proved",
   "theorems": [
    "Kinisi.C124_msd",
    "Kinisi.C124_mstd",
    "Kinisi.C124_mscd",
    "Kinisi.C124_D",
    "Kinisi.C124_DJ",
    "Kinisi.C124_sigma"
   ],
   "note": "The equality of outcomes covers exceptions. Relative to library routines that respect the change of units (SameLib as in C88, UnitFree for bootstrap or block); of the square root only homogeneity is used."
  },
  {
   "property": "C125",
   "status": "partial",
   "theorems": [
    "Kinisi.C125_msd_partial",
    "Kinisi.C125_mstd_partial",
    "Kinisi.C125_mscd_partial",
    "Kinisi.C125_violated"
   ],
   "note": "False for the variances (C125_violated): n_o counts with the longest interval looked at, so that the variance of every entry is inversely proportional to it; leaving out the intervals above three fifths of the trajectory makes all variances larger by 5/3. C125_msd_partial, C125_mstd_partial, C125_mscd_partial: all other values agree wherever both analyses have an entry for the same time, the variances also with block=True, and else in exactly this ratio (without sub_sample_dt). Exact arithmetic for the times, sampling multi-origin; the resampled distributions are not covered."
  },
  {
   "property": "C126",
   "status": "proved",
   "theorems": [
    "Kinisi.C126_likelihood",
    "Kinisi.C126_best_line",
    "Kinisi.C126_no_intercept",
    "Kinisi.C126_fit",
    "Kinisi.C126_ray_witness"
   ],
   "note": "C126_fit: of two successful fits both start their sampling from the best line, these differ by the offset in the intercept only, and the two likelihoods are the same function moved by the offset. The optimiser is assumed to return a maximum, the weights to be positive definite. The chains themselves are not moved copies: the walkers are spread by a thousandth of the best values, so that the spread in the intercept depends on the offset. C126_no_intercept and C126_ray_witness: without intercept D changes."
  },
  {
   "property": "C127",
   "status": "partial",
   "theorems": [
    "Kinisi.C127_ase_partial",
    "Kinisi.C127_pymatgen_partial",
    "Kinisi.C127_mda_partial",
    "Kinisi.C127_violated"
   ],
   "note": "False (C127_violated): every interval of τ frames has one additional observation over the first τ-1 frames only (C93), and for three frames and one atom the fitted gradient is two thirds of the true one for every outcome and all weights. C127_ase_partial, C127_pymatgen_partial, C127_mda_partial: the expected gradient is the true one less the linear estimate for the curve rate/(F-τ+1), exactly, with weights that do not depend on chance and fitted gradients that are positive. The weights of the code come from the same trajectory; their randomness is not covered."
  },
  {
   "property": "C128",
   "status": "partial",
   "theorems": [
    "Kinisi.C128_standard_partial",
    "Kinisi.C128_default_partial",
    "Kinisi.C128_violated",
    "Kinisi.C128_super_partial",
    "Kinisi.C128_unit"
   ],
   "note": "False with the default bounds (C128_violated): activation energies above 1 eV are excluded, data with 1.5 eV are missed by every law within the bounds. C128_standard_partial, C128_super_partial: for every law within the bounds (super-Arrhenius: with activation energy not zero). C128_default_partial: the default bounds spelled out. C128_unit: change of the unit of D. The best parameters are those with the smallest weighted sum of squares, which is where the likelihood of uravu (not modelled) is highest."
  },
  {
   "property": "C129",
   "status": "partial",
   "theorems": [
    "Kinisi.C129_fit_partial",
    "Kinisi.C129_model",
    "Kinisi.C129_violated",
    "Kinisi.C129_resamples_violated",
    "Kinisi.C129_estimate_partial"
   ],
   "note": "False for two arguments. model is documented as True and is False: C129_violated (other variances and covariance matrix), C129_model (a fit without model never uses the random walk variances). max_resamples is documented as 100000 and is 10000: C129_resamples_violated (never more than a tenth of the documented number is drawn). C129_fit_partial, C129_estimate_partial: everything else agrees, and without resampling the three estimates are those of the documented call. random_state and progress are not in the model as arguments."
  },
  {
   "property": "C130",
   "status": "proved",
   "theorems": [
    "Kinisi.C130_fit",
    "Kinisi.C130_results",
    "Kinisi.C130_diffusion",
    "Kinisi.C130_jump",
    "Kinisi.C130_conductivity",
    "Kinisi.C130_too_few"
   ],
   "note": "C130_fit, C130_results: the fit of any estimate with usable numbers. C130_diffusion, C130_jump, C130_conductivity: after the constructors, where the positive variances are proved from displacements that differ. C130_too_few: with fewer than two intervals the fit raises, so the condition is needed. The routines of scipy, statsmodels and emcee are arguments; LibraryRuns says what is asked of each, and that the minimum found by scipy has no component that is exactly zero (the walkers would start on a line and emcee would raise). Shown to be satisfiable by a library over the reals with the spectral theorem."
  },
  {
   "property": "C131",
   "status": "proved",
   "theorems": [
    "Kinisi.C131_diffusion",
    "Kinisi.C131_jump",
    "Kinisi.C131_conductivity"
   ],
   "note": "Composition of C79 (the analyzers are built), C70, C78, C80 (what they hold) and C130 (fits run): C131_diffusion, C131_jump, C131_conductivity. Excluded by hypotheses, because the code raises: a framework given as a tuple (C71), two integers with pymatgen (C19), motionless atoms (zero variances). Exact arithmetic, default interval bounds, no block averaging."
  },
  {
   "property": "C132",
   "status": "proved",
   "theorems": [
    "Kinisi.C132_same_object",
    "Kinisi.C132_nernst_einstein"
   ],
   "note": "C132_same_object: no hypothesis on options or library. C132_nernst_einstein: for q other than 1 relative to library routines that do not depend on the unit of their data (as C88, C123). The dimension must be xyz in either case of letters, since MSCDBootstrap ignores it (C31, and the last example)."
  },
  {
   "property": "C133",
   "status": "partial",
   "theorems": [
    "Kinisi.C133_intervals_partial",
    "Kinisi.C133_distinct",
    "Kinisi.C133_trajectory",
    "Kinisi.C133_violated"
   ],
   "note": "False as stated: C133_violated, in binary64 the middle of 1..31 at 23 intervals is 15 instead of 16, and with the default 100 intervals the same happens for 109 steps. C133_intervals_partial: apart from values that are whole frames already, and may come out one frame too small, every interval is the exact one. C133_distinct, C133_trajectory: strict order holds in full."
  },
  {
   "property": "C134",
   "status": "proved",
   "theorems": [
    "Kinisi.C134_constant_atoms",
    "Kinisi.C134_likelihood",
    "Kinisi.C134_first_interval",
    "Kinisi.C134_intercept",
    "Kinisi.C134_fit",
    "Kinisi.C134_model",
    "Kinisi.C134_constant"
   ],
   "note": "C134_likelihood: closed form of the log-likelihood. C134_first_interval, C134_intercept: the maxima, with uniqueness. C134_fit, C134_model: the chain of a whole fit (measured or model variances) is that of the first fitted point alone, when the conditioning leaves the matrix alone and the pseudo-inverse of a positive definite matrix is its inverse. C134_constant: n_o times the interval is constant for all readers and the three analyses, with two or more atoms; C134_constant_atoms: for any number of atoms when all frames are read and the times ascend. Together: without an intercept all but one value of the curve are ignored (DESIGN.md, findings)."
  },
  {
   "property": "C135",
   "status": "proved",
   "theorems": [
    "Kinisi.C135_spread",
    "Kinisi.C135_ray",
    "Kinisi.C135_start"
   ],
   "note": "C135_spread: any selection of the intervals, with and without intercept, for the matrices kinisi builds and their inverses. C135_start: the matrices stored by two fits of the same data with different start_dt (measured variances; conditioning left them alone). C135_ray: the exact variance without intercept and strictness. With model=True the scale of the variances is fitted again for each start and no order holds."
  },
  {
   "property": "C136",
   "status": "partial",
   "theorems": [
    "Kinisi.C136_no_intercept_partial",
    "Kinisi.C136_violated",
    "Kinisi.C136_total_no_intercept_partial"
   ],
   "note": "C136_no_intercept_partial: with all starting points and without an intercept the gradients of highest likelihood add up exactly. C136_violated: with an intercept, the default, they do not, although the MSDs do (C28): the weights come from the variances, which depend on the axes chosen (two atoms, three steps: 11/3 along x, 239/34 along y, but 11 in the plane). C136_total_no_intercept_partial: without an intercept the same additivity for the total displacement (its values add up by C29_additive)."
  },
  {
   "property": "C137",
   "status": "proved",
   "theorems": [
    "Kinisi.C137_speed_limit",
    "Kinisi.C137_uniform",
    "Kinisi.C137_cage"
   ],
   "note": "C137_speed_limit: any stored coordinates in non-singular cells. C137_uniform: exact value. C137_cage: values and best gradient (likelihood maximum, all starting points, positive variances). Exact arithmetic, default intervals, no block averaging, runs that return."
  },
  {
   "property": "C138",
   "status": "proved",
   "theorems": [
    "Kinisi.C138_neutral",
    "Kinisi.C138_matched",
    "Kinisi.C138_bound"
   ],
   "note": "C138_neutral: value by value. C138_matched: one interval for every number of frames. C138_bound: values and best gradient (likelihood maximum, all starting points, positive variances). Exact arithmetic, default intervals, no block averaging, runs that return."
  },
  {
   "property": "C139",
   "status": "proved",
   "theorems": [
    "Kinisi.C139_msd",
    "Kinisi.C139_mstd",
    "Kinisi.C139_mscd"
   ],
   "note": "A cell that does not change; default intervals, exact arithmetic, no block averaging, runs that return. The bound is stated for every r with y <= r^2, which is the bound of the roots (root_within for real numbers)."
  },
  {
   "property": "C140",
   "status": "proved",
   "theorems": [
    "Kinisi.C140_error",
    "Kinisi.C140_limit",
    "Kinisi.C140_line_error",
    "Kinisi.C140_line_limit"
   ],
   "note": "The event counted is that a fit exists and is off: that variances are positive and the covariance matrix has an inverse is part of the event, not proved to happen. The fit is the best line of the exact likelihood (C134 for its closed form), not the outcome of the sampler or of cov_nearest. sub_sample_traj=1. Without intercept (C140_error, C140_limit) n_steps is at least the number of frames, as in C97; with intercept (C140_line_error, C140_line_limit) min_dt and max_dt are chosen by the user and v n^2 increases in the event."
  },
  {
   "property": "C141",
   "status": "proved",
   "theorems": [
    "Kinisi.C141_line",
    "Kinisi.C141_line_atoms"
   ],
   "note": "Exact arithmetic, sub_sample_traj=1, one trajectory, multi-origin sampling. The fit is the best line of the exact likelihood, not the outcome of the sampler; that the matrix is inverted and that v n^2 increases (which makes it positive definite, C41) is assumed. The reason is C134: n t is constant, so the weights act only on differences that decorrelate."
  },
  {
   "property": "C142",
   "status": "proved",
   "theorems": [
    "Kinisi.C142_atoms",
    "Kinisi.C142_molecules",
    "Kinisi.C142_frames",
    "Kinisi.C142_sub_sample_dt",
    "Kinisi.C142_log_zero",
    "Kinisi.C142_resampling",
    "Kinisi.C142_ngp",
    "Kinisi.C142_thin",
    "Kinisi.C142_predictive_before",
    "Kinisi.C142_predictive_single",
    "Kinisi.C142_bounds",
    "Kinisi.C142_columns",
    "Kinisi.C142_save",
    "Kinisi.C142_load"
   ],
   "note": "Universes with sub_sample_atoms=1 and cells that can be inverted. The exceptions of numpy, h5py and emcee are those of the versions the model describes (DESIGN.md). C142_resampling is for the first interval and sub_sample_dt=1."
  },
  {
   "property": "C143",
   "status": "proved",
   "theorems": [
    "Kinisi.C143_msd",
    "Kinisi.C143_mstd",
    "Kinisi.C143_analyzer"
   ],
   "note": "Dictionaries (to_dict, from_dict), under the conditions of C58: sub_sample_dt=1 and uravu distributions that survive their own round trip. Files change int to numpy integers (C65) and are not covered. MSCDBootstrap.from_dict raises (C58_mscd_violated), but the conductivity analyzer restores its object through Bootstrap.from_dict, which C143_analyzer covers."
  },
  {
   "property": "C144",
   "status": "proved",
   "theorems": [
    "Kinisi.C144_mstd_error",
    "Kinisi.C144_mscd_error",
    "Kinisi.C144_limit",
    "Kinisi.C144_jump_fit",
    "Kinisi.C144_conductivity_fit",
    "Kinisi.C144_line_error",
    "Kinisi.C144_line_limit",
    "Kinisi.C144_ray_limit"
   ],
   "note": "Curves and fits without intercept (C144_ray_limit): default intervals (all of 1..F), fixed cell. Fits with intercept (C144_line_error, C144_line_limit): intervals chosen by the user, distinct (C08), cells that may change; that a fit exists with positive variances and increasing v n^2 is part of the event, as in C140. No block bootstrap, sub_sample_traj of 1. As in C97 the first of the averaged windows is one frame short (C01), which the error bound includes."
  },
  {
   "property": "C145",
   "status": "partial",
   "theorems": [
    "Kinisi.C145_pool_partial",
    "Kinisi.C145_species_partial",
    "Kinisi.C145_violated"
   ],
   "note": "C145_pool_partial, C145_species_partial: exact for fits without intercept from the same interval on, if the numbers of observations are inversely proportional to the times (default intervals, C134_constant_atoms). C145_violated: with an intercept, the default, pooling a trajectory with a copy of itself leaves times and MSD unchanged but changes the best gradient (59/336 alone, 59/624 pooled): the variances of the intervals change by different factors (number of displacements minus one), and so do the weights."
  },
  {
   "property": "C146",
   "status": "proved",
   "theorems": [
    "Kinisi.C146_combined",
    "Kinisi.C146_same",
    "Kinisi.C146_axes",
    "Kinisi.C146_total_axes",
    "Kinisi.C146_pool",
    "Kinisi.C146_species"
   ],
   "note": "C146_combined (any finite family), C146_same (no condition on the gradient), C146_axes, C146_total_axes (MSTD), C146_pool, C146_species. About the line of highest likelihood with the matrix before conditioning, which for ascending times is positive definite (C41); the posterior is sampled around it. The parts must have positive gradients, because the likelihood is cut off at gradient zero."
  },
  {
   "property": "C147",
   "status": "proved",
   "theorems": [
    "Kinisi.C147_model",
    "Kinisi.C147_measured",
    "Kinisi.C147_errors",
    "Kinisi.C147_close",
    "Kinisi.C147_early",
    "Kinisi.C147_runs"
   ],
   "note": "C147_model (model=True, exact weights), C147_measured (model=False, some positive weights), C147_errors (model=True: errors R of the curve change the gradient by at most (1 + q) R / t), C147_close (model=True: a bound that does not depend on the number of intervals), C147_early (model=True, evenly spaced times), C147_runs (one trajectory in any format meets the conditions). About the line of highest likelihood with the matrix before conditioning; the posterior is sampled around it."
  },
  {
   "property": "C148",
   "status": "proved",
   "theorems": [
    "Kinisi.C148_diffusion",
    "Kinisi.C148_jump",
    "Kinisi.C148_conductivity"
   ],
   "note": "C148_diffusion, C148_jump, C148_conductivity. A cell that does not change; default intervals, exact arithmetic, no block averaging, sub_sample_traj=1, runs that return. About the line of highest likelihood with the matrix before conditioning; with model=False the weights themselves depend on the variances, and C141 is the statement that holds."
  },
  {
   "property": "C149",
   "status": "proved",
   "theorems": [
    "Kinisi.C149_model",
    "Kinisi.C149_runs",
    "Kinisi.C149_measured"
   ],
   "note": "C149_model (model=True), C149_measured (model=False: positive variances that increase with the squared number of observations), C149_runs (from the frames of a file to the sampler). Exact arithmetic, an optimiser that only returns maxima and an exact inverse; fits in which conditioning left the matrix as it was. Without intercept: C134."
  },
  {
   "property": "C150",
   "status": "proved",
   "theorems": [
    "Kinisi.C150_curve",
    "Kinisi.C150_mean",
    "Kinisi.C150_path"
   ],
   "note": "C150_curve (any curve), C150_mean (a run of the library: squares and means rounded), C150_path (everything from the stored coordinates to the means rounded). The intervals and the solution of the fit are exact; the rounding inside pinvh, the optimiser and the sampler is not modelled."
  },
  {
   "property": "C151",
   "status": "partial",
   "theorems": [
    "Kinisi.C151_definite_partial",
    "Kinisi.C151_line_partial",
    "Kinisi.C151_violated"
   ],
   "note": "False for the weights (C151_violated): n_o is cut to the number of kept intervals, not sub-sampled, so that times and numbers of observations belong to different intervals; in the example the coefficient without an intercept is a third larger than that of the full analysis, whose first value it shares. C151_definite_partial: the matrix still is positive definite for evenly spaced intervals. C151_line_partial: data on a line give this line, and only it. Missing: equality with the fit of the kept intervals for all other data."
  },
  {
   "property": "C152",
   "status": "proved",
   "theorems": [
    "Kinisi.C152_matrix",
    "Kinisi.C152_fit",
    "Kinisi.C152_runs"
   ],
   "note": "Removes the hypothesis \"no conditioning was necessary\" of C134 and C149 for default intervals. Assumes that eig returns orthonormal eigenvectors of symmetric matrices, that cov_nearest keeps matrices whose correlation matrix has no eigenvalue below its threshold 1e-15, and a positive fitted coefficient; exact arithmetic."
  },
  {
   "property": "C153",
   "status": "proved",
   "theorems": [
    "Kinisi.C153_runs",
    "Kinisi.C153_pool",
    "Kinisi.C153_species",
    "Kinisi.C153_strict"
   ],
   "note": "Extends C146, which needs positive gradients, to all signs, and gives its conditions for pools from the trajectories themselves. C153_strict: gradients 23/120 and 0, but 11/144 for the pool. Exact arithmetic, line of highest likelihood."
  },
  {
   "property": "C154",
   "status": "proved",
   "theorems": [
    "Kinisi.C154_diffusion",
    "Kinisi.C154_jump",
    "Kinisi.C154_conductivity"
   ],
   "note": "C154_diffusion, C154_jump, C154_conductivity. Exact arithmetic; the libraries meet Dependable (optimiser finds a maximum, matrices are diagonalised and inverted, cov_nearest keeps a positive definite matrix); blocking off; the fitted variance coefficient is positive; two intervals if an intercept is fitted. reportedMsd contains the short first window of C12."
  },
  {
   "property": "C155",
   "status": "proved",
   "theorems": [
    "Kinisi.C155_coefficient",
    "Kinisi.C155_positive",
    "Kinisi.C155_share",
    "Kinisi.C155_early",
    "Kinisi.C155_runs"
   ],
   "note": "C155_coefficient (weights), C155_share and C155_early (bounds), C155_runs (trajectories meet the conditions), C155_positive (the coefficient is positive exactly if a fitted variance is). Assumes that scipy curve_fit returns the non-negative coefficient of least squares (LeastSquares). In the example a measured variance of 67/2 becomes 1 in the model."
  },
  {
   "property": "C156",
   "status": "proved",
   "theorems": [
    "Kinisi.C156_likelihood",
    "Kinisi.C156_double",
    "Kinisi.C156_all",
    "Kinisi.C156_fit",
    "Kinisi.C156_runs"
   ],
   "note": "C156_likelihood (the two distributions), C156_double and C156_all (the factor), C156_fit (what the sampler of a fit is given), C156_runs (from the frames to two fits that differ in fit_intercept). Assumes exact routines: eigenvalues, nearest covariance matrix, inverse, and a positive coefficient from curve_fit. The distribution is that of the log-likelihood given to emcee; that the walkers sample it is emcee's part."
  },
  {
   "property": "C157",
   "status": "proved",
   "theorems": [
    "Kinisi.C157_error_bars",
    "Kinisi.C157_one_atom"
   ],
   "note": "C157_error_bars (up to a third of the frames), C157_one_atom (a single atom at half of the frames, where the error bar is too small). From the frames in three formats to the reported n, v and n_o, including the first window, which is one step short. Exact arithmetic, all intervals, no sub-sampling."
  },
  {
   "property": "C158",
   "status": "proved",
   "theorems": [
    "Kinisi.C158_error_bar",
    "Kinisi.C158_fit"
   ],
   "note": "C158_error_bar (means over all walks of the fitted coefficient, the gradient and the variance of its samples), C158_fit (that these are popt and the parameters of the sampled distribution). Exact arithmetic, model=True, no intercept, all intervals, no sub-sampling; curve_fit as documented; the matrix kept by cond_max and cov_nearest as in C156. With an intercept the variance is more than four times as large (C156)."
  },
  {
   "property": "C159",
   "status": "proved",
   "theorems": [
    "Kinisi.C159_mstd",
    "Kinisi.C159_mscd",
    "Kinisi.C159_mstd_longest",
    "Kinisi.C159_mscd_longest",
    "Kinisi.C159_independent"
   ],
   "note": "C159_mstd, C159_mscd (intervals of up to a third or a quarter of the frames), C159_mstd_longest, C159_mscd_longest (the factor 3/5 for half of the frames), C159_independent (the hypothesis holds for independent atoms). Exact arithmetic, block=False, sub_sample_dt = 1, all intervals."
  },
  {
   "property": "C160",
   "status": "proved",
   "theorems": [
    "Kinisi.C160_mstd",
    "Kinisi.C160_mscd"
   ],
   "note": "C160_mstd (jump diffusion), C160_mscd (conductivity). What the fit does with the coefficient is C158_fit. Exact arithmetic, block=False, sub_sample_dt = 1, all intervals, curve_fit as documented."
  },
  {
   "property": "C161",
   "status": "proved",
   "theorems": [
    "Kinisi.C161_pool"
   ],
   "note": "C161_pool. What the fit does with the coefficient is C158_fit. Exact arithmetic, block=False, sub_sample_dt = 1, all intervals, curve_fit as documented."
  },
  {
   "property": "C162",
   "status": "proved",
   "theorems": [
    "Kinisi.C162_mstd",
    "Kinisi.C162_atoms",
    "Kinisi.C162_mscd",
    "Kinisi.C162_msd",
    "Kinisi.C162_independent"
   ],
   "note": "C162_mstd and C162_mscd: the code does this, which is not what pooling is for. C162_msd: the MSD does get more precise. C162_atoms: the number of atoms that jump_diffusion divides by. C162_independent: independent atoms meet the hypotheses. block=False, sub_sample_dt = 1, all intervals; the curve at each interval, not the fit."
  },
  {
   "property": "C163",
   "status": "proved",
   "theorems": [
    "Kinisi.C163_mstd",
    "Kinisi.C163_mscd"
   ],
   "note": "C163_mstd, C163_mscd. What the fit does with the coefficient is C158_fit. Exact arithmetic, block=False, sub_sample_dt = 1, all intervals, curve_fit as documented."
  }
 ]
}

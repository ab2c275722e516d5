import Verif.Props.Access
import Verif.Props.ActualFit
import Verif.Props.Analyzer
import Verif.Props.AnyAtoms
import Verif.Props.AnyHistory
import Verif.Props.Arrhenius
import Verif.Props.ArrheniusFit
import Verif.Props.Axes
import Verif.Props.AxesTotal
import Verif.Props.Bootstrap
import Verif.Props.Bystanders
import Verif.Props.CellChoice
import Verif.Props.Chords
import Verif.Props.Coefficient
import Verif.Props.Collective
import Verif.Props.Conditioning
import Verif.Props.Consistency
import Verif.Props.Continue
import Verif.Props.Counts
import Verif.Props.CovFl
import Verif.Props.Covariance
import Verif.Props.CurveErrors
import Verif.Props.Disp
import Verif.Props.DispFl
import Verif.Props.Documented
import Verif.Props.Efficiency
import Verif.Props.EndToEnd
import Verif.Props.EndToEndTotal
import Verif.Props.ErrorBar
import Verif.Props.ErrorBarPool
import Verif.Props.ErrorBarPoolTotal
import Verif.Props.ErrorBarTotal
import Verif.Props.Exceptions
import Verif.Props.FilePrecision
import Verif.Props.Fit
import Verif.Props.FitPrecision
import Verif.Props.FitRounding
import Verif.Props.FitRuns
import Verif.Props.FitTrajectory
import Verif.Props.Formats
import Verif.Props.FromPaths
import Verif.Props.GLS
import Verif.Props.GetDisps
import Verif.Props.GradientBias
import Verif.Props.GridFl
import Verif.Props.GridTotal
import Verif.Props.Grids
import Verif.Props.History
import Verif.Props.Increments
import Verif.Props.Intervals
import Verif.Props.Lengths
import Verif.Props.Limits
import Verif.Props.LongFit
import Verif.Props.LongTotal
import Verif.Props.LongTotalLine
import Verif.Props.ModelFit
import Verif.Props.Molecules
import Verif.Props.MsdFl
import Verif.Props.NernstEinstein
import Verif.Props.Ngp
import Verif.Props.NgpGaussian
import Verif.Props.Observables
import Verif.Props.Offset
import Verif.Props.Overlap
import Verif.Props.OverlapTotal
import Verif.Props.Parser
import Verif.Props.Paths
import Verif.Props.Persist
import Verif.Props.PersistAnalyzer
import Verif.Props.PersistClass
import Verif.Props.PersistFile
import Verif.Props.PoolContent
import Verif.Props.PoolFit
import Verif.Props.PoolModel
import Verif.Props.PoolOrder
import Verif.Props.PoolTotal
import Verif.Props.Pooled
import Verif.Props.PooledOne
import Verif.Props.Precision
import Verif.Props.Random
import Verif.Props.RandomWalk
import Verif.Props.RandomWalkTotal
import Verif.Props.Relations
import Verif.Props.Resample
import Verif.Props.Rescale
import Verif.Props.Results
import Verif.Props.Reversal
import Verif.Props.Select
import Verif.Props.Selected
import Verif.Props.Session
import Verif.Props.Shortest
import Verif.Props.SingleOrigin
import Verif.Props.Species
import Verif.Props.StartDt
import Verif.Props.Statistics
import Verif.Props.SubFit
import Verif.Props.Supercell
import Verif.Props.Swapped
import Verif.Props.Symmetry
import Verif.Props.TimeGrid
import Verif.Props.TimesFl
import Verif.Props.Totality
import Verif.Props.Unbiased
import Verif.Props.Units
import Verif.Props.VarFl
import Verif.Props.Width

/-! Generated by tools/mkmanifest.py: the axioms behind every property theorem. -/

#print axioms Kinisi.C01_unwrap_recovers_path
#print axioms Kinisi.C02_steps_are_minimum_images
#print axioms Kinisi.C02_minimum_image_unique
#print axioms Kinisi.C03_image_invariance_partial
#print axioms Kinisi.C03_violated_npt
#print axioms Kinisi.C04_warning_exact
#print axioms Kinisi.C05_outcomes
#print axioms Kinisi.C06_drift_correction
#print axioms Kinisi.C06_no_framework
#print axioms Kinisi.C06_bad_index
#print axioms Kinisi.C07_linear_intervals
#print axioms Kinisi.C07_linear_intervals_rounded
#print axioms Kinisi.C07_degenerate_counts
#print axioms Kinisi.C08_distinct_iff_partial
#print axioms Kinisi.C08_default_max_distinct_partial
#print axioms Kinisi.C08_violated
#print axioms Kinisi.C09_default_intervals
#print axioms Kinisi.C09_default_intervals_rounded_partial
#print axioms Kinisi.C09_violated_binary64
#print axioms Kinisi.C10_logarithmic_intervals
#print axioms Kinisi.C10_logarithmic_intervals_real
#print axioms Kinisi.C10_other_spacing
#print axioms Kinisi.C100_readable_partial
#print axioms Kinisi.C100_violated_n_i
#print axioms Kinisi.C101_msd
#print axioms Kinisi.C101_mstd
#print axioms Kinisi.C101_mscd
#print axioms Kinisi.C101_breathing
#print axioms Kinisi.C102_msd
#print axioms Kinisi.C102_mstd
#print axioms Kinisi.C102_mscd
#print axioms Kinisi.C103_msd_partial
#print axioms Kinisi.C103_mstd_partial
#print axioms Kinisi.C103_mscd_partial
#print axioms Kinisi.C103_violated
#print axioms Kinisi.C104_mean
#print axioms Kinisi.C104_sign
#print axioms Kinisi.C104_msd
#print axioms Kinisi.C104_mstd
#print axioms Kinisi.C104_mscd
#print axioms Kinisi.C105_ase
#print axioms Kinisi.C105_pymatgen
#print axioms Kinisi.C105_mda
#print axioms Kinisi.C105_increasing
#print axioms Kinisi.C106_rejects_partial
#print axioms Kinisi.C106_unchecked
#print axioms Kinisi.C106_violated
#print axioms Kinisi.C107_msd
#print axioms Kinisi.C107_mstd
#print axioms Kinisi.C107_mscd
#print axioms Kinisi.C108_resample
#print axioms Kinisi.C109_swapped
#print axioms Kinisi.C109_violated
#print axioms Kinisi.C109_below_one_frame_partial
#print axioms Kinisi.C11_accepted_intervals_in_range
#print axioms Kinisi.C11_min_dt_too_large
#print axioms Kinisi.C11_max_dt_too_large
#print axioms Kinisi.C110_msd_partial
#print axioms Kinisi.C110_one_frame_late
#print axioms Kinisi.C110_variance
#print axioms Kinisi.C110_collective_empty
#print axioms Kinisi.C110_one_atom
#print axioms Kinisi.C110_violated
#print axioms Kinisi.C111_pool_partial
#print axioms Kinisi.C111_msd_partial
#print axioms Kinisi.C111_mstd_partial
#print axioms Kinisi.C111_mscd_partial
#print axioms Kinisi.C111_violated
#print axioms Kinisi.C112_latest
#print axioms Kinisi.C112_none
#print axioms Kinisi.C112_outcome
#print axioms Kinisi.C112_new
#print axioms Kinisi.C113_right_angles_partial
#print axioms Kinisi.C113_small_steps_partial
#print axioms Kinisi.C113_violated
#print axioms Kinisi.C114_partial
#print axioms Kinisi.C114_curves_partial
#print axioms Kinisi.C114_violated
#print axioms Kinisi.C115_atoms
#print axioms Kinisi.C115_molecules
#print axioms Kinisi.C116_variance
#print axioms Kinisi.C116_sign
#print axioms Kinisi.C116_equal_values
#print axioms Kinisi.C116_msd
#print axioms Kinisi.C116_mstd
#print axioms Kinisi.C116_mscd
#print axioms Kinisi.C116_ngp
#print axioms Kinisi.C117_partial
#print axioms Kinisi.C117_molecules_partial
#print axioms Kinisi.C117_floating_partial
#print axioms Kinisi.C117_violated
#print axioms Kinisi.C118_self_total
#print axioms Kinisi.C118_one_atom
#print axioms Kinisi.C118_charge
#print axioms Kinisi.C119_msd_partial
#print axioms Kinisi.C119_variance_partial
#print axioms Kinisi.C119_mstd_partial
#print axioms Kinisi.C119_mscd_partial
#print axioms Kinisi.C119_violated
#print axioms Kinisi.C12_multi_origin_windows
#print axioms Kinisi.C12_nothing_skipped
#print axioms Kinisi.C120_matrix
#print axioms Kinisi.C120_std
#print axioms Kinisi.C121_violated
#print axioms Kinisi.C121_partial
#print axioms Kinisi.C122_species
#print axioms Kinisi.C122_framework_needed
#print axioms Kinisi.C123_charges
#print axioms Kinisi.C123_sign
#print axioms Kinisi.C123_one_charge
#print axioms Kinisi.C123_sigma
#print axioms Kinisi.C124_msd
#print axioms Kinisi.C124_mstd
#print axioms Kinisi.C124_mscd
#print axioms Kinisi.C124_D
#print axioms Kinisi.C124_DJ
#print axioms Kinisi.C124_sigma
#print axioms Kinisi.C125_msd_partial
#print axioms Kinisi.C125_mstd_partial
#print axioms Kinisi.C125_mscd_partial
#print axioms Kinisi.C125_violated
#print axioms Kinisi.C126_likelihood
#print axioms Kinisi.C126_best_line
#print axioms Kinisi.C126_no_intercept
#print axioms Kinisi.C126_fit
#print axioms Kinisi.C126_ray_witness
#print axioms Kinisi.C127_ase_partial
#print axioms Kinisi.C127_pymatgen_partial
#print axioms Kinisi.C127_mda_partial
#print axioms Kinisi.C127_violated
#print axioms Kinisi.C128_standard_partial
#print axioms Kinisi.C128_default_partial
#print axioms Kinisi.C128_violated
#print axioms Kinisi.C128_super_partial
#print axioms Kinisi.C128_unit
#print axioms Kinisi.C129_fit_partial
#print axioms Kinisi.C129_model
#print axioms Kinisi.C129_violated
#print axioms Kinisi.C129_resamples_violated
#print axioms Kinisi.C129_estimate_partial
#print axioms Kinisi.C13_ase_partial
#print axioms Kinisi.C13_pymatgen_partial
#print axioms Kinisi.C13_mda_partial
#print axioms Kinisi.C13_violated
#print axioms Kinisi.C130_fit
#print axioms Kinisi.C130_results
#print axioms Kinisi.C130_diffusion
#print axioms Kinisi.C130_jump
#print axioms Kinisi.C130_conductivity
#print axioms Kinisi.C130_too_few
#print axioms Kinisi.C131_diffusion
#print axioms Kinisi.C131_jump
#print axioms Kinisi.C131_conductivity
#print axioms Kinisi.C132_same_object
#print axioms Kinisi.C132_nernst_einstein
#print axioms Kinisi.C133_intervals_partial
#print axioms Kinisi.C133_distinct
#print axioms Kinisi.C133_trajectory
#print axioms Kinisi.C133_violated
#print axioms Kinisi.C134_constant_atoms
#print axioms Kinisi.C134_likelihood
#print axioms Kinisi.C134_first_interval
#print axioms Kinisi.C134_intercept
#print axioms Kinisi.C134_fit
#print axioms Kinisi.C134_model
#print axioms Kinisi.C134_constant
#print axioms Kinisi.C135_spread
#print axioms Kinisi.C135_ray
#print axioms Kinisi.C135_start
#print axioms Kinisi.C136_no_intercept_partial
#print axioms Kinisi.C136_violated
#print axioms Kinisi.C136_total_no_intercept_partial
#print axioms Kinisi.C137_speed_limit
#print axioms Kinisi.C137_uniform
#print axioms Kinisi.C137_cage
#print axioms Kinisi.C138_neutral
#print axioms Kinisi.C138_matched
#print axioms Kinisi.C138_bound
#print axioms Kinisi.C139_msd
#print axioms Kinisi.C139_mstd
#print axioms Kinisi.C139_mscd
#print axioms Kinisi.C14_single_origin_uses_list_position_partial
#print axioms Kinisi.C14_consecutive_intervals_partial
#print axioms Kinisi.C14_violated
#print axioms Kinisi.C140_error
#print axioms Kinisi.C140_limit
#print axioms Kinisi.C140_line_error
#print axioms Kinisi.C140_line_limit
#print axioms Kinisi.C141_line
#print axioms Kinisi.C141_line_atoms
#print axioms Kinisi.C142_atoms
#print axioms Kinisi.C142_molecules
#print axioms Kinisi.C142_frames
#print axioms Kinisi.C142_sub_sample_dt
#print axioms Kinisi.C142_log_zero
#print axioms Kinisi.C142_resampling
#print axioms Kinisi.C142_ngp
#print axioms Kinisi.C142_thin
#print axioms Kinisi.C142_predictive_before
#print axioms Kinisi.C142_predictive_single
#print axioms Kinisi.C142_bounds
#print axioms Kinisi.C142_columns
#print axioms Kinisi.C142_save
#print axioms Kinisi.C142_load
#print axioms Kinisi.C143_msd
#print axioms Kinisi.C143_mstd
#print axioms Kinisi.C143_analyzer
#print axioms Kinisi.C144_mstd_error
#print axioms Kinisi.C144_mscd_error
#print axioms Kinisi.C144_limit
#print axioms Kinisi.C144_jump_fit
#print axioms Kinisi.C144_conductivity_fit
#print axioms Kinisi.C144_line_error
#print axioms Kinisi.C144_line_limit
#print axioms Kinisi.C144_ray_limit
#print axioms Kinisi.C145_pool_partial
#print axioms Kinisi.C145_species_partial
#print axioms Kinisi.C145_violated
#print axioms Kinisi.C146_combined
#print axioms Kinisi.C146_same
#print axioms Kinisi.C146_axes
#print axioms Kinisi.C146_total_axes
#print axioms Kinisi.C146_pool
#print axioms Kinisi.C146_species
#print axioms Kinisi.C147_model
#print axioms Kinisi.C147_measured
#print axioms Kinisi.C147_errors
#print axioms Kinisi.C147_close
#print axioms Kinisi.C147_early
#print axioms Kinisi.C147_runs
#print axioms Kinisi.C148_diffusion
#print axioms Kinisi.C148_jump
#print axioms Kinisi.C148_conductivity
#print axioms Kinisi.C149_model
#print axioms Kinisi.C149_runs
#print axioms Kinisi.C149_measured
#print axioms Kinisi.C15_alignment
#print axioms Kinisi.C150_curve
#print axioms Kinisi.C150_mean
#print axioms Kinisi.C150_path
#print axioms Kinisi.C151_definite_partial
#print axioms Kinisi.C151_line_partial
#print axioms Kinisi.C151_violated
#print axioms Kinisi.C152_matrix
#print axioms Kinisi.C152_fit
#print axioms Kinisi.C152_runs
#print axioms Kinisi.C153_runs
#print axioms Kinisi.C153_pool
#print axioms Kinisi.C153_species
#print axioms Kinisi.C153_strict
#print axioms Kinisi.C154_diffusion
#print axioms Kinisi.C154_jump
#print axioms Kinisi.C154_conductivity
#print axioms Kinisi.C155_coefficient
#print axioms Kinisi.C155_positive
#print axioms Kinisi.C155_share
#print axioms Kinisi.C155_early
#print axioms Kinisi.C155_runs
#print axioms Kinisi.C156_likelihood
#print axioms Kinisi.C156_double
#print axioms Kinisi.C156_all
#print axioms Kinisi.C156_fit
#print axioms Kinisi.C156_runs
#print axioms Kinisi.C157_error_bars
#print axioms Kinisi.C157_one_atom
#print axioms Kinisi.C158_error_bar
#print axioms Kinisi.C158_fit
#print axioms Kinisi.C159_mstd
#print axioms Kinisi.C159_mscd
#print axioms Kinisi.C159_mstd_longest
#print axioms Kinisi.C159_mscd_longest
#print axioms Kinisi.C159_independent
#print axioms Kinisi.C16_independent_observations
#print axioms Kinisi.C160_mstd
#print axioms Kinisi.C160_mscd
#print axioms Kinisi.C161_pool
#print axioms Kinisi.C162_mstd
#print axioms Kinisi.C162_atoms
#print axioms Kinisi.C162_mscd
#print axioms Kinisi.C162_msd
#print axioms Kinisi.C162_independent
#print axioms Kinisi.C163_mstd
#print axioms Kinisi.C163_mscd
#print axioms Kinisi.C17_memory_limit
#print axioms Kinisi.C18_pymatgen
#print axioms Kinisi.C18_mda
#print axioms Kinisi.C18_ase_partial
#print axioms Kinisi.C18_violated_ase
#print axioms Kinisi.C19_ase_partial
#print axioms Kinisi.C19_mda_partial
#print axioms Kinisi.C19_violated_pymatgen
#print axioms Kinisi.C20_species_partition
#print axioms Kinisi.C20_explicit_framework
#print axioms Kinisi.C21_species_no_drift_correction_partial
#print axioms Kinisi.C21_violated_flat
#print axioms Kinisi.C21_violated_molecules
#print axioms Kinisi.C22_flat_selection_partial
#print axioms Kinisi.C22_violated_explicit
#print axioms Kinisi.C23_violated
#print axioms Kinisi.C23_shifted_convention_partial
#print axioms Kinisi.C24_three_axes
#print axioms Kinisi.C24_centre_of_mass
#print axioms Kinisi.C25_image_invariance
#print axioms Kinisi.C25_translation
#print axioms Kinisi.C26_molecule_layout
#print axioms Kinisi.C26_errors
#print axioms Kinisi.C27_dimension
#print axioms Kinisi.C28_msd
#print axioms Kinisi.C28_nonneg
#print axioms Kinisi.C28_scaling
#print axioms Kinisi.C28_atom_order
#print axioms Kinisi.C28_additive
#print axioms Kinisi.C29_additive
#print axioms Kinisi.C29_mstd
#print axioms Kinisi.C30_mscd
#print axioms Kinisi.C30_scalar_charge
#print axioms Kinisi.C30_neutral
#print axioms Kinisi.C30_wrong_length
#print axioms Kinisi.C31_mscd_ignores_dimension
#print axioms Kinisi.C31_planar_partial
#print axioms Kinisi.C31_violated
#print axioms Kinisi.C32_variance_mstd
#print axioms Kinisi.C32_variance_mscd
#print axioms Kinisi.C32_block
#print axioms Kinisi.C32_block_total
#print axioms Kinisi.C32_variance
#print axioms Kinisi.C33_skipped_partial
#print axioms Kinisi.C33_violated
#print axioms Kinisi.C34_sub_sample_partial
#print axioms Kinisi.C34_total_partial
#print axioms Kinisi.C34_violated
#print axioms Kinisi.C35_ngp_value
#print axioms Kinisi.C35_ngp_bound
#print axioms Kinisi.C35_ngp_scale
#print axioms Kinisi.C36_ngp_max_partial
#print axioms Kinisi.C36_violated
#print axioms Kinisi.C37_budget
#print axioms Kinisi.C37_needed
#print axioms Kinisi.C38_warning_partial
#print axioms Kinisi.C38_violated
#print axioms Kinisi.C39_bootstrap_means
#print axioms Kinisi.C39_bayesian_means
#print axioms Kinisi.C40_covariance
#print axioms Kinisi.C40_short
#print axioms Kinisi.C41_psd_iff
#print axioms Kinisi.C42_model_psd
#print axioms Kinisi.C43_condition_partial
#print axioms Kinisi.C43_violated
#print axioms Kinisi.C44_fit_window
#print axioms Kinisi.C44_fit_points
#print axioms Kinisi.C44_no_interval
#print axioms Kinisi.C45_negative
#print axioms Kinisi.C45_maximum
#print axioms Kinisi.C45_maximum_normal
#print axioms Kinisi.C45_maximum_no_intercept
#print axioms Kinisi.C46_gradient_nonneg
#print axioms Kinisi.C46_start_nonneg
#print axioms Kinisi.C46_derived_nonneg
#print axioms Kinisi.C47_sample_count
#print axioms Kinisi.C47_D_count
#print axioms Kinisi.C48_diffusion
#print axioms Kinisi.C48_conductivity
#print axioms Kinisi.C48_scaling
#print axioms Kinisi.C48_zero
#print axioms Kinisi.C48_denominators
#print axioms Kinisi.C49_violated
#print axioms Kinisi.C49_with_intercept_partial
#print axioms Kinisi.C50_failed_fit_partial
#print axioms Kinisi.C50_violated
#print axioms Kinisi.C51_history
#print axioms Kinisi.C51_consistent
#print axioms Kinisi.C51_D
#print axioms Kinisi.C51_others
#print axioms Kinisi.C52_posterior_predictive
#print axioms Kinisi.C53_pool
#print axioms Kinisi.C53_msd
#print axioms Kinisi.C53_rejects_partial
#print axioms Kinisi.C53_violated
#print axioms Kinisi.C53_content_partial
#print axioms Kinisi.C54_msd_partial
#print axioms Kinisi.C54_mstd_violated
#print axioms Kinisi.C54_mscd_violated
#print axioms Kinisi.C54_violated
#print axioms Kinisi.C55_violated_always
#print axioms Kinisi.C55_violated
#print axioms Kinisi.C55_scalar_partial
#print axioms Kinisi.C56_pymatgen
#print axioms Kinisi.C56_ase
#print axioms Kinisi.C56_xdatcar
#print axioms Kinisi.C56_file
#print axioms Kinisi.C56_cut
#print axioms Kinisi.C57_unknown
#print axioms Kinisi.C57_universe
#print axioms Kinisi.C57_accepted
#print axioms Kinisi.C58_bootstrap
#print axioms Kinisi.C58_analyzer
#print axioms Kinisi.C58_msd_partial
#print axioms Kinisi.C58_mstd_partial
#print axioms Kinisi.C58_subsample_violated
#print axioms Kinisi.C58_mscd_violated
#print axioms Kinisi.C58_violated
#print axioms Kinisi.C58_distinct
#print axioms Kinisi.C59_analyzer
#print axioms Kinisi.C59_values
#print axioms Kinisi.C59_roundtrip
#print axioms Kinisi.C59_list_order
#print axioms Kinisi.C59_names
#print axioms Kinisi.C60_complete_partial
#print axioms Kinisi.C60_violated
#print axioms Kinisi.C60_no_intervals_violated
#print axioms Kinisi.C60_jump_violated
#print axioms Kinisi.C61_same_file
#print axioms Kinisi.C61_extension
#print axioms Kinisi.C61_change_extension
#print axioms Kinisi.C61_injective_partial
#print axioms Kinisi.C61_violated
#print axioms Kinisi.C62_existing
#print axioms Kinisi.C62_unchanged
#print axioms Kinisi.C62_interleaved_partial
#print axioms Kinisi.C62_violated
#print axioms Kinisi.C63_partial
#print axioms Kinisi.C63_stuck
#print axioms Kinisi.C63_violated
#print axioms Kinisi.C64_torn
#print axioms Kinisi.C64_failed_save
#print axioms Kinisi.C64_base
#print axioms Kinisi.C64_example
#print axioms Kinisi.C65_violated
#print axioms Kinisi.C65_base_partial
#print axioms Kinisi.C66_value
#print axioms Kinisi.C66_constant
#print axioms Kinisi.C66_pos
#print axioms Kinisi.C66_le_prefactor
#print axioms Kinisi.C66_increasing
#print axioms Kinisi.C66_decreasing
#print axioms Kinisi.C66_log_linear
#print axioms Kinisi.C66_two_points
#print axioms Kinisi.C67_shift
#print axioms Kinisi.C67_zero
#print axioms Kinisi.C67_above
#print axioms Kinisi.C67_decreasing_T0
#print axioms Kinisi.C68_history
#print axioms Kinisi.C68_violated
#print axioms Kinisi.C68_caller_modified
#print axioms Kinisi.C68_explicit_partial
#print axioms Kinisi.C68_first_partial
#print axioms Kinisi.C69_standard
#print axioms Kinisi.C69_super
#print axioms Kinisi.C69_samples
#print axioms Kinisi.C69_samples_super
#print axioms Kinisi.C70_ase
#print axioms Kinisi.C70_pymatgen
#print axioms Kinisi.C70_images
#print axioms Kinisi.C71_indices_partial
#print axioms Kinisi.C71_violated
#print axioms Kinisi.C72_pymatgen
#print axioms Kinisi.C72_mda
#print axioms Kinisi.C72_thinned_frames
#print axioms Kinisi.C72_ase_partial
#print axioms Kinisi.C72_violated_ase
#print axioms Kinisi.C73_whole_multiples
#print axioms Kinisi.C73_range
#print axioms Kinisi.C73_violated_binary64
#print axioms Kinisi.C73_rounded_partial
#print axioms Kinisi.C74_ase_pymatgen
#print axioms Kinisi.C74_mda
#print axioms Kinisi.C75_sub_sample_atoms
#print axioms Kinisi.C75_kept_atoms
#print axioms Kinisi.C76_violated
#print axioms Kinisi.C76_default_partial
#print axioms Kinisi.C76_ase_partial
#print axioms Kinisi.C76_pymatgen_partial
#print axioms Kinisi.C76_universe_partial
#print axioms Kinisi.C76_logarithmic_partial
#print axioms Kinisi.C76_logarithmic_pymatgen_partial
#print axioms Kinisi.C76_logarithmic_universe_partial
#print axioms Kinisi.C76_atoms_ase_partial
#print axioms Kinisi.C76_atoms_pymatgen_partial
#print axioms Kinisi.C76_atoms_universe_partial
#print axioms Kinisi.C76_violated_empty
#print axioms Kinisi.C77_ascending_partial
#print axioms Kinisi.C77_violated
#print axioms Kinisi.C77_end_point
#print axioms Kinisi.C78_mda
#print axioms Kinisi.C78_ase_mda_agree
#print axioms Kinisi.C79_bounds_partial
#print axioms Kinisi.C79_selection_partial
#print axioms Kinisi.C79_molecules_partial
#print axioms Kinisi.C79_ase
#print axioms Kinisi.C79_pymatgen_partial
#print axioms Kinisi.C79_mda
#print axioms Kinisi.C79_violated
#print axioms Kinisi.C80_mstd
#print axioms Kinisi.C80_mscd
#print axioms Kinisi.C81_drift
#print axioms Kinisi.C81_rotation
#print axioms Kinisi.C81_length_unit
#print axioms Kinisi.C81_order
#print axioms Kinisi.C81_order_charges
#print axioms Kinisi.C81_drift_needs_framework
#print axioms Kinisi.C82_time_unit
#print axioms Kinisi.C82_intervals
#print axioms Kinisi.C83_reversal_partial
#print axioms Kinisi.C83_violated
#print axioms Kinisi.C84_flag_msd
#print axioms Kinisi.C84_flag_mstd
#print axioms Kinisi.C84_flag_mscd
#print axioms Kinisi.C84_off
#print axioms Kinisi.C84_msd
#print axioms Kinisi.C84_mstd
#print axioms Kinisi.C84_mscd
#print axioms Kinisi.C85_distribution
#print axioms Kinisi.C85_flatchain
#print axioms Kinisi.C85_predictive
#print axioms Kinisi.C86_constant_volume_partial
#print axioms Kinisi.C86_first_frame
#print axioms Kinisi.C86_violated
#print axioms Kinisi.C87_exact_line
#print axioms Kinisi.C87_fit
#print axioms Kinisi.C88_fit
#print axioms Kinisi.C88_D
#print axioms Kinisi.C89_efficient
#print axioms Kinisi.C89_efficient_no_intercept
#print axioms Kinisi.C90_times
#print axioms Kinisi.C90_from_dt
#print axioms Kinisi.C90_start_exact
#print axioms Kinisi.C90_start_rounded_partial
#print axioms Kinisi.C90_violated_binary64
#print axioms Kinisi.C91_images
#print axioms Kinisi.C91_path
#print axioms Kinisi.C92_gaussian_value
#print axioms Kinisi.C92_three_axes_partial
#print axioms Kinisi.C92_violated
#print axioms Kinisi.C93_ase_partial
#print axioms Kinisi.C93_pymatgen_partial
#print axioms Kinisi.C93_mda_partial
#print axioms Kinisi.C93_violated
#print axioms Kinisi.C94_disjoint_windows_partial
#print axioms Kinisi.C94_violated
#print axioms Kinisi.C95_model_variance
#print axioms Kinisi.C95_model_matrix
#print axioms Kinisi.C96_mstd
#print axioms Kinisi.C96_mscd
#print axioms Kinisi.C97_error
#print axioms Kinisi.C97_limit
#print axioms Kinisi.C98_diffusion
#print axioms Kinisi.C98_jump
#print axioms Kinisi.C98_conductivity
#print axioms Kinisi.C98_mean
#print axioms Kinisi.C99_results_partial
#print axioms Kinisi.C99_session_partial
#print axioms Kinisi.C99_violated_global
#print axioms Kinisi.C99_violated_predictive
#print axioms Kinisi.C99_values
#print axioms Kinisi.C99_built
#print axioms Kinisi.C99_last
#print axioms Kinisi.C99_end_partial

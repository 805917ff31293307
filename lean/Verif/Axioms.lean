import Verif.Props.AbaqusLinks
import Verif.Props.AbaqusLinksBack
import Verif.Props.AbaqusLinksCases
import Verif.Props.AbaqusLinksConvert
import Verif.Props.CompositeParameters
import Verif.Props.CompositeParametersCases
import Verif.Props.ConeReturn
import Verif.Props.ConeReturnCases
import Verif.Props.ConsistentTangent
import Verif.Props.ConsistentTangentDP
import Verif.Props.ConsistentTangentMixed
import Verif.Props.ConsistentTangentVMAP
import Verif.Props.ConvergenceData
import Verif.Props.ConvergenceDataCases
import Verif.Props.ConvergenceParameters
import Verif.Props.ConvergencePaths
import Verif.Props.ConvexBoundary
import Verif.Props.ConvexityMapping
import Verif.Props.DPUnits
import Verif.Props.Dataset
import Verif.Props.DatasetFeatures
import Verif.Props.Denoise
import Verif.Props.Devices
import Verif.Props.DirichletSets
import Verif.Props.Dissipation
import Verif.Props.DruckerPrager
import Verif.Props.DruckerPragerVMAP
import Verif.Props.Elastic
import Verif.Props.ElasticElement
import Verif.Props.ElementCheck
import Verif.Props.Elements
import Verif.Props.FinderForward
import Verif.Props.FinderForwardCases
import Verif.Props.FinderObject
import Verif.Props.FinderTraining
import Verif.Props.FinderTrainingCases
import Verif.Props.FiniteElementTables
import Verif.Props.FitScalers
import Verif.Props.ForceEquilibrium
import Verif.Props.FrameForces
import Verif.Props.Gradients
import Verif.Props.GroupedBars
import Verif.Props.Gru
import Verif.Props.Hardening
import Verif.Props.Hybrid
import Verif.Props.HybridInit
import Verif.Props.HybridLayers
import Verif.Props.HybridSetup
import Verif.Props.InternalForces
import Verif.Props.Iostandard
import Verif.Props.Kelvin
import Verif.Props.KelvinMore
import Verif.Props.LawComparison
import Verif.Props.LearnableParameters
import Verif.Props.LinksFile
import Verif.Props.LinksFileCases
import Verif.Props.LinksOutput
import Verif.Props.LinksOutputCases
import Verif.Props.LinksRun
import Verif.Props.LinksRunCases
import Verif.Props.LmuData
import Verif.Props.LmuDataCases
import Verif.Props.LmuParameters
import Verif.Props.LmuUpdate
import Verif.Props.LoadIncrements
import Verif.Props.LoadIncrementsRead
import Verif.Props.Loss
import Verif.Props.LouApex
import Verif.Props.LouJacobian
import Verif.Props.LouNewton
import Verif.Props.LouNumerical
import Verif.Props.LouObjectivity
import Verif.Props.LouStress
import Verif.Props.LouUnits
import Verif.Props.LouUpdate
import Verif.Props.LouVMAP
import Verif.Props.LouVonMises
import Verif.Props.LowPass
import Verif.Props.MeanMetrics
import Verif.Props.MeanMetricsCases
import Verif.Props.MeanMetricsFile
import Verif.Props.Mesh
import Verif.Props.MeshRemoval
import Verif.Props.MixedReturn
import Verif.Props.ModelInit
import Verif.Props.ModelScripts
import Verif.Props.ModelState
import Verif.Props.Noise
import Verif.Props.NoiseConvergence
import Verif.Props.NoiselessDataset
import Verif.Props.NoisyDataset
import Verif.Props.NoisyDatasetCases
import Verif.Props.NoisyHistory
import Verif.Props.NoisyHistoryCases
import Verif.Props.NumberFormat
import Verif.Props.NumberFormatCases
import Verif.Props.Objectivity
import Verif.Props.OptimizationPlot
import Verif.Props.ParameterDict
import Verif.Props.ParameterSurfaces
import Verif.Props.PatchAnalysis
import Verif.Props.PatchCorners
import Verif.Props.PatchEdges
import Verif.Props.PatchGenerate
import Verif.Props.PatchQueries
import Verif.Props.PatchRuns
import Verif.Props.PatchRunsCases
import Verif.Props.PatchRunsFaults
import Verif.Props.PatchSolid
import Verif.Props.PatchSolidCases
import Verif.Props.PatchSolidEdges
import Verif.Props.PatchSolidNodes
import Verif.Props.PatchTest
import Verif.Props.PlaneStrain
import Verif.Props.Prediction
import Verif.Props.PredictionComparison
import Verif.Props.PredictionData
import Verif.Props.PredictionDataCases
import Verif.Props.Proportional
import Verif.Props.Pruning
import Verif.Props.PruningCases
import Verif.Props.PruningCompletes
import Verif.Props.PruningPreview
import Verif.Props.PruningRun
import Verif.Props.ReactionHistory
import Verif.Props.RecurrentForward
import Verif.Props.RecurrentForwardCases
import Verif.Props.RecurrentInit
import Verif.Props.ReferencePaths
import Verif.Props.ResponseDataset
import Verif.Props.ResponseFiles
import Verif.Props.ReturnMapping
import Verif.Props.ReturnMappingCases
import Verif.Props.ReturnMappingTables
import Verif.Props.SampleFiles
import Verif.Props.SampleFilesCases
import Verif.Props.Scalers
import Verif.Props.ScatterPlot
import Verif.Props.SeriesPlot
import Verif.Props.SpecimenDirichlet
import Verif.Props.SpecimenDirichletCases
import Verif.Props.SpecimenDirichletFile
import Verif.Props.SpecimenHistory
import Verif.Props.SpecimenHistoryCases
import Verif.Props.SpecimenMesh
import Verif.Props.SpecimenMeshCases
import Verif.Props.SpecimenPlots
import Verif.Props.SpecimenSetters
import Verif.Props.SpecimenWork
import Verif.Props.Stability
import Verif.Props.StabilityCone
import Verif.Props.State2D3D
import Verif.Props.StatePlot
import Verif.Props.StrainPath
import Verif.Props.StressFeatures
import Verif.Props.StressSpace
import Verif.Props.StressSpaceCases
import Verif.Props.StructureState
import Verif.Props.StructuredMesh
import Verif.Props.TangentForm
import Verif.Props.Tensorops
import Verif.Props.TimeSeriesBatch
import Verif.Props.Training
import Verif.Props.TrainingRecords
import Verif.Props.TrainingState
import Verif.Props.TruthPlot
import Verif.Props.TypeConversion
import Verif.Props.UncertaintyPaths
import Verif.Props.UncertaintyRuns
import Verif.Props.UniaxialPath
import Verif.Props.UniaxialPathCases
import Verif.Props.Uniqueness
import Verif.Props.Units
import Verif.Props.Voigt
import Verif.Props.VolumetricBar
import Verif.Props.VonMises
import Verif.Props.VonMisesMixed
import Verif.Props.VonMisesMixedVMAP
import Verif.Props.VonMisesVMAP
import Verif.Props.YieldConvexity
import Verif.Props.YieldSurface

/-! Axioms of every claimed theorem (expected: at most `propext`,
`Classical.choice`, `Quot.sound`). -/

#print axioms Hooke.C01_roundtrip_full
#print axioms Hooke.C01_roundtrip_sym
#print axioms Hooke.C01_nokelvin_violated
#print axioms Hooke.C02_roundtrip_full
#print axioms Hooke.C02_roundtrip_sym
#print axioms Hooke.C03_roundtrip_full
#print axioms Hooke.C03_roundtrip_sym
#print axioms Hooke.C03_mf_roundtrip_sym
#print axioms Hooke.C04_inner_product
#print axioms Hooke.C04_contraction
#print axioms Hooke.C05_vget_tensor_mf
#print axioms Hooke.C05_vget_tensor_from_mf_partial
#print axioms Hooke.C05_nokelvin_violated
#print axioms Hooke.C06_rejects_exactly_malformed
#print axioms Hooke.C06_incomplete_order_loses_information
#print axioms Hooke.C06_from_mf_accepts
#print axioms Hooke.C07_strain_recovered
#print axioms Hooke.C07_vector_recovered
#print axioms Hooke.C07_work_conjugate
#print axioms Hooke.C07_vget_strain
#print axioms Hooke.C07_vget_stress
#print axioms Hooke.C08_projections
#print axioms Hooke.C09_actions
#print axioms Hooke.C09_traceless_iff
#print axioms Hooke.C09_sym_traceless_iff
#print axioms Hooke.C09_dev_idempotent_3d
#print axioms Hooke.C09_traceless_2d_violated
#print axioms Hooke.C09_fo_dinv_sym
#print axioms Hooke.C09_dd
#print axioms Hooke.C10_2d_3d_2d
#print axioms Hooke.C10_rejects
#print axioms Hooke.C10_tangent_block
#print axioms Hooke.C11_kronecker
#print axioms Hooke.C11_interpolates
#print axioms Hooke.C12_partition_of_unity
#print axioms Hooke.C12_affine
#print axioms Hooke.C13_derivatives
#print axioms Hooke.C13_sum_zero
#print axioms Hooke.C13_nodes
#print axioms Hooke.C14_exact
#print axioms Hooke.C14_available
#print axioms Hooke.C14_points
#print axioms Hooke.C14_element_init
#print axioms Hooke.C15_sym_gradient
#print axioms Hooke.C15_gradient
#print axioms Hooke.C15_default_order
#print axioms Hooke.C16_sym
#print axioms Hooke.C16_nsym
#print axioms Hooke.C16_rejects
#print axioms Hooke.C17_patch
#print axioms Hooke.C17_singular_raises
#print axioms Hooke.C17_det_check
#print axioms Hooke.C18_virtual_work
#print axioms Hooke.C18_self_equilibrated
#print axioms Hooke.C19_states
#print axioms Hooke.C19_unsupported_raises
#print axioms Hooke.C19_returns
#print axioms Hooke.C20_assembly
#print axioms Hooke.C20_order_independent
#print axioms Hooke.C20_bad_label
#print axioms Hooke.C21_extract
#print axioms Hooke.C21_indexing
#print axioms Hooke.C21_batched_indexing
#print axioms Hooke.C21_mixed_raises
#print axioms Hooke.C21_adjoint
#print axioms Hooke.C22_history
#print axioms Hooke.C22_unknown_time
#print axioms Hooke.C22_element
#print axioms Hooke.C23_registers
#print axioms Hooke.C23_converge_alias_violated
#print axioms Hooke.C23_nocopy_alias_violated
#print axioms Hooke.C23_sweep_without_copies
#print axioms Hooke.C24_isotropic_tangent
#print axioms Hooke.C24_uniaxial
#print axioms Hooke.C24_moduli
#print axioms Hooke.C24_parameterisations
#print axioms Hooke.C24_technical
#print axioms Hooke.C24_raises
#print axioms Hooke.C24_symmetric_modulus_violated
#print axioms Hooke.C25_history
#print axioms Hooke.C25_path_independent
#print axioms Hooke.C25_closed_path
#print axioms Hooke.C25_tangent
#print axioms Hooke.C26_segment
#print axioms Hooke.C26_interpolates
#print axioms Hooke.C26_outside
#print axioms Hooke.C26_monotone
#print axioms Hooke.C26_slope
#print axioms Hooke.C26_slope_at_points
#print axioms Hooke.C26_checks
#print axioms Hooke.C27_linear
#print axioms Hooke.C27_nadai_partial
#print axioms Hooke.C27_nadai_violated
#print axioms Hooke.C27_nadai_slope
#print axioms Hooke.C27_selection
#print axioms Hooke.C28_failure_iff
#print axioms Hooke.C28_success
#print axioms Hooke.C28_failure_state
#print axioms Hooke.C29_elastic_step
#print axioms Hooke.C30_yield_condition
#print axioms Hooke.C30_flow_rule
#print axioms Hooke.C31_accumulated
#print axioms Hooke.C31_history
#print axioms Hooke.C31_monotone
#print axioms Hooke.C32_linear_exact
#print axioms Hooke.C32_never_fails
#print axioms Hooke.C33_masked_loop
#print axioms Hooke.C33_masked_elastic
#print axioms Hooke.C33_batched_refines_standard
#print axioms Hooke.C33_batched_failure_iff
#print axioms Hooke.C33_linear
#print axioms Hooke.C34_unit_iff
#print axioms Hooke.C34_small_zero
#print axioms Hooke.C34_error_bound
#print axioms Hooke.C34_unit_violated
#print axioms Hooke.C34_stress
#print axioms Hooke.C35_history
#print axioms Hooke.C35_relative_stress
#print axioms Hooke.C35_yield_partial
#print axioms Hooke.C35_yield_violated
#print axioms Hooke.C36_failure_iff
#print axioms Hooke.C36_elastic_step
#print axioms Hooke.C36_cone
#print axioms Hooke.C36_cone_flow
#print axioms Hooke.C36_apex
#print axioms Hooke.C36_history
#print axioms Hooke.C36_linear
#print axioms Hooke.C36_linear_never_fails
#print axioms Hooke.C37_direction_norm
#print axioms Hooke.C37_unit_iff
#print axioms Hooke.C37_unit_violated
#print axioms Hooke.C38_minmax_inverse
#print axioms Hooke.C38_minmax_inverse_right
#print axioms Hooke.C38_minmax_zero_range
#print axioms Hooke.C38_standard_round_trip
#print axioms Hooke.C38_standard_inverse
#print axioms Hooke.C38_standard_lossy_iff
#print axioms Hooke.C38_wrong_shape
#print axioms Hooke.C39_minmax
#print axioms Hooke.C39_minmax_empty
#print axioms Hooke.C39_minmax_constant_violated
#print axioms Hooke.C39_standard
#print axioms Hooke.C40_mean_std
#print axioms Hooke.C40_min_max
#print axioms Hooke.C40_order
#print axioms Hooke.C40_errors
#print axioms Hooke.C41_nonneg
#print axioms Hooke.C41_zero_iff
#print axioms Hooke.C41_regularizer_le_clip
#print axioms Hooke.C41_absolute_eq_clip
#print axioms Hooke.C41_unknown
#print axioms Hooke.C41_names
#print axioms Hooke.C42_tensor_nested_violated
#print axioms Hooke.C42_tensor_flat
#print axioms Hooke.C42_tensor_copy_drops_violated
#print axioms Hooke.C42_tensor_copy_witness_violated
#print axioms Hooke.C42_float_converts
#print axioms Hooke.C42_float_only
#print axioms Hooke.C42_float_inplace
#print axioms Hooke.C42_float_copy_top
#print axioms Hooke.C42_float_copy_unchanged_iff
#print axioms Hooke.C42_float_copy_violated
#print axioms Hooke.C43_partition
#print axioms Hooke.C43_samples
#print axioms Hooke.C43_sizes
#print axioms Hooke.C43_succeeds
#print axioms Hooke.C43_rejected
#print axioms Hooke.C43_parent_indices
#print axioms Hooke.C43_parent_indices_ok
#print axioms Hooke.C43_parent_of_base
#print axioms Hooke.C44_history
#print axioms Hooke.C44_get_contents
#print axioms Hooke.C44_index_alias
#print axioms Hooke.C45_concat
#print axioms Hooke.C45_concat_remove
#print axioms Hooke.C45_concat_remove_collision_violated
#print axioms Hooke.C45_remove_ignored_for_files
#print axioms Hooke.C45_missing_feature
#print axioms Hooke.C45_subset_of_files_violated
#print axioms Hooke.C45_sum
#print axioms Hooke.C45_sum_remove
#print axioms Hooke.C45_sum_default_violated
#print axioms Hooke.C45_feature_init
#print axioms Hooke.C46_rename
#print axioms Hooke.C46_swap_violated
#print axioms Hooke.C46_in_memory_violated
#print axioms Hooke.C47_refinement
#print axioms Hooke.C47_save_load
#print axioms Hooke.C47_backup_file_violated
#print axioms Hooke.C48_one_best
#print axioms Hooke.C48_no_posterior
#print axioms Hooke.C49_missing_epoch_violated
#print axioms Hooke.C49_missing_init_violated
#print axioms Hooke.C49_failed_load_partial
#print axioms Hooke.C49_several_best
#print axioms Hooke.C50_unknown_epoch_violated
#print axioms Hooke.C50_value_error_violated
#print axioms Hooke.C51_best_violated
#print axioms Hooke.C51_other_files_partial
#print axioms Hooke.C52_train
#print axioms Hooke.C52_coincide
#print axioms Hooke.C52_tie_violated
#print axioms Hooke.C52_nan_violated
#print axioms Hooke.C53_train
#print axioms Hooke.C53_final_epoch_violated
#print axioms Hooke.C53_old_file_violated
#print axioms Hooke.C53_nan_validation_violated
#print axioms Hooke.C54_proportional
#print axioms Hooke.C54_random
#print axioms Hooke.C54_too_short
#print axioms Hooke.C54_proportional_total
#print axioms Hooke.C54_noise
#print axioms Hooke.C54_noise_total
#print axioms Hooke.C54_random_start
#print axioms Hooke.C55_proportional
#print axioms Hooke.C55_proportional_line
#print axioms Hooke.C55_random_partial
#print axioms Hooke.C55_random_scaling
#print axioms Hooke.C55_random_violated
#print axioms Hooke.C55_bounds_without_zero_violated
#print axioms Hooke.C56_proportional
#print axioms Hooke.C56_random
#print axioms Hooke.C56_norm
#print axioms Hooke.C56_monotone
#print axioms Hooke.C56_reversal_violated
#print axioms Hooke.C56_errors
#print axioms Hooke.C57_build
#print axioms Hooke.C57_store
#print axioms Hooke.C57_roundtrip
#print axioms Hooke.C57_missing
#print axioms Hooke.C57_vol
#print axioms Hooke.C57_dev
#print axioms Hooke.C57_dev_violated
#print axioms Hooke.C57_strain
#print axioms Hooke.C57_strain_frame
#print axioms Hooke.C57_errors
#print axioms Hooke.C57_dataset
#print axioms Hooke.C57_dataset_strain
#print axioms Hooke.C58_strain
#print axioms Hooke.C58_3d
#print axioms Hooke.C58_2d_violated
#print axioms Hooke.C58_split_3d
#print axioms Hooke.C58_split_2d_violated
#print axioms Hooke.C59_loop
#print axioms Hooke.C59_zero
#print axioms Hooke.C59_normalised
#print axioms Hooke.C59_normalised_violated
#print axioms Hooke.C59_hist
#print axioms Hooke.C59_modes
#print axioms Hooke.C59_time_bc_violated
#print axioms Hooke.C59_components
#print axioms Hooke.C59_components_violated
#print axioms Hooke.C60_smallest_label
#print axioms Hooke.C60_sets
#print axioms Hooke.C60_no_free_violated
#print axioms Hooke.C60_reaction
#print axioms Hooke.C60_components
#print axioms Hooke.C60_check
#print axioms Hooke.C60_sequential_violated
#print axioms Hooke.C61_vectorised_assembly
#print axioms Hooke.C62_construct
#print axioms Hooke.C62_initial
#print axioms Hooke.C62_roundtrip
#print axioms Hooke.C62_bounds
#print axioms Hooke.C62_equal_bounds_violated
#print axioms Hooke.C62_normalized_out_violated
#print axioms Hooke.C62_nan_violated
#print axioms Hooke.C62_sync
#print axioms Hooke.C62_sync_friction_angle
#print axioms Hooke.C62_sync_overwritten_violated
#print axioms Hooke.C63_dict
#print axioms Hooke.C63_prefix_needed
#print axioms Hooke.C63_prefix_order
#print axioms Hooke.C64_directory_ends
#print axioms Hooke.C64_directory_new
#print axioms Hooke.C64_directory_succeeds
#print axioms Hooke.C64_directory_file_violated
#print axioms Hooke.C64_directory_distinct
#print axioms Hooke.C64_overwrite
#print axioms Hooke.C64_file_ends
#print axioms Hooke.C64_file_new
#print axioms Hooke.C64_extension
#print axioms Hooke.C64_file_directory_violated
#print axioms Hooke.C65_tables
#print axioms Hooke.C65_unknown
#print axioms Hooke.C65_zero
#print axioms Hooke.C65_zero_violated
#print axioms Hooke.C66_collate
#print axioms Hooke.C66_values
#print axioms Hooke.C66_empty
#print axioms Hooke.C66_metrics
#print axioms Hooke.C66_metrics_sign
#print axioms Hooke.C66_mav_needs_targets_violated
#print axioms Hooke.C66_unknown_metric
#print axioms Hooke.C67_shape
#print axioms Hooke.C67_mean
#print axioms Hooke.C67_bounds
#print axioms Hooke.C67_constant
#print axioms Hooke.C67_linear
#print axioms Hooke.C67_raises
#print axioms Hooke.C67_type_violated
#print axioms Hooke.C67_no_cycle
#print axioms Hooke.C67_ramp
#print axioms Hooke.C68_dyads
#print axioms Hooke.C68_contractions
#print axioms Hooke.C68_single_contractions
#print axioms Hooke.C69_single
#print axioms Hooke.C69_pair
#print axioms Hooke.C70_batched_history
#print axioms Hooke.C70_bad_time
#print axioms Hooke.C70_stale_coordinates_violated
#print axioms Hooke.C71_conventional_raises
#print axioms Hooke.C71_assignment
#print axioms Hooke.C71_gru_violated
#print axioms Hooke.C71_assignable
#print axioms Hooke.C72_gradient
#print axioms Hooke.C72_gradient_zero_target_violated
#print axioms Hooke.C72_gradient_finite
#print axioms Hooke.C73_mapping
#print axioms Hooke.C73_boundary
#print axioms Hooke.C73_inadmissible_violated
#print axioms Hooke.C73_constraints
#print axioms Hooke.C73_leaves_bounds_violated
#print axioms Hooke.C73_one_learnable_violated
#print axioms Hooke.C74_polynomial
#print axioms Hooke.C74_constant
#print axioms Hooke.C74_linear
#print axioms Hooke.C74_single_precision_violated
#print axioms Hooke.C75_spectrum
#print axioms Hooke.C75_determined
#print axioms Hooke.C75_linear
#print axioms Hooke.C75_mean
#print axioms Hooke.C75_extreme
#print axioms Hooke.C75_idempotent
#print axioms Hooke.C75_energy
#print axioms Hooke.C76_batched
#print axioms Hooke.C76_unbatched
#print axioms Hooke.C76_default
#print axioms Hooke.C76_batch_independent
#print axioms Hooke.C76_causal
#print axioms Hooke.C76_resume
#print axioms Hooke.C76_bounded
#print axioms Hooke.C76_model
#print axioms Hooke.C76_model_batched
#print axioms Hooke.C76_raises
#print axioms Hooke.C77_reload
#print axioms Hooke.C77_relocate
#print axioms Hooke.C77_operations
#print axioms Hooke.C77_missing
#print axioms Hooke.C77_reloaded_violated
#print axioms Hooke.C77_failed_fit_violated
#print axioms Hooke.C77_set_fitted_violated
#print axioms Hooke.C77_get_device_violated
#print axioms Hooke.C77_path_violated
#print axioms Hooke.C77_path
#print axioms Hooke.C77_crash_violated
#print axioms Hooke.C78_loader
#print axioms Hooke.C78_predict
#print axioms Hooke.C78_batch_size
#print axioms Hooke.C78_seed_violated
#print axioms Hooke.C78_no_targets_violated
#print axioms Hooke.C78_zero_loss_violated
#print axioms Hooke.C78_empty
#print axioms Hooke.C79_refinement
#print axioms Hooke.C79_paired
#print axioms Hooke.C79_saved
#print axioms Hooke.C79_validated
#print axioms Hooke.C79_resume_violated
#print axioms Hooke.C79_crash_violated
#print axioms Hooke.C79_validation_violated
#print axioms Hooke.C80_channels
#print axioms Hooke.C80_duplicate
#print axioms Hooke.C80_order
#print axioms Hooke.C81_identity
#print axioms Hooke.C81_additive
#print axioms Hooke.C81_normalized
#print axioms Hooke.C81_no_method_violated
#print axioms Hooke.C81_in_normalized_violated
#print axioms Hooke.C82_elastic
#print axioms Hooke.C82_elastic_moduli
#print axioms Hooke.C82_elastic_raises
#print axioms Hooke.C82_symmetry_violated
#print axioms Hooke.C82_composition
#print axioms Hooke.C82_composition_raises
#print axioms Hooke.C82_composition_violated
#print axioms Hooke.C82_polynomial
#print axioms Hooke.C82_polynomial_complete
#print axioms Hooke.C82_polynomial_raises
#print axioms Hooke.C83_elastic
#print axioms Hooke.C83_exact
#print axioms Hooke.C83_linear
#print axioms Hooke.C84_elastic
#print axioms Hooke.C84_linear
#print axioms Hooke.C85_elastic
#print axioms Hooke.C85_apex
#print axioms Hooke.C85_cone
#print axioms Hooke.C85_cone_violated
#print axioms Hooke.C86_failure_iff
#print axioms Hooke.C86_refines_standard
#print axioms Hooke.C86_history
#print axioms Hooke.C86_tangent_violated
#print axioms Hooke.C87_failure_iff
#print axioms Hooke.C87_elastic_step
#print axioms Hooke.C87_cone
#print axioms Hooke.C87_apex
#print axioms Hooke.C87_history
#print axioms Hooke.C87_linear_never_fails
#print axioms Hooke.C87_linear_standard
#print axioms Hooke.C87_small_stress_violated
#print axioms Hooke.C87_cohesionless_violated
#print axioms Hooke.C88_invariants
#print axioms Hooke.C88_effective
#print axioms Hooke.C88_defined_everywhere
#print axioms Hooke.C88_von_mises
#print axioms Hooke.C88_drucker_prager
#print axioms Hooke.C88_hydrostatic
#print axioms Hooke.C88_homogeneous
#print axioms Hooke.C88_isotropic
#print axioms Hooke.C89_jacobian
#print axioms Hooke.C89_flow
#print axioms Hooke.C89_newton
#print axioms Hooke.C90_accumulated_violated
#print axioms Hooke.C90_step
#print axioms Hooke.C90_elastic_step
#print axioms Hooke.C90_elastic_success
#print axioms Hooke.C90_surface
#print axioms Hooke.C90_apex
#print axioms Hooke.C90_history
#print axioms Hooke.C90_singular_raises
#print axioms Hooke.C90_pure_shear_violated
#print axioms Hooke.C91_von_mises_limit
#print axioms Hooke.C91_outcome
#print axioms Hooke.C91_history
#print axioms Hooke.C92_drucker_convex
#print axioms Hooke.C92_accepts
#print axioms Hooke.C92_rejects
#print axioms Hooke.C92_drucker_accepted
#print axioms Hooke.C92_false_accept_violated
#print axioms Hooke.C92_mapping_keeps
#print axioms Hooke.C93_refines
#print axioms Hooke.C93_step
#print axioms Hooke.C93_surface
#print axioms Hooke.C93_singular_raises
#print axioms Hooke.C93_elastic_violated
#print axioms Hooke.C93_von_mises
#print axioms Hooke.C94_dp_elastic
#print axioms Hooke.C94_dp_apex
#print axioms Hooke.C94_dp_cone
#print axioms Hooke.C94_vm_elastic
#print axioms Hooke.C94_vm_plastic
#print axioms Hooke.C95_mesh
#print axioms Hooke.C95_injective
#print axioms Hooke.C95_boundary
#print axioms Hooke.C95_errors
#print axioms Hooke.C95_connectivity
#print axioms Hooke.C96_corners
#print axioms Hooke.C96_fixed
#print axioms Hooke.C96_accepts
#print axioms Hooke.C96_fixed_violated
#print axioms Hooke.C96_3d_violated
#print axioms Hooke.C97_edge
#print axioms Hooke.C97_straight
#print axioms Hooke.C97_rejects
#print axioms Hooke.C98_rotation
#print axioms Hooke.C98_patch
#print axioms Hooke.C98_accepts
#print axioms Hooke.C98_default_violated
#print axioms Hooke.C98_small_violated
#print axioms Hooke.C99_reduced
#print axioms Hooke.C99_accepts
#print axioms Hooke.C99_boundary
#print axioms Hooke.C99_nothing
#print axioms Hooke.C99_disps_violated
#print axioms Hooke.C99_error_violated
#print axioms Hooke.C100_element
#print axioms Hooke.C100_forward
#print axioms Hooke.C100_returns
#print axioms Hooke.C100_normalised_violated
#print axioms Hooke.C100_sync_violated
#print axioms Hooke.C100_materials_violated
#print axioms Hooke.C100_paths_violated
#print axioms Hooke.C101_returns
#print axioms Hooke.C101_response
#print axioms Hooke.C101_unbatched
#print axioms Hooke.C101_causal
#print axioms Hooke.C101_offset
#print axioms Hooke.C101_vectorised
#print axioms Hooke.C101_elastic
#print axioms Hooke.C101_initial_strain_violated
#print axioms Hooke.C101_strain_features_violated
#print axioms Hooke.C101_missing_features_violated
#print axioms Hooke.C102_path
#print axioms Hooke.C102_path_fails
#print axioms Hooke.C102_reproduces
#print axioms Hooke.C102_samples
#print axioms Hooke.C102_last_trial_violated
#print axioms Hooke.C102_missing_features_violated
#print axioms Hooke.C102_empty_violated
#print axioms Hooke.C103_default_completes
#print axioms Hooke.C103_testing_minimum_violated
#print axioms Hooke.C103_unseen_violated
#print axioms Hooke.C103_progress_violated
#print axioms Hooke.C103_kept_violated
#print axioms Hooke.C103_minimum_reached_violated
#print axioms Hooke.C103_completes
#print axioms Hooke.C103_run
#print axioms Hooke.C103_partition
#print axioms Hooke.C103_sizes
#print axioms Hooke.C103_no_leakage
#print axioms Hooke.C103_schedule
#print axioms Hooke.C103_terminates
#print axioms Hooke.C104_preview
#print axioms Hooke.C104_agrees
#print axioms Hooke.C104_training_size
#print axioms Hooke.C104_terminates
#print axioms Hooke.C104_iterations_violated
#print axioms Hooke.C104_training_size_violated
#print axioms Hooke.C105_round_trip
#print axioms Hooke.C105_checked
#print axioms Hooke.C105_labels_violated
#print axioms Hooke.C105_unused_node_violated
#print axioms Hooke.C105_boundary_node_violated
#print axioms Hooke.C106_extract
#print axioms Hooke.C106_whole_word
#print axioms Hooke.C106_pipeline
#print axioms Hooke.C106_quad8_violated
#print axioms Hooke.C106_title_violated
#print axioms Hooke.C106_free_dof_violated
#print axioms Hooke.C106_phase_violated
#print axioms Hooke.C107_history
#print axioms Hooke.C107_results
#print axioms Hooke.C107_time_violated
#print axioms Hooke.C107_labels_violated
#print axioms Hooke.C107_backup_violated
#print axioms Hooke.C107_prefix_violated
#print axioms Hooke.C107_empty_violated
#print axioms Hooke.C107_single_node_violated
#print axioms Hooke.C107_flags_violated
#print axioms Hooke.C108_uniform
#print axioms Hooke.C108_gaussian
#print axioms Hooke.C108_setup
#print axioms Hooke.C108_default_weights_violated
#print axioms Hooke.C108_zero_weight_violated
#print axioms Hooke.C108_change_violated
#print axioms Hooke.C108_variability_violated
#print axioms Hooke.C108_negative_violated
#print axioms Hooke.C108_few_weights_violated
#print axioms Hooke.C108_order
#print axioms Hooke.C108_negative_weight_violated
#print axioms Hooke.C109_dataset
#print axioms Hooke.C109_initial
#print axioms Hooke.C109_amplitude
#print axioms Hooke.C109_zero
#print axioms Hooke.C109_normalizer_violated
#print axioms Hooke.C109_import_violated
#print axioms Hooke.C109_precision_violated
#print axioms Hooke.C109_denoise_scaled_violated
#print axioms Hooke.C109_missing_features_violated
#print axioms Hooke.C109_empty_violated
#print axioms Hooke.C110_cyclic
#print axioms Hooke.C110_reversals
#print axioms Hooke.C110_polynomial
#print axioms Hooke.C110_bounds
#print axioms Hooke.C110_read
#print axioms Hooke.C110_read_number
#print axioms Hooke.C110_simulation
#print axioms Hooke.C110_title_violated
#print axioms Hooke.C110_missing_violated
#print axioms Hooke.C110_short_violated
#print axioms Hooke.C111_rotation
#print axioms Hooke.C111_von_mises
#print axioms Hooke.C111_drucker_prager
#print axioms Hooke.C111_lou
#print axioms Hooke.C111_errors
#print axioms Hooke.C111_materials
#print axioms Hooke.C111_mohr_coulomb
#print axioms Hooke.C111_null_pressure
#print axioms Hooke.C111_equivalence
#print axioms Hooke.C111_slice
#print axioms Hooke.C111_small_violated
#print axioms Hooke.C111_first_invariant_violated
#print axioms Hooke.C111_range_violated
#print axioms Hooke.C112_euler
#print axioms Hooke.C112_patch
#print axioms Hooke.C112_accepts
#print axioms Hooke.C112_bounds
#print axioms Hooke.C112_translation
#print axioms Hooke.C112_default_violated
#print axioms Hooke.C112_rigid_violated
#print axioms Hooke.C112_inverted_violated
#print axioms Hooke.C112_edge
#print axioms Hooke.C112_straight
#print axioms Hooke.C113_read
#print axioms Hooke.C113_rounding
#print axioms Hooke.C113_distinct
#print axioms Hooke.C113_rewrite
#print axioms Hooke.C113_blank
#print axioms Hooke.C113_faithful
#print axioms Hooke.C113_mesh
#print axioms Hooke.C113_pipeline
#print axioms Hooke.C113_loads
#print axioms Hooke.C113_glued_violated
#print axioms Hooke.C114_node
#print axioms Hooke.C114_reject
#print axioms Hooke.C114_conditions
#print axioms Hooke.C114_compression_violated
#print axioms Hooke.C114_rounded_top_violated
#print axioms Hooke.C114_plane
#print axioms Hooke.C114_layout
#print axioms Hooke.C114_file
#print axioms Hooke.C114_reactions
#print axioms Hooke.C114_pipeline
#print axioms Hooke.C115_round_trip
#print axioms Hooke.C115_pipeline
#print axioms Hooke.C115_back_violated
#print axioms Hooke.C115_element_labels_violated
#print axioms Hooke.C115_fixed_node_violated
#print axioms Hooke.C115_node_labels_violated
#print axioms Hooke.C115_convert
#print axioms Hooke.C116_subdir
#print axioms Hooke.C116_stored
#print axioms Hooke.C116_arrays
#print axioms Hooke.C116_series
#print axioms Hooke.C116_models
#print axioms Hooke.C116_unknown
#print axioms Hooke.C116_refusals
#print axioms Hooke.C116_no_truth_violated
#print axioms Hooke.C116_acc_violated
#print axioms Hooke.C116_labels_violated
#print axioms Hooke.C116_copies_violated
#print axioms Hooke.C117_mean
#print axioms Hooke.C117_processes
#print axioms Hooke.C117_convergence
#print axioms Hooke.C117_other_label_violated
#print axioms Hooke.C117_unknown
#print axioms Hooke.C117_no_samples_violated
#print axioms Hooke.C117_file
#print axioms Hooke.C117_overwrite
#print axioms Hooke.C117_not_finite_violated
#print axioms Hooke.C118_labels
#print axioms Hooke.C118_parameters
#print axioms Hooke.C118_distinct
#print axioms Hooke.C118_enforce
#print axioms Hooke.C118_hybrid
#print axioms Hooke.C118_hybrid_clamp
#print axioms Hooke.C118_collision_violated
#print axioms Hooke.C118_hybrid_constraints_violated
#print axioms Hooke.C119_criterion
#print axioms Hooke.C119_status
#print axioms Hooke.C119_training
#print axioms Hooke.C119_bounds
#print axioms Hooke.C119_loss_history
#print axioms Hooke.C119_best_violated
#print axioms Hooke.C119_nan_violated
#print axioms Hooke.C119_single_epoch_violated
#print axioms Hooke.C119_trigger_violated
#print axioms Hooke.C119_no_parameters_violated
#print axioms Hooke.C119_parameter_history
#print axioms Hooke.C119_parameter_history_violated
#print axioms Hooke.C119_both_criteria_violated
#print axioms Hooke.C119_one_criterion
#print axioms Hooke.C120_history
#print axioms Hooke.C120_total
#print axioms Hooke.C120_table
#print axioms Hooke.C120_script
#print axioms Hooke.C120_agree
#print axioms Hooke.C120_names_violated
#print axioms Hooke.C120_labels_violated
#print axioms Hooke.C120_flat_labels
#print axioms Hooke.C120_flatten_violated
#print axioms Hooke.C120_copy
#print axioms Hooke.C120_copy_incomplete_violated
#print axioms Hooke.C120_copy_rows_violated
#print axioms Hooke.C121_forward
#print axioms Hooke.C121_strains
#print axioms Hooke.C121_lateral
#print axioms Hooke.C121_affine
#print axioms Hooke.C121_lateral_violated
#print axioms Hooke.C121_first_violated
#print axioms Hooke.C121_uniaxial_violated
#print axioms Hooke.C121_singular
#print axioms Hooke.C122_loss
#print axioms Hooke.C122_parameters
#print axioms Hooke.C122_refusals
#print axioms Hooke.C122_crash_violated
#print axioms Hooke.C122_kinds
#print axioms Hooke.C122_scheduler
#print axioms Hooke.C122_rates
#print axioms Hooke.C122_rates_violated
#print axioms Hooke.C122_zero_step
#print axioms Hooke.C122_figures
#print axioms Hooke.C122_inconsistent
#print axioms Hooke.C123_connected
#print axioms Hooke.C123_connected_dim
#print axioms Hooke.C123_edges_plane
#print axioms Hooke.C123_edges_space
#print axioms Hooke.C123_angle
#print axioms Hooke.C123_recovered
#print axioms Hooke.C123_mean
#print axioms Hooke.C123_mean_empty
#print axioms Hooke.C123_mean_violated
#print axioms Hooke.C124_uniform
#print axioms Hooke.C124_gaussian
#print axioms Hooke.C124_denoise
#print axioms Hooke.C124_average
#print axioms Hooke.C124_columns_violated
#print axioms Hooke.C124_reading_violated
#print axioms Hooke.C124_name_violated
#print axioms Hooke.C124_empty_violated
#print axioms Hooke.C124_specimens_violated
#print axioms Hooke.C124_initial_violated
#print axioms Hooke.C124_precision_violated
#print axioms Hooke.C125_elastic
#print axioms Hooke.C125_vonMises
#print axioms Hooke.C125_druckerPrager
#print axioms Hooke.C125_lou
#print axioms Hooke.C125_required
#print axioms Hooke.C125_run
#print axioms Hooke.C125_stale_violated
#print axioms Hooke.C125_params
#print axioms Hooke.C125_ends
#print axioms Hooke.C125_generate
#print axioms Hooke.C125_kept
#print axioms Hooke.C125_checks
#print axioms Hooke.C125_success
#print axioms Hooke.C125_emptied_violated
#print axioms Hooke.C125_labels_violated
#print axioms Hooke.C125_increments_violated
#print axioms Hooke.C125_unknown_violated
#print axioms Hooke.C125_glued_violated
#print axioms Hooke.C126_export
#print axioms Hooke.C126_two_ways
#print axioms Hooke.C126_again
#print axioms Hooke.C126_sets
#print axioms Hooke.C126_overlap
#print axioms Hooke.C126_small_violated
#print axioms Hooke.C126_specimen_violated
#print axioms Hooke.C126_gauss
#print axioms Hooke.C126_refused
#print axioms Hooke.C126_name
#print axioms Hooke.C126_plane_violated
#print axioms Hooke.C126_gap_violated
#print axioms Hooke.C126_lost_violated
#print axioms Hooke.C126_slash_violated
#print axioms Hooke.C126_half_violated
#print axioms Hooke.C127_rebuilt
#print axioms Hooke.C127_separate
#print axioms Hooke.C127_own
#print axioms Hooke.C127_options_violated
#print axioms Hooke.C127_accepted
#print axioms Hooke.C127_scalers
#print axioms Hooke.C127_nodir_violated
#print axioms Hooke.C127_shared_violated
#print axioms Hooke.C128_csv
#print axioms Hooke.C128_columns
#print axioms Hooke.C128_strains
#print axioms Hooke.C128_recompute
#print axioms Hooke.C128_units_violated
#print axioms Hooke.C128_unloaded_violated
#print axioms Hooke.C128_stored_violated
#print axioms Hooke.C129_invariants
#print axioms Hooke.C129_bounds
#print axioms Hooke.C129_plane
#print axioms Hooke.C129_tables
#print axioms Hooke.C129_lengths_violated
#print axioms Hooke.C129_points
#print axioms Hooke.C129_padding_violated
#print axioms Hooke.C129_units_violated
#print axioms Hooke.C130_parameters
#print axioms Hooke.C130_stable
#print axioms Hooke.C130_hardening
#print axioms Hooke.C130_first_yield_violated
#print axioms Hooke.C131_counts
#print axioms Hooke.C131_default_violated
#print axioms Hooke.C131_generate
#print axioms Hooke.C131_succeeds
#print axioms Hooke.C131_import_violated
#print axioms Hooke.C131_assemble
#print axioms Hooke.C131_reduction
#print axioms Hooke.C131_size
#print axioms Hooke.C131_overwritten_violated
#print axioms Hooke.C131_stale_violated
#print axioms Hooke.C131_unknown_violated
#print axioms Hooke.C132_step
#print axioms Hooke.C132_never_fails
#print axioms Hooke.C132_accuracy
#print axioms Hooke.C132_nadai
#print axioms Hooke.C132_material
#print axioms Hooke.C132_steep_violated
#print axioms Hooke.C132_table
#print axioms Hooke.C132_linear
#print axioms Hooke.C133_step
#print axioms Hooke.C133_never_fails
#print axioms Hooke.C133_table
#print axioms Hooke.C133_steep_violated
#print axioms Hooke.C134_summary
#print axioms Hooke.C134_zero_violated
#print axioms Hooke.C134_find
#print axioms Hooke.C134_stale_violated
#print axioms Hooke.C134_loss
#print axioms Hooke.C134_exact_violated
#print axioms Hooke.C134_realizations
#print axioms Hooke.C134_uncertainty
#print axioms Hooke.C134_repeated_violated
#print axioms Hooke.C134_counts_violated
#print axioms Hooke.C134_stray_violated
#print axioms Hooke.C134_fewer_violated
#print axioms Hooke.C134_parameters
#print axioms Hooke.C134_table
#print axioms Hooke.C134_order_violated
#print axioms Hooke.C134_missing_violated
#print axioms Hooke.C134_boxplots
#print axioms Hooke.C134_labels
#print axioms Hooke.C134_label_violated
#print axioms Hooke.C134_patches
#print axioms Hooke.C135_open
#print axioms Hooke.C135_samples
#print axioms Hooke.C135_directory
#print axioms Hooke.C135_normalised_violated
#print axioms Hooke.C135_update
#print axioms Hooke.C135_update_one
#print axioms Hooke.C135_twice_violated
#print axioms Hooke.C135_move
#print axioms Hooke.C135_incomplete_violated
#print axioms Hooke.C135_relocate_violated
#print axioms Hooke.C135_relocate_keeps
#print axioms Hooke.C135_saved
#print axioms Hooke.C135_convert
#print axioms Hooke.C135_bare_violated
#print axioms Hooke.C135_subset
#print axioms Hooke.C135_convert_refuses
#print axioms Hooke.C136_trained
#print axioms Hooke.C136_own
#print axioms Hooke.C136_predicted
#print axioms Hooke.C136_stops
#print axioms Hooke.C136_series
#print axioms Hooke.C136_fewer
#print axioms Hooke.C136_times
#print axioms Hooke.C136_sizes
#print axioms Hooke.C136_plotted
#print axioms Hooke.C136_missing_violated
#print axioms Hooke.C136_carried_violated
#print axioms Hooke.C136_lost_violated
#print axioms Hooke.C136_label_violated
#print axioms Hooke.C136_crossval_violated
#print axioms Hooke.C137_step
#print axioms Hooke.C137_step_batched
#print axioms Hooke.C137_yield
#print axioms Hooke.C137_never_fails
#print axioms Hooke.C137_accuracy
#print axioms Hooke.C138_updated
#print axioms Hooke.C138_predicted
#print axioms Hooke.C138_missing
#print axioms Hooke.C138_stops
#print axioms Hooke.C138_data
#print axioms Hooke.C138_directory
#print axioms Hooke.C138_paths
#print axioms Hooke.C138_unknown_type
#print axioms Hooke.C138_finite_violated
#print axioms Hooke.C138_copy_violated
#print axioms Hooke.C138_removed_violated
#print axioms Hooke.C138_lost_violated
#print axioms Hooke.C138_nothing_violated
#print axioms Hooke.C139_von_mises
#print axioms Hooke.C139_mixed
#print axioms Hooke.C139_drucker_prager
#print axioms Hooke.C139_tangents
#print axioms Hooke.C139_elastic
#print axioms Hooke.C139_batched_violated
#print axioms Hooke.C140_balance
#print axioms Hooke.C140_von_mises
#print axioms Hooke.C140_work
#print axioms Hooke.C140_drucker_prager
#print axioms Hooke.C140_work_drucker_prager
#print axioms Hooke.C140_mixed
#print axioms Hooke.C140_mixed_violated
#print axioms Hooke.C141_proportional
#print axioms Hooke.C141_steps
#print axioms Hooke.C141_linear
#print axioms Hooke.C141_mixed_violated
#print axioms Hooke.C142_frame
#print axioms Hooke.C142_generate
#print axioms Hooke.C142_accepts
#print axioms Hooke.C142_reload
#print axioms Hooke.C142_formatted
#print axioms Hooke.C142_dataset
#print axioms Hooke.C142_single_violated
#print axioms Hooke.C142_regenerate_violated
#print axioms Hooke.C142_load_violated
#print axioms Hooke.C142_name_violated
#print axioms Hooke.C142_parameters
#print axioms Hooke.C143_step
#print axioms Hooke.C143_history
#print axioms Hooke.C143_run
#print axioms Hooke.C143_stress
#print axioms Hooke.C143_increment
#print axioms Hooke.C143_step_drucker_prager
#print axioms Hooke.C143_history_drucker_prager
#print axioms Hooke.C143_nonassociated_violated
#print axioms Hooke.C144_rnn
#print axioms Hooke.C144_order_missing
#print axioms Hooke.C144_rc
#print axioms Hooke.C144_hybrid
#print axioms Hooke.C144_options
#print axioms Hooke.C144_learning_rate
#print axioms Hooke.C144_case
#print axioms Hooke.C144_earlier_model_lost_violated
#print axioms Hooke.C145_element_forces
#print axioms Hooke.C145_plasticity
#print axioms Hooke.C145_elastic
#print axioms Hooke.C145_assembly
#print axioms Hooke.C145_loss_numbering
#print axioms Hooke.C145_loss_axes
#print axioms Hooke.C146_drucker_prager
#print axioms Hooke.C146_drucker_prager_tangent
#print axioms Hooke.C146_lou
#print axioms Hooke.C146_lou_batched
#print axioms Hooke.C146_lou_material
#print axioms Hooke.C146_von_mises
#print axioms Hooke.C146_mixed
#print axioms Hooke.C146_tangents
#print axioms Hooke.C146_elastic
#print axioms Hooke.C146_materials
#print axioms Hooke.C146_element_forces
#print axioms Hooke.C146_loss
#print axioms Hooke.C146_loss_normalised
#print axioms Hooke.C146_tiny_violated
#print axioms Hooke.C146_batched_violated
#print axioms Hooke.C147_plane
#print axioms Hooke.C147_solid
#print axioms Hooke.C147_materials
#print axioms Hooke.C147_one_point_violated
#print axioms Hooke.C148_history
#print axioms Hooke.C148_batched
#print axioms Hooke.C148_no_shear
#print axioms Hooke.C149_setup
#print axioms Hooke.C149_rejected
#print axioms Hooke.C149_args_win
#print axioms Hooke.C149_gru
#print axioms Hooke.C149_scalers_violated
#print axioms Hooke.C149_gru_normalized_violated
#print axioms Hooke.C149_schemes_violated
#print axioms Hooke.C150_rebuilt
#print axioms Hooke.C150_separate
#print axioms Hooke.C150_no_directory_violated
#print axioms Hooke.C150_path_violated
#print axioms Hooke.C150_rebuilt_scalers_violated
#print axioms Hooke.C151_von_mises
#print axioms Hooke.C151_mixed
#print axioms Hooke.C151_drucker_prager
#print axioms Hooke.C151_lou
#print axioms Hooke.C151_batched
#print axioms Hooke.C151_tangents
#print axioms Hooke.C151_elastic
#print axioms Hooke.C152_vonMises_symmetric
#print axioms Hooke.C152_vonMises_batched_symmetric
#print axioms Hooke.C152_mixed_symmetric
#print axioms Hooke.C152_mixed_batched_symmetric
#print axioms Hooke.C152_vonMises_elastic
#print axioms Hooke.C152_vonMises_semidefinite
#print axioms Hooke.C152_vonMises_definite
#print axioms Hooke.C152_vonMises_hardening_needed
#print axioms Hooke.C152_mixed_semidefinite
#print axioms Hooke.C152_mixed_definite
#print axioms Hooke.C152_mixed_elastic
#print axioms Hooke.C152_drucker_prager_symmetric
#print axioms Hooke.C152_drucker_prager_cone
#print axioms Hooke.C152_drucker_prager_apex
#print axioms Hooke.C152_drucker_prager_apex_singular
#print axioms Hooke.C153_simple
#print axioms Hooke.C153_gru
#print axioms Hooke.C153_rcm
#print axioms Hooke.C153_hybrid
#print axioms Hooke.C153_rejected
#print axioms Hooke.C153_finder
#print axioms Hooke.C153_finder_models_violated
#print axioms Hooke.C153_get_device_violated
#print axioms Hooke.C154_check_iff
#print axioms Hooke.C154_elements_pass
#print axioms Hooke.C154_detects
#print axioms Hooke.C154_derivatives_violated
#print axioms Hooke.C155_samples
#print axioms Hooke.C155_unknown_type
#print axioms Hooke.C155_responses
#print axioms Hooke.C155_zero_noise
#print axioms Hooke.C155_noisy_responses
#print axioms Hooke.C155_last_trial_violated
#print axioms Hooke.C155_empty_violated
#print axioms Hooke.C156_mesh_iff
#print axioms Hooke.C156_data_iff
#print axioms Hooke.C156_rejected
#print axioms Hooke.C156_history
#print axioms Hooke.C156_accepted
#print axioms Hooke.C156_new_mesh_violated
#print axioms Hooke.C156_time_violated
#print axioms Hooke.C156_labels_violated
#print axioms Hooke.C157_history
#print axioms Hooke.C157_returns
#print axioms Hooke.C157_reciprocal
#print axioms Hooke.C157_superposition
#print axioms Hooke.C157_energy
#print axioms Hooke.C157_specimen_reciprocal
#print axioms Hooke.C157_specimen_energy
#print axioms Hooke.C158_element
#print axioms Hooke.C158_von_mises
#print axioms Hooke.C158_drucker_prager
#print axioms Hooke.C158_elastic
#print axioms Hooke.C158_specimen
#print axioms Hooke.C158_initial
#print axioms Hooke.C158_returns
#print axioms Hooke.C159_element
#print axioms Hooke.C159_von_mises
#print axioms Hooke.C159_drucker_prager
#print axioms Hooke.C159_elastic
#print axioms Hooke.C159_specimen
#print axioms Hooke.C159_same_loads
#print axioms Hooke.C159_elastic_specimen
#print axioms Hooke.C160_differences
#print axioms Hooke.C160_returns
#print axioms Hooke.C160_mean_value
#print axioms Hooke.C160_error
#print axioms Hooke.C160_multiplier
#print axioms Hooke.C160_second_derivatives
#print axioms Hooke.C161_construction
#print axioms Hooke.C161_construction_violated
#print axioms Hooke.C161_specimen
#print axioms Hooke.C161_loss
#print axioms Hooke.C161_modes
#print axioms Hooke.C161_refused_violated
#print axioms Hooke.C161_bounds_violated
#print axioms Hooke.C161_dimension
#print axioms Hooke.C161_weights_violated
#print axioms Hooke.C162_search
#print axioms Hooke.C162_narrow_violated
#print axioms Hooke.C162_endless_violated
#print axioms Hooke.C162_boundary
#print axioms Hooke.C162_closed
#print axioms Hooke.C162_shape
#print axioms Hooke.C162_drucker
#print axioms Hooke.C163_curves
#print axioms Hooke.C163_own
#print axioms Hooke.C163_sizes_violated
#print axioms Hooke.C163_refusals
#print axioms Hooke.C163_ranges
#print axioms Hooke.C164_dataset
#print axioms Hooke.C164_by_temperature
#print axioms Hooke.C164_by_composition
#print axioms Hooke.C164_same
#print axioms Hooke.C164_cases
#print axioms Hooke.C164_same_percent_violated
#print axioms Hooke.C164_double_violated
#print axioms Hooke.C165_r2
#print axioms Hooke.C165_units
#print axioms Hooke.C165_constant_violated
#print axioms Hooke.C165_small_spread_violated
#print axioms Hooke.C165_sets
#print axioms Hooke.C165_bars
#print axioms Hooke.C165_abscissae_violated
#print axioms Hooke.C165_band
#print axioms Hooke.C166_analysis
#print axioms Hooke.C166_deleted_violated
#print axioms Hooke.C166_refusals
#print axioms Hooke.C167_points
#print axioms Hooke.C167_r2
#print axioms Hooke.C167_band_violated
#print axioms Hooke.C167_constant_violated
#print axioms Hooke.C167_refusals
#print axioms Hooke.C167_shown
#print axioms Hooke.C167_coefficient_violated
#print axioms Hooke.C168_all
#print axioms Hooke.C168_listed
#print axioms Hooke.C168_types_violated
#print axioms Hooke.C168_same_size_violated
#print axioms Hooke.C168_scatter
#print axioms Hooke.C168_refusals
#print axioms Hooke.C169_given
#print axioms Hooke.C169_normalized
#print axioms Hooke.C169_times_violated
#print axioms Hooke.C169_lengths_violated
#print axioms Hooke.C169_constant_violated
#print axioms Hooke.C169_refusals
#print axioms Hooke.C170_single
#print axioms Hooke.C170_several_violated
#print axioms Hooke.C170_lengths_violated
#print axioms Hooke.C170_name_violated
#print axioms Hooke.C170_jobs
#print axioms Hooke.C170_refusals
#print axioms Hooke.C171_all
#print axioms Hooke.C171_listed
#print axioms Hooke.C171_types_violated
#print axioms Hooke.C171_same_size_violated
#print axioms Hooke.C171_refusals
#print axioms Hooke.C172_surfaces
#print axioms Hooke.C172_integers_violated
#print axioms Hooke.C172_refusals
#print axioms Hooke.C173_nodes
#print axioms Hooke.C173_labels
#print axioms Hooke.C173_zero_violated
#print axioms Hooke.C173_refusals
#print axioms Hooke.C173_reactions
#print axioms Hooke.C173_comparison
#print axioms Hooke.C173_steps
#print axioms Hooke.C174_drawn
#print axioms Hooke.C174_shown
#print axioms Hooke.C174_apart_iff
#print axioms Hooke.C174_default_apart
#print axioms Hooke.C174_centred_iff
#print axioms Hooke.C174_width_violated
#print axioms Hooke.C174_label_violated
#print axioms Hooke.C175_shown
#print axioms Hooke.C175_refused
#print axioms Hooke.C175_single_violated
#print axioms Hooke.C176_shown
#print axioms Hooke.C176_label_violated
#print axioms Hooke.C176_reference_violated
#print axioms Hooke.C177_shown
#print axioms Hooke.C177_raises
#print axioms Hooke.C177_saved_violated

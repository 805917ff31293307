{
 "claims": [
  {
   "property": "C01",
   "status": "proved",
   "theorems": [
    "Hooke.C01_roundtrip_full",
    "Hooke.C01_roundtrip_sym",
    "Hooke.C01_nokelvin_violated"
   ],
   "note": "Full and symmetric (Kelvin) orders. C01_nokelvin_violated records that outside Kelvin notation (is_kelvin_notation=False) the loop version does not recover a symmetric tensor."
  },
  {
   "property": "C02",
   "status": "proved",
   "theorems": [
    "Hooke.C02_roundtrip_full",
    "Hooke.C02_roundtrip_sym"
   ],
   "note": ""
  },
  {
   "property": "C03",
   "status": "proved",
   "theorems": [
    "Hooke.C03_roundtrip_full",
    "Hooke.C03_roundtrip_sym",
    "Hooke.C03_mf_roundtrip_sym"
   ],
   "note": ""
  },
  {
   "property": "C04",
   "status": "proved",
   "theorems": [
    "Hooke.C04_inner_product",
    "Hooke.C04_contraction"
   ],
   "note": ""
  },
  {
   "property": "C05",
   "status": "partial",
   "theorems": [
    "Hooke.C05_vget_tensor_mf",
    "Hooke.C05_vget_tensor_from_mf_partial",
    "Hooke.C05_nokelvin_violated"
   ],
   "note": "Proved for full orders and for symmetric orders in Kelvin notation. The full claim is false for a symmetric order with is_kelvin_notation=False (C05_nokelvin_violated)."
  },
  {
   "property": "C06",
   "status": "proved",
   "theorems": [
    "Hooke.C06_rejects_exactly_malformed",
    "Hooke.C06_incomplete_order_loses_information",
    "Hooke.C06_from_mf_accepts"
   ],
   "note": ""
  },
  {
   "property": "C07",
   "status": "proved",
   "theorems": [
    "Hooke.C07_strain_recovered",
    "Hooke.C07_vector_recovered",
    "Hooke.C07_work_conjugate",
    "Hooke.C07_vget_strain",
    "Hooke.C07_vget_stress"
   ],
   "note": ""
  },
  {
   "property": "C08",
   "status": "proved",
   "theorems": [
    "Hooke.C08_projections"
   ],
   "note": ""
  },
  {
   "property": "C09",
   "status": "proved",
   "theorems": [
    "Hooke.C09_actions",
    "Hooke.C09_traceless_iff",
    "Hooke.C09_sym_traceless_iff",
    "Hooke.C09_dev_idempotent_3d",
    "Hooke.C09_traceless_2d_violated",
    "Hooke.C09_fo_dinv_sym",
    "Hooke.C09_dd"
   ],
   "note": "The claim includes that the 2D operator is not traceless; C09_traceless_2d_violated is the witness."
  },
  {
   "property": "C10",
   "status": "proved",
   "theorems": [
    "Hooke.C10_2d_3d_2d",
    "Hooke.C10_rejects",
    "Hooke.C10_tangent_block"
   ],
   "note": ""
  },
  {
   "property": "C11",
   "status": "proved",
   "theorems": [
    "Hooke.C11_kronecker",
    "Hooke.C11_interpolates"
   ],
   "note": ""
  },
  {
   "property": "C12",
   "status": "proved",
   "theorems": [
    "Hooke.C12_partition_of_unity",
    "Hooke.C12_affine"
   ],
   "note": ""
  },
  {
   "property": "C13",
   "status": "proved",
   "theorems": [
    "Hooke.C13_derivatives",
    "Hooke.C13_sum_zero",
    "Hooke.C13_nodes"
   ],
   "note": ""
  },
  {
   "property": "C14",
   "status": "proved",
   "theorems": [
    "Hooke.C14_exact",
    "Hooke.C14_available",
    "Hooke.C14_points",
    "Hooke.C14_element_init"
   ],
   "note": ""
  },
  {
   "property": "C15",
   "status": "proved",
   "theorems": [
    "Hooke.C15_sym_gradient",
    "Hooke.C15_gradient",
    "Hooke.C15_default_order"
   ],
   "note": ""
  },
  {
   "property": "C16",
   "status": "proved",
   "theorems": [
    "Hooke.C16_sym",
    "Hooke.C16_nsym",
    "Hooke.C16_rejects"
   ],
   "note": ""
  },
  {
   "property": "C17",
   "status": "proved",
   "theorems": [
    "Hooke.C17_patch",
    "Hooke.C17_singular_raises",
    "Hooke.C17_det_check"
   ],
   "note": ""
  },
  {
   "property": "C18",
   "status": "proved",
   "theorems": [
    "Hooke.C18_virtual_work",
    "Hooke.C18_self_equilibrated"
   ],
   "note": ""
  },
  {
   "property": "C19",
   "status": "proved",
   "theorems": [
    "Hooke.C19_states",
    "Hooke.C19_unsupported_raises",
    "Hooke.C19_returns"
   ],
   "note": ""
  },
  {
   "property": "C20",
   "status": "proved",
   "theorems": [
    "Hooke.C20_assembly",
    "Hooke.C20_order_independent",
    "Hooke.C20_bad_label"
   ],
   "note": ""
  },
  {
   "property": "C21",
   "status": "proved",
   "theorems": [
    "Hooke.C21_extract",
    "Hooke.C21_indexing",
    "Hooke.C21_batched_indexing",
    "Hooke.C21_mixed_raises",
    "Hooke.C21_adjoint"
   ],
   "note": ""
  },
  {
   "property": "C22",
   "status": "proved",
   "theorems": [
    "Hooke.C22_history",
    "Hooke.C22_unknown_time",
    "Hooke.C22_element"
   ],
   "note": ""
  },
  {
   "property": "C23",
   "status": "proved",
   "theorems": [
    "Hooke.C23_registers",
    "Hooke.C23_converge_alias_violated",
    "Hooke.C23_nocopy_alias_violated",
    "Hooke.C23_sweep_without_copies"
   ],
   "note": "C23_registers covers all histories with copies; C23_converge_alias_violated and C23_nocopy_alias_violated show that the condition named in the statement (copies requested) is necessary; C23_sweep_without_copies shows what still holds without copies."
  },
  {
   "property": "C24",
   "status": "proved",
   "theorems": [
    "Hooke.C24_isotropic_tangent",
    "Hooke.C24_uniaxial",
    "Hooke.C24_moduli",
    "Hooke.C24_parameterisations",
    "Hooke.C24_technical",
    "Hooke.C24_raises",
    "Hooke.C24_symmetric_modulus_violated"
   ],
   "note": "Tangent, moduli, parameterisations and raises are proved for all inputs. C24_symmetric_modulus_violated: giving a modulus under its symmetric key (e.g. E2211) raises for isotropic symmetry although it denotes the same constant."
  },
  {
   "property": "C25",
   "status": "proved",
   "theorems": [
    "Hooke.C25_history",
    "Hooke.C25_path_independent",
    "Hooke.C25_closed_path",
    "Hooke.C25_tangent"
   ],
   "note": ""
  },
  {
   "property": "C26",
   "status": "proved",
   "theorems": [
    "Hooke.C26_segment",
    "Hooke.C26_interpolates",
    "Hooke.C26_outside",
    "Hooke.C26_monotone",
    "Hooke.C26_slope",
    "Hooke.C26_slope_at_points",
    "Hooke.C26_checks"
   ],
   "note": ""
  },
  {
   "property": "C27",
   "status": "partial",
   "theorems": [
    "Hooke.C27_linear",
    "Hooke.C27_nadai_partial",
    "Hooke.C27_nadai_violated",
    "Hooke.C27_nadai_slope",
    "Hooke.C27_selection"
   ],
   "note": "Linear law proved in full; Nadai-Ludwik value matches the documentation only for ep0 = 0 (C27_nadai_partial) and C27_nadai_violated shows it differs otherwise; slope is the derivative of the returned value (C27_nadai_slope)."
  },
  {
   "property": "C28",
   "status": "proved",
   "theorems": [
    "Hooke.C28_failure_iff",
    "Hooke.C28_success",
    "Hooke.C28_failure_state"
   ],
   "note": ""
  },
  {
   "property": "C29",
   "status": "proved",
   "theorems": [
    "Hooke.C29_elastic_step"
   ],
   "note": ""
  },
  {
   "property": "C30",
   "status": "proved",
   "theorems": [
    "Hooke.C30_yield_condition",
    "Hooke.C30_flow_rule"
   ],
   "note": ""
  },
  {
   "property": "C31",
   "status": "proved",
   "theorems": [
    "Hooke.C31_accumulated",
    "Hooke.C31_history",
    "Hooke.C31_monotone"
   ],
   "note": ""
  },
  {
   "property": "C32",
   "status": "proved",
   "theorems": [
    "Hooke.C32_linear_exact",
    "Hooke.C32_never_fails"
   ],
   "note": ""
  },
  {
   "property": "C33",
   "status": "proved",
   "theorems": [
    "Hooke.C33_masked_loop",
    "Hooke.C33_masked_elastic",
    "Hooke.C33_batched_refines_standard",
    "Hooke.C33_batched_failure_iff",
    "Hooke.C33_linear"
   ],
   "note": ""
  },
  {
   "property": "C34",
   "status": "proved",
   "theorems": [
    "Hooke.C34_unit_iff",
    "Hooke.C34_small_zero",
    "Hooke.C34_error_bound",
    "Hooke.C34_unit_violated",
    "Hooke.C34_stress"
   ],
   "note": "The exact characterisation (unit iff), the equality for small = 0 and an error bound are proved; C34_unit_violated is the witness that the direction is not unit."
  },
  {
   "property": "C35",
   "status": "partial",
   "theorems": [
    "Hooke.C35_history",
    "Hooke.C35_relative_stress",
    "Hooke.C35_yield_partial",
    "Hooke.C35_yield_violated"
   ],
   "note": "Back stress traceless along every history is proved (C35_history). The yield condition on the relative stress holds only when the kinematic stress does not change (C35_yield_partial); C35_yield_violated shows a converged step whose relative equivalent stress is 3/5 while the yield stress is 1, because the back stress is advanced by the full kinematic increment times the flow vector instead of 2/3 of it."
  },
  {
   "property": "C36",
   "status": "proved",
   "theorems": [
    "Hooke.C36_failure_iff",
    "Hooke.C36_elastic_step",
    "Hooke.C36_cone",
    "Hooke.C36_cone_flow",
    "Hooke.C36_apex",
    "Hooke.C36_history",
    "Hooke.C36_linear",
    "Hooke.C36_linear_never_fails"
   ],
   "note": ""
  },
  {
   "property": "C37",
   "status": "proved",
   "theorems": [
    "Hooke.C37_direction_norm",
    "Hooke.C37_unit_iff",
    "Hooke.C37_unit_violated"
   ],
   "note": "The exact norm of the direction tensor and the characterisation 'unit iff no volumetric trial strain' are proved; C37_unit_violated is the witness."
  },
  {
   "property": "C38",
   "status": "proved",
   "theorems": [
    "Hooke.C38_minmax_inverse",
    "Hooke.C38_minmax_inverse_right",
    "Hooke.C38_minmax_zero_range",
    "Hooke.C38_standard_round_trip",
    "Hooke.C38_standard_inverse",
    "Hooke.C38_standard_lossy_iff",
    "Hooke.C38_wrong_shape"
   ],
   "note": ""
  },
  {
   "property": "C39",
   "status": "proved",
   "theorems": [
    "Hooke.C39_minmax",
    "Hooke.C39_minmax_empty",
    "Hooke.C39_minmax_constant_violated",
    "Hooke.C39_standard"
   ],
   "note": "Proved for data whose features vary; a constant training feature becomes NaN under min-max scaling (C39_minmax_constant_violated), zero under standard scaling (C39_standard)."
  },
  {
   "property": "C40",
   "status": "proved",
   "theorems": [
    "Hooke.C40_mean_std",
    "Hooke.C40_min_max",
    "Hooke.C40_order",
    "Hooke.C40_errors"
   ],
   "note": "sklearn's partial_fit is third-party and modelled from its published algorithm."
  },
  {
   "property": "C41",
   "status": "proved",
   "theorems": [
    "Hooke.C41_nonneg",
    "Hooke.C41_zero_iff",
    "Hooke.C41_regularizer_le_clip",
    "Hooke.C41_absolute_eq_clip",
    "Hooke.C41_unknown",
    "Hooke.C41_names"
   ],
   "note": ""
  },
  {
   "property": "C42",
   "status": "proved",
   "theorems": [
    "Hooke.C42_tensor_nested_violated",
    "Hooke.C42_tensor_flat",
    "Hooke.C42_tensor_copy_drops_violated",
    "Hooke.C42_tensor_copy_witness_violated",
    "Hooke.C42_float_converts",
    "Hooke.C42_float_only",
    "Hooke.C42_float_inplace",
    "Hooke.C42_float_copy_top",
    "Hooke.C42_float_copy_unchanged_iff",
    "Hooke.C42_float_copy_violated"
   ],
   "note": "The failures stated in the claim are proved for all dictionaries (C42_tensor_nested_violated, C42_float_copy_unchanged_iff); in addition the copying variant drops every entry that is not a number (C42_tensor_copy_drops_violated)."
  },
  {
   "property": "C43",
   "status": "proved",
   "theorems": [
    "Hooke.C43_partition",
    "Hooke.C43_samples",
    "Hooke.C43_sizes",
    "Hooke.C43_succeeds",
    "Hooke.C43_rejected",
    "Hooke.C43_parent_indices",
    "Hooke.C43_parent_indices_ok",
    "Hooke.C43_parent_of_base"
   ],
   "note": "torch.utils.data.random_split is third-party and modelled by an arbitrary permutation. C43_rejected: fractions accepted by the rounded sum check but not summing to one within torch's own tolerance raise."
  },
  {
   "property": "C44",
   "status": "proved",
   "theorems": [
    "Hooke.C44_history",
    "Hooke.C44_get_contents",
    "Hooke.C44_index_alias"
   ],
   "note": ""
  },
  {
   "property": "C45",
   "status": "proved",
   "theorems": [
    "Hooke.C45_concat",
    "Hooke.C45_concat_remove",
    "Hooke.C45_concat_remove_collision_violated",
    "Hooke.C45_remove_ignored_for_files",
    "Hooke.C45_missing_feature",
    "Hooke.C45_subset_of_files_violated",
    "Hooke.C45_sum",
    "Hooke.C45_sum_remove",
    "Hooke.C45_sum_default_violated",
    "Hooke.C45_feature_init"
   ],
   "note": "C45_sum_default_violated, C45_concat_remove_collision_violated and C45_subset_of_files_violated prove the failures stated in the claim."
  },
  {
   "property": "C46",
   "status": "proved",
   "theorems": [
    "Hooke.C46_rename",
    "Hooke.C46_swap_violated",
    "Hooke.C46_in_memory_violated"
   ],
   "note": "C46_swap_violated and C46_in_memory_violated prove the failures stated in the claim."
  },
  {
   "property": "C47",
   "status": "proved",
   "theorems": [
    "Hooke.C47_refinement",
    "Hooke.C47_save_load",
    "Hooke.C47_backup_file_violated"
   ],
   "note": "Refinement of an abstract checkpoint store along all histories. C47_backup_file_violated: because the file name pattern is not anchored at the end, a copy of an epoch file with an extra extension makes loading the last state raise."
  },
  {
   "property": "C48",
   "status": "proved",
   "theorems": [
    "Hooke.C48_one_best",
    "Hooke.C48_no_posterior"
   ],
   "note": ""
  },
  {
   "property": "C49",
   "status": "partial",
   "theorems": [
    "Hooke.C49_missing_epoch_violated",
    "Hooke.C49_missing_init_violated",
    "Hooke.C49_failed_load_partial",
    "Hooke.C49_several_best"
   ],
   "note": "The claim fails as stated: a missing epoch (or initial state) with removal deletes all later epochs (C49_missing_epoch_violated, C49_missing_init_violated, for every reachable directory). The directory is unchanged in all other failing loads (C49_failed_load_partial)."
  },
  {
   "property": "C50",
   "status": "proved",
   "theorems": [
    "Hooke.C50_unknown_epoch_violated",
    "Hooke.C50_value_error_violated"
   ],
   "note": "The claim is the failure: proved for all model names (C50_unknown_epoch_violated); ValueError, also for later saves, if the last part of the name has a letter (C50_value_error_violated)."
  },
  {
   "property": "C51",
   "status": "partial",
   "theorems": [
    "Hooke.C51_best_violated",
    "Hooke.C51_other_files_partial"
   ],
   "note": "The claim fails as stated (C51_best_violated, for every reachable directory with a best state). All other files survive every crash point (C51_other_files_partial)."
  },
  {
   "property": "C52",
   "status": "proved",
   "theorems": [
    "Hooke.C52_train",
    "Hooke.C52_coincide",
    "Hooke.C52_tie_violated",
    "Hooke.C52_nan_violated"
   ],
   "note": "Proved for every run whose first epoch loss is finite (C52_train, C52_coincide). C52_tie_violated: with a tied minimum the reported epoch is not the one whose state was kept. C52_nan_violated: if the first epoch loss is NaN, no best state is ever written and train_model ends with ValueError. The optimiser and the data loader are an arbitrary function of the epoch and the model state."
  },
  {
   "property": "C53",
   "status": "proved",
   "theorems": [
    "Hooke.C53_train",
    "Hooke.C53_final_epoch_violated",
    "Hooke.C53_old_file_violated",
    "Hooke.C53_nan_validation_violated"
   ],
   "note": "Proved for finite validation losses in a directory without an old epoch-0 file (C53_train). C53_final_epoch_violated, C53_old_file_violated and C53_nan_validation_violated are failures outside or beside the claim. The validation loss is an arbitrary function of the epoch and the model state."
  },
  {
   "property": "C54",
   "status": "proved",
   "theorems": [
    "Hooke.C54_proportional",
    "Hooke.C54_random",
    "Hooke.C54_too_short",
    "Hooke.C54_proportional_total",
    "Hooke.C54_noise",
    "Hooke.C54_noise_total",
    "Hooke.C54_random_start"
   ],
   "note": "Both generators, all arguments and draws; the shape is the triangular wave over the loading branch followed by the initial strain. The rounding of the floating point division (n_time - 1)/(2 n_cycle) is not modelled. C54_random_start: polynomial random paths start at zero strain."
  },
  {
   "property": "C55",
   "status": "proved",
   "theorems": [
    "Hooke.C55_proportional",
    "Hooke.C55_proportional_line",
    "Hooke.C55_random_partial",
    "Hooke.C55_random_scaling",
    "Hooke.C55_random_violated",
    "Hooke.C55_bounds_without_zero_violated"
   ],
   "note": "Proportional paths: proved for bounds containing zero; C55_bounds_without_zero_violated otherwise. Random paths: the statement itself says one bound can be violated; C55_random_partial proves that at least one bound holds and both for symmetric bounds, C55_random_scaling the effect of the scaling, C55_random_violated is the witness (real polynomial draws)."
  },
  {
   "property": "C56",
   "status": "proved",
   "theorems": [
    "Hooke.C56_proportional",
    "Hooke.C56_random",
    "Hooke.C56_norm",
    "Hooke.C56_monotone",
    "Hooke.C56_reversal_violated",
    "Hooke.C56_errors"
   ],
   "note": "C56_proportional and C56_random give the exact recursion, C56_norm the distance, C56_monotone the range where the path stays monotone, C56_reversal_violated the reversal (2h < s) and the NaN states (2h = s)."
  },
  {
   "property": "C57",
   "status": "proved",
   "theorems": [
    "Hooke.C57_build",
    "Hooke.C57_store",
    "Hooke.C57_roundtrip",
    "Hooke.C57_missing",
    "Hooke.C57_vol",
    "Hooke.C57_dev",
    "Hooke.C57_dev_violated",
    "Hooke.C57_strain",
    "Hooke.C57_strain_frame",
    "Hooke.C57_errors",
    "Hooke.C57_dataset",
    "Hooke.C57_dataset_strain"
   ],
   "note": "The statement says that the stored deviatoric stress is not traceless: C57_dev gives its value and trace for every stress and order, C57_dev_violated that it is the deviatoric part only for traceless stress. C57_build, C57_store, C57_roundtrip and C57_missing cover tensor building and component extraction, C57_dataset(_strain) the whole data set."
  },
  {
   "property": "C58",
   "status": "proved",
   "theorems": [
    "Hooke.C58_strain",
    "Hooke.C58_3d",
    "Hooke.C58_2d_violated",
    "Hooke.C58_split_3d",
    "Hooke.C58_split_2d_violated"
   ],
   "note": "C58_strain covers both problem types; C58_3d is the positive part, C58_2d_violated and C58_split_2d_violated the defect of the two-dimensional projection named in the statement. The code path is only reached with the internal flag is_volumetric_bar (set to False)."
  },
  {
   "property": "C59",
   "status": "proved",
   "theorems": [
    "Hooke.C59_loop",
    "Hooke.C59_zero",
    "Hooke.C59_normalised",
    "Hooke.C59_normalised_violated",
    "Hooke.C59_hist",
    "Hooke.C59_modes",
    "Hooke.C59_time_bc_violated",
    "Hooke.C59_components",
    "Hooke.C59_components_violated"
   ],
   "note": "C59_zero, C59_loop, C59_hist and C59_modes are the positive part; C59_normalised_violated is the defect named in the statement. Further defects: boundary conditions of the first time only (C59_time_bc_violated), stored components ignore or reject the normalisation (C59_components_violated)."
  },
  {
   "property": "C60",
   "status": "proved",
   "theorems": [
    "Hooke.C60_smallest_label",
    "Hooke.C60_sets",
    "Hooke.C60_no_free_violated",
    "Hooke.C60_reaction",
    "Hooke.C60_components",
    "Hooke.C60_check",
    "Hooke.C60_sequential_violated"
   ],
   "note": "C60_sets is the positive part, C60_smallest_label and C60_no_free_violated the case without free degrees of freedom. C60_sequential_violated: the sequential modes ignore the loss type."
  },
  {
   "property": "C61",
   "status": "proved",
   "theorems": [
    "Hooke.C61_vectorised_assembly"
   ],
   "note": ""
  },
  {
   "property": "C62",
   "status": "proved",
   "theorems": [
    "Hooke.C62_construct",
    "Hooke.C62_initial",
    "Hooke.C62_roundtrip",
    "Hooke.C62_bounds",
    "Hooke.C62_equal_bounds_violated",
    "Hooke.C62_normalized_out_violated",
    "Hooke.C62_nan_violated",
    "Hooke.C62_sync",
    "Hooke.C62_sync_friction_angle",
    "Hooke.C62_sync_overwritten_violated"
   ],
   "note": "C62_construct, C62_initial, C62_roundtrip, C62_bounds, C62_sync and C62_sync_friction_angle are the positive part, for every state reachable by construction, optimiser steps and enforcement. C62_nan_violated is the defect named in the statement; further defects: C62_equal_bounds_violated, C62_normalized_out_violated, C62_sync_overwritten_violated."
  },
  {
   "property": "C63",
   "status": "proved",
   "theorems": [
    "Hooke.C63_dict",
    "Hooke.C63_prefix_needed",
    "Hooke.C63_prefix_order"
   ],
   "note": "C63_dict is the property; C63_prefix_needed and C63_prefix_order show what happens without the condition on the names."
  },
  {
   "property": "C64",
   "status": "proved",
   "theorems": [
    "Hooke.C64_directory_ends",
    "Hooke.C64_directory_new",
    "Hooke.C64_directory_succeeds",
    "Hooke.C64_directory_file_violated",
    "Hooke.C64_directory_distinct",
    "Hooke.C64_overwrite",
    "Hooke.C64_file_ends",
    "Hooke.C64_file_new",
    "Hooke.C64_extension",
    "Hooke.C64_file_directory_violated"
   ],
   "note": "The two defects named in the statement are C64_directory_file_violated and C64_file_directory_violated."
  },
  {
   "property": "C65",
   "status": "proved",
   "theorems": [
    "Hooke.C65_tables",
    "Hooke.C65_unknown",
    "Hooke.C65_zero",
    "Hooke.C65_zero_violated"
   ],
   "note": "C65_tables and C65_unknown are the property; C65_zero and C65_zero_violated settle the label 0."
  },
  {
   "property": "C66",
   "status": "proved",
   "theorems": [
    "Hooke.C66_collate",
    "Hooke.C66_values",
    "Hooke.C66_empty",
    "Hooke.C66_metrics",
    "Hooke.C66_metrics_sign",
    "Hooke.C66_mav_needs_targets_violated",
    "Hooke.C66_unknown_metric"
   ],
   "note": "C66_mav_needs_targets_violated is the defect named in the statement."
  },
  {
   "property": "C67",
   "status": "proved",
   "theorems": [
    "Hooke.C67_shape",
    "Hooke.C67_mean",
    "Hooke.C67_bounds",
    "Hooke.C67_constant",
    "Hooke.C67_linear",
    "Hooke.C67_raises",
    "Hooke.C67_type_violated",
    "Hooke.C67_no_cycle",
    "Hooke.C67_ramp"
   ],
   "note": "C67_type_violated is the defect named in the statement; C67_ramp the delay."
  },
  {
   "property": "C68",
   "status": "proved",
   "theorems": [
    "Hooke.C68_dyads",
    "Hooke.C68_contractions",
    "Hooke.C68_single_contractions"
   ],
   "note": ""
  },
  {
   "property": "C69",
   "status": "proved",
   "theorems": [
    "Hooke.C69_single",
    "Hooke.C69_pair"
   ],
   "note": ""
  },
  {
   "property": "C70",
   "status": "proved",
   "theorems": [
    "Hooke.C70_batched_history",
    "Hooke.C70_bad_time",
    "Hooke.C70_stale_coordinates_violated"
   ],
   "note": "C70_stale_coordinates_violated shows that the condition named in the statement is necessary."
  },
  {
   "property": "C71",
   "status": "partial",
   "theorems": [
    "Hooke.C71_conventional_raises",
    "Hooke.C71_assignment",
    "Hooke.C71_gru_violated",
    "Hooke.C71_assignable"
   ],
   "note": ""
  },
  {
   "property": "C72",
   "status": "proved",
   "theorems": [
    "Hooke.C72_gradient",
    "Hooke.C72_gradient_zero_target_violated",
    "Hooke.C72_gradient_finite"
   ],
   "note": "Derivative and finiteness are proved where they hold; C72_gradient_zero_target_violated is the failure stated in the claim. Reverse-mode differentiation of the used torch operations is part of the model."
  },
  {
   "property": "C73",
   "status": "proved",
   "theorems": [
    "Hooke.C73_mapping",
    "Hooke.C73_boundary",
    "Hooke.C73_inadmissible_violated",
    "Hooke.C73_constraints",
    "Hooke.C73_leaves_bounds_violated",
    "Hooke.C73_one_learnable_violated"
   ],
   "note": "The convexity test is an arbitrary function. The three defects named in the statement are the theorems ending in _violated."
  },
  {
   "property": "C74",
   "status": "proved",
   "theorems": [
    "Hooke.C74_polynomial",
    "Hooke.C74_constant",
    "Hooke.C74_linear",
    "Hooke.C74_single_precision_violated"
   ],
   "note": "Coefficients are any that satisfy the interpolation conditions of scipy.signal.savgol_coeffs (IsSavgol). C74_single_precision_violated is the defect named in the statement."
  },
  {
   "property": "C75",
   "status": "proved",
   "theorems": [
    "Hooke.C75_spectrum",
    "Hooke.C75_determined",
    "Hooke.C75_linear",
    "Hooke.C75_mean",
    "Hooke.C75_extreme",
    "Hooke.C75_idempotent",
    "Hooke.C75_energy"
   ],
   "note": "Over the reals; the plot of the spectrum is not modelled."
  },
  {
   "property": "C76",
   "status": "proved",
   "theorems": [
    "Hooke.C76_batched",
    "Hooke.C76_unbatched",
    "Hooke.C76_default",
    "Hooke.C76_batch_independent",
    "Hooke.C76_causal",
    "Hooke.C76_resume",
    "Hooke.C76_bounded",
    "Hooke.C76_model",
    "Hooke.C76_model_batched",
    "Hooke.C76_raises"
   ],
   "note": "Equations of torch.nn.GRU are in Spec/Gru; over the reals; dropout is not modelled."
  },
  {
   "property": "C77",
   "status": "proved",
   "theorems": [
    "Hooke.C77_reload",
    "Hooke.C77_relocate",
    "Hooke.C77_operations",
    "Hooke.C77_missing",
    "Hooke.C77_reloaded_violated",
    "Hooke.C77_failed_fit_violated",
    "Hooke.C77_set_fitted_violated",
    "Hooke.C77_get_device_violated",
    "Hooke.C77_path_violated",
    "Hooke.C77_path",
    "Hooke.C77_crash_violated"
   ],
   "note": "C77_*_violated are the defects named in the statement. Model weights are covered by C49-C51, not here."
  },
  {
   "property": "C78",
   "status": "proved",
   "theorems": [
    "Hooke.C78_loader",
    "Hooke.C78_predict",
    "Hooke.C78_batch_size",
    "Hooke.C78_seed_violated",
    "Hooke.C78_no_targets_violated",
    "Hooke.C78_zero_loss_violated",
    "Hooke.C78_empty"
   ],
   "note": "The batching of torch DataLoader without shuffling is modelled; C78_*_violated are the defects named in the statement."
  },
  {
   "property": "C79",
   "status": "proved",
   "theorems": [
    "Hooke.C79_refinement",
    "Hooke.C79_paired",
    "Hooke.C79_saved",
    "Hooke.C79_validated",
    "Hooke.C79_resume_violated",
    "Hooke.C79_crash_violated",
    "Hooke.C79_validation_violated"
   ],
   "note": "Holds for all histories with the usual arguments (best states with an epoch, initial states without, loads without removal); C79_resume_violated, C79_crash_violated and C79_validation_violated are the defects named in the statement."
  },
  {
   "property": "C80",
   "status": "proved",
   "theorems": [
    "Hooke.C80_channels",
    "Hooke.C80_duplicate",
    "Hooke.C80_order"
   ],
   "note": "All index pairs and dictionary orders; duplicates raise."
  },
  {
   "property": "C81",
   "status": "proved",
   "theorems": [
    "Hooke.C81_identity",
    "Hooke.C81_additive",
    "Hooke.C81_normalized",
    "Hooke.C81_no_method_violated",
    "Hooke.C81_in_normalized_violated"
   ],
   "note": "Hybridized models are arbitrary functions on feature tensors; broadcasting between channels of different size is not modelled. C81_no_method_violated and C81_in_normalized_violated are the defects named in the statement."
  },
  {
   "property": "C82",
   "status": "proved",
   "theorems": [
    "Hooke.C82_elastic",
    "Hooke.C82_elastic_moduli",
    "Hooke.C82_elastic_raises",
    "Hooke.C82_symmetry_violated",
    "Hooke.C82_composition",
    "Hooke.C82_composition_raises",
    "Hooke.C82_composition_violated",
    "Hooke.C82_polynomial",
    "Hooke.C82_polynomial_complete",
    "Hooke.C82_polynomial_raises"
   ],
   "note": "C82_symmetry_violated and C82_composition_violated are the defects named in the statement. Time and batch dimensions are flattened as in the code."
  },
  {
   "property": "C83",
   "status": "proved",
   "theorems": [
    "Hooke.C83_elastic",
    "Hooke.C83_exact",
    "Hooke.C83_linear"
   ],
   "note": "The derivative is Mathlib's Frechet derivative (HasFDerivAt) in the space of strain increments. C83_exact is about the exact return because the Newton loop stops at a tolerance and its result is not a differentiable function for general laws."
  },
  {
   "property": "C84",
   "status": "proved",
   "theorems": [
    "Hooke.C84_elastic",
    "Hooke.C84_linear"
   ],
   "note": "The hypothesis of a traceless back stress holds for all reachable states (C35_history)."
  },
  {
   "property": "C85",
   "status": "proved",
   "theorems": [
    "Hooke.C85_elastic",
    "Hooke.C85_apex",
    "Hooke.C85_cone",
    "Hooke.C85_cone_violated"
   ],
   "note": "C85_cone_violated is the defect named in the statement; C85_cone is the case in which both norms agree."
  },
  {
   "property": "C86",
   "status": "proved",
   "theorems": [
    "Hooke.C86_failure_iff",
    "Hooke.C86_refines_standard",
    "Hooke.C86_history",
    "Hooke.C86_tangent_violated"
   ],
   "note": "C86_tangent_violated is the defect named in the statement. Batching itself (one element of the batch does not affect another) is modelled by the masked loop per element."
  },
  {
   "property": "C87",
   "status": "proved",
   "theorems": [
    "Hooke.C87_failure_iff",
    "Hooke.C87_elastic_step",
    "Hooke.C87_cone",
    "Hooke.C87_apex",
    "Hooke.C87_history",
    "Hooke.C87_linear_never_fails",
    "Hooke.C87_linear_standard",
    "Hooke.C87_small_stress_violated",
    "Hooke.C87_cohesionless_violated"
   ],
   "note": "C87_small_stress_violated and C87_cohesionless_violated are the defects named in the statement; the regularised factor max(sqrt(J2), 1e-4) is part of the model."
  },
  {
   "property": "C88",
   "status": "proved",
   "theorems": [
    "Hooke.C88_invariants",
    "Hooke.C88_effective",
    "Hooke.C88_defined_everywhere",
    "Hooke.C88_von_mises",
    "Hooke.C88_drucker_prager",
    "Hooke.C88_hydrostatic",
    "Hooke.C88_homogeneous",
    "Hooke.C88_isotropic"
   ],
   "note": "Undefined powers are modelled as missing values, as torch returns NaN."
  },
  {
   "property": "C89",
   "status": "proved",
   "theorems": [
    "Hooke.C89_jacobian",
    "Hooke.C89_flow",
    "Hooke.C89_newton"
   ],
   "note": "The numerical Jacobian used for debugging is not modelled."
  },
  {
   "property": "C90",
   "status": "proved",
   "theorems": [
    "Hooke.C90_accumulated_violated",
    "Hooke.C90_step",
    "Hooke.C90_elastic_step",
    "Hooke.C90_elastic_success",
    "Hooke.C90_surface",
    "Hooke.C90_apex",
    "Hooke.C90_history",
    "Hooke.C90_singular_raises",
    "Hooke.C90_pure_shear_violated"
   ],
   "note": "C90_pure_shear_violated, C90_singular_raises and C90_accumulated_violated are the defects named in the statement. The admissibility bound after a history is stated in LouInvariant."
  },
  {
   "property": "C91",
   "status": "proved",
   "theorems": [
    "Hooke.C91_von_mises_limit",
    "Hooke.C91_outcome",
    "Hooke.C91_history"
   ],
   "note": "C91_outcome gives the outcome of every step, including the failing and raising ones; C91_von_mises_limit and C91_history are the agreement for steps and histories."
  },
  {
   "property": "C92",
   "status": "proved",
   "theorems": [
    "Hooke.C92_drucker_convex",
    "Hooke.C92_accepts",
    "Hooke.C92_rejects",
    "Hooke.C92_drucker_accepted",
    "Hooke.C92_false_accept_violated",
    "Hooke.C92_mapping_keeps"
   ],
   "note": "C92_false_accept_violated is the defect named in the statement (finitely many sampled chords). Exact real arithmetic; in single precision the compared values differ from one by less than the rounding error."
  },
  {
   "property": "C93",
   "status": "proved",
   "theorems": [
    "Hooke.C93_refines",
    "Hooke.C93_step",
    "Hooke.C93_surface",
    "Hooke.C93_singular_raises",
    "Hooke.C93_elastic_violated",
    "Hooke.C93_von_mises"
   ],
   "note": "C93_elastic_violated and C93_singular_raises are the defect named in the statement. C93_refines transfers C90 and C91 to the batched model; C93_von_mises shows that its hypotheses are met by a full class of steps."
  },
  {
   "property": "C94",
   "status": "proved",
   "theorems": [
    "Hooke.C94_dp_elastic",
    "Hooke.C94_dp_apex",
    "Hooke.C94_dp_cone",
    "Hooke.C94_vm_elastic",
    "Hooke.C94_vm_plastic"
   ],
   "note": "The bounds are on the components of the tangent applied to an increment, relative to the norm of the increment (IsTangentWithin). Unlike in the standard model (C85) the cone tangent uses the norm of the deviator, so there is no violated case."
  },
  {
   "property": "C95",
   "status": "proved",
   "theorems": [
    "Hooke.C95_mesh",
    "Hooke.C95_injective",
    "Hooke.C95_boundary",
    "Hooke.C95_errors",
    "Hooke.C95_connectivity"
   ],
   "note": "every element type of feKinds, any number of elements, any rounding with relative error 2^-53 of the two floating-point operations that locate the element of a grid position; nodes, labels, coordinates, boundary labels, connectivities, material order and errors. The coordinates are exact reals."
  },
  {
   "property": "C96",
   "status": "proved",
   "theorems": [
    "Hooke.C96_corners",
    "Hooke.C96_fixed",
    "Hooke.C96_accepts",
    "Hooke.C96_fixed_violated",
    "Hooke.C96_3d_violated"
   ],
   "note": "two dimensions for the positions (C96_corners, C96_fixed), two and three dimensions for the acceptance (C96_accepts). C96_fixed_violated: a fixed corner is displaced with the default orders. C96_3d_violated: in three dimensions the ends of an edge of order zero can be displaced by different amounts."
  },
  {
   "property": "C97",
   "status": "proved",
   "theorems": [
    "Hooke.C97_edge",
    "Hooke.C97_straight",
    "Hooke.C97_rejects"
   ],
   "note": "exact reals; the linear system of the interpolation is modelled by its exact solution. The standard deviation of the noise is scaled with the patch size of the axes 1 and 2 although the noise is added in the local frame of the edge; the statement is for the noise as added."
  },
  {
   "property": "C98",
   "status": "proved",
   "theorems": [
    "Hooke.C98_rotation",
    "Hooke.C98_patch",
    "Hooke.C98_accepts",
    "Hooke.C98_default_violated",
    "Hooke.C98_small_violated"
   ],
   "note": "two dimensions; the geometric library (centroid, validity, orientation of a polygon) is an arbitrary parameter. The grid spacing must exceed the tolerance 1e-8 + 1e-5 * size of the look-up by coordinates. C98_default_violated: None for the translation or rotation range is a TypeError. C98_small_violated: patches of at most 1e-8 get the displacement of a single node."
  },
  {
   "property": "C99",
   "status": "proved",
   "theorems": [
    "Hooke.C99_reduced",
    "Hooke.C99_accepts",
    "Hooke.C99_boundary",
    "Hooke.C99_nothing",
    "Hooke.C99_disps_violated",
    "Hooke.C99_error_violated"
   ],
   "note": "C99_reduced, C99_accepts, C99_boundary and C99_nothing prove the property; C99_disps_violated and C99_error_violated prove the negations named in the statement. Labels are natural numbers standing for their decimal strings."
  },
  {
   "property": "C100",
   "status": "proved",
   "theorems": [
    "Hooke.C100_element",
    "Hooke.C100_forward",
    "Hooke.C100_returns",
    "Hooke.C100_normalised_violated",
    "Hooke.C100_sync_violated",
    "Hooke.C100_materials_violated",
    "Hooke.C100_paths_violated"
   ],
   "note": "C100_element, C100_forward and C100_returns prove the property; the four C100_*_violated theorems prove the disagreements named in the statement. A recurrent model is a function of its strain path (no randomness)."
  },
  {
   "property": "C101",
   "status": "proved",
   "theorems": [
    "Hooke.C101_returns",
    "Hooke.C101_response",
    "Hooke.C101_unbatched",
    "Hooke.C101_causal",
    "Hooke.C101_offset",
    "Hooke.C101_vectorised",
    "Hooke.C101_elastic",
    "Hooke.C101_initial_strain_violated",
    "Hooke.C101_strain_features_violated",
    "Hooke.C101_missing_features_violated"
   ],
   "note": "C101_returns and C101_response characterise the forward propagation; C101_unbatched, C101_causal, C101_offset, C101_vectorised and C101_elastic are the consequences; the three C101_*_violated theorems prove the faults named in the statement. nan checks and parameter synchronisation are not part of this model."
  },
  {
   "property": "C102",
   "status": "proved",
   "theorems": [
    "Hooke.C102_path",
    "Hooke.C102_path_fails",
    "Hooke.C102_reproduces",
    "Hooke.C102_samples",
    "Hooke.C102_last_trial_violated",
    "Hooke.C102_missing_features_violated",
    "Hooke.C102_empty_violated"
   ],
   "note": "C102_path, C102_path_fails, C102_samples and C102_reproduces prove the property; the three C102_*_violated theorems prove the faults named in the statement. Strain paths are given as the sequence of draws; floats are reals, so that conversions between numpy and torch are exact."
  },
  {
   "property": "C103",
   "status": "proved",
   "theorems": [
    "Hooke.C103_default_completes",
    "Hooke.C103_testing_minimum_violated",
    "Hooke.C103_unseen_violated",
    "Hooke.C103_progress_violated",
    "Hooke.C103_kept_violated",
    "Hooke.C103_minimum_reached_violated",
    "Hooke.C103_completes",
    "Hooke.C103_run",
    "Hooke.C103_partition",
    "Hooke.C103_sizes",
    "Hooke.C103_no_leakage",
    "Hooke.C103_schedule",
    "Hooke.C103_terminates"
   ],
   "note": "C103_run, C103_partition, C103_sizes, C103_no_leakage, C103_schedule, C103_terminates, C103_completes and C103_default_completes prove the property; the five C103_*_violated theorems prove the faults named in the statement. Trainings and losses are arguments of the model; files are paths below the pruning directory."
  },
  {
   "property": "C104",
   "status": "proved",
   "theorems": [
    "Hooke.C104_preview",
    "Hooke.C104_agrees",
    "Hooke.C104_training_size",
    "Hooke.C104_terminates",
    "Hooke.C104_iterations_violated",
    "Hooke.C104_training_size_violated"
   ],
   "note": "C104_preview, C104_agrees, C104_training_size and C104_terminates prove the property; the two C104_*_violated theorems prove the faults named in the statement."
  },
  {
   "property": "C105",
   "status": "proved",
   "theorems": [
    "Hooke.C105_round_trip",
    "Hooke.C105_checked",
    "Hooke.C105_labels_violated",
    "Hooke.C105_unused_node_violated",
    "Hooke.C105_boundary_node_violated"
   ],
   "note": "C105_round_trip and C105_checked prove the property; the three C105_*_violated theorems prove the faults named in the statement. Formatting and parsing of floats are arguments of the model, assumed to be inverse up to a rounding (FaithfulText); regular expressions are modelled by the keyword searches they perform."
  },
  {
   "property": "C106",
   "status": "proved",
   "theorems": [
    "Hooke.C106_extract",
    "Hooke.C106_whole_word",
    "Hooke.C106_pipeline",
    "Hooke.C106_quad8_violated",
    "Hooke.C106_title_violated",
    "Hooke.C106_free_dof_violated",
    "Hooke.C106_phase_violated"
   ],
   "note": "C106_extract and C106_pipeline prove the property; the four C106_*_violated theorems prove the faults named in the statement. Formatting and parsing of floats are arguments of the model (FaithfulText); the lines of the loading incrementation and of the materials are arguments."
  },
  {
   "property": "C107",
   "status": "proved",
   "theorems": [
    "Hooke.C107_history",
    "Hooke.C107_results",
    "Hooke.C107_time_violated",
    "Hooke.C107_labels_violated",
    "Hooke.C107_backup_violated",
    "Hooke.C107_prefix_violated",
    "Hooke.C107_empty_violated",
    "Hooke.C107_single_node_violated",
    "Hooke.C107_flags_violated"
   ],
   "note": "C107_history and C107_results prove the property; the seven C107_*_violated theorems prove the faults named in the statement. Files are tables of numbers (the text of the csv files is not modelled); rd is the rounding; pointwise losses only (the Dirichlet sets are not modelled)."
  },
  {
   "property": "C108",
   "status": "proved",
   "theorems": [
    "Hooke.C108_uniform",
    "Hooke.C108_gaussian",
    "Hooke.C108_setup",
    "Hooke.C108_default_weights_violated",
    "Hooke.C108_zero_weight_violated",
    "Hooke.C108_change_violated",
    "Hooke.C108_variability_violated",
    "Hooke.C108_negative_violated",
    "Hooke.C108_few_weights_violated",
    "Hooke.C108_order",
    "Hooke.C108_negative_weight_violated"
   ],
   "note": "C108_uniform, C108_gaussian and C108_setup prove the property; the six C108_*_violated theorems prove the faults named in the statement. Random draws are arguments (numbers of the unit interval, standard normal numbers, outcomes of trials); their distribution is not modelled."
  },
  {
   "property": "C109",
   "status": "proved",
   "theorems": [
    "Hooke.C109_dataset",
    "Hooke.C109_initial",
    "Hooke.C109_amplitude",
    "Hooke.C109_zero",
    "Hooke.C109_normalizer_violated",
    "Hooke.C109_import_violated",
    "Hooke.C109_precision_violated",
    "Hooke.C109_denoise_scaled_violated",
    "Hooke.C109_missing_features_violated",
    "Hooke.C109_empty_violated"
   ],
   "note": "Noise draws are arguments; scalers over the reals; saving and plotting not modelled."
  },
  {
   "property": "C110",
   "status": "proved",
   "theorems": [
    "Hooke.C110_cyclic",
    "Hooke.C110_reversals",
    "Hooke.C110_polynomial",
    "Hooke.C110_bounds",
    "Hooke.C110_read",
    "Hooke.C110_read_number",
    "Hooke.C110_simulation",
    "Hooke.C110_title_violated",
    "Hooke.C110_missing_violated",
    "Hooke.C110_short_violated"
   ],
   "note": "Increments of every loading in closed form (cyclic) or as values of the interpolating polynomial; bounds; reading of the file of increments and of the whole input data file."
  },
  {
   "property": "C111",
   "status": "proved",
   "theorems": [
    "Hooke.C111_rotation",
    "Hooke.C111_von_mises",
    "Hooke.C111_drucker_prager",
    "Hooke.C111_lou",
    "Hooke.C111_errors",
    "Hooke.C111_materials",
    "Hooke.C111_mohr_coulomb",
    "Hooke.C111_null_pressure",
    "Hooke.C111_equivalence",
    "Hooke.C111_slice",
    "Hooke.C111_small_violated",
    "Hooke.C111_first_invariant_violated",
    "Hooke.C111_range_violated"
   ],
   "note": "Over the reals; NaN is none. Grid, contouring and drawing are not modelled. Violations are proved for small yield stresses, the first invariant of the deviator and the range of the grid."
  },
  {
   "property": "C112",
   "status": "proved",
   "theorems": [
    "Hooke.C112_euler",
    "Hooke.C112_patch",
    "Hooke.C112_accepts",
    "Hooke.C112_bounds",
    "Hooke.C112_translation",
    "Hooke.C112_default_violated",
    "Hooke.C112_rigid_violated",
    "Hooke.C112_inverted_violated",
    "Hooke.C112_edge",
    "Hooke.C112_straight"
   ],
   "note": "Floating-point coordinates of the mesh with a rounding as in C95, other quantities exact; np.isclose tolerances are modelled and the mesh must be coarser than them (hres). Values drawn and the iteration order of Python sets are arguments. Violations are proved as C112_default_violated, C112_rigid_violated, C112_inverted_violated."
  },
  {
   "property": "C113",
   "status": "proved",
   "theorems": [
    "Hooke.C113_read",
    "Hooke.C113_rounding",
    "Hooke.C113_distinct",
    "Hooke.C113_rewrite",
    "Hooke.C113_blank",
    "Hooke.C113_faithful",
    "Hooke.C113_mesh",
    "Hooke.C113_pipeline",
    "Hooke.C113_loads",
    "Hooke.C113_glued_violated"
   ],
   "note": "Scientific notation and float() of the Python library are modelled for real numbers (rounding half to even of the exact value); the remaining rounding of float() to a floating point number is not. Discharges the hypothesis on number texts of C105, C106, C110 for '{:16.8e}'."
  },
  {
   "property": "C114",
   "status": "proved",
   "theorems": [
    "Hooke.C114_node",
    "Hooke.C114_reject",
    "Hooke.C114_conditions",
    "Hooke.C114_compression_violated",
    "Hooke.C114_rounded_top_violated",
    "Hooke.C114_plane",
    "Hooke.C114_layout",
    "Hooke.C114_file",
    "Hooke.C114_reactions",
    "Hooke.C114_pipeline"
   ],
   "note": "Labels and codes stored as floats in the array are modelled as integers; existence checks of paths and the returned (closed) file object are not modelled."
  },
  {
   "property": "C115",
   "status": "proved",
   "theorems": [
    "Hooke.C115_round_trip",
    "Hooke.C115_pipeline",
    "Hooke.C115_back_violated",
    "Hooke.C115_element_labels_violated",
    "Hooke.C115_fixed_node_violated",
    "Hooke.C115_node_labels_violated",
    "Hooke.C115_convert"
   ],
   "note": "C115_convert for every readable ABAQUS file, C115_round_trip for every readable Links file, C115_pipeline for the input data file written by the simulator interface; the four faults are proved as *_violated."
  },
  {
   "property": "C116",
   "status": "proved",
   "theorems": [
    "Hooke.C116_subdir",
    "Hooke.C116_stored",
    "Hooke.C116_arrays",
    "Hooke.C116_series",
    "Hooke.C116_models",
    "Hooke.C116_unknown",
    "Hooke.C116_refusals",
    "Hooke.C116_no_truth_violated",
    "Hooke.C116_acc_violated",
    "Hooke.C116_labels_violated",
    "Hooke.C116_copies_violated"
   ],
   "note": "Files hold results as values (pickling is outside the model); the order of the listing is an argument."
  },
  {
   "property": "C117",
   "status": "proved",
   "theorems": [
    "Hooke.C117_mean",
    "Hooke.C117_processes",
    "Hooke.C117_convergence",
    "Hooke.C117_other_label_violated",
    "Hooke.C117_unknown",
    "Hooke.C117_no_samples_violated",
    "Hooke.C117_file",
    "Hooke.C117_overwrite",
    "Hooke.C117_not_finite_violated"
   ],
   "note": "Numbers are reals with infinities and not-a-number for quotients by zero; overflow, float32 rounding and pickling are outside the model; metrics are requested without repetition."
  },
  {
   "property": "C118",
   "status": "proved",
   "theorems": [
    "Hooke.C118_labels",
    "Hooke.C118_parameters",
    "Hooke.C118_distinct",
    "Hooke.C118_enforce",
    "Hooke.C118_hybrid",
    "Hooke.C118_hybrid_clamp",
    "Hooke.C118_collision_violated",
    "Hooke.C118_hybrid_constraints_violated"
   ],
   "note": "Collected dictionaries are exactly the flattened parameters under distinct labels; clamping per label. Collisions of labels and unconstrained hybrid training proved as violations."
  },
  {
   "property": "C119",
   "status": "proved",
   "theorems": [
    "Hooke.C119_criterion",
    "Hooke.C119_status",
    "Hooke.C119_training",
    "Hooke.C119_bounds",
    "Hooke.C119_loss_history",
    "Hooke.C119_best_violated",
    "Hooke.C119_nan_violated",
    "Hooke.C119_single_epoch_violated",
    "Hooke.C119_trigger_violated",
    "Hooke.C119_no_parameters_violated",
    "Hooke.C119_parameter_history",
    "Hooke.C119_parameter_history_violated",
    "Hooke.C119_both_criteria_violated",
    "Hooke.C119_one_criterion"
   ],
   "note": "Forward pass, gradient and optimiser are arbitrary functions. The loop is proved against a trajectory of states; the bounds are proved for material models with explicit parameters without constraints."
  },
  {
   "property": "C120",
   "status": "proved",
   "theorems": [
    "Hooke.C120_history",
    "Hooke.C120_total",
    "Hooke.C120_table",
    "Hooke.C120_script",
    "Hooke.C120_agree",
    "Hooke.C120_names_violated",
    "Hooke.C120_labels_violated",
    "Hooke.C120_flat_labels",
    "Hooke.C120_flatten_violated",
    "Hooke.C120_copy",
    "Hooke.C120_copy_incomplete_violated",
    "Hooke.C120_copy_rows_violated"
   ],
   "note": "Figures and the text of files are left out. The flattening is modelled by the strides of a slice, for data on the device of the model."
  },
  {
   "property": "C121",
   "status": "proved",
   "theorems": [
    "Hooke.C121_forward",
    "Hooke.C121_strains",
    "Hooke.C121_lateral",
    "Hooke.C121_affine",
    "Hooke.C121_lateral_violated",
    "Hooke.C121_first_violated",
    "Hooke.C121_uniaxial_violated",
    "Hooke.C121_singular"
   ],
   "note": "Automatic differentiation is the derivative, floats are reals; the material model is an arbitrary function of paths. Proved for the run in general, with exact results for affine laws; four faults proved as violations."
  },
  {
   "property": "C122",
   "status": "proved",
   "theorems": [
    "Hooke.C122_loss",
    "Hooke.C122_parameters",
    "Hooke.C122_refusals",
    "Hooke.C122_crash_violated",
    "Hooke.C122_kinds",
    "Hooke.C122_scheduler",
    "Hooke.C122_rates",
    "Hooke.C122_rates_violated",
    "Hooke.C122_zero_step",
    "Hooke.C122_figures",
    "Hooke.C122_inconsistent"
   ],
   "note": "Pickled values are opaque; schedulers are modelled by PyTorch's recursive updates. Figures are modelled by the arrays passed to the plotting functions."
  },
  {
   "property": "C123",
   "status": "proved",
   "theorems": [
    "Hooke.C123_connected",
    "Hooke.C123_connected_dim",
    "Hooke.C123_edges_plane",
    "Hooke.C123_edges_space",
    "Hooke.C123_angle",
    "Hooke.C123_recovered",
    "Hooke.C123_mean",
    "Hooke.C123_mean_empty",
    "Hooke.C123_mean_violated"
   ],
   "note": "C123_connected, C123_connected_dim: connected nodes; C123_edges_plane, C123_edges_space: edge nodes; C123_angle, C123_recovered: rotation angles; C123_mean, C123_mean_empty: mean rotations; C123_mean_violated: turns around 180 degrees. The angle is the argument of a complex number over the reals."
  },
  {
   "property": "C124",
   "status": "proved",
   "theorems": [
    "Hooke.C124_uniform",
    "Hooke.C124_gaussian",
    "Hooke.C124_denoise",
    "Hooke.C124_average",
    "Hooke.C124_columns_violated",
    "Hooke.C124_reading_violated",
    "Hooke.C124_name_violated",
    "Hooke.C124_empty_violated",
    "Hooke.C124_specimens_violated",
    "Hooke.C124_initial_violated",
    "Hooke.C124_precision_violated"
   ],
   "note": "C124_uniform, C124_gaussian: injection; C124_denoise, C124_average: denoising; seven violations, among them the number of columns (C124_columns_violated, C124_reading_violated) and the deletion of the data (C124_name_violated). Directory names without a path; numbers are written and read exactly; the noise generator and the denoisers are those of C108 and C67."
  },
  {
   "property": "C125",
   "status": "proved",
   "theorems": [
    "Hooke.C125_elastic",
    "Hooke.C125_vonMises",
    "Hooke.C125_druckerPrager",
    "Hooke.C125_lou",
    "Hooke.C125_required",
    "Hooke.C125_run",
    "Hooke.C125_stale_violated",
    "Hooke.C125_params",
    "Hooke.C125_ends",
    "Hooke.C125_generate",
    "Hooke.C125_kept",
    "Hooke.C125_checks",
    "Hooke.C125_success",
    "Hooke.C125_emptied_violated",
    "Hooke.C125_labels_violated",
    "Hooke.C125_increments_violated",
    "Hooke.C125_unknown_violated",
    "Hooke.C125_glued_violated"
   ],
   "note": "The external program is an arbitrary function of its output directory; a hardening law is taken with its parameters; the directory exists (its creation is C64)."
  },
  {
   "property": "C126",
   "status": "proved",
   "theorems": [
    "Hooke.C126_export",
    "Hooke.C126_two_ways",
    "Hooke.C126_again",
    "Hooke.C126_sets",
    "Hooke.C126_overlap",
    "Hooke.C126_small_violated",
    "Hooke.C126_specimen_violated",
    "Hooke.C126_gauss",
    "Hooke.C126_refused",
    "Hooke.C126_name",
    "Hooke.C126_plane_violated",
    "Hooke.C126_gap_violated",
    "Hooke.C126_lost_violated",
    "Hooke.C126_slash_violated",
    "Hooke.C126_half_violated"
   ],
   "note": "Names of simulations have no characters special in regular expressions. Texts of csv numbers and precisions are not modelled."
  },
  {
   "property": "C127",
   "status": "proved",
   "theorems": [
    "Hooke.C127_rebuilt",
    "Hooke.C127_separate",
    "Hooke.C127_own",
    "Hooke.C127_options_violated",
    "Hooke.C127_accepted",
    "Hooke.C127_scalers",
    "Hooke.C127_nodir_violated",
    "Hooke.C127_shared_violated"
   ],
   "note": "The constitutive model is taken to accept its parameters (C42 has the nested dictionaries that make all but the elastic model raise). Interrupted writes of the file are those of C77."
  },
  {
   "property": "C128",
   "status": "proved",
   "theorems": [
    "Hooke.C128_csv",
    "Hooke.C128_columns",
    "Hooke.C128_strains",
    "Hooke.C128_recompute",
    "Hooke.C128_units_violated",
    "Hooke.C128_unloaded_violated",
    "Hooke.C128_stored_violated"
   ],
   "note": "Real numbers; the conversion to the default precision of torch, figures and messages are not modelled. Stored samples have the component order of the generator."
  },
  {
   "property": "C129",
   "status": "proved",
   "theorems": [
    "Hooke.C129_invariants",
    "Hooke.C129_bounds",
    "Hooke.C129_plane",
    "Hooke.C129_tables",
    "Hooke.C129_lengths_violated",
    "Hooke.C129_points",
    "Hooke.C129_padding_violated",
    "Hooke.C129_units_violated"
   ],
   "note": "Infinitesimal strains and lists of paths; eigenvalues and permutations are arguments; the drawing is not modelled."
  },
  {
   "property": "C130",
   "status": "proved",
   "theorems": [
    "Hooke.C130_parameters",
    "Hooke.C130_stable",
    "Hooke.C130_hardening",
    "Hooke.C130_first_yield_violated"
   ],
   "note": "Parameters as an equivalence, stability from interval bounds on the normalized temperature and composition, hardening curve from the interpolation theorems C26."
  },
  {
   "property": "C131",
   "status": "proved",
   "theorems": [
    "Hooke.C131_counts",
    "Hooke.C131_default_violated",
    "Hooke.C131_generate",
    "Hooke.C131_succeeds",
    "Hooke.C131_import_violated",
    "Hooke.C131_assemble",
    "Hooke.C131_reduction",
    "Hooke.C131_size",
    "Hooke.C131_overwritten_violated",
    "Hooke.C131_stale_violated",
    "Hooke.C131_unknown_violated"
   ],
   "note": "Responses are an arbitrary type, trials an arbitrary outcome function; file names as keys of a dictionary. Types are taken literally, not as regular expressions."
  },
  {
   "property": "C132",
   "status": "proved",
   "theorems": [
    "Hooke.C132_step",
    "Hooke.C132_never_fails",
    "Hooke.C132_accuracy",
    "Hooke.C132_nadai",
    "Hooke.C132_material",
    "Hooke.C132_steep_violated",
    "Hooke.C132_table",
    "Hooke.C132_linear"
   ],
   "note": "The residual is convex and decreasing, so the iterates approach the root monotonically and the product of residual and slope decreases by a factor of four per iteration (AM-GM), which gives convergence in 20 iterations without any bound on the number of rows of the table. Real arithmetic. Steep tables violate the claim (C132_steep_violated)."
  },
  {
   "property": "C133",
   "status": "proved",
   "theorems": [
    "Hooke.C133_step",
    "Hooke.C133_never_fails",
    "Hooke.C133_table",
    "Hooke.C133_steep_violated"
   ],
   "note": "Convergence proved by the decrease of residual times slope by a factor of four per Newton step; exact real arithmetic."
  },
  {
   "property": "C134",
   "status": "proved",
   "theorems": [
    "Hooke.C134_summary",
    "Hooke.C134_zero_violated",
    "Hooke.C134_find",
    "Hooke.C134_stale_violated",
    "Hooke.C134_loss",
    "Hooke.C134_exact_violated",
    "Hooke.C134_realizations",
    "Hooke.C134_uncertainty",
    "Hooke.C134_repeated_violated",
    "Hooke.C134_counts_violated",
    "Hooke.C134_stray_violated",
    "Hooke.C134_fewer_violated",
    "Hooke.C134_parameters",
    "Hooke.C134_table",
    "Hooke.C134_order_violated",
    "Hooke.C134_missing_violated",
    "Hooke.C134_boxplots",
    "Hooke.C134_labels",
    "Hooke.C134_label_violated",
    "Hooke.C134_patches"
   ],
   "note": "Numbers in the summary are printed and read as in C113 (rounding of decimal numbers in ℝ). The drawing of the plots and the quantiles of the box plots are not modelled."
  },
  {
   "property": "C135",
   "status": "proved",
   "theorems": [
    "Hooke.C135_open",
    "Hooke.C135_samples",
    "Hooke.C135_directory",
    "Hooke.C135_normalised_violated",
    "Hooke.C135_update",
    "Hooke.C135_update_one",
    "Hooke.C135_twice_violated",
    "Hooke.C135_move",
    "Hooke.C135_incomplete_violated",
    "Hooke.C135_relocate_violated",
    "Hooke.C135_relocate_keeps",
    "Hooke.C135_saved",
    "Hooke.C135_convert",
    "Hooke.C135_bare_violated",
    "Hooke.C135_subset",
    "Hooke.C135_convert_refuses"
   ],
   "note": "os.path.normpath, dirname and join are modelled on texts of POSIX paths; symbolic links are not modelled. Aliasing of the list of paths given to the constructor is not modelled."
  },
  {
   "property": "C136",
   "status": "proved",
   "theorems": [
    "Hooke.C136_trained",
    "Hooke.C136_own",
    "Hooke.C136_predicted",
    "Hooke.C136_stops",
    "Hooke.C136_series",
    "Hooke.C136_fewer",
    "Hooke.C136_times",
    "Hooke.C136_sizes",
    "Hooke.C136_plotted",
    "Hooke.C136_missing_violated",
    "Hooke.C136_carried_violated",
    "Hooke.C136_lost_violated",
    "Hooke.C136_label_violated",
    "Hooke.C136_crossval_violated"
   ],
   "note": "Training and prediction are arbitrary functions of the model directory (outcome and content left). The time series are read as in C116; figures are not modelled."
  },
  {
   "property": "C137",
   "status": "proved",
   "theorems": [
    "Hooke.C137_step",
    "Hooke.C137_step_batched",
    "Hooke.C137_yield",
    "Hooke.C137_never_fails",
    "Hooke.C137_accuracy"
   ],
   "note": "Reals instead of floating point numbers. Saturating is the notion of C132; laws of the code are instances by C132_table, C132_linear, C132_nadai."
  },
  {
   "property": "C138",
   "status": "proved",
   "theorems": [
    "Hooke.C138_updated",
    "Hooke.C138_predicted",
    "Hooke.C138_missing",
    "Hooke.C138_stops",
    "Hooke.C138_data",
    "Hooke.C138_directory",
    "Hooke.C138_paths",
    "Hooke.C138_unknown_type",
    "Hooke.C138_finite_violated",
    "Hooke.C138_copy_violated",
    "Hooke.C138_removed_violated",
    "Hooke.C138_lost_violated",
    "Hooke.C138_nothing_violated"
   ],
   "note": "Trainings, predictions and plots are arbitrary functions with any outcome; the content of a file is the data set loaded from it; only ASCII digits in file names."
  },
  {
   "property": "C139",
   "status": "proved",
   "theorems": [
    "Hooke.C139_von_mises",
    "Hooke.C139_mixed",
    "Hooke.C139_drucker_prager",
    "Hooke.C139_tangents",
    "Hooke.C139_elastic",
    "Hooke.C139_batched_violated"
   ],
   "note": "Rotations of Kelvin vectors preserve the norm, the trace, the deviator and the isotropic elasticity; each return mapping commutes with them, then induction over the history. The violation compares a plastic shear with its mirror image. The Lou model and the batched mixed-hardening model are not covered."
  },
  {
   "property": "C140",
   "status": "proved",
   "theorems": [
    "Hooke.C140_balance",
    "Hooke.C140_von_mises",
    "Hooke.C140_work",
    "Hooke.C140_drucker_prager",
    "Hooke.C140_work_drucker_prager",
    "Hooke.C140_mixed",
    "Hooke.C140_mixed_violated"
   ],
   "note": "Work is the stress at the end of each step on the strain increment (implicit rule). Drucker-Prager: the margins 1e-8 and 1e-6 exclude cohesions as small as the tolerances. C140_mixed gives the exact shortfall, C140_mixed_violated a step with work below -3 where it should be 4."
  },
  {
   "property": "C141",
   "status": "proved",
   "theorems": [
    "Hooke.C141_proportional",
    "Hooke.C141_steps",
    "Hooke.C141_linear",
    "Hooke.C141_mixed_violated"
   ],
   "note": "C141_linear needs no assumption that the steps succeed. The violation for mixed hardening comes from advancing the back stress one and a half times (C35)."
  },
  {
   "property": "C142",
   "status": "proved",
   "theorems": [
    "Hooke.C142_frame",
    "Hooke.C142_generate",
    "Hooke.C142_accepts",
    "Hooke.C142_reload",
    "Hooke.C142_formatted",
    "Hooke.C142_dataset",
    "Hooke.C142_single_violated",
    "Hooke.C142_regenerate_violated",
    "Hooke.C142_load_violated",
    "Hooke.C142_name_violated",
    "Hooke.C142_parameters"
   ],
   "note": "File system as sets of directories and files; patch generation and the solver are arguments of the model.  Four violated clauses."
  },
  {
   "property": "C143",
   "status": "proved",
   "theorems": [
    "Hooke.C143_step",
    "Hooke.C143_history",
    "Hooke.C143_run",
    "Hooke.C143_stress",
    "Hooke.C143_increment",
    "Hooke.C143_step_drucker_prager",
    "Hooke.C143_history_drucker_prager",
    "Hooke.C143_nonassociated_violated"
   ],
   "note": "C143_step, C143_history, C143_run: von Mises, linear hardening. C143_stress: stresses. C143_increment: every law which does not soften, one step. C143_step_drucker_prager, C143_history_drucker_prager: associated flow, linear cohesion. C143_nonassociated_violated: amplification by more than 1.2 with the flow parameter 1/100."
  },
  {
   "property": "C144",
   "status": "proved",
   "theorems": [
    "Hooke.C144_rnn",
    "Hooke.C144_order_missing",
    "Hooke.C144_rc",
    "Hooke.C144_hybrid",
    "Hooke.C144_options",
    "Hooke.C144_learning_rate",
    "Hooke.C144_case",
    "Hooke.C144_earlier_model_lost_violated"
   ],
   "note": "The training and prediction tables of each kind of model are transcribed separately; the feature builders are the model of C45 and C57; proved for data sets in memory and in files (subsets of file data sets: C45); the model update itself (train_model) is a parameter of the main program."
  },
  {
   "property": "C145",
   "status": "proved",
   "theorems": [
    "Hooke.C145_element_forces",
    "Hooke.C145_plasticity",
    "Hooke.C145_elastic",
    "Hooke.C145_assembly",
    "Hooke.C145_loss_numbering",
    "Hooke.C145_loss_axes"
   ],
   "note": "Rotations only: a reflection changes the sign of the Jacobian determinant. A failed plasticity update (NaN stresses) is represented as an error."
  },
  {
   "property": "C146",
   "status": "proved",
   "theorems": [
    "Hooke.C146_drucker_prager",
    "Hooke.C146_drucker_prager_tangent",
    "Hooke.C146_lou",
    "Hooke.C146_lou_batched",
    "Hooke.C146_lou_material",
    "Hooke.C146_von_mises",
    "Hooke.C146_mixed",
    "Hooke.C146_tangents",
    "Hooke.C146_elastic",
    "Hooke.C146_materials",
    "Hooke.C146_element_forces",
    "Hooke.C146_loss",
    "Hooke.C146_loss_normalised",
    "Hooke.C146_tiny_violated",
    "Hooke.C146_batched_violated"
   ],
   "note": "C146_von_mises, C146_mixed, C146_elastic by induction over the history from a simulation of one return mapping (the Newton iterates coincide because residual, scale and Jacobian have the same factor); C146_tangents; C146_materials instantiates the interface used by C146_element_forces; C146_loss, C146_loss_normalised. C146_lou, C146_lou_batched, C146_lou_material and C146_drucker_prager(_tangent) do the same for the other two models, with conditions on the thresholds for all accumulated plastic strains. C146_tiny_violated and C146_batched_violated prove the two defects."
  },
  {
   "property": "C147",
   "status": "proved",
   "theorems": [
    "Hooke.C147_plane",
    "Hooke.C147_solid",
    "Hooke.C147_materials",
    "Hooke.C147_one_point_violated"
   ],
   "note": "tetra10, hexa20 and hexa8 with one Gauss point are not covered by the theorems."
  },
  {
   "property": "C148",
   "status": "proved",
   "theorems": [
    "Hooke.C148_history",
    "Hooke.C148_batched",
    "Hooke.C148_no_shear"
   ],
   "note": ""
  },
  {
   "property": "C149",
   "status": "proved",
   "theorems": [
    "Hooke.C149_setup",
    "Hooke.C149_rejected",
    "Hooke.C149_args_win",
    "Hooke.C149_gru",
    "Hooke.C149_scalers_violated",
    "Hooke.C149_gru_normalized_violated",
    "Hooke.C149_schemes_violated"
   ],
   "note": ""
  },
  {
   "property": "C150",
   "status": "proved",
   "theorems": [
    "Hooke.C150_rebuilt",
    "Hooke.C150_separate",
    "Hooke.C150_no_directory_violated",
    "Hooke.C150_path_violated",
    "Hooke.C150_rebuilt_scalers_violated"
   ],
   "note": ""
  },
  {
   "property": "C151",
   "status": "proved",
   "theorems": [
    "Hooke.C151_von_mises",
    "Hooke.C151_mixed",
    "Hooke.C151_drucker_prager",
    "Hooke.C151_lou",
    "Hooke.C151_batched",
    "Hooke.C151_tangents",
    "Hooke.C151_elastic"
   ],
   "note": ""
  },
  {
   "property": "C152",
   "status": "proved",
   "theorems": [
    "Hooke.C152_vonMises_symmetric",
    "Hooke.C152_vonMises_batched_symmetric",
    "Hooke.C152_mixed_symmetric",
    "Hooke.C152_mixed_batched_symmetric",
    "Hooke.C152_vonMises_elastic",
    "Hooke.C152_vonMises_semidefinite",
    "Hooke.C152_vonMises_definite",
    "Hooke.C152_vonMises_hardening_needed",
    "Hooke.C152_mixed_semidefinite",
    "Hooke.C152_mixed_definite",
    "Hooke.C152_mixed_elastic",
    "Hooke.C152_drucker_prager_symmetric",
    "Hooke.C152_drucker_prager_cone",
    "Hooke.C152_drucker_prager_apex",
    "Hooke.C152_drucker_prager_apex_singular"
   ],
   "note": "Positive definiteness of the batched tangents is not claimed: their flow direction is regularised and does not have unit length."
  },
  {
   "property": "C153",
   "status": "proved",
   "theorems": [
    "Hooke.C153_simple",
    "Hooke.C153_gru",
    "Hooke.C153_rcm",
    "Hooke.C153_hybrid",
    "Hooke.C153_rejected",
    "Hooke.C153_finder",
    "Hooke.C153_finder_models_violated",
    "Hooke.C153_get_device_violated"
   ],
   "note": "The tensors held by the objects are not modelled."
  },
  {
   "property": "C154",
   "status": "proved",
   "theorems": [
    "Hooke.C154_check_iff",
    "Hooke.C154_elements_pass",
    "Hooke.C154_detects",
    "Hooke.C154_derivatives_violated"
   ],
   "note": "The output is not modelled."
  },
  {
   "property": "C155",
   "status": "proved",
   "theorems": [
    "Hooke.C155_samples",
    "Hooke.C155_unknown_type",
    "Hooke.C155_responses",
    "Hooke.C155_zero_noise",
    "Hooke.C155_noisy_responses",
    "Hooke.C155_last_trial_violated",
    "Hooke.C155_empty_violated"
   ],
   "note": "The faults are proved as C155_last_trial_violated and C155_empty_violated; all other clauses are proved at full strength. The strain path generators are covered by C54 and C55; here their draws are arbitrary."
  },
  {
   "property": "C156",
   "status": "proved",
   "theorems": [
    "Hooke.C156_mesh_iff",
    "Hooke.C156_data_iff",
    "Hooke.C156_rejected",
    "Hooke.C156_history",
    "Hooke.C156_accepted",
    "Hooke.C156_new_mesh_violated",
    "Hooke.C156_time_violated",
    "Hooke.C156_labels_violated"
   ],
   "note": "The faults are proved as C156_new_mesh_violated, C156_time_violated and C156_labels_violated; the other clauses are proved at full strength."
  },
  {
   "property": "C157",
   "status": "proved",
   "theorems": [
    "Hooke.C157_history",
    "Hooke.C157_returns",
    "Hooke.C157_reciprocal",
    "Hooke.C157_superposition",
    "Hooke.C157_energy",
    "Hooke.C157_specimen_reciprocal",
    "Hooke.C157_specimen_energy"
   ],
   "note": "The elastic constants are exact reals. The history is that of the time loop of the sequential evaluation in small strains; the element mode computes the same forces (C100)."
  },
  {
   "property": "C158",
   "status": "proved",
   "theorems": [
    "Hooke.C158_element",
    "Hooke.C158_von_mises",
    "Hooke.C158_drucker_prager",
    "Hooke.C158_elastic",
    "Hooke.C158_specimen",
    "Hooke.C158_initial",
    "Hooke.C158_returns"
   ],
   "note": "Mixed hardening is left out: its plastic work is wrong in the code (C140)."
  },
  {
   "property": "C159",
   "status": "proved",
   "theorems": [
    "Hooke.C159_element",
    "Hooke.C159_von_mises",
    "Hooke.C159_drucker_prager",
    "Hooke.C159_elastic",
    "Hooke.C159_specimen",
    "Hooke.C159_same_loads",
    "Hooke.C159_elastic_specimen"
   ],
   "note": "displacements themselves are determined only up to motions that do not strain the Gauss points; the example adds a translation"
  },
  {
   "property": "C160",
   "status": "proved",
   "theorems": [
    "Hooke.C160_differences",
    "Hooke.C160_returns",
    "Hooke.C160_mean_value",
    "Hooke.C160_error",
    "Hooke.C160_multiplier",
    "Hooke.C160_second_derivatives"
   ],
   "note": "real arithmetic; rounding errors of the differences are not modelled"
  },
  {
   "property": "C161",
   "status": "proved",
   "theorems": [
    "Hooke.C161_construction",
    "Hooke.C161_construction_violated",
    "Hooke.C161_specimen",
    "Hooke.C161_loss",
    "Hooke.C161_modes",
    "Hooke.C161_refused_violated",
    "Hooke.C161_bounds_violated",
    "Hooke.C161_dimension",
    "Hooke.C161_weights_violated"
   ],
   "note": "The internal forces of the specimen are given (C59 and the claims on the forward propagation treat how they are computed); options that store components, local paths and reactions are left out."
  },
  {
   "property": "C162",
   "status": "proved",
   "theorems": [
    "Hooke.C162_search",
    "Hooke.C162_narrow_violated",
    "Hooke.C162_endless_violated",
    "Hooke.C162_boundary",
    "Hooke.C162_closed",
    "Hooke.C162_shape",
    "Hooke.C162_drucker"
   ],
   "note": "Numbers are real; that the search never ends for a tolerance that is not positive is a statement for exact arithmetic."
  },
  {
   "property": "C163",
   "status": "proved",
   "theorems": [
    "Hooke.C163_curves",
    "Hooke.C163_own",
    "Hooke.C163_sizes_violated",
    "Hooke.C163_refusals",
    "Hooke.C163_ranges"
   ],
   "note": "What is plotted is modelled, not the drawing; the collection of the rows is that of C134."
  },
  {
   "property": "C164",
   "status": "proved",
   "theorems": [
    "Hooke.C164_dataset",
    "Hooke.C164_by_temperature",
    "Hooke.C164_by_composition",
    "Hooke.C164_same",
    "Hooke.C164_cases",
    "Hooke.C164_same_percent_violated",
    "Hooke.C164_double_violated"
   ],
   "note": "C164_same_percent_violated and C164_double_violated state where entries are shared."
  },
  {
   "property": "C165",
   "status": "proved",
   "theorems": [
    "Hooke.C165_r2",
    "Hooke.C165_units",
    "Hooke.C165_constant_violated",
    "Hooke.C165_small_spread_violated",
    "Hooke.C165_sets",
    "Hooke.C165_bars",
    "Hooke.C165_abscissae_violated",
    "Hooke.C165_band"
   ],
   "note": "The violations are C165_constant_violated, C165_small_spread_violated and C165_abscissae_violated."
  },
  {
   "property": "C166",
   "status": "proved",
   "theorems": [
    "Hooke.C166_analysis",
    "Hooke.C166_deleted_violated",
    "Hooke.C166_refusals"
   ],
   "note": "C166_deleted_violated states the loss of input data."
  },
  {
   "property": "C167",
   "status": "proved",
   "theorems": [
    "Hooke.C167_points",
    "Hooke.C167_r2",
    "Hooke.C167_band_violated",
    "Hooke.C167_constant_violated",
    "Hooke.C167_refusals",
    "Hooke.C167_shown",
    "Hooke.C167_coefficient_violated"
   ],
   "note": "Violations: C167_band_violated, C167_constant_violated, C167_coefficient_violated. The coefficient uses C165_units."
  },
  {
   "property": "C168",
   "status": "proved",
   "theorems": [
    "Hooke.C168_all",
    "Hooke.C168_listed",
    "Hooke.C168_types_violated",
    "Hooke.C168_same_size_violated",
    "Hooke.C168_scatter",
    "Hooke.C168_refusals"
   ],
   "note": "Violations: C168_types_violated, C168_same_size_violated. The files read are part of the model's input."
  },
  {
   "property": "C169",
   "status": "proved",
   "theorems": [
    "Hooke.C169_given",
    "Hooke.C169_normalized",
    "Hooke.C169_times_violated",
    "Hooke.C169_lengths_violated",
    "Hooke.C169_constant_violated",
    "Hooke.C169_refusals"
   ],
   "note": "Violations: C169_times_violated, C169_lengths_violated, C169_constant_violated."
  },
  {
   "property": "C170",
   "status": "proved",
   "theorems": [
    "Hooke.C170_single",
    "Hooke.C170_several_violated",
    "Hooke.C170_lengths_violated",
    "Hooke.C170_name_violated",
    "Hooke.C170_jobs",
    "Hooke.C170_refusals"
   ],
   "note": "Violations: C170_several_violated, C170_lengths_violated, C170_name_violated."
  },
  {
   "property": "C171",
   "status": "proved",
   "theorems": [
    "Hooke.C171_all",
    "Hooke.C171_listed",
    "Hooke.C171_types_violated",
    "Hooke.C171_same_size_violated",
    "Hooke.C171_refusals"
   ],
   "note": "Violations: C171_types_violated, C171_same_size_violated (two models). The files read are part of the model's input."
  },
  {
   "property": "C172",
   "status": "proved",
   "theorems": [
    "Hooke.C172_surfaces",
    "Hooke.C172_integers_violated",
    "Hooke.C172_refusals"
   ],
   "note": "Violation: C172_integers_violated. The parameters themselves are those of C130."
  },
  {
   "property": "C173",
   "status": "proved",
   "theorems": [
    "Hooke.C173_nodes",
    "Hooke.C173_labels",
    "Hooke.C173_zero_violated",
    "Hooke.C173_refusals",
    "Hooke.C173_reactions",
    "Hooke.C173_comparison",
    "Hooke.C173_steps"
   ],
   "note": "Violation: C173_zero_violated. Reading the histories is the subject of other properties."
  },
  {
   "property": "C174",
   "status": "proved",
   "theorems": [
    "Hooke.C174_drawn",
    "Hooke.C174_shown",
    "Hooke.C174_apart_iff",
    "Hooke.C174_default_apart",
    "Hooke.C174_centred_iff",
    "Hooke.C174_width_violated",
    "Hooke.C174_label_violated"
   ],
   "note": "Full for the bars, the ticks and the average lines; the checks of Python types, colours, scales and legends are not modelled. Violations: a given width may make groups overlap; group labels are centred only for two data sets."
  },
  {
   "property": "C175",
   "status": "proved",
   "theorems": [
    "Hooke.C175_shown",
    "Hooke.C175_refused",
    "Hooke.C175_single_violated"
   ],
   "note": "Full for curves, limits and histogram data of paths given as lists. The padding with nan is represented by the length of the curve. Mixed lists and arrays, labels and files are not modelled. Violation: a single value is repeated over all times."
  },
  {
   "property": "C176",
   "status": "proved",
   "theorems": [
    "Hooke.C176_shown",
    "Hooke.C176_label_violated",
    "Hooke.C176_reference_violated"
   ],
   "note": "Full for the names of the figures and their curves; the drawing is the model of C169. Units, files and the display are not modelled. Violations: the label of the ground truth is not reserved; the first model is the reference if there is no ground truth."
  },
  {
   "property": "C177",
   "status": "proved",
   "theorems": [
    "Hooke.C177_shown",
    "Hooke.C177_raises",
    "Hooke.C177_saved_violated"
   ],
   "note": "Full for the curves that are drawn. The printed table, formats and files are not modelled. Violation: saving without displaying raises."
  }
 ]
}
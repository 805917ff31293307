{
 "C01": {
  "status": "proved",
  "note": "Full and symmetric (Kelvin) orders. C01_nokelvin_violated records that outside Kelvin notation (is_kelvin_notation=False) the loop version does not recover a symmetric tensor."
 },
 "C05": {
  "status": "partial",
  "note": "Proved for full orders and for symmetric orders in Kelvin notation. The full claim is false for a symmetric order with is_kelvin_notation=False (C05_nokelvin_violated)."
 },
 "C09": {
  "status": "proved",
  "note": "The claim includes that the 2D operator is not traceless; C09_traceless_2d_violated is the witness."
 },
 "C24": {
  "status": "proved",
  "note": "Tangent, moduli, parameterisations and raises are proved for all inputs. C24_symmetric_modulus_violated: giving a modulus under its symmetric key (e.g. E2211) raises for isotropic symmetry although it denotes the same constant."
 },
 "C27": {
  "status": "partial",
  "note": "Linear law proved in full; Nadai-Ludwik value matches the documentation only for ep0 = 0 (C27_nadai_partial) and C27_nadai_violated shows it differs otherwise; slope is the derivative of the returned value (C27_nadai_slope)."
 },
 "C34": {
  "status": "proved",
  "note": "The exact characterisation (unit iff), the equality for small = 0 and an error bound are proved; C34_unit_violated is the witness that the direction is not unit."
 },
 "C35": {
  "status": "partial",
  "note": "Back stress traceless along every history is proved (C35_history). The yield condition on the relative stress holds only when the kinematic stress does not change (C35_yield_partial); C35_yield_violated shows a converged step whose relative equivalent stress is 3/5 while the yield stress is 1, because the back stress is advanced by the full kinematic increment times the flow vector instead of 2/3 of it."
 },
 "C37": {
  "status": "proved",
  "note": "The exact norm of the direction tensor and the characterisation 'unit iff no volumetric trial strain' are proved; C37_unit_violated is the witness."
 },
 "C39": {
  "status": "proved",
  "note": "Proved for data whose features vary; a constant training feature becomes NaN under min-max scaling (C39_minmax_constant_violated), zero under standard scaling (C39_standard)."
 },
 "C40": {
  "status": "proved",
  "note": "sklearn's partial_fit is third-party and modelled from its published algorithm."
 },
 "C42": {
  "status": "proved",
  "note": "The failures stated in the claim are proved for all dictionaries (C42_tensor_nested_violated, C42_float_copy_unchanged_iff); in addition the copying variant drops every entry that is not a number (C42_tensor_copy_drops_violated)."
 },
 "C72": {
  "status": "proved",
  "note": "Derivative and finiteness are proved where they hold; C72_gradient_zero_target_violated is the failure stated in the claim. Reverse-mode differentiation of the used torch operations is part of the model."
 },
 "C43": {
  "status": "proved",
  "note": "torch.utils.data.random_split is third-party and modelled by an arbitrary permutation. C43_rejected: fractions accepted by the rounded sum check but not summing to one within torch's own tolerance raise."
 },
 "C45": {
  "status": "proved",
  "note": "C45_sum_default_violated, C45_concat_remove_collision_violated and C45_subset_of_files_violated prove the failures stated in the claim."
 },
 "C46": {
  "status": "proved",
  "note": "C46_swap_violated and C46_in_memory_violated prove the failures stated in the claim."
 },
 "C47": {
  "status": "proved",
  "note": "Refinement of an abstract checkpoint store along all histories. C47_backup_file_violated: because the file name pattern is not anchored at the end, a copy of an epoch file with an extra extension makes loading the last state raise."
 },
 "C49": {
  "status": "partial",
  "note": "The claim fails as stated: a missing epoch (or initial state) with removal deletes all later epochs (C49_missing_epoch_violated, C49_missing_init_violated, for every reachable directory). The directory is unchanged in all other failing loads (C49_failed_load_partial)."
 },
 "C50": {
  "status": "proved",
  "note": "The claim is the failure: proved for all model names (C50_unknown_epoch_violated); ValueError, also for later saves, if the last part of the name has a letter (C50_value_error_violated)."
 },
 "C51": {
  "status": "partial",
  "note": "The claim fails as stated (C51_best_violated, for every reachable directory with a best state). All other files survive every crash point (C51_other_files_partial)."
 },
 "C52": {
  "status": "proved",
  "note": "Proved for every run whose first epoch loss is finite (C52_train, C52_coincide). C52_tie_violated: with a tied minimum the reported epoch is not the one whose state was kept. C52_nan_violated: if the first epoch loss is NaN, no best state is ever written and train_model ends with ValueError. The optimiser and the data loader are an arbitrary function of the epoch and the model state."
 },
 "C53": {
  "status": "proved",
  "note": "Proved for finite validation losses in a directory without an old epoch-0 file (C53_train). C53_final_epoch_violated, C53_old_file_violated and C53_nan_validation_violated are failures outside or beside the claim. The validation loss is an arbitrary function of the epoch and the model state."
 },
 "C54": {
  "status": "proved",
  "note": "Both generators, all arguments and draws; the shape is the triangular wave over the loading branch followed by the initial strain. The rounding of the floating point division (n_time - 1)/(2 n_cycle) is not modelled. C54_random_start: polynomial random paths start at zero strain."
 },
 "C55": {
  "status": "proved",
  "note": "Proportional paths: proved for bounds containing zero; C55_bounds_without_zero_violated otherwise. Random paths: the statement itself says one bound can be violated; C55_random_partial proves that at least one bound holds and both for symmetric bounds, C55_random_scaling the effect of the scaling, C55_random_violated is the witness (real polynomial draws)."
 },
 "C56": {
  "status": "proved",
  "note": "C56_proportional and C56_random give the exact recursion, C56_norm the distance, C56_monotone the range where the path stays monotone, C56_reversal_violated the reversal (2h < s) and the NaN states (2h = s)."
 },
 "C57": {
  "status": "proved",
  "note": "The statement says that the stored deviatoric stress is not traceless: C57_dev gives its value and trace for every stress and order, C57_dev_violated that it is the deviatoric part only for traceless stress. C57_build, C57_store, C57_roundtrip and C57_missing cover tensor building and component extraction, C57_dataset(_strain) the whole data set."
 },
 "C58": {
  "status": "proved",
  "note": "C58_strain covers both problem types; C58_3d is the positive part, C58_2d_violated and C58_split_2d_violated the defect of the two-dimensional projection named in the statement. The code path is only reached with the internal flag is_volumetric_bar (set to False)."
 },
 "C59": {
  "status": "proved",
  "note": "C59_zero, C59_loop, C59_hist and C59_modes are the positive part; C59_normalised_violated is the defect named in the statement. Further defects: boundary conditions of the first time only (C59_time_bc_violated), stored components ignore or reject the normalisation (C59_components_violated)."
 },
 "C60": {
  "status": "proved",
  "note": "C60_sets is the positive part, C60_smallest_label and C60_no_free_violated the case without free degrees of freedom. C60_sequential_violated: the sequential modes ignore the loss type."
 },
 "C62": {
  "status": "proved",
  "note": "C62_construct, C62_initial, C62_roundtrip, C62_bounds, C62_sync and C62_sync_friction_angle are the positive part, for every state reachable by construction, optimiser steps and enforcement. C62_nan_violated is the defect named in the statement; further defects: C62_equal_bounds_violated, C62_normalized_out_violated, C62_sync_overwritten_violated."
 },
 "C63": {
  "status": "proved",
  "note": "C63_dict is the property; C63_prefix_needed and C63_prefix_order show what happens without the condition on the names."
 },
 "C64": {
  "status": "proved",
  "note": "The two defects named in the statement are C64_directory_file_violated and C64_file_directory_violated."
 },
 "C65": {
  "status": "proved",
  "note": "C65_tables and C65_unknown are the property; C65_zero and C65_zero_violated settle the label 0."
 },
 "C73": {
  "status": "proved",
  "note": "The convexity test is an arbitrary function. The three defects named in the statement are the theorems ending in _violated."
 },
 "C66": {
  "status": "proved",
  "note": "C66_mav_needs_targets_violated is the defect named in the statement."
 },
 "C67": {
  "status": "proved",
  "note": "C67_type_violated is the defect named in the statement; C67_ramp the delay."
 },
 "C74": {
  "status": "proved",
  "note": "Coefficients are any that satisfy the interpolation conditions of scipy.signal.savgol_coeffs (IsSavgol). C74_single_precision_violated is the defect named in the statement."
 },
 "C75": {
  "status": "proved",
  "note": "Over the reals; the plot of the spectrum is not modelled."
 },
 "C76": {
  "status": "proved",
  "note": "Equations of torch.nn.GRU are in Spec/Gru; over the reals; dropout is not modelled."
 },
 "C77": {
  "status": "proved",
  "note": "C77_*_violated are the defects named in the statement. Model weights are covered by C49-C51, not here."
 },
 "C78": {
  "status": "proved",
  "note": "The batching of torch DataLoader without shuffling is modelled; C78_*_violated are the defects named in the statement."
 },
 "C79": {
  "status": "proved",
  "note": "Holds for all histories with the usual arguments (best states with an epoch, initial states without, loads without removal); C79_resume_violated, C79_crash_violated and C79_validation_violated are the defects named in the statement."
 },
 "C80": {
  "status": "proved",
  "note": "All index pairs and dictionary orders; duplicates raise."
 },
 "C81": {
  "status": "proved",
  "note": "Hybridized models are arbitrary functions on feature tensors; broadcasting between channels of different size is not modelled. C81_no_method_violated and C81_in_normalized_violated are the defects named in the statement."
 },
 "C82": {
  "status": "proved",
  "note": "C82_symmetry_violated and C82_composition_violated are the defects named in the statement. Time and batch dimensions are flattened as in the code."
 },
 "C23": {
  "status": "proved",
  "note": "C23_registers covers all histories with copies; C23_converge_alias_violated and C23_nocopy_alias_violated show that the condition named in the statement (copies requested) is necessary; C23_sweep_without_copies shows what still holds without copies."
 },
 "C70": {
  "status": "proved",
  "note": "C70_stale_coordinates_violated shows that the condition named in the statement is necessary."
 },
 "C83": {
  "status": "proved",
  "note": "The derivative is Mathlib's Frechet derivative (HasFDerivAt) in the space of strain increments. C83_exact is about the exact return because the Newton loop stops at a tolerance and its result is not a differentiable function for general laws."
 },
 "C84": {
  "status": "proved",
  "note": "The hypothesis of a traceless back stress holds for all reachable states (C35_history)."
 },
 "C85": {
  "status": "proved",
  "note": "C85_cone_violated is the defect named in the statement; C85_cone is the case in which both norms agree."
 },
 "C86": {
  "status": "proved",
  "note": "C86_tangent_violated is the defect named in the statement. Batching itself (one element of the batch does not affect another) is modelled by the masked loop per element."
 },
 "C87": {
  "status": "proved",
  "note": "C87_small_stress_violated and C87_cohesionless_violated are the defects named in the statement; the regularised factor max(sqrt(J2), 1e-4) is part of the model."
 },
 "C88": {
  "status": "proved",
  "note": "Undefined powers are modelled as missing values, as torch returns NaN."
 },
 "C89": {
  "status": "proved",
  "note": "The numerical Jacobian used for debugging is not modelled."
 },
 "C90": {
  "status": "proved",
  "note": "C90_pure_shear_violated, C90_singular_raises and C90_accumulated_violated are the defects named in the statement. The admissibility bound after a history is stated in LouInvariant."
 },
 "C91": {
  "status": "proved",
  "note": "C91_outcome gives the outcome of every step, including the failing and raising ones; C91_von_mises_limit and C91_history are the agreement for steps and histories."
 },
 "C92": {
  "status": "proved",
  "note": "C92_false_accept_violated is the defect named in the statement (finitely many sampled chords). Exact real arithmetic; in single precision the compared values differ from one by less than the rounding error."
 },
 "C93": {
  "status": "proved",
  "note": "C93_elastic_violated and C93_singular_raises are the defect named in the statement. C93_refines transfers C90 and C91 to the batched model; C93_von_mises shows that its hypotheses are met by a full class of steps."
 },
 "C94": {
  "status": "proved",
  "note": "The bounds are on the components of the tangent applied to an increment, relative to the norm of the increment (IsTangentWithin). Unlike in the standard model (C85) the cone tangent uses the norm of the deviator, so there is no violated case."
 },
 "C95": {
  "status": "proved",
  "note": "every element type of feKinds, any number of elements, any rounding with relative error 2^-53 of the two floating-point operations that locate the element of a grid position; nodes, labels, coordinates, boundary labels, connectivities, material order and errors. The coordinates are exact reals."
 },
 "C96": {
  "status": "proved",
  "note": "two dimensions for the positions (C96_corners, C96_fixed), two and three dimensions for the acceptance (C96_accepts). C96_fixed_violated: a fixed corner is displaced with the default orders. C96_3d_violated: in three dimensions the ends of an edge of order zero can be displaced by different amounts."
 },
 "C97": {
  "status": "proved",
  "note": "exact reals; the linear system of the interpolation is modelled by its exact solution. The standard deviation of the noise is scaled with the patch size of the axes 1 and 2 although the noise is added in the local frame of the edge; the statement is for the noise as added."
 },
 "C98": {
  "status": "proved",
  "note": "two dimensions; the geometric library (centroid, validity, orientation of a polygon) is an arbitrary parameter. The grid spacing must exceed the tolerance 1e-8 + 1e-5 * size of the look-up by coordinates. C98_default_violated: None for the translation or rotation range is a TypeError. C98_small_violated: patches of at most 1e-8 get the displacement of a single node."
 },
 "C99": {
  "status": "proved",
  "note": "C99_reduced, C99_accepts, C99_boundary and C99_nothing prove the property; C99_disps_violated and C99_error_violated prove the negations named in the statement. Labels are natural numbers standing for their decimal strings."
 },
 "C100": {
  "status": "proved",
  "note": "C100_element, C100_forward and C100_returns prove the property; the four C100_*_violated theorems prove the disagreements named in the statement. A recurrent model is a function of its strain path (no randomness)."
 },
 "C101": {
  "status": "proved",
  "note": "C101_returns and C101_response characterise the forward propagation; C101_unbatched, C101_causal, C101_offset, C101_vectorised and C101_elastic are the consequences; the three C101_*_violated theorems prove the faults named in the statement. nan checks and parameter synchronisation are not part of this model."
 },
 "C102": {
  "status": "proved",
  "note": "C102_path, C102_path_fails, C102_samples and C102_reproduces prove the property; the three C102_*_violated theorems prove the faults named in the statement. Strain paths are given as the sequence of draws; floats are reals, so that conversions between numpy and torch are exact."
 },
 "C103": {
  "status": "proved",
  "note": "C103_run, C103_partition, C103_sizes, C103_no_leakage, C103_schedule, C103_terminates, C103_completes and C103_default_completes prove the property; the five C103_*_violated theorems prove the faults named in the statement. Trainings and losses are arguments of the model; files are paths below the pruning directory."
 },
 "C104": {
  "status": "proved",
  "note": "C104_preview, C104_agrees, C104_training_size and C104_terminates prove the property; the two C104_*_violated theorems prove the faults named in the statement."
 },
 "C105": {
  "status": "proved",
  "note": "C105_round_trip and C105_checked prove the property; the three C105_*_violated theorems prove the faults named in the statement. Formatting and parsing of floats are arguments of the model, assumed to be inverse up to a rounding (FaithfulText); regular expressions are modelled by the keyword searches they perform."
 },
 "C106": {
  "status": "proved",
  "note": "C106_extract and C106_pipeline prove the property; the four C106_*_violated theorems prove the faults named in the statement. Formatting and parsing of floats are arguments of the model (FaithfulText); the lines of the loading incrementation and of the materials are arguments."
 },
 "C107": {
  "status": "proved",
  "note": "C107_history and C107_results prove the property; the seven C107_*_violated theorems prove the faults named in the statement. Files are tables of numbers (the text of the csv files is not modelled); rd is the rounding; pointwise losses only (the Dirichlet sets are not modelled)."
 },
 "C108": {
  "status": "proved",
  "note": "C108_uniform, C108_gaussian and C108_setup prove the property; the six C108_*_violated theorems prove the faults named in the statement. Random draws are arguments (numbers of the unit interval, standard normal numbers, outcomes of trials); their distribution is not modelled."
 },
 "C109": {
  "status": "proved",
  "note": "Noise draws are arguments; scalers over the reals; saving and plotting not modelled."
 },
 "C110": {
  "status": "proved",
  "note": "Increments of every loading in closed form (cyclic) or as values of the interpolating polynomial; bounds; reading of the file of increments and of the whole input data file."
 },
 "C111": {
  "status": "proved",
  "note": "Over the reals; NaN is none. Grid, contouring and drawing are not modelled. Violations are proved for small yield stresses, the first invariant of the deviator and the range of the grid."
 },
 "C112": {
  "status": "proved",
  "note": "Floating-point coordinates of the mesh with a rounding as in C95, other quantities exact; np.isclose tolerances are modelled and the mesh must be coarser than them (hres). Values drawn and the iteration order of Python sets are arguments. Violations are proved as C112_default_violated, C112_rigid_violated, C112_inverted_violated."
 },
 "C113": {
  "status": "proved",
  "note": "Scientific notation and float() of the Python library are modelled for real numbers (rounding half to even of the exact value); the remaining rounding of float() to a floating point number is not. Discharges the hypothesis on number texts of C105, C106, C110 for '{:16.8e}'."
 },
 "C114": {
  "status": "proved",
  "note": "Labels and codes stored as floats in the array are modelled as integers; existence checks of paths and the returned (closed) file object are not modelled."
 },
 "C115": {
  "status": "proved",
  "note": "C115_convert for every readable ABAQUS file, C115_round_trip for every readable Links file, C115_pipeline for the input data file written by the simulator interface; the four faults are proved as *_violated."
 },
 "C116": {
  "status": "proved",
  "note": "Files hold results as values (pickling is outside the model); the order of the listing is an argument."
 },
 "C117": {
  "status": "proved",
  "note": "Numbers are reals with infinities and not-a-number for quotients by zero; overflow, float32 rounding and pickling are outside the model; metrics are requested without repetition."
 },
 "C118": {
  "status": "proved",
  "note": "Collected dictionaries are exactly the flattened parameters under distinct labels; clamping per label. Collisions of labels and unconstrained hybrid training proved as violations."
 },
 "C119": {
  "status": "proved",
  "note": "Forward pass, gradient and optimiser are arbitrary functions. The loop is proved against a trajectory of states; the bounds are proved for material models with explicit parameters without constraints."
 },
 "C120": {
  "status": "proved",
  "note": "Figures and the text of files are left out. The flattening is modelled by the strides of a slice, for data on the device of the model."
 },
 "C121": {
  "status": "proved",
  "note": "Automatic differentiation is the derivative, floats are reals; the material model is an arbitrary function of paths. Proved for the run in general, with exact results for affine laws; four faults proved as violations."
 },
 "C122": {
  "status": "proved",
  "note": "Pickled values are opaque; schedulers are modelled by PyTorch's recursive updates. Figures are modelled by the arrays passed to the plotting functions."
 },
 "C123": {
  "status": "proved",
  "note": "C123_connected, C123_connected_dim: connected nodes; C123_edges_plane, C123_edges_space: edge nodes; C123_angle, C123_recovered: rotation angles; C123_mean, C123_mean_empty: mean rotations; C123_mean_violated: turns around 180 degrees. The angle is the argument of a complex number over the reals."
 },
 "C124": {
  "status": "proved",
  "note": "C124_uniform, C124_gaussian: injection; C124_denoise, C124_average: denoising; seven violations, among them the number of columns (C124_columns_violated, C124_reading_violated) and the deletion of the data (C124_name_violated). Directory names without a path; numbers are written and read exactly; the noise generator and the denoisers are those of C108 and C67."
 },
 "C125": {
  "status": "proved",
  "note": "The external program is an arbitrary function of its output directory; a hardening law is taken with its parameters; the directory exists (its creation is C64)."
 },
 "C126": {
  "status": "proved",
  "note": "Names of simulations have no characters special in regular expressions. Texts of csv numbers and precisions are not modelled."
 },
 "C127": {
  "status": "proved",
  "note": "The constitutive model is taken to accept its parameters (C42 has the nested dictionaries that make all but the elastic model raise). Interrupted writes of the file are those of C77."
 },
 "C128": {
  "status": "proved",
  "note": "Real numbers; the conversion to the default precision of torch, figures and messages are not modelled. Stored samples have the component order of the generator."
 },
 "C129": {
  "status": "proved",
  "note": "Infinitesimal strains and lists of paths; eigenvalues and permutations are arguments; the drawing is not modelled."
 },
 "C130": {
  "status": "proved",
  "note": "Parameters as an equivalence, stability from interval bounds on the normalized temperature and composition, hardening curve from the interpolation theorems C26."
 },
 "C131": {
  "status": "proved",
  "note": "Responses are an arbitrary type, trials an arbitrary outcome function; file names as keys of a dictionary. Types are taken literally, not as regular expressions."
 },
 "C132": {
  "status": "proved",
  "note": "The residual is convex and decreasing, so the iterates approach the root monotonically and the product of residual and slope decreases by a factor of four per iteration (AM-GM), which gives convergence in 20 iterations without any bound on the number of rows of the table. Real arithmetic. Steep tables violate the claim (C132_steep_violated)."
 },
 "C133": {
  "status": "proved",
  "note": "Convergence proved by the decrease of residual times slope by a factor of four per Newton step; exact real arithmetic."
 },
 "C134": {
  "status": "proved",
  "note": "Numbers in the summary are printed and read as in C113 (rounding of decimal numbers in ℝ). The drawing of the plots and the quantiles of the box plots are not modelled."
 },
 "C135": {
  "status": "proved",
  "note": "os.path.normpath, dirname and join are modelled on texts of POSIX paths; symbolic links are not modelled. Aliasing of the list of paths given to the constructor is not modelled."
 },
 "C136": {
  "status": "proved",
  "note": "Training and prediction are arbitrary functions of the model directory (outcome and content left). The time series are read as in C116; figures are not modelled."
 },
 "C137": {
  "status": "proved",
  "note": "Reals instead of floating point numbers. Saturating is the notion of C132; laws of the code are instances by C132_table, C132_linear, C132_nadai."
 },
 "C138": {
  "status": "proved",
  "note": "Trainings, predictions and plots are arbitrary functions with any outcome; the content of a file is the data set loaded from it; only ASCII digits in file names."
 },
 "C139": {
  "status": "proved",
  "note": "Rotations of Kelvin vectors preserve the norm, the trace, the deviator and the isotropic elasticity; each return mapping commutes with them, then induction over the history. The violation compares a plastic shear with its mirror image. The Lou model and the batched mixed-hardening model are not covered."
 },
 "C140": {
  "status": "proved",
  "note": "Work is the stress at the end of each step on the strain increment (implicit rule). Drucker-Prager: the margins 1e-8 and 1e-6 exclude cohesions as small as the tolerances. C140_mixed gives the exact shortfall, C140_mixed_violated a step with work below -3 where it should be 4."
 },
 "C141": {
  "status": "proved",
  "note": "C141_linear needs no assumption that the steps succeed. The violation for mixed hardening comes from advancing the back stress one and a half times (C35)."
 },
 "C142": {
  "status": "proved",
  "note": "File system as sets of directories and files; patch generation and the solver are arguments of the model.  Four violated clauses."
 },
 "C143": {
  "status": "proved",
  "note": "C143_step, C143_history, C143_run: von Mises, linear hardening. C143_stress: stresses. C143_increment: every law which does not soften, one step. C143_step_drucker_prager, C143_history_drucker_prager: associated flow, linear cohesion. C143_nonassociated_violated: amplification by more than 1.2 with the flow parameter 1/100."
 },
 "C144": {
  "status": "proved",
  "note": "The training and prediction tables of each kind of model are transcribed separately; the feature builders are the model of C45 and C57; proved for data sets in memory and in files (subsets of file data sets: C45); the model update itself (train_model) is a parameter of the main program."
 },
 "C145": {
  "status": "proved",
  "note": "Rotations only: a reflection changes the sign of the Jacobian determinant. A failed plasticity update (NaN stresses) is represented as an error."
 },
 "C146": {
  "status": "proved",
  "note": "C146_von_mises, C146_mixed, C146_elastic by induction over the history from a simulation of one return mapping (the Newton iterates coincide because residual, scale and Jacobian have the same factor); C146_tangents; C146_materials instantiates the interface used by C146_element_forces; C146_loss, C146_loss_normalised. C146_lou, C146_lou_batched, C146_lou_material and C146_drucker_prager(_tangent) do the same for the other two models, with conditions on the thresholds for all accumulated plastic strains. C146_tiny_violated and C146_batched_violated prove the two defects."
 },
 "C147": {
  "status": "proved",
  "note": "tetra10, hexa20 and hexa8 with one Gauss point are not covered by the theorems."
 },
 "C148": {
  "status": "proved",
  "note": ""
 },
 "C149": {
  "status": "proved",
  "note": ""
 },
 "C150": {
  "status": "proved",
  "note": ""
 },
 "C151": {
  "status": "proved",
  "note": ""
 },
 "C152": {
  "status": "proved",
  "note": "Positive definiteness of the batched tangents is not claimed: their flow direction is regularised and does not have unit length."
 },
 "C153": {
  "status": "proved",
  "note": "The tensors held by the objects are not modelled."
 },
 "C154": {
  "status": "proved",
  "note": "The output is not modelled."
 },
 "C155": {
  "status": "proved",
  "note": "The faults are proved as C155_last_trial_violated and C155_empty_violated; all other clauses are proved at full strength. The strain path generators are covered by C54 and C55; here their draws are arbitrary."
 },
 "C156": {
  "status": "proved",
  "note": "The faults are proved as C156_new_mesh_violated, C156_time_violated and C156_labels_violated; the other clauses are proved at full strength."
 },
 "C157": {
  "status": "proved",
  "note": "The elastic constants are exact reals. The history is that of the time loop of the sequential evaluation in small strains; the element mode computes the same forces (C100)."
 },
 "C158": {
  "status": "proved",
  "note": "Mixed hardening is left out: its plastic work is wrong in the code (C140)."
 },
 "C159": {
  "status": "proved",
  "note": "displacements themselves are determined only up to motions that do not strain the Gauss points; the example adds a translation"
 },
 "C160": {
  "status": "proved",
  "note": "real arithmetic; rounding errors of the differences are not modelled"
 },
 "C161": {
  "status": "proved",
  "note": "The internal forces of the specimen are given (C59 and the claims on the forward propagation treat how they are computed); options that store components, local paths and reactions are left out."
 },
 "C162": {
  "status": "proved",
  "note": "Numbers are real; that the search never ends for a tolerance that is not positive is a statement for exact arithmetic."
 },
 "C163": {
  "status": "proved",
  "note": "What is plotted is modelled, not the drawing; the collection of the rows is that of C134."
 },
 "C164": {
  "status": "proved",
  "note": "C164_same_percent_violated and C164_double_violated state where entries are shared."
 },
 "C165": {
  "status": "proved",
  "note": "The violations are C165_constant_violated, C165_small_spread_violated and C165_abscissae_violated."
 },
 "C166": {
  "status": "proved",
  "note": "C166_deleted_violated states the loss of input data."
 },
 "C167": {
  "status": "proved",
  "note": "Violations: C167_band_violated, C167_constant_violated, C167_coefficient_violated. The coefficient uses C165_units."
 },
 "C168": {
  "status": "proved",
  "note": "Violations: C168_types_violated, C168_same_size_violated. The files read are part of the model's input."
 },
 "C169": {
  "status": "proved",
  "note": "Violations: C169_times_violated, C169_lengths_violated, C169_constant_violated."
 },
 "C170": {
  "status": "proved",
  "note": "Violations: C170_several_violated, C170_lengths_violated, C170_name_violated."
 },
 "C171": {
  "status": "proved",
  "note": "Violations: C171_types_violated, C171_same_size_violated (two models). The files read are part of the model's input."
 },
 "C172": {
  "status": "proved",
  "note": "Violation: C172_integers_violated. The parameters themselves are those of C130."
 },
 "C173": {
  "status": "proved",
  "note": "Violation: C173_zero_violated. Reading the histories is the subject of other properties."
 },
 "C174": {
  "status": "proved",
  "note": "Full for the bars, the ticks and the average lines; the checks of Python types, colours, scales and legends are not modelled. Violations: a given width may make groups overlap; group labels are centred only for two data sets."
 },
 "C175": {
  "status": "proved",
  "note": "Full for curves, limits and histogram data of paths given as lists. The padding with nan is represented by the length of the curve. Mixed lists and arrays, labels and files are not modelled. Violation: a single value is repeated over all times."
 },
 "C176": {
  "status": "proved",
  "note": "Full for the names of the figures and their curves; the drawing is the model of C169. Units, files and the display are not modelled. Violations: the label of the ground truth is not reserved; the first model is the reference if there is no ground truth."
 },
 "C177": {
  "status": "proved",
  "note": "Full for the curves that are drawn. The printed table, formats and files are not modelled. Violation: saving without displaying raises."
 }
}
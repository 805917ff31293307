{"id": "C01", "title": "Kelvin storage of second-order tensors is lossless (tensor -> matrix form -> tensor)", "statement": "For every spatial dimension and every accepted component order that lists each independent component once, get_tensor_from_mf(get_tensor_mf(T)) returns T: any tensor when all n*n components are listed, any symmetric tensor when one representative of each unordered index pair is listed.", "quantifier": "all n_dim, all component orders (any ordering, any choice of ij or ji), all real tensors", "why_tests_cant": "Tests fix n_dim in {2,3} and one order; the index arithmetic and sqrt(2) factors must agree for every order and every value.", "anchors": ["src/hookeai/simulators/fetorch/math/matrixops.py:get_tensor_mf", "src/hookeai/simulators/fetorch/math/matrixops.py:get_tensor_from_mf"]}
{"id": "C02", "title": "Kelvin storage is lossless in the other direction (matrix form -> tensor -> matrix form)", "statement": "For every valid component order and every vector of the right length, get_tensor_mf(get_tensor_from_mf(v)) returns v.", "quantifier": "all n_dim, all valid component orders, all vectors", "why_tests_cant": "Infinite input space; needs the scatter loop to hit each cell consistently.", "anchors": ["src/hookeai/simulators/fetorch/math/matrixops.py:get_tensor_mf", "src/hookeai/simulators/fetorch/math/matrixops.py:get_tensor_from_mf"]}
{"id": "C03", "title": "Kelvin storage of fourth-order tensors is lossless", "statement": "For a fourth-order tensor (with both minor symmetries when the order is symmetric) get_tensor_from_mf(get_tensor_mf(T)) returns T.", "quantifier": "all n_dim, all valid component orders, all minor-symmetric fourth-order tensors", "why_tests_cant": "81 or more entries, factor products sqrt2*sqrt2; tests only sample.", "anchors": ["src/hookeai/simulators/fetorch/math/matrixops.py:get_tensor_mf", "src/hookeai/simulators/fetorch/math/matrixops.py:get_tensor_from_mf"]}
{"id": "C04", "title": "Kelvin matrix form preserves the tensor inner product and the fourth:second contraction", "statement": "The dot product of the matrix forms of two symmetric tensors is their double contraction, and the matrix form of C:eps is the matrix form of C times the matrix form of eps.", "quantifier": "all n_dim, all complete symmetric component orders, all symmetric tensors and minor-symmetric fourth-order tensors", "why_tests_cant": "Requires a sum-reordering argument over an arbitrary order of components.", "anchors": ["src/hookeai/simulators/fetorch/math/matrixops.py:get_tensor_mf", "src/hookeai/simulators/fetorch/math/tensorops.py:ddot42_1", "src/hookeai/simulators/fetorch/math/tensorops.py:ddot22_1"]}
{"id": "C05", "title": "The vectorised Kelvin conversions agree with the loop conversions", "statement": "vget_tensor_mf and vget_tensor_from_mf return exactly what get_tensor_mf and get_tensor_from_mf return, on every input the loop versions accept with a complete order.", "quantifier": "all n_dim, all complete orders, all second- and fourth-order tensors", "why_tests_cant": "Two independent algorithms (scatter loop, gather by index or reversed index) must coincide on an infinite domain.", "anchors": ["src/hookeai/simulators/fetorch/math/matrixops.py:vget_tensor_mf", "src/hookeai/simulators/fetorch/math/matrixops.py:vget_tensor_from_mf"]}
{"id": "C06", "title": "Matrix-form conversion rejects exactly the malformed requests", "statement": "get_tensor_mf raises an error if and only if the tensor is not of order 2 or 4, or an index digit is out of range, or a dimension differs from n_dim, or a component is not a pair, or a component is repeated, or the number of components is neither n*n nor n(n+1)/2; and an accepted symmetric-length order that omits a pair is not information preserving.", "quantifier": "all tensor shapes, all component lists", "why_tests_cant": "Decision logic over an unbounded set of component lists.", "anchors": ["src/hookeai/simulators/fetorch/math/matrixops.py:get_tensor_mf"]}
{"id": "C07", "title": "Voigt strain/stress vectors are work conjugate and convertible", "statement": "Recovering a strain tensor from its engineering (doubled shear) Voigt vector inverts the conversion; the dot product of the Voigt stress and Voigt strain vectors is the double contraction sigma:eps; the vectorised and loop versions agree.", "quantifier": "all n_dim, all complete symmetric orders, all symmetric tensors", "why_tests_cant": "Universally quantified numeric identity over all orders.", "anchors": ["src/hookeai/simulators/fetorch/math/voigt_notation.py:get_strain_from_vmf", "src/hookeai/simulators/fetorch/math/voigt_notation.py:get_stress_vmf", "src/hookeai/simulators/fetorch/math/voigt_notation.py:vget_strain_from_vmf", "src/hookeai/simulators/fetorch/math/voigt_notation.py:vget_stress_vmf"]}
{"id": "C08", "title": "Volumetric/deviatoric projections split every vector uniquely", "statement": "The two matrices returned by get_projection_tensors_vmf sum to the identity, are idempotent, annihilate each other, and the deviatoric one has zero trace rows, whenever the component order has n_dim normal components.", "quantifier": "all n_dim >= 1, all complete symmetric orders", "why_tests_cant": "Matrix identities for every dimension.", "anchors": ["src/hookeai/simulators/fetorch/math/voigt_notation.py:get_projection_tensors_vmf"]}
{"id": "C09", "title": "Identity operators act as documented on every tensor", "statement": "Contracting with the fourth-order identity, transposition, symmetric-projection, diagonal-trace and deviatoric operators of get_id_operators returns the tensor, its transpose, its symmetric part, tr(A) I and A - tr(A)/3 I; the deviatoric operator yields a traceless result exactly when n_dim = 3 (for n_dim = 2 it does not).", "quantifier": "all n_dim, all second-order tensors", "why_tests_cant": "Infinite domain; the n_dim = 2 failure is a universally quantified negative fact.", "anchors": ["src/hookeai/simulators/fetorch/math/tensorops.py:get_id_operators", "src/hookeai/simulators/fetorch/math/tensorops.py:ddot42_1"]}
{"id": "C10", "title": "2D <-> 3D matrix form conversion is lossless in the in-plane components", "statement": "get_state_2Dmf_from_3Dmf(get_state_3Dmf_from_2Dmf(v, c33)) returns v, the 3D form has c33 at 33 and zero in the other out-of-plane components, and the vectorised version agrees with the loop version.", "quantifier": "all 2D vectors and all out-of-plane values", "why_tests_cant": "Infinite input space and two implementations.", "anchors": ["src/hookeai/simulators/fetorch/math/matrixops.py:get_state_3Dmf_from_2Dmf", "src/hookeai/simulators/fetorch/math/matrixops.py:get_state_2Dmf_from_3Dmf", "src/hookeai/simulators/fetorch/math/matrixops.py:vget_state_3Dmf_from_2Dmf", "src/hookeai/simulators/fetorch/math/matrixops.py:vget_state_2Dmf_from_3Dmf"]}
{"id": "C11", "title": "Shape functions interpolate nodal values (Kronecker delta)", "statement": "For each of the eight finite elements, shape function i evaluated at the local coordinates of node j is 1 if i = j and 0 otherwise.", "quantifier": "all eight elements, all node pairs; used for every nodal field", "why_tests_cant": "Nodal interpolation of every real field follows only from the exact identity, not from float samples.", "anchors": ["src/hookeai/simulators/fetorch/element/type/tri3.py", "src/hookeai/simulators/fetorch/element/type/tri6.py", "src/hookeai/simulators/fetorch/element/type/quad4.py", "src/hookeai/simulators/fetorch/element/type/quad8.py", "src/hookeai/simulators/fetorch/element/type/tetra4.py", "src/hookeai/simulators/fetorch/element/type/tetra10.py", "src/hookeai/simulators/fetorch/element/type/hexa8.py", "src/hookeai/simulators/fetorch/element/type/hexa20.py"]}
{"id": "C12", "title": "Shape functions form a partition of unity and reproduce affine fields", "statement": "At every local point the shape functions sum to one, and interpolating the nodal values of any affine field returns that field at that point.", "quantifier": "all eight elements, all real local coordinates, all affine fields", "why_tests_cant": "Continuum of evaluation points.", "anchors": ["src/hookeai/simulators/fetorch/element/type/*.py:eval_shapefun"]}
{"id": "C13", "title": "Coded shape function derivatives are the true derivatives", "statement": "eval_shapefun_local_deriv returns, at every local point, the partial derivatives of the functions returned by eval_shapefun; in particular they sum to zero over the nodes.", "quantifier": "all eight elements, all nodes, all directions, all real local coordinates", "why_tests_cant": "Finite differences in tests only approximate and only at sampled points.", "anchors": ["src/hookeai/simulators/fetorch/element/type/*.py:eval_shapefun_local_deriv"]}
{"id": "C14", "title": "Gauss rules integrate polynomials exactly over the reference domain", "statement": "Each provided Gauss rule has weights summing to the reference volume, positive weights, points inside the reference domain, and integrates every polynomial up to its stated degree exactly (tensor-product rules in each variable separately).", "quantifier": "all provided rules, all polynomials up to the degree", "why_tests_cant": "Quantifies over an infinite function space.", "anchors": ["src/hookeai/simulators/fetorch/element/type/quadratures.py:gauss_quadrature"]}
{"id": "C15", "title": "Discrete symmetric gradient applied to nodal displacements is the Voigt strain of the interpolated field", "statement": "For any shape function derivatives and displacements the product of the operator with the flattened displacement matrix is, component by component, the engineering strain (du_i/dx_i on normal entries, du_i/dx_j + du_j/dx_i on shear entries).", "quantifier": "all node counts, all n_dim, all component orders, all derivative matrices, all displacements", "why_tests_cant": "Index bookkeeping (column stride, transposition) for arbitrary sizes.", "anchors": ["src/hookeai/simulators/fetorch/element/derivatives/gradients.py:build_discrete_sym_gradient", "src/hookeai/simulators/fetorch/element/derivatives/gradients.py:build_discrete_gradient", "src/hookeai/simulators/fetorch/element/integrations/internal_forces.py:compute_infinitesimal_inc_strain"]}
{"id": "C16", "title": "Loop and vectorised gradient operators agree", "statement": "vbuild_discrete_sym_gradient and vbuild_discrete_gradient return the same matrix as their loop counterparts.", "quantifier": "all node counts, dimensions, orders and derivative matrices", "why_tests_cant": "Two algorithms, infinite domain.", "anchors": ["src/hookeai/simulators/fetorch/element/derivatives/gradients.py"]}
{"id": "C17", "title": "Rigid motions produce no strain and affine displacement fields produce their exact constant strain (patch test)", "statement": "For every element type, every nodal coordinates with invertible Jacobian and every local point: nodal displacements u(x) = a + G x give strain sym(G); if G is skew the strain is zero.", "quantifier": "all eight elements, all nondegenerate geometries, all local points, all affine fields", "why_tests_cant": "Continuum of geometries and fields.", "anchors": ["src/hookeai/simulators/fetorch/element/derivatives/jacobian.py:eval_jacobian", "src/hookeai/simulators/fetorch/element/derivatives/gradients.py:eval_shapefun_deriv", "src/hookeai/simulators/fetorch/element/derivatives/gradients.py:vbuild_discrete_sym_gradient"]}
{"id": "C18", "title": "Element internal forces are self-equilibrated and satisfy virtual work", "statement": "The forces returned by compute_element_internal_forces sum to zero in every direction, and their dot product with any nodal displacement equals the quadrature sum of stress : strain(displacement); rigid rotations do no work.", "quantifier": "all elements, geometries, materials (any state update), states, increments", "why_tests_cant": "Holds for arbitrary constitutive response; unit tests use one.", "anchors": ["src/hookeai/simulators/fetorch/element/integrations/internal_forces.py:compute_element_internal_forces"]}
{"id": "C19", "title": "Internal force evaluation never changes the caller's converged state and updates each Gauss point from its own history", "statement": "The returned state at Gauss point g is the material update of the old state at g with that point's strain increment; an unsupported strain formulation raises.", "quantifier": "all Gauss point counts, all states, all material updates", "why_tests_cant": "Cross-talk between integration points only shows up on particular histories.", "anchors": ["src/hookeai/simulators/fetorch/element/integrations/internal_forces.py:compute_element_internal_forces", "src/hookeai/simulators/fetorch/material/material_su.py:material_state_update"]}
{"id": "C20", "title": "Assembly adds every element contribution exactly once", "statement": "The entry of the assembled mesh vector for node n and direction d is the sum over elements and local nodes mapped to n of the element entries; it does not depend on the order in which elements are stored.", "quantifier": "all meshes, all connectivities, all element vectors, all element orders", "why_tests_cant": "Needs induction over the element list for arbitrary meshes.", "anchors": ["src/hookeai/simulators/fetorch/structure/structure_mesh.py:StructureMesh.element_assembler"]}
{"id": "C21", "title": "Extraction and assembly are adjoint and index-consistent", "statement": "Extracting a mesh vector to an element returns the nodal values of its connectivity; the dot product of an assembled vector with a mesh vector equals the sum over elements of the element dot products; build_elements_mesh_indexing gives exactly the positions the extractor reads.", "quantifier": "all meshes and fields", "why_tests_cant": "Universally quantified identity over arbitrary connectivities.", "anchors": ["src/hookeai/simulators/fetorch/structure/structure_mesh.py:StructureMesh.element_extractor", "src/hookeai/simulators/fetorch/structure/structure_mesh.py:StructureMesh.build_elements_mesh_indexing"]}
{"id": "C22", "title": "Mesh configuration history is consistent", "statement": "After any sequence of update_mesh_configuration calls, current and last coordinates are the initial coordinates plus the displacements of the most recent coordinate-updating call for that time; the initial configuration never changes and the other time slot is untouched.", "quantifier": "all call sequences", "why_tests_cant": "Property of histories; tests check one call.", "anchors": ["src/hookeai/simulators/fetorch/structure/structure_mesh.py:StructureMesh.update_mesh_configuration", "src/hookeai/simulators/fetorch/structure/structure_mesh.py:StructureMesh.get_mesh_configuration"]}
{"id": "C23", "title": "Element state store behaves as an independent last/current register pair", "statement": "A state written for (element, time) is read back; other elements and the other time slot are unaffected; converging copies current to last for every element; after convergence a later current update does not change last - which holds only if copies are requested.", "quantifier": "all histories of update/get/converge operations", "why_tests_cant": "Aliasing bugs only appear on particular interleavings.", "anchors": ["src/hookeai/simulators/fetorch/structure/structure_state.py:StructureMaterialState.update_element_state", "src/hookeai/simulators/fetorch/structure/structure_state.py:StructureMaterialState.update_converged_elements_state", "src/hookeai/simulators/fetorch/structure/structure_state.py:StructureMaterialState.get_element_state"]}
{"id": "C24", "title": "Isotropic elastic tangent: symmetric, correct, and consistent between parameterisations", "statement": "The isotropic tangent equals lambda I x I + 2 G I_sym, is symmetric, and giving (E, v) or the moduli (E1111, E1122) derived from them produces the same technical constants; missing or unknown constants raise.", "quantifier": "all E, v with nonzero denominators; all elastic symmetries and moduli dictionaries", "why_tests_cant": "Rational identities over a continuum of parameters.", "anchors": ["src/hookeai/simulators/fetorch/material/models/standard/elastic.py:Elastic.elastic_tangent_modulus", "src/hookeai/simulators/fetorch/material/models/standard/elastic.py:Elastic.get_technical_from_elastic_moduli"]}
{"id": "C25", "title": "Elastic state update is path independent", "statement": "After any sequence of strain increments the stored strain is the sum of increments and the stress is the tangent applied to it; returning to zero strain returns zero stress.", "quantifier": "all increment sequences of any length", "why_tests_cant": "Induction over histories.", "anchors": ["src/hookeai/simulators/fetorch/material/models/standard/elastic.py:Elastic.state_update"]}
{"id": "C26", "title": "Piecewise linear hardening interpolates the data, stays within it and is monotone", "statement": "The hardening curve passes through every data point, is linear between neighbours, constant outside, monotone for monotone data, and its reported slope is the derivative strictly inside every segment.", "quantifier": "all data tables with strictly increasing abscissae, all plastic strains", "why_tests_cant": "Interval search must be right at every boundary.", "anchors": ["src/hookeai/simulators/fetorch/material/models/standard/hardening.py:PiecewiseLinearIHL", "src/hookeai/simulators/fetorch/material/models/standard/hardening.py:torch_interp"]}
{"id": "C27", "title": "Linear and Nadai-Ludwik hardening laws: value and slope agree with the documented law", "statement": "Linear hardening returns s0 + a*eps with slope a. Nadai-Ludwik is documented as s0 + a*(ep0 + eps)^b with slope its derivative; the code adds ep0 twice, so the value deviates from the documentation whenever ep0 > 0, although the returned slope is the derivative of the returned value.", "quantifier": "all parameters, all plastic strains", "why_tests_cant": "Derivative identity over a continuum; negative fact.", "anchors": ["src/hookeai/simulators/fetorch/material/models/standard/hardening.py:LinearIHL", "src/hookeai/simulators/fetorch/material/models/standard/hardening.py:NadaiLudwikIHL"]}
{"id": "C28", "title": "von Mises return mapping: termination and outcome", "statement": "state_update always terminates in at most 20 Newton iterations for every hardening law; it reports failure exactly when the trial state is not elastic and no iterate after the first meets the tolerance; on failure stress, elastic strain, accumulated plastic strain and tangent are NaN (only the total strain is stored) and every later update from that state fails too.", "quantifier": "all hardening laws, all trial states, all parameters", "why_tests_cant": "Termination for arbitrary functions.", "anchors": ["src/hookeai/simulators/fetorch/material/models/standard/von_mises.py:VonMises.state_update"]}
{"id": "C29", "title": "von Mises elastic steps are exact", "statement": "If the trial state is within the yield tolerance the update is the elastic one: plastic strain unchanged, stress increment = D:inc_strain, elastic strain advanced by the increment, step flagged elastic.", "quantifier": "all states, increments, hardening laws", "why_tests_cant": "Decision boundary over a continuum.", "anchors": ["src/hookeai/simulators/fetorch/material/models/standard/von_mises.py:VonMises.state_update"]}
{"id": "C30", "title": "von Mises plastic steps satisfy the yield condition and the flow rule", "statement": "After a converged plastic step the equivalent stress minus the current yield stress is within the relative tolerance, plastic flow is volume preserving and coaxial with the trial deviator, pressure is unchanged by plastic flow, and stress = D:elastic strain.", "quantifier": "all states, increments, hardening laws", "why_tests_cant": "Continuum of states; must hold through the whole computation.", "anchors": ["src/hookeai/simulators/fetorch/material/models/standard/von_mises.py:VonMises.state_update"]}
{"id": "C31", "title": "von Mises additive strain decomposition over any history", "statement": "Starting from the initial state and applying any sequence of successful updates, the total strain equals the sum of the increments and stress = D:elastic strain at each step; for nonnegative plastic multipliers the accumulated plastic strain never decreases.", "quantifier": "all histories of any length", "why_tests_cant": "Invariant over histories.", "anchors": ["src/hookeai/simulators/fetorch/material/models/standard/von_mises.py:VonMises.state_init", "src/hookeai/simulators/fetorch/material/models/standard/von_mises.py:VonMises.state_update"]}
{"id": "C32", "title": "von Mises with linear hardening always converges, to the exact solution", "statement": "For linear isotropic hardening with positive initial yield stress and nonnegative slope H the return mapping always converges, the plastic multiplier is the closed form (q - sy)/(3G + H) and is positive, the updated stress is exactly on the yield surface, and no strain history ever fails.", "quantifier": "all parameters and trial states", "why_tests_cant": "Convergence of an iteration over a continuum.", "anchors": ["src/hookeai/simulators/fetorch/material/models/standard/von_mises.py:VonMises.state_update", "src/hookeai/simulators/fetorch/material/models/standard/hardening.py:LinearIHL"]}
{"id": "C33", "title": "The batched (vmap) Newton loop computes what the early-exit loop computes", "statement": "Running all iterations with updates masked after convergence yields the same converged flag and the same multiplier as the loop that stops at convergence, for the same iteration limit.", "quantifier": "all residual and Jacobian functions, all iteration limits", "why_tests_cant": "Refinement between two control structures.", "anchors": ["src/hookeai/simulators/fetorch/material/models/vmap/von_mises.py:VonMisesVMAP._plastic_step", "src/hookeai/simulators/fetorch/material/models/standard/von_mises.py:VonMises.state_update"]}
{"id": "C34", "title": "The batched von Mises flow direction is the unit deviatoric direction", "statement": "The batched model should use sqrt(3/2) dev/|dev|. It divides by |dev + small| instead, so the direction is unit only in special cases; the equality holds for small = 0.", "quantifier": "all deviators", "why_tests_cant": "Negative fact over a continuum.", "anchors": ["src/hookeai/simulators/fetorch/material/models/vmap/von_mises.py:VonMisesVMAP"]}
{"id": "C35", "title": "Mixed hardening: the back stress stays deviatoric and the yield condition is met", "statement": "From the initial state, after any history the back stress has zero trace; after a converged plastic step the relative equivalent stress matches the yield stress within the tolerance.", "quantifier": "all histories, all kinematic and isotropic hardening laws", "why_tests_cant": "Invariant over histories.", "anchors": ["src/hookeai/simulators/fetorch/material/models/standard/von_mises_mixed.py:VonMisesMixed.state_update"]}
{"id": "C36", "title": "Drucker-Prager return to the cone or to the apex satisfies the yield condition", "statement": "After a converged cone return the yield function is within tol*|c| of zero; after a converged apex return the deviator is zero and the yield function is within etay*tol*|c|-scale of zero; the elastic strain reproduces the returned stress.", "quantifier": "all states, parameters and cohesion laws", "why_tests_cant": "Continuum of states, two-branch algorithm.", "anchors": ["src/hookeai/simulators/fetorch/material/models/standard/drucker_prager.py:DruckerPrager.state_update"]}
{"id": "C37", "title": "Drucker-Prager consistent tangent uses a unit flow direction", "statement": "The deviatoric direction tensor in the cone tangent should have unit norm. It is normalised by the norm of the full elastic trial strain, so it is unit exactly when the trial strain has no volumetric part.", "quantifier": "all trial strains", "why_tests_cant": "Negative fact over a continuum.", "anchors": ["src/hookeai/simulators/fetorch/material/models/standard/drucker_prager.py:DruckerPrager.state_update"]}
{"id": "C38", "title": "Min-max and standard scalers are inverted by inverse_transform", "statement": "inverse_transform(transform(x)) = x for min-max scalers when every feature range is nonzero and for standard scalers when every deviation is nonzero; standard scaling loses data at features with zero deviation unless the value is the mean.", "quantifier": "all tensors, all feature counts, all scaler parameters", "why_tests_cant": "Universally quantified round trip.", "anchors": ["src/hookeai/utilities/data_scalers.py:TorchMinMaxScaler", "src/hookeai/utilities/data_scalers.py:TorchStandardScaler"]}
{"id": "C39", "title": "Fitted scalers normalise their training data", "statement": "After fit, min-max transformed training data lie in [norm_min, norm_max] and attain both ends; standard transformed training data have mean 0 and (biased) variance 1 in features with nonzero deviation.", "quantifier": "all data sets", "why_tests_cant": "Statistical identity for arbitrary data.", "anchors": ["src/hookeai/utilities/data_scalers.py:TorchMinMaxScaler.fit", "src/hookeai/utilities/data_scalers.py:TorchStandardScaler.fit"]}
{"id": "C40", "title": "Batch-incremental fitting equals fitting on all data at once", "statement": "The running min/max and running mean/variance over samples presented one at a time equal those of the concatenated data, for any batching and any presentation order.", "quantifier": "all data sets, all partitions into batches, all orders", "why_tests_cant": "Requires induction over batches.", "anchors": ["src/hookeai/utilities/fit_data_scalers.py:min_max_batch_fit", "src/hookeai/utilities/fit_data_scalers.py:mean_std_batch_fit"]}
{"id": "C41", "title": "Mean relative error loss is a nonnegative measure that vanishes only on exact predictions", "statement": "In every mode the loss is nonnegative, and zero exactly when prediction equals target; the regulariser mode never exceeds the clip mode; unknown modes raise.", "quantifier": "all tensors, all modes, all positive small constants", "why_tests_cant": "Continuum of inputs.", "anchors": ["src/hookeai/utilities/loss_functions.py:MeanRelativeErrorLoss"]}
{"id": "C42", "title": "Parameter dictionary conversion handles nested dictionaries and does not touch the caller when not in place", "statement": "convert_dict_to_tensor must convert nested dictionaries; it raises TypeError for every dictionary that contains a dictionary value. With is_inplace=False convert_dict_to_float32/64 must leave the argument unchanged; nested dictionaries are modified.", "quantifier": "all dictionaries of any nesting depth", "why_tests_cant": "Structural induction over nested dictionaries.", "anchors": ["src/hookeai/utilities/type_conversion.py:convert_dict_to_tensor", "src/hookeai/utilities/type_conversion.py:convert_dict_to_float32"]}
{"id": "C43", "title": "Data set splitting is a partition that respects parent indexes", "statement": "split_dataset returns subsets that are pairwise disjoint, cover the data set, have the prescribed sizes, and get_parent_dataset_indices maps a nested subset to indexes of the parent that denote the same samples.", "quantifier": "all data set lengths, all fractions, all random permutations, all nestings", "why_tests_cant": "Quantifies over random permutations and arbitrary sizes.", "anchors": ["src/hookeai/time_series_data/time_dataset.py:split_dataset", "src/hookeai/time_series_data/time_dataset.py:get_parent_dataset_indices"]}
{"id": "C44", "title": "In-memory data set operations preserve the other samples", "statement": "Removing samples by index keeps the others in order; adding appends; reading samples returns copies so that modifying them does not change the data set (whereas indexing returns an alias).", "quantifier": "all histories of add/remove/get operations", "why_tests_cant": "History property with aliasing.", "anchors": ["src/hookeai/time_series_data/time_dataset.py:TimeSeriesDatasetInMemory"]}
{"id": "C45", "title": "Feature concatenation and weighted sum are computed per sample and leave other features intact", "statement": "concatenate_dataset_features stores the concatenation in the given order; sum_dataset_features stores the weighted sum; other features are unchanged. With the documented default weights the sum raises an error, and removing inputs deletes the result when the new label is one of them. add_dataset_feature_init adds the initial-state feature to every sample and leaves the others unchanged. On a torch Subset of a file-backed data set all these updates are silently lost.", "quantifier": "all data sets, all label lists, all weights", "why_tests_cant": "Label collisions occur only for particular label lists.", "anchors": ["src/hookeai/time_series_data/time_dataset.py:concatenate_dataset_features", "src/hookeai/time_series_data/time_dataset.py:sum_dataset_features"]}
{"id": "C46", "title": "Feature renaming follows the label map", "statement": "change_dataset_features_labels renames each feature that appears in the map and leaves the rest; renames are applied sequentially, so swapping two labels loses one feature; on an in-memory data set the call raises after modifying the first sample.", "quantifier": "all samples, all label maps", "why_tests_cant": "Collisions depend on the order of the map.", "anchors": ["src/hookeai/time_series_data/time_dataset.py:change_dataset_features_labels"]}
{"id": "C47", "title": "Saved model states are read back (save then load)", "statement": "A model saved as init, epoch k or best (with an epoch) is the state returned by the corresponding load, together with the right epoch; loading last returns the state with the largest epoch saved.", "quantifier": "all directory contents reachable by save/load histories, all model names without regex special characters", "why_tests_cant": "Histories of a file system.", "anchors": ["src/hookeai/model_architectures/procedures/model_state_files.py:save_model_state", "src/hookeai/model_architectures/procedures/model_state_files.py:load_model_state"]}
{"id": "C48", "title": "At most one best state file exists and no epoch file is newer than the last saved epoch", "statement": "After any sequence of saves with epochs, the directory contains at most one best file of the model, and after saving epoch k with posterior removal no file of a later epoch remains.", "quantifier": "all sequences of save operations from any starting directory", "why_tests_cant": "Invariant over histories.", "anchors": ["src/hookeai/model_architectures/procedures/model_state_files.py:save_model_state", "src/hookeai/model_architectures/procedures/model_state_files.py:remove_posterior_state_files"]}
{"id": "C49", "title": "A failed load must not destroy checkpoints", "statement": "If load_model_state raises because the requested state does not exist, the directory should be unchanged. The code removes posterior epoch files before checking that the requested file exists, so requesting a missing epoch deletes all later checkpoints.", "quantifier": "all directories, all requested states", "why_tests_cant": "Only visible on error paths.", "anchors": ["src/hookeai/model_architectures/procedures/model_state_files.py:load_model_state"]}
{"id": "C50", "title": "A best state saved without epoch can be loaded again", "statement": "Documented file name name-best.pt for unknown epoch; the reader parses the model name as an integer and raises ValueError for every non-numeric model name.", "quantifier": "all model names", "why_tests_cant": "Negative fact over all names.", "anchors": ["src/hookeai/model_architectures/procedures/model_state_files.py:check_best_state_file"]}
{"id": "C51", "title": "Crash safety of saving the best state", "statement": "At every crash point of a best save at least one complete best file should exist if one existed before; the code removes the old file first, so a crash between removal and write leaves none.", "quantifier": "all crash points", "why_tests_cant": "Crash points cannot be enumerated by unit tests.", "anchors": ["src/hookeai/model_architectures/procedures/model_state_files.py:save_model_state"]}
{"id": "C52", "title": "Training keeps the best state and reports the best epoch", "statement": "After training, the best state on disk is that of the last epoch attaining the minimum epoch loss and the returned epoch is the first one attaining it; they coincide exactly when the minimum is attained once; the loop runs n_max_epochs + 1 epochs without early stopping.", "quantifier": "all loss histories, all numbers of epochs", "why_tests_cant": "Quantifies over all loss sequences.", "anchors": ["src/hookeai/model_architectures/rnn_base_model/train/training.py:train_model"]}
{"id": "C53", "title": "Early stopping triggers correctly and keeps the best validated state", "statement": "The validation loss history has one entry per epoch up to the last validation, equal to the most recent validation loss; the stored best state has the minimum validation loss seen; stopping happens exactly when the number of consecutive validations without significant improvement reaches the tolerance.", "quantifier": "all loss sequences, frequencies, tolerances", "why_tests_cant": "Invariant over histories.", "anchors": ["src/hookeai/model_architectures/rnn_base_model/train/training.py:EarlyStopper"]}
{"id": "C54", "title": "Cyclic strain paths have the requested length and close at the initial strain", "statement": "For every number of cycles c and n_time >= 2c + 1 the generated path has exactly n_time points, starts and ends at the initial strain, and never leaves the set of forward-path points; fewer points raise an error.", "quantifier": "all n_time, all n_cycle, all forward paths", "why_tests_cant": "Floor arithmetic over all naturals.", "anchors": ["src/hookeai/data_generation/strain_paths/proportional_path.py:ProportionalStrainPathGenerator.generate_strain_path", "src/hookeai/data_generation/strain_paths/random_path.py:RandomStrainPathGenerator.generate_strain_path"]}
{"id": "C55", "title": "Generated strain paths stay within the prescribed bounds", "statement": "Proportional paths stay within [lower, upper] when the bounds contain zero and no increment norm or noise is requested. Random paths are rescaled by one factor intended to enforce the bounds; the factor is chosen from the larger absolute excess, so the other bound can still be violated.", "quantifier": "all bounds, all sampled control points", "why_tests_cant": "Continuum of random draws.", "anchors": ["src/hookeai/data_generation/strain_paths/proportional_path.py", "src/hookeai/data_generation/strain_paths/random_path.py"]}
{"id": "C56", "title": "Prescribed increment norm is honoured at every step", "statement": "With inc_strain_norm = s every consecutive pair of points of the forward path is at distance exactly s as long as no rescaled increment is zero; for a proportional path whose natural step is smaller than s/2 the path is not monotone any more (it reverses direction).", "quantifier": "all trial paths, all norms", "why_tests_cant": "Sequential dependence on the already adjusted previous point.", "anchors": ["src/hookeai/data_generation/strain_paths/proportional_path.py", "src/hookeai/data_generation/strain_paths/interface.py:StrainPathGenerator.build_strain_tensor"]}
{"id": "C57", "title": "Stress features: deviatoric stress is traceless", "statement": "compute_stress_feature('dev_stress') should return the deviatoric part; it subtracts the full trace instead of a third of it, so the trace of the result is -2 tr(sigma), which is zero only for traceless stress. Component extraction inverts tensor building.", "quantifier": "all stress states, all component orders", "why_tests_cant": "Negative fact over a continuum.", "anchors": ["src/hookeai/model_architectures/materials/stress_features.py:compute_stress_feature", "src/hookeai/model_architectures/materials/strain_features.py:compute_strain_feature"]}
{"id": "C58", "title": "Volumetric strain averaging (B-bar) reproduces homogeneous strain", "statement": "In 3D the averaged operator equals the standard operator when the volumetric part is uniform; in 2D plane strain the deviatoric part is projected with 1/2 instead of 1/3, so volumetric and deviatoric parts do not add up to the original operator.", "quantifier": "all gradient operators", "why_tests_cant": "Matrix identity for all operators, plus a negative fact.", "anchors": ["src/hookeai/material_model_finder/model/material_discovery.py:MaterialModelFinder.vcompute_local_vol_sym_gradient", "src/hookeai/material_model_finder/model/material_discovery.py:MaterialModelFinder.vcompute_local_dev_sym_gradient", "src/hookeai/simulators/fetorch/element/derivatives/gradients.py:vexpand_grad_operator_sym_2d_to_3d"]}
{"id": "C59", "title": "Force equilibrium loss vanishes exactly at equilibrium", "statement": "The pointwise loss is nonnegative and zero exactly when internal = external (+ reaction at Dirichlet degrees of freedom); loop and vectorised versions agree; with min-max force normalisation whose offset is nonzero an equilibrated state has a positive loss.", "quantifier": "all meshes, forces, boundary masks", "why_tests_cant": "Continuum of forces and arbitrary masks.", "anchors": ["src/hookeai/material_model_finder/model/material_discovery.py:MaterialModelFinder.force_equilibrium_loss", "src/hookeai/material_model_finder/model/material_discovery.py:MaterialModelFinder.vforce_equilibrium_loss"]}
{"id": "C60", "title": "Dirichlet-set loss groups reactions by set label", "statement": "With labels in which 0 marks free degrees of freedom and at least one is free, the loss is the sum of squared free residuals plus the squared total residual per positive label; if no degree of freedom is free the smallest positive label is treated as free.", "quantifier": "all label assignments", "why_tests_cant": "Label bookkeeping (unique, bucketize, one-hot) for arbitrary labels.", "anchors": ["src/hookeai/material_model_finder/model/material_discovery.py:MaterialModelFinder.vforce_equilibrium_loss"]}
{"id": "C61", "title": "Vectorised assembly of internal forces equals element-by-element assembly", "statement": "Summing all element entries whose mesh index equals a position gives the same mesh vector as the scatter-add assembler.", "quantifier": "all meshes and element forces", "why_tests_cant": "Two algorithms over arbitrary connectivities.", "anchors": ["src/hookeai/material_model_finder/model/material_discovery.py:MaterialModelFinder.vassemble_internal_forces", "src/hookeai/simulators/fetorch/structure/structure_mesh.py:StructureMesh.element_assembler"]}
{"id": "C62", "title": "Learnable parameters: normalisation round trip and bound enforcement", "statement": "Normalising then denormalising a parameter returns it when its bounds differ; bound enforcement leaves in-range values unchanged and puts every number inside its bounds, idempotently, in normalised and physical form alike; synchronisation gives the material model exactly the physical values of the learnable parameters. A parameter that has become NaN is not put inside its bounds.", "quantifier": "all parameter values and bounds", "why_tests_cant": "Continuum of values.", "anchors": ["src/hookeai/model_architectures/rc_base_model/model/recurrent_model.py:RecurrentConstitutiveModel.transform_parameter", "src/hookeai/model_architectures/rc_base_model/model/recurrent_model.py:RecurrentConstitutiveModel.enforce_parameters_bounds"]}
{"id": "C63", "title": "Nested parameter dictionaries hold every named parameter", "statement": "get_model_parameter_dict stores every parameter under its dotted path so that it can be read back, provided no parameter name is a proper dotted prefix of another.", "quantifier": "all sets of dotted names", "why_tests_cant": "Induction over name paths.", "anchors": ["src/hookeai/material_model_finder/utilities/torch_parameters.py:set_parameter_in_dict", "src/hookeai/material_model_finder/utilities/torch_parameters.py:get_model_parameter_dict"]}
{"id": "C64", "title": "New directories and files never overwrite existing ones", "statement": "make_directory without overwrite creates a path that did not exist before, and new_file_path_with_int returns a path that is not an existing file; both terminate for every finite directory and pick the smallest index free of directories (files respectively). A file with the next numbered directory name makes make_directory raise, and new_file_path_with_int may return the path of an existing directory.", "quantifier": "all existing path sets", "why_tests_cant": "Termination over arbitrary finite sets.", "anchors": ["src/hookeai/ioput/iostandard.py:make_directory", "src/hookeai/ioput/iostandard.py:new_file_path_with_int"]}
{"id": "C65", "title": "Structured element node tables are consistent", "statement": "For each structured finite element the node matrix contains every label 1..n_nodes exactly once, all other cells are zero and not on an edge of the element, get_node_label_index inverts the matrix on valid labels and raises on every negative label and every label above n_nodes. Label 0 raises exactly if the matrix has no empty cell.", "quantifier": "all element types, all integer labels", "why_tests_cant": "Error branch ranges over all integers.", "anchors": ["src/hookeai/simulators/links/discretization/finite_element.py:FiniteElement"]}
{"id": "C66", "title": "Batching time series keeps every value; prediction metrics are the documented means", "statement": "time_collator stacks samples so that entry [t, b, f] of the batch is entry [t, f] of sample b for every time series of the first sample, and raises if another sample lacks it or has another shape; mse, rmse, mav and mav_gt are the documented means over time, nonnegative, rmse squared is mse, and mse and rmse vanish exactly for exact predictions. Without ground truth even mav, which does not need it, raises.", "quantifier": "all batches, features and sequence lengths", "why_tests_cant": "Infinite domain.", "anchors": ["src/hookeai/time_series_data/time_dataset.py:time_collator", "src/hookeai/utilities/prediction_metrics.py:compute_prediction_metrics"]}
{"id": "C67", "title": "Moving-average denoising preserves length, constants and bounds", "statement": "For a series of the default floating point type, the moving average returns a series of the same length, leaves constant features unchanged, is linear, and keeps values within the range of the input, for every window of at least one and every number of cycles; an even window delays by half a step. A series of another floating point type is rejected.", "quantifier": "all series, all window sizes >= 1, all numbers of cycles", "why_tests_cant": "Padding arithmetic for all window sizes.", "anchors": ["src/hookeai/utilities/data_denoisers.py:Denoiser"]}
{"id": "C68", "title": "Tensor product and contraction helpers compose as linear maps", "statement": "Applied to any tensor C through the double contraction ddot42_1: dyad22_1(A,B) gives (B:C) A, dyad22_2(A,B) gives A C B^T, dyad22_3(A,B) gives A C^T B^T; ddot44_1 is composition; ddot24_1 is the adjoint of ddot42_1; the dot42/dot24 variants compose the fourth-order tensor with multiplication of the stated index by the second-order one; dot21_1 and dot12_1 are adjoint and dyad11(a,b) maps c to (b.c) a.", "quantifier": "all n_dim, all tensors", "why_tests_cant": "Algebraic identities over all dimensions and all real tensors.", "anchors": ["src/hookeai/simulators/fetorch/math/tensorops.py:dyad22_1", "src/hookeai/simulators/fetorch/math/tensorops.py:dot42_1", "src/hookeai/simulators/fetorch/math/tensorops.py:ddot44_1"]}
{"id": "C69", "title": "kelvin_factor is the factor used by the matrix form", "statement": "For every complete component order of a 2D or 3D problem kelvin_factor(i, order) is the ratio between entry i of the matrix form and the tensor component, and kelvin_factor([i, j], order) is the ratio for fourth-order tensors (the product of the two single factors); lists of another length raise.", "quantifier": "all complete orders in 2D/3D, all indexes, all tensors", "why_tests_cant": "Consistency of two independently coded rules over all orders.", "anchors": ["src/hookeai/simulators/fetorch/math/matrixops.py:kelvin_factor", "src/hookeai/simulators/fetorch/math/matrixops.py:get_tensor_mf"]}
{"id": "C70", "title": "Stepping a specimen agrees with its batched history", "statement": "After update_specimen_mesh_configuration(t), reading an element gives the entries of get_batched_mesh_configuration_hist for time t (current) and t-1 (last; time 0 for t=0); indices outside the history raise. Without coordinate updates this needs that coordinates were never updated before: otherwise the stale coordinates are read.", "quantifier": "all meshes of equal elements, displacement histories, elements, time indices", "why_tests_cant": "relates two independent code paths over every time index, mesh and prior configuration state", "anchors": ["src/hookeai/material_model_finder/data/specimen_data.py: SpecimenNumericalData.update_specimen_mesh_configuration", "src/hookeai/material_model_finder/data/specimen_data.py: SpecimenNumericalData.get_batched_mesh_configuration_hist"]}
{"id": "C71", "title": "Assigning a constitutive model to elements", "statement": "init_elements_model raises for every conventional model name (elastic, von_mises, von_mises_mixed, drucker_prager) because models are stored in a torch ModuleDict; it also raises for a GRU model, because it calls a method which the model does not have (violated: a GRU model can never be assigned); exactly the names of wrapped recurrent constitutive models (beginning with rc_) and of hybrid models can be assigned; a successful call creates one new model label, assigns it to exactly the given elements, marks them recurrent with no stored state, and leaves all other elements untouched.", "quantifier": "all element sets, all previous assignments, all model names", "why_tests_cant": "frame property over arbitrary element sets and assignment histories, and an error for every input of four branches", "anchors": ["src/hookeai/simulators/fetorch/structure/structure_state.py: StructureMaterialState.init_elements_model"]}
{"id": "C72", "title": "The gradient of the mean relative error loss is the derivative and is finite", "statement": "The gradient propagated to a prediction by the mean relative error loss should be the derivative of the loss with respect to it and finite. It is the derivative for every entry with nonzero target, and finite in the clip and regularizer modes; in the default (absolute) mode it is NaN at every entry whose target is exactly zero, because the branch not selected by torch.where divides by zero.", "quantifier": "all tensors, all modes, all positive small constants", "why_tests_cant": "Continuum of inputs; the failing targets form a set of measure zero.", "anchors": ["src/hookeai/utilities/loss_functions.py:MeanRelativeErrorLoss.forward"]}
{"id": "C73", "title": "The convexity return mapping of yield parameters ends near the boundary of the admissible region", "statement": "For every convexity test, the return mapping of the Lou-Zhang-Yoon yield parameters terminates, keeps admissible parameters unchanged, and otherwise returns a point on the ray from the origin through the parameters within 5/2^23 of a change of the test. The returned point itself need not be admissible, may leave the bounds of the learnable parameters, and is not applied if only one of the two parameters is learnable.", "quantifier": "all convexity tests, all parameter values, all bounds, normalised or not", "why_tests_cant": "Bisection over a continuum for an arbitrary region; the inadmissible outcomes depend on the position of the boundary relative to the bisection grid.", "anchors": ["src/hookeai/simulators/fetorch/material/models/standard/lou.py:LouZhangYoon.convexity_return_mapping", "src/hookeai/simulators/fetorch/material/models/standard/lou.py:LouZhangYoon.directional_convex_boundary", "src/hookeai/model_architectures/rc_base_model/model/recurrent_model.py:RecurrentConstitutiveModel.enforce_parameters_constraints"]}
{"id": "C74", "title": "The Savitzky-Golay denoiser reproduces polynomials", "statement": "For double precision series the Savitzky-Golay denoiser returns a series of the same shape, is linear, leaves constants unchanged, and with an odd window reproduces every polynomial of degree at most poly_order at all times whose window lies in the series; with an even window the polynomial is delayed by half a step. Single precision series, the default type, always raise.", "quantifier": "all series, windows, polynomial orders, numbers of cycles; all coefficient vectors that satisfy the interpolation conditions", "why_tests_cant": "All polynomials, windows and times; the type restriction concerns every input.", "anchors": ["src/hookeai/utilities/data_denoisers.py:Denoiser._dn_savitzky_golay", "src/hookeai/utilities/data_denoisers.py:Denoiser.denoise"]}
{"id": "C75", "title": "The low-pass denoiser is an orthogonal projection on the low frequencies", "statement": "The low-pass denoiser returns, for each feature, the series whose spectrum is that of the input at frequencies up to the cutoff and zero above; it is linear, idempotent (further cycles change nothing), keeps the mean for a cutoff that is not negative, never increases the sum of squares, is the identity for a cutoff of one half or more and returns zeros for a negative cutoff.", "quantifier": "all non-empty series of any length, all cutoffs, all numbers of cycles", "why_tests_cant": "Discrete Fourier transforms of every length and a continuum of values.", "anchors": ["src/hookeai/utilities/data_denoisers.py:Denoiser._dn_frequency_low_pass", "src/hookeai/utilities/data_denoisers.py:Denoiser.denoise"]}
{"id": "C76", "title": "The custom recurrent network is the stacked gated recurrent unit", "statement": "The custom GRU returns for every sample and time the hidden state of the last layer, and for every layer the last hidden state, of the stacked gated recurrent unit with the same weights (the equations of torch.nn.GRU), with or without batch dimension and with zeros as the default initial state. Samples of a batch do not influence each other, the output at a time depends only on the inputs up to that time, a sequence can be cut and resumed from the returned hidden state, and hidden states that start in [-1, 1] stay there. The model's output is an affine function of these hidden states.", "quantifier": "all numbers of layers, sizes, weights, batch sizes, sequence lengths, inputs and initial states", "why_tests_cant": "Weights and inputs range over a continuum and sequence lengths, batches and stacks are unbounded.", "anchors": ["src/hookeai/model_architectures/rnn_base_model/model/gru_model.py:GRURNNModel.forward", "src/hookeai/model_architectures/rnn_base_model/custom/gru_vmap.py:GRU.forward"]}
{"id": "C77", "title": "A model is rebuilt from its initialization file, with its data scalers", "statement": "If a GRU model is created with the option that saves its initialization file, and its data scalers are then set, fitted or loaded any number of times without an exception, initializing a model from its directory, or from a copy of the file in another directory, gives the arguments it was created with (or their default values) and the scalers set or fitted last. The code violates: scalers set on a reloaded model are never saved; a fit that raises removes the scalers in memory but not those of the file; setting scalers from scaling parameters and asking for the device always raise; a file path without directory is rejected; an interruption while saving destroys the earlier file.", "quantifier": "all constructor arguments, directories and histories of scaler operations; all interruptions of a save", "why_tests_cant": "Histories are unbounded, and interruptions concern every save.", "anchors": ["src/hookeai/model_architectures/rnn_base_model/model/gru_model.py:GRURNNModel.init_model_from_file", "src/hookeai/model_architectures/rnn_base_model/model/gru_model.py:GRURNNModel.save_model_init_file", "src/hookeai/model_architectures/procedures/model_data_scaling.py:fit_data_scalers", "src/hookeai/model_architectures/procedures/model_data_scaling.py:set_data_scalers"]}
{"id": "C78", "title": "Predictions do not depend on the batch size and keep the order of the data set", "statement": "Without a seed, prediction saves one result per sample, in the order of the data set, equal to that of the sample evaluated alone (normalized, propagated, denormalized, loss against its own targets), and the average loss is the mean of the sample losses, for every batch size. The code violates: with an integer seed prediction always raises TypeError; samples without targets raise KeyError although ground truth is optional; an average loss of exactly zero is not reported.", "quantifier": "all data sets, batch sizes, models, scalers and losses", "why_tests_cant": "Data sets, batch sizes and sample orders are unbounded.", "anchors": ["src/hookeai/model_architectures/rnn_base_model/predict/prediction.py:predict", "src/hookeai/model_architectures/procedures/model_data_scaling.py:data_scaler_transform"]}
{"id": "C79", "title": "Model and optimizer states of a training come in pairs", "statement": "After any sequence of save_training_state (best states saved with their epoch, initial states without), loads without removal and early stopping validations, every default, epoch or best model state file in the model directory is accompanied by an optimizer state file for the same epoch, written by the same call and recording that epoch, and there is no optimizer state file without its model state file; the temporary files of a validation disappear. This fails in three ways of the code: resuming training loads the model with removal of the later model state files and leaves the optimizer state files of those epochs; a process stopped between the two writes leaves a model state without its optimizer state; and the early stopping validation of recurrent constitutive and hybrid models calls save_training_state without its required state type and raises TypeError at any validation epoch that has no saved state.", "quantifier": "all model names, all histories of saves, loads and validations, all model and optimizer states, epochs and crash points between file operations", "why_tests_cant": "The number of histories of saved epochs is unbounded; file name matching by regular expressions has to be right for every epoch number and listing order.", "anchors": ["src/hookeai/model_architectures/procedures/model_training.py: save_training_state, remove_posterior_optim_state_files", "src/hookeai/model_architectures/rnn_base_model/train/training.py: EarlyStopper._validate_model", "src/hookeai/model_architectures/rc_base_model/train/training.py: EarlyStopper._validate_model", "src/hookeai/model_architectures/hybrid_base_model/train/training.py: EarlyStopper._validate_model"]}
{"id": "C80", "title": "Hybrid models arrange every model once, in channels given by the hybridization indices", "statement": "For every dictionary of hybridized models with pairwise distinct hybridization indices, the hybridization channels of the hybrid model contain each model exactly once: models with the same first index form one channel and are evaluated in increasing order of the second index, and channels are ordered by the first index. The arrangement does not depend on the order of the dictionary. If two models have the same indices a RuntimeError is raised.", "quantifier": "all dictionaries of hybridized models, all integer indices and all dictionary orders", "why_tests_cant": "The arrangement has to be right for every number of models, every set of index pairs and every insertion order.", "anchors": ["src/hookeai/model_architectures/hybrid_base_model/model/hybrid_model.py: HybridModel.get_hybridization_channels"]}
{"id": "C81", "title": "A hybrid model computes the composition of its channels in physical units", "statement": "If every hybridized model computes a function in physical units (with its own data scalers applied if it expects normalized input or gives normalized output), the hybrid model computes, for identity hybridization, the composition of the models of the first channel (a model with input residual connection gets the previous output followed by the hybrid model input), and for additive hybridization, the sum of such compositions over all channels. If the hybrid model output is normalized, forward propagation returns the normalized value of this output and prediction the value itself. This fails in two ways of the code: a hybridized model with normalized input or output whose class has no method data_scaler_transform (all but the polynomial regressor) passes construction but raises AttributeError at every evaluation, and a hybrid model with normalized input features hands the normalized features to the hybridized models, which expect physical units.", "quantifier": "all numbers and arrangements of hybridized models, all functions they compute, all data scalers and all input features", "why_tests_cant": "The claim ranges over all model functions, arrangements and features.", "anchors": ["src/hookeai/model_architectures/hybrid_base_model/model/hybrid_model.py: HybridModel.forward, check_hyb_models_data_scalers", "src/hookeai/model_architectures/hybrid_base_model/model/hybridization.py", "src/hookeai/model_architectures/hybrid_base_model/predict/prediction.py: predict"]}
{"id": "C82", "title": "The layers of hybrid models compute Hooke's law, the volumetric/deviatoric composition and polynomials", "statement": "At every position of the features tensor: the elastic layers return, for isotropic constants, the stress of Hooke's law under plane strain or in 3D, from elastic strains, from concatenated plastic and total strains (hybridized_layers) or from concatenated total and plastic strains (transfer_learning); the composition layer returns the deviatoric tensor plus the volumetric part times the identity; the polynomial regressor returns for each feature the polynomial of this feature with its layer weights as coefficients, and every tuple of polynomials up to the given degree (without constant term if there is no bias) is obtained for some weights. Other numbers of features raise. This fails in two ways of the code: the elastic layers accept an elastic symmetry but always use the isotropic tangent, so the stress of an anisotropic material is wrong; and the composition layer overwrites its input tensor, so a second evaluation of the same tensor counts the volumetric part twice.", "quantifier": "all strains, all material constants, all numbers of positions, all degrees, weights and features", "why_tests_cant": "The formulas must hold for every strain, material and weight; tests sample single values and usually only isotropic materials and fresh tensors.", "anchors": ["src/hookeai/model_architectures/hybrid_base_model/model/hybridized_layers.py: BatchedElasticModel, VolDevCompositionModel", "src/hookeai/model_architectures/hybrid_base_model/model/transfer_learning.py: PolynomialLinearRegressor, BatchedElasticModel"]}
{"id": "C83", "title": "The tangent of the von Mises model is the derivative of the updated stress", "statement": "The consistent tangent modulus returned by a state update of the von Mises model is the derivative of the updated stress with respect to the strain increment: for elastic steps strictly inside the yield tolerance with any hardening law and for plastic steps with linear hardening. For every other non-softening law with a differentiable yield stress, the tangent returned by a plastic step that meets the yield condition exactly is the derivative of the exact return (the stress on the updated yield surface given by the backward Euler equations).", "quantifier": "all strain increments, all states, all admissible elastic constants, all hardening laws as stated, plane strain and 3D", "why_tests_cant": "The derivative is a limit at every increment; tests compare finite differences at single increments.", "anchors": ["src/hookeai/simulators/fetorch/material/models/standard/von_mises.py: VonMises.state_update"]}
{"id": "C84", "title": "The tangent of the mixed hardening model is the derivative of the updated stress", "statement": "The consistent tangent modulus returned by a state update of the von Mises model with mixed hardening is the derivative of the updated stress with respect to the strain increment: for elastic steps strictly inside the yield tolerance with any hardening laws, and for plastic steps with linear isotropic and linear kinematic hardening.", "quantifier": "all strain increments, all states with a traceless back stress (all states reached by updates), all admissible elastic constants, all linear laws, plane strain and 3D", "why_tests_cant": "The derivative is a limit at every increment; tests compare finite differences at single increments.", "anchors": ["src/hookeai/simulators/fetorch/material/models/standard/von_mises_mixed.py: VonMisesMixed.state_update"]}
{"id": "C85", "title": "The tangent of the Drucker-Prager model is the derivative of the updated stress except on the cone", "statement": "The consistent tangent modulus returned by a state update of the Drucker-Prager model is the derivative of the updated stress with respect to the strain increment: for elastic steps strictly inside the yield tolerance with any cohesion law, and with linear cohesion hardening for returns to the apex and for returns to the cone from an elastic trial strain without volumetric part. This fails in the code for every return to the cone in 3D from an elastic trial strain with a volumetric part, because the flow direction of the tangent is divided by the norm of the full trial strain instead of the norm of its deviator.", "quantifier": "all strain increments, all states, all frictional parameters, all linear cohesion laws (elastic: all laws); plane strain and 3D (failure: 3D)", "why_tests_cant": "The derivative is a limit at every increment; tests compare finite differences at single increments or only check convergence of the global solution, which a slightly wrong tangent does not prevent.", "anchors": ["src/hookeai/simulators/fetorch/material/models/standard/drucker_prager.py: DruckerPrager.state_update"]}
{"id": "C86", "title": "The batched von Mises model with mixed hardening agrees with the standard one up to its regularisation, except for its tangent", "statement": "For every strain increment, state, isotropic law and kinematic law, a state update of the batched (vmap) von Mises model with mixed hardening fails exactly when the update of the standard model fails, and otherwise gives the same total strain, accumulated plastic strain and plasticity flag; in elastic steps all state variables are the same, and in plastic steps with relative trial stress norm above 1e-8 its plastic strain and back stress increments are those of the standard model times one and the same factor |r|/|r+1e-8| close to one. After every strain history without failure the back stress is deviatoric, the plastic strain is volume preserving, the total strain is the sum of the increments and the stress is Hooke's law of the elastic strain. The property that its consistent tangent is the derivative of the updated stress fails in the code: the slope of the kinematic law is left out of it, so with kinematic hardening the tangent is too soft.", "quantifier": "all strain increments, states, histories, elastic constants, isotropic and kinematic laws; plane strain and 3D", "why_tests_cant": "Tests run both models on single increments; agreement on every state and every law, and in which states both fail, is a claim about all of them.", "anchors": ["src/hookeai/simulators/fetorch/material/models/vmap/von_mises_mixed.py: VonMisesMixedVMAP.state_update, _elastic_step, _plastic_step, _nr_iteration", "src/hookeai/simulators/fetorch/material/models/standard/von_mises_mixed.py: VonMisesMixed.state_update"]}
{"id": "C87", "title": "The batched Drucker-Prager model performs the return mapping of the standard model with at most ten iterations", "statement": "A state update of the batched (vmap) Drucker-Prager model fails exactly when the trial state is not elastic and the ten masked Newton iterations for the cone do not meet the tolerance, or the cone return leaves the cone and the apex return is undefined or does not meet it. An elastic step has no plastic flow. A return to the cone satisfies the cone return equation within its tolerance and ends on the yield surface up to the tolerance plus G x (1 - sqrt(J2)/max(sqrt(J2), 1e-4)); a return to the apex is hydrostatic and ends at the apex up to the tolerance. After every history without failure the total strain is the sum of the increments, Hooke's law holds, and the stress is admissible up to the tolerance plus 2.5e-5. With linear nonnegative cohesion hardening no step ever fails, and each step ends in exactly the state of the standard model whenever |cohesion| is at least 1e-8 and the step is elastic, returns to the apex, or has a trial sqrt(J2) of at least 1e-4. In the code the yield condition is missed by far more than the tolerance for cone returns with a trial sqrt(J2) below 1e-4, and a material without cohesion is flagged plastic under a zero increment, unlike in the standard model.", "quantifier": "all strain increments, states, histories, frictional parameters, cohesion laws (equality with the standard model: all linear laws with nonnegative slope); plane strain and 3D", "why_tests_cant": "The masked loop must leave converged batches alone for every iteration at which they converge, and admissibility must hold after every history; tests sample single increments of ordinary magnitude.", "anchors": ["src/hookeai/simulators/fetorch/material/models/vmap/drucker_prager.py: DruckerPragerVMAP.state_update, _elastic_step, _plastic_step, _nr_iteration_surface, _plastic_step_apex, _nr_iteration_apex", "src/hookeai/simulators/fetorch/material/models/standard/drucker_prager.py: DruckerPrager.state_update"]}
{"id": "C88", "title": "The Lou-Zhang-Yoon effective stress is the published function of the stress invariants", "statement": "For every symmetric stress tensor and all yield parameters a, b, c, d the effective stress of the Lou-Zhang-Yoon model is a (b I1 + (sqrt(J2^3 - c J3^2) - d J3)^(1/3)) with the invariants of the stress, and it is undefined (not a number) exactly when one of the two roots is taken of a negative number. It is defined for every stress exactly when c + d^2 is at most 27/4. It is the von Mises stress for a = sqrt 3, b = c = d = 0 and the Drucker-Prager combination a (b I1 + sqrt J2) for c = d = 0, it is 3 a b p under hydrostatic stress p, it scales with the stress for positive factors and does not change when the stress is rotated.", "quantifier": "all symmetric stress tensors, all yield parameters, all positive factors, all rotations and reflections", "why_tests_cant": "Tests evaluate the function at single stresses; on which set of parameters it is defined everywhere, and its homogeneity and isotropy, are claims about all stresses.", "anchors": ["src/hookeai/simulators/fetorch/material/models/standard/lou.py: LouZhangYoon.get_effective_stress", "src/hookeai/simulators/fetorch/material/models/standard/lou.py: LouZhangYoon.get_stress_invariants"]}
{"id": "C89", "title": "The return mapping Jacobian and the flow vector of the Lou-Zhang-Yoon model are exact derivatives", "statement": "At every state at which they are computed and the hardening laws are differentiable with the slopes they report, the flow vector of the Lou-Zhang-Yoon model is the gradient of the effective stress, and the Jacobian of the return mapping to the yield surface is the Frechet derivative of its residual with respect to the elastic strain, the accumulated plastic strain and the plastic multiplier, for associative and non-associative hardening. Consequently a successful return to the surface consists of between one and twenty Newton steps from the trial elastic strain, the previous accumulated plastic strain and a zero multiplier, the last of which is shorter than the convergence tolerance, and returns the last iterate.", "quantifier": "all elastic strains, accumulated plastic strains, plastic multipliers, elastic constants, hardening laws of the yield stress and of the four yield parameters", "why_tests_cant": "A comparison with finite differences checks single states within a tolerance; a wrong term that vanishes or is small there (second derivatives of J3, parameter hardening) goes unseen.", "anchors": ["src/hookeai/simulators/fetorch/material/models/standard/lou.py: LouZhangYoon.get_residual_and_jacobian", "src/hookeai/simulators/fetorch/material/models/standard/lou.py: LouZhangYoon.get_stress_invariants_and_derivatives"]}
{"id": "C90", "title": "A step of the Lou-Zhang-Yoon model is elastic, returns to the yield surface or returns to the apex", "statement": "A successful state update adds the strain increment to the total strain and ends in a stress given by Hooke's law of the elastic strain. The step is elastic exactly when the trial effective stress is within the tolerance of the yield stress; it then succeeds and leaves the plastic strain and the accumulated plastic strain unchanged. Otherwise a successful return to the yield surface satisfies the flow rule, the hardening rule and the yield condition within the convergence tolerance, and a return to the apex ends in a hydrostatic stress which meets the apex condition within it. After every strain history without failure the total strain is the sum of the increments, Hooke's law holds, and the stress is admissible up to the tolerance. The property that a plastic step ends in one of these returns or is reported as a failed update is violated in the code: whenever the third invariant of the deviatoric trial stress is zero and the step is neither elastic nor near the apex, it raises a RuntimeError; pure shear past yield is such a step for every material with positive yield stress and a. That the accumulated plastic strain never decreases is violated too: without hardening, a plastic step whose trial pressure is between 95 % and 100 % of the apex pressure is returned to the apex and lowers it, below zero in the initial state.", "quantifier": "all strain increments, states, histories, elastic constants, hardening laws; plane strain and 3D", "why_tests_cant": "Admissibility must hold after every history of increments of any size, and the failing states are a set of measure zero which random tests do not meet although pure shear is in it.", "anchors": ["src/hookeai/simulators/fetorch/material/models/standard/lou.py: LouZhangYoon.state_update"]}
{"id": "C91", "title": "The Lou-Zhang-Yoon model reduces to von Mises", "statement": "With yield parameters a = sqrt(3), b = c = d = 0, an associative flow rule and linear isotropic hardening, a step of the Lou-Zhang-Yoon model returns exactly the state (stress, strain, elastic strain, accumulated plastic strain, flags) which the von Mises model returns, and so does a whole strain history. The exceptions are exact: a plastic step whose trial pressure exceeds the apex switching threshold reports a failed update, and a plastic step whose trial stress has zero third deviatoric invariant raises RuntimeError.", "quantifier": "all elastic constants, initial yield stresses of at least 2e-8, nonnegative hardening slopes, previous states with nonnegative accumulated plastic strain, strain increments, and strain histories of any length", "why_tests_cant": "A test compares the two models on chosen loading paths; agreement of two different return-mapping schemes (radial return against a Newton iteration in nine unknowns) must hold for every state and increment, and the exceptional steps form sets that sampled tests can miss.", "anchors": ["src/hookeai/simulators/fetorch/material/models/standard/lou.py: LouZhangYoon.state_update", "src/hookeai/simulators/fetorch/material/models/standard/von_mises.py: VonMises.state_update"]}
{"id": "C92", "title": "The convexity check accepts every convex yield surface", "statement": "If the Lou-Zhang-Yoon yield surface for parameters c and d is convex (in the space of principal stresses) and the effective stress is defined and positive for all stresses which are not hydrostatic, check_yield_surface_convexity returns true, and convexity_return_mapping leaves the parameters as they are. For d = 0 the surface is convex exactly for -27/8 <= c <= 9/4, and all these are accepted. If the effective stress is undefined in uniaxial tension the check returns false. The converse fails: the check accepts parameters whose yield surface is not convex.", "quantifier": "all yield parameters c and d, all principal stresses", "why_tests_cant": "Convexity quantifies over all pairs of points of the surface and the parameters are a continuum; a test evaluates the check at some parameters, and whether the surface is in fact convex there is not observable by evaluation.", "anchors": ["src/hookeai/simulators/fetorch/material/models/standard/lou.py: LouZhangYoon.check_yield_surface_convexity", "src/hookeai/simulators/fetorch/material/models/standard/lou.py: LouZhangYoon.convexity_return_mapping"]}
{"id": "C93", "title": "The batched Lou-Zhang-Yoon model returns the states of the standard model", "statement": "Whenever a state update of the batched (vmap) Lou-Zhang-Yoon model succeeds, the total strain grows by the increment and the stress is Hooke's law of the elastic strain; and the state is exactly the one the standard model returns, if the step is elastic, or its trial pressure is outside the apex region, or the apex return is enabled and the yield parameters are above the batched model's lower bounds (3ab and b at least 1e-6). With the apex return disabled, a plastic step satisfies the flow rule, the hardening rule and the yield condition within the convergence tolerance. The fixed-yield-parameter Jacobian is the full one when the parameters do not harden. With von Mises parameters and linear hardening every step outside the apex region with nonzero third deviatoric trial invariant succeeds with exactly the state of the von Mises model, within ten iterations and for all options. That an elastic step succeeds, as in the standard model, is violated in the code: whenever the third invariant of the deviatoric trial stress is zero, for example for a zero increment or a small pure shear in the initial state, the batched update raises RuntimeError, because the return to the surface is evaluated for elastic samples too.", "quantifier": "all strain increments, previous states with nonnegative accumulated plastic strain, elastic constants, hardening laws and options; plane strain and 3D", "why_tests_cant": "The masked loop must leave converged and elastic samples alone at whatever iteration they converge, for every state; agreement of a nine-unknown Newton iteration with a different control flow cannot be settled by sampled increments, and the raising states are a set of measure zero for random tests although every simulation starts in one.", "anchors": ["src/hookeai/simulators/fetorch/material/models/vmap/lou.py: LouZhangYoonVMAP.state_update", "src/hookeai/simulators/fetorch/material/models/standard/lou.py: LouZhangYoon.state_update"]}
{"id": "C94", "title": "The tangents of the batched von Mises and Drucker-Prager models are the derivatives of the updated stress up to the regularisation", "statement": "The consistent tangent modulus returned by a state update of the batched (vmap) von Mises and Drucker-Prager models is the derivative of the stress returned by that update with respect to the strain increment: exactly for elastic steps strictly inside the yield tolerance with any hardening law and, with linear cohesion hardening, for Drucker-Prager returns to the apex. For plastic von Mises steps with linear hardening and an initial yield stress of at least 1e-7, and for Drucker-Prager returns to the cone with linear cohesion hardening and a trial sqrt(J2) above 1e-4, the tangent differs from the derivative by at most 30 G 5e-8/||s|| and (22 G + 3 K (etay + etaf)) 6e-8/||e||, where s is the deviator of the trial stress and e that of the elastic trial strain; the difference is the effect of the small constant added to every component before the norm of the flow direction is taken.", "quantifier": "all strain increments, states, elastic constants, frictional parameters, linear hardening laws (elastic: all laws); plane strain and 3D", "why_tests_cant": "The derivative is a limit at every increment and the error bound must hold at all of them; finite differences at single increments cannot separate the regularisation from a wrong term of the tangent.", "anchors": ["src/hookeai/simulators/fetorch/material/models/vmap/von_mises.py: VonMisesVMAP.state_update", "src/hookeai/simulators/fetorch/material/models/vmap/drucker_prager.py: DruckerPragerVMAP.state_update"]}
{"id": "C95", "title": "The structured finite element mesh of a material patch is the regular mesh of its elements", "statement": "For every supported element type, every number of elements per dimension and whatever way the floating-point divisions are rounded, the mesh generated for a material patch has a node exactly at the grid positions at which one of its elements has a node (all grid positions for Lagrangian elements, the positions off at most one grid line for serendipity elements), the node labels are 1, 2, ... without gaps and without repetition, ordered with the first dimension varying fastest, and the coordinates of a node are those of its position on the regular grid over the patch. The boundary node labels of the patch are exactly the labels of the nodes at an end of a dimension. The connectivities written for the solver have one element per cell, in the same order as the material phases; the p-th node of an element is the mesh node at the position of the p-th node of the element type in that cell; the nodes of an element are different, and no mesh node is outside all elements. An unknown element type, a dimension without elements and an element of another dimension are rejected with an error.", "quantifier": "all element types, numbers of elements per dimension (up to 2^50 grid intervals), patch dimensions, floating-point roundings, assignments of material phases", "why_tests_cant": "The element of a grid position is found by a floating-point ceiling of a quotient; a test looks at a few mesh sizes, while a wrong rounding at one size would drop or misplace nodes.", "anchors": ["src/hookeai/data_generation/spdg/patch_generator.py: FiniteElementPatchGenerator._generate_finite_element_mesh", "src/hookeai/data_generation/spdg/patch_generator.py: FiniteElementPatchGenerator._get_elem_node_index", "src/hookeai/data_generation/spdg/patch.py: FiniteElementPatch.get_boundary_nodes_labels", "src/hookeai/simulators/links/links.py: LinksSimulator._get_links_mesh_data"]}
{"id": "C96", "title": "Displacements of the corners of a material patch respect the declared ranges", "statement": "For every specification of corner boundary conditions, corner displacement ranges and edge deformation orders, a two-dimensional patch displaces its corners, orthogonally to each edge, as declared: if the edge has a positive deformation order, each end is displaced within its own range (zero for a fixed or unspecified corner); if it has order zero, both ends are displaced by the same amount, which is in the intersection of both ranges if that has an interior, and between the means of the bounds of both ranges in any case. So a fixed degree of freedom stays at rest if the edge orthogonal to it has positive order or the other end has the range zero as well. The specification is accepted exactly if the keys are corner labels, the values tuples with one entry per dimension, the ranges pairs and the orders integers. Violated: with the default deformation order zero a fixed degree of freedom can be displaced because the other end of an edge pulls it along; and in three dimensions the ends of an edge of order zero can be displaced by different amounts.", "quantifier": "all boundary conditions, displacement ranges, deformation orders and drawn values", "why_tests_cant": "The displacements are random and the treatment of edges of order zero overwrites those of the corners in an order that depends on the edges; a test sees single draws.", "anchors": ["src/hookeai/data_generation/spdg/patch_generator.py: FiniteElementPatchGenerator._build_corners_bc", "src/hookeai/data_generation/spdg/patch_generator.py: FiniteElementPatchGenerator._build_corners_disp_range", "src/hookeai/data_generation/spdg/patch_generator.py: FiniteElementPatchGenerator._build_edges_poly_orders", "src/hookeai/data_generation/spdg/patch_generator.py: FiniteElementPatchGenerator._get_corners_random_displacements"]}
{"id": "C97", "title": "A deformed edge of a material patch is a polynomial curve between its displaced corners", "statement": "For every edge of a two-dimensional patch whose displaced corners are not degenerate, every deformation order and displacement range and all drawn values, the deformed edge has as many nodes as the reference edge, starts and ends exactly at the displaced corners, and its inner nodes are (up to the superimposed noise) on the graph, in the orthonormal frame of the edge with the second axis pointing out of the patch, of a polynomial of degree at most the order that vanishes at both ends and takes values within the declared displacement range at the control points. The nodes keep their relative spacing: they divide the polygon of 1000 points of the curve into pieces of equal length, in order along the edge. With order zero or one the edge stays straight and its nodes equidistant. A degenerate edge and a range that is not a pair are errors.", "quantifier": "all positions of the displaced corners, deformation orders, displacement ranges, numbers of nodes and drawn values", "why_tests_cant": "The curve is interpolated through random control points by solving a linear system, and the nodes are placed by inverting the arc length; a test sees a few random curves.", "anchors": ["src/hookeai/data_generation/spdg/patch_generator.py: FiniteElementPatchGenerator._rotation_tensor_deformed_edge", "src/hookeai/data_generation/spdg/patch_generator.py: FiniteElementPatchGenerator._polynomial_sampler", "src/hookeai/data_generation/spdg/patch_generator.py: FiniteElementPatchGenerator._get_deformed_boundary_edge"]}
{"id": "C98", "title": "A generated patch carries the displacements of the first admissible random deformation", "statement": "For every two-dimensional patch and specification with ranges for translation and rotation, whatever the geometric library answers and whatever values are drawn: if a patch is returned, it is that of the first iteration whose deformed boundary is a valid counterclockwise polygon, in which the corners are displaced as in C96, the edges deformed as in C97, and the whole boundary is rotated about its centroid by an angle within its range and translated within its range; the mesh is the regular mesh of C95, and exactly the boundary nodes of the mesh carry a displacement, which takes the node from its position in the mesh to its position on the deformed boundary. If none is returned, the deformations of all iterations were not admissible, and the flag says so. A well-formed specification whose corners never degenerate always gives a result. The rotation tensor is a rotation for all angles. Violated: None for the translation or rotation range, documented as no motion and the default, is a TypeError; and a patch of at most 1e-8 in both directions is returned with a displacement for one node only, because nodes are looked up by coordinates with an absolute tolerance.", "quantifier": "all element types, numbers of elements, patch dimensions, deformation specifications, numbers of iterations, drawn values and answers of the geometric library", "why_tests_cant": "Boundary nodes are matched to mesh nodes by comparing floating-point coordinates, and corners belong to two edges; a test sees a few meshes and random draws.", "anchors": ["src/hookeai/data_generation/spdg/patch_generator.py: FiniteElementPatchGenerator.generate_deformed_patch", "src/hookeai/data_generation/spdg/patch_generator.py: FiniteElementPatchGenerator._get_mesh_boundary_nodes_disps", "src/hookeai/data_generation/spdg/patch_generator.py: rotation_tensor_from_euler_angles", "src/hookeai/data_generation/spdg/patch.py: FiniteElementPatch"]}
{"id": "C99", "title": "Removing elements of a mesh keeps everything else", "statement": "LinksSimulator.remove_mesh_elements(remove_elements_labels, node_coords, elements, elements_mat_phase, node_disps, boundary_nodes_labels) returns the mesh without the listed elements and without the nodes that belong to removed elements only. The remaining elements are numbered from one in their old order, each with its nodes in order and its material phase; the remaining nodes are numbered from one in their old order, each with its coordinates; the elements refer to the new numbers of the same nodes and every displacement to the node it belonged to (None if none were given). Removing nothing from a mesh numbered from one changes nothing. The call succeeds exactly if no node of boundary_nodes_labels (if given) is lost, the nodes of the remaining elements have coordinates, and the displaced nodes have coordinates and are not lost; if a boundary node is lost and all listed labels exist, RuntimeError is raised. Two parts of the documented behaviour are false in the code, and their negations are proved: with displacements given for all nodes (as documented), an admissible removal that loses an interior node raises KeyError; and with an unknown label in the list, losing a boundary node raises KeyError instead of the documented error.", "quantifier": "all meshes with distinct labels (any number of nodes and elements, in any order, also nodes without elements), all lists of labels, all boundary lists or None, displacements given or not", "why_tests_cant": "the connectivity must be right for every combination of removed elements, shared nodes and label orders", "anchors": ["src/hookeai/simulators/links/links.py: LinksSimulator.remove_mesh_elements"]}
{"id": "C100", "title": "The two element-wise forward modes of the material model finder agree", "statement": "MaterialModelFinder.forward_sequential_element (loops over elements, integration points and times) and vforward_sequential_element (vectorised) compute the same thing from a specimen's displacement history: the same force equilibrium history loss, and the same local strain-stress samples (one for each integration point of each requested element, elements in mesh order), or the same error. This holds for infinitesimal strains, a valid mesh of equal elements with one quadrature rule and one recurrent model whose inputs and outputs are not scaled and whose parameters are synchronised, pointwise loss, and local paths stored for no elements, for all elements or for an increasing list of element labels. For one element the internal force histories at every time and the local samples of both modes are equal for every strain formulation. If no element is degenerate at an integration point and the model accepts every input, both modes return. Outside these conditions the modes disagree in the code, and this is proved: with scaled model outputs the loops use the scaled stresses; with a model that must be synchronised with its learnable parameters the loops never do so; with different models of one class the vectorised mode uses the model of element 1 for all elements without raising; with an unknown element label in the list of local paths the loops ignore it and the vectorised mode raises IndexError.", "quantifier": "all specimens (any mesh, element type, number of times, displacements, coordinates), all recurrent models as functions of the strain path, all component orders that list every symmetric component once, all loss settings with the pointwise loss", "why_tests_cant": "a comparison on a few meshes cannot show that storing, assembling and sampling agree for every mesh, model and history", "anchors": ["src/hookeai/material_model_finder/model/material_discovery.py: MaterialModelFinder.forward_sequential_element", "src/hookeai/material_model_finder/model/material_discovery.py: MaterialModelFinder.vforward_sequential_element", "src/hookeai/material_model_finder/model/material_discovery.py: MaterialModelFinder.compute_element_internal_forces_hist", "src/hookeai/material_model_finder/model/material_discovery.py: MaterialModelFinder.vcompute_element_internal_forces_hist", "src/hookeai/material_model_finder/model/material_discovery.py: MaterialModelFinder.build_element_local_samples", "src/hookeai/material_model_finder/model/material_discovery.py: MaterialModelFinder.build_elements_local_samples"]}
{"id": "C101", "title": "The recurrent constitutive model integrates strain paths causally and batch by batch", "statement": "RecurrentConstitutiveModel.forward maps strain paths to response paths: the response of a path is zero at time 0 and at every later time holds the stress components, followed by the requested state variables in their order, of the state reached from the initial state of the constitutive model by the state updates with the strain increments of the path up to that time. It returns exactly if every update along every path returns and, when failures are checked, none fails. Consequently the response of a path at a time does not depend on later strains, on the number of times, or on the other paths of the batch; an input without batch dimension gives the response of the batch of this path; adding a strain constant in time to a path changes nothing; the vectorised propagation gives the same response or error as the loops when there is at least one path and one time and the requested variables are always in the state and are not strain variables; for the isotropic elastic model every input is accepted and the stresses are Hooke's law of the strain less the strain at time 0. Three faults are proved: the strain at time 0 is ignored (a constant nonzero strain has no stress); with a strain variable (a name with strain_mf) among the state features the vectorised propagation always raises, and with a variable that the state does not hold it always raises while the loops return zeros.", "quantifier": "all constitutive models as deterministic state updates, all component orders that list every symmetric component once, all numbers of paths, times and features, all strain paths", "why_tests_cant": "causality, independence within a batch and agreement with the sequence of state updates are claims over all paths, lengths and models", "anchors": ["src/hookeai/model_architectures/rc_base_model/model/recurrent_model.py: RecurrentConstitutiveModel.forward", "src/hookeai/model_architectures/rc_base_model/model/recurrent_model.py: RecurrentConstitutiveModel._recurrent_constitutive_model", "src/hookeai/model_architectures/rc_base_model/model/recurrent_model.py: RecurrentConstitutiveModel._compute_stress_path", "src/hookeai/model_architectures/rc_base_model/model/recurrent_model.py: RecurrentConstitutiveModel._vrecurrent_constitutive_model", "src/hookeai/model_architectures/rc_base_model/model/recurrent_model.py: RecurrentConstitutiveModel._vcompute_stress_path"]}
{"id": "C102", "title": "Generated response data sets hold exact responses, which the recurrent constitutive model reproduces", "statement": "MaterialResponseDatasetGenerator.compute_stress_path reports success exactly if no state update along the strain path fails, and then returns the stresses and requested state variables of the successive states (zero at time 0); it reports failure exactly if a state update fails and those before do not. generate_response_dataset returns exactly if for each sample in turn one of the next ten generated strain paths succeeds; the data set then has the requested number of samples, and each is the response of the first path that succeeds, in the order of generation; a path with a failed update is never a sample. The recurrent constitutive model with the same constitutive model, given the strain path of a sample, returns the stresses and state variables of the sample exactly. Three faults are proved: an eleventh path is generated after ten failures and the error of no success is raised even if it succeeds; a requested variable that the state does not hold is silently missing in the samples, where the recurrent model returns zeros; with no paths requested it raises ZeroDivisionError.", "quantifier": "all constitutive models as deterministic state updates, all sequences of generated strain paths, all numbers of samples, all component orders that list every symmetric component once", "why_tests_cant": "strain paths are random and failures rare; which paths become samples and that samples are exact responses must hold for every sequence of draws", "anchors": ["src/hookeai/user_scripts/synthetic_data/gen_response_dataset.py: MaterialResponseDatasetGenerator.generate_response_dataset", "src/hookeai/user_scripts/synthetic_data/gen_response_dataset.py: MaterialResponseDatasetGenerator.compute_stress_path", "src/hookeai/user_scripts/synthetic_data/gen_response_dataset.py: MaterialResponseDatasetGenerator.build_tensor_from_comps", "src/hookeai/model_architectures/rc_base_model/model/recurrent_model.py: RecurrentConstitutiveModel.forward"]}
{"id": "C103", "title": "Pruning a time series data set moves the easiest samples to the unused set and loses none", "statement": "prune_time_series_dataset ends after at most max(n_iter_max, 0) + 1 iterations, whatever is drawn, trained and predicted. When it returns: the first iteration develops on the full data set; in every iteration the development samples, in their original order, and the unused samples are together exactly the full data set; every iteration divides the development samples into non-empty training and validation samples of the requested fractions, trains a model on exactly those, read back from the files written for it, and records the sizes and the mean losses on the unused samples and on the external testing data sets; no training or validation sample is an unused sample; between two iterations the development samples are divided into training, validation and testing samples of the requested fractions, and testing samples whose losses, by a model trained in the step, are smallest are moved to the unused samples, exactly as many as the schedule asks if the maximum testing ratio is at most one; the size limits hold before every step, and the status returned is the reason of the end. The data sets and the model of an iteration are on disk at the end if no later iteration has as many training samples. If every training succeeds and the fractions leave a sample for each subset down to a size no step goes below, the pruning returns; with the default parameters, for any ten samples or more. Five faults are proved: the minimum number of testing samples is compared with the number of development samples, so that fifty samples are pruned on a test of five though ten are required; the testing samples overwrite the validation samples of the step when they are as many, so that the model is validated on the samples it selects; a proportion below one sample prunes nothing and repeats the iteration up to the maximum number of iterations (default, twenty samples); an iteration overwrites the data sets of an earlier one with as many training samples; with nine samples and the default parameters the pruning raises instead of returning that the minimum size is reached.", "quantifier": "all data sets, all parameters with the documented subset names, all random permutations, all trainings and losses, all directory listing orders, all numbers of iterations", "why_tests_cant": "splits are random and trainings take hours; that no sample is lost, duplicated or leaked and that the loop ends must hold for every draw and every outcome of the trainings", "anchors": ["src/hookeai/miscellaneous/pruning/pruning_dataset.py: prune_time_series_dataset", "src/hookeai/miscellaneous/pruning/pruning_dataset.py: perform_pruning_step", "src/hookeai/miscellaneous/pruning/pruning_dataset.py: set_pruning_iter_dir", "src/hookeai/miscellaneous/pruning/pruning_dataset.py: set_pruning_step_dir", "src/hookeai/miscellaneous/pruning/pruning_dataset.py: read_samples_loss_from_dir", "src/hookeai/miscellaneous/pruning/pruning_dataset.py: get_n_prun_sample", "src/hookeai/miscellaneous/pruning/pruning_dataset.py: set_default_pruning_parameters"]}
{"id": "C104", "title": "The preview of a pruning announces the sizes of its iterations", "statement": "preview_pruning_iterations ends after at most max(n_iter_max, 0) + 1 lines. When it returns: the first line has the full data set as development samples, every other line has the scheduled number of samples less than the line before, the sizes of a line add up, and the preview ends after the maximum number of iterations or with the reason given. If the schedule is never negative and the maximum testing ratio is at most one, the preview and the pruning with the same parameters have the same numbers of development and unused samples in every iteration of both; the training samples of the pruning are as many as announced, or one more. Two faults are proved: the preview does not tell the number of iterations (fifty samples, default parameters: the preview ends after the first line, the pruning goes on), and not the training sizes (eleven samples, default parameters: 8 and 3 announced, 9 and 2 used).", "quantifier": "all sizes of the full data set, all parameters, all random permutations, trainings and losses of the pruning compared with", "why_tests_cant": "the agreement of the preview with the pruning must hold for every size, parameter and random draw, and running the pruning takes hours", "anchors": ["src/hookeai/miscellaneous/pruning/pruning_dataset.py: preview_pruning_iterations", "src/hookeai/miscellaneous/pruning/pruning_dataset.py: prune_time_series_dataset", "src/hookeai/miscellaneous/pruning/pruning_dataset.py: get_n_prun_sample"]}
{"id": "C105", "title": "A specimen mesh written to a file is read back", "statement": "For every mesh (at least one node, coordinates of the same width not below the problem dimension, elements made of its nodes and using all of them, prescribed displacements of its nodes), the file written by write_adimu_mesh_data_file, read by get_specimen_mesh_from_inp_file with one of the six known element types, gives the node coordinates rounded to the digits written, elements labelled from 1 of the kind the type stands for, their connectivities, and a Dirichlet mark 1 for exactly the degrees of freedom with a prescribed displacement. Whatever the file, a mesh that is read has nodes of the same width not above the dimension, elements of known kinds with nodes of the mesh only, and marks 0 or 1. Three faults are proved: node labels in the file are ignored (the order of the lines decides), an element label given twice silently drops the first element and leaves a node without element, and a displacement prescribed for a node 0 is taken for the last node.", "quantifier": "all meshes of any size, all element types of the table, all prescribed displacements, all texts of the numbers that are read back; for the checks all files", "why_tests_cant": "the file format is written and read by two scripts with no common code; agreement must hold for every mesh size, label width and number format, and the checks for every text", "anchors": ["src/hookeai/user_scripts/global_model_update/material_finder/gen_specimen_data.py: get_specimen_mesh_from_inp_file", "src/hookeai/user_scripts/global_model_update/material_finder/gen_specimen_data.py: elem_type_abaqus_to_fetorch", "src/hookeai/simulators/links/utilities/links_data_to_adimu.py: write_adimu_mesh_data_file"]}
{"id": "C106", "title": "The mesh of a Links simulation is recovered from its input data file", "statement": "For every simulation (nodes of the same width, elements of the same number of nodes, labels 1, 2, ..., a material phase below 1000 for every element, three prescribed displacements, or two in the plane, of some nodes, no section keyword in the title, the other parameters or the materials), the input data file written by the Links simulator is read by the extraction functions as the same element type and number of Gauss points, the node coordinates rounded to the digits written, the connectivities, and the prescribed displacements of exactly the nodes that have them, in the order of the labels. The line of the Gauss points is recognised exactly by the whole word GP in upper or lower case. Converted to a specimen mesh file by gen_adimu_data_from_links and read by get_specimen_mesh_from_inp_file, it gives the mesh back with marks of exactly the degrees of freedom of the nodes with prescribed displacements. Four faults are proved: simulations with eight-noded quadrilaterals are written but never converted; with the title 'Tension of 8 elements' the extraction of the connectivities raises; a displacement None (a free degree of freedom, for which a code 0 is foreseen) cannot be written; with material phases of four digits the first node of every element is silently lost.", "quantifier": "all meshes, prescribed displacements, parameters and materials without keywords, all texts of the numbers that are read back", "why_tests_cant": "labels, material phases and numbers are written with minimal widths and read by splitting at blanks and searching keywords: whether this always agrees depends on every label, number and title", "anchors": ["src/hookeai/simulators/links/links.py: LinksSimulator._write_links_input_data_file", "src/hookeai/simulators/links/links.py: LinksSimulator._get_links_elem_type_data", "src/hookeai/simulators/links/utilities/links_data_to_adimu.py: gen_adimu_data_from_links", "src/hookeai/simulators/links/utilities/links_data_to_adimu.py: extract_mesh_connectivities_from_links_data", "src/hookeai/simulators/links/utilities/links_data_to_adimu.py: extract_mesh_dirichlet_from_links_data"]}
{"id": "C107", "title": "The history of a Links simulation becomes the history of the specimen", "statement": "For every simulation with one table of nodal results per time step (eighteen columns, a row per node, distinct step numbers in the file names, with or without leading zeros) in a directory with files of other types, listed by the system in any order, the conversion of gen_adimu_data_from_links writes history files which, listed in any order, are collected and read by get_specimen_history_paths and get_specimen_numerical_data as the displacements and reactions of every row at every time step, in the order of the step numbers, with marks of exactly the prescribed degrees of freedom, up to the rounding of the numbers. read_links_simulation_results gives the same tables in the same order. Seven faults are proved: the times of the history are 0, 1, 2, ..., not the times recorded; the nodes are the rows of the tables, whatever node a row names; a backup copy 'name_tstep_0.csv.bak' is taken as a time step of its own; node data of a simulation whose name begins with the name of this one become time steps of it; without node data the conversion raises an IndexError while the results are read as None; the results of a single node cannot be read; gen_specimen_dataset raises an UnboundLocalError if either file is not saved.", "quantifier": "all tables, step numbers and their texts, listing orders of both directories, root directories, names, prescribed displacements", "why_tests_cant": "os.listdir gives the files in an arbitrary order and the steps are found in the file names with regular expressions: whether they are sorted correctly depends on every name and on every listing order", "anchors": ["src/hookeai/simulators/links/utilities/links_data_to_adimu.py: gen_adimu_data_from_links", "src/hookeai/simulators/links/utilities/links_data_to_adimu.py: collect_node_data_files_from_links_data", "src/hookeai/simulators/links/utilities/links_data_to_adimu.py: write_adimu_mesh_hist_data_files", "src/hookeai/user_scripts/global_model_update/material_finder/gen_specimen_data.py: get_specimen_history_paths", "src/hookeai/user_scripts/global_model_update/material_finder/gen_specimen_data.py: get_specimen_numerical_data", "src/hookeai/simulators/links/links.py: LinksSimulator.read_links_simulation_results"]}
{"id": "C108", "title": "Noise of a path has the shape of the path and stays within the amplitude", "statement": "For every path shape, distribution, parameters, weights and random numbers, NoiseGenerator.generate_noise_path returns noise of the shape of the path. Uniform noise of amplitude amp is amp times the centred uniform number, plus, for heteroscedastic noise, the weight of the time times another one: it never exceeds amp/2 times one plus the weight. Gaussian noise is the deviation times a standard normal number, plus the weighted other one, plus the spikes of the spiked distribution. A generator is set up exactly by a known distribution followed by parameters among which are the ones required. Six faults are proved: the default weights, documented as homoscedastic noise, double the range of the noise; a weight of zero does not remove the noise although weights are documented as scaling its variance; after a change of the distribution the former parameters are kept and the next noise raises a KeyError; an unknown variability is an UnboundLocalError; a negative deviation is accepted as a parameter and refused at every noise with a ValueError; too few weights are an IndexError.", "quantifier": "all path shapes, distributions, parameters, weights and outcomes of the random draws", "why_tests_cant": "the bound must hold for every outcome of the random draws and for every weight; a test sees a few draws", "anchors": ["src/hookeai/data_generation/strain_paths/noise_generator.py: NoiseGenerator.generate_noise_path", "src/hookeai/data_generation/strain_paths/noise_generator.py: NoiseGenerator.set_noise_distribution", "src/hookeai/data_generation/strain_paths/noise_generator.py: NoiseGenerator.set_noise_parameters", "src/hookeai/data_generation/strain_paths/noise_generator.py: NoiseGenerator.get_required_parameters"]}
{"id": "C109", "title": "Noisy response data sets: noise on the strain paths, stress recomputed", "statement": "NoisyMaterialResponseDatasetGenerator.generate_noisy_dataset(noiseless_dataset, ...) returns one sample per path of the noiseless data set, in order. The strain of a sample is the noiseless strain plus noise from the noise generator (added in the normalized space if a data scaler is given, so that its effect is scaled by half the range resp. the standard deviation of the component; weighted with the strain norm over the normalizer if heteroscedastic; denoised by a moving average if requested), with zero noise at the initial time; the stress and state variable paths are the response of the constitutive model to this strain path; trials whose state update fails are drawn again, at most ten times. The stored strain noise is the noise drawn, the stored stress noise the difference of the stresses. Every sample begins with the noiseless strain; with uniform noise no strain deviates by more than half the amplitude times one plus the weight; with amplitude zero the noiseless data set is returned. Violated: without a normalizer the largest norm of the first path, not of each path, is used for all, and weights exceed one; heteroscedastic noise raises NameError if the module is imported; denoising raises RuntimeError in single precision, which is the default; denoising with a data scaler assigns the normalized initial strain; state variables that the constitutive model does not have raise KeyError although documented as ignored; an empty data set raises ZeroDivisionError.", "quantifier": "every constitutive model, strain formulation, noiseless data set, noise generator, data scaler, normalizer and sequence of random draws", "why_tests_cant": "the noise is random, and retries, weights and scalers interact; a test compares a few seeds, not all draws and data sets", "anchors": ["src/hookeai/user_scripts/synthetic_data/gen_noisy_response_dataset.py: NoisyMaterialResponseDatasetGenerator.generate_noisy_dataset, compute_stress_path, compute_norm_path", "src/hookeai/data_generation/strain_paths/noise_generator.py: NoiseGenerator.generate_noise_path", "src/hookeai/utilities/data_scalers.py: TorchMinMaxScaler, TorchStandardScaler"]}
{"id": "C110", "title": "Load increments of Links simulations", "statement": "The load increments prepared for a Links simulation are as many as announced, and the total load factor (the sum of the increments so far) stays between -1 and 1. Proportional and cyclic loadings are prepared exactly if there is an increment for every unit of load; the load goes to one, then at every reversal to zero and back (cyclic_plus) or to minus one and back (cyclic_sym) in equal increments, and rests when the reversals are done; without change of sign it is never negative. Polynomial loadings follow the polynomial through the control points, which vanishes at the start, scaled by its largest absolute value if that exceeds one. Reading the load factors of the input data file of the simulation gives back these increments, rounded to the digits written, and their totals. The code violates this for titles containing the word 'increments' (they are taken for the keyword), for files without increments (UnboundLocalError instead of an error message), and for files with fewer increments than announced (accepted, the load drops to zero).", "quantifier": "every loading, number of reversals, number of increments, number of control points and drawn load factors, every text formatting of numbers that can be read back, every simulation written, every text around the increments", "why_tests_cant": "The loading is random, and the increments depend on the divisibility of the number of increments by the number of branches; a test sees one sample and a few numbers.", "anchors": ["src/hookeai/simulators/links/links.py:LinksSimulator._get_links_loading_incrementation", "src/hookeai/simulators/links/utilities/links_plot_tfact.py:plot_links_tfact_hist"]}
{"id": "C111", "title": "Yield surfaces in pi-stresses", "statement": "The pi-stresses in which yield surfaces are plotted are orthonormal coordinates of the principal stresses: one triple for each state of stress, the third being sqrt(3) times the pressure, and the invariants of the deviator depending on the other two only. The value at a point is the yield function divided by the yield stress: for von Mises and Drucker-Prager it agrees with the yield function of the material model up to 2e-5 in units of stress, so the surfaces are a cylinder and a cone around the hydrostatic axis; for Lou-Zhang-Yoon it is the effective stress with the same small shift of J2, NaN where a root of a negative number would be taken. With the parameters the pipelines derive from the friction angle, Drucker-Prager matches Mohr-Coulomb under uniaxial tension and compression, von Mises of sqrt(3) times the stress for null pressure, and Lou-Zhang-Yoon with c = d = 0 and matching b everywhere. Unknown names and missing parameters are errors. The plotted slice of each model has all its points, in counter-clockwise order around their mean, closed. The code violates this for small yield stresses (the von Mises surface is empty), for the first invariant of the deviatoric stress (it is that of the stress) and for the range of the second dimension of the grid (negative).", "quantifier": "every point in stress space, every model name, every set of parameters, every positive yield stress, every friction angle and cohesion, every list of points in the slices", "why_tests_cant": "The claims are identities and inequalities over all real stresses and parameters; a grid of points checks neither the equivalence of two surfaces nor that one is never left out.", "anchors": ["src/hookeai/miscellaneous/materials/plot_yield_surface.py: yield_function, yf_von_mises, yf_drucker_prager, yf_lou_zhang_yoon, get_stress_invariants, pi_to_principal, batched_yield_function, plot_yield_surface, plot_yield_surface_pi_plane", "src/hookeai/miscellaneous/materials/compare_material_models.py", "src/hookeai/user_scripts/synthetic_data/gen_response_dataset.py"]}
{"id": "C112", "title": "Deformed material patches in three dimensions", "statement": "Generating a deformed solid patch returns a patch and the admissible flag in the first iteration (with no iteration allowed: no patch and no flag). Its mesh is the structured mesh of the brick. Corners are displaced as declared; each of the edges of the six faces is deformed in the plane of its face, with the polynomial order declared (zero as soon as it is zero on one of the two faces), with node positions at equal fractions of arc length of the sampled curve; all is rotated by the three Euler angles about the mean of the corners and translated by values from the declared ranges. Exactly the boundary nodes get a displacement: nodes of an edge move to the mean of their positions on the two faces, nodes inside a face are interpolated between the opposite edges, so that every component stays within the bounds of the edge nodes. Edges of order at most one without noise stay straight and uniformly divided, and an undeformed, unrotated patch is displaced by one vector. Well-formed specifications with non-degenerate corners are accepted. Violated: None for translation or rotation (the default, documented as no motion) raises TypeError; a rigid rotation is not reproduced at the nodes inside the faces, because the weights are i/n instead of i/(n-1); a deformation that turns the brick inside out is flagged as admissible.", "quantifier": "all patch sizes, element types, numbers of elements, corner, edge, order and motion specifications, all values drawn, all iteration orders of the sets of edges", "why_tests_cant": "the draws are continuous and random, the number of nodes is unbounded, and the displacement of every boundary node depends on all edges", "anchors": ["src/hookeai/data_generation/spdg/patch_generator.py: FiniteElementPatchGenerator.generate_deformed_patch, _rotation_tensor_deformed_edge, _transform_to_edge_local_coordinates, _transform_from_edge_local_coordinates, _get_random_rigid_motions, _get_mesh_boundary_nodes_disps, _get_matching_edges_idxs", "src/hookeai/data_generation/spdg/patch.py: FiniteElementPatch.__init__"]}
{"id": "C113", "title": "Numbers written to mesh and simulation files are read back to nine significant digits", "statement": "A number written by the file writers in scientific notation with p digits after the point ('{:16.8e}' for coordinates, displacements and load factors, '{:11.4e}' for specimen boundary conditions) is read back by float() as the number rounded to p+1 significant digits: at most half a unit of the last digit away (relative error at most 5e-9 for p = 8), with the same sign, in the same order, and distinct if further apart than a unit of the last digit. A number that has been read is written with the same text and is not changed by being written and read again, so passing a mesh from a Links input data file through a specimen mesh file rounds its coordinates once. The coordinates of a mesh read from a specimen mesh file, those passed through both files and the load factors read from the input data file of a simulation have a relative error of at most 5e-9. A field is separated from what precedes it by a blank for zero and numbers between 1e-99 and 1e99 if it is wide enough. Violated by the code: a negative number with an exponent of three digits (-1e-100) fills its field of 16 characters and the prescribed displacements beginning with it cannot be read.", "quantifier": "all real numbers, numbers of digits and field widths; all meshes, Dirichlet conditions and load settings", "why_tests_cant": "The rounding, the carry to the next power of ten, ties and widths depend on every digit and exponent of the number; tests format a few numbers.", "anchors": ["src/hookeai/simulators/links/links.py: _write_links_input_data_file, _get_links_loading_incrementation", "src/hookeai/simulators/links/utilities/links_data_to_adimu.py: write_adimu_mesh_data_file, extract_mesh_coordinates_from_links_data, extract_mesh_dirichlet_from_links_data", "src/hookeai/user_scripts/global_model_update/material_finder/gen_specimen_data.py: get_specimen_mesh_from_inp_file"]}
{"id": "C114", "title": "Tensile specimen boundary conditions: symmetry planes, base and loaded top, written and read back", "statement": "For the available specimens, the node generator prescribes exactly the directions normal to the planes a node is on up to 1e-8 (x = 0, y = 0 or the top, z = 0) with zero displacement, except the displacement of the top along the second direction for nodes on the top and not on the base; other specimen names are rejected. The conditions of a mesh are those of its nodes on these planes, each node once, in the order of the nodes. The file written has the number of nodes, a line for each and the group of the loaded nodes (those on the top and not on the base, if the displacement exceeds 1e-8), and the Links reader reads exactly these conditions from it, displacements rounded to five significant digits, for displacements zero or between 1e-99 and 1e99; also when the nodes come from the input data file of a simulation. Meshes in the plane raise IndexError for nodes off the axis. Violated by the code: a negative displacement (compression) glues the numbers of a line, so that the file cannot be read, and leaves the group of loaded nodes empty; a top coordinate that does not have nine digits (100/3) is not recognised in coordinates read from a file, so the top is left free.", "quantifier": "all meshes, top coordinates, displacements and node coordinates", "why_tests_cant": "The cascade of eleven branches and the field widths must be right for every position relative to the planes and every displacement; tests use a few nodes.", "anchors": ["src/hookeai/simulators/links/utilities/links_specimen_dirichlet.py: build_specimen_dbc, get_specimen_node_dbc, build_node_disps, write_links_dirichlet_bc_file, read_links_nodes_coords_mesh", "src/hookeai/simulators/links/utilities/links_data_to_adimu.py: extract_mesh_dirichlet_from_links_data"]}
{"id": "C115", "title": "Meshes and displacements survive the conversion between Links and ABAQUS files", "statement": "Converting an ABAQUS input file that the specimen reader accepts (elements labelled 1, 2, ... and of one size, boundary lines with node, first direction, last direction and displacement) gives a Links file from which the Links readers get the same node coordinates (to the nine digits written), the same connectivities and, for each node and each of the directions 1 to 3, the displacement of the last boundary line that prescribes it, and no other. A Links file with a supported element type, converted to an ABAQUS file and back, keeps mesh and prescribed displacements, so that an input data file written by the simulator interface loses nothing but what its first writing loses. Exceptions in the code: the Links file written has no element type, so it can never be converted to an ABAQUS file again (UnboundLocalError); node labels are ignored; element labels other than 1, 2, ... raise a KeyError; a boundary line without a displacement (a fixed node, accepted by the specimen reader) raises an IndexError.", "quantifier": "every ABAQUS and Links file text, number formatting and reading, mesh, dimension and set of prescribed displacements", "why_tests_cant": "the property ranges over all files, meshes and numbers; a test converts a few files", "anchors": ["src/hookeai/simulators/links/utilities/links_dat_to_inp.py: links_dat_to_abaqus_inp, abaqus_inp_to_links_dat"]}
{"id": "C116", "title": "Stored predictions are read back by sample, component and model", "statement": "make_predictions_subdir returns the first directory prediction_set_k that does not exist, whatever exists already, and always returns. Storing the results of samples 0..N-1 with save_sample_predictions in a directory without other prediction files leaves one file for each sample, holding its results. From such a directory, listed in any order and with any other files, build_prediction_data_arrays returns, for each component (label), the pairs (ground truth, prediction) of that output feature: sample after sample in the requested order, time after time in each sample; without a request, all the samples. A requested sample without a file raises RuntimeError. So do a requested sample outside the data set, whatever the directories hold, an unknown prediction type and loading the file of a sample that does not exist; more labels than features raise IndexError. build_time_series_predictions_data returns, for each component, a dictionary whose keys are exactly the requested samples; its arrays hold in each row the time, the ground truth, the prediction of the first model and then the prediction of each other model in order. With uncertainty quantification the models are the directories model_k in the order of k, however they are listed. The code violates what is documented in four cases: predictions without ground truth raise TypeError, not the RuntimeError that names the sample; the accumulated plastic strain raises KeyError for all results stored by predict; only the number of labels counts, so that plastic strain components give the arrays of the stress components; a directory model_k_old is taken for a model.", "quantifier": "all directory contents and listing orders, all numbers of samples, components, time steps and models, all requests", "why_tests_cant": "listing order depends on the file system and the pairing of samples, components and models must hold for all of them", "anchors": ["src/hookeai/model_architectures/procedures/model_prediction.py: make_predictions_subdir, save_sample_predictions, load_sample_predictions", "src/hookeai/model_architectures/materials/process_predictions.py: build_prediction_data_arrays, build_time_series_predictions_data"]}
{"id": "C117", "title": "Mean prediction metrics: means over the samples, file and convergence data", "statement": "For a directory with the stored predictions of N samples, listed in any order, compute_directory_prediction_metrics returns N and, for each requested metric and feature, the mean over the samples of the root mean square error (rmse) or of its ratio to the mean absolute value of the ground truth (nrmse); the latter is a finite number exactly if no sample has a ground truth that is zero throughout. An unknown metric raises RuntimeError if there are samples. compute_processes_prediction_metrics stores the results of each directory under its label and appends them to the file in order. read_mean_metrics_results_file returns from such a file the metrics of the first process, or of the first process with the given number of samples, rounded to nine significant digits, whatever the labels (lines that do not contain 'n_sample ='), the numbers of processes, metrics and features; without such a process it raises RuntimeError; overwriting discards what was in the file. The convergence plot orders the processes by training set size, whatever their order, and pairs each size with the metric of each feature. The code violates what is meant in three cases: a file with an infinite or undefined metric (as written for a ground truth that is zero) cannot be read (AttributeError); processes with other labels make the convergence plot raise AttributeError, as the result of the search is not compared with None but the built-in id is; a directory with other files only gives an empty mean without an error, even for an unknown metric.", "quantifier": "all numbers of samples, features, metrics and processes, all values, listing orders, labels and numbers requested", "why_tests_cant": "file round trips depend on the texts of all numbers and labels, and means on all samples and listing orders", "anchors": ["src/hookeai/utilities/output_prediction_metrics.py: compute_processes_prediction_metrics, compute_directory_prediction_metrics, get_samples_prediction_files, compute_mean_prediction_metrics, write_mean_metrics_results_file, read_mean_metrics_results_file, format_mean_metrics_results, plot_prediction_metrics_convergence"]}
{"id": "C118", "title": "Parameters of all material models are collected, bounded and kept under their labels", "statement": "For a specimen with any number of material models, hybrid or not, the material model finder collects the physical value and the declared bounds of every explicit learnable parameter under one label (model_<key>_<submodel>_<parameter> or model_<key>_<parameter>), values and bounds under the same labels in the same order; models without explicit parameters contribute nothing. If the labels are distinct, which holds when keys and submodel names have no underscore, every parameter is found under its label. Enforcing the bounds clamps each parameter to its own bounds, leaves everything else unchanged and is idempotent. Hybrid models collect <submodel>_<parameter> likewise. Labels can coincide when a submodel name contains an underscore, in which case a parameter is lost, and the training of hybrid models does not enforce parameter constraints.", "quantifier": "all specimens, all hybrid structures, all states reached by training, all parameter names and bounds", "why_tests_cant": "The number of models, their nesting, names and values are unbounded; a label collision depends on the combination of names.", "anchors": ["src/hookeai/material_model_finder/model/material_discovery.py: get_detached_model_parameters, get_model_parameters_bounds, enforce_parameters_bounds, enforce_parameters_constraints", "src/hookeai/model_architectures/hybrid_base_model/model/hybrid_model.py: get_hybridized_model, get_detached_model_parameters, get_model_parameters_bounds", "src/hookeai/model_architectures/hybrid_base_model/train/training.py: train_model"]}
{"id": "C119", "title": "Training of the material model finder and the parameters it records", "statement": "A training of the material model finder runs the epochs 0 to E, where E is n_max_epochs or the first epoch at which the parameters have converged: more than min_hist_length and more than trigger_tolerance values have been recorded, and none of the last trigger_tolerance changes of any parameter reaches the tolerance. For each epoch the loss of the state before the step and the value of each parameter after the step, with bounds and constraints enforced, are recorded. The best state saved last is that of the last epoch with the smallest loss, the best parameters are those of that state, states are saved at the requested epochs and at the end, and the smallest loss is returned with the first epoch that reached it. If the optimiser keeps the parameters and their bounds, all recorded values, the best parameters and the final parameters lie in the bounds. In the other trainings the loss of an epoch is the mean over its steps. Violations: the best state and parameters are those after the step, while the loss is that before it, so the state saved as best need not have the best loss; if the first loss is NaN no best state is saved and the training ends in an UnboundLocalError; n_max_epochs = 0 divides by zero; a trigger of zero compares the whole history; without parameters the criterion fails; the value recorded for a parameter of a recurrent or hybrid model also averages the last value before the epoch; and if both stopping criteria are used, a training whose early stopping criterion is met continues from the restored state.", "quantifier": "all losses (with NaN and infinities after the first epoch), optimisers, numbers of epochs, stopping criteria, histories and material models", "why_tests_cant": "The epoch at which a training stops, the best state and the recorded values depend on the whole history of losses and parameters, and the optimiser is arbitrary.", "anchors": ["src/hookeai/material_model_finder/train/training.py: train_model", "src/hookeai/model_architectures/rc_base_model/train/training.py: train_model, check_model_parameters_convergence", "src/hookeai/model_architectures/hybrid_base_model/train/training.py: train_model"]}
{"id": "C120", "title": "Reaction histories of Dirichlet sets", "statement": "The material model finder records, for each label of the first time in increasing order, the total of the internal minus external forces of each time over the degrees of freedom with that label; the rows add up to the total force, and the exported table has a row for each time and a column for each label. The script that builds the same histories from the files of a specimen records, for each dimension and label, the total of the reactions over the nodes with the label, and these nodes. If the labels pass the check and the internal minus external forces are the reactions at the constrained degrees of freedom, both give the same row for every positive label. Copying labels between two histories of the same length gives every target file the labels of the source, row by row, and keeps all other columns. Violations: the columns are named SET 0, SET 1, ... by position, so SET 0 is a constrained set if no degree of freedom is free; labels that change are ignored after the first time; reactions read from files cannot be flattened with view(-1), so the loss components of Dirichlet sets fail for two or more nodes; copying from an incomplete source fails after some target files have been changed; and copying from a smaller mesh drops labels without an error.", "quantifier": "all meshes, labels, forces, numbers of times and history files", "why_tests_cant": "Labels, forces and histories are arbitrary; agreement of the two computations must hold for every labelling.", "anchors": ["src/hookeai/material_model_finder/model/material_discovery.py: compute_dirichlet_sets_reaction_hist, store_dirichlet_sets_reaction_hist, force_equilibrium_loss_components_hist", "src/hookeai/user_scripts/global_model_update/utilities/process_specimen_data.py: build_dirichlet_sets_reaction_history, copy_dbc_labels", "src/hookeai/user_scripts/global_model_update/material_finder/gen_specimen_data.py: get_specimen_numerical_data"]}
{"id": "C121", "title": "Uniaxial stress paths have the prescribed axial strains and small lateral stresses", "statement": "A uniaxial stress path has a strain for each prescribed axial strain, with that axial strain and without shear strains, and its stresses are exactly the ones that the material model (with temperature and composition as further inputs of a network) gives for the returned strains. For a material model whose stresses do not depend on later strains, the lateral strains of each time are Newton iterates for vanishing lateral stresses; the iteration stops at the first iterate whose lateral stresses are below the tolerance relative to the axial strain, and then the returned lateral stresses are below it. For laws that are affine in the lateral strains every path is accepted and the lateral stresses are at most the tolerance times the axial strain. The claim fails in these cases: iterations that do not converge are accepted silently, also with the default 30 iterations; the first axial strain is zero whatever is prescribed; the first stress may have lateral stresses; and shear stresses are not considered, so that the stresses of an anisotropic material are not uniaxial.", "quantifier": "all material models, all prescribed strain histories of any length, all tolerances, iteration limits, temperatures and compositions", "why_tests_cant": "Convergence at every time of every history is a statement over all laws and paths; a test runs the script for a few materials for which Newton's method converges.", "anchors": ["src/hookeai/user_scripts/complete_pipelines/evaluate_gru_model.py: get_uniaxial_stress_path, forward_material_model, forward_gru_material_model, build_gru_features_in, forward_vm_material_model"]}
{"id": "C122", "title": "Records of a training are read back and shown at their epochs", "statement": "Whatever the model directory contains, a saved loss history, its learning rate history, parameters history and best parameters are read back exactly, other files are unchanged, a missing record is reported with RuntimeError, and so is a learning rate history that was not saved. A record without the nature or type of the loss, or whose training losses are not a list, is reported with RuntimeError too. Learning rate schedulers are built exactly for the three known names with their required arguments, and the steps of every epoch use the documented learning rate of the scheduler for that epoch. The figures of the training show every training loss, validation loss and recorded learning rate exactly once, at the epoch of its place in the history, and a learning rate history of another length is reported with RuntimeError. The claim fails in these cases: with a scheduler the learning rate recorded for an epoch is the one of the following epoch, so that the initial learning rate is never recorded; an interruption while saving loses the previous record as well; and a step size of zero is accepted and fails in the first epoch.", "quantifier": "all histories of any length, directory contents, schedulers and their arguments, numbers of epochs and interruption points of a save", "why_tests_cant": "The recursive learning rate updates agree with the documented rates for every epoch only by induction, and the records must survive for every history and directory; tests save one short history.", "anchors": ["src/hookeai/model_architectures/procedures/model_training.py: save_loss_history, read_loss_history_from_file, read_lr_history_from_file, plot_training_loss_history, plot_training_loss_and_lr_history", "src/hookeai/utilities/optimizers.py: get_learning_rate_scheduler", "src/hookeai/model_architectures/rc_base_model/train/training.py: save_parameters_history, read_parameters_history_from_file, save_best_parameters, read_best_parameters_from_file", "src/hookeai/model_architectures/rnn_base_model/train/training.py: train_model"]}
{"id": "C123", "title": "Connected nodes, edge nodes and rotations of a patch", "statement": "For every plane mesh that the patch generator builds, the connected nodes are exactly the pairs of nodes at successive positions of the grid along one of its dimensions, each pair once and with the smaller label first; in three dimensions they are refused. The edge nodes of a generated patch are exactly the boundary nodes in two dimensions, and the nodes with at least two coordinates at an end of their dimension in three. The rotation angle of two plane vectors is the angle in (-180, 180] by which the first is turned counterclockwise to the direction of the second, zero vectors give 0, and vectors without two components are refused. The mean rotation of vectors that all turn by one angle is this angle, and different numbers of vectors are refused. Violated: the mean of rotations by 180-e and 180+e degrees is 0 rather than 180, and the mean of no vectors is NaN.", "quantifier": "every element type, number of elements and patch dimensions (structured meshes up to 2^50 nodes per dimension), every pair of plane vectors, every list of vectors", "why_tests_cant": "The claims range over all mesh sizes and element types and over all real vectors; the wrap-around shows only for turns near 180 degrees.", "anchors": ["src/hookeai/data_generation/spdg/patch.py: get_mesh_connected_nodes, get_boundary_edges_nodes_labels, rotation_angle_2d, mean_rotation_angle_2d"]}
{"id": "C124", "title": "Noise in the displacement histories of specimens", "statement": "Injecting uniform or Gaussian noise into the history files of a specimen writes, in the new directory, one table for each time step under the same name. The first time step is as it was; in the others each displacement changes by the noise drawn for it (at most half the amplitude for uniform noise) and every other entry is unchanged. Denoising writes one table for each time step with the denoised displacement history of each node and zero displacements in the first step, other entries unchanged; moving averages keep the bounds of the displacements. The data files and other directories are never changed. Violated: histories as they are written and read by the package have thirteen columns and are refused after the first step; what is written is refused by the reading of histories; an empty directory name deletes the data; without time steps an earlier result is deleted; the initial step of a second specimen gets noise; initial displacements are deleted even without denoising; in single precision the moving average refuses every history.", "quantifier": "every directory of tables in any order of files, every number of steps and nodes, every amplitude or deviation and random draws, every denoiser and number of cycles", "why_tests_cant": "The claim ranges over all histories, file orders and random draws, and over the crash points at each file of the sequence.", "anchors": ["src/hookeai/miscellaneous/noisy_data/inject_disp_noise_csv.py: inject_displacements_noise", "src/hookeai/miscellaneous/noisy_data/denoise_disp_noise_csv.py: denoise_displacements_noise"]}
{"id": "C125", "title": "Links simulations: material blocks, input files and runs", "statement": "The block of a material phase in a Links input file starts with the phase and the name of the model and has a line for each group of descriptors of that model (elastic: density, elastic constants; von Mises, Drucker-Prager and Lou: also the angles or yield parameters and the points of the hardening curve at equally spaced plastic strains from 0 to 2); split at blanks, each line gives its numbers back to nine digits. Blocks are written only for the four known models and with all their required descriptors. Generating an input file ends; without overwriting the name is new and no file of the directory changes; what is given by the user replaces the default parameters of the same name; an unknown type of analysis, a mesh that cannot be made and a phase without descriptors are noticed before any file changes. A run is reported as successful exactly if the screen file has the closing sentence of Links. Violated: errors in the material blocks come after the file has been opened, so the earlier file is left empty; labels such as '01' pass the check and are not found afterwards; the file of the loading incrementation is replaced even without overwriting; parameters with unknown names are ignored; negative numbers with exponents of three digits are glued to the next number; the screen file of an earlier run makes a failed run a success.", "quantifier": "all descriptors, numbers, hardening laws and numbers of points; all directories, file names and parameters; all effects of the program on its output directory", "why_tests_cant": "a test writes a few materials into an empty directory; the claims range over all descriptors and directories and over all behaviours of the external program", "anchors": ["src/hookeai/simulators/links/links.py: generate_input_data_file, run_links_simulation, _write_links_input_data_file, _get_links_default_input_params", "src/hookeai/simulators/links/models/links_elastic.py: _format_material_descriptors", "src/hookeai/simulators/links/models/links_von_mises.py: _format_material_descriptors", "src/hookeai/simulators/links/models/links_drucker_prager.py: _format_material_descriptors", "src/hookeai/simulators/links/models/links_lou.py: _format_material_descriptors"]}
{"id": "C126", "title": "Outputs of Links arrive in history files and response datasets", "statement": "Exporting the node data of a Links simulation gives exactly one csv file per time step, numbered from zero in the order of the step numbers whatever the order in which the directory is listed, with the label, coordinates, displacements and reactions of every node, and replaces an earlier export. Adding marks of prescribed displacements to these files gives the same history files as the direct conversion of the simulation, and marking files again replaces their marks. For sets of nodes that have no node in common, every prescribed direction of every set gets a positive label of its own that marks this direction of the nodes of the set and nothing else; a node in two sets is refused. The path of a Gauss point in three dimensions has the times and stresses of its output file and strains whose double contraction with any stress is the sum of the products of the components in the file. Violated: missing steps are closed up so the numbers of files are not those of the steps; a failing export has already deleted the earlier one; a path with a final separator exports the files of all simulations under an empty name; a failing update of marks leaves the earlier files changed; the sets of nodes are those of one specimen, so that other meshes raise or are marked at its nodes; files of plane problems cannot be read.", "quantifier": "all simulations, step numbers, listings, tables, marks, sets of nodes and Gauss point files", "why_tests_cant": "Tests convert one simulation; the order of listings, the numbers of steps, the contents of tables, the sets and earlier contents of directories are unbounded.", "anchors": ["src/hookeai/simulators/links/utilities/links_nodedata_to_csv.py: links_node_output_to_csv", "src/hookeai/simulators/links/utilities/links_data_to_adimu.py: generate_dirichlet_sets, update_adimu_mesh_hist_data_files_dirichlet", "src/hookeai/simulators/links/utilities/links_out_to_dataset.py: build_dataset, extract_sample_path"]}
{"id": "C127", "title": "A recurrent constitutive model is rebuilt from its initialization file and keeps its material parameters to itself", "statement": "A recurrent constitutive model that saves its initialization file may be trained, compute, have its scalers set and be saved any number of times in any order: the model initialized from its directory has the same arguments, learnable parameters and bounds, the current scalers and the initial values of the learnable parameters, and given the current values it computes with the same material parameters as the model. Computations with a model do not change the material parameters of a model with another dictionary, and a model initialized from a file shares its dictionary with no existing model. Violated: the options of synchronisation and of the check of failed state updates are not in the file, so a model built without them is rebuilt with them; a model without directory, which is documented, cannot be built unless told not to save the file; two models given the same dictionary of material parameters change each other's parameters, and that of the caller.", "quantifier": "all arguments, learnable parameters, material parameters and sequences of training steps, computations, scaler settings and saves", "why_tests_cant": "Tests rebuild a model once; the sequences of events between saves and the aliasing of dictionaries are unbounded.", "anchors": ["src/hookeai/model_architectures/rc_base_model/model/recurrent_model.py: RecurrentConstitutiveModel.__init__, RecurrentConstitutiveModel.init_model_from_file, RecurrentConstitutiveModel.save_model_init_file, RecurrentConstitutiveModel.set_device, RecurrentConstitutiveModel.forward"]}
{"id": "C128", "title": "Response data sets of stored paths hold the tables of the files and the exact responses of the strains", "statement": "MaterialResponseDatasetGenerator.gen_response_dataset_from_csv, given tables of 13 columns whose paths end in different numbers, in any order, returns a data set exactly if some table has a stress of the problem larger than 1e-8; its samples are the tables with such a stress, in the order of the numbers of the files, with the times and with every strain and stress component (three in two dimensions, six in three) taken from the column that names it. One table with another number of columns makes the generation fail with a RuntimeError. gen_response_dataset_from_strain_dataset returns exactly if the model is known, there are samples and no state update of any sample fails; every sample then keeps its strains and times and holds the exact response of the model to its strains, and applied to a data set generated with the same model and state features it gives the same responses again. Violated in the code: paths with stresses that are not zero but at most 1e-8 are left out without an error, whatever the units (C128_units_violated); if all paths are left out a ZeroDivisionError is raised (C128_unloaded_violated); data sets on disk are announced but always raise a NameError (C128_stored_violated).", "quantifier": "every list of files in every order, every table, both dimensions, every model, state features, strain paths, times and generated data set", "why_tests_cant": "the order of the files, the set of dropped paths and the equality with recomputed responses range over all tables, numberings and histories of states", "anchors": ["src/hookeai/user_scripts/synthetic_data/gen_response_dataset.py: gen_response_dataset_from_csv, gen_response_dataset_from_strain_dataset, compute_stress_path"]}
{"id": "C129", "title": "Stress space metrics are the invariants, principal stresses, π-plane coordinates, triaxialities and Lode parameters of the stresses", "statement": "For every symmetric stress, compute_stress_invariants returns the coefficients of the characteristic polynomial and the invariants of the deviator. The triaxiality of plot_stress_space_metrics times the von Mises stress is the mean stress, and its Lode parameter is between -1 and 1. Whatever the order in which the principal stresses are taken, the third coordinate of the π-plane plots is the one along the hydrostatic axis and the squared distance from the axis is 2 J2. For paths with the same number of times the tables of the plots hold, for every path and time, the principal stresses in decreasing order, their coordinates in the π-plane, and the triaxiality and Lode parameter over the time; the points hold one pair for every stress whose J2 is at least 1e-8, and no other. Violated in the code: for paths of different lengths the plots of principal stresses, of the π-plane and over the time raise a ValueError whatever the stresses (C129_lengths_violated); the statistics then contain a zero for every missing time (C129_points, C129_padding_violated); whether a stress has a triaxiality depends on the units (C129_units_violated).", "quantifier": "every symmetric stress, every complete component order, every list of paths, lengths, time histories, drawn permutation and order of computed eigenvalues", "why_tests_cant": "the identities and the bound of the Lode parameter are over all real stresses, and the tables over all numbers of paths and times", "anchors": ["src/hookeai/user_scripts/synthetic_data/gen_response_dataset.py: compute_stress_invariants, plot_stress_space_metrics, build_tensor_from_comps"]}
{"id": "C130", "title": "Temperature and composition dependent material parameters", "statement": "Asking the local model updating pipeline for the parameters of a constitutive model at a temperature and a composition succeeds exactly for the von Mises model with a temperature between 25 and 625 and a composition between 0 and 1 (bounds included); it returns the fitted Young's modulus, the Poisson ratio that belongs to fitted Young and shear moduli, and 1000 hardening points. For every admissible pair the material is stable: positive shear modulus, Poisson ratio strictly between 0 and 1/2, positive yield stress and positive hardening modulus. The hardening law evaluated from the points is exactly the line of initial yield stress and hardening modulus up to an accumulated plastic strain of 2, with that slope between 0 and 2, and constant beyond. Violated: without plastic strain the reported slope is zero instead of the (positive) hardening modulus.", "quantifier": "all model names, all real temperatures and compositions, all accumulated plastic strains", "why_tests_cant": "the admissible pairs form a continuum; stability between the sampled grid points follows only from bounds on the fitted polynomials", "anchors": ["src/hookeai/user_scripts/complete_pipelines/local_model_update.py: get_model_parameters, polynomial", "src/hookeai/simulators/fetorch/material/models/standard/hardening.py: get_hardening_law"]}
{"id": "C131", "title": "Material data of the local model updating pipeline", "statement": "Generating material data accepts the numbers of samples exactly if every data set type has its ratio of random strain paths and the ratio leaves at least one random and one proportional path. A successful generation leaves one directory per distinct name of a (temperature, composition) pair of the grid, with exactly the number of samples asked for of each type; the first floor(n*ratio) strain paths are random, training samples have the grid temperature and composition, validation and testing samples lie between the neighbouring grid values of a sorted grid, every sample is admissible, and its response is that of the first strain path that did not fail among at most ten. It succeeds for every sorted admissible grid. Assembling a type gives exactly the samples of its files, each once, in a random order; with a fraction f each file contributes floor(n*f) of its samples; the size is the previewed size exactly if all pairs have distinct directory names. Violated: a type without a ratio (documented as all random) is always refused; two grid values that agree to two decimals overwrite each other's data; the functions end with a NameError when imported from another module; another data set type replaces the data assembled before it, or is not assembled at all.", "quantifier": "all grids, numbers of samples, ratios, fractions, random draws, outcomes of strain paths, directory listing orders", "why_tests_cant": "sample counts and temperature ranges are random and depend on grids of any size; loss of data only shows for colliding names", "anchors": ["src/hookeai/user_scripts/complete_pipelines/local_model_update.py: generate_material_data, assemble_material_datasets, preview_material_datasets_sizes, set_dependencies_dir, set_dataset_type_dir"]}
{"id": "C132", "title": "The von Mises return mapping converges for every saturating hardening law, from every state and along every history", "statement": "If the hardening law is saturating (the yield stress does not decrease with the accumulated plastic strain and its slope does not increase) and its slopes are below three times the shear modulus, then the state update of the von Mises model succeeds from every state for every strain increment whose elastic trial stress is at most ten thousand yield stresses, and no history fails whose increments would each cause, elastically, at most nine thousand times the initial yield stress. A plastic step has exactly one exact solution, and the accumulated plastic strain it finds differs from it by less than 1e-6 times the yield stress over three times the shear modulus. Tables starting at zero plastic strain with nondecreasing ordinates and nonincreasing slopes (any number of rows), linear hardening with nonnegative slope and Nadai-Ludwik hardening with exponent between 0 and 1 and positive initial plastic strain are saturating; the temperature and composition dependent material of the local model updating pipeline never fails for strain increments with components of at most one. Violated for steep tables: since the slope reported without plastic strain is zero, a first plastic step whose trial stress does not exceed the last ordinate although the first iterate is beyond the last abscissa alternates between two iterates for ever and is marked as failed, although it has a solution inside the table.", "quantifier": "all problem types, elastic constants, saturating hardening laws (tables of any length), states, strain increments and strain histories of any length; all admissible temperatures and compositions", "why_tests_cant": "Convergence of Newton's method within the fixed number of iterations depends on the step size, the state and every row of the table; a test follows one path of one material.", "anchors": ["src/hookeai/simulators/fetorch/material/models/standard/von_mises.py: VonMises.state_update", "src/hookeai/simulators/fetorch/material/models/standard/hardening.py: PiecewiseLinearIHL.hardening_law, PiecewiseLinearIHL._hardening_slope, LinearIHL.hardening_law, NadaiLudwikIHL.hardening_law", "src/hookeai/user_scripts/complete_pipelines/local_model_update.py: get_model_parameters"]}
{"id": "C133", "title": "Drucker-Prager return mappings converge for saturating cohesion", "statement": "For a Drucker-Prager material with positive friction and flow parameters, a cohesion of at least 1e-8 at zero plastic strain which is nondecreasing with nonincreasing slope, and an initial slope H with xi^2 H < G + K eta eta_bar and (xi/eta_bar)(xi/eta) H < K, the state update succeeds from every state with nonnegative accumulated plastic strain whose trial stress has yield function and pressure at most ten thousand times the current cohesion, whether it returns to the cone or to the apex, and the accumulated plastic strain does not decrease. Hence, for 0.001 <= eta <= 1000 and xi <= 2, no history of any length fails whose increments each cause elastically a pressure of at most 5000 and a shear measure of at most 9000 times the initial cohesion; in particular with every concave table of the cohesion. Violated for steep cohesion: for every concave table, a first plastic step whose first Newton iterate passes the last abscissa, while the trial stress is admissible at the last ordinate, alternates between two iterates and fails although the equation has a solution.", "quantifier": "all materials, saturating cohesion laws and tables, states, strain increments and histories of any length", "why_tests_cant": "The twenty Newton iterations have to suffice for every trial stress, in both branches of the return mapping, and for histories of any length; a test sees single increments.", "anchors": ["src/hookeai/simulators/fetorch/material/models/standard/drucker_prager.py: DruckerPrager.state_update", "src/hookeai/simulators/fetorch/material/models/standard/hardening.py: PiecewiseLinearIHL.hardening_law, LinearIHL.hardening_law, NadaiLudwikIHL.hardening_law"]}
{"id": "C134", "title": "Convergence plots and uncertainty quantifications show the data of their own models", "statement": "The loss in a prediction summary file is read back to nine significant digits. A convergence plot shows for each model the size of its own training data set and its own loss, or its own best value of each parameter; with several realizations of each model, the losses and parameters of the realizations appear in the order of their numbers, whatever the order of the directory listing. The models of a time series plot are labelled by their own training sizes. The data set built from analyses of patches has the paths of all analyses in the order of their numbers. Violated: a loss of exactly zero is written as None and reading it raises, so a plot with an exact model does not exist; of two data set files in a directory the one listed first counts; model_0_old counts as a realization; a single realization is repeated when other models have more, and other differences in the number of realizations raise; the losses are not shown for fewer realizations than were found; parameters listed in another order are stored under wrong names and missing ones as zero; of two models with the same training size only the second is shown.", "quantifier": "all summaries, losses, directory listings and their orders, numbers of models and realizations, parameter dictionaries", "why_tests_cant": "tests use one directory with one listing order; losses are arbitrary reals and listings arbitrary permutations", "anchors": ["src/hookeai/ioput/iostandard.py: write_summary_file, find_unique_file_with_regex", "src/hookeai/model_architectures/procedures/model_prediction.py: write_prediction_summary_file", "src/hookeai/model_architectures/procedures/convergence_plots.py: plot_prediction_loss_convergence, plot_best_parameters_convergence, plot_time_series_convergence, plot_prediction_loss_convergence_uq, plot_best_parameters_convergence_uq", "src/hookeai/user_scripts/local_model_update/rc_material_model/uncertainty_quantification.py: plot_prediction_loss_uq, plot_best_parameters_uq", "src/hookeai/user_scripts/synthetic_data/build_local_paths_dataset.py: get_patch_analysis_dirs"]}
{"id": "C135", "title": "Data sets with sample files: samples, updates, saving, moving and conversion", "statement": "A time series data set with sample files is built exactly if its directory and files exist and the directory part of every path is the normalised directory; its samples are the contents of the files in order. Updating a sample changes that sample and no other, if the files have different names. A saved data set is loaded again from the returned path and no other file changes. If the directory of a data set is renamed, the data set with the directory replaced has the same samples. Converting a data set in memory gives a data set with sample files in the same directory with the same samples in the same order, and changes no other file. Violated: files of a directory that is not normalised, such as ./data, are refused; a file listed twice is updated for both samples; if a sample file is missing in a new directory the data set is left with new paths for the files before it and old ones for the rest; the file of a data set can never be updated to another directory, because the update calls a method with an argument it does not have; the conversion of a data set in the working directory given by its name raises after the sample files have been written.", "quantifier": "all directories, paths, file names, contents, data sets, indices and samples", "why_tests_cant": "paths and contents are unbounded; a test checks one directory and one update", "anchors": ["src/hookeai/time_series_data/time_dataset.py: TimeSeriesDataset, save_dataset, load_dataset", "src/hookeai/miscellaneous/dataset_processing/convert_to_tsdataset.py: dataset_sample_files"]}
{"id": "C136", "title": "An uncertainty quantification keeps each realization by itself", "statement": "With training, a run of the uncertainty quantification replaces whatever was in its directory by exactly the requested realizations; each one is the content of the model directory right after its own training, with the prediction of that same model. Without training, models are never changed: each requested realization that has a model gets the prediction of that model, in the place of an earlier one of the same testing type and beside the others, and everything else stays. The first error of a training or prediction ends the run and is reported, with the earlier realizations complete. In the plots of a path, column i shows the predictions of realization i at the times of the path; different times, testing sets of different sizes, and fewer predictions than realizations are refused. Known violations: without training, missing realizations are passed over in silence; all realizations are trained in one directory that is not emptied, so a file that a training does not write is copied from an earlier realization; the realizations of an earlier run are deleted before the first training, and lost if it fails; series of other types of prediction cannot be plotted; the k-fold cross-validation never works, because it reads a variable before it has a value.", "quantifier": "All numbers of realizations, all earlier contents of the directories, all outcomes of trainings and predictions (results and errors), all predicted series, components and paths.", "why_tests_cant": "The result depends on everything that was left in the directories by earlier runs and on where a training fails; a test runs one history with one fresh directory.", "anchors": ["src/hookeai/user_scripts/local_model_update/rc_material_model/uncertainty_quantification.py: perform_model_uq, plot_time_series_uq", "src/hookeai/model_architectures/rnn_base_model/train/cross_validation.py: kfold_cross_validation"]}
{"id": "C137", "title": "The return mapping with mixed hardening converges for saturating laws", "statement": "With isotropic and kinematic hardening laws whose slopes do not increase with the plastic strain and add up to less than three times the shear modulus, a state update of the mixed hardening model, standard or batched, succeeds for every increment with a relative trial stress of up to ten thousand yield stresses. No history fails whose strain increments would each cause, elastically, at most five thousand times the initial yield stress, and afterwards the relative stress exceeds neither the yield stress, within the tolerance, nor the largest such increment. A plastic step does not decrease the accumulated plastic strain; it differs from the unique exact solution by less than a millionth of the yield stress over three times the shear modulus; and the relative stress differs from the yield stress by at most the tolerance and half the increase of the kinematic hardening stress (the violation of C35 is bounded by that).", "quantifier": "All elastic constants, all pairs of saturating laws (tables, lines, power laws, also those with a wrong slope at zero), all states with a deviatoric back stress, all increments within the bound, all histories of any length.", "why_tests_cant": "The convergence of twenty iterations for every law, state and increment is a statement about infinitely many real problems; tests solve a few of them.", "anchors": ["src/hookeai/simulators/fetorch/material/models/standard/von_mises_mixed.py: VonMisesMixed.state_update", "src/hookeai/simulators/fetorch/material/models/vmap/von_mises_mixed.py: VonMisesMixedVMAP.state_update"]}
{"id": "C138", "title": "A local model update uses the data sets of its directory and replaces its realizations", "statement": "`perform_material_model_updating`: if the directories `1_training_dataset`, `2_validation_dataset` and `5_testing_id_dataset` hold one data set each and all trainings and predictions succeed, every realization is trained with the training and validation data sets and predicts the testing data set, `uncertainty_quantification` holds exactly the realizations of this run (whatever it held before), and the working directories `3_model` and `7_prediction` are gone; without training, all models are kept, the first `n` realizations get the predictions of the testing data set, and no other realization changes.  If a data set is missing the call raises `RuntimeError` and no realization changes; if a training or prediction fails its error is reported and the realizations completed before it are kept; no call changes a data set, and the plots have no influence on the realizations.  `set_lmu_dir` keeps an existing directory unless told to overwrite it.  The strain paths of `set_strain_path_generator`, for both types, infinitesimal strains, two and three dimensions and all numbers that can be drawn, have 200 states at equidistant times from 0 to 1, start without strain, and have all components within 0.05; other types are refused.  Violated: with finite strains every path is refused, because the bounds are only given for the symmetric components; a file whose name merely contains the name of a data set (a backup copy) is used if it is listed first; a model and predictions already in `3_model` and `7_prediction` are removed even by a refused call or one that only predicts; a failing first training leaves no realization of the earlier quantification; without training and without realizations success is reported although nothing was predicted.", "quantifier": "all contents of the directory, data sets, trainings, predictions and plots with any outcome, numbers of realizations, and all draws of the strain path generators", "why_tests_cant": "the claims range over all previous contents of the directory, all points at which a training or a prediction may fail, and all random draws of the generators", "anchors": ["src/hookeai/user_scripts/complete_pipelines/local_model_update.py: perform_material_model_updating, find_dataset_file, set_lmu_dir, set_strain_path_generator", "src/hookeai/ioput/iostandard.py: find_unique_file_with_regex"]}
{"id": "C139", "title": "The response of the material models does not depend on the choice of the axes", "statement": "Rotating (or mirroring) every strain increment of a loading history rotates the whole response: for isotropic elasticity, von Mises plasticity, von Mises plasticity with mixed hardening and Drucker-Prager plasticity (standard and batched), the stress, the total and elastic strain and the back stress after the rotated history are the rotated ones, the accumulated plastic strain, the out-of-plane components of plane strain and the elastic/plastic/apex flags are the same, and a history which fails to converge fails after rotation as well, at the same step. The consistent tangent of the standard models, applied to a rotated strain, gives the rotated result of the unrotated tangent. Violated for the batched von Mises model: for every plastic simple shear with linear hardening, the mirror image of the shear gives the same plastic multiplier but not the mirror image of the stress, since the number added under the norm of the flow direction does not rotate.", "quantifier": "every orthogonal matrix, every history of symmetric strain increments of any length, both problem types, every hardening law and all material parameters", "why_tests_cant": "A test rotates a few histories by a few angles and compares up to a tolerance, which hides a dependence on the axes of the size of the tolerance.", "anchors": ["src/hookeai/simulators/fetorch/material/models/standard/elastic.py: state_update", "src/hookeai/simulators/fetorch/material/models/standard/von_mises.py: state_update", "src/hookeai/simulators/fetorch/material/models/standard/von_mises_mixed.py: state_update", "src/hookeai/simulators/fetorch/material/models/standard/drucker_prager.py: state_update", "src/hookeai/simulators/fetorch/material/models/vmap/von_mises.py: state_update, _plastic_step", "src/hookeai/simulators/fetorch/material/models/vmap/drucker_prager.py: state_update"]}
{"id": "C140", "title": "Plastic flow dissipates energy and no load history extracts energy", "statement": "For von Mises plasticity with a yield stress which does not decrease, in every step the stress at the end of the step does non-negative work on the plastic strain increment, equal to the yield stress times the increment of the accumulated plastic strain up to one part in a million. Along every history from the initial state which does not fail, the work done on the material is at least the elastic energy at the end plus the initial yield stress times the accumulated plastic strain. For Drucker-Prager with a dilatancy not above the friction the plastic work is not negative, and with linear cohesion hardening every history needs at least the elastic energy at its end as work. For mixed hardening the work of the stress relative to the back stress should be the yield stress times the increment of the accumulated plastic strain; the code advances the back stress one and a half times, so that half of the increase of the kinematic hardening stress is missing and the work is negative for large steps.", "quantifier": "all elastic constants, hardening laws in the class, states, strain increments and histories of any length, plane strain and 3D", "why_tests_cant": "Passivity is about every history; tests compare single steps with stored stresses.", "anchors": ["src/hookeai/simulators/fetorch/material/models/standard/von_mises.py: VonMises.state_update", "src/hookeai/simulators/fetorch/material/models/standard/drucker_prager.py: DruckerPrager.state_update", "src/hookeai/simulators/fetorch/material/models/standard/von_mises_mixed.py: VonMisesMixed.state_update"]}
{"id": "C141", "title": "Under proportional loading the result does not depend on the number of steps", "statement": "When von Mises plasticity with a yield stress which does not decrease is loaded from the initial state by non-negative multiples of one strain, and no step fails, the plastic strain is the accumulated plastic strain times the fixed direction of flow, the stress follows from the total strain and the accumulated plastic strain, and the accumulated plastic strain solves the yield condition for the total strain up to one part in a million. So two such loadings with the same total strain, in any number of steps, agree up to that tolerance, and with linear hardening the accumulated plastic strain after a plastic last step is exactly that of the total strain. For mixed hardening the code violates this: the uniaxial strain 3 gives the accumulated plastic strain 0.8 in one step and 0.72 in two.", "quantifier": "all elastic constants, hardening laws in the class, strain directions, and lists of non-negative factors of any length; plane strain and 3D", "why_tests_cant": "It compares all subdivisions of a load into steps.", "anchors": ["src/hookeai/simulators/fetorch/material/models/standard/von_mises.py: VonMises.state_update", "src/hookeai/simulators/fetorch/material/models/standard/von_mises_mixed.py: VonMisesMixed.state_update"]}
{"id": "C142", "title": "Generating random material patches gives every patch its own complete directory and touches nothing else", "statement": "Generating n random material patches simulates every patch in its own directory under the base directory and returns, under its number, the paths of its solver input file and output directory. If the call returns, every patch has its input file, solver screen file, solver output and deformed configuration figure, its saved object if that was asked for, and nothing of an earlier run; if it raises, this holds for the patches before one of them and those after it are as they were. Nothing outside the directories of the patches changes in either case. Reloading simulates exactly the saved patches and generates none. For n >= 2 the data set of local paths is then made of all the patches in the order of their numbers, and the files of a patch are found by it if and only if the patches are named random_specimen. The patch parameters shipped with the script are accepted by the patch generator for every draw. Violated for: a single patch, whose directory has no number, so that the data set of local paths raises RuntimeError; patches that are not admissible, for which the data of an earlier run is deleted before the new patch is generated; saved patches that are missing, which is noticed only after the earlier results have been deleted; an empty patch name, which empties the base directory.", "quantifier": "Every sound file system state, base directory, patch name, number of patches, flags, outcome of patch generation and of the external tools, and every draw of the random generator.", "why_tests_cant": "The claim is about every earlier state of the directories and every point at which a tool or the generation of a patch may fail; a test runs a few patches in an empty directory.", "anchors": ["src/hookeai/user_scripts/synthetic_data/gen_random_specimen.py: generate_random_patches, set_material_patch_dir, generate_material_patch, set_patch_geometric_params, perform_links_simulation", "src/hookeai/user_scripts/synthetic_data/build_local_paths_dataset.py: get_patch_analysis_dirs, gen_patch_formatted_data"]}
{"id": "C143", "title": "Perturbations of the strain history are not amplified", "statement": "Two histories of strain increments of the same length, applied to von Mises plasticity with linear hardening or to Drucker-Prager plasticity with associated flow and linear cohesion hardening, end in states whose distance in the energy norm is at most that of the initial states plus the sum of the distances of their increments, up to the yield tolerance of one part in a million per step. The stresses differ by at most the root of the largest elastic stiffness times that distance. For every hardening law with a yield stress which does not decrease this holds for the elastic strains after one step from the same state. Violated for Drucker-Prager with non-associated flow: a hydrostatic disturbance of a shear step is amplified by more than a fifth.", "quantifier": "all elastic constants, linear laws, pairs of states with non-negative accumulated plastic strain, and pairs of histories of any equal length; plane strain and 3D", "why_tests_cant": "It compares all pairs of histories; a test compares a response with a stored one.", "anchors": ["src/hookeai/simulators/fetorch/material/models/standard/von_mises.py: VonMises.state_update", "src/hookeai/simulators/fetorch/material/models/standard/drucker_prager.py: DruckerPrager.state_update"]}
{"id": "C144", "title": "Training and prediction scripts build the same features, of the declared widths", "statement": "For every features option of the scripts that train and test local GRU, recurrent constitutive and hybrid models, and every data set that holds the features the option needs: the scripts succeed, the features_in and features_out of every sample hold, at every time, exactly the quantities the option is named after (strain components, followed by the two invariants, the void fraction or temperature and composition; stress components, followed by the accumulated plastic strain; plastic strain = strain minus elastic strain), with as many columns as the n_features_in and n_features_out the model is given; training, validation and testing data sets get the same features; GRU samples start from a zero hidden state of the size of the model and keep all other features; an unknown option raises RuntimeError in both scripts, and an option with invariants raises RuntimeError and changes nothing if the component order of the strain is not stored. The decay factor that the scripts set brings the learning rate monotonically from the first to the last rate in exactly the given number of epochs. The main program trains in an emptied model directory and leaves the data sets alone. Violated: the model directory of a case study is emptied before the validation data set is looked for, so that a missing validation data set raises RuntimeError after the earlier model was lost.", "quantifier": "every features option, every data set in memory or in files with the needed features, every symmetric component order of six components, every path, every size of the hidden state, every pair of learning rates and number of epochs, every content of the directory of a case study", "why_tests_cant": "the two scripts are separate copies of the same table: a test trains and predicts with one option and one data set, whereas a mismatch shows for another option, component order or kind of data set, and only as a poor prediction", "anchors": ["src/hookeai/user_scripts/local_model_update/rnn_material_model/train_model.py: perform_model_standard_training", "src/hookeai/user_scripts/local_model_update/rnn_material_model/predict.py: perform_model_prediction", "src/hookeai/user_scripts/local_model_update/rc_material_model/train_model.py: perform_model_standard_training", "src/hookeai/user_scripts/local_model_update/rc_material_model/predict.py: perform_model_prediction", "src/hookeai/user_scripts/local_model_update/hybrid_material_model/train_model.py: perform_model_standard_training", "src/hookeai/user_scripts/local_model_update/hybrid_material_model/predict.py: perform_model_prediction", "src/hookeai/time_series_data/time_dataset.py: concatenate_dataset_features, sum_dataset_features, add_dataset_feature_init", "src/hookeai/model_architectures/materials/strain_features.py: add_strain_features"]}
{"id": "C145", "title": "Internal forces and the equilibrium loss do not depend on the axes or on the node numbers", "statement": "Turn the nodal coordinates of an element by a rotation, move them by a translation, and turn its incremental displacements and its stored material states accordingly. If the internal forces of the original element are computed without an error, so are those of the turned element; with a material without preferred directions, the internal force on every node is the turned force and every returned state is the turned state. The isotropic elastic model given by E and v and the von Mises, mixed-hardening von Mises and Drucker-Prager models are such materials, in plane strain and in three dimensions. When the nodes of a mesh are renumbered, the assembled forces are the same forces at the new numbers. The force equilibrium loss (pointwise or by Dirichlet sets, with or without normalised forces) does not change when nodes are renumbered, and the pointwise loss of forces that are not normalised does not change when all forces are turned, if every node is held in all directions or in none.", "quantifier": "all element types of the library, all quadrature rules, all nodal positions, displacements and states, all rotations and translations; all meshes, all renumberings, all element arrays; all forces, boundary conditions and loss settings", "why_tests_cant": "a test turns one element by one angle or renumbers one mesh; the invariance is a statement over all rotations, elements, histories and permutations", "anchors": ["src/hookeai/simulators/fetorch/element/integrations/internal_forces.py: compute_element_internal_forces", "src/hookeai/simulators/fetorch/element/derivatives/gradients.py: eval_shapefun_deriv, build_discrete_sym_gradient", "src/hookeai/simulators/fetorch/structure/structure_mesh.py: element_assembler", "src/hookeai/material_model_finder/model/material_discovery.py: vforce_equilibrium_loss"]}
{"id": "C146", "title": "Results do not depend on the units of length and stress", "statement": "Take the same specimen in another unit of stress (factor k > 0) and another unit of length (factor l > 0). For von Mises plasticity with any hardening law, von Mises plasticity with mixed hardening and isotropic elasticity, and for every strain history: all elastic and total strains, accumulated plastic strains, plasticity and failure flags are the same and every stress, out-of-plane stress, back stress and consistent tangent is multiplied by k, provided the yield stresses reached are at least 2e-8 in both units. The same holds for the Lou-Zhang-Yoon model with any hardening laws, standard (every history, with the same errors and failures) and batched (every step from every state), provided its yield stress is at least 2e-8 in both units for every accumulated plastic strain, and for the Drucker-Prager model, every history and its consistent tangents, provided its cohesion is at least 2e-8 in both units for every accumulated plastic strain and the norm of every trial deviator is zero or at least 2e-8 in both units (the model compares both with plain numbers). For every element type, quadrature rule and every material that describes the same response in the two units: if the internal forces can be computed in the first units they can be in the others, with the same states, and every nodal force is multiplied by k times l to the power of the dimension minus one. The force equilibrium loss without normalisation, of both types, is multiplied by the square of the factor of the forces; with normalisation by bounds in the same unit it is unchanged. Not true in the code: (1) the deviator is compared with the plain number 1e-8, so for every plastic step with linear hardening there is a unit from which on the accumulated plastic strain grows as before but the stress is not returned to the yield surface; (2) the batched von Mises model adds 1e-8 to every component of the deviator, so after a plastic shear the stress differs in every other unit, whatever the yield stress.", "quantifier": "all factors k and l, elastic constants, hardening laws, strain histories in 2D and 3D, element types, quadrature rules, coordinates, displacements, states, forces and boundary conditions", "why_tests_cant": "a test compares two unit systems for one specimen; that no threshold, tolerance or iteration count depends on the unit, and for which units it does, is a statement about all factors and histories", "anchors": ["src/hookeai/simulators/fetorch/material/models/standard/von_mises.py: state_update", "src/hookeai/simulators/fetorch/material/models/standard/von_mises_mixed.py: state_update", "src/hookeai/simulators/fetorch/material/models/standard/elastic.py: state_update", "src/hookeai/simulators/fetorch/material/models/vmap/von_mises.py: state_update", "src/hookeai/simulators/fetorch/element/integrations/internal_forces.py: compute_element_internal_forces", "src/hookeai/material_model_finder/model/material_discovery.py: vforce_equilibrium_loss", "src/hookeai/simulators/fetorch/material/models/standard/lou.py: state_update, get_residual_and_jacobian", "src/hookeai/simulators/fetorch/material/models/vmap/lou.py: state_update", "src/hookeai/simulators/fetorch/material/models/standard/drucker_prager.py: state_update"]}
{"id": "C147", "title": "A homogeneous specimen under affine displacements is in equilibrium", "statement": "Take a specimen of one material whose Gauss points all have the same state, meshed in any way with the library's elements, and prescribe nodal displacement increments that are an affine function of the coordinates. Then the assembled internal force vanishes at every interior node, whatever the material and however distorted the mesh, and all Gauss points have the same state again, so that the same holds for every further increment. This covers tri3 with 1, tri6 with 3, quad4 with 1 and 4, quad8 with 4 and 9, tetra4 with 1 and 4 and hexa8 with 8 Gauss points, and meshes that mix them. tri6 with one Gauss point, which the constructor accepts, violates it: in a mesh of two triangles one of which has a curved edge, the force at the inner node is two ninths of the stress vector.", "quantifier": "for every material whose answer depends only on strain increment and old state, every mesh of the listed elements with any coordinates for which the computation returns, every affine field of increments and every interior node", "why_tests_cant": "a test assembles a few meshes; the claim is about all meshes, all node positions, all materials and all affine fields, and rests on an identity between Gauss sums and boundary shares of each element type", "anchors": ["src/hookeai/simulators/fetorch/element/integrations/internal_forces.py: compute_element_internal_forces", "src/hookeai/simulators/fetorch/element/type/quadratures.py: gauss_quadrature", "src/hookeai/simulators/fetorch/element/derivatives/jacobian.py: eval_jacobian", "src/hookeai/simulators/fetorch/structure/structure_mesh.py: element_assembler"]}
{"id": "C148", "title": "The Lou-Zhang-Yoon model does not depend on the choice of the axes", "statement": "Rotating (or mirroring) every strain increment of a loading history of the Lou-Zhang-Yoon model rotates the whole response, although each step is computed by a Newton-Raphson iteration in eight unknowns with a matrix that is not symmetric: the stress, the total and elastic strain after the rotated history are the rotated ones, the accumulated plastic strain, the out-of-plane components and the elastic/plastic/apex flags are the same, a history which fails to converge fails after rotation as well, at the same step, and a history which raises an error raises the same error after rotation. The same holds for every step of the batched model, for every choice of its options. In particular, strains without shear never give a shear stress.", "quantifier": "every orthogonal matrix, every history of symmetric strain increments of any length, both problem types, every law of the yield parameters and all material parameters (associative or not); for the batched model every state and all options", "why_tests_cant": "A test rotates a few histories by a few angles and compares up to a tolerance; it cannot tell whether an iteration stops at the same step in all axes, which depends on the norm and on the components used in the convergence check.", "anchors": ["src/hookeai/simulators/fetorch/material/models/standard/lou.py: state_update", "src/hookeai/simulators/fetorch/material/models/vmap/lou.py: state_update, _plastic_step"]}
{"id": "C149", "title": "Hybridized models are set up as asked for", "statement": "The set-up of a hybridized model succeeds exactly if the model can be built from its initialization arguments (or, only if there are none, from its initialization file), its state loaded from the state file if one is given, its data scalers set if any are given, the hybridization indices are a pair of integers and the option of the input residual connection is a boolean; the returned data then hold this model, these indices and this option. Arguments win over the path of a file. A GRU model made from arguments writes no file. Neither arguments nor a path, a class that cannot be initialized from a file, a missing state file, wrong indices and a wrong residual option raise RuntimeError. Violated: for every class without a method set_data_scalers (GRU, recurrent constitutive and hybrid models) no set-up with data scalers succeeds; without data scalers, every hybrid model that holds a GRU model with normalized features made from arguments raises RuntimeError; hence none of the five schemes of the script that trains hybrid models ever gets to build its model.", "quantifier": "all classes of models, arguments, files, states, data scalers, indices and options; all features and data sets of the training script", "why_tests_cant": "A test sets up one class with one choice of arguments; the property fixes the outcome for every combination, and the violations show that no choice of inputs makes the script succeed.", "anchors": ["src/hookeai/model_architectures/hybrid_base_model/model/hybridized_model.py: set_hybridized_model", "src/hookeai/model_architectures/hybrid_base_model/model/hybrid_model.py: HybridModel.check_hyb_models_data_scalers", "src/hookeai/user_scripts/local_model_update/hybrid_material_model/train_model.py: set_hybridized_gru_model, perform_model_standard_training"]}
{"id": "C150", "title": "A hybrid model is rebuilt from its initialization file with its hybridized models", "statement": "A hybrid model that saves its initialization file may be trained, have its scalers set or fitted and be saved any number of times in any order: the model initialized from its directory has the same arguments, its hybridized models have the same names, places and residual connections, its scalers are the current ones, its weights are those of the last time the file was written, and with the current state loaded it computes the same output as the model for every input. It shares no hybridized model with an existing model and leaves them all unchanged; training a hybrid model does not change a hybrid model that has no hybridized model in common with it. Violated: a model without directory, which is documented, cannot be built unless told not to save the file (TypeError); the path of a file in the current directory is rejected; scalers set on a rebuilt model never get into a file.", "quantifier": "all arguments, all sets of hybridized models (also one object under several names), all functions they compute, all sequences of training steps, scaler settings and saves, all inputs", "why_tests_cant": "Tests rebuild a model once; the sequences of events between saves and the sharing of objects are unbounded.", "anchors": ["src/hookeai/model_architectures/hybrid_base_model/model/hybrid_model.py: HybridModel.__init__, init_model_from_file, save_model_init_file, set_device, check_hyb_models_data_scalers, forward"]}
{"id": "C151", "title": "Plane strain is the three-dimensional model with in-plane strains", "statement": "For every history of in-plane strain increments the plane strain problem (problem type 1) gives the response of the three-dimensional problem (type 4) to the same increments without out-of-plane components: the stress, the elastic strain, the total strain, the accumulated plastic strain and the back stress are the same tensors, the out-of-plane normal components are the state variables stored apart, the out-of-plane shear components are zero, the same steps are plastic, return to the apex, fail to converge or raise an exception, and the tangent of plane strain is the in-plane part of the three-dimensional one. This holds for the von Mises model, the model with mixed hardening, the Drucker-Prager and the Lou-Zhang-Yoon model, standard and batched, and for linear elasticity; an anisotropic elastic material may have out-of-plane shear stresses, which plane strain does not store.", "quantifier": "all histories of in-plane strain increments, all material parameters and hardening laws, all symmetry classes of elasticity", "why_tests_cant": "Both branches of every model have to agree for every history, including the plastic states and failures; a test compares single histories.", "anchors": ["src/hookeai/simulators/fetorch/material/models/standard/von_mises.py: VonMises.state_update", "src/hookeai/simulators/fetorch/material/models/standard/von_mises_mixed.py: VonMisesMixed.state_update", "src/hookeai/simulators/fetorch/material/models/standard/drucker_prager.py: DruckerPrager.state_update", "src/hookeai/simulators/fetorch/material/models/standard/lou.py: LouZhangYoon.state_update", "src/hookeai/simulators/fetorch/material/models/standard/elastic.py: Elastic.state_update", "src/hookeai/simulators/fetorch/math/matrixops.py: vget_state_3Dmf_from_2Dmf, vget_state_2Dmf_from_3Dmf"]}
{"id": "C152", "title": "The tangents of the plasticity models are symmetric and positive definite", "statement": "The tangent returned by the von Mises model and by the model with mixed hardening, standard and batched, is a symmetric matrix for all constants, hardening laws, states and increments. For admissible elastic constants the tangent of an elastic step of the standard models is positive definite; the tangent of a plastic step is positive semidefinite when the hardening slope at the new state is not negative and positive definite when it is positive; in three dimensions the von Mises tangent is positive definite exactly when the slope is positive, provided the softening is milder than three times the shear modulus. With mixed hardening the slopes of the isotropic and the kinematic hardening add up. The tangent of the Drucker-Prager model is symmetric for elastic steps, returns to the apex and associated flow; in three dimensions a return to the cone with different friction and dilatancy parameters gives a tangent that is not symmetric. The tangent of a return to the apex is positive semidefinite without softening, and never positive definite. The property does not claim that the tangents are the exact derivatives of the stresses.", "quantifier": "all elastic constants, hardening laws, states, strain increments and strain directions, plane strain and three dimensions", "why_tests_cant": "Definiteness is a statement about every strain direction at every state; a test checks single matrices.", "anchors": ["src/hookeai/simulators/fetorch/material/models/standard/von_mises.py: VonMises.state_update", "src/hookeai/simulators/fetorch/material/models/standard/von_mises_mixed.py: VonMisesMixed.state_update", "src/hookeai/simulators/fetorch/material/models/standard/drucker_prager.py: DruckerPrager.state_update", "src/hookeai/simulators/fetorch/material/models/vmap/von_mises.py: VonMisesVMAP.state_update", "src/hookeai/simulators/fetorch/material/models/vmap/von_mises_mixed.py: VonMisesMixedVMAP.state_update"]}
{"id": "C153", "title": "Setting the device of a model moves its parts and is reported back", "statement": "Setting the device of an element, a constitutive model, a data scaler or a layer puts it on that device; setting the device of a GRU model does so for its data scalers, of a recurrent constitutive model for its constitutive model and data scalers, of a hybrid model for all hybridized models and their parts, keeping names and order. Any other argument, and cuda when it is not available, raises RuntimeError and changes nothing. Setting the device of a material model finder should do so for its material models: violated, they stay where they are. Reading the device should return what was set: violated for every class, get_device reads attributes that are never assigned and raises an AttributeError after every history of calls.", "quantifier": "all objects with any number of parts, all arguments, both availabilities of cuda, all histories of calls", "why_tests_cant": "Holds for arbitrary nesting and histories; without a GPU a test sees only one device.", "anchors": ["src/hookeai/simulators/fetorch/element/type/interface.py: Element.set_device, get_device", "src/hookeai/simulators/fetorch/material/models/interface.py: ConstitutiveModel.set_device, get_device", "src/hookeai/utilities/data_scalers.py: TorchMinMaxScaler.set_device, TorchStandardScaler.set_device", "src/hookeai/model_architectures/rnn_base_model/model/gru_model.py: GRURNNModel.set_device, get_device", "src/hookeai/model_architectures/rc_base_model/model/recurrent_model.py: RecurrentConstitutiveModel.set_device, get_device", "src/hookeai/model_architectures/hybrid_base_model/model/hybrid_model.py: HybridModel.set_device, get_device", "src/hookeai/material_model_finder/model/material_discovery.py: MaterialModelFinder.set_device, get_device"]}
{"id": "C154", "title": "The self-check of an element accepts exactly the right shape functions", "statement": "The self-check of the shape functions passes for each of the eight elements, whatever random points it draws. For any element it passes exactly when each shape function is one at its node and zero at the other nodes, up to the tolerances 1.001e-5 and 1e-8, the shape functions sum to one at the first random point and all derivatives sum to zero at the second; otherwise it raises RuntimeError. It should reject derivatives that do not sum to zero over the nodes in some direction: violated, because the directions are summed as well.", "quantifier": "all eight elements, any element with any number of nodes and directions, all random points", "why_tests_cant": "The points are drawn at random: a passing run says nothing about the other draws.", "anchors": ["src/hookeai/simulators/fetorch/element/type/interface.py: Element.check_shape_functions_properties"]}
{"id": "C155", "title": "Noiseless data sets of the noisy data set generator", "statement": "Generating a noiseless strain-stress data set with the noisy response data set generator succeeds exactly if the type of the strain paths is 'random' or 'proportional', at least one path is requested and each sample, in turn, has a path without failed state update among the next ten strain paths drawn; the samples are then the responses of the first such paths, in the order of the draws, each being the response of the constitutive model to its own strain path with one column per component. Any other type of strain path is refused before a path is drawn. A data set generated this way can be passed on to the generation of noisy data: noise of amplitude zero gives the same responses back with noise arrays of zeros, and whatever the noise, there is one noisy sample for each noiseless one and each noisy sample is the response to its own noisy strain path, without failed update. Faults: a path that succeeds in trial eleven is still rejected with the error that the trials were used up without success, and a request of zero paths ends with a division by zero.", "quantifier": "all constitutive models that hold the requested state variables, component orders, sequences of drawn strain paths, patterns of failed state updates, numbers of paths, noise set-ups and noise draws", "why_tests_cant": "The claim ranges over all sequences of random draws and all patterns of failing state updates over unboundedly many samples; a test fixes one seed and one model.", "anchors": ["src/hookeai/user_scripts/synthetic_data/gen_noisy_response_dataset.py: NoisyMaterialResponseDatasetGenerator.generate_noiseless_dataset, build_response_path, generate_noisy_dataset"]}
{"id": "C156", "title": "The mesh and the data of a specimen fit together", "statement": "Setting the mesh of a specimen is accepted exactly if the initial coordinates are a tensor with two dimensions and the elements, labelled from 1 to their number, each have an element type and as many nodes as the type says; it replaces the mesh and keeps the data. Setting the data is accepted exactly if a mesh is set and the displacement, reaction force and boundary condition histories are tensors of one value per node and dimension of the mesh and per time, with as many times as the time history; it replaces the four histories together and keeps the mesh. A rejected call leaves the object as it was. So after any history of calls that sets meshes and then data, and right after any accepted setting of data, the data fit the mesh. Faults: a mesh set after the data leaves the data of the old mesh in place, time histories of more than one dimension are accepted although one is asked for, and the node labels of the elements are not compared with the number of nodes.", "quantifier": "all meshes, element dictionaries, tensors of any shape and content, other objects passed instead of tensors, and all sequences of accepted and rejected calls", "why_tests_cant": "The claim is about every sequence of calls and every combination of shapes; tests try a few consistent and inconsistent ones.", "anchors": ["src/hookeai/material_model_finder/data/specimen_data.py: SpecimenNumericalData.set_specimen_mesh, set_specimen_data", "src/hookeai/simulators/fetorch/structure/structure_mesh.py: StructureMesh.__init__, _check_mesh_initialization"]}
{"id": "C157", "title": "Specimens of the isotropic elastic material are linearly elastic bodies", "statement": "After every increment of every history of nodal displacement increments that starts from the initial states, the internal forces of an element of the isotropic elastic material, in plane strain or 3D, are those of Hooke's law of the total displacements, integrated over the Gauss points: they depend on the sum of the increments alone, not on the path or the number of increments. The history never fails unless a Gauss point has a singular Jacobian. Hence forces superpose (a combination of total displacements has that combination of forces, and a closed path ends without forces), they are reciprocal (the forces of one history do on the total displacements of a second the work that those of the second do on those of the first), and with E > 0, -1 < v < 1/2 and positive Jacobian determinants the work of the forces on the total displacements is not negative and vanishes exactly if no Gauss point is strained. Reciprocity and the sign of the work hold for the assembled forces of every mesh, also with different element types and elastic properties.", "quantifier": "all element types and Gauss rules of the library, nodal coordinates, elastic constants, histories of displacement increments of any length, meshes, pairs of histories", "why_tests_cant": "reciprocity, superposition and the sign of the energy are statements about all pairs of histories and all displacement fields, and independence of the path ranges over all ways to divide a path into increments", "anchors": ["src/hookeai/simulators/fetorch/element/integrations/internal_forces.py:compute_element_internal_forces", "src/hookeai/material_model_finder/model/material_discovery.py:MaterialModelFinder.forward_sequential_time", "src/hookeai/simulators/fetorch/material/models/standard/elastic.py:Elastic.state_update", "src/hookeai/simulators/fetorch/structure/structure_mesh.py:StructureMesh.element_assembler"]}
{"id": "C158", "title": "No specimen gives energy", "statement": "Along every history of nodal displacement increments, of any length and back to the start or not, the work that the assembled internal forces after each increment do on the displacements of the increment is at least the energy stored at the Gauss points at the end, and so never negative, for every mesh of elements of the library with positive Jacobian determinants at their Gauss points whose materials may differ from element to element: the isotropic elastic model with E > 0 and -1 < v < 1/2 (stored energy: elastic energy), the von Mises model with a yield stress which does not decrease (elastic energy and, up to one part in a million, the initial yield stress times the accumulated plastic strain), and the Drucker-Prager model with linear cohesion hardening and a dilatancy not above the friction (elastic energy). The histories start from the initial states and do not fail; those of elements with linear hardening never fail unless a Gauss point has a singular Jacobian.", "quantifier": "all meshes, element types, Gauss rules, nodal coordinates, mixtures of the three materials, parameters, hardening laws and displacement histories", "why_tests_cant": "a closed cycle that gives energy would have to be found among all histories of all specimens; a test sees single cycles", "anchors": ["src/hookeai/simulators/fetorch/element/integrations/internal_forces.py:compute_element_internal_forces", "src/hookeai/material_model_finder/model/material_discovery.py:MaterialModelFinder.forward_sequential_time", "src/hookeai/simulators/fetorch/material/models/standard/von_mises.py:VonMises.state_update", "src/hookeai/simulators/fetorch/material/models/standard/drucker_prager.py:DruckerPrager.state_update", "src/hookeai/simulators/fetorch/structure/structure_mesh.py:StructureMesh.element_assembler"]}
{"id": "C159", "title": "The loading determines the response of a specimen", "statement": "Two histories of nodal displacement increments of a specimen which start from the same states and have the same number of increments end in states whose distance in the energy of the material, half its square summed over the Gauss points with their weights and Jacobian determinants, is at most the work of the differences of the assembled internal forces on the differences of the displacement increments, up to an explicit error that is a multiple of the tolerance of the return mapping. So when in every increment every component of every node has the same displacement increment or the same assembled force in both, the final states agree up to that error: prescribed displacements and applied forces leave no freedom to the response. This holds for every mesh with positive Jacobian determinants at the Gauss points and every mixture of the isotropic elastic model with E > 0 and -1 < v < 1/2, the von Mises model with non-decreasing linear hardening, and the Drucker-Prager model with associated flow and non-decreasing linear cohesion hardening. For the elastic model the error is zero: the states at all Gauss points are the same.", "quantifier": "all meshes, element types, Gauss rules, nodal coordinates, mixtures of the three materials, parameters and pairs of displacement histories of any length", "why_tests_cant": "a second response to the same loads would have to be found among all histories of all specimens", "anchors": ["src/hookeai/simulators/fetorch/element/integrations/internal_forces.py:compute_element_internal_forces", "src/hookeai/material_model_finder/model/material_discovery.py:MaterialModelFinder.forward_sequential_time", "src/hookeai/simulators/fetorch/material/models/standard/von_mises.py:VonMises.state_update", "src/hookeai/simulators/fetorch/material/models/standard/drucker_prager.py:DruckerPrager.state_update", "src/hookeai/simulators/fetorch/structure/structure_mesh.py:StructureMesh.element_assembler"]}
{"id": "C160", "title": "The numerical Jacobian of the Lou-Zhang-Yoon model checks the analytical one", "statement": "For a symmetric elastic strain every entry that get_numerical_jacobian returns is the change of one component of the return-mapping residual when only one unknown is moved, over the move: one millionth of the absolute value of the unknown, at least 1e-12 (never zero). It is returned whenever the residual is finite at the state and the eight moved states. If residual and Jacobian are finite over the step and the hardening laws report their derivatives, each entry is the entry of the analytical Jacobian at a state with only that unknown moved by less than the step, so it differs from the analytical entry at the state by no more than the variation of that entry over the step; the column of the plastic multiplier has no error at all. The numerical second derivatives of the stress invariants with which compute_num_derivatives compares are exact for J2 and off by at most a third of the step for J3.", "quantifier": "all material parameters, hardening laws, trial states, symmetric elastic strains, accumulated plastic strains and plastic multipliers, all entries", "why_tests_cant": "whether a discrepancy between the two matrices shows an error or the step size has to be known at every state; a test compares at single states with an arbitrary tolerance", "anchors": ["src/hookeai/simulators/fetorch/material/models/standard/lou.py:LouZhangYoon.get_numerical_jacobian", "src/hookeai/simulators/fetorch/material/models/standard/lou.py:LouZhangYoon.compute_num_derivatives", "src/hookeai/simulators/fetorch/material/models/standard/lou.py:LouZhangYoon.get_residual_and_jacobian"]}
{"id": "C161", "title": "A material model finder computes the loss of the last accepted specimen", "statement": "MaterialModelFinder is built exactly if the model directory exists, the name is a string, the force equilibrium loss type is one of the two known ones and the device is available (otherwise RuntimeError); it starts without specimen and with an empty subdirectory material_models, and computes reactions of Dirichlet sets only with the loss type dirichlet_sets. set_specimen_data accepts a specimen exactly if its boundary condition labels fit the loss type, bounds for every direction are given for normalised forces and a tensor of weights has one value for each time (otherwise RuntimeError). After an accepted call, whatever calls were accepted or refused before, forward returns the loss scaling factor times the sum over the times of the weights times the squared residuals of that specimen, in both sequential modes (with the flags of the mesh) and, for the pointwise loss, in the vectorised mode (with the labels at the first time); without weights every time counts 1. sequential_time on CUDA and an unknown mode raise RuntimeError; without specimen data forward raises AttributeError. After a call refused for missing bounds, a specimen with another number of directions makes forward raise RuntimeError. Four faults are proved: a refused construction has already deleted the models saved in the directory; a call refused because of its weights has replaced the specimen but not the weights, so that forward silently uses the weights of another specimen; a call refused for missing bounds has replaced the specimen, so that with the same number of directions forward silently uses the bounds, weights and factor of another call; weights given as a list or an array are silently replaced by 1.", "quantifier": "all directories, constructor arguments, specimens with any numbers of nodes, dimensions and times, weights, scaling factors and force bounds, and all histories of accepted and refused calls", "why_tests_cant": "The loss must not depend on the calls made before, accepted or refused, for any number of calls and any specimens; tests build one finder, set one specimen and evaluate it once.", "anchors": ["src/hookeai/material_model_finder/model/material_discovery.py: MaterialModelFinder.__init__", "src/hookeai/material_model_finder/model/material_discovery.py: MaterialModelFinder.set_specimen_data", "src/hookeai/material_model_finder/model/material_discovery.py: MaterialModelFinder.forward", "src/hookeai/material_model_finder/model/material_discovery.py: MaterialModelFinder.set_fitted_force_data_scalers", "src/hookeai/material_model_finder/model/material_discovery.py: MaterialModelFinder.check_force_equilibrium_loss_type"]}
{"id": "C162", "title": "The convexity boundary of the yield parameters is found in every direction", "statement": "For every convexity test and every number n of angles, compute_convex_boundary ends and returns n points, the i-th on the ray with the angle 2*pi*i/(n-1) at a radius between 0 and 5 within 5/2^23 of a change of the test along the ray; if exactly the radii up to some R < 5 pass the test, the point is within 5/2^23 of the boundary of the region. With two or more angles the first and the last point coincide; a negative number is refused with RuntimeError. With the convexity test of the Lou-Zhang-Yoon model, the boundary encloses, up to 5/2^23, all parameters with d = 0 whose yield surface is convex. directional_convex_boundary with any window and any positive tolerance smaller than the window ends and returns a point inside the window on the ray, within the tolerance of a change of the test. Two faults are proved: a window not wider than the tolerance raises UnboundLocalError; with a tolerance that is not positive the search never ends.", "quantifier": "all convexity tests, numbers of angles, directions, search windows and tolerances", "why_tests_cant": "The region of admissible parameters is arbitrary and the directions, windows and tolerances are a continuum; that the search ends and is accurate for all of them cannot be sampled.", "anchors": ["src/hookeai/simulators/fetorch/material/models/standard/lou.py: LouZhangYoon.compute_convex_boundary", "src/hookeai/simulators/fetorch/material/models/standard/lou.py: LouZhangYoon.directional_convex_boundary"]}
{"id": "C163", "title": "Convergence plots of noise cases show each model at its place with a bar over its realizations", "statement": "plot_prediction_loss_convergence_uq of the noise convergence script, for the models of n noise cases with m models each (one case after the other) and the same positive number of realizations, shows for each noise case a curve with its own label and m points; point r of case k shows the losses of the realizations of model k*m + r: their mean, with a bar from the smallest to the largest. If the cases have the same training sizes, the abscissa is the size of the own training data set. With the range mean-std the bar reaches 1.96 standard deviations to both sides, with an unknown range there is none. No noise cases raise ZeroDivisionError, a number of models that is not a multiple of the number of cases ValueError, a wrong number of labels RuntimeError, models without realizations IndexError. Violated: if the noise cases have different training sizes, the points are drawn at the sizes of the first noise case without an error.", "quantifier": "all numbers of noise cases, models and realizations, all losses, training sizes, labels and directory contents", "why_tests_cant": "The arrangement of the array must be right for all numbers of cases, models and realizations and all losses; a plot is checked by looking at one figure.", "anchors": ["src/hookeai/user_scripts/convergence_analyses/plot_noisy_convergence_analysis.py: plot_prediction_loss_convergence_uq", "src/hookeai/user_scripts/convergence_analyses/plot_noisy_convergence_analysis.py: scatter_xy_data_noise_cases"]}
{"id": "C164", "title": "Reference stress paths belong to their temperature and composition", "statement": "For compositions one percent or more apart, building the uniaxial reference data set stores, for each temperature and composition, exactly one entry, named by the temperature and the composition in whole percent, which is the path computed with the von Mises model of this temperature and this composition, and no other entries. Evaluating a model on this data set yields a figure for each temperature (first test case) or each composition (second test case), in order, whose curves are, for each composition or temperature in order, the stresses of the evaluated model for the reference strain path of that temperature and composition and the reference stresses, with the right labels; for the von Mises models that built the data set the two curves coincide. Both built-in test cases have such compositions; another test case is refused, and a missing entry raises. Two compositions of the same whole percent share an entry: the data set keeps the path of the second one, and the figures of the first one show it as their reference (violated). The double written 0.29 is named and labelled 28 % (violated).", "quantifier": "for all temperatures, compositions, prescribed strains, material models and evaluated models", "why_tests_cant": "The entries depend on all pairs of temperatures and compositions and on any material response; a test uses the built-in lists only.", "anchors": ["src/hookeai/user_scripts/complete_pipelines/evaluate_gru_model.py: get_dataset_file_paths, evaluate_gru_material_model, build_uniaxial_stress_dataset"]}
{"id": "C165", "title": "What scatter plots show", "statement": "A scatter plot of an array of pairs of columns shows, for each pair, a data set with its label whose points are the entries of the two columns; an odd number of columns or a wrong number of labels is refused; with error bars over the range there is a point for each row at the abscissa of the first data set, with the mean of the ordinates of all data sets and a bar from the smallest to the largest one; the band of a relative error holds exactly the points whose ordinate differs from the abscissa by at most this part of it. For a single data set the coefficient of determination shown is one minus the squared errors over the squared spread of the references, at most one, one exactly for perfect predictions, not negative exactly for predictions no worse than the mean, and independent of units and origin. Perfect predictions of constant references have a coefficient that is not a number (violated). For references that differ little the squared errors are not divided by the spread, and arbitrarily bad predictions are shown with a coefficient close to one (violated). With error bars, the abscissae of the other data sets are ignored (violated).", "quantifier": "for all arrays, labels, references and predictions, units and origins", "why_tests_cant": "The coefficient is a function of arbitrarily many real references and predictions, and its degenerate cases are found by reasoning about all of them.", "anchors": ["src/hookeai/ioput/plots.py: scatter_xy_data"]}
{"id": "C166", "title": "The analysis of a patch changes its own directory only", "statement": "Setting up the analysis of a material patch, if the directory of the patch exists and the input file and node data are outside the directory of the analysis and have different names, leaves a directory of the analysis that consists of an empty directory for the performance and the directory of the finder with a simulation directory holding a copy of the input file, a copy of the node data directory with all its files, and nothing else; earlier contents of the directory of the analysis are gone and nothing outside it has changed. A missing directory of the patch, or a file in the place of the directory of the analysis, is refused without a change. If the input file is below the directory of the analysis, as for a patch named like its simulations directory, all its files are deleted and the call then fails (violated).", "quantifier": "for all file systems, directories, names of patches, input files and node data", "why_tests_cant": "The effect must hold for every state of the file system, including earlier analyses and arbitrary trees of node data.", "anchors": ["src/hookeai/user_scripts/synthetic_data/build_local_paths_dataset.py: compute_patch_local_paths, set_analysis_dir, set_simulation_dir", "src/hookeai/ioput/iostandard.py: make_directory"]}
{"id": "C167", "title": "Plots of predictions against references", "statement": "A plot of predictions against references shows every prediction process with its label, in order: the points as given, or, if normalized and not all one number, with the smallest of all references and predictions of the process mapped to zero and the largest to one, so that all points are in the unit square, references and predictions keep their order and the given values can be recovered; the coefficient of determination of a single process, where it is shown, is that of the given values. No process at all, and normalizing a process without points, are refused. The error bound drawn for normalized processes is not the relative error of the given values: a prediction with a smaller relative error is outside the band (violated). A normalized process of one constant number has points that are not numbers (violated). The coefficient of determination of a process of one constant number raises an error (violated).", "quantifier": "for all prediction processes, references and predictions", "why_tests_cant": "The claims range over arbitrarily many real references and predictions; the failing cases follow from the scaling by the extremes of both columns.", "anchors": ["src/hookeai/model_architectures/procedures/model_prediction.py: plot_truth_vs_prediction", "src/hookeai/ioput/plots.py: scatter_xy_data"]}
{"id": "C168", "title": "Plots of models with different training sets", "statement": "The time series plots of several trained models show, for every prediction type, every component and every sample in order, the reference path with the predictions of every model, labelled with the size of its training set; the plots of predictions against references show the pairs of every model with the same labels. Testing sets of different sizes, no models, samples outside the testing set and other kinds of plots are refused. All samples with several prediction types cannot be plotted: the second type is refused (violated). Models whose training sets have the same size share a label, and only the predictions of the last one are shown (violated).", "quantifier": "for all models, sizes of data sets, prediction types, components, samples and paths", "why_tests_cant": "The claims range over arbitrarily many models, types and samples; what is shown depends on the history of the loop over the types and on equal labels.", "anchors": ["src/hookeai/model_architectures/procedures/convergence_plots.py: plot_time_series_convergence", "src/hookeai/model_architectures/materials/process_predictions.py: build_time_series_predictions_data"]}
{"id": "C169", "title": "Plots of time series", "statement": "A plot of time series shows every process with its label, its times and its values. If the processes are normalized, have the same length and are not all one number, the values are scaled to the unit interval by the smallest and the largest value of all processes, which become zero and one, and the points are in equal steps over the unit interval. No process, normalizing processes without points and normalizing processes with an uncertainty are refused. The times of normalized processes do not matter: unequal time steps are shown as equal ones (violated). Normalized processes of different lengths raise an error (violated), and so do processes of one constant number (violated).", "quantifier": "for all processes, lengths, times and values", "why_tests_cant": "The claims range over arbitrarily many processes with real values; the failing cases depend on lengths, times and equal values.", "anchors": ["src/hookeai/model_architectures/procedures/model_prediction.py: plot_time_series_prediction"]}
{"id": "C170", "title": "Plots of optimization histories", "statement": "The plot of an optimization process shows the metric of every job, or its logarithm, at the number of the job, in whatever order the job directories are found, with the line of the lowest metrics so far. Only processes whose jobs are numbered from zero without a gap are accepted; a process without jobs, a job without a summary and a summary without the metric are refused. Several processes with the same number of jobs are all shown with the metrics of the last one (violated); with different numbers of jobs they raise an error (violated). The metric is read from the first line that contains its name, which can be the line of another metric (violated).", "quantifier": "for all processes, numbers of jobs, orders of directories, summaries and metrics", "why_tests_cant": "The claims range over arbitrarily many jobs and processes in every order; the running minimum is an invariant over all prefixes.", "anchors": ["src/hookeai/model_architectures/rnn_base_model/optimization/hydra_optimization_plots.py: plot_optimization_history"]}
{"id": "C171", "title": "Plots of models with uncertainties", "statement": "The time series plots of models that have been trained several times show, for every prediction type, every component and every sample in order, the reference path, and for every model, labelled with the size of its training set, the mean of its predictions at every time, with a band that is exactly the range of the predictions and holds the mean. Scatter plots, other kinds of plots, no models and testing sets of different sizes are refused. All samples with several prediction types cannot be plotted: the second type is refused (violated). Of models whose training sets have the same size only the last one is shown (violated).", "quantifier": "for all models, sizes of data sets, prediction types, components, samples, paths and numbers of predictions", "why_tests_cant": "The claims range over arbitrarily many models, samples, times and predictions; the bands are over the reals.", "anchors": ["src/hookeai/model_architectures/procedures/convergence_plots.py: plot_time_series_convergence_uq", "src/hookeai/ioput/plots.py: plot_xny_data"]}
{"id": "C172", "title": "Surfaces of material parameters", "statement": "For admissible temperatures and compositions, the plotted surfaces of material parameters show, for the temperature of the row and the composition of the column, Young's modulus in GPa, Poisson's ratio, the initial yield stress and the hardening modulus of the material. Other materials, no temperatures or no compositions, and temperatures or compositions outside the admissible range are refused. If all temperatures are given as integers, the fractions of the parameters are dropped, and Poisson's ratio is shown as zero everywhere (violated).", "quantifier": "for all lists of temperatures and compositions", "why_tests_cant": "The claims range over all real temperatures and compositions in the admissible range and all sizes of the grid.", "anchors": ["src/hookeai/user_scripts/complete_pipelines/local_model_update.py: plot_model_parameters, get_model_parameters"]}
{"id": "C173", "title": "Plots of specimen histories", "statement": "The plot of the displacements of a node, given by its label, shows the history of that node in every dimension over the time steps; all nodes are those with the labels from one to their number. The plots of reaction forces show the history of every set with its label over the time steps, or over the displacements of a given node and dimension, and the comparison shows all sets with their labels. Labels above the number of nodes, labels of other kinds and another number of set labels are refused. The label zero is not refused: the last node is shown under the name of a node that does not exist (violated).", "quantifier": "for all meshes, dimensions, histories, labels and sets", "why_tests_cant": "The claims range over all meshes, labels and histories; the failing case follows from negative indices.", "anchors": ["src/hookeai/user_scripts/global_model_update/utilities/process_specimen_data.py: plot_nodes_displacement_history, plot_reaction_forces_history, compare_reaction_forces_history"]}
{"id": "C174", "title": "A chart of grouped bars shows every value once, with bars that do not overlap", "statement": "A chart of grouped bars is drawn exactly when every data set has one value per group (and there is a data set if average lines are asked for). Every value is the height of exactly the bar of its data set and group, with the labels of the data sets and groups in order, and an average line is at the mean of its data set. With the default width no two bars overlap. With a given positive width and at least two groups, no two bars overlap exactly when the bars of a group fit in the unit between two groups; a larger width is not refused (violated, C174_width_violated). The label of a group is at the middle of its bars exactly when there are two data sets (violated for three, C174_label_violated).", "quantifier": "every list of group labels, every number of data sets and their values, every bar width, with or without average lines", "why_tests_cant": "The layout has to be right for every number of groups and data sets and every width; a test draws a few charts and does not look at the positions of the bars.", "anchors": ["src/hookeai/ioput/plots.py:grouped_bar_chart"]}
{"id": "C175", "title": "A plot of state variable histories shows each path at its own times", "statement": "State histories of one feature with a value at each time are plotted for any number of paths, also of different lengths: the curve of each path has exactly its values at its own times, the histogram is of all values of all paths, and when the times of each path are in order every point is within the limits of the time axis. Whatever is plotted has as many paths as time histories, no empty time history and one feature per path. A path with a single value and several times should be refused, but is drawn as a constant (violated, C175_single_violated).", "quantifier": "every number of paths, every length of each, all times and values", "why_tests_cant": "The paths are packed in one array padded to the longest; that no path loses, gains or shifts a value has to hold for every combination of lengths.", "anchors": ["src/hookeai/user_scripts/synthetic_data/gen_response_dataset.py: plot_state_history"]}
{"id": "C176", "title": "A comparison of stress predictions shows every model's own component in each figure", "statement": "Predictions of models with distinct labels, none of them 'Ground-truth', given at every time with all stress components, are compared in one figure per component, named after it. Each figure has the ground truth first if it is asked for, and then every model in order, each with exactly that component of its own stresses at the times; nothing of the figure of another component is left, although the same dictionary is used for all. A model with the label of the ground truth replaces it (violated, C176_label_violated), and without the ground truth the first model is drawn as the reference (violated, C176_reference_violated).", "quantifier": "every number of models, components and times, all stresses and labels", "why_tests_cant": "The curves of all figures go through one dictionary that is overwritten for each component; that no figure shows a curve of another component or model has to hold for every number of components and models.", "anchors": ["src/hookeai/miscellaneous/file_processing/plot_prediction_files.py: plot_models_stress_prediction"]}
{"id": "C177", "title": "A comparison of hardening laws shows the yield stress of each law under its name", "statement": "A displayed comparison of hardening laws that are defined for accumulated plastic strains from 0 to 1 has one curve per law, in order and under its name: the yield stress of exactly that law at 10000 equally spaced strains from 0 to 1, and never a hardening slope or a value of another law. A law that raises at one of these strains makes the comparison raise. What is saved is what is displayed; but a comparison that is saved without being displayed raises an UnboundLocalError, whatever the laws (violated, C177_saved_violated).", "quantifier": "every number of laws, all laws (as functions of the accumulated plastic strain) and names, saved and displayed or not", "why_tests_cant": "The table has three columns per law, of which two are selected by their index modulo three and then paired again; that the pairs belong to one law has to hold for every number of laws.", "anchors": ["src/hookeai/miscellaneous/materials/compare_hardening_laws.py: compare_hardening_laws"]}

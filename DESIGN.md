# Formal model of bessagroup/hookeai in Lean 4

## Trusted base

* Lean 4.33.0 kernel. No axioms are added; every theorem depends at most on
  `propext`, `Classical.choice` and `Quot.sound` (printed by `#print axioms`;
  see `lean/Verif/Axioms.lean`, which prints them for every claimed theorem).
* No `sorry`, `admit`, `native_decide`, `bv_decide`, `implemented_by`, `unsafe`.
* The correspondence between the Python source and the Lean definitions is by
  reading: each model definition cites the file and the lines it transcribes
  and states its simplifications.

## What is modelled, and what is not

* Numbers: Python/torch floating point numbers are modelled by exact real
  numbers `ℝ`. Rounding, overflow, dtype and device handling are not modelled.
  NaN-marked failure states are modelled by an explicit constructor.
* torch tensors: as functions on index tuples plus explicit sizes, or as lists.
  Autograd, CUDA, `torch.vmap` batching (modelled as `map`) are outside.
* Exceptions are values (`Except PyErr α`); one constructor per exception kind.
* Loops are folds or structural recursion; no fuel except where the code itself
  has an iteration limit (Newton loops) or where termination is a theorem.
* Random draws are explicit arguments, universally quantified.
* File systems are finite maps from file names to contents; a crash is a cut
  in the sequence of primitive file operations.
* Aliasing of Python dictionaries is modelled by explicit heaps only where a
  property is about aliasing (element state store, in-memory data set, nested
  dictionaries).
* Some properties need more of floating point than `ℝ`: `Model/Float` has the
  values finite / infinite / NaN with Python comparisons, and is used where a
  property is about NaN (losses, best epochs, parameters).
* Not modelled: plotting, printing, summary files, the contents of pickle files
  (an unpickled object is the pickled one), neural network layers other than the
  recurrent network of `gru_rnn`, optimisers (their state is opaque), the
  numerical Jacobian of the Lou-Zhang-Yoon model, the curved faces of
  three-dimensional material patches (their corners and mesh are modelled),
  input and output files of the Links simulator, user scripts.

### Third party code the model relies on

The model takes the documented behaviour of these as given; they are
transcribed as definitions with a comment, not proved:

* numpy/torch: `polyfit`, `unique`, `bucketize`, stable `argsort`, `vmap`,
  `F.pad`, `conv1d`, `torch.fft`, views and in-place writes (as aliases),
  `torch.save`/`torch.load`, `random_split`, `nn.ParameterDict` (restriction of
  key names), `nn.GRU` (documented equations), `DataLoader` (arguments and
  sequential batching).
* scikit-learn scalers' `partial_fit`, Gaussian process posterior; scipy
  `savgol_coeffs`.
* shapely (centroid, validity and orientation of a polygon: arbitrary functions).
* pickle, `os` and `shutil` file operations.

## Layout

* `lean/Verif/Model/*.lean`  definitions transcribing the code, with citations
* `lean/Verif/Spec/*.lean`   small independent specifications
* `lean/Verif/Lemmas/*.lean` helper lemmas
* `lean/Verif/Props/*.lean`  the property theorems and, beside each, an
  `example` showing that its hypotheses are met by a concrete case

* `tools/manifest.py`  regenerates `MANIFEST.json`, `lean/Verif.lean` and
  `lean/Verif/Axioms.lean` from the theorem names and `tools/notes.json`
* `tools/mutate.py`    applies wrong edits to a scratch copy of the model,
  rebuilds, and logs which theorems fail in `seeded/LOG.jsonl`
* `tools/violations.py` regenerates the last section of this file

## Plan per property

| id | model | proof |
|----|-------|-------|
| C01-C03, C05, C06 | `Model/Matrixops`: the four conversion functions over component lists of index digits; scatter loops as folds over the list | position lemmas for duplicate-free lists; fold invariant "entry = last write"; sqrt 2 algebra |
| C04 | same, plus `Spec/Tensor` double contraction | sum over all index pairs split into listed component and its transpose |
| C07, C08 | `Model/Voigt` | same technique; projection identities by finite sums |
| C09 | `Model/Tensorops` | Kronecker delta sums |
| C10 | `Model/Matrixops` (2D/3D part) | case analysis on the fixed component orders |
| C11-C13 | `Model/Elements`: each shape function and derivative over ℝ | `ring`, `fin_cases`, `HasDerivAt` |
| C14 | `Model/Quadrature` | interval integrals of monomials, linearity |
| C15, C16 | `Model/Gradients` | index arithmetic, finite sums |
| C17 | `Model/Gradients` + `Model/Elements` | chain rule through the Jacobian as a matrix identity |
| C18, C19 | `Model/InternalForces`, material as an arbitrary function | linearity of finite sums |
| C20, C21, C61, C70 | `Model/Mesh`, `Model/MeshConfig` | induction over elements and nodes |
| C22 | `Model/Mesh` | induction over update histories |
| C23, C71 | `Model/StructureState` with an explicit heap | induction over operation histories |
| C24, C25 | `Model/Elastic` | field arithmetic, induction over increments |
| C26, C27 | `Model/Hardening` | induction over the data table; real derivatives |
| C28-C32 | `Model/VonMises` | Newton loop as bounded recursion; invariants |
| C33, C34 | `Model/VonMisesVMAP` | refinement of masked loop by early-exit loop |
| C35 | `Model/VonMisesMixed` | invariant over histories |
| C36, C37 | `Model/DruckerPrager` | loop postcondition, algebra |
| C38-C40 | `Model/Scalers`, `Model/FitScalers` | field arithmetic; induction over batches |
| C41, C72 | `Model/Loss` | order reasoning; derivative of the loss |
| C42 | `Model/TypeConversion`, `Model/PyDict` | induction over nested dictionaries, heap |
| C43-C46 | `Model/Dataset`, `Model/DatasetFeatures` | list induction, permutations |
| C47-C51 | `Model/ModelState` | file-name parsing, invariants over histories, crash points |
| C52, C53 | `Model/Training` | induction over epochs |
| C54-C56 | `Model/StrainPath` | arithmetic of `n_time`, list lemmas, order reasoning |
| C57 | `Model/StressFeatures` | trace algebra |
| C58 | `Model/VolumetricBar` | projection algebra |
| C59, C60 | `Model/ForceEquilibrium` | sums of squares |
| C62, C63, C73 | `Model/LearnableParameters`, `Model/ParameterDict` | field arithmetic; induction over paths |
| C64 | `Model/Iostandard` | pigeonhole on a finite set of names |
| C65 | `Model/FiniteElementTables` | whole-table decision, all integers by case split |
| C66 | `Model/TimeSeriesBatch` | list lemmas |
| C67, C74, C75 | `Model/Denoise` | padding arithmetic, sums; orthogonality of polynomials; discrete Fourier sums |
| C68 | `Model/Tensorops` | finite sums |
| C69 | `Model/Matrixops` | case analysis |
| C76 | `Model/Gru` | induction over time steps and layers, refinement of the documented equations |
| C77 | `Model/ModelInit` | file system as a map; induction over histories and crash points |
| C78 | `Model/Prediction` | induction over batches |
| C79 | `Model/TrainingState` on top of `Model/ModelState` | invariant over histories and crash points |
| C80, C81 | `Model/Hybrid` | permutation of a sorted arrangement; induction over channels |
| C82 | `Model/HybridLayers` | reuse of C04, C24; polynomial evaluation |
| C83 | `Model/VonMises` | Frechet derivative of the return, tangent algebra |
| C84 | `Model/VonMisesMixed` | same |
| C85 | `Model/DruckerPrager` | same; uniqueness of the derivative for the failing case |
| C86 | `Model/VonMisesMixedVMAP`, `Spec/ConsistentTangentMixed` | the batched return is compared case by case with the standard one; induction over the history; uniqueness of the derivative for the failing tangent |
| C87 | `Model/DruckerPragerVMAP`, `Spec/DruckerPragerVMAP` | the masked loop is shown to return the first converged iterate; case analysis of the return; induction over the history; exact multiplier for linear hardening |
| C88 | `Model/Lou`, `Spec/Lou` | algebra of the invariants; `27 J3^2 ≤ 4 J2^3` by a discriminant argument; counterexample in uniaxial stress |
| C89 | `Model/Lou` | directional derivatives of the invariants; chain rule through every block of the residual |
| C90 | `Model/Lou`, `Spec/Lou` | case analysis of the return; parity argument for plane strain; induction over the history |
| C91 | `Model/Lou`, `Model/VonMises`, `Spec/Lou` (`vonMisesLimit`) | von Mises solution shown to be the root the Newton scheme starts from and returns; induction over the history |
| C92 | `Model/YieldConvexity`, `Spec/YieldConvexity` | reduction to the deviatoric plane; a degree-six polynomial with nonnegative second derivative at both ends of the range; continuity in the parameter for the false acceptance |
| C93 | `Model/LouVMAP`, `Model/Lou`, `Spec/LouVMAP` | induction over the masked iterations against the loop of the standard model, with every larger bound on the iterations; C91 for the success in the von Mises limit |
| C94 | `Model/VonMisesVMAP`, `Model/DruckerPragerVMAP`, `Spec/ConsistentTangentVMAP` | closed form of the updated stress near the increment (C33, C87), its Frechet derivative, and a bound on the difference to the returned tangent |
| C95 | `Model/StructuredMesh`, `Model/FiniteElementTables`, `Spec/StructuredMesh` | loop invariant of the labelling over the grid positions; the rounded quotient locates an element containing the position, so the local index agrees with the element table (C65); connectivities by the same tables |
| C96 | `Model/PatchCorners`, `Spec/PatchCorners` | the loops over the edges unfolded for two dimensions; dictionaries by their look-ups; violations on explicit specifications |
| C97 | `Model/PatchEdges`, `Spec/PatchEdges` | orthonormal frame from the cross product; interpolating polynomial by the Vandermonde system; the position on the curve by the intermediate segment of the cumulated length |
| C98 | `Model/PatchGenerate`, `Spec/PatchGenerate` | C96 and C97 for the edges; nodes matched by coordinates are unique if the spacing exceeds the tolerance; loop invariant of the assigned displacements; first admissible iteration by induction over the loop; violations |
| C99 | `Model/MeshRemoval`, `Spec/MeshRemoval` | the relabelling loops give the kept entries numbered from one (induction over the loop); removed nodes are those of removed elements only; look-ups through the injective label maps; violations |
| C100 | `Model/FinderForward`, `Spec/FinderForward` | per point both modes build the same feature rows, and components → tensor → matricial form → components is the identity (C01-C04 lemmas), so forces and samples agree; sums over points and elements by induction, assembly by C20/C61, loss by C59; violations on two triangles |
| C101 | `Model/RecurrentForward`, `Spec/RecurrentForward` | the time loop is a fold; induction gives the sequence of states; batch, causality and offset follow; the vectorised loop is simulated by one that collects states; elastic case by C25; violations from the elastic model |
| C102 | `Model/RecurrentForward`, `Spec/ResponseDataset` | same sequence of states with a failure flag (disjunction in the invariant); the retry loop by induction on the trials left; reproduction by C101 |
| C103 | `Model/Pruning`, `Spec/Pruning` | the trainings, losses and random draws are arguments; files are a map of paths; one step and one iteration are evaluated exactly on top of the random split (C43); a loop invariant extends the run by an iteration; completion by a lower bound on the development set that every pass keeps; violations with the default parameters for every environment |
| C104 | `Model/Pruning`, `Spec/Pruning` | loop invariant on the lines printed; agreement by induction on the iteration with `C103_schedule`; violations by evaluation with the default parameters |
| C105 | `Model/TextFile`, `Model/SpecimenMesh`, `Spec/SpecimenMesh` | files as lists of characters; the lines written are recovered by the line splitter, sections by induction over the scanning loop, fields by induction over the separator; invariants of the reading loops for any file; faults by evaluation |
| C106 | `Model/LinksFile`, `Spec/LinksFile` | the lines of the file written are computed; a letter of each keyword foreign to the other lines, or the hypothesis on the title, excludes false matches; sections by induction over the scanning loop; composed with `C105_round_trip` |
| C107 | `Model/SpecimenHistory`, `Spec/SpecimenHistory` | the last number of a path is computed for all names; an insertion sort of a permutation of a list with increasing keys is that list, so no listing order matters; the entries of a table are found again by computation of the columns |
| C108 | `Model/Noise`, `Spec/Noise` | the random numbers are arguments; the entries of the noise are computed for every time and feature and bounded by the triangle inequality |
| C109 | `Model/NoisyDataset`, `Spec/NoisyDataset` | each trial rewritten to a closed form of its strain path, then induction over trials and samples; theorem is an equivalence |
| C110 | `Model/LoadIncrements`, `Spec/LoadIncrements` | induction over the branches for the closed form and the turning points; Lagrange interpolation for the polynomial; telescoping sums; reading by induction over the lines |
| C111 | `Model/YieldSurface`, `Spec/YieldSurface` | the rotation by algebra in the square roots, the invariants of C88 on diagonal tensors, monotonicity of the square root for the shift, case split on the sign for uniaxial stress, insertion sort for the slice |
| C112 | `Model/PatchSolid`, `Spec/PatchSolid` | local frames reduce an edge to the planar case of C97; fold invariants for displacement dictionaries over edges and faces; face values by convexity; violations by concrete cubes |
| C113 | `Model/NumberFormat`, `Spec/NumberFormat` | digits = nearest integer (ties to even) of the number scaled by its decimal exponent, carry to the next power of ten; parsing of the written text computed symbolically; monotonicity by cases on the exponents; idempotence because a number with p+1 digits is written exactly; instantiation of C105, C106, C110 |
| C114 | `Model/SpecimenDirichlet`, `Spec/SpecimenDirichlet` | cascade of conditions with short-circuit evaluation compared with the planes by cases; fold over nodes; lines split into fields for fields beginning with a blank; scanning loop of C106; negative number fills its field: two numbers in one word are not a number |
| C115 | `Model/AbaqusLinks`, `Spec/AbaqusLinks` | the scanners are run symbolically over the written text: lines, sections and fields are recovered with the lemmas on split text; the dictionary of displacements is an invariant of the fold over the boundary lines (last entry wins); round trip by composing with C105/C106 |
| C116 | `Model/PredictionData`, `Spec/PredictionData` | induction over the requested samples and over the models; permutation of the listing; pigeonhole for the free directory |
| C117 | `Model/MeanMetrics`, `Spec/MeanMetrics` | induction over samples, metrics and processes; permutation of the listing; structure of the lines; rounding of the texts of numbers from C113 |
| C118 | `Model/CompositeParameters`, `Spec/CompositeParameters` | the nested loops are folded into one list of labelled items; distinct labels by splitting at the first underscore; clamping maps over the structure with C62 for each model |
| C119 | `Model/FinderTraining`, `Spec/FinderTraining` | invariant over the epochs for an arbitrary trajectory of states; the trajectory of bounded parameters is built from C118; histories by induction over the epochs; faults by concrete trainings |
| C120 | `Model/ReactionHistory`, `Spec/ReactionHistory` | sums over labels as in C60; agreement by a bijection between the degrees of freedom of a label and its nodes; copying by induction over the files |
| C121 | `Model/UniaxialPath`, `Spec/UniaxialPath` | Induction over the iterations and over the times; causality moves the lateral stresses of a time from the trial path to the returned path; affine laws are solved by one iteration; `x³ - 2x + 2` cycles |
| C122 | `Model/TrainingRecords`, `Spec/TrainingRecords` | Dictionary and file lemmas for the records; induction over the epochs for the learning rates, with the closed forms of the schedulers; arrays by rows |
| C123 | `Model/PatchQueries`, `Spec/PatchQueries` | membership of the two sweeps over the node matrix with the characterisation of C95; argument of the complex product for the angles |
| C124 | `Model/NoisyHistory`, `Spec/NoisyHistory` | sorted steps are unique, effect of a sequence of writes by induction, entries of the replaced columns, C108 and C67 for the noise and the averages |
| C125 | `Model/LinksRun`, `Spec/LinksRun` | fields of the lines by the texts of numbers (C113), new names by C64, case analysis of the writes; violations as negations |
| C126 | `Model/LinksOutput`, `Spec/LinksOutput` | sorted listing reused from C107; loops over files by induction on the list with the directory as state; labels of sets by induction on sets and codes; double contraction by expansion |
| C127 | `Model/RecurrentInit`, `Spec/RecurrentInit` | dictionaries as heap objects; invariant over event lists that the file agrees with the dictionary off the synchronised places; synchronisation writes values in fixed places |
| C128 | `Model/ResponseFiles`, `Spec/ResponseFiles` | sorting by distinct keys is independent of the given order; columns by name against the chosen indices; responses through the characterization of C102 |
| C129 | `Model/StressSpace`, `Spec/StressSpace` | polynomial identities, discriminant bound through the spectral theorem (C88), coefficients of the characteristic polynomial from three values, block tables by extensionality |
| C130 | `Model/LmuParameters`, `Spec/LmuParameters` | success and values as an equivalence; stability of all admissible pairs by nonlinear bounds on the polynomials; the tabulated line reproduced by the interpolation (C26) |
| C131 | `Model/LmuData`, `Spec/LmuData` | generation as a fold of dictionary updates (last writer of each name), samples by neighbour lemma on sorted lists, assembly by permutations and sub-permutations, size by counting distinct names |
| C132 | `Model/VonMises`, `Model/Hardening`, `Spec/Saturating` | convexity of the residual (`Lemmas/NewtonConvex`), intermediate value theorem, induction over the history; tables: comparison of lines by induction over the segments; violation by the two-cycle of the iterates |
| C133 | `Model/DruckerPrager`, `Spec/DruckerPrager`, `Spec/Saturating` | convexity argument of C132 generalised to equations A - D x - b c(acc + a x), applied to cone and apex; induction over the history with the invariant of C36 |
| C134 | `Model/ConvergenceData`, `Spec/ConvergenceData` | summary text split into lines, number format of C113; searches of files as first match; sorting by number independent of the listing |
| C135 | `Model/SampleFiles`, `Spec/SampleFiles` | normalisation of paths as a fold over components, proved idempotent and injective on names in a directory; file store as a function of normalised paths |
| C136 | `Model/UncertaintyRuns`, `Spec/UncertaintyRuns` | induction over the realizations with the directory as state; injectivity of the directory names |
| C137 | `Model/VonMisesMixed`, `Spec/Saturating`, `Spec/PlasticityMixed` | Newton's method for a convex decreasing residual (`newton_concave`), invariant of the relative stress over histories |
| C138 | `Model/LmuUpdate`, `Spec/LmuUpdate` | on top of the run of an uncertainty quantification (C136) and the strain path generators (C54, C55) |
| C139 | `Model/VonMises`, `Model/VonMisesMixed`, `Model/DruckerPrager`, `Model/DruckerPragerVMAP`, `Model/Elastic`, `Spec/Objectivity` | equivariance of each return mapping under Kelvin rotations (`Lemmas/Objectivity`), induction over histories |
| C140 | `Model/VonMises`, `Model/DruckerPrager`, `Model/VonMisesMixed`, `Spec/Dissipation` | energy balance of Hooke's law (convexity), work of the flow vector from the return mapping, induction over the history |
| C141 | `Model/VonMises`, `Model/VonMisesMixed`, `Spec/Proportional` | invariant of the states along a proportional path, induction over the steps; explicit steps for the violation |
| C142 | `Model/PatchRuns`, `Spec/PatchRuns` | invariant of the loop over the patches: frame, completeness of the patches done so far; parameters of the script accepted via C112 |
| C143 | `Model/VonMises`, `Model/DruckerPrager`, `Spec/Stability` | the return is the projection onto the elastic domain in the energy norm of elastic and accumulated plastic strain (cone and apex for Drucker-Prager), so it does not increase distances; the elastic tolerance adds at most tolerance over stiffness; induction over the history |
| C144 | `Model/ModelScripts`, `Spec/ModelScripts` | effect of each step of a script on every sample, composed for the option record; the record of every option checked against the specified inputs and outputs; power of the decay factor |
| C145 | `Model/InternalForces`, `Model/Mesh`, `Model/ForceEquilibrium`, `Spec/FrameForces` | Jacobian of the moved element as a product with the rotation, derivative table and strain turn, force of a Gauss point in closed form from virtual work, induction over the Gauss points; reindexing of the assembly and of the loss sums |
| C146 | `Spec/Units`, `Spec/LouUnits`, `Spec/DPUnits`, existing models of the materials, internal forces and loss | simulation of `newtonLoop` under scaling of residual, scale and Jacobian (induction on the iterations), induction over histories; scaled Jacobian matrix and the closed form of nodal forces; for the Lou-Zhang-Yoon model homogeneity of the invariants and of all derivatives, so that residual and Jacobian matrix are the same in both units |
| C147 | `Spec/PatchTest` (boundary of an element, interior node, specimen) | det times the inverse Jacobian is the adjugate, so the Gauss sums of the shape function derivatives are shares of the element boundary (computed for each element and rule), which change sign with the orientation and cancel at interior nodes |
| C148 | `Model/Lou`, `Model/LouVMAP`, `Spec/Objectivity` | the gradients, Hessians, residuals and the system matrix of the return mapping are conjugated by the rotation of the eight unknowns (`Lemmas/LouRotate`, `Lemmas/LouRotateNewton`); the Newton iterates, the norms in the convergence check and the determinant follow; induction over the iterations and over the history; shear: mirror images of a diagonal strain |
| C149 | `Model/HybridSetup`, `Spec/HybridSetup` | inversion of the stages of the set-up for an arbitrary class given by its constructor and optional methods; GRU and polynomial regressor as instances; violations for all inputs |
| C150 | `Model/HybridInit`, `Spec/HybridInit` | heap of hybridized models, pickling as a copy with new addresses; invariant between model, memory and file under events, by induction over the history |
| C151 | all material models, `Spec/PlaneStrain` | simulation by induction over the history; no out-of-plane shear arises because a state without it is its own mirror image in the plane (C139, C148), directly for the batched von Mises models |
| C152 | `Model/VonMises`, `Model/VonMisesMixed`, `Model/DruckerPrager` and the batched models, `Spec/TangentForm` | major symmetry of the tangent tensors; the quadratic form of a plastic step is split into volumetric work, work across and work along the flow direction, with coefficients that are positive by convergence of the return mapping and Cauchy-Schwarz |
| C153 | `Model/Devices`, `Spec/Devices` | objects as device attributes with parts; induction over the lists of parts and over histories of calls |
| C154 | `Model/ElementCheck` | inversion of the two loops and tests; C11 to C13 for the eight elements; a wrong triangle for the violation |
| C155 | `Model/NoiselessDataset` on `Model/NoisyDataset`, `Spec/ResponseDataset`, `Spec/NoisyDataset` | the retry loop equals that of the response data set generator when the state holds the requested variables, so C102 carries over; the shapes and responses discharge the hypotheses of C109 |
| C156 | `Model/SpecimenSetters`, `Spec/SpecimenSetters` | inversion of the checks of both setters, then induction over the calls |
| C157 | `Model/ElementHistory`, `Spec/ElasticElement` | induction over the increments with the state of the total strain at every Gauss point as invariant; virtual work (C18) gives the forces, symmetry and positivity of Hooke's law the consequences, linearity of assembly (C20) the specimen |
| C158 | `Model/ElementHistory`, `Spec/SpecimenWork` | passivity of each material from the energy balance (C140), summed over Gauss points by virtual work (C18), over increments by induction, over elements by assembly (C20) |
| C159 | `Model/ElementHistory`, `Spec/Uniqueness` | firm non-expansiveness of the return mappings (C143), virtual work (C18), induction over increments, assembly (C20) |
| C160 | `Model/LouNumerical`, `Spec/LouNumerical` | mean value theorem with the Fréchet derivative of C89; the residual is affine in the multiplier; the derivative of J3 is quadratic |
| C161 | `Model/FinderObject`, `Spec/FinderObject` | case analysis of the constructor and the call; invariants over the list of calls (loss type, normalisation and device never change); the loss from the state after the accepted call |
| C162 | `Model/ConvexBoundary`, `Spec/ConvexBoundary` | induction on the number of halvings with the invariant that the ends of the window are the initial ones or decided by the test; the rows by induction on the angles; C92 for the test of the model |
| C163 | `Model/NoiseConvergence`, `Spec/NoiseConvergence` | the array is computed in closed form (blocks side by side, by induction on the blocks), then the columns of a case are cut out of a row |
| C164 | `Model/ReferencePaths`, `Spec/ReferencePaths` | injectivity of the names of entries; reverse induction over the loop of the data set; pairs of curves by induction over the inner loop |
| C165 | `Model/ScatterPlot`, `Spec/ScatterPlot` | sums of squares by induction over the points, affine invariance of the mean, columns by `mapM` |
| C166 | `Model/PatchAnalysis`, `Spec/PatchAnalysis` | prefixes of paths; the state after each call, path by path |
| C167 | `Model/TruthPlot` (specification in `Spec/ScatterPlot`, `Spec/NoiseConvergence`) | minimum and maximum of the numbers; affine invariance of the coefficient (C165) |
| C168 | `Model/ConvergencePaths`, `Spec/ConvergencePaths` | injective labels; dictionaries that are filled in order (C131); induction over the types |
| C169 | `Model/SeriesPlot` (specification in `Spec/NoiseConvergence`) | minimum and maximum of all values; the abscissae are multiples of a step |
| C170 | `Model/OptimizationPlot`, `Spec/OptimizationPlot` | sorting a permutation of numbered jobs; induction over jobs; invariant of the running minimum |
| C171 | `Model/UncertaintyPaths`, `Spec/UncertaintyPaths` | mean and extremes of the predictions (C163); labels and dictionaries (C168); induction over the types |
| C172 | `Model/ParameterSurfaces` (specification in `Spec/LmuParameters`) | ends of the hardening table and bounds of Poisson's ratio (C130) |
| C173 | `Model/SpecimenPlots` | positions of Python indices; induction over the labels |
| C174 | `Model/GroupedBars`, `Spec/GroupedBars` | positions of the bars computed; disjointness by the order of (group, data set); the converse by the floor of 1/width |
| C175 | `Model/StatePlot`, `Spec/StatePlot` | curves by the zip of times and values; limits by the least first and the greatest last time |
| C176 | `Model/PredictionComparison`, `Spec/PredictionComparison` | induction on the components with the invariant that the dictionary is empty or has the labels of all compared paths in order |
| C177 | `Model/LawComparison`, `Spec/LawComparison` | induction on the laws for the columns whose index is not 2 modulo 3, then the pairs of columns 2i and 2i+1 |

## Properties violated by the code

Where the code does not do what a property claims, the statement in
`properties.jsonl` names the failing case, the negation is proved (theorem names
end in `_violated`), and what does hold is proved beside it. Claims with status
`partial` in `MANIFEST.json` are those whose main claim is false of the code.

<!-- generated by tools/violations.py -->

* `C01_nokelvin_violated` (`Props/Kelvin.lean`): Outside Kelvin notation (`is_kelvin_notation=False`) the loop version does not write the transposed entries: a symmetric tensor is *not* recovered.
* `C05_nokelvin_violated` (`Props/Kelvin.lean`): C05b fails for a symmetric order with `is_kelvin_notation=False`: the loop version leaves the transposed entry zero, the vectorised one fills it.
* `C09_traceless_2d_violated` (`Props/Tensorops.lean`): The 2D failure as a concrete witness: the deviatoric projection of the 2D identity has trace 2/3.
* `C23_converge_alias_violated` (`Props/StructureState.lean`): **C23.** Converging without a copy makes the two registers one: a later update of `current` also changes `last`.
* `C23_nocopy_alias_violated` (`Props/StructureState.lean`): **C23.** Storing or reading without a copy hands out the stored object: a modification by the client changes the store.
* `C24_symmetric_modulus_violated` (`Props/Elastic.lean`): C24g (violated): elastic.py:442-448 is meant to accept the symmetric modulus (`E2211` for `E1122`), but the symmetric name is built without its leading letter, so a dictionary which gives an isotropic material as `E1111`, `E2211` is rejected.
* `C27_nadai_violated` (`Props/Hardening.lean`): C27c (violated): for every `ep0 > 0` and `a, b > 0` the returned yield stress exceeds the documented `s0 + a (ep0 + ε)^b`, since `ep0` is added twice.
* `C34_unit_violated` (`Props/VonMisesVMAP.lean`): for `small > 0` the claim is false: for the deviator of a uniaxial stress the batched flow vector is shorter than the unit direction scaled by `√(3/2)`.
* `C35_yield_violated` (`Props/VonMisesMixed.lean`): the yield condition is not met after a plastic step with kinematic hardening: the back stress is advanced by the flow vector of norm `√(3/2)` without the factor `2/3`, so that here the relative stress ends at `3/5` although the yield stress is 1.
* `C37_unit_violated` (`Props/DruckerPrager.lean`): the claim is false in general: for a uniaxial trial strain the squared norm of the direction tensor is `2/3`.
* `C39_minmax_constant_violated` (`Props/Scalers.lean`): a training feature which is constant becomes NaN after min-max scaling; with data checking the scaler raises on its own training data.
* `C42_float_copy_violated` (`Props/TypeConversion.lean`): the claim that the argument is never modified is false: a float64 tensor inside the nested dictionary of hardening parameters becomes float32 in the caller's dictionary.
* `C42_tensor_copy_drops_violated` (`Props/TypeConversion.lean`): when not in place (and without nested dictionaries) the argument is untouched, but the returned dictionary only contains the entries which were numbers: tensors, strings and other values are dropped.
* `C42_tensor_copy_witness_violated` (`Props/TypeConversion.lean`): A concrete loss: the entry `"v"`, already a tensor, is absent from the copy.
* `C42_tensor_nested_violated` (`Props/TypeConversion.lean`): the conversion to tensors raises TypeError for every dictionary which contains a dictionary, in place or not, and for no other dictionary.
* `C45_concat_remove_collision_violated` (`Props/DatasetFeatures.lean`): **C45** is violated when the new label is one of the inputs and the inputs are to be removed: the result is not stored in any sample.
* `C45_subset_of_files_violated` (`Props/DatasetFeatures.lean`): **C45** is violated for a `Subset` of a file data set: whatever the call, no sample changes.
* `C45_sum_default_violated` (`Props/DatasetFeatures.lean`): **C45** is violated by the documented default of `sum_dataset_features`: without weights the call raises on every data set whose first sample has the features, and nothing is summed.
* `C46_in_memory_violated` (`Props/DatasetFeatures.lean`): **C46** is violated on data sets that are not file data sets: as soon as a feature is to be renamed the call raises `TypeError`; an in-memory data set is left with the first sample renamed and the others not.
* `C46_swap_violated` (`Props/DatasetFeatures.lean`): **C46** is violated by swapping two labels: on every file data set whose samples have both, the second feature is lost and the first keeps its label.
* `C47_backup_file_violated` (`Props/ModelState.lean`): The reader is not anchored at the end: with a backup copy of an epoch file in the directory, every load of the last state raises `ValueError`, whatever states were saved.
* `C49_missing_epoch_violated` (`Props/ModelState.lean`): **C49** is violated: requesting a missing epoch raises, and all later checkpoints are deleted.
* `C49_missing_init_violated` (`Props/ModelState.lean`): **C49** is violated for the initial state too.
* `C50_unknown_epoch_violated` (`Props/ModelState.lean`): **C50** is violated: a best state saved without an epoch cannot be loaded, whatever the name of the model. Saving it succeeds and writes the file `name-best.pt`.
* `C50_value_error_violated` (`Props/ModelState.lean`): **C50** is violated: if the last dash-separated part of the model name contains a letter, loading the best state raises `ValueError`, and so does every later attempt to save a best state, which leaves the directory unchanged.
* `C51_best_violated` (`Props/ModelState.lean`): **C51** is violated: in every reachable directory with a best state, saving a new best state has a crash point after which there is no best state at all, and the next one leaves only a partially written file; in both cases the best state cannot be loaded.
* `C52_nan_violated` (`Props/Training.lean`): **C52** fails when the first loss is NaN: whatever the later losses, no best state is ever saved (an older one stays) and the function raises `ValueError` at the end.
* `C52_tie_violated` (`Props/Training.lean`): Two epochs with the same loss: the best state on disk is that of epoch 1, the reported best epoch is 0.
* `C53_final_epoch_violated` (`Props/Training.lean`): **C53** (finding). When training is stopped at epoch `e`, the state saved as that of epoch `e` is the best validated one, not the state trained in epoch `e`.
* `C53_nan_validation_violated` (`Props/Training.lean`): A validation loss which is not a number or infinite in the first validation: with tolerance 1 training aborts with `RuntimeError`, since no best state was stored.
* `C53_old_file_violated` (`Props/Training.lean`): **C53** fails with an old file of epoch 0 (left by an earlier training in the directory, or by the training that is being resumed) when states are not saved at intervals: the first validation replaces the trained model by the old state, whatever was trained.
* `C55_bounds_without_zero_violated` (`Props/StrainPath.lean`): **C55** fails for bounds which do not contain zero: a proportional path starts at zero strain.
* `C55_random_violated` (`Props/StrainPath.lean`): **C55** fails for random paths: with four control points of a polynomial, the normal strain with the bounds -3 and 1 reaches 9/8 at the fourth of five points, since the path is scaled for the lower bound only.
* `C56_reversal_violated` (`Props/StrainPath.lean`): **C56** (finding). If the unconstrained steps of a proportional path are shorter than half of the prescribed norm, the path reverses its direction: its third state is the initial one.
* `C57_dev_violated` (`Props/StressFeatures.lean`): **C57, violated.** Whenever the order lists a diagonal component, the stored feature is the deviatoric stress only for a traceless stress.
* `C58_2d_violated` (`Props/VolumetricBar.lean`): **C58, violated in two dimensions.** With a uniform volumetric strain the averaged strain is the strain of the point minus a sixth of the volumetric strain on the diagonal: it is the strain of the point only if the volumetric strain vanishes.
* `C58_split_2d_violated` (`Props/VolumetricBar.lean`): **C58, violated in two dimensions.** The two operators of a two-dimensional gradient miss a sixth of its volumetric row on the normal components.
* `C59_components_violated` (`Props/ForceEquilibrium.lean`): **C59, violated.** With normalisation the loss components cannot be stored, unless there are as many times as dimensions; then the stored history ignores the normalisation.
* `C59_normalised_violated` (`Props/ForceEquilibrium.lean`): **C59, violated.** With normalisation bounds that are not opposite to each other, an equilibrated state with a constrained degree of freedom has a positive loss.
* `C59_time_bc_violated` (`Props/ForceEquilibrium.lean`): **C59, violated.** A degree of freedom that becomes constrained after the first time: forces in equilibrium under the boundary conditions of each time have a positive loss.
* `C60_no_free_violated` (`Props/DirichletSets.lean`): **C60, violated.** Without a free degree of freedom the smallest positive label is taken for free: when all degrees of freedom have positive labels and the internal forces match the reactions, the loss is positive as soon as a reaction of the smallest label is not zero.
* `C60_sequential_violated` (`Props/DirichletSets.lean`): **C60, violated.** The sequential modes ignore the loss type: a set whose residuals cancel has zero Dirichlet sets loss but a positive loss in the sequential modes.
* `C62_equal_bounds_violated` (`Props/LearnableParameters.lean`): **C62, violated.** Equal bounds pass the check and fix the parameter without normalisation, but with normalisation the same parameter raises a division by zero.
* `C62_nan_violated` (`Props/LearnableParameters.lean`): **C62, violated.** A parameter that has become NaN is not put inside its bounds; every other value is, infinities included.
* `C62_normalized_out_violated` (`Props/LearnableParameters.lean`): **C62, violated.** Without normalisation the normalised output is not available: the call raises a `KeyError` for every model with a learnable parameter.
* `C62_sync_overwritten_violated` (`Props/LearnableParameters.lean`): **C62, violated.** A learnable friction angle together with a learnable cone parameter: the material model gets the value of whichever is listed last, so a learnable parameter can have no effect.
* `C64_directory_file_violated` (`Props/Iostandard.lean`): **C64, violated.** A regular file with the next numbered name is not skipped: the call raises, although a larger index is free.
* `C64_file_directory_violated` (`Props/Iostandard.lean`): **C64, violated.** The path returned for a file may exist: a directory with the numbered name is returned although the path is occupied.
* `C65_zero_violated` (`Props/FiniteElementTables.lean`): **C65, violated.** For `SQUAD8` the label zero, which no node has, is accepted: the index of the central cell is returned.
* `C66_mav_needs_targets_violated` (`Props/TimeSeriesBatch.lean`): **C66, violated.** The mean absolute value of the predictions needs no ground truth, but without it the call raises, for every prediction with a feature.
* `C67_type_violated` (`Props/Denoise.lean`): **C67, violated.** A series whose type is not the default floating point type is rejected, whatever its values, although its average is defined.
* `C70_stale_coordinates_violated` (`Props/Mesh.lean`): **C70.** Without coordinate updates, a specimen whose coordinates were updated earlier keeps the stale ones, unlike the batched history.
* `C71_gru_violated` (`Props/StructureState.lean`): **C71 is violated for GRU material models.** A call with a GRU model always raises, after creating the model and before assigning it to any element: the data scalers are set by a method which the model does not have.
* `C72_gradient_zero_target_violated` (`Props/Loss.lean`): in the default mode the gradient at every entry whose target is zero is NaN, whatever the prediction and the number of entries, although the loss itself is finite: the branch which is not selected by `torch.where` divides by zero.
* `C73_inadmissible_violated` (`Props/ConvexityMapping.lean`): **C73, violated.** The mapping is meant to return admissible parameters, but it returns the last trial point, not the last admissible one. If along the ray exactly the points up to a radius `R` are convex, the returned point is not convex whenever `R` lies in the lower half of its search cell, that is in `[2k·5/2^23, (2k+1)·5/2^23)` for some `k < 2^22`.
* `C73_leaves_bounds_violated` (`Props/ConvexityMapping.lean`): **C73, violated.** The constraints are enforced after the bounds and can leave them: with the test passing exactly in the unit disc and the bounds `[2, 3]` for the first parameter, the parameter ends below `2` although it was inside its bounds.
* `C73_one_learnable_violated` (`Props/ConvexityMapping.lean`): **C73, violated.** With only one of the two parameters learnable the other keeps its value, so the pair is not moved to the boundary and can stay inadmissible: with the test passing exactly in the unit disc, a learnable first parameter `2` and a fixed second parameter `2`.
* `C74_single_precision_violated` (`Props/Denoise.lean`): **C74, violated.** The filter rejects every single precision series, whatever its values, window and order, although single precision is the default floating point type: the coefficients are double precision.
* `C77_crash_violated` (`Props/ModelInit.lean`): C77, violated: a program interrupted while it saves the file leaves a directory from which no model can be initialized, although an earlier file was there.
* `C77_failed_fit_violated` (`Props/ModelInit.lean`): C77, violated: a fit that raises removes the scalers from the model but not from its file.
* `C77_get_device_violated` (`Props/ModelInit.lean`): C77, violated: the device of a model cannot be asked for.
* `C77_path_violated` (`Props/ModelInit.lean`): C77, violated: a model cannot be initialized from the path of a file of the current directory given without directory (`''` is not a directory).
* `C77_reloaded_violated` (`Props/ModelInit.lean`): C77, violated: the scalers of a model initialized from a file are not saved any more. Whatever is set on it, the directory gives back the old ones.
* `C77_set_fitted_violated` (`Props/ModelInit.lean`): C77, violated: setting scalers from given scaling parameters always raises.
* `C78_no_targets_violated` (`Props/Prediction.lean`): **C78, violated.** Samples without targets cannot be predicted, although their ground truth is meant to be optional: `KeyError`.
* `C78_seed_violated` (`Props/Prediction.lean`): **C78, violated.** With an integer seed, prediction always raises `TypeError`: the arguments of the data loader are passed on as one argument named `kwargs`.
* `C78_zero_loss_violated` (`Props/Prediction.lean`): **C78, violated.** A perfect prediction is reported as if there were no ground truth: the average loss is not written when it is exactly zero.
* `C79_crash_violated` (`Props/TrainingState.lean`): **C79** is violated by a crash: if the process stops between the two writes, the epoch has a complete model state file and no optimizer state file.
* `C79_resume_violated` (`Props/TrainingState.lean`): **C79** is violated by resuming: `train_model` loads the state to resume from with removal of the later model state files, but the optimizer state files of the later epochs stay, alone.
* `C79_validation_violated` (`Props/TrainingState.lean`): **C79** is violated by the early stopping of recurrent constitutive and hybrid models: in every reachable directory, validating at an epoch whose state is not saved raises a `TypeError`, where the recurrent neural network model validates.
* `C81_in_normalized_violated` (`Props/Hybrid.lean`): **C81** is violated for hybrid models with normalized input features: the features are normalized by the prediction (and by the training) but handed to the hybridized models as they are, which expect physical units, so the prediction is the function of the normalized features.
* `C81_no_method_violated` (`Props/Hybrid.lean`): **C81** is violated for models without a method `data_scaler_transform`, i.e. all models but the polynomial regressor, for instance the recurrent networks: if such a model expects normalized input features, the hybrid model is built but every evaluation raises an `AttributeError`.
* `C82_composition_violated` (`Props/HybridLayers.lean`): **C82** is violated by the composition layer: it overwrites its input. If some volumetric part is not zero, the input tensor is changed by the call and a second evaluation of the same tensor returns `t + 2 v I`.
* `C82_symmetry_violated` (`Props/HybridLayers.lean`): **C82** is violated for anisotropic materials: the elastic layers accept an elastic symmetry but compute the tangent for an isotropic material. For every orthotropic stiffness with `E2222 ≠ E1111` the layer is built and returns a wrong stress for the strain 22.
* `C85_cone_violated` (`Props/ConsistentTangentDP.lean`): the claim is false for every return to the cone from an elastic trial strain with a volumetric part (3D, linear cohesion hardening, frictional parameters): the returned tangent is not the derivative of the updated stress.
* `C86_tangent_violated` (`Props/VonMisesMixedVMAP.lean`): the tangent returned by the batched mixed hardening model is not the derivative of its updated stress: it omits the slope of the kinematic hardening, which the standard model includes. Here the normal stress grows with slope about 0.6 and the tangent says about 0.33.
* `C87_cohesionless_violated` (`Props/DruckerPragerVMAP.lean`): a material without cohesion is reported plastic by the batched model although the strain increment is zero and the stress is zero; the standard model reports an elastic step.
* `C87_small_stress_violated` (`Props/DruckerPragerVMAP.lean`): the yield condition is not met by the batched return to the cone when the trial stress is small: with cohesion `5e-5` and a trial `√J2` of `9e-5` the yield function ends at `2.4e-6`, almost 5 % of the cohesion, because `√J2` is replaced by `1e-4` in the factor of the deviator. The standard model ends within a millionth of the cohesion.
* `C90_accumulated_violated` (`Props/LouApex.lean`): The accumulated plastic strain is not monotone: without hardening, a plastic step whose trial pressure is between 95 % and 100 % of the pressure at the apex is returned to the apex (the pressure is increased) and lowers the accumulated plastic strain, below zero in the initial state.
* `C90_pure_shear_violated` (`Props/LouUpdate.lean`): The update has no result for any plastic increment of pure shear: whatever the elastic constants and the yield parameters `b`, `c`, `d` are, a first increment of pure shear which exceeds the yield stress raises `RuntimeError`, in plane strain and in 3D, because the deviator of a pure shear stress is singular and `get_stress_invariants_and_derivatives` inverts it.
* `C92_false_accept_violated` (`Props/YieldConvexity.lean`): The check accepts yield surfaces which are not convex: it samples finitely many chords, and for a Drucker parameter slightly above the convexity limit `9/4` all of them pass.
* `C93_elastic_violated` (`Props/LouVMAP.lean`): The batched model has no result for elastic states which the standard model returns: a strain increment of zero, or of pure shear however small, raises `RuntimeError` in the initial state for every material, because the return to the surface is computed also for elastic samples and inverts the deviator of the stress.
* `C96_3d_violated` (`Props/PatchCorners.lean`): **C96d, violated.** In three dimensions an edge of order zero need not move as a whole orthogonal to its direction: the displacements of its corners along a common orthogonal dimension can differ.
* `C96_fixed_violated` (`Props/PatchCorners.lean`): **C96c, violated.** A fixed degree of freedom can be displaced: with the default orders (zero) the corner at the other end of an edge pulls it along.
* `C98_default_violated` (`Props/PatchGenerate.lean`): Although documented as "no motion", and although it is the default, `None` for the range of the translation or of the rotation angles is an error as soon as an edge has been deformed: the conditions test local variables of another meaning.
* `C98_small_violated` (`Props/PatchGenerate.lean`): A patch of at most `1e-8` in both directions (the tolerance with which a node is looked up by its coordinates is absolute) is returned with the displacement of a single node, whatever the mesh: all nodes of the boundary are taken for the last node.
* `C99_disps_violated` (`Props/MeshRemoval.lean`): **C99 violated**: with the displacements of all nodes (as documented), the removal of an element that loses no boundary node can fail: the displacement of a lost node is looked up among the remaining ones.
* `C99_error_violated` (`Props/MeshRemoval.lean`): **C99 violated**: if a boundary node is lost and a label to be removed is not that of an element, the documented error is not raised.
* `C100_materials_violated` (`Props/FinderForwardCases.lean`): **C100, violated.** With two different plain models of the same class, the loops use the model of each element and the vectorised mode, without raising, that of element 1 everywhere.
* `C100_normalised_violated` (`Props/FinderForwardCases.lean`): **C100, violated.** With a model whose outputs are scaled, the loops store the scaled stresses and the vectorised mode the stresses.
* `C100_paths_violated` (`Props/FinderForwardCases.lean`): **C100, violated.** If the list of elements whose local paths are requested contains a label that is not in the mesh, the loops ignore it and the vectorised mode raises.
* `C100_sync_violated` (`Props/FinderForwardCases.lean`): **C100, violated.** With a model that has to be synchronised with its learnable parameters, the loops use the parameters of the last synchronisation and the vectorised mode the current ones.
* `C101_initial_strain_violated` (`Props/RecurrentForwardCases.lean`): The response ignores the strain at time zero: a path of a constant nonzero strain has no stress, though the model predicts one for this strain.
* `C101_missing_features_violated` (`Props/RecurrentForwardCases.lean`): A requested variable that the state does not hold is zero in the response of the loops, and the vectorised propagation raises an error, for every batch of at least one path with at least two times.
* `C101_strain_features_violated` (`Props/RecurrentForwardCases.lean`): With a strain variable among the state features the loops return (C101g) and the vectorised propagation raises an error, for every batch of at least one path with at least two times.
* `C102_empty_violated` (`Props/ResponseDataset.lean`): No samples requested: the average time per path is a division by zero.
* `C102_last_trial_violated` (`Props/ResponseDataset.lean`): If ten paths fail and the next one does not, the generation raises the error that the number of trials was reached without success.
* `C102_missing_features_violated` (`Props/ResponseDataset.lean`): A requested variable that the state does not hold is missing in every sample of at least two times, where the recurrent model has zeros (`C101_missing_features_violated`).
* `C103_kept_violated` (`Props/PruningCases.lean`): The data sets of an iteration are not kept. With the default parameters the first two iterations of a pruning of twenty samples have sixteen training samples, and the training data set in the directory named after this number is a subset of the development samples of the last iteration.
* `C103_minimum_reached_violated` (`Props/PruningCases.lean`): The minimum size is not reached in good order. With the default parameters a pruning of nine samples raises, instead of returning that the minimum size of ten is reached.
* `C103_progress_violated` (`Props/PruningCases.lean`): A pruning step need not prune. With the default parameters a data set of twenty samples loses one sample in the first step; the hundredth iteration still has the other nineteen.
* `C103_testing_minimum_violated` (`Props/PruningCases.lean`): The testing minimum is not honoured. With the default parameters, which ask for ten testing samples at least in a pruning step, a data set of fifty samples is pruned by a step which tests on five samples, whatever is drawn and trained.
* `C103_unseen_violated` (`Props/PruningCases.lean`): The samples pruned are not unseen by the model which selects them. With eighty, ten and ten per cent of the samples for the training, the validation and the testing of a pruning step, the validation samples of the training of the first step of twenty samples are its testing samples.
* `C104_iterations_violated` (`Props/PruningPreview.lean`): The preview does not tell the number of iterations. For fifty samples and the default parameters the preview ends after its first line because the minimum number of testing samples is reached; the pruning goes on.
* `C104_training_size_violated` (`Props/PruningPreview.lean`): The preview does not tell the training sizes. For eleven samples and the default parameters the preview announces eight training and three validation samples; the pruning starts with nine and two.
* `C105_boundary_node_violated` (`Props/SpecimenMeshCases.lean`): **C105 is violated for invalid nodes of boundary conditions.** A displacement prescribed for the node 0, which does not exist, is taken for the last node of the mesh.
* `C105_labels_violated` (`Props/SpecimenMeshCases.lean`): **C105 is violated for node labels.** They are ignored: in a file that lists node 2 (at 5) before node 1 (at 7), node 1 gets the coordinate of node 2.
* `C105_unused_node_violated` (`Props/SpecimenMeshCases.lean`): **C105 is violated for repeated element labels.** A repeated label replaces the earlier element without an error, and the check that every node belongs to an element counts the nodes of the replaced element: the mesh read has a node of no element.
* `C106_free_dof_violated` (`Props/LinksFileCases.lean`): **C106 is violated for free degrees of freedom.** A displacement `None`, for which the code of the prescription has a zero, cannot be written.
* `C106_phase_violated` (`Props/LinksFileCases.lean`): **C106 is violated for material phases of four digits.** The number of the phase is glued to the label of the element in the file, and the first node of every element is lost when the connectivities are extracted.
* `C106_quad8_violated` (`Props/LinksFileCases.lean`): **C106 is violated for quadrilaterals of eight nodes.** A simulation can be written with them; the conversion to a specimen mesh raises an error, whatever the mesh.
* `C106_title_violated` (`Props/LinksFileCases.lean`): **C106 is violated for titles.** If the title of the simulation is `Tension of 8 elements`, the connectivities cannot be extracted from the file written: the title is taken for the keyword of the elements.
* `C107_backup_violated` (`Props/SpecimenHistoryCases.lean`): **C107 is violated for backup copies.** The pattern of the history files is open at the end: a backup copy of a file is a time step of its own.
* `C107_empty_violated` (`Props/SpecimenHistoryCases.lean`): **C107 is violated without node data.** Without node data files the conversion raises an `IndexError`; the results of the same simulation are read without complaint, as `None`.
* `C107_flags_violated` (`Props/SpecimenHistoryCases.lean`): **C107 is violated when not saving.** Both files have to be saved: with one of the two flags off, the data set of the specimen is generated and an `UnboundLocalError` is raised at the end.
* `C107_labels_violated` (`Props/SpecimenHistoryCases.lean`): **C107 is violated for tables in another order.** The nodes of the history are the rows of the tables, whatever the nodes named in them: if the first row is that of node 2, its displacement is given to node 1.
* `C107_prefix_violated` (`Props/SpecimenHistoryCases.lean`): **C107 is violated for names beginning with another.** The files of a simulation are those beginning with its name: the files of another simulation kept beside it, whose name is longer, become time steps of the first.
* `C107_single_node_violated` (`Props/SpecimenHistoryCases.lean`): **C107 is violated for single nodes.** The results of a simulation with a single node cannot be read.
* `C107_time_violated` (`Props/SpecimenHistoryCases.lean`): **C107 is violated for times.** The times of the history are the positions of the steps, not the times recorded in the tables: a simulation whose first step ends at a time other than zero gets another time.
* `C108_change_violated` (`Props/Noise.lean`): **C108 is violated for a change of the distribution.** The parameters of the former one are kept: `set_noise_distribution` accepts the change, and the next noise raises `KeyError`.
* `C108_default_weights_violated` (`Props/Noise.lean`): **C108 is violated for the default weights.** They are ones, which the documentation calls homoscedastic noise. The noise has both parts then, and values that homoscedastic noise of the same amplitude never has.
* `C108_few_weights_violated` (`Props/Noise.lean`): **C108 is violated for too few weights.** The number of weights is not checked: with fewer weights than times, `IndexError`.
* `C108_negative_violated` (`Props/Noise.lean`): **C108 is violated for a negative deviation.** `set_noise_parameters` accepts it, while the sign of an amplitude does not matter; every noise then raises `ValueError`.
* `C108_negative_weight_violated` (`Props/Noise.lean`): **C108 is violated for a negative weight.** With the uniform distribution the sign of a weight does not matter; with the others a single negative weight is `ValueError`.
* `C108_variability_violated` (`Props/Noise.lean`): **C108 is violated for an unknown variability.** Unlike an unknown distribution, it is not refused: the noise is never assigned, which is `UnboundLocalError`.
* `C108_zero_weight_violated` (`Props/Noise.lean`): **C108 is violated for the weight zero.** The weights are documented as scaling the variance of the noise at each data point; where the weight is zero, the noise is still there, and is as large as homoscedastic noise.
* `C109_denoise_scaled_violated` (`Props/NoisyDatasetCases.lean`): **C109 is violated for denoising with a scaler.** To keep the initial strain, that of the noiseless path is assigned; but this path was replaced by its transform. The initial strain of the sample is the normalized one.
* `C109_empty_violated` (`Props/NoisyDatasetCases.lean`): **C109 is violated for empty data sets.** The average time per path is a division by zero.
* `C109_import_violated` (`Props/NoisyDatasetCases.lean`): **C109 is violated for imported modules.** With heteroscedastic noise the method uses global names that are defined only if the module is run as a script: imported from it, the generator raises `NameError`.
* `C109_missing_features_violated` (`Props/NoisyDatasetCases.lean`): **C109 is violated for missing state variables.** They are documented to be ignored. The variable is removed at every time: from three times on, `compute_stress_path` raises `KeyError`.
* `C109_normalizer_violated` (`Props/NoisyDatasetCases.lean`): **C109 is violated for the normalizer.** Without a normalizer, the largest strain norm of each path is documented to be used. That of the first path is used for all of them: the data set is the one with this normalizer given, and a path with larger strains has weights larger than one.
* `C109_precision_violated` (`Props/NoisyDatasetCases.lean`): **C109 is violated for denoising in single precision.** The noise is in double precision, and so is the noisy strain; the kernel of the moving average is of the default type. With the default type of torch, which the script does not change, denoising raises `RuntimeError` for every data set.
* `C110_missing_violated` (`Props/LoadIncrementsRead.lean`): **C110 is violated for files without increments.** They are not refused: the history is never assigned, which is `UnboundLocalError`.
* `C110_short_violated` (`Props/LoadIncrementsRead.lean`): **C110 is violated for missing increments.** A file announcing more increments than it has is accepted: the total load factor of the missing ones is zero, so that the load drops.
* `C110_title_violated` (`Props/LoadIncrementsRead.lean`): **C110 is violated for titles.** If the title of the simulation is `Increments`, the load factors cannot be read from its file: the title is taken for the keyword.
* `C111_first_invariant_violated` (`Props/YieldSurface.lean`): **C111 is violated for the first invariant of the deviatoric stress.** The value documented as the first invariant of the deviatoric stress tensor is that of the stress tensor; the first invariant of every deviator is zero.
* `C111_range_violated` (`Props/YieldSurface.lean`): **C111 is violated for the range of the grid.** The range of the second dimension of the grid is computed from the upper bound of the first and the lower bound of the second dimension: it is negative whenever the grid contains the null stress.
* `C111_small_violated` (`Props/YieldSurface.lean`): **C111 is violated for small yield stresses.** Because of the constant added to `J₂`, the surface plotted for a von Mises model is empty if the yield stress is at most `1.7e-5`: not even the null stress is inside.
* `C112_default_violated` (`Props/PatchSolidCases.lean`): **C112 is violated for the default ranges.** Although documented as "no motion", and although it is the default, `None` for the range of the translation or of the rotation angles is an error.
* `C112_inverted_violated` (`Props/PatchSolidCases.lean`): **C112 is violated for deformations that turn the patch inside out.** Every deformation of a solid patch is flagged as admissible: here a unit cube is mirrored, so that its single element has a negative volume.
* `C112_rigid_violated` (`Props/PatchSolidCases.lean`): **C112 is violated for the nodes inside the faces.** The weights of the interpolation between opposite edges do not reach one, so that a rigid rotation is not reproduced: a unit cube with two elements along each dimension is turned by 180 degrees about its vertical axis, and the node of the bottom face on that axis is displaced.
* `C113_glued_violated` (`Props/NumberFormatCases.lean`): **C113 is violated for tiny and huge negative displacements.** A negative number with an exponent of three digits, such as -1e-100, fills its field of 16 characters: the prescribed displacements of a node beginning with it, glued to the code before it, cannot be read.
* `C114_compression_violated` (`Props/SpecimenDirichletCases.lean`): **C114 is violated for compression.** For a negative displacement of the top the numbers of a line are glued to each other: the file cannot be read if a node is on the top, and the group of the loaded nodes is empty.
* `C114_rounded_top_violated` (`Props/SpecimenDirichletCases.lean`): **C114 is violated for tops that do not have nine digits.** The coordinates read from the input data file are rounded to nine significant digits, and compared with the top up to 1e-8: with the top at 100/3, a node on the top and not on the symmetry planes gets no condition, whatever the displacement.
* `C115_back_violated` (`Props/AbaqusLinksCases.lean`): **C115 is violated for the way back.** The Links file written never has a section with the element type, so converting it to an ABAQUS file raises an `UnboundLocalError`, whatever file it comes from.
* `C115_element_labels_violated` (`Props/AbaqusLinksCases.lean`): **C115 is violated for element labels.** If the labels of the elements are not 1, 2, ... — as in a part of a mesh — the conversion raises a `KeyError`.
* `C115_fixed_node_violated` (`Props/AbaqusLinksCases.lean`): **C115 is violated for boundary lines without a displacement.** The ABAQUS line `node, first, last` (a fixed node), which the specimen reader accepts, raises an `IndexError`.
* `C115_node_labels_violated` (`Props/AbaqusLinksCases.lean`): **C115 is violated for node labels.** The labels of the nodes are not read: a file that lists the nodes in another order is converted to the same Links file, with the coordinates at other nodes.
* `C116_acc_violated` (`Props/PredictionDataCases.lean`): **C116 is violated for the accumulated plastic strain.** The results stored by `predict` do not have the order of the stress components: a `KeyError` is raised for every stored prediction.
* `C116_copies_violated` (`Props/PredictionDataCases.lean`): **C116 is violated for other directories.** A directory whose name only begins like that of a model, such as a copy kept of it, is taken for a model.
* `C116_labels_violated` (`Props/PredictionDataCases.lean`): **C116 is violated for labels.** Only their number counts: other stress components, or plastic strain components in place of stress components, give the same arrays.
* `C116_no_truth_violated` (`Props/PredictionDataCases.lean`): **C116 is violated for predictions without ground truth.** The targets are sliced before they are compared with `None`: a `TypeError` is raised, not the `RuntimeError` that names the sample.
* `C117_no_samples_violated` (`Props/MeanMetricsCases.lean`): **C117 is violated for a directory without predictions.** With other files in the directory nothing is reported: the mean over no samples is returned as an empty tensor, even for an unknown metric.
* `C117_not_finite_violated` (`Props/MeanMetricsFile.lean`): **C117 is violated for metrics that are not finite.** A file with an infinite entry or an entry that is not a number, as the normalized error of a feature whose ground truth is zero, cannot be read: an `AttributeError` is raised.
* `C117_other_label_violated` (`Props/MeanMetricsCases.lean`): **C117 is violated for processes with other labels.** The plot is meant to pass over them (the result of the search is compared with `None`), but the comparison is made with a built-in function: an `AttributeError` is raised.
* `C118_collision_violated` (`Props/CompositeParametersCases.lean`): **C118 is violated for labels that coincide.** In a hybrid model with the hybridized models `m` and `m_yield_c`, the parameter `yield_c_s0` of the first and the parameter `s0` of the second have the same label. Only the second value is collected, whatever the values, so the first parameter is missing from the parameter history and from the best parameters.
* `C118_hybrid_constraints_violated` (`Props/CompositeParametersCases.lean`): **C118 is violated for the constraints of hybrid models.** The training of a hybrid model enforces the bounds of the parameters after each step but not their constraints: with the convexity test passing exactly in the unit disc, a hybridized Lou-Zhang-Yoon model keeps the inadmissible parameters `(2, 0)`, which the material model finder would move.
* `C119_best_violated` (`Props/FinderTrainingCases.lean`): **C119 is violated for the best state.** The loss of an epoch is that of the state before the step, but the state and the parameters after the step are saved as the best ones: for a number with loss `|x - 1|` that starts at `1` and is moved to `2`, the best loss is zero, the state `2` with loss one is saved, and `2` is the best value of the parameter.
* `C119_both_criteria_violated` (`Props/FinderTrainingCases.lean`): **C119 is violated for both stopping criteria at once.** When the early stopping criterion of a recurrent constitutive model is met, the best validated state is restored. If the convergence of the parameters is checked as well and they have not converged, the training goes on from the restored state.
* `C119_nan_violated` (`Props/FinderTrainingCases.lean`): **C119 is violated for a first loss that is not a number.** If the first loss is NaN, every comparison with the smallest loss fails: no best state is saved, and the best parameters are never assigned, whatever the later losses.
* `C119_no_parameters_violated` (`Props/FinderTrainingCases.lean`): **C119 is violated for models without parameters.** The stopping criterion of a model without explicit parameters refers to a history that was never assigned.
* `C119_parameter_history_violated` (`Props/FinderTrainingCases.lean`): **C119 is violated for the parameters of recurrent constitutive and hybrid models.** The value recorded for an epoch is not the mean of the values after its steps: with one step per epoch it is the mean of the values before and after the step, so it differs from the only value of the epoch whenever the parameter changes.
* `C119_single_epoch_violated` (`Props/FinderTrainingCases.lean`): **C119 is violated for `n_max_epochs = 0`.** The average time per epoch divides by the number of the last epoch: every training of one epoch fails after its last file has been written.
* `C119_trigger_violated` (`Props/FinderTrainingCases.lean`): **C119 is violated for a trigger of zero.** The slice of the last zero changes is the whole history, so one early change above the tolerance keeps the training from stopping, although the parameter has not changed since.
* `C120_copy_incomplete_violated` (`Props/ReactionHistory.lean`): **C120 is violated for an incomplete source.** The columns of each source file are checked when its labels are copied: if the second file has none, the call fails but the labels of the first target file have been replaced.
* `C120_copy_rows_violated` (`Props/ReactionHistory.lean`): **C120 is violated for meshes of different sizes.** The numbers of rows are not compared: nodes of the target that the source does not have lose their labels without an error.
* `C120_flatten_violated` (`Props/ReactionHistory.lean`): **C120 is violated for reactions read from files.** The reactions of one time are three of thirteen columns and cannot be flattened with `view(-1)`: for two or more nodes in two or three dimensions the components of the Dirichlet sets loss cannot be computed.
* `C120_labels_violated` (`Props/ReactionHistory.lean`): **C120 is violated for labels that change.** The labels of the first time are used at all times: a node that is constrained from the second time on is missing from the row of its label.
* `C120_names_violated` (`Props/ReactionHistory.lean`): **C120 is violated for the names of the columns.** The columns of the table are named by position, not by label: if every degree of freedom is constrained, `SET 0` is the set with label one.
* `C121_first_violated` (`Props/UniaxialPathCases.lean`): **C121 is violated for the first strain.** No returned strain path begins with a prescribed strain other than zero: the first axial strain of the path is zero, whatever is prescribed.
* `C121_lateral_violated` (`Props/UniaxialPathCases.lean`): **C121 is violated for iterations that do not converge.** For a material whose first lateral stress is `x³ - 2 x + 2`, and for any path of axial strains of at most one, any tolerance up to one and any even number of iterations, such as the 30 of the default, the paths are returned without an error, with no lateral strain and with a lateral stress of 2 at every time.
* `C121_uniaxial_violated` (`Props/UniaxialPathCases.lean`): **C121 is violated for anisotropic materials and initial stresses.** Only the two lateral stresses are considered. For a material that couples the axial strain with a shear stress, the stress that is returned for an axial strain `e` has a shear stress of `e`; for a network with lateral outputs for the undeformed material, here `s`, the first stress of the path has these lateral stresses.
* `C122_crash_violated` (`Props/TrainingRecords.lean`): **C122 is violated for an interruption while saving.** When the process ends between the two file operations of a save, neither the new record nor the record that was there can be read.
* `C122_rates_violated` (`Props/TrainingRecords.lean`): **C122 is violated for the learning rates of a scheduler.** With an exponential decay by a factor other than 0 and 1, the record of no epoch is the learning rate that the epoch used.
* `C123_mean_violated` (`Props/PatchQueries.lean`): **C123 is violated for rotations around 180 degrees.** Vectors rotated by `180 - ε` and by `180 + ε` degrees have the mean rotation 0, although the vectors are almost reversed.
* `C124_columns_violated` (`Props/NoisyHistoryCases.lean`): **C124 is violated for the histories of the specimens.** The history files that are written from a simulation, and that are read for a specimen, have thirteen columns (C107): for these, the injection fails at the second time step, leaving the first one alone in the new directory.
* `C124_empty_violated` (`Props/NoisyHistoryCases.lean`): **C124 is violated for directories without time steps.** An earlier result is deleted before the function fails.
* `C124_initial_violated` (`Props/NoisyHistoryCases.lean`): **C124 is violated for initial displacements.** The displacements of the first time step are deleted, even when nothing is denoised.
* `C124_name_violated` (`Props/NoisyHistoryCases.lean`): **C124 is violated for an empty name.** Without a name, or with the name `.`, of the new directory, the data directory itself is emptied: the whole history is lost, and both functions fail.
* `C124_precision_violated` (`Props/NoisyHistoryCases.lean`): **C124 is violated for single precision.** The displacements are read in double precision: with the default precision of PyTorch, the moving average refuses every history with nodes, after the earlier result has been deleted.
* `C124_reading_violated` (`Props/NoisyHistoryCases.lean`): **C124 is violated for the reading of noisy histories.** Whatever is written after the first time step is refused by the reading of the history of a specimen, which expects thirteen columns.
* `C124_specimens_violated` (`Props/NoisyHistoryCases.lean`): **C124 is violated for two specimens.** With the histories of two specimens in the directory, only one initial step is kept: the initial displacements of the other specimen get noise.
* `C125_emptied_violated` (`Props/LinksRunCases.lean`): **C125 is violated for errors after the file is opened.** The file is opened, and emptied, before the lines are put together: if a material model is unknown or a descriptor is missing, the earlier input file is replaced by an empty one.
* `C125_glued_violated` (`Props/LinksRunCases.lean`): **C125 is violated for negative numbers with exponents of three digits.** They fill the sixteen columns, and no blank separates them from the next number.
* `C125_increments_violated` (`Props/LinksRunCases.lean`): **C125 is violated for the loading incrementation.** Its file is replaced also if files are not to be overwritten.
* `C125_labels_violated` (`Props/LinksRunCases.lean`): **C125 is violated for labels with leading zeros.** The check of the descriptors reads the labels as numbers, the writing looks for the texts of the numbers: the label `01` passes the check of phase 1, and its descriptors are not found after the file has been emptied.
* `C125_stale_violated` (`Props/LinksRunCases.lean`): **C125 is violated for the output of an earlier run.** The output directory is not removed before the run, and the exit code of the program is not used: if the program fails at once, the screen file of an earlier successful run of a file with the same name makes it a success.
* `C125_unknown_violated` (`Props/LinksRunCases.lean`): **C125 is violated for parameters with unknown names.** They are ignored without an error.
* `C126_gap_violated` (`Props/LinksOutputCases.lean`): **C126 is violated for gaps.** Steps zero and two of a simulation become the files of steps zero and one.
* `C126_half_violated` (`Props/LinksOutputCases.lean`): **C126 is violated for failed updates.** The files are marked one by one: if the second has another number of columns the update raises, but the first has its new marks.
* `C126_lost_violated` (`Props/LinksOutputCases.lean`): **C126 is violated for failed exports.** A file of node data with another number of columns makes the export raise, but the files of the earlier export are gone.
* `C126_plane_violated` (`Props/LinksOutputCases.lean`): **C126 is violated for two dimensions.** No output file of a Gauss point of a plane problem can be read.
* `C126_slash_violated` (`Props/LinksOutputCases.lean`): **C126 is violated for paths with a final separator.** The name of the simulation is then empty, so the files of all simulations are taken and the history of the simulation is not found.
* `C126_small_violated` (`Props/LinksOutputCases.lean`): **C126 is violated for other specimens.** The sets of `generate_dirichlet_sets` are those of one specimen: for a mesh with fewer nodes it raises.
* `C126_specimen_violated` (`Props/LinksOutputCases.lean`): **C126 is violated for meshes of other specimens.** A mesh with enough nodes is marked at the nodes of that one specimen, whatever the nodes of its own sets.
* `C127_nodir_violated` (`Props/RecurrentInit.lean`): **C127 is violated for models without directory.** They are documented, but the constructor raises unless told not to save the initialization file.
* `C127_options_violated` (`Props/RecurrentInit.lean`): **C127 is violated for options.** A model built without synchronisation, or without the check of failed state updates, is rebuilt with them.
* `C127_shared_violated` (`Props/RecurrentInit.lean`): **C127 is violated for models of one dictionary.** If two models are given the same dictionary of material parameters, the second, for which Young's modulus is given and not learnable, computes with the modulus that the first has learned, and the dictionary of the caller is changed.
* `C128_stored_violated` (`Props/ResponseFiles.lean`): **C128 is violated for data sets on disk.** Whatever the files, the generator raises a `NameError` for the name of the data set, which is not an argument.
* `C128_units_violated` (`Props/ResponseFiles.lean`): **C128 is violated for small stresses.** The tolerance does not depend on the units: a path whose stresses are not zero but at most `1e-8` is left out without an error.
* `C128_unloaded_violated` (`Props/ResponseFiles.lean`): **C128 is violated for paths without stress.** If all paths are left out, the generator raises a `ZeroDivisionError`.
* `C129_lengths_violated` (`Props/StressSpaceCases.lean`): **C129 is violated for paths of different lengths.** Whatever the stresses, a plot of the principal stresses, of the π-plane or of the triaxialities over the time then raises a `ValueError`: the block of a shorter path has the rows of the longest one.
* `C129_padding_violated` (`Props/StressSpaceCases.lean`): **C129 is violated for the statistics of paths of different lengths.** Of two paths of uniaxial tension, with two times and with one, the points contain the triaxiality and Lode parameter zero, that no stress of the paths has.
* `C129_units_violated` (`Props/StressSpaceCases.lean`): **C129 is violated for small stresses.** Whether a stress has a triaxiality depends on the units: the same uniaxial tension has one in Pa and none in GPa.
* `C130_first_yield_violated` (`Props/LmuParameters.lean`): **C130 is violated at first yield.** Without plastic strain the slope is zero instead of the hardening modulus, for every admissible temperature and composition.
* `C131_default_violated` (`Props/LmuData.lean`): **C131 is violated for the default ratio.** A data set type without a ratio of random strain paths is documented to use random strain paths only; it is always refused.
* `C131_import_violated` (`Props/LmuDataCases.lean`): **C131 is violated for imported functions.** The check of the target directory reads a global variable of the script instead of its argument: called from another module, the generation ends with a `NameError` for every nonempty grid.
* `C131_overwritten_violated` (`Props/LmuDataCases.lean`): **C131 is violated for close grid values.** The directories of two temperatures that agree to two decimals have the same name: the data of the first are overwritten, and no sample of that temperature is assembled for training.
* `C131_stale_violated` (`Props/LmuDataCases.lean`): **C131 is violated for another data set type.** A type without its own directory is saved in the directory of the type assembled before it: the assembled training data are replaced by the others.
* `C131_unknown_violated` (`Props/LmuDataCases.lean`): **C131 is violated for another data set type alone.** It is not assembled at all: the name of its directory was never set.
* `C132_steep_violated` (`Props/ReturnMappingCases.lean`): **C132 is violated for steep hardening.** The slope reported without plastic strain is zero, so that the first iteration overshoots. For every table which starts at zero plastic strain, a first plastic step whose trial stress does not exceed the last ordinate although the first iterate is beyond the last abscissa never converges: the iterates alternate between two values, and the state update fails.
* `C133_steep_violated` (`Props/ConeReturnCases.lean`): **C133 is violated for steep cohesion.** For every table of the cohesion which starts at zero plastic strain, a first plastic step whose first iterate is beyond the last abscissa although the yield function of the trial stress at the last ordinate is not positive never converges: the iterates of the return to the cone alternate between two values and the state update fails.
* `C134_counts_violated` (`Props/ConvergenceDataCases.lean`): **C134 is violated for different numbers of realizations.** If a model has several realizations but not as many as the last one, there is no convergence plot.
* `C134_exact_violated` (`Props/ConvergenceDataCases.lean`): **C134 is violated for exact models.** If one of the models predicts exactly, there is no convergence plot.
* `C134_fewer_violated` (`Props/ConvergenceDataCases.lean`): **C134 is violated for other numbers of realizations.** The losses of the realizations are shown only if the number asked for is that of the realizations found: not for fewer.
* `C134_label_violated` (`Props/ConvergenceParameters.lean`): **C134 is violated for equal sizes.** Of two models trained with data sets of the same size only the second one is shown.
* `C134_missing_violated` (`Props/ConvergenceParameters.lean`): **C134 is violated for missing parameters.** A parameter that a realization does not have is stored as zero.
* `C134_order_violated` (`Props/ConvergenceParameters.lean`): **C134 is violated for another order of the parameters.** The values of a realization that lists the same parameters in another order are stored under the wrong names.
* `C134_repeated_violated` (`Props/ConvergenceDataCases.lean`): **C134 is violated for a single realization.** If the last model has several realizations and another one only one, the single loss is shown once for each realization of the last model.
* `C134_stale_violated` (`Props/ConvergenceData.lean`): **C134 is violated for several data set files.** A directory with data set files of two sizes (one left behind by an earlier generation) gives the size of whichever is listed first.
* `C134_stray_violated` (`Props/ConvergenceDataCases.lean`): **C134 is violated for other directories beginning with `model_`.** A copy of a realization, such as `model_0_old`, counts as a realization.
* `C134_zero_violated` (`Props/ConvergenceData.lean`): **C134 is violated for exact predictions.** A loss of zero (and a loss that was not computed) is written as `None`: reading it raises.
* `C135_bare_violated` (`Props/SampleFilesCases.lean`): **C135 is violated for the working directory.** The conversion of a data set given by the name of its file alone raises after it has written the sample files.
* `C135_incomplete_violated` (`Props/SampleFiles.lean`): **C135 is violated for incomplete directories.** If a sample file is missing in the new directory, the data set is left with the new directory, the new paths of the files before the missing one, and the old paths of the others.
* `C135_normalised_violated` (`Props/SampleFiles.lean`): **C135 is violated for directories that are not normalised.** The files of a directory such as `./data` are said not to be in the directory.
* `C135_relocate_violated` (`Props/SampleFiles.lean`): **C135 is violated for files of data sets.** The file of a data set with sample files, or of a subset of one, cannot be updated to another directory: the update raises whatever the directory has, and the file still has the old paths. The same directory with a slash at its end counts as another one.
* `C135_twice_violated` (`Props/SampleFiles.lean`): **C135 is violated for a file listed twice.** An update of the first sample also changes the second.
* `C136_carried_violated` (`Props/UncertaintyRuns.lean`): **C136 is violated for files of an earlier realization.** The realizations are trained in one directory that is not emptied in between: a file that the training of the second one does not write is copied to it from the first one.
* `C136_crossval_violated` (`Props/UncertaintyRuns.lean`): **C136 is violated for the cross-validation.** It never works: whatever the folds and the samples, it ends with an error before the first fold.
* `C136_label_violated` (`Props/UncertaintyRuns.lean`): **C136 is violated for other types of prediction.** The time series can only be plotted for the stress and for the accumulated plastic strain: for another type the label has no value and the plot ends with an error.
* `C136_lost_violated` (`Props/UncertaintyRuns.lean`): **C136 is violated for an interrupted quantification.** A run with training deletes the realizations of an earlier run before it trains: if the first training fails, they are gone, and only an empty directory is left.
* `C136_missing_violated` (`Props/UncertaintyRuns.lean`): **C136 is violated for realizations without a model.** Without training, realizations that are not there are passed over in silence: the run reports success although nothing was predicted.
* `C138_copy_violated` (`Props/LmuUpdate.lean`): **C138 is violated for copies of a data set.** The name of a data set is searched for anywhere in the names of the files: if a copy with another ending is listed first, it is used for the training instead of the data set.
* `C138_finite_violated` (`Props/LmuUpdate.lean`): **C138 is violated for finite strains.** The bounds are given for the components of the symmetric order while the generators of finite strains ask for all components: every path is refused.
* `C138_lost_violated` (`Props/LmuUpdate.lean`): **C138 is violated for a failing training.** The realizations of the earlier quantification are removed before the first training: if that fails, no trained realization is left, and the working directories stay.
* `C138_nothing_violated` (`Props/LmuUpdate.lean`): **C138 is violated for predictions without realizations.** If there is no quantification, an update without training reports success although nothing was predicted.
* `C138_removed_violated` (`Props/LmuUpdate.lean`): **C138 is violated for a model and predictions that are already there.** They are removed by every update, also by one that is refused because a data set is missing, and by one that only predicts.
* `C139_batched_violated` (`Props/Objectivity.lean`): **C139 is violated for the batched von Mises model.** A simple shear and its mirror image, both plastic: the multipliers agree, but the stress of the mirror image is not the mirror image of the stress, because the number added to every component under the norm of the flow direction does not rotate.
* `C140_mixed_violated` (`Props/Dissipation.lean`): **C140 is violated for mixed hardening.** The back stress is advanced one and a half times, so that for a large step with kinematic hardening the stress relative to the new back stress does negative work on the plastic strain: with `E = 1`, `ν = 0`, constant yield stress 1, kinematic hardening stress equal to the accumulated plastic strain and uniaxial strain 11, the work is about `-4` instead of `4`.
* `C141_mixed_violated` (`Props/Proportional.lean`): **C141 is violated for mixed hardening.** The accumulated plastic strain depends on the number of steps: with `E = 1`, `ν = 0`, yield stress 1 and kinematic hardening stress equal to the accumulated plastic strain, the uniaxial strain 3 gives 0.8 in one step and 0.72 in two.
* `C142_load_violated` (`Props/PatchRunsFaults.lean`): **C142 is violated for saved patches that are missing.** The results of an earlier simulation are deleted before the file of the patch is looked for: a RuntimeError, and no results.
* `C142_name_violated` (`Props/PatchRunsFaults.lean`): **C142 is violated for an empty name.** A single patch without a name is generated in the base directory itself, and everything else in it is deleted.
* `C142_regenerate_violated` (`Props/PatchRunsFaults.lean`): **C142 is violated for patches that are not admissible.** The data of an earlier run is deleted before the new patch is generated: if it is not, nothing of the old one is left.
* `C142_single_violated` (`Props/PatchRunsFaults.lean`): **C142 is violated for a single patch.** Its directory has no number, and the data set of local paths cannot be built: a RuntimeError.
* `C143_nonassociated_violated` (`Props/StabilityCone.lean`): **C143 is violated for Drucker-Prager plasticity with non-associated flow.** Perfect plasticity with `E = 1`, `ν = 0`, `ξ = η = 1` and the flow parameter `1/100`: from the initial state, the same shear with and without a hydrostatic compression gives states which are more than `1.2` times as far apart as the increments are.
* `C144_earlier_model_lost_violated` (`Props/ModelScripts.lean`): **C144 is violated for the earlier model of a case study without validation data.** The script empties the model directory before it looks for the validation data set: if that is missing, it raises `RuntimeError` and the earlier model is lost.
* `C146_batched_violated` (`Props/Units.lean`): **C146 is violated for the batched von Mises model.** A plastic shear: in every other unit of stress the accumulated plastic strain is the same and the stress is another one, however large the yield stress is.
* `C146_tiny_violated` (`Props/Units.lean`): **C146 is violated for units in which the trial stress is tiny.** For every plastic step with linear hardening there is a unit of stress from which on the stress is not returned: the accumulated plastic strain grows as in the first unit, but the stress stays at the trial stress, outside the yield surface.
* `C147_one_point_violated` (`Props/PatchTest.lean`): **C147 is violated for `tri6` with one Gauss point.** The constructor accepts one point, but in this specimen of two triangles, one with a curved outer edge, the force on the node inside is two ninths of the stress vector, whatever the material.
* `C149_gru_normalized_violated` (`Props/HybridSetup.lean`): **C149 is violated for normalized GRU models made from arguments.** With data scalers the set-up raises; without them, every hybrid model that holds the GRU model raises RuntimeError when it is built: in no way does a GRU model made from arguments take part in a hybrid model with its own normalization.
* `C149_scalers_violated` (`Props/HybridSetup.lean`): **C149 is violated for the data scalers of hybridized models.** For every class without a method `set_data_scalers` (GRU, recurrent constitutive and hybrid models, whose scalers are set by a function instead), no set-up with data scalers succeeds; one that is right in everything else raises RuntimeError.
* `C149_schemes_violated` (`Props/HybridSetup.lean`): **C149 is violated for the training script of hybrid models.** All of its schemes hold a GRU model with data scalers, so none of them ever gets to build its hybrid model; if everything else succeeds, RuntimeError is raised.
* `C150_no_directory_violated` (`Props/HybridInit.lean`): **C150 is violated for a model without directory.** The directory may be `None` according to the documentation, but then the constructor raises TypeError, unless it is told not to save the initialization file.
* `C150_path_violated` (`Props/HybridInit.lean`): **C150 is violated for the path of a file in the current directory.** The directory of the path is empty, and the model is rejected with RuntimeError, although the file is right.
* `C150_rebuilt_scalers_violated` (`Props/HybridInit.lean`): **C150 is violated for the scalers of a rebuilt model.** Scalers set on a model that was initialized from a file never get into a file: the model initialized from the file again has the scalers of the file.
* `C153_finder_models_violated` (`Props/Devices.lean`): **C153 is violated for the material models of a finder.** Whatever device is asked for, the material models of the finder stay on the devices they are on.
* `C153_get_device_violated` (`Props/Devices.lean`): **C153 is violated for reading the device.** No history of calls of `set_device` makes `get_device` return a device: it reads attributes that are never assigned and raises an exception, for an object just created (without attributes) and ever after.
* `C154_derivatives_violated` (`Props/ElementCheck.lean`): **C154 is violated for the derivatives.** The check sums the derivatives over the nodes and over the directions: an element whose derivatives do not sum to zero over the nodes in any direction, and are not the derivatives of its shape functions, passes at all random points.
* `C155_empty_violated` (`Props/NoiselessDataset.lean`): **C155 is violated for an empty data set.** No samples requested: the average time per path is a division by zero.
* `C155_last_trial_violated` (`Props/NoiselessDataset.lean`): **C155 is violated for a path found in the last trial.** If ten paths fail and the next one does not, the generation raises the error that the number of trials was reached without success.
* `C156_labels_violated` (`Props/SpecimenSetters.lean`): **C156 is violated for node labels that are not nodes.** The labels of the nodes of an element are not compared with the number of nodes of the mesh.
* `C156_new_mesh_violated` (`Props/SpecimenSetters.lean`): **C156 is violated for a mesh set after the data.** The data of the old mesh stay: the object then holds a mesh of `N` nodes and data of three, and no call was rejected.
* `C156_time_violated` (`Props/SpecimenSetters.lean`): **C156 is violated for time histories with more than one dimension.** They are asked to have one, but any shape with the right first dimension is accepted.
* `C161_bounds_violated` (`Props/FinderObject.lean`): **C161 is violated for missing bounds.** A finder that normalises the forces refuses a call without bounds, but has already replaced the specimen: if the new specimen has the same number of directions and no more times, its loss is computed with the bounds, the weights and the scaling factor of the previous call, without an error.
* `C161_construction_violated` (`Props/FinderObject.lean`): **C161 is violated for a refused construction.** With a loss type or device that is refused, the models saved in the directory have been deleted before the exception is raised.
* `C161_refused_violated` (`Props/FinderObject.lean`): **C161 is violated for a refused call.** A call that is refused because of the number of its weights has already replaced the specimen and the scaling factor, but not the weights: if the new specimen has no more times than the previous one, the loss of the new specimen is computed with the first weights of the previous call, without an error.
* `C161_weights_violated` (`Props/FinderObject.lean`): **C161 is violated for weights that are not a tensor.** Weights given as a list or an array are ignored without a warning: every time has the weight 1.
* `C162_endless_violated` (`Props/ConvexBoundary.lean`): **C162 is violated for a tolerance that is not positive.** The search then never ends (with exact arithmetic), whatever the window.
* `C162_narrow_violated` (`Props/ConvexBoundary.lean`): **C162 is violated for a narrow window.** If the window is not wider than the tolerance there is nothing to halve, and `UnboundLocalError` is raised instead of returning a point.
* `C163_sizes_violated` (`Props/NoiseConvergence.lean`): **C163 is violated for different training sizes.** If a model of another noise case was trained with another size than the model with the same position of the first noise case, its point is drawn at the size of the latter, without an error.
* `C164_double_violated` (`Props/ReferencePaths.lean`): **C164 is violated for the composition 29 %.** The double that is written 0.29 is less than 29 %, so that its entry and its labels say 28 %, where the entry of 28 % is too.
* `C164_same_percent_violated` (`Props/ReferencePaths.lean`): **C164 is violated for compositions of the same whole percent.** Of two compositions with the same whole percent, the data set keeps one entry, the path of the second one, and the figures of the first one show it as the reference.
* `C165_abscissae_violated` (`Props/ScatterPlot.lean`): **C165 is violated for data sets with other abscissae.** With error bars, the abscissae of the data sets after the first one are not used: points of different abscissae are averaged.
* `C165_constant_violated` (`Props/ScatterPlot.lean`): **C165 is violated for constant references.** Perfect predictions of references that are all the same, or of a single reference, have a coefficient that is not a number.
* `C165_small_spread_violated` (`Props/ScatterPlot.lean`): **C165 is violated for references that differ little.** The predictions exceed the references `s` and `-s` by 0.01, which is more than ten thousand times the spread; the coefficient shown is 0.9998, although the coefficient of determination is less than minus ten million.
* `C166_deleted_violated` (`Props/PatchAnalysis.lean`): **C166 is violated for input files in the directory of the analysis.** If the input file is below the directory of the analysis, as for a patch named as the directory of its simulation, the call deletes it and then fails for lack of it.
* `C167_band_violated` (`Props/TruthPlot.lean`): **C167 is violated for the error bound of normalized processes.** The band of a relative error holds points of a normalized process by their distances from the smallest number, not by their relative errors: the prediction 109 of the reference 100 has a relative error of 9 %, and is outside the band of 10 %.
* `C167_coefficient_violated` (`Props/TruthPlot.lean`): **C167 is violated for the coefficient of a constant process.** The plot of a process whose references and predictions are all the same number raises a `ZeroDivisionError` where its coefficient of determination is asked for.
* `C167_constant_violated` (`Props/TruthPlot.lean`): **C167 is violated for constant processes.** A normalized process whose references and predictions are all the same number has no points: they are not numbers.
* `C168_same_size_violated` (`Props/ConvergencePaths.lean`): **C168 is violated for training sets of the same size.** Models whose training sets have the same size have the same label: only the predictions of the last one of them are shown, in both kinds of plots.
* `C168_types_violated` (`Props/ConvergencePaths.lean`): **C168 is violated for all the samples and several prediction types.** After the first prediction type with a component, `'all'` has become a `range`, which the second prediction type refuses.
* `C169_constant_violated` (`Props/SeriesPlot.lean`): **C169 is violated for constant data.** Normalized processes of the same length whose values are all the same number raise a `ZeroDivisionError`.
* `C169_lengths_violated` (`Props/SeriesPlot.lean`): **C169 is violated for normalized processes of different lengths.** They raise a `TypeError`, although the array of processes is filled up for them.
* `C169_times_violated` (`Props/SeriesPlot.lean`): **C169 is violated for the times of normalized data.** The times do not matter: processes with the same labels and the same values are shown at the same abscissae whatever their times are. Of the times 0, 1 and 10, the second one is shown in the middle.
* `C170_lengths_violated` (`Props/OptimizationPlot.lean`): **C170 is violated for processes with different numbers of jobs.** Two such processes raise a `ValueError`, unless the second one has a single job.
* `C170_name_violated` (`Props/OptimizationPlot.lean`): **C170 is violated for metrics whose name is part of another line.** The metric is read from the first line that contains its name: of a summary with a validation loss before the loss, the validation loss is shown as the loss.
* `C170_several_violated` (`Props/OptimizationPlot.lean`): **C170 is violated for several processes.** Processes with the same number of jobs are all shown with the metrics of the last one, and the line of the best metrics is that of the last one.
* `C171_same_size_violated` (`Props/UncertaintyPaths.lean`): **C171 is violated for training sets of the same size.** Of two models whose training sets have the same size, only the second one is shown.
* `C171_types_violated` (`Props/UncertaintyPaths.lean`): **C171 is violated for all the samples and several prediction types.** The second prediction type is refused.
* `C172_integers_violated` (`Props/ParameterSurfaces.lean`): **C172 is violated for integer temperatures.** If the temperatures are given as integers, the fractions of the parameters are dropped: Poisson's ratio, which is between 0 and 1/2, is shown as zero everywhere.
* `C173_zero_violated` (`Props/SpecimenPlots.lean`): **C173 is violated for labels that are not positive.** The label zero is not refused: the last node is shown, and the figure is named after a node that does not exist; a negative label counts back from there.
* `C174_label_violated` (`Props/GroupedBars.lean`): **C174 is violated for the labels of the groups.** With three data sets and the default width, the label of a group is not at the middle of its bars.
* `C174_width_violated` (`Props/GroupedBars.lean`): **C174 is violated for a given width of the bars.** Three data sets drawn with bars of width one half: the bars of one group are drawn over those of the next, and nothing is refused.
* `C175_single_violated` (`Props/StatePlot.lean`): **C175 is violated for a path with a single value.** A state path with one value and three times is not refused: the value is drawn at all three times.
* `C176_label_violated` (`Props/PredictionComparison.lean`): **C176 is violated for a model with the label of the ground truth.** Its prediction replaces the ground truth, and is drawn as the reference under that label.
* `C176_reference_violated` (`Props/PredictionComparison.lean`): **C176 is violated for a comparison without the ground truth.** The first of the models is then drawn as the reference in the figure of every component.
* `C177_saved_violated` (`Props/LawComparison.lean`): **C177 is violated for a comparison that is saved and not displayed.** The figure is made only when it is displayed, so that saving it raises an `UnboundLocalError`, whatever the laws.

# Formal model of numagic/lumos in Lean 4 — design

(First version, written before the proofs; the trusted base, findings and the status table are kept
current at the end of this file as the model grows.)

## Conventions

* The model is a shallow embedding: each Python function becomes a total Lean function with the same
  branches. A Python exception is a value of `Except PyErr` (messages dropped, class kept).
* NumPy arrays that are split, reshaped, stacked or indexed are `List α` (1-d), lists of rows (2-d) or lists
  of lists of rows (3-d); where an array is only produced by broadcasting/stacking with a statically known
  shape it is an index function together with an explicit row-major `ravel`.
* Floating-point numbers are exact reals (`ℝ`) or elements of an arbitrary field/type. Rounding, NaN and
  overflow are not modelled.
* dicts are insertion-ordered association lists; mutation is state passing.
* Sparse matrices are triplet lists; the independent meaning is `assemble` (sum of the values listed at
  `(i,j)`), which is how `scipy.sparse.csc_matrix` and IPOPT read them.
* "is the derivative of" is stated with Mathlib's `HasDerivAt` along each coordinate, not with a formula.
* Each topic is a directory `lean/Verif/<Topic>/` with `Model.lean` (definitions, each citing /repo),
  `Lemmas.lean` (helpers) and `Props.lean` (the property theorems and, beside them, non-vacuity examples).

## Per property: what is modelled and how it is proved

| id | model | proof |
|----|-------|-------|
| C01–C05 | `DecVarOperator` (construction incl. duplicate-name errors of IntEnum, index queries, flatten/unflatten) over any name lists | position arithmetic `stage*num_var_stage + group offset + position`; list lemmas on chunking/splitting |
| C06–C08 | `batch_conv1d` branch by branch on lists of rows; offset structures | element-wise characterisation of reshape/vstack/concat, then windows |
| C09–C11, C18 | `BaseConstraints`/`BaseObjective`/`LinearConstraints` as state + op list of scale updates; user callables are parameters | invariant "cached scales = function of current scales" by induction over the op list, then chain rule |
| C12–C16 | `CompositeProblem` as a state machine over add/delete | induction over components and over histories; assembled triplets split over components |
| C17 | `solve` with the solver as a parameter (oracle); bounds in `EReal`-like extended reals | order lemmas |
| C19–C21 | bounds state machine with errors and partial effects | invariants over op lists; last-write lemmas for folds |
| C22 | cyclic variables and constraint | list induction; derivative of a difference of coordinates |
| C23 | `set_normalized_mesh` and the two mesh properties | list induction, telescoping |
| C24–C27 | continuity constraint/Jacobian/Hessian/structures of both OCP classes | closed element formulas; assembled sums collapse by injectivity of the row index map |
| C28–C30 | condensed formulation on top of the same model | algebra over finite sums |
| C31 | `ConvConstraints` | block assembly lemma |
| C32 | `set_scales` | fold/last-write lemma + scaling lemma of C09 |
| C33–C38 | transcription and collocation; `scipy.interpolate.lagrange` is modelled as the Lagrange basis polynomial (Mathlib `Lagrange.basis`) | Lagrange interpolation uniqueness; derivative/integral of polynomials; Bonnet recursion at −1 |
| C39–C41, C43 | `Tree`, `ParameterTree`, `ConfigTree` | structural induction on trees |
| C42 | `CompositeModel`/`ModelMaker` parameters: value level, and a heap of nodes for aliasing (`Tree/Heap`) | structural induction; frame lemmas on the heap |
| C44 | `StateSpaceModel.make_implicit`-style algebra of an explicit model, flat positions and dense unit structures | list position lemmas |
| C45–C46 | `ModelMaker.make_from_config`, `ModelMaker.add_to_registry`/`get_*` | structural induction on the configuration; association-list laws |
| C47 | `ScaledMeshOCP.__init__` end to end, for both meshes and both formulations, out of the components above | composition of C09–C32; an independent specification `IsSolution` phrased through `get_var` |
| C48 | bounds after construction, and what construction does to the caller's configuration | C20 applied to the two calls; last-mention lemma |
| C49 | model classes as declared names with a tree of submodels (base.py:35-87, 156-191, 287-335, 447-480) | induction over the tree against an independent path relation `AtPath` |
| C50 | `_array_to_dict`, `make_vector`, `make_dict`, `get_*`, both `forward_with_arrays` (base.py:26-30, 319-390, 482-530) | specification `Lists` (position i of the vector is the dictionary's value for name i); fold invariants |
| C51 | bodies of `forward` as programs over call/collect/return/raise, with the return buffer of every model in the tree as state (base.py:193-278, 396-402) | refinement: the stateful run equals a memoryless evaluation, by induction over the tree and the program with an invariant relating buffers to the calls made |
| C52 | the array functions of C44 and C47 instantiated by a model object of C51 | C44, C47, C50 and C51 composed |
| C53 | `TrackPosition2D.forward` as a program of the model language (Veh/Model) | evaluation of the program, chain and product rule; a car circling a round track is exhibited as a solution |
| C54 | `SimpleVehicle.forward` statement by statement, submodels arbitrary (Veh/Model) | inversion of the program, then field identities |
| C55 | same | same; the pitch balance is shown to be off by cog_height times drag |
| C56 | same | same |
| C57 | same | same |
| C58 | same | algebra on the inverted program; the hypothesis on tyres is shown not to follow from a force of the sign of the slip ratio |
| C59 | `PerantoniTire.forward` and its default parameters (Veh/TireModel) | closed form from evaluation; bounds by trigonometric inequalities |
| C60 | same | equality of mirrored programs corner by corner |
| C61 | `SimpleVehicleOnTrack.forward` over an arbitrary vehicle | composition of C51's evaluation with C53; a coasting car is a concrete solution |
| C62 | `DroneModel.forward` | evaluation and product rule |
| C63 | `RaceTrack.__init__`, the lookups, `np.interp`, `np.diff`, `np.cumsum` (Track/Model) | search lemma for strictly increasing lists; continuity by gluing segments |
| C64 | `_trapz`, both conversions, `ConstCurvTrack` (Track/Model) | interval integrals of the interpolant segment by segment, induction over the nodes |
| C65 | `cartesian_to_curvilinear` with `np.gradient` and `np.arctan2` (Track/Model) | equivariance of finite differences, argument of a product of complex numbers |
| C66 | `curvilinear_to_cartesian` (Track/Model) | induction over the points, trigonometric identities |
| C67 | `_expand_weights`, `_inputs_penalty`, its gradient, Hessian and structure (Ocp/PenaltyModel); added to the built problem in Ocp/Build | explicit real function, partial derivatives coordinate by coordinate, assembly of diagonal triplets |
| C68 | `Setup.builtScale` against `fixedScale` (Ocp/Build, Ocp/MeshScale) | the two builds differ only in the sampled structures; witness for the finding |
| C69 | `LaptimeSimulation.__init__`, `set_track`, `distance_mesh`, `from_tum_csv` on the rows of the table (Lap/Model), over the models of C20, C47 and C63 | the last request wins (C20) applied to the three track bounds; induction over the history of tracks |
| C70 | `get_init_guess`, `get_default_bounds`, `get_default_boundary_conditions`, `get_default_scales`, `get_default_con_output_names` (Lap/Model) | reading the flattened guess back (C04), cumulative sums telescope; the bounds from C48 and C69 |
| C71 | `objective` (the recorded point), `intermediate`, `_log`, `_log_final_iter`, `solve` as a state machine over a directory of files (Log/Model) | invariant over the events, uniqueness of the sorted permutation, induction over the files |
| C72 | `_create_result_df` (Log/Table) on top of the built problem (Ocp/Build): frames as lists of named values | block-wise: C12 split, C24-C31 values of the components, C32 scales of each block; the cyclic scales by an invariant of the assembly |
| C73 | Python values, the generated dataclass constructors, `asdict`, the `__post_init__` methods and the defaults of the three classes (Config/Model) | inversion of the constructor step by step; structural induction over values for `asdict`; extensionality of field lists with distinct names |
| C74 | the global backend, `set_backend`, `use_backend` as context manager and decorator; programs as commands with a big-step semantics that records the backend in use (Backend/Model) | rule induction on executions |
| C75 | the `ModelSolver` object on top of the models of `CompositeProblem` (NLP) and of the model algebra (Ocp/AlgModel): constructor, names, bounds, scale dictionaries, rescaling, objectives, solve (Solver/Model); casadi and IPOPT are functions given from outside | a notebook of the accepted calls is a refinement of the object (Solver/Inv, by induction over the history); feasibility and objective by unscaling |
| C76 | the transcription matrices and continuity constraints of C33-C38 and the transcribed problem of C47 | Legendre orthogonality gives exactness to degree 2n of the interpolatory rule at the Radau points (Trans/Quad); squares of Lagrange basis polynomials give positivity; the interval rule is telescoped over the mesh (Trans/RuleOcp) |
| C77 | DroneModel with its derivatives (proved to be those of the stage equations), the construction of the problem from transcription, variables, mesh, bounds and boundary conditions, and the initial guess | the general theorems about the built problem (C47, C48, C23, C38) instantiated and read variable by variable; the least duration from C76; the untilted flight as an explicit family of decision vectors |
| C78 | the two models, the hand-written derivatives and structures, the problem in the time domain for the backends 'jax' (with derivatives trusted to be true) and 'custom', the driver's configuration; not the fixed-mesh problem of the distance model nor the backend 'casadi' | derivatives by cases on the 21 and 49 entries; the problem by the general theorems C47/C48/C23/C38; the bounds by induction over the stages; explicit families of feasible points |
| C79 | lmap in full on nested lists; cmap's batch-size cache over histories of calls and the reshape of its results; casadi's own map is abstract (a function of the batch size and the arguments that may raise) | iff-characterisation by inverting the three loops; cache invariant by induction over histories; list arithmetic for the reshape |
| C80 | the file system effects of the function as a small-step system of processes; code generation, MD5 and gcc are abstract; nlpfunctions.c is written and read in single steps after truncation | inductive invariant over all exclusive histories (what each process in each phase knows about the files); run-alone histories by induction; explicit schedules for the findings |
| C81 | the parameter tree of the problem, the vector held by the casadi constraints and the model object, over the tree model of C39–C43 | invariant over all histories (the problem's tree is the fold of the changes, the model's structure always fits it); reading through C40_history |
| C82 | MF52 with all its functions in the reals; division by zero and arc cosine out of range stop the model; the 149 default parameters as exact rationals | closed forms of every function by case analysis on the denominators; bounds of arctan and cos; the peak by the intermediate value theorem |
| C83 | the model of C82 | a function vanishing to first order can be multiplied with the sign without losing its derivative, applied twice to Bx - atan(Bx) |
| C84 | the model of C82 with all three moments | parity of every function of the model, composed |
| C85 | the model of SimpleVehicle (C54–C58) with the tyres of C82 as submodels | inversion of the vehicle's forward (vehicle_inv), rotation invariance of the norm, triangle inequality |
| C86 | texts as lists of characters, universal newlines, readlines, re.split, the grammar of float (ASCII digits and white space; exact values) | induction over the lines with the last assignment as invariant; a writer and a round trip |
| C87 | both models and ml.py on numpy with shapes and broadcasting; the vehicle of C54 with them as submodel | sums over Fin n from lists, induction over the layers, tanh bounds |
| C88 | the double loop with its three-dimensional table, exact real numbers | invariant of the loops against derivatives of Lagrange basis polynomials; uniqueness by Lagrange interpolation; order by Taylor's theorem |
| C89 | both functions entry by entry, exact real numbers | polynomial identities in cos, sin and the axis; uniqueness by decomposition along the axis |
| C90 | the functions on casadi's primitives (vertcat, vertsplit, sum1, dot, reshape, ... as documented), and numpy's functions separately as specification, on exact real numbers | refinement: a casadi matrix shows a numpy array; induction over the lists for joining and splitting |
| C91 | the transcriptions and built problems of C33-C38, C47, C77; the inputs of a point are samples of signals of time | tables of coefficients from the exactness of the matrices, Taylor polynomials for the local error, a Gronwall argument over the intervals, Banach's fixed point theorem per interval for existence; near a trajectory by clipping the dynamics |
| C92 | the transcriptions of C33-C38 with exact real numbers | the polynomial through the stages, and that the Radau quadrature is at least the integral of a polynomial of the next degree with a non-negative leading coefficient; existence because an injective linear map is surjective |
| C93 | cycloid with scipy's newton as a function that returns a number or raises, over real numbers; the model and the problem as in C78 | the distance times a constant plus a function of the speed grows no faster than time, for every constant up to the inverse of the top speed, in continuous time by the mean value inequality and on the grid step by step; a discretised cycloid in closed form, with its angle from the intermediate value theorem |
| C94 | solve with the multipliers of the previous solution handed over and returned; the solver is any function; the callbacks of the composite problem as in C12-C18, the built problem as in C47 | uniqueness of gradients, Jacobians and Hessians and their behaviour under a diagonal change of variables; the condensed form by comparing the bounds entry by entry |
| C95 | the constructor from vehicle model, configuration and track file to the built problem, on top of the models of C47-C48, C52, C61, C69 and C76; is_condensed, logging and backend as in C68, C71, C74 | composition of C47 (problem), C52 (model residuals), C61 (vehicle on track), C69 (track), C76 (quadrature), with the default bounds written out; the known lap by exactness of every scheme for linear functions |
| C96 | the casadi branches of ravel/unravel, the export from parameters to generated function and back, gp and mlp under casadi; casadi's column-by-column reshape and code generation are trusted | structure of the tree (C39-C42) for the names; index arithmetic for the two orders of the entries; the aero models by comparison with the numpy ones (C87) |
| C97 | the object with its components as a function of the mesh scale and parameters (the callables read them when called), all public methods that change it, solve with the warm-up under jax and cyipopt's check of the limits; a book kept from the calls alone is the specification. The parameters after modify_model_param are taken as given (C81); the final log is C71 | an invariant relating the object to the book for every setting of mesh scale and parameters at once, kept by every call; meaning, objective and derivatives then follow from C47, C13-C15, C32, C67 for the setting in force |
| C98 | the object of C97 with the track it holds; set_track as reading, set_mesh_scale and update_bounds in the code's order with the state left behind when one of them raises; solve with the guess of get_init_guess; a diary kept from the calls alone is the specification | every history of the simulation is a history of the object of C97 (set_track becomes up to two calls), so the meaning of C97 applies and is read for the vehicle through C95 and C61; the bounds by C69/C70; indistinguishability through C97_fresh's invariant for the setup with the tuned configuration |
| C99 | the simulation of C95 as constructed from a track file; a lap is a point within all constraints and bounds; the correspondence is stated on the values read by name | the similarity theorem of the track (C65) carried through the bounds of set_track and the equations of every stage; the correspondence of points is a bijection on vectors by name |
| C100 | as C99, with the vehicle of C60 and the default configuration of C95 | C60's mirror theorem at every stage (the wheels turn because of the default bounds), C65 with a reflection for the road, the two directions from one lemma since mirroring twice is the identity |
| C101 | as C99; the relation between two configurations and two roads is part of the specification | interpolation is monotone in the data, so the lateral bounds grow at every stage of the mesh; the remaining bounds by comparing the last entry that mentions a variable in two lists; the constraints by their meaning in C95, which mentions neither scales nor backend |
| C102 | values as a nested type (casadi matrix, numpy array, list or tuple, other); the head of each function; casadi's conversion of numpy arguments; specification: what numpy does, and when a value stands for a numpy array | induction over nested values for the detection; one lemma for the choice of the branch, with C90 for the casadi branch |
| C103 | the functions as written, on real numbers; numpy's arctan2 as the argument of a complex number | Mathlib's facts about arcsin, arccos, arg, the Chebyshev polynomials and the trapezoidal rule |
| C104 | the loop with set_backend, try/finally and subTest (recording or letting through), over the programs and executions of C74 | induction over the executions of the loop, with the invariant of C74 for the body |
| C105 | LaptimeSimulation with is_condensed over the models of C47 and C69; specification: laps, costs and best laps as in C99-C101, agreement of points but for derivatives, a configuration without its bounds on derivatives | C47 for the condensed problem with no demand on derivatives, last-mention lemmas for the bounds after set_track, C28 for the points |
| C106 | FixedMeshOCP.__init__ (positive mesh scale, layout without globals) over the models of C47; DistanceModel as the class of C91; specification: `Descent`, a discretised slide over the distance | C47 and C48 for the problem; positive weights of the rules (C38, C76) for times, speeds and slopes; the LGR energy inequality; the default LGR as Radau IIA with two stages, and the intermediate value theorem for its steps down a line |
| C107 | from_tum_csv with the parts of pandas.read_csv that it uses, on lists of characters; specification: a file written line by line from names and decimals | splitting inverts joining, for lines and for fields; the decimal reader of C86 for the cells |
| C108 | set_param and get_param on the heap of `Tree/Heap`, the loop of the example; specification: the set_param of C40 on separate nodes | refinement of the value-level tree by the heap under the invariant that all dictionaries differ; freshness of addresses |
| C109 | configurations, the lists they refer to and what constructing a problem (`Setup.build`, C47) does to both; specification: the problem at the beginning of the history | induction on the history with the configuration's growth as invariant; the last mention of a variable decides its bounds (C48) |
| C110 | options, the calls of `intermediate`, the search for the two regular expressions in the lines of the output file, on top of the solve of C17; IPOPT is an arbitrary function; specification: what a line says, the table of defaults | lookup in updated dictionaries; the leftmost match of the pattern; induction on the lines; `C110_number` says what the pattern for the number itself catches |
| C111 | the built problem of C47 and C94 with the model's functions assumed continuous; specification: a least cost among the points that meet bounds and equations (C94) | the reads are continuous, so the feasible set is closed; the model's values on a compact set bound the free derivatives and outputs; extreme value theorem; scaling and condensing by C94 |
| C112 | the standard vehicle on a track (C61, C62, C95), its value written out in full; specification: the six divisions, by name, and the loads that the vehicle reports | every output is a composition of smooth functions away from the divisions; chained through the model's arrays, residuals and stages to the domain of C47; witnesses for the default bounds; C111 for the best lap; `C112_straight_best` meets all its hypotheses with the default car without drag on every straight road (`Lts/BestStraight`) |
| C113 | the MF5.2 tyre of C82-C85 that goes on with arbitrary numbers where its own are not finite, in the vehicle of C61, on the track of C62; specification: the divisions and corners, by name, at the reported loads and slips | the tyre returns everywhere, so C95 and its successors apply; all functions are compositions of smooth ones away from the corners (the jump of the curvature factor at zero slip is smoothed by the factor it multiplies), then as C112; one-sided derivatives for the corner |
| C114 | the apply methods of both classes over the parameters of C42 (Apply/Model); the equations are arbitrary functions of parameters and arguments (their independence of earlier evaluations is C51); specification: the parameters handed over last | each call leaves the structure as it was (C42), so a fitting tree is accepted after any history; induction over the history |
| C115 | profile as a run over an arbitrary sequence of clock readings, with a record of the functions called (Prof/Model), over the problems of C12-C15; specification: the list of keys and what is reported for a key | induction over the functions timed; a second evaluation of the Hessian changes nothing |
| C116 | strftime's fields, os.path.join, mkdir on a disk of directories (LogDir/Model) and the solves of C71; specification: the order of time and the number that a text of digits stands for | numbers of the same width are ordered as their digits; what follows a field of fixed width does not matter unless the fields agree; the second solve is an instance of C71 with the first one's files |
| C117 | the object with its attributes, the last decision variables and the attributes that each compiled method was traced with (Dense/Model); automatic differentiation gives the partial derivatives; specification: derivatives of functions of one real variable along lines | invariant of histories without assignments; chain rule along a line; symmetry of the second derivative turns the sum over all entries into the weighted sum over the upper triangle |
| C118 | the model object with its names, its compiled algebra and its parameters, shared by the solvers, which hold their own Jacobian and parameters (Shared/Model); problems with the backend 'jax', traced at the first evaluation (Shared/Traced); unit scales; the flat equations are those of C75 | invariant over histories: solvers are never removed, and the algebra changes only to what a construction asks for; the flat vector split into its parts |
| C119 | the listing, the sequence of solves on one object with arbitrary state, the metrics and the summary (Bench/Model), the times through C115's model; real numbers, NaN as none; csv output and logging are not modelled | induction over the files; permutation invariance; C115's reports |

Not expressible: wall-clock behaviour of `profile`, jit/compile behaviour of jax and casadi, convergence of
IPOPT, plotting. These need the runtime and are left out.


## Trusted base

* **Lean's kernel** (Lean 4.33.0) and the Mathlib modules imported one by one.
* **Axioms.** No axiom is added. `AXIOMS.md` (generated by `tools/axioms.py`) lists, for every property theorem, what
  `#print axioms` prints: a subset of `propext`, `Classical.choice`, `Quot.sound`.
* **The reading of the code.** The model was written by reading /repo; every definition cites the lines it models.
* **Behaviour of libraries, taken as described**, wherever the modelled code calls them:
  * `numpy`: row-major reshape/ravel/concatenate/stack/split/indexing, as in `Base/Np.lean` and the comments.
  * `scipy.sparse`: duplicates in a triplet matrix are summed. `scipy.interpolate.lagrange` is the Lagrange basis polynomial;
    `scipy.linalg`/`np.linalg.inv` is the exact inverse.
  * `np.polynomial.legendre` roots: exactly the sorted real roots (numpy computes companion eigenvalues).
  * `IntEnum`: names unique, values `0..n-1`, names that the class refuses are rejected.
  * `jax`/`casadi`: the derivative callables they produce for a *unit* problem are the derivatives (hypotheses `UnitJac`,
    `UnitHess`), at the variables of a set `D` (`Setup.Good S D`): everywhere by default, or where the model is differentiable
    (`Ocp/DomExample.lean`: a model with `1 / time`); the derivatives of the built problem are then right at the points whose
    variables are in `D` at every stage and around it. Everything lumos builds on top of them is proved.
  * casadi's matrix functions (vertcat, vertsplit, sum1, dot, cross, reshape, interpolant, ...): as in its documentation
    (`Cas/ArrModel.lean`); what numpy does is the specification `Cas/NpSpec.lean`.
  * IPOPT (`cyipopt`): an arbitrary oracle that receives and returns vectors (C17).
* **Numbers** are exact reals (bounds: extended reals). Rounding, NaN, overflow and dtypes are not modelled.
* **Recursion depth**: Python's recursion limit is not modelled (where a Lean definition needs fuel, the theorems say that
  enough fuel exists or quantify over it).

## What is modelled, and what is not

Modelled: `optimal_control/utils.py` (DecVarOperator), `optimal_control/convolution.py`, `optimal_control/nlp.py`
(constraints, objectives, NLPFunction bounds/solve with its options and report, CompositeProblem), `optimal_control/scaled_mesh_ocp.py` and
`fixed_mesh_ocp.py` (bounds, cyclic, mesh, continuity, model algebra, condensed formulation, scales, time objective,
constructor, every history of calls on the constructed object, logging), `optimal_control/transcription.py` and `collocation.py`, `models/composition.py`, `models/tree_utils.py`
(Tree, ParameterTree, ConfigTree; ravel/unravel), `models/base.py` (model IO decorators, forward evaluation with
submodels, array/dict conversion, implicit residuals), `models/kinematics.py` (TrackPosition2D),
`models/vehicles/simple_vehicle.py`, `models/tires/perantoni.py` (with default parameters), `models/tires/pacejka.py` (MF52), `models/aero/aero.py`
(ConstAero, GPAero, MLPAero), `models/ml.py`, `models/tires/utils.py`, `models/simple_vehicle_on_track.py`, `models/drone_model.py`,
`models/tracks.py`, `simulations/laptime_simulation.py`, `optimal_control/config.py`,
`optimal_control/model_solver.py`, `simulations/drone_simulation.py`, `examples/brachistochrone.py` (time and distance domain, and `cycloid`), the metrics of `regression_tests/run_benchmark.py` (Bench), reading a track's CSV file (Csv), the backend switch in `numpy/__init__.py` and `numpy/utils.py`, `lmap` and `cmap`,
the array functions, logic, type detection, trapezoids, angles, spacings, finite differences and rotations of `numpy/casadi_numpy` (Cas), `use_backends` in `models/test_utils.py`, the casadi library cache and the parameters in generated code (`export_c_code`, the casadi branch of ravel/unravel) in `models/base.py`, and who holds which parameters (`modify_model_param`).

Simplifications are stated in the comment of each definition. The important ones: `Tree/Model` works on values and
`Tree/Heap` on references (the first answers "what is read back", the second "who else sees the write");
`ParameterTree.ravel` is modelled for the numpy branch (C41) with no dtype conversion and for the casadi branch (C96); `deepcopy` of a tree that shares a
sub-object with itself is simplified to copying each occurrence.

Not modelled: plotting (`viz`), file formats other than those listed, IPOPT's own
algorithm, jit compilation, casadi's symbolic graph, `max`, `min` and `linalg.solve` of `numpy/casadi_numpy`, the scripts in `examples` other than the
brachistochrone (of the lap time example, the loop that sets the tyres is in C108).

## Findings (behaviour of the code that the proofs exposed)

Each is proved in Lean about the model, with a concrete witness.

| theorem | behaviour |
|---|---|
| `C07_errors` | `batch_conv1d` rejects with ValueError windows with `width < stride` or `width > 2*stride`, although they fit |
| `C14_stale_mask_is_silent`, `C14_stale_mask_raises` | the composite Hessian remembers the upper-triangle mask from the last `hessianstructure()` call; a component replaced or added afterwards gives wrong values silently, or IndexError |
| `C03_too_long`, `C03_fewer_stages` | `unflatten_var` ignores what a vector has beyond the problem's variables; without global variables it takes a vector that is too short for one with fewer stages |
| `C16_objective_size` | `add_objective` does not compare the number of inputs with the decision variables; only a Hessian structure that reaches beyond them is refused, with IndexError |
| `C19_mixed_pair_breaks`, `C19_mismatch_tears` | one lower value paired with an array of upper values of the wrong length raises after the lower values are stored: a lower bound may be left above its upper bound (the only way, `C19_lb_le_ub`) |
| `C21_bad_condition_is_permanent` | a boundary condition on an unknown name makes every later update raise |
| `C21_partial_update_loses_condition` | `update_bounds` that raises midway has dropped a boundary condition |
| `C21_direct_set_overrides` | a direct `set_*_bounds` call overrides a boundary condition until the next update |
| `C22_nothing_cyclic`, `C22_dotted_name` | excluding every variable, or a state whose name has a dot, makes the cyclic constraint raise |
| `C29_sampling_can_miss` | the condensed Jacobian's structure is sampled at one random point: an entry that is zero there is lost |
| `C31_mesh_dependence_lost` | on a variable mesh, a model that depends on the mesh gets a Jacobian without the mesh-scale column |
| `C32_failed_call_leaves_mixed_scales` | `set_scales` that raises midway leaves components with different scales |
| `C35_not_equivalent` | LGRIntegral is not equivalent to LGR |
| `C37_errors` | scheme LGL with one point returns two points |
| `C39_dot_in_key`, `C39_empty_child_name` | flat round trip: KeyError, or a silent overwrite |
| `C40_leading_dot`, `C40_custom_delimiter` | leading dots address the root; a custom delimiter cannot cross two children |
| `C41_short_vector`, `C41_one_element`, `C41_empty_array` | `unravel` accepts a short vector, loses the shape `(1,)`, raises on empty arrays |
| `C42_not_atomic`, `C42_shared_array` | `set_recursive_params` is not atomic; shallow copies share arrays with the model |
| `C48_config_is_changed` | a condensed OCP appends bounds to the caller's `sim_config.bounds`: a lifted problem built later from the same configuration has every `states_dot` fixed at zero |
| `C49_set_con_outputs_unchecked`, `C50_unknown_con_output` | `set_con_outputs` checks nothing; an unknown output makes every later array call raise |
| `C49_residual_of_stateless` | a stateless submodel whose residual is not among its outputs is accepted, but no state-space model containing it can be constructed |
| `C50_reserved_names` | a variable called `group` or `self` can never be given a value |
| `C50_array_to_dict` | an array that is too long is accepted and its rest ignored |
| `C50_stateless_residuals` | a stateless model with residuals that returns them only as outputs cannot be called with arrays |
| `C51_poisoned` | after an exception between `call_submodel` and `make_outputs_dict`, every later `forward` of that object raises RuntimeError |
| `C51_forgotten` | a `forward` that forgets `make_outputs_dict` works exactly once |
| `C55_equilibrium` | with zero residuals the pitching moment of the tyre forces about the centre of gravity is −cog_height·drag, not zero: the drag force is applied at the centre of gravity in the force balance but the load transfer uses m·ax·h |
| `C58_energy_from_nothing` | the slip ratio uses the body's vx, not the corner's (simple_vehicle.py:275): with a conventional tyre, engine and brakes and drag off, the kinetic energy can increase |
| `C58_drag_pushes` | the drag always points to the rear of the body and never against the motion (simple_vehicle.py:311-314; a FIXME in the code): a vehicle rolling backwards with the engine off, the brakes released and no slip power gains kinetic energy, at the rate Cx·½ρ(vx²+vy²)·\|vx\| |
| `C59_overload` | between 22 kN and 46 kN of load the default tyre pushes against the slip ratio (friction coefficient extrapolated below zero) |
| `C59_peak` | the largest longitudinal force of the default tyre is not at the slip given as the peak slip |
| (modelled, no theorem) | `Track` is not an abstract base class: `ConstCurvTrack.left_distance_at` and `right_distance_at` return None |
| `C68_lost_entry` | structure of the condensed Jacobian is sampled with the scale of construction time; a decay model x' = -x loses an entry when the scale is set from 1 to 2 |
| `C69_rejected` | a track that is too narrow raises AssertionError, but the mesh scale and the track are already the new ones, with the bounds of the old |
| `C69_closed_lap_infeasible` | the cyclic problem on the closed lap of a rectangle has no feasible point: curvature at the start is 0 and at the end 1/2, and track_curvature is both fixed and cyclic |
| `C71_no_iteration` | a solve that ends before the first report raises TypeError (None % n) when iterations are logged |
| `C71_second_solve` | the second solve of an object writes its worst violations into the rows of the first solve, its own rows say NotRecorded |
| `C71_second_solve_fails` | solving again from a solution, both times with no iteration, raises FileNotFoundError |
| `C71_restoration_shifts` | an iteration reported again in restoration mode is logged twice and the worst violations of later iterations stand in the rows of the iterations before |
| `C72_logged_mesh_is_scaled` | the logged mesh of a problem whose mesh_scale has the scale 10 is a tenth of the mesh of the problem |
| `C73_logging_lost` | a logging_config becomes a dictionary after to_dict and the constructor; creating the problem then raises AttributeError |
| `C73_mixed_sequences` | a sequence that mixes dictionaries and objects raises TypeError or keeps the dictionaries, depending on which comes first |
| `C73_tuple_of_names` | a tuple of names for non_cyclic_vars makes LTCConfig raise AttributeError |
| `C73_open_lap_default` | LTCConfig(is_cyclic=False) has the default boundary conditions of a closed lap |
| `C73_no_track` | LTCConfig() raises ValueError although track has a default |
| `C74_decorator_leaks` | after calling a function decorated under numpy, the rest of a casadi scope runs under numpy |
| `C74_decorated_inside` | a function decorated inside a casadi scope leaves casadi as the backend of the program |
| `C74_unknown_backend` | an unknown backend runs the body under the current one without raising |
| `C75_exact_hessian_raises` | evaluating the exact Hessian raises KeyError after every history |
| `C75_no_default_guess` | solve without an initial guess raises AttributeError, after adding a constant objective |
| `C75_stale_constraint_bounds` | after add_constraints, solve raises ValueError until set_cons is called |
| `C75_same_objective_twice` | add_obj_from_var with the same variable and weight raises NameError |
| `C75_states_dot_scale_is_fixed` | the scale of states_dot cannot be set |
| `C75_deleted_algebra` | after deleting the model algebra, set_var_scale raises KeyError but keeps the new scale |
| `C76_ignored` | LGR ignores the derivative at the first stage of each interval, ForwardEuler the one at the last |
| `C77_flip_without_tilting` | with 2 to 39 trapezoidal intervals there are feasible points in which the drone never tilts |
| `C78_climb` | a bead at rest ends at rest above its start |
| `C78_driver_ignores_backend` | backend and is_condensed are ignored |
| `C78_model_energy` | the distance model loses energy |
| `C78_zero_guess` | the guess is feasible for every target but outside the bounds |
| `C79_custom_hessian` | the Hessian of the custom backend always raises |
| `C79_custom_forward` | the batched forward of the custom backend always raises |
| `C79_mesh_not_compared` | surplus mesh points are dropped |
| `C79_axis_ignored` | in_axes=1 acts as 0 |
| `C79_batch_of_unmapped` | batch size from an unmapped argument |
| `C79_cmap_stale` | a failed call leaves a stale mapped function |
| `C79_dense_rows` | matrix outputs get too many rows |
| `C80_stopped_compiler` | an incomplete library is used forever |
| `C80_race_poisons_cache` | one model's functions under the other's name |
| `C80_race_wrong_model` | warm cache, wrong model |
| `C80_race_same_model` | same model, load fails |
| `C81_condensed` | a change in a condensed problem raises after it was made; casadi constraints and condensed Jacobian then use different parameters |
| `C81_tracers` | the jax backend leaves traced symbols in the model object |
| `C81_overwritten` | 'custom' evaluations overwrite the model object's parameters |
| `C81_misspelt` | a misspelt parameter name is accepted |
| `C82_unloaded` | an unloaded wheel has no forces (0/0) |
| `C82_default_rolling` | the default tyre drives at zero slip |
| `C82_default_reversed` | the weight of the longitudinal force turns negative inside the declared range |
| `C82_default_overload` | one load above 43 kN has no forces |
| `C83_camber_kink` | the cornering stiffness is not differentiable in the camber at zero, where the vehicle always evaluates it |
| `C84_default_handed` | the default tyre pulls to one side when rolling straight at its nominal load |
| `C85_loaded` | a wheel load of exactly zero leaves the car without derivatives |
| `C86_note_read` | a number in a comment of a line without assignment becomes a value |
| `C86_tab` | a tab before the equals sign becomes part of the name |
| `C86_joined` | two numbers on a line become one |
| `C86_dropped` | a value followed by another comment sign is dropped |
| `C86_nan` | nan is taken for a value |
| `C87_mlp_out_of_reach` | no weights give the downforce of the constant model |
| `C87_mlp_rest` | no bias: the coefficients vanish at zero inputs |
| `C87_mlp_order` | the layers follow the order of the dictionary |
| `C87_car_gp` | at speeds above the points' ride heights the car has no downforce |
| `C88_returns_error` | a wrong order gives back an exception object instead of raising it |
| `C89_flag` | the flag for a normalised axis is trusted: the matrix is then no rotation about the axis |
| `C90_hstack_vectors` | hstack of vectors makes a matrix, numpy's makes a vector |
| `C90_vstack_vectors` | vstack and array of vectors put them one below the other in one column |
| `C90_axis_raises` | concatenate along axis -1 raises; split needs its axis |
| `C90_sum_axis` | sum along axis -1 raises, and along axis 1 of a vector does not |
| `C90_length` | `length` of a casadi matrix of one row is its number of columns, not one |
| `C90_diag` | `diag` of a casadi matrix of one row or column builds a matrix where numpy reads the diagonal; of a square matrix it raises |
| `C90_mean_matrix` | mean of a matrix without axis returns the means of the columns |
| `C90_dot_matrices` | dot of two square matrices returns a number |
| `C90_norm_orders` | other norms raise NameError; the 1-norm of a matrix is the sum over all entries |
| `C90_diff_twice` | every higher difference is the first difference |
| `C90_reshape_vector` | reshape goes column by column |
| `C90_roll_loses` | roll by anything but one loses entries; along rows it raises or returns a row |
| `C90_geomspace` | geomspace is linspace |
| `C91_step_limit` | on a mesh that is too coarse the trapezoidal constraints of x' = 2x have no solution |
| `C92_trapezoidal_grows` | Trapezoidal drives states apart for x' = -10 max(x, 0) |
| `C92_euler_grows` | ForwardEuler doubles the distance on every step of x' = -3x |
| `C93_other_root` | cycloid does not check which solution Newton's method found: one above a full turn gives a longer time |
| `C93_straight_down` | cycloid raises ZeroDivisionError for a target straight below the start |
| `C94_info_is_scaled` | the multipliers returned in info are those of the scaled problem (a TODO in the code says so) |
| `C94_scales_changed` | after set_scales the multipliers of an earlier solution no longer fit: a warm start from an optimal solution does not start at an optimal point |
| `C95_backwards` | the default bounds admit points with negative speed along the centre line (vx = 5, vy = 10, eta = pi/4), where the time decreases with distance |
| `C95_default_bounds` | with the boundary conditions of an open lap, the first stage must be on the centre line whatever the sides of the track are there |
| `C96_gp_wrong, C96_mlp_wrong` | generated code of a model with a matrix-valued parameter (GPAero, MLPAero) uses a scrambled (if square: transposed) matrix: tree_ravel goes row by row, casadi's reshape column by column |
| `C96_order` | the generated function takes parameters by position: the same values under the same names in another order are exchanged silently |
| `C96_raised` | an exception during code generation (missing compiler, a directory in the file name) leaves the model with symbols for its parameters |
| `C97_stale_limits` | constraints added (or deleted) after construction leave cl/cu behind: solve raises ValueError until set_cons is called, which nothing documents |
| `C97_second_solve` | jax with exact Hessians: solve, add an objective, solve again raises IndexError: the warm-up evaluates the Hessian with the mask of the old structure |
| `C97_no_objective` | jax: a problem whose objectives were deleted raises ValueError in the warm-up, although solve would add a constant objective (and does with other backends) |
| `C98_by_hand` | set_mesh_scale by hand changes the length the dynamics are integrated over, but the bounds and the initial guess stay on the road (time guess over the old length) |
| `C98_rejected` | a road whose width is negative somewhere is rejected with AssertionError after track and mesh scale were set: the object then has the new road's guess and length with the old road's bounds |
| `C102_length` | `length` of a matrix with one row is 1 for numpy and the number of columns for casadi |
| `C102_length_list` | `length` of a list or tuple in which a casadi matrix occurs reads its `shape` and raises AttributeError |
| `C102_constants` | `zeros`, `ones`, `eye`, `zeros_like` of the casadi backend never return numpy arrays |
| `C103_trapz_ends` | `trapz` returns the pieces where numpy's function of that name returns their sum; IndexError for fewer than two values with `modify_endpoints` |
| `C104_pass` | `use_backends` with an unknown name runs the test under the backend at the call, silently |
| `C105_ignored` | with `is_condensed` the bounds of the user on derivatives of states are silently replaced by zero bounds on unused variables: they no longer limit anything |
| `C106_last_height` | the boundary condition on the last `y` replaces the bounds [-5, 0] on it, so a target below -5 is accepted and only the heights before it are bounded |
| `C106_model` | the distance model adds 1e-9 to the horizontal velocity in two of its three equations, so it does not conserve energy (C106_energy bounds what it gains) |
| `C107_trailing_comma` | a track file whose rows end in a comma is read without an error, with all columns shifted by one (`pandas` makes the first column the index) |
| `C108_tyres` | after the loop of the lap time example the four tyres share one dictionary: `set_param` on one of them in the tree changes all four |
| `C109_other_model` | after a condensed problem was constructed, no problem for a model lacking one of its states can be constructed from the same configuration, condensed or not |
| `C109_shared_list` | bounds given in a list are extended in place: every other configuration made from this list gets them |
| `C109_list_of_conditions` | boundary conditions given in a list, even an empty one, raise TypeError |
| `C109_names` | LTCConfig appends its names to the user's own list, so that every configuration made from that list has them |
| `C110_windows` | on Windows (every system but macOS and Linux) `solve` always raises UnboundLocalError: the code compares with "Widows" |
| `C110_lost` | if the output file is missing, the solution that IPOPT found is not returned |
| `C110_old_iterations` | if IPOPT stops before its first iteration, num_iter is left from an earlier solve |
| `C112_along` | the default bounds allow a car that slides so that its speed along the road is zero, where the model divides by zero |
| `C112_front` | the default bounds allow points at which a front contact patch of the default car does not move along its wheel, where the model divides by zero |
| `C113_corner` | the longitudinal force of the default tyre is not differentiable in the load at about 3249 N, at ordinary slips: `min(E, 1)` in the weighting function has its corner there |
| `C114_not_a_query` | `apply_and_forward` leaves its parameters in the model, so that a later `forward` answers differently |
| `C114_stateless` | `apply_and_forward_with_arrays` of every model without states raises AttributeError (it calls `forward_with_array`, which does not exist), with the parameters already replaced |
| `C14_lower_lost` | a component that lists the lower triangle of its Hessian (which IPOPT itself accepts) loses these entries without an error |
| `C115_same_name` | if an objective and a constraint have the same name, the objective's Hessian is timed but its time is overwritten by the constraint's |
| `C115_zero` | `repeat = 0` raises ZeroDivisionError |
| `C115_none` | a problem without constraints cannot be profiled: ValueError, after all the work on the components |
| `C116_replaced` | two problems with the same sim_name constructed in the same second log into the same directory, and the results of the one solved first are lost |
| `C116_removed` | if they are solved at the same time, the end of one solve removes the other's iteration files, whose solve can then end with FileNotFoundError |
| `C117_stale` | gradient, jacobian and hessian are compiled with the object as a static argument, found by its identity: after an attribute is assigned they still return the derivatives of the old functions, while objective and constraints return the new values |
| `C117_tracer` | the first evaluation of the Hessian calls objective inside the trace, which leaves a traced value in `_last_iter_dec_var` |
| `C118_last` | a second ModelSolver for the same model replaces `model.model_algebra`, which the first one reads when its constraints are evaluated: with as many constraint outputs the first solver silently solves the second's equations with its own Jacobian, else it raises RuntimeError |
| `C118_refused` | a construction refused because of an unknown output skips the restoring of the parameters (no try/finally): the model is left with casadi symbols as parameters, and earlier solvers cannot be rescaled |
| `C118_problem_late` | with the backend 'jax' the constraint outputs are read from the model when a problem is first evaluated: constructing a second problem for the same model in between makes the first one constrain the second's outputs, silently if there are as many |
| `C119_one_error` | a solve that raises (ipopt status -13) ends the whole benchmark without summary.json, since results are written only at the end |

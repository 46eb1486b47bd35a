{"id": "C01", "title": "Decision-vector index map is a bijection", "statement": "For every decision-variable layout that can be constructed, asking for the index of a stage variable (group, name, stage) or of a global variable returns a position in [0, num_dec), two different variables never share a position, and every position of the decision vector is the index of exactly one variable.", "quantifier": "all variable groups and names, all interval counts, all stages per interval, all global variable lists", "why_tests_cant": "Tests use one or two small layouts; a collision or hole can appear only for particular group sizes or stage counts.", "anchors": ["lumos/optimal_control/utils.py:DecVarOperator.get_var_index_in_dec", "lumos/optimal_control/utils.py:DecVarOperator.num_dec", "lumos/optimal_control/utils.py:DecVarOperator._construct_stage_var_enum", "lumos/optimal_control/utils.py:DecVarOperator._construct_global_var_enum"]}
{"id": "C02", "title": "Stage argument: negative stages, all-stages form and range errors", "statement": "A stage s with -num_stages <= s < 0 denotes the same position as s + num_stages; any stage outside [-num_stages, num_stages-1] raises ValueError and nothing inside that range does; with no stage given the result lists, in stage order, exactly the positions of that variable at stages 0..num_stages-1; for a global variable the stage argument is ignored.", "quantifier": "all layouts, all integer stages", "why_tests_cant": "The integer stage ranges over an unbounded set and the boundary values depend on the layout.", "anchors": ["lumos/optimal_control/utils.py:DecVarOperator.get_var_index_in_dec", "lumos/optimal_control/utils.py:DecVarOperator.get_group_indices_at_stage"]}
{"id": "C03", "title": "flatten_var and unflatten_var are mutually inverse", "statement": "Flattening well-shaped structured variables and unflattening gives back exactly the same structured variables, and unflattening any vector of length num_dec and flattening gives back the same vector.", "quantifier": "all layouts with at least one variable per stage, all variable values, all decision vectors", "why_tests_cant": "Requires every shape and every value; shape errors show only for particular group sizes (for example empty groups).", "anchors": ["lumos/optimal_control/utils.py:DecVarOperator.flatten_var", "lumos/optimal_control/utils.py:DecVarOperator.unflatten_var", "lumos/optimal_control/utils.py:DecVarOperator.split_stage_and_global_vars", "lumos/optimal_control/utils.py:DecVarOperator.merge_stage_and_global_vars"]}
{"id": "C04", "title": "Reading a variable by name returns what was written by name", "statement": "get_var on a flattened set of variables returns the entry of the named group at the requested stage and name (or the named global), and changing one position of the vector changes exactly the one variable whose index it is. The column titles of the stage table are \"<group>.<name>\", in the order of the indices answered for those variables.", "quantifier": "all layouts, all variables, all stages, all vectors", "why_tests_cant": "A layout bug can hide behind values that happen to be equal, or behind groups that have the same size.", "anchors": ["lumos/optimal_control/utils.py:DecVarOperator.get_var", "lumos/optimal_control/utils.py:DecVarOperator.get_stage_var_array", "lumos/optimal_control/utils.py:DecVarOperator.flatten_var"]}
{"id": "C05", "title": "Group index queries partition the decision vector", "statement": "The indices returned for a group at a stage are exactly the indices of its variables in order; over all stages and all stage groups the index lists are pairwise disjoint, strictly increasing per group and, together with the global variables, cover [0, num_dec).", "quantifier": "all layouts, groups and stages", "why_tests_cant": "Needs every layout; tests only check two groups at a few stages.", "anchors": ["lumos/optimal_control/utils.py:DecVarOperator.get_group_indices_at_stage", "lumos/optimal_control/utils.py:DecVarOperator.get_group_indcies_in_dec"]}
{"id": "C06", "title": "Interval tensor window law", "statement": "get_interval_tensor(x, group) has one slice per interval; row j of slice i is the group's row at stage i*(stages_per_interval-1)+j, so that consecutive intervals share exactly their boundary stage and every stage is covered.", "quantifier": "all layouts with at least two stages per interval, all decision vectors", "why_tests_cant": "Off-by-one errors in the overlap depend on the number of stages per interval and intervals.", "anchors": ["lumos/optimal_control/utils.py:DecVarOperator.get_interval_tensor", "lumos/optimal_control/utils.py:batch_conv1d"]}
{"id": "C07", "title": "batch_conv1d is the sliding window operator, and rejects what does not fit", "statement": "When (length-width) is divisible by stride and stride <= width <= 2*stride, the result has (length-width)/stride+1 windows and window b is x[b*stride : b*stride+width]; in every other case (with a positive stride and width at most the length) a ValueError is raised, never a wrong result.", "quantifier": "all arrays, widths and strides", "why_tests_cant": "The three integer parameters range over an unbounded set.", "anchors": ["lumos/optimal_control/utils.py:batch_conv1d"]}
{"id": "C08", "title": "Block offset structures", "statement": "create_offset_structure lists, block after block, the base entries shifted by (k*row_offset, k*col_offset); stack_and_increment stacks num_repeat copies along the axis, the r-th incremented by r*num_increment. Distinct blocks occupy disjoint rows whenever base rows lie below row_offset.", "quantifier": "all base structures, offsets, block counts", "why_tests_cant": "Tests check a single literal.", "anchors": ["lumos/optimal_control/utils.py:create_offset_structure", "lumos/optimal_control/utils.py:stack_and_increment"]}
{"id": "C09", "title": "Scaled constraint Jacobian is the derivative of the scaled constraint, after any scaling history", "statement": "After every sequence of set_input_scales and set_con_scales calls with non-zero scales, if the user's unscaled Jacobian values with the declared structure are the derivative of the user's unscaled constraints, then the values returned by jacobian() with jacobianstructure() are the derivative of what constraints() returns.", "quantifier": "all constraint functions, structures, scale histories and points", "why_tests_cant": "The cached Jacobian scale must stay consistent with both scale vectors through every history.", "anchors": ["lumos/optimal_control/nlp.py:BaseConstraints.jacobian", "lumos/optimal_control/nlp.py:BaseConstraints.set_input_scales", "lumos/optimal_control/nlp.py:BaseConstraints.set_con_scales", "lumos/optimal_control/nlp.py:BaseConstraints.update_jac_scales"]}
{"id": "C10", "title": "Scaled constraint Hessian is the second derivative of the scaled Lagrangian term, after any scaling history", "statement": "After every sequence of scale updates with non-zero scales, if the user's Hessian values are the second derivative of lambda . c(x) then hessian(x, lambda) is entry by entry the second derivative of lambda . constraints(x).", "quantifier": "all constraint functions, structures, multipliers, scale histories and points", "why_tests_cant": "set_con_scales does not touch the cached Hessian scale; that this is right must be shown for every history.", "anchors": ["lumos/optimal_control/nlp.py:BaseConstraints.hessian", "lumos/optimal_control/nlp.py:BaseConstraints.update_hess_scales"]}
{"id": "C11", "title": "Scaled objective gradient and Hessian are the derivatives of the scaled objective", "statement": "After every sequence of set_input_scales with non-zero scales, gradient() and hessian() of an objective are the first and second derivatives of objective(), given that the user's unscaled callables are.", "quantifier": "all objectives, scale histories and points", "why_tests_cant": "Holds for a real-valued function family, not sample points.", "anchors": ["lumos/optimal_control/nlp.py:BaseObjective.gradient", "lumos/optimal_control/nlp.py:BaseObjective.hessian", "lumos/optimal_control/nlp.py:BaseObjective.set_input_scales"]}
{"id": "C12", "title": "Composite constraint vector: order, length and split", "statement": "After any sequence of adding and deleting constraints, constraints(x) is the concatenation in insertion order of the components' values, its length is num_con, and split_constraints of it gives back to each component name exactly the component's own values.", "quantifier": "all histories of add_constraints/delete_constraints, all points", "why_tests_cant": "The order depends on the history of additions and deletions.", "anchors": ["lumos/optimal_control/nlp.py:CompositeProblem.constraints", "lumos/optimal_control/nlp.py:CompositeProblem.split_constraints", "lumos/optimal_control/nlp.py:CompositeProblem.num_con"]}
{"id": "C13", "title": "Composite Jacobian aligns with its structure and with the stacked constraints", "statement": "jacobian(x) and jacobianstructure() have the same length, every row index is below num_con and every column below num_dec, and entry (r, j) assembled from them is the derivative of the r-th component of constraints(x) with respect to x_j.", "quantifier": "all sets of constraints (any number and sizes), all points; components whose derivatives are right on any domain, which the point is in", "why_tests_cant": "Row offsets accumulate over an unbounded number of components.", "anchors": ["lumos/optimal_control/nlp.py:CompositeProblem.jacobian", "lumos/optimal_control/nlp.py:CompositeProblem.jacobianstructure"]}
{"id": "C14", "title": "Composite Hessian is the upper triangle of the Lagrangian Hessian", "statement": "With the structure queried after the last change of the problem, hessian(x, lambda, sigma) aligns with hessianstructure(), contains only row <= col entries, and assembles to the upper triangle of sigma * Hess f + sum lambda_i Hess c_i. If constraints or objectives are changed after the structure was queried the mask is stale (finding).", "quantifier": "all sets of constraints and objectives, multipliers, objective factors and points; all histories", "why_tests_cant": "The cached upper-triangular mask makes the result history-dependent.", "anchors": ["lumos/optimal_control/nlp.py:CompositeProblem.hessian", "lumos/optimal_control/nlp.py:CompositeProblem.hessianstructure"]}
{"id": "C15", "title": "Composite objective and gradient are sums over the current objectives", "statement": "objective(x) is the sum of the values and gradient(x) the sum of the gradients of exactly the objectives currently in the problem, independently of insertion order; solving a problem without objectives adds one constant zero objective and leaves value, gradient and Hessian zero.", "quantifier": "all histories of add/delete objective, all points", "why_tests_cant": "Depends on unbounded histories.", "anchors": ["lumos/optimal_control/nlp.py:CompositeProblem._compute_objective", "lumos/optimal_control/nlp.py:CompositeProblem.gradient", "lumos/optimal_control/nlp.py:NLPFunction.solve"]}
{"id": "C16", "title": "Rejected additions leave the problem unchanged", "statement": "Adding a constraint under an existing name, or with a different number of inputs, raises ValueError; adding an objective under an existing name raises NameError; in these cases the problem (names, order, values, scales) is exactly as before. Every accepted component uses the problem's current decision-variable scales. Deleting an unknown name raises KeyError.", "quantifier": "all problems and histories", "why_tests_cant": "Atomicity on error must hold at every state.", "anchors": ["lumos/optimal_control/nlp.py:CompositeProblem.add_constraints", "lumos/optimal_control/nlp.py:CompositeProblem.add_objective", "lumos/optimal_control/nlp.py:CompositeProblem.delete_constraints"]}
{"id": "C17", "title": "Variable scaling is transparent to the user of solve", "statement": "For positive scales, a scaled point lies within the bounds handed to the solver iff the unscaled point lies within the user's lb/ub; the initial guess handed over unscales to the user's guess; the returned solution is the solver's point unscaled; and status -13 raises instead of returning.", "quantifier": "all bounds (including infinite), positive scales, guesses, solver answers", "why_tests_cant": "Quantifies over every solver answer and scale vector.", "anchors": ["lumos/optimal_control/nlp.py:NLPFunction.solve", "lumos/optimal_control/nlp.py:NLPFunction._construct_ipopt_problem"]}
{"id": "C18", "title": "Caching the Jacobian of linear constraints is sound", "statement": "For a linear (affine) constraint, the cached Jacobian returned at every point equals the uncached one, and the empty Hessian is the exact second derivative, after every scaling history.", "quantifier": "all affine constraints, all points, all scale histories", "why_tests_cant": "All points, not a sample.", "anchors": ["lumos/optimal_control/nlp.py:LinearConstraints"]}
{"id": "C19", "title": "Lower bounds never exceed upper bounds", "statement": "Starting from a fresh problem, after any sequence of update_bounds, update_boundary_conditions, set_state/input/con_output_bounds calls, with any arguments and including calls that raise part-way, every decision variable has lb <= ub, with one exception: it was mentioned by a call whose bounds were one lower value together with an array of upper values that has neither one element nor one per variable addressed. Such a call always raises and, because the lower values are stored first, does leave lb above an older ub. So as long as no call raises, lb <= ub always holds. An array of lower bounds for all stages whose length is not the number of stages is an AssertionError and changes nothing. A request is accepted exactly if its variable exists, each side is one number or one per variable addressed (the lower side, for all stages, one number or one per stage), and no lower value is above the upper one.", "quantifier": "all histories of bound updates including failing ones", "why_tests_cant": "Unbounded histories with failing calls in any place.", "anchors": ["lumos/optimal_control/scaled_mesh_ocp.py:ScaledMeshOCP.update_bounds", "lumos/optimal_control/scaled_mesh_ocp.py:ScaledMeshOCP.update_boundary_conditions", "lumos/optimal_control/scaled_mesh_ocp.py:ScaledMeshOCP._set_var_bounds"]}
{"id": "C20", "title": "The last bound given for a variable wins and others are untouched", "statement": "After update_bounds succeeds, each variable mentioned has the bounds of the last config that mentions it (per stage when arrays are given) except where a boundary condition pins it; variables not mentioned keep their bounds.", "quantifier": "all tuples of bound configs, all problems", "why_tests_cant": "All orders and multiplicities of configs.", "anchors": ["lumos/optimal_control/scaled_mesh_ocp.py:ScaledMeshOCP.update_bounds", "lumos/optimal_control/scaled_mesh_ocp.py:ScaledMeshOCP._set_var_bounds"]}
{"id": "C21", "title": "Boundary conditions persist through bound updates", "statement": "After any sequence of successful update_bounds and update_boundary_conditions calls, each stage variable with a boundary condition has lb = ub = the value of the last boundary condition on it. (Finding: it is not so after direct set_*_bounds or a call that raised, and a bad boundary condition stays stored so that every later update raises.)", "quantifier": "all histories", "why_tests_cant": "Unbounded histories.", "anchors": ["lumos/optimal_control/scaled_mesh_ocp.py:ScaledMeshOCP.update_bounds", "lumos/optimal_control/scaled_mesh_ocp.py:ScaledMeshOCP.update_boundary_conditions", "lumos/optimal_control/scaled_mesh_ocp.py:ScaledMeshOCP._apply_boundary_conditions"]}
{"id": "C22", "title": "Cyclic constraints tie exactly the cyclic variables", "statement": "With cyclicity on, the cyclic variables are all states and inputs except the listed ones, in model order; naming a variable that is not (or no longer) cyclic raises ValueError; the constraint is zero iff each cyclic variable has the same value at the first and last stage, and its Jacobian entries are the derivatives.", "quantifier": "all models' name lists, all exclusion lists, all vectors", "why_tests_cant": "All subsets of variables.", "anchors": ["lumos/optimal_control/scaled_mesh_ocp.py:ScaledMeshOCP._build_cyclic_vars", "lumos/optimal_control/scaled_mesh_ocp.py:ScaledMeshOCP._cyclic_constraint", "lumos/optimal_control/scaled_mesh_ocp.py:ScaledMeshOCP._cyclic_jacobian"]}
{"id": "C23", "title": "Mesh validation and shape", "statement": "Interval points are accepted iff they are num_intervals+1 many, start within 1e-6 of 0, end within 1e-6 of 1 and strictly increase; the resulting normalized mesh has num_stages points, is strictly increasing, starts and ends at the first and last interval point, and interval lengths are positive and add up to last minus first.", "quantifier": "all interval point arrays, all transcriptions with increasing points from 0 to 1", "why_tests_cant": "All arrays and stage counts.", "anchors": ["lumos/optimal_control/scaled_mesh_ocp.py:ScaledMeshOCP.set_normalized_mesh", "lumos/optimal_control/scaled_mesh_ocp.py:ScaledMeshOCP._flat_normalized_mesh", "lumos/optimal_control/scaled_mesh_ocp.py:ScaledMeshOCP._normalized_interval_length"]}
{"id": "C24", "title": "Continuity constraints are the transcription defects", "statement": "The continuity constraint vector has num_states * constraints_per_interval * num_intervals entries, and the entry for interval i, equation l, state k is sum_j A[l,j] x[stage i*(m-1)+j, k] - h_i * mesh_scale * sum_j B[l,j] xdot[stage, k].", "quantifier": "all layouts, transcription matrices, meshes and decision vectors", "why_tests_cant": "Index arithmetic over four unbounded dimensions.", "anchors": ["lumos/optimal_control/scaled_mesh_ocp.py:ScaledMeshOCP._continuity_constraints", "lumos/optimal_control/scaled_mesh_ocp.py:ScaledMeshOCP.num_continuity_cons"]}
{"id": "C25", "title": "Continuity Jacobian (variable mesh) is the derivative of the continuity constraints", "statement": "The values and the structure have equal length, row indices are below the number of continuity constraints, column indices below num_dec, and the assembled entry (r, j) is the derivative of continuity constraint r w.r.t. decision variable j, including the mesh-scale column.", "quantifier": "all layouts, transcription matrices, meshes, decision vectors", "why_tests_cant": "Tests compare at one random point for a handful of sizes.", "anchors": ["lumos/optimal_control/scaled_mesh_ocp.py:ScaledMeshOCP._continuity_jacobian", "lumos/optimal_control/scaled_mesh_ocp.py:ScaledMeshOCP._continuity_jacobianstructure"]}
{"id": "C26", "title": "Continuity Hessian is the second derivative of the continuity Lagrangian", "statement": "For every multiplier vector the assembled values give the mixed second derivatives between states_dot and mesh_scale, in the upper triangle, and all other second derivatives are zero.", "quantifier": "all layouts, matrices, meshes, multipliers, points", "why_tests_cant": "Same as the Jacobian.", "anchors": ["lumos/optimal_control/scaled_mesh_ocp.py:ScaledMeshOCP._continuity_hessian", "lumos/optimal_control/scaled_mesh_ocp.py:ScaledMeshOCP._continuity_hessianstructure"]}
{"id": "C27", "title": "Fixed-mesh continuity constraints are linear with the right Jacobian", "statement": "On a fixed mesh the continuity constraints are a linear function of the decision vector, the Jacobian does not depend on the point and is their derivative, also after set_mesh_scale; the time objective is time[end]-time[start] with gradient +1/-1 at exactly those entries.", "quantifier": "all layouts, meshes, mesh scales and points", "why_tests_cant": "All points and sizes.", "anchors": ["lumos/optimal_control/fixed_mesh_ocp.py:FixedMeshOCP._build_continuity_cons", "lumos/optimal_control/fixed_mesh_ocp.py:FixedMeshOCP._time_objective", "lumos/optimal_control/fixed_mesh_ocp.py:FixedMeshOCP._time_gradient"]}
{"id": "C28", "title": "Condensed and lifted formulations have the same solutions", "statement": "The condensed constraints vanish at x iff the lifted model-algebra and continuity constraints vanish at x with its states_dot entries replaced by the model's derivatives; the condensed constraints do not depend on the states_dot entries.", "quantifier": "all models whose algebra is f(x,u)-xdot, h(x,u)-y, r(x,u); all layouts and vectors", "why_tests_cant": "Equivalence over all vectors.", "anchors": ["lumos/optimal_control/scaled_mesh_ocp.py:ScaledMeshOCP._condensed_constraints"]}
{"id": "C29", "title": "Condensed Jacobian is the derivative of the condensed constraints", "statement": "The chain-rule product of the lifted Jacobians equals the derivative of the condensed constraints in every entry; in particular the states_dot columns cancel to zero for every transcription, mesh and number of intervals.", "quantifier": "all layouts, matrices, model Jacobians", "why_tests_cant": "The code comments only observe the cancellation for the cases tried.", "anchors": ["lumos/optimal_control/scaled_mesh_ocp.py:ScaledMeshOCP._make_chainrule_condensed_jacobian", "lumos/optimal_control/scaled_mesh_ocp.py:ScaledMeshOCP._condensed_jacobian"]}
{"id": "C30", "title": "Condensed Hessian multiplier conversion", "statement": "The equivalent multipliers passed to the model-algebra Hessian make lambda . condensed constraints and the model-algebra Lagrangian have the same dependence on the model functions, for every number of intervals and stages (shared stages receive both intervals' contributions).", "quantifier": "all multipliers, layouts, matrices, meshes", "why_tests_cant": "Shared stage accumulation depends on the number of intervals.", "anchors": ["lumos/optimal_control/scaled_mesh_ocp.py:ScaledMeshOCP._condensed_hessian"]}
{"id": "C31", "title": "Stage constraints apply the unit problem stage by stage", "statement": "The model-algebra constraint vector is the concatenation over stages of the unit constraints at that stage's variables and mesh point; the block Jacobian and Hessian assembled from the offset structure are its derivatives when the unit problem does not depend on the mesh or the mesh is fixed; a multiplier of the wrong length raises ValueError. (Finding: for a mesh-dependent unit problem on a variable mesh the mesh-scale column is missing.)", "quantifier": "all unit problems, layouts, meshes, vectors", "why_tests_cant": "All stage counts and sparsity patterns.", "anchors": ["lumos/optimal_control/convolution.py:ConvConstraints"]}
{"id": "C32", "title": "Problem scaling does not change the feasible set", "statement": "set_scales gives every decision variable the value of the last matching scale config (1 if none), gives each constraint row the documented scale, and for non-zero scales scaled constraints at x/scale vanish iff the unscaled ones vanish at x.", "quantifier": "all scale configs, layouts, vectors", "why_tests_cant": "All configurations.", "anchors": ["lumos/optimal_control/scaled_mesh_ocp.py:ScaledMeshOCP.set_scales"]}
{"id": "C33", "title": "Low-order transcriptions are consistent", "statement": "Forward Euler defects vanish on every affine trajectory and trapezoidal defects on every quadratic trajectory, for every interval length; continuity_con is x_{i+1}-x_i-h*xdot_i, respectively x_{i+1}-x_i-h/2*(xdot_i+xdot_{i+1}).", "quantifier": "all trajectories of the stated degree, all intervals, all states", "why_tests_cant": "All polynomials and intervals.", "anchors": ["lumos/optimal_control/transcription.py:ForwardEuler", "lumos/optimal_control/transcription.py:Trapezoidal", "lumos/optimal_control/transcription.py:Transcription.continuity_con"]}
{"id": "C34", "title": "LGR differential transcription is exact for polynomials", "statement": "For every number of stages m with distinct support points, every polynomial trajectory of degree < m satisfies the LGR continuity constraint exactly on every interval of positive length, and the differentiation matrix reproduces the derivative at all evaluation points.", "quantifier": "all numbers of stages, polynomials and intervals", "why_tests_cant": "All polynomials.", "anchors": ["lumos/optimal_control/transcription.py:Collocation", "lumos/optimal_control/transcription.py:LGR", "lumos/optimal_control/collocation.py:build_lagrange_differential_matrix"]}
{"id": "C35", "title": "LGR integral transcription is exact for polynomials", "statement": "The integration matrix gives the exact integral from the first support point to each evaluation point of every polynomial of degree < m, so polynomial trajectories of degree <= m satisfy LGRIntegral continuity exactly, and LGR-feasible polynomial data are LGRIntegral-feasible.", "quantifier": "all numbers of stages, polynomials and intervals", "why_tests_cant": "All polynomials.", "anchors": ["lumos/optimal_control/transcription.py:LGRIntegral", "lumos/optimal_control/collocation.py:build_lagrange_integration_matrix"]}
{"id": "C36", "title": "Equilibria are feasible for every transcription", "statement": "For every available transcription the A matrix has (m-1) rows of m columns with zero row sums, so a constant state trajectory with zero derivative satisfies continuity for every interval length.", "quantifier": "all transcriptions, numbers of stages, constants", "why_tests_cant": "All stage counts.", "anchors": ["lumos/optimal_control/transcription.py:Transcription.get_continuity_matrices", "lumos/optimal_control/transcription.py:LGR", "lumos/optimal_control/transcription.py:LGRIntegral"]}
{"id": "C37", "title": "LGR points include the interval end", "statement": "The characteristic polynomial P_{N-1}+P_N has -1 as a root for every N >= 1, so the flipped points contain 1 and the interpolation points of LGR contain both 0 and 1; the root-finding polynomial and flip map roots in [-1,1) to points in (-1,1].", "quantifier": "all numbers of points", "why_tests_cant": "All N.", "anchors": ["lumos/optimal_control/collocation.py:get_collocation_points", "lumos/optimal_control/transcription.py:LGR._set_collocation_points"]}
{"id": "C38", "title": "Transcription registry", "statement": "make_transcription accepts exactly ForwardEuler, Trapezoidal, LGR and LGRIntegral (otherwise RuntimeError); every produced scheme has stages_per_interval-1 constraints per interval and stages as requested (2 for the low-order schemes, 3 by default for LGR). The list returned by get_transcription_options holds exactly the names that can be made, each once.", "quantifier": "all names and stage counts", "why_tests_cant": "All strings.", "anchors": ["lumos/optimal_control/transcription.py:make_transcription"]}
{"id": "C39", "title": "Tree <-> dictionary round trips", "statement": "from_dict(to_dict(t)) equals t for every tree; to_flat_dict followed by from_flat_dict restores t whenever names and keys contain no delimiter (and child names are non-empty); a later mutation of the dictionary does not change the tree. (Finding: keys with the delimiter break it.)", "quantifier": "all trees of any depth and width", "why_tests_cant": "All trees.", "anchors": ["lumos/models/tree_utils.py:Tree.to_dict", "lumos/models/tree_utils.py:Tree.from_dict", "lumos/models/tree_utils.py:Tree.to_flat_dict", "lumos/models/tree_utils.py:Tree.from_flat_dict"]}
{"id": "C40", "title": "Parameter get/set laws", "statement": "get_param after set_param at the same path returns the value; at any other path it returns the old value; setting a path through a missing node raises KeyError and leaves the tree unchanged.", "quantifier": "all trees, paths, values and sequences of updates", "why_tests_cant": "All sequences of updates.", "anchors": ["lumos/models/tree_utils.py:ParameterTree.get_param", "lumos/models/tree_utils.py:ParameterTree.set_param", "lumos/models/tree_utils.py:Tree._set_leaf"]}
{"id": "C41", "title": "Parameter ravel/unravel round trip", "statement": "unravel(ravel(t)) restores every parameter value and key in order for every tree whose array leaves have more than one element; the flat vector has length the sum of the sizes. (Finding: one-element arrays come back as scalars and empty arrays raise.)", "quantifier": "all parameter trees and leaf shapes", "why_tests_cant": "All shapes.", "anchors": ["lumos/models/tree_utils.py:ParameterTree.tree_ravel", "lumos/models/tree_utils.py:_ravel_flat_dict"]}
{"id": "C42", "title": "Model tree parameters round trip and are isolated", "statement": "get_recursive_params after set_recursive_params(p) returns p restricted to the model's submodel structure (equal to p when shapes match); changing the returned tree does not change the model; a missing child raises KeyError.", "quantifier": "all model trees and parameter trees", "why_tests_cant": "All trees.", "anchors": ["lumos/models/composition.py:CompositeModel.set_recursive_params", "lumos/models/composition.py:CompositeModel.get_recursive_params"]}
{"id": "C43", "title": "Subtree replacement", "statement": "replace_subtree replaces exactly the addressed child, keeps all other paths, and raises KeyError when the child does not exist, leaving the tree unchanged. Paths may use any delimiter that the names do not contain.", "quantifier": "all trees and paths", "why_tests_cant": "All trees.", "anchors": ["lumos/models/tree_utils.py:Tree.replace_subtree"]}
{"id": "C44", "title": "Model algebra of an explicit model: order, flat positions and complete sparsity", "statement": "For every explicit state-space model the flat unit constraints are f-states_dot, h-con_outputs, residuals in this order; the groups occupy consecutive flat positions in the order of the decision vector's stage; and derivatives read at the declared sparse positions lose nothing: the assembled unit Jacobian and Lagrangian Hessian equal the dense ones everywhere, with no entry counted twice.", "quantifier": "all explicit models (any sizes and functions, with derivatives everywhere or on any domain), all stage vectors, mesh points and multipliers", "why_tests_cant": "A test compares a few models at a few points where a missing entry may be zero; completeness of a sparsity pattern is a statement about every point of every model.", "anchors": ["lumos/models/base.py:StateSpaceModel.implicit", "lumos/models/base.py:_model_algebra_jacobianstructure", "lumos/models/base.py:_model_algebra_hessianstructure", "lumos/optimal_control/nlp.py:JaxMappedConstraints"]}
{"id": "C45", "title": "A model built from a configuration is the one described", "statement": "make_model_from_config succeeds exactly on configurations whose classes are registered and that have a child for every submodel of the class, and then the model has exactly the configured classes and submodels and the class default parameters (or the given ones); an incomplete configuration raises KeyError and a configuration of another class TypeError; a model made from a type name is the model of its default configuration. A submodel is reached by its path with any delimiter that the names do not contain.", "quantifier": "all registries, configuration trees and parameter trees", "why_tests_cant": "All class hierarchies and configurations of any depth.", "anchors": ["lumos/models/composition.py:ModelMaker.make_model_from_config", "lumos/models/composition.py:ModelMaker.make_model_from_name", "lumos/models/composition.py:CompositeModel.__init__", "lumos/models/composition.py:CompositeModel._build_submodels", "lumos/models/composition.py:CompositeModel.get_recursive_default_model_config"]}
{"id": "C46", "title": "Model registry laws", "statement": "add_to_registry makes exactly the new name resolve to the class and raises ValueError without effect when the name is taken; remove_from_registry removes exactly that name and raises KeyError without effect when it is unknown; after any history a name resolves only to a class of that name.", "quantifier": "all registries, classes and sequences of calls", "why_tests_cant": "All histories of calls.", "anchors": ["lumos/models/composition.py:ModelMaker.add_to_registry", "lumos/models/composition.py:ModelMaker.remove_from_registry", "lumos/models/composition.py:ModelMaker.get_model_class"]}
{"id": "C47", "title": "A built OCP is the discretised optimal control problem", "statement": "Constructing an OCP succeeds and adds the documented constraints, the time objective and (for a lap time simulation) the inputs penalty in a fixed order with zero constraint limits; a scaled point satisfies the constraints exactly when the corresponding unscaled point satisfies every transcription equation, the model dynamics, outputs and residuals at every stage and (if cyclic) periodicity of all non-excluded variables; a condensed problem is satisfied exactly by the points that become such solutions after replacing states_dot; the objective is the mesh scale (or final minus initial time on a fixed mesh) plus the inputs penalty if any; Jacobian, gradient and Hessian are the exact derivatives wherever the derivatives of the model are; and solve returns a solution within bounds in user units whenever the solver's point satisfies what it was given.", "quantifier": "all models, with unit derivatives that are exact everywhere or on any domain, layouts, meshes, transcriptions, cyclic and condensed settings, scales, points, multipliers and solvers", "why_tests_cant": "All problems, sizes and points, and the composition of all components.", "anchors": ["lumos/optimal_control/scaled_mesh_ocp.py:ScaledMeshOCP.__init__", "lumos/optimal_control/scaled_mesh_ocp.py:ScaledMeshOCP._build_model_algebra", "lumos/optimal_control/scaled_mesh_ocp.py:ScaledMeshOCP._build_condensed_model_algebra", "lumos/optimal_control/scaled_mesh_ocp.py:ScaledMeshOCP._build_continuity_cons", "lumos/optimal_control/scaled_mesh_ocp.py:ScaledMeshOCP._build_cyclic_cons", "lumos/optimal_control/scaled_mesh_ocp.py:ScaledMeshOCP._build_objective", "lumos/optimal_control/fixed_mesh_ocp.py:FixedMeshOCP"]}
{"id": "C48", "title": "Bounds of a built OCP", "statement": "After construction every variable has the bounds of the last boundary condition mentioning it, else the last configured bound mentioning it, else none; a condensed problem additionally fixes every states_dot at zero. (Finding: it does so by appending to the caller's configuration, so a later problem built from the same configuration is contaminated.)", "quantifier": "all setups, variables and stages, and second problems built from the same configuration", "why_tests_cant": "All lists of bounds and boundary conditions, and reuse of the configuration object.", "anchors": ["lumos/optimal_control/scaled_mesh_ocp.py:ScaledMeshOCP.__init__", "lumos/optimal_control/scaled_mesh_ocp.py:ScaledMeshOCP.update_bounds", "lumos/optimal_control/scaled_mesh_ocp.py:ScaledMeshOCP.update_boundary_conditions"]}
{"id": "C49", "title": "Names of a composite model", "statement": "A model's outputs and residuals are exactly its own and those of all its submodels at any depth, each under the dotted path to the submodel; inputs, states and constrained outputs are its own. If names have no dots and are not repeated in one place, full names are distinct and determine path and variable. get_var_index is the position of a name in its group and a bijection onto 0..n-1. Construction succeeds exactly when every state-space model in the tree has its constrained outputs and residuals among its outputs.", "quantifier": "all trees of models of any depth, all declared names", "why_tests_cant": "Unbounded trees and arbitrary names, including names that collide after prefixing.", "anchors": ["lumos/models/base.py:Model._construct_io_names", "lumos/models/base.py:Model._collect_children_outputs", "lumos/models/base.py:Model.get_var_index", "lumos/models/base.py:StateSpaceModel._check_names", "lumos/models/base.py:StateSpaceModel.set_con_outputs"]}
{"id": "C50", "title": "Dictionaries by name and vectors by position", "statement": "make_vector lists the values in the order of the group's names, needs exactly a value for each name (KeyError otherwise) and ignores others; reading a variable by name from the vector gives the value given under that name; array to dictionary to array and back are inverse. forward_with_arrays calls forward with the dictionaries of the arrays by name and returns arrays that list the returned values by name, constrained outputs and residuals taken from the outputs. make_const_dict gives every name of the group, and no other, the value.", "quantifier": "all groups, names, dictionaries, arrays and models", "why_tests_cant": "Any order and superset of names, any array lengths.", "anchors": ["lumos/models/base.py:Model.make_vector", "lumos/models/base.py:Model.make_dict", "lumos/models/base.py:Model._check_keys", "lumos/models/base.py:_array_to_dict", "lumos/models/base.py:StateSpaceModel.forward_with_arrays", "lumos/models/base.py:Model.forward_with_arrays"]}
{"id": "C51", "title": "Calling submodels", "statement": "On an object whose forward collects its submodels' outputs after calling them, forward is a function of its arguments: after any history of calls that returned, a call gives what a new object would give. Each submodel is called at most once per collection (RuntimeError) and all must have been called (KeyError); the outputs then contain the keywords and every submodel's outputs under submodel.output, and nothing else. (Finding: an exception between the call of a submodel and the collection leaves the object unusable.)", "quantifier": "all trees of models, all bodies of forward built from these calls, all histories of calls", "why_tests_cant": "Histories of calls on an object with hidden memory at every level of an unbounded tree.", "anchors": ["lumos/models/base.py:Model.call_submodel", "lumos/models/base.py:Model._combine_submodel_outputs", "lumos/models/base.py:Model.make_outputs_dict", "lumos/models/base.py:Model._clear_submodel_return_buffer"]}
{"id": "C52", "title": "The constraints of an OCP in terms of the user's forward", "statement": "The residuals an OCP imposes at a stage are, by name: for each state the derivative that forward returns minus the derivative variable, for each constrained output forward's output minus the output variable, and forward's residual outputs, where forward is called with the states and inputs of that stage by name. A point satisfies the built constraints exactly when this holds at every stage, together with the transcription's equations and periodicity.", "quantifier": "all models that deliver what they declare, all setups, all decision vectors", "why_tests_cant": "All models and points; the correspondence crosses flattening, naming, transcription and assembly.", "anchors": ["lumos/models/base.py:StateSpaceModel.implicit", "lumos/models/base.py:StateSpaceModel._apply_and_flat_implicit", "lumos/models/base.py:StateSpaceModel._split_flat_vars", "lumos/optimal_control/scaled_mesh_ocp.py:ScaledMeshOCP.__init__"]}
{"id": "C53", "title": "Track kinematics describe the motion of a body in the plane", "statement": "If the time, lateral offset and relative heading of the track-position model solve its equations along the track, then the point at that offset from the centreline moves, per unit of time, with exactly the body velocity rotated by the absolute heading, and the absolute heading turns with exactly the body's yaw rate; time advances as distance along the track demands. The outputs are the absolute heading and the curvature.", "quantifier": "all trajectories, all centrelines with the stated heading and curvature, all points where the offset is not the centre of curvature and the progress is not zero", "why_tests_cant": "It is a statement about derivatives of arbitrary curves, not about values at sampled points.", "anchors": ["lumos/models/kinematics.py:TrackPosition2D"]}
{"id": "C54", "title": "The vehicle obeys Newton's and Euler's laws", "statement": "Mass times acceleration, with the rotating-frame terms, is the sum of the tyre forces reported as outputs minus the aerodynamic drag; yaw inertia times yaw acceleration is the moment of these forces about the centre of gravity; the reported accelerations are the inertial ones and the residuals are their difference to the assumed accelerations. Along a solution the momentum in the fixed frame changes at the rate of the total force.", "quantifier": "all parameters, all tyre and aero models that return the declared outputs, all states, inputs and trajectories", "why_tests_cant": "Any sign or lever-arm error shows at some states only; all submodels and parameters are quantified over.", "anchors": ["lumos/models/vehicles/simple_vehicle.py:SimpleVehicle.forward"]}
{"id": "C55", "title": "Tyre loads balance weight, downforce and load transfer", "statement": "The four vertical loads sum to weight plus downforce; the left/right differences are the shares of the rolling moment given by the mechanical balance; the front/rear difference is the pitching moment of the assumed longitudinal acceleration. When the residuals vanish the rolling moment of all tyre forces is zero.", "quantifier": "all parameters with nonzero wheelbase and tracks, all submodels, states and inputs", "why_tests_cant": "Load transfer terms cancel for most simple test states; the balance ranges over all states.", "anchors": ["lumos/models/vehicles/simple_vehicle.py:SimpleVehicle.forward"]}
{"id": "C56", "title": "Driveline and wheel spin", "statement": "The power delivered to the two rear wheels is throttle times maximum power and the torque difference is the differential's damping times the speed difference; each wheel's inertia times its spin acceleration is drive torque minus brake torque minus rolling radius times the longitudinal force its tyre model returned.", "quantifier": "all parameters, tyre and aero models, states with the rear wheels not counter-rotating exactly, inputs, all four wheels", "why_tests_cant": "All states and submodels.", "anchors": ["lumos/models/vehicles/simple_vehicle.py:SimpleVehicle.forward"]}
{"id": "C57", "title": "Each tyre is asked for its own slip and its force is turned into the body frame", "statement": "The tyre model of each corner is called with that corner's load, slip ratio, slip angle and the mirrored sign convention; the reported slip ratio and slip angle satisfy their definitions from the contact-patch velocity in the wheel's frame; the reported forces are the returned ones rotated by that corner's steering angle.", "quantifier": "all parameters, tyre models, states, inputs, corners", "why_tests_cant": "All corners, states and tyre models.", "anchors": ["lumos/models/vehicles/simple_vehicle.py:SimpleVehicle.forward"]}
{"id": "C58", "title": "Energy balance of the vehicle", "statement": "The rate of kinetic energy (translation, yaw, four wheels) equals engine power minus brake power minus drag power plus the power of the tyre forces over the slip velocities. If the tyre forces oppose their slip velocities the vehicle never gains more than the engine power.", "quantifier": "all parameters, submodels, states, inputs and trajectories", "why_tests_cant": "It is an identity over all states; a sign error in one of about forty terms violates it only generically.", "anchors": ["lumos/models/vehicles/simple_vehicle.py:SimpleVehicle.forward"]}
{"id": "C59", "title": "Perantoni tyre: friction ellipse, signs and symmetry", "statement": "The force depends only on load, slip ratio and slip angle; it stays strictly inside the friction ellipse of its load-dependent coefficients; for the default parameters and loads below 22 kN the longitudinal force has the sign of the slip ratio and the lateral force opposes the slip angle; mirroring one slip mirrors that force only.", "quantifier": "all loads, slips and (for the ellipse, symmetry and dependence) all parameters", "why_tests_cant": "Real-valued inequality over all slips and parameters.", "anchors": ["lumos/models/tires/perantoni.py:PerantoniTire.forward"]}
{"id": "C60", "title": "Left/right mirror symmetry of the vehicle", "statement": "Mirroring the state, steering and lateral acceleration, and exchanging the left and right tyre models, mirrors every state derivative and output.", "quantifier": "all parameters, tyre models, aero models that are themselves symmetric, states and inputs", "why_tests_cant": "All states and submodels; a one-sided error is invisible in straight-line tests.", "anchors": ["lumos/models/vehicles/simple_vehicle.py:SimpleVehicle.forward"]}
{"id": "C61", "title": "Vehicle on track: distance as independent variable", "statement": "The derivative with respect to distance of each vehicle state is its time derivative times dt/ds of the kinematics, which is fed with the vehicle's velocities; hence along a solution, as a function of time, the vehicle satisfies its own equations and the point at the lateral offset moves with the vehicle's velocity. The positions of states and inputs are: time, n, eta, vx, vy, yaw_rate, the four wheel speeds; throttle, brake, steer, ax, ay, track_curvature, track_heading.", "quantifier": "all vehicle models with the declared interface, all trajectories and centrelines", "why_tests_cant": "All submodels and curves.", "anchors": ["lumos/models/simple_vehicle_on_track.py:SimpleVehicleOnTrack.forward"]}
{"id": "C62", "title": "The drone model is a thrust-vectored point mass", "statement": "Along a solution positions, attitude and velocities change as the planar thrust-vector equations say, and the sum of kinetic and potential energy changes at the rate of the thrust's power.", "quantifier": "all trajectories and gravity values", "why_tests_cant": "Statement about derivatives of arbitrary curves.", "anchors": ["lumos/models/drone_model.py:DroneModel.forward"]}
{"id": "C63", "title": "Track lookups interpolate the track data", "statement": "curvature_at, heading_at, left_distance_at and right_distance_at return the given data at the data points, the straight line between neighbouring points, the first value before the start and the last value after the end (the track is not wrapped around); they are continuous and never leave the range of the data; without a side distance it is 5 everywhere. Distance is measured from the first point along the polygon through the points and total_distance is its full length.", "quantifier": "all tracks built from strictly increasing distances or distinct consecutive points, all distances, also negative and beyond the end", "why_tests_cant": "The lookups are queried at arbitrary real distances; a wrong segment or end rule shows only at some of them.", "anchors": ["lumos/models/tracks.py:RaceTrack.curvature_at", "lumos/models/tracks.py:RaceTrack.total_distance", "lumos/models/tracks.py:RaceTrack.from_cartesian"]}
{"id": "C64", "title": "The heading turns with the curvature", "statement": "The heading lookup is the start heading plus the integral of the curvature lookup: exactly at the data points, and between neighbouring points within one eighth of the change of curvature times the distance between them. For ConstCurvTrack the curvature is the derivative of the heading. A ConstCurvTrack answers, at every distance, its curvature and its half width, starts at its start heading and turns by curvature times distance; it answers nothing (None) for the left and right distances.", "quantifier": "all cartesian and curvilinear tracks with strictly increasing distance, all distances on the track", "why_tests_cant": "The statement is about an integral of a piecewise linear function for all node positions.", "anchors": ["lumos/models/tracks.py:_trapz", "lumos/models/tracks.py:cartesian_to_curvilinear", "lumos/models/tracks.py:curvilinear_to_cartesian", "lumos/models/tracks.py:ConstCurvTrack"]}
{"id": "C65", "title": "Track geometry does not depend on the coordinate frame", "statement": "Rotating, shifting, scaling and reflecting the points scales the distances, divides the curvature by the scale (negated by a reflection) and adds the rotation to the heading, up to whole turns; the side distances stay. Points on a straight line give zero curvature and the line's heading. Points equally spaced on a circle give exactly one over the radius, away from the ends. Taking the points in the opposite order and exchanging the sides is the track driven backwards: opposite curvature, heading off by a constant, left and right exchanged.", "quantifier": "all point lists with distinct consecutive points, all similarity maps, all lines, circles and spacings", "why_tests_cant": "Quantifies over all maps and point lists; the finite differences are inexact in general.", "anchors": ["lumos/models/tracks.py:cartesian_to_curvilinear", "lumos/models/tracks.py:RaceTrack.from_cartesian"]}
{"id": "C66", "title": "A curvature profile is drawn as a path of that length", "statement": "The path drawn from a curvature profile starts at the origin, no two neighbouring points are farther apart than their distance along the track, changing the start heading rotates the path about the origin, and negating the curvature and start heading mirrors it.", "quantifier": "all profiles with increasing distances, all start headings", "why_tests_cant": "All profiles and angles.", "anchors": ["lumos/models/tracks.py:curvilinear_to_cartesian", "lumos/models/tracks.py:RaceTrack.from_curvilinear"]}
{"id": "C67", "title": "The lap time inputs penalty is the weighted mean square of the inputs", "statement": "The inputs penalty of a lap time simulation is the average over the stages of the weighted sum of the squares of the inputs; its gradient and its (diagonal) Hessian are exact; with the default weights it is the mean square of the steer, never negative and zero exactly when the steer is zero at every stage; a weight for a variable that is not an input makes all three raise ValueError.", "quantifier": "all layouts with inputs, all weights, all points of the right length", "why_tests_cant": "All layouts, weights and points; the gradient and Hessian are hand written.", "anchors": ["lumos/simulations/laptime_simulation.py:LaptimeSimulation._build_objective", "lumos/simulations/laptime_simulation.py:LaptimeSimulation._expand_weights", "lumos/simulations/laptime_simulation.py:LaptimeSimulation._inputs_penalty"]}
{"id": "C68", "title": "Changing the mesh scale after construction", "statement": "On a problem that is not condensed, changing the mesh scale of a fixed mesh problem after construction gives exactly the problem constructed with the new scale. On a condensed one the constraints, objective, bounds and scales are those of the problem constructed with the new scale. (Finding: the condensed Jacobian keeps the sparsity structure sampled with the scale used during construction, always 1 for a lap time simulation, and can lose an entry that is zero only at that scale.)", "quantifier": "all problems, old and new scales, points", "why_tests_cant": "All problems and pairs of scales; the loss happens only for models whose entry cancels at the construction scale.", "anchors": ["lumos/optimal_control/fixed_mesh_ocp.py:FixedMeshOCP.set_mesh_scale", "lumos/simulations/laptime_simulation.py:LaptimeSimulation.set_track", "lumos/optimal_control/scaled_mesh_ocp.py:ScaledMeshOCP._condensed_jacobianstructure"]}
{"id": "C69", "title": "Setting and changing the track of a lap time simulation", "statement": "Setting a track succeeds exactly when its file can be read as a track that is nowhere on the mesh narrower than nothing; in particular every table of two or more different points with no negative side distance is accepted. Afterwards the mesh scale is the length of the track, the track curvature and heading are fixed at every stage at the track's values at the distance of the stage, the lateral position is limited by the two sides, boundary conditions still hold and no other bound has changed; the problem solved is the discretised problem on the new track. A call that raises leaves the bounds alone. After any history of tracks only the last one counts. (Findings: a rejected track leaves its length as the mesh scale, and the curvature stays cyclic, so that a closed lap whose finite difference curvature differs at its two ends has no feasible point.)", "quantifier": "all problems of vehicles on tracks, all files, all histories of set_track calls", "why_tests_cant": "All files, problems and histories of calls.", "anchors": ["lumos/simulations/laptime_simulation.py:LaptimeSimulation.__init__", "lumos/simulations/laptime_simulation.py:LaptimeSimulation.set_track", "lumos/simulations/laptime_simulation.py:LaptimeSimulation.distance_mesh", "lumos/models/tracks.py:RaceTrack.from_tum_csv"]}
{"id": "C70", "title": "The initial guess of a lap time simulation", "statement": "The initial guess exists for every vehicle with known states and inputs; at every stage the time is the distance from the start at 50 m/s, the car drives at 50 m/s on the centre line with rolling wheels, the inputs are zero but for the curvature and heading of the track, and the state derivatives and outputs are those of the model there. The default bounds are valid and accepted, and with them and the default boundary conditions the states and inputs of the guess are within the bounds, for open and closed laps.", "quantifier": "all models, meshes and tracks whose sides contain the centre line", "why_tests_cant": "All models, meshes and tracks.", "anchors": ["lumos/simulations/laptime_simulation.py:LaptimeSimulation.get_init_guess", "lumos/simulations/laptime_simulation.py:get_default_bounds", "lumos/simulations/laptime_simulation.py:get_default_boundary_conditions", "lumos/simulations/laptime_simulation.py:get_default_scales"]}
{"id": "C71", "title": "What a solve leaves in the logging directory", "statement": "With logging, a solve in which IPOPT reports the iterations 0 to K (possibly repeating a report, with trial evaluations in between) leaves exactly results.csv, metrics_history.csv and, when every n-th iteration is logged, all_iters.parquet; no file of a single iteration is left and no other file changes, in whatever order the operating system lists files. all_iters has the tables of the logged iterations in increasing order and then that of the last one, each at the point evaluated last before the first report of the iteration (the last: evaluated last at all); metrics_history has one row for each iteration, with the name and place of a largest constraint for the logged iterations and the last, and 'NotRecorded' for the others. Without logging nothing is written. (Findings: a solve without any reported iteration raises TypeError; solving the same object again writes the violations of the second solve into the rows of the first, and raises FileNotFoundError when both take no iteration; an iteration reported again in restoration mode shifts the violations of all later ones by a row.)", "quantifier": "all problems, all sequences of evaluations and reports, all listing orders, all n", "why_tests_cant": "All histories of evaluations and reports.", "anchors": ["lumos/optimal_control/scaled_mesh_ocp.py:ScaledMeshOCP._log", "lumos/optimal_control/scaled_mesh_ocp.py:ScaledMeshOCP._log_final_iter", "lumos/optimal_control/scaled_mesh_ocp.py:ScaledMeshOCP.intermediate", "lumos/optimal_control/nlp.py:NLPFunction.objective"]}
{"id": "C72", "title": "The table of an iteration", "statement": "For every constructed problem (lifted or condensed, cyclic or not, any transcription, model and scales) and all scaled decision variables, the result table can be made and has one row per stage with: every decision variable of the stage in physical units; the outputs of the model at that stage's states, inputs and mesh; for every state the transcription equation that ends at the stage (zero at the first stage), divided by the state's scale; the model equations of the stage divided by their scales (state derivatives only when not condensed), then the residuals; and at the last stage of a cyclic problem the difference between the ends of every periodic variable, zero elsewhere. A point is feasible for the solver exactly when all logged constraint columns are zero. On an increasing mesh the rows are in the order of the mesh column, so the sequence of tables is what C71 needs. On a fixed mesh the mesh column is the mesh. (Finding: when the mesh scale is optimised, the mesh column is the mesh divided by the configured scale of mesh_scale, because the scaled decision variable is used.)", "quantifier": "all problems, scales, outputs and decision vectors", "why_tests_cant": "Every problem and point; whether the table agrees with the constraints handed to the solver cannot be sampled.", "anchors": ["lumos/optimal_control/scaled_mesh_ocp.py:ScaledMeshOCP._create_result_df", "lumos/optimal_control/nlp.py:CompositeProblem.split_constraints", "lumos/optimal_control/utils.py:DecVarOperator.get_stage_var_array"]}
{"id": "C73", "title": "Configurations and their dictionaries", "statement": "For every class of configuration (SimConfig, LTCConfig, DroneSimulationConfig) and all keyword arguments: the constructor accepts declared names only; the result has exactly the declared fields, each with the given value or its default, except that a transcription given as a string becomes a 1-tuple and that sequences of dictionaries for bounds, scales and boundary conditions become tuples of objects made from them; a dictionary makes a bound exactly when it has the three fields and the lower values do not exceed the upper ones; a lap-time configuration always has a track and its non-periodic names are the given ones followed by those of states.time and inputs.track_heading that were missing. The defaults are 99 intervals, the trapezoidal scheme, the jax backend, an exact Hessian, no periodicity, no condensing and no logging; boundary conditions, bounds, scales and constrained outputs default to those of the lap and of the drone's flight. Logging starts exactly if there is a LoggingConfig. Constructing the class from to_dict() of a configuration whose fields have the declared types and that has no logging_config gives an equal configuration, in particular for every default configuration. (Findings: a logging_config does not survive the round trip and then makes the construction of a problem raise AttributeError; sequences mixing dictionaries and objects raise TypeError or keep dictionaries depending on the order; a tuple for non_cyclic_vars raises AttributeError; the default boundary conditions of an open lap are those of a closed one; the declared default track is rejected.)", "quantifier": "all configuration classes, keyword arguments and values", "why_tests_cant": "Every combination of fields and values; equality after a round trip is a claim about all configurations.", "anchors": ["lumos/optimal_control/config.py:SimConfig.__post_init__", "lumos/optimal_control/config.py:SimConfig.to_dict", "lumos/optimal_control/config.py:BoundConfig.__post_init__", "lumos/simulations/laptime_simulation.py:LTCConfig.__post_init__", "lumos/simulations/drone_simulation.py:DroneSimulationConfig"]}
{"id": "C74", "title": "The scope of a backend", "statement": "For every program that sets backends, opens use_backend scopes, handles exceptions and decorates and calls functions: the backend is always one of jax, numpy and casadi; `with use_backend(b)` runs its body from b (from the current backend if b is unknown) and leaves the backend as it was before the statement whatever the body does, also when it raises; a decorated function runs from its target backend and leaves the backend that was current at its decoration; a program that never calls set_backend and calls decorated functions only under the backend of their decoration leaves the backend unchanged. (Findings: a decorated function called inside a scope changes the backend of the rest of the scope; one decorated inside a scope changes the backend of the whole program when called later; an unknown backend raises nothing.)", "quantifier": "all programs and executions", "why_tests_cant": "Every nesting of scopes, exceptions and calls; tests run a few sequences.", "anchors": ["lumos/numpy/utils.py:use_backend", "lumos/numpy/__init__.py:set_backend", "lumos/optimal_control/nlp.py:JaxMappedConstraints"]}
{"id": "C75", "title": "ModelSolver solves the physical problem that was asked for", "statement": "For every state-space model with distinct names (whose casadi callbacks are its derivatives) and every history of set_bounds, set_var_scale, add_obj_from_var, add/delete objective, add/delete constraints, set_cons and solve: a variable is found at its position in [states, inputs, states_dot, con_outputs]; its bounds and its scale are those of the last accepted call; a call is refused exactly for an unknown variable, crossed bounds, a non-positive scale or a group that has no scale, and a refused call changes nothing; Jacobian and gradient are the derivatives of what is solved; a point of the scaled problem is feasible exactly when its physical image lies within the bounds and satisfies x_dot = f(x,u), y = h(x,u) and zero residuals; the objective is the sum of weight times physical variable over the objectives present; the returned point is the physical image of the solver's point, so an optimal point of the scaled problem comes back as an optimal point of the physical one; rescaling never changes the physical problem. (Findings: the exact Hessian always raises KeyError; solve without an initial guess raises AttributeError; after adding a constraint solve raises ValueError until set_cons is called; the same variable cannot be added twice with the same weight; states_dot cannot be scaled; after the model algebra is deleted, set_var_scale raises but has stored the scale.)", "quantifier": "all models, histories of calls, points and solvers", "why_tests_cant": "Quantifies over all histories of calls and all models; tests run two models with one history each.", "anchors": ["lumos/optimal_control/model_solver.py:ModelSolver", "lumos/optimal_control/nlp.py:CompositeProblem", "lumos/models/base.py:get_var_index_in_flat"]}
{"id": "C76", "title": "Every transcription integrates with non-negative weights", "statement": "For every transcription that can be made (LGR and LGRIntegral with any number of stages, ForwardEuler, Trapezoidal) there is one set of weights, all non-negative, adding up to 1 and integrating polynomials of the transcription's quadrature degree exactly (0, 1, 2m-4, max(m-1, 2m-4)), such that whenever the continuity constraints of an interval of length h vanish, the change of every state across the interval is h times the weighted sum of its derivative at the stages. So bounds on the derivative at the stages bound the change of the state, over an interval and, for a solution of the whole problem on any mesh, over the whole time span: a solution cannot move faster than its stage derivatives allow. (Finding: LGR ignores the derivative at the first stage of an interval and ForwardEuler the one at the last stage; their values never influence the constraint.)", "quantifier": "all transcriptions, stage counts, meshes, interval lengths, state and derivative values, and all solutions of the transcribed problem", "why_tests_cant": "Positivity of the weights and exactness to degree 2m-4 hold for every number of stages; a test evaluates one polynomial on one transcription.", "anchors": ["lumos/optimal_control/transcription.py:make_transcription", "lumos/optimal_control/collocation.py:make_differentiation_matrix, make_integration_matrix", "lumos/optimal_control/scaled_mesh_ocp.py:_continuity"]}
{"id": "C77", "title": "The drone simulation poses the flip problem", "statement": "For every gravity, transcription, number of intervals and interval points for which DroneSimulation can be constructed (exactly those for which the transcription and the mesh are accepted), the decision vectors that satisfy its constraints and bounds are exactly the discretised flights with the default settings: at every stage the velocities, thrust and turn rate equations and the output sin_theta hold, in every interval the transcription's equations hold for the five states with the interval's share of the duration, states, thrust, turn rate and duration are inside their default bounds, the drone starts at rest at the origin and ends at rest 5 m higher turned by a full turn; the objective and get_total_time are the duration. get_init_guess returns a vector of the right length with all states 0.1, thrust 10 and duration 1 that satisfies the equations of motion at every stage but never the bounds (it violates the boundary conditions). Every flight the problem admits takes at least pi/5 s on the default mesh. (Finding: with 2 to 39 trapezoidal intervals the problem admits flights without any flip: the drone rises without tilting at any stage and the attitude jumps by a full turn within the last interval.)", "quantifier": "all gravities, transcriptions, meshes and decision vectors", "why_tests_cant": "Feasible points form a continuum and every transcription and mesh gives a different problem; a test checks one solve.", "anchors": ["lumos/simulations/drone_simulation.py:DroneSimulation, get_default_bounds, get_default_boundary_conditions, get_init_guess, get_total_time", "lumos/models/drone_model.py:DroneModel.forward", "lumos/optimal_control/scaled_mesh_ocp.py:__init__"]}
{"id": "C78", "title": "The brachistochrone example: hand-written derivatives, the problem and its limits", "statement": "The backend 'custom' of the example's time-domain model gives a problem in the model's own equations whose eight first and three second derivatives per stage are the true ones, with both triangles of the Hessian (the methods called with the arguments of their signatures; the problem itself passes the Hessian's arguments in another order, see C79); for a class without these methods it raises NotImplementedError. For every target, gravity, transcription, mesh and for either backend, the decision vectors that satisfy constraints and bounds are exactly the discretised slides from rest at the origin to the target with a duration in [0.01, 10] and slopes in [-pi/2, pi/2], and the objective is the duration. With the trapezoidal rule: no feasible point is faster than a free fall over the straight distance; on equal intervals the energy at every stage is known exactly and conserved up to g^2 (T/n)^2 / 8, so the bead is never higher than g (T/n)^2 / 8; for a target below the start and not behind it, the straight slide is feasible on any number of intervals, so the least duration is at most sqrt(2 (dx^2+dy^2) / (g |dy|)). The time model conserves energy. (Findings: the distance model does not, it loses energy whenever the bead goes down; the discretised problem lets a bead start and end at rest g (T/n)^2 / 8 above its start; solve_brachistochrone ignores backend and is_condensed, so the hand-written derivatives are never used; the initial guess of zeros satisfies all constraints for every target but lies outside the bounds.)", "quantifier": "all targets, gravities, transcriptions, meshes, decision vectors and multipliers", "why_tests_cant": "The repository's test compares one optimal duration; the derivatives, the feasible set and the bounds are statements about a continuum of points, and the test passes with backend='custom' although that backend is never used.", "anchors": ["examples/brachistochrone.py:TimeModel, TimeModelWithCustomDerivatives, DistanceModel, solve_brachistochrone", "lumos/models/base.py:_make_custom_model_algebra_cons, make_model_algebra_cons", "lumos/optimal_control/scaled_mesh_ocp.py:__init__"]}
{"id": "C79", "title": "Mapping a function over a batch", "statement": "lmap(fn, in_axes)(*args) returns an array exactly if the list of axes has one entry per argument, some argument has rows, and fn returns arrays of one shape on every sample; row s of the result is fn applied to the s-th rows of the mapped arguments and to the others unchanged. For functions returning tuples or named tuples, row s of element i is element i of sample s and the class is kept. The first sample that raises decides the error. For the stage constraints of a model with hand-written derivatives this gives, with one mesh point per window, exactly the row-by-row values of the stage model (C31). The function that cmap returns may be called any number of times with any batch sizes: a call whose batch size can be mapped gives what a function made for that size gives, whatever was called or raised before; its sparse outputs are cut into the samples' values. (Findings: the problem passes the multipliers second, the hand-written Hessian method of the 'custom' backend expects them last, so every Hessian evaluation of such a problem raises AttributeError; the batched forward evaluation of that backend passes arrays to a method that looks names up and always raises IndexError; the number of mesh points is not compared, surplus points are dropped; the axis value is ignored; the batch size is read off the first argument even if that is not mapped; an empty batch raises IndexError; after a failed cmap call the next call of the same size runs the function made for an earlier size; dense matrix outputs get one row per column of every sample.)", "quantifier": "all functions, axes, arguments, batch sizes and histories of calls", "why_tests_cant": "The repository's tests map one function over one batch; that the result is right for every batch size, argument structure and history of calls of a stateful function is not testable by examples.", "anchors": ["lumos/numpy/utils.py:lmap, cmap", "lumos/optimal_control/nlp.py:MappedConstraints, CasMappedConstraints", "lumos/optimal_control/convolution.py:ConvConstraints", "lumos/models/base.py:_implicit_hess, _make_custom_model_algebra_cons"]}
{"id": "C80", "title": "The casadi backend's library cache loads the code of the right model", "statement": "Making a model's constraints with the casadi backend writes C code to nlpfunctions.c in the working directory, and loads ./<md5 of that file>.so, compiled by gcc if it does not exist. For any number of processes in one directory and any history in which their sections from the generation of the code to the end of gcc do not overlap and gcc is not stopped while writing: no process fails to load its library and every process that has loaded one computes with the functions of its own model; a process that was not stopped can always finish. In particular for runs one after the other, each stopped at any other point. A failed compilation is not remembered. (Findings: a process stopped while gcc writes leaves an incomplete library that makes every later run of the same model fail; two processes at the same time can put one model's functions under the other's name, after which every run of that model silently computes with the wrong model; with a warm cache a process can load the other's library; even two processes with the same model can fail.)", "quantifier": "all numbers of processes, histories of steps and stops, codes and initial directories whose libraries are complete, for an MD5 that does not collide on the codes in play", "why_tests_cant": "The outcome depends on the interleaving of processes, the points at which they are stopped and the files left by earlier runs; a test runs one process in a fresh directory.", "anchors": ["lumos/models/base.py:_make_casadi_model_algebra_cons"]}
{"id": "C81", "title": "The parameters a problem computes with", "statement": "Constructing an optimal control problem leaves the model's parameters as they were, for every backend. After any history of modify_model_param calls, evaluations and changes to the model object, the stage constraints of a problem that is not condensed are computed with the parameters the model had at construction with all changes made through the problem applied in order (with casadi: passed to the generated functions, where C96 says what of a matrix arrives); a change that raises changes nothing, and any other change is seen by get_param, the model and the constraints. In the words of get_param: a parameter is the value of the last change with its path. (Findings: in a condensed problem every change raises AttributeError after it has been made, and with casadi the constraints never see it while the condensed Jacobian does; evaluating with the jax backend leaves traced symbols in the model object, so that calling the model afterwards fails; with 'custom' an evaluation overwrites what was set on the model object; a misspelt parameter name is accepted, and with casadi makes every later evaluation fail.)", "quantifier": "all backends, models with any tree of submodels, histories of operations, paths and values", "why_tests_cant": "Parameters live in the problem, in the constraints and in the model object; which is current depends on the whole history of changes and evaluations.", "anchors": ["lumos/optimal_control/scaled_mesh_ocp.py:ScaledMeshOCP.modify_model_param", "lumos/optimal_control/scaled_mesh_ocp.py:ScaledMeshOCP._set_model_params", "lumos/optimal_control/convolution.py:ConvConstraints.set_params", "lumos/models/base.py:StateSpaceModel.make_model_algebra_cons"]}
{"id": "C82", "title": "The forces of the MF5.2 tyre", "statement": "For every set of parameters the MF5.2 tyre returns numbers exactly when no denominator is zero, and they are the magic formula of pure slip times the combined-slip weights plus the induced side force; the forces depend neither on the speed nor on the mode; without slip angle (ratio) the weight is one; the forces never exceed the weighted peaks; for a shape factor up to two the force in pure slip has the direction of the shifted slip, and the largest force over all slip ratios is exactly the peak plus the shift. With the default parameters the tyre is defined at every load above zero up to 40 kN for all slips, cambers and speeds, and upright within the load range of the file it never transmits more than 0.96 (longitudinal) and 1.12 (lateral) times its load. (Findings: at zero load the tyre returns 0/0, not zero force; the default tyre pushes forward with more than 180 N when rolling freely; at the largest load and slip angle of the file the weight of the longitudinal force is negative.)", "quantifier": "all parameter dictionaries, loads, slip ratios, slip angles, speeds and cambers, both modes", "why_tests_cant": "Definedness and force limits range over five real inputs and 149 parameters; sampled tests see neither isolated singular loads nor suprema.", "anchors": ["lumos/models/tires/pacejka.py:MF52.forward", "lumos/models/tires/pacejka.py:MF52._do_force_and_moments", "lumos/models/tires/pacejka.py:MF52._calculate_Fx0", "lumos/models/tires/pacejka.py:MF52._calculate_Fx", "lumos/models/tires/pacejka.py:MF52._calculate_Fy0", "lumos/models/tires/pacejka.py:MF52.calcluate_Fy"]}
{"id": "C83", "title": "The forces of the MF5.2 tyre are smooth in the slips", "statement": "For every set of parameters, wherever the tyre is defined its forces are twice continuously differentiable functions of slip ratio and slip angle together, in spite of the sign functions and clamps in the code; the derivative that automatic differentiation computes by treating these as constants is the true one at every slip, also where the shifted slip is zero; the slopes at that point are the slip stiffness and the cornering stiffness that the model gives out, up to the regularisation epsilonx, epsilony. The default tyre is twice continuously differentiable everywhere. (Finding: the cornering stiffness has a kink in the camber at zero.)", "quantifier": "all parameter dictionaries and open sets of slips", "why_tests_cant": "Smoothness is a statement about all points; the switching points are a null set that sampled tests never hit.", "anchors": ["lumos/models/tires/pacejka.py:MF52.forward", "lumos/models/tires/pacejka.py:MF52._do_force_and_moments", "lumos/models/tires/pacejka.py:MF52._calculate_Fx0", "lumos/models/tires/pacejka.py:MF52._calculate_Fy0"]}
{"id": "C84", "title": "The mirrored MF5.2 tyre", "statement": "Turn around the slip angle, the camber and the 18 handed parameters of an MF5.2 tyre: it is defined exactly when the original is, longitudinal force, rolling moment, stiffnesses and weights are the same, and side force, overturning and aligning moment turn around; a tyre whose handed parameters are zero gives no side force, overturning or aligning moment when upright without slip angle, at any load, slip ratio and speed. (Finding: the default tyre is handed: rolling straight it pulls to one side.)", "quantifier": "all parameter dictionaries, inputs and both modes", "why_tests_cant": "The symmetry must hold for all inputs and parameters at once; it is what lets the vehicle use one parameter set for both sides.", "anchors": ["lumos/models/tires/pacejka.py:MF52.forward", "lumos/models/tires/pacejka.py:MF52._do_force_and_moments", "lumos/models/tires/pacejka.py:MF52._calculate_Mz", "lumos/models/tires/pacejka.py:MF52._calculate_Mx", "lumos/models/tires/pacejka.py:MF52._calculate_My"]}
{"id": "C85", "title": "The car on MF5.2 tyres", "statement": "A car on MF5.2 tyres (the default of SimpleVehicle) returns numbers only when no wheel load is exactly zero. On default tyres with constant aerodynamic coefficients it returns in every state in which the four wheel loads are above zero and at most 40 kN; the horizontal force on a wheel with a load inside the range of the parameter file is at most 1.48 times its load, and the acceleration apart from drag at most 1.48 times the sum of the wheel loads over the mass.", "quantifier": "all car parameters, states, inputs, aero models and (for the first part) tyre parameters", "why_tests_cant": "The loads depend on state and inputs; the bound must hold for every combination of slips at four wheels.", "anchors": ["lumos/models/vehicles/simple_vehicle.py:SimpleVehicle.forward", "lumos/models/tires/pacejka.py:MF52.forward", "lumos/models/tires/pacejka.py:MF52._do_force_and_moments"]}
{"id": "C86", "title": "A tyre data file is read as it says", "statement": "Reading a tyre data file never raises, whatever text it holds, and returns a dictionary in which a parameter has a value exactly when the last line that assigns to it assigns that value; a line assigns when it has an equals sign and, blanks removed, the text between its first two separators (= or $) is a number, to the name before. A file written as entries NAME = number $ comment, entries with text values, and lines without equals sign is read back exactly, with any blanks, any comments (equals signs included) and any of the three kinds of line ends; every decimal literal is read as its value. Lines that begin with $ set nothing. The parameters made from a file are those of the file and four constants that the file cannot change; a tyre with them raises KeyError at every evaluation, and not before, exactly when a parameter it needs is assigned nowhere. (Findings: a number in a comment of a line without assignment becomes a value; tabs are not removed from names; blanks inside numbers are; values with another comment sign are silently dropped; nan is a value.)", "quantifier": "all texts, all files written as described, all decimal literals", "why_tests_cant": "Files are unbounded texts; the tests read one file.", "anchors": ["lumos/models/tires/utils.py:read_tir_file", "lumos/models/tires/utils.py:create_params_from_tir_file"]}
{"id": "C87", "title": "The data-driven aerodynamic models", "statement": "The Gaussian process model returns, for all inputs and parameters of fitting sizes, the sums over its points of weight times exp(-squared distance): infinitely differentiable, independent of the order of the points, at most the sum of the weights, and at most exp(-R²) times that where every point is at least R away. The network returns for all inputs or for none (for all with the default sizes, for every number of hidden layers from one and every width), is infinitely differentiable, and its layers are those of the list its parameters were made from, in order, whatever the air density. (Findings: every coefficient of the network is strictly between -1 and 1, so that the lift coefficient 1.9 of the constant model is out of reach of any weights; it vanishes at zero inputs and is odd; the layers follow the order of the dictionary, not their numbers; since the vehicle passes its speed as a ride height, a car with a Gaussian process loses its downforce at speed.)", "quantifier": "all points, weights, numbers and widths of layers, inputs, and states of the car", "why_tests_cant": "Bounds and smoothness hold for all real inputs and weights; tests use random parameters and compare backends.", "anchors": ["lumos/models/aero/aero.py:GPAero.forward", "lumos/models/aero/aero.py:MLPAero.forward", "lumos/models/aero/aero.py:MLPAero._dict_to_list", "lumos/models/ml.py:gp", "lumos/models/ml.py:mlp"]}
{"id": "C88", "title": "Finite difference weights", "statement": "For every list of different points, every reference point and every order from 1 up to one less than the number of points, finite_difference_coefficients returns one weight per point such that the weighted sum of the values of a polynomial of degree less than the number of points is exactly its derivative of that order at the reference point; no other weights do that. For a smooth function and points shrinking towards the reference point the error is of the order number of points minus derivative order. (Finding: for an order outside that range it returns a ValueError object instead of raising it.)", "quantifier": "all lists of different points in any order and number, all reference points, all orders, all polynomials of the degree and all sufficiently smooth functions", "why_tests_cant": "A test compares a few stencils; exactness for every grid is a statement about the recursion of the algorithm.", "anchors": ["lumos/numpy/casadi_numpy/finite_difference_operators.py:finite_difference_coefficients"]}
{"id": "C89", "title": "Rotation matrices", "statement": "rotation_matrix_2D(angle) turns every vector of the plane by the angle (multiplication by exp(i angle)); it is orthogonal with determinant 1, and the matrices compose as angles add. rotation_matrix_3D(angle, axis) for every axis other than zero is orthogonal with determinant 1, keeps the axis and turns every vector at right angles to it by the angle in the positive sense about the axis, whatever the length of the axis; it is the only such matrix; angles about one axis add, the opposite angle or axis gives the transpose and inverse. A zero axis raises. (Finding: with the axis declared normalised, an axis of another length gives a matrix that does not keep it.)", "quantifier": "all angles, all axes, all vectors", "why_tests_cant": "The statements are identities over all real angles and axes.", "anchors": ["lumos/numpy/casadi_numpy/rotations.py:rotation_matrix_2D", "lumos/numpy/casadi_numpy/rotations.py:rotation_matrix_3D"]}
{"id": "C90", "title": "The casadi backend's array functions do what numpy's do", "statement": "Code written against lumos.numpy means the same under both backends: where numpy's concatenate, stack, column_stack, row_stack, hstack and vstack of matrices, array of numbers or rows, split (at places or into parts, both axes), sum, mean along an axis, abs, minimum, maximum, clip, where, elementwise arithmetic, dot, inner and outer of vectors, cross, norm, first differences, diag, roll of a vector by one, linspace, logspace, interp, vector_concat, vector_split and vector_tile return an array, the casadi function returns a matrix with the same entries at the same places; splitting and concatenating gives the original back. (Findings: where they do not. hstack, vstack and array of vectors; mean of a matrix without axis; dot and inner of matrices; the 1-norm of a matrix; reshape, which goes column by column; roll by any other number or along rows; second differences; geomspace, which is linspace; and arguments that numpy takes and that raise.)", "quantifier": "all arrays with at most two dimensions, all sizes, all entries, all places to split, all grids", "why_tests_cant": "Agreement must hold for every shape and every entry; the tests compare a few random arrays.", "anchors": ["lumos/numpy/casadi_numpy/array.py:concatenate", "lumos/numpy/casadi_numpy/array.py:stack", "lumos/numpy/casadi_numpy/array.py:split", "lumos/numpy/casadi_numpy/array.py:roll", "lumos/numpy/casadi_numpy/array.py:reshape", "lumos/numpy/casadi_numpy/arithmetic.py:sum", "lumos/numpy/casadi_numpy/arithmetic.py:mean", "lumos/numpy/casadi_numpy/linalg.py:norm", "lumos/numpy/casadi_numpy/linalg_top_level.py:cross", "lumos/numpy/casadi_numpy/calculus.py:diff", "lumos/numpy/casadi_numpy/spacing.py:geomspace", "lumos/numpy/casadi_numpy/interpolate.py:interp", "lumos/numpy/utils.py:vector_concat"]}
{"id": "C91", "title": "Refining the mesh converges to the continuous dynamics", "statement": "For every transcription that can be chosen, the continuity constraints together with the model constraints are a convergent discretisation of the differential equation x' = f(x, u(t)): every transcription is a Runge-Kutta method; along a trajectory with p+1 continuous derivatives, p at most the order of the method (1 for ForwardEuler, 2 for Trapezoidal, m-1 for LGR with m stages, m for LGRIntegral), the states of every point that satisfies the constraints are within C h^p of it at all stages, with a constant C that does not depend on the mesh; points that start close stay close; from every start there is exactly one point that satisfies the constraints, if the steps are small against the Lipschitz constant of the dynamics (everywhere, or near the trajectory). This holds for the constraints of the built problems, in particular for the drone example under any thrust and rate signals. The orders of ForwardEuler and Trapezoidal are attained, and without the step limit there may be no point at all.", "quantifier": "all transcriptions and numbers of stages, all dimensions, all meshes (not only equal intervals) and numbers of intervals, all dynamics that are Lipschitz near the trajectory, all smooth trajectories, all input signals, all starts", "why_tests_cant": "A test refines a few meshes of one problem; the order, and that there is a solution at all, are limits over all meshes and all dynamics.", "anchors": ["lumos/optimal_control/transcription.py:Transcription", "lumos/optimal_control/transcription.py:LGR", "lumos/optimal_control/scaled_mesh_ocp.py:ScaledMeshOCP._continuity_constraints", "lumos/optimal_control/fixed_mesh_ocp.py:FixedMeshOCP", "examples/drone_example.py:main"]}
{"id": "C92", "title": "LGR is stable on meshes of any coarseness", "statement": "For dynamics that never drive two states apart, the LGR constraints do not either, with any number of stages and on every mesh however coarse: the distance of two points that satisfy the constraints does not grow from interval to interval; where the dynamics contract it shrinks by a factor that depends on the step and the number of stages only, and there is at most one point from a given start; for linear dynamics there is exactly one. Trapezoidal has the property for linear dynamics with constant coefficients but not for all dynamics, ForwardEuler for neither.", "quantifier": "all numbers of stages, dimensions, meshes and steps, all dissipative dynamics, all pairs of points that satisfy the constraints", "why_tests_cant": "The statement is about all dynamics and all step lengths, and about steps far larger than any test uses.", "anchors": ["lumos/optimal_control/transcription.py:LGR", "lumos/optimal_control/transcription.py:Trapezoidal", "lumos/optimal_control/collocation.py"]}
{"id": "C93", "title": "The brachistochrone example answers with the time of the cycloid", "statement": "For a target ahead of and below the start the equation that cycloid solves has exactly one solution below a full turn; with it, the points that cycloid returns are those of a motion of TimeModel from rest to the target in the time that it returns, and no motion of the model, whatever its slope, takes less. The time-domain problem on n equal intervals answers with that time: no feasible point undercuts it by more than an explicit error that vanishes as n grows, and for n large enough some feasible point comes within any tolerance of it. A solution above a full turn gives a longer time, and nothing in cycloid rules it out.", "quantifier": "all targets, all motions of the model, all numbers of intervals, all feasible points, all tolerances", "why_tests_cant": "The example compares one solved problem with one number; that the number is the least over all curves, and that the discretised least converges to it, quantify over functions and meshes.", "anchors": ["examples/brachistochrone.py:cycloid", "examples/brachistochrone.py:TimeModel", "examples/brachistochrone.py:solve_brachistochrone"]}
{"id": "C94", "title": "What the solver certifies holds for the user's problem", "statement": "Scaling of variables and constraints changes neither optimality nor what the multipliers mean: a point and multipliers satisfy the first- (and second-) order optimality conditions for the values, gradients, Jacobians, Hessians and scaled bounds handed to the solver if and only if the unscaled point and rescaled multipliers satisfy them for the user's own objective, constraints and bounds (tolerances rescaled accordingly), and a point is a global or local minimiser of the one iff it is of the other. Starting again from a returned solution hands the solver its own last point and multipliers. For a problem built from a configuration, the minimisers are the best solutions of the discretised equations within the configured bounds, and the condensed form has the same minimisers and the same best cost as the full form.", "quantifier": "all problems that can be built by adding and removing components and setting scales, all points, multipliers and tolerances, all solvers, all model classes (differentiable everywhere or around the point)", "why_tests_cant": "A test sees one converged solve; that optimality is preserved both ways, and that two formulations share every optimum, ranges over all points and all problems.", "anchors": ["lumos/optimal_control/nlp.py:NLPFunction.solve", "lumos/optimal_control/nlp.py:CompositeProblem", "lumos/optimal_control/scaled_mesh_ocp.py:ScaledMeshOCP.__init__"]}
{"id": "C95", "title": "A lap time simulation solves the vehicle's equations along the road", "statement": "For every vehicle model, transcription, accepted mesh, table of a road and configuration, LaptimeSimulation can be constructed, and a point satisfies its constraints if and only if at every stage the vehicle model returns with these states and inputs, its residuals vanish, the stage's derivatives per distance are the vehicle's derivatives over the speed along the centre line (and time, lateral position and heading error move by the track kinematics), the extra outputs are the model's, the states of every interval satisfy the transcription's step equations with the interval's length in metres and, for a closed lap, the first and last stage agree in everything but time, heading and the excluded variables. The bounds say, stage by stage, what the configuration and the track say. The reported lap time is a positive-weight quadrature of one over the speed along the centre line, lies between distance over the highest and over the lowest speed, and what is minimised is it plus the mean square steering, so that an optimum loses at most that. On a straight road a car without drag has a feasible lap at 50 m/s with lap time distance over 50.", "quantifier": "all vehicle models that keep to their declarations, all transcriptions, numbers of intervals and interval points, all track tables, all configurations of bounds, boundary conditions, scales, extra outputs and cyclic variables, all points", "why_tests_cant": "A test solves one lap on one track and looks at the plot; that no other point is feasible and none is missing, for every vehicle, track and mesh, ranges over all of them.", "anchors": ["lumos/simulations/laptime_simulation.py:LaptimeSimulation", "lumos/simulations/laptime_simulation.py:LTCConfig", "lumos/models/simple_vehicle_on_track.py:SimpleVehicleOnTrack", "lumos/models/kinematics.py:TrackPosition2D", "lumos/optimal_control/fixed_mesh_ocp.py:FixedMeshOCP"]}
{"id": "C96", "title": "The parameters in generated code", "statement": "Exporting a model to C code (and likewise building a problem with the casadi backend) leaves its parameters as they were, and the generated function, given the raveled parameters of any tree with the same names and shapes, computes what the model computes with that tree, for every tree of submodels whose parameters are numbers, vectors and matrices with one row or column. For other matrices it computes with the matrix whose entries, taken row by row, are filled in column by column; the same matrix arrives only if these agree; and there always is a vector for which the generated function computes the model. A parameter casadi cannot hold (empty, or more than two dimensions) makes the export raise before anything is changed. (Findings: with GPAero and MLPAero the generated code computes other coefficients than the model, with the model's own parameters; parameters in another order are exchanged; if anything raises during the export, the model is left with symbols and cannot be evaluated any more.)", "quantifier": "all trees of submodels and parameters, all shapes and values, all parameter trees alike to the exported ones, all states, inputs and mesh points, all exceptions", "why_tests_cant": "The repository's test checks that generating code for an array-valued parameter does not raise; that the value computed is right ranges over all shapes, values and trees, and it is wrong exactly for matrices with at least two rows and columns.", "anchors": ["lumos/models/base.py:StateSpaceModel.export_c_code", "lumos/models/base.py:StateSpaceModel._make_casadi_model_algebra_cons", "lumos/models/base.py:StateSpaceModel.make_model_algebra_cons", "lumos/models/tree_utils.py:_ravel_flat_dict", "lumos/models/tree_utils.py:ParameterTree.tree_ravel", "lumos/models/ml.py:gp", "lumos/models/ml.py:mlp"]}
{"id": "C97", "title": "A problem in use means what its calls ask for", "statement": "After the constructor and any sequence of public calls - bounds and boundary conditions, set_scales, set_mesh_scale, changes of model parameters, adding and deleting objectives and constraints, set_cons, structure queries, Hessian evaluations and earlier solves, with exceptions in between caught - the problem handed to the solver is the one now asked for: a point satisfies its constraints if and only if it is a solution of the discretised problem with the mesh scale, parameters and cyclic constraints in force and the user's own constraints vanish there (condensed: up to the state derivatives); its objective is the sum of the objectives in force; its derivatives are right; its scales and bounds are those last set; solve returns such a point, within the bounds, in the user's units. A problem without additions of the user's own is indistinguishable from one newly constructed with the settings in force. Which calls raise, and with what, is determined by the names, sizes and settings in force.", "quantifier": "all kinds of problem (fixed or scaled mesh, lifted or condensed, cyclic or not, laptime or not, jax or not, exact Hessians or not), all models and parameters, all histories of public calls of any length, all points, all solvers", "why_tests_cant": "Tests run one or two orders of calls; the claim is about every order, and stale state left behind by an earlier call (limits, scales of components, masks) only shows in some of them.", "anchors": ["lumos/optimal_control/scaled_mesh_ocp.py:ScaledMeshOCP", "lumos/optimal_control/scaled_mesh_ocp.py:ScaledMeshOCP.solve", "lumos/optimal_control/scaled_mesh_ocp.py:ScaledMeshOCP.set_cons", "lumos/optimal_control/scaled_mesh_ocp.py:ScaledMeshOCP.set_scales", "lumos/optimal_control/scaled_mesh_ocp.py:ScaledMeshOCP.modify_model_param", "lumos/optimal_control/fixed_mesh_ocp.py:FixedMeshOCP.set_mesh_scale", "lumos/optimal_control/nlp.py:CompositeProblem", "lumos/optimal_control/nlp.py:CompositeProblem.profile", "lumos/optimal_control/nlp.py:NLPFunction.solve"]}
{"id": "C98", "title": "A lap time simulation in use", "statement": "A LaptimeSimulation constructed with the vehicle on the track and LTCConfig's settings, and then used by any sequence of set_track, solve, modify_model_param, bounds and boundary conditions, set_scales, set_mesh_scale, added or deleted objectives and constraints and set_cons, with exceptions in between caught, stands for the lap now asked for: a point is feasible exactly when at every stage the equations of motion with the parameters in force hold, every interval is integrated by the transcription over its share of the length of the road last set, the lap closes when cyclic constraints are in force, and the user's own constraints vanish; the objective is the lap time plus the steer penalty plus the user's own; the initial guess follows the road last set; solve starts from it (or the guess given), respects the bounds and returns such a lap. After an accepted set_track the bounds on curvature, heading and lateral position are the new road's, boundary conditions still hold, every other bound is as before. A sweep over tracks, parameters and scales, with solves and unreadable files in between, ends on a road in an object indistinguishable (bounds, scales, guess, feasible set, objective) from one newly constructed with the last parameters, scales and road.", "quantifier": "all vehicles with the required interface, all parameters, all configurations of LTCConfig that the constructor accepts, all road files, all histories of public calls of any length, all points, all solvers", "why_tests_cant": "Tests set one track and solve once; the regression sweep reuses the object over many tracks and parameters, and whether anything of the earlier ones is left behind cannot be seen from the numbers of one order of calls.", "anchors": ["lumos/simulations/laptime_simulation.py:LaptimeSimulation", "lumos/simulations/laptime_simulation.py:LaptimeSimulation.set_track", "lumos/simulations/laptime_simulation.py:LaptimeSimulation.get_init_guess", "lumos/optimal_control/fixed_mesh_ocp.py:FixedMeshOCP.set_mesh_scale", "lumos/optimal_control/scaled_mesh_ocp.py:ScaledMeshOCP.solve", "lumos/models/simple_vehicle_on_track.py:SimpleVehicleOnTrack", "lumos/models/tracks.py:RaceTrack.from_tum_csv"]}
{"id": "C99", "title": "The lap does not depend on where the road lies or where north is", "statement": "If the points of a track file are turned by an angle and shifted in the plane, the lap time simulation with the same vehicle and configuration accepts it as well, and its laps (points that satisfy all constraints and bounds) are exactly those of the original road with the track heading (and the yaw angle, if it is an output) changed by one constant; corresponding laps have the same objective, so the sets of attainable objectives are equal and a lap that no other beats stays one, with the same states and driver inputs at every stage.", "quantifier": "all vehicles with the required interface, all usable configurations that do not bound the heading itself, all transcriptions and meshes, all road files, all angles and shifts, all points", "why_tests_cant": "Tests run one file in one coordinate system; a dependence on the frame (an arctan2 branch, a heading that enters the dynamics, an interpolation over a jump of 2 pi) shows only for particular angles.", "anchors": ["lumos/simulations/laptime_simulation.py:LaptimeSimulation", "lumos/models/tracks.py:RaceTrack.from_tum_csv", "lumos/models/simple_vehicle_on_track.py:SimpleVehicleOnTrack", "lumos/models/kinematics.py:TrackPosition2D"]}
{"id": "C100", "title": "The lap in a mirror", "statement": "Mirror the road (y becomes -y, left and right widths exchanged) and exchange the left and right tyres of the car: with the default bounds and boundary conditions the laps of the new problem are exactly the mirror images of the laps of the old (lateral position, heading error, lateral velocity, yaw rate, steering, lateral acceleration, slip angles and curvature negated, the wheels of the two sides exchanged), with the same objective. In particular a car that is the same on both sides attains the same objectives on a road and on its mirror image.", "quantifier": "all parameters, tyres of any kind, symmetric aero models, all transcriptions, meshes, cyclic or open laps with the same exceptions on both sides, all road files, all points", "why_tests_cant": "A sign error in one of the many terms with a left and a right is small for the one track and the nearly straight laps of the tests; symmetry of every lap cannot be sampled.", "anchors": ["lumos/simulations/laptime_simulation.py:LaptimeSimulation", "lumos/models/tracks.py:RaceTrack.from_tum_csv", "lumos/models/simple_vehicle_on_track.py:SimpleVehicleOnTrack", "lumos/models/kinematics.py:TrackPosition2D", "lumos/models/vehicles/simple_vehicle.py:SimpleVehicle"]}
{"id": "C101", "title": "More room never costs time; scales and backend do not matter", "statement": "If the road is nowhere narrower (same centre line), the bounds are not tighter, the lap need not close when it need not before and more variables are exempt from closing, every lap of the old problem is a lap of the new one with the same objective; a best lap of the new problem is therefore never slower. Changing only the scales of the variables or the backend that evaluates the model changes neither the laps nor their objectives.", "quantifier": "all vehicles with the required interface, all pairs of usable configurations and road files so related, all scales that are not zero, all backends that evaluate the model, all points", "why_tests_cant": "Solvers stop at local solutions, so a test that compares two lap times neither confirms nor refutes that the problem handed to the solver has grown.", "anchors": ["lumos/simulations/laptime_simulation.py:LaptimeSimulation", "lumos/models/tracks.py:RaceTrack.from_tum_csv", "lumos/models/simple_vehicle_on_track.py:SimpleVehicleOnTrack", "lumos/models/kinematics.py:TrackPosition2D", "lumos/optimal_control/scaled_mesh_ocp.py:ScaledMeshOCP.set_scales"]}
{"id": "C102", "title": "Numpy arrays and casadi matrices together", "statement": "Under the casadi backend a function given numpy arrays only returns numpy's result as a numpy array; given casadi matrices, or numpy arrays and casadi matrices mixed, it returns a casadi matrix that shows numpy's result: logical_and, logical_or, logical_not, all and any of truth values, where, dot and inner of vectors, cross, concatenate, stack, length. is_casadi_type is true exactly if there is a casadi matrix in the value, at any depth of lists and tuples. Beside casadi matrices, stack refuses everything but vectors and columns and dstack everything. (Findings: length of a matrix with one row differs from numpy; length of a list in which a casadi matrix occurs raises AttributeError; zeros, ones, eye and zeros_like are casadi matrices always, so that code which uses them never computes with numpy.)", "quantifier": "all values nested to any depth, all arrays with at most two dimensions, all mixtures, all entries", "why_tests_cant": "Which branch runs depends on where in the arguments a casadi matrix is; tests try a few mixtures with a few entries.", "anchors": ["lumos/numpy/casadi_numpy/determine_type.py:is_casadi_type", "lumos/numpy/casadi_numpy/logicals.py:logical_and", "lumos/numpy/casadi_numpy/logicals.py:all", "lumos/numpy/casadi_numpy/conditionals.py:where", "lumos/numpy/casadi_numpy/linalg_top_level.py:cross", "lumos/numpy/casadi_numpy/array.py:concatenate", "lumos/numpy/casadi_numpy/array.py:stack", "lumos/numpy/casadi_numpy/array.py:length", "lumos/numpy/casadi_numpy/array.py:zeros"]}
{"id": "C103", "title": "Angles in degrees, cosine spacing and trapezoids", "statement": "degrees and radians are inverse to each other; sind, cosd and tand repeat after 360, 360 and 180 degrees, satisfy Pythagoras' law and take the right values at 0, 30, 45, 90 and 180; arcsind and arccosd return the one angle in [-90, 90] and [0, 180] with that sine and cosine; arctan2d(y, x) is the one angle in (-180, 180] in whose direction the point lies. cosspace increases from start to stop, and its points are the Chebyshev points: T of degree n-1 is 1 or -1 there in turn, the inner ones are the roots of U of degree n-2. trapz returns the integral over each interval of the function that joins the values by lines; it is the opposite of diff for parabolas, within a twelfth of the largest second derivative of the integral in general; with modify_endpoints the pieces add up to the sum of the values. (Findings: numpy's trapz returns one number, this one the pieces; with fewer than two values modify_endpoints raises IndexError.)", "quantifier": "all numbers, all numbers of points, all vectors, all twice continuously differentiable functions", "why_tests_cant": "Identities over all real numbers; tests evaluate them at a few.", "anchors": ["lumos/numpy/casadi_numpy/trig.py:degrees", "lumos/numpy/casadi_numpy/trig.py:arctan2d", "lumos/numpy/casadi_numpy/spacing.py:cosspace", "lumos/numpy/casadi_numpy/calculus.py:trapz"]}
{"id": "C104", "title": "A test decorated with use_backends", "statement": "A method decorated with use_backends(list) runs once for each backend of the list, in order, each time starting from that backend whatever the runs before did, and afterwards the backend is the one at the call, whatever the method does and also when it raises. Under a unittest result every backend gets its run and nothing is raised; without one the runs go on to the first failure, which is raised. (Findings: an unknown backend is skipped silently - the test runs again under the backend at the call; the note in the code that the first failure stops the rest does not hold under unittest.)", "quantifier": "all test bodies (programs over the backend), all lists of backends, all states at the call, all executions", "why_tests_cant": "The decorator is what the tests run under; they cannot observe its own leaks and skipped backends.", "anchors": ["lumos/models/test_utils.py:use_backends"]}
{"id": "C105", "title": "A condensed lap time simulation", "statement": "A LaptimeSimulation with is_condensed=True accepts the same track files as one without. If no boundary condition is on a derivative of a state, its laps (points that satisfy the constraints and the bounds) are exactly the laps of the simulation without is_condensed and without bounds on derivatives of states, with these derivatives set to zero; the cost of a lap is the same, so the same costs can be reached and the best laps are the same. The default configuration has no such bounds or conditions. This holds whatever random sample the pattern of the Jacobian was taken from. (Finding: bounds that the user sets on derivatives of states are silently replaced by zeros, so a limit on an acceleration has no effect in a condensed simulation.)", "quantifier": "all vehicles, usable configurations, transcriptions, meshes, track files, samples and points", "why_tests_cant": "The two forms are different problems with different constraints; tests solve both on one track and compare the lap time.", "anchors": ["lumos/optimal_control/scaled_mesh_ocp.py:ScaledMeshOCP.__init__", "lumos/optimal_control/scaled_mesh_ocp.py:ScaledMeshOCP._build_condensed_model_algebra", "lumos/simulations/laptime_simulation.py:LaptimeSimulation"]}
{"id": "C106", "title": "The brachistochrone example over the distance", "statement": "solve_brachistochrone(dx, dy, time_domain=False) refuses dx <= 0. Otherwise the points that satisfy constraints and bounds are exactly the discretised slides of a bead from the origin to height dy at distance dx, and the objective is the time of arrival. For every transcription and mesh the time is at least dx / (100 + 1e-9), at most dx over the least forward speed the bounds allow, the speed changes by at most g times the time, and the slide is nowhere (from its start) steeper than pi/2.01, so steeper targets have no slide. With LGR the energy at the ends of intervals grows by at most g 1e-9 tan(pi/2.01) per unit of time, and never on a slide that does not rise, so the bead cannot climb. With the default LGR method every target less than 5 below the start, not too steep and not reached above 100 m/s has a slide on every mesh: the straight line, in a time no longer than the exact one, so the optimum is at most that. (Finding: the condition on the last height replaces its bounds, so a target below -5 is not refused; and the 1e-9 in the model breaks conservation of energy.)", "quantifier": "all dx, dy, gravities, transcriptions, meshes, backends and points", "why_tests_cant": "The claims are about all feasible points of a nonlinear programme on all meshes; the example's test solves one problem and compares it with the cycloid.", "anchors": ["examples/brachistochrone.py:DistanceModel", "examples/brachistochrone.py:solve_brachistochrone", "lumos/optimal_control/fixed_mesh_ocp.py:FixedMeshOCP.__init__", "lumos/optimal_control/fixed_mesh_ocp.py:FixedMeshOCP._time_objective"]}
{"id": "C107", "title": "Reading a track file", "statement": "RaceTrack.from_tum_csv finds the columns \"# x_m\", \"y_m\", \"w_tr_left_m\" and \"w_tr_right_m\" by name: a text file with these names in any order, among any others, with any of the three line ends, blank lines, blanks around numbers and any spelling of the decimals, and with a number under each name in every row, gives exactly the track through these points with these widths; two files with the same numbers under these names give the same track. A file without one of the names is a KeyError, a file with nothing in it or with a row longer than the header and the first row is a ValueError; a missing or empty field is read as NaN without an error. (Finding: when every row ends in a comma the columns are silently shifted by one: x is taken from the second column, y from a width.)", "quantifier": "all file texts (lists of characters), tables, orders of columns, line ends and spellings", "why_tests_cant": "A test reads the files that are in the repository; the claim is about every text of a file.", "anchors": ["lumos/models/tracks.py:RaceTrack.from_tum_csv", "lumos/models/tracks.py:RaceTrack.from_cartesian"]}
{"id": "C108", "title": "Which parameters of a tree share storage", "statement": "In every parameter tree that the library makes (get_recursive_params, a copy through to_dict and from_dict) and in every model after set_recursive_params, each node has a dictionary of its own, even if the nodes of the tree it was made from shared theirs; so on such a tree every history of set_param calls, including failing ones, acts parameter by parameter as C40 says. (Finding: a dictionary put into several nodes, as the lap time example does for the four tyres, is shared: set_param on one tyre of that tree then sets the parameter of all four. A model constructed from that tree is not affected by later assignments, and the trees it returns are separate again.)", "quantifier": "all trees, models, heaps, shared or not; all sequences of set_param; all lists of nodes into which a dictionary is put", "why_tests_cant": "Sharing shows only through a later write; a test sees one tree and one write.", "anchors": ["lumos/models/tree_utils.py:ParameterTree.set_param", "lumos/models/tree_utils.py:ParameterTree.get_param", "lumos/models/tree_utils.py:Tree.replace_subtree", "lumos/models/composition.py:CompositeModel.set_recursive_params", "examples/laptime_simulation_example.py:main"]}
{"id": "C109", "title": "Several problems from the same configuration objects", "statement": "A configuration whose bounds are a tuple (the declared type) can be used for any number of problems, in any order and mixed with other configurations: its boundary conditions and its names stay as given; its bounds stay as given but for zero bounds on state derivatives that its own condensed constructions append, none if it is never condensed; a lifted problem constructed after any such history is the problem constructed first, and a condensed problem for models with the same states has the same components and the same bounds of every variable. (Findings: after a condensed construction no problem can be made from the configuration for a model that lacks one of the states; bounds in a list are extended in the user's list, and so in every configuration that shares it; a list of boundary conditions, even empty, is a TypeError; a lap time configuration appends to the user's list of non-cyclic names.)", "quantifier": "all histories of new configurations, switches of is_condensed and constructions, successful or not; all problems, models and configurations", "why_tests_cant": "A test constructs a few problems from fresh configurations; the mutation of a configuration shows only in a later problem, for another model or through a shared list.", "anchors": ["lumos/optimal_control/scaled_mesh_ocp.py:ScaledMeshOCP.__init__", "lumos/optimal_control/scaled_mesh_ocp.py:ScaledMeshOCP.update_boundary_conditions", "lumos/optimal_control/config.py:SimConfig", "lumos/simulations/laptime_simulation.py:LTCConfig"]}
{"id": "C110", "title": "What solve tells IPOPT and what it reports", "statement": "solve runs IPOPT once, with every option the user gave and the documented default for every other (the linear solver ma27 when the HSL library is there), and returns with the solution IPOPT's status, as num_iter the number of the last iteration IPOPT reported, and as nlp_time and ipopt_time the numbers in the last lines of IPOPT's output file that state them; an option that IPOPT refuses is a TypeError and nothing is run; status -13 is a RuntimeError; without statistics, below print level 4 or with an empty output_file no file is read. (Findings: on Windows every solve raises UnboundLocalError, because the system's name is misspelt; a missing output file loses the solution; if IPOPT stops before its first iteration, num_iter is that of an earlier solve.)", "quantifier": "all problems, options, machines, behaviours of IPOPT, contents of the output file and earlier calls", "why_tests_cant": "The platform, the files and IPOPT's behaviour vary; a test runs on one machine with one output.", "anchors": ["lumos/optimal_control/nlp.py:NLPFunction.solve", "lumos/optimal_control/nlp.py:NLPFunction._get_default_ipopt_options", "lumos/optimal_control/nlp.py:NLPFunction._construct_ipopt_problem", "lumos/optimal_control/nlp.py:NLPFunction.intermediate"]}
{"id": "C111", "title": "When there is an optimum to find", "statement": "If the model is continuous wherever the bounds allow it to be, every state, input and global variable has finite bounds, and some solution meets the equations within the bounds, then there is a best one: the minimum that solve asks IPOPT for exists, and scaled back it is a best solution of the problem as the user stated it. State derivatives and constrained outputs need no bounds. The same holds for the condensed form, whose minimum has the same cost. The drone example therefore has a fastest flight for every transcription and mesh for which there is any flight, as there is with 2 to 39 trapezoidal intervals.", "quantifier": "all explicit models, layouts, transcriptions, meshes, bounds, scales, boundary conditions and forms of the problem; for the drone all gravities, transcriptions and meshes", "why_tests_cant": "That a minimum is attained is about all points of the feasible set; a solver run gives one point and no comparison.", "anchors": ["lumos/optimal_control/scaled_mesh_ocp.py:ScaledMeshOCP.__init__", "lumos/optimal_control/scaled_mesh_ocp.py:ScaledMeshOCP._build_objective", "lumos/optimal_control/nlp.py:BaseConstraints", "lumos/models/drone_model.py:DroneModel.forward"]}
{"id": "C112", "title": "The derivatives given to the solver for a lap are right wherever the car runs", "statement": "For every vehicle made of the standard parts (simple vehicle, four Perantoni tyres, constant aerodynamics), every configuration, road and point of the search at which nothing in the car's equations is divided by zero at any stage - the car moves forward or backward, the driven wheels turn, every contact patch moves along its wheel, no tyre carries the load at which its peak slip is zero, the car is not at the road's centre of curvature and it moves along the road - the Jacobian, gradient and Hessian handed to IPOPT are those of the constraints, objective and Lagrangian handed to it, provided the backend differentiates correctly where there are derivatives. The default bounds keep three of these divisions from being by zero for a car with the default rear track; they do not keep the speed along the road, nor that of a front contact patch of the default car, from being zero. If finite bounds keep the car running, and there is a lap within them, there is a best lap. So it is for the default car without drag on every straight road, with every scheme and mesh, when a time limit, a least speed of 20 m/s and limits on sideways speed, yaw rate and accelerations are added to the default bounds: there is a best lap, and it is no slower than 50 m/s.", "quantifier": "all parameters of vehicle, tyres and aerodynamics, all configurations, transcriptions, meshes, roads, decision vectors and multipliers", "why_tests_cant": "Derivative checks compare difference quotients at a few points; whether there is a derivative at every point the solver may visit is about all of them.", "anchors": ["lumos/models/vehicles/simple_vehicle.py:SimpleVehicle.forward", "lumos/models/tires/perantoni.py:PerantoniTire.forward", "lumos/models/kinematics.py:TrackPosition2D.forward", "lumos/models/simple_vehicle_on_track.py:SimpleVehicleOnTrack.forward", "lumos/simulations/laptime_simulation.py:get_default_bounds", "lumos/optimal_control/nlp.py:CompositeProblem"]}
{"id": "C113", "title": "Laps of the default car, with MF5.2 tyres", "statement": "The default car (MF5.2 tyres, constant aerodynamics) returns everywhere, so a lap simulation can be made with it, and everything shown of laps of cars in general holds for it. For any parameters of the four tyres, whatever the tyres return where their formulas are not finite: at every point of the search at which, at every stage, nothing in the equations of car and road is divided by zero and no tyre is at a corner of its formulas (one of the curvature factors that are cut off at one is exactly one), the Jacobian, gradient and Hessian handed to IPOPT are those of the constraints, objective and Lagrangian handed to it, provided the backend differentiates correctly where there are derivatives and the constrained outputs are the car's own. The forces of an upright MF5.2 tyre are twice continuously differentiable in load and slips together away from those corners; for the default tyre that is at all slips and all loads up to 40 kN but one, about 3249 N, and some between 17.3 and 17.4 kN - and at the former the longitudinal force has no derivative with respect to the load. If finite bounds on the variables keep nothing in the car divided by zero, the tyres included (for the default tyres: loads between zero, excluded, and 40 kN), and some lap satisfies all constraints within them, then one of those laps is best: no other is faster.", "quantifier": "all parameters of vehicle, tyres and aerodynamics, all values returned where formulas are not finite, all configurations, transcriptions, meshes, roads, decision vectors and multipliers", "why_tests_cant": "Tests evaluate the tyre and its derivatives at some loads and slips; corners sit at single loads that a sample does not meet but an optimisation passes through.", "anchors": ["lumos/models/tires/pacejka.py:MF52.forward", "lumos/models/vehicles/simple_vehicle.py:SimpleVehicle.get_default_submodel_config", "lumos/models/vehicles/simple_vehicle.py:SimpleVehicle.forward", "lumos/models/simple_vehicle_on_track.py:SimpleVehicleOnTrack.forward", "lumos/simulations/laptime_simulation.py:LaptimeSimulation"]}
{"id": "C114", "title": "Evaluating a model with given parameters", "statement": "Whatever was called on a model before, and whatever of it raised: apply_and_forward with a parameter tree of the model's structure answers what the model's equations give with exactly these parameters, and so does apply_and_forward_with_arrays of a state-space model; a tree that lacks a child raises KeyError. The parameters stay in the model: forward and forward_with_arrays compute with the parameters handed over last, by set_recursive_params or by an apply call, also if that call's evaluation raised. apply_and_forward_with_arrays of a model without states always raises AttributeError, after having replaced the parameters.", "quantifier": "all models, parameter trees, arguments and histories of calls", "why_tests_cant": "Tests call apply_and_forward once per model, with the parameters the model already holds; what a later call computes with depends on the whole history.", "anchors": ["lumos/models/base.py:Model.apply_and_forward", "lumos/models/base.py:Model.apply_and_forward_with_arrays", "lumos/models/base.py:StateSpaceModel.apply_and_forward", "lumos/models/base.py:StateSpaceModel.apply_and_forward_with_arrays", "lumos/models/composition.py:CompositeModel.set_recursive_params"]}
{"id": "C115", "title": "Profiling a problem", "statement": "profile(x0, repeat, hessian, call_once_before) of a problem with constraints and objectives reports, for every clock, exactly one time per key name.method: for each objective its objective, gradient and hessian, for each constraint its constraints and jacobian (and hessian if asked), and for the whole problem under the name nlp the same. Each function is called repeat times between two readings of the clock, once more before the first reading if asked, in that order and no other function is called; the time is the difference of the two readings divided by repeat, so that it is not negative for a clock that does not run backwards. The problem is left as it was, but for the positions of the Hessian's entries that evaluating the Hessian remembers. A problem without constraints or without objectives raises ValueError, repeat = 0 raises ZeroDivisionError.", "quantifier": "all problems, points, numbers of repetitions, flags and clocks", "why_tests_cant": "The project has no test of profile; the times depend on the clock, and a swapped reading or a wrong repetition count still gives plausible numbers.", "anchors": ["lumos/optimal_control/nlp.py:CompositeProblem.profile"]}
{"id": "C116", "title": "The directories that problems log to", "statement": "A problem with a logging configuration logs into results_dir/<YYYYmmdd-HHMMSS>_<sim_name>, with the moment of its construction in fields of fixed width: sorting the directories by name sorts them by time, and two problems with the same results_dir share a directory if and only if they are constructed in the same second and have the same sim_name. Construction creates the directory if it is missing and changes no file. Of two problems that share a directory and are solved one after the other only the second's results remain; if the second is solved while the first runs, the first's logged iterations are gone, and if it has just logged its last iteration its solve raises FileNotFoundError.", "quantifier": "all moments of the years 1000 to 9999, names, disks, and runs of the solver", "why_tests_cant": "Tests construct one problem at a time and look for the files of that one; what happens in one second or at the turn of an hour, month or year depends on the clock.", "anchors": ["lumos/optimal_control/scaled_mesh_ocp.py:ScaledMeshOCP._initialize_logging", "lumos/optimal_control/scaled_mesh_ocp.py:ScaledMeshOCP._log_final_iter", "lumos/optimal_control/config.py:LoggingConfig"]}
{"id": "C117", "title": "Dense problems derived from NLPFunction", "statement": "A class derived from NLPFunction that defines only an objective and constraints gets correct dense derivatives: after any calls on the object, as long as no attribute that these functions read is assigned, gradient and jacobian give the rate of change of the objective and of each constraint in every direction, hessianstructure lists every pair of variables of the upper triangle once, and hessian returns one number for each of these pairs such that, with the entries off the diagonal counted for both triangles, they are the Hessian of obj_factor times the objective plus the multipliers times the constraints. The last decision variables kept by the object are those of the last call of objective, unless a Hessian is evaluated for the first time after it. (Findings: once compiled, the derivatives remain those of the attributes at the first call, while objective and constraints follow an assignment; the first Hessian leaves a traced value in place of the last decision variables.)", "quantifier": "all numbers of variables and constraints, all smooth objectives and constraints, points, multipliers and histories of calls and assignments", "why_tests_cant": "Tests compare derivatives at a few points of one problem, and each test makes a new object, so that what a compiled method remembers never shows.", "anchors": ["lumos/optimal_control/nlp.py:NLPFunction.objective", "lumos/optimal_control/nlp.py:NLPFunction.gradient", "lumos/optimal_control/nlp.py:NLPFunction.jacobian", "lumos/optimal_control/nlp.py:NLPFunction.lagrangian", "lumos/optimal_control/nlp.py:NLPFunction.hessian", "lumos/optimal_control/nlp.py:NLPFunction.hessianstructure"]}
{"id": "C118", "title": "Several solvers and problems of one model", "statement": "A ModelSolver is constructed for every list of distinct outputs of the model, whatever was done with the model before. As long as the other solvers constructed for the same model object have the same constraint outputs, it keeps its constraints (x_dot = f, constraint outputs, residuals) and its Jacobian, with the parameters that the model had at its construction, whatever parameters and names are assigned to the model afterwards. An optimal control problem with the backend 'jax' computes its own stage constraints and Jacobian as long as the model is given no other constraint outputs, and a problem whose constraints were evaluated before another is constructed keeps them in any case. (Findings: constructing a solver with other constraint outputs replaces the constraints, but not the Jacobian, of every earlier solver of this model, silently if there are as many of them and with a RuntimeError if not; a construction refused because of an unknown output leaves symbols in place of the model's parameters and the refused names, so that setting a scale on an earlier solver raises KeyError; with jax, a problem that is evaluated for the first time after another problem with other constraint outputs was constructed for the same model computes, silently, with the other's constraint outputs, and its constraints and Jacobian can belong to different outputs.)", "quantifier": "all models, parameters, lists of outputs, points, and histories of constructions and assignments on one model object", "why_tests_cant": "Tests make one solver from a model of its own; the effect of a second solver or of a later assignment on the first depends on the history of the shared object.", "anchors": ["lumos/optimal_control/model_solver.py:ModelSolver.__init__", "lumos/optimal_control/model_solver.py:ModelSolver._update_problem_scales", "lumos/models/base.py:StateSpaceModel.set_con_outputs", "lumos/models/base.py:StateSpaceModel.make_model_algebra_cons", "lumos/optimal_control/scaled_mesh_ocp.py:ScaledMeshOCP.__init__", "lumos/models/base.py:StateSpaceModel._make_jax_model_algebra_cons", "lumos/optimal_control/nlp.py:JaxMappedConstraints.__init__"]}
{"id": "C119", "title": "The benchmark's metrics", "statement": "Whenever the regression benchmark writes its summary, it consists of 36 metrics of distinct names. The sweep's metrics are the number of the directory's csv files, the percentage of them whose solve did not end with status zero (between 0 and 100; 0 exactly if all ended with zero), and the mean number of iterations of the others, NaN if there are none; they do not depend on the order in which the directory is listed if a solve depends on the track only. The times are those that profile measured: for the first call, one unprepared call each of the functions of model_algebra; for the problem, ten calls after one that is not measured. (Findings: one track whose solve raises leaves no metrics at all, not even those measured before; a directory without csv files raises IndexError.)", "quantifier": "all directories, solvers (with any state carried from track to track), problems, guesses and clocks", "why_tests_cant": "The benchmark runs for a fixed set of tracks and is not itself tested; which metrics it writes for other outcomes of the solves was never observed.", "anchors": ["regression_tests/run_benchmark.py:MetricGenerator.create_metrics", "regression_tests/run_benchmark.py:sweep_tracks", "regression_tests/run_benchmark.py:profile_jax_jit", "regression_tests/run_benchmark.py:profile_nlp"]}

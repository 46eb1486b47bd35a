{
 "claims": [
  {
   "property": "C01",
   "status": "proved",
   "theorems": [
    "Lumos.DecVar.C01_index_in_range",
    "Lumos.DecVar.C01_index_injective",
    "Lumos.DecVar.C01_index_surjective",
    "Lumos.DecVar.C01_index_bijective"
   ],
   "note": ""
  },
  {
   "property": "C02",
   "status": "proved",
   "theorems": [
    "Lumos.DecVar.C02_negative_stage",
    "Lumos.DecVar.C02_stage_range",
    "Lumos.DecVar.C02_all_stages",
    "Lumos.DecVar.C02_global_ignores_stage",
    "Lumos.DecVar.C02_unknown_name"
   ],
   "note": ""
  },
  {
   "property": "C03",
   "status": "proved",
   "theorems": [
    "Lumos.DecVar.C03_too_long",
    "Lumos.DecVar.C03_too_short",
    "Lumos.DecVar.C03_fewer_stages",
    "Lumos.DecVar.C03_unflatten_flatten",
    "Lumos.DecVar.C03_flatten_unflatten",
    "Lumos.DecVar.C03_no_stage_variables"
   ],
   "note": ""
  },
  {
   "property": "C04",
   "status": "proved",
   "theorems": [
    "Lumos.DecVar.C04_titles",
    "Lumos.DecVar.C04_get_var_flatten",
    "Lumos.DecVar.C04_get_var_global",
    "Lumos.DecVar.C04_write_is_local",
    "Lumos.DecVar.C04_stage_table"
   ],
   "note": ""
  },
  {
   "property": "C05",
   "status": "proved",
   "theorems": [
    "Lumos.DecVar.C05_group_at_stage",
    "Lumos.DecVar.C05_group_in_dec",
    "Lumos.DecVar.C05_partition",
    "Lumos.DecVar.C05_index_in_group"
   ],
   "note": ""
  },
  {
   "property": "C06",
   "status": "proved",
   "theorems": [
    "Lumos.Conv.C06_interval_tensor",
    "Lumos.Conv.C06_interval_entry",
    "Lumos.Conv.C06_shared_and_covered"
   ],
   "note": ""
  },
  {
   "property": "C07",
   "status": "proved",
   "theorems": [
    "Lumos.Conv.C07_windows",
    "Lumos.Conv.C07_errors"
   ],
   "note": ""
  },
  {
   "property": "C08",
   "status": "proved",
   "theorems": [
    "Lumos.Conv.C08_offset_structure",
    "Lumos.Conv.C08_blocks_disjoint",
    "Lumos.Conv.C08_no_blocks",
    "Lumos.Conv.C08_stack_and_increment",
    "Lumos.Conv.C08_stack_bad_axis"
   ],
   "note": ""
  },
  {
   "property": "C09",
   "status": "proved",
   "theorems": [
    "Lumos.NLP.C09_constraints_value",
    "Lumos.NLP.C09_jacobian_is_derivative",
    "Lumos.NLP.C09_no_error"
   ],
   "note": ""
  },
  {
   "property": "C10",
   "status": "proved",
   "theorems": [
    "Lumos.NLP.C10_hessian_is_second_derivative"
   ],
   "note": ""
  },
  {
   "property": "C11",
   "status": "proved",
   "theorems": [
    "Lumos.NLP.C11_objective_derivatives"
   ],
   "note": ""
  },
  {
   "property": "C12",
   "status": "proved",
   "theorems": [
    "Lumos.NLP.C12_order",
    "Lumos.NLP.C12_constraints_and_split",
    "Lumos.NLP.C12_split_any",
    "Lumos.NLP.C12_no_constraints"
   ],
   "note": ""
  },
  {
   "property": "C13",
   "status": "proved",
   "theorems": [
    "Lumos.NLP.C13_jacobian"
   ],
   "note": ""
  },
  {
   "property": "C14",
   "status": "proved",
   "theorems": [
    "Lumos.NLP.C14_hessian",
    "Lumos.NLP.C14_stale_mask_is_silent",
    "Lumos.NLP.C14_stale_mask_raises",
    "Lumos.NLP.C14_lower_lost"
   ],
   "note": ""
  },
  {
   "property": "C15",
   "status": "proved",
   "theorems": [
    "Lumos.NLP.C15_objective_and_gradient",
    "Lumos.NLP.C15_order_independent",
    "Lumos.NLP.C15_no_objective",
    "Lumos.NLP.C15_feasibility_solve"
   ],
   "note": ""
  },
  {
   "property": "C16",
   "status": "proved",
   "theorems": [
    "Lumos.NLP.C16_duplicate_constraint",
    "Lumos.NLP.C16_wrong_num_in",
    "Lumos.NLP.C16_duplicate_objective",
    "Lumos.NLP.C16_delete_unknown",
    "Lumos.NLP.C16_delete_known",
    "Lumos.NLP.C16_failed_add_unchanged",
    "Lumos.NLP.C16_components_use_problem_scales",
    "Lumos.NLP.C16_accepted",
    "Lumos.NLP.C16_objective_size"
   ],
   "note": ""
  },
  {
   "property": "C17",
   "status": "proved",
   "theorems": [
    "Lumos.NLP.C17_bounds",
    "Lumos.NLP.C17_solve",
    "Lumos.NLP.C17_default_guess"
   ],
   "note": ""
  },
  {
   "property": "C18",
   "status": "proved",
   "theorems": [
    "Lumos.NLP.C18_cached_jacobian",
    "Lumos.NLP.C18_cache_transparent",
    "Lumos.NLP.C18_empty_hessian"
   ],
   "note": ""
  },
  {
   "property": "C19",
   "status": "proved",
   "theorems": [
    "Lumos.Bounds.C19_accepts",
    "Lumos.Bounds.C19_lb_le_ub",
    "Lumos.Bounds.C19_no_mismatch",
    "Lumos.Bounds.C19_mismatch_raises",
    "Lumos.Bounds.C19_until_exception",
    "Lumos.Bounds.C19_mismatch_tears",
    "Lumos.Bounds.C19_uniform_fits",
    "Lumos.Bounds.C19_config_result",
    "Lumos.Bounds.C19_size",
    "Lumos.Bounds.C19_uniform",
    "Lumos.Bounds.C19_config",
    "Lumos.Bounds.C19_mixed_pair_breaks"
   ],
   "note": "The claim without the exception is false of the code (C19_mixed_pair_breaks, C19_mismatch_tears); the exception is exact: C19_lb_le_ub and C19_mismatch_tears."
  },
  {
   "property": "C20",
   "status": "proved",
   "theorems": [
    "Lumos.Bounds.C20_last_bound_wins",
    "Lumos.Bounds.C20_direct_set"
   ],
   "note": ""
  },
  {
   "property": "C21",
   "status": "proved",
   "theorems": [
    "Lumos.Bounds.C21_boundary_conditions_persist",
    "Lumos.Bounds.C21_bad_condition_is_permanent",
    "Lumos.Bounds.C21_direct_set_overrides",
    "Lumos.Bounds.C21_partial_update_loses_condition"
   ],
   "note": ""
  },
  {
   "property": "C22",
   "status": "proved",
   "theorems": [
    "Lumos.Ocp.C22_cyclic_vars",
    "Lumos.Ocp.C22_constraint_value",
    "Lumos.Ocp.C22_zero_iff_periodic",
    "Lumos.Ocp.C22_jacobian",
    "Lumos.Ocp.C22_nothing_cyclic",
    "Lumos.Ocp.C22_dotted_name"
   ],
   "note": ""
  },
  {
   "property": "C23",
   "status": "proved",
   "theorems": [
    "Lumos.Ocp.C23_acceptance",
    "Lumos.Ocp.C23_mesh",
    "Lumos.Ocp.C23_scaled_mesh",
    "Lumos.Ocp.C23_no_intervals",
    "Lumos.Ocp.C23_stages"
   ],
   "note": ""
  },
  {
   "property": "C24",
   "status": "proved",
   "theorems": [
    "Lumos.Ocp.OCP.C24_continuity_value"
   ],
   "note": ""
  },
  {
   "property": "C25",
   "status": "proved",
   "theorems": [
    "Lumos.Ocp.OCP.C25_continuity_jacobian"
   ],
   "note": ""
  },
  {
   "property": "C26",
   "status": "proved",
   "theorems": [
    "Lumos.Ocp.OCP.C26_continuity_hessian",
    "Lumos.Ocp.OCP.C26_wrong_length"
   ],
   "note": ""
  },
  {
   "property": "C27",
   "status": "proved",
   "theorems": [
    "Lumos.Ocp.OCP.C27_fixed_mesh_linear",
    "Lumos.Ocp.OCP.C27_scaled_time_objective",
    "Lumos.Ocp.OCP.C27_fixed_time_objective"
   ],
   "note": ""
  },
  {
   "property": "C28",
   "status": "proved",
   "theorems": [
    "Lumos.Ocp.CondOCP.C28_condensed_value",
    "Lumos.Ocp.CondOCP.C28_same_solutions",
    "Lumos.Ocp.CondOCP.C28_independent_of_states_dot"
   ],
   "note": ""
  },
  {
   "property": "C29",
   "status": "proved",
   "theorems": [
    "Lumos.Ocp.CondOCP.C29_sampled_structure",
    "Lumos.Ocp.CondOCP.C29_sampled_values",
    "Lumos.Ocp.CondOCP.C29_sampling_can_miss",
    "Lumos.Ocp.CondOCP.C29_condensed_jacobian",
    "Lumos.Ocp.CondOCP.C29_values_at_structure"
   ],
   "note": ""
  },
  {
   "property": "C30",
   "status": "proved",
   "theorems": [
    "Lumos.Ocp.CondOCP.C30_multiplier_conversion",
    "Lumos.Ocp.CondOCP.C30_hessian_fixed_mesh",
    "Lumos.Ocp.CondOCP.C30_hessian_scaled_mesh",
    "Lumos.Ocp.CondOCP.C30_wrong_length"
   ],
   "note": ""
  },
  {
   "property": "C31",
   "status": "proved",
   "theorems": [
    "Lumos.Ocp.OCP.C31_stage_values",
    "Lumos.Ocp.OCP.C31_stage_jacobian",
    "Lumos.Ocp.OCP.C31_stage_hessian",
    "Lumos.Ocp.OCP.C31_no_global_column",
    "Lumos.Ocp.OCP.C31_mesh_dependence_lost"
   ],
   "note": ""
  },
  {
   "property": "C32",
   "status": "proved",
   "theorems": [
    "Lumos.Ocp.C32_set_scales",
    "Lumos.Ocp.C32_feasible_set_unchanged",
    "Lumos.Ocp.C32_unknown_variable",
    "Lumos.Ocp.C32_failed_call_leaves_mixed_scales"
   ],
   "note": ""
  },
  {
   "property": "C33",
   "status": "proved",
   "theorems": [
    "Lumos.Trans.C33_euler_formula",
    "Lumos.Trans.C33_trapezoidal_formula",
    "Lumos.Trans.C33_euler_exact",
    "Lumos.Trans.C33_trapezoidal_exact"
   ],
   "note": ""
  },
  {
   "property": "C34",
   "status": "proved",
   "theorems": [
    "Lumos.Trans.C34_problem_exact",
    "Lumos.Trans.C34_problem_meaning",
    "Lumos.Trans.C34_differentiation_matrix",
    "Lumos.Trans.C34_lgr_value",
    "Lumos.Trans.C34_interpolant",
    "Lumos.Trans.C34_lgr_exact",
    "Lumos.Trans.C34_two_stages"
   ],
   "note": ""
  },
  {
   "property": "C35",
   "status": "proved",
   "theorems": [
    "Lumos.Trans.C35_problem_meaning",
    "Lumos.Trans.C35_integration_matrix",
    "Lumos.Trans.C35_integral_value",
    "Lumos.Trans.C35_integral_exact",
    "Lumos.Trans.C35_two_stages",
    "Lumos.Trans.C35_not_equivalent"
   ],
   "note": ""
  },
  {
   "property": "C36",
   "status": "proved",
   "theorems": [
    "Lumos.Trans.C36_problem_equilibrium",
    "Lumos.Trans.C36_equilibrium"
   ],
   "note": ""
  },
  {
   "property": "C37",
   "status": "proved",
   "theorems": [
    "Lumos.Trans.C37_lgr_points",
    "Lumos.Trans.C37_lg_points",
    "Lumos.Trans.C37_lgl_points",
    "Lumos.Trans.C37_errors"
   ],
   "note": ""
  },
  {
   "property": "C38",
   "status": "proved",
   "theorems": [
    "Lumos.Trans.C38_options",
    "Lumos.Trans.C38_unknown_name",
    "Lumos.Trans.C38_low_order",
    "Lumos.Trans.C38_lgr",
    "Lumos.Trans.C38_shapes"
   ],
   "note": ""
  },
  {
   "property": "C39",
   "status": "proved",
   "theorems": [
    "Lumos.Trees.Tree.C39_flat_content",
    "Lumos.Trees.Tree.C39_flat_round_trip",
    "Lumos.Trees.Tree.C39_flat_other_values",
    "Lumos.Trees.Tree.C39_dot_in_key",
    "Lumos.Trees.Tree.C39_empty_child_name",
    "Lumos.Trees.C39_copy_isolated",
    "Lumos.Trees.Tree.C39_dict_round_trip",
    "Lumos.Trees.Tree.C39_from_dict_errors"
   ],
   "note": ""
  },
  {
   "property": "C40",
   "status": "proved",
   "theorems": [
    "Lumos.Trees.Tree.C40_get_set",
    "Lumos.Trees.Tree.C40_frame",
    "Lumos.Trees.Tree.C40_set_failure",
    "Lumos.Trees.Tree.C40_missing_node",
    "Lumos.Trees.Tree.C40_history",
    "Lumos.Trees.Tree.C40_set_creates",
    "Lumos.Trees.Tree.C40_leading_dot",
    "Lumos.Trees.Tree.C40_custom_delimiter"
   ],
   "note": ""
  },
  {
   "property": "C41",
   "status": "proved",
   "theorems": [
    "Lumos.Trees.C41_flat_dict",
    "Lumos.Trees.C41_flat_every_vector",
    "Lumos.Trees.C41_wrong_length",
    "Lumos.Trees.C41_short_vector",
    "Lumos.Trees.C41_one_element",
    "Lumos.Trees.C41_empty_array",
    "Lumos.Trees.Tree.C41_round_trip",
    "Lumos.Trees.Tree.C41_every_vector"
   ],
   "note": ""
  },
  {
   "property": "C42",
   "status": "proved",
   "theorems": [
    "Lumos.Trees.Mod.C42_set_get",
    "Lumos.Trees.Mod.C42_accepts_iff",
    "Lumos.Trees.Mod.C42_round_trip",
    "Lumos.Trees.Mod.C42_get_set",
    "Lumos.Trees.Mod.C42_structure_kept",
    "Lumos.Trees.Mod.C42_missing_child",
    "Lumos.Trees.Mod.C42_not_atomic",
    "Lumos.Trees.C42_heap_get",
    "Lumos.Trees.C42_heap_set",
    "Lumos.Trees.C42_returned_isolated",
    "Lumos.Trees.C42_source_isolated",
    "Lumos.Trees.C42_shared_array"
   ],
   "note": ""
  },
  {
   "property": "C43",
   "status": "proved",
   "theorems": [
    "Lumos.Trees.C43_any_delimiter",
    "Lumos.Trees.Tree.C43_replace",
    "Lumos.Trees.Tree.C43_params",
    "Lumos.Trees.Tree.C43_missing"
   ],
   "note": ""
  },
  {
   "property": "C44",
   "status": "proved",
   "theorems": [
    "Lumos.Ocp.ExplicitModel.C44_flat_positions",
    "Lumos.Ocp.ExplicitModel.C44_sparsity_complete",
    "Lumos.Ocp.ExplicitModel.C44_residuals"
   ],
   "note": ""
  },
  {
   "property": "C45",
   "status": "proved",
   "theorems": [
    "Lumos.Trees.C45_complete",
    "Lumos.Trees.C45_with_params",
    "Lumos.Trees.C45_incomplete",
    "Lumos.Trees.C45_wrong_class",
    "Lumos.Trees.C45_from_name",
    "Lumos.Trees.C45_any_delimiter"
   ],
   "note": ""
  },
  {
   "property": "C46",
   "status": "proved",
   "theorems": [
    "Lumos.Trees.C46_add",
    "Lumos.Trees.C46_remove",
    "Lumos.Trees.C46_history"
   ],
   "note": ""
  },
  {
   "property": "C47",
   "status": "proved",
   "theorems": [
    "Lumos.Ocp.C47_objective",
    "Lumos.Ocp.C47_derivatives",
    "Lumos.Ocp.C47_solve",
    "Lumos.Ocp.C47_build",
    "Lumos.Ocp.C47_lifted",
    "Lumos.Ocp.C47_condensed"
   ],
   "note": ""
  },
  {
   "property": "C48",
   "status": "proved",
   "theorems": [
    "Lumos.Ocp.C48_bounds",
    "Lumos.Ocp.C48_condensed_states_dot",
    "Lumos.Ocp.C48_config_is_changed"
   ],
   "note": ""
  },
  {
   "property": "C49",
   "status": "proved",
   "theorems": [
    "Lumos.Io.Mdl.C49_names",
    "Lumos.Io.Mdl.C49_distinct",
    "Lumos.Io.Mdl.C49_unambiguous",
    "Lumos.Io.Mdl.C49_index",
    "Lumos.Io.Mdl.C49_constructible",
    "Lumos.Io.Mdl.C49_residual_of_stateless",
    "Lumos.Io.Mdl.C49_set_con_outputs_unchecked"
   ],
   "note": ""
  },
  {
   "property": "C50",
   "status": "proved",
   "theorems": [
    "Lumos.Io.C50_const_dict",
    "Lumos.Io.C50_read_missing",
    "Lumos.Io.C50_make_vector",
    "Lumos.Io.C50_read_back",
    "Lumos.Io.C50_reserved_names",
    "Lumos.Io.C50_array_to_dict",
    "Lumos.Io.C50_round_trip",
    "Lumos.Io.Mdl.C50_forward_arrays",
    "Lumos.Io.Mdl.C50_unknown_con_output",
    "Lumos.Io.Mdl.C50_stateless_residuals",
    "Lumos.Io.Mdl.C50_forward_arrays_stateless"
   ],
   "note": ""
  },
  {
   "property": "C51",
   "status": "proved",
   "theorems": [
    "Lumos.Io.Mdl.C51_forward_is_pure",
    "Lumos.Io.Mdl.C51_outputs_dict",
    "Lumos.Io.Mdl.C51_poisoned",
    "Lumos.Io.Mdl.C51_forgotten",
    "Lumos.Io.Mdl.C51_call_arguments",
    "Lumos.Io.Mdl.C51_output_given_twice"
   ],
   "note": ""
  },
  {
   "property": "C52",
   "status": "proved",
   "theorems": [
    "Lumos.Io.Mdl.C52_implicit",
    "Lumos.Io.Mdl.C52_solution",
    "Lumos.Io.Mdl.C52_feasible"
   ],
   "note": ""
  },
  {
   "property": "C53",
   "status": "proved",
   "theorems": [
    "Lumos.Veh.C53_motion",
    "Lumos.Veh.C53_in_time",
    "Lumos.Veh.C53_outputs"
   ],
   "note": ""
  },
  {
   "property": "C54",
   "status": "proved",
   "theorems": [
    "Lumos.Veh.C54_newton_euler",
    "Lumos.Veh.C54_momentum"
   ],
   "note": ""
  },
  {
   "property": "C55",
   "status": "proved",
   "theorems": [
    "Lumos.Veh.C55_loads",
    "Lumos.Veh.C55_equilibrium"
   ],
   "note": ""
  },
  {
   "property": "C56",
   "status": "proved",
   "theorems": [
    "Lumos.Veh.C56_driveline",
    "Lumos.Veh.C56_wheels"
   ],
   "note": ""
  },
  {
   "property": "C57",
   "status": "proved",
   "theorems": [
    "Lumos.Veh.C57_tires"
   ],
   "note": ""
  },
  {
   "property": "C58",
   "status": "proved",
   "theorems": [
    "Lumos.Veh.C58_drag_pushes",
    "Lumos.Veh.C58_balance",
    "Lumos.Veh.C58_energy",
    "Lumos.Veh.C58_dissipative",
    "Lumos.Veh.C58_energy_from_nothing"
   ],
   "note": ""
  },
  {
   "property": "C59",
   "status": "proved",
   "theorems": [
    "Lumos.Veh.C59_function",
    "Lumos.Veh.C59_ellipse",
    "Lumos.Veh.C59_signs",
    "Lumos.Veh.C59_mirror",
    "Lumos.Veh.C59_default",
    "Lumos.Veh.C59_overload",
    "Lumos.Veh.C59_peak"
   ],
   "note": ""
  },
  {
   "property": "C60",
   "status": "proved",
   "theorems": [
    "Lumos.Veh.C60_mirror"
   ],
   "note": ""
  },
  {
   "property": "C61",
   "status": "proved",
   "theorems": [
    "Lumos.Veh.C61_positions",
    "Lumos.Veh.C61_composition",
    "Lumos.Veh.C61_in_time"
   ],
   "note": ""
  },
  {
   "property": "C62",
   "status": "proved",
   "theorems": [
    "Lumos.Veh.C62_drone",
    "Lumos.Veh.C62_energy"
   ],
   "note": ""
  },
  {
   "property": "C63",
   "status": "proved",
   "theorems": [
    "Lumos.Track.C63_lookup",
    "Lumos.Track.C63_distance"
   ],
   "note": ""
  },
  {
   "property": "C64",
   "status": "proved",
   "theorems": [
    "Lumos.Track.C64_constant_values",
    "Lumos.Track.C64_cartesian",
    "Lumos.Track.C64_curvilinear",
    "Lumos.Track.C64_constant"
   ],
   "note": ""
  },
  {
   "property": "C65",
   "status": "proved",
   "theorems": [
    "Lumos.Track.C65_circle",
    "Lumos.Track.C65_reverse",
    "Lumos.Track.C65_straight",
    "Lumos.Track.C65_similarity"
   ],
   "note": ""
  },
  {
   "property": "C66",
   "status": "proved",
   "theorems": [
    "Lumos.Track.C66_path",
    "Lumos.Track.C66_rotation",
    "Lumos.Track.C66_mirror",
    "Lumos.Track.C66_translation"
   ],
   "note": ""
  },
  {
   "property": "C67",
   "status": "proved",
   "theorems": [
    "Lumos.Ocp.C67_value",
    "Lumos.Ocp.C67_derivatives",
    "Lumos.Ocp.C67_steer",
    "Lumos.Ocp.C67_unknown"
   ],
   "note": ""
  },
  {
   "property": "C68",
   "status": "proved",
   "theorems": [
    "Lumos.Ocp.C68_lifted",
    "Lumos.Ocp.C68_same_problem",
    "Lumos.Ocp.C68_lost_entry"
   ],
   "note": ""
  },
  {
   "property": "C69",
   "status": "proved",
   "theorems": [
    "Lumos.LapSim.C69_road_accepted",
    "Lumos.LapSim.C69_closed_lap_infeasible",
    "Lumos.LapSim.C69_construct",
    "Lumos.LapSim.C69_problem",
    "Lumos.LapSim.C69_point",
    "Lumos.LapSim.C69_cyclic_infeasible",
    "Lumos.LapSim.C69_accepted_iff",
    "Lumos.LapSim.C69_rejected",
    "Lumos.LapSim.C69_bounds",
    "Lumos.LapSim.C69_last_track"
   ],
   "note": ""
  },
  {
   "property": "C70",
   "status": "proved",
   "theorems": [
    "Lumos.LapSim.C70_defaults_accepted",
    "Lumos.LapSim.C70_defaults_valid",
    "Lumos.LapSim.C70_within",
    "Lumos.LapSim.C70_guess"
   ],
   "note": ""
  },
  {
   "property": "C71",
   "status": "proved",
   "theorems": [
    "Lumos.Log.C71_no_logging",
    "Lumos.Log.C71_no_iteration",
    "Lumos.Log.C71_second_solve_fails",
    "Lumos.Log.C71_second_solve",
    "Lumos.Log.C71_restoration_shifts",
    "Lumos.Log.C71_solve"
   ],
   "note": ""
  },
  {
   "property": "C72",
   "status": "proved",
   "theorems": [
    "Lumos.Log.C72_mesh",
    "Lumos.Log.C72_feasible",
    "Lumos.Log.C72_is_table",
    "Lumos.Log.C72_tables",
    "Lumos.Log.C72_logged_mesh_is_scaled",
    "Lumos.Log.C72_table"
   ],
   "note": ""
  },
  {
   "property": "C73",
   "status": "proved",
   "theorems": [
    "Lumos.Config.C73_default_values",
    "Lumos.Config.C73_lap_conditions",
    "Lumos.Config.C73_logging_starts",
    "Lumos.Config.C73_fields",
    "Lumos.Config.C73_ltc",
    "Lumos.Config.C73_made",
    "Lumos.Config.C73_default",
    "Lumos.Config.C73_logging_lost",
    "Lumos.Config.C73_mixed_sequences",
    "Lumos.Config.C73_tuple_of_names",
    "Lumos.Config.C73_open_lap_default",
    "Lumos.Config.C73_no_track",
    "Lumos.Config.C73_round_trip"
   ],
   "note": ""
  },
  {
   "property": "C74",
   "status": "proved",
   "theorems": [
    "Lumos.Backend.C74_valid",
    "Lumos.Backend.C74_scope",
    "Lumos.Backend.C74_call",
    "Lumos.Backend.C74_decorate",
    "Lumos.Backend.C74_no_leak",
    "Lumos.Backend.C74_decorator_leaks",
    "Lumos.Backend.C74_decorated_inside",
    "Lumos.Backend.C74_unknown_backend"
   ],
   "note": ""
  },
  {
   "property": "C75",
   "status": "proved",
   "theorems": [
    "Lumos.Solver.C75_construct",
    "Lumos.Solver.C75_index",
    "Lumos.Solver.C75_bounds",
    "Lumos.Solver.C75_set_bounds_accepts",
    "Lumos.Solver.C75_scales",
    "Lumos.Solver.C75_set_scale_accepts",
    "Lumos.Solver.C75_objective",
    "Lumos.Solver.C75_feasible",
    "Lumos.Solver.C75_feasible_model",
    "Lumos.Solver.C75_derivatives",
    "Lumos.Solver.C75_solve",
    "Lumos.Solver.C75_optimal",
    "Lumos.Solver.C75_scale_free",
    "Lumos.Solver.C75_exact_hessian_raises",
    "Lumos.Solver.C75_no_default_guess",
    "Lumos.Solver.C75_stale_constraint_bounds",
    "Lumos.Solver.C75_add_objective",
    "Lumos.Solver.C75_same_objective_twice",
    "Lumos.Solver.C75_states_dot_scale_is_fixed",
    "Lumos.Solver.C75_deleted_algebra"
   ],
   "note": ""
  },
  {
   "property": "C76",
   "status": "proved",
   "theorems": [
    "Lumos.Trans.C76_quadrature",
    "Lumos.Trans.C76_rate",
    "Lumos.Trans.C76_integral",
    "Lumos.Trans.C76_problem",
    "Lumos.Trans.C76_problem_rate",
    "Lumos.Trans.C76_ignored"
   ],
   "note": ""
  },
  {
   "property": "C77",
   "status": "proved",
   "theorems": [
    "Lumos.Sim.C77_construct",
    "Lumos.Sim.C77_guess",
    "Lumos.Sim.C77_least_duration",
    "Lumos.Sim.C77_flip_without_tilting",
    "Lumos.Sim.C77_problem",
    "Lumos.Sim.C77_same_model"
   ],
   "note": ""
  },
  {
   "property": "C78",
   "status": "proved",
   "theorems": [
    "Lumos.Sim.C78_custom_derivatives",
    "Lumos.Sim.C78_model_energy",
    "Lumos.Sim.C78_least_duration",
    "Lumos.Sim.C78_energy",
    "Lumos.Sim.C78_straight_slide",
    "Lumos.Sim.C78_climb",
    "Lumos.Sim.C78_driver_ignores_backend",
    "Lumos.Sim.C78_zero_guess",
    "Lumos.Sim.C78_problem",
    "Lumos.Sim.C78_same_model"
   ],
   "note": ""
  },
  {
   "property": "C79",
   "status": "proved",
   "theorems": [
    "Lumos.Map.C79_stage_rows",
    "Lumos.Map.C79_mesh_not_compared",
    "Lumos.Map.C79_custom_hessian",
    "Lumos.Map.C79_custom_forward",
    "Lumos.Map.C79_axis_ignored",
    "Lumos.Map.C79_batch_of_unmapped",
    "Lumos.Map.C79_cmap_cache",
    "Lumos.Map.C79_cmap_stale",
    "Lumos.Map.C79_sparse_empty",
    "Lumos.Map.C79_sparse_rows",
    "Lumos.Map.C79_dense_rows",
    "Lumos.Map.C79_lmap_array",
    "Lumos.Map.C79_lmap_tuple",
    "Lumos.Map.C79_lmap_raises"
   ],
   "note": ""
  },
  {
   "property": "C80",
   "status": "proved",
   "theorems": [
    "Lumos.Cache.C80_exclusive",
    "Lumos.Cache.C80_finish",
    "Lumos.Cache.C80_sequential",
    "Lumos.Cache.C80_stopped_compiler",
    "Lumos.Cache.C80_race_poisons_cache",
    "Lumos.Cache.C80_race_wrong_model",
    "Lumos.Cache.C80_race_same_model",
    "Lumos.Cache.C80_failed_compiler"
   ],
   "note": ""
  },
  {
   "property": "C81",
   "status": "proved",
   "theorems": [
    "Lumos.Trees.OcpParams.C81_construct",
    "Lumos.Trees.OcpParams.C81_current",
    "Lumos.Trees.OcpParams.C81_modify",
    "Lumos.Trees.OcpParams.C81_reads",
    "Lumos.Trees.OcpParams.C81_condensed",
    "Lumos.Trees.OcpParams.C81_tracers",
    "Lumos.Trees.OcpParams.C81_overwritten",
    "Lumos.Trees.OcpParams.C81_misspelt"
   ],
   "note": ""
  },
  {
   "property": "C82",
   "status": "proved",
   "theorems": [
    "Lumos.Tyre.C82_default_defined",
    "Lumos.Tyre.C82_default_grip",
    "Lumos.Tyre.C82_default_direction",
    "Lumos.Tyre.C82_default_peak",
    "Lumos.Tyre.C82_default_rolling",
    "Lumos.Tyre.C82_default_reversed",
    "Lumos.Tyre.C82_default_overload",
    "Lumos.Tyre.C82_value",
    "Lumos.Tyre.C82_missing",
    "Lumos.Tyre.C82_unloaded",
    "Lumos.Tyre.C82_mode",
    "Lumos.Tyre.C82_mode_defined",
    "Lumos.Tyre.C82_speed",
    "Lumos.Tyre.C82_speed_defined",
    "Lumos.Tyre.C82_pure",
    "Lumos.Tyre.C82_combined",
    "Lumos.Tyre.C82_limit",
    "Lumos.Tyre.C82_direction_x",
    "Lumos.Tyre.C82_direction_y",
    "Lumos.Tyre.C82_peak",
    "Lumos.Tyre.C82_reads_only"
   ],
   "note": ""
  },
  {
   "property": "C83",
   "status": "proved",
   "theorems": [
    "Lumos.Tyre.C83_smooth",
    "Lumos.Tyre.C83_default",
    "Lumos.Tyre.C83_stiffness",
    "Lumos.Tyre.C83_autodiff",
    "Lumos.Tyre.C83_camber_kink"
   ],
   "note": ""
  },
  {
   "property": "C84",
   "status": "proved",
   "theorems": [
    "Lumos.Tyre.C84_mirror",
    "Lumos.Tyre.C84_mirror_iff",
    "Lumos.Tyre.C84_symmetric",
    "Lumos.Tyre.C84_symmetric_case",
    "Lumos.Tyre.C84_default_handed"
   ],
   "note": ""
  },
  {
   "property": "C85",
   "status": "proved",
   "theorems": [
    "Lumos.Tyre.C85_loaded",
    "Lumos.Tyre.C85_grip",
    "Lumos.Tyre.C85_runs",
    "Lumos.Tyre.C85_acceleration",
    "Lumos.Tyre.C85_case"
   ],
   "note": ""
  },
  {
   "property": "C86",
   "status": "proved",
   "theorems": [
    "Lumos.Tir.C86_number",
    "Lumos.Tir.C86_written",
    "Lumos.Tir.C86_commented",
    "Lumos.Tir.C86_note_read",
    "Lumos.Tir.C86_tab",
    "Lumos.Tir.C86_joined",
    "Lumos.Tir.C86_dropped",
    "Lumos.Tir.C86_nan",
    "Lumos.Tir.C86_float",
    "Lumos.Tir.C86_read",
    "Lumos.Tir.C86_lines",
    "Lumos.Tir.C86_params",
    "Lumos.Tir.C86_incomplete"
   ],
   "note": ""
  },
  {
   "property": "C87",
   "status": "proved",
   "theorems": [
    "Lumos.Aero.C87_car_mlp",
    "Lumos.Aero.C87_car_gp",
    "Lumos.Aero.C87_car_runs",
    "Lumos.Aero.C87_kernel",
    "Lumos.Aero.C87_gp_value",
    "Lumos.Aero.C87_gp_bound",
    "Lumos.Aero.C87_gp_far",
    "Lumos.Aero.C87_gp_smooth",
    "Lumos.Aero.C87_gp_order",
    "Lumos.Aero.C87_gp_any",
    "Lumos.Aero.C87_mlp_range",
    "Lumos.Aero.C87_mlp_out_of_reach",
    "Lumos.Aero.C87_mlp_smooth",
    "Lumos.Aero.C87_mlp_rest",
    "Lumos.Aero.C87_mlp_layers",
    "Lumos.Aero.C87_mlp_other",
    "Lumos.Aero.C87_mlp_default",
    "Lumos.Aero.C87_mlp_no_hidden",
    "Lumos.Aero.C87_mlp_order"
   ],
   "note": ""
  },
  {
   "property": "C88",
   "status": "proved",
   "theorems": [
    "Lumos.Cas.C88_exact",
    "Lumos.Cas.C88_unique",
    "Lumos.Cas.C88_returns_error",
    "Lumos.Cas.C88_order"
   ],
   "note": ""
  },
  {
   "property": "C89",
   "status": "proved",
   "theorems": [
    "Lumos.Cas.C89_plane",
    "Lumos.Cas.C89_plane_group",
    "Lumos.Cas.C89_space",
    "Lumos.Cas.C89_space_unique",
    "Lumos.Cas.C89_space_group",
    "Lumos.Cas.C89_zero_axis",
    "Lumos.Cas.C89_flag"
   ],
   "note": ""
  },
  {
   "property": "C90",
   "status": "proved",
   "theorems": [
    "Lumos.Cas.C90_concatenate",
    "Lumos.Cas.C90_stack",
    "Lumos.Cas.C90_blocks",
    "Lumos.Cas.C90_hstack_vectors",
    "Lumos.Cas.C90_vstack_vectors",
    "Lumos.Cas.C90_axis_raises",
    "Lumos.Cas.C90_array",
    "Lumos.Cas.C90_sum",
    "Lumos.Cas.C90_sum_axis",
    "Lumos.Cas.C90_mean",
    "Lumos.Cas.C90_mean_matrix",
    "Lumos.Cas.C90_elementwise",
    "Lumos.Cas.C90_entries",
    "Lumos.Cas.C90_products",
    "Lumos.Cas.C90_dot_matrices",
    "Lumos.Cas.C90_norm",
    "Lumos.Cas.C90_norm_orders",
    "Lumos.Cas.C90_vector",
    "Lumos.Cas.C90_diag",
    "Lumos.Cas.C90_diff_twice",
    "Lumos.Cas.C90_reshape",
    "Lumos.Cas.C90_reshape_vector",
    "Lumos.Cas.C90_roll",
    "Lumos.Cas.C90_roll_loses",
    "Lumos.Cas.C90_spacing",
    "Lumos.Cas.C90_geomspace",
    "Lumos.Cas.C90_interp",
    "Lumos.Cas.C90_split_places",
    "Lumos.Cas.C90_split_parts",
    "Lumos.Cas.C90_split_concat",
    "Lumos.Cas.C90_length"
   ],
   "note": ""
  },
  {
   "property": "C91",
   "status": "proved",
   "theorems": [
    "Lumos.Order.C91_sharp_euler",
    "Lumos.Order.C91_sharp_trapezoidal",
    "Lumos.Order.C91_step_limit",
    "Lumos.Order.C91_problem",
    "Lumos.Order.C91_problem_converges",
    "Lumos.Order.C91_simulate",
    "Lumos.Order.C91_drone",
    "Lumos.Order.C91_converges",
    "Lumos.Order.C91_order",
    "Lumos.Order.C91_stable",
    "Lumos.Order.C91_exists_unique",
    "Lumos.Order.C91_near",
    "Lumos.Order.C91_runge_kutta"
   ],
   "note": ""
  },
  {
   "property": "C92",
   "status": "proved",
   "theorems": [
    "Lumos.Order.C92_lgr",
    "Lumos.Order.C92_no_growth",
    "Lumos.Order.C92_unique",
    "Lumos.Order.C92_linear",
    "Lumos.Order.C92_trapezoidal",
    "Lumos.Order.C92_trapezoidal_grows",
    "Lumos.Order.C92_euler_grows"
   ],
   "note": ""
  },
  {
   "property": "C93",
   "status": "proved",
   "theorems": [
    "Lumos.Cycloid.C93_root",
    "Lumos.Cycloid.C93_curve",
    "Lumos.Cycloid.C93_least",
    "Lumos.Cycloid.C93_other_root",
    "Lumos.Cycloid.C93_example",
    "Lumos.Cycloid.C93_straight_down",
    "Lumos.Cycloid.C93_lower",
    "Lumos.Cycloid.C93_converges"
   ],
   "note": ""
  },
  {
   "property": "C94",
   "status": "proved",
   "theorems": [
    "Lumos.Kkt.C94_condensed",
    "Lumos.Kkt.C94_condensed_cost",
    "Lumos.Kkt.C94_info_is_scaled",
    "Lumos.Kkt.C94_scales_changed",
    "Lumos.Kkt.C94_second_order",
    "Lumos.Kkt.C94_feasible",
    "Lumos.Kkt.C94_best",
    "Lumos.Kkt.C94_lifted",
    "Lumos.Kkt.C94_first_order",
    "Lumos.Kkt.C94_solve",
    "Lumos.Kkt.C94_warm_start"
   ],
   "note": ""
  },
  {
   "property": "C95",
   "status": "proved",
   "theorems": [
    "Lumos.Lts.C95_aero_cars",
    "Lumos.Lts.C95_bounds",
    "Lumos.Lts.C95_coast",
    "Lumos.Lts.C95_default_bounds",
    "Lumos.Lts.C95_construct",
    "Lumos.Lts.C95_feasible",
    "Lumos.Lts.C95_straight",
    "Lumos.Lts.C95_backwards",
    "Lumos.Lts.C95_regularised",
    "Lumos.Lts.C95_time",
    "Lumos.Lts.C95_time_between",
    "Lumos.Lts.C95_default_time"
   ],
   "note": ""
  },
  {
   "property": "C96",
   "status": "proved",
   "theorems": [
    "Lumos.Trees.Gen.C96_gp",
    "Lumos.Trees.Gen.C96_mlp",
    "Lumos.Trees.Gen.C96_gp_wrong",
    "Lumos.Trees.Gen.C96_mlp_wrong",
    "Lumos.Trees.Gen.C96_prefilled",
    "Lumos.Trees.Gen.C96_order",
    "Lumos.Trees.Gen.C96_unravel",
    "Lumos.Trees.Gen.C96_refused",
    "Lumos.Trees.Gen.C96_export",
    "Lumos.Trees.Gen.C96_computes",
    "Lumos.Trees.Gen.C96_raised",
    "Lumos.Trees.Gen.C96_arrives",
    "Lumos.Trees.Gen.C96_way_round"
   ],
   "note": ""
  },
  {
   "property": "C97",
   "status": "proved",
   "theorems": [
    "Lumos.Use.C97_errors",
    "Lumos.Use.C97_stale_limits",
    "Lumos.Use.C97_no_objective",
    "Lumos.Use.C97_second_solve",
    "Lumos.Use.C97_fresh",
    "Lumos.Use.C97_objective",
    "Lumos.Use.C97_derivatives",
    "Lumos.Use.C97_solve",
    "Lumos.Use.C97_construct",
    "Lumos.Use.C97_meaning",
    "Lumos.Use.C97_meaning_condensed",
    "Lumos.Use.C97_rows",
    "Lumos.Use.C97_scales",
    "Lumos.Use.C97_bounds"
   ],
   "note": ""
  },
  {
   "property": "C98",
   "status": "proved",
   "theorems": [
    "Lumos.Drive.C98_accepts",
    "Lumos.Drive.C98_bounds",
    "Lumos.Drive.C98_history",
    "Lumos.Drive.C98_rejected",
    "Lumos.Drive.C98_standard",
    "Lumos.Drive.C98_by_hand",
    "Lumos.Drive.C98_new",
    "Lumos.Drive.C98_as_new",
    "Lumos.Drive.C98_same_track",
    "Lumos.Drive.C98_construct",
    "Lumos.Drive.C98_meaning",
    "Lumos.Drive.C98_length",
    "Lumos.Drive.C98_objective",
    "Lumos.Drive.C98_scales",
    "Lumos.Drive.C98_guess",
    "Lumos.Drive.C98_solve",
    "Lumos.Drive.C98_road_accepted",
    "Lumos.Drive.C98_sweep",
    "Lumos.Drive.C98_sweep_same"
   ],
   "note": ""
  },
  {
   "property": "C99",
   "status": "proved",
   "theorems": [
    "Lumos.Sym.C99_frame",
    "Lumos.Sym.C99_best",
    "Lumos.Sym.C99_standard"
   ],
   "note": ""
  },
  {
   "property": "C100",
   "status": "proved",
   "theorems": [
    "Lumos.Sym.C100_mirror",
    "Lumos.Sym.C100_standard",
    "Lumos.Sym.C100_symmetric"
   ],
   "note": ""
  },
  {
   "property": "C101",
   "status": "proved",
   "theorems": [
    "Lumos.Sym.C101_scales",
    "Lumos.Sym.C101_more_room"
   ],
   "note": ""
  },
  {
   "property": "C102",
   "status": "proved",
   "theorems": [
    "Lumos.Cas.C102_detects",
    "Lumos.Cas.C102_two",
    "Lumos.Cas.C102_one",
    "Lumos.Cas.C102_laws",
    "Lumos.Cas.C102_where",
    "Lumos.Cas.C102_join",
    "Lumos.Cas.C102_refuses",
    "Lumos.Cas.C102_length",
    "Lumos.Cas.C102_length_list",
    "Lumos.Cas.C102_constants"
   ],
   "note": ""
  },
  {
   "property": "C103",
   "status": "proved",
   "theorems": [
    "Lumos.Cas.C103_degrees",
    "Lumos.Cas.C103_inverse",
    "Lumos.Cas.C103_arctan2d",
    "Lumos.Cas.C103_cosspace",
    "Lumos.Cas.C103_trapz_pieces",
    "Lumos.Cas.C103_trapz_diff",
    "Lumos.Cas.C103_trapz_error",
    "Lumos.Cas.C103_trapz_ends"
   ],
   "note": ""
  },
  {
   "property": "C104",
   "status": "proved",
   "theorems": [
    "Lumos.Backend.C104_restored",
    "Lumos.Backend.C104_pass",
    "Lumos.Backend.C104_failures"
   ],
   "note": ""
  },
  {
   "property": "C105",
   "status": "proved",
   "theorems": [
    "Lumos.Sym.C105_accepts",
    "Lumos.Sym.C105_laps",
    "Lumos.Sym.C105_cost",
    "Lumos.Sym.C105_costs",
    "Lumos.Sym.C105_best",
    "Lumos.Sym.C105_ignored",
    "Lumos.Sym.C105_defaults",
    "Lumos.Sym.C105_straight"
   ],
   "note": ""
  },
  {
   "property": "C106",
   "status": "proved",
   "theorems": [
    "Lumos.Fix.C106_model",
    "Lumos.Fix.C106_problem",
    "Lumos.Fix.C106_behind",
    "Lumos.Fix.C106_time",
    "Lumos.Fix.C106_too_steep",
    "Lumos.Fix.C106_energy",
    "Lumos.Fix.C106_straight",
    "Lumos.Fix.C106_last_height",
    "Lumos.Sim.C106_same_model"
   ],
   "note": ""
  },
  {
   "property": "C107",
   "status": "proved",
   "theorems": [
    "Lumos.Csv.C107_ragged",
    "Lumos.Csv.C107_read",
    "Lumos.Csv.C107_too_long",
    "Lumos.Csv.C107_empty",
    "Lumos.Csv.C107_missing",
    "Lumos.Csv.C107_track",
    "Lumos.Csv.C107_rows",
    "Lumos.Csv.C107_same",
    "Lumos.Csv.C107_trailing_comma"
   ],
   "note": ""
  },
  {
   "property": "C108",
   "status": "proved",
   "theorems": [
    "Lumos.Trees.C108_get_param",
    "Lumos.Trees.C108_set_param",
    "Lumos.Trees.C108_history",
    "Lumos.Trees.C108_separate",
    "Lumos.Trees.C108_shared",
    "Lumos.Trees.C108_loop",
    "Lumos.Trees.C108_tyres",
    "Lumos.Trees.C108_constructed"
   ],
   "note": ""
  },
  {
   "property": "C109",
   "status": "proved",
   "theorems": [
    "Lumos.Config.History.C109_tuple",
    "Lumos.Config.History.C109_same",
    "Lumos.Config.History.C109_again",
    "Lumos.Config.History.C109_other_model",
    "Lumos.Config.History.C109_shared_list",
    "Lumos.Config.History.C109_list_of_conditions",
    "Lumos.Config.History.C109_names",
    "Lumos.Config.History.C109_own_list"
   ],
   "note": ""
  },
  {
   "property": "C110",
   "status": "proved",
   "theorems": [
    "Lumos.Report.C110_number",
    "Lumos.Report.C110_times",
    "Lumos.Report.C110_options",
    "Lumos.Report.C110_solve",
    "Lumos.Report.C110_refused",
    "Lumos.Report.C110_windows",
    "Lumos.Report.C110_no_times",
    "Lumos.Report.C110_reads",
    "Lumos.Report.C110_lost",
    "Lumos.Report.C110_old_iterations"
   ],
   "note": ""
  },
  {
   "property": "C111",
   "status": "proved",
   "theorems": [
    "Lumos.Kkt.C111_exists",
    "Lumos.Kkt.C111_solver",
    "Lumos.Kkt.C111_condensed",
    "Lumos.Kkt.C111_drone",
    "Lumos.Kkt.C111_drone_trapezoidal"
   ],
   "note": ""
  },
  {
   "property": "C112",
   "status": "proved",
   "theorems": [
    "Lumos.Lts.C112_best_lap",
    "Lumos.Lts.C112_straight_best",
    "Lumos.Lts.C112_stage",
    "Lumos.Lts.C112_default",
    "Lumos.Lts.C112_along",
    "Lumos.Lts.C112_front",
    "Lumos.Lts.C112_cruise",
    "Lumos.Lts.C112_lap"
   ],
   "note": ""
  },
  {
   "property": "C113",
   "status": "proved",
   "theorems": [
    "Lumos.Lts.C113_best_lap",
    "Lumos.Lts.C113_loads",
    "Lumos.Lts.C113_agrees",
    "Lumos.Lts.C113_default_lap",
    "Lumos.Lts.C113_cruise",
    "Lumos.Lts.C113_lap",
    "Lumos.Tyre.C113_tyre",
    "Lumos.Tyre.C113_default_tyre",
    "Lumos.Tyre.C113_corner"
   ],
   "note": ""
  },
  {
   "property": "C114",
   "status": "proved",
   "theorems": [
    "Lumos.Trees.Apply.C114_current",
    "Lumos.Trees.Apply.C114_apply",
    "Lumos.Trees.Apply.C114_forward",
    "Lumos.Trees.Apply.C114_missing",
    "Lumos.Trees.Apply.C114_stateless",
    "Lumos.Trees.Apply.C114_not_a_query"
   ],
   "note": ""
  },
  {
   "property": "C115",
   "status": "proved",
   "theorems": [
    "Lumos.NLP.Prof.C115_profile",
    "Lumos.NLP.Prof.C115_profile_hessian",
    "Lumos.NLP.Prof.C115_times",
    "Lumos.NLP.Prof.C115_distinct",
    "Lumos.NLP.Prof.C115_same_name",
    "Lumos.NLP.Prof.C115_zero",
    "Lumos.NLP.Prof.C115_none"
   ],
   "note": ""
  },
  {
   "property": "C116",
   "status": "proved",
   "theorems": [
    "Lumos.Log.Dir.C116_name",
    "Lumos.Log.Dir.C116_order",
    "Lumos.Log.Dir.C116_distinct",
    "Lumos.Log.Dir.C116_construct",
    "Lumos.Log.Dir.C116_replaced",
    "Lumos.Log.Dir.C116_removed"
   ],
   "note": ""
  },
  {
   "property": "C117",
   "status": "proved",
   "theorems": [
    "Lumos.Dense.C117_gradient",
    "Lumos.Dense.C117_jacobian",
    "Lumos.Dense.C117_structure",
    "Lumos.Dense.C117_hessian",
    "Lumos.Dense.C117_stale",
    "Lumos.Dense.C117_compiled",
    "Lumos.Dense.C117_last",
    "Lumos.Dense.C117_tracer"
   ],
   "note": ""
  },
  {
   "property": "C118",
   "status": "proved",
   "theorems": [
    "Lumos.Shared.C118_construct",
    "Lumos.Shared.C118_own",
    "Lumos.Shared.C118_last",
    "Lumos.Shared.C118_refused",
    "Lumos.Shared.C118_problem",
    "Lumos.Shared.C118_problem_evaluated",
    "Lumos.Shared.C118_problem_late"
   ],
   "note": ""
  },
  {
   "property": "C119",
   "status": "proved",
   "theorems": [
    "Lumos.Bench.C119_sweep",
    "Lumos.Bench.C119_bounds",
    "Lumos.Bench.C119_order",
    "Lumos.Bench.C119_one_error",
    "Lumos.Bench.C119_no_track",
    "Lumos.Bench.C119_profiles",
    "Lumos.Bench.C119_names"
   ],
   "note": ""
  }
 ]
}
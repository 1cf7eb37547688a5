# Axioms of the manifest theorems

Generated by tools/axioms.py from `#print axioms`.

## Classical.choice, Quot.sound, propext (682 theorems)

* `Verif.LS.C01_first_step`
* `Verif.LS.C01_later_step`
* `Verif.LS.C01_compound`
* `Verif.LS.C02_line_search_terminates`
* `Verif.LS.C03_step_is_number_partial`
* `Verif.LS.C03_violated`
* `Verif.LS.C04_quadratic_minimises`
* `Verif.LS.C04_cubic_minimises`
* `Verif.Sol.C05_line_search_result_macro`
* `Verif.Sol.C05_line_search_macro`
* `Verif.Sol.C05_line_search_result_micro_partial`
* `Verif.Sol.C05_violated_micro`
* `Verif.Sol.C05_violated_inactive`
* `Verif.Sol.C06_single_block`
* `Verif.Sol.C06_violated_two_block`
* `Verif.Sol.C06_multi`
* `Verif.Drv.C07_monolithic_rate_dependent`
* `Verif.Drv.C08_active_set_consistent_partial`
* `Verif.Drv.C08_residual_partial`
* `Verif.Drv.C08_violated_termination`
* `Verif.Drv.C08_violated_residual`
* `Verif.Drv.C09_bouncing`
* `Verif.Drv.C09_no_stale_acceptance`
* `Verif.Drv.C10_embracing`
* `Verif.Asm.C100_cell`
* `Verif.Asm.C100_face`
* `Verif.Asm.C100_history`
* `Verif.Asm.C100_solution`
* `Verif.Asm.C100_newton`
* `Verif.Asm.C100_run`
* `Verif.Asm.C100_trial`
* `Verif.Asm.C100_active`
* `Verif.Asm.C100_read`
* `Verif.Asm.C100_output_partial`
* `Verif.Asm.C100_average`
* `Verif.Asm.C100_output_order`
* `Verif.Asm.C100_violated`
* `Verif.Asm.C100_violated_numbering`
* `Verif.Asm.C101_cell`
* `Verif.Asm.C101_face`
* `Verif.Asm.C101_solution`
* `Verif.Asm.C101_norm`
* `Verif.Asm.C101_newton`
* `Verif.Asm.C101_history`
* `Verif.Asm.C101_run`
* `Verif.Asm.C101_input_plane`
* `Verif.Asm.C101_input_space`
* `Verif.Asm.C101_average`
* `Verif.Asm.C101_output`
* `Verif.Life.C102_crystals`
* `Verif.Life.C102_hooke`
* `Verif.Life.C102_vectorial`
* `Verif.Life.C102_order`
* `Verif.Life.C102_posts_partial`
* `Verif.Life.C102_answers_partial`
* `Verif.Life.C102_laws_partial`
* `Verif.Life.C102_frames`
* `Verif.Life.C102_ready`
* `Verif.Life.C102_violated_postprocessor`
* `Verif.Life.C102_violated_retry`
* `Verif.Life.C102_violated_grown`
* `Verif.Life.C102_violated_doubled`
* `Verif.Asm.C103_laws`
* `Verif.Asm.C103_cell`
* `Verif.Asm.C103_face`
* `Verif.Asm.C103_solution`
* `Verif.Asm.C103_handed`
* `Verif.Asm.C103_history`
* `Verif.Asm.C103_run`
* `Verif.Asm.C103_trial`
* `Verif.Lin.C103_newton`
* `Verif.Lin.C103_algorithms`
* `Verif.Lin.C103_extrapolation`
* `Verif.AS.C103_active`
* `Verif.AS.C103_microstress`
* `Verif.Post.C103_output`
* `Verif.Asm.C104_laws`
* `Verif.Asm.C104_cohesive`
* `Verif.Asm.C104_cell`
* `Verif.Asm.C104_handed`
* `Verif.Asm.C104_solution`
* `Verif.Asm.C104_run`
* `Verif.Asm.C104_run_independent`
* `Verif.Asm.C104_run_opening`
* `Verif.Asm.C104_run_opening_independent`
* `Verif.Load.C104_programme`
* `Verif.Asm.C105_history`
* `Verif.Asm.C105_microstress`
* `Verif.Asm.C105_step`
* `Verif.Asm.C105_run`
* `Verif.Asm.C105_record`
* `Verif.Asm.C105_run_opening`
* `Verif.Asm.C106_orientation`
* `Verif.Asm.C106_slip_system`
* `Verif.Asm.C106_turned`
* `Verif.Asm.C106_stress`
* `Verif.Asm.C106_vectorial`
* `Verif.Asm.C106_microtraction`
* `Verif.Asm.C106_cohesive`
* `Verif.Asm.C106_term`
* `Verif.Asm.C106_face`
* `Verif.Asm.C106_cell`
* `Verif.Asm.C106_residual`
* `Verif.Asm.C106_solution`
* `Verif.Asm.C106_satisfies`
* `Verif.Asm.C106_history`
* `Verif.Asm.C106_run`
* `Verif.Asm.C106_record`
* `Verif.Asm.C106_run_opening`
* `Verif.Asm.C106_output`
* `Verif.Asm.C106_average`
* `Verif.Asm.C106_body`
* `Verif.Asm.C106_state`
* `Verif.Asm.C107_run`
* `Verif.Asm.C107_stress`
* `Verif.Asm.C107_stiffness`
* `Verif.Asm.C107_angle_plane`
* `Verif.Asm.C107_angle_space`
* `Verif.Asm.C107_third`
* `Verif.Asm.C107_cubic_crystals`
* `Verif.Fp.C108_plane`
* `Verif.Fp.C108_space_partial`
* `Verif.Fp.C108_violated`
* `Verif.Fp.C109_programme`
* `Verif.Fp.C109_skip`
* `Verif.Fp.C109_monotonic`
* `Verif.Sol.C11_extrapolation_exact_on_lines`
* `Verif.Sol.C11_first_step_or_skipped`
* `Verif.Sol.C11_update_partial`
* `Verif.Sol.C11_violated_skipped_update`
* `Verif.Ws.C110_residual`
* `Verif.Ws.C110_jacobian`
* `Verif.Ws.C110_residual_schedule`
* `Verif.Ws.C110_jacobian_schedule`
* `Verif.Ws.C110_buffers`
* `Verif.Fp.C111_resistance`
* `Verif.Fp.C111_monotone`
* `Verif.Fp.C111_trials`
* `Verif.Fp.C111_reset`
* `Verif.Fp.C111_dof`
* `Verif.Fp.C111_dof_value`
* `Verif.Fp.C111_lost`
* `Verif.Fp.C111_records_differ`
* `Verif.Fp.C111_damage`
* `Verif.Fp.C111_damage_negative`
* `Verif.Fp.C111_M1`
* `Verif.Fp.C112_space`
* `Verif.Fp.C112_plane`
* `Verif.Fp.C112_decimals`
* `Verif.Asm.C113_solves`
* `Verif.Asm.C113_only`
* `Verif.Asm.C113_state`
* `Verif.Asm.C113_homogenised`
* `Verif.Asm.C113_boundary`
* `Verif.Ws.Bits.C114_residual`
* `Verif.Ws.Bits.C114_jacobian`
* `Verif.Ws.Bits.C114_trial_value`
* `Verif.Ws.Bits.C114_projection_value`
* `Verif.Ws.Bits.C114_order`
* `Verif.Asm.C115_error`
* `Verif.Asm.C115_converged`
* `Verif.Asm.C115_distance`
* `Verif.Asm.C115_loads`
* `Verif.Asm.C115_returned`
* `Verif.Lin.C116_quadratic`
* `Verif.Lin.C116_error`
* `Verif.Lin.C116_solution`
* `Verif.Asm.C116_body`
* `Verif.Lin.C117_linear`
* `Verif.Lin.C117_solution`
* `Verif.Asm.C117_close`
* `Verif.Asm.C117_solvable`
* `Verif.Asm.C117_body`
* `Verif.Asm.C118_exists`
* `Verif.Asm.C118_unique`
* `Verif.Asm.C118_tolerance`
* `Verif.Asm.C118_step`
* `Verif.Asm.C119_exists`
* `Verif.Asm.C119_unique`
* `Verif.Asm.C119_tolerance`
* `Verif.Asm.C120_bouncing_error`
* `Verif.Asm.C120_embracing_error`
* `Verif.Asm.C120_algorithms`
* `Verif.Asm.C121_error`
* `Verif.Asm.C121_exists`
* `Verif.Asm.C121_unique`
* `Verif.Asm.C121_algorithms`
* `Verif.Fp.C122_sides`
* `Verif.Fp.C122_schedule`
* `Verif.Fp.C122_maximum`
* `Verif.Fp.C123_held_partial`
* `Verif.Fp.C123_recorded_partial`
* `Verif.Fp.C123_violated`
* `Verif.Fp.C123_violated_damage`
* `Verif.Asm.C124_newton`
* `Verif.Asm.C124_residual`
* `Verif.Asm.C124_run`
* `Verif.Asm.C124_results`
* `Verif.Asm.C124_grains_residual`
* `Verif.Asm.C124_grains_run`
* `Verif.Asm.C124_grains`
* `Verif.Asm.C125_exists`
* `Verif.Asm.C125_unique`
* `Verif.Asm.C125_tolerance`
* `Verif.Itf.C126_sides`
* `Verif.Itf.C126_traction_partial`
* `Verif.Itf.C126_opening_partial`
* `Verif.Itf.C126_violated`
* `Verif.Itf.C126_violated_sliding`
* `Verif.Asm.C127_run`
* `Verif.Asm.C127_results`
* `Verif.Fp.C128_measured`
* `Verif.Fp.C128_recorded`
* `Verif.Fp.C128_opens`
* `Verif.Fp.C128_closes`
* `Verif.Asm.C129_step`
* `Verif.Asm.C129_run`
* `Verif.Asm.C129_closed_run`
* `Verif.Asm.C129_body`
* `Verif.AS.C13_active_iff`
* `Verif.AS.C13_boundary_inactive`
* `Verif.AS.C13_trial_microstress`
* `Verif.Asm.C130_inactive_partial`
* `Verif.Asm.C130_active`
* `Verif.Asm.C130_violated`
* `Verif.Asm.C131_partial`
* `Verif.Asm.C131_moving_partial`
* `Verif.Asm.C131_violated`
* `Verif.Asm.C132_error`
* `Verif.Asm.C132_rate`
* `Verif.Asm.C132_limit`
* `Verif.Asm.C132_unique`
* `Verif.Asm.C132_accepted`
* `Verif.Asm.C133_work`
* `Verif.Asm.C133_symmetric`
* `Verif.Asm.C133_bounds`
* `Verif.Asm.C134_least`
* `Verif.Asm.C134_boundary`
* `Verif.Asm.C134_refined`
* `Verif.Asm.C134_linear`
* `Verif.Asm.C135_step`
* `Verif.Asm.C135_run`
* `Verif.Asm.C135_reported`
* `Verif.Asm.C135_passive`
* `Verif.Asm.C135_exists`
* `Verif.Asm.C136_step`
* `Verif.Asm.C136_run`
* `Verif.Asm.C136_reported`
* `Verif.Asm.C136_passive`
* `Verif.Asm.C136_rest`
* `Verif.Asm.C136_exists`
* `Verif.Asm.C137_body`
* `Verif.Asm.C137_grains`
* `Verif.Asm.C137_same`
* `Verif.AS.C14_inactive_pinned`
* `Verif.AS.C14_inactive_update_zero`
* `Verif.AS.C14_active_free_partial`
* `Verif.AS.C14_violated_master_pinned`
* `Verif.AS.C15_inactive_iff`
* `Verif.AS.C15_partition`
* `Verif.AS.C15_rate_dependent`
* `Verif.AS.C15_computed_once`
* `Verif.AS.C16_reset_partial`
* `Verif.AS.C16_reset_tied`
* `Verif.AS.C16_idempotent`
* `Verif.AS.C16_violated_tied_inactive`
* `Verif.AS.C16_violated_reachable`
* `Verif.Hist.C17_hardening_law`
* `Verif.Hist.C17_accumulated`
* `Verif.Hist.C17_perfect`
* `Verif.Hist.C17_frame`
* `Verif.Hist.C18_trials_leave_no_trace`
* `Verif.Hist.C18_idempotent`
* `Verif.Hist.C18_reset_restores`
* `Verif.Hist.C19_never_decreases`
* `Verif.Hist.C19_strict`
* `Verif.Hist.C20_active`
* `Verif.Hist.C20_inactive`
* `Verif.Hist.C20_no_trace`
* `Verif.Hist.C20_perfect`
* `Verif.Hist.C20_same_law`
* `Verif.Hist.C20_missing_partner`
* `Verif.Hist.C21_closed_form`
* `Verif.Hist.C21_max_is_bound`
* `Verif.Hist.C21_range_and_irreversible`
* `Verif.Hist.C21_set_to_zero`
* `Verif.Hist.C21_positive`
* `Verif.Hist.C22_trials_leave_no_trace`
* `Verif.Hist.C22_idempotent`
* `Verif.Hist.C22_reset_restores`
* `Verif.Hist.C23_range_partial`
* `Verif.Hist.C23_force_nonneg`
* `Verif.Hist.C23_history_partial`
* `Verif.Hist.C23_violated_negative`
* `Verif.Hist.C23_violated_reevaluation`
* `Verif.Hist.C24_interleavings_partial`
* `Verif.Hist.C24_sequential`
* `Verif.Hist.C24_violated_interleaving`
* `Verif.Store.C25_disjoint`
* `Verif.Store.C25_created_exactly`
* `Verif.Micro.C26_error`
* `Verif.Micro.C26_odd`
* `Verif.Micro.C26_strictMono`
* `Verif.Micro.C26_bounded`
* `Verif.Micro.C26_sign`
* `Verif.Micro.C27_derivative`
* `Verif.Micro.C27_positive`
* `Verif.Micro.C27_slope_at_zero`
* `Verif.Micro.C27_sigmoid_is_reg`
* `Verif.Micro.C27_sigmoid_derivative`
* `Verif.Micro.C28_current`
* `Verif.Micro.C28_dissipative`
* `Verif.Micro.C28_bounded`
* `Verif.Micro.C28_vanishes`
* `Verif.Micro.C28_rate_independent`
* `Verif.Micro.C28_monotone`
* `Verif.Micro.C29_rate_independent`
* `Verif.Micro.C29_rate_dependent_partial`
* `Verif.Micro.C29_perfect`
* `Verif.Micro.C29_violated_rate_dependent`
* `Verif.Micro.C29_error_bound`
* `Verif.Micro.C29_symmetric`
* `Verif.Cry.C30_defined`
* `Verif.Cry.C30_in_plane`
* `Verif.Cry.C30_power`
* `Verif.Cry.C30_gradient`
* `Verif.Cry.C30_tangent`
* `Verif.Cry.C30_symmetric_psd`
* `Verif.Cry.C30_convex`
* `Verif.Cry.C30_value`
* `Verif.Cry.C30_violated`
* `Verif.Cry.C31_reference`
* `Verif.Cry.C31_symmetries`
* `Verif.Cry.C31_frame_indifferent`
* `Verif.Cry.C31_isotropic`
* `Verif.Cry.C31_stress_symmetric`
* `Verif.Cry.C31_plane`
* `Verif.Cry.C32_positive_partial`
* `Verif.Cry.C32_violated`
* `Verif.Cry.C32_necessary`
* `Verif.Cry.C33_split`
* `Verif.Cry.C33_plastic_entries`
* `Verif.Cry.C33_symmetric`
* `Verif.Cry.C33_volume`
* `Verif.Cry.C34_triad_partial`
* `Verif.Cry.C34_pair_partial`
* `Verif.Cry.C34_accepted_partial`
* `Verif.Cry.C34_violated`
* `Verif.Cry.C34_violated_zero`
* `Verif.Cry.C34_rotations`
* `Verif.Cry.C34_convention`
* `Verif.Cry.C35_traction`
* `Verif.Cry.C35_work`
* `Verif.Cry.C35_pressure`
* `Verif.Itf.C36_intra_symmetric`
* `Verif.Itf.C36_bounded`
* `Verif.Itf.C36_sides`
* `Verif.Itf.C36_equal_orientation`
* `Verif.Itf.C36_value`
* `Verif.Itf.C37_nonneg`
* `Verif.Itf.C37_quadratic`
* `Verif.Itf.C37_traction_is_gradient`
* `Verif.Itf.C37_tangents`
* `Verif.Itf.C37_sides`
* `Verif.Itf.C37_compatible`
* `Verif.Itf.C38_bound`
* `Verif.Itf.C38_energy`
* `Verif.Itf.C38_loading`
* `Verif.Itf.C38_unloading`
* `Verif.Itf.C38_continuous`
* `Verif.Itf.C38_dissipative`
* `Verif.Itf.C39_defined_iff`
* `Verif.Itf.C39_defined_partial`
* `Verif.Itf.C39_violated`
* `Verif.Itf.C40_cohesive`
* `Verif.Itf.C40_contact`
* `Verif.Itf.C40_tangents`
* `Verif.Itf.C41_stored_partial`
* `Verif.Itf.C41_stored_general`
* `Verif.Itf.C41_kept`
* `Verif.Itf.C41_violated`
* `Verif.Itf.C42_open`
* `Verif.Itf.C42_penetration`
* `Verif.Itf.C42_continuous`
* `Verif.Itf.C42_tangent_partial`
* `Verif.Itf.C42_violated_scaling`
* `Verif.Itf.C43_degradation`
* `Verif.Itf.C43_derivative_partial`
* `Verif.Itf.C43_violated_uncoupled`
* `Verif.Itf.C43_violated_small_exponents`
* `Verif.Fld.C44_elements`
* `Verif.Fld.C45_partition`
* `Verif.Fld.C45_norms_single`
* `Verif.Fld.C45_norms_blocks`
* `Verif.Fld.C45_layouts_agree`
* `Verif.Fld.C45_distribution`
* `Verif.Load.C46_programme_partial`
* `Verif.Load.C46_monotonic_partial`
* `Verif.Load.C46_terminates`
* `Verif.Load.C46_violated_swallowed`
* `Verif.Load.C46_violated_zero_duration`
* `Verif.Load.C47_skip`
* `Verif.Load.C47_extrema`
* `Verif.Load.C48_components`
* `Verif.Load.C48_monotonic_partial`
* `Verif.Load.C48_violated_cyclic`
* `Verif.Load.C48_dead_branch_jump`
* `Verif.Load.C49_strips`
* `Verif.Load.C49_monotone`
* `Verif.Asm.C50_derivative_partial`
* `Verif.Asm.C50_derivative_exact`
* `Verif.Asm.C50_violated`
* `Verif.Asm.C51_symmetric`
* `Verif.Asm.C51_interface`
* `Verif.Asm.C52_balance`
* `Verif.Asm.C52_defined`
* `Verif.Asm.C52_resists`
* `Verif.Asm.C52_slips`
* `Verif.Asm.C52_compatible`
* `Verif.Asm.C53_values`
* `Verif.Asm.C53_linear_blocks_partial`
* `Verif.Asm.C53_slip_block_partial`
* `Verif.Asm.C53_quotient_partial`
* `Verif.Asm.C53_violated`
* `Verif.Dam.C54_uniform`
* `Verif.Dam.C54_uniform_hanging`
* `Verif.Dam.C54_conserved`
* `Verif.Dam.C54_bounds_partial`
* `Verif.Dam.C54_average_partial`
* `Verif.Dam.C54_violated_projection`
* `Verif.Dam.C54_violated_uninitialised`
* `Verif.Post.C55_formula`
* `Verif.Post.C55_measure`
* `Verif.Post.C55_frame`
* `Verif.Post.C55_plastic`
* `Verif.Post.C55_plastic_3d`
* `Verif.Post.C55_table_3d`
* `Verif.Post.C55_table_2d`
* `Verif.Post.C55_table_2d_partial`
* `Verif.Post.C55_violated`
* `Verif.Post.C56_average`
* `Verif.Post.C56_partition`
* `Verif.Post.C56_bounds`
* `Verif.Post.C56_uniform`
* `Verif.Post.C56_split`
* `Verif.Post.C57_average_2d_partial`
* `Verif.Post.C57_violated_3d`
* `Verif.Post.C57_load_partial`
* `Verif.Post.C57_violated_cyclic`
* `Verif.Post.C58_layout`
* `Verif.Post.C58_titles`
* `Verif.Post.C58_complete`
* `Verif.Post.C58_primary`
* `Verif.Post.C58_values_partial`
* `Verif.Post.C58_fluctuations`
* `Verif.Post.C58_violated`
* `Verif.Util.C59_line_partial`
* `Verif.Util.C59_columns`
* `Verif.Util.C59_twice`
* `Verif.Util.C59_violated`
* `Verif.Util.C60_identical`
* `Verif.Prm.C61_krylov`
* `Verif.Prm.C61_newton`
* `Verif.Prm.C61_line_search`
* `Verif.Prm.C61_numbers`
* `Verif.Prm.C61_default`
* `Verif.Prm.C61_violated`
* `Verif.Drv.C62_krylov_tolerance`
* `Verif.Drv.C63_monolithic`
* `Verif.Drv.C63_monolithic_rate_independent`
* `Verif.Drv.C63_bouncing`
* `Verif.Drv.C63_embracing`
* `Verif.Sol.C63_update_keeps`
* `Verif.Sol.C63_reset_keeps`
* `Verif.Sol.C63_line_search_keeps`
* `Verif.Sol.C63_distribute_establishes`
* `Verif.Par.C64_together_partial`
* `Verif.Par.C64_single_partial`
* `Verif.Par.C64_violated`
* `Verif.Itf.C65_loading_partial`
* `Verif.Itf.C65_unloading_partial`
* `Verif.Itf.C65_violated_scaling`
* `Verif.Asm.C66_semidefinite_partial`
* `Verif.Asm.C66_definite_partial`
* `Verif.Asm.C66_violated`
* `Verif.Fld.C67_plane_partial`
* `Verif.Fld.C67_solid_partial`
* `Verif.Fld.C67_exact_2d`
* `Verif.Fld.C67_exact_3d`
* `Verif.Fld.C67_violated_default`
* `Verif.Asm.C68_tangent_partial`
* `Verif.Asm.C68_violated_coupled`
* `Verif.Asm.C69_residual`
* `Verif.Asm.C69_equilibrium_partial`
* `Verif.Asm.C69_violated`
* `Verif.Post.C70_factor`
* `Verif.Post.C70_split_partial`
* `Verif.Prm.C70_units`
* `Verif.Post.C70_violated`
* `Verif.Post.C71_plane`
* `Verif.Post.C71_solid`
* `Verif.Prm.C72_point`
* `Verif.Prm.C72_similar_partial`
* `Verif.Prm.C72_history`
* `Verif.Prm.C72_violated`
* `Verif.Prm.C73_reported`
* `Verif.Prm.C73_shear_partial`
* `Verif.Prm.C73_violated`
* `Verif.App.C74_boundary_conditions_partial`
* `Verif.App.C74_together`
* `Verif.App.C74_boundary_active`
* `Verif.App.C74_close`
* `Verif.App.C74_violated`
* `Verif.Run.C75_schedule_partial`
* `Verif.Run.C75_last`
* `Verif.Run.C75_count`
* `Verif.Run.C75_command_line`
* `Verif.Run.C75_violated`
* `Verif.Asm.C76_residual`
* `Verif.Asm.C76_balance_partial`
* `Verif.Asm.C76_active_partial`
* `Verif.Asm.C76_uniform`
* `Verif.Asm.C76_boundary`
* `Verif.Asm.C76_violated_boundary`
* `Verif.Asm.C76_violated_microtraction`
* `Verif.Lin.C77_pattern`
* `Verif.Lin.C77_interface`
* `Verif.Lin.C78_internal`
* `Verif.Lin.C78_residual`
* `Verif.Lin.C78_monolithic`
* `Verif.Lin.C78_block`
* `Verif.Lin.C79_reduced`
* `Verif.Lin.C79_monolithic_partial`
* `Verif.Lin.C79_violated`
* `Verif.Prm.C80_cohesive`
* `Verif.Prm.C80_contact`
* `Verif.Prm.C80_microtraction`
* `Verif.Prm.C80_form`
* `Verif.Prm.C80_debug`
* `Verif.Prm.C80_release`
* `Verif.Prm.C80_slip_rows`
* `Verif.Prm.C80_face_partial`
* `Verif.Prm.C80_violated`
* `Verif.Files.C81_accepted`
* `Verif.Files.C81_missing`
* `Verif.Files.C81_round_trip`
* `Verif.Files.C81_refused`
* `Verif.Files.C81_counts`
* `Verif.Files.C81_crystals`
* `Verif.Files.C81_violated_blank`
* `Verif.Files.C81_violated_columns`
* `Verif.Files.C81_violated_ids`
* `Verif.Load.C82_zero`
* `Verif.Load.C82_violated`
* `Verif.Load.C82_unloaded_partial`
* `Verif.Load.C82_monotonic_partial`
* `Verif.Load.C82_cyclic_partial`
* `Verif.Asm.C83_balance_partial`
* `Verif.Asm.C83_accepted_partial`
* `Verif.Asm.C83_run_partial`
* `Verif.Asm.C83_run_accepted_partial`
* `Verif.Asm.C83_stored_nonneg`
* `Verif.Asm.C83_unloaded_partial`
* `Verif.Asm.C83_grains_partial`
* `Verif.Asm.C83_grains_accepted_partial`
* `Verif.Asm.C83_grains_run_partial`
* `Verif.Asm.C83_grains_run_accepted_partial`
* `Verif.Asm.C83_opening_partial`
* `Verif.Asm.C83_opening_accepted_partial`
* `Verif.Asm.C83_opening_run_partial`
* `Verif.Asm.C83_opening_run_accepted_partial`
* `Verif.Asm.C83_violated`
* `Verif.Asm.C84_unique_partial`
* `Verif.Asm.C84_state_partial`
* `Verif.Asm.C84_grains_partial`
* `Verif.Asm.C84_grains_state_partial`
* `Verif.Asm.C84_violated`
* `Verif.Asm.C84_violated_opening`
* `Verif.Post.C85_row_2d`
* `Verif.Post.C85_row_3d`
* `Verif.Post.C85_empty_2d`
* `Verif.Post.C85_averages_2d`
* `Verif.Post.C85_averages_3d`
* `Verif.Post.C86_magnitude`
* `Verif.Post.C86_value`
* `Verif.Post.C86_separate`
* `Verif.Post.C86_names`
* `Verif.Post.C86_violated_sign`
* `Verif.Scr.C87_cell`
* `Verif.Scr.C87_thread`
* `Verif.Scr.C87_schedule`
* `Verif.Scr.C87_limit`
* `Verif.Scr.C87_face_release`
* `Verif.Scr.C87_violated`
* `Verif.Scr.C87_violated_debug`
* `Verif.Itf.C88_two_views`
* `Verif.Itf.C88_energy_value`
* `Verif.Itf.C88_ortiz_partial`
* `Verif.Itf.C88_linear_partial`
* `Verif.Itf.C88_openings`
* `Verif.Itf.C88_violated`
* `Verif.Asm.C89_objective`
* `Verif.Asm.C89_resultant`
* `Verif.Asm.C89_reactions`
* `Verif.Asm.C89_reactions_tolerance`
* `Verif.Drv.C90_same_rate_dependent`
* `Verif.Drv.C90_same_rate_independent`
* `Verif.Drv.C90_same_bouncing`
* `Verif.Drv.C90_same_embracing`
* `Verif.Drv.C90_monolithic`
* `Verif.Drv.C90_rate_independent_partial`
* `Verif.Drv.C90_violated_restart`
* `Verif.Drv.C90_bouncing`
* `Verif.Drv.C90_embracing`
* `Verif.Drv.C90_violated_reduced`
* `Verif.Drv.C90_order`
* `Verif.Drv.C90_order_cases`
* `Verif.Drv.C90_columns`
* `Verif.Drv.C90_violated_table`
* `Verif.Drv.C90_shear_table`
* `Verif.Drv.C90_line_search_table`
* `Verif.Ini.C91_value`
* `Verif.Ini.C91_refused`
* `Verif.Ini.C91_read`
* `Verif.Ini.C91_semi_refused`
* `Verif.Ini.C91_semi_read`
* `Verif.Ini.C91_ranges`
* `Verif.Ini.C91_builds`
* `Verif.Ini.C92_template`
* `Verif.Ini.C92_semi_template`
* `Verif.Ini.C92_copy`
* `Verif.Ini.C92_semi_copy`
* `Verif.Ini.C92_defaults_partial`
* `Verif.Ini.C92_violated_defaults`
* `Verif.Ini.C93_ignored`
* `Verif.Ini.C93_no_effect`
* `Verif.Ini.C93_unchosen`
* `Verif.Ini.C93_violated_start`
* `Verif.Ini.C93_violated_control`
* `Verif.Ini.C93_violated_recorded`
* `Verif.Ini.C94_violated_release`
* `Verif.Ini.C94_violated_elastic`
* `Verif.Drv.C95_same_rate_dependent`
* `Verif.Drv.C95_same_rate_independent`
* `Verif.Drv.C95_same_bouncing`
* `Verif.Drv.C95_same_embracing`
* `Verif.Drv.C95_monolithic`
* `Verif.Drv.C95_monolithic_threw`
* `Verif.Drv.C95_bouncing`
* `Verif.Drv.C95_bouncing_threw`
* `Verif.Drv.C95_embracing`
* `Verif.Drv.C95_count`
* `Verif.Drv.C95_last`
* `Verif.Drv.C95_columns`
* `Verif.Drv.C96_debug_partial`
* `Verif.Drv.C96_violated_exact`
* `Verif.Lin.C97_elastic`
* `Verif.Lin.C97_monolithic_partial`
* `Verif.Lin.C97_bouncing_partial`
* `Verif.Lin.C97_bouncing_iteration`
* `Verif.Lin.C97_embracing_partial`
* `Verif.Lin.C97_violated_equilibrium`
* `Verif.Lin.C97_violated_elastic`
* `Verif.Drv.C98_monolithic`
* `Verif.Drv.C98_monolithic_same`
* `Verif.Drv.C98_monolithic_independent`
* `Verif.Drv.C98_bouncing`
* `Verif.Drv.C98_bouncing_same`
* `Verif.Drv.C98_embracing`
* `Verif.Drv.C98_embracing_same`
* `Verif.Drv.C98_violated_abort_monolithic`
* `Verif.Drv.C98_violated_abort_bouncing`
* `Verif.Drv.C98_violated_abort_embracing`
* `Verif.Drv.C98_violated_abort_bouncing_micro`
* `Verif.Drv.C98_violated_abort_embracing_micro`
* `Verif.Fld.C99_order`
* `Verif.Fld.C99_state`
* `Verif.Fld.C99_constraints`
* `Verif.Fld.C99_copy`
* `Verif.Fld.C99_copy_unready`
* `Verif.Fld.C99_violated_repeat`
* `Verif.Fld.C99_violated_stale`

## Quot.sound, propext (11 theorems)

* `Verif.Ws.Bits.C114_trial`
* `Verif.Ws.Bits.C114_projection`
* `Verif.Sol.C12_history`
* `Verif.Store.C25_one_record_per_point`
* `Verif.Fld.C44_no_gaps_no_overlaps`
* `Verif.Fld.C44_lookup`
* `Verif.Fld.C44_lookup_decides`
* `Verif.Fld.C44_blocks`
* `Verif.Fld.C45_previous_solutions`
* `Verif.Fld.C99_frame`
* `Verif.Fld.C99_violated_counts`

## none (4 theorems)

* `Verif.Sol.C06_two_block_reachable`
* `Verif.Store.C25_symmetric`
* `Verif.Store.C25_keeps_existing`
* `Verif.Fld.C44_shared_displacement`

## propext (2 theorems)

* `Verif.Fld.C99_violated_repeat_extractors`
* `Verif.Fld.C99_violated_shared`

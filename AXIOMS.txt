# theorem: axioms (output of #print axioms, Lean 4.33.0); regenerate with tools/axioms.py
Arboris.C01_transl: propext, Classical.choice, Quot.sound
Arboris.C01_rotx: propext, Classical.choice, Quot.sound
Arboris.C01_roty: propext, Classical.choice, Quot.sound
Arboris.C01_rotz: propext, Classical.choice, Quot.sound
Arboris.C01_mul: propext, Classical.choice, Quot.sound
Arboris.C01_rotzyx: propext, Classical.choice, Quot.sound
Arboris.C01_rotzy: propext, Classical.choice, Quot.sound
Arboris.C01_rotzx: propext, Classical.choice, Quot.sound
Arboris.C01_rotyx: propext, Classical.choice, Quot.sound
Arboris.C01_T_DH: propext, Classical.choice, Quot.sound
Arboris.C01_accepted: propext, Classical.choice, Quot.sound
Arboris.C01_axes: propext, Classical.choice, Quot.sound
Arboris.C02_rotzyx: propext, Classical.choice, Quot.sound
Arboris.C02_rotzy: propext, Classical.choice, Quot.sound
Arboris.C02_rotzx: propext, Classical.choice, Quot.sound
Arboris.C02_rotyx: propext, Classical.choice, Quot.sound
Arboris.C02_T_DH: propext, Classical.choice, Quot.sound
Arboris.C03_inv: propext, Classical.choice, Quot.sound
Arboris.C03_inv_mul: propext, Classical.choice, Quot.sound
Arboris.C04_false: propext, Classical.choice, Quot.sound
Arboris.C04_partial: propext, Classical.choice, Quot.sound
Arboris.C04_refused: propext, Classical.choice, Quot.sound
Arboris.C05_adjoint_mul: propext, Classical.choice, Quot.sound
Arboris.C05_adjoint_one: propext, Classical.choice, Quot.sound
Arboris.C05_iadjoint: propext, Classical.choice, Quot.sound
Arboris.C05_isadjointmatrix: propext, Classical.choice, Quot.sound
Arboris.C05_adjoint_acts: propext, Classical.choice, Quot.sound
Arboris.C06_pdot_mul: propext, Classical.choice, Quot.sound
Arboris.C06_vdot_mul: propext, Classical.choice, Quot.sound
Arboris.C06_pdot_inv: propext, Classical.choice, Quot.sound
Arboris.C06_pdot_sub: propext, Classical.choice, Quot.sound
Arboris.C06_vdot_dot: propext, Classical.choice, Quot.sound
Arboris.C07_dAdjoint: propext, Classical.choice, Quot.sound
Arboris.C08_roundtrip: propext, Classical.choice, Quot.sound
Arboris.C08_angles: propext, Classical.choice, Quot.sound
Arboris.C09_zaligned: propext, Classical.choice, Quot.sound
Arboris.C10_exp: propext, Classical.choice, Quot.sound
Arboris.C10_translation: propext, Classical.choice, Quot.sound
Arboris.C10_small: propext, Classical.choice, Quot.sound
Arboris.C11_partial: propext, Classical.choice, Quot.sound
Arboris.C11_false: propext, Classical.choice, Quot.sound
Arboris.C11_budget_partial: propext, Classical.choice, Quot.sound
Arboris.C12_partial: propext, Classical.choice, Quot.sound
Arboris.C12_itwist_iff_partial: propext, Classical.choice, Quot.sound
Arboris.C12_false: propext, Classical.choice, Quot.sound
Arboris.C12_invariant_partial: propext, Classical.choice, Quot.sound
Arboris.C13_shapes: propext, Classical.choice, Quot.sound
Arboris.C13_values: propext, Classical.choice, Quot.sound
Arboris.C13_accepted: propext, Classical.choice, Quot.sound
Arboris.C13_tolerance: propext, Classical.choice, Quot.sound
Arboris.C14_succeeds: propext, Classical.choice, Quot.sound
Arboris.C14_compose: propext, Classical.choice, Quot.sound
Arboris.C14_energy: propext, Classical.choice, Quot.sound
Arboris.C14_symPD: propext, Classical.choice, Quot.sound
Arboris.C14_structure: propext, Classical.choice, Quot.sound
Arboris.C15_principal: propext, Classical.choice, Quot.sound
Arboris.C15_distinct: propext, Classical.choice, Quot.sound
Arboris.C16_linear: propext, Classical.choice, Quot.sound
Arboris.C16_free: propext, Classical.choice, Quot.sound
Arboris.C16_fixed: propext, Classical.choice, Quot.sound
Arboris.C16_zero: propext, Classical.choice, Quot.sound
Arboris.C17_linear: propext, Classical.choice, Quot.sound
Arboris.C17_free_fixed: propext, Classical.choice, Quot.sound
Arboris.C17_integrate: propext, Classical.choice, Quot.sound
Arboris.C18_linear: propext, Classical.choice, Quot.sound
Arboris.C18_free_fixed: propext, Classical.choice, Quot.sound
Arboris.C19_step: propext, Classical.choice, Quot.sound
Arboris.C20_library_valid: propext, Classical.choice, Quot.sound
Arboris.C20_geometric: propext, Classical.choice, Quot.sound
Arboris.C20_dynamic: propext, Classical.choice, Quot.sound
Arboris.C20_rigid: propext, Classical.choice, Quot.sound
Arboris.C20_no_assertion: propext, Classical.choice, Quot.sound
Arboris.C21_twist: propext, Classical.choice, Quot.sound
Arboris.C21_library_consistent: propext, Classical.choice, Quot.sound
Arboris.C22_columns: propext, Classical.choice, Quot.sound
Arboris.C22_ground: propext, Classical.choice, Quot.sound
Arboris.C23_library_movingJac: propext, Classical.choice, Quot.sound
Arboris.C23_library_ownInvariant: propext, Classical.choice, Quot.sound
Arboris.C23_partial: propext, Classical.choice, Quot.sound
Arboris.C23_oneaxis_partial: propext, Classical.choice, Quot.sound
Arboris.C23_false: propext, Classical.choice, Quot.sound
Arboris.C24_library_moving: propext, Classical.choice, Quot.sound
Arboris.C24_twist_is_velocity: propext, Classical.choice, Quot.sound
Arboris.C25_subframe: propext, Classical.choice, Quot.sound
Arboris.C26_false: propext, Classical.choice, Quot.sound
Arboris.C26_moving_false: propext, Classical.choice, Quot.sound
Arboris.C26_partial: propext, Classical.choice, Quot.sound
Arboris.C26_default_partial: propext, Classical.choice, Quot.sound
Arboris.C27_symmetric: propext, Classical.choice, Quot.sound
Arboris.C27_energy: propext, Classical.choice, Quot.sound
Arboris.C27_psd: propext, Classical.choice, Quot.sound
Arboris.C27_pd: propext, Classical.choice, Quot.sound
Arboris.C27_viscosity: propext, Classical.choice, Quot.sound
Arboris.C28_bias: propext, Classical.choice, Quot.sound
Arboris.C28_small: propext, Classical.choice, Quot.sound
Arboris.C29_partial: propext, Classical.choice, Quot.sound
Arboris.C29_runs_false: propext, Classical.choice, Quot.sound
Arboris.C29_false: propext, Classical.choice, Quot.sound
Arboris.C30_slices: propext, Quot.sound
Arboris.C30_partition: propext, Classical.choice, Quot.sound
Arboris.C30_jointsList: propext, Quot.sound
Arboris.C30_all_joints: propext, Quot.sound
Arboris.C30_before_init: propext
Arboris.C30_empty: none
Arboris.C31_init: propext, Classical.choice, Quot.sound
Arboris.C31_live: propext, Classical.choice, Quot.sound
Arboris.C31_write: propext, Classical.choice, Quot.sound
Arboris.C31_copy: propext, Classical.choice, Quot.sound
Arboris.C31_integrate: propext, Classical.choice, Quot.sound
Arboris.C31_rebind: propext, Classical.choice, Quot.sound
Arboris.C32_motion: propext, Classical.choice, Quot.sound
Arboris.C32_succeeds: propext, Classical.choice, Quot.sound
Arboris.C32_refused: propext, Classical.choice, Quot.sound
Arboris.C33_sum: propext, Classical.choice, Quot.sound
Arboris.C33_perm: propext, Classical.choice, Quot.sound
Arboris.C34_law: propext, Classical.choice, Quot.sound
Arboris.C34_joints: propext, Classical.choice, Quot.sound
Arboris.C34_mixed: propext, Classical.choice, Quot.sound
Arboris.C35_power: propext, Classical.choice, Quot.sound
Arboris.C35_filter: propext, Classical.choice, Quot.sound
Arboris.C36_jointLimits: propext, Classical.choice, Quot.sound
Arboris.C36_ballAndSocket: propext, Classical.choice, Quot.sound
Arboris.C36_softFinger: propext, Classical.choice, Quot.sound
Arboris.C36_invariant: propext, Classical.choice, Quot.sound
Arboris.C36_loop: propext, Classical.choice, Quot.sound
Arboris.C36_final: propext, Classical.choice, Quot.sound
Arboris.C36_stop: propext, Classical.choice, Quot.sound
Arboris.C37_solve: propext, Classical.choice, Quot.sound
Arboris.C37_single: propext, Classical.choice, Quot.sound
Arboris.C38_partial: propext, Classical.choice, Quot.sound
Arboris.C38_iff_partial: propext, Classical.choice, Quot.sound
Arboris.C38_false: propext, Classical.choice, Quot.sound
Arboris.C39_one_dof: propext, Classical.choice, Quot.sound
Arboris.C39_world: propext, Classical.choice, Quot.sound
Arboris.C39_far: propext, Classical.choice, Quot.sound
Arboris.C40_partial: propext, Classical.choice, Quot.sound
Arboris.C40_false: propext, Classical.choice, Quot.sound
Arboris.C41_partial: propext, Classical.choice, Quot.sound
Arboris.C41_false: propext, Classical.choice, Quot.sound
Arboris.C42_free: propext, Classical.choice, Quot.sound
Arboris.C42_contact: propext, Classical.choice, Quot.sound
Arboris.C42_dissipative: propext, Classical.choice, Quot.sound
Arboris.C42_invertible: propext, Classical.choice, Quot.sound
Arboris.C43_removable: propext, Classical.choice, Quot.sound
Arboris.C43_only_active: propext, Classical.choice, Quot.sound
Arboris.C43_released: propext, Classical.choice, Quot.sound
Arboris.C44_power: propext, Classical.choice, Quot.sound
Arboris.C45_run: propext, Classical.choice, Quot.sound
Arboris.C45_times: propext, Classical.choice, Quot.sound
Arboris.C45_oneShot: propext, Classical.choice, Quot.sound
Arboris.C46_not_increasing: propext, Classical.choice, Quot.sound
Arboris.C46_empty: propext, Classical.choice, Quot.sound
Arboris.C46_no_finish: propext, Classical.choice, Quot.sound
Arboris.C47_record: propext, Classical.choice, Quot.sound
Arboris.C48_sphere_sphere: propext, Classical.choice, Quot.sound
Arboris.C48_coincident: propext, Classical.choice, Quot.sound
Arboris.C48_symmetric: propext, Classical.choice, Quot.sound
Arboris.C48_least: propext, Classical.choice, Quot.sound
Arboris.C48_attained: propext, Classical.choice, Quot.sound
Arboris.C48_sort_exists: propext, Classical.choice, Quot.sound
Arboris.C49_box_sphere: propext, Classical.choice, Quot.sound
Arboris.C49_bad_pose: propext, Classical.choice, Quot.sound
Arboris.C50_partial: propext, Classical.choice, Quot.sound
Arboris.C50_false: propext, Classical.choice, Quot.sound
Arboris.C51_sdist_partial: propext, Classical.choice, Quot.sound
Arboris.C51_partial: propext, Classical.choice, Quot.sound
Arboris.C51_rejects: propext, Classical.choice, Quot.sound
Arboris.C51_offset_false: propext, Classical.choice, Quot.sound
Arboris.C51_pose_false: propext, Classical.choice, Quot.sound
Arboris.C51_side_false: propext, Classical.choice, Quot.sound
Arboris.C52_false: propext
Arboris.C52_partial: propext
Arboris.C52_iff_partial: propext
Arboris.C52_expected: propext, Quot.sound
Arboris.C52_documented: propext, Quot.sound
Arboris.C53_mem: propext, Quot.sound
Arboris.C53_once: propext, Classical.choice, Quot.sound
Arboris.C53_other_body: propext, Quot.sound
Arboris.C54_tree: propext, Classical.choice, Quot.sound
Arboris.C54_unique: propext
Arboris.C54_iter: propext, Quot.sound
Arboris.C54_ancestors: propext, Quot.sound
Arboris.C54_grows: propext, Classical.choice, Quot.sound
Arboris.C55_false: propext, Quot.sound
Arboris.C55_refused_partial: propext, Classical.choice, Quot.sound
Arboris.C56_false: propext, Quot.sound
Arboris.C56_partial: propext, Quot.sound
Arboris.C57_in_place_partial: propext, Classical.choice, Quot.sound
Arboris.C57_false: propext, Quot.sound
Arboris.C57_arity: propext, Classical.choice, Quot.sound
Arboris.C58_no_duplicates: propext, Classical.choice, Quot.sound
Arboris.C58_closed: propext, Classical.choice, Quot.sound
Arboris.C58_idempotent: propext, Classical.choice, Quot.sound
Arboris.C58_appends: propext, Quot.sound
Arboris.C58_accepts: propext, Quot.sound
Arboris.C59_calls: propext, Classical.choice, Quot.sound
Arboris.C59_once: propext, Classical.choice, Quot.sound
Arboris.C59_complete: propext, Classical.choice, Quot.sound
Arboris.C59_order: propext, Classical.choice, Quot.sound
Arboris.C60_find: propext, Quot.sound
Arboris.C60_getitem_str: propext, Classical.choice, Quot.sound
Arboris.C60_keyError: propext, Classical.choice, Quot.sound
Arboris.C60_getitem_int: propext, Quot.sound
Arboris.C60_slice: propext, Classical.choice, Quot.sound
Arboris.C60_slice_back: propext, Classical.choice, Quot.sound
Arboris.C60_slice_simple: propext, Classical.choice, Quot.sound
Arboris.C60_slice_reverse: propext, Classical.choice, Quot.sound
Arboris.C60_slice_error: propext, Classical.choice, Quot.sound
Arboris.C60_slice_plain: propext
Arboris.C60_as_dict: propext, Classical.choice, Quot.sound
Arboris.C61_false: propext
Arboris.C61_partial: propext, Quot.sound
Arboris.C62_named: propext, Quot.sound
Arboris.C62_check: propext, Classical.choice, Quot.sound
Arboris.C62_false: propext, Classical.choice, Quot.sound
Arboris.C62_fresh: propext, Classical.choice, Quot.sound
Arboris.C63_energies: propext, Classical.choice, Quot.sound
Arboris.C63_massless: propext, Classical.choice, Quot.sound
Arboris.C63_weight: propext, Classical.choice, Quot.sound
Arboris.C64_position: propext, Classical.choice, Quot.sound
Arboris.C64_jacobian: propext, Classical.choice, Quot.sound
Arboris.C64_tree: propext, Classical.choice, Quot.sound
Arboris.C64_empty: propext, Classical.choice, Quot.sound
Arboris.C65_error_partial: propext, Classical.choice, Quot.sound
Arboris.C65_aligned_partial: propext, Classical.choice, Quot.sound
Arboris.C65_false: propext, Classical.choice, Quot.sound
Arboris.C66_iff_partial: propext, Classical.choice, Quot.sound
Arboris.C66_shapes_partial: propext, Classical.choice, Quot.sound
Arboris.C66_partial: propext, Classical.choice, Quot.sound
Arboris.C66_false: propext, Classical.choice, Quot.sound
Arboris.C67_formula: propext, Classical.choice, Quot.sound
Arboris.C67_range: propext, Classical.choice, Quot.sound
Arboris.C68_stable: propext, Classical.choice, Quot.sound
Arboris.C68_assign: propext, Classical.choice, Quot.sound
Arboris.C68_distinct: propext, Classical.choice, Quot.sound
Arboris.C68_separate: propext, Classical.choice, Quot.sound
Arboris.C69_joint: propext, Classical.choice, Quot.sound
Arboris.C69_other: propext, Classical.choice, Quot.sound
Arboris.C69_zero: propext, Classical.choice, Quot.sound
Arboris.C69_errors: propext, Classical.choice, Quot.sound
Arboris.C70_false: propext, Classical.choice, Quot.sound
Arboris.C70_partial: propext, Classical.choice, Quot.sound
Arboris.C70_never: propext, Classical.choice, Quot.sound
Arboris.C71_parse: propext, Classical.choice, Quot.sound
Arboris.C71_root: propext, Classical.choice, Quot.sound
Arboris.C71_chain: propext, Classical.choice, Quot.sound
Arboris.C71_no_chain: propext, Classical.choice, Quot.sound
Arboris.C71_unique: propext, Classical.choice, Quot.sound
Arboris.C72_legs: propext, Classical.choice, Quot.sound
Arboris.C72_height: propext, Classical.choice, Quot.sound
Arboris.C72_scaling: propext, Classical.choice, Quot.sound
Arboris.C72_mass: propext, Classical.choice, Quot.sound
Arboris.C72_build: propext, Classical.choice, Quot.sound
Arboris.C72_total_mass: propext, Classical.choice, Quot.sound
Arboris.C72_standing: propext, Classical.choice, Quot.sound
Arboris.C72_vertex_feet: propext, Classical.choice, Quot.sound
Arboris.C72_errors: propext, Classical.choice, Quot.sound
Arboris.C73_snake_fixed: propext, Classical.choice, Quot.sound
Arboris.C73_snake_free: propext, Classical.choice, Quot.sound
Arboris.C73_snake_defaults: propext, Classical.choice, Quot.sound
Arboris.C73_snake_errors: propext, Classical.choice, Quot.sound
Arboris.C73_snake_fixed_poses: propext, Classical.choice, Quot.sound
Arboris.C73_snake_free_poses: propext, Classical.choice, Quot.sound
Arboris.C73_simplearm: propext, Classical.choice, Quot.sound
Arboris.C73_simplearm_poses: propext, Classical.choice, Quot.sound
Arboris.C73_shapes: propext, Classical.choice, Quot.sound
Arboris.C73_sphere: propext, Classical.choice, Quot.sound
Arboris.C73_box: propext, Classical.choice, Quot.sound
Arboris.C73_cylinder: propext, Classical.choice, Quot.sound
Arboris.C73_groundplane: propext, Classical.choice, Quot.sound
Arboris.C73_ground: propext, Classical.choice, Quot.sound
Arboris.C73_frames: propext, Classical.choice, Quot.sound
Arboris.C74_energy_partial: propext, Classical.choice, Quot.sound
Arboris.C74_momentum_partial: propext, Classical.choice, Quot.sound
Arboris.C74_succeeds_partial: propext, Classical.choice, Quot.sound
Arboris.C74_false: propext, Classical.choice, Quot.sound
Arboris.C75_frames: propext, Classical.choice, Quot.sound
Arboris.C75_gap_velocity: propext, Classical.choice, Quot.sound
Arboris.C75_row: propext, Classical.choice, Quot.sound
Arboris.C75_velocity: propext, Classical.choice, Quot.sound
Arboris.C76_unique: propext, Classical.choice, Quot.sound
Arboris.C76_partial: propext, Classical.choice, Quot.sound
Arboris.C76_false: propext, Classical.choice, Quot.sound
Arboris.C77_false: propext, Classical.choice, Quot.sound
Arboris.C77_partial: propext, Classical.choice, Quot.sound
Arboris.C78_records: propext, Classical.choice, Quot.sound
Arboris.C78_simulate: propext, Classical.choice, Quot.sound
Arboris.C78_new_joint: propext, Classical.choice, Quot.sound
Arboris.C79_checked_partial: propext, Classical.choice, Quot.sound
Arboris.C79_state_partial: propext, Classical.choice, Quot.sound
Arboris.C79_false: propext, Classical.choice, Quot.sound
Arboris.C79_false_moving: propext, Classical.choice, Quot.sound
Arboris.C80_graft: propext, Quot.sound
Arboris.C80_paths: propext, Quot.sound
Arboris.C80_grafts: propext, Classical.choice, Quot.sound
Arboris.C81_limit: propext, Classical.choice, Quot.sound
Arboris.C81_snake: propext, Classical.choice, Quot.sound
Arboris.C82_partial: propext, Classical.choice, Quot.sound
Arboris.C82_false: propext, Classical.choice, Quot.sound
Arboris.C83_inertial: propext, Classical.choice, Quot.sound
Arboris.C84_load: propext, Classical.choice, Quot.sound
Arboris.C85_errors: propext, Classical.choice, Quot.sound
Arboris.C85_false: propext, Classical.choice, Quot.sound
Arboris.C85_limits_partial: propext, Classical.choice, Quot.sound
Arboris.C86_converges: propext, Classical.choice, Quot.sound
Arboris.C86_tolerance: propext, Classical.choice, Quot.sound
Arboris.C86_hypothesis: propext, Classical.choice, Quot.sound
Arboris.C87_run: propext, Classical.choice, Quot.sound
Arboris.C87_seen: propext, Classical.choice, Quot.sound
Arboris.C87_rigid: propext, Classical.choice, Quot.sound
Arboris.C87_failures: propext, Classical.choice, Quot.sound
Arboris.C87_example: propext, Classical.choice, Quot.sound
Arboris.C88_resume: propext, Classical.choice, Quot.sound
Arboris.C88_shift: propext, Classical.choice, Quot.sound
Arboris.C89_blocks: propext, Classical.choice, Quot.sound
Arboris.C89_run: propext, Classical.choice, Quot.sound
Arboris.C89_example: propext, Classical.choice, Quot.sound
Arboris.C89_weight: propext, Classical.choice, Quot.sound
Arboris.C90_run: propext, Classical.choice, Quot.sound
Arboris.C90_weight: propext, Classical.choice, Quot.sound
Arboris.C91_run_partial: propext, Classical.choice, Quot.sound
Arboris.C91_weight: propext, Classical.choice, Quot.sound
Arboris.C91_false: propext, Classical.choice, Quot.sound
Arboris.C92_motion_partial: propext, Classical.choice, Quot.sound
Arboris.C92_mass_partial: propext, Classical.choice, Quot.sound
Arboris.C92_bias_partial: propext, Classical.choice, Quot.sound
Arboris.C92_weighty_partial: propext, Classical.choice, Quot.sound
Arboris.C92_weight_partial: propext, Classical.choice, Quot.sound
Arboris.C92_false: propext, Classical.choice, Quot.sound
Arboris.C93_run: propext, Classical.choice, Quot.sound
Arboris.C93_weight: propext, Classical.choice, Quot.sound
Arboris.C94_run: propext, Classical.choice, Quot.sound
Arboris.C94_weight: propext, Classical.choice, Quot.sound
Arboris.C95_build: propext, Classical.choice, Quot.sound
Arboris.C95_mass: propext, Classical.choice, Quot.sound
Arboris.C95_shape_names: propext, Classical.choice, Quot.sound
Arboris.C96_keys: propext, Classical.choice, Quot.sound
Arboris.C96_radian: propext, Classical.choice, Quot.sound
Arboris.C96_range: propext, Classical.choice, Quot.sound
Arboris.C96_sides: propext, Classical.choice, Quot.sound
Arboris.C96_zero_posture: propext, Classical.choice, Quot.sound
Arboris.C97_mass: propext, Classical.choice, Quot.sound
Arboris.C97_eyes: propext, Classical.choice, Quot.sound
Arboris.C97_contacts: propext, Classical.choice, Quot.sound
Arboris.C97_hand_numbers: propext, Classical.choice, Quot.sound
Arboris.C97_mirror: propext, Classical.choice, Quot.sound
Arboris.C98_reuse: propext, Classical.choice, Quot.sound
Arboris.C98_chain: propext, Classical.choice, Quot.sound
Arboris.C99_replay: propext, Classical.choice, Quot.sound
Arboris.C99_hdf5: propext, Classical.choice, Quot.sound
Arboris.C99_before: propext, Classical.choice, Quot.sound
Arboris.C99_after: propext, Quot.sound
Arboris.C99_view_false: propext, Classical.choice, Quot.sound
Arboris.C99_shape_false: propext, Classical.choice, Quot.sound
Arboris.C100_drawn: propext, Classical.choice, Quot.sound
Arboris.C100_default: propext, Classical.choice, Quot.sound
Arboris.C100_scene: propext, Classical.choice, Quot.sound
Arboris.C100_plane_false: propext, Classical.choice, Quot.sound
Arboris.C101_unique: propext, Classical.choice, Quot.sound
Arboris.C101_many_false: propext, Classical.choice, Quot.sound
Arboris.C101_ground_false: propext, Classical.choice, Quot.sound
Arboris.C102_inertia: propext, Classical.choice, Quot.sound
Arboris.C103_times: propext, Classical.choice, Quot.sound
Arboris.C103_elapsed: propext, Classical.choice, Quot.sound
Arboris.C103_summary: propext, Classical.choice, Quot.sound
Arboris.C104_stream: propext, Classical.choice, Quot.sound
Arboris.C104_live: propext, Classical.choice, Quot.sound
Arboris.C104_closed: propext, Classical.choice, Quot.sound
Arboris.C104_alone_false: propext, Classical.choice, Quot.sound
Arboris.C105_points: propext, Classical.choice, Quot.sound
Arboris.C105_body: propext, Classical.choice, Quot.sound
Arboris.C105_run: propext, Classical.choice, Quot.sound
Arboris.C105_weight: propext, Classical.choice, Quot.sound
Arboris.C106_run: propext, Classical.choice, Quot.sound
Arboris.C106_weight: propext, Classical.choice, Quot.sound
Arboris.C107_run: propext, Classical.choice, Quot.sound
Arboris.C108_mimic: propext, Classical.choice, Quot.sound
Arboris.C108_mimic_round: propext, Classical.choice, Quot.sound
Arboris.C108_round: propext, Classical.choice, Quot.sound
Arboris.C108_written: propext, Classical.choice, Quot.sound
Arboris.C108_partial: propext, Classical.choice, Quot.sound
Arboris.C108_false: propext, Classical.choice, Quot.sound
Arboris.C108_accent_false: propext, Classical.choice, Quot.sound
Arboris.C108_stable: propext, Classical.choice, Quot.sound
Arboris.C109_essence: propext, Classical.choice, Quot.sound
Arboris.C109_last: propext, Classical.choice, Quot.sound
Arboris.C110_view: propext, Classical.choice, Quot.sound
Arboris.C110_numbers: propext, Classical.choice, Quot.sound
Arboris.C110_written: propext, Classical.choice, Quot.sound
Arboris.C110_partial: propext, Classical.choice, Quot.sound
Arboris.C110_false: propext, Classical.choice, Quot.sound
Arboris.C110_list: propext, Classical.choice, Quot.sound
Arboris.C110_load: propext, Classical.choice, Quot.sound
Arboris.C111_roundtrip: propext, Classical.choice, Quot.sound
Arboris.C111_order: propext, Classical.choice, Quot.sound
Arboris.C111_alone_false: propext, Classical.choice, Quot.sound
Arboris.C111_marked: propext, Classical.choice, Quot.sound
Arboris.C111_refused: propext, Classical.choice, Quot.sound
Arboris.C112_mass: propext, Classical.choice, Quot.sound
Arboris.C112_state: propext, Classical.choice, Quot.sound
Arboris.C112_hstack: propext, Classical.choice, Quot.sound
Arboris.C112_reuse_false: propext, Classical.choice, Quot.sound
Arboris.C113_shapes_partial: propext, Classical.choice, Quot.sound
Arboris.C113_name_false: propext, Classical.choice, Quot.sound
Arboris.C113_plane_false: propext, Classical.choice, Quot.sound
Arboris.C114_times: propext, Classical.choice, Quot.sound
Arboris.C114_steps: propext, Classical.choice, Quot.sound
Arboris.C114_gravity: propext, Classical.choice, Quot.sound
Arboris.C114_written: propext, Classical.choice, Quot.sound
Arboris.C114_writes: propext, Classical.choice, Quot.sound
Arboris.C114_times_false: propext, Classical.choice, Quot.sound
Arboris.C114_marked_false: propext, Classical.choice, Quot.sound
Arboris.C115_convert: propext, Classical.choice, Quot.sound
Arboris.C115_ready: propext, Classical.choice, Quot.sound
Arboris.C115_write: propext, Classical.choice, Quot.sound
Arboris.C115_human36: propext, Classical.choice, Quot.sound
Arboris.C115_others: propext, Classical.choice, Quot.sound
Arboris.C115_fixed: propext, Classical.choice, Quot.sound
Arboris.C115_false: propext, Classical.choice, Quot.sound
Arboris.C116_djac_false: propext, Classical.choice, Quot.sound
Arboris.C116_motion: propext, Classical.choice, Quot.sound
Arboris.C116_human36: propext, Classical.choice, Quot.sound
Arboris.C116_weight: propext, Classical.choice, Quot.sound
Arboris.C116_weight_false: propext, Classical.choice, Quot.sound
Arboris.C117_converges: propext, Classical.choice, Quot.sound
Arboris.C117_tolerance: propext, Classical.choice, Quot.sound
Arboris.C117_order: propext, Classical.choice, Quot.sound
Arboris.C117_dissipates: propext, Classical.choice, Quot.sound
Arboris.C118_runs: propext, Classical.choice, Quot.sound
Arboris.C118_contracts: propext, Classical.choice, Quot.sound
Arboris.C118_settles: propext, Classical.choice, Quot.sound
Arboris.C118_example: propext, Classical.choice, Quot.sound
Arboris.C118_energy: propext, Classical.choice, Quot.sound
Arboris.C119_contact: propext, Classical.choice, Quot.sound
Arboris.C119_far: propext, Classical.choice, Quot.sound
Arboris.C119_once: propext, Classical.choice, Quot.sound
Arboris.C120_run: propext, Classical.choice, Quot.sound
Arboris.C120_above_partial: propext, Classical.choice, Quot.sound
Arboris.C120_rests_partial: propext, Classical.choice, Quot.sound
Arboris.C120_thrown: propext, Classical.choice, Quot.sound
Arboris.C120_false: propext, Classical.choice, Quot.sound
Arboris.C121_back_partial: propext, Classical.choice, Quot.sound
Arboris.C121_never_twice_partial: propext, Classical.choice, Quot.sound
Arboris.C121_inside_partial: propext, Classical.choice, Quot.sound
Arboris.C121_false: propext, Classical.choice, Quot.sound
Arboris.C122_same: propext, Classical.choice, Quot.sound
Arboris.C122_iff: propext, Classical.choice, Quot.sound
Arboris.C122_answers_partial: propext, Classical.choice, Quot.sound
Arboris.C122_frictionless: propext, Classical.choice, Quot.sound
Arboris.C122_false: propext, Classical.choice, Quot.sound
Arboris.C123_step: propext, Classical.choice, Quot.sound
Arboris.C123_run: propext, Classical.choice, Quot.sound
Arboris.C123_example: propext, Classical.choice, Quot.sound
Arboris.C124_balance: propext, Classical.choice, Quot.sound
Arboris.C124_bound: propext, Classical.choice, Quot.sound
Arboris.C124_contact_partial: propext, Classical.choice, Quot.sound
Arboris.C124_false: propext, Classical.choice, Quot.sound
Arboris.C125_line: propext, Classical.choice, Quot.sound
Arboris.C125_line_false: propext, Classical.choice, Quot.sound
Arboris.C125_links: propext, Classical.choice, Quot.sound
Arboris.C125_example: propext, Classical.choice, Quot.sound
Arboris.C126_message: propext, Classical.choice, Quot.sound
Arboris.C126_run: propext, Classical.choice, Quot.sound
Arboris.C126_live: propext, Classical.choice, Quot.sound
Arboris.C126_unnamed_false: propext, Classical.choice, Quot.sound
Arboris.C127_done: propext, Classical.choice, Quot.sound
Arboris.C127_silent: propext, Classical.choice, Quot.sound
Arboris.C127_stopped: propext, Classical.choice, Quot.sound
Arboris.C127_stopped_init: propext, Classical.choice, Quot.sound
Arboris.C127_stopped_finish: propext, Classical.choice, Quot.sound
Arboris.C127_unmoved: propext, Classical.choice, Quot.sound
Arboris.C127_resume: propext, Classical.choice, Quot.sound
Arboris.C127_example: propext, Classical.choice, Quot.sound
Arboris.C128_closes: propext, Classical.choice, Quot.sound
Arboris.C128_only: propext, Classical.choice, Quot.sound
Arboris.C128_run: propext, Classical.choice, Quot.sound
Arboris.C128_example: propext, Classical.choice, Quot.sound
Arboris.C129_run: propext, Classical.choice, Quot.sound
Arboris.C129_hand: propext, Classical.choice, Quot.sound
Arboris.C129_settings: propext, Classical.choice, Quot.sound
Arboris.C129_position: propext, Classical.choice, Quot.sound
Arboris.C129_free: propext, Classical.choice, Quot.sound
Arboris.C129_example: propext, Classical.choice, Quot.sound
Arboris.C129_massless: propext, Classical.choice, Quot.sound
Arboris.C130_converges: propext, Classical.choice, Quot.sound
Arboris.C130_exists: propext, Classical.choice, Quot.sound
Arboris.C130_unique: propext, Classical.choice, Quot.sound
Arboris.C130_runs: propext, Classical.choice, Quot.sound
Arboris.C130_example: propext, Classical.choice, Quot.sound
Arboris.C131_converges: propext, Classical.choice, Quot.sound
Arboris.C131_runs: propext, Classical.choice, Quot.sound
Arboris.C131_exists: propext, Classical.choice, Quot.sound
Arboris.C131_unique: propext, Classical.choice, Quot.sound
Arboris.C131_example: propext, Classical.choice, Quot.sound
Arboris.C132_monitor: propext, Classical.choice, Quot.sound
Arboris.C132_balance: propext, Classical.choice, Quot.sound
Arboris.C132_conserved: propext, Classical.choice, Quot.sound
Arboris.C132_dissipates: propext, Classical.choice, Quot.sound
Arboris.C132_simulations: propext, Classical.choice, Quot.sound
Arboris.C132_drift: propext, Classical.choice, Quot.sound
Arboris.C132_bound: propext, Classical.choice, Quot.sound
Arboris.C132_example: propext, Classical.choice, Quot.sound
Arboris.C133_converges: propext, Classical.choice, Quot.sound
Arboris.C133_exists: propext, Classical.choice, Quot.sound
Arboris.C133_runs: propext, Classical.choice, Quot.sound
Arboris.C134_balance: propext, Classical.choice, Quot.sound
Arboris.C134_dissipates: propext, Classical.choice, Quot.sound
Arboris.C134_conserved: propext, Classical.choice, Quot.sound
Arboris.C134_simulations: propext, Classical.choice, Quot.sound
Arboris.C134_drift: propext, Classical.choice, Quot.sound
Arboris.C134_bound: propext, Classical.choice, Quot.sound
Arboris.C134_example: propext, Classical.choice, Quot.sound
Arboris.C134_monitor: propext, Classical.choice, Quot.sound

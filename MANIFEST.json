{
 "claims": [
  {
   "property": "C01",
   "status": "proved",
   "theorems": [
    "Arboris.C01_transl",
    "Arboris.C01_rotx",
    "Arboris.C01_roty",
    "Arboris.C01_rotz",
    "Arboris.C01_mul",
    "Arboris.C01_rotzyx",
    "Arboris.C01_rotzy",
    "Arboris.C01_rotzx",
    "Arboris.C01_rotyx",
    "Arboris.C01_T_DH",
    "Arboris.C01_accepted",
    "Arboris.C01_axes"
   ],
   "note": ""
  },
  {
   "property": "C02",
   "status": "proved",
   "theorems": [
    "Arboris.C02_rotzyx",
    "Arboris.C02_rotzy",
    "Arboris.C02_rotzx",
    "Arboris.C02_rotyx",
    "Arboris.C02_T_DH"
   ],
   "note": ""
  },
  {
   "property": "C03",
   "status": "proved",
   "theorems": [
    "Arboris.C03_inv",
    "Arboris.C03_inv_mul"
   ],
   "note": ""
  },
  {
   "property": "C04",
   "status": "partial",
   "theorems": [
    "Arboris.C04_false",
    "Arboris.C04_partial",
    "Arboris.C04_refused"
   ],
   "note": "The claim is false of the code (C04_false: a volume-preserving shear passes ishomogeneousmatrix and inv does not invert it). Proved for rigid motions only."
  },
  {
   "property": "C05",
   "status": "proved",
   "theorems": [
    "Arboris.C05_adjoint_mul",
    "Arboris.C05_adjoint_one",
    "Arboris.C05_iadjoint",
    "Arboris.C05_isadjointmatrix",
    "Arboris.C05_adjoint_acts"
   ],
   "note": ""
  },
  {
   "property": "C06",
   "status": "proved",
   "theorems": [
    "Arboris.C06_pdot_mul",
    "Arboris.C06_vdot_mul",
    "Arboris.C06_pdot_inv",
    "Arboris.C06_pdot_sub",
    "Arboris.C06_vdot_dot"
   ],
   "note": ""
  },
  {
   "property": "C07",
   "status": "proved",
   "theorems": [
    "Arboris.C07_dAdjoint"
   ],
   "note": ""
  },
  {
   "property": "C08",
   "status": "proved",
   "theorems": [
    "Arboris.C08_roundtrip",
    "Arboris.C08_angles"
   ],
   "note": ""
  },
  {
   "property": "C09",
   "status": "proved",
   "theorems": [
    "Arboris.C09_zaligned"
   ],
   "note": ""
  },
  {
   "property": "C10",
   "status": "proved",
   "theorems": [
    "Arboris.C10_exp",
    "Arboris.C10_translation",
    "Arboris.C10_small"
   ],
   "note": ""
  },
  {
   "property": "C11",
   "status": "partial",
   "theorems": [
    "Arboris.C11_partial",
    "Arboris.C11_false",
    "Arboris.C11_budget_partial"
   ],
   "note": "False of the code (C11_false: the small-angle branch of exp shrinks det R geometrically until poses are refused). Proved: steps outside the small-angle branch keep the pose rigid for ever; and the number of small-angle steps the tolerance allows (budget)."
  },
  {
   "property": "C12",
   "status": "partial",
   "theorems": [
    "Arboris.C12_partial",
    "Arboris.C12_itwist_iff_partial",
    "Arboris.C12_false",
    "Arboris.C12_invariant_partial"
   ],
   "note": "False for itwist and idadjoint (C12_false, rigidmotion.py:47-49 uses iadjoint for adjoint). All the other attributes are proved; itwist/idadjoint are right exactly when adjoint·twist = iadjoint·twist (iff)."
  },
  {
   "property": "C13",
   "status": "proved",
   "theorems": [
    "Arboris.C13_shapes",
    "Arboris.C13_values",
    "Arboris.C13_accepted",
    "Arboris.C13_tolerance"
   ],
   "note": ""
  },
  {
   "property": "C14",
   "status": "proved",
   "theorems": [
    "Arboris.C14_succeeds",
    "Arboris.C14_compose",
    "Arboris.C14_energy",
    "Arboris.C14_symPD",
    "Arboris.C14_structure"
   ],
   "note": ""
  },
  {
   "property": "C15",
   "status": "proved",
   "theorems": [
    "Arboris.C15_principal",
    "Arboris.C15_distinct"
   ],
   "note": ""
  },
  {
   "property": "C16",
   "status": "proved",
   "theorems": [
    "Arboris.C16_linear",
    "Arboris.C16_free",
    "Arboris.C16_fixed",
    "Arboris.C16_zero"
   ],
   "note": ""
  },
  {
   "property": "C17",
   "status": "proved",
   "theorems": [
    "Arboris.C17_linear",
    "Arboris.C17_free_fixed",
    "Arboris.C17_integrate"
   ],
   "note": ""
  },
  {
   "property": "C18",
   "status": "proved",
   "theorems": [
    "Arboris.C18_linear",
    "Arboris.C18_free_fixed"
   ],
   "note": ""
  },
  {
   "property": "C19",
   "status": "proved",
   "theorems": [
    "Arboris.C19_step"
   ],
   "note": ""
  },
  {
   "property": "C20",
   "status": "proved",
   "theorems": [
    "Arboris.C20_library_valid",
    "Arboris.C20_geometric",
    "Arboris.C20_dynamic",
    "Arboris.C20_rigid",
    "Arboris.C20_no_assertion"
   ],
   "note": ""
  },
  {
   "property": "C21",
   "status": "proved",
   "theorems": [
    "Arboris.C21_twist",
    "Arboris.C21_library_consistent"
   ],
   "note": ""
  },
  {
   "property": "C22",
   "status": "proved",
   "theorems": [
    "Arboris.C22_columns",
    "Arboris.C22_ground"
   ],
   "note": ""
  },
  {
   "property": "C23",
   "status": "partial",
   "theorems": [
    "Arboris.C23_library_movingJac",
    "Arboris.C23_library_ownInvariant",
    "Arboris.C23_partial",
    "Arboris.C23_oneaxis_partial",
    "Arboris.C23_false"
   ],
   "note": "False for multi-axis joints below a moving parent (C23_false), a consequence of C12. Proved for trees whose joints below moving bodies are one-axis, fixed or TxTyTz, and more generally whenever the joint's twist is invariant."
  },
  {
   "property": "C24",
   "status": "proved",
   "theorems": [
    "Arboris.C24_library_moving",
    "Arboris.C24_twist_is_velocity"
   ],
   "note": ""
  },
  {
   "property": "C25",
   "status": "proved",
   "theorems": [
    "Arboris.C25_subframe"
   ],
   "note": ""
  },
  {
   "property": "C26",
   "status": "partial",
   "theorems": [
    "Arboris.C26_false",
    "Arboris.C26_moving_false",
    "Arboris.C26_partial",
    "Arboris.C26_default_partial"
   ],
   "note": "False (C26_false, C26_moving_false: the caller's array is stored without copy). Proved for histories without a write to a shared array."
  },
  {
   "property": "C27",
   "status": "proved",
   "theorems": [
    "Arboris.C27_symmetric",
    "Arboris.C27_energy",
    "Arboris.C27_psd",
    "Arboris.C27_pd",
    "Arboris.C27_viscosity"
   ],
   "note": ""
  },
  {
   "property": "C28",
   "status": "proved",
   "theorems": [
    "Arboris.C28_bias",
    "Arboris.C28_small"
   ],
   "note": ""
  },
  {
   "property": "C29",
   "status": "partial",
   "theorems": [
    "Arboris.C29_partial",
    "Arboris.C29_runs_false",
    "Arboris.C29_false"
   ],
   "note": "False for the same trees as C23 (C29_false), and the simulations of such a mechanism without any force lose energy however small their steps (C29_runs_false). Proved when every joint below a moving body has an invariant own twist."
  },
  {
   "property": "C30",
   "status": "proved",
   "theorems": [
    "Arboris.C30_slices",
    "Arboris.C30_partition",
    "Arboris.C30_jointsList",
    "Arboris.C30_all_joints",
    "Arboris.C30_before_init",
    "Arboris.C30_empty"
   ],
   "note": ""
  },
  {
   "property": "C31",
   "status": "proved",
   "theorems": [
    "Arboris.C31_init",
    "Arboris.C31_live",
    "Arboris.C31_write",
    "Arboris.C31_copy",
    "Arboris.C31_integrate",
    "Arboris.C31_rebind"
   ],
   "note": ""
  },
  {
   "property": "C32",
   "status": "proved",
   "theorems": [
    "Arboris.C32_motion",
    "Arboris.C32_succeeds",
    "Arboris.C32_refused"
   ],
   "note": ""
  },
  {
   "property": "C33",
   "status": "proved",
   "theorems": [
    "Arboris.C33_sum",
    "Arboris.C33_perm"
   ],
   "note": ""
  },
  {
   "property": "C34",
   "status": "proved",
   "theorems": [
    "Arboris.C34_law",
    "Arboris.C34_joints",
    "Arboris.C34_mixed"
   ],
   "note": ""
  },
  {
   "property": "C35",
   "status": "proved",
   "theorems": [
    "Arboris.C35_power",
    "Arboris.C35_filter"
   ],
   "note": ""
  },
  {
   "property": "C36",
   "status": "proved",
   "theorems": [
    "Arboris.C36_jointLimits",
    "Arboris.C36_ballAndSocket",
    "Arboris.C36_softFinger",
    "Arboris.C36_invariant",
    "Arboris.C36_loop",
    "Arboris.C36_final",
    "Arboris.C36_stop"
   ],
   "note": ""
  },
  {
   "property": "C37",
   "status": "proved",
   "theorems": [
    "Arboris.C37_solve",
    "Arboris.C37_single"
   ],
   "note": ""
  },
  {
   "property": "C38",
   "status": "partial",
   "theorems": [
    "Arboris.C38_partial",
    "Arboris.C38_iff_partial",
    "Arboris.C38_false"
   ],
   "note": "False (C38_false): jacobian·gvel is the derivative of the gap plus gap × ω. Proved: the exact value, and equality iff the cross product vanishes."
  },
  {
   "property": "C39",
   "status": "proved",
   "theorems": [
    "Arboris.C39_one_dof",
    "Arboris.C39_world",
    "Arboris.C39_far"
   ],
   "note": ""
  },
  {
   "property": "C40",
   "status": "partial",
   "theorems": [
    "Arboris.C40_partial",
    "Arboris.C40_false"
   ],
   "note": "False (C40_false: when a dof violates its minimum those violating their maximum are left free). Proved when at most one side is violated and the admittance is diagonal on the constraint."
  },
  {
   "property": "C41",
   "status": "partial",
   "theorems": [
    "Arboris.C41_partial",
    "Arboris.C41_false"
   ],
   "note": "False (C41_false: the sticking branch accepts a pulling force inside the ellipsoid). Proved when normal and tangential admittances are not coupled."
  },
  {
   "property": "C42",
   "status": "proved",
   "theorems": [
    "Arboris.C42_free",
    "Arboris.C42_contact",
    "Arboris.C42_dissipative",
    "Arboris.C42_invertible"
   ],
   "note": ""
  },
  {
   "property": "C43",
   "status": "proved",
   "theorems": [
    "Arboris.C43_removable",
    "Arboris.C43_only_active",
    "Arboris.C43_released"
   ],
   "note": ""
  },
  {
   "property": "C44",
   "status": "proved",
   "theorems": [
    "Arboris.C44_power"
   ],
   "note": ""
  },
  {
   "property": "C45",
   "status": "proved",
   "theorems": [
    "Arboris.C45_run",
    "Arboris.C45_times",
    "Arboris.C45_oneShot"
   ],
   "note": ""
  },
  {
   "property": "C46",
   "status": "proved",
   "theorems": [
    "Arboris.C46_not_increasing",
    "Arboris.C46_empty",
    "Arboris.C46_no_finish"
   ],
   "note": ""
  },
  {
   "property": "C47",
   "status": "proved",
   "theorems": [
    "Arboris.C47_record"
   ],
   "note": ""
  },
  {
   "property": "C48",
   "status": "proved",
   "theorems": [
    "Arboris.C48_sphere_sphere",
    "Arboris.C48_coincident",
    "Arboris.C48_symmetric",
    "Arboris.C48_least",
    "Arboris.C48_attained",
    "Arboris.C48_sort_exists"
   ],
   "note": ""
  },
  {
   "property": "C49",
   "status": "proved",
   "theorems": [
    "Arboris.C49_box_sphere",
    "Arboris.C49_bad_pose"
   ],
   "note": ""
  },
  {
   "property": "C50",
   "status": "partial",
   "theorems": [
    "Arboris.C50_partial",
    "Arboris.C50_false"
   ],
   "note": "False for a rotated box (C50_false: normal left in box coordinates). Proved for boxes aligned with the ground."
  },
  {
   "property": "C51",
   "status": "partial",
   "theorems": [
    "Arboris.C51_sdist_partial",
    "Arboris.C51_partial",
    "Arboris.C51_rejects",
    "Arboris.C51_offset_false",
    "Arboris.C51_pose_false",
    "Arboris.C51_side_false"
   ],
   "note": "False in three ways (sign of the offset, pose of the plane's frame ignored, wrong side in penetration: the three _false theorems). Proved: sdist and contact frames for a plane on the ground frame and sdist > 0."
  },
  {
   "property": "C52",
   "status": "partial",
   "theorems": [
    "Arboris.C52_false",
    "Arboris.C52_partial",
    "Arboris.C52_iff_partial",
    "Arboris.C52_expected",
    "Arboris.C52_documented"
   ],
   "note": "False ((Box, Point) accepted, (Point, Box) refused: C52_false). Proved: exact set of pairs on which the two orders agree (iff), and the swap law there."
  },
  {
   "property": "C53",
   "status": "proved",
   "theorems": [
    "Arboris.C53_mem",
    "Arboris.C53_once",
    "Arboris.C53_other_body"
   ],
   "note": ""
  },
  {
   "property": "C54",
   "status": "proved",
   "theorems": [
    "Arboris.C54_tree",
    "Arboris.C54_unique",
    "Arboris.C54_iter",
    "Arboris.C54_ancestors",
    "Arboris.C54_grows"
   ],
   "note": ""
  },
  {
   "property": "C55",
   "status": "partial",
   "theorems": [
    "Arboris.C55_false",
    "Arboris.C55_refused_partial"
   ],
   "note": "False (C55_false: the ground is accepted as the moving body). Proved: every other attempt to close a loop is refused."
  },
  {
   "property": "C56",
   "status": "partial",
   "theorems": [
    "Arboris.C56_false",
    "Arboris.C56_partial"
   ],
   "note": "False (C56_false: the joint keeps its frames after a refused link; earlier links stay). Proved: the body graph itself is unchanged by the refused link."
  },
  {
   "property": "C57",
   "status": "partial",
   "theorems": [
    "Arboris.C57_in_place_partial",
    "Arboris.C57_false",
    "Arboris.C57_arity"
   ],
   "note": "The in-place exchange is proved for success; the claim on failure is false (C57_false)."
  },
  {
   "property": "C58",
   "status": "proved",
   "theorems": [
    "Arboris.C58_no_duplicates",
    "Arboris.C58_closed",
    "Arboris.C58_idempotent",
    "Arboris.C58_appends",
    "Arboris.C58_accepts"
   ],
   "note": ""
  },
  {
   "property": "C59",
   "status": "proved",
   "theorems": [
    "Arboris.C59_calls",
    "Arboris.C59_once",
    "Arboris.C59_complete",
    "Arboris.C59_order"
   ],
   "note": ""
  },
  {
   "property": "C60",
   "status": "proved",
   "theorems": [
    "Arboris.C60_find",
    "Arboris.C60_getitem_str",
    "Arboris.C60_keyError",
    "Arboris.C60_getitem_int",
    "Arboris.C60_slice",
    "Arboris.C60_slice_back",
    "Arboris.C60_slice_simple",
    "Arboris.C60_slice_reverse",
    "Arboris.C60_slice_error",
    "Arboris.C60_slice_plain",
    "Arboris.C60_as_dict"
   ],
   "note": ""
  },
  {
   "property": "C61",
   "status": "partial",
   "theorems": [
    "Arboris.C61_false",
    "Arboris.C61_partial"
   ],
   "note": "False (C61_false: TypeError instead of DuplicateNameError). Proved: some error is raised iff a name is duplicated."
  },
  {
   "property": "C62",
   "status": "partial",
   "theorems": [
    "Arboris.C62_named",
    "Arboris.C62_check",
    "Arboris.C62_false",
    "Arboris.C62_fresh"
   ],
   "note": "Proved for lists; false for generators (C62_false)."
  },
  {
   "property": "C63",
   "status": "proved",
   "theorems": [
    "Arboris.C63_energies",
    "Arboris.C63_massless",
    "Arboris.C63_weight"
   ],
   "note": ""
  },
  {
   "property": "C64",
   "status": "proved",
   "theorems": [
    "Arboris.C64_position",
    "Arboris.C64_jacobian",
    "Arboris.C64_tree",
    "Arboris.C64_empty"
   ],
   "note": ""
  },
  {
   "property": "C65",
   "status": "partial",
   "theorems": [
    "Arboris.C65_error_partial",
    "Arboris.C65_aligned_partial",
    "Arboris.C65_false"
   ],
   "note": "False (C65_false). Proved: the exact error term, and equality when centres of mass are at the origins of bodies."
  },
  {
   "property": "C66",
   "status": "partial",
   "theorems": [
    "Arboris.C66_iff_partial",
    "Arboris.C66_shapes_partial",
    "Arboris.C66_partial",
    "Arboris.C66_false"
   ],
   "note": "False when states or model are saved (C66_false). Proved: exact condition of success (iff) and the content of the file for transforms."
  },
  {
   "property": "C67",
   "status": "proved",
   "theorems": [
    "Arboris.C67_formula",
    "Arboris.C67_range"
   ],
   "note": ""
  },
  {
   "property": "C68",
   "status": "proved",
   "theorems": [
    "Arboris.C68_stable",
    "Arboris.C68_assign",
    "Arboris.C68_distinct",
    "Arboris.C68_separate"
   ],
   "note": ""
  },
  {
   "property": "C69",
   "status": "proved",
   "theorems": [
    "Arboris.C69_joint",
    "Arboris.C69_other",
    "Arboris.C69_zero",
    "Arboris.C69_errors"
   ],
   "note": ""
  },
  {
   "property": "C70",
   "status": "partial",
   "theorems": [
    "Arboris.C70_false",
    "Arboris.C70_partial",
    "Arboris.C70_never"
   ],
   "note": "False for every model and every non-empty prefix or suffix (C70_false, C70_never). With empty prefix and suffix see C84."
  },
  {
   "property": "C71",
   "status": "proved",
   "theorems": [
    "Arboris.C71_parse",
    "Arboris.C71_root",
    "Arboris.C71_chain",
    "Arboris.C71_no_chain",
    "Arboris.C71_unique"
   ],
   "note": ""
  },
  {
   "property": "C72",
   "status": "proved",
   "theorems": [
    "Arboris.C72_legs",
    "Arboris.C72_height",
    "Arboris.C72_scaling",
    "Arboris.C72_mass",
    "Arboris.C72_build",
    "Arboris.C72_total_mass",
    "Arboris.C72_standing",
    "Arboris.C72_vertex_feet",
    "Arboris.C72_errors"
   ],
   "note": ""
  },
  {
   "property": "C73",
   "status": "proved",
   "theorems": [
    "Arboris.C73_snake_fixed",
    "Arboris.C73_snake_free",
    "Arboris.C73_snake_defaults",
    "Arboris.C73_snake_errors",
    "Arboris.C73_snake_fixed_poses",
    "Arboris.C73_snake_free_poses",
    "Arboris.C73_simplearm",
    "Arboris.C73_simplearm_poses",
    "Arboris.C73_shapes",
    "Arboris.C73_sphere",
    "Arboris.C73_box",
    "Arboris.C73_cylinder",
    "Arboris.C73_groundplane",
    "Arboris.C73_ground",
    "Arboris.C73_frames"
   ],
   "note": ""
  },
  {
   "property": "C74",
   "status": "partial",
   "theorems": [
    "Arboris.C74_energy_partial",
    "Arboris.C74_momentum_partial",
    "Arboris.C74_succeeds_partial",
    "Arboris.C74_false"
   ],
   "note": "The energy part is false (C74_false). Proved: success, momentum, and energy when the gyroscopic matrix does no work on the new velocity."
  },
  {
   "property": "C75",
   "status": "proved",
   "theorems": [
    "Arboris.C75_frames",
    "Arboris.C75_gap_velocity",
    "Arboris.C75_row",
    "Arboris.C75_velocity"
   ],
   "note": ""
  },
  {
   "property": "C76",
   "status": "partial",
   "theorems": [
    "Arboris.C76_unique",
    "Arboris.C76_partial",
    "Arboris.C76_false"
   ],
   "note": "False in flat mode for moving sub-frames (C76_false). Proved in hierarchical mode and in flat mode for the other frames."
  },
  {
   "property": "C77",
   "status": "partial",
   "theorems": [
    "Arboris.C77_false",
    "Arboris.C77_partial"
   ],
   "note": "False with coupled or anisotropic admittance (C77_false). Proved for isotropic uncoupled contacts."
  },
  {
   "property": "C78",
   "status": "proved",
   "theorems": [
    "Arboris.C78_records",
    "Arboris.C78_simulate",
    "Arboris.C78_new_joint"
   ],
   "note": ""
  },
  {
   "property": "C79",
   "status": "partial",
   "theorems": [
    "Arboris.C79_checked_partial",
    "Arboris.C79_state_partial",
    "Arboris.C79_false",
    "Arboris.C79_false_moving"
   ],
   "note": "False (C79_false, C79_false_moving: the check sees exhausted generators). Proved for joints' states and for hierarchical mode without moving sub-frames."
  },
  {
   "property": "C80",
   "status": "proved",
   "theorems": [
    "Arboris.C80_graft",
    "Arboris.C80_paths",
    "Arboris.C80_grafts"
   ],
   "note": ""
  },
  {
   "property": "C81",
   "status": "proved",
   "theorems": [
    "Arboris.C81_limit",
    "Arboris.C81_snake"
   ],
   "note": ""
  },
  {
   "property": "C82",
   "status": "partial",
   "theorems": [
    "Arboris.C82_partial",
    "Arboris.C82_false"
   ],
   "note": "False for the inertia of the hands (C82_false). Proved for all the other pairs of segments."
  },
  {
   "property": "C83",
   "status": "proved",
   "theorems": [
    "Arboris.C83_inertial"
   ],
   "note": ""
  },
  {
   "property": "C84",
   "status": "proved",
   "theorems": [
    "Arboris.C84_load"
   ],
   "note": ""
  },
  {
   "property": "C85",
   "status": "partial",
   "theorems": [
    "Arboris.C85_errors",
    "Arboris.C85_false",
    "Arboris.C85_limits_partial"
   ],
   "note": "False as soon as one joint has no limit (C85_false, C85_errors). Proved for models whose joints all have limits."
  },
  {
   "property": "C86",
   "status": "proved",
   "theorems": [
    "Arboris.C86_converges",
    "Arboris.C86_tolerance",
    "Arboris.C86_hypothesis"
   ],
   "note": ""
  },
  {
   "property": "C87",
   "status": "proved",
   "theorems": [
    "Arboris.C87_run",
    "Arboris.C87_seen",
    "Arboris.C87_rigid",
    "Arboris.C87_failures",
    "Arboris.C87_example"
   ],
   "note": ""
  },
  {
   "property": "C88",
   "status": "proved",
   "theorems": [
    "Arboris.C88_resume",
    "Arboris.C88_shift"
   ],
   "note": ""
  },
  {
   "property": "C89",
   "status": "proved",
   "theorems": [
    "Arboris.C89_blocks",
    "Arboris.C89_run",
    "Arboris.C89_example",
    "Arboris.C89_weight"
   ],
   "note": ""
  },
  {
   "property": "C90",
   "status": "proved",
   "theorems": [
    "Arboris.C90_run",
    "Arboris.C90_weight"
   ],
   "note": ""
  },
  {
   "property": "C91",
   "status": "partial",
   "theorems": [
    "Arboris.C91_run_partial",
    "Arboris.C91_weight",
    "Arboris.C91_false"
   ],
   "note": "C91_false: a body of 1e-11 kg is treated differently once expressed in grams (threshold 1e-10 on mass[5,5])."
  },
  {
   "property": "C92",
   "status": "partial",
   "theorems": [
    "Arboris.C92_motion_partial",
    "Arboris.C92_mass_partial",
    "Arboris.C92_bias_partial",
    "Arboris.C92_weighty_partial",
    "Arboris.C92_weight_partial",
    "Arboris.C92_false"
   ],
   "note": "C92_false: world.nleffects (the matrix) is not preserved: two unit masses at distance 1; its product with the current velocity is (C92_bias_partial)."
  },
  {
   "property": "C93",
   "status": "proved",
   "theorems": [
    "Arboris.C93_run",
    "Arboris.C93_weight"
   ],
   "note": ""
  },
  {
   "property": "C94",
   "status": "proved",
   "theorems": [
    "Arboris.C94_run",
    "Arboris.C94_weight"
   ],
   "note": ""
  },
  {
   "property": "C95",
   "status": "proved",
   "theorems": [
    "Arboris.C95_build",
    "Arboris.C95_mass",
    "Arboris.C95_shape_names"
   ],
   "note": ""
  },
  {
   "property": "C96",
   "status": "proved",
   "theorems": [
    "Arboris.C96_keys",
    "Arboris.C96_radian",
    "Arboris.C96_range",
    "Arboris.C96_sides",
    "Arboris.C96_zero_posture"
   ],
   "note": ""
  },
  {
   "property": "C97",
   "status": "proved",
   "theorems": [
    "Arboris.C97_mass",
    "Arboris.C97_eyes",
    "Arboris.C97_contacts",
    "Arboris.C97_hand_numbers",
    "Arboris.C97_mirror"
   ],
   "note": ""
  },
  {
   "property": "C98",
   "status": "proved",
   "theorems": [
    "Arboris.C98_reuse",
    "Arboris.C98_chain"
   ],
   "note": ""
  },
  {
   "property": "C99",
   "status": "partial",
   "theorems": [
    "Arboris.C99_replay",
    "Arboris.C99_hdf5",
    "Arboris.C99_before",
    "Arboris.C99_after",
    "Arboris.C99_view_false",
    "Arboris.C99_shape_false"
   ],
   "note": "Partial: proved (C99_replay, C99_hdf5) for good names (ground named 'ground', frame names distinct, none equal to a shape's id) and numbers written exactly (the rounding of '%f' texts is not modelled as an error). C99_shape_false: a shape named like a body takes its id and the body does not move in the animation. C99_view_false: view() with default arguments raises NameError."
  },
  {
   "property": "C100",
   "status": "partial",
   "theorems": [
    "Arboris.C100_drawn",
    "Arboris.C100_default",
    "Arboris.C100_scene",
    "Arboris.C100_plane_false"
   ],
   "note": "Full for the solids (C100_drawn, C100_scene); the documented plane is not the one drawn (C100_plane_false, consistent with C51)."
  },
  {
   "property": "C101",
   "status": "partial",
   "theorems": [
    "Arboris.C101_unique",
    "Arboris.C101_many_false",
    "Arboris.C101_ground_false"
   ],
   "note": "C101_unique under the capacity condition; without it false (C101_many_false, C101_ground_false hold for every world meeting their hypotheses)."
  },
  {
   "property": "C102",
   "status": "proved",
   "theorems": [
    "Arboris.C102_inertia"
   ],
   "note": "Outside the 1e-9 band of rotzyx_angles (C08)."
  },
  {
   "property": "C103",
   "status": "proved",
   "theorems": [
    "Arboris.C103_times",
    "Arboris.C103_elapsed",
    "Arboris.C103_summary"
   ],
   "note": "The clock is arbitrary; the summary is represented by its four numbers."
  },
  {
   "property": "C104",
   "status": "partial",
   "theorems": [
    "Arboris.C104_stream",
    "Arboris.C104_live",
    "Arboris.C104_closed",
    "Arboris.C104_alone_false"
   ],
   "note": "False when nobody connects: updates do nothing, but finish raises AttributeError (only socket.error is caught): C104_alone_false. Proved: the stream can be read (C104_stream) and the viewer shows the current poses (C104_live), closed viewers are harmless. Numbers written exactly: parameter (Python 2's str keeps 12 digits); a send that succeeds is assumed to send everything."
  },
  {
   "property": "C105",
   "status": "proved",
   "theorems": [
    "Arboris.C105_points",
    "Arboris.C105_body",
    "Arboris.C105_run",
    "Arboris.C105_weight"
   ],
   "note": "Worlds without constraints; signs on the three axes (one plane, or several). C105_points and C105_body say what the image is. Real numbers, not floats."
  },
  {
   "property": "C106",
   "status": "proved",
   "theorems": [
    "Arboris.C106_run",
    "Arboris.C106_weight"
   ],
   "note": "Worlds without constraints. Unlike the unit of mass (C91), no threshold of the code compares a length with a constant on this path."
  },
  {
   "property": "C107",
   "status": "proved",
   "theorems": [
    "Arboris.C107_run"
   ],
   "note": "The mirror maps each body to itself: symmetric mechanisms whose left and right limbs are exchanged are not covered by this theorem."
  },
  {
   "property": "C108",
   "status": "partial",
   "theorems": [
    "Arboris.C108_mimic",
    "Arboris.C108_mimic_round",
    "Arboris.C108_round",
    "Arboris.C108_written",
    "Arboris.C108_partial",
    "Arboris.C108_false",
    "Arboris.C108_accent_false",
    "Arboris.C108_stable"
   ],
   "note": "Full claim false (C108_false: mimic is not written; C108_accent_false). C108_mimic, C108_mimic_round: what is read and would be written of a mimic. Parameters: how numbers are printed and read (Reads: printed as words without blanks, read as rd x; Exact: numbers read from files are printed exactly). XML trees as minidom gives them; the lexing of the text is not modelled."
  },
  {
   "property": "C109",
   "status": "proved",
   "theorems": [
    "Arboris.C109_essence",
    "Arboris.C109_last"
   ],
   "note": "The vocabulary (elements and attributes that are read) is the table kidsRead/attrsRead of Spec/UrdfXml."
  },
  {
   "property": "C110",
   "status": "partial",
   "theorems": [
    "Arboris.C110_view",
    "Arboris.C110_numbers",
    "Arboris.C110_written",
    "Arboris.C110_partial",
    "Arboris.C110_false",
    "Arboris.C110_list",
    "Arboris.C110_load"
   ],
   "note": "C110_false: axis y. C110_partial lists all outcomes for an axis which is not three words. C110_load composes C109 with C84. C110_view: the elements load uses are those of the file."
  },
  {
   "property": "C111",
   "status": "partial",
   "theorems": [
    "Arboris.C111_roundtrip",
    "Arboris.C111_order",
    "Arboris.C111_alone_false",
    "Arboris.C111_marked",
    "Arboris.C111_refused"
   ],
   "note": "Matlab commands as data (Item), executed by a model of convert_mat2py.m; how numbers are printed is not modelled (str() of long arrays breaks lines inside Matlab brackets). C111_alone_false: a single free body: hstack of nothing is a ValueError. C111_marked holds of every world, whatever the generator's past. C111_refused: any other joint gives the generator's error."
  },
  {
   "property": "C112",
   "status": "partial",
   "theorems": [
    "Arboris.C112_mass",
    "Arboris.C112_state",
    "Arboris.C112_hstack",
    "Arboris.C112_reuse_false"
   ],
   "note": "C112_mass, C112_state full; C112_reuse_false: reusing a generator always raises ValueError."
  },
  {
   "property": "C113",
   "status": "partial",
   "theorems": [
    "Arboris.C113_shapes_partial",
    "Arboris.C113_name_false",
    "Arboris.C113_plane_false"
   ],
   "note": "C113_shapes_partial: distinct body names and no planes; C113_name_false, C113_plane_false: the full claim is false without either."
  },
  {
   "property": "C114",
   "status": "partial",
   "theorems": [
    "Arboris.C114_times",
    "Arboris.C114_steps",
    "Arboris.C114_gravity",
    "Arboris.C114_written",
    "Arboris.C114_writes",
    "Arboris.C114_times_false",
    "Arboris.C114_marked_false"
   ],
   "note": "C114_times, C114_steps, C114_gravity, C114_written, C114_writes full; C114_times_false (times 0, 1, 3 give AttributeError), C114_marked_false."
  },
  {
   "property": "C115",
   "status": "partial",
   "theorems": [
    "Arboris.C115_convert",
    "Arboris.C115_ready",
    "Arboris.C115_write",
    "Arboris.C115_human36",
    "Arboris.C115_others",
    "Arboris.C115_fixed",
    "Arboris.C115_false"
   ],
   "note": "C115_convert, C115_ready, C115_write, C115_human36, C115_others full for free roots; C115_fixed and C115_false: a root that is not free, after which nothing of the world can be written. Constraints are numbers in this model; friction not modelled."
  },
  {
   "property": "C116",
   "status": "partial",
   "theorems": [
    "Arboris.C116_djac_false",
    "Arboris.C116_motion",
    "Arboris.C116_human36",
    "Arboris.C116_weight",
    "Arboris.C116_weight_false"
   ],
   "note": "C116_motion, C116_human36, C116_weight full; C116_weight_false (a default human36 gains 20 tons), C116_djac_false (the djac of the joints of several rotations is wrong, C12; that of the hinges is not)."
  },
  {
   "property": "C117",
   "status": "proved",
   "theorems": [
    "Arboris.C117_converges",
    "Arboris.C117_tolerance",
    "Arboris.C117_order",
    "Arboris.C117_dissipates"
   ],
   "note": "C117_converges, C117_tolerance, C117_order, C117_dissipates full for limits of one-dof joints and ball-and-sockets. Hypothesis: the admittance seen by the active constraints is symmetric positive definite (C86_hypothesis says when). Convergence is with the number of iterations: no claim that the default 1000 suffice. Contacts with friction are not covered here (C41, C42, C77)."
  },
  {
   "property": "C118",
   "status": "proved",
   "theorems": [
    "Arboris.C118_runs",
    "Arboris.C118_contracts",
    "Arboris.C118_settles",
    "Arboris.C118_example",
    "Arboris.C118_energy"
   ],
   "note": "C118_energy, C118_runs, C118_contracts, C118_settles, C118_example: full for mechanisms whose joints are Tx, Ty, Tz, TxTyTz or fixed, without constraints. Mechanisms that turn are not covered (the nonlinear effects are explicit in the scheme). Convergence needs all dofs driven by one controller with strictly positive kp."
  },
  {
   "property": "C119",
   "status": "proved",
   "theorems": [
    "Arboris.C119_contact",
    "Arboris.C119_far",
    "Arboris.C119_once"
   ],
   "note": "C119_contact, C119_far, C119_once: full for one contact whose relative velocities are all reachable. Several contacts: C41, C42, C77 (per solve)."
  },
  {
   "property": "C120",
   "status": "partial",
   "theorems": [
    "Arboris.C120_run",
    "Arboris.C120_above_partial",
    "Arboris.C120_rests_partial",
    "Arboris.C120_thrown",
    "Arboris.C120_false"
   ],
   "note": "C120_run full (exact trajectory and contact force of the whole simulation). Never below the ground is false for long steps (C120_false: steps of 1 s, default proximity); C120_above_partial and C120_rests_partial prove it, and the landing, when g H^2 <= proximity (with the default 0.02 m: steps up to 45 ms). C120_thrown: what happens to a ball found below the ground."
  },
  {
   "property": "C121",
   "status": "partial",
   "theorems": [
    "Arboris.C121_back_partial",
    "Arboris.C121_never_twice_partial",
    "Arboris.C121_inside_partial",
    "Arboris.C121_false"
   ],
   "note": "False in general (C121_false: 10 m/s, steps of 1 s). C121_back_partial, C121_never_twice_partial, C121_inside_partial are what holds, for one JointLimits on a one-dof joint in any world, where the dof has a positive admittance. Several limits at once: C117 (the solver converges)."
  },
  {
   "property": "C122",
   "status": "partial",
   "theorems": [
    "Arboris.C122_same",
    "Arboris.C122_iff",
    "Arboris.C122_answers_partial",
    "Arboris.C122_frictionless",
    "Arboris.C122_false"
   ],
   "note": "False in general (C122_false, C122_frictionless). C122_iff is the exact set of inputs on which solve raises; C122_answers_partial is what holds; C122_same links the raising and the total model."
  },
  {
   "property": "C123",
   "status": "proved",
   "theorems": [
    "Arboris.C123_step",
    "Arboris.C123_run",
    "Arboris.C123_example"
   ],
   "note": "C123_step: any world, any constraints between bodies (contacts and ball-and-sockets), linear and angular. C123_run: whole simulations of translating bodies. The exceptions a contact can raise are in C119 and C122."
  },
  {
   "property": "C124",
   "status": "partial",
   "theorems": [
    "Arboris.C124_balance",
    "Arboris.C124_bound",
    "Arboris.C124_contact_partial",
    "Arboris.C124_false"
   ],
   "note": "False in general (C124_false). C124_balance (exact balance), C124_bound, C124_contact_partial are what holds, for one contact in a world of any size."
  },
  {
   "property": "C125",
   "status": "partial",
   "theorems": [
    "Arboris.C125_line",
    "Arboris.C125_line_false",
    "Arboris.C125_links",
    "Arboris.C125_example"
   ],
   "note": "The claim about the scene is proved (C125_links); the claim about create_line is false for other starts (C125_line gives what is drawn, C125_line_false)."
  },
  {
   "property": "C126",
   "status": "partial",
   "theorems": [
    "Arboris.C126_message",
    "Arboris.C126_run",
    "Arboris.C126_live",
    "Arboris.C126_unnamed_false"
   ],
   "note": "Proved when the scene was written from this world (which names the frames); false without names (C126_unnamed_false)."
  },
  {
   "property": "C127",
   "status": "proved",
   "theorems": [
    "Arboris.C127_done",
    "Arboris.C127_silent",
    "Arboris.C127_stopped",
    "Arboris.C127_stopped_init",
    "Arboris.C127_stopped_finish",
    "Arboris.C127_unmoved",
    "Arboris.C127_resume",
    "Arboris.C127_example"
   ],
   "note": "Proved. Observers are supposed to change nothing but themselves. BallAndSocketConstraint.update keeps the force of the last solve, so it is not among the constraints of C127_resume."
  },
  {
   "property": "C128",
   "status": "proved",
   "theorems": [
    "Arboris.C128_closes",
    "Arboris.C128_only",
    "Arboris.C128_run",
    "Arboris.C128_example"
   ],
   "note": "Proved for mechanisms that slide, where the gap is affine in the joint coordinates; with rotations the constraint closes the gap to first order only (C37, C38). One ball-and-socket constraint is registered."
  },
  {
   "property": "C129",
   "status": "proved",
   "theorems": [
    "Arboris.C129_run",
    "Arboris.C129_hand",
    "Arboris.C129_settings",
    "Arboris.C129_position",
    "Arboris.C129_free",
    "Arboris.C129_example",
    "Arboris.C129_massless"
   ],
   "note": "C129_run: simulate with the constants = simulate without. C129_hand: any history after an init. C129_settings, C129_position: after any history the settings and masses are those the script assigned; an assigned position (C129_free: an assigned pose of a free joint) changes nothing else. C129_example, C129_massless: changed gravity without effect until the next init, a body given mass after init has no weight. The `init` of JointLimits (its jacobian) stays a hypothesis (C121)."
  },
  {
   "property": "C130",
   "status": "proved",
   "theorems": [
    "Arboris.C130_converges",
    "Arboris.C130_exists",
    "Arboris.C130_unique",
    "Arboris.C130_runs",
    "Arboris.C130_example"
   ],
   "note": "C130_converges (error of order one), C130_exists, C130_unique (the exact motion), C130_runs (no exception), C130_example (the crane of C118, one joint with a spring and a damper, the other free to fall)."
  },
  {
   "property": "C131",
   "status": "proved",
   "theorems": [
    "Arboris.C131_converges",
    "Arboris.C131_runs",
    "Arboris.C131_exists",
    "Arboris.C131_unique",
    "Arboris.C131_example"
   ],
   "note": "C131_converges (error of order one), C131_exists, C131_unique (the exact motion), C131_runs (no exception), C131_example (a double pendulum under its weight with a spring and a damper)."
  },
  {
   "property": "C132",
   "status": "proved",
   "theorems": [
    "Arboris.C132_monitor",
    "Arboris.C132_balance",
    "Arboris.C132_conserved",
    "Arboris.C132_dissipates",
    "Arboris.C132_simulations",
    "Arboris.C132_drift",
    "Arboris.C132_bound",
    "Arboris.C132_example"
   ],
   "note": "All proved, for the mechanisms stated (a hypothesis of the claim: for joints with several axes on moving bodies it is false of the code, C29_runs_false). Example: double pendulum."
  },
  {
   "property": "C133",
   "status": "proved",
   "theorems": [
    "Arboris.C133_converges",
    "Arboris.C133_exists",
    "Arboris.C133_runs"
   ],
   "note": "Existence of the exact motion during some time from each state with an invertible mass matrix is C133_exists. Runs with small steps do not raise: C133_runs (no singular matrix; the poses of free joints computed with the truncated series, and those of the bodies, pass ishomogeneousmatrix; controllers find values). Weight and PD controllers are included (FlyPath.law, FlyingWorld); bodies have the mass matrix of a rigid body (IsRigidMass)."
  },
  {
   "property": "C134",
   "status": "proved",
   "theorems": [
    "Arboris.C134_balance",
    "Arboris.C134_dissipates",
    "Arboris.C134_conserved",
    "Arboris.C134_simulations",
    "Arboris.C134_drift",
    "Arboris.C134_bound",
    "Arboris.C134_example",
    "Arboris.C134_monitor"
   ],
   "note": "Balance, conservation, dissipation of the exact motion; drift and bound for the simulations, and what an EnergyMonitor logs (C134_monitor); a body thrown and spinning with its weight shows that the hypotheses can be met."
  }
 ]
}
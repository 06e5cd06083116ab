{
 "C04": {
  "note": "The claim is false of the code (C04_false: a volume-preserving shear passes ishomogeneousmatrix and inv does not invert it). Proved for rigid motions only."
 },
 "C11": {
  "note": "False of the code (C11_false: the small-angle branch of exp shrinks det R geometrically until poses are refused). Proved: steps outside the small-angle branch keep the pose rigid for ever; and the number of small-angle steps the tolerance allows (budget)."
 },
 "C12": {
  "note": "False for itwist and idadjoint (C12_false, rigidmotion.py:47-49 uses iadjoint for adjoint). All the other attributes are proved; itwist/idadjoint are right exactly when adjoint·twist = iadjoint·twist (iff)."
 },
 "C23": {
  "note": "False for multi-axis joints below a moving parent (C23_false), a consequence of C12. Proved for trees whose joints below moving bodies are one-axis, fixed or TxTyTz, and more generally whenever the joint's twist is invariant."
 },
 "C26": {
  "note": "False (C26_false, C26_moving_false: the caller's array is stored without copy). Proved for histories without a write to a shared array."
 },
 "C29": {
  "note": "False for the same trees as C23 (C29_false), and the simulations of such a mechanism without any force lose energy however small their steps (C29_runs_false). Proved when every joint below a moving body has an invariant own twist."
 },
 "C38": {
  "note": "False (C38_false): jacobian·gvel is the derivative of the gap plus gap × ω. Proved: the exact value, and equality iff the cross product vanishes."
 },
 "C40": {
  "note": "False (C40_false: when a dof violates its minimum those violating their maximum are left free). Proved when at most one side is violated and the admittance is diagonal on the constraint."
 },
 "C41": {
  "note": "False (C41_false: the sticking branch accepts a pulling force inside the ellipsoid). Proved when normal and tangential admittances are not coupled."
 },
 "C50": {
  "note": "False for a rotated box (C50_false: normal left in box coordinates). Proved for boxes aligned with the ground."
 },
 "C51": {
  "note": "False in three ways (sign of the offset, pose of the plane's frame ignored, wrong side in penetration: the three _false theorems). Proved: sdist and contact frames for a plane on the ground frame and sdist > 0."
 },
 "C52": {
  "note": "False ((Box, Point) accepted, (Point, Box) refused: C52_false). Proved: exact set of pairs on which the two orders agree (iff), and the swap law there."
 },
 "C55": {
  "note": "False (C55_false: the ground is accepted as the moving body). Proved: every other attempt to close a loop is refused."
 },
 "C56": {
  "note": "False (C56_false: the joint keeps its frames after a refused link; earlier links stay). Proved: the body graph itself is unchanged by the refused link."
 },
 "C57": {
  "note": "The in-place exchange is proved for success; the claim on failure is false (C57_false)."
 },
 "C61": {
  "note": "False (C61_false: TypeError instead of DuplicateNameError). Proved: some error is raised iff a name is duplicated."
 },
 "C62": {
  "note": "Proved for lists; false for generators (C62_false)."
 },
 "C65": {
  "note": "False (C65_false). Proved: the exact error term, and equality when centres of mass are at the origins of bodies."
 },
 "C66": {
  "note": "False when states or model are saved (C66_false). Proved: exact condition of success (iff) and the content of the file for transforms."
 },
 "C70": {
  "note": "False for every model and every non-empty prefix or suffix (C70_false, C70_never). With empty prefix and suffix see C84."
 },
 "C74": {
  "note": "The energy part is false (C74_false). Proved: success, momentum, and energy when the gyroscopic matrix does no work on the new velocity."
 },
 "C76": {
  "note": "False in flat mode for moving sub-frames (C76_false). Proved in hierarchical mode and in flat mode for the other frames."
 },
 "C77": {
  "note": "False with coupled or anisotropic admittance (C77_false). Proved for isotropic uncoupled contacts."
 },
 "C79": {
  "note": "False (C79_false, C79_false_moving: the check sees exhausted generators). Proved for joints' states and for hierarchical mode without moving sub-frames."
 },
 "C82": {
  "note": "False for the inertia of the hands (C82_false). Proved for all the other pairs of segments."
 },
 "C85": {
  "note": "False as soon as one joint has no limit (C85_false, C85_errors). Proved for models whose joints all have limits."
 },
 "C91": {
  "note": "C91_false: a body of 1e-11 kg is treated differently once expressed in grams (threshold 1e-10 on mass[5,5])."
 },
 "C92": {
  "note": "C92_false: world.nleffects (the matrix) is not preserved: two unit masses at distance 1; its product with the current velocity is (C92_bias_partial)."
 },
 "C99": {
  "note": "Partial: proved (C99_replay, C99_hdf5) for good names (ground named 'ground', frame names distinct, none equal to a shape's id) and numbers written exactly (the rounding of '%f' texts is not modelled as an error). C99_shape_false: a shape named like a body takes its id and the body does not move in the animation. C99_view_false: view() with default arguments raises NameError."
 },
 "C100": {
  "note": "Full for the solids (C100_drawn, C100_scene); the documented plane is not the one drawn (C100_plane_false, consistent with C51)."
 },
 "C101": {
  "note": "C101_unique under the capacity condition; without it false (C101_many_false, C101_ground_false hold for every world meeting their hypotheses)."
 },
 "C102": {
  "note": "Outside the 1e-9 band of rotzyx_angles (C08)."
 },
 "C103": {
  "note": "The clock is arbitrary; the summary is represented by its four numbers."
 },
 "C104": {
  "note": "False when nobody connects: updates do nothing, but finish raises AttributeError (only socket.error is caught): C104_alone_false. Proved: the stream can be read (C104_stream) and the viewer shows the current poses (C104_live), closed viewers are harmless. Numbers written exactly: parameter (Python 2's str keeps 12 digits); a send that succeeds is assumed to send everything."
 },
 "C105": {
  "note": "Worlds without constraints; signs on the three axes (one plane, or several). C105_points and C105_body say what the image is. Real numbers, not floats."
 },
 "C106": {
  "note": "Worlds without constraints. Unlike the unit of mass (C91), no threshold of the code compares a length with a constant on this path."
 },
 "C107": {
  "note": "The mirror maps each body to itself: symmetric mechanisms whose left and right limbs are exchanged are not covered by this theorem."
 },
 "C108": {
  "note": "Full claim false (C108_false: mimic is not written; C108_accent_false). C108_mimic, C108_mimic_round: what is read and would be written of a mimic. Parameters: how numbers are printed and read (Reads: printed as words without blanks, read as rd x; Exact: numbers read from files are printed exactly). XML trees as minidom gives them; the lexing of the text is not modelled."
 },
 "C109": {
  "note": "The vocabulary (elements and attributes that are read) is the table kidsRead/attrsRead of Spec/UrdfXml."
 },
 "C110": {
  "note": "C110_false: axis y. C110_partial lists all outcomes for an axis which is not three words. C110_load composes C109 with C84. C110_view: the elements load uses are those of the file."
 },
 "C111": {
  "note": "Matlab commands as data (Item), executed by a model of convert_mat2py.m; how numbers are printed is not modelled (str() of long arrays breaks lines inside Matlab brackets). C111_alone_false: a single free body: hstack of nothing is a ValueError. C111_marked holds of every world, whatever the generator's past. C111_refused: any other joint gives the generator's error."
 },
 "C112": {
  "note": "C112_mass, C112_state full; C112_reuse_false: reusing a generator always raises ValueError."
 },
 "C113": {
  "note": "C113_shapes_partial: distinct body names and no planes; C113_name_false, C113_plane_false: the full claim is false without either."
 },
 "C114": {
  "note": "C114_times, C114_steps, C114_gravity, C114_written, C114_writes full; C114_times_false (times 0, 1, 3 give AttributeError), C114_marked_false."
 },
 "C115": {
  "note": "C115_convert, C115_ready, C115_write, C115_human36, C115_others full for free roots; C115_fixed and C115_false: a root that is not free, after which nothing of the world can be written. Constraints are numbers in this model; friction not modelled."
 },
 "C116": {
  "note": "C116_motion, C116_human36, C116_weight full; C116_weight_false (a default human36 gains 20 tons), C116_djac_false (the djac of the joints of several rotations is wrong, C12; that of the hinges is not)."
 },
 "C117": {
  "note": "C117_converges, C117_tolerance, C117_order, C117_dissipates full for limits of one-dof joints and ball-and-sockets. Hypothesis: the admittance seen by the active constraints is symmetric positive definite (C86_hypothesis says when). Convergence is with the number of iterations: no claim that the default 1000 suffice. Contacts with friction are not covered here (C41, C42, C77)."
 },
 "C118": {
  "note": "C118_energy, C118_runs, C118_contracts, C118_settles, C118_example: full for mechanisms whose joints are Tx, Ty, Tz, TxTyTz or fixed, without constraints. Mechanisms that turn are not covered (the nonlinear effects are explicit in the scheme). Convergence needs all dofs driven by one controller with strictly positive kp."
 },
 "C119": {
  "note": "C119_contact, C119_far, C119_once: full for one contact whose relative velocities are all reachable. Several contacts: C41, C42, C77 (per solve)."
 },
 "C120": {
  "note": "C120_run full (exact trajectory and contact force of the whole simulation). Never below the ground is false for long steps (C120_false: steps of 1 s, default proximity); C120_above_partial and C120_rests_partial prove it, and the landing, when g H^2 <= proximity (with the default 0.02 m: steps up to 45 ms). C120_thrown: what happens to a ball found below the ground."
 },
 "C121": {
  "note": "False in general (C121_false: 10 m/s, steps of 1 s). C121_back_partial, C121_never_twice_partial, C121_inside_partial are what holds, for one JointLimits on a one-dof joint in any world, where the dof has a positive admittance. Several limits at once: C117 (the solver converges)."
 },
 "C122": {
  "note": "False in general (C122_false, C122_frictionless). C122_iff is the exact set of inputs on which solve raises; C122_answers_partial is what holds; C122_same links the raising and the total model."
 },
 "C123": {
  "note": "C123_step: any world, any constraints between bodies (contacts and ball-and-sockets), linear and angular. C123_run: whole simulations of translating bodies. The exceptions a contact can raise are in C119 and C122."
 },
 "C124": {
  "note": "False in general (C124_false). C124_balance (exact balance), C124_bound, C124_contact_partial are what holds, for one contact in a world of any size."
 },
 "C125": {
  "note": "The claim about the scene is proved (C125_links); the claim about create_line is false for other starts (C125_line gives what is drawn, C125_line_false)."
 },
 "C126": {
  "note": "Proved when the scene was written from this world (which names the frames); false without names (C126_unnamed_false)."
 },
 "C127": {
  "note": "Proved. Observers are supposed to change nothing but themselves. BallAndSocketConstraint.update keeps the force of the last solve, so it is not among the constraints of C127_resume."
 },
 "C128": {
  "note": "Proved for mechanisms that slide, where the gap is affine in the joint coordinates; with rotations the constraint closes the gap to first order only (C37, C38). One ball-and-socket constraint is registered."
 },
 "C129": {
  "note": "C129_run: simulate with the constants = simulate without. C129_hand: any history after an init. C129_settings, C129_position: after any history the settings and masses are those the script assigned; an assigned position (C129_free: an assigned pose of a free joint) changes nothing else. C129_example, C129_massless: changed gravity without effect until the next init, a body given mass after init has no weight. The `init` of JointLimits (its jacobian) stays a hypothesis (C121)."
 },
 "C130": {
  "note": "C130_converges (error of order one), C130_exists, C130_unique (the exact motion), C130_runs (no exception), C130_example (the crane of C118, one joint with a spring and a damper, the other free to fall)."
 },
 "C131": {
  "note": "C131_converges (error of order one), C131_exists, C131_unique (the exact motion), C131_runs (no exception), C131_example (a double pendulum under its weight with a spring and a damper)."
 },
 "C132": {
  "note": "All proved, for the mechanisms stated (a hypothesis of the claim: for joints with several axes on moving bodies it is false of the code, C29_runs_false). Example: double pendulum."
 },
 "C133": {
  "note": "Existence of the exact motion during some time from each state with an invertible mass matrix is C133_exists. Runs with small steps do not raise: C133_runs (no singular matrix; the poses of free joints computed with the truncated series, and those of the bodies, pass ishomogeneousmatrix; controllers find values). Weight and PD controllers are included (FlyPath.law, FlyingWorld); bodies have the mass matrix of a rigid body (IsRigidMass)."
 },
 "C134": {
  "note": "Balance, conservation, dissipation of the exact motion; drift and bound for the simulations, and what an EnergyMonitor logs (C134_monitor); a body thrown and spinning with its weight shows that the hypotheses can be met."
 }
}
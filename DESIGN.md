# Formal model of arboris-python in Lean 4

`properties.jsonl` lists the properties, `MANIFEST.json` says which theorems answer each, `AXIOMS.txt` which axioms each
theorem uses, `seeded/LOG.jsonl` which wrong programs were tried against the theorems.

## 1. Layout

| directory | content |
|---|---|
| `lean/Verif/Model/` | the code, function by function; every definition cites the file and lines of `/repo` it models |
| `lean/Verif/Spec/`  | vocabulary of the statements (rigid motion, twist of a curve, tree, timeline ...). `Spec/Rigid, Tree, Contact` do not import the model; the others use its data types (a world is a heap, a tree of links, a list of events ...) but none of its functions beyond field access |
| `lean/Verif/Proofs/` | lemmas |
| `lean/Verif/Props/` | the theorems `CNN_*`, each with examples that concrete cases meet its hypotheses |

## 2. Approach

* Numbers are exact reals (`ℝ`): floating point rounding is **not** modelled. Arrays are
  Mathlib `Matrix (Fin m) (Fin n) ℝ` / `Fin n → ℝ`.
* Python exceptions are values (`Except PyErr α`), or, where a method raises half way and leaves traces,
  a pair (state left behind, result).
* Recursion over the body tree is structural recursion over a forest
  (`Forest`); that the *object graph* built through `add_link` unfolds to such a forest is
  itself a theorem (C54), with the counterexample C55.
* Objects are heaps of records where aliasing or partial mutation matters (C26, C31, C54–C59).
* numpy black boxes: `inv` and `solve` are Mathlib's inverse (`inv` raises `LinAlgError` on singular matrices);
  `pinv`, `eig`, `eigvals`, `argsort`, `argmin` are parameters, with their documented specification as hypothesis
  (existence of a function meeting the hypothesis is shown in examples, e.g. `C48_sort_exists`).
* A property that is false of the code is kept in the list with `(FALSE ...)`. Its full statement is a definition
  `CNN_Claim` (or is visible in the theorem), its negation is proved with a witness reachable through the API
  (`CNN_false`), and `CNN_..._partial` is the largest natural fragment where it holds, whenever possible an
  "exactly when".

## 3. Trusted base

* Lean 4.33.0's kernel; Mathlib's definitions (reals, matrices, determinant, derivative, `NormedSpace.exp`, `sin`...).
* Axioms: only the three of Lean's standard library, `propext`, `Classical.choice`, `Quot.sound`. No theorem uses
  another one: no axiom is declared, no compiled evaluation is used. The list per theorem is `AXIOMS.txt`
  (`#print axioms`); most use the three, as anything about `ℝ` does; some of the theorems on lists, dictionaries and names
  use only `propext` and `Quot.sound`, or only `propext`.
* The correspondence between `/repo` and `Model/`, made by reading (the code is not run). Its weak points are the
  semantics of numpy and Python (section 5).
* The statements themselves: `Spec/` and the theorem statements in `Props/`.

## 4. What is modelled

| file of /repo | modelled | not modelled |
|---|---|---|
| `homogeneousmatrix.py`, `adjointmatrix.py` | everything, with the tolerances of the guards | rounding |
| `twistvector.py` | `adjacency`, `exp` (both branches) | |
| `rigidmotion.py` | everything | |
| `massmatrix.py` | `ismassmatrix`, `transport`, `principalframe`, box, ellipsoid, cylinder, sphere | complex eigenvalues of a non-symmetric argument |
| `joints.py` | the thirteen classes: gpos, gvel, pose, ipose, jacobian, djacobian, twist, integrate | the in-place `+=` of a float on an integer array given by the user |
| `core.py` `NamedObjectsList`, `name_all_elements`, `DuplicateNameError` | find, index by name or number, slices, as_dict, the errors | assignment and deletion by index or slice (those of `list`) |
| `core.py` `World.add_link`, `replace_joint`, `register`, `parse`, `iter*`, `init` | as transformers of a heap of bodies, joints, registries, dof slices and velocity buffers, with partial effects of failures; recursion limit (C81) | dofs already given when `init` is interrupted by an exception; the `init` of `JointLimits` (its jacobian is a parameter; that of controllers is in `Model/Hooks.lean`); one body shared by several worlds; users editing `childrenjoints` by hand |
| `core.py` `Body.update_geometric`, `update_dynamic`, `World.update_*`, `integrate` | everything | |
| `core.py` `update_constraints` | everything, for arbitrary constraint classes | effects of the `update` of inactive constraints on shared frames (only the contact classes have such effects, on their own frames) |
| `core.py` `SubFrame`, `MovingSubFrame` | references, copies, `bpose` arrays; pose, twist, jacobian, djacobian | |
| `core.py` `simulate` | everything, over an abstract engine whose operations may raise; observers with a state, which may raise (`Model/ObsRun`) | observers that modify the world |
| `constraints.py` | `JointLimits`, `BallAndSocketConstraint`, `PointContact`, `SoftFingerContact`, `get_all_contacts` | `LinAlgError` of `solve` outside the contact's (C122); numpy's cast of complex eigenvalues in the sliding branch (the real part is used) |
| `controllers.py` | `WeightController`, `ProportionalDerivativeController` | joints given to the constructor as a generator |
| `collisions.py`, `shapes.py` | all the solvers, `choose_solver`; the shapes as data | |
| `observers.py` | `EnergyMonitor`, `CoMObserver`, `_Recorder` and its subclasses, `SaveLogger`, `PickleLogger`, `Hdf5Logger` as in-memory trees, `PerfMonitor` (arbitrary clock), `SocketCom.finish` | binding the socket, files that exist already, names with "/", plotting, division by a zero total mass |
| `visu/world_drawer.py` | `hsv_to_rgb`, `ColorGenerator`, the transforms the `Drawer` emits | links, arrows |
| `visu/__init__.py` | the messages of `pydaenimCom` as JSON values | the constructor, the text of JSON, `view` |
| `visu/visu_collada.py`, `dae_writer.py` | the scene (nodes, ids, matrices, shapes), the animations, `createInertia`, the links (`Model/Lines`), which file type is chosen, the messages of `DaenimCom` | XML text, materials, frame arrows, wrenches, `add_shapes_to_dae`, daenim processes |
| `robots/snake.py`, `simplearm.py`, `simpleshapes.py`, `human36.py` | the whole construction, with the errors | `human36` with missing keys in `anat_lengths` |
| `robots/icub.py` | all: tables, limits, construction | |
| `robots/urdf/` | `get_chain`, `get_root`, `URDFConverter` (links, joints, inertia, collision shapes, limits, loading); all classes of `urdf_parser.py` with `parse` and `to_xml`, on XML trees (`Model/UrdfXml`, `Model/UrdfFile`) | the text of XML, namespaces, warnings, `__str__`, `get_visual_shapes`; how floats are printed and read is a parameter |
| `matlab/convert_py2mat.py`, `convert_mat2py.m` | `MatlabRobotGenerator`, `MatlabSimulationGenerator`, `MatlabConverter` (all), the Matlab commands it writes as data, and how `convert_mat2py.m` reads them | how numbers are printed and broken in lines, Matlab itself |

Defects found (each one a theorem unless noted):

* `RigidMotion.itwist` uses `iadjoint` for `adjoint` (rigidmotion.py:47-49): C12_false; through it `Body.update_dynamic`
  computes wrong `djacobian`s and `nleffects`: C23_false, C29_false.
* `ishomogeneousmatrix` accepts shears (C04_false), `isadjointmatrix` accepts matrices that are no adjoint (C05).
* `twistvector.exp`'s small-angle branch is not a rotation: C11_false.
* Constraints: C38_false, C40_false, C41_false, C77_false. Collisions: C50_false, C51_*_false, C52_false.
* Graph: the ground can be hung below another body (C55_false), failing `add_link`/`replace_joint` leave traces (C56_false,
  C57_false), `bpose` arrays shared (C26_false).
* Names: `DuplicateNameError` cannot be built (C61_false); checks on exhausted generators (C62_false, C79_false).
* Observers: `CoMObserver.dJacobian` (C65_false), `Hdf5Logger` (C66_false), `EnergyMonitor.init` refuses massless bodies
  (C63). Drawer: C76_false. human36: C82_false. URDF: C70_false, C85_false. Body threshold 1e-10 depends on the unit of mass: C91_false.
  `world.nleffects` is not additive over welded bodies: C92_false.
* iCub: shapes of one body share a name, so `getshapes().as_dict()` raises (C95_shape_names); the initial posture violates the
  limits of the elbows (C96_zero_posture); contact points of the two hands are numbered differently (C97_hand_numbers).
* PD controller: joints with different ndof raise (C34_mixed).
* Read in the code, not stated as theorems: URDF mesh with scale (AttributeError), collision with unknown geometry
  (TypeError), `save_joint_limits` on a revolute joint without limits (AttributeError), `CONTINUOUS`/`PLANAR` joints
  (KeyError), origin with only xyz or only rpy (TypeError); `joint.gvel = x` detaches the joint from the world's array;
  `simulate` given a one-shot iterator of observers never updates them; `PerfMonitor` is not reset by `init`.
* Contacts become active from the velocity before the forces of the step: a ball falls through the ground when g dt^2 exceeds the proximity
  (C120_false), and is then thrown out at the speed depth / dt (C120_thrown).
* `JointLimits` becomes active from the position before the step: a joint that moves by more than the proximity in a step goes through its limit (C121_false).
* `SoftFingerContact.solve` raises `LinAlgError` for a friction coefficient of zero, or when the free velocity closes the gap exactly, if the bodies slip (C122_iff, C122_frictionless, C122_false).
* A `SoftFingerContact` may pull bodies which are apart and give them energy: the friction law compares squares (C124_false).
* `DaenimColladaDriver.create_line(start, end)` draws the segment from `‖end-start‖·start`, not from `start` (C125_line, C125_line_false); the drawer only calls it with `start = 0`, so the scenes are right (C125_links).
* `pydaenimCom.init` names nothing (`DaenimCom.init` does): in a run which does not write the scene itself, all the frames without a name share the entry `"null"` of each message, and all but the last are lost (C126_unnamed_false).
* `WeightController.gravity` changed after `world.init()` has no effect until the next `init`; a body that gets its mass after `init` has no weight; a controller registered after `init` makes `update_controllers` raise `TypeError` (C129).
* C29_runs_false: a mechanism with a wrist (RzRyJoint on a body which turns), without any force, loses kinetic energy, by an amount which does not tend to zero when the time step does: a consequence of the wrong djacobian of joints with several axes (C23_false).
* Collada: a shape named like a body takes its id (C99_shape_false); `view` with its default arguments raises `NameError`
  (C99_view_false); ids collide with 102 equal names or a frame called "ground" (C101_*_false); `DaenimCom.finish` raises `AttributeError` when nobody has connected (C104_alone_false); `Joint.to_xml` forgets `mimic` (C108_false) and a robot read from a file with an accent in a joint name cannot be written (C108_accent_false); the axes `"y"` and `"z"` raise `TypeError` (C110_false); all but the last collision element of a link are dropped (C109_last); `MatlabRobotGenerator` cannot write a single free body (C111_alone_false), raises when used twice (C112_reuse_false), puts shapes by body name (C113_name_false) and writes planes as the shape before (C113_plane_false); `MatlabSimulationGenerator` raises `AttributeError` on some uneven times (C114_times_false) and leaves an unmarked file when the root is not free (C114_marked_false); after `MatlabConverter` on a root that is not free, nothing in the world can be written any more (C115_fixed, C115_false); `MatlabConverter` gives its new bodies `base_mass/10`, 1000 kg each by default, `small_mass` being unused, so a human36 gains 20 tons (C116_weight_false). Noted, not theorems: `write_collada_scene` ignores its `options` (dae_writer.py:322), `create_sphere`
  drops the name, the else branch of `_set_up_axis` raises TypeError.

## 5. Python and numpy semantics taken for granted

`dot`, slicing, `ix_`, broadcasting as in the numpy manual; `a[s:e]` is a view and `a.copy()` is not; lists keep insertion
order, dictionaries of Python 2 have an arbitrary enumeration order (parameters of the model); `assert` is executed;
`is`/`==` on plain objects is identity. `1e-10`-like literals are exact decimals.

## 6. Plan per property

| ids | modelled code | method |
|---|---|---|
| C01–C09, C12 | homogeneousmatrix, adjointmatrix, rigidmotion: literal matrices | block algebra, trigonometric identities, `HasDerivAt` |
| C10, C11 | twistvector.exp, FreeJoint.integrate | Rodrigues = `NormedSpace.exp` by series; determinant formula; geometric decay |
| C13–C15 | massmatrix | quadratic forms, block algebra; eig as a parameter |
| C16–C18 | joints.py, all 13 classes | `HasDerivAt` entry by entry |
| C19–C29 | Body.update_geometric/update_dynamic, World.update_dynamic, SubFrame | fold over root paths of an arbitrary forest; induction over the path |
| C30, C31 | World.init, dof slices and views | list induction; heap of buffers |
| C32–C35, C74 | update_controllers, integrate, controllers.py | linear algebra with matrix inverse |
| C36–C44 | update_constraints, constraints.py | invariant over the list of solves, for any constraint class; case analysis of `solve` |
| C45–C47 | simulate, _Recorder | induction over the timeline with an event trace |
| C48–C53, C75 | collisions.py, get_all_contacts, PointContact.update | geometry in ℝ³; induction over lists of shapes |
| C54–C59, C80, C81 | World.add_link/replace_joint/register/parse as a heap transformer | reachability invariant by induction over histories |
| C60–C62 | NamedObjectsList, name_all_elements | list induction |
| C63–C66, C78, C79 | observers | folds over bodies; induction over the timeline for the loggers |
| C67, C68, C76 | visu/world_drawer | case analysis, state machine |
| C69–C71, C83–C85 | robots/urdf | symbolic execution of the loader over any finite model, topological order by induction |
| C72, C73, C82 | robots: human36, simplearm, snake | symbolic execution in the `Build` monad, closed forms |
| C86 | update_constraints on worlds of ball-and-socket constraints | energy of the residual decreases by a factor; compactness of the sphere |
| C87 | `Model/World.lean`: the engine of `simulate` made of the models of init, update_dynamic, update_controllers, update_constraints, integrate on one world; controllers and what constraints read of the world are parameters | `Spec/World.lean` defines the evolution; induction on the steps, using C10, C20, C21, C32, C33, C45 |
| C88 | as C87; the constants computed by the `init` of controllers: C129 | determinism of the steps on equal states; `init` is idempotent |
| C89 | as C87, worlds without constraints (the Gauss-Seidel solver stops on a test over all the constraints, so constraints couple mechanisms through the number of sweeps) | block algebra along `init`, `update_dynamic`, `update_controllers`, `integrate`; induction on the timeline |
| C90 | as C87, constraints included (what they read from the world is a parameter) | every method commutes with the change of place; `simulate` is a function of the methods |
| C91 | as C89 (no constraints); threshold `mass[5,5] <= 1e-10` of core.py:1401-1413 kept | every method commutes with the change of units; a body of 1e-11 kg is a counterexample to the full claim |
| C92 | `Model/Tree`; merging as a relation on trees (`Spec/Weld`) | a `FixedJoint` makes a sub-frame; sums compared term by term; bias = −ad(T)ᵀ M T is linear in M and equivariant; counterexample for the matrix `nleffects` |
| C93 | `Model/World` | bisimulation (`simulate_alike`): every method treats the two worlds alike |
| C94 | `Model/World` | bisimulation; the renumbering is built from the two depth-first numberings, the constraint solver is invariant under a permutation of the columns |
| C95 | `Model/Icub` | execution of the construction program; the tables are any permutation of those of the source; their conditions (names, order, positivity) are checked row by row |
| C96 | `Model/Icub` | row by row |
| C97 | `Model/Icub`, `Model/Tree` | a reflection of the frame of each body such that each row of the tables is mapped to its counterpart; induction along the tree |
| C98 | `Model/Graph` | `add_link` of a whole chain by induction on the chain; the tree after the replacement defined by recursion on the old tree (`replaceBy`) and shown to be the unfolding of the new world |
| C99 | `Model/Collada`, `Model/Log`, `Model/WorldDrawer` | lockstep of the drawer and the COLLADA driver (`Lock`), the logger's records by name, the animation's matrices replayed on the nodes (`Spec/Collada.play`); counterexamples by evaluation |
| C100 | `Model/Collada` | the four meshes as sets (`Spec/ColladaShapes.meshSet`, read off `simple_shapes.dae`), image under the node's matrix computed; joined to C99's `Shows` |
| C101 | `Model/Collada` | invariant relating the ids given to the frames and shapes that asked; pigeonhole on the 101 candidates |
| C102 | `Model/Collada`, `Model/Mass` | C15 + C08, parallel axes |
| C103 | `Model/Perf`: the monitor, with the clock as an arbitrary function of the calls | C45's trace, telescoping; spec `Spec/Perf` |
| C104 | `Model/Daenim`: messages, connection, `finish` | decoder in `Spec/Daenim` (pieces between separators), then the replay lemmas of C99; the last part of the claim is false: `finish` raises if nobody connected |
| C105 | the whole simulation (`Model/World`) | `Spec/Image`: points moved by `f • s`, every entry multiplied by a factor; each method commutes with the image (`Proofs/Image`: adjoint, inverse, exponential, eleven joint classes), invariant: dofs numbered |
| C106 | the same, signs 1 | the same lemmas with any `f > 0` |
| C107 | the same | corollary of C105: a world equal to its image stays equal to it |
| C108 | `Model/UrdfXml`: `parse` and `to_xml` of every class, Python 2 strings | lookups in the attributes written, loop lemmas per optional child; `reread` (Spec) says what is kept; invariant "what is read is kept" over all `parse`; outcome calculus for `UnicodeEncodeError` |
| C109 | the same | `essence` (Spec) keeps the vocabulary; structural induction on trees, fold lemma |
| C110 | `Model/UrdfFile`: axis strings, conversion of a joint | case analysis; composition with C84 |
| C111 | `Model/Matlab`: the generator as a state-and-exception monad, commands as data, the reader | induction on the tree for `_traverse` (`linksBelow`), execution lemma; `Quiet` calculus for the warning |
| C112 | the same | block computation; state after a run for the reuse |
| C113 | the same | dictionary lookup by name is injective under distinct names; counterexample robots |
| C114 | `Model/MatlabSim`: times (`arange` as a list of reals), gravity, `generate_simulation` | characterisation of `arange` by the number of its elements; composition with C111 |
| C115 | `Model/MatlabConvert`: `MatlabConverter` as a program on the world, with `replace_joint` of C98 | the walk as a fold over the tree while it is edited (invariant: `replaceAll` of what was done); composition with C98_reuse and C111 |
| C116 | `Model/MatlabConvert` with `Model/Dynamics` (`update_dynamic` on the tree before and after) | a hinge chain is one joint of several rotations: products of exponentials and of adjoints (`Proofs/HingeChain`); then induction over the tree; dof numbers by C30 |
| C117 | `Model/Step` (`update_constraints`), `Model/Constraints` (`JointLimits.solve`, `BallAndSocketConstraint.solve`) | projected block Gauss-Seidel: each solve minimises a convex potential on its block; strong convexity gives uniqueness, linear decrease gives convergence (`Proofs/ProjectedGS`) |
| C118 | `Model/Control` (the library's controllers registered in a world), `Model/World`, `Model/Controllers` | sliding joints: jacobians and mass are constant (`Proofs/Sliding`), the controllers' impedance makes the step an implicit Euler step, whose energy loss bounds what is left (`Proofs/ImplicitEuler`); induction over the run |
| C119 | `Model/Contact` (`SoftFingerContact` with its collision solver, registered in a world), `Model/Step`, `Model/Constraints` | one sweep solves a single contact (its solve does not depend on the previous force); jacobian = relative velocity at the contact (`frame_twist`); then C42 |
| C120 | `Model/Contact`, `Model/Control`, `Model/World`, `Model/Collisions`, `simulate` | the step of the world is computed exactly (friction vanishes because it would dissipate nothing); induction over the timeline; then the motion of a point with `bounce`: invariant height >= 0, termination by induction on speed and height |
| C121 | `Model/LimitWorld` (`JointLimits` registered in a world), `Model/World`, `Model/Constraints` | C39 at each step, with the position the joint then reaches; induction over the steps |
| C122 | `Model/SoftFinger` (`SoftFingerContact.solve` with its divisions by zero) | case analysis; the sliding factor is negative when there is approach (C42), so the last matrix is invertible |
| C123 | `Model/World`, `Model/Step`, `Model/Contact`, `Model/Constraints` | the jacobian of a constraint between bodies vanishes on a motion of the whole, so its force does no work on it; `TxTyTzJoint`s to the ground make every translation such a motion; induction over the steps |
| C124 | `Model/Contact`, `Model/Step`, `Model/Constraints` | exact energy balance of the implicit step, with the power of the contact from C119; the normal part from the gap closing exactly, the tangential part from C42 |
| C125 | `Model/Lines` (over `Model/Visu`) | invariant of the drawer along the calls of `parse` (C59): the lines are those of the frames drawn so far; the segment from the matrices of `zaligned` (C09) |
| C126 | `Model/Pydaenim` (messages as JSON values) | the dictionary built by the loop gives each name its last matrix; then as C104 |
| C127 | `Model/ObsRun` (`simulate` with observers that have a state and may raise) | induction on the timeline; the prepared step is prepared again with the same result (induction on the constraints) |
| C128 | `Model/Pin` (the constraint reads the frames of the world) | `J Y Jᵀ` is inverted by its pseudo-inverse on the range of `J`; the gap is affine in the joint coordinates; induction on the run |
| C129 | `Model/Hooks.lean`: controllers with the constants `init` computes (ranks of bodies, gravity twist, dof map), `update` that reads them, a `World.init` that ends with the `init` of the controllers, and the operations of a script | simulation relation between the engine with constants and the engine of C87, through an invariant (constants up to date); invariant of histories (same constants, same shape, same dofs) |
| C130 | the engine of C87 with the controllers of C118; the exact motion is a pair of differentiable functions of time that satisfy the equation of motion (`ExactMotion`: virtual power of weight, PD law, mass and viscosity matrices) | a run is a sequence of implicit Euler steps of this equation; one step does not increase the error, measured by the energy of springs and masses, but for a defect of order the square of the step (mean value theorem); existence by the exponential of a linear map, uniqueness by the Lipschitz condition; runs by positive definiteness of the inverted matrix |
| C131 | the engine of C87 with the controllers of C118; the world at given coordinates is the tree whose joints have them (`worldAt`), updated by the modelled `update_dynamic`; the exact motion (`ExactPath`) is a pair of differentiable functions of time that satisfies the equations of motion at these coordinates, the force of weight being a virtual power at the center of mass | mass, viscosity and nonlinear-effects matrices and forces are C1 functions of coordinates and velocities (by induction on the tree), a step is the unique solution of a linear system (C87), hence a C1 function of dt and the state where the matrix is invertible; a one-step method locally Lipschitz near a compact piece of a solution converges with order one (Lebesgue number, discrete Gronwall); existence by Picard-Lindelöf, uniqueness by a Lipschitz constant on the compact union of both paths |
| C132 | The engine of C131 (whole simulations: update_dynamic on the tree, controllers, integrate), and the energies of C63/C118 as functions of the coordinates and velocities. | The rate of the kinetic energy along the exact motion is C29's formula, that of weight is C35's, that of springs is computed; the equations of motion give the balance. The energy is a smooth function of coordinates and velocities, Lipschitz near the motion, and C131 bounds the distance to the motion. |
| C133 | the same model of whole simulations as C45, C131 (Mech.engine, simulate), free joints integrated with the model of `twistvector.exp`, both branches (the Taylor branch is the one taken by small steps). | One step is a smooth function of the step length and of (coordinates, poses, velocities) near every state with an invertible mass matrix: the exponential of a small twist is 1 + dt times a polynomial (exp_small), the new velocities come from a linear system. Its variation at dt = 0 is the right hand side of the continuous law, so OneStep.converges gives the error bound along the run, which Evolves (C87) describes step by step. Controllers: the values of weight are a smooth function of the state, those of PD an affine function of the next coordinates and velocities (C34). Existence: Picard-Lindelöf. Runs do not raise: a compact neighbourhood of the exact motion where determinants of rotations of free joints and bodies are within `tol` of 1; last rows are exact. |
| C134 | that of C133 (whole simulations, `Mech.engine`, free joints integrated by `twistvector.exp`, library controllers); the energy is `totalEnergy` of C132, from masses, centres of mass and states. | The pose of a free joint stays a rigid motion along its curve (rigid_const), so the exact motion is a path of the tree in the sense of C114; the power balance follows from the skew-symmetry shown there and from the derivative of the height of each body. The energy is a smooth function of coordinates, poses and velocities, and C133 bounds the distance between the simulation and the exact motion. |

Nothing of the list is believed inexpressible in the model.

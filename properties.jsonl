{"id": "C01", "title": "Elementary homogeneous-matrix constructors build rigid motions", "statement": "transl, rotx, roty, rotz, rotzy, rotzx, rotyx and rotzyx return, for every real argument, a 4x4 matrix whose rotation block is orthogonal with determinant 1 and whose last row is exactly [0,0,0,1]; in particular ishomogeneousmatrix accepts every one of them, and products of accepted rigid motions stay rigid.", "quantifier": "all real angles and translations", "why_tests_cant": "tests sample a few angles of a continuum", "anchors": ["arboris/homogeneousmatrix.py:transl", "arboris/homogeneousmatrix.py:rotx", "arboris/homogeneousmatrix.py:rotzyx", "arboris/homogeneousmatrix.py:ishomogeneousmatrix"]}
{"id": "C02", "title": "Multi-angle constructors are the documented products of elementary rotations", "statement": "rotzyx(z,y,x) = rotz(z) roty(y) rotx(x), rotzy(z,y) = rotz(z) roty(y), rotzx(z,x) = rotz(z) rotx(x), rotyx(y,x) = roty(y) rotx(x); the iCub Denavit-Hartenberg helper T_DH is the product rotz, transl_z, transl_x, rotx in the documented order.", "quantifier": "all real angles", "why_tests_cant": "tests sample angles; a sign error on a measure-zero family of angles passes", "anchors": ["arboris/homogeneousmatrix.py:rotzyx", "arboris/homogeneousmatrix.py:rotzy", "arboris/robots/icub.py"]}
{"id": "C03", "title": "inv is a two-sided inverse on rigid motions", "statement": "For every rigid motion H (orthogonal rotation block, exact last row) inv(H) succeeds, H inv(H) = inv(H) H = identity, inv(inv(H)) = H, and inv(H1 H2) = inv(H2) inv(H1).", "quantifier": "all rigid motions", "why_tests_cant": "continuum of inputs", "anchors": ["arboris/homogeneousmatrix.py:inv"]}
{"id": "C04", "title": "A matrix accepted by ishomogeneousmatrix is correctly inverted by inv", "statement": "If ishomogeneousmatrix(H) is True then inv(H) H = identity. (FALSE of the code: only det R is checked, so a volume-preserving shear is accepted and inv returns a matrix that is not its inverse.)", "quantifier": "all 4x4 matrices accepted by ishomogeneousmatrix", "why_tests_cant": "needs a counterexample outside the rotations that tests use, or a proof over all accepted matrices", "anchors": ["arboris/homogeneousmatrix.py:ishomogeneousmatrix", "arboris/homogeneousmatrix.py:inv"]}
{"id": "C05", "title": "adjoint is a group homomorphism and its inverses agree", "statement": "adjoint(H1 H2) = adjoint(H1) adjoint(H2), adjoint(I)=I, iadjoint(H) is the two-sided inverse of adjoint(H), adjointmatrix.inv(adjoint(H)) = iadjoint(H), and adjointmatrix.isadjointmatrix accepts adjoint(H), for all rigid motions.", "quantifier": "all pairs of rigid motions", "why_tests_cant": "continuum of inputs", "anchors": ["arboris/homogeneousmatrix.py:adjoint", "arboris/homogeneousmatrix.py:iadjoint", "arboris/adjointmatrix.py:inv", "arboris/adjointmatrix.py:isadjointmatrix"]}
{"id": "C06", "title": "pdot and vdot act as a group action and preserve lengths", "statement": "pdot(H1 H2, p) = pdot(H1, pdot(H2, p)); vdot likewise; pdot(inv H, pdot(H,p)) = p; pdot(H,p)-pdot(H,q) = vdot(H,p-q); vdot preserves dot products.", "quantifier": "all rigid motions and all points", "why_tests_cant": "continuum of inputs", "anchors": ["arboris/homogeneousmatrix.py:pdot", "arboris/homogeneousmatrix.py:vdot"]}
{"id": "C07", "title": "dAdjoint is the time derivative of adjoint", "statement": "Along any differentiable motion H(t) whose body twist is T(t) (H' = H hat(T)), d/dt adjoint(H(t)) = dAdjoint(adjoint(H(t)), T(t)).", "quantifier": "all differentiable trajectories of rigid motions", "why_tests_cant": "a finite difference test checks one trajectory up to a tolerance", "anchors": ["arboris/homogeneousmatrix.py:dAdjoint", "arboris/twistvector.py:adjacency"]}
{"id": "C08", "title": "rotzyx_angles inverts rotzyx", "statement": "For every rotation matrix H outside the tolerance band of the gimbal singularity, and at the exact singularity, rotzyx(*rotzyx_angles(H)) has H's rotation block; and rotzyx_angles(rotzyx(z,y,x)) = (z,y,x) when |y|<pi/2 and z, x in (-pi,pi] (outside the singular band).", "quantifier": "all rotation matrices / all angle triples in the chart", "why_tests_cant": "continuum, with branch cuts and a singular set", "anchors": ["arboris/homogeneousmatrix.py:rotzyx_angles"]}
{"id": "C09", "title": "zaligned returns a right-handed orthonormal frame whose z axis is the argument", "statement": "For every unit vector v, zaligned(v) succeeds, its third column is v, its rotation block is orthogonal of determinant 1, whatever order argsort returns among ties.", "quantifier": "all unit vectors, all argsort tie-breaks", "why_tests_cant": "continuum plus unspecified tie breaking", "anchors": ["arboris/homogeneousmatrix.py:zaligned"]}
{"id": "C10", "title": "twistvector.exp is the exponential map outside the small-angle branch", "statement": "For every twist with angular norm at least 0.001, exp(tw) is the matrix exponential of the 4x4 twist matrix, and a rigid motion.", "quantifier": "all twists with ||w|| >= 0.001", "why_tests_cant": "continuum of inputs; equality with a power series", "anchors": ["arboris/twistvector.py:exp"]}
{"id": "C11", "title": "A free-floating body can be integrated for ever without its pose leaving the rigid motions", "statement": "After any number of FreeJoint.integrate steps the joint position still satisfies ishomogeneousmatrix. (FALSE of the code: in the small-angle branch det R = 1 - t^4/12 + t^6/36 for t = ||w dt||, so a constant small rotation rate makes the determinant decay geometrically and every pose operation eventually raises AssertionError. Proved for steps that avoid the small-angle branch or have zero rotation.)", "quantifier": "all step counts and all twist sequences", "why_tests_cant": "needs unboundedly long runs", "anchors": ["arboris/joints.py:FreeJoint.integrate", "arboris/twistvector.py:exp"]}
{"id": "C12", "title": "RigidMotion derived quantities are mutually consistent", "statement": "For any RigidMotion object: ipose is the inverse of pose; iadjoint the inverse of adjoint; dadjoint and idadjoint are the time derivatives of adjoint and iadjoint along any motion with that pose and twist; itwist is the twist of the inverse motion. (FALSE of the code for itwist and idadjoint: itwist is computed with iadjoint where adjoint is needed; true for pose, ipose, adjoint, iadjoint, dadjoint, and for itwist/idadjoint exactly when adjoint\u00b7twist = iadjoint\u00b7twist, which holds for all one-axis joints.)", "quantifier": "all poses/twists and all differentiable motions realising them", "why_tests_cant": "continuum", "anchors": ["arboris/rigidmotion.py:RigidMotion"]}
{"id": "C13", "title": "Shape mass-matrix constructors build valid, positive-definite mass matrices", "statement": "box, ellipsoid, cylinder and sphere with positive dimensions and mass return a matrix accepted by ismassmatrix: symmetric, positive definite, with the rigid-body block structure; sphere equals ellipsoid with equal radii.", "quantifier": "all positive real dimensions and masses", "why_tests_cant": "continuum", "anchors": ["arboris/massmatrix.py:box", "arboris/massmatrix.py:ellipsoid", "arboris/massmatrix.py:cylinder", "arboris/massmatrix.py:sphere", "arboris/massmatrix.py:ismassmatrix"]}
{"id": "C14", "title": "massmatrix.transport is a change of frame", "statement": "transport(transport(M,H1),H2) = transport(M,H1 H2), transport(M,I)=M; transport preserves kinetic energy (T'\u1d40 M' T' = T\u1d40MT for T = adjoint(H) T'), symmetry, positive definiteness and the rigid-body block structure (same mass).", "quantifier": "all mass matrices and rigid motions", "why_tests_cant": "continuum", "anchors": ["arboris/massmatrix.py:transport"]}
{"id": "C15", "title": "principalframe diagonalises the mass matrix", "statement": "For every valid mass matrix and every orthonormal eigen-decomposition of the central inertia returned by eig, principalframe(M) is a rigid motion (also when the eigenvectors have determinant -1) and transport(M, principalframe(M)) is diagonal.", "quantifier": "all mass matrices and all valid answers of numpy.linalg.eig", "why_tests_cant": "continuum plus the nondeterminism of the eigen solver", "anchors": ["arboris/massmatrix.py:principalframe"]}
{"id": "C16", "title": "Every joint's pose is a rigid motion and ipose is its inverse", "statement": "For every joint class and every generalized position, pose() is rigid (FreeJoint: whenever gpos is) and ipose() returns its inverse (including the classes that override ipose).", "quantifier": "all joint classes, all generalized positions", "why_tests_cant": "continuum", "anchors": ["arboris/joints.py"]}
{"id": "C17", "title": "Every joint's jacobian is the derivative of its pose", "statement": "For every joint class with a linear configuration space and every differentiable path q(t), d/dt pose(q(t)) = pose(q(t)) hat(jacobian(q(t)) q'(t)); for FreeJoint the twist is gvel itself.", "quantifier": "all joint classes, all differentiable joint trajectories", "why_tests_cant": "finite differences on samples cannot settle an identity over all paths", "anchors": ["arboris/joints.py"]}
{"id": "C18", "title": "Every joint's djacobian is the derivative of its jacobian", "statement": "For every joint class and every differentiable path q(t), d/dt jacobian(q(t)) = djacobian(q(t), q'(t)).", "quantifier": "all joint classes, all differentiable joint trajectories", "why_tests_cant": "idem", "anchors": ["arboris/joints.py"]}
{"id": "C19", "title": "Adding frames to a joint changes only the pose, not the joint kinematics", "statement": "For a body hung by a joint between arbitrary frames, the child-body pose is H_pb = bpose0 pose(q) inv(bpose1) and the child twist relative to the parent is Ad(bpose1) times the joint twist, for all attachments.", "quantifier": "all attachment frames", "why_tests_cant": "continuum", "anchors": ["arboris/core.py:Body.update_geometric", "arboris/core.py:Body.update_dynamic"]}
{"id": "C20", "title": "Body poses are the product of the relative poses along the path from ground", "statement": "After update_geometric or update_dynamic, the pose of every body of any kinematic tree is world pose times the ordered product of bpose0 * joint pose * inv(bpose1) over the joints on the path from the ground to it; all are rigid motions; both updates agree.", "quantifier": "all finite trees, all joints, all attachments", "why_tests_cant": "unbounded trees", "anchors": ["arboris/core.py:Body.update_geometric", "arboris/core.py:Body.update_dynamic", "arboris/core.py:World.update_geometric"]}
{"id": "C21", "title": "Body twist equals body jacobian times generalized velocity", "statement": "After update_dynamic, for every body of any tree, twist = jacobian \u00b7 world.gvel.", "quantifier": "all finite trees, all joint velocities", "why_tests_cant": "unbounded trees", "anchors": ["arboris/core.py:Body.update_dynamic"]}
{"id": "C22", "title": "Body jacobians only depend on ancestor joints", "statement": "The columns of a body's jacobian and djacobian at the degrees of freedom of a joint which is not on the path from the ground to the body are zero; the ground's are zero.", "quantifier": "all finite trees", "why_tests_cant": "unbounded trees", "anchors": ["arboris/core.py:Body.update_dynamic"]}
{"id": "C23", "title": "Body djacobian is the time derivative of the body jacobian", "statement": "Along any differentiable motion of the joints of any tree, d/dt jacobian = djacobian for every body, hence d/dt twist = jacobian\u00b7gacc + djacobian\u00b7gvel. (FALSE of the code for trees with a multi-axis joint - RzRyRx, RzRy, RzRx, RyRx, Free - below a moving parent, because update_dynamic uses the wrong idadjoint of C12; proved for all trees whose joints below moving bodies are one-axis, fixed or TxTyTz.)", "quantifier": "all finite trees, all differentiable joint trajectories", "why_tests_cant": "unbounded trees and continuum", "anchors": ["arboris/core.py:Body.update_dynamic"]}
{"id": "C24", "title": "Body twist is the velocity of the body pose", "statement": "Along any differentiable motion of the joints of any tree, d/dt pose_b = pose_b hat(twist_b) for every body.", "quantifier": "all finite trees, all differentiable joint trajectories", "why_tests_cant": "idem", "anchors": ["arboris/core.py:Body.update_dynamic"]}
{"id": "C25", "title": "Sub-frames move rigidly with their body", "statement": "For a SubFrame with constant bpose, pose, twist, jacobian and djacobian are those of the point rigidly attached to the body: pose = body.pose\u00b7bpose, twist = jacobian\u00b7gvel, pose' = pose\u00b7hat(twist), d/dt jacobian = djacobian.", "quantifier": "all bposes and all motions of the body", "why_tests_cant": "continuum", "anchors": ["arboris/core.py:_SubFrame", "arboris/core.py:SubFrame", "arboris/core.py:MovingSubFrame"]}
{"id": "C26", "title": "A SubFrame's bpose is constant", "statement": "bpose of a SubFrame never changes after construction. (FALSE of the code: the caller's array is stored without copy, so writing to the array passed to the constructor, or moving a MovingSubFrame built from the same array, moves the frame; true for histories in which nobody writes through the shared array.)", "quantifier": "all histories of array writes", "why_tests_cant": "needs all aliasing histories", "anchors": ["arboris/core.py:_SubFrame", "arboris/core.py:SubFrame"]}
{"id": "C27", "title": "The world mass matrix is symmetric, positive semi-definite, and gives the kinetic energy", "statement": "world.mass = \u03a3_b J_b\u1d40 M_b J_b is symmetric; \u03bd\u1d40 mass \u03bd = \u03a3_b T_b\u1d40 M_b T_b \u2265 0 for positive semi-definite body masses; it is positive definite as soon as every non-zero \u03bd moves some body having a positive definite mass.", "quantifier": "all finite trees, all velocities", "why_tests_cant": "unbounded trees", "anchors": ["arboris/core.py:World.update_dynamic", "arboris/core.py:Body.update_dynamic"]}
{"id": "C28", "title": "Gyroscopic effects of each body are the Newton-Euler bias and do no work", "statement": "For a body whose mass matrix has the rigid-body structure with mass above the 1e-10 threshold, nleffects\u00b7T equals the Newton-Euler bias wrench of the twist T, and T\u1d40 nleffects T = 0. For bodies at or below the threshold the centre of mass offset is ignored.", "quantifier": "all body mass matrices and twists", "why_tests_cant": "continuum", "anchors": ["arboris/core.py:Body.update_dynamic"]}
{"id": "C29", "title": "Power balance of the multibody system", "statement": "Along any differentiable motion of any tree of bodies with rigid-body mass matrices, d/dt (\u00bd \u03bd\u1d40 mass \u03bd) = \u03bd\u1d40 (mass \u03bd' + nleffects \u03bd). (FALSE of the code for the same trees as C23.)", "quantifier": "all finite trees, all differentiable motions", "why_tests_cant": "unbounded trees and continuum", "anchors": ["arboris/core.py:World.update_dynamic"]}
{"id": "C30", "title": "world.init numbers the degrees of freedom as a contiguous partition", "statement": "After init, joints in depth-first order own consecutive, disjoint index ranges that cover 0..ndof-1 exactly, ndof is the sum of the joints' ndof, and each joint's velocity before init is found at its range of gvel.", "quantifier": "all trees and joint sizes", "why_tests_cant": "unbounded", "anchors": ["arboris/core.py:World.init", "arboris/core.py:JointsList.dof"]}
{"id": "C31", "title": "Joint.gvel is a live view of the world's velocity after init", "statement": "init carries each joint's velocity over. After it, through any history of in-place writes to joint.gvel, writes into arrays returned by world.gvel, integrates and further inits, joint.gvel[i] equals world.gvel[dof.start+i]; an in-place write changes exactly that entry; writing into the array returned by world.gvel changes nothing (it is a copy); after integrate every joint.gvel is its part of the new velocity; rebinding joint.gvel = x is not seen by the world and is lost at the next integrate.", "quantifier": "all trees, all histories of writes", "why_tests_cant": "aliasing over all histories", "anchors": ["arboris/core.py:World.init", "arboris/core.py:World.integrate"]}
{"id": "C32", "title": "integrate satisfies the discretised equation of motion", "statement": "After update_controllers(dt), update_constraints(dt) and integrate(dt), the new gvel satisfies (mass/dt + viscosity + nleffects - \u03a3Z) gvel\u207a = mass gvel/dt + \u03a3 controllers' gforce + \u03a3 constraints' gforce, whenever that matrix is invertible.", "quantifier": "all worlds, controllers, constraints, dt>0", "why_tests_cant": "continuum and unbounded lists", "anchors": ["arboris/core.py:World.update_controllers", "arboris/core.py:World.integrate"]}
{"id": "C33", "title": "Registered controllers' contributions add up, in any order", "statement": "gforce and the impedance used by a step are the sums of each controller's (gforce, impedance) pair, independent of registration order.", "quantifier": "all lists of controllers", "why_tests_cant": "unbounded, all orders", "anchors": ["arboris/core.py:World.update_controllers"]}
{"id": "C34", "title": "The PD controller is an implicit proportional-derivative law", "statement": "For linear joints that all have the same number of dofs, the generalized force plus impedance times new velocity returned by ProportionalDerivativeController.update equals Kp(q_d - q\u207a) + Kd(dq_d - dq\u207a) at the end-of-step state q\u207a = q + dt\u00b7dq\u207a on the controlled dofs and zero elsewhere. For joints of different numbers of dofs update raises ValueError (a defect: the constructor accepts them).", "quantifier": "all joint lists with distinct dofs, all gains, all states", "why_tests_cant": "unbounded", "anchors": ["arboris/controllers.py:ProportionalDerivativeController"]}
{"id": "C35", "title": "The weight controller applies exactly gravity", "statement": "The power of WeightController's gforce on the current velocity is the derivative of gravity \u00b7 \u03a3 over bodies of mass \u00b7 (up \u00b7 position of the centre of mass), i.e. minus the rate of potential energy; its impedance is zero; bodies it filters out contribute nothing, and no body of positive mass is filtered out.", "quantifier": "all trees, all velocities, all mass matrices with rigid-body structure", "why_tests_cant": "unbounded", "anchors": ["arboris/controllers.py:WeightController"]}
{"id": "C36", "title": "The Gauss-Seidel sweep keeps the constraint velocities consistent with the constraint forces", "statement": "During update_constraints, after any number of constraint solves, the tracked velocity vector equals constraint-jacobian \u00b7 (velocity the world will have after integrate with the current constraint forces).", "quantifier": "all lists of constraints, all solvers, all sweep counts", "why_tests_cant": "all histories of solves", "anchors": ["arboris/core.py:World.update_constraints"]}
{"id": "C37", "title": "A single ball-and-socket constraint closes in one step", "statement": "With one active BallAndSocketConstraint, after update_constraints and integrate, the linear gap satisfies p01 + dt\u00b7(constraint jacobian\u00b7gvel\u207a) = 0.", "quantifier": "all worlds and states with invertible constraint admittance", "why_tests_cant": "continuum", "anchors": ["arboris/constraints.py:BallAndSocketConstraint", "arboris/core.py:World.update_constraints"]}
{"id": "C38", "title": "BallAndSocket constraint velocity is the derivative of the gap", "statement": "The constraint jacobian of BallAndSocketConstraint times gvel is the time derivative of the gap position as documented. (FALSE of the code in general: it is p01' plus p01\u00d7\u03c9; equal when the gap is zero or parallel to the relative rotation.)", "quantifier": "all motions of two frames", "why_tests_cant": "continuum", "anchors": ["arboris/constraints.py:BallAndSocketConstraint.jacobian", "arboris/constraints.py:BallAndSocketConstraint.update"]}
{"id": "C39", "title": "One-dof joint limits are enforced", "statement": "For a 1-dof JointLimits and positive admittance, after solve the predicted position lies within [min,max] at the end of the step, the force is zero when the limits are not reached and otherwise pushes inwards, never outwards (Signorini conditions).", "quantifier": "all limits, positions, velocities, admittances", "why_tests_cant": "continuum", "anchors": ["arboris/constraints.py:JointLimits"]}
{"id": "C40", "title": "Joint limits on several dofs at once are all enforced", "statement": "For a multi-dof JointLimits the predicted positions of all dofs are within limits after solve. (FALSE of the code: when one dof violates its minimum, dofs violating their maximum are left unconstrained.)", "quantifier": "all limits and states", "why_tests_cant": "witness outside the 1-dof tests", "anchors": ["arboris/constraints.py:JointLimits.solve"]}
{"id": "C41", "title": "Soft-finger contact never pulls", "statement": "The normal force returned by SoftFingerContact.solve is non-negative. (FALSE of the code: the static branch accepts a solution inside the friction ellipsoid with negative normal component; proved when the normal/tangential admittance coupling is zero.)", "quantifier": "all admittances, velocities, gaps", "why_tests_cant": "needs a witness or a proof over the continuum", "anchors": ["arboris/constraints.py:SoftFingerContact.solve"]}
{"id": "C42", "title": "Soft-finger contact in the sticking branch enforces no slip and no penetration; free flight gives no force", "statement": "If no penetration is predicted the force is zero; otherwise, when the trial static force lies in the friction ellipsoid, the resulting tangential velocity and spin are zero, the predicted gap is zero, and the force satisfies the ellipsoid friction bound; when it does not, the predicted gap still closes and the friction force opposes the sliding motion.", "quantifier": "all admittances, velocities, gaps", "why_tests_cant": "continuum", "anchors": ["arboris/constraints.py:SoftFingerContact.solve"]}
{"id": "C43", "title": "Disabled or inactive constraints have no effect", "statement": "A constraint whose is_enabled() or is_active() is False contributes nothing to the generalized forces of the step and is not solved; removing it from the world leaves the step unchanged.", "quantifier": "all lists of constraints", "why_tests_cant": "unbounded lists", "anchors": ["arboris/core.py:World.update_constraints"]}
{"id": "C44", "title": "Constraint forces are consistent with virtual power", "statement": "The generalized force of any set of constraints, dotted with any velocity \u03bd, equals the sum over constraints of force \u00b7 (constraint jacobian \u00b7 \u03bd).", "quantifier": "all lists of constraints and velocities", "why_tests_cant": "unbounded lists", "anchors": ["arboris/core.py:World.update_constraints"]}
{"id": "C45", "title": "simulate follows the timeline exactly", "statement": "simulate(world, timeline, observers) for a strictly increasing timeline initialises each observer once, performs len(timeline)-1 steps whose dt are the successive differences, calls update on every observer at each step after the dynamic update with the world still at the step's start time, ends with world.current_time = last time, and calls finish once on each observer.", "quantifier": "all timelines and observer lists", "why_tests_cant": "unbounded", "anchors": ["arboris/core.py:simulate"]}
{"id": "C46", "title": "simulate rejects timelines that are not strictly increasing, without finishing", "statement": "If the timeline has a non-increasing pair the run stops with an AssertionError at that step, having integrated exactly the steps before it, and no observer's finish is called; an empty timeline is an IndexError before observers are finished.", "quantifier": "all timelines", "why_tests_cant": "unbounded", "anchors": ["arboris/core.py:simulate", "arboris/core.py:World.integrate"]}
{"id": "C47", "title": "Recorders capture every step", "statement": "After simulate, an observer of the _Recorder family holds one record per step, record k being the observed value at step k; the arrays have no unfilled entry.", "quantifier": "all timelines, all observed quantities", "why_tests_cant": "unbounded", "anchors": ["arboris/observers.py:_Recorder"]}
{"id": "C48", "title": "Sphere-sphere contact geometry", "statement": "The signed distance between two spheres (or points) is centre distance minus radii, symmetric in the arguments; the contact frames are rigid motions in ground coordinates, z axes along the centres line, their origins lie on the two spheres and are sdist apart along z; coincident centres are the only failure.", "quantifier": "all positions and radii", "why_tests_cant": "continuum", "anchors": ["arboris/collisions.py:_sphere_sphere_collision"]}
{"id": "C49", "title": "Box-sphere contact geometry outside the box", "statement": "When the sphere centre is outside the box, sdist is the Euclidean distance of the centre to the box minus the radius, the box contact point is the closest point of the box and the normal points from it to the centre.", "quantifier": "all poses, sizes and positions", "why_tests_cant": "continuum", "anchors": ["arboris/collisions.py:_box_sphere_collision"]}
{"id": "C50", "title": "Box-sphere contact geometry when the centre is inside the box", "statement": "When the sphere centre is inside the box, the contact normal is the (ground-frame) outward normal of the nearest face. (FALSE of the code: the normal is left in box coordinates; correct when the box is axis-aligned with the ground.)", "quantifier": "all poses", "why_tests_cant": "continuum", "anchors": ["arboris/collisions.py:_box_sphere_collision"]}
{"id": "C51", "title": "Plane-sphere contact geometry", "statement": "For a plane shape attached to any frame, sdist is the signed distance of the sphere to the plane a x+b y+c z+d=0 documented by the Plane shape and the contact frames are in ground coordinates, on the plane and on the sphere. (FALSE of the code: sign of d, missing ground pose, and wrong side when penetrating; proved for a plane through a frame coincident with ground, with d negated, sdist>0.)", "quantifier": "all planes, poses, radii", "why_tests_cant": "continuum", "anchors": ["arboris/collisions.py:_plane_sphere_collision", "arboris/shapes.py:Plane"]}
{"id": "C52", "title": "Collision solver choice does not depend on the order of the shapes", "statement": "choose_solver(a,b) succeeds iff choose_solver(b,a) does, and then picks the same pair up to swap. (FALSE of the code: (Box,Point) is supported, (Point,Box) raises NotImplementedError.)", "quantifier": "all shape-class pairs", "why_tests_cant": "finite table, but a property of all pairs", "anchors": ["arboris/collisions.py:choose_solver"]}
{"id": "C53", "title": "get_all_contacts enumerates each pair of shapes of distinct bodies exactly once", "statement": "get_all_contacts yields exactly one contact for each unordered pair of registered shapes that belong to different bodies and are supported in registration order, and none for shapes of the same body.", "quantifier": "all lists of shapes", "why_tests_cant": "unbounded lists", "anchors": ["arboris/constraints.py:get_all_contacts"]}
{"id": "C54", "title": "The kinematic structure stays a tree", "statement": "Through any history of add_link/replace_joint/register calls in which the ground is never used as the moving frame, bodies reachable from ground form a tree: every body is visited exactly once by iterbodies and its parentjoint chain leads to ground; traversal terminates.", "quantifier": "all histories of API calls", "why_tests_cant": "unbounded histories", "anchors": ["arboris/core.py:World.add_link", "arboris/core.py:Body.iter_descendant_bodies"]}
{"id": "C55", "title": "The kinematic tree cannot be closed into a loop", "statement": "No sequence of successful add_link calls creates a kinematic loop. (FALSE of the code: the ground has no parentjoint, so it is accepted as the moving body; traversals then never terminate.)", "quantifier": "all histories", "why_tests_cant": "needs the right history; termination is not testable", "anchors": ["arboris/core.py:World.add_link"]}
{"id": "C56", "title": "A failing add_link leaves the world unchanged", "statement": "If add_link raises, the world and the joint are as before the call. (FALSE of the code: the joint's frames stay set, so a corrected retry fails with an assertion; links listed before the offending one stay committed. The body graph itself is unchanged by the failing link.)", "quantifier": "all worlds and arguments, all failure points", "why_tests_cant": "exception-path states", "anchors": ["arboris/core.py:World.add_link"]}
{"id": "C57", "title": "replace_joint exchanges a joint in place", "statement": "A successful replace_joint(old, new) with one joint keeps the set and order of bodies, detaches old, and puts new between the same bodies; (FALSE on failure: old joint is detached in part and the world is left inconsistent).", "quantifier": "all worlds", "why_tests_cant": "unbounded worlds", "anchors": ["arboris/core.py:World.replace_joint"]}
{"id": "C58", "title": "register is idempotent and keeps registries duplicate free", "statement": "Registering any sequence of objects, with repetitions, yields registries without duplicates, in first-registration order; registering a shape also registers its frame first; registering a Joint is refused with ValueError and no change.", "quantifier": "all histories of register calls", "why_tests_cant": "unbounded histories", "anchors": ["arboris/core.py:World.register"]}
{"id": "C59", "title": "World.parse registers everything reachable exactly once", "statement": "parse(target) calls the target's hooks so that each sub-frame, shape, constraint and controller is announced once and links in depth-first order, each link's base frame being announced before the link.", "quantifier": "all worlds", "why_tests_cant": "unbounded worlds", "anchors": ["arboris/core.py:World.parse"]}
{"id": "C60", "title": "NamedObjectsList lookup semantics", "statement": "list[name] returns the first element with that name and raises KeyError iff there is none; find(name) returns all of them in order; integer/slice indexing is list indexing; as_dict maps each name to its object when names are distinct.", "quantifier": "all lists", "why_tests_cant": "unbounded lists", "anchors": ["arboris/core.py:NamedObjectsList"]}
{"id": "C61", "title": "Duplicate names are reported by DuplicateNameError", "statement": "as_dict on a list with duplicate names raises DuplicateNameError. (FALSE of the code: DuplicateNameError's constructor requires an argument that is not given, a TypeError is raised.)", "quantifier": "all lists with duplicates", "why_tests_cant": "all inputs on the error path", "anchors": ["arboris/core.py:NamedObjectsList.as_dict", "arboris/core.py:DuplicateNameError"]}
{"id": "C62", "title": "name_all_elements gives everything a name and detects clashes", "statement": "After name_all_elements(list, check_unicity=True), every element has a non-empty name, elements named before keep their names, and success implies names are pairwise distinct. (FALSE when given a generator: the check sees an exhausted generator and duplicates pass.)", "quantifier": "all sequences / generators of elements", "why_tests_cant": "unbounded", "anchors": ["arboris/core.py:name_all_elements"]}
{"id": "C63", "title": "EnergyMonitor reports the kinetic energy and the potential energy of the world", "statement": "For every tree whose bodies have positive definite rigid-body mass matrices, init raises nothing and each update appends the time, kinetic = \u03a3_b \u00bd T_b\u1d40M_bT_b, potential = 9.81\u00b7\u03a3_b m_b\u00b7height of the centre of mass of b, and their sum. (A body with a null mass matrix makes init raise AssertionError.) The potential energy goes with the default weight controller: its derivative is minus the power of that controller.", "quantifier": "all trees", "why_tests_cant": "unbounded", "anchors": ["arboris/observers.py:EnergyMonitor"]}
{"id": "C64", "title": "CoMObserver position and jacobian", "statement": "CoMObserver's position is the mass-weighted mean of the bodies' centres of mass; its jacobian times gvel is the time derivative of that position.", "quantifier": "all trees, all motions", "why_tests_cant": "unbounded and continuum", "anchors": ["arboris/observers.py:CoMObserver"]}
{"id": "C65", "title": "CoMObserver dJacobian is the derivative of its jacobian", "statement": "d/dt jacobian = dJacobian along all motions. (FALSE of the code: the centrifugal term of the centre of mass offset is dropped; true when centres of mass are at body origins.)", "quantifier": "all motions", "why_tests_cant": "continuum", "anchors": ["arboris/observers.py:CoMObserver"]}
{"id": "C66", "title": "Hdf5Logger can save every group it declares", "statement": "After a complete run, finish() succeeds and the file contains the documented datasets, for every choice of save_state/save_transforms/save_model. (FALSE of the code: every dataset is required with shape (nb_steps,4,4); proved for transforms only, with the exact condition of success.)", "quantifier": "all option choices and worlds", "why_tests_cant": "all configurations", "anchors": ["arboris/observers.py:Hdf5Logger"]}
{"id": "C67", "title": "hsv_to_rgb stays in the unit cube and hits the documented colours", "statement": "For h in [0,360), s and v in [0,1] hsv_to_rgb returns components in [0,1], max component v, min component v(1-s).", "quantifier": "all real h,s,v", "why_tests_cant": "continuum", "anchors": ["arboris/visu/world_drawer.py:hsv_to_rgb"]}
{"id": "C68", "title": "ColorGenerator assigns a stable colour to each body", "statement": "Asking twice for the same body gives the same colour at any later time; distinct bodies get distinct palette entries until the palette is exhausted, after which white is returned.", "quantifier": "all request histories", "why_tests_cant": "unbounded histories", "anchors": ["arboris/visu/world_drawer.py:ColorGenerator"]}
{"id": "C69", "title": "URDF joint origins are honoured at zero position", "statement": "For every origin (xyz, rpy) and every unit axis, the joint made from a revolute (prismatic) URDF joint has one degree of freedom, puts the child, at position q, at the joint's origin followed by the rotation of angle q about (translation of q along) the axis, up to the replacement of the axis by a coordinate axis it is allclose to; fixed joints keep the child at the origin, floating joints are free joints placed there, other types raise KeyError.", "quantifier": "all origins, unit axes and positions", "why_tests_cant": "continuum", "anchors": ["arboris/robots/urdf/__init__.py:to_arboris"]}
{"id": "C70", "title": "URDF prefix/suffix loading works for every model", "statement": "A model that can be loaded can also be loaded with a non-empty prefix or suffix. (FALSE of the code: bodies are stored under decorated names but looked up by raw names, so that no model at all can be loaded with a prefix or suffix.)", "quantifier": "all models", "why_tests_cant": "all inputs", "anchors": ["arboris/robots/urdf/__init__.py:URDFConverter.load_in_world"]}
{"id": "C71", "title": "URDF chains are paths of the parent relation", "statement": "Whatever the order of the elements in the file, the tables of a parsed model agree with its joints; get_root returns the unique link that is the child of no joint, else raises AssertionError; get_chain(root, tip) lists the alternating links and joints from root to tip along the parent relation, as filtered by its options, and raises KeyError when the root is not an ancestor of the tip.", "quantifier": "all acyclic models", "why_tests_cant": "unbounded", "anchors": ["arboris/robots/urdf/urdf_parser.py:URDF.get_chain", "arboris/robots/urdf/urdf_parser.py:URDF.get_root", "arboris/robots/urdf/urdf_parser.py:URDF.add_joint"]}
{"id": "C72", "title": "human36: consistent anthropometry, right tree, standing posture", "statement": "height_from_anat_lengths(anat_lengths_from_height(h)) = h for all h; legs of unequal lengths raise ValueError, a negative mass AssertionError; otherwise, in any world, add_human36 hangs a tree of 17 bodies and 42 dofs below the ground, changes nothing else, with masses that sum to the requested mass, and leaves the human standing: feet tags at height 0, vertex tag at the computed height.", "quantifier": "all heights, masses, dictionaries of lengths, prefixes, all worlds it is added to", "why_tests_cant": "continuum", "anchors": ["arboris/robots/human36.py"]}
{"id": "C73", "title": "simplearm and snake kinematics have the closed form", "statement": "The planar arm's end-effector pose equals the textbook closed form for all joint angles and lengths; a snake of n bodies has n (or n+6 with a free base) dofs and its k-th body sits at the product of k elementary links.", "quantifier": "all joint angles, all n", "why_tests_cant": "unbounded", "anchors": ["arboris/robots/simplearm.py", "arboris/robots/snake.py"]}
{"id": "C74", "title": "Integrating a free rigid body", "statement": "Without controllers and constraints, an integrate step of a free rigid body never fails, never increases the norm of its linear or angular momentum in the body frame, and (claimed) does not increase its kinetic energy. The energy part is FALSE of the code: the gyroscopic matrix is evaluated at the old velocity, and a body with inertia diag(1,2,4) spinning at (1,1,0) gains energy in one step of dt=1. It holds whenever the gyroscopic matrix does no work on the new velocity.", "quantifier": "all free bodies, velocities, dt>0", "why_tests_cant": "continuum", "anchors": ["arboris/core.py:World.integrate"]}
{"id": "C75", "title": "PointContact contact frames and gap velocity", "statement": "After PointContact.update the two contact MovingSubFrames have exactly the ground poses computed by the collision solver, and the constraint's normal velocity row times gvel is the time derivative of the sphere-sphere signed distance.", "quantifier": "all states", "why_tests_cant": "continuum", "anchors": ["arboris/constraints.py:PointContact.update", "arboris/constraints.py:SoftFingerContact.jacobian"]}
{"id": "C76", "title": "Drawer transforms compose to frame poses", "statement": "In both flat and hierarchical drawing modes, composing the transforms emitted from ground to a frame gives the frame's current pose.", "quantifier": "all worlds", "why_tests_cant": "unbounded", "anchors": ["arboris/visu/world_drawer.py:Drawer"]}
{"id": "C77", "title": "Sliding soft-finger force lies on the friction ellipsoid", "statement": "When a soft-finger contact slides, the tangential force and torsional torque it applies lie on the friction ellipsoid of the normal force (Coulomb's law). FALSE of the code in general: the matrix product dot(beta, beta.T) of two 1-d arrays is a scalar, so with coupled or anisotropic admittance the force falls short of the ellipsoid. It holds for isotropic, uncoupled contacts.", "quantifier": "all admittances, velocities, gaps, friction coefficients", "why_tests_cant": "continuum of contact states", "anchors": ["arboris/constraints.py:SoftFingerContact.solve"]}
{"id": "C78", "title": "SaveLogger records every documented quantity at every step", "statement": "For every choice of flags and every world whose recorded transforms have distinct names, the data saved by PickleLogger after a simulation are exactly the documented datasets, of the documented shapes, row k holding the values at step k; timeline is timeline[:-1].", "quantifier": "all worlds, flags, timelines, numbers of steps", "why_tests_cant": "unbounded runs and worlds", "anchors": ["arboris/observers.py:SaveLogger", "arboris/observers.py:PickleLogger", "arboris/core.py:simulate"]}
{"id": "C79", "title": "SaveLogger refuses worlds with duplicated transform names", "statement": "init raises DuplicateNameError whenever two recorded transforms (bodies or joints' second frames, and moving sub-frames) share a name. (FALSE of the code: bodies and moving sub-frames are given to the check as generators, already exhausted; and the two groups are not checked against each other: transforms are silently lost. True in hierarchical mode without moving sub-frames, and for joints' states.)", "quantifier": "all worlds", "why_tests_cant": "all namings", "anchors": ["arboris/observers.py:SaveLogger.init", "arboris/core.py:name_all_elements"]}
{"id": "C80", "title": "add_link hangs exactly one leaf", "statement": "On a world whose structure is a tree, add_link(f0, j, f1) with an unused joint j, f0 a frame of a body of the tree and f1 a frame of an unused body succeeds; the new structure is the old tree with exactly one more leaf, hung by (f0, j, f1) after the other children of f0's body: every other link, body and path is unchanged. A sequence of such calls hangs its bodies one after the other.", "quantifier": "all worlds that are trees, all frames, all sequences of such calls", "why_tests_cant": "unbounded trees and sequences", "anchors": ["arboris/core.py:World.add_link"]}
{"id": "C81", "title": "Tree depth is limited by the interpreter's recursion limit, and only by it", "statement": "On any tree world, init (and the joint iterator) succeeds exactly when the depth of the tree is below the recursion limit, and raises RecursionError otherwise; in particular add_snake with as many links as the limit always raises.", "quantifier": "all trees, all limits, all snakes", "why_tests_cant": "unbounded depth", "anchors": ["arboris/core.py:World.init", "arboris/core.py:Body.iter_descendant_joints", "arboris/robots/snake.py:add_snake"]}
{"id": "C82", "title": "human36 is symmetric", "statement": "In a human made from a height, each left segment is the mirror image of the right one: same mass, mirrored centre of mass and inertia, mirrored place (false for the inertia of the hands).", "quantifier": "all heights and masses, all pairs of segments", "why_tests_cant": "continuum", "anchors": ["arboris/robots/human36.py: add_human36"]}
{"id": "C83", "title": "URDF inertias", "statement": "The mass matrix given to the body of a URDF link with a physical <inertial> is that of a rigid body with the given mass, centre of mass at the origin of the element, and the given inertia about it, turned by its rotation.", "quantifier": "all masses, inertias and origins", "why_tests_cant": "continuum", "anchors": ["arboris/robots/urdf/__init__.py:to_arboris"]}
{"id": "C84", "title": "Loading a URDF model builds its tree", "statement": "Loading a well-formed URDF model (distinct names, each link the child of at most one joint, one root, no cycle) adds to the world exactly one body per link and one joint per URDF joint, forming the tree described by the model hung under the ground, whatever the order in which the dictionaries enumerate links and joints.", "quantifier": "all well-formed models, enumeration orders and worlds", "why_tests_cant": "unbounded trees, all orders", "anchors": ["arboris/robots/urdf/__init__.py:URDFConverter.load_in_world"]}
{"id": "C85", "title": "URDF tables of limits", "statement": "get_joint_limits, get_effort_limits and get_velocity_limits return, under decorated names, the limits of exactly the joints that have some. (FALSE of the code: a single joint without <limit>, such as a fixed joint, makes all three raise AttributeError.)", "quantifier": "all models", "why_tests_cant": "all inputs", "anchors": ["arboris/robots/urdf/__init__.py:URDFConverter.get_joint_limits", "arboris/robots/urdf/__init__.py:URDFConverter.get_effort_limits", "arboris/robots/urdf/__init__.py:URDFConverter.get_velocity_limits"]}
{"id": "C86", "title": "The constraint solver converges for ball-and-socket constraints", "statement": "In a world whose active constraints are ball-and-socket constraints and whose admittance, seen by the constraints, is symmetric positive definite, update_constraints followed by integrate closes all the gaps at once, as precisely as wanted when enough iterations are allowed and the tolerance is zero; with a tolerance tol > 0 the final gaps are at most a constant times dt times tol, the constant depending only on the constraints' admittance.", "quantifier": "any number of constraints, any coupling between them, any velocities, forces and gaps, any tolerance", "why_tests_cant": "convergence is a statement about an unbounded number of iterations for all systems", "anchors": ["arboris/core.py:World.update_constraints", "arboris/constraints.py:BallAndSocketConstraint.solve", "arboris/core.py:World.integrate"]}
{"id": "C87", "title": "A simulation is a discrete evolution of the mechanical system", "statement": "When simulate(world, timeline, observers) returns normally: world.init() has numbered the dofs of the joints one after the other and gathered the joints' velocities in the world's gvel; then for each pair of successive times the controllers and constraints are asked in a world whose body poses, jacobians, twists and mass, viscosity and non-linear matrices are those of the current joint positions and velocities; the observers see that world; the velocity at the next time solves the discretised equation of motion with the sum of all the controllers' and active constraints' forces; every joint moves at its part of the new velocity (gpos + dt gvel, or gpos exp(dt gvel) for a free joint) and nothing else changes in the tree. All body poses seen are rigid motions (as long as no free joint rotates by a non-zero angle below 0.001 rad in a step), and with rigid frames and no free joint the only failure possible on an increasing timeline is LinAlgError on a singular impedance matrix.", "quantifier": "all trees of bodies, joints of all classes, any controllers and constraints, all timelines, any number of observers and steps", "why_tests_cant": "it relates every state of every run to the previous one, whatever the tree, the controllers and the number of steps", "anchors": ["arboris/core.py:simulate", "arboris/core.py:World.init", "arboris/core.py:World.update_dynamic", "arboris/core.py:World.update_controllers", "arboris/core.py:World.update_constraints", "arboris/core.py:World.integrate"]}
{"id": "C88", "title": "Simulations can be resumed and shifted in time", "statement": "With controllers that do not look at the forces of the previous step, simulating over a timeline up to t and then, on the same world, from t on, succeeds exactly when simulating over the whole timeline does, shows the observers the same worlds and ends in the same state (calling world.init() again changes neither positions nor velocities). Adding a constant to all the times of the timeline changes only the times shown.", "quantifier": "all worlds, controllers, constraints, timelines, places of the interruption, shifts", "why_tests_cant": "all runs and all interruption points", "anchors": ["arboris/core.py:simulate", "arboris/core.py:World.init"]}
{"id": "C89", "title": "Mechanisms that are not connected do not influence each other", "statement": "Let two worlds without constraints be simulated successfully over the same timeline. A world where both mechanisms hang side by side from the ground, with controllers doing to each mechanism what they did in its own world (for instance one WeightController), can be simulated over this timeline; at each step the observers see every body where it is in its own world, moving in the same way, under the same generalized forces, the mass, viscosity and non-linear matrices being block-diagonal; at the end every joint is where it is in its own world.", "quantifier": "all pairs of mechanisms, controllers acting separately, timelines, numbers of observers", "why_tests_cant": "all trees, states and runs of any length", "anchors": ["arboris/core.py:World.init", "arboris/core.py:World.update_dynamic", "arboris/core.py:World.update_controllers", "arboris/core.py:World.integrate", "arboris/core.py:simulate", "arboris/controllers.py:WeightController"]}
{"id": "C90", "title": "The place and orientation of a whole mechanism do not matter", "statement": "Attach the joints hanging from the ground elsewhere, all moved by the same rigid motion Q, with controllers and constraints doing there what they did (for a WeightController: the vertical direction turned with the mechanism, so nothing to do for translations and rotations about the vertical). The simulation, successful or not, is the same: same calls, same exceptions, same joint positions and velocities, jacobians, mass, viscosity and non-linear matrices, forces; only the poses of the bodies are moved, by Q.", "quantifier": "all worlds, rigid motions, controllers, constraints, timelines, observers", "why_tests_cant": "all trees, states, motions and runs", "anchors": ["arboris/core.py:Body.update_dynamic", "arboris/core.py:simulate", "arboris/controllers.py:WeightController"]}
{"id": "C91", "title": "The units of mass and time do not matter", "statement": "Express a world without constraints in other units of mass and time (velocities, viscosities, impedances, forces, gravity converted accordingly) and the timeline too: the simulation, successful or not, is the same, expressed in the new units. False for bodies whose mass is below 1e-10 in one unit and above in the other: world.update_dynamic() ignores the centre of mass of the former.", "quantifier": "all worlds without constraints, positive unit factors, controllers, timelines", "why_tests_cant": "all trees, states, factors and runs", "anchors": ["arboris/core.py:Body.update_dynamic", "arboris/core.py:World.update_controllers", "arboris/core.py:World.integrate", "arboris/core.py:simulate"]}
{"id": "C92", "title": "A body held by a FixedJoint can be merged into its parent", "statement": "Replace a body and its child held by a FixedJoint by one body whose mass (and viscosity) is the sum of theirs expressed in the parent's frame, hanging the child's children on it at the same place: every remaining body keeps its pose, twist and jacobians, and world.mass, world.viscosity, the forces of gravity and the bias forces nleffects*gvel are the same. The matrix world.nleffects itself is not the same (so the implicit integration steps differ).", "quantifier": "all trees, positions of the two bodies in it, attachments, masses, joint states", "why_tests_cant": "all trees, poses and states", "anchors": ["arboris/core.py:Body.update_dynamic", "arboris/core.py:World.update_dynamic", "arboris/joints.py:FixedJoint", "arboris/massmatrix.py:transport", "arboris/controllers.py:WeightController"]}
{"id": "C93", "title": "A body fixed to the ground changes nothing", "statement": "Remove from a world a body held to the ground by a FixedJoint, whatever its mass, and hang what hung below it directly from the ground at the same place: the simulation, successful or not, is the same: same calls and exceptions, same joint positions and velocities, same matrices and forces, same poses, twists and jacobians of all other bodies. Gravity is indifferent to the body.", "quantifier": "all worlds, controllers and constraints that do not depend on the body, timelines", "why_tests_cant": "all trees, masses and runs", "anchors": ["arboris/core.py:World.init", "arboris/core.py:World.update_dynamic", "arboris/core.py:simulate", "arboris/joints.py:FixedJoint", "arboris/controllers.py:WeightController"]}
{"id": "C94", "title": "The order in which joints are attached does not matter", "statement": "Assemble the same mechanism with the joints attached in another order at every body: the degrees of freedom are then numbered otherwise, and that is the only difference. There is a renumbering such that the two simulations, successful or not, make the same calls and raise the same exceptions, and all along have the same joint positions and velocities, the same body poses and twists, the same constraint forces, and the same matrices, jacobians and generalized forces up to the renumbering.", "quantifier": "all trees and reorderings, controllers and constraints that do the same up to renumbering, timelines", "why_tests_cant": "all trees, all orders, all runs", "anchors": ["arboris/core.py:World.init", "arboris/core.py:World.iterjoints", "arboris/core.py:World.update_dynamic", "arboris/core.py:World.update_constraints", "arboris/core.py:World.integrate", "arboris/core.py:simulate"]}
{"id": "C95", "title": "The iCub robot is the one its tables describe", "statement": "icub.add succeeds in any world, whatever the order in which Python enumerates its tables, fixed or free, with or without shapes. It adds 33 bodies, 32 hinges and, if free, a free base, and only those; each body has the name and the mass matrix of the rigidly joined solids of its table, symmetric positive definite, and each joint the name, the place and the bodies of its table; the shapes and contact shapes are those of the tables. With a fixed base the ground takes the place of the waist. The total mass is 27.197066 kg (26.994096 kg without the waist). As the shapes of one body share a name, looking the shapes up by name then raises.", "quantifier": "all worlds, all enumeration orders of the dictionaries, all options", "why_tests_cant": "all worlds and enumeration orders", "anchors": ["arboris/robots/icub.py:add", "arboris/robots/icub.py:get_bodies_data", "arboris/robots/icub.py:get_joints_data", "arboris/robots/icub.py:get_contact_data"]}
{"id": "C96", "title": "The limits of the iCub are consistent", "statement": "The joint limits and the torque limits are given for all the joints of the robot and no other; in radians they are those in degrees, converted; each joint can move, by less than half a turn on either side; torques are positive; left and right limits are the same. The posture in which add leaves the robot is within all limits except those of the elbows.", "quantifier": "all joints", "why_tests_cant": "conversion over the reals", "anchors": ["arboris/robots/icub.py:get_joint_limits", "arboris/robots/icub.py:get_torque_limits"]}
{"id": "C97", "title": "The iCub is its own mirror image", "statement": "In two postures of the iCub that are mirror images of each other (bases symmetric about the plane y = 0, angles of left and right limbs exchanged, rolls and yaws of trunk and head opposite), every body is where its counterpart of the other side is in the other posture, seen in the mirror; their mass matrices are mirror images too, and so are the contact shapes of the two sides, same size at mirrored places (in the hands they are numbered otherwise on the two sides).", "quantifier": "all postures (32 angles and the pose of the base), all worlds", "why_tests_cant": "all postures", "anchors": ["arboris/robots/icub.py:get_joints_data", "arboris/robots/icub.py:get_bodies_data", "arboris/robots/icub.py:get_contact_data", "arboris/core.py:World.update_geometric"]}
{"id": "C98", "title": "replace_joint with a chain puts the chain in the joint's place", "statement": "replace_joint(old, f0, j1, f1, f1', j2, f2, ...) with unattached joints j1, j2, ... through bodies that are not in the world, leading from the body above old to the body below it, succeeds; afterwards the world is the same tree with the links one below the other at old's place (same rank among its siblings, the bodies that were below old now below the last link), joints and bodies are enumerated in that order, and old is unattached.", "quantifier": "all worlds built by API calls, all joints of them, all chains of any length", "why_tests_cant": "unbounded worlds and chains", "anchors": ["arboris/core.py:World.replace_joint", "arboris/core.py:World.add_link"]}
{"id": "C99", "title": "The Collada animation replays the logged simulation", "statement": "Write the Collada scene of a world (flat or not) and log the transforms of a simulation of it with Hdf5Logger or PickleLogger in the same mode; write_collada_animation of that scene and log gives, for every logged step, a document in which a viewer at that key sees every frame of the world at the pose it had at that step, and one node per shape attached to its frame. This needs frame names that are distinct and differ from the names given to shape nodes; a shape named like a frame takes the frame's id and the frame is then not animated, and view() called on a log with its default arguments always raises NameError.", "quantifier": "all worlds built by API calls, all trajectories and numbers of steps, both modes, all names", "why_tests_cant": "unbounded worlds, trajectories and namings; the pieces (logger, drawer, animation writer) are separate programs that must agree", "anchors": ["arboris/visu/dae_writer.py:write_collada_scene", "arboris/visu/dae_writer.py:write_collada_animation", "arboris/visu/visu_collada.py", "arboris/observers.py:PickleLogger", "arboris/observers.py:Hdf5Logger"]}
{"id": "C100", "title": "The Collada scene shows the shapes where collisions take them to be", "statement": "For every shape (point, sphere, box, cylinder, plane) with non-negative dimensions and unit normal, attached to a frame at any pose, the mesh and matrix written in the Collada scene show exactly the solid (a small ball for a point; for a plane, a piece of the plane a x+b y+c z = d used by the collision solvers), and every shape attached to the world has exactly one node, showing it at the pose of its frame. The plane drawn is not the documented a x+b y+c z+d = 0 unless d = 0.", "quantifier": "all shapes, dimensions, poses and worlds", "why_tests_cant": "real-valued dimensions and poses, unbounded worlds", "anchors": ["arboris/visu/dae_writer.py:pydaenimColladaDriver", "arboris/shapes.py", "arboris/visu/simple_shapes.dae"]}
{"id": "C101", "title": "Ids of a Collada scene are unique", "statement": "In the scene written for a world, no two nodes have the same id provided that no frame or shape other than the ground is called 'ground' and at most 101 frames and shapes have names equal, or equal up to a suffix _i, to a given name; with 102 of the same name, or one called 'ground', two nodes have the same id.", "quantifier": "all worlds built by API calls, all names", "why_tests_cant": "unbounded worlds and namings", "anchors": ["arboris/visu/dae_writer.py:pydaenimColladaDriver._get_collada_node", "arboris/visu/dae_writer.py:write_collada_scene"]}
{"id": "C102", "title": "The Collada rigid_body element describes the mass of the body", "statement": "For every positive definite mass matrix of a rigid body, the rigid_body element written (mass, mass_frame as a translation followed by turns about z, y, x in degrees, three moments) describes exactly that mass matrix, unless the principal frame is inside the band around the singularity of the angles without being singular.", "quantifier": "all mass matrices, all answers of eig", "why_tests_cant": "continuum of matrices", "anchors": ["arboris/visu/dae_writer.py:pydaenimColladaDriver.create_inertia", "arboris/massmatrix.py:principalframe", "arboris/homogeneousmatrix.py:rotzyx_angles"]}
{"id": "C103", "title": "PerfMonitor measures each step once", "statement": "After any simulation that returns, a PerfMonitor given to simulate has appended exactly one duration per step to its list: the times elapsed between the successive calls of its methods, whose sum is the time from init to the last update; a second simulation appends to the first. If it logs, it writes the start time of every step. get_summary shows the sum, the smallest, the mean and the largest, with smallest <= mean <= largest, and raises ValueError before any step.", "quantifier": "all worlds, timelines, clocks, numbers of observers, earlier uses of the monitor", "why_tests_cant": "all clocks and all histories", "anchors": ["arboris/observers.py:PerfMonitor", "arboris/core.py:simulate"]}
{"id": "C104", "title": "The viewer connected by DaenimCom shows the simulation", "statement": "Whatever the way the stream is cut into pieces, a viewer that reads what DaenimCom sends gets, at each step, the name and the pose (or relative pose) of every body and moving subframe, in order; a scene written at any time with the same mode, and updated by the messages received up to some step, shows every body and subframe at its pose at that step. A viewer that is closed, or that never connects, does not disturb the run.", "quantifier": "all worlds, steps, modes, names that are words, ways of writing numbers that can be read back", "why_tests_cant": "all worlds and all histories of messages", "anchors": ["arboris/visu/visu_collada.py:DaenimCom", "arboris/observers.py:SocketCom", "arboris/visu/dae_writer.py:write_collada_scene"]}
{"id": "C105", "title": "A mechanism and its mirror image move alike", "statement": "For every world without constraints, simulating its mirror image in planes of coordinates (points, bodies, frames, joint positions and velocities mirrored) with controllers that do in the mirror what the original ones do gives the mirror image of the simulation: same calls, same exceptions, every observer sees the mirror image. A WeightController is such a controller when its vertical is mirrored; in particular it can be kept if the plane is vertical.", "quantifier": "all trees of bodies and joints of every class, states, planes, controllers, timelines, observers", "why_tests_cant": "no left/right asymmetry anywhere in the kinematics, dynamics and integration, for every mechanism and every number of steps", "anchors": ["arboris/core.py:World", "arboris/joints.py", "arboris/homogeneousmatrix.py", "arboris/twistvector.py:exp", "arboris/controllers.py:WeightController"]}
{"id": "C106", "title": "The unit of length does not matter", "statement": "Describing a world without constraints with another unit of length (every length, linear velocity, moment of inertia, force scaled accordingly, gravity included) gives the same simulation seen in the new unit, with the same exceptions.", "quantifier": "all worlds without constraints, units, controllers that do the same in the new unit, timelines, observers", "why_tests_cant": "a length compared with a hidden constant, or a length added to an angle, anywhere, for any mechanism", "anchors": ["arboris/core.py:World", "arboris/joints.py", "arboris/homogeneousmatrix.py", "arboris/twistvector.py:exp"]}
{"id": "C107", "title": "What is symmetric stays symmetric", "statement": "If a world without constraints is its own mirror image in a plane and its controllers do in the mirror what they do in the world, then at every step of every simulation it is its own mirror image, and the origins of all bodies are in the plane: a planar motion stays planar.", "quantifier": "all symmetric worlds, controllers, timelines, observers, steps", "why_tests_cant": "invariant of arbitrarily long simulations of arbitrary mechanisms", "anchors": ["arboris/core.py:simulate", "arboris/core.py:World", "arboris/joints.py"]}
{"id": "C108", "title": "A robot description written to XML and read again", "statement": "URDF.to_xml followed by parse_xml_string gives back the same robot: same elements in the same order, same names, shapes, inertias, axes, limits; numbers up to the digits that are printed, and nothing more is lost by a second round. to_xml fails only with UnicodeEncodeError, exactly when a name or text of a joint, material or mesh cannot be converted. (Found false: mimic is lost; a file with an accent in the name of a joint is read but cannot be written.)", "quantifier": "all robot descriptions, all files, all ways of printing and reading numbers which are consistent", "why_tests_cant": "all trees of elements with all combinations of optional attributes", "anchors": ["arboris/robots/urdf/urdf_parser.py:URDF.to_xml", "arboris/robots/urdf/urdf_parser.py:URDF.parse_xml_string", "arboris/robots/urdf/urdf_parser.py:set_attribute"]}
{"id": "C109", "title": "What is read of a URDF file", "statement": "Comments, white space, unknown elements, unknown attributes and the order of attributes have no effect on parse_xml_string, errors included; of several visual, collision or inertial elements of a link only the last is kept.", "quantifier": "all XML trees", "why_tests_cant": "arbitrary documents", "anchors": ["arboris/robots/urdf/urdf_parser.py:children", "arboris/robots/urdf/urdf_parser.py:Link.parse", "arboris/robots/urdf/urdf_parser.py:URDF.parse_xml_string"]}
{"id": "C110", "title": "Axes of the joints of a URDF file", "statement": "An axis of three numbers is used whatever the white space, and a well-formed file is loaded with any layout; a joint whose axis is one of the letters x, y, z moves about that axis. (Found false: y and z raise TypeError; an axis given as a list raises AttributeError.)", "quantifier": "all joints, axes, texts, files", "why_tests_cant": "arbitrary texts and numbers", "anchors": ["arboris/robots/urdf/__init__.py:to_arboris", "arboris/robots/urdf/urdf_parser.py:Joint.parse"]}
{"id": "C111", "title": "A robot written for Matlab and read back", "statement": "MatlabRobotGenerator.make_robot of a robot with a free root and hinges (any tree) writes Matlab commands that, run and read again by convert_mat2py.m, give a script that builds the same robot: each body once, a parent before its children, same mass matrix, same hinge axis and placements. If make_robot raises, the file carries a warning; if it returns, it carries none. (Found false for a robot made of a single free body.)", "quantifier": "all trees of hinges under a free root, all masses, placements and states; all worlds for the warning", "why_tests_cant": "all trees, any branching and depth", "anchors": ["matlab/convert_py2mat.py:MatlabRobotGenerator", "matlab/convert_mat2py.m"]}
{"id": "C112", "title": "Masses and state in the Matlab file", "statement": "The mass matrix in the file is the body's one in the linear-first convention (same momentum, same kinetic energy), and the file ends with the robot's state: pose of the free joint, hinge positions, twist linear-first, hinge velocities, in the order the links are made. A generator can be used for a second robot. (Found false: the second always raises ValueError.)", "quantifier": "all mass matrices, trees and states", "why_tests_cant": "all reals, all trees", "anchors": ["matlab/convert_py2mat.py:MatlabRobotGenerator._finish", "matlab/convert_py2mat.py:MatlabRobotGenerator._flip"]}
{"id": "C113", "title": "Shapes in the Matlab file", "statement": "Each shape on a body of the robot is written once, on the place of its own body, with its class, size and pose. (Found false: bodies are told apart by name only, and a plane is written with the class and size of the shape before it.)", "quantifier": "all robots and shapes", "why_tests_cant": "all trees and shapes", "anchors": ["matlab/convert_py2mat.py:MatlabRobotGenerator._add_shapes"]}
{"id": "C114", "title": "A Matlab simulation has the times, the gravity and the robot of the Python one", "statement": "generate_simulation accepts exactly: times that are evenly spaced (at least two), one free root, no constraint, only weight controllers, of which one has the gravity; and then the Matlab loop runs at the times at which simulate calls the observers, with that gravity, on the robot that, read back, is the one of the world. Everything else is refused with the generator's error and leaves nothing unmarked in the file. (Found false: other times can raise AttributeError, and with a root that is not free the text of the simulation stays in the file without the warning.)", "quantifier": "all worlds, timelines and controllers", "why_tests_cant": "all lists of reals and all trees", "anchors": ["matlab/convert_py2mat.py:MatlabSimulationGenerator"]}
{"id": "C115", "title": "MatlabConverter makes robots ready for Matlab", "statement": "convert_robot replaces each joint of several rotations by hinges through new bodies, in place and order, touches no other joint, body or robot, and after it MatlabRobotGenerator can write the robot: a human36 becomes 36 hinges on a free trunk. (Found false for robots whose root is not free: the contact shapes and constraints it adds make every later make_robot and generate_simulation of the world fail, as in the docstring's own second example.)", "quantifier": "all worlds, robots and histories", "why_tests_cant": "the loop edits the tree while it walks it; all trees", "anchors": ["matlab/convert_py2mat.py:MatlabConverter.convert_robot", "matlab/convert_py2mat.py:MatlabConverter.convert_root_joint", "matlab/convert_py2mat.py:MatlabConverter.convert_nonroot_joint"]}
{"id": "C116", "title": "A robot made ready for Matlab moves as the robot it was", "statement": "After convert_robot and init, whatever the coordinates and velocities of the joints of the robot, if the hinges that replace a joint get its coordinates and velocities in order, every body of the robot has the pose, jacobian and twist it had in the robot before, and the world has as many dofs; the mass of the robot is the same, and so is the derivative of the jacobian. (Found false for the last two: each hinge but one adds base_mass/10, 20 tons in all for a human36, since small_mass is declared and never used; and djac differs, that of the converted robot being right.)", "quantifier": "all worlds with a robot on a free joint, all states of the joints", "why_tests_cant": "all trees, all reals", "anchors": ["matlab/convert_py2mat.py:MatlabConverter.convert_nonroot_joint", "matlab/convert_py2mat.py:MatlabConverter.convert_robot", "core.py:World.update_dynamic"]}
{"id": "C117", "title": "Joint limits and ball-and-socket constraints are solved together: the solver converges to their only solution", "statement": "In a world whose active constraints are limits of one-dof joints and ball-and-socket constraints, and whose constraints see a symmetric positive definite admittance, there is exactly one set of constraint forces and velocities satisfying all the constraint laws together; the iterations of update_constraints converge to it; when they stop on the tolerance, the forces are within a constant times the tolerance of it; it does not depend on the order in which the constraints were registered; and the constraint forces never add energy.", "quantifier": "all worlds, states, numbers of limits and ball-and-sockets, tolerances, registration orders", "why_tests_cant": "a limit over unboundedly many iterations, all reals, all systems of constraints", "anchors": ["core.py:World.update_constraints", "constraints.py:JointLimits.solve", "constraints.py:BallAndSocketConstraint.solve"]}
{"id": "C118", "title": "Proportional-derivative control of sliding mechanisms is stable for every gain and step length, and brings them to rest", "statement": "In a world without constraints whose joints only slide, with weight controllers and proportional-derivative controllers (symmetric positive kp, positive kd, zero desired velocity), the total energy - kinetic, springs, weight - never increases from one step to the next, whatever the gains and the lengths of the steps. If one such controller drives all the dofs with strictly positive kp (kd may be zero), a simulation never raises, there is a position where the forces cancel, and every simulation whose steps are not shorter than some h converges to it geometrically, with a factor that depends only on the world, the controllers and h.", "quantifier": "all sliding mechanisms (any tree), masses, initial positions and velocities, gains, weights, timelines, lengths of simulation", "why_tests_cant": "stability is a statement about all step lengths, all gains and unboundedly long simulations", "anchors": ["controllers.py:ProportionalDerivativeController", "controllers.py:WeightController", "core.py:World.update_controllers", "core.py:World.integrate", "core.py:simulate"]}
{"id": "C119", "title": "A contact in a world does what a contact with friction must do", "statement": "In a world of any size with one enabled SoftFingerContact between two bodies, with a symmetric positive definite admittance and a relative velocity at the contact that can be anything: update_constraints adds generalized forces whose virtual power is the contact force times the relative velocity of the bodies at the contact point; if without the contact the bodies would stay apart it adds nothing; otherwise, at the velocity that integrate gives, the gap at the end of the step is exactly zero, and the bodies either stick (no relative spin, no slip, force in the friction ellipsoid) or slip with a friction that opposes the slip; friction never gives energy; a contact whose predicted gap is above the proximity adds nothing; maxiters and tol do not matter.", "quantifier": "all worlds, positions, velocities, controllers, step lengths, friction coefficients, collision solvers, maxiters, tol", "why_tests_cant": "all reals, all mechanisms, all frames of contact", "anchors": ["constraints.py:SoftFingerContact", "constraints.py:PointContact.update", "core.py:World.update_constraints", "core.py:World.integrate"]}
{"id": "C120", "title": "A ball dropped on the ground never goes through it and comes to rest", "statement": "A solid without spin falls vertically under WeightController over a plane, with a SoftFingerContact between the plane and a sphere around its centre. On every increasing timeline the simulation goes to the end without an exception; height and speed follow the motion of a point that falls and stops on the ground. The ball never ends a step below the ground (this is false for long steps; true if g dt^2 is at most the proximity). With steps bounded below it comes exactly to rest on the ground after finitely many steps, the contact force being its weight. A ball found below the ground is thrown out at the speed depth / dt.", "quantifier": "all attitudes, masses, inertias, planes, radii, heights, vertical speeds, friction coefficients, timelines, lengths of simulation", "why_tests_cant": "unboundedly long simulations, all timelines, all reals", "anchors": ["core.py:simulate", "constraints.py:SoftFingerContact", "collisions.py:plane_sphere_collision", "controllers.py:WeightController", "joints.py:FreeJoint"]}
{"id": "C121", "title": "A joint with JointLimits stays within its limits during a simulation", "statement": "In a world with any mechanism and any controllers, whose only constraint is a JointLimits on a linear joint of one dof, a joint within its limits at the beginning of a simulation is within them in every state shown to the observers and at the end. (False: the constraint becomes active from the position at the beginning of the step only, so that a fast joint jumps over it. True: a joint found near or beyond a limit at the beginning of a step is within its limits at the end of it; so the joint is never out of its limits in two successive states, and can leave them only by moving by more than the proximity in one step.)", "quantifier": "all mechanisms, controllers, limits, proximities, initial states, timelines, lengths of simulation", "why_tests_cant": "every state of unboundedly long simulations, all reals, arbitrary controllers", "anchors": ["constraints.py:JointLimits", "core.py:World.update_constraints", "core.py:World.integrate", "core.py:simulate"]}
{"id": "C122", "title": "A contact can always be solved", "statement": "SoftFingerContact.solve returns a force for every symmetric positive definite admittance, relative velocity, distance, time step and friction coefficient of zero or more. (False: with a friction coefficient of zero, or when the velocity the bodies would have without the contact closes the gap exactly, and when the force which would stop the relative motion does not respect the friction law, the code divides by zero and eigvals raises LinAlgError; in all other cases it returns.)", "quantifier": "all admittances, velocities, distances, forces, ellipsoids, friction coefficients, time steps", "why_tests_cant": "the exact set of failing real inputs has measure zero in the velocities: sampling does not find it", "anchors": ["constraints.py:SoftFingerContact.solve"]}
{"id": "C123", "title": "Constraints between bodies conserve momentum", "statement": "Contacts and ball-and-socket constraints between the bodies of a world, whatever their number and whatever the collisions that occur, push bodies in opposite ways: over a time step the momentum of the world along any rigid motion of the whole changes as if they were not there. In a simulation of bodies which translate, under gravity, the linear momentum in every observed state is the initial one plus weight times elapsed time.", "quantifier": "all mechanisms, numbers of constraints, shapes, solver iterations, timelines, lengths of simulation", "why_tests_cant": "every state of unboundedly long simulations, any number of simultaneous contacts, an iterative solver stopped at any iteration", "anchors": ["core.py:World.update_constraints", "constraints.py:PointContact", "constraints.py:SoftFingerContact", "constraints.py:BallAndSocketConstraint", "core.py:simulate"]}
{"id": "C124", "title": "A contact between bodies which do not interpenetrate gives no energy", "statement": "Over a time step in which a SoftFingerContact acts between bodies which do not interpenetrate, the kinetic energy of the world grows by at most the work of the controllers, the viscosity and the nonlinear effects. (False: the friction law is checked on the square of the normal force, so that a contact may pull bodies which are apart, and give energy. True: the contact gives at most minus the normal force times the distance, hence nothing when the bodies touch exactly or when it pushes.)", "quantifier": "all mechanisms, controllers, shapes, masses, velocities, friction coefficients, time steps, solver iterations", "why_tests_cant": "all real inputs and sizes of worlds; the counterexample needs a coupled admittance", "anchors": ["constraints.py:SoftFingerContact.solve", "core.py:World.update_constraints", "core.py:World.integrate"]}
{"id": "C125", "title": "The links drawn by the Daenim driver join every fixed frame to its body", "statement": "When a world is drawn by visu_collada.write_collada_scene, in flat or hierarchical mode, the scene contains exactly one line for each fixed SubFrame of the world that is away from the origin of its body, and a viewer which composes the matrices from the root sees it as the segment from the origin of the body to the origin of the frame. More generally DaenimColladaDriver.create_line(start, end) draws the segment from start to end (false unless start is the origin or the length is one: the start is scaled too).", "quantifier": "all worlds built through the API, all rigid poses, both modes; all start and end points", "why_tests_cant": "all trees and poses; both the order in which frames are met by parse and the matrices matter", "anchors": ["visu/visu_collada.py:DaenimColladaDriver.create_line", "visu/world_drawer.py:Drawer._add_frame", "visu/world_drawer.py:Drawer.add_link", "visu/world_drawer.py:Drawer.register"]}
{"id": "C126", "title": "The viewer told by pydaenimCom shows the simulation", "statement": "With pydaenimCom as observer, one message is sent per step with the time of that step; a viewer which has loaded the scene of the world and applies any one of the messages shows every body and registered subframe at its pose at that step, whatever messages it has missed; a viewer which goes away disturbs nothing. (False without names: unlike DaenimCom, pydaenimCom does not name the frames, and the frames without name share one entry.)", "quantifier": "all worlds built through the API, both modes, all configurations, runs of any length", "why_tests_cant": "all trees, poses, names and histories", "anchors": ["visu/__init__.py:pydaenimCom.update", "visu/__init__.py:pydaenimCom.init", "visu/dae_writer.py:write_collada_scene"]}
{"id": "C127", "title": "Observers do not disturb a simulation, nor each other; one that raises leaves a world that can be taken up", "statement": "Whatever the observers, a simulation that returns has the final world of the simulation without observers, and each observer has been told the start, each step once and in order, and the end, whatever the others are. If an observer raises in update(dt), the simulation stops at world.current_time, with the positions and velocities the simulation without observers has at that time; the observers before it have been told the step, those after it have not, none has been told the end. Then simulate(world, rest of the timeline) ends in the very world of the uninterrupted simulation, if the controllers keep no memory and the constraints start again at each update (WeightController, ProportionalDerivativeController, JointLimits).", "quantifier": "all engines, worlds, timelines, lists of observers with any state and any exceptions, crash points", "why_tests_cant": "every crash point, every list of observers, runs of any length", "anchors": ["core.py:simulate", "core.py:Observer", "core.py:World.update_constraints", "constraints.py:JointLimits.update"]}
{"id": "C128", "title": "A closed loop of a mechanism that slides stays closed during a simulation", "statement": "Take a mechanism of TxJoint, TyJoint, TzJoint, TxTyTzJoint and FixedJoint, with any controllers, and a BallAndSocketConstraint between two of its frames (or a frame and the ground), possibly with more equations than the loop has dofs. If the mechanism has a position where the origins of the two frames coincide, then in every simulation they coincide exactly after every step taken with a symmetric positive definite admittance, in particular after every step of a mechanism under WeightController whose bodies have mass. If it has no such position they never do.", "quantifier": "all sliding mechanisms, frames, controllers, timelines, initial positions and velocities", "why_tests_cant": "every mechanism and every step of runs of any length; the constraint's own admittance is singular in general", "anchors": ["constraints.py:BallAndSocketConstraint", "core.py:World.update_constraints", "core.py:SubFrame", "core.py:simulate"]}
{"id": "C129", "title": "Settings of the controllers: read at `init` or at each update", "statement": "A call of `simulate` behaves as if the controllers of the library (WeightController, ProportionalDerivativeController) read their attributes, the tree and its dof numbering afresh at each step, whatever constants an earlier `init` left in them: same calls, same worlds shown to the observers, same result or exception. In a world driven by hand (init, update_dynamic, update_controllers, update_constraints, integrate, assignments to gravity, gains, masses and joint positions, register, in any order), after the last `init`: a WeightController applies the weight of exactly the bodies that had a positive entry in their mass matrix at that `init`, for the value of `gravity` at that `init`, with the present masses, poses and jacobians; a PD controller uses its present gains and the present positions of its joints; a controller registered since then raises TypeError, and update_controllers raises. After any history the settings of the controllers and the masses of the bodies are those the script last assigned.", "quantifier": "every tree, number and kind of library controllers, constraints, private constants, timeline; every finite history of operations after an init", "why_tests_cant": "the histories of operations are unbounded; a test tries a few orders of assignments and calls", "anchors": ["arboris/controllers.py: WeightController.init, WeightController.update, ProportionalDerivativeController.init, ProportionalDerivativeController.update", "arboris/core.py: World.init, World.update_controllers, simulate"]}
{"id": "C130", "title": "Simulations converge to the exact motion of sliding mechanisms", "statement": "For a mechanism whose joints only slide, without constraints, with weight controllers and proportional-derivative controllers (positive, not necessarily strictly, symmetric kp; positive kd; any desired positions and velocities) and a positive definite mass matrix: `simulate` never raises, on any strictly increasing timeline; the differential equation of motion has exactly one solution from the initial state; and there is a number C such that every simulation from t0, at most until T, with steps of at most h, regular or not, is within C h of this solution: positions and velocities of every joint, each time that observers look and at the end.", "quantifier": "every tree of sliding joints, masses, viscosities, gains, initial state, time interval, timeline (number and lengths of the steps)", "why_tests_cant": "convergence is about all sufficiently fine timelines, and the exact motion is not computable by the code; a test compares a few runs", "anchors": ["arboris/core.py: simulate, World.update_dynamic, World.update_controllers, World.integrate", "arboris/controllers.py: WeightController.update, ProportionalDerivativeController.update", "arboris/joints.py: TxJoint, TyJoint, TzJoint, TxTyTzJoint, LinearConfigurationSpaceJoint.integrate"]}
{"id": "C131", "title": "Simulations converge to the exact motion of mechanisms that rotate", "statement": "For a tree of bodies with any joints but free ones, without constraints, with its weight, its viscosity, and proportional-derivative controllers (any gains): when the mass matrix is invertible at the start, the equations of motion (mass matrix, centrifugal and gyroscopic effects, viscosity, weight, PD forces, all at the current coordinates) have exactly one solution during some time; as long as this exact motion exists with an invertible mass matrix, no simulation with small enough steps raises, and there is a number C such that every simulation with steps of at most h (small enough), regular or not, is within C h of it: positions and velocities of every joint, each time that observers look and at the end.", "quantifier": "every tree of joints with at most 3 dofs each, masses, centers of mass, inertias, viscosities, frames, gains, initial state, time interval where the exact motion exists, timeline (number and lengths of the steps)", "why_tests_cant": "convergence is about all sufficiently fine timelines; the exact motion of a mechanism such as a double pendulum has no formula, so that a test has nothing to compare with", "anchors": ["arboris/core.py: simulate, World.update_dynamic, World.update_controllers, World.integrate, Body.update_dynamic", "arboris/controllers.py: WeightController.update, ProportionalDerivativeController.update", "arboris/joints.py: RzRyRxJoint, RzRyJoint, RzRxJoint, RyRxJoint, RzJoint, RyJoint, RxJoint, TxTyTzJoint, TxJoint, TyJoint, TzJoint, LinearConfigurationSpaceJoint.integrate"]}
{"id": "C132", "title": "Energy of the simulations of mechanisms", "statement": "Take a mechanism made of a tree of bodies with any joints but free ones, without constraints, in which joints that turn around several axes (ball joints, ...) are only attached to the ground, with the weight of the bodies and the springs of its proportional-derivative controllers (symmetric gains, desired velocities zero). The exact motion of such a mechanism, to which simulations converge (C131), conserves the energy (kinetic, of weight, of springs) when there are no viscosity nor dampers; otherwise the energy decreases at the rate at which viscosity and dampers dissipate it. Hence, when the steps of a simulation are at most h (small enough, regular or not), the energy of every state that observers are shown, and of the last one, differs from the energy of the first state by at most C h, C not depending on the time steps; with passive viscosity and dampers it exceeds it by at most C h. So the drift of energy that an energy monitor shows can be made as small as wanted by reducing the time step. In the same conditions (no viscosity, default gravity, bodies with positive definite mass matrices), the mechanical energies logged by an EnergyMonitor, one per step, are all that of the initial state up to C h.", "quantifier": "all mechanisms (any tree, number of bodies, joints of 1 to 3 axes, masses), controllers, initial states, times, timelines", "why_tests_cant": "a test runs one mechanism with one step and sees some drift; that the drift tends to zero with the step, for every mechanism, is a statement on limits", "anchors": ["arboris/core.py: World.update_dynamic, World.integrate, Body.update_dynamic", "arboris/observers.py: EnergyMonitor", "arboris/controllers.py: WeightController, ProportionalDerivativeController", "arboris/observers.py:EnergyMonitor"]}
{"id": "C133", "title": "Simulations converge to the exact motion of mechanisms that fly", "statement": "For any mechanism (any tree of bodies with any joints, free ones included: flying robots, humanoids in free fall) with its weight and viscosity and with proportional-derivative controllers, without constraints, let the exact motion be the solution, from the initial state, of the continuous equations of motion (mass matrix, centrifugal and gyroscopic effects and viscosity as update_dynamic computes them, on the one hand; the pull of weight on the bodies and the laws of the controllers, on the other hand), the pose of each free joint following its velocity as a curve in the group of rigid motions. There is a constant C such that every simulation with small enough steps, of at most h, regular or not, stays at most C*h away from the exact motion: coordinates, entries of the poses of the free joints, and velocities, at the end and at each time that observers look. An exact motion exists during some time from every state whose mass matrix is invertible. As long as it exists, simulations with small enough steps do not raise (each proportional-derivative controller has at least one dof, of joints which are not free and have the same number of dofs).", "quantifier": "all trees of bodies and joints (with free joints), masses, viscosities, weights, gains and desired values of the controllers, initial states; all durations of the exact motion; all small enough steps, regular or not; all numbers of steps and observers", "why_tests_cant": "Convergence is a statement about the limit of infinitely many runs with ever smaller steps, against the solution of a differential equation on rigid motions which has no closed form; tests compare a few runs.", "anchors": ["arboris/core.py: World.update_dynamic, World.update_controllers, World.update_constraints, World.integrate, simulate", "arboris/joints.py: FreeJoint.integrate", "arboris/twistvector.py: exp"]}
{"id": "C134", "title": "Energy of the simulations of mechanisms that fly", "statement": "For mechanisms whose joints turn around one axis or slide, except those attached to the ground, which may be free or turn around several axes (flying robots, humanoids), whose bodies have masses (or are centred), with weight and proportional-derivative controllers with symmetric gains and no desired velocity: along the exact motion the energy (kinetic, of weight, of the springs of the controllers) changes exactly at the rate at which viscosity and dampers dissipate it. Without them it is conserved; with positive ones it never increases. So the energy of the states of simulations with small enough steps, of at most h, regular or not, at the end and at each time that observers look, is that of the initial state up to C*h without dissipation, and exceeds it by at most C*h with it; an EnergyMonitor logs these energies.", "quantifier": "all such mechanisms, masses, viscosities, weight and controllers with any gains; all initial states; all durations of the exact motion; all small enough steps, regular or not; all numbers of steps and observers", "why_tests_cant": "Tests watch the energy of a few runs with fixed steps; the claim bounds the drift of the energy over infinitely many runs with ever smaller steps, whatever the mechanism.", "anchors": ["arboris/core.py: World.update_dynamic, World.integrate, simulate", "arboris/joints.py: FreeJoint.integrate", "arboris/controllers.py: WeightController, ProportionalDerivativeController"]}

# Formal model of nonlinear_obstacle_avoidance

## 1. What is being done

`/verif/lean` contains a Lean 4 model of the Python package
`nonlinear_avoidance` and theorems about that model.  Nothing of `/repo` is
executed; the only tie between model and code is that every definition of the
model cites the file and the lines it models.

Layout (all under `lean/Verif/`):

| directory | content |
|-----------|---------|
| `Model/`  | the model: one Lean definition per Python function, branch by branch |
| `Spec/`   | small independent specifications (plane rotation, tree, chain, ...) |
| `Lemmas/` | helper lemmas, never referred to as results |
| `Props/`  | the property theorems `Cxx_*`, with a non-vacuity `example` beside each |

## 2. Modelling conventions

* **Numbers.** Python/numpy floats are modelled by real numbers `ℝ`.  Rounding,
  overflow, signed zero and infinities are not modelled.  `np.isclose`,
  `np.allclose` and every explicit tolerance (`1e-8`, `1e-5`, `1e-3`, ...) are
  modelled with their exact constants.
* **NaN.** A computation which would divide zero by zero yields `none`
  (or an explicit error), never Lean's `x / 0 = 0`.
* **Exceptions** are values: `Except PyErr α`.  For methods that mutate `self`
  and may raise in the middle the model returns the *mutated* state together
  with the result, so that a failing call may leave a changed object.
  `breakpoint()` in the source counts as the error `PyErr.breakpoint`.
* **Vectors** are `EuclideanSpace ℝ (Fin d)`; where coordinates do not matter
  the model works in an arbitrary real inner product space.  `d ≥ 2` where the
  code indexes the first two coordinates.
* **atan2 / arccos / sqrt / power** are Mathlib's `Complex.arg`, `Real.arccos`,
  `Real.sqrt`, `Real.rpow` (used only on arguments where they agree with libm).
* **External libraries** (`vartools`, `dynamic_obstacle_avoidance`, `shapely`,
  `networkx`, `scipy`, `sklearn`) are not part of the repository.  What the code
  obtains from them becomes a parameter of the model; assumptions on these
  parameters are hypotheses of the theorems and listed in section 5.
  `networkx.DiGraph` is modelled as insertion-ordered lists of nodes and edges.

## 3. Plan per property

The full English statement of each property is in `properties.jsonl`, the exact
theorem names in `MANIFEST.json`.  "violated" means: the code as modelled does
not have the property; the negation is proved with a concrete witness, and what
does hold is proved in the theorems with the suffix `_partial`.

| id | modelled by | how it is proved | theorems in `Props/` | result |
|----|----|----|----|----|
| C01 | `VectorRotation` | closed formula `Spec.planeRot`, then algebra in an inner product space | Rotation | proved. Length, dot products, angles and zero for every orthonormal base. |
| C02 | `VectorRotation` | same | Rotation | proved.  |
| C03 | `VectorRotation` | addition theorems of the plane rotation | Rotation | proved.  |
| C04 | `VectorRotation` | equality with the specified plane rotation | Rotation | proved.  |
| C05 | `VectorRotation` | both branches of `from_directions`, Gram-Schmidt, equality case of Cauchy-Schwarz | Rotation | proved. Exactly-opposite rejection uses d <= 10^15 (above that the allclose tolerance could hide opposition). |
| C06 | `VectorRotation` | same, with `arccos` | Rotation | proved. Exact outside the tolerance; inside, the 2x bound is proved and a witness shows it is not exact. |
| C07 | `VectorRotation` | same | Rotation | proved.  |
| C08 | `VectorRotation` | same | Rotation | proved.  |
| C09 | `VectorRotation` | column-wise reduction to C01 | Rotation | proved.  |
| C10 | `Sequence` | induction on the list of vectors | Sequence | proved.  |
| C11 | `Sequence` | same | Sequence | proved.  |
| C12 | `Sequence` | induction on the list of rotations | Sequence | proved. Also: wrong weight counts raise for sequences of three or more rotations. |
| C13 | `Sequence` | same; violated: explicit three-dimensional witness | Sequence | partial. Violated by the code: C13_not_connected is a witness (line 365 has the wrong sign). Proved: the specification is connected, and the code follows the path when the weight sits on two neighbours. |
| C14 | `Sequence` | induction over histories of calls | Sequence | partial. History of append/push and the end vector proved; "the appended rotation starts where the sequence ended" holds iff the last angle is pi/2, with a counterexample otherwise. |
| C15 | `Sequence` | induction on the list; violated: witness | Sequence | partial. rotate_sequence proved; rotate_vector_rotation is wrong unless both bases agree (witness). |
| C16 | `Sequence` | case analysis | Sequence | proved.  |
| C17 | `Tree` | invariant by induction over histories of calls | TreeApi, TreeStructure | proved.  |
| C18 | `Tree` | same; violated: for every rooted tree | TreeStructure | partial. Violated by the code: after KeyError for a missing parent the node and the parent stay in the graph (C18_missing_parent), likewise after ValueError for the level limit (C18_level_limit) and after TypeError for child_id (C18_child). Every other rejection leaves the tree unchanged. |
| C19 | `Tree` | termination measure of the worklist and reachability induction | TreeStructure | proved.  |
| C20 | `Tree` | invariant of the fold over the sorted nodes | TreeReduce | proved.  |
| C21 | `Tree` | induction over the tree (one-hot weights), with a perturbation bound for directions within the tolerance | TreeNear, TreeReduce | proved. Within the allclose tolerance the stored direction is only approximately returned (C21_near, C21_tolerance). |
| C22 | `Tree` | same, norms of convex combinations in the tangent space | TreeReduce | proved. Weights of each branch below the root at most one (hypothesis of the restated property). |
| C23 | `Tree` | same | TreeReduce | proved.  |
| C24 | `Tree` | same, cone estimate | TreeMean | proved.  |
| C25 | `Tree` | case analysis on the error branches | TreeReduce | proved.  |
| C26 | `Tree` | induction on the sequence | TreeApi, TreeMean | proved.  |
| C27 | `Tree` | invariant of the fold; violated: witness | TreeMean | partial. Violated by the code: weight on an inner node repeats the last rotation (C27_repeated_rotation). Proved: connected up to that repetition, and fully connected when the deepest weighted nodes are leaves. |
| C28 | `Weights` | list induction; violated: witness | Weights | partial. Violated by the code for two or more saturated weights: C28_sum_saturated and the witness C28_sum_exceeds_total. |
| C29 | `Weights` | list induction, real inequalities | Weights | proved.  |
| C30 | `Weights` | real inequalities | Weights | proved.  |
| C31 | `Weights` | real inequalities | Weights | proved.  |
| C32 | `Weights` | real powers, case analysis | Weights2 | partial. Range [0,1] for every input; positivity fails exactly in the aligned case (C32_aligned_zero), otherwise C32_positive. |
| C33 | `Weights` | real powers | Weights2 | proved.  |
| C34 | `Weights` | list induction | Weights2 | proved.  |
| C35 | `Weights` | case analysis | Weights2 | proved.  |
| C36 | `Weights` | real inequalities | Weights3 | proved.  |
| C37 | `Weights` | list induction, trigonometric bounds | Weights3 | proved.  |
| C38 | `Weights` | list induction | Weights3 | proved. Also proved: the default max_gamma acts as a floor and removes all differences (C38_default_ignores_occlusion). |
| C39 | `Avoider` | decision logic of `evaluate_sequence`, C11 | Avoider | partial. Exact when the direction of the dynamics and the reference direction are not opposite; the opposite case raises (C39 theorems). |
| C40 | `Avoider` | case analysis | Avoider | proved.  |
| C41 | `Avoider` | convexity of the tree mean (C22); violated: explicit disc | Avoider, AvoiderContacts, AvoiderExamples, RegionsOrder | partial. Violated by the code: C41_exceeds is a witness (a retreating agent far from the obstacle gets speed one). Proved: the bound when at least one obstacle has influence, with at most two obstacles in contact or a single-component obstacle in contact (C41_contacts_partial), any number of contacts for single components (C41_singles_partial), and speed one otherwise. |
| C42 | `Avoider` | induction over obstacles; violated: general | Avoider, AvoiderContact | partial. Violated with two contacts: C42_two_contacts (the remaining weight becomes 1 - m). Proved: convex with at most one contact. |
| C43 | `GraphHandler` | invariant by induction over histories | Graph | partial. Holds when a value gets at most one parent and elements are known; negative results: C43_second_parent, C43_unknown_parent. |
| C44 | `Composite` | invariant by induction over histories | Composite | proved. Including the failing calls. |
| C45 | `Containers` | list induction | Containers | proved.  |
| C46 | `Containers` | invariant over histories | Containers | partial. Violated by the code for number 0 (truth value of 0): C46_root_zero, C46_parent_zero. |
| C47 | `Containers` | invariant over histories, termination of the level loop | Boundaries | partial. Violated by the code for append(parent=-1) on an empty container (get_level_numbers never ends, C47_first_attached) and for re-attached obstacles (C47_reparented). Proved for all histories avoiding these. |
| C48 | `MultiBody` | induction along the tree of limbs | MultiBody | proved.  |
| C49 | `Projected` | algebra | Projected | proved.  |
| C50 | `Flows` | algebra, power estimates | Flows | proved. LinearSystem is external: any function for the speed and deviation, a positive multiple of the vector to the attractor for convergence. |
| C51 | `Flows` | polar coordinates, algebra | Flows | proved.  |
| C52 | `Segments` | list induction | Segments | proved. Proved for positions on at most one segment; where several segments meet the weights sum to their number (C52_sum_on). |
| C53 | `Hull` | list induction, monotonicity | Hull | proved. The outer gamma is assumed non-negative for the intersection weight (obstacle API). |
| C54 | `KMeans` | case analysis | KMeansHierarchy | partial. Violated by the code in one point: the second cluster is not the parent but the child (C54_child). Range, total and the own cluster proved. |
| C55 | `KMeans` | induction on the fit loop | KMeansHierarchy, KMeansRefit | partial. The chain is proved for a first fit and for later fits that find the same order (C55_same_order). For any other history every fit sets the levels to the new order and adds its parents, but keeps all the parents of earlier fits, because the graph is not emptied (C55_any_fit): violated by the code for a second fit with another order (C55_refit). |
| C56 | `GmmGraph` | invariant of the attachment loop, termination | GmmGraph | partial. np.argsort enters through its specification. Proved up to 100 Gaussians; violated by the code beyond (C56_debugger) and in the order of attachment (C56_wrong_order). |
| C57 | `GmmObstacle` | list induction | GmmWeights | partial. Proved for reference points that differ from the position and the mean of the parent; violated by the code (nan) for concentric Gaussians (C57_concentric). |
| C58 | `Utils` | algebra | Utils | proved. In dimension one get_orthonormal_spanning_basis raises IndexError (C58_line): there is no second orthonormal vector. |
| C59 | `Weights` | induction over obstacles, Cauchy-Schwarz | Weights3 | partial. Violated by the code when two obstacles are opposed equally: C59_not_stopped is the witness. |
| C60 | `Avoider` | induction over obstacles; one-hot weights in contact | Relative | proved. In three and more dimensions a rotating obstacle in contact makes the call raise (C60_rotating_raises, C60_rotating_3d_raises). |
| C61 | `Avoider` | one-hot tree mean (C21), tangency, relative velocity (C60) | AvoiderContact, AvoiderInside, AvoiderMoving, AvoiderTwoContacts | partial. No hypothesis on the directions of the tangent tree: the theorems hold whenever the evaluation returns. Moving obstacles: in the plane with rotation, in space without (a rotating obstacle in contact makes the evaluation raise). On the surface of any component, root or not, no hypothesis on shadows is left (C61_surface_partial, C61_moving_surface_partial, C61_space_partial; the contract of the external intersection is OnSurface and, for components with a parent, NearFirst). Violated by the code at rest of the initial dynamics: zero is returned even if the obstacle in contact moves into the position (C61_rest_overrun). In contact with two obstacles the guarantee does not hold at all: two static discs in contact and a direction between them, the result points into both (C61_two_contacts). Inside of a component the guarantee holds for the root and for components attached to their parent, that is, with the reference point inside of the convex parent (AttachedTo; C61_inside_partial, C61_moving_inside_partial, C61_space_inside_partial). Violated inside of a component whose reference point is outside of its parent: the parent hides the component and the result moves with the full speed further into it (C61_shadowed). |
| C62 | `Avoider` | induction over obstacles | AvoiderConvergence | proved.  |
| C63 | `Composite` | induction over components, rigid motions | CompositeMotion | proved.  |
| C64 | `Composite` | frames | CompositeMotion | partial. Violated by the code: the intersection of a local and a global frame (C64_mixed_frames). Proved when the frames agree. |
| C65 | `MultiBody` | case analysis | MultiBody | partial. Violated by the code: the obstacle stays in the list and shifts all later numbers (C65_changed). |
| C66 | `Limb` | rotation by quaternions, closed formula | Limb | partial. Violated by the code for limbs above the attachment point (C66_above, mirrored) and exactly below it (C66_exactly_below); the result is computed in every case. |
| C67 | `Projected` | polar form around the axis attractor-obstacle | Fold | partial. Missing from the full statement: positions within the tolerance of from_directions (a folded direction almost aligned with the obstacle), where only distance and angle are kept (C67_same_polar); there the round trip is indeed false: two positions on opposite sides of the attractor give the same one (C67_sides_merge). Also: unfolding overwrites the array of the caller (C67_argument_overwritten). |
| C68 | `Projected` | star-shaped geometry | ProjectedPosition | proved. StarGeometry states the external obstacle API (gamma and radius agree). "Outside" holds up to the 1e10 cap of the inflation. |
| C69 | `Projected` | C05, C06 | ProjectedPosition | proved.  |
| C70 | `Projected` | C10-C12 | ProjectedPosition | proved. compute_obstacle_convergence_sequence can never return (C70_compute_fails). get_directional_weighted_sum (external) enters through its contract. |
| C71 | `Flows` | algebra | Flows | partial. Violated by the code for limits below one: C71_exceeds. |
| C72 | `Flows` | rigid motions; violated: witnesses | Flows | partial. Proved for SimpleCircularDynamics; violated by the other three: the pose is ignored (C72_rotation_ignores_pose), a velocity is transformed as a position (C72_spiral_not_translation_invariant), full speed at the attractor (C72_spiral_attractor_not_stationary). |
| C73 | `Flows` | case analysis | Flows | partial. Weight and displacement proved; violated: every call that moves the base stops at a breakpoint() (C73_stops). |
| C74 | `Segments` | projection on a line | Segments | proved.  |
| C75 | `Segments` | list induction | Segments | partial. Violated by the code: neighbours closer than twice the margin (default 1) give a segment in the opposite direction (C75_backwards). Proved for larger distances. |
| C76 | `Segments` | weights of C52 and C22 | PathFollowing | partial. Missing: positions where neighbouring directions are within the tolerance without being equal. Violated by the code: breakpoint everywhere for a path which turns back (C76_reversal) and, for every path, straight beyond its end (C76_beyond), the number 0.0 instead of a vector at the attractor (C76_attractor), ValueError for 99 segments or more (C76_too_long). |
| C77 | `Hull` | invariant over histories | Hull | partial. Violated by the code in the wall (C77_wall_first: always the first inner obstacle) and for the container (C77_container_stale). Proved: everything else, for all histories. |
| C78 | `Hull` | induction along the path | HullPath | partial. Shortest paths are external (networkx). Violated by the code: TypeError when the attractor is in two elements (C78_two_elements); from the outside the target is always the first inner obstacle (C78_from_outside). |
| C79 | `Hull` | list induction, tangency | HullPath | partial. Violated by the code: speed one up to the attractor (C79_speed), wrong frame (C79_frame, C79_wrong_frame). get_directional_weighted_sum enters through its contract. |
| C80 | `KMeans` | ray geometry, minimum over the cells | KMeansNormal, KMeansObstacle | partial. Violated by the code: the array of the caller is overwritten (C80_argument_overwritten), is_inside looks at the wrong cluster on the border (C80_surface_inside), None for an ordinary obstacle (C80_obstacle_none). |
| C81 | `KMeans` | maximum over the data | KMeansHierarchy | proved.  |
| C82 | `KMeans` | invariant of the loop; violated: witnesses | KMeansSparse | partial. Violated by the code unless only the last cluster is sparse: C82_wrong_label, C82_missing_label. |
| C83 | `KMeans` | list induction | KMeansSparse | partial. Violated by the code: the weight of the outside dynamics is never positive and the total is usually 1/10 (C83_weights). |
| C84 | `Utils` | induction on the number of steps | Utils | partial. Violated by the code: with the default factors the loop can leave the common interior (C84_diverges). |
| C85 | `GmmObstacle` | quadratic forms | GmmGeometry | partial. Violated by the code: the Cholesky factor is used in place of the precision (C85_not_covariance, C85_nan), no normal at the centre (C85_center). The rest is proved where gamma is positive. |
| C86 | `GmmObstacle` | invariant of the attachment loop | GmmHierarchy | partial. Tree proved whenever the root index exists. Violated by the code: the root index is the index of a dimension (C86_root_is_dimension, C86_not_closest, C86_index_error). |
| C87 | `GmmObstacle` | algebra | GmmWeights | partial. Violated by the code: velocities towards the kernel are never changed (C87_not_guided), fast ones away from it lose their normal part (C87_away_stopped, C87_tangent). |
| C88 | `GmmObstacle` | C05, C22 | GmmWeights | partial. Proved when normal and reference differ by less than a right angle; violated by the code when they agree (C88_circles: nan). |
| C89 | `LocalDynamics` | plane rotations, angle bound by Bessel's inequality | LocalDynamics | partial. Violated by the code: positions perpendicular to the line are not rotated at all (C89_perpendicular), AttributeError if the attractor is in the centre (C89_obstacle_at_attractor), nan for an opposite reference velocity (C89_opposite). The rest is proved for non-opposite references. |
| C90 | `LocalDynamics` | list induction, C01 | DeviationDynamics | partial. Speed, empty case and weights outside proved. Violated by the code: UnboundLocalError with stored centre dynamics (C90_no_update), the containing obstacle has the smaller weight (C90_weights_inside), the linear instead of the initial dynamics far away (C90_far). |
| C91 | `LocalDynamics` | case analysis, trigonometry | DeviationDynamics | partial. get_angle_space_inverse and the directional mean enter through their contracts. Violated by the code: the mean of limited deviations can lead away from the attractor (C91_diverges), IndexError outside of the plane (C91_fit_dimension), unlimited convergence velocity (C91_convergence_speed). |
| C92 | `Weights` | real analysis | RotationalWeights | partial. Violated by the code: the deviation weight jumps to one at a deviation of one (C92_deviation_jump). For a negative gamma the convergence weight is negative (C92_convergence_negative). |
| C93 | `RotationalAvoider` | invariant of the loop over the obstacles, C21, C59; violated: general and planar witness | RotationalAvoider | partial. Angle space, importance weights and directional mean enter through their contracts (SaneAngles); one obstacle in contact, admissible directions. Violated by the code: exchanged arguments switch the avoidance off if the convergence direction leaves the obstacle (C93_ignores_obstacle, C93_enters); without sticky surface the slow-down is undone (C93_no_slow_down). |
| C94 | `RotationalAvoider` | simulation of the loop, case analysis | RotationalAvoider | partial. Violated by the code: obstacle list and radius are stored for later calls (C94_arguments_persist), custom radii are ignored up to the side of a right angle (C94_custom_radius_ignored), the local convergence direction of the first close obstacle is used for all (C94_first_convergence). |
| C95 | `RotationalAvoider` | invariant of the loop over the obstacles (rooted tree, weights at most the importance), C21 and C22; simulation of two runs that differ in the initial branch, C23 | RotationalSequence | partial. Angle space and importance weights enter through their contracts (SaneAngles); admissible directions; one obstacle in contact. Negative result: head-on the obstacle is ignored right up to its surface (C95_head_on). |
| C96 | `NonlinearAvoider` | invariant of the loop over the obstacles, C21, C93 and C95; violated: general theorems and planar witnesses | NonlinearAvoider | partial. Angle space and importance weights enter through their contracts (SaneAngles); admissible directions; one obstacle in contact. Violated by the code: ValueError if the sequences do not start alike, which is the case for every dynamics with attractor (C96_mismatch, C96_without_singularity), the direction is taken from the wrong obstacle (C96_wrong_obstacle), moving obstacles overrun the position (C96_overrun). avoid always raises AttributeError. |
| C97 | `Arch` | case analysis on coordinates, C63 | Arch | partial. gamma of a cuboid (external) enters through its zero set. Violated by BlockArchObstacle: update_obstacles does not move the components (C97_block_stays), get_gamma_except_components in the local frame raises AttributeError (C97_block_local_frame). |
| C98 | `RotationContainer` | induction on the history, equality case of Cauchy-Schwarz | RotationContainer | partial. LocallyRotated and get_angle_space enter through their contract (SaneRotated). Violated by the code: the dynamics are ignored for an obstacle at the origin and where they point to the origin, although the attractor is elsewhere (C98_origin, C98_straight), obstacles cannot be removed or replaced (C98_never_removed), the radius is lost (C98_radius_lost). |
| C99 | `MultiHull` | invariant of the two loops, invariant of the forest (C47) | MultiHull | partial. Weights and radius proved; surface and intersection points (external, shapely) are parameters. Violated by the code: multihull_attraction passes an unknown argument and always raises inside of a hull (C99_attraction_fails); TypeError for the radius before update_intersection_graph (C99_not_updated). |
| C100 | `RelativeReference` | closed form of the weight, monotonicity of the relative gamma | RelativeReference | partial. Proved for positions away from the centre, the relative gamma for reference points in the centre. Violated by the code: nan in the centre (C100_centre), negative relative gamma inside for other reference points (C100_off_centre), get_boundary_list reads a misspelled attribute (C100_boundary_list). |
| C101 | `EllipseGeometry` | affine image of the disc, convexity; violated: general theorems and a witness with two discs | EllipseGeometry | partial. The corners of the intersection of two polygons (shapely) enter through a contract; the disc polygon is the exact disc. Violated by the code: NotImplementedError for an ellipse and another obstacle, the stored polygon in the other order (C101_mixed, C101_mixed_other); MultiBoundaryContainer ignores the positions of ellipses (C101_container_position, C101_container_outside). |
| C102 | `EllipseGeometry` | scaling to the circle; linear independence of the oblique basis | EllipseGeometry | proved. The intersection of line and circle and the linear algebra (numpy, vartools) enter through contracts; the reference direction must not be tangent. |
| C103 | `Learner` | algebra, positive definiteness | Learner | partial. The pseudo inverse is the inverse of an invertible matrix (contract). Violated by the code: the probability is the density only at the mean (C103_not_density: the exponent lacks the factor one half). |
| C104 | `Learner` | completing the square for matrices (best linear predictor), algebra of real powers | Learner | partial. Violated by the code: in a batch the regression depends on the other samples (C104_batch); the attribute is overwritten by the default argument (C104_flag); the default outputs are in descending order (C104_reversed). |
| C105 | `Learner` | case analysis, list of rows | Learner | partial. Violated by the code: the limitation acts on rows (samples dim_space to 2 dim_space - 1) instead of columns (C105_rows); the array of the caller is overwritten (C105_argument_overwritten). |
| C106 | `Learner` | module arithmetic, bound of the exponential series, induction on the steps; Lipschitz bounds of the Runge-Kutta step and a discrete Gronwall argument for the convergence to solutions | Learner2, RungeKutta | partial. Violated by the code: given starting points are ignored (C106_start_ignored), convergence is tested at the origin (C106_stops_at_origin), DirectionalGMM.integrate_trajectory calls a missing method (C106_mixture_fails), IndexError for a single vector (C106_magnitude_vector). For nonlinear fields the error is proved to be at most proportional to the step, for every Lipschitz continuous field (C106_global_error, C106_approximates). Missing: higher orders for nonlinear fields. |
| C107 | `Learner` | fold induction, contracts of the angle space | Learner2 | partial. The angle space (vartools) enters through its contract. Violated by the code: directions are encoded relative to the origin and decoded relative to the attractor (C107_not_reproduced), the first demonstration is left out of the mean (C107_attractor_first), an attractor cannot be given (C107_attractor_argument), DirectionalSVR cannot predict (C107_function_fails). |
| C108 | `Avoider` | invariant of the loop over the obstacles, mean over a tree of two levels (C21), exponential and logarithm of the sphere | AvoiderDirection | partial. Obstacles with one component each, no cuboids for the existence of the tangent (HasTangent). Missing: several components per obstacle, positions inside of obstacles. |
| C109 | `KMeansNormal` | ray geometry of the cells (C80), contract of the mean; violated: general negative theorems with witnesses | KMeansNormal | partial. Under the contract SaneMean of get_directional_weighted_sum (proved for the tangent-space mean). Violated by the code: on the surface IndexError without neighbours (C109_surface_fails) and a radial normal on the walls (C109_surface_radial, norms taken along the wrong axis); at the centre the array of the caller is overwritten and returned (C109_centre). |
| C110 | `KMeansPredict` | case analysis over the regions (C54, C80, C83, C109), avoidance of one boundary (C93); violated: general negative theorems with witnesses | KMeansPredict | partial. Angle space, means and labels enter through their contracts (SanePredict); the learner is a chain of well separated clusters, as a first fit leaves it (C110_fitted). Violated by the code: the motion does not stop at an attractor in the transition zone (C110_attractor_moves), IndexError on the surface of a region without neighbours (C110_surface_fails). Missing: surfaces of regions with fewer neighbours than dimensions, velocities straight outwards or opposite to the gradient, the direction inside of a region in front of solid walls. |
| C111 | `KMeansDirection` | ray geometry of the cells, convexity of the wall, great circles (bisection of angles), induction on the loop; violated: general negative theorems with witnesses | KMeansDirection | partial. The directional mean of two directions enters through its contract (Bisects); the fit of the regressors is not modelled. Violated by the code: the bisection moves the wrong end, so that with a single neighbour the result misses the wall whenever the half-way direction does (C111_misses); a direction is kept although it misses the wall if the direction to the next centre misses it too (C111_gives_up); breakpoint without exactly one successor (C111_breakpoint); not a number for a cluster without data (C111_fit). Missing: bisection with several neighbours. |
| C112 | `Avoider` | invariant of the loops over obstacles and components, one-hot tree mean (C21), weights (C28), rotation to the obstacle (C69); violated: complete run with two discs | Convergence, ConvergenceExamples, ConvergenceExists | partial. For any number of obstacles and components. In a clear view from the attractor (nothing opposite, nothing nearly parallel) the tree of directions is built without an exception (C112_tree), and the direction is a unit vector whatever the number of contacts (C112_unit_partial, C112_defined_partial; inner directions of the tree in general position). In contact with two obstacles the claim about the direction is violated: the weights sum to two, and the avoider converges to the opposite of the direction to the attractor although the dynamics of both obstacles agree (C112_two_contacts). Missing: reductions that lead to nearly parallel inner directions. |
| C113 | `AvoiderCreate`, `Avoider` | invariant of the loops: all directions of the tree are equal, induction on the hierarchy, reduction of a tree of equal directions; violated: general negative theorems with witnesses | NoAttractor | partial. Proved for every motion of constant direction, any obstacles with hierarchies of depth up to 90 in contact with any number of components (existence of the whole tree included). Violated by the code for all other motions: breakpoint wherever the direction at the position is not that at the reference point of every obstacle, at any distance (C113_blocked), and, for components below the root, wherever the reference dynamics is not the motion itself (C113_reference_blocked). |
| C114 | `Avoider` | logarithm and exponential map of the sphere, intermediate value theorem for the crossing of the circle, convexity for the bound at the switch; mean of the tangents (C108) | Tangent | proved. The external functions get_angle_from_vector, get_vector_from_angle and get_intersection_with_circle enter through their contract (DirectionSpace: logarithm and exponential map of the sphere, furthest point of a line on a circle), which is proved for the plane (planeExt_space). |
| C115 | `Tree`, `Avoider` | signed angles of planar bases, invariant of the level loop, sum over branches exchanged with sum over paths, path angles of sequences added to a tree; violated: concrete tree around the circle | Planar | partial. Tree, sequence and reduction in full; the mean also for weights that sum up to more than one, with at most one on every branch (C115_branches). The convergence formula holds for any number of obstacles and contacts, with the angles of their roots given in closed form; fully explicit for one obstacle of one component. Violated: two nodes with the same direction, reached around opposite sides, have the opposite direction as mean (C115_winding). Missing: closed form for components other than the roots. |
| C116 | `Avoider`, `AvoiderCreate` | tangent of a ball in closed form (C114), mean of the tangents (C108), weights (C32), great circle interpolation; differential inequalities: Grönwall from below, potential along the angle to the centre, last-exit argument; violated: explicit trajectory | Trajectory | partial. One static ball with the default convergence radius pi/2; for motions of constant direction (C116_straight) a bound for all times. For turning motions the distance decays at most exponentially, with a creeping of the size of the tolerance of np.allclose (C116_trajectory_partial), without it if the motion is never within the tolerance of the tangent plane (C116_never_partial). Violated for the exact head-on motion (C116_head_on). Several balls: C120. Other shapes: C124. Missing: turning motions for all times. The trajectories are solutions of the differential equation; integration steps are not modelled here (see C106). |
| C117 | `Flows` | Lyapunov functions along the trajectory, differential inequalities, intermediate value theorem for the sides, first integrals (velocity constant on the tangent, rotating coordinates on the circle) | FlowTrajectory | proved. Trajectories are solutions of the differential equation for all times from 0 on. The external LinearSystem of the wavy dynamics enters through its form gain(p) (attractor - p); the speed limit of vartools is the case C117_wavy_limited. |
| C118 | `Legacy` | closed forms of the weights, sums over lists; violated: two discs on a line | AveragedNormal | partial. Violated by the code: the average jumps at the surface of an obstacle if another one is near (C118_jump), and it vanishes between two obstacles in contact from opposite sides, where the slowing down then has no effect (C118_squeezed). Continuity is proved for a single component. |
| C119 | `Legacy` | relation between runs with different stored lists (induction on the loop), explicit tree of one obstacle, one-hot mean (C21), tangent (C114); violated: general negative theorems | Legacy | partial. Violated by the code: a new avoider raises AttributeError (C119_fresh, C119_fresh_attribute); without obstacles ValueError (C119_no_obstacles); a motion exactly along the reference direction raises ValueError (C119_aligned). The surface claim is proved for one obstacle of one component without convergence dynamics. Missing: several obstacles, other positions. |
| C120 | `Avoider`, `AvoiderCreate` | limited weights: the share of the others vanishes as fast as the deficit of the closest ball; the exponential map contracts; case analysis close to/far from a ball; Grönwall from below for finitely many distances at once; violated: explicit trajectory | Balls | partial. Static balls with a positive gap between each other, motions with a minimal angle to the directions of the centres along the trajectory (for balls with tail effect also to the opposite directions), default convergence radius pi/2. Without the tolerance of np.allclose if the motion is never within it of a tangent plane (C120_never_partial), otherwise with a creeping of its size (C120_trajectory_partial). Violated for motions along the line of the centres (C120_head_on); without a gap C61_two_contacts. Other shapes: C124. Missing: motions that become head-on. |
| C121 | `Comparison` | induction over the loop with the list of positions as invariant; violated: general negative theorems | Comparison | partial. Violated by the code: the position of rest is missing, a start at rest gives no position at all (C121_rest_lost); the start is not tested for collisions (C121_start_untested); it_max below two raises (C121_iterations); a single start position cannot be evaluated (C121_single_start). Everything else is proved. |
| C122 | `Comparison` | means of lists, closed form of the velocities of simulated trajectories by induction; violated: explicit trajectories | ComparisonMetrics | partial. Violated by the code: in evaluation_trajectories.py errors inside and outside of the circle cancel (C122_path_cancels); the squared deviation of dynamics from themselves is positive unless the speed is one (C122_speed_counts); after a step without motion velocities are compared with the dynamics at wrong positions (C122_shifted). Everything else is proved. TrajectoryEvaluator.run of these files is not modelled (os is not imported there). |
| C123 | `Comparison` | induction over the tables, means and variances of lists; violated: general negative theorem | PathStatistics | partial. Violated by the code: the spread of the occupied fraction is always zero (C123_no_spread); run before get_converged raises AttributeError (C123_errors). Everything else is proved. |
| C124 | `Avoider`, `AvoiderCreate` | Euler identity of the gauge gives the same normal along each ray; tangents (C114), mean (C108), weights in terms of the angle of the motion to the surface; contraction of the exponential map as for C120; Grönwall from below for finitely many gauges at once; violated: explicit trajectory | StarRegion | partial. Static obstacles of one component each, described by a differentiable gauge (StarRegion; balls and ellipses are instances), default convergence radius pi/2; motions with a minimal angle to the directions of the reference points along the trajectory (with several obstacles also to the opposite directions). Without the tolerance of np.allclose if the motion is never within it of a tangent plane (C124_never_partial), otherwise with a creeping of its size (C124_trajectory_partial). Violated for motions along a common axis (C124_head_on). Missing: surfaces with edges, several components per obstacle, motions that become head-on. |
| C125 | `DirectionPull` | convexity of the ball, closed form of the deviation weight (C92), inner products; violated: general negative theorems | DirectionPull | partial. Violated by the code: a direction towards the reference gives None (C125_head_on) and a vanishing tangent nan (C125_no_tangent); a direction between the reference and the normal is turned towards the obstacle, with some weight exactly against the normal (C125_shrinks; it grows for the other directions, C125_turns_away_partial); the weight is checked only after its reduction (C125_weight_accepted; rejected inside the circle, C125_weight_rejected_partial). Everything else is proved, for an external intersection which leaves the circle (LeavesCircle) and references inside the circle. Directions are angles of UnitDirection objects of one base. |
| C126 | `DirectionPull` | closed forms with the weight of the inverted direction (C92); violated: general negative theorems | DirectionPull | partial. Violated by the code: with full weight the direction is pulled beyond the convergence direction to the opposite side of the circle (C126_overshoots), and with the closer intersection point first the call stops (C126_secant_stops). Proved: what the code does if the convergence direction converges (C126_pulled), that converging directions are kept (C126_unchanged) the projection in every case (C126_unprojected, with the more distant point first C126_secant_partial) and the result if neither direction converges, which does not reach the projection (C126_neither). With the closer point first and a short secant the projection is not on the circle (C126_secant_mirrored). |
| C127 | `KMeansExclusive` | the first two entries of a sorted permutation, powers of numbers between zero and one; violated: general negative theorems | KMeansExclusive | partial. Violated by the code: a single cluster gives IndexError within the cut-off distance (C127_single), resting outside dynamics give nan (C127_rest), and with a second centre within the cut-off distance the motion on the surface does not lead to the centre (C127_surface_fails; C127_surface_partial otherwise, for unit outside velocities). Everything else is proved. |
| C128 | `GmmGradient` | Fréchet derivative of the quadratic form, chain rule; induction over the rounds of the descent (line, translation, order); violated: uniqueness of the gradient and an explicit pair of circles | GmmGradient, GmmGradientExamples | partial. Violated by the code: get_gamma_derivative is half of the gradient (C128_half; C128_gradient for general matrices), so is evaluate_derivative (C128_density_half); _get_gauss_derivative always raises (C128_gauss_fails); a MultiVariantGaussian cannot be evaluated after its creation (C128_fresh_fails); the point returned for two intersecting ellipses can be outside of one of them with the default parameters (C128_outside; inside for Gaussians of the same shape, C128_inside_partial). Everything else is proved. |
| C129 | `GmmGradient` | coordinates along the orthonormal eigenvectors; cosine and sine of the argument of a unit complex number; violated: explicit tilted covariance for every mean and factor | GmmEllipses | partial. Violated by the code: the analytic ellipse uses the rows instead of the columns of the matrix of the eigenvectors and is turned in the opposite sense if these form a rotation (C129_turned; correct for symmetric matrices, C129_analytic_partial). Everything else is proved, for an external intersection which leaves the circle (LeavesCircle). |
| C130 | `Avoider`, `Comparison` | one step: the distance to the centre is at least its component along the old normal, and the rate of C120; induction on the steps and on the loop of the simulation; for convex shapes the gauge is above its tangent | Steps, StepsRegions | partial. Static balls apart from each other, motions which are not head-on and not within the tolerance of a tangential plane (C130_steps_partial, C130_simulated_partial, C130_completes_partial, C130_straight_partial); with a creeping of the size of the tolerance also for motions that pass a tangential plane (C130_creeping_partial). Obstacles of any convex shape with a smooth surface, ellipses for example, apart from each other (C130_regions_steps_partial, C130_regions_simulated_partial, C130_regions_completes_partial). Violated for the exact head-on motion (C130_head_on). Missing: shapes which are not convex or not smooth, obstacles which touch. |
| C131 | `BodyConversion`, `MultiBody`, `Composite` | invariant of the conversion loop (the graph so far is that of the parents so far), built on the invariants of C44 and C48 | BodyConversion | partial. The code violates part of the claim: with a base pose the body is moved as well, and twice by a second conversion (C131_moves_body); after a rejected limb the body cannot be converted any more (C131_rejected_limb). |
| C132 | `GmmRegions`, `GmmGradient` | trigonometry of the angle, orthogonality of the eigenvectors; induction over the regions | GmmRegions | partial. The code violates part of the claim: the first row of the matrix of the eigenvectors is taken for the first eigenvector, so that end point and region belong to a mirrored covariance (C132_turned); a root region without the attractor gets a local attractor in the direction of the last region (C132_root_outside). |
| C133 | `GraphElement` | objects in a heap with identity and structural comparison; invariant of the links by induction over the history of calls | GraphElement | partial. Proved for every history of the intended use (elements without parent are attached, siblings of an expelled element have other values). Violated by the code: the expelled element keeps its parent and children (C133_expel_keeps), a twin is removed in its place (C133_twin), a second parent leaves the element in the list of the first one (C133_second_parent), a second expel raises ValueError (C133_twice); BasicGraphHandler never fills the lists of children (C133_handler_childless), delete_element always raises ValueError for elements with a parent (C133_handler_delete) and a deleted root stays the root (C133_handler_root). |
| C134 | `Tracking` | invariant of filters and numbers by induction over measurements and over the history of updates | Tracking | partial. The filters of vartools are a parameter (any state and step). Proved for components with distinct numbers other than -1. Violated by the code: the second component with a number is never measured (C134_duplicate), a measurement with the number -1 raises AttributeError (C134_minus_one), after a rejected component every update raises KeyError (C134_rejected), the look-up by number always raises KeyError (C134_lookup). |
| C135 | `ConstantValue`, `Avoider` | direct computation of the sequence; the avoider depends on the initial dynamics only through velocity, attractor and sequence (induction over the chain of parents) | ConstantValue | partial. Violated by the code for the velocity zero: every evaluation raises ValueError instead of rest (C135_rest). |
| C136 | `Avoider`, `Projected` | the moved scene is a separate specification (Spec/Shift.lean); every step of the evaluation gives the same value, by induction over obstacles, components and chains of parents | AvoiderShift | partial. Proved for positions outside of all components, and inside if the comparison of the position with the centre has the same outcome. Violated by the code inside of obstacles: the relative tolerance of np.allclose(position, center) grows with the distance from the origin, so that for a suitable origin every position inside counts as the centre and the convergence radius is 180 degrees (C136_inside). With ProjectedRotationDynamics the folded position must not be further away than 1e10 (C136_projection). |
| C137 | `Avoider` | the faster scene is a separate specification (Spec/TimeScale.lean); sequences and trees are the same, the relative velocity is linear, by induction over obstacles | AvoiderTime | partial. Proved wherever an obstacle has an influence, or without obstacles, for velocities above the tolerance 1e-8 at the position and at the reference points. Violated by the code where no obstacle has an influence: the result is a vector of length one, whatever the speed (C137_no_influence, C137_fails). |
| C138 | `Avoider`, `Tree` | renumbering of the obstacles as an isomorphism of the trees of directions, by induction over obstacles and components; the reduction of isomorphic trees agrees; weights commute with permutations | AvoiderOrder, AvoiderOrderBalls, RegionsOrder | partial. Proved (C138_partial) if in the trees of directions no direction is opposite to its parent and inner nodes are equal to their parents or outside of the allclose tolerance; there is no restriction on contacts or weights. For balls (C138_balls_partial) and star-shaped obstacles (C138_regions_partial) in the way of a motion of constant direction this hypothesis is not needed either. The relative velocity has no hypotheses (C138_relative). |
| C139 | `Tree` | edges of the graph by induction over the history of calls; the defects by evaluation for all arguments | TreeApi | partial. The children are proved for every history (C139_children). Violated by the code: get_parent raises for every node of every tree (C139_parent_fails, C139_parent_unknown), rotate and inverse_rotate raise for all arguments (C139_rotate_fails). |
| C140 | `VectorRotation`, `Tree`, `Avoider` | turned trees and turned scenes as separate specifications (Spec/Turn.lean, Spec/TurnScene.lean); a simulation relation between the two runs of the reduction, by induction over nodes and levels; the tolerance of allclose bounded in every frame; the avoider commutes with the turn function by function (Lemmas/SceneTurn, AvoiderTurn), the tangent through the logarithm of the sphere, which is independent of the chart; a second simulation for the loop that builds the convergence tree (Lemmas/SequenceTurn, ConvergenceTurn), with the transformations related up to the second base vector of zero rotations | AvoiderTurn, ConvergenceTurn, TreeTurn | partial. Building is proved for every history (C140_history). Rotations, reductions and means are proved for directions which are equal or clearly different (C140_rotation_partial, C140_tree_partial). Violated by the code for nearly parallel directions (C140_nearly_parallel): the rotation goes the wrong way, in a direction that depends on the axes. The tangent directions and the weight of the avoidance turn with the axes (C140_tangent, C140_rotation_weight). MultiObstacleAvoider.evaluate gives the turned velocity and raises the same exceptions for star-shaped obstacles which do not rotate, at positions outside (C140_avoider_partial), if the direction of convergence turns; this is proved for motions of constant direction without attractor (C140_straight_partial), and for every initial dynamics with the projected convergence dynamics or the one without singularity, for any number and hierarchy of obstacles, if the directions of the convergence trees are equal or clearly different (C140_projection, C140_without_singularity, C140_convergence_partial, C140_velocity_partial, C140_projected_partial). Missing: positions inside and rotating obstacles; exceptions of the convergence tree. |
| C141 | `Avoider`, `Projected` | enlarged scenes as a separate specification (Spec/Zoom.lean); every function of the avoider commutes with the enlargement, by induction over obstacles, components and the loop over the parents; another unit is the enlargement followed by another time scale (C137); the violation by evaluating the fold on a line for every factor | AvoiderZoom | partial. Proved for every avoider whose convergence dynamics gives the same results with both units (C141_zoom_partial, C141_units_partial); this holds for the convergence dynamics without singularity (C141_without_singularity) and for the rotations of the projected one (C141_projected_rotations). Violated by the code for the weight of the projected convergence dynamics, which depends on the unit (C141_projected_weight), and where no obstacle has an influence (C137_no_influence). Missing: positions within the absolute tolerance 1e-8 of the attractor or of a centre. |
| C142 | `MixtureRegression` | convex combination with the mixing weights; Cauchy-Schwarz for the weights with attractor; the violations for every mixture of equal components and every attractor moved by the normalisation | MixtureRegression | partial. Proved without attractor. With attractor (the default): the result at the attractor in normalised coordinates is the mean of the data and it is bounded (C142_attractor, C142_bounded); negative results: it can exceed all conditional means, because the weights are normalised with the Euclidean norm (C142_outside), and the given attractor is compared with the normalised sample (C142_attractor_not_normalised). |
| C143 | `DirectionalFit` | runs as a separate specification; induction over the iterations and the restarts | DirectionalFit | partial. Proved for a configured object, with the functions inherited from sklearn as parameters and finite bounds. Negative results: converged_ is true if any run converged, also if the kept one did not (C143_converged); an object as constructed has no settings and every fit raises (C143_unconfigured). |
| C144 | `Human`, `MultiBody`, `BodyConversion` | the general theorems about bodies (C48, C131) applied to the calls of the factory functions; turning a limb without children keeps the joints; the joints are inside of both parts by computation with the literal lengths | Human | proved. With the rotations of scipy as parameters and exact lengths; the obstacles count as solid cuboids and ellipsoids with half of axes_length to every side. |
| C145 | `SurfacePoints`, `KMeans` | C80 for the directions of np.linspace; the closest sample by rounding the angle of the direction | SurfacePoints | proved.  |
| C146 | `DeviationFit`, `LocalDynamics` | the loops of the fit are unrolled over the two axes and sides; a sample belongs to the side that is consulted at its position, so that all local predictions agree and their mean is the sampled direction | DeviationFit | partial. In the plane (in other dimensions the fit raises, C91_fit_dimension), with the regression, the angle space and the directional mean as contracts. Learning again after samples that left out a side raises AttributeError (C146_refit_fails; C146_refit holds if all sides had samples). predict measures the deviation from the line to the origin instead of the attractor (C146_predict_origin_fails) and gives nan at the attractor (C146_predict_nan). Samples with larger deviations are not reproduced but cut off at 0.49 pi (C146_cut_off_fails, for samples straight on an axis). Missing: the sampled speed, which is not learned. |
| C147 | `KMeansCreate`, `KMeans` | the sum of squares is expanded around the mean; the graph of a first fit is a chain (C55), so that every successor is the cluster before it; for later fits: the edges only grow, so that the oldest parent stays the first successor | KMeansCreate, KMeansRefitDistances | partial. The iterations of sklearn are not modelled. A learner made by from_centers cannot be evaluated outside of the clusters (C147_from_centers_fails). The entries of compute_distances_to_neighbours are in the order of the hierarchy and not of the clusters (C147_order). Violated after a second fit: the graph keeps the old edges, and the distance of a cluster is the one to its oldest parent (C147_any_fit for every history of fits, C147_refit_fails for three clusters). |
| C148 | `ProjectedHelpers`, `Projected` | case distinction over the branches; C05 and C06 for the rotation between two directions | ProjectedHelpers | partial. The gradients and the rotation of the modulation are proved. Violated by the code: get_projected_gamma gives max_gamma, None or an AttributeError, never another value (C148_projected_gamma_fails); the rotation of the shrunk position is called with an unknown keyword and raises TypeError everywhere (C148_shrunk_fails); an avoided velocity opposite to the velocity gives nan (C148_modulation_opposite). Missing: directions closer to each other than the tolerance of np.allclose, which are not turned exactly. |
| C149 | `ContainerQueries`, `MultiHull` | list induction; the intersections after an update are those of C99 | ContainerQueries | partial. The boundary points are proved for hulls whose surface the external intersection finds from the centre. Violated by the code: the obstacles (MultiObstacle) do not have the method is_in_free_space, so that the question raises AttributeError unless the container is empty (C149_free_space_fails; C149_free_space is the claim for obstacles with the method); deleting raises and removes nothing (C149_delete_fails). |
| C150 | `SpiralCreate`, `Flows` | in the frame of the basis the velocity across the axis is the one of the circular dynamics (C51) | SpiralCreate | partial. Proved for axes through the origin (C150_cylinder), with the orthogonal basis of vartools as a contract. Violated for other centres, because the centre is added to the velocity: the progress has the same sign everywhere, and this sign depends on the centre (C150_progress); around a centre behind the origin the spiral moves backwards (C150_backwards). |
| C151 | `SpiralCreate`, `Flows` | the velocity is a positive multiple of the sum of a vector in the plane and a positive multiple of the way to the attractor | SpiralAttractor | partial. Proved for the second coordinate axis as direction, wherever the velocity is defined (C151_height). Violated for other directions: the direction has no effect on the velocity, the axis is always the second coordinate axis (C151_direction_ignored). See C72 for the attractor itself. |
| C152 | `TrackingUpdate`, `Tracking` | the pose set is the relative pose of the filter; the transformation to the robot frame is inverted | TrackingUpdate | partial. Proved for the pose of the filter (C152_placed), also after a measurement received through update_using_optitrack (C152_after_update), and for the refused calls (C152_refused). Violated for the measurement given to the call, which is ignored (C152_measured_fails). Indices counted from the end: C152_from_end. |
| C153 | `RotationIntersection`, `RotationContainer` | every branch of the loop stores dynamics with the attractor; one entry per obstacle after every history (C98) | RotationIntersection | partial. Proved after any history for dynamics with an attractor (C153_attractor), without one (C153_no_attractor), for common dynamics (C153_common) and for the refused calls (C153_refused); whether constant dynamics (vartools) have an attractor is a parameter. Violated as a position of an intersection: with an attractor the answer is the same for all obstacles, wherever they are (C153_same_fails). |
| C154 | `LyapunovDirection` | the step is a multiple of the way to the attractor; strictness from equality in the Cauchy-Schwarz inequality | LyapunovDirection | partial. Proved for dynamics with an attractor (C154_unit, C154_descent, C154_steepest) and, up to the length, for constant flows (C154_constant). Violated: the direction of a constant flow is not normalised (C154_normalised_fails). |

## 4. Trusted base

* Lean 4.33.0's kernel, and Mathlib's definitions used in statements.
* Axioms: every theorem depends on at most `propext`, `Classical.choice` and
  `Quot.sound` (Lean's three standard axioms; `vcheck` prints them).  There are no
  own axioms, no `sorry`, no `native_decide`, no `bv_decide`.
* The reading of the Python source into the definitions under `Model/`.  Nothing
  checks mechanically that the definitions agree with the source; the citations
  are there so that a reader can.
* The conventions of section 2: real numbers in place of floats, `nan` as an
  explicit outcome.

### Modelled

| module of `Model/` | source in `/repo/nonlinear_avoidance` |
|----|----|
| `Num`, `VectorRotation` | `vector_rotation.py`: `VectorRotationXd`, `rotate_direction`, `rotate_array`, `directional_vector_addition` |
| `Sequence` | `vector_rotation.py`: `VectorRotationSequence`; `dynamics/sequenced_dynamics.py` |
| `Tree` | `vector_rotation.py`: `VectorRotationTree` |
| `Weights` | weight functions of `multi_obstacle_avoider.py`, `nonlinear_rotation_avoider.py`, `avoidance/rotational_avoider.py`, `dynamics/projected_rotation_dynamics.py`, `gmm_learner`/container weights, safe scaling and occlusion weights |
| `Obstacle`, `Avoider`, `AvoiderCreate` | `multi_obstacle_avoider.py`: `MultiObstacleAvoider.evaluate`, `evaluate_sequence`, convergence and tangent trees, moving obstacles |
| `Legacy` | `multi_obstacle_avoider.py`: `compute_averaged_normal_and_gamma`, `evaluate_old`, `evaluate_avoidance_sequence`, `get_tangent_direction` |
| `GraphHandler`, `GraphElement` | `graph_handler.py` |
| `Composite`, `Containers`, `MultiBody`, `BodyConversion`, `Tracking`, `Limb` | `multi_obstacle.py`, `_base_multiobstacle.py`, `multi_ellipse_obstacle.py`, `multiboundary_container.py`, `multi_obstacle_container.py`, `multi_body_human.py`, `obstacles/flexi_limb_human.py`, `rigid_body.py` |
| `Projected` | `dynamics/projected_rotation_dynamics.py` |
| `RotationalAvoider`, `DirectionPull`, `Weights` | `avoidance/rotational_avoider.py` |
| `NonlinearAvoider` | `nonlinear_rotation_avoider.py` (`avoid` calls a method that is commented out and always raises `AttributeError`) |
| `Flows`, `Segments`, `LocalDynamics`, `ConstantValue` | `dynamics/constant_value.py`, `dynamics/wavy_attractor_dynamics.py`, `spiral_dynamics.py`, `circular_dynamics.py`, `segmented_dynamics.py`, `locally_rotated_linear_dynamics.py`, `deviation_dynamics.py`, `nonlinear_deviation.py` |
| `Hull` | `multi_hull_and_obstacle.py` |
| `KMeans`, `KMeansNormal`, `KMeansPredict`, `KMeansExclusive`, `KMeansDirection` | `kmeans_learner/` |
| `GmmGraph`, `GmmObstacle`, `GmmGradient`, `GmmRegions`, `Utils` | `gmm_learner/graph.py`, `gmm_obstacle.py`, `multivariant_gaussian.py`, `utils.py` |
| `Arch`, `RotationContainer`, `MultiHull`, `RelativeReference`, `EllipseGeometry` | `arch_obstacle.py`, `rotation_container.py`, `multihull_convergence.py` and `multiboundary_container.py` (intersections, relative references), `geometry.py`, functions of `multi_ellipse_obstacle.py` |
| `Learner` | `gmm_learner/math_tools.py`, `gmm_learner/learner/base.py`, `directional_gmm.py`, `gpr_directional.py`, `svr_directional.py` (training and file input excepted) |
| `MixtureRegression` | `gmm_learner/direction_space.py` (one sample at a time) |
| `DirectionalFit` | `gmm_learner/learner/directional.py` (the functions inherited from sklearn are parameters; `_estimate_log_weights` and `_estimate_log_prob` are part of them) |
| `LyapunovDirection` | `dynamics/nonlinear_deviation.py`: `get_lyapunov_gradient_direction` of the three local dynamics |
| `RotationIntersection` | `rotation_container.py`: `get_intersection_position` |
| `TrackingUpdate` | `multi_body_human.py`: `update_dynamic_obstacle` |
| `SpiralCreate` | `dynamics/spiral_dynamics.py`: `create_from_direction` of both dynamics |
| `ContainerQueries` | `multi_obstacle_container.py`: `is_in_free_space`; `multiboundary_container.py`: `get_convergence_boundary_point`, `__delitem__` |
| `ProjectedHelpers` | `dynamics/projected_rotation_dynamics.py`: `_get_lyapunov_gradient`, `_get_projected_lyapunov_gradient`, `_get_vector_rotation_of_modulation`, `get_projected_gamma`, `evaluate_rotation_shrunkposition_to_transform` |
| `KMeansCreate` | `kmeans_learner/kmeans_motion_learner.py`: `_fit_kmeans` (the start of the second clustering), `compute_distances_to_neighbours`, `outside_dynamics` |
| `DeviationFit` | `dynamics/nonlinear_deviation.py`: `fit_from_velocities`, `velocity_to_direction`, `predict` of `PerpendicularDeviatoinOfLinearDS`, `ConstantRegressor`, `MultiOutputSVR` |
| `SurfacePoints` | `kmeans_learner/kmeans_obstacle.py`: `evaluate_surface_points` |
| `Human` | `multi_body_human.py`: `create_2d_human`, `create_2d_human_with_multibodyobstacle`, `create_3d_human` |
| `Comparison` | `comparison/comparison_multiobstacle_vectorfield.py` (simulation, start positions), `comparison/evaluation_trajectories.py` and `evaluation_trajectories_with_std.py` (measures), `comparison/evaluation_path_following.py` (statistics); file input and output excepted |

### Not modelled

* Plotting, animation, logging, file input and output, the scripts under
  `/repo/scripts` and `/repo/examples`, the rest of `comparison/`, and the test files.
* The training of regressors and mixtures (`sklearn`), shapely geometry, and the
  parts of `vartools` and `dynamic_obstacle_avoidance` the code calls: they are
  parameters, see section 5.
* Rounding of floats, running time, memory.
* Functions without callers that cannot run at all (undefined names, missing
  arguments), unless a property mentions them; where they are part of the API
  the failure is a theorem (C70, C73, C90, ...).
* The header comment of every file under `Model/` lists what is left out of that
  source file.

## 5. Assumptions on code outside the repository

They are hypotheses of the theorems that need them, with an `example` or a
concrete instance that satisfies them.

* `numpy`: `argsort` returns an ascending permutation (`IsArgsort`,
  `IsPreference`; ties in any order), `argmin`/`argmax` the first extremum,
  `linalg.norm` is the Euclidean norm, `linalg.pinv`, `eigh` and `cholesky` by
  their defining equations.
* CPython: iteration over a set of small integers is ascending; dictionaries and
  `networkx.DiGraph` keep insertion order.
* `networkx.shortest_path`: a path of the graph with the given ends
  (`PathSpec`).
* `vartools`: `Pose` is a rigid motion; `get_orthogonal_basis` returns an
  orthonormal matrix whose first column is the given direction;
  `get_directional_weighted_sum` returns a unit vector, the single direction if
  one weight is one, and in the plane the mean of the signed angles;
  `get_angle_space_inverse` returns the unit vector at the angle of its argument;
  `LinearSystem` moves along the vector to its attractor.
* `dynamic_obstacle_avoidance` obstacles: `SaneObstacle` and `StarGeometry`
  (gamma is at least one exactly outside, normals and reference directions are
  unit vectors, gamma and local radius agree along rays).
* `scipy.spatial.transform.Rotation`: the quaternion formula.
* `sklearn`: `KMeans.predict` returns a closest centre; mixtures are arbitrary
  functions with non-negative values.
* Every assumption on a parameter is visible in the theorem; nothing is assumed
  globally.

## 6. Where the code does not do what the property says

Each item is a theorem: the negation of the property, or of a part of it, on a
concrete or general input.

* `C13_not_connected`: for the connected sequence `e0 → e1 → e2` and the weights `(0, 1/2)` the code returns `(e0 + e1)/√2` instead of `(e0 + e1)/2 + e2/√2`; the second rotation, of weight one half, has no effect at all. (Line 365 rotates the upper bases by `+angle*(1-c)` instead of `-angle*(1-c)`.)
* `C14_append_from_direction_discontinuous`: for `e0 → (e0+e1)/√2` (45°) the rotation appended for direction `e2` does not start at the end of the sequence.
* `C15_rotate_vector_rotation_wrong`: C15 fails for `rotate_vector_rotation` in general: rotating `e1 → e2` by a right angle in the plane `(e0, e1)` should give a rotation starting at `-e0`; the code returns one that starts at `e2` (line 203 passes the base of the argument).
* `C18_child`: `add_node(child_id=…)` always raises `TypeError` and leaves an edge behind.
* `C18_level_limit`: adding below a node of level 99 raises `ValueError` and leaves the new node and its edge behind.
* `C18_missing_parent`: for every rooted tree, adding a node below a missing parent raises `KeyError` *and* leaves both the missing parent and the new node behind, without attributes, so that the object is no tree any more.
* `C21_tolerance`: within the tolerance of `np.allclose` the stored direction itself is not returned: the rotation goes into another plane.
* `C27_repeated_rotation`: putting the whole weight on an inner node whose direction differs from its parent's direction gives a sequence whose last rotation is listed twice, so that the last rotation does not start where the previous one ends.
* `C28_sum_exceeds_total`: two saturated weights.
* `C28_sum_saturated`: with weights at or above one, the returned weights sum up to the number of such weights, while the returned total is one.
* `C32_aligned_zero`: outside the obstacle the weight is zero if the convergence direction is exactly opposite to the reference direction and within the convergence radius.
* `C38_default_ignores_occlusion`: A defect next to C38: the default `max_gamma = 2` acts as a lower bound, so that all components with gammas at most two (occluded or not) get the same weight.
* `C39_opposite_raises`: where the initial velocity points exactly away from the attractor the avoider raises `ValueError`, with or without obstacles.
* `C41_exceeds`: moving away from a disc with a speed of one half, the avoider returns a unit vector; the speed is not bounded by the speed of the initial dynamics.
* `C41_unit_speed`: if no component influences the motion (for example when moving straight away from the only obstacle), the avoider returns a unit vector, whatever the magnitude of the initial dynamics.
* `C42_two_contacts`: for obstacles with one component each, the weight of the initial velocity is one minus the number of obstacles in contact, that is, negative if there are two or more.
* `C43_own_parent`: `add_element_with_parent(v, v)` with a new element is accepted and makes it its own parent.
* `C43_second_parent`: giving an element a second parent leaves it in the list of children of the first one, for every such call in every history.
* `C43_unknown_parent`: `add_element_with_parent` with an unknown parent raises `ValueError`, but the element has been added: the lists of values and of parents have different lengths from then on, and the parent of the new element cannot be read.
* `C44_own_parent`: with its own future number as parent `add_component` succeeds; the new component is then its own parent and does not reach the root.
* `C44_second_root`: a second `set_root` returns the number 0 although the new component has another number; it does not become the root, and its parent cannot be found.
* `C44_unknown_parent`: with an unknown parent `add_component` raises `KeyError`; the component has been added nevertheless and its parent cannot be found.
* `C46_parent_zero`: a parent 0 is silently replaced, and the component stays in the list of children of component 0.
* `C46_root_zero`: once component 0 is the root, `set_root` silently replaces it.
* `C46_unknown_root`: a failing `set_root` with an unknown number leaves this number as the root.
* `C47_first_attached`: `append(parent=-1)` on an empty container makes the obstacle its own child, and `get_level_numbers` never terminates.
* `C47_reparented`: attaching an obstacle that already has a parent leaves it in the list of the old parent.
* `C52_sum_on`: violated by the code where segments meet or cross: the sum is the number of segments the position lies on.
* `C54_child`: The other cluster with a weight is never the parent: it is the child, the cluster *before* in the demonstration (level one higher, mean sequence value not larger).
* `C55_refit`: `fit` does not empty the graph: after a second fit with the opposite order each of two clusters is the parent of the other.
* `C56_debugger`: With more than 100 Gaussians the call can stop in the debugger: here every Gaussian prefers the one before it, so that each round attaches one Gaussian.
* `C56_wrong_order`: If no Gaussian can get its preferred parent, the one that is attached first is not the one with the largest weight at its parent: here 2 and 3 compete for the root, the weight of 2 is larger, and 3 is attached (2 then becomes its child).
* `C57_concentric`: If a child and its parent have the same mean (its reference point is then this mean) and the projected point is in the parent, the weights are `nan`, at every position outside of all Gaussians.
* `C59_not_stopped`: pointing straight into an obstacle in contact, the velocity is not stopped if another obstacle, further away and first in the list, has the same normal.
* `C60_rotating_3d_raises`: in three dimensions the avoider raises `ValueError` as soon as it is in contact with a rotating obstacle.
* `C60_rotating_raises`: in three and more dimensions the call raises as soon as the position is in contact with exactly one obstacle and this obstacle rotates, whatever the other obstacles.
* `C61_rest_overrun`: where the initial dynamics is at rest, the avoider returns zero and ignores that an obstacle in contact moves towards the position: the obstacle overruns it, with any speed.
* `C61_shadowed`: a component whose reference point is not inside of its parent can be hidden by the parent: the position is inside of the component and outside of its parent, and the avoider moves with full speed deeper into the component.
* `C61_two_contacts`: C61, negative result (violated with two obstacles in contact): at the corner of two static discs the tangent directions cancel in the mean, and the averaged normal does not detect the penetration: the velocity points into one of the discs with more than a fifth of the magnitude of the initial dynamics.
* `C64_mixed_frames`: the intersection is computed between the new component in the local frame and its parent in the global one. Two balls, of which one would be placed exactly on top of the other, are rejected with `ValueError` ("No intersection found.") because the obstacle stands away from the origin.
* `C65_changed`: a failing `add_component` leaves the obstacle in the list of components, so that from then on the obstacle with number `k` is not the one of node `k`: the reference point of the next component is taken in the frame of the rejected one.
* `C66_above`: a limb measured above the attachment point (but not exactly above) is mirrored: its axis points downwards.
* `C66_exactly_below`: a limb measured exactly below the attachment point points upwards.
* `C67_argument_overwritten`: in the obstacle frame, unfolding changes the array it is called with: its first entry is divided by the distance between attractor and obstacle. In the global frame it is unchanged.
* `C67_sides_merge`: within the tolerance of `from_directions` the side of the position is lost: far from the obstacle (distance of the attractor `10 ^ 6`), two positions on opposite sides of the attractor are folded and unfolded to the same position, so that at least one of them is not given back.
* `C70_compute_fails`: `compute_obstacle_convergence_sequence` never succeeds: its weight is always positive, and then it calls a method with a missing argument.
* `C71_exceeds`: violated by the code: every `maximum_velocity` below one is exceeded everywhere outside a third of the radius.
* `C72_rotation_ignores_pose`: violated by `CircularRotationDynamics`: the pose has no effect at all, so that the dynamics do not move with it: they circulate around the origin wherever they are placed.
* `C72_spiral_attractor_not_stationary`: violated by `SpiralingAttractorDynamics3D`: they are never stationary at their attractor (for a positive speed) - the velocity has the full speed or no value.
* `C72_spiral_not_translation_invariant`: violated by `SpiralingDynamics3D`: the same spiral moved by three units returns, at the moved position, a different velocity.
* `C73_stops`: violated by the code: every call that moves the base ends in the debugger.
* `C75_backwards`: violated by the code for points closer than twice the margin (default: closer than one): the segment leads *backwards*, from near the second point to near the first.
* `C75_equal_fails`: violated by the code: at exactly twice the margin no path is created.
* `C76_attractor`: violated by the code: at the attractor the *number* zero is returned instead of a velocity vector.
* `C76_beyond`: violated by the code: straight beyond the end of the path, on the extension of the last segment, the evaluation stops at a `breakpoint()`, for every path and at every distance.
* `C76_reversal`: violated by the code: a path which turns back (two consecutive segments in opposite directions) cannot be followed at all: the evaluation stops at a `breakpoint()` at every position but the attractor.
* `C76_too_long`: violated by the code: a path of 99 or more segments cannot be evaluated anywhere but at the attractor, because the direction tree is limited to 100 levels.
* `C77_container_stale`: violated by the code: setting the attractor of a container again has no effect if it is within the tolerance of the current one, also not for an obstacle that was appended in between.
* `C77_wall_first`: violated by the code: an attractor in the wall is given to the first inner obstacle, however far it is, and not to the closest element (`argmin` of weights that are all zero).
* `C78_from_outside`: violated by the code: from the outside the path always leads to the inner obstacle number 0, wherever the attractor is.
* `C78_two_elements`: violated by the code: as soon as the attractor is in the free space of two inner obstacles, the search from any other element raises `TypeError` (dictionaries are compared).
* `C79_frame`: the velocity for a position in the global frame is the velocity at the local position turned by the *inverse* of the orientation of the obstacle.
* `C79_speed`: violated by the code: wherever in free space the velocity is defined it has speed one, however close to the attractor (the limited velocity is computed and dropped).
* `C79_wrong_frame`: violated by the code: the velocity of a turned obstacle points in a wrong direction (it should be `cyclic (e3 0) = e3 1`, the direction of the attractor).
* `C80_argument_overwritten`: In the local frame a query at the centre overwrites the array of the caller.
* `C80_obstacle_none`: For an obstacle that is not a boundary `get_gamma` returns `None` at every position except the centre and the surface, and `is_inside` raises `TypeError` there.
* `C80_surface_inside`: On the surface `is_inside` depends on the last cluster: `-1` means "no transparent wall" below line 340, but selects the last row in lines 262-265. For the last cluster itself (and for every cluster whose ball does not meet that of the last) every point of the surface is reported as inside.
* `C82_missing_label`: A point can end up with a label that does not exist: cluster 1 is removed and its point labelled with its neighbour (now number 1), then this neighbour is removed as well.
* `C82_wrong_label`: A point of a removed cluster can end up with a wrong label: it is given the label of the closest remaining cluster, and the later passes of the loop shift this label again.
* `C83_weights`: Outside of all balls, near at least one of them, the weights given to the directional sum are not a convex combination: the weight of the velocity outside is never positive, and the weights sum to one only if the weights of the clusters sum to more than ten, otherwise to one tenth.
* `C84_diverges`: With the default factors and powers the iteration leaves the intersection: for two overlapping intervals (radius 1 around 0, radius 1/10 around 1) the result is outside of both.
* `C85_center`: At the mean there is no normal direction, in spite of the default in the code.
* `C85_nan`: With correlated coordinates gamma is `nan` at some points: the factor of the precision is not symmetric positive definite.
* `C85_not_covariance`: The surface of the obstacle is not the ellipse of the covariance: the factor of the precision is used as if it were the precision. For variance 4 (precision `1/4 = (1/2)²`) and a variance factor of 2, the point two standard deviations from the mean has gamma `√2`.
* `C86_index_error`: With fewer Gaussians than dimensions the construction can fail: two Gaussians in three dimensions whose means have the same height.
* `C86_not_closest`: The root need not be closest to the centre: of the Gaussians at `(-3, 0)`, `(3, 0)` and `(0, 0)` the second one becomes the root, although the last one is at the centre.
* `C86_root_is_dimension`: The index of the root is the index of a dimension: it is below the dimension of the space, however many Gaussians there are.
* `C87_away_stopped`: A velocity straight away from the kernel point with speed one or more is stopped.
* `C87_not_guided`: A velocity towards the kernel point, or slower than one, is returned unchanged, so there is no guidance around the root.
* `C87_tangent`: In the remaining case the result is tangent: orthogonal to the direction from the kernel.
* `C88_circles`: If the normals of all relevant Gaussians agree with their reference directions (as for circles), the mean normal is `nan`.
* `C89_obstacle_at_attractor`: With the obstacle centre at the attractor the object can be created, but every evaluation fails, also at the attractor.
* `C89_opposite`: If the reference velocity points exactly away from the attractor, the velocity is `nan` at all positions in the obstacle that are not exactly perpendicular.
* `C89_perpendicular`: In the obstacle the rotation is switched off at positions seen from the attractor at a right angle to the obstacle centre, although it is complete (`C89_inside_partial`) at all positions next to them.
* `C90_far`: Far away from the obstacles the linear dynamics are followed, not the initial dynamics: for one obstacle in whose centre both agree, at every distance.
* `C90_no_update`: Without the update of the centre dynamics every call fails.
* `C90_weights_inside`: In an obstacle the weights are proportional to gamma: the obstacle that contains the position has less weight than all those that do not.
* `C91_convergence_speed`: `evaluate_convergence_velocity` has no limited speed.
* `C91_diverges`: The limit on the deviation of the single axes does not make the mean converge: for some regressors the velocity leads away from the attractor. `hinv`, `hmean`: the angle space of the plane, in which directions are signed angles.
* `C91_fit_dimension`: `fit_from_velocities` fails in every space which is not a plane.
* `C92_convergence_negative`: Outside of the domain of C92 the range fails: for a negative gamma the convergence weight is negative as well.
* `C92_deviation_jump`: the weight jumps at the full deviation. With weight `1 / 8` it stays below `1 / 2` for every smaller deviation.
* `C93_ignores_obstacle`: C93, violated because of exchanged arguments: if the convergence direction leaves the obstacle, the obstacle is not avoided at all before the contact, however close it is. The initial velocity is only scaled.
* `C93_no_slow_down`: with `sticky_surface=False` the result has the speed of the initial velocity or is zero. The scaling of `compute_safe_magnitude`, which slows down in front of an obstacle, is always undone.
* `C94_arguments_persist`: a given obstacle list and a given radius stay: later calls without them behave as if they were given again. (Without the first call the second one would use the previous values, or raise.)
* `C94_custom_radius_ignored`: the custom convergence radius of an obstacle has no effect, except for the side of a right angle on which it is. (Tangent and weight are computed with the radius of the avoider.)
* `C94_first_convergence`: with local convergence directions only the one of the first close obstacle is used, for all obstacles.
* `C95_head_on`: head-on. At any distance from a single obstacle, if the convergence direction is the direction to the reference point, the result (with the default fall-back) is this direction: the obstacle is ignored right up to its surface.
* `C96_mismatch`: the sequence around an obstacle must start at the direction of the initial sequence. Otherwise the call raises `ValueError`, also if the obstacle has only a small weight.
* `C96_overrun`: the velocity is normalised before the velocity of the obstacle is subtracted. If the obstacle moves with speed one in the direction of the initial velocity, the initial velocity is returned, however slow it is, and the obstacle overruns the position: the relative velocity points into the obstacle.
* `C96_without_singularity`: C96, a defect of `ConvergenceDynamicsWithoutSingularity`: for a dynamics with attractor the call raises `ValueError` whenever the directions to the attractor from the position and from the centre of the first obstacle differ.
* `C96_wrong_obstacle`: if exactly one obstacle is closer than the cut-off, the averaged convergence direction has to be the direction around this obstacle. It is the direction around the first obstacle of the list instead.
* `C97_block_local_frame`: `get_gamma_except_components` in the local frame raises `AttributeError` for every arch, position and list of components.
* `C97_block_stays`: after the pose has been changed, `update_obstacles` does not move the components: the arch stays at the old pose.
* `C97_shape`: `create_arch_obstacle` never fails, and at every later pose its points are exactly the points of the arch.
* `C98_never_removed`: obstacles are never removed or replaced. Whatever the history, the obstacles are the first ones and those that were appended, in this order, and every attempt to remove or replace one raises.
* `C98_origin`: for an obstacle centred at the origin the nonlinear dynamics are ignored; the convergence direction leads straight to the attractor.
* `C98_radius_lost`: the convergence radius given with an obstacle is lost; after every history the list of radiuses is empty.
* `C98_straight`: if the velocity at the centre points straight to the origin, the convergence direction leads to the attractor, wherever it is.
* `C99_attraction_fails`: inside of any hull `multihull_attraction` never returns a velocity.
* `C99_not_updated`: before `update_intersection_graph` is called the radius raises `TypeError` as soon as the hull has a neighbour and another hull is behind the wall.
* `C100_boundary_list`: `get_boundary_list` raises `AttributeError` for every container with obstacles.
* `C100_centre`: in the centre of a boundary the relative reference point is nan as soon as another boundary contains the surface point.
* `C100_off_centre`: with the reference point of a single boundary further from the centre than the position, the relative gamma of the position inside is below one, and negative for a position close enough to the centre.
* `C101_container_outside`: the intersection point of two ellipses that do not contain the origin is in none of them.
* `C101_container_position`: the intersection point of two ellipses does not depend on where they are.
* `C101_mixed`: the intersection of an ellipse with an obstacle of another class raises `NotImplementedError`.
* `C101_mixed_other`: in the other order the result does not depend on axes, pose and margin of the ellipse, only on its stored polygon.
* `C103_not_density`: the probability is the normal density only at the mean; everywhere else it is too small (the exponent has no factor one half).
* `C104_batch`: in a batch the regression for a sample is multiplied by a power of the ratio between the weights of all samples and its own weights, so that it depends on the other samples.
* `C104_flag`: the attribute `convergence_attractor` has no effect on a call without this argument: after every history of calls, whatever was set, such a call does not converge to the attractor, and it switches the attribute off for a later call with an explicit `None`.
* `C104_reversed`: C104, violated by the code from three dimensions on: the default outputs are the last features in *descending* order, while the angles are stored in ascending order.
* `C105_argument_overwritten`: without mean and scale the array of the caller is overwritten with the result.
* `C105_rows`: the limitation acts on the samples at certain places of the batch, and on all of their features: the sample at place `i` is replaced by a vector of length one if `dim_space ≤ i < 2 dim_space` and its length exceeds the limit, and it is not limited elsewhere.
* `C106_magnitude_vector`: for a single vector `mag_linear_maximum` raises.
* `C106_mixture_fails`: `DirectionalGMM.integrate_trajectory` raises as soon as there is a trajectory.
* `C106_start_ignored`: given starting points are not used: all trajectories start at the origin.
* `C106_stops_at_origin`: convergence is tested at the origin, not at the attractor: for every attractor there is a trajectory of the linear system that ends at the origin.
* `C107_attractor_argument`: an attractor cannot be given.
* `C107_attractor_first`: C107, violated by `DirectionalGPR` and `DirectionalSVR`: the end of the first demonstration is missing in the mean, so that the attractor is the mean of the ends only if the first demonstration ends at the origin.
* `C107_function_fails`: its convergence dynamics are a plain function, so that every prediction raises.
* `C107_not_reproduced`: a demonstrated velocity that leads straight to the origin is predicted to lead straight to the attractor, although the regressor reproduces the data: the directions are encoded relative to the origin and decoded relative to the attractor.
* `C109_centre`: At the centre the first coordinate of the caller's array is overwritten with one, and the result is this array, multiplied with minus one for a boundary: in general not a unit vector.
* `C109_surface_fails`: On the surface the normal is never defined for a region without neighbours: the search for the closest neighbour raises `IndexError`.
* `C109_surface_radial`: On a wall the normal is not perpendicular to the wall: with at least as many neighbours as dimensions, none of them closer than the radius, it points to the centre, also on the walls (compare `C109_wall`).
* `C110_attractor_moves`: The motion does not stop at the attractor if the attractor is in the transition zone of the last region: there the predicted speed is one, although the local velocity is zero.
* `C110_surface_fails`: The prediction is not defined everywhere: on the surface of a region without neighbours (a learner with a single cluster) it raises `IndexError`.
* `C111_breakpoint`: For a cluster without or with several next clusters the function stops in the debugger.
* `C111_gives_up`: The direction of the data is returned although it misses the wall, if the direction to the next centre and the one half-way miss it too (another cluster is in between).
* `C111_misses`: Because the bisection moves the wrong end, the result does not lead to the next region: in a region with a single neighbour the result misses the wall whenever the direction of the data and the one half-way to the next centre miss it, although the direction to the next centre leads there.
* `C112_two_contacts`: two obstacles in contact at the same position, whose dynamics have the same direction `(0, -1)`; the weights sum to two, and the avoider converges to `(-1, 0)` instead (away from the attractor).
* `C113_blocked`: an avoider created for a motion without attractor returns nothing (`breakpoint()`, then an exception) wherever the direction of the motion is not that at the reference points of all obstacles, however far away they are.
* `C113_reference_blocked`: C113, the reference dynamics cannot be used (violated): for a component which is a child of the root, as soon as its projected weight is above the threshold, the avoider created for a motion without attractor returns nothing unless the reference dynamics at the component has the direction of the motion at the root of the obstacle.
* `C115_winding`: C115, the claim that nodes with the same direction have that direction as mean is violated: two nodes with the direction `(-1, 0)`, which are reached around opposite sides; their mean is the opposite direction `(1, 0)`.
* `C116_head_on`: the exact head-on motion is not deflected and not slowed down: it moves with unit speed straight to the ball, and comes arbitrarily close to its surface in finite time.
* `C118_defined`: `compute_averaged_normal_and_gamma` fails (with `ValueError`) exactly in surroundings without any component.
* `C118_jump`: the average is not continuous at the surface of an obstacle if another obstacle is near. For unit discs around `(0, 0)` and `(3, 0)` it is `(1, 0)` on the surface at `(1, 0)`, but its first coordinate is below `0.6` everywhere just outside.
* `C118_squeezed`: between two obstacles which touch the position from opposite sides the average vanishes. The slowing down by `compute_safe_magnitude`, which uses it, then has no effect for any velocity, although the position is on the surface of both.
* `C119_aligned`: if the rotation weight of the obstacle vanishes (a motion exactly along its reference direction outside of it, see C32), the older evaluation fails with `ValueError`: there is a weight, but no node, for the obstacle.
* `C119_fresh`: on a new avoider, which has not evaluated a velocity yet, asking for the avoidance direction never succeeds if there is an obstacle and the velocity is not zero; neither does `evaluate_old`.
* `C119_fresh_attribute`: the error of a new avoider is `AttributeError`, whenever the first obstacle has its root component.
* `C119_no_obstacles`: without obstacles the avoidance direction of a unit velocity is not the velocity but `ValueError` (there is nothing to concatenate), and `evaluate_old` always fails.
* `C120_head_on`: a motion along the line through the centres of all balls is neither deflected nor slowed down, whatever the number of balls: it moves with unit speed straight to the next ball, and comes arbitrarily close to its surface in finite time.
* `C121_iterations`: fewer than two iterations end with an exception.
* `C121_rest_lost`: the position at which the motion comes to rest is missing from the trajectory, so that a motion which rests at the start has no position at all.
* `C121_single_start`: a file with a single start position cannot be evaluated.
* `C121_start_untested`: the start position belongs to the trajectory even if it is in collision.
* `C122_path_cancels`: in `evaluation_trajectories.py` the errors inside and outside of the circle cancel. A trajectory which never touches the circle has the error zero, and a trajectory inside has a negative error.
* `C122_shifted`: after a step without motion the velocities are compared with the dynamics at the wrong positions. The motion below follows the dynamics exactly (it turns left at `p 0 = 1`), waits at the start for one step, and is reported to deviate.
* `C122_speed_counts`: hence the squared deviation is positive for dynamics which follow the desired dynamics exactly, if their speed is not one.
* `C123_errors`: `run` fails if the table was not loaded by `get_converged` before, and on a table without runs; an empty list of tables has no common runs. If no run is selected, the averages are `nan`.
* `C123_no_spread`: the reported spread of the occupied fraction is zero for every table, whatever the runs are: it is the standard deviation of the mean value, not of the runs.
* `C124_head_on`: a motion along a line through all reference points on which the surfaces are perpendicular to the line (e.g. a common axis of ellipses) is neither deflected nor slowed down: it moves with unit speed straight to the next region, and comes arbitrarily close to its surface in finite time.
* `C125_head_on`: the claim that a direction is always returned. For a direction towards the reference nothing is returned (`None`).
* `C125_no_tangent`: the claim that a direction is always obtained. Without a tangent direction (angle zero) the result is not a number.
* `C125_shrinks`: the claim that pulling never turns the direction towards the obstacle. Whenever the normal is behind the direction, seen from the reference, some weight turns the direction exactly against the normal (the angle zero).
* `C125_weight_accepted`: the claim that weights outside of the unit interval are rejected. The check comes after the reduction of the weight: for a direction along the tangent and beyond it every weight is accepted.
* `C126_overshoots`: the claim that the direction is pulled to the point between the two directions where the connection crosses the circle. With the weight one it is always pulled beyond the convergence direction, to the opposite side of the inverted circle.
* `C126_secant_mirrored`: if the external intersection lists the closer point first and the secant is short, the projection is not a point of the circle, but the closer point moved by the length of the secant in the wrong direction, away from the circle.
* `C126_secant_stops`: the claim that a direction is returned. If the external intersection lists the closer point first, the call stops (`breakpoint()`) whenever the secant is longer than the way to it.
* `C127_rest`: the claim that a velocity is returned. Where the outside dynamics rest, the result is not a number (closer than the cut-off distance to a strictly closest centre).
* `C127_single`: the claim that a velocity is returned. With a single cluster the call fails (`IndexError`) within the cut-off distance.
* `C127_surface_fails`: the claim that the motion on the surface of the closest cluster leads to its centre. With a second centre within the cut-off distance the weight of the centre is below one.
* `C128_density_half`: The derivative is violated in the same way: with a symmetric precision `evaluate_derivative` is half of the gradient of `evaluate`, and the gradient only where it vanishes.
* `C128_half`: `get_gamma_derivative` is violated by a factor of two: with a symmetric matrix the result is half of the gradient of the powered gamma, so it is the gradient only where it vanishes.
* `C128_outside`: The shared point fails to be shared: with the default parameters, two circles of radius 100 and 25 whose centres are 100 apart intersect (a point with gamma below one for both exists), but the returned point has gamma two for the smaller one.
* `C129_turned`: The analytic ellipse fails to be the ellipse of the Gaussian: if the eigenvectors come as a rotation, the axes are turned in the opposite sense, and a point clearly within the deviations is outside.
* `C130_head_on`: a motion along the line through the centres of all balls is not deflected, so that the simulation steps into the next ball, whatever the length of its steps.
* `C131_moves_body`: the obstacles are shared, so that the conversion with a base pose also moves the body; a second conversion with the same base pose then moves the components twice.
* `C131_rejected_limb`: after a rejected limb (its parent does not exist) the body cannot be converted any more.
* `C132_dynamics_error`: As soon as one region has no local attractor, `set_convergence_directions` fails in the same way as its evaluation.
* `C132_root_outside`: , negative result: for the root (parent `-1`) whose region does not contain the attractor, the code takes the last region for the parent: the local attractor does not depend on the attractor at all, but lies in the direction of this region.
* `C132_turned`: , negative result: in general the end point is not `√2` standard deviations away, because the code takes the first row of the matrix of the eigenvectors for the first eigenvector; for a covariance with the deviations one and two the end point in the direction of the long axis is not even three quarters of a standard deviation away.
* `C133_expel_keeps`: the expelled element itself keeps its parent and its children ("removes all connection" of the documentation is violated).
* `C133_handler_childless`: `BasicGraphHandler` never tells a parent about its children; after every history of calls all lists of children are empty.
* `C133_handler_delete`: after every history of calls `delete_element` fails with ValueError for every element with a parent, and nothing changes.
* `C133_handler_root`: deleting the root removes it from the list of the handler, but `root` still returns it.
* `C133_second_parent`: an element which gets a second parent stays in the list of the first one.
* `C133_twice`: `expel` fails with ValueError if it is called again on the same element, unlike for elements without parent.
* `C133_twin`: of two siblings with the same value and without children the first one is removed from the list of the parent, also if the other one is expelled: this one stays in the list, and the first one still names the parent.
* `C134_duplicate`: a component whose number is also the one of an earlier component is never measured.
* `C134_lookup`: looking up a component by its number fails for every body with KeyError.
* `C134_minus_one`: if some component has no update number, and none the number -1, a measurement with the number -1 makes the update fail with AttributeError, for every further list of measurements: this number marks components without filter.
* `C134_rejected`: after a rejected component every update fails with KeyError.
* `C135_rest`: at rest the two differ. The constant dynamics with a sequence makes every evaluation of the avoider fail with a `ValueError`, also without obstacles; the one without returns the velocity zero.
* `C136_inside`: whatever the obstacle and the position, there is an origin for which the position counts as equal to the centre, and the convergence radius is the one of the centre (180 degrees). The relative tolerance of `np.allclose` (multi_obstacle_avoider.py:1036) grows with the distance of the obstacle from the origin.
* `C137_fails`: `C137_no_influence` is not vacuous, and the scaling fails: moving away from a disc, the result is the same for twice the speed, and it is not zero.
* `C137_no_influence`: C137 is violated where no obstacle has an influence (for example behind all of them): the code returns the direction, a vector of length one, in place of the velocity (multi_obstacle_avoider.py:331-334), so that the result does not depend on the speed of the initial dynamics.
* `C139_parent_fails`: violated by the code. After every history `get_parent` raises `TypeError` for every node, with or without a parent, because it subscripts an iterator.
* `C139_rotate_fails`: violated by the code. `rotate` and `inverse_rotate` raise `TypeError` for every tree, vector, list of nodes and list of weights: they call `get_weighted_mean` without arguments.
* `C140_nearly_parallel`: violated by the code for nearly parallel directions. The rotation from `(1, 0)` to `(cos a, sin a)` with `0 < a ≤ 10⁻⁸` goes the wrong way, to `(cos a, - sin a)`, and the mirrored rotation, from `(1, 0)` to `(cos a, - sin a)`, leads to the same vector.
* `C141_projected_weight`: C141 is violated by the projected weight (projected_rotation_dynamics.py:583-598): for a ball of radius one with the attractor and the position on the two sides of it, the weight is another one with every other unit of length. The fold multiplies the first coordinate a second time by the distance of the attractor (line 259).
* `C142_attractor_not_normalised`: with a normalisation the sample at the given attractor does not give the mean of the data. The property is violated for every attractor which the normalisation moves, if the conditional means are positive. The defect: the sample is normalised before it is compared with the attractor, and the attractor is not.
* `C142_outside`: with the attractor (the default) the result does not lie between the conditional means and zero. The property is violated for every mixture of two or more equal components with a positive conditional mean, at every sample with distance one or more from the attractor, for the default parameters: the result is larger than the conditional mean of all components. The defect: the weights are normalised with the Euclidean norm, not with their sum.
* `C143_converged`: `converged_` does not say whether the kept parameters have converged; this is violated, with two restarts, if the first run converges and the second one reaches a larger bound at its last iteration. The defect: `converged_` is never reset.
* `C143_unconfigured`: an object as constructed cannot be fitted, whatever the data. The defect: the constructor does not call the one of the base class, and the attributes with the settings are missing.
* `C146_cut_off_fails`: at a sample straight on an axis, whose velocity deviates by more than `0.49 π` from the direction to the attractor, the learned dynamics deviate by exactly `0.49 π`: not in the direction of the sample.
* `C146_predict_nan`: the predicted deviation at the attractor is `nan`, except at the origin.
* `C146_predict_origin_fails`: the deviation is measured from the line to the origin and not to the attractor: a motion straight to the attractor has a deviation unless the position, the attractor and the origin lie on a line.
* `C146_refit_fails`: if the first samples leave out a side of the first axis, learning again from samples that have one there raises an `AttributeError`: the regressor of this side was replaced by a constant.
* `C147_from_centers_fails`: such a learner has no dynamics outside of the clusters, every evaluation there raises an `AttributeError`.
* `C147_order`: the entries are not in the order of the clusters: with the second of two clusters closer to the end of the motion, the first entry belongs to the second cluster.
* `C147_refit_fails`: three clusters are first passed in the order 2, 1, 0 and then in the order 1, 2, 0. The distances are still those of the first order: the one of cluster 1 is the distance to cluster 0, although the next cluster on the way is cluster 2.
* `C148_modulation_opposite`: an avoided velocity opposite to the velocity gives `nan`.
* `C148_projected_gamma_fails`: `get_projected_gamma` never gives a number below `max_gamma`: it gives `max_gamma`, or `None`, or raises an `AttributeError`; and it raises everywhere between the two limits except at the attractor.
* `C148_shrunk_fails`: the rotation of the shrunk position raises a `TypeError` at every position.
* `C149_delete_fails`: deleting never removes a hull. It raises, and every hull is still where it was; without a global name `value`, as in the code, the container does not change.
* `C149_free_space_fails`: the obstacles (`MultiObstacle`) do not have the method, so that the question raises an `AttributeError` in every container with an obstacle; only the empty container answers.
* `C150_backwards`: a spiral around a centre behind the origin moves backwards, at every position, because the centre is added to the velocity.
* `C151_direction_ignored`: the direction the spiral is created from has no effect at all; the axis of the rotation is always the second coordinate axis through the origin.
* `C152_measured_fails`: the measurement given to the call is ignored. Whenever it differs from the pose of the filter, the part is, seen from the robot, not where it was measured.
* `C153_same_fails`: the position does not depend on the obstacles. Two obstacles of any two containers have the same intersection position, wherever they are and whether or not they meet anything.
* `C154_normalised_fails`: the direction of a constant flow is documented as normalised, but it has length one only for reference velocities with length one.

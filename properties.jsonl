{"id": "C01", "title": "Rotating a vector keeps its length and all mutual angles", "statement": "For a rotation whose two base vectors are orthonormal, VectorRotationXd.rotate(v, f) has the same Euclidean length as v, and the dot product of two rotated vectors equals the dot product of the originals; the zero vector is returned unchanged.", "quantifier": "every dimension >= 2, every orthonormal base, every angle, every rot_factor, every vector (including zero)", "why_tests_cant": "the claim ranges over a continuum of real vectors in every dimension; sampled vectors leave almost all of it unchecked", "anchors": ["nonlinear_avoidance/vector_rotation.py:rotate_direction", "nonlinear_avoidance/vector_rotation.py:VectorRotationXd.rotate"]}
{"id": "C02", "title": "inverse_rotate and inv undo rotate", "statement": "For every rotation with orthonormal base and every vector v, inverse_rotate(rotate(v)) = v and rotate(inverse_rotate(v)) = v; inv().rotate(v) equals inverse_rotate(v) and inv().inv() is the original rotation.", "quantifier": "every dimension, orthonormal base, angle and vector", "why_tests_cant": "the claim ranges over a continuum of real vectors in every dimension; sampled vectors leave almost all of it unchecked", "anchors": ["nonlinear_avoidance/vector_rotation.py:VectorRotationXd.inv", "nonlinear_avoidance/vector_rotation.py:VectorRotationXd.inverse_rotate"]}
{"id": "C03", "title": "Rotation factors add up", "statement": "rotate(rotate(v, a), b) = rotate(v, a + b) and rotate(v, 0) = v; in particular splitting a rotation into n equal parts and applying them one after the other gives the full rotation.", "quantifier": "every orthonormal base, angle, vector and all real factors a, b; every number n of parts", "why_tests_cant": "the claim ranges over a continuum of real vectors in every dimension; sampled vectors leave almost all of it unchecked", "anchors": ["nonlinear_avoidance/vector_rotation.py:rotate_direction", "nonlinear_avoidance/vector_rotation.py:VectorRotationXd.rotate"]}
{"id": "C04", "title": "A rotation acts only in the plane of its base", "statement": "rotate(v) changes v only inside span(base): it leaves every vector orthogonal to both base vectors unchanged, it sends the first base vector to cos(a) b0 + sin(a) b1 and the second to -sin(a) b0 + cos(a) b1, and it is a linear map.", "quantifier": "every dimension, orthonormal base, angle, vector", "why_tests_cant": "the claim ranges over a continuum of real vectors in every dimension; sampled vectors leave almost all of it unchecked", "anchors": ["nonlinear_avoidance/vector_rotation.py:rotate_direction"]}
{"id": "C05", "title": "from_directions returns a valid rotation exactly when one is defined", "statement": "from_directions(u, v) returns an orthonormal base whose first vector is u/|u| and an angle in [0, pi] equal to the angle between u and v, for every pair of inputs except a zero vector or exactly opposite directions; on those excluded inputs the returned base is not a number.", "quantifier": "every pair of vectors in every dimension >= 2 (branches for nearly equal and for general directions)", "why_tests_cant": "the claim ranges over a continuum of real vectors in every dimension; sampled vectors leave almost all of it unchecked", "anchors": ["nonlinear_avoidance/vector_rotation.py:VectorRotationXd.from_directions"]}
{"id": "C06", "title": "from_directions(u, v) turns u into v", "statement": "The rotation built from (u, v) maps u/|u| to v/|v| whenever the two directions are not within numpy's allclose tolerance of each other (or are equal), and get_second_vector returns v/|v|; within the tolerance the result differs from v/|v| by at most twice the distance of the two unit vectors.", "quantifier": "every pair of non-zero, not exactly opposite vectors, every dimension", "why_tests_cant": "the claim ranges over a continuum of real vectors in every dimension; sampled vectors leave almost all of it unchecked", "anchors": ["nonlinear_avoidance/vector_rotation.py:VectorRotationXd.from_directions", "nonlinear_avoidance/vector_rotation.py:VectorRotationXd.get_second_vector"]}
{"id": "C07", "title": "A partial rotation moves along the great circle from u to v", "statement": "For 0 <= w <= 1 the vector from_directions(u,v).rotate(u, w) makes an angle of exactly w times the full angle with u and (1-w) times the full angle with v.", "quantifier": "every admissible pair of directions, every weight in [0,1]", "why_tests_cant": "the claim ranges over a continuum of real vectors in every dimension; sampled vectors leave almost all of it unchecked", "anchors": ["nonlinear_avoidance/vector_rotation.py:VectorRotationXd.rotate", "nonlinear_avoidance/vector_rotation.py:VectorRotationXd.from_directions"]}
{"id": "C08", "title": "directional_vector_addition interpolates length and direction", "statement": "The result has length (1-w)|v1| + w|v2|; w = 0 returns v1, w = 1 returns v2; a zero first vector gives w*v2 and a zero second vector gives (1-w)*v1; swapping the vectors and replacing w by 1-w gives the same vector.", "quantifier": "every pair of vectors (not exactly opposite), every w in [0,1], every dimension", "why_tests_cant": "the claim ranges over a continuum of real vectors in every dimension; sampled vectors leave almost all of it unchecked", "anchors": ["nonlinear_avoidance/vector_rotation.py:directional_vector_addition"]}
{"id": "C09", "title": "rotate_array rotates each column like rotate_direction, normalised", "statement": "Every column of rotate_array is the unit vector obtained by rotating the normalised column; for unit columns it coincides with rotate_direction column by column; it does not restore the length of non-unit columns.", "quantifier": "every list of non-zero columns (any number), every orthonormal base, every angle", "why_tests_cant": "the claim ranges over a continuum of real vectors in every dimension; sampled vectors leave almost all of it unchecked", "anchors": ["nonlinear_avoidance/vector_rotation.py:rotate_array"]}
{"id": "C10", "title": "Rotation sequences are built exactly from admissible vector lists", "statement": "create_from_vector_array raises ValueError exactly when one of the vectors has length <= 1e-8 or two neighbours are exactly opposite; otherwise it returns one rotation per neighbouring pair, each with orthonormal base starting at the (normalised) i-th vector and with angle in [0, pi).", "quantifier": "every list of vectors of every length and dimension", "why_tests_cant": "the number of vectors and the vectors themselves are unbounded", "anchors": ["nonlinear_avoidance/vector_rotation.py:VectorRotationSequence.create_from_vector_array"]}
{"id": "C11", "title": "A sequence ends at its last vector and maps the first onto it", "statement": "For a sequence built from v0..vn, get_end_vector() is vn/|vn| and rotate(v0) is |v0| vn/|vn|, provided neighbouring directions are equal or further apart than the allclose tolerance.", "quantifier": "every length n >= 1, every admissible vector list", "why_tests_cant": "needs induction over the length of the sequence", "anchors": ["nonlinear_avoidance/vector_rotation.py:VectorRotationSequence.get_end_vector", "nonlinear_avoidance/vector_rotation.py:VectorRotationSequence.rotate"]}
{"id": "C12", "title": "Weighted sequence rotation is an isometry, exact at zero and one-hot weights", "statement": "rotate_weighted preserves length and dot products for every weight list; with all weights zero it returns its input; with weight one on entry k and zero elsewhere it maps the first vector of the sequence to vector k+1.", "quantifier": "every sequence length, every weight list, every vector", "why_tests_cant": "needs induction over the sequence", "anchors": ["nonlinear_avoidance/vector_rotation.py:VectorRotationSequence.rotate_weighted"]}
{"id": "C13", "title": "Partially weighted sequence rotations stay connected", "statement": "Under arbitrary weights the partial rotations of rotate_weighted stay chained: each partial rotation starts at the vector where the previous partial rotation ended, so that rotating the first vector follows the path of the sequence.", "quantifier": "every sequence length >= 2, every weight list", "why_tests_cant": "the failing inputs have at least two non-coplanar rotations and a partial first weight", "anchors": ["nonlinear_avoidance/vector_rotation.py:VectorRotationSequence.rotate_weighted"]}
{"id": "C14", "title": "Appending and pushing rotations keeps the rest of the sequence", "statement": "append_from_base_and_angle and push_root_from_base_and_angle add exactly one rotation at the end respectively the start and keep all others; after append_from_direction(v) the end vector is v/|v|; the appended rotation starts where the sequence ended before.", "quantifier": "every history of append / push operations on every sequence", "why_tests_cant": "arbitrary operation histories", "anchors": ["nonlinear_avoidance/vector_rotation.py:VectorRotationSequence.append_from_base_and_angle", "nonlinear_avoidance/vector_rotation.py:VectorRotationSequence.push_root_from_base_and_angle", "nonlinear_avoidance/vector_rotation.py:VectorRotationSequence.append_from_direction"]}
{"id": "C15", "title": "Rotating a sequence (or a rotation) rotates what it does", "statement": "rotate_sequence(seq) ends at the rotated end vector of seq and keeps all angles; rotate_vector_rotation(r) maps the rotated first vector of r to the rotated second vector of r.", "quantifier": "every rotation, every sequence of every length", "why_tests_cant": "the claim ranges over a continuum of real vectors in every dimension; sampled vectors leave almost all of it unchecked", "anchors": ["nonlinear_avoidance/vector_rotation.py:VectorRotationXd.rotate_sequence", "nonlinear_avoidance/vector_rotation.py:VectorRotationXd.rotate_vector_rotation"]}
{"id": "C16", "title": "The dynamics sequence at a point ends at the dynamics' direction", "statement": "evaluate_dynamics_sequence returns None exactly when the base direction or the velocity is zero; otherwise (outside the ValueError inputs) it returns a single rotation which starts at the direction towards the attractor (or the default dynamics) and ends at the direction of the velocity.", "quantifier": "every position, every dynamics (with and without attractor, with and without default dynamics)", "why_tests_cant": "the claim ranges over a continuum of real vectors in every dimension; sampled vectors leave almost all of it unchecked", "anchors": ["nonlinear_avoidance/dynamics/sequenced_dynamics.py:evaluate_dynamics_sequence"]}
{"id": "C17", "title": "A direction tree stays a rooted tree with consistent levels", "statement": "After any history of set_root followed by successful add_node(parent_id=...) calls every node except the root has exactly one parent which was inserted earlier, its level is its parent's level plus one, all levels are below 100, identifiers are unique and every stored direction is a unit vector.", "quantifier": "every finite history of calls with arbitrary identifiers and directions", "why_tests_cant": "arbitrary histories of calls, trees of unbounded size", "anchors": ["nonlinear_avoidance/vector_rotation.py:VectorRotationTree.add_node", "nonlinear_avoidance/vector_rotation.py:VectorRotationTree.set_root"]}
{"id": "C18", "title": "A rejected add_node leaves the tree unchanged", "statement": "If add_node raises, the tree is the same as before the call.", "quantifier": "every tree, every argument list", "why_tests_cant": "arbitrary histories of calls, trees of unbounded size", "anchors": ["nonlinear_avoidance/vector_rotation.py:VectorRotationTree.add_node"]}
{"id": "C19", "title": "get_all_childs_children returns exactly the descendants, once each", "statement": "On every tree the method terminates and returns each proper descendant of the node exactly once and nothing else.", "quantifier": "every tree size and shape, every node", "why_tests_cant": "unbounded trees; the worklist loop terminates only because the graph is a tree", "anchors": ["nonlinear_avoidance/vector_rotation.py:VectorRotationTree.get_all_childs_children"]}
{"id": "C20", "title": "Branch weights are subtree sums", "statement": "While reducing, the weight used for a node is the sum of the weights assigned to the node and to all of its descendants; the root carries the total weight.", "quantifier": "every tree, every node list without repetition, every weight list", "why_tests_cant": "unbounded trees", "anchors": ["nonlinear_avoidance/vector_rotation.py:VectorRotationTree.update_partial_rotations"]}
{"id": "C21", "title": "Full weight on one node returns that node's direction", "statement": "get_weighted_mean([n], [1.0]) is the direction stored for n, for every node n of every tree whose neighbouring directions are not opposite (and not within allclose tolerance unless equal). In every tree, whenever the call returns, the result is a unit vector and differs from the stored direction by at most twice the allclose tolerance; it returns as soon as no neighbouring directions are opposite. Within the tolerance the stored direction itself need not be returned.", "quantifier": "every tree size, shape, dimension and node", "why_tests_cant": "unbounded trees and vectors", "anchors": ["nonlinear_avoidance/vector_rotation.py:VectorRotationTree.get_weighted_mean", "nonlinear_avoidance/vector_rotation.py:VectorRotationTree.evaluate_graph_summing"]}
{"id": "C22", "title": "The weighted mean of directions is a unit vector", "statement": "For non-negative weights that are not all zero and of which at most one falls into each branch below the root, get_weighted_mean returns a vector of length one, for a tree in which no direction is opposite to the direction of its parent, and nodes with children have the direction of their parent or one further away than the allclose tolerance.", "quantifier": "every tree, every non-negative weight list", "why_tests_cant": "unbounded trees and vectors", "anchors": ["nonlinear_avoidance/vector_rotation.py:VectorRotationTree.get_weighted_mean"]}
{"id": "C23", "title": "Branches without weight have no influence", "statement": "Changing the directions of nodes whose whole branch carries zero weight does not change the result of get_weighted_mean or reduce_weighted_to_sequence (for a tree in which no direction is opposite to the direction of its parent, and nodes with children have the direction of their parent or one further away than the allclose tolerance).", "quantifier": "every tree, every non-negative weight list", "why_tests_cant": "relates two runs over unbounded trees", "anchors": ["nonlinear_avoidance/vector_rotation.py:VectorRotationTree.reduce_weighted_to_sequence"]}
{"id": "C24", "title": "Averaging around a root happens in the root's tangent space and stays in the cone", "statement": "For nodes attached directly to the root the weighted mean is obtained by averaging the rotation vectors (angle times perpendicular direction) and rotating the root by the average; consequently it deviates from the root by no more than the largest individual angle. On every tree the deviation from the root is at most the sum over the edges of the angle of the edge times the weight of the branch below it.", "quantifier": "every number of nodes, every dimension, all weights >= 0 with sum at most one", "why_tests_cant": "unbounded number of nodes", "anchors": ["nonlinear_avoidance/vector_rotation.py:VectorRotationTree.evaluate_graph_summing"]}
{"id": "C25", "title": "Ill-formed reductions are rejected", "statement": "reduce_weighted_to_sequence raises ValueError when the numbers of nodes and weights differ, KeyError for an unknown node, never returns a sequence when all weights are zero, and stops if any node is exactly opposite to its parent, whatever the weights.", "quantifier": "every tree and all argument lists", "why_tests_cant": "arbitrary histories of calls, trees of unbounded size", "anchors": ["nonlinear_avoidance/vector_rotation.py:VectorRotationTree.reduce_weighted_to_sequence", "nonlinear_avoidance/vector_rotation.py:VectorRotationTree.update_partial_rotations"]}
{"id": "C26", "title": "Sequences survive the trip through a tree", "statement": "For a chained sequence of at most 99 rotations (each between directions that are not opposite, and equal or further apart than the allclose tolerance) from_sequence(seq) followed by get_weighted_mean on its end node with weight one returns the end vector of seq; longer sequences raise ValueError (level limit); add_sequence (common_parent=True, new identifiers, below the level limit) raises ValueError exactly when the first vector of the sequence is not allclose to the parent's direction, and then leaves the tree unchanged; otherwise it adds one node per rotation.", "quantifier": "every chained sequence of every length", "why_tests_cant": "unbounded sequence length", "anchors": ["nonlinear_avoidance/vector_rotation.py:VectorRotationTree.from_sequence", "nonlinear_avoidance/vector_rotation.py:VectorRotationTree.add_sequence"]}
{"id": "C27", "title": "The reduced sequence is connected", "statement": "In the sequence returned by reduce_weighted_to_sequence every rotation starts at the vector at which the previous rotation ends, and the first one starts at the root direction.", "quantifier": "every tree, every non-negative weight list", "why_tests_cant": "the failing inputs carry unweighted nodes below the deepest weighted one", "anchors": ["nonlinear_avoidance/vector_rotation.py:VectorRotationTree.evaluate_graph_summing"]}
{"id": "C28", "title": "Limiting branch weights to a total of one", "statement": "get_limited_weights_to_max_sum returns weights in [0,1] whose sum is the returned total and never exceeds one; inputs with sum below one are returned unchanged; zero weights stay zero and the order of weights is preserved.", "quantifier": "every list of non-negative weights of every length", "why_tests_cant": "lists of unbounded length; the failing inputs need two saturated weights", "anchors": ["nonlinear_avoidance/multi_obstacle_avoider.py:get_limited_weights_to_max_sum"]}
{"id": "C29", "title": "Gamma weights are a sub-probability favouring the closest obstacle", "statement": "compute_gamma_weights returns non-negative weights with sum at most one; they sum to exactly one when some distance is at or below min_distance, in which case only those obstacles get weight, shared equally; otherwise a smaller distance never gets a smaller weight.", "quantifier": "every list of distances, every min_distance, every power > 0", "why_tests_cant": "lists of unbounded length", "anchors": ["nonlinear_avoidance/multi_obstacle_avoider.py:compute_gamma_weights"]}
{"id": "C30", "title": "Distance weights", "statement": "compute_weights_from_distances(normalize=True) returns non-negative weights with sum at most one; it gives equal shares to all distances at or below the minimum, and otherwise smaller distances get larger weights; with normalize=False the result is not bounded by one.", "quantifier": "every list of distances", "why_tests_cant": "lists of unbounded length", "anchors": ["nonlinear_avoidance/multi_obstacle_avoider.py:MultiObstacleAvoider.compute_weights_from_distances"]}
{"id": "C31", "title": "Tree weight near the attractor", "statement": "compute_tree_weight is in [0,1], 1 without attractor, 0 when the attractor is inside the obstacle, continuous and non-decreasing in the obstacle's gamma at the attractor.", "quantifier": "every obstacle and attractor (every gamma), every gamma_decreasing_influence > 1", "why_tests_cant": "continuum of gammas including the branch limits", "anchors": ["nonlinear_avoidance/multi_obstacle_avoider.py:MultiObstacleAvoider.compute_tree_weight"]}
{"id": "C32", "title": "Rotation weight stays in [0,1], is full on the surface", "statement": "get_rotation_weight returns a value in (0,1]; it is 1 on or inside the surface (gamma <= 1), and outside it never exceeds 1/gamma.", "quantifier": "every normal, reference, convergence vector, gamma, radius and power >= 0 for which the angles are distinct", "why_tests_cant": "the claim ranges over a continuum of real vectors in every dimension; sampled vectors leave almost all of it unchecked", "anchors": ["nonlinear_avoidance/avoidance/rotational_avoider.py:RotationalAvoider.get_rotation_weight"]}
{"id": "C33", "title": "Projected weight stays in (0,1] and is one at contact", "statement": "evaluate_projected_weight of both convergence dynamics returns a value in (0,1]; it is 1 when the position (or its projection) is on or inside the obstacle and decreases with gamma.", "quantifier": "every position and obstacle", "why_tests_cant": "the claim ranges over a continuum of real vectors in every dimension; sampled vectors leave almost all of it unchecked", "anchors": ["nonlinear_avoidance/dynamics/projected_rotation_dynamics.py:ProjectedRotationDynamics.evaluate_projected_weight", "nonlinear_avoidance/nonlinear_rotation_avoider.py:ConvergenceDynamicsWithoutSingularity.evaluate_projected_weight"]}
{"id": "C34", "title": "Importance weights of the nonlinear avoider", "statement": "After SingularityConvergenceDynamics.compute_gamma_weights the stored weights are non-negative, zero for obstacles at or beyond the cut-off gamma, sum to one if some obstacle is closer than the cut-off, and are shared equally by obstacles in contact.", "quantifier": "every list of gammas, cut-off > gamma_min", "why_tests_cant": "lists of unbounded length", "anchors": ["nonlinear_avoidance/nonlinear_rotation_avoider.py:SingularityConvergenceDynamics.compute_gamma_weights"]}
{"id": "C35", "title": "Safe scaling never speeds up and never reverses", "statement": "compute_safe_scaling returns a factor in [0,1] for unit (or shorter) velocities and normals; it is 1 when moving away from the obstacle, and 0 on the surface when moving into it; compute_safe_magnitude returns a vector no longer than the initial norm and positively aligned with its input.", "quantifier": "every velocity of length <= 1, averaged normal of length <= 1, gamma, power_root > 0 and 0 <= dot_scaling <= 1", "why_tests_cant": "the claim ranges over a continuum of real vectors in every dimension; sampled vectors leave almost all of it unchecked", "anchors": ["nonlinear_avoidance/avoidance/rotational_avoider.py:RotationalAvoider.compute_safe_scaling", "nonlinear_avoidance/avoidance/rotational_avoider.py:RotationalAvoider.compute_safe_magnitude"]}
{"id": "C36", "title": "Slow-down from convergence is in [0,1]", "statement": "slowfactor_from_convergence returns a value in [0,1] for every stored list of rotation weights and reference proximities in [-1,1].", "quantifier": "every number of obstacles, all weights in [0,1], all proximities in [-1,1]", "why_tests_cant": "unbounded number of obstacles", "anchors": ["nonlinear_avoidance/multi_obstacle_avoider.py:MultiObstacleAvoider.slowfactor_from_convergence"]}
{"id": "C37", "title": "Convergence radii lie between the configured radius and pi", "statement": "compute_convergence_radiuses gives every component a radius between the configured convergence radius (required to be in [pi/2, pi] by the constructor) and pi; components the position is not inside of get the configured radius, deep inside it is pi, and in between it joins both ends without a jump.", "quantifier": "every number of components, every gamma list, every position", "why_tests_cant": "unbounded number of components", "anchors": ["nonlinear_avoidance/multi_obstacle_avoider.py:MultiObstacleAvoider.compute_convergence_radiuses", "nonlinear_avoidance/multi_obstacle_avoider.py:MultiObstacleAvoider.__init__"]}
{"id": "C38", "title": "Occlusion weights", "statement": "compute_parent_occlusion_weight returns factors in [0,1] with factor one for the root; evaluate_occlusion_array and compute_occlusion_weights return non-negative weights which sum to one.", "quantifier": "every number of components and every gamma value", "why_tests_cant": "unbounded number of components", "anchors": ["nonlinear_avoidance/multi_obstacle_avoider.py:MultiObstacleAvoider.compute_parent_occlusion_weight", "nonlinear_avoidance/multi_obstacle_avoider.py:MultiObstacleAvoider.compute_occlusion_weights", "nonlinear_avoidance/multi_obstacle_avoider.py:MultiObstacleAvoider.evaluate_occlusion_array"]}
{"id": "C39", "title": "Without obstacles the avoider follows the initial dynamics", "statement": "MultiObstacleAvoider.evaluate with an empty container returns the initial velocity itself (direction of the dynamics times its magnitude).", "quantifier": "every position and every initial dynamics", "why_tests_cant": "the claim ranges over a continuum of real vectors in every dimension; sampled vectors leave almost all of it unchecked", "anchors": ["nonlinear_avoidance/multi_obstacle_avoider.py:MultiObstacleAvoider.evaluate_sequence"]}
{"id": "C40", "title": "At rest points of the initial dynamics the avoider outputs zero", "statement": "MultiObstacleAvoider.evaluate returns the zero vector where the initial velocity is zero and at the attractor, whatever the obstacles.", "quantifier": "every environment, every rest point", "why_tests_cant": "the claim ranges over a continuum of real vectors in every dimension; sampled vectors leave almost all of it unchecked", "anchors": ["nonlinear_avoidance/multi_obstacle_avoider.py:MultiObstacleAvoider.evaluate_sequence"]}
{"id": "C41", "title": "The avoider never exceeds the speed of the initial dynamics", "statement": "For static obstacles MultiObstacleAvoider.evaluate returns a velocity whose length is at most the magnitude of the initial dynamics.", "quantifier": "every position, every number of static obstacles, every weights", "why_tests_cant": "unbounded environments; the failing inputs have no weighted component", "anchors": ["nonlinear_avoidance/multi_obstacle_avoider.py:MultiObstacleAvoider.evaluate_sequence"]}
{"id": "C42", "title": "Avoidance weights form a convex combination", "statement": "In evaluate_avoidance_from_sequence the weights of all tangent directions and the remaining weight of the initial velocity are non-negative and sum to one.", "quantifier": "every number of trees and components, all component weights", "why_tests_cant": "the failing inputs need two saturated trees", "anchors": ["nonlinear_avoidance/multi_obstacle_avoider.py:MultiObstacleAvoider.evaluate_avoidance_from_sequence"]}
{"id": "C43", "title": "Graph handler keeps parent and child lists consistent", "statement": "After any history of set_root / add_element_with_parent / set_parent_of_element calls on GraphHandler, j is listed as a child of i exactly when i is the recorded parent of j, and the three lists have equal length; a call with an unknown parent raises ValueError and changes nothing.", "quantifier": "every history of calls", "why_tests_cant": "arbitrary histories of calls, trees of unbounded size", "anchors": ["nonlinear_avoidance/graph_handler.py:GraphHandler"]}
{"id": "C44", "title": "Multi-obstacle component graph is a tree", "statement": "After set_root and any history of add_component calls with existing parents, component ids are consecutive, every non-root component has exactly one parent with a smaller id (so following parents reaches the root), and get_parent_idx returns it; the root has none.", "quantifier": "every history of add_component calls", "why_tests_cant": "arbitrary histories of calls, trees of unbounded size", "anchors": ["nonlinear_avoidance/multi_obstacle.py:MultiObstacle.add_component", "nonlinear_avoidance/multi_obstacle.py:MultiObstacle.get_parent_idx", "nonlinear_avoidance/multi_obstacle.py:MultiObstacle.set_root"]}
{"id": "C45", "title": "Collision freedom of composite obstacles", "statement": "A composite obstacle or a container of them is reported collision free exactly when gamma is above one for every component; get_gamma is the smallest gamma of all components (an obstacle without components raises ValueError); MultiBoundaryContainer is free exactly when at least one boundary contains the position.", "quantifier": "every non-empty list of components and trees, every position", "why_tests_cant": "unbounded number of components", "anchors": ["nonlinear_avoidance/multi_obstacle.py:MultiObstacle.get_gamma", "nonlinear_avoidance/multi_obstacle_container.py:MultiObstacleContainer"]}
{"id": "C46", "title": "Root and parents of a multi-ellipse obstacle cannot be overwritten silently", "statement": "Once the root of a MultiEllipseObstacle is set, set_root raises NotImplementedError and the root never changes; once a component has a parent, set_parent raises NotImplementedError and the parent does not change; a component without parent can be given any existing one and is then recorded on both sides.", "quantifier": "every history of append / set_root / set_parent calls", "why_tests_cant": "arbitrary histories of calls, trees of unbounded size", "anchors": ["nonlinear_avoidance/multi_ellipse_obstacle.py:MultiEllipseObstacle.set_root", "nonlinear_avoidance/multi_ellipse_obstacle.py:MultiEllipseObstacle.set_parent"]}
{"id": "C47", "title": "Multi-boundary container hierarchy", "statement": "After any history of append and extend_graph calls on MultiBoundaryContainer the parent and children records agree, and get_level_numbers terminates, gives every obstacle without parent level 0 and every other obstacle one more than its parent; if the first obstacle is never attached to another one it is the root. append(parent=-1) attaches the new obstacle to the previous one.", "quantifier": "every history of append / extend_graph calls", "why_tests_cant": "arbitrary histories of calls, trees of unbounded size", "anchors": ["nonlinear_avoidance/multiboundary_container.py:MultiBoundaryContainer"]}
{"id": "C48", "title": "Aligning a multi-body obstacle reconnects every limb", "statement": "After align_obstacle_tree (or an update from measurements), the reference point of every child component coincides (in the global frame) with the attachment point stored for it in its parent, for every component of the tree; align_obstacle_tree terminates, does not move the root and changes no orientation; an update from measurements gives components without measurement the orientation of their parent and the others the one of their measured position.", "quantifier": "every tree shape and size, every pose", "why_tests_cant": "unbounded trees; the breadth-first order matters", "anchors": ["nonlinear_avoidance/multi_body_human.py:MultiBodyObstacle.align_obstacle_tree", "nonlinear_avoidance/multi_body_human.py:MultiBodyObstacle.align_position_with_parent", "nonlinear_avoidance/multi_body_human.py:MultiBodyObstacle.update_using_optitrack", "nonlinear_avoidance/multi_body_human.py:MultiBodyObstacle.add_component"]}
{"id": "C49", "title": "Deflating and inflating an obstacle are inverse", "statement": "For an obstacle of constant local radius (or a radius that depends only on the direction), inflating a deflated position outside the obstacle returns the original position, deflation maps the surface to the centre, and the distance to the centre shrinks by exactly the radius.", "quantifier": "every position outside the obstacle, every radius function constant along rays", "why_tests_cant": "the claim ranges over a continuum of real vectors in every dimension; sampled vectors leave almost all of it unchecked", "anchors": ["nonlinear_avoidance/dynamics/projected_rotation_dynamics.py:ProjectedRotationDynamics._get_position_after_deflating_obstacle", "nonlinear_avoidance/dynamics/projected_rotation_dynamics.py:ProjectedRotationDynamics._get_position_after_inflating_obstacle"]}
{"id": "C50", "title": "Wavy and spiral dynamics are stationary exactly at their attractor / keep their speed", "statement": "WavyLinearDynamics.evaluate has exactly the speed of the linear dynamics it bends (so it is stationary exactly where these are and respects their speed limit), deviates from them by at most the maximum deviation, and for a maximum deviation below a right angle always comes closer to the attractor; SpiralingDynamics3D and SpiralingAttractorDynamics3D return velocities with exactly the configured speed.", "quantifier": "every position and configuration", "why_tests_cant": "the claim ranges over a continuum of real vectors in every dimension; sampled vectors leave almost all of it unchecked", "anchors": ["nonlinear_avoidance/dynamics/wavy_attractor_dynamics.py:WavyLinearDynamics.evaluate", "nonlinear_avoidance/dynamics/spiral_dynamics.py"]}
{"id": "C51", "title": "Circular dynamics circulate and are attracted to the limit cycle", "statement": "SimpleCircularDynamics.evaluate points outward inside the circle, inward outside it and tangentially on it, always has the same sense of rotation, moves towards the plane of the circle, has speed one away from the centre and is stationary only at the centre; CircularRotationDynamics turn the outward direction by a weight in ]0, 2[ (times a right angle) that is one exactly on the circle and monotone in the distance, so they have the same attraction to the circle, at constant speed.", "quantifier": "every position other than the centre, every radius", "why_tests_cant": "the claim ranges over a continuum of real vectors in every dimension; sampled vectors leave almost all of it unchecked", "anchors": ["nonlinear_avoidance/dynamics/circular_dynamics.py:SimpleCircularDynamics.evaluate", "nonlinear_avoidance/dynamics/circular_dynamics.py:CircularRotationDynamics"]}
{"id": "C52", "title": "Segment weights of a followed path", "statement": "WavyPathFollowing.get_weights returns non-negative weights with sum one for every position which lies on at most one segment, and full weight for the segment the position lies on.", "quantifier": "every number of segments, every position", "why_tests_cant": "unbounded number of segments", "anchors": ["nonlinear_avoidance/dynamics/segmented_dynamics.py:WavyPathFollowing.get_weights"]}
{"id": "C53", "title": "Weights inside a hull", "statement": "The weights of MultiHullAndObstacle are in [0, 1], zero exactly for the elements in whose free space the position does not lie, monotone in gamma, and sum to one if the position is in the free space of at least one element and to zero otherwise; is_inside reports exactly the positions in the wall of every element; get_boundary_intersection_weight is in [0, 1] and zero exactly outside the overlap of the two obstacles.", "quantifier": "every list of gammas, every power", "why_tests_cant": "unbounded lists", "anchors": ["nonlinear_avoidance/_base_multiobstacle.py:BaseMulitObstacle._evaluate_weights", "nonlinear_avoidance/multi_hull_and_obstacle.py:MultiHullAndObstacle._evaluate_weights", "nonlinear_avoidance/multi_hull_and_obstacle.py:get_boundary_intersection_weight"]}
{"id": "C54", "title": "Cluster prediction weights of the learned motion", "statement": "KMeansMotionLearner._predict_sequence_weights returns weights in [0,1] that sum to one and involve only the cluster of the position and its parent.", "quantifier": "every number of clusters, every position", "why_tests_cant": "unbounded number of clusters and a continuum of positions", "anchors": ["nonlinear_avoidance/kmeans_learner/kmeans_motion_learner.py:KMeansMotionLearner._predict_sequence_weights"]}
{"id": "C55", "title": "The learned cluster hierarchy is a chain", "statement": "_fit_cluster_hierarchy orders all clusters by descending mean sequence value: levels are 0..n-1 without repetition, every cluster but one has exactly one parent, and following parents visits all clusters.", "quantifier": "every number of clusters and all distinct mean sequence values", "why_tests_cant": "unbounded number of clusters", "anchors": ["nonlinear_avoidance/kmeans_learner/kmeans_motion_learner.py:KMeansMotionLearner._fit_cluster_hierarchy"]}
{"id": "C56", "title": "Every Gaussian is reached when the GMM graph is built", "statement": "create_graph_from_gaussians terminates and assigns every Gaussian other than the root (the one whose end point is closest to the attractor) to exactly one parent, so that every node reaches the root; in every pass the unassigned Gaussian with the largest weight on its preferred assigned Gaussian comes first.", "quantifier": "every number of Gaussians and preference lists", "why_tests_cant": "termination and coverage over unbounded graphs", "anchors": ["nonlinear_avoidance/gmm_learner/graph.py:GraphGMM.create_graph_from_gaussians"]}
{"id": "C57", "title": "GMM obstacle weights", "statement": "evaluate_gamma_weights of GmmObstacle returns non-negative weights that sum to one, equal shares inside, and occlusion factors stay in [0,1].", "quantifier": "every number of components and all gammas", "why_tests_cant": "unbounded lists", "anchors": ["nonlinear_avoidance/gmm_obstacle.py:GmmObstacle.evaluate_gamma_weights", "nonlinear_avoidance/gmm_obstacle.py:GmmObstacle.get_obstacle_occlusion_factor"]}
{"id": "C58", "title": "Projection on a ray and spanning basis", "statement": "project_point_onto_ray returns the point of the ray closest to the query point; get_orthonormal_spanning_basis returns an orthonormal pair starting at the first vector, whose span contains the second vector, for all unit inputs.", "quantifier": "every point and ray, every pair of unit vectors, every dimension", "why_tests_cant": "the claim ranges over a continuum of real vectors in every dimension; sampled vectors leave almost all of it unchecked", "anchors": ["nonlinear_avoidance/utils.py:project_point_onto_ray", "nonlinear_avoidance/utils.py:get_orthonormal_spanning_basis"]}
{"id": "C59", "title": "Surface magnitude limit", "statement": "RotationalAvoider._limit_magnitude scales a unit velocity by a factor in [0, 1] times the initial magnitude; it keeps the full magnitude when the velocity points into no obstacle, and vanishes when it points straight into an obstacle in contact.", "quantifier": "every number of obstacles, gammas >= 1, unit normals", "why_tests_cant": "unbounded number of obstacles", "anchors": ["nonlinear_avoidance/avoidance/rotational_avoider.py:RotationalAvoider._limit_magnitude"]}
{"id": "C60", "title": "Velocity of moving obstacles", "statement": "compute_multiobstacle_relative_velocity returns zero for static obstacles; in the plane it is the sum of the obstacles' velocities (translation, rotation, expansion) weighted by distance, and in contact with exactly one obstacle it is the velocity of this obstacle at the position. In every dimension, in contact with exactly one obstacle which does not rotate it is the translation and expansion of this obstacle at the position; in three and more dimensions the call raises if this obstacle rotates.", "quantifier": "every number of obstacles, every position, twist and deformation rate", "why_tests_cant": "unbounded number of obstacles and a continuum of motions", "anchors": ["nonlinear_avoidance/multi_obstacle_avoider.py:compute_multiobstacle_relative_velocity"]}
{"id": "C61", "title": "No penetration on the surface", "statement": "In contact with exactly one component of one obstacle (on the surface of any component, or inside of the root or of a component attached to its parent) the velocity returned by MultiObstacleAvoider.evaluate does not point into the obstacle, relative to the motion of the obstacle: its product with the outward normal at the surface is at least the product of the velocity of the obstacle at this position minus 1e-3 times the magnitude of the initial dynamics (the numerical tolerance of the code), whatever the other obstacles.", "quantifier": "every number and shape of obstacles, every position on the surface, every initial dynamics", "why_tests_cant": "a continuum of positions, normals and velocities, unbounded number of obstacles", "anchors": ["nonlinear_avoidance/multi_obstacle_avoider.py:MultiObstacleAvoider.evaluate_sequence", "nonlinear_avoidance/avoidance/rotational_avoider.py:RotationalAvoider.compute_safe_scaling"]}
{"id": "C62", "title": "Attractor inside all obstacles: no convergence direction to bend", "statement": "If the attractor of the initial dynamics lies in (or on) every obstacle, the convergence sequence used by the avoider ends in the direction of the initial dynamics at the position.", "quantifier": "every number and shape of obstacles, every position", "why_tests_cant": "continuum of positions and shapes", "anchors": ["nonlinear_avoidance/multi_obstacle_avoider.py:MultiObstacleAvoider.compute_convergence_sequence"]}
{"id": "C63", "title": "Moving a composite obstacle is rigid", "statement": "update_pose on a MultiObstacle places every component at its pose in the obstacle's frame composed with the new pose; distances between points fixed to any two components do not change, moving back restores every component, and update_deformation gives every component the same rate.", "quantifier": "every number of components, every history of poses", "why_tests_cant": "a continuum of poses, unbounded number of components", "anchors": ["nonlinear_avoidance/multi_obstacle.py:MultiObstacle.update_pose", "nonlinear_avoidance/multi_obstacle.py:MultiObstacle.update_deformation"]}
{"id": "C64", "title": "Joint of a component added without reference point", "statement": "A component added to a MultiObstacle without reference_position gets a joint that lies, once placed, both in the new component and in its parent, wherever the obstacle is; only if the two do not intersect add_component raises ValueError.", "quantifier": "every pair of components, every pose", "why_tests_cant": "a continuum of poses and shapes", "anchors": ["nonlinear_avoidance/multi_obstacle.py:MultiObstacle.add_component"]}
{"id": "C65", "title": "A rejected limb leaves the body unchanged", "statement": "MultiBodyObstacle.add_component with an unknown parent name raises IndexError and leaves the body unchanged.", "quantifier": "every body, every rejected component", "why_tests_cant": "arbitrary histories of calls before and after the failing call", "anchors": ["nonlinear_avoidance/multi_body_human.py:MultiBodyObstacle.add_component"]}
{"id": "C66", "title": "Orientation of a measured limb", "statement": "update_orientation_based_on_position turns a measured limb so that its own vertical axis points from the attachment point in the parent to the measured position.", "quantifier": "every attachment point and every different measured position", "why_tests_cant": "a continuum of directions", "anchors": ["nonlinear_avoidance/multi_body_human.py:MultiBodyObstacle.update_orientation_based_on_position"]}
{"id": "C67", "title": "Folding around the attractor can be undone", "statement": "Unfolding a folded position gives the position back for every position except the attractor and the ray behind the attractor; in every case the distance to the attractor and the angle seen from the attractor between the position and the obstacle are kept, and the centre of the obstacle is a fixed point.", "quantifier": "every dimension, position, attractor and obstacle", "why_tests_cant": "a continuum of positions, with logarithmic and angular distortion in between", "anchors": ["nonlinear_avoidance/dynamics/projected_rotation_dynamics.py:ProjectedRotationDynamics._get_folded_position_opposite_kernel_point", "nonlinear_avoidance/dynamics/projected_rotation_dynamics.py:ProjectedRotationDynamics._get_unfolded_position_opposite_kernel_point"]}
{"id": "C68", "title": "Projected position stays outside the obstacle", "statement": "get_projected_position returns positions in the obstacle, and every position if the attractor is inside the obstacle, unchanged; a position outside the obstacle is projected to a position outside the obstacle; evaluate_projected_weight is in ]0, 1] and is one on and in the obstacle.", "quantifier": "every star-shaped obstacle, every attractor and position", "why_tests_cant": "continuum of shapes and positions", "anchors": ["nonlinear_avoidance/dynamics/projected_rotation_dynamics.py:ProjectedRotationDynamics.get_projected_position", "nonlinear_avoidance/dynamics/projected_rotation_dynamics.py:ProjectedRotationDynamics.evaluate_projected_weight"]}
{"id": "C69", "title": "Rotation from the position to the obstacle around the attractor", "statement": "evaluate_rotation_position_to_transform returns a rotation by the angle between position and obstacle as seen from the attractor, starting at the direction towards the attractor; it returns None exactly at the attractor and where the two are opposite, and raises NotImplementedError exactly for an obstacle at the attractor. get_base_convergence is a unit vector towards the attractor and zero exactly there.", "quantifier": "every dimension, position, attractor and reference point", "why_tests_cant": "continuum of positions including degenerate ones", "anchors": ["nonlinear_avoidance/dynamics/projected_rotation_dynamics.py:ProjectedRotationDynamics.evaluate_rotation_start_to_end", "nonlinear_avoidance/dynamics/projected_rotation_dynamics.py:ProjectedRotationDynamics.evaluate_rotation_position_to_transform", "nonlinear_avoidance/dynamics/projected_rotation_dynamics.py:ProjectedRotationDynamics.get_base_convergence"]}
{"id": "C70", "title": "Convergence around an obstacle ends at the dynamics of its reference point", "statement": "evaluate_convergence_sequence_around_obstacle leads from the direction towards the attractor to the direction of the dynamics at the reference point of the obstacle (and is the initial sequence where no rotation exists); evaluate_convergence_around_obstacle keeps the speed of the initial dynamics, and in contact it has the direction of the dynamics at the reference point; compute_obstacle_convergence_sequence always raises TypeError.", "quantifier": "every dynamics, obstacle and position", "why_tests_cant": "continuum of positions and dynamics", "anchors": ["nonlinear_avoidance/dynamics/projected_rotation_dynamics.py:ProjectedRotationDynamics.evaluate_convergence_sequence_around_obstacle", "nonlinear_avoidance/dynamics/projected_rotation_dynamics.py:ProjectedRotationDynamics.evaluate_convergence_around_obstacle"]}
{"id": "C71", "title": "Speed limit of circular dynamics", "statement": "The speed of SimpleCircularDynamics.evaluate never exceeds maximum_velocity.", "quantifier": "every dimension, pose, radius, limit and position", "why_tests_cant": "continuum of positions and parameters", "anchors": ["nonlinear_avoidance/dynamics/circular_dynamics.py:SimpleCircularDynamics.evaluate"]}
{"id": "C72", "title": "Dynamics move with their frame", "statement": "Moving the frame (pose) of SimpleCircularDynamics, CircularRotationDynamics or SpiralingDynamics3D by a rigid motion and evaluating at the moved position gives the original velocity turned by the motion; SpiralingAttractorDynamics3D are stationary at their attractor.", "quantifier": "every rigid motion, every position", "why_tests_cant": "continuum of poses and positions", "anchors": ["nonlinear_avoidance/dynamics/circular_dynamics.py:SimpleCircularDynamics.evaluate", "nonlinear_avoidance/dynamics/circular_dynamics.py:CircularRotationDynamics.evaluate", "nonlinear_avoidance/dynamics/spiral_dynamics.py:SpiralingDynamics3D.evaluate", "nonlinear_avoidance/dynamics/spiral_dynamics.py:SpiralingAttractorDynamics3D.evaluate"]}
{"id": "C73", "title": "Moving base of dynamics", "statement": "DynamicDynamics.update_base moves the base by one time step of the base dynamics, scaled by a weight that is one within the radius of influence, zero from twice the radius on, and continuous and decreasing in between; the call returns.", "quantifier": "every dynamics of the base, every position", "why_tests_cant": "continuum of positions, unbounded number of calls", "anchors": ["nonlinear_avoidance/dynamics/circular_dynamics.py:DynamicDynamics.update_base"]}
{"id": "C74", "title": "One path segment: distance and dynamics", "statement": "DynamicsSegment.get_distance is the distance to the closest point between start and end, zero exactly on the segment; DynamicsSegment.evaluate is a unit vector that always progresses along the segment, never moves away from its line and equals the direction of the segment exactly on its line; a segment without length raises ValueError.", "quantifier": "every dimension, every pair of end points and every position", "why_tests_cant": "continuum of positions and end points", "anchors": ["nonlinear_avoidance/dynamics/segmented_dynamics.py:DynamicsSegment.get_distance", "nonlinear_avoidance/dynamics/segmented_dynamics.py:DynamicsSegment.evaluate"]}
{"id": "C75", "title": "A path created from points follows the points in their order", "statement": "create_segment_from_points makes one segment for every two neighbouring points, on the line between them and pointing from the first to the second; equal neighbours or fewer than two points raise an exception.", "quantifier": "every list of points, every margin", "why_tests_cant": "unbounded lists, continuum of points", "anchors": ["nonlinear_avoidance/dynamics/segmented_dynamics.py:create_segment_from_points"]}
{"id": "C76", "title": "Following a path", "statement": "WavyPathFollowing.evaluate returns a velocity vector with the speed of evaluate_magnitude (one, reduced linearly within the slow-down distance of the attractor), follows the direction of the segment on a segment and is zero exactly at the attractor, for paths of every length.", "quantifier": "every number of segments, every position", "why_tests_cant": "unbounded paths, continuum of positions", "anchors": ["nonlinear_avoidance/dynamics/segmented_dynamics.py:WavyPathFollowing.evaluate", "nonlinear_avoidance/dynamics/segmented_dynamics.py:WavyPathFollowing.evaluate_dynamics_sequence", "nonlinear_avoidance/dynamics/segmented_dynamics.py:WavyPathFollowing.evaluate_magnitude"]}
{"id": "C77", "title": "The attractor of a hull", "statement": "After set_attractor on a MultiHullAndObstacle get_attractor returns this attractor (in the frame of the obstacle), after any number of evaluations; an attractor in the wall is given to the closest element. Setting the attractor of the container sets it for every obstacle in it.", "quantifier": "every number of elements, every position, every history of evaluations", "why_tests_cant": "unbounded histories, continuum of positions", "anchors": ["nonlinear_avoidance/multi_hull_and_obstacle.py:MultiHullAndObstacle.set_attractor", "nonlinear_avoidance/multi_hull_and_obstacle.py:MultiHullAndObstacle.get_attractor", "nonlinear_avoidance/multi_hull_and_obstacle.py:MultiRotationalContainer.set_attractor"]}
{"id": "C78", "title": "Local attractors lead to the attractor", "statement": "An element of a MultiHullAndObstacle that does not contain the attractor gets as local attractor the point on its surface towards the intersection with the next element on a shortest path to an element that contains the attractor.", "quantifier": "every graph of elements, every position", "why_tests_cant": "unbounded graphs", "anchors": ["nonlinear_avoidance/multi_hull_and_obstacle.py:MultiHullAndObstacle.update_shortest_attractor_path", "nonlinear_avoidance/multi_hull_and_obstacle.py:MultiHullAndObstacle.update_shortest_attractor_path_starting_from_outside", "nonlinear_avoidance/multi_hull_and_obstacle.py:MultiHullAndObstacle._assign_local_attractors_along_path"]}
{"id": "C79", "title": "Velocity in a hull", "statement": "MultiHullAndObstacle.evaluate is zero in the wall; in free space its speed is at most one and decreases with the distance to the attractor below one; the correction of each element is tangent to its surface; the velocity is in the same frame as the position.", "quantifier": "every number of elements, every pose and position", "why_tests_cant": "continuum of positions and poses", "anchors": ["nonlinear_avoidance/multi_hull_and_obstacle.py:MultiHullAndObstacle.evaluate", "nonlinear_avoidance/multi_hull_and_obstacle.py:MultiHullAndObstacle._get_local_dynamics"]}
{"id": "C80", "title": "The region of a learned cluster", "statement": "The region of a KMeansObstacle is the set of positions closest to its own cluster centre and within the radius: get_point_on_surface returns the point where the ray from the centre through the position leaves the region, get_gamma is above one exactly inside the region, one exactly on its border and below one outside, except through the transparent wall to the successor cluster, where a boundary stays open; is_inside agrees with this; both frames give the same answer and the array of the caller is not changed.", "quantifier": "every number of clusters in every dimension, every position", "why_tests_cant": "continuum of positions, unbounded number of clusters", "anchors": ["nonlinear_avoidance/kmeans_learner/kmeans_obstacle.py:KMeansObstacle.get_point_on_surface", "nonlinear_avoidance/kmeans_learner/kmeans_obstacle.py:KMeansObstacle.get_gamma", "nonlinear_avoidance/kmeans_learner/kmeans_obstacle.py:KMeansObstacle.is_inside"]}
{"id": "C81", "title": "The radius of the cluster regions covers the demonstration", "statement": "After _fit_region_radius every point of the demonstration lies within the region radius of the centre of its own cluster.", "quantifier": "every data set, every number of clusters", "why_tests_cant": "unbounded data sets", "anchors": ["nonlinear_avoidance/kmeans_learner/kmeans_motion_learner.py:KMeansMotionLearner._fit_region_radius"]}
{"id": "C82", "title": "Removing sparse clusters keeps the labels right", "statement": "_fit_remove_sparse_clusters changes no data point, keeps a sublist of the centres, does nothing if no cluster is sparse, and afterwards every data point carries the label of a closest remaining centre.", "quantifier": "every data set, every number of clusters", "why_tests_cant": "unbounded data sets and loops over clusters", "anchors": ["nonlinear_avoidance/kmeans_learner/kmeans_motion_learner.py:KMeansMotionLearner._fit_remove_sparse_clusters"]}
{"id": "C83", "title": "Weights outside of all clusters", "statement": "_predict_outside_of_obstacle follows the outside dynamics far from all clusters, and otherwise mixes them and the clusters with non-negative weights which sum to one.", "quantifier": "every number of clusters, every position outside of them", "why_tests_cant": "continuum of positions, unbounded number of clusters", "anchors": ["nonlinear_avoidance/kmeans_learner/kmeans_motion_learner.py:KMeansMotionLearner._predict_outside_of_obstacle"]}
{"id": "C84", "title": "Descent to a common point of two obstacles", "statement": "gamma_normal_gradient_descent ends after at most max_it steps, refuses anything but two obstacles, does not depend on their order, stops within the tolerance, moves along the normals only, and ends in the common interior if the obstacles overlap.", "quantifier": "every pair of obstacles, every factor and tolerance", "why_tests_cant": "unbounded number of steps, continuum of positions", "anchors": ["nonlinear_avoidance/utils.py:gamma_normal_gradient_descent"]}
{"id": "C85", "title": "Distance, surface and directions of one Gaussian", "statement": "For one Gaussian of a GmmObstacle gamma is one exactly on the ellipse of variance_factor standard deviations of the covariance, proportional along every ray from the mean; project_point_on_surface gives the point of the ray with gamma one; the transformations to and from the unit circle frame are inverse; reference and normal directions are unit vectors at every position (the centre included) and the normal points outwards.", "quantifier": "every Gaussian in every dimension, every position", "why_tests_cant": "continuum of positions and matrices", "anchors": ["nonlinear_avoidance/gmm_obstacle.py:GmmObstacle.get_gamma_proportional", "nonlinear_avoidance/gmm_obstacle.py:GmmObstacle.get_gamma", "nonlinear_avoidance/gmm_obstacle.py:GmmObstacle.project_point_on_surface", "nonlinear_avoidance/gmm_obstacle.py:GmmObstacle.transform_position_to_unitcircle_frame", "nonlinear_avoidance/gmm_obstacle.py:GmmObstacle.transform_position_from_unitcircle_frame", "nonlinear_avoidance/gmm_obstacle.py:GmmObstacle.get_reference_direction", "nonlinear_avoidance/gmm_obstacle.py:GmmObstacle.get_normal_direction"]}
{"id": "C86", "title": "Hierarchy of a GMM obstacle", "statement": "evaluate_hirarchy_and_reference_points makes the Gaussian closest to the centre of all means the root and attaches every other Gaussian to the most probable one among those attached before, so that all Gaussians form one tree.", "quantifier": "every number of Gaussians in every dimension", "why_tests_cant": "unbounded number of Gaussians", "anchors": ["nonlinear_avoidance/gmm_obstacle.py:GmmObstacle.evaluate_hirarchy_and_reference_points"]}
{"id": "C87", "title": "Guidance around the root of a GMM obstacle", "statement": "get_root_rotation_direction leaves a velocity that moves away from the kernel point unchanged and replaces one that moves towards it by its tangent part.", "quantifier": "every position and velocity in every dimension", "why_tests_cant": "continuum of inputs", "anchors": ["nonlinear_avoidance/gmm_obstacle.py:GmmObstacle.get_root_rotation_direction"]}
{"id": "C88", "title": "Mean normal of a GMM obstacle", "statement": "evalute_weighted_reference_and_normal_offset returns a unit normal; with one relevant Gaussian it is the normal of this Gaussian.", "quantifier": "every number of Gaussians, all weights and directions", "why_tests_cant": "unbounded lists, continuum of inputs", "anchors": ["nonlinear_avoidance/gmm_obstacle.py:GmmObstacle.evalute_weighted_reference_and_normal_offset"]}
{"id": "C89", "title": "Locally rotated dynamics", "statement": "LocallyRotatedFromObtacle.evaluate follows the straight line to the attractor with the distance, at most the reference speed, as speed; far from the obstacle (gamma above max_gamma) it is the straight line, close to it (gamma below min_gamma) the direction deviates at most as much as the reference velocity deviates from the line, and at the centre it has exactly the direction of the reference velocity, also if the attractor is in the centre; a zero reference velocity raises ValueError.", "quantifier": "every dimension, centre, attractor, reference velocity, gamma function and position", "why_tests_cant": "continuum of positions and parameters", "anchors": ["nonlinear_avoidance/dynamics/locally_rotated_linear_dynamics.py:LocallyRotatedFromObtacle.evaluate", "nonlinear_avoidance/dynamics/locally_rotated_linear_dynamics.py:LocallyRotatedFromObtacle.__init__"]}
{"id": "C90", "title": "Dynamics rotated by obstacles", "statement": "ObstacleRotatedDynamics.evaluate keeps the speed of the linear dynamics wherever it rotates them, returns the initial dynamics without obstacles and far from all obstacles; the weights of the obstacles are not negative and sum at most to one, an obstacle that contains the position has the largest weight; the stored centre dynamics can be reused.", "quantifier": "every number of obstacles, every position", "why_tests_cant": "continuum of positions, unbounded number of obstacles", "anchors": ["nonlinear_avoidance/dynamics/deviation_dynamics.py:ObstacleRotatedDynamics.evaluate"]}
{"id": "C91", "title": "Learned deviations keep the speed and converge", "statement": "Whatever a regressor predicts, DeviationOfConstantFlow.evaluate has the speed of the reference velocity and progresses along it; PerpendicularDeviatoinOfLinearDS.evaluate has the speed of the distance to the attractor, at most one, and approaches the attractor; its axis weights are not negative and sum to one; fit accepts exactly consistent data, in every dimension; evaluate_convergence_velocity has a limited speed.", "quantifier": "every regressor, every position, every dimension", "why_tests_cant": "continuum of positions, arbitrary learned functions", "anchors": ["nonlinear_avoidance/dynamics/nonlinear_deviation.py:DeviationOfConstantFlow.evaluate", "nonlinear_avoidance/dynamics/nonlinear_deviation.py:DeviationOfConstantFlow.fit", "nonlinear_avoidance/dynamics/nonlinear_deviation.py:PerpendicularDeviatoinOfLinearDS.evaluate", "nonlinear_avoidance/dynamics/nonlinear_deviation.py:PerpendicularDeviatoinOfLinearDS.fit_from_velocities"]}
{"id": "C92", "title": "Weights of the rotational avoider", "statement": "The weight functions of the rotational avoider return values between zero and one: full avoidance on the surface, at most 1 / gamma outside, decreasing with gamma; the deviation weight is monotone; gamma is never below one for obstacles.", "quantifier": "every gamma, radius, angle and power; every list of obstacles", "why_tests_cant": "continuum of inputs", "anchors": ["nonlinear_avoidance/avoidance/rotational_avoider.py:RotationalAvoider.get_smooth_continuation_weight", "nonlinear_avoidance/avoidance/rotational_avoider.py:RotationalAvoider._get_directional_deviation_weight", "nonlinear_avoidance/avoidance/rotational_avoider.py:RotationalAvoider._get_nonlinear_inverted_weight", "nonlinear_avoidance/avoidance/rotational_avoider.py:RotationalAvoider.compute_obstacle_gamma", "nonlinear_avoidance/nonlinear_rotation_avoider.py:ConvergenceDynamicsWithoutSingularity.get_convergence_weight"]}
{"id": "C93", "title": "Velocity of the rotational avoider", "statement": "RotationalAvoider.avoid returns the initial velocity if no obstacle is close; the result is not faster than the initial velocity in the frame of the close obstacles; on the surface of an obstacle it does not point into it, and slides along it with the speed of the initial velocity; close to the surface the speed towards the obstacle vanishes; a missing environment raises ValueError.", "quantifier": "every dimension, position, velocity and list of obstacles", "why_tests_cant": "continuum of positions, unbounded number of obstacles", "anchors": ["nonlinear_avoidance/avoidance/rotational_avoider.py:RotationalAvoider.avoid", "nonlinear_avoidance/avoidance/rotational_avoider.py:RotationalAvoider.directional_convergence_summing", "nonlinear_avoidance/avoidance/rotational_avoider.py:RotationalAvoider.get_pseudo_tangent"]}
{"id": "C94", "title": "Arguments and settings of the rotational avoider", "statement": "An optional argument of RotationalAvoider.avoid applies to this call only; the convergence radius and the local convergence direction of every obstacle are respected.", "quantifier": "every environment, every sequence of two calls", "why_tests_cant": "histories of calls, unbounded number of obstacles", "anchors": ["nonlinear_avoidance/avoidance/rotational_avoider.py:RotationalAvoider.avoid", "nonlinear_avoidance/avoidance/rotational_avoider.py:RotationalAvoider.directional_convergence_summing"]}
{"id": "C95", "title": "Sequence of rotations of the rotational avoider", "statement": "RotationalAvoider.avoid_sequence returns the initial sequence if there are no obstacles; otherwise the resulting sequence ends with a unit vector; on the surface of an obstacle it ends with the tangent, which does not point into the obstacle; with convergence_default the initial sequence has no influence as soon as there is an obstacle; where no obstacle has an influence it ends like the convergence (or, without convergence_default, like the initial) sequence; it raises only if the geometric functions of an obstacle do.", "quantifier": "every dimension, position, pair of sequences and list of obstacles", "why_tests_cant": "continuum of positions, unbounded number of obstacles and rotations", "anchors": ["nonlinear_avoidance/avoidance/rotational_avoider.py:RotationalAvoider.avoid_sequence"]}
{"id": "C96", "title": "Avoidance with nonlinear dynamics", "statement": "SingularityConvergenceDynamics.evaluate_sequence has the speed of the initial dynamics, is zero where these rest, equals them where no obstacle has an influence, and does not point into an obstacle in contact; the convergence sequence used for it starts like the initial sequence, ends with a unit vector, and is the sequence around an obstacle which has the whole weight; it exists whenever the initial dynamics have a sequence at the position and at the obstacles. evaluate returns the initial velocity beyond the cut-off, is never faster than it, does not point into an obstacle in contact relative to the motion of the obstacle, and converges around the obstacle that is close.", "quantifier": "every dimension, position, dynamics and list of obstacles", "why_tests_cant": "continuum of positions, unbounded number of obstacles and rotations", "anchors": ["nonlinear_avoidance/nonlinear_rotation_avoider.py:SingularityConvergenceDynamics.evaluate", "nonlinear_avoidance/nonlinear_rotation_avoider.py:SingularityConvergenceDynamics.evaluate_sequence", "nonlinear_avoidance/nonlinear_rotation_avoider.py:SingularityConvergenceDynamics.evaluate_weighted_dynamics", "nonlinear_avoidance/nonlinear_rotation_avoider.py:SingularityConvergenceDynamics.evaluate_weighted_dynamics_sequence", "nonlinear_avoidance/nonlinear_rotation_avoider.py:ConvergenceDynamicsWithoutSingularity"]}
{"id": "C97", "title": "Shape, tree and reference points of arch obstacles", "statement": "An arch obstacle of wall width w and outer size (a, b) is the rectangle of this size without its opening: a position has gamma at most one exactly if it is in this region, at every pose given to the obstacle; it has three components, the wall is the root and the parent of both legs, and the reference point of each leg is in the interior of the leg and of the wall; get_gamma_except_components is the smallest gamma of the remaining components.", "quantifier": "every width and size (w at most both sides, 2 w at most the height), pose, later poses and position", "why_tests_cant": "continuum of sizes, poses and positions", "anchors": ["nonlinear_avoidance/arch_obstacle.py:create_arch_obstacle", "nonlinear_avoidance/arch_obstacle.py:BlockArchObstacle"]}
{"id": "C98", "title": "Convergence directions of the obstacles of a container", "statement": "RotationContainer keeps one convergence direction per obstacle through every history of calls; with common converging dynamics every obstacle gets these; with nonlinear dynamics without attractor it is the velocity at the centre of the obstacle (or leads to the centre if this is zero); with attractor it has at the centre of the obstacle the direction of the nonlinear dynamics; obstacles can be removed and replaced, and a convergence radius given with an obstacle is kept.", "quantifier": "every history of append, delete, replace and set_convergence_directions; every dynamics and position", "why_tests_cant": "unbounded histories, continuum of positions", "anchors": ["nonlinear_avoidance/rotation_container.py:RotationContainer"]}
{"id": "C99", "title": "Hulls: weights, radius and attraction", "statement": "get_weight_gamma_for_hulls returns weights in [0, 1] in the order of the depths which sum to one if some hull contains the position; get_desired_radius returns a radius between zero and pi 2^(-gamma), at most a right angle inside of the hull, exactly pi 2^(-gamma) for a wall without passage and zero towards the passage to a neighbouring hull; multihull_attraction returns the initial velocity where no hull is relevant and otherwise a velocity of the same speed.", "quantifier": "every container built by append and extend_graph, every position, gamma and weights", "why_tests_cant": "unbounded number of hulls, histories, continuum of positions", "anchors": ["nonlinear_avoidance/multihull_convergence.py:get_weight_gamma_for_hulls", "nonlinear_avoidance/multihull_convergence.py:get_desired_radius", "nonlinear_avoidance/multihull_convergence.py:multihull_attraction", "nonlinear_avoidance/multiboundary_container.py:MultiBoundaryContainer.update_intersection_graph"]}
{"id": "C100", "title": "Relative reference points of boundaries", "statement": "MultiBoundaryContainer.update_relative_reference_point gives every boundary that contains the position a relative reference point on the segment between its reference point and the position, never at the position, moved exactly if another boundary lies behind the wall ahead; the relative gamma is above one inside, at least the ratio of surface and position distances, and grows without limit towards an open passage; all other obstacles are reset; the update never fails or stops in the debugger. get_boundary_list returns the boundaries.", "quantifier": "every list of boundaries and obstacles, every position", "why_tests_cant": "continuum of positions, unbounded number of boundaries", "anchors": ["nonlinear_avoidance/multiboundary_container.py:MultiBoundaryContainer.update_relative_reference_point", "nonlinear_avoidance/multiboundary_container.py:MultiBoundaryContainer.get_boundary_list"]}
{"id": "C101", "title": "Shapes and intersections of obstacles", "statement": "The shape of an ellipse is the ellipse at the pose of the obstacle with its half axes enlarged by the margin; get_intersection_of_obstacles returns a point that is in both obstacles, or None exactly if their shapes have no common corner; so does the intersection that MultiBoundaryContainer computes.", "quantifier": "every pair of obstacles with convex shapes, every pose, axes and margin", "why_tests_cant": "continuum of poses and sizes", "anchors": ["nonlinear_avoidance/geometry.py:create_shapely_ellipse", "nonlinear_avoidance/geometry.py:get_intersection_of_obstacles", "nonlinear_avoidance/multiboundary_container.py:create_shapely_ellipse", "nonlinear_avoidance/multiboundary_container.py:MultiBoundaryContainer._get_intersection"]}
{"id": "C102", "title": "Rays and tangents of ellipses", "statement": "get_intersection_with_ellipse returns a point of the given line on the surface of the ellipse, in the frame of the arguments, and None exactly if the line misses the surface; get_normalized_tangent_component returns a unit vector orthogonal to the normal that lies in the half plane of the reference direction and the vector, and raises exactly if these two are parallel.", "quantifier": "every dimension, pose, axes, position and direction; every vector, normal and reference direction", "why_tests_cant": "continuum of lines and poses", "anchors": ["nonlinear_avoidance/multi_ellipse_obstacle.py:get_intersection_with_ellipse", "nonlinear_avoidance/multi_ellipse_obstacle.py:MultiEllipseObstacle.get_normalized_tangent_component"]}
{"id": "C103", "title": "Probabilities and mixing weights of a learned mixture", "statement": "get_gaussian_probability is positive and is the density of the normal distribution of the inputs; get_mixing_weights are non-negative, in the ratio of prior times probability, sum to one with normalize_probability and at most to one otherwise, and are undefined only if all products vanish.", "quantifier": "every mixture, choice of input features and sample", "why_tests_cant": "continuum of mixtures and samples, unbounded number of components", "anchors": ["nonlinear_avoidance/gmm_learner/learner/directional_gmm.py:DirectionalGMM.get_gaussian_probability", "nonlinear_avoidance/gmm_learner/learner/directional_gmm.py:DirectionalGMM.get_mixing_weights"]}
{"id": "C104", "title": "Regression with a learned mixture", "statement": "get_mean_yx is the best linear predictor of the outputs from the inputs and get_covariance_out the covariance of its error, which is positive semidefinite and the smallest of all linear predictors; the regression of a sample is the mean of the conditional means with the mixing weights and does not depend on the other samples of a batch; with convergence to the attractor it is zero at the attractor; the attribute convergence_attractor selects this convergence.", "quantifier": "every mixture with positive semidefinite covariances, choice of features, batch of samples and history of calls", "why_tests_cant": "continuum of mixtures and samples, unbounded batches and histories", "anchors": ["nonlinear_avoidance/gmm_learner/learner/directional_gmm.py:DirectionalGMM.get_mean_yx", "nonlinear_avoidance/gmm_learner/learner/directional_gmm.py:DirectionalGMM.get_covariance_out", "nonlinear_avoidance/gmm_learner/learner/directional_gmm.py:DirectionalGMM._predict"]}
{"id": "C105", "title": "Normalisation of training data", "statement": "transform_normalized_to_initial undoes transform_initial_to_normalized, which treats every sample alike and leaves its argument alone; normalize_velocity keeps all directions and all other features and returns speeds of at most one: the speed over the mean speed up to the mean, one above it; it is defined as soon as some sample moves.", "quantifier": "every batch of samples, mean, scale and limit", "why_tests_cant": "continuum of samples, unbounded batches", "anchors": ["nonlinear_avoidance/gmm_learner/learner/directional_gmm.py:DirectionalGMM.transform_initial_to_normalized", "nonlinear_avoidance/gmm_learner/learner/directional_gmm.py:DirectionalGMM.transform_normalized_to_initial", "nonlinear_avoidance/gmm_learner/learner/directional_gmm.py:DirectionalGMM.normalize_velocity"]}
{"id": "C106", "title": "Integration of learned dynamics", "statement": "rk4 is exact for constant velocities, is the Taylor polynomial of degree four for linear systems, keeps positions of rest, contracts towards linear attractors for steps up to two with a local error of fifth order; for every Lipschitz continuous field its trajectories approach the solutions of the differential equation, with an error at most proportional to the step; mag_linear_maximum limits the magnitudes; integrate_trajectory returns for every start one trajectory of Runge-Kutta steps that begins there and stops at the first position within the margin of the attractor, and for linear dynamics it gets there.", "quantifier": "every vector field, step, position, list of starting points and number of steps", "why_tests_cant": "continuum of fields and positions, unbounded number of steps", "anchors": ["nonlinear_avoidance/gmm_learner/math_tools.py:rk4", "nonlinear_avoidance/gmm_learner/math_tools.py:rk4_pos_vel", "nonlinear_avoidance/gmm_learner/math_tools.py:mag_linear_maximum", "nonlinear_avoidance/gmm_learner/learner/base.py:Learner.integrate_trajectory", "nonlinear_avoidance/gmm_learner/learner/directional_gmm.py:DirectionalGMM.integrate_trajectory"]}
{"id": "C107", "title": "Learned dynamics reproduce the demonstrations", "statement": "The attractor of a learner is the mean of the ends of the demonstrations, or the given one; a regressor that reproduces its training data gives, at every demonstrated position, the demonstrated direction of motion.", "quantifier": "every list of demonstrations and every regressor", "why_tests_cant": "continuum of demonstrations, unbounded lists", "anchors": ["nonlinear_avoidance/gmm_learner/learner/base.py:Learner.predict", "nonlinear_avoidance/gmm_learner/learner/directional_gmm.py:DirectionalGMM.load_data_from_mat", "nonlinear_avoidance/gmm_learner/learner/gpr_directional.py:DirectionalGPR.load_data_from_mat", "nonlinear_avoidance/gmm_learner/learner/svr_directional.py:DirectionalSVR.load_data_from_mat"]}
{"id": "C108", "title": "Avoidance direction is the weighted mean of the tangents", "statement": "The direction in which MultiObstacleAvoider avoids is the mean of the tangents of the obstacles, taken in the tangent space of the direction of the initial dynamics, with the rotation weights of the obstacles limited to the sum one: in contact with one obstacle it is the tangent of this obstacle whatever the others, without weight it is the direction of the initial dynamics, it never turns further from this direction than the furthest tangent, and it is defined for every position outside of the obstacles.", "quantifier": "every number of obstacles, dimension, position outside and direction of the initial dynamics", "why_tests_cant": "continuum of positions and directions, unbounded number of obstacles", "anchors": ["nonlinear_avoidance/multi_obstacle_avoider.py:MultiObstacleAvoider.evaluate_avoidance_from_sequence", "nonlinear_avoidance/multi_obstacle_avoider.py:MultiObstacleAvoider.populate_tangent_tree", "nonlinear_avoidance/multi_obstacle_avoider.py:MultiObstacleAvoider._update_tangent_branch"]}
{"id": "C109", "title": "Normal directions of learned regions", "statement": "KMeansObstacle.get_normal_direction returns, away from the centre and the surface, a unit vector that points into the region for a boundary and away from it for an obstacle, leaves its argument alone, is perpendicular to the wall to a neighbouring cluster in front of this wall and radial in front of the spherical part of the surface; on the surface and at the centre it does so too.", "quantifier": "every number of clusters, centres, radius, dimension and position", "why_tests_cant": "continuum of positions and cluster centres", "anchors": ["nonlinear_avoidance/kmeans_learner/kmeans_obstacle.py:KMeansObstacle.get_normal_direction", "nonlinear_avoidance/kmeans_learner/kmeans_obstacle.py:KMeansObstacle.get_point_on_surface", "nonlinear_avoidance/kmeans_learner/kmeans_obstacle.py:KMeansObstacle._get_normal_distances"]}
{"id": "C110", "title": "Prediction of a learned motion", "statement": "KMeansMotionLearner.predict is defined at every position. Outside of all regions it does not depend on the local dynamics, and further than four radii from all centres it is the dynamics given for the outside. Inside of a region the avoidance of the walls only turns the velocity and keeps its speed; at the centre and in front of the wall to the next region it returns the local velocity; on every other part of the surface the motion does not leave the region; the motion stops at the attractor.", "quantifier": "every learner after a fit, every number of clusters, dimension and position", "why_tests_cant": "continuum of positions and centres, unbounded number of clusters", "anchors": ["nonlinear_avoidance/kmeans_learner/kmeans_motion_learner.py:KMeansMotionLearner.predict", "nonlinear_avoidance/kmeans_learner/kmeans_motion_learner.py:KMeansMotionLearner._predict_outside_of_obstacle", "nonlinear_avoidance/kmeans_learner/kmeans_motion_learner.py:KMeansMotionLearner._predict_initial_direction", "nonlinear_avoidance/kmeans_learner/kmeans_motion_learner.py:KMeansMotionLearner.predict_averaged_lyapunov", "nonlinear_avoidance/kmeans_learner/kmeans_motion_learner.py:KMeansMotionLearner._predict_sequence_weights"]}
{"id": "C111", "title": "Local directions lead to the next region", "statement": "KMeansMotionLearner.fit gives the cluster of the attractor the dynamics around the attractor and every other cluster a constant flow of unit speed. The way from the centre of the cluster in the direction of this flow leaves its region through the wall to the next cluster of the sequence; the direction is the mean direction of the data of the cluster if this one leads there.", "quantifier": "every list of data, clustering, radius and dimension", "why_tests_cant": "continuum of data and centres, unbounded number of clusters", "anchors": ["nonlinear_avoidance/kmeans_learner/kmeans_motion_learner.py:KMeansMotionLearner._fit_local_dynamics", "nonlinear_avoidance/kmeans_learner/kmeans_motion_learner.py:KMeansMotionLearner._enforces_direction_is_towards_parent", "nonlinear_avoidance/kmeans_learner/kmeans_motion_learner.py:KMeansMotionLearner._is_pointing_towards_parent"]}
{"id": "C112", "title": "Direction to which the avoider converges", "statement": "MultiObstacleAvoider.compute_convergence_sequence blends the initial dynamics with the dynamics at the reference points of the obstacles: far from all obstacles it ends in the direction of the initial dynamics, in contact with one obstacle in the direction of the dynamics (the default ones if given) at the reference point of this obstacle, and in between in a unit vector; vector_rotation_reduction starts where the initial sequence starts, returns it without weight, and with full weight ends where the second sequence ends.", "quantifier": "every number of obstacles and components, dimension, position and dynamics", "why_tests_cant": "continuum of positions and dynamics, unbounded number of obstacles", "anchors": ["nonlinear_avoidance/multi_obstacle_avoider.py:MultiObstacleAvoider.compute_convergence_sequence", "nonlinear_avoidance/multi_obstacle_avoider.py:MultiObstacleAvoider.vector_rotation_reduction", "nonlinear_avoidance/multi_obstacle_avoider.py:MultiObstacleAvoider.compute_tree_weight"]}
{"id": "C113", "title": "Avoiders for motions without attractor", "statement": "MultiObstacleAvoider.create_with_convergence_dynamics accepts motions without attractor if reference dynamics are given (ValueError otherwise); the avoider created then finds its convergence direction at every position, for every motion; for a motion of constant direction this is the direction of the motion, whatever the obstacles and their components.", "quantifier": "every motion without attractor, reference dynamics, number of obstacles and components, dimension and position", "why_tests_cant": "continuum of motions and positions, unbounded number of obstacles and depth of the hierarchy", "anchors": ["nonlinear_avoidance/multi_obstacle_avoider.py:MultiObstacleAvoider.create_with_convergence_dynamics", "nonlinear_avoidance/multi_obstacle_avoider.py:MultiObstacleAvoider.create_local_convergence_dynamics", "nonlinear_avoidance/nonlinear_rotation_avoider.py:ConvergenceDynamicsWithoutSingularity", "nonlinear_avoidance/multi_obstacle_avoider.py:MultiObstacleAvoider.compute_convergence_sequence"]}
{"id": "C114", "title": "Tangent of an obstacle", "statement": "get_projected_tangent_from_vectors always finds a tangent: a unit vector with exactly the angle of the convergence radius to the inward normal, on the straight line of the direction space from the reference direction through the velocity, beyond the velocity (mirrored if the velocity points away from the obstacle). The switch between the two sides is continuous, with an explicit bound. A velocity exactly along the reference direction is returned as it is. Hence, with the radius pi/2 and tangents not opposite to the motion, the direction of MultiObstacleAvoider on the surface of exactly one obstacle never points into it, and a motion away from an obstacle without tail effect is not changed.", "quantifier": "every dimension, normal, reference direction, velocity and radius between zero and pi; every number of obstacles outside of contact", "why_tests_cant": "continuum of directions and radii", "anchors": ["nonlinear_avoidance/avoidance/rotational_avoider.py:RotationalAvoider.get_projected_tangent_from_vectors", "nonlinear_avoidance/multi_obstacle_avoider.py:MultiObstacleAvoider._simple_tangent_branch_update", "nonlinear_avoidance/multi_obstacle_avoider.py:MultiObstacleAvoider.evaluate_avoidance_from_sequence"]}
{"id": "C115", "title": "Directions in the plane", "statement": "For planar systems the results have closed forms in signed angles. VectorRotationTree.get_weighted_mean is the direction of the root turned by the weighted sum of the angles accumulated on the way to the nodes (so it lies in every sector that contains these angles), and the sequence of reduce_weighted_to_sequence turns by the same total angle. vector_rotation_reduction with weight w turns by (1 - w) times the turn of the initial sequence plus w times the turn over the transformation and the second sequence. With one obstacle of projected weight p and obstacle weight g, the convergence direction of MultiObstacleAvoider around the attractor A is the direction A - x turned by (1 - g p^2) angle(A - x, f(x)) + g p^2 (angle(A - x, A - c) + angle(A - c, f'(c))), c the reference point of the obstacle.", "quantifier": "every planar tree, weights with sum at most one, sequences, position and dynamics", "why_tests_cant": "continuum of directions and weights, unbounded trees", "anchors": ["nonlinear_avoidance/vector_rotation.py:VectorRotationTree.get_weighted_mean", "nonlinear_avoidance/vector_rotation.py:VectorRotationTree.reduce_weighted_to_sequence", "nonlinear_avoidance/multi_obstacle_avoider.py:MultiObstacleAvoider.vector_rotation_reduction", "nonlinear_avoidance/multi_obstacle_avoider.py:MultiObstacleAvoider.compute_convergence_sequence"]}
{"id": "C116", "title": "Trajectories never reach a ball", "statement": "Following the velocities of MultiObstacleAvoider.evaluate in time, a robot that starts outside of a ball never reaches it: the velocity is defined everywhere outside, the speed towards the ball is bounded by a constant times the remaining distance (so the distance decays at most exponentially), and for a motion of constant direction the distance stays, for all times, above a fixed positive part of the initial distance that depends only on the initial angle to the direction of the centre. All up to the tolerance of np.allclose. (Violated for the exact head-on motion, which moves straight into the ball with unit speed.)", "quantifier": "every dimension, ball, smoothness power, trajectory (solution of the differential equation of the avoider) and time", "why_tests_cant": "continuum of initial positions and motions, unbounded time", "anchors": ["nonlinear_avoidance/multi_obstacle_avoider.py:MultiObstacleAvoider.evaluate", "nonlinear_avoidance/multi_obstacle_avoider.py:MultiObstacleAvoider.evaluate_sequence", "nonlinear_avoidance/multi_obstacle_avoider.py:MultiObstacleAvoider.evaluate_avoidance_from_sequence", "nonlinear_avoidance/avoidance/rotational_avoider.py:RotationalAvoider.get_projected_tangent_from_vectors", "nonlinear_avoidance/multi_obstacle_avoider.py:MultiObstacleAvoider.create_with_convergence_dynamics"]}
{"id": "C117", "title": "Trajectories of the circular and wavy dynamics", "statement": "Every trajectory of SimpleCircularDynamics which does not start on the axis reaches the cylinder of its circle after a finite time (explicit bound), stays on it and approaches the plane of the circle exponentially; it never crosses the circle, and neither the difference of the squared distance from the axis to the squared radius nor the height ever grows. In the plane it is known completely: from outside it is the straight tangent of the circle, run through with unit speed, reached exactly after the length of the tangent, and then the circle with angular speed 1/radius. Every trajectory of CircularRotationDynamics which does not start at the origin converges to the circle, monotonically and without crossing it. Every trajectory of WavyLinearDynamics with a maximum deviation below a right angle converges to the attractor, monotonically and exponentially, at least at the rate of the linear dynamics times the cosine of the maximum deviation and at most at the rate of the linear dynamics.", "quantifier": "every configuration, dimension (for SimpleCircularDynamics), trajectory (solution of the differential equation) and time", "why_tests_cant": "continuum of initial positions, unbounded time", "anchors": ["nonlinear_avoidance/dynamics/circular_dynamics.py:SimpleCircularDynamics.evaluate", "nonlinear_avoidance/dynamics/circular_dynamics.py:CircularRotationDynamics.evaluate", "nonlinear_avoidance/dynamics/wavy_attractor_dynamics.py:WavyLinearDynamics.evaluate"]}
{"id": "C118", "title": "Averaged normal of the surroundings", "statement": "compute_averaged_normal_and_gamma returns the smallest distance value of all components, and, in contact, the mean of the normals of the components that touch the position; away from all of them the mean of all normals in which closer components count more; it is never longer than one, vanishes with the distance, points to the side all components agree on, and is continuous up to the surface; it fails only in surroundings without components.", "quantifier": "every number of obstacles and components, dimension and position", "why_tests_cant": "continuum of positions, unbounded number of components", "anchors": ["nonlinear_avoidance/multi_obstacle_avoider.py:MultiObstacleAvoider.compute_averaged_normal_and_gamma", "nonlinear_avoidance/multi_obstacle_avoider.py:compute_safe_magnitude"]}
{"id": "C119", "title": "Older evaluation of the avoider", "statement": "MultiObstacleAvoider.evaluate_old and get_tangent_direction return a velocity for every avoider, whether or not it has been used before, independently of what earlier evaluations left behind; without obstacles it is the velocity itself, and on the surface of an obstacle it is a tangent of the surface with the speed of the initial dynamics.", "quantifier": "every avoider, history of evaluations, position and velocity", "why_tests_cant": "continuum of positions, unbounded histories", "anchors": ["nonlinear_avoidance/multi_obstacle_avoider.py:MultiObstacleAvoider.evaluate_old", "nonlinear_avoidance/multi_obstacle_avoider.py:MultiObstacleAvoider.get_tangent_direction", "nonlinear_avoidance/multi_obstacle_avoider.py:MultiObstacleAvoider.evaluate_avoidance_sequence", "nonlinear_avoidance/multi_obstacle_avoider.py:MultiObstacleAvoider.populate_tangent_tree"]}
{"id": "C120", "title": "Trajectories among several balls", "statement": "Following the velocities of MultiObstacleAvoider.evaluate in time among any number of balls that are apart from each other, a robot that starts outside of all of them never reaches any: outside of all balls the velocity is defined, and although all balls influence the direction, the speed towards each of them is bounded by a constant (depending on the number of balls, the gap between them and the angle of the motion to the centres) times the remaining distance. All up to the tolerance of np.allclose. (Violated for motions exactly along the line of the centres, which move into the next ball with unit speed.)", "quantifier": "every number of balls, dimension, smoothness power, trajectory (solution of the differential equation of the avoider) and time", "why_tests_cant": "unbounded number of obstacles, continuum of initial positions and motions, unbounded time", "anchors": ["nonlinear_avoidance/multi_obstacle_avoider.py:MultiObstacleAvoider.evaluate", "nonlinear_avoidance/multi_obstacle_avoider.py:MultiObstacleAvoider.evaluate_avoidance_from_sequence", "nonlinear_avoidance/multi_obstacle_avoider.py:get_limited_weights_to_max_sum", "nonlinear_avoidance/avoidance/rotational_avoider.py:RotationalAvoider.get_projected_tangent_from_vectors", "nonlinear_avoidance/multi_obstacle_avoider.py:MultiObstacleAvoider.create_with_convergence_dynamics"]}
{"id": "C121", "title": "Simulated trajectories of the comparison", "statement": "integrate_trajectory returns a trajectory which begins at the start position, moves by exactly delta_time in the direction of the velocity from each position to the next, contains no position in collision, includes the position where the motion comes to rest, and ends only for a rest, a collision or the maximal number of iterations; create_start_positions returns exactly the free points of the grid, and evaluate_trajectories stores one trajectory for every start position.", "quantifier": "every velocity field, collision check, start, time step, margin and number of iterations, every grid", "why_tests_cant": "unbounded number of steps, arbitrary dynamics", "anchors": ["nonlinear_avoidance/comparison/comparison_multiobstacle_vectorfield.py:integrate_trajectory", "nonlinear_avoidance/comparison/comparison_multiobstacle_vectorfield.py:create_start_positions", "nonlinear_avoidance/comparison/comparison_multiobstacle_vectorfield.py:evaluate_trajectories"]}
{"id": "C122", "title": "Measures of the comparison", "statement": "The directional measures of a trajectory lie in the range of a cosine and their tabulated values between zero and one; for simulated trajectories the two measures of smoothness agree up to a constant, the deviation from dynamics is the mean over the positions of the difference to these dynamics there (zero exactly for trajectories that follow the dynamics), and the error to the path is nonnegative and zero exactly for trajectories on the circle.", "quantifier": "every trajectory, dimension, time step and pair of dynamics", "why_tests_cant": "unbounded trajectories, arbitrary dynamics", "anchors": ["nonlinear_avoidance/comparison/evaluation_trajectories.py:normalize_velocities", "nonlinear_avoidance/comparison/evaluation_trajectories.py:mean_squared_error_to_path", "nonlinear_avoidance/comparison/evaluation_trajectories.py:mean_squared_acceleration", "nonlinear_avoidance/comparison/evaluation_trajectories.py:dot_product_acceleration", "nonlinear_avoidance/comparison/evaluation_trajectories.py:mean_squared_velocity_deviation", "nonlinear_avoidance/comparison/evaluation_trajectories.py:dot_product_velocity_deviation", "nonlinear_avoidance/comparison/evaluation_trajectories_with_std.py:mean_squared_error_to_path"]}
{"id": "C123", "title": "Statistics of the path following", "statement": "The comparison of the path following uses exactly the runs which converged with every method; the converged fraction is a fraction of all runs, the other values are averages over the selected runs, and their reported spreads are zero only if all selected runs agree; the evaluation needs no particular order of calls.", "quantifier": "every number of methods and runs, every table", "why_tests_cant": "unbounded tables", "anchors": ["nonlinear_avoidance/comparison/evaluation_path_following.py:TrajectoryEvaluator.get_converged", "nonlinear_avoidance/comparison/evaluation_path_following.py:TrajectoryEvaluator.run", "nonlinear_avoidance/comparison/evaluation_path_following.py:get_converged"]}
{"id": "C124", "title": "Trajectories among star-shaped obstacles", "statement": "Following the velocities of MultiObstacleAvoider.evaluate in time among any number of star-shaped obstacles with smooth surfaces (ellipses, balls, any smooth star-shaped form), of which no two are close to the same position, a robot that starts outside of all of them never reaches any: outside of all obstacles the velocity is defined, and the relative distance from each surface decreases at most in proportion to itself. All up to the tolerance of np.allclose. (Violated for motions exactly along a common axis, which move into the next obstacle with unit speed.)", "quantifier": "every number and shape of star-shaped smooth obstacles, dimension, smoothness power, trajectory (solution of the differential equation of the avoider) and time", "why_tests_cant": "unbounded number of obstacles, arbitrary shapes, continuum of initial positions and motions, unbounded time", "anchors": ["nonlinear_avoidance/multi_obstacle_avoider.py:MultiObstacleAvoider.evaluate", "nonlinear_avoidance/multi_obstacle_avoider.py:MultiObstacleAvoider.evaluate_avoidance_from_sequence", "nonlinear_avoidance/multi_obstacle_avoider.py:get_limited_weights_to_max_sum", "nonlinear_avoidance/avoidance/rotational_avoider.py:RotationalAvoider.get_projected_tangent_from_vectors", "nonlinear_avoidance/multi_obstacle_avoider.py:MultiObstacleAvoider.create_with_convergence_dynamics"]}
{"id": "C125", "title": "Pulling a direction towards the tangent", "statement": "_get_rotated_convergence_direction moves a direction inside the convergence circle away from the reference, along the ray from the reference through the direction, never beyond the circle, not at all with weight zero, up to the circle with weight one, further with a larger weight, and never turns it towards the obstacle; a direction outside of the circle is kept; a direction is always returned. _get_projected_velocity moves the initial direction towards the tangent direction by at most the weight, by exactly the weight inside the circle, and keeps a direction that already goes beyond the tangent; weights outside of the unit interval are rejected. get_tangent_convergence_direction_from_unit_direction returns a direction on the circle, on the ray from the reference through the direction.", "quantifier": "every dimension, direction, reference, radius and weight", "why_tests_cant": "continuum of directions and weights", "anchors": ["nonlinear_avoidance/avoidance/rotational_avoider.py:RotationalAvoider._get_rotated_convergence_direction", "nonlinear_avoidance/avoidance/rotational_avoider.py:RotationalAvoider._get_projected_velocity", "nonlinear_avoidance/avoidance/rotational_avoider.py:RotationalAvoider.get_tangent_convergence_direction_from_unit_direction"]}
{"id": "C126", "title": "Pulling a nonlinear direction in the inverted space", "statement": "_get_projected_nonlinear_velocity keeps a nonlinear direction which already converges, and pulls another one towards the convergence direction, with full weight to the point between the two directions where their connection crosses the circle; it always returns a direction.", "quantifier": "every dimension, pair of directions, radius and weight", "why_tests_cant": "continuum of directions and weights", "anchors": ["nonlinear_avoidance/avoidance/rotational_avoider.py:RotationalAvoider._get_projected_nonlinear_velocity", "nonlinear_avoidance/avoidance/rotational_avoider.py:RotationalAvoider._get_projection_of_inverted_convergence_direction"]}
{"id": "C127", "title": "Older prediction outside of the clusters", "statement": "KMeansMotionLearner._predict_outside_of_obstacle_mutually_exclusive returns a velocity for every position outside of the clusters: the one of the outside dynamics beyond the cut-off distance, at equal distances from the two closest centres and for motions exactly away from the closest centre; otherwise the mean of this velocity and the direction of the closest centre, whose weight is between zero and one, and which on the surface of the closest cluster leads to its centre.", "quantifier": "every number and position of clusters, dimension, outside dynamics, position, cut-off ratio above one and positive power factor", "why_tests_cant": "continuum of positions, unbounded number of clusters", "anchors": ["nonlinear_avoidance/kmeans_learner/kmeans_motion_learner.py:KMeansMotionLearner._predict_outside_of_obstacle_mutually_exclusive"]}
{"id": "C128", "title": "Derivatives and shared points of Gaussians", "statement": "get_gamma_derivative returns the gradient of the proportional gamma raised to the given power, and the derivatives of a Gaussian are those of its density; a MultiVariantGaussian evaluates to the density of the normal distribution. get_intersection_of_ellipses returns a point of both ellipses if they intersect, independent of the order of the two Gaussians and of their common position; the common mean if they have one, the midpoint for two Gaussians of the same shape, and a point of the line of the centres for circles.", "quantifier": "every pair of Gaussians in every dimension, every position, power, tolerance, step size and number of iterations", "why_tests_cant": "continuum of shapes and positions, unbounded number of iterations", "anchors": ["nonlinear_avoidance/gmm_obstacle.py:GmmObstacle.get_gamma_derivative", "nonlinear_avoidance/gmm_obstacle.py:GmmObstacle._get_gauss_derivative", "nonlinear_avoidance/gmm_obstacle.py:GmmObstacle.get_intersection_of_ellipses", "nonlinear_avoidance/multivariant_gaussian.py:MultiVariantGaussian"]}
{"id": "C129", "title": "Ellipses of a Gaussian obstacle", "statement": "The axes evaluated from a covariance describe exactly the points within variance_factor standard deviations; project_point_on_surface_with_offcenter_point returns the point of the boundary on the ray from the off-centre point through the position; transform_to_analytic_ellipses returns one ellipse for each Gaussian, which covers the same points, and is rejected in other dimensions than two.", "quantifier": "every covariance with positive eigenvalues, every mean, factor and position", "why_tests_cant": "continuum of shapes and positions", "anchors": ["nonlinear_avoidance/gmm_obstacle.py:GmmObstacle.evaluate_axes_length_and_direction", "nonlinear_avoidance/gmm_obstacle.py:GmmObstacle.project_point_on_surface_with_offcenter_point", "nonlinear_avoidance/gmm_obstacle.py:GmmObstacle.transform_to_analytic_ellipses"]}
{"id": "C130", "title": "Simulated motion among several balls", "statement": "A robot that repeatedly moves for a short time with the velocity returned by MultiObstacleAvoider.evaluate, or the simulation of integrate_trajectory that moves by a fixed distance in its direction, never enters any of several disjoint balls, for any number of steps, provided that the steps are short; the simulation does not end with a collision or an exception.", "quantifier": "every number of balls, start position, number of steps, step length below an explicit bound, smoothness power and collision functor", "why_tests_cant": "unbounded number of steps, continuum of positions, balls and motions", "anchors": ["nonlinear_avoidance/multi_obstacle_avoider.py:MultiObstacleAvoider.evaluate", "nonlinear_avoidance/comparison/comparison_multiobstacle_vectorfield.py:integrate_trajectory"]}
{"id": "C131", "title": "Conversion of a multi-body obstacle", "statement": "transform_from_multibodyobstacle_to_multiobstacle succeeds for every body made by set_root and add_component: the composite obstacle has the same components with the same numbers, reference points and parents, moved rigidly by the base pose, and the body itself is left as it is; without a base pose both have the same distance function.", "quantifier": "every history of calls, all current poses, shapes and distance functions of the components, every base pose", "why_tests_cant": "unbounded number of components, continuum of poses", "anchors": ["nonlinear_avoidance/multi_body_human.py:transform_from_multibodyobstacle_to_multiobstacle", "nonlinear_avoidance/multi_body_human.py:MultiBodyObstacle.get_gamma", "nonlinear_avoidance/multi_obstacle.py:MultiObstacle.set_root", "nonlinear_avoidance/multi_obstacle.py:MultiObstacle.add_component", "nonlinear_avoidance/multi_obstacle.py:MultiObstacle.get_gamma"]}
{"id": "C132", "title": "End points and regions of a graph of Gaussians", "statement": "get_end_point lies on the ray from the mean of a Gaussian in its learned direction of motion, on the boundary of the region that create_learned_boundary makes for it (inside of it for a larger factor), and the square root of two standard deviations away from the mean; there is one region around every mean, in order; the local attractor of a region is the attractor if the region contains it, otherwise a point of its boundary in the direction of the parent region; set_convergence_directions gives every region the linear system of its local attractor, whatever was set before. Other dimensions than two are rejected.", "quantifier": "all means, covariances, directions, factors, graphs and attractors; every number of regions", "why_tests_cant": "continuum of covariances and directions, unbounded number of regions", "anchors": ["nonlinear_avoidance/gmm_learner/graph.py:GraphGMM.get_end_point", "nonlinear_avoidance/gmm_learner/graph.py:GraphGMM.create_learned_boundary", "nonlinear_avoidance/gmm_learner/graph.py:GraphGMM._get_local_attractor", "nonlinear_avoidance/gmm_learner/graph.py:GraphGMM.set_convergence_directions"]}
{"id": "C133", "title": "Parents and children of graph elements", "statement": "After every history of add_child, set_parent and expel on graph elements, an element names a parent exactly if this parent lists it as a child, once; add_child and set_parent have the same effect; expel removes all connections between the element and the others and can be repeated; delete_element of BasicGraphHandler removes the element.", "quantifier": "every history of calls, every number of elements, all values", "why_tests_cant": "unbounded histories; the objects refer to each other, and removal from a list compares by value", "anchors": ["nonlinear_avoidance/graph_handler.py:GraphElement", "nonlinear_avoidance/graph_handler.py:BasicGraphHandler"]}
{"id": "C134", "title": "Measurements reach their component", "statement": "In every update from measurements, the pose given to a component of a multi-body obstacle is the one of its own filter, which has run through exactly the poses measured for the number of this component since the beginning, in order, expressed in the frame of the robot as it is measured in this update; components which are not measured in the update are given no pose; measurements of unknown objects are ignored; the update does not fail.", "quantifier": "every body, every history of updates, every order, repetition and omission of measurements, every filter", "why_tests_cant": "unbounded histories and interleavings of measurements", "anchors": ["nonlinear_avoidance/multi_body_human.py:MultiBodyObstacle.update_using_optitrack", "nonlinear_avoidance/multi_body_human.py:MultiBodyObstacle.create_filters", "nonlinear_avoidance/multi_body_human.py:MultiBodyObstacle.optitrack_indeces", "nonlinear_avoidance/multi_body_human.py:MultiBodyObstacle.get_obstacle_id_from_optitrackid"]}
{"id": "C135", "title": "Constant motion with a sequence", "statement": "ConstantValueWithSequence has a sequence for every velocity longer than 1e-8: one rotation by the angle zero that starts and ends at the direction of the velocity; shorter velocities raise ValueError. A MultiObstacleAvoider returns the same as for the constant dynamics without a sequence, whatever the obstacles, and the constant velocity itself without obstacles; a velocity of zero is a position of rest.", "quantifier": "every velocity, position, list of obstacles and convergence dynamics", "why_tests_cant": "continuum of velocities and positions, unbounded number of obstacles", "anchors": ["nonlinear_avoidance/dynamics/constant_value.py:ConstantValueWithSequence", "nonlinear_avoidance/dynamics/sequenced_dynamics.py:evaluate_dynamics_sequence", "nonlinear_avoidance/multi_obstacle_avoider.py:MultiObstacleAvoider.evaluate"]}
{"id": "C136", "title": "The origin does not matter", "statement": "If the initial dynamics, the attractor, the convergence dynamics and all obstacles are moved by the same vector, MultiObstacleAvoider.evaluate returns at the moved position the same velocity, or raises the same exception, whatever the vector.", "quantifier": "every scene, position and displacement, static or moving obstacles, every dimension", "why_tests_cant": "continuum of scenes and displacements, unbounded number of obstacles and components", "anchors": ["nonlinear_avoidance/multi_obstacle_avoider.py:MultiObstacleAvoider.evaluate", "nonlinear_avoidance/multi_obstacle_avoider.py:MultiObstacleAvoider.compute_convergence_radiuses", "nonlinear_avoidance/dynamics/projected_rotation_dynamics.py:ProjectedRotationDynamics.get_projected_position"]}
{"id": "C137", "title": "The scale of time does not matter", "statement": "If the velocity of the initial dynamics and the velocities of all obstacles (linear, angular, deformation) are multiplied by the same positive factor, MultiObstacleAvoider.evaluate returns the velocity multiplied by this factor, or raises the same exception.", "quantifier": "every scene, position and positive factor, static or moving obstacles, every dimension", "why_tests_cant": "continuum of scenes and factors, unbounded number of obstacles and components", "anchors": ["nonlinear_avoidance/multi_obstacle_avoider.py:MultiObstacleAvoider.evaluate", "nonlinear_avoidance/multi_obstacle_avoider.py:compute_multiobstacle_relative_velocity", "nonlinear_avoidance/dynamics/sequenced_dynamics.py:evaluate_dynamics_sequence"]}
{"id": "C138", "title": "The order of the obstacles does not matter", "statement": "MultiObstacleAvoider.evaluate returns the same velocity whatever the order in which the obstacles were added to the container; so does compute_multiobstacle_relative_velocity.", "quantifier": "every scene, position and permutation of the obstacles, static or moving obstacles with any number of components, every dimension", "why_tests_cant": "unbounded number of obstacles (and a factorial number of orders), continuum of scenes", "anchors": ["nonlinear_avoidance/multi_obstacle_avoider.py:MultiObstacleAvoider.evaluate", "nonlinear_avoidance/multi_obstacle_avoider.py:compute_multiobstacle_relative_velocity", "nonlinear_avoidance/multi_obstacle_avoider.py:MultiObstacleAvoider.compute_convergence_sequence", "nonlinear_avoidance/multi_obstacle_avoider.py:MultiObstacleAvoider.evaluate_avoidance_from_sequence"]}
{"id": "C139", "title": "Reading and applying a tree of directions", "statement": "After set_root and any history of add_node calls on a VectorRotationTree, get_children lists the nodes added with this parent in the order of the calls, get_parent returns the parent of every node, and rotate and inverse_rotate turn a vector like the rotation from the root to the weighted mean.", "quantifier": "every history of calls, all nodes, vectors and weights", "why_tests_cant": "unbounded number of nodes and calls", "anchors": ["nonlinear_avoidance/vector_rotation.py:VectorRotationTree.get_children", "nonlinear_avoidance/vector_rotation.py:VectorRotationTree.get_parent", "nonlinear_avoidance/vector_rotation.py:VectorRotationTree.rotate", "nonlinear_avoidance/vector_rotation.py:VectorRotationTree.inverse_rotate"]}
{"id": "C140", "title": "The orientation of the coordinate axes does not matter", "statement": "Describing the same scene with turned or mirrored axes gives the same result: the rotation between two turned vectors maps turned vectors to the turned images; a VectorRotationTree built with turned directions is the turned tree, and get_weighted_mean and reduce_weighted_to_sequence give the turned mean and sequence; MultiObstacleAvoider.evaluate in a turned scene gives the turned velocity.", "quantifier": "every rotation and reflection of the axes, all vectors, histories of calls, weights, scenes and positions, every dimension", "why_tests_cant": "continuum of rotations and scenes, unbounded trees", "anchors": ["nonlinear_avoidance/vector_rotation.py:VectorRotationXd.from_directions", "nonlinear_avoidance/vector_rotation.py:VectorRotationTree.add_node", "nonlinear_avoidance/vector_rotation.py:VectorRotationTree.get_weighted_mean", "nonlinear_avoidance/vector_rotation.py:VectorRotationTree.reduce_weighted_to_sequence", "nonlinear_avoidance/multi_obstacle_avoider.py:MultiObstacleAvoider.evaluate"]}
{"id": "C141", "title": "The unit of length does not matter", "statement": "Describing the same scene with another unit of length gives the same motion: if all positions are multiplied by a positive factor and the velocities are kept, MultiObstacleAvoider.evaluate returns the same velocity; if the velocities are multiplied too, the returned velocity is multiplied by the factor. The exceptions are the same.", "quantifier": "every positive factor, all scenes (with moving, rotating and deforming obstacles), positions and dimensions", "why_tests_cant": "continuum of factors and scenes", "anchors": ["nonlinear_avoidance/multi_obstacle_avoider.py:MultiObstacleAvoider.evaluate", "nonlinear_avoidance/multi_obstacle_avoider.py:compute_multiobstacle_relative_velocity", "nonlinear_avoidance/multi_obstacle_avoider.py:get_normal_at_distance", "nonlinear_avoidance/dynamics/projected_rotation_dynamics.py:ProjectedRotationDynamics.evaluate_projected_weight"]}
{"id": "C142", "title": "Regression with a mixture", "statement": "regress_gmm returns, for every sample, a weighted mean of the conditional means of the components of the mixture (and of zero, with an attractor): the weights are positive, in the ratio of prior times probability, and sum to one, so that the result lies between the smallest and the largest of them, in the coordinates of the data. At the attractor the result is the mean of the data. The outputs are the features which are not inputs, in their order.", "quantifier": "all mixtures with invertible covariances, samples, choices of input features, normalisations and attractors", "why_tests_cant": "continuum of mixtures and samples, all sizes", "anchors": ["nonlinear_avoidance/gmm_learner/direction_space.py:regress_gmm", "nonlinear_avoidance/gmm_learner/direction_space.py:get_mixing_weights", "nonlinear_avoidance/gmm_learner/direction_space.py:get_mean_yx", "nonlinear_avoidance/gmm_learner/direction_space.py:get_gaussianProbability"]}
{"id": "C143", "title": "The fit keeps the best of its restarts", "statement": "DirectionalGaussian.fit does n_init runs of expectation and maximisation, each from newly drawn parameters (a warm start: one run from the present ones). Each run does at most max_iter steps and stops at the first step where the bound changes by less than tol. The kept parameters, lower_bound_ and n_iter_ are those of a run with the largest bound, converged_ says whether this run converged, and fit_predict labels every sample with the first component of largest responsibility under the kept parameters.", "quantifier": "all data sets, initialisations, numbers of restarts and iterations, tolerances and histories of earlier fits", "why_tests_cant": "unbounded number of restarts and iterations, random initial parameters", "anchors": ["nonlinear_avoidance/gmm_learner/learner/directional.py:DirectionalGaussian.fit", "nonlinear_avoidance/gmm_learner/learner/directional.py:DirectionalGaussian.fit_predict", "nonlinear_avoidance/gmm_learner/learner/directional.py:DirectionalGaussian._e_step", "nonlinear_avoidance/gmm_learner/learner/directional.py:DirectionalGaussian._m_step"]}
{"id": "C144", "title": "The human bodies hold together", "statement": "The functions that make the two- and three-dimensional humans do so without an exception, for any rotations: the limbs are attached as in a human, every limb has the orientation asked for (in two dimensions the lower arms are turned by 70 and 45 degrees), and every limb shares an interior point, the joint, with the part it is attached to. This stays true after every update, whatever poses the parts were given and whatever was measured. The two-dimensional human that the avoidance uses is a tree of the same parts, with the joints as reference points.", "quantifier": "all rotations, poses of the parts and measurements", "why_tests_cant": "the poses and measurements are continuous; the order in which the limbs are aligned matters", "anchors": ["nonlinear_avoidance/multi_body_human.py:create_2d_human", "nonlinear_avoidance/multi_body_human.py:create_2d_human_with_multibodyobstacle", "nonlinear_avoidance/multi_body_human.py:create_3d_human", "nonlinear_avoidance/multi_body_human.py:MultiBodyObstacle.update"]}
{"id": "C145", "title": "The sampled surface of a cluster is on the surface and goes all around", "statement": "In two dimensions KMeansObstacle.evaluate_surface_points(n_points) returns n_points points. Each of them is the point where the ray from the centre in one of the equally spaced directions leaves the region of the cluster; gamma is one there if no wall is transparent. The first point is the last one, and every direction is within the angle pi / (n_points - 1) of one of the points. In other dimensions NotImplementedError is raised.", "quantifier": "all sets of clusters with a positive radius and separated centres, numbers of points and directions", "why_tests_cant": "the positions of the clusters and the directions are continuous", "anchors": ["nonlinear_avoidance/kmeans_learner/kmeans_obstacle.py:KMeansObstacle.evaluate_surface_points", "nonlinear_avoidance/kmeans_learner/kmeans_obstacle.py:KMeansObstacle.get_point_on_surface"]}
{"id": "C146", "title": "Deviations learned from samples reproduce the samples", "statement": "After PerpendicularDeviatoinOfLinearDS.fit_from_velocities(X, y) on a new planar object, evaluate works everywhere. If the regression reproduces its training data, evaluate at a sample moves in the direction of the sampled velocity, as long as this velocity deviates by at most 0.49 pi from the directions along the axes to the attractor. A side of an axis without samples contributes the direction along the axis to the attractor. Learning again forgets the earlier samples. MultiOutputSVR learns its outputs one by one. predict gives the sine of the angle by which the motion deviates from the line to the attractor.", "quantifier": "all sets of samples, attractors, positions, regressions and histories of two fits", "why_tests_cant": "the samples and the regression are arbitrary; which regressor is trained with a sample and which one is consulted there is decided in different places", "anchors": ["nonlinear_avoidance/dynamics/nonlinear_deviation.py:PerpendicularDeviatoinOfLinearDS.fit_from_velocities", "nonlinear_avoidance/dynamics/nonlinear_deviation.py:PerpendicularDeviatoinOfLinearDS.evaluate", "nonlinear_avoidance/dynamics/nonlinear_deviation.py:PerpendicularDeviatoinOfLinearDS.predict", "nonlinear_avoidance/dynamics/nonlinear_deviation.py:MultiOutputSVR", "nonlinear_avoidance/dynamics/nonlinear_deviation.py:ConstantRegressor"]}
{"id": "C147", "title": "Clusters from the data: where they start and how far apart they are", "statement": "The clustering of KMeansMotionLearner by position starts, for every label of the clustering with velocities, from the point with the least sum of squared distances to the positions with this label. After a fit, compute_distances_to_neighbours gives for each cluster, in the order of the hierarchy, the distance to the next cluster on the way to the attractor (for the first one to the attractor itself); these are the distances the radius of the regions is based on, where the one to the attractor counts twice. A learner, fitted or made by from_centers, can be evaluated outside of the clusters.", "quantifier": "all data sets, labels, numbers of clusters, centres and attractors", "why_tests_cant": "unbounded number of samples and clusters; the centres are continuous", "anchors": ["nonlinear_avoidance/kmeans_learner/kmeans_motion_learner.py:KMeansMotionLearner._fit_kmeans", "nonlinear_avoidance/kmeans_learner/kmeans_motion_learner.py:KMeansMotionLearner.compute_distances_to_neighbours", "nonlinear_avoidance/kmeans_learner/kmeans_motion_learner.py:KMeansMotionLearner.from_centers", "nonlinear_avoidance/kmeans_learner/kmeans_motion_learner.py:KMeansMotionLearner.fit"]}
{"id": "C148", "title": "Gradients and rotations of the projected dynamics", "statement": "The Lyapunov gradient of ProjectedRotationDynamics is zero at the attractor and a unit vector elsewhere, and following it leads straight to the attractor. Its projected gradient is the gradient at the reference point of the obstacle. The rotation of the modulation turns a velocity to the direction of the avoided velocity, by the angle between them, and leaves every direction as it is where one of them vanishes. The projected distance value and the rotation of the shrunk position are defined around every obstacle.", "quantifier": "all positions, velocities, obstacles, avoidance functions and attractors", "why_tests_cant": "positions and velocities are continuous; the avoidance is arbitrary", "anchors": ["nonlinear_avoidance/dynamics/projected_rotation_dynamics.py:ProjectedRotationDynamics._get_lyapunov_gradient", "nonlinear_avoidance/dynamics/projected_rotation_dynamics.py:ProjectedRotationDynamics._get_projected_lyapunov_gradient", "nonlinear_avoidance/dynamics/projected_rotation_dynamics.py:ProjectedRotationDynamics._get_vector_rotation_of_modulation", "nonlinear_avoidance/dynamics/projected_rotation_dynamics.py:ProjectedRotationDynamics.get_projected_gamma", "nonlinear_avoidance/dynamics/projected_rotation_dynamics.py:ProjectedRotationDynamics.evaluate_rotation_shrunkposition_to_transform"]}
{"id": "C149", "title": "Free space, boundary points and deletion in the containers", "statement": "MultiObstacleContainer.is_in_free_space(p) is True exactly if p is in the free space of every obstacle of the container. After any history of append and extend_graph and an update of the intersections, MultiBoundaryContainer.get_convergence_boundary_point gives for a hull with a parent the point of its surface (or of the surface of the parent) in the direction of the intersection of the two; roots, hulls before the update, unknown hulls and a missing parent are refused with an exception. Deleting a hull removes it.", "quantifier": "all containers, positions, histories of append and extend_graph, hulls and intersection points", "why_tests_cant": "unbounded histories; positions and surfaces are continuous", "anchors": ["nonlinear_avoidance/multi_obstacle_container.py:MultiObstacleContainer.is_in_free_space", "nonlinear_avoidance/multiboundary_container.py:MultiBoundaryContainer.get_convergence_boundary_point", "nonlinear_avoidance/multiboundary_container.py:MultiBoundaryContainer.__delitem__"]}
{"id": "C150", "title": "Spirals advance along their direction", "statement": "SpiralingDynamics3D.create_from_direction(center, direction, radius, speed) gives dynamics that work everywhere, move with the given speed, advance along the direction at every position, and approach the cylinder with the given radius around the axis through the centre: away from the axis inside, along the cylinder on it, towards the axis outside.", "quantifier": "all centres, directions, radii, speeds and positions", "why_tests_cant": "positions, directions and centres are continuous", "anchors": ["nonlinear_avoidance/dynamics/spiral_dynamics.py:SpiralingDynamics3D.create_from_direction", "nonlinear_avoidance/dynamics/spiral_dynamics.py:SpiralingDynamics3D.evaluate"]}
{"id": "C151", "title": "Spirals towards an attractor approach it along their direction", "statement": "SpiralingAttractorDynamics3D.create_from_direction(center, direction, radius, speed) gives dynamics with the given speed that approach the plane through the centre across the direction: towards it on both sides, and within it once they are there.", "quantifier": "all centres, directions, radii, speeds and positions", "why_tests_cant": "positions, directions and centres are continuous", "anchors": ["nonlinear_avoidance/dynamics/spiral_dynamics.py:SpiralingAttractorDynamics3D.create_from_direction", "nonlinear_avoidance/dynamics/spiral_dynamics.py:SpiralingAttractorDynamics3D.evaluate"]}
{"id": "C152", "title": "A measured part is placed where it was measured", "statement": "MultiBodyObstacle.update_dynamic_obstacle(idx, measurement) places part idx such that, seen from the robot, it has the measured position and orientation and the filtered velocity, and leaves all other parts as they are. Without a robot, for a part without update number and for an unknown part it raises an exception and changes nothing.", "quantifier": "all bodies, filters, robot poses, parts and measurements", "why_tests_cant": "filters, poses and measurements are continuous", "anchors": ["nonlinear_avoidance/multi_body_human.py:MultiBodyObstacle.update_dynamic_obstacle", "nonlinear_avoidance/multi_body_human.py:MultiBodyObstacle.update_using_optitrack"]}
{"id": "C153", "title": "Intersection positions in the container of the rotational avoider", "statement": "After any history of calls, RotationContainer.get_intersection_position(i) gives the position where boundary i meets the next one, to which its convergence dynamics lead: the attractor of the dynamics passed to set_convergence_directions, or the centre of the obstacle if they have no attractor and stand still there. Obstacles without convergence dynamics and unknown obstacles are refused with an exception.", "quantifier": "all containers, histories of append, delete, replace and set_convergence_directions, and all dynamics", "why_tests_cant": "unbounded histories; centres and dynamics are continuous", "anchors": ["nonlinear_avoidance/rotation_container.py:RotationContainer.get_intersection_position", "nonlinear_avoidance/rotation_container.py:RotationContainer.set_convergence_directions"]}
{"id": "C154", "title": "Lyapunov directions of the local dynamics", "statement": "get_lyapunov_gradient_direction of the local dynamics is normalised and descends: for dynamics with an attractor it has length one (zero at the attractor), a step along it reduces the distance to the attractor by the length of the step, and no other direction comes as close; for a constant flow it is the same everywhere and makes progress along the flow.", "quantifier": "all attractors, reference velocities, positions and step lengths", "why_tests_cant": "positions, attractors and velocities are continuous", "anchors": ["nonlinear_avoidance/dynamics/nonlinear_deviation.py:DeviationOfConstantFlow.get_lyapunov_gradient_direction", "nonlinear_avoidance/dynamics/nonlinear_deviation.py:DeviationOfLinearDS.get_lyapunov_gradient_direction", "nonlinear_avoidance/dynamics/nonlinear_deviation.py:PerpendicularDeviatoinOfLinearDS.get_lyapunov_gradient_direction"]}

{
 "claims": [
  {
   "property": "C01",
   "status": "proved",
   "theorems": [
    "Verif.C01_rotate_norm",
    "Verif.C01_rotate_inner",
    "Verif.C01_rotate_zero"
   ],
   "note": "Length, dot products, angles and zero for every orthonormal base."
  },
  {
   "property": "C02",
   "status": "proved",
   "theorems": [
    "Verif.C02_inverse"
   ],
   "note": ""
  },
  {
   "property": "C03",
   "status": "proved",
   "theorems": [
    "Verif.C03_rotate_add",
    "Verif.C03_rotate_parts"
   ],
   "note": ""
  },
  {
   "property": "C04",
   "status": "proved",
   "theorems": [
    "Verif.C04_rotate_isPlaneRotation"
   ],
   "note": ""
  },
  {
   "property": "C05",
   "status": "proved",
   "theorems": [
    "Verif.C05_from_directions_valid",
    "Verif.C05_from_directions_defined_iff"
   ],
   "note": "Exactly-opposite rejection uses d <= 10^15 (above that the allclose tolerance could hide opposition)."
  },
  {
   "property": "C06",
   "status": "proved",
   "theorems": [
    "Verif.C06_maps_first_to_second",
    "Verif.C06_error_within_tolerance",
    "Verif.C06_inexact_within_tolerance"
   ],
   "note": "Exact outside the tolerance; inside, the 2x bound is proved and a witness shows it is not exact."
  },
  {
   "property": "C07",
   "status": "proved",
   "theorems": [
    "Verif.C07_partial_rotation_angles",
    "Verif.C07_slerp"
   ],
   "note": ""
  },
  {
   "property": "C08",
   "status": "proved",
   "theorems": [
    "Verif.C08_addition_zero",
    "Verif.C08_addition_norm",
    "Verif.C08_addition_endpoints",
    "Verif.C08_addition_symmetric"
   ],
   "note": ""
  },
  {
   "property": "C09",
   "status": "proved",
   "theorems": [
    "Verif.C09_rotateArray",
    "Verif.C09_rotateArray_unit",
    "Verif.C09_rotateArray_zero",
    "Verif.C09_rotateArray_drops_length"
   ],
   "note": ""
  },
  {
   "property": "C10",
   "status": "proved",
   "theorems": [
    "Verif.C10_accepts_iff",
    "Verif.C10_rejects",
    "Verif.C10_rotations"
   ],
   "note": ""
  },
  {
   "property": "C11",
   "status": "proved",
   "theorems": [
    "Verif.C11_step_ends_at_next",
    "Verif.C11_connected",
    "Verif.C11_end_vector",
    "Verif.C11_rotate_first"
   ],
   "note": ""
  },
  {
   "property": "C12",
   "status": "proved",
   "theorems": [
    "Verif.C12_one_hot",
    "Verif.C12_isometry",
    "Verif.C12_zero_weights",
    "Verif.C12_wrong_length"
   ],
   "note": "Also: wrong weight counts raise for sequences of three or more rotations."
  },
  {
   "property": "C13",
   "status": "partial",
   "theorems": [
    "Verif.C13_neighbouring_weights_partial",
    "Verif.C13_spec_connected",
    "Verif.C13_not_connected"
   ],
   "note": "Violated by the code: C13_not_connected is a witness (line 365 has the wrong sign). Proved: the specification is connected, and the code follows the path when the weight sits on two neighbours."
  },
  {
   "property": "C14",
   "status": "partial",
   "theorems": [
    "Verif.C14_history",
    "Verif.C14_append_from_direction",
    "Verif.C14_append_from_direction_continuous_iff_partial",
    "Verif.C14_append_from_direction_discontinuous"
   ],
   "note": "History of append/push and the end vector proved; \"the appended rotation starts where the sequence ended\" holds iff the last angle is pi/2, with a counterexample otherwise."
  },
  {
   "property": "C15",
   "status": "partial",
   "theorems": [
    "Verif.C15_rotate_sequence",
    "Verif.C15_rotate_vector_rotation_partial",
    "Verif.C15_rotate_vector_rotation_wrong"
   ],
   "note": "rotate_sequence proved; rotate_vector_rotation is wrong unless both bases agree (witness)."
  },
  {
   "property": "C16",
   "status": "proved",
   "theorems": [
    "Verif.C16_own_sequence",
    "Verif.C16_none_iff",
    "Verif.C16_error_iff",
    "Verif.C16_rotation"
   ],
   "note": ""
  },
  {
   "property": "C17",
   "status": "proved",
   "theorems": [
    "Verif.C17_set_root_iff",
    "Verif.C17_set_root",
    "Verif.C17_add_node",
    "Verif.C17_history",
    "Verif.C17_add_node_ok_iff",
    "Verif.C17_add_node_effect"
   ],
   "note": ""
  },
  {
   "property": "C18",
   "status": "partial",
   "theorems": [
    "Verif.C18_rejected_unchanged_partial",
    "Verif.C18_existing_parent_partial",
    "Verif.C18_missing_parent",
    "Verif.C18_level_limit",
    "Verif.C18_child"
   ],
   "note": "Violated by the code: after KeyError for a missing parent the node and the parent stay in the graph (C18_missing_parent), likewise after ValueError for the level limit (C18_level_limit) and after TypeError for child_id (C18_child). Every other rejection leaves the tree unchanged."
  },
  {
   "property": "C19",
   "status": "proved",
   "theorems": [
    "Verif.C19_descendants",
    "Verif.C19_root_descendants"
   ],
   "note": ""
  },
  {
   "property": "C20",
   "status": "proved",
   "theorems": [
    "Verif.C20_branch_weights",
    "Verif.C20_root_total",
    "Verif.C20_given"
   ],
   "note": ""
  },
  {
   "property": "C21",
   "status": "proved",
   "theorems": [
    "Verif.C21_near",
    "Verif.C21_defined",
    "Verif.C21_tolerance",
    "Verif.C21_full_weight",
    "Verif.C21_one_hot"
   ],
   "note": "Within the allclose tolerance the stored direction is only approximately returned (C21_near, C21_tolerance)."
  },
  {
   "property": "C22",
   "status": "proved",
   "theorems": [
    "Verif.C22_unit",
    "Verif.C22_unit_convex"
   ],
   "note": "Weights of each branch below the root at most one (hypothesis of the restated property)."
  },
  {
   "property": "C23",
   "status": "proved",
   "theorems": [
    "Verif.C23_no_influence"
   ],
   "note": ""
  },
  {
   "property": "C24",
   "status": "proved",
   "theorems": [
    "Verif.C24_tangent_mean",
    "Verif.C24_deviation_bound",
    "Verif.C24_cone"
   ],
   "note": ""
  },
  {
   "property": "C25",
   "status": "proved",
   "theorems": [
    "Verif.C25_length",
    "Verif.C25_unknown_node",
    "Verif.C25_all_zero",
    "Verif.C25_all_zero_error",
    "Verif.C25_opposite"
   ],
   "note": ""
  },
  {
   "property": "C26",
   "status": "proved",
   "theorems": [
    "Verif.C26_from_empty",
    "Verif.C26_add_sequence_rejects_iff",
    "Verif.C26_add_sequence_effect",
    "Verif.C26_round_trip",
    "Verif.C26_too_long"
   ],
   "note": ""
  },
  {
   "property": "C27",
   "status": "partial",
   "theorems": [
    "Verif.C27_connected_up_to_repetition_partial",
    "Verif.C27_connected_partial",
    "Verif.C27_repeated_rotation"
   ],
   "note": "Violated by the code: weight on an inner node repeats the last rotation (C27_repeated_rotation). Proved: connected up to that repetition, and fully connected when the deepest weighted nodes are leaves."
  },
  {
   "property": "C28",
   "status": "partial",
   "theorems": [
    "Verif.C28_in_unit",
    "Verif.C28_unchanged",
    "Verif.C28_sum_partial",
    "Verif.C28_sum_saturated",
    "Verif.C28_sum_exceeds_total",
    "Verif.C28_zero",
    "Verif.C28_order"
   ],
   "note": "Violated by the code for two or more saturated weights: C28_sum_saturated and the witness C28_sum_exceeds_total."
  },
  {
   "property": "C29",
   "status": "proved",
   "theorems": [
    "Verif.C29_sub_probability",
    "Verif.C29_critical",
    "Verif.C29_order"
   ],
   "note": ""
  },
  {
   "property": "C30",
   "status": "proved",
   "theorems": [
    "Verif.C30_sub_probability",
    "Verif.C30_critical",
    "Verif.C30_order",
    "Verif.C30_unbounded"
   ],
   "note": ""
  },
  {
   "property": "C31",
   "status": "proved",
   "theorems": [
    "Verif.C31_range",
    "Verif.C31_continuous_monotone"
   ],
   "note": ""
  },
  {
   "property": "C32",
   "status": "partial",
   "theorems": [
    "Verif.C32_range_partial",
    "Verif.C32_positive",
    "Verif.C32_aligned_zero"
   ],
   "note": "Range [0,1] for every input; positivity fails exactly in the aligned case (C32_aligned_zero), otherwise C32_positive."
  },
  {
   "property": "C33",
   "status": "proved",
   "theorems": [
    "Verif.C33_without_singularity",
    "Verif.C33_projected"
   ],
   "note": ""
  },
  {
   "property": "C34",
   "status": "proved",
   "theorems": [
    "Verif.C34_importance",
    "Verif.C34_shares"
   ],
   "note": ""
  },
  {
   "property": "C35",
   "status": "proved",
   "theorems": [
    "Verif.C35_scaling_range",
    "Verif.C35_scaling_cases",
    "Verif.C35_magnitude",
    "Verif.C35_magnitude_cases"
   ],
   "note": ""
  },
  {
   "property": "C36",
   "status": "proved",
   "theorems": [
    "Verif.C36_slowfactor",
    "Verif.C36_empty"
   ],
   "note": ""
  },
  {
   "property": "C37",
   "status": "proved",
   "theorems": [
    "Verif.C37_constructor",
    "Verif.C37_radii",
    "Verif.C37_deep_inside",
    "Verif.C37_joins"
   ],
   "note": ""
  },
  {
   "property": "C38",
   "status": "proved",
   "theorems": [
    "Verif.C38_parent_occlusion",
    "Verif.C38_occlusion_array",
    "Verif.C38_occlusion_array_empty",
    "Verif.C38_occlusion_weights",
    "Verif.C38_occlusion_weights_empty",
    "Verif.C38_default_ignores_occlusion"
   ],
   "note": "Also proved: the default max_gamma acts as a floor and removes all differences (C38_default_ignores_occlusion)."
  },
  {
   "property": "C39",
   "status": "partial",
   "theorems": [
    "Verif.C39_no_obstacles_partial",
    "Verif.C39_opposite_raises"
   ],
   "note": "Exact when the direction of the dynamics and the reference direction are not opposite; the opposite case raises (C39 theorems)."
  },
  {
   "property": "C40",
   "status": "proved",
   "theorems": [
    "Verif.C40_rest",
    "Verif.C40_near_rest_raises"
   ],
   "note": ""
  },
  {
   "property": "C41",
   "status": "partial",
   "theorems": [
    "Verif.C41_speed_partial",
    "Verif.C41_unit_speed",
    "Verif.C41_contacts_partial",
    "Verif.C41_singles_partial",
    "Verif.C41_exceeds",
    "Verif.C41_regions_partial"
   ],
   "note": "Violated by the code: C41_exceeds is a witness (a retreating agent far from the obstacle gets speed one). Proved: the bound when at least one obstacle has influence, with at most two obstacles in contact or a single-component obstacle in contact (C41_contacts_partial), any number of contacts for single components (C41_singles_partial), and speed one otherwise."
  },
  {
   "property": "C42",
   "status": "partial",
   "theorems": [
    "Verif.C42_convex_partial",
    "Verif.C42_sum",
    "Verif.C42_two_contacts"
   ],
   "note": "Violated with two contacts: C42_two_contacts (the remaining weight becomes 1 - m). Proved: convex with at most one contact."
  },
  {
   "property": "C43",
   "status": "partial",
   "theorems": [
    "Verif.C43_consistent_partial",
    "Verif.C43_parent_lists_child",
    "Verif.C43_second_parent",
    "Verif.C43_unknown_in_set_parent",
    "Verif.C43_unknown_parent",
    "Verif.C43_own_parent",
    "Verif.C43_roots",
    "Verif.C43_no_cycles",
    "Verif.C43_delete"
   ],
   "note": "Holds when a value gets at most one parent and elements are known; negative results: C43_second_parent, C43_unknown_parent."
  },
  {
   "property": "C44",
   "status": "proved",
   "theorems": [
    "Verif.C44_tree",
    "Verif.C44_unknown_parent",
    "Verif.C44_own_parent",
    "Verif.C44_second_root"
   ],
   "note": "Including the failing calls."
  },
  {
   "property": "C45",
   "status": "proved",
   "theorems": [
    "Verif.C45_composite",
    "Verif.C45_empty",
    "Verif.C45_container",
    "Verif.C45_except",
    "Verif.C45_boundaries"
   ],
   "note": ""
  },
  {
   "property": "C46",
   "status": "partial",
   "theorems": [
    "Verif.C46_root_partial",
    "Verif.C46_root_zero",
    "Verif.C46_parent_partial",
    "Verif.C46_parent_zero",
    "Verif.C46_fresh",
    "Verif.C46_count",
    "Verif.C46_set_root",
    "Verif.C46_unknown_root"
   ],
   "note": "Violated by the code for number 0 (truth value of 0): C46_root_zero, C46_parent_zero."
  },
  {
   "property": "C47",
   "status": "partial",
   "theorems": [
    "Verif.C47_consistent_partial",
    "Verif.C47_calls_succeed",
    "Verif.C47_levels_partial",
    "Verif.C47_root_partial",
    "Verif.C47_append",
    "Verif.C47_first_attached",
    "Verif.C47_reparented"
   ],
   "note": "Violated by the code for append(parent=-1) on an empty container (get_level_numbers never ends, C47_first_attached) and for re-attached obstacles (C47_reparented). Proved for all histories avoiding these."
  },
  {
   "property": "C48",
   "status": "proved",
   "theorems": [
    "Verif.C48_aligned",
    "Verif.C48_measured",
    "Verif.C48_calls_succeed",
    "Verif.C48_no_root",
    "Verif.C48_measured_fails"
   ],
   "note": ""
  },
  {
   "property": "C49",
   "status": "proved",
   "theorems": [
    "Verif.C49_centre",
    "Verif.C49_shrinks",
    "Verif.C49_grows",
    "Verif.C49_round_trip",
    "Verif.C49_round_trip_inflated",
    "Verif.C49_inflated_centre"
   ],
   "note": ""
  },
  {
   "property": "C50",
   "status": "proved",
   "theorems": [
    "Verif.C50_wavy_speed",
    "Verif.C50_wavy_deviation",
    "Verif.C50_wavy_converges",
    "Verif.C50_wavy_default",
    "Verif.C50_spiral_speed"
   ],
   "note": "LinearSystem is external: any function for the speed and deviation, a positive multiple of the vector to the attractor for convergence."
  },
  {
   "property": "C51",
   "status": "proved",
   "theorems": [
    "Verif.C51_sense",
    "Verif.C51_attracted",
    "Verif.C51_plane",
    "Verif.C51_speed",
    "Verif.C51_stationary",
    "Verif.C51_weight",
    "Verif.C51_rotation",
    "Verif.C51_rotation_origin"
   ],
   "note": ""
  },
  {
   "property": "C52",
   "status": "proved",
   "theorems": [
    "Verif.C52_range",
    "Verif.C52_sum",
    "Verif.C52_on_segment",
    "Verif.C52_sum_on",
    "Verif.C52_closer"
   ],
   "note": "Proved for positions on at most one segment; where several segments meet the weights sum to their number (C52_sum_on)."
  },
  {
   "property": "C53",
   "status": "proved",
   "theorems": [
    "Verif.C53_range",
    "Verif.C53_sum",
    "Verif.C53_influence",
    "Verif.C53_is_inside",
    "Verif.C53_wall",
    "Verif.C53_boundary_weight"
   ],
   "note": "The outer gamma is assumed non-negative for the intersection weight (obstacle API)."
  },
  {
   "property": "C54",
   "status": "partial",
   "theorems": [
    "Verif.KMeans.C54_weights",
    "Verif.KMeans.C54_total",
    "Verif.KMeans.C54_child",
    "Verif.KMeans.C54_own_partial"
   ],
   "note": "Violated by the code in one point: the second cluster is not the parent but the child (C54_child). Range, total and the own cluster proved."
  },
  {
   "property": "C55",
   "status": "partial",
   "theorems": [
    "Verif.KMeans.C55_chain_partial",
    "Verif.KMeans.C55_fit_succeeds",
    "Verif.KMeans.C55_fit_errors",
    "Verif.KMeans.C55_refit",
    "Verif.KMeans.C55_any_fit",
    "Verif.KMeans.C55_same_order"
   ],
   "note": "The chain is proved for a first fit and for later fits that find the same order (C55_same_order). For any other history every fit sets the levels to the new order and adds its parents, but keeps all the parents of earlier fits, because the graph is not emptied (C55_any_fit): violated by the code for a second fit with another order (C55_refit)."
  },
  {
   "property": "C56",
   "status": "partial",
   "theorems": [
    "Verif.GmmGraph.C56_tree_partial",
    "Verif.GmmGraph.C56_empty",
    "Verif.GmmGraph.C56_debugger",
    "Verif.GmmGraph.C56_wrong_order"
   ],
   "note": "np.argsort enters through its specification. Proved up to 100 Gaussians; violated by the code beyond (C56_debugger) and in the order of attachment (C56_wrong_order)."
  },
  {
   "property": "C57",
   "status": "partial",
   "theorems": [
    "Verif.Gmm.C57_inside",
    "Verif.Gmm.C57_factor",
    "Verif.Gmm.C57_outside_partial",
    "Verif.Gmm.C57_concentric"
   ],
   "note": "Proved for reference points that differ from the position and the mean of the parent; violated by the code (nan) for concentric Gaussians (C57_concentric)."
  },
  {
   "property": "C58",
   "status": "proved",
   "theorems": [
    "Verif.C58_ray",
    "Verif.C58_basis",
    "Verif.C58_line"
   ],
   "note": "In dimension one get_orthonormal_spanning_basis raises IndexError (C58_line): there is no second orthonormal vector."
  },
  {
   "property": "C59",
   "status": "partial",
   "theorems": [
    "Verif.C59_factor",
    "Verif.C59_stops_partial",
    "Verif.C59_not_stopped"
   ],
   "note": "Violated by the code when two obstacles are opposed equally: C59_not_stopped is the witness."
  },
  {
   "property": "C60",
   "status": "proved",
   "theorems": [
    "Verif.C60_static",
    "Verif.C60_weighted_sum",
    "Verif.C60_contact",
    "Verif.C60_contact_drift",
    "Verif.C60_rotating_raises",
    "Verif.C60_rotating_3d_raises"
   ],
   "note": "In three and more dimensions a rotating obstacle in contact makes the call raise (C60_rotating_raises, C60_rotating_3d_raises)."
  },
  {
   "property": "C61",
   "status": "partial",
   "theorems": [
    "Verif.C61_no_penetration_partial",
    "Verif.C61_moving_partial",
    "Verif.C61_inside_partial",
    "Verif.C61_moving_inside_partial",
    "Verif.C61_surface_partial",
    "Verif.C61_moving_surface_partial",
    "Verif.C61_space_partial",
    "Verif.C61_space_inside_partial",
    "Verif.C61_shadowed",
    "Verif.C61_rest_overrun",
    "Verif.C61_two_contacts"
   ],
   "note": "No hypothesis on the directions of the tangent tree: the theorems hold whenever the evaluation returns. Moving obstacles: in the plane with rotation, in space without (a rotating obstacle in contact makes the evaluation raise). On the surface of any component, root or not, no hypothesis on shadows is left (C61_surface_partial, C61_moving_surface_partial, C61_space_partial; the contract of the external intersection is OnSurface and, for components with a parent, NearFirst). Violated by the code at rest of the initial dynamics: zero is returned even if the obstacle in contact moves into the position (C61_rest_overrun). In contact with two obstacles the guarantee does not hold at all: two static discs in contact and a direction between them, the result points into both (C61_two_contacts). Inside of a component the guarantee holds for the root and for components attached to their parent, that is, with the reference point inside of the convex parent (AttachedTo; C61_inside_partial, C61_moving_inside_partial, C61_space_inside_partial). Violated inside of a component whose reference point is outside of its parent: the parent hides the component and the result moves with the full speed further into it (C61_shadowed)."
  },
  {
   "property": "C62",
   "status": "proved",
   "theorems": [
    "Verif.C62_attractor_inside"
   ],
   "note": ""
  },
  {
   "property": "C63",
   "status": "proved",
   "theorems": [
    "Verif.C63_placed",
    "Verif.C63_rigid",
    "Verif.C63_return",
    "Verif.C63_deformation"
   ],
   "note": ""
  },
  {
   "property": "C64",
   "status": "partial",
   "theorems": [
    "Verif.C64_reference_partial",
    "Verif.C64_mixed_frames"
   ],
   "note": "Violated by the code: the intersection of a local and a global frame (C64_mixed_frames). Proved when the frames agree."
  },
  {
   "property": "C65",
   "status": "partial",
   "theorems": [
    "Verif.C65_unknown_parent_partial",
    "Verif.C65_changed"
   ],
   "note": "Violated by the code: the obstacle stays in the list and shifts all later numbers (C65_changed)."
  },
  {
   "property": "C66",
   "status": "partial",
   "theorems": [
    "Verif.C66_below_partial",
    "Verif.C66_special",
    "Verif.C66_above",
    "Verif.C66_exactly_below",
    "Verif.C66_rigid"
   ],
   "note": "Violated by the code for limbs above the attachment point (C66_above, mirrored) and exactly below it (C66_exactly_below); the result is computed in every case."
  },
  {
   "property": "C67",
   "status": "partial",
   "theorems": [
    "Verif.C67_same_polar",
    "Verif.C67_round_trip_partial",
    "Verif.C67_centre_fixed",
    "Verif.C67_argument_overwritten",
    "Verif.C67_sides_merge"
   ],
   "note": "Missing from the full statement: positions within the tolerance of from_directions (a folded direction almost aligned with the obstacle), where only distance and angle are kept (C67_same_polar); there the round trip is indeed false: two positions on opposite sides of the attractor give the same one (C67_sides_merge). Also: unfolding overwrites the array of the caller (C67_argument_overwritten)."
  },
  {
   "property": "C68",
   "status": "proved",
   "theorems": [
    "Verif.C68_unchanged",
    "Verif.C68_attractor_on_surface",
    "Verif.C68_outside",
    "Verif.C68_weight"
   ],
   "note": "StarGeometry states the external obstacle API (gamma and radius agree). \"Outside\" holds up to the 1e10 cap of the inflation."
  },
  {
   "property": "C69",
   "status": "proved",
   "theorems": [
    "Verif.C69_outcomes",
    "Verif.C69_rotation",
    "Verif.C69_to_obstacle",
    "Verif.C69_base_convergence"
   ],
   "note": ""
  },
  {
   "property": "C70",
   "status": "proved",
   "theorems": [
    "Verif.C70_initial",
    "Verif.C70_sequence",
    "Verif.C70_speed",
    "Verif.C70_contact",
    "Verif.C70_compute_fails"
   ],
   "note": "compute_obstacle_convergence_sequence can never return (C70_compute_fails). get_directional_weighted_sum (external) enters through its contract."
  },
  {
   "property": "C71",
   "status": "partial",
   "theorems": [
    "Verif.C71_speed_limit_partial",
    "Verif.C71_exceeds"
   ],
   "note": "Violated by the code for limits below one: C71_exceeds."
  },
  {
   "property": "C72",
   "status": "partial",
   "theorems": [
    "Verif.C72_circular_moves_with_frame_partial",
    "Verif.C72_rotation_ignores_pose",
    "Verif.C72_spiral_not_translation_invariant",
    "Verif.C72_spiral_attractor_not_stationary"
   ],
   "note": "Proved for SimpleCircularDynamics; violated by the other three: the pose is ignored (C72_rotation_ignores_pose), a velocity is transformed as a position (C72_spiral_not_translation_invariant), full speed at the attractor (C72_spiral_attractor_not_stationary)."
  },
  {
   "property": "C73",
   "status": "partial",
   "theorems": [
    "Verif.C73_weight",
    "Verif.C73_update",
    "Verif.C73_stops"
   ],
   "note": "Weight and displacement proved; violated: every call that moves the base stops at a breakpoint() (C73_stops)."
  },
  {
   "property": "C74",
   "status": "proved",
   "theorems": [
    "Verif.C74_create",
    "Verif.C74_distance",
    "Verif.C74_distance_zero",
    "Verif.C74_evaluate"
   ],
   "note": ""
  },
  {
   "property": "C75",
   "status": "partial",
   "theorems": [
    "Verif.C75_between",
    "Verif.C75_backwards",
    "Verif.C75_equal_fails",
    "Verif.C75_path_partial",
    "Verif.C75_too_few"
   ],
   "note": "Violated by the code: neighbours closer than twice the margin (default 1) give a segment in the opposite direction (C75_backwards). Proved for larger distances."
  },
  {
   "property": "C76",
   "status": "partial",
   "theorems": [
    "Verif.C76_magnitude",
    "Verif.C76_speed_partial",
    "Verif.C76_on_segment",
    "Verif.C76_attractor",
    "Verif.C76_too_long",
    "Verif.C76_reversal",
    "Verif.C76_beyond"
   ],
   "note": "Missing: positions where neighbouring directions are within the tolerance without being equal. Violated by the code: breakpoint everywhere for a path which turns back (C76_reversal) and, for every path, straight beyond its end (C76_beyond), the number 0.0 instead of a vector at the attractor (C76_attractor), ValueError for 99 segments or more (C76_too_long)."
  },
  {
   "property": "C77",
   "status": "partial",
   "theorems": [
    "Verif.C77_set",
    "Verif.C77_get",
    "Verif.C77_history",
    "Verif.C77_wall_first",
    "Verif.C77_container",
    "Verif.C77_container_stale"
   ],
   "note": "Violated by the code in the wall (C77_wall_first: always the first inner obstacle) and for the container (C77_container_stale). Proved: everything else, for all histories."
  },
  {
   "property": "C78",
   "status": "partial",
   "theorems": [
    "Verif.C78_assign_partial",
    "Verif.C78_found",
    "Verif.C78_two_elements",
    "Verif.C78_from_outside"
   ],
   "note": "Shortest paths are external (networkx). Violated by the code: TypeError when the attractor is in two elements (C78_two_elements); from the outside the target is always the first inner obstacle (C78_from_outside)."
  },
  {
   "property": "C79",
   "status": "partial",
   "theorems": [
    "Verif.C79_wall",
    "Verif.C79_speed",
    "Verif.C79_tangent",
    "Verif.C79_surface",
    "Verif.C79_frame",
    "Verif.C79_wrong_frame"
   ],
   "note": "Violated by the code: speed one up to the attractor (C79_speed), wrong frame (C79_frame, C79_wrong_frame). get_directional_weighted_sum enters through its contract."
  },
  {
   "property": "C80",
   "status": "partial",
   "theorems": [
    "Verif.KMeans.C80_transparent_front",
    "Verif.KMeans.C80_surface",
    "Verif.KMeans.C80_frames",
    "Verif.KMeans.C80_argument_overwritten",
    "Verif.KMeans.C80_gamma_inside",
    "Verif.KMeans.C80_gamma_outside",
    "Verif.KMeans.C80_gamma_surface",
    "Verif.KMeans.C80_sign",
    "Verif.KMeans.C80_gamma_frames",
    "Verif.KMeans.C80_transparent_blocked",
    "Verif.KMeans.C80_transparent_open",
    "Verif.KMeans.C80_transparent_surface",
    "Verif.KMeans.C80_is_inside_partial",
    "Verif.KMeans.C80_surface_inside",
    "Verif.KMeans.C80_obstacle_none",
    "Verif.KMeans.C80_gamma_without_transition",
    "Verif.KMeans.C80_without_transition_frames"
   ],
   "note": "Violated by the code: the array of the caller is overwritten (C80_argument_overwritten), is_inside looks at the wrong cluster on the border (C80_surface_inside), None for an ordinary obstacle (C80_obstacle_none)."
  },
  {
   "property": "C81",
   "status": "proved",
   "theorems": [
    "Verif.KMeans.C81_radius"
   ],
   "note": ""
  },
  {
   "property": "C82",
   "status": "partial",
   "theorems": [
    "Verif.KMeans.C82_data",
    "Verif.KMeans.C82_none",
    "Verif.KMeans.C82_last_partial",
    "Verif.KMeans.C82_wrong_label",
    "Verif.KMeans.C82_missing_label"
   ],
   "note": "Violated by the code unless only the last cluster is sparse: C82_wrong_label, C82_missing_label."
  },
  {
   "property": "C83",
   "status": "partial",
   "theorems": [
    "Verif.KMeans.C83_far",
    "Verif.KMeans.C83_clusters_nonneg",
    "Verif.KMeans.C83_weights"
   ],
   "note": "Violated by the code: the weight of the outside dynamics is never positive and the total is usually 1/10 (C83_weights)."
  },
  {
   "property": "C84",
   "status": "partial",
   "theorems": [
    "Verif.C84_ends",
    "Verif.C84_too_few",
    "Verif.C84_order",
    "Verif.C84_moves",
    "Verif.C84_diverges"
   ],
   "note": "Violated by the code: with the default factors the loop can leave the common interior (C84_diverges)."
  },
  {
   "property": "C85",
   "status": "partial",
   "theorems": [
    "Verif.Gmm.C85_homogeneous",
    "Verif.Gmm.C85_project_partial",
    "Verif.Gmm.C85_gamma_side",
    "Verif.Gmm.C85_frames",
    "Verif.Gmm.C85_unit_norm",
    "Verif.Gmm.C85_reference",
    "Verif.Gmm.C85_normal_partial",
    "Verif.Gmm.C85_not_covariance",
    "Verif.Gmm.C85_nan",
    "Verif.Gmm.C85_center"
   ],
   "note": "Violated by the code: the Cholesky factor is used in place of the precision (C85_not_covariance, C85_nan), no normal at the centre (C85_center). The rest is proved where gamma is positive."
  },
  {
   "property": "C86",
   "status": "partial",
   "theorems": [
    "Verif.Gmm.C86_tree_partial",
    "Verif.Gmm.C86_root_exists",
    "Verif.Gmm.C86_root_is_dimension",
    "Verif.Gmm.C86_not_closest",
    "Verif.Gmm.C86_index_error"
   ],
   "note": "Tree proved whenever the root index exists. Violated by the code: the root index is the index of a dimension (C86_root_is_dimension, C86_not_closest, C86_index_error)."
  },
  {
   "property": "C87",
   "status": "partial",
   "theorems": [
    "Verif.Gmm.C87_not_guided",
    "Verif.Gmm.C87_away_stopped",
    "Verif.Gmm.C87_tangent"
   ],
   "note": "Violated by the code: velocities towards the kernel are never changed (C87_not_guided), fast ones away from it lose their normal part (C87_away_stopped, C87_tangent)."
  },
  {
   "property": "C88",
   "status": "partial",
   "theorems": [
    "Verif.Gmm.C88_single_partial",
    "Verif.Gmm.C88_circles",
    "Verif.Gmm.C88_unit"
   ],
   "note": "Proved when normal and reference differ by less than a right angle; violated by the code when they agree (C88_circles: nan)."
  },
  {
   "property": "C89",
   "status": "partial",
   "theorems": [
    "Verif.LocalDynamics.C89_zero_reference",
    "Verif.LocalDynamics.C89_speed",
    "Verif.LocalDynamics.C89_far",
    "Verif.LocalDynamics.C89_deviation_partial",
    "Verif.LocalDynamics.C89_inside_partial",
    "Verif.LocalDynamics.C89_center",
    "Verif.LocalDynamics.C89_perpendicular",
    "Verif.LocalDynamics.C89_obstacle_at_attractor",
    "Verif.LocalDynamics.C89_opposite"
   ],
   "note": "Violated by the code: positions perpendicular to the line are not rotated at all (C89_perpendicular), AttributeError if the attractor is in the centre (C89_obstacle_at_attractor), nan for an opposite reference velocity (C89_opposite). The rest is proved for non-opposite references."
  },
  {
   "property": "C90",
   "status": "partial",
   "theorems": [
    "Verif.LocalDynamics.C90_speed",
    "Verif.LocalDynamics.C90_no_obstacles",
    "Verif.LocalDynamics.C90_weights_outside",
    "Verif.LocalDynamics.C90_no_update",
    "Verif.LocalDynamics.C90_weights_inside",
    "Verif.LocalDynamics.C90_far"
   ],
   "note": "Speed, empty case and weights outside proved. Violated by the code: UnboundLocalError with stored centre dynamics (C90_no_update), the containing obstacle has the smaller weight (C90_weights_inside), the linear instead of the initial dynamics far away (C90_far)."
  },
  {
   "property": "C91",
   "status": "partial",
   "theorems": [
    "Verif.LocalDynamics.C91_clamp",
    "Verif.LocalDynamics.C91_constant_flow",
    "Verif.LocalDynamics.C91_fit_checks",
    "Verif.LocalDynamics.C91_axis_weights",
    "Verif.LocalDynamics.C91_speed",
    "Verif.LocalDynamics.C91_convergence_speed",
    "Verif.LocalDynamics.C91_fit_dimension",
    "Verif.LocalDynamics.C91_diverges"
   ],
   "note": "get_angle_space_inverse and the directional mean enter through their contracts. Violated by the code: the mean of limited deviations can lead away from the attractor (C91_diverges), IndexError outside of the plane (C91_fit_dimension), unlimited convergence velocity (C91_convergence_speed)."
  },
  {
   "property": "C92",
   "status": "partial",
   "theorems": [
    "Verif.C92_deviation",
    "Verif.C92_deviation_jump",
    "Verif.C92_inverted",
    "Verif.C92_continuation",
    "Verif.C92_continuation_decreases",
    "Verif.C92_gamma",
    "Verif.C92_convergence",
    "Verif.C92_convergence_negative"
   ],
   "note": "Violated by the code: the deviation weight jumps to one at a deviation of one (C92_deviation_jump). For a negative gamma the convergence weight is negative (C92_convergence_negative)."
  },
  {
   "property": "C93",
   "status": "partial",
   "theorems": [
    "Verif.Rotational.C93_fallback",
    "Verif.Rotational.C93_velocity",
    "Verif.Rotational.C93_no_environment",
    "Verif.Rotational.C93_speed",
    "Verif.Rotational.C93_no_slow_down",
    "Verif.Rotational.C93_full_speed",
    "Verif.Rotational.C93_contact_partial",
    "Verif.Rotational.C93_slide_partial",
    "Verif.Rotational.C93_ignores_obstacle",
    "Verif.Rotational.C93_enters"
   ],
   "note": "Angle space, importance weights and directional mean enter through their contracts (SaneAngles); one obstacle in contact, admissible directions. Violated by the code: exchanged arguments switch the avoidance off if the convergence direction leaves the obstacle (C93_ignores_obstacle, C93_enters); without sticky surface the slow-down is undone (C93_no_slow_down)."
  },
  {
   "property": "C94",
   "status": "partial",
   "theorems": [
    "Verif.Rotational.C94_custom_radius_ignored",
    "Verif.Rotational.C94_first_convergence",
    "Verif.Rotational.C94_arguments_persist",
    "Verif.Rotational.C94_unchanged_partial"
   ],
   "note": "Violated by the code: obstacle list and radius are stored for later calls (C94_arguments_persist), custom radii are ignored up to the side of a right angle (C94_custom_radius_ignored), the local convergence direction of the first close obstacle is used for all (C94_first_convergence)."
  },
  {
   "property": "C95",
   "status": "partial",
   "theorems": [
    "Verif.Rotational.C95_no_obstacles",
    "Verif.Rotational.C95_unit",
    "Verif.Rotational.C95_contact_partial",
    "Verif.Rotational.C95_no_weight",
    "Verif.Rotational.C95_head_on",
    "Verif.Rotational.C95_initial_ignored",
    "Verif.Rotational.C95_total"
   ],
   "note": "Angle space and importance weights enter through their contracts (SaneAngles); admissible directions; one obstacle in contact. Negative result: head-on the obstacle is ignored right up to its surface (C95_head_on)."
  },
  {
   "property": "C96",
   "status": "partial",
   "theorems": [
    "Verif.Nonlinear.C96_convergence",
    "Verif.Nonlinear.C96_convergence_extremes",
    "Verif.Nonlinear.C96_mismatch",
    "Verif.Nonlinear.C96_without_singularity",
    "Verif.Nonlinear.C96_rest",
    "Verif.Nonlinear.C96_speed",
    "Verif.Nonlinear.C96_contact_partial",
    "Verif.Nonlinear.C96_undisturbed",
    "Verif.Nonlinear.C96_total",
    "Verif.Nonlinear.C96_evaluate_far",
    "Verif.Nonlinear.C96_evaluate_speed",
    "Verif.Nonlinear.C96_evaluate_contact_partial",
    "Verif.Nonlinear.C96_overrun",
    "Verif.Nonlinear.C96_wrong_obstacle",
    "Verif.Nonlinear.C96_single"
   ],
   "note": "Angle space and importance weights enter through their contracts (SaneAngles); admissible directions; one obstacle in contact. Violated by the code: ValueError if the sequences do not start alike, which is the case for every dynamics with attractor (C96_mismatch, C96_without_singularity), the direction is taken from the wrong obstacle (C96_wrong_obstacle), moving obstacles overrun the position (C96_overrun). avoid always raises AttributeError."
  },
  {
   "property": "C97",
   "status": "partial",
   "theorems": [
    "Verif.Arch.C97_shape",
    "Verif.Arch.C97_block_shape",
    "Verif.Arch.C97_tree",
    "Verif.Arch.C97_reference",
    "Verif.Arch.C97_block_reference",
    "Verif.Arch.C97_except",
    "Verif.Arch.C97_block_stays",
    "Verif.Arch.C97_block_local_frame"
   ],
   "note": "gamma of a cuboid (external) enters through its zero set. Violated by BlockArchObstacle: update_obstacles does not move the components (C97_block_stays), get_gamma_except_components in the local frame raises AttributeError (C97_block_local_frame)."
  },
  {
   "property": "C98",
   "status": "partial",
   "theorems": [
    "Verif.RotationContainer.C98_aligned",
    "Verif.RotationContainer.C98_common",
    "Verif.RotationContainer.C98_no_attractor",
    "Verif.RotationContainer.C98_attractor_partial",
    "Verif.RotationContainer.C98_origin",
    "Verif.RotationContainer.C98_straight",
    "Verif.RotationContainer.C98_never_removed",
    "Verif.RotationContainer.C98_radius_lost",
    "Verif.RotationContainer.C98_late"
   ],
   "note": "LocallyRotated and get_angle_space enter through their contract (SaneRotated). Violated by the code: the dynamics are ignored for an obstacle at the origin and where they point to the origin, although the attractor is elsewhere (C98_origin, C98_straight), obstacles cannot be removed or replaced (C98_never_removed), the radius is lost (C98_radius_lost)."
  },
  {
   "property": "C99",
   "status": "partial",
   "theorems": [
    "Verif.MultiHull.C99_weights",
    "Verif.MultiHull.C99_update",
    "Verif.MultiHull.C99_radius",
    "Verif.MultiHull.C99_exit",
    "Verif.MultiHull.C99_closed",
    "Verif.MultiHull.C99_not_updated",
    "Verif.MultiHull.C99_attraction_none",
    "Verif.MultiHull.C99_attraction_fails"
   ],
   "note": "Weights and radius proved; surface and intersection points (external, shapely) are parameters. Violated by the code: multihull_attraction passes an unknown argument and always raises inside of a hull (C99_attraction_fails); TypeError for the radius before update_intersection_graph (C99_not_updated)."
  },
  {
   "property": "C100",
   "status": "partial",
   "theorems": [
    "Verif.RelativeReference.C100_reference_partial",
    "Verif.RelativeReference.C100_gamma_partial",
    "Verif.RelativeReference.C100_off_centre",
    "Verif.RelativeReference.C100_centre",
    "Verif.RelativeReference.C100_boundary_list"
   ],
   "note": "Proved for positions away from the centre, the relative gamma for reference points in the centre. Violated by the code: nan in the centre (C100_centre), negative relative gamma inside for other reference points (C100_off_centre), get_boundary_list reads a misspelled attribute (C100_boundary_list)."
  },
  {
   "property": "C101",
   "status": "partial",
   "theorems": [
    "Verif.EllipseGeometry.C101_shape",
    "Verif.EllipseGeometry.C101_intersection_partial",
    "Verif.EllipseGeometry.C101_mixed",
    "Verif.EllipseGeometry.C101_mixed_other",
    "Verif.EllipseGeometry.C101_container_position",
    "Verif.EllipseGeometry.C101_container_nan",
    "Verif.EllipseGeometry.C101_container_outside"
   ],
   "note": "The corners of the intersection of two polygons (shapely) enter through a contract; the disc polygon is the exact disc. Violated by the code: NotImplementedError for an ellipse and another obstacle, the stored polygon in the other order (C101_mixed, C101_mixed_other); MultiBoundaryContainer ignores the positions of ellipses (C101_container_position, C101_container_outside)."
  },
  {
   "property": "C102",
   "status": "proved",
   "theorems": [
    "Verif.EllipseGeometry.C102_ray",
    "Verif.EllipseGeometry.C102_tangent"
   ],
   "note": "The intersection of line and circle and the linear algebra (numpy, vartools) enter through contracts; the reference direction must not be tangent."
  },
  {
   "property": "C103",
   "status": "partial",
   "theorems": [
    "Verif.Learner.C103_probability_partial",
    "Verif.Learner.C103_not_density",
    "Verif.Learner.C103_weights"
   ],
   "note": "The pseudo inverse is the inverse of an invertible matrix (contract). Violated by the code: the probability is the density only at the mean (C103_not_density: the exponent lacks the factor one half)."
  },
  {
   "property": "C104",
   "status": "partial",
   "theorems": [
    "Verif.Learner.C104_conditional",
    "Verif.Learner.C104_single_partial",
    "Verif.Learner.C104_batch",
    "Verif.Learner.C104_attractor",
    "Verif.Learner.C104_flag",
    "Verif.Learner.C104_reversed"
   ],
   "note": "Violated by the code: in a batch the regression depends on the other samples (C104_batch); the attribute is overwritten by the default argument (C104_flag); the default outputs are in descending order (C104_reversed)."
  },
  {
   "property": "C105",
   "status": "partial",
   "theorems": [
    "Verif.Learner.C105_round_trip_partial",
    "Verif.Learner.C105_rows",
    "Verif.Learner.C105_argument_overwritten",
    "Verif.Learner.C105_velocity",
    "Verif.Learner.C105_velocity_exists"
   ],
   "note": "Violated by the code: the limitation acts on rows (samples dim_space to 2 dim_space - 1) instead of columns (C105_rows); the array of the caller is overwritten (C105_argument_overwritten)."
  },
  {
   "property": "C106",
   "status": "partial",
   "theorems": [
    "Verif.Learner.C106_linear",
    "Verif.Learner.C106_constant",
    "Verif.Learner.C106_rest",
    "Verif.Learner.C106_factor",
    "Verif.Learner.C106_position_velocity",
    "Verif.Learner.C106_contraction",
    "Verif.Learner.C106_magnitude_partial",
    "Verif.Learner.C106_magnitude_vector",
    "Verif.Learner.C106_trajectory_partial",
    "Verif.Learner.C106_converges",
    "Verif.Learner.C106_start_ignored",
    "Verif.Learner.C106_stops_at_origin",
    "Verif.Learner.C106_mixture_fails",
    "Verif.Learner.C106_global_error",
    "Verif.Learner.C106_approximates"
   ],
   "note": "Violated by the code: given starting points are ignored (C106_start_ignored), convergence is tested at the origin (C106_stops_at_origin), DirectionalGMM.integrate_trajectory calls a missing method (C106_mixture_fails), IndexError for a single vector (C106_magnitude_vector). For nonlinear fields the error is proved to be at most proportional to the step, for every Lipschitz continuous field (C106_global_error, C106_approximates). Missing: higher orders for nonlinear fields."
  },
  {
   "property": "C107",
   "status": "partial",
   "theorems": [
    "Verif.Learner.C107_attractor",
    "Verif.Learner.C107_attractor_argument",
    "Verif.Learner.C107_attractor_first",
    "Verif.Learner.C107_reproduces_partial",
    "Verif.Learner.C107_not_reproduced",
    "Verif.Learner.C107_function_fails"
   ],
   "note": "The angle space (vartools) enters through its contract. Violated by the code: directions are encoded relative to the origin and decoded relative to the attractor (C107_not_reproduced), the first demonstration is left out of the mean (C107_attractor_first), an attractor cannot be given (C107_attractor_argument), DirectionalSVR cannot predict (C107_function_fails)."
  },
  {
   "property": "C108",
   "status": "partial",
   "theorems": [
    "Verif.C108_mean_partial",
    "Verif.C108_tolerance_partial",
    "Verif.C108_defined",
    "Verif.C108_contact",
    "Verif.C108_unchanged",
    "Verif.C108_turn"
   ],
   "note": "Obstacles with one component each, no cuboids for the existence of the tangent (HasTangent). Missing: several components per obstacle, positions inside of obstacles."
  },
  {
   "property": "C109",
   "status": "partial",
   "theorems": [
    "Verif.KMeans.C109_side",
    "Verif.KMeans.C109_wall",
    "Verif.KMeans.C109_ball",
    "Verif.KMeans.C109_surface_fails",
    "Verif.KMeans.C109_surface_radial",
    "Verif.KMeans.C109_centre"
   ],
   "note": "Under the contract SaneMean of get_directional_weighted_sum (proved for the tangent-space mean). Violated by the code: on the surface IndexError without neighbours (C109_surface_fails) and a radial normal on the walls (C109_surface_radial, norms taken along the wrong axis); at the centre the array of the caller is overwritten and returned (C109_centre)."
  },
  {
   "property": "C110",
   "status": "partial",
   "theorems": [
    "Verif.KMeans.C110_outside",
    "Verif.KMeans.C110_outside_near",
    "Verif.KMeans.C110_speed",
    "Verif.KMeans.C110_attractor_moves",
    "Verif.KMeans.C110_attractor",
    "Verif.KMeans.C110_free",
    "Verif.KMeans.C110_surface_partial",
    "Verif.KMeans.C110_surface_fails",
    "Verif.KMeans.C110_fitted",
    "Verif.KMeans.C110_entry"
   ],
   "note": "Angle space, means and labels enter through their contracts (SanePredict); the learner is a chain of well separated clusters, as a first fit leaves it (C110_fitted). Violated by the code: the motion does not stop at an attractor in the transition zone (C110_attractor_moves), IndexError on the surface of a region without neighbours (C110_surface_fails). Missing: surfaces of regions with fewer neighbours than dimensions, velocities straight outwards or opposite to the gradient, the direction inside of a region in front of solid walls."
  },
  {
   "property": "C111",
   "status": "partial",
   "theorems": [
    "Verif.KMeans.C111_unit",
    "Verif.KMeans.C111_kept",
    "Verif.KMeans.C111_halfway",
    "Verif.KMeans.C111_opposite",
    "Verif.KMeans.C111_gives_up",
    "Verif.KMeans.C111_misses",
    "Verif.KMeans.C111_fit",
    "Verif.KMeans.C111_breakpoint"
   ],
   "note": "The directional mean of two directions enters through its contract (Bisects); the fit of the regressors is not modelled. Violated by the code: the bisection moves the wrong end, so that with a single neighbour the result misses the wall whenever the half-way direction does (C111_misses); a direction is kept although it misses the wall if the direction to the next centre misses it too (C111_gives_up); breakpoint without exactly one successor (C111_breakpoint); not a number for a cluster without data (C111_fit). Missing: bisection with several neighbours."
  },
  {
   "property": "C112",
   "status": "partial",
   "theorems": [
    "Verif.C112_reduction_off",
    "Verif.C112_reduction_missing",
    "Verif.C112_reduction_mismatch",
    "Verif.C112_reduction",
    "Verif.C112_unit_partial",
    "Verif.C112_far",
    "Verif.C112_component_partial",
    "Verif.C112_contact_partial",
    "Verif.C112_attractor_partial",
    "Verif.C112_two_contacts",
    "Verif.C112_tree",
    "Verif.C112_defined_partial"
   ],
   "note": "For any number of obstacles and components. In a clear view from the attractor (nothing opposite, nothing nearly parallel) the tree of directions is built without an exception (C112_tree), and the direction is a unit vector whatever the number of contacts (C112_unit_partial, C112_defined_partial; inner directions of the tree in general position). In contact with two obstacles the claim about the direction is violated: the weights sum to two, and the avoider converges to the opposite of the direction to the attractor although the dynamics of both obstacles agree (C112_two_contacts). Missing: reductions that lead to nearly parallel inner directions."
  },
  {
   "property": "C113",
   "status": "partial",
   "theorems": [
    "Verif.C113_create",
    "Verif.C113_blocked",
    "Verif.C113_reference_blocked",
    "Verif.C113_straight_partial"
   ],
   "note": "Proved for every motion of constant direction, any obstacles with hierarchies of depth up to 90 in contact with any number of components (existence of the whole tree included). Violated by the code for all other motions: breakpoint wherever the direction at the position is not that at the reference point of every obstacle, at any distance (C113_blocked), and, for components below the root, wherever the reference dynamics is not the motion itself (C113_reference_blocked)."
  },
  {
   "property": "C114",
   "status": "proved",
   "theorems": [
    "Verif.C114_tangent",
    "Verif.C114_angle",
    "Verif.C114_head_on",
    "Verif.C114_switch",
    "Verif.C114_has_tangent",
    "Verif.C114_contact"
   ],
   "note": "The external functions get_angle_from_vector, get_vector_from_angle and get_intersection_with_circle enter through their contract (DirectionSpace: logarithm and exponential map of the sphere, furthest point of a line on a circle), which is proved for the plane (planeExt_space)."
  },
  {
   "property": "C115",
   "status": "partial",
   "theorems": [
    "Verif.C115_angles",
    "Verif.C115_direction",
    "Verif.C115_mean",
    "Verif.C115_branches",
    "Verif.C115_sequence",
    "Verif.C115_sector",
    "Verif.C115_winding",
    "Verif.C115_reduction",
    "Verif.C115_convergence_partial",
    "Verif.C115_single_partial",
    "Verif.C115_attractor_partial"
   ],
   "note": "Tree, sequence and reduction in full; the mean also for weights that sum up to more than one, with at most one on every branch (C115_branches). The convergence formula holds for any number of obstacles and contacts, with the angles of their roots given in closed form; fully explicit for one obstacle of one component. Violated: two nodes with the same direction, reached around opposite sides, have the opposite direction as mean (C115_winding). Missing: closed form for components other than the roots."
  },
  {
   "property": "C116",
   "status": "partial",
   "theorems": [
    "Verif.C116_defined",
    "Verif.C116_rate",
    "Verif.C116_trajectory_partial",
    "Verif.C116_never_partial",
    "Verif.C116_straight",
    "Verif.C116_head_on"
   ],
   "note": "One static ball with the default convergence radius pi/2; for motions of constant direction (C116_straight) a bound for all times. For turning motions the distance decays at most exponentially, with a creeping of the size of the tolerance of np.allclose (C116_trajectory_partial), without it if the motion is never within the tolerance of the tangent plane (C116_never_partial). Violated for the exact head-on motion (C116_head_on). Several balls: C120. Other shapes: C124. Missing: turning motions for all times. The trajectories are solutions of the differential equation; integration steps are not modelled here (see C106)."
  },
  {
   "property": "C117",
   "status": "proved",
   "theorems": [
    "Verif.C117_monotone",
    "Verif.C117_reached",
    "Verif.C117_tangent",
    "Verif.C117_turns",
    "Verif.C117_wavy",
    "Verif.C117_wavy_limited",
    "Verif.C117_rotation"
   ],
   "note": "Trajectories are solutions of the differential equation for all times from 0 on. The external LinearSystem of the wavy dynamics enters through its form gain(p) (attractor - p); the speed limit of vartools is the case C117_wavy_limited."
  },
  {
   "property": "C118",
   "status": "partial",
   "theorems": [
    "Verif.C118_defined",
    "Verif.C118_gamma",
    "Verif.C118_contact",
    "Verif.C118_outside",
    "Verif.C118_norm",
    "Verif.C118_side",
    "Verif.C118_continuous_partial",
    "Verif.C118_jump",
    "Verif.C118_squeezed"
   ],
   "note": "Violated by the code: the average jumps at the surface of an obstacle if another one is near (C118_jump), and it vanishes between two obstacles in contact from opposite sides, where the slowing down then has no effect (C118_squeezed). Continuity is proved for a single component."
  },
  {
   "property": "C119",
   "status": "partial",
   "theorems": [
    "Verif.C119_fresh",
    "Verif.C119_fresh_attribute",
    "Verif.C119_no_obstacles",
    "Verif.C119_rest",
    "Verif.C119_history",
    "Verif.C119_aligned",
    "Verif.C119_surface_partial"
   ],
   "note": "Violated by the code: a new avoider raises AttributeError (C119_fresh, C119_fresh_attribute); without obstacles ValueError (C119_no_obstacles); a motion exactly along the reference direction raises ValueError (C119_aligned). The surface claim is proved for one obstacle of one component without convergence dynamics. Missing: several obstacles, other positions."
  },
  {
   "property": "C120",
   "status": "partial",
   "theorems": [
    "Verif.C120_defined",
    "Verif.C120_rate",
    "Verif.C120_trajectory_partial",
    "Verif.C120_never_partial",
    "Verif.C120_straight_partial",
    "Verif.C120_head_on"
   ],
   "note": "Static balls with a positive gap between each other, motions with a minimal angle to the directions of the centres along the trajectory (for balls with tail effect also to the opposite directions), default convergence radius pi/2. Without the tolerance of np.allclose if the motion is never within it of a tangent plane (C120_never_partial), otherwise with a creeping of its size (C120_trajectory_partial). Violated for motions along the line of the centres (C120_head_on); without a gap C61_two_contacts. Other shapes: C124. Missing: motions that become head-on."
  },
  {
   "property": "C121",
   "status": "partial",
   "theorems": [
    "Verif.C121_trajectory_partial",
    "Verif.C121_defined",
    "Verif.C121_reach",
    "Verif.C121_rest_lost",
    "Verif.C121_start_untested",
    "Verif.C121_iterations",
    "Verif.C121_starts",
    "Verif.C121_files_partial",
    "Verif.C121_single_start"
   ],
   "note": "Violated by the code: the position of rest is missing, a start at rest gives no position at all (C121_rest_lost); the start is not tested for collisions (C121_start_untested); it_max below two raises (C121_iterations); a single start position cannot be evaluated (C121_single_start). Everything else is proved."
  },
  {
   "property": "C122",
   "status": "partial",
   "theorems": [
    "Verif.C122_range",
    "Verif.C122_deviation_partial",
    "Verif.C122_own",
    "Verif.C122_speed_counts",
    "Verif.C122_smoothness",
    "Verif.C122_path_partial",
    "Verif.C122_path_cancels",
    "Verif.C122_shifted",
    "Verif.C122_short"
   ],
   "note": "Violated by the code: in evaluation_trajectories.py errors inside and outside of the circle cancel (C122_path_cancels); the squared deviation of dynamics from themselves is positive unless the speed is one (C122_speed_counts); after a step without motion velocities are compared with the dynamics at wrong positions (C122_shifted). Everything else is proved. TrajectoryEvaluator.run of these files is not modelled (os is not imported there)."
  },
  {
   "property": "C123",
   "status": "partial",
   "theorems": [
    "Verif.C123_common",
    "Verif.C123_statistics_partial",
    "Verif.C123_no_spread",
    "Verif.C123_errors"
   ],
   "note": "Violated by the code: the spread of the occupied fraction is always zero (C123_no_spread); run before get_converged raises AttributeError (C123_errors). Everything else is proved."
  },
  {
   "property": "C124",
   "status": "partial",
   "theorems": [
    "Verif.C124_defined",
    "Verif.C124_rate",
    "Verif.C124_trajectory_partial",
    "Verif.C124_never_partial",
    "Verif.C124_straight_partial",
    "Verif.C124_head_on"
   ],
   "note": "Static obstacles of one component each, described by a differentiable gauge (StarRegion; balls and ellipses are instances), default convergence radius pi/2; motions with a minimal angle to the directions of the reference points along the trajectory (with several obstacles also to the opposite directions). Without the tolerance of np.allclose if the motion is never within it of a tangent plane (C124_never_partial), otherwise with a creeping of its size (C124_trajectory_partial). Violated for motions along a common axis (C124_head_on). Missing: surfaces with edges, several components per obstacle, motions that become head-on."
  },
  {
   "property": "C125",
   "status": "partial",
   "theorems": [
    "Verif.Pull.C125_rotated",
    "Verif.Pull.C125_inside",
    "Verif.Pull.C125_monotone",
    "Verif.Pull.C125_away",
    "Verif.Pull.C125_head_on",
    "Verif.Pull.C125_turns_away_partial",
    "Verif.Pull.C125_shrinks",
    "Verif.Pull.C125_projected",
    "Verif.Pull.C125_towards",
    "Verif.Pull.C125_weight_rejected_partial",
    "Verif.Pull.C125_weight_accepted",
    "Verif.Pull.C125_no_tangent",
    "Verif.Pull.C125_tangent"
   ],
   "note": "Violated by the code: a direction towards the reference gives None (C125_head_on) and a vanishing tangent nan (C125_no_tangent); a direction between the reference and the normal is turned towards the obstacle, with some weight exactly against the normal (C125_shrinks; it grows for the other directions, C125_turns_away_partial); the weight is checked only after its reduction (C125_weight_accepted; rejected inside the circle, C125_weight_rejected_partial). Everything else is proved, for an external intersection which leaves the circle (LeavesCircle) and references inside the circle. Directions are angles of UnitDirection objects of one base."
  },
  {
   "property": "C126",
   "status": "partial",
   "theorems": [
    "Verif.Pull.C126_unchanged",
    "Verif.Pull.C126_pulled",
    "Verif.Pull.C126_overshoots",
    "Verif.Pull.C126_secant_partial",
    "Verif.Pull.C126_unprojected",
    "Verif.Pull.C126_secant_stops",
    "Verif.Pull.C126_neither",
    "Verif.Pull.C126_secant_mirrored"
   ],
   "note": "Violated by the code: with full weight the direction is pulled beyond the convergence direction to the opposite side of the circle (C126_overshoots), and with the closer intersection point first the call stops (C126_secant_stops). Proved: what the code does if the convergence direction converges (C126_pulled), that converging directions are kept (C126_unchanged) the projection in every case (C126_unprojected, with the more distant point first C126_secant_partial) and the result if neither direction converges, which does not reach the projection (C126_neither). With the closer point first and a short secant the projection is not on the circle (C126_secant_mirrored)."
  },
  {
   "property": "C127",
   "status": "partial",
   "theorems": [
    "Verif.KMeans.C127_far",
    "Verif.KMeans.C127_between",
    "Verif.KMeans.C127_near",
    "Verif.KMeans.C127_surface_partial",
    "Verif.KMeans.C127_surface_fails",
    "Verif.KMeans.C127_single",
    "Verif.KMeans.C127_rest"
   ],
   "note": "Violated by the code: a single cluster gives IndexError within the cut-off distance (C127_single), resting outside dynamics give nan (C127_rest), and with a second centre within the cut-off distance the motion on the surface does not lead to the centre (C127_surface_fails; C127_surface_partial otherwise, for unit outside velocities). Everything else is proved."
  },
  {
   "property": "C128",
   "status": "partial",
   "theorems": [
    "Verif.Gmm.C128_gradient",
    "Verif.Gmm.C128_half",
    "Verif.Gmm.C128_outwards",
    "Verif.Gmm.C128_gauss_fails",
    "Verif.Gmm.C128_fresh_fails",
    "Verif.Gmm.C128_density_partial",
    "Verif.Gmm.C128_density_half",
    "Verif.Gmm.C128_same_mean",
    "Verif.Gmm.C128_order",
    "Verif.Gmm.C128_midpoint",
    "Verif.Gmm.C128_line_partial",
    "Verif.Gmm.C128_translation",
    "Verif.Gmm.C128_inside_partial",
    "Verif.Gmm.C128_outside"
   ],
   "note": "Violated by the code: get_gamma_derivative is half of the gradient (C128_half; C128_gradient for general matrices), so is evaluate_derivative (C128_density_half); _get_gauss_derivative always raises (C128_gauss_fails); a MultiVariantGaussian cannot be evaluated after its creation (C128_fresh_fails); the point returned for two intersecting ellipses can be outside of one of them with the default parameters (C128_outside; inside for Gaussians of the same shape, C128_inside_partial). Everything else is proved."
  },
  {
   "property": "C129",
   "status": "partial",
   "theorems": [
    "Verif.Gmm.C129_axes",
    "Verif.Gmm.C129_offcenter_partial",
    "Verif.Gmm.C129_dimension",
    "Verif.Gmm.C129_rows",
    "Verif.Gmm.C129_all",
    "Verif.Gmm.C129_analytic_partial",
    "Verif.Gmm.C129_turned"
   ],
   "note": "Violated by the code: the analytic ellipse uses the rows instead of the columns of the matrix of the eigenvectors and is turned in the opposite sense if these form a rotation (C129_turned; correct for symmetric matrices, C129_analytic_partial). Everything else is proved, for an external intersection which leaves the circle (LeavesCircle)."
  },
  {
   "property": "C130",
   "status": "partial",
   "theorems": [
    "Verif.C130_steps_partial",
    "Verif.C130_creeping_partial",
    "Verif.C130_simulated_partial",
    "Verif.C130_completes_partial",
    "Verif.C130_straight_partial",
    "Verif.C130_head_on",
    "Verif.C130_regions_steps_partial",
    "Verif.C130_regions_simulated_partial",
    "Verif.C130_regions_completes_partial"
   ],
   "note": "Static balls apart from each other, motions which are not head-on and not within the tolerance of a tangential plane (C130_steps_partial, C130_simulated_partial, C130_completes_partial, C130_straight_partial); with a creeping of the size of the tolerance also for motions that pass a tangential plane (C130_creeping_partial). Obstacles of any convex shape with a smooth surface, ellipses for example, apart from each other (C130_regions_steps_partial, C130_regions_simulated_partial, C130_regions_completes_partial). Violated for the exact head-on motion (C130_head_on). Missing: shapes which are not convex or not smooth, obstacles which touch."
  },
  {
   "property": "C131",
   "status": "partial",
   "theorems": [
    "Verif.C131_converts",
    "Verif.C131_default",
    "Verif.C131_rigid",
    "Verif.C131_moves_body",
    "Verif.C131_rejected_limb"
   ],
   "note": "The code violates part of the claim: with a base pose the body is moved as well, and twice by a second conversion (C131_moves_body); after a rejected limb the body cannot be converted any more (C131_rejected_limb)."
  },
  {
   "property": "C132",
   "status": "partial",
   "theorems": [
    "Verif.Gmm.C132_end_point",
    "Verif.Gmm.C132_deviations_partial",
    "Verif.Gmm.C132_turned",
    "Verif.Gmm.C132_dimension",
    "Verif.Gmm.C132_regions",
    "Verif.Gmm.C132_local_attractor",
    "Verif.Gmm.C132_root_outside",
    "Verif.Gmm.C132_dynamics",
    "Verif.Gmm.C132_dynamics_error"
   ],
   "note": "The code violates part of the claim: the first row of the matrix of the eigenvectors is taken for the first eigenvector, so that end point and region belong to a mirrored covariance (C132_turned); a root region without the attractor gets a local attractor in the direction of the last region (C132_root_outside)."
  },
  {
   "property": "C133",
   "status": "partial",
   "theorems": [
    "Verif.Elements.C133_same",
    "Verif.Elements.C133_history_partial",
    "Verif.Elements.C133_expel",
    "Verif.Elements.C133_expel_unreferenced",
    "Verif.Elements.C133_expel_keeps",
    "Verif.Elements.C133_twin",
    "Verif.Elements.C133_second_parent",
    "Verif.Elements.C133_twice",
    "Verif.Elements.C133_handler_childless",
    "Verif.Elements.C133_handler_delete",
    "Verif.Elements.C133_handler_root",
    "Verif.Elements.C133_handler_listed"
   ],
   "note": "Proved for every history of the intended use (elements without parent are attached, siblings of an expelled element have other values). Violated by the code: the expelled element keeps its parent and children (C133_expel_keeps), a twin is removed in its place (C133_twin), a second parent leaves the element in the list of the first one (C133_second_parent), a second expel raises ValueError (C133_twice); BasicGraphHandler never fills the lists of children (C133_handler_childless), delete_element always raises ValueError for elements with a parent (C133_handler_delete) and a deleted root stays the root (C133_handler_root)."
  },
  {
   "property": "C134",
   "status": "partial",
   "theorems": [
    "Verif.C134_dispatch",
    "Verif.C134_duplicate",
    "Verif.C134_minus_one",
    "Verif.C134_rejected",
    "Verif.C134_lookup",
    "Verif.C134_robot",
    "Verif.C134_frame"
   ],
   "note": "The filters of vartools are a parameter (any state and step). Proved for components with distinct numbers other than -1. Violated by the code: the second component with a number is never measured (C134_duplicate), a measurement with the number -1 raises AttributeError (C134_minus_one), after a rejected component every update raises KeyError (C134_rejected), the look-up by number always raises KeyError (C134_lookup)."
  },
  {
   "property": "C135",
   "status": "partial",
   "theorems": [
    "Verif.C135_accepted_iff",
    "Verif.C135_sequence",
    "Verif.C135_same",
    "Verif.C135_avoider",
    "Verif.C135_rest",
    "Verif.C135_free"
   ],
   "note": "Violated by the code for the velocity zero: every evaluation raises ValueError instead of rest (C135_rest)."
  },
  {
   "property": "C136",
   "status": "partial",
   "theorems": [
    "Verif.C136_partial",
    "Verif.C136_outside",
    "Verif.C136_without_singularity",
    "Verif.C136_projection",
    "Verif.C136_inside"
   ],
   "note": "Proved for positions outside of all components, and inside if the comparison of the position with the centre has the same outcome. Violated by the code inside of obstacles: the relative tolerance of np.allclose(position, center) grows with the distance from the origin, so that for a suitable origin every position inside counts as the centre and the convergence radius is 180 degrees (C136_inside). With ProjectedRotationDynamics the folded position must not be further away than 1e10 (C136_projection)."
  },
  {
   "property": "C137",
   "status": "partial",
   "theorems": [
    "Verif.C137_partial",
    "Verif.C137_no_influence",
    "Verif.C137_without_singularity",
    "Verif.C137_fails"
   ],
   "note": "Proved wherever an obstacle has an influence, or without obstacles, for velocities above the tolerance 1e-8 at the position and at the reference points. Violated by the code where no obstacle has an influence: the result is a vector of length one, whatever the speed (C137_no_influence, C137_fails)."
  },
  {
   "property": "C138",
   "status": "partial",
   "theorems": [
    "Verif.C138_partial",
    "Verif.C138_relative",
    "Verif.C138_balls_partial",
    "Verif.C138_regions_partial"
   ],
   "note": "Proved (C138_partial) if in the trees of directions no direction is opposite to its parent and inner nodes are equal to their parents or outside of the allclose tolerance; there is no restriction on contacts or weights. For balls (C138_balls_partial) and star-shaped obstacles (C138_regions_partial) in the way of a motion of constant direction this hypothesis is not needed either. The relative velocity has no hypotheses (C138_relative)."
  },
  {
   "property": "C139",
   "status": "partial",
   "theorems": [
    "Verif.C139_children",
    "Verif.C139_parent_fails",
    "Verif.C139_parent_unknown",
    "Verif.C139_rotate_fails"
   ],
   "note": "The children are proved for every history (C139_children). Violated by the code: get_parent raises for every node of every tree (C139_parent_fails, C139_parent_unknown), rotate and inverse_rotate raise for all arguments (C139_rotate_fails)."
  },
  {
   "property": "C140",
   "status": "partial",
   "theorems": [
    "Verif.C140_tangent",
    "Verif.C140_rotation_weight",
    "Verif.C140_avoider_partial",
    "Verif.C140_straight_partial",
    "Verif.C140_projection",
    "Verif.C140_without_singularity",
    "Verif.C140_convergence_partial",
    "Verif.C140_velocity_partial",
    "Verif.C140_projected_partial",
    "Verif.C140_rotation_partial",
    "Verif.C140_history",
    "Verif.C140_tree_partial",
    "Verif.C140_nearly_parallel"
   ],
   "note": "Building is proved for every history (C140_history). Rotations, reductions and means are proved for directions which are equal or clearly different (C140_rotation_partial, C140_tree_partial). Violated by the code for nearly parallel directions (C140_nearly_parallel): the rotation goes the wrong way, in a direction that depends on the axes. The tangent directions and the weight of the avoidance turn with the axes (C140_tangent, C140_rotation_weight). MultiObstacleAvoider.evaluate gives the turned velocity and raises the same exceptions for star-shaped obstacles which do not rotate, at positions outside (C140_avoider_partial), if the direction of convergence turns; this is proved for motions of constant direction without attractor (C140_straight_partial), and for every initial dynamics with the projected convergence dynamics or the one without singularity, for any number and hierarchy of obstacles, if the directions of the convergence trees are equal or clearly different (C140_projection, C140_without_singularity, C140_convergence_partial, C140_velocity_partial, C140_projected_partial). Missing: positions inside and rotating obstacles; exceptions of the convergence tree."
  },
  {
   "property": "C141",
   "status": "partial",
   "theorems": [
    "Verif.C141_zoom_partial",
    "Verif.C141_units_partial",
    "Verif.C141_without_singularity",
    "Verif.C141_projected_rotations",
    "Verif.C141_projected_weight"
   ],
   "note": "Proved for every avoider whose convergence dynamics gives the same results with both units (C141_zoom_partial, C141_units_partial); this holds for the convergence dynamics without singularity (C141_without_singularity) and for the rotations of the projected one (C141_projected_rotations). Violated by the code for the weight of the projected convergence dynamics, which depends on the unit (C141_projected_weight), and where no obstacle has an influence (C137_no_influence). Missing: positions within the absolute tolerance 1e-8 of the attractor or of a centre."
  },
  {
   "property": "C142",
   "status": "partial",
   "theorems": [
    "Verif.MixtureRegression.C142_outputs",
    "Verif.MixtureRegression.C142_weights",
    "Verif.MixtureRegression.C142_regression",
    "Verif.MixtureRegression.C142_hull_partial",
    "Verif.MixtureRegression.C142_attractor",
    "Verif.MixtureRegression.C142_bounded",
    "Verif.MixtureRegression.C142_outside",
    "Verif.MixtureRegression.C142_attractor_not_normalised"
   ],
   "note": "Proved without attractor. With attractor (the default): the result at the attractor in normalised coordinates is the mean of the data and it is bounded (C142_attractor, C142_bounded); negative results: it can exceed all conditional means, because the weights are normalised with the Euclidean norm (C142_outside), and the given attractor is compared with the normalised sample (C142_attractor_not_normalised)."
  },
  {
   "property": "C143",
   "status": "partial",
   "theorems": [
    "Verif.DirectionalFit.C143_best_partial",
    "Verif.DirectionalFit.C143_warm",
    "Verif.DirectionalFit.C143_labels",
    "Verif.DirectionalFit.C143_succeeds",
    "Verif.DirectionalFit.C143_unconfigured",
    "Verif.DirectionalFit.C143_converged"
   ],
   "note": "Proved for a configured object, with the functions inherited from sklearn as parameters and finite bounds. Negative results: converged_ is true if any run converged, also if the kept one did not (C143_converged); an object as constructed has no settings and every fit raises (C143_unconfigured)."
  },
  {
   "property": "C144",
   "status": "proved",
   "theorems": [
    "Verif.C144_anatomy",
    "Verif.C144_3d",
    "Verif.C144_any_pose",
    "Verif.C144_measured",
    "Verif.C144_2d",
    "Verif.C144_2d_composite"
   ],
   "note": "With the rotations of scipy as parameters and exact lengths; the obstacles count as solid cuboids and ellipsoids with half of axes_length to every side."
  },
  {
   "property": "C145",
   "status": "proved",
   "theorems": [
    "Verif.KMeans.C145_points",
    "Verif.KMeans.C145_surface",
    "Verif.KMeans.C145_closed",
    "Verif.KMeans.C145_around",
    "Verif.KMeans.C145_dimension"
   ],
   "note": ""
  },
  {
   "property": "C146",
   "status": "partial",
   "theorems": [
    "Verif.DeviationFit.C146_fitted",
    "Verif.DeviationFit.C146_reproduces_partial",
    "Verif.DeviationFit.C146_cut_off_fails",
    "Verif.DeviationFit.C146_no_samples",
    "Verif.DeviationFit.C146_refit",
    "Verif.DeviationFit.C146_refit_fails",
    "Verif.DeviationFit.C146_columns",
    "Verif.DeviationFit.C146_predict",
    "Verif.DeviationFit.C146_predict_origin_fails",
    "Verif.DeviationFit.C146_predict_nan"
   ],
   "note": "In the plane (in other dimensions the fit raises, C91_fit_dimension), with the regression, the angle space and the directional mean as contracts. Learning again after samples that left out a side raises AttributeError (C146_refit_fails; C146_refit holds if all sides had samples). predict measures the deviation from the line to the origin instead of the attractor (C146_predict_origin_fails) and gives nan at the attractor (C146_predict_nan). Samples with larger deviations are not reproduced but cut off at 0.49 pi (C146_cut_off_fails, for samples straight on an axis). Missing: the sampled speed, which is not learned."
  },
  {
   "property": "C147",
   "status": "partial",
   "theorems": [
    "Verif.KMeans.C147_start",
    "Verif.KMeans.C147_start_nan",
    "Verif.KMeans.C147_neighbours",
    "Verif.KMeans.C147_parent_distances",
    "Verif.KMeans.C147_order",
    "Verif.KMeans.C147_outside",
    "Verif.KMeans.C147_from_centers_fails",
    "Verif.KMeans.C147_any_fit",
    "Verif.KMeans.C147_refit_fails"
   ],
   "note": "The iterations of sklearn are not modelled. A learner made by from_centers cannot be evaluated outside of the clusters (C147_from_centers_fails). The entries of compute_distances_to_neighbours are in the order of the hierarchy and not of the clusters (C147_order). Violated after a second fit: the graph keeps the old edges, and the distance of a cluster is the one to its oldest parent (C147_any_fit for every history of fits, C147_refit_fails for three clusters)."
  },
  {
   "property": "C148",
   "status": "partial",
   "theorems": [
    "Verif.Projected.C148_gradient",
    "Verif.Projected.C148_projected_gradient",
    "Verif.Projected.C148_modulation",
    "Verif.Projected.C148_modulation_rest",
    "Verif.Projected.C148_modulation_opposite",
    "Verif.Projected.C148_projected_gamma_fails",
    "Verif.Projected.C148_shrunk_fails"
   ],
   "note": "The gradients and the rotation of the modulation are proved. Violated by the code: get_projected_gamma gives max_gamma, None or an AttributeError, never another value (C148_projected_gamma_fails); the rotation of the shrunk position is called with an unknown keyword and raises TypeError everywhere (C148_shrunk_fails); an avoided velocity opposite to the velocity gives nan (C148_modulation_opposite). Missing: directions closer to each other than the tolerance of np.allclose, which are not turned exactly."
  },
  {
   "property": "C149",
   "status": "partial",
   "theorems": [
    "Verif.ContainerQueries.C149_free_space",
    "Verif.ContainerQueries.C149_free_space_fails",
    "Verif.ContainerQueries.C149_free_space_local",
    "Verif.ContainerQueries.C149_boundary_point",
    "Verif.ContainerQueries.C149_boundary_point_errors",
    "Verif.ContainerQueries.C149_delete_fails"
   ],
   "note": "The boundary points are proved for hulls whose surface the external intersection finds from the centre. Violated by the code: the obstacles (MultiObstacle) do not have the method is_in_free_space, so that the question raises AttributeError unless the container is empty (C149_free_space_fails; C149_free_space is the claim for obstacles with the method); deleting raises and removes nothing (C149_delete_fails)."
  },
  {
   "property": "C150",
   "status": "partial",
   "theorems": [
    "Verif.Flows.C150_progress",
    "Verif.Flows.C150_cylinder",
    "Verif.Flows.C150_backwards"
   ],
   "note": "Proved for axes through the origin (C150_cylinder), with the orthogonal basis of vartools as a contract. Violated for other centres, because the centre is added to the velocity: the progress has the same sign everywhere, and this sign depends on the centre (C150_progress); around a centre behind the origin the spiral moves backwards (C150_backwards)."
  },
  {
   "property": "C151",
   "status": "partial",
   "theorems": [
    "Verif.Flows.C151_height",
    "Verif.Flows.C151_direction_ignored"
   ],
   "note": "Proved for the second coordinate axis as direction, wherever the velocity is defined (C151_height). Violated for other directions: the direction has no effect on the velocity, the axis is always the second coordinate axis (C151_direction_ignored). See C72 for the attractor itself."
  },
  {
   "property": "C152",
   "status": "partial",
   "theorems": [
    "Verif.Tracker.C152_placed",
    "Verif.Tracker.C152_refused",
    "Verif.Tracker.C152_from_end",
    "Verif.Tracker.C152_measured_fails",
    "Verif.Tracker.C152_after_update"
   ],
   "note": "Proved for the pose of the filter (C152_placed), also after a measurement received through update_using_optitrack (C152_after_update), and for the refused calls (C152_refused). Violated for the measurement given to the call, which is ignored (C152_measured_fails). Indices counted from the end: C152_from_end."
  },
  {
   "property": "C153",
   "status": "partial",
   "theorems": [
    "Verif.RotationContainer.C153_attractor",
    "Verif.RotationContainer.C153_same_fails",
    "Verif.RotationContainer.C153_no_attractor",
    "Verif.RotationContainer.C153_refused",
    "Verif.RotationContainer.C153_common"
   ],
   "note": "Proved after any history for dynamics with an attractor (C153_attractor), without one (C153_no_attractor), for common dynamics (C153_common) and for the refused calls (C153_refused); whether constant dynamics (vartools) have an attractor is a parameter. Violated as a position of an intersection: with an attractor the answer is the same for all obstacles, wherever they are (C153_same_fails)."
  },
  {
   "property": "C154",
   "status": "partial",
   "theorems": [
    "Verif.LyapunovDirection.C154_unit",
    "Verif.LyapunovDirection.C154_descent",
    "Verif.LyapunovDirection.C154_steepest",
    "Verif.LyapunovDirection.C154_constant",
    "Verif.LyapunovDirection.C154_normalised_fails"
   ],
   "note": "Proved for dynamics with an attractor (C154_unit, C154_descent, C154_steepest) and, up to the length, for constant flows (C154_constant). Violated: the direction of a constant flow is not normalised (C154_normalised_fails)."
  }
 ]
}
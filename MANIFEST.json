{
 "claims": [
  {
   "property": "C01",
   "status": "proved",
   "theorems": [
    "Gbs.C01_find_span",
    "Gbs.C01_find_span_nonempty",
    "Gbs.C01_empty_span_witness"
   ],
   "note": "With end multiplicity above p+1 (accepted by the constructor) the last span is empty: witness theorem."
  },
  {
   "property": "C02",
   "status": "proved",
   "theorems": [
    "Gbs.C02_basis_funcs"
   ],
   "note": ""
  },
  {
   "property": "C03",
   "status": "proved",
   "theorems": [
    "Gbs.C03_partition_of_unity"
   ],
   "note": ""
  },
  {
   "property": "C04",
   "status": "proved",
   "theorems": [
    "Gbs.C04_value_eq_sum"
   ],
   "note": "Above degree 24 needs knots separated by more than the tolerance and a clamped end."
  },
  {
   "property": "C05",
   "status": "proved",
   "theorems": [
    "Gbs.C05_convex_combination",
    "Gbs.C05_coordinate_bounds"
   ],
   "note": ""
  },
  {
   "property": "C06",
   "status": "proved",
   "theorems": [
    "Gbs.C06_clamped_ends"
   ],
   "note": ""
  },
  {
   "property": "C07",
   "status": "proved",
   "theorems": [
    "Gbs.C07_algorithms_agree",
    "Gbs.C07_deboor_cox_agrees",
    "Gbs.C07_degree_zero_witness"
   ],
   "note": "At degree 0 the summation algorithm throws: witness theorem."
  },
  {
   "property": "C08",
   "status": "proved",
   "theorems": [
    "Gbs.C08_derivative",
    "Gbs.C08_high_order_zero",
    "Gbs.C08_iteratedDeriv"
   ],
   "note": ""
  },
  {
   "property": "C09",
   "status": "proved",
   "theorems": [
    "Gbs.C09_derivatives"
   ],
   "note": ""
  },
  {
   "property": "C10",
   "status": "proved",
   "theorems": [
    "Gbs.C10_out_of_bounds",
    "Gbs.C10_out_of_bounds_derivatives",
    "Gbs.C10_out_of_bounds_rational",
    "Gbs.C10_in_bounds_ok"
   ],
   "note": ""
  },
  {
   "property": "C11",
   "status": "proved",
   "theorems": [
    "Gbs.C11_constructor",
    "Gbs.C11_accepted",
    "Gbs.C11_constructor_mult",
    "Gbs.C11_unsorted_accepted_witness"
   ],
   "note": "Sortedness is only checked up to the tolerance: witness theorem."
  },
  {
   "property": "C23",
   "status": "proved",
   "theorems": [
    "Gbs.C23_flat_unflat",
    "Gbs.C23_unflat_flat"
   ],
   "note": ""
  },
  {
   "property": "C16",
   "status": "proved",
   "theorems": [
    "Gbs.C16_insert_keeps_curve",
    "Gbs.C16_outside_witness"
   ],
   "note": "For parameters strictly inside of the domain and at least one insertion; all derivation orders. Outside of the knots the code accesses out of its arrays: witness theorem."
  },
  {
   "property": "C17",
   "status": "proved",
   "theorems": [
    "Gbs.C17_insert_shape"
   ],
   "note": ""
  },
  {
   "property": "C18",
   "status": "proved",
   "theorems": [
    "Gbs.C18_insert_full_pole",
    "Gbs.C18_insert_ends"
   ],
   "note": ""
  },
  {
   "property": "C19",
   "status": "partial",
   "theorems": [
    "Gbs.C19_insert_zero_partial",
    "Gbs.C19_insert_zero_witness"
   ],
   "note": "The code violates the property: inserting zero times a knot of multiplicity below p changes the poles (witness). Holds at full multiplicity."
  },
  {
   "property": "C20",
   "status": "partial",
   "theorems": [
    "Gbs.C20_trim_partial",
    "Gbs.C20_decreasing_order",
    "Gbs.C20_decreasing_order_witness"
   ],
   "note": "Proved for u1 < u2, degree at least 1 and multiplicity at most p at the cut. False for u1 > u2 (negation proved): the stored bounds are then decreasing and no parameter can be evaluated."
  },
  {
   "property": "C21",
   "status": "proved",
   "theorems": [
    "Gbs.C21_reverse",
    "Gbs.C21_after_soft_trim",
    "Gbs.C21_soft_trim_witness"
   ],
   "note": "Mirror about the end knots. After a non permanent trim the bounds are not mirrored (theorem and witness)."
  },
  {
   "property": "C22",
   "status": "proved",
   "theorems": [
    "Gbs.C22_change_bounds"
   ],
   "note": ""
  },
  {
   "property": "C25",
   "status": "proved",
   "theorems": [
    "Gbs.C25_build_derivate",
    "Gbs.C25_build_integrate",
    "Gbs.C25_derivate_div_zero"
   ],
   "note": "build_derivate needs interior multiplicities at most p: otherwise the code divides by zero (theorem)."
  },
  {
   "property": "C52",
   "status": "proved",
   "theorems": [
    "Gbs.C52_continuity"
   ],
   "note": ""
  },
  {
   "property": "C12",
   "status": "proved",
   "theorems": [
    "Gbs.C12_equal_weights"
   ],
   "note": "Orders up to 60 (the machine binomials do not divide by zero there)."
  },
  {
   "property": "C13",
   "status": "proved",
   "theorems": [
    "Gbs.C13_scale_poles",
    "Gbs.C13_scale_weights",
    "Gbs.C13_scaled_weights_witness"
   ],
   "note": "All outcomes, for any data. scaled_weights ignores the mean it is given (witness)."
  },
  {
   "property": "C14",
   "status": "proved",
   "theorems": [
    "Gbs.C14_separate_merge",
    "Gbs.C14_merge_separate",
    "Gbs.C14_sizes",
    "Gbs.C14_null_weight_witness"
   ],
   "note": ""
  },
  {
   "property": "C15",
   "status": "proved",
   "theorems": [
    "Gbs.C15_quotient_rule",
    "Gbs.C15_derivatives",
    "Gbs.C15_iteratedDeriv",
    "Gbs.C15_order_21_witness",
    "Gbs.C15_null_weight_witness"
   ],
   "note": "Orders up to 20; at order 21 the size_t factorial overflows (witness). The weight must not vanish (witness)."
  },
  {
   "property": "C53",
   "status": "proved",
   "theorems": [
    "Gbs.C53_rational_convex_combination",
    "Gbs.C53_weight_pos"
   ],
   "note": ""
  },
  {
   "property": "C33",
   "status": "proved",
   "theorems": [
    "Gbs.C33_make_range",
    "Gbs.C33_make_range_2d",
    "Gbs.C33_make_range_3d",
    "Gbs.C33_make_range_int"
   ],
   "note": ""
  },
  {
   "property": "C34",
   "status": "proved",
   "theorems": [
    "Gbs.C34_parametrization",
    "Gbs.C34_normalized",
    "Gbs.C34_adimension_witness"
   ],
   "note": "Points in R^d with the Euclidean distance. A polyline not longer than the tolerance is left unnormalized (second part of C34_normalized, witness)."
  },
  {
   "property": "C51",
   "status": "partial",
   "theorems": [
    "Gbs.C51_insert_ordered",
    "Gbs.C51_insert_unique_partial",
    "Gbs.C51_duplicate_below_witness"
   ],
   "note": "insert_ordered is proved. insert_unique_ordered violates the property: an equal knot just below, within the tolerance, is not seen (witness); the exact condition of insertion is proved."
  },
  {
   "property": "C54",
   "status": "proved",
   "theorems": [
    "Gbs.C54_uniform_knots",
    "Gbs.C54_averaged_knots",
    "Gbs.C54_averaged_knots_repeated",
    "Gbs.C54_mult_knots",
    "Gbs.C54_degree_zero_witness",
    "Gbs.C54_too_few_poles"
   ],
   "note": ""
  },
  {
   "property": "C27",
   "status": "proved",
   "theorems": [
    "Gbs.C27_value_eq_sum",
    "Gbs.C27_mixed_derivative",
    "Gbs.C27_coordinate_bounds",
    "Gbs.C27_out_of_bounds",
    "Gbs.C27_derivatives_table",
    "Gbs.C27_constructor",
    "Gbs.C27_constructor_witness"
   ],
   "note": "Above degree 24 the code switches to recursive basis functions and the knots must be separated by more than the tolerance. The constructor accepts ill-formed sizes because of unsigned wrap-around (witness)."
  },
  {
   "property": "C28",
   "status": "proved",
   "theorems": [
    "Gbs.C28_invertUV_swaps",
    "Gbs.C28_invertUV_involutive",
    "Gbs.C28_transpose_poles",
    "Gbs.C28_transpose_poles_blocked",
    "Gbs.C28_transpose_involutive",
    "Gbs.C28_blocked_empty_witness"
   ],
   "note": "The double exchange resets the bounds to the end knots, and is the identity when they are the end knots."
  },
  {
   "property": "C29",
   "status": "proved",
   "theorems": [
    "Gbs.C29_insertKnotU",
    "Gbs.C29_insertKnotV"
   ],
   "note": ""
  },
  {
   "property": "C30",
   "status": "proved",
   "theorems": [
    "Gbs.C30_isoU",
    "Gbs.C30_isoV",
    "Gbs.C30_isoU_rational",
    "Gbs.C30_isoV_rational"
   ],
   "note": ""
  },
  {
   "property": "C31",
   "status": "partial",
   "theorems": [
    "Gbs.C31_pole_partial",
    "Gbs.C31_rows",
    "Gbs.C31_pole_witness"
   ],
   "note": "False of the code: pole(i,j) exchanges the indices (witness). What it returns, and that polesU/polesV are the rows and columns, is proved."
  },
  {
   "property": "C55",
   "status": "proved",
   "theorems": [
    "Gbs.C55_value",
    "Gbs.C55_leibniz"
   ],
   "note": ""
  },
  {
   "property": "C56",
   "status": "partial",
   "theorems": [
    "Gbs.C56_changeUBounds",
    "Gbs.C56_changeVBounds",
    "Gbs.C56_reverseU",
    "Gbs.C56_reverseV",
    "Gbs.C56_trimU_partial",
    "Gbs.C56_trimV_partial",
    "Gbs.C56_trimU_decreasing_witness"
   ],
   "note": "Degrees up to 24 (the evaluation without recursion). Trimming: increasing parameters only, the property being false for decreasing ones (witness); a derivative at the new last parameter needs the continuity of that order."
  },
  {
   "property": "C24",
   "status": "proved",
   "theorems": [
    "Gbs.C24_increaseBezier",
    "Gbs.C24_increaseBezier_overflow"
   ],
   "note": "Elevated degree up to 12; from 13 on the int factorial overflows (theorem)."
  },
  {
   "property": "C49",
   "status": "proved",
   "theorems": [
    "Gbs.C49_undo_insertion",
    "Gbs.C49_undo_insertion_tol",
    "Gbs.C49_removes",
    "Gbs.C49_counts",
    "Gbs.C49_curve_counts",
    "Gbs.C49_num_above_multiplicity_witness",
    "Gbs.C49_boolean_overload_negative",
    "Gbs.C49_boolean_overload_witness"
   ],
   "note": "The two overloads used by the library. The boolean overload is wrong (negative theorem and witness); asking for more removals than the multiplicity leaves the arrays (witness)."
  },
  {
   "property": "C58",
   "status": "proved",
   "theorems": [
    "Gbs.C58_increaseDegree",
    "Gbs.C58_increaseDegree_rational",
    "Gbs.C58_increaseDegree_overflow"
   ],
   "note": "Elevated degree up to 12; from 13 on the int factorial overflows for every such curve (theorem)."
  },
  {
   "property": "C59",
   "status": "proved",
   "theorems": [
    "Gbs.C59_increaseDegreeU",
    "Gbs.C59_increaseDegreeV"
   ],
   "note": "Degrees up to 12 after elevation (the other direction up to 24)."
  },
  {
   "property": "C57",
   "status": "proved",
   "theorems": [
    "Gbs.C57_removal_error",
    "Gbs.C57_removal_error_real"
   ],
   "note": "Any number of removals up to the multiplicity; the real version uses the norm of the space."
  },
  {
   "property": "C50",
   "status": "proved",
   "theorems": [
    "Gbs.C50_unify_knots",
    "Gbs.C50_unify_degree",
    "Gbs.C50_unify",
    "Gbs.C50_unify_degree_overflow",
    "Gbs.C50_close_knots_witness"
   ],
   "note": "Degrees up to 12 for the degree step (overflow theorem from 13 on), 24 for the knots; knots of different curves must be equal or further apart than the tolerance (witness when not)."
  },
  {
   "property": "C35",
   "status": "proved",
   "theorems": [
    "Gbs.C35_band_lu",
    "Gbs.C35_refused_witness"
   ],
   "note": "Every size, bandwidths, tolerance >= 0 and right-hand side; the accepted factorization gives the unique solution. Exact arithmetic."
  },
  {
   "property": "C36",
   "status": "proved",
   "theorems": [
    "Gbs.C36_build_poles",
    "Gbs.C36_interpolate_cn",
    "Gbs.C36_interpolate_nc",
    "Gbs.C36_interpolate_points",
    "Gbs.C36_interpolate_derivatives",
    "Gbs.C36_build_poles_constraints",
    "Gbs.C36_interpolate_bounds",
    "Gbs.C36_constraints_unisolvent",
    "Gbs.C36_bounds_unisolvent"
   ],
   "note": "Degrees up to 24 (above, the code never uses the band). When the band is refused, Eigen is only asked to solve regular systems: the systems for points and derivatives are proved regular (C36_interpolate_points, C36_interpolate_derivatives); arbitrary constraints must determine the poles (C36_constraints_unisolvent, C36_bounds_unisolvent). C36_build_poles_constraints and C36_interpolate_bounds are the versions that assume the solution of the given system."
  },
  {
   "property": "C26",
   "status": "proved",
   "theorems": [
    "Gbs.C26_ellipse",
    "Gbs.C26_quarters",
    "Gbs.C26_circle"
   ],
   "note": "Any square root function with sqrt(x)^2 = x >= 0 (instance over the reals), any dimension, any non-null radii; also the quarter points and the quadrants. Exact arithmetic."
  },
  {
   "property": "C46",
   "status": "partial",
   "theorems": [
    "Gbs.C46_single_frame",
    "Gbs.C46_two_frames",
    "Gbs.C46_from_reference_axes_partial",
    "Gbs.C46_witness"
   ],
   "note": "False of the code (witness): it composes with the matrix of the first frame instead of its inverse. The exact condition under which it is right is proved, and the transformation of one frame is right."
  },
  {
   "property": "C47",
   "status": "proved",
   "theorems": [
    "Gbs.C47_curve",
    "Gbs.C47_rational",
    "Gbs.C47_surface",
    "Gbs.C47_rational_surface",
    "Gbs.C47_translate",
    "Gbs.C47_translate_homogeneous",
    "Gbs.C47_scale",
    "Gbs.C47_scale_coord",
    "Gbs.C47_rotate2",
    "Gbs.C47_rotate3",
    "Gbs.C47_matrix",
    "Gbs.C47_null_weight_witness"
   ],
   "note": "Rational geometry: no null weight (witness otherwise), derivatives up to order 60. Derivatives are transformed by the linear part."
  },
  {
   "property": "C60",
   "status": "proved",
   "theorems": [
    "Gbs.C60_segment",
    "Gbs.C60_coincident_witness"
   ],
   "note": "Coincident points with the curvilinear parameter give a degenerate curve whose evaluation divides zero by zero (witness)."
  },
  {
   "property": "C32",
   "status": "proved",
   "theorems": [
    "Gbs.C32_build_batch",
    "Gbs.C32_build_batch_ends",
    "Gbs.C32_values",
    "Gbs.C32_terminate_witness"
   ],
   "note": "Two atomic steps per task, any interleaving. When an element throws above the gate, values() ends in std::terminate, unlike below it (C32_values, witness)."
  },
  {
   "property": "C48",
   "status": "partial",
   "theorems": [
    "Gbs.C48_reversed",
    "Gbs.C48_trimmed",
    "Gbs.C48_extended",
    "Gbs.C48_composite",
    "Gbs.C48_composite_below",
    "Gbs.C48_reversed_deriv",
    "Gbs.C48_composite_deriv",
    "Gbs.C48_extended_tangent",
    "Gbs.C48_extended_clamped_witness",
    "Gbs.C48_reparametrized",
    "Gbs.C48_reversed_bspline"
   ],
   "note": "Values and derivatives of all the wrappers are proved, but the derivative of a clamped extension beyond the bounds is false of the code (witness); a composite curve below its bounds leaves the array (theorem)."
  },
  {
   "property": "C61",
   "status": "partial",
   "theorems": [
    "Gbs.C61_first",
    "Gbs.C61_second_partial",
    "Gbs.C61_second_witness"
   ],
   "note": "Value and first derivative are right; the second derivative is false of the code (witness), its exact error is proved."
  },
  {
   "property": "C62",
   "status": "partial",
   "theorems": [
    "Gbs.C62_curvilinear",
    "Gbs.C62_offset2d",
    "Gbs.C62_offset3d_witness"
   ],
   "note": "Curvilinear derivatives and plane offsets are proved; the derivative of the space offset is false of the code (witness)."
  },
  {
   "property": "C63",
   "status": "partial",
   "theorems": [
    "Gbs.C63_circle2d",
    "Gbs.C63_circle3d",
    "Gbs.C63_circle_axis_partial",
    "Gbs.C63_axis_witness"
   ],
   "note": "Proved for the constructors with a frame; the constructor from an axis gives a wrong radius or plane in general (witness, exact condition proved)."
  },
  {
   "property": "C64",
   "status": "partial",
   "theorems": [
    "Gbs.C64_revolution_partial",
    "Gbs.C64_angle_derivatives_partial",
    "Gbs.C64_distance",
    "Gbs.C64_origin_witness"
   ],
   "note": "Proved for frames at the origin; false of the code for other origins (witness)."
  },
  {
   "property": "C65",
   "status": "proved",
   "theorems": [
    "Gbs.C65_line"
   ],
   "note": "The bounds are those given by numeric_limits: with min() > 0 the first point is outside of them."
  },
  {
   "property": "C45",
   "status": "proved",
   "theorems": [
    "Gbs.C45_orient",
    "Gbs.C45_in_circle",
    "Gbs.C45_in_triangle",
    "Gbs.C45_barycentric",
    "Gbs.C45_in_triangle_barycentric",
    "Gbs.C45_circle_center",
    "Gbs.C45_compute_uv",
    "Gbs.C45_min_max",
    "Gbs.C45_flat_triangle_witness",
    "Gbs.C45_barycentric_comment_witness"
   ],
   "note": "Exact arithmetic. Triangles are not flat: for flat ones in_triangle accepts points outside (witness)."
  },
  {
   "property": "C66",
   "status": "proved",
   "theorems": [
    "Gbs.C66_seg_seg",
    "Gbs.C66_seg_ray",
    "Gbs.C66_on_segment",
    "Gbs.C66_point_segment_witness"
   ],
   "note": "A segment reduced to a point contains no point for on_segment (witness)."
  },
  {
   "property": "C67",
   "status": "proved",
   "theorems": [
    "Gbs.C67_is_inside",
    "Gbs.C67_edges_ccw",
    "Gbs.C67_edges_area",
    "Gbs.C67_sphere_center_witness"
   ],
   "note": "The region is given by a triangulation; that every simple polygon has one is not proved. The witness shows that sphere_center is wrong."
  },
  {
   "property": "C37",
   "status": "proved",
   "theorems": [
    "Gbs.C37_make_loop",
    "Gbs.C37_make_face"
   ],
   "note": ""
  },
  {
   "property": "C38",
   "status": "proved",
   "theorems": [
    "Gbs.C38_flip"
   ],
   "note": ""
  },
  {
   "property": "C39",
   "status": "proved",
   "theorems": [
    "Gbs.C39_add_face",
    "Gbs.C39_add_face_refused"
   ],
   "note": ""
  },
  {
   "property": "C40",
   "status": "proved",
   "theorems": [
    "Gbs.C40_add_vertex",
    "Gbs.C40_add_vertex_face",
    "Gbs.C40_add_vertex_empty"
   ],
   "note": "The loop must not be empty: the code reads the back of an empty list (C40_add_vertex_empty)."
  },
  {
   "property": "C43",
   "status": "proved",
   "theorems": [
    "Gbs.C43_take_closed_loops",
    "Gbs.C43_oriented_boundaries"
   ],
   "note": ""
  },
  {
   "property": "C42",
   "status": "proved",
   "theorems": [
    "Gbs.C42_insert",
    "Gbs.C42_inserted",
    "Gbs.C42_refused"
   ],
   "note": "The meshes are those in which all the triangles are counter-clockwise. A point of an outer edge is refused (C42_refused), although the comment of the code says that the fallback always succeeds."
  },
  {
   "property": "C69",
   "status": "proved",
   "theorems": [
    "Gbs.C69_insert"
   ],
   "note": ""
  },
  {
   "property": "C70",
   "status": "proved",
   "theorems": [
    "Gbs.C70_delaunay",
    "Gbs.C70_inserted",
    "Gbs.C70_hull_missed"
   ],
   "note": "Predicates are exact in the model. The property is about what the code does; triangles whose circle has a corner of the encompassing rectangle may be missing, up to all of them (C70_hull_missed)."
  },
  {
   "property": "C71",
   "status": "proved",
   "theorems": [
    "Gbs.C71_remove_faces"
   ],
   "note": ""
  },
  {
   "property": "C41",
   "status": "partial",
   "theorems": [
    "Gbs.C41_split_partial",
    "Gbs.C41_crack"
   ],
   "note": "The mesh stays valid, but the property is false of the code: for every interior edge the half next to the start has no opposite on either side and the vertex designates an edge that does not end at it (C41_crack). Half-edges whose opposite is in the same face are excluded."
  },
  {
   "property": "C44",
   "status": "partial",
   "theorems": [
    "Gbs.C44_is_boundary_partial",
    "Gbs.C44_inverted"
   ],
   "note": "is_boundary answers the opposite: it is false for the vertices of open fans (C44_inverted)."
  },
  {
   "property": "C72",
   "status": "proved",
   "theorems": [
    "Gbs.C72_repair"
   ],
   "note": ""
  },
  {
   "property": "C68",
   "status": "partial",
   "theorems": [
    "Gbs.C68_present_partial",
    "Gbs.C68_never_recovers"
   ],
   "note": "The property is false of the code: the convexity test has its arguments in clockwise order and rejects all pairs of counter-clockwise triangles, so no edge is ever flipped and a missing edge is never recovered (C68_never_recovers, for all meshes). Edges already there are found."
  },
  {
   "property": "C73",
   "status": "proved",
   "theorems": [
    "Gbs.C73_faces",
    "Gbs.C73_find"
   ],
   "note": ""
  },
  {
   "property": "C74",
   "status": "proved",
   "theorems": [
    "Gbs.C74_orient2d_sign",
    "Gbs.C74_orient2d_range",
    "Gbs.C74_orient2d_double",
    "Gbs.C74_orient2d_underflow"
   ],
   "note": "The documentation claims it without a condition on the magnitudes, which is false for double because of underflow (C74_orient2d_underflow)."
  },
  {
   "property": "C75",
   "status": "proved",
   "theorems": [
    "Gbs.C75_two_sum",
    "Gbs.C75_two_diff",
    "Gbs.C75_fast_two_sum",
    "Gbs.C75_two_product",
    "Gbs.C75_expansion_sum"
   ],
   "note": "Exponents without bounds; C74_orient2d_range shows that in the range of C74 a bounded exponent makes no difference."
  },
  {
   "property": "C76",
   "status": "proved",
   "theorems": [
    "Gbs.C76_unique_averaged",
    "Gbs.C76_unique_hermite"
   ],
   "note": "Existence and uniqueness of the interpolant in exact arithmetic (Schoenberg-Whitney), without a solver."
  },
  {
   "property": "C77",
   "status": "proved",
   "theorems": [
    "Gbs.C77_extract_u",
    "Gbs.C77_extract_v",
    "Gbs.C77_extract_throws",
    "Gbs.C77_build_poles_grid",
    "Gbs.C77_build_poles_throws",
    "Gbs.C77_interpolate_grid",
    "Gbs.C77_interpolate_throws",
    "Gbs.C77_build_poles_constraints",
    "Gbs.C77_interpolate_constraints",
    "Gbs.C77_constraints_throw",
    "Gbs.C77_grid_unisolvent"
   ],
   "note": "Degrees 1 to 24. The dense solver is only assumed to solve regular systems; the grid system is proved regular, the constraints are assumed to determine the poles."
  },
  {
   "property": "C78",
   "status": "proved",
   "theorems": [
    "Gbs.C78_approx_knots",
    "Gbs.C78_approx_bound_fixed",
    "Gbs.C78_approx_with",
    "Gbs.C78_approx_uniform",
    "Gbs.C78_determines",
    "Gbs.C78_sizes"
   ],
   "note": "Degrees up to 24 (from 1 for fixed ends). The Cholesky solver is only assumed to solve regular systems; the normal system is proved regular when the parameters determine the poles, and C78_determines gives a criterion on the knots and parameters."
  },
  {
   "property": "C79",
   "status": "partial",
   "theorems": [
    "Gbs.C79_refine",
    "Gbs.C79_refine_not_worse",
    "Gbs.C79_refine_progress_partial",
    "Gbs.C79_refine_none",
    "Gbs.C79_approx_refined",
    "Gbs.C79_negative_parameters",
    "Gbs.C79_as_many_poles_as_points"
   ],
   "note": "The progress is only true for parameters that are not negative: with negative ones the code never refines (C79_negative_parameters, for all inputs). At least five points and more points than poles; otherwise an exception can be thrown (C79_as_many_poles_as_points). The result is least squares when the parameters determine its poles."
  },
  {
   "property": "C80",
   "status": "proved",
   "theorems": [
    "Gbs.C80_approx_grid",
    "Gbs.C80_approx_constraints",
    "Gbs.C80_grid_determines",
    "Gbs.C80_least_iff",
    "Gbs.C80_sizes",
    "Gbs.C80_short_grid",
    "Gbs.C80_too_few_parameters"
   ],
   "note": "Degrees up to 24. The solvers are only assumed to solve regular systems and to make the residual orthogonal when the rows determine the unknowns. Two ill-posed cases are not refused: less points than the grid has (C80_short_grid, read past the end) and less parameters than poles in one direction (C80_too_few_parameters)."
  },
  {
   "property": "C81",
   "status": "proved",
   "theorems": [
    "Gbs.C81_join_preserves",
    "Gbs.C81_join_gap",
    "Gbs.C81_join_rational",
    "Gbs.C81_join_mixed",
    "Gbs.C81_soft_trim_witness"
   ],
   "note": "Degrees 1 to 12, distinct knots farther apart than the knot tolerance. For rational curves the weights at the joined ends are not null; for a polynomial and a rational curve the derivatives go up to order 60. The documentation of join does not require the ends to coincide: C81_join_gap says what happens when they do not. Curves with bounds inside their knots are joined at their end knots (C81_soft_trim_witness)."
  },
  {
   "property": "C82",
   "status": "partial",
   "theorems": [
    "Gbs.C82_extention",
    "Gbs.C82_extended_at_end",
    "Gbs.C82_extended_at_end_rational",
    "Gbs.C82_extended_at_start",
    "Gbs.C82_extended_at_start_rational",
    "Gbs.C82_extended_end_partial",
    "Gbs.C82_extended_end_rational_partial",
    "Gbs.C82_extended_start_rational_partial",
    "Gbs.C82_extended_start_partial",
    "Gbs.C82_natural_ignored",
    "Gbs.C82_overshoot_witness"
   ],
   "note": "Degrees 1 to 12, distinct knots farther apart than the knot tolerance, a distance that is not too small for the tolerance. The dense solver is only assumed to solve regular systems; the system of an extension is proved regular. A rational curve has a non-null weight at the extended end and is preserved up to the projection. The part of the property that the extension goes on at the speed of the curve is false of the code (C82_overshoot_witness): the parameter interval is the square of the distance divided by the speed. Below degree 3 the natural end is ignored (C82_natural_ignored)."
  },
  {
   "property": "C83",
   "status": "proved",
   "theorems": [
    "Gbs.C83_unify_again",
    "Gbs.C83_loft_flat",
    "Gbs.C83_loft_params",
    "Gbs.C83_averaged_params",
    "Gbs.C83_loft_auto",
    "Gbs.C83_loft_rational",
    "Gbs.C83_loft_sizes",
    "Gbs.C83_loft_repeated",
    "Gbs.C83_loft_single"
   ],
   "note": "Degrees 1 to 12 along the sections, up to 24 across; distinct knots farther apart than the knot tolerance. The dense solver is only assumed to solve regular systems; the system is proved regular. Without given parameters consecutive sections must differ somewhere, or all be the same: a repeated section gets the parameter of the previous one and the system is singular (C83_loft_repeated), a single section throws (C83_loft_single), parameters in a wrong number never give a surface (C83_loft_sizes)."
  },
  {
   "property": "C84",
   "status": "partial",
   "theorems": [
    "Gbs.C84_join",
    "Gbs.C84_join_gap",
    "Gbs.C84_join_refuses",
    "Gbs.C84_join_weights_witness",
    "Gbs.C84_split_u",
    "Gbs.C84_split_v",
    "Gbs.C84_split_bound_witness"
   ],
   "note": "Degrees 1 to 12 along U, distinct knots farther apart than the knot tolerance, exactly equal knots along V for the junction; the points and derivatives are those of the homogeneous surface when it is rational. The property is false of the code for rational surfaces whose borders have the same points with other weights (C84_join_weights_witness), and for a split at a bound, which the assertion lets through (C84_split_bound_witness)."
  },
  {
   "property": "C85",
   "status": "proved",
   "theorems": [
    "Gbs.C85_unify_surfaces",
    "Gbs.C85_info",
    "Gbs.C85_degrees_witness",
    "Gbs.C85_close_knots_witness"
   ],
   "note": "Distinct knots, once brought to the bounds of the first surface, farther apart than the knot tolerance: closer knots stay different (C85_close_knots_witness). Surfaces of different degrees are accepted by the code and keep different knots (C85_degrees_witness). C85_info is about what the function is called with."
  },
  {
   "property": "C86",
   "status": "partial",
   "theorems": [
    "Gbs.C86_gordon_partial",
    "Gbs.C86_gordon_checked",
    "Gbs.C86_not_touching",
    "Gbs.C86_gordon_overhang_witness"
   ],
   "note": "Proved for families whose curves have the same bounds, cross exactly, and whose crossings go from bound to bound; degrees 1 to 12, distinct knots farther apart than the knot tolerance. The minimisation that finds the crossings is a parameter and the dense solver is only assumed to solve regular systems. What is missing is false of the code: curves that go beyond the crossings are accepted, and the surface does not contain them (C86_gordon_overhang_witness); with parallel algorithms the documented exception for curves that do not touch ends the program (C86_not_touching)."
  },
  {
   "property": "C87",
   "status": "partial",
   "theorems": [
    "Gbs.C87_spine_loft_partial",
    "Gbs.C87_spine_loft_rational_partial",
    "Gbs.C87_two_sections",
    "Gbs.C87_three_sections",
    "Gbs.C87_uneven_sections",
    "Gbs.C87_uneven_chord",
    "Gbs.C87_too_few"
   ],
   "note": "Proved when points and tangents at the parameters of the sections determine the curves of the degree and knots across: always for two sections (C87_two_sections), and for three when the second one is strictly between 1/5 and 3/5 of the interval (C87_three_sections). What is missing is false of the code: for three sections outside of this interval the system is singular (C87_uneven_sections), and in general no surface of those degree and knots has the sections and the tangents (C87_uneven_chord). The minimisation that finds the points of the spine is a parameter and the dense solver is only assumed to solve regular systems; degrees 1 to 12, distinct knots farther apart than the knot tolerance."
  },
  {
   "property": "C88",
   "status": "partial",
   "theorems": [
    "Gbs.C88_extention_partial",
    "Gbs.C88_extended_partial",
    "Gbs.C88_short_curve",
    "Gbs.C88_other_knots_witness",
    "Gbs.C88_rational_witness"
   ],
   "note": "Proved for polynomial surfaces and curves with the degree and knots of the surface along V, a nonzero tangent across the border, a mean step greater than the knot tolerance times the degree, and, for the extended surface, degrees 1 to 12 along U and distinct knots farther apart than the knot tolerance. The dense solver is only assumed to solve regular systems and the norm of points is a parameter. What is missing is false of the code: for rational surfaces (C88_rational_witness), for curves with other knots (C88_other_knots_witness) and for curves with fewer poles, which are read out of bounds (C88_short_curve)."
  },
  {
   "property": "C89",
   "status": "partial",
   "theorems": [
    "Gbs.C89_length_curve",
    "Gbs.C89_determines",
    "Gbs.C89_exact",
    "Gbs.C89_corners",
    "Gbs.C89_extended_partial",
    "Gbs.C89_at_u_start_partial",
    "Gbs.C89_at_v_end_partial",
    "Gbs.C89_at_v_start_partial",
    "Gbs.C89_length_witness",
    "Gbs.C89_uneven_witness"
   ],
   "note": "Proved for polynomial surfaces of degrees 1 to 12 across the border, with distinct knots farther apart than the knot tolerance, a nonzero tangent across the border, and parameters that determine the curves on the knots along the border, for instance when its spans are wide enough (C89_determines). The dense solver is only assumed to solve regular systems; the norm of points is a parameter, even for the extensions at a start. What is missing is false of the code: the end border is at the length only at the corners and where a curve on the knots can follow it (C89_length_witness, C89_exact), and with uneven knots along the border the system is singular (C89_uneven_witness). Rational surfaces are not covered: C88_rational_witness shows that their extension leaves the border."
  },
  {
   "property": "C90",
   "status": "partial",
   "theorems": [
    "Gbs.C90_delta",
    "Gbs.C90_delta_least",
    "Gbs.C90_point",
    "Gbs.C90_fixed_keeps",
    "Gbs.C90_point_fixed",
    "Gbs.C90_fixed_end",
    "Gbs.C90_constraints_partial",
    "Gbs.C90_no_constraints",
    "Gbs.C90_constraints_witness"
   ],
   "note": "Degrees at least 1, distinct knots farther apart than the knot tolerance; the dense solver is only assumed to solve regular systems. moved_to_point and moved_to_constraints_delta are proved. moved_to_constraints is false of the code (C90_constraints_witness): it adds the constraints to the values instead of reaching them (C90_constraints_partial). The ends cannot be reached when they are fixed (C90_fixed_end)."
  },
  {
   "property": "C91",
   "status": "partial",
   "theorems": [
    "Gbs.C91_delta",
    "Gbs.C91_point",
    "Gbs.C91_point_fixed",
    "Gbs.C91_fixed_keeps",
    "Gbs.C91_constraints",
    "Gbs.C91_constraints_partial",
    "Gbs.C91_empty",
    "Gbs.C91_orders_witness"
   ],
   "note": "Degrees 1 to 24, distinct knots farther apart than the knot tolerance; the dense solver is only assumed to solve regular systems. Proved for constraints without derivation, no more than the moved poles. False of the code for constraints with derivatives, whose orders are ignored by the matrix (C91_orders_witness); what is obtained is proved (C91_constraints_partial)."
  },
  {
   "property": "C92",
   "status": "partial",
   "theorems": [
    "Gbs.C92_blend",
    "Gbs.C92_mesh",
    "Gbs.C92_params",
    "Gbs.C92_contains",
    "Gbs.C92_contains_each",
    "Gbs.C92_sizes",
    "Gbs.C92_sizes_step",
    "Gbs.C92_sizes_each",
    "Gbs.C92_sizes_number",
    "Gbs.C92_short_segment",
    "Gbs.C92_short_segment_witness"
   ],
   "note": "Proved for the meshes from curves (both overloads, with and without derivatives, with and without slope control, blends of degree at most 24) when every segment gets two nodes or more. The sparse solver is only assumed to solve regular systems; the values, lengths and inverse curvilinear abscissas of the curves and the rounding are parameters. What is missing is false of the code: a segment shorter than half the step gets one node, and the list of its parameters is written out of bounds (C92_sizes, C92_short_segment, C92_short_segment_witness)."
  },
  {
   "property": "C93",
   "status": "partial",
   "theorems": [
    "Gbs.C93_params",
    "Gbs.C93_ends",
    "Gbs.C93_points",
    "Gbs.C93_curve",
    "Gbs.C93_grid",
    "Gbs.C93_few",
    "Gbs.C93_closed_chord",
    "Gbs.C93_more_than_max",
    "Gbs.C93_max_witness",
    "Gbs.C93_twice_witness",
    "Gbs.C93_iso_partial",
    "Gbs.C93_iso_no_end"
   ],
   "note": "The norms of points and of vector products are parameters (not negative, null for a null vector). Proved for curves with at least two first parameters, and for grids of surfaces. What is missing is false of the code: the maximum number of points is only compared with the number of the first parameters (C93_more_than_max, C93_max_witness), a knot that is one of them comes twice (C93_twice_witness), a chord with the same point at both ends is never refined (C93_closed_chord), one parameter cannot be asked (C93_few), and along iso-curves of surfaces the refinement may never end (C93_iso_no_end); when it ends the list is right (C93_iso_partial)."
  },
  {
   "property": "C94",
   "status": "partial",
   "theorems": [
    "Gbs.C94_iterations",
    "Gbs.C94_kept",
    "Gbs.C94_unique",
    "Gbs.C94_runs",
    "Gbs.C94_fixed",
    "Gbs.C94_parallelograms",
    "Gbs.C94_degenerate",
    "Gbs.C94_degenerate_witness",
    "Gbs.C94_block_too_wide",
    "Gbs.C94_python",
    "Gbs.C94_python_witness"
   ],
   "note": "Proved for the C++ function and blocks inside the grid, in exact arithmetic. What is missing is false of the code: blocks that reach the end of the lines are not refused (C94_block_too_wide), a folded node divides by zero (C94_degenerate), and the Python function ignores the number of iterations (C94_python, C94_python_witness)."
  },
  {
   "property": "C95",
   "status": "partial",
   "theorems": [
    "Gbs.C95_refused",
    "Gbs.C95_added",
    "Gbs.C95_add",
    "Gbs.C95_order",
    "Gbs.C95_on_curves",
    "Gbs.C95_total",
    "Gbs.C95_bounds",
    "Gbs.C95_one",
    "Gbs.C95_edges",
    "Gbs.C95_polygon",
    "Gbs.C95_tessellate",
    "Gbs.C95_not_closed",
    "Gbs.C95_not_connected",
    "Gbs.C95_shared",
    "Gbs.C95_tessellate_trimmed"
   ],
   "note": "The search of the nearest point, the distance and the discretization are parameters; the nearest point is not farther than the vertices of the edge. Proved for edges that are not yet in the wire and have a tolerance not less than its own; that edges stay near their curves and that nothing is undefined is proved for all. What is missing is false of the code: an edge with a smaller tolerance is added without being joined (C95_not_connected), an edge joined at one end and only near the other does not close the wire (C95_not_closed), an edge in two wires disconnects one of them (C95_shared), the tessellation ignores the bounds of the edge (C95_tessellate_trimmed). Wire::close does not compile."
  },
  {
   "property": "C96",
   "status": "partial",
   "theorems": [
    "Gbs.C96_c2",
    "Gbs.C96_c2_scaled",
    "Gbs.C96_c3",
    "Gbs.C96_cn",
    "Gbs.C96_ellipse",
    "Gbs.C96_ellipse_degenerate",
    "Gbs.C96_parallel",
    "Gbs.C96_c2_plane",
    "Gbs.C96_sides",
    "Gbs.C96_c3_plane",
    "Gbs.C96_through",
    "Gbs.C96_through_parallel",
    "Gbs.C96_low_degree",
    "Gbs.C96_touching"
   ],
   "note": "Proved for curves given by any evaluation; the norm is a parameter and the solvers are only assumed to solve regular systems; the systems are proved regular. What is missing is false of the code: degrees not above the order (C96_low_degree), ends that touch (C96_touching), parallel tangents with the coefficient e (C96_parallel, C96_through_parallel, C96_ellipse_degenerate), and sides that are not taken, whose second derivative has the wrong sign (C96_sides)."
  },
  {
   "property": "C97",
   "status": "partial",
   "theorems": [
    "Gbs.C97_polygon_partial",
    "Gbs.C97_leaks",
    "Gbs.C97_misses"
   ],
   "note": "Proved for points that are all different, when every side of the rings is a side of a triangle of the Delaunay triangulation and the triangles around each vertex make one fan; in exact arithmetic. What is missing is false of the code: a side which is not there is not recovered and the fill leaks through it (C97_leaks, C68_never_recovers), and triangles of the hull are missing when a corner of the encompassing rectangle is in their circle (C97_misses)."
  },
  {
   "property": "C98",
   "status": "partial",
   "theorems": [
    "Gbs.C98_rectangle",
    "Gbs.C98_boundary",
    "Gbs.C98_base_partial",
    "Gbs.C98_out_of_bounds",
    "Gbs.C98_uncovered"
   ],
   "note": "The discretization of the sides is that of C93. That any points of the border of a rectangle with its corners are triangulated over exactly the rectangle is proved for encompassing rectangles enlarged by at most 100 times (the default is 10). What is missing is false of the code: meshSurfaceBoundary returns the point (0,0) twice after the points of the border, so the mesh is that of the rectangle only if the origin is on its border (C98_out_of_bounds, C98_uncovered)."
  },
  {
   "property": "C99",
   "status": "partial",
   "theorems": [
    "Gbs.C99_refine_partial",
    "Gbs.C99_surface_partial",
    "Gbs.C99_empty",
    "Gbs.C99_not_met",
    "Gbs.C99_dummy"
   ],
   "note": "Proved for any criterion, in exact arithmetic. What is missing is false of the code: the loop ends after an insertion that follows the last test, so the mesh returned may not meet the criterion (C99_not_met), the origin is inserted in a mesh whose triangles share no side (C99_dummy), and no triangle to refine is undefined behaviour (C99_empty). The mesh of a surface is proved to cover the rectangle when the origin is on its border (C98). The other overload, which smooths, is that of C102."
  },
  {
   "property": "C100",
   "status": "partial",
   "theorems": [
    "Gbs.C100_internal_partial",
    "Gbs.C100_external_partial",
    "Gbs.C100_add_inner_partial",
    "Gbs.C100_add_outer_partial",
    "Gbs.C100_away",
    "Gbs.C100_side_missed",
    "Gbs.C100_links_taken",
    "Gbs.C100_hole"
   ],
   "note": "Proved for boundaries whose sides cut no face, and for the rings added to a Delaunay triangulation when each side has a circle that leaves the other points outside, which is proved to imply it; the tolerance must not reach the centroids, which always holds for a null one (C100_away). What is missing is false of the code: a side that is not a Delaunay edge is not recovered (C100_side_missed), the faces returned are not correctly linked (C100_links_taken), and delaunay2DBoyerWatson with an inner boundary does not insert its points (C100_hole)."
  },
  {
   "property": "C101",
   "status": "partial",
   "theorems": [
    "Gbs.C101_curve",
    "Gbs.C101_rational",
    "Gbs.C101_surface",
    "Gbs.C101_rational_surface",
    "Gbs.C101_surface_exact",
    "Gbs.C101_exact",
    "Gbs.C101_revolution",
    "Gbs.C101_surface_three",
    "Gbs.C101_only",
    "Gbs.C101_thrown",
    "Gbs.C101_lost",
    "Gbs.C101_dimension",
    "Gbs.C101_merged",
    "Gbs.C101_zero_weight"
   ],
   "note": "Proved for every curve and surface made by the constructors, with degrees below 2^32, and curves on surfaces of any nesting. The text of the document (rapidjson) is not modelled. What is missing is false of the code: knots within the tolerance are merged (C101_merged), poles of weight zero are lost (C101_zero_weight), composite, trimmed and offset curves are written but cannot be read (C101_only, C101_thrown) and the surface of a curve on a surface of revolution is lost (C101_lost)."
  },
  {
   "property": "C102",
   "status": "partial",
   "theorems": [
    "Gbs.C102_refine_partial",
    "Gbs.C102_neighbours",
    "Gbs.C102_smoothing",
    "Gbs.C102_not_restored",
    "Gbs.C102_exact_criterion"
   ],
   "note": "Proved for any criterion and any order of the half-edges, in exact arithmetic. What is missing is false of the code: the neighbours returned are copies of the vertex itself, so nothing is smoothed (C102_neighbours, C102_smoothing), the loop that should restore the Delaunay condition flips only the edges whose four points are on a circle (C102_not_restored), a point that is not inserted is undefined behaviour, and with a null tolerance the loop never ends early (C102_exact_criterion). The qualities of the faces that are flipped are not updated by the code, so the triangle chosen may not be the worst."
  },
  {
   "property": "C103",
   "status": "partial",
   "theorems": [
    "Gbs.C103_curve_point_from_partial",
    "Gbs.C103_curve_point_partial",
    "Gbs.C103_surf_point_from_partial",
    "Gbs.C103_surf_point_partial",
    "Gbs.C103_curves_from_partial",
    "Gbs.C103_curves_partial",
    "Gbs.C103_surf_curve_from_partial",
    "Gbs.C103_surf_curve_order",
    "Gbs.C103_surf_curve_start",
    "Gbs.C103_lines",
    "Gbs.C103_deviation_partial",
    "Gbs.C103_coordinates_partial",
    "Gbs.C103_coordinates_negative",
    "Gbs.C103_second_derivative",
    "Gbs.C103_squared",
    "Gbs.C103_touching",
    "Gbs.C103_not_curvature",
    "Gbs.C103_gradient_point",
    "Gbs.C103_gradient_surface",
    "Gbs.C103_gradient_curves",
    "Gbs.C103_gradient_surf_curve",
    "Gbs.C103_gradient_plane",
    "Gbs.C103_gradient_curvature"
   ],
   "note": "NLopt is a parameter, assumed to stay in the box and not to go up from the first value. The number returned is proved to be the square of the distance (C103_squared, C103_touching). False of the code: the gradients of two curves and of a surface and a curve, the first values of the search of a surface and a curve (it throws or starts elsewhere), the coordinates where they are negative, and the curvature (C103_not_curvature)."
  },
  {
   "property": "C104",
   "status": "partial",
   "theorems": [
    "Gbs.C104_polynomial",
    "Gbs.C104_line",
    "Gbs.C104_law",
    "Gbs.C104_law_exact",
    "Gbs.C104_params",
    "Gbs.C104_constant_speed",
    "Gbs.C104_discretize",
    "Gbs.C104_length",
    "Gbs.C104_length_derivatives",
    "Gbs.C104_adaptive_partial",
    "Gbs.C104_never_adapts",
    "Gbs.C104_length_function_partial",
    "Gbs.C104_not_increasing"
   ],
   "note": "The quadrature is a parameter (exact in C104_length); the sparse solver is only assumed to solve regular systems; degrees up to 24. What is missing is false of the code: the law is not increasing and leaves the bounds (C104_not_increasing), and the adaptive discretization is undefined as soon as an interval has to be cut, because of an invalidated iterator (C104_adaptive_partial), which never happens with exact lengths (C104_never_adapts)."
  },
  {
   "property": "C105",
   "status": "partial",
   "theorems": [
    "Gbs.C105_area",
    "Gbs.C105_area_insert",
    "Gbs.C105_sag",
    "Gbs.C105_gap",
    "Gbs.C105_size",
    "Gbs.C105_turn",
    "Gbs.C105_deviation",
    "Gbs.C105_deviation_plane",
    "Gbs.C105_deviation_mesh",
    "Gbs.C105_shape",
    "Gbs.C105_edge_split",
    "Gbs.C105_shape2",
    "Gbs.C105_shape2_equilateral",
    "Gbs.C105_middle_inserted",
    "Gbs.C105_centroid_inserted",
    "Gbs.C105_worst_inserted",
    "Gbs.C105_progress"
   ],
   "note": "Faces are triangles in the plane of the parameters; exact arithmetic. DistanceMeshSurface does not compile and is not modelled. What is missing is false of the code: the deviation of the normals takes the corners in the other order and is 2 instead of 0 on a plane (C105_deviation_plane, C105_deviation_mesh), TriangleShape2 compares scalar products that are not normalised (C105_shape2, C105_shape2_equilateral), and with a library that compares with == TriangleShapeEdgeSplit takes the first side (C105_edge_split)."
  },
  {
   "property": "C106",
   "status": "partial",
   "theorems": [
    "Gbs.C106_determines",
    "Gbs.C106_samples",
    "Gbs.C106_tol_poles",
    "Gbs.C106_tol",
    "Gbs.C106_between",
    "Gbs.C106_between_witness",
    "Gbs.C106_mapped",
    "Gbs.C106_exact",
    "Gbs.C106_polynomial",
    "Gbs.C106_knots",
    "Gbs.C106_mode",
    "Gbs.C106_mode_poles",
    "Gbs.C106_chord_bounds",
    "Gbs.C106_to_bs_curve",
    "Gbs.C106_bounds_witness",
    "Gbs.C106_uniform",
    "Gbs.C106_uniform_constant_speed"
   ],
   "note": "The Cholesky solver is only assumed to answer and to solve regular systems; degrees up to 24; fewer poles than samples, at least five samples. That the tolerance is met is not proved, the code does not ensure it. What is missing is false of the code: the approximation between two parameters is that of the whole curve (C106_between, C106_between_witness), and to_bs_curve and the approximations with a mode do not keep the bounds of the parameters (C106_to_bs_curve, C106_bounds_witness)."
  },
  {
   "property": "C107",
   "status": "partial",
   "theorems": [
    "Gbs.C107_compute",
    "Gbs.C107_new",
    "Gbs.C107_even",
    "Gbs.C107_steps",
    "Gbs.C107_steps6",
    "Gbs.C107_even_steps",
    "Gbs.C107_leaves"
   ],
   "note": "Numbers of points below 2^53. The sparse solver is only assumed to solve regular systems, the quadrature to give lengths that add up. The abscissae are those of the law of 30 samples, exact at them (C104). What is missing is false of the code: computing points before their number is set is undefined (C107_new), and the law of given steps can leave the curve, so that there are no points (C107_leaves). With less than 4 points (6 with ratios) the parameters of the law are repeated or not sorted: not claimed."
  },
  {
   "property": "C108",
   "status": "proved",
   "theorems": [
    "Gbs.Spec.OffsetOf.unique",
    "Gbs.C108_point",
    "Gbs.C108_points",
    "Gbs.determines_of_full_spans",
    "Gbs.determines_of_step",
    "Gbs.C108_approx",
    "Gbs.C108_exact",
    "Gbs.C108_plane",
    "Gbs.C108_witness"
   ],
   "note": "Polynomial surfaces: for rational ones offset_approx does not compile. Clamped knots whose multiplicities are at most the degree plus one, degrees up to 24. The dense solver is only assumed to solve regular systems; that evenly spaced samples make the system regular is proved. Where the normal vanishes the program divides by zero (C108_point)."
  },
  {
   "property": "C109",
   "status": "partial",
   "theorems": [
    "Gbs.C109_tangents",
    "Gbs.C109_line",
    "Gbs.C109_ends",
    "Gbs.C109_few",
    "Gbs.C109_directions",
    "Gbs.C109_direction_parabola",
    "Gbs.C109_directions_exist",
    "Gbs.C109_hermite",
    "Gbs.C109_computed",
    "Gbs.C109_reproduces",
    "Gbs.C109_not_reproduces",
    "Gbs.C109_degree_refused",
    "Gbs.C109_degree",
    "Gbs.C109_mode",
    "Gbs.C109_constrain",
    "Gbs.C109_witness",
    "Gbs.C109_direction_witness"
   ],
   "note": "Increasing parameters, degrees up to 24; the sparse solver is only assumed to solve regular systems. What is missing is false of the code: the vectors of the two ends are not the derivatives of the parabolas (C109_ends: for points of a line the first is right only when the first step is 1, the last only when the last step is 1/2); the last direction is not a unit vector, and the directions are those of the parabolas only for equal steps (C109_direction_witness); the interpolation with computed derivatives of points of a line stops at both ends (C109_not_reproduces)."
  },
  {
   "property": "C110",
   "status": "partial",
   "theorems": [
    "Gbs.C110_ball",
    "Gbs.C110_tangent",
    "Gbs.C110_answers",
    "Gbs.C110_parallel_witness",
    "Gbs.C110_no_ball_witness"
   ],
   "note": "NLopt is only assumed to stay between the bounds and not to be worse than its start; exact arithmetic. What is missing is false of the code: curves taken for parallel get the middle of two points, which need not be on the normals (C110_parallel_witness); when no ball exists a centre is returned and nothing tells it (C110_no_ball_witness); a parameter that is not one of the second curve is refused."
  },
  {
   "property": "C111",
   "status": "proved",
   "theorems": [
    "Gbs.C111_derivatives",
    "Gbs.C111_lists",
    "Gbs.C111_line_u",
    "Gbs.C111_line_v",
    "Gbs.C111_tangent_line",
    "Gbs.C111_normal_line",
    "Gbs.C111_two_normals"
   ],
   "note": "Exact arithmetic. The direction of the normal of space is stated as the code has it, away from the centre of curvature; that of the plane is on the left (C111_two_normals)."
  },
  {
   "property": "C112",
   "status": "partial",
   "theorems": [
    "Gbs.C112_intersections_partial",
    "Gbs.C112_gap_accepted",
    "Gbs.C112_check",
    "Gbs.C112_project",
    "Gbs.C112_iso_lines_partial",
    "Gbs.C112_iso_lines_shifted"
   ],
   "note": "NLopt is only assumed to stay between the bounds and not to be worse than its start; exact arithmetic. What is missing is false of the code: the tolerance is compared with the square of the distance, so curves up to the root of the tolerance apart are accepted (C112_gap_accepted); the lines taken from a surface start at the parameter 0 whatever the first parameter asked for, so they are shifted, or cannot be evaluated, when it is not 0 (C112_iso_lines_shifted)."
  },
  {
   "property": "C113",
   "status": "partial",
   "theorems": [
    "Gbs.C113_split_partial",
    "Gbs.C113_white_vanishes",
    "Gbs.C113_read_partial",
    "Gbs.C113_refused",
    "Gbs.C113_one_column"
   ],
   "note": "stod is a parameter and the file is the list of its lines. What is missing is false of the code: a line without the separator has no word, so points of dimension 1 written one on each line are refused (C113_one_column); white space other than the separator is removed instead of separating, so that two numbers with a tabulation between them are read as one number (C113_white_vanishes)."
  },
  {
   "property": "C114",
   "status": "proved",
   "theorems": [
    "Gbs.C114_columns",
    "Gbs.C114_interpolates",
    "Gbs.C114_cut",
    "Gbs.C114_short"
   ],
   "note": "The sparse solver of Eigen is a parameter, assumed to solve the system it is given when the band is refused; exact arithmetic."
  },
  {
   "property": "C115",
   "status": "proved",
   "theorems": [
    "Gbs.C115_sections",
    "Gbs.C115_few_sections",
    "Gbs.C115_least_squares",
    "Gbs.C115_undetermined",
    "Gbs.C115_target_poles",
    "Gbs.C115_too_few",
    "Gbs.C115_domain_witness",
    "Gbs.C115_clustered_witness"
   ],
   "note": "The minimisation that finds the feet of the sections on the spine is a parameter, as is the dense solver, which is only assumed to solve regular systems; feet that go from one end to the other in one direction, over more than the tolerance. Degrees 1 to 12 along the sections, up to 24 across; distinct knots farther apart than the knot tolerance. Poles are in homogeneous coordinates for rational sections: C83_loft_rational says what this gives for their points."
  },
  {
   "property": "C116",
   "status": "proved",
   "theorems": [
    "Gbs.C116_faces",
    "Gbs.C116_complete",
    "Gbs.C116_witness"
   ],
   "note": "Coordinates in an ordered field, so that orient_2d and in_circle are exact; half-edges of trials that are left out stay in the store, where no face refers to them. Crossing is what seg_seg_strict_intersection tells, in which short or nearly parallel sides never cross."
  },
  {
   "property": "C117",
   "status": "proved",
   "theorems": [
    "Gbs.C117_matrix",
    "Gbs.C117_recursive",
    "Gbs.C117_least_squares",
    "Gbs.C117_separates"
   ],
   "note": "Degrees 1 to 12 (the size of the buffers on the stack; degree 0 is not covered by C117_recursive); the matrix has the size that the grid and the knots ask for. The factorizations of Eigen are parameters, assumed to solve regular systems or to return the solution of the normal equations when the rows determine the unknowns. Coordinates in an ordered field."
  },
  {
   "property": "C118",
   "status": "partial",
   "theorems": [
    "Gbs.C118_faces",
    "Gbs.C118_vector",
    "Gbs.C118_loop",
    "Gbs.C118_unset",
    "Gbs.C118_open",
    "Gbs.C118_witness"
   ],
   "note": "Proved for the faces, and for half-edges that close. Not true of half-edges that do not close: when the first one has nothing before it the last identifier is not stored, and when the half-edge before it ends elsewhere the polyline does not contain the start of the first half-edge. The normals and the kinds of the cells of VTK are not modelled."
  },
  {
   "property": "C119",
   "status": "partial",
   "theorems": [
    "Gbs.C119_curve",
    "Gbs.C119_rational",
    "Gbs.C119_plane",
    "Gbs.C119_surface",
    "Gbs.C119_revolution",
    "Gbs.C119_origin",
    "Gbs.C119_witness"
   ],
   "note": "Proved for the curves and surfaces of the space and for the axis and profile of surfaces of revolution. Not true of plane curves, whose array is too short for an entity 126, and of surfaces of revolution whose axis does not pass through the origin, which are exported right but evaluated wrong. libIGES is not in the sources: it is assumed to read three coordinates for each pole, and a weight when the curve is rational, as the entities of IGES have; the rational poles are given multiplied by their weights, and whether the library expects that is not checked. The approximation of other profiles, labels, flags and the file are not modelled."
  },
  {
   "property": "C120",
   "status": "partial",
   "theorems": [
    "Gbs.C120_curve",
    "Gbs.C120_surface",
    "Gbs.C120_rational",
    "Gbs.C120_rational_default",
    "Gbs.C120_rational_surface",
    "Gbs.C120_witness"
   ],
   "note": "Proved for curves and surfaces without weights, with all their derivatives. Not true of rational ones, for which the value takes the place of the weight: proved what the result is, and when it is the one expected. The result is always made from the whole curve, with the bounds of the knots."
  },
  {
   "property": "C121",
   "status": "proved",
   "theorems": [
    "Gbs.C121_faces",
    "Gbs.C121_symmetric",
    "Gbs.C121_common",
    "Gbs.C121_turn",
    "Gbs.C121_turn_none",
    "Gbs.C121_witness"
   ],
   "note": "Proved on any valid mesh of triangles."
  },
  {
   "property": "C122",
   "status": "partial",
   "theorems": [
    "Gbs.C122_same",
    "Gbs.C122_unify",
    "Gbs.C122_degrees",
    "Gbs.C122_bounds_lost",
    "Gbs.C122_unified",
    "Gbs.C122_witness"
   ],
   "note": "Proved for curves that are not trimmed, with different knots further apart than the tolerance. Not true of trimmed curves: the bounds of all curves but the first are ignored."
  },
  {
   "property": "C123",
   "status": "partial",
   "theorems": [
    "Gbs.C123_convert",
    "Gbs.C123_loft_params",
    "Gbs.C123_loft",
    "Gbs.C123_bounds_lost",
    "Gbs.C123_bounds_witness"
   ],
   "note": "Proved when the conversions of the sections are clamped, not trimmed, of degree at most 12 and with different knots further apart than the tolerance. Not true of the code for a section that is trimmed, which is lofted whole. A section that is not a BSCurve, a rational one included, is met at its ends only; the lines of the surface are its approximation (C106)."
  },
  {
   "property": "C124",
   "status": "partial",
   "theorems": [
    "Gbs.C124_cn_params",
    "Gbs.C124_cn_mode",
    "Gbs.C124_interp_params",
    "Gbs.C124_interp_given",
    "Gbs.C124_interp_mode",
    "Gbs.C124_given_refused",
    "Gbs.C124_refused",
    "Gbs.C124_mode_refused",
    "Gbs.C124_params_ignored",
    "Gbs.C124_specified_empty",
    "Gbs.C124_short_row",
    "Gbs.C124_witness"
   ],
   "note": "Proved for documents with the members of the format, increasing parameters and degrees up to 24. Not true of the code for parameters without the mode SPECIFIED, which are ignored, for that mode with no parameters, which is taken for that of the chords, and for a second row shorter than the first, which is read outside its bounds."
  },
  {
   "property": "C125",
   "status": "partial",
   "theorems": [
    "Gbs.C125_max_abs",
    "Gbs.C125_max",
    "Gbs.C125_max_negative",
    "Gbs.C125_min_abs",
    "Gbs.C125_min",
    "Gbs.C125_min_crossing",
    "Gbs.C125_refused",
    "Gbs.C125_solve",
    "Gbs.C125_witness"
   ],
   "note": "The iterations of Newton and the search of Brent, of Boost, are only assumed to find a root or a least value when there is one. Proved when no coordinate is negative. Not true of the code otherwise: the searches are those of the greatest and of the least absolute value, so that the greatest coordinate of a curve without positive ones is its least one, and the least one of a curve that crosses zero is zero; and the value returned is the inverse of the square, or the square, of the coordinate."
  },
  {
   "property": "C126",
   "status": "proved",
   "theorems": [
    "Gbs.C126_perimeter",
    "Gbs.C126_incenter",
    "Gbs.C126_unique",
    "Gbs.C126_point",
    "Gbs.C126_witness"
   ],
   "note": "The square root is any function that returns a root that is not negative of the numbers that have one; the arithmetic is exact. Three equal points have no incentre: the quotient is 0/0."
  },
  {
   "property": "C127",
   "status": "partial",
   "theorems": [
    "Gbs.C127_circulation",
    "Gbs.C127_begin_equals_end",
    "Gbs.C127_empty_face",
    "Gbs.C127_open_face",
    "Gbs.C127_open_edges",
    "Gbs.C127_triangle_vertices",
    "Gbs.C127_reverse",
    "Gbs.C127_reverse_twice",
    "Gbs.C127_witness"
   ],
   "note": "Proved for faces whose half-edges are closed, and for closed boundaries. Not true of the code otherwise: the iterators of the start and of the end are both equal and different, and the loop over a face without half-edge, or whose half-edges are not closed, does not end. The vertices returned for a triangle turn the other way than its half-edges."
  },
  {
   "property": "C128",
   "status": "partial",
   "theorems": [
    "Gbs.C128_point",
    "Gbs.C128_along",
    "Gbs.C128_straight",
    "Gbs.C128_constant",
    "Gbs.C128_order",
    "Gbs.C128_witness"
   ],
   "note": "The points are proved to be the offset ones where the curve is not along the direction. The derivatives are not those of the offset curve: for a constant offset they are those of the curve itself, or 0/0 where it is straight."
  },
  {
   "property": "C129",
   "status": "proved",
   "theorems": [
    "Gbs.C129_plane",
    "Gbs.C129_space",
    "Gbs.C129_zero",
    "Gbs.C129_length",
    "Gbs.C129_degrees",
    "Gbs.C129_witness"
   ],
   "note": "Over the real numbers, with the argument of complex numbers for std::atan2; the sign of zero is not modelled. A list without point is read past its end."
  },
  {
   "property": "C130",
   "status": "proved",
   "theorems": [
    "Gbs.C130_blend",
    "Gbs.C130_reproduces",
    "Gbs.C130_unity",
    "Gbs.C130_few"
   ],
   "note": "For strictly increasing parameters and a sparse solver that solves regular systems. Nothing is claimed for one parameter without slope control."
  },
  {
   "property": "C131",
   "status": "partial",
   "theorems": [
    "Gbs.C131_lists",
    "Gbs.C131_short",
    "Gbs.C131_surface",
    "Gbs.C131_pairs",
    "Gbs.C131_thrown",
    "Gbs.C131_witness"
   ],
   "note": "The property is false of a shorter second list: the assert on the sizes is compiled out of a release build and the list is read past its end; a longer one is not refused either. Otherwise proved, for the results, their order and the exceptions, under any schedule of the parallel algorithm."
  },
  {
   "property": "C132",
   "status": "partial",
   "theorems": [
    "Gbs.C132_unify",
    "Gbs.C132_more_witness",
    "Gbs.C132_self_witness"
   ],
   "note": "The property is false: a knot inside the interval with the same multiplicity, below the degree, in both curves is inserted zero times, which changes the curve, so that a curve is changed by its own knots; a knot with a greater multiplicity in the first curve is inserted up to the degree, because the difference of the multiplicities wraps. Proved otherwise: the curve and its derivatives are unchanged and the multiplicity of every knot is given. The function is deprecated and nothing in the repository calls it."
  },
  {
   "property": "C133",
   "status": "partial",
   "theorems": [
    "Gbs.C133_deviation",
    "Gbs.C133_exchanged",
    "Gbs.C133_aligned",
    "Gbs.C133_plane"
   ],
   "note": "The property is false of triangles given the other way round: on a plane the deviation is 0 for one order of the points and 2, the greatest possible, for the other one; for aligned points it is 0/0. Proved what is measured: the distance of the unit normals, its bounds, its relation to the cosine of their angle, when it is 0 and 2. The surface is any function that gives points and derivatives. Nothing in the repository calls the function."
  },
  {
   "property": "C134",
   "status": "partial",
   "theorems": [
    "Gbs.C134_face",
    "Gbs.C134_start",
    "Gbs.C134_few",
    "Gbs.C134_half_line",
    "Gbs.C134_witness"
   ],
   "note": "The property is false as documented: is_ccw returns the number 1 or 0 of a boolean, so that it is never negative, and it is 1 for aligned points. Proved what it returns: 1 exactly when the first three vertices turn counter-clockwise or are aligned. The assert on the number of vertices is compiled out of a release build: a face of one or two vertices is read past its end and the further vertices of a larger one are ignored. The crossing of a horizontal half-line is proved, in exact arithmetic."
  }
 ]
}
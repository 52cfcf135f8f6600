{
 "claims": [
  {
   "property": "C01",
   "status": "proved",
   "theorems": [
    "Verif.Props.C01_compareTo_lex",
    "Verif.Props.C01_compareTo_total_order",
    "Verif.Props.C01_compareTo_ignores_zm",
    "Verif.Props.C01_equals2D_equivalence",
    "Verif.Props.C01_equals3D_equivalence",
    "Verif.Props.C01_nan_breaks_order",
    "Verif.Props.C01_copy",
    "Verif.Props.C01_nan"
   ],
   "note": "For all scalars with IEEE comparisons; C01_nan_breaks_order shows what NaN does."
  },
  {
   "property": "C02",
   "status": "proved",
   "theorems": [
    "Verif.Props.C02_expand_overloads",
    "Verif.Props.C02_covers_all",
    "Verif.Props.C02_least",
    "Verif.Props.C02_set_only",
    "Verif.Props.C02_perm"
   ],
   "note": "For all scalars with IEEE comparisons, infinities included."
  },
  {
   "property": "C03",
   "status": "proved",
   "theorems": [
    "Verif.Props.C03_null_is_empty",
    "Verif.Props.C03_expand_null",
    "Verif.Props.C03_null_iff_no_point",
    "Verif.Props.C03_area"
   ],
   "note": ""
  },
  {
   "property": "C04",
   "status": "proved",
   "theorems": [
    "Verif.Props.C04_wf_reachable",
    "Verif.Props.C04_intersection_pointwise",
    "Verif.Props.C04_intersection_null_iff",
    "Verif.Props.C04_intersects_iff_common_point",
    "Verif.Props.C04_intersectsXY_eq_coversXY",
    "Verif.Props.C04_intersectsXY_nan"
   ],
   "note": "Envelopes restricted to reachable ones (C04_wf_reachable). NaN points treated by C04_intersectsXY_nan."
  },
  {
   "property": "C05",
   "status": "proved",
   "theorems": [
    "Verif.Props.C05_covers_iff_subset",
    "Verif.Props.C05_covers_partial_order",
    "Verif.Props.C05_equals_iff_same_points",
    "Verif.Props.C05_expand_is_join"
   ],
   "note": ""
  },
  {
   "property": "C06",
   "status": "proved",
   "theorems": [
    "Verif.Props.C06_distance_is_minimum",
    "Verif.Props.C06_distance_laws"
   ],
   "note": "Exact real arithmetic."
  },
  {
   "property": "C07",
   "status": "proved",
   "theorems": [
    "Verif.Props.C07_compareTo_total_order",
    "Verif.Props.C07_order"
   ],
   "note": ""
  },
  {
   "property": "C08",
   "status": "proved",
   "theorems": [
    "Verif.Props.C08_expandBy_exact",
    "Verif.Props.C08_expand_shrink",
    "Verif.Props.C08_expandBy_points",
    "Verif.Props.C08_translate_points",
    "Verif.Props.C08_centre",
    "Verif.Props.C08_extents",
    "Verif.Props.C08_diameter"
   ],
   "note": "Exact arithmetic over any ordered field."
  },
  {
   "property": "C09",
   "status": "proved",
   "theorems": [
    "Verif.Props.C09_intersects3",
    "Verif.Props.C09_intersects4",
    "Verif.Props.C09_intersectsAB"
   ],
   "note": ""
  },
  {
   "property": "C10",
   "status": "proved",
   "theorems": [
    "Verif.Props.C10_step",
    "Verif.Props.C10_no_repeats",
    "Verif.Props.C10_appends_collapse",
    "Verif.Props.C10_batches",
    "Verif.Props.C10_range",
    "Verif.Props.C10_backward_always_panics",
    "Verif.Props.C10_toArray",
    "Verif.Props.C10_history"
   ],
   "note": "Histories of all operations with allow_repeated=false. C10_backward_always_panics: adding a list backwards always panics."
  },
  {
   "property": "C11",
   "status": "partial",
   "theorems": [
    "Verif.Props.C11_closeRing",
    "Verif.Props.C11_closed_partial",
    "Verif.Props.C11_idempotent_partial",
    "Verif.Props.C11_nan_grows"
   ],
   "note": "Proved if the first coordinate has no NaN; false with NaN there, every call adds a coordinate (C11_nan_grows). C11_closeRing is for all lists."
  },
  {
   "property": "C12",
   "status": "proved",
   "theorems": [
    "Verif.Props.C12_removeRepeated",
    "Verif.Props.C12_laws",
    "Verif.Props.C12_covers"
   ],
   "note": ""
  },
  {
   "property": "C13",
   "status": "proved",
   "theorems": [
    "Verif.Props.C13_scroll_rotation",
    "Verif.Props.C13_scroll_ring",
    "Verif.Props.C13_scroll_ring_edge",
    "Verif.Props.C13_isRing",
    "Verif.Props.C13_scrollIndex",
    "Verif.Props.C13_scrollCoordinate"
   ],
   "note": "C13_scroll_ring_edge: the ring flag overwrites a single point by (0,0)."
  },
  {
   "property": "C14",
   "status": "proved",
   "theorems": [
    "Verif.Props.C14_compare_lex",
    "Verif.Props.C14_compare_total_order",
    "Verif.Props.C14_prefix_first",
    "Verif.Props.C14_equals"
   ],
   "note": ""
  },
  {
   "property": "C15",
   "status": "proved",
   "theorems": [
    "Verif.Props.C15_increasing_char",
    "Verif.Props.C15_reverse",
    "Verif.Props.C15_isEqualReversed",
    "Verif.Props.C15_isEqualReversed_panics"
   ],
   "note": "is_equal_reversed for arrays of equal length; shorter second array panics (C15_isEqualReversed_panics)."
  },
  {
   "property": "C16",
   "status": "proved",
   "theorems": [
    "Verif.Props.C16_minCoordinate",
    "Verif.Props.C16_indexOf",
    "Verif.Props.C16_ptNotInList"
   ],
   "note": ""
  },
  {
   "property": "C17",
   "status": "partial",
   "theorems": [
    "Verif.Props.C17_copyDeep",
    "Verif.Props.C17_copyDeepTo_partial",
    "Verif.Props.C17_copyDeepTo_panics",
    "Verif.Props.C17_extract_never_extracts",
    "Verif.Props.C17_extract_panics"
   ],
   "note": "copy_deep and copy_deep_to proved in full; the extract clause is false: C17_extract_never_extracts."
  },
  {
   "property": "C18",
   "status": "partial",
   "theorems": [
    "Verif.Props.C18_array_reverse_partial",
    "Verif.Props.C18_array_reverse_list_partial",
    "Verif.Props.C18_packed_reverse",
    "Verif.Props.C18_reverse_involution",
    "Verif.Props.C18_measures_not_reversed"
   ],
   "note": "x, y, z of array sequences, all ordinates of packed ones. Measures of array sequences stay in place (C18_measures_not_reversed)."
  },
  {
   "property": "C19",
   "status": "proved",
   "theorems": [
    "Verif.Props.C19_array_scroll",
    "Verif.Props.C19_array_scroll_ring",
    "Verif.Props.C19_packed_scroll",
    "Verif.Props.C19_isRing_array"
   ],
   "note": ""
  },
  {
   "property": "C20",
   "status": "partial",
   "theorems": [
    "Verif.Props.C20_array_partial",
    "Verif.Props.C20_packed_partial",
    "Verif.Props.C20_measures_lost",
    "Verif.Props.C20_packed_measure_becomes_z",
    "Verif.Props.C20_nan_not_ring"
   ],
   "note": "Proved for x, y, z (array) and all ordinates (packed); measures of array sequences are lost (C20_measures_lost), packed measures become z (C20_packed_measure_becomes_z), and with NaN in the first coordinate the result is no ring (C20_nan_not_ring)."
  },
  {
   "property": "C21",
   "status": "proved",
   "theorems": [
    "Verif.Props.C21_compareF64_total_order",
    "Verif.Props.C21_nan_least",
    "Verif.Props.C21_compare_key",
    "Verif.Props.C21_total_order",
    "Verif.Props.C21_default_limit",
    "Verif.Props.C21_measures_ignored"
   ],
   "note": "Total order over all sequences and limits, mixed dimensions included; measures take no part (C21_measures_ignored)."
  },
  {
   "property": "C22",
   "status": "proved",
   "theorems": [
    "Verif.Props.C22_setString",
    "Verif.Props.C22_text_roundtrip",
    "Verif.Props.C22_string_roundtrip",
    "Verif.Props.C22_invalid_values_shorten",
    "Verif.Props.C22_copy",
    "Verif.Props.C22_get_set"
   ],
   "note": "Symbols past position 8 panic (C22_setString); cells with values outside the six codes are skipped in the text (C22_invalid_values_shorten)."
  },
  {
   "property": "C23",
   "status": "proved",
   "theorems": [
    "Verif.Props.C23_transpose",
    "Verif.Props.C23_predicates"
   ],
   "note": ""
  },
  {
   "property": "C24",
   "status": "proved",
   "theorems": [
    "Verif.Props.C24_matchesString",
    "Verif.Props.C24_patterns",
    "Verif.Props.C24_patterns_dim",
    "Verif.Props.C24_implications",
    "Verif.Props.C24_equals",
    "Verif.Props.C24_two_texts"
   ],
   "note": "matches_string for ASCII patterns."
  },
  {
   "property": "C25",
   "status": "proved",
   "theorems": [
    "Verif.Props.C25_add_is_max",
    "Verif.Props.C25_join_laws",
    "Verif.Props.C25_setAtLeast",
    "Verif.Props.C25_history_monotone",
    "Verif.Props.C25_setAll"
   ],
   "note": ""
  },
  {
   "property": "C26",
   "status": "proved",
   "theorems": [
    "Verif.Props.C26_value_iff",
    "Verif.Props.C26_symbols",
    "Verif.Props.C26_locations"
   ],
   "note": ""
  },
  {
   "property": "C27",
   "status": "partial",
   "theorems": [
    "Verif.Props.C27_quadrant_by_signs",
    "Verif.Props.C27_quadrant_of_points",
    "Verif.Props.C27_versions_agree",
    "Verif.Props.C27_opposite_directions",
    "Verif.Props.C27_range",
    "Verif.Props.C27_isOpposite_mod",
    "Verif.Props.C27_isOpposite_symm",
    "Verif.Props.C27_commonHalfPlane",
    "Verif.Props.C27_isInHalfPlane_partial",
    "Verif.Props.C27_east_half_plane_wrong",
    "Verif.Props.C27_isNorthern",
    "Verif.Props.C27_nan"
   ],
   "note": "is_in_half_plane is proved for three of the four half planes; the east one is wrong (C27_east_half_plane_wrong). NaN counts as negative (C27_nan). Agreement of the two versions and opposite directions are in exact arithmetic."
  },
  {
   "property": "C28",
   "status": "proved",
   "theorems": [
    "Verif.Props.C28_nearest",
    "Verif.Props.C28_laws",
    "Verif.Props.C28_equals_sound",
    "Verif.Props.C28_coordinate",
    "Verif.Props.C28_of_type",
    "Verif.Props.C28_floating_identity",
    "Verif.Props.C28_equals_laws",
    "Verif.Props.C28_compareTo",
    "Verif.Props.C28_floating_not_equal_itself",
    "Verif.Props.C28_zero_scale"
   ],
   "note": "Exact arithmetic over any ordered field with floor, every scale but zero (C28_zero_scale: NaN). Under binary64 the division and product round, which the statement leaves out. Also: the single precision model does not round at all (C28_floating_identity), floating models are not equal to themselves (C28_floating_not_equal_itself). The digit count of a fixed model is a parameter."
  },
  {
   "property": "C29",
   "status": "proved",
   "theorems": [
    "Verif.Props.C29_filter",
    "Verif.Props.C29_ddIndex",
    "Verif.Props.C29_index_is_sign",
    "Verif.Props.C29_meaning",
    "Verif.Props.C29_collinear_iff",
    "Verif.Props.C29_symmetries",
    "Verif.Props.C29_similarity",
    "Verif.Props.C29_degenerate",
    "Verif.Props.C29_nan_collinear"
   ],
   "note": "Sign, symmetries and invariance in exact arithmetic over any ordered field; the float filter is C30. NaN gives collinear (C29_nan_collinear)."
  },
  {
   "property": "C30",
   "status": "proved",
   "theorems": [
    "Verif.Props.C30_filter_never_lies",
    "Verif.Props.C30_filter_answers",
    "Verif.Props.C30_index",
    "Verif.Props.C30_underflow",
    "Verif.Props.C30_overflow"
   ],
   "note": "Base/Binary64 defines rounding to nearest even with gradual underflow and overflow, proved to be the nearest number of the format. The filter never lies under the stated range condition (C30_filter_never_lies), answers when the determinant is at least 2^-49 of its products (C30_filter_answers). Outside the range condition it does lie: tiny and huge triangles are called collinear (C30_underflow, C30_overflow)."
  },
  {
   "property": "C31",
   "status": "proved",
   "theorems": [
    "Verif.Props.C31_countSegment",
    "Verif.Props.C31_locate",
    "Verif.Props.C31_reverse",
    "Verif.Props.C31_rotate",
    "Verif.Props.C31_vertex_boundary",
    "Verif.Props.C31_left_ray",
    "Verif.Props.C31_triangle",
    "Verif.Props.C31_fan",
    "Verif.Props.C31_rectangle",
    "Verif.Props.C31_sequences",
    "Verif.Props.C31_open_end_missed"
   ],
   "note": "Exact arithmetic over any ordered field, closed rings (proved equivalent to the even-odd rule, triangles, fans, rectangles); a line that is not closed can miss its last point (C31_open_end_missed)."
  },
  {
   "property": "C32",
   "status": "proved",
   "theorems": [
    "Verif.Props.C32_onSegment",
    "Verif.Props.C32_onSegment_symm",
    "Verif.Props.C32_sequence",
    "Verif.Props.C32_onLine",
    "Verif.Props.C32_boundary"
   ],
   "note": "Exact arithmetic over any ordered field."
  },
  {
   "property": "C33",
   "status": "proved",
   "theorems": [
    "Verif.Props.C33_sequence",
    "Verif.Props.C33_shoelace",
    "Verif.Props.C33_reverse",
    "Verif.Props.C33_rotate",
    "Verif.Props.C33_move_scale",
    "Verif.Props.C33_fan",
    "Verif.Props.C33_cut",
    "Verif.Props.C33_rectangle",
    "Verif.Props.C33_open_line"
   ],
   "note": "Exact arithmetic over any ordered field; closed rings (C33_open_line shows an open line is not closed implicitly)."
  },
  {
   "property": "C34",
   "status": "partial",
   "theorems": [
    "Verif.Props.C34_sequence",
    "Verif.Props.C34_total",
    "Verif.Props.C34_top",
    "Verif.Props.C34_start_partial",
    "Verif.Props.C34_reverse_partial",
    "Verif.Props.C34_convex_left",
    "Verif.Props.C34_convex_right",
    "Verif.Props.C34_triangle",
    "Verif.Props.C34_area",
    "Verif.Props.C34_flat",
    "Verif.Props.C34_start_matters_with_two_tops",
    "Verif.Props.C34_spike",
    "Verif.Props.C34_translate",
    "Verif.Props.C34_enlarge"
   ],
   "note": "Proved for rings with one top (any shape: start, reversal), convex rings (agreement with the signed area), triangles and flat rings, and totality over all floats; every clause for all simple rings of any shape is C81 (C81_orientation, C81_start, C81_reverse). False for rings that cross or touch themselves (C34_start_matters_with_two_tops, C34_spike). Moving and enlarging a ring changes nothing (C34_translate, C34_enlarge)."
  },
  {
   "property": "C35",
   "status": "proved",
   "theorems": [
    "Verif.Props.C35_sum",
    "Verif.Props.C35_exact",
    "Verif.Props.C35_laws",
    "Verif.Props.C35_zero"
   ],
   "note": "Exact real arithmetic; the sum formula over every arithmetic."
  },
  {
   "property": "C36",
   "status": "proved",
   "theorems": [
    "Verif.Props.C36_segment",
    "Verif.Props.C36_line",
    "Verif.Props.C36_signed",
    "Verif.Props.C36_chain_steps",
    "Verif.Props.C36_chain",
    "Verif.Props.C36_chain_empty"
   ],
   "note": "Exact real arithmetic; the steps over every arithmetic, with NaN for the empty chain."
  },
  {
   "property": "C37",
   "status": "proved",
   "theorems": [
    "Verif.Props.C37_segments",
    "Verif.Props.C37_zero_iff",
    "Verif.Props.C37_symmetric"
   ],
   "note": "Exact real arithmetic, all positions including degenerate segments."
  },
  {
   "property": "C38",
   "status": "proved",
   "theorems": [
    "Verif.Props.C38_no_history",
    "Verif.Props.C38_none_iff_disjoint",
    "Verif.Props.C38_classification",
    "Verif.Props.C38_points",
    "Verif.Props.C38_proper",
    "Verif.Props.C38_symmetric",
    "Verif.Props.C38_degenerate_reported_collinear",
    "Verif.Props.C38_point_segment",
    "Verif.Props.C38_height",
    "Verif.Props.C38_missing_height"
   ],
   "note": "Exact real arithmetic, every state of the intersector; points and codes independent of history over every arithmetic. A precision model only rounds the point (the reported-point theorem is for no precision model). Degenerate segments: C38_degenerate_reported_collinear."
  },
  {
   "property": "C39",
   "status": "proved",
   "theorems": [
    "Verif.Props.C39_common_point",
    "Verif.Props.C39_homogeneous",
    "Verif.Props.C39_none_iff_parallel",
    "Verif.Props.C39_line_segment",
    "Verif.Props.C39_degenerate_line"
   ],
   "note": "Exact arithmetic: the formula over any ordered field, parallel lines over exact rationals extended with NaN and infinities. A line given by one point twice returns the first end of the segment (C39_degenerate_line)."
  },
  {
   "property": "C40",
   "status": "proved",
   "theorems": [
    "Verif.Props.C40_project",
    "Verif.Props.C40_point_along",
    "Verif.Props.C40_project_along",
    "Verif.Props.C40_reflect",
    "Verif.Props.C40_normalize",
    "Verif.Props.C40_compare",
    "Verif.Props.C40_orientation",
    "Verif.Props.C40_set_coordinates_ignores_heights",
    "Verif.Props.C40_closest_point",
    "Verif.Props.C40_distance",
    "Verif.Props.C40_closest_points",
    "Verif.Props.C40_offset",
    "Verif.Props.C40_angle",
    "Verif.Props.C40_project_segment"
   ],
   "note": "Exact arithmetic; order and normalisation over every arithmetic. set_coordinates does not take over heights (C40_set_coordinates_ignores_heights); closest_points of intersecting segments has one element (C40_closest_points)."
  },
  {
   "property": "C41",
   "status": "proved",
   "theorems": [
    "Verif.Props.C41_circumcentre",
    "Verif.Props.C41_circumcentre_dd",
    "Verif.Props.C41_perpendicular_bisector",
    "Verif.Props.C41_perpendicular_bisector_proper",
    "Verif.Props.C41_bisectors_meet",
    "Verif.Props.C41_signed_area",
    "Verif.Props.C41_area_additive",
    "Verif.Props.C41_centroid",
    "Verif.Props.C41_interpolate_z",
    "Verif.Props.C41_interpolate_z_vertices",
    "Verif.Props.C41_acute",
    "Verif.Props.C41_is_ccw",
    "Verif.Props.C41_intersects",
    "Verif.Props.C41_intersects_flat",
    "Verif.Props.C41_flat_triangle_too_large",
    "Verif.Props.C41_circumradius",
    "Verif.Props.C41_circumradius_flat",
    "Verif.Props.C41_in_centre",
    "Verif.Props.C41_sides",
    "Verif.Props.C41_angle_bisector",
    "Verif.Props.C41_area_3d"
   ],
   "note": "Exact arithmetic over any ordered field; lengths, radii and incentre over the reals. The point test of a flat triangle holds on the whole line (C41_intersects_flat, C41_flat_triangle_too_large)."
  },
  {
   "property": "C42",
   "status": "proved",
   "theorems": [
    "Verif.Props.C42_vector_space",
    "Verif.Props.C42_weighted_sum",
    "Verif.Props.C42_dot",
    "Verif.Props.C42_parallel",
    "Verif.Props.C42_translate",
    "Verif.Props.C42_quarter_circle",
    "Verif.Props.C42_quarter_circle_isometry",
    "Verif.Props.C42_length",
    "Verif.Props.C42_angles",
    "Verif.Props.C42_rotate",
    "Verif.Props.C42_vector_space_3d",
    "Verif.Props.C42_length_3d",
    "Verif.Props.C42_normalize_zero_coordinate"
   ],
   "note": "Exact arithmetic; quarter circles over every arithmetic with involutive negation. normalize_coordinate of the zero vector is NaN (C42_normalize_zero_coordinate)."
  },
  {
   "property": "C43",
   "status": "partial",
   "theorems": [
    "Verif.Props.C43_normalize",
    "Verif.Props.C43_normalize_positive",
    "Verif.Props.C43_normalize_canonical",
    "Verif.Props.C43_diverges",
    "Verif.Props.C43_infinite_angle_diverges",
    "Verif.Props.C43_diff_partial",
    "Verif.Props.C43_diff_out_of_range",
    "Verif.Props.C43_between_oriented",
    "Verif.Props.C43_between",
    "Verif.Props.C43_acute_obtuse",
    "Verif.Props.C43_turn",
    "Verif.Props.C43_interior",
    "Verif.Props.C43_bisector",
    "Verif.Props.C43_degrees",
    "Verif.Props.C43_snap",
    "Verif.Props.C43_project"
   ],
   "note": "Exact real arithmetic with the exact argument function; loops are modelled with fuel and proved to end. diff lies in [0, pi] only for angles at most a full turn apart, else it can be negative (C43_diff_out_of_range). Over floats an infinite angle never ends (C43_infinite_angle_diverges)."
  },
  {
   "property": "C44",
   "status": "proved",
   "theorems": [
    "Verif.Props.C44_compareTo_total_order",
    "Verif.Props.C44_predicates",
    "Verif.Props.C44_min_max",
    "Verif.Props.C44_sign",
    "Verif.Props.C44_negate",
    "Verif.Props.C44_abs",
    "Verif.Props.C44_order_of_values",
    "Verif.Props.C44_unnormalised",
    "Verif.Props.C44_nan"
   ],
   "note": "Order over normalised or arbitrary finite pairs as stated; values not normalised compare by parts (C44_unnormalised), NaN is equal to everything (C44_nan)."
  },
  {
   "property": "C45",
   "status": "partial",
   "theorems": [
    "Verif.Props.C45_add_sub",
    "Verif.Props.C45_mul_partial",
    "Verif.Props.C45_div_partial",
    "Verif.Props.C45_determinant",
    "Verif.Props.C45_pow_partial",
    "Verif.Props.C45_mul_not_exact"
   ],
   "note": "In exact arithmetic: sums are exact, products lose the product of the low parts (C45_mul_not_exact), quotients are exact for divisors with no low part."
  },
  {
   "property": "C46",
   "status": "partial",
   "theorems": [
    "Verif.Props.C46_polygon",
    "Verif.Props.C46_multi_polygon",
    "Verif.Props.C46_direction_start_partial",
    "Verif.Props.C46_translate",
    "Verif.Props.C46_triangle",
    "Verif.Props.C46_convex_inside",
    "Verif.Props.C46_line",
    "Verif.Props.C46_line_laws",
    "Verif.Props.C46_point",
    "Verif.Props.C46_get_centroid",
    "Verif.Props.C46_empty_parts",
    "Verif.Props.C46_start_matters_with_two_tops"
   ],
   "note": "The centroid of every polygon and multipolygon with closed, non-empty rings is given by one formula without a base point, with the fallbacks to length and to points; translation holds for all of them, direction and start for polygons without holes and for holed polygons whose rings have one top that is no spike, or are simple (C82_direction_start). Missing: holed polygons with self-touching rings with several tops, where the claim is false for the orientation test of the code (C46_start_matters_with_two_tops); empty parts panic (C46_empty_parts)."
  },
  {
   "property": "C47",
   "status": "partial",
   "theorems": [
    "Verif.Props.C47_contains_points",
    "Verif.Props.C47_of_sequence",
    "Verif.Props.C47_bounds_partial",
    "Verif.Props.C47_contains_points_partial",
    "Verif.Props.C47_least_partial",
    "Verif.Props.C47_null",
    "Verif.Props.C47_join",
    "Verif.Props.C47_valid",
    "Verif.Props.C47_intersects_exact",
    "Verif.Props.C47_contains_exact",
    "Verif.Props.C47_of_envelope",
    "Verif.Props.C47_expand_valid",
    "Verif.Props.C47_expand_by",
    "Verif.Props.C47_expand_back",
    "Verif.Props.C47_null_intersects_origin",
    "Verif.Props.C47_null_envelope_adds_points",
    "Verif.Props.C47_infinite_point"
   ],
   "note": "The envelope intersects each of its points for all points that are numbers (C47_contains_points). That it is least is proved for points whose four measures x, y, x+y, x-y are numbers; with two infinite ordinates a bound is NaN, and no octagon contains it (C47_infinite_point). Also: a null octagon meets the origin (C47_null_intersects_origin), a null envelope adds points (C47_null_envelope_adds_points)."
  },
  {
   "property": "C48",
   "status": "partial",
   "theorems": [
    "Verif.Props.C48_normalize_smaller_partial",
    "Verif.Props.C48_normalize_ascending_partial",
    "Verif.Props.C48_normalize_idempotent_partial",
    "Verif.Props.C48_normalize_canonical_partial",
    "Verif.Props.C48_reverse_partial",
    "Verif.Props.C48_compare",
    "Verif.Props.C48_compare_total_order",
    "Verif.Props.C48_compare_ring",
    "Verif.Props.C48_compare_polygon",
    "Verif.Props.C48_compare_polygon_total_order",
    "Verif.Props.C48_heights_not_normalized",
    "Verif.Props.C48_nan_not_normalized"
   ],
   "note": "Normalisation over every arithmetic for lines without NaN and without measures; symmetric lines with heights are not canonical (C48_heights_not_normalized), nor lines with NaN (C48_nan_not_normalized). The comparison clause is proved in full, for lines, rings and polygons."
  },
  {
   "property": "C49",
   "status": "partial",
   "theorems": [
    "Verif.Props.C49_line_decides",
    "Verif.Props.C49_ring_decides",
    "Verif.Props.C49_point_decides",
    "Verif.Props.C49_polygon_decides",
    "Verif.Props.C49_multi_decides",
    "Verif.Props.C49_same_shape",
    "Verif.Props.C49_laws_partial",
    "Verif.Props.C49_zero_tolerance",
    "Verif.Props.C49_not_transitive",
    "Verif.Props.C49_infinite_not_reflexive"
   ],
   "note": "Decision, symmetry, shape for all geometry types over every arithmetic; reflexivity and triangle law in exact real arithmetic, and for tolerance zero over every arithmetic. Over floats reflexivity fails for infinite coordinates with a positive tolerance (C49_infinite_not_reflexive)."
  },
  {
   "property": "C50",
   "status": "partial",
   "theorems": [
    "Verif.Props.C50_num_points",
    "Verif.Props.C50_coordinates_partial",
    "Verif.Props.C50_empty_shell",
    "Verif.Props.C50_multi_point_coordinates_partial",
    "Verif.Props.C50_copy",
    "Verif.Props.C50_collections_never_copied",
    "Verif.Props.C50_reverse_ring_partial",
    "Verif.Props.C50_reverse_polygon_partial",
    "Verif.Props.C50_reverse_twice_partial",
    "Verif.Props.C50_collections_never_reversed",
    "Verif.Props.C50_normalize_no_effect",
    "Verif.Props.C50_normalize_panics",
    "Verif.Props.C50_empty_points_pad",
    "Verif.Props.C50_point_at_index",
    "Verif.Props.C50_copy_loses_precision"
   ],
   "note": "Proved for lines, rings, points and polygons without holes (reversal) and without measures. False for the rest: collections cannot be copied or reversed (C50_collections_never_copied, C50_collections_never_reversed), polygons with holes cannot be reversed (C50_reverse_polygon_partial), empty shells and empty points break the coordinate lists (C50_empty_shell, C50_empty_points_pad), copies lose the precision model."
  },
  {
   "property": "C51",
   "status": "partial",
   "theorems": [
    "Verif.Props.C51_ring_partial",
    "Verif.Props.C51_polygon_partial",
    "Verif.Props.C51_multi_point",
    "Verif.Props.C51_reverse_line",
    "Verif.Props.C51_nan_stale"
   ],
   "note": "Proved for rings, polygons and collections of points, of numbers and without measures, over every history that does not panic; a cached envelope becomes stale by reversal if there is NaN (C51_nan_stale). Lines keep no cache of their own."
  },
  {
   "property": "C52",
   "status": "partial",
   "theorems": [
    "Verif.Props.C52_clamp",
    "Verif.Props.C52_clampMax",
    "Verif.Props.C52_clampF64",
    "Verif.Props.C52_clampF64_nan",
    "Verif.Props.C52_max_min",
    "Verif.Props.C52_average",
    "Verif.Props.C52_tolerance",
    "Verif.Props.C52_wrap_partial",
    "Verif.Props.C52_wrap_negative_multiple",
    "Verif.Props.C52_ceil_partial",
    "Verif.Props.C52_ceil_negative_denominator",
    "Verif.Props.C52_shuffle_always_panics"
   ],
   "note": "wrap is wrong at negative multiples, ceil for negative denominators, shuffle always panics: negations proved."
  },
  {
   "property": "C53",
   "status": "partial",
   "theorems": [
    "Verif.Props.C53_never_solves",
    "Verif.Props.C53_shape_partial",
    "Verif.Props.C53_no_rows_panics",
    "Verif.Props.C53_none_keeps_arguments",
    "Verif.Props.C53_swap_rows",
    "Verif.Props.C53_swap_right_sides",
    "Verif.Props.C53_answer",
    "Verif.Props.C53_none_partial",
    "Verif.Props.C53_regular_panics",
    "Verif.Props.C53_singular_panics",
    "Verif.Props.C53_ragged_panics"
   ],
   "note": "The claim is false: solve never returns a solution (C53_never_solves), panics for every regular system (C53_regular_panics) and for some singular ones (C53_singular_panics). Proved: None is returned only for a wrong shape or for systems without a unique solution, exactly when the first column is zero (C53_answer). After None both arguments hold what they held before (C53_none_keeps_arguments)."
  },
  {
   "property": "C54",
   "status": "partial",
   "theorems": [
    "Verif.Props.C54_distance",
    "Verif.Props.C54_distance_without_heights",
    "Verif.Props.C54_point_segment",
    "Verif.Props.C54_segment_segment_partial",
    "Verif.Props.C54_parallel",
    "Verif.Props.C54_meeting",
    "Verif.Props.C54_attained",
    "Verif.Props.C54_corner_not_least",
    "Verif.Props.C54_second_point_nan",
    "Verif.Props.C54_no_heights_nan"
   ],
   "note": "Point to segment is proved in full. Segment to segment is proved if one of the nearest points of the two infinite lines is on its segment (parallel and meeting segments included); else the answer is attained but may be too large (C54_corner_not_least), and it is NaN if the second segment is a point (C54_second_point_nan)."
  },
  {
   "property": "C55",
   "status": "partial",
   "theorems": [
    "Verif.Props.C55_array_matrix",
    "Verif.Props.C55_array_out_of_range_partial",
    "Verif.Props.C55_array_bad_ordinate",
    "Verif.Props.C55_packed_matrix",
    "Verif.Props.C55_packed_out_of_range_partial",
    "Verif.Props.C55_packed_ordinate_overrun",
    "Verif.Props.C55_packed_getCoordinate",
    "Verif.Props.C55_packed_from_coordinates_panics"
   ],
   "note": "Proved for ordinate indices in range and coordinate indices out of range; an ordinate index past the dimension of a packed sequence reads the next coordinate (C55_packed_ordinate_overrun), of an array sequence it reads NaN (C55_array_bad_ordinate). Constructors of packed sequences from coordinates panic (C55_packed_from_coordinates_panics). Copies are equal by definition; independence is Rust ownership."
  },
  {
   "property": "C56",
   "status": "proved",
   "theorems": [
    "Verif.Props.C56_rectangle",
    "Verif.Props.C56_sound",
    "Verif.Props.C56_complete",
    "Verif.Props.C56_accepts_more",
    "Verif.Props.C56_flat"
   ],
   "note": "Over every arithmetic. The test as stated accepts degenerate and open shells (C56_accepts_more); C56_sound and C56_complete say which."
  },
  {
   "property": "C57",
   "status": "partial",
   "theorems": [
    "Verif.Props.C57_removeRepeatedOrInvalid_partial",
    "Verif.Props.C57_first_point_not_checked",
    "Verif.Props.C57_atLeastN"
   ],
   "note": "Proved when the first point is valid; C57_first_point_not_checked shows the claim false otherwise."
  },
  {
   "property": "C58",
   "status": "partial",
   "theorems": [
    "Verif.Props.C58_enforce_keeps_xyz_partial",
    "Verif.Props.C58_consistent_unchanged",
    "Verif.Props.C58_measure_lost"
   ],
   "note": "x, y, z kept; measures are lost (C58_measure_lost)."
  },
  {
   "property": "C59",
   "status": "proved",
   "theorems": [
    "Verif.Props.C59_envelope",
    "Verif.Props.C59_intersection",
    "Verif.Props.C59_own_envelope"
   ],
   "note": ""
  },
  {
   "property": "C60",
   "status": "proved",
   "theorems": [
    "Verif.Props.C60_packed_isEqual_iff",
    "Verif.Props.C60_array_equivalence",
    "Verif.Props.C60_packed_equivalence",
    "Verif.Props.C60_array_isEqual_iff",
    "Verif.Props.C60_agrees_with_comparator",
    "Verif.Props.C60_not_transitive_mixed_dimensions"
   ],
   "note": "C60_not_transitive_mixed_dimensions shows why one dimension is needed for transitivity."
  },
  {
   "property": "C61",
   "status": "proved",
   "theorems": [
    "Verif.Props.C61_minCoordinate",
    "Verif.Props.C61_minCoordinateIndexFromTo",
    "Verif.Props.C61_minCoordinateIndex"
   ],
   "note": "The empty sequence panics in min_coordinate_index."
  },
  {
   "property": "C62",
   "status": "proved",
   "theorems": [
    "Verif.Props.C62_indexOf",
    "Verif.Props.C62_scrollCoordinate",
    "Verif.Props.C62_extend",
    "Verif.Props.C62_extend_empty"
   ],
   "note": "extend of an empty sequence gives zeros (C62_extend_empty)."
  },
  {
   "property": "C63",
   "status": "proved",
   "theorems": [
    "Verif.Props.C63_sum",
    "Verif.Props.C63_product"
   ],
   "note": "Binary64 as defined in Base/Binary64, all pairs of doubles with a finite result; products if both factors are normal and the product is at least 2^-968 (NoUnderflow)."
  },
  {
   "property": "C64",
   "status": "proved",
   "theorems": [
    "Verif.Props.C64_sum_sign",
    "Verif.Props.C64_difference_sign"
   ],
   "note": "Binary64; pairs that are normalised (the high part is the rounded value)."
  },
  {
   "property": "C65",
   "status": "proved",
   "theorems": [
    "Verif.Props.C65_index_on_grid",
    "Verif.Props.C65_index_integers"
   ],
   "note": "Binary64; grids 2^-484 to 2^400. C30_underflow and C30_overflow show triangles outside that range called collinear."
  },
  {
   "property": "C66",
   "status": "proved",
   "theorems": [
    "Verif.Props.C66_locate",
    "Verif.Props.C66_isInRing",
    "Verif.Props.C66_onSegment",
    "Verif.Props.C66_onLine",
    "Verif.Props.C66_isCCW",
    "Verif.Props.C66_isCCW_triangle",
    "Verif.Props.C66_isCCW_convex",
    "Verif.Props.C66_segments_meet",
    "Verif.Props.C66_classification",
    "Verif.Props.C66_point_segment"
   ],
   "note": "Binary64 with arbitrary sqrt and hypot; the intersection code and the proper flag are exact, the coordinates of a proper intersection point are rounded and not part of the claim."
  },
  {
   "property": "C67",
   "status": "proved",
   "theorems": [
    "Verif.Props.C67_product",
    "Verif.Props.C67_index",
    "Verif.Props.C67_collinear_missed",
    "Verif.Props.C67_wrong_turn",
    "Verif.Props.C67_square"
   ],
   "note": "Binary64 with arbitrary sqrt and hypot; C67_collinear_missed and C67_wrong_turn are the concrete triples below the bound."
  },
  {
   "property": "C68",
   "status": "proved",
   "theorems": [
    "Verif.Props.C68_dimension",
    "Verif.Props.C68_coordinate_dimension",
    "Verif.Props.C68_point",
    "Verif.Props.C68_line",
    "Verif.Props.C68_ring",
    "Verif.Props.C68_polygon",
    "Verif.Props.C68_polygon_coordinates",
    "Verif.Props.C68_multi_polygon",
    "Verif.Props.C68_multi_point",
    "Verif.Props.C68_multi_point_measures"
   ],
   "note": "C68_multi_point_measures is the lost measure."
  },
  {
   "property": "C69",
   "status": "proved",
   "theorems": [
    "Verif.Props.C69_area",
    "Verif.Props.C69_multi_area",
    "Verif.Props.C69_area_same",
    "Verif.Props.C69_area_move_scale",
    "Verif.Props.C69_length",
    "Verif.Props.C69_negative_area"
   ],
   "note": "Exact arithmetic (any ordered field; the reals for lengths)."
  },
  {
   "property": "C70",
   "status": "proved",
   "theorems": [
    "Verif.Props.C70_values",
    "Verif.Props.C70_negative",
    "Verif.Props.C70_no_repeat",
    "Verif.Props.C70_dense",
    "Verif.Props.C70_golden",
    "Verif.Props.C70_binary64",
    "Verif.Props.C70_overflow"
   ],
   "note": ""
  },
  {
   "property": "C71",
   "status": "proved",
   "theorems": [
    "Verif.Props.C71_ends",
    "Verif.Props.C71_closed",
    "Verif.Props.C71_reverse",
    "Verif.Props.C71_multi",
    "Verif.Props.C71_ring_not_simple",
    "Verif.Props.C71_position"
   ],
   "note": "Reversal is stated for lines without measures, as in the property."
  },
  {
   "property": "C72",
   "status": "proved",
   "theorems": [
    "Verif.Props.C72_new",
    "Verif.Props.C72_always_empty",
    "Verif.Props.C72_access",
    "Verif.Props.C72_copy"
   ],
   "note": "The difference of dimension and measures is taken without overflow of i32."
  },
  {
   "property": "C73",
   "status": "proved",
   "theorems": [
    "Verif.Props.C73_floor",
    "Verif.Props.C73_ceil",
    "Verif.Props.C73_trunc",
    "Verif.Props.C73_floor_normalised",
    "Verif.Props.C73_floor_not_normalised",
    "Verif.Props.C73_double_value",
    "Verif.Props.C73_int_value",
    "Verif.Props.C73_int_value_wrong",
    "Verif.Props.C73_rint",
    "Verif.Props.C73_rint_pair",
    "Verif.Props.C73_nan"
   ],
   "note": "Binary64 as defined in Base/Binary64; NaN is told by the high part as in the code."
  },
  {
   "property": "C74",
   "status": "proved",
   "theorems": [
    "Verif.Props.C74_sum",
    "Verif.Props.C74_difference",
    "Verif.Props.C74_sum_double",
    "Verif.Props.C74_product_double",
    "Verif.Props.C74_difference_zero"
   ],
   "note": "Binary64 as defined in Base/Binary64 (rounding to nearest even, gradual underflow)."
  },
  {
   "property": "C75",
   "status": "proved",
   "theorems": [
    "Verif.Props.C75_quotient",
    "Verif.Props.C75_reciprocal_eq",
    "Verif.Props.C75_reciprocal",
    "Verif.Props.C75_exact",
    "Verif.Props.C75_back",
    "Verif.Props.C75_quotient_double"
   ],
   "note": "Binary64 as defined in Base/Binary64."
  },
  {
   "property": "C76",
   "status": "proved",
   "theorems": [
    "Verif.Props.C76_sqrt",
    "Verif.Props.C76_sqrt_real",
    "Verif.Props.C76_special"
   ],
   "note": "Binary64 as defined in Base/Binary64; the double square root is a parameter assumed to be correctly rounded (within half a unit in the last place), which is what IEEE 754 requires of f64::sqrt."
  },
  {
   "property": "C77",
   "status": "proved",
   "theorems": [
    "Verif.Props.C77_pow",
    "Verif.Props.C77_pow_negative",
    "Verif.Props.C77_pow_special"
   ],
   "note": "Binary64 as defined in Base/Binary64. The panic for the least exponent is that of a build with overflow checks."
  },
  {
   "property": "C78",
   "status": "proved",
   "theorems": [
    "Verif.Props.C78_constructors",
    "Verif.Props.C78_ordinate",
    "Verif.Props.C78_ordinate_other",
    "Verif.Props.C78_copy",
    "Verif.Props.C78_create",
    "Verif.Props.C78_create_dimension",
    "Verif.Props.C78_dimension_nan",
    "Verif.Props.C78_kinds",
    "Verif.Props.C78_valid",
    "Verif.Props.C78_equals_3d",
    "Verif.Props.C78_equals_3d_equivalence",
    "Verif.Props.C78_tolerance_symmetric",
    "Verif.Props.C78_tolerance_mono",
    "Verif.Props.C78_tolerance_zero",
    "Verif.Props.C78_missing_heights"
   ],
   "note": "The tolerance laws are for binary64 as defined in Base/Binary64, the other laws for every arithmetic."
  },
  {
   "property": "C79",
   "status": "proved",
   "theorems": [
    "Verif.Props.C79_determinant",
    "Verif.Props.C79_sign",
    "Verif.Props.C79_parallel",
    "Verif.Props.C79_limits"
   ],
   "note": "Binary64 as defined in Base/Binary64."
  },
  {
   "property": "C80",
   "status": "proved",
   "theorems": [
    "Verif.Props.C80_scale_nearest",
    "Verif.Props.C80_scale_fixes",
    "Verif.Props.C80_scale_idempotent",
    "Verif.Props.C80_grid_nearest",
    "Verif.Props.C80_grid_fixes",
    "Verif.Props.C80_grid_idempotent",
    "Verif.Props.C80_mono",
    "Verif.Props.C80_not_finite",
    "Verif.Props.C80_not_idempotent",
    "Verif.Props.C80_overflow"
   ],
   "note": "Binary64 as defined in Base/Binary64; scales up to 2^1022 and grid sizes from 2^-1022 for idempotence."
  },
  {
   "property": "C81",
   "status": "proved",
   "theorems": [
    "Verif.Props.C81_connected",
    "Verif.Props.C81_orientation",
    "Verif.Props.C81_start",
    "Verif.Props.C81_reverse",
    "Verif.Props.C81_inside",
    "Verif.Props.C81_near_edge"
   ],
   "note": "Exact arithmetic over any ordered field."
  },
  {
   "property": "C82",
   "status": "proved",
   "theorems": [
    "Verif.Props.C82_direction_start",
    "Verif.Props.C82_areas",
    "Verif.Props.C82_hull",
    "Verif.Props.C82_centres"
   ],
   "note": "Real arithmetic. Builds on C81: the orientation test agrees with the sign of the area on simple rings."
  },
  {
   "property": "C83",
   "status": "proved",
   "theorems": [
    "Verif.Props.C83_normalize",
    "Verif.Props.C83_normalize_positive",
    "Verif.Props.C83_never_ends",
    "Verif.Props.C83_fixed",
    "Verif.Props.C83_diff",
    "Verif.Props.C83_oriented_diff",
    "Verif.Props.C83_between",
    "Verif.Props.C83_pi"
   ],
   "note": "Binary64 as defined in Base/Binary64; atan2 is a parameter assumed to answer with doubles in [-pi, pi]. C83_pi shows that the constant is the double nearest to pi."
  },
  {
   "property": "C84",
   "status": "proved",
   "theorems": [
    "Verif.Props.C84_sides",
    "Verif.Props.C84_centre",
    "Verif.Props.C84_midpoint",
    "Verif.Props.C84_expandBy",
    "Verif.Props.C84_translate",
    "Verif.Props.C84_distance",
    "Verif.Props.C84_centre_overflow",
    "Verif.Props.C84_area",
    "Verif.Props.C84_expand_shrink",
    "Verif.Props.C84_history",
    "Verif.Props.C84_infinite_distance"
   ],
   "note": "Binary64 as defined in Base/Binary64; hypot is a parameter, assumed non-zero on positive arguments in C84_distance. The exceptions are theorems as well."
  },
  {
   "property": "C85",
   "status": "proved",
   "theorems": [
    "Verif.Props.C85_lines",
    "Verif.Props.C85_crossing",
    "Verif.Props.C85_touching"
   ],
   "note": "The sizes of the grid are those for which every double-double product of the formula is exact."
  },
  {
   "property": "C86",
   "status": "proved",
   "theorems": [
    "Verif.Props.C86_codes",
    "Verif.Props.C86_ends",
    "Verif.Props.C86_collinear",
    "Verif.Props.C86_precision",
    "Verif.Props.C86_nearest",
    "Verif.Props.C86_crossing"
   ],
   "note": "The orientation test and the distance are used as computed; that they are right on grids is C65 and C85."
  },
  {
   "property": "C87",
   "status": "proved",
   "theorems": [
    "Verif.Props.C87_error",
    "Verif.Props.C87_absolute",
    "Verif.Props.C87_sign",
    "Verif.Props.C87_exact",
    "Verif.Props.C87_sliver"
   ],
   "note": "Error bound by induction over the loop; the sliver is evaluated in the executable binary64 model by the kernel."
  },
  {
   "property": "C88",
   "status": "proved",
   "theorems": [
    "Verif.Props.C88_distance",
    "Verif.Props.C88_length",
    "Verif.Props.C88_segments",
    "Verif.Props.C88_reversal"
   ],
   "note": "The accuracy of hypot is a hypothesis (HypotOk); hypot_exists shows that a hypot with e=2^-52, d=2^-1074 exists."
  },
  {
   "property": "C89",
   "status": "proved",
   "theorems": [
    "Verif.Props.C89_codes",
    "Verif.Props.C89_order",
    "Verif.Props.C89_has_dimension",
    "Verif.Props.C89_boundary",
    "Verif.Props.C89_index"
   ],
   "note": "A ring has no get_dimension method in the code."
  },
  {
   "property": "C90",
   "status": "proved",
   "theorems": [
    "Verif.Props.C90_segment",
    "Verif.Props.C90_line",
    "Verif.Props.C90_segments",
    "Verif.Props.C90_chain",
    "Verif.Props.C90_underflow"
   ],
   "note": "Square root and hypot are parameters; `lib64_exists` shows that a library within the bound exists."
  },
  {
   "property": "C91",
   "status": "proved",
   "theorems": [
    "Verif.Props.C91_sqr",
    "Verif.Props.C91_sqrt",
    "Verif.Props.C91_sqrt_sqr"
   ],
   "note": "The library square root is a parameter within one part in 2^53 (`GoodSqrt`)."
  },
  {
   "property": "C92",
   "status": "proved",
   "theorems": [
    "Verif.Props.C92_fraction",
    "Verif.Props.C92_monotone",
    "Verif.Props.C92_end_missed",
    "Verif.Props.C92_along_grid",
    "Verif.Props.C92_factor",
    "Verif.Props.C92_closest",
    "Verif.Props.C92_wrong_end"
   ],
   "note": "hypot is a parameter within the stated error (`Lib64`, shown to exist in `lib64_exists`)."
  },
  {
   "property": "C93",
   "status": "proved",
   "theorems": [
    "Verif.Props.C93_area",
    "Verif.Props.C93_area_error",
    "Verif.Props.C93_area_sign",
    "Verif.Props.C93_area_wrong",
    "Verif.Props.C93_predicates",
    "Verif.Props.C93_acute",
    "Verif.Props.C93_centroid",
    "Verif.Props.C93_centroid_moves",
    "Verif.Props.C93_circumcentre",
    "Verif.Props.C93_circumcentre_collinear",
    "Verif.Props.C93_interpolate"
   ],
   "note": "binary64 rounding; exceptions are part of the statement (C93_area_wrong, C93_centroid_moves)"
  },
  {
   "property": "C94",
   "status": "proved",
   "theorems": [
    "Verif.Props.C94_total",
    "Verif.Props.C94_outside",
    "Verif.Props.C94_vertex",
    "Verif.Props.C94_nan_y",
    "Verif.Props.C94_nan_x",
    "Verif.Props.C94_doubles",
    "Verif.Props.C94_left",
    "Verif.Props.C94_left_underflow",
    "Verif.Props.C94_near_edge"
   ],
   "note": "exceptions are part of the statement (C94_left_underflow, C94_near_edge)"
  },
  {
   "property": "C95",
   "status": "proved",
   "theorems": [
    "Verif.Props.C95_crossing",
    "Verif.Props.C95_crossing_missing",
    "Verif.Props.C95_ends",
    "Verif.Props.C95_no_heights",
    "Verif.Props.C95_crossing_mean",
    "Verif.Props.C95_end_height",
    "Verif.Props.C95_plane",
    "Verif.Props.C95_range",
    "Verif.Props.C95_order_matters"
   ],
   "note": "the order dependence is part of the statement (C95_order_matters)"
  },
  {
   "property": "C96",
   "status": "proved",
   "theorems": [
    "Verif.Props.C96_set",
    "Verif.Props.C96_extents",
    "Verif.Props.C96_extents_nan",
    "Verif.Props.C96_horizontal",
    "Verif.Props.C96_equals_topo",
    "Verif.Props.C96_same_points",
    "Verif.Props.C96_offset",
    "Verif.Props.C96_line_intersection",
    "Verif.Props.C96_distance",
    "Verif.Props.C96_reverse_angle",
    "Verif.Props.C96_offset_degenerate"
   ],
   "note": "the degenerate offset is part of the statement (C96_offset_degenerate)"
  },
  {
   "property": "C97",
   "status": "proved",
   "theorems": [
    "Verif.Props.C97_compare_polygon_key",
    "Verif.Props.C97_compare_line_two",
    "Verif.Props.C97_compare_polygon_two",
    "Verif.Props.C97_compare_line",
    "Verif.Props.C97_compare_point",
    "Verif.Props.C97_compare_ring",
    "Verif.Props.C97_compare_polygon",
    "Verif.Props.C97_is_coordinate",
    "Verif.Props.C97_normalize_polygon"
   ],
   "note": "that normalising leaves rings unchanged is what the code does (it works on a copy), see also C50"
  },
  {
   "property": "C98",
   "status": "proved",
   "theorems": [
    "Verif.Props.C98_laws",
    "Verif.Props.C98_quarter_turns",
    "Verif.Props.C98_quarter_perpendicular",
    "Verif.Props.C98_average",
    "Verif.Props.C98_average_tiny",
    "Verif.Props.C98_weighted_ends",
    "Verif.Props.C98_dot_error",
    "Verif.Props.C98_dot_grid",
    "Verif.Props.C98_normalize",
    "Verif.Props.C98_normalize_zero",
    "Verif.Props.C98_dot3_grid",
    "Verif.Props.C98_dot4_grid",
    "Verif.Props.C98_length3",
    "Verif.Props.C98_normalize3",
    "Verif.Props.C98_length3_limits"
   ],
   "note": "sqrt and hypot are parameters with a stated accuracy (Lib64); an instance exists (lib64_exists)"
  },
  {
   "property": "C99",
   "status": "proved",
   "theorems": [
    "Verif.Props.C99_isCCW",
    "Verif.Props.C99_orientation",
    "Verif.Props.C99_flat_top",
    "Verif.Props.C99_thin_triangle",
    "Verif.Props.C99_on_segment",
    "Verif.Props.C99_on_line",
    "Verif.Props.C99_on_segment_free",
    "Verif.Props.C99_vertex_on_line",
    "Verif.Props.C99_on_segment_missed",
    "Verif.Props.C99_on_segment_near",
    "Verif.Props.C99_locate"
   ],
   "note": "The margin is sufficient, not necessary. The witnesses C99_thin_triangle, C99_on_segment_missed and C99_on_segment_near are parts of the statement."
  },
  {
   "property": "C100",
   "status": "proved",
   "theorems": [
    "Verif.Props.C100_segments_meet",
    "Verif.Props.C100_classification",
    "Verif.Props.C100_touching",
    "Verif.Props.C100_point_segment",
    "Verif.Props.C100_shared_end",
    "Verif.Props.C100_limits"
   ],
   "note": "The margin is sufficient, not necessary. C100_limits is part of the statement. The position of a proper crossing point is the subject of C85 and C86, not of this property."
  },
  {
   "property": "C101",
   "status": "proved",
   "theorems": [
    "Verif.Props.C101_strictly_convex",
    "Verif.Props.C101_orientation",
    "Verif.Props.C101_location",
    "Verif.Props.C101_between",
    "Verif.Props.C101_centroid",
    "Verif.Props.C101_triangle_test",
    "Verif.Props.C101_triangle_centroid",
    "Verif.Props.C101_circumcentre",
    "Verif.Props.C101_in_centre",
    "Verif.Props.C101_rectangle"
   ],
   "note": ""
  },
  {
   "property": "C102",
   "status": "proved",
   "theorems": [
    "Verif.Props.C102_pi",
    "Verif.Props.C102_two_pi",
    "Verif.Props.C102_half_pi",
    "Verif.Props.C102_e",
    "Verif.Props.C102_magnitude",
    "Verif.Props.C102_magnitude_integers",
    "Verif.Props.C102_magnitude_panics",
    "Verif.Props.C102_magnitude_limits"
   ],
   "note": "The logarithm is a parameter with an assumed relative error; its correctness is outside the code."
  },
  {
   "property": "C103",
   "status": "proved",
   "theorems": [
    "Verif.Props.C103_digits",
    "Verif.Props.C103_digits_of_powers",
    "Verif.Props.C103_digits_of_one_ten",
    "Verif.Props.C103_digits_limits",
    "Verif.Props.C103_digits_monotone",
    "Verif.Props.C103_compare",
    "Verif.Props.C103_compare_floating",
    "Verif.Props.C103_digits_extremes"
   ],
   "note": "The logarithm is a parameter with an assumed relative error; its correctness is outside the code."
  },
  {
   "property": "C104",
   "status": "proved",
   "theorems": [
    "Verif.Props.C104_coordinates",
    "Verif.Props.C104_sequences",
    "Verif.Props.C104_envelopes",
    "Verif.Props.C104_precision_models",
    "Verif.Props.C104_vectors_2d",
    "Verif.Props.C104_vectors_3d",
    "Verif.Props.C104_double_doubles"
   ],
   "note": "The text of a number (Display of f64) is a parameter."
  },
  {
   "property": "C105",
   "status": "proved",
   "theorems": [
    "Verif.Props.C105_copies",
    "Verif.Props.C105_array_factory",
    "Verif.Props.C105_array_factory_measures",
    "Verif.Props.C105_height_lost",
    "Verif.Props.C105_packed_factory",
    "Verif.Props.C105_packed_array",
    "Verif.Props.C105_expand_envelope",
    "Verif.Props.C105_fill",
    "Verif.Props.C105_from_sequence",
    "Verif.Props.C105_expand_null"
   ],
   "note": ""
  },
  {
   "property": "C106",
   "status": "proved",
   "theorems": [
    "Verif.Props.C106_segments",
    "Verif.Props.C106_final",
    "Verif.Props.C106_ends",
    "Verif.Props.C106_rings",
    "Verif.Props.C106_top_missed"
   ],
   "note": ""
  },
  {
   "property": "C107",
   "status": "proved",
   "theorems": [
    "Verif.Props.C107_close_ring",
    "Verif.Props.C107_wrap",
    "Verif.Props.C107_ceil",
    "Verif.Props.C107_filter",
    "Verif.Props.C107_filter_valid",
    "Verif.Props.C107_half_plane",
    "Verif.Props.C107_angle_diff"
   ],
   "note": "Angle differences in exact real arithmetic."
  },
  {
   "property": "C108",
   "status": "proved",
   "theorems": [
    "Verif.Props.C108_polygon",
    "Verif.Props.C108_multi_polygon",
    "Verif.Props.C108_corridor"
   ],
   "note": "Coordinates are integers; grids of other powers of two and polygons without area are not covered."
  },
  {
   "property": "C109",
   "status": "proved",
   "theorems": [
    "Verif.Props.C109_segments_in_space",
    "Verif.Props.C109_equals_itself",
    "Verif.Props.C109_extract",
    "Verif.Props.C109_reverse",
    "Verif.Props.C109_close_sequence",
    "Verif.Props.C109_null_octagon",
    "Verif.Props.C109_pairs"
   ],
   "note": "The second segment must not be a point: then the code divides by zero (C54_second_point_nan). Equality with itself assumes that hypot(0, 0) is 0."
  },
  {
   "property": "C110",
   "status": "proved",
   "theorems": [
    "Verif.Props.C110_pairs",
    "Verif.Props.C110_ends",
    "Verif.Props.C110_expand_envelope",
    "Verif.Props.C110_smallest",
    "Verif.Props.C110_handed_out",
    "Verif.Props.C110_remainder"
   ],
   "note": ""
  },
  {
   "property": "C111",
   "status": "proved",
   "theorems": [
    "Verif.Props.C111_points",
    "Verif.Props.C111_point_segment",
    "Verif.Props.C111_segments",
    "Verif.Props.C111_segments_least",
    "Verif.Props.C111_on_segment_not_zero"
   ],
   "note": ""
  },
  {
   "property": "C112",
   "status": "proved",
   "theorems": [
    "Verif.Props.C112_reorder",
    "Verif.Props.C112_reorder_proper",
    "Verif.Props.C112_turn",
    "Verif.Props.C112_similar",
    "Verif.Props.C112_similar_points",
    "Verif.Props.C112_acute_doubles",
    "Verif.Props.C112_longest_doubles",
    "Verif.Props.C112_grid_doubles",
    "Verif.Props.C112_order_matters"
   ],
   "note": "Exceptions in doubles are part of the statement (C112_order_matters)."
  },
  {
   "property": "C113",
   "status": "proved",
   "theorems": [
    "Verif.Props.C113_length",
    "Verif.Props.C113_circumradius",
    "Verif.Props.C113_in_centre",
    "Verif.Props.C113_angle_bisector",
    "Verif.Props.C113_area_3d"
   ],
   "note": "Extreme scales outside the stated ranges are not covered."
  },
  {
   "property": "C114",
   "status": "proved",
   "theorems": [
    "Verif.Props.C114_normalize",
    "Verif.Props.C114_normalize_idempotent",
    "Verif.Props.C114_normalize_canonical",
    "Verif.Props.C114_envelope",
    "Verif.Props.C114_envelope_reverse",
    "Verif.Props.C114_stale",
    "Verif.Props.C114_packed_ordinate",
    "Verif.Props.C114_consistency"
   ],
   "note": "Delimits the exceptions of C48, C51, C55 and C58 exactly."
  },
  {
   "property": "C115",
   "status": "proved",
   "theorems": [
    "Verif.Props.C115_circumcentre",
    "Verif.Props.C115_collinear",
    "Verif.Props.C115_plain_fails"
   ],
   "note": "The double-double operands are shown to be exact up to the quotient."
  },
  {
   "property": "C116",
   "status": "proved",
   "theorems": [
    "Verif.Props.C116_lines",
    "Verif.Props.C116_bisectors",
    "Verif.Props.C116_conditioned",
    "Verif.Props.C116_limits"
   ],
   "note": ""
  },
  {
   "property": "C117",
   "status": "proved",
   "theorems": [
    "Verif.Props.C117_project",
    "Verif.Props.C117_reflect",
    "Verif.Props.C117_offset",
    "Verif.Props.C117_offset_segment",
    "Verif.Props.C117_project_segment",
    "Verif.Props.C117_reflect_grid",
    "Verif.Props.C117_signed_distance"
   ],
   "note": ""
  },
  {
   "property": "C118",
   "status": "proved",
   "theorems": [
    "Verif.Props.C118_point",
    "Verif.Props.C118_signed",
    "Verif.Props.C118_line",
    "Verif.Props.C118_segment",
    "Verif.Props.C118_chain",
    "Verif.Props.C118_segments",
    "Verif.Props.C118_not_relative"
   ],
   "note": ""
  },
  {
   "property": "C119",
   "status": "proved",
   "theorems": [
    "Verif.Props.C119_bounds",
    "Verif.Props.C119_accepts",
    "Verif.Props.C119_hull",
    "Verif.Props.C119_meet",
    "Verif.Props.C119_contains",
    "Verif.Props.C119_accuracy",
    "Verif.Props.C119_exact",
    "Verif.Props.C119_grow_contains",
    "Verif.Props.C119_grow_accepts",
    "Verif.Props.C119_grow_accuracy",
    "Verif.Props.C119_slack_needed"
   ],
   "note": ""
  },
  {
   "property": "C120",
   "status": "proved",
   "theorems": [
    "Verif.Props.C120_line",
    "Verif.Props.C120_polygon",
    "Verif.Props.C120_multi_polygon",
    "Verif.Props.C120_point",
    "Verif.Props.C120_without_area"
   ],
   "note": ""
  },
  {
   "property": "C121",
   "status": "proved",
   "theorems": [
    "Verif.Props.C121_lines",
    "Verif.Props.C121_crossing",
    "Verif.Props.C121_settled",
    "Verif.Props.C121_limits"
   ],
   "note": ""
  },
  {
   "property": "C122",
   "status": "proved",
   "theorems": [
    "Verif.Props.C122_plane",
    "Verif.Props.C122_height",
    "Verif.Props.C122_crossing",
    "Verif.Props.C122_leaves_range"
   ],
   "note": ""
  },
  {
   "property": "C123",
   "status": "proved",
   "theorems": [
    "Verif.Props.C123_points",
    "Verif.Props.C123_point_segment",
    "Verif.Props.C123_segments",
    "Verif.Props.C123_segments_not_below",
    "Verif.Props.C123_underflow"
   ],
   "note": ""
  },
  {
   "property": "C124",
   "status": "proved",
   "theorems": [
    "Verif.Props.C124_length",
    "Verif.Props.C124_in_centre",
    "Verif.Props.C124_angle_bisector",
    "Verif.Props.C124_centroid",
    "Verif.Props.C124_acute_corner",
    "Verif.Props.C124_acute",
    "Verif.Props.C124_circumcentre",
    "Verif.Props.C124_circumradius",
    "Verif.Props.C124_interpolate",
    "Verif.Props.C124_area_3d",
    "Verif.Props.C124_nearly_right"
   ],
   "note": ""
  },
  {
   "property": "C125",
   "status": "proved",
   "theorems": [
    "Verif.Props.C125_circumcentre",
    "Verif.Props.C125_too_flat"
   ],
   "note": ""
  },
  {
   "property": "C126",
   "status": "proved",
   "theorems": [
    "Verif.Props.C126_homogeneous",
    "Verif.Props.C126_conditioned"
   ],
   "note": ""
  },
  {
   "property": "C127",
   "status": "proved",
   "theorems": [
    "Verif.Props.C127_direction",
    "Verif.Props.C127_segment",
    "Verif.Props.C127_between",
    "Verif.Props.C127_oriented",
    "Verif.Props.C127_side",
    "Verif.Props.C127_interior",
    "Verif.Props.C127_bisector",
    "Verif.Props.C127_vectors"
   ],
   "note": ""
  },
  {
   "property": "C128",
   "status": "proved",
   "theorems": [
    "Verif.Props.C128_degrees",
    "Verif.Props.C128_degrees_monotone",
    "Verif.Props.C128_round_trip",
    "Verif.Props.C128_snap",
    "Verif.Props.C128_project",
    "Verif.Props.C128_rotate",
    "Verif.Props.C128_turn"
   ],
   "note": ""
  },
  {
   "property": "C129",
   "status": "proved",
   "theorems": [
    "Verif.Props.C129_polygon_area",
    "Verif.Props.C129_multi_area",
    "Verif.Props.C129_polygon_length",
    "Verif.Props.C129_polygon_exact",
    "Verif.Props.C129_box_area",
    "Verif.Props.C129_diameter",
    "Verif.Props.C129_extents",
    "Verif.Props.C129_box_distance"
   ],
   "note": ""
  },
  {
   "property": "C130",
   "status": "proved",
   "theorems": [
    "Verif.Props.C130_orientation",
    "Verif.Props.C130_on_segment",
    "Verif.Props.C130_on_line",
    "Verif.Props.C130_locate",
    "Verif.Props.C130_ccw",
    "Verif.Props.C130_meet",
    "Verif.Props.C130_found"
   ],
   "note": ""
  },
  {
   "property": "C131",
   "status": "proved",
   "theorems": [
    "Verif.Props.C131_point",
    "Verif.Props.C131_points"
   ],
   "note": "Only segments not reported to intersect are covered for pairs; for reported ones the answer is the reported point twice (C40, C121)."
  },
  {
   "property": "C132",
   "status": "proved",
   "theorems": [
    "Verif.Props.C132_exact",
    "Verif.Props.C132_scale",
    "Verif.Props.C132_grid",
    "Verif.Props.C132_any",
    "Verif.Props.C132_limits"
   ],
   "note": ""
  },
  {
   "property": "C133",
   "status": "proved",
   "theorems": [
    "Verif.Props.C133_disjoint",
    "Verif.Props.C133_inclusions",
    "Verif.Props.C133_meetings",
    "Verif.Props.C133_transpose",
    "Verif.Props.C133_order",
    "Verif.Props.C133_recorded"
   ],
   "note": "Computing the matrix of two given geometries is not part of the code."
  },
  {
   "property": "C134",
   "status": "proved",
   "theorems": [
    "Verif.Props.C134_sequences",
    "Verif.Props.C134_arrays",
    "Verif.Props.C134_lines",
    "Verif.Props.C134_rings",
    "Verif.Props.C134_points",
    "Verif.Props.C134_polygons",
    "Verif.Props.C134_collections",
    "Verif.Props.C134_algorithms"
   ],
   "note": "Debug builds: an arithmetic overflow of usize is an abort. Memory is not modelled."
  },
  {
   "property": "C135",
   "status": "proved",
   "theorems": [
    "Verif.Props.C135_matrices",
    "Verif.Props.C135_lists",
    "Verif.Props.C135_numbers"
   ],
   "note": "Debug builds: an arithmetic overflow is an abort. Memory is not modelled."
  },
  {
   "property": "C136",
   "status": "proved",
   "theorems": [
    "Verif.Props.C136_segments",
    "Verif.Props.C136_point",
    "Verif.Props.C136_history",
    "Verif.Props.C136_points",
    "Verif.Props.C136_left_over"
   ],
   "note": ""
  },
  {
   "property": "C137",
   "status": "proved",
   "theorems": [
    "Verif.Props.C137_orientation",
    "Verif.Props.C137_boxes",
    "Verif.Props.C137_distance",
    "Verif.Props.C137_crossing",
    "Verif.Props.C137_points",
    "Verif.Props.C137_intersector",
    "Verif.Props.C137_strings",
    "Verif.Props.C137_oriented_distance"
   ],
   "note": "Not symmetric in this sense, and not claimed: rounding to a precision model, angles, the ring tests that look along one axis."
  },
  {
   "property": "C138",
   "status": "proved",
   "theorems": [
    "Verif.Props.C138_lines",
    "Verif.Props.C138_plain_formula",
    "Verif.Props.C138_distance",
    "Verif.Props.C138_intersector",
    "Verif.Props.C138_crossing",
    "Verif.Props.C138_ends_matter"
   ],
   "note": "The last sentence is proved by a witness (C138_ends_matter)."
  },
  {
   "property": "C139",
   "status": "proved",
   "theorems": [
    "Verif.Props.C139_orientation",
    "Verif.Props.C139_boxes",
    "Verif.Props.C139_intersector",
    "Verif.Props.C139_location",
    "Verif.Props.C139_ring",
    "Verif.Props.C139_area",
    "Verif.Props.C139_crossing",
    "Verif.Props.C139_plain",
    "Verif.Props.C139_too_small"
   ],
   "note": "The last sentence is proved by a witness (C139_too_small)."
  },
  {
   "property": "C140",
   "status": "proved",
   "theorems": [
    "Verif.Props.C140_segments",
    "Verif.Props.C140_components",
    "Verif.Props.C140_sized",
    "Verif.Props.C140_heights",
    "Verif.Props.C140_array_dimension",
    "Verif.Props.C140_packed",
    "Verif.Props.C140_factory",
    "Verif.Props.C140_multi_point",
    "Verif.Props.C140_point",
    "Verif.Props.C140_line_init",
    "Verif.Props.C140_octagon",
    "Verif.Props.C140_sides",
    "Verif.Props.C140_homogeneous",
    "Verif.Props.C140_angles",
    "Verif.Props.C140_axis_angles",
    "Verif.Props.C140_turns"
   ],
   "note": ""
  },
  {
   "property": "C141",
   "status": "proved",
   "theorems": [
    "Verif.Props.C141_direction",
    "Verif.Props.C141_polygon_with_holes",
    "Verif.Props.C141_direction_doubles",
    "Verif.Props.C141_locate",
    "Verif.Props.C141_onLine",
    "Verif.Props.C141_area",
    "Verif.Props.C141_box",
    "Verif.Props.C141_cut",
    "Verif.Props.C141_length",
    "Verif.Props.C141_line_centroid",
    "Verif.Props.C141_polygon_centroid",
    "Verif.Props.C141_holes_centroid",
    "Verif.Props.C141_locate_doubles",
    "Verif.Props.C141_area_doubles",
    "Verif.Props.C141_chord"
   ],
   "note": ""
  },
  {
   "property": "C142",
   "status": "proved",
   "theorems": [
    "Verif.Props.C142_locate",
    "Verif.Props.C142_onLine",
    "Verif.Props.C142_index",
    "Verif.Props.C142_area",
    "Verif.Props.C142_area_direction",
    "Verif.Props.C142_direction",
    "Verif.Props.C142_centroid",
    "Verif.Props.C142_segments",
    "Verif.Props.C142_meeting_point",
    "Verif.Props.C142_distances",
    "Verif.Props.C142_locate_doubles"
   ],
   "note": ""
  },
  {
   "property": "C143",
   "status": "proved",
   "theorems": [
    "Verif.Props.C143_walk",
    "Verif.Props.C143_hull",
    "Verif.Props.C143_inside",
    "Verif.Props.C143_way_out",
    "Verif.Props.C143_intersector",
    "Verif.Props.C143_intersector_doubles"
   ],
   "note": ""
  },
  {
   "property": "C144",
   "status": "proved",
   "theorems": [
    "Verif.Props.C144_between",
    "Verif.Props.C144_triangle",
    "Verif.Props.C144_fan",
    "Verif.Props.C144_no_distance",
    "Verif.Props.C144_apart",
    "Verif.Props.C144_disc",
    "Verif.Props.C144_segment",
    "Verif.Props.C144_between_doubles",
    "Verif.Props.C144_triangle_doubles"
   ],
   "note": ""
  },
  {
   "property": "C145",
   "status": "proved",
   "theorems": [
    "Verif.Props.C145_both_sides",
    "Verif.Props.C145_ring",
    "Verif.Props.C145_segments_any",
    "Verif.Props.C145_segments",
    "Verif.Props.C145_line_distance",
    "Verif.Props.C145_diameter",
    "Verif.Props.C145_ring_doubles"
   ],
   "note": ""
  },
  {
   "property": "C146",
   "status": "proved",
   "theorems": [
    "Verif.Props.C146_segment",
    "Verif.Props.C146_segments",
    "Verif.Props.C146_chain",
    "Verif.Props.C146_length",
    "Verif.Props.C146_area",
    "Verif.Props.C146_location",
    "Verif.Props.C146_rounding"
   ],
   "note": ""
  },
  {
   "property": "C147",
   "status": "proved",
   "theorems": [
    "Verif.Props.C147_distance",
    "Verif.Props.C147_part",
    "Verif.Props.C147_on_line",
    "Verif.Props.C147_box",
    "Verif.Props.C147_leave_out_box",
    "Verif.Props.C147_leave_out"
   ],
   "note": ""
  },
  {
   "property": "C148",
   "status": "proved",
   "theorems": [
    "Verif.Props.C148_line",
    "Verif.Props.C148_line_box",
    "Verif.Props.C148_holes",
    "Verif.Props.C148_order",
    "Verif.Props.C148_multi",
    "Verif.Props.C148_multi_hull"
   ],
   "note": ""
  },
  {
   "property": "C149",
   "status": "proved",
   "theorems": [
    "Verif.Props.C149_one_side",
    "Verif.Props.C149_nested",
    "Verif.Props.C149_apart",
    "Verif.Props.C149_cases",
    "Verif.Props.C149_transitive",
    "Verif.Props.C149_nearer",
    "Verif.Props.C149_intersector",
    "Verif.Props.C149_doubles",
    "Verif.Props.C149_doubles_apart"
   ],
   "note": ""
  },
  {
   "property": "C150",
   "status": "proved",
   "theorems": [
    "Verif.Props.C150_segments",
    "Verif.Props.C150_chain",
    "Verif.Props.C150_ends",
    "Verif.Props.C150_boxes"
   ],
   "note": ""
  }
 ]
}
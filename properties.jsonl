{"id": "C01", "title": "Coordinate ordering is a total order consistent with 2D equality", "statement": "On coordinates whose x and y are not NaN, compare_to returns only -1, 0 or 1, is 0 exactly when equals_2d holds, is sign-antisymmetric, transitive and orders lexicographically by x then y; z and m never influence it. With a NaN ordinate the comparison is not an order: if an x is NaN the comparison is by y alone, if a y is NaN by x alone, and an example breaks transitivity.", "quantifier": "all pairs and triples of coordinates (finite, infinite and NaN ordinates)", "why_tests_cant": "An order law ranges over all triples of floating point values, including infinities and NaN; tests fix a handful of pairs.", "anchors": ["src/core/geom/coordinate.rs: Coordinate::compare_to, equals_2d, equals_2d_with_tolerance"]}
{"id": "C02", "title": "An envelope grown from points is exactly their bounding box", "statement": "Starting from a null envelope and expanding it with any non-empty list of non-NaN points, the result covers every point of the list and is covered by every envelope that covers them all; it does not depend on the order or multiplicity of the points.", "quantifier": "all finite lists of points, all permutations of them, all candidate enclosing envelopes", "why_tests_cant": "Minimality quantifies over every other envelope and every permutation.", "anchors": ["src/core/geom/envelope.rs: Envelope::default, expand_to_include_xy, expand_to_include_coordinate, covers_xy, covers_envelope"]}
{"id": "C03", "title": "The null envelope behaves as the empty set", "statement": "A null envelope covers and intersects nothing, is neutral for expand_to_include, has zero width, height and area, stays null under expand_by and translate, and every operation on a non-null envelope with a null argument behaves as with the empty set. is_null is exactly max_x < min_x.", "quantifier": "all envelopes, all points and all operations taking envelopes", "why_tests_cant": "The claim is about every operation combined with every other envelope; test suites only probe a few combinations.", "anchors": ["src/core/geom/envelope.rs: Envelope::is_null, set_to_null, expand_to_include_envelope, intersects_envelope, covers_envelope, expand_by, translate"]}
{"id": "C04", "title": "Envelope intersection is set intersection", "statement": "For all valid envelopes a and b and every point, a.intersection(b) covers the point iff both a and b do; it is null iff a and b do not intersect; intersects is symmetric and holds iff some point is covered by both; disjoint is its negation.", "quantifier": "all pairs of envelopes built by the API, all points", "why_tests_cant": "Pointwise set equality over the plane cannot be sampled.", "anchors": ["src/core/geom/envelope.rs: Envelope::intersection, intersects_envelope, disjoint, covers_xy"]}
{"id": "C05", "title": "Envelope covering is inclusion and forms a partial order", "statement": "a.covers_envelope(b) holds iff b is non-null, a is non-null and every point covered by b is covered by a; it is transitive and antisymmetric up to equals, and contains is the same relation as covers.", "quantifier": "all triples of envelopes, all points", "why_tests_cant": "Inclusion of infinite point sets and order laws over triples.", "anchors": ["src/core/geom/envelope.rs: Envelope::covers_envelope, contains_envelope, equals"]}
{"id": "C06", "title": "Envelope distance is the true set distance", "statement": "In exact arithmetic the squared distance between two non-null envelopes is attained by a pair of their points and is a lower bound for all pairs; it is symmetric, zero exactly when the envelopes intersect.", "quantifier": "all pairs of non-null envelopes, all pairs of points in them", "why_tests_cant": "Minimum over an infinite set of point pairs.", "anchors": ["src/core/geom/envelope.rs: Envelope::distance, intersects_envelope"]}
{"id": "C07", "title": "Envelope comparison is a total order consistent with equality", "statement": "compare_to on non-NaN envelopes is a total order: nulls first, then lexicographic on (min_x, min_y, max_x, max_y); it returns 0 iff equals is true.", "quantifier": "all triples of envelopes", "why_tests_cant": "Order laws range over all triples.", "anchors": ["src/core/geom/envelope.rs: Envelope::compare_to, equals"]}
{"id": "C08", "title": "expand_by, translate and centre act as affine box operations", "statement": "In exact arithmetic expand_by(dx,dy) moves each side by exactly the given amounts and nullifies the envelope exactly when a side would become negative; translate moves the covered point set by the vector; expanding and then shrinking back is the identity on non-null envelopes with non-negative deltas; the centre is covered.", "quantifier": "all envelopes and all distances, positive or negative", "why_tests_cant": "Universally quantified algebraic laws.", "anchors": ["src/core/geom/envelope.rs: Envelope::expand_by_distance, expand_by, translate, centre, get_width, get_height"]}
{"id": "C09", "title": "Point and segment box tests agree with envelope objects", "statement": "The static tests of a point against the box of two points and of the boxes of two segments give the same answer as building the two envelopes and intersecting them, for all non-NaN coordinates.", "quantifier": "all 3- and 4-tuples of coordinates", "why_tests_cant": "Agreement of two implementations on every input.", "anchors": ["src/core/geom/envelope.rs: Envelope::intersects_point_envelope, intersects_envelopes, intersects_envelope"]}
{"id": "C10", "title": "A coordinate list built without repeats never holds consecutive duplicates", "statement": "Any sequence of add operations that disallow repeated points, starting from an empty list, leaves a list in which no two adjacent coordinates are 2D-equal; if all operations append, the list is all that was appended, in order, with runs of 2D-equal coordinates collapsed to their first element.", "quantifier": "all operation histories (single adds, bulk adds in forward direction, list adds, insertions at an index)", "why_tests_cant": "Invariant over unbounded histories of mutations.", "anchors": ["src/core/geom/coordinate_list.rs: CoordinateList::add_coordinate_repeated, add_coordinates_repeated, add_all, add_at_index"]}
{"id": "C11", "title": "close_ring closes and is idempotent", "statement": "After close_ring a non-empty list starts and ends with 2D-equal coordinates, keeps all previous coordinates as a prefix, appends at most one coordinate, and a second call changes nothing; on an empty list it is the identity.", "quantifier": "all coordinate lists", "why_tests_cant": "Universally quantified over lists of every length.", "anchors": ["src/core/geom/coordinate_list.rs: CoordinateList::close_ring"]}
{"id": "C12", "title": "Removing repeated points is exact", "statement": "CoordinateArrays::remove_repeated_points yields a list without adjacent 2D-equal points, is idempotent, keeps first occurrences in order, leaves inputs without repeats unchanged, and has_repeated_points says true exactly when something is removed.", "quantifier": "all coordinate arrays", "why_tests_cant": "All lengths and all patterns of repetition.", "anchors": ["src/core/geom/coordinate_arrays.rs: CoordinateArrays::remove_repeated_points, has_repeated_points"]}
{"id": "C13", "title": "Scrolling an array is a rotation", "statement": "Scrolling a coordinate array that is no closed ring to index i (i < len) produces exactly the rotation by i; the multiset of coordinates is unchanged and the requested coordinate comes first. Scrolling a closed ring rotates its vertices without the closing one, so that their cyclic order is kept, and closes the result with its new first vertex.", "quantifier": "all coordinate arrays and all indices", "why_tests_cant": "All lengths and all indices; aliasing in the copy loop matters.", "anchors": ["src/core/geom/coordinate_arrays.rs: CoordinateArrays::scroll, scroll_index, scroll_index_ensure_ring"]}
{"id": "C14", "title": "Array comparison is the lexicographic total order", "statement": "CoordinateArrays::compare is the lexicographic order induced by Coordinate::compare_to with a proper prefix first; it is reflexive, sign-antisymmetric and transitive on NaN-free arrays and is 0 iff the arrays are pointwise 2D-equal.", "quantifier": "all triples of coordinate arrays of any length", "why_tests_cant": "Order laws over unbounded sequences.", "anchors": ["src/core/geom/coordinate_arrays.rs: CoordinateArrays::compare, equals"]}
{"id": "C15", "title": "Increasing direction is a canonical orientation of an array", "statement": "increasing_direction is 1 for palindromes, flips sign under reversal of any non-palindromic NaN-free array, and is determined by the first asymmetric pair.", "quantifier": "all coordinate arrays", "why_tests_cant": "All lengths; early-exit loops with index arithmetic.", "anchors": ["src/core/geom/coordinate_arrays.rs: CoordinateArrays::increasing_direction, is_equal_reversed"]}
{"id": "C16", "title": "Minimum coordinate and index queries are correct", "statement": "min_coordinate of an array whose x and y are numbers returns the earliest element that is not greater than any other (none for an empty array); index_of returns the first 2D-equal position, or -1 exactly when absent; pt_not_in_list returns the first test point absent from the list.", "quantifier": "all arrays and probes", "why_tests_cant": "All arrays and ranges.", "anchors": ["src/core/geom/coordinate_arrays.rs: CoordinateArrays::min_coordinate, min_coordinate_index, min_coordinate_index_range, index_of"]}
{"id": "C17", "title": "Deep array copy writes exactly the requested window", "statement": "copy_deep_to copies length coordinates from src to dest at the given offsets, leaves every other destination slot unchanged, and panics exactly when a non-empty window leaves its array; extract returns the requested window.", "quantifier": "all arrays, offsets and lengths", "why_tests_cant": "All window positions; boundary panics.", "anchors": ["src/core/geom/coordinate_arrays.rs: CoordinateArrays::copy_deep, copy_deep_range, extract"]}
{"id": "C18", "title": "Sequence reversal is exact and an involution", "statement": "CoordinateArraySequences::reverse and PackedCoordinateSequences::reverse place ordinate k of coordinate i at coordinate n-1-i for every supported ordinate; applying it twice restores the sequence.", "quantifier": "all sequences, all dimensions", "why_tests_cant": "All lengths, parity of the swap loop, every ordinate.", "anchors": ["src/core/geom/coordinate_array_sequences.rs: CoordinateArraySequences::reverse, swap", "src/core/geom/packed_coordinate_sequences.rs: PackedCoordinateSequences::reverse, swap"]}
{"id": "C19", "title": "Sequence scrolling rotates and keeps rings closed", "statement": "Scrolling a sequence to an index rotates its coordinates: every ordinate of a packed sequence; x, y, and z within the dimension of an array sequence, while the other values stay in their places. With ensure_ring the coordinates but the last are rotated, so that their cyclic order is preserved, and the last one becomes equal to the new first one.", "quantifier": "all sequences and valid start indices", "why_tests_cant": "All lengths and indices.", "anchors": ["src/core/geom/coordinate_array_sequences.rs: CoordinateArraySequences::scroll_index, scroll_index_ensure_ring, scroll_coordinate", "src/core/geom/packed_coordinate_sequences.rs"]}
{"id": "C20", "title": "ensure_valid_ring produces a closed ring of at least four points", "statement": "For every non-empty sequence ensure_valid_ring returns a sequence whose first and last coordinates agree in x and y, with size at least 4 (0 for an empty input), having the input as prefix; valid rings are returned unchanged; is_ring holds for the result.", "quantifier": "all sequences", "why_tests_cant": "All sizes; small sizes take different paths.", "anchors": ["src/core/geom/coordinate_array_sequences.rs: CoordinateArraySequences::ensure_valid_ring, create_closed_ring, extend, is_ring"]}
{"id": "C21", "title": "Sequence comparator is a total preorder, NaN included", "statement": "CoordinateSequenceComparator::compare_* on sequences of one dimension is sign-antisymmetric and transitive, treats NaN as equal to NaN and less than every number, orders lexicographically with shorter prefix first, and the dimension limit truncates the comparison.", "quantifier": "all triples of sequences including NaN ordinates, all dimension limits", "why_tests_cant": "NaN breaks naive comparison; order laws range over all triples.", "anchors": ["src/core/geom/coordinate_sequence_comparator.rs: CoordinateSequenceComparator::compare, compare_coordinate, compare_size"]}
{"id": "C22", "title": "DE-9IM text round-trips", "statement": "Writing a matrix to its 9-symbol string and building a matrix from that string gives back the same matrix, and every 9-symbol dimension pattern string is reproduced by to_string, in upper case.", "quantifier": "all 9-cell matrices over the dimension values, all valid 9-symbol strings", "why_tests_cant": "6^9 matrices and all strings; parser edge cases beyond nine symbols.", "anchors": ["src/core/geom/intersection_matrix.rs: IntersectionMatrix::new_elements, set_string, to_string", "src/core/geom/dimension.rs: Dimension::to_dimension_symbol, to_dimension_value"]}
{"id": "C23", "title": "Transposing a DE-9IM exchanges the two geometries in every predicate", "statement": "transpose is an involution; within/contains and covers/coveredBy exchange under it; intersects, disjoint and equals(dimA,dimB) (with swapped dims) are invariant; touches, crosses and overlaps with swapped dimensions are invariant.", "quantifier": "all matrices and all dimension pairs", "why_tests_cant": "Large finite table per predicate times dimension pairs.", "anchors": ["src/core/geom/intersection_matrix.rs: transpose, is_within, is_contains, is_covers, is_covered_by, is_touches, is_crosses, is_overlaps, is_equals"]}
{"id": "C24", "title": "Named spatial predicates equal their DE-9IM patterns", "statement": "Each predicate is the documented pattern disjunction: disjoint = FF*FF****, contains = T*****FF*, within = T*F**F***, covers/coveredBy the four-pattern disjunctions, equals = T*F**FFF* for equal dimensions, touches = FT*|F**T|F***T for the admissible dimension pairs, crosses and overlaps by dimension; is_intersects = not is_disjoint; contains implies covers implies intersects.", "quantifier": "all matrices and all dimension arguments", "why_tests_cant": "All matrices over all dimension values and all dimension pairs.", "anchors": ["src/core/geom/intersection_matrix.rs: matches_string, is_disjoint, is_contains, is_within, is_covers, is_covered_by, is_equals, is_touches, is_crosses, is_overlaps"]}
{"id": "C25", "title": "DE-9IM accumulation is a join", "statement": "add and set_at_least compute the pointwise maximum: results never decrease, adding is idempotent, commutative and associative, and the result is the least matrix above both.", "quantifier": "all matrices, all update histories", "why_tests_cant": "Order independence over arbitrary update histories.", "anchors": ["src/core/geom/intersection_matrix.rs: add, set_at_least, set_at_least_if_valid, set_at_least_string"]}
{"id": "C26", "title": "Dimension and location symbols are faithful codes", "statement": "to_dimension_symbol and to_dimension_value are mutually inverse on the valid values and symbols up to the case of F and T, reject everything else; location symbols are distinct for distinct locations and invalid location values are rejected.", "quantifier": "all i32 values and all characters", "why_tests_cant": "All integers and all characters.", "anchors": ["src/core/geom/dimension.rs: Dimension", "src/core/geom/location.rs: Location::to_location_symbol"]}
{"id": "C27", "title": "Quadrant numbering is consistent with geometry", "statement": "For every non-zero direction the quadrant is determined by the signs with half-open boundaries, opposite quadrants differ by 2 modulo 4, is_in_half_plane, is_opposite and common_half_plane agree with the arithmetic modulo 4, and the zero vector is rejected.", "quantifier": "all direction vectors and all quadrant pairs", "why_tests_cant": "All floating vectors including infinities and NaN.", "anchors": ["src/core/geom/quadrant.rs: Quadrant"]}
{"id": "C28", "title": "Precision model rounding is a monotone idempotent projection to the grid", "statement": "In exact arithmetic, make_precise for a fixed model maps each value to a nearest grid point (ties away from zero), is idempotent, monotone and moves values by at most half a grid cell; floating models and NaN are left alone. A fixed model made without a scale rounds to whole numbers.", "quantifier": "all values and all positive scales / grid sizes", "why_tests_cant": "All real values and scales.", "anchors": ["src/core/geom/precision_model.rs: PrecisionModel::make_precise, make_precise_coordinate, compare_to, get_maximum_significant_digits"]}
{"id": "C29", "title": "Orientation index has the symmetries of a determinant sign", "statement": "In exact arithmetic the orientation index is the sign of the 2x2 determinant: swapping two points negates it, cyclic rotation preserves it, it is translation invariant and is 0 iff the points are collinear.", "quantifier": "all triples of points", "why_tests_cant": "All triples.", "anchors": ["src/core/algorithm/orientation.rs: Orientation::index", "src/core/algorithm/cg_algorithms_dd.rs: CGAlgorithmsDD::orientation_index, orientation_index_filter"]}
{"id": "C30", "title": "The floating point orientation filter never lies", "statement": "With binary64 rounding, whenever no intermediate product underflows or overflows and the fast filter returns a definite answer, it is the exact sign of the determinant of the given points.", "quantifier": "all triples of binary64 points satisfying the range condition", "why_tests_cant": "A rounding error bound over 2^384 inputs.", "anchors": ["src/core/algorithm/cg_algorithms_dd.rs: CGAlgorithmsDD::orientation_index_filter, DP_SAFE_EPSILON"]}
{"id": "C31", "title": "Point in ring is independent of ring direction and start vertex", "statement": "locate_point_in_ring yields the same location for a ring, its reversal, and any rotation of its vertices; a vertex or a point on an edge is BOUNDARY; the count equals the crossing number of the rightward ray with the half-open rule.", "quantifier": "all rings and all query points", "why_tests_cant": "All rings and all query points.", "anchors": ["src/core/algorithm/ray_crossing_counter.rs: RayCrossingCounter", "src/core/algorithm/point_location.rs: PointLocation::locate_in_ring, is_in_ring"]}
{"id": "C32", "title": "is_on_line / is_on_segment decides membership", "statement": "In exact arithmetic a point is reported on a segment iff it is a convex combination of its endpoints, and on a line iff it lies on one of its segments.", "quantifier": "all points and all lines", "why_tests_cant": "Equivalence with an existential over reals.", "anchors": ["src/core/algorithm/point_location.rs: PointLocation::is_on_segment, is_on_line"]}
{"id": "C33", "title": "Signed ring area is the shoelace integral", "statement": "In exact arithmetic of_ring_signed equals the shoelace sum, negates under reversal, is invariant under translation and rotation of the start vertex, of_ring is its absolute value, and the vector and sequence versions agree.", "quantifier": "all closed rings", "why_tests_cant": "All rings.", "anchors": ["src/core/algorithm/area.rs: Area::of_ring, of_ring_signed, of_ring_seq, of_ring_signed_seq"]}
{"id": "C34", "title": "Ring orientation test is stable", "statement": "is_ccw does not depend on which vertex the closed ring starts at, flips under reversal for non-degenerate rings, and equals the sign of the signed area for convex or triangular rings.", "quantifier": "all closed rings with non-zero extent", "why_tests_cant": "All rings and all rotations.", "anchors": ["src/core/algorithm/orientation.rs: Orientation::is_ccw, is_ccw_seq, is_ccw_area"]}
{"id": "C35", "title": "Line length is additive and reversal invariant", "statement": "of_line is the sum of the segment lengths; it is invariant under reversal, additive under concatenation at a shared vertex, nonnegative, at least the endpoint distance, and 0 for fewer than two points.", "quantifier": "all lines", "why_tests_cant": "All lengths and vertex positions.", "anchors": ["src/core/algorithm/length.rs: Length::of_line"]}
{"id": "C36", "title": "Point to segment distance is the minimum distance", "statement": "In exact real arithmetic point_to_segment is attained at a point of the segment and is a lower bound over all its points; point_to_line_perpendicular is the distance to the infinite line; point_to_segment_string is the minimum over its segments and NaN on an empty array.", "quantifier": "all points, segments and polylines", "why_tests_cant": "Minimum over infinite sets.", "anchors": ["src/core/algorithm/distance.rs: Distance::point_to_segment, point_to_segment_string, point_to_line_perpendicular"]}
{"id": "C37", "title": "Segment to segment distance is the minimum distance", "statement": "In exact real arithmetic segment_to_segment is 0 iff the segments share a point and otherwise the minimum distance between points of the two; it is symmetric in the segments and in the direction of each.", "quantifier": "all segment pairs", "why_tests_cant": "Minimum over infinite sets of point pairs.", "anchors": ["src/core/algorithm/distance.rs: Distance::segment_to_segment"]}
{"id": "C38", "title": "Segment intersection classification is correct", "statement": "In exact arithmetic the robust line intersector reports NO/POINT/COLLINEAR intersection exactly as the set of common points of the two closed segments is empty, a single point, or a nondegenerate segment; in the collinear case the two reported points are the endpoints of the common segment; is_proper holds exactly when the interiors cross at one point. For a segment of one point on the other segment the code is COLLINEAR and the two reported points coincide. Heights are interpolated linearly along the segments, and an input point that has a height keeps it.", "quantifier": "all pairs of segments including degenerate ones", "why_tests_cant": "Equivalence with a set-theoretic statement over the plane.", "anchors": ["src/core/algorithm/robust_line_intersector.rs: RobustLineIntersector::compute_intersection, compute_intersect, compute_collinear_intersection"]}
{"id": "C39", "title": "Line intersection formula lies on both lines", "statement": "In exact arithmetic Intersection::intersection returns a point lying on both infinite lines whenever the direction determinant is non-zero, None exactly when the lines are parallel, and agrees with the homogeneous and the double-double version.", "quantifier": "all pairs of lines", "why_tests_cant": "Algebraic identity for all inputs.", "anchors": ["src/core/algorithm/intersection.rs: Intersection::intersection", "src/core/algorithm/hcoordinate.rs: HCoordinate::intersection", "src/core/algorithm/cg_algorithms_dd.rs: CGAlgorithmsDD::intersection"]}
{"id": "C40", "title": "Segment projection, closest point and reflection are correct", "statement": "In exact arithmetic project returns the foot of the perpendicular, closest_point minimises distance over the segment, reflect is an isometric involution fixing the line, point_along interpolates and project/segment_fraction invert it, and reverse/normalize do not change the point set.", "quantifier": "all segments and points", "why_tests_cant": "Universally quantified geometry.", "anchors": ["src/core/geom/line_segment.rs: LineSegment::project, closest_point, reflect, point_along, projection_factor, segment_fraction, normalize, reverse, orientation_index_segment"]}
{"id": "C41", "title": "Triangle formulas satisfy their defining equations", "statement": "In exact arithmetic the circumcentre is equidistant from the vertices, the centroid is the vertex mean, the signed area is antisymmetric and equals half the determinant, perpendicular bisectors consist of equidistant points, and interpolate_z reproduces the plane through the vertices.", "quantifier": "all non-degenerate triangles and query points", "why_tests_cant": "Algebraic identities for all inputs.", "anchors": ["src/core/geom/triangle.rs: Triangle::circumcentre, centroid, area_signed, area, interpolate_z, perpendicular_bisector, in_centre"]}
{"id": "C42", "title": "Vector algebra laws", "statement": "In exact arithmetic Vector2D/Vector3D add, subtract, dot, scaling, averaging and quarter-circle rotations satisfy the vector space and inner product laws; rotating by n quarter circles depends on n modulo 4 including negative n and is exact.", "quantifier": "all vectors, all integers n", "why_tests_cant": "All integers (also negative) and all vectors.", "anchors": ["src/core/math/vector_2d.rs: Vector2D", "src/core/math/vector_3d.rs: Vector3D"]}
{"id": "C43", "title": "Angle normalisation lands in its range", "statement": "normalize returns an equivalent angle modulo 2 pi in (-pi, pi], normalize_positive in [0, 2 pi), diff is symmetric in [0, pi]; with floating point the loops need not terminate for huge inputs.", "quantifier": "all angles", "why_tests_cant": "Termination and range for all reals.", "anchors": ["src/core/algorithm/angle.rs: Angle::normalize, normalize_positive, diff, get_turn, is_acute, is_obtuse"]}
{"id": "C44", "title": "DD comparison and sign are lexicographic on (hi, lo)", "statement": "Comparison, equality, signum, negation and abs of double-double values are mutually consistent and form a total order on non-NaN values, and agree with the order of the represented reals for normalised pairs.", "quantifier": "all DD values", "why_tests_cant": "All pairs of doubles.", "anchors": ["src/core/math/dd.rs: DD::compare_to, equals, gt, lt, ge, le, signum, negate, abs, is_zero, is_negative"]}
{"id": "C45", "title": "DD integer power and arithmetic agree with exact arithmetic", "statement": "When all operations are exact, DD add/subtract/multiply/divide represent the exact results (hi + lo) and pow computes the integer power by repeated squaring, for every exponent.", "quantifier": "all DD values and all exponents", "why_tests_cant": "All exponents (loop invariant).", "anchors": ["src/core/math/dd.rs: DD::add, self_add, subtract, multiply, divide, pow, sqr, reciprocal"]}
{"id": "C46", "title": "Centroid is translation equivariant and orientation independent", "statement": "In exact arithmetic the polygon centroid does not depend on the direction or start of its rings nor on the internal base point, moves with translations, and falls back to line and then point centroid as the dimension drops.", "quantifier": "all polygons, lines and point sets", "why_tests_cant": "All rings and translations.", "anchors": ["src/core/algorithm/centroid.rs: Centroid"]}
{"id": "C47", "title": "Octagonal envelope bounds all its points", "statement": "After expanding with any set of non-NaN points an octagonal envelope intersects each of these points, is least such, and containment/intersection of two octagonal envelopes is consistent with their bounds.", "quantifier": "all point lists", "why_tests_cant": "Minimality over all lists.", "anchors": ["src/core/geom/octagonal_envelope.rs: OctagonalEnvelope"]}
{"id": "C48", "title": "LineString normalisation is canonical", "statement": "normalize is idempotent, gives the same result for a line and its reverse, keeps the multiset of coordinates, and makes the first asymmetric pair ascending; compare_to is a total order on NaN-free lines.", "quantifier": "all line strings", "why_tests_cant": "All lengths and patterns of palindromic prefixes.", "anchors": ["src/core/geom/line_string.rs: LineString::normalize, reverse, compare_to"]}
{"id": "C49", "title": "equals_exact is reflexive, symmetric and implies equal shape", "statement": "equals_exact with a tolerance is reflexive on NaN-free geometries with nonnegative tolerance, symmetric, and implies the same number of parts and coordinates; with zero tolerance it is an equivalence.", "quantifier": "all geometries and tolerances", "why_tests_cant": "All shapes and tolerances.", "anchors": ["src/core/geom/point.rs, line_string.rs, linear_ring.rs, multi_point.rs, multi_line_string.rs, polygon.rs, multi_polygon.rs: equals_exact", "src/core/geom/geometry.rs: Geometry::equal", "src/core/geom/coordinates.rs: Coordinates::equal"]}
{"id": "C50", "title": "Geometry copies, reversals and coordinate extraction are total and faithful", "statement": "copy yields an equal geometry, reverse is an involution that preserves the envelope, get_coordinates lists every coordinate once in order and get_num_points is its length, for every geometry including those with holes or several parts.", "quantifier": "all geometries", "why_tests_cant": "All structures of holes and parts; panics on particular shapes.", "anchors": ["src/core/geom/polygon.rs", "src/core/geom/multi_polygon.rs", "src/core/geom/multi_point.rs", "src/core/geom/multi_line_string.rs", "src/core/geom/linear_ring.rs"]}
{"id": "C51", "title": "Cached envelopes equal recomputed envelopes", "statement": "get_envelope_internal always returns the envelope that compute_envelope_internal would return, through any history of envelope queries, copies and reversals.", "quantifier": "all geometries, all call histories", "why_tests_cant": "Cache coherence over histories.", "anchors": ["src/core/geom/point.rs, linear_ring.rs, multi_point.rs, polygon.rs, multi_polygon.rs: get_envelope_internal, compute_envelope_internal, reverse"]}
{"id": "C52", "title": "Integer and float helper functions meet their contracts", "statement": "clamp returns the nearest value in the range, wrap returns the residue in [0,max), average is the midpoint, min/max helpers are exact, ceil is the integer ceiling of the quotient, equals_with_tolerance is symmetric.", "quantifier": "all integers / floats", "why_tests_cant": "All integers including negatives and boundary multiples.", "anchors": ["src/core/util/math_util.rs: MathUtil", "src/core/util/number_util.rs: NumberUtil"]}
{"id": "C53", "title": "Linear solver returns only true solutions and reports singular systems", "statement": "Matrix::solve returns a vector satisfying A x = b for every regular system and none for every singular or ill-shaped system, without panicking.", "quantifier": "all square systems", "why_tests_cant": "All sizes; pivoting and loop bounds.", "anchors": ["src/core/math/matrix.rs: Matrix::solve"]}
{"id": "C54", "title": "3D point to segment and segment to segment distances are minimal", "statement": "In exact real arithmetic distance_point_segment is the minimum 3D distance to the segment and distance_segment_segment the minimum between two segments, degenerate segments included.", "quantifier": "all 3D points and segments", "why_tests_cant": "Minimum over infinite sets; degenerate branches.", "anchors": ["src/core/algorithm/cg_algorithms_3d.rs: CGAlgorithms3D"]}
{"id": "C55", "title": "Packed and array sequences behave like an array of ordinate tuples", "statement": "get/set of every supported ordinate behave as a mutable matrix: a get after a set of the same cell returns the value, other cells are unchanged, out of range indices panic, and size equals the number of stored coordinates; copies are independent.", "quantifier": "all sequences, all operation histories", "why_tests_cant": "Refinement over all histories of reads and writes.", "anchors": ["src/core/geom/implementation/packed_coordinate_sequence_double.rs", "src/core/geom/implementation/packed_coordinate_sequence.rs", "src/core/geom/implementation/coordinate_array_sequence.rs"]}
{"id": "C56", "title": "Rectangle test is exact", "statement": "is_rectangle on a polygon holds iff it has no holes, its shell has five points lying on the corners of its envelope and consecutive vertices differ in exactly one ordinate.", "quantifier": "all polygons", "why_tests_cant": "All polygons.", "anchors": ["src/core/geom/polygon.rs: Polygon::is_rectangle"]}
{"id": "C57", "title": "Removing repeated or invalid points leaves only valid, distinct neighbours", "statement": "remove_repeated_or_invalid_points returns the finite points of the input in order with runs of 2D-equal points collapsed, so every result point is valid and no two neighbours are equal; it is idempotent. at_least_n_coordinates_or_nothing returns the array or nothing.", "quantifier": "all coordinate arrays, including arrays with NaN or infinite points anywhere", "why_tests_cant": "The position of the invalid points matters and there are arbitrarily many placements.", "anchors": ["src/core/geom/coordinate_arrays.rs: remove_repeated_or_invalid_points, has_repeated_or_invalid_points, at_least_n_coordinates_or_nothing"]}
{"id": "C58", "title": "Enforcing a consistent dimension does not lose ordinates", "statement": "enforce_consistency keeps the number of points and every ordinate that the common dimension has; arrays that already agree are unchanged.", "quantifier": "all arrays of XY, XYZ, XYM and XYZM coordinates in any mix", "why_tests_cant": "All mixes and all positions.", "anchors": ["src/core/geom/coordinate_arrays.rs: enforce_consistency, enforce_consistency_dim_measures", "src/core/geom/coordinates.rs: Coordinates"]}
{"id": "C59", "title": "Array envelope is the least covering envelope and clips exactly", "statement": "CoordinateArrays::envelope covers every point and is covered by every envelope that does; intersection keeps exactly the points meeting the given envelope, in order with multiplicity; clipping to the own envelope is the identity.", "quantifier": "all coordinate arrays and envelopes", "why_tests_cant": "Minimality quantifies over all envelopes.", "anchors": ["src/core/geom/coordinate_arrays.rs: envelope, intersection"]}
{"id": "C60", "title": "Equality of sequences is an equivalence", "statement": "CoordinateArraySequences::is_equal and PackedCoordinateSequences::is_equal never panic, are reflexive even with NaN ordinates, symmetric, and transitive on sequences of one dimension; they hold exactly if sizes agree and all ordinates within both dimensions are equal or both NaN, which for array sequences of one dimension is the comparator returning 0.", "quantifier": "all pairs and triples of sequences of any size and dimension", "why_tests_cant": "Reflexivity with NaN, symmetry and transitivity quantify over all contents; tests compare a few short sequences.", "anchors": ["src/core/geom/coordinate_array_sequences.rs: is_equal", "src/core/geom/packed_coordinate_sequences.rs: is_equal"]}
{"id": "C61", "title": "Minimum of a sequence is the first smallest coordinate", "statement": "min_coordinate of a sequence returns none only if it is empty and else the first smallest coordinate; min_coordinate_index returns its index (over the whole sequence or a given range).", "quantifier": "all array sequences of numbers, all index ranges", "why_tests_cant": "A minimum and the choice of the first among equals are claims about every position of every sequence.", "anchors": ["src/core/geom/coordinate_array_sequences.rs: min_coordinate, min_coordinate_index_sequence, min_coordinate_index_sequence_from_to"]}
{"id": "C62", "title": "Searching, scrolling to a coordinate and extending sequences", "statement": "index_of returns the first index whose x and y equal the given ones or -1; scrolling to a coordinate leaves the sequence alone if it is absent and else makes it first; extend of a non-empty sequence keeps x, y, and z within the dimension of its coordinates and pads with copies of the last one.", "quantifier": "all array sequences, all coordinates, all target sizes", "why_tests_cant": "First-match and padding hold for all lengths and positions, including rings where the match is the closing point.", "anchors": ["src/core/geom/coordinate_array_sequences.rs: index_of, scroll_coordinate, extend"]}
{"id": "C63", "title": "Double-double sum and product of two doubles are exact", "statement": "Adding two f64 values as DD numbers, or multiplying them, gives a DD whose high and low parts add up to the exact mathematical sum or product, the high part being the correctly rounded f64 result (as long as the result is finite and, for products, does not underflow).", "quantifier": "all pairs of finite f64 numbers, with IEEE rounding at every step", "why_tests_cant": "There are 2^128 pairs of inputs; exactness depends on every rounding step cancelling.", "anchors": ["src/core/math/dd.rs: DD::self_add_f64, self_add_hi_lo, self_multiply_hi_lo, multiply_dd"]}
{"id": "C64", "title": "The sign of a double-double sum or difference is exact", "statement": "signum of the sum or the difference of two normalised DD numbers is the sign of the exact sum or difference, whatever cancellation takes place; in particular a - b has sign 0 only if a and b are equal.", "quantifier": "all normalised DD numbers (high part = rounded value), with IEEE rounding, as long as the result is finite", "why_tests_cant": "Cancellation can remove all leading bits; the worst cases are a vanishing share of the inputs.", "anchors": ["src/core/math/dd.rs: DD::add_dd, subtract_dd, self_subtract_dd, signum"]}
{"id": "C65", "title": "The orientation of grid points is exact in floating point", "statement": "For three points with f64 coordinates on a common grid (integers up to 2^52 times a power of two between 2^-484 and 2^400; in particular all integer coordinates up to 2^52) the orientation index computed in f64 arithmetic is exactly the sign of the real determinant: never a wrong turn, 0 exactly if collinear.", "quantifier": "all triples of grid points, with IEEE rounding at every step of the filter and of the double-double fallback", "why_tests_cant": "About 2^318 triples per grid; the nearly collinear ones are where rounding goes wrong.", "anchors": ["src/core/algorithm/cg_algorithms_dd.rs: CGAlgorithmsDD::orientation_index, orientation_index_filter", "src/core/algorithm/orientation.rs: Orientation::index", "src/core/math/dd.rs: DD"]}
{"id": "C66", "title": "Ring and segment predicates are exact on grid points in floating point", "statement": "For f64 points on a common grid (integers up to 2^52 times a power of two between 2^-484 and 2^400) the predicates computed in f64 arithmetic agree with exact geometry: point in ring (interior, boundary, exterior), on a segment, on a line, orientation of a ring, and whether and how two segments meet (none, point, proper point, collinear overlap).", "quantifier": "all rings, lines and segments of grid points, all query points on the grid, with IEEE rounding", "why_tests_cant": "Rings of any length with any positions, including nearly collinear ones.", "anchors": ["src/core/algorithm/point_location.rs: PointLocation", "src/core/algorithm/ray_crossing_counter.rs: RayCrossingCounter", "src/core/algorithm/orientation.rs: Orientation::is_ccw", "src/core/algorithm/robust_line_intersector.rs: RobustLineIntersector"]}
{"id": "C67", "title": "Accuracy of double-double products and of the orientation of arbitrary points", "statement": "The product of two normalised DD numbers is normalised and within 2^-100 (relative) of the exact product. Consequently the orientation index of any three points with finite f64 coordinates of moderate size (at most 2^400, the products of coordinate differences zero or at least 2^-500) is the sign of the exact determinant whenever that determinant exceeds 2^-100 times the sum of its two products. Closer than that it cannot be relied on: there are exactly collinear points reported as a turn and left turns reported as right turns.", "quantifier": "all pairs of normalised DD numbers; all triples of f64 points of moderate size, with IEEE rounding at every step", "why_tests_cant": "The failing triples are so rare (one in about 2^100) that no sample would meet them, and the positive part speaks of all the others.", "anchors": ["src/core/math/dd.rs: DD::self_multiply_hi_lo", "src/core/algorithm/cg_algorithms_dd.rs: CGAlgorithmsDD::orientation_index", "src/core/algorithm/orientation.rs: Orientation::index"]}
{"id": "C68", "title": "Geometries created by the factory hold the coordinates they are given", "statement": "A point, line, ring, polygon, multi polygon or multi point created from coordinates (or from parts) gives back exactly those coordinates, in order: all of x, y, z, and the measure except in a multi point made of coordinates, where a measure becomes 0. The dimension of a sequence made from coordinates is the greatest dimension of its coordinates. A point refuses a sequence of more than one coordinate; rings are not checked for being closed.", "quantifier": "all lists of coordinates of any length and dimension, NaN and infinities included, over every arithmetic", "why_tests_cant": "Lists of every length with every mixture of dimensions; multi points are built one by one through sequences of their own.", "anchors": ["src/core/geom/geometry_factory.rs: GeometryFactory", "src/core/geom/coordinate_arrays.rs: dimension, measures", "src/core/geom/coordinates.rs: dimension, measures, create_dim_measures"]}
{"id": "C69", "title": "Area and length of polygons", "statement": "The area of a polygon whose rings are closed is the area inside its shell less the areas of its holes, where the area inside a ring is half the absolute value of the shoelace sum. It does not depend on where the rings start, on their directions or on the order of the holes, nor on the position of the polygon, and scaling by k multiplies it by k squared. The area of a multi polygon is the sum of the areas of its polygons. The length of a polygon is the sum of the lengths of all its rings, the same if rings are reversed. Nothing keeps holes inside the shell, so the area of an invalid polygon may be negative.", "quantifier": "all polygons with closed rings, any number of holes and vertices, coordinates in any ordered field (area) or the reals (length); all shifts, factors, starting points and directions; all multi polygons", "why_tests_cant": "A test compares the area of a few polygons; it cannot show that no starting point, direction, order of holes or position changes the result.", "anchors": ["src/core/geom/polygon.rs: get_area, get_length", "src/core/geom/multi_polygon.rs: get_area", "src/core/algorithm/area.rs: of_ring_sequence", "src/core/algorithm/length.rs: of_line"]}
{"id": "C70", "title": "Quasirandom sequence", "statement": "Repeating the quasirandom step from a start in [0,1) with a step that is not negative gives the fractional parts of the start plus multiples of the step, all in [0,1). With an irrational step, such as the default one (the inverse golden ratio), no value ever repeats and every interval inside [0,1] is reached. In binary64 the result is the exact fractional part of the rounded sum, a double in [0,1), provided the sum is not negative and does not overflow; on overflow it is NaN. A negative sum is returned as it is.", "quantifier": "all starts, steps and numbers of repetitions, over any ordered field with floors (values), the reals (irrational steps) and binary64 (one step)", "why_tests_cant": "A test sees a finite prefix of the sequence; that no value ever repeats and no interval is missed is a statement about infinitely many terms.", "anchors": ["src/core/util/math_util.rs: quasirandom_curr, quasirandom_curr_alpha"]}
{"id": "C71", "title": "Ends, closure and boundary of lines", "statement": "The start and end point of a line are points with its first and last coordinate, and the n-th point has its n-th coordinate; an empty line has no ends and asking beyond the last point panics. A line is closed, and is called a ring, exactly if it is not empty and its first and last coordinates are equal in x and y; its boundary dimension is then -1 and otherwise 0. Nothing more is asked of a ring: lines that cross or retrace themselves are rings. A collection of lines is empty if all its lines are, and closed if it has lines and all are closed. Reversing a line without measures swaps its ends. The opposite of the left side is the right side and conversely, and any other position is its own opposite.", "quantifier": "all lines and collections of lines, of any length and over any arithmetic, including NaN coordinates; all indices and positions", "why_tests_cant": "Closure is a condition on every line of a collection of any size; a test checks a few.", "anchors": ["src/core/geom/line_string.rs: get_start_point, get_end_point, get_point_n, is_closed, is_ring, get_boundary_dimension, reverse", "src/core/geom/multi_line_string.rs: is_empty, is_closed, get_boundary_dimension", "src/core/geom/position.rs: opposite"]}
{"id": "C72", "title": "Base packed sequences hold nothing", "statement": "A base packed coordinate sequence can be created exactly when at least two dimensions are left beside the measures. It has no points, and no sequence of calls can give it one: every call that sets an ordinate panics, and so does every access to a point or an ordinate, except that the height and the measure of a sequence without them are NaN. Its copy is empty too, and need not have the same number of measures.", "quantifier": "all dimensions, numbers of measures, indices, values and sequences of calls", "why_tests_cant": "That no program can store a point is a statement about all sequences of calls.", "anchors": ["src/core/geom/implementation/packed_coordinate_sequence.rs: new_with_dimension_measures, set_ordinate, get_ordinate, get_coordinate_by_index, to_coordinate_array, copy"]}
{"id": "C73", "title": "Rounding double-double numbers to whole numbers is exact in binary64", "statement": "For every normalised pair of doubles (high part the rounded sum of both), floor, ceil and trunc return a pair whose parts add up to exactly the greatest whole number not above, the least not below, the nearest towards zero of the sum of the parts. double_value is the sum rounded. rint of a double is the nearest whole number with halves upwards, and leaves the receiver one half greater than it was; for a pair the half is added with a relative error of at most 2^-101. int_value is the value towards zero if that fits into an i32 and the high part is not whole or the low part does not lead towards zero from it. Two exceptions to what one would expect are part of the claim: the floor of a pair with whole high part and negative low part is not normalised, so that the floor of 5 - 2^-60 has the value 4 but compares greater than 4; and int_value of that number is 5 although its truncation is 4. Rounding a NaN gives NaN.", "quantifier": "all normalised pairs of binary64 numbers", "why_tests_cant": "A test sees a few numbers; whether the low part can carry the value across an integer depends on the rounding of the pair and shows only for numbers within 2^-50 of an integer.", "anchors": ["src/core/math/dd.rs: DD::floor, ceil, trunc, rint, double_value, int_value"]}
{"id": "C74", "title": "Double-double sums and differences are accurate to one part in 2^101, even under cancellation", "statement": "In binary64, the sum of two normalised pairs of doubles (add_dd), the difference of two (subtract_dd and self_subtract_dd, which agree) and the sum of a pair and a double (add_f64), if the high part of the result is finite, is a normalised pair whose value differs from the exact result by at most 2^-101 of the exact result, however strongly the operands cancel. In particular a difference is zero exactly if the operands have the same value. The product of a pair with a double (self_multiply_f64), without underflow, has a relative error of at most 2^-100.", "quantifier": "all normalised pairs of binary64 numbers whose sum does not overflow", "why_tests_cant": "The error bound concerns the last bits of 107 and must hold for 2^256 operands, in particular for all patterns of cancellation.", "anchors": ["src/core/math/dd.rs: DD::add_dd, add_f64, subtract_dd, self_subtract_dd, self_multiply_f64"]}
{"id": "C75", "title": "Double-double quotients and reciprocals are accurate to one part in 2^100", "statement": "In binary64, the quotient of two normalised pairs of doubles (divide_dd, self_divide_dd), if there is no underflow (divisor normal, dividend and quotient zero or at least 2^-960) and the high part of the result is finite, is a normalised pair whose value differs from the exact quotient by at most 2^-100 of it; a quotient of doubles that is a double is exact. The reciprocal is the quotient of one and the number. Multiplying the quotient by the divisor returns the dividend up to 3 parts in 2^100.", "quantifier": "all normalised pairs of binary64 numbers without underflow", "why_tests_cant": "The error bound concerns the last bits of 107 and must hold for 2^256 operands.", "anchors": ["src/core/math/dd.rs: DD::divide_dd, self_divide_dd, reciprocal"]}
{"id": "C76", "title": "Square roots of double-doubles are accurate to twice the precision of a double", "statement": "For every double-double in normal form with a high part of at least 2^-900, if the double square root of its high part is correctly rounded and the result is finite, the square root is a double-double in normal form whose square differs from the argument by at most one part in 2^98, and which differs from the real square root by at most one part in 2^98. The root of zero is zero and the root of a negative number is NaN.", "quantifier": "all pairs of binary64 numbers in normal form with a high part of at least 2^-900, and every square root operation that rounds correctly at that high part", "why_tests_cant": "The bound concerns every pair of doubles; tests compare a few roots with known digits.", "anchors": ["src/core/math/dd.rs: DD::sqrt_dd"]}
{"id": "C77", "title": "Powers of double-doubles lose at most one part in 2^99 for each unit of the exponent", "statement": "For every double-double in normal form whose value is at least one in size and every exponent n from 1 to 2^31-1, if the n-th power is finite it is a double-double in normal form which differs from the exact power by at most n parts in 2^99. With exponent -n the result, if finite, differs from the exact inverse power by at most n+1 parts in 2^99, provided the exact power is at most 2^900. Exponent zero gives exactly one, and the least 32-bit exponent panics.", "quantifier": "all pairs of binary64 numbers in normal form of size at least one and all 32-bit exponents", "why_tests_cant": "The bound concerns every base and exponent; tests compare a few powers with known digits.", "anchors": ["src/core/math/dd.rs: DD::pow"]}
{"id": "C78", "title": "Coordinates keep what is stored in them and compare as documented", "statement": "A coordinate holds the ordinates it is constructed with, and NaN for the height and measure it is not given; the default ones are zero. Setting ordinate 0, 1 or 2 changes that ordinate only and it is read back; any other index, that of the measure included, reads as nothing and setting it does nothing. Copying copies all four values, setting from another coordinate all but the measure. Coordinates made for a dimension are of that dimension, except that three dimensions without a measure, like requests that are not supported, give a planar coordinate. A coordinate with a NaN x or y counts as three-dimensional without a measure. Spatial equality is an equivalence on coordinates with numeric x and y and treats missing heights as equal. In binary64, comparison within a tolerance is symmetric and monotone in the tolerance; with tolerance zero it is equality of finite coordinates; a coordinate with an infinite or NaN ordinate is not within any finite tolerance of anything, itself included; missing heights are not equal within any tolerance.", "quantifier": "all coordinates, ordinate indices, dimensions and tolerances; all binary64 values including NaN and infinities for the tolerance laws", "why_tests_cant": "These are laws over all doubles and indices, including the values at which rounding or NaN could break them.", "anchors": ["src/core/geom/coordinate.rs: Coordinate", "src/core/geom/coordinates.rs: Coordinates::create_dim_measures, Coordinates::dimension, Coordinates::measures", "src/core/util/number_util.rs: NumberUtil::equals_with_tolerance"]}
{"id": "C79", "title": "Determinants of doubles are accurate and their signs exact", "statement": "For any four binary64 numbers whose two products do not underflow, if the double-double determinant is finite it differs from the exact determinant by at most one part in 2^101, whatever cancellation takes place; the sign of the determinant is exact, and two vectors are reported as parallel exactly if they are. If a product underflows the sign may be lost, and if one overflows vectors at right angles may be reported as parallel.", "quantifier": "all quadruples of binary64 numbers without underflow of the two products", "why_tests_cant": "Near cancellation any double rounding error flips the sign; only a proof covers all quadruples.", "anchors": ["src/core/math/dd.rs: DD::determinant_xy_f64, DD::determinant_xy_dd", "src/core/algorithm/cg_algorithms_dd.rs: CGAlgorithmsDD::sign_of_det2x2_f64", "src/core/math/vector_2d.rs: Vector2D::is_parallel"]}
{"id": "C80", "title": "Rounding to a precision model in binary64 is monotone, accurate and idempotent below 2^51 cells", "statement": "In binary64, rounding to a fixed precision model, given by a positive scale or a grid size, returns the double nearest to a grid point whose distance from the value is at most half a cell plus a rounding error; it keeps the order of all values; NaN and infinities are kept; and rounding twice is rounding once, for values of fewer than 2^51 cells, scales up to 2^1022 and grid sizes from 2^-1022. With more cells than that it need not be idempotent, and a large finite value may become infinite.", "quantifier": "all binary64 values, scales and grid sizes", "why_tests_cant": "Idempotence in floating point depends on every rounding of product and quotient; it fails beyond a threshold no test would find by chance.", "anchors": ["src/core/geom/precision_model.rs: PrecisionModel::make_precise, PrecisionModel::new_with_scale"]}
{"id": "C81", "title": "Simple rings: orientation, area, inside and outside agree", "statement": "For every ring that does not cross or touch itself: the signed area is not zero; is_ccw and is_ccw_area both answer exactly by its sign, whatever corner the ring starts at, and flip when it is reversed; and locate_in_ring finds the points on the left of every edge inside a counterclockwise ring and outside a clockwise one (any point reached from an edge without meeting the ring again, in particular all points close to the edge). For every closed ring at all, points joined by a segment off the ring have the same location.", "quantifier": "all simple rings with any number of corners and tops, exact arithmetic over any ordered field; the last clause for all closed rings, also self-crossing ones", "why_tests_cant": "Jordan-curve facts about all simple polygons; a test samples a few shapes.", "anchors": ["src/core/algorithm/orientation.rs: Orientation::is_ccw, is_ccw_area", "src/core/algorithm/area.rs: Area::of_ring_signed", "src/core/algorithm/ray_crossing_counter.rs: RayCrossingCounter", "src/core/algorithm/point_location.rs: PointLocation::locate_in_ring"]}
{"id": "C82", "title": "Centroids of polygons with simple rings", "statement": "For every polygon whose rings do not cross or touch themselves: the centroid depends neither on where the rings start nor on their direction; times the area of the shell less the areas of the holes (if that is not zero) it is the sum of the centres of the rings weighted by their areas, the holes counted negative. Without holes the centroid exists, and is strictly on the same side of any line as the vertices are, hence strictly inside the convex hull and the envelope, also for polygons that are not convex.", "quantifier": "all polygons with simple shell and any number of simple holes, real arithmetic", "why_tests_cant": "Quantifies over all simple polygons, most of which are not convex; tests sample a few and cannot show that the orientation test and the signed sums always agree.", "anchors": ["src/core/algorithm/centroid.rs: Centroid::get_centroid, add_polygon, add_shell, add_hole", "src/core/algorithm/orientation.rs: Orientation::is_ccw", "src/core/algorithm/area.rs: Area::of_ring"]}
{"id": "C83", "title": "Angles in double precision", "statement": "In double precision: normalize and normalize_positive end for every finite angle of size at most 2^56 and never for a larger one; when they end the result is a double in (-pi, pi] and in [0, 2 pi) (pi being the double constant). For angles below 64 in size normalize changes the angle by exactly a whole number of turns, and normalize_positive too up to 2^-51; angles in range and NaN are returned as they are. diff is symmetric for all doubles, and for angles in [-pi, pi] it is in [0, pi] and within 2^-51 of the lesser turn. If atan2 answers in [-pi, pi], angle_between_oriented is in (-pi, pi], interior_angle ends in [0, 2 pi) within 2^-50 of the difference of directions, and bisector ends in (-pi, pi].", "quantifier": "all binary64 angles; all triples of points whose directions the library reports in [-pi, pi]", "why_tests_cant": "The loops run up to 2^53 times, and the bound of termination is a single double; tests cannot run the loops nor try all roundings.", "anchors": ["src/core/algorithm/angle.rs: Angle::normalize, normalize_positive, diff, angle_between, angle_between_oriented, interior_angle, bisector"]}
{"id": "C84", "title": "Boxes and midpoints in double precision", "statement": "For envelopes with finite double-precision sides in order: width and height are never negative or NaN, are zero exactly if the two sides coincide, and are within one part in 2^53 of the exact lengths unless they overflow; the centre is covered by the envelope, and the midpoint of a segment lies in the box of its ends, unless a sum of coordinates overflows; growing by a non-negative distance gives an envelope that covers the original and every double-precision point within that exact distance per axis; a covered point translated by the same vector as the envelope is covered by the translated envelope; the distance of two envelopes is zero exactly if they have a point in common. After every history of constructions, inclusions, intersections, shifts and enlargements or reductions from numbers, with finite shifts and distances, an envelope is empty or has ordered sides that are numbers, although sums overflow; an infinite distance can break this. Exceptions that do occur: the centre of the box of the single point (M, M) with M the largest double is infinite, the area of a box with distinct sides can be zero, the area of a box with finite sides can be NaN, and growing then shrinking by the same distance need not give the box back.", "quantifier": "all finite double-precision sides, distances, vectors and points", "why_tests_cant": "The laws are usual in exact arithmetic and each fails for some other formula in floating point; whether rounding, underflow or overflow can break one of them is a question about all 2^256 boxes, not about a sample.", "anchors": ["src/core/geom/envelope.rs: get_width, get_height, get_area, centre, expand_by, translate, distance_envelope, covers_xy, covers_envelope", "src/core/geom/line_segment.rs: mid_point_coordinates, mid_point"]}
{"id": "C85", "title": "Intersections of grid points in double arithmetic", "statement": "Let the ordinates of all points be multiples of one power of two 2^g (-100 <= g <= 100) by integers of at most 32 bits, in IEEE double arithmetic. The intersection of two lines is reported as missing exactly if the lines are parallel. Otherwise both ordinates of the reported point are faithful roundings of the exact common point: no double lies strictly between the exact ordinate and the reported one, and the relative error is at most 2^-53 + 2^-99. A proper crossing found by the segment intersector without a precision model reports such a faithful rounding of the one exact crossing point, and the reported point lies in the bounding boxes of both segments. If the crossing is not proper, then (even for 52-bit integers and -484 <= g <= 400) the reported points are unchanged end points of the segments: the one common point for a point intersection, and the two ends of the common part for a collinear one.", "quantifier": "for all such lines and segments, all g in the ranges and all earlier states of the intersector", "why_tests_cant": "The number of inputs is beyond testing, and the error of the double-double computation is largest for nearly parallel lines, which random tests do not produce.", "anchors": ["src/core/algorithm/cg_algorithms_dd.rs: intersection", "src/core/algorithm/intersection.rs: intersection", "src/core/algorithm/robust_line_intersector.rs: compute_intersection_4, intersection, intersection_safe, is_in_segment_envelopes"]}
{"id": "C86", "title": "What the segment intersector guarantees in every arithmetic", "statement": "Whatever the arithmetic does, NaN and infinite ordinates included, the segment intersector reports code 0, 1 or 2; a code other than 0 only if the boxes of the segments meet. The intersection is proper exactly if the boxes meet and the computed orientations put the ends of each segment strictly on opposite sides of the other; a proper intersection has code 1. A point that is no proper crossing, and both points of a collinear intersection, have x and y of one of the four ends, unchanged; each point of a collinear intersection is an end of one segment inside the box of the other. The point of a proper crossing (no precision model) is covered by the boxes of both segments, or it is one of the four ends such that no end has a smaller computed distance from the other segment. A precision model does not change the code, the proper flag or the points of other intersections, and rounds the point of a proper crossing.", "quantifier": "for all scalars (for the boxes and distances: extended rationals with every rounding), all segments, all earlier states and all precision models", "why_tests_cant": "Tests cover few inputs and only the hardware arithmetic; the claim holds for all roundings and for NaN and infinities.", "anchors": ["src/core/algorithm/robust_line_intersector.rs: compute_intersection_4, compute_intersect, compute_collinear_intersection, intersection, nearest_endpoint, set_precision_model"]}
{"id": "C87", "title": "Ring areas in binary64: error bound, exactness on coarse grids, and the limit", "statement": "For every closed ring of at most 2^50 points whose ordinates are doubles, computing the (signed or unsigned) area in IEEE binary64 never fails, and if the result is finite it differs from the true area by at most (n+2)/2^52 times half the sum of the absolute values of the shoelace terms taken relative to the first x, plus n*2^-1074, where n is the number of points; so when the true area exceeds that bound its sign is right. On a grid (multiples of 2^g, -500 <= g <= 400, by integers of magnitude at most 2^b with n*2^(2b+2) <= 2^53) the area is exact. Outside the bound nothing better holds: there is a counter-clockwise triangle of doubles whose computed signed area is positive, as if it were clockwise.", "quantifier": "all closed rings of doubles of at most 2^50 points, both forms of input (points, coordinate sequence); all grids in the given range", "why_tests_cant": "The accumulated rounding error depends on every partial sum; tests see individual rings and cannot bound the error for all of them, nor show where the sign stops being reliable.", "anchors": ["src/core/algorithm/area.rs: of_ring_vec, of_ring_signed_vec, of_ring_coordinate_sequence, of_ring_signed_coordinate_sequence"]}
{"id": "C88", "title": "Lengths and distances in binary64", "statement": "With a library hypot whose finite results on doubles are nonnegative doubles within a relative error e and an absolute error d of the true hypotenuse: the computed distance of two points with double ordinates, if finite, differs from the Euclidean distance by at most ((1+e)(1+2^-53)-1) times it plus d; computing the length of a line of n such points never fails and a finite result is nonnegative and differs from the true length L by at most ((1+e)(1+2^-53)^n-1)*L + n(1+2^-53)^n*d; it is at least the computed length of every segment, and zero only if all points coincide (for a hypot that vanishes only at (0,0)). The computed length may depend on the direction of the line: there is a line of four points of length exactly 1 whose reversal has computed length 1+2^-52.", "quantifier": "all lines of points with double ordinates, any number of points, every hypot of the given accuracy", "why_tests_cant": "The relative error grows with the number of points and depends on every intermediate rounding; no finite set of lines bounds it, and the dependence on direction shows only for special sums.", "anchors": ["src/core/algorithm/length.rs: of_line", "src/core/geom/coordinate.rs: distance"]}
{"id": "C89", "title": "Names, codes and dimensions of geometries", "statement": "The type codes tell the seven kinds of geometries apart, and so do the type names; both differ from those of a geometry collection; collections are named 'Multi' followed by the name of their elements and have the dimension of their elements and no other; the codes are ordered by dimension. A boundary dimension is one less than the dimension or FALSE: always FALSE for points and rings, never for polygons, for a line iff its first and last points coincide in 2D (so not for an empty line), for a collection of lines iff it is not empty and FALSE is reported for each of its lines. Asking for a polygon of a collection succeeds only for an index below the number of polygons.", "quantifier": "all pairs of kinds; all lines, collections of lines and of polygons, all indices", "why_tests_cant": "The claims about boundaries range over all lines and collections; the codes and names are used as keys, so any collision counts, including one introduced later.", "anchors": ["src/core/geom/geometry.rs: TYPECODE_*, TYPENAME_*", "src/core/geom/{point,line_string,linear_ring,polygon,multi_point,multi_line_string,multi_polygon}.rs: get_type_code, get_geometry_type, get_dimension, has_dimension, get_boundary_dimension, get_num_polygons, get_polygon_at_index"]}
{"id": "C90", "title": "Distances of grid points to segments in double precision", "statement": "In IEEE double precision, for points whose ordinates are 24-bit integers times one power of two (exponent from -484 to 400), and with a square root and hypot of relative error at most e (e <= 1/2) away from underflow: the distance from a point to a segment, to a chain of segments, and between two segments is a finite nonnegative number within (1+e)(1+2^-53)^2-1 (relative) of the true least distance. It is 0 exactly if the point lies on the segment or chain, and exactly if the two segments have a common point. The perpendicular distance to a line has the same relative error, its signed variant is the same number with an exact sign (positive exactly for points right of the directed line). Outside such grids this can fail: the distance of an endpoint to a segment of length 2^-600 is NaN.", "quantifier": "all grids, all points, segments and nonempty chains on them, all libraries within the error bound", "why_tests_cant": "a rounded test can be on the wrong side for one pair of points among 2^96; samples do not show that a zero distance always means contact", "anchors": ["src/core/algorithm/distance.rs: Distance::point_to_segment, point_to_segment_string, segment_to_segment, point_to_line_perpendicular, point_to_line_perpendicular_signed"]}
{"id": "C91", "title": "Squares and square roots of doubles in double-double arithmetic", "statement": "In IEEE double precision the double-double square of a double x (x = 0 or |x| >= 2^-484, no overflow) is exactly x^2, as a normalised pair, whatever number the method is called on. The double-double square root of a double is 0 for 0, NaN for a negative number, and otherwise within one part in 2^98 of the true root. The square root of the square of x has the high part |x| exactly, and a low part of at most |x|/2^98.", "quantifier": "all doubles in the stated ranges, all receivers, all library square roots within 2^-53", "why_tests_cant": "exactness of a product of two 53-bit numbers is a statement about 2^106 pairs of bits", "anchors": ["src/core/math/dd.rs: DD::sqr_f64, DD::sqrt_f64, DD::sqrt_dd"]}
{"id": "C92", "title": "Positions along segments in double precision", "statement": "In IEEE double precision: the fraction of a point along a segment is a number from 0 to 1 for all inputs, NaN and infinities included. Without overflow, a point further along a segment is never further back in any ordinate, and the point at fraction 0 is the start. On grids of at most 52 bits the point at fraction 1 is the end, and points at fractions between are in the box of the segment and accurate to 2^-51 of the grid's size. On grids of 24 bits the projection factor is the exact quotient up to one part in 2^53, on the exact side of 0 and of 1. On grids of 22 bits, with a hypot accurate to one part in 2^52, the closest point is in the box of the segment, is exactly the end if the nearest point is an end, and otherwise is within 2^-28 of a grid cell of the nearest point in each ordinate. Exceptions that do occur outside these grids: the point at fraction 1 of (1,0)-(2^-60,0) is the origin, outside the segment's box; the point at fraction 0 of a segment whose length overflows is NaN; and the closest point of (0,0)-(0,1) to (10^9,0) is reported as (0,1) although (0,0) is nearest, if hypot is correctly rounded.", "quantifier": "all inputs for the fraction, all doubles without overflow for the order, all grids, points and segments of the stated sizes for the rest", "why_tests_cant": "whether a rounded quotient or distance decides for the wrong end is a question about all pairs of neighbouring doubles", "anchors": ["src/core/geom/line_segment.rs: LineSegment::point_along, projection_factor, segment_fraction, closest_point"]}
{"id": "C93", "title": "Triangles in double precision", "statement": "In IEEE double precision: on grids of 24 bits the signed area and the area of a triangle are exact, and the tests for acute and obtuse angles and for acute triangles are exact. On grids of 52 bits the tests of turn and of a point in a proper triangle are exact, and the sign of the signed area is right or 0, never the opposite one. For all doubles without overflow the error of the signed area is at most ((1+2^-53)^5-1) times half the sum of the absolute values of its two products, plus 3 times 2^-1075. On grids of 50 bits the centroid is the correctly rounded one and in the box of the triangle. On grids of 16 bits the circumcentre of a proper triangle is within 2^-53 of its size plus 2^-52 of its distance from the third vertex in each ordinate, and that of collinear points has no finite ordinate. With x and y on a grid of 24 bits and z on one of at most 51 bits, the interpolated z of a grid point of the triangle is within 2^-48 of the size of the z grid and is exactly the z of the vertex at each vertex. Exceptions that do occur outside these grids: a triangle of integers of 28 bits that is not flat has the area 0, a left-turning triangle near (1/2,1/2), (12,12), (24,24) has the signed area of a right turn, and the centroid of three times the same point need not be that point.", "quantifier": "all triangles and points on all grids of the stated sizes; all triples of doubles for the error of the area", "why_tests_cant": "a test sees single triangles; whether rounding ever flips a sign or leaves the box is a question about all of them", "anchors": ["src/core/geom/triangle.rs: Triangle::signed_area, area, is_ccw, is_acute, intersects, centroid, circumcentre, interpolate_z", "src/core/algorithm/angle.rs: Angle::is_acute, is_obtuse"]}
{"id": "C94", "title": "Point in ring in every arithmetic and for arbitrary doubles", "statement": "In every arithmetic, NaN and infinities included: locating a point in a ring never panics and answers INTERIOR, BOUNDARY or EXTERIOR, is_in_ring is the answer other than EXTERIOR, and a ring of fewer than two points has no inside; a point to the right of, above or below all points of the ring is EXTERIOR; a point equal to a vertex other than the last one is on the BOUNDARY; a point whose y is NaN is EXTERIOR; a point whose x is NaN is never INTERIOR, it is on the BOUNDARY exactly if an edge of the ring rises or falls through its height and EXTERIOR otherwise, while is_on_line answers false. In IEEE double precision, for arbitrary doubles of size at most 2^400 and closed rings: the answer is the exact one whenever, for every edge met by the horizontal line through the point and not to its left, the two products of the orientation do not underflow (they are 0 or at least 2^-500) and the determinant is at least 2^-49 of the sum of their sizes; in particular a point to the left of all points of the ring is EXTERIOR unless a product underflows. Exceptions that do occur: with underflow a point to the left of all points of a ring is on the BOUNDARY, and a point inside but within about 2^-80 of an edge of coordinates around 2^33 is reported on the BOUNDARY.", "quantifier": "all points, all rings of any length; every arithmetic, or all doubles up to 2^400", "why_tests_cant": "the answers for NaN, infinities and nearly collinear points depend on which comparison fails first; the number of edges is unbounded", "anchors": ["src/core/algorithm/ray_crossing_counter.rs: RayCrossingCounter::locate_point_in_ring_vec, count_segment, get_location", "src/core/algorithm/point_location.rs: PointLocation::locate_in_ring, is_in_ring, is_on_line_coordinates", "src/core/algorithm/cg_algorithms_dd.rs: orientation_index_filter"]}
{"id": "C95", "title": "Heights of the points where segments meet", "statement": "For two segments whose ends may or may not have a height (z). In every arithmetic: the height reported for a proper crossing is the mean of the heights of the two segments at the crossing, or the one that is known; a segment with a height at one end only counts as flat at that height, a segment without heights does not count, and if no end has a height no reported point has one (with or without a precision model). Every point reported for touching or overlapping segments is an end of one of them, and has the height of that end or, if it has none, the height of the other segment at that place. In real arithmetic with all four heights: each reported point that is not a proper crossing is on one of the two segments in space, the height of a proper crossing is the mean of the points of the segments above it, all reported heights are between the smallest and largest height of the ends, and if the four ends are in a plane z = kx + ly + n every reported point is in that plane. Exception that does occur: the height depends on the order of the segments; at a shared end the first segment's height is reported if the segments meet at an angle, and the second segment's height if they continue each other on a line.", "quantifier": "all segments, all heights including missing ones; every arithmetic, or the real numbers", "why_tests_cant": "each combination of known and missing heights, ways of meeting and directions takes a different path; tests cover a few", "anchors": ["src/core/algorithm/robust_line_intersector.rs: RobustLineIntersector::compute_intersection_4, compute_intersect, compute_collinear_intersection, copy_with_z, copy_with_z_interpolate, get_z, get_z_or_interpolate, z_interpolate_3, z_interpolate_5"]}
{"id": "C96", "title": "Line segments as sets: extents, equality, offsets and lines", "statement": "In every arithmetic: min_x, max_x, min_y and max_y of a segment with numeric ends are the sides of the box of the two ends (each an ordinate of an end, both ends within, unchanged by reversal), and an ordinate that is NaN at one end is ignored; is_horizontal and is_vertical say that the extents agree, and both hold exactly for a segment whose ends are equal; equals_topo is an equivalence, is equality up to reversal, and is equality of the normalised segments. In real arithmetic: equals_topo holds exactly if the two segments have the same points; for a segment with two different ends offset keeps direction and length, moves every point by the distance to the left (right if negative), offsets add up and are undone by the opposite one, and the offset of the reverse is the reverse of the opposite offset; line_intersection of lines that are not parallel is their only common point, in either order, and is the point intersection returns if the segments meet; the distance of two segments does not depend on order or direction, is 0 exactly if intersection finds a point, and otherwise is the distance of the two closest points; the angle of the reversed segment differs by half a turn. Exception that does occur: in double precision the offset of a segment of one point has NaN ordinates unless the distance is 0.", "quantifier": "all segments, distances and fractions; every arithmetic, the real numbers, or all doubles", "why_tests_cant": "the claims relate several methods to each other and to the point set for all segments", "anchors": ["src/core/geom/line_segment.rs: LineSegment::min_x, max_x, min_y, max_y, is_horizontal, is_vertical, equals_topo, equals, normalize, reverse, offset, point_along_offset, line_intersection, intersection, distance_line_segment, closest_points, angle"]}
{"id": "C97", "title": "Comparing geometries with a comparator, normalising polygons, coordinates on lines", "statement": "For every limit on the number of ordinates, comparing points, lines, rings or polygons with a sequence comparator never panics and is a total order on all of them, NaN included; two are equal for it exactly if they have the same number of rings, and rings of the same place have the same dimension up to the limit, as many coordinates, and ordinates up to the limit that are equal or both NaN. Limited to x and y, for numeric coordinates, it gives the same result as compare_to without a comparator. is_coordinate of a line never panics and is true exactly if some coordinate of the line has the x and y of the given one. Normalising a polygon whose rings have dimension at least two and fewer than 2^31 coordinates panics exactly if its shell or one of its holes has exactly one coordinate; otherwise every ring keeps its coordinates and the number and order of holes is unchanged.", "quantifier": "all points, lines, rings, polygons, coordinates and limits, in every arithmetic with ordered comparisons, NaN included", "why_tests_cant": "an order has to be checked on all triples of geometries of any size; the panic condition ranges over all polygons", "anchors": ["src/core/geom/line_string.rs: LineString::compare_to_with_comparator, compare_to, is_coordinate", "src/core/geom/linear_ring.rs: LinearRing::compare_to_same_class_with_comparator", "src/core/geom/polygon.rs: Polygon::compare_to_with_comparator, compare_to, self_normalize, normalize, normalized", "src/core/geom/coordinate_sequence_comparator.rs: CoordinateSequenceComparator::compare"]}
{"id": "C98", "title": "Vectors in double precision", "statement": "For all doubles, NaN and infinities included: sums and scalar products of vectors do not depend on the order of the arguments, negation is an involution, the difference changes sign with the order, and negating changes the sign of products and keeps the squared length. Turning by quarters never fails, turns add up, four quarters are none, the squared length stays the same double, and unless the product of its ordinates overflows a vector has the scalar product 0 with its quarter turn. The average of two vectors with ordinates that can be halved exactly is the double nearest to the mean, never overflows, does not depend on the order and lies between the two (averaging the smallest double with itself gives 0); weights 1 and 0 give exactly one of the two vectors. Scalar products have an error of at most two units of rounding of the sizes of the terms, and are exact on grids of 26 bits (25 bits in three dimensions, 24 bits for differences of points). With library functions accurate to 2^-52 and away from underflow and overflow, normalising gives the direction within 2^-51 and a length of 1 within 2^-50 in the plane, and within 2^-50 and 2^-49 in three dimensions, where the length itself is accurate to 2^-51; the vector 0 stays 0. Exceptions that do occur in three dimensions: a vector of length 2^600 has an infinite length and normalises to 0, one of length 2^-600 has the length 0 and normalises to 0, as a coordinate to an infinite ordinate and NaN.", "quantifier": "all doubles, all vectors on the grids named, all integers for quarter turns, all library functions of the accuracy named", "why_tests_cant": "rounding errors have to be bounded over all doubles; tests see single vectors", "anchors": ["src/core/math/vector_2d.rs: Vector2D::add, subtract, multiply, negate, dot, length_squared, length, normalize, average, weighted_sum, rotate_by_quarter_circle", "src/core/math/vector_3d.rs: Vector3D::dot, dot_4, length, length_of_coordinate, normalize, normalize_coordinate"]}
{"id": "C99", "title": "Ring orientation and points on lines for arbitrary doubles", "statement": "Let all ordinates be arbitrary doubles up to 2^400 in size, on no common grid. Call the orientation of three points decided if the two products it is the difference of do not underflow and differ by at least 2^-49 of the sum of their sizes, or by more than 2^-100 of the sum of the sizes of the two products the double-double arithmetic uses. Then: the ring orientation test gives on every closed ring the answer of exact arithmetic, provided the orientation is decided at each pointed corner of greatest height (its two neighbours lower and in different places); nothing is required of the other corners, and a ring whose top is a level edge needs no margin at all. Hence for every ring without crossings the test gives the sign of the exact area. The point-on-segment and point-on-line tests are exact for every point whose orientation with each segment having it in its box is decided or has both products zero; in particular the ends of a segment and the vertices of a line are always reported on it, and on segments parallel to an axis the test is exact for all finite doubles. The location of a point in a ring is exact with the same margin. Without the margin: a clockwise triangle of doubles is reported counterclockwise, a point on a segment is reported off it in one direction of the segment and on it in the other, and a point off a segment is reported on it.", "quantifier": "all closed lists of double coordinates up to 2^400, all points and lines with the stated margin, all finite doubles where no margin is required", "why_tests_cant": "The answers depend on rounding errors of single triples among arbitrarily many; only a proof shows which triples matter, and that the comparisons that lead there, wherever the ring starts and however many level or repeated points it has, run as in exact arithmetic.", "anchors": ["src/core/algorithm/orientation.rs: is_ccw_coordinates, is_ccw_coordinate_array_sequence", "src/core/algorithm/point_location.rs: is_on_segment, is_on_line_coordinates, locate_in_ring", "src/core/algorithm/cg_algorithms_dd.rs: orientation_index_xy"]}
{"id": "C100", "title": "Segment intersection for arbitrary doubles", "statement": "Let the ends of two segments be arbitrary finite doubles on no common grid. Call the orientation of three points settled if both products of its determinant are zero, or if the points are at most 2^400 in size and the orientation is decided in the sense of C99. If the boxes of the segments are apart nothing is required; else the orientations of the ends of the second segment with the first are settled, and, unless these ends are strictly on one side of the first, those of the ends of the first with the second. Then the segment intersector reports an intersection exactly if the real segments have a common point, a proper one exactly if they have exactly one common point and it is inside both, one point or an overlap (result 1 or 2) for segments of positive length exactly as the real segments do; and unless they cross properly the reported points are ends of the segments, without any rounding, that are or bound the common part. The test of a point against a segment, with both orientations settled if the point is in the box, is exact: it reports whether the point is on the segment and whether it is inside. For two consecutive segments a b and b c no margin at all is needed: for all finite doubles they are reported to meet and not properly, in exactly one point if neither far end is in the box of the other segment, and a single reported point is b. Without the margin there are disjoint segments reported to cross properly, and properly crossing segments reported to be apart.", "quantifier": "all finite doubles as ends of two segments, with the stated margin; all finite doubles for consecutive segments; all earlier states of the intersector", "why_tests_cant": "The margin concerns four roundings of a double-double computation and the quadruples of doubles cannot be enumerated; the exactness of the classification needs that each branch taken over the doubles is taken over the reals.", "anchors": ["src/core/algorithm/robust_line_intersector.rs: RobustLineIntersector::compute_intersection_3, compute_intersection_4, compute_intersect, compute_collinear_intersection", "src/core/geom/envelope.rs: intersects of segments", "src/core/algorithm/cg_algorithms_dd.rs: orientation_index_xy"]}
{"id": "C101", "title": "Convex rings, triangles and rectangles", "statement": "A ring is convex if it is simple and no corner is on the right of an edge; corners may be on the line of an edge. Rings of at least three corners with all other corners strictly on the left of every edge are convex. For every convex ring with any number of corners, in exact arithmetic: it is reported counterclockwise, its reverse clockwise, and its signed area is negative; a point is located inside exactly if it is strictly on the left of all edges, outside exactly if it is strictly on the right of some edge, and on the boundary exactly otherwise, which is if it is on the ring; the reversed ring gives the same location; points between two points that are not outside are not outside, and are inside if the first point is inside and they are not the second; the centroid of a polygon with this shell and no holes is inside. For every triangle with area: the triangle test (intersects) holds exactly for the points not located outside its ring; the centroid and the incentre are inside; the circumcentre is inside exactly if the triangle is acute, outside exactly if one of its angles is obtuse. For every polygon that passes the rectangle test, closed and with different opposite corners: a point is located outside the shell exactly if the envelope does not cover it, inside exactly if it is strictly between the bounds of the envelope, and the area of the shell is the area of the envelope.", "quantifier": "all convex rings with any number of corners, all points, all triangles and rectangles, exact arithmetic over any ordered field (real numbers for centroid of polygons and incentre)", "why_tests_cant": "Claims about all convex polygons, connecting five independent functions (ring location, ring orientation, area, triangle functions, envelope); tests sample single shapes.", "anchors": ["src/core/algorithm/point_location.rs: PointLocation::locate_in_ring", "src/core/algorithm/orientation.rs: Orientation::is_ccw", "src/core/algorithm/centroid.rs: Centroid::get_centroid", "src/core/geom/triangle.rs: Triangle::intersects, circumcentre, in_centre, centroid, is_acute", "src/core/algorithm/angle.rs: Angle::is_obtuse", "src/core/geom/polygon.rs: Polygon::is_rectangle", "src/core/geom/envelope.rs: Envelope::covers, get_area"]}
{"id": "C102", "title": "Double-double constants and decimal magnitudes", "statement": "The double-double constants \u03c0, 2\u03c0, \u03c0/2 and e are the best such pairs: the high part is the double nearest to the real constant and the low part the double nearest to what remains; their sums differ from the constants by at most 2\u207b\u00b9\u2070\u2078 (2\u207b\u00b9\u2070\u2077 for 2\u03c0, 2\u207b\u00b9\u2070\u2079 for \u03c0/2), and the pairs for 2\u03c0 and \u03c0/2 are exactly twice and half the pair for \u03c0. The magnitude of a double x with 1 \u2264 |x| < 10\u2079 is the exponent of the greatest power of ten not above |x|, for every logarithm with relative error at most 2\u207b\u2075\u2070, unless |x| is less than one part in 10\u00b9\u00b2 below a power of ten; in particular it is exact for all integers. Just below a power of ten that accuracy of the logarithm also admits the magnitude of the power. For |x| < 1, including zero, and for |x| \u2265 10\u2079 + 1 the function panics.", "quantifier": "the four constants against the real numbers they stand for; all doubles x and all logarithm functions of the assumed accuracy", "why_tests_cant": "The constants are decimal or hexadecimal literals whose closeness to transcendental numbers needs a proof about these; the magnitude goes through a rounded logarithm, which can fail near powers of ten only, where samples rarely are; the panics need inputs below 1 or above 10\u2079.", "anchors": ["src/core/math/dd.rs: new_pi, new_two_pi, new_pi_2, new_e, magnitude"]}
{"id": "C103", "title": "Significant digits of fixed precision models", "statement": "The number of significant digits of a fixed precision model whose scale is between 10^(k-1) and 10^k (k any integer, also negative), not closer than one part in 10\u00b9\u2070 to either, is k + 1, for every logarithm with relative error at most 2\u207b\u2075\u2070. The scale 1 has one digit and 10 has two; a greater power of ten 10^k has k + 1 or k + 2 digits, and the accuracy assumed of the logarithm admits that 1000 has five. If a greater double never has a smaller logarithm, then a greater scale never has fewer digits, and comparing two fixed precision models never ranks the one with the smaller scale above the other. Compared with double precision, a fixed model is less precise for scales below 10\u00b9\u2074, equally precise between 10\u00b9\u2074 and 10\u00b9\u2075 and more precise above (up to one part in 10\u00b9\u2070); for single precision the bounds are 10\u2074 and 10\u2075. The scale 0 gives \u22122147483647 digits and an infinite scale panics.", "quantifier": "all positive scales that are doubles, all exponents, all logarithm functions of the assumed accuracy", "why_tests_cant": "The result goes through a rounded quotient of two rounded logarithms and a ceiling; tests sample scales, but the errors can only show at scales next to powers of ten.", "anchors": ["src/core/geom/precision_model.rs: get_maximum_significant_digits, compare_to"]}
{"id": "C104", "title": "Texts determine what they show", "statement": "If different numbers have different texts made of digits, letters, points and signs, then the texts of larger values can be read back: two envelopes, two plane vectors, two space vectors or two double-doubles have the same text exactly if they are equal; two precision models exactly if they have the same type and, if fixed, the same scale; two coordinates exactly if they have the same x, y and z (the measure m is not shown); two coordinate sequences exactly if they have the same number of coordinates and these agree in x, y and z in the same order (the dimension and the measures are not shown).", "quantifier": "all coordinates, sequences of any length, envelopes, precision models, vectors and double-doubles; all number texts with the assumed properties", "why_tests_cant": "That no two of infinitely many values share a text is a statement about pairs of values; tests compare single texts with literals.", "anchors": ["src/core/geom/coordinate.rs: Display for Coordinate", "src/core/geom/implementation/coordinate_array_sequence.rs: Display for CoordinateArraySequence", "src/core/geom/envelope.rs: Display for Envelope", "src/core/geom/precision_model.rs: Display for PrecisionModel", "src/core/math/vector_2d.rs: to_string", "src/core/math/vector_3d.rs: to_string", "src/core/math/dd.rs: dump"]}
{"id": "C105", "title": "Creating and copying coordinate sequences", "statement": "Copies of array sequences (by copy and by the constructor from a sequence) and of packed ordinates are equal to what is copied, for every size. A sequence made by the array factory has the size asked for, a dimension brought into 2 to 3, no measures, heights exactly if the dimension asked for is at least 3, and all coordinates are (0, 0) without height and measure; with measures (not negative), at most one measure and two or three other ordinates are kept, and heights and measures exist exactly if they were asked for. Made again from its own coordinates, a non-empty sequence of dimension 3 from the factory has dimension 2 only. A packed sequence made by the factory has the size and dimension asked for and all ordinates NaN. The coordinate array of a packed sequence holds its coordinates in order. Enlarging an envelope (empty or not) by a sequence gives the smallest envelope that covers it and all coordinates. Reading a coordinate into another one takes over x, y and z, keeps the measure, and panics exactly outside the sequence. Making a packed sequence from the other packed type works for the empty one only and panics for all others.", "quantifier": "all sequences of any size, all dimensions and measures, every number format", "why_tests_cant": "Sizes, dimensions and measures are unbounded; loops fill vectors of any length, and the clamping of dimensions has cases that tests sample.", "anchors": ["src/core/geom/implementation/coordinate_array_sequence.rs: copy, new_from_coordinate_array_sequence, get_coordinate_index_coordinate, expand_envelope", "src/core/geom/implementation/coordinate_array_sequence_factory.rs: create_with_size_dimension, create_with_size_dimension_measures", "src/core/geom/implementation/packed_coordinate_sequence_double.rs: new_f64_with_coordinates_dimension_measures, new_with_size_dimension_measures, to_coordinate_array", "src/core/geom/implementation/packed_coordinate_sequence_factory.rs: create_with_size_dimension, create_with_size_dimension_measures, create_double_from_coordinate_sequence, create_double_coordinates_dimension"]}
{"id": "C106", "title": "Counting ray crossings segment by segment", "statement": "A ray crossing counter that is given the segments of any number of closed rings (shells and holes, each in any direction) in any order, possibly without those that do not touch the ray to the right of the point, reports the point on a segment exactly if it is on one of the rings, and otherwise inside exactly if it is inside an odd number of rings; is_point_in_polygon is true exactly if the location is not exterior. The count is the number of segments that the ray crosses. Once the point is on a segment, no further segment changes the answers. Which end of a segment is given first does not matter unless the point is an end of it; there it does: the topmost vertex of a triangle is reported outside if both of its segments are given with that vertex first. Computed in exact arithmetic.", "quantifier": "all points, all lists of closed rings of any length, all orders of their segments, all omissions of segments away from the ray", "why_tests_cant": "Rings, orders and omissions are unbounded, and the failures are at vertices and horizontal segments met in a particular order.", "anchors": ["src/core/algorithm/ray_crossing_counter.rs: new_with_coordinate, count_segment, get_count, is_on_segment, get_location, is_point_in_polygon"]}
{"id": "C107", "title": "The exact extent of exceptions", "statement": "close_ring closes a non-empty list, and a second call changes nothing, exactly if its first coordinate has no NaN; otherwise every call adds that coordinate. wrap with a positive modulus returns the residue for every index of 32 bits but the least, except that negative multiples give the modulus; the least index panics. ceil is the integer ceiling of the quotient for all numbers of 32 bits except that for a negative denominator and an inexact quotient it is one too large for numerators above zero and one too small for those below; it panics for a zero denominator and for the one overflowing quotient only. remove_repeated_or_invalid_points returns the valid points with runs collapsed, except that an array whose only fault is its first point is returned unchanged; all points of the result are valid exactly if the first point was valid or there was another fault. is_in_half_plane holds exactly for the two quadrants of the half plane, except for the quadrants NE and SW and the half plane SE where it says the opposite. The difference of two angles is at most pi always, and not negative exactly if they are at most one turn apart.", "quantifier": "all lists of coordinates in every number format, all 32 bit integers, all quadrants, all real angles", "why_tests_cant": "An exception found by a test says nothing about where it ends; each of these delimits the faulty inputs among infinitely many.", "anchors": ["src/core/geom/coordinate_list.rs: close_ring", "src/core/util/math_util.rs: wrap, ceil", "src/core/geom/coordinate_arrays.rs: remove_repeated_or_invalid_points", "src/core/geom/quadrant.rs: is_in_half_plane", "src/core/algorithm/angle.rs: diff"]}
{"id": "C108", "title": "Centroids of integer polygons in double precision", "statement": "For a polygon, or several polygons together, with closed rings and integer coordinates of magnitude at most M such that 24 M^3 times the number of points is at most 2^53, and a net area that is not zero, the centroid computed in doubles exists and is obtained by two roundings only: the exact first moment divided by three, rounded, divided by the exact area, rounded. Each of its coordinates is within 2/2^53 + 1/2^106, relatively, of the centroid the same code computes in real arithmetic. For larger coordinates no such accuracy holds: a corridor of width one along two sides of a square of integers below 2^30 has a computed centroid more than 18 units off.", "quantifier": "all polygons and multi polygons of any number of rings with integer coordinates under the bound", "why_tests_cant": "The number of rings and points is not bounded; a test compares a few centroids with a tolerance and cannot tell how many roundings happened.", "anchors": ["src/core/algorithm/centroid.rs: get_centroid_from_polygon, get_centroid_from_multi_polygon, add_triangle, add_shell, add_hole, get_centroid"]}
{"id": "C109", "title": "The exact extent of further exceptions", "statement": "In real arithmetic the least distance of two segments in space, the second of which is no point, is the least of three numbers: the answer of the code and the distances of the two ends of the second segment to the first; so the answer is right exactly if it does not exceed these two. A geometry of any type equals itself exactly if the tolerance is zero and no x or y is NaN, or the tolerance is positive and all are finite, or it has no coordinates. Extraction of a part of an array is an arithmetic error if the start is after the end, empty if there is nothing to extract, and an index error otherwise, for all indices. Reversing an array sequence leaves all measures (and z in two dimensions) in place, so it is the reversed list exactly if these read the same backwards. Closing an array sequence that is no ring gives a ring exactly if its first coordinate has no NaN, and drops all measures. An octagon set to null answers about finite points as if only its left bound were gone; the default one meets the origin only. In exact arithmetic a product of pairs is exact exactly if one factor has no low part, a quotient exactly if the divisor has none or the pairs are proportional, a reciprocal exactly if there is no low part.", "quantifier": "all real segments in space; all geometries in every rounding with zero and its hypotenuse exact; all lists and indices below 2^31; all array sequences of dimension two or more in every number format; all finite octagons and points; all pairs over ordered fields", "why_tests_cant": "An exception found by a test says nothing about where it ends; each of these delimits the faulty inputs among infinitely many.", "anchors": ["src/core/algorithm/cg_algorithms_3d.rs: distance_segment_segment", "src/core/geom/coordinate_arrays.rs: extract", "src/core/geom/coordinate_array_sequences.rs: reverse, ensure_valid_ring", "src/core/geom/octagonal_envelope.rs: intersects_coordinate, set_to_null", "src/core/math/dd.rs: multiply, divide, reciprocal", "src/core/geom: equals_exact"]}
{"id": "C110", "title": "Envelopes of packed sequences, coordinates handed out by lines and points", "statement": "Enlarging an envelope by a packed sequence of dimension two or more that holds whole coordinates gives what an array sequence with the same coordinates gives, and so the smallest box that covers the envelope and all coordinates; the envelope given is unchanged. For every dimension but zero the call ends without a panic, and pairs of numbers are taken as many places apart as the dimension says; a pair cut off at the end is left out, and numbers after the last whole coordinate can enlarge the envelope by a point that is no coordinate of the sequence. The call never ends exactly if the dimension is zero and there are numbers. The coordinate of a line with a given number is the one of this number in its list of coordinates, and numbers past the end panic; the sequence a point hands out holds its coordinate.", "quantifier": "all packed sequences with 32-bit dimensions, all envelopes, in every number format (smallest box: ordered comparisons, no NaN); all lines, points and numbers", "why_tests_cant": "All lengths and dimensions; non-termination cannot be observed by a test.", "anchors": ["src/core/geom/implementation/packed_coordinate_sequence_double.rs: PackedCoordinateSequenceDouble::expand_envelope, to_coordinate_array", "src/core/geom/line_string.rs: LineString::get_coordinate_n, get_coordinates", "src/core/geom/point.rs: Point::get_coordinate_sequence, get_coordinates"]}
{"id": "C111", "title": "Distances in space in double precision", "statement": "In double precision, with a square root of relative error at most \u03b5 (at most 2^-52): the distance of two points in space whose ordinates are integers of 24 bits times 2^g (-484 \u2264 g \u2264 400) has relative error at most \u03b5 and is 0 exactly for points that agree. For ordinates of k \u2264 23 bits (-376 \u2264 g \u2264 400) the distance of a point to a segment is finite, not negative and within 2^(g+k-48) of the least distance, and has relative error at most \u03b5 if an end of the segment is nearest; a point on a segment need not get distance 0. For ordinates of k \u2264 10 bits (-268 \u2264 g \u2264 225) the distance of two segments, the second of which is no point, is within 2^(g+k-47) of what the formula gives without rounding; so it is that close to the least distance if one of the nearest points of the two lines is on its segment, and in every case the least of the answer and the distances of the ends of the second segment to the first is.", "quantifier": "all points and segments of such grids and every library square root with such an error", "why_tests_cant": "The grids have up to 2^25 numbers per ordinate and twelve ordinates, and the claim is about every library.", "anchors": ["src/core/algorithm/cg_algorithms_3d.rs: CGAlgorithms3D::distance, distance_point_segment, distance_segment_segment"]}
{"id": "C112", "title": "Triangles do not depend on the order of their vertices", "statement": "In exact arithmetic the length, longest side, area, area in space, circumradius, centroid, in-centre and the test for acuteness of a Triangle object are the same for every order of its three vertices, and so are the circumcentre and all interpolated heights if it is not flat. The signed area and is_ccw keep under rotations of the vertices; swapping two vertices negates the signed area and, for triangles that are not flat, is_ccw. Similarities (turns, mirrors, stretches by k and moves) multiply lengths by k, areas by k\u00b2 (the signed area changes sign under mirrors), the circumradius of a triangle that is not flat by k, keep acuteness, and carry centroid, circumcentre and in-centre along. In double precision the test for acuteness does not depend on the order for any values, the longest side does not if hypot ignores signs and no side is NaN, the area does not on grids of 24 bits and the centroid not on grids of 50 bits. Exceptions that do occur in double precision: a triangle of integers of 28 bits has area 0 in one order and 1/2 after a rotation, and with a NaN vertex the longest side is NaN or a number depending on the order.", "quantifier": "all triangles of real points, all six orders, all similarities; all doubles for acuteness and longest side, all grids of the stated sizes", "why_tests_cant": "Six orders of every triangle and a family of maps with six real parameters.", "anchors": ["src/core/geom/triangle.rs: Triangle (new, in_centre, is_acute, is_ccw, circumcentre, circumradius, centroid, length, longest_side_length, area, signed_area, area_3d, interpolate_z)"]}
{"id": "C113", "title": "Lengths, radii, centres and areas in space of triangles in double precision", "statement": "Let sqrt and hypot be within a relative error \u03b5 of the exact values (zero for zero). For triangles with vertices m\u00b72^g, |m| \u2264 2^24, in double precision: the length is finite with relative error at most (1+\u03b5)(1+2^-53)\u00b2-1 and the longest side with \u03b5; the circumradius is +\u221e if the vertices lie on a line and otherwise finite with relative error at most (1+\u03b5)\u00b3(1+2^-53)\u00b3-1; the area in space is finite with relative error at most (1+\u03b5)(1+2^-53)\u2074-1, so it is 0 exactly for vertices on a line; and for \u03b5 \u2264 2^-52 the ordinates of the in-centre of vertices that are not all the same, and of the foot of the angle bisector at a vertex different from one of the others, are within 2^(g-25) of the exact ones, which is 2^-49 of the extent of the grid. The ranges of g are -484\u2026400 for lengths, in-centres and bisectors, -340\u2026314 for the circumradius and -250\u2026200 for areas in space.", "quantifier": "all triangles on all grids of 24 bits in the stated ranges of scales; all square roots and hypots with the stated errors", "why_tests_cant": "Error bounds over 2^144 triangles for each of hundreds of scales, and over every library of elementary functions with the stated accuracy.", "anchors": ["src/core/geom/triangle.rs: Triangle::{length_coordinates, longest_side_length_coordinates, circumradius_coordinates, area_3d_coordinates, in_centre_coordinates, angle_bisector_coordinates, length, longest_side_length, circumradius, area_3d, in_centre}", "src/core/geom/coordinate.rs: Coordinate::distance"]}
{"id": "C114", "title": "The exact extent of exceptions with NaN, heights and measures", "statement": "Normalising a line without measures never fails, is idempotent and keeps the coordinates up to their order, NaN and heights included: it reverses the line exactly if the first pair of a coordinate and its mirror image that are not equal in x and y is in descending order. A line and its reverse have the same normal form exactly if the line is its own reverse in all ordinates or that first pair exists and is in a strict order, which fails only if one of the two has NaN. The envelope of coordinates has, for x and for y, the bounds NaN if the first ordinate is NaN, and otherwise the least and the greatest ordinate that is a number; it is the same for the reversed list exactly if the first and last ordinates are NaN at the same places, and exactly then the envelope a ring answers with is that of its coordinates through all histories of queries, copies and reversals. In a packed sequence an ordinate index past the dimension means an ordinate of a following coordinate, for reading and writing, and panics exactly if that coordinate does not exist. Enforcing consistency of coordinates of several kinds keeps x, y and z of each and replaces every measure by 0 if one of them had a measure and by NaN otherwise; of one kind, it changes nothing.", "quantifier": "all lines and rings without measures and all lists of coordinates, in every arithmetic; all histories of queries, copies and reversals; all packed sequences of whole coordinates, all coordinate and ordinate indices of 32 bits", "why_tests_cant": "NaN can be at any place of lists of any length, histories are unbounded, and the statements are equivalences.", "anchors": ["src/core/geom/line_string.rs: LineString::{normalize, reverse}", "src/core/geom/linear_ring.rs: LinearRing::{get_envelope_internal, compute_envelope_internal, reverse, copy}", "src/core/geom/envelope.rs: Envelope::expand_to_include_coordinate", "src/core/geom/implementation/packed_coordinate_sequence_double.rs: get_ordinate, set_ordinate", "src/core/geom/coordinate_arrays.rs: CoordinateArrays::enforce_consistency"]}
{"id": "C115", "title": "The accuracy of circumcentres in double-double arithmetic", "statement": "In IEEE doubles with coordinates that are multiples of a power of two (2^-100 to 2^100) by integers of at most 31 bits, the circumcentre of a proper triangle computed in extended precision is finite; each of its ordinates differs from that of the exact circumcentre by at most 2^-53 of its size plus 2^-99 of the sum of its size and its distance from the third vertex, and no double lies strictly between the two unless the exact ordinate is more than 2^42 times smaller than that distance, so that an ordinate that is a double is then returned exactly. For collinear points both ordinates are NaN. The plain formula does not have this property: there is a proper triangle of such integers for which it has no finite ordinate.", "quantifier": "all triples of points of all grids of at most 31 bits, for every square root and hypotenuse function of the platform", "why_tests_cant": "There are more than 2^190 triples of points on each grid, and tests compare with values of limited precision.", "anchors": ["src/core/geom/triangle.rs: Triangle::{circumcentre_dd_coordinates, circumcentre_coordinates}", "src/core/math/dd.rs: DD::{subtract_f64, sqr, add_dd, determinant_xy_dd, multiply_f64, divide_dd, subtract_dd, double_value}"]}
{"id": "C116", "title": "Homogeneous coordinates and plain intersection formulas in double precision", "statement": "In IEEE doubles with coordinates that are multiples of a power of two (2^-200 to 2^200) by integers of at most 16 bits, the homogeneous coordinates of the line through two points are exact; the homogeneous formula reports a common point of two lines exactly if they are not parallel, and each ordinate is then a double nearest to that of the exact common point; the perpendicular bisector of two points is exact, and the common point of the bisectors of two sides of a triangle is the circumcentre with each ordinate rounded to a nearest double, or NaN in both ordinates if the three points are collinear. With integers of at most 15 bits the formula that first subtracts the middle of the extents reports a common point exactly if the lines are not parallel, within 2^-53 of the size of each ordinate plus 2^-52 of its distance to the farther end of an interval that holds the ordinates of the four points. With 31 bits neither formula finds the common point of some lines that are not parallel, while the one in extended precision does.", "quantifier": "all points of all such grids, for every square root and hypotenuse function of the platform", "why_tests_cant": "There are 2^128 quadruples of points on each grid, and tests compare with values of limited precision.", "anchors": ["src/core/algorithm/hcoordinate.rs: HCoordinate::{intersection, new_with_coordinates, new_with_coordinates_4, new_with_hcoordinates, get_x, get_y, get_coordinate}", "src/core/algorithm/intersection.rs: Intersection::{intersection, intersection_fp}", "src/core/geom/triangle.rs: Triangle::perpendicular_bisector_coordinates"]}
{"id": "C117", "title": "Projecting on, reflecting in and offsetting from a segment in double precision", "statement": "In IEEE doubles, for points whose ordinates are at most M <= 2^200 in size and a segment that extends at least 2^-200 in x or y: the projection of a point on the line of the segment is within M/2^45 of the foot of the perpendicular in each ordinate; the reflection of a point is within M/2^44 of its mirror image; the point at a fraction f (|f| <= 1) moved by d to the left (to the right if d is negative; d = 0 or 2^-200 <= |d| <= 2^200) is within (M + |d|)/2^46 of the exact one, if the platform's hypotenuse has a relative error of at most 2^-52, and so are both ends of the segment offset by d; the projection of a segment on another has ends within M/2^45 of the points nearest to the projected ends, and if none is returned both those nearest points are that close to the same end. On grids of integers of at most 16 bits (times a power of two from 2^-200 to 2^200) each ordinate of a reflection is a double nearest to that of the mirror image. On grids of 24 bits the signed distance to the line of the segment is positive exactly on the left and negative exactly on the right, and its size is the distance to the line up to the relative errors of the root and two roundings.", "quantifier": "all doubles of these sizes, all segments, points, fractions and offsets", "why_tests_cant": "The results depend on six and more doubles and on roundings in up to twenty operations; tests compare a few of them with a tolerance.", "anchors": ["src/core/geom/line_segment.rs: LineSegment::{projection_factor, project_coordinate, project_coordinate_with_projection_factor, project_line_segment, reflect, point_along_offset, offset, distance_perpendicular, distance_perpendicular_oriented}"]}
{"id": "C118", "title": "Distances between points, segments and chains for arbitrary doubles", "statement": "In IEEE doubles, for points whose ordinates are at most M <= 2^200 in size and multiples of 2^-1000, and segments that are single points or extend at least 2^-200 in x or y, if the platform's root and hypotenuse have a relative error of at most 2^-52: the distance of two points is right up to a relative error of 3/2^52; the distance of a point to a line through two points at least 2^-200 apart in x or y is within M/2^44 of the exact one, and so is the signed one, which is positive on the right of the line; the distance of a point to a segment, the distance of a point to a chain of such segments and the distance of two segments are all within M/2^43 of the exact least distance, whether or not the computed test for a crossing is right. The error is not relative: there are doubles for which a segment begins in the interior of another and the computed distance of the two is positive.", "quantifier": "all doubles of these sizes, all points, segments and chains", "why_tests_cant": "The choice of the branch is itself computed with rounding errors and may be the wrong one; that the result is nevertheless close can be tested only for a few of the 2^512 arguments.", "anchors": ["src/core/algorithm/distance.rs: Distance::{point_to_segment, point_to_segment_string, segment_to_segment, point_to_line_perpendicular, point_to_line_perpendicular_signed}", "src/core/geom/coordinate.rs: Coordinate::distance"]}
{"id": "C119", "title": "Octagonal envelopes in double precision", "statement": "In IEEE doubles, for an octagonal envelope grown from a non-empty list of points with finite ordinates: each of its eight bounds is the rounded value of the exact least or greatest x, y, x + y or x - y of the points; it accepts every double point of the exact octagon, and so every double point of the convex hull, even if sums overflow; two such envelopes intersect if their exact octagons have a point in common; and it contains the envelope of any double points of its exact octagon. If all ordinates are at most M <= 2^1000 in size, an accepted point is in the exact octagon but for M/2^51 in x + y and x - y (nothing in x and y); on grids of integers of at most 52 bits (times a power of two) the test is exact, and off such grids the slack does occur. Grown by a distance d >= 0, with sizes between 2^-200 and 2^200 and a root with a relative error of at most 2^-52, the envelope contains the original one, accepts every double point at most d - (M + d)/2^47 away from one of the points, and only points of the exact octagon grown by d (by the root of two times d along the diagonals) plus (M + d)/2^47.", "quantifier": "all lists of doubles, all double points and distances of these sizes", "why_tests_cant": "The bounds depend on all the points and on the rounding of sums, and the test on comparing rounded values with each other; tests sample some points.", "anchors": ["src/core/geom/octagonal_envelope.rs: OctagonalEnvelope::{expand_to_include_coordinate, expand_to_include_xy, expand_by_distance, intersects_coordinate, intersects_octagonal_envelope, contains_octagonal_envelope}"]}
{"id": "C120", "title": "Centroids of lines and polygons for arbitrary doubles", "statement": "In IEEE doubles, with ordinates up to M between 2^-200 and 2^200 on no common grid, compared with real arithmetic. A point is its own centroid, exactly. A non-empty line of n points (at most 2^40), consecutive ones equal or at least 2^-200 apart in x or y, and a hypotenuse function with a relative error of at most 2^-52: both ordinates of its centroid are within (3 n + 20) M / 2^52, and exact if all points coincide. A polygon, or several, with n points in all (at most 2^20), all points of each polygon within D of its first point in x and in y, doubled net area A of at least 16 n (n + 12) D^2 / 2^52 and, unless there is one ring only, with orientations of its rings that are found correctly (C99 tells when): an ordinate of the centroid is within 3 n (n + 12) (D^2 / A) (M + q) / 2^52 of its true value q (in size). Without the bound on the area there is no bound on the error: for a polygon of five collinear doubles below 2^50 the computed centroid is beyond 2^55.", "quantifier": "all points, lines, polygons and multi-polygons of doubles of these sizes, with any closed rings", "why_tests_cant": "The error grows with the number of points and with the ratio of the extent to the area; tests try shapes with few points and large areas.", "anchors": ["src/core/algorithm/centroid.rs: Centroid::{get_centroid_from_point, get_centroid_from_polygon, get_centroid_from_multi_polygon, new_from_line_string, get_centroid, add_line_segments, add_triangle}"]}
{"id": "C121", "title": "Crossing points of lines and segments for arbitrary doubles", "statement": "In IEEE doubles, for points whose ordinates are multiples of 2^-130 of at most 2^80 (so every double from 2^-78 to 2^80, and zero) on no common grid. Call k (at most 2^96) the ratio of the product of the extents of two segments to the determinant of their directions. The common point (x, y) of the two lines is reported, with an error of at most |x| / 2^53 + k (2|x| + |y|) / 2^95 in x and correspondingly in y; an ordinate with k (2|x| + |y|) <= 2^39 |x| (correspondingly for y) is one of the two doubles next to the exact one. Two segments with ends up to M that are found to cross properly by an intersector without precision model (which they are if they cross in an inner point of both and their orientations have the margin of C99): the reported point is in the boxes of both segments with these bounds, or it is one of the four ends and within k^2 M / 2^37 of the crossing point in x and y (this needs distances with a relative error of at most 2^-52); and if both ordinates satisfy the second condition then it is in both boxes and both its ordinates are next to the exact ones. Parallel lines whose differences of ordinates need more than 53 bits can be reported to have a common point.", "quantifier": "all pairs of lines and of segments between such doubles that are not parallel", "why_tests_cant": "The accuracy degrades with the angle between the lines and with the ratio of the ordinates; tests use short integers and wide angles.", "anchors": ["src/core/algorithm/cg_algorithms_dd.rs: intersection", "src/core/algorithm/intersection.rs: intersection", "src/core/algorithm/robust_line_intersector.rs: compute_intersection_4, get_intersection, intersection, intersection_safe, is_in_segment_envelopes, nearest_endpoint"]}
{"id": "C122", "title": "Heights of crossing points in doubles", "statement": "Where two segments meet according to the line intersector does not depend on the heights or measures of their ends, in any arithmetic: result, properness and the x and y of both reported points are the same as without them. In IEEE doubles, with square roots of a relative error of at most 2^-52 (and small for subnormal arguments): for a segment with finite heights of sizes up to H (2^-200 <= H <= 2^200) at both ends and ordinates of sizes up to 2^200, the height interpolated at a point is within H / 2^46 + 2 H d / L of the exact height of the segment above a point f of it, where d (at most L) is the distance of the given point from f and L the length of the segment. For two segments as in C121 whose ends all have heights of sizes up to H, which are at least k^2 M / 2^36 long and are found to cross properly by an intersector without precision model: the height of the reported point is finite and within H / 2^45 + H d (1/L1 + 1/L2) of the mean of the exact heights of the segments above their exact common point, where d is the distance of the reported from the exact common point. The interpolated height can exceed the heights of both ends by rounding.", "quantifier": "all segments between such doubles with heights, all points near them, and all pairs of such segments that cross properly", "why_tests_cant": "The height passes through squared lengths, a quotient, a square root and the displaced crossing point; tests compare heights with tolerances on a few segments.", "anchors": ["src/core/algorithm/robust_line_intersector.rs: compute_intersection_4, get_intersection, z_interpolate_3, z_interpolate_5, copy_with_z"]}
{"id": "C123", "title": "Distances in space for arbitrary doubles", "statement": "In IEEE doubles, with square roots of a relative error of at most 2^-52 (and small for subnormal arguments), for points whose three ordinates are doubles of sizes up to M (at most 2^200) on no common grid. The distance of two points differs from the exact one d by at most 11 d / 2^53 + 2^-498. For M >= 2^-200 the distance of a point to a segment that is a single point or at least 2^-200 long is finite and within M / 2^42 of the least distance. For two such segments, the second of which is no point, the distance is finite and within M / 2^42 of the distance of some point of the first from some point of the second, so it is never less than their least distance by more than that. A segment so short that its squared length is 0 in doubles can give NaN as the distance of a point.", "quantifier": "all points and segments in space between such doubles", "why_tests_cant": "The errors depend on cancellation in differences, the quotient that gives the foot and its cut-off at the ends; tests use small integers.", "anchors": ["src/core/algorithm/cg_algorithms_3d.rs: distance, distance_point_segment, distance_segment_segment", "src/core/math/vector_3d.rs: dot_4"]}
{"id": "C124", "title": "Triangles of arbitrary doubles", "statement": "In IEEE doubles, with hypot and square roots of a relative error of at most 2^-52, for triangles whose ordinates are doubles of sizes up to M (2^-200 to 2^200) on no common grid. The centroid is within 3 M / 2^52 of the mean of the vertices. The longest side has a relative error of at most 3/2^52 and the length of at most 5/2^52 (ordinates multiples of 2^-1000). The in-centre is within M / 2^45 if the perimeter is at least 2^-200, and the foot of a bisector within M / 2^44 if the two sides at its corner together are at least 2^-200. Let the flatness of a corner be the product of the extents of its two sides (the larger of the differences in x and y, at least 2^-200) divided by the determinant of the triangle. If the flatness of the corner at the third vertex is at most k <= 2^46, the circumcentre is finite and each ordinate is off by at most half a unit in the last place and k/2^45 times the circumradius; if that of the first is, the circumradius has a relative error of at most k/2^45. The height interpolated at a point of a triangle with extents at most D and heights up to H is within k H / 2^44 where D^2 is k <= 2^44 times the determinant. The area in space is within P Q / 2^47, P and Q (2^-140 to 2^140) being the extents of the sides at the first vertex. A corner is told acute or obtuse rightly unless the dot product of its sides is below 2^-48 of the product of their extents; closer to a right angle an acute triangle can be called not acute.", "quantifier": "all triangles with such vertices, and all points of them", "why_tests_cant": "The errors depend on cancellation in differences and determinants; tests use right-angled and equilateral triangles with small integers and a tolerance.", "anchors": ["src/core/geom/triangle.rs: circumcentre, circumradius, in_centre, centroid, length, longest_side_length, angle_bisector, area_3d, interpolate_z, is_acute", "src/core/algorithm/angle.rs: is_acute, is_obtuse"]}
{"id": "C125", "title": "Circumcentres in double-double arithmetic for arbitrary doubles", "statement": "In IEEE doubles, for triangles whose ordinates are multiples of 2^-130 of sizes up to 2^78 (so zero and all doubles between 2^-78 and 2^78), on no common grid. Let the flatness of the corner at the third vertex be the product of the extents of its two sides (the larger of the differences in x and y) divided by the determinant of the triangle. If it is at most k <= 2^95, the circumcentre computed in double-double arithmetic is finite, and each ordinate is off by at most half a unit in the last place (and 2^-100 of its size) and k/2^92 times the circumradius. If k times the circumradius is at most 2^35 times the size of the exact ordinate, no double lies strictly between the exact and the computed ordinate. For flatter triangles, which need not be degenerate, there can be no finite result.", "quantifier": "all triangles with such vertices", "why_tests_cant": "The error depends on the cancellation in three determinants, which differ for every triangle; tests use a few triangles and a tolerance.", "anchors": ["src/core/geom/triangle.rs: circumcentre_dd", "src/core/math/dd.rs: determinant_xy_dd, subtract_f64, sqr, multiply_f64, divide_dd, double_value"]}
{"id": "C126", "title": "Plain intersection formulas for arbitrary doubles", "statement": "In IEEE doubles, for two lines through points whose ordinates are doubles on no common grid. If the ordinates are at most M in size (2^-150 to 2^150) and the determinant of the two directions is at least M^2/k with k <= 2^42, the homogeneous formula reports a common point, and each ordinate is within k/2^44 times (M plus its exact size) of that of the exact common point; the coordinate obtained from the homogeneous coordinates of the two lines is the same. If the four points are at most N (2^-150 to 2^150) apart in x and in y, wherever they are up to 2^900, and the determinant is at least N^2/k, the formula that first subtracts the middle of the common extents reports a common point, and each ordinate is off by at most half a unit in the last place and k/2^44 times (2 N plus its distance from the first point).", "quantifier": "all lines through such points", "why_tests_cant": "The error comes from cancellation in differences of products and depends on the position of the points as well as on the angle; tests use a few crossing lines and a tolerance.", "anchors": ["src/core/algorithm/hcoordinate.rs: intersection, new_with_coordinates_4, get_coordinate", "src/core/algorithm/intersection.rs: intersection_fp"]}
{"id": "C127", "title": "Directions and angles for arbitrary doubles", "statement": "In IEEE doubles, with a library whose pi is the nearest double and whose atan2 answers with doubles in [-pi, pi] within e of a direction of the vector it is given (such libraries exist). For points whose ordinates are any doubles up to 2^1022 in size, on no common grid: the angle of two distinct points, and of a line segment, is within e + 1/2^53 + 1/2^105 of a direction of the exact vector, although the differences are rounded; the angle between two non-zero vectors at a point is in [0, pi] and within 2 e + 3/2^51 of the exact angle; the oriented angle is in (-pi, pi] and, up to a whole turn, within the same bound of the exact turn, with the same sign if the turn is not that close to 0 or to half a turn; the interior angle ends in [0, 2 pi) within 2 e + 3/2^50 of the exact turn up to a whole turn; the bisector ends in (-pi, pi] within 2 e + 3/2^50 of a direction of the first vector turned by half of a turn, of at most about pi, to the second. For vectors the angle is within e, and the angle between and the turn to another within 2 e + 1/2^50.", "quantifier": "all such points, vectors and libraries", "why_tests_cant": "Rounded differences of close points could turn the direction by any amount if the error were not relative; tests use a few angles and a tolerance.", "anchors": ["src/core/algorithm/angle.rs: Angle::angle_coordinates, angle_between, angle_between_oriented, interior_angle, bisector", "src/core/geom/line_segment.rs: angle", "src/core/math/vector_2d.rs: angle, angle_with, angle_to"]}
{"id": "C128", "title": "Degrees, snapped sines, projections and rotations for arbitrary doubles", "statement": "In IEEE doubles, with a library whose pi is the nearest double and whose sine and cosine answer with doubles in [-1, 1] within e of the exact values (such libraries exist). For angles up to 2^1000, the conversion to degrees or to radians is within 3/2^53 of its exact size (plus 2^-1073), keeps the order of angles, and there and back (up to 2^990) is within 7/2^53 of the size of the angle (plus 2^-1066). The snapped sine and cosine of any double are within e + 5.01e-16 of the exact ones, within e of exact ones of at least e + 5.01e-16, and exactly 0 where the exact one is below 4.99e-16 - e. A projected point (ordinates and distance d up to 2^1000) has ordinates within |d| (e + 8e-16) + half a unit in the last place of the original ordinate (plus 2^-1074) of the exact ones, and along an axis the other ordinate stays as it is. A rotated vector has ordinates within (|x| + |y|)(e + 1/2^52 + 1/2^106) (plus 2^-1073) of the exact ones. The turn from one angle to another has the sign of the sine of the exact difference if that sine exceeds e + |difference|/2^53 in size.", "quantifier": "all such doubles and libraries", "why_tests_cant": "The claims hold for all roundings, cancellations and underflows; tests use a few angles and a tolerance.", "anchors": ["src/core/algorithm/angle.rs: Angle::to_degrees, to_radians, sin_snap, cos_snap, project, get_turn", "src/core/math/vector_2d.rs: rotate"]}
{"id": "C129", "title": "Sizes of boxes and polygons in double precision", "statement": "In IEEE doubles, unless the result overflows. The area of a polygon with closed rings of at most 2^50 points is within (1+u)^h times the sum of the error bounds of the areas of its rings (C87) plus ((1+u)^h - 1) times the sum of those areas of the area of the shell less the areas of the h holes, u = 2^-53; it is that area exactly if the ordinates are multiples of a power of two by b-bit integers and the number of points times 2^(2b+2) is at most 2^53. The area of several polygons has in addition one rounding for each polygon, and the length of a polygon is that close to the sum of the lengths of its rings, for a library hypot with a known error. The area of a box is within 2^-51 of its size plus 2^-1075 of width times height; the smaller and the larger side are within 2^-53 of their size of the exact ones; the diameter, and the distance of two boxes from the least distance of two of their points, have the error of hypot and one rounding.", "quantifier": "all such polygons, boxes and libraries", "why_tests_cant": "The bounds hold for all numbers of holes and points, all cancellations and all underflows; tests compare a few figures with a tolerance.", "anchors": ["src/core/geom/polygon.rs: Polygon::get_area, get_length", "src/core/geom/multi_polygon.rs: MultiPolygon::get_area", "src/core/geom/envelope.rs: get_area, get_diameter, min_extent, max_extent, distance_envelope"]}
{"id": "C130", "title": "Predicates on doubles are right away from a tiny neighbourhood", "statement": "In IEEE doubles, for points whose ordinates are at most M <= 2^400 and multiples of 2^-250 (zero and all doubles from 2^-197 on are). The orientation of three points is exact if the third is farther than M/2^97 from the line through the first two. A point that is reported on a segment or on a line is within M/2^97 of it. A point farther than M/2^96 from every edge of a closed ring is located in it exactly by the even-odd rule, so only points that near a ring can be reported on it or on the wrong side. Whether a closed ring runs counterclockwise is answered exactly if each edge leaving a highest corner ends farther than M/2^97 from the line of the edge arriving there. Segments (also single points) that the intersector reports to intersect have points within M/2^97 of each other, and segments with a common point are reported unless an end of one of them is within M/2^97 of the other.", "quantifier": "all such points, rings, lines and segments", "why_tests_cant": "The neighbourhoods are about 2^-45 of the spacing of the doubles, so no sampled test can tell where the answers start to be wrong; the statement is about all positions.", "anchors": ["src/core/algorithm/orientation.rs: Orientation::index, is_ccw", "src/core/algorithm/point_location.rs: is_on_segment, is_on_line, locate_in_ring", "src/core/algorithm/robust_line_intersector.rs: compute_intersection_4, has_intersection"]}
{"id": "C131", "title": "Closest points of segments are accurate for arbitrary doubles", "statement": "In IEEE doubles, for points whose ordinates are at most M <= 2^180 and multiples of 2^-180 (zero and all doubles above 2^-127 are), and a square root and hypot accurate to 2^-52. The closest point of a segment (also a single point) to a given point is within M/2^44 of the segment, and its distance from the given point is within M/2^43 of the least distance of the segment. If two segments are not reported to intersect, their closest points are two points, each within M/2^44 of its own segment, and the distance between them is within M/2^42 of the least distance of the segments, even if the report is wrong.", "quantifier": "all such points and segments, all square roots and hypots of that accuracy", "why_tests_cant": "A projection divides two rounded quantities and a search compares rounded distances; only a bound for all inputs shows that neither a flat angle nor a tie makes the answer much worse than the best one.", "anchors": ["src/core/geom/line_segment.rs: closest_point, closest_points, project, projection_factor, intersection"]}
{"id": "C132", "title": "Crossing points rounded to a precision model", "statement": "A segment intersector with a fixed precision model (a scale, or a grid size). In exact arithmetic the point reported for a proper crossing is on the grid, in both ordinates at most half a cell from the exact crossing point and no farther from it than any other grid point; if both ends of a segment are on the grid it is in the box of that segment. In IEEE doubles, for segments on a grid of 32 bits as in C85, a scale of at most 2^800 or a grid size from 2^-800: the reported ordinates are the doubles nearest to grid points which are at most half a cell (plus a rounding error of 2^-51 relative) from the exact crossing point, and they are in the box of a segment whose ends the model keeps. For arbitrary doubles with a scale, the ordinates reported are those of the grid points next to the point reported without a model (up to 2^200). The rounded point need not be on the segments, can be an end of a segment although the crossing is proper, can be outside the boxes if the ends are off the grid, and a point where segments only touch is not rounded.", "quantifier": "all segments, scales and grid sizes in these ranges, all states of the intersector", "why_tests_cant": "Snapping moves the point off the segments, so whether it stays inside their extent depends on monotony of two roundings for all values; tests see single grids and single crossings.", "anchors": ["src/core/algorithm/robust_line_intersector.rs: set_precision_model, compute_intersection_4, get_intersection", "src/core/geom/precision_model.rs: make_precise_coordinate"]}
{"id": "C133", "title": "The relations of a DE-9IM matrix are statements about the point sets", "statement": "Let two geometries divide a space into interior, boundary and exterior, and let each cell of a matrix be the dimension of the common part of a part of the first and a part of the second geometry (-1 if empty, else 0, 1 or 2). Then is_disjoint holds exactly if the geometries (interior and boundary) have no common point, and is_intersects if they have one; is_covers and is_covered_by if the covered geometry is a subset of the other and not empty; is_contains and is_within if it is a subset and the interiors meet; is_equals, for equal dimensions, if the point sets are equal and the interiors meet; is_touches, for dimensions 0 to 2 not both 0, if the geometries meet and their interiors do not; is_crosses if the interiors meet and the interior of the geometry of lower dimension also meets the exterior of the other, and for two lines if the interiors meet in dimension 0; is_overlaps if the interiors meet (for two lines in dimension 1) and each interior meets the exterior of the other. The transposed matrix is the matrix of the exchanged geometries; covering is transitive and antisymmetric, and what is covered by something disjoint from a third geometry is disjoint from it. A matrix recorded by set_at_least from observations that are sound, and complete for every common part that is not empty, is that matrix.", "quantifier": "all spaces, all pairs of geometries with their parts, all dimension functions, all lists of observations", "why_tests_cant": "The relations are defined on nine numbers; that they say something about infinite point sets, for every geometry, cannot be tested on matrices.", "anchors": ["src/core/geom/intersection_matrix.rs: is_disjoint, is_intersects, is_touches, is_crosses, is_within, is_contains, is_covers, is_covered_by, is_equals, is_overlaps, transpose, set_at_least_row_column_dimension"]}
{"id": "C134", "title": "Exactly which calls abort", "statement": "For every arithmetic (NaN and infinities included), every dimension and every number of measures. Coordinate sequences: reading or writing at a place aborts exactly outside the sequence; the index of the smallest coordinate exactly if it is empty; scroll to an index exactly if it is empty and the index is not 0; extend (positive dimension) exactly if the new size is smaller; reverse, is_ring, ensure_valid_ring, is_equal, min_coordinate, index_of, scroll to a coordinate and comparators never. Arrays: is_equal_reversed aborts exactly if the other array is shorter, scroll to an index exactly if the array is not a ring and the index exceeds its length; is_ring, index_of, pt_not_in_list, increasing_direction, copy_deep, the tests for and removal of repeated or invalid points, equals and scroll to a coordinate never. Lines: only a coordinate or point by number, exactly outside. Rings: nothing. Points: making from a sequence, copy and reverse exactly with more than one coordinate, nothing else. Polygons: a hole by number exactly outside, reverse exactly with holes, normalize exactly if a ring has a single coordinate, nothing else. Collections: copies, and reversed collections of points and of polygons, exactly if not empty; a point by number exactly if the collection is not empty and the number is 0, or one of the two following the last place, or the point there has more than one coordinate; a coordinate or polygon by number exactly outside; nothing else. Locating points, point on line, areas, lengths and distances to lines never abort; the orientation of a ring exactly if it has no coordinate; the centroid of a line exactly without coordinates, of a polygon exactly if the shell has coordinates and a hole has none, of polygons exactly if not all shells are empty and a ring has no coordinates.", "quantifier": "all sequences, arrays, geometries and collections (fewer than 2^64 coordinates), all numbers, all arithmetics", "why_tests_cant": "Absence of aborts is a statement about all inputs; tests show single aborts or single returns.", "anchors": ["src/core/geom/implementation/coordinate_array_sequence.rs", "src/core/geom/coordinate_array_sequences.rs", "src/core/geom/coordinate_arrays.rs", "src/core/geom/line_string.rs", "src/core/geom/linear_ring.rs", "src/core/geom/point.rs", "src/core/geom/polygon.rs", "src/core/geom/multi_point.rs", "src/core/geom/multi_line_string.rs", "src/core/geom/multi_polygon.rs", "src/core/algorithm/centroid.rs", "src/core/algorithm/orientation.rs", "src/core/algorithm/point_location.rs"]}
{"id": "C135", "title": "Exactly which calls on matrices, coordinate lists and numbers abort", "statement": "Intersection matrices: reading, setting or raising an entry returns exactly if row and column are below 3; making a matrix from a text, setting or raising one by a text, and matching two texts return exactly if no character after the ninth is one of F T f t * 0 1 2, whatever the first nine are and whatever else follows; matching a pattern, setting all entries, adding, comparing and printing always return. Coordinate lists: adding a range returns exactly if it does not run backwards and is empty or ends inside the array; adding an array with a direction exactly if the direction is forward; inserting exactly if the place is at most the length (repeated points allowed or not); adding arrays and making arrays in either direction always return. Numbers: the rounded-up quotient of 32-bit integers is computed exactly if the divisor is not 0 and it is not the least integer divided by -1; wrapping an index exactly if the bound is not 0 and, for a negative index, it is not the least integer and bound minus ((-index) mod |bound|) is not below the least integer; an extended-precision number can be raised to every power but the least integer; exactly the first two intersection points of a line intersector can be read.", "quantifier": "all matrices, texts (Unicode included), lists, arrays, places, 32-bit integers, all arithmetics", "why_tests_cant": "Absence of aborts is a statement about all texts, places and integers; tests show single aborts or single returns.", "anchors": ["src/core/geom/intersection_matrix.rs", "src/core/geom/dimension.rs: to_dimension_value", "src/core/geom/coordinate_list.rs", "src/core/util/math_util.rs: ceil, wrap", "src/core/math/dd.rs: pow", "src/core/algorithm/line_intersector.rs: get_intersection"]}
{"id": "C136", "title": "An intersector used again and again", "statement": "In every arithmetic, after any history of calls (segment against segment, point against segment, setting a precision model) of a segment intersector: the code and the proper flag are those a new intersector gives for the last computation; intersection point 0 is the one a new intersector with the precision model set at that time gives for the last computation that found two segments to meet, and intersection point 1 that of the last computation that found two collinear segments to meet; as long as there was no such computation, they are those of the start. In particular a computation point against segment never sets a point, and points of earlier computations are handed out: both are shown by example.", "quantifier": "all histories of calls, all coordinates, all arithmetics (NaN and infinities included)", "why_tests_cant": "The answers depend on the whole history of calls; tests run a few short histories.", "anchors": ["src/core/algorithm/robust_line_intersector.rs: compute_intersection_3, compute_intersection_4, compute_intersect, compute_collinear_intersection, set_precision_model, get_intersection, has_intersection"]}
{"id": "C137", "title": "Mirror images are computed exactly", "statement": "In binary64, and in every arithmetic whose rounding and hypotenuse treat both signs alike, for all coordinates, NaN and infinities included: changing the sign of all x, of all y, or of both changes nothing in the rounding. The orientation of three points changes its sign exactly if one axis was mirrored; all distances (point, segment, line, line string) and the absolute area of a ring stay the same to the last bit, the signed area and the signed distance from a line change their sign exactly if one axis was mirrored; the crossing of two lines (all three computations) and of a line and a segment, the midpoint, the points along and beside a segment (with the offset on the other side if one axis was mirrored), the projection, the closest point and the reflected point are the mirror images of the original ones; a segment intersector without precision model reports the same code and flag, and the mirrored points with the same heights; boxes of two points meet, and a point is in such a box or on a line, exactly if that is so for the mirror images.", "quantifier": "all coordinates, rings and lines of any length, all intersector states without precision model, all arithmetics with an even rounding (the two zeros are one value)", "why_tests_cant": "A sign treated differently somewhere in the filter, in the double-double arithmetic or in a box test shows only for particular roundings; tests compare a few results with tolerances.", "anchors": ["src/core/algorithm/cg_algorithms_dd.rs: orientation_index_xy, orientation_index_filter, intersection", "src/core/math/dd.rs: self_add_f64, self_add_hi_lo, self_multiply_hi_lo, self_divide_dd, signum", "src/core/algorithm/distance.rs", "src/core/algorithm/area.rs", "src/core/algorithm/intersection.rs", "src/core/algorithm/hcoordinate.rs: intersection", "src/core/algorithm/robust_line_intersector.rs: compute_intersection_4", "src/core/geom/line_segment.rs", "src/core/geom/envelope.rs: intersects_3, intersects_4, covers_coordinate"]}
{"id": "C138", "title": "Which segment or end is named first", "statement": "In binary64, for points of finite doubles up to 2^256 in size, on no common grid: the common point of two lines, or that none is reported, is the same to the last bit for all eight orders of the lines and of the points on them; the plain formula has this property in every arithmetic with an even rounding and for all values. In every arithmetic: exchanging two segments does not change whether a segment intersector finds them to meet, in a point or along a line, and whether the crossing is proper; the point of a proper crossing whose common point is within both boxes, its height included and rounded to a precision model or not, is the same (binary64, sizes up to 2^256). In every arithmetic with an even rounding the distance of two points, in the plane or in space, does not depend on their order, and neither does that of two segments if no distance of an end to the other segment is NaN. The order of the ends of a segment does matter for the orientation index: there are three points of doubles on a line, the third between the first two, where the index is 0 one way and 1 the other way, and so a segment that starts on another one is found to meet it or not.", "quantifier": "all coordinates and intersector states in the stated ranges, all arithmetics (the two zeros are one value), all precision models", "why_tests_cant": "Whether rounding is the same for both orders depends on each operand of the double-double arithmetic; tests try one order.", "anchors": ["src/core/algorithm/cg_algorithms_dd.rs: intersection, orientation_index_xy", "src/core/algorithm/intersection.rs: intersection", "src/core/algorithm/hcoordinate.rs: intersection", "src/core/math/dd.rs: self_add_hi_lo, self_subtract_dd, self_multiply_hi_lo, self_divide_dd", "src/core/algorithm/robust_line_intersector.rs: compute_intersection_4", "src/core/algorithm/distance.rs: segment_to_segment", "src/core/geom/coordinate.rs: distance, distance_3d", "src/core/geom/envelope.rs: intersects_4"]}
{"id": "C139", "title": "The unit of length does not matter", "statement": "In binary64, let all coordinates be doubles that are zero or of absolute value between 2^-n and 2^n, and let the same hold after multiplying all of them by one power of two, 2^k (k any integer), which is a change of the unit of length. For n = 400: the orientation index of three points, whether a triangle, a ring by its highest point, or a ring by its area is counter-clockwise, whether two points are equal, a point lies in the box of two others or two boxes meet, where a point lies with respect to a ring, whether it lies on a chain, whether two segments meet, in a point or along a line, and whether the crossing is proper, do not change, a ring test that aborts included; and the area of a ring of up to 2^53 points, signed or not, is multiplied by exactly 4^k. For n = 150 the crossing point of two lines by the plain formulas (with and without moving the origin), and for n = 48 that by double-double arithmetic, is multiplied by exactly 2^k, and is missing after the change of unit if and only if it was before. Sizes matter: the triangle (0,0), (1,0), (0,1) in units 2^600 times as large counts as flat.", "quantifier": "all coordinates in the stated ranges, all integers k, rings and chains of any length (areas: up to 2^53 points), all intersector states", "why_tests_cant": "Every rounding in the chain of operations, down to the error terms of double-double arithmetic, must commute with the change of unit; a constant with a unit, such as an absolute tolerance, or an underflow would break it only for some inputs.", "anchors": ["src/core/algorithm/cg_algorithms_dd.rs: orientation_index_xy, orientation_index_filter, intersection", "src/core/math/dd.rs: self_add_f64, self_add_hi_lo, self_multiply_hi_lo, divide_dd, signum", "src/core/algorithm/orientation.rs: is_ccw_vec, is_ccw_area_vec", "src/core/algorithm/area.rs: of_ring_vec, of_ring_signed_vec", "src/core/algorithm/point_location.rs: locate_in_ring, is_in_ring, is_on_line_coordinates", "src/core/algorithm/ray_crossing_counter.rs: count_segment", "src/core/geom/envelope.rs: intersects_3, intersects_4", "src/core/algorithm/robust_line_intersector.rs: compute_intersection_4", "src/core/algorithm/hcoordinate.rs: intersection", "src/core/algorithm/intersection.rs: intersection, intersection_fp"]}
{"id": "C140", "title": "What was handed in is read back", "statement": "A segment made from four numbers reads as its first end at index 0 and as its second at every other index, a copy reads the same and a reversed segment the other way round; the components of the vector between two points are the two differences. A sequence made from a size has that many points at the origin and answers index errors only past the end. Heights and measures read as stored where the sequence has them (aborting exactly past the end) and as NaN for every index where it has not. With a dimension given, an array sequence keeps points and dimension unchecked; a packed one keeps ordinates, and aborts on every non-empty list of points. The factory's line and ring without arguments are empty, a polygon from a sequence has that sequence's points and no holes, a multi point has the points given and is empty only without any, and every point that can be made has as many coordinates as it counts and is simple. A line given new points reads, box included, as one made from them. An octagonal envelope of one or two points is the smallest one covering them. A homogeneous point made from two finite doubles gives them back exactly. The angle of a point is that seen from the origin (\u03c0/4 on the diagonal, \u03c0/2 straight up), and the constants for half and a quarter of \u03c0 are 90 and 45 degrees, in exact arithmetic. Clockwise, straight and counter-clockwise are the signs of the determinant, and on, left and right differ, with opposites exchanging the last two only.", "quantifier": "all numbers, points, sequences, indices, sizes and dimensions; homogeneous points: all finite doubles", "why_tests_cant": "Constructors and accessors agree only if every index, size and default agrees; tests look at a few sizes and indices.", "anchors": ["src/core/geom/line_segment.rs: default, new_from_xy, new_from_line_segment, get_coordinate, reverse", "src/core/math/vector_2d.rs: get_component", "src/core/geom/implementation/coordinate_array_sequence.rs: new_with_size, get_z, get_m", "src/core/geom/implementation/packed_coordinate_sequence_double.rs: new_coordinates_with_dimension", "src/core/geom/geometry_factory.rs: create_line_string, create_linear_ring, create_polygon_with_coordinate_array_sequence, create_multi_point_from_points", "src/core/geom/point.rs: get_num_points, is_simple", "src/core/geom/line_string.rs: init", "src/core/geom/octagonal_envelope.rs: new_with_coordinate, new_with_coordinates", "src/core/algorithm/hcoordinate.rs: default, new_with_xy, new_with_coordinate, get_coordinate", "src/core/algorithm/angle.rs: angle_coordinate, PI_OVER_2, PI_OVER_4", "src/core/algorithm/orientation.rs: CLOCKWISE, STRAIGHT, COUNTERCLOCKWISE", "src/core/geom/position.rs: ON, opposite"]}
{"id": "C141", "title": "Points added along edges, and rings cut along a chord, change nothing but the number of points", "statement": "Any number of points added on the edges of a line, repetitions of corners included, change none of these in exact arithmetic: which points are on the line; its box; its length and the centroid of the line (for a non-empty line); and, for a closed ring, the location of every point, the area with and without sign, the direction, told from the area or from the top of the ring, and the centroid of a polygon whose shell and holes are such rings. In doubles the locations, on-line answers and directions are unchanged for points on a common grid as in C66, and the areas for grids so coarse that no sum is rounded as in C87. If a closed ring is cut along a chord between two of its corners into two closed rings, then a point off the chord is on the whole exactly if it is on a piece, inside the whole exactly if it is inside one piece and outside the other, and outside the whole exactly if it is outside both or inside both; on the chord this is false.", "quantifier": "all lines and closed rings, all numbers and positions of added points, all points located, all chords", "why_tests_cant": "Every edge, every number of added points and every query point, including the ones level with a corner, would have to be tried; a wrong rule for the ends of edges shows only where an added point is level with the query point.", "anchors": ["src/core/algorithm/ray_crossing_counter.rs: count_segment, locate_point_in_ring", "src/core/algorithm/point_location.rs: locate_in_ring, is_in_ring, is_on_line", "src/core/algorithm/area.rs: of_ring, of_ring_signed", "src/core/algorithm/orientation.rs: is_ccw_area, is_ccw_vec", "src/core/algorithm/length.rs: of_line", "src/core/algorithm/centroid.rs", "src/core/geom/envelope.rs: expand_to_include"]}
{"id": "C142", "title": "No system of coordinates is preferred", "statement": "In exact arithmetic the answers do not depend on the system of coordinates. For every invertible affine map of the plane (rotations, reflections, exchanges of the axes, shears, unequal scalings and shifts, in any combination): a point is inside, outside or on any closed ring, which may cross or touch itself, exactly if its image is so for the image of the ring; the same points are on a line; the orientation of three points is multiplied by the sign of the determinant of the map; the signed area of a closed ring is multiplied by the determinant and the area by its size; the direction told from the area is kept if the determinant is positive, and turned round if it is negative and the area is not zero; the direction test does so for every simple ring; the centroid of a polygon whose rings are simple goes with the polygon, unless its holes take all of its area; two segments meet, and cross inside both, exactly if their images do, and for segments that are not single points the code (no, one or many common points) is the same and the single common point goes with them. For maps that keep distances, the distances of points, of points from segments and from non-empty chains, and of segments, and the lengths of lines, are unchanged. In doubles the locations and on-line answers are unchanged if the points are on a common grid as in C66 and their images are on a common grid, which may be another one.", "quantifier": "all affine maps with non-zero determinant, all points, lines, closed rings, simple polygons with holes, and pairs of segments", "why_tests_cant": "The code casts its ray in one fixed direction and treats the two ends of an edge differently, so that every position of corners level with the point, before and after the map, would have to be tried for every map.", "anchors": ["src/core/algorithm/ray_crossing_counter.rs: count_segment, locate_point_in_ring", "src/core/algorithm/point_location.rs: locate_in_ring, is_in_ring, is_on_line", "src/core/algorithm/orientation.rs: index, is_ccw, is_ccw_area", "src/core/algorithm/area.rs: of_ring, of_ring_signed", "src/core/algorithm/centroid.rs", "src/core/algorithm/line_intersector.rs: compute_intersection", "src/core/algorithm/distance.rs: point_to_segment, point_to_segment_string, segment_to_segment", "src/core/algorithm/length.rs: of_line"]}
{"id": "C143", "title": "The locator and the intersector agree: walking from point to point", "statement": "In exact arithmetic, for every closed ring, which may cross itself, and two points off it such that no corner of the ring is on the segment between them: the points get the same location exactly if the segment meets an even number of edges. The number may be counted with the segment intersector, whatever it computed before. A point that a straight line keeps from all corners of the ring is outside, so an inside or boundary point never has all corners strictly on one side of a line through it. Hence a point off the ring is inside exactly if a segment from it in any direction to a point beyond such a line meets an odd number of edges, and outside exactly if it meets an even number, if it passes through no corner. In doubles the first statement holds for points on a common grid as in C66. If the segment passes through a corner it is false.", "quantifier": "all closed rings, all pairs of points off the ring with no corner between them, all directions, all states of the intersector", "why_tests_cant": "Two algorithms that share no code are compared, for every ring, every direction of walking and every number of crossings.", "anchors": ["src/core/algorithm/ray_crossing_counter.rs: count_segment, locate_point_in_ring", "src/core/algorithm/point_location.rs: locate_in_ring, is_in_ring", "src/core/algorithm/line_intersector.rs: compute_intersection, has_intersection", "src/core/algorithm/robust_line_intersector.rs"]}
{"id": "C144", "title": "Different ways of asking the same question agree: distance, location, intersection, triangle", "statement": "In exact arithmetic: between two points with different locations in a closed ring, which may cross itself, there is a point on its boundary, and the two are at least as far apart as the sum of their distances to the ring. So all points nearer to a point than the ring have its location, and so have the ends of a segment at a positive distance from every edge. The distance of two segments is zero exactly if the intersector finds an intersection; that of a point and a segment or a line of two or more points exactly if the point test says it is on it; that of a point and a closed ring of two or more points exactly if its location is the boundary. On the ring of three corners the area with and without sign and both tests of direction give the answers of the triangle functions, and so does the point test if the corners are not in line. The signed area of a closed ring is the sum of the signed areas of the triangles its edges make with any point. The first statement, the point test and the direction of triangles also hold for doubles on a grid of 52 bits.", "quantifier": "all closed rings, all pairs of points, all segments, lines, triangles and base points, all states of the intersector", "why_tests_cant": "The functions share little code; agreement for every ring and every radius is a statement about infinitely many points at once.", "anchors": ["src/core/algorithm/distance.rs: point_to_segment, point_to_segment_string, segment_to_segment", "src/core/algorithm/point_location.rs: locate_in_ring, is_in_ring, is_on_line, is_on_segment", "src/core/algorithm/line_intersector.rs: has_intersection", "src/core/algorithm/area.rs: of_ring, of_ring_signed", "src/core/geom/triangle.rs: intersects, signed_area, area, is_ccw", "src/core/algorithm/orientation.rs: is_ccw, is_ccw_area"]}
{"id": "C145", "title": "Boxes are sound filters", "statement": "In exact arithmetic: a point inside a closed ring, which may cross itself, has corners of the ring strictly on both sides of every line through it, hence is strictly inside the envelope of the coordinates; a point in or on the ring is covered by that envelope, so a point that is not covered is outside. The distance of the envelopes of two segments is at most the distance of the segments, and that of the envelopes of a point and a line at most their distance. A line is at least as long as the diameter of its envelope, a closed line at least twice as long. In every arithmetic the intersector finds no intersection of segments whose envelopes do not meet, and a point that the envelope of a segment does not cover is not on it. For doubles on a grid of 52 bits the computed envelope of a ring covers every point that the test finds in or on the ring.", "quantifier": "all closed rings and points, all segments, all lines, all states of the intersector; the segment filter for every arithmetic without NaN", "why_tests_cant": "A filter must never drop an answer, for any of infinitely many inputs; the bounds on distances and lengths hold for lines of any number of points.", "anchors": ["src/core/geom/coordinate_arrays.rs: envelope", "src/core/geom/envelope.rs: covers, intersects, distance, get_diameter", "src/core/algorithm/point_location.rs: locate_in_ring, is_in_ring, is_on_segment", "src/core/algorithm/distance.rs", "src/core/algorithm/length.rs: of_line", "src/core/algorithm/robust_line_intersector.rs: compute_intersect"]}
{"id": "C146", "title": "Small changes of the input change little", "statement": "In exact arithmetic: if the points of a line are each moved by at most e, the distance of a moved point to the line changes by at most e plus the move of the point; the distance of two segments changes by at most the sum of the largest moves of the ends of each; the length changes by at most 2e for each segment; the signed area of a closed ring changes by at most e times the mean of the lengths before and after. A point that was further from a closed ring, which may cross itself, than e plus its own move keeps its location. In particular rounding all coordinates to a fixed precision model changes the distance of a point and a line by at most the diagonal of a cell, and keeps the location of every point that was further than this from the ring.", "quantifier": "all lines and closed rings of any number of points, all moves of all points, all points, all scales other than zero", "why_tests_cant": "A bound for every perturbation of every input is not a statement about cases; the stability of the location is a statement about all deformations at once.", "anchors": ["src/core/algorithm/distance.rs: point_to_segment, point_to_segment_string, segment_to_segment", "src/core/algorithm/length.rs: of_line", "src/core/algorithm/area.rs: of_ring_signed", "src/core/algorithm/point_location.rs: locate_in_ring", "src/core/geom/precision_model.rs: make_precise_coordinate"]}
{"id": "C147", "title": "Lines put together, parts of lines, and points left out", "statement": "In exact arithmetic the distance of a point to a line is the smaller of its distances to the two parts into which one of the points of the line divides it, a line is at most as far away as each contiguous part of it, a point is on a line exactly if it is on one of the two parts, and leaving out any points does not make a line longer. In every arithmetic whose coordinates are numbers, the envelope of two non-empty lists of points together equals the envelope of the first expanded by that of the second, and the envelope of a list covers that of every non-empty list left after leaving out points.", "quantifier": "all lines of any number of points and all ways to divide them, all points, all sublists; for envelopes all arithmetics, in particular doubles", "why_tests_cant": "The laws relate the answers for a line and for all its parts; tests compare single lines with single expected numbers.", "anchors": ["src/core/algorithm/distance.rs: point_to_segment_string", "src/core/algorithm/point_location.rs: is_on_line", "src/core/algorithm/length.rs: of_line", "src/core/geom/coordinate_arrays.rs: envelope", "src/core/geom/envelope.rs: Envelope::expand_to_include_envelope, covers_envelope, equals"]}
{"id": "C148", "title": "Centroids of things put together", "statement": "In exact arithmetic the length of a line times its centroid is the sum of the lengths of the two parts, into which one of its points divides it, times their centroids, and the envelope of a line covers its centroid. The centroid of a polygon does not depend on the order of its holes, that of a multipolygon not on the order of its polygons. If the polygons of a multipolygon have rings that neither cross nor touch themselves and positive areas, the area of the multipolygon times its centroid is the sum of the areas of the polygons times their centroids; without holes this centroid is strictly on the same side of any line as all vertices are.", "quantifier": "all lines of any number of points and all their divisions, all polygons with closed rings and any number of holes in any order, all multipolygons of any number of polygons, all half planes", "why_tests_cant": "The law relates the centroid of the whole to those of all parts, for every number of parts, and half planes are infinitely many.", "anchors": ["src/core/algorithm/centroid.rs: Centroid::new_from_line_string, new_from_polygon, new_from_multi_polygon, get_centroid", "src/core/geom/multi_polygon.rs: get_area, get_centroid", "src/core/geom/polygon.rs: get_area"]}
{"id": "C149", "title": "Rings in each other", "statement": "Let two closed rings, which may cross themselves, have no point in common, which is so exactly if the intersector finds no two of their edges to meet. In exact arithmetic each is on one side of the other; exactly one of three cases holds (the second is inside the first, the first inside the second, each is outside the other), and the locations of any one point of each decide which. If one point of the second is located inside the first, all its points are, every point located inside the second is located inside the first, and all points of the first are located outside the second; this is transitive; points in or on the inner ring are strictly nearer to it than to the outer one, points on or outside the outer one strictly nearer to that. If each has a point outside the other, no point is in or on both. In IEEE doubles the statements about a ring inside another and about rings outside each other, as decided by the intersector and one vertex of each, hold for all vertices and points of a common grid.", "quantifier": "all pairs of closed rings of any number of points without common points, all points of the plane, all points of the grid", "why_tests_cant": "That one vertex decides for a whole ring and for all points surrounded by it is a statement about all rings and all points of the plane.", "anchors": ["src/core/algorithm/point_location.rs: locate_in_ring, is_in_ring", "src/core/algorithm/distance.rs: point_to_segment_string", "src/core/algorithm/ray_crossing_counter.rs: count_segment", "src/core/algorithm/robust_line_intersector.rs: compute_intersect"]}
{"id": "C150", "title": "Triangle inequalities for distances", "statement": "In exact arithmetic: the distance of two segments is at most the sum of the distances of any point to both, and at most the sum of their distances to a third segment and its length; the distance to a line changes by at most the distance of the points asked for; the first point of a line is at least as far away as the line and at most by its length further; the distance of two envelopes that are not null is at most the sum of their distances to a third such envelope and its diameter.", "quantifier": "all points, all segments also without length, all lines of any number of points, all envelopes that are not null", "why_tests_cant": "Inequalities between answers for any three figures; each test would compare one triple.", "anchors": ["src/core/algorithm/distance.rs: point_to_segment, point_to_segment_string, segment_to_segment", "src/core/algorithm/length.rs: of_line", "src/core/geom/envelope.rs: Envelope::distance, get_diameter"]}

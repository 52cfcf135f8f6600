# Formal model of geos-rs

A Lean 4 model of the Rust crate in /repo (a port of JTS) together with theorems about it.
Nothing in /repo is executed; the tie between code and model is the citation carried by every
definition and the reading behind it.

## Layout

* `lean/Verif/Base/` - the arithmetic (`Flt`), Rust-like partial operations (`Res`), list helpers.
* `lean/Verif/Model/` - one file per Rust file, definitions only, each with file and line citation.
* `lean/Verif/Spec/` - small specifications that do not mention the model's helpers.
* `lean/Verif/Lemmas/` - helper lemmas.
* `lean/Verif/Props/` - the property theorems listed in MANIFEST.json, each followed by `example`s
  showing a concrete non-trivial case that meets its hypotheses.

## Trusted base

* The Lean 4.33.0 kernel and the three standard axioms `propext`, `Classical.choice`, `Quot.sound`.
  No axiom of our own, no `sorry`, no `native_decide`, no `bv_decide`.
* Mathlib (as compiled in the image) for ordered fields, lists and tactics; checked by the kernel.
* The reading of the Rust source: each definition cites the lines it models.
* The reading of Rust's semantics described next.

### How Rust is read

* `f64` is modelled through the class `Flt` (Base/Flt.lean). The model functions are written once, over any
  `Flt`, and are instantiated in two ways:
  * `Fl r`: values `nan | ninf | fin q | pinf` with `q : Rat`, IEEE comparisons (every comparison with NaN is
    false), and arithmetic that rounds the exact rational result with an arbitrary function `r.rnd`.
    Theorems stated for all `r` hold in particular for `binary64` (round to nearest even, overflow to infinity,
    gradual underflow; Base/Binary64.lean). `-0` and `+0` are the same value; the only operations of f64 that can tell
    them apart (division by zero, `signum`, `atan2`, printing, bit hashing) are treated as noted at their use.
  * any linearly ordered field `K` (exact arithmetic). Theorems over `K` are about the formulas of the code with
    rounding removed; they are labelled "exact arithmetic" and the corresponding claim of the property says so.
* `usize` and `i32` are modelled by `Nat` and `Int`. Subtraction below zero on `usize` is an explicit panic
  (debug build behaviour; in release builds it wraps and the following index panics). Overflow past 2^63 of counters
  is not modelled.
* A panic (index out of range, `unwrap` of `None`, failed `assert!`, arithmetic underflow, explicit `panic!`) is an explicit value of
  `Res a = Except Panic a`. A function that cannot panic is modelled by a plain function.
* `&mut` parameters become returned values. Loops become folds or structural recursion. Early `return`s become
  `if`/`match`.
* `sqrt`, `hypot` are taken over the reals (`Real.sqrt`) for exact theorems.
  `atan2`, `sin`, `cos` appear only as Mathlib's real functions or not at all (see the table of unmodelled code).

## Plan per property

* **C01 Coordinate ordering is a total order consistent with 2D equality** - Model Coordinate over `Flt`; prove the order laws for `Fl r` values that are not NaN (all r), plus the NaN counterexample.
* **C02 An envelope grown from points is exactly their bounding box** - Fold of the expand function; membership and leastness by induction; order independence from leastness.
* **C03 The null envelope behaves as the empty set** - Case analysis on every operation for `Fl r`.
* **C04 Envelope intersection is set intersection** - Pointwise equivalence for `Fl r`, envelopes satisfying the reachable-state invariant (null or ordered, NaN-free); invariant proved for all constructors and mutators that need no arithmetic.
* **C05 Envelope covering is inclusion and forms a partial order** - Same; inclusion tested at the two corner points.
* **C06 Envelope distance is the true set distance** - Exact arithmetic over an ordered field for the squared distance, real arithmetic for sqrt.
* **C07 Envelope comparison is a total order consistent with equality** - Order laws for `Fl r`.
* **C08 expand_by, translate and centre act as affine box operations** - Exact arithmetic.
* **C09 Point and segment box tests agree with envelope objects** - For `Fl r`, by cases on the comparisons.
* **C10 A coordinate list built without repeats never holds consecutive duplicates** - Histories as lists of operations; invariant by induction; stutter-collapse specification.
* **C11 close_ring closes and is idempotent** - Direct.
* **C12 Removing repeated points is exact** - Specification: `List.destutter`-like recursive function; equality with the code's CoordinateList loop.
* **C13 Scrolling an array is a rotation** - Loop model against `List.rotate`.
* **C14 Array comparison is the lexicographic total order** - Loop model against lexicographic order; laws by induction.
* **C15 Increasing direction is a canonical orientation of an array** - Loop model against first asymmetric pair.
* **C16 Minimum coordinate and index queries are correct** - Loop invariants.
* **C17 Deep array copy writes exactly the requested window** - Loop against list update; panics characterised.
* **C18 Sequence reversal is exact and an involution** - Loop of swaps against `List.reverse` for X,Y,Z; failure for M proved as a counterexample.
* **C19 Sequence scrolling rotates and keeps rings closed** - Loop against `List.rotate`.
* **C20 ensure_valid_ring produces a closed ring of at least four points** - Case analysis on size plus list lemmas.
* **C21 Sequence comparator is a total preorder, NaN included** - Order laws for `Fl r` with NaN as least element.
* **C22 DE-9IM text round-trips** - Per-cell induction; the string parser modelled on `List Char`.
* **C23 Transposing a DE-9IM exchanges the two geometries in every predicate** - Algebra on nine cells.
* **C24 Named spatial predicates equal their DE-9IM patterns** - Algebra on nine cells.
* **C25 DE-9IM accumulation is a join** - Pointwise max; histories by induction.
* **C26 Dimension and location symbols are faithful codes** - All integers, all characters.
* **C27 Quadrant numbering is consistent with geometry** - Sign case analysis for `Fl r`.
* **C28 Precision model rounding is a monotone idempotent projection to the grid** - Exact arithmetic with floor; for `Fl r` the branches that do not round.
* **C29 Orientation index has the symmetries of a determinant sign** - Exact arithmetic (ring identities) for both the filter and the DD path.
* **C30 The floating point orientation filter never lies** - Binary64 rounding error analysis over `Rat`.
* **C31 Point in ring is independent of ring direction and start vertex** - Fold invariants; crossing count against an independent parity specification; exact arithmetic for the orientation step.
* **C32 is_on_line / is_on_segment decides membership** - Exact arithmetic; convex combination witness.
* **C33 Signed ring area is the shoelace integral** - Induction on rings, exact arithmetic.
* **C34 Ring orientation test is stable** - The scan of is_ccw is modelled; theorems for the decision it makes; rotation invariance if it can be carried.
* **C35 Line length is additive and reversal invariant** - Real arithmetic.
* **C36 Point to segment distance is the minimum distance** - Real arithmetic; minimum via the projection parameter.
* **C37 Segment to segment distance is the minimum distance** - Real arithmetic on top of C36 and the crossing test.
* **C38 Segment intersection classification is correct** - Exact arithmetic; classification by orientation signs.
* **C39 Line intersection formula lies on both lines** - Exact arithmetic ring identities.
* **C40 Segment projection, closest point and reflection are correct** - Exact arithmetic.
* **C41 Triangle formulas satisfy their defining equations** - Exact arithmetic.
* **C42 Vector algebra laws** - Exact arithmetic; integer modulo lemmas.
* **C43 Angle normalisation lands in its range** - Real arithmetic with fuel for the loops; non-termination shown for a rounding that absorbs 2 pi.
* **C44 DD comparison and sign are lexicographic on (hi, lo)** - `Fl r` comparisons; value agreement for normalised pairs.
* **C45 DD integer power and arithmetic agree with exact arithmetic** - Exact rounding instance; pow by strong induction.
* **C46 Centroid is translation equivariant and orientation independent** - Exact arithmetic; fold invariants.
* **C47 Octagonal envelope bounds all its points** - Comparisons for `Fl r`; exact arithmetic for the diagonal sums.
* **C48 LineString normalisation is canonical** - List lemmas on top of C14/C15.
* **C49 equals_exact is reflexive, symmetric and implies equal shape** - List induction.
* **C50 Geometry copies, reversals and coordinate extraction are total and faithful** - Models with explicit panics; positive theorems for the working classes, negations for the others.
* **C51 Cached envelopes equal recomputed envelopes** - Invariant over call histories.
* **C52 Integer and float helper functions meet their contracts** - Exact / integer arithmetic; counterexamples where the code is wrong.
* **C53 Linear solver returns only true solutions and reports singular systems** - Model with explicit panic; theorem that it panics on regular systems; None cases.
* **C54 3D point to segment and segment to segment distances are minimal** - Real arithmetic; counterexample for the degenerate case.
* **C55 Packed and array sequences behave like an array of ordinate tuples** - Refinement to a matrix of ordinates.
* **C56 Rectangle test is exact** - Decision logic for `Fl r`.
* **C57 Removing repeated or invalid points leaves only valid, distinct neighbours** - Loop models of the array filters against list filters and stutter collapse; the first point as exception, with witness.
* **C58 Enforcing a consistent dimension does not lose ordinates** - Loop model against a map over the coordinates; the lost measure as witness.
* **C59 Array envelope is the least covering envelope and clips exactly** - Fold of the expand function (C02) and a list filter.
* **C60 Equality of sequences is an equivalence** - Loop model against agreement of all ordinates in both dimensions; laws by induction.
* **C61 Minimum of a sequence is the first smallest coordinate** - Loop invariants for the least coordinate and its first index.
* **C62 Searching, scrolling to a coordinate and extending sequences** - Loop invariants; `List.rotate` and padding.
* **C63 Double-double sum and product of two doubles are exact** - The code of the double-double sum and product step by step in binary64; each step is shown exact (Sterbenz, Dekker splitting, two-sum) on multiples of an ulp.
* **C64 The sign of a double-double sum or difference is exact** - The rounded steps of the pair sum are followed with error terms; the sign is settled by comparing ulps.
* **C65 The orientation of grid points is exact in floating point** - C30 for the filter, C63 for the differences and products, C64 for the final sign.
* **C66 Ring and segment predicates are exact on grid points in floating point** - A simulation relation between two arithmetics that agree on comparisons and on the orientation index, carried through every loop.
* **C67 Accuracy of double-double products and of the orientation of arbitrary points** - Error bound of the pair product from C63; the determinant from C64 and the bound; two concrete triples for the converse.
* **C68 Geometries created by the factory hold the coordinates they are given** - Models of the creation functions composed with the accessors of C50; the multi point loop by a loop invariant over the rows of the sequence.
* **C69 Area and length of polygons** - The model of the geometries calls the area and length functions; folds over the holes are turned into sums and the laws for single rings (C33, C35) applied to each.
* **C70 Quasirandom sequence** - Induction on the number of steps for the values; irrationality of the square root of five and Dirichlet's approximation theorem for density; multiples of a power of two for exactness in binary64.
* **C71 Ends, closure and boundary of lines** - Loops with early return become quantifiers over the list of lines.
* **C72 Base packed sequences hold nothing** - Invariant over the list of calls.
* **C73 Rounding double-double numbers to whole numbers is exact in binary64** - Binary64 pairs: a high part that is not whole is below 2^53, so its neighbouring integers are doubles and rounding is monotone; else the low part is rounded.
* **C74 Double-double sums and differences are accurate to one part in 2^101, even under cancellation** - Both two-sums are exact; two roundings remain. If the high parts cancel, their sum is exact and so is the first of them; if the second sum is inexact it has not cancelled (Sterbenz).
* **C75 Double-double quotients and reciprocals are accurate to one part in 2^100** - The product of quotient and divisor is found exactly (C63); the errors of the five operations on the remainder are each a part in 2^53 of it.
* **C76 Square roots of double-doubles are accurate to twice the precision of a double** - Binary64 error analysis of one Newton (Karp) step with the exact product and sum lemmas; specification in rationals, and over the reals with Real.sqrt.
* **C77 Powers of double-doubles lose at most one part in 2^99 for each unit of the exponent** - Invariant of repeated squaring: accumulator and square carry an error linear in the exponents they hold; finiteness of the result is propagated back to all factors.
* **C78 Coordinates keep what is stored in them and compare as documented** - Record laws for an arbitrary scalar; tolerance laws in binary64 through gradual underflow (a difference of two doubles rounds to zero only if they are equal) and symmetry of rounding.
* **C79 Determinants of doubles are accurate and their signs exact** - The products of doubles are exact pairs (C63); the difference of pairs has an exact sign (C64) and a relative error below 2^-101 (C74).
* **C80 Rounding to a precision model in binary64 is monotone, accurate and idempotent below 2^51 cells** - Error bounds of binary64 division and multiplication; an integer below 2^51 is recovered from its rounded quotient; witnesses by kernel computation.
* **C81 Simple rings: orientation, area, inside and outside agree** - Parity of the crossings with the right ray along the ring: moving along a segment changes it only at edges met; around each corner the parity on the left of the two edges agrees; hence the directions of the edges alternate on every height, which gives the sign of the area slab by slab, and the top fixes the parity.
* **C82 Centroids of polygons with simple rings** - Slab by slab as in C81: the moment of a function of the height is the sum of integrals of products of two affine functions that are not negative (Simpson's rule is exact); other directions by turning the plane.
* **C83 Angles in double precision** - Induction on a bound for the number of steps: below 2^56 a rounded step moves by at least 2, above it by nothing; steps below 64 are exact because 2 pi is a multiple of 2^-47.
* **C84 Boxes and midpoints in double precision** - Model of Env over Fl (binary64 sq hy); rounding is monotone also across overflow, fixes binary64 numbers and does not send the difference of distinct binary64 numbers to zero (gradual underflow); doubling is exact.
* **C85 Intersections of grid points in double arithmetic** - Lemmas/DDInt.lean shows that double-double sums and products are exact on multiples of 2^e below 2^(e+99). The numerators and the denominator of the formula stay in that range for 32-bit grids, so only the final division is inexact, and C75 bounds its error by 2^-100, which makes the high part a faithful rounding. Faithful roundings stay between the ends of the segments, so the fallback to the nearest end point is never taken. The reported points without proper crossing are compared with the real model by the simulation of C66.
* **C86 What the segment intersector guarantees in every arithmetic** - Case analysis of the branches of compute_intersect with the orientations and box tests generalised; the nearest end by induction over the four candidates with the transitivity of the comparison of extended rationals.
* **C87 Ring areas in binary64: error bound, exactness on coarse grids, and the limit** - model: Model/Area over binary64 (`B64`, any sqrt/hypot). Proof: running error induction over the loop with the bounds |fl(z)-z| <= u|z| (+eta for products and the final division), exactness by the invariant that every partial sum is a 53-bit multiple of 2^(2g); the sliver by kernel evaluation.
* **C88 Lengths and distances in binary64** - model: Model/RingAlgorithms Length.ofLine and Coord.distance over binary64 with a hypot of assumed accuracy. Proof: rounded differences change the hypotenuse by at most a factor 1+-2^-53, then a running error induction over the segments; the partial sums never decrease because rounding is monotone; the reversal by kernel evaluation of each rounding.
* **C89 Names, codes and dimensions of geometries** - model: Model/Kinds (constants and getters) with Model/Geometries. Proof: case analysis over the kinds; the boundary claims from C71.
* **C90 Distances of grid points to segments in double precision** - model of C36 and C37 in `B64`; products and sums of 24-bit ordinates are exact, the rounded quotient is on the right side of 0 and 1, then relative errors of abs, product and root; for two segments the Boolean decision agrees with the real one and the minimum keeps the relative error; NaN witness evaluated in the kernel for every library
* **C91 Squares and square roots of doubles in double-double arithmetic** - `C63_product` for the square, `C76` for the root; a number within 2^-60 of a double is rounded to that double
* **C92 Positions along segments in double precision** - case analysis of IEEE values for the fraction; monotonicity of rounding for the order and the boxes; exact sums and `ratio64` of C90 for the factor; relative errors of the two distances for the choice of end; kernel evaluation for the exceptions
* **C93 Triangles in double precision** - Exact operations on grids (sizes in bits add up), one or two roundings for quotients; monotone rounding for signs and boxes; kernel evaluation for the exceptions.
* **C94 Point in ring in every arithmetic and for arbitrary doubles** - Fold over the edges with an invariant; the filter theorem of C30 for edges the line through the point meets, everything else is comparisons; parity of straddling edges for the point on the left.
* **C95 Heights of the points where segments meet** - Case analysis of the intersector in every arithmetic, giving each reported point as an end or the crossing; over the reals combined with C38 (positions and interpolation along a segment).
* **C96 Line segments as sets: extents, equality, offsets and lines** - Order keys for the comparisons; parameters of points for the sets; C37-C40 for distances, intersections and offsets of points.
* **C97 Comparing geometries with a comparator, normalising polygons, coordinates on lines** - Lexicographic orders over the comparator of C21; the loop over holes by induction.
* **C98 Vectors in double precision** - Symmetry of rounding for the laws; error analysis of binary64 for products, lengths and quotients.
* **C99 Ring orientation and points on lines for arbitrary doubles** - Simulate the scan of the ring test over doubles by the scan over rationals (the invariant of isCCW_any), so that both find the same cap; compare the one orientation index there by C30/C67 and the one difference of abscissae by gradual underflow. For segments both products zero give index zero even after overflow.
* **C100 Segment intersection for arbitrary doubles** - Generalise the simulation of the intersector used for grids (C66, C85) so that it needs only the orientations actually used by the given pair of segments; supply these from C99's margin, and orders, equalities and signs of differences from the doubles themselves.
* **C101 Convex rings, triangles and rectangles** - Convex rings are simple, so C81 applies: segments from the middle of an edge to a point on its right, or to a point on the left of all edges, meet the ring only at their start; points on the line of an edge but off the ring are joined to a point on the right of it, and to an inner point if they are on the right of no edge, a contradiction. Centroid from C82. Triangles and rectangles by the signs of their three or four determinants.
* **C102 Double-double constants and decimal magnitudes** - Bounds of π to 32 decimals by the series of arctan (Machin's formula), of e by the factorial series, and nearest doubles from them; magnitudes by bounds of the rounded quotient of logarithms, which rounding cannot move across an integer unless within the stated distance.
* **C103 Significant digits of fixed precision models** - Bounds of the quotient of computed logarithms, barriers that are doubles between it and the integers, and monotonicity of rounding and ceiling.
* **C104 Texts determine what they show** - Separators do not occur in texts of numbers, so a text is split at its first separator; induction over the sequence.
* **C105 Creating and copying coordinate sequences** - One invariant for all copying loops: after k steps the first k elements are copied and the others are as before. Clamping by cases.
* **C106 Counting ray crossings segment by segment** - Induction over the segments given: the count grows by the crossings and the mark is set by the first hit. Permutations keep both; omitted segments neither cross nor hit. The parity of the sum over rings is the parity of the number of rings with odd count, which C31 ties to being inside.
* **C107 The exact extent of exceptions** - Case distinction on the faulty condition; each side by the positive theorem of the earlier claim or by direct computation. The integer part by quotient and remainder.
* **C108 Centroids of integer polygons in double precision** - Invariant: after k triangles the sums are integers of at most k times 8 M^2 and 24 M^3, so every operation is exact in 53 bits; the orientation of rings is exact by C66. The sums are those of C46 by the fan identity; the two quotients by the relative error of rounding normal numbers.
* **C109 The exact extent of further exceptions** - For the segments: the gap is a quadratic form, so it shrinks on the way from any pair of points to the least pair of the lines; on this way one of two edges of the parameter square is passed first, and the code looks at one of them only. The rest from the theorems of C17, C18, C20, C45, C47 and C49.
* **C110 Envelopes of packed sequences, coordinates handed out by lines and points** - The loop by induction on the turns left, with the number of turns as a parameter; agreement with the array sequence by induction on the coordinates, from C55_packed_getCoordinate and C105_packed_array.
* **C111 Distances in space in double precision** - All products are exact on the grid, parameters are correctly rounded quotients and fall on the same side of 0 and 1 as the exact ones; the way between the two points is a multiple of 2^(g-104), so nothing underflows; then C54 and C109 in real arithmetic.
* **C112 Triangles do not depend on the order of their vertices** - Triangle values with delegating methods; invariance under a rotation and a swap generates all orders; similarities act on squared distances and determinants; doubles by commutativity of rounded operations and C93.
* **C113 Lengths, radii, centres and areas in space of triangles in double precision** - Forward error analysis with a pair of bound and error (Ap) through each rounded operation; exact differences and cross products by C93/C111.
* **C114 The exact extent of exceptions with NaN, heights and measures** - Case analysis on the first pair that differs; per-axis invariant of the envelope fold; invariants of the scan for kinds; index arithmetic.
* **C115 The accuracy of circumcentres in double-double arithmetic** - Exact pairs of C85 for the differences, squares and determinants, C75 for the quotients and C74 for the sums; C41 for the exact circumcentre.
* **C116 Homogeneous coordinates and plain intersection formulas in double precision** - Bit counts of the terms of the formulas; the quotient is the only rounding of the homogeneous formula.
* **C117 Projecting on, reflecting in and offsetting from a segment in double precision** - Every intermediate value carries a bound on its size and its error in units of 2^-52 of that size; the operations of the code add the errors up.
* **C118 Distances between points, segments and chains for arbitrary doubles** - Every intermediate value carries a bound on its size and its error; where the computed branch differs from the exact one, the ratio is close to the boundary between the two and so are the distances; segments whose computed crossing is wrong pass close to an end of one of them.
* **C119 Octagonal envelopes in double precision** - Rounding is monotone, so the rounded extremes bound the rounded values of everything in between; errors of the sums and of the product with the root are added up.
* **C120 Centroids of lines and polygons for arbitrary doubles** - Running sums over segments and triangles carry an error proportional to their number and to the sum of the sizes of the terms; then a quotient of two such sums.
* **C121 Crossing points of lines and segments for arbitrary doubles** - Pairs of doubles with an error relative to their size through differences, products and the quotient; the numerators in terms of the common point; a point that leaves a box is close to an end because the error is small against the extents.
* **C122 Heights of crossing points in doubles** - Errors of the squared lengths relative to their size plus an underflow term, of their quotient, its root, the product and the sum; displacement of the point by the triangle inequality.
* **C123 Distances in space for arbitrary doubles** - Relative errors of differences, squares and sums; the parameter with an error relative to the quotient of the sizes; cutting off and moving along the segment are contractions.
* **C124 Triangles of arbitrary doubles** - Values with error bounds relative to the sizes of the sides; quotients by a determinant that is not small against the product of the sides; the circumradius bounds the sides.
* **C125 Circumcentres in double-double arithmetic for arbitrary doubles** - Pairs with error bounds through differences, squares, determinants and the quotient; uniqueness of the circumcentre; the sides are at most twice the circumradius.
* **C126 Plain intersection formulas for arbitrary doubles** - Values with error bounds relative to the sizes of the operands; the quotient by a determinant that is not small; the middle of the common extents is a double between the points.
* **C127 Directions and angles for arbitrary doubles** - A direction is stated with cosine and sine of the exact vector, a turn with scalar and cross product. Relative errors of the differences turn the direction by less than their size; differences of angles by the bounds of C83.
* **C128 Degrees, snapped sines, projections and rotations for arbitrary doubles** - Relative errors of the products and quotients, with an absolute part for underflow; the sine is Lipschitz.
* **C129 Sizes of boxes and polygons in double precision** - Induction over the rings with the accumulated relative error, on top of C87 and C88; monotone rounding for the extents; the gaps of boxes as differences of two doubles.
* **C130 Predicates on doubles are right away from a tiny neighbourhood** - An undecided orientation (C67, C99) has a determinant below 2^-100 of its products; that bounds the distance from the line, and for a point in the box of a segment, or beside it, the distance from the segment. For two segments, points of each near the line of the other and boxes that meet give points of the segments near each other.
* **C131 Closest points of segments are accurate for arbitrary doubles** - The computed fraction is accurate relative to the quotient of the size and the length of the segment (C118), which bounds the error of the projected point; points projected past an end fall back to the nearer end, whose distance differs by the same error. A pair is the best of four such candidates by computed distances (C118); a common point that was missed is near an end (C130).
* **C132 Crossing points rounded to a precision model** - C86 reduces the report to rounding the point reported without a model; C38 and C85 give that point, C28 and C80 the rounding. A monotone rounding that keeps the ends keeps what is between them.
* **C133 The relations of a DE-9IM matrix are statements about the point sets** - A cell is -1 exactly if the parts are disjoint; since the three parts divide the space, a subset is a geometry of which no part meets the other exterior. Observations: induction over the list with the maximum.
* **C134 Exactly which calls abort** - A loop returns exactly if every round does, with an invariant on lengths (returns_range_iff); every call is brought to reads, writes and subtractions whose exact conditions are known.
* **C135 Exactly which calls on matrices, coordinate lists and numbers abort** - The toolkit of C134; the characters read as a dimension are found by cases on the code; integer quotients and remainders by their absolute values.
* **C136 An intersector used again and again** - Frame property of one call by cases, then induction over the history.
* **C137 Mirror images are computed exactly** - Sign lemmas for every operation of the arithmetic and of double-double numbers, then by unfolding; a vanishing denominator gives NaN either way. Loops by a correspondence of rounds.
* **C138 Which segment or end is named first** - Sizes of all intermediate results bound overflow away; the error of a rounded sum is then exact and so independent of the order, which makes double-double sums commutative and differences change sign with the order. The intersector by cases.
* **C139 The unit of length does not matter** - Each intermediate result is a multiple of a known power of two below a known bound in both units, so that no rounding is subnormal or overflows; rounding of normal numbers commutes with powers of two. This relation is carried through all operations; comparisons are then the same.
* **C140 What was handed in is read back** - Evaluation of constructors and accessors for all arguments; loops by the lemmas of C68, C105 and C55; octagonal envelopes by C47; division by one is exact for doubles; angles by the polar form of complex numbers.
* **C141 Points added along edges, and rings cut along a chord, change nothing but the number of points** - Sums over edges are unchanged when cutting an edge does not change them (induction on the number of added points); the crossings of a cut edge add up to that of the whole; directions by a normal form of rings around their last top, kept by each added point; locations by C31, areas by C33, lengths by C35, centroids by C46, doubles by C66 and C87. The crossings of two pieces add up to those of the whole plus twice the chord.
* **C142 No system of coordinates is preferred** - Parity of crossings: for the exchange of the axes and for turning up into down, the parity of an edge changes by a function of its two ends (the quadrant between the two rays, or the ray itself), which cancels around a closed ring; maps that keep horizontal lines upwards and rightwards change no crossing; every invertible matrix is a product of these. Locations then by C31, areas and moments by sums that telescope (C33, C46), directions of simple rings by C81, segments by C38, distances by C35 to C37, doubles by C66.
* **C143 The locator and the intersector agree: walking from point to point** - An affine map makes the segment horizontal (C142); then each edge crossed by the ray from exactly one of the two points meets the segment and no other edge does, by cases on the heights of its ends; the rest is counting. Straight lines are turned upright in the same way. Intersector by C38, doubles by C66.
* **C144 Different ways of asking the same question agree: distance, location, intersection, triangle** - C143 gives an edge met between points of different location, or a corner is on the way; the rest from the exact meanings of each function (C31 to C34, C36 to C38, C41) and the triangle inequality; the sum of triangles telescopes; doubles by C66 and C93.
* **C145 Boxes are sound filters** - A point moved across the line leaves the ring (C143), so the way there meets the ring (C144), which is only possible at the point itself. Distances by C06, C36 and C37. Length: a line that visits two corners between its ends travels at least so far in each coordinate, and Minkowski's inequality adds up the two. Doubles by C66.
* **C146 Small changes of the input change little** - Corresponding points of moved segments are no further apart than the ends (triangle inequality), then the exact meanings C35 to C37. Area: twice the difference is the sum of the quadrilaterals between edges and moved edges, each two cross products. Location: the quadrilateral between an edge and the moved edge consists of two triangles, neither of which has the point, so the parities of the crossings telescope. Rounding by C28.
* **C147 Lines put together, parts of lines, and points left out** - The segments of a joined line are those of the parts; the exact meanings C36, C32 and C35; the triangle inequality for a point left out; envelopes by the least-box property C59 and the join C05.
* **C148 Centroids of things put together** - The sums of the centroid are additive over segments and rings (C46); with simple rings each weight is the area (C81), so the moments of the parts add up; positive combinations of strict inequalities for half planes (C82).
* **C149 Rings in each other** - A line that does not meet a ring keeps its location along each edge (C81). From a point inside, go to the nearest point of the inner ring (C36): nothing of the inner ring is met before, so the outer ring, which is outside the inner one, is not met. Two rings cannot be inside each other, since the highest vertex of each would be lower than that of the other (C145). Doubles by the simulation on grids (C66).
* **C150 Triangle inequalities for distances** - The exact meanings as least distances (C06, C36, C37), the triangle inequality of the plane, and induction along the line.

## Where the code does not do what its users expect

Each item is a theorem about the model with a concrete witness, or for all inputs if it says "always".

* Adding a list of coordinates backwards to a CoordinateList always panics (`C10_backward_always_panics`).
* `close_ring` of a list starting with NaN grows it at every call (`C11_nan_grows`).
* `scroll` with the ring flag overwrites a single point by (0,0) (`C13_scroll_ring_edge`).
* `CoordinateArrays::extract` never extracts (`C17_extract_never_extracts`).
* Reversing an array sequence leaves the measures where they were (`C18_measures_not_reversed`); `ensure_valid_ring` loses them
  (`C20_measures_lost`), or turns them into heights for packed sequences (`C20_packed_measure_becomes_z`).
* The east half plane test is wrong (`C27_east_half_plane_wrong`).
* The single precision model does not round (`C28_floating_identity`); a floating model is not equal to itself (`C28_floating_not_equal_itself`).
* Very small and very large triangles are called collinear (`C30_underflow`, `C30_overflow`); below 2^-100 of the products collinear points are
  reported as turns and left turns as right turns (`C67_collinear_missed`, `C67_wrong_turn`).
* Three points on a line can have the orientation 0 one way and 1 with the first two exchanged, so that whether two segments meet can depend on
  which end of a segment is named first (`C138_ends_matter`).
* An open line given to the point in ring test can miss its last point (`C31_open_end_missed`).
* The orientation of a ring that touches its greatest height several times can depend on the start (`C34_start_matters_with_two_tops`).
* `diff` of angles more than a turn apart can be negative (`C43_diff_out_of_range`); an infinite angle never ends (`C43_infinite_angle_diverges`).
* NaN as DD is equal to everything (`C44_nan`).
* Centroids of polygons with empty parts panic (`C46_empty_parts`).
* A null octagonal envelope meets the origin (`C47_null_intersects_origin`); including a null envelope adds points (`C47_null_envelope_adds_points`).
* Symmetric lines with heights are not normalised to one form (`C48_heights_not_normalized`).
* Collections cannot be copied or reversed (`C50_collections_never_copied`, `C50_collections_never_reversed`), always.
* A cached envelope with NaN can go stale (`C51_nan_stale`).
* A segment intersector hands out points left over from earlier computations: the second point after a single intersection, and any
  point after `compute_intersection_3` (`C136_left_over`).
* `wrap` at negative multiples, `ceil` for negative denominators and `shuffle` (always panics) are wrong (C52).
* The linear solver never returns a solution (`C53_never_solves`), always.
* Segment to segment distance in space can be too large (`C54_corner_not_least`) or NaN (`C54_second_point_nan`).
* In doubles a point on a segment in space need not have distance 0 from it: (1,0,0) and the segment from (0,0,0) to (49,0,0) give 2^-53 (`C111_on_segment_not_zero`).
* Packed sequences built from coordinates panic (`C55_packed_from_coordinates_panics`).
* The valid-point filter never checks the first point (`C57_first_point_not_checked`).
* A multi point made from a sequence without heights loses the measures (`C68_multi_point_measures`); rings are accepted without any check (`C68_ring`).
* The area of a polygon with holes outside its shell can be negative (`C69_negative_area`).
* A line that retraces itself is a ring (`C71_ring_not_simple`).
* Base packed sequences can never hold a point (`C72_always_empty`), always.
* The floor of a double-double number just below a whole number is not normalised: the floor of 5 - 2^-60 compares greater than 4, and `int_value` of the number is 5 (`C73_floor_not_normalised`, `C73_int_value_wrong`).
* Coordinates without heights are not equal within any tolerance in space, and infinite coordinates are not within tolerance of themselves (`C78_missing_heights`, `C78_tolerance_zero`).
* The sign of a determinant is lost when its products underflow, and parallel directions are missed when they overflow (`C79_limits`).
* Rounding by a fixed precision model is not idempotent from 2^51 cells on, and can overflow to an infinite ordinate (`C80_not_idempotent`, `C80_overflow`).
* `Envelope::centre` and `LineSegment::mid_point` overflow for coordinates above half the largest double: the centre of the box of one such point is infinite and not in the box. `get_area` of a box with finite sides can be NaN (infinite width times zero height) and can be zero for a box with distinct sides (`C84_centre_overflow`, `C84_area`).
* `normalize` and `normalize_positive` of an angle above 2^56 in size never end (`C83_never_ends`), always: subtracting a turn changes nothing any more.
* In binary64 the area of a thin triangle can have the wrong sign (`C87_sliver`).
* The distance of an endpoint to its own segment is NaN if the segment is shorter than about 2^-540 (`C90_underflow`).
* `point_along(1)` can miss the end and leave the box of the segment, `point_along(0)` is NaN if the extent overflows (`C92_end_missed`), and `closest_point` can return the farther end (`C92_wrong_end`).
* A triangle of 28 bit integers that turns can have the area 0, a left turning triangle the signed area of a right turn although `is_ccw` is right, and the centroid of a triangle can lie outside its box (`C93_area_wrong`, `C93_centroid_moves`).
* Point in ring: a point whose x is NaN is reported on the boundary if the ring crosses its height; a point left of all ring points is reported on the boundary if a product underflows; an inner point very near an edge is reported on the boundary (`C94_nan_x`, `C94_left_underflow`, `C94_near_edge`).
* The height reported where two segments share an end depends on their order: the first segment's height if they meet at an angle, the second one's if they continue each other (`C95_order_matters`).
* Enlarging an envelope by a packed sequence of dimension zero that holds numbers never ends (`C110_ends`), and numbers after the last
  whole coordinate are taken for a point (`C110_remainder`).
* Offsets of a segment of zero length are not numbers instead of an error (`C96_offset_degenerate`); normalising a polygon panics on rings of one coordinate (`C97_normalize_polygon`).
* Three-dimensional lengths overflow and underflow through their squares at 2^600 and 2^-600; normalising such coordinates gives infinity and NaN; the average of the smallest double with itself is 0 (`C98_length3_limits`, `C98_average_tiny`).
* A thin clockwise triangle of doubles is reported counterclockwise; a point on a segment can be reported off it in one direction of the segment and on it in the other; a point off a segment can be reported on it (`C99_thin_triangle`, `C99_on_segment_missed`, `C99_on_segment_near`).
* Disjoint segments of doubles can be reported to cross properly, and properly crossing ones to be apart (`C100_limits`).
* `DD::magnitude` panics for every number below 1 in size, zero included, and from about 10^9 on (`C102_magnitude_panics`); an infinite scale makes `get_maximum_significant_digits` panic, and a power of ten can count one digit too many (`C103_digits_extremes`, `C103_digits_limits`).
* Texts of coordinates do not show the measure (`C104_coordinates`). A three-dimensional sequence from the factory becomes two-dimensional if it is made again from its coordinates, and `create_double_from_coordinate_sequence` panics on every non-empty sequence (`C105_height_lost`, `C105_from_sequence`).
* The ray crossing counter misses a topmost vertex if its segments are given with that vertex first, although the documentation leaves the order of the ends open (`C106_top_missed`).
* Centroids of polygons with large coordinates lose accuracy by cancellation between the triangles of the fan: that of a corridor of integers below 2^30 is more than 18 units off (`C108_corridor`).
* The distance of two segments in space could be repaired by also taking the distances of the ends of the second segment to the first (`C109_segments_in_space`). An octagon that is null still answers about points (`C109_null_octagon`).
* The area of a triangle depends on the order of its vertices in double precision: for integers of 28 bits it is 0 in one order and 1/2 in another; with a NaN vertex the longest side is NaN or a number depending on the order (`C112_order_matters`).
* The plain circumcentre finds no finite centre for a proper triangle of 31 bit integers (`C115_plain_fails`), the homogeneous and the conditioned intersection no common point of two such lines that are not parallel (`C116_limits`); double-double arithmetic reports a common point of parallel lines of doubles (`C121_limits`) and no finite circumcentre of a proper but very flat triangle (`C125_too_flat`).
* Segments that touch can get a positive distance (`C118_not_relative`), a segment whose squared length underflows has no distance from its own middle (`C123_underflow`), interpolated heights can leave the range of the heights of the segment (`C122_leaves_range`), octagons accept points slightly outside (`C119_slack_needed`), the centroid of a polygon without area can be far away (`C120_without_area`), a nearly right but acute triangle is called not acute (`C124_nearly_right`).

## Which code is modelled

Every function of a file is modelled unless it is named in the last column (found by comparing the citations in `Model/` with the function
definitions in /repo). What is left out are accessors that only read or write a field, constructors that only fill fields (both appear as field accesses in the model), text output, and what is explained
below the table.

| file (src/core) | functions cited | model | not modelled on their own |
|---|---|---|---|
| algorithm/angle.rs | 17/17 | Angle |  |
| algorithm/area.rs | 4/4 | RingAlgorithms |  |
| algorithm/centroid.rs | 18/18 | Centroid |  |
| algorithm/cg_algorithms_3d.rs | 3/3 | Distance3D |  |
| algorithm/cg_algorithms_dd.rs | 7/7 | Orientation |  |
| algorithm/distance.rs | 5/5 | Distance |  |
| algorithm/hcoordinate.rs | 11/11 | Intersection |  |
| algorithm/intersection.rs | 3/3 | Intersection |  |
| algorithm/length.rs | 1/1 | RingAlgorithms |  |
| algorithm/line_intersector.rs | 0/0 | LineIntersector |  |
| algorithm/orientation.rs | 4/4 | Orientation, RingAlgorithms |  |
| algorithm/point_location.rs | 5/5 | RingAlgorithms |  |
| algorithm/ray_crossing_counter.rs | 8/9 | RingAlgorithms | `get_count` |
| algorithm/robust_line_intersector.rs | 18/18 | LineIntersector |  |
| geom/coordinate.rs | 28/37 | Coordinate, Texts | `new_coordinatexy_default`, `get_x`, `set_x`, `get_y`, `set_y`, `get_z`, `set_z`, `get_m`, `set_m` |
| geom/coordinate_array_sequences.rs | 16/16 | Sequences |  |
| geom/coordinate_arrays.rs | 25/26 | CoordinateArrays | `new` |
| geom/coordinate_list.rs | 10/13 | CoordinateList | `default`, `get_coordinate`, `to_coordinate_array` |
| geom/coordinate_sequence_comparator.rs | 4/5 | Sequences | `new_with_dimension_limit` |
| geom/coordinates.rs | 5/5 | Coordinates |  |
| geom/dimension.rs | 2/2 | IntersectionMatrix, Kinds |  |
| geom/envelope.rs | 44/48 | Envelope, Texts | `get_min_x`, `get_max_x`, `get_min_y`, `get_max_y` |
| geom/geometry.rs | 1/1 | Coordinates, Geometries, Kinds |  |
| geom/geometry_factory.rs | 17/17 | Centroid, Geometries, GeometryFactory |  |
| geom/implementation/coordinate_array_sequence.rs | 22/27 | SequenceFactories, Sequences, Texts | `new_with_coordinates_dimension_measures`, `create_coordinate`, `create_coordinate_default`, `get_dimension`, `get_measures` |
| geom/implementation/coordinate_array_sequence_factory.rs | 2/4 | Sequences | `create_from_coordinates`, `create_from_coordinate_array_sequence` |
| geom/implementation/packed_coordinate_sequence.rs | 18/20 | PackedBase | `get_dimension`, `get_measures` |
| geom/implementation/packed_coordinate_sequence_double.rs | 12/16 | SequenceFactories, Sequences | `get_raw_coordinates`, `get_coordinate_by_index`, `get_dimension`, `get_measures` |
| geom/implementation/packed_coordinate_sequence_factory.rs | 6/6 | SequenceFactories, Sequences |  |
| geom/intersection_matrix.rs | 28/28 | IntersectionMatrix |  |
| geom/line_segment.rs | 41/41 | LineSegment |  |
| geom/line_string.rs | 27/27 | Geometries, GeometryFactory, Kinds |  |
| geom/linear_ring.rs | 21/22 | Geometries, Kinds | `get_coordinate_at_index` |
| geom/location.rs | 1/1 | IntersectionMatrix |  |
| geom/multi_line_string.rs | 13/13 | Geometries, Kinds |  |
| geom/multi_point.rs | 18/19 | Geometries, Kinds | `get_precision_model` |
| geom/multi_polygon.rs | 18/18 | Centroid, Geometries, Kinds |  |
| geom/octagonal_envelope.rs | 20/28 | OctagonalEnvelope | `get_min_x`, `get_max_x`, `get_min_y`, `get_max_y`, `get_min_a`, `get_max_a`, `get_min_b`, `get_max_b` |
| geom/packed_coordinate_sequences.rs | 16/16 | Sequences |  |
| geom/point.rs | 22/22 | Geometries, Kinds |  |
| geom/polygon.rs | 32/32 | Centroid, Geometries, Kinds |  |
| geom/position.rs | 1/1 | Position |  |
| geom/precision_model.rs | 13/15 | PrecisionDigits, PrecisionModel, Texts | `get_scale`, `get_type` |
| geom/quadrant.rs | 6/6 | Quadrant |  |
| geom/triangle.rs | 30/30 | Triangle, TriangleObject |  |
| math/dd.rs | 60/66 | DD, DDConstants, Texts | `default`, `new_hi_lo`, `new_from_dd`, `copy`, `copy_self`, `set_value_dd` |
| math/matrix.rs | 3/3 | Matrix |  |
| math/vector_2d.rs | 26/34 | Angle, Texts, Vectors | `new_from_xy`, `new_from_vector_2d`, `create_from_xy`, `create_from_vector_2d`, `create_from_coodinate`, `create_from_coordinate_from_to`, `get_x`, `get_y` |
| math/vector_3d.rs | 14/20 | Texts, Vectors | `new_from_xyz`, `create_from_xyz`, `create_from_coordinate`, `get_x`, `get_y`, `get_z` |
| util/math_util.rs | 12/12 | MathUtil |  |
| util/number_util.rs | 1/1 | Coordinate |  |

Not modelled: `fmt`/`to_string` (text output), hashing, user data. Parsing and printing of DD numbers are commented out in the source.
`packed_coordinate_sequence.rs` can hold no points at all (C72); the version for doubles is the one in use.

## Axioms of the theorems

As printed by `#print axioms` for every theorem of MANIFEST.json.

* propext, Classical.choice, Quot.sound: all theorems not listed below (934).

* propext, Quot.sound (70): C03_expand_null, C03_null_iff_no_point, C04_intersects_iff_common_point, C04_intersectsXY_eq_coversXY, C04_intersectsXY_nan, C05_covers_iff_subset, C05_covers_partial_order, C05_expand_is_join, C09_intersects3, C09_intersects4, C10_range, C13_scroll_rotation, C13_scroll_ring_edge, C13_isRing, C17_copyDeep, C17_copyDeepTo_partial, C17_copyDeepTo_panics, C17_extract_never_extracts, C17_extract_panics, C25_setAtLeast, C26_value_iff, C28_coordinate, C28_floating_identity, C35_sum, C36_chain_empty, C38_missing_height, C41_circumradius_flat, C42_translate, C43_diverges, C47_expand_valid, C49_point_decides, C50_num_points, C50_coordinates_partial, C50_empty_shell, C50_copy, C50_collections_never_copied, C50_collections_never_reversed, C50_copy_loses_precision, C52_clamp, C52_clampMax, C52_tolerance, C52_shuffle_always_panics, C53_never_solves, C53_no_rows_panics, C53_swap_rows, C53_swap_right_sides, C55_array_bad_ordinate, C55_packed_out_of_range_partial, C55_packed_ordinate_overrun, C57_atLeastN, C58_enforce_keeps_xyz_partial, C58_consistent_unchanged, C58_measure_lost, C59_intersection, C68_polygon, C68_polygon_coordinates, C68_multi_polygon, C72_new, C78_constructors, C78_ordinate_other, C89_index, C105_copies, C105_height_lost, C105_packed_factory, C105_expand_envelope, C109_extract, C114_packed_ordinate, C140_segments, C140_sized, C140_line_init.

* propext (33): C01_compareTo_ignores_zm, C01_nan_breaks_order, C01_nan, C02_expand_overloads, C10_backward_always_panics, C21_nan_least, C22_invalid_values_shorten, C22_get_set, C28_equals_laws, C47_null, C52_clampF64_nan, C54_distance_without_heights, C55_array_out_of_range_partial, C71_position, C72_always_empty, C72_access, C72_copy, C78_copy, C78_dimension_nan, C78_kinds, C78_valid, C78_equals_3d, C78_equals_3d_equivalence, C89_codes, C89_has_dimension, C96_set, C96_extents, C96_extents_nan, C105_fill, C110_handed_out, C140_heights, C140_multi_point, C140_sides.

* none (4): C27_east_half_plane_wrong, C40_set_coordinates_ignores_heights, C68_coordinate_dimension, C140_components.

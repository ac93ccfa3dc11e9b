# Design

Subject: `brandon-kohn/Geometrix` (C++ header-only geometry library) at the pinned commit, read as text from `/repo`.
The code was not built or run. Everything is modelled in Lean 4 under `lean/Verif/`.

## Trusted base

* Lean 4.33.0's kernel and Mathlib's definitions. No axioms of our own, no `sorry`, no `native_decide`.
  `#print axioms` was run for all 898 theorems of the manifest. 800 depend on `propext`, `Classical.choice` and `Quot.sound`; the other 98 on fewer (listed at the end).
* The hand-written model. Each definition carries a comment with the file and lines it mirrors and its simplifications.
  Nothing machine-checks that the model is the C++ code. This is the part a reader must review.
* Number type. Templates are instantiated at an arbitrary linearly ordered field `K` (real or rational
  arithmetic without rounding) unless a definition says otherwise. **Floating point rounding, overflow, NaN and
  infinities are not modelled.** Theorems describe the algorithm, not the `double` instantiation. Square roots and
  trigonometric functions are taken over `Real`. Integers that the code stores in 32 bits (grid indices, colours,
  hash keys) wrap around in the model; fixed point numbers have the bounds of their integer types.
* Comparison policies. Where a function takes a `NumberComparisonPolicy`, so does its model. Most theorems are about
  the direct policy (exact comparison); C01 and C02 treat the others.
* Division. `x / 0` in Lean is `0`. No model function relies on that: each C++ division is guarded in the model and a
  zero divisor yields a distinct fault outcome (`Fault.divByZero`).
* Undefined behaviour and assertions (`GEOMETRIX_ASSERT`, out of range access, empty container access) are
  distinct fault outcomes, never a silently chosen value.
* Standard library pieces (`std::nth_element`, `std::sort`, `std::priority_queue`, `std::map`, `std::set`,
  `std::unordered_map`) are modelled by what the C++ standard promises: as arbitrary functions satisfying that promise,
  or as the list of the elements in the order of the container.
* Loops that need not end take a bound on the number of turns; running out of it is the outcome `diverges`, and the
  theorems show that it does not happen (or that it does, where the loop really does not end).
* Expression templates, concepts, traits, units of measure and adaptors are erased. A point or a vector is its
  coordinates.

## Outcomes

`Fault` enumerates the ways a call can go wrong: division by zero, failed assertion, out of range access, thrown
exception, a loop that does not end, a not-a-number result, an integer overflow. Functions that can go wrong return
`Except Fault a`. A theorem that says a call returns `ok` therefore also states that nothing went wrong.

## Layout

* `Verif/Model/*.lean`: model definitions only.
* `Verif/Spec/*.lean`: small definitions in which properties are stated. They do not mention the model's helpers.
* `Verif/Lemmas/*.lean`: helper lemmas.
* `Verif/Props/*.lean`: property theorems `Cxx_...`, each followed by an `example` showing that its hypotheses can hold.
* A theorem with the suffix `_partial` proves less than the English claim. Its comment says what is missing.
* A theorem with the suffix `_refuted` proves that the code violates the stated property, with a concrete witness.
* `seeded/LOG.jsonl`: edits of the model in the way of realistic bugs, and the theorems that noticed them.

## Properties

The statements are in `properties.jsonl`, the theorem names in `MANIFEST.json`. "proved" means that the whole statement is proved of the model.

### C01 Comparison policies are coherent and symmetric (proved)

* Code: `geometrix/numeric/number_comparison_policy.hpp: direct_comparison_policy, absolute_tolerance_comparison_policy, relative_tolerance_comparison_policy`
* Theorems: 5 in `Props/Policy.lean`
* Proof: Case analysis over an ordered field; the policies are records of five Boolean functions, so all other models take any policy.
* Scope: all four policies; negative tolerance shown to break coherence

### C02 Policy less_than can be used as a sorting predicate (partial)

* Code: `geometrix/numeric/number_comparison_policy.hpp: less_than, equals`, `geometrix/utility/utilities.hpp: lexicographical_comparer, lexicographical_compare`
* Theorems: 4 in `Props/Policy.lean`
* Proof: Order axioms for the direct policy; concrete chains of three numbers for the tolerance policies.
* Scope: true for the direct policy; the code violates it for absolute and relative tolerances (refuted); partial: irreflexive and transitive for absolute tolerance

### C03 Lexicographic point comparison is a total order (proved)

* Code: `geometrix/utility/utilities.hpp: lexicographical_compare, lexicographical_comparer, reverse_lexicographical_compare`
* Theorems: 8 in `Props/Lexicographic.lean`
* Proof: Order axioms by case analysis on the coordinates.
* Scope: also coordinate_less_compare shown to order the other way round

### C04 Segment comparator is a strict weak ordering (partial)

* Code: `geometrix/utility/utilities.hpp: lexicographical_segment_compare, segment_interval_compare`
* Theorems: 5 in `Props/Lexicographic.lean`
* Proof: The comparator is shown to be the comparator of the start points; a witness for the claim about both ends.
* Scope: strict weak ordering holds, but equivalence is equality of start points only (refuted)

### C05 Orientation predicate laws (proved)

* Code: `geometrix/algorithm/orientation.hpp: get_orientation`, `geometrix/algebra/exterior_product.hpp: exterior_product_area`
* Theorems: 6 in `Props/Orientation.lean`
* Proof: Polynomial identities; the specification is the doubled signed area `Spec.area2`.

### C06 Betweenness is membership of the closed segment (proved)

* Code: `geometrix/utility/utilities.hpp: is_between, is_collinear, is_collinear_point_between`
* Theorems: 4 in `Props/Between.lean`
* Proof: Equivalence with the existence of a parameter; the line is parametrised by `o + t v`.
* Scope: for non degenerate segments, as stated; the degenerate case is refuted

### C07 Angular sector test (proved)

* Code: `geometrix/utility/utilities.hpp: is_vector_between`
* Theorems: 1 in `Props/Angle.lean`
* Proof: Equivalence with the sector given by polar angles over the reals, by the sign of the sine.
* Scope: over the reals

### C08 Angle comparator is a strict weak ordering by polar angle (proved)

* Code: `geometrix/utility/point_angle_compare.hpp: point_angle_compare`, `geometrix/utility/vector_angle_compare.hpp: vector_angle_compare`
* Theorems: 6 in `Props/Angle.lean`
* Proof: The pseudo angle is shown to be strictly increasing in the polar angle.
* Scope: over the reals

### C09 2D segment intersection is classified correctly (proved)

* Code: `geometrix/algorithm/intersection/segment_segment_intersection.hpp: segment_segment_intersection, detail::parallel_intersection`
* Theorems: 4 in `Props/SegmentIntersection.lean`
* Proof: Both branches (crossing lines, parallel lines) against `Spec.Common`, the set of common points.
* Scope: classification and points, for non degenerate segments; touching collinear segments are reported as overlapping, degenerate segments are refuted

### C10 Line-line and line-segment intersection (proved)

* Code: `geometrix/algorithm/line_intersection.hpp: line_line_intersect, line_segment_intersect`
* Theorems: 3 in `Props/LineIntersection.lean`
* Proof: Unique solution of a two by two linear system.

### C100 Traversal of a grid guided by orientations (partial)

* Code: `geometrix/algorithm/orientation_grid_traversal.hpp: orientation_segment_traversal`
* Theorems: 2 in `Props/OrientationTraversal.lean`
* Proof: The position after n steps is the minimum of start plus n and the end, so its cell number is known. The orientation of a corner compares the times at which the segment crosses the two borders of the cell. The loop is followed by induction with the numbers of steps along the two axes; the axes are those of C36.
* Scope: Proved for all segments that do not go down within one column of cells (C100_partial). For those the index is counted up until it wraps (C100_down_refuted).

### C101 Intersection of a segment and a triangle (partial)

* Code: `geometrix/algorithm/intersection/segment_triangle_intersection.hpp: segment_triangle_intersect`
* Theorems: 5 in `Props/SegmentTriangle.lean`
* Proof: The segment is described by a parameter, in which the three sides are affine functions. The set holds exactly the ends of the part on each side and the ends of the segment that are inside; each common point has such points on both sides and none can lie strictly between two common points. For the test, two sides that have no common parameter give an axis perpendicular to the segment that separates; three intervals that meet pairwise meet.
* Scope: Points proved for counterclockwise triangles (C101_points_partial); for clockwise ones a segment inside is missed (C101_clockwise_refuted). The test is proved for all triangles with area (C101_test_partial) and never misses a common point (C101_never_misses); for flat triangles it may wrongly answer true (C101_flat_refuted).

### C102 Eberly's squared distance of two segments (partial)

* Code: `geometrix/algorithm/distance/eberly_segment_segment_distance.hpp: eberly_segment_segment_distance_sqrd`
* Theorems: 7 in `Props/EberlyDistance.lean`
* Proof: The squared distance is a convex quadratic function of the two parameters, so a point of the square where the two derivatives have the signs of a minimum is one (box_min). The signs are checked for the branches that are right; the others have witnesses.
* Scope: The code disagrees with the property (C102_crossing_refuted, C102_parallel_refuted, C102_point_refuted, C102_division_refuted). Proved where it holds: parallel segments of opposite direction, or of one direction in one order (C102_parallel_partial); lines that cross beyond both ends (C102_beyond_partial). For segments that are not parallel the result is never too small (C102_upper_partial).

### C103 Transformations between Cartesian and polar coordinates (proved)

* Code: `geometrix/space/cartesian_polar_transformation.hpp: reference_frame_transformation`, `geometrix/space/polar_cartesian_transformation.hpp: reference_frame_transformation`
* Theorems: 5 in `Props/PolarTransform.lean`
* Proof: The recursion of the templates over the dimension is a recursion on naturals. The state array is arbitrary before. The loop to polar coordinates leaves the square roots of the partial sums; going back is by induction over the dimension with r cos and r sin of atan2. For the other direction the partial sums of squares telescope by sin² + cos² = 1.
* Scope: In every dimension from 2 on; exact real arithmetic.

### C104 Equality of point sequences and polygons (partial)

* Code: `geometrix/primitive/point_sequence_utilities.hpp: point_sequences_equal`, `geometrix/primitive/point_sequence_utilities.hpp: polygons_equal`, `geometrix/primitive/point_sequence_utilities.hpp: polygon_polygon_offset`
* Theorems: 5 in `Props/SequenceEqual.lean`
* Proof: The loops are followed by induction over the number of points left; rotation is List.rotate of the library.
* Scope: Equality is proved in full for exact comparison (C104_sequences, C104_polygons), and what the offset is (C104_first). The offset is the right one if no point occurs twice (C104_offset_partial), else it may be wrong (C104_repeated_refuted).

### C105 Order of points by distance (partial)

* Code: `geometrix/algorithm/distance/distance_compare.hpp: distance_compare`
* Theorems: 2 in `Props/SequenceEqual.lean`
* Proof: The comparator compares squared distances; the laws are those of the order of numbers.
* Scope: Proved for exact comparison (C105_order_partial). False for a tolerance (C105_tolerance_refuted).

### C106 A moving sphere and an oriented box (partial)

* Code: `geometrix/algorithm/intersection/moving_sphere_obb_intersection.hpp:69-161`, `geometrix/algorithm/rotation.hpp:24-57`, `geometrix/primitive/oriented_bounding_box.hpp:29-113`
* Theorems: 4 in `Props/MovingSphereObb.lean`
* Proof: The model follows the function: the sphere and its velocity are turned into the frame of the box, the box is enlarged, and the region is found there; the segment function and the closest point function are called in the original frame. The proof shows that each of these functions commutes with rotations about the centre of the box (Lemmas/RigidMotion), so that the whole function is the one for boxes of C67 in the frame, and carries C67 over.
* Scope: Proved for axes that are turned to the left and starts more than the radius away along an axis (C106_box_partial), and for every start that the answer is that of the function for boxes in the frame of the box (C106_frame). With axes turned to the right the box is made smaller instead of larger (C106_axes_refuted); near a corner a sphere that does not meet the box may be reported at the time zero (C106_apart_refuted).

### C107 The intersection of two segments in space (partial)

* Code: `geometrix/algorithm/intersection/segment_segment_intersection.hpp:205-304`
* Theorems: 5 in `Props/SegmentIntersection3.lean`
* Proof: Both branches of the function in space are modelled. For lines that are not parallel the parameters are characterised by the vanishing of a vector that is orthogonal to the two directions and their cross product; for parallel ones all four points are written with parameters on one line and the intervals are compared.
* Scope: The common points are right for every pair with a first segment that is not a single point (C107_points). The class is right with respect to the ends of the second segment (C107_class_partial) but ends of the first segment are ignored (C107_class_refuted); a single point as first segment divides by zero, as second segment it is overlapping (C107_first_point_refuted, C107_second_point_refuted).

### C108 One coordinate from the other on the line through two points (partial)

* Code: `geometrix/utility/utilities.hpp:288-355`, `geometrix/numeric/rational_utilities.hpp:20-95`
* Theorems: 8 in `Props/LineCoordinate.lean`
* Proof: The functions are modelled over any ordered field, for integer coordinates with division toward zero, and for rational numbers with the exceptions of boost::rational as outcome thrown. The specification is the equation of the line through the two points.
* Scope: y_of_x and the rational variant are right for every line that is not vertical; x_of_y for every line that is neither vertical nor horizontal. On vertical lines x_of_y divides by zero (C108_vertical_refuted); with integer coordinates the slope is rounded (C108_integer_refuted).

### C109 The calculator of pi (partial)

* Code: `geometrix/numeric/integral_constant_pi_calculator.hpp:27-178`
* Theorems: 4 in `Props/PiCalculator.lean`
* Proof: The loops are modelled with natural numbers and with a check of the range of int at each sum and product in the inner loop. C109_decimals is by an invariant that bounds the entries of the array and the carry. The digits are computed by the kernel and compared with bounds of pi of 32 digits that are proved in Lemmas/PiBounds by the method of Mathlib.
* Scope: No overflow and p - 1 decimals up to 15000 digits (C109_decimals); the digits are right for the listed precisions up to 32 (C109_digits_partial) and wrong for all others up to 33 and for 36 (C109_digits_refuted, C109_zeros_refuted).

### C11 Ray-segment intersection overloads agree and are correct (partial)

* Code: `geometrix/algorithm/intersection/ray_segment_intersection.hpp: ray_segment_intersection`, `geometrix/algorithm/intersection/ray_line_intersection.hpp: ray_line_intersection`
* Theorems: 6 in `Props/RayIntersection.lean`
* Proof: Equivalence with a common point of `Spec.OnRay` and the segment; disagreements by witness.
* Scope: the overload with outputs is right for unit directions; the overload without outputs and ray_line_intersection are refuted outside the conditions of the partial theorems

### C110 Intersections of many segments by a sweep (partial)

* Code: `geometrix/algorithm/bentley_ottmann_segment_intersection.hpp:28-408`, `geometrix/algorithm/bentley_ottmann_sweep.hpp:19-97`
* Theorems: 4 in `Props/BentleyOttmann.lean`
* Proof: The event queue is a list in lexicographical order, the sweep line a list; comparison, insertion, removal and the search for neighbours are those of the code. To grow the flat_map beyond the reserved capacity while an event is handled invalidates the iterator and the reference to it: a distinct outcome. The proof keeps an invariant after each event: the sweep line holds exactly the segments that have begun and not ended; all ends ahead are events; each neighbour is below the next until they cross; crossings ahead of neighbours are events. From it no meeting point is passed over, and the number of possible events bounds the run. The variant of the comparison for integer coordinates is not modelled.
* Scope: Complete and sound for all vectors of segments with two different ends, including vertical, overlapping and equal ones and multiple crossings, as long as the event queue does not outgrow the places reserved (C110_sweep_partial), which holds if there are not more crossing points than segments (C110_few_crossings_partial). Eight segments can outgrow it, which moves an element that is in use (C110_capacity_refuted); a segment of one point can hide a crossing (C110_point_refuted).

### C111 Segments are linked to polylines and polygons (partial)

* Code: `geometrix/algorithm/doubly_connected_edge_list.hpp:95-122`, `geometrix/algorithm/doubly_connected_edge_list.hpp:134-223`, `geometrix/algorithm/doubly_connected_edge_list.hpp:247-277`
* Theorems: 5 in `Props/EdgeList.lean`
* Proof: The list of half edges is modelled as the points of the vertices, the edges as pairs of numbers, and the separate graph for the components. `boost::connected_components` is not part of the library; it is modelled by joining the sets that each edge touches. The theorem is proved on numbers first: each component is closed under the edges and minimal; the way along the edges cannot return to a vertex other than the first, so it goes through the whole component. Disagreements found: where two segments end at one point one of them is lost; where two start at one point the assertion fails; with a loop behind such a join the code runs forever; the copy and move constructors and both assignments drop `m_componentGraph`, so that on a copy `calculate_point_sequences` indexes an empty vector and `add_edge` with a new point fails `BOOST_VERIFY`.
* Scope: For segments with distinct starts and distinct ends. Refuted otherwise: a segment is lost, the assertion fails, or the loop does not end (C111_join_refuted, C111_fork_refuted, C111_endless_refuted). A copy of the list is not usable (C111_copy_refuted).

### C112 The orientation predicate with rounding (partial)

* Code: `geometrix/algorithm/orientation.hpp:36-49`, `geometrix/numeric/number_comparison_policy.hpp:390-434`
* Theorems: 9 in `Props/RoundedOrientation.lean`
* Proof: Every operation is followed by a rounding function `fl`, of which only monotonicity, oddness and a relative error bound are used (Spec/Rounding, `RoundsWithin`). `roundBits p` is rounding to nearest, ties to even, with `p` bits and unbounded exponent; it is proved to satisfy this with the error `2^-p`. There is no overflow, underflow or contraction to fused operations. The thin triangle of the refutation is computed by the kernel with `roundBits 53`.
* Scope: Exact for small integers (C112_integers) and for triangles that are not thin (C112_far_partial); never the wrong side for vectors (C112_vectors) and with a sufficient tolerance (C112_tolerance). With the direct comparison of double a thin triangle is reported on the wrong side (C112_side_refuted) and the answer depends on the first point (C112_cyclic_refuted).

### C113 The cells of a grid with rounding (partial)

* Code: `geometrix/algorithm/grid_traits.hpp:35-66`, `geometrix/algorithm/grid_traits.hpp:74-84`, `geometrix/algorithm/grid_traits.hpp:111-119`
* Theorems: 5 in `Props/RoundedGrid.lean`
* Proof: As C112, for the constructor of the grid, the two index functions and the box of a cell. Validity uses only that rounding keeps the order: the index of a point is computed with the same operations as the number of columns from the upper bound. Disagreement found: the box is computed by multiplication with the width and the index by multiplication with its reciprocal, so a point can be outside the box of its own cell.
* Scope: Indices are always in range (C113_valid) and grow with the coordinates (C113_order). The point is in the box of its cell only up to rounding (C113_near_partial); with double and the cell width 0.1 the point 0.3 is outside of it (C113_cell_refuted).

### C114 Squared distances and dot products with rounding (proved)

* Code: `geometrix/algorithm/distance/point_point_distance.hpp:71-82`, `geometrix/algorithm/distance/point_point_distance.hpp:126-134`, `geometrix/algebra/detail/dot_product.hpp`
* Theorems: 6 in `Props/RoundedDistance.lean`
* Proof: As C112. The bounds are the usual ones: each operation multiplies the error factor by `1 + u`.
* Scope: Without underflow and overflow. C114_cancellation shows why the bound for the dot product is not relative to its value.

### C115 The search of a mesh for visible vertices (partial)

* Code: `geometrix/algorithm/mesh_2d.hpp:280-326`, `geometrix/algorithm/visible_vertices_mesh_search.hpp:43-180`
* Theorems: 3 in `Props/VisibleSearch.lean`
* Proof: `Model/VisibleSearch` has the stack loop of `search` with the three blocks for the sides, and the visitor: the visit of a triangle, the order of the ends of a side, the test of the side against the cone and the next cone. The triangles across the sides are those of C88, the test of a vector and of a segment against a cone are those of earlier properties. Running out of rounds is the outcome `diverges`. An item on the stack that enters its triangle through a side which faces the point is described by `NInv`: the cone lies in that of the side and everything in it up to the side is in the mesh. The number of triangles with a point in the open cone beyond the side falls from item to item. A side that does not face the point is still followed when it ends on a bound of the cone; `FInv` describes how such items go round that vertex, report nothing, and end because the vertex is on the border. Disagreements found: around a visible vertex inside the mesh these items never end; and with two vertices on one ray they pass by the second vertex and report one that is not seen. Trusted: a tolerance of zero as in the visitor, exact arithmetic.
* Scope: Proved when no two vertices are on one line with the point and the vertices that are seen are on the border of the mesh (C115_search_partial). False otherwise: the search goes round a visible vertex inside the mesh forever (C115_loop_refuted), and reports a vertex that is not seen when two vertices are on one ray (C115_hidden_refuted).

### C116 The exact operations of the robust predicates (proved)

* Code: `geometrix/algorithm/predicates.hpp:161-248`, `geometrix/algorithm/predicates.hpp:643-683`
* Theorems: 5 in `Props/ExactArithmetic.lean`
* Proof: `fl` is `roundBits p`: rounding to nearest, ties to even, `p` bits, unbounded exponent. Floats are `m * 2^e` with `|m| < 2^p` (Spec/Expansion). The proofs follow Dekker, Knuth and Shewchuk: each intermediate difference is shown to be a float, so that it is not rounded. `exactinit` is shown to stop after `p` turns. The file is C in the style before 1989 (definitions of parameters after the list), so no C++ compiler accepts it, and nothing includes it; it is modelled as the C program that it is.
* Scope: For rounding to nearest, ties to even, with any number of bits from 6 on and unbounded exponents.

### C117 Sums of expansions (partial)

* Code: `geometrix/algorithm/predicates.hpp:684-1092`, `geometrix/algorithm/predicates.hpp:1385-1404`
* Theorems: 11 in `Props/Expansions.lean`
* Proof: An array with its length is a list; `slack` says whether the element behind the last one of an array can be read. Nonoverlapping, nonadjacent and strongly nonoverlapping are defined as in the paper of Shewchuk. Disagreements found: (1) the comments say that `grow_expansion` and `fast_expansion_sum` keep expansions strongly nonoverlapping. For `fast_expansion_sum` this is theorem 13 of the paper, and the counterexample `-(2^53-1)` and `(2^50-1/2) + 2^51 + 2^52` is for type double. What is kept, with at least 6 bits, is `NearlyNonadjacent`: no overlap, the smaller one of two adjacent components has one bit, and no component is adjacent to two others. This is proved by an invariant of the loop with the last error, the last sum and the rest of both expansions, and is enough for the sign of the last component. (2) `fast_expansion_sum` reads `e[elen]` or `f[flen]`; the value is not used.
* Scope: Exactness and the nonoverlapping and nonadjacent properties are proved. The comments say that grow_expansion and fast_expansion_sum keep expansions strongly nonoverlapping; with double they do not (C117_grow_strong_refuted, C117_fast_strong_refuted). What fast_expansion_sum keeps is a weaker property that is enough for the predicates (C117_fast_partial). fast_expansion_sum always reads one element behind an array (C117_fast_bounds_refuted).

### C118 The exact orientation predicate (partial)

* Code: `geometrix/algorithm/predicates.hpp:1432-1489`, `geometrix/algorithm/predicates.hpp:1535-1653`
* Theorems: 7 in `Props/Orient2dPredicate.lean`
* Proof: The four stages of `orient2dadapt` with their error bounds: the bounds A, B and C are proved from the rounding errors with `0 < eps <= 1/64`; the last stage is exact by C117. The determinant in the statement is that of the exact coordinates. Disagreement found: the arrays `B[4]`, `u[4]`, `aterms[4]` and so on are read one element behind their end by `fast_expansion_sum_zeroelim`, for example for (1,1), (2,2), (2^-53,2^-53).
* Scope: orient2d and orient2dexact have the sign of the exact determinant if there is something to read behind the arrays (C118_sign_partial, C118_exact_partial). With arrays that end where they are declared to end this is false: C118_bounds_refuted, C118_exact_bounds_refuted; but what orient2d returns is right (C118_returns), and it returns if the differences of the coordinates are exact (C118_exact_differences).

### C119 Products, linear sums and compression of expansions (partial)

* Code: `geometrix/algorithm/predicates.hpp:1094-1382`
* Theorems: 8 in `Props/ScaledExpansions.lean`
* Proof: As for C117. `scale_expansion`: if `2^k` bounds the components so far, the sum so far is at most `2^k |b|`, so the errors of the two sums are at most a quarter and a half of a unit of the last place of the next product; a component adjacent to a later one comes from two adjacent components. The same bound shows that the `Fast_Two_Sum` in `scale_expansion_zeroelim` is exact, but only for nonoverlapping expansions. `linear_expansion_sum`: the sum so far is less than four times the power of two of the next component, so the error carried along is smaller than that component. `compress`: what the first loop stores are numbers that the sum of all before does not reach. Disagreements found: (1) `scale_expansion` does not keep expansions strongly nonoverlapping, as `3 + 8 - 16` times `2^53 - 5` shows for double. (2) `linear_expansion_sum` reads `e[elen]` or `f[flen]`; the value is not used.
* Scope: Exactness, the nonoverlapping and nonadjacent properties, and compress are proved. The comments say that scale_expansion keeps expansions strongly nonoverlapping; with double it does not (C119_scale_strong_refuted), but the product is nearly nonadjacent (C119_scale_partial). linear_expansion_sum always reads one element behind an array (C119_linear_bounds_refuted).

### C12 Box intersection tests are exact (partial)

* Code: `geometrix/algorithm/intersection/segment_aabb_intersection.hpp: segment_aabb_intersection`, `geometrix/algorithm/intersection/ray_aabb_intersection.hpp: ray_aabb_intersection`
* Theorems: 8 in `Props/BoxIntersection.lean`
* Proof: Slab tests as intersections of parameter intervals; separating axis test for a segment and a box proved complete by clipping the parameter interval; the epsilon is a parameter.
* Scope: ray tests proved; the segment tests are exact without the added machine epsilon and never miss with it; false positives with it are exhibited for every positive epsilon

### C120 The exact predicates for planes, circles and spheres (partial)

* Code: `geometrix/algorithm/predicates.hpp:1684-1788`, `geometrix/algorithm/predicates.hpp:2362-2489`, `geometrix/algorithm/predicates.hpp:3298-3601`
* Theorems: 10 in `Props/ExactPredicates.lean`
* Proof: Each call of `fast_expansion_sum_zeroelim` and `scale_expansion_zeroelim` keeps four facts about an expansion (its value, its greatest length, floating point components, nearly nonadjacent), by C117 and C119; the functions are chains of such calls, so the value of the last expansion is the determinant and its last component has the sign of it. The model checks the declared length of each array. The determinants are compared with the plane, the circle and the sphere by polynomial identities in the coordinates of the centre. The fast functions: rounding errors along the longest path of operations. Disagreement found: as in C118, each call reads behind an array.
* Scope: The signs, the distance from the exact determinant and that no result is too long for its array are proved if there is something to read behind the arrays (C120_orient3d_partial, C120_incircle_partial, C120_insphere_partial), the meaning of the determinants and the bounds of the fast functions without that. With arrays that end where they are declared to end every call reads an element behind an array: C120_bounds_refuted.

### C121 The adaptive orientation predicate in space (partial)

* Code: `geometrix/algorithm/predicates.hpp:1886-2334`, `geometrix/algorithm/predicates.hpp:643-683`
* Theorems: 3 in `Props/Orient3dPredicate.lean`
* Proof: The four stages of `orient3dadapt`, with all branches for tails that are zero. Stage A: the errors along each path of operations are counted, and compared with `(7 + 56 eps) eps`. Stage B: the differences are off by a relative `eps`, so the determinant of the rounded differences is off by `3 eps + ...` times the permanent; the permanent in the code is rounded four times. Stage C: what is left out is of second order in `eps`, and what is computed is off by seven roundings of terms of first order. `estimate` is off by at most `20/7 eps` of the value, because the expansion is nearly nonadjacent. Stage D: a chain of exact sums, as in C120; the model checks that at most 192 components are stored. Disagreement found: as in C118, `fast_expansion_sum_zeroelim` reads behind an array as soon as the first test fails.
* Scope: orient3d has the sign of the exact determinant if there is something to read behind the arrays (C121_sign_partial). With arrays that end where they are declared to end it reads behind one for points that are nearly in one plane (C121_bounds_refuted); what it returns for other points is right (C121_returns).

### C122 The adaptive test for circles (partial)

* Code: `geometrix/algorithm/predicates.hpp:2651-3269`, `geometrix/algorithm/predicates.hpp:643-683`
* Theorems: 4 in `Props/IncirclePredicate.lean`
* Proof: As C121. Stage A: ten roundings, compared with `(10 + 96 eps) eps`. Stage B: a product of two rounded differences is either exact or its factors have smaller errors, so the determinant is off by `4 eps + 10 eps^2 + ...` times the permanent, which is rounded five times. Stage C: what is left out is `6 eps^2 + ...`, what is computed is off by nine roundings of `4 eps`; `44` is enough for both. Stage D: the values of all sums that are added, with their conditions, add up to the determinant of the exact differences by a polynomial identity. Arrays such as `aa` that are filled under a condition are an error in the model otherwise, so the proof shows that they are read only if filled. Disagreement found: as in C118, `fast_expansion_sum_zeroelim` reads behind an array as soon as the first test fails.
* Scope: incircle has the sign of the exact determinant, which says where the point is, if there is something to read behind the arrays (C122_sign_partial, C122_circle_partial). With arrays that end where they are declared to end it reads behind one for points that are nearly on one circle (C122_bounds_refuted); what it returns for other points is right (C122_returns).

### C123 Expressions of vectors, points and matrices (partial)

* Code: `geometrix/algebra/expression_generator.hpp:76-338`, `geometrix/algebra/grammar.hpp:142-233`, `geometrix/algebra/functions/multiplication.hpp:23-200`, `geometrix/algebra/functions/dot_product.hpp:27-165`, `geometrix/algebra/functions/tensor_product.hpp:27-145`, `geometrix/algebra/functions/cross_product.hpp:53-140`
* Theorems: 6 in `Props/Expressions.lean`
* Proof: Model/Expressions.lean has a syntax tree for the expressions, the traits of each node as the code computes them (`shapeOf`), a check for each element whether reading it compiles (`compiles`: index assertions, dimension assertions, missing specialisations), the value read (`value`) and the assignment (`assign`). Spec/Expressions.lean gives, independently, the shape by linear algebra (`meaningShape`) and the elements (`meaning`, with finite sums, the Leibniz determinant of Spec/Determinant.lean and Mathlib's matrix inverse). The theorem is by induction on the expression: the traits are the shape meant, all elements compile, and all values agree, or one of them is an error if there is no meaning. Units, reference frames and lifetimes of operands are not modelled; the square root is any function. Findings: the size of matrix times vector is taken from the vector (`functions/dot_product.hpp:100-119`), so a 3x2 matrix times a vector of 2 cannot be assigned to a vector of 3 but is cut to 2; matrix times scalar indexes the scalar (`multiplication.hpp:196`) and does not compile; sums of products with one term do not compile; sizes of operands and of the left side are never compared, so that a mismatch compiles and truncates.
* Scope: Proved for every expression in which a matrix applied to a vector or point is square, no sum of products has one term, no matrix stands left of a scalar, no & joins two vectors or a vector and a matrix with more columns than rows, determinants are at most 10x10 and inverses 2x2 to 10x10. Outside these conditions it is false: refuted for matrices that are not square, matrix times scalar, outer products, the tensor product of vectors, and operands whose sizes do not fit (which compile and truncate).

### C124 Matrices composed of blocks (partial)

* Code: `geometrix/tensor/detail/as_matrix.hpp:49-400`, `geometrix/tensor/detail/as_matrix.hpp:710-809`, `geometrix/tensor/detail/preprocessed/as_matrix.hpp:20-340`
* Theorems: 4 in `Props/Composite.lean`
* Proof: Model/Composite.lean has the template metaprogram as functions on lists: states, the two versions of `add_new_item`, `add_row_item`, `process_state`, `process_schema` with the number of states the compiler may instantiate, and `get`. The specification is a tiling: the blocks, in reading order of their corners, cover each place once. The proof keeps, for each state, that the blocks placed so far are those whose corner is read before the current place, that the current row is a chain of blocks from column 0 to the current one, that the last row is such a chain over all columns, and that the iterator in it is at the current column or nothing further right continues. Disagreement found: after a new block the iterator moves on by at most one block of the row above (`as_matrix.hpp:213-222`), so below two narrow blocks and beside a taller one the taller one is not seen; the next block is placed over it, and elements are read from the wrong block. Overlaps and the number of rows are never checked.
* Scope: Proved for layouts in which a block below others spans few of their edges (C124_layout_partial), and for all matrices made of strips of blocks of equal height (C124_strips). In general it is false: a block below several narrower ones makes the algorithm place the next block over a taller one or fail to compile (C124_wide_refuted), and blocks that do not fit compile (C124_overlap_refuted).

### C125 Homogeneous coordinates, traces and identity matrices (partial)

* Code: `geometrix/tensor/homogeneous_adaptor.hpp:20-190`, `geometrix/arithmetic/matrix/trace.hpp:17-68`, `geometrix/tensor/identity_matrix.hpp:19-64`
* Theorems: 5 in `Props/Homogeneous.lean`
* Proof: Model/Homogeneous.lean has the adaptor, `trace_sum` and the identity matrix; products are those of the expression model of C123, with the adaptor as a variable of one dimension more. The specification is an affine map given by the linear part and the last column of a matrix, folded over the list of matrices. Proof: by C123 every such expression compiles and means the product of the matrices; multiplication is associative, and a last row 0…0 1 keeps the last coordinate. Findings: `result_of::trace` counts down from `rows - 2` (`trace.hpp:53`), which for a 1x1 matrix is a huge number, so that the trace of a 1x1 matrix does not compile; the assertion that the matrix is square is vacuous, so that the trace of a 2x3 matrix compiles.
* Scope: Points, directions and identity matrices: proved without restriction (C125_point, C125_direction, C125_identity). The trace is proved for sizes from 2 on; for size 1 it does not compile and for matrices wider than high it does (C125_trace_refuted).

### C126 The adaptive test for spheres (partial)

* Code: `geometrix/algorithm/predicates.hpp:3937-4262`, `geometrix/algorithm/predicates.hpp:643-683`
* Theorems: 5 in `Props/InspherePredicate.lean`
* Proof: Model/PredicatesSphere.lean has `insphere` and `insphereadapt`, with `insphereexact` from Model/Predicates3.lean. First test: each product of the determinant is computed with at most 15 roundings before the last, and the permanent is at most 17 roundings below the sum of the absolute values of the products. Second and third: a calculus of first order parts (`Jet`) shows that the determinant of the exact differences is that of the rounded ones up to 5 eps times the size of the products, and that with the correction of the third stage only second order terms are left; the correction itself is computed with at most 14 roundings, its largest components `ab3` and so on being within 3 roundings of the exact minors. Last stage: `insphereexact` is exact (C120). What is missing: counting roundings gives about 89 eps^2 and 80 eps^2 for the second order terms of the second and third test, against 72 and 71 in `isperrboundB` and `isperrboundC` (`predicates.hpp:643-683`). No points are known for which this gives a wrong sign, and by refining the count some, but not all of the difference goes away. The theorem therefore excludes determinants below 20 eps^2 times the size of the products. Reads behind the end of arrays: as for C118 and C122, `fast_expansion_sum_zeroelim` reads one element behind each of its operands, so that every call of `insphereadapt` does.
* Scope: Proved with something to read behind the arrays, for determinants larger than 20 eps^2 times the size of their products, and for all determinants if the differences of coordinates are exact (C126_exact_differences); a result of zero is always right. Smaller determinants: open. With arrays that end where they are declared to end it does not return for points on one sphere (C126_bounds_refuted), but what it returns has the right sign (C126_returns).

### C127 Polygons with holes (partial)

* Code: `geometrix/primitive/polygon_with_holes.hpp:28-130`, `geometrix/algorithm/polygon_with_holes_as_segment_range.hpp:15-40`
* Theorems: 5 in `Props/PolygonHoles.lean`
* Proof: Model/PolygonHoles.lean: the caller has variables, each call names one and says whether it is const, plain or in std::move; the overload chosen and what is left in the variable follow the rules of the language for forwarding references. The loops over the points keep both loop variables and read the vector with a bounds check. The wanted result is stated by recursion over the calls with the original values of the variables.
* Scope: set_outer and add_hole take forwarding references and move from them, so that a variable passed without std::move is emptied (C127_emptied_refuted, C127_variables). The object is right if no variable that is not const is named twice (C127_assemble_partial). The sides are right unless a polygon has exactly one point, where the code reads behind the vector (C127_sides_partial, C127_point_refuted).

### C128 The constants (partial)

* Code: `geometrix/numeric/constants.hpp:16-38`, `geometrix/numeric/numeric_traits.hpp:94-98`
* Theorems: 5 in `Props/Constants.lean`
* Proof: Model/Constants.lean: the literals as rational numbers, rounded to 53 bits and then by the conversion to the type. IsNearest (Spec/Constants.lean) quantifies over all floating point numbers with p bits. The proof shows that a number with the leading bit set is nearest if its error is at most half a unit of the last place, and uses the bounds of Mathlib for pi and e with 20 digits.
* Scope: Right for float, and for double but for sqrt_2, whose literal has one digit too few, so that it is rounded to the wrong neighbour (C128_sqrt_refuted, C128_sqrt_partial). The constants of long double are those of double (C128_long_refuted).

### C129 Integer sequences (proved)

* Code: `geometrix/utility/integer_sequence.hpp:17-116`
* Theorems: 4 in `Props/IntegerSequence.lean`
* Proof: Model/IntegerSequence.lean: the templates as functions on lists with 64 bit arithmetic; strong induction over N / 8. The depth is shown to be the logarithm to the base 8 plus one.

### C13 Circle-circle intersection points (proved)

* Code: `geometrix/algorithm/intersection/circle_circle_intersection.hpp: circle_circle_intersection`, `geometrix/algorithm/intersection/sphere_sphere_intersection.hpp`
* Theorems: 2 in `Props/Sphere.lean`
* Proof: Radical line, over the reals; the classification is exhaustive by the triangle inequality.
* Scope: for circles with radii that are not negative

### C130 Random indices and elements (partial)

* Code: `geometrix/utility/random_generator.hpp:15-110`, `geometrix/algorithm/hyperplane_partition_policies.hpp:56-79`
* Theorems: 9 in `Props/RandomIndex.lean`
* Proof: Model/RandomIndex.lean: an engine is the sequence of its numbers; the loop of Boost that divides them into buckets is modelled, with fuel since it may reject any number of them. Generators are objects with an engine of their own and a reference to an engine, on a heap, as the members are declared.
* Scope: The bound itself may be the result (C130_index_refuted), so that the selector may return the end of the range (C130_selector_refuted); all else about single generators is proved. A copy refers to the engine of the original (C130_copy_refuted, C130_shared_refuted). Boost's distribution is part of the model; sizes from 2^32 on are not modelled.

### C131 Colours (partial)

* Code: `geometrix/utility/golden_ratio_color_generator.hpp:20-56`
* Theorems: 3 in `Props/Colors.lean`
* Proof: Model/Colors.lean: the switch over the sixths with the remainder of C++, conversions to bytes with undefined behaviour out of range. The wanted colour (Spec/Colors.lean) is defined by distances on the circle of hues without cases. The proof splits the hue into turns, sixth and rest.
* Scope: Proved for all hues that are not negative (C131_color_partial, C131_generate), with exact arithmetic. Negative hues give black (C131_negative_refuted).

### C132 Planes in space (proved)

* Code: `geometrix/primitive/plane.hpp:16-70`, `geometrix/algorithm/classify_simplex_to_plane.hpp:17-83`
* Theorems: 6 in `Props/Plane.lean`
* Proof: `Model/Plane.lean` has the two constructors of `plane` over the reals (with `normalize3`, which fails an assertion for a null vector) and the two classifications for any comparison policy. `Spec/Plane.lean` says what the points of a plane are: `a + s u + t v`. The distance is that of C20's squared distance, with both halves: no point of the plane is nearer, and one is that near.
* Scope: exact arithmetic over the reals; make_hyperplane of a simplex in space does not compile and is not modelled

### C133 Assignment of an expression to a vector or point (partial)

* Code: `geometrix/tensor/detail/numeric_sequence_n.hpp:135-145`, `geometrix/tensor/detail/vector_n.hpp:52-58`, `geometrix/tensor/detail/point_n.hpp:50-56`, `geometrix/utility/assignment_policy.hpp:73-79`, `geometrix/algebra/functions/binary_function.hpp:55-68`
* Theorems: 6 in `Props/InPlace.lean`
* Proof: `Model/InPlace.lean` adds to the expressions of C123 the assignment that `operator=` and `assign` do: one element after the other, each evaluated with the variables as they are by then. `Spec/InPlace.lean` says where the left side may occur (`Elementwise`); a value then depends only on the element with the same index (`value_local`), which has not been written yet. Code against property: `v = v ^ w`, `p = m * p` and `v = norm(v)` give wrong results, while `<<=` is right; `geometry_test/product_tests.hpp:87-88` does the last without looking at the result. For `v = norm(v)` in the plane the theorem says exactly when the result is right.
* Scope: holds where the left side occurs elementwise only, and in the expressions that C123 supports; refuted for cross products, matrices and directions of the left side, and for a point assigned to a vector

### C134 Access to the elements of vectors and points by an index (partial)

* Code: `geometrix/tensor/detail/numeric_sequence_n.hpp:98-133`
* Theorems: 3 in `Props/InPlace.lean`
* Proof: `Model/InPlace.lean`, with `std::size_t` of 64 and `int` of 32 bits. Code against property: `GEOMETRIX_ASSERT( static_cast<int>(i) < dimension_type::value )` is passed by indices whose conversion is negative.
* Scope: reading holds for indices below 2^31, writing for all; from 2^31 to 2^32 - 1 the check of get(i) and operator[] is passed and memory behind the array is read

### C135 Quantities with a tag (partial)

* Code: `geometrix/utility/tagged_quantity.hpp:18-117`, `geometrix/utility/tagged_quantity.hpp:161-219`, `geometrix/utility/tagged_quantity.hpp:401-431`
* Theorems: 6 in `Props/TaggedQuantity.lean`
* Proof: `Model/TaggedQuantity.lean`: tags are terms, a number has no tag; an expression is evaluated to a pair of tag and number as the overloads do. `Spec/TaggedQuantity.lean` forgets the names (`plainValue`) and lists them (`names`). The proof says of every tag which expressions have it (`TagSays`). Code against property: see `C135_strong_types_refuted`.
* Scope: the value, the rules of assignment, initialisation, compound assignment and comparison are proved; as a system of strong types it is refuted: a product of two lengths is a length, a sum of a length and a time compiles, abs of a length cannot be assigned to a length or compared with one, a plain number can be assigned

### C136 Comparison policies by type (partial)

* Code: `geometrix/numeric/number_comparison_policy.hpp:554-714`
* Theorems: 5 in `Props/MappedPolicy.lean`
* Proof: `Model/MappedPolicy.lean`: numbers with their C++ type, the map as a list. `CoherentFor` in `Spec/MappedPolicy.lean` is the coherence of C01 for two numbers with types. Code against property: the policy is looked up with the type of the first argument only.
* Scope: proved for numbers of one type and for types with the same policy, in particular for policies made from one tolerance; refuted for types with different policies: the policy is that of the first number, so equals is not symmetric

### C137 Random floating point numbers (proved)

* Code: `geometrix/algorithm/predicates.hpp:496-622`
* Theorems: 5 in `Props/PredicatesRandom.lean`
* Proof: `Model/PredicatesRandom.lean` has the loop and all roundings (`roundBits` of C112). The proof shows that every operation is exact and that the exponent is a group of bits of the last random number; the frequencies are cardinalities of sets.
* Scope: random() is a parameter; arithmetic with 53 or 24 bits and no bound on exponents, the bounds are proved

### C138 Functions and limits of fixed point numbers (partial)

* Code: `geometrix/numeric/fixed_point.hpp:439-463`, `geometrix/numeric/fixed_point.hpp:486-577`
* Theorems: 10 in `Props/FixedPointFunctions.lean`
* Proof: `Model/FixedPointFunctions.lean` on top of the model of C39. The limits are compared with their meaning in the standard (`Spec/FixedPointFunctions.lean`) on the set of the numbers of the type. Code against property: `fn` converts with `convert_to<double>`, which divides integers (C39); `numeric_limits::min` is the lowest number; `epsilon` makes 1 from an `int`, whose scaled value has to fit an `int`.
* Scope: functions are right for integers, floor for numbers that are not negative, ceil for those that are not positive; refuted for others, since the conversion to double loses the fraction. max, epsilon and round_error are right, epsilon only if the denominator fits an int (refuted otherwise); min is the least number instead of the smallest positive one and denorm_min is zero (refuted)

### C139 Arithmetic with numbers of two types (partial)

* Code: `geometrix/arithmetic/arithmetic_promotion_policy.hpp:50-84`, `geometrix/numeric/numeric_traits.hpp:36-73`, `geometrix/arithmetic/arithmetic.hpp:164-291`, `geometrix/algebra/detail/dot_product.hpp:73-87`
* Theorems: 11 in `Props/MixedTypes.lean`
* Proof: `Model/MixedTypes.lean`: the arithmetic types with their digits, the selection, and the conversions of the language. `Spec/MixedTypes.lean` says when a type is narrower by the decimal digits that all its numbers can have, and which numbers a type has. Code against property: `numeric_width_compare` is true if the first type is narrower, and `select_arithmetic_type_from_2` then takes the first type, although its comment says that it decides on the wider one. Trusted: `boost::mpl::max_element` returns the first largest element.
* Scope: the order of the types and the selection from a sequence are proved. From two types the narrower one is selected, for example int from int and double (refuted); so pow( 1.5, 2 ) in an expression is computed as pow( 1, 2 ) and a dot product of double and int vectors loses its fraction (refuted). Proved for numbers that the narrower type has and for equal types

### C14 Bounding box tests are set tests (proved)

* Code: `geometrix/primitive/axis_aligned_bounding_box.hpp: axis_aligned_bounding_box`, `geometrix/algorithm/intersection/aabb_aabb_intersection.hpp`, `geometrix/algorithm/bounding_box_intersection.hpp`, `geometrix/algorithm/intersection/sphere_aabb_intersection.hpp`
* Theorems: 10 in `Props/Box.lean`
* Proof: Order reasoning per coordinate.

### C140 Integers in arithmetic (partial)

* Code: `geometrix/arithmetic/arithmetic_promotion_policy.hpp:21-47`, `geometrix/arithmetic/arithmetic_promotion_policy.hpp:86-206`
* Theorems: 11 in `Props/MixedTypes.lean`
* Proof: `Model/MixedTypes.lean`. `double` is rounding to 53 bits (`roundBits`, C112). Trusted: the comparisons of `boost::numeric_cast` from `double` to integers, which are done with the bounds of the type converted to `double`. Code against property: integers of 64 bits.
* Scope: proved for integers of up to 53 bits, and for products of types of up to 32 bits. Refuted for integers of 64 bits: the promotion rounds, demoting the largest and the least one throws, and there is no wider type for the product

### C141 Comparison of tuples and pairs (proved)

* Code: `geometrix/utility/utilities.hpp:358-369`, `geometrix/utility/utilities.hpp:773-805`
* Theorems: 3 in `Props/TupleCompare.lean`
* Proof: `Model/TupleCompare.lean`: the arguments as a list of pairs, with a comparison for each place, so the values can have different types. The order is stated for all places at once (`LexBefore`), the model recurses like the code.

### C142 Compound assignment of vectors (partial)

* Code: `geometrix/tensor/detail/vector_n.hpp:60-95`, `geometrix/tensor/detail/numeric_sequence_n.hpp:147-185`
* Theorems: 6 in `Props/CompoundAssign.lean`
* Proof: Model/CompoundAssign.lean has the loops over pairs of elements that `+=` and `-=` run, with the expression evaluated anew for each element, and those of `*=` and `/=`. Proved by rewriting the loop as the in-place assignment of `v + e` (C133). **Disagreements:** `v += v ^ w` computes later elements from elements already written (C142_cross_refuted), and `v += w` for a shorter `w` compiles and leaves the remaining elements alone (C142_size_refuted, C142_size). The operators of points are not modelled: they exist only with a macro and call those of `numeric_sequence` with a type without traits.
* Scope: Proved for expressions in which the left side occurs elementwise, with any number of elements, for chains of two, and for *= and /=. Refuted otherwise: v += v ^ w reads elements already written (C142_cross_refuted), and an expression with fewer elements compiles and leaves the rest of v unchanged (C142_size, C142_size_refuted). Missing: expressions that are not Supported (see C123).

### C143 Views of matrices and vectors (partial)

* Code: `geometrix/tensor/vector_matrix_adaptors.hpp:21-315`, `geometrix/tensor/matrix_minor_adaptor.hpp:19-154`, `geometrix/tensor/matrix_row.hpp:21-82`, `geometrix/tensor/matrix_column.hpp:21-80`, `geometrix/tensor/detail/as_matrix.hpp:486-610`, `geometrix/tensor/detail/as_matrix.hpp:725-803`, `geometrix/arithmetic/matrix_arithmetic.hpp:215-237`
* Theorems: 17 in `Props/Views.lean`
* Proof: Model/Views.lean has a tree of views over numbered variables, and for each kind of access the place that it reads, as the access policies compute it. Spec/Views.lean says which element a place stands for without the search for a block: by the layout in reading order, which is shown to be unique. Proved by induction over the nesting. **Disagreements:** a row or column of a minor keeps a reference to the matrix behind the minor, and the access policy for rows reads it with the indices of the minor, so `get<0>( row<minor, 0> )` gives an element that the minor leaves out; the product of a minor and a matrix uses these rows and is wrong (C143_row_refuted, C143_product_refuted). The rows and columns of vectors have no member that this policy needs, so they cannot be read with `get` (C143_row_vector_refuted). Rows of matrices hold a reference to const, so their `set` does not compile (C143_row_set_refuted). The member `get` of a row of a column vector ignores the column (C143_member_refuted). A minor does not check that the excluded row and column exist (C143_excluded_refuted). Not modelled: `operator =` of `composite_matrix`, which declares a local object instead of calling `assign` and cannot be compiled.
* Scope: Proved for all nestings: reading (C143_get_partial), places outside (C143_outside, C143_set_outside), writing (C143_set_partial, C143_set_get_partial), and rows and columns of matrices and of matrices of blocks (C143_row_partial, C143_row_set_partial, C143_member_partial) and products of these (C143_product_partial), under preconditions that are those of C124 and C134. Refuted: get of a row or column of a minor reads another element, so products with minors are wrong (C143_row_refuted, C143_product_refuted), the product of a column vector and a row vector does not compile (C143_product_vector_refuted), rows and columns of vectors cannot be read (C143_row_vector_refuted), rows of matrices cannot be written (C143_row_set_refuted), the member function of a row of a column vector accepts any column (C143_member_refuted), and a minor may exclude a row that does not exist (C143_excluded_refuted).

### C144 Points with a reference frame (partial)

* Code: `geometrix/primitive/point_traits.hpp:170-225`, `geometrix/space/reference_frame_transformation.hpp:19-98`, `geometrix/space/cartesian_access_traits.hpp:19-108`, `geometrix/space/polar_access_traits.hpp:35-122`
* Theorems: 7 in `Props/ReferenceFrame.lean`
* Proof: Model/ReferenceFrame.lean has the frames, the conversion between each two of them, and sequences of conversions; the transformations between Cartesian and polar coordinates are those of C103. Proved by induction over the sequence: the place is an invariant, and so are the coordinates that follow from the place. **Disagreements:** the neutral frame stands for unknown coordinates, but converts to and from both other frames without a change, so a Cartesian point becomes another polar point through it (C144_neutral_refuted, C144_untagged_refuted); its conversion to itself matches three partial specialisations and is ambiguous (C144_neutral_neutral_refuted). Not modelled: frames of different dimensions and systems of units.
* Scope: Proved for sequences of Cartesian and polar frames of any length, in every dimension. Refuted with the neutral frame: through it the coordinates are taken over unchanged (C144_neutral_refuted), get_r and get_theta of a point without a frame are its first two coordinates (C144_untagged_refuted), and a conversion from the neutral frame to itself does not compile (C144_neutral_neutral_refuted).

### C145 Fixed point numbers mixed with plain numbers and with other fixed point types (partial)

* Code: `geometrix/numeric/fixed_point.hpp:59-79`, `geometrix/numeric/fixed_point.hpp:129-190`, `geometrix/numeric/fixed_point.hpp:210-260`, `geometrix/numeric/fixed_point.hpp:318-336`, `geometrix/numeric/fixed_point.hpp:373-413`, `geometrix/numeric/detail/friend_ordered_field_operators.hpp:19-44`, `geometrix/numeric/detail/fixed_point.hpp:69-191`
* Theorems: 13 in `Props/FixedPointMixed.lean`
* Proof: Model/FixedPointMixed.lean has the twelve comparison operators of a fixed point number and a plain number, the arithmetic operators with the number on either side, and the conversion and the assignment between two fixed point types; the plain number is converted by the functions of C39. Proved from the laws of C39 and the fact that every rounding policy picks the floor or the ceiling. **Disagreements:** numbers that are not multiples of the unit are rounded before they are compared (`C145_compare_refuted`: 1/2 == 3/5 in quarters), numbers out of range throw (`C145_range_refuted`), `number - x` and `number / x` give the number the default scale 2 when the scale is a run time one (`C145_left_refuted`), and a conversion to another fixed point type loses the fraction, because the specialisations that would scale exactly look for a `radix_type` that `fixed_point_traits` does not have (`C145_convert_refuted`).
* Scope: Comparisons and arithmetic are proved for numbers that are multiples of the unit and fit the format; for other numbers the order answers are proved one way (true answers of < and > are right, == means closer than the unit). Refuted: other numbers are compared after rounding, numbers out of range throw, a number on the left of - and / gets the default run time scale, and conversions to another fixed point type lose the fraction.

### C146 Arrays from the private allocator do not share memory (partial)

* Code: `geometrix/utility/private_allocator.hpp:16-106`
* Theorems: 4 in `Props/PrivateAllocator.lean`
* Proof: Model/PrivateAllocator.lean has the live blocks and a step relation for the calls; what `::operator new` returns is any block that a correct one may return (trusted). Proved by induction over the history: a block is as large as its array, and blocks are disjoint. **Disagreement:** `allocate` multiplies without a check, so a request for 2^61 + 1 doubles gets 8 bytes (`C146_overflow_refuted`).
* Scope: Proved for all histories whose requests are at most max_size() elements. A larger request does not fail: the size wraps around and the arrays share memory (C146_overflow_refuted).

### C147 Running statistics and scope timers (partial)

* Code: `geometrix/utility/scope_timer.hpp`, `geometrix/utility/scope_timer.ipp`
* Theorems: 10 in `Props/RunningStat.lean`
* Proof: Model of `running_stat<std::uint64_t>` with the rounding function as a parameter and indeterminate members as `none`; the map of the timers is a list ordered by name. Exact part: induction with the recurrences of the mean and of the sum of squares. Rounded part: a step moves the mean towards the new number and not beyond it, so both factors of the term added to the squares have one sign; the error of the mean grows by at most the rounding errors of one step, weighted by the count.
* Scope: Count, mean, variance and sum (modulo 2^64) are proved for exact arithmetic; with rounding to any number of bits from 2 on: the bounds of the mean, its distance from the exact mean, that the variance is not negative, and the values for equal numbers. Refuted: clear() does not reset the sum (C147_clear_refuted), the sum of an empty object is indeterminate (C147_sum_refuted). The report is proved if the clock does not go back; else a duration is nearly 2^64 (C147_clock_refuted).

### C148 Functions that answer the same question agree (partial)

* Code: `geometrix/algorithm/intersection/segment_segment_intersection.hpp`, `geometrix/algorithm/distance/segment_segment_distance.hpp`, `geometrix/algorithm/point_in_polygon.hpp`, `geometrix/algorithm/node_bsp_tree_2d.hpp`, `geometrix/algorithm/solid_leaf_bsp_tree.hpp`
* Theorems: 21 in `Props/Agreement.lean`, `Props/AgreementBoxes.lean`, `Props/AgreementTriangles.lean`, `Props/SimpleBorder.lean`
* Proof: Corollaries of the exact theorems about each function (C06, C09, C12, C14, C15, C16, C17, C18, C19, C20, C21, C24, C38, C45, C53, C60, C63, C80, C83, C89, C91, C92, C101). New is the proof that the sides of a strictly convex polygon are the border of the points strictly on the left of all sides (`leftBorderOf_convex`): a way that meets no side keeps the parity of the crossings, and next to a point inside a side all other sides are strictly away. With it the theorems about trees apply to every strictly convex polygon, forwards for the node tree and backwards for the solid leaf tree.
* Scope: Proved for segments, points and segments, boxes, polylines, borders of polygons and discs; for strictly convex polygons all tests and both kinds of trees agree everywhere. For other polygons polygon_containment, the distance and point_in_polygon agree except for points inside two or more sides, where they do not (C148_polygon_refuted). On the border point_in_polygon disagrees with the convex test (C148_border_refuted).

### C149 The sides of a simple polygon bound its inside (proved)

* Code: `geometrix/algorithm/point_in_polygon.hpp`, `geometrix/algorithm/point_sequence/is_polygon_simple.hpp:71-104`, `geometrix/primitive/point_sequence_utilities.hpp:100-129`
* Theorems: 5 in `Props/SimpleBorder.lean`
* Proof: Crossing a point inside a side changes the parity of the crossings, because no other side is near. Next to a vertex there are only its two sides; a way of at most two straight pieces around the vertex on the left leads from the left of one side to the left of the next, so by going round all sides have the inside on the same hand. Below the lowest vertex is outside, which decides the hand. Distances between segments are taken from the proof of C18, so no compactness is needed and the proof holds in every ordered field. For the sign of the area the plane is cut into slabs between the heights of the vertices. In a slab the area is the height times the sum of the crossings with the middle line, rising ones positive; the signs alternate from east to west, because the left of a rising side is its west, so every slab adds an area of the same sign.
* Scope: C149_turn, C149_left and C149_right prove the border, C149_area the sign of get_signed_area. C149_tested states the result with is_polygon_simple, for at least four vertices; for three see C47.

### C15 Oriented box separation test is sound and complete (proved)

* Code: `geometrix/algorithm/intersection/obb_obb_intersection.hpp: obb_obb_intersection`
* Theorems: 1 in `Props/Obb.lean`
* Proof: Separating axis theorem for rectangles, proved for parametrised boxes by a minimisation over the unit square.
* Scope: for boxes with orthonormal axes, as the class requires

### C150 get_area and get_centroid are the area and the centre of the inside (proved)

* Code: `geometrix/primitive/point_sequence_utilities.hpp:21-148`, `geometrix/algorithm/point_in_polygon.hpp:26-84`
* Theorems: 5 in `Props/RegionArea.lean`
* Proof: By the theorem of Fubini the area is the integral of the lengths of the level slices. A level line which meets no vertex crosses the sides in an even number of places, and between them is alternately outside and inside (from C149), so the length of the slice is the sum of the crossings with alternating signs. Integrated side by side this is the sum of the trapezoids under the sides, which is the sum of cross products of get_signed_area. The mean values of the coordinates are found in the same way with other integrals over the sides. The cut along a diagonal: the crossings of the diagonal are counted twice.
* Scope: Over the reals, with the Lebesgue measure of the plane; the cut along a diagonal (C150_diagonal) over every ordered field. C150_tested states the result with is_polygon_simple, for at least four vertices.

### C151 Moving a polygon does not change the answers about it (partial)

* Code: `geometrix/algorithm/point_in_polygon.hpp`, `geometrix/algorithm/rotation.hpp`, `geometrix/algorithm/point_sequence/is_polygon_simple.hpp`, `geometrix/primitive/point_sequence_utilities.hpp`
* Theorems: 9 in `Props/RigidMotion.lean`
* Proof: Every invertible affine map is a product of triangular maps, which keep each crossing with the ray, a mirror image and the exchange of the coordinates. For the latter two the sides that are counted change, but by an even number: a side is counted differently exactly if one end of it is above the point (in the quadrant above and to the right of the point) and the other one is not, and around a closed polygon this changes an even number of times. Areas and moments change by sums that telescope.
* Scope: Proved for point_in_polygon off the border (C151_affine_partial, C151_rotate_partial), for polygon_containment everywhere on polygons in which the point is inside at most one side, for is_polygon_simple with at least four vertices, for areas, centroid and the distance from the border. On the border point_in_polygon may change its answer (C151_border_refuted).

### C152 Moving segments and polylines moves the answers about them (partial)

* Code: `geometrix/algorithm/intersection/segment_segment_intersection.hpp`, `geometrix/algorithm/line_intersection.hpp`, `geometrix/algorithm/distance/segment_segment_closest_point.hpp`, `geometrix/algorithm/distance/point_polygon_closest_point.hpp`, `geometrix/algorithm/rotation.hpp`, `geometrix/algorithm/point_sequence/remove_collinear_points.hpp`, `geometrix/algorithm/point_sequence/ramer_douglas_peucker_algorithm.hpp`
* Theorems: 13 in `Props/MotionPolylines.lean`, `Props/MotionSegments.lean`
* Proof: The numerators and denominators of the intersection code are multiplied by the determinant of the map, so their quotients, and the comparisons with zero and one, are unchanged (`C152_intersection_partial`, `C152_lines`); in the parallel branch `is_between` is replaced by its meaning (C06), which affine maps keep. The distance code uses its arguments only through scalar products of differences, which rotations keep; the loops over edges are shown to commute with mapping the edges, so that ties are broken in the same way (`C152_distances`, `C152_closest`, `C152_segment_closest`). Disagreement: two different points given as segments on a horizontal line are reported to overlap, after a quarter turn they are reported not to meet (`C152_degenerate_refuted`). Cleaning and simplification are shown to commute with the map by induction over their loops (`C152_clean`, `C152_simplify`), and the sides of points from the scalar and vector products (`C152_side`).
* Scope: proved for exact arithmetic; intersections of segments that are points are excluded, because for them the answer changes with a rotation (C152_degenerate_refuted)

### C153 The answers about a polygon do not depend on its start vertex and direction (partial)

* Code: `geometrix/algorithm/point_in_polygon.hpp`, `geometrix/primitive/point_sequence_utilities.hpp`, `geometrix/algorithm/point_sequence/is_polygon_simple.hpp`, `geometrix/algorithm/distance/polygon_polygon_distance.hpp`
* Theorems: 5 in `Props/Renumber.lean`
* Proof: `Spec.SameCycle` says that two lists are the same polygon: one is the other one from a start vertex `k` on, possibly reversed. Each function is replaced by what it was shown to compute (C21, C23, C25, C38, C47, C53), and the set of border points, the number of sides through a point, simplicity and the sums over the sides are shown to be unchanged by one step of the start vertex and by reversal. Disagreement: `polygon_polygon_distance_sqrd` leaves out the closing edges when both polygons have six vertices or more, so listing the first polygon of the witness from its last vertex changes the result from 1 to 0 (`C153_distance_refuted`).
* Scope: proved for exact arithmetic for all the functions but polygon_polygon_distance_sqrd of two polygons of six or more vertices, whose result depends on the start vertex (C153_distance_refuted)

### C154 The distance functions are distances (partial)

* Code: `geometrix/algorithm/distance/point_point_distance.hpp`, `geometrix/algorithm/distance/point_segment_distance.hpp:64-69`, `geometrix/algorithm/distance/point_polyline_distance.hpp:52-57`, `geometrix/algorithm/distance/point_polygon_distance.hpp:52-57`, `geometrix/algorithm/distance/segment_segment_distance.hpp:70-107`, `geometrix/algorithm/distance/segment_polyline_distance.hpp:78-90`, `geometrix/algorithm/distance/segment_polygon_distance.hpp:78-90`, `geometrix/algorithm/distance/polyline_polyline_distance.hpp:163-168`, `geometrix/algorithm/distance/polygon_polygon_distance.hpp:166-171`, `geometrix/algorithm/distance/point_aabb_distance.hpp:138-145`, `geometrix/algorithm/distance/aabb_aabb_distance.hpp:113-118`, `geometrix/algorithm/distance/point_obb_distance.hpp:73-78`
* Theorems: 14 in `Props/RootDistance.lean`
* Proof: `Model/RootDistance.lean` models the functions that take the root of a squared distance (`csqrt` faults on a negative argument; an infinite squared distance stays infinite). The theorems combine the minimum theorems of C17 to C24 and C53 with monotonicity of the root, so they also show that the root is never taken of a negative number. The Lipschitz bound and the zero set follow from the minimum and the triangle inequality. Missing: `polygon_polygon_distance` of two polygons with six or more vertices (C23).
* Scope: Proved for every listed function except polygon_polygon_distance of two polygons with six or more vertices, where the code leaves out the closing edges (C23_closing_edge_refuted).

### C155 An additional vertex on a side changes nothing (partial)

* Code: `geometrix/algorithm/point_in_polygon.hpp`, `geometrix/primitive/point_sequence_utilities.hpp`, `geometrix/algorithm/distance/point_polygon_distance.hpp`, `geometrix/algorithm/distance/segment_polygon_distance.hpp`, `geometrix/algorithm/distance/polyline_polyline_distance.hpp`, `geometrix/algorithm/distance/polygon_polygon_distance.hpp`
* Theorems: 8 in `Props/SplitSide.lean`
* Proof: The inserted vertex splits a side into two with the same points, so everything that depends only on the set of points of the border is unchanged (C21, C22, C53, C91). Area, centroid and length are sums over the sides and the terms add up. For `point_in_polygon` the new lemma `crossesRay_insert` shows that exactly one of the two parts crosses the ray if the side does, also if the vertex is at the height of the point. Other start vertices and directions, and with them the closing side, follow from C153. Disagreement: `polygon_polygon_distance_sqrd` (`C155_distance_refuted`).
* Scope: Proved for all listed functions except polygon_polygon_distance_sqrd, for which the sixth vertex selects an algorithm without the closing sides (C155_distance_refuted).

### C16 Cohen-Sutherland clipping returns exactly the part inside the window (proved)

* Code: `geometrix/algorithm/cohen_sutherland_line_clipping.hpp`
* Theorems: 5 in `Props/CohenSutherland.lean`
* Proof: Loop invariant (the remaining segment covers the part inside the window) and a measure on the outcodes.
* Scope: for a window whose low corner is not above its high corner

### C17 Point-segment closest point is the nearest point (partial)

* Code: `geometrix/algorithm/distance/point_segment_closest_point.hpp`, `geometrix/algorithm/distance/point_segment_distance.hpp`
* Theorems: 6 in `Props/Distance.lean`
* Proof: Convexity: the clamped projection satisfies the variational inequality.
* Scope: segment overload and distance proved for all segments; the two-point overloads divide by zero for equal points (refuted)

### C18 Segment-segment closest points are a global minimum (proved)

* Code: `geometrix/algorithm/distance/segment_segment_closest_point.hpp`, `geometrix/algorithm/distance/segment_segment_distance.hpp`
* Theorems: 4 in `Props/Distance.lean`
* Proof: Case analysis of the clamping code; each case satisfies the conditions for a global minimum of a convex function on the unit square.

### C19 Point-box distance is a minimum (proved)

* Code: `geometrix/algorithm/distance/point_aabb_distance.hpp`
* Theorems: 2 in `Props/BoxDistance.lean`
* Proof: Clamping per coordinate.
* Scope: dimensions 2 and 3

### C20 Box-box distance is a minimum (proved)

* Code: `geometrix/algorithm/distance/aabb_aabb_distance.hpp`
* Theorems: 3 in `Props/BoxDistance.lean`
* Proof: Gap per coordinate.

### C21 Point to polyline and polygon distance is the minimum over all edges (partial)

* Code: `geometrix/algorithm/distance/point_polyline_distance.hpp`, `geometrix/algorithm/distance/point_polyline_closest_point.hpp`, `geometrix/algorithm/distance/point_polygon_distance.hpp`, `geometrix/algorithm/distance/point_polygon_closest_point.hpp`
* Theorems: 7 in `Props/Distance.lean`
* Proof: Induction over the edges; the closest point loop keeps the least distance so far.
* Scope: distances proved; closest point functions proved unless the first examined edge is degenerate, where they divide by zero (refuted)

### C22 Branch and bound polyline distance equals the brute force distance (proved)

* Code: `geometrix/algorithm/distance/polyline_polyline_distance.hpp`
* Theorems: 2 in `Props/PolylineDistance.lean`
* Proof: Invariant of the branch and bound loop for an arbitrary priority queue: the result is at most the least distance in the queue.
* Scope: for every priority queue

### C23 Polygon-polygon distance considers every edge (partial)

* Code: `geometrix/algorithm/distance/polygon_polygon_distance.hpp`
* Theorems: 3 in `Props/PolylineDistance.lean`
* Proof: The model of C22; the missing closing edges are exhibited with two hexagons.
* Scope: proved if one polygon has fewer than six vertices; otherwise the closing edges are ignored (refuted)

### C24 Oriented box distances are minima (partial)

* Code: `geometrix/algorithm/distance/point_obb_distance.hpp`, `geometrix/algorithm/distance/segment_obb_distance.hpp`
* Theorems: 5 in `Props/Obb.lean`
* Proof: Change of basis to the box axes.
* Scope: point distance and closest point proved; the segment distance omits the edge from corner 3 to corner 0 and the inside (refuted)

### C25 Signed area and area laws (proved)

* Code: `geometrix/primitive/point_sequence_utilities.hpp: get_signed_area, get_area, get_centroid`, `geometrix/algorithm/point_sequence/length.hpp: polyline_length, polygon_length`
* Theorems: 18 in `Props/PointSequence.lean`
* Proof: List induction; the area is compared with a fan of triangles.
* Scope: area, centroid and perimeter laws

### C26 Polyline congruence means rigid motion (proved)

* Code: `geometrix/algorithm/point_sequence/is_congruent.hpp: are_polylines_congruent, are_polygons_congruent`
* Theorems: 5 in `Props/Congruent.lean`
* Proof: Induction on the vertices; the rigid motion is built from the first edge.
* Scope: polylines and polygons without repeated consecutive points; with repeated points the test is too weak (C26_repeated_points)

### C27 Removing collinear points keeps the curve (partial)

* Code: `geometrix/algorithm/point_sequence/remove_collinear_points.hpp`
* Theorems: 13 in `Props/RemoveCollinear.lean`
* Proof: Invariant of the removal loop: the removed vertex lies between its neighbours.
* Scope: proved for polylines and polygons that do not turn back on themselves; spikes, the first polygon vertex and the end of a polygon violate it (refuted)

### C28 Splitting a polyline loses nothing (partial)

* Code: `geometrix/algorithm/point_sequence/polyline_split.hpp: polyline_split, polyline_point_at_position`, `geometrix/algorithm/point_sequence/length.hpp`
* Theorems: 6 in `Props/PolylineSplit.lean`
* Proof: Induction on the polyline with the walked length as accumulator.
* Scope: proved for positions below the total length; at the total length the last edge is lost (refuted)

### C29 Line simplification keeps every vertex within epsilon (partial)

* Code: `geometrix/algorithm/point_sequence/ramer_douglas_peucker_algorithm.hpp`
* Theorems: 7 in `Props/RamerDouglasPeucker.lean`
* Proof: The recursion over ranges is modelled with a bound on its depth, which is shown never to be reached. Proved by induction over the depth: the part of the result for a range is a subsequence of the range, and the positions of the kept vertices with the bounds that hold between them are put together from those of the two halves. **Disagreements:** the left half ends before the vertex that splits the range and its own last vertex is dropped afterwards, so that a removed vertex may be far from the result (`C29_epsilon_refuted`); an assertion fails if the second vertex of a range is the furthest (`C29_assert_refuted`).
* Scope: subsequence, end points and termination proved; the epsilon bound and the range assertion fail (refuted). For every polyline it is proved which bound the removed vertices have: with respect to the line to the vertex before the next kept one, the last removed vertex of a gap excepted (C29_chord_partial); the bound of the property only when all inner vertices are removed (C29_epsilon_partial)

### C30 Rotation is an isometry (proved)

* Code: `geometrix/algorithm/rotation.hpp`
* Theorems: 5 in `Props/Rotation.lean`
* Proof: Algebra of rotation matrices.

### C31 Splitting a segment into short pieces (proved)

* Code: `geometrix/algorithm/split_segment.hpp`
* Theorems: 2 in `Props/Rotation.lean`
* Proof: Termination by halving in an Archimedean field; order of the parameters on the segment.
* Scope: over any Archimedean ordered field, for every size that is not zero

### C32 kd-tree range search reports exactly the points in range (partial)

* Code: `geometrix/algorithm/kd_tree.hpp: kd_tree::search, build`, `geometrix/algorithm/median_partitioning_strategy.hpp`
* Theorems: 5 in `Props/KdTree.lean`
* Proof: Induction on the construction; `std::nth_element` is an arbitrary function with its contract.
* Scope: every point in range is visited exactly as often as it is stored, for every nth_element; points outside the range may be visited too (refuted)

### C33 Grid cell addressing is consistent (partial)

* Code: `geometrix/algorithm/grid_traits.hpp: grid_traits`
* Theorems: 11 in `Props/Grid.lean`
* Proof: Lemmas on the floor function; unsigned 32 bit wrap around is modelled.
* Scope: proved except for two edge cases that violate it (refuted): a grid of 2^32-1 cell widths has width zero, and the centre of a last cell may be outside the bounds

### C34 Grids behave as maps from cells to data (proved)

* Code: `geometrix/algorithm/hash_grid_2d.hpp`, `geometrix/algorithm/grid_2d.hpp`
* Theorems: 7 in `Props/GridMap.lean`
* Proof: Refinement of a finite map, for every sequence of operations; the key `(i << 32) | j` is shown injective.
* Scope: for every sequence of operations; the std::unordered_map is an association list

### C35 Bresenham traversal visits a connected path of cells between the two ends (proved)

* Code: `geometrix/algorithm/bresenham_grid_traversal.hpp`
* Theorems: 2 in `Props/Bresenham.lean`
* Proof: Invariant of the error term: it is the scaled distance to the ideal line.
* Scope: int is unbounded in the model

### C36 Fast voxel traversal follows the segment through edge adjacent cells (partial)

* Code: `geometrix/algorithm/fast_voxel_grid_traversal.hpp`
* Theorems: 4 in `Props/FastVoxel.lean`
* Proof: Invariant: `tmax` are the parameters of the next cell borders; measure: the Manhattan distance to the last cell.
* Scope: For all segments, inside the grid or clipped to it, the traversal ends, starts in the first cell, moves across edges, visits only cells that meet the segment and reaches the last cell, except for the refuted case: a segment that goes right and down and ends at a corner of cells stops one cell short. Grids of less than 2^32-1 cell widths, as in C33.

### C37 Flood fill visits exactly the reachable cells once (partial)

* Code: `geometrix/algorithm/floodfill_grid_traversal.hpp`
* Theorems: 5 in `Props/FloodFill.lean`
* Proof: Invariant: each reachable cell that is not yet coloured is connected through uncoloured cells to a cell on the stack.
* Scope: Complete for a helper that has not visited the cells before and whose next colour is not the colour of the seed. Refuted: a second traversal with the same helper does not visit again (m_visited), and after the colour counter wraps the traversal need not end.

### C38 Point in polygon agrees with the parity rule (partial)

* Code: `geometrix/algorithm/point_in_polygon.hpp`
* Theorems: 11 in `Props/ConvexParity.lean`, `Props/PointInPolygon.lean`
* Proof: The loop counts the edges that cross the ray; parity under rotation, reversal and the crossing of one edge.
* Scope: The even-odd test is complete. The classifying version is complete for the points that are on at most one side (C38_classify); refuted for a point on an even number of sides, as in a polygon that goes back along a side.

### C39 Fixed point arithmetic (partial)

* Code: `geometrix/numeric/fixed_point.hpp`, `geometrix/numeric/detail/fixed_point.hpp`, `geometrix/numeric/fixed_point_traits.hpp`
* Theorems: 20 in `Props/FixedPoint.lean`
* Proof: Integer arithmetic with the bounds of each integer type.
* Scope: Conversions from integers, addition, subtraction, multiplication, division, remainder, comparison and rounding are complete with the bounds of the integer types. Refuted: a narrow integer argument throws although its number fits; products are not rounded by the rounding policy; conversion to floating point loses the fraction, and with the binary run time scale divides by the exponent; numbers with different run time scales compare wrongly.

### C40 Intervals (partial)

* Code: `geometrix/numeric/interval.hpp`
* Theorems: 19 in `Props/Interval.lean`
* Proof: Order reasoning; an interval is specified by the set of its points.
* Scope: Expansion of closed intervals, emptiness, translation and the sum of storages proved. Refuted: expansion of half open intervals, expansion of an empty interval with a policy, intersection of touching closed or of empty intervals, scaling by a negative number, difference of storages. The order operations are proved for any ordered type, infinite ends included; the interval made with infinite ends stays empty when expanded with a policy (refuted). Arithmetic with infinite ends not modelled.

### C41 Convex hull encloses the input (partial)

* Code: `geometrix/algorithm/convex_hull_graham.hpp`
* Theorems: 10 in `Props/GrahamScan.lean`
* Proof: Stack invariant: the stack is a convex chain around the lowest point. A point between the lowest point and the top of the stack may be pushed, and is removed by the next point whatever it is; at the end it may stay. The contract of `std::sort` is a parameter.
* Scope: Hull proved when the lowest point is first and the first and the last ray from it hold one point each, with any number of points on the rays between; with several points on the last ray the list may have one more entry, inside of the last side (C41_last_ray_partial). The list is clockwise, not counterclockwise. Refuted: find_lowest does not bring the lowest point to the front (C41_front states which point it brings there), two points on the first ray break the assertion, a point inside of the last side may stay in the list.

### C42 LUP solve solves the system (partial)

* Code: `geometrix/algebra/lup_decomposition.hpp`
* Theorems: 5 in `Props/Lup.lean`
* Proof: Elimination invariant: after each step the permuted matrix is the product of the factors so far.
* Scope: Proved for the unrolled decomposition, the default: factors, solution, and an exception exactly for singular matrices. The run time variant does not check the last pivot (refuted).

### C43 Determinant is the Leibniz determinant (proved)

* Code: `geometrix/arithmetic/detail/determinant.hpp`, `geometrix/algebra/functions/determinant.hpp`
* Theorems: 4 in `Props/Determinant.lean`
* Proof: Induction on the size; equality with `Matrix.det` of Mathlib through the Laplace expansion.
* Scope: Every size; the code generates the sizes 1 to 10 by macro. Equal to the sum over permutations, multiplicative, zero exactly for singular matrices, sign change under row exchange.

### C44 Vector operations (partial)

* Code: `geometrix/arithmetic/vector/normalize.hpp`, `geometrix/arithmetic/vector/perp.hpp`, `geometrix/arithmetic/vector/bisect.hpp`, `geometrix/algebra/exterior_product.hpp`
* Theorems: 13 in `Props/Vector.lean`
* Proof: Algebra over the reals.
* Scope: normalize, the normals, the cross product and the volume are proved. bisect halves the angle only for vectors of the same length in different directions (C44_bisect_partial); it is refuted for different lengths and for parallel vectors. exterior_product_area in space is the sum of the components of the cross product, refuted as an area.

### C45 Polyline-polyline intersection visits every crossing (partial)

* Code: `geometrix/algorithm/intersection/polyline_polyline_intersection.hpp`, `geometrix/algorithm/intersection/segment_polyline_intersection.hpp`
* Theorems: 3 in `Props/PolylineIntersection.lean`
* Proof: The calls made are compared with `Spec.callUntil`, for every visitor with a state.
* Scope: segment_polyline_intersect is proved for every visitor with state. polyline_polyline_intersect stops after the first edge of the first polyline that meets the second: refuted by a count, the partial theorem says exactly which calls are made and that the returned value is right. Edges of length zero are excluded.

### C46 Memoization is transparent (proved)

* Code: `geometrix/utility/memoize.hpp: memoize`
* Theorems: 3 in `Props/Memoize.lean`
* Proof: Invariant: each entry of the cache is the value of the function for its key.
* Scope: Any strict weak order of the keys and any starting cache with correct entries. The function must agree on arguments with the same key (C46_key_refuted shows that this is needed when the key type identifies arguments). Recursive use of the same cache is not modelled.

### C47 Polygon simplicity test (partial)

* Code: `geometrix/algorithm/point_sequence/is_polygon_simple.hpp`
* Theorems: 7 in `Props/PolygonSimple.lean`
* Proof: The index loops are shown to meet exactly the non adjacent pairs; overlapping neighbours force another pair to touch.
* Scope: Proved for polygons of at least four vertices without zero edges, and for non-degenerate triangles; degenerate triangles are refuted (always called simple). Memoized and plain versions agree. Polygons with holes: proved for rings of at least four vertices.

### C48 Angle normalisation (proved)

* Code: `geometrix/utility/utilities.hpp: normalize_angle_0_2pi, normalize_angle_minus_pi_to_pi`
* Theorems: 3 in `Props/AngleNormalize.lean`
* Proof: The floor is the unique number of whole turns.
* Scope: Over the reals with the exact value of pi. A full turn stays a full turn in [0, 2pi] (C48_0_2pi_ends); the other function gives a value in (-pi, pi], the same for all angles that differ by whole turns.

### C49 Collinear segment difference and union (partial)

* Code: `geometrix/utility/utilities.hpp: collinear_segment_difference, collinear_segment_union`
* Theorems: 5 in `Props/CollinearSegments.lean`
* Proof: Reduction to intervals of a line: all segments are `o + t v` for `t` in an interval, the comparator is the order of separated intervals.
* Scope: For every std::set of separate collinear segments. The union is proved. The difference covers all points outside the subtracted segment and none inside it; ends of the subtracted segment that do not end a remaining part are lost (C49_difference_refuted). The union with a segment of length zero is refuted (C49_union_point_refuted).

### C50 Arc length (proved)

* Code: `geometrix/algorithm/point_sequence/length.hpp`, `geometrix/algorithm/point_sequence/polyline_mid_point.hpp`
* Theorems: 6 in `Props/ArcLength.lean`
* Proof: Consequences of the sum of distances from C25 and C28, triangle inequality.
* Scope: Plane polylines over the reals. The mid point needs positive length (see C56_mid_point_faults for the rest).

### C51 Oriented intersection of segments (partial)

* Code: `geometrix/algorithm/orientation.hpp: oriented_intersection`
* Theorems: 6 in `Props/OrientedIntersection.lean`
* Proof: All positions of the four points: off the line, collinear, shared end, touching.
* Scope: Right when neither end of the first segment is on the line of the second, and for collinear segments without a common end. An end of the first segment inside the second is reported as no crossing (C51_touching_refuted); overlapping segments with a common end are reported as endpoint (C51_shared_end_refuted).

### C52 Squared point distance in any dimension (partial)

* Code: `geometrix/algorithm/distance/point_point_distance.hpp`
* Theorems: 2 in `Props/SegmentPolylineDistance.lean`
* Proof: Unfolding of the preprocessed overloads for each dimension.
* Scope: proved for one to four dimensions, refuted for five

### C53 Closest points of a segment and a polyline or polygon (proved)

* Code: `geometrix/algorithm/distance/segment_polyline_closest_point.hpp`, `geometrix/algorithm/distance/segment_polygon_closest_point.hpp`, `geometrix/algorithm/distance/segment_polyline_distance.hpp`, `geometrix/algorithm/distance/segment_polygon_distance.hpp`
* Theorems: 3 in `Props/SegmentPolylineDistance.lean`
* Proof: The loop that keeps the first least value, on top of C18.

### C54 Closest points of two polylines or polygons (partial)

* Code: `geometrix/algorithm/distance/polyline_polyline_closest_point.hpp`, `geometrix/algorithm/distance/polygon_polygon_closest_point.hpp`
* Theorems: 5 in `Props/PolylineDistance.lean`
* Proof: The invariant of C22 with the outputs added.
* Scope: proved if one input has fewer than six points; otherwise the outputs are not written when the first points are closest, and closing edges of polygons are ignored (both refuted)

### C55 Identified polygon vertices are the removed ones (partial)

* Code: `geometrix/algorithm/point_sequence/remove_collinear_points.hpp: identify_collinear_points_polygon, identify_adjacent_points_polygon`
* Theorems: 3 in `Props/RemoveCollinear.lean`
* Proof: The positions and the removal loop of C27 in lockstep.
* Scope: adjacent points proved; identify_collinear_points_polygon reports the wrong positions (refuted)

### C56 The mid point of a polyline halves its length (proved)

* Code: `geometrix/algorithm/point_sequence/polyline_mid_point.hpp`
* Theorems: 2 in `Props/PolylineSplit.lean`
* Proof: C28 at half of the length.
* Scope: polylines of positive length

### C57 Position of a point on a polyline (partial)

* Code: `geometrix/algorithm/point_sequence/length.hpp: point_on_polyline_length_characteristics`
* Theorems: 3 in `Props/PolylineSplit.lean`
* Proof: Induction on the polyline.
* Scope: proved for polylines without repeated consecutive points; refuted with them

### C58 Distance of a point from a line (proved)

* Code: `geometrix/algorithm/distance/point_line_distance.hpp`, `geometrix/primitive/line.hpp`
* Theorems: 3 in `Props/Line.lean`
* Proof: Decomposition along the unit direction of the line.

### C59 Flood fill of a polygon visits whole columns once (proved)

* Code: `geometrix/algorithm/floodfill_grid_traversal.hpp`
* Theorems: 1 in `Props/FloodFill.lean`
* Proof: Bounds per column as minimum and maximum of the boundary cells; visits by `scan` and `mark_boundary`.
* Scope: The polygon overload; the overload for polygons with holes is not modelled.

### C60 Tests for convex polygons and triangles (partial)

* Code: `geometrix/algorithm/point_in_polygon.hpp`
* Theorems: 9 in `Props/Convex.lean`, `Props/ConvexParity.lean`
* Proof: Induction on the fan that the bisection narrows; convexity orders the vertices by angle.
* Scope: Complete for strictly convex counterclockwise polygons, quadrilaterals and plane triangles. The test in space holds for points of the plane of the triangle off the line BC; refuted on that line and off the plane.

### C61 Matrix inverse is a two-sided inverse (proved)

* Code: `geometrix/arithmetic/matrix_arithmetic.hpp:215-270`, `geometrix/arithmetic/detail/determinant.hpp:138-189`, `geometrix/tensor/matrix_minor_adaptor.hpp:121-144`
* Theorems: 3 in `Props/Determinant.lean`
* Proof: Equality with Mathlib's adjugate and inverse.
* Scope: matrix_product_element, adjugate_at_index and inverse_at_index for every size of at least 2; the inverse of a singular matrix throws in every element.

### C62 Concave vertices (proved)

* Code: `geometrix/primitive/point_sequence_utilities.hpp: next_index, prev_index, is_point_concave`
* Theorems: 4 in `Props/ConcaveVertex.lean`
* Proof: The cyclic index functions are inverse; the concavity test is the sign of the doubled area.
* Scope: Every polygon; an index outside the polygon reads out of range.

### C63 First point of a ray, a segment or a polyline on a sphere (proved)

* Code: `geometrix/algorithm/intersection/ray_sphere_intersection.hpp: ray_sphere_intersection`, `geometrix/algorithm/intersection/segment_sphere_intersection.hpp: segment_sphere_intersection`, `geometrix/algorithm/intersection/sphere_polyline_intersection.hpp: sphere_polyline_intersect`
* Theorems: 7 in `Props/SphereHits.lean`
* Proof: The parameter is a root of a quadratic; a convexity argument shows that no earlier point is in the ball. The polyline version is by induction over the edges.
* Scope: Exact arithmetic over the reals, direct policy; unit direction for rays; segments of positive length. For a segment of length zero the point q is not written (C63_segment_point) and the version with two parameters divides by zero (C63_roots_point).

### C64 First contact of two moving spheres (partial)

* Code: `geometrix/algorithm/intersection/moving_sphere_sphere_intersection.hpp: moving_sphere_sphere_intersection`
* Theorems: 6 in `Props/MovingSpheres.lean`
* Proof: The difference of the centres is a moving point against a disc with the sum of the radii; reduced to the quadratic of C63.
* Scope: Right when the discs are apart at the start, or touch and approach each other. Touching discs that do not approach are missed (C64_touching_refuted), q is not written for discs that overlap at the start (C64_overlap_refuted), two points fail an assertion (C64_points_refuted).

### C65 First contact of a moving sphere with a line (proved)

* Code: `geometrix/algorithm/intersection/moving_sphere_plane_intersection.hpp: moving_sphere_plane_intersection`
* Theorems: 1 in `Props/MovingSphere.lean`
* Proof: The signed distance of the centre to the line is an affine function of the time; all cases of its sign and slope.
* Scope: Plane version, direct policy, exact arithmetic.

### C66 First contact of a moving sphere with a segment (partial)

* Code: `geometrix/algorithm/intersection/moving_sphere_segment_intersection.hpp: moving_sphere_segment_intersection`
* Theorems: 4 in `Props/MovingSphere.lean`
* Proof: In the coordinates of the segment: the first contact with the line is the first contact with the segment if it falls inside; otherwise a disc that meets the segment later has met the nearer end before, so the first contact with that end is taken.
* Scope: Right for positive radius unless the disc touches an end of the segment at the start without approaching it. A touching disc that moves along the tangent is missed (C66_touching_refuted), q may be off the segment for discs that overlap an end at the start (C66_overlap_refuted), radius zero fails an assertion (C66_point_refuted).

### C67 First contact of a moving sphere with a box (partial)

* Code: `geometrix/algorithm/intersection/moving_sphere_aabb_intersection.hpp: moving_sphere_aabb_intersection`
* Theorems: 3 in `Props/MovingSphere.lean`
* Proof: The disc meets the box only when the centre is in the expanded box; at the entry into it, the region decides between the contact with a side, which is immediate, and the corner, which by convexity is met before the rest of the box, so the two edges at the corner decide.
* Scope: Right when the centre starts outside the box expanded by the radius, for boxes with interior and positive radius. If it starts inside, the region is taken from the point at which the ray leaves the expanded box: discs that are apart may be reported at time zero (C67_apart_refuted) and discs that overlap the box may be missed at time zero (C67_overlap_refuted).

### C68 First point of a segment in a capsule (partial)

* Code: `geometrix/algorithm/intersection/segment_capsule_intersection.hpp: segment_capsule_intersection`
* Theorems: 3 in `Props/Capsule.lean`
* Proof: The first entry into the strip around the axis is a root of a quadratic; if it is beyond an end, a point in the capsule is preceded by a point in the cap, and C63 gives the first of those.
* Scope: Right for segments that are not parallel to the axis and start outside. Parallel segments divide by zero, as the test abs(a) < 0 never holds with exact comparison (C68_parallel_refuted); a segment that starts inside and leaves is reported as a miss (C68_inside_refuted).

### C69 Common point of a segment and a plane (proved)

* Code: `geometrix/algorithm/intersection/segment_plane_intersection.hpp: segment_plane_intersection`
* Theorems: 3 in `Props/Capsule.lean`
* Proof: The equation of the parameter is linear.
* Scope: Plane and space, any ordered field. That the segment is not parallel is a precondition; otherwise the quotient divides by zero (C69_parallel).

### C70 Sphere and oriented box (proved)

* Code: `geometrix/algorithm/intersection/sphere_obb_intersection.hpp: sphere_obb_intersection`
* Theorems: 1 in `Props/Capsule.lean`
* Proof: From C24: the closest point of the box is in the disc or no point is.
* Scope: Any ordered field.

### C71 Clipping the ends of a polyline (proved)

* Code: `geometrix/algorithm/point_sequence/clip_polyline_ends.hpp: clip_polyline_front, clip_polyline_back, clip_polyline_ends`
* Theorems: 6 in `Props/PolylineClip.lean`
* Proof: Induction over the points for the front; the back is the front of the reversed polyline, and reversing preserves lengths and cuts.
* Scope: Plane polylines over the reals with exact square root and comparison, lengths at least zero. If the length is that of the polyline, a part of length zero may be left (C71_all).

### C72 Curvature of a polyline (proved)

* Code: `geometrix/algorithm/point_sequence/curvature.hpp: polyline_signed_curvature_at_index, polyline_total_curvature_over_index, polyline_total_curvature, polyline_total_absolute_curvature`
* Theorems: 6 in `Props/Curvature.lean`
* Proof: The square root of the product of squared distances is the product of the distances; that four times the area over the product of the sides is the reciprocal of the circumradius is an identity in the coordinates. The sums by induction over the points.
* Scope: Plane polylines over the reals. NoFolds (three consecutive vertices distinct) is a precondition; otherwise there is a division by zero (C72_fold).

### C73 Splitting a polyline by its curvature (proved)

* Code: `geometrix/algorithm/point_sequence/curvature.hpp: inflection_points, split_polyline_by_inflection_points, split_by_total_curvature`
* Theorems: 4 in `Props/Curvature.lean`
* Proof: Both splitting loops are instances of cutting a list at the indices where a predicate holds; what that gives is proved once. For the total curvature the running sum is the sum since the last cut.
* Scope: Plane polylines over the reals, under NoFolds. The empty polyline is read beyond its end (C73_short).

### C74 Self intersections of a polyline (partial)

* Code: `geometrix/algorithm/point_sequence/self_intersection.hpp: polyline_self_intersection`
* Theorems: 4 in `Props/SelfIntersection.lean`
* Proof: Each pair of edges is classified as in C09; consecutive edges are skipped by the code exactly if they meet in one point only. The order of the calls by induction over the list of pairs.
* Scope: A polyline that goes straight on at a vertex is reported as intersecting itself, because collinear segments that touch count as overlapping (C74_straight_refuted). Without straight vertices the property holds (C74_visits_partial, C74_simple_partial); C74_exact says what is reported in general. Edges of length zero are excluded.

### C75 Polylines and polygons inside a polygon (proved)

* Code: `geometrix/algorithm/point_sequence/polygon_polyline_containment.hpp: polygon_polyline_containment`, `geometrix/algorithm/point_sequence/polygon_polygon_containment.hpp: polygon_polygon_containment`, `geometrix/algorithm/intersection/segment_projects_outside_polygon.hpp: segment_projects_outside_polygon`
* Theorems: 4 in `Props/PolygonContainment.lean`
* Proof: The points collected on the segment contain every vertex of the polygon on it and every crossing with a side that is not parallel; between consecutive ones the segment either stays off the border or runs along one side (gap_cases), so by the parity of crossings (C38) it is inside or outside throughout and the middle decides. At a crossing inside a side the parity changes. Edges that do not reach the border are inside or outside throughout, and the edges hang together.
* Scope: Exact arithmetic, direct comparison. The containing polygon is simple, so that the parity rule is what the code computes for its points. For two polygons the claim is about the border of the first one; that then its interior is contained as well is a fact about plane polygons that is not proved here.

### C76 Part of the border of a polygon near a point (proved)

* Code: `geometrix/algorithm/point_sequence/find_subsequence.hpp: find_containing_polygon_border_segment, find_closest_polygon_border_segment, find_containing_or_closest_polygon_border_segment, polygon_subsequence_half, polygon_subsequence`
* Theorems: 8 in `Props/Subsequence.lean`
* Proof: The search loops by induction over the remaining sides. The walk: one step either stops inside the next side or passes its end, and the points and the length of the rest are those of the walk from there (walk_far, walk_pass). It ends because the vertices repeat, so the length walked exceeds every bound (walkLength_large). The given point lies between the first points of the two halves.
* Scope: Exact arithmetic; the walk over the reals. A polygon with one vertex is read beyond its end (C76_single), if all vertices are equal the loop does not end (C76_diverges), and without a positive length the result is empty (C76_nothing). Distances are taken to be smaller than the largest number.

### C77 Intersection of convex polygons (partial)

* Code: `geometrix/algorithm/intersection/separating_axis_convex_polygons.hpp: convex_polygons_intersection`, `geometrix/algorithm/intersection/detail/separating_axis_common.hpp: get_extreme_index`
* Theorems: 8 in `Props/SeparatingAxis.lean`
* Proof: Separating axis theorem: if no side of either polygon has the other strictly outside, any three of the half-planes of all sides share a vertex, so by Helly's theorem all share a point; a point inside all sides is in a triangle of the fan from the first vertex. A vertex not below its two neighbours is the furthest (local_max). The bisection keeps the invariant that its second index is 0 or not followed by a rise. For the pentagon the state (0,0) returns after three rounds.
* Scope: Counterclockwise polygons are judged by the wrong side of each edge: a triangle inside another is reported as not intersecting (C77_counterclockwise_refuted). The search for the furthest vertex may give a wrong one already for four vertices (C77_extreme_refuted, C77_quadrilateral_refuted) and may not end for five (C77_diverges_refuted). Proved for clockwise triangles and parallelograms, for clockwise polygons for which the search is right, and for the answer true of clockwise polygons of any size.

### C78 Two moving boxes (proved)

* Code: `geometrix/algorithm/intersection/moving_obb_obb_intersection.hpp: moving_obb_obb_intersection`, `geometrix/algorithm/intersection/detail/separating_axis_common.hpp: no_intersect`
* Theorems: 2 in `Props/SeparatingAxis.lean`
* Proof: no_intersect keeps the interval [tfirst, tlast] equal to the times from 0 on at which the axes so far overlap (noIntersect_spec); at a fixed time the four axes decide by C15.
* Scope: Exact arithmetic. With a negative tmax boxes that overlap at the start are reported (C78_negative_tmax).

### C79 Two moving convex polygons (partial)

* Code: `geometrix/algorithm/intersection/moving_separating_axis_convex_polygons.hpp: moving_convex_polygons_intersection`, `geometrix/algorithm/intersection/detail/separating_axis_common.hpp: compute_interval, get_extreme_index, no_intersect`
* Theorems: 5 in `Props/SeparatingAxis.lean`
* Proof: As C78, with the axes of all sides; at a fixed time by the separating axis theorem of C77 for the shifted polygon. Intervals with wrong ends are too small, never too large, so an overlap on all axes is real.
* Scope: The search for the furthest vertex fails as in C77 (C79_quadrilateral_refuted, C79_diverges_refuted). Proved for triangles and parallelograms in either order, for polygons for which the search is right, and for every answer that polygons meet.

### C80 Points in a solid leaf tree (partial)

* Code: `geometrix/algorithm/solid_leaf_bsp_tree.hpp: solid_leaf_bsp_tree, build_tree, split_simplex, point_in_solid_space`, `geometrix/algorithm/classify_simplex_to_plane.hpp: classify_point_to_plane, classify_simplex_to_plane`, `geometrix/algorithm/hyperplane_partition_policies.hpp: autopartition_policy, scored_selector_policy`, `geometrix/primitive/hyperplane_traits.hpp: make_hyperplane`
* Theorems: 4 in `Props/SolidBsp.lean`
* Proof: The tree is related to the list of half planes of each cell by an inductive predicate (Built): the parts in a list are in the closed cell, cover the border in the open cell, and are used only if the cell is in front of them. The leaves hold no border in their open cells, so the solid is constant there; next to the last dividing part it is known. For two sides on a line the back of the second division is an empty cell with the flag solid: its closure is the line, hence the wrong class.
* Scope: A point between two sides on the same line is classed as on the boundary (C80_refuted). Proved for all points off the lines of the sides, and for all points if no two sides are on a line.

### C81 The distance from the border of a solid leaf tree (proved)

* Code: `geometrix/algorithm/solid_leaf_bsp_tree.hpp: get_min_distance_sqrd_to_solid, get_min_distance_sqrd_to_solid_impl, build_tree`
* Theorems: 2 in `Props/SolidBsp.lean`
* Proof: Every point of a side is on a part in some leaf, whose number is looked at; a subtree that is skipped is on the other side of a line at least as far away as the best so far. The normals are unit vectors.
* Scope: Exact arithmetic; also for sides that are not the border of a solid.

### C82 Rays and a solid leaf tree (partial)

* Code: `geometrix/algorithm/solid_leaf_bsp_tree.hpp: ray_intersection, ray_intersection_only_border, ray_intersection_impl, find_closest_hit`
* Theorems: 4 in `Props/SolidBsp.lean`
* Proof: For a start on no line the pieces of the ray on the stack are exactly the intersections of the ray with the closed cells, one after the other (RayChain), so the loop finds the first parameter in the closure of a solid leaf. With C80 the closures of the solid leaves make up the closed solid.
* Scope: Wrong for a ray that starts on the line of a side and goes to its front (C82_on_line_refuted), for two sides on a line (C82_two_on_a_line_refuted), and ray_intersection_only_border from inside stops at a dividing line (C82_only_border_refuted). Proved for starts off the lines of the sides if no two sides are on a line, for ray_intersection_only_border from outside the solid.

### C83 Locating a point with a node tree (partial)

* Code: `geometrix/algorithm/node_bsp_tree_2d.hpp: node_bsp_tree_2d, insert, classify, locate_point, first_segment_selector_policy, scored_segment_selector_policy`
* Theorems: 6 in `Props/NodeBsp.lean`
* Proof: A tree is described by the list of segments it was made of (NodeOf), which insert extends. Each node belongs to an open convex cell; its segments are the parts of the sides in the cell. A point off the border, in the closure of a cell without border, is like a point of the cell next to the splitting segment. A node without children cannot be reached by a point off the border on its line.
* Scope: Right for every point that is not on a side (C83_off_border). A point of a side which is also on the line of another side may be reported outside (C83_on_border_refuted); e_boundary is proved for points of the sides that are on no line of a side not containing them.

### C84 Painter's traversal of a node tree (partial)

* Code: `geometrix/algorithm/node_bsp_tree_2d.hpp: painters_traversal, classify`
* Theorems: 6 in `Props/NodeBsp.lean`
* Proof: By induction on the tree: the parts below the negative child are on the closed right of the splitting line and the parts below the positive child on its closed left; a point in front of another, seen from the strict left, is not on the right. The relation CutInto of the specification describes cutting of segments, up to their order.
* Scope: Proved for viewpoints on no line of a side. For a viewpoint on a splitting line the segments on it are skipped (C84_skipped_refuted) or visited in an order that may be wrong (C84_order_refuted); for all other segments it holds for any viewpoint.

### C85 The scored selector of the node tree (partial)

* Code: `geometrix/algorithm/node_bsp_tree_2d.hpp: scored_segment_selector_policy`
* Theorems: 2 in `Props/NodeBsp.lean`
* Proof: The counters are the numbers of segments with the three combinations of signs; the loop keeps the first minimum. The scores are whole numbers (five times the score) in place of double.
* Scope: The arguments of classify are exchanged, the score counts the lines of the other segments that cut the segment (C85_refuted). Proved: the answer is the first segment with the smallest exchanged score.

### C86 Construction of a triangle mesh (partial)

* Code: `geometrix/algorithm/mesh_2d.hpp: mesh_2d_base constructor, calculate_weights`
* Theorems: 5 in `Props/Mesh.lean`
* Proof: The loop over the triples is compared with a filter of the list of triples (Forall₂); the table is the running sum divided by the total.
* Scope: A triple of three different points on one line is kept as a triangle of the mesh although it is degenerate, and a mesh of such triangles divides by zero (C86_degenerate_refuted). All other parts hold: the assertion, the triangles kept, their order and orientation, the table of areas.

### C87 Random positions in a mesh (partial)

* Code: `geometrix/algorithm/mesh_2d.hpp: get_random_position`
* Theorems: 7 in `Props/Mesh.lean`, `Props/MeshUniform.lean`
* Proof: std::lower_bound on the table is a binary search; the table is non-decreasing with last entry 1. The point is the combination with weights 1-sqrt(r1), sqrt(r1)(1-r2), sqrt(r1)r2, so the cut-off parts are rectangles in (r1, r2) whose area is the ratio of the areas. The map from (r1, r2) to the triangle is injective up to a set of measure zero and its Jacobian determinant is the area of the triangle everywhere, so that by the change of variables formula the measure of the numbers is the share of the area, for every measurable set.
* Scope: The assertions on r1 and r2 (mesh_2d.hpp:208-209) test rT once more, so that a number out of range gives a point outside the mesh (C87_range_refuted). For numbers between 0 and 1 the claim is proved: the positions are uniformly distributed in the mesh (C87_distribution, C87_uniform_mesh).

### C88 Adjacency of the triangles of a mesh (proved)

* Code: `geometrix/algorithm/mesh_2d.hpp: get_adjacency_matrix, get_triangle_indices, is_adjacent_side, get_triangle_adjacent_side`
* Theorems: 6 in `Props/MeshAdjacency.lean`
* Proof: flat_map from sorted pairs to lists of sides as an ordered association list; soundness and completeness of the links by induction over the pairs of sides.
* Scope: The mutual part has the precondition that no side occurs twice in the same direction; C88_overlap shows that it is needed.

### C89 Test of a triangle and a box (proved)

* Code: `geometrix/algorithm/eberly_triangle_aabb_intersection.hpp: eberly_triangle_aabb_intersection_2d`
* Theorems: 3 in `Props/TriangleBox.lean`
* Proof: The test is true of an axis exactly if the projections are apart (the normal is scaled by a positive number). Without such an axis the half planes of the box and the triangle have a common point by Helly's theorem; flat triangles are segments, for which C12 is used.
* Scope: Precondition: three different vertices and a box whose low corner is not above its high corner.

### C90 Finding the triangle of a point (partial)

* Code: `geometrix/algorithm/mesh_2d.hpp: triangle_grid_cache, mesh_2d constructor, find_triangle`, `geometrix/algorithm/eberly_triangle_aabb_intersection.hpp: eberly_triangle_aabb_intersection_2d`, `geometrix/algorithm/grid_2d.hpp`, `geometrix/algorithm/grid_traits.hpp`
* Theorems: 4 in `Props/MeshFind.lean`
* Proof: The sets of the cells after the loops are described exactly (an index is in the set of a cell if the cell is in the range of the box of the triangle and the test C89 is true). The cell of a point of a triangle has a point in common with the triangle, so C89_tolerance gives that the index is in the set; the sets are ascending, so the first match is the lowest index. Only the dense grid is modelled.
* Scope: Proved for meshes without flat triangles (C90_find). A flat triangle is kept by the constructor and is found for every point of its line in one of its cells, also outside it (C90_flat_refuted); what holds for all meshes is C90_find_partial.

### C91 Polylines, polygons and boxes (partial)

* Code: `geometrix/algorithm/intersection/polyline_aabb_intersection.hpp: polyline_aabb_intersection`, `geometrix/algorithm/intersection/polygon_aabb_intersection.hpp: polygon_aabb_intersection`
* Theorems: 5 in `Props/PolygonBox.lean`
* Proof: The exact test of a segment and a box is C12. If no side meets the box, the corners of the box and all its points are on the same side of the border (the parity does not change along a segment that does not meet the border, C38/C43), so one corner decides.
* Scope: Proved for the test of a segment and a box without its epsilon (C91_polyline, C91_polygon). With the epsilon of the code no common point is missed (C91_epsilon_partial), but some polylines and polygons outside the box are reported (C91_epsilon_refuted). A polygon of one vertex is read out of range (C91_single_refuted).

### C92 Segments and the border of a polygon (proved)

* Code: `geometrix/algorithm/intersection/segment_polygon_intersection.hpp: segment_polygon_border_intersect`
* Theorems: 2 in `Props/SegmentPolygon.lean`
* Proof: Loop over the sides with C09 for the answer on each side; calls up to the stop are the function callUntil of the specification.
* Scope: C92_single_refuted shows that the precondition of two or more vertices is needed: a polygon of one vertex is read out of range.

### C93 Intersection of two convex polygons (partial)

* Code: `geometrix/algorithm/intersection/convex_polygon_polygon_intersection.hpp: convex_polygon_polygon_intersection`
* Theorems: 9 in `Props/ConvexWalk.lean`
* Proof: The variables of the loop are a record, one turn a function; the number of turns is bounded by a measure that falls with each advance (the counters are set back at most once). Invariant of the walk: points visited are on both borders or are vertices, a flag is set only after a visit. face: two sides on one line in opposite directions leave exactly the overlap of the sides as common part. none: two parallel sides with each other on the right separate the polygons. With disjoint borders nothing is visited and the last tests decide, by the equality of the parity test and the half plane test on convex polygons (C38_convex). C93_crossing: the sides of both polygons are numbered on and on, and each number gets an angle that grows and gains four (a full turn) per round, by a rational measure of angles. The invariant of the walk is that the angles of the two current sides differ by at most a half turn. A crossing is a pair of numbers whose angles differ by less than a half turn; the rule of advance never passes a crossing in one coordinate only, so the walk meets every crossing, and crossings are ordered in both coordinates. The flag says whether the start of the current side is inside, corrected by the crossings already passed on it, so heads of sides are visited exactly if they are inside. C93_touching: at a common point the side that comes to it and the side that leaves it are taken for each polygon, all four with angles within a half turn before the direction to the common inner point. The rule of advance cannot pass the pair (leaving side of the first, coming side of the second) in the first coordinate, nor the pair (coming, leaving) in the second, so one of the four pairs is looked at and the point is visited; from the first visit on, at most two more turns set the flag.
* Scope: Proved: the bound on the turns and the possible faults (C93_total); if the borders meet and no vertex of one polygon is on the border of the other, the answer is overlapping and the visitor gets each vertex of the common part exactly once (C93_crossing); in any position in which sides cross, the answer is overlapping and every point where sides cross is visited (C93_sides_cross); if the polygons have a common point inside and the borders meet, with vertices on sides or on vertices as they may but not along parallel sides, the answer is overlapping and every common point of the borders is visited (C93_touching); the answers if the borders are disjoint (C93_apart_partial); in every position each answer but none means a common point, face means that the common part is the segment between the last two points given, and the points visited are on both borders or vertices (C93_answer_partial). Missing: borders that meet along parallel sides, polygons that touch from outside, and which inner vertices are visited if a vertex of one polygon is on the border of the other. The code fails for a first polygon inside a second one with another number of vertices (C93_inside_refuted) and visits some points twice (C93_repeat_refuted).

### C94 Segments in a range of directions (partial)

* Code: `geometrix/algorithm/is_segment_in_range.hpp: is_segment_in_range_2d (both overloads)`
* Theorems: 7 in `Props/SegmentRange.lean`
* Proof: Membership in the cone is equivalent to two signs of cross products; along the segment these are affine in the parameter. Ends outside and not beyond the same line leave two mirrored cases, in which meeting the cone is equivalent to meeting one ray (both rays, for the part). The intersections come from C10_line_segment and C11_ray_segment. For a cone of at least a quarter turn the two scalar products the code asks for are positive in these cases.
* Scope: Proved: the overload without points for all cones of less than half a turn, but for segments between the two opposite rays (C94_range_partial); the overload with points for cones of at least a quarter turn and segments whose ends are on neither line and that do not meet the ray opposite to the first direction (C94_points_partial). The code fails in the other cases (C94_opposite_refuted, C94_reflex_refuted, C94_points_opposite_refuted, C94_points_acute_refuted, C94_points_touch_refuted).

### C95 Side of a polyline (partial)

* Code: `geometrix/algorithm/point_sequence/point_polyline_orientation.hpp: point_polyline_orientation (both overloads)`
* Theorems: 3 in `Props/PolylineSide.lean`
* Proof: The loop keeps the first edge at the least distance, so the start of the kept edge is the closest point only for the first edge. If a vertex is the closest point, the scalar products of the vector to the point with both edge directions are not positive, so the vector is not in the cone between them and the test of the code is never true there; the sector is then decided by the turn alone.
* Scope: Proved for all points but those behind the start of a polyline of three or more vertices (C95_side_partial); points on the polyline are collinear (C95_on). Behind the start the code takes the second vertex for the closest point, because the parameter of the closest point is not limited to [0,1], and may answer with the wrong side (C95_start_refuted).

### C96 Interpolation and projection of vectors (partial)

* Code: `geometrix/arithmetic/vector/slerp.hpp: slerp`, `geometrix/arithmetic/vector/lerp.hpp: lerp`, `geometrix/algebra/vector_projection.hpp: vector_projection`
* Theorems: 5 in `Props/Interpolation.lean`
* Proof: Vectors are functions from Fin n to the reals. With sine and cosine of the angle and of t times the angle as four numbers, the claims follow from the addition theorems and the two Pythagorean identities.
* Scope: slerp is proved for unit vectors that are not opposite (C96_slerp_partial, C96_slerp_ends); for opposite ones it divides by zero (C96_slerp_opposite_refuted). lerp and vector_projection are proved in full (C96_lerp, C96_projection).

### C97 Polylines parallel to a polyline (partial)

* Code: `geometrix/algorithm/point_sequence/polyline_offset.hpp: polyline_offset`, `geometrix/algorithm/point_sequence/polyline_offset.hpp: detail::untrimmed_offset`, `geometrix/arithmetic/vector/perp.hpp: oriented_normal`
* Theorems: 6 in `Props/PolylineOffset.lean`
* Proof: Being at the given distance on the given side of an edge is an equation for twice a signed area. The moved ends satisfy it, hence all points of the line of the moved edge, and by C10 the crossing of two such lines satisfies both. The loops are followed by induction with the last point pushed as parameter. The point that line_line_intersect leaves unset is a parameter of the model.
* Scope: polyline_offset is proved for polylines that turn at every inner vertex (C97_offset_partial); where the polyline goes straight on it pushes an unset point (C97_straight_refuted). The untrimmed offset is proved for polylines that never turn straight back (C97_untrimmed_partial); there it pushes nothing (C97_uturn_refuted). Fewer than two points fail the assertion (C97_short).

### C98 Cutting a polyline where it meets itself (partial)

* Code: `geometrix/algorithm/point_sequence/polyline_offset.hpp: detail::self_intersection_set`, `geometrix/algorithm/point_sequence/polyline_offset.hpp: detail::split`, `geometrix/algorithm/point_sequence/polyline_offset.hpp: liu_polyline_offset`
* Theorems: 6 in `Props/PolylineCut.lean`
* Proof: The std::set is a list kept in order. Two points of an edge at the same distance from its start are equal, so inserting loses nothing. The loop of split is shown equal to the pieces of a marked list, and that list has the points of the polyline because points of an edge in order of distance split the edge in parts. Which pieces liu_polyline_offset keeps follows from C45.
* Scope: The set of intersections and the pieces are proved in full (C98_set, C98_split, C98_cover). Of liu_polyline_offset it is proved which pieces it returns (C98_liu_partial); the result may be closer to the polyline than the given distance (C98_liu_close_refuted).

### C99 Which segment divides the others in a solid leaf tree (proved)

* Code: `geometrix/algorithm/hyperplane_partition_policies.hpp: autopartition_policy`, `geometrix/algorithm/hyperplane_partition_policies.hpp: scored_selector_policy`
* Theorems: 2 in `Props/BspSelector.lean`
* Proof: The counting loop of the score is a fold, shown equal to three counts over the list without the segment. The selecting loop keeps the first minimum, by induction over the rest of the list.
* Scope: Both selectors, for exact comparison.

## Disagreements between code and properties

Each is proved with a concrete witness. The text is the comment of the theorem.

* `C02_absolute_refuted`: C02 is false for the absolute policy with any positive tolerance: incomparability is not transitive, so `less_than` must not be given to `std::sort` or `std::set`.
* `C02_relative_refuted`: C02 is false for the relative policy with any positive tolerance below one.
* `C03_coordinate_less_compare_refuted`: Disagreement with the documentation: `coordinate_less_compare` is documented to sort by less than order but orders from large to small.
* `C04_equivalence_refuted`: C04, second half, is false: segments that the comparator cannot separate need not be equal, as sets of endpoints or otherwise. A container keyed by it drops the second of two segments that share their start.
* `C04_direction_refuted`: C04 is also false for reversed segments: a segment and its reversal are ordered, although the code first sorts the ends of each segment.
* `C06_degenerate_refuted`: C06 is false for degenerate segments: with `A = B` only the ordinates are compared, so any point of the horizontal line through `A` counts as being between `A` and `A`.
* `C09_touching_collinear_refuted`: Disagreement: collinear segments that touch in one endpoint are reported as overlapping with two equal points. The code's own branches for this case (lines 119-143, `e_endpoint`) are never reached, because the betweenness tests before them include the bounds.
* `C09_degenerate_refuted`: Disagreement: for degenerate segments the answer can be wrong. The point `(5,0)` is reported to overlap the point `(0,0)`.
* `C100_down_refuted`: A segment from (0.2, 2.5) to (0.7, 0.5) in a grid of ten by ten unit cells: the row number is counted up from 2 until it wraps to 0, so that cells far outside the grid are visited.
* `C101_clockwise_refuted`: When the triangle is clockwise, a segment inside it is reported as disjoint from it.
* `C101_flat_refuted`: When the triangle has no area, the test may answer true though there is no common point: a segment on the line through the three corners, beyond them.
* `C102_crossing_refuted`: Disagreement: two segments that cross in their midpoints get the squared distance 1. The determinant should be the square of the exterior product.
* `C102_parallel_refuted`: Disagreement: for parallel segments of one direction the result may be less than the squared distance: a point beyond the end of the second segment is used.
* `C102_point_refuted`: Disagreement: for a first segment that is a point the result is the squared distance to the start of the second segment, not to the second segment.
* `C102_division_refuted`: Disagreement: for a second segment that is a point behind the start of the first the code divides by zero.
* `C104_repeated_refuted`: Disagreement: a polygon that passes a point twice; the returned index is not the one at which the polygons agree.
* `C105_tolerance_refuted`: Disagreement: with a tolerance it is not a strict weak ordering, as `std::sort` and the ordered containers need.
* `C106_axes_refuted`: C106, disagreement: with the second axis to the right of the first the box is taken to be smaller by the radius where it has to be taken larger: a disc that moves straight at a square is not reported to meet it.
* `C106_apart_refuted`: C106, disagreement: a disc that does not meet the box for some time may be reported to meet it at the time zero, as in C67.
* `C107_class_refuted`: C107, disagreement: where the first segment ends inside the second one, the answer is "crossing", and with the segments exchanged it is "endpoint".
* `C107_first_point_refuted`: C107, disagreement: with a single point as first segment the function divides by zero, whatever the second segment is.
* `C107_second_point_refuted`: C107, disagreement: a single point inside the first segment as second segment is "overlapping", with the same point twice.
* `C108_vertical_refuted`: C108, disagreement: on a vertical line, where the abscissa is known, there is a division by zero, for every ordinate.
* `C108_integer_refuted`: C108, disagreement: for integer coordinates the slope is rounded: the line from (0, 0) to (2, 3) is taken to have the slope one, so that the point with the ordinate 3 has the abscissa 3; on the line from (0, 0) to (2, 5) the point with the ordinate 7 has the abscissa 3; and a line that rises less steeply than the diagonal leads to a division by zero.
* `C109_digits_refuted`: C109, disagreement: for these precisions the result is too small in the last digits: from the last group of digits only the first one is taken, and it is put in the last place. With a precision of 7 digits the result is 3.141005.
* `C109_zeros_refuted`: C109, disagreement: the group of digits 0288, which begins with a zero, is taken to be 2880: for the precisions 33 and 36 the result is larger than pi.
* `C11_overloads_disagree_refuted`: Disagreement: the overload without outputs reports an overlap for every parallel segment ahead, however far from the ray's line; the overload with outputs reports none.
* `C11_ray_line_parallel_refuted`: Disagreement: `ray_line_intersection` answers that parallel disjoint lines intersect.
* `C11_ray_line_half_refuted`: Disagreement: `ray_line_intersection` misses the half of the line behind its reference point.
* `C110_capacity_refuted`: C110, disagreement: the event queue can outgrow the three places for each segment that are reserved for it; then its elements move while one of them is in use. Eight segments are enough.
* `C110_point_refuted`: C110, disagreement: a segment of one point stays on the sweep line for good, and keeps segments that cross apart: a crossing is not reported. Without the segment of one point it is.
* `C111_join_refuted`: Where two segments end at one point, one of them is lost.
* `C111_fork_refuted`: Where two segments start at one point the assertion fails. So it does if a segment is given twice.
* `C111_endless_refuted`: Two segments that end at a point of a loop: the loop of the code has no end, whatever the number of rounds.
* `C111_copy_refuted`: A copy has the half edges but not the graph of the components: to calculate its sequences indexes an empty vector, and to add an edge to a new point fails the assertion.
* `C112_side_refuted`: C112, refuted: with the numbers of the type `double` and the direct comparison three points that turn left are reported to turn right.
* `C112_cyclic_refuted`: C112, refuted: the answer depends on the point that comes first.
* `C113_cell_refuted`: C113, refuted: with the numbers of the type `double`, in the grid from `0` to `1` with the cell width `0.1`, the coordinate `0.3` has the index `3`, but the box of that cell begins above `0.3`.
* `C115_loop_refuted`: C115 is false when a vertex that is seen is inside the mesh: in a square of four triangles about a vertex, with no two vertices on one line with the point, the search goes round that vertex forever.
* `C115_hidden_refuted`: C115 is false when two vertices are on one ray: the search of a mesh with all vertices on its border reports a vertex that is not seen.
* `C117_grow_strong_refuted`: C117, full statement for expansions that are strongly nonoverlapping: the file says that `grow_expansion` keeps them so. It does not: with double, `1 + 2` and `2^53` give `1 + 0 + (2^53 + 2)`, where the last component is adjacent to the first and has two bits.
* `C117_fast_strong_refuted`: C117, full statement of the file: `fast_expansion_sum` keeps expansions strongly nonoverlapping. It does not: with double, `-(2^53 - 1)` and `(2^50 - 1/2) + 2^51 + 2^52` give `-1/2` and `-(2^50 - 1)`, which are adjacent, and the second has more than one bit.
* `C117_fast_bounds_refuted`: C117, full statement: `fast_expansion_sum` reads only the components of its arguments. It never does: it always reads the element behind the last of one of the two arrays.
* `C118_bounds_refuted`: C118, full statement with arrays that end where they are declared to end: `orient2d` returns for all points. It does not: for `(1, 1)`, `(2, 2)` and `(2^-53, 2^-53)` an element behind the end of an array of `orient2dadapt` is read.
* `C118_exact_bounds_refuted`: C118: with such arrays `orient2dexact` never returns without reading behind the end of one.
* `C119_scale_strong_refuted`: C119, full statement of the file: `scale_expansion` keeps expansions strongly nonoverlapping. It does not: with double, `3 + 8 - 16` times `2^53 - 5` gives a second component `8` that is adjacent to the last, which has more than one bit.
* `C119_linear_bounds_refuted`: C119, full statement: `linear_expansion_sum` reads only the components of its arguments. It never does: it always reads the element behind the last of one of the two arrays.
* `C12_segment_epsilon_refuted`: C12 is false for the code: for every positive epsilon there is a segment that misses the unit box and is reported as meeting it.
* `C12_ray_null_refuted`: C12: a null direction from inside the box makes the code compute with an infinite parameter.
* `C120_bounds_refuted`: C120, full statement with arrays that end where they are declared to end: the functions return. They never do: an element behind the end of an array is read in every call.
* `C121_bounds_refuted`: C121, full statement with arrays that end where they are declared to end: `orient3d` returns for all points. It does not: for four points that are nearly in one plane an element behind the end of an array of `orient3dadapt` is read.
* `C122_bounds_refuted`: C122, full statement with arrays that end where they are declared to end: `incircle` returns for all points. It does not: for four points that are nearly on one circle an element behind the end of an array of `incircleadapt` is read.
* `C123_rectangular_refuted`: **C123, refuted for matrices that are not square.** The size of a matrix times a vector is taken from the vector (`functions/dot_product.hpp:100-119`). A 3×2 matrix times a vector of 2 cannot be assigned to a vector of 3. It can be assigned to a vector of 2: the last element of the result is dropped without a message. A 2×3 matrix times a vector of 3 can be assigned to a vector of 2, but its magnitude does not compile.
* `C123_matrix_scalar_refuted`: **C123, refuted for a matrix times a scalar.** `multiplication.hpp:196` indexes the scalar instead of the matrix. The scalar times the matrix compiles, and so does the matrix divided by the scalar.
* `C123_outer_refuted`: **C123, refuted for sums of products with one term.** The product of a column and a row, of any size, does not compile: `algebra/detail/preprocessed/dot_product.hpp` has no dimension 1.
* `C123_tensor_refuted`: **C123, refuted for the tensor product of two vectors**, which does not compile (`tensor_product.hpp:27-42`), and for that of a vector and a matrix with more columns than rows (`tensor_arithmetic.hpp:241-245`).
* `C123_mismatch_refuted`: **C123, refuted for operands that do not fit.** Sizes of operands are not compared: a vector of 3 plus a vector of 2 has no meaning, but compiles and is the sum of the first two elements. Nor is the size of the left side compared: a matrix of size 3 can be assigned to one of size 2.
* `C124_wide_refuted`: **C124, refuted for a block below several narrower ones.** After a block has been placed below the two blocks of width 1 the iterator in the row above moves one block on, not two (`as_matrix.hpp:213-222`). It does not see that the third block of height 2 continues, and places the next block over it. The layout exists; with `as_matrix<3,3>` of these blocks the place at row 2 and column 0 is read from the last block instead of the one before it, and the place at row 2 and column 2 cannot be read. With a row of width 3 at the end the program does not compile.
* `C124_overlap_refuted`: **C124, refuted for blocks that do not fit.** Blocks of sizes 1×1, 2×2 and 1×2 have seven elements. `as_matrix<2,3>` of them compiles and all six places can be read; the last element of the last block is covered by the second block. The number of rows is not compared with the blocks: a 2×2 matrix of two blocks of size 2×2 drops one of them.
* `C125_trace_refuted`: **C125, refuted.** The trace of a matrix of size 1 does not compile, and that of a matrix with more columns than rows, which has none, does.
* `C126_bounds_refuted`: C126, full statement with arrays that end where they are declared to end: `insphere` returns for all points. It does not: for five points that are on one sphere an element behind the end of an array of `insphereadapt` is read.
* `C127_emptied_refuted`: The code violates C127: `set_outer(q)` and `add_hole(q)` with a variable `q` empty the variable, so that adding `q` twice adds an empty hole.
* `C127_point_refuted`: The code violates C127: with a polygon of one point a point behind the end of the vector is read.
* `C128_sqrt_refuted`: The code violates C128: `sqrt_2<double>()` is not the number of the type `double` nearest to the square root of 2. It is the one below, although the square root is nearer to the one above.
* `C128_long_refuted`: The code violates C128: with a type of 64 bits, as `long double` is with GCC on x86, the constants are those of `double` and not the nearest ones.
* `C130_index_refuted`: The code violates C130: for every `maxIndex` there is an engine for which the number is `maxIndex`.
* `C130_selector_refuted`: The code violates C130: `random_partition_selector_policy` may return the end of the range, however many elements it has.
* `C130_copy_refuted`: The code violates C130: a copy of a generator does not have an engine of its own. It cannot be called after the original has been destroyed.
* `C130_shared_refuted`: The code violates C130: calling a copy changes what the original yields.
* `C131_negative_refuted`: The code violates C131: a negative hue, although hues are angles, gives black instead of a colour.
* `C133_cross_refuted`: **C133, refuted for the cross product with the left side.** `v = v ^ w` for `v = (1, 2, 3)` and `w = (4, 5, 6)` gives `(-3, 30, -135)`; the cross product, which `v <<= v ^ w` gives, is `(-3, 6, -3)`.
* `C133_matrix_refuted`: **C133, refuted for a matrix times the left side.** `p = m * p` for the rotation `m` by a right angle maps `(1, 2)` to `(-2, -2)` instead of `(-2, 1)`.
* `C133_norm_refuted`: **C133, refuted for the direction of the left side.** `v = norm(v)` in the plane, as in the program's own test (`geometry_test/product_tests.hpp:87-88`, which does not look at the result), gives the direction of `v` only if `v` is on an axis or is a unit vector before.
* `C133_kind_refuted`: **C133, refuted for operands of another kind.** A point can be assigned to a vector, and a vector to a point, with `=`, but not with `<<=`.
* `C134_large_refuted`: **C134, refuted for large indices.** The index is converted to `int` before it is compared (`tensor/detail/numeric_sequence_n.hpp:100`). From 2^31 to 2^32 - 1, for example for `unsigned(-1)`, the check passes and memory behind the array is read.
* `C135_strong_types_refuted`: What one might expect of strong types and what does not hold. A product of two lengths is a length. A sum of a length and a time is not rejected. The absolute value of a length cannot be assigned to a length, nor compared with one. A difference of sums of the same two quantities in another order has a tag of its own, so that `a + b` cannot be compared with `b + a`. And a number can be assigned to a length though the conversion is explicit.
* `C136_mixed_refuted`: Numbers of two types with different policies are not compared coherently: the policy is that of the first number. With a tolerance of 1 for one type and none for another, 0 of the first type equals 1 of the second, but 1 of the second does not equal 0 of the first; and `less_than(u, v)` is not `greater_than(v, u)`.
* `C138_function_refuted`: Otherwise the functions are wrong: with eight binary places `ceil(1.25)` is 1 and `floor(-1.25)` is -1, and the square root of 0.25 is 0.
* `C138_epsilon_refuted`: With 40 binary places in 64 bits `epsilon` throws, though 1 and the number after it are numbers of the type: the number 1 is converted from an `int`.
* `C138_min_refuted`: `min` is never the smallest positive number, nor is `denorm_min`, as the standard says for types that are not integer types; `is_integer` is false.
* `C139_two_refuted`: So the type selected for `int` and `double` is `int`, that for `float` and `double` is `float`.
* `C139_function_refuted`: `pow` of the `double` 1.5 and the `int` 2 is computed as `pow` of 1 and 2.
* `C139_dot_refuted`: The scalar product of the vector (1/2, 1/2) of `double` and the vector (1, 0) of `int` is 0.
* `C140_round_trip_refuted`: Integers of 64 bits can change, and the largest and least ones throw.
* `C140_product_refuted`: There is no wider type for integers of 64 bits.
* `C142_size_refuted`: **C142, refuted for other numbers of elements.** `v += w` for a vector `w` of two elements and `v` of three compiles and leaves the last element of `v` as it was; `v = w` does not compile.
* `C142_cross_refuted`: **C142, refuted for the cross product with the left side.** `v += v ^ w` for `v = (1, 2, 3)` and `w = (4, 5, 6)`: `v + v ^ w` is `(-2, 8, 0)`, but the second element is computed with the first element already written.
* `C143_row_refuted`: The rows and columns of a minor show other elements than the minor. Of a matrix of 3 rows and columns, without the first row and the first column, the first element is at row 1 and column 1; `get<0>` of the first row and of the first column is the element at row 0 and column 0, in the row and column that are excluded.
* `C143_product_refuted`: The product of a minor and a matrix is not that of the matrices they show: for a minor with the one element 11 and a matrix with the one element 100 the product is 0.
* `C143_product_vector_refuted`: The product of a column vector and a row vector does not compile.
* `C143_row_vector_refuted`: The rows and columns of a vector that is seen as a matrix cannot be read with `get`.
* `C143_member_refuted`: The member function of a row of a column vector gives an element also outside the one column.
* `C143_row_set_refuted`: The elements of a row of a matrix cannot be written, though the row has a function for it; …
* `C143_excluded_refuted`: A minor may exclude a row that its matrix does not have. It counts one row less, and gives an element in the row behind its last.
* `C144_neutral_refuted`: Through the neutral frame a point moves: the Cartesian point `(1, 1)` without its frame, as a polar point, has the distance 1 from the origin.
* `C144_untagged_refuted`: A point without a frame is its own radius and angle: `get_r` of `(3, 4)` is 3.
* `C144_neutral_neutral_refuted`: A point in the neutral frame cannot be converted to another type of point in the neutral frame.
* `C145_compare_refuted`: A number that is not a multiple of the unit is compared wrongly: with quarters as the unit, the fixed point number 1/2 is called equal to 3/5 and to 2/5, not less than 3/5, and not greater than 2/5.
* `C145_range_refuted`: A comparison with a number outside the range of the format throws instead of answering.
* `C145_left_refuted`: With a run time scale the number on the left is given the default scale instead of the scale of the fixed point number, and the raw values are subtracted: 5 - 1 is 1, and 8 / 2 is 1, in sixteenths.
* `C145_convert_refuted`: The fraction is lost although the other type has it: 3/2 in quarters becomes 1 in hundredths.
* `C146_overflow_refuted`: A call that asks for more than `max_size()` elements does not throw: the number of bytes wraps around and the block is too small, so two live arrays share memory.
* `C147_clear_refuted`: `clear` does not reset the sum.
* `C147_sum_refuted`: The sum of an object to which nothing was pushed is indeterminate.
* `C147_clock_refuted`: `high_resolution_clock` may be a clock that is set back. Then a scope has a duration of nearly 2^64 nanoseconds.
* `C148_polygon_refuted`: C148 is false for points inside two sides: here the polygon runs through a side twice, and a point with distance zero from the border is classed as outside.
* `C148_border_refuted`: C148 is false on the border: the even-odd test does not hold for a point on a side of a triangle for which the bisecting test holds, and holds for a point on another side.
* `C151_border_refuted`: C151, refuted on the border: turned by half a turn, the point of the lower side of a square is not inside any more.
* `C152_degenerate_refuted`: Disagreement: two different points on a horizontal line, given as segments, are reported to overlap; rotated by a right angle they are reported not to meet.
* `C153_distance_refuted`: Disagreement: for two polygons of six vertices `polygon_polygon_distance_sqrd` depends on the start vertex of the first one.
* `C155_distance_refuted`: C155 is false for `polygon_polygon_distance_sqrd`: the sixth vertex selects an algorithm that leaves out the closing sides.
* `C17_two_points_refuted`: C17 is false for the overload for two points when they are equal: it divides by zero, for every point.
* `C21_closest_degenerate_refuted`: C21 is false when the first edge is degenerate: the closest point of this polyline to `(-1, 0)` is its first vertex, but the call divides by zero; so it does for a polygon given with its first vertex repeated at the end.
* `C23_closing_edge_refuted`: C23 is false for two polygons of six vertices: their closing edges touch, on the line `x = 0`, but the result is the distance 1 of other edges.
* `C24_segment_edge_refuted`: C24 is false for a segment that touches the fourth edge: the result is positive.
* `C24_segment_inside_refuted`: C24 is false for a segment inside the box, whose distance to the box is zero.
* `C27_polyline_refuted`: A polyline that turns back on itself loses a piece: the spike to `(1, 1)` is gone, and the three points that are left are collinear.
* `C27_clean_refuted`: Cleaning the polyline with a spike a second time removes another point.
* `C27_polygon_first_refuted`: The first vertex of a polygon is kept even when it is in the middle of a side.
* `C27_polygon_last_refuted`: Of two vertices in the middle of the last side, one is kept.
* `C27_coalesce_polygon_refuted`: `coalesce_adjacent_points_polygon` can leave a last vertex equal to the first.
* `C28_split_end_refuted`: Splitting the segment from `(0,0)` to `(1,0)` at its full length 1 gives two single points.
* `C28_point_at_end_refuted`: At the total length the start of the last edge is reported instead of its end.
* `C29_epsilon_refuted`: The simplification of `(0,0) (1,1) (2,2) (2,9) (20,0)` with epsilon 1 is `(0,0) (2,9) (20,0)`, but the removed vertex `(2,2)` is further than 1 from every point of the first edge of the result: the first part is simplified without the vertex that splits the polyline, and its own last vertex is dropped afterwards.
* `C29_assert_refuted`: With assertions on, the routine aborts whenever the second vertex is the one to keep, here for a triangle shaped polyline of three vertices.
* `C32_outside_refuted`: The full property fails: the tree of the points (0,0) and (10,10) visits (10,10) in a search for the box from (10,0) to (10,1). (The two points are in order, so that `std::nth_element` may leave them as they are.)
* `C32_single_refuted`: A tree with one point visits it in every search, wherever the box is.
* `C33_valid_refuted`: A grid with `2^32 - 1` cells of width 1 in the x direction has width zero: no index is valid.
* `C33_centroid_refuted`: A grid from (0,0) to (1,1) with cells of width 1 has two by two cells, and the index of the centre of its last cell fails an assertion.
* `C36_end_refuted`: A segment from (1.5, 2.5) to (2, 1) in a grid of unit cells: the cells (1, 2) and (1, 1) are visited and the cell of the end, (2, 1), is not.
* `C37_revisit_refuted`: A second traversal with the same helper from the same seed calls no visitor.
* `C37_wrap_refuted`: When the colour counter has wrapped around to the colour of the seed the traversal of a grid of two cells does not end.
* `C38_doubled_refuted`: A point on two sides is not reported on the border.
* `C39_narrow_argument_refuted`: The conversion of an integer throws although the number fits the format, because the scaled value is first cast to the type of the argument.
* `C39_mul_rounding_refuted`: The product is not rounded by the rounding policy of the type: with rounding to nearest the result is off by more than half a unit.
* `C39_run_time_compare_refuted`: With run time scales the comparison is wrong for numbers with different scales.
* `C39_to_real_refuted`: Converting to floating point loses the fraction: the operands of the division are integers.
* `C39_to_real_run_time_refuted`: With the binary run time scale it divides by the exponent instead of the power of two.
* `C40_expand_cmp_refuted`: On an empty interval it does not give the point alone.
* `C40_expand_cmp_empty_refuted`: It can also leave an empty interval empty.
* `C40_infinite_cmp_refuted`: The version with a policy leaves it empty, if for the policy the number is less than infinity.
* `C40_expand_bounds_refuted`: With the default bounds, closed on the left and open on the right, the expanded interval need not contain the number.
* `C40_touching_refuted`: Closed intervals that touch share a point but are reported as not intersecting.
* `C40_empty_refuted`: An empty interval is reported as intersecting others.
* `C40_negative_scale_refuted`: Multiplying by a negative number turns a non empty interval into an empty one.
* `C40_storage_difference_refuted`: The difference of storages does not contain the differences.
* `C41_last_ray_refuted`: With two points on the last ray, which the comparison takes for equivalent, a sort may put the farther one first, and then a point that is no corner stays in the list.
* `C41_clockwise_refuted`: The list that is returned is in clockwise order.
* `C41_lowest_refuted`: When the lowest point is not the first one, it is not brought to the front, and the scan starts from a point inside of the hull: whatever the sort does, there is no convex hull.
* `C41_collinear_refuted`: When two points are on the first ray, the stack runs empty and the assertion fails, also for a proper point set with the lowest point first.
* `C42_loop_singular_refuted`: It does not look at the last pivot: this singular matrix is not reported.
* `C44_bisect_length_refuted`: The vectors are added without being normalised, so for different lengths the angle is not halved: the vectors `(1, 0)` and `(0, 2)`.
* `C44_bisect_parallel_refuted`: Two vectors in the same direction: the second one comes back negated, and not normalised.
* `C44_area3_refuted`: Not in general: for `(1, 0, 0)` and `(0, 0, 1)` the result is `-1`, for `(1, 0, 0)` and `(0, 1, 1)` it is zero though the area is the root of two.
* `C45_polyline_polyline_refuted`: With a visitor that never asks to stop, the edges of the first polyline after the first one that meets the second are not visited: here the polylines cross twice, and the visitor is called once.
* `C46_key_refuted`: The condition on the keys is needed: with a key type that identifies arguments on which the function differs, a call returns the value of another argument.
* `C47_triangle_refuted`: … also one whose vertices lie on a line, so that its edges overlap.
* `C49_difference_refuted`: C49 taken literally is false for the difference: a segment minus itself is empty, although its ends are not in the interior of the subtracted segment.
* `C49_union_point_refuted`: The positive length of the segment is needed for the union: the union with a point of a horizontal segment replaces the segment by the point, because `is_between` compares only the `y` coordinates when the two ends are equal.
* `C51_touching_refuted`: C51 is false when an end of the first segment is inside the second: the segments touch in one point, which is reported as no crossing. The same pair with the arguments exchanged is reported to cross.
* `C51_shared_end_refuted`: C51 is false for collinear segments with a common end: these overlap, which is reported as an endpoint.
* `C52_dimension_five_refuted`: C52 is false from dimension five on: the last coordinate never matters, so distinct points have the distance zero, and the coordinate before it counts twice.
* `C54_outputs_refuted`: C54 is false for these polylines of six points: the distance is right, but no output argument is written.
* `C54_polygon_refuted`: C54 is false for the polygons of `C23_closing_edge_refuted`, which touch.
* `C55_identify_collinear_refuted`: In the square `(0,0) (2,0) (2,2) (0,2)` with an extra vertex `(1,0)` at position 1, the corner `(2,0)` at position 2 is reported instead of the extra vertex.
* `C57_repeated_points_refuted`: With a repeated point the claim is false: `(5,0)` is not on the polyline but is reported on its first edge, which is a single point.
* `C60_clockwise_refuted`: With a clockwise triangle the test always fails.
* `C60_line_refuted`: On the line through `B` and `C` the test in space succeeds also outside of the triangle.
* `C60_plane_refuted`: The test in space succeeds for points off the plane of the triangle.
* `C64_touching_refuted`: Two unit discs that touch and are at rest have a common point at every time, but the answer is `false`.
* `C64_overlap_refuted`: For discs that overlap at the start the point is not written.
* `C64_points_refuted`: Two points that meet: the direction from one to the other is normalized although it is zero, which fails an assertion.
* `C66_touching_refuted`: C66, disagreement: a disc that touches the end of the segment at the start and moves along the tangent meets the segment at the time zero, but the answer is `false`.
* `C66_overlap_refuted`: C66, disagreement: for a disc that overlaps an end of the segment at the start, the point need not be on the segment.
* `C66_point_refuted`: C66, disagreement: a point that runs along the line of the segment to its end: the zero vector is normalized, which fails an assertion.
* `C67_apart_refuted`: C67, disagreement: a disc whose centre starts in the expanded box near a corner, but which does not meet the box, may be reported to meet it at the time zero: the region is taken from the point at which the ray leaves the expanded box.
* `C67_overlap_refuted`: C67, disagreement: a disc that overlaps the box at the start need not be reported at the time zero.
* `C68_parallel_refuted`: C68, disagreement: a segment parallel to the axis, both inside and outside the capsule. The test for parallel segments compares an absolute value with zero and never holds, so a division by zero follows.
* `C68_inside_refuted`: C68, disagreement: a segment that starts in the capsule and leaves it is reported not to meet it.
* `C74_straight_refuted`: … also where the polyline just goes straight on: a simple polyline for which an intersection is reported.
* `C77_counterclockwise_refuted`: C77 refuted for counterclockwise polygons: the smaller of two triangles is inside the larger one and the answer is `false`.
* `C77_quadrilateral_refuted`: C77 refuted for a clockwise quadrilateral: a vertex of the triangle is inside it and the answer is `false`, because the vertex that the search gives is not the furthest.
* `C77_extreme_refuted`: C77, `get_extreme_index` gives the first vertex of a clockwise quadrilateral although the second is further.
* `C77_diverges_refuted`: C77 refuted for a clockwise triangle and a clockwise pentagon that overlap: no number of rounds is enough for the search.
* `C79_quadrilateral_refuted`: C79 refuted for a quadrilateral and a triangle at rest that share a point: the answer is that they do not meet.
* `C79_diverges_refuted`: C79 refuted for a triangle and a pentagon: no number of rounds is enough for the search.
* `C80_refuted`: C80 is false for the two squares from (0, 0) to (1, 1) and from (2, 0) to (3, 1): the point (3/2, 1) between them is neither on a side nor in the solid, but on the line through two sides, and it is classed as on the boundary.
* `C82_on_line_refuted`: C82 is false for a start on the line through a side: the ray from (-1, 1) with the direction (3/5, 4/5) goes up from the line of the top of the unit square and misses the square, but a hit at 5/3 is given.
* `C82_two_on_a_line_refuted`: C82 is false for two sides on a line: the ray that goes down from (3/2, 2) between the squares from (0, 0) to (1, 1) and from (2, 0) to (3, 1) meets neither, but a hit at 1 is given.
* `C82_only_border_refuted`: C82 is false for `ray_intersection_only_border` from inside: the ray that goes up from (4, 3/2) in the square from (3, 1) to (5, 3) leaves the square at (4, 3), but a hit at (4, 2) is given, where the line of a side of another square divides the first.
* `C83_on_border_refuted`: C83 is false in general: a corner of a triangle which touches the line through a side of another triangle from its right is reported to be outside. `locate_point` passes a point on a splitting line to the positive child only.
* `C84_skipped_refuted`: C84 is false for a viewpoint on a splitting line: the segments on this line are not visited, unless the node has no children.
* `C84_order_refuted`: C84 is false for a viewpoint on the line of several sides: at a node without children they are visited in the order in which they were given, also if the first hides the second.
* `C85_refuted`: C85 is false: the selector looks at which lines of other segments cut a segment, not at which segments its line cuts. Here the line of the second segment cuts nothing; the line of the selected first one cuts the second.
* `C86_degenerate_refuted`: C86 refuted: a triangle whose vertices are on one line is kept although it is degenerate, and a mesh of such triangles divides by zero.
* `C87_range_refuted`: C87 refuted where the assertions should stop a number above 1: they test the first number instead of the others, and the position is outside of the mesh.
* `C90_flat_refuted`: C90 refuted: the point is in no triangle of the mesh, but on the line of a flat one, in whose cell it is; the flat triangle is the answer.
* `C91_epsilon_refuted`: For every positive epsilon there are a polyline and a polygon that miss the unit box and are reported to meet it.
* `C91_single_refuted`: A polygon of one vertex is read out of range, unless a corner of the box is reported inside, which does not happen.
* `C92_single_refuted`: A polygon of one vertex is read out of range.
* `C93_repeat_refuted`: A vertex of the common part can be visited twice: here the corner of the square on a side of the triangle.
* `C93_inside_refuted`: With the first polygon inside the second the function stops at the number of vertices of the second: it leaves out the rest of the first polygon, or reads past its end.
* `C94_opposite_refuted`: C94 refuted: every segment from the ray opposite to the first direction to the ray opposite to the second one is said to be in the range, though it does not meet the cone.
* `C94_reflex_refuted`: C94 refuted: the range from the direction (0,1) counterclockwise to (1,0) is three quarters of the plane; the segment from (-1,1) to (-2,1) is in it, and the answer is false.
* `C94_points_opposite_refuted`: C94 refuted: the segment from (1,3), in the first quadrant, to (-3,-1) leaves it at (0,2); the points given are (-2,0), which is not in the cone, and (1,3).
* `C94_points_acute_refuted`: C94 refuted: the segment from (-10,5) to (10,-1) crosses the cone between (1,0) and (1,1), and the answer is false.
* `C94_points_touch_refuted`: C94 refuted: the segment from (1,0) to (1,-1) touches the first quadrant with its start, and the answer is false; the overload without points says true.
* `C95_start_refuted`: C95 refuted: the point (-10,30) is behind the start (0,0) of the polyline, which is its closest point, and on the left of the first edge; the answer is right, because the second vertex is taken for the closest point.
* `C96_slerp_opposite_refuted`: C96 refuted: `slerp` of opposite unit vectors divides by zero for every `t`, also for 0 and 1.
* `C97_straight_refuted`: At a vertex where the polyline goes straight on, the point pushed is whatever an unset point holds: the result of `line_line_intersect` is not looked at.
* `C97_uturn_refuted`: Where the polyline turns straight back nothing is pushed: the result of a way there and back is one edge, across the polyline, and neither edge of the polyline has an edge at its distance.
* `C98_liu_close_refuted`: The result is not tested against the polyline when the untrimmed one does not meet itself: the ends of the parallel at distance 3 inside a wide bracket are at distance 1 from the bracket.

(212 witnesses.)

## What is modelled

| header | definitions of the model |
|---|---|
| `geometrix/algebra/detail/dot_product.hpp` | `dot`, `dot3`, `dotN`, `convertNum`, `productSum`, `dotMixed`, `dotR`, `viewProductAt` |
| `geometrix/algebra/detail/lup_decomposition.hpp` | `lupPivot`, `lupSwapRows`, `lupSwapPi`, `lupElimRow`, `lupElim`, `lupStep`, `lupDecomposition`, `lupDecompositionLoop`, `lupForward`, `lupBackward`, `lupSolve` |
| `geometrix/algebra/detail/preprocessed/dot_product.hpp` | `dotCompiles`, `dotSum` |
| `geometrix/algebra/detail/preprocessed/lup_decomposition.hpp` | `lupPivot`, `lupSwapRows`, `lupSwapPi`, `lupElimRow`, `lupElim`, `lupStep`, `lupDecomposition`, `lupDecompositionLoop`, `lupForward`, `lupBackward`, `lupSolve` |
| `geometrix/algebra/dot_product.hpp` | `dotCompiles`, `dotValue`, `dotN`, `projectN`, `dotMixed`, `raySegment` |
| `geometrix/algebra/expression.hpp` | `subR` |
| `geometrix/algebra/expression_generator.hpp` | `Tx`, `shapeOf`, `inRange`, `sameKind`, `assign` |
| `geometrix/algebra/exterior_product.hpp` | `cross`, `exteriorArea3`, `exteriorVolume` |
| `geometrix/algebra/functions/absolute_value.hpp` | `absShape` |
| `geometrix/algebra/functions/addition.hpp` | `addShape` |
| `geometrix/algebra/functions/binary_function.hpp` | `shapeOf` |
| `geometrix/algebra/functions/cross_product.hpp` | `cross3`, `crossShape` |
| `geometrix/algebra/functions/determinant.hpp` | `detShape` |
| `geometrix/algebra/functions/division.hpp` | `divShape` |
| `geometrix/algebra/functions/dot_product.hpp` | `mulShape` |
| `geometrix/algebra/functions/inverse.hpp` | `invShape` |
| `geometrix/algebra/functions/magnitude.hpp` | `magShape` |
| `geometrix/algebra/functions/matrix_product.hpp` | `mulShape`, `viewProductAt` |
| `geometrix/algebra/functions/multiplication.hpp` | `mulShape`, `Mat2.mulVec` |
| `geometrix/algebra/functions/negate.hpp` | `negShape` |
| `geometrix/algebra/functions/normalize.hpp` | `normShape` |
| `geometrix/algebra/functions/subtraction.hpp` | `subShape` |
| `geometrix/algebra/functions/tensor_product.hpp` | `tensShape` |
| `geometrix/algebra/functions/transpose.hpp` | `transShape` |
| `geometrix/algebra/functions/unary_function.hpp` | `shapeOf` |
| `geometrix/algebra/grammar.hpp` | `shapeOf` |
| `geometrix/algebra/lup_decomposition.hpp` | `lupPivot`, `lupSwapRows`, `lupSwapPi`, `lupElimRow`, `lupElim`, `lupStep`, `lupDecompositionLoop`, `lupForward`, `lupBackward`, `lupSolve` |
| `geometrix/algebra/vector_projection.hpp` | `projectN` |
| `geometrix/algorithm/bentley_ottmann_segment_intersection.hpp` | `SweepItem`, `EventQueue`, `queueTouch`, `queueInsert`, `orderEnds`, `buildQueue`, `sweepOrdinate`, `sweepLess`, `sweepInsertAll`, `processNew`, `sweepLowerBound`, `firstPair`, `processPair`, `newEvents`, `handleEvent`, `sweepLoop`, `bentleyOttmann` |
| `geometrix/algorithm/bentley_ottmann_sweep.hpp` | `sweepInsert`, `processNew`, `sweepLoop` |
| `geometrix/algorithm/bounding_box_intersection.hpp` | `boundingBoxIntersection` |
| `geometrix/algorithm/bresenham_grid_traversal.hpp` | `bresStraight`, `bresSteep`, `bresFlat`, `bresenhamCells`, `bresenhamTraversal` |
| `geometrix/algorithm/classify_simplex_to_plane.hpp` | `PlaneSide3`, `classifyPoint3`, `countSides3`, `classifySimplex3`, `PlaneSide`, `planeDist`, `classifyPoint`, `classifySimplex` |
| `geometrix/algorithm/cohen_sutherland_line_clipping.hpp` | `OutCode`, `outCode`, `clipPoint`, `clipLoop`, `cohenSutherland` |
| `geometrix/algorithm/convex_hull_graham.hpp` | `grahamLess`, `grahamLower`, `findLowestStep`, `findLowest`, `grahamLoop`, `grahamHull` |
| `geometrix/algorithm/distance/aabb_aabb_distance.hpp` | `aabbAabbDistSq`, `aabbAabbDist` |
| `geometrix/algorithm/distance/distance_compare.hpp` | `distanceCompare` |
| `geometrix/algorithm/distance/eberly_segment_segment_distance.hpp` | `eberlyParallel`, `eberlyRegion0`, `eberlyEdge`, `eberlyCorner`, `eberlyParams`, `eberlyValue`, `eberlyDistSq` |
| `geometrix/algorithm/distance/point_aabb_distance.hpp` | `pointAabbDistSq`, `pointAabbClosest`, `pointAabbDistSq3`, `pointAabbClosest3`, `pointAabbDist` |
| `geometrix/algorithm/distance/point_line_distance.hpp` | `signedPointLineDist`, `pointLineDist` |
| `geometrix/algorithm/distance/point_obb_distance.hpp` | `pointObbDistSq`, `pointObbClosest`, `pointObbDist` |
| `geometrix/algorithm/distance/point_point_distance.hpp` | `distSq`, `distSqIndex`, `pointDist`, `distSqR` |
| `geometrix/algorithm/distance/point_polygon_closest_point.hpp` | `pointPolygonClosest`, `pointPolygonsClosest` |
| `geometrix/algorithm/distance/point_polygon_distance.hpp` | `pointPolygonDistSq`, `pointPolygonDist` |
| `geometrix/algorithm/distance/point_polyline_closest_point.hpp` | `pointPolylineClosest` |
| `geometrix/algorithm/distance/point_polyline_distance.hpp` | `pointPolylineDistSq`, `pointPolylineDist` |
| `geometrix/algorithm/distance/point_segment_closest_point.hpp` | `pointSegClosest`, `pointSegClosestParam`, `pointSegClosestPts` |
| `geometrix/algorithm/distance/point_segment_distance.hpp` | `pointSegDistSq`, `pointSegDist` |
| `geometrix/algorithm/distance/polygon_polygon_closest_point.hpp` | `subClosestBrute`, `searchLoop`, `polygonClosest` |
| `geometrix/algorithm/distance/polygon_polygon_distance.hpp` | `subDistBrute`, `searchLoop`, `polygonDistBrute`, `polygonDistSq`, `polygonDist` |
| `geometrix/algorithm/distance/polyline_polyline_closest_point.hpp` | `edgesClosestBrute`, `polylineClosestBrute`, `subClosestBrute`, `searchLoop`, `polylineClosest` |
| `geometrix/algorithm/distance/polyline_polyline_distance.hpp` | `polylineDistBrute`, `subDistBrute`, `WorkItem`, `splitRange`, `pushItem`, `searchLoop`, `search`, `polylineDistSq`, `polylineDist` |
| `geometrix/algorithm/distance/segment_obb_distance.hpp` | `segmentObbDistSq` |
| `geometrix/algorithm/distance/segment_polygon_closest_point.hpp` | `segPolygonClosest`, `subClosestBrute` |
| `geometrix/algorithm/distance/segment_polygon_distance.hpp` | `segPolygonDistSq`, `segPolygonDist` |
| `geometrix/algorithm/distance/segment_polyline_closest_point.hpp` | `segPolylineClosest`, `subClosestBrute` |
| `geometrix/algorithm/distance/segment_polyline_distance.hpp` | `segPolylineDistSq`, `segPolylineDist` |
| `geometrix/algorithm/distance/segment_segment_closest_point.hpp` | `segSegFirst`, `segSegParams`, `segSegClosest` |
| `geometrix/algorithm/distance/segment_segment_distance.hpp` | `segSegDistSq`, `segSegDist` |
| `geometrix/algorithm/doubly_connected_edge_list.hpp` | `EdgeList`, `EdgeList.empty`, `EdgeList.addVertex`, `EdgeList.addEdge`, `EdgeList.addEdges`, `EdgeList.copy`, `EdgeList.components`, `traceEdges`, `findStart`, `sequencesOf`, `EdgeList.positions`, `EdgeList.sequences`, `makeEdgeList` |
| `geometrix/algorithm/eberly_triangle_aabb_intersection.hpp` | `axisApart`, `sideAxisApart`, `triangleBox` |
| `geometrix/algorithm/fast_voxel_grid_traversal.hpp` | `voxelStrip`, `voxelLoop`, `voxelSloped`, `voxelClipped`, `fastVoxel` |
| `geometrix/algorithm/floodfill_grid_traversal.hpp` | `floodBoundary`, `Flood`, `Flood.new`, `Flood.visitCell`, `floodDown`, `floodSpan`, `floodColumn`, `floodLoop`, `floodTraversal`, `updateBound`, `markCells`, `polygonCells`, `scanColumn`, `scanBounds`, `floodPolygon` |
| `geometrix/algorithm/grid_2d.hpp` | `Grid2d`, `makeGrid2d`, `Grid2d.get`, `Grid2d.set`, `Grid2d.getAt` |
| `geometrix/algorithm/grid_traits.hpp` | `GridTraits`, `makeGrid`, `GridTraits.xIndex`, `GridTraits.yIndex`, `GridTraits.width`, `GridTraits.height`, `GridTraits.isContained`, `GridTraits.cellCentroid`, `GridTraits.cellCorner0`, `GridTraits.cellCorner1`, `GridTraits.cellCorner2`, `GridTraits.cellCorner3`, `GridTraits.cellPolygon`, `GridTraits.cellAabb`, `GridTraits.scaledX`, `GridTraits.scaledY`, `makeGridR`, `GridTraits.xIndexR`, `GridTraits.yIndexR`, `GridTraits.cellAabbR` |
| `geometrix/algorithm/hash_grid_2d.hpp` | `HashGrid`, `HashGrid.find`, `HashGrid.get`, `HashGrid.erase`, `HashGrid.clear`, `HashGrid.findAt`, `HashGrid.getAt` |
| `geometrix/algorithm/hyperplane_partition_policies.hpp` | `randomSelector`, `autoSelect`, `bspScore`, `scoredLoop`, `scoredSelect`, `markUsed` |
| `geometrix/algorithm/intersection/circle_circle_intersection.hpp` | `CircleState`, `CircleResult`, `circleCircle` |
| `geometrix/algorithm/intersection/convex_polygon_polygon_intersection.hpp` | `PolyType`, `InFlag`, `Trav`, `Trav.stepA`, `Trav.stepB`, `Trav.visit`, `Trav.found`, `Trav.look`, `Trav.advance`, `travBody`, `travEnd`, `travLoop`, `convexPolyPoly` |
| `geometrix/algorithm/intersection/detail/separating_axis_common.hpp` | `sepMiddle`, `extremeLoop`, `extremeIndex`, `noIntersect`, `computeInterval` |
| `geometrix/algorithm/intersection/moving_obb_obb_intersection.hpp` | `axesLoop`, `obbAxis`, `obbAxes`, `movingObbObb` |
| `geometrix/algorithm/intersection/moving_separating_axis_convex_polygons.hpp` | `axesLoop`, `sideAxis`, `movingConvex` |
| `geometrix/algorithm/intersection/moving_sphere_aabb_intersection.hpp` | `boxCorner`, `movingSphereAabb` |
| `geometrix/algorithm/intersection/moving_sphere_obb_intersection.hpp` | `obbCorner`, `movingSphereObb` |
| `geometrix/algorithm/intersection/moving_sphere_plane_intersection.hpp` | `PlaneFlags`, `movingSpherePlane` |
| `geometrix/algorithm/intersection/moving_sphere_segment_intersection.hpp` | `movingSphereEnd`, `SegFlags`, `movingSphereSegment` |
| `geometrix/algorithm/intersection/moving_sphere_sphere_intersection.hpp` | `movingSpheres` |
| `geometrix/algorithm/intersection/obb_obb_intersection.hpp` | `obbObb` |
| `geometrix/algorithm/intersection/polygon_aabb_intersection.hpp` | `polygonAabbLoop`, `polygonAabb` |
| `geometrix/algorithm/intersection/polyline_aabb_intersection.hpp` | `polylineAabb` |
| `geometrix/algorithm/intersection/polyline_polyline_intersection.hpp` | `innerVisitor`, `polyPolyLoop`, `polyPolyIntersect` |
| `geometrix/algorithm/intersection/ray_aabb_intersection.hpp` | `slabStep`, `rayAabb`, `rayAabb2` |
| `geometrix/algorithm/intersection/ray_line_intersection.hpp` | `rayLine` |
| `geometrix/algorithm/intersection/ray_segment_intersection.hpp` | `raySegment`, `raySegmentNoOutput` |
| `geometrix/algorithm/intersection/ray_sphere_intersection.hpp` | `raySphereParam`, `raySphere`, `raySphere3` |
| `geometrix/algorithm/intersection/segment_aabb_intersection.hpp` | `segmentAabb`, `segmentAabb3` |
| `geometrix/algorithm/intersection/segment_capsule_intersection.hpp` | `segCapsule` |
| `geometrix/algorithm/intersection/segment_plane_intersection.hpp` | `segPlane`, `segPlane3` |
| `geometrix/algorithm/intersection/segment_polygon_intersection.hpp` | `segPolygonLoop`, `segPolygonBorder` |
| `geometrix/algorithm/intersection/segment_polyline_intersection.hpp` | `segPolylineLoop`, `segPolylineIntersect` |
| `geometrix/algorithm/intersection/segment_projects_outside_polygon.hpp` | `ringEdges`, `collectHits`, `midOutside`, `projectsOutside` |
| `geometrix/algorithm/intersection/segment_segment_intersection.hpp` | `parallelIntersection`, `xDenom`, `xNumS`, `xNumT`, `segSegIntersection`, `isCoplanar`, `collinear3`, `paramClass`, `segSegIntersection3` |
| `geometrix/algorithm/intersection/segment_sphere_intersection.hpp` | `segSphereLength`, `segSphere`, `SphereRoots`, `segSphereRoots` |
| `geometrix/algorithm/intersection/segment_triangle_intersection.hpp` | `hitPoints`, `triangleSide`, `segmentTriangle`, `axisSeparates`, `segmentTriangleTest` |
| `geometrix/algorithm/intersection/separating_axis_convex_polygons.hpp` | `sideSeparates`, `convexIntersection` |
| `geometrix/algorithm/intersection/sphere_aabb_intersection.hpp` | `sphereAabb`, `sphereAabbPoint` |
| `geometrix/algorithm/intersection/sphere_obb_intersection.hpp` | `sphereObb` |
| `geometrix/algorithm/intersection/sphere_polyline_intersection.hpp` | `SphereCall`, `spherePolylineLoop`, `spherePolyline` |
| `geometrix/algorithm/intersection/sphere_sphere_intersection.hpp` | `CircleState`, `circleCircle` |
| `geometrix/algorithm/is_segment_in_range.hpp` | `raysHit`, `segInRange`, `rangeHi`, `rangeMixed`, `rangeBoth`, `segInRangePoints` |
| `geometrix/algorithm/kd_tree.hpp` | `KdTree`, `kdBuild`, `kdTree`, `KdTree.traverse`, `KdTree.search` |
| `geometrix/algorithm/line_intersection.hpp` | `xDenom`, `xNumS`, `xNumT`, `lineLineIntersectST`, `lineLineIntersect`, `lineSegmentIntersect` |
| `geometrix/algorithm/linear_components_intersection.hpp` | `IType` |
| `geometrix/algorithm/median_partitioning_strategy.hpp` | `medianScan`, `medianPartition` |
| `geometrix/algorithm/mesh_2d.hpp` | `MeshTri`, `MeshTri.indices`, `MeshBase`, `meshTriples`, `keepTri`, `meshStep`, `meshLoop`, `triWeight`, `triWeights`, `integralLoop`, `makeMesh`, `triPosition`, `randomPosition`, `SideMap`, `SideMap.push`, `SideMap.find`, `sideMapLoop`, `AdjMatrix`, `linkPair`, `linkSides`, `linkEntry`, `adjacency`, `isAdjacentSide`, `adjacentSide`, `TriangleCache`, `cacheBounds`, `cacheCell`, `cellPairs`, `cacheRange`, `cacheTriangle`, `makeCache`, `TriangleCache.find`, `findTriangleLoop`, `Mesh`, `makeMesh2d`, `Mesh.findTriangle`, `MeshTri.vertex`, `searchSide`, `searchPushed`, `meshSearchLoop`, `visibleSearch` |
| `geometrix/algorithm/node_bsp_tree_2d.hpp` | `EdgeClass`, `NodeTree`, `edgeSide`, `edgeCut`, `classifyEdge`, `Sorted.add`, `sortEdges`, `EdgeSelector`, `firstSelector`, `scoredClassify`, `tallyLoop`, `Tally.score`, `scoredEdgeLoop`, `scoredEdgeSelector`, `buildNode`, `insertNode`, `locateNode`, `NodeTree.noChildren`, `painters`, `SelectsEdge`, `GrownTree` |
| `geometrix/algorithm/orientation.hpp` | `orientationOf`, `getOrientationV`, `getOrientation`, `getOrientationVR`, `getOrientationR`, `orientedIntersection` |
| `geometrix/algorithm/orientation_enum.hpp` | `Orient`, `Orient.toInt`, `Orient.opposite` |
| `geometrix/algorithm/orientation_grid_traversal.hpp` | `orientedStrip`, `cornerOrientation`, `advanceX`, `advanceY`, `orientedStep`, `orientedLoop`, `orientedClipped`, `orientationTraversal` |
| `geometrix/algorithm/point_in_polygon.hpp` | `rayEdge`, `pipLoop`, `pointInPolygon`, `Containment`, `containLoop`, `polygonContainment`, `middleIndex`, `pointInSub`, `pointInConvex`, `pointInConvexQuad`, `pseudoCross`, `pointInTriangle`, `pointInTriangle3` |
| `geometrix/algorithm/point_in_solid_classification.hpp` | `SolidClass` |
| `geometrix/algorithm/point_location_classification.hpp` | `PointLocation` |
| `geometrix/algorithm/point_sequence/clip_polyline_ends.hpp` | `cutoffLengths`, `segmentLengths`, `clipFront`, `clipBack`, `clipEnds` |
| `geometrix/algorithm/point_sequence/curvature.hpp` | `curvatureQuotient`, `signedCurvature`, `curvatureOverIndex`, `totalCurvatureLoop`, `totalCurvature`, `inflectionLoop`, `inflectionPoints`, `splitInflectionLoop`, `splitInflection`, `splitTotalLoop`, `splitTotal` |
| `geometrix/algorithm/point_sequence/find_subsequence.hpp` | `containingLoop`, `findContaining`, `keepCloser`, `closestLoop`, `findClosest`, `containingOrClosestLoop`, `findContainingOrClosest`, `incCw`, `incCcw`, `halfLoop`, `subsequenceHalf`, `polygonSubsequence` |
| `geometrix/algorithm/point_sequence/is_congruent.hpp` | `sameCorner`, `congruentLoop`, `polylinesCongruent`, `polygonsCongruent` |
| `geometrix/algorithm/point_sequence/is_polygon_simple.hpp` | `edgesHit`, `isPolygonSimple`, `intersectionKey`, `keyLt`, `simpleInner`, `simpleOuter`, `isPolygonSimpleMemoized`, `toPolyline`, `nullVisitor`, `ringPairs`, `isPolygonWithHolesSimple` |
| `geometrix/algorithm/point_sequence/length.hpp` | `lengthLoop`, `polylineLength`, `polygonLengthLoop`, `polygonLength`, `characteristicsLoop`, `lengthCharacteristics` |
| `geometrix/algorithm/point_sequence/point_polyline_orientation.hpp` | `vertexSide`, `polylineSideAt`, `polylineSide` |
| `geometrix/algorithm/point_sequence/polygon_polygon_containment.hpp` | `ringEdges`, `vertexInside`, `isCrossingOut`, `containedBy`, `polygonPolygonContainment` |
| `geometrix/algorithm/point_sequence/polygon_polyline_containment.hpp` | `vertexInside`, `isCrossingOut`, `containedBy`, `polygonPolylineContainment` |
| `geometrix/algorithm/point_sequence/polyline_mid_point.hpp` | `stepBack`, `midLengths`, `polylineMidPoint` |
| `geometrix/algorithm/point_sequence/polyline_offset.hpp` | `cutLess`, `insertCut`, `cutVisitor`, `selfIntersectionSet`, `pushPoint`, `rangePoints`, `keepPiece`, `cutLoop`, `splitPolyline`, `rejectVisitor`, `liuKeep`, `liuOffsetImpl`, `liuOffset`, `offsetEdge`, `offsetLoop`, `polylineOffsetImpl`, `polylineOffset`, `XPointType`, `classifyXPoint`, `untrimmedPush`, `untrimmedLoop`, `untrimmedOffset` |
| `geometrix/algorithm/point_sequence/polyline_split.hpp` | `stepBack`, `pointAtLoop`, `pointAtPosition`, `splitLoop`, `polylineSplit` |
| `geometrix/algorithm/point_sequence/ramer_douglas_peucker_algorithm.hpp` | `rdpScan`, `rdpFar`, `rdp`, `ramerDouglasPeucker` |
| `geometrix/algorithm/point_sequence/remove_collinear_points.hpp` | `removeCollinearLoop`, `removeCollinearPolyline`, `removeCollinearPolygonLoop`, `removeCollinearPolygon`, `identifyCollinearLoop`, `identifyCollinear`, `coalesceLoop`, `coalescePolyline`, `coalescePolygonLoop`, `coalescePolygon`, `identifyAdjacentLoop`, `identifyAdjacent`, `cleanPolygon`, `cleanPolyline` |
| `geometrix/algorithm/point_sequence/self_intersection.hpp` | `selfPairs`, `selfLoop`, `selfIntersection` |
| `geometrix/algorithm/polygon_with_holes_as_segment_range.hpp` | `ringSegments`, `holesSegments`, `polygonWithHolesSegments` |
| `geometrix/algorithm/predicates.hpp` | `fastTwoSum`, `fastTwoDiff`, `twoSum`, `twoDiffTail`, `twoDiff`, `splitFloat`, `twoProduct2Presplit`, `twoProductPresplit`, `twoProduct`, `squareTail`, `twoOneDiff`, `twoTwoDiff`, `growLoop`, `growExpansion`, `growLoopZ`, `growExpansionZ`, `expansionSumLoop`, `expansionSum`, `expansionSumZ1`, `growLoopZ2`, `expansionSumZ2`, `takesE`, `advance`, `fastSumLoop`, `fastSumSecond`, `fastExpansionSum`, `fastExpansionSumZ`, `takeNext`, `linearSumLoop`, `linearExpansionSum`, `linearExpansionSumZ`, `scaleLoop`, `scaleExpansion`, `scaleLoopZ`, `scaleExpansionZ`, `compressDown`, `compressUp`, `compress`, `estimateLoop`, `estimate`, `ExactConsts`, `exactInitLoop`, `exactInit`, `absolute`, `orient2dFast`, `orient2dExact`, `orient2dAdaptD`, `orient2dAdapt`, `orient2d`, `sumInto`, `scaleInto`, `negated`, `prodDiff`, `orient3dFast`, `minors12`, `orient3dExact`, `incircleFast`, `lift96`, `incircleExact`, `insphereFast`, `minor24`, `lift1152`, `insphereExact`, `twoOneProduct`, `prodArray`, `tailMinors`, `addUnless`, `addTails`, `addTails2`, `orient3dAdaptD`, `tailTerm`, `orient3dAdapt`, `orient3d`, `twoOneSum`, `twoTwoSum`, `prodSum`, `liftArray`, `circTail`, `circMinors`, `circTwice`, `circThird`, `circTails`, `incircleAdaptD`, `circTerm`, `circDet`, `incircleStages`, `incircleAdapt`, `incircle`, `sphCross`, `sphLift`, `sphComb`, `sphCombSub`, `sphFirst`, `plus`, `sphQuarter`, `sphPermanent`, `sphDet`, `prodTop`, `sphEps`, `sphLiftTail`, `sphCorrection`, `sphFin`, `noTails`, `insphereStages`, `sphDiff`, `sphTail`, `insphereAdapt`, `insphere` |
| `geometrix/algorithm/rotation.hpp` | `makeRotation`, `rotatePointM`, `rotatePoint`, `rotateVector`, `rotatePoints`, `rotateTranslatePoints` |
| `geometrix/algorithm/segment_mid_point.hpp` | `segMidPoint` |
| `geometrix/algorithm/solid_leaf_bsp_tree.hpp` | `splitPoint`, `splitSimplex`, `BspItem`, `sendItem`, `sendItems`, `SolidTree`, `buildSolid`, `makeItems`, `solidBsp`, `pointInSolid`, `SolidTree.indices`, `belowMin`, `closestOf`, `pushChildren`, `closestLoopBsp`, `minDistToSolid`, `atMost`, `atLeast`, `findClosestHit`, `BspHit`, `bspHit`, `bspRayLoop`, `bspRay` |
| `geometrix/algorithm/split_segment.hpp` | `splitSegmentRec`, `splitSegment` |
| `geometrix/algorithm/visible_vertices_mesh_search.hpp` | `SearchItem`, `searchStart`, `reportsVertex`, `searchVisit`, `orderSide`, `nextCone`, `prepareAdjacent`, `visibleSearch` |
| `geometrix/arithmetic/arithmetic.hpp` | `powerC`, `scaleUp`, `convertNum`, `mathBinary` |
| `geometrix/arithmetic/arithmetic_promotion_policy.hpp` | `widen`, `selectTwo`, `selectSequence`, `selectSequences`, `promoteInt`, `promoteDiv`, `demoteInt`, `widenCast`, `IntTy.makeSigned`, `IntTy.makeUnsigned`, `signedCast`, `unsignedCast` |
| `geometrix/arithmetic/detail/determinant.hpp` | `determinant`, `detShape` |
| `geometrix/arithmetic/matrix/trace.hpp` | `traceSum`, `trace` |
| `geometrix/arithmetic/matrix_arithmetic.hpp` | `adjugateAt`, `inverseAt`, `matrixProductAt`, `viewProductAt` |
| `geometrix/arithmetic/tensor_arithmetic.hpp` | `tensShape` |
| `geometrix/arithmetic/vector/bisect.hpp` | `bisectSum`, `bisect`, `bisectNotAntiparallel` |
| `geometrix/arithmetic/vector/is_antiparallel.hpp` | `isAntiparallel` |
| `geometrix/arithmetic/vector/lerp.hpp` | `lerpN` |
| `geometrix/arithmetic/vector/magnitude.hpp` | `normSq`, `magShape`, `magnitudeSqrdUpTo`, `normalize2` |
| `geometrix/arithmetic/vector/normalize.hpp` | `normalizeN`, `normalize2` |
| `geometrix/arithmetic/vector/perp.hpp` | `offsetNormal`, `leftNormal`, `rightNormal`, `perp`, `orientedNormal` |
| `geometrix/arithmetic/vector/slerp.hpp` | `slerpN` |
| `geometrix/numeric/constants.hpp` | `constPi`, `constTwoPi`, `constHalfPi`, `constZero`, `constOne`, `constNegativeOne`, `constTwo`, `constOneHalf`, `constE`, `constSqrt2` |
| `geometrix/numeric/detail/fixed_point.hpp` | `mixGreater`, `mixEq`, `mixAdd`, `mixSub`, `mixMul`, `mixDiv`, `Scale.default`, `numSub`, `numDiv`, `fixConvert`, `fixAssign` |
| `geometrix/numeric/detail/friend_ordered_field_operators.hpp` | `notRes`, `mixLe`, `mixGe`, `numGreater`, `numLess`, `numLe`, `numGe`, `numEq`, `numNe`, `mixNe` |
| `geometrix/numeric/fixed_point.hpp` | `fixFromReal`, `fixFromInt`, `fixToInt`, `fixToReal`, `fixAdd`, `fixSub`, `fixNeg`, `fixInc`, `fixDec`, `fixMul`, `fixDiv`, `fixFmod`, `fixLess`, `fixEq`, `fixLessInt`, `fixAbs`, `fixFn`, `fixLimitMin`, `fixLimitMax`, `fixLimitEpsilon`, `fixLimitRoundError`, `fixLimitZero`, `mixLess`, `mixGreater`, `mixEq`, `mixAdd`, `mixSub`, `mixMul`, `mixDiv`, `Scale.default`, `numSub`, `numDiv`, `fixConvert`, `fixAssign` |
| `geometrix/numeric/fixed_point_traits.hpp` | `Scale`, `scaleUp`, `scaleDown`, `scaleDownReal`, `roundHalfToEven`, `roundTowardZero`, `roundTowardInfinity`, `roundTowardNegInfinity`, `scaleUpReal`, `Scale.default`, `fixConvert` |
| `geometrix/numeric/integral_constant_pi_calculator.hpp` | `piInner`, `piPad`, `piOuter`, `calculatePi` |
| `geometrix/numeric/interval.hpp` | `Interval`, `empty`, `point`, `closed`, `«open»`, `rightOpen`, `leftOpen`, `emptyInf`, `isEmpty`, `expand`, `expandCmp`, `intersectsCmp`, `intersects`, `addNum`, `subNum`, `mulNum`, `divNum`, `addStorage`, `subStorage` |
| `geometrix/numeric/number_comparison_policy.hpp` | `Cmp`, `Cmp.direct`, `Cmp.absolute`, `Cmp.relative`, `fractionEquals`, `Cmp.fraction`, `Cmp.absoluteR` |
| `geometrix/numeric/numeric_traits.hpp` | `ArithTy`, `digits`, `widthLess` |
| `geometrix/numeric/rational_utilities.hpp` | `rationalYOfX`, `rationalXOfY` |
| `geometrix/primitive/axis_aligned_bounding_box.hpp` | `Box`, `Box.intersectsPoint`, `Box.intersectsBox`, `Box.contains`, `Box.corner`, `Box.expand`, `getBounds`, `makeAabbSegment`, `BoxN`, `BoxN.intersectsPoint`, `BoxN.intersectsBox`, `BoxN.contains`, `getBoundsN`, `polygonAabb` |
| `geometrix/primitive/hyperplane_traits.hpp` | `Plane2`, `makeHyperplane` |
| `geometrix/primitive/line.hpp` | `Line2`, `makeLineV`, `makeLine` |
| `geometrix/primitive/oriented_bounding_box.hpp` | `obbCorner`, `Obb`, `Obb.corner` |
| `geometrix/primitive/plane.hpp` | `Plane3`, `makePlaneV`, `makePlane` |
| `geometrix/primitive/point.hpp` | `P2`, `P3` |
| `geometrix/primitive/point_sequence_utilities.hpp` | `boundsStep`, `getBounds`, `boundsStepN`, `areaLoop`, `signedArea`, `polygonArea`, `Moments.step`, `momentLoop`, `centroid`, `nextIndex`, `prevIndex`, `isPointConcave`, `sequencesEqualLoop`, `sequencesEqual`, `polygonsEqualLoop`, `polygonsEqual`, `startLoop`, `polygonOffset` |
| `geometrix/primitive/point_traits.hpp` | `inPlaceCompiles`, `convertAlong` |
| `geometrix/primitive/polygon_with_holes.hpp` | `PolyHoles`, `leftBehind`, `holesCall` |
| `geometrix/primitive/segment.hpp` | `Seg` |
| `geometrix/primitive/vector_point_sequence.hpp` | `ringSegments` |
| `geometrix/space/cartesian_access_traits.hpp` | `getCartesian` |
| `geometrix/space/cartesian_polar_transformation.hpp` | `cartPolarTerm`, `cartPolar`, `frameTransform` |
| `geometrix/space/cartesian_reference_frame.hpp` | `Frame` |
| `geometrix/space/neutral_reference_frame.hpp` | `Frame` |
| `geometrix/space/polar_access_traits.hpp` | `getPolar` |
| `geometrix/space/polar_cartesian_transformation.hpp` | `polarCartTerm`, `polarCart`, `frameTransform` |
| `geometrix/space/polar_reference_frame.hpp` | `Frame` |
| `geometrix/space/reference_frame_transformation.hpp` | `frameTransform` |
| `geometrix/tensor/detail/as_matrix.hpp` | `Placed`, `Placed.intersects`, `Placed.columnIntersects`, `LayoutState`, `compositionMaxRows`, `defaultState`, `addRowItem`, `addNewItem`, `addFirstItem`, `processState`, `processSchema`, `composeSchema`, `compositeGet`, `asMatrixGet`, `View`, `View.rows`, `View.cols`, `viewAt`, `viewWritable`, `rowAt`, `colAt`, `rowMemberAt`, `rowWritable` |
| `geometrix/tensor/detail/matrix_mxn.hpp` | `assignCompiles` |
| `geometrix/tensor/detail/numeric_sequence_n.hpp` | `compoundCount`, `CompoundOp.run`, `compoundElements`, `scaleElements`, `divideElements`, `inPlaceCompiles`, `writeElements`, `elementAt`, `setElementAt`, `vectorIndex` |
| `geometrix/tensor/detail/point_n.hpp` | `inPlaceCompiles` |
| `geometrix/tensor/detail/preprocessed/as_matrix.hpp` | `Placed`, `Placed.intersects`, `Placed.columnIntersects`, `LayoutState`, `compositionMaxRows`, `defaultState`, `addRowItem`, `addNewItem`, `addFirstItem`, `processState`, `processSchema`, `composeSchema`, `compositeGet`, `asMatrixGet` |
| `geometrix/tensor/detail/vector_n.hpp` | `compoundAssign`, `compoundChain`, `assignCompiles`, `inPlaceCompiles` |
| `geometrix/tensor/homogeneous_adaptor.hpp` | `homogeneousShape`, `homogeneousCompiles`, `positionalCoord`, `vectoralCoord`, `homogeneousGet`, `asPositional`, `asVectoral` |
| `geometrix/tensor/identity_matrix.hpp` | `identityGet`, `identityElements` |
| `geometrix/tensor/index_operator_matrix_access_policy.hpp` | `viewAt` |
| `geometrix/tensor/index_operator_vector_access_policy.hpp` | `vectorIndex` |
| `geometrix/tensor/matrix.hpp` | `Mat2` |
| `geometrix/tensor/matrix_column.hpp` | `colAt` |
| `geometrix/tensor/matrix_minor_adaptor.hpp` | `offsetIndex`, `matrixMinor`, `View.rows`, `View.cols`, `viewAt`, `viewWritable`, `rowAt`, `colAt`, `rowMemberAt` |
| `geometrix/tensor/matrix_row.hpp` | `rowAt`, `rowMemberAt`, `rowWritable` |
| `geometrix/tensor/matrix_traits.hpp` | `detShape`, `trace` |
| `geometrix/tensor/numeric_sequence_compare.hpp` | `seqEquals` |
| `geometrix/tensor/tensor_access_policy.hpp` | `viewGet`, `viewSet`, `rowGet`, `colGet`, `rowSet` |
| `geometrix/tensor/vector.hpp` | `P2`, `P3` |
| `geometrix/tensor/vector_matrix_adaptors.hpp` | `tensShape`, `View.rows`, `View.cols`, `viewAt`, `rowAt`, `colAt`, `rowMemberAt` |
| `geometrix/tensor/vector_traits.hpp` | `inPlaceCompiles` |
| `geometrix/utility/assignment_policy.hpp` | `writeElements` |
| `geometrix/utility/floating_point_comparison.hpp` | `absoluteValue`, `equalsZero`, `equalsWithinTolerance` |
| `geometrix/utility/golden_ratio_color_generator.hpp` | `hsvSwitch`, `hsv2rgb`, `generateColors` |
| `geometrix/utility/integer_sequence.hpp` | `shiftedPack`, `repeatPack`, `parityExtra`, `makePack`, `makeDepth`, `makeIntegerSequence`, `indexSequenceFor` |
| `geometrix/utility/memoize.hpp` | `memoCall` |
| `geometrix/utility/point_angle_compare.hpp` | `pointAngleCompare` |
| `geometrix/utility/private_allocator.hpp` | `allocMaxSize`, `allocBytes`, `allocEqual`, `AllocStep` |
| `geometrix/utility/random_generator.hpp` | `randomIndex`, `randomElement`, `IndexGenerator`, `makeGenerator`, `copyGenerator`, `callGenerator`, `randomInteger`, `sequenceGenerator` |
| `geometrix/utility/scope_timer.hpp` | `RunningStat`, `RunningStat.fresh`, `RunningStat.clear`, `RunningStat.push`, `RunningStat.counts`, `RunningStat.mean`, `RunningStat.variance`, `RunningStat.standardDeviation`, `RunningStat.total`, `callMapPush`, `endScope` |
| `geometrix/utility/utilities.hpp` | `dropTurns`, `normalizeAngle02pi`, `normalizeAnglePi`, `setInsert`, `rangeBefore`, `rangeEqual`, `rangeAfter`, `differenceStep`, `differenceLoop`, `collinearSegmentDifference`, `unionStep`, `unionLoop`, `collinearSegmentUnion`, `curvatureSign`, `lexN`, `dimensionCompareN`, `getSlope`, `yOfX`, `xOfY`, `xOfYInt`, `isCollinear`, `betweenCore`, `isCollinearPointBetween`, `isBetween`, `isVectorBetween`, `lexCompare`, `reverseLexCompare`, `lexSegmentCompare`, `segmentIntervalCompare`, `dimensionCompare`, `coordinateLessCompare`, `minCopy`, `maxCopy`, `clamp`, `signOf`, `lexVariadic`, `pairFirst`, `pairSecond` |
| `geometrix/utility/vector_angle_compare.hpp` | `vectorAngleCompare`, `pseudoAngle` |

## What is not modelled

Headers of which no function is modelled (traits, concepts, macros and adaptors among them are erased, the rest is out of scope so far). In the headers above, functions not named in the comments of the model are not modelled either.

* `geometrix`: geometric_traits, tags, version
* `geometrix/algebra`: algebra, binary_functions, cross_product, terminals, type_traits, unary_functions
* `geometrix/algebra/functions`: reciprocal, trace
* `geometrix/algorithm`: convex_hull_divide_and_conquer, euclidean_distance, glu_mesh_factory, node_bsp_tree_2d_fwd, point_in_circumcircle, segment_intersection, solid_leaf_bsp_tree_fwd, trapezoidal_decomposition, triangle_complex
* `geometrix/algorithm/intersection`: aabb_aabb_intersection, line_aabb_intersection, moving_sphere_polygon_intersection, polyline_polygon_intersection, split_self_intersections
* `geometrix/arithmetic`: boost_units_arithmetic, scalar_arithmetic, tensor_function, vector
* `geometrix/arithmetic/vector`: normalize_at_index, vector_arithmetic
* `geometrix/numeric`: boost_math_numerics, boost_units_quantity, boost_units_quantity_fixed_point, function_traits
* `geometrix/numeric/detail`: arithmetic_operators
* `geometrix/primitive`: array_point_sequence, capsule, capsule_traits, deque_point_sequence, line_traits, plane_traits, point_forward, point_sequence_traits, polygon, polyline, rectangle, segment_traits, sphere, sphere_traits, triangle
* `geometrix/space`: affine_space, affine_space_traits, coordinate_basis, coordinate_basis_traits, coordinate_sequence, coordinate_traits, dimension, reference_frame_adaptor, reference_frame_traits
* `geometrix/tensor`: composite_matrix, fusion_matrix, fusion_matrix_access_policy, fusion_tensor_sequence_adaptor, fusion_vector, fusion_vector_access_policy, is_null, matrix_forward, numeric_sequence, scalar, scalar_access_policy, sequence, tensor_traits, tuple_vector_access_policy, vector_forward
* `geometrix/tensor/detail`: matrix, matrix_base, matrix_m, matrix_traits, numeric_sequence_base, numeric_sequence_generator, numeric_sequence_headers, numeric_sequence_limits, point_base, point_generator, tensor_access_defines, vector_base, vector_generator
* `geometrix/tensor/detail/preprocessed`: matrix
* `geometrix/test`: test
* `geometrix/utility`: array, as, assert, boost_geometry_adapters, compile, concept, construction_policy, generative_category, ignore_unused_warnings, member_function_fusion_adaptor, parameter, preprocessor, static_assert, tagged_quantity, type_traits, unique_ptr
* `geometrix/utility/member_function_fusion_adaptor`: adapt_member_function, at_impl, begin_impl, category_of_impl, end_impl, extension, is_sequence_impl, is_view_impl, member_function_iterator, member_function_proxy, size_impl, value_at_impl

## Theorems with fewer axioms

* `propext`, `Quot.sound`: `C02_direct_strictWeakOrder`, `C03_dimension_compare`, `C03_lex_iff`, `C03_lex_strictWeakOrder`, `C03_lex_total`, `C03_reverse_lex_iff`, `C03_reverse_lex_strictWeakOrder`, `C03_reverse_lex_total`, `C04_compares_starts`, `C04_interval_compare_iff`, `C04_strictWeakOrder_partial`, `C05_coincident`, `C05_swap`, `C05_translate`, `C105_order_partial`, `C107_first_point_refuted`, `C108_horizontal`, `C108_vertical_refuted`, `C112_swap`, `C119_empty`, `C124_wide_refuted`, `C127_variables`, `C129_negative`, `C130_consecutive`, `C130_copy_refuted`, `C130_index_partial`, `C130_integer`, `C130_selector_partial`, `C134_large_refuted`, `C135_compound`, `C135_value`, `C136_policy`, `C140_casts_inverse`, `C141_lexicographical`, `C142_size`, `C146_overflow_refuted`, `C147_empty`, `C147_no_file`, `C17_two_points_refuted`, `C21_polyline_short`, `C27_polygon_subsequence`, `C27_polyline_subsequence`, `C30_sequences`, `C32_empty`, `C32_single_refuted`, `C34_new_grid`, `C36_stoppable`, `C38_short`, `C39_from_real`, `C40_div_zero`, `C40_expand`, `C40_expand_cmp_partial`, `C40_infinite`, `C40_intersects_cmp`, `C40_is_empty`, `C47_short`, `C49_difference_point`, `C55_identify_adjacent`, `C55_identify_collinear_partial`, `C60_line_refuted`, `C60_preconditions`, `C62_concave_iff`, `C62_convex`, `C62_cyclic`, `C62_out_of_range`, `C69_parallel`, `C75_short`, `C76_single`, `C81_empty`, `C83_flat`, `C92_single_refuted`, `C93_preconditions`, `C98_split_empty`
* `propext`: `C123_rectangular_refuted`, `C123_tensor_refuted`, `C133_fresh`, `C134_set`, `C136_coherent_partial`, `C136_compiles`, `C138_epsilon_refuted`, `C139_two_partial`, `C140_product_refuted`, `C143_member_refuted`, `C143_minor_set`, `C143_product_vector_refuted`, `C143_row_set_refuted`, `C39_narrow_argument_refuted`, `C40_infinite_cmp_refuted`, `C40_intersects_partial`, `C88_overlap`
* no axioms: `C108_integer_refuted`, `C124_overlap_refuted`, `C127_emptied_refuted`, `C141_pairs`, `C143_excluded_refuted`, `C143_row_vector_refuted`, `C147_sum_refuted`, `C46_key_refuted`
